import Verif.StateSpec
import Verif.Real
import Mathlib.Analysis.SpecialFunctions.Trigonometric.Deriv
import Mathlib.Tactic.Positivity
import Mathlib.Tactic.LinearCombination

/-!
# Properties C26 to C31: rigid bodies and system states
-/

namespace Scs

open SysState

/-! ## C26 -/

/-- **C26.** The two frame conversions of a body are inverse to each other. -/
theorem C26_conversions_inverse (b : Body ℝ) (x y : ℝ) :
    b.worldToLocal (b.localToWorld x y).1 (b.localToWorld x y).2 = (x, y) ∧
    b.localToWorld (b.worldToLocal x y).1 (b.worldToLocal x y).2 = (x, y) := by
  have h := Real.sin_sq_add_cos_sq b.theta
  constructor
  · refine Prod.ext ?_ ?_ <;> simp only [Body.worldToLocal, Body.localToWorld, Fp.sin, Fp.cos]
    · linear_combination x * h
    · linear_combination y * h
  · refine Prod.ext ?_ ?_ <;> simp only [Body.worldToLocal, Body.localToWorld, Fp.sin, Fp.cos]
    · linear_combination (x - b.p_x) * h
    · linear_combination (y - b.p_y) * h

/-- **C26.** `localToWorld` preserves distances. -/
theorem C26_localToWorld_isometry (b : Body ℝ) (x y x' y' : ℝ) :
    ((b.localToWorld x y).1 - (b.localToWorld x' y').1) ^ 2
      + ((b.localToWorld x y).2 - (b.localToWorld x' y').2) ^ 2
      = (x - x') ^ 2 + (y - y') ^ 2 := by
  have h := Real.sin_sq_add_cos_sq b.theta
  simp only [Body.localToWorld, Fp.sin, Fp.cos]
  linear_combination ((x - x') ^ 2 + (y - y') ^ 2) * h

/-- **C26.** `localToWorld` maps the local origin to the position of the body, the local x axis to
the direction `theta` and the local y axis to the direction a quarter turn further on. -/
theorem C26_localToWorld_frame (b : Body ℝ) :
    b.localToWorld 0 0 = (b.p_x, b.p_y) ∧
    b.localToWorld 1 0 = (b.p_x + Real.cos b.theta, b.p_y + Real.sin b.theta) ∧
    b.localToWorld 0 1 = (b.p_x + Real.cos (b.theta + Real.pi / 2),
      b.p_y + Real.sin (b.theta + Real.pi / 2)) := by
  rw [Real.cos_add_pi_div_two, Real.sin_add_pi_div_two]
  refine ⟨?_, ?_, ?_⟩ <;> refine Prod.ext ?_ ?_ <;>
    simp only [Body.localToWorld, Fp.sin, Fp.cos] <;> ring

/-- **C26.** If a state holds the pose of a body, `SystemState::localToWorld` gives the same point
as `RigidBody::localToWorld`. Any arithmetic. -/
theorem C26_state_agrees {α : Type} [Zero α] [Add α] [Mul α] [Sub α] [Neg α] [Fp α]
    (s : SysState α) (i : Int) (b : Body α) (hx : s.rd .p_x i = .ok b.p_x)
    (hy : s.rd .p_y i = .ok b.p_y) (ht : s.rd .theta i = .ok b.theta) (x y : α) :
    s.localToWorld x y i = .ok (b.localToWorld x y) := by
  simp only [SysState.localToWorld, hx, hy, ht, ok_bind]
  rfl

/-- A state with two bodies. -/
example : ∃ (s : SysState ℝ) (b : Body ℝ), s.Reach ∧ s.rd .p_x 1 = .ok b.p_x ∧
    s.rd .p_y 1 = .ok b.p_y ∧ s.rd .theta 1 = .ok b.theta ∧ b.theta = 3 := by
  obtain ⟨s, hr, hs⟩ := reach_shows (α := ℝ) 2 0 (by decide)
    (fun f i => if f = .theta then 3 else i) (fun _ _ => 0)
  exact ⟨s, ⟨1, 1, 0, 0, 3, 0, 1, 1, 1⟩, hr, by simpa using hs.fld .p_x 1 (by decide),
    by simpa using hs.fld .p_y 1 (by decide), by simpa using hs.fld .theta 1 (by decide), rfl⟩

/-! ## C27 -/

/-- **C27.** Let a body move along `px`, `py`, `th`, and let a state hold the pose of the body at
time `t` and as velocities the time derivatives of the three functions. Then `velocityAtPoint`
returns the time derivative of the world position of the material point `(x, y)`. -/
theorem C27_velocityAtPoint (s : SysState ℝ) (i : Int) (px py th : ℝ → ℝ) (t vx vy w : ℝ)
    (b : ℝ → Body ℝ) (hbx : ∀ u, (b u).p_x = px u) (hby : ∀ u, (b u).p_y = py u)
    (hbt : ∀ u, (b u).theta = th u)
    (dx : HasDerivAt px vx t) (dy : HasDerivAt py vy t) (dt : HasDerivAt th w t)
    (hx : s.rd .p_x i = .ok (px t)) (hy : s.rd .p_y i = .ok (py t))
    (ht : s.rd .theta i = .ok (th t)) (hvx : s.rd .v_x i = .ok vx) (hvy : s.rd .v_y i = .ok vy)
    (hw : s.rd .v_theta i = .ok w) (x y : ℝ) :
    ∃ v, s.velocityAtPoint x y i = .ok v ∧
      HasDerivAt (fun u => ((b u).localToWorld x y).1) v.1 t ∧
      HasDerivAt (fun u => ((b u).localToWorld x y).2) v.2 t := by
  refine ⟨(vx + -w * (Real.sin (th t) * x + Real.cos (th t) * y + py t - py t),
    vy + w * (Real.cos (th t) * x - Real.sin (th t) * y + px t - px t)), ?_, ?_, ?_⟩
  · simp only [SysState.velocityAtPoint, SysState.localToWorld, hx, hy, ht, hvx, hvy, hw, ok_bind]
    rfl
  · simp only [Body.localToWorld, Fp.sin, Fp.cos, hbx, hbt]
    have := (((dt.cos).mul_const x).sub ((dt.sin).mul_const y)).add dx
    refine this.congr_deriv ?_
    ring
  · simp only [Body.localToWorld, Fp.sin, Fp.cos, hby, hbt]
    have := (((dt.sin).mul_const x).add ((dt.cos).mul_const y)).add dy
    refine this.congr_deriv ?_
    ring

/-- A body that turns and moves. -/
example : ∃ (s : SysState ℝ) (px py th : ℝ → ℝ), s.Reach ∧ HasDerivAt px 2 1 ∧ HasDerivAt py 0 1 ∧
    HasDerivAt th 3 1 ∧ s.rd .p_x 0 = .ok (px 1) ∧ s.rd .p_y 0 = .ok (py 1) ∧
    s.rd .theta 0 = .ok (th 1) ∧ s.rd .v_x 0 = .ok 2 ∧ s.rd .v_y 0 = .ok 0 ∧
    s.rd .v_theta 0 = .ok 3 := by
  obtain ⟨s, hr, hs⟩ := reach_shows (α := ℝ) 1 0 (by decide)
    (fun f _ => match f with | .p_x => 2 | .theta => 3 | .v_x => 2 | .v_theta => 3 | _ => 0)
    (fun _ _ => 0)
  refine ⟨s, fun u => 2 * u, fun _ => 0, fun u => 3 * u, hr, ?_, hasDerivAt_const _ _, ?_, ?_, ?_,
    ?_, ?_, ?_, ?_⟩
  · simpa using (hasDerivAt_id (1 : ℝ)).const_mul 2
  · simpa using (hasDerivAt_id (1 : ℝ)).const_mul 3
  · simpa using hs.fld .p_x 0 (by decide)
  · simpa using hs.fld .p_y 0 (by decide)
  · simpa using hs.fld .theta 0 (by decide)
  · simpa using hs.fld .v_x 0 (by decide)
  · simpa using hs.fld .v_y 0 (by decide)
  · simpa using hs.fld .v_theta 0 (by decide)

/-! ## C28 -/

/-- The contents after a force `(fx, fy)` at the world point `w` of body `i`. -/
def forced (g : Fld → Nat → ℝ) (i : Nat) (w : ℝ × ℝ) (fx fy : ℝ) (f : Fld) (j : Nat) : ℝ :=
  if j = i then
    match f with
    | .f_x => g .f_x i + fx
    | .f_y => g .f_y i + fy
    | .t => g .t i + ((w.1 - g .p_x i) * fy - (w.2 - g .p_y i) * fx)
    | f => g f i
  else g f j

/-- **C28.** `applyForce` on a body of the state adds the force to the force of the body and the
moment of the force about the centre of mass to the torque of the body, and changes nothing else. -/
theorem C28_applyForce (s : SysState ℝ) (hr : s.Reach) {n c : Nat} {g : Fld → Nat → ℝ}
    {r : CFld → Nat → ℝ} (hs : s.Shows n c g r) (i : Nat) (hi : i < n) (x y fx fy : ℝ) (w : ℝ × ℝ)
    (hw : s.localToWorld x y i = .ok w) :
    ∃ s', s.applyForce x y fx fy i = .ok s' ∧ s'.Shows n c (forced g i w fx fy) r ∧
      s'.dt = s.dt ∧ s'.indexMap = s.indexMap ∧ s'.Reach := by
  have hn := hs.bodies
  have ho : s.Ok := hr.wf.ok (i := i) (by omega)
  have hi' : i < s.n := by omega
  obtain ⟨s1, e1, o1, n1, c1, v1, r1⟩ := put_wr ho .f_x hi' (s.val .f_x i + fx)
  obtain ⟨s2, e2, o2, n2, c2, v2, r2⟩ := put_wr o1 .f_y (i := i) (by omega) (s1.val .f_y i + fy)
  obtain ⟨s3, e3, o3, n3, c3, v3, r3⟩ := put_wr o2 .t (i := i) (by omega)
    (s2.val .t i + ((w.2 - s2.val .p_y i) * -fx + (w.1 - s2.val .p_x i) * fy))
  have R1 : s1.Reach := .wr hr _ _ _ e1
  have R2 : s2.Reach := .wr R1 _ _ _ e2
  have R3 : s3.Reach := .wr R2 _ _ _ e3
  have D1 : s1.dt = s.dt ∧ s1.indexMap = s.indexMap := by
    rw [ho.wr .f_x hi'] at e1; cases e1; exact ⟨rfl, rfl⟩
  have D2 : s2.dt = s1.dt ∧ s2.indexMap = s1.indexMap := by
    rw [o1.wr .f_y (by omega)] at e2; cases e2; exact ⟨rfl, rfl⟩
  have D3 : s3.dt = s2.dt ∧ s3.indexMap = s2.indexMap := by
    rw [o2.wr .t (by omega)] at e3; cases e3; exact ⟨rfl, rfl⟩
  refine ⟨s3, ?_, ?_, by rw [D3.1, D2.1, D1.1], by rw [D3.2, D2.2, D1.2], R3⟩
  · simp only [SysState.applyForce, hw, ok_bind, SysState.addTo]
    rw [ho.rd .f_x hi', ok_bind, e1, ok_bind, o1.rd .f_y (by omega), ok_bind, e2, ok_bind,
      o2.rd .p_y (by omega), ok_bind, o2.rd .p_x (by omega), ok_bind, o2.rd .t (by omega), ok_bind]
    exact e3
  · have h3 := R3.wf.shows
    have hc := hs.rows
    refine ⟨by omega, by omega, fun f j hj => ?_, fun f j hj => ?_⟩
    · rw [h3.fld f j (by omega), v3, v2, v1]
      have eg : ∀ f, s.val f j = g f j := fun f => hs.val_eq hr.wf f hj
      have eg' : ∀ f, s.val f i = g f i := fun f => hs.val_eq hr.wf f hi
      congr 1
      simp only [v2, v1, forced, eg, eg']
      by_cases hj : j = i
      · subst hj
        cases f <;> simp
        ring
      · simp [hj]
    · rw [h3.rf f j (by omega), r3, r2, r1, hs.rval_eq hr.wf f hj]

/-- **C28.** With an index that names no body of the state, `applyForce` is undefined behaviour. -/
theorem C28_applyForce_outside (s : SysState ℝ) (hr : s.Reach) (i : Int)
    (hi : i < 0 ∨ (s.n : Int) ≤ i) (x y fx fy : ℝ) :
    ∃ e, e.IsUB ∧ s.applyForce x y fx fy i = .error e := by
  obtain ⟨e, he, hk⟩ := hr.tight.rd_outside .p_x i hi
  exact ⟨e, he, by simp only [SysState.applyForce, SysState.localToWorld, hk, error_bind]⟩

/-- Two bodies and one row of constraints. -/
example : ∃ (s : SysState ℝ) (g : Fld → Nat → ℝ) (r : CFld → Nat → ℝ) (w : ℝ × ℝ), s.Reach ∧
    s.Shows 2 1 g r ∧ s.localToWorld 1 2 (1 : Nat) = .ok w ∧ g .p_x 1 = 5 := by
  obtain ⟨s, hr, hs⟩ := reach_shows (α := ℝ) 2 1 (by decide)
    (fun f _ => match f with | .p_x => 5 | .theta => 3 | _ => 1) (fun _ _ => 7)
  exact ⟨s, _, _, _, hr, hs, C26_state_agrees s _ ⟨5, 1, 0, 0, 3, 0, 0, 0, 1⟩ (hs.fld .p_x 1 (by decide))
    (hs.fld .p_y 1 (by decide)) (hs.fld .theta 1 (by decide)) 1 2, rfl⟩

/-! ## C29 -/

/-- **C29.** After `resize(n, c)` the state has at least `n` bodies and `c` constraint rows, every
element of every array for them can be read and written, and the index map has room for every
row. -/
theorem C29_resize {α : Type} [Zero α] (s : SysState α) (hr : s.Reach) (n c : Nat) :
    n ≤ (s.resize n c).n ∧ c ≤ (s.resize n c).nc ∧
    (∀ f (i : Nat), i < n → (∃ v, (s.resize n c).rd f i = .ok v) ∧
      ∀ v, ∃ s', (s.resize n c).wr f i v = .ok s') ∧
    (∀ f (i : Nat), i < 2 * c → (∃ v, (s.resize n c).rrd f i = .ok v) ∧
      ∀ v, ∃ s', (s.resize n c).rwr f i v = .ok s') ∧
    (∀ i : Nat, i < c → ∀ k, ∃ s', (s.resize n c).imSet i k = .ok s') := by
  obtain ⟨h1, h2⟩ := resize_le s n c
  have hw : (s.resize n c).Wf := hr.wf.resize n c
  refine ⟨h1, h2, fun f i hi => ?_, fun f i hi => ?_, fun i hi k => ?_⟩
  · have ho := hw.ok (i := i) (by omega)
    exact ⟨⟨_, ho.rd f (by omega)⟩, fun v => ⟨_, ho.wr f (by omega) v⟩⟩
  · have ho := hw.okc (i := i) (by omega)
    exact ⟨⟨_, ho.rrd f (by omega)⟩, fun v => ⟨_, ho.rwr f (by omega) v⟩⟩
  · have ho := hw.okc (i := i) (by omega)
    obtain ⟨b, hb, hz⟩ := ho.im
    have h0 : (0 : Int) ≤ i := by omega
    have h1 : i < b.size := by omega
    exact ⟨_, by simp only [SysState.imSet, pSet, hb, deref, ok_bind, h0, if_true, Buf.wr,
      Int.toNat_natCast, h1]; rfl⟩

/-- **C29.** A resize that does not have to grow either dimension changes nothing. -/
theorem C29_contents_survive {α : Type} (s : SysState α) (n c : Nat) (hn : n ≤ s.n) (hc : c ≤ s.nc) :
    s.resize n c = s := resize_of_ge s hn hc

/-- **C29.** In every reachable state, exactly the elements below the sizes can be accessed. -/
theorem C29_bounds {α : Type} [Zero α] (s : SysState α) (hr : s.Reach) (f : Fld) (i : Int) :
    (∃ v, s.rd f i = .ok v) ↔ 0 ≤ i ∧ i < s.n := by
  constructor
  · rintro ⟨v, hv⟩
    by_contra h
    obtain ⟨e, _, he⟩ := hr.tight.rd_outside f i (by omega)
    rw [he] at hv
    cases hv
  · rintro ⟨h0, h1⟩
    obtain ⟨k, rfl⟩ := Int.eq_ofNat_of_zero_le h0
    exact ⟨_, (hr.wf.ok (i := k) (by omega)).rd f (by omega)⟩

/-- A call of `resize` or `destroy`. -/
inductive SizeOp where
  | resize (n c : Nat)
  | destroy

/-- The effect of a sequence of calls. -/
def SizeOp.runAll {α : Type} (s : SysState α) : List SizeOp → SysState α
  | [] => s
  | .resize n c :: l => SizeOp.runAll (s.resize n c) l
  | .destroy :: l => SizeOp.runAll s.destroy l

/-- **C29 (partial).** `destroy` releases every allocation the state has ever made, *if every resize
asked for at least one body and at least one constraint row.* Missing: resizes with one size zero,
for which the claim is false (`C29_no_rows_leaks`, `C29_no_bodies_leaks`). -/
theorem C29_destroy_releases_partial {α : Type} [Zero α] (j : Nat → Nat → α) (k : Nat → Nat → Nat)
    (l : List SizeOp) (hl : ∀ n c, SizeOp.resize n c ∈ l → 0 < n ∧ 0 < c) :
    (SizeOp.runAll (SysState.mk0 j k) l).destroy.frees
      = (SizeOp.runAll (SysState.mk0 j k) l).destroy.allocs := by
  have main : ∀ (l : List SizeOp) (s : SysState α), s.Wf → (s.n = 0 ∧ s.nc = 0 ∧ s.frees = s.allocs) ∨
      (0 < s.n ∧ 0 < s.nc ∧ s.frees + 17 = s.allocs) →
      (∀ n c, SizeOp.resize n c ∈ l → 0 < n ∧ 0 < c) →
      (SizeOp.runAll s l).destroy.frees = (SizeOp.runAll s l).destroy.allocs := by
    intro l
    induction l with
    | nil =>
      intro s hw hs _
      simp only [SizeOp.runAll]
      exact destroy_balanced hw hs
    | cons op l ih =>
      intro s hw hs hl
      cases op with
      | resize n c =>
        simp only [SizeOp.runAll]
        obtain ⟨hn, hc⟩ := hl n c (by simp)
        refine ih _ (hw.resize n c) ?_ (fun n c h => hl n c (by simp [h]))
        by_cases hh : n ≤ s.n ∧ c ≤ s.nc
        · rw [resize_of_ge s hh.1 hh.2]; exact hs
        · rw [resize_of_not s hh]
          refine Or.inr ⟨hn, hc, ?_⟩
          have := destroy_balanced hw hs
          rw [newAll_allocs, newAll_frees]
          show s.destroy.frees + 17 = s.destroy.allocs + 17
          omega
      | destroy =>
        simp only [SizeOp.runAll]
        exact ih _ (wf_destroy s) (Or.inl ⟨rfl, rfl, destroy_balanced hw hs⟩)
          (fun n c h => hl n c (by simp [h]))
  exact main l _ (wf_mk0 j k) (Or.inl ⟨rfl, rfl, rfl⟩) hl

example : ∀ n c, SizeOp.resize n c ∈ [.resize 2 1, .destroy, .resize 3 4, .resize 5 1] → 0 < n ∧ 0 < c := by
  intro n c h
  simp only [List.mem_cons, SizeOp.resize.injEq, reduceCtorEq, List.not_mem_nil] at h
  rcases h with h | h | h | h | h
  all_goals first | exact h.elim | (rw [h.1, h.2]; decide)

/-- **C29 is violated.** A state that is sized for bodies without constraint rows, as for every
system without constraints, keeps four allocations after `destroy`. -/
theorem C29_no_rows_leaks {α : Type} [Zero α] (j : Nat → Nat → α) (k : Nat → Nat → Nat) (n : Nat)
    (hn : 0 < n) :
    ((SysState.mk0 j k).resize n 0).destroy.frees + 4
      = ((SysState.mk0 j k).resize n 0).destroy.allocs := by
  rw [resize_of_not _ (by simp only [SysState.mk0]; omega), destroy_allocs, newAll_allocs,
    (newAll_ok _).destroy_frees]
  simp [hn, destroy, SysState.mk0]

/-- **C29 is violated.** A state that is sized for rows without bodies keeps thirteen. -/
theorem C29_no_bodies_leaks {α : Type} [Zero α] (j : Nat → Nat → α) (k : Nat → Nat → Nat) (c : Nat)
    (hc : 0 < c) :
    ((SysState.mk0 j k).resize 0 c).destroy.frees + 13
      = ((SysState.mk0 j k).resize 0 c).destroy.allocs := by
  rw [resize_of_not _ (by simp only [SysState.mk0]; omega), destroy_allocs, newAll_allocs,
    (newAll_ok _).destroy_frees]
  simp [hc, destroy, SysState.mk0]

/-! ## C30 -/

/-- **C30 (partial).** `copy` makes every array of the destination equal to the array of the source
without touching memory out of bounds, *if the source has a body and the destination is not larger
than the source in one dimension while at least as large in the other*. Missing: larger
destinations and sources without bodies, for which the claim is false
(`C30_larger_destination`, `C30_no_bodies`). -/
theorem C30_copy_partial {α : Type} [Zero α] (d s : SysState α) (hd : d.Reach) (hs : s.Reach)
    (h0 : 0 < s.n)
    (hf : (d.n = s.n ∧ d.nc = s.nc) ∨ d.n < s.n ∨ d.nc < s.nc) :
    ∃ d', d.copy s = .ok d' ∧ d'.n = s.n ∧ d'.nc = s.nc ∧
      (∀ f (i : Int), d'.rd f i = s.rd f i) ∧ (∀ f (i : Int), d'.rrd f i = s.rrd f i) ∧
      (∀ i : Int, d'.imRd i = s.imRd i) ∧ d'.dt = d.dt := by
  have hfit : d.Fits s := by
    rcases hf with h | h
    · exact Or.inl h
    · exact Or.inr (by omega)
  obtain ⟨h1, h2⟩ := hfit.resize
  have ho : (d.resize s.n s.nc).Ok := hd.wf.resize _ _ (Or.inl (by omega))
  have hso : s.Ok := hs.wf (Or.inl h0)
  refine ⟨_, copy_ok ho hso h1 h2 (by omega), h1, h2, fun f i => ?_, fun f i => ?_, fun i => ?_, ?_⟩
  · obtain ⟨b, hb, hz⟩ := ho.fld f
    obtain ⟨b', hb', hz'⟩ := hso.fld f
    simp only [SysState.rd, pAt, SysState.copied, hb, hb', Option.map_some, deref, ok_bind,
      Option.getD_some, Buf.rd, hz, hz', h1]
    by_cases hi : 0 ≤ i <;> by_cases hj : i.toNat < s.n <;> simp [hi, hj]
  · obtain ⟨b, hb, hz⟩ := ho.rf f
    obtain ⟨b', hb', hz'⟩ := hso.rf f
    simp only [SysState.rrd, pAt, SysState.copied, hb, hb', Option.map_some, deref, ok_bind,
      Option.getD_some, Buf.rd, hz, hz', h2]
    by_cases hi : 0 ≤ i <;> by_cases hj : i.toNat < s.nc * 2 <;> simp [hi, hj]
  · obtain ⟨b, hb, hz⟩ := ho.im
    obtain ⟨b', hb', hz'⟩ := hso.im
    simp only [SysState.imRd, pAt, SysState.copied, hb, hb', Option.map_some, deref, ok_bind,
      Option.getD_some, Buf.rd, hz, hz', h2]
    by_cases hi : 0 ≤ i <;> by_cases hj : i.toNat < s.nc <;> simp [hi, hj]
  · show (d.resize s.n s.nc).dt = d.dt
    by_cases hh : s.n ≤ d.n ∧ s.nc ≤ d.nc
    · rw [resize_of_ge d hh.1 hh.2]
    · rw [resize_of_not d hh, newAll_dt]
      exact destroy_dt d

/-- A fresh destination and a source with two bodies. -/
example : ∃ d s : SysState ℝ, d.Reach ∧ s.Reach ∧ 0 < s.n ∧
    ((d.n = s.n ∧ d.nc = s.nc) ∨ d.n < s.n ∨ d.nc < s.nc) := by
  obtain ⟨s, hr, hs⟩ := reach_shows (α := ℝ) 2 1 (by decide) (fun _ _ => 1) (fun _ _ => 7)
  have := hs.bodies
  exact ⟨_, s, .fresh (fun _ _ => 0) (fun _ _ => 0), hr, by omega, by
    simp only [SysState.mk0]; omega⟩

/-- **C30 is violated.** Copying a state with at least one body into a state that is larger in one
dimension and not smaller in the other reads beyond the end of the source arrays. -/
theorem C30_larger_destination {α : Type} [Zero α] (d s : SysState α) (hd : d.Reach) (hs : s.Reach)
    (h0 : 0 < s.n) (hn : s.n ≤ d.n) (hc : s.nc ≤ d.nc) (hne : s.n < d.n ∨ s.nc < d.nc) :
    d.copy s = .error .oob :=
  copy_larger hd.wf hs.wf h0 (by rintro (h | h) <;> omega)

/-- Two bodies into three. -/
example : ∃ d s : SysState ℝ, d.Reach ∧ s.Reach ∧ 0 < s.n ∧ s.n ≤ d.n ∧ s.nc ≤ d.nc ∧
    (s.n < d.n ∨ s.nc < d.nc) := by
  obtain ⟨s, hr, hs⟩ := reach_shows (α := ℝ) 2 1 (by decide) (fun _ _ => 1) (fun _ _ => 7)
  obtain ⟨d, hr', hd⟩ := reach_shows (α := ℝ) 3 1 (by decide) (fun _ _ => 1) (fun _ _ => 7)
  have := hs.bodies
  have := hd.bodies
  have := hs.rows
  have := hd.rows
  exact ⟨d, s, hr', hr, by omega⟩

/-- **C30 is violated.** Copying a state without bodies copies nothing: a destination that has
enough constraint rows keeps its own reactions. -/
theorem C30_no_bodies {α : Type} [Zero α] (d s : SysState α) (h0 : s.n = 0) (hc : s.nc ≤ d.nc) :
    d.copy s = .ok d := by
  rw [SysState.copy]
  simp only [h0, if_true]
  rw [resize_of_ge d (by omega) hc]
  rfl

/-- A concrete case in which the reactions differ after the copy. -/
theorem C30_no_bodies_case : ∃ d s : SysState ℝ, d.Reach ∧ s.Reach ∧ d.n = s.n ∧ d.nc = s.nc ∧
    ∃ d', d.copy s = .ok d' ∧ d'.rrd .r_x 0 ≠ s.rrd .r_x 0 := by
  obtain ⟨s, hr, hs⟩ := reach_shows (α := ℝ) 0 1 (by decide) (fun _ _ => 1) (fun _ _ => 7)
  obtain ⟨d, hr', hd⟩ := reach_shows (α := ℝ) 0 1 (by decide) (fun _ _ => 1) (fun _ _ => 8)
  have := hs.bodies
  have := hd.bodies
  have := hs.rows
  have := hd.rows
  refine ⟨d, s, hr', hr, by omega, by omega, d, C30_no_bodies d s (by omega) (by omega), ?_⟩
  have h1 := hs.rf .r_x 0 (by decide)
  have h2 := hd.rf .r_x 0 (by decide)
  simp only [Nat.cast_zero] at h1 h2
  rw [h1, h2]
  intro h
  have := Except.ok.inj h
  norm_num at this

/-! ## C31 -/

/-- **C31.** The kinetic energy is not negative if mass and inertia are not. -/
theorem C31_energy_nonneg (b : Body ℝ) (hm : 0 ≤ b.m) (hI : 0 ≤ b.I) : 0 ≤ b.energy := by
  have : b.energy = 1 / 2 * (b.m * (b.v_x ^ 2 + b.v_y ^ 2)) + 1 / 2 * (b.I * b.v_theta ^ 2) := by
    simp only [Body.energy, fp_lit]; push_cast; ring
  rw [this]
  positivity

/-- **C31.** With positive mass and inertia it is zero exactly for a body at rest. -/
theorem C31_energy_zero_iff (b : Body ℝ) (hm : 0 < b.m) (hI : 0 < b.I) :
    b.energy = 0 ↔ b.v_x = 0 ∧ b.v_y = 0 ∧ b.v_theta = 0 := by
  have e : b.energy = 1 / 2 * (b.m * (b.v_x ^ 2 + b.v_y ^ 2)) + 1 / 2 * (b.I * b.v_theta ^ 2) := by
    simp only [Body.energy, fp_lit]; push_cast; ring
  rw [e]
  constructor
  · intro h
    have h1 : 0 ≤ b.m * b.v_x ^ 2 := by positivity
    have h2 : 0 ≤ b.m * b.v_y ^ 2 := by positivity
    have h3 : 0 ≤ b.I * b.v_theta ^ 2 := by positivity
    have z1 : b.m * b.v_x ^ 2 = 0 := by nlinarith
    have z2 : b.m * b.v_y ^ 2 = 0 := by nlinarith
    have z3 : b.I * b.v_theta ^ 2 = 0 := by nlinarith
    refine ⟨?_, ?_, ?_⟩
    · simpa [hm.ne'] using z1
    · simpa [hm.ne'] using z2
    · simpa [hI.ne'] using z3
  · rintro ⟨h1, h2, h3⟩
    rw [h1, h2, h3]; ring

/-- **C31.** It is `m v² / 2 + I ω² / 2`; in particular it depends neither on the pose nor on the
index. -/
theorem C31_energy_formula (b : Body ℝ) :
    b.energy = b.m * (b.v_x ^ 2 + b.v_y ^ 2) / 2 + b.I * b.v_theta ^ 2 / 2 := by
  simp only [Body.energy, fp_lit]; push_cast; ring

/-- **C31.** Moving and turning the body does not change it. Any arithmetic. -/
theorem C31_energy_pose {α : Type} [Zero α] [Add α] [Mul α] [Sub α] [Neg α] [Fp α] (b : Body α)
    (x y t : α) (k : Int) :
    ({ b with p_x := x, p_y := y, theta := t, index := k } : Body α).energy = b.energy := rfl

example : ∃ b : Body ℝ, 0 < b.m ∧ 0 < b.I ∧ b.v_x ≠ 0 := ⟨⟨1, 2, 3, 4, 5, 6, 7, 8, 0⟩, by norm_num⟩

end Scs
