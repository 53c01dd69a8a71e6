import Verif.WorldObj
import Verif.PropsForce
import Verif.PropsConstraint

/-!
# Systems of shipped constraints and force generators

What the shipped force generators and constraints compute when they are attached to bodies of the
system, in terms of the motion of the bodies.
-/

namespace Scs

open Finset

/-! ### Force generators -/

/-- World coordinates of the point of body `b` with local coordinates `px`, `py`. -/
noncomputable def Motion.point (x : Motion) (b : Nat) (px py : ℝ) : ℝ × ℝ :=
  (x.pos b .x + (Real.cos (x.pos b .th) * px - Real.sin (x.pos b .th) * py),
    x.pos b .y + (Real.sin (x.pos b .th) * px + Real.cos (x.pos b .th) * py))

/-- Velocity of the point of body `b` with local coordinates `px`, `py`. -/
noncomputable def Motion.pointVel (x : Motion) (b : Nat) (px py : ℝ) : ℝ × ℝ :=
  (x.vel b .x - x.vel b .th * ((x.point b px py).2 - x.pos b .y),
    x.vel b .y + x.vel b .th * ((x.point b px py).1 - x.pos b .x))

/-- A force `f` at the point `z` as force and torque on body `b`. -/
def Motion.wrench (x : Motion) (b : Nat) (z f : ℝ × ℝ) : Coord → ℝ
  | .x => f.1
  | .y => f.2
  | .th => (z.1 - x.pos b .x) * f.2 - (z.2 - x.pos b .y) * f.1

/-- A torque. -/
def pureTorque (τ : ℝ) : Coord → ℝ
  | .x => 0
  | .y => 0
  | .th => τ

/-- The force of a spring on its end at body `b` when the other end is at body `b'`. -/
noncomputable def Spring.pullOn (p : Spring ℝ) (x : Motion) (b b' : Nat) : ℝ × ℝ :=
  springForce p (x.point b p.p1_x p.p1_y) (x.point b' p.p2_x p.p2_y)
    (x.pointVel b p.p1_x p.p1_y) (x.pointVel b' p.p2_x p.p2_y)

/-- The torque of a motor from body `b` to body `b'`. -/
noncomputable def Motor.drive (p : Motor ℝ) (x : Motion) (b b' : Nat) : ℝ :=
  Fp.fmin p.maxTorque (Fp.fmax (-p.maxTorque)
    (motorTorque p (x.vel b .th) (x.acc b .th) (x.vel b' .th) (x.acc b' .th)))

/-- The force and torque of a force generator on body `b`, which has the mass `m`. -/
noncomputable def Gen.load (e : Gen ℝ) (m : ℝ) (x : Motion) (b : Nat) (q : Coord) : ℝ :=
  match e with
  | .gravity a => if q = .y then -m * a else 0
  | .static p => if p.body = .obj b then x.wrench b (x.point b p.p_x p.p_y) (p.f_x, p.f_y) q else 0
  | .spring p => match p.body1, p.body2 with
    | .obj b1, .obj b2 =>
      (if b = b1 then x.wrench b (x.point b1 p.p1_x p.p1_y) (p.pullOn x b1 b2) q else 0) +
      (if b = b2 then x.wrench b (x.point b2 p.p2_x p.p2_y) (-(p.pullOn x b1 b2)) q else 0)
    | _, _ => 0
  | .motor p => match p.body0, p.body1 with
    | .obj b0, .obj b1 =>
      (if b = b0 then pureTorque (-(p.drive x b0 b1)) q else 0) +
      (if b = b1 then pureTorque (p.drive x b0 b1) q else 0)
    | _, _ => 0
  | .custom _ => 0

/-- The force generator is one of the shipped ones and acts on bodies in `S`; a spring may also be
attached to nothing. -/
def Gen.Within {α : Type} (g : Gen α) (S : Nat → Prop) : Prop :=
  match g with
  | .gravity _ => True
  | .static p => ∃ b, S b ∧ p.body = .obj b
  | .spring p => p.body1 = .null ∨ (∃ b, S b ∧ p.body1 = .obj b) ∧
      (p.body2 = .null ∨ ∃ b, S b ∧ p.body2 = .obj b)
  | .motor p => (∃ b, S b ∧ p.body0 = .obj b) ∧ ∃ b, S b ∧ p.body1 = .obj b
  | .custom _ => False

theorem Gen.Within.mono {α : Type} {g : Gen α} {S T : Nat → Prop} (h : g.Within S) (hST : ∀ b, S b → T b) :
    g.Within T := by
  cases g with
  | gravity a => trivial
  | static p => obtain ⟨b, hb, e⟩ := h; exact ⟨b, hST b hb, e⟩
  | spring p =>
    rcases h with h | ⟨⟨b, hb, e⟩, h | ⟨b', hb', e'⟩⟩
    · exact Or.inl h
    · exact Or.inr ⟨⟨b, hST b hb, e⟩, Or.inl h⟩
    · exact Or.inr ⟨⟨b, hST b hb, e⟩, Or.inr ⟨b', hST b' hb', e'⟩⟩
  | motor p =>
    obtain ⟨⟨b, hb, e⟩, b', hb', e'⟩ := h
    exact ⟨⟨b, hST b hb, e⟩, b', hST b' hb', e'⟩
  | custom f => exact h

theorem Gen.Within.shipped {α : Type} {g : Gen α} {S : Nat → Prop} (h : g.Within S) : g.Shipped := by
  cases g <;> first | trivial | exact h

section
variable {w : World ℝ}

theorem point_eq {s : SysState ℝ} {x : Motion} (hx : w.Seen s x) (ho : s.Ok) {b : Nat}
    (hb : b ∈ w.rb) (hi : w.at b < s.n) (px py : ℝ) :
    s.localToWorld px py (w.at b) = .ok (x.point b px py) := by
  have h1 : s.val .p_x (w.at b) = x.pos b .x := hx.pos b hb .x
  have h2 : s.val .p_y (w.at b) = x.pos b .y := hx.pos b hb .y
  have h3 : s.val .theta (w.at b) = x.pos b .th := hx.pos b hb .th
  simp only [SysState.localToWorld, ho.rd _ hi, ok_bind, h1, h2, h3, Motion.point]
  congr 2
  · show _ + _ = _ + _
    rw [add_comm]
    rfl
  · rw [add_comm]
    rfl

theorem pointVel_eq {s : SysState ℝ} {x : Motion} (hx : w.Seen s x) (ho : s.Ok) {b : Nat}
    (hb : b ∈ w.rb) (hi : w.at b < s.n) (px py : ℝ) :
    s.velocityAtPoint px py (w.at b) = .ok (x.pointVel b px py) := by
  have h1 : s.val .p_x (w.at b) = x.pos b .x := hx.pos b hb .x
  have h2 : s.val .p_y (w.at b) = x.pos b .y := hx.pos b hb .y
  have h4 : s.val .v_x (w.at b) = x.vel b .x := hx.vel b hb .x
  have h5 : s.val .v_y (w.at b) = x.vel b .y := hx.vel b hb .y
  have h6 : s.val .v_theta (w.at b) = x.vel b .th := hx.vel b hb .th
  simp only [SysState.velocityAtPoint, point_eq hx ho hb hi, ho.rd _ hi, ok_bind, h1, h2, h4, h5,
    h6, Motion.pointVel]
  congr 2
  ring

theorem forced_load {s : SysState ℝ} {x : Motion} (hx : w.Seen s x) {b : Nat} (hb : b ∈ w.rb)
    (g : Fld → Nat → ℝ) (hg : ∀ f k, ¬ f.IsForce → g f k = s.val f k) (z f : ℝ × ℝ) (q : Coord) :
    forced g (w.at b) z f.1 f.2 q.f (w.at b) = g q.f (w.at b) + x.wrench b z f q := by
  have h1 : g .p_x (w.at b) = x.pos b .x := by
    exact (hg _ _ (pos_not_force .x)).trans (hx.pos b hb .x)
  have h2 : g .p_y (w.at b) = x.pos b .y := by
    exact (hg _ _ (pos_not_force .y)).trans (hx.pos b hb .y)
  cases q
  · simp [forced, Coord.f, Motion.wrench]
  · simp [forced, Coord.f, Motion.wrench]
  · simp [forced, Coord.f, Motion.wrench, h1, h2]

theorem forced_other {g : Fld → Nat → ℝ} {i k : Nat} (h : k ≠ i) (z : ℝ × ℝ) (fx fy : ℝ) (f : Fld) :
    forced g i z fx fy f k = g f k := by
  cases f <;> simp [forced, h]

theorem forced_keep (g : Fld → Nat → ℝ) (i : Nat) (z : ℝ × ℝ) (fx fy : ℝ) {f : Fld}
    (hf : ¬ f.IsForce) (k : Nat) : forced g i z fx fy f k = g f k := by
  by_cases h : k = i
  · subst h
    cases f <;> simp [forced, Fld.IsForce] at hf ⊢
  · exact forced_other h z fx fy f

theorem torqued_at (g : Fld → Nat → ℝ) (i k : Nat) (τ : ℝ) (q : Coord) :
    torqued g i τ q.f k = g q.f k + if k = i then pureTorque τ q else 0 := by
  by_cases h : k = i
  · subst h
    cases q <;> simp [torqued, Coord.f, pureTorque]
  · cases q <;> simp [torqued, Coord.f, h]

theorem gen_run (p : w.Placed) {e : Gen ℝ} (he : e.Within (· ∈ w.rb)) {s : SysState ℝ} (hs : s.Wf)
    (hn : w.bodyCount ≤ s.n) {x : Motion} (hx : w.Seen s x) :
    ∃ s', e.apply w.bodies s = .ok s' ∧ ForceWrites s s' ∧ ∀ b ∈ w.rb, ∀ q : Coord,
      s'.val q.f (w.at b) = s.val q.f (w.at b) + e.load (w.bodies b).m x b q := by
  have lt : ∀ b ∈ w.rb, w.at b < s.n := fun b hb => Nat.lt_of_lt_of_le (p.lt b hb) hn
  have inj : ∀ b ∈ w.rb, ∀ b' ∈ w.rb, w.at b = w.at b' → b = b' := fun b hb b' hb' e => by
    rw [← p.rbAt b hb, ← p.rbAt b' hb', e]
  cases e with
  | custom f => exact he.elim
  | gravity a =>
    obtain ⟨s', e, f, v⟩ := gravity_run (g := a) (bodies := w.bodies) hs
    refine ⟨s', e, f, fun b hb q => ?_⟩
    rw [v, Gen.load]
    cases q
    · rw [if_neg (by rintro ⟨h, _⟩; cases h)]
      simp
    · rw [if_pos ⟨rfl, lt b hb⟩, hx.mass b hb]
      rfl
    · rw [if_neg (by rintro ⟨h, _⟩; cases h)]
      simp
  | static t =>
    obtain ⟨b, hb, e⟩ := he
    have ok := hs.ok (lt b hb)
    obtain ⟨s', e1, _, f, v⟩ := applyForce_spec ok (lt b hb) t.p_x t.p_y t.f_x t.f_y
      (point_eq hx ok hb (lt b hb) _ _)
    refine ⟨s', ?_, f, fun b' hb' q => ?_⟩
    · simp only [Gen.apply, e, Ptr.get, ok_bind, p.index b hb]
      exact e1
    · rw [v, Gen.load]
      by_cases h : b' = b
      · subst h
        rw [forced_load hx hb s.val (fun _ _ _ => rfl) _ (t.f_x, t.f_y), if_pos e]
      · rw [forced_other (fun h' => h (inj _ hb' _ hb h')), if_neg (by
          rw [e]; intro h'; injection h' with h'; exact h h'.symm), add_zero]
  | motor t =>
    obtain ⟨⟨b, hb, e⟩, b', hb', e'⟩ := he
    have ok := hs.ok (lt b hb)
    obtain ⟨s', τ, e1, _, f, hτ, v⟩ := motor_run (bodies := w.bodies) ok e e' (p.index b hb)
      (p.index b' hb') (lt b hb) (lt b' hb')
    have hτ' : τ = t.drive x b b' := by
      rw [hτ, Motor.drive, ← hx.vel b hb .th, ← hx.vel b' hb' .th, ← hx.acc b hb .th,
        ← hx.acc b' hb' .th]
      rfl
    refine ⟨s', e1, f, fun c hc q => ?_⟩
    rw [v, torqued_at, torqued_at, Gen.load, hτ', add_assoc]
    simp only [e, e']
    have i1 : w.at c = w.at b ↔ c = b := ⟨inj _ hc _ hb, fun h => by rw [h]⟩
    have i2 : w.at c = w.at b' ↔ c = b' := ⟨inj _ hc _ hb', fun h => by rw [h]⟩
    simp only [i1, i2]
  | spring t =>
    rcases he with he | ⟨⟨b, hb, e⟩, he | ⟨b', hb', e'⟩⟩
    · refine ⟨s, ?_, .refl, fun q k _ => ?_⟩
      · rw [Gen.apply, Spring.apply, he]; rfl
      · simp only [Gen.load, he, add_zero]
    · refine ⟨s, ?_, .refl, fun q k _ => ?_⟩
      · rw [Gen.apply, Spring.apply, he, e]; rfl
      · simp only [Gen.load, he, e, add_zero]
    · have ok := hs.ok (lt b hb)
      obtain ⟨s', e1, _, f, v⟩ := spring_run (p := t) (bodies := w.bodies) ok
        ⟨⟨b, e, p.index b hb⟩, ⟨b', e', p.index b' hb'⟩, lt b hb, lt b' hb',
          point_eq hx ok hb (lt b hb) _ _, point_eq hx ok hb' (lt b' hb') _ _,
          pointVel_eq hx ok hb (lt b hb) _ _, pointVel_eq hx ok hb' (lt b' hb') _ _⟩
      refine ⟨s', e1, f, fun c hc q => ?_⟩
      rw [v, Gen.load]
      simp only [e, e']
      have step1 : forced (forced s.val (w.at b) (x.point b t.p1_x t.p1_y) (t.pullOn x b b').1
          (t.pullOn x b b').2) (w.at b') (x.point b' t.p2_x t.p2_y) (-(t.pullOn x b b')).1
          (-(t.pullOn x b b')).2 q.f (w.at c) =
        forced s.val (w.at b) (x.point b t.p1_x t.p1_y) (t.pullOn x b b').1
          (t.pullOn x b b').2 q.f (w.at c) +
        (if c = b' then x.wrench c (x.point b' t.p2_x t.p2_y) (-(t.pullOn x b b')) q else 0) := by
        by_cases h : c = b'
        · subst h
          rw [if_pos rfl]
          exact forced_load hx hc _ (fun f k hf => forced_keep _ _ _ _ _ hf k) _ _ q
        · rw [if_neg h, forced_other (fun h' => h (inj _ hc _ hb' h')), add_zero]
      have step2 : forced s.val (w.at b) (x.point b t.p1_x t.p1_y) (t.pullOn x b b').1
          (t.pullOn x b b').2 q.f (w.at c) = s.val q.f (w.at c) +
        (if c = b then x.wrench c (x.point b t.p1_x t.p1_y) (t.pullOn x b b') q else 0) := by
        by_cases h : c = b
        · subst h
          rw [if_pos rfl]
          exact forced_load hx hc _ (fun _ _ _ => rfl) _ _ q
        · rw [if_neg h, forced_other (fun h' => h (inj _ hc _ hb h')), add_zero]
      exact step1.trans (by rw [step2, add_assoc])

theorem World.Seen.writes {s s' : SysState ℝ} {x : Motion} (hx : w.Seen s x)
    (f : ForceWrites s s') : w.Seen s' x where
  pos := fun b hb q => by rw [f.keep (pos_not_force q), hx.pos b hb q]
  vel := fun b hb q => by rw [f.keep (vel_not_force q), hx.vel b hb q]
  acc := fun b hb q => by rw [f.keep (acc_not_force q), hx.acc b hb q]
  mass := fun b hb => by rw [f.keep (by rintro (h | h | h) <;> cases h), hx.mass b hb]

/-- The total force of the registered force generators on body `b`. -/
noncomputable def World.load (w : World ℝ) (x : Motion) (b : Nat) (q : Coord) : ℝ :=
  ∑ g ∈ w.fg.toFinset, (w.gens g).load (w.bodies b).m x b q

/-- The force generators of the system are shipped ones attached to bodies of the system. -/
def World.Driven (w : World ℝ) : Prop := w.fg.Nodup ∧ ∀ g ∈ w.fg, (w.gens g).Within (· ∈ w.rb)

theorem forces_run (p : w.Placed) (hg : w.Driven) {s : SysState ℝ}
    (hs : s.Wf) (hn : w.bodyCount ≤ s.n) {x : Motion} (hx : w.Seen s x) :
    ∃ s1, w.processForces s = .ok s1 ∧ ForceWrites s s1 ∧ w.Seen s1 x ∧
      ∀ b ∈ w.rb, ∀ q : Coord, s1.val q.f (w.at b) = w.load x b q := by
  obtain ⟨s0, e0, h1, h2, h3, h4, h5⟩ := zeroForce_spec hs hn
  have key : Wp (forN w.genCount (fun i s => do
      let g ← vecAt w.fg i
      (w.gens g).apply w.bodies s) s0) (fun s1 => ForceWrites s s1 ∧
        ∀ b ∈ w.rb, ∀ q : Coord, s1.val q.f (w.at b) =
          (w.fg.map (fun g => (w.gens g).load (w.bodies b).m x b q)).sum) noErr := by
    refine wp_forN' (fun k (s1 : SysState ℝ) => ForceWrites s s1 ∧
      ∀ b ∈ w.rb, ∀ q : Coord, s1.val q.f (w.at b) =
          ((w.fg.take k).map (fun g => (w.gens g).load (w.bodies b).m x b q)).sum) ⟨h4, ?_⟩ ?_ ?_
    · intro b hb q
      rw [h5 q _ (p.lt b hb), fp_lit]
      simp
    · rintro k hk s1 ⟨f1, a1⟩
      have hk' : k < w.fg.length := hk
      rw [vecAt_ok hk', ok_bind]
      obtain ⟨s2, e2, f2, v2⟩ := gen_run p (hg.2 _ (List.getElem_mem hk')) (f1.wf hs)
        (by rw [f1.n]; exact hn) (hx.writes f1)
      rw [e2]
      refine ⟨f1.trans f2, fun b hb q => ?_⟩
      rw [v2 b hb q, a1 b hb q, List.take_add_one, List.getElem?_eq_getElem hk', List.map_append,
        List.sum_append]
      simp
    · rintro s1 ⟨f1, a1⟩
      rw [World.genCount, List.take_length] at a1
      exact ⟨f1, a1⟩
  obtain ⟨s1, e1, f1, v1⟩ := wp_noErr_iff.mp key
  refine ⟨s1, by rw [World.processForces, e0, ok_bind, e1], f1, hx.writes f1, fun b hb q => ?_⟩
  rw [v1 b hb q, World.load, List.sum_toFinset _ hg.1]

/-- In a sub-step the external forces are those of the registered force generators at the motion
before it. -/
theorem World.SubStep.load (p : w.Placed) (hg : w.Driven) {h : ℝ} {x x' : Motion}
    {ext : Nat → Coord → ℝ} {out : Nat → Output ℝ} {mult : Nat → Nat → ℝ}
    {F : Nat → Coord → Nat → Nat → ℝ} (st : w.SubStep h x x' ext out mult F) {b : Nat}
    (hb : b ∈ w.rb) (q : Coord) : ext b q = w.load x b q := by
  obtain ⟨s, s1, hs, hn, h0, he, _, _, _, hext, _⟩ := st.state
  obtain ⟨s1', e', _, _, v⟩ := forces_run p hg (wf_setDt hs h) hn
    (x := x) ⟨h0.pos, h0.vel, h0.acc, h0.mass⟩
  rw [he] at e'
  cases e'
  rw [hext b hb q, v b hb q]

/-! ### Constraints -/

/-- The coordinates in the order of the columns of a Jacobian. -/
def coordOf : Nat → Coord
  | 0 => .x
  | 1 => .y
  | _ => .th

/-- The positions of the bodies of constraint `c`, one after the other. -/
def Motion.q (x : Motion) (w : World ℝ) (c t : Nat) : ℝ :=
  if t / 3 < (w.cons c).bodyCount then x.pos (w.bodyOf c (t / 3)) (coordOf (t % 3)) else 0

/-- The velocities of the bodies of constraint `c`, one after the other. -/
def Motion.u (x : Motion) (w : World ℝ) (c t : Nat) : ℝ :=
  if t / 3 < (w.cons c).bodyCount then x.vel (w.bodyOf c (t / 3)) (coordOf (t % 3)) else 0

/-- Every registered constraint is one of the shipped ones, with its number of rows and bodies. -/
def World.Proper (w : World ℝ) : Prop :=
  ∀ c ∈ w.cs, (w.cons c).kind.counts = some ((w.cons c).rows, (w.cons c).bodyCount)

theorem counts_le {α : Type} {k : CKind α} {r n : Nat} (h : k.counts = some (r, n)) :
    1 ≤ r ∧ r ≤ 2 ∧ 1 ≤ n ∧ n ≤ 2 := by
  cases k <;> simp [CKind.counts] at h <;> omega

theorem carries_of (p : w.Placed) {c : Nat} (hc : c ∈ w.cs) (hb : (w.cons c).bodyCount ≤ 2)
    {s : SysState ℝ} (hs : s.Wf) (hn : w.bodyCount ≤ s.n) {x : Motion} (hx : w.Seen s x) :
    Carries s ((w.cons c).idx w.bodies) (w.cons c).bodyCount (x.q w c) (x.u w c) := by
  intro b hbk
  obtain ⟨e, hr⟩ := p.bodies c hc b hbk
  have hi : w.at (w.bodyOf c b) < s.n := Nat.lt_of_lt_of_le (p.lt _ hr) hn
  have ok := hs.ok hi
  have d0 : 3 * b / 3 = b := by omega
  have d1 : (3 * b + 1) / 3 = b := by omega
  have d2 : (3 * b + 2) / 3 = b := by omega
  have m0 : 3 * b % 3 = 0 := by omega
  have m1 : (3 * b + 1) % 3 = 1 := by omega
  have m2 : (3 * b + 2) % 3 = 2 := by omega
  refine ⟨w.at (w.bodyOf c b), ?_, ?_⟩
  · have : rd1 maxBodies (w.cons c).bodies b = .ok (.obj (w.bodyOf c b)) := by
      rw [rd1, if_pos (show b < maxBodies by rw [maxBodies]; omega), e]
    rw [Con.idx, this, ok_bind]
    show Except.ok (w.bodies (w.bodyOf c b)).index = _
    rw [p.index _ hr]
  · simp only [ok.rd _ hi, Motion.q, Motion.u, d0, d1, d2, m0, m1, m2, coordOf, if_pos hbk]
    exact ⟨congrArg _ (hx.pos _ hr .x), congrArg _ (hx.pos _ hr .y), congrArg _ (hx.pos _ hr .th),
      congrArg _ (hx.vel _ hr .x), congrArg _ (hx.vel _ hr .y), congrArg _ (hx.vel _ hr .th)⟩

/-- The system consists of shipped constraints and force generators which are attached to bodies of
the system; the bodies that carry constraints are among the first 255. -/
structure World.Standard (w : World ℝ) (h : List (Op ℝ)) : Prop where
  kind : ∀ c ∈ regCons h, (w.cons c).kind.counts = some ((w.cons c).rows, (w.cons c).bodyCount)
  bodies : ∀ c ∈ regCons h, ∀ k, k < (w.cons c).bodyCount →
    ∃ b ∈ regBodies h, (w.cons c).bodies k = .obj b
  gens : ∀ g ∈ regGens h, (w.gens g).Within (· ∈ regBodies h)
  near : w.Near h

theorem World.Standard.wired {h : List (Op ℝ)} (s : w.Standard h) : w.Wired h where
  rows := fun c hc => by have := counts_le (s.kind c hc); omega
  two := fun c hc => (counts_le (s.kind c hc)).2.2.2
  bodies := s.bodies

theorem World.Standard.proper {h : List (Op ℝ)} {cls : Cls} (s : w.Standard h) (r : w.Regs cls h) :
    w.Proper := fun c hc => s.kind c ((r.cons.mem c).mp hc)

theorem World.Standard.slim {h : List (Op ℝ)} {cls : Cls} (s : w.Standard h) (r : w.Regs cls h) :
    w.Slim := s.near.slim (r.placed s.wired) r

theorem World.Standard.driven {h : List (Op ℝ)} {cls : Cls} (s : w.Standard h) (r : w.Regs cls h) :
    w.Driven :=
  ⟨r.gens.nodup, fun g hg => (s.gens g ((r.gens.mem g).mp hg)).mono
    fun b hb => (r.bodies.mem b).mpr hb⟩

theorem has_of (p : w.Placed) (hp : w.Proper) {c : Nat} (hc : c ∈ w.cs) {s : SysState ℝ}
    (hs : s.Wf) (hn : w.bodyCount ≤ s.n) {x : Motion} (hx : w.Seen s x) (o : Output ℝ) :
    ∃ out, (w.cons c).kind.calculate ((w.cons c).idx w.bodies) o s = .ok out ∧
      out.Has (w.cons c).kind (w.cons c).rows (w.cons c).bodyCount (x.q w c) (x.u w c) :=
  CKind.calculate_has _ (hp c hc)
    (carries_of p hc (counts_le (hp c hc)).2.2.2 hs hn hx) o

/-- In a sub-step every shipped constraint is evaluated at the motion before it. -/
theorem World.SubStep.has (p : w.Placed) (hp : w.Proper) {h : ℝ} {x x' : Motion}
    {ext : Nat → Coord → ℝ} {out : Nat → Output ℝ} {mult : Nat → Nat → ℝ}
    {F : Nat → Coord → Nat → Nat → ℝ} (st : w.SubStep h x x' ext out mult F) {c : Nat}
    (hc : c ∈ w.cs) :
    (out c).Has (w.cons c).kind (w.cons c).rows (w.cons c).bodyCount (x.q w c) (x.u w c) := by
  obtain ⟨s, s1, _, hn, _, _, hx, hs1, hn1, _, he⟩ := st.state
  obtain ⟨o, e⟩ := he c hc
  obtain ⟨out', e', h'⟩ := has_of p hp hc hs1 (by rw [hn1]; exact hn) hx o
  rw [e] at e'
  cases e'
  exact h'

end

end Scs
