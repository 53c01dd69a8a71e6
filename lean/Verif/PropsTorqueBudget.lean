import Verif.PropsHoldFast

/-!
# C124: what torque-limited constraints can do at most
-/

namespace Scs

open Finset

/-- The torque limits of the constraints that only turn bodies. -/
def CKind.torqueLimits : CKind ℝ → Option (ℝ × ℝ)
  | .constantRotation r => some (r.minTorque, r.maxTorque)
  | .rotationFriction r => some (r.minTorque, r.maxTorque)
  | .clutch r => some (r.minTorque, r.maxTorque)
  | _ => none

section
variable {G : Gen ℝ → Prop} {h : List (Op ℝ)} {w w' : World ℝ} {env : Env ℝ} {dt : ℝ} {steps : Int}

theorem CKind.torqueLimits.rows {K : CKind ℝ} {lo hi : ℝ} (hK : K.torqueLimits = some (lo, hi)) :
    K.loT = lo ∧ K.hiT = hi ∧ ∃ n, n ≤ 2 ∧ K.counts = some (1, n) := by
  cases K <;> simp only [CKind.torqueLimits, Option.some.injEq, Prod.mk.injEq, reduceCtorEq] at hK <;>
    exact ⟨hK.1, hK.2, _, by decide, rfl⟩

theorem CKind.torqueLimits.entries {c : Nat} {lo hi : ℝ}
    (hK : (w.cons c).kind.torqueLimits = some (lo, hi)) (x : Motion) {k : Nat} (hk : k < 2)
    (h2 : (w.cons c).kind.counts = some (1, 1) → k = 0) :
    (w.rowsOf x c).J 0 (k * 3) = 0 ∧ (w.rowsOf x c).J 0 (k * 3 + 1) = 0 ∧
      |(w.rowsOf x c).J 0 (k * 3 + 2)| = 1 := by
  have jj : ∀ i, (w.rowsOf x c).J 0 i = (w.cons c).kind.jT (x.q w c) 0 i := fun i => rfl
  simp only [jj]
  revert hK h2
  cases (w.cons c).kind <;> intro hK h2 <;>
    simp only [CKind.torqueLimits, reduceCtorEq] at hK
  · have := h2 rfl; subst this; exact ⟨rfl, rfl, abs_one⟩
  · match k, hk with
    | 0, _ => exact ⟨rfl, rfl, (abs_neg _).trans abs_one⟩
    | 1, _ => exact ⟨rfl, rfl, abs_one⟩
  · have := h2 rfl; subst this; exact ⟨rfl, rfl, abs_one⟩

open Classical in
/-- The registered constraints attached to the body `b`. -/
noncomputable def World.attached (w : World ℝ) (h : List (Op ℝ)) (b : Nat) : Finset Nat :=
  (regCons h).filter fun c => ∃ k, k < (w.cons c).bodyCount ∧ (w.cons c).bodies k = .obj b

theorem sum_pick {n : Nat} (hn : n ≤ 2) {f : Nat → Nat} (hf : n = 2 → f 0 ≠ f 1) {g : Nat → ℝ} {b : Nat}
    {B : ℝ} (hB : 0 ≤ B) (hg : ∀ k, k < n → |g k| ≤ B) :
    |∑ k ∈ range n, if f k = b then g k else 0| ≤ B := by
  match n, hn with
  | 0, _ => simpa using hB
  | 1, _ =>
    rw [sum_range_one]
    split
    · exact hg 0 (by omega)
    · rwa [abs_zero]
  | 2, _ =>
    rw [sum_range_succ, sum_range_one]
    by_cases h0 : f 0 = b
    · rw [if_pos h0, if_neg (fun h1 => hf rfl (h0.trans h1.symm)), add_zero]
      exact hg 0 (by omega)
    · rw [if_neg h0, zero_add]
      split
      · exact hg 1 (by omega)
      · rwa [abs_zero]

/-- The constraint force on a body to which only torque-limited constraints are attached. -/
theorem turned_force (hG : ∀ g, G g → g.OnlyForces) (hw : World.Hist G .opt h w)
    (hst : w.Standard h) (hs : w.Sensible h) {m : Nat} {d : ℝ} (hsle : w.sle = some (.gs m d))
    {s : ℝ} (hspos : 0 < s) {x x' : Motion} {mult : Nat → Nat → ℝ} (st : w.Move s x x' mult) {b : Nat}
    {T : Nat → ℝ} (hT : ∀ c ∈ w.attached h b, ∃ lo hi, (w.cons c).kind.torqueLimits = some (lo, hi) ∧
      |lo| ≤ T c ∧ |hi| ≤ T c) (q : Coord) :
    |w.conForce (w.reaction x mult) b q| ≤ if q = .th then ∑ c ∈ w.attached h b, T c else 0 := by
  have p := (hw.ready hG hst.wired).2
  rw [World.conForce, hw.regs.cs_finset]
  have one : ∀ c ∈ regCons h, |∑ j ∈ range (w.cons c).rows, ∑ k ∈ range (w.cons c).bodyCount,
      if w.bodyOf c k = b then w.reaction x mult c q j k else 0| ≤
      if c ∈ w.attached h b then (if q = .th then T c else 0) else 0 := by
    intro c hc
    have hc' := (hw.regs.cons.mem c).mpr hc
    by_cases ha : c ∈ w.attached h b
    · rw [if_pos ha]
      obtain ⟨lo, hi, hK, l1, l2⟩ := hT c ha
      obtain ⟨k1, k2, n, hn, hcn⟩ := CKind.torqueLimits.rows hK
      have cn := hst.proper hw.regs c hc'
      have cn0 := cn
      rw [hcn] at cn
      simp only [Option.some.injEq, Prod.mk.injEq] at cn
      have hlim := st.gs m d hsle hspos c hc' 0 (by omega) (hs.ordered c hc).le
      rw [k1, k2] at hlim
      have hm : |mult c 0| ≤ T c := abs_le.mpr ⟨by linarith [(abs_le.mp l1).1], by linarith [(abs_le.mp l2).2]⟩
      have hT0 : 0 ≤ T c := (abs_nonneg _).trans hm
      rw [← cn.1, sum_range_one]
      obtain ⟨s1, s2⟩ := slip_bodies hst hs hw p hc
      refine sum_pick s1 s2 (by split <;> [exact hT0; exact le_rfl]) fun k hk => ?_
      obtain ⟨e1, e2, e3⟩ := CKind.torqueLimits.entries hK x (k := k) (by omega) (fun h1 => by
        rw [hcn] at h1
        simp only [Option.some.injEq, Prod.mk.injEq] at h1
        omega)
      simp only [World.reaction]
      cases q with
      | x => rw [if_neg nofun]; show |_ * (w.rowsOf x c).J 0 (k * 3 + 0)| ≤ 0; rw [add_zero, e1, mul_zero, abs_zero]
      | y => rw [if_neg nofun]; show |_ * (w.rowsOf x c).J 0 (k * 3 + 1)| ≤ 0; rw [e2, mul_zero, abs_zero]
      | th => rw [if_pos rfl]; show |_ * (w.rowsOf x c).J 0 (k * 3 + 2)| ≤ T c; rw [abs_mul, e3, mul_one]; exact hm
    · rw [if_neg ha]
      refine le_of_eq (abs_eq_zero.mpr (sum_eq_zero fun j _ => sum_eq_zero fun k hk => if_neg fun e => ha ?_))
      rw [World.attached, mem_filter]
      exact ⟨hc, k, mem_range.mp hk, by rw [← e]; exact (p.bodies c hc' k (mem_range.mp hk)).1⟩
  refine (abs_sum_le_sum_abs _ _).trans ((sum_le_sum one).trans (le_of_eq ?_))
  rw [← sum_filter]
  have : (regCons h).filter (· ∈ w.attached h b) = w.attached h b := by
    ext c
    rw [mem_filter]
    exact ⟨fun h => h.2, fun h => ⟨(mem_filter.mp h).1, h⟩⟩
  rw [this]
  split
  · rfl
  · exact sum_const_zero

theorem budget (hG : ∀ g, G g → g.OnlyForces) (hw : World.Hist G .opt h w)
    (hst : w.Standard h) (hs : w.Sensible h) {m : Nat} {d : ℝ} (hsle : w.sle = some (.gs m d))
    (hdt : 0 < dt) (hn : 0 < steps) (e : w.process .opt env dt steps = .ok w') {b : Nat}
    (hb : b ∈ regBodies h) {T : Nat → ℝ}
    (hT : ∀ c ∈ w.attached h b, ∃ lo hi, (w.cons c).kind.torqueLimits = some (lo, hi) ∧
      |lo| ≤ T c ∧ |hi| ≤ T c) {q : Coord} {L : ℝ} (hL : ∀ x, |w.load x b q| ≤ L) :
    |(w'.bodies b).vel q - (w.bodies b).vel q| ≤
      dt * (L + if q = .th then ∑ c ∈ w.attached h b, T c else 0) / (w.bodies b).mass q := by
  obtain ⟨X, mult, h0, hm, -⟩ := hw.gs_moved hG hst hsle hdt e
  have hb' := (hw.regs.bodies.mem b).mpr hb
  have hM : 0 < (w.bodies b).mass q := by
    have := hs.mass b hb
    cases q <;> [exact this.1; exact this.1; exact this.2]
  have ht := sub_time (dt := dt) hn
  set s := dt / (steps : ℝ) with hsd
  have hspos : 0 < s := div_pos hdt (by exact_mod_cast hn)
  set R := (if q = .th then ∑ c ∈ w.attached h b, T c else 0) with hR
  have step : ∀ n, n ≤ steps.toNat → |(X n).vel b q - (w.bodies b).vel q| ≤
      n * s * (L + R) / (w.bodies b).mass q := by
    intro n
    induction n with
    | zero => intro _; rw [h0]; show |(w.bodies b).vel q - _| ≤ _; simp
    | succ n ih =>
      intro hn'
      have st := hm.step n (by omega)
      have f := turned_force hG hw hst hs hsle hspos st hT q
      rw [st.vel b hb' q, st.acc b hb' q]
      have hA : |w.load (X n) b q + w.conForce (w.reaction (X n) (mult n)) b q| ≤ L + R :=
        (abs_add_le _ _).trans (add_le_add (hL _) f)
      have hA2 : |s * ((w.load (X n) b q + w.conForce (w.reaction (X n) (mult n)) b q) /
          (w.bodies b).mass q)| ≤ s * ((L + R) / (w.bodies b).mass q) := by
        rw [abs_mul, abs_of_pos hspos, abs_div, abs_of_pos hM]
        gcongr
      have := ih (by omega)
      rw [add_sub_right_comm]
      refine (abs_add_le _ _).trans ((add_le_add this hA2).trans (le_of_eq ?_))
      push_cast
      ring
  have := step _ le_rfl
  rw [ht] at this
  have l : (X steps.toNat).vel b q = (w'.bodies b).vel q := (hm.last b hb' q).2
  rwa [l] at this

/-- **C124**, turning: if only frictions, drives and clutches are attached to a body, a call changes its
angular velocity by at most the total of their torque limits and of the other torques would, whatever
their number and the rest of the scene. -/
theorem C124_turning (hG : ∀ g, G g → g.OnlyForces) (hw : World.Hist G .opt h w)
    (hst : w.Standard h) (hs : w.Sensible h) {m : Nat} {d : ℝ} (hsle : w.sle = some (.gs m d))
    (hdt : 0 < dt) (hn : 0 < steps) (e : w.process .opt env dt steps = .ok w') {b : Nat}
    (hb : b ∈ regBodies h) {T : Nat → ℝ}
    (hT : ∀ c ∈ w.attached h b, ∃ lo hi, (w.cons c).kind.torqueLimits = some (lo, hi) ∧
      |lo| ≤ T c ∧ |hi| ≤ T c) {L : ℝ} (hL : ∀ x, |w.load x b .th| ≤ L) :
    |(w'.bodies b).v_theta - (w.bodies b).v_theta| ≤
      dt * (L + ∑ c ∈ w.attached h b, T c) / (w.bodies b).I :=
  budget (q := .th) hG hw hst hs hsle hdt hn e hb hT hL

theorem demo_attached {K : CKind ℝ} {g : Gen ℝ} {fg : List Nat} {sv : Solver ℝ}
    (d : Demo K g [0] fg sv h w) {b c : Nat} (hc : c ∈ w.attached h b) : c = 0 := by
  have := (mem_filter.mp hc).1
  rw [d.regC] at this
  simpa using this

/-- The claim applied to a body at rest, which a clutch for at most the torque 2 and a motor with at most
the torque 1 turn: after a second it turns with at most the speed 3. -/
example (env : Env ℝ) : ∃ (h : List (Op ℝ)) (w w' : World ℝ), World.Hist Gen.Shipped .opt h w ∧
    (w.bodies 1).v_theta = 0 ∧ w.process .opt env 1 100 = .ok w' ∧ |(w'.bodies 1).v_theta| ≤ 3 := by
  obtain ⟨h, w, w', m, d, hst, hs, e⟩ := demo_gsOf (.clutch ⟨-2, 2, 0, 0⟩) nofun
    (g := .motor ⟨3, 0, 1, 7, .obj 1, .obj 0⟩) trivial (cs := [0]) (fg := [0])
    (by decide) (by decide) ⟨⟨1, by decide, rfl⟩, 0, by decide, rfl⟩
    (by show (-2 : ℝ) ≤ 2; norm_num) trivial (e := 1 / 10) (by norm_num)
    (dt := 1) (by norm_num) env 100
  have v1 : (w.bodies 1).v_theta = 0 := d.vel 1 .th
  have q := C124_turning (b := 1) (T := fun _ => 2) (L := 1) (fun g => Gen.tame) d.hist hst
    hs d.sle (by norm_num) (by norm_num) e (by rw [d.regB]; simp)
    (fun c _ => ⟨-2, 2, by rw [d.kind]; rfl, by norm_num, by norm_num⟩)
    (fun x => demo_motored d (by norm_num) rfl rfl (by decide) x 1)
  rw [v1, sub_zero, d.I, div_one, one_mul] at q
  refine ⟨h, w, w', d.hist, v1, e, q.trans ?_⟩
  have : (w.attached h 1).card ≤ 1 := by
    rw [card_le_one_iff]
    exact fun ha hb => (demo_attached d ha).trans (demo_attached d hb).symm
  have : ((w.attached h 1).card : ℝ) ≤ 1 := by exact_mod_cast this
  rw [sum_const, nsmul_eq_mul]
  linarith

/-- **C124**, straight: such constraints do not move the centre of the body; its velocity changes at most
as the other forces make it. -/
theorem C124_straight (hG : ∀ g, G g → g.OnlyForces) (hw : World.Hist G .opt h w)
    (hst : w.Standard h) (hs : w.Sensible h) {m : Nat} {d : ℝ} (hsle : w.sle = some (.gs m d))
    (hdt : 0 < dt) (hn : 0 < steps) (e : w.process .opt env dt steps = .ok w') {b : Nat}
    (hb : b ∈ regBodies h) (hT : ∀ c ∈ w.attached h b, (w.cons c).kind.torqueLimits ≠ none) {L : ℝ} :
    ((∀ x, |w.load x b .x| ≤ L) → |(w'.bodies b).v_x - (w.bodies b).v_x| ≤ dt * L / (w.bodies b).m) ∧
      ((∀ x, |w.load x b .y| ≤ L) → |(w'.bodies b).v_y - (w.bodies b).v_y| ≤ dt * L / (w.bodies b).m) := by
  have hT' : ∀ c ∈ w.attached h b, ∃ lo hi, (w.cons c).kind.torqueLimits = some (lo, hi) ∧
      |lo| ≤ max |((w.cons c).kind.torqueLimits.getD 0).1| |((w.cons c).kind.torqueLimits.getD 0).2| ∧
      |hi| ≤ max |((w.cons c).kind.torqueLimits.getD 0).1| |((w.cons c).kind.torqueLimits.getD 0).2| := by
    intro c hc
    obtain ⟨⟨lo, hi⟩, hl⟩ := Option.ne_none_iff_exists'.mp (hT c hc)
    rw [hl]
    exact ⟨lo, hi, rfl, le_max_left _ _, le_max_right _ _⟩
  refine ⟨fun hL => ?_, fun hL => ?_⟩
  · have := budget (q := .x) hG hw hst hs hsle hdt hn e hb hT' hL
    rw [if_neg nofun, add_zero] at this
    exact this
  · have := budget (q := .y) hG hw hst hs hsle hdt hn e hb hT' hL
    rw [if_neg nofun, add_zero] at this
    exact this

/-- The claim applied to a body moving with the speed 3, with a clutch: it keeps moving evenly along x. -/
example (env : Env ℝ) : ∃ (h : List (Op ℝ)) (w w' : World ℝ), World.Hist Gen.Shipped .opt h w ∧
    (w.bodies 1).v_x = 3 ∧ w.process .opt env 1 100 = .ok w' ∧ (w'.bodies 1).v_x = 3 := by
  obtain ⟨h, w, w', m, d, hst, hs, e⟩ := demo_gsOf (.clutch ⟨-2, 2, 0, 0⟩) nofun
    (g := .gravity 9) trivial (cs := [0]) (fg := [0]) (by decide) (by decide) trivial
    (by show (-2 : ℝ) ≤ 2; norm_num) trivial (e := 1 / 10) (by norm_num)
    (dt := 1) (by norm_num) env 100
  have v1 : (w.bodies 1).v_x = 3 := d.vel 1 .x
  have q := (C124_straight (b := 1) (L := 0) (fun g => Gen.tame) d.hist hst
    hs d.sle (by norm_num) (by norm_num) e (by rw [d.regB]; simp)
    (fun c _ => by rw [d.kind]; exact nofun)).1 (fun x => by
      refine le_of_eq (abs_eq_zero.mpr (sum_eq_zero fun g _ => ?_))
      rw [d.gens]
      simp only [Gen.load]
      exact if_neg nofun)
  rw [v1, mul_zero, zero_div] at q
  have := abs_nonpos_iff.mp q
  exact ⟨h, w, w', d.hist, v1, e, by linarith⟩

end

end Scs
