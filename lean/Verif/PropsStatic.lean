import Verif.WorldFollow

/-!
# Equilibrium

C76: see `PropsStep.lean` for the notions used.
-/

namespace Scs

open Finset

section
variable {G : Gen ℝ → Prop} {h : List (Op ℝ)} {w w' : World ℝ} {env : Env ℝ} {dt : ℝ}
  {steps : Int} {μ : Nat → Nat → ℝ}

/-- The system is in equilibrium: all bodies are at rest, all constraints are met, and the force
generators and the constraints together exert no force and no torque on any body if the force along row
`j` of constraint `c` is `μ c j`.  The rows of the constraints are independent. -/
structure Equilibrium (h : List (Op ℝ)) (w : World ℝ) (μ : Nat → Nat → ℝ) : Prop where
  rest : ∀ b ∈ regBodies h, ∀ q, (w.bodies b).vel q = 0
  met : ∀ c ∈ regCons h, ∀ j, j < (w.cons c).rows →
    (w.rowsOf w.now c).C j = 0 ∧ (w.rowsOf w.now c).v_bias j = 0
  forces : ∀ b ∈ regBodies h, ∀ q,
    w.load w.now b q + w.conForce (fun c q j k => μ c j * (w.rowsOf w.now c).J j (k * 3 + q.d)) b q = 0
  indep : w.Indep (w.rowsOf w.now)

theorem Equilibrium.path (a : Equilibrium h w μ) (hG : ∀ g, G g → g.OnlyForces)
    (hw : World.Hist G .opt h w) (hst : w.Standard h) (hs : w.sle = some .ge) (hdt : dt ≠ 0) :
    w.Path dt steps (fun _ => w.now) (fun _ => μ) where
  first := .refl _
  step := fun n hn => by
    have p := (hw.ready hG hst.wired).2
    have hv : ∀ b ∈ w.rb, ∀ q, w.now.vel b q = 0 :=
      fun b hb q => a.rest b ((hw.regs.bodies.mem b).mp hb) q
    refine ⟨div_ne_zero hdt (by exact_mod_cast (by omega : steps ≠ 0)), fun b hb q => ?_,
      fun b hb q => ?_, fun b hb q => ?_, fun _ => a.indep, fun _ c hc j hj => ?_,
      (fun m e1 e2 h => by rw [hs] at h; cases h), (fun m e h => by rw [hs] at h; cases h)⟩
    · have := a.forces b ((hw.regs.bodies.mem b).mp hb) q
      rw [show w.conForce (w.reaction w.now μ) b q = w.conForce (fun c q j k =>
        μ c j * (w.rowsOf w.now c).J j (k * 3 + q.d)) b q from rfl, this, zero_div]
      rfl
    · show _ = _ + _ * (0 : ℝ)
      rw [mul_zero, add_zero]
    · rw [hv b hb q, mul_zero, add_zero]
    · obtain ⟨m1, m2⟩ := a.met c ((hw.regs.cons.mem c).mp hc) j hj
      have e : w.rowAt (w.rowsOf w.now c) c j w.now.vel = 0 := sum_eq_zero fun k hk => by
        have := hv _ (p.bodies c hc k (mem_range.mp hk)).2
        simp only [this, mul_zero, Coord.sum, add_zero]
      rw [e, m1, m2, mul_zero, add_zero, add_zero]

/-- **C76**: with Gaussian elimination a system in equilibrium stays where it is, whatever the time
step, and the constraints report the forces that hold it in equilibrium. -/
theorem C76_stays (hG : ∀ g, G g → g.OnlyForces) (hw : World.Hist G .opt h w) (hst : w.Standard h)
    (hs : w.sle = some .ge) (a : Equilibrium h w μ) (hdt : dt ≠ 0)
    (e : w.process .opt env dt steps = .ok w') :
    (∀ b ∈ regBodies h, (w'.bodies b).pos = (w.bodies b).pos ∧ (w'.bodies b).vel = (w.bodies b).vel) ∧
    (0 < steps → ∀ c ∈ regCons h, ∀ (q : Coord) j k, j < (w.cons c).rows →
      k < (w.cons c).bodyCount → (w'.cons c).F q j k = μ c j * (w.rowsOf w.now c).J j (k * 3 + q.d)) := by
  obtain ⟨k1, k2⟩ := hw.follows hG hst hs (a.path hG hw hst hs hdt) e
  refine ⟨fun b hb => ?_, fun hpos c hc q j k hj hk => ?_⟩
  · have := k1 b ((hw.regs.bodies.mem b).mpr hb)
    exact ⟨funext fun q => (this q).1, funext fun q => (this q).2⟩
  · obtain ⟨n, hn⟩ : ∃ n, steps.toNat = n + 1 := ⟨steps.toNat - 1, by omega⟩
    exact k2 n hn c ((hw.regs.cons.mem c).mpr hc) q j k hj hk

/-- **C76**: a system in equilibrium with at least one constraint is processed successfully. -/
theorem C76_succeeds (hG : ∀ g, G g → g.OnlyForces) (hw : World.Hist G .opt h w) (hst : w.Standard h)
    (hs : w.sle = some .ge) (a : Equilibrium h w μ) (hdt : dt ≠ 0)
    (hm : ∀ b ∈ regBodies h, (w.bodies b).m ≠ 0 ∧ (w.bodies b).I ≠ 0) (hne : regCons h ≠ ∅)
    (env : Env ℝ) : ∃ w', w.process .opt env dt steps = .ok w' := by
  refine hw.follows_ok hG hst hs (a.path hG hw hst hs hdt) (fun b hb q => ?_) hdt (fun h0 => ?_) env
  · obtain ⟨m1, m2⟩ := hm b ((hw.regs.bodies.mem b).mp hb)
    cases q
    · exact m1
    · exact m1
    · exact m2
  · rw [hw.regs.cs_nil] at h0
    exact absurd h0 hne

/-- **C76**, converse, for any solver: if bodies at rest do not move in one sub-step, then the forces
that the constraints report balance the forces of the generators. -/
theorem C76_balance (hG : ∀ g, G g → g.OnlyForces) (hw : World.Hist G .opt h w) (hst : w.Standard h)
    (e : w.process .opt env dt 1 = .ok w') {b : Nat} (hb : b ∈ regBodies h)
    (h0 : ∀ q, (w.bodies b).vel q = 0) (h1 : ∀ q, (w'.bodies b).vel q = 0) (q : Coord) :
    w.load w.now b q + w.conForce (fun c => (w'.cons c).F) b q = 0 := by
  have hb' := (hw.regs.bodies.mem b).mpr hb
  obtain ⟨X, μ, -, hX⟩ := hw.moved hG hst e
  have hne := (hX.step 0 (by decide)).ne
  have hdt : dt ≠ 0 := fun h0 => hne (by rw [h0, zero_div])
  have := (C49_one_step hG hw hst.wired hst.gens e hb q).1
  rw [h0, h1, zero_add] at this
  have h2 := (mul_eq_zero.mp this.symm).resolve_left hdt
  exact (div_eq_zero_iff.mp h2).resolve_right (hX.mass b hb' q)

/-- A pendulum that hangs below its fixed point. -/
def hanging (_ : Nat) : Con ℝ where
  kind := .fixedPosition ⟨0, 3, 0, 0, 0, 0⟩
  index := -1
  bodyCount := 1
  bodies := fun _ => .obj 0
  F_x := fun _ _ => 0
  F_y := fun _ _ => 0
  F_t := fun _ _ => 0
  rows := 2

/-- The hypotheses of the three theorems are met by a hanging pendulum of mass 2; the constraint
reports the weight. -/
example (env : Env ℝ) : ∃ (h : List (Op ℝ)) (w w' : World ℝ) (μ : Nat → Nat → ℝ),
    World.Hist Gen.Shipped .opt h w ∧ w.Standard h ∧ w.sle = some .ge ∧ Equilibrium h w μ ∧
      regBodies h = {0} ∧ regCons h = {0} ∧ w.process .opt env (1 / 60) 1 = .ok w' ∧
      (w'.bodies 0).p_y = -3 ∧ (∀ q, (w'.bodies 0).vel q = 0) ∧ (w'.cons 0).F_y 1 0 = 2 * 9 := by
  obtain ⟨h, w, h1, h2, h3, h4, h5, h6, h7, h8⟩ := build (G := Gen.Shipped)
    (fun _ => ⟨0, -3, 0, 0, 0, 0, 2, 5, -1⟩) hanging (gens := fun _ => .gravity 9) (fun _ => trivial)
    (rb := [0]) (cs := [0]) (fg := [0]) (by decide) (by decide) (by decide) (some .ge)
    (fun _ _ => 0) (fun _ _ => 0)
  have hk : (w.cons 0).kind = .fixedPosition ⟨0, 3, 0, 0, 0, 0⟩ := congrArg Con.kind (h2.cons 0)
  have hbo : ∀ k, (w.cons 0).bodies k = .obj 0 := congrFun (congrArg Con.bodies (h2.cons 0))
  have hr : (w.cons 0).rows = 2 := congrArg Con.rows (h2.cons 0)
  have hn : (w.cons 0).bodyCount = 1 := congrArg Con.bodyCount (h2.cons 0)
  have hof : w.bodyOf 0 0 = 0 := by rw [World.bodyOf, hbo]
  have hm : (w.bodies 0).m = 2 := congrArg Body.m (h2.bodies 0)
  have hI : (w.bodies 0).I = 5 := congrArg Body.I (h2.bodies 0)
  have hx : (w.bodies 0).p_x = 0 := congrArg Body.p_x (h2.bodies 0)
  have hy : (w.bodies 0).p_y = -3 := congrArg Body.p_y (h2.bodies 0)
  have ht : (w.bodies 0).theta = 0 := congrArg Body.theta (h2.bodies 0)
  have hvx : (w.bodies 0).v_x = 0 := congrArg Body.v_x (h2.bodies 0)
  have hvy : (w.bodies 0).v_y = 0 := congrArg Body.v_y (h2.bodies 0)
  have hvt : (w.bodies 0).v_theta = 0 := congrArg Body.v_theta (h2.bodies 0)
  have hv : ∀ q, (w.bodies 0).vel q = 0 := fun q => by
    cases q
    · exact hvx
    · exact hvy
    · exact hvt
  have hB : regBodies h = {0} := by rw [h3]; rfl
  have hC : regCons h = {0} := by rw [h4]; rfl
  have hb : ∀ c ∈ regCons h, ∀ k, k < (w.cons c).bodyCount →
      ∃ b ∈ regBodies h, (w.cons c).bodies k = .obj b := fun c hc k _ => by
    rw [hC, mem_singleton] at hc
    subst hc
    exact ⟨0, by rw [hB]; simp, hbo k⟩
  have hst : w.Standard h := by
    refine ⟨fun c hc => ?_, hb, fun g hg => ?_, .of_card h1.regs hb (by rw [hB]; decide)⟩
    · rw [hC, mem_singleton] at hc
      subst hc
      rw [hk, hr, hn]
      rfl
    · rw [h2.gens]; trivial
  have q1 := q_one (x := w.now) hn (hbo 0)
  have hp : ∀ j c, (w.rowsOf w.now 0).J j c =
      (CKind.fixedPosition (⟨0, 3, 0, 0, 0, 0⟩ : FixedPosition ℝ)).jT (w.now.q w 0) j c := fun j c => by
    simp only [World.rowsOf, hk]
  have t0 : w.now.q w 0 2 = 0 := by rw [q1.2.2]; exact ht
  have J00 : (w.rowsOf w.now 0).J 0 0 = 1 := by rw [hp]; rfl
  have J01 : (w.rowsOf w.now 0).J 0 1 = 0 := by rw [hp]; rfl
  have J10 : (w.rowsOf w.now 0).J 1 0 = 0 := by rw [hp]; rfl
  have J11 : (w.rowsOf w.now 0).J 1 1 = 1 := by rw [hp]; rfl
  have J12 : (w.rowsOf w.now 0).J 1 2 = 0 := by
    rw [hp]
    show rx (w.now.q w 0 2) 0 3 = 0
    simp [rx, t0]
  have hco : ∀ j q, w.coef (w.rowsOf w.now) 0 j 0 q = (w.rowsOf w.now 0).J j q.d := fun j q => by
    simp only [World.coef, hn, range_one, sum_singleton, hof, if_true, Nat.zero_mul, Nat.zero_add]
  have hE : Equilibrium h w (fun _ j => if j = 1 then 2 * 9 else 0) := by
    refine ⟨fun b hb => ?_, fun c hc j hj => ?_, fun b hb q => ?_, ?_⟩
    · rw [hB, mem_singleton] at hb
      subst hb
      exact hv
    · rw [hC, mem_singleton] at hc
      subst hc
      refine ⟨?_, by simp only [World.rowsOf, hk, CKind.biasT]⟩
      rw [hr] at hj
      have : j = 0 ∨ j = 1 := by omega
      simp only [World.rowsOf, hk]
      rcases this with rfl | rfl
      · show w.now.q w 0 0 + rx (w.now.q w 0 2) 0 3 - 0 = 0
        rw [t0, q1.1, show w.now.pos 0 .x = 0 from hx]
        simp [rx]
      · show w.now.q w 0 1 + ry (w.now.q w 0 2) 0 3 - 0 = 0
        rw [t0, q1.2.1, show w.now.pos 0 .y = -3 from hy]
        simp [ry]
    · rw [hB, mem_singleton] at hb
      subst hb
      have e : w.conForce (fun c q j k => (if j = 1 then 2 * 9 else 0) *
          (w.rowsOf w.now c).J j (k * 3 + q.d)) 0 q = 2 * 9 * (w.rowsOf w.now 0).J 1 q.d := by
        simp only [World.conForce, h2.cs, List.toFinset_cons, List.toFinset_nil, insert_empty_eq,
          sum_singleton, hr, hn, range_one, hof, if_true, sum_range_succ, range_zero, sum_empty,
          Nat.zero_mul, Nat.zero_add, zero_add, zero_ne_one, if_false, zero_mul]
      rw [e]
      simp only [World.load, h2.fg, h2.gens, List.toFinset_cons, List.toFinset_nil, insert_empty_eq,
        sum_singleton, Gen.load, hm]
      cases q
      · simp [Coord.d, J10]
      · simp [Coord.d, J11]
      · simp [Coord.d, J12]
    · refine indep_of_rank (fun b hb q => ?_) fun z hz c hc j hj => ?_
      · rw [h2.rb, List.mem_singleton] at hb
        subst hb
        cases q <;> simp [Body.mass, hm, hI]
      · rw [h2.cs, List.mem_singleton] at hc
        subst hc
        have e0 := hz 0 (by rw [h2.rb]; simp) .x
        have e1 := hz 0 (by rw [h2.rb]; simp) .y
        rw [h2.cs] at e0 e1
        simp only [List.toFinset_cons, List.toFinset_nil, insert_empty_eq, sum_singleton, hr,
          sum_range_succ, range_zero, sum_empty, zero_add, hco, Coord.d, J00, J01, J10, J11, mul_one,
          mul_zero, add_zero] at e0 e1
        rw [hr] at hj
        have : j = 0 ∨ j = 1 := by omega
        rcases this with rfl | rfl
        · exact e0
        · exact e1
  obtain ⟨w', e⟩ := C76_succeeds (dt := 1 / 60) (steps := 1) (fun g => Gen.tame) h1 hst h7 hE
    (by norm_num) (fun b hb => by
      rw [hB, mem_singleton] at hb
      subst hb
      rw [hm, hI]
      norm_num) (by rw [hC]; simp) env
  obtain ⟨s1, s2⟩ := C76_stays (fun g => Gen.tame) h1 hst h7 hE (by norm_num) e
  obtain ⟨p1, p2⟩ := s1 0 (by rw [hB]; simp)
  refine ⟨h, w, w', _, h1, hst, h7, hE, hB, hC, e, ?_, fun q => by rw [p2]; exact hv q, ?_⟩
  · exact (congrFun p1 .y).trans hy
  · have := s2 (by decide) 0 (by rw [hC]; simp) .y 1 0 (by rw [hr]; omega) (by rw [hn]; omega)
    rw [show (w'.cons 0).F_y 1 0 = (w'.cons 0).F .y 1 0 from rfl, this]
    simp [Coord.d, J11]

end

end Scs
