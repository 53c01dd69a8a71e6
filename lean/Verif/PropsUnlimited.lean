import Verif.PropsTorqueBudget

/-!
# C128: limits without the Gauss-Seidel solver
-/

namespace Scs

open Finset

section
variable {G : Gen ℝ → Prop} {h : List (Op ℝ)} {w w' : World ℝ} {env : Env ℝ} {dt : ℝ}

theorem only_force (hG : ∀ g, G g → g.OnlyForces) (hw : World.Hist G .opt h w) (hst : w.Standard h)
    {c b : Nat} (hc : c ∈ regCons h) (hr : (w.cons c).rows = 1) (hn : (w.cons c).bodyCount = 1)
    (hb : (w.cons c).bodies 0 = .obj b) (ho : w.attached h b = {c})
    (F : Nat → Coord → Nat → Nat → ℝ) (q : Coord) : w.conForce F b q = F c q 0 0 := by
  have p := (hw.ready hG hst.wired).2
  have e1 : w.bodyOf c 0 = b := by rw [World.bodyOf, hb]
  rw [World.conForce, hw.regs.cs_finset, sum_eq_single_of_mem c hc]
  · rw [hr, hn, sum_range_one, sum_range_one, if_pos e1]
  · intro c' hc' hne
    refine sum_eq_zero fun j _ => sum_eq_zero fun k hk => if_neg fun e => hne ?_
    have : c' ∈ w.attached h b := by
      rw [World.attached, mem_filter]
      exact ⟨hc', k, mem_range.mp hk, by
        rw [← e]; exact (p.bodies c' ((hw.regs.cons.mem c').mpr hc') k (mem_range.mp hk)).1⟩
    rw [ho] at this
    exact mem_singleton.mp this

theorem unlimited (hG : ∀ g, G g → g.OnlyForces) (hw : World.Hist G .opt h w)
    (hst : w.Standard h) (hI : ∀ b ∈ regBodies h, 0 < (w.bodies b).I) (hsle : w.sle = some .ge)
    (hdt : 0 < dt) (e : w.process .opt env dt 1 = .ok w') {c b : Nat} (hc : c ∈ regCons h)
    (hr : (w.cons c).rows = 1) (hn : (w.cons c).bodyCount = 1)
    (hb : (w.cons c).bodies 0 = .obj b) (ho : w.attached h b = {c})
    (j0 : (w.rowsOf w.now c).J 0 0 = 0) (j1 : (w.rowsOf w.now c).J 0 1 = 0)
    (j2 : (w.rowsOf w.now c).J 0 2 = 1) (c0 : (w.rowsOf w.now c).C 0 = 0) {β : ℝ}
    (b0 : (w.rowsOf w.now c).v_bias 0 = β) :
    (w'.bodies b).v_theta = -β ∧
      (w'.cons c).F_t 0 0 = -((w.bodies b).v_theta + β) * (w.bodies b).I / dt - w.load w.now b .th := by
  have p := (hw.ready hG hst.wired).2
  have e1 : w.bodyOf c 0 = b := by rw [World.bodyOf, hb]
  have hb' : b ∈ regBodies h := (hw.regs.bodies.mem b).mp (by
    rw [← e1]; exact (p.bodies c ((hw.regs.cons.mem c).mpr hc) 0 (by omega)).2)
  have hI' := hI b hb'
  have r0 := C48_velocity_condition hG hw hst hsle e hc (j := 0) (by omega)
  rw [rowAt_one _ _ _ hn hb] at r0
  simp only [Coord.sum, Coord.d, j0, j1, j2, c0, b0, Body.vel] at r0
  have hv : (w'.bodies b).v_theta = -β := by linarith
  refine ⟨hv, ?_⟩
  have nw := (C49_one_step hG hw hst.wired hst.gens e hb' .th).1
  rw [only_force hG hw hst hc hr hn hb ho] at nw
  have nw' : (w'.bodies b).v_theta = (w.bodies b).v_theta +
      dt * ((w.load w.now b .th + (w'.cons c).F_t 0 0) / (w.bodies b).I) := nw
  rw [hv] at nw'
  have h1 := hI'.ne'
  have h2 := hdt.ne'
  field_simp at nw' ⊢
  linarith

/-- **C128**, drive: with Gaussian elimination a drive, alone on its body, brings it to the speed
`-rotationSpeed` within a single sub-step; the torque it exerts for that does not depend on its limits. -/
theorem C128_drive (hG : ∀ g, G g → g.OnlyForces) (hw : World.Hist G .opt h w)
    (hst : w.Standard h) (hI : ∀ b ∈ regBodies h, 0 < (w.bodies b).I) (hsle : w.sle = some .ge)
    (hdt : 0 < dt) (e : w.process .opt env dt 1 = .ok w') {c b : Nat} (hc : c ∈ regCons h)
    {r : ConstantRotation ℝ} (hk : (w.cons c).kind = .constantRotation r)
    (hb : (w.cons c).bodies 0 = .obj b) (ho : w.attached h b = {c}) :
    (w'.bodies b).v_theta = -r.rotationSpeed ∧
      (w'.cons c).F_t 0 0 = -((w.bodies b).v_theta + r.rotationSpeed) * (w.bodies b).I / dt -
        w.load w.now b .th := by
  have cn := hst.kind c hc
  simp only [hk, CKind.counts, Option.some.injEq, Prod.mk.injEq] at cn
  exact unlimited hG hw hst hI hsle hdt e hc cn.1.symm cn.2.symm hb ho
    (by simp only [World.rowsOf, hk]; rfl) (by simp only [World.rowsOf, hk]; rfl)
    (by simp only [World.rowsOf, hk]; rfl) (by simp only [World.rowsOf, hk]; rfl)
    (by simp only [World.rowsOf, hk]; rfl)

/-- The claim applied to a drive with the torque limits -2 and 2, which exerts the torque -12. -/
example (env : Env ℝ) : ∃ (h : List (Op ℝ)) (w w' : World ℝ), World.Hist Gen.Shipped .opt h w ∧
    (w.cons 0).kind = .constantRotation ⟨1, -2, 2, 0, 0⟩ ∧ w.process .opt env (1 / 2) 1 = .ok w' ∧
    (w'.bodies 0).v_theta = -1 ∧ (w'.cons 0).F_t 0 0 = -12 := by
  obtain ⟨h, w, w', d, hst, e⟩ := demo_turns (turns_constant ⟨1, -2, 2, 0, 0⟩) (g := .gravity 9)
    trivial trivial (sv := .ge) trivial (dt := 1 / 2) (by norm_num) 1 env
  have v0 : (w.bodies 0).v_theta = 5 := d.vel 0 .th
  have ho : w.attached h 0 = {0} := by
    ext c
    rw [World.attached, mem_filter, d.regC]
    constructor
    · exact fun hc => by simpa using hc.1
    · intro hc
      have : c = 0 := mem_singleton.mp hc
      subst this
      exact ⟨by simp, 0, by rw [d.count]; decide, d.bodies 0 0⟩
  obtain ⟨q1, q2⟩ := C128_drive (fun g => Gen.tame) d.hist hst
    (fun b _ => by rw [d.I]; norm_num) d.sle (by norm_num) e (d.mem0 rfl) (d.kind 0) (d.bodies 0 0) ho
  rw [v0, d.I, demo_free d] at q2
  exact ⟨h, w, w', d.hist, d.kind 0, e, q1, by rw [q2]; norm_num⟩

/-- **C128**, friction: with Gaussian elimination a friction, alone on its body, stops it within a single
sub-step; the torque it exerts for that does not depend on its limits. -/
theorem C128_friction (hG : ∀ g, G g → g.OnlyForces) (hw : World.Hist G .opt h w)
    (hst : w.Standard h) (hI : ∀ b ∈ regBodies h, 0 < (w.bodies b).I) (hsle : w.sle = some .ge)
    (hdt : 0 < dt) (e : w.process .opt env dt 1 = .ok w') {c b : Nat} (hc : c ∈ regCons h)
    {r : RotationFriction ℝ} (hk : (w.cons c).kind = .rotationFriction r)
    (hb : (w.cons c).bodies 0 = .obj b) (ho : w.attached h b = {c}) :
    (w'.bodies b).v_theta = 0 ∧
      (w'.cons c).F_t 0 0 = -(w.bodies b).v_theta * (w.bodies b).I / dt - w.load w.now b .th := by
  have cn := hst.kind c hc
  simp only [hk, CKind.counts, Option.some.injEq, Prod.mk.injEq] at cn
  have q := unlimited (β := 0) hG hw hst hI hsle hdt e hc cn.1.symm cn.2.symm hb ho
    (by simp only [World.rowsOf, hk]; rfl) (by simp only [World.rowsOf, hk]; rfl)
    (by simp only [World.rowsOf, hk]; rfl) (by simp only [World.rowsOf, hk]; rfl)
    (by simp only [World.rowsOf, hk]; rfl)
  rwa [neg_zero, add_zero] at q

/-- The claim applied to a friction with the torque limits -2 and 2, which exerts the torque -10. -/
example (env : Env ℝ) : ∃ (h : List (Op ℝ)) (w w' : World ℝ), World.Hist Gen.Shipped .opt h w ∧
    (w.cons 0).kind = .rotationFriction ⟨-2, 2, 0, 0⟩ ∧ w.process .opt env (1 / 2) 1 = .ok w' ∧
    (w'.bodies 0).v_theta = 0 ∧ (w'.cons 0).F_t 0 0 = -10 := by
  obtain ⟨h, w, w', d, hst, e⟩ := demo_turns (turns_friction ⟨-2, 2, 0, 0⟩) (g := .gravity 9)
    trivial trivial (sv := .ge) trivial (dt := 1 / 2) (by norm_num) 1 env
  have v0 : (w.bodies 0).v_theta = 5 := d.vel 0 .th
  have ho : w.attached h 0 = {0} := by
    ext c
    rw [World.attached, mem_filter, d.regC]
    constructor
    · exact fun hc => by simpa using hc.1
    · intro hc
      have : c = 0 := mem_singleton.mp hc
      subst this
      exact ⟨by simp, 0, by rw [d.count]; decide, d.bodies 0 0⟩
  obtain ⟨q1, q2⟩ := C128_friction (fun g => Gen.tame) d.hist hst
    (fun b _ => by rw [d.I]; norm_num) d.sle (by norm_num) e (d.mem0 rfl) (d.kind 0) (d.bodies 0 0) ho
  rw [v0, d.I, demo_free d] at q2
  exact ⟨h, w, w', d.hist, d.kind 0, e, q1, by rw [q2]; norm_num⟩

/-- The only constraint of a body acts on it with its reported force. -/
theorem pair_force (hG : ∀ g, G g → g.OnlyForces) (hw : World.Hist G .opt h w) (hst : w.Standard h)
    {c b1 b2 : Nat} (hc : c ∈ regCons h) (hr : (w.cons c).rows = 1) (hn : (w.cons c).bodyCount = 2)
    (h1 : (w.cons c).bodies 0 = .obj b1) (h2 : (w.cons c).bodies 1 = .obj b2) (hne : b1 ≠ b2)
    {k b : Nat} (hb : k = 0 ∧ b = b1 ∨ k = 1 ∧ b = b2) (ho : w.attached h b = {c})
    (F : Nat → Coord → Nat → Nat → ℝ) (q : Coord) : w.conForce F b q = F c q 0 k := by
  have p := (hw.ready hG hst.wired).2
  have e1 : w.bodyOf c 0 = b1 := by rw [World.bodyOf, h1]
  have e2 : w.bodyOf c 1 = b2 := by rw [World.bodyOf, h2]
  rw [World.conForce, hw.regs.cs_finset, sum_eq_single_of_mem c hc]
  · rw [hr, hn, sum_range_one, sum_range_succ, sum_range_one, e1, e2]
    rcases hb with ⟨rfl, rfl⟩ | ⟨rfl, rfl⟩
    · rw [if_pos rfl, if_neg hne.symm, add_zero]
    · rw [if_neg hne, if_pos rfl, zero_add]
  · intro c' hc' hne
    refine sum_eq_zero fun j _ => sum_eq_zero fun k hk => if_neg fun e => hne ?_
    have : c' ∈ w.attached h b := by
      rw [World.attached, mem_filter]
      exact ⟨hc', k, mem_range.mp hk, by
        rw [← e]; exact (p.bodies c' ((hw.regs.cons.mem c').mpr hc') k (mem_range.mp hk)).1⟩
    rw [ho] at this
    exact mem_singleton.mp this

/-- **C128**, clutch: with Gaussian elimination a clutch, alone on its two bodies, brings them to the same
speed within a single sub-step; the torques it exerts for that are opposite and do not depend on its
limits. -/
theorem C128_clutch (hG : ∀ g, G g → g.OnlyForces) (hw : World.Hist G .opt h w)
    (hst : w.Standard h) (hI : ∀ b ∈ regBodies h, 0 < (w.bodies b).I) (hsle : w.sle = some .ge)
    (hdt : 0 < dt) (e : w.process .opt env dt 1 = .ok w') {c b1 b2 : Nat} (hc : c ∈ regCons h)
    {r : Clutch ℝ} (hk : (w.cons c).kind = .clutch r) (h1 : (w.cons c).bodies 0 = .obj b1)
    (h2 : (w.cons c).bodies 1 = .obj b2) (hne : b1 ≠ b2) (o1 : w.attached h b1 = {c})
    (o2 : w.attached h b2 = {c}) :
    (w'.bodies b1).v_theta = (w'.bodies b2).v_theta ∧
      (w'.cons c).F_t 0 0 = -(w'.cons c).F_t 0 1 ∧
      (w'.cons c).F_t 0 1 = (((w.bodies b1).v_theta + dt * w.load w.now b1 .th / (w.bodies b1).I) -
        ((w.bodies b2).v_theta + dt * w.load w.now b2 .th / (w.bodies b2).I)) /
          (dt * (1 / (w.bodies b1).I + 1 / (w.bodies b2).I)) := by
  have cn := hst.kind c hc
  simp only [hk, CKind.counts, Option.some.injEq, Prod.mk.injEq] at cn
  have p := (hw.ready hG hst.wired).2
  have hc' := (hw.regs.cons.mem c).mpr hc
  have e1 : w.bodyOf c 0 = b1 := by rw [World.bodyOf, h1]
  have e2 : w.bodyOf c 1 = b2 := by rw [World.bodyOf, h2]
  have m1 : b1 ∈ regBodies h := (hw.regs.bodies.mem b1).mp (by
    rw [← e1]; exact (p.bodies c hc' 0 (by omega)).2)
  have m2 : b2 ∈ regBodies h := (hw.regs.bodies.mem b2).mp (by
    rw [← e2]; exact (p.bodies c hc' 1 (by omega)).2)
  have r0 := C48_velocity_condition hG hw hst hsle e hc (j := 0) (by omega)
  have jj : ∀ k, (w.rowsOf w.now c).J 0 k = (CKind.clutch r).jT (w.now.q w c) 0 k := fun k => by
    rw [← hk]; rfl
  have c0 : (w.rowsOf w.now c).C 0 = 0 := by simp only [World.rowsOf, hk]; rfl
  have b0 : (w.rowsOf w.now c).v_bias 0 = 0 := by simp only [World.rowsOf, hk]; rfl
  rw [rowAt_two _ _ _ cn.2.symm h1 h2] at r0
  simp only [show (w.rowsOf w.now c).J 0 0 = 0 from jj 0, show (w.rowsOf w.now c).J 0 1 = 0 from jj 1,
    show (w.rowsOf w.now c).J 0 2 = -1 from jj 2, show (w.rowsOf w.now c).J 0 3 = 0 from jj 3,
    show (w.rowsOf w.now c).J 0 4 = 0 from jj 4, show (w.rowsOf w.now c).J 0 5 = 1 from jj 5, c0, b0,
    Body.vel] at r0
  have hv : (w'.bodies b1).v_theta = (w'.bodies b2).v_theta := by linarith
  obtain ⟨X, mult, h0, hm⟩ := hw.moved hG hst e
  have f0 : (w'.cons c).F_t 0 0 = mult 0 c 0 * (w.rowsOf (X 0) c).J 0 2 :=
    hm.forces 0 rfl c hc' .th 0 0 (by omega) (by omega)
  have f1 : (w'.cons c).F_t 0 1 = mult 0 c 0 * (w.rowsOf (X 0) c).J 0 5 :=
    hm.forces 0 rfl c hc' .th 0 1 (by omega) (by omega)
  rw [h0, show (w.rowsOf w.now c).J 0 2 = -1 from jj 2] at f0
  rw [h0, show (w.rowsOf w.now c).J 0 5 = 1 from jj 5] at f1
  have hF : (w'.cons c).F_t 0 0 = -(w'.cons c).F_t 0 1 := by rw [f0, f1]; ring
  refine ⟨hv, hF, ?_⟩
  have n1 := (C49_one_step hG hw hst.wired hst.gens e m1 .th).1
  have n2 := (C49_one_step hG hw hst.wired hst.gens e m2 .th).1
  rw [pair_force hG hw hst hc cn.1.symm cn.2.symm h1 h2 hne (k := 0) (.inl ⟨rfl, rfl⟩) o1] at n1
  rw [pair_force hG hw hst hc cn.1.symm cn.2.symm h1 h2 hne (k := 1) (.inr ⟨rfl, rfl⟩) o2] at n2
  have n1' : (w'.bodies b1).v_theta = (w.bodies b1).v_theta +
      dt * ((w.load w.now b1 .th + (w'.cons c).F_t 0 0) / (w.bodies b1).I) := n1
  have n2' : (w'.bodies b2).v_theta = (w.bodies b2).v_theta +
      dt * ((w.load w.now b2 .th + (w'.cons c).F_t 0 1) / (w.bodies b2).I) := n2
  rw [hF] at n1'
  rw [n1', n2'] at hv
  have i1 := hI b1 m1
  have i2 := hI b2 m2
  have hK : 0 < dt * (1 / (w.bodies b1).I + 1 / (w.bodies b2).I) := by positivity
  rw [eq_div_iff hK.ne']
  linear_combination -hv

/-- The claim applied to a clutch with the torque limits -2 and 2, which exerts the torques -5 and 5. -/
example (env : Env ℝ) : ∃ (h : List (Op ℝ)) (w w' : World ℝ), World.Hist Gen.Shipped .opt h w ∧
    (w.cons 0).kind = .clutch ⟨-2, 2, 0, 0⟩ ∧ w.process .opt env (1 / 2) 1 = .ok w' ∧
    (w'.bodies 0).v_theta = (w'.bodies 1).v_theta ∧ (w'.cons 0).F_t 0 1 = 5 := by
  obtain ⟨h, w, w', d, hst, e⟩ := demo_turns (turns_clutch ⟨-2, 2, 0, 0⟩) (g := .gravity 9)
    trivial trivial (sv := .ge) trivial (dt := 1 / 2) (by norm_num) 1 env
  have v0 : (w.bodies 0).v_theta = 5 := d.vel 0 .th
  have v1 : (w.bodies 1).v_theta = 0 := d.vel 1 .th
  have ho : ∀ k, k < 2 → w.attached h k = {0} := by
    intro k hk
    ext c
    rw [World.attached, mem_filter, d.regC]
    constructor
    · exact fun hc => by simpa using hc.1
    · intro hc
      have : c = 0 := mem_singleton.mp hc
      subst this
      refine ⟨by simp, k, ?_, d.bodies 0 k⟩
      rw [d.count]
      exact hk
  obtain ⟨q1, -, q2⟩ := C128_clutch (fun g => Gen.tame) d.hist hst
    (fun b _ => by rw [d.I]; norm_num) d.sle (by norm_num) e (d.mem0 rfl) (d.kind 0) (d.bodies 0 0)
    (d.bodies 0 1) (by decide) (ho 0 (by decide)) (ho 1 (by decide))
  rw [v0, v1, d.I, d.I, demo_free d, demo_free d] at q2
  exact ⟨h, w, w', d.hist, d.kind 0, e, q1, by rw [q2]; norm_num⟩

end

end Scs
