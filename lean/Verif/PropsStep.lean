import Verif.WorldMove
import Verif.WorldDemo

/-!
# Properties of a step of the optimized system

C48, C49, C50, C51. `World.Hist G .opt h w` says that `w` is the world after the actions `h` of a
program on one `OptimizedNsvRigidBodySystem`; `World.Standard w h` says that the registered
constraints and force generators are shipped ones, attached to registered bodies, and that the
bodies that carry constraints are among the first 255 (their index is stored in one byte, see C73). `w.now` are the positions and velocities the bodies have in `w`;
`w.rowsOf x c` are the values a shipped constraint `c` must have in the motion `x` (C37 to C41 relate
them to what the code computes), `w.load x b q` is the sum of the forces the force generators must
exert on body `b` (C42 to C45).
-/

namespace Scs

open Finset

section
variable {G : Gen ℝ → Prop} {h : List (Op ℝ)} {w w' : World ℝ} {env : Env ℝ} {dt : ℝ} {steps : Int}

theorem World.Regs.rb_finset {cls : Cls} (r : w.Regs cls h) : w.rb.toFinset = regBodies h := by
  ext b; rw [List.mem_toFinset, r.bodies.mem]

theorem World.Regs.cs_finset {cls : Cls} (r : w.Regs cls h) : w.cs.toFinset = regCons h := by
  ext b; rw [List.mem_toFinset, r.cons.mem]

theorem World.Regs.fg_finset {cls : Cls} (r : w.Regs cls h) : w.fg.toFinset = regGens h := by
  ext b; rw [List.mem_toFinset, r.gens.mem]

theorem World.Regs.cs_nil {cls : Cls} (r : w.Regs cls h) : w.cs = [] ↔ regCons h = ∅ := by
  rw [← r.cs_finset, List.toFinset_eq_empty_iff]

theorem World.Shows.now {x : Motion} (hs : w.Shows x w.bodies)
    (ha : ∀ b ∈ w.rb, ∀ q : Coord, x.acc b q = 0) : w.SameAs w.now x :=
  ⟨fun b hb q => (hs b hb q).1.symm, fun b hb q => (hs b hb q).2.symm,
    fun b hb q => (ha b hb q).symm⟩

theorem row_shown {x : Motion} (p : w.Placed) {bs : Nat → Body ℝ} (hs : w.Shows x bs) {c : Nat}
    (hc : c ∈ w.cs) (o : Output ℝ) (j : Nat) :
    w.rowAt o c j x.vel = w.rowAt o c j (fun b => (bs b).vel) :=
  sum_congr rfl fun k hk => Coord.sum_congr fun q => by
    rw [(hs _ (p.bodies c hc k (mem_range.mp hk)).2 q).2]

/-! ## C48 -/

/-- **C48**: after `process(dt, 1)` with Gaussian elimination the new velocities satisfy
`J v' + v_bias + (biasFactor / dt) C = 0` in every row of every registered constraint, with `J`, `C`
and `v_bias` taken at the start of the step. -/
theorem C48_velocity_condition (hG : ∀ g, G g → g.OnlyForces) (hw : World.Hist G .opt h w)
    (hst : w.Standard h) (hsle : w.sle = some .ge) (e : w.process .opt env dt 1 = .ok w') {c : Nat}
    (hc : c ∈ regCons h) {j : Nat} (hj : j < (w.cons c).rows) :
    w.rowAt (w.rowsOf w.now c) c j (fun b => (w'.bodies b).vel) + (w.rowsOf w.now c).v_bias j +
      w.bias / dt * (w.rowsOf w.now c).C j = 0 := by
  have hc' := (hw.regs.cons.mem c).mpr hc
  have p := (hw.ready hG hst.wired).2
  obtain ⟨X, mult, h0, hm⟩ := hw.moved hG hst e
  have s := (hm.step 0 (by decide)).ge hsle c hc' j hj
  have hl : w.Shows (X (0 + 1)) w'.bodies := hm.last
  rw [row_shown p hl hc', h0] at s
  simpa using s

/-- The hypotheses can be met: two turning bodies in a gear under gravity. -/
example (l : SimpleGear ℝ) (env : Env ℝ) : ∃ (h : List (Op ℝ)) (w w' : World ℝ),
    World.Hist Gen.Shipped .opt h w ∧ w.Standard h ∧ w.sle = some .ge ∧
      w.process .opt env 2 1 = .ok w' ∧ 0 ∈ regCons h ∧ 0 < (w.cons 0).rows := by
  obtain ⟨h, w, w', d, hst, e⟩ := demo_turns (turns_gear l) (g := .gravity 9) trivial trivial
    (sv := .ge) trivial (two_ne_zero) 1 env
  exact ⟨h, w, w', d.hist, hst, d.sle, e, d.mem0 rfl, by rw [d.rows]; exact one_pos⟩

/-- **C48**, several sub-steps: `X j` is the motion before sub-step `j`; each sub-step of length
`dt / steps` ends with velocities that satisfy the conditions taken at its start. -/
theorem C48_every_sub_step (hG : ∀ g, G g → g.OnlyForces) (hw : World.Hist G .opt h w)
    (hst : w.Standard h) (hsle : w.sle = some .ge) (e : w.process .opt env dt steps = .ok w') :
    ∃ X : Nat → Motion, X 0 = w.now ∧
      (∀ b ∈ regBodies h, ∀ q : Coord, (X steps.toNat).pos b q = (w'.bodies b).pos q ∧
        (X steps.toNat).vel b q = (w'.bodies b).vel q) ∧
      ∀ i, i < steps.toNat → ∀ c ∈ regCons h, ∀ j, j < (w.cons c).rows →
        w.rowAt (w.rowsOf (X i) c) c j (X (i + 1)).vel + (w.rowsOf (X i) c).v_bias j +
          w.bias / (dt / steps) * (w.rowsOf (X i) c).C j = 0 := by
  obtain ⟨X, mult, h0, hm⟩ := hw.moved hG hst e
  exact ⟨X, h0, fun b hb q => hm.last b ((hw.regs.bodies.mem b).mpr hb) q, fun i hi c hc j hj =>
    (hm.step i hi).ge hsle c ((hw.regs.cons.mem c).mpr hc) j hj⟩

/-- The hypotheses can be met with several sub-steps. -/
example (l : SimpleGear ℝ) (env : Env ℝ) : ∃ (h : List (Op ℝ)) (w w' : World ℝ),
    World.Hist Gen.Shipped .opt h w ∧ w.Standard h ∧ w.sle = some .ge ∧
      w.process .opt env 2 4 = .ok w' ∧ 0 ∈ regCons h := by
  obtain ⟨h, w, w', d, hst, e⟩ := demo_turns (turns_gear l) (g := .gravity 9) trivial trivial
    (sv := .ge) trivial (two_ne_zero) 4 env
  exact ⟨h, w, w', d.hist, hst, d.sle, e, d.mem0 rfl⟩

/-- **C48**: with Gaussian elimination and at least one constraint, `process(dt, 1)` succeeds exactly
if `dt` and all masses and moments of inertia are non-zero and the constraint matrix at the start of
the step is non-singular. -/
theorem C48_succeeds_iff (hG : ∀ g, G g → g.OnlyForces) (hw : World.Hist G .opt h w)
    (hst : w.Standard h) (hsle : w.sle = some .ge) (hne : regCons h ≠ ∅) :
    (∃ w', w.process .opt env dt 1 = .ok w') ↔
      dt ≠ 0 ∧ (∀ b ∈ regBodies h, (w.bodies b).m ≠ 0 ∧ (w.bodies b).I ≠ 0) ∧
        w.Indep (w.rowsOf w.now) := by
  have p := (hw.ready hG hst.wired).2
  have hb : ∀ b, b ∈ w.rb ↔ b ∈ regBodies h := hw.regs.bodies.mem
  constructor
  · rintro ⟨w', e⟩
    obtain ⟨X, mult, h0, hm⟩ := hw.moved hG hst e
    have s := hm.step 0 (by decide)
    rw [h0] at s
    refine ⟨fun h => s.ne (by rw [h, zero_div]), fun b hb' => ⟨?_, ?_⟩, s.indep hsle⟩
    · exact hm.mass b ((hb b).mpr hb') .x
    · exact hm.mass b ((hb b).mpr hb') .th
  · rintro ⟨hdt, hmass, hi⟩
    refine World.Hist.goes hG hw hst (fun b hb' q => ?_) hdt (by rw [hsle]; simp)
      (fun j x => j = 0 → w.SameAs w.now x) (fun x hx ha _ => World.Shows.now hx ha)
      (fun j hj x x' mult _ _ h => absurd h (Nat.succ_ne_zero j)) (fun j hj x hx _ => ?_)
      (fun h => absurd (hw.regs.cs_nil.mp h) hne) env
    · have := hmass b ((hb b).mp hb')
      cases q
      · exact this.1
      · exact this.1
      · exact this.2
    · have hj0 : j = 0 := by
        have : j < 1 := hj
        omega
      simp only [World.Solvable, hsle]
      exact (sameRows_congr p (hx hj0)).indep hi

/-- The equivalence applied: the rows of a system that can be processed are independent. -/
example (l : Link ℝ) (env : Env ℝ) : ∃ (h : List (Op ℝ)) (w : World ℝ),
    World.Hist Gen.Shipped .opt h w ∧ 0 ∈ regCons h ∧ w.Indep (w.rowsOf w.now) := by
  obtain ⟨h, w, w', d, hst, e⟩ := demo_pins (pins_link l) (g := .gravity 9) trivial trivial
    (sv := .ge) trivial (by simp) (two_ne_zero) 1 env
  exact ⟨h, w, d.hist, d.mem0 rfl, ((C48_succeeds_iff (fun g => Gen.tame) d.hist hst d.sle
    (Finset.ne_empty_of_mem (d.mem0 rfl))).mp ⟨w', e⟩).2.2⟩

/-- The motion with the positions at the start and the velocities at the end of a step. -/
def World.half (w w' : World ℝ) : Motion := ⟨w.now.pos, fun b => (w'.bodies b).vel, fun _ _ => 0⟩

theorem rowAt_two {c b1 b2 : Nat} (o : Output ℝ) (j : Nat) (v : Nat → Coord → ℝ)
    (hn : (w.cons c).bodyCount = 2) (h1 : (w.cons c).bodies 0 = .obj b1)
    (h2 : (w.cons c).bodies 1 = .obj b2) : w.rowAt o c j v =
      o.J j 0 * v b1 .x + o.J j 1 * v b1 .y + o.J j 2 * v b1 .th +
        (o.J j 3 * v b2 .x + o.J j 4 * v b2 .y + o.J j 5 * v b2 .th) := by
  have e1 : w.bodyOf c 0 = b1 := by rw [World.bodyOf, h1]
  have e2 : w.bodyOf c 1 = b2 := by rw [World.bodyOf, h2]
  rw [World.rowAt, hn, sum_range_succ, sum_range_one, e1, e2]
  simp only [Coord.sum, Coord.d]

theorem rowAt_one {c b1 : Nat} (o : Output ℝ) (j : Nat) (v : Nat → Coord → ℝ)
    (hn : (w.cons c).bodyCount = 1) (h1 : (w.cons c).bodies 0 = .obj b1) : w.rowAt o c j v =
      o.J j 0 * v b1 .x + o.J j 1 * v b1 .y + o.J j 2 * v b1 .th := by
  have e1 : w.bodyOf c 0 = b1 := by rw [World.bodyOf, h1]
  rw [World.rowAt, hn, sum_range_one, e1]
  simp only [Coord.sum, Coord.d]

theorem q_two {x : Motion} {c b1 b2 : Nat} (hn : (w.cons c).bodyCount = 2)
    (h1 : (w.cons c).bodies 0 = .obj b1) (h2 : (w.cons c).bodies 1 = .obj b2) :
    x.q w c 0 = x.pos b1 .x ∧ x.q w c 1 = x.pos b1 .y ∧ x.q w c 2 = x.pos b1 .th ∧
      x.q w c 3 = x.pos b2 .x ∧ x.q w c 4 = x.pos b2 .y ∧ x.q w c 5 = x.pos b2 .th := by
  have e1 : w.bodyOf c 0 = b1 := by rw [World.bodyOf, h1]
  have e2 : w.bodyOf c 1 = b2 := by rw [World.bodyOf, h2]
  simp [Motion.q, hn, coordOf, e1, e2]

theorem q_one {x : Motion} {c b1 : Nat} (hn : (w.cons c).bodyCount = 1)
    (h1 : (w.cons c).bodies 0 = .obj b1) :
    x.q w c 0 = x.pos b1 .x ∧ x.q w c 1 = x.pos b1 .y ∧ x.q w c 2 = x.pos b1 .th := by
  have e1 : w.bodyOf c 0 = b1 := by rw [World.bodyOf, h1]
  simp [Motion.q, hn, coordOf, e1]

/-- **C48** for a link: after the step the velocities of the two linked points (of the old positions)
differ by `-(biasFactor / dt)` times the distance vector the points had. -/
theorem C48_link (hG : ∀ g, G g → g.OnlyForces) (hw : World.Hist G .opt h w)
    (hst : w.Standard h) (hsle : w.sle = some .ge) (e : w.process .opt env dt 1 = .ok w')
    {c b1 b2 : Nat} (hc : c ∈ regCons h) {l : Link ℝ} (hk : (w.cons c).kind = .link l)
    (h1 : (w.cons c).bodies 0 = .obj b1) (h2 : (w.cons c).bodies 1 = .obj b2) :
    (w.half w').pointVel b1 l.local_x_1 l.local_y_1 - (w.half w').pointVel b2 l.local_x_2 l.local_y_2 =
      -(w.bias / dt) • (w.now.point b1 l.local_x_1 l.local_y_1 -
        w.now.point b2 l.local_x_2 l.local_y_2) := by
  have hcount := hst.kind c hc
  simp only [hk, CKind.counts, Option.some.injEq, Prod.mk.injEq] at hcount
  obtain ⟨hr, hn⟩ := hcount
  have r0 := C48_velocity_condition hG hw hst hsle e hc (j := 0) (by omega)
  have r1 := C48_velocity_condition hG hw hst hsle e hc (j := 1) (by omega)
  obtain ⟨q0, q1, q2, q3, q4, q5⟩ := q_two (x := w.now) hn.symm h1 h2
  rw [rowAt_two _ _ _ hn.symm h1 h2] at r0 r1
  simp only [World.rowsOf, hk, CKind.jT, CKind.cT, CKind.biasT, q0, q1, q2, q3, q4, q5, rx, ry]
    at r0 r1
  refine Prod.ext ?_ ?_
  · simp only [Motion.pointVel, Motion.point, World.half, Prod.fst_sub, Prod.smul_fst, smul_eq_mul]
    linear_combination r0
  · simp only [Motion.pointVel, Motion.point, World.half, Prod.snd_sub, Prod.smul_snd, smul_eq_mul]
    linear_combination r1

/-- The claim applied to two linked bodies. -/
example (env : Env ℝ) : ∃ (h : List (Op ℝ)) (w w' : World ℝ), World.Hist Gen.Shipped .opt h w ∧
    w.process .opt env 2 1 = .ok w' ∧
    (w.half w').pointVel 0 1 3 - (w.half w').pointVel 1 4 7 =
      -(w.bias / 2) • (w.now.point 0 1 3 - w.now.point 1 4 7) := by
  obtain ⟨h, w, w', d, hst, e⟩ := demo_pins (pins_link ⟨1, 3, 4, 7, 9, 0, 0⟩) (g := .gravity 9)
    trivial trivial (sv := .ge) trivial (by simp) (two_ne_zero) 1 env
  exact ⟨h, w, w', d.hist, e, C48_link (fun g => Gen.tame) d.hist hst d.sle e (d.mem0 rfl)
    (d.kind 0) (d.bodies 0 0) (d.bodies 0 1)⟩

/-- **C48** for a pinned point: after the step the velocity of the point (of the old position) is
`-(biasFactor / dt)` times its distance vector from the place it is pinned to. -/
theorem C48_fixed_position (hG : ∀ g, G g → g.OnlyForces) (hw : World.Hist G .opt h w)
    (hst : w.Standard h) (hsle : w.sle = some .ge) (e : w.process .opt env dt 1 = .ok w')
    {c b : Nat} (hc : c ∈ regCons h) {l : FixedPosition ℝ} (hk : (w.cons c).kind = .fixedPosition l)
    (h1 : (w.cons c).bodies 0 = .obj b) :
    (w.half w').pointVel b l.local_x l.local_y =
      -(w.bias / dt) • (w.now.point b l.local_x l.local_y - (l.world_x, l.world_y)) := by
  have hcount := hst.kind c hc
  simp only [hk, CKind.counts, Option.some.injEq, Prod.mk.injEq] at hcount
  obtain ⟨hr, hn⟩ := hcount
  have r0 := C48_velocity_condition hG hw hst hsle e hc (j := 0) (by omega)
  have r1 := C48_velocity_condition hG hw hst hsle e hc (j := 1) (by omega)
  obtain ⟨q0, q1, q2⟩ := q_one (x := w.now) hn.symm h1
  rw [rowAt_one _ _ _ hn.symm h1] at r0 r1
  simp only [World.rowsOf, hk, CKind.jT, CKind.cT, CKind.biasT, q0, q1, q2, rx, ry]
    at r0 r1
  refine Prod.ext ?_ ?_
  · simp only [Motion.pointVel, Motion.point, World.half, Prod.fst_sub, Prod.smul_fst, smul_eq_mul]
    linear_combination r0
  · simp only [Motion.pointVel, Motion.point, World.half, Prod.snd_sub, Prod.smul_snd, smul_eq_mul]
    linear_combination r1

/-- The claim applied to a body fixed at a point. -/
example (env : Env ℝ) : ∃ (h : List (Op ℝ)) (w w' : World ℝ), World.Hist Gen.Shipped .opt h w ∧
    w.process .opt env 2 1 = .ok w' ∧
    (w.half w').pointVel 0 1 3 = -(w.bias / 2) • (w.now.point 0 1 3 - (5, 6)) := by
  obtain ⟨h, w, w', d, hst, e⟩ := demo_pins (pins_fixed ⟨1, 3, 5, 6, 0, 0⟩) (g := .gravity 9)
    trivial trivial (sv := .ge) trivial (by simp) (two_ne_zero) 1 env
  exact ⟨h, w, w', d.hist, e, C48_fixed_position (fun g => Gen.tame) d.hist hst d.sle e
    (d.mem0 rfl) (d.kind 0) (d.bodies 0 0)⟩

/-- **C48** for a point on a line: after the step the velocity of the point (of the old position)
perpendicular to the line is `-(biasFactor / dt)` times its distance from the line (both times the
length of the direction vector). -/
theorem C48_line (hG : ∀ g, G g → g.OnlyForces) (hw : World.Hist G .opt h w)
    (hst : w.Standard h) (hsle : w.sle = some .ge) (e : w.process .opt env dt 1 = .ok w')
    {c b : Nat} (hc : c ∈ regCons h) {l : Line ℝ} (hk : (w.cons c).kind = .line l)
    (h1 : (w.cons c).bodies 0 = .obj b) :
    ((w.half w').pointVel b l.local_x l.local_y).1 * -l.dy +
        ((w.half w').pointVel b l.local_x l.local_y).2 * l.dx =
      -(w.bias / dt) * (((w.now.point b l.local_x l.local_y).1 - l.p0_x) * -l.dy +
        ((w.now.point b l.local_x l.local_y).2 - l.p0_y) * l.dx) := by
  have hcount := hst.kind c hc
  simp only [hk, CKind.counts, Option.some.injEq, Prod.mk.injEq] at hcount
  obtain ⟨hr, hn⟩ := hcount
  have r0 := C48_velocity_condition hG hw hst hsle e hc (j := 0) (by omega)
  obtain ⟨q0, q1, q2⟩ := q_one (x := w.now) hn.symm h1
  rw [rowAt_one _ _ _ hn.symm h1] at r0
  simp only [World.rowsOf, hk, CKind.jT, CKind.cT, CKind.biasT, q0, q1, q2, rx, ry] at r0
  simp only [Motion.pointVel, Motion.point, World.half]
  linear_combination r0

/-- The claim applied to a body on an oblique line. -/
example (env : Env ℝ) : ∃ (h : List (Op ℝ)) (w w' : World ℝ), World.Hist Gen.Shipped .opt h w ∧
    w.process .opt env 2 1 = .ok w' ∧
    ((w.half w').pointVel 0 1 2).1 * -4 + ((w.half w').pointVel 0 1 2).2 * 3 =
      -(w.bias / 2) * (((w.now.point 0 1 2).1 - 5) * -4 + ((w.now.point 0 1 2).2 - 6) * 3) := by
  obtain ⟨h, w, w', d, hst, e⟩ := demo_turns (turns_line ⟨1, 2, 5, 6, 3, 4, 0, 0⟩ (by norm_num))
    (g := .gravity 9) trivial trivial (sv := .ge) trivial (two_ne_zero) 1 env
  exact ⟨h, w, w', d.hist, e, C48_line (fun g => Gen.tame) d.hist hst d.sle e (d.mem0 rfl) (d.kind 0)
    (d.bodies 0 0)⟩

/-- **C48** for a gear: after the step `ω₁ = ratio * ω₂`. -/
theorem C48_gear (hG : ∀ g, G g → g.OnlyForces) (hw : World.Hist G .opt h w)
    (hst : w.Standard h) (hsle : w.sle = some .ge) (e : w.process .opt env dt 1 = .ok w')
    {c b1 b2 : Nat} (hc : c ∈ regCons h) {l : SimpleGear ℝ} (hk : (w.cons c).kind = .simpleGear l)
    (h1 : (w.cons c).bodies 0 = .obj b1) (h2 : (w.cons c).bodies 1 = .obj b2) :
    (w'.bodies b1).v_theta = l.ratio * (w'.bodies b2).v_theta := by
  have hcount := hst.kind c hc
  simp only [hk, CKind.counts, Option.some.injEq, Prod.mk.injEq] at hcount
  obtain ⟨hr, hn⟩ := hcount
  have r0 := C48_velocity_condition hG hw hst hsle e hc (j := 0) (by omega)
  rw [rowAt_two _ _ _ hn.symm h1 h2] at r0
  simp only [World.rowsOf, hk, CKind.jT, CKind.cT, CKind.biasT, Body.vel] at r0
  linear_combination r0

/-- The claim applied to two geared bodies that start with unrelated speeds. -/
example (env : Env ℝ) : ∃ (h : List (Op ℝ)) (w w' : World ℝ), World.Hist Gen.Shipped .opt h w ∧
    (w.bodies 0).v_theta = 5 ∧ (w.bodies 1).v_theta = 0 ∧ w.process .opt env 2 1 = .ok w' ∧
    (w'.bodies 0).v_theta = 3 * (w'.bodies 1).v_theta := by
  obtain ⟨h, w, w', d, hst, e⟩ := demo_turns (turns_gear ⟨3, false, 0, 0⟩) (g := .gravity 9)
    trivial trivial (sv := .ge) trivial (two_ne_zero) 1 env
  exact ⟨h, w, w', d.hist, d.vel 0 .th, d.vel 1 .th, e, C48_gear (fun g => Gen.tame) d.hist hst
    d.sle e (d.mem0 rfl) (d.kind 0) (d.bodies 0 0) (d.bodies 0 1)⟩

/-- **C48** for a clutch: after the step the two bodies turn with the same speed (Gaussian
elimination ignores the torque limits). -/
theorem C48_clutch (hG : ∀ g, G g → g.OnlyForces) (hw : World.Hist G .opt h w)
    (hst : w.Standard h) (hsle : w.sle = some .ge) (e : w.process .opt env dt 1 = .ok w')
    {c b1 b2 : Nat} (hc : c ∈ regCons h) {l : Clutch ℝ} (hk : (w.cons c).kind = .clutch l)
    (h1 : (w.cons c).bodies 0 = .obj b1) (h2 : (w.cons c).bodies 1 = .obj b2) :
    (w'.bodies b1).v_theta = (w'.bodies b2).v_theta := by
  have hcount := hst.kind c hc
  simp only [hk, CKind.counts, Option.some.injEq, Prod.mk.injEq] at hcount
  obtain ⟨hr, hn⟩ := hcount
  have r0 := C48_velocity_condition hG hw hst hsle e hc (j := 0) (by omega)
  rw [rowAt_two _ _ _ hn.symm h1 h2] at r0
  simp only [World.rowsOf, hk, CKind.jT, CKind.cT, CKind.biasT, Body.vel] at r0
  linear_combination -r0

/-- The claim applied to two coupled bodies that start with different speeds. -/
example (env : Env ℝ) : ∃ (h : List (Op ℝ)) (w w' : World ℝ), World.Hist Gen.Shipped .opt h w ∧
    (w.bodies 0).v_theta = 5 ∧ (w.bodies 1).v_theta = 0 ∧ w.process .opt env 2 1 = .ok w' ∧
    (w'.bodies 0).v_theta = (w'.bodies 1).v_theta := by
  obtain ⟨h, w, w', d, hst, e⟩ := demo_turns (turns_clutch ⟨-1, 1, 0, 0⟩) (g := .gravity 9)
    trivial trivial (sv := .ge) trivial (two_ne_zero) 1 env
  exact ⟨h, w, w', d.hist, d.vel 0 .th, d.vel 1 .th, e, C48_clutch (fun g => Gen.tame) d.hist hst
    d.sle e (d.mem0 rfl) (d.kind 0) (d.bodies 0 0) (d.bodies 0 1)⟩

/-- **C48** for a constant rotation: after the step the body turns with minus the configured speed
(the sign is that of `v_bias`). -/
theorem C48_constant_rotation (hG : ∀ g, G g → g.OnlyForces) (hw : World.Hist G .opt h w)
    (hst : w.Standard h) (hsle : w.sle = some .ge) (e : w.process .opt env dt 1 = .ok w')
    {c b : Nat} (hc : c ∈ regCons h) {l : ConstantRotation ℝ}
    (hk : (w.cons c).kind = .constantRotation l) (h1 : (w.cons c).bodies 0 = .obj b) :
    (w'.bodies b).v_theta = -l.rotationSpeed := by
  have hcount := hst.kind c hc
  simp only [hk, CKind.counts, Option.some.injEq, Prod.mk.injEq] at hcount
  obtain ⟨hr, hn⟩ := hcount
  have r0 := C48_velocity_condition hG hw hst hsle e hc (j := 0) (by omega)
  rw [rowAt_one _ _ _ hn.symm h1] at r0
  simp only [World.rowsOf, hk, CKind.jT, CKind.cT, CKind.biasT, Body.vel] at r0
  linear_combination r0

/-- The claim applied to a body that starts with another speed. -/
example (env : Env ℝ) : ∃ (h : List (Op ℝ)) (w w' : World ℝ), World.Hist Gen.Shipped .opt h w ∧
    (w.bodies 0).v_theta = 5 ∧ w.process .opt env 2 1 = .ok w' ∧ (w'.bodies 0).v_theta = -7 := by
  obtain ⟨h, w, w', d, hst, e⟩ := demo_turns (turns_constant ⟨7, -1, 1, 0, 0⟩) (g := .gravity 9)
    trivial trivial (sv := .ge) trivial (two_ne_zero) 1 env
  exact ⟨h, w, w', d.hist, d.vel 0 .th, e, C48_constant_rotation (fun g => Gen.tame) d.hist hst
    d.sle e (d.mem0 rfl) (d.kind 0) (d.bodies 0 0)⟩

/-- **C48** for a fixed rotation: after the step the angular velocity is `-(biasFactor / dt)` times
the deviation of the angle. -/
theorem C48_fixed_rotation (hG : ∀ g, G g → g.OnlyForces) (hw : World.Hist G .opt h w)
    (hst : w.Standard h) (hsle : w.sle = some .ge) (e : w.process .opt env dt 1 = .ok w')
    {c b : Nat} (hc : c ∈ regCons h) {l : FixedRotation ℝ}
    (hk : (w.cons c).kind = .fixedRotation l) (h1 : (w.cons c).bodies 0 = .obj b) :
    (w'.bodies b).v_theta = -(w.bias / dt) * ((w.bodies b).theta - l.rotation) := by
  have hcount := hst.kind c hc
  simp only [hk, CKind.counts, Option.some.injEq, Prod.mk.injEq] at hcount
  obtain ⟨hr, hn⟩ := hcount
  have r0 := C48_velocity_condition hG hw hst hsle e hc (j := 0) (by omega)
  obtain ⟨q0, q1, q2⟩ := q_one (x := w.now) hn.symm h1
  rw [rowAt_one _ _ _ hn.symm h1] at r0
  simp only [World.rowsOf, hk, CKind.jT, CKind.cT, CKind.biasT, q2] at r0
  simp only [World.now, Body.vel, Body.pos] at r0
  linear_combination r0

/-- The claim applied to a turning body. -/
example (env : Env ℝ) : ∃ (h : List (Op ℝ)) (w w' : World ℝ), World.Hist Gen.Shipped .opt h w ∧
    (w.bodies 0).v_theta = 5 ∧ w.process .opt env 2 1 = .ok w' ∧
    (w'.bodies 0).v_theta = -(w.bias / 2) * ((w.bodies 0).theta - 3) := by
  obtain ⟨h, w, w', d, hst, e⟩ := demo_turns (turns_fixed ⟨3, 0, 0⟩) (g := .gravity 9)
    trivial trivial (sv := .ge) trivial (two_ne_zero) 1 env
  exact ⟨h, w, w', d.hist, d.vel 0 .th, e, C48_fixed_rotation (fun g => Gen.tame) d.hist hst
    d.sle e (d.mem0 rfl) (d.kind 0) (d.bodies 0 0)⟩

/-! ## C49 -/

/-- **C49**: in each sub-step, of length `dt / steps`, every body changes its velocity by
`dt / steps * (force of the generators + constraint forces) / mass` and its position by `dt / steps`
times the new velocity. `X j` is the motion before sub-step `j` and `F j` the constraint forces in
it; those of the last sub-step are the reported ones. The constraints may be of any kind, also
derived outside the library, and attached to any of the bodies. -/
theorem C49_newton (hG : ∀ g, G g → g.OnlyForces) (hw : World.Hist G .opt h w)
    (hwd : w.Wired h) (hgn : ∀ g ∈ regGens h, (w.gens g).Within (· ∈ regBodies h))
    (e : w.process .opt env dt steps = .ok w') :
    ∃ (X : Nat → Motion) (F : Nat → Nat → Coord → Nat → Nat → ℝ), X 0 = w.now ∧
      (∀ b ∈ regBodies h, ∀ q : Coord, (X steps.toNat).pos b q = (w'.bodies b).pos q ∧
        (X steps.toNat).vel b q = (w'.bodies b).vel q) ∧
      (∀ n, steps.toNat = n + 1 → ∀ c ∈ regCons h, ∀ (q : Coord) j k, j < (w.cons c).rows →
        k < (w.cons c).bodyCount → (w'.cons c).F q j k = F n c q j k) ∧
      ∀ i, i < steps.toNat → ∀ b ∈ regBodies h, ∀ q : Coord, (w.bodies b).mass q ≠ 0 ∧
        (X (i + 1)).acc b q =
          (w.load (X i) b q + w.conForce (F i) b q) / (w.bodies b).mass q ∧
        (X (i + 1)).vel b q = (X i).vel b q + dt / steps * (X (i + 1)).acc b q ∧
        (X (i + 1)).pos b q = (X i).pos b q + dt / steps * (X (i + 1)).vel b q := by
  obtain ⟨X, ext, out, mult, F, hm⟩ := hw.processed hG hwd e
  have p := (hw.ready hG hwd).2
  have hg := hw.driven hgn
  have hb : ∀ b ∈ regBodies h, b ∈ w.rb := fun b => (hw.regs.bodies.mem b).mpr
  have s : ∀ j, w.SameAs (X j) (if j = 0 then w.now else X j) := by
    intro j
    by_cases hj : j = 0
    · subst hj
      rw [if_pos rfl]
      exact ⟨fun b hb q => (hm.first b hb q).1, fun b hb q => (hm.first b hb q).2,
        fun b hb q => hm.still b hb q⟩
    · rw [if_neg hj]
      exact ⟨fun _ _ _ => rfl, fun _ _ _ => rfl, fun _ _ _ => rfl⟩
  refine ⟨fun j => if j = 0 then w.now else X j, F, if_pos rfl, fun b hb' q => ?_,
    fun n hn c hc q j k hj hk => hm.forces n hn c ((hw.regs.cons.mem c).mpr hc) q j k hj hk,
    fun i hi b hb' q => ⟨hm.mass b (hb b hb') q, ?_⟩⟩
  · beta_reduce
    rw [← (s steps.toNat).pos b (hb b hb') q, ← (s steps.toNat).vel b (hb b hb') q]
    exact hm.last b (hb b hb') q
  · have st := hm.step i hi
    beta_reduce
    rw [← (s i).pos b (hb b hb') q, ← (s i).vel b (hb b hb') q, ← load_congr hg (s i) (hb b hb') q,
      if_neg (Nat.succ_ne_zero i), ← st.load p hg (hb b hb') q]
    exact ⟨st.acc b (hb b hb') q, st.vel b (hb b hb') q, st.pos b (hb b hb') q⟩

/-- The hypotheses can be met with every solver. -/
example {sv : Solver ℝ} (hsv : sv.Fine) (env : Env ℝ) : ∃ (h : List (Op ℝ)) (w w' : World ℝ),
    World.Hist Gen.Shipped .opt h w ∧ w.Standard h ∧ w.sle = some sv ∧
      w.process .opt env 2 4 = .ok w' ∧ regBodies h = {0, 1} ∧ 0 ∈ regCons h := by
  obtain ⟨h, w, w', d, hst, e⟩ := demo_link (l := ⟨0, 0, 0, 0, 10, 0, 0⟩) ⟨rfl, rfl, rfl, rfl⟩
    (g := .gravity 9) trivial trivial hsv (two_ne_zero) 4 env
  exact ⟨h, w, w', d.hist, hst, d.sle, e, d.regB, d.mem0 rfl⟩

/-- **C49**, one step, in what can be observed: the change of velocity is `dt / mass` times the force
of the generators plus the reported constraint forces, and the change of position is `dt` times the
new velocity. -/
theorem C49_one_step (hG : ∀ g, G g → g.OnlyForces) (hw : World.Hist G .opt h w)
    (hwd : w.Wired h) (hgn : ∀ g ∈ regGens h, (w.gens g).Within (· ∈ regBodies h))
    (e : w.process .opt env dt 1 = .ok w') {b : Nat} (hb : b ∈ regBodies h)
    (q : Coord) :
    (w'.bodies b).vel q = (w.bodies b).vel q +
        dt * ((w.load w.now b q + w.conForce (fun c => (w'.cons c).F) b q) / (w.bodies b).mass q) ∧
      (w'.bodies b).pos q = (w.bodies b).pos q + dt * (w'.bodies b).vel q := by
  obtain ⟨X, F, h0, h1, h2, h3⟩ := C49_newton hG hw hwd hgn e
  obtain ⟨_, ha, hv, hp⟩ := h3 0 (by decide) b hb q
  obtain ⟨l1, l2⟩ := h1 b hb q
  have hF : w.conForce (fun c => (w'.cons c).F) b q = w.conForce (F 0) b q :=
    conForce_congr (fun c hc q j k hj hk => h2 0 rfl c ((hw.regs.cons.mem c).mp hc) q j k hj hk) b q
  have t1 : (1 : Int).toNat = 0 + 1 := rfl
  rw [t1] at l1 l2
  rw [hF, ← l1, ← l2]
  rw [hp, hv, ha, h0]
  simp [World.now]

/-- The claim applied to the vertical motion of a linked body under gravity. -/
example (env : Env ℝ) : ∃ (h : List (Op ℝ)) (w w' : World ℝ), World.Hist Gen.Shipped .opt h w ∧
    w.process .opt env 2 1 = .ok w' ∧ (w'.bodies 0).vel .y = (w.bodies 0).vel .y +
      2 * ((w.load w.now 0 .y + w.conForce (fun c => (w'.cons c).F) 0 .y) / (w.bodies 0).mass .y) ∧
    (w'.bodies 0).pos .y = (w.bodies 0).pos .y + 2 * (w'.bodies 0).vel .y := by
  obtain ⟨h, w, w', d, hst, e⟩ := demo_pins (pins_link ⟨1, 3, 4, 7, 9, 0, 0⟩) (g := .gravity 9)
    trivial trivial (sv := .cg 2 0 0) (le_refl 2) (by simp) (two_ne_zero) 1 env
  exact ⟨h, w, w', d.hist, e, C49_one_step (fun g => Gen.tame) d.hist hst.wired hst.gens e d.bodies_mem.1 .y⟩

/-- A body without constraints feels no constraint force. -/
theorem conForce_free {b : Nat} (hb : ∀ c ∈ w.cs, ∀ k, k < (w.cons c).bodyCount → w.bodyOf c k ≠ b)
    (F : Nat → Coord → Nat → Nat → ℝ) (q : Coord) : w.conForce F b q = 0 := by
  refine sum_eq_zero fun c hc => sum_eq_zero fun j _ => sum_eq_zero fun k hk => ?_
  rw [if_neg (hb c (List.mem_toFinset.mp hc) k (mem_range.mp hk))]

/-- **C49**: a body in no constraint moves under the force of the generators alone. -/
theorem C49_free_body (hG : ∀ g, G g → g.OnlyForces) (hw : World.Hist G .opt h w)
    (hwd : w.Wired h) (hgn : ∀ g ∈ regGens h, (w.gens g).Within (· ∈ regBodies h))
    (e : w.process .opt env dt steps = .ok w') :
    ∃ X : Nat → Motion, X 0 = w.now ∧
      (∀ b ∈ regBodies h, ∀ q : Coord, (X steps.toNat).pos b q = (w'.bodies b).pos q ∧
        (X steps.toNat).vel b q = (w'.bodies b).vel q) ∧
      ∀ i, i < steps.toNat → ∀ b ∈ regBodies h,
        (∀ c ∈ regCons h, ∀ k, k < (w.cons c).bodyCount → (w.cons c).bodies k ≠ .obj b) →
        ∀ q : Coord, (X (i + 1)).vel b q =
            (X i).vel b q + dt / steps * (w.load (X i) b q / (w.bodies b).mass q) ∧
          (X (i + 1)).pos b q = (X i).pos b q + dt / steps * (X (i + 1)).vel b q := by
  obtain ⟨X, F, h0, h1, _, h3⟩ := C49_newton hG hw hwd hgn e
  have p := (hw.ready hG hwd).2
  refine ⟨X, h0, h1, fun i hi b hb hf q => ?_⟩
  obtain ⟨_, ha, hv, hp⟩ := h3 i hi b hb q
  rw [conForce_free (fun c hc k hk e' => ?_), add_zero] at ha
  · exact ⟨by rw [hv, ha], hp⟩
  · have := (p.bodies c hc k hk).1
    rw [e'] at this
    exact hf c ((hw.regs.cons.mem c).mp hc) k hk this

/-- The hypotheses can be met: a rotation is imposed on body 0, body 1 is in no constraint. -/
example (env : Env ℝ) : ∃ (h : List (Op ℝ)) (w w' : World ℝ), World.Hist Gen.Shipped .opt h w ∧
    w.Standard h ∧ w.process .opt env 2 4 = .ok w' ∧ 0 ∈ regCons h ∧ 1 ∈ regBodies h ∧
    ∀ c ∈ regCons h, ∀ k, k < (w.cons c).bodyCount → (w.cons c).bodies k ≠ .obj 1 := by
  obtain ⟨h, w, w', d, hst, e⟩ := demo_turns (turns_constant ⟨7, -1, 1, 0, 0⟩) (g := .gravity 9)
    trivial trivial (sv := .ge) trivial (two_ne_zero) 4 env
  refine ⟨h, w, w', d.hist, hst, e, d.mem0 rfl, d.bodies_mem.2, fun c _ k hk => ?_⟩
  rw [d.count] at hk
  have hk : k < 1 := hk
  rw [d.bodies]
  simp
  omega

/-! ## C50 -/

/-- **C50**: with Gauss-Seidel and `dt > 0` the reported forces of each row of each constraint are a
multiple `μ` of the row of the Jacobian, with `μ` within the limits of the row; `x` is the motion
before the last sub-step. -/
theorem C50_limits (hG : ∀ g, G g → g.OnlyForces) (hw : World.Hist G .opt h w)
    (hst : w.Standard h) {m : Nat} {ε : ℝ} (hsle : w.sle = some (.gs m ε)) (hdt : 0 < dt)
    (hs : 0 < steps) (e : w.process .opt env dt steps = .ok w') :
    ∃ x : Motion, (steps = 1 → x = w.now) ∧ ∀ c ∈ regCons h, ∀ j, j < (w.cons c).rows →
      (w.cons c).kind.loT ≤ (w.cons c).kind.hiT →
      ∃ μ, (w.cons c).kind.loT ≤ μ ∧ μ ≤ (w.cons c).kind.hiT ∧
        ∀ (q : Coord) k, k < (w.cons c).bodyCount →
          (w'.cons c).F q j k = μ * (w.rowsOf x c).J j (k * 3 + q.d) := by
  obtain ⟨X, mult, h0, hm⟩ := hw.moved hG hst e
  obtain ⟨n, hn⟩ : ∃ n, steps.toNat = n + 1 := ⟨steps.toNat - 1, by omega⟩
  have hpos : 0 < dt / steps := div_pos hdt (by exact_mod_cast hs)
  refine ⟨X n, fun h1 => ?_, fun c hc j hj hl => ?_⟩
  · have : n = 0 := by omega
    rw [this, h0]
  · have hc' := (hw.regs.cons.mem c).mpr hc
    obtain ⟨l1, l2⟩ := (hm.step n (by omega)).gs m ε hsle hpos c hc' j hj hl
    exact ⟨mult n c j, l1, l2, fun q k hk => hm.forces n hn c hc' q j k hj hk⟩

/-- The hypotheses can be met. -/
example (env : Env ℝ) : ∃ (h : List (Op ℝ)) (w w' : World ℝ), World.Hist Gen.Shipped .opt h w ∧
    w.Standard h ∧ w.sle = some (.gs 3 1) ∧ w.process .opt env 2 4 = .ok w' ∧ 0 ∈ regCons h ∧
    0 < (w.cons 0).rows ∧ (w.cons 0).kind.loT ≤ (w.cons 0).kind.hiT := by
  obtain ⟨h, w, w', d, hst, e⟩ := demo_turns (turns_clutch ⟨-1, 1, 0, 0⟩) (g := .gravity 9)
    trivial trivial (sv := .gs 3 1) ⟨by omega, one_pos⟩ (two_ne_zero) 4 env
  refine ⟨h, w, w', d.hist, hst, d.sle, e, d.mem0 rfl, by rw [d.rows]; exact one_pos, ?_⟩
  rw [d.kind]
  simp [CKind.loT, CKind.hiT]

/-- **C50** for a clutch: the reported torques on the two bodies are equal and opposite, the torque
on the second body lies between the configured limits, and there are no forces. -/
theorem C50_clutch (hG : ∀ g, G g → g.OnlyForces) (hw : World.Hist G .opt h w)
    (hst : w.Standard h) {m : Nat} {ε : ℝ} (hsle : w.sle = some (.gs m ε)) (hdt : 0 < dt)
    (hs : 0 < steps) (e : w.process .opt env dt steps = .ok w') {c : Nat} (hc : c ∈ regCons h)
    {l : Clutch ℝ} (hk : (w.cons c).kind = .clutch l) (hl : l.minTorque ≤ l.maxTorque) :
    l.minTorque ≤ (w'.cons c).F_t 0 1 ∧ (w'.cons c).F_t 0 1 ≤ l.maxTorque ∧
      (w'.cons c).F_t 0 0 = -(w'.cons c).F_t 0 1 ∧
      ∀ k, k < 2 → (w'.cons c).F_x 0 k = 0 ∧ (w'.cons c).F_y 0 k = 0 := by
  have hcount := hst.kind c hc
  simp only [hk, CKind.counts, Option.some.injEq, Prod.mk.injEq] at hcount
  obtain ⟨hr, hn⟩ := hcount
  obtain ⟨x, _, hx⟩ := C50_limits hG hw hst hsle hdt hs e
  obtain ⟨μ, l1, l2, hF⟩ := hx c hc 0 (by omega) (by rw [hk]; exact hl)
  have f : ∀ (q : Coord) k, k < 2 → (w'.cons c).F q 0 k = μ * CKind.jT (.clutch l) (x.q w c) 0
      (k * 3 + q.d) := fun q k hk2 => by
    rw [hF q k (by omega)]
    simp only [World.rowsOf, hk]
  have t0 : (w'.cons c).F_t 0 0 = -μ := by
    have := f .th 0 (by decide)
    simp only [CKind.jT, Coord.d] at this
    exact this.trans (by ring)
  have t1 : (w'.cons c).F_t 0 1 = μ := by
    have := f .th 1 (by decide)
    simp only [CKind.jT, Coord.d] at this
    exact this.trans (by ring)
  rw [hk] at l1 l2
  rw [t0, t1]
  refine ⟨l1, l2, rfl, fun k hk2 => ?_⟩
  have a := f .x k hk2
  have b := f .y k hk2
  have : k = 0 ∨ k = 1 := by omega
  rcases this with rfl | rfl <;>
    exact ⟨a.trans (by simp [CKind.jT, Coord.d]), b.trans (by simp [CKind.jT, Coord.d])⟩

/-- The claim applied to a clutch between bodies of different speeds. -/
example (env : Env ℝ) : ∃ (h : List (Op ℝ)) (w w' : World ℝ), World.Hist Gen.Shipped .opt h w ∧
    (w.bodies 0).v_theta = 5 ∧ (w.bodies 1).v_theta = 0 ∧ w.process .opt env 2 4 = .ok w' ∧
    -1 ≤ (w'.cons 0).F_t 0 1 ∧ (w'.cons 0).F_t 0 1 ≤ 1 ∧
    (w'.cons 0).F_t 0 0 = -(w'.cons 0).F_t 0 1 := by
  obtain ⟨h, w, w', d, hst, e⟩ := demo_turns (turns_clutch ⟨-1, 1, 0, 0⟩) (g := .gravity 9)
    trivial trivial (sv := .gs 3 1) ⟨by omega, one_pos⟩ (two_ne_zero) 4 env
  have q := C50_clutch (fun g => Gen.tame) d.hist hst d.sle two_pos (by norm_num) e (d.mem0 rfl)
    (d.kind 0) (by norm_num)
  exact ⟨h, w, w', d.hist, d.vel 0 .th, d.vel 1 .th, e, q.1, q.2.1, q.2.2.1⟩

/-- **C50** for a link: each row reports equal and opposite forces on the two bodies, whose size is
at most the configured maximum: row 0 along x, row 1 along y. -/
theorem C50_link (hG : ∀ g, G g → g.OnlyForces) (hw : World.Hist G .opt h w)
    (hst : w.Standard h) {m : Nat} {ε : ℝ} (hsle : w.sle = some (.gs m ε)) (hdt : 0 < dt)
    (hs : 0 < steps) (e : w.process .opt env dt steps = .ok w') {c : Nat} (hc : c ∈ regCons h)
    {l : Link ℝ} (hk : (w.cons c).kind = .link l) (hl : 0 ≤ l.maxForce) :
    (|(w'.cons c).F_x 0 0| ≤ l.maxForce ∧ (w'.cons c).F_x 0 1 = -(w'.cons c).F_x 0 0 ∧
      (w'.cons c).F_y 0 0 = 0 ∧ (w'.cons c).F_y 0 1 = 0) ∧
    (|(w'.cons c).F_y 1 0| ≤ l.maxForce ∧ (w'.cons c).F_y 1 1 = -(w'.cons c).F_y 1 0 ∧
      (w'.cons c).F_x 1 0 = 0 ∧ (w'.cons c).F_x 1 1 = 0) := by
  have hcount := hst.kind c hc
  simp only [hk, CKind.counts, Option.some.injEq, Prod.mk.injEq] at hcount
  obtain ⟨hr, hn⟩ := hcount
  obtain ⟨x, _, hx⟩ := C50_limits hG hw hst hsle hdt hs e
  have f : ∀ j, j < 2 → ∃ μ, |μ| ≤ l.maxForce ∧ ∀ (q : Coord) k, k < 2 → (w'.cons c).F q j k =
      μ * CKind.jT (.link l) (x.q w c) j (k * 3 + q.d) := fun j hj => by
    obtain ⟨μ, l1, l2, hF⟩ := hx c hc j (by omega) (by rw [hk]; exact neg_le_self hl)
    rw [hk] at l1 l2
    refine ⟨μ, abs_le.mpr ⟨l1, l2⟩, fun q k hk2 => ?_⟩
    rw [hF q k (by omega)]
    simp only [World.rowsOf, hk]
  obtain ⟨μ, hμ, f0⟩ := f 0 (by decide)
  obtain ⟨ν, hν, f1⟩ := f 1 (by decide)
  have x00 : (w'.cons c).F_x 0 0 = μ := (f0 .x 0 (by decide)).trans (by simp [CKind.jT, Coord.d])
  have x01 : (w'.cons c).F_x 0 1 = -μ := (f0 .x 1 (by decide)).trans (by simp [CKind.jT, Coord.d])
  have y00 : (w'.cons c).F_y 0 0 = 0 := (f0 .y 0 (by decide)).trans (by simp [CKind.jT, Coord.d])
  have y01 : (w'.cons c).F_y 0 1 = 0 := (f0 .y 1 (by decide)).trans (by simp [CKind.jT, Coord.d])
  have x10 : (w'.cons c).F_x 1 0 = 0 := (f1 .x 0 (by decide)).trans (by simp [CKind.jT, Coord.d])
  have x11 : (w'.cons c).F_x 1 1 = 0 := (f1 .x 1 (by decide)).trans (by simp [CKind.jT, Coord.d])
  have y10 : (w'.cons c).F_y 1 0 = ν := (f1 .y 0 (by decide)).trans (by simp [CKind.jT, Coord.d])
  have y11 : (w'.cons c).F_y 1 1 = -ν := (f1 .y 1 (by decide)).trans (by simp [CKind.jT, Coord.d])
  rw [x00, x01, y00, y01, x10, x11, y10, y11]
  exact ⟨⟨hμ, rfl, rfl, rfl⟩, hν, rfl, rfl, rfl⟩

/-- The claim applied to two linked bodies. -/
example (env : Env ℝ) : ∃ (h : List (Op ℝ)) (w w' : World ℝ), World.Hist Gen.Shipped .opt h w ∧
    w.process .opt env 2 4 = .ok w' ∧ |(w'.cons 0).F_x 0 0| ≤ 10 ∧ |(w'.cons 0).F_y 1 0| ≤ 10 := by
  obtain ⟨h, w, w', d, hst, e⟩ := demo_link (l := ⟨0, 0, 0, 0, 10, 0, 0⟩) ⟨rfl, rfl, rfl, rfl⟩
    (g := .gravity 9) trivial trivial (sv := .gs 3 1) ⟨by omega, one_pos⟩ (two_ne_zero) 4 env
  have q := C50_link (fun g => Gen.tame) d.hist hst d.sle two_pos (by norm_num) e (d.mem0 rfl)
    (d.kind 0) (by norm_num)
  exact ⟨h, w, w', d.hist, e, q.1.1, q.2.1⟩

/-- **C50** for constraints on the rotation of one body: the reported torque lies between the
configured limits and there is no force. -/
theorem C50_rotation (hG : ∀ g, G g → g.OnlyForces) (hw : World.Hist G .opt h w)
    (hst : w.Standard h) {m : Nat} {ε : ℝ} (hsle : w.sle = some (.gs m ε)) (hdt : 0 < dt)
    (hs : 0 < steps) (e : w.process .opt env dt steps = .ok w') {c : Nat} (hc : c ∈ regCons h)
    {lo hi : ℝ} (hk : (∃ p : ConstantRotation ℝ, (w.cons c).kind = .constantRotation p ∧
        p.minTorque = lo ∧ p.maxTorque = hi) ∨
      ∃ p : RotationFriction ℝ, (w.cons c).kind = .rotationFriction p ∧
        p.minTorque = lo ∧ p.maxTorque = hi) (hl : lo ≤ hi) :
    lo ≤ (w'.cons c).F_t 0 0 ∧ (w'.cons c).F_t 0 0 ≤ hi ∧ (w'.cons c).F_x 0 0 = 0 ∧
      (w'.cons c).F_y 0 0 = 0 := by
  have hcount := hst.kind c hc
  obtain ⟨x, _, hx⟩ := C50_limits hG hw hst hsle hdt hs e
  rcases hk with ⟨p, hk, h1, h2⟩ | ⟨p, hk, h1, h2⟩ <;>
  · simp only [hk, CKind.counts, Option.some.injEq, Prod.mk.injEq] at hcount
    obtain ⟨hr, hn⟩ := hcount
    obtain ⟨μ, l1, l2, hF⟩ := hx c hc 0 (by omega) (by
      rw [hk]
      simp only [CKind.loT, CKind.hiT, h1, h2]
      exact hl)
    rw [hk] at l1 l2
    simp only [CKind.loT, CKind.hiT, h1, h2] at l1 l2
    have ft := hF .th 0 (by omega)
    have fx := hF .x 0 (by omega)
    have fy := hF .y 0 (by omega)
    simp only [World.rowsOf, hk, CKind.jT, Coord.d] at ft fx fy
    have t : (w'.cons c).F_t 0 0 = μ := ft.trans (by ring)
    rw [t]
    exact ⟨l1, l2, fx.trans (by ring), fy.trans (by ring)⟩

/-- The claim applied to friction on a turning body. -/
example (env : Env ℝ) : ∃ (h : List (Op ℝ)) (w w' : World ℝ), World.Hist Gen.Shipped .opt h w ∧
    (w.bodies 0).v_theta = 5 ∧ w.process .opt env 2 4 = .ok w' ∧
    -1 ≤ (w'.cons 0).F_t 0 0 ∧ (w'.cons 0).F_t 0 0 ≤ 1 := by
  obtain ⟨h, w, w', d, hst, e⟩ := demo_turns (turns_friction ⟨-1, 1, 0, 0⟩) (g := .gravity 9)
    trivial trivial (sv := .gs 3 1) ⟨by omega, one_pos⟩ (two_ne_zero) 4 env
  have q := C50_rotation (fun g => Gen.tame) d.hist hst d.sle two_pos (by norm_num) e (d.mem0 rfl)
    (.inr ⟨_, d.kind 0, rfl, rfl⟩) (by norm_num)
  exact ⟨h, w, w', d.hist, d.vel 0 .th, e, q.1, q.2.1⟩

/-! ## C51 -/

/-- **C51** for the optimized system (the generic one violates it): the reported forces of row `j` on
the bodies of a constraint are one multiple `μ c j` of the entries of row `j` of the Jacobian in the
last sub-step, from the motion `x` to the motion `x'` that the bodies have afterwards, and together
with the forces of the generators they are what accelerated the bodies in it. -/
theorem C51_reported_forces_partial (hG : ∀ g, G g → g.OnlyForces) (hw : World.Hist G .opt h w)
    (hst : w.Standard h) (hs : 0 < steps) (e : w.process .opt env dt steps = .ok w') :
    ∃ (x : Motion) (μ : Nat → Nat → ℝ), (steps = 1 → x = w.now) ∧
      (∀ c ∈ regCons h, ∀ (q : Coord) j k, j < (w.cons c).rows → k < (w.cons c).bodyCount →
        (w'.cons c).F q j k = μ c j * (w.rowsOf x c).J j (k * 3 + q.d)) ∧
      ∀ b ∈ regBodies h, ∀ q : Coord,
        (w.bodies b).mass q * ((w'.bodies b).vel q - x.vel b q) =
          dt / steps * (w.load x b q + w.conForce (fun c => (w'.cons c).F) b q) ∧
        (w'.bodies b).pos q = x.pos b q + dt / steps * (w'.bodies b).vel q := by
  obtain ⟨X, mult, h0, hm⟩ := hw.moved hG hst e
  obtain ⟨n, hn⟩ : ∃ n, steps.toNat = n + 1 := ⟨steps.toNat - 1, by omega⟩
  refine ⟨X n, mult n, fun h1 => ?_, fun c hc q j k hj hk => ?_, fun b hb q => ?_⟩
  · have : n = 0 := by omega
    rw [this, h0]
  · exact hm.forces n hn c ((hw.regs.cons.mem c).mpr hc) q j k hj hk
  · have hb' := (hw.regs.bodies.mem b).mpr hb
    have s := hm.step n (by omega)
    obtain ⟨l1, l2⟩ := hm.last b hb' q
    rw [hn] at l1 l2
    rw [← l1, ← l2, conForce_congr (fun c hc q j k hj hk => hm.forces n hn c hc q j k hj hk),
      s.pos b hb' q, s.vel b hb' q, s.acc b hb' q]
    have := hm.mass b hb' q
    refine ⟨?_, rfl⟩
    field_simp
    ring

/-- The hypotheses can be met with every solver. -/
example {sv : Solver ℝ} (hsv : sv.Fine) (env : Env ℝ) : ∃ (h : List (Op ℝ)) (w w' : World ℝ),
    World.Hist Gen.Shipped .opt h w ∧ w.Standard h ∧ w.sle = some sv ∧
      w.process .opt env 2 4 = .ok w' ∧ regBodies h = {0, 1} ∧ 0 ∈ regCons h := by
  obtain ⟨h, w, w', d, hst, e⟩ := demo_turns (turns_gear ⟨3, false, 0, 0⟩) (g := .gravity 9)
    trivial trivial hsv (two_ne_zero) 4 env
  exact ⟨h, w, w', d.hist, hst, d.sle, e, d.regB, d.mem0 rfl⟩

end

end Scs
