import Verif.WorldEnergy

/-!
# Work, kinetic energy and angular momentum

C66, C67; see `PropsStep.lean` for the notions used.
-/

namespace Scs

open Finset

section
variable {G : Gen ℝ → Prop} {h : List (Op ℝ)} {w w' : World ℝ} {env : Env ℝ} {dt : ℝ} {steps : Int}

/-! ## C66 -/

/-- The registered constraints are satisfied: they have no position error and ask for no speed. -/
def World.Satisfied (w : World ℝ) (h : List (Op ℝ)) : Prop :=
  ∀ c ∈ regCons h, ∀ j, j < (w.cons c).rows →
    (w.rowsOf w.now c).C j = 0 ∧ (w.rowsOf w.now c).v_bias j = 0

/-- **C66**: after `process(dt, 1)` of a system whose constraints were satisfied, with Gaussian
elimination, the reported constraint forces do no work: their total power on the bodies, at the
velocities the step ends with, is zero. -/
theorem C66_no_work (hG : ∀ g, G g → g.OnlyForces) (hw : World.Hist G .opt h w)
    (hst : w.Standard h) (hsle : w.sle = some .ge) (hz : w.Satisfied h)
    (e : w.process .opt env dt 1 = .ok w') :
    ∑ c ∈ regCons h, ∑ j ∈ range (w.cons c).rows, ∑ k ∈ range (w.cons c).bodyCount,
      ((w'.cons c).F_x j k * (w'.bodies (w.bodyOf c k)).v_x +
        (w'.cons c).F_y j k * (w'.bodies (w.bodyOf c k)).v_y +
        (w'.cons c).F_t j k * (w'.bodies (w.bodyOf c k)).v_theta) = 0 := by
  have p := (hw.ready hG hst.wired).2
  obtain ⟨X, mult, h0, hm⟩ := hw.moved hG hst e
  have st := hm.step 0 (by decide)
  rw [h0] at st
  have key := power_step p hsle st fun c hc => hz c ((hw.regs.cons.mem c).mp hc)
  rw [conForce_power p, hw.regs.cs_finset] at key
  refine Eq.trans (sum_congr rfl fun c hc => sum_congr rfl fun j hj => sum_congr rfl
    fun k hk => ?_) key
  have hc' := (hw.regs.cons.mem c).mpr hc
  have hl := hm.last _ (p.bodies c hc' k (mem_range.mp hk)).2
  have t1 : (1 : Int).toNat = 0 + 1 := rfl
  rw [t1] at hl
  have hf : ∀ q : Coord, (w'.cons c).F q j k = w.reaction w.now (mult 0) c q j k := fun q => by
    rw [hm.forces 0 rfl c hc' q j k (mem_range.mp hj) (mem_range.mp hk), h0]
  simp only [Coord.sum, (hl _).2, ← hf]
  rfl

/-- The claim applied to a turning body held at a point, under gravity. -/
example (env : Env ℝ) : ∃ (h : List (Op ℝ)) (w w' : World ℝ), World.Hist Gen.Shipped .opt h w ∧
    w.Satisfied h ∧ (w.bodies 0).v_theta = 5 ∧ w.process .opt env 2 1 = .ok w' ∧
    ∑ j ∈ range 2, ∑ k ∈ range 1,
      ((w'.cons 0).F_x j k * (w'.bodies (w.bodyOf 0 k)).v_x +
        (w'.cons 0).F_y j k * (w'.bodies (w.bodyOf 0 k)).v_y +
        (w'.cons 0).F_t j k * (w'.bodies (w.bodyOf 0 k)).v_theta) = 0 := by
  obtain ⟨h, w, w', d, hst, e⟩ := demo_pins (pins_fixed ⟨1, 3, 1, 3, 0, 0⟩) (g := .gravity 9)
    trivial trivial (sv := .ge) trivial (by simp) (two_ne_zero) 1 env
  have hr : (w.cons 0).rows = 2 := d.rows 0
  have hn : (w.cons 0).bodyCount = 1 := d.count 0
  have hz : w.Satisfied h := by
    intro c hc j hj
    rw [d.regC] at hc
    obtain rfl : c = 0 := by simpa using hc
    obtain ⟨q0, q1, q2⟩ := q_one (x := w.now) hn (d.bodies 0 0)
    have hp : ∀ b q, w.now.pos b q = (demoBody b).pos q := d.pos
    have : j = 0 ∨ j = 1 := by omega
    simp only [World.rowsOf, d.kind]
    rcases this with rfl | rfl <;>
      simp [CKind.cT, CKind.biasT, q0, q1, q2, hp, demoBody, Body.pos, rx, ry]
  have q := C66_no_work (fun g => Gen.tame) d.hist hst d.sle hz e
  rw [d.regC] at q
  simp only [List.toFinset_cons, List.toFinset_nil, insert_empty_eq, sum_singleton, hr, hn] at q
  exact ⟨h, w, w', d.hist, hz, d.vel 0 .th, e, q⟩

/-- The energy of the velocity changes between two worlds. -/
noncomputable def changeEnergy (w : World ℝ) (S : Finset Nat) (v v' : Nat → Coord → ℝ) : ℝ :=
  ∑ b ∈ S, ((w.bodies b).m * ((v' b .x - v b .x) ^ 2 + (v' b .y - v b .y) ^ 2) +
    (w.bodies b).I * (v' b .th - v b .th) ^ 2) / 2

theorem energyOf_change (S : Finset Nat) (hS : w.rb.toFinset = S) (v v' : Nat → Coord → ℝ) :
    w.energyOf (fun b q => v' b q - v b q) = changeEnergy w S v v' := by
  rw [World.energyOf, changeEnergy, hS]
  refine sum_congr rfl fun b _ => ?_
  simp only [Coord.sum, Body.mass]
  ring

/-- **C66**: a step of a system whose constraints were satisfied and on which no forces act loses
exactly the kinetic energy of the velocity change the constraints cause. -/
theorem C66_energy_balance (hG : ∀ g, G g → g.OnlyForces) (hw : World.Hist G .opt h w)
    (hst : w.Standard h) (hsle : w.sle = some .ge) (hz : w.Satisfied h) (hg : regGens h = ∅)
    (e : w.process .opt env dt 1 = .ok w') :
    w'.kinetic (regBodies h) + changeEnergy w (regBodies h) (fun b => (w.bodies b).vel)
      (fun b => (w'.bodies b).vel) = w.kinetic (regBodies h) := by
  have p := (hw.ready hG hst.wired).2
  obtain ⟨X, mult, h0, hm⟩ := hw.moved hG hst e
  have st := hm.step 0 (by decide)
  rw [h0] at st
  have key := energy_step p hsle hm.mass st fun c hc => hz c ((hw.regs.cons.mem c).mp hc)
  have hfg : w.fg = [] := by
    rw [← List.toFinset_eq_empty_iff, hw.regs.fg_finset, hg]
  have hl : ∀ b q, w.load w.now b q = 0 := fun b q => by simp [World.load, hfg]
  simp only [hl, zero_div, mul_zero, add_zero] at key
  have hmv := ((optProcess_wp w env dt 1 hw.regs.nsv).of_eq e).1.moves
  have hv : ∀ b ∈ w.rb, ∀ q : Coord, (X (0 + 1)).vel b q = (w'.bodies b).vel q :=
    fun b hb q => (hm.last b hb q).2
  rw [← energyOf_kinetic (w := w) (w' := w') _ hw.regs.rb_finset fun b => ⟨hmv.mass b, hmv.inertia b⟩,
    ← energyOf_kinetic (w := w) (w' := w) _ hw.regs.rb_finset fun b => ⟨rfl, rfl⟩,
    ← energyOf_change _ hw.regs.rb_finset]
  rw [World.energyOf_congr hv, World.energyOf_congr
    (v := fun b q => (X (0 + 1)).vel b q - w.now.vel b q) (v' := fun b q => (w'.bodies b).vel q -
    (w.bodies b).vel q) fun b hb q => by rw [hv b hb q]; rfl] at key
  exact key

/-- The claim applied to two bodies geared together: the first was turning, the second was not. -/
example (env : Env ℝ) : ∃ (h : List (Op ℝ)) (w w' : World ℝ), World.Hist Gen.Shipped .opt h w ∧
    w.process .opt env 2 1 = .ok w' ∧
    w'.kinetic {0, 1} + changeEnergy w {0, 1} (fun b => (w.bodies b).vel)
      (fun b => (w'.bodies b).vel) = w.kinetic {0, 1} := by
  obtain ⟨h, w, d⟩ := demo (.simpleGear ⟨3, false, 0, 0⟩) (g := .gravity 9) trivial (cs := [0])
    (fg := []) (by decide) (by decide) .ge
  obtain ⟨w', e⟩ := d.runs trivial (turns_gear _) trivial (two_ne_zero (α := ℝ)) 1 env
  have hst := d.standard (.inl (by simp [CKind.counts])) trivial
  have q := C66_energy_balance (fun g => Gen.tame) d.hist hst d.sle (fun c _ j _ => by
    simp only [World.rowsOf, d.kind]; exact ⟨rfl, rfl⟩) (by rw [d.regG]; rfl) e
  rw [d.regB] at q
  exact ⟨h, w, w', d.hist, e, q⟩

/-- **C66**: with positive masses such a step does not increase the kinetic energy. -/
theorem C66_energy_not_increased (hG : ∀ g, G g → g.OnlyForces) (hw : World.Hist G .opt h w)
    (hst : w.Standard h) (hsle : w.sle = some .ge) (hz : w.Satisfied h) (hg : regGens h = ∅)
    (hpos : ∀ b ∈ regBodies h, 0 < (w.bodies b).m ∧ 0 < (w.bodies b).I)
    (e : w.process .opt env dt 1 = .ok w') :
    w'.kinetic (regBodies h) ≤ w.kinetic (regBodies h) := by
  rw [← C66_energy_balance hG hw hst hsle hz hg e]
  refine le_add_of_nonneg_right (sum_nonneg fun b hb => ?_)
  obtain ⟨h1, h2⟩ := hpos b hb
  positivity

/-- The claim applied to a link whose points coincide, between a turning body and another one. -/
example (env : Env ℝ) : ∃ (h : List (Op ℝ)) (w w' : World ℝ), World.Hist Gen.Shipped .opt h w ∧
    (w.bodies 0).v_theta = 5 ∧ w.process .opt env 2 1 = .ok w' ∧
    w'.kinetic {0, 1} ≤ w.kinetic {0, 1} := by
  obtain ⟨h, w, d⟩ := demo (.link ⟨1, 2, 0, 0, 9, 0, 0⟩) (g := .gravity 9) trivial (cs := [0])
    (fg := []) (by decide) (by decide) .ge
  obtain ⟨w', e⟩ := d.runs_pins trivial (pins_link _) trivial (.inl (by simp))
    (two_ne_zero (α := ℝ)) 1 env
  have hst := d.standard (.inl (by simp [CKind.counts])) trivial
  have hn : (w.cons 0).bodyCount = 2 := d.count 0
  have hr : (w.cons 0).rows = 2 := d.rows 0
  have hz : w.Satisfied h := by
    intro c hc j hj
    rw [d.regC] at hc
    obtain rfl : c = 0 := by simpa using hc
    obtain ⟨q0, q1, q2, q3, q4, q5⟩ := q_two (x := w.now) hn (d.bodies 0 0) (d.bodies 0 1)
    have hp : ∀ b q, w.now.pos b q = (demoBody b).pos q := d.pos
    have : j = 0 ∨ j = 1 := by omega
    simp only [World.rowsOf, d.kind]
    rcases this with rfl | rfl <;>
      simp [CKind.cT, CKind.biasT, q0, q1, q2, q3, q4, q5, hp, demoBody, Body.pos, rx, ry]
  have q := C66_energy_not_increased (fun g => Gen.tame) d.hist hst d.sle hz
    (by rw [d.regG]; rfl) (fun b _ => by rw [d.m, d.I]; exact ⟨one_pos, one_pos⟩) e
  rw [d.regB] at q
  exact ⟨h, w, w', d.hist, d.vel 0 .th, e, q⟩

/-- Constraints between speeds of rotation, without a position error and a prescribed speed. -/
def CKind.Coupling : CKind ℝ → Prop
  | .clutch _ | .simpleGear _ | .rotationFriction _ => True
  | _ => False

/-- **C66**, any number of sub-steps: when the only constraints are clutches, gears and rotation
friction and no forces act, `process` does not increase the kinetic energy. -/
theorem C66_couplings (hG : ∀ g, G g → g.OnlyForces) (hw : World.Hist G .opt h w)
    (hst : w.Standard h) (hsle : w.sle = some .ge)
    (hk : ∀ c ∈ regCons h, (w.cons c).kind.Coupling) (hg : regGens h = ∅)
    (hpos : ∀ b ∈ regBodies h, 0 < (w.bodies b).m ∧ 0 < (w.bodies b).I)
    (e : w.process .opt env dt steps = .ok w') :
    w'.kinetic (regBodies h) ≤ w.kinetic (regBodies h) := by
  have p := (hw.ready hG hst.wired).2
  obtain ⟨X, mult, h0, hm⟩ := hw.moved hG hst e
  have hfg : w.fg = [] := by
    rw [← List.toFinset_eq_empty_iff, hw.regs.fg_finset, hg]
  have hz : ∀ x : Motion, ∀ c ∈ w.cs, ∀ j, j < (w.cons c).rows →
      (w.rowsOf x c).C j = 0 ∧ (w.rowsOf x c).v_bias j = 0 := by
    intro x c hc j _
    have := hk c ((hw.regs.cons.mem c).mp hc)
    simp only [World.rowsOf]
    cases hkc : (w.cons c).kind <;> rw [hkc] at this <;> first | exact this.elim | skip
    all_goals exact ⟨rfl, rfl⟩
  have key : ∀ n, n ≤ steps.toNat → w.energyOf (X n).vel ≤ w.energyOf (X 0).vel := by
    intro n
    induction n with
    | zero => intro _; exact le_refl _
    | succ n ih =>
      intro hn
      have s := energy_step p hsle hm.mass (hm.step n (by omega)) (hz _)
      simp only [World.load, hfg, List.toFinset_nil, sum_empty, zero_div, mul_zero, add_zero] at s
      refine le_trans ?_ (ih (by omega))
      rw [← s]
      refine le_add_of_nonneg_right (sum_nonneg fun b hb => ?_)
      rw [hw.regs.rb_finset] at hb
      obtain ⟨h1, h2⟩ := hpos b hb
      simp only [Coord.sum, Body.mass]
      positivity
  have hmv := ((optProcess_wp w env dt steps hw.regs.nsv).of_eq e).1.moves
  have fin := key _ (le_refl _)
  rw [h0] at fin
  rw [← energyOf_kinetic (w := w) (w' := w') _ hw.regs.rb_finset
      fun b => ⟨hmv.mass b, hmv.inertia b⟩,
    ← energyOf_kinetic (w := w) (w' := w) _ hw.regs.rb_finset fun b => ⟨rfl, rfl⟩]
  rw [World.energyOf_congr fun b hb q => (hm.last b hb q).2] at fin
  exact fin

/-- The claim applied to four sub-steps of a clutch between a turning body and another one. -/
example (env : Env ℝ) : ∃ (h : List (Op ℝ)) (w w' : World ℝ), World.Hist Gen.Shipped .opt h w ∧
    (w.bodies 0).v_theta = 5 ∧ w.process .opt env 2 4 = .ok w' ∧
    w'.kinetic {0, 1} ≤ w.kinetic {0, 1} := by
  obtain ⟨h, w, d⟩ := demo (.clutch ⟨-1, 1, 0, 0⟩) (g := .gravity 9) trivial (cs := [0])
    (fg := []) (by decide) (by decide) .ge
  obtain ⟨w', e⟩ := d.runs trivial (turns_clutch _) trivial (two_ne_zero (α := ℝ)) 4 env
  have hst := d.standard (.inl (by simp [CKind.counts])) trivial
  have q := C66_couplings (fun g => Gen.tame) d.hist hst d.sle
    (fun c _ => by rw [d.kind]; trivial) (by rw [d.regG]; rfl)
    (fun b _ => by rw [d.m, d.I]; exact ⟨one_pos, one_pos⟩) e
  rw [d.regB] at q
  exact ⟨h, w, w', d.hist, d.vel 0 .th, e, q⟩

/-! ## C67 -/

theorem angular_spin (S : Finset Nat) (hS : w.rb.toFinset = S) {x : Motion}
    (hx : w.Shows x w'.bodies) (hb : ∀ b, (w'.bodies b).m = (w.bodies b).m ∧
    (w'.bodies b).I = (w.bodies b).I) : w'.angular S = w.spin x := by
  rw [World.angular, World.spin, hS]
  refine sum_congr rfl fun b hbS => ?_
  have hr : b ∈ w.rb := by rw [← hS, List.mem_toFinset] at hbS; exact hbS
  obtain ⟨h1, h2⟩ := hb b
  have x1 := hx b hr .x
  have x2 := hx b hr .y
  have x3 := hx b hr .th
  simp only [Motion.moment, Body.mass, h1, h2, x1, x2, x3]
  simp only [Body.pos, Body.vel]
  ring

/-- Links and clutches. -/
def CKind.Joint : CKind ℝ → Prop
  | .link _ | .clutch _ => True
  | _ => False

/-- The moment of the reported forces of a link whose points have moved apart: the distance vector of
the points times the force on the first body. -/
noncomputable def World.gapMoment (w w' : World ℝ) (c : Nat) : ℝ :=
  match (w.cons c).kind with
  | .link l =>
    let g := w.now.point (w.bodyOf c 0) l.local_x_1 l.local_y_1 -
      w.now.point (w.bodyOf c 1) l.local_x_2 l.local_y_2
    g.1 * ((w'.cons c).F_y 0 0 + (w'.cons c).F_y 1 0) -
      g.2 * ((w'.cons c).F_x 0 0 + (w'.cons c).F_x 1 0)
  | _ => 0

theorem moment_link (p : w.Placed) {c : Nat} (hc : c ∈ w.cs) {l : Link ℝ}
    (hk : (w.cons c).kind = .link l) (hr : (w.cons c).rows = 2) (hn : (w.cons c).bodyCount = 2)
    (x : Motion) (mult : Nat → Nat → ℝ) :
    ∑ j ∈ range (w.cons c).rows, ∑ k ∈ range (w.cons c).bodyCount,
      x.moment (w.bodyOf c k) (fun q => w.reaction x mult c q j k) =
      ((x.point (w.bodyOf c 0) l.local_x_1 l.local_y_1).1 -
        (x.point (w.bodyOf c 1) l.local_x_2 l.local_y_2).1) * mult c 1 -
      ((x.point (w.bodyOf c 0) l.local_x_1 l.local_y_1).2 -
        (x.point (w.bodyOf c 1) l.local_x_2 l.local_y_2).2) * mult c 0 := by
  have h1 := (p.bodies c hc 0 (by omega)).1
  have h2 := (p.bodies c hc 1 (by omega)).1
  obtain ⟨q0, q1, q2, q3, q4, q5⟩ := q_two (x := x) hn h1 h2
  rw [hr, hn]
  simp only [sum_range_succ, range_zero, sum_empty, zero_add, Motion.moment, World.reaction,
    World.rowsOf, hk, CKind.jT, Coord.d, q2, q5, rx, ry, Motion.point]
  ring

theorem moment_clutch (p : w.Placed) {c : Nat} {l : Clutch ℝ}
    (hk : (w.cons c).kind = .clutch l) (hr : (w.cons c).rows = 1) (hn : (w.cons c).bodyCount = 2)
    (x : Motion) (mult : Nat → Nat → ℝ) :
    ∑ j ∈ range (w.cons c).rows, ∑ k ∈ range (w.cons c).bodyCount,
      x.moment (w.bodyOf c k) (fun q => w.reaction x mult c q j k) = 0 := by
  rw [hr, hn]
  simp only [sum_range_succ, range_zero, sum_empty, zero_add, Motion.moment, World.reaction,
    World.rowsOf, hk, CKind.jT, Coord.d]
  ring

/-- **C67**, for every solver: with links, clutches, undamped springs and motors between bodies of
the system, `process(dt, 1)` changes the total angular momentum only by `dt` times the moments of the
links whose points have moved apart. -/
theorem C67_angular_momentum_partial (hG : ∀ g, G g → g.OnlyForces) (hw : World.Hist G .opt h w)
    (hst : w.Standard h) (hk : ∀ c ∈ regCons h, (w.cons c).kind.Joint)
    (hg : ∀ g ∈ regGens h, (w.gens g).Central) (e : w.process .opt env dt 1 = .ok w') :
    w'.angular (regBodies h) =
      w.angular (regBodies h) + dt * ∑ c ∈ regCons h, w.gapMoment w' c := by
  have p := (hw.ready hG hst.wired).2
  obtain ⟨X, mult, h0, hm⟩ := hw.moved hG hst e
  have st := hm.step 0 (by decide)
  rw [h0] at st
  have hmv := ((optProcess_wp w env dt 1 hw.regs.nsv).of_eq e).1.moves
  have t1 : (1 : Int).toNat = 0 + 1 := rfl
  have hl := hm.last
  rw [t1] at hl
  rw [angular_spin _ hw.regs.rb_finset hl fun b => ⟨hmv.mass b, hmv.inertia b⟩,
    angular_spin (w := w) (w' := w) (x := w.now) _ hw.regs.rb_finset (fun b _ q => ⟨rfl, rfl⟩)
      fun b => ⟨rfl, rfl⟩, spin_step hm.mass st,
    moment_load (hst.driven hw.regs) (fun g hgm => hg g ((hw.regs.gens.mem g).mp hgm)),
    moment_conForce p, hw.regs.cs_finset, zero_add]
  congr 2
  · simp
  refine sum_congr rfl fun c hc => ?_
  have hc' := (hw.regs.cons.mem c).mpr hc
  have hF : ∀ q j k, j < (w.cons c).rows → k < (w.cons c).bodyCount →
      (w'.cons c).F q j k = w.reaction w.now (mult 0) c q j k := fun q j k hj hk => by
    rw [hm.forces 0 rfl c hc' q j k hj hk, h0]
  have hcount := hst.kind c hc
  have hkc := hk c hc
  cases hK : (w.cons c).kind <;> rw [hK] at hkc hcount <;> first | exact hkc.elim | skip
  · simp only [CKind.counts, Option.some.injEq, Prod.mk.injEq] at hcount
    obtain ⟨hr, hn⟩ := hcount
    have fy0 := hF .y 0 0 (by omega) (by omega)
    have fy1 := hF .y 1 0 (by omega) (by omega)
    have fx0 := hF .x 0 0 (by omega) (by omega)
    have fx1 := hF .x 1 0 (by omega) (by omega)
    simp only [World.reaction, World.rowsOf, hK, CKind.jT, Coord.d, Con.F] at fy0 fy1 fx0 fx1
    rw [moment_link p hc' hK hr.symm hn.symm]
    simp only [World.gapMoment, hK, fy0, fy1, fx0, fx1, Prod.fst_sub, Prod.snd_sub]
    ring
  · simp only [CKind.counts, Option.some.injEq, Prod.mk.injEq] at hcount
    obtain ⟨hr, hn⟩ := hcount
    rw [moment_clutch p hK hr.symm hn.symm]
    simp only [World.gapMoment, hK]

/-- The claim applied to a link whose points have moved apart, and a spring. -/
example (env : Env ℝ) : ∃ (h : List (Op ℝ)) (w w' : World ℝ), World.Hist Gen.Shipped .opt h w ∧
    w.process .opt env 2 1 = .ok w' ∧
    w'.angular {0, 1} = w.angular {0, 1} + 2 * w.gapMoment w' 0 := by
  have hgw : Gen.Within (.spring ⟨1, 2, 0, 4, 5, 6, 7, .obj 0, .obj 1⟩)
      (· ∈ ({0, 1} : Finset Nat)) :=
    .inr ⟨⟨0, by decide, rfl⟩, .inr ⟨1, by decide, rfl⟩⟩
  obtain ⟨h, w, w', d, hst, e⟩ := demo_pins (pins_link ⟨1, 3, 4, 7, 9, 0, 0⟩)
    (g := .spring ⟨1, 2, 0, 4, 5, 6, 7, .obj 0, .obj 1⟩) trivial hgw
    (sv := .cg 2 0 0) (le_refl 2) (by simp) (two_ne_zero) 1 env
  have q := C67_angular_momentum_partial (fun g => Gen.tame) d.hist hst
    (fun c _ => by rw [d.kind c]; trivial) (fun i _ => by rw [d.gens i]; exact rfl) e
  rw [d.regB, d.regC] at q
  simp only [List.toFinset_cons, List.toFinset_nil, insert_empty_eq, sum_singleton] at q
  exact ⟨h, w, w', d.hist, e, q⟩

/-- **C67**, when the points of the links coincide at the start of the step: the angular momentum is
conserved. -/
theorem C67_conserved_partial (hG : ∀ g, G g → g.OnlyForces) (hw : World.Hist G .opt h w)
    (hst : w.Standard h) (hk : ∀ c ∈ regCons h, (w.cons c).kind.Joint)
    (hg : ∀ g ∈ regGens h, (w.gens g).Central)
    (hc : ∀ c ∈ regCons h, ∀ l, (w.cons c).kind = .link l →
      w.now.point (w.bodyOf c 0) l.local_x_1 l.local_y_1 =
        w.now.point (w.bodyOf c 1) l.local_x_2 l.local_y_2)
    (e : w.process .opt env dt 1 = .ok w') :
    w'.angular (regBodies h) = w.angular (regBodies h) := by
  rw [C67_angular_momentum_partial hG hw hst hk hg e, sum_eq_zero, mul_zero, add_zero]
  intro c hcm
  rw [World.gapMoment]
  cases hK : (w.cons c).kind with
  | link l => simp [hc c hcm l hK]
  | _ => rfl

/-- The claim applied to a link whose points coincide, and a motor. -/
example (env : Env ℝ) : ∃ (h : List (Op ℝ)) (w w' : World ℝ), World.Hist Gen.Shipped .opt h w ∧
    w.process .opt env 2 1 = .ok w' ∧ w'.angular {0, 1} = w.angular {0, 1} := by
  have hgw : Gen.Within (.motor ⟨1, 0, 7, 3, .obj 0, .obj 1⟩) (· ∈ ({0, 1} : Finset Nat)) :=
    ⟨⟨0, by decide, rfl⟩, 1, by decide, rfl⟩
  obtain ⟨h, w, w', d, hst, e⟩ := demo_pins (pins_link ⟨1, 2, 0, 0, 9, 0, 0⟩)
    (g := .motor ⟨1, 0, 7, 3, .obj 0, .obj 1⟩) trivial hgw
    (sv := .ge) trivial (by simp) (two_ne_zero) 1 env
  have q := C67_conserved_partial (fun g => Gen.tame) d.hist hst
    (fun c _ => by rw [d.kind c]; trivial) (fun i _ => by rw [d.gens i]; trivial)
    (fun c _ l hl => by
      rw [d.kind c] at hl
      cases hl
      have hp : ∀ b q, w.now.pos b q = (demoBody b).pos q := d.pos
      simp [Motion.point, d.bodyOf, hp, demoBody, Body.pos]) e
  rw [d.regB] at q
  exact ⟨h, w, w', d.hist, e, q⟩

/-- **C67**, any number of sub-steps: with clutches, undamped springs and motors the angular momentum
is conserved. -/
theorem C67_clutches_partial (hG : ∀ g, G g → g.OnlyForces) (hw : World.Hist G .opt h w)
    (hst : w.Standard h) (hk : ∀ c ∈ regCons h, ∃ l, (w.cons c).kind = .clutch l)
    (hg : ∀ g ∈ regGens h, (w.gens g).Central) (e : w.process .opt env dt steps = .ok w') :
    w'.angular (regBodies h) = w.angular (regBodies h) := by
  have p := (hw.ready hG hst.wired).2
  obtain ⟨X, mult, h0, hm⟩ := hw.moved hG hst e
  have key : ∀ n, n ≤ steps.toNat → w.spin (X n) = w.spin (X 0) := by
    intro n
    induction n with
    | zero => intro _; rfl
    | succ n ih =>
      intro hn
      rw [spin_step hm.mass (hm.step n (by omega)), moment_load (hst.driven hw.regs)
        (fun g hgm => hg g ((hw.regs.gens.mem g).mp hgm)), moment_conForce p, sum_eq_zero, ih
        (by omega)]
      · ring
      · intro c hc
        rw [hw.regs.cs_finset] at hc
        obtain ⟨l, hK⟩ := hk c hc
        have hcount := hst.kind c hc
        simp only [hK, CKind.counts, Option.some.injEq, Prod.mk.injEq] at hcount
        exact moment_clutch p hK hcount.1.symm hcount.2.symm _ _
  have hmv := ((optProcess_wp w env dt steps hw.regs.nsv).of_eq e).1.moves
  rw [angular_spin _ hw.regs.rb_finset hm.last fun b => ⟨hmv.mass b, hmv.inertia b⟩,
    angular_spin (w := w) (w' := w) (x := w.now) _ hw.regs.rb_finset (fun b _ q => ⟨rfl, rfl⟩)
      fun b => ⟨rfl, rfl⟩, key _ (le_refl _), h0]

/-- The claim applied to four sub-steps of a clutch and a motor. -/
example (env : Env ℝ) : ∃ (h : List (Op ℝ)) (w w' : World ℝ), World.Hist Gen.Shipped .opt h w ∧
    w.process .opt env 2 4 = .ok w' ∧ w'.angular {0, 1} = w.angular {0, 1} := by
  have hgw : Gen.Within (.motor ⟨1, 0, 7, 3, .obj 0, .obj 1⟩) (· ∈ ({0, 1} : Finset Nat)) :=
    ⟨⟨0, by decide, rfl⟩, 1, by decide, rfl⟩
  obtain ⟨h, w, w', d, hst, e⟩ := demo_turns (turns_clutch ⟨-1, 1, 0, 0⟩)
    (g := .motor ⟨1, 0, 7, 3, .obj 0, .obj 1⟩) trivial hgw
    (sv := .gs 3 1) ⟨by omega, one_pos⟩ (two_ne_zero) 4 env
  have q := C67_clutches_partial (fun g => Gen.tame) d.hist hst
    (fun c _ => ⟨_, d.kind c⟩) (fun i _ => by rw [d.gens i]; trivial) e
  rw [d.regB] at q
  exact ⟨h, w, w', d.hist, e, q⟩

/-- **C67** is violated by damped springs: the damping force is not directed along the spring, so
that two otherwise free bodies exert a moment on each other that changes their total angular
momentum. -/
theorem C67_damper_violates (env : Env ℝ) : ∃ (h : List (Op ℝ)) (w w' : World ℝ),
    World.Hist Gen.Shipped .opt h w ∧ w.Standard h ∧ regCons h = ∅ ∧
    (∀ g ∈ regGens h, ∃ p : Spring ℝ, w.gens g = .spring p ∧ p.body1 = .obj 0 ∧ p.body2 = .obj 1) ∧
    w.process .opt env 1 1 = .ok w' ∧ regBodies h = {0, 1} ∧
    w'.angular (regBodies h) ≠ w.angular (regBodies h) := by
  have hgw : Gen.Within (.spring ⟨0, 0, 1, 2, 0, 0, 0, .obj 0, .obj 1⟩)
      (· ∈ ({0, 1} : Finset Nat)) :=
    .inr ⟨⟨0, by decide, rfl⟩, .inr ⟨1, by decide, rfl⟩⟩
  obtain ⟨h, w, d⟩ := demo .base (g := .spring ⟨0, 0, 1, 2, 0, 0, 0, .obj 0, .obj 1⟩) trivial
    (cs := []) (fg := [0]) (by decide) (by decide) .ge
  have hst := d.standard (.inr rfl) hgw
  have hc : regCons h = ∅ := by rw [d.regC]; rfl
  obtain ⟨w', e⟩ := C59_ge_succeeds (fun g => Gen.tame) d.hist hst hc d.masses
    (one_ne_zero (α := ℝ)) d.sle d.new env (steps := 1)
  refine ⟨h, w, w', d.hist, hst, hc, fun g _ => ⟨_, d.gens g, rfl, rfl⟩, e, d.regB, ?_⟩
  obtain ⟨X, mult, h0, hm⟩ := d.hist.moved (fun g => Gen.tame) hst e
  have p := (d.hist.ready (fun g => Gen.tame) hst.wired).2
  have st := hm.step 0 (by decide)
  rw [h0] at st
  have hmv := ((optProcess_wp w env 1 1 d.hist.regs.nsv).of_eq e).1.moves
  have t1 : (1 : Int).toNat = 0 + 1 := rfl
  have hl := hm.last
  rw [t1] at hl
  rw [angular_spin _ d.hist.regs.rb_finset hl fun b => ⟨hmv.mass b, hmv.inertia b⟩,
    angular_spin (w := w) (w' := w) (x := w.now) _ d.hist.regs.rb_finset (fun b _ q => ⟨rfl, rfl⟩)
      fun b => ⟨rfl, rfl⟩, spin_step hm.mass st, moment_conForce p, d.cs_eq,
    d.hist.regs.rb_finset, d.regB]
  have hload : ∀ b q, w.load w.now b q =
      Gen.load (.spring ⟨0, 0, 1, 2, 0, 0, 0, .obj 0, .obj 1⟩) 1 w.now b q := fun b q => by
    simp [World.load, d.fg_eq, d.gens, d.m]
  have hp : ∀ b q, w.now.pos b q = (demoBody b).pos q := d.pos
  have hv : ∀ b q, w.now.vel b q = (demoBody b).vel q := d.vel
  rw [sum_pair (by decide)]
  simp only [Motion.moment, hload, Gen.load, Spring.pullOn, springForce, hooke, Motion.wrench,
    Motion.point, Motion.pointVel, hp, hv, demoBody, Body.pos, Body.vel, pureTorque]
  simp
  norm_num

end

end Scs
