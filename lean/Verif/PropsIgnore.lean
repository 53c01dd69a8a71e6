import Verif.WorldIgnore
import Verif.PropsOdeWorld
import Verif.WorldExact

/-!
# What the generic system ignores

C114: the generic system does not look at the speed of a drive, at torque and force limits, at whether a
gear is in neutral, and at the bias factor.
-/

open Finset

namespace Scs

/-! ## Any arithmetic, any solver -/

section
variable {α : Type} [Zero α] [Add α] [Mul α] [Sub α] [Neg α] [Fp α]

/-- **C114**: two programs for the generic system that differ in drive speeds, torque and force limits,
neutral gears and the bias factor only stop with the same error, or they both return and leave the same
bodies, reported forces, registrations, times and memory; that is, systems that differ in those
parameters only. -/
theorem C114_ignored {w w' : World α} (h : w.SameButDrive w') {ops ops' : List (Op α)}
    (ho : List.Forall₂ Op.SameButDrive ops ops') :
    (∃ e, runAll .gen ops w = .error e ∧ runAll .gen ops' w' = .error e) ∨
      ∃ v v', runAll .gen ops w = .ok v ∧ runAll .gen ops' w' = .ok v' ∧ v'.bodies = v.bodies ∧
        (∀ c, (v'.cons c).F_x = (v.cons c).F_x ∧ (v'.cons c).F_y = (v.cons c).F_y ∧
          (v'.cons c).F_t = (v.cons c).F_t) ∧ v.SameButDrive v' := by
  have r := runAll_sameButDrive ho h
  cases e : runAll .gen ops w with
  | error x =>
    cases e' : runAll .gen ops' w' with
    | error x' => rw [e, e'] at r; cases r; exact .inl ⟨x, rfl, rfl⟩
    | ok v' => rw [e, e'] at r; exact r.elim
  | ok v =>
    cases e' : runAll .gen ops' w' with
    | error x' => rw [e, e'] at r; exact r.elim
    | ok v' =>
      rw [e, e'] at r
      have r : v.SameButDrive v' := r
      refine .inr ⟨v, v', rfl, rfl, by rw [r.1], fun c => ?_, r⟩
      rw [(r.2 c).1]
      exact ⟨rfl, rfl, rfl⟩

end

/-! ## Exact arithmetic, Gaussian elimination -/

section
variable {G : Gen ℝ → Prop} {h : List (Op ℝ)} {w w' : World ℝ} {env : Env ℝ} {dt : ℝ} {steps : Int}

/-- A row with a fixed Jacobian and no deviation loses the same part of its speed in every sub-step. -/
theorem decays (hG : ∀ g, G g → g.OnlyForces) (hw : World.Hist G .gen h w) (hst : w.Standard h)
    (hsle : w.sle = some .ge) {sym : Bool} {o : Ode ℝ} (hode : w.ode = some o) (ho : o.isSym sym)
    (e : w.process .gen env dt steps = .ok w') {c : Nat} (hc : c ∈ regCons h) {kd : ℝ}
    (hr : 0 < (w.cons c).rows) (hJ : ∀ x k, (w.rowsOf x c).J 0 k = (w.rowsOf w.now c).J 0 k)
    (hJd : ∀ x k, (w.rowsOf x c).J_dot 0 k = 0) (hC : ∀ x, (w.rowsOf x c).C 0 = 0)
    (hkd : ∀ x, (w.rowsOf x c).kd 0 = kd) :
    w.rowAt (w.rowsOf w.now c) c 0 (fun b => (w'.bodies b).vel) = (1 - kd * (dt / steps)) ^ steps.toNat *
      w.rowAt (w.rowsOf w.now c) c 0 (fun b => (w.bodies b).vel) := by
  obtain ⟨X, mult, r, h0, hm⟩ := hw.gmoved hG hst hode ho e
  have hcs := (hw.regs.cons.mem c).mpr hc
  have p := hw.regs.placed hst.wired
  have same : ∀ x y (v : Nat → Coord → ℝ), w.rowAt (w.rowsOf x c) c 0 v = w.rowAt (w.rowsOf y c) c 0 v :=
    fun x y v => by simp only [World.rowAt, hJ x, hJ y]
  have mem : ∀ u v : Nat → Coord → ℝ, (∀ b ∈ w.rb, ∀ q, u b q = v b q) →
      w.rowAt (w.rowsOf w.now c) c 0 u = w.rowAt (w.rowsOf w.now c) c 0 v := fun u v huv => by
    refine sum_congr rfl fun k hk => ?_
    have hb := (p.bodies c hcs k (mem_range.mp hk)).2
    simp only [Coord.sum, huv _ hb]
  have main : ∀ j, j ≤ steps.toNat → w.rowAt (w.rowsOf w.now c) c 0 (X j).vel =
      (1 - kd * (dt / steps)) ^ j * w.rowAt (w.rowsOf w.now c) c 0 (X 0).vel := by
    intro j
    induction j with
    | zero => intro _; rw [pow_zero, one_mul]
    | succ j ih =>
      intro hj
      have st := hm.step j (by omega)
      have a := st.acc.ge hsle c hcs 0 hr
      have hd : w.rowDot (w.rowsOf (X j) c) c 0 (X j).vel = 0 :=
        sum_eq_zero fun k _ => by simp only [hJd, Coord.sum]; ring
      rw [hd, hC, hkd, same (X j) w.now, same (X j) w.now] at a
      rw [mem (X (j + 1)).vel (fun b q => (X j).vel b q + dt / steps * (X (j + 1)).acc b q) st.vel,
        rowAt_add, a, ih (by omega), pow_succ]
      ring
  have := main _ le_rfl
  rw [mem (X steps.toNat).vel (fun b => (w'.bodies b).vel) (fun b hb q => (hm.last b hb q).2),
    mem (X 0).vel (fun b => (w.bodies b).vel) (fun b hb q => (hm.first b hb q).2)] at this
  exact this

/-- **C114**, drives and brakes: with Gaussian elimination and the Euler or the semi-implicit solver a
constant-rotation drive and a rotation friction do the same: each of the sub-steps takes the part
`kd · h` of the angular velocity of the body, whatever speed and torque limits are configured and whatever
else acts on the body. -/
theorem C114_one_body (hG : ∀ g, G g → g.OnlyForces) (hw : World.Hist G .gen h w) (hst : w.Standard h)
    (hsle : w.sle = some .ge) {sym : Bool} {o : Ode ℝ} (hode : w.ode = some o) (ho : o.isSym sym)
    (e : w.process .gen env dt steps = .ok w') {c b : Nat} (hc : c ∈ regCons h) {kd : ℝ}
    (hk : (∃ p : ConstantRotation ℝ, (w.cons c).kind = .constantRotation p ∧ p.kd = kd) ∨
      ∃ p : RotationFriction ℝ, (w.cons c).kind = .rotationFriction p ∧ p.kd = kd)
    (hb : (w.cons c).bodies 0 = .obj b) :
    (w'.bodies b).v_theta = (1 - kd * (dt / steps)) ^ steps.toNat * (w.bodies b).v_theta := by
  have cn := hst.kind c hc
  obtain ⟨p, hk, rfl⟩ | ⟨p, hk, rfl⟩ := hk
  all_goals
    simp only [hk, CKind.counts, Option.some.injEq, Prod.mk.injEq] at cn
    have r := decays hG hw hst hsle hode ho e hc (kd := p.kd) (by omega)
      (fun x k => by simp only [World.rowsOf, hk]; rcases k with _ | _ | _ | _ | _ | _ | k <;> rfl)
      (fun x k => by simp only [World.rowsOf, hk]; rcases k with _ | _ | _ | _ | _ | _ | k <;> rfl)
      (fun x => by simp only [World.rowsOf, hk]; rfl) (fun x => by simp only [World.rowsOf, hk]; rfl)
    rw [rowAt_one _ _ _ cn.2.symm hb, rowAt_one _ _ _ cn.2.symm hb] at r
    simp only [World.rowsOf, hk, CKind.jT, Body.vel] at r
    linear_combination r

/-- The claim applied to a body turning with speed 5 and a drive configured for speed 100 without any
torque: after a second it has lost nearly two thirds of its speed. -/
example (env : Env ℝ) : ∃ (h : List (Op ℝ)) (w w' : World ℝ), World.Hist Gen.Shipped .gen h w ∧
    (w.cons 0).kind = .constantRotation ⟨100, 0, 0, 0, 1⟩ ∧ (w.bodies 0).v_theta = 5 ∧
    w.process .gen env 1 10 = .ok w' ∧ (w'.bodies 0).v_theta = (9 / 10) ^ 10 * 5 := by
  obtain ⟨h, w, w', d, hst, e⟩ := demo_gen (.inl (turns_constant ⟨100, 0, 0, 0, 1⟩)) (g := .gravity 9)
    trivial trivial (sv := .ge) trivial (by intro m e h; cases h) (o := .newEuler) (sym := false) rfl
    1 10 env
  have q := C114_one_body (fun g => Gen.tame) d.hist hst d.sle d.ode (sym := false) rfl e (d.mem0 rfl)
    (.inl ⟨_, d.kind 0, rfl⟩) (d.bodies 0 0)
  have h5 : (w.bodies 0).v_theta = 5 := d.vel 0 .th
  refine ⟨h, w, w', d.hist, d.kind 0, h5, e, ?_⟩
  have ht : Int.toNat 10 = 10 := rfl
  rw [q, h5, ht]
  norm_num

/-- **C114**: it follows that with any positive damping and any step that is not too long the speed of
a driven body tends to zero with the number of sub-steps, not to the configured one: after `steps`
sub-steps of length `τ` it is at most `exp (-kd τ steps)` times what it was. -/
theorem C114_slows (hG : ∀ g, G g → g.OnlyForces) (hw : World.Hist G .gen h w) (hst : w.Standard h)
    (hsle : w.sle = some .ge) {sym : Bool} {o : Ode ℝ} (hode : w.ode = some o) (ho : o.isSym sym)
    (hs : 0 < steps) (e : w.process .gen env dt steps = .ok w') {c b : Nat} (hc : c ∈ regCons h)
    {p : ConstantRotation ℝ} (hk : (w.cons c).kind = .constantRotation p)
    (hb : (w.cons c).bodies 0 = .obj b) (h1 : p.kd * (dt / steps) ≤ 1) :
    |(w'.bodies b).v_theta| ≤ Real.exp (-(p.kd * dt)) * |(w.bodies b).v_theta| := by
  rw [C114_one_body hG hw hst hsle hode ho e hc (.inl ⟨p, hk, rfl⟩) hb, abs_mul, abs_pow,
    abs_of_nonneg (by linarith)]
  refine mul_le_mul_of_nonneg_right ?_ (abs_nonneg _)
  have h2 : 1 - p.kd * (dt / steps) ≤ Real.exp (-(p.kd * (dt / steps))) := by
    have := Real.add_one_le_exp (-(p.kd * (dt / steps)))
    linarith
  refine (pow_le_pow_left₀ (by linarith) h2 _).trans (le_of_eq ?_)
  rw [← Real.exp_nat_mul]
  congr 1
  have : (steps.toNat : ℝ) = steps := by
    have : ((steps.toNat : ℤ) : ℝ) = steps := by rw [Int.toNat_of_nonneg hs.le]
    exact_mod_cast this
  rw [this]
  have : (steps : ℝ) ≠ 0 := by exact_mod_cast hs.ne'
  field_simp

/-- The claim applied to the drive configured for speed 100. -/
example (env : Env ℝ) : ∃ (h : List (Op ℝ)) (w w' : World ℝ), World.Hist Gen.Shipped .gen h w ∧
    (w.cons 0).kind = .constantRotation ⟨100, -50, 50, 0, 1⟩ ∧ (w.bodies 0).v_theta = 5 ∧
    w.process .gen env 10 1000 = .ok w' ∧ |(w'.bodies 0).v_theta| ≤ Real.exp (-10) * 5 := by
  obtain ⟨h, w, w', d, hst, e⟩ := demo_gen (.inl (turns_constant ⟨100, -50, 50, 0, 1⟩)) (g := .gravity 9)
    trivial trivial (sv := .ge) trivial (by intro m e h; cases h) (o := .newNsv) (sym := true) rfl
    10 1000 env
  have q := C114_slows (fun g => Gen.tame) d.hist hst d.sle d.ode (sym := true) rfl (by norm_num) e
    (d.mem0 rfl) (d.kind 0) (d.bodies 0 0) (by norm_num)
  have h5 : (w.bodies 0).v_theta = 5 := d.vel 0 .th
  refine ⟨h, w, w', d.hist, d.kind 0, h5, e, ?_⟩
  rw [h5] at q
  simpa using q

/-- **C114**, clutches and gears: each of the sub-steps takes the part `kd · h` of the difference of
the angular velocities, whatever the torque limits of the clutch and also if the gear is in neutral. -/
theorem C114_two_bodies (hG : ∀ g, G g → g.OnlyForces) (hw : World.Hist G .gen h w) (hst : w.Standard h)
    (hsle : w.sle = some .ge) {sym : Bool} {o : Ode ℝ} (hode : w.ode = some o) (ho : o.isSym sym)
    (e : w.process .gen env dt steps = .ok w') {c b1 b2 : Nat} (hc : c ∈ regCons h) {kd ratio : ℝ}
    (hk : (∃ p : Clutch ℝ, (w.cons c).kind = .clutch p ∧ p.kd = kd ∧ ratio = 1) ∨
      ∃ p : SimpleGear ℝ, (w.cons c).kind = .simpleGear p ∧ p.kd = kd ∧ p.ratio = ratio)
    (h1 : (w.cons c).bodies 0 = .obj b1) (h2 : (w.cons c).bodies 1 = .obj b2) :
    (w'.bodies b1).v_theta - ratio * (w'.bodies b2).v_theta =
      (1 - kd * (dt / steps)) ^ steps.toNat *
        ((w.bodies b1).v_theta - ratio * (w.bodies b2).v_theta) := by
  have cn := hst.kind c hc
  obtain ⟨p, hk, rfl, rfl⟩ | ⟨p, hk, rfl, rfl⟩ := hk
  · simp only [hk, CKind.counts, Option.some.injEq, Prod.mk.injEq] at cn
    have r := decays hG hw hst hsle hode ho e hc (kd := p.kd) (by omega)
      (fun x k => by simp only [World.rowsOf, hk]; rcases k with _ | _ | _ | _ | _ | _ | k <;> rfl)
      (fun x k => by simp only [World.rowsOf, hk]; rcases k with _ | _ | _ | _ | _ | _ | k <;> rfl)
      (fun x => by simp only [World.rowsOf, hk]; rfl) (fun x => by simp only [World.rowsOf, hk]; rfl)
    rw [rowAt_two _ _ _ cn.2.symm h1 h2, rowAt_two _ _ _ cn.2.symm h1 h2] at r
    simp only [World.rowsOf, hk, CKind.jT, Body.vel] at r
    linear_combination -r
  · simp only [hk, CKind.counts, Option.some.injEq, Prod.mk.injEq] at cn
    have r := decays hG hw hst hsle hode ho e hc (kd := p.kd) (by omega)
      (fun x k => by simp only [World.rowsOf, hk]; rcases k with _ | _ | _ | _ | _ | _ | k <;> rfl)
      (fun x k => by simp only [World.rowsOf, hk]; rcases k with _ | _ | _ | _ | _ | _ | k <;> rfl)
      (fun x => by simp only [World.rowsOf, hk]; rfl) (fun x => by simp only [World.rowsOf, hk]; rfl)
    rw [rowAt_two _ _ _ cn.2.symm h1 h2, rowAt_two _ _ _ cn.2.symm h1 h2] at r
    simp only [World.rowsOf, hk, CKind.jT, Body.vel] at r
    linear_combination r

/-- The claim applied to a gear in neutral: it brakes the difference of the speeds all the same. -/
example (env : Env ℝ) : ∃ (h : List (Op ℝ)) (w w' : World ℝ), World.Hist Gen.Shipped .gen h w ∧
    (w.cons 0).kind = .simpleGear ⟨2, true, 0, 1⟩ ∧ (w.bodies 0).v_theta = 5 ∧ (w.bodies 1).v_theta = 0 ∧
    w.process .gen env 1 1 = .ok w' ∧ (w'.bodies 0).v_theta = 2 * (w'.bodies 1).v_theta := by
  obtain ⟨h, w, w', d, hst, e⟩ := demo_gen (.inl (turns_gear ⟨2, true, 0, 1⟩)) (g := .gravity 9)
    trivial trivial (sv := .ge) trivial (by intro m e h; cases h) (o := .newEuler) (sym := false) rfl
    1 1 env
  have q := C114_two_bodies (fun g => Gen.tame) d.hist hst d.sle d.ode (sym := false) rfl e (d.mem0 rfl)
    (.inr ⟨_, d.kind 0, rfl, rfl⟩) (d.bodies 0 0) (d.bodies 0 1)
  refine ⟨h, w, w', d.hist, d.kind 0, d.vel 0 .th, d.vel 1 .th, e, ?_⟩
  norm_num at q
  linarith

/-- `C114_ignored` applied to a system with a drive for speed 100 and one for speed 7 with other limits
and another bias factor: both run, and the bodies are the same afterwards. -/
example (env : Env ℝ) : ∃ w w' v v' : World ℝ, w.SameButDrive w' ∧
    (w.cons 0).kind = .constantRotation ⟨100, -50, 50, 0, 1⟩ ∧
    (w'.cons 0).kind = .constantRotation ⟨7, 0, 0, 0, 1⟩ ∧ w'.bias = 8 ∧
    runAll .gen [.process env 1 1] w = .ok v ∧ runAll .gen [.process env 1 1] w' = .ok v' ∧
    v'.bodies = v.bodies ∧ (v'.bodies 0).v_theta ≠ (w.bodies 0).v_theta := by
  obtain ⟨h, w, v, d, hst, e⟩ := demo_gen (.inl (turns_constant ⟨100, -50, 50, 0, 1⟩)) (g := .gravity 9)
    trivial trivial (sv := .ge) trivial (by intro m e h; cases h) (o := .newEuler) (sym := false) rfl
    1 1 env
  have q := C114_one_body (fun g => Gen.tame) d.hist hst d.sle d.ode (sym := false) rfl e (d.mem0 rfl)
    (.inl ⟨_, d.kind 0, rfl⟩) (d.bodies 0 0)
  have h5 : (w.bodies 0).v_theta = 5 := d.vel 0 .th
  have s : w.SameButDrive (w.tune (fun _ => .constantRotation ⟨7, 0, 0, 0, 1⟩) 8) :=
    World.tune_same (fun c => by rw [d.kind c]; exact ⟨rfl, rfl⟩) 8
  have e' : runAll .gen [.process env 1 1] w = .ok v := by
    simp only [runAll, Op.run, e]; rfl
  obtain ⟨x, x1, _⟩ | ⟨v1, v', y1, y2, y3, _⟩ := C114_ignored s
    (ops := [.process env 1 1]) (ops' := [.process env 1 1]) (.cons rfl .nil)
  · rw [e'] at x1; cases x1
  · rw [e'] at y1
    cases y1
    refine ⟨w, _, v, v', s, d.kind 0, rfl, rfl, e', y2, y3, ?_⟩
    rw [y3, q, h5]
    norm_num

/-- Programs with two constraints, a gear that is in neutral in one of them and a link that breaks at
different forces. -/
example (x y : Con ℝ) (env : Env ℝ) (dt : ℝ) : List.Forall₂ Op.SameButDrive
    [.newCon 0 { x with kind := .simpleGear ⟨2, true, 0, 1⟩ }, .setBias 3,
      .setCon 1 { y with kind := .link ⟨0, 1, 0, -1, 100, 10, 1⟩ }, .process env dt 5]
    [.newCon 0 { x with kind := .simpleGear ⟨2, false, 0, 1⟩ }, .setBias 0,
      .setCon 1 { y with kind := .link ⟨0, 1, 0, -1, 5, 10, 1⟩ }, .process env dt 5] :=
  .cons ⟨rfl, rfl, rfl, rfl, rfl⟩ (.cons trivial (.cons ⟨rfl, rfl, rfl⟩ (.cons rfl .nil)))

end

end Scs
