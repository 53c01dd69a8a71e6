import Verif.RoundHist

/-!
# Rounding: closeness of programs

`Close δ x r`: the scalar `x` is finite and within `δ` of the number `r`. The other definitions say the
same of all numbers in an object or an action. They ignore what a program does not set: the reported
forces in a constraint, the clock, uninitialised variables and memory.
-/

namespace Scs

open Filter Topology

/-! ## Specification -/

section
variable {F : Type} [Rounded F]

/-- A finite scalar within `δ` of a number. -/
def Close (δ : ℝ) (x : F) (r : ℝ) : Prop := Rounded.fin x ∧ |Rounded.val x - r| ≤ δ

/-- Bodies with the same index and numbers within `δ`. -/
structure Body.Close (δ : ℝ) (b : Body F) (B : Body ℝ) : Prop where
  p_x : Scs.Close δ b.p_x B.p_x
  p_y : Scs.Close δ b.p_y B.p_y
  v_x : Scs.Close δ b.v_x B.v_x
  v_y : Scs.Close δ b.v_y B.v_y
  theta : Scs.Close δ b.theta B.theta
  v_theta : Scs.Close δ b.v_theta B.v_theta
  m : Scs.Close δ b.m B.m
  I : Scs.Close δ b.I B.I
  index : b.index = B.index

/-- `FixedPosition` with members within `δ`. -/
structure FixedPosition.Close (δ : ℝ) (p : FixedPosition F) (P : FixedPosition ℝ) : Prop where
  local_x : Scs.Close δ p.local_x P.local_x
  local_y : Scs.Close δ p.local_y P.local_y
  world_x : Scs.Close δ p.world_x P.world_x
  world_y : Scs.Close δ p.world_y P.world_y
  ks : Scs.Close δ p.ks P.ks
  kd : Scs.Close δ p.kd P.kd

/-- `FixedRotation` with members within `δ`. -/
structure FixedRotation.Close (δ : ℝ) (p : FixedRotation F) (P : FixedRotation ℝ) : Prop where
  rotation : Scs.Close δ p.rotation P.rotation
  ks : Scs.Close δ p.ks P.ks
  kd : Scs.Close δ p.kd P.kd

/-- `Line` with members within `δ`. -/
structure Line.Close (δ : ℝ) (p : Line F) (P : Line ℝ) : Prop where
  local_x : Scs.Close δ p.local_x P.local_x
  local_y : Scs.Close δ p.local_y P.local_y
  p0_x : Scs.Close δ p.p0_x P.p0_x
  p0_y : Scs.Close δ p.p0_y P.p0_y
  dx : Scs.Close δ p.dx P.dx
  dy : Scs.Close δ p.dy P.dy
  ks : Scs.Close δ p.ks P.ks
  kd : Scs.Close δ p.kd P.kd

/-- `Link` with members within `δ`. -/
structure Link.Close (δ : ℝ) (p : Link F) (P : Link ℝ) : Prop where
  local_x_1 : Scs.Close δ p.local_x_1 P.local_x_1
  local_y_1 : Scs.Close δ p.local_y_1 P.local_y_1
  local_x_2 : Scs.Close δ p.local_x_2 P.local_x_2
  local_y_2 : Scs.Close δ p.local_y_2 P.local_y_2
  maxForce : Scs.Close δ p.maxForce P.maxForce
  ks : Scs.Close δ p.ks P.ks
  kd : Scs.Close δ p.kd P.kd

/-- `Rolling` with members within `δ`. -/
structure Rolling.Close (δ : ℝ) (p : Rolling F) (P : Rolling ℝ) : Prop where
  local_x : Scs.Close δ p.local_x P.local_x
  local_y : Scs.Close δ p.local_y P.local_y
  dx : Scs.Close δ p.dx P.dx
  dy : Scs.Close δ p.dy P.dy
  radius : Scs.Close δ p.radius P.radius
  ks : Scs.Close δ p.ks P.ks
  kd : Scs.Close δ p.kd P.kd

/-- `ConstantRotation` with members within `δ`. -/
structure ConstantRotation.Close (δ : ℝ) (p : ConstantRotation F) (P : ConstantRotation ℝ) : Prop where
  rotationSpeed : Scs.Close δ p.rotationSpeed P.rotationSpeed
  minTorque : Scs.Close δ p.minTorque P.minTorque
  maxTorque : Scs.Close δ p.maxTorque P.maxTorque
  ks : Scs.Close δ p.ks P.ks
  kd : Scs.Close δ p.kd P.kd

/-- `Clutch` with members within `δ`. -/
structure Clutch.Close (δ : ℝ) (p : Clutch F) (P : Clutch ℝ) : Prop where
  minTorque : Scs.Close δ p.minTorque P.minTorque
  maxTorque : Scs.Close δ p.maxTorque P.maxTorque
  ks : Scs.Close δ p.ks P.ks
  kd : Scs.Close δ p.kd P.kd

/-- `RotationFriction` with members within `δ`. -/
structure RotationFriction.Close (δ : ℝ) (p : RotationFriction F) (P : RotationFriction ℝ) : Prop where
  minTorque : Scs.Close δ p.minTorque P.minTorque
  maxTorque : Scs.Close δ p.maxTorque P.maxTorque
  ks : Scs.Close δ p.ks P.ks
  kd : Scs.Close δ p.kd P.kd

/-- `SimpleGear` with members within `δ`. -/
structure SimpleGear.Close (δ : ℝ) (p : SimpleGear F) (P : SimpleGear ℝ) : Prop where
  ratio : Scs.Close δ p.ratio P.ratio
  ks : Scs.Close δ p.ks P.ks
  kd : Scs.Close δ p.kd P.kd
  neutral : p.neutral = P.neutral

/-- `Spring` with members within `δ`. -/
structure Spring.Close (δ : ℝ) (p : Spring F) (P : Spring ℝ) : Prop where
  restLength : Scs.Close δ p.restLength P.restLength
  ks : Scs.Close δ p.ks P.ks
  kd : Scs.Close δ p.kd P.kd
  p1_x : Scs.Close δ p.p1_x P.p1_x
  p1_y : Scs.Close δ p.p1_y P.p1_y
  p2_x : Scs.Close δ p.p2_x P.p2_x
  p2_y : Scs.Close δ p.p2_y P.p2_y
  body1 : p.body1 = P.body1
  body2 : p.body2 = P.body2

/-- `Motor` with members within `δ`. -/
structure Motor.Close (δ : ℝ) (p : Motor F) (P : Motor ℝ) : Prop where
  ks : Scs.Close δ p.ks P.ks
  kd : Scs.Close δ p.kd P.kd
  maxTorque : Scs.Close δ p.maxTorque P.maxTorque
  speed : Scs.Close δ p.speed P.speed
  body0 : p.body0 = P.body0
  body1 : p.body1 = P.body1

/-- `StaticForce` with members within `δ`. -/
structure StaticForce.Close (δ : ℝ) (p : StaticForce F) (P : StaticForce ℝ) : Prop where
  f_x : Scs.Close δ p.f_x P.f_x
  f_y : Scs.Close δ p.f_y P.f_y
  p_x : Scs.Close δ p.p_x P.p_x
  p_y : Scs.Close δ p.p_y P.p_y
  body : p.body = P.body

/-- Shipped constraints of the same kind with parameters within `δ`. -/
def CKind.Close (δ : ℝ) : CKind F → CKind ℝ → Prop
  | .base, .base => True
  | .fixedPosition p, .fixedPosition P => p.Close δ P
  | .fixedRotation p, .fixedRotation P => p.Close δ P
  | .line p, .line P => p.Close δ P
  | .link p, .link P => p.Close δ P
  | .rolling p, .rolling P => p.Close δ P
  | .constantRotation p, .constantRotation P => p.Close δ P
  | .clutch p, .clutch P => p.Close δ P
  | .rotationFriction p, .rotationFriction P => p.Close δ P
  | .simpleGear p, .simpleGear P => p.Close δ P
  | _, _ => False

/-- Constraint objects of the same kind on the same bodies with parameters within `δ`. -/
structure Con.Close (δ : ℝ) (c : Con F) (C : Con ℝ) : Prop where
  kind : c.kind.Close δ C.kind
  index : c.index = C.index
  bodyCount : c.bodyCount = C.bodyCount
  bodies : c.bodies = C.bodies
  rows : c.rows = C.rows

/-- Shipped force generators of the same kind on the same bodies with parameters within `δ`. -/
def Gen.Close (δ : ℝ) : Gen F → Gen ℝ → Prop
  | .gravity a, .gravity A => Scs.Close δ a A
  | .static p, .static P => p.Close δ P
  | .spring p, .spring P => p.Close δ P
  | .motor p, .motor P => p.Close δ P
  | _, _ => False

/-- No SLE solver, Gaussian elimination, or Gauss-Seidel or conjugate gradients with the same number of
iterations and tolerances within `δ`. -/
def SleClose (δ : ℝ) : Option (Solver F) → Option (Solver ℝ) → Prop
  | none, none => True
  | some .ge, some .ge => True
  | some (.gs n d), some (.gs n' D) => n = n' ∧ Close δ d D
  | some (.cg n d e), some (.cg n' D E) => n = n' ∧ Close δ d D ∧ Close δ e E
  | _, _ => False

/-- An RK4 solver that has not been used before: `Rk4OdeSolver::Rk4OdeSolver`,
src/rk4_ode_solver.cpp:3-6. -/
def Rk4.Unused {α : Type} [Zero α] (r : Rk4 α) : Prop :=
  r.stage = .undefined ∧ r.nextStage = .undefined ∧
    (∃ j k, r.init = .mk0 j k) ∧ ∃ j k, r.acc = .mk0 j k

/-- No ODE solver, or ODE solvers of the same class; RK4 solvers have not been used before. -/
def OdeClose : Option (Ode F) → Option (Ode ℝ) → Prop
  | none, none => True
  | some (.base _), some (.base _) => True
  | some (.euler _), some (.euler _) => True
  | some (.nsv _), some (.nsv _) => True
  | some (.rk4 r), some (.rk4 R) => r.Unused ∧ R.Unused
  | _, _ => False

/-- The same action with numbers within `δ`. -/
def Op.Close (δ : ℝ) : Op F → Op ℝ → Prop
  | .addBody b, .addBody b' => b = b'
  | .removeBody b, .removeBody b' => b = b'
  | .addCon c, .addCon c' => c = c'
  | .removeCon c, .removeCon c' => c = c'
  | .addGen g, .addGen g' => g = g'
  | .removeGen g, .removeGen g' => g = g'
  | .reset, .reset => True
  | .newBody b x, .newBody b' X => b = b' ∧ x.Close δ X
  | .newCon c x, .newCon c' X => c = c' ∧ x.Close δ X
  | .newGen g x, .newGen g' X => g = g' ∧ x.Close δ X
  | .setBody b x, .setBody b' X => b = b' ∧ x.Close δ X
  | .setCon c x, .setCon c' X => c = c' ∧ x.Close δ X
  | .setGen g x, .setGen g' X => g = g' ∧ x.Close δ X
  | .init sle ode, .init sle' ode' => SleClose δ sle sle' ∧ OdeClose ode ode'
  | .setBias x, .setBias X => Scs.Close δ x X
  | .process _ dt steps, .process _ DT steps' => Scs.Close δ dt DT ∧ steps = steps'
  | _, _ => False

end

/-! ## Runs with chosen uninitialised memory -/

section
variable {F : Type} [Rounded F]

open Classical in
/-- A scalar near a number. -/
noncomputable def approx (η r : ℝ) : F :=
  if h : ∃ q : ℚ, |(q : ℝ) - r| < η then Fp.lit h.choose else 0

/-- The constraint object with reported forces near those of another one. -/
noncomputable def Con.like (η : ℝ) (c : Con F) (C : Con ℝ) : Con F :=
  { c with F_x := fun i j => approx η (C.F_x i j), F_y := fun i j => approx η (C.F_y i j),
           F_t := fun i j => approx η (C.F_t i j) }

/-- The clock and, nearly, the uninitialised variables of the exact run. -/
noncomputable def Env.like (η : ℝ) (E : Env ℝ) : Env F :=
  ⟨E.now, fun n =>
    ⟨fun i => approx η ((E.raw n).C i), fun i j => approx η ((E.raw n).J i j),
      fun i j => approx η ((E.raw n).J_dot i j), fun i => approx η ((E.raw n).v_bias i),
      fun i j => approx η ((E.raw n).limits i j), fun i => approx η ((E.raw n).ks i),
      fun i => approx η ((E.raw n).kd i)⟩⟩

/-- A new state whose memory is nearly that of the exact run. -/
noncomputable def SysState.like (η : ℝ) (S : SysState ℝ) : SysState F :=
  .mk0 (fun i j => approx η (S.junk i j)) S.junkI

/-- An ODE solver object of the class whose memory is nearly that of the exact run. -/
noncomputable def Ode.like (η : ℝ) : Ode ℝ → Ode F
  | .base d => .base (approx η d)
  | .euler d => .euler (approx η d)
  | .nsv d => .nsv (approx η d)
  | .rk4 r => .rk4 ⟨approx η r.dt, .undefined, .undefined, .like η r.init, .like η r.acc⟩

/-- The action with memory that is nearly that of the exact action. -/
noncomputable def Op.like (η : ℝ) : Op F → Op ℝ → Op F
  | .newCon c x, .newCon _ X => .newCon c (x.like η X)
  | .setCon c x, .setCon _ X => .setCon c (x.like η X)
  | .init sle _, .init _ ODE => .init sle (ODE.map (Ode.like η))
  | .process _ dt steps, .process E _ _ => .process (.like η E) dt steps
  | op, _ => op

end

/-! ## Proofs -/

section
variable {ι : Type} {l : Filter ι} {F : ι → Type} [∀ i, Rounded (F i)]
  [Shrinks l F] [Nonempty ι] {δ η : ι → ℝ}

theorem Near.of_close (hδ : Tendsto δ l (𝓝 0)) {a : ∀ i, F i} {r : ℝ}
    (h : ∀ i, Close (δ i) (a i) r) : Near l a r := by
  refine ⟨.of_forall fun i => (h i).1, ?_⟩
  have := squeeze_zero_norm (fun i => by rw [Real.norm_eq_abs]; exact (h i).2) hδ
  have := this.add_const r
  rw [zero_add] at this
  exact this.congr fun i => by ring

theorem Near.approx (hη : Tendsto η l (𝓝 0)) (h0 : ∀ i, 0 < η i) (r : ℝ) :
    Near l (fun i => (approx (η i) r : F i)) r := by
  have h : ∀ i, ∃ q : ℚ, |(q : ℝ) - r| < η i := fun i => by
    obtain ⟨q, h1, h2⟩ := exists_rat_btwn (show r < r + η i by linarith [h0 i])
    exact ⟨q, by rw [abs_lt]; constructor <;> linarith [h0 i]⟩
  have hq : Tendsto (fun i => (((h i).choose : ℚ) : ℝ)) l (𝓝 r) := by
    have := squeeze_zero_norm (fun i => by rw [Real.norm_eq_abs]; exact (h i).choose_spec.le) hη
    have := this.add_const r
    rw [zero_add] at this
    exact this.congr fun i => by ring
  refine near_of_close hq ?_
  filter_upwards [small_prec (F := F) hq] with i hi
  unfold Scs.approx
  rw [dif_pos (h i)]
  exact Rounded.lit_near _ hi

theorem NBody.of_close (hδ : Tendsto δ l (𝓝 0)) {b : ∀ i, Body (F i)} {B : Body ℝ}
    (h : ∀ i, (b i).Close (δ i) B) : NBody l b B :=
  ⟨.of_close hδ fun i => (h i).p_x, .of_close hδ fun i => (h i).p_y, .of_close hδ fun i => (h i).v_x,
    .of_close hδ fun i => (h i).v_y, .of_close hδ fun i => (h i).theta,
    .of_close hδ fun i => (h i).v_theta, .of_close hδ fun i => (h i).m, .of_close hδ fun i => (h i).I,
    .of_forall fun i => (h i).index⟩

theorem NFixedPosition.of_close (hδ : Tendsto δ l (𝓝 0)) {p : ∀ i, FixedPosition (F i)} {P : FixedPosition ℝ}
    (h : ∀ i, (p i).Close (δ i) P) : NFixedPosition l p P :=
  ⟨.of_close hδ fun i => (h i).local_x,
    .of_close hδ fun i => (h i).local_y,
    .of_close hδ fun i => (h i).world_x,
    .of_close hδ fun i => (h i).world_y,
    .of_close hδ fun i => (h i).ks,
    .of_close hδ fun i => (h i).kd⟩

theorem NFixedRotation.of_close (hδ : Tendsto δ l (𝓝 0)) {p : ∀ i, FixedRotation (F i)} {P : FixedRotation ℝ}
    (h : ∀ i, (p i).Close (δ i) P) : NFixedRotation l p P :=
  ⟨.of_close hδ fun i => (h i).rotation,
    .of_close hδ fun i => (h i).ks,
    .of_close hδ fun i => (h i).kd⟩

theorem NLine.of_close (hδ : Tendsto δ l (𝓝 0)) {p : ∀ i, Line (F i)} {P : Line ℝ}
    (h : ∀ i, (p i).Close (δ i) P) : NLine l p P :=
  ⟨.of_close hδ fun i => (h i).local_x,
    .of_close hδ fun i => (h i).local_y,
    .of_close hδ fun i => (h i).p0_x,
    .of_close hδ fun i => (h i).p0_y,
    .of_close hδ fun i => (h i).dx,
    .of_close hδ fun i => (h i).dy,
    .of_close hδ fun i => (h i).ks,
    .of_close hδ fun i => (h i).kd⟩

theorem NLink.of_close (hδ : Tendsto δ l (𝓝 0)) {p : ∀ i, Link (F i)} {P : Link ℝ}
    (h : ∀ i, (p i).Close (δ i) P) : NLink l p P :=
  ⟨.of_close hδ fun i => (h i).local_x_1,
    .of_close hδ fun i => (h i).local_y_1,
    .of_close hδ fun i => (h i).local_x_2,
    .of_close hδ fun i => (h i).local_y_2,
    .of_close hδ fun i => (h i).maxForce,
    .of_close hδ fun i => (h i).ks,
    .of_close hδ fun i => (h i).kd⟩

theorem NRolling.of_close (hδ : Tendsto δ l (𝓝 0)) {p : ∀ i, Rolling (F i)} {P : Rolling ℝ}
    (h : ∀ i, (p i).Close (δ i) P) : NRolling l p P :=
  ⟨.of_close hδ fun i => (h i).local_x,
    .of_close hδ fun i => (h i).local_y,
    .of_close hδ fun i => (h i).dx,
    .of_close hδ fun i => (h i).dy,
    .of_close hδ fun i => (h i).radius,
    .of_close hδ fun i => (h i).ks,
    .of_close hδ fun i => (h i).kd⟩

theorem NConstantRotation.of_close (hδ : Tendsto δ l (𝓝 0)) {p : ∀ i, ConstantRotation (F i)} {P : ConstantRotation ℝ}
    (h : ∀ i, (p i).Close (δ i) P) : NConstantRotation l p P :=
  ⟨.of_close hδ fun i => (h i).rotationSpeed,
    .of_close hδ fun i => (h i).minTorque,
    .of_close hδ fun i => (h i).maxTorque,
    .of_close hδ fun i => (h i).ks,
    .of_close hδ fun i => (h i).kd⟩

theorem NClutch.of_close (hδ : Tendsto δ l (𝓝 0)) {p : ∀ i, Clutch (F i)} {P : Clutch ℝ}
    (h : ∀ i, (p i).Close (δ i) P) : NClutch l p P :=
  ⟨.of_close hδ fun i => (h i).minTorque,
    .of_close hδ fun i => (h i).maxTorque,
    .of_close hδ fun i => (h i).ks,
    .of_close hδ fun i => (h i).kd⟩

theorem NRotationFriction.of_close (hδ : Tendsto δ l (𝓝 0)) {p : ∀ i, RotationFriction (F i)} {P : RotationFriction ℝ}
    (h : ∀ i, (p i).Close (δ i) P) : NRotationFriction l p P :=
  ⟨.of_close hδ fun i => (h i).minTorque,
    .of_close hδ fun i => (h i).maxTorque,
    .of_close hδ fun i => (h i).ks,
    .of_close hδ fun i => (h i).kd⟩

theorem NSimpleGear.of_close (hδ : Tendsto δ l (𝓝 0)) {p : ∀ i, SimpleGear (F i)} {P : SimpleGear ℝ}
    (h : ∀ i, (p i).Close (δ i) P) : NSimpleGear l p P :=
  ⟨.of_close hδ fun i => (h i).ratio,
    .of_close hδ fun i => (h i).ks,
    .of_close hδ fun i => (h i).kd,
    .of_forall fun i => (h i).neutral⟩

theorem NSpring.of_close (hδ : Tendsto δ l (𝓝 0)) {p : ∀ i, Spring (F i)} {P : Spring ℝ}
    (h : ∀ i, (p i).Close (δ i) P) : NSpring l p P :=
  ⟨.of_close hδ fun i => (h i).restLength,
    .of_close hδ fun i => (h i).ks,
    .of_close hδ fun i => (h i).kd,
    .of_close hδ fun i => (h i).p1_x,
    .of_close hδ fun i => (h i).p1_y,
    .of_close hδ fun i => (h i).p2_x,
    .of_close hδ fun i => (h i).p2_y,
    .of_forall fun i => (h i).body1,
    .of_forall fun i => (h i).body2⟩

theorem NMotor.of_close (hδ : Tendsto δ l (𝓝 0)) {p : ∀ i, Motor (F i)} {P : Motor ℝ}
    (h : ∀ i, (p i).Close (δ i) P) : NMotor l p P :=
  ⟨.of_close hδ fun i => (h i).ks,
    .of_close hδ fun i => (h i).kd,
    .of_close hδ fun i => (h i).maxTorque,
    .of_close hδ fun i => (h i).speed,
    .of_forall fun i => (h i).body0,
    .of_forall fun i => (h i).body1⟩

theorem NStatic.of_close (hδ : Tendsto δ l (𝓝 0)) {p : ∀ i, StaticForce (F i)} {P : StaticForce ℝ}
    (h : ∀ i, (p i).Close (δ i) P) : NStatic l p P :=
  ⟨.of_close hδ fun i => (h i).f_x,
    .of_close hδ fun i => (h i).f_y,
    .of_close hδ fun i => (h i).p_x,
    .of_close hδ fun i => (h i).p_y,
    .of_forall fun i => (h i).body⟩

theorem NKind.of_close (hδ : Tendsto δ l (𝓝 0)) {k : ∀ i, CKind (F i)} {K : CKind ℝ}
    (h : ∀ i, (k i).Close (δ i) K) : NKind l k K := by
  cases K with
  | custom f =>
    obtain ⟨i⟩ := ‹Nonempty ι›
    have := h i
    cases e : k i <;> rw [e] at this <;> exact this.elim
  | base =>
    refine .of_forall fun i => ?_
    have := h i
    cases e : k i <;> rw [e] at this <;> first | rfl | exact this.elim
  | fixedPosition P =>
    have : ∀ i, ∃ q, k i = .fixedPosition q ∧ q.Close (δ i) P := fun i => by
      have := h i
      cases e : k i <;> rw [e] at this <;> first | exact ⟨_, rfl, this⟩ | exact this.elim
    choose q e hq using this
    exact ⟨q, .of_forall e, .of_close hδ hq⟩
  | fixedRotation P =>
    have : ∀ i, ∃ q, k i = .fixedRotation q ∧ q.Close (δ i) P := fun i => by
      have := h i
      cases e : k i <;> rw [e] at this <;> first | exact ⟨_, rfl, this⟩ | exact this.elim
    choose q e hq using this
    exact ⟨q, .of_forall e, .of_close hδ hq⟩
  | line P =>
    have : ∀ i, ∃ q, k i = .line q ∧ q.Close (δ i) P := fun i => by
      have := h i
      cases e : k i <;> rw [e] at this <;> first | exact ⟨_, rfl, this⟩ | exact this.elim
    choose q e hq using this
    exact ⟨q, .of_forall e, .of_close hδ hq⟩
  | link P =>
    have : ∀ i, ∃ q, k i = .link q ∧ q.Close (δ i) P := fun i => by
      have := h i
      cases e : k i <;> rw [e] at this <;> first | exact ⟨_, rfl, this⟩ | exact this.elim
    choose q e hq using this
    exact ⟨q, .of_forall e, .of_close hδ hq⟩
  | rolling P =>
    have : ∀ i, ∃ q, k i = .rolling q ∧ q.Close (δ i) P := fun i => by
      have := h i
      cases e : k i <;> rw [e] at this <;> first | exact ⟨_, rfl, this⟩ | exact this.elim
    choose q e hq using this
    exact ⟨q, .of_forall e, .of_close hδ hq⟩
  | constantRotation P =>
    have : ∀ i, ∃ q, k i = .constantRotation q ∧ q.Close (δ i) P := fun i => by
      have := h i
      cases e : k i <;> rw [e] at this <;> first | exact ⟨_, rfl, this⟩ | exact this.elim
    choose q e hq using this
    exact ⟨q, .of_forall e, .of_close hδ hq⟩
  | clutch P =>
    have : ∀ i, ∃ q, k i = .clutch q ∧ q.Close (δ i) P := fun i => by
      have := h i
      cases e : k i <;> rw [e] at this <;> first | exact ⟨_, rfl, this⟩ | exact this.elim
    choose q e hq using this
    exact ⟨q, .of_forall e, .of_close hδ hq⟩
  | rotationFriction P =>
    have : ∀ i, ∃ q, k i = .rotationFriction q ∧ q.Close (δ i) P := fun i => by
      have := h i
      cases e : k i <;> rw [e] at this <;> first | exact ⟨_, rfl, this⟩ | exact this.elim
    choose q e hq using this
    exact ⟨q, .of_forall e, .of_close hδ hq⟩
  | simpleGear P =>
    have : ∀ i, ∃ q, k i = .simpleGear q ∧ q.Close (δ i) P := fun i => by
      have := h i
      cases e : k i <;> rw [e] at this <;> first | exact ⟨_, rfl, this⟩ | exact this.elim
    choose q e hq using this
    exact ⟨q, .of_forall e, .of_close hδ hq⟩

theorem NCon.of_close (hδ : Tendsto δ l (𝓝 0)) {c : ∀ i, Con (F i)} {C : Con ℝ}
    (hη : Tendsto η l (𝓝 0)) (h0 : ∀ i, 0 < η i)
    (h : ∀ i, (c i).Close (δ i) C) : NCon l (fun i => (c i).like (η i) C) C :=
  ⟨.of_close hδ fun i => (h i).kind, .of_forall fun i => (h i).index,
    .of_forall fun i => (h i).bodyCount, .of_forall fun i => (h i).bodies, fun _ _ => .approx hη h0 _,
    fun _ _ => .approx hη h0 _, fun _ _ => .approx hη h0 _, .of_forall fun i => (h i).rows⟩

theorem NGen.of_close (hδ : Tendsto δ l (𝓝 0)) {k : ∀ i, Gen (F i)} {K : Gen ℝ}
    (h : ∀ i, (k i).Close (δ i) K) : NGen l k K := by
  cases K with
  | custom f =>
    obtain ⟨i⟩ := ‹Nonempty ι›
    have := h i
    cases e : k i <;> rw [e] at this <;> exact this.elim
  | gravity A =>
    have : ∀ i, ∃ q, k i = .gravity q ∧ Close (δ i) q A := fun i => by
      have := h i
      cases e : k i <;> rw [e] at this <;> first | exact ⟨_, rfl, this⟩ | exact this.elim
    choose q e hq using this
    exact ⟨q, .of_forall e, .of_close hδ hq⟩
  | static P =>
    have : ∀ i, ∃ q, k i = .static q ∧ q.Close (δ i) P := fun i => by
      have := h i
      cases e : k i <;> rw [e] at this <;> first | exact ⟨_, rfl, this⟩ | exact this.elim
    choose q e hq using this
    exact ⟨q, .of_forall e, .of_close hδ hq⟩
  | spring P =>
    have : ∀ i, ∃ q, k i = .spring q ∧ q.Close (δ i) P := fun i => by
      have := h i
      cases e : k i <;> rw [e] at this <;> first | exact ⟨_, rfl, this⟩ | exact this.elim
    choose q e hq using this
    exact ⟨q, .of_forall e, .of_close hδ hq⟩
  | motor P =>
    have : ∀ i, ∃ q, k i = .motor q ∧ q.Close (δ i) P := fun i => by
      have := h i
      cases e : k i <;> rw [e] at this <;> first | exact ⟨_, rfl, this⟩ | exact this.elim
    choose q e hq using this
    exact ⟨q, .of_forall e, .of_close hδ hq⟩

theorem NEnv.like (hη : Tendsto η l (𝓝 0)) (h0 : ∀ i, 0 < η i) (E : Env ℝ) :
    NEnv l (fun i => (E.like (η i) : Env (F i))) E :=
  ⟨.of_forall fun _ => rfl, fun _ => ⟨fun _ => .approx hη h0 _, fun _ _ => .approx hη h0 _,
    fun _ _ => .approx hη h0 _, fun _ => .approx hη h0 _, fun _ _ => .approx hη h0 _,
    fun _ => .approx hη h0 _, fun _ => .approx hη h0 _⟩⟩

theorem NState.like (hη : Tendsto η l (𝓝 0)) (h0 : ∀ i, 0 < η i) (j : Nat → Nat → ℝ)
    (k : Nat → Nat → Nat) :
    NState l (fun i => ((SysState.mk0 j k).like (η i) : SysState (F i))) (.mk0 j k) where
  im := .of_forall fun _ => rfl
  fld _ := NPtr.none
  rf _ := NPtr.none
  n := .of_forall fun _ => rfl
  nc := .of_forall fun _ => rfl
  dt := Near.zero
  junk _ _ := .approx hη h0 _
  junkI := .of_forall fun _ => rfl
  allocs := .of_forall fun _ => rfl
  frees := .of_forall fun _ => rfl

theorem NSle.of_close (hδ : Tendsto δ l (𝓝 0)) {v : ∀ i, Option (Solver (F i))} {V : Option (Solver ℝ)}
    (h : ∀ i, SleClose (δ i) (v i) V) : NSle l v V := by
  rcases V with _ | ⟨n, D⟩ | _ | ⟨n, D, D'⟩
  · refine .of_forall fun i => ?_
    have := h i
    rcases e : v i with _ | ⟨_ | _ | _⟩ <;> rw [e] at this <;> first | rfl | exact this.elim
  · have : ∀ i, ∃ d, v i = some (.gs n d) ∧ Close (δ i) d D := fun i => by
      have := h i
      rcases e : v i with _ | ⟨n', d⟩ | _ | _ <;> rw [e] at this <;>
        first | (obtain ⟨rfl, this⟩ := this; exact ⟨_, rfl, this⟩) | exact this.elim
    choose d e hd using this
    exact ⟨d, .of_forall e, .of_close hδ hd⟩
  · refine .of_forall fun i => ?_
    have := h i
    rcases e : v i with _ | ⟨_ | _ | _⟩ <;> rw [e] at this <;> first | rfl | exact this.elim
  · have : ∀ i, ∃ d d', v i = some (.cg n d d') ∧ Close (δ i) d D ∧ Close (δ i) d' D' := fun i => by
      have := h i
      rcases e : v i with _ | _ | _ | ⟨n', d, d'⟩ <;> rw [e] at this <;>
        first | (obtain ⟨rfl, this⟩ := this; exact ⟨_, _, rfl, this⟩) | exact this.elim
    choose d d' e hd using this
    exact ⟨d, d', .of_forall e, .of_close hδ fun i => (hd i).1, .of_close hδ fun i => (hd i).2⟩

theorem NOde.like (hη : Tendsto η l (𝓝 0)) (h0 : ∀ i, 0 < η i) {o : Ode ℝ}
    (ho : ∀ r, o = .rk4 r → r.Unused) : NOde l (fun i => (o.like (η i) : Ode (F i))) o := by
  cases o with
  | base d => exact ⟨_, .of_forall fun _ => rfl, .approx hη h0 d⟩
  | euler d => exact ⟨_, .of_forall fun _ => rfl, .approx hη h0 d⟩
  | nsv d => exact ⟨_, .of_forall fun _ => rfl, .approx hη h0 d⟩
  | rk4 r =>
    obtain ⟨h1, h2, ⟨j, k, h3⟩, j', k', h4⟩ := ho r rfl
    refine ⟨_, .of_forall fun _ => rfl, .approx hη h0 _, .of_forall fun _ => h1.symm,
      .of_forall fun _ => h2.symm, ?_, ?_⟩
    · dsimp only; rw [h3]; exact .like hη h0 j k
    · dsimp only; rw [h4]; exact .like hη h0 j' k'

theorem NOdeO.like (hη : Tendsto η l (𝓝 0)) (h0 : ∀ i, 0 < η i) {V : Option (Ode ℝ)}
    (h : ∀ r, V = some (.rk4 r) → r.Unused) :
    NOdeO l (fun i => V.map (Ode.like (F := F i) (η i))) V := by
  cases V with
  | none => exact .of_forall fun _ => rfl
  | some o => exact ⟨_, .of_forall fun _ => rfl, .like hη h0 fun r e => h r (by rw [e])⟩

theorem OdeClose.unused {F : Type} [Rounded F] {o : Option (Ode F)} {V : Option (Ode ℝ)}
    (h : OdeClose o V) : ∀ r, V = some (.rk4 r) → r.Unused := by
  rintro r rfl
  rcases o with _ | ⟨_ | _ | _ | _⟩ <;> first | exact h.2 | exact h.elim

theorem Ode.like_idle {F : Type} [Rounded F] (η : ℝ) (o : Ode ℝ) : (o.like η : Ode F).Idle := by
  cases o with
  | rk4 r => exact ⟨rfl, rfl, .fresh _ _, .fresh _ _⟩
  | _ => trivial

theorem Ode.like_same {F : Type} [Rounded F] (η : ℝ) {o : Ode F} {O : Ode ℝ}
    (h : OdeClose (some o) (some O)) : (O.like η : Ode F).SameSort o := by
  cases o <;> cases O <;> first | exact h.elim | trivial | skip
  obtain ⟨⟨a1, a2, ⟨j, k, a3⟩, j', k', a4⟩, _⟩ := h
  refine ⟨Ode.like_idle (F := F) η (.rk4 _), ⟨a1, a2, ?_, ?_⟩, ?_, ?_, ?_, ?_⟩
  · rw [a3]; exact .fresh _ _
  · rw [a4]; exact .fresh _ _
  · rw [a3]; rfl
  · rw [a3]; rfl
  · rw [a4]; rfl
  · rw [a4]; rfl

theorem Op.like_same {F : Type} [Rounded F] {δ η : ℝ} {o : Op F} {O : Op ℝ} (h : o.Close δ O) :
    (o.like η O).Same o := by
  cases o with
  | newCon c x => cases O <;> first | exact h.elim | exact ⟨rfl, rfl⟩
  | setCon c x => cases O <;> first | exact h.elim | exact ⟨rfl, rfl⟩
  | init sle ode =>
    cases O with
    | init sle' ode' =>
      cases ode with
      | none =>
        cases ode' with
        | none => rfl
        | some o => exact (And.right h).elim
      | some o =>
        cases ode' with
        | none => exact absurd h.2 (by cases o <;> exact id)
        | some o' => exact ⟨rfl, Ode.like_same η h.2⟩
    | _ => exact h.elim
  | process e dt steps => cases O <;> first | exact h.elim | exact ⟨rfl, rfl⟩
  | _ => cases O <;> first | exact h.elim | rfl

theorem NOp.of_close (hδ : Tendsto δ l (𝓝 0)) (hη : Tendsto η l (𝓝 0))
    (h0 : ∀ i, 0 < η i) {k : ∀ i, Op (F i)} {K : Op ℝ}
    (h : ∀ i, (k i).Close (δ i) K) : NOp l (fun i => (k i).like (η i) K) K := by
  cases K with
  | addBody b =>
    refine .of_forall fun i => ?_
    have := h i
    cases e : k i <;> rw [e] at this <;>
      first | (cases this; dsimp only; rw [e]; rfl) | exact this.elim
  | removeBody b =>
    refine .of_forall fun i => ?_
    have := h i
    cases e : k i <;> rw [e] at this <;>
      first | (cases this; dsimp only; rw [e]; rfl) | exact this.elim
  | addCon b =>
    refine .of_forall fun i => ?_
    have := h i
    cases e : k i <;> rw [e] at this <;>
      first | (cases this; dsimp only; rw [e]; rfl) | exact this.elim
  | removeCon b =>
    refine .of_forall fun i => ?_
    have := h i
    cases e : k i <;> rw [e] at this <;>
      first | (cases this; dsimp only; rw [e]; rfl) | exact this.elim
  | addGen b =>
    refine .of_forall fun i => ?_
    have := h i
    cases e : k i <;> rw [e] at this <;>
      first | (cases this; dsimp only; rw [e]; rfl) | exact this.elim
  | removeGen b =>
    refine .of_forall fun i => ?_
    have := h i
    cases e : k i <;> rw [e] at this <;>
      first | (cases this; dsimp only; rw [e]; rfl) | exact this.elim
  | reset =>
    refine .of_forall fun i => ?_
    have := h i
    cases e : k i <;> rw [e] at this <;>
      first | (cases this; dsimp only; rw [e]; rfl) | exact this.elim
  | newBody b X =>
    have : ∀ i, ∃ x, k i = .newBody b x ∧ x.Close (δ i) X := fun i => by
      have := h i
      cases e : k i <;> rw [e] at this <;>
        first | (obtain ⟨rfl, this⟩ := this; exact ⟨_, rfl, this⟩) | exact this.elim
    choose x e hx using this
    exact ⟨x, .of_forall fun i => by dsimp only; rw [e]; rfl, .of_close hδ hx⟩
  | newCon b X =>
    have : ∀ i, ∃ x, k i = .newCon b x ∧ x.Close (δ i) X := fun i => by
      have := h i
      cases e : k i <;> rw [e] at this <;>
        first | (obtain ⟨rfl, this⟩ := this; exact ⟨_, rfl, this⟩) | exact this.elim
    choose x e hx using this
    exact ⟨fun i => (x i).like (η i) X, .of_forall fun i => by dsimp only; rw [e]; rfl, .of_close hδ hη h0 hx⟩
  | newGen b X =>
    have : ∀ i, ∃ x, k i = .newGen b x ∧ x.Close (δ i) X := fun i => by
      have := h i
      cases e : k i <;> rw [e] at this <;>
        first | (obtain ⟨rfl, this⟩ := this; exact ⟨_, rfl, this⟩) | exact this.elim
    choose x e hx using this
    exact ⟨x, .of_forall fun i => by dsimp only; rw [e]; rfl, .of_close hδ hx⟩
  | setBody b X =>
    have : ∀ i, ∃ x, k i = .setBody b x ∧ x.Close (δ i) X := fun i => by
      have := h i
      cases e : k i <;> rw [e] at this <;>
        first | (obtain ⟨rfl, this⟩ := this; exact ⟨_, rfl, this⟩) | exact this.elim
    choose x e hx using this
    exact ⟨x, .of_forall fun i => by dsimp only; rw [e]; rfl, .of_close hδ hx⟩
  | setCon b X =>
    have : ∀ i, ∃ x, k i = .setCon b x ∧ x.Close (δ i) X := fun i => by
      have := h i
      cases e : k i <;> rw [e] at this <;>
        first | (obtain ⟨rfl, this⟩ := this; exact ⟨_, rfl, this⟩) | exact this.elim
    choose x e hx using this
    exact ⟨fun i => (x i).like (η i) X, .of_forall fun i => by dsimp only; rw [e]; rfl, .of_close hδ hη h0 hx⟩
  | setGen b X =>
    have : ∀ i, ∃ x, k i = .setGen b x ∧ x.Close (δ i) X := fun i => by
      have := h i
      cases e : k i <;> rw [e] at this <;>
        first | (obtain ⟨rfl, this⟩ := this; exact ⟨_, rfl, this⟩) | exact this.elim
    choose x e hx using this
    exact ⟨x, .of_forall fun i => by dsimp only; rw [e]; rfl, .of_close hδ hx⟩
  | init sle ode =>
    have : ∀ i, ∃ v o, k i = .init v o ∧ SleClose (δ i) v sle ∧ OdeClose o ode := fun i => by
      have := h i
      cases e : k i <;> rw [e] at this <;> first | exact ⟨_, _, rfl, this⟩ | exact this.elim
    choose v o e hv ho using this
    obtain ⟨i0⟩ := ‹Nonempty ι›
    refine ⟨v, fun i => ode.map (Ode.like (η i)), .of_forall fun i => by dsimp only; rw [e]; rfl,
      .of_close hδ hv, .like hη h0 (ho i0).unused, .of_forall fun i p e => ?_⟩
    cases ode with
    | none => cases e
    | some q => cases e; exact Ode.like_idle _ q
  | setBias X =>
    have : ∀ i, ∃ x, k i = .setBias x ∧ Close (δ i) x X := fun i => by
      have := h i
      cases e : k i <;> rw [e] at this <;> first | exact ⟨_, rfl, this⟩ | exact this.elim
    choose x e hx using this
    exact ⟨x, .of_forall fun i => by dsimp only; rw [e]; rfl, .of_close hδ hx⟩
  | process E D steps =>
    have : ∀ i, ∃ e d, k i = .process e d steps ∧ Close (δ i) d D := fun i => by
      have := h i
      cases e : k i <;> rw [e] at this <;>
        first | (obtain ⟨this, rfl⟩ := this; exact ⟨_, _, rfl, this⟩) | exact this.elim
    choose e d ee hd using this
    exact ⟨fun i => .like (η i) E, d, .of_forall fun i => by dsimp only; rw [ee]; rfl, .like hη h0 E,
      .of_close hδ hd⟩

/-- The program with memory that is nearly that of the exact program. -/
noncomputable def likeAll {F : Type} [Rounded F] (η : ℝ) : List (Op F) → List (Op ℝ) → List (Op F)
  | o :: os, O :: OS => o.like η O :: likeAll η os OS
  | _, _ => []

theorem likeAll_same {F : Type} [Rounded F] {δ η : ℝ} {os : List (Op F)} {OS : List (Op ℝ)}
    (h : List.Forall₂ (Op.Close δ) os OS) : List.Forall₂ Op.Same (likeAll η os OS) os := by
  induction h with
  | nil => exact .nil
  | cons h _ ih => exact .cons (Op.like_same h) ih

theorem NProg.of_close (hδ : Tendsto δ l (𝓝 0)) (hη : Tendsto η l (𝓝 0)) (h0 : ∀ i, 0 < η i) :
    ∀ (K : List (Op ℝ)) {k : ∀ i, List (Op (F i))},
    (∀ i, List.Forall₂ (Op.Close (δ i)) (k i) K) → NProg l (fun i => likeAll (η i) (k i) K) K
  | [], k, h => .of_forall fun i => by
      have := h i
      cases e : k i with
      | nil => dsimp only; rw [e]; rfl
      | cons a b => rw [e] at this; cases this
  | OP :: OPS, k, h => by
      have : ∀ i, ∃ op rest, k i = op :: rest ∧ op.Close (δ i) OP ∧
          List.Forall₂ (Op.Close (δ i)) rest OPS := fun i => by
        have := h i
        cases e : k i with
        | nil => rw [e] at this; cases this
        | cons a b => rw [e] at this; cases this with | cons h1 h2 => exact ⟨_, _, rfl, h1, h2⟩
      choose op rest e h1 h2 using this
      exact ⟨fun i => (op i).like (η i) OP, fun i => likeAll (η i) (rest i) OPS,
        .of_forall fun i => by dsimp only; rw [e]; rfl,
        .of_close hδ hη h0 h1, NProg.of_close hδ hη h0 OPS h2⟩

/-- A new system whose memory is nearly that of the exact one. -/
noncomputable def World.like {F : Type} [Rounded F] (η : ℝ) (bodies : Nat → Body F)
    (cons : Nat → Con F) (gens : Nat → Gen F) (x : Nat → Option Int) (C : Nat → Con ℝ)
    (j j' : Nat → Nat → ℝ) (k k' : Nat → Nat → Nat) : World F :=
  World.construct bodies (fun c => (cons c).like η (C c)) gens x
    (Store.fresh (fun a b => approx η (j a b)) k) (fun a b => approx η (j' a b)) k'

theorem NWorld.fresh (hδ : Tendsto δ l (𝓝 0)) (hη : Tendsto η l (𝓝 0)) (h0 : ∀ i, 0 < η i)
    {b : ∀ i, Nat → Body (F i)} {B : Nat → Body ℝ}
    (hb : ∀ i k, (b i k).Close (δ i) (B k)) {c : ∀ i, Nat → Con (F i)} {C : Nat → Con ℝ}
    (hc : ∀ i k, (c i k).Close (δ i) (C k)) {g : ∀ i, Nat → Gen (F i)} {G : Nat → Gen ℝ}
    (hg : ∀ i k, (g i k).Close (δ i) (G k)) (x : Nat → Option Int) (j j' : Nat → Nat → ℝ)
    (k k' : Nat → Nat → Nat) :
    NWorld l (fun i => World.like (η i) (b i) (c i) (g i) x C j j' k k')
      (World.construct B C G x (Store.fresh j k) j' k') where
  bodies k := .of_close hδ fun i => hb i k
  cons k := .of_close hδ hη h0 fun i => hc i k
  gens k := .of_close hδ fun i => hg i k
  genIndex := .of_forall fun _ => rfl
  rb := .of_forall fun _ => rfl
  cs := .of_forall fun _ => rfl
  fg := .of_forall fun _ => rfl
  st := .like hη h0 j' k'
  mem := by
    have hm : NMat l (fun i => (Mat.empty : Mat (F i))) (Mat.empty : Mat ℝ) :=
      ⟨.of_forall fun _ => rfl, NPtr.none, .of_forall fun _ => rfl, .of_forall fun _ => rfl,
        .of_forall fun _ => rfl, .of_forall fun _ => rfl⟩
    refine ⟨Mat.empty, Mat.empty_wf, fun t => ?_, fun t => ?_, fun _ _ => .approx hη h0 _,
      .of_forall fun _ => rfl, .of_forall fun _ => rfl, .of_forall fun _ => ⟨rfl, rfl, rfl, rfl⟩⟩
    · have : (Store.fresh j k).seen (some Mat.empty) t = Mat.empty := by
        unfold Store.seen; split <;> rfl
      show NMat l _ ((Store.fresh j k).seen (some Mat.empty) t)
      rw [this]; exact hm
    · exact ⟨.of_forall fun _ => rfl, NPtr.none, .of_forall fun _ => rfl, .of_forall fun _ => rfl,
        .of_forall fun _ => rfl, .of_forall fun _ => rfl⟩
  ring := .of_forall fun _ => rfl
  frame := .of_forall fun _ => rfl
  sle := .of_forall fun _ => rfl
  ode := .of_forall fun _ => rfl
  nsv := ⟨_, .of_forall fun _ => rfl, Near.zero⟩
  bias := Near.lit 1
  t := Near.lit 0

end

end Scs
