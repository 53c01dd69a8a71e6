import Verif.State

/-!
# Model of `constraint` and the shipped constraints

`include/constraint.h`, `src/constraint.cpp`, `src/*_constraint.cpp`. A constraint object is a kind
(its class with the members of that class) together with the members of the base class.
-/

namespace Scs

/-- A raw pointer to an object: null, indeterminate, or pointing to object `id`. -/
inductive Ptr where
  | null
  | uninit
  | obj (id : Nat)
  deriving DecidableEq, Repr

/-- Dereferencing a pointer. -/
def Ptr.get : Ptr → Exec Nat
  | .null => .error .null
  | .uninit => .error .uninit
  | .obj i => .ok i

/-- `Constraint::MaxConstraintCount`, include/constraint.h:14. -/
def maxRows : Nat := 3

/-- `Constraint::MaxBodyCount`, include/constraint.h:15. -/
def maxBodies : Nat := 2

/-- `struct Constraint::Output`, include/constraint.h:17-25. Arrays are functions; every access in
the code with an index that is not a literal is checked (`rd1`, `rd2`). -/
structure Output (α : Type) where
  C : Nat → α
  J : Nat → Nat → α
  J_dot : Nat → Nat → α
  v_bias : Nat → α
  limits : Nat → Nat → α
  ks : Nat → α
  kd : Nat → α

/-- `a[i]` for an array of `n` elements inside an object. -/
def rd1 {α : Type} (n : Nat) (a : Nat → α) (i : Nat) : Exec α :=
  if i < n then .ok (a i) else .error .oob

/-- `a[i][j]` for an array of `n` times `m` elements inside an object. -/
def rd2 {α : Type} (n m : Nat) (a : Nat → Nat → α) (i j : Nat) : Exec α :=
  if i < n ∧ j < m then .ok (a i j) else .error .oob

section
variable {α : Type}

/-- `output->C[i] = v`. -/
def Output.setC (o : Output α) (i : Nat) (v : α) : Output α := { o with C := upd o.C i v }
/-- `output->J[i][j] = v`. -/
def Output.setJ (o : Output α) (i j : Nat) (v : α) : Output α :=
  { o with J := upd o.J i (upd (o.J i) j v) }
/-- `output->J_dot[i][j] = v`. -/
def Output.setJd (o : Output α) (i j : Nat) (v : α) : Output α :=
  { o with J_dot := upd o.J_dot i (upd (o.J_dot i) j v) }
/-- `output->v_bias[i] = v`. -/
def Output.setB (o : Output α) (i : Nat) (v : α) : Output α := { o with v_bias := upd o.v_bias i v }
/-- `output->limits[i][j] = v`. -/
def Output.setL (o : Output α) (i j : Nat) (v : α) : Output α :=
  { o with limits := upd o.limits i (upd (o.limits i) j v) }
/-- `output->ks[i] = v`. -/
def Output.setKs (o : Output α) (i : Nat) (v : α) : Output α := { o with ks := upd o.ks i v }
/-- `output->kd[i] = v`. -/
def Output.setKd (o : Output α) (i : Nat) (v : α) : Output α := { o with kd := upd o.kd i v }

end

section
variable {α : Type} [Zero α] [Add α] [Mul α] [Sub α] [Neg α] [Fp α]

/-- `Constraint::noLimits`, include/constraint.h:43-48. -/
def Output.noLimits (o : Output α) : Output α :=
  ((((((o.setL 0 0 (-Fp.dblMax)).setL 0 1 Fp.dblMax).setL 1 0 (-Fp.dblMax)).setL 1 1 Fp.dblMax).setL
    2 0 (-Fp.dblMax)).setL 2 1 Fp.dblMax)

end

/-- Members of `FixedPositionConstraint`, include/fixed_position_constraint.h:19-24. -/
structure FixedPosition (α : Type) where
  local_x : α
  local_y : α
  world_x : α
  world_y : α
  ks : α
  kd : α

/-- Members of `FixedRotationConstraint`, include/fixed_rotation_constraint.h:16-18. -/
structure FixedRotation (α : Type) where
  rotation : α
  ks : α
  kd : α

/-- Members of `LineConstraint`, include/line_constraint.h:16-24. -/
structure Line (α : Type) where
  local_x : α
  local_y : α
  p0_x : α
  p0_y : α
  dx : α
  dy : α
  ks : α
  kd : α

/-- Members of `LinkConstraint`, include/link_constraint.h:20-27. -/
structure Link (α : Type) where
  local_x_1 : α
  local_y_1 : α
  local_x_2 : α
  local_y_2 : α
  maxForce : α
  ks : α
  kd : α

/-- Members of `RollingConstraint`, include/rolling_constraint.h:17-24. -/
structure Rolling (α : Type) where
  local_x : α
  local_y : α
  dx : α
  dy : α
  radius : α
  ks : α
  kd : α

/-- Members of `ConstantRotationConstraint`, include/constant_rotation_constraint.h:16-21. -/
structure ConstantRotation (α : Type) where
  rotationSpeed : α
  minTorque : α
  maxTorque : α
  ks : α
  kd : α

/-- Members of `ClutchConstraint`, include/clutch_constraint.h:17-21. -/
structure Clutch (α : Type) where
  minTorque : α
  maxTorque : α
  ks : α
  kd : α

/-- Members of `RotationFrictionConstraint`, include/rotation_friction_constraint.h:16-20. -/
structure RotationFriction (α : Type) where
  minTorque : α
  maxTorque : α
  ks : α
  kd : α

/-- Members of `SimpleGearConstraint`, include/simple_gear_constraint.h:17-21. -/
structure SimpleGear (α : Type) where
  ratio : α
  neutral : Bool
  ks : α
  kd : α

/-- The dynamic type of a constraint with its own members. `base` is the class `Constraint` itself;
`custom` is a class derived outside the library, which may compute anything from the state and the
indices of its bodies but does not change the state. -/
inductive CKind (α : Type) where
  | base
  | fixedPosition (p : FixedPosition α)
  | fixedRotation (p : FixedRotation α)
  | line (p : Line α)
  | link (p : Link α)
  | rolling (p : Rolling α)
  | constantRotation (p : ConstantRotation α)
  | clutch (p : Clutch α)
  | rotationFriction (p : RotationFriction α)
  | simpleGear (p : SimpleGear α)
  | custom (f : (Nat → Exec Int) → Output α → SysState α → Exec (Output α))

section
variable {α : Type} [Zero α] [Add α] [Mul α] [Sub α] [Neg α] [Fp α]

/-- `FixedPositionConstraint::calculate`, src/fixed_position_constraint.cpp:26-85. `idx k` is
`m_bodies[k]->index`. -/
def FixedPosition.calculate (p : FixedPosition α) (idx : Nat → Exec Int) (o : Output α)
    (state : SysState α) : Exec (Output α) := do
  let body ← idx 0
  let q1 ← state.rd .p_x body
  let q2 ← state.rd .p_y body
  let q3 ← state.rd .theta body
  let q3_dot ← state.rd .v_theta body
  let cos_q3 := Fp.cos q3
  let sin_q3 := Fp.sin q3
  let current_x := q1 + cos_q3 * p.local_x - sin_q3 * p.local_y
  let current_y := q2 + sin_q3 * p.local_x + cos_q3 * p.local_y
  let dx_dq1 : α := Fp.lit 1
  let dx_dq2 : α := Fp.lit 0
  let dx_dq3 := -sin_q3 * p.local_x - cos_q3 * p.local_y
  let dy_dq1 : α := Fp.lit 0
  let dy_dq2 : α := Fp.lit 1
  let dy_dq3 := cos_q3 * p.local_x - sin_q3 * p.local_y
  let C1 := current_x - p.world_x
  let C2 := current_y - p.world_y
  let o := o.setJ 0 0 dx_dq1
  let o := o.setJ 0 1 dx_dq2
  let o := o.setJ 0 2 dx_dq3
  let o := o.setJ 1 0 dy_dq1
  let o := o.setJ 1 1 dy_dq2
  let o := o.setJ 1 2 dy_dq3
  let o := o.setJd 0 0 (Fp.lit 0)
  let o := o.setJd 0 1 (Fp.lit 0)
  let o := o.setJd 0 2 (-cos_q3 * q3_dot * p.local_x + sin_q3 * q3_dot * p.local_y)
  let o := o.setJd 1 0 (Fp.lit 0)
  let o := o.setJd 1 1 (Fp.lit 0)
  let o := o.setJd 1 2 (-sin_q3 * q3_dot * p.local_x - cos_q3 * q3_dot * p.local_y)
  let o := o.setKs 0 p.ks
  let o := o.setKs 1 p.ks
  let o := o.setKd 1 p.kd
  let o := o.setKd 0 p.kd
  let o := o.setC 0 C1
  let o := o.setC 1 C2
  let o := o.setB 0 (Fp.lit 0)
  let o := o.setB 1 (Fp.lit 0)
  pure o.noLimits

/-- `FixedRotationConstraint::calculate`, src/fixed_rotation_constraint.cpp:13-35. -/
def FixedRotation.calculate (p : FixedRotation α) (idx : Nat → Exec Int) (o : Output α)
    (state : SysState α) : Exec (Output α) := do
  let body ← idx 0
  let q3 ← state.rd .theta body
  let C := q3 - p.rotation
  let o := o.setJ 0 0 (Fp.lit 0)
  let o := o.setJ 0 1 (Fp.lit 0)
  let o := o.setJ 0 2 (Fp.lit 1)
  let o := o.setJd 0 0 (Fp.lit 0)
  let o := o.setJd 0 1 (Fp.lit 0)
  let o := o.setJd 0 2 (Fp.lit 0)
  let o := o.setKs 0 p.ks
  let o := o.setKd 0 p.kd
  let o := o.setC 0 C
  let o := o.setB 0 (Fp.lit 0)
  pure o.noLimits

/-- `LineConstraint::calculate`, src/line_constraint.cpp:17-66. -/
def Line.calculate (p : Line α) (idx : Nat → Exec Int) (o : Output α) (state : SysState α) :
    Exec (Output α) := do
  let body ← idx 0
  let q1 ← state.rd .p_x body
  let q2 ← state.rd .p_y body
  let q3 ← state.rd .theta body
  let q3_dot ← state.rd .v_theta body
  let cos_q3 := Fp.cos q3
  let sin_q3 := Fp.sin q3
  let bodyX := q1 + cos_q3 * p.local_x - sin_q3 * p.local_y
  let bodyY := q2 + sin_q3 * p.local_x + cos_q3 * p.local_y
  let perpX := -p.dy
  let perpY := p.dx
  let deltaX := bodyX - p.p0_x
  let deltaY := bodyY - p.p0_y
  let C := deltaX * perpX + deltaY * perpY
  let dC_dq1 := Fp.lit 1 * perpX
  let dC_dq2 := Fp.lit 1 * perpY
  let dC_dq3 := (-sin_q3 * p.local_x - cos_q3 * p.local_y) * perpX
    + (cos_q3 * p.local_x - sin_q3 * p.local_y) * perpY
  let o := o.setJ 0 0 dC_dq1
  let o := o.setJ 0 1 dC_dq2
  let o := o.setJ 0 2 dC_dq3
  let o := o.setJd 0 0 (Fp.lit 0)
  let o := o.setJd 0 1 (Fp.lit 0)
  let o := o.setJd 0 2
    ((-cos_q3 * q3_dot * p.local_x + sin_q3 * q3_dot * p.local_y) * perpX
      + (-sin_q3 * q3_dot * p.local_x - cos_q3 * q3_dot * p.local_y) * perpY)
  let o := o.setKs 0 p.ks
  let o := o.setKd 0 p.kd
  let o := o.setC 0 C
  let o := o.setB 0 (Fp.lit 0)
  pure o.noLimits

/-- `LinkConstraint::calculate`, src/link_constraint.cpp:17-101. -/
def Link.calculate (p : Link α) (idx : Nat → Exec Int) (o : Output α) (state : SysState α) :
    Exec (Output α) := do
  let body ← idx 0
  let linkedBody ← idx 1
  let q1 ← state.rd .p_x body
  let q2 ← state.rd .p_y body
  let q3 ← state.rd .theta body
  let q4 ← state.rd .p_x linkedBody
  let q5 ← state.rd .p_y linkedBody
  let q6 ← state.rd .theta linkedBody
  let q3_dot ← state.rd .v_theta body
  let q6_dot ← state.rd .v_theta linkedBody
  let cos_q3 := Fp.cos q3
  let sin_q3 := Fp.sin q3
  let cos_q6 := Fp.cos q6
  let sin_q6 := Fp.sin q6
  let bodyX := q1 + cos_q3 * p.local_x_1 - sin_q3 * p.local_y_1
  let bodyY := q2 + sin_q3 * p.local_x_1 + cos_q3 * p.local_y_1
  let linkedBodyX := q4 + cos_q6 * p.local_x_2 - sin_q6 * p.local_y_2
  let linkedBodyY := q5 + sin_q6 * p.local_x_2 + cos_q6 * p.local_y_2
  let C1 := bodyX - linkedBodyX
  let C2 := bodyY - linkedBodyY
  let o := o.setJ 0 0 (Fp.lit 1)
  let o := o.setJ 0 1 (Fp.lit 0)
  let o := o.setJ 0 2 (-sin_q3 * p.local_x_1 - cos_q3 * p.local_y_1)
  let o := o.setJ 1 0 (Fp.lit 0)
  let o := o.setJ 1 1 (Fp.lit 1)
  let o := o.setJ 1 2 (cos_q3 * p.local_x_1 - sin_q3 * p.local_y_1)
  let o := o.setJ 0 3 (-Fp.lit 1)
  let o := o.setJ 0 4 (Fp.lit 0)
  let o := o.setJ 0 5 (sin_q6 * p.local_x_2 + cos_q6 * p.local_y_2)
  let o := o.setJ 1 3 (Fp.lit 0)
  let o := o.setJ 1 4 (-Fp.lit 1)
  let o := o.setJ 1 5 (-cos_q6 * p.local_x_2 + sin_q6 * p.local_y_2)
  let o := o.setJd 0 0 (Fp.lit 0)
  let o := o.setJd 0 1 (Fp.lit 0)
  let o := o.setJd 0 2 (-cos_q3 * q3_dot * p.local_x_1 + sin_q3 * q3_dot * p.local_y_1)
  let o := o.setJd 1 0 (Fp.lit 0)
  let o := o.setJd 1 1 (Fp.lit 0)
  let o := o.setJd 1 2 (-sin_q3 * q3_dot * p.local_x_1 - cos_q3 * q3_dot * p.local_y_1)
  let o := o.setJd 0 3 (Fp.lit 0)
  let o := o.setJd 0 4 (Fp.lit 0)
  let o := o.setJd 0 5 (cos_q6 * q6_dot * p.local_x_2 - sin_q6 * q6_dot * p.local_y_2)
  let o := o.setJd 1 3 (Fp.lit 0)
  let o := o.setJd 1 4 (Fp.lit 0)
  let o := o.setJd 1 5 (sin_q6 * q6_dot * p.local_x_2 + cos_q6 * q6_dot * p.local_y_2)
  let o := o.setKd 1 p.kd
  let o := o.setKd 0 p.kd
  let o := o.setKs 0 p.ks
  let o := o.setKs 1 p.ks
  let o := o.setC 0 C1
  let o := o.setC 1 C2
  let o := o.setB 0 (Fp.lit 0)
  let o := o.setB 1 (Fp.lit 0)
  let o := o.setL 0 0 (-p.maxForce)
  let o := o.setL 0 1 p.maxForce
  let o := o.setL 1 0 (-p.maxForce)
  let o := o.setL 1 1 p.maxForce
  pure o

/-- `RollingConstraint::calculate`, src/rolling_constraint.cpp:17-155. -/
def Rolling.calculate (p : Rolling α) (idx : Nat → Exec Int) (o : Output α) (state : SysState α) :
    Exec (Output α) := do
  let baseBody ← idx 0
  let rollingBody ← idx 1
  let q1 ← state.rd .p_x baseBody
  let q2 ← state.rd .p_y baseBody
  let q3 ← state.rd .theta baseBody
  let q4 ← state.rd .p_x rollingBody
  let q5 ← state.rd .p_y rollingBody
  let q6 ← state.rd .theta rollingBody
  let q1_dot ← state.rd .v_x baseBody
  let q2_dot ← state.rd .v_y baseBody
  let q3_dot ← state.rd .v_theta baseBody
  let q4_dot ← state.rd .v_x rollingBody
  let q5_dot ← state.rd .v_y rollingBody
  let cos_q3 := Fp.cos q3
  let sin_q3 := Fp.sin q3
  let origin_x := q1 + cos_q3 * p.local_x - sin_q3 * p.local_y
  let origin_y := q2 + sin_q3 * p.local_x + cos_q3 * p.local_y
  let dx := cos_q3 * p.dx - sin_q3 * p.dy
  let dy := sin_q3 * p.dx + cos_q3 * p.dy
  let dx_dot := -sin_q3 * q3_dot * p.dx - cos_q3 * q3_dot * p.dy
  let dy_dot := cos_q3 * q3_dot * p.dx - sin_q3 * q3_dot * p.dy
  let perp_x := -dy
  let perp_y := dx
  let delta_x := q4 - origin_x
  let delta_y := q5 - origin_y
  let delta_x_dot :=
    q4_dot - (q1_dot - sin_q3 * q3_dot * p.local_x - cos_q3 * q3_dot * p.local_y)
  let delta_y_dot :=
    q5_dot - (q2_dot + cos_q3 * q3_dot * p.local_x - sin_q3 * q3_dot * p.local_y)
  let s := delta_x * dx + delta_y * dy
  let C0 := -q6 - s * p.radius
  let C1 := p.radius - (perp_x * delta_x + perp_y * delta_y)
  let d_origin_x_dq3 := -sin_q3 * p.local_x - cos_q3 * p.local_y
  let d_origin_y_dq3 := cos_q3 * p.local_x - sin_q3 * p.local_y
  let d_delta_x_dq1 : α := -Fp.lit 1
  let d_delta_x_dq3 := -d_origin_x_dq3
  let d_delta_x_dq4 : α := Fp.lit 1
  let d_delta_y_dq2 : α := -Fp.lit 1
  let d_delta_y_dq3 := -d_origin_y_dq3
  let d_delta_y_dq5 : α := Fp.lit 1
  let d_dx_dq3 := -dy
  let d_dy_dq3 := dx
  let d_dx_dq3_dot := -cos_q3 * q3_dot * p.dx + sin_q3 * q3_dot * p.dy
  let d_dy_dq3_dot := -sin_q3 * q3_dot * p.dx - cos_q3 * q3_dot * p.dy
  let d_delta_x_dq3_dot := cos_q3 * q3_dot * p.local_x - sin_q3 * q3_dot * p.local_y
  let d_delta_y_dq3_dot := sin_q3 * q3_dot * p.local_x + cos_q3 * q3_dot * p.local_y
  let ds_dq1 := d_delta_x_dq1 * dx
  let ds_dq2 := d_delta_y_dq2 * dy
  let ds_dq3 := (d_delta_x_dq3 * dx + delta_x * d_dx_dq3)
    + (d_delta_y_dq3 * dy + delta_y * d_dy_dq3)
  let ds_dq1_dot := d_delta_x_dq1 * dx_dot
  let ds_dq2_dot := d_delta_y_dq2 * dy_dot
  let ds_dq3_dot := (d_delta_x_dq3_dot * dx + d_delta_x_dq3 * dx_dot)
    + (delta_x_dot * d_dx_dq3 + delta_x * d_dx_dq3_dot)
    + (d_delta_y_dq3_dot * dy + d_delta_y_dq3 * dy_dot)
    + (delta_y_dot * d_dy_dq3 + delta_y * d_dy_dq3_dot)
  let o := o.setJ 0 0 (-ds_dq1 * p.radius)
  let o := o.setJ 0 1 (-ds_dq2 * p.radius)
  let o := o.setJ 0 2 (-ds_dq3 * p.radius)
  let o := o.setJ 1 0 (dy * d_delta_x_dq1)
  let o := o.setJ 1 1 (-dx * d_delta_y_dq2)
  let o := o.setJ 1 2
    ((d_dy_dq3 * delta_x + dy * d_delta_x_dq3) - (d_dx_dq3 * delta_y + dx * d_delta_y_dq3))
  let o := o.setJ 0 3 (-Fp.lit 1 * dx * p.radius)
  let o := o.setJ 0 4 (-Fp.lit 1 * dy * p.radius)
  let o := o.setJ 0 5 (-Fp.lit 1)
  let o := o.setJ 1 3 (dy * d_delta_x_dq4)
  let o := o.setJ 1 4 (-dx * d_delta_y_dq5)
  let o := o.setJ 1 5 (Fp.lit 0)
  let o := o.setJd 0 0 (-ds_dq1_dot * p.radius)
  let o := o.setJd 0 1 (-ds_dq2_dot * p.radius)
  let o := o.setJd 0 2 (-ds_dq3_dot * p.radius)
  let o := o.setJd 1 0 (dy_dot * d_delta_x_dq1)
  let o := o.setJd 1 1 (-dx_dot * d_delta_y_dq2)
  let o := o.setJd 1 2
    ((d_dy_dq3_dot * delta_x + d_dy_dq3 * delta_x_dot)
      + (dy_dot * d_delta_x_dq3 + dy * d_delta_x_dq3_dot)
      - (d_dx_dq3_dot * delta_y + d_dx_dq3 * delta_y_dot)
      - (dx_dot * d_delta_y_dq3 + dx * d_delta_y_dq3_dot))
  let o := o.setJd 0 3 (-Fp.lit 1 * dx_dot * p.radius)
  let o := o.setJd 0 4 (-Fp.lit 1 * dy_dot * p.radius)
  let o := o.setJd 0 5 (Fp.lit 0)
  let o := o.setJd 1 3 (dy_dot * d_delta_x_dq4)
  let o := o.setJd 1 4 (-dx_dot * d_delta_y_dq5)
  let o := o.setJd 1 5 (Fp.lit 0)
  let o := o.setKs 0 (Fp.lit 0)
  let o := o.setKd 0 (Fp.lit 0)
  let o := o.setKs 1 p.ks
  let o := o.setKd 1 p.kd
  let o := o.setC 0 C0
  let o := o.setC 1 C1
  let o := o.setB 0 (Fp.lit 0)
  let o := o.setB 1 (Fp.lit 0)
  pure o.noLimits

/-- `ConstantRotationConstraint::calculate`, src/constant_rotation_constraint.cpp:18-36. -/
def ConstantRotation.calculate (p : ConstantRotation α) (o : Output α) : Output α :=
  let o := o.setJ 0 0 (Fp.lit 0)
  let o := o.setJ 0 1 (Fp.lit 0)
  let o := o.setJ 0 2 (Fp.lit 1)
  let o := o.setJd 0 0 (Fp.lit 0)
  let o := o.setJd 0 1 (Fp.lit 0)
  let o := o.setJd 0 2 (Fp.lit 0)
  let o := o.setKs 0 p.ks
  let o := o.setKd 0 p.kd
  let o := o.setC 0 (Fp.lit 0)
  let o := o.setB 0 p.rotationSpeed
  let o := o.setL 0 0 p.minTorque
  o.setL 0 1 p.maxTorque

/-- `ClutchConstraint::calculate`, src/clutch_constraint.cpp:18-47. -/
def Clutch.calculate (p : Clutch α) (o : Output α) : Output α :=
  let o := o.setC 0 (Fp.lit 0)
  let o := o.setJ 0 0 (Fp.lit 0)
  let o := o.setJ 0 1 (Fp.lit 0)
  let o := o.setJ 0 2 (-Fp.lit 1)
  let o := o.setJ 0 3 (Fp.lit 0)
  let o := o.setJ 0 4 (Fp.lit 0)
  let o := o.setJ 0 5 (Fp.lit 1)
  let o := o.setJd 0 0 (Fp.lit 0)
  let o := o.setJd 0 1 (Fp.lit 0)
  let o := o.setJd 0 2 (Fp.lit 0)
  let o := o.setJd 0 3 (Fp.lit 0)
  let o := o.setJd 0 4 (Fp.lit 0)
  let o := o.setJd 0 5 (Fp.lit 0)
  let o := o.setKd 0 p.kd
  let o := o.setKs 0 p.ks
  let o := o.setB 0 (Fp.lit 0)
  let o := o.setL 0 0 p.minTorque
  o.setL 0 1 p.maxTorque

/-- `RotationFrictionConstraint::calculate`, src/rotation_friction_constraint.cpp:17-40. The index
of the body is read and not used. -/
def RotationFriction.calculate (p : RotationFriction α) (idx : Nat → Exec Int) (o : Output α) :
    Exec (Output α) := do
  let _body ← idx 0
  let o := o.setC 0 (Fp.lit 0)
  let o := o.setJ 0 0 (Fp.lit 0)
  let o := o.setJ 0 1 (Fp.lit 0)
  let o := o.setJ 0 2 (Fp.lit 1)
  let o := o.setJd 0 0 (Fp.lit 0)
  let o := o.setJd 0 1 (Fp.lit 0)
  let o := o.setJd 0 2 (Fp.lit 0)
  let o := o.setKd 0 p.kd
  let o := o.setKs 0 p.ks
  let o := o.setB 0 (Fp.lit 0)
  let o := o.setL 0 0 p.minTorque
  pure (o.setL 0 1 p.maxTorque)

/-- `SimpleGearConstraint::calculate`, src/simple_gear_constraint.cpp:18-50. -/
def SimpleGear.calculate (p : SimpleGear α) (o : Output α) : Output α :=
  let o := o.setC 0 (Fp.lit 0)
  let o := o.setJ 0 0 (Fp.lit 0)
  let o := o.setJ 0 1 (Fp.lit 0)
  let o := o.setJ 0 2 (Fp.lit 1)
  let o := o.setJ 0 3 (Fp.lit 0)
  let o := o.setJ 0 4 (Fp.lit 0)
  let o := o.setJ 0 5 (-p.ratio)
  let o := o.setJd 0 0 (Fp.lit 0)
  let o := o.setJd 0 1 (Fp.lit 0)
  let o := o.setJd 0 2 (Fp.lit 0)
  let o := o.setJd 0 3 (Fp.lit 0)
  let o := o.setJd 0 4 (Fp.lit 0)
  let o := o.setJd 0 5 (Fp.lit 0)
  let o := o.setKd 0 p.kd
  let o := o.setKs 0 p.ks
  let o := o.setB 0 (Fp.lit 0)
  if p.neutral then
    let o := o.setL 0 1 (Fp.lit 0)
    o.setL 0 0 (Fp.lit 0)
  else o.noLimits

/-- The virtual call `constraint->calculate(output, state)`; the base class does nothing
(src/constraint.cpp:28-30). -/
def CKind.calculate (k : CKind α) (idx : Nat → Exec Int) (o : Output α) (state : SysState α) :
    Exec (Output α) :=
  match k with
  | .base => pure o
  | .fixedPosition p => p.calculate idx o state
  | .fixedRotation p => p.calculate idx o state
  | .line p => p.calculate idx o state
  | .link p => p.calculate idx o state
  | .rolling p => p.calculate idx o state
  | .constantRotation p => pure (p.calculate o)
  | .clutch p => pure (p.calculate o)
  | .rotationFriction p => p.calculate idx o
  | .simpleGear p => pure (p.calculate o)
  | .custom f => f idx o state

/-- The arguments (constraint count, body count) that the constructors of the shipped classes hand
to `Constraint` (first line of each constructor, e.g. src/link_constraint.cpp:5); `none` for classes
whose author chooses them. -/
def CKind.counts : CKind α → Option (Nat × Nat)
  | .base => none
  | .fixedPosition _ => some (2, 1)
  | .fixedRotation _ => some (1, 1)
  | .line _ => some (1, 1)
  | .link _ => some (2, 2)
  | .rolling _ => some (2, 2)
  | .constantRotation _ => some (1, 1)
  | .clutch _ => some (1, 2)
  | .rotationFriction _ => some (1, 1)
  | .simpleGear _ => some (1, 2)
  | .custom _ => none

/-- `class Constraint`, include/constraint.h:34-51, with the kind of the object. -/
structure Con (α : Type) where
  kind : CKind α
  index : Int
  bodyCount : Nat
  bodies : Nat → Ptr
  F_x : Nat → Nat → α
  F_y : Nat → Nat → α
  F_t : Nat → Nat → α
  rows : Nat

/-- `Constraint::Constraint`, src/constraint.cpp:6-22. The `memset` clears `2 * sizeof(int)` bytes
of an array of two pointers: on a platform with 32-bit `int` and 64-bit pointers the first pointer.
`raw` is the memory of the object. -/
def Con.construct (raw : Con α) (kind : CKind α) (constraintCount bodyCount : Nat) :
    Exec (Con α) := do
  chk (constraintCount ≤ maxRows) "constraint.cpp:7"
  chk (bodyCount ≤ maxBodies) "constraint.cpp:8"
  pure { raw with
    kind := kind
    rows := constraintCount
    bodyCount := bodyCount
    index := -1
    bodies := fun k => if k = 0 then .null else .uninit
    F_x := fun _ _ => 0
    F_y := fun _ _ => 0
    F_t := fun _ _ => 0 }

/-- `constraint->m_bodies[k]->index`; `m_bodies` has two elements. -/
def Con.idx (c : Con α) (bodies : Nat → Body α) (k : Nat) : Exec Int := do
  let p ← rd1 maxBodies c.bodies k
  let b ← p.get
  pure (bodies b).index

/-- Default parameters: src/fixed_position_constraint.cpp:5-10. -/
def FixedPosition.default : FixedPosition α :=
  ⟨Fp.lit 0, Fp.lit 0, Fp.lit 0, Fp.lit 0, Fp.lit 10, Fp.lit 1⟩

/-- `setWorldPosition`, src/fixed_position_constraint.cpp:16-19. -/
def FixedPosition.setWorldPosition (p : FixedPosition α) (x y : α) : FixedPosition α :=
  { p with world_x := x, world_y := y }

/-- `setLocalPosition`, src/fixed_position_constraint.cpp:21-24. -/
def FixedPosition.setLocalPosition (p : FixedPosition α) (x y : α) : FixedPosition α :=
  { p with local_x := x, local_y := y }

/-- src/fixed_rotation_constraint.cpp:3-7. -/
def FixedRotation.default : FixedRotation α := ⟨Fp.lit 0, Fp.lit 10, Fp.lit 1⟩

/-- src/line_constraint.cpp:5-11. -/
def Line.default : Line α :=
  ⟨Fp.lit 0, Fp.lit 0, Fp.lit 0, Fp.lit 0, Fp.lit 0, Fp.lit 0, Fp.lit 10, Fp.lit 1⟩

/-- src/link_constraint.cpp:5-11. -/
def Link.default : Link α :=
  ⟨Fp.lit 0, Fp.lit 0, Fp.lit 0, Fp.lit 0, Fp.dblMax, Fp.lit 10, Fp.lit 1⟩

/-- `setLocalPosition1`, src/link_constraint.cpp:103-106. -/
def Link.setLocalPosition1 (p : Link α) (x y : α) : Link α :=
  { p with local_x_1 := x, local_y_1 := y }

/-- `setLocalPosition2`, src/link_constraint.cpp:108-111. -/
def Link.setLocalPosition2 (p : Link α) (x y : α) : Link α :=
  { p with local_x_2 := x, local_y_2 := y }

/-- src/rolling_constraint.cpp:5-11. -/
def Rolling.default : Rolling α :=
  ⟨Fp.lit 0, Fp.lit 0, Fp.lit 0, Fp.lit 0, Fp.lit 0, Fp.lit 10, Fp.lit 1⟩

/-- src/constant_rotation_constraint.cpp:6-12. -/
def ConstantRotation.default : ConstantRotation α :=
  ⟨Fp.lit 0, -Fp.dblMax, Fp.dblMax, Fp.lit 10, Fp.lit 1⟩

/-- src/clutch_constraint.cpp:6-12. -/
def Clutch.default : Clutch α := ⟨-Fp.dblMax, Fp.dblMax, Fp.lit 10, Fp.lit 1⟩

/-- src/rotation_friction_constraint.cpp:5-11. -/
def RotationFriction.default : RotationFriction α := ⟨-Fp.dblMax, Fp.dblMax, Fp.lit 10, Fp.lit 1⟩

/-- src/simple_gear_constraint.cpp:6-12. -/
def SimpleGear.default : SimpleGear α := ⟨Fp.lit 1, false, Fp.lit 10, Fp.lit 1⟩

end

end Scs
