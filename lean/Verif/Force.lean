import Verif.Constraint

/-!
# Model of the force generators

`src/force_generator.cpp`, `src/gravity_force_generator.cpp`, `src/static_force_generator.cpp`,
`src/spring.cpp`, `src/constant_speed_motor.cpp`. Bodies live in a heap `bodies : Nat → Body α`
addressed by `Ptr`.
-/

namespace Scs

section
variable {α : Type}

/-- Comparing a pointer with `nullptr`; reading an indeterminate pointer is undefined. -/
def Ptr.isNull : Ptr → Exec Bool
  | .null => .ok true
  | .uninit => .error .uninit
  | .obj _ => .ok false

/-- `class Spring`, include/spring.h:9-31. -/
structure Spring (α : Type) where
  restLength : α
  ks : α
  kd : α
  p1_x : α
  p1_y : α
  p2_x : α
  p2_y : α
  body1 : Ptr
  body2 : Ptr

/-- `class ConstantSpeedMotor`, include/constant_speed_motor.h:9-23. -/
structure Motor (α : Type) where
  ks : α
  kd : α
  maxTorque : α
  speed : α
  body0 : Ptr
  body1 : Ptr

/-- `class StaticForceGenerator`, include/static_force_generator.h:9-26. -/
structure StaticForce (α : Type) where
  f_x : α
  f_y : α
  p_x : α
  p_y : α
  body : Ptr

/-- A force generator: one of the four shipped classes or a class of the user, whose `apply` may
read the bodies and do anything to the state it is given (but, as a simplification, does not
change the bodies). -/
inductive Gen (α : Type) where
  | gravity (g : α)
  | static (p : StaticForce α)
  | spring (p : Spring α)
  | motor (p : Motor α)
  | custom (f : (Nat → Body α) → SysState α → Exec (SysState α))

variable [Zero α] [Add α] [Mul α] [Sub α] [Neg α] [Fp α]

/-- `Spring::Spring`, src/spring.cpp:5-14. -/
def Spring.default : Spring α :=
  ⟨Fp.lit 1, Fp.lit 0, Fp.lit 0, Fp.lit 0, Fp.lit 0, Fp.lit 0, Fp.lit 0, .null, .null⟩

/-- `ConstantSpeedMotor::ConstantSpeedMotor`, src/constant_speed_motor.cpp:5-13. -/
def Motor.default : Motor α := ⟨Fp.lit 1, Fp.lit 1, Fp.lit 500, Fp.lit 1, .null, .null⟩

/-- `GravityForceGenerator::GravityForceGenerator`, src/gravity_force_generator.cpp:3-5. -/
def gravityDefault : α := Fp.lit (981 / 100)

/-- `StaticForceGenerator::StaticForceGenerator`, src/static_force_generator.cpp:5-10. -/
def StaticForce.default : StaticForce α := ⟨Fp.lit 0, Fp.lit 0, Fp.lit 0, Fp.lit 0, .null⟩

/-- `StaticForceGenerator::setForce`, src/static_force_generator.cpp:26-29. -/
def StaticForce.setForce (p : StaticForce α) (x y : α) : StaticForce α :=
  { p with f_x := x, f_y := y }

/-- `StaticForceGenerator::setPosition`, src/static_force_generator.cpp:31-34. -/
def StaticForce.setPosition (p : StaticForce α) (x y : α) : StaticForce α :=
  { p with p_x := x, p_y := y }

/-- One end of a spring, src/spring.cpp:26-35 and 27,37-43: world position and velocity of the
attachment point. -/
def springEnd (bodies : Nat → Body α) (b : Nat) (x y : α) (s : SysState α) :
    Exec ((α × α) × (α × α)) :=
  if (bodies b).index ≠ -1 then do
    let w ← s.localToWorld x y (bodies b).index
    let v ← s.velocityAtPoint x y (bodies b).index
    pure (w, v)
  else pure ((bodies b).localToWorld x y, (Fp.lit 0, Fp.lit 0))

/-- src/spring.cpp:48-57: length and direction of the spring, from the difference of the ends. -/
def springDir (dx dy : α) : Exec (α × α × α) := do
  let l := Fp.sqrt (dx * dx + dy * dy)
  if Fp.ge (Fp.abs l) (Fp.lit (1 / 100)) then do
    let ux ← Fp.div dx l
    let uy ← Fp.div dy l
    pure (l, ux, uy)
  else pure (l, Fp.lit 0, Fp.lit 0)

/-- src/spring.cpp:23-79: the effect on two existing bodies. -/
def Spring.pull (p : Spring α) (bodies : Nat → Body α) (b1 b2 : Nat) (s : SysState α) :
    Exec (SysState α) := do
  let e1 ← springEnd bodies b1 p.p1_x p.p1_y s
  let e2 ← springEnd bodies b2 p.p2_x p.p2_y s
  let q ← springDir (e2.1.1 - e1.1.1) (e2.1.2 - e1.1.2)
  let rel_v_x := e2.2.1 - e1.2.1
  let rel_v_y := e2.2.2 - e1.2.2
  let x := q.1 - p.restLength
  let s ← s.applyForce p.p1_x p.p1_y (q.2.1 * x * p.ks + rel_v_x * p.kd)
    (q.2.2 * x * p.ks + rel_v_y * p.kd) (bodies b1).index
  s.applyForce p.p2_x p.p2_y (-q.2.1 * x * p.ks - rel_v_x * p.kd)
    (-q.2.2 * x * p.ks - rel_v_y * p.kd) (bodies b2).index

/-- `Spring::apply`, src/spring.cpp:20-80. -/
def Spring.apply (p : Spring α) (bodies : Nat → Body α) (s : SysState α) : Exec (SysState α) := do
  let n1 ← p.body1.isNull
  if n1 then pure s else do
    let n2 ← p.body2.isNull
    if n2 then pure s else do
      let b1 ← p.body1.get
      let b2 ← p.body2.get
      p.pull bodies b1 b2 s

/-- `Spring::getEnds`, src/spring.cpp:82-87; `none` when the function writes nothing. -/
def Spring.getEnds (p : Spring α) (bodies : Nat → Body α) : Exec (Option ((α × α) × (α × α))) := do
  let n1 ← p.body1.isNull
  if n1 then pure none else do
    let n2 ← p.body2.isNull
    if n2 then pure none else do
      let b1 ← p.body1.get
      let b2 ← p.body2.get
      pure (some ((bodies b1).localToWorld p.p1_x p.p1_y, (bodies b2).localToWorld p.p2_x p.p2_y))

/-- `Spring::energy`, src/spring.cpp:89-104. -/
def Spring.energy (p : Spring α) (bodies : Nat → Body α) : Exec α := do
  let n1 ← p.body1.isNull
  if n1 then pure (Fp.lit 0) else do
    let n2 ← p.body2.isNull
    if n2 then pure (Fp.lit 0) else do
      let b1 ← p.body1.get
      let b2 ← p.body2.get
      let w1 := (bodies b1).localToWorld p.p1_x p.p1_y
      let w2 := (bodies b2).localToWorld p.p2_x p.p2_y
      let dx := w2.1 - w1.1
      let dy := w2.2 - w1.2
      let l := Fp.sqrt (dx * dx + dy * dy)
      pure (Fp.lit (1 / 2) * p.ks * (l - p.restLength) * (l - p.restLength))

/-- src/constant_speed_motor.cpp:20-29: angular velocity or acceleration of the first body. -/
def motorRead (s : SysState α) (f : Fld) (i0 : Int) : Exec α :=
  if i0 = -1 then pure (Fp.lit 0) else s.rd f i0

/-- src/constant_speed_motor.cpp:43: `if (index != -1) t[index] -= torque`. -/
def motorReact (s : SysState α) (i0 : Int) (torque : α) : Exec (SysState α) :=
  if i0 ≠ -1 then do
    let x ← s.rd .t i0
    s.wr .t i0 (x - torque)
  else pure s

/-- `ConstantSpeedMotor::apply`, src/constant_speed_motor.cpp:19-45. -/
def Motor.apply (p : Motor α) (bodies : Nat → Body α) (s : SysState α) : Exec (SysState α) := do
  let b0 ← p.body0.get
  let i0 := (bodies b0).index
  let v1 ← motorRead s .v_theta i0
  let a1 ← motorRead s .a_theta i0
  let b1 ← p.body1.get
  let i1 := (bodies b1).index
  let v ← s.rd .v_theta i1
  let a ← s.rd .a_theta i1
  let rel_v := v - v1
  let rel_a := a - a1
  let delta := p.speed - rel_v
  let torque := delta * p.ks
  let dampingTorque := -rel_a * p.kd
  let totalTorque := torque + dampingTorque
  let limitedTorque := Fp.fmin p.maxTorque (Fp.fmax (-p.maxTorque) totalTorque)
  let s ← motorReact s i0 limitedTorque
  s.addTo .t i1 limitedTorque

/-- The body of the loop of `GravityForceGenerator::apply`,
src/gravity_force_generator.cpp:14-16. -/
def gravityBody (g : α) (i : Nat) (s : SysState α) : Exec (SysState α) := do
  let m ← s.rd .m i
  s.addTo .f_y i (-m * g)

/-- `ForceGenerator::apply` of the five kinds: src/gravity_force_generator.cpp:11-17,
src/static_force_generator.cpp:16-24, src/spring.cpp:20-80, src/constant_speed_motor.cpp:19-45. -/
def Gen.apply (g : Gen α) (bodies : Nat → Body α) (s : SysState α) : Exec (SysState α) :=
  match g with
  | .gravity g => forN s.n (gravityBody g) s
  | .static p => do
    let b ← p.body.get
    s.applyForce p.p_x p.p_y p.f_x p.f_y (bodies b).index
  | .spring p => p.apply bodies s
  | .motor p => p.apply bodies s
  | .custom f => f bodies s

end

end Scs
