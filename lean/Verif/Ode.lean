import Verif.State

/-!
# Model of the ODE solvers

`src/ode_solver.cpp`, `src/euler_ode_solver.cpp`, `src/nsv_ode_solver.cpp`,
`src/rk4_ode_solver.cpp`.
-/

namespace Scs

/-- `Rk4OdeSolver::RkStage`, include/rk4_ode_solver.h:9-16. -/
inductive RkStage where
  | stage1 | stage2 | stage3 | stage4 | complete | undefined
  deriving DecidableEq, Repr

/-- `Rk4OdeSolver::getNextStage`, src/rk4_ode_solver.cpp:123-131. -/
def RkStage.next : RkStage → RkStage
  | .stage1 => .stage2
  | .stage2 => .stage3
  | .stage3 => .stage4
  | .stage4 => .complete
  | _ => .undefined

/-- `class Rk4OdeSolver`, include/rk4_ode_solver.h:7-36, with `m_dt` of `OdeSolver`. -/
structure Rk4 (α : Type) where
  dt : α
  stage : RkStage
  nextStage : RkStage
  init : SysState α
  acc : SysState α

/-- The ODE solver objects: the base class `OdeSolver` and the three shipped subclasses. The
argument is `m_dt` (include/ode_solver.h:18). -/
inductive Ode (α : Type) where
  | base (dt : α)
  | euler (dt : α)
  | nsv (dt : α)
  | rk4 (r : Rk4 α)

section
variable {α : Type} [Zero α] [Add α] [Mul α] [Sub α] [Neg α] [Fp α]

/-- `OdeSolver::OdeSolver`, src/ode_solver.cpp:3-5. -/
def Ode.newBase : Ode α := .base 0
/-- `EulerOdeSolver::EulerOdeSolver`, src/euler_ode_solver.cpp:3-5. -/
def Ode.newEuler : Ode α := .euler 0
/-- `NsvOdeSolver::NsvOdeSolver`, src/nsv_ode_solver.cpp:3-5. -/
def Ode.newNsv : Ode α := .nsv 0

/-- `Rk4OdeSolver::Rk4OdeSolver`, src/rk4_ode_solver.cpp:3-5; the arguments are what fresh memory
will contain. -/
def Rk4.new (j1 j2 : Nat → Nat → α) (k1 k2 : Nat → Nat → Nat) : Rk4 α :=
  { dt := 0, stage := .undefined, nextStage := .undefined,
    init := SysState.mk0 j1 k1, acc := SysState.mk0 j2 k2 }

/-- `Rk4OdeSolver::~Rk4OdeSolver`, src/rk4_ode_solver.cpp:7-10, then the destructors of the
members (in reverse order of declaration). -/
def Rk4.dtor (r : Rk4 α) : Exec Unit := do
  let i := r.init.destroy
  let a := r.acc.destroy
  a.dtor
  i.dtor

/-- `Rk4OdeSolver::start`, src/rk4_ode_solver.cpp:12-19. -/
def Rk4.start (r : Rk4 α) (initial : SysState α) (dt : α) : Exec (Rk4 α) := do
  let i ← r.init.copy initial
  let a ← r.acc.copy initial
  pure { r with dt := dt, init := i, acc := a, stage := .stage1 }

/-- `state->v[i] = m_initialState.v[i] + m_dt * state->a[i] / 2.0`, src/rk4_ode_solver.cpp:29-40. -/
def rkHalf (dt : α) (ini : SysState α) (v a : Fld) (i : Nat) (s : SysState α) :
    Exec (SysState α) := do
  let x0 ← ini.rd v i
  let x ← s.rd a i
  let q ← Fp.div (dt * x) (Fp.lit 2)
  s.wr v i (x0 + q)

/-- `state->v[i] = m_initialState.v[i] + m_dt * state->a[i]`, src/rk4_ode_solver.cpp:47-58. -/
def rkFull (dt : α) (ini : SysState α) (v a : Fld) (i : Nat) (s : SysState α) :
    Exec (SysState α) := do
  let x0 ← ini.rd v i
  let x ← s.rd a i
  s.wr v i (x0 + dt * x)

/-- Body of the loop of stages 2 and 3, src/rk4_ode_solver.cpp:28-41. -/
def rkHalfBody (dt : α) (ini : SysState α) (i : Nat) (s : SysState α) : Exec (SysState α) := do
  let s ← rkHalf dt ini .v_theta .a_theta i s
  let s ← rkHalf dt ini .theta .v_theta i s
  let s ← rkHalf dt ini .v_x .a_x i s
  let s ← rkHalf dt ini .v_y .a_y i s
  let s ← rkHalf dt ini .p_x .v_x i s
  rkHalf dt ini .p_y .v_y i s

/-- Body of the loop of stage 4, src/rk4_ode_solver.cpp:46-59. -/
def rkFullBody (dt : α) (ini : SysState α) (i : Nat) (s : SysState α) : Exec (SysState α) := do
  let s ← rkFull dt ini .v_theta .a_theta i s
  let s ← rkFull dt ini .theta .v_theta i s
  let s ← rkFull dt ini .v_x .a_x i s
  let s ← rkFull dt ini .v_y .a_y i s
  let s ← rkFull dt ini .p_x .v_x i s
  rkFull dt ini .p_y .v_y i s

/-- `Rk4OdeSolver::step`, src/rk4_ode_solver.cpp:21-70. -/
def Rk4.step (r : Rk4 α) (s : SysState α) : Exec (Rk4 α × SysState α × Bool) := do
  let s ← match r.stage with
    | .stage1 => pure { s with dt := Fp.lit 0 }
    | .stage2 | .stage3 => do
      let s ← forN s.n (rkHalfBody r.dt r.init) s
      let h ← Fp.div r.dt (Fp.lit 2)
      pure { s with dt := h }
    | .stage4 => do
      let s ← forN s.n (rkFullBody r.dt r.init) s
      pure { s with dt := r.dt }
    | _ => pure s
  let r := { r with nextStage := r.stage.next }
  pure (r, s, r.nextStage == .complete)

/-- The stage weight, src/rk4_ode_solver.cpp:73-80. -/
def RkStage.weight : RkStage → α
  | .stage1 => Fp.lit 1
  | .stage2 => Fp.lit 2
  | .stage3 => Fp.lit 2
  | .stage4 => Fp.lit 1
  | _ => Fp.lit 0

/-- `m_accumulator.v[i] += (m_dt / 6.0) * system->a[i] * stageWeight`,
src/rk4_ode_solver.cpp:83-88. -/
def rkAcc (dt w : α) (sys : SysState α) (v a : Fld) (i : Nat) (acc : SysState α) :
    Exec (SysState α) := do
  let q ← Fp.div dt (Fp.lit 6)
  let x ← sys.rd a i
  acc.addTo v i (q * x * w)

/-- The same for a reaction array, src/rk4_ode_solver.cpp:92-94. -/
def rkAccR (dt w : α) (sys : SysState α) (f : CFld) (i : Nat) (acc : SysState α) :
    Exec (SysState α) := do
  let q ← Fp.div dt (Fp.lit 6)
  let x ← sys.rrd f i
  let y ← acc.rrd f i
  acc.rwr f i (y + q * x * w)

/-- Body of the accumulation loop, src/rk4_ode_solver.cpp:82-89. -/
def rkAccBody (dt w : α) (sys : SysState α) (i : Nat) (acc : SysState α) :
    Exec (SysState α) := do
  let acc ← rkAcc dt w sys .v_theta .a_theta i acc
  let acc ← rkAcc dt w sys .theta .v_theta i acc
  let acc ← rkAcc dt w sys .v_x .a_x i acc
  let acc ← rkAcc dt w sys .v_y .a_y i acc
  let acc ← rkAcc dt w sys .p_x .v_x i acc
  rkAcc dt w sys .p_y .v_y i acc

/-- Body of the reaction accumulation loop, src/rk4_ode_solver.cpp:91-95. -/
def rkAccRBody (dt w : α) (sys : SysState α) (i : Nat) (acc : SysState α) :
    Exec (SysState α) := do
  let acc ← rkAccR dt w sys .r_x i acc
  let acc ← rkAccR dt w sys .r_y i acc
  rkAccR dt w sys .r_t i acc

/-- `system->v[i] = m_accumulator.v[i]`. -/
def rkGet (acc : SysState α) (f : Fld) (i : Nat) (s : SysState α) : Exec (SysState α) := do
  let x ← acc.rd f i
  s.wr f i x

/-- The same for a reaction array. -/
def rkGetR (acc : SysState α) (f : CFld) (i : Nat) (s : SysState α) : Exec (SysState α) := do
  let x ← acc.rrd f i
  s.rwr f i x

/-- Body of the write-back loop, src/rk4_ode_solver.cpp:98-105. -/
def rkGetBody (acc : SysState α) (i : Nat) (s : SysState α) : Exec (SysState α) := do
  let s ← rkGet acc .v_theta i s
  let s ← rkGet acc .theta i s
  let s ← rkGet acc .v_x i s
  let s ← rkGet acc .v_y i s
  let s ← rkGet acc .p_x i s
  rkGet acc .p_y i s

/-- Body of the reaction write-back loop, src/rk4_ode_solver.cpp:107-111. -/
def rkGetRBody (acc : SysState α) (i : Nat) (s : SysState α) : Exec (SysState α) := do
  let s ← rkGetR acc .r_x i s
  let s ← rkGetR acc .r_y i s
  rkGetR acc .r_t i s

/-- `Rk4OdeSolver::solve`, src/rk4_ode_solver.cpp:72-115. -/
def Rk4.solve (r : Rk4 α) (s : SysState α) : Exec (Rk4 α × SysState α) := do
  let w : α := r.stage.weight
  let acc ← forN s.n (rkAccBody r.dt w s) r.acc
  let acc ← forN s.nc (rkAccRBody r.dt w s) acc
  let s ← if r.stage = .stage4 then do
      let s ← forN s.n (rkGetBody acc) s
      forN s.nc (rkGetRBody acc) s
    else pure s
  pure ({ r with acc := acc, stage := r.nextStage }, s)

/-- `Rk4OdeSolver::end`, src/rk4_ode_solver.cpp:117-121. -/
def Rk4.fin (r : Rk4 α) : Rk4 α := { r with stage := .undefined, nextStage := .undefined }

/-- Body of the loop of `EulerOdeSolver::solve`, src/euler_ode_solver.cpp:24-30. -/
def eulerBody (dt : α) (i : Nat) (s : SysState α) : Exec (SysState α) := do
  let v ← s.rd .v_x i
  let s ← s.addTo .p_x i (v * dt)
  let v ← s.rd .v_y i
  let s ← s.addTo .p_y i (v * dt)
  let v ← s.rd .v_theta i
  let s ← s.addTo .theta i (v * dt)
  let a ← s.rd .a_x i
  let s ← s.addTo .v_x i (a * dt)
  let a ← s.rd .a_y i
  let s ← s.addTo .v_y i (a * dt)
  let a ← s.rd .a_theta i
  s.addTo .v_theta i (a * dt)

/-- Body of the loop of `NsvOdeSolver::solve`, src/nsv_ode_solver.cpp:24-30. -/
def nsvBody (dt : α) (i : Nat) (s : SysState α) : Exec (SysState α) := do
  let a ← s.rd .a_x i
  let s ← s.addTo .v_x i (a * dt)
  let a ← s.rd .a_y i
  let s ← s.addTo .v_y i (a * dt)
  let a ← s.rd .a_theta i
  let s ← s.addTo .v_theta i (a * dt)
  let v ← s.rd .v_x i
  let s ← s.addTo .p_x i (v * dt)
  let v ← s.rd .v_y i
  let s ← s.addTo .p_y i (v * dt)
  let v ← s.rd .v_theta i
  s.addTo .theta i (v * dt)

/-- `OdeSolver::start`, src/ode_solver.cpp:11-13, and its overrides
(src/euler_ode_solver.cpp:11-13, src/nsv_ode_solver.cpp:11-13, src/rk4_ode_solver.cpp:12-19). -/
def Ode.start (o : Ode α) (initial : SysState α) (dt : α) : Exec (Ode α) :=
  match o with
  | .base _ => pure (.base dt)
  | .euler _ => pure (.euler dt)
  | .nsv _ => pure (.nsv dt)
  | .rk4 r => do
    let r ← r.start initial dt
    pure (.rk4 r)

/-- `OdeSolver::step`, src/ode_solver.cpp:15-17, and its overrides
(src/euler_ode_solver.cpp:15-18, src/nsv_ode_solver.cpp:15-18, src/rk4_ode_solver.cpp:21-70). -/
def Ode.step (o : Ode α) (s : SysState α) : Exec (Ode α × SysState α × Bool) :=
  match o with
  | .base dt => pure (.base dt, s, true)
  | .euler dt => pure (.euler dt, { s with dt := dt }, true)
  | .nsv dt => pure (.nsv dt, { s with dt := dt }, true)
  | .rk4 r => do
    let q ← r.step s
    pure (.rk4 q.1, q.2.1, q.2.2)

/-- `OdeSolver::solve`, src/ode_solver.cpp:19-21, and its overrides
(src/euler_ode_solver.cpp:20-32, src/nsv_ode_solver.cpp:20-32, src/rk4_ode_solver.cpp:72-115). -/
def Ode.solve (o : Ode α) (s : SysState α) : Exec (Ode α × SysState α) :=
  match o with
  | .base dt => pure (.base dt, s)
  | .euler dt => do
    let s := { s with dt := dt }
    let s ← forN s.n (eulerBody dt) s
    pure (.euler dt, s)
  | .nsv dt => do
    let s := { s with dt := dt }
    let s ← forN s.n (nsvBody dt) s
    pure (.nsv dt, s)
  | .rk4 r => do
    let q ← r.solve s
    pure (.rk4 q.1, q.2)

/-- `OdeSolver::end`, src/ode_solver.cpp:23-25, and its overrides. -/
def Ode.fin : Ode α → Ode α
  | .rk4 r => .rk4 r.fin
  | o => o

/-- The stage loop of `GenericRigidBodySystem::process`, src/generic_rigid_body_system.cpp:37-60:
`while (true) { done = step(); evaluate(); solve(); if (done) break; }`. `ev` is the evaluation of
forces and constraints, which may also change other data `τ`. -/
def odeLoop {τ : Type} (ev : τ → SysState α → Exec (τ × SysState α)) :
    Nat → τ → Ode α → SysState α → Exec (τ × Ode α × SysState α)
  | 0, _, _, _ => .error .nonterm
  | k + 1, x, o, s => do
    let q ← o.step s
    let e ← ev x q.2.1
    let z ← q.1.solve e.2
    if q.2.2 then pure (e.1, z.1, z.2) else odeLoop ev k e.1 z.1 z.2

/-- One sub-step of `process`: `start`, the stage loop, `end`
(src/generic_rigid_body_system.cpp:35-62). The fuel of the loop is five iterations. -/
def odeRun {τ : Type} (ev : τ → SysState α → Exec (τ × SysState α)) (x : τ) (o : Ode α)
    (s : SysState α) (dt : α) : Exec (τ × Ode α × SysState α) := do
  let o ← o.start s dt
  let z ← odeLoop ev 5 x o s
  pure (z.1, z.2.1.fin, z.2.2)

end

end Scs
