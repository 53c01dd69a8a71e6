import Verif.WorldHist
import Verif.PropsConfig

/-!
# Release builds

With `NDEBUG` defined, `assert` does nothing and the code after a violated assert goes on. The
definitions below are those of `World.lean` and `Sle.lean` without the asserts about the success of
a solver: optimized_nsv_rigid_body_system.cpp:219, generic_rigid_body_system.cpp:188 and
gaussian_elimination_sle_solver.cpp:82 and :104. The other asserts, which are about sizes of
matrices, are left in place; `C110_returns` shows that none of them is violated in the optimized system
with Gauss-Seidel.
-/

namespace Scs

section
variable {α : Type} [Zero α] [Add α] [Mul α] [Sub α] [Neg α] [Fp α]

/-! ## The model -/

/-- Back substitution, src/gaussian_elimination_sle_solver.cpp:81-100, in a release build: the
assert in line 82 is absent. -/
def Store.geBackR (s : Store α) (result : MId) (n m : Nat) : Exec (Store α) := do
  let _ ← s.get .geA (n - 2) (m - 1)
  let b ← s.get .geA (n - 1) (m - 1)
  let d ← s.get .geA (n - 2) (m - 1)
  let x ← Fp.div b d
  let s ← s.set result 0 (m - 1) x
  forN (m - 1) (fun q s => do
    let i := m - 2 - q
    let b ← s.get .geA (n - 1) i
    let sum ← forN (m - 1 - i) (fun p v => do
      let x ← s.prodAt .geA result i (m - 1 - p)
      pure (v + x)) 0
    let d ← s.get .geA i i
    if Fp.isZero d then s.set result 0 i (Fp.lit 0)
    else do
      let d ← s.get .geA i i
      let x ← Fp.div (b - sum) d
      s.set result 0 i x) s

/-- `GaussianEliminationSleSolver::solve`, src/gaussian_elimination_sle_solver.cpp:20-109, in a
release build: the final loop, lines 102-106, does nothing. -/
def Store.geSolveR (st en : Nat) (s : Store α) (J : SId) (W right : MId)
    (_previous result : Option MId) : Exec (Store α × Bool) := do
  let s ← s.formM st en J W .geReg .geM
  let n := (s.mat .geM).width + 1
  let m := (s.mat .geM).height
  chk ((s.mat right).height = (s.mat .geM).width) "gaussian_elimination_sle_solver.cpp:33"
  if m = 0 then pure (s, true)
  else do
    let result ← deref result
    let s ← s.resize result 1 m
    let s ← s.resize .geA n m
    let s ← s.geLoad right n m
    let s ← geLoop n m n 0 0 s
    let s ← s.geBackR result n m
    pure (s, true)

/-- The virtual call of `solve` in a release build. -/
def Solver.solveR (st en : Nat) (sv : Solver α) (s : Store α) (J : SId) (W right : MId)
    (arg4 arg5 : Option MId) : Exec (Store α × Bool) :=
  match sv with
  | .gs n d => s.gsSolve st en n d J W right arg4 arg5
  | .ge => s.geSolveR st en J W right arg4 arg5
  | .cg n e1 e2 => s.cgSolve st en n e1 e2 J W right arg4 arg5

/-- src/optimized_nsv_rigid_body_system.cpp:199-217 in a release build. -/
def optCallR (sv : Solver α) (mem : Store α) : Exec (Store α × Bool) :=
  if sv.supportsLimits = false then
    sv.solveR 3 2 mem .ivJ .ivMinv .ivRight (some .ivLambda) (some .ivLambda)
  else
    sv.solveL 3 2 mem .ivJ .ivMinv .ivRight .ivLimits (some .ivLambda) (some .ivLambda)

/-- src/optimized_nsv_rigid_body_system.cpp:198-230 in a release build: whether the solver reports
success is not looked at. -/
def World.optSolveR (w : World α) (dt : α) (mem : Store α) : Exec (Store α) := do
  let sv ← deref w.sle
  let q ← optCallR sv mem
  let r ← Fp.div (Fp.lit 1) dt
  let mem ← q.1.scale .ivLambda r .ivReg0
  mem.sleftScale 3 2 .ivJ .ivReg0 .ivSreg0

/-- `OptimizedNsvRigidBodySystem::processConstraints`,
src/optimized_nsv_rigid_body_system.cpp:116-275, in a release build. -/
def World.optConstraintsR (w : World α) (dt : α) (raw : Output α) (mem : Store α) (s : SysState α) :
    Exec (Store α × SysState α) := do
  let mem ← w.optAssemble dt raw s mem
  let mem ← loadQdot w.bodyCount s mem
  let mem ← loadFext w.bodyCount s mem
  let mem ← optRight w.bias dt mem
  let mem ← w.optSolveR dt mem
  let s ← w.applyReactions mem s
  pure (mem, s)

/-- One pass of the evaluation loop, src/optimized_nsv_rigid_body_system.cpp:53-70, in a release
build. -/
def World.optEvalR (w : World α) (env : Env α) (dt : α) (x : Ctx α) (s : SysState α) :
    Exec (Ctx α × SysState α) := do
  let s ← w.processForces s
  let q ← w.optConstraintsR dt (env.raw x.evals) x.mem s
  pure (⟨q.1, x.evals + 1, fun p => x.times p + evalTimes (env.now x.evals) p⟩, q.2)

/-- The sub-steps of `process`, src/optimized_nsv_rigid_body_system.cpp:47-76, in a release
build. -/
def World.optLoopR (w : World α) (env : Env α) (dt : α) (steps : Int) (s : SysState α)
    (mem : Store α) : Exec (Ctx α × Ode α × SysState α) :=
  forN steps.toNat (fun _ q => do
    let h ← Fp.div dt (Fp.lit steps)
    odeRun (w.optEvalR env h) q.1 q.2.1 q.2.2 h) (⟨mem, 0, fun _ => 0⟩, w.nsv, s)

/-- `OptimizedNsvRigidBodySystem::process`, src/optimized_nsv_rigid_body_system.cpp:37-87, in a
release build. -/
def World.optProcessR (w : World α) (env : Env α) (dt : α) (steps : Int) : Exec (World α) := do
  let s ← w.populateState
  let mem ← w.populateMass w.mem
  let q ← w.optLoopR env dt steps s mem
  let w := { w with st := q.2.2, mem := q.1.mem, nsv := q.2.1 }
  let w ← w.propagateResults w.st
  let w ← w.record q.1.times
  pure { w with t := w.t + dt }

/-- src/generic_rigid_body_system.cpp:181-198 in a release build. -/
def World.genSolveR (w : World α) (mem : Store α) : Exec (Store α) := do
  let sv ← deref w.sle
  let q ← sv.solveR 3 2 mem .ivJ .ivMinv .ivRight (some .ivLambda) (some .ivLambda)
  q.1.sleftScale 3 2 .ivJ .ivLambda .ivSreg0

/-- `GenericRigidBodySystem::processConstraints`, src/generic_rigid_body_system.cpp:97-243, in a
release build. -/
def World.genConstraintsR (w : World α) (raw : Output α) (mem : Store α) (s : SysState α) :
    Exec (Store α × SysState α) := do
  let mem ← loadQdot w.bodyCount s mem
  let mem ← w.genAssemble raw s mem
  let mem ← genGains w.fullCount mem
  let mem ← loadFext w.bodyCount s mem
  let mem ← genRight mem
  let mem ← w.genSolveR mem
  let s ← w.applyReactions mem s
  pure (mem, s)

/-- One pass of the evaluation loop, src/generic_rigid_body_system.cpp:40-57, in a release build. -/
def World.genEvalR (w : World α) (env : Env α) (x : Ctx α) (s : SysState α) :
    Exec (Ctx α × SysState α) := do
  let s ← w.processForces s
  let q ← w.genConstraintsR (env.raw x.evals) x.mem s
  pure (⟨q.1, x.evals + 1, fun p => x.times p + evalTimes (env.now x.evals) p⟩, q.2)

/-- The sub-steps of `process`, src/generic_rigid_body_system.cpp:34-63, in a release build. -/
def World.genLoopR (w : World α) (env : Env α) (dt : α) (steps : Int) (s : SysState α)
    (mem : Store α) : Exec (Ctx α × Option (Ode α) × SysState α) :=
  forN steps.toNat (fun _ q => do
    let o ← deref q.2.1
    let h ← Fp.div dt (Fp.lit steps)
    let z ← odeRun (w.genEvalR env) q.1 o q.2.2 h
    pure (z.1, some z.2.1, z.2.2)) (⟨mem, 0, fun _ => 0⟩, w.ode, s)

/-- `GenericRigidBodySystem::process`, src/generic_rigid_body_system.cpp:24-95, in a release
build. -/
def World.genProcessR (w : World α) (env : Env α) (dt : α) (steps : Int) : Exec (World α) := do
  let s ← w.populateState
  let mem ← w.populateMass w.mem
  let q ← w.genLoopR env dt steps s mem
  let w := { w with st := q.2.2, mem := q.1.mem, ode := q.2.1 }
  let w ← forN w.bodyCount (World.storeBody w.st) w
  let z ← w.storeForces w.st (fun jf _ => jf)
  z.1.record q.1.times

/-- `process` of the class in a release build. -/
def World.processR (cls : Cls) (w : World α) (env : Env α) (dt : α) (steps : Int) :
    Exec (World α) :=
  match cls with
  | .opt => w.optProcessR env dt steps
  | .gen => w.genProcessR env dt steps

/-- The effect of an action in a release build: only `process` differs. -/
def Op.runR (cls : Cls) (op : Op α) (w : World α) : Exec (World α) :=
  match op with
  | .process env dt steps => w.processR cls env dt steps
  | op => op.run cls w

/-- `World.HistR G cls h w`: as `World.Hist`, in a release build. -/
inductive World.HistR (G : Gen α → Prop) (cls : Cls) : List (Op α) → World α → Prop where
  | start (bodies : Nat → Body α) (cons : Nat → Con α) (gens : Nat → Gen α)
      (genIndex : Nat → Option Int) (hg : ∀ g, G (gens g)) (j j' : Nat → Nat → α)
      (k k' : Nat → Nat → Nat) :
      HistR G cls [] (World.construct bodies cons gens genIndex (Store.fresh j k) j' k')
  | step {h : List (Op α)} {w w' : World α} (op : Op α) (hw : HistR G cls h w) (hv : op.Valid G h)
      (e : op.runR cls w = .ok w') : HistR G cls (op :: h) w'

end

/-! ## Comparison with the debug build -/

/-- `y` does what `x` does unless `x` stops with an error that satisfies `P`. -/
def Unless {σ : Type} (P : Err → Prop) (x y : Exec σ) : Prop := x = y ∨ ∃ e, x = .error e ∧ P e

section
variable {σ τ : Type} {P : Err → Prop}

theorem Unless.refl (x : Exec σ) : Unless P x x := .inl rfl

theorem Unless.bind {x y : Exec τ} {f g : τ → Exec σ} (h : Unless P x y)
    (hf : ∀ a, Unless P (f a) (g a)) : Unless P (x >>= f) (y >>= g) := by
  rcases h with rfl | ⟨e, rfl, he⟩
  · cases x with
    | error e => exact .inl rfl
    | ok a => exact hf a
  · exact .inr ⟨e, rfl, he⟩

theorem Unless.after {x : Exec τ} {f g : τ → Exec σ} (hf : ∀ a, Unless P (f a) (g a)) :
    Unless P (x >>= f) (x >>= g) := (Unless.refl x).bind hf

theorem Unless.first {x y : Exec τ} {f : τ → Exec σ} (h : Unless P x y) :
    Unless P (x >>= f) (y >>= f) := h.bind fun _ => Unless.refl _

theorem Unless.chk (hP : ∀ l, P (.assert l)) {c : Prop} [Decidable c] {l : String} {x y : Exec σ}
    (h : Unless P x y) : Unless P (Scs.chk c l >>= fun _ => x) y := by
  by_cases hc : c
  · rw [chk_true _ hc, ok_bind]
    exact h
  · rw [chk_false _ hc]
    exact .inr ⟨_, rfl, hP l⟩

theorem Unless.ite {c : Prop} [Decidable c] {x y x' y' : Exec σ} (h : Unless P x x')
    (h' : Unless P y y') : Unless P (if c then x else y) (if c then x' else y') := by
  by_cases hc : c
  · rw [if_pos hc, if_pos hc]; exact h
  · rw [if_neg hc, if_neg hc]; exact h'

theorem Unless.forN {f g : Nat → σ → Exec σ} (h : ∀ i s, Unless P (f i s) (g i s)) (n : Nat) (s : σ) :
    Unless P (forN n f s) (forN n g s) := by
  induction n with
  | zero => exact Unless.refl _
  | succ n ih => exact ih.bind fun a => h n a

theorem Unless.skip {x : Exec PUnit} {y z : Exec σ} (hP : ∀ e, P e) (h : Unless P y z) :
    Unless P (x >>= fun _ => y) z := by
  cases x with
  | error e => exact .inr ⟨e, rfl, hP e⟩
  | ok a => exact h

end

section
variable {α : Type} [Zero α] [Add α] [Mul α] [Sub α] [Neg α] [Fp α] {P : Err → Prop}

theorem geSolve_upto (hP : ∀ e, P e) (st en : Nat) (s : Store α) (J : SId) (W right : MId)
    (a b : Option MId) : Unless P (s.geSolve st en J W right a b) (s.geSolveR st en J W right a b) := by
  refine Unless.after fun s => Unless.after fun _ => Unless.ite (Unless.refl _) (Unless.after fun r =>
    Unless.after fun s => Unless.after fun s => Unless.after fun s => Unless.after fun s =>
    Unless.bind ?_ fun s => Unless.skip hP (Unless.refl _))
  exact Unless.after fun _ => Unless.chk (fun _ => hP _) (Unless.refl _)

theorem Solver.solve_upto {sv : Solver α} (hge : sv = .ge → ∀ e, P e) (st en : Nat) (s : Store α)
    (J : SId) (W right : MId) (a b : Option MId) :
    Unless P (sv.solve st en s J W right a b) (sv.solveR st en s J W right a b) := by
  cases sv with
  | gs n d => exact Unless.refl _
  | ge => exact geSolve_upto (hge rfl) st en s J W right a b
  | cg n e1 e2 => exact Unless.refl _

variable {w : World α}

theorem World.optSolve_upto (hP : ∀ l, P (.assert l)) (hge : w.sle = some .ge → ∀ e, P e) (dt : α)
    (mem : Store α) : Unless P (w.optSolve dt mem) (w.optSolveR dt mem) := by
  rw [World.optSolve, World.optSolveR]
  cases hsv : w.sle with
  | none => exact Unless.refl _
  | some sv =>
    simp only [deref, ok_bind]
    refine Unless.bind ?_ fun q => Unless.chk hP (Unless.refl _)
    exact Unless.ite (Solver.solve_upto (fun e => hge (by rw [hsv, e])) ..) (Unless.refl _)

theorem World.genSolve_upto (hP : ∀ l, P (.assert l)) (hge : w.sle = some .ge → ∀ e, P e)
    (mem : Store α) : Unless P (w.genSolve mem) (w.genSolveR mem) := by
  rw [World.genSolve, World.genSolveR]
  cases hsv : w.sle with
  | none => exact Unless.refl _
  | some sv =>
    simp only [deref, ok_bind]
    exact Unless.bind (Solver.solve_upto (fun e => hge (by rw [hsv, e])) ..) fun q =>
      Unless.chk hP (Unless.refl _)

theorem odeRun_upto {τ : Type} {ev ev' : τ → SysState α → Exec (τ × SysState α)}
    (h : ∀ x s, Unless P (ev x s) (ev' x s)) (x : τ) (o : Ode α) (s : SysState α) (dt : α) :
    Unless P (odeRun ev x o s dt) (odeRun ev' x o s dt) := by
  refine Unless.after fun o => Unless.first ?_
  generalize (5 : Nat) = k
  induction k generalizing x o s with
  | zero => exact Unless.refl _
  | succ k ih =>
    refine Unless.after fun q => (h _ _).bind fun e => Unless.after fun z => ?_
    by_cases hq : q.2.2 = true
    · simp only [if_pos hq]; exact Unless.refl _
    · simp only [if_neg hq]; exact ih _ _ _

theorem World.process_upto (hP : ∀ l, P (.assert l)) (hge : w.sle = some .ge → ∀ e, P e) (cls : Cls)
    (env : Env α) (dt : α) (steps : Int) :
    Unless P (w.process cls env dt steps) (w.processR cls env dt steps) := by
  cases cls with
  | opt =>
    refine Unless.after fun s => Unless.after fun mem => Unless.first <| Unless.forN (fun _ _ =>
      Unless.after fun r => odeRun_upto (fun x s => ?_) _ _ _ r) _ _
    exact Unless.after fun _ => Unless.first <| Unless.after fun _ => Unless.after fun _ =>
      Unless.after fun _ => Unless.after fun _ => Unless.first <| optSolve_upto hP hge r _
  | gen =>
    refine Unless.after fun s => Unless.after fun mem => Unless.first <| Unless.forN (fun _ _ =>
      Unless.after fun _ => Unless.after fun r => Unless.first <| odeRun_upto (fun x s => ?_) _ _ _ r) _ _
    exact Unless.after fun _ => Unless.first <| Unless.after fun _ => Unless.after fun _ =>
      Unless.after fun _ => Unless.after fun _ => Unless.after fun _ => Unless.first <| genSolve_upto hP hge _

end

end Scs
