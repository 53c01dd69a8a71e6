import Verif.Sparse

/-!
# Model of the SLE solvers

`src/sle_solver.cpp`, `src/gaussian_elimination_sle_solver.cpp`, `src/gauss_seidel_sle_solver.cpp`,
`src/conjugate_gradient_sle_solver.cpp`. Loop counters and iteration limits are natural numbers.
The parameters of `solve` are named as in the definitions (4th: `previous`, 5th: `result`); the
header names them the other way round. Pointers are `Option MId`.
-/

namespace Scs

section
variable {α : Type} [Zero α] [Add α] [Mul α] [Sub α] [Neg α] [Fp α]

/-- `sum += x` over `j = a .. b-1`. -/
def accR (a b : Nat) (f : Nat → Exec α) : Exec α :=
  forN (b - a) (fun j v => do
    let x ← f (a + j)
    pure (v + x)) 0

/-- The product `a.get(j, i) * b.get(0, j)` that the solvers sum up. -/
def Store.prodAt (s : Store α) (a b : MId) (i j : Nat) : Exec α := do
  let x ← s.get a j i
  let y ← s.get b 0 j
  pure (x * y)

/-! ## Gauss-Seidel -/

/-- One row of `GaussSeidelSleSolver::solveIteration` without limits,
src/gauss_seidel_sle_solver.cpp:98-118. -/
def Store.gsRow (left right kNext k : MId) (n i : Nat) (s : Store α) (maxD : α) :
    Exec (Store α × α) := do
  let s0 ← accR 0 i (fun j => s.prodAt left kNext i j)
  let s1 ← accR (i + 1) n (fun j => s.prodAt left k i j)
  let d ← s.get left i i
  let inv ← Fp.div (Fp.lit 1) d
  let r ← s.get right 0 i
  let kn := inv * (r - s0 - s1)
  let ki ← s.get k 0 i
  let minK := Fp.fmax (Fp.lit (1 / 1000)) ki
  let delta ← Fp.div (Fp.abs kn - minK) minK
  let maxD := if Fp.gt delta maxD then delta else maxD
  let s ← s.set kNext 0 i kn
  pure (s, maxD)

/-- `GaussSeidelSleSolver::solveIteration` without limits, src/gauss_seidel_sle_solver.cpp:89-121. -/
def Store.gsIteration (s : Store α) (left right kNext k : MId) : Exec (Store α × α) :=
  forN (s.mat k).height (fun i q =>
    Store.gsRow left right kNext k (s.mat k).height i q.1 q.2) (s, 0)

/-- One row of `solveIteration` with limits, src/gauss_seidel_sle_solver.cpp:133-157. -/
def Store.gsRowL (left right limits kNext k : MId) (n i : Nat) (s : Store α) (maxD : α) :
    Exec (Store α × α) := do
  let s0 ← accR 0 i (fun j => s.prodAt left kNext i j)
  let s1 ← accR (i + 1) n (fun j => s.prodAt left k i j)
  let d ← s.get left i i
  let inv ← Fp.div (Fp.lit 1) d
  let r ← s.get right 0 i
  let kn := inv * (r - s0 - s1)
  let lmin ← s.get limits 0 i
  let lmax ← s.get limits 1 i
  let x := Fp.fmax lmin (Fp.fmin lmax kn)
  let ki ← s.get k 0 i
  let minK := Fp.fmax (Fp.lit (1 / 1000)) (Fp.abs ki)
  let delta ← Fp.div (Fp.abs (x - ki)) minK
  let maxD := if Fp.gt delta maxD then delta else maxD
  let s ← s.set kNext 0 i x
  pure (s, maxD)

/-- `solveIteration` with limits, src/gauss_seidel_sle_solver.cpp:123-160. -/
def Store.gsIterationL (s : Store α) (left right limits kNext k : MId) : Exec (Store α × α) :=
  forN (s.mat k).height (fun i q =>
    Store.gsRowL left right limits kNext k (s.mat k).height i q.1 q.2) (s, 0)

/-- The iteration loop of both solve functions, src/gauss_seidel_sle_solver.cpp:38-50 and 73-86:
at most `maxIter` sweeps, stop with `true` after the first whose maximal change is below
`minDelta`. -/
def gsLoop (sweep : Store α → Exec (Store α × α)) (minDelta : α) :
    Nat → Store α → Exec (Store α × Bool)
  | 0, s => .ok (s, false)
  | i + 1, s => do
    let q ← sweep s
    if Fp.gt minDelta q.2 then pure (q.1, true) else gsLoop sweep minDelta i q.1

/-- `result->set(previous)` if `previous` is given and has `n` rows,
src/gauss_seidel_sle_solver.cpp:31-33 and 66-68, src/conjugate_gradient_sle_solver.cpp:37-39. -/
def Store.warmStart (s : Store α) (previous : Option MId) (result : MId) (n : Nat) :
    Exec (Store α) :=
  match previous with
  | none => .ok s
  | some p => if (s.mat p).height = n then s.setMatFrom result p else .ok s

/-- `J.rightScale(W, &m_reg); m_reg.multiplyTranspose(J, &m_M)`: `m_M = J W J^T`,
src/gauss_seidel_sle_solver.cpp:35-36, 70-71, src/gaussian_elimination_sle_solver.cpp:27-28. -/
def Store.formM (st en : Nat) (s : Store α) (J : SId) (W : MId) (reg : SId) (M : MId) :
    Exec (Store α) := do
  let s ← s.srightScale st en J W reg
  s.multiplyTranspose st en reg J M

/-- `GaussSeidelSleSolver::solve`, src/gauss_seidel_sle_solver.cpp:20-51. -/
def Store.gsSolve (st en : Nat) (maxIter : Nat) (minDelta : α) (s : Store α) (J : SId)
    (W right : MId) (previous result : Option MId) : Exec (Store α × Bool) := do
  let n := (s.mat right).height
  let result ← deref result
  let s ← s.resize result 1 n
  let s ← s.warmStart previous result n
  let s ← s.formM st en J W .gsReg .gsM
  gsLoop (fun s => s.gsIteration .gsM right result result) minDelta maxIter s

/-- `GaussSeidelSleSolver::solveWithLimits`, src/gauss_seidel_sle_solver.cpp:53-87. -/
def Store.gsSolveL (st en : Nat) (maxIter : Nat) (minDelta : α) (s : Store α) (J : SId)
    (W right limits : MId) (result previous : Option MId) : Exec (Store α × Bool) := do
  let n := (s.mat right).height
  let result ← deref result
  let s ← if (s.mat result).height ≠ n then s.init0 result 1 n else pure s
  let s ← s.warmStart previous result n
  let s ← s.formM st en J W .gsReg .gsM
  gsLoop (fun s => s.gsIterationL .gsM right limits result result) minDelta maxIter s

/-! ## Gaussian elimination -/

/-- `fastAbs`, include/gaussian_elimination_sle_solver.h:21-25. -/
def fastAbs (v : α) : α := if Fp.gt v 0 then v else -v

/-- Copying `M` and `right` into the augmented matrix,
src/gaussian_elimination_sle_solver.cpp:42-47. -/
def Store.geLoad (s : Store α) (right : MId) (n m : Nat) : Exec (Store α) :=
  forN m (fun i s => do
    let s ← forN (n - 1) (fun j s => do
      let v ← s.get .geM j i
      s.set .geA j i v) s
    let v ← s.get right 0 i
    s.set .geA (n - 1) i v) s

/-- Search of the pivot row, src/gaussian_elimination_sle_solver.cpp:51-59. -/
def Store.gePivot (s : Store α) (m h k : Nat) : Exec (Nat × α) := do
  let v ← s.get .geA k h
  forN (m - (h + 1)) (fun q p => do
    let v ← s.get .geA k (h + 1 + q)
    let v := fastAbs v
    pure (if Fp.gt v p.2 then (h + 1 + q, v) else p)) (h, fastAbs v)

/-- Elimination of column `k` below row `h`, src/gaussian_elimination_sle_solver.cpp:67-74. -/
def Store.geElim (s : Store α) (n m h k : Nat) : Exec (Store α) :=
  forN (m - (h + 1)) (fun q s => do
    let i := h + 1 + q
    let a ← s.get .geA k i
    let b ← s.get .geA k h
    let f ← Fp.div a b
    let s ← s.set .geA k i (Fp.lit 0)
    forN (n - (k + 1)) (fun p s => do
      let j := k + 1 + p
      let x ← s.get .geA j i
      let y ← s.get .geA j h
      s.set .geA j i (x - y * f)) s) s

/-- The elimination loop, src/gaussian_elimination_sle_solver.cpp:49-79. `k` grows in every
iteration, so `n` iterations of fuel suffice (`nonterm` is never reached, see the theorems). -/
def geLoop (n m : Nat) : Nat → Nat → Nat → Store α → Exec (Store α)
  | 0, h, k, s => if h < m ∧ k < n then .error .nonterm else .ok s
  | fuel + 1, h, k, s =>
    if h < m ∧ k < n then do
      let p ← s.gePivot m h k
      if Fp.isZero p.2 then geLoop n m fuel h (k + 1) s
      else do
        let s ← s.rowSwap .geA h p.1
        let s ← s.geElim n m h k
        geLoop n m fuel (h + 1) (k + 1) s
    else .ok s

/-- Back substitution, src/gaussian_elimination_sle_solver.cpp:81-100. -/
def Store.geBack (s : Store α) (result : MId) (n m : Nat) : Exec (Store α) := do
  let d ← s.get .geA (n - 2) (m - 1)
  chk (Fp.isZero d = false) "gaussian_elimination_sle_solver.cpp:82"
  let b ← s.get .geA (n - 1) (m - 1)
  let d ← s.get .geA (n - 2) (m - 1)
  let x ← Fp.div b d
  let s ← s.set result 0 (m - 1) x
  forN (m - 1) (fun q s => do
    let i := m - 2 - q
    let b ← s.get .geA (n - 1) i
    let sum ← forN (m - 1 - i) (fun p v => do
      let x ← s.prodAt .geA result i (m - 1 - p)
      pure (v + x)) 0
    let d ← s.get .geA i i
    if Fp.isZero d then s.set result 0 i (Fp.lit 0)
    else do
      let d ← s.get .geA i i
      let x ← Fp.div (b - sum) d
      s.set result 0 i x) s

/-- The final check, src/gaussian_elimination_sle_solver.cpp:102-106. -/
def Store.geCheck (s : Store α) (result : MId) (m : Nat) : Exec PUnit :=
  forN m (fun i _ => do
    let v ← s.get result 0 i
    chk (Fp.notFinite v = false) "gaussian_elimination_sle_solver.cpp:104") ⟨⟩

/-- `GaussianEliminationSleSolver::solve`, src/gaussian_elimination_sle_solver.cpp:20-109. `n` is
at least one, so `n == 0` never holds. The argument `previous` is not used. -/
def Store.geSolve (st en : Nat) (s : Store α) (J : SId) (W right : MId)
    (_previous result : Option MId) : Exec (Store α × Bool) := do
  let s ← s.formM st en J W .geReg .geM
  let n := (s.mat .geM).width + 1
  let m := (s.mat .geM).height
  chk ((s.mat right).height = (s.mat .geM).width) "gaussian_elimination_sle_solver.cpp:33"
  if m = 0 then pure (s, true)
  else do
    let result ← deref result
    let s ← s.resize result 1 m
    let s ← s.resize .geA n m
    let s ← s.geLoad right n m
    let s ← geLoop n m n 0 0 s
    let s ← s.geBack result n m
    s.geCheck result m
    pure (s, true)

/-! ## Conjugate gradient -/

/-- `ConjugateGradientSleSolver::multiply`, src/conjugate_gradient_sle_solver.cpp:78-89. -/
def Store.cgMultiply (st en : Nat) (s : Store α) (J : SId) (W x target : MId) :
    Exec (Store α) := do
  let s ← s.resize target 1 (s.mat x).height
  let s ← s.transposeMultiplyVector st en J x .cgReg0
  let s ← s.componentMultiply W .cgReg0 .cgReg1
  s.smultiply st en J .cgReg1 target

/-- `ConjugateGradientSleSolver::sufficientlySmall`, src/conjugate_gradient_sle_solver.cpp:91-104.
The loop state is "no `return false` yet". -/
def Store.cgSmall (s : Store α) (maxError minError : α) (x target : MId) : Exec Bool :=
  forN (s.mat x).height (fun i acc =>
    if acc then do
      let err ← s.get x 0 i
      let t ← s.get target 0 i
      pure (!(Fp.gt (Fp.abs err) (Fp.fmax (Fp.abs (maxError * t)) minError)))
    else .ok false) true

/-- The iterations of `ConjugateGradientSleSolver::solve`,
src/conjugate_gradient_sle_solver.cpp:53-70; `true` is `goto succeeded`. -/
def cgLoop (st en : Nat) (maxError minError : α) (J : SId) (W right : MId) :
    Nat → Store α → Exec (Store α × Bool)
  | 0, s => .ok (s, false)
  | i + 1, s => do
    let s ← s.cgMultiply st en J W .cgP .cgAp
    let rk ← s.vectorMagnitudeSquared .cgR
    let pAp ← s.dot .cgP .cgAp
    let alpha ← Fp.div rk pAp
    let s ← s.madd .cgX .cgP alpha
    let s ← s.madd .cgR .cgAp (-alpha)
    let small ← s.cgSmall maxError minError .cgR right
    if small then pure (s, true)
    else do
      let rk1 ← s.vectorMagnitudeSquared .cgR
      let beta ← Fp.div rk1 rk
      let s ← s.pmadd .cgP .cgR beta
      cgLoop st en maxError minError J W right i s

/-- `ConjugateGradientSleSolver::solve`, src/conjugate_gradient_sle_solver.cpp:23-76. -/
def Store.cgSolve (st en : Nat) (maxIter : Nat) (maxError minError : α) (s : Store α) (J : SId)
    (W right : MId) (previous result : Option MId) : Exec (Store α × Bool) := do
  let n := (s.mat right).height
  let s ← s.resize .cgR 1 n
  let s ← s.resize .cgP 1 n
  let s ← s.resize .cgAp 1 n
  let s ← s.init0 .cgX 1 n
  let s ← s.warmStart previous .cgX n
  let result ← deref result
  let s ← s.resize result 1 n
  let s ← s.setMatFrom .cgR right
  let s ← s.cgMultiply st en J W .cgX .cgAp
  let s ← s.madd .cgR .cgAp (Fp.lit (-1))
  let small ← s.cgSmall maxError minError .cgR right
  let q ← if small then pure (s, true)
    else do
      let s ← s.setMatFrom .cgP .cgR
      cgLoop st en maxError minError J W right maxIter s
  if q.2 then do
    let s ← q.1.setMatFrom result .cgX
    pure (s, true)
  else pure (q.1, false)

/-! ## The solver interface -/

/-- A solver object with its public parameters: `GaussSeidelSleSolver` (`m_maxIterations`,
`m_minDelta`), `GaussianEliminationSleSolver`, `ConjugateGradientSleSolver` (`m_maxIterations`,
`m_maxError`, `m_minError`). -/
inductive Solver (α : Type) where
  | gs (maxIter : Nat) (minDelta : α)
  | ge
  | cg (maxIter : Nat) (maxError minError : α)

/-- The default parameters set by the constructors, src/gauss_seidel_sle_solver.cpp:6-13. -/
def Solver.gsDefault : Solver α := .gs 128 (Fp.lit (1 / 10))

/-- src/conjugate_gradient_sle_solver.cpp:6-12. -/
def Solver.cgDefault : Solver α := .cg 1000 (Fp.lit (1 / 100)) (Fp.lit (1 / 1000))

/-- `supportsLimits()`, include/sle_solver.h:27 with the constructors of the solvers. -/
def Solver.supportsLimits : Solver α → Bool
  | .gs .. => true
  | .ge => false
  | .cg .. => false

/-- The virtual call `solver->solve(J, W, right, arg4, arg5)`. -/
def Solver.solve (st en : Nat) (sv : Solver α) (s : Store α) (J : SId) (W right : MId)
    (arg4 arg5 : Option MId) : Exec (Store α × Bool) :=
  match sv with
  | .gs n d => s.gsSolve st en n d J W right arg4 arg5
  | .ge => s.geSolve st en J W right arg4 arg5
  | .cg n e1 e2 => s.cgSolve st en n e1 e2 J W right arg4 arg5

/-- The virtual call `solver->solveWithLimits(J, W, right, limits, result, previous)`;
`SleSolver::solveWithLimits` of the base class (src/sle_solver.cpp:21-30) returns `false`. -/
def Solver.solveL (st en : Nat) (sv : Solver α) (s : Store α) (J : SId) (W right limits : MId)
    (result previous : Option MId) : Exec (Store α × Bool) :=
  match sv with
  | .gs n d => s.gsSolveL st en n d J W right limits result previous
  | .ge => .ok (s, false)
  | .cg .. => .ok (s, false)

/-- The constructors that allocate, src/gauss_seidel_sle_solver.cpp:12,
src/gaussian_elimination_sle_solver.cpp:10-11. -/
def Solver.construct (sv : Solver α) (s : Store α) : Exec (Store α) :=
  match sv with
  | .gs .. => s.init0 .gsM 1 1
  | .ge => do
    let s ← s.init0 .geA 1 1
    s.init0 .geM 1 1
  | .cg .. => .ok s

/-- Destroying a solver object: the destructor of the class followed by the destructors of its
members (in reverse order of declaration), src/gauss_seidel_sle_solver.cpp:15-18,
src/gaussian_elimination_sle_solver.cpp:14-18, src/conjugate_gradient_sle_solver.cpp:14-21. -/
def Solver.dtor (sv : Solver α) (s : Store α) : Exec (Store α) :=
  match sv with
  | .gs .. => do
    let s ← s.destroy .gsM
    let s ← s.sdestroy .gsReg
    s.sdtor .gsReg
    s.dtor .gsM
    pure s
  | .ge => do
    let s ← s.destroy .geA
    let s ← s.destroy .geM
    let s ← s.sdestroy .geReg
    s.sdtor .geReg
    s.dtor .geM
    s.dtor .geA
    pure s
  | .cg .. => do
    let s ← s.destroy .cgReg0
    let s ← s.destroy .cgReg1
    let s ← s.destroy .cgAp
    let s ← s.destroy .cgX
    let s ← s.destroy .cgR
    let s ← s.destroy .cgP
    s.dtor .cgA
    s.dtor .cgP
    s.dtor .cgR
    s.dtor .cgX
    s.dtor .cgAp
    s.dtor .cgReg1
    s.dtor .cgReg0
    pure s

end

end Scs
