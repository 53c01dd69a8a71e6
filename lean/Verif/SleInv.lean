import Verif.Frames

/-!
# Memory safety of the solvers, and the states reachable with solver calls

Every solver call on well-formed objects, whatever the arguments, their aliasing and the arithmetic,
ends in a well-formed state or stops at an assert or a division by zero: no invalid memory access,
no endless loop.
-/

namespace Scs

set_option linter.unusedSectionVars false

/-- The outcomes other than success a solver call may have: an assert fails, or a division by zero
(which does not stop IEEE arithmetic). -/
def SolveErr (e : Err) : Prop := e.IsAssert ∨ e = .divZero

section
variable {α : Type} [Zero α] [Add α] [Mul α] [Sub α] [Neg α] [Fp α] {P : Restr} {st en : Nat}

/-- Division has no abnormal outcome other than a zero divisor. -/
def DivOk (α : Type) [Fp α] : Prop := ∀ a b : α, Wp (Fp.div a b) (fun _ => True) (· = .divZero)

/-- The matrices on which the solvers rely: the conjugate gradient solver reads the rows of its
vectors through the first row pointer, the other solvers never destroy their register. -/
structure SolverP (P : Restr) : Prop where
  cgR : P.plain .cgR
  cgP : P.plain .cgP
  cgAp : P.plain .cgAp
  gsReg : P.kept .gsReg
  geReg : P.kept .geReg
  geA : ¬ P.plain .geA

/-- A class of programs containing the solvers. -/
def solverRestr : Restr :=
  ⟨fun m => m = .cgR ∨ m = .cgP ∨ m = .cgAp, fun m => m = .gsReg ∨ m = .geReg⟩

theorem solverRestr_ok : SolverP solverRestr :=
  ⟨Or.inl rfl, Or.inr (Or.inl rfl), Or.inr (Or.inr rfl), Or.inl rfl, Or.inr rfl, by
    simp [solverRestr]⟩

theorem Wp.se {σ : Type} {x : Exec σ} {Q : σ → Prop} (h : Wp x Q Err.IsAssert) :
    Wp x Q SolveErr := h.mono (fun _ h => h) (fun _ h => Or.inl h)

theorem Wp.de {σ : Type} {x : Exec σ} {Q : σ → Prop} (h : Wp x Q (· = .divZero)) :
    Wp x Q SolveErr := h.mono (fun _ h => h) (fun _ h => Or.inr h)

theorem sb {τ σ : Type} {x : Exec τ} {f : τ → Exec σ} {R : τ → Prop} {Q : σ → Prop}
    (hx : Wp x R Err.IsAssert) (h : ∀ a, R a → Wp (f a) Q SolveErr) :
    Wp (x >>= f) Q SolveErr := by
  rw [wp_bind]; exact hx.se.imp h

theorem sb' {τ σ : Type} {x : Exec τ} {f : τ → Exec σ} {R : τ → Prop} {Q : σ → Prop}
    (hx : Wp x R SolveErr) (h : ∀ a, R a → Wp (f a) Q SolveErr) :
    Wp (x >>= f) Q SolveErr := by
  rw [wp_bind]; exact hx.imp h

theorem sc {σ : Type} {p : Prop} [Decidable p] {loc : String} {f : PUnit → Exec σ}
    {Q : σ → Prop} (h : p → Wp (f ⟨⟩) Q SolveErr) : Wp (chk p loc >>= f) Q SolveErr := by
  rw [wp_bind, wp_chk]; exact ⟨h, fun _ => Or.inl trivial⟩

variable {s : Store α}

theorem Inv.prodAt_safe (hi : Inv st en P s) (a b : MId) (i j : Nat) :
    Wp (s.prodAt a b i j) (fun _ => True) SolveErr :=
  sb (hi.get_safe a j i) (fun _ _ => sb (hi.get_safe b 0 j) (fun _ _ => trivial))

theorem Inv.accR_safe (hi : Inv st en P s) (a b : MId) (i lo up : Nat) :
    Wp (accR lo up (fun j => s.prodAt a b i j)) (fun _ => True) SolveErr :=
  forN_safe (fun _ _ _ => sb' (hi.prodAt_safe a b i _) (fun _ _ => trivial))

theorem Inv.formM_safe (hi : Inv st en P s) (J : SId) (W : MId) {reg : SId} (M : MId)
    (hr : P.kept reg) : Wp (s.formM st en J W reg M) (Inv st en P) SolveErr :=
  sb (hi.srightScale_safe J W reg (Or.inl (hi.fresh reg hr))) (fun _ h =>
    (h.multiplyTranspose_safe reg J M).se)

theorem Inv.run_se (hi : Inv st en P s) (c : Call α) (hc : SafeCall c s) (hp : NoSwap P c) :
    Wp (run st en c s) (Inv st en P) SolveErr := (run_safe hi c hc hp).se

theorem Inv.warmStart_safe (hi : Inv st en P s) (p : Option MId) (r : MId) (n : Nat) :
    Wp (s.warmStart p r n) (Inv st en P) SolveErr := by
  cases p with
  | none => exact hi
  | some p =>
    rw [Store.warmStart, wp_ite]
    exact ⟨fun _ => hi.run_se (.setMatFrom r p) trivial trivial, fun _ => hi⟩

variable (hd : DivOk α)
include hd

theorem Inv.gsRow_safe (hi : Inv st en P s) (left right kn k : MId) (n i : Nat) (d : α) :
    Wp (s.gsRow left right kn k n i d) (fun q => Same s q.1) SolveErr :=
  sb' (hi.accR_safe left kn i 0 i) (fun _ _ => sb' (hi.accR_safe left k i (i + 1) n) (fun _ _ =>
    sb (hi.get_safe _ _ _) (fun _ _ => sb' (hd _ _).de (fun _ _ =>
    sb (hi.get_safe _ _ _) (fun _ _ => sb (hi.get_safe _ _ _) (fun _ _ => sb' (hd _ _).de (fun _ _ =>
    sb (hi.set_safe _ _ _ _) (fun _ h => h))))))))

theorem Inv.gsRowL_safe (hi : Inv st en P s) (left right limits kn k : MId) (n i : Nat) (d : α) :
    Wp (s.gsRowL left right limits kn k n i d) (fun q => Same s q.1) SolveErr :=
  sb' (hi.accR_safe left kn i 0 i) (fun _ _ => sb' (hi.accR_safe left k i (i + 1) n) (fun _ _ =>
    sb (hi.get_safe _ _ _) (fun _ _ => sb' (hd _ _).de (fun _ _ =>
    sb (hi.get_safe _ _ _) (fun _ _ => sb (hi.get_safe _ _ _) (fun _ _ =>
    sb (hi.get_safe _ _ _) (fun _ _ => sb (hi.get_safe _ _ _) (fun _ _ => sb' (hd _ _).de (fun _ _ =>
    sb (hi.set_safe _ _ _ _) (fun _ h => h))))))))))

theorem Inv.gsIteration_safe (hi : Inv st en P s) (left right kn k : MId) :
    Wp (s.gsIteration left right kn k) (fun q => Inv st en P q.1) SolveErr :=
  wp_forN' (I := fun _ (q : Store α × α) => Same s q.1) (Same.refl s)
    (fun i _ q h => ((h.inv hi).gsRow_safe hd left right kn k _ i q.2).imp (fun _ h' => h.trans h'))
    (fun _ h => h.inv hi)

theorem Inv.gsIterationL_safe (hi : Inv st en P s) (left right limits kn k : MId) :
    Wp (s.gsIterationL left right limits kn k) (fun q => Inv st en P q.1) SolveErr :=
  wp_forN' (I := fun _ (q : Store α × α) => Same s q.1) (Same.refl s)
    (fun i _ q h => ((h.inv hi).gsRowL_safe hd left right limits kn k _ i q.2).imp
      (fun _ h' => h.trans h'))
    (fun _ h => h.inv hi)

omit hd in
theorem gsLoop_safe {sweep : Store α → Exec (Store α × α)} {minDelta : α}
    (hs : ∀ s, Inv st en P s → Wp (sweep s) (fun q => Inv st en P q.1) SolveErr) (n : Nat)
    (s : Store α) (h : Inv st en P s) :
    Wp (gsLoop sweep minDelta n s) (fun q => Inv st en P q.1) SolveErr := by
  induction n generalizing s with
  | zero => exact h
  | succ n ih =>
    exact sb' (hs s h) (fun q hq => (wp_ite _ _ _).2 ⟨fun _ => hq, fun _ => ih q.1 hq⟩)

theorem Inv.gsSolve_safe (hi : Inv st en P s) (hP : SolverP P) (n : Nat) (d : α) (J : SId)
    (W right : MId) (p : Option MId) (r : MId) :
    Wp (s.gsSolve st en n d J W right p (some r)) (fun q => Inv st en P q.1) SolveErr := by
  unfold Store.gsSolve
  simp only [deref, ok_bind]
  exact sb' (hi.run_se (.resize r 1 (s.mat right).height) trivial trivial) (fun _ h =>
    sb' (h.warmStart_safe p r _) (fun _ h => sb' (h.formM_safe J W _ hP.gsReg) (fun _ h =>
      gsLoop_safe (fun _ h => h.gsIteration_safe hd _ _ _ _) _ _ h)))

theorem Inv.gsSolveL_safe (hi : Inv st en P s) (hP : SolverP P) (n : Nat) (d : α) (J : SId)
    (W right limits : MId) (r : MId) (p : Option MId) :
    Wp (s.gsSolveL st en n d J W right limits (some r) p) (fun q => Inv st en P q.1) SolveErr := by
  have rest : ∀ s : Store α, Inv st en P s → ∀ m, Wp (do
      let s ← s.warmStart p r m
      let s ← s.formM st en J W .gsReg .gsM
      gsLoop (fun s => s.gsIterationL .gsM right limits r r) d n s)
      (fun q => Inv st en P q.1) SolveErr := fun s h m =>
    sb' (h.warmStart_safe p r m) (fun _ h => sb' (h.formM_safe J W _ hP.gsReg) (fun _ h =>
      gsLoop_safe (fun _ h => h.gsIterationL_safe hd _ _ _ _ _) _ _ h))
  unfold Store.gsSolveL
  simp only [deref, ok_bind]
  rw [wp_ite]
  exact ⟨fun _ => sb' (hi.run_se (.init0 r 1 _) trivial trivial) (fun _ h => rest _ h _),
    fun _ => rest _ hi _⟩

/-! ## Gaussian elimination -/

omit hd in
theorem Inv.gePivot_safe (hi : Inv st en P s) {m h : Nat} (hm : h < m) (k : Nat) :
    Wp (s.gePivot m h k) (fun p => p.1 < m) SolveErr := by
  refine sb (hi.get_safe _ _ _) (fun v _ => ?_)
  refine wp_forN (I := fun _ (p : Nat × α) => p.1 < m) hm (fun q hq p hp => ?_)
  refine sb (hi.get_safe _ _ _) (fun v _ => ?_)
  simp only []
  rw [wp_pure]
  split
  · show h + 1 + q < m
    omega
  · exact hp

omit hd in
theorem Inv.geLoad_safe (hi : Inv st en P s) (right : MId) (n m : Nat) :
    Wp (s.geLoad right n m) (Same s) SolveErr :=
  wp_forN_same hi (fun _ _ _ hi _ => sb' (wp_forN_same hi (fun _ _ _ hi _ =>
    sb (hi.get_safe _ _ _) (fun _ _ => (hi.set_safe _ _ _ _).se))) (fun _ h =>
      sb ((h.inv hi).get_safe _ _ _) (fun _ _ => ((h.inv hi).set_safe _ _ _ _).se.imp
        (fun _ h' => h.trans h'))))

theorem Inv.geElim_safe (hi : Inv st en P s) (n m h k : Nat) :
    Wp (s.geElim n m h k) (Same s) SolveErr :=
  wp_forN_same hi (fun _ _ _ hi _ => sb (hi.get_safe _ _ _) (fun _ _ =>
    sb (hi.get_safe _ _ _) (fun _ _ => sb' (hd _ _).de (fun _ _ =>
    sb (hi.set_safe _ _ _ _) (fun _ h => (wp_forN_same (h.inv hi) (fun _ _ _ hi _ =>
      sb (hi.get_safe _ _ _) (fun _ _ => sb (hi.get_safe _ _ _) (fun _ _ =>
        (hi.set_safe _ _ _ _).se)))).imp (fun _ h' => h.trans h'))))))

theorem geLoop_safe (hP : ¬ P.plain .geA) (n m fuel h k : Nat) (s : Store α)
    (hi : Inv st en P s) (hh : (s.mat .geA).height = m) (hf : n ≤ fuel + k) :
    Wp (geLoop n m fuel h k s) (Inv st en P) SolveErr := by
  induction fuel generalizing h k s with
  | zero =>
    rw [geLoop, wp_ite]
    exact ⟨fun hc => by omega, fun _ => hi⟩
  | succ fuel ih =>
    rw [geLoop, wp_ite]
    refine ⟨fun hc => sb' (hi.gePivot_safe hc.1 k) (fun p hp => (wp_ite _ _ _).2
      ⟨fun _ => ih _ _ _ hi hh (by omega), fun _ => ?_⟩), fun _ => hi⟩
    obtain ⟨s1, e1, o1, hw1, wf1, hh1, _⟩ := Store.rowSwap_spec s .geA (hi.mat .geA)
      (show h < (s.mat .geA).height by omega) (show p.1 < (s.mat .geA).height by omega)
    have i1 : Inv st en P s1 := hi.of_only o1 wf1 (fun p => absurd p hP)
    rw [e1, ok_bind]
    refine sb' (i1.geElim_safe hd n m h k) (fun s2 h2 => ih _ _ _ (h2.inv i1) ?_ (by omega))
    rw [(h2.mat .geA).height, ← hh]
    omega

theorem Inv.geBack_safe (hi : Inv st en P s) (r : MId) (n m : Nat) :
    Wp (s.geBack r n m) (Inv st en P) SolveErr := by
  refine sb (hi.get_safe _ _ _) (fun _ _ => sc (fun _ => sb (hi.get_safe _ _ _) (fun _ _ =>
    sb (hi.get_safe _ _ _) (fun _ _ => sb' (hd _ _).de (fun _ _ => sb (hi.set_safe _ _ _ _)
    (fun s1 h1 => ?_))))))
  refine Wp.imp (Q := Same s1) (wp_forN_same (h1.inv hi) (fun q hq s2 i2 _ => ?_))
    (fun _ h => h.inv (h1.inv hi))
  refine sb (i2.get_safe _ _ _) (fun _ _ => sb' (forN_safe (fun _ _ _ =>
    sb' (i2.prodAt_safe _ _ _ _) (fun _ _ => trivial))) (fun _ _ => sb (i2.get_safe _ _ _)
    (fun _ _ => (wp_ite _ _ _).2 ⟨fun _ => (i2.set_safe _ _ _ _).se, fun _ =>
      sb (i2.get_safe _ _ _) (fun _ _ => sb' (hd _ _).de (fun _ _ => (i2.set_safe _ _ _ _).se))⟩)))

omit hd in
theorem Inv.geCheck_safe (hi : Inv st en P s) (r : MId) (m : Nat) :
    Wp (s.geCheck r m) (fun _ => True) SolveErr :=
  wp_forN (I := fun _ _ => True) trivial (fun _ _ _ _ => sb (hi.get_safe _ _ _) (fun _ _ =>
    by rw [wp_chk]; exact ⟨fun _ => trivial, fun _ => Or.inl trivial⟩))

theorem Inv.geSolve_safe (hi : Inv st en P s) (hP : SolverP P) (J : SId) (W right : MId)
    (p : Option MId) (r : MId) :
    Wp (s.geSolve st en J W right p (some r)) (fun q => Inv st en P q.1) SolveErr := by
  refine sb' (hi.formM_safe J W .geM hP.geReg) (fun s1 i1 => ?_)
  simp only []
  refine sc (fun _ => (wp_ite _ _ _).2 ⟨fun _ => i1, fun _ => ?_⟩)
  simp only [deref, ok_bind]
  refine sb' (i1.run_se (.resize r 1 _) trivial trivial) (fun s2 i2 => ?_)
  obtain ⟨s3, e3, i3, o3, w3, h3, _⟩ := i2.resize .geA ((s1.mat .geM).width + 1)
    (s1.mat .geM).height
  rw [e3, ok_bind]
  refine sb' (i3.geLoad_safe right _ _) (fun s4 h4 => ?_)
  refine sb' (geLoop_safe hd hP.geA _ _ _ 0 0 s4 (h4.inv i3)
    (by rw [(h4.mat .geA).height, h3]) (by omega)) (fun s5 i5 => ?_)
  refine sb' (i5.geBack_safe hd r _ _) (fun s6 i6 => ?_)
  exact sb' (i6.geCheck_safe r _) (fun _ _ => i6)

/-! ## Conjugate gradient -/

omit hd in
theorem wp_of_query {σ : Type} {x : Exec σ} {s : Store α} {E : Err → Prop} {Q : Store α → Prop}
    (h : Wp (do let _ ← x; pure s) Q E) : Wp x (fun _ => True) E := by
  cases x with
  | ok _ => trivial
  | error e => exact h

omit hd in
theorem Inv.vms_safe (hi : Inv st en P s) {a : MId} (ha : P.plain a) :
    Wp (s.vectorMagnitudeSquared a) (fun _ => True) SolveErr :=
  wp_of_query (hi.run_se (.vms a) (hi.plain a ha) trivial)

omit hd in
theorem Inv.dot_safe (hi : Inv st en P s) {a b : MId} (ha : P.plain a) (hb : P.plain b) :
    Wp (s.dot a b) (fun _ => True) SolveErr :=
  wp_of_query (hi.run_se (.dot a b) ⟨hi.plain a ha, hi.plain b hb⟩ trivial)

omit hd in
theorem Inv.cgMultiply_safe (hi : Inv st en P s) (J : SId) (W x t : MId) :
    Wp (s.cgMultiply st en J W x t) (Inv st en P) SolveErr :=
  sb' (hi.run_se (.resize t 1 _) trivial trivial) (fun _ h =>
    sb (h.transposeMultiplyVector_safe J x .cgReg0) (fun _ h =>
    sb (h.componentMultiply_safe W .cgReg0 .cgReg1) (fun _ h =>
      (h.smultiply_safe J .cgReg1 t).se)))

omit hd in
theorem Inv.cgSmall_safe (hi : Inv st en P s) (e1 e2 : α) (x t : MId) :
    Wp (s.cgSmall e1 e2 x t) (fun _ => True) SolveErr :=
  wp_forN (I := fun _ _ => True) trivial (fun _ _ _ _ => (wp_ite _ _ _).2
    ⟨fun _ => sb (hi.get_safe _ _ _) (fun _ _ => sb (hi.get_safe _ _ _) (fun _ _ => trivial)),
      fun _ => trivial⟩)

theorem cgLoop_safe (hP : SolverP P) (e1 e2 : α) (J : SId) (W right : MId) (n : Nat)
    (s : Store α) (hi : Inv st en P s) :
    Wp (cgLoop st en e1 e2 J W right n s) (fun q => Inv st en P q.1) SolveErr := by
  induction n generalizing s with
  | zero => exact hi
  | succ n ih =>
    exact sb' (hi.cgMultiply_safe J W _ _) (fun _ h => sb' (h.vms_safe hP.cgR) (fun _ _ =>
      sb' (h.dot_safe hP.cgP hP.cgAp) (fun _ _ => sb' (hd _ _).de (fun _ _ =>
      sb' (h.run_se (.madd .cgX .cgP _) trivial trivial) (fun _ h =>
      sb' (h.run_se (.madd .cgR .cgAp _) trivial trivial) (fun _ h =>
      sb' (h.cgSmall_safe e1 e2 .cgR right) (fun _ _ => (wp_ite _ _ _).2 ⟨fun _ => h, fun _ =>
        sb' (h.vms_safe hP.cgR) (fun _ _ => sb' (hd _ _).de (fun _ _ =>
        sb' (h.run_se (.pmadd .cgP .cgR _) trivial trivial) (fun _ h => ih _ h)))⟩)))))))

theorem Inv.cgSolve_safe (hi : Inv st en P s) (hP : SolverP P) (n : Nat) (e1 e2 : α) (J : SId)
    (W right : MId) (p : Option MId) (r : MId) :
    Wp (s.cgSolve st en n e1 e2 J W right p (some r)) (fun q => Inv st en P q.1) SolveErr := by
  have fin : ∀ q : Store α × Bool, Inv st en P q.1 → Wp (if q.2 = true then (do
      let s ← q.1.setMatFrom r .cgX
      pure (s, true)) else pure (q.1, false)) (fun q => Inv st en P q.1) SolveErr := fun q hq =>
    (wp_ite _ _ _).2 ⟨fun _ => sb' (hq.run_se (.setMatFrom r .cgX) trivial trivial)
      (fun _ h => h), fun _ => hq⟩
  unfold Store.cgSolve
  refine sb' (hi.run_se (.resize .cgR 1 _) trivial trivial) (fun _ h =>
    sb' (h.run_se (.resize .cgP 1 _) trivial trivial) (fun _ h =>
    sb' (h.run_se (.resize .cgAp 1 _) trivial trivial) (fun _ h =>
    sb' (h.run_se (.init0 .cgX 1 _) trivial trivial) (fun _ h =>
    sb' (h.warmStart_safe p .cgX _) (fun _ h => ?_)))))
  rw [show (deref (some r) : Exec MId) = .ok r from rfl, ok_bind]
  refine sb' (h.run_se (.resize r 1 _) trivial trivial) (fun _ h =>
    sb' (h.run_se (.setMatFrom .cgR right) trivial trivial) (fun _ h =>
    sb' (h.cgMultiply_safe J W _ _) (fun _ h =>
    sb' (h.run_se (.madd .cgR .cgAp _) trivial trivial) (fun s h =>
    sb' (h.cgSmall_safe e1 e2 .cgR right) (fun small _ => ?_)))))
  rw [wp_ite]
  exact ⟨fun _ => fin (s, true) h, fun _ =>
    sb' (h.run_se (.setMatFrom .cgP .cgR) trivial trivial) (fun _ h =>
      sb' (cgLoop_safe hd hP e1 e2 J W right n _ h) fin)⟩

/-- `solve` with a result matrix: the outcome is a well-formed state, a failed assert or a division
by zero. -/
theorem Inv.solve_safe (hi : Inv st en P s) (hP : SolverP P) (sv : Solver α) (J : SId)
    (W right : MId) (p : Option MId) (r : MId) :
    Wp (sv.solve st en s J W right p (some r)) (fun q => Inv st en P q.1) SolveErr := by
  cases sv with
  | gs n d => exact hi.gsSolve_safe hd hP n d J W right p r
  | ge => exact hi.geSolve_safe hd hP J W right p r
  | cg n e1 e2 => exact hi.cgSolve_safe hd hP n e1 e2 J W right p r

theorem Inv.solveL_safe (hi : Inv st en P s) (hP : SolverP P) (sv : Solver α) (J : SId)
    (W right limits : MId) (r : MId) (p : Option MId) :
    Wp (sv.solveL st en s J W right limits (some r) p) (fun q => Inv st en P q.1) SolveErr := by
  cases sv with
  | gs n d => exact hi.gsSolveL_safe hd hP n d J W right limits r p
  | ge => exact hi
  | cg n e1 e2 => exact hi

omit hd in
/-- Without a result matrix `solve` returns only if there are no equations (Gaussian elimination),
otherwise it dereferences the null pointer. -/
theorem Inv.solve_null (hi : Inv st en P s) (hP : SolverP P) (sv : Solver α)
    (J : SId) (W right : MId) (p : Option MId) :
    Wp (sv.solve st en s J W right p none) (fun q => Inv st en P q.1)
      (fun e => SolveErr e ∨ e = .null) := by
  have lift : ∀ {σ : Type} {x : Exec σ} {Q : σ → Prop}, Wp x Q SolveErr →
      Wp x Q (fun e => SolveErr e ∨ e = .null) := fun h => h.mono (fun _ h => h) (fun _ h => Or.inl h)
  cases sv with
  | gs n d => exact Or.inr rfl
  | ge =>
    unfold Solver.solve Store.geSolve
    rw [wp_bind]
    refine (lift (hi.formM_safe J W .geM hP.geReg)).imp (fun s1 i1 => ?_)
    rw [wp_bind, wp_chk]
    refine ⟨fun _ => (wp_ite _ _ _).2 ⟨fun _ => i1, fun _ => Or.inr rfl⟩,
      fun _ => Or.inl (Or.inl trivial)⟩
  | cg n e1 e2 =>
    unfold Solver.solve Store.cgSolve
    simp only [wp_bind]
    refine (lift (hi.run_se (.resize .cgR 1 _) trivial trivial)).imp (fun _ h => ?_)
    refine (lift (h.run_se (.resize .cgP 1 _) trivial trivial)).imp (fun _ h => ?_)
    refine (lift (h.run_se (.resize .cgAp 1 _) trivial trivial)).imp (fun _ h => ?_)
    refine (lift (h.run_se (.init0 .cgX 1 _) trivial trivial)).imp (fun _ h => ?_)
    refine (lift (h.warmStart_safe p .cgX _)).imp (fun _ h => ?_)
    exact Or.inr rfl

end

/-! ## Programs that use matrices and solvers -/

section
variable {α : Type} [Zero α] [Add α] [Mul α] [Sub α] [Neg α] [Fp α]

/-- The states reachable from freshly constructed objects by any finite sequence of matrix calls of
the class `P`, constructions of solvers, and calls of `solve` and `solveWithLimits`, with any
arguments and aliasing, for any contents of fresh memory. -/
inductive SReach (st en : Nat) (P : Restr) : Store α → Prop where
  | fresh (junk : Nat → Nat → α) (junkB : Nat → Nat → Nat) :
      SReach st en P (Store.fresh junk junkB)
  | call {s s' : Store α} (c : Call α) : SReach st en P s → RowSwapOk c s → NoSwap P c →
      run st en c s = .ok s' → SReach st en P s'
  | construct {s s' : Store α} (sv : Solver α) : SReach st en P s → sv.construct s = .ok s' →
      SReach st en P s'
  | solve {s s' : Store α} (sv : Solver α) (J : SId) (W right : MId) (p r : Option MId) (b : Bool) :
      SReach st en P s → sv.solve st en s J W right p r = .ok (s', b) → SReach st en P s'
  | solveL {s s' : Store α} (sv : Solver α) (J : SId) (W right limits : MId) (r p : Option MId)
      (b : Bool) : SReach st en P s → sv.solveL st en s J W right limits r p = .ok (s', b) →
      SReach st en P s'

theorem SReach.inv {st en : Nat} {P : Restr} {s : Store α} (hd : DivOk α) (hP : SolverP P)
    (h : SReach st en P s) : Inv st en P s := by
  induction h with
  | fresh junk junkB => exact Inv.ofFresh st en junk junkB
  | call c _ hr hp e ih => exact (run_inv ih c hr hp).of_eq e
  | construct sv _ e ih =>
    cases sv with
    | gs n d =>
      obtain ⟨s1, e1, i1, _⟩ := ih.init0 .gsM 1 1
      simp only [Solver.construct] at e
      rw [e1] at e; cases e; exact i1
    | ge =>
      obtain ⟨s1, e1, i1, _⟩ := ih.init0 .geA 1 1
      obtain ⟨s2, e2, i2, _⟩ := i1.init0 .geM 1 1
      simp only [Solver.construct] at e
      rw [e1, ok_bind, e2] at e; cases e; exact i2
    | cg n a b => cases e; exact ih
  | solve sv J W right p r b _ e ih =>
    cases r with
    | none => exact (Inv.solve_null ih hP sv J W right p).of_eq e
    | some r => exact (Inv.solve_safe hd ih hP sv J W right p r).of_eq e
  | solveL sv J W right limits r p b _ e ih =>
    cases r with
    | none =>
      cases sv with
      | gs n d => cases e
      | ge => cases e; exact ih
      | cg n e1 e2 => cases e; exact ih
    | some r => exact (Inv.solveL_safe hd ih hP sv J W right limits r p).of_eq e

/-- Matrix programs are programs without solver calls. -/
theorem ReachableNS.sreach {st en : Nat} {P : Restr} {s : Store α} (h : ReachableNS st en P s) :
    SReach st en P s := by
  induction h with
  | fresh junk junkB => exact .fresh junk junkB
  | call c _ hr hp e ih => exact .call c ih hr hp e

end

theorem divOk_real : DivOk ℝ := by
  intro a b
  by_cases h : b = 0
  · rw [h, fp_div_zero]; exact rfl
  · rw [fp_div h]; trivial

end Scs
