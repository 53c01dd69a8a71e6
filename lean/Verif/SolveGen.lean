import Verif.SolveRun

/-!
# The three solvers as called by the generic system
-/

namespace Scs

open Finset

/-- A successful call of `solve` has divided by every element of the diagonal. -/
theorem Store.gsSolve_diag {st en : Nat} (hst : 0 < st) {s : Store ℝ} {J : SId}
    {W right r : MId} {prev : Option MId} {n : Nat} (h : SleIn st en s J W right n)
    (hJ : J ≠ .gsReg) (hf : (s.smat .gsReg).Fresh) (h1 : r ≠ .gsM) (h4 : r ≠ W)
    (hp : ∀ p, prev = some p → (s.mat p).height = n → (s.mat p).width = 1)
    {maxIter : Nat} {e : ℝ} {s' : Store ℝ}
    (hok : s.gsSolve st en maxIter e J W right prev (some r) = .ok (s', true)) {i : Nat}
    (hi : i < n) : sysMat st en s J W i i ≠ 0 := by
  obtain ⟨s1, e1, o1, wf1, w1, hh1, pl1, k1, _⟩ := Store.resize_spec s r 1 n (h.ok.mat r)
  have ok1 := h.ok.only o1 wf1
  obtain ⟨s2, e2, ok2, o2, w2, hh2, _, en2⟩ := Store.warmStart_spec ok1 o1 w1 hh1
    (base := fun i => (s1.mat r).ent i 0) (fun _ _ => rfl) prev hp
    (fun p hpp hpn => by
      by_cases hpr : p = r
      · subst hpr
        rw [k1 ⟨(hp p hpp hpn).symm, hpn.symm⟩]
      · exact o1.mat p hpr) pl1
  have hJs : s2.smat = s.smat := o2.smat
  have hWs : s2.mat W = s.mat W := o2.mat W (Ne.symm h4)
  obtain ⟨s3, e3, ok3, f3, fr3, _, wM, hhM, eM⟩ := Store.formM_spec hst ok2 (J := J)
    (reg := .gsReg) (W := W) (M := .gsM) (by rw [hJs]; exact h.inRange) hJ (by rw [hJs]; exact hf)
    (by rw [hWs]; exact h.wW) (by rw [hWs, hJs]; exact h.hW)
  rw [hJs, h.rows] at wM hhM
  have hr3 : s3.mat r = s2.mat r := f3.mat r h1
  rw [Store.gsSolve] at hok
  simp only [deref, ok_bind, h.hB] at hok
  rw [e1, ok_bind, e2, ok_bind, e3, ok_bind] at hok
  obtain ⟨q, hq⟩ := gsLoop_first hok
  have := gsIteration_diag hq (Ne.symm h1) (ok3.mat _) (i := i) (by rw [hr3, hh2]; exact hi)
    (by rw [wM]; exact hi) (by rw [hhM]; exact hi)
  rw [eM i i (by rw [hJs, h.rows]; exact hi) (by rw [hJs, h.rows]; exact hi), hJs, hWs] at this
  exact this

/-- What a solver that reports success in a call of `solve` promises about the multipliers `lam` of
the system `M`, `b`: elimination and the gradient method as with limits, which they ignore; the
iteration stopped after the first sweep of row solutions that passed its test. -/
def Solver.SolvedU (sv : Solver ℝ) (n : Nat) (M : Nat → Nat → ℝ) (b lam : Nat → ℝ) : Prop :=
  match sv with
  | .gs maxIter e => 0 < e ∧ (∀ i, i < n → M i i ≠ 0) ∧ ∃ x0, FirstPass (Passed n e)
      (sweepTo (rowSolve n M b) n) n maxIter x0 true lam
  | .ge => Regular n M ∧ Solves n M b lam
  | .cg _ e1 e2 => Small e1 e2 n (fun i => b i - mulV n M lam i) b

/-- Conditions under which a call certainly succeeds. Nothing is claimed about the iteration. -/
def Solver.EasyU (sv : Solver ℝ) (n : Nat) (M : Nat → Nat → ℝ) : Prop :=
  match sv with
  | .gs .. => False
  | .ge => Regular n M
  | .cg maxIter _ _ => PosDef n M ∧ n ≤ maxIter

theorem Solver.EasyU.congr {sv : Solver ℝ} {n : Nat} {M M' : Nat → Nat → ℝ} (h : sv.EasyU n M)
    (hM : ∀ i j, i < n → j < n → M i j = M' i j) : sv.EasyU n M' := by
  cases sv with
  | gs m e => exact h
  | ge => exact Regular.congr h hM
  | cg m e1 e2 =>
    exact Solver.Easy.congr (sv := .cg m e1 e2) (b := fun _ => 0) (lo := fun _ => 0) (hi := fun _ => 0)
      (b' := fun _ => 0) (lo' := fun _ => 0) (hi' := fun _ => 0) h hM (fun _ _ => rfl) (fun _ _ => rfl)
      (fun _ _ => rfl)

theorem Solver.SolvedU.congr {sv : Solver ℝ} {n : Nat} {M M' : Nat → Nat → ℝ}
    {b b' lam lam' : Nat → ℝ} (h : sv.SolvedU n M b lam)
    (hM : ∀ i j, i < n → j < n → M i j = M' i j) (hb : ∀ i, i < n → b i = b' i)
    (hlam : ∀ i, i < n → lam i = lam' i) : sv.SolvedU n M' b' lam' := by
  cases sv with
  | gs m e =>
    obtain ⟨h1, h2, x0, h3⟩ := h
    have hF : sweepTo (rowSolve n M b) n = sweepTo (rowSolve n M' b') n := by
      funext x
      exact sweepTo_congr (fun i hi' x => rowSolve_congr hM hb x hi') x
    refine ⟨h1, fun i hi => by rw [← hM i i hi hi]; exact h2 i hi, x0, ?_⟩
    rw [hF] at h3
    rcases h3 with ⟨q, k, h4, h5, h6, h7⟩ | ⟨q, _⟩
    · exact Or.inl ⟨q, k, h4, h5, h6, fun i hi => by rw [← hlam i hi]; exact h7 i hi⟩
    · cases q
  | ge =>
    exact Solver.Solved.congr (sv := .ge) (lo := fun _ => 0) (hi := fun _ => 0)
      (lo' := fun _ => 0) (hi' := fun _ => 0) h hM hb (fun _ _ => rfl) (fun _ _ => rfl) hlam
  | cg m e1 e2 =>
    exact Solver.Solved.congr (sv := .cg m e1 e2) (lo := fun _ => 0) (hi := fun _ => 0)
      (lo' := fun _ => 0) (hi' := fun _ => 0) h hM hb (fun _ _ => rfl) (fun _ _ => rfl) hlam

/-- The solver call of the generic system. -/
noncomputable def genCall (sv : Solver ℝ) (mem : Store ℝ) : Exec (Store ℝ × Bool) :=
  sv.solve 3 2 mem .ivJ .ivMinv .ivRight (some .ivLambda) (some .ivLambda)

theorem genCall_inv {sv : Solver ℝ} {mem : Store ℝ} (hi : Inv 3 2 sysRestr mem)
    {q : Store ℝ × Bool} (hq : genCall sv mem = .ok q) : Inv 3 2 sysRestr q.1 ∧
      Frame (fun m => m = .ivLambda ∨ sv.Own m) sv.OwnS mem q.1 := by
  have h1 := hi.solve_safe divOk_real sysRestr_ok sv .ivJ .ivMinv .ivRight (some .ivLambda) .ivLambda
  have h2 := sv.fr_solve (s := mem) 3 2 .ivJ .ivMinv .ivRight (some .ivLambda) (some .ivLambda)
  rw [genCall] at hq
  rw [hq] at h1 h2
  exact ⟨h1, Frame.mono h2 (fun _ q => q.imp (fun q => Option.some.inj q) id) (fun _ q => q)⟩

/-- The solver call of the generic system with at least one row. -/
theorem genCall_wp (sv : Solver ℝ) {mem : Store ℝ} {n : Nat}
    (h : SleIn 3 2 mem .ivJ .ivMinv .ivRight n) (hi : Inv 3 2 sysRestr mem)
    (hlam : (mem.mat .ivLambda).height = n → (mem.mat .ivLambda).width = 1) (hn : 0 < n)
    {E : Err → Prop} (hE : sv.EasyU n (sysMat 3 2 mem .ivJ .ivMinv) ∨ ∀ e, E e) :
    Wp (genCall sv mem) (fun q => Inv 3 2 sysRestr q.1 ∧
      Frame (fun m => m = .ivLambda ∨ sv.Own m) sv.OwnS mem q.1 ∧
      (sv.EasyU n (sysMat 3 2 mem .ivJ .ivMinv) → q.2 = true) ∧
      (q.2 = true → (q.1.mat .ivLambda).width = 1 ∧ (q.1.mat .ivLambda).height = n ∧
        sv.SolvedU n (sysMat 3 2 mem .ivJ .ivMinv) (fun i => (mem.mat .ivRight).ent i 0)
          (fun i => (q.1.mat .ivLambda).ent i 0))) E := by
  cases sv with
  | gs m e =>
    have ec : genCall (.gs m e) mem = mem.gsSolve 3 2 m e .ivJ .ivMinv .ivRight
      (some .ivLambda) (some .ivLambda) := rfl
    have hez : ∀ e', E e' := hE.resolve_left id
    cases hq : genCall (.gs m e) mem with
    | error e' => exact hez e'
    | ok q =>
      obtain ⟨i2, f2⟩ := genCall_inv hi hq
      rw [wp_ok]
      refine ⟨i2, f2, fun q => q.elim, fun hc => ?_⟩
      have hM : ∀ i, i < n → sysMat 3 2 mem .ivJ .ivMinv i i ≠ 0 := fun i hi' =>
        Store.gsSolve_diag (by decide) (r := .ivLambda) (prev := some .ivLambda)
          (s' := q.1) (maxIter := m) (e := e) h (by decide) (hi.sfresh _)
          (by decide) (by decide) (fun p hp => by cases hp; exact hlam) (by rw [← ec, hq, ← hc]) hi'
      obtain ⟨s', c, y, x0, _, e1, _, _, _, w1, h1, en, _, it⟩ := Store.gsSolve_spec
        (prev := some .ivLambda) (r := .ivLambda) (by decide) h
        (by decide) (hi.sfresh _) (by decide) (by decide) (by decide) (by decide)
        (fun p hp => by cases hp; exact hlam) hM m e
      have e2 := hq.symm.trans (ec.trans e1)
      cases e2
      have hc : c = true := hc
      have he : 0 < e := by
        obtain ⟨k, _, hk, _⟩ := it.1 hc
        exact (maxTo_lt.1 hk).1
      have fp : FirstPass (Passed n e) (sweepTo (rowSolve n (sysMat 3 2 mem .ivJ .ivMinv)
          (fun i => (mem.mat .ivRight).ent i 0)) n) n m x0 c y :=
        it.firstPass rfl (fun x => passed_iff he) passed_local
          ((rowSolve_local n _ _).sweep (Nat.le_refl n)) (fun _ _ => rfl)
      refine ⟨w1, h1, he, hM, x0, ?_⟩
      rw [hc] at fp
      rcases fp with ⟨q, k, h4, h5, h6, h7⟩ | ⟨q, _⟩
      · exact Or.inl ⟨q, k, h4, h5, h6, fun i hi => (en i hi).trans (h7 i hi)⟩
      · cases q
  | ge => exact optCall_wp .ge h hi (fun q => by cases q) (fun q => by cases q) hlam hn hE
  | cg m e1 e2 =>
    exact optCall_wp (.cg m e1 e2) h hi (fun q => by cases q) (fun q => by cases q) hlam hn hE

theorem gsSolve_zero {mem : Store ℝ} (h : SleIn 3 2 mem .ivJ .ivMinv .ivRight 0)
    (hi : Inv 3 2 sysRestr mem) {m : Nat} {e : ℝ} (he : 0 < e) (hm : 1 ≤ m) :
    ∃ s', mem.gsSolve 3 2 m e .ivJ .ivMinv .ivRight (some .ivLambda) (some .ivLambda) =
      .ok (s', true) ∧ (s'.mat .ivLambda).height = 0 := by
  obtain ⟨s1, e1, i1, o1, _, hh1, _⟩ := hi.resize .ivLambda 1 0
  obtain ⟨s2, e2, w2⟩ := Store.setMatFrom_spec s1 .ivLambda .ivLambda (i1.mat _) (i1.mat _)
  have i2 := i1.wrote w2
  have o2 := o1.trans w2.only
  obtain ⟨s3, e3, _, f3, _⟩ := Store.formM_spec (st := 3) (en := 2) (by decide) i2.ok (J := .ivJ)
    (reg := .gsReg) (W := .ivMinv) (M := .gsM) (by rw [o2.smat]; exact h.inRange) (by decide)
    (i2.sfresh _) (by rw [o2.mat _ (by decide)]; exact h.wW)
    (by rw [o2.mat _ (by decide), o2.smat]; exact h.hW)
  have hh3 : (s3.mat .ivLambda).height = 0 := by
    rw [f3.mat _ (by decide), w2.height, hh1]
  have el : gsLoop (fun s => s.gsIteration .gsM .ivRight .ivLambda .ivLambda) e m s3 =
      .ok (s3, true) := by
    obtain ⟨m, rfl⟩ : ∃ k, m = k + 1 := ⟨m - 1, by omega⟩
    rw [gsLoop, Store.gsIteration, hh3]
    show (Except.ok ((s3, 0) : Store ℝ × ℝ) >>= _) = _
    rw [ok_bind, if_pos (by simpa [fp_gt] using he)]
    rfl
  refine ⟨s3, ?_, hh3⟩
  rw [Store.gsSolve]
  simp only [deref, ok_bind, h.hB]
  rw [e1, ok_bind, Store.warmStart, if_pos hh1, e2, ok_bind, e3, ok_bind, el]

/-- The solver call without rows. -/
theorem genCall_zero (sv : Solver ℝ) {mem : Store ℝ}
    (h : SleIn 3 2 mem .ivJ .ivMinv .ivRight 0) (hi : Inv 3 2 sysRestr mem)
    {E : Err → Prop} (hE : sv.Easy0 (mem.mat .ivLambda) ∨ ∀ e, E e) :
    Wp (genCall sv mem) (fun q => Inv 3 2 sysRestr q.1 ∧
      Frame (fun m => m = .ivLambda ∨ sv.Own m) sv.OwnS mem q.1 ∧
      (sv.Easy0 (mem.mat .ivLambda) → q.2 = true ∧ (q.1.mat .ivLambda).height = 0 ∧
        sv.Easy0 (q.1.mat .ivLambda)) ∧
      ((q.1.mat .ivLambda).height = 0 → sv.Need0 (mem.mat .ivLambda))) E := by
  cases sv with
  | gs m e =>
    cases hq : genCall (.gs m e) mem with
    | error e' =>
      rcases hE with hE | hE
      · obtain ⟨s', e1, _⟩ := gsSolve_zero h hi hE.1 hE.2
        have e1 : genCall (.gs m e) mem = .ok (s', true) := e1
        rw [hq] at e1; cases e1
      · exact hE e'
    | ok q =>
      obtain ⟨i2, f2⟩ := genCall_inv hi hq
      rw [wp_ok]
      refine ⟨i2, f2, fun he => ?_, fun _ => trivial⟩
      obtain ⟨s', e1, e2⟩ := gsSolve_zero h hi he.1 he.2
      have e1 : genCall (.gs m e) mem = .ok (s', true) := e1
      rw [hq] at e1
      cases e1
      exact ⟨rfl, e2, he⟩
  | ge => exact optCall_zero .ge h hi hE
  | cg m e1 e2 => exact optCall_zero (.cg m e1 e2) h hi hE

end Scs
