import Verif.WorldAsm
import Verif.SleProps
import Verif.Frames
import Verif.GsConverge

/-!
# The three solvers as called by the systems, in one statement
-/

namespace Scs

open Finset

theorem forN_visits {σ : Type} {f : Nat → σ → Exec σ} {x y : σ} : ∀ {n : Nat}, forN n f x = .ok y →
    ∀ i, i < n → ∃ z z', forN i f x = .ok z ∧ f i z = .ok z'
  | 0, _, i, hi => absurd hi (Nat.not_lt_zero i)
  | n + 1, h, i, hi => by
    rw [forN_succ] at h
    cases hn : forN n f x with
    | error e => rw [hn] at h; cases h
    | ok z =>
      rw [hn, ok_bind] at h
      by_cases q : i = n
      · subst q; exact ⟨z, y, hn, h⟩
      · exact forN_visits hn i (by omega)

theorem gsRowL_diag {s : Store ℝ} {left right limits kn k : MId} {n i : Nat} {d : ℝ}
    {q : Store ℝ × ℝ} (h : s.gsRowL left right limits kn k n i d = .ok q)
    {v : ℝ} (hv : s.get left i i = .ok v) : v ≠ 0 := by
  rintro rfl
  rw [Store.gsRowL] at h
  cases h1 : accR 0 i (fun j => s.prodAt left kn i j) with
  | error e => rw [h1] at h; cases h
  | ok a =>
    rw [h1, ok_bind] at h
    cases h2 : accR (i + 1) n (fun j => s.prodAt left k i j) with
    | error e => rw [h2] at h; cases h
    | ok b =>
      rw [h2, ok_bind, hv, ok_bind, fp_div_zero] at h
      cases h

theorem gsRow_diag {s : Store ℝ} {left right kn k : MId} {n i : Nat} {d : ℝ}
    {q : Store ℝ × ℝ} (h : s.gsRow left right kn k n i d = .ok q)
    {v : ℝ} (hv : s.get left i i = .ok v) : v ≠ 0 := by
  rintro rfl
  rw [Store.gsRow] at h
  cases h1 : accR 0 i (fun j => s.prodAt left kn i j) with
  | error e => rw [h1] at h; cases h
  | ok a =>
    rw [h1, ok_bind] at h
    cases h2 : accR (i + 1) n (fun j => s.prodAt left k i j) with
    | error e => rw [h2] at h; cases h
    | ok b =>
      rw [h2, ok_bind, hv, ok_bind, fp_div_zero] at h
      cases h

theorem gsIterationL_diag {s : Store ℝ} {left right limits kn k : MId} {q : Store ℝ × ℝ}
    (h : s.gsIterationL left right limits kn k = .ok q) (hk : left ≠ kn) (wf : (s.mat left).WF)
    {i : Nat} (hi : i < (s.mat k).height) (h1 : i < (s.mat left).width)
    (h2 : i < (s.mat left).height) : (s.mat left).ent i i ≠ 0 := by
  obtain ⟨z, z', hz, hz'⟩ := forN_visits h i hi
  have hf : Wp (forN i (fun i (q : Store ℝ × ℝ) =>
      Store.gsRowL left right limits kn k (s.mat k).height i q.1 q.2) (s, 0))
      (FrameP (· = kn) (fun _ => False) s) anyErr :=
    fr_forNP (Frame.refl _ _ _) (fun _ _ h => fr_any (fun _ => fr_any (fun _ => fr_any (fun _ =>
      fr_any (fun _ => fr_any (fun _ => fr_any (fun _ => fr_any (fun _ => fr_any (fun _ =>
      fr_any (fun _ => fr_bindP (fr_set h rfl _ _ _) (fun _ h => h)))))))))))
  rw [hz, wp_ok] at hf
  have e : z.1.mat left = s.mat left := hf.mat left hk
  refine gsRowL_diag hz' ?_
  rw [Store.get_ok z.1 left (by rw [e]; exact wf) (by rw [e]; exact h1) (by rw [e]; exact h2), e]

theorem gsIteration_diag {s : Store ℝ} {left right kn k : MId} {q : Store ℝ × ℝ}
    (h : s.gsIteration left right kn k = .ok q) (hk : left ≠ kn) (wf : (s.mat left).WF)
    {i : Nat} (hi : i < (s.mat k).height) (h1 : i < (s.mat left).width)
    (h2 : i < (s.mat left).height) : (s.mat left).ent i i ≠ 0 := by
  obtain ⟨z, z', hz, hz'⟩ := forN_visits h i hi
  have hf : Wp (forN i (fun i (q : Store ℝ × ℝ) =>
      Store.gsRow left right kn k (s.mat k).height i q.1 q.2) (s, 0))
      (FrameP (· = kn) (fun _ => False) s) anyErr :=
    fr_forNP (Frame.refl _ _ _) (fun _ _ h => fr_any (fun _ => fr_any (fun _ => fr_any (fun _ =>
      fr_any (fun _ => fr_any (fun _ => fr_any (fun _ => fr_any (fun _ =>
      fr_bindP (fr_set h rfl _ _ _) (fun _ h => h)))))))))
  rw [hz, wp_ok] at hf
  have e : z.1.mat left = s.mat left := hf.mat left hk
  refine gsRow_diag hz' ?_
  rw [Store.get_ok z.1 left (by rw [e]; exact wf) (by rw [e]; exact h1) (by rw [e]; exact h2), e]

theorem gsLoop_first {sweep : Store ℝ → Exec (Store ℝ × ℝ)} {e : ℝ} {n : Nat} {s s' : Store ℝ}
    (h : gsLoop sweep e n s = .ok (s', true)) : ∃ q, sweep s = .ok q := by
  cases n with
  | zero => cases h
  | succ n =>
    rw [gsLoop] at h
    cases hq : sweep s with
    | error e => rw [hq] at h; cases h
    | ok q => exact ⟨q, rfl⟩

/-- A successful call of `solveWithLimits` has divided by every element of the diagonal. -/
theorem Store.gsSolveL_diag {st en : Nat} (hst : 0 < st) {s : Store ℝ} {J : SId}
    {W right limits r : MId} {prev : Option MId} {n : Nat} (h : SleIn st en s J W right n)
    (hJ : J ≠ .gsReg) (hf : (s.smat .gsReg).Fresh) (h1 : r ≠ .gsM)
    (h4 : r ≠ W) 
    (hp : ∀ p, prev = some p → (s.mat p).height = n → (s.mat p).width = 1)
    (hr : (s.mat r).height = n → (s.mat r).width = 1) {maxIter : Nat} {e : ℝ} {s' : Store ℝ}
    (hok : s.gsSolveL st en maxIter e J W right limits (some r) prev = .ok (s', true)) {i : Nat}
    (hi : i < n) : sysMat st en s J W i i ≠ 0 := by
  have hinit : ∃ s1, (if (s.mat r).height ≠ n then s.init0 r 1 n else pure s) = .ok s1 ∧
      Ok st en s1 ∧ Only r s s1 ∧ (s1.mat r).width = 1 ∧ (s1.mat r).height = n ∧
      ((s.mat r).height = n → s1 = s) ∧
      ((s.mat r).Plain → (s1.mat r).Plain) ∧
      ∀ i, i < n → (s1.mat r).ent i 0 =
        if (s.mat r).height = n then (s.mat r).ent i 0 else 0 := by
    by_cases hn : (s.mat r).height = n
    · rw [if_neg (by simpa using hn)]
      exact ⟨s, rfl, h.ok, Only.refl _ _, hr hn, hn, fun _ => rfl, id, fun i _ => by rw [if_pos hn]⟩
    · rw [if_pos hn]
      obtain ⟨s1, e1, w1⟩ := Store.init0_spec s r 1 n (h.ok.mat r)
      exact ⟨s1, e1, h.ok.only w1.only w1.wf, w1.only, w1.width, w1.height,
        fun q => absurd q hn, w1.plain, fun i hi => by
          rw [w1.ent i 0 hi (by decide), if_neg hn]⟩
  obtain ⟨s1, e1, ok1, o1, w1, hh1, k1, pl1, en1⟩ := hinit
  obtain ⟨s2, e2, ok2, o2, w2, hh2, _, en2⟩ := Store.warmStart_spec ok1 o1 w1 hh1 en1 prev hp
    (fun p hpp hpn => by
      by_cases hpr : p = r
      · subst hpr; rw [k1 hpn]
      · exact o1.mat p hpr) pl1
  have hJs : s2.smat = s.smat := o2.smat
  have hWs : s2.mat W = s.mat W := o2.mat W (Ne.symm h4)
  obtain ⟨s3, e3, ok3, f3, fr3, _, wM, hhM, eM⟩ := Store.formM_spec hst ok2 (J := J)
    (reg := .gsReg) (W := W) (M := .gsM) (by rw [hJs]; exact h.inRange) hJ (by rw [hJs]; exact hf)
    (by rw [hWs]; exact h.wW) (by rw [hWs, hJs]; exact h.hW)
  rw [hJs, h.rows] at wM hhM
  have hr3 : s3.mat r = s2.mat r := f3.mat r h1
  rw [Store.gsSolveL] at hok
  simp only [deref, ok_bind, h.hB] at hok
  have hloop : ∃ q, s3.gsIterationL .gsM right limits r r = .ok q := by
    by_cases hn : (s.mat r).height = n
    · rw [if_neg (by simpa using hn)] at e1 hok
      rw [e1, ok_bind, e2, ok_bind, e3, ok_bind] at hok
      exact gsLoop_first hok
    · rw [if_pos hn] at e1 hok
      rw [e1, ok_bind, e2, ok_bind, e3, ok_bind] at hok
      exact gsLoop_first hok
  obtain ⟨q, hq⟩ := hloop
  have := gsIterationL_diag hq (Ne.symm h1) (ok3.mat _) (i := i) (by rw [hr3, hh2]; exact hi)
    (by rw [wM]; exact hi) (by rw [hhM]; exact hi)
  rw [eM i i (by rw [hJs, h.rows]; exact hi) (by rw [hJs, h.rows]; exact hi), hJs, hWs] at this
  exact this

/-- What a solver that reports success promises about the multipliers `lam` of the system `M`, `b`:
elimination solves it and the matrix is regular; the iteration with limits stopped after a sweep of
clamped row solutions that changed every multiplier by a small relative amount; the gradient method
has a small residual. -/
def Solver.Solved (sv : Solver ℝ) (n : Nat) (M : Nat → Nat → ℝ) (b lo hi lam : Nat → ℝ) : Prop :=
  match sv with
  | .gs maxIter e => 0 < e ∧ (∀ i, i < n → M i i ≠ 0) ∧ ∃ x0, FirstPass (Settled n e)
      (sweepTo (rowSolveL n M b lo hi) n) n maxIter x0 true lam
  | .ge => Regular n M ∧ Solves n M b lam
  | .cg _ e1 e2 => Small e1 e2 n (fun i => b i - mulV n M lam i) b

/-- Conditions under which a call certainly succeeds. -/
def Solver.Easy (sv : Solver ℝ) (n : Nat) (M : Nat → Nat → ℝ) (b lo hi : Nat → ℝ) : Prop :=
  match sv with
  | .gs maxIter e => 0 < e ∧ (∀ i, i < n → M i i ≠ 0) ∧ ∀ x0, ∃ k, k < maxIter ∧
    Settled n e ((sweepTo (rowSolveL n M b lo hi) n)^[k] x0)
      ((sweepTo (rowSolveL n M b lo hi) n)^[k + 1] x0)
  | .ge => Regular n M
  | .cg maxIter _ _ => PosDef n M ∧ n ≤ maxIter

theorem Regular.congr {n : Nat} {M M' : Nat → Nat → ℝ} (h : Regular n M)
    (hM : ∀ i j, i < n → j < n → M i j = M' i j) : Regular n M' := by
  intro x hx
  refine h x (fun i hi => ?_)
  rw [sum_congr rfl (fun j hj => by rw [hM i j hi (mem_range.mp hj)])]
  exact hx i hi

theorem mulV_congr {n : Nat} {M M' : Nat → Nat → ℝ} (hM : ∀ i j, i < n → j < n → M i j = M' i j)
    {u u' : Nat → ℝ} (hu : ∀ i, i < n → u i = u' i) {i : Nat} (hi : i < n) :
    mulV n M u i = mulV n M' u' i :=
  sum_congr rfl (fun j hj => by rw [hM i j hi (mem_range.mp hj), hu j (mem_range.mp hj)])

theorem Solver.Easy.congr {sv : Solver ℝ} {n : Nat} {M M' : Nat → Nat → ℝ}
    {b b' lo lo' hi hi' : Nat → ℝ} (h : sv.Easy n M b lo hi)
    (hM : ∀ i j, i < n → j < n → M i j = M' i j) (hb : ∀ i, i < n → b i = b' i)
    (hlo : ∀ i, i < n → lo i = lo' i) (hhi : ∀ i, i < n → hi i = hi' i) :
    sv.Easy n M' b' lo' hi' := by
  cases sv with
  | gs m e =>
    obtain ⟨h1, h2, h3⟩ := h
    have hF : sweepTo (rowSolveL n M b lo hi) n = sweepTo (rowSolveL n M' b' lo' hi') n := by
      funext x
      refine sweepTo_congr (fun i hi' x => ?_) x
      simp only [rowSolveL]
      rw [rowSolve_congr hM hb x hi', hlo i hi', hhi i hi']
    refine ⟨h1, fun i hi => by rw [← hM i i hi hi]; exact h2 i hi, ?_⟩
    rw [hF] at h3
    exact h3
  | ge => exact Regular.congr h hM
  | cg m e1 e2 =>
    refine ⟨⟨fun u v hu hv => ?_, fun v hv => ?_⟩, h.2⟩
    · rw [← hM u v hu hv, ← hM v u hv hu]; exact h.1.symm u v hu hv
    · have := h.1.pos v hv
      rw [sum_congr rfl (fun i hi => sum_congr rfl (fun j hj => by
        rw [hM i j (mem_range.mp hi) (mem_range.mp hj)]))] at this
      exact this

theorem Solver.Solved.congr {sv : Solver ℝ} {n : Nat} {M M' : Nat → Nat → ℝ}
    {b b' lo lo' hi hi' lam lam' : Nat → ℝ} (h : sv.Solved n M b lo hi lam)
    (hM : ∀ i j, i < n → j < n → M i j = M' i j) (hb : ∀ i, i < n → b i = b' i)
    (hlo : ∀ i, i < n → lo i = lo' i) (hhi : ∀ i, i < n → hi i = hi' i)
    (hlam : ∀ i, i < n → lam i = lam' i) : sv.Solved n M' b' lo' hi' lam' := by
  cases sv with
  | gs m e =>
    obtain ⟨h1, h2, x0, h3⟩ := h
    have hF : sweepTo (rowSolveL n M b lo hi) n = sweepTo (rowSolveL n M' b' lo' hi') n := by
      funext x
      refine sweepTo_congr (fun i hi' x => ?_) x
      simp only [rowSolveL]
      rw [rowSolve_congr hM hb x hi', hlo i hi', hhi i hi']
    refine ⟨h1, fun i hi => by rw [← hM i i hi hi]; exact h2 i hi, x0, ?_⟩
    rw [hF] at h3
    rcases h3 with ⟨q, k, h4, h5, h6, h7⟩ | ⟨q, _⟩
    · exact Or.inl ⟨q, k, h4, h5, h6, fun i hi => by rw [← hlam i hi]; exact h7 i hi⟩
    · cases q
  | ge =>
    refine ⟨Regular.congr h.1 hM, fun i hi => ?_⟩
    rw [← hb i hi, ← h.2 i hi]
    exact sum_congr rfl (fun j hj => by
      rw [hM i j hi (mem_range.mp hj), hlam j (mem_range.mp hj)])
  | cg m e1 e2 =>
    intro i hi
    have := h i hi
    beta_reduce at this ⊢
    rw [← hb i hi, ← mulV_congr hM hlam hi]
    exact this

/-- The multipliers found by the iteration with limits respect them. -/
theorem Solver.Solved.limits {m : Nat} {e : ℝ} {n : Nat} {M : Nat → Nat → ℝ}
    {b lo hi lam : Nat → ℝ} (h : (Solver.gs m e).Solved n M b lo hi lam) {i : Nat} (hi' : i < n)
    (hl : lo i ≤ hi i) : lo i ≤ lam i ∧ lam i ≤ hi i := by
  obtain ⟨_, _, x0, h3⟩ := h
  rcases h3 with ⟨_, k, _, _, _, h7⟩ | ⟨q, _⟩
  · have key : ∀ x, lo i ≤ sweepTo (rowSolveL n M b lo hi) n x i ∧
        sweepTo (rowSolveL n M b lo hi) n x i ≤ hi i := by
      intro x
      obtain ⟨z, hz⟩ : ∃ z, sweepTo (rowSolveL n M b lo hi) n x i = rowSolveL n M b lo hi z i := by
        have : ∀ m, i < m → ∃ z, sweepTo (rowSolveL n M b lo hi) m x i =
            rowSolveL n M b lo hi z i := by
          intro m
          induction m with
          | zero => intro q; omega
          | succ m ih =>
            intro q
            by_cases hm : i = m
            · subst hm
              exact ⟨sweepTo (rowSolveL n M b lo hi) i x, by rw [sweepTo]; simp [upd]⟩
            · obtain ⟨z, hz⟩ := ih (by omega)
              exact ⟨z, by rw [sweepTo, upd, if_neg hm]; exact hz⟩
        exact this n hi'
      rw [hz, rowSolveL, clamp]
      exact ⟨le_max_left _ _, max_le hl (min_le_left _ _)⟩
    rw [h7 i hi', Function.iterate_succ_apply']
    exact key _
  · cases q

theorem sysRestr_ok : SolverP sysRestr :=
  ⟨fun h => MId.noConfusion h, fun h => MId.noConfusion h, fun h => MId.noConfusion h, trivial,
    trivial, fun h => h rfl⟩

theorem sweepTo_const {f : (Nat → ℝ) → Nat → ℝ} {g : Nat → ℝ} {n : Nat}
    (hf : ∀ x i, i < n → f x i = g i) (x : Nat → ℝ) : ∀ m, m ≤ n → ∀ i, i < m →
      sweepTo f m x i = g i := by
  intro m
  induction m with
  | zero => intro _ i hi; omega
  | succ m ih =>
    intro hm i hi
    rw [sweepTo]
    by_cases h : i = m
    · subst h
      simp only [upd, if_true]
      exact hf _ _ (by omega)
    · simp only [upd, if_neg h]
      exact ih (by omega) i (by omega)

/-- With a diagonal matrix the second sweep changes nothing. -/
theorem Solver.Easy.diag {n : Nat} {e : ℝ} (he : 0 < e) {M : Nat → Nat → ℝ}
    (h0 : ∀ i, i < n → M i i ≠ 0)
    (hM : ∀ i j, i < n → j < n → i ≠ j → M i j = 0) {b lo hi : Nat → ℝ} {m : Nat}
    (hm : 2 ≤ m) : (Solver.gs m e).Easy n M b lo hi := by
  refine ⟨he, h0, fun x0 => ⟨1, by omega, fun i hn => ?_⟩⟩
  · have key : ∀ x, sweepTo (rowSolveL n M b lo hi) n x i = clamp (lo i) (hi i) (b i / M i i) := by
      intro x
      refine sweepTo_const (g := fun i => clamp (lo i) (hi i) (b i / M i i)) (fun x i hi' => ?_) x n
        (Nat.le_refl n) i hn
      rw [rowSolveL, rowSolve, sum_eq_zero, sub_zero]
      intro j hj
      rw [mem_erase, mem_range] at hj
      rw [hM i j hi' hj.2 (Ne.symm hj.1), zero_mul]
    rw [Function.iterate_succ_apply', Function.iterate_succ_apply', key, key, sub_self, abs_zero]
    positivity

/-- The solver call of the optimized system with at least one row. -/
theorem optCall_wp (sv : Solver ℝ) {mem : Store ℝ} {n : Nat}
    (h : SleIn 3 2 mem .ivJ .ivMinv .ivRight n) (hi : Inv 3 2 sysRestr mem)
    (hwl : sv.supportsLimits = true → (mem.mat .ivLimits).width = 2)
    (hhl : sv.supportsLimits = true → (mem.mat .ivLimits).height = n)
    (hlam : (mem.mat .ivLambda).height = n → (mem.mat .ivLambda).width = 1) (hn : 0 < n)
    {E : Err → Prop} (hE : sv.Easy n (sysMat 3 2 mem .ivJ .ivMinv)
      (fun i => (mem.mat .ivRight).ent i 0) (fun i => (mem.mat .ivLimits).ent i 0)
      (fun i => (mem.mat .ivLimits).ent i 1) ∨ ∀ e, E e) :
    Wp (optCall sv mem) (fun q => Inv 3 2 sysRestr q.1 ∧
      Frame (fun m => m = .ivLambda ∨ sv.Own m) sv.OwnS mem q.1 ∧
      (sv.Easy n (sysMat 3 2 mem .ivJ .ivMinv) (fun i => (mem.mat .ivRight).ent i 0)
        (fun i => (mem.mat .ivLimits).ent i 0) (fun i => (mem.mat .ivLimits).ent i 1) →
        q.2 = true) ∧
      (q.2 = true → (q.1.mat .ivLambda).width = 1 ∧ (q.1.mat .ivLambda).height = n ∧
        sv.Solved n (sysMat 3 2 mem .ivJ .ivMinv) (fun i => (mem.mat .ivRight).ent i 0)
          (fun i => (mem.mat .ivLimits).ent i 0) (fun i => (mem.mat .ivLimits).ent i 1)
          (fun i => (q.1.mat .ivLambda).ent i 0))) E := by
  have inv : ∀ {q}, optCall sv mem = .ok q → Inv 3 2 sysRestr q.1 := by
    intro q hq
    have := hi.solve_safe divOk_real sysRestr_ok sv .ivJ .ivMinv .ivRight (some .ivLambda) .ivLambda
    have h2 := hi.solveL_safe divOk_real sysRestr_ok sv .ivJ .ivMinv .ivRight .ivLimits .ivLambda
      (some .ivLambda)
    rw [optCall] at hq
    split at hq
    · rw [hq] at this; exact this
    · rw [hq] at h2; exact h2
  have frm : ∀ {q}, optCall sv mem = .ok q →
      Frame (fun m => m = .ivLambda ∨ sv.Own m) sv.OwnS mem q.1 := by
    intro q hq
    have := sv.fr_solve (s := mem) 3 2 .ivJ .ivMinv .ivRight (some .ivLambda) (some .ivLambda)
    have h2 := sv.fr_solveL (s := mem) 3 2 .ivJ .ivMinv .ivRight .ivLimits (some .ivLambda)
      (some .ivLambda)
    rw [optCall] at hq
    split at hq
    · rw [hq] at this
      exact Frame.mono this (fun _ q => q.imp (fun q => Option.some.inj q) id) (fun _ q => q)
    · rw [hq] at h2
      exact Frame.mono h2 (fun _ q => q.imp (fun q => Option.some.inj q) id) (fun _ q => q)
  cases sv with
  | gs m e =>
    have ec : optCall (.gs m e) mem = mem.gsSolveL 3 2 m e .ivJ .ivMinv .ivRight .ivLimits
      (some .ivLambda) (some .ivLambda) := rfl
    by_cases hM : ∀ i, i < n → sysMat 3 2 mem .ivJ .ivMinv i i ≠ 0
    · obtain ⟨s', c, y, x0, e1, _, _, _, w1, h1, en, _, it⟩ := Store.gsSolveL_spec
        (prev := some .ivLambda) (r := .ivLambda) (by decide) h
        (by decide) (hi.sfresh _) (hwl rfl) (hhl rfl) (by decide) (by decide) (by decide) (by decide)
        (by decide) (by decide) (fun p hp => by cases hp; exact hlam) hlam hM m e
      have fp : 0 < e → FirstPass (Settled n e) (sweepTo (rowSolveL n (sysMat 3 2 mem .ivJ .ivMinv)
          (fun i => (mem.mat .ivRight).ent i 0) (fun i => (mem.mat .ivLimits).ent i 0)
          (fun i => (mem.mat .ivLimits).ent i 1)) n) n m x0 c y := fun he =>
        it.firstPass rfl (fun x => settled_iff he) settled_local
          ((rowSolveL_local n _ _ _ _).sweep (Nat.le_refl n)) (fun _ _ => rfl)
      have e2 := ec.trans e1
      have i2 := inv e2
      have f2 := frm e2
      rw [e2, wp_ok]
      refine ⟨i2, f2, ?_, ?_⟩
      · rintro ⟨he, _, hd⟩
        obtain ⟨k, hk, hT⟩ := hd x0
        exact (fp he).success hk hT
      · intro hc
        have he : 0 < e := by
          obtain ⟨k, _, hk, _⟩ := it.1 hc
          exact (maxTo_lt.1 hk).1
        refine ⟨w1, h1, he, hM, x0, ?_⟩
        have := fp he
        rw [show c = true from hc] at this
        rcases this with ⟨q, k, h4, h5, h6, h7⟩ | ⟨q, _⟩
        · exact Or.inl ⟨q, k, h4, h5, h6, fun i hi => (en i hi).trans (h7 i hi)⟩
        · cases q
    · have hez : ∀ e', E e' := by
        rcases hE with ⟨_, hn1, _⟩ | hE
        · exact absurd hn1 hM
        · exact hE
      cases hq : optCall (.gs m e) mem with
      | error e' => exact hez e'
      | ok q =>
        have i2 := inv hq
        have f2 := frm hq
        have nt : q.2 = true → False := by
          intro hc
          apply hM
          intro i hi'
          refine Store.gsSolveL_diag (by decide) (r := .ivLambda) (prev := some .ivLambda)
            (limits := .ivLimits) (s' := q.1) (maxIter := m) (e := e) h (by decide) (hi.sfresh _)
            (by decide) (by decide) (fun p hp => by cases hp; exact hlam) hlam ?_ hi'
          rw [← ec, hq, ← hc]
        rw [wp_ok]
        refine ⟨i2, f2, ?_, fun hc => (nt hc).elim⟩
        rintro ⟨he, hn1, h0⟩
        exact absurd hn1 hM
  | ge =>
    have ec : optCall .ge mem = mem.geSolve 3 2 .ivJ .ivMinv .ivRight (some .ivLambda)
      (some .ivLambda) := rfl
    rcases Store.geSolve_spec (r := .ivLambda) (by decide) (some .ivLambda) h (by decide)
      (hi.sfresh _) (by decide) (by decide) (by decide) (by decide) hn with
      ⟨hr, s', y, e1, _, _, _, w1, h1, en, hs⟩ | ⟨hr, e1⟩
    · have e2 := ec.trans e1
      have i2 := inv e2
      have f2 := frm e2
      rw [e2, wp_ok]
      refine ⟨i2, f2, fun _ => rfl, fun _ => ⟨w1, h1, hr, fun i hi => ?_⟩⟩
      beta_reduce
      rw [← hs i hi]
      exact sum_congr rfl (fun j hj => by rw [en j (mem_range.mp hj)])
    · rw [ec.trans e1, wp_error]
      rcases hE with hE | hE
      · exact absurd hE hr
      · exact hE _
  | cg m e1 e2 =>
    have ec : optCall (.cg m e1 e2) mem = mem.cgSolve 3 2 m e1 e2 .ivJ .ivMinv .ivRight
      (some .ivLambda) (some .ivLambda) := rfl
    have hpl : CgPlain mem := ⟨hi.mplain (by decide), hi.mplain (by decide), hi.mplain (by decide)⟩
    have n1 : ¬ IsCg .ivMinv := by simp [IsCg]
    have n2 : ¬ IsCg .ivRight := by simp [IsCg]
    have n3 : ¬ IsCg .ivLambda := by simp [IsCg]
    have hp : ∀ p, some MId.ivLambda = some p →
        ((mem.mat p).height = n → (mem.mat p).width = 1) ∧ ¬ IsCg p := by
      intro p hp; cases hp; exact ⟨hlam, n3⟩
    have ne : (Solver.cg m e1 e2).Easy n (sysMat 3 2 mem .ivJ .ivMinv)
        (fun i => (mem.mat .ivRight).ent i 0) (fun i => (mem.mat .ivLimits).ent i 0)
        (fun i => (mem.mat .ivLimits).ent i 1) → ∃ s',
        optCall (.cg m e1 e2) mem = .ok (s', true) := fun he =>
      Store.cgSolve_posDef (r := .ivLambda) (by decide) h hpl n1 n2 n3 (by decide) hp e1 e2 he.1 he.2
    rcases Store.cgSolve_spec (r := .ivLambda) (by decide) h hpl n1 n2 n3 (by decide) hp m e1 e2 with
      q | ⟨s', c, y, q, _, _, _, w1, h1, hs⟩
    · rw [ec.trans q, wp_error]
      rcases hE with hE | hE
      · obtain ⟨s', e3⟩ := ne hE
        rw [ec.trans q] at e3; cases e3
      · exact hE _
    · have e3 := ec.trans q
      have i2 := inv e3
      have f2 := frm e3
      rw [e3, wp_ok]
      refine ⟨i2, f2, fun he => ?_, fun hc => ⟨w1, h1, ?_⟩⟩
      · obtain ⟨s2, e4⟩ := ne he
        rw [e3] at e4; cases e4; rfl
      · obtain ⟨hv, hs⟩ := hs hc
        intro i hi
        have := hs i hi
        beta_reduce at this ⊢
        rw [mulV_congr (fun _ _ _ _ => rfl) (fun j hj => hv.ent j hj) hi]
        exact this

/-- Without rows: the iteration succeeds if it may make one sweep, elimination always, the gradient
method unless the previous result is an empty matrix of width 0. -/
def Solver.Easy0 (sv : Solver ℝ) (lam : Mat ℝ) : Prop :=
  match sv with
  | .gs maxIter e => 0 < e ∧ 1 ≤ maxIter
  | .ge => lam.height = 0
  | .cg .. => lam.height = 0 → lam.width = 1

theorem gsSolveL_zero {mem : Store ℝ} (h : SleIn 3 2 mem .ivJ .ivMinv .ivRight 0)
    (hi : Inv 3 2 sysRestr mem) {m : Nat} {e : ℝ} (he : 0 < e) (hm : 1 ≤ m) :
    ∃ s', mem.gsSolveL 3 2 m e .ivJ .ivMinv .ivRight .ivLimits (some .ivLambda) (some .ivLambda) =
      .ok (s', true) ∧ (s'.mat .ivLambda).height = 0 := by
  have h1 : ∃ s1, (if (mem.mat .ivLambda).height ≠ 0 then mem.init0 .ivLambda 1 0 else pure mem) =
      .ok s1 ∧ Inv 3 2 sysRestr s1 ∧ Only .ivLambda mem s1 ∧ (s1.mat .ivLambda).height = 0 := by
    by_cases hn : (mem.mat .ivLambda).height = 0
    · exact ⟨mem, by rw [if_neg (by simpa using hn)]; rfl, hi, Only.refl _ _, hn⟩
    · obtain ⟨s1, e1, i1, o1, _, h1⟩ := hi.init0 .ivLambda 1 0
      exact ⟨s1, by rw [if_pos hn, e1], i1, o1, h1⟩
  obtain ⟨s1, e1, i1, o1, hh1⟩ := h1
  obtain ⟨s2, e2, w2⟩ := Store.setMatFrom_spec s1 .ivLambda .ivLambda (i1.mat _) (i1.mat _)
  have i2 := i1.wrote w2
  have o2 := o1.trans w2.only
  obtain ⟨s3, e3, _, f3, _⟩ := Store.formM_spec (st := 3) (en := 2) (by decide) i2.ok (J := .ivJ)
    (reg := .gsReg) (W := .ivMinv) (M := .gsM) (by rw [o2.smat]; exact h.inRange) (by decide)
    (i2.sfresh _) (by rw [o2.mat _ (by decide)]; exact h.wW)
    (by rw [o2.mat _ (by decide), o2.smat]; exact h.hW)
  have hh3 : (s3.mat .ivLambda).height = 0 := by
    rw [f3.mat _ (by decide), w2.height, hh1]
  have el : gsLoop (fun s => s.gsIterationL .gsM .ivRight .ivLimits .ivLambda .ivLambda) e m s3 =
      .ok (s3, true) := by
    obtain ⟨m, rfl⟩ : ∃ k, m = k + 1 := ⟨m - 1, by omega⟩
    rw [gsLoop, Store.gsIterationL, hh3]
    show (Except.ok ((s3, 0) : Store ℝ × ℝ) >>= _) = _
    rw [ok_bind, if_pos (by simpa [fp_gt] using he)]
    rfl
  refine ⟨s3, ?_, hh3⟩
  rw [Store.gsSolveL]
  simp only [deref, ok_bind, h.hB]
  by_cases hn : (mem.mat .ivLambda).height = 0
  · rw [if_neg (by simpa using hn)] at e1 ⊢
    rw [e1, ok_bind, Store.warmStart, if_pos hh1, e2, ok_bind, e3, ok_bind, el]
  · rw [if_pos hn] at e1 ⊢
    rw [e1, ok_bind, Store.warmStart, if_pos hh1, e2, ok_bind, e3, ok_bind, el]

theorem geSolve_zero {mem : Store ℝ} (h : SleIn 3 2 mem .ivJ .ivMinv .ivRight 0)
    (hi : Inv 3 2 sysRestr mem) :
    ∃ s', mem.geSolve 3 2 .ivJ .ivMinv .ivRight (some .ivLambda) (some .ivLambda) =
      .ok (s', true) ∧ s'.mat .ivLambda = mem.mat .ivLambda := by
  obtain ⟨s1, e1, ok1, f1, fr1, _, wM, hhM, eM⟩ := Store.formM_spec (st := 3) (en := 2)
    (by decide) hi.ok (J := .ivJ) (reg := .geReg) (W := .ivMinv) (M := .geM) h.inRange (by decide)
    (hi.sfresh _) h.wW h.hW
  rw [h.rows] at wM hhM
  have hB1 : s1.mat .ivRight = mem.mat .ivRight := f1.mat _ (by decide)
  refine ⟨s1, ?_, f1.mat _ (by decide)⟩
  rw [Store.geSolve, e1, ok_bind]
  simp only []
  rw [wM, hhM, hB1, h.hB, chk_true _ rfl, ok_bind, if_pos rfl]
  rfl

/-- What is necessary for success without rows, for elimination and the gradient method. -/
def Solver.Need0 (sv : Solver ℝ) (lam : Mat ℝ) : Prop :=
  match sv with
  | .gs .. => True
  | .ge => lam.height = 0
  | .cg .. => lam.height = 0 → lam.width = 1

/-- The gradient method without rows fails when the previous result is an empty matrix whose width
is not 1. -/
theorem cgSolve_empty {mem : Store ℝ} (h : SleIn 3 2 mem .ivJ .ivMinv .ivRight 0)
    (hi : Inv 3 2 sysRestr mem) (hh : (mem.mat .ivLambda).height = 0)
    (hw : (mem.mat .ivLambda).width ≠ 1) (m : Nat) (e1 e2 : ℝ) :
    ∃ e, mem.cgSolve 3 2 m e1 e2 .ivJ .ivMinv .ivRight (some .ivLambda) (some .ivLambda) =
      .error e := by
  obtain ⟨s1, q1, i1, o1, _⟩ := hi.resize .cgR 1 0
  obtain ⟨s2, q2, i2, o2, _⟩ := i1.resize .cgP 1 0
  obtain ⟨s3, q3, i3, o3, _⟩ := i2.resize .cgAp 1 0
  obtain ⟨s4, q4, i4, o4, _⟩ := i3.init0 .cgX 1 0
  have hl4 : s4.mat .ivLambda = mem.mat .ivLambda := by
    rw [o4.mat _ (by decide), o3.mat _ (by decide), o2.mat _ (by decide), o1.mat _ (by decide)]
  obtain ⟨s5, q5, w5⟩ := Store.setMatFrom_spec s4 .cgX .ivLambda (i4.mat _) (i4.mat _)
  have i5 := i4.wrote w5
  obtain ⟨s6, q6, i6, o6, _⟩ := i5.resize .ivLambda 1 0
  obtain ⟨s7, q7, w7⟩ := Store.setMatFrom_spec s6 .cgR .ivRight (i6.mat _) (i6.mat _)
  have i7 := i6.wrote w7
  obtain ⟨s8, q8, i8, o8, _⟩ := i7.resize .cgAp 1 (s7.mat .cgX).height
  have hx : (s8.mat .cgX).width ≠ 1 := by
    rw [o8.mat _ (by decide), w7.only.mat _ (by decide), o6.mat _ (by decide), w5.width, hl4]
    exact hw
  refine ⟨.assert "sparse_matrix.h:173", ?_⟩
  rw [Store.cgSolve]
  simp only [h.hB]
  rw [q1, ok_bind, q2, ok_bind, q3, ok_bind, q4, ok_bind, Store.warmStart, if_pos (by rw [hl4, hh]),
    q5, ok_bind]
  simp only [deref, ok_bind]
  rw [q6, ok_bind, q7, ok_bind, Store.cgMultiply, q8, ok_bind, Store.transposeMultiplyVector,
    chk_false _ hx]
  rfl

/-- The solver call without rows. -/
theorem optCall_zero (sv : Solver ℝ) {mem : Store ℝ}
    (h : SleIn 3 2 mem .ivJ .ivMinv .ivRight 0) (hi : Inv 3 2 sysRestr mem)
    {E : Err → Prop} (hE : sv.Easy0 (mem.mat .ivLambda) ∨ ∀ e, E e) :
    Wp (optCall sv mem) (fun q => Inv 3 2 sysRestr q.1 ∧
      Frame (fun m => m = .ivLambda ∨ sv.Own m) sv.OwnS mem q.1 ∧
      (sv.Easy0 (mem.mat .ivLambda) → q.2 = true ∧ (q.1.mat .ivLambda).height = 0 ∧
        sv.Easy0 (q.1.mat .ivLambda)) ∧
      ((q.1.mat .ivLambda).height = 0 → sv.Need0 (mem.mat .ivLambda))) E := by
  have inv : ∀ {q}, optCall sv mem = .ok q → Inv 3 2 sysRestr q.1 := by
    intro q hq
    have := hi.solve_safe divOk_real sysRestr_ok sv .ivJ .ivMinv .ivRight (some .ivLambda) .ivLambda
    have h2 := hi.solveL_safe divOk_real sysRestr_ok sv .ivJ .ivMinv .ivRight .ivLimits .ivLambda
      (some .ivLambda)
    rw [optCall] at hq
    split at hq
    · rw [hq] at this; exact this
    · rw [hq] at h2; exact h2
  have frm : ∀ {q}, optCall sv mem = .ok q →
      Frame (fun m => m = .ivLambda ∨ sv.Own m) sv.OwnS mem q.1 := by
    intro q hq
    have := sv.fr_solve (s := mem) 3 2 .ivJ .ivMinv .ivRight (some .ivLambda) (some .ivLambda)
    have h2 := sv.fr_solveL (s := mem) 3 2 .ivJ .ivMinv .ivRight .ivLimits (some .ivLambda)
      (some .ivLambda)
    rw [optCall] at hq
    split at hq
    · rw [hq] at this
      exact Frame.mono this (fun _ q => q.imp (fun q => Option.some.inj q) id) (fun _ q => q)
    · rw [hq] at h2
      exact Frame.mono h2 (fun _ q => q.imp (fun q => Option.some.inj q) id) (fun _ q => q)
  have key : sv.Easy0 (mem.mat .ivLambda) → ∃ s', optCall sv mem = .ok (s', true) ∧
      (s'.mat .ivLambda).height = 0 ∧ sv.Easy0 (s'.mat .ivLambda) := by
    intro he
    cases sv with
    | gs m e =>
      obtain ⟨s', e1, e2⟩ := gsSolveL_zero h hi he.1 he.2
      exact ⟨s', e1, e2, he⟩
    | ge =>
      obtain ⟨s', e1, e2⟩ := geSolve_zero h hi
      exact ⟨s', e1, by rw [e2]; exact he, by rw [e2]; exact he⟩
    | cg m e1 e2 =>
      have hpl : CgPlain mem :=
        ⟨hi.mplain (by decide), hi.mplain (by decide), hi.mplain (by decide)⟩
      have n1 : ¬ IsCg .ivMinv := by simp [IsCg]
      have n2 : ¬ IsCg .ivRight := by simp [IsCg]
      have n3 : ¬ IsCg .ivLambda := by simp [IsCg]
      have hp : ∀ p, some MId.ivLambda = some p →
          ((mem.mat p).height = 0 → (mem.mat p).width = 1) ∧ ¬ IsCg p := by
        intro p hp; cases hp; exact ⟨he, n3⟩
      obtain ⟨s1, q1⟩ := Store.cgSolve_posDef (r := .ivLambda) (by decide) h hpl n1 n2 n3
        (by decide) hp (maxIter := m) e1 e2 ⟨fun _ _ q => absurd q (Nat.not_lt_zero _),
          fun _ ⟨_, q, _⟩ => absurd q (Nat.not_lt_zero _)⟩ (Nat.zero_le _)
      rcases Store.cgSolve_spec (r := .ivLambda) (by decide) h hpl n1 n2 n3 (by decide) hp m e1 e2
        with q | ⟨s', c, y, q, _, _, _, w1, h1, _⟩
      · rw [q] at q1; cases q1
      · rw [q] at q1
        cases q1
        exact ⟨s1, q, h1, fun _ => w1⟩
  cases hq : optCall sv mem with
  | error e' =>
    rcases hE with hE | hE
    · obtain ⟨s', e1, _⟩ := key hE
      rw [hq] at e1; cases e1
    · exact hE e'
  | ok q =>
    rw [wp_ok]
    refine ⟨inv hq, frm hq, fun he => ?_, fun h0 => ?_⟩
    · obtain ⟨s', e1, h1⟩ := key he
      rw [hq] at e1
      cases e1
      exact ⟨rfl, h1⟩
    · cases sv with
      | gs m e => trivial
      | ge =>
        obtain ⟨s', e1, e2⟩ := geSolve_zero h hi
        have e1 : optCall .ge mem = .ok (s', true) := e1
        rw [hq] at e1
        cases e1
        rw [e2] at h0
        exact h0
      | cg m e1 e2 =>
        intro hh
        by_contra hw
        obtain ⟨e', q'⟩ := cgSolve_empty h hi hh hw m e1 e2
        have q' : optCall (.cg m e1 e2) mem = .error e' := q'
        rw [hq] at q'
        cases q'

/-- How a successful call with `n` rows changes the matrix of the multipliers. -/
structure Solver.Kept (sv : Solver ℝ) (n : Nat) (l l' : Mat ℝ) : Prop where
  height : l'.height = n
  easy : n = 0 → sv.Easy0 l → sv.Easy0 l'
  need : n = 0 → sv.Need0 l

theorem Solver.Kept.trans {sv : Solver ℝ} {n : Nat} {l l' l'' : Mat ℝ} (h : sv.Kept n l l')
    (h' : sv.Kept n l' l'') : sv.Kept n l l'' :=
  ⟨h'.height, fun h0 e => h'.easy h0 (h.easy h0 e), h.need⟩

end Scs
