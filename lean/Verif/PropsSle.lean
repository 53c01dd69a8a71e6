import Verif.SleProps

/-!
# Properties C15-C25 and C62: the linear solvers

`Sys st en s J W right w n A D b` says what the arguments of a call contain: `J` expands to the
`n` x `w` matrix `A`, `W` is the column `D` and `right` the column `b`.  `gram w A D i j` is element
`(i, j)` of `J W J^T`, `jwjt w n A D` the same as a Mathlib matrix.  `SReach` are the states reachable
by any sequence of matrix calls, solver constructions and solver calls that succeeded.
-/

namespace Scs

open Finset

section
variable {st en : Nat} {s : Store ℝ} {J : SId} {W right r : MId} {prev : Option MId} {w n : Nat}
  {A : Nat → Nat → ℝ} {D b : Nat → ℝ}

/-! ## C15, C16: Gaussian elimination -/

/-- C15: a non-singular system is solved. The returned vector is the only solution. -/
theorem C15_solves (hst : 0 < st) (hs : SReach st en solverRestr s)
    (h : Sys st en s J W right w n A D b) (hn : 0 < n) (pr : r.Pub)
    (hdet : (jwjt w n A D).det ≠ 0) (prev : Option MId) :
    ∃ (s' : Store ℝ) (y : Nat → ℝ), Solver.ge.solve st en s J W right prev (some r) = .ok (s', true) ∧
      s'.Shows r 1 n (fun i _ => y i) ∧ Solves n (gram w A D) b y ∧
      ∀ z, Solves n (gram w A D) b z → ∀ i, i < n → z i = y i := by
  have ok := hs.okR.ok
  have hreg := (regular_iff_det w n A D).mpr hdet
  rcases Store.geSolve_spec hst prev (h.sleIn ok) (h.pubJ.ne id) (hs.okR.fresh _ (Or.inr rfl))
    (pr.ne id) (pr.ne id) (h.pubB.ne id) (h.pubB.ne id) hn with ⟨_, q⟩ | ⟨q, _⟩
  · obtain ⟨s', y, e, ok', _, _, w', h', en', sol⟩ := q
    have sol' : Solves n (gram w A D) b y := by
      intro i hi
      rw [← h.b_eq hi, ← sol i hi]
      exact sum_congr rfl (fun j hj => by rw [h.sysMat_eq hst ok hi (mem_range.mp hj)])
    refine ⟨s', y, e, Store.shows_of (ok'.mat r) w' h' (fun i k hi hk => ?_), sol',
      fun z hz i hi => hreg.unique hz sol' hi⟩
    obtain rfl : k = 0 := by omega
    exact en' i hi
  · exact absurd ((h.regular_iff hst ok).mpr hreg) q

/-- C15: a singular system stops at an assert. -/
theorem C15_singular_stops (hst : 0 < st) (hs : SReach st en solverRestr s)
    (h : Sys st en s J W right w n A D b) (pr : r.Pub)
    (hdet : (jwjt w n A D).det = 0) (prev : Option MId) :
    Asserts (Solver.ge.solve st en s J W right prev (some r)) := by
  have ok := hs.okR.ok
  have hn : 0 < n := by
    rcases Nat.eq_zero_or_pos n with rfl | hn
    · rw [Matrix.det_fin_zero] at hdet; exact absurd hdet one_ne_zero
    · exact hn
  rcases Store.geSolve_spec hst prev (h.sleIn ok) (h.pubJ.ne id) (hs.okR.fresh _ (Or.inr rfl))
    (pr.ne id) (pr.ne id) (h.pubB.ne id) (h.pubB.ne id) hn with ⟨q, _⟩ | ⟨_, q⟩
  · exact absurd ((regular_iff_det w n A D).mp ((h.regular_iff hst ok).mp q)) (not_not.mpr hdet)
  · exact ⟨_, q⟩

/-- C15: with zero rows the call returns true. The result vector is not touched, in particular it is
not resized to zero rows. -/
theorem C15_no_rows (hst : 0 < st) (hs : SReach st en solverRestr s)
    (h : Sys st en s J W right w 0 A D b) (prev res : Option MId) :
    ∃ s', Solver.ge.solve st en s J W right prev res = .ok (s', true) ∧
      ∀ m : MId, m.Pub → s'.mat m = s.mat m := by
  have ok := hs.okR.ok
  have hi := h.sleIn ok
  obtain ⟨s1, e1, ok1, f1, fr1, _, wM, hhM, eM⟩ := Store.formM_spec hst ok (J := J)
    (reg := .geReg) (W := W) (M := .geM) hi.inRange (h.pubJ.ne id) (hs.okR.fresh _ (Or.inr rfl))
    hi.wW hi.hW
  have e : Solver.ge.solve st en s J W right prev res = .ok (s1, true) := by
    simp only [Solver.solve, Store.geSolve]
    rw [e1, ok_bind, chk_true _ (by rw [f1.mat right (h.pubB.ne id), h.rhs.height, wM, hi.rows]),
      ok_bind, if_pos (by rw [hhM, hi.rows])]
    rfl
  exact ⟨s1, e, fun m hm => f1.mat m (hm.ne id)⟩

/-- C16: two calls for the same system, made in any two reachable states (different histories,
different uninitialised memory, different warm starts, different result objects), agree: both return
true and write the same vector, or both stop at an assert. -/
theorem C16_history_independent (hst : 0 < st) {s₁ s₂ : Store ℝ}
    (hs₁ : SReach st en solverRestr s₁) (hs₂ : SReach st en solverRestr s₂)
    {J₁ J₂ : SId} {W₁ W₂ right₁ right₂ r₁ r₂ : MId}
    (h₁ : Sys st en s₁ J₁ W₁ right₁ w n A D b) (h₂ : Sys st en s₂ J₂ W₂ right₂ w n A D b)
    (hn : 0 < n) (p₁ : r₁.Pub) (p₂ : r₂.Pub) (prev₁ prev₂ : Option MId) :
    (∃ (s₁' s₂' : Store ℝ) (y : Nat → ℝ),
      Solver.ge.solve st en s₁ J₁ W₁ right₁ prev₁ (some r₁) = .ok (s₁', true) ∧
      Solver.ge.solve st en s₂ J₂ W₂ right₂ prev₂ (some r₂) = .ok (s₂', true) ∧
      s₁'.Shows r₁ 1 n (fun i _ => y i) ∧ s₂'.Shows r₂ 1 n (fun i _ => y i)) ∨
    (Asserts (Solver.ge.solve st en s₁ J₁ W₁ right₁ prev₁ (some r₁)) ∧
      Asserts (Solver.ge.solve st en s₂ J₂ W₂ right₂ prev₂ (some r₂))) := by
  by_cases hdet : (jwjt w n A D).det = 0
  · exact Or.inr ⟨C15_singular_stops hst hs₁ h₁ p₁ hdet prev₁,
      C15_singular_stops hst hs₂ h₂ p₂ hdet prev₂⟩
  · obtain ⟨s₁', y, e₁, g₁, q₁, _⟩ := C15_solves hst hs₁ h₁ hn p₁ hdet prev₁
    obtain ⟨s₂', z, e₂, g₂, _, u₂⟩ := C15_solves hst hs₂ h₂ hn p₂ hdet prev₂
    exact Or.inl ⟨s₁', s₂', y, e₁, e₂, g₁, g₂.congr (fun i _ hi _ => (u₂ y q₁ i hi).symm)⟩

/-! ## C17, C18: Gauss-Seidel without limits -/

/-- C17, what holds: the outcome is `true` exactly when some sweep within the limit satisfied
`|x'_i| < (1 + minDelta) * max(1/1000, x_i)` in every component, and the result is the vector after
the first such sweep. Missing: this test neither implies nor follows from a small relative change,
see `C17_success_not_converged` and `C17_exact_start_fails`. -/
theorem C17_success_partial (hst : 0 < st) (hs : SReach st en solverRestr s)
    (h : Sys st en s J W right w n A D b) (pr : r.Pub) (h2 : r ≠ right) (h4 : r ≠ W)
    (hp : ∀ p, prev = some p → (s.mat p).height = n → (s.mat p).width = 1)
    (hM : ∀ i, i < n → gram w A D i i ≠ 0) (maxIter : Nat) {e : ℝ} (he : 0 < e) :
    ∃ (s' : Store ℝ) (c : Bool) (y x0 : Nat → ℝ),
      (Solver.gs maxIter e).solve st en s J W right prev (some r) = .ok (s', c) ∧
      s'.Shows r 1 n (fun i _ => y i) ∧
      (∀ X, StartsAtU s prev r n X → ∀ i, i < n → x0 i = X i) ∧
      FirstPass (Passed n e) (sweepTo (rowSolve n (gram w A D) b) n) n maxIter x0 c y :=
  gs_run hst hs h pr h2 h4 hp hM maxIter he

/-- C17, what holds: started from an exact solution without negative component, the first sweep
succeeds and the solution is returned. Missing: solutions with a negative component. -/
theorem C17_exact_start_partial (hst : 0 < st) (hs : SReach st en solverRestr s)
    (h : Sys st en s J W right w n A D b) (pr : r.Pub) (h2 : r ≠ right) (h4 : r ≠ W)
    (hp : ∀ p, prev = some p → (s.mat p).height = n → (s.mat p).width = 1)
    (hM : ∀ i, i < n → gram w A D i i ≠ 0) {maxIter : Nat} (hmax : 0 < maxIter) {e : ℝ} (he : 0 < e)
    {X : Nat → ℝ} (hX : StartsAtU s prev r n X) (hsol : Solves n (gram w A D) b X)
    (hpos : ∀ i, i < n → 0 ≤ X i) :
    ∃ s', (Solver.gs maxIter e).solve st en s J W right prev (some r) = .ok (s', true) ∧
      s'.Shows r 1 n (fun i _ => X i) := by
  obtain ⟨s', c, y, x0, e1, g, hx0, hf⟩ := gs_run hst hs h pr h2 h4 hp hM maxIter he
  have hx0 := hx0 X hX
  have hl := (rowSolve_local n (gram w A D) b).sweep (Nat.le_refl n)
  have hfix : ∀ i, i < n → sweepTo (rowSolve n (gram w A D) b) n x0 i = x0 i := by
    intro i hi
    rw [hl x0 X hx0 i hi, hx0 i hi]
    exact sweepTo_fixed.mpr (fun i hi => (rowSolve_eq_iff hi (hM i hi)).mpr (hsol i hi)) i hi
  have hT : Passed n e x0 (sweepTo (rowSolve n (gram w A D) b) n x0) := by
    intro i hi
    rw [hfix i hi, hx0 i hi, abs_of_nonneg (hpos i hi)]
    have hm : X i ≤ max (1 / 1000) (X i) := le_max_right _ _
    have hm' : (0 : ℝ) < max (1 / 1000) (X i) := lt_of_lt_of_le (by norm_num) (le_max_left _ _)
    nlinarith
  rcases hf with ⟨rfl, k, hk, _, hb, hy⟩ | ⟨_, hb, _⟩
  · have hk0 : k = 0 := by
      by_contra h0
      exact hb 0 (Nat.pos_of_ne_zero h0) hT
    subst hk0
    refine ⟨s', e1, g.congr (fun i _ hi _ => ?_)⟩
    rw [hy i hi, Function.iterate_one, hfix i hi, hx0 i hi]
  · exact absurd hT (hb 0 hmax)

/-- C18: one sweep started from `x` returns `x` exactly when `x` solves the system. -/
theorem C18_fixed_iff_solution (hst : 0 < st) (hs : SReach st en solverRestr s)
    (h : Sys st en s J W right w n A D b) (pr : r.Pub) (h2 : r ≠ right) (h4 : r ≠ W) {p : MId}
    {X : Nat → ℝ} (hX : s.Shows p 1 n (fun i _ => X i))
    (hM : ∀ i, i < n → gram w A D i i ≠ 0) {e : ℝ} (he : 0 < e) :
    ∃ (s' : Store ℝ) (c : Bool) (y : Nat → ℝ),
      (Solver.gs 1 e).solve st en s J W right (some p) (some r) = .ok (s', c) ∧
      s'.Shows r 1 n (fun i _ => y i) ∧
      ((∀ i, i < n → y i = X i) ↔ Solves n (gram w A D) b X) := by
  obtain ⟨s', c, y, x0, e1, g, hx0, hf⟩ := gs_run (prev := some p) hst hs h pr h2 h4
    (fun q hq _ => by cases hq; exact hX.width) hM 1 he
  have hx0 := hx0 X (Or.inl ⟨p, rfl, hX⟩)
  have hl := (rowSolve_local n (gram w A D) b).sweep (Nat.le_refl n)
  have hy : ∀ i, i < n → y i = sweepTo (rowSolve n (gram w A D) b) n X i := by
    intro i hi
    rw [← hl x0 X hx0 i hi]
    rcases hf with ⟨_, k, hk, _, _, hy⟩ | ⟨_, _, hy⟩
    · obtain rfl : k = 0 := by omega
      exact hy i hi
    · exact hy i hi
  refine ⟨s', c, y, e1, g, ?_⟩
  have : (∀ i, i < n → y i = X i) ↔
      ∀ i, i < n → sweepTo (rowSolve n (gram w A D) b) n X i = X i :=
    forall_congr' (fun i => forall_congr' (fun hi => by rw [hy i hi]))
  rw [this, sweepTo_fixed]
  exact forall_congr' (fun i => forall_congr' (fun hi => rowSolve_eq_iff hi (hM i hi)))

/-! ## C19-C21: Gauss-Seidel with limits -/

variable {limits : MId} {lo hi : Nat → ℝ}

/-- C19: whatever the warm start and the outcome, every component of the result is within its
limits. -/
theorem C19_within_limits (hst : 0 < st) (hs : SReach st en solverRestr s)
    (h : Sys st en s J W right w n A D b)
    (hl : s.Shows limits 2 n (limGrid lo hi)) (pl : limits.Pub) (pr : r.Pub) (h2 : r ≠ right)
    (h3 : r ≠ limits) (h4 : r ≠ W)
    (hp : ∀ p, prev = some p → (s.mat p).height = n → (s.mat p).width = 1)
    (hr : (s.mat r).height = n → (s.mat r).width = 1)
    (hM : ∀ i, i < n → gram w A D i i ≠ 0) (hlim : ∀ i, i < n → lo i ≤ hi i)
    {maxIter : Nat} (hmax : 0 < maxIter) {e : ℝ} (he : 0 < e) :
    ∃ (s' : Store ℝ) (c : Bool) (y : Nat → ℝ),
      (Solver.gs maxIter e).solveL st en s J W right limits (some r) prev = .ok (s', c) ∧
      s'.Shows r 1 n (fun i _ => y i) ∧ ∀ i, i < n → lo i ≤ y i ∧ y i ≤ hi i := by
  obtain ⟨s', c, y, x0, e1, g, _, hf⟩ := gsL_run hst hs h hl pl pr h2 h3 h4 hp hr hM maxIter he
  refine ⟨s', c, y, e1, g, fun i hi' => ?_⟩
  rcases hf with ⟨_, k, _, _, _, hy⟩ | ⟨_, _, hy⟩
  · rw [hy i hi', Function.iterate_succ_apply']
    exact sweepL_mem _ hlim hi'
  · obtain ⟨m, rfl⟩ : ∃ m, maxIter = m + 1 := ⟨maxIter - 1, by omega⟩
    rw [hy i hi', Function.iterate_succ_apply']
    exact sweepL_mem _ hlim hi'

/-- C20: the call returns `true` exactly when one of the first `maxIter` sweeps changes every
component by a relative amount below `e`, and then the vector after the first such sweep; otherwise
`false` and the vector after `maxIter` sweeps. A sweep (`sweepTo (rowSolveL ..) n`) replaces the
components in order by the row's solution restricted to its limits. -/
theorem C20_settled (hst : 0 < st) (hs : SReach st en solverRestr s)
    (h : Sys st en s J W right w n A D b)
    (hl : s.Shows limits 2 n (limGrid lo hi)) (pl : limits.Pub) (pr : r.Pub) (h2 : r ≠ right)
    (h3 : r ≠ limits) (h4 : r ≠ W) (hr : (s.mat r).height = n → (s.mat r).width = 1)
    (hM : ∀ i, i < n → gram w A D i i ≠ 0) {X : Nat → ℝ} (hX : StartsAt s prev r n X)
    (maxIter : Nat) {e : ℝ} (he : 0 < e) :
    ∃ (s' : Store ℝ) (c : Bool) (y : Nat → ℝ),
      (Solver.gs maxIter e).solveL st en s J W right limits (some r) prev = .ok (s', c) ∧
      s'.Shows r 1 n (fun i _ => y i) ∧
      FirstPass (Settled n e) (sweepTo (rowSolveL n (gram w A D) b lo hi) n) n maxIter X c y := by
  obtain ⟨s', c, y, x0, e1, g, hx, hf⟩ := gsL_run hst hs h hl pl pr h2 h3 h4 hX.width hr hM maxIter he
  refine ⟨s', c, y, e1, g, ?_⟩
  have hloc := (rowSolveL_local n (gram w A D) b lo hi).sweep (Nat.le_refl n)
  have hit : ∀ k i, i < n → (sweepTo (rowSolveL n (gram w A D) b lo hi) n)^[k] x0 i =
      (sweepTo (rowSolveL n (gram w A D) b lo hi) n)^[k] X i :=
    fun k i hi => hloc.iterate k x0 X (hx X hX) i hi
  rcases hf with ⟨c1, k, h1, h2, h3, h4⟩ | ⟨c1, h1, h2⟩
  · exact Or.inl ⟨c1, k, h1, (settled_local _ _ _ _ (hit k) (hit (k + 1))).mp h2,
      fun l hl q => h3 l hl ((settled_local _ _ _ _ (hit l) (hit (l + 1))).mpr q),
      fun i hi => (h4 i hi).trans (hit _ i hi)⟩
  · exact Or.inr ⟨c1, fun k hk q => h1 k hk ((settled_local _ _ _ _ (hit k) (hit (k + 1))).mpr q),
      fun i hi => (h2 i hi).trans (hit _ i hi)⟩

/-- The vector satisfies the limits, and each row is satisfied, or too large with the component at
its minimum, or too small with the component at its maximum. -/
def Complementary (n : Nat) (M : Nat → Nat → ℝ) (b lo hi x : Nat → ℝ) : Prop :=
  ∀ i, i < n → lo i ≤ x i ∧ x i ≤ hi i ∧
    (∑ j ∈ range n, M i j * x j = b i ∨ (b i < ∑ j ∈ range n, M i j * x j ∧ x i = lo i) ∨
      (∑ j ∈ range n, M i j * x j < b i ∧ x i = hi i))

/-- C20: one limited sweep started from `x` returns `x` exactly when `x` is complementary. -/
theorem C20_fixed_iff_complementary (hst : 0 < st) (hs : SReach st en solverRestr s)
    (h : Sys st en s J W right w n A D b)
    (hl : s.Shows limits 2 n (limGrid lo hi)) (pl : limits.Pub) (pr : r.Pub) (h2 : r ≠ right)
    (h3 : r ≠ limits) (h4 : r ≠ W) (hr : (s.mat r).height = n → (s.mat r).width = 1)
    (hM : ∀ i, i < n → 0 < gram w A D i i) (hlim : ∀ i, i < n → lo i ≤ hi i) {p : MId} {X : Nat → ℝ}
    (hX : s.Shows p 1 n (fun i _ => X i)) {e : ℝ} (he : 0 < e) :
    ∃ (s' : Store ℝ) (c : Bool) (y : Nat → ℝ),
      (Solver.gs 1 e).solveL st en s J W right limits (some r) (some p) = .ok (s', c) ∧
      s'.Shows r 1 n (fun i _ => y i) ∧
      ((∀ i, i < n → y i = X i) ↔ Complementary n (gram w A D) b lo hi X) := by
  obtain ⟨s', c, y, e1, g, hf⟩ := C20_settled (prev := some p) hst hs h hl pl pr h2 h3 h4 hr
    (fun i hi => (hM i hi).ne') (Or.inl ⟨p, rfl, hX⟩) 1 he
  have hy : ∀ i, i < n → y i = sweepTo (rowSolveL n (gram w A D) b lo hi) n X i := by
    intro i hi
    rcases hf with ⟨_, k, hk, _, _, hy⟩ | ⟨_, _, hy⟩
    · obtain rfl : k = 0 := by omega
      exact hy i hi
    · exact hy i hi
  refine ⟨s', c, y, e1, g, ?_⟩
  have : (∀ i, i < n → y i = X i) ↔
      ∀ i, i < n → sweepTo (rowSolveL n (gram w A D) b lo hi) n X i = X i :=
    forall_congr' (fun i => forall_congr' (fun hi => by rw [hy i hi]))
  rw [this, sweepTo_fixed]
  refine forall_congr' (fun i => forall_congr' (fun hi' => ?_))
  rw [rowSolveL, rowSolve_sub hi' (hM i hi').ne', clamp_fix_iff (hlim i hi')]
  have hpos := hM i hi'
  have hneg : (∑ j ∈ range n, gram w A D i j * X j - b i) / gram w A D i i < 0 ↔
      ∑ j ∈ range n, gram w A D i j * X j - b i < 0 := by rw [div_lt_iff₀ hpos, zero_mul]
  rw [div_eq_zero_iff, div_pos_iff_of_pos_right hpos, hneg, sub_eq_zero, sub_pos, sub_neg]
  simp only [hpos.ne', or_false]

/-- C21: the result has no more energy than the starting vector, if that was inside the limits. -/
theorem C21_energy (hst : 0 < st) (hs : SReach st en solverRestr s)
    (h : Sys st en s J W right w n A D b)
    (hl : s.Shows limits 2 n (limGrid lo hi)) (pl : limits.Pub) (pr : r.Pub) (h2 : r ≠ right)
    (h3 : r ≠ limits) (h4 : r ≠ W) (hr : (s.mat r).height = n → (s.mat r).width = 1)
    (hM : ∀ i, i < n → 0 < gram w A D i i) {X : Nat → ℝ} (hX : StartsAt s prev r n X)
    (hin : ∀ i, i < n → lo i ≤ X i ∧ X i ≤ hi i) (maxIter : Nat) {e : ℝ} (he : 0 < e) :
    ∃ (s' : Store ℝ) (c : Bool) (y : Nat → ℝ),
      (Solver.gs maxIter e).solveL st en s J W right limits (some r) prev = .ok (s', c) ∧
      s'.Shows r 1 n (fun i _ => y i) ∧
      (∑ i ∈ range n, ∑ j ∈ range n, y i * gram w A D i j * y j) / 2 - ∑ i ∈ range n, b i * y i ≤
        (∑ i ∈ range n, ∑ j ∈ range n, X i * gram w A D i j * X j) / 2 -
          ∑ i ∈ range n, b i * X i := by
  obtain ⟨s', c, y, e1, g, hf⟩ := C20_settled hst hs h hl pl pr h2 h3 h4 hr
    (fun i hi => (hM i hi).ne') hX maxIter he
  refine ⟨s', c, y, e1, g, ?_⟩
  have key : ∀ k, (∀ i, i < n → y i = (sweepTo (rowSolveL n (gram w A D) b lo hi) n)^[k] X i) →
      energyOf n (gram w A D) b y ≤ energyOf n (gram w A D) b X := by
    intro k hk
    rw [energyOf_congr hk]
    exact (energyOf_iterate (fun i j _ _ => gram_symm w A D i j) hM hin k).2
  rcases hf with ⟨_, k, _, _, _, hy⟩ | ⟨_, _, hy⟩
  · exact key _ hy
  · exact key _ hy

/-! ## C22, C23: conjugate gradient -/

/-- C22: success means a small residual in every row. -/
theorem C22_small_residual (hst : 0 < st) (hs : SReach st en solverRestr s)
    (h : Sys st en s J W right w n A D b) (pr : r.Pub) (h4 : r ≠ W)
    (hp : ∀ p, prev = some p → ((s.mat p).height = n → (s.mat p).width = 1) ∧ p.Pub)
    {maxIter : Nat} {maxError minError : ℝ} {s' : Store ℝ}
    (hrun : (Solver.cg maxIter maxError minError).solve st en s J W right prev (some r) =
      .ok (s', true)) :
    ∃ y : Nat → ℝ, s'.Shows r 1 n (fun i _ => y i) ∧
      ∀ i, i < n → |b i - ∑ j ∈ range n, gram w A D i j * y j| ≤ max |maxError * b i| minError := by
  have ok := hs.okR.ok
  have hpl : CgPlain s := ⟨hs.okR.plain _ (Or.inl rfl), hs.okR.plain _ (Or.inr (Or.inl rfl)),
    hs.okR.plain _ (Or.inr (Or.inr rfl))⟩
  rcases Store.cgSolve_spec hst (h.sleIn ok) hpl h.pubW.notCg h.pubB.notCg pr.notCg h4
    (fun p hpp => ⟨(hp p hpp).1, (hp p hpp).2.notCg⟩) maxIter maxError minError with q | q
  · rw [Solver.solve, q] at hrun; cases hrun
  · obtain ⟨s1, c, y, e1, ok1, _, _, _, _, hc⟩ := q
    rw [Solver.solve, e1] at hrun
    cases hrun
    obtain ⟨hv, hsm⟩ := hc rfl
    refine ⟨y, Store.shows_of (ok1.mat r) hv.width hv.height (fun i k hi hk => ?_), fun i hi => ?_⟩
    · obtain rfl : k = 0 := by omega
      exact hv.ent i hi
    · have := hsm i hi
      simp only [] at this
      rw [h.b_eq hi, mulV, sum_congr rfl (fun j hj => by
        rw [h.sysMat_eq hst ok hi (mem_range.mp hj)])] at this
      exact this

/-- C23: a positive definite system with `n` rows is solved within `n` iterations. -/
theorem C23_succeeds (hst : 0 < st) (hs : SReach st en solverRestr s)
    (h : Sys st en s J W right w n A D b) (pr : r.Pub) (h4 : r ≠ W)
    (hp : ∀ p, prev = some p → ((s.mat p).height = n → (s.mat p).width = 1) ∧ p.Pub)
    {maxIter : Nat} (hmax : n ≤ maxIter) (maxError minError : ℝ)
    (hpos : ∀ v : Nat → ℝ, (∃ i, i < n ∧ v i ≠ 0) →
      0 < ∑ i ∈ range n, ∑ j ∈ range n, v i * gram w A D i j * v j) :
    ∃ s', (Solver.cg maxIter maxError minError).solve st en s J W right prev (some r) =
      .ok (s', true) := by
  have ok := hs.okR.ok
  have hpl : CgPlain s := ⟨hs.okR.plain _ (Or.inl rfl), hs.okR.plain _ (Or.inr (Or.inl rfl)),
    hs.okR.plain _ (Or.inr (Or.inr rfl))⟩
  refine Store.cgSolve_posDef hst (h.sleIn ok) hpl h.pubW.notCg h.pubB.notCg pr.notCg h4
    (fun p hpp => ⟨(hp p hpp).1, (hp p hpp).2.notCg⟩) maxError minError ⟨fun i j hi hj => ?_,
      fun v hv => ?_⟩ hmax
  · rw [h.sysMat_eq hst ok hi hj, h.sysMat_eq hst ok hj hi, gram_symm]
  · have := hpos v hv
    rw [sum_congr rfl (fun i hi => sum_congr rfl (fun j hj => by
      rw [← h.sysMat_eq hst ok (mem_range.mp hi) (mem_range.mp hj)]))] at this
    exact this

/-- C23 for constraint systems: positive inverse masses and linearly independent rows. -/
theorem C23_independent_rows (hst : 0 < st) (hs : SReach st en solverRestr s)
    (h : Sys st en s J W right w n A D b) (pr : r.Pub) (h4 : r ≠ W)
    (hp : ∀ p, prev = some p → ((s.mat p).height = n → (s.mat p).width = 1) ∧ p.Pub)
    {maxIter : Nat} (hmax : n ≤ maxIter) (maxError minError : ℝ) (hD : ∀ c, c < w → 0 < D c)
    (hA : LinearIndependent ℝ (fun (i : Fin n) (c : Fin w) => A i c)) :
    ∃ s', (Solver.cg maxIter maxError minError).solve st en s J W right prev (some r) =
      .ok (s', true) := by
  refine C23_succeeds hst hs h pr h4 hp hmax maxError minError (gram_posDef hD (fun x hx i hi => ?_)).pos
  rw [Fintype.linearIndependent_iff] at hA
  refine hA (fun i => x i) ?_ ⟨i, hi⟩
  funext c
  rw [Finset.sum_apply, Pi.zero_apply, ← hx c c.2,
    ← Fin.sum_univ_eq_sum_range (fun i => x i * A i c)]
  rfl

/-! ## C24, C25, C62: arguments -/

end

section
variable {α : Type} [Zero α] [Add α] [Mul α] [Sub α] [Neg α] [Fp α]

/-- C24, what holds: the argument the header declares as `previous` (the 5th) is the only matrix a
caller can see that `solve` may write. Missing: it should be the 4th, see
`C24_header_result_not_written`. -/
theorem C24_written_argument_partial (st en : Nat) (s : Store α) (sv : Solver α) (J : SId)
    (W right : MId) (arg4 arg5 : Option MId) {s' : Store α} {c : Bool}
    (hrun : sv.solve st en s J W right arg4 arg5 = .ok (s', c)) :
    (∀ m : MId, m.Pub → arg5 ≠ some m → s'.mat m = s.mat m) ∧
    (∀ m : SId, m.Pub → s'.smat m = s.smat m) := by
  have f := (Solver.fr_solve st en sv J W right arg4 arg5 (s := s)).of_eq hrun
  refine ⟨fun m hm hne => f.mat m ?_, fun m hm => f.smat m ?_⟩
  · rintro (q | q)
    · exact hne q.symm
    · cases sv with
      | gs => subst q; exact hm
      | ge => rcases q with rfl | rfl <;> exact hm
      | cg => rcases q with rfl | rfl | rfl | rfl | rfl | rfl <;> exact hm
  · intro q
    cases sv with
    | gs => subst q; exact hm
    | ge => subst q; exact hm
    | cg => exact q

/-- C25: `solve` leaves `J`, `W` and `right` unchanged in every respect (unless the caller passes one
of them as the result), whatever it returns, for every arithmetic. -/
theorem C25_solve_inputs (st en : Nat) (s : Store α) (sv : Solver α) {J : SId} {W right : MId}
    (arg4 arg5 : Option MId) {s' : Store α} {c : Bool} (pJ : J.Pub) (pW : W.Pub) (pB : right.Pub)
    (hW : arg5 ≠ some W) (hB : arg5 ≠ some right)
    (hrun : sv.solve st en s J W right arg4 arg5 = .ok (s', c)) :
    s'.smat J = s.smat J ∧ s'.mat W = s.mat W ∧ s'.mat right = s.mat right := by
  obtain ⟨h1, h2⟩ := C24_written_argument_partial st en s sv J W right arg4 arg5 hrun
  exact ⟨h2 J pJ, h1 W pW hW, h1 right pB hB⟩

/-- C25: `solveWithLimits` leaves `J`, `W`, `right`, `limits` and `previous` unchanged. -/
theorem C25_solveWithLimits_inputs (st en : Nat) (s : Store α) (sv : Solver α) {J : SId}
    {W right limits : MId} (result previous : Option MId) {s' : Store α} {c : Bool} (pJ : J.Pub)
    (hrun : sv.solveL st en s J W right limits result previous = .ok (s', c)) :
    s'.smat J = s.smat J ∧ ∀ m : MId, m.Pub → result ≠ some m → s'.mat m = s.mat m := by
  have f := (Solver.fr_solveL st en sv J W right limits result previous (s := s)).of_eq hrun
  refine ⟨f.smat J ?_, fun m hm hne => f.mat m ?_⟩
  · intro q
    cases sv with
    | gs => subst q; exact pJ
    | ge => subst q; exact pJ
    | cg => exact q
  · rintro (q | q)
    · exact hne q.symm
    · cases sv with
      | gs => subst q; exact hm
      | ge => rcases q with rfl | rfl <;> exact hm
      | cg => rcases q with rfl | rfl | rfl | rfl | rfl | rfl <;> exact hm

/-- C62: every solver call with a result vector returns or stops at an assert (or, in exact
arithmetic, at a division by zero): no out-of-bounds access, no null or uninitialised pointer, no
endless loop. Any matrix may be passed for any argument, also the same one twice, with any sizes. -/
theorem C62_solve_safe (hd : DivOk α) {st en : Nat} {s : Store α}
    (hs : SReach st en solverRestr s) (sv : Solver α) (J : SId) (W right : MId) (prev : Option MId)
    (r : MId) :
    (∃ s' c, sv.solve st en s J W right prev (some r) = .ok (s', c) ∧
      SReach st en solverRestr s') ∨
    Asserts (sv.solve st en s J W right prev (some r)) ∨
    sv.solve st en s J W right prev (some r) = .error .divZero := by
  have hw := (hs.inv hd solverRestr_ok).solve_safe hd solverRestr_ok sv J W right prev r
  cases e : sv.solve st en s J W right prev (some r) with
  | ok q => exact Or.inl ⟨q.1, q.2, rfl, .solve sv J W right prev (some r) q.2 hs e⟩
  | error err =>
    rw [e] at hw
    rcases hw with q | q
    · cases err with
      | assert loc => exact Or.inr (Or.inl ⟨loc, rfl⟩)
      | _ => exact absurd q id
    · exact Or.inr (Or.inr (by rw [q]))

/-- C62 for `solveWithLimits`. -/
theorem C62_solveWithLimits_safe (hd : DivOk α) {st en : Nat} {s : Store α}
    (hs : SReach st en solverRestr s) (sv : Solver α) (J : SId) (W right limits : MId)
    (prev : Option MId) (r : MId) :
    (∃ s' c, sv.solveL st en s J W right limits (some r) prev = .ok (s', c) ∧
      SReach st en solverRestr s') ∨
    Asserts (sv.solveL st en s J W right limits (some r) prev) ∨
    sv.solveL st en s J W right limits (some r) prev = .error .divZero := by
  have hw := (hs.inv hd solverRestr_ok).solveL_safe hd solverRestr_ok sv J W right limits r prev
  cases e : sv.solveL st en s J W right limits (some r) prev with
  | ok q => exact Or.inl ⟨q.1, q.2, rfl, .solveL sv J W right limits (some r) prev q.2 hs e⟩
  | error err =>
    rw [e] at hw
    rcases hw with q | q
    · cases err with
      | assert loc => exact Or.inr (Or.inl ⟨loc, rfl⟩)
      | _ => exact absurd q id
    · exact Or.inr (Or.inr (by rw [q]))

end

/-! ## Refutations -/

/-- C17 fails: with the default settings, started from `(1000, 1000)` for the system
`[[2, 1], [1, 2]] x = 0`, the solver reports success after a single sweep. That sweep changed both
components by more than 10 percent, and the returned vector misses the first equation by 750. -/
theorem C17_success_not_converged : ∃ (s s' : Store ℝ) (y : Nat → ℝ),
    SReach 3 2 solverRestr s ∧
    Sys 3 2 s (.user 0) (.user 0) (.user 1) 3 2 demoA (fun _ => 1) (fun _ => 0) ∧
    s.Shows (.user 3) 1 2 (fun _ _ => 1000) ∧
    Solver.gsDefault.solve 3 2 s (.user 0) (.user 0) (.user 1) (some (.user 3)) (some (.user 4)) =
      .ok (s', true) ∧
    s'.Shows (.user 4) 1 2 (fun i _ => y i) ∧
    (∀ i, i < 2 → y i =
      sweepTo (rowSolve 2 (gram 3 demoA (fun _ => 1)) (fun _ => 0)) 2 (fun _ => 1000) i) ∧
    (∀ i, i < 2 → ¬ |y i - 1000| < 1 / 10 * max (1 / 1000) |1000|) ∧
    ∑ j ∈ range 2, gram 3 demoA (fun _ => 1) 0 j * y j = -750 := by
  obtain ⟨s, hs, h, _, hX, _⟩ := demo_sys 2 demoA (fun _ => 1) (fun _ => 0) (fun _ => 0)
    (fun _ => 0) (fun _ => 1000)
  have hlit : (Fp.lit (1 / 10) : ℝ) = 1 / 10 := by rw [fp_lit]; norm_num
  obtain ⟨s', c, y, x0, e1, g, hx0, hf⟩ := C17_success_partial (prev := some (.user 3))
    (r := .user 4) (by decide) hs h trivial (by decide) (by decide)
    (fun q hq _ => by cases hq; exact hX.width) (fun i hi => (demo_diag i hi).ne') 128
    (e := 1 / 10) (by norm_num)
  have hx0 := hx0 (fun _ => 1000) (Or.inl ⟨.user 3, rfl, hX⟩)
  have hl := (rowSolve_local 2 (gram 3 demoA (fun _ => 1)) (fun _ => 0)).sweep (Nat.le_refl 2)
  have hs0 : ∀ i, i < 2 → sweepTo (rowSolve 2 (gram 3 demoA (fun _ => 1)) (fun _ => 0)) 2 x0 i =
      sweepTo (rowSolve 2 (gram 3 demoA (fun _ => 1)) (fun _ => 0)) 2 (fun _ => 1000) i :=
    fun i hi => hl x0 _ hx0 i hi
  have hT : Passed 2 (1 / 10) x0
      (sweepTo (rowSolve 2 (gram 3 demoA (fun _ => 1)) (fun _ => 0)) 2 x0) := by
    intro i hi
    rw [hs0 i hi, hx0 i hi]
    interval_cases i
    · rw [demo_sweep0]; norm_num
    · rw [demo_sweep1]; norm_num
  rcases hf with ⟨rfl, k, hk, _, hb, hy⟩ | ⟨_, hb, _⟩
  · have hk0 : k = 0 := by
      by_contra h0
      exact hb 0 (Nat.pos_of_ne_zero h0) hT
    subst hk0
    have hy' : ∀ i, i < 2 → y i =
        sweepTo (rowSolve 2 (gram 3 demoA (fun _ => 1)) (fun _ => 0)) 2 (fun _ => 1000) i :=
      fun i hi => by rw [hy i hi, Function.iterate_one, hs0 i hi]
    have y0 : y 0 = -500 := by rw [hy' 0 (by decide), demo_sweep0]; norm_num
    have y1 : y 1 = 250 := by rw [hy' 1 (by decide), demo_sweep1]; norm_num
    refine ⟨s, s', y, hs, h, hX, ?_, g, hy', ?_, ?_⟩
    · rw [Solver.gsDefault, hlit]; exact e1
    · intro i hi
      interval_cases i
      · rw [y0]; norm_num
      · rw [y1]; norm_num
    · rw [sum_range_succ, sum_range_succ, sum_range_zero, demo_gram.1, demo_gram.2.1, y0, y1]
      norm_num
  · exact absurd hT (hb 0 (by decide))

/-- C17 fails in the other direction too: started from the exact solution `(-1, -1)` of
`[[2, 1], [1, 2]] x = (-3, -3)`, the solver reports failure, whatever the iteration limit. -/
theorem C17_exact_start_fails (maxIter : Nat) : ∃ (s s' : Store ℝ),
    SReach 3 2 solverRestr s ∧
    Sys 3 2 s (.user 0) (.user 0) (.user 1) 3 2 demoA (fun _ => 1) (fun _ => -3) ∧
    s.Shows (.user 3) 1 2 (fun _ _ => -1) ∧
    Solves 2 (gram 3 demoA (fun _ => 1)) (fun _ => -3) (fun _ => -1) ∧
    (Solver.gs maxIter (1 / 10)).solve 3 2 s (.user 0) (.user 0) (.user 1) (some (.user 3))
      (some (.user 4)) = .ok (s', false) := by
  obtain ⟨s, hs, h, _, hX, _⟩ := demo_sys 2 demoA (fun _ => 1) (fun _ => -3) (fun _ => 0)
    (fun _ => 0) (fun _ => -1)
  have hsol : Solves 2 (gram 3 demoA (fun _ => 1)) (fun _ => -3) (fun _ => -1) := by
    intro i hi
    obtain ⟨h1, h2, h3, h4⟩ := demo_gram
    rw [sum_range_succ, sum_range_succ, sum_range_zero]
    interval_cases i
    · rw [h1, h2]; norm_num
    · rw [h3, h4]; norm_num
  obtain ⟨s', c, y, x0, e1, g, hx0, hf⟩ := C17_success_partial (prev := some (.user 3))
    (r := .user 4) (by decide) hs h trivial (by decide) (by decide)
    (fun q hq _ => by cases hq; exact hX.width) (fun i hi => (demo_diag i hi).ne') maxIter
    (e := 1 / 10) (by norm_num)
  have hx0 := hx0 (fun _ => -1) (Or.inl ⟨.user 3, rfl, hX⟩)
  have hl := (rowSolve_local 2 (gram 3 demoA (fun _ => 1)) (fun _ => -3)).sweep (Nat.le_refl 2)
  have hfix : ∀ k i, i < 2 →
      (sweepTo (rowSolve 2 (gram 3 demoA (fun _ => 1)) (fun _ => -3)) 2)^[k] x0 i = -1 := by
    intro k
    induction k with
    | zero => exact hx0
    | succ k ih =>
      intro i hi
      rw [Function.iterate_succ_apply', hl _ (fun _ => -1) ih i hi]
      interval_cases i
      · rw [demo_sweep0]; norm_num
      · rw [demo_sweep1]; norm_num
  rcases hf with ⟨_, k, _, hp, _⟩ | ⟨rfl, _⟩
  · have := hp 0 (by decide)
    rw [hfix k 0 (by decide), hfix (k + 1) 0 (by decide)] at this
    norm_num at this
  · exact ⟨s, s', hs, h, hX, hsol, e1⟩

/-- C24 fails: with distinct objects the 4th argument (declared `result`) is left without rows, and
the 5th (declared `previous`) receives the solution `(-1, -1)`. -/
theorem C24_header_result_not_written : ∃ (s s' : Store ℝ),
    SReach 3 2 solverRestr s ∧
    Sys 3 2 s (.user 0) (.user 0) (.user 1) 3 2 demoA (fun _ => 1) (fun _ => -3) ∧
    Solver.ge.solve 3 2 s (.user 0) (.user 0) (.user 1) (some (.user 4)) (some (.user 3)) =
      .ok (s', true) ∧
    (s'.mat (.user 4)).height = 0 ∧ s'.Shows (.user 3) 1 2 (fun _ _ => -1) := by
  obtain ⟨s, hs, h, _, hX, h4⟩ := demo_sys 2 demoA (fun _ => 1) (fun _ => -3) (fun _ => 0)
    (fun _ => 0) (fun _ => 7)
  obtain ⟨s', y, e, g, _, hu⟩ := C15_solves (r := .user 3) (by decide) hs h (by decide) trivial
    ((regular_iff_det _ _ _ _).mp demo_posDef.regular) (some (.user 4))
  refine ⟨s, s', hs, h, e, ?_, g.congr (fun i _ hi _ => ?_)⟩
  · rw [(C24_written_argument_partial 3 2 s .ge _ _ _ _ _ e).1 (.user 4) trivial (by decide), h4]
  · refine (hu (fun _ => -1) ?_ i hi).symm
    intro i hi
    obtain ⟨h1, h2, h3, h4⟩ := demo_gram
    rw [sum_range_succ, sum_range_succ, sum_range_zero]
    interval_cases i
    · rw [h1, h2]; norm_num
    · rw [h3, h4]; norm_num

/-! ## The hypotheses can be met -/

/-- `C15_solves`, `C16_history_independent`: a reachable state with a non-singular system. -/
example : ∃ s : Store ℝ, SReach 3 2 solverRestr s ∧
    Sys 3 2 s (.user 0) (.user 0) (.user 1) 3 2 demoA (fun _ => 1) (fun _ => -3) ∧
    (jwjt 3 2 demoA (fun _ => 1)).det ≠ 0 := by
  obtain ⟨s, hs, h, _⟩ := demo_sys 2 demoA (fun _ => 1) (fun _ => -3) (fun _ => 0)
    (fun _ => 0) (fun _ => 7)
  exact ⟨s, hs, h, (regular_iff_det _ _ _ _).mp demo_posDef.regular⟩

/-- `C15_singular_stops`: the two rows are equal (a redundant constraint). -/
example : ∃ s : Store ℝ, SReach 3 2 solverRestr s ∧
    Sys 3 2 s (.user 0) (.user 0) (.user 1) 3 2 (fun _ _ => 1) (fun _ => 1) (fun _ => -3) ∧
    (jwjt 3 2 (fun _ _ => 1) (fun _ => 1)).det = 0 := by
  obtain ⟨s, hs, h, _⟩ := demo_sys 2 (fun _ _ => 1) (fun _ => 1) (fun _ => -3) (fun _ => 0)
    (fun _ => 0) (fun _ => 7)
  refine ⟨s, hs, h, ?_⟩
  rw [Matrix.det_fin_two, jwjt_apply, jwjt_apply, jwjt_apply, jwjt_apply]
  simp [gram]

/-- `C15_no_rows`: a system without constraints. -/
example : ∃ s : Store ℝ, SReach 3 2 solverRestr s ∧
    Sys 3 2 s (.user 0) (.user 0) (.user 1) 3 0 demoA (fun _ => 1) (fun _ => -3) ∧
    s.Shows (.user 3) 1 0 (fun _ _ => 0) := by
  obtain ⟨s, hs, h, _, h3, _⟩ := demo_sys 0 demoA (fun _ => 1) (fun _ => -3) (fun _ => 0)
    (fun _ => 0) (fun _ => 0)
  exact ⟨s, hs, h, h3⟩

/-- `C17`-`C21`: limits that the exact solution `(1, 1)` violates, a start inside them, positive
diagonal, a result vector that has never been used. -/
example : ∃ s : Store ℝ, SReach 3 2 solverRestr s ∧
    Sys 3 2 s (.user 0) (.user 0) (.user 1) 3 2 demoA (fun _ => 1) (fun _ => 3) ∧
    s.Shows (.user 2) 2 2 (limGrid (fun _ => -1) (fun _ => 1 / 2)) ∧
    StartsAt s (some (.user 3)) (.user 4) 2 (fun _ => 0) ∧
    ((s.mat (.user 4)).height = 2 → (s.mat (.user 4)).width = 1) ∧
    (∀ i, i < 2 → 0 < gram 3 demoA (fun _ => 1) i i) ∧
    Complementary 2 (gram 3 demoA (fun _ => 1)) (fun _ => 3) (fun _ => -1) (fun _ => 1 / 2)
      (fun _ => 1 / 2) := by
  obtain ⟨s, hs, h, hl, h3, h4⟩ := demo_sys 2 demoA (fun _ => 1) (fun _ => 3) (fun _ => -1)
    (fun _ => 1 / 2) (fun _ => 0)
  refine ⟨s, hs, h, hl, Or.inl ⟨.user 3, rfl, h3⟩, fun q => by omega, demo_diag, ?_⟩
  intro i hi
  obtain ⟨g1, g2, g3, g4⟩ := demo_gram
  refine ⟨by norm_num, le_refl _, Or.inr (Or.inr ⟨?_, rfl⟩)⟩
  rw [sum_range_succ, sum_range_succ, sum_range_zero]
  interval_cases i
  · rw [g1, g2]; norm_num
  · rw [g3, g4]; norm_num

/-- `C17_exact_start_partial`: a start at the non-negative exact solution `(1, 1)`. -/
example : ∃ s : Store ℝ, SReach 3 2 solverRestr s ∧
    Sys 3 2 s (.user 0) (.user 0) (.user 1) 3 2 demoA (fun _ => 1) (fun _ => 3) ∧
    StartsAtU s (some (.user 3)) (.user 4) 2 (fun _ => 1) ∧
    Solves 2 (gram 3 demoA (fun _ => 1)) (fun _ => 3) (fun _ => 1) := by
  obtain ⟨s, hs, h, hl, h3, h4⟩ := demo_sys 2 demoA (fun _ => 1) (fun _ => 3) (fun _ => -1)
    (fun _ => 1 / 2) (fun _ => 1)
  refine ⟨s, hs, h, Or.inl ⟨.user 3, rfl, h3⟩, fun i hi => ?_⟩
  obtain ⟨g1, g2, g3, g4⟩ := demo_gram
  rw [sum_range_succ, sum_range_succ, sum_range_zero]
  interval_cases i
  · rw [g1, g2]; norm_num
  · rw [g3, g4]; norm_num

/-- `C22_small_residual`, `C23_succeeds`: the default solver does succeed on the system above. -/
example : ∃ s s' : Store ℝ, SReach 3 2 solverRestr s ∧
    Sys 3 2 s (.user 0) (.user 0) (.user 1) 3 2 demoA (fun _ => 1) (fun _ => 3) ∧
    Solver.cgDefault.solve 3 2 s (.user 0) (.user 0) (.user 1) (some (.user 3)) (some (.user 4)) =
      .ok (s', true) := by
  obtain ⟨s, hs, h, hl, h3, h4⟩ := demo_sys 2 demoA (fun _ => 1) (fun _ => 3) (fun _ => -1)
    (fun _ => 1 / 2) (fun _ => 0)
  obtain ⟨s', e⟩ := C23_succeeds (r := .user 4) (prev := some (.user 3)) (by decide) hs h trivial
    (by decide) (fun p hp => by cases hp; exact ⟨fun _ => h3.width, trivial⟩) (maxIter := 1000)
    (by decide) (Fp.lit (1 / 100)) (Fp.lit (1 / 1000)) demo_posDef.pos
  exact ⟨s, s', hs, h, e⟩

/-- `C24_written_argument_partial`, `C25`, `C62`: that state, with the result passed as 4th and 5th
argument as the rigid body systems do; the arithmetic of the reals qualifies. -/
example : ∃ s : Store ℝ, DivOk ℝ ∧ SReach 3 2 solverRestr s ∧
    ∃ s' c, Solver.gsDefault.solve 3 2 s (.user 0) (.user 0) (.user 1) (some (.user 3))
      (some (.user 3)) = .ok (s', c) := by
  obtain ⟨s, hs, h, hl, h3, h4⟩ := demo_sys 2 demoA (fun _ => 1) (fun _ => 3) (fun _ => -1)
    (fun _ => 1 / 2) (fun _ => 1)
  obtain ⟨s', c, _, _, e, _⟩ := C17_success_partial (prev := some (.user 3)) (r := .user 3)
    (by decide) hs h trivial (by decide) (by decide)
    (fun q hq _ => by cases hq; exact h3.width) (fun i hi => (demo_diag i hi).ne') 128
    (e := Fp.lit (1 / 10)) (by rw [fp_lit]; norm_num)
  exact ⟨s, divOk_real, hs, s', c, e⟩

end Scs
