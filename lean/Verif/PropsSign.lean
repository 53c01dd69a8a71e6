import Verif.PropsSle

/-!
# C130: Gauss-Seidel without limits and negative solutions
-/

namespace Scs

open Finset

section
variable {st en : Nat} {s : Store ℝ} {J : SId} {W right r : MId} {prev : Option MId} {w n : Nat}
  {A : Nat → Nat → ℝ} {D b : Nat → ℝ}

theorem passed_here {e x : ℝ} (he : 0 < e) :
    |x| < (1 + e) * max (1 / 1000) x ↔ -((1 + e) / 1000) < x := by
  rcases le_total 0 x with h | h
  · rw [abs_of_nonneg h]
    have hm : x ≤ max (1 / 1000) x := le_max_right _ _
    have hm' : (0 : ℝ) < max (1 / 1000) x := lt_of_lt_of_le (by norm_num) (le_max_left _ _)
    refine ⟨fun _ => ?_, fun _ => by nlinarith⟩
    have : 0 < (1 + e) / 1000 := by positivity
    linarith
  · rw [abs_of_nonpos h, max_eq_left (by linarith)]
    constructor <;> intro h <;> linarith

/-- **C130**, exact start: started from an exact solution `X`, `solve` returns `X`, and it returns `true`
exactly when no component of `X` is `-(1 + minDelta) / 1000` or less, whatever the iteration limit, if it
is not zero. -/
theorem C130_from_solution (hst : 0 < st) (hs : SReach st en solverRestr s)
    (h : Sys st en s J W right w n A D b) (pr : r.Pub) (h2 : r ≠ right) (h4 : r ≠ W)
    (hp : ∀ p, prev = some p → (s.mat p).height = n → (s.mat p).width = 1)
    (hM : ∀ i, i < n → gram w A D i i ≠ 0) {maxIter : Nat} (hmax : 0 < maxIter) {e : ℝ} (he : 0 < e)
    {X : Nat → ℝ} (hX : StartsAtU s prev r n X) (hsol : Solves n (gram w A D) b X) :
    ∃ (s' : Store ℝ) (c : Bool),
      (Solver.gs maxIter e).solve st en s J W right prev (some r) = .ok (s', c) ∧
      s'.Shows r 1 n (fun i _ => X i) ∧ (c = true ↔ ∀ i, i < n → -((1 + e) / 1000) < X i) := by
  obtain ⟨s', c, y, x0, e1, g, hx0, hf⟩ := gs_run hst hs h pr h2 h4 hp hM maxIter he
  have hx0 := hx0 X hX
  have hl := (rowSolve_local n (gram w A D) b).sweep (Nat.le_refl n)
  have hfix : ∀ k i, i < n → (sweepTo (rowSolve n (gram w A D) b) n)^[k] x0 i = X i := by
    intro k
    induction k with
    | zero => exact hx0
    | succ k ih =>
      intro i hi
      rw [Function.iterate_succ_apply', hl _ X ih i hi]
      exact sweepTo_fixed.mpr (fun i hi => (rowSolve_eq_iff hi (hM i hi)).mpr (hsol i hi)) i hi
  have hT : ∀ k, Passed n e ((sweepTo (rowSolve n (gram w A D) b) n)^[k] x0)
      ((sweepTo (rowSolve n (gram w A D) b) n)^[k + 1] x0) ↔
      ∀ i, i < n → -((1 + e) / 1000) < X i := by
    intro k
    refine forall₂_congr fun i hi => ?_
    rw [hfix k i hi, hfix (k + 1) i hi]
    exact passed_here he
  rcases hf with ⟨rfl, k, _, hk, _, hy⟩ | ⟨rfl, hb, hy⟩
  · exact ⟨s', true, e1, g.congr (fun i _ hi _ => (hy i hi).trans (hfix _ i hi)),
      iff_of_true rfl ((hT k).mp hk)⟩
  · exact ⟨s', false, e1, g.congr (fun i _ hi _ => (hy i hi).trans (hfix _ i hi)),
      iff_of_false nofun fun q => hb 0 hmax ((hT 0).mpr q)⟩

/-- The claim applied to `[[2, 1], [1, 2]] x = -3 a`: from the solution `(-a, -a)` the default settings
report success exactly for `a < 11/10000`. -/
example (a : ℝ) : ∃ (s s' : Store ℝ) (c : Bool), SReach 3 2 solverRestr s ∧
    s.Shows (.user 3) 1 2 (fun _ _ => -a) ∧
    (Solver.gs 128 (1 / 10)).solve 3 2 s (.user 0) (.user 0) (.user 1) (some (.user 3))
      (some (.user 4)) = .ok (s', c) ∧ (c = true ↔ a < 11 / 10000) := by
  obtain ⟨s, hs, h, _, hX, _⟩ := demo_sys 2 demoA (fun _ => 1) (fun _ => -3 * a) (fun _ => 0)
    (fun _ => 0) (fun _ => -a)
  have hsol : Solves 2 (gram 3 demoA (fun _ => 1)) (fun _ => -3 * a) (fun _ => -a) := by
    intro i hi
    obtain ⟨h1, h2, h3, h4⟩ := demo_gram
    rw [sum_range_succ, sum_range_succ, sum_range_zero]
    interval_cases i
    · rw [h1, h2]; ring
    · rw [h3, h4]; ring
  obtain ⟨s', c, e1, _, hc⟩ := C130_from_solution (prev := some (.user 3)) (r := .user 4) (by decide) hs h
    trivial (by decide) (by decide) (fun q hq _ => by cases hq; exact hX.width)
    (fun i hi => (demo_diag i hi).ne') (maxIter := 128) (by decide) (e := 1 / 10) (by norm_num)
    (Or.inl ⟨.user 3, rfl, hX⟩) hsol
  refine ⟨s, s', c, hs, hX, e1, hc.trans ⟨fun q => ?_, fun q i _ => ?_⟩⟩
  · have := q 0 (by decide)
    norm_num at this
    linarith
  · norm_num
    linarith

/-- **C130**, one equation: whatever the start `X`, `solve` returns the exact solution `y`, and it returns
`true` exactly when `|y| < (1 + minDelta) max(1/1000, X)` or, with two or more iterations,
`y > -(1 + minDelta) / 1000`. So a negative solution of any size counts as found only if the vector it
starts from is positive and nearly as large. -/
theorem C130_one_equation (hst : 0 < st) (hs : SReach st en solverRestr s)
    (h : Sys st en s J W right w 1 A D b) (pr : r.Pub) (h2 : r ≠ right) (h4 : r ≠ W)
    (hp : ∀ p, prev = some p → (s.mat p).height = 1 → (s.mat p).width = 1)
    (hM : gram w A D 0 0 ≠ 0) {maxIter : Nat} (hmax : 0 < maxIter) {e : ℝ} (he : 0 < e)
    {X : Nat → ℝ} (hX : StartsAtU s prev r 1 X) :
    ∃ (s' : Store ℝ) (c : Bool) (y : ℝ),
      (Solver.gs maxIter e).solve st en s J W right prev (some r) = .ok (s', c) ∧
      s'.Shows r 1 1 (fun _ _ => y) ∧ gram w A D 0 0 * y = b 0 ∧
      (c = true ↔ |y| < (1 + e) * max (1 / 1000) (X 0) ∨ 1 < maxIter ∧ -((1 + e) / 1000) < y) := by
  have hM' : ∀ i, i < 1 → gram w A D i i ≠ 0 := fun i hi => by
    rw [Nat.lt_one_iff.mp hi]; exact hM
  obtain ⟨s', c, z, x0, e1, g, hx0, hf⟩ := gs_run hst hs h pr h2 h4 hp hM' maxIter he
  have hx0 := hx0 X hX 0 one_pos
  have hone : ∀ x, sweepTo (rowSolve 1 (gram w A D) b) 1 x 0 = b 0 / gram w A D 0 0 := by
    intro x
    show upd x 0 (rowSolve 1 (gram w A D) b x 0) 0 = _
    rw [upd_same]
    simp [rowSolve]
  set y := b 0 / gram w A D 0 0 with hyd
  have hfix : ∀ k, (sweepTo (rowSolve 1 (gram w A D) b) 1)^[k + 1] x0 0 = y := fun k => by
    rw [Function.iterate_succ_apply', hone]
  have hT0 : Passed 1 e ((sweepTo (rowSolve 1 (gram w A D) b) 1)^[0] x0)
      ((sweepTo (rowSolve 1 (gram w A D) b) 1)^[0 + 1] x0) ↔
      |y| < (1 + e) * max (1 / 1000) (X 0) := by
    refine ⟨fun q => ?_, fun q i hi => ?_⟩
    · have := q 0 one_pos
      rw [hfix 0] at this
      rwa [show (sweepTo (rowSolve 1 (gram w A D) b) 1)^[0] x0 0 = X 0 from hx0] at this
    · rw [Nat.lt_one_iff.mp hi, hfix 0,
        show (sweepTo (rowSolve 1 (gram w A D) b) 1)^[0] x0 0 = X 0 from hx0]
      exact q
  have hT : ∀ k, Passed 1 e ((sweepTo (rowSolve 1 (gram w A D) b) 1)^[k + 1] x0)
      ((sweepTo (rowSolve 1 (gram w A D) b) 1)^[k + 1 + 1] x0) ↔ -((1 + e) / 1000) < y := by
    intro k
    refine ⟨fun q => ?_, fun q i hi => ?_⟩
    · have := q 0 one_pos
      rw [hfix k, hfix (k + 1)] at this
      exact (passed_here he).mp this
    · rw [Nat.lt_one_iff.mp hi, hfix k, hfix (k + 1)]
      exact (passed_here he).mpr q
  have hsol : gram w A D 0 0 * y = b 0 := mul_div_cancel₀ _ hM
  rcases hf with ⟨rfl, k, hk, hk', _, hy⟩ | ⟨rfl, hb, hy⟩
  · refine ⟨s', true, y, e1, g.congr (fun i _ hi _ => ?_), hsol, iff_of_true rfl ?_⟩
    · rw [Nat.lt_one_iff.mp hi, hy 0 one_pos, hfix k]
    · cases k with
      | zero => exact Or.inl (hT0.mp hk')
      | succ k => exact Or.inr ⟨by omega, (hT k).mp hk'⟩
  · refine ⟨s', false, y, e1, g.congr (fun i _ hi _ => ?_), hsol, iff_of_false nofun ?_⟩
    · obtain ⟨k, rfl⟩ : ∃ k, maxIter = k + 1 := ⟨maxIter - 1, by omega⟩
      rw [Nat.lt_one_iff.mp hi, hy 0 one_pos, hfix k]
    · rintro (q | ⟨q1, q2⟩)
      · exact hb 0 hmax (hT0.mpr q)
      · exact hb 1 q1 ((hT 0).mpr q2)

/-- The claim applied to `2 x = -2` from the start `0`: the exact solution `-1` is returned, but never
with success, whatever the iteration limit. -/
example (k : Nat) : ∃ s s' : Store ℝ, SReach 3 2 solverRestr s ∧
    s.Shows (.user 3) 1 1 (fun _ _ => 0) ∧
    (Solver.gs (k + 1) (1 / 10)).solve 3 2 s (.user 0) (.user 0) (.user 1) (some (.user 3))
      (some (.user 4)) = .ok (s', false) ∧ s'.Shows (.user 4) 1 1 (fun _ _ => -1) := by
  obtain ⟨s, hs, h, _, hX, _⟩ := demo_sys 1 demoA (fun _ => 1) (fun _ => -2) (fun _ => 0)
    (fun _ => 0) (fun _ => 0)
  obtain ⟨s', c, y, e1, g, hy, hc⟩ := C130_one_equation (prev := some (.user 3)) (r := .user 4)
    (by decide) hs h trivial (by decide) (by decide) (fun q hq _ => by cases hq; exact hX.width)
    (demo_diag 0 (by decide)).ne' (maxIter := k + 1) (by omega) (e := 1 / 10) (by norm_num)
    (Or.inl ⟨.user 3, rfl, hX⟩)
  rw [demo_gram.1] at hy
  have hy : y = -1 := by linarith
  subst hy
  have : c = false := by
    cases c with
    | false => rfl
    | true =>
      have := hc.mp rfl
      norm_num at this
  subst this
  exact ⟨s, s', hs, hX, e1, g⟩

end

end Scs
