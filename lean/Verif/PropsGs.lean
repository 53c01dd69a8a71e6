import Verif.PropsSle
import Verif.GsConverge
import Mathlib.Topology.Order.Compact
import Mathlib.Topology.Algebra.Order.LiminfLimsup
import Mathlib.Topology.Instances.Real.Lemmas

/-!
# Properties C82 and C83: the limited Gauss-Seidel solver converges

See `PropsSle.lean` for the notions used.
-/

namespace Scs

open Finset

section
variable {st en : Nat} {s : Store ℝ} {J : SId} {W right r limits : MId} {prev : Option MId} {w n : Nat}
  {A : Nat → Nat → ℝ} {D b lo hi : Nat → ℝ}

/-- **C82** with a number: `maxIter` iterations suffice as soon as `maxIter - 1` times
`d (e / 1000)^2 / 2` exceeds twice a bound of the energy inside the limits, where `d > 0` is a lower bound
of the diagonal entries of `J W J^T` and `e` the tolerance. -/
theorem C82_enough (hst : 0 < st) (hs : SReach st en solverRestr s)
    (h : Sys st en s J W right w n A D b)
    (hl : s.Shows limits 2 n (limGrid lo hi)) (pl : limits.Pub) (pr : r.Pub) (h2 : r ≠ right)
    (h3 : r ≠ limits) (h4 : r ≠ W)
    (hp : ∀ p, prev = some p → (s.mat p).height = n → (s.mat p).width = 1)
    (hr : (s.mat r).height = n → (s.mat r).width = 1) {d : ℝ} (hd : 0 < d)
    (hM : ∀ i, i < n → d ≤ gram w A D i i) (hlim : ∀ i, i < n → lo i ≤ hi i) {e : ℝ} (he : 0 < e)
    {maxIter : Nat} (hmax : 2 * ((∑ i ∈ range n, ∑ j ∈ range n,
        max |lo i| |hi i| * |gram w A D i j| * max |lo j| |hi j|) / 2 +
      ∑ i ∈ range n, |b i| * max |lo i| |hi i|) < ((maxIter - 1 : Nat) : ℝ) * (d * (e / 1000) ^ 2 / 2)) :
    ∃ (s' : Store ℝ) (y : Nat → ℝ),
      (Solver.gs maxIter e).solveL st en s J W right limits (some r) prev = .ok (s', true) ∧
      s'.Shows r 1 n (fun i _ => y i) := by
  obtain ⟨s', c, y, x0, e1, g, _, hf⟩ := gsL_run hst hs h hl pl pr h2 h3 h4 hp hr
    (fun i hi' => (lt_of_lt_of_le hd (hM i hi')).ne') maxIter he
  obtain ⟨k, hk, hT⟩ := settles_any (M := gram w A D) (b := b)
    (fun i j _ _ => gram_symm w A D i j) hd he hM hlim x0 hmax
  have hpos : 0 < maxIter := by
    by_contra h0
    obtain rfl : maxIter = 0 := by omega
    have : (0 : ℝ) ≤ boxBound n (gram w A D) b lo hi := by
      have h1 : ∀ i, 0 ≤ max |lo i| |hi i| := fun i => le_max_of_le_left (abs_nonneg _)
      refine add_nonneg (div_nonneg (sum_nonneg fun i _ => sum_nonneg fun j _ => ?_) zero_le_two)
        (sum_nonneg fun i _ => mul_nonneg (abs_nonneg _) (h1 i))
      exact mul_nonneg (mul_nonneg (h1 i) (abs_nonneg _)) (h1 j)
    rw [boxBound] at this
    simp only [Nat.zero_sub, Nat.cast_zero, zero_mul] at hmax
    linarith
  obtain rfl := hf.success (show k < maxIter by omega) hT
  exact ⟨s', y, e1, g⟩

/-- **C82**: for every system with limits and every tolerance there is a number of iterations with
which every call succeeds, in every reachable state and from every warm start. -/
theorem C82_succeeds (hM : ∀ i, i < n → 0 < gram w A D i i) (hlim : ∀ i, i < n → lo i ≤ hi i)
    {e : ℝ} (he : 0 < e) :
    ∃ N : Nat, ∀ {st en : Nat} {s : Store ℝ} {J : SId} {W right r limits : MId} {prev : Option MId},
      0 < st → SReach st en solverRestr s → Sys st en s J W right w n A D b →
      s.Shows limits 2 n (limGrid lo hi) → limits.Pub → r.Pub → r ≠ right → r ≠ limits → r ≠ W →
      (∀ p, prev = some p → (s.mat p).height = n → (s.mat p).width = 1) →
      ((s.mat r).height = n → (s.mat r).width = 1) → ∀ maxIter, N ≤ maxIter →
      ∃ (s' : Store ℝ) (y : Nat → ℝ),
        (Solver.gs maxIter e).solveL st en s J W right limits (some r) prev = .ok (s', true) ∧
        s'.Shows r 1 n (fun i _ => y i) := by
  obtain ⟨d, hd, hMd⟩ : ∃ d : ℝ, 0 < d ∧ ∀ i, i < n → d ≤ gram w A D i i := by
    clear hlim
    induction n with
    | zero => exact ⟨1, one_pos, fun i hi' => absurd hi' (Nat.not_lt_zero i)⟩
    | succ n ih =>
      obtain ⟨d, hd, h⟩ := ih fun i hi' => hM i (by omega)
      refine ⟨min d (gram w A D n n), lt_min hd (hM n (by omega)), fun i hi' => ?_⟩
      by_cases h' : i = n
      · rw [h']; exact min_le_right _ _
      · exact le_trans (min_le_left _ _) (h i (by omega))
  have hpos : 0 < d * (e / 1000) ^ 2 / 2 := by positivity
  obtain ⟨N, hN⟩ := exists_nat_gt (2 * boxBound n (gram w A D) b lo hi / (d * (e / 1000) ^ 2 / 2))
  rw [div_lt_iff₀ hpos] at hN
  refine ⟨N + 1, fun hst hs h hl pl pr h2 h3 h4 hp hr maxIter hmax => ?_⟩
  refine C82_enough hst hs h hl pl pr h2 h3 h4 hp hr hd hMd hlim he (lt_of_lt_of_le hN ?_)
  exact mul_le_mul_of_nonneg_right (by exact_mod_cast (by omega : N ≤ maxIter - 1)) hpos.le

/-- The hypotheses are met by two coupled rows whose exact solution is outside the limits. -/
example : ∃ s : Store ℝ, SReach 3 2 solverRestr s ∧
    Sys 3 2 s (.user 0) (.user 0) (.user 1) 3 2 demoA (fun _ => 1) (fun _ => 3) ∧
    s.Shows (.user 2) 2 2 (limGrid (fun _ => -1) (fun _ => 1 / 2)) ∧
    (s.Shows (.user 3) 1 2 fun _ _ => 7) ∧ ((s.mat (.user 4)).height = 2 → (s.mat (.user 4)).width = 1) ∧
    (∀ i, i < 2 → 0 < gram 3 demoA (fun _ => 1) i i) := by
  obtain ⟨s, hs, h, hl, h3, h4⟩ := demo_sys 2 demoA (fun _ => 1) (fun _ => 3) (fun _ => -1)
    (fun _ => 1 / 2) (fun _ => 7)
  exact ⟨s, hs, h, hl, h3, fun q => by omega, demo_diag⟩

/-- Limits in order, a symmetric matrix and a positive diagonal make the limited problem solvable. -/
theorem exists_complementary {n : Nat} {M : Nat → Nat → ℝ} {lo hi : Nat → ℝ}
    (hs : ∀ i j, i < n → j < n → M i j = M j i) (hM : ∀ i, i < n → 0 < M i i)
    (hlim : ∀ i, i < n → lo i ≤ hi i) (b : Nat → ℝ) : ∃ z, Complementary n M b lo hi z := by
  let ext : (Fin n → ℝ) → Nat → ℝ := fun x i => if hi' : i < n then x ⟨i, hi'⟩ else 0
  have hcont : Continuous fun x : Fin n → ℝ => energyOf n (M) b (ext x) := by
    have h1 : ∀ i, Continuous fun x : Fin n → ℝ => ext x i := by
      intro i
      by_cases hi' : i < n
      · simp only [ext, dif_pos hi']; exact continuous_apply _
      · simp only [ext, dif_neg hi']; exact continuous_const
    unfold energyOf
    refine (Continuous.div_const (continuous_finset_sum _ fun i _ => continuous_finset_sum _
      fun j _ => ((h1 i).mul continuous_const).mul (h1 j)) _).sub
      (continuous_finset_sum _ fun i _ => continuous_const.mul (h1 i))
  have hK : IsCompact (Set.pi Set.univ fun i : Fin n => Set.Icc (lo i) (hi i)) :=
    isCompact_univ_pi fun i => isCompact_Icc
  obtain ⟨x, hx, hmin⟩ := hK.exists_isMinOn
    ⟨fun i => lo i, fun i _ => ⟨le_refl _, hlim i i.2⟩⟩ hcont.continuousOn
  have hbox : ∀ i, i < n → lo i ≤ ext x i ∧ ext x i ≤ hi i := fun i hi' => by
    have := hx ⟨i, hi'⟩ trivial
    simp only [ext, dif_pos hi']
    exact this
  refine ⟨ext x, fun i hi' => ⟨(hbox i hi').1, (hbox i hi').2, ?_⟩⟩
  have hd := energyOf_step_drop (b := b) hi' hs (hM i hi')
    (hbox i hi').1 (hbox i hi').2
  set v := rowSolveL n (M) b lo hi (ext x) i with hv
  have hle : energyOf n (M) b (ext x) ≤
      energyOf n (M) b (upd (ext x) i v) := by
    have hy := hmin (a := fun k : Fin n => upd (ext x) i v k) (fun k _ => ?_)
    · have e1 : energyOf n (M) b (ext fun k : Fin n => upd (ext x) i v k) =
          energyOf n (M) b (upd (ext x) i v) :=
        energyOf_congr fun k hk => by simp only [ext, dif_pos hk]
      rw [← e1]
      exact hy
    · by_cases hk : (k : Nat) = i
      · show lo k ≤ upd (ext x) i v k ∧ upd (ext x) i v k ≤ hi k
        rw [hk, upd_same, hv, rowSolveL]
        exact clamp_mem (hlim i hi') _
      · show lo k ≤ upd (ext x) i v k ∧ upd (ext x) i v k ≤ hi k
        rw [upd_other _ _ hk]
        exact hbox k k.2
  have hfix : v = ext x i := by
    have hpos := hM i hi'
    have h0 : (v - ext x i) ^ 2 ≤ 0 := by
      by_contra hc
      have : 0 < M i i * (v - ext x i) ^ 2 / 2 := by
        have := not_le.mp hc
        positivity
      linarith
    have := pow_eq_zero_iff (two_ne_zero) |>.mp (le_antisymm h0 (sq_nonneg _))
    linarith
  rw [hv, rowSolveL, rowSolve_sub hi' (hM i hi').ne', clamp_fix_iff (hlim i hi')] at hfix
  rcases hfix.2.2 with h | ⟨h, h'⟩ | ⟨h, h'⟩
  · rw [div_eq_zero_iff, sub_eq_zero] at h
    exact .inl (h.resolve_right (hM i hi').ne')
  · exact .inr (.inl ⟨sub_pos.mp ((div_pos_iff_of_pos_right (hM i hi')).mp h), h'⟩)
  · have := (div_neg_iff.mp h).resolve_left (fun q => absurd q.2 (not_lt.mpr (hM i hi').le))
    exact .inr (.inr ⟨sub_neg.mp this.1, h'⟩)

/-- **C83**: there is a complementary vector (each row satisfied, or too large with the component at
its minimum, or too small with the component at its maximum). -/
theorem C83_solution_exists (hM : ∀ i, i < n → 0 < gram w A D i i) (hlim : ∀ i, i < n → lo i ≤ hi i)
    (b : Nat → ℝ) : ∃ z, Complementary n (gram w A D) b lo hi z :=
  exists_complementary (fun i j _ _ => gram_symm w A D i j) hM hlim b

/-- **C83**: a call that succeeds with a tolerance `e` of at most one half returns a vector that differs from
the exact solution (any complementary vector) by no more than the tolerance times a number that does
not depend on the warm start, measured by the quadratic form of the matrix. -/
theorem C83_accurate (hst : 0 < st) (hs : SReach st en solverRestr s)
    (h : Sys st en s J W right w n A D b)
    (hl : s.Shows limits 2 n (limGrid lo hi)) (pl : limits.Pub) (pr : r.Pub) (h2 : r ≠ right)
    (h3 : r ≠ limits) (h4 : r ≠ W)
    (hp : ∀ p, prev = some p → (s.mat p).height = n → (s.mat p).width = 1)
    (hr : (s.mat r).height = n → (s.mat r).width = 1)
    (hM : ∀ i, i < n → 0 < gram w A D i i) (hlim : ∀ i, i < n → lo i ≤ hi i) {e : ℝ} (he : 0 < e)
    (he2 : e ≤ 1 / 2) {maxIter : Nat} {s' : Store ℝ}
    (hrun : (Solver.gs maxIter e).solveL st en s J W right limits (some r) prev = .ok (s', true))
    {z : Nat → ℝ} (hz : Complementary n (gram w A D) b lo hi z) :
    ∃ y : Nat → ℝ, s'.Shows r 1 n (fun i _ => y i) ∧ (∀ i, i < n → lo i ≤ y i ∧ y i ≤ hi i) ∧
      ∑ i ∈ range n, ∑ j ∈ range n, (y i - z i) * gram w A D i j * (y j - z j) ≤
        2 * e * ∑ i ∈ range n, ∑ j ∈ range n, (hi i - lo i) * |gram w A D i j| *
          (max |lo j| |hi j| + 1 / 1000) := by
  obtain ⟨s'', c, y, x0, e1, g, _, hf⟩ := gsL_run hst hs h hl pl pr h2 h3 h4 hp hr
    (fun i hi' => (hM i hi').ne') maxIter he
  rw [show (Solver.gs maxIter e).solveL st en s J W right limits (some r) prev = _ from e1] at hrun
  cases hrun
  rcases hf with ⟨_, k, _, hT, _, hy⟩ | ⟨hc, _⟩
  swap
  · cases hc
  rw [Function.iterate_succ_apply'] at hT hy
  generalize (sweepTo (rowSolveL n (gram w A D) b lo hi) n)^[k] x0 = x at hT hy
  have hbox : ∀ i, i < n → lo i ≤ y i ∧ y i ≤ hi i := fun i hi' => by
    rw [hy i hi']; exact sweepL_mem x hlim hi'
  refine ⟨y, g, hbox, ?_⟩
  have key := sweep_error (M := gram w A D) (b := b) hM hlim hz x
  have e2 : ∑ i ∈ range n, ∑ j ∈ range n, (y i - z i) * gram w A D i j * (y j - z j) =
      ∑ i ∈ range n, ∑ j ∈ range n, (sweepTo (rowSolveL n (gram w A D) b lo hi) n x i - z i) *
        gram w A D i j * (sweepTo (rowSolveL n (gram w A D) b lo hi) n x j - z j) :=
    sum_congr rfl fun i hi' => sum_congr rfl fun j hj => by
      rw [hy i (mem_range.mp hi'), hy j (mem_range.mp hj)]
  rw [e2]
  refine le_trans key ?_
  rw [mul_sum]
  refine sum_le_sum fun i hi' => ?_
  rw [mul_sum]
  refine sum_le_sum fun j hj => ?_
  have hi'' := mem_range.mp hi'
  have hj' := mem_range.mp hj
  rw [← hy i hi'', ← hy j hj']
  have hT := hT j hj'
  rw [← hy j hj'] at hT
  have b1 : |y i - z i| ≤ hi i - lo i := by
    obtain ⟨q1, q2⟩ := hbox i hi''
    obtain ⟨q3, q4, _⟩ := hz i hi''
    rw [abs_le]; constructor <;> linarith
  have b2 : |y j - x j| ≤ 2 * e * (max |lo j| |hi j| + 1 / 1000) := by
    have q1 := abs_le_box (hbox j hj').1 (hbox j hj').2
    have q2 : max (1 / 1000) |x j| ≤ max |lo j| |hi j| + 1 / 1000 + |y j - x j| := by
      have : |x j| ≤ |y j| + |y j - x j| := by
        have := abs_sub_abs_le_abs_sub (x j) (y j)
        rw [abs_sub_comm] at this
        linarith
      refine max_le ?_ (by linarith)
      have := abs_nonneg (y j - x j)
      have := abs_nonneg (y j)
      linarith
    have q3 : |y j - x j| ≤ e * (max |lo j| |hi j| + 1 / 1000 + |y j - x j|) :=
      le_trans hT.le (mul_le_mul_of_nonneg_left q2 he.le)
    have q4 : e * |y j - x j| ≤ 1 / 2 * |y j - x j| :=
      mul_le_mul_of_nonneg_right he2 (abs_nonneg _)
    linarith
  calc |y i - z i| * |gram w A D i j| * |y j - x j|
      ≤ (hi i - lo i) * |gram w A D i j| * (2 * e * (max |lo j| |hi j| + 1 / 1000)) := by
        have : 0 ≤ hi i - lo i := by linarith [hlim i hi'']
        gcongr
    _ = 2 * e * ((hi i - lo i) * |gram w A D i j| * (max |lo j| |hi j| + 1 / 1000)) := by ring

/-- The hypotheses are met by two coupled rows whose exact solution is outside the limits: the call
succeeds with enough iterations. -/
example : ∃ (N : Nat) (s s' : Store ℝ), SReach 3 2 solverRestr s ∧
    Sys 3 2 s (.user 0) (.user 0) (.user 1) 3 2 demoA (fun _ => 1) (fun _ => 3) ∧
    s.Shows (.user 2) 2 2 (limGrid (fun _ => -1) (fun _ => 1 / 2)) ∧
    (s.Shows (.user 3) 1 2 fun _ _ => 7) ∧ ((s.mat (.user 4)).height = 2 → (s.mat (.user 4)).width = 1) ∧
    (∀ i, i < 2 → 0 < gram 3 demoA (fun _ => 1) i i) ∧
    (Solver.gs N (1 / 10)).solveL 3 2 s (.user 0) (.user 0) (.user 1) (.user 2) (some (.user 4))
      (some (.user 3)) = .ok (s', true) ∧
    ∃ z, Complementary 2 (gram 3 demoA (fun _ => 1)) (fun _ => 3) (fun _ => -1) (fun _ => 1 / 2) z := by
  obtain ⟨s, hs, h, hl, h3, h4⟩ := demo_sys 2 demoA (fun _ => 1) (fun _ => 3) (fun _ => -1)
    (fun _ => 1 / 2) (fun _ => 7)
  obtain ⟨N, hN⟩ := C82_succeeds (b := fun _ => 3) demo_diag (lo := fun _ => -1) (hi := fun _ => 1 / 2)
    (fun i _ => by norm_num) (e := 1 / 10) (by norm_num)
  obtain ⟨s', y, e, g⟩ := hN (st := 3) (en := 2) (r := .user 4) (prev := some (.user 3)) (by decide) hs h
    hl trivial trivial (by decide) (by decide) (by decide) (fun p hp _ => by cases hp; exact h3.width)
    (fun q => by omega) N (Nat.le_refl N)
  exact ⟨N, s, s', hs, h, hl, h3, fun q => by omega, demo_diag, e,
    C83_solution_exists demo_diag (fun i _ => by norm_num) _⟩

end

end Scs
