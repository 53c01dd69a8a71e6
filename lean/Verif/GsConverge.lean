import Verif.SleProps

/-!
# Convergence of the limited Gauss-Seidel sweeps

Every row step decreases the energy `x^T M x / 2 - b^T x` by half the diagonal entry times the square
of the change, and the energy is bounded below inside the limits.
-/

namespace Scs

open Finset

section
variable {n : Nat} {M : Nat → Nat → ℝ} {b lo hi x : Nat → ℝ}

/-- A limited row step decreases the energy by at least half the diagonal entry times the squared
change. -/
theorem energyOf_step_drop {i : Nat} (hi' : i < n)
    (hs : ∀ i j, i < n → j < n → M i j = M j i) (hM : 0 < M i i)
    (h1 : lo i ≤ x i) (h2 : x i ≤ hi i) :
    energyOf n M b (upd x i (rowSolveL n M b lo hi x i)) +
      M i i * (rowSolveL n M b lo hi x i - x i) ^ 2 / 2 ≤ energyOf n M b x := by
  rw [energyOf_upd hi' hs]
  set g := ∑ j ∈ range n, M i j * x j - b i with hg
  have hv : rowSolveL n M b lo hi x i = clamp (lo i) (hi i) (x i - g / M i i) := by
    rw [rowSolveL, rowSolve_sub hi' (ne_of_gt hM)]
  generalize rowSolveL n M b lo hi x i = v at hv
  have hgM : g = g / M i i * M i i := by field_simp
  set d := g / M i i with hd
  have hstep : (0 ≤ d → -d ≤ v - x i ∧ v - x i ≤ 0) ∧ (d ≤ 0 → 0 ≤ v - x i ∧ v - x i ≤ -d) := by
    rw [hv, clamp]
    constructor
    · intro h0
      rw [min_eq_right (by linarith)]
      constructor
      · have := le_max_right (lo i) (x i - d); linarith
      · have := max_le h1 (by linarith : x i - d ≤ x i); linarith
    · intro h0
      constructor
      · have : x i ≤ min (hi i) (x i - d) := le_min h2 (by linarith)
        have := le_trans this (le_max_right (lo i) _); linarith
      · have : max (lo i) (min (hi i) (x i - d)) ≤ x i - d :=
          max_le (by linarith) (min_le_right _ _)
        linarith
  rw [hgM]
  set t := v - x i
  have hrw : energyOf n M b x + t * (d * M i i) + t ^ 2 * M i i / 2 + M i i * t ^ 2 / 2 =
      energyOf n M b x + t * (d + t) * M i i := by ring
  rw [hrw]
  have : t * (d + t) * M i i ≤ 0 := by
    refine mul_nonpos_of_nonpos_of_nonneg ?_ hM.le
    rcases le_total 0 d with h0 | h0
    · obtain ⟨q1, q2⟩ := hstep.1 h0
      exact mul_nonpos_of_nonpos_of_nonneg q2 (by linarith)
    · obtain ⟨q1, q2⟩ := hstep.2 h0
      exact mul_nonpos_of_nonneg_of_nonpos q1 (by linarith)
  linarith

/-- A sweep decreases the energy by the sum of what its rows do. -/
theorem energyOf_sweep_drop (hs : ∀ i j, i < n → j < n → M i j = M j i) (hM : ∀ i, i < n → 0 < M i i)
    (h : ∀ i, i < n → lo i ≤ x i ∧ x i ≤ hi i) :
    ∀ m, m ≤ n → energyOf n M b (sweepTo (rowSolveL n M b lo hi) m x) +
      ∑ i ∈ range m, M i i * (sweepTo (rowSolveL n M b lo hi) n x i - x i) ^ 2 / 2 ≤
        energyOf n M b x := by
  intro m
  induction m with
  | zero => exact fun _ => by simp [sweepTo]
  | succ m ih =>
    intro hm
    have h1 := (energyOf_sweep (b := b) hs hM h m (by omega)).1 m (by omega)
    have h2 := energyOf_step_drop (b := b) (show m < n by omega) hs (hM m (by omega)) h1.1 h1.2
    rw [sum_range_succ, sweepTo_lt _ x (show m < n by omega)]
    rw [sweepTo_ge _ x (Nat.le_refl m)] at h2
    have := ih (by omega)
    rw [sweepTo]
    linarith

/-- A bound of the energy inside the limits. -/
noncomputable def boxBound (n : Nat) (M : Nat → Nat → ℝ) (b lo hi : Nat → ℝ) : ℝ :=
  (∑ i ∈ range n, ∑ j ∈ range n, max |lo i| |hi i| * |M i j| * max |lo j| |hi j|) / 2 +
    ∑ i ∈ range n, |b i| * max |lo i| |hi i|

theorem abs_le_box {l u v : ℝ} (h1 : l ≤ v) (h2 : v ≤ u) : |v| ≤ max |l| |u| := by
  rw [abs_le]
  constructor
  · have := neg_abs_le l
    have := le_max_left |l| |u|
    linarith
  · have := le_abs_self u
    have := le_max_right |l| |u|
    linarith

theorem energyOf_box (h : ∀ i, i < n → lo i ≤ x i ∧ x i ≤ hi i) :
    |energyOf n M b x| ≤ boxBound n M b lo hi := by
  have hx : ∀ i ∈ range n, |x i| ≤ max |lo i| |hi i| := fun i hi' =>
    abs_le_box (h i (mem_range.mp hi')).1 (h i (mem_range.mp hi')).2
  rw [energyOf, boxBound]
  refine le_trans (abs_sub _ _) (add_le_add ?_ ?_)
  · rw [abs_div, abs_two]
    refine div_le_div_of_nonneg_right ?_ zero_le_two
    refine le_trans (abs_sum_le_sum_abs _ _) (sum_le_sum fun i hi' => ?_)
    refine le_trans (abs_sum_le_sum_abs _ _) (sum_le_sum fun j hj => ?_)
    rw [abs_mul, abs_mul]
    have := hx i hi'
    have := hx j hj
    gcongr
  · refine le_trans (abs_sum_le_sum_abs _ _) (sum_le_sum fun i hi' => ?_)
    rw [abs_mul]
    exact mul_le_mul_of_nonneg_left (hx i hi') (abs_nonneg _)

/-- One of the sweeps after the first settles, when there are more than the energy allows. -/
theorem settles (hs : ∀ i j, i < n → j < n → M i j = M j i) {d e : ℝ} (hd : 0 < d) (he : 0 < e)
    (hM : ∀ i, i < n → d ≤ M i i) (h : ∀ i, i < n → lo i ≤ x i ∧ x i ≤ hi i) {N : Nat}
    (hN : 2 * boxBound n M b lo hi < N * (d * (e / 1000) ^ 2 / 2)) :
    ∃ k, k < N ∧ Settled n e ((sweepTo (rowSolveL n M b lo hi) n)^[k] x)
      ((sweepTo (rowSolveL n M b lo hi) n)^[k + 1] x) := by
  by_contra hc
  push_neg at hc
  have hM0 : ∀ i, i < n → 0 < M i i := fun i hi' => lt_of_lt_of_le hd (hM i hi')
  have key : ∀ k, k ≤ N → energyOf n M b ((sweepTo (rowSolveL n M b lo hi) n)^[k] x) +
      k * (d * (e / 1000) ^ 2 / 2) ≤ energyOf n M b x := by
    intro k
    induction k with
    | zero => intro _; simp
    | succ k ih =>
      intro hk
      have hin := (energyOf_iterate (b := b) hs hM0 h k).1
      have h1 := energyOf_sweep_drop (b := b) hs hM0 hin n (Nat.le_refl n)
      have hns := hc k (by omega)
      rw [Function.iterate_succ_apply'] at hns ⊢
      generalize (sweepTo (rowSolveL n M b lo hi) n)^[k] x = z at *
      rw [Settled] at hns
      push_neg at hns
      obtain ⟨i, hi', hge⟩ := hns
      have h2 : d * (e / 1000) ^ 2 / 2 ≤
          ∑ i ∈ range n, M i i * (sweepTo (rowSolveL n M b lo hi) n z i - z i) ^ 2 / 2 := by
        refine le_trans ?_ (single_le_sum (f := fun i => M i i *
          (sweepTo (rowSolveL n M b lo hi) n z i - z i) ^ 2 / 2) (fun j hj => ?_) (mem_range.mpr hi'))
        · have hle : e / 1000 ≤ |sweepTo (rowSolveL n M b lo hi) n z i - z i| := by
            refine le_trans ?_ hge
            rw [div_eq_mul_one_div]
            exact mul_le_mul_of_nonneg_left (le_max_left _ _) he.le
          have hsq : (e / 1000) ^ 2 ≤ (sweepTo (rowSolveL n M b lo hi) n z i - z i) ^ 2 := by
            rw [← sq_abs (sweepTo (rowSolveL n M b lo hi) n z i - z i)]
            exact pow_le_pow_left₀ (by positivity) hle 2
          have := mul_le_mul (hM i hi') hsq (by positivity) (hM0 i hi').le
          exact div_le_div_of_nonneg_right this zero_le_two
        · have := (hM0 j (mem_range.mp hj)).le
          positivity
      have := ih (by omega)
      push_cast
      linarith
  have h1 := key N (Nat.le_refl N)
  have h2 := abs_le.mp (energyOf_box (M := M) (b := b) h)
  have h3 := abs_le.mp (energyOf_box (M := M) (b := b) (energyOf_iterate (b := b) hs hM0 h N).1)
  linarith

/-- The sweeps settle whatever the start, when there are more than the energy allows. -/
theorem settles_any (hs : ∀ i j, i < n → j < n → M i j = M j i) {d e : ℝ} (hd : 0 < d) (he : 0 < e)
    (hM : ∀ i, i < n → d ≤ M i i) (hlim : ∀ i, i < n → lo i ≤ hi i) (x : Nat → ℝ) {N : Nat}
    (hN : 2 * boxBound n M b lo hi < N * (d * (e / 1000) ^ 2 / 2)) :
    ∃ k, k < N + 1 ∧ Settled n e ((sweepTo (rowSolveL n M b lo hi) n)^[k] x)
      ((sweepTo (rowSolveL n M b lo hi) n)^[k + 1] x) := by
  obtain ⟨k, hk, h⟩ := settles (x := sweepTo (rowSolveL n M b lo hi) n x) hs hd he hM
    (fun i hi' => sweepL_mem x hlim hi') hN
  refine ⟨k + 1, by omega, ?_⟩
  rw [← Function.iterate_succ_apply, ← Function.iterate_succ_apply] at h
  exact h

/-- With a settled sweep in reach the outcome is success. -/
theorem FirstPass.success {T : (Nat → ℝ) → (Nat → ℝ) → Prop} {F : (Nat → ℝ) → Nat → ℝ}
    {n m k : Nat} {x0 y : Nat → ℝ} {c : Bool} (h : FirstPass T F n m x0 c y) (hk : k < m)
    (hT : T (F^[k] x0) (F^[k + 1] x0)) : c = true := by
  rcases h with ⟨h, _⟩ | ⟨_, h, _⟩
  · exact h
  · exact absurd hT (h k hk)

/-- More rounds change nothing after a success. -/
theorem FirstPass.more {T : (Nat → ℝ) → (Nat → ℝ) → Prop} {F : (Nat → ℝ) → Nat → ℝ}
    {n m m' : Nat} {x0 y y' : Nat → ℝ} {c : Bool} (h : FirstPass T F n m x0 true y)
    (h' : FirstPass T F n m' x0 c y') (hm : m ≤ m') : c = true ∧ ∀ i, i < n → y' i = y i := by
  rcases h with ⟨_, k, hk, hT, hl, hy⟩ | ⟨h, _⟩
  · rcases h' with ⟨hc, k', hk', hT', hl', hy'⟩ | ⟨_, hc, _⟩
    · have : k = k' := by
        rcases Nat.lt_trichotomy k k' with q | q | q
        · exact absurd hT (hl' k q)
        · exact q
        · exact absurd hT' (hl k' q)
      subst this
      exact ⟨hc, fun i hi' => by rw [hy i hi', hy' i hi']⟩
    · exact absurd hT (hc k (by omega))
  · cases h

/-- The row of a sweep: the value is the clamped solution of its equation with the new values before it
and the old ones after it. -/
theorem sweepL_row (x : Nat → ℝ) {i : Nat} (hi' : i < n) : sweepTo (rowSolveL n M b lo hi) n x i =
    clamp (lo i) (hi i) ((b i - ∑ j ∈ (range n).erase i, M i j *
      (if j < i then sweepTo (rowSolveL n M b lo hi) n x j else x j)) / M i i) := by
  conv_lhs => rw [sweepTo_lt _ x hi', rowSolveL, rowSolve]
  congr 3
  refine sum_congr rfl fun j hj => ?_
  have hji := ne_of_mem_erase hj
  by_cases h : j < i
  · rw [if_pos h, sweepTo_lt _ x h, sweepTo_lt _ x (by omega : j < n)]
  · rw [if_neg h, sweepTo_ge _ x (by omega)]

/-- After a sweep each equation holds up to what the changes of the other unknowns can do, unless the
unknown is at a limit. -/
theorem settled_row (x : Nat → ℝ) {i : Nat} (hi' : i < n) (hM : 0 < M i i) (hlim : lo i ≤ hi i)
    {y : Nat → ℝ} (hy : ∀ j, j < n → y j = sweepTo (rowSolveL n M b lo hi) n x j) {r err : ℝ}
    (hr : r = ∑ j ∈ range n, M i j * y j - b i)
    (herr : err = ∑ j ∈ (range n).erase i, |M i j| * |y j - x j|) :
    |r| ≤ err ∨ (y i = lo i ∧ -err ≤ r) ∨ (y i = hi i ∧ r ≤ err) := by
  set s := ∑ j ∈ (range n).erase i, M i j * (if j < i then y j else x j) with hs
  have h : y i = clamp (lo i) (hi i) ((b i - s) / M i i) := by
    rw [hy i hi', sweepL_row x hi', hs]
    congr 3
    refine sum_congr rfl fun j hj => ?_
    by_cases hji : j < i
    · rw [if_pos hji, if_pos hji, hy j (by omega)]
    · rw [if_neg hji, if_neg hji]
  have hd : |r - (M i i * y i + s - b i)| ≤ err := by
    have e1 : r - (M i i * y i + s - b i) =
        ∑ j ∈ (range n).erase i, M i j * (y j - if j < i then y j else x j) := by
      rw [hr, sum_split hi' (fun j => M i j * y j), hs]
      have : ∑ j ∈ (range n).erase i, M i j * (y j - if j < i then y j else x j) =
          ∑ j ∈ (range n).erase i, M i j * y j -
            ∑ j ∈ (range n).erase i, M i j * (if j < i then y j else x j) := by
        rw [← sum_sub_distrib]
        exact sum_congr rfl fun j _ => by ring
      rw [this]
      ring
    rw [e1, herr]
    refine le_trans (abs_sum_le_sum_abs _ _) ?_
    refine sum_le_sum fun j _ => ?_
    rw [abs_mul]
    refine mul_le_mul_of_nonneg_left ?_ (abs_nonneg _)
    by_cases hji : j < i
    · rw [if_pos hji, sub_self, abs_zero]; exact abs_nonneg _
    · rw [if_neg hji]
  obtain ⟨d1, d2⟩ := abs_le.mp hd
  rw [show (b i - s) / M i i = y i - (M i i * y i + s - b i) / M i i by field_simp; ring] at h
  obtain ⟨_, _, h3⟩ := (clamp_fix_iff hlim).mp h.symm
  rcases h3 with h3 | ⟨h3, h4⟩ | ⟨h3, h4⟩
  · rw [div_eq_zero_iff] at h3
    rw [h3.resolve_right hM.ne', sub_zero] at hd
    exact Or.inl hd
  · have := (div_pos_iff_of_pos_right hM).mp h3
    exact Or.inr (Or.inl ⟨h4, by linarith⟩)
  · have := (div_neg_iff.mp h3).resolve_left (fun q => absurd q.2 (by linarith))
    exact Or.inr (Or.inr ⟨h4, by linarith [this.1]⟩)

/-- The error of a settled sweep: with `z` complementary, the energy of the difference is at most
what the changes of the last sweep can do. -/
theorem sweep_error (hM : ∀ i, i < n → 0 < M i i) (hlim : ∀ i, i < n → lo i ≤ hi i)
    {z : Nat → ℝ}
    (hz : ∀ i, i < n → lo i ≤ z i ∧ z i ≤ hi i ∧
      (∑ j ∈ range n, M i j * z j = b i ∨ (b i < ∑ j ∈ range n, M i j * z j ∧ z i = lo i) ∨
        (∑ j ∈ range n, M i j * z j < b i ∧ z i = hi i))) (x : Nat → ℝ) :
    ∑ i ∈ range n, ∑ j ∈ range n, (sweepTo (rowSolveL n M b lo hi) n x i - z i) * M i j *
        (sweepTo (rowSolveL n M b lo hi) n x j - z j) ≤
      ∑ i ∈ range n, ∑ j ∈ range n, |sweepTo (rowSolveL n M b lo hi) n x i - z i| * |M i j| *
        |sweepTo (rowSolveL n M b lo hi) n x j - x j| := by
  have hbox : ∀ i, i < n → lo i ≤ sweepTo (rowSolveL n M b lo hi) n x i ∧
      sweepTo (rowSolveL n M b lo hi) n x i ≤ hi i := fun i hi' => sweepL_mem x hlim hi'
  have hrow : ∀ i, i < n → sweepTo (rowSolveL n M b lo hi) n x i =
      clamp (lo i) (hi i) ((b i - ∑ j ∈ (range n).erase i, M i j *
        (if j < i then sweepTo (rowSolveL n M b lo hi) n x j else x j)) / M i i) :=
    fun i hi' => sweepL_row x hi'
  generalize sweepTo (rowSolveL n M b lo hi) n x = y at *
  refine sum_le_sum fun i hi' => ?_
  have hi'' := mem_range.mp hi'
  -- the residual of row `i`
  have hM0 := hM i hi''
  set s := ∑ j ∈ (range n).erase i, M i j * (if j < i then y j else x j) with hsdef
  have hopt : (y i - z i) * (M i i * y i + s - b i) ≤ 0 := by
    have h := hrow i hi''
    obtain ⟨z1, z2, _⟩ := hz i hi''
    rw [show (b i - s) / M i i = y i - (M i i * y i + s - b i) / M i i by field_simp; ring] at h
    obtain ⟨_, _, h3⟩ := (clamp_fix_iff (hlim i hi'')).mp h.symm
    rcases h3 with h3 | ⟨h3, h4⟩ | ⟨h3, h4⟩
    · rw [div_eq_zero_iff] at h3
      rw [h3.resolve_right hM0.ne', mul_zero]
    · have := (div_pos_iff_of_pos_right hM0).mp h3
      exact mul_nonpos_of_nonpos_of_nonneg (by linarith) this.le
    · have := (div_neg_iff.mp h3).resolve_left (fun q => absurd q.2 (by linarith))
      exact mul_nonpos_of_nonneg_of_nonpos (by linarith) this.1.le
  have hopt2 : 0 ≤ (y i - z i) * (∑ j ∈ range n, M i j * z j - b i) := by
    obtain ⟨y1, y2⟩ := hbox i hi''
    rcases (hz i hi'').2.2 with h | ⟨h, h'⟩ | ⟨h, h'⟩
    · rw [h, sub_self, mul_zero]
    · exact mul_nonneg (by linarith) (by linarith)
    · exact mul_nonneg_of_nonpos_of_nonpos (by linarith) (by linarith)
  have e2 : ∑ j ∈ range n, (y i - z i) * M i j * (y j - z j) =
      (y i - z i) * (M i i * y i + s - b i) - (y i - z i) * (∑ j ∈ range n, M i j * z j - b i) +
        ∑ j ∈ (range n).erase i, (y i - z i) * M i j * (y j - if j < i then y j else x j) := by
    have a1 : ∑ j ∈ range n, (y i - z i) * M i j * (y j - z j) =
        (y i - z i) * (∑ j ∈ range n, M i j * y j) - (y i - z i) * ∑ j ∈ range n, M i j * z j := by
      rw [mul_sum, mul_sum, ← sum_sub_distrib]
      exact sum_congr rfl fun j _ => by ring
    have a2 : ∑ j ∈ (range n).erase i, (y i - z i) * M i j * (y j - if j < i then y j else x j) =
        (y i - z i) * (∑ j ∈ (range n).erase i, M i j * y j) - (y i - z i) * s := by
      rw [hsdef, mul_sum, mul_sum, ← sum_sub_distrib]
      exact sum_congr rfl fun j _ => by ring
    rw [a1, a2, sum_split hi'' (fun j => M i j * y j)]
    ring
  rw [e2]
  have e3 : ∑ j ∈ (range n).erase i, (y i - z i) * M i j * (y j - if j < i then y j else x j) ≤
      ∑ j ∈ range n, |y i - z i| * |M i j| * |y j - x j| := by
    refine le_trans (sum_le_sum (g := fun j => |y i - z i| * |M i j| * |y j - x j|) fun j _ => ?_)
      (sum_le_sum_of_subset_of_nonneg (erase_subset _ _) fun j _ _ => by positivity)
    by_cases h : j < i
    · rw [if_pos h, sub_self, mul_zero]; positivity
    · rw [if_neg h, ← abs_mul, ← abs_mul]; exact le_abs_self _
  linarith

end

end Scs
