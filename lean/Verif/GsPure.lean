import Verif.GsSolve
import Mathlib.Tactic.Linarith
import Mathlib.Tactic.Ring
import Mathlib.Tactic.FieldSimp

/-!
# Sweeps over real vectors

Fixed points, limits and energy of (projected) Gauss-Seidel sweeps.
-/

namespace Scs

open Finset

/-! ## Congruence -/

theorem sweepTo_congr {f g : (Nat → ℝ) → Nat → ℝ} {n : Nat} (h : ∀ i, i < n → ∀ x, f x i = g x i)
    (x : Nat → ℝ) : sweepTo f n x = sweepTo g n x := by
  induction n with
  | zero => rfl
  | succ n ih =>
    rw [sweepTo, sweepTo, ih (fun i hi => h i (by omega)), h n (by omega)]

/-- `f` looks at the first `n` components only. -/
def Local (n : Nat) (f : (Nat → ℝ) → Nat → ℝ) : Prop :=
  ∀ x y : Nat → ℝ, (∀ j, j < n → x j = y j) → ∀ i, i < n → f x i = f y i

theorem Local.sweep {n : Nat} {f : (Nat → ℝ) → Nat → ℝ} (h : Local n f) {m : Nat}
    (hm : m ≤ n) : Local n (sweepTo f m) := by
  induction m with
  | zero => exact fun x y hxy i hi => hxy i hi
  | succ m ih =>
    intro x y hxy i hi
    have ih' := ih (by omega) x y hxy
    by_cases him : i = m
    · subst him; rw [sweepTo, upd_same, sweepTo, upd_same]; exact h _ _ ih' i hi
    · rw [sweepTo, upd_other _ _ him, sweepTo, upd_other _ _ him]; exact ih' i hi

theorem Local.iterate {n : Nat} {F : (Nat → ℝ) → Nat → ℝ} (h : Local n F) (k : Nat) :
    Local n (F^[k]) := by
  induction k with
  | zero => exact fun x y hxy i hi => hxy i hi
  | succ k ih =>
    intro x y hxy i hi
    rw [Function.iterate_succ_apply', Function.iterate_succ_apply']
    exact h _ _ (ih x y hxy) i hi

theorem rowSolve_local (n : Nat) (M : Nat → Nat → ℝ) (b : Nat → ℝ) : Local n (rowSolve n M b) := by
  intro x y hxy i _
  simp only [rowSolve]
  rw [sum_congr rfl (fun j hj => by
    rw [hxy j (mem_range.mp (mem_of_mem_erase hj))])]

theorem rowSolveL_local (n : Nat) (M : Nat → Nat → ℝ) (b lo hi : Nat → ℝ) :
    Local n (rowSolveL n M b lo hi) := by
  intro x y hxy i hi'
  simp only [rowSolveL]
  rw [rowSolve_local n M b x y hxy i hi']

theorem rowSolve_congr {n : Nat} {M M' : Nat → Nat → ℝ} {b b' : Nat → ℝ}
    (hM : ∀ i j, i < n → j < n → M i j = M' i j) (hb : ∀ i, i < n → b i = b' i) (x : Nat → ℝ)
    {i : Nat} (hi : i < n) : rowSolve n M b x i = rowSolve n M' b' x i := by
  simp only [rowSolve]
  rw [hb i hi, hM i i hi hi, sum_congr rfl (fun j hj => by
    rw [hM i j hi (mem_range.mp (mem_of_mem_erase hj))])]

/-! ## Fixed points -/

theorem sweepTo_fixed {f : (Nat → ℝ) → Nat → ℝ} {n : Nat} {x : Nat → ℝ} :
    (∀ i, i < n → sweepTo f n x i = x i) ↔ ∀ i, i < n → f x i = x i := by
  have key : ∀ m, m ≤ n → (∀ i, i < m → sweepTo f n x i = x i) → sweepTo f m x = x := by
    intro m hm h
    funext r
    by_cases hr : r < m
    · rw [sweepTo_lt f x hr, ← sweepTo_lt f x (show r < n by omega), h r hr]
    · exact sweepTo_ge f x (by omega)
  constructor
  · intro h i hi
    have := h i hi
    rw [sweepTo_lt f x hi, key i (by omega) (fun j hj => h j (by omega))] at this
    exact this
  · intro h
    have : ∀ m, m ≤ n → sweepTo f m x = x := by
      intro m
      induction m with
      | zero => exact fun _ => rfl
      | succ m ih =>
        intro hm
        rw [sweepTo, ih (by omega), h m (by omega)]
        funext r
        by_cases hr : r = m
        · subst hr; rw [upd_same]
        · rw [upd_other _ _ hr]
    intro i _
    rw [this n (Nat.le_refl _)]

theorem sum_split {n i : Nat} (hi : i < n) (g : Nat → ℝ) :
    ∑ j ∈ range n, g j = g i + ∑ j ∈ (range n).erase i, g j :=
  (add_sum_erase _ _ (mem_range.mpr hi)).symm

theorem rowSolve_eq_iff {n : Nat} {M : Nat → Nat → ℝ} {b x : Nat → ℝ} {i : Nat} (hi : i < n)
    (hM : M i i ≠ 0) : rowSolve n M b x i = x i ↔ ∑ j ∈ range n, M i j * x j = b i := by
  rw [rowSolve, div_eq_iff hM, sum_split hi]
  constructor <;> intro h <;> linarith

/-- Row solving moves against the residual. -/
theorem rowSolve_sub {n : Nat} {M : Nat → Nat → ℝ} {b x : Nat → ℝ} {i : Nat} (hi : i < n)
    (hM : M i i ≠ 0) :
    rowSolve n M b x i = x i - (∑ j ∈ range n, M i j * x j - b i) / M i i := by
  rw [rowSolve, sum_split hi]
  field_simp
  ring

theorem clamp_mem {lo hi : ℝ} (h : lo ≤ hi) (v : ℝ) : lo ≤ clamp lo hi v ∧ clamp lo hi v ≤ hi :=
  ⟨le_max_left _ _, max_le h (min_le_left _ _)⟩

theorem clamp_of_mem {lo hi v : ℝ} (h1 : lo ≤ v) (h2 : v ≤ hi) : clamp lo hi v = v := by
  rw [clamp, min_eq_right h2, max_eq_right h1]

theorem clamp_fix_iff {lo hi x d : ℝ} (h : lo ≤ hi) :
    clamp lo hi (x - d) = x ↔
      lo ≤ x ∧ x ≤ hi ∧ (d = 0 ∨ (0 < d ∧ x = lo) ∨ (d < 0 ∧ x = hi)) := by
  unfold clamp
  constructor
  · intro e
    have h1 : lo ≤ x := e ▸ le_max_left _ _
    have h2 : x ≤ hi := e ▸ max_le h (min_le_left _ _)
    refine ⟨h1, h2, ?_⟩
    rcases lt_trichotomy d 0 with hd | hd | hd
    · refine Or.inr (Or.inr ⟨hd, ?_⟩)
      rcases le_total hi (x - d) with q | q
      · rw [min_eq_left q, max_eq_right h] at e; exact e.symm
      · rw [min_eq_right q, max_eq_right (by linarith)] at e; linarith
    · exact Or.inl hd
    · refine Or.inr (Or.inl ⟨hd, ?_⟩)
      rw [min_eq_right (by linarith)] at e
      rcases le_total lo (x - d) with q | q
      · rw [max_eq_right q] at e; linarith
      · rw [max_eq_left q] at e; exact e.symm
  · rintro ⟨h1, h2, h3 | ⟨h3, h4⟩ | ⟨h3, h4⟩⟩
    · rw [h3, sub_zero, min_eq_right h2, max_eq_right h1]
    · rw [min_eq_right (by linarith), max_eq_left (by linarith), h4]
    · rw [min_eq_left (by linarith), max_eq_right h, h4]

/-! ## Energy -/

/-- The energy `x^T M x / 2 - b^T x`. -/
noncomputable def energyOf (n : Nat) (M : Nat → Nat → ℝ) (b x : Nat → ℝ) : ℝ :=
  (∑ i ∈ range n, ∑ j ∈ range n, x i * M i j * x j) / 2 - ∑ i ∈ range n, b i * x i

theorem energyOf_congr {n : Nat} {M : Nat → Nat → ℝ} {b x y : Nat → ℝ}
    (h : ∀ i, i < n → x i = y i) : energyOf n M b x = energyOf n M b y := by
  have e1 : ∑ i ∈ range n, ∑ j ∈ range n, x i * M i j * x j =
      ∑ i ∈ range n, ∑ j ∈ range n, y i * M i j * y j :=
    sum_congr rfl (fun i hi => sum_congr rfl (fun j hj => by
      rw [h i (mem_range.mp hi), h j (mem_range.mp hj)]))
  have e2 : ∑ i ∈ range n, b i * x i = ∑ i ∈ range n, b i * y i :=
    sum_congr rfl (fun i hi => by rw [h i (mem_range.mp hi)])
  unfold energyOf
  rw [e1, e2]

/-- Changing one component changes the energy by a quadratic polynomial of the change. -/
theorem energyOf_upd {n : Nat} {M : Nat → Nat → ℝ} {b x : Nat → ℝ} {i : Nat} (hi : i < n)
    (hs : ∀ i j, i < n → j < n → M i j = M j i) (v : ℝ) :
    energyOf n M b (upd x i v) = energyOf n M b x +
      (v - x i) * (∑ j ∈ range n, M i j * x j - b i) + (v - x i) ^ 2 * M i i / 2 := by
  have hx : ∀ j, upd x i v j = x j + if j = i then v - x i else 0 := by
    intro j
    by_cases h : j = i
    · subst h; rw [upd_same, if_pos rfl]; ring
    · rw [upd_other _ _ h, if_neg h, add_zero]
  have hmem : i ∈ range n := mem_range.mpr hi
  have h1 : ∑ k ∈ range n, b k * upd x i v k = ∑ k ∈ range n, b k * x k + b i * (v - x i) := by
    rw [← sum_ite_eq_of_mem' (range n) i (fun k => b k * (v - x i)) hmem, ← sum_add_distrib]
    refine sum_congr rfl (fun k _ => ?_)
    rw [hx k]
    split <;> ring
  have inner : ∀ k, ∑ j ∈ range n, M k j * upd x i v j =
      ∑ j ∈ range n, M k j * x j + M k i * (v - x i) := by
    intro k
    rw [← sum_ite_eq_of_mem' (range n) i (fun j => M k j * (v - x i)) hmem, ← sum_add_distrib]
    refine sum_congr rfl (fun j _ => ?_)
    rw [hx j]
    split <;> ring
  have outer : ∀ (g : Nat → ℝ), ∑ k ∈ range n, upd x i v k * g k =
      ∑ k ∈ range n, x k * g k + (v - x i) * g i := by
    intro g
    rw [← sum_ite_eq_of_mem' (range n) i (fun k => (v - x i) * g k) hmem, ← sum_add_distrib]
    refine sum_congr rfl (fun k _ => ?_)
    rw [hx k]
    split <;> ring
  have h2 : ∑ k ∈ range n, ∑ j ∈ range n, upd x i v k * M k j * upd x i v j =
      ∑ k ∈ range n, ∑ j ∈ range n, x k * M k j * x j +
        2 * (v - x i) * ∑ j ∈ range n, M i j * x j + (v - x i) ^ 2 * M i i := by
    have e1 : ∀ y : Nat → ℝ, ∑ k ∈ range n, ∑ j ∈ range n, y k * M k j * y j =
        ∑ k ∈ range n, y k * ∑ j ∈ range n, M k j * y j := by
      intro y
      refine sum_congr rfl (fun k _ => ?_)
      rw [mul_sum]
      exact sum_congr rfl (fun j _ => by ring)
    have e2 : ∑ k ∈ range n, x k * M k i = ∑ j ∈ range n, M i j * x j := by
      refine sum_congr rfl (fun k hk => ?_)
      rw [hs k i (mem_range.mp hk) hi]; ring
    rw [e1, e1, outer, inner i]
    have e3 : ∑ k ∈ range n, x k * ∑ j ∈ range n, M k j * upd x i v j =
        ∑ k ∈ range n, x k * ∑ j ∈ range n, M k j * x j +
          (v - x i) * ∑ j ∈ range n, M i j * x j := by
      rw [← e2, mul_sum, ← sum_add_distrib]
      refine sum_congr rfl (fun k _ => ?_)
      rw [inner k]; ring
    rw [e3]; ring
  unfold energyOf
  rw [h1, h2]
  ring

/-- A limited row step does not increase the energy. -/
theorem energyOf_step {n : Nat} {M : Nat → Nat → ℝ} {b lo hi x : Nat → ℝ} {i : Nat} (hi' : i < n)
    (hs : ∀ i j, i < n → j < n → M i j = M j i) (hM : 0 < M i i)
    (h1 : lo i ≤ x i) (h2 : x i ≤ hi i) :
    energyOf n M b (upd x i (rowSolveL n M b lo hi x i)) ≤ energyOf n M b x := by
  rw [energyOf_upd hi' hs]
  set g := ∑ j ∈ range n, M i j * x j - b i with hg
  have hv : rowSolveL n M b lo hi x i = clamp (lo i) (hi i) (x i - g / M i i) := by
    rw [rowSolveL, rowSolve_sub hi' (ne_of_gt hM)]
  -- the step `v - x` lies between `0` and `-g / M`
  have key : ∀ v, v = clamp (lo i) (hi i) (x i - g / M i i) →
      (v - x i) * g + (v - x i) ^ 2 * M i i / 2 ≤ 0 := by
    intro v hv
    have hgM : g = g / M i i * M i i := by field_simp
    set d := g / M i i with hd
    have hstep : (0 ≤ d → -d ≤ v - x i ∧ v - x i ≤ 0) ∧ (d ≤ 0 → 0 ≤ v - x i ∧ v - x i ≤ -d) := by
      rw [hv, clamp]
      constructor
      · intro h0
        rw [min_eq_right (by linarith)]
        constructor
        · have := le_max_right (lo i) (x i - d); linarith
        · have := max_le h1 (by linarith : x i - d ≤ x i); linarith
      · intro h0
        constructor
        · have : x i ≤ min (hi i) (x i - d) := le_min h2 (by linarith)
          have := le_trans this (le_max_right (lo i) _); linarith
        · have : max (lo i) (min (hi i) (x i - d)) ≤ x i - d :=
            max_le (by linarith) (min_le_right _ _)
          linarith
    rw [hgM]
    set t := v - x i
    have hrw : t * (d * M i i) + t ^ 2 * M i i / 2 = t * (2 * d + t) * (M i i / 2) := by ring
    rw [hrw]
    refine mul_nonpos_of_nonpos_of_nonneg ?_ (by linarith)
    rcases le_total 0 d with h0 | h0
    · obtain ⟨q1, q2⟩ := hstep.1 h0
      exact mul_nonpos_of_nonpos_of_nonneg q2 (by linarith)
    · obtain ⟨q1, q2⟩ := hstep.2 h0
      exact mul_nonpos_of_nonneg_of_nonpos q1 (by linarith)
  have := key _ hv
  linarith

/-- After any number of rows the vector is still inside the limits and has no more energy. -/
theorem energyOf_sweep {n : Nat} {M : Nat → Nat → ℝ} {b lo hi x : Nat → ℝ}
    (hs : ∀ i j, i < n → j < n → M i j = M j i) (hM : ∀ i, i < n → 0 < M i i)
    (h : ∀ i, i < n → lo i ≤ x i ∧ x i ≤ hi i) :
    ∀ m, m ≤ n → (∀ i, i < n → lo i ≤ sweepTo (rowSolveL n M b lo hi) m x i ∧
        sweepTo (rowSolveL n M b lo hi) m x i ≤ hi i) ∧
      energyOf n M b (sweepTo (rowSolveL n M b lo hi) m x) ≤ energyOf n M b x := by
  intro m
  induction m with
  | zero => exact fun _ => ⟨h, le_refl _⟩
  | succ m ih =>
    intro hm
    obtain ⟨h1, h2⟩ := ih (by omega)
    refine ⟨fun i hi' => ?_, ?_⟩
    · by_cases him : i = m
      · subst him
        rw [sweepTo, upd_same]
        exact clamp_mem (le_trans (h i hi').1 (h i hi').2) _
      · rw [sweepTo, upd_other _ _ him]; exact h1 i hi'
    · rw [sweepTo]
      exact le_trans (energyOf_step (by omega) hs (hM m (by omega)) (h1 m (by omega)).1
        (h1 m (by omega)).2) h2

theorem energyOf_iterate {n : Nat} {M : Nat → Nat → ℝ} {b lo hi x : Nat → ℝ}
    (hs : ∀ i j, i < n → j < n → M i j = M j i) (hM : ∀ i, i < n → 0 < M i i)
    (h : ∀ i, i < n → lo i ≤ x i ∧ x i ≤ hi i) (k : Nat) :
    (∀ i, i < n → lo i ≤ (sweepTo (rowSolveL n M b lo hi) n)^[k] x i ∧
        (sweepTo (rowSolveL n M b lo hi) n)^[k] x i ≤ hi i) ∧
      energyOf n M b ((sweepTo (rowSolveL n M b lo hi) n)^[k] x) ≤ energyOf n M b x := by
  induction k with
  | zero => exact ⟨h, le_refl _⟩
  | succ k ih =>
    rw [Function.iterate_succ_apply']
    obtain ⟨h1, h2⟩ := energyOf_sweep (b := b) hs hM ih.1 n (Nat.le_refl _)
    exact ⟨h1, le_trans h2 ih.2⟩

theorem sweepL_mem {n : Nat} {M : Nat → Nat → ℝ} {b lo hi : Nat → ℝ} (x : Nat → ℝ)
    (h : ∀ i, i < n → lo i ≤ hi i) {i : Nat} (hi' : i < n) :
    lo i ≤ sweepTo (rowSolveL n M b lo hi) n x i ∧
      sweepTo (rowSolveL n M b lo hi) n x i ≤ hi i := by
  rw [sweepTo_lt _ x hi']
  exact clamp_mem (h i hi') _

theorem gram_symm (w : Nat) (A : Nat → Nat → ℝ) (D : Nat → ℝ) (i j : Nat) :
    gram w A D i j = gram w A D j i := by
  unfold gram
  exact sum_congr rfl (fun c _ => by ring)

end Scs
