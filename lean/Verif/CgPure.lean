import Mathlib.Analysis.InnerProductSpace.PiL2
import Mathlib.Analysis.InnerProductSpace.Orthonormal
import Mathlib.LinearAlgebra.FiniteDimensional.Basic
import Mathlib.Tactic.FieldSimp
import Mathlib.Tactic.LinearCombination

/-!
# Conjugate directions

The conjugate gradient recurrence on vectors with `n` components reaches residual zero after at most
`n` steps.
-/

namespace Scs

open Finset

/-- Inner product of the first `n` components. -/
noncomputable def ip (n : Nat) (u v : Nat → ℝ) : ℝ := ∑ i ∈ range n, u i * v i

/-- The product of an `n` x `n` matrix and a vector. -/
noncomputable def mulV (n : Nat) (M : Nat → Nat → ℝ) (v : Nat → ℝ) (i : Nat) : ℝ :=
  ∑ j ∈ range n, M i j * v j

theorem ip_comm (n : Nat) (u v : Nat → ℝ) : ip n u v = ip n v u :=
  sum_congr rfl (fun _ _ => mul_comm _ _)

theorem ip_lin (n : Nat) (u v w : Nat → ℝ) (c : ℝ) :
    ip n (fun i => u i + v i * c) w = ip n u w + c * ip n v w := by
  simp only [ip, mul_sum, ← sum_add_distrib]
  exact sum_congr rfl (fun _ _ => by ring)

theorem ip_lin' (n : Nat) (u v w : Nat → ℝ) (c : ℝ) :
    ip n (fun i => c * u i + v i) w = c * ip n u w + ip n v w := by
  simp only [ip, mul_sum, ← sum_add_distrib]
  exact sum_congr rfl (fun _ _ => by ring)

theorem ip_congr {n : Nat} {u u' v v' : Nat → ℝ} (h : ∀ i, i < n → u i = u' i)
    (h' : ∀ i, i < n → v i = v' i) : ip n u v = ip n u' v' :=
  sum_congr rfl (fun i hi => by rw [h i (mem_range.mp hi), h' i (mem_range.mp hi)])

theorem ip_self_nonneg (n : Nat) (u : Nat → ℝ) : 0 ≤ ip n u u :=
  sum_nonneg (fun _ _ => mul_self_nonneg _)

theorem ip_self_eq_zero {n : Nat} {u : Nat → ℝ} : ip n u u = 0 ↔ ∀ i, i < n → u i = 0 := by
  rw [ip, sum_eq_zero_iff_of_nonneg (fun _ _ => mul_self_nonneg _)]
  constructor
  · intro h i hi; exact mul_self_eq_zero.mp (h i (mem_range.mpr hi))
  · intro h i hi; rw [h i (mem_range.mp hi), mul_zero]

theorem ip_mulV_symm {n : Nat} {M : Nat → Nat → ℝ} (hs : ∀ i j, i < n → j < n → M i j = M j i)
    (u v : Nat → ℝ) : ip n u (mulV n M v) = ip n v (mulV n M u) := by
  simp only [ip, mulV, mul_sum]
  rw [sum_comm]
  refine sum_congr rfl (fun j hj => sum_congr rfl (fun i hi => ?_))
  rw [hs i j (mem_range.mp hi) (mem_range.mp hj)]; ring

theorem mulV_lin (n : Nat) (M : Nat → Nat → ℝ) (u v : Nat → ℝ) (c : ℝ) (i : Nat) :
    mulV n M (fun j => u j + v j * c) i = mulV n M u i + mulV n M v i * c := by
  simp only [mulV, sum_mul, ← sum_add_distrib]
  exact sum_congr rfl (fun _ _ => by ring)

/-- Symmetric positive definite, as a statement about the first `n` rows and columns. -/
structure PosDef (n : Nat) (M : Nat → Nat → ℝ) : Prop where
  symm : ∀ i j, i < n → j < n → M i j = M j i
  pos : ∀ v : Nat → ℝ, (∃ i, i < n ∧ v i ≠ 0) →
    0 < ∑ i ∈ range n, ∑ j ∈ range n, v i * M i j * v j

theorem PosDef.ip_pos {n : Nat} {M : Nat → Nat → ℝ} (h : PosDef n M) {v : Nat → ℝ}
    (hv : ip n v v ≠ 0) : 0 < ip n v (mulV n M v) := by
  have : ∃ i, i < n ∧ v i ≠ 0 := by
    by_contra hc
    refine hv (ip_self_eq_zero.mpr (fun i hi => ?_))
    by_contra hz
    exact hc ⟨i, hi, hz⟩
  have h2 := h.pos v this
  simp only [ip, mulV, mul_sum]
  convert h2 using 3
  ring

/-- The conjugate gradient recurrence: search direction and residual. -/
structure CgSeq (n : Nat) (M : Nat → Nat → ℝ) (r p : Nat → Nat → ℝ) : Prop where
  init : ∀ i, i < n → p 0 i = r 0 i
  res : ∀ k i, i < n → r (k + 1) i =
    r k i + mulV n M (p k) i * -(ip n (r k) (r k) / ip n (p k) (mulV n M (p k)))
  dir : ∀ k i, i < n → p (k + 1) i =
    ip n (r (k + 1)) (r (k + 1)) / ip n (r k) (r k) * p k i + r (k + 1) i

/-- Orthogonality and conjugacy up to step `k`. -/
structure CgOrth (n : Nat) (M : Nat → Nat → ℝ) (r p : Nat → Nat → ℝ) (k : Nat) : Prop where
  rr : ∀ i, i < k → ip n (r k) (r i) = 0
  rp : ∀ i, i < k → ip n (r k) (p i) = 0
  pp : ∀ i, i < k → ip n (p k) (mulV n M (p i)) = 0
  self : ip n (r k) (p k) = ip n (r k) (r k)

theorem CgOrth.p_ne {n : Nat} {M : Nat → Nat → ℝ} {r p : Nat → Nat → ℝ} {k : Nat}
    (h : CgOrth n M r p k) (hr : ip n (r k) (r k) ≠ 0) : ip n (p k) (p k) ≠ 0 := by
  intro hz
  rw [ip_self_eq_zero] at hz
  apply hr
  rw [← h.self, ip]
  exact sum_eq_zero (fun i hi => by rw [hz i (mem_range.mp hi), mul_zero])

theorem CgSeq.orth {n : Nat} {M : Nat → Nat → ℝ} {r p : Nat → Nat → ℝ} (h : CgSeq n M r p)
    (hM : PosDef n M) : ∀ k, (∀ i, i < k → ip n (r i) (r i) ≠ 0) → CgOrth n M r p k := by
  intro k
  induction k using Nat.strong_induction_on with
  | _ k ih =>
    intro hr
    cases k with
    | zero =>
      exact ⟨by intro i hi; omega, by intro i hi; omega, by intro i hi; omega,
        ip_congr (fun _ _ => rfl) h.init⟩
    | succ k =>
      have hk := ih k (by omega) (fun i hi => hr i (by omega))
      have hrk := hr k (by omega)
      have hpk : ∀ i, i ≤ k → 0 < ip n (p i) (mulV n M (p i)) := fun i hi =>
        hM.ip_pos ((ih i (by omega) (fun j hj => hr j (by omega))).p_ne (hr i (by omega)))
      have eres : ∀ w, ip n (r (k + 1)) w = ip n (r k) w +
          -(ip n (r k) (r k) / ip n (p k) (mulV n M (p k))) * ip n (mulV n M (p k)) w := by
        intro w
        rw [← ip_lin]
        exact ip_congr (h.res k) (fun _ _ => rfl)
      -- r_{k+1} is orthogonal to all earlier directions
      have hrp : ∀ i, i < k + 1 → ip n (r (k + 1)) (p i) = 0 := by
        intro i hi
        rw [eres]
        by_cases hik : i = k
        · subst hik
          have := (hpk i (Nat.le_refl i)).ne'
          rw [ip_comm n (mulV n M (p i)), hk.self]
          field_simp
          ring
        · rw [hk.rp i (by omega), ip_comm n (mulV n M (p k)),
            ip_mulV_symm hM.symm (p i) (p k), hk.pp i (by omega)]
          ring
      have hrr : ∀ i, i < k + 1 → ip n (r (k + 1)) (r i) = 0 := by
        intro i hi
        cases i with
        | zero =>
          rw [← hrp 0 hi]
          exact ip_congr (fun _ _ => rfl) (fun i hi => (h.init i hi).symm)
        | succ i =>
          have e : ip n (p (i + 1)) (r (k + 1)) =
              ip n (r (i + 1)) (r (i + 1)) / ip n (r i) (r i) * ip n (p i) (r (k + 1)) +
              ip n (r (i + 1)) (r (k + 1)) := by
            rw [← ip_lin']
            exact ip_congr (h.dir i) (fun _ _ => rfl)
          rw [ip_comm n (p (i + 1)), hrp (i + 1) hi, ip_comm n (p i), hrp i (by omega)] at e
          rw [ip_comm]
          linarith
      -- A p_i is a multiple of the difference of two residuals
      have hAp : ∀ i, i ≤ k → ip n (r i) (r i) * ip n (r (k + 1)) (mulV n M (p i)) =
          ip n (p i) (mulV n M (p i)) * (ip n (r (k + 1)) (r i) - ip n (r (k + 1)) (r (i + 1))) := by
        intro i hi
        have e : ip n (r (i + 1)) (r (k + 1)) = ip n (r i) (r (k + 1)) +
            -(ip n (r i) (r i) / ip n (p i) (mulV n M (p i))) *
              ip n (mulV n M (p i)) (r (k + 1)) := by
          rw [← ip_lin]
          exact ip_congr (h.res i) (fun _ _ => rfl)
        have := (hpk i hi).ne'
        rw [ip_comm n (r (k + 1)) (r (i + 1)), e, ip_comm n (r (k + 1)) (mulV n M (p i)),
          ip_comm n (r (k + 1)) (r i)]
        field_simp
        ring
      have edir : ∀ w, ip n (p (k + 1)) w =
          ip n (r (k + 1)) (r (k + 1)) / ip n (r k) (r k) * ip n (p k) w + ip n (r (k + 1)) w := by
        intro w
        rw [← ip_lin']
        exact ip_congr (h.dir k) (fun _ _ => rfl)
      refine ⟨hrr, hrp, ?_, ?_⟩
      · intro i hi
        rw [edir]
        have h1 := hAp i (by omega)
        rw [hrr i hi, zero_sub] at h1
        by_cases hik : i = k
        · subst hik
          field_simp
          linarith
        · rw [hk.pp i (by omega), mul_zero, zero_add]
          rw [hrr (i + 1) (by omega), neg_zero, mul_zero] at h1
          exact (mul_eq_zero.mp h1).resolve_left (hr i (by omega))
      · rw [ip_comm, edir, ip_comm n (p k), hrp k (by omega)]
        ring

/-- At most `n` mutually orthogonal non-zero vectors exist. -/
theorem orth_bound {n k : Nat} {r : Nat → Nat → ℝ} (hne : ∀ i, i < k → ip n (r i) (r i) ≠ 0)
    (ho : ∀ i j, i < k → j < i → ip n (r i) (r j) = 0) : k ≤ n := by
  let v : Fin k → EuclideanSpace ℝ (Fin n) := fun i => WithLp.toLp 2 (fun j => r i j)
  have hin : ∀ i j, inner ℝ (v i) (v j) = ip n (r i) (r j) := by
    intro i j
    rw [ip, ← Fin.sum_univ_eq_sum_range (fun l => r i l * r j l)]
    simp only [v, PiLp.inner_apply]
    refine sum_congr rfl (fun l _ => ?_)
    simp [mul_comm]
  have hli : LinearIndependent ℝ v := by
    refine linearIndependent_of_ne_zero_of_inner_eq_zero ?_ ?_
    · intro i hz
      apply hne i i.isLt
      rw [← hin, hz, inner_zero_left]
    · intro i j hij
      simp only [hin]
      rcases Nat.lt_or_ge j i with h | h
      · exact ho i j i.isLt h
      · have : (i : Nat) < j := lt_of_le_of_ne h (fun q => hij (Fin.ext q))
        rw [ip_comm]; exact ho j i j.isLt this
  have := hli.fintype_card_le_finrank
  simpa using this

/-- The residual vanishes at step `n` or earlier. -/
theorem CgSeq.ends {n : Nat} {M : Nat → Nat → ℝ} {r p : Nat → Nat → ℝ} (h : CgSeq n M r p)
    (hM : PosDef n M) : ∃ k, k ≤ n ∧ ip n (r k) (r k) = 0 := by
  by_contra hc
  have hne : ∀ i, i < n + 1 → ip n (r i) (r i) ≠ 0 := fun i hi hz => hc ⟨i, by omega, hz⟩
  have := orth_bound hne (fun i j hi hj =>
    (h.orth hM i (fun l hl => hne l (by omega))).rr j hj)
  omega

end Scs
