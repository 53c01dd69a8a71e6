import Mathlib.Analysis.Calculus.ContDiff.RCLike
import Mathlib.Analysis.Calculus.ContDiff.Operations
import Mathlib.Analysis.SpecialFunctions.Sqrt
import Mathlib.Analysis.SpecialFunctions.Trigonometric.Deriv
import Mathlib.LinearAlgebra.Matrix.Adjugate

/-!
# Functions that are Lipschitz near a point

Closure properties, and the solution of a system of linear equations by Cramer's rule. Nothing here
refers to the model of the code.
-/

namespace Scs

open Set Metric Filter Topology

variable {E F H : Type} [NormedAddCommGroup E] [NormedAddCommGroup F] [NormedAddCommGroup H]

/-- `f` is Lipschitz in a neighbourhood of `y`. -/
def LipAt (f : E → F) (y : E) : Prop :=
  ∃ (K : ℝ) (U : Set E), U ∈ 𝓝 y ∧ ∀ u ∈ U, ∀ v ∈ U, ‖f u - f v‖ ≤ K * ‖u - v‖

theorem LipAt.weaken {f : E → F} {y : E} (h : LipAt f y) :
    ∃ (K : ℝ) (U : Set E), 0 ≤ K ∧ U ∈ 𝓝 y ∧ ∀ u ∈ U, ∀ v ∈ U, ‖f u - f v‖ ≤ K * ‖u - v‖ := by
  obtain ⟨K, U, hU, hK⟩ := h
  exact ⟨|K|, U, abs_nonneg _, hU, fun u hu v hv => (hK u hu v hv).trans
    (mul_le_mul_of_nonneg_right (le_abs_self _) (norm_nonneg _))⟩

theorem LipAt.continuousAt {f : E → F} {y : E} (h : LipAt f y) : ContinuousAt f y := by
  obtain ⟨K, U, hU, hK⟩ := h
  rw [ContinuousAt, tendsto_iff_norm_sub_tendsto_zero]
  have hz : Tendsto (fun u => K * ‖u - y‖) (𝓝 y) (𝓝 0) := by
    have : Tendsto (fun u => K * ‖u - y‖) (𝓝 y) (𝓝 (K * ‖y - y‖)) :=
      (((continuous_id.sub continuous_const).norm).const_mul K).tendsto _ |>.congr fun _ => rfl
    simpa using this
  refine squeeze_zero' (Eventually.of_forall fun _ => norm_nonneg _) ?_ hz
  filter_upwards [hU] with u hu
  exact hK u hu y (mem_of_mem_nhds hU)

theorem LipAt.const (c : F) (y : E) : LipAt (fun _ : E => c) y :=
  ⟨0, univ, univ_mem, fun _ _ _ _ => by simp⟩

theorem LipAt.comp {f : E → F} {g : F → H} {y : E} (hg : LipAt g (f y)) (hf : LipAt f y) :
    LipAt (fun u => g (f u)) y := by
  obtain ⟨K, U, hU, hK⟩ := hf
  obtain ⟨L, V, L0, hV, hL⟩ := hg.weaken
  have hc : ContinuousAt f y := LipAt.continuousAt ⟨K, U, hU, hK⟩
  refine ⟨L * K, U ∩ f ⁻¹' V, inter_mem hU (hc hV), fun u hu v hv => ?_⟩
  refine (hL _ hu.2 _ hv.2).trans ?_
  rw [mul_assoc]
  exact mul_le_mul_of_nonneg_left (hK u hu.1 v hv.1) L0

theorem LipAt.prodMk {f : E → F} {g : E → H} {y : E} (hf : LipAt f y) (hg : LipAt g y) :
    LipAt (fun u => (f u, g u)) y := by
  obtain ⟨K, U, hU, hK⟩ := hf
  obtain ⟨L, V, hV, hL⟩ := hg
  refine ⟨max K L, U ∩ V, inter_mem hU hV, fun u hu v hv => ?_⟩
  rw [Prod.norm_def]
  refine max_le ((hK u hu.1 v hv.1).trans ?_) ((hL u hu.2 v hv.2).trans ?_)
  · exact mul_le_mul_of_nonneg_right (le_max_left _ _) (norm_nonneg _)
  · exact mul_le_mul_of_nonneg_right (le_max_right _ _) (norm_nonneg _)

theorem LipAt.pi {ι : Type} [Fintype ι] {f : E → ι → ℝ} {y : E}
    (h : ∀ i, LipAt (fun u => f u i) y) : LipAt f y := by
  choose K U K0 hU hK using fun i => (h i).weaken
  refine ⟨∑ i, K i, ⋂ i, U i, by simpa using hU, fun u hu v hv => ?_⟩
  have hn : 0 ≤ (∑ i, K i) * ‖u - v‖ :=
    mul_nonneg (Finset.sum_nonneg fun i _ => K0 i) (norm_nonneg _)
  refine (pi_norm_le_iff_of_nonneg hn).mpr fun i => ?_
  refine (hK i u (mem_iInter.mp hu i) v (mem_iInter.mp hv i)).trans ?_
  exact mul_le_mul_of_nonneg_right
    (Finset.single_le_sum (f := K) (fun i _ => K0 i) (Finset.mem_univ i)) (norm_nonneg _)

theorem LipAt.congr {f g : E → F} {y : E} (h : LipAt f y) (e : ∀ᶠ u in 𝓝 y, g u = f u) :
    LipAt g y := by
  obtain ⟨K, U, hU, hK⟩ := h
  refine ⟨K, U ∩ {u | g u = f u}, inter_mem hU e, fun u hu v hv => ?_⟩
  rw [show g u = f u from hu.2, show g v = f v from hv.2]
  exact hK u hu.1 v hv.1

section
variable [NormedSpace ℝ E] [NormedSpace ℝ F]

theorem ContDiffAt.lipAt {f : E → F} {y : E} (h : ContDiffAt ℝ 1 f y) : LipAt f y := by
  obtain ⟨K, U, hU, hK⟩ := h.exists_lipschitzOnWith
  exact ⟨K, U, hU, fun u hu v hv => by
    simpa [dist_eq_norm] using hK.dist_le_mul u hu v hv⟩

theorem ContDiff.lipAt {f : E → F} (h : ContDiff ℝ 1 f) (y : E) : LipAt f y :=
  ContDiffAt.lipAt h.contDiffAt

end

section
variable {f g : E → ℝ} {y : E}

theorem LipAt.add (hf : LipAt f y) (hg : LipAt g y) : LipAt (fun u => f u + g u) y :=
  LipAt.comp (g := fun p : ℝ × ℝ => p.1 + p.2)
    (ContDiff.lipAt (by fun_prop) _) (hf.prodMk hg)

theorem LipAt.sub (hf : LipAt f y) (hg : LipAt g y) : LipAt (fun u => f u - g u) y :=
  LipAt.comp (g := fun p : ℝ × ℝ => p.1 - p.2)
    (ContDiff.lipAt (by fun_prop) _) (hf.prodMk hg)

theorem LipAt.mul (hf : LipAt f y) (hg : LipAt g y) : LipAt (fun u => f u * g u) y :=
  LipAt.comp (g := fun p : ℝ × ℝ => p.1 * p.2)
    (ContDiff.lipAt (by fun_prop) _) (hf.prodMk hg)

theorem LipAt.neg (hf : LipAt f y) : LipAt (fun u => -f u) y :=
  LipAt.comp (g := fun p : ℝ => -p) (ContDiff.lipAt (by fun_prop) _) hf

theorem LipAt.inv (hf : LipAt f y) (h : f y ≠ 0) : LipAt (fun u => (f u)⁻¹) y :=
  LipAt.comp (g := fun p : ℝ => p⁻¹) (ContDiffAt.lipAt (contDiffAt_inv ℝ h)) hf

theorem LipAt.div_const (hf : LipAt f y) (c : ℝ) : LipAt (fun u => f u / c) y := by
  simp only [div_eq_mul_inv]
  exact hf.mul (LipAt.const _ _)

theorem LipAt.max (hf : LipAt f y) (hg : LipAt g y) : LipAt (fun u => max (f u) (g u)) y := by
  refine LipAt.comp (g := fun p : ℝ × ℝ => Max.max p.1 p.2) ?_ (hf.prodMk hg)
  refine ⟨1, univ, univ_mem, fun u _ v _ => ?_⟩
  rw [one_mul, Real.norm_eq_abs, Prod.norm_def]
  exact abs_max_sub_max_le_max _ _ _ _

theorem LipAt.min (hf : LipAt f y) (hg : LipAt g y) : LipAt (fun u => min (f u) (g u)) y := by
  refine LipAt.comp (g := fun p : ℝ × ℝ => Min.min p.1 p.2) ?_ (hf.prodMk hg)
  refine ⟨1, univ, univ_mem, fun u _ v _ => ?_⟩
  rw [one_mul, Real.norm_eq_abs, Prod.norm_def]
  exact abs_min_sub_min_le_max _ _ _ _

theorem LipAt.sum {ι : Type} (s : Finset ι) {f : ι → E → ℝ} (h : ∀ i ∈ s, LipAt (f i) y) :
    LipAt (fun u => ∑ i ∈ s, f i u) y := by
  classical
  induction s using Finset.induction_on with
  | empty => simpa using LipAt.const (0 : ℝ) y
  | insert i s hi ih =>
    simp only [Finset.sum_insert hi]
    exact (h i (Finset.mem_insert_self _ _)).add
      (ih fun j hj => h j (Finset.mem_insert_of_mem hj))

theorem LipAt.prod {ι : Type} (s : Finset ι) {f : ι → E → ℝ} (h : ∀ i ∈ s, LipAt (f i) y) :
    LipAt (fun u => ∏ i ∈ s, f i u) y := by
  classical
  induction s using Finset.induction_on with
  | empty => simpa using LipAt.const (1 : ℝ) y
  | insert i s hi ih =>
    simp only [Finset.prod_insert hi]
    exact (h i (Finset.mem_insert_self _ _)).mul
      (ih fun j hj => h j (Finset.mem_insert_of_mem hj))

end

section
variable {ι : Type} [Fintype ι] [DecidableEq ι] {y : E}

theorem LipAt.det {M : E → Matrix ι ι ℝ} (h : ∀ i j, LipAt (fun u => M u i j) y) :
    LipAt (fun u => (M u).det) y := by
  simp only [Matrix.det_apply]
  refine LipAt.sum _ fun σ _ => ?_
  have : (fun u => Equiv.Perm.sign σ • ∏ i, M u (σ i) i) =
      fun u => ((Equiv.Perm.sign σ : ℤ) : ℝ) * ∏ i, M u (σ i) i := by
    funext u
    rw [Units.smul_def, zsmul_eq_mul]
  rw [this]
  exact (LipAt.const _ _).mul (LipAt.prod _ fun i _ => h _ _)

/-- The solution of the equations `M z = b`. -/
noncomputable def cramerSol (M : Matrix ι ι ℝ) (b : ι → ℝ) (i : ι) : ℝ := M.det⁻¹ * M.cramer b i

theorem cramerSol_spec {M : Matrix ι ι ℝ} (h : M.det ≠ 0) (b : ι → ℝ) (i : ι) :
    ∑ j, M i j * cramerSol M b j = b i := by
  have e := congrFun (Matrix.mulVec_cramer M b) i
  have e1 : ∑ j, M i j * cramerSol M b j = M.det⁻¹ * ∑ j, M i j * M.cramer b j := by
    rw [Finset.mul_sum]
    exact Finset.sum_congr rfl fun j _ => by rw [cramerSol]; ring
  have e2 : ∑ j, M i j * M.cramer b j = M.det * b i := by
    simpa [Matrix.mulVec, dotProduct] using e
  rw [e1, e2, ← mul_assoc, inv_mul_cancel₀ h, one_mul]

theorem LipAt.cramerSol {M : E → Matrix ι ι ℝ} {b : E → ι → ℝ}
    (hM : ∀ i j, LipAt (fun u => M u i j) y) (hb : ∀ i, LipAt (fun u => b u i) y)
    (h : (M y).det ≠ 0) (i : ι) : LipAt (fun u => cramerSol (M u) (b u) i) y := by
  refine ((LipAt.det hM).inv h).mul ?_
  simp only [Matrix.cramer_apply]
  refine LipAt.det fun j k => ?_
  by_cases hk : k = i
  · subst hk
    simp only [Matrix.updateCol_self]
    exact hb j
  · simp only [Matrix.updateCol_ne hk]
    exact hM j k

end

end Scs
