import Mathlib.Analysis.ODE.ExistUnique
import Verif.LipAt
import Verif.Converge

/-!
# Short-time existence of motions

A locally Lipschitz acceleration has a motion from every initial position and velocity, for a short
time (Picard-Lindelöf). Used for C92.
-/

namespace Scs

open Set Filter Topology

theorem flow_exists {E : Type} [NormedAddCommGroup E] [NormedSpace ℝ E] [CompleteSpace E]
    {a : E × E → E} {y : E × E} (h : LipAt a y) {Good : E × E → Prop}
    (hg : ∀ᶠ z in 𝓝 y, Good z) :
    ∃ T : ℝ, 0 < T ∧ ∃ Y : ℝ → E × E, Y 0 = y ∧
      ∀ t ∈ Icc 0 T, Good (Y t) ∧ HasDerivWithinAt Y (flow a (Y t)) (Icc 0 T) t := by
  have hf : LipAt (flow a) y :=
    (ContDiff.lipAt (f := fun u : E × E => u.2) contDiff_snd y).prodMk h
  obtain ⟨K, U, hK, hU, hl⟩ := hf.weaken
  obtain ⟨ε, hε, hball⟩ := Metric.nhds_basis_closedBall.mem_iff.mp hU
  set L := ‖flow a y‖ + K * ε with hL
  have hL0 : 0 ≤ L := by positivity
  set T := ε / (L + 1) with hT
  have hT0 : 0 < T := by positivity
  have hp : IsPicardLindelof (fun _ => flow a) (tmin := 0) (tmax := T) ⟨0, le_rfl, hT0.le⟩ y
      ⟨ε, hε.le⟩ 0 ⟨L, hL0⟩ ⟨K, hK⟩ := by
    refine ⟨fun t _ => ?_, fun x _ => continuousOn_const, fun t _ x hx => ?_, ?_⟩
    · refine LipschitzOnWith.of_dist_le_mul fun u hu v hv => ?_
      rw [dist_eq_norm, dist_eq_norm]
      exact hl u (hball hu) v (hball hv)
    · have h1 := hl x (hball hx) y (mem_of_mem_nhds hU)
      have h2 : ‖x - y‖ ≤ ε := by rw [← dist_eq_norm]; exact hx
      have h3 := mul_le_mul_of_nonneg_left h2 hK
      have h4 : ‖flow a x‖ ≤ ‖flow a y‖ + ‖flow a x - flow a y‖ := by
        have := norm_add_le (flow a y) (flow a x - flow a y)
        rwa [add_sub_cancel] at this
      show ‖flow a x‖ ≤ L
      linarith
    · show L * max (T - 0) (0 - 0) ≤ ε - 0
      rw [sub_zero, sub_zero, sub_zero, max_eq_left hT0.le, hT, mul_div_assoc', div_le_iff₀ (by positivity)]
      nlinarith
  obtain ⟨Y, h0, hY⟩ := hp.exists_eq_forall_mem_Icc_hasDerivWithinAt₀
  have h0 : Y 0 = y := h0
  have hc : ContinuousWithinAt Y (Icc 0 T) 0 := (hY 0 ⟨le_rfl, hT0.le⟩).continuousWithinAt
  have hev : ∀ᶠ t in 𝓝[Icc 0 T] 0, Good (Y t) := hc.eventually (by rw [h0]; exact hg)
  obtain ⟨δ, hδ, hd⟩ := Metric.mem_nhdsWithin_iff.mp hev
  refine ⟨min T (δ / 2), by positivity, Y, h0, fun t ht => ?_⟩
  have ht1 : t ∈ Icc 0 T := ⟨ht.1, ht.2.trans (min_le_left _ _)⟩
  refine ⟨hd ⟨?_, ht1⟩, (hY t ht1).mono (Icc_subset_Icc_right (min_le_left _ _))⟩
  rw [Metric.mem_ball, dist_zero_right, Real.norm_eq_abs, abs_of_nonneg ht.1]
  have := ht.2.trans (min_le_right _ _)
  linarith

end Scs
