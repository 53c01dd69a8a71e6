import Mathlib.Analysis.Calculus.MeanValue
import Mathlib.Analysis.SpecialFunctions.Exp
import Mathlib.Topology.MetricSpace.Lipschitz
import Mathlib.Topology.UniformSpace.Compact

/-!
# Convergence of one-step methods

The analysis behind C93: second order differential equations whose right hand side is Lipschitz near
a solution, and the steps of the three ODE solvers near that solution. Nothing here refers to the
model of the code.
-/

namespace Scs

open Set Metric Filter Topology

section
variable {P : Type} [NormedAddCommGroup P] [NormedSpace ℝ P]

/-- The right hand side of the equations of motion as a first order system. -/
def flow (a : P × P → P) (y : P × P) : P × P := (y.2, a y)

/-- A neighbourhood of radius `r` of the solution `Y` on which everything needed holds. -/
structure Tube (a : P × P → P) (Good : P × P → Prop) (Y : ℝ → P × P) (T r K B : ℝ) : Prop where
  pos : 0 < r
  K0 : 0 ≤ K
  B0 : 0 ≤ B
  good : ∀ t ∈ Icc 0 T, ∀ y, ‖y - Y t‖ < r → Good y
  lip : ∀ t ∈ Icc 0 T, ∀ y, ‖y - Y t‖ < r → ‖a y - a (Y t)‖ ≤ K * ‖y - Y t‖
  bound : ∀ t ∈ Icc 0 T, ‖flow a (Y t)‖ ≤ B

/-- Local Lipschitz constants near the points of a compact set. -/
theorem lipschitz_near {E F : Type} [NormedAddCommGroup E] [NormedAddCommGroup F] {f : E → F}
    {S : Set E} (hS : IsCompact S)
    (h : ∀ x ∈ S, ∃ (K : ℝ) (U : Set E), U ∈ 𝓝 x ∧ ∀ y ∈ U, ∀ z ∈ U, ‖f y - f z‖ ≤ K * ‖y - z‖) :
    ∃ r > 0, ∃ K, 0 ≤ K ∧ ∀ x ∈ S, ∀ y, ‖y - x‖ < r → ‖f y - f x‖ ≤ K * ‖y - x‖ := by
  choose! K U hU hK using h
  obtain ⟨t, ht, hc⟩ := hS.elim_nhds_subcover (fun x => interior (U x))
    fun x hx => interior_mem_nhds.mpr (hU x hx)
  obtain ⟨r, hr, hl⟩ := lebesgue_number_lemma_of_metric (c := fun i : t => interior (U i)) hS
    (fun _ => isOpen_interior) (by
      intro x hx
      obtain ⟨i, hi, h⟩ := mem_iUnion₂.mp (hc hx)
      exact mem_iUnion.mpr ⟨⟨i, hi⟩, h⟩)
  refine ⟨r, hr, ∑ x ∈ t, |K x|, Finset.sum_nonneg fun _ _ => abs_nonneg _, fun x hx y hy => ?_⟩
  obtain ⟨i, hi⟩ := hl x hx
  have h1 := interior_subset (hi (mem_ball_self hr))
  have h2 := interior_subset (hi (mem_ball.mpr (by rw [dist_eq_norm]; exact hy)))
  refine (hK _ (ht _ i.2) y h2 x h1).trans (mul_le_mul_of_nonneg_right ?_ (norm_nonneg _))
  exact (le_abs_self _).trans (Finset.single_le_sum (f := fun x => |K x|)
    (fun _ _ => abs_nonneg _) i.2)

/-- An open condition holds in a neighbourhood of a compact set. -/
theorem good_near {E : Type} [NormedAddCommGroup E] {Good : E → Prop} {S : Set E}
    (hS : IsCompact S) (h : ∀ x ∈ S, ∀ᶠ y in 𝓝 x, Good y) :
    ∃ r > 0, ∀ x ∈ S, ∀ y, ‖y - x‖ < r → Good y := by
  obtain ⟨r, hr, hl⟩ := lebesgue_number_lemma_of_metric (c := fun _ : Unit => interior {y | Good y})
    hS (fun _ => isOpen_interior) (by
      intro x hx
      exact mem_iUnion.mpr ⟨(), mem_interior_iff_mem_nhds.mpr (h x hx)⟩)
  refine ⟨r, hr, fun x hx y hy => ?_⟩
  obtain ⟨i, hi⟩ := hl x hx
  exact interior_subset (hi (mem_ball.mpr (by rw [dist_eq_norm]; exact hy)))

variable {a : P × P → P} {Good : P × P → Prop} {Y : ℝ → P × P} {T r K B : ℝ}

theorem Tube.exists (hY : ∀ t ∈ Icc 0 T, HasDerivWithinAt Y (flow a (Y t)) (Icc 0 T) t)
    (hL : ∀ t ∈ Icc 0 T, ∃ (K : ℝ) (U : Set (P × P)), U ∈ 𝓝 (Y t) ∧
      ∀ y ∈ U, ∀ z ∈ U, ‖a y - a z‖ ≤ K * ‖y - z‖)
    (hg : ∀ t ∈ Icc 0 T, ∀ᶠ y in 𝓝 (Y t), Good y) : ∃ r K B, Tube a Good Y T r K B := by
  have hc : ContinuousOn Y (Icc 0 T) := fun t ht => (hY t ht).continuousWithinAt
  have hS : IsCompact (Y '' Icc 0 T) := isCompact_Icc.image_of_continuousOn hc
  obtain ⟨r1, h1, K, K0, l⟩ := lipschitz_near (f := a) hS (by
    rintro _ ⟨t, ht, rfl⟩
    exact hL t ht)
  obtain ⟨r2, h2, g⟩ := good_near (Good := Good) hS (by
    rintro _ ⟨t, ht, rfl⟩
    exact hg t ht)
  have ha : ContinuousOn (flow a) (Y '' Icc 0 T) := by
    refine ContinuousOn.prodMk continuousOn_snd ?_
    rintro _ ⟨t, ht, rfl⟩
    refine ContinuousAt.continuousWithinAt ?_
    rw [ContinuousAt, tendsto_iff_norm_sub_tendsto_zero]
    have hz : Tendsto (fun y => K * ‖y - Y t‖) (𝓝 (Y t)) (𝓝 0) := by
      have : Tendsto (fun y => K * ‖y - Y t‖) (𝓝 (Y t)) (𝓝 (K * ‖Y t - Y t‖)) :=
        (((continuous_id.sub continuous_const).norm).const_mul K).tendsto _ |>.congr fun _ => rfl
      simpa using this
    refine squeeze_zero' (Eventually.of_forall fun _ => norm_nonneg _) ?_ hz
    filter_upwards [ball_mem_nhds (Y t) h1] with y hy
    exact l _ ⟨t, ht, rfl⟩ y (by rwa [mem_ball, dist_eq_norm] at hy)
  obtain ⟨B, hB⟩ := (hS.image_of_continuousOn ha).isBounded.exists_norm_le
  refine ⟨min r1 r2, K, max B 0, lt_min h1 h2, K0, le_max_right _ _, fun t ht y hy => ?_,
    fun t ht y hy => ?_, fun t ht => ?_⟩
  · exact g _ ⟨t, ht, rfl⟩ y (hy.trans_le (min_le_right _ _))
  · exact l _ ⟨t, ht, rfl⟩ y (hy.trans_le (min_le_left _ _))
  · exact (hB _ ⟨_, ⟨t, ht, rfl⟩, rfl⟩).trans (le_max_left _ _)

/-- The solution moves at most at the speed `B`. -/
theorem Tube.speed (u : Tube a Good Y T r K B)
    (hY : ∀ t ∈ Icc 0 T, HasDerivWithinAt Y (flow a (Y t)) (Icc 0 T) t) {s t : ℝ}
    (hs : s ∈ Icc 0 T) (ht : t ∈ Icc 0 T) : ‖Y s - Y t‖ ≤ B * ‖s - t‖ :=
  (convex_Icc 0 T).norm_image_sub_le_of_norm_hasDerivWithin_le hY (fun t ht => u.bound t ht) ht hs

theorem flow_lip (u : Tube a Good Y T r K B) {t : ℝ} (ht : t ∈ Icc 0 T) {y : P × P}
    (hy : ‖y - Y t‖ < r) : ‖flow a y - flow a (Y t)‖ ≤ (K + 1) * ‖y - Y t‖ := by
  have h1 : ‖y.2 - (Y t).2‖ ≤ ‖y - Y t‖ := norm_snd_le (y - Y t)
  have h2 := u.lip t ht y hy
  have h0 := norm_nonneg (y - Y t)
  have := u.K0
  rw [Prod.norm_def]
  refine max_le (h1.trans ?_) (h2.trans ?_) <;> nlinarith

/-- The solution over a short time. -/
theorem Tube.taylor (u : Tube a Good Y T r K B)
    (hY : ∀ t ∈ Icc 0 T, HasDerivWithinAt Y (flow a (Y t)) (Icc 0 T) t) {t h : ℝ}
    (h0 : 0 ≤ h) (hr : B * h < r) (ht : t ∈ Icc 0 T) (ht' : t + h ∈ Icc 0 T) :
    ‖Y (t + h) - Y t - h • flow a (Y t)‖ ≤ (K + 1) * B * h ^ 2 := by
  have hsub : Icc t (t + h) ⊆ Icc 0 T := Icc_subset_Icc ht.1 ht'.2
  have hd : ∀ s ∈ Icc t (t + h), HasDerivWithinAt (fun s => Y s - s • flow a (Y t))
      (flow a (Y s) - flow a (Y t)) (Icc t (t + h)) s := fun s hs => by
    have := ((hY s (hsub hs)).mono hsub).sub
      ((hasDerivWithinAt_id s (Icc t (t + h))).smul_const (flow a (Y t)))
    rw [one_smul] at this
    exact this
  have hb : ∀ s ∈ Icc t (t + h), ‖flow a (Y s) - flow a (Y t)‖ ≤ (K + 1) * (B * h) := fun s hs => by
    have h1 := u.speed hY (hsub hs) ht
    have h2 : ‖s - t‖ ≤ h := by
      rw [Real.norm_eq_abs, abs_of_nonneg (by linarith [hs.1])]
      linarith [hs.2]
    have h3 : ‖Y s - Y t‖ ≤ B * h := h1.trans (mul_le_mul_of_nonneg_left h2 u.B0)
    refine (flow_lip u ht (h3.trans_lt hr)).trans (mul_le_mul_of_nonneg_left h3 ?_)
    linarith [u.K0]
  have := (convex_Icc t (t + h)).norm_image_sub_le_of_norm_hasDerivWithin_le hd hb
    (left_mem_Icc.mpr (by linarith)) (right_mem_Icc.mpr (by linarith))
  have e : Y (t + h) - (t + h) • flow a (Y t) - (Y t - t • flow a (Y t)) =
      Y (t + h) - Y t - h • flow a (Y t) := by
    rw [add_smul]; abel
  rw [e] at this
  refine this.trans (le_of_eq ?_)
  rw [add_sub_cancel_left, Real.norm_eq_abs, abs_of_nonneg h0]
  ring

/-- A step that follows the solution up to terms of second order. -/
theorem Tube.step (u : Tube a Good Y T r K B)
    (hY : ∀ t ∈ Icc 0 T, HasDerivWithinAt Y (flow a (Y t)) (Icc 0 T) t) {t h D : ℝ}
    (h0 : 0 ≤ h) (hr : B * h < r) (ht : t ∈ Icc 0 T) (ht' : t + h ∈ Icc 0 T) {y y' : P × P}
    (hy : ‖y' - y - h • flow a (Y t)‖ ≤ (K + 1) * h * ‖y - Y t‖ + D * h ^ 2) :
    ‖y' - Y (t + h)‖ ≤ (1 + (K + 1) * h) * ‖y - Y t‖ + (D + (K + 1) * B) * h ^ 2 := by
  have e : y' - Y (t + h) = (y' - y - h • flow a (Y t)) + (y - Y t) -
      (Y (t + h) - Y t - h • flow a (Y t)) := by abel
  rw [e]
  refine (norm_sub_le _ _).trans ?_
  have h1 := u.taylor hY h0 hr ht ht'
  have h2 := norm_add_le (y' - y - h • flow a (Y t)) (y - Y t)
  nlinarith

/-- Positions and velocities a time `h` after `y` with the acceleration `α`: new velocities first,
and positions with the new velocities. -/
def ahead (y : P × P) (h : ℝ) (α : P) : P × P := (y.1 + h • (y.2 + h • α), y.2 + h • α)

theorem Tube.acc_le (u : Tube a Good Y T r K B) {t : ℝ} (ht : t ∈ Icc 0 T) {y : P × P}
    (hy : ‖y - Y t‖ < r) : ‖a y‖ ≤ B + K * r := by
  have h1 := u.lip t ht y hy
  have h2 : ‖a (Y t)‖ ≤ B := (norm_snd_le (flow a (Y t))).trans (u.bound t ht)
  have h3 := norm_sub_norm_le (a y) (a (Y t))
  have h4 := mul_le_mul_of_nonneg_left hy.le u.K0
  linarith

theorem Tube.vel_le (u : Tube a Good Y T r K B) {t : ℝ} (ht : t ∈ Icc 0 T) {y : P × P}
    (hy : ‖y - Y t‖ < r) : ‖y.2‖ ≤ B + r := by
  have h1 : ‖y.2 - (Y t).2‖ ≤ ‖y - Y t‖ := norm_snd_le (y - Y t)
  have h2 : ‖(Y t).2‖ ≤ B := (norm_fst_le (flow a (Y t))).trans (u.bound t ht)
  have h3 := norm_sub_norm_le y.2 (Y t).2
  linarith

/-- How far the intermediate evaluations are from the start of the step. -/
theorem ahead_near {y : P × P} {h V A : ℝ} {α : P} (h0 : 0 ≤ h) (h1 : h ≤ 1) (hv : ‖y.2‖ ≤ V)
    (hα : ‖α‖ ≤ A) : ‖ahead y h α - y‖ ≤ h * (V + A) := by
  have hA : 0 ≤ A := (norm_nonneg _).trans hα
  have hV : 0 ≤ V := (norm_nonneg _).trans hv
  have n1 : ‖h • α‖ ≤ h * A := by
    rw [norm_smul, Real.norm_eq_abs, abs_of_nonneg h0]
    exact mul_le_mul_of_nonneg_left hα h0
  have n2 : ‖h • (y.2 + h • α)‖ ≤ h * (V + h * A) := by
    rw [norm_smul, Real.norm_eq_abs, abs_of_nonneg h0]
    exact mul_le_mul_of_nonneg_left ((norm_add_le _ _).trans (add_le_add hv n1)) h0
  have e : ahead y h α - y = (h • (y.2 + h • α), h • α) := by
    simp [ahead, Prod.ext_iff]
  rw [e, Prod.norm_def]
  have h2 : h * A ≤ A := by nlinarith
  refine max_le (n2.trans ?_) (n1.trans ?_) <;> nlinarith

theorem Tube.euler (u : Tube a Good Y T r K B) {t h D : ℝ} (hD : 0 ≤ D) (h0 : 0 ≤ h) (ht : t ∈ Icc 0 T)
    {y : P × P} (hy : ‖y - Y t‖ < r) :
    ‖(y.1 + h • y.2, y.2 + h • a y) - y - h • flow a (Y t)‖ ≤
      (K + 1) * h * ‖y - Y t‖ + D * h ^ 2 := by
  have e : (y.1 + h • y.2, y.2 + h • a y) - y - h • flow a (Y t) =
      h • (flow a y - flow a (Y t)) := by
    simp [Prod.ext_iff, flow, smul_sub]
  rw [e, norm_smul, Real.norm_eq_abs, abs_of_nonneg h0]
  have := mul_le_mul_of_nonneg_left (flow_lip u ht hy) h0
  nlinarith [mul_nonneg hD (sq_nonneg h)]

theorem Tube.nsv (u : Tube a Good Y T r K B) {t h D : ℝ} (hD : B + K * r ≤ D) (h0 : 0 ≤ h)
    (ht : t ∈ Icc 0 T) {y : P × P} (hy : ‖y - Y t‖ < r) :
    ‖ahead y h (a y) - y - h • flow a (Y t)‖ ≤ (K + 1) * h * ‖y - Y t‖ + D * h ^ 2 := by
  have e : ahead y h (a y) - y - h • flow a (Y t) =
      h • (flow a y - flow a (Y t)) + ((h ^ 2) • a y, 0) := by
    simp only [Prod.ext_iff, flow, ahead, Prod.fst_sub, Prod.snd_sub, Prod.smul_fst, Prod.smul_snd,
      Prod.fst_add, Prod.snd_add, smul_sub, smul_add, smul_smul, ← sq]
    constructor <;> abel
  have h1 : ‖(((h ^ 2) • a y, 0) : P × P)‖ ≤ D * h ^ 2 := by
    rw [Prod.norm_def]
    have := u.acc_le ht hy
    simp only [norm_zero, norm_smul, Real.norm_eq_abs, abs_of_nonneg (sq_nonneg h)]
    have h2 : h ^ 2 * ‖a y‖ ≤ D * h ^ 2 := by
      rw [mul_comm]
      exact mul_le_mul_of_nonneg_right (this.trans hD) (sq_nonneg h)
    exact max_le h2 ((mul_nonneg (sq_nonneg h) (norm_nonneg _)).trans h2)
  rw [e]
  refine (norm_add_le _ _).trans (add_le_add ?_ h1)
  rw [norm_smul, Real.norm_eq_abs, abs_of_nonneg h0]
  have := mul_le_mul_of_nonneg_left (flow_lip u ht hy) h0
  nlinarith

/-- The acceleration in an intermediate evaluation. -/
theorem Tube.stage (u : Tube a Good Y T r K B) {t h k : ℝ} (h0 : 0 ≤ k) (hk : k ≤ h) (h1 : h ≤ 1)
    (ht : t ∈ Icc 0 T) {y : P × P} {α : P}
    (hy : ‖y - Y t‖ + h * (2 * B + r + K * r) < r) (hα : ‖α‖ ≤ B + K * r) :
    ‖ahead y k α - Y t‖ < r ∧ ‖a (ahead y k α) - a (Y t)‖ ≤
      K * (‖y - Y t‖ + h * (2 * B + r + K * r)) ∧ ‖a (ahead y k α)‖ ≤ B + K * r := by
  have c0 : 0 ≤ 2 * B + r + K * r := by have := u.B0; have := u.pos; have := u.K0; positivity
  have hy' : ‖y - Y t‖ < r := by nlinarith [mul_nonneg (h0.trans hk) c0]
  have n := ahead_near h0 (hk.trans h1) (u.vel_le ht hy') hα
  have e : ahead y k α - Y t = (ahead y k α - y) + (y - Y t) := by abel
  have n2 : ‖ahead y k α - Y t‖ ≤ ‖y - Y t‖ + h * (2 * B + r + K * r) := by
    rw [e]
    refine (norm_add_le _ _).trans ?_
    have := mul_le_mul_of_nonneg_right hk c0
    nlinarith
  have n3 := n2.trans_lt hy
  exact ⟨n3, (u.lip t ht _ n3).trans (mul_le_mul_of_nonneg_left n2 u.K0), u.acc_le ht n3⟩

theorem Tube.rk4 (u : Tube a Good Y T r K B) {t h D : ℝ}
    (hD : K * (2 * B + r + K * r) + (B + K * r) ≤ D) (h0 : 0 ≤ h) (h1 : h ≤ 1) (ht : t ∈ Icc 0 T)
    {y : P × P} {a1 a2 a3 a4 : P} (e1 : a1 = a y) (e2 : a2 = a (ahead y (h / 2) a1))
    (e3 : a3 = a (ahead y (h / 2) a2)) (e4 : a4 = a (ahead y h a3))
    (hy : ‖y - Y t‖ + h * (2 * B + r + K * r) < r) :
    ‖(y.1 + h • y.2 + (h ^ 2 / 6) • (a1 + a2 + a3),
        y.2 + (h / 6) • (a1 + (2 : ℝ) • a2 + (2 : ℝ) • a3 + a4)) - y - h • flow a (Y t)‖ ≤
      (K + 1) * h * ‖y - Y t‖ + D * h ^ 2 := by
  set C := 2 * B + r + K * r with hC
  have c0 : 0 ≤ C := by have := u.B0; have := u.pos; have := u.K0; positivity
  have hy' : ‖y - Y t‖ < r := by nlinarith [mul_nonneg h0 c0]
  have n1 : ‖a1‖ ≤ B + K * r := by rw [e1]; exact u.acc_le ht hy'
  have d1 : ‖a1 - a (Y t)‖ ≤ K * (‖y - Y t‖ + h * C) := by
    rw [e1]
    refine (u.lip t ht y hy').trans (mul_le_mul_of_nonneg_left ?_ u.K0)
    linarith [mul_nonneg h0 c0]
  obtain ⟨-, d2, n2⟩ := u.stage (k := h / 2) (by linarith) (by linarith) h1 ht hy n1
  rw [← e2] at d2 n2
  obtain ⟨-, d3, n3⟩ := u.stage (k := h / 2) (by linarith) (by linarith) h1 ht hy n2
  rw [← e3] at d3 n3
  obtain ⟨-, d4, n4⟩ := u.stage (k := h) h0 le_rfl h1 ht hy n3
  rw [← e4] at d4 n4
  have hn := norm_nonneg (y - Y t)
  have hA : 0 ≤ B + K * r := (norm_nonneg _).trans n1
  rw [Prod.norm_def]
  refine max_le ?_ ?_
  · have e : ((y.1 + h • y.2 + (h ^ 2 / 6) • (a1 + a2 + a3),
        y.2 + (h / 6) • (a1 + (2 : ℝ) • a2 + (2 : ℝ) • a3 + a4)) - y - h • flow a (Y t)).1 =
        h • (y.2 - (Y t).2) + (h ^ 2 / 6) • (a1 + a2 + a3) := by
      simp only [Prod.fst_sub, Prod.smul_fst, flow, smul_sub]; abel
    rw [e]
    have m1 : ‖h • (y.2 - (Y t).2)‖ ≤ h * ‖y - Y t‖ := by
      rw [norm_smul, Real.norm_eq_abs, abs_of_nonneg h0]
      exact mul_le_mul_of_nonneg_left (norm_snd_le (y - Y t)) h0
    have m2 : ‖(h ^ 2 / 6) • (a1 + a2 + a3)‖ ≤ h ^ 2 / 6 * (3 * (B + K * r)) := by
      rw [norm_smul, Real.norm_eq_abs, abs_of_nonneg (by positivity)]
      refine mul_le_mul_of_nonneg_left ?_ (by positivity)
      have := norm_add_le (a1 + a2) a3
      have := norm_add_le a1 a2
      linarith
    have k1 : h ^ 2 / 6 * (3 * (B + K * r)) ≤ D * h ^ 2 := by
      have : (B + K * r) ≤ D := by nlinarith [mul_nonneg u.K0 c0]
      have := mul_le_mul_of_nonneg_right this (sq_nonneg h)
      nlinarith [mul_nonneg hA (sq_nonneg h)]
    have k2 : h * ‖y - Y t‖ ≤ (K + 1) * h * ‖y - Y t‖ := by
      have := mul_nonneg (mul_nonneg u.K0 h0) hn
      linarith
    exact (norm_add_le _ _).trans (by linarith)
  · have e : ((y.1 + h • y.2 + (h ^ 2 / 6) • (a1 + a2 + a3),
        y.2 + (h / 6) • (a1 + (2 : ℝ) • a2 + (2 : ℝ) • a3 + a4)) - y - h • flow a (Y t)).2 =
        (h / 6) • ((a1 - a (Y t)) + (2 : ℝ) • (a2 - a (Y t)) + (2 : ℝ) • (a3 - a (Y t)) +
          (a4 - a (Y t))) := by
      simp only [Prod.snd_sub, Prod.smul_snd, flow]
      module
    rw [e, norm_smul, Real.norm_eq_abs, abs_of_nonneg (by positivity)]
    have m : ‖(a1 - a (Y t)) + (2 : ℝ) • (a2 - a (Y t)) + (2 : ℝ) • (a3 - a (Y t)) +
        (a4 - a (Y t))‖ ≤ 6 * (K * (‖y - Y t‖ + h * C)) := by
      have s2 : ‖(2 : ℝ) • (a2 - a (Y t))‖ = 2 * ‖a2 - a (Y t)‖ := by rw [norm_smul]; norm_num
      have s3 : ‖(2 : ℝ) • (a3 - a (Y t))‖ = 2 * ‖a3 - a (Y t)‖ := by rw [norm_smul]; norm_num
      have := norm_add_le ((a1 - a (Y t)) + (2 : ℝ) • (a2 - a (Y t)) + (2 : ℝ) • (a3 - a (Y t)))
        (a4 - a (Y t))
      have := norm_add_le ((a1 - a (Y t)) + (2 : ℝ) • (a2 - a (Y t))) ((2 : ℝ) • (a3 - a (Y t)))
      have := norm_add_le (a1 - a (Y t)) ((2 : ℝ) • (a2 - a (Y t)))
      linarith
    have := mul_le_mul_of_nonneg_left m (by positivity : 0 ≤ h / 6)
    have k1 : K * C * h ^ 2 ≤ D * h ^ 2 :=
      mul_le_mul_of_nonneg_right (by linarith) (sq_nonneg h)
    have k2 : 0 ≤ h * ‖y - Y t‖ := mul_nonneg h0 hn
    nlinarith

end

/-- The bound on the error after `n` steps. -/
noncomputable def errBound (L D h : ℝ) : Nat → ℝ
  | 0 => 0
  | n + 1 => (1 + L * h) * errBound L D h n + D * h ^ 2

theorem errBound_nonneg {L D h : ℝ} (hL : 0 ≤ L) (hD : 0 ≤ D) (h0 : 0 ≤ h) (n : Nat) :
    0 ≤ errBound L D h n := by
  induction n with
  | zero => exact le_rfl
  | succ n ih =>
    have : 0 ≤ 1 + L * h := by positivity
    have := mul_nonneg this ih
    show 0 ≤ (1 + L * h) * errBound L D h n + D * h ^ 2
    positivity

theorem errBound_le {L D h T : ℝ} (hL : 0 ≤ L) (hD : 0 ≤ D) (h0 : 0 ≤ h) (n : Nat)
    (hn : n * h ≤ T) : errBound L D h n ≤ T * D * Real.exp (L * T) * h := by
  have key : errBound L D h n ≤ n * (D * h ^ 2) * Real.exp (L * h) ^ n := by
    induction n with
    | zero => simp [errBound]
    | succ n ih =>
      have hn' : n * h ≤ T := by push_cast at hn; nlinarith
      have ih := ih hn'
      have e1 : 1 + L * h ≤ Real.exp (L * h) := by linarith [Real.add_one_le_exp (L * h)]
      have e0 : 0 ≤ 1 + L * h := by positivity
      have e2 : 1 ≤ Real.exp (L * h) := Real.one_le_exp (by positivity)
      have e3 : 1 ≤ Real.exp (L * h) ^ (n + 1) := one_le_pow₀ e2
      have d0 : 0 ≤ D * h ^ 2 := by positivity
      calc errBound L D h (n + 1) = (1 + L * h) * errBound L D h n + D * h ^ 2 := rfl
        _ ≤ Real.exp (L * h) * (n * (D * h ^ 2) * Real.exp (L * h) ^ n) +
            D * h ^ 2 * Real.exp (L * h) ^ (n + 1) :=
          add_le_add (mul_le_mul e1 ih (errBound_nonneg hL hD h0 n) (by positivity))
            (by nlinarith)
        _ = _ := by push_cast; ring
  have hT : 0 ≤ T := le_trans (by positivity) hn
  have e : Real.exp (L * h) ^ n ≤ Real.exp (L * T) := by
    rw [← Real.exp_nat_mul]
    refine Real.exp_le_exp.mpr ?_
    have := mul_le_mul_of_nonneg_left hn hL
    linarith
  refine key.trans ?_
  have d0 : 0 ≤ D * h * Real.exp (L * T) := by positivity
  calc n * (D * h ^ 2) * Real.exp (L * h) ^ n ≤ n * (D * h ^ 2) * Real.exp (L * T) :=
        mul_le_mul_of_nonneg_left e (by positivity)
    _ = (n * h) * (D * h * Real.exp (L * T)) := by ring
    _ ≤ T * (D * h * Real.exp (L * T)) := mul_le_mul_of_nonneg_right hn d0
    _ = _ := by ring

end Scs
