import Verif.PropsSle
import Verif.GsConverge
import Mathlib.Topology.Algebra.Order.LiminfLimsup
import Mathlib.Topology.Instances.Matrix

/-!
# Gauss-Seidel without limits

C109. Convergence of `GaussSeidelSleSolver::solve`, the variant without limits, and when its
termination test lets it succeed.
-/

namespace Scs

open Finset Filter Topology

section
variable {n : Nat} {M : Nat → Nat → ℝ} {b x z : Nat → ℝ}

/-- What solving one row gains. -/
theorem energy_row {i : Nat} (hi : i < n) (hs : ∀ i j, i < n → j < n → M i j = M j i)
    (hM : M i i ≠ 0) (x : Nat → ℝ) :
    energyOf n M b (upd x i (rowSolve n M b x i)) + M i i * (rowSolve n M b x i - x i) ^ 2 / 2 =
      energyOf n M b x := by
  rw [energyOf_upd hi hs, rowSolve_sub hi hM]
  field_simp
  ring

theorem energy_sweep (hs : ∀ i j, i < n → j < n → M i j = M j i) (hM : ∀ i, i < n → M i i ≠ 0)
    (x : Nat → ℝ) : ∀ m, m ≤ n → energyOf n M b (sweepTo (rowSolve n M b) m x) +
      ∑ i ∈ range m, M i i * (sweepTo (rowSolve n M b) n x i - x i) ^ 2 / 2 = energyOf n M b x
  | 0, _ => by simp [sweepTo]
  | m + 1, hm => by
    have h2 := energy_row (b := b) (show m < n by omega) hs (hM m (by omega))
      (sweepTo (rowSolve n M b) m x)
    rw [sum_range_succ, sweepTo_lt _ x (show m < n by omega)]
    rw [sweepTo_ge _ x (Nat.le_refl m)] at h2
    have := energy_sweep hs hM x m (by omega)
    rw [sweepTo]
    linarith

theorem PosDef.diag (h : PosDef n M) {i : Nat} (hi : i < n) : 0 < M i i := by
  have := h.pos (fun j => if j = i then 1 else 0) ⟨i, hi, by simp⟩
  simpa [hi] using this

/-- The solution has the least energy. -/
theorem PosDef.energy_min (h : PosDef n M) (hz : Solves n M b z) (x : Nat → ℝ) :
    energyOf n M b z ≤ energyOf n M b x := by
  have e : energyOf n M b x = energyOf n M b z +
      (∑ i ∈ range n, ∑ j ∈ range n, (x i - z i) * M i j * (x j - z j)) / 2 := by
    have h1 : ∑ i ∈ range n, b i * x i = ∑ i ∈ range n, ∑ j ∈ range n, x i * M i j * z j :=
      sum_congr rfl fun i hi => by
        rw [← hz i (mem_range.mp hi), sum_mul]
        exact sum_congr rfl fun j _ => by ring
    have h2 : ∑ i ∈ range n, b i * z i = ∑ i ∈ range n, ∑ j ∈ range n, z i * M i j * z j :=
      sum_congr rfl fun i hi => by
        rw [← hz i (mem_range.mp hi), sum_mul]
        exact sum_congr rfl fun j _ => by ring
    have h3 : ∑ i ∈ range n, ∑ j ∈ range n, x i * M i j * z j =
        ∑ i ∈ range n, ∑ j ∈ range n, z i * M i j * x j := by
      rw [sum_comm]
      exact sum_congr rfl fun i hi => sum_congr rfl fun j hj => by
        rw [h.symm j i (mem_range.mp hj) (mem_range.mp hi)]; ring
    have h4 : ∑ i ∈ range n, ∑ j ∈ range n, (x i - z i) * M i j * (x j - z j) =
        ∑ i ∈ range n, ∑ j ∈ range n, x i * M i j * x j -
          ∑ i ∈ range n, ∑ j ∈ range n, x i * M i j * z j -
          ∑ i ∈ range n, ∑ j ∈ range n, z i * M i j * x j +
          ∑ i ∈ range n, ∑ j ∈ range n, z i * M i j * z j := by
      simp only [← sum_sub_distrib, ← sum_add_distrib]
      exact sum_congr rfl fun i _ => sum_congr rfl fun j _ => by ring
    rw [energyOf, energyOf, h4, h1, h2, ← h3]
    ring
  rw [e]
  by_cases hx : ∃ i, i < n ∧ x i - z i ≠ 0
  · linarith [h.pos (fun i => x i - z i) hx]
  · push Not at hx
    rw [sum_congr rfl (g := fun _ => 0) fun i hi => by
      rw [sum_congr rfl (g := fun _ => 0) fun j _ => by
        rw [hx i (mem_range.mp hi), zero_mul, zero_mul], sum_const_zero], sum_const_zero]
    simp

/-- The changes of the sweeps vanish. -/
theorem PosDef.change (h : PosDef n M) (hz : Solves n M b z) (x : Nat → ℝ) {i : Nat} (hi : i < n) :
    Tendsto (fun k => (sweepTo (rowSolve n M b) n)^[k + 1] x i -
      (sweepTo (rowSolve n M b) n)^[k] x i) atTop (𝓝 0) := by
  set F := sweepTo (rowSolve n M b) n with hF
  have hd : ∀ k, energyOf n M b (F^[k + 1] x) +
      ∑ i ∈ range n, M i i * (F^[k + 1] x i - F^[k] x i) ^ 2 / 2 = energyOf n M b (F^[k] x) := by
    intro k
    rw [Function.iterate_succ_apply']
    exact energy_sweep h.symm (fun i hi => (h.diag hi).ne') _ n le_rfl
  have hnn : ∀ k, ∀ i ∈ range n, 0 ≤ M i i * (F^[k + 1] x i - F^[k] x i) ^ 2 / 2 := fun k i hi => by
    have := (h.diag (mem_range.mp hi)).le
    positivity
  have hanti : Antitone fun k => energyOf n M b (F^[k] x) := antitone_nat_of_succ_le fun k => by
    have := sum_nonneg (hnn k)
    linarith [hd k]
  have hlim := tendsto_atTop_ciInf hanti ⟨energyOf n M b z, by
    rintro _ ⟨k, rfl⟩; exact h.energy_min hz _⟩
  have hdrop : Tendsto (fun k => energyOf n M b (F^[k] x) - energyOf n M b (F^[k + 1] x)) atTop
      (𝓝 0) := by
    have := hlim.sub (hlim.comp (tendsto_add_atTop_nat 1))
    rwa [sub_self] at this
  have hsq : Tendsto (fun k => (F^[k + 1] x i - F^[k] x i) ^ 2) atTop (𝓝 0) := by
    have hM := h.diag hi
    have h0 := hdrop.const_mul (2 / M i i)
    rw [mul_zero] at h0
    refine squeeze_zero (fun k => sq_nonneg _) (fun k => ?_) h0
    have h1 := single_le_sum (hnn k) (mem_range.mpr hi)
    have h2 := hd k
    have h3 : M i i * (F^[k + 1] x i - F^[k] x i) ^ 2 / 2 ≤
        energyOf n M b (F^[k] x) - energyOf n M b (F^[k + 1] x) := by linarith
    rw [div_mul_eq_mul_div, le_div_iff₀ hM]
    linarith
  have := hsq.sqrt
  simp only [Real.sqrt_sq_eq_abs, Real.sqrt_zero] at this
  exact (tendsto_zero_iff_abs_tendsto_zero _).mpr this

/-- What is left of row `i` after a sweep. -/
theorem sweep_rest (hM : ∀ i, i < n → M i i ≠ 0) (x : Nat → ℝ) {i : Nat} (hi : i < n) :
    ∑ j ∈ range n, M i j * sweepTo (rowSolve n M b) n x j - b i =
      ∑ j ∈ (range n).erase i, M i j *
        (if j < i then 0 else sweepTo (rowSolve n M b) n x j - x j) := by
  set y := sweepTo (rowSolve n M b) n x with hy
  have h1 : y i = (b i - ∑ j ∈ (range n).erase i, M i j * (if j < i then y j else x j)) / M i i := by
    conv_lhs => rw [hy, sweepTo_lt _ x hi, rowSolve]
    congr 2
    refine sum_congr rfl fun j hj => ?_
    have hji := ne_of_mem_erase hj
    by_cases h : j < i
    · rw [if_pos h, sweepTo_lt _ x h, hy, sweepTo_lt _ x (by omega : j < n)]
    · rw [if_neg h, sweepTo_ge _ x (by omega)]
  have h2 : M i i * y i = b i - ∑ j ∈ (range n).erase i, M i j * (if j < i then y j else x j) := by
    rw [h1, mul_div_cancel₀ _ (hM i hi)]
  rw [sum_split hi, h2]
  rw [show ∀ p q r : ℝ, p - q + r - p = r - q from fun _ _ _ => by ring, ← sum_sub_distrib]
  refine sum_congr rfl fun j _ => ?_
  split <;> ring

/-- The sweeps approach the solution. -/
theorem PosDef.sweeps (h : PosDef n M) (hz : Solves n M b z) (x : Nat → ℝ) {i : Nat} (hi : i < n) :
    Tendsto (fun k => (sweepTo (rowSolve n M b) n)^[k] x i) atTop (𝓝 (z i)) := by
  set F := sweepTo (rowSolve n M b) n with hF
  rw [← tendsto_add_atTop_iff_nat 1]
  let A : Matrix (Fin n) (Fin n) ℝ := fun i j => M i j
  have hdet : IsUnit A.det := by
    rw [isUnit_iff_ne_zero]
    intro h0
    obtain ⟨v, hv, hAv⟩ := Matrix.exists_mulVec_eq_zero_iff.mpr h0
    refine hv (funext fun j => ?_)
    have := h.regular (fun k => if hk : k < n then v ⟨k, hk⟩ else 0) (fun i hi => by
      have := congrFun hAv ⟨i, hi⟩
      rw [Matrix.mulVec, dotProduct] at this
      rw [← Fin.sum_univ_eq_sum_range (fun j => M i j * if hk : j < n then v ⟨j, hk⟩ else 0) n]
      simpa using this) j.1 j.2
    simpa using this
  let r : Nat → Fin n → ℝ := fun k i => ∑ j ∈ range n, M i j * F^[k + 1] x j - b i
  have hr : Tendsto r atTop (𝓝 0) := by
    rw [tendsto_pi_nhds]
    intro i
    have e : ∀ k, r k i = ∑ j ∈ (range n).erase i, M i j *
        (if j < i then 0 else F^[k + 1] x j - F^[k] x j) := fun k => by
      show ∑ j ∈ range n, M i j * F^[k + 1] x j - b i = _
      simp only [Function.iterate_succ_apply']
      exact sweep_rest (fun i hi => (h.diag hi).ne') _ i.2
    simp only [e]
    rw [show (0 : Fin n → ℝ) i = ∑ j ∈ (range n).erase i, M i j * (0 : ℝ) by simp]
    refine tendsto_finset_sum _ fun j hj => Tendsto.const_mul _ ?_
    split
    · exact tendsto_const_nhds
    · exact h.change hz x (mem_range.mp (mem_of_mem_erase hj))
  have hy : ∀ k, (fun i : Fin n => F^[k + 1] x i) = (fun i : Fin n => z i) + A⁻¹.mulVec (r k) := by
    intro k
    have e : r k = A.mulVec ((fun i : Fin n => F^[k + 1] x i) - fun i : Fin n => z i) := by
      funext i
      show ∑ j ∈ range n, M i j * F^[k + 1] x j - b i = _
      rw [← hz i i.2, ← sum_sub_distrib, Matrix.mulVec, dotProduct, ← Fin.sum_univ_eq_sum_range
        (fun j => M i j * F^[k + 1] x j - M i j * z j) n]
      exact sum_congr rfl fun j _ => by
        show _ = M i j * (F^[k + 1] x j - z j)
        ring
    rw [e, Matrix.mulVec_mulVec, Matrix.nonsing_inv_mul _ hdet, Matrix.one_mulVec]
    abel
  have hlim : Tendsto (fun k => (fun i : Fin n => z i) + A⁻¹.mulVec (r k)) atTop
      (𝓝 ((fun i : Fin n => z i) + A⁻¹.mulVec 0)) :=
    tendsto_const_nhds.add (((Continuous.matrix_mulVec continuous_const continuous_id).tendsto _).comp hr)
  rw [Matrix.mulVec_zero, add_zero] at hlim
  have := (tendsto_pi_nhds.mp hlim) ⟨i, hi⟩
  refine this.congr fun k => ?_
  rw [← hy k]

end

section
variable {st en : Nat} {s : Store ℝ} {J : SId} {W right r : MId} {prev : Option MId} {w n : Nat}
  {A : Nat → Nat → ℝ} {D b z X : Nat → ℝ}

/-- The run in terms of the sweeps from the given start. -/
theorem gs_free (hst : 0 < st) (hs : SReach st en solverRestr s)
    (h : Sys st en s J W right w n A D b) (pr : r.Pub) (h2 : r ≠ right) (h4 : r ≠ W)
    (hX : StartsAtU s prev r n X) (hM : PosDef n (gram w A D)) (m : Nat) {e : ℝ} (he : 0 < e) :
    ∃ (s' : Store ℝ) (c : Bool) (y : Nat → ℝ),
      (Solver.gs m e).solve st en s J W right prev (some r) = .ok (s', c) ∧
      s'.Shows r 1 n (fun i _ => y i) ∧
      FirstPass (Passed n e) (sweepTo (rowSolve n (gram w A D) b) n) n m X c y := by
  obtain ⟨s', c, y, x0, e1, g, hx0, hf⟩ := gs_run (prev := prev) hst hs h pr h2 h4 (fun p hp hh => by
    rcases hX with ⟨q, hq, hX⟩ | ⟨hn, -⟩
    · rw [hp] at hq
      cases hq
      exact hX.width
    · exact absurd hh (hn p hp)) (fun i hi => (hM.diag hi).ne') m he
  have hx0 := hx0 X hX
  refine ⟨s', c, y, e1, g, ?_⟩
  have hl : ∀ k i, i < n → (sweepTo (rowSolve n (gram w A D) b) n)^[k] x0 i =
      (sweepTo (rowSolve n (gram w A D) b) n)^[k] X i := fun k =>
    ((rowSolve_local n (gram w A D) b).sweep le_rfl).iterate k x0 X hx0
  have hT : ∀ k, Passed n e ((sweepTo (rowSolve n (gram w A D) b) n)^[k] x0)
      ((sweepTo (rowSolve n (gram w A D) b) n)^[k + 1] x0) ↔
      Passed n e ((sweepTo (rowSolve n (gram w A D) b) n)^[k] X)
      ((sweepTo (rowSolve n (gram w A D) b) n)^[k + 1] X) := fun k =>
    forall_congr' fun i => forall_congr' fun hi => by rw [hl k i hi, hl (k + 1) i hi]
  rcases hf with ⟨rfl, k, hk, hp, hb, hy⟩ | ⟨rfl, hb, hy⟩
  · exact .inl ⟨rfl, k, hk, (hT k).mp hp, fun l hlk q => hb l hlk ((hT l).mpr q), fun i hi => by
      rw [hy i hi, hl (k + 1) i hi]⟩
  · exact .inr ⟨rfl, fun k hk q => hb k hk ((hT k).mpr q), fun i hi => by rw [hy i hi, hl m i hi]⟩

/-- **C109**: if `J W J^T` is positive definite, then from some number of iterations on every call that
does not stop early returns the solution of the system up to the error `ε`, whatever the tolerance. -/
theorem C109_approaches (hst : 0 < st) (hs : SReach st en solverRestr s)
    (h : Sys st en s J W right w n A D b) (pr : r.Pub) (h2 : r ≠ right) (h4 : r ≠ W)
    (hX : StartsAtU s prev r n X) (hM : PosDef n (gram w A D)) (hz : Solves n (gram w A D) b z)
    {ε : ℝ} (hε : 0 < ε) : ∃ K : Nat, ∀ m, K ≤ m → ∀ e : ℝ, 0 < e →
      ∃ (s' : Store ℝ) (c : Bool) (y : Nat → ℝ),
        (Solver.gs m e).solve st en s J W right prev (some r) = .ok (s', c) ∧
        s'.Shows r 1 n (fun i _ => y i) ∧ (c = false → ∀ i, i < n → |y i - z i| < ε) := by
  have hall : ∀ᶠ k in atTop, ∀ i ∈ range n,
      |(sweepTo (rowSolve n (gram w A D) b) n)^[k] X i - z i| < ε := by
    rw [eventually_all_finset]
    intro i hi
    have := (hM.sweeps hz X (mem_range.mp hi)).eventually (Metric.ball_mem_nhds _ hε)
    filter_upwards [this] with k hk
    simpa [Real.dist_eq] using hk
  obtain ⟨K, hK⟩ := eventually_atTop.mp hall
  refine ⟨K, fun m hm e he => ?_⟩
  obtain ⟨s', c, y, e1, g, hf⟩ := gs_free hst hs h pr h2 h4 hX hM m he
  refine ⟨s', c, y, e1, g, ?_⟩
  rintro rfl i hi
  rcases hf with ⟨q, -⟩ | ⟨-, -, hy⟩
  · cases q
  · rw [hy i hi]
    exact hK m hm i (mem_range.mpr hi)

/-- **C109**: if moreover no component of the solution is `-(1 + tolerance) / 1000` or less, then from
some number of iterations on the call succeeds, always with the same result. -/
theorem C109_succeeds (hst : 0 < st) (hs : SReach st en solverRestr s)
    (h : Sys st en s J W right w n A D b) (pr : r.Pub) (h2 : r ≠ right) (h4 : r ≠ W)
    (hX : StartsAtU s prev r n X) (hM : PosDef n (gram w A D)) (hz : Solves n (gram w A D) b z)
    {e : ℝ} (he : 0 < e) (hpos : ∀ i, i < n → -((1 + e) / 1000) < z i) :
    ∃ (K : Nat) (y : Nat → ℝ), ∀ m, K ≤ m → ∃ s' : Store ℝ,
      (Solver.gs m e).solve st en s J W right prev (some r) = .ok (s', true) ∧
      s'.Shows r 1 n (fun i _ => y i) := by
  have hall : ∀ᶠ k in atTop, ∀ i ∈ range n,
      |(sweepTo (rowSolve n (gram w A D) b) n)^[k + 1] X i| <
        (1 + e) * max (1 / 1000) ((sweepTo (rowSolve n (gram w A D) b) n)^[k] X i) := by
    rw [eventually_all_finset]
    intro i hi
    have h1 := hM.sweeps hz X (mem_range.mp hi)
    refine (((tendsto_add_atTop_iff_nat 1).mpr h1).abs).eventually_lt
      ((tendsto_const_nhds.max h1).const_mul (1 + e)) ?_
    have hp := hpos i (mem_range.mp hi)
    have m1 := le_max_left (1 / 1000) (z i)
    have m2 := le_max_right (1 / 1000) (z i)
    rw [abs_lt]
    constructor <;> nlinarith
  obtain ⟨K, hK⟩ := eventually_atTop.mp hall
  obtain ⟨s0, c0, y, -, -, hf0⟩ := gs_free hst hs h pr h2 h4 hX hM (K + 1) he
  have hp : Passed n e ((sweepTo (rowSolve n (gram w A D) b) n)^[K] X)
      ((sweepTo (rowSolve n (gram w A D) b) n)^[K + 1] X) := fun i hi =>
    hK K le_rfl i (mem_range.mpr hi)
  obtain rfl := hf0.success (Nat.lt_succ_self K) hp
  refine ⟨K + 1, y, fun m hm => ?_⟩
  obtain ⟨s', c, y', e1, g, hf⟩ := gs_free hst hs h pr h2 h4 hX hM m he
  obtain ⟨rfl, hy⟩ := hf0.more hf hm
  exact ⟨s', e1, g.congr fun i _ hi _ => hy i hi⟩

/-- **C109**: if some component of the solution is below `-(1 + tolerance) / 1000`, then further
iterations do not help: a call that has not succeeded after `K` of them never does, no matter how close
to the solution the sweeps are. -/
theorem C109_gives_up (hst : 0 < st) (hs : SReach st en solverRestr s)
    (h : Sys st en s J W right w n A D b) (pr : r.Pub) (h2 : r ≠ right) (h4 : r ≠ W)
    (hX : StartsAtU s prev r n X) (hM : PosDef n (gram w A D)) (hz : Solves n (gram w A D) b z)
    {e : ℝ} (he : 0 < e) {i : Nat} (hi : i < n) (hneg : z i < -((1 + e) / 1000)) :
    ∃ (K : Nat) (c : Bool), ∀ m, K ≤ m → ∃ s' : Store ℝ,
      (Solver.gs m e).solve st en s J W right prev (some r) = .ok (s', c) ∧
      (c = false → ∃ y : Nat → ℝ, s'.Shows r 1 n (fun i _ => y i) ∧
        ∀ i, i < n → y i = (sweepTo (rowSolve n (gram w A D) b) n)^[m] X i) := by
  have hall : ∀ᶠ k in atTop, (1 + e) * max (1 / 1000) ((sweepTo (rowSolve n (gram w A D) b) n)^[k] X i) <
      |(sweepTo (rowSolve n (gram w A D) b) n)^[k + 1] X i| := by
    have h1 := hM.sweeps hz X hi
    refine ((tendsto_const_nhds.max h1).const_mul (1 + e)).eventually_lt
      ((((tendsto_add_atTop_iff_nat 1).mpr h1).abs)) ?_
    rw [max_eq_left (by linarith), abs_of_neg (by linarith)]
    linarith
  obtain ⟨K, hK⟩ := eventually_atTop.mp hall
  have hno : ∀ k, K ≤ k → ¬ Passed n e ((sweepTo (rowSolve n (gram w A D) b) n)^[k] X)
      ((sweepTo (rowSolve n (gram w A D) b) n)^[k + 1] X) := fun k hk q =>
    lt_asymm (hK k hk) (q i hi)
  obtain ⟨s0, c, y0, -, -, hf0⟩ := gs_free hst hs h pr h2 h4 hX hM K he
  refine ⟨K, c, fun m hm => ?_⟩
  obtain ⟨s', c', y, e1, g, hf⟩ := gs_free hst hs h pr h2 h4 hX hM m he
  have hc : c' = c := by
    rcases hf0 with ⟨rfl, k, hk, hp, hb, -⟩ | ⟨rfl, hb, -⟩
    · exact hf.success (by omega) hp
    · rcases hf with ⟨rfl, k, hk, hp, -, -⟩ | ⟨rfl, -, -⟩
      · rcases Nat.lt_or_ge k K with q | q
        · exact absurd hp (hb k q)
        · exact absurd hp (hno k q)
      · rfl
  subst hc
  refine ⟨s', e1, ?_⟩
  rintro rfl
  rcases hf with ⟨q, -⟩ | ⟨-, -, hy⟩
  · cases q
  · exact ⟨y, g, hy⟩

end

/-- The hypotheses of `C109_approaches` and `C109_succeeds` are met: `[[2, 1], [1, 2]] x = (3, 3)` from
any start; for `C109_gives_up` see the next example. -/
example (X : Nat → ℝ) (e : ℝ) (he : 0 < e) : ∃ (s : Store ℝ) (K : Nat), ∀ m, K ≤ m → ∃ s' : Store ℝ,
    (Solver.gs m e).solve 3 2 s (.user 0) (.user 0) (.user 1) (some (.user 3)) (some (.user 4)) =
      .ok (s', true) := by
  obtain ⟨s, hs, h, _, hX, _⟩ := demo_sys 2 demoA (fun _ => 1) (fun _ => 3) (fun _ => 0)
    (fun _ => 0) X
  have hz : Solves 2 (gram 3 demoA fun _ => 1) (fun _ => 3) (fun _ => 1) := by
    intro i hi
    obtain ⟨h1, h2, h3, h4⟩ := demo_gram
    rw [sum_range_succ, sum_range_succ, sum_range_zero]
    interval_cases i
    · rw [h1, h2]; norm_num
    · rw [h3, h4]; norm_num
  obtain ⟨K, y, hK⟩ := C109_succeeds (prev := some (.user 3)) (r := .user 4) (by decide) hs h trivial
    (by decide) (by decide) (.inl ⟨_, rfl, hX⟩) demo_posDef hz he (fun i _ => by
      have : 0 < (1 + e) / 1000 := by positivity
      linarith)
  exact ⟨s, K, fun m hm => (hK m hm).imp fun _ q => q.1⟩

example (e : ℝ) (he : 0 < e) (he2 : e < 10) : ∃ (s : Store ℝ) (K : Nat) (c : Bool), ∀ m, K ≤ m →
    ∃ s' : Store ℝ, (Solver.gs m e).solve 3 2 s (.user 0) (.user 0) (.user 1) (some (.user 3))
      (some (.user 4)) = .ok (s', c) := by
  obtain ⟨s, hs, h, _, hX, _⟩ := demo_sys 2 demoA (fun _ => 1) (fun _ => -3) (fun _ => 0)
    (fun _ => 0) (fun _ => 5)
  have hz : Solves 2 (gram 3 demoA fun _ => 1) (fun _ => -3) (fun _ => -1) := by
    intro i hi
    obtain ⟨h1, h2, h3, h4⟩ := demo_gram
    rw [sum_range_succ, sum_range_succ, sum_range_zero]
    interval_cases i
    · rw [h1, h2]; norm_num
    · rw [h3, h4]; norm_num
  obtain ⟨K, c, hK⟩ := C109_gives_up (prev := some (.user 3)) (r := .user 4) (by decide) hs h trivial
    (by decide) (by decide) (.inl ⟨_, rfl, hX⟩) demo_posDef hz he (i := 0) (by decide) (by linarith)
  exact ⟨s, K, c, fun m hm => (hK m hm).imp fun _ q => q.1⟩

end Scs
