import Verif.Converge

/-!
# Convergence of steps that correct the constraints

The analysis behind C95: steps that choose the new velocities such that the constraints, linearised at
the old positions, are satisfied, and move on with the new velocities. Nothing here refers to the model
of the code.
-/

namespace Scs

open Set Metric Filter Topology

/-- Lipschitz constants near the points of a compact set, for two points near the same point. -/
theorem lipschitz_two {E F : Type} [NormedAddCommGroup E] [NormedAddCommGroup F] {f : E → F}
    {S : Set E} (hS : IsCompact S)
    (h : ∀ x ∈ S, ∃ (K : ℝ) (U : Set E), U ∈ 𝓝 x ∧ ∀ y ∈ U, ∀ z ∈ U, ‖f y - f z‖ ≤ K * ‖y - z‖) :
    ∃ r > 0, ∃ K, 0 ≤ K ∧ ∀ x ∈ S, ∀ y z, ‖y - x‖ < r → ‖z - x‖ < r →
      ‖f y - f z‖ ≤ K * ‖y - z‖ := by
  choose! K U hU hK using h
  obtain ⟨t, ht, hc⟩ := hS.elim_nhds_subcover (fun x => interior (U x))
    fun x hx => interior_mem_nhds.mpr (hU x hx)
  obtain ⟨r, hr, hl⟩ := lebesgue_number_lemma_of_metric (c := fun i : t => interior (U i)) hS
    (fun _ => isOpen_interior) (by
      intro x hx
      obtain ⟨i, hi, h⟩ := mem_iUnion₂.mp (hc hx)
      exact mem_iUnion.mpr ⟨⟨i, hi⟩, h⟩)
  refine ⟨r, hr, ∑ x ∈ t, |K x|, Finset.sum_nonneg fun _ _ => abs_nonneg _,
    fun x hx y z hy hz => ?_⟩
  obtain ⟨i, hi⟩ := hl x hx
  have h1 := interior_subset (hi (mem_ball.mpr (by rw [dist_eq_norm]; exact hy)))
  have h2 := interior_subset (hi (mem_ball.mpr (by rw [dist_eq_norm]; exact hz)))
  refine (hK _ (ht _ i.2) y h1 z h2).trans (mul_le_mul_of_nonneg_right ?_ (norm_nonneg _))
  exact (le_abs_self _).trans (Finset.single_le_sum (f := fun x => |K x|)
    (fun _ _ => abs_nonneg _) i.2)

section
variable {P R : Type} [NormedAddCommGroup P] [NormedSpace ℝ P] [NormedAddCommGroup R]
  [NormedSpace ℝ R]

/-- A constrained system: the accelerations `f` without constraints, the constraint functions `C`, their
derivatives `J` by the positions, the change `Jd` of `J v` when only the positions change, the velocity
offsets `off`, and the change `G` of the velocities that changes `J v` by a given amount. -/
structure Bound (P R : Type) [NormedAddCommGroup P] [NormedSpace ℝ P] [NormedAddCommGroup R]
    [NormedSpace ℝ R] where
  f : P × P → P
  J : P × P → P →ₗ[ℝ] R
  Jd : P × P → R
  C : P × P → R
  G : P × P → R →ₗ[ℝ] P
  off : R

/-- The accelerations with constraints. -/
def Bound.acc (s : Bound P R) (y : P × P) : P := s.f y - s.G y (s.J y (s.f y) + s.Jd y)

/-- Everything is limited near `c`. -/
structure Bound.Tame (s : Bound P R) (β : ℝ) (c : P × P) (r L : ℝ) : Prop where
  vel : ∀ y, ‖y - c‖ < r → ‖y.2‖ ≤ L
  f : ∀ y, ‖y - c‖ < r → ‖s.f y‖ ≤ L
  J : ∀ y, ‖y - c‖ < r → ∀ v, ‖s.J y v‖ ≤ L * ‖v‖
  Jd : ∀ y, ‖y - c‖ < r → ‖s.Jd y‖ ≤ L
  G : ∀ y, ‖y - c‖ < r → ∀ e, ‖s.G y e‖ ≤ L * ‖e‖
  Glip : ∀ y z, ‖y - c‖ < r → ‖z - c‖ < r → ∀ e, ‖s.G y e - s.G z e‖ ≤ L * ‖y - z‖ * ‖e‖
  acc : ∀ y z, ‖y - c‖ < r → ‖z - c‖ < r → ‖s.acc y - s.acc z‖ ≤ L * ‖y - z‖
  Jt : ∀ (q v v' : P) (h : ℝ), 0 < h → (∀ u ∈ Icc 0 h, ‖(q + u • v, v) - c‖ < r) →
    ‖s.J (q + h • v, v) v - s.J (q, v') v - h • s.Jd (q + h • v, v)‖ ≤ L * h ^ 2
  Ct : ∀ (q v v' : P) (h : ℝ), 0 < h → (∀ u ∈ Icc 0 h, ‖(q + u • v, v) - c‖ < r) →
    s.off + s.J (q, v') v + (β / h) • s.C (q, v') = 0 →
    ‖s.C (q + h • v, v) - (1 - β) • s.C (q, v')‖ ≤ L * h ^ 2

/-- One step from `y` to `y'`. -/
structure Bound.Step (s : Bound P R) (β h : ℝ) (y y' : P × P) : Prop where
  pos : y'.1 = y.1 + h • y'.2
  vel : y'.2 = y.2 + h • s.f y -
    s.G y (s.off + s.J y y.2 + (β / h) • s.C y + h • s.J y (s.f y))
  row : s.off + s.J y y'.2 + (β / h) • s.C y = 0

/-- How far the state `y` after some steps is from `c`: with the velocities corrected by `G y κ` the
distance is at most `e`, and the constraint errors are small. -/
structure Bound.Close (s : Bound P R) (h L c1 c2 c3 : ℝ) (c y : P × P) (e : ℝ) (κ : R) : Prop where
  kap : ‖κ‖ ≤ c1 * h
  row : ‖s.off + s.J y y.2 + κ - h • s.Jd y‖ ≤ c2 * h ^ 2
  C : ‖s.C y‖ ≤ c3 * h ^ 2
  dist : ‖(y.1, y.2 + s.G y κ) - c‖ ≤ e
  push : ‖s.G y κ‖ ≤ L * c1 * h

variable {s : Bound P R} {β : ℝ} {c y y' : P × P} {r L h c1 c2 c3 e : ℝ} {κ : R}

/-- The distance of the state itself. -/
theorem Bound.Close.near (k : s.Close h L c1 c2 c3 c y e κ) : ‖y - c‖ ≤ e + L * c1 * h := by
  have e1 : y - c = ((y.1, y.2 + s.G y κ) - c) - (0, s.G y κ) :=
    Prod.ext (by simp) (by simp only [Prod.snd_sub]; abel)
  have n : ‖((0, s.G y κ) : P × P)‖ ≤ L * c1 * h := by
    refine norm_prod_le_iff.mpr ⟨?_, k.push⟩
    rw [norm_zero]
    exact (norm_nonneg _).trans k.push
  rw [e1]
  exact (norm_sub_le _ _).trans (add_le_add k.dist n)

theorem norm_add_le_of {E : Type} [NormedAddCommGroup E] {u v : E} {a b : ℝ} (hu : ‖u‖ ≤ a)
    (hv : ‖v‖ ≤ b) : ‖u + v‖ ≤ a + b := (norm_add_le _ _).trans (add_le_add hu hv)

theorem norm_neg_le_of {E : Type} [NormedAddCommGroup E] {u : E} {a : ℝ} (hu : ‖u‖ ≤ a) :
    ‖-u‖ ≤ a := (norm_neg u).trans_le hu

/-- How much the velocities change in a step. -/
def gain (L c1 c2 : ℝ) : ℝ := L + L * (2 * c1 + L + c2 + L * L)

/-- One step: the new state is near the old one. -/
theorem Bound.Step.moves (t : s.Tame β c r L) (L0 : 0 ≤ L) (h0 : 0 < h) (h1 : h ≤ 1) (c20 : 0 ≤ c2)
    (hc1 : |β| * c3 ≤ c1) (k : s.Close h L c1 c2 c3 c y e κ) (hr : e + L * c1 * h < r)
    (st : s.Step β h y y') : ‖(β / h) • s.C y‖ ≤ c1 * h ∧ ‖y'.2 - y.2‖ ≤ gain L c1 c2 * h := by
  have hy : ‖y - c‖ < r := k.near.trans_lt hr
  have n1 : ‖(β / h) • s.C y‖ ≤ c1 * h := by
    rw [norm_smul, Real.norm_eq_abs, abs_div, abs_of_pos h0]
    calc |β| / h * ‖s.C y‖ ≤ |β| / h * (c3 * h ^ 2) :=
          mul_le_mul_of_nonneg_left k.C (by positivity)
      _ = |β| * c3 * h := by field_simp
      _ ≤ c1 * h := mul_le_mul_of_nonneg_right hc1 h0.le
  refine ⟨n1, ?_⟩
  have hh : h ^ 2 ≤ h := by nlinarith
  have n2 : ‖s.off + s.J y y.2‖ ≤ (c1 + L + c2) * h := by
    have e1 : s.off + s.J y y.2 = (s.off + s.J y y.2 + κ - h • s.Jd y) + -κ + h • s.Jd y := by abel
    have n3 : ‖h • s.Jd y‖ ≤ L * h := by
      rw [norm_smul, Real.norm_eq_abs, abs_of_pos h0, mul_comm]
      exact mul_le_mul_of_nonneg_right (t.Jd y hy) h0.le
    rw [e1]
    refine (norm_add_le_of (norm_add_le_of k.row (norm_neg_le_of k.kap)) n3).trans ?_
    have := mul_le_mul_of_nonneg_left hh c20
    linarith
  have nf : ‖h • s.f y‖ ≤ L * h := by
    rw [norm_smul, Real.norm_eq_abs, abs_of_pos h0, mul_comm]
    exact mul_le_mul_of_nonneg_right (t.f y hy) h0.le
  have n4 : ‖h • s.J y (s.f y)‖ ≤ L * L * h := by
    rw [← map_smul]
    refine (t.J y hy _).trans ?_
    have := mul_le_mul_of_nonneg_left nf L0
    linarith
  have n5 := t.G y hy (s.off + s.J y y.2 + (β / h) • s.C y + h • s.J y (s.f y))
  have n6 := mul_le_mul_of_nonneg_left (norm_add_le_of (norm_add_le_of n2 n1) n4) L0
  have e2 : y'.2 - y.2 = h • s.f y +
      -s.G y (s.off + s.J y y.2 + (β / h) • s.C y + h • s.J y (s.f y)) := by rw [st.vel]; abel
  rw [e2]
  refine (norm_add_le_of nf (norm_neg_le_of (n5.trans n6))).trans (le_of_eq ?_)
  rw [gain]
  ring

/-- The error terms of second order. -/
def slack (L c1 c2 : ℝ) : ℝ :=
  gain L c1 c2 + L * c1 + L * c2 + L * (L + gain L c1 c2) * c1 + L * L * c1

/-- One step near a solution `Y` of the constrained equations of motion. -/
theorem Bound.Step.follows {Good : P × P → Prop} {Y : ℝ → P × P} {T B : ℝ}
    (u : Tube s.acc Good Y T r L B)
    (hY : ∀ t ∈ Icc 0 T, HasDerivWithinAt Y (flow s.acc (Y t)) (Icc 0 T) t) {t : ℝ}
    (ht : t ∈ Icc 0 T) (ht' : t + h ∈ Icc 0 T) (tm : s.Tame β (Y t) r L)
    (h0 : 0 < h) (h1 : h ≤ 1) (hB : B * h < r) (c10 : 0 ≤ c1) (hc2 : c2 = L)
    (hc1 : |β| * c3 ≤ c1) (hc3 : |1 - β| * c3 + L = c3)
    (k : s.Close h L c1 c2 c3 (Y t) y e κ)
    (hr : e + (L * c1 + L + gain L c1 c2) * h < r) (st : s.Step β h y y') :
    s.Close h L c1 c2 c3 (Y (t + h)) y'
      ((1 + (L + 1) * h) * e + (slack L c1 c2 + (L + 1) * B) * h ^ 2) ((β / h) • s.C y) := by
  have L0 := u.K0
  have c20 : 0 ≤ c2 := by rw [hc2]; exact L0
  have g0 : 0 ≤ gain L c1 c2 := by rw [gain]; positivity
  have hr1 : e + L * c1 * h < r := by
    nlinarith [mul_nonneg L0 h0.le, mul_nonneg g0 h0.le]
  obtain ⟨n1, n2⟩ := st.moves tm L0 h0 h1 c20 hc1 k hr1
  have hy : ‖y - Y t‖ < r := k.near.trans_lt hr1
  have hv : ‖y'.2‖ ≤ L + gain L c1 c2 := by
    have e1 : y'.2 = y.2 + (y'.2 - y.2) := by abel
    rw [e1]
    refine (norm_add_le_of (tm.vel y hy) n2).trans ?_
    nlinarith
  have seg : ∀ a ∈ Icc 0 h, ‖(y.1 + a • y'.2, y'.2) - y‖ ≤ (L + gain L c1 c2) * h := by
    intro a ha
    refine norm_prod_le_iff.mpr ⟨?_, ?_⟩
    · have e1 : ((y.1 + a • y'.2, y'.2) - y).1 = a • y'.2 := by simp
      rw [e1, norm_smul, Real.norm_eq_abs, abs_of_nonneg ha.1, mul_comm]
      exact mul_le_mul hv ha.2 ha.1 (by positivity)
    · refine le_trans n2 ?_
      nlinarith [mul_nonneg L0 h0.le]
  have seg' : ∀ a ∈ Icc 0 h, ‖(y.1 + a • y'.2, y'.2) - Y t‖ < r := by
    intro a ha
    have e1 : (y.1 + a • y'.2, y'.2) - Y t = ((y.1 + a • y'.2, y'.2) - y) + (y - Y t) := by abel
    rw [e1]
    refine (norm_add_le_of (seg a ha) k.near).trans_lt ?_
    linarith
  have ey : y' = (y.1 + h • y'.2, y'.2) := Prod.ext st.pos rfl
  have hy' : ‖y' - Y t‖ < r := by
    rw [ey]; exact seg' h ⟨h0.le, le_rfl⟩
  have hyy : ‖y' - y‖ ≤ (L + gain L c1 c2) * h := by
    have := seg h ⟨h0.le, le_rfl⟩
    rwa [← ey] at this
  have row : s.off + s.J (y.1, y.2) y'.2 + (β / h) • s.C (y.1, y.2) = 0 := st.row
  have push : ‖s.G y' ((β / h) • s.C y)‖ ≤ L * c1 * h := by
    refine (tm.G y' hy' _).trans ?_
    have := mul_le_mul_of_nonneg_left n1 L0
    linarith
  refine ⟨n1, ?_, ?_, ?_, push⟩
  · have := tm.Jt y.1 y'.2 y.2 h h0 seg'
    rw [← ey] at this
    have e1 : s.off + s.J y' y'.2 + (β / h) • s.C y - h • s.Jd y' =
        (s.off + s.J (y.1, y.2) y'.2 + (β / h) • s.C (y.1, y.2)) +
          (s.J y' y'.2 - s.J (y.1, y.2) y'.2 - h • s.Jd y') := by
      show s.off + s.J y' y'.2 + (β / h) • s.C y - h • s.Jd y' =
        (s.off + s.J y y'.2 + (β / h) • s.C y) + (s.J y' y'.2 - s.J y y'.2 - h • s.Jd y')
      abel
    rw [e1, row, zero_add, hc2]
    exact this
  · have := tm.Ct y.1 y'.2 y.2 h h0 seg' row
    rw [← ey] at this
    have e1 : s.C y' = (s.C y' - (1 - β) • s.C (y.1, y.2)) + (1 - β) • s.C y := by
      show s.C y' = (s.C y' - (1 - β) • s.C y) + (1 - β) • s.C y
      abel
    rw [e1]
    have n3 : ‖(1 - β) • s.C y‖ ≤ |1 - β| * (c3 * h ^ 2) := by
      rw [norm_smul, Real.norm_eq_abs]
      exact mul_le_mul_of_nonneg_left k.C (abs_nonneg _)
    refine (norm_add_le_of this n3).trans (le_of_eq ?_)
    rw [← mul_assoc, ← add_mul, add_comm, hc3]
  · set z : P × P := (y.1, y.2 + s.G y κ) with hz
    set z' : P × P := (y'.1, y'.2 + s.G y' ((β / h) • s.C y)) with hz'
    have hn := norm_nonneg (z - Y t)
    have key : ‖z' - z - h • flow s.acc (Y t)‖ ≤
        (L + 1) * h * ‖z - Y t‖ + slack L c1 c2 * h ^ 2 := by
      have yz : ‖y - Y t‖ ≤ ‖z - Y t‖ + L * c1 * h := by
        have e1 : y - Y t = (z - Y t) - (0, s.G y κ) :=
          Prod.ext (by simp [hz]) (by simp only [hz, Prod.snd_sub]; abel)
        rw [e1]
        refine (norm_sub_le _ _).trans (add_le_add le_rfl ?_)
        refine norm_prod_le_iff.mpr ⟨?_, k.push⟩
        rw [norm_zero]
        positivity
      refine norm_prod_le_iff.mpr ⟨?_, ?_⟩
      · have e1 : (z' - z - h • flow s.acc (Y t)).1 =
            h • (y'.2 - y.2) + h • (-s.G y κ) + h • (z - Y t).2 := by
          simp only [hz, hz', flow, Prod.fst_sub, Prod.smul_fst, Prod.snd_sub, st.pos]
          module
        rw [e1]
        have m : ∀ {v : P} {b : ℝ}, ‖v‖ ≤ b → ‖h • v‖ ≤ h * b := fun hv => by
          rw [norm_smul, Real.norm_eq_abs, abs_of_pos h0]
          exact mul_le_mul_of_nonneg_left hv h0.le
        refine (norm_add_le_of (norm_add_le_of (m n2) (m (norm_neg_le_of k.push)))
          (m (norm_snd_le (z - Y t)))).trans ?_
        have a1 : 0 ≤ L * h * ‖z - Y t‖ := by positivity
        have a2 : 0 ≤ (L * c2 + L * (L + gain L c1 c2) * c1 + L * L * c1) * h ^ 2 := by positivity
        rw [slack]
        nlinarith
      · have e1 : (z' - z - h • flow s.acc (Y t)).2 =
            h • (s.acc y - s.acc (Y t)) + -s.G y (s.off + s.J y y.2 + κ - h • s.Jd y) +
              (s.G y' ((β / h) • s.C y) - s.G y ((β / h) • s.C y)) := by
          simp only [hz, hz', flow, Prod.snd_sub, Prod.smul_snd]
          rw [st.vel]
          simp only [Bound.acc, map_add, map_sub, map_smul, smul_sub, smul_add]
          abel
        rw [e1]
        have m1 : ‖h • (s.acc y - s.acc (Y t))‖ ≤ h * (L * (‖z - Y t‖ + L * c1 * h)) := by
          rw [norm_smul, Real.norm_eq_abs, abs_of_pos h0]
          refine mul_le_mul_of_nonneg_left ((u.lip t ht y hy).trans ?_) h0.le
          exact mul_le_mul_of_nonneg_left yz L0
        have m2 : ‖-s.G y (s.off + s.J y y.2 + κ - h • s.Jd y)‖ ≤ L * (c2 * h ^ 2) := by
          rw [norm_neg]
          exact (tm.G y hy _).trans (mul_le_mul_of_nonneg_left k.row L0)
        have m3 : ‖s.G y' ((β / h) • s.C y) - s.G y ((β / h) • s.C y)‖ ≤
            L * ((L + gain L c1 c2) * h) * (c1 * h) := by
          refine (tm.Glip y' y hy' hy _).trans ?_
          exact mul_le_mul (mul_le_mul_of_nonneg_left hyy L0) n1 (norm_nonneg _) (by positivity)
        refine (norm_add_le_of (norm_add_le_of m1 m2) m3).trans ?_
        have a1 : 0 ≤ h * ‖z - Y t‖ := by positivity
        have a2 : 0 ≤ (gain L c1 c2 + L * c1) * h ^ 2 := by positivity
        rw [slack]
        nlinarith
    have := u.step hY h0.le hB ht ht' key
    have hle : ‖z - Y t‖ ≤ e := k.dist
    have a1 : 0 ≤ 1 + (L + 1) * h := by positivity
    have := mul_le_mul_of_nonneg_left hle a1
    linarith

end

end Scs
