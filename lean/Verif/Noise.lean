import Verif.Project

/-!
# Convergence of steps that correct the constraints only nearly

The analysis behind C99 and C100: the steps of `Verif.Project` if the conditions on the new velocities
are met up to an error. Nothing here refers to the model of the code.
-/

namespace Scs

open Set Metric Filter Topology

section
variable {P R : Type} [NormedAddCommGroup P] [NormedSpace ℝ P] [NormedAddCommGroup R]
  [NormedSpace ℝ R]

/-- Everything is limited near `c`, also if the conditions of the constraints are missed by `ε`. -/
structure Bound.Calm (s : Bound P R) (β : ℝ) (c : P × P) (r L : ℝ) : Prop where
  tame : s.Tame β c r L
  Gpos : ∀ y z, ‖y - c‖ < r → ‖z - c‖ < r → ∀ e, ‖s.G y e - s.G z e‖ ≤ L * ‖y.1 - z.1‖ * ‖e‖
  Cn : ∀ (q v v' : P) (h : ℝ) (ε : R), 0 < h → (∀ u ∈ Icc 0 h, ‖(q + u • v, v) - c‖ < r) →
    s.off + s.J (q, v') v + (β / h) • s.C (q, v') = ε →
    ‖s.C (q + h • v, v)‖ ≤ |1 - β| * ‖s.C (q, v')‖ + L * h ^ 2 + h * ‖ε‖

/-- One step from `y` to `y'` that misses the conditions of the constraints by `ε`. -/
structure Bound.Noisy (s : Bound P R) (β h : ℝ) (ε : R) (y y' : P × P) : Prop where
  pos : y'.1 = y.1 + h • y'.2
  vel : y'.2 = y.2 + h • s.f y -
    s.G y (s.off + s.J y y.2 + ((β / h) • s.C y - ε) + h • s.J y (s.f y))
  row : s.off + s.J y y'.2 + (β / h) • s.C y = ε

/-- How far the state `y` after some steps is from `c`: with the velocities corrected by `G y κ` the
distance is at most `e`, and the constraint errors are small. -/
structure Bound.Loose (s : Bound P R) (h θ L c1 c3 : ℝ) (c y : P × P) (e : ℝ) (κ : R) : Prop where
  kap : ‖κ‖ ≤ c1 * θ
  row : ‖s.off + s.J y y.2 + κ - h • s.Jd y‖ ≤ L * h ^ 2
  C : ‖s.C y‖ ≤ c3 * h * θ
  dist : ‖(y.1, y.2 + s.G y κ) - c‖ ≤ e
  push : ‖s.G y κ‖ ≤ L * c1 * θ

variable {s : Bound P R} {β : ℝ} {c y y' : P × P} {r L h τ c1 c3 e : ℝ} {κ ε : R}

/-- The distance of the state itself. -/
theorem Bound.Loose.near {θ : ℝ} (k : s.Loose h θ L c1 c3 c y e κ) : ‖y - c‖ ≤ e + L * c1 * θ := by
  have e1 : y - c = ((y.1, y.2 + s.G y κ) - c) - (0, s.G y κ) :=
    Prod.ext (by simp) (by simp only [Prod.snd_sub]; abel)
  have n : ‖((0, s.G y κ) : P × P)‖ ≤ L * c1 * θ := by
    refine norm_prod_le_iff.mpr ⟨?_, k.push⟩
    rw [norm_zero]
    exact (norm_nonneg _).trans k.push
  rw [e1]
  exact (norm_sub_le _ _).trans (add_le_add k.dist n)

/-- The velocity errors of the constraints. -/
theorem Bound.Loose.speed (t : s.Tame β c r L) (L0 : 0 ≤ L) (h0 : 0 < h) (τ0 : 0 ≤ τ)
    (h1 : h + τ ≤ 1) (k : s.Loose h (h + τ) L c1 c3 c y e κ) (hy : ‖y - c‖ < r) :
    ‖s.off + s.J y y.2‖ ≤ (c1 + L + L) * (h + τ) := by
  have e1 : s.off + s.J y y.2 = (s.off + s.J y y.2 + κ - h • s.Jd y) + -κ + h • s.Jd y := by abel
  have n3 : ‖h • s.Jd y‖ ≤ L * h := by
    rw [norm_smul, Real.norm_eq_abs, abs_of_pos h0, mul_comm]
    exact mul_le_mul_of_nonneg_right (t.Jd y hy) h0.le
  rw [e1]
  refine (norm_add_le_of (norm_add_le_of k.row (norm_neg_le_of k.kap)) n3).trans ?_
  have hh : h ^ 2 ≤ h := by nlinarith
  have := mul_le_mul_of_nonneg_left hh L0
  have := mul_nonneg L0 τ0
  linarith

/-- One step: the new state is near the old one. -/
theorem Bound.Noisy.moves (t : s.Tame β c r L) (L0 : 0 ≤ L) (h0 : 0 < h) (τ0 : 0 ≤ τ)
    (h1 : h + τ ≤ 1) (hε : ‖ε‖ ≤ τ) (hc1 : |β| * c3 + 1 ≤ c1)
    (k : s.Loose h (h + τ) L c1 c3 c y e κ) (hr : e + L * c1 * (h + τ) < r)
    (st : s.Noisy β h ε y y') : ‖(β / h) • s.C y - ε‖ ≤ c1 * (h + τ) ∧
      ‖y'.2 - y.2‖ ≤ gain L c1 L * (h + τ) := by
  have hy : ‖y - c‖ < r := k.near.trans_lt hr
  have n0 : ‖(β / h) • s.C y‖ ≤ |β| * c3 * (h + τ) := by
    rw [norm_smul, Real.norm_eq_abs, abs_div, abs_of_pos h0]
    calc |β| / h * ‖s.C y‖ ≤ |β| / h * (c3 * h * (h + τ)) :=
          mul_le_mul_of_nonneg_left k.C (by positivity)
      _ = |β| * c3 * (h + τ) := by field_simp
  have n1 : ‖(β / h) • s.C y - ε‖ ≤ c1 * (h + τ) := by
    refine (norm_sub_le _ _).trans ((add_le_add n0 hε).trans ?_)
    have := mul_le_mul_of_nonneg_right hc1 (by linarith : 0 ≤ h + τ)
    linarith
  refine ⟨n1, ?_⟩
  have n2 := k.speed t L0 h0 τ0 h1 hy
  have nf : ‖h • s.f y‖ ≤ L * h := by
    rw [norm_smul, Real.norm_eq_abs, abs_of_pos h0, mul_comm]
    exact mul_le_mul_of_nonneg_right (t.f y hy) h0.le
  have n4 : ‖h • s.J y (s.f y)‖ ≤ L * L * h := by
    rw [← map_smul]
    refine (t.J y hy _).trans ?_
    have := mul_le_mul_of_nonneg_left nf L0
    linarith
  have n5 := t.G y hy (s.off + s.J y y.2 + ((β / h) • s.C y - ε) + h • s.J y (s.f y))
  have n6 := mul_le_mul_of_nonneg_left (norm_add_le_of (norm_add_le_of n2 n1) n4) L0
  have e2 : y'.2 - y.2 = h • s.f y +
      -s.G y (s.off + s.J y y.2 + ((β / h) • s.C y - ε) + h • s.J y (s.f y)) := by rw [st.vel]; abel
  rw [e2]
  refine (norm_add_le_of nf (norm_neg_le_of (n5.trans n6))).trans ?_
  have a1 := mul_nonneg L0 τ0
  have a2 : 0 ≤ L * (L * L * τ) := by positivity
  rw [gain]
  linarith

/-- One step near a solution `Y` of the constrained equations of motion. -/
theorem Bound.Noisy.follows {Good : P × P → Prop} {Y : ℝ → P × P} {T B : ℝ}
    (u : Tube s.acc Good Y T r L B)
    (hY : ∀ t ∈ Icc 0 T, HasDerivWithinAt Y (flow s.acc (Y t)) (Icc 0 T) t) {t : ℝ}
    (ht : t ∈ Icc 0 T) (ht' : t + h ∈ Icc 0 T) (cm : s.Calm β (Y t) r L)
    (h0 : 0 < h) (τ0 : 0 ≤ τ) (h1 : h + τ ≤ 1) (hε : ‖ε‖ ≤ τ) (hB : B * h < r) (c10 : 0 ≤ c1)
    (hc1 : |β| * c3 + 1 ≤ c1) (hc3 : |1 - β| * c3 + L + 1 = c3)
    (k : s.Loose h (h + τ) L c1 c3 (Y t) y e κ)
    (hr : e + (L * c1 + L + gain L c1 L) * (h + τ) < r) (st : s.Noisy β h ε y y') :
    s.Loose h (h + τ) L c1 c3 (Y (t + h)) y'
      ((1 + (L + 1) * h) * e + (slack L c1 L + (L + 1) * B) * h * (h + τ))
      ((β / h) • s.C y - ε) := by
  have tm := cm.tame
  have L0 := u.K0
  have g0 : 0 ≤ gain L c1 L := by rw [gain]; positivity
  set θ := h + τ with hθ
  have θ0 : 0 < θ := by linarith
  have hhθ : h ≤ θ := by linarith
  have hr1 : e + L * c1 * θ < r := by
    nlinarith [mul_nonneg L0 θ0.le, mul_nonneg g0 θ0.le]
  obtain ⟨n1, n2⟩ := st.moves tm L0 h0 τ0 h1 hε hc1 k hr1
  rw [← hθ] at n1 n2
  set κ' := (β / h) • s.C y - ε with hκ
  have hy : ‖y - Y t‖ < r := k.near.trans_lt hr1
  have hv : ‖y'.2‖ ≤ L + gain L c1 L := by
    have e1 : y'.2 = y.2 + (y'.2 - y.2) := by abel
    rw [e1]
    refine (norm_add_le_of (tm.vel y hy) n2).trans ?_
    nlinarith
  have seg : ∀ a ∈ Icc 0 h, ‖(y.1 + a • y'.2, y'.2) - y‖ ≤ (L + gain L c1 L) * θ := by
    intro a ha
    refine norm_prod_le_iff.mpr ⟨?_, ?_⟩
    · have e1 : ((y.1 + a • y'.2, y'.2) - y).1 = a • y'.2 := by simp
      rw [e1, norm_smul, Real.norm_eq_abs, abs_of_nonneg ha.1, mul_comm]
      exact mul_le_mul hv (ha.2.trans hhθ) ha.1 (by positivity)
    · refine le_trans n2 ?_
      nlinarith [mul_nonneg L0 θ0.le]
  have seg' : ∀ a ∈ Icc 0 h, ‖(y.1 + a • y'.2, y'.2) - Y t‖ < r := by
    intro a ha
    have e1 : (y.1 + a • y'.2, y'.2) - Y t = ((y.1 + a • y'.2, y'.2) - y) + (y - Y t) := by abel
    rw [e1]
    refine (norm_add_le_of (seg a ha) k.near).trans_lt ?_
    linarith
  have ey : y' = (y.1 + h • y'.2, y'.2) := Prod.ext st.pos rfl
  have hy' : ‖y' - Y t‖ < r := by
    rw [ey]; exact seg' h ⟨h0.le, le_rfl⟩
  have hyy : ‖y'.1 - y.1‖ ≤ (L + gain L c1 L) * h := by
    rw [st.pos, add_sub_cancel_left, norm_smul, Real.norm_eq_abs, abs_of_pos h0, mul_comm]
    exact mul_le_mul_of_nonneg_right hv h0.le
  have row : s.off + s.J (y.1, y.2) y'.2 + (β / h) • s.C (y.1, y.2) = ε := st.row
  have push : ‖s.G y' κ'‖ ≤ L * c1 * θ := by
    refine (tm.G y' hy' _).trans ?_
    have := mul_le_mul_of_nonneg_left n1 L0
    linarith
  refine ⟨n1, ?_, ?_, ?_, push⟩
  · have := tm.Jt y.1 y'.2 y.2 h h0 seg'
    rw [← ey] at this
    have e1 : s.off + s.J y' y'.2 + κ' - h • s.Jd y' =
        ((s.off + s.J (y.1, y.2) y'.2 + (β / h) • s.C (y.1, y.2)) - ε) +
          (s.J y' y'.2 - s.J (y.1, y.2) y'.2 - h • s.Jd y') := by
      show s.off + s.J y' y'.2 + ((β / h) • s.C y - ε) - h • s.Jd y' =
        ((s.off + s.J y y'.2 + (β / h) • s.C y) - ε) + (s.J y' y'.2 - s.J y y'.2 - h • s.Jd y')
      abel
    rw [e1, row, sub_self, zero_add]
    exact this
  · have := cm.Cn y.1 y'.2 y.2 h ε h0 seg' row
    rw [← ey] at this
    refine this.trans ?_
    have a1 := mul_le_mul_of_nonneg_left k.C (abs_nonneg (1 - β))
    have a2 := mul_le_mul_of_nonneg_left hε h0.le
    have a3 : L * h ^ 2 ≤ L * (h * θ) := mul_le_mul_of_nonneg_left (by nlinarith) L0
    have a4 : h * τ ≤ h * θ := mul_le_mul_of_nonneg_left (by linarith) h0.le
    have a5 : c3 * h * θ = (|1 - β| * c3 + L + 1) * h * θ := by rw [hc3]
    have a6 : |1 - β| * ‖s.C (y.1, y.2)‖ ≤ |1 - β| * (c3 * h * θ) := a1
    rw [a5]
    linarith
  · set z : P × P := (y.1, y.2 + s.G y κ) with hz
    set z' : P × P := (y'.1, y'.2 + s.G y' κ') with hz'
    have hn := norm_nonneg (z - Y t)
    have hD : slack L c1 L * θ / h * h ^ 2 = slack L c1 L * h * θ := by field_simp
    have key : ‖z' - z - h • flow s.acc (Y t)‖ ≤
        (L + 1) * h * ‖z - Y t‖ + slack L c1 L * θ / h * h ^ 2 := by
      rw [hD]
      have yz : ‖y - Y t‖ ≤ ‖z - Y t‖ + L * c1 * θ := by
        have e1 : y - Y t = (z - Y t) - (0, s.G y κ) :=
          Prod.ext (by simp [hz]) (by simp only [hz, Prod.snd_sub]; abel)
        rw [e1]
        refine (norm_sub_le _ _).trans (add_le_add le_rfl ?_)
        refine norm_prod_le_iff.mpr ⟨?_, k.push⟩
        rw [norm_zero]
        positivity
      refine norm_prod_le_iff.mpr ⟨?_, ?_⟩
      · have e1 : (z' - z - h • flow s.acc (Y t)).1 =
            h • (y'.2 - y.2) + h • (-s.G y κ) + h • (z - Y t).2 := by
          simp only [hz, hz', flow, Prod.fst_sub, Prod.smul_fst, Prod.snd_sub, st.pos]
          module
        rw [e1]
        have m : ∀ {v : P} {b : ℝ}, ‖v‖ ≤ b → ‖h • v‖ ≤ h * b := fun hv => by
          rw [norm_smul, Real.norm_eq_abs, abs_of_pos h0]
          exact mul_le_mul_of_nonneg_left hv h0.le
        refine (norm_add_le_of (norm_add_le_of (m n2) (m (norm_neg_le_of k.push)))
          (m (norm_snd_le (z - Y t)))).trans ?_
        have a1 : 0 ≤ L * h * ‖z - Y t‖ := by positivity
        have a2 : 0 ≤ (L * L + L * (L + gain L c1 L) * c1 + L * L * c1) * h * θ := by positivity
        rw [slack]
        linarith
      · have e1 : (z' - z - h • flow s.acc (Y t)).2 =
            h • (s.acc y - s.acc (Y t)) + -s.G y (s.off + s.J y y.2 + κ - h • s.Jd y) +
              (s.G y' κ' - s.G y κ') := by
          simp only [hz, hz', flow, Prod.snd_sub, Prod.smul_snd]
          rw [st.vel]
          simp only [Bound.acc, map_add, map_sub, map_smul, smul_sub, smul_add, hκ]
          abel
        rw [e1]
        have m1 : ‖h • (s.acc y - s.acc (Y t))‖ ≤ h * (L * (‖z - Y t‖ + L * c1 * θ)) := by
          rw [norm_smul, Real.norm_eq_abs, abs_of_pos h0]
          refine mul_le_mul_of_nonneg_left ((u.lip t ht y hy).trans ?_) h0.le
          exact mul_le_mul_of_nonneg_left yz L0
        have m2 : ‖-s.G y (s.off + s.J y y.2 + κ - h • s.Jd y)‖ ≤ L * (L * (h * θ)) := by
          rw [norm_neg]
          refine (tm.G y hy _).trans (mul_le_mul_of_nonneg_left (k.row.trans ?_) L0)
          exact mul_le_mul_of_nonneg_left (by nlinarith) L0
        have m3 : ‖s.G y' κ' - s.G y κ'‖ ≤ L * ((L + gain L c1 L) * h) * (c1 * θ) := by
          refine (cm.Gpos y' y hy' hy _).trans ?_
          exact mul_le_mul (mul_le_mul_of_nonneg_left hyy L0) n1 (norm_nonneg _) (by positivity)
        refine (norm_add_le_of (norm_add_le_of m1 m2) m3).trans ?_
        have a1 : 0 ≤ h * ‖z - Y t‖ := by positivity
        have a2 : 0 ≤ (gain L c1 L + L * c1) * h * θ := by positivity
        rw [slack]
        linarith
    have := u.step hY h0.le hB ht ht' key
    have hle : ‖z - Y t‖ ≤ e := k.dist
    have a1 : 0 ≤ 1 + (L + 1) * h := by positivity
    have a2 := mul_le_mul_of_nonneg_left hle a1
    have a3 : 0 ≤ (L + 1) * B * h * τ := mul_nonneg (mul_nonneg (mul_nonneg (by linarith) u.B0) h0.le) τ0
    rw [add_mul (slack L c1 L * θ / h), hD] at this
    have a4 : (slack L c1 L + (L + 1) * B) * h * θ =
      slack L c1 L * h * θ + (L + 1) * B * h ^ 2 + (L + 1) * B * h * τ := by rw [hθ]; ring
    rw [a4]
    linarith

/-- Weaker bounds in a smaller neighbourhood. -/
theorem Bound.Tame.mono (t : s.Tame β c r L) {r' L' : ℝ} (hr : r' ≤ r) (hL : L ≤ L') :
    s.Tame β c r' L' := by
  have lt : ∀ {a : ℝ}, a < r' → a < r := fun h => h.trans_le hr
  refine ⟨fun y hy => (t.vel y (lt hy)).trans hL, fun y hy => (t.f y (lt hy)).trans hL,
    fun y hy v => (t.J y (lt hy) v).trans (mul_le_mul_of_nonneg_right hL (norm_nonneg _)),
    fun y hy => (t.Jd y (lt hy)).trans hL,
    fun y hy v => (t.G y (lt hy) v).trans (mul_le_mul_of_nonneg_right hL (norm_nonneg _)),
    fun y z hy hz e => (t.Glip y z (lt hy) (lt hz) e).trans ?_,
    fun y z hy hz => (t.acc y z (lt hy) (lt hz)).trans (mul_le_mul_of_nonneg_right hL (norm_nonneg _)),
    fun q v v' h h0 hs => (t.Jt q v v' h h0 fun u hu => lt (hs u hu)).trans
      (mul_le_mul_of_nonneg_right hL (sq_nonneg _)),
    fun q v v' h h0 hs hr => (t.Ct q v v' h h0 (fun u hu => lt (hs u hu)) hr).trans
      (mul_le_mul_of_nonneg_right hL (sq_nonneg _))⟩
  exact mul_le_mul_of_nonneg_right (mul_le_mul_of_nonneg_right hL (norm_nonneg _)) (norm_nonneg _)

end

end Scs
