import Verif.PropsStep
import Mathlib.Analysis.Calculus.Deriv.MeanValue
import Mathlib.Analysis.SpecialFunctions.Trigonometric.Deriv
import Mathlib.Analysis.SpecialFunctions.Trigonometric.Bounds
import Mathlib.Analysis.Complex.Norm

/-!
Support for C69: what a sub-step does to the error of a position constraint.
-/

namespace Scs

open Real

/-- Euclidean length of a vector. -/
noncomputable def len (v : ℝ × ℝ) : ℝ := Real.sqrt (v.1 ^ 2 + v.2 ^ 2)

theorem len_eq (v : ℝ × ℝ) : len v = ‖(⟨v.1, v.2⟩ : ℂ)‖ := by
  rw [len, Complex.norm_def, Complex.normSq_mk, sq, sq]

theorem len_add_le (u v : ℝ × ℝ) : len (u + v) ≤ len u + len v := by
  rw [len_eq, len_eq, len_eq]
  exact norm_add_le (⟨u.1, u.2⟩ : ℂ) ⟨v.1, v.2⟩

theorem len_smul (a : ℝ) (v : ℝ × ℝ) : len (a • v) = |a| * len v := by
  simp only [len, Prod.smul_fst, Prod.smul_snd, smul_eq_mul]
  rw [← Real.sqrt_sq_eq_abs, ← Real.sqrt_mul (sq_nonneg _)]
  ring_nf

theorem len_nonneg (v : ℝ × ℝ) : 0 ≤ len v := Real.sqrt_nonneg _

theorem len_neg (v : ℝ × ℝ) : len (-v) = len v := by
  simp [len]

theorem len_sub_le (u v : ℝ × ℝ) : len (u - v) ≤ len u + len v := by
  rw [sub_eq_add_neg, ← len_neg v]
  exact len_add_le _ _

/-- `|exp (iδ) - 1 - iδ| ≤ δ² / 2`. -/
theorem turn_le (d : ℝ) : (1 - cos d) ^ 2 + (d - sin d) ^ 2 ≤ (d ^ 2 / 2) ^ 2 := by
  have key : ∀ d : ℝ, 0 ≤ d → (1 - cos d) ^ 2 + (d - sin d) ^ 2 ≤ (d ^ 2 / 2) ^ 2 := by
    intro d hd
    let g : ℝ → ℝ := fun x => x ^ 4 / 4 - x ^ 2 - 2 + 2 * cos x + 2 * x * sin x
    have hg : ∀ x, HasDerivAt g (x * (x ^ 2 - 2 + 2 * cos x)) x := by
      intro x
      have h1 : HasDerivAt (fun x : ℝ => x ^ 4 / 4) (4 * x ^ 3 / 4) x := by
        simpa using (hasDerivAt_pow 4 x).div_const 4
      have h2 : HasDerivAt (fun x : ℝ => x ^ 2) (2 * x) x := by
        simpa using hasDerivAt_pow 2 x
      have h3 := (Real.hasDerivAt_cos x).const_mul 2
      have h4 := ((hasDerivAt_id x).const_mul 2).mul (Real.hasDerivAt_sin x)
      have := (((h1.sub h2).sub_const 2).add h3).add h4
      refine this.congr_deriv ?_
      simp only [id, mul_one]
      ring
    have hmono : MonotoneOn g (Set.Ici 0) := by
      refine monotoneOn_of_deriv_nonneg (convex_Ici 0)
        (fun x _ => (hg x).continuousAt.continuousWithinAt)
        (fun x _ => (hg x).differentiableAt.differentiableWithinAt) fun x hx => ?_
      rw [interior_Ici, Set.mem_Ioi] at hx
      rw [(hg x).deriv]
      have := Real.one_sub_sq_div_two_le_cos (x := x)
      exact mul_nonneg hx.le (by linarith)
    have h0 := hmono (Set.mem_Ici.2 le_rfl) (Set.mem_Ici.2 hd) hd
    simp only [g] at h0
    have hsc := Real.sin_sq_add_cos_sq d
    norm_num at h0
    nlinarith [h0, hsc]
  rcases le_total 0 d with h | h
  · exact key d h
  · have := key (-d) (by linarith)
    rw [Real.cos_neg, Real.sin_neg] at this
    nlinarith [this]

/-- The part of the motion of the point with local coordinates `(px, py)` that is not linear in the
angle `d` by which the body turns from `θ`. -/
noncomputable def bend (θ d px py : ℝ) : ℝ × ℝ :=
  ((cos (θ + d) * px - sin (θ + d) * py) - (cos θ * px - sin θ * py) +
      d * (sin θ * px + cos θ * py),
    (sin (θ + d) * px + cos (θ + d) * py) - (sin θ * px + cos θ * py) -
      d * (cos θ * px - sin θ * py))

theorem bend_le (θ d px py : ℝ) : len (bend θ d px py) ≤ d ^ 2 / 2 * len (px, py) := by
  have h : (bend θ d px py).1 ^ 2 + (bend θ d px py).2 ^ 2 =
      ((1 - cos d) ^ 2 + (d - sin d) ^ 2) * (px ^ 2 + py ^ 2) := by
    simp only [bend, Real.cos_add, Real.sin_add]
    have hs : sin θ ^ 2 = 1 - cos θ ^ 2 := by linarith [Real.sin_sq_add_cos_sq θ]
    have hs4 : sin θ ^ 4 = (1 - cos θ ^ 2) ^ 2 := by rw [← hs]; ring
    ring_nf
    rw [hs]
    ring_nf
  have h2 : d ^ 2 / 2 * len (px, py) = Real.sqrt ((d ^ 2 / 2) ^ 2 * (px ^ 2 + py ^ 2)) := by
    rw [Real.sqrt_mul (sq_nonneg _), Real.sqrt_sq (by positivity), len]
  rw [h2, len]
  refine Real.sqrt_le_sqrt ?_
  rw [h]
  exact mul_le_mul_of_nonneg_right (turn_le d) (by positivity)

theorem bend_zero (θ d : ℝ) : bend θ d 0 0 = 0 := by
  simp [bend]

/-! ### Sub-steps -/

section
variable {w : World ℝ} {h : ℝ} {x x' : Motion} {mult : Nat → Nat → ℝ}

/-- How a point of a body moves in a sub-step. -/
theorem World.Move.point (m : w.Move h x x' mult) {b : Nat} (hb : b ∈ w.rb) (px py : ℝ) :
    x'.point b px py = x.point b px py +
      h • (⟨x'.vel b .x - x'.vel b .th * ((x.point b px py).2 - x.pos b .y),
        x'.vel b .y + x'.vel b .th * ((x.point b px py).1 - x.pos b .x)⟩ : ℝ × ℝ) +
      bend (x.pos b .th) (h * x'.vel b .th) px py := by
  refine Prod.ext ?_ ?_
  · simp only [Motion.point, m.pos b hb, bend, Prod.fst_add, Prod.smul_fst, smul_eq_mul]
    ring
  · simp only [Motion.point, m.pos b hb, bend, Prod.snd_add, Prod.smul_snd, smul_eq_mul]
    ring

variable (m : w.Move h x x' mult) (hsle : w.sle = some .ge) {c : Nat} (hc : c ∈ w.cs)
include m hsle hc

/-- A fixed rotation. -/
theorem drift_rotation {l : FixedRotation ℝ} (hk : (w.cons c).kind = .fixedRotation l)
    (hr : (w.cons c).rows = 1) (hn : (w.cons c).bodyCount = 1) {b : Nat} (hb : b ∈ w.rb)
    (h1 : (w.cons c).bodies 0 = .obj b) :
    x'.pos b .th - l.rotation = (1 - w.bias) * (x.pos b .th - l.rotation) := by
  have r0 := m.ge hsle c hc 0 (by omega)
  obtain ⟨q0, q1, q2⟩ := q_one (x := x) hn h1
  rw [rowAt_one _ _ _ hn h1] at r0
  simp only [World.rowsOf, hk, CKind.jT, CKind.cT, CKind.biasT, q2] at r0
  have hh := m.ne
  rw [m.pos b hb]
  have e : h * (w.bias / h) = w.bias := by field_simp
  linear_combination h * r0 - (x.pos b .th - l.rotation) * e

/-- A pinned point. -/
theorem drift_position {l : FixedPosition ℝ} (hk : (w.cons c).kind = .fixedPosition l)
    (hr : (w.cons c).rows = 2) (hn : (w.cons c).bodyCount = 1) {b : Nat} (hb : b ∈ w.rb)
    (h1 : (w.cons c).bodies 0 = .obj b) :
    x'.point b l.local_x l.local_y - (l.world_x, l.world_y) =
      (1 - w.bias) • (x.point b l.local_x l.local_y - (l.world_x, l.world_y)) +
        bend (x.pos b .th) (x'.pos b .th - x.pos b .th) l.local_x l.local_y := by
  have r0 := m.ge hsle c hc 0 (by omega)
  have r1 := m.ge hsle c hc 1 (by omega)
  obtain ⟨q0, q1, q2⟩ := q_one (x := x) hn h1
  rw [rowAt_one _ _ _ hn h1] at r0 r1
  simp only [World.rowsOf, hk, CKind.jT, CKind.cT, CKind.biasT, q0, q1, q2, rx, ry] at r0 r1
  have hh := m.ne
  have e : h * (w.bias / h) = w.bias := by field_simp
  have ed : x'.pos b .th - x.pos b .th = h * x'.vel b .th := by rw [m.pos b hb]; ring
  rw [m.point hb, ed]
  refine Prod.ext ?_ ?_
  · simp only [Motion.point, Prod.fst_add, Prod.fst_sub, Prod.smul_fst, smul_eq_mul]
    linear_combination h * r0 - (x.pos b .x + (cos (x.pos b .th) * l.local_x -
      sin (x.pos b .th) * l.local_y) - l.world_x) * e
  · simp only [Motion.point, Prod.snd_add, Prod.snd_sub, Prod.smul_snd, smul_eq_mul]
    linear_combination h * r1 - (x.pos b .y + (sin (x.pos b .th) * l.local_x +
      cos (x.pos b .th) * l.local_y) - l.world_y) * e

/-- A link. -/
theorem drift_link {l : Link ℝ} (hk : (w.cons c).kind = .link l)
    (hr : (w.cons c).rows = 2) (hn : (w.cons c).bodyCount = 2) {b1 b2 : Nat} (hb1 : b1 ∈ w.rb)
    (hb2 : b2 ∈ w.rb) (h1 : (w.cons c).bodies 0 = .obj b1) (h2 : (w.cons c).bodies 1 = .obj b2) :
    x'.point b1 l.local_x_1 l.local_y_1 - x'.point b2 l.local_x_2 l.local_y_2 =
      (1 - w.bias) • (x.point b1 l.local_x_1 l.local_y_1 - x.point b2 l.local_x_2 l.local_y_2) +
        (bend (x.pos b1 .th) (x'.pos b1 .th - x.pos b1 .th) l.local_x_1 l.local_y_1 -
          bend (x.pos b2 .th) (x'.pos b2 .th - x.pos b2 .th) l.local_x_2 l.local_y_2) := by
  have r0 := m.ge hsle c hc 0 (by omega)
  have r1 := m.ge hsle c hc 1 (by omega)
  obtain ⟨q0, q1, q2, q3, q4, q5⟩ := q_two (x := x) hn h1 h2
  rw [rowAt_two _ _ _ hn h1 h2] at r0 r1
  simp only [World.rowsOf, hk, CKind.jT, CKind.cT, CKind.biasT, q0, q1, q2, q3, q4, q5, rx, ry]
    at r0 r1
  have hh := m.ne
  have e : h * (w.bias / h) = w.bias := by field_simp
  have ed1 : x'.pos b1 .th - x.pos b1 .th = h * x'.vel b1 .th := by rw [m.pos b1 hb1]; ring
  have ed2 : x'.pos b2 .th - x.pos b2 .th = h * x'.vel b2 .th := by rw [m.pos b2 hb2]; ring
  rw [m.point hb1, m.point hb2, ed1, ed2]
  refine Prod.ext ?_ ?_
  · simp only [Motion.point, Prod.fst_add, Prod.fst_sub, Prod.smul_fst, smul_eq_mul]
    linear_combination h * r0 - (x.pos b1 .x + (cos (x.pos b1 .th) * l.local_x_1 -
      sin (x.pos b1 .th) * l.local_y_1) - (x.pos b2 .x + (cos (x.pos b2 .th) * l.local_x_2 -
      sin (x.pos b2 .th) * l.local_y_2))) * e
  · simp only [Motion.point, Prod.snd_add, Prod.snd_sub, Prod.smul_snd, smul_eq_mul]
    linear_combination h * r1 - (x.pos b1 .y + (sin (x.pos b1 .th) * l.local_x_1 +
      cos (x.pos b1 .th) * l.local_y_1) - (x.pos b2 .y + (sin (x.pos b2 .th) * l.local_x_2 +
      cos (x.pos b2 .th) * l.local_y_2))) * e

/-- A point on a line: the component of the point perpendicular to the direction of the line. -/
theorem drift_line {l : Line ℝ} (hk : (w.cons c).kind = .line l)
    (hr : (w.cons c).rows = 1) (hn : (w.cons c).bodyCount = 1) {b : Nat} (hb : b ∈ w.rb)
    (h1 : (w.cons c).bodies 0 = .obj b) :
    ((x'.point b l.local_x l.local_y).1 - l.p0_x) * -l.dy +
        ((x'.point b l.local_x l.local_y).2 - l.p0_y) * l.dx =
      (1 - w.bias) * (((x.point b l.local_x l.local_y).1 - l.p0_x) * -l.dy +
        ((x.point b l.local_x l.local_y).2 - l.p0_y) * l.dx) +
      ((bend (x.pos b .th) (x'.pos b .th - x.pos b .th) l.local_x l.local_y).1 * -l.dy +
        (bend (x.pos b .th) (x'.pos b .th - x.pos b .th) l.local_x l.local_y).2 * l.dx) := by
  have r0 := m.ge hsle c hc 0 (by omega)
  obtain ⟨q0, q1, q2⟩ := q_one (x := x) hn h1
  rw [rowAt_one _ _ _ hn h1] at r0
  simp only [World.rowsOf, hk, CKind.jT, CKind.cT, CKind.biasT, q0, q1, q2, rx, ry] at r0
  have hh := m.ne
  have e : h * (w.bias / h) = w.bias := by field_simp
  have ed : x'.pos b .th - x.pos b .th = h * x'.vel b .th := by rw [m.pos b hb]; ring
  rw [m.point hb, ed]
  simp only [Motion.point, Prod.fst_add, Prod.snd_add, Prod.smul_fst, Prod.smul_snd, smul_eq_mul]
  linear_combination h * r0 - ((x.pos b .x + (cos (x.pos b .th) * l.local_x -
      sin (x.pos b .th) * l.local_y) - l.p0_x) * -l.dy + (x.pos b .y + (sin (x.pos b .th) *
      l.local_x + cos (x.pos b .th) * l.local_y) - l.p0_y) * l.dx) * e

end

end Scs
