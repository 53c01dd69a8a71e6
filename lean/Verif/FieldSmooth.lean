import Verif.LipAt
import Verif.WorldOde

/-!
# The constraints and force generators depend smoothly on the motion
-/

namespace Scs

open Finset

section
variable {E : Type} [NormedAddCommGroup E] [NormedSpace ℝ E] {q v : E → Nat → ℝ}

theorem cT_smooth (k : CKind ℝ) (hq : ∀ t, ContDiff ℝ 1 fun y => q y t) (r : Nat) :
    ContDiff ℝ 1 fun y => k.cT (q y) r := by
  cases k <;> rcases r with _ | _ | r <;> simp only [CKind.cT, rx, ry] <;> fun_prop

set_option maxHeartbeats 2000000 in
theorem jT_smooth (k : CKind ℝ) (hq : ∀ t, ContDiff ℝ 1 fun y => q y t) (r c : Nat) :
    ContDiff ℝ 1 fun y => k.jT (q y) r c := by
  have const : ∀ {k : CKind ℝ}, (∀ u, k.jT u r c = k.jT (fun _ => 0) r c) →
      ContDiff ℝ 1 fun y => k.jT (q y) r c := fun h => by
    simp only [h]
    exact contDiff_const
  cases k with
  | rolling p =>
    rcases r with _ | _ | r <;> rcases c with _ | _ | _ | _ | _ | _ | c <;>
      simp only [CKind.jT, rx, ry] <;> fun_prop
  | link p =>
    rcases r with _ | _ | r <;> rcases c with _ | _ | _ | _ | _ | _ | c <;>
      simp only [CKind.jT, rx, ry] <;> fun_prop
  | fixedPosition p =>
    rcases r with _ | _ | r <;> rcases c with _ | _ | _ | c <;>
      simp only [CKind.jT, rx, ry] <;> fun_prop
  | line p =>
    rcases r with _ | r <;> rcases c with _ | _ | _ | c <;>
      simp only [CKind.jT, rx, ry] <;> fun_prop
  | base => exact contDiff_const (c := (0 : ℝ))
  | custom f => exact contDiff_const (c := (0 : ℝ))
  | fixedRotation p =>
    refine const fun _ => ?_
    rcases r with _ | r <;> rcases c with _ | _ | _ | _ | _ | _ | c <;> rfl
  | constantRotation p =>
    refine const fun _ => ?_
    rcases r with _ | r <;> rcases c with _ | _ | _ | _ | _ | _ | c <;> rfl
  | clutch p =>
    refine const fun _ => ?_
    rcases r with _ | r <;> rcases c with _ | _ | _ | _ | _ | _ | c <;> rfl
  | rotationFriction p =>
    refine const fun _ => ?_
    rcases r with _ | r <;> rcases c with _ | _ | _ | _ | _ | _ | c <;> rfl
  | simpleGear p =>
    refine const fun _ => ?_
    rcases r with _ | r <;> rcases c with _ | _ | _ | _ | _ | _ | c <;> rfl

set_option maxHeartbeats 2000000 in
theorem jdT_smooth (k : CKind ℝ) (hq : ∀ t, ContDiff ℝ 1 fun y => q y t)
    (hv : ∀ t, ContDiff ℝ 1 fun y => v y t) (r c : Nat) :
    ContDiff ℝ 1 fun y => k.jdT (q y) (v y) r c := by
  cases k with
  | rolling p =>
    rcases r with _ | _ | r <;> rcases c with _ | _ | _ | _ | _ | _ | c <;>
      simp only [CKind.jdT, rx, ry] <;> fun_prop
  | link p =>
    rcases r with _ | _ | r <;> rcases c with _ | _ | _ | _ | _ | _ | c <;>
      simp only [CKind.jdT, rx, ry] <;> fun_prop
  | fixedPosition p =>
    rcases r with _ | _ | r <;> rcases c with _ | _ | _ | c <;>
      simp only [CKind.jdT, rx, ry] <;> fun_prop
  | line p =>
    rcases r with _ | r <;> rcases c with _ | _ | _ | c <;>
      simp only [CKind.jdT, rx, ry] <;> fun_prop
  | _ => simp only [CKind.jdT]; fun_prop

end

/-- In the motion `x` the generator depends smoothly (or with a limited slope) on the motion: the
ends of a spring are not at exactly the distance 0.01 where its force jumps (see C42), and a motor has
no damping, for which the code uses the accelerations of the previous evaluation. -/
def Gen.Regular (g : Gen ℝ) (x : Motion) : Prop :=
  match g with
  | .spring p => ∀ b1 b2, p.body1 = .obj b1 → p.body2 = .obj b2 →
      distOf (x.point b1 p.p1_x p.p1_y) (x.point b2 p.p2_x p.p2_y) ≠ 1 / 100
  | .motor p => p.kd = 0
  | _ => True

section
variable {E : Type} [NormedAddCommGroup E] [NormedSpace ℝ E] {X : E → Motion}
  (hp : ∀ b q, ContDiff ℝ 1 fun y => (X y).pos b q)
  (hv : ∀ b q, ContDiff ℝ 1 fun y => (X y).vel b q)
include hp

theorem point_smooth (b : Nat) (px py : ℝ) : ContDiff ℝ 1 (fun y => ((X y).point b px py).1) ∧
    ContDiff ℝ 1 (fun y => ((X y).point b px py).2) := by
  have h1 := hp b .x
  have h2 := hp b .y
  have h3 := hp b .th
  simp only [Motion.point]
  exact ⟨by fun_prop, by fun_prop⟩

theorem wrench_lip (b b' : Nat) (px py : ℝ) {f : E → ℝ × ℝ} {y : E} (h1 : LipAt (fun u => (f u).1) y)
    (h2 : LipAt (fun u => (f u).2) y) (q : Coord) :
    LipAt (fun u => (X u).wrench b ((X u).point b' px py) (f u) q) y := by
  obtain ⟨p1, p2⟩ := point_smooth hp b' px py
  cases q with
  | x => exact h1
  | y => exact h2
  | th =>
    simp only [Motion.wrench]
    exact (((ContDiff.lipAt p1 y).sub (ContDiff.lipAt (hp b .x) y)).mul h2).sub
      (((ContDiff.lipAt p2 y).sub (ContDiff.lipAt (hp b .y) y)).mul h1)

include hv

theorem pointVel_smooth (b : Nat) (px py : ℝ) : ContDiff ℝ 1 (fun y => ((X y).pointVel b px py).1) ∧
    ContDiff ℝ 1 (fun y => ((X y).pointVel b px py).2) := by
  have h1 := hp b .x
  have h2 := hp b .y
  have h3 := hv b .x
  have h4 := hv b .y
  have h5 := hv b .th
  obtain ⟨p1, p2⟩ := point_smooth hp b px py
  simp only [Motion.pointVel]
  exact ⟨by fun_prop, by fun_prop⟩

theorem pull_lip (p : Spring ℝ) (b b' : Nat) {y : E}
    (hd : distOf ((X y).point b p.p1_x p.p1_y) ((X y).point b' p.p2_x p.p2_y) ≠ 1 / 100) :
    LipAt (fun u => (p.pullOn (X u) b b').1) y ∧ LipAt (fun u => (p.pullOn (X u) b b').2) y := by
  obtain ⟨p1, p2⟩ := point_smooth hp b p.p1_x p.p1_y
  obtain ⟨r1, r2⟩ := point_smooth hp b' p.p2_x p.p2_y
  obtain ⟨v1, v2⟩ := pointVel_smooth hp hv b p.p1_x p.p1_y
  obtain ⟨u1, u2⟩ := pointVel_smooth hp hv b' p.p2_x p.p2_y
  have hD : ContDiff ℝ 1 fun u => (((X u).point b' p.p2_x p.p2_y).1 -
      ((X u).point b p.p1_x p.p1_y).1) ^ 2 + (((X u).point b' p.p2_x p.p2_y).2 -
      ((X u).point b p.p1_x p.p1_y).2) ^ 2 := by fun_prop
  have hc : Continuous fun u =>
      distOf ((X u).point b p.p1_x p.p1_y) ((X u).point b' p.p2_x p.p2_y) :=
    Real.continuous_sqrt.comp hD.continuous
  rcases lt_or_gt_of_ne hd with hlt | hgt
  · have ev := hc.continuousAt.eventually (gt_mem_nhds hlt)
    constructor
    · refine LipAt.congr (f := fun u => p.kd * (((X u).pointVel b' p.p2_x p.p2_y).1 -
        ((X u).pointVel b p.p1_x p.p1_y).1)) (ContDiff.lipAt (by fun_prop) y) ?_
      filter_upwards [ev] with u hu
      rw [Spring.pullOn, springForce, if_neg (not_le.mpr hu)]
    · refine LipAt.congr (f := fun u => p.kd * (((X u).pointVel b' p.p2_x p.p2_y).2 -
        ((X u).pointVel b p.p1_x p.p1_y).2)) (ContDiff.lipAt (by fun_prop) y) ?_
      filter_upwards [ev] with u hu
      rw [Spring.pullOn, springForce, if_neg (not_le.mpr hu)]
  · have ev := hc.continuousAt.eventually (lt_mem_nhds hgt)
    have h0 : (((X y).point b' p.p2_x p.p2_y).1 -
        ((X y).point b p.p1_x p.p1_y).1) ^ 2 + (((X y).point b' p.p2_x p.p2_y).2 -
        ((X y).point b p.p1_x p.p1_y).2) ^ 2 ≠ 0 := by
      intro h0
      rw [distOf, h0, Real.sqrt_zero] at hgt
      norm_num at hgt
    have hl : LipAt (fun u => √((((X u).point b' p.p2_x p.p2_y).1 -
        ((X u).point b p.p1_x p.p1_y).1) ^ 2 + (((X u).point b' p.p2_x p.p2_y).2 -
        ((X u).point b p.p1_x p.p1_y).2) ^ 2)) y :=
      ContDiffAt.lipAt (hD.contDiffAt.sqrt h0)
    have hne : √((((X y).point b' p.p2_x p.p2_y).1 -
        ((X y).point b p.p1_x p.p1_y).1) ^ 2 + (((X y).point b' p.p2_x p.p2_y).2 -
        ((X y).point b p.p1_x p.p1_y).2) ^ 2) ≠ 0 := by
      intro h
      have : distOf ((X y).point b p.p1_x p.p1_y) ((X y).point b' p.p2_x p.p2_y) = 0 := h
      rw [this] at hgt
      norm_num at hgt
    have main : ∀ {f g : E → ℝ}, ContDiff ℝ 1 f → ContDiff ℝ 1 g →
        LipAt (fun u => p.ks * (√((((X u).point b' p.p2_x p.p2_y).1 -
          ((X u).point b p.p1_x p.p1_y).1) ^ 2 + (((X u).point b' p.p2_x p.p2_y).2 -
          ((X u).point b p.p1_x p.p1_y).2) ^ 2) - p.restLength) * (f u /
          √((((X u).point b' p.p2_x p.p2_y).1 -
          ((X u).point b p.p1_x p.p1_y).1) ^ 2 + (((X u).point b' p.p2_x p.p2_y).2 -
          ((X u).point b p.p1_x p.p1_y).2) ^ 2)) + p.kd * g u) y := fun hf hg => by
      refine LipAt.add (((LipAt.const _ _).mul (hl.sub (LipAt.const _ _))).mul ?_)
        ((LipAt.const _ _).mul (ContDiff.lipAt hg y))
      simp only [div_eq_mul_inv]
      exact (ContDiff.lipAt hf y).mul (hl.inv hne)
    constructor
    · refine LipAt.congr (main (f := fun u => ((X u).point b' p.p2_x p.p2_y).1 -
        ((X u).point b p.p1_x p.p1_y).1) (g := fun u => ((X u).pointVel b' p.p2_x p.p2_y).1 -
        ((X u).pointVel b p.p1_x p.p1_y).1) (by fun_prop) (by fun_prop)) ?_
      filter_upwards [ev] with u hu
      rw [Spring.pullOn, springForce, if_pos hu.le]
      rfl
    · refine LipAt.congr (main (f := fun u => ((X u).point b' p.p2_x p.p2_y).2 -
        ((X u).point b p.p1_x p.p1_y).2) (g := fun u => ((X u).pointVel b' p.p2_x p.p2_y).2 -
        ((X u).pointVel b p.p1_x p.p1_y).2) (by fun_prop) (by fun_prop)) ?_
      filter_upwards [ev] with u hu
      rw [Spring.pullOn, springForce, if_pos hu.le]
      rfl

theorem load_lip {g : Gen ℝ} {y : E} (hg : g.Regular (X y)) (m : ℝ) (b : Nat) (q : Coord) :
    LipAt (fun u => g.load m (X u) b q) y := by
  cases g with
  | gravity a => exact LipAt.const _ _
  | custom f => exact LipAt.const _ _
  | static p =>
    simp only [Gen.load]
    split
    · exact wrench_lip hp b b _ _ (LipAt.const _ _) (LipAt.const _ _) q
    · exact LipAt.const _ _
  | spring p =>
    simp only [Gen.load]
    cases h1 : p.body1 with
    | null => exact LipAt.const _ _
    | uninit => exact LipAt.const _ _
    | obj b1 =>
      cases h2 : p.body2 with
      | null => exact LipAt.const _ _
      | uninit => exact LipAt.const _ _
      | obj b2 =>
        obtain ⟨l1, l2⟩ := pull_lip hp hv p b1 b2 (hg b1 b2 h1 h2)
        refine LipAt.add ?_ ?_
        · split
          · exact wrench_lip hp b b1 _ _ l1 l2 q
          · exact LipAt.const _ _
        · split
          · exact wrench_lip hp b b2 _ _ (f := fun u => -p.pullOn (X u) b1 b2) l1.neg l2.neg q
          · exact LipAt.const _ _
  | motor p =>
    simp only [Gen.load]
    cases h1 : p.body0 with
    | null => exact LipAt.const _ _
    | uninit => exact LipAt.const _ _
    | obj b0 =>
      cases h2 : p.body1 with
      | null => exact LipAt.const _ _
      | uninit => exact LipAt.const _ _
      | obj b1 =>
        have hd : LipAt (fun u => p.drive (X u) b0 b1) y := by
          have hkd : p.kd = 0 := hg
          have a1 := hv b1 .th
          have a0 := hv b0 .th
          simp only [Motor.drive, fp_fmin, fp_fmax, motorTorque, hkd, zero_mul, sub_zero]
          exact (LipAt.const _ _).min ((LipAt.const _ _).max (ContDiff.lipAt (by fun_prop) y))
        have ht : ∀ {f : E → ℝ}, LipAt f y → LipAt (fun u => pureTorque (f u) q) y := fun hf => by
          cases q with
          | x => exact LipAt.const _ _
          | y => exact LipAt.const _ _
          | th => exact hf
        refine LipAt.add ?_ ?_
        · split
          · exact ht hd.neg
          · exact LipAt.const _ _
        · split
          · exact ht hd
          · exact LipAt.const _ _

end

end Scs
