import Verif.WorldFollow

/-!
# Change of the units, and mirror images
-/

namespace Scs

set_option linter.unusedSimpArgs false
set_option linter.unnecessarySeqFocus false
set_option linter.unusedTactic false
set_option linter.unreachableTactic false

open Finset

/-- Other units: a length 1 in the old units is `L` in the new ones, a time 1 is `T`, a mass 1 is `M`.
With `σ = -1` everything is also mirrored at the x-axis. -/
structure Units where
  L : ℝ
  T : ℝ
  M : ℝ
  σ : ℝ
  hL : 0 < L
  hT : 0 < T
  hM : 0 < M
  hσ : σ = 1 ∨ σ = -1

namespace Units

/-- The factor of positions and angles. -/
def len (f : Units) : Coord → ℝ
  | .x => f.L
  | .y => f.σ * f.L
  | .th => f.σ

/-- Positions and angles in the new units. -/
def pos (f : Units) (g : Coord → ℝ) (q : Coord) : ℝ := f.len q * g q

/-- Velocities and angular velocities in the new units. -/
noncomputable def vel (f : Units) (g : Coord → ℝ) (q : Coord) : ℝ := f.len q / f.T * g q

/-- Accelerations in the new units. -/
noncomputable def acc (f : Units) (g : Coord → ℝ) (q : Coord) : ℝ := f.len q / f.T ^ 2 * g q

/-- The factor of energies and torques. -/
noncomputable def κ (f : Units) : ℝ := f.M * f.L ^ 2 / f.T ^ 2

/-- Forces and torques in the new units. -/
noncomputable def force (f : Units) (g : Coord → ℝ) : Coord → ℝ
  | .x => f.M * f.L / f.T ^ 2 * g .x
  | .y => f.σ * (f.M * f.L / f.T ^ 2) * g .y
  | .th => f.σ * (f.M * f.L ^ 2 / f.T ^ 2) * g .th

/-- A constraint in the new units: anchors, points and radii are lengths, limits are forces or torques,
stiffness and damping are rates (of second and first order). In the mirror image the limits of torques
change their roles, and so does the direction in which a wheel rolls. -/
noncomputable def con (f : Units) : CKind ℝ → CKind ℝ
  | .fixedPosition p => .fixedPosition
      ⟨f.L * p.local_x, f.σ * f.L * p.local_y, f.L * p.world_x, f.σ * f.L * p.world_y,
        p.ks / f.T ^ 2, p.kd / f.T⟩
  | .fixedRotation p => .fixedRotation ⟨f.σ * p.rotation, p.ks / f.T ^ 2, p.kd / f.T⟩
  | .line p => .line
      ⟨f.L * p.local_x, f.σ * f.L * p.local_y, f.L * p.p0_x, f.σ * f.L * p.p0_y, p.dx, f.σ * p.dy,
        p.ks / f.T ^ 2, p.kd / f.T⟩
  | .link p => .link
      ⟨f.L * p.local_x_1, f.σ * f.L * p.local_y_1, f.L * p.local_x_2, f.σ * f.L * p.local_y_2,
        f.M * f.L / f.T ^ 2 * p.maxForce, p.ks / f.T ^ 2, p.kd / f.T⟩
  | .rolling p => .rolling
      ⟨f.L * p.local_x, f.σ * f.L * p.local_y, f.σ * p.dx, p.dy, f.L * p.radius, p.ks / f.T ^ 2,
        p.kd / f.T⟩
  | .constantRotation p => .constantRotation
      ⟨f.σ * p.rotationSpeed / f.T, f.κ * if f.σ = 1 then p.minTorque else -p.maxTorque,
        f.κ * if f.σ = 1 then p.maxTorque else -p.minTorque, p.ks / f.T ^ 2, p.kd / f.T⟩
  | .clutch p => .clutch
      ⟨f.κ * if f.σ = 1 then p.minTorque else -p.maxTorque,
        f.κ * if f.σ = 1 then p.maxTorque else -p.minTorque, p.ks / f.T ^ 2, p.kd / f.T⟩
  | .rotationFriction p => .rotationFriction
      ⟨f.κ * if f.σ = 1 then p.minTorque else -p.maxTorque,
        f.κ * if f.σ = 1 then p.maxTorque else -p.minTorque, p.ks / f.T ^ 2, p.kd / f.T⟩
  | .simpleGear p => .simpleGear { p with
      ks := p.ks / f.T ^ 2, kd := p.kd / f.T }
  | k => k

/-- A force generator in the new units. -/
noncomputable def gen (f : Units) : Gen ℝ → Gen ℝ
  | .gravity a => .gravity (f.σ * f.L / f.T ^ 2 * a)
  | .static p => .static { p with
      f_x := f.M * f.L / f.T ^ 2 * p.f_x, f_y := f.σ * (f.M * f.L / f.T ^ 2) * p.f_y
      p_x := f.L * p.p_x, p_y := f.σ * f.L * p.p_y }
  | .spring p => .spring { p with
      restLength := f.L * p.restLength, ks := f.M / f.T ^ 2 * p.ks, kd := f.M / f.T * p.kd
      p1_x := f.L * p.p1_x, p1_y := f.σ * f.L * p.p1_y
      p2_x := f.L * p.p2_x, p2_y := f.σ * f.L * p.p2_y }
  | .motor p => .motor { p with
      ks := f.M * f.L ^ 2 / f.T * p.ks, kd := f.M * f.L ^ 2 * p.kd, maxTorque := f.κ * p.maxTorque
      speed := f.σ / f.T * p.speed }
  | g => g

/-- The constraint means the same in the new units: a rolling constraint compares an angle with a
product of two lengths. -/
def FitsCon (f : Units) : CKind ℝ → Prop
  | .rolling _ => f.L = 1
  | _ => True

/-- The ends of the spring are not closer than 1/100, neither in the old nor in the new units. -/
def Apart (f : Units) (p : Spring ℝ) (x : Motion) : Prop :=
  ∀ b1 b2, p.body1 = .obj b1 → p.body2 = .obj b2 →
    1 / 100 ≤ distOf (x.point b1 p.p1_x p.p1_y) (x.point b2 p.p2_x p.p2_y) ∧
    1 / 100 ≤ f.L * distOf (x.point b1 p.p1_x p.p1_y) (x.point b2 p.p2_x p.p2_y)

/-- The force generator means the same in the new units when the bodies move as in `x`: a spring treats
lengths below 1/100 in another way, and the limit of a motor must not be negative in a mirror image. -/
def FitsGen (f : Units) (x : Motion) : Gen ℝ → Prop
  | .spring p => f.L = 1 ∨ p.ks = 0 ∨ f.Apart p x
  | .motor p => f.σ = 1 ∨ 0 ≤ p.maxTorque
  | _ => True

variable (f : Units)

theorem σσ : f.σ * f.σ = 1 := by rcases f.hσ with h | h <;> rw [h] <;> norm_num

theorem σ0 : f.σ ≠ 0 := by rcases f.hσ with h | h <;> rw [h] <;> norm_num

theorem len0 (q : Coord) : f.len q ≠ 0 := by
  cases q
  · exact f.hL.ne'
  · exact mul_ne_zero f.σ0 f.hL.ne'
  · exact f.σ0

theorem κ_pos : 0 < f.κ := by
  have h1 := f.hL
  have h2 := f.hT
  have h3 := f.hM
  rw [κ]
  positivity

theorem force_eq (g : Coord → ℝ) (q : Coord) : f.force g q = f.κ / f.len q * g q := by
  have h1 := f.hL.ne'
  have h2 := f.hT.ne'
  have h4 := f.σ0
  have h := f.σσ
  cases q <;> simp only [force, κ, len]
  · field_simp
  · field_simp
    rw [sq, h]; ring
  · field_simp
    rw [sq, h]; ring

theorem force_sum {ι : Type} (s : Finset ι) (g : ι → Coord → ℝ) (q : Coord) :
    f.force (fun q => ∑ i ∈ s, g i q) q = ∑ i ∈ s, f.force (g i) q := by
  simp only [force_eq, mul_sum]

theorem force_zero (q : Coord) : f.force (fun _ => 0) q = 0 := by
  rw [force_eq, mul_zero]

theorem rx_pt (θ a b : ℝ) : rx (f.σ * θ) (f.L * a) (f.σ * f.L * b) = f.L * rx θ a b := by
  rcases f.hσ with h | h <;> rw [h] <;> simp [rx] <;> ring

theorem ry_pt (θ a b : ℝ) : ry (f.σ * θ) (f.L * a) (f.σ * f.L * b) = f.σ * f.L * ry θ a b := by
  rcases f.hσ with h | h <;> rw [h] <;> simp [ry] <;> ring

theorem rx_roll (θ a b : ℝ) : rx (f.σ * θ) (f.σ * a) b = f.σ * rx θ a b := by
  rcases f.hσ with h | h <;> rw [h] <;> simp [rx] <;> ring

theorem ry_roll (θ a b : ℝ) : ry (f.σ * θ) (f.σ * a) b = ry θ a b := by
  rcases f.hσ with h | h <;> rw [h] <;> simp [ry]

/-- The factor of a row of a constraint. -/
noncomputable def row (f : Units) : CKind ℝ → Nat → ℝ
  | .fixedPosition _, j => if j = 0 then f.L else f.σ * f.L
  | .link _, j => if j = 0 then f.L else f.σ * f.L
  | .line _, _ => f.σ * f.L
  | .rolling _, j => if j = 0 then f.σ else 1
  | _, _ => f.σ

theorem row0 (k : CKind ℝ) (j : Nat) : f.row k j ≠ 0 := by
  have h1 := f.hL.ne'
  have h2 := f.σ0
  have h3 := mul_ne_zero h2 h1
  cases k <;> simp only [row] <;> (try split) <;> first | assumption | exact one_ne_zero

theorem counts_con (k : CKind ℝ) : (f.con k).counts = k.counts := by
  cases k <;> rfl

/-- The coordinates of the bodies of a constraint in the new units. -/
def Sees (f : Units) (n : Nat) (q q' : Nat → ℝ) : Prop :=
  ∀ i, i < n → q' (i * 3) = f.L * q (i * 3) ∧ q' (i * 3 + 1) = f.σ * f.L * q (i * 3 + 1) ∧
    q' (i * 3 + 2) = f.σ * q (i * 3 + 2)

theorem jT_fixedPosition {f : Units} {p : FixedPosition ℝ} {q q' : Nat → ℝ} (hq : f.Sees 1 q q')
    {j m : Nat} (hj : j < 2) (hm : m < 1) (o : Coord) :
    (f.con (.fixedPosition p)).jT q' j (m * 3 + o.d) = f.row (.fixedPosition p) j / f.len o *
      (CKind.fixedPosition p).jT q j (m * 3 + o.d) := by
  obtain ⟨a0, b0, c0⟩ := hq 0 (by omega)
  simp only [zero_mul, zero_add, one_mul, Nat.reduceAdd] at a0 b0 c0
  have hL := f.hL.ne'
  interval_cases j <;> interval_cases m <;> cases o <;>
    simp only [Coord.d, Nat.reduceMul, Nat.reduceAdd, zero_mul, zero_add, one_mul, con, len, row] <;>
    dsimp only [CKind.jT] <;>
    simp only [a0, b0, c0, f.rx_pt, f.ry_pt, if_true, if_false, one_ne_zero, mul_zero] <;>
    (try (generalize rx (q 2) p.local_x p.local_y = A0; generalize ry (q 2) p.local_x p.local_y = B0; rcases f.hσ with h | h <;> (try simp only [h]) <;> (try field_simp) <;> (try ring)))

theorem cT_fixedPosition {f : Units} {p : FixedPosition ℝ} {q q' : Nat → ℝ}
    (hq : f.Sees 1 q q') {j : Nat} (hj : j < 2) :
    (f.con (.fixedPosition p)).cT q' j = f.row (.fixedPosition p) j * (CKind.fixedPosition p).cT q j := by
  obtain ⟨a0, b0, c0⟩ := hq 0 (by omega)
  simp only [zero_mul, zero_add, one_mul, Nat.reduceAdd] at a0 b0 c0
  have hL := f.hL.ne'
  interval_cases j <;>
    simp only [con, row] <;>
    dsimp only [CKind.cT] <;>
    simp only [a0, b0, c0, f.rx_pt, f.ry_pt, if_true, if_false, one_ne_zero, mul_zero] <;>
    (try (generalize rx (q 2) p.local_x p.local_y = A0; generalize ry (q 2) p.local_x p.local_y = B0; rcases f.hσ with h | h <;> (try simp only [h]) <;> (try field_simp) <;> (try ring)))

theorem jT_fixedRotation {f : Units} {p : FixedRotation ℝ} {q q' : Nat → ℝ} (hq : f.Sees 1 q q')
    {j m : Nat} (hj : j < 1) (hm : m < 1) (o : Coord) :
    (f.con (.fixedRotation p)).jT q' j (m * 3 + o.d) = f.row (.fixedRotation p) j / f.len o *
      (CKind.fixedRotation p).jT q j (m * 3 + o.d) := by
  obtain ⟨a0, b0, c0⟩ := hq 0 (by omega)
  simp only [zero_mul, zero_add, one_mul, Nat.reduceAdd] at a0 b0 c0
  have hL := f.hL.ne'
  interval_cases j <;> interval_cases m <;> cases o <;>
    simp only [Coord.d, Nat.reduceMul, Nat.reduceAdd, zero_mul, zero_add, one_mul, con, len, row] <;>
    dsimp only [CKind.jT] <;>
    simp only [a0, b0, c0, f.rx_pt, f.ry_pt, if_true, if_false, one_ne_zero, mul_zero] <;>
    (try (rcases f.hσ with h | h <;> (try simp only [h]) <;> (try field_simp) <;> (try ring)))

theorem cT_fixedRotation {f : Units} {p : FixedRotation ℝ} {q q' : Nat → ℝ}
    (hq : f.Sees 1 q q') {j : Nat} (hj : j < 1) :
    (f.con (.fixedRotation p)).cT q' j = f.row (.fixedRotation p) j * (CKind.fixedRotation p).cT q j := by
  obtain ⟨a0, b0, c0⟩ := hq 0 (by omega)
  simp only [zero_mul, zero_add, one_mul, Nat.reduceAdd] at a0 b0 c0
  have hL := f.hL.ne'
  interval_cases j <;>
    simp only [con, row] <;>
    dsimp only [CKind.cT] <;>
    simp only [a0, b0, c0, f.rx_pt, f.ry_pt, if_true, if_false, one_ne_zero, mul_zero] <;>
    (try (rcases f.hσ with h | h <;> (try simp only [h]) <;> (try field_simp) <;> (try ring)))

theorem jT_line {f : Units} {p : Line ℝ} {q q' : Nat → ℝ} (hq : f.Sees 1 q q')
    {j m : Nat} (hj : j < 1) (hm : m < 1) (o : Coord) :
    (f.con (.line p)).jT q' j (m * 3 + o.d) = f.row (.line p) j / f.len o *
      (CKind.line p).jT q j (m * 3 + o.d) := by
  obtain ⟨a0, b0, c0⟩ := hq 0 (by omega)
  simp only [zero_mul, zero_add, one_mul, Nat.reduceAdd] at a0 b0 c0
  have hL := f.hL.ne'
  interval_cases j <;> interval_cases m <;> cases o <;>
    simp only [Coord.d, Nat.reduceMul, Nat.reduceAdd, zero_mul, zero_add, one_mul, con, len, row] <;>
    dsimp only [CKind.jT] <;>
    simp only [a0, b0, c0, f.rx_pt, f.ry_pt, if_true, if_false, one_ne_zero, mul_zero] <;>
    (try (generalize rx (q 2) p.local_x p.local_y = A0; generalize ry (q 2) p.local_x p.local_y = B0; rcases f.hσ with h | h <;> (try simp only [h]) <;> (try field_simp) <;> (try ring)))

theorem cT_line {f : Units} {p : Line ℝ} {q q' : Nat → ℝ}
    (hq : f.Sees 1 q q') {j : Nat} (hj : j < 1) :
    (f.con (.line p)).cT q' j = f.row (.line p) j * (CKind.line p).cT q j := by
  obtain ⟨a0, b0, c0⟩ := hq 0 (by omega)
  simp only [zero_mul, zero_add, one_mul, Nat.reduceAdd] at a0 b0 c0
  have hL := f.hL.ne'
  interval_cases j <;>
    simp only [con, row] <;>
    dsimp only [CKind.cT] <;>
    simp only [a0, b0, c0, f.rx_pt, f.ry_pt, if_true, if_false, one_ne_zero, mul_zero] <;>
    (try (generalize rx (q 2) p.local_x p.local_y = A0; generalize ry (q 2) p.local_x p.local_y = B0; rcases f.hσ with h | h <;> (try simp only [h]) <;> (try field_simp) <;> (try ring)))

theorem jT_link {f : Units} {p : Link ℝ} {q q' : Nat → ℝ} (hq : f.Sees 2 q q')
    {j m : Nat} (hj : j < 2) (hm : m < 2) (o : Coord) :
    (f.con (.link p)).jT q' j (m * 3 + o.d) = f.row (.link p) j / f.len o *
      (CKind.link p).jT q j (m * 3 + o.d) := by
  obtain ⟨a0, b0, c0⟩ := hq 0 (by omega)
  obtain ⟨a1, b1, c1⟩ := hq 1 (by omega)
  simp only [zero_mul, zero_add, one_mul, Nat.reduceAdd] at a0 b0 c0 a1 b1 c1
  have hL := f.hL.ne'
  interval_cases j <;> interval_cases m <;> cases o <;>
    simp only [Coord.d, Nat.reduceMul, Nat.reduceAdd, zero_mul, zero_add, one_mul, con, len, row] <;>
    dsimp only [CKind.jT] <;>
    simp only [a0, b0, c0, a1, b1, c1, f.rx_pt, f.ry_pt, if_true, if_false, one_ne_zero, mul_zero] <;>
    (try (generalize rx (q 2) p.local_x_1 p.local_y_1 = A0; generalize ry (q 2) p.local_x_1 p.local_y_1 = B0; generalize rx (q 5) p.local_x_2 p.local_y_2 = A1; generalize ry (q 5) p.local_x_2 p.local_y_2 = B1; rcases f.hσ with h | h <;> (try simp only [h]) <;> (try field_simp) <;> (try ring)))

theorem cT_link {f : Units} {p : Link ℝ} {q q' : Nat → ℝ}
    (hq : f.Sees 2 q q') {j : Nat} (hj : j < 2) :
    (f.con (.link p)).cT q' j = f.row (.link p) j * (CKind.link p).cT q j := by
  obtain ⟨a0, b0, c0⟩ := hq 0 (by omega)
  obtain ⟨a1, b1, c1⟩ := hq 1 (by omega)
  simp only [zero_mul, zero_add, one_mul, Nat.reduceAdd] at a0 b0 c0 a1 b1 c1
  have hL := f.hL.ne'
  interval_cases j <;>
    simp only [con, row] <;>
    dsimp only [CKind.cT] <;>
    simp only [a0, b0, c0, a1, b1, c1, f.rx_pt, f.ry_pt, if_true, if_false, one_ne_zero, mul_zero] <;>
    (try (generalize rx (q 2) p.local_x_1 p.local_y_1 = A0; generalize ry (q 2) p.local_x_1 p.local_y_1 = B0; generalize rx (q 5) p.local_x_2 p.local_y_2 = A1; generalize ry (q 5) p.local_x_2 p.local_y_2 = B1; rcases f.hσ with h | h <;> (try simp only [h]) <;> (try field_simp) <;> (try ring)))

theorem jT_rolling {f : Units} {p : Rolling ℝ} (hf : f.FitsCon (.rolling p)) {q q' : Nat → ℝ} (hq : f.Sees 2 q q')
    {j m : Nat} (hj : j < 2) (hm : m < 2) (o : Coord) :
    (f.con (.rolling p)).jT q' j (m * 3 + o.d) = f.row (.rolling p) j / f.len o *
      (CKind.rolling p).jT q j (m * 3 + o.d) := by
  obtain ⟨a0, b0, c0⟩ := hq 0 (by omega)
  obtain ⟨a1, b1, c1⟩ := hq 1 (by omega)
  simp only [zero_mul, zero_add, one_mul, Nat.reduceAdd] at a0 b0 c0 a1 b1 c1
  have h1 : f.L = 1 := hf
  have hL := f.hL.ne'
  interval_cases j <;> interval_cases m <;> cases o <;>
    simp only [Coord.d, Nat.reduceMul, Nat.reduceAdd, zero_mul, zero_add, one_mul, con, len, row] <;>
    dsimp only [CKind.jT] <;>
    simp only [a0, b0, c0, a1, b1, c1, f.rx_pt, f.ry_pt, f.rx_roll, f.ry_roll, if_true, if_false, one_ne_zero, mul_zero] <;>
    (try (generalize rx (q 2) p.local_x p.local_y = A0; generalize ry (q 2) p.local_x p.local_y = B0; generalize rx (q 2) p.dx p.dy = A1; generalize ry (q 2) p.dx p.dy = B1; (try simp only [h1]); rcases f.hσ with h | h <;> (try simp only [h]) <;> (try field_simp) <;> (try ring)))

theorem cT_rolling {f : Units} {p : Rolling ℝ} (hf : f.FitsCon (.rolling p)) {q q' : Nat → ℝ}
    (hq : f.Sees 2 q q') {j : Nat} (hj : j < 2) :
    (f.con (.rolling p)).cT q' j = f.row (.rolling p) j * (CKind.rolling p).cT q j := by
  obtain ⟨a0, b0, c0⟩ := hq 0 (by omega)
  obtain ⟨a1, b1, c1⟩ := hq 1 (by omega)
  simp only [zero_mul, zero_add, one_mul, Nat.reduceAdd] at a0 b0 c0 a1 b1 c1
  have h1 : f.L = 1 := hf
  have hL := f.hL.ne'
  interval_cases j <;>
    simp only [con, row] <;>
    dsimp only [CKind.cT] <;>
    simp only [a0, b0, c0, a1, b1, c1, f.rx_pt, f.ry_pt, f.rx_roll, f.ry_roll, if_true, if_false, one_ne_zero, mul_zero] <;>
    (try (generalize rx (q 2) p.local_x p.local_y = A0; generalize ry (q 2) p.local_x p.local_y = B0; generalize rx (q 2) p.dx p.dy = A1; generalize ry (q 2) p.dx p.dy = B1; (try simp only [h1]); rcases f.hσ with h | h <;> (try simp only [h]) <;> (try field_simp) <;> (try ring)))

theorem jT_constantRotation {f : Units} {p : ConstantRotation ℝ} {q q' : Nat → ℝ} (hq : f.Sees 1 q q')
    {j m : Nat} (hj : j < 1) (hm : m < 1) (o : Coord) :
    (f.con (.constantRotation p)).jT q' j (m * 3 + o.d) = f.row (.constantRotation p) j / f.len o *
      (CKind.constantRotation p).jT q j (m * 3 + o.d) := by
  obtain ⟨a0, b0, c0⟩ := hq 0 (by omega)
  simp only [zero_mul, zero_add, one_mul, Nat.reduceAdd] at a0 b0 c0
  have hL := f.hL.ne'
  interval_cases j <;> interval_cases m <;> cases o <;>
    simp only [Coord.d, Nat.reduceMul, Nat.reduceAdd, zero_mul, zero_add, one_mul, con, len, row] <;>
    dsimp only [CKind.jT] <;>
    simp only [a0, b0, c0, f.rx_pt, f.ry_pt, if_true, if_false, one_ne_zero, mul_zero] <;>
    (try (rcases f.hσ with h | h <;> (try simp only [h]) <;> (try field_simp) <;> (try ring)))

theorem cT_constantRotation {f : Units} {p : ConstantRotation ℝ} {q q' : Nat → ℝ}
    (hq : f.Sees 1 q q') {j : Nat} (hj : j < 1) :
    (f.con (.constantRotation p)).cT q' j = f.row (.constantRotation p) j * (CKind.constantRotation p).cT q j := by
  obtain ⟨a0, b0, c0⟩ := hq 0 (by omega)
  simp only [zero_mul, zero_add, one_mul, Nat.reduceAdd] at a0 b0 c0
  have hL := f.hL.ne'
  interval_cases j <;>
    simp only [con, row] <;>
    dsimp only [CKind.cT] <;>
    simp only [a0, b0, c0, f.rx_pt, f.ry_pt, if_true, if_false, one_ne_zero, mul_zero] <;>
    (try (rcases f.hσ with h | h <;> (try simp only [h]) <;> (try field_simp) <;> (try ring)))

theorem jT_clutch {f : Units} {p : Clutch ℝ} {q q' : Nat → ℝ} (hq : f.Sees 2 q q')
    {j m : Nat} (hj : j < 1) (hm : m < 2) (o : Coord) :
    (f.con (.clutch p)).jT q' j (m * 3 + o.d) = f.row (.clutch p) j / f.len o *
      (CKind.clutch p).jT q j (m * 3 + o.d) := by
  obtain ⟨a0, b0, c0⟩ := hq 0 (by omega)
  obtain ⟨a1, b1, c1⟩ := hq 1 (by omega)
  simp only [zero_mul, zero_add, one_mul, Nat.reduceAdd] at a0 b0 c0 a1 b1 c1
  have hL := f.hL.ne'
  interval_cases j <;> interval_cases m <;> cases o <;>
    simp only [Coord.d, Nat.reduceMul, Nat.reduceAdd, zero_mul, zero_add, one_mul, con, len, row] <;>
    dsimp only [CKind.jT] <;>
    simp only [a0, b0, c0, a1, b1, c1, f.rx_pt, f.ry_pt, if_true, if_false, one_ne_zero, mul_zero] <;>
    (try (rcases f.hσ with h | h <;> (try simp only [h]) <;> (try field_simp) <;> (try ring)))

theorem cT_clutch {f : Units} {p : Clutch ℝ} {q q' : Nat → ℝ}
    (hq : f.Sees 2 q q') {j : Nat} (hj : j < 1) :
    (f.con (.clutch p)).cT q' j = f.row (.clutch p) j * (CKind.clutch p).cT q j := by
  obtain ⟨a0, b0, c0⟩ := hq 0 (by omega)
  obtain ⟨a1, b1, c1⟩ := hq 1 (by omega)
  simp only [zero_mul, zero_add, one_mul, Nat.reduceAdd] at a0 b0 c0 a1 b1 c1
  have hL := f.hL.ne'
  interval_cases j <;>
    simp only [con, row] <;>
    dsimp only [CKind.cT] <;>
    simp only [a0, b0, c0, a1, b1, c1, f.rx_pt, f.ry_pt, if_true, if_false, one_ne_zero, mul_zero] <;>
    (try (rcases f.hσ with h | h <;> (try simp only [h]) <;> (try field_simp) <;> (try ring)))

theorem jT_rotationFriction {f : Units} {p : RotationFriction ℝ} {q q' : Nat → ℝ} (hq : f.Sees 1 q q')
    {j m : Nat} (hj : j < 1) (hm : m < 1) (o : Coord) :
    (f.con (.rotationFriction p)).jT q' j (m * 3 + o.d) = f.row (.rotationFriction p) j / f.len o *
      (CKind.rotationFriction p).jT q j (m * 3 + o.d) := by
  obtain ⟨a0, b0, c0⟩ := hq 0 (by omega)
  simp only [zero_mul, zero_add, one_mul, Nat.reduceAdd] at a0 b0 c0
  have hL := f.hL.ne'
  interval_cases j <;> interval_cases m <;> cases o <;>
    simp only [Coord.d, Nat.reduceMul, Nat.reduceAdd, zero_mul, zero_add, one_mul, con, len, row] <;>
    dsimp only [CKind.jT] <;>
    simp only [a0, b0, c0, f.rx_pt, f.ry_pt, if_true, if_false, one_ne_zero, mul_zero] <;>
    (try (rcases f.hσ with h | h <;> (try simp only [h]) <;> (try field_simp) <;> (try ring)))

theorem cT_rotationFriction {f : Units} {p : RotationFriction ℝ} {q q' : Nat → ℝ}
    (hq : f.Sees 1 q q') {j : Nat} (hj : j < 1) :
    (f.con (.rotationFriction p)).cT q' j = f.row (.rotationFriction p) j * (CKind.rotationFriction p).cT q j := by
  obtain ⟨a0, b0, c0⟩ := hq 0 (by omega)
  simp only [zero_mul, zero_add, one_mul, Nat.reduceAdd] at a0 b0 c0
  have hL := f.hL.ne'
  interval_cases j <;>
    simp only [con, row] <;>
    dsimp only [CKind.cT] <;>
    simp only [a0, b0, c0, f.rx_pt, f.ry_pt, if_true, if_false, one_ne_zero, mul_zero] <;>
    (try (rcases f.hσ with h | h <;> (try simp only [h]) <;> (try field_simp) <;> (try ring)))

theorem jT_simpleGear {f : Units} {p : SimpleGear ℝ} {q q' : Nat → ℝ} (hq : f.Sees 2 q q')
    {j m : Nat} (hj : j < 1) (hm : m < 2) (o : Coord) :
    (f.con (.simpleGear p)).jT q' j (m * 3 + o.d) = f.row (.simpleGear p) j / f.len o *
      (CKind.simpleGear p).jT q j (m * 3 + o.d) := by
  obtain ⟨a0, b0, c0⟩ := hq 0 (by omega)
  obtain ⟨a1, b1, c1⟩ := hq 1 (by omega)
  simp only [zero_mul, zero_add, one_mul, Nat.reduceAdd] at a0 b0 c0 a1 b1 c1
  have hL := f.hL.ne'
  interval_cases j <;> interval_cases m <;> cases o <;>
    simp only [Coord.d, Nat.reduceMul, Nat.reduceAdd, zero_mul, zero_add, one_mul, con, len, row] <;>
    dsimp only [CKind.jT] <;>
    simp only [a0, b0, c0, a1, b1, c1, f.rx_pt, f.ry_pt, if_true, if_false, one_ne_zero, mul_zero] <;>
    (try (rcases f.hσ with h | h <;> (try simp only [h]) <;> (try field_simp) <;> (try ring)))

theorem cT_simpleGear {f : Units} {p : SimpleGear ℝ} {q q' : Nat → ℝ}
    (hq : f.Sees 2 q q') {j : Nat} (hj : j < 1) :
    (f.con (.simpleGear p)).cT q' j = f.row (.simpleGear p) j * (CKind.simpleGear p).cT q j := by
  obtain ⟨a0, b0, c0⟩ := hq 0 (by omega)
  obtain ⟨a1, b1, c1⟩ := hq 1 (by omega)
  simp only [zero_mul, zero_add, one_mul, Nat.reduceAdd] at a0 b0 c0 a1 b1 c1
  have hL := f.hL.ne'
  interval_cases j <;>
    simp only [con, row] <;>
    dsimp only [CKind.cT] <;>
    simp only [a0, b0, c0, a1, b1, c1, f.rx_pt, f.ry_pt, if_true, if_false, one_ne_zero, mul_zero] <;>
    (try (rcases f.hσ with h | h <;> (try simp only [h]) <;> (try field_simp) <;> (try ring)))

/-- The Jacobian of a constraint in the new units. -/
theorem jT_con {f : Units} {k : CKind ℝ} {r n : Nat} (hc : k.counts = some (r, n)) (hf : f.FitsCon k)
    {q q' : Nat → ℝ} (hq : f.Sees n q q') {j m : Nat} (hj : j < r) (hm : m < n) (o : Coord) :
    (f.con k).jT q' j (m * 3 + o.d) = f.row k j / f.len o * k.jT q j (m * 3 + o.d) := by
  cases k <;> simp only [CKind.counts, Option.some.injEq, Prod.mk.injEq, reduceCtorEq] at hc <;>
    obtain ⟨rfl, rfl⟩ := hc
  · exact jT_fixedPosition hq hj hm o
  · exact jT_fixedRotation hq hj hm o
  · exact jT_line hq hj hm o
  · exact jT_link hq hj hm o
  · exact jT_rolling hf hq hj hm o
  · exact jT_constantRotation hq hj hm o
  · exact jT_clutch hq hj hm o
  · exact jT_rotationFriction hq hj hm o
  · exact jT_simpleGear hq hj hm o

/-- The value of a constraint in the new units. -/
theorem cT_con {f : Units} {k : CKind ℝ} {r n : Nat} (hc : k.counts = some (r, n)) (hf : f.FitsCon k)
    {q q' : Nat → ℝ} (hq : f.Sees n q q') {j : Nat} (hj : j < r) :
    (f.con k).cT q' j = f.row k j * k.cT q j := by
  cases k <;> simp only [CKind.counts, Option.some.injEq, Prod.mk.injEq, reduceCtorEq] at hc <;>
    obtain ⟨rfl, rfl⟩ := hc
  · exact cT_fixedPosition hq hj
  · exact cT_fixedRotation hq hj
  · exact cT_line hq hj
  · exact cT_link hq hj
  · exact cT_rolling hf hq hj
  · exact cT_constantRotation hq hj
  · exact cT_clutch hq hj
  · exact cT_rotationFriction hq hj
  · exact cT_simpleGear hq hj

theorem biasT_con (k : CKind ℝ) (j : Nat) : (f.con k).biasT = f.row k j / f.T * k.biasT := by
  cases k <;> simp only [con, CKind.biasT, mul_zero, row]
  ring

end Units

end Scs
