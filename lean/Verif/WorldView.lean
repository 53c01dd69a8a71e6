import Verif.WorldFollow

/-!
# Change of the frame of reference
-/

namespace Scs

set_option linter.unusedSimpArgs false
set_option linter.unnecessarySeqFocus false
set_option linter.unusedTactic false
set_option linter.unreachableTactic false

open Finset

/-- Another frame of reference, turned by `φ`: a point `z` of the old frame is seen at
`R z + (ax, ay)`, where `R` is the rotation by `φ`, and the frame makes everything appear to move with
the additional velocity `(ux, uy)`. -/
structure View where
  φ : ℝ
  ax : ℝ
  ay : ℝ
  ux : ℝ
  uy : ℝ

namespace View

/-- The frame after the time `t`. -/
def after (f : View) (t : ℝ) : View := { f with ax := f.ax + t * f.ux, ay := f.ay + t * f.uy }

/-- A vector (and a torque) seen in the frame. -/
noncomputable def co (f : View) (g : Coord → ℝ) : Coord → ℝ
  | .x => rx f.φ (g .x) (g .y)
  | .y => ry f.φ (g .x) (g .y)
  | .th => g .th

/-- A position (and an angle) seen in the frame. -/
noncomputable def pos (f : View) (g : Coord → ℝ) : Coord → ℝ
  | .x => rx f.φ (g .x) (g .y) + f.ax
  | .y => ry f.φ (g .x) (g .y) + f.ay
  | .th => g .th + f.φ

/-- A velocity (and an angular velocity) seen in the frame. -/
noncomputable def vel (f : View) (g : Coord → ℝ) : Coord → ℝ
  | .x => rx f.φ (g .x) (g .y) + f.ux
  | .y => ry f.φ (g .x) (g .y) + f.uy
  | .th => g .th

/-- A constraint seen in the frame. -/
noncomputable def con (f : View) : CKind ℝ → CKind ℝ
  | .fixedPosition p => .fixedPosition { p with
      world_x := rx f.φ p.world_x p.world_y + f.ax, world_y := ry f.φ p.world_x p.world_y + f.ay }
  | .fixedRotation p => .fixedRotation { p with rotation := p.rotation + f.φ }
  | .line p => .line { p with
      p0_x := rx f.φ p.p0_x p.p0_y + f.ax, p0_y := ry f.φ p.p0_x p.p0_y + f.ay
      dx := rx f.φ p.dx p.dy, dy := ry f.φ p.dx p.dy }
  | k => k

/-- A force generator seen in the frame. -/
noncomputable def gen (f : View) : Gen ℝ → Gen ℝ
  | .static p => .static { p with f_x := rx f.φ p.f_x p.f_y, f_y := ry f.φ p.f_x p.f_y }
  | g => g

/-- The constraint means the same in the frame: a constraint to the fixed world does not allow for a
moving frame, and a rolling constraint measures angles from the fixed world. -/
def FitsCon (f : View) : CKind ℝ → Prop
  | .fixedPosition _ => f.ux = 0 ∧ f.uy = 0
  | .line _ => f.ux = 0 ∧ f.uy = 0
  | .rolling _ => f.φ = 0
  | _ => True

/-- The force generator means the same in the frame: gravity has a fixed direction. -/
def FitsGen (f : View) : Gen ℝ → Prop
  | .gravity _ => f.φ = 0
  | _ => True

theorem con_after {f : View} {k : CKind ℝ} (h : f.FitsCon k) (t : ℝ) :
    (f.after t).con k = f.con k := by
  cases k <;> simp only [con, after]
  · obtain ⟨h1, h2⟩ := h
    simp [h1, h2]
  · obtain ⟨h1, h2⟩ := h
    simp [h1, h2]

theorem gen_after (f : View) (g : Gen ℝ) (t : ℝ) : (f.after t).gen g = f.gen g := by
  cases g <;> rfl

theorem fitsCon_after {f : View} {k : CKind ℝ} (h : f.FitsCon k) (t : ℝ) :
    (f.after t).FitsCon k := by
  cases k <;> exact h

theorem fitsGen_after {f : View} {g : Gen ℝ} (h : f.FitsGen g) (t : ℝ) :
    (f.after t).FitsGen g := by
  cases g <;> exact h

theorem after_after (f : View) (s t : ℝ) : (f.after s).after t = f.after (s + t) := by
  simp only [after, mk.injEq, true_and, and_true]
  constructor <;> ring

theorem after_zero (f : View) : f.after 0 = f := by
  simp [after]

theorem co_after (f : View) (t : ℝ) (g : Coord → ℝ) : (f.after t).co g = f.co g := by
  funext q; cases q <;> rfl

theorem sum_co (f : View) (g h : Coord → ℝ) :
    Coord.sum (fun q => f.co g q * f.co h q) = Coord.sum (fun q => g q * h q) := by
  simp only [Coord.sum, co, rx, ry]
  linear_combination (g .x * h .x + g .y * h .y) * Real.sin_sq_add_cos_sq f.φ

theorem co_add (f : View) (g h : Coord → ℝ) (q : Coord) :
    f.co (fun q => g q + h q) q = f.co g q + f.co h q := by
  cases q <;> simp only [co, rx, ry] <;> ring

theorem co_mul (f : View) (a : ℝ) (g : Coord → ℝ) (q : Coord) :
    f.co (fun q => a * g q) q = a * f.co g q := by
  cases q <;> simp only [co, rx, ry] <;> ring

theorem co_zero (f : View) (q : Coord) : f.co (fun _ => 0) q = 0 := by
  cases q <;> simp [co, rx, ry]

theorem co_sum {ι : Type} (f : View) (s : Finset ι) (g : ι → Coord → ℝ) (q : Coord) :
    f.co (fun q => ∑ i ∈ s, g i q) q = ∑ i ∈ s, f.co (g i) q := by
  classical
  induction s using Finset.induction_on with
  | empty => simpa using f.co_zero q
  | insert a s ha ih => 
    rw [sum_insert ha, ← ih, ← co_add]
    congr 1
    funext q
    exact sum_insert ha

theorem co_ite (f : View) (P : Prop) [Decidable P] (g : Coord → ℝ) (q : Coord) :
    f.co (fun q => if P then g q else 0) q = if P then f.co g q else 0 := by
  by_cases h : P
  · simp only [if_pos h]
  · simp only [if_neg h]
    exact f.co_zero q

/-- The two rows of the constraint are the two coordinates of a vector. -/
def planar : CKind ℝ → Bool
  | .fixedPosition _ => true
  | .link _ => true
  | _ => false

/-- How the rows of a constraint mix. -/
noncomputable def mix (f : View) (k : CKind ℝ) (j i : Nat) : ℝ :=
  if planar k then
    if j = i then Real.cos f.φ else if j = 0 then -Real.sin f.φ else Real.sin f.φ
  else if j = i then 1 else 0

theorem mix_after (f : View) (k : CKind ℝ) (t : ℝ) : (f.after t).mix k = f.mix k := by
  rfl

theorem mix_orth (f : View) {k : CKind ℝ} {r n : Nat} (hc : k.counts = some (r, n)) {i i' : Nat}
    (hi : i < r) (hi' : i' < r) :
    ∑ j ∈ range r, f.mix k j i * f.mix k j i' = if i = i' then 1 else 0 := by
  have h := Real.sin_sq_add_cos_sq f.φ
  cases k <;> simp [CKind.counts] at hc <;> obtain ⟨rfl, rfl⟩ := hc <;> interval_cases i <;>
    interval_cases i' <;> simp [sum_range_succ, mix, planar] <;>
    first | linear_combination h | ring

theorem mix_orth' (f : View) {k : CKind ℝ} {r n : Nat} (hc : k.counts = some (r, n)) {j j' : Nat}
    (hj : j < r) (hj' : j' < r) :
    ∑ i ∈ range r, f.mix k j i * f.mix k j' i = if j = j' then 1 else 0 := by
  have h := Real.sin_sq_add_cos_sq f.φ
  cases k <;> simp [CKind.counts] at hc <;> obtain ⟨rfl, rfl⟩ := hc <;> interval_cases j <;>
    interval_cases j' <;> simp [sum_range_succ, mix, planar] <;>
    first | linear_combination h | ring

/-- The coordinates of the bodies of a constraint seen in the frame. -/
def Sees (f : View) (n : Nat) (q q' : Nat → ℝ) : Prop :=
  ∀ i, i < n → q' (i * 3) = rx f.φ (q (i * 3)) (q (i * 3 + 1)) + f.ax ∧
    q' (i * 3 + 1) = ry f.φ (q (i * 3)) (q (i * 3 + 1)) + f.ay ∧ q' (i * 3 + 2) = q (i * 3 + 2) + f.φ

theorem rx_add (θ φ a b : ℝ) : rx (θ + φ) a b = rx φ (rx θ a b) (ry θ a b) := by
  simp only [rx, ry, Real.cos_add, Real.sin_add]; ring

theorem ry_add (θ φ a b : ℝ) : ry (θ + φ) a b = ry φ (rx θ a b) (ry θ a b) := by
  simp only [rx, ry, Real.cos_add, Real.sin_add]; ring

theorem counts_con (f : View) (k : CKind ℝ) : (f.con k).counts = k.counts := by
  cases k <;> rfl

theorem rx_zero (a b : ℝ) : rx 0 a b = a := by simp [rx]

theorem ry_zero (a b : ℝ) : ry 0 a b = b := by simp [ry]

theorem jT_fixedPosition {f : View} {p : FixedPosition ℝ} {q q' : Nat → ℝ} (hq : f.Sees 1 q q')
    {j m : Nat} (hj : j < 2) (hm : m < 1) (o : Coord) :
    (f.con (.fixedPosition p)).jT q' j (m * 3 + o.d) = ∑ i ∈ range 2, f.mix (.fixedPosition p) j i *
      f.co (fun o => (CKind.fixedPosition p).jT q i (m * 3 + o.d)) o := by
  obtain ⟨a0, b0, c0⟩ := hq 0 (by omega)
  simp only [zero_mul, zero_add, one_mul, Nat.reduceAdd] at a0 b0 c0
  have h := Real.sin_sq_add_cos_sq f.φ
  interval_cases j <;> interval_cases m <;> cases o <;>
    simp only [Coord.d, Nat.reduceMul, Nat.reduceAdd, zero_mul, zero_add, one_mul, sum_range_succ,
      sum_range_zero, mix, planar, con, co] <;>
    dsimp only [CKind.jT] <;>
    simp only [a0, b0, c0, rx_add, ry_add, if_true, if_false, reduceCtorEq, one_ne_zero, zero_ne_one, Bool.false_eq_true, mul_zero, mul_one, zero_add, add_zero, one_mul, zero_mul] <;>
    (generalize rx (q 2) p.local_x p.local_y = A2; generalize ry (q 2) p.local_x p.local_y = B2
     simp only [rx, ry]; grind)

theorem cT_fixedPosition {f : View} {p : FixedPosition ℝ} {q q' : Nat → ℝ}
    (hq : f.Sees 1 q q') {j : Nat} (hj : j < 2) :
    (f.con (.fixedPosition p)).cT q' j = ∑ i ∈ range 2, f.mix (.fixedPosition p) j i *
      (CKind.fixedPosition p).cT q i := by
  obtain ⟨a0, b0, c0⟩ := hq 0 (by omega)
  simp only [zero_mul, zero_add, one_mul, Nat.reduceAdd] at a0 b0 c0
  have h := Real.sin_sq_add_cos_sq f.φ
  interval_cases j <;>
    simp only [sum_range_succ, sum_range_zero, mix, planar, con] <;>
    dsimp only [CKind.cT] <;>
    simp only [a0, b0, c0, rx_add, ry_add, if_true, if_false, reduceCtorEq, one_ne_zero, zero_ne_one, Bool.false_eq_true, mul_zero, mul_one, zero_add, add_zero, one_mul, zero_mul] <;>
    ((try simp only [rx, ry]); grind)

theorem jT_fixedRotation {f : View} {p : FixedRotation ℝ} {q q' : Nat → ℝ} (hq : f.Sees 1 q q')
    {j m : Nat} (hj : j < 1) (hm : m < 1) (o : Coord) :
    (f.con (.fixedRotation p)).jT q' j (m * 3 + o.d) = ∑ i ∈ range 1, f.mix (.fixedRotation p) j i *
      f.co (fun o => (CKind.fixedRotation p).jT q i (m * 3 + o.d)) o := by
  obtain ⟨a0, b0, c0⟩ := hq 0 (by omega)
  simp only [zero_mul, zero_add, one_mul, Nat.reduceAdd] at a0 b0 c0
  have h := Real.sin_sq_add_cos_sq f.φ
  interval_cases j <;> interval_cases m <;> cases o <;>
    simp only [Coord.d, Nat.reduceMul, Nat.reduceAdd, zero_mul, zero_add, one_mul, sum_range_succ,
      sum_range_zero, mix, planar, con, co] <;>
    dsimp only [CKind.jT] <;>
    simp only [a0, b0, c0, rx_add, ry_add, if_true, if_false, reduceCtorEq, one_ne_zero, zero_ne_one, Bool.false_eq_true, mul_zero, mul_one, zero_add, add_zero, one_mul, zero_mul] <;>
    ((try simp only [rx, ry]); grind)

theorem cT_fixedRotation {f : View} {p : FixedRotation ℝ} {q q' : Nat → ℝ}
    (hq : f.Sees 1 q q') {j : Nat} (hj : j < 1) :
    (f.con (.fixedRotation p)).cT q' j = ∑ i ∈ range 1, f.mix (.fixedRotation p) j i *
      (CKind.fixedRotation p).cT q i := by
  obtain ⟨a0, b0, c0⟩ := hq 0 (by omega)
  simp only [zero_mul, zero_add, one_mul, Nat.reduceAdd] at a0 b0 c0
  have h := Real.sin_sq_add_cos_sq f.φ
  interval_cases j <;>
    simp only [sum_range_succ, sum_range_zero, mix, planar, con] <;>
    dsimp only [CKind.cT] <;>
    simp only [a0, b0, c0, rx_add, ry_add, if_true, if_false, reduceCtorEq, one_ne_zero, zero_ne_one, Bool.false_eq_true, mul_zero, mul_one, zero_add, add_zero, one_mul, zero_mul] <;>
    ((try simp only [rx, ry]); grind)

theorem jT_line {f : View} {p : Line ℝ} {q q' : Nat → ℝ} (hq : f.Sees 1 q q')
    {j m : Nat} (hj : j < 1) (hm : m < 1) (o : Coord) :
    (f.con (.line p)).jT q' j (m * 3 + o.d) = ∑ i ∈ range 1, f.mix (.line p) j i *
      f.co (fun o => (CKind.line p).jT q i (m * 3 + o.d)) o := by
  obtain ⟨a0, b0, c0⟩ := hq 0 (by omega)
  simp only [zero_mul, zero_add, one_mul, Nat.reduceAdd] at a0 b0 c0
  have h := Real.sin_sq_add_cos_sq f.φ
  interval_cases j <;> interval_cases m <;> cases o <;>
    simp only [Coord.d, Nat.reduceMul, Nat.reduceAdd, zero_mul, zero_add, one_mul, sum_range_succ,
      sum_range_zero, mix, planar, con, co] <;>
    dsimp only [CKind.jT] <;>
    simp only [a0, b0, c0, rx_add, ry_add, if_true, if_false, reduceCtorEq, one_ne_zero, zero_ne_one, Bool.false_eq_true, mul_zero, mul_one, zero_add, add_zero, one_mul, zero_mul] <;>
    (generalize rx (q 2) p.local_x p.local_y = A2; generalize ry (q 2) p.local_x p.local_y = B2
     simp only [rx, ry]; grind)

theorem cT_line {f : View} {p : Line ℝ} {q q' : Nat → ℝ}
    (hq : f.Sees 1 q q') {j : Nat} (hj : j < 1) :
    (f.con (.line p)).cT q' j = ∑ i ∈ range 1, f.mix (.line p) j i *
      (CKind.line p).cT q i := by
  obtain ⟨a0, b0, c0⟩ := hq 0 (by omega)
  simp only [zero_mul, zero_add, one_mul, Nat.reduceAdd] at a0 b0 c0
  have h := Real.sin_sq_add_cos_sq f.φ
  interval_cases j <;>
    simp only [sum_range_succ, sum_range_zero, mix, planar, con] <;>
    dsimp only [CKind.cT] <;>
    simp only [a0, b0, c0, rx_add, ry_add, if_true, if_false, reduceCtorEq, one_ne_zero, zero_ne_one, Bool.false_eq_true, mul_zero, mul_one, zero_add, add_zero, one_mul, zero_mul] <;>
    ((try simp only [rx, ry]); grind)

theorem jT_link {f : View} {p : Link ℝ} {q q' : Nat → ℝ} (hq : f.Sees 2 q q')
    {j m : Nat} (hj : j < 2) (hm : m < 2) (o : Coord) :
    (f.con (.link p)).jT q' j (m * 3 + o.d) = ∑ i ∈ range 2, f.mix (.link p) j i *
      f.co (fun o => (CKind.link p).jT q i (m * 3 + o.d)) o := by
  obtain ⟨a0, b0, c0⟩ := hq 0 (by omega)
  obtain ⟨a1, b1, c1⟩ := hq 1 (by omega)
  simp only [zero_mul, zero_add, one_mul, Nat.reduceAdd] at a0 b0 c0 a1 b1 c1
  have h := Real.sin_sq_add_cos_sq f.φ
  interval_cases j <;> interval_cases m <;> cases o <;>
    simp only [Coord.d, Nat.reduceMul, Nat.reduceAdd, zero_mul, zero_add, one_mul, sum_range_succ,
      sum_range_zero, mix, planar, con, co] <;>
    dsimp only [CKind.jT] <;>
    simp only [a0, b0, c0, a1, b1, c1, rx_add, ry_add, if_true, if_false, reduceCtorEq, one_ne_zero, zero_ne_one, Bool.false_eq_true, mul_zero, mul_one, zero_add, add_zero, one_mul, zero_mul] <;>
    (generalize rx (q 2) p.local_x_1 p.local_y_1 = A2; generalize ry (q 2) p.local_x_1 p.local_y_1 = B2
     generalize rx (q 5) p.local_x_2 p.local_y_2 = A5; generalize ry (q 5) p.local_x_2 p.local_y_2 = B5
     simp only [rx, ry]; grind)

theorem cT_link {f : View} {p : Link ℝ} {q q' : Nat → ℝ}
    (hq : f.Sees 2 q q') {j : Nat} (hj : j < 2) :
    (f.con (.link p)).cT q' j = ∑ i ∈ range 2, f.mix (.link p) j i *
      (CKind.link p).cT q i := by
  obtain ⟨a0, b0, c0⟩ := hq 0 (by omega)
  obtain ⟨a1, b1, c1⟩ := hq 1 (by omega)
  simp only [zero_mul, zero_add, one_mul, Nat.reduceAdd] at a0 b0 c0 a1 b1 c1
  have h := Real.sin_sq_add_cos_sq f.φ
  interval_cases j <;>
    simp only [sum_range_succ, sum_range_zero, mix, planar, con] <;>
    dsimp only [CKind.cT] <;>
    simp only [a0, b0, c0, a1, b1, c1, rx_add, ry_add, if_true, if_false, reduceCtorEq, one_ne_zero, zero_ne_one, Bool.false_eq_true, mul_zero, mul_one, zero_add, add_zero, one_mul, zero_mul] <;>
    ((try simp only [rx, ry]); grind)

theorem jT_rolling {f : View} {p : Rolling ℝ} (hf : f.FitsCon (.rolling p)) {q q' : Nat → ℝ} (hq : f.Sees 2 q q')
    {j m : Nat} (hj : j < 2) (hm : m < 2) (o : Coord) :
    (f.con (.rolling p)).jT q' j (m * 3 + o.d) = ∑ i ∈ range 2, f.mix (.rolling p) j i *
      f.co (fun o => (CKind.rolling p).jT q i (m * 3 + o.d)) o := by
  obtain ⟨a0, b0, c0⟩ := hq 0 (by omega)
  obtain ⟨a1, b1, c1⟩ := hq 1 (by omega)
  simp only [zero_mul, zero_add, one_mul, Nat.reduceAdd] at a0 b0 c0 a1 b1 c1
  have h : f.φ = 0 := hf
  rw [h] at a0 b0 c0 a1 b1 c1
  simp only [rx_zero, ry_zero, add_zero] at a0 b0 c0 a1 b1 c1
  interval_cases j <;> interval_cases m <;> cases o <;>
    simp only [Coord.d, Nat.reduceMul, Nat.reduceAdd, zero_mul, zero_add, one_mul, sum_range_succ,
      sum_range_zero, mix, planar, con, co] <;>
    dsimp only [CKind.jT] <;>
    simp only [a0, b0, c0, a1, b1, c1, h, rx_zero, ry_zero, if_true, if_false, reduceCtorEq, one_ne_zero, zero_ne_one, Bool.false_eq_true, mul_zero, mul_one, zero_add, add_zero, one_mul, zero_mul] <;>
    ring

theorem cT_rolling {f : View} {p : Rolling ℝ} (hf : f.FitsCon (.rolling p)) {q q' : Nat → ℝ}
    (hq : f.Sees 2 q q') {j : Nat} (hj : j < 2) :
    (f.con (.rolling p)).cT q' j = ∑ i ∈ range 2, f.mix (.rolling p) j i *
      (CKind.rolling p).cT q i := by
  obtain ⟨a0, b0, c0⟩ := hq 0 (by omega)
  obtain ⟨a1, b1, c1⟩ := hq 1 (by omega)
  simp only [zero_mul, zero_add, one_mul, Nat.reduceAdd] at a0 b0 c0 a1 b1 c1
  have h : f.φ = 0 := hf
  rw [h] at a0 b0 c0 a1 b1 c1
  simp only [rx_zero, ry_zero, add_zero] at a0 b0 c0 a1 b1 c1
  interval_cases j <;>
    simp only [sum_range_succ, sum_range_zero, mix, planar, con] <;>
    dsimp only [CKind.cT] <;>
    simp only [a0, b0, c0, a1, b1, c1, h, rx_zero, ry_zero, if_true, if_false, reduceCtorEq, one_ne_zero, zero_ne_one, Bool.false_eq_true, mul_zero, mul_one, zero_add, add_zero, one_mul, zero_mul] <;>
    ring

theorem jT_constantRotation {f : View} {p : ConstantRotation ℝ} {q q' : Nat → ℝ} (hq : f.Sees 1 q q')
    {j m : Nat} (hj : j < 1) (hm : m < 1) (o : Coord) :
    (f.con (.constantRotation p)).jT q' j (m * 3 + o.d) = ∑ i ∈ range 1, f.mix (.constantRotation p) j i *
      f.co (fun o => (CKind.constantRotation p).jT q i (m * 3 + o.d)) o := by
  obtain ⟨a0, b0, c0⟩ := hq 0 (by omega)
  simp only [zero_mul, zero_add, one_mul, Nat.reduceAdd] at a0 b0 c0
  have h := Real.sin_sq_add_cos_sq f.φ
  interval_cases j <;> interval_cases m <;> cases o <;>
    simp only [Coord.d, Nat.reduceMul, Nat.reduceAdd, zero_mul, zero_add, one_mul, sum_range_succ,
      sum_range_zero, mix, planar, con, co] <;>
    dsimp only [CKind.jT] <;>
    simp only [a0, b0, c0, rx_add, ry_add, if_true, if_false, reduceCtorEq, one_ne_zero, zero_ne_one, Bool.false_eq_true, mul_zero, mul_one, zero_add, add_zero, one_mul, zero_mul] <;>
    ((try simp only [rx, ry]); grind)

theorem cT_constantRotation {f : View} {p : ConstantRotation ℝ} {q q' : Nat → ℝ}
    (hq : f.Sees 1 q q') {j : Nat} (hj : j < 1) :
    (f.con (.constantRotation p)).cT q' j = ∑ i ∈ range 1, f.mix (.constantRotation p) j i *
      (CKind.constantRotation p).cT q i := by
  obtain ⟨a0, b0, c0⟩ := hq 0 (by omega)
  simp only [zero_mul, zero_add, one_mul, Nat.reduceAdd] at a0 b0 c0
  have h := Real.sin_sq_add_cos_sq f.φ
  interval_cases j <;>
    simp only [sum_range_succ, sum_range_zero, mix, planar, con] <;>
    dsimp only [CKind.cT] <;>
    simp only [a0, b0, c0, rx_add, ry_add, if_true, if_false, reduceCtorEq, one_ne_zero, zero_ne_one, Bool.false_eq_true, mul_zero, mul_one, zero_add, add_zero, one_mul, zero_mul] <;>
    ((try simp only [rx, ry]); grind)

theorem jT_clutch {f : View} {p : Clutch ℝ} {q q' : Nat → ℝ} (hq : f.Sees 2 q q')
    {j m : Nat} (hj : j < 1) (hm : m < 2) (o : Coord) :
    (f.con (.clutch p)).jT q' j (m * 3 + o.d) = ∑ i ∈ range 1, f.mix (.clutch p) j i *
      f.co (fun o => (CKind.clutch p).jT q i (m * 3 + o.d)) o := by
  obtain ⟨a0, b0, c0⟩ := hq 0 (by omega)
  obtain ⟨a1, b1, c1⟩ := hq 1 (by omega)
  simp only [zero_mul, zero_add, one_mul, Nat.reduceAdd] at a0 b0 c0 a1 b1 c1
  have h := Real.sin_sq_add_cos_sq f.φ
  interval_cases j <;> interval_cases m <;> cases o <;>
    simp only [Coord.d, Nat.reduceMul, Nat.reduceAdd, zero_mul, zero_add, one_mul, sum_range_succ,
      sum_range_zero, mix, planar, con, co] <;>
    dsimp only [CKind.jT] <;>
    simp only [a0, b0, c0, a1, b1, c1, rx_add, ry_add, if_true, if_false, reduceCtorEq, one_ne_zero, zero_ne_one, Bool.false_eq_true, mul_zero, mul_one, zero_add, add_zero, one_mul, zero_mul] <;>
    ((try simp only [rx, ry]); grind)

theorem cT_clutch {f : View} {p : Clutch ℝ} {q q' : Nat → ℝ}
    (hq : f.Sees 2 q q') {j : Nat} (hj : j < 1) :
    (f.con (.clutch p)).cT q' j = ∑ i ∈ range 1, f.mix (.clutch p) j i *
      (CKind.clutch p).cT q i := by
  obtain ⟨a0, b0, c0⟩ := hq 0 (by omega)
  obtain ⟨a1, b1, c1⟩ := hq 1 (by omega)
  simp only [zero_mul, zero_add, one_mul, Nat.reduceAdd] at a0 b0 c0 a1 b1 c1
  have h := Real.sin_sq_add_cos_sq f.φ
  interval_cases j <;>
    simp only [sum_range_succ, sum_range_zero, mix, planar, con] <;>
    dsimp only [CKind.cT] <;>
    simp only [a0, b0, c0, a1, b1, c1, rx_add, ry_add, if_true, if_false, reduceCtorEq, one_ne_zero, zero_ne_one, Bool.false_eq_true, mul_zero, mul_one, zero_add, add_zero, one_mul, zero_mul] <;>
    ((try simp only [rx, ry]); grind)

theorem jT_rotationFriction {f : View} {p : RotationFriction ℝ} {q q' : Nat → ℝ} (hq : f.Sees 1 q q')
    {j m : Nat} (hj : j < 1) (hm : m < 1) (o : Coord) :
    (f.con (.rotationFriction p)).jT q' j (m * 3 + o.d) = ∑ i ∈ range 1, f.mix (.rotationFriction p) j i *
      f.co (fun o => (CKind.rotationFriction p).jT q i (m * 3 + o.d)) o := by
  obtain ⟨a0, b0, c0⟩ := hq 0 (by omega)
  simp only [zero_mul, zero_add, one_mul, Nat.reduceAdd] at a0 b0 c0
  have h := Real.sin_sq_add_cos_sq f.φ
  interval_cases j <;> interval_cases m <;> cases o <;>
    simp only [Coord.d, Nat.reduceMul, Nat.reduceAdd, zero_mul, zero_add, one_mul, sum_range_succ,
      sum_range_zero, mix, planar, con, co] <;>
    dsimp only [CKind.jT] <;>
    simp only [a0, b0, c0, rx_add, ry_add, if_true, if_false, reduceCtorEq, one_ne_zero, zero_ne_one, Bool.false_eq_true, mul_zero, mul_one, zero_add, add_zero, one_mul, zero_mul] <;>
    ((try simp only [rx, ry]); grind)

theorem cT_rotationFriction {f : View} {p : RotationFriction ℝ} {q q' : Nat → ℝ}
    (hq : f.Sees 1 q q') {j : Nat} (hj : j < 1) :
    (f.con (.rotationFriction p)).cT q' j = ∑ i ∈ range 1, f.mix (.rotationFriction p) j i *
      (CKind.rotationFriction p).cT q i := by
  obtain ⟨a0, b0, c0⟩ := hq 0 (by omega)
  simp only [zero_mul, zero_add, one_mul, Nat.reduceAdd] at a0 b0 c0
  have h := Real.sin_sq_add_cos_sq f.φ
  interval_cases j <;>
    simp only [sum_range_succ, sum_range_zero, mix, planar, con] <;>
    dsimp only [CKind.cT] <;>
    simp only [a0, b0, c0, rx_add, ry_add, if_true, if_false, reduceCtorEq, one_ne_zero, zero_ne_one, Bool.false_eq_true, mul_zero, mul_one, zero_add, add_zero, one_mul, zero_mul] <;>
    ((try simp only [rx, ry]); grind)

theorem jT_simpleGear {f : View} {p : SimpleGear ℝ} {q q' : Nat → ℝ} (hq : f.Sees 2 q q')
    {j m : Nat} (hj : j < 1) (hm : m < 2) (o : Coord) :
    (f.con (.simpleGear p)).jT q' j (m * 3 + o.d) = ∑ i ∈ range 1, f.mix (.simpleGear p) j i *
      f.co (fun o => (CKind.simpleGear p).jT q i (m * 3 + o.d)) o := by
  obtain ⟨a0, b0, c0⟩ := hq 0 (by omega)
  obtain ⟨a1, b1, c1⟩ := hq 1 (by omega)
  simp only [zero_mul, zero_add, one_mul, Nat.reduceAdd] at a0 b0 c0 a1 b1 c1
  have h := Real.sin_sq_add_cos_sq f.φ
  interval_cases j <;> interval_cases m <;> cases o <;>
    simp only [Coord.d, Nat.reduceMul, Nat.reduceAdd, zero_mul, zero_add, one_mul, sum_range_succ,
      sum_range_zero, mix, planar, con, co] <;>
    dsimp only [CKind.jT] <;>
    simp only [a0, b0, c0, a1, b1, c1, rx_add, ry_add, if_true, if_false, reduceCtorEq, one_ne_zero, zero_ne_one, Bool.false_eq_true, mul_zero, mul_one, zero_add, add_zero, one_mul, zero_mul] <;>
    ((try simp only [rx, ry]); grind)

theorem cT_simpleGear {f : View} {p : SimpleGear ℝ} {q q' : Nat → ℝ}
    (hq : f.Sees 2 q q') {j : Nat} (hj : j < 1) :
    (f.con (.simpleGear p)).cT q' j = ∑ i ∈ range 1, f.mix (.simpleGear p) j i *
      (CKind.simpleGear p).cT q i := by
  obtain ⟨a0, b0, c0⟩ := hq 0 (by omega)
  obtain ⟨a1, b1, c1⟩ := hq 1 (by omega)
  simp only [zero_mul, zero_add, one_mul, Nat.reduceAdd] at a0 b0 c0 a1 b1 c1
  have h := Real.sin_sq_add_cos_sq f.φ
  interval_cases j <;>
    simp only [sum_range_succ, sum_range_zero, mix, planar, con] <;>
    dsimp only [CKind.cT] <;>
    simp only [a0, b0, c0, a1, b1, c1, rx_add, ry_add, if_true, if_false, reduceCtorEq, one_ne_zero, zero_ne_one, Bool.false_eq_true, mul_zero, mul_one, zero_add, add_zero, one_mul, zero_mul] <;>
    ((try simp only [rx, ry]); grind)

/-- The Jacobian of a constraint seen in the frame. -/
theorem jT_con {f : View} {k : CKind ℝ} {r n : Nat} (hc : k.counts = some (r, n)) (hf : f.FitsCon k)
    {q q' : Nat → ℝ} (hq : f.Sees n q q') {j m : Nat} (hj : j < r) (hm : m < n) (o : Coord) :
    (f.con k).jT q' j (m * 3 + o.d) = ∑ i ∈ range r, f.mix k j i *
      f.co (fun o => k.jT q i (m * 3 + o.d)) o := by
  cases k <;> simp only [CKind.counts, Option.some.injEq, Prod.mk.injEq, reduceCtorEq] at hc <;>
    obtain ⟨rfl, rfl⟩ := hc
  · exact jT_fixedPosition hq hj hm o
  · exact jT_fixedRotation hq hj hm o
  · exact jT_line hq hj hm o
  · exact jT_link hq hj hm o
  · exact jT_rolling hf hq hj hm o
  · exact jT_constantRotation hq hj hm o
  · exact jT_clutch hq hj hm o
  · exact jT_rotationFriction hq hj hm o
  · exact jT_simpleGear hq hj hm o

/-- The value of a constraint seen in the frame. -/
theorem cT_con {f : View} {k : CKind ℝ} {r n : Nat} (hc : k.counts = some (r, n)) (hf : f.FitsCon k)
    {q q' : Nat → ℝ} (hq : f.Sees n q q') {j : Nat} (hj : j < r) :
    (f.con k).cT q' j = ∑ i ∈ range r, f.mix k j i * k.cT q i := by
  cases k <;> simp only [CKind.counts, Option.some.injEq, Prod.mk.injEq, reduceCtorEq] at hc <;>
    obtain ⟨rfl, rfl⟩ := hc
  · exact cT_fixedPosition hq hj
  · exact cT_fixedRotation hq hj
  · exact cT_line hq hj
  · exact cT_link hq hj
  · exact cT_rolling hf hq hj
  · exact cT_constantRotation hq hj
  · exact cT_clutch hq hj
  · exact cT_rotationFriction hq hj
  · exact cT_simpleGear hq hj

theorem biasT_con (f : View) {k : CKind ℝ} {r n : Nat} (hc : k.counts = some (r, n)) {j : Nat}
    (hj : j < r) : (f.con k).biasT = ∑ i ∈ range r, f.mix k j i * k.biasT := by
  cases k <;> simp only [CKind.counts, Option.some.injEq, Prod.mk.injEq, reduceCtorEq] at hc <;>
    obtain ⟨rfl, rfl⟩ := hc <;> simp [con, CKind.biasT, mix, planar] 
  intro h
  omega

theorem two_sum (g : Nat → ℝ) (a b : ℝ) :
    ∑ m ∈ range 2, (g (m * 3) * a + g (m * 3 + 1) * b) =
      g 0 * a + g 1 * b + (g 3 * a + g 4 * b) := by
  simp [sum_range_succ]

/-- The Jacobian of a constraint that fits a moving frame does not see a common velocity. -/
theorem jT_common {f : View} {k : CKind ℝ} {r n : Nat} (hc : k.counts = some (r, n))
    (hf : f.FitsCon k) (q : Nat → ℝ) {j : Nat} (hj : j < r) :
    ∑ m ∈ range n, (k.jT q j (m * 3) * f.ux + k.jT q j (m * 3 + 1) * f.uy) = 0 := by
  cases k <;> simp only [CKind.counts, Option.some.injEq, Prod.mk.injEq, reduceCtorEq] at hc <;>
    obtain ⟨rfl, rfl⟩ := hc
  · obtain ⟨h1, h2⟩ := hf
    simp [h1, h2]
  · interval_cases j
    simp [CKind.jT]
  · obtain ⟨h1, h2⟩ := hf
    simp [h1, h2]
  · rename_i p
    interval_cases j
    · exact (two_sum _ _ _).trans (by
        rw [show (CKind.link p).jT q 0 0 = 1 from rfl, show (CKind.link p).jT q 0 1 = 0 from rfl,
          show (CKind.link p).jT q 0 3 = -1 from rfl, show (CKind.link p).jT q 0 4 = 0 from rfl]
        ring)
    · exact (two_sum _ _ _).trans (by
        rw [show (CKind.link p).jT q 1 0 = 0 from rfl, show (CKind.link p).jT q 1 1 = 1 from rfl,
          show (CKind.link p).jT q 1 3 = 0 from rfl, show (CKind.link p).jT q 1 4 = -1 from rfl]
        ring)
  · rename_i p
    interval_cases j
    · exact (two_sum _ _ _).trans (by
        rw [show (CKind.rolling p).jT q 0 0 = p.radius * rx (q 2) p.dx p.dy from rfl,
          show (CKind.rolling p).jT q 0 1 = p.radius * ry (q 2) p.dx p.dy from rfl,
          show (CKind.rolling p).jT q 0 3 = -(p.radius * rx (q 2) p.dx p.dy) from rfl,
          show (CKind.rolling p).jT q 0 4 = -(p.radius * ry (q 2) p.dx p.dy) from rfl]
        ring)
    · exact (two_sum _ _ _).trans (by
        rw [show (CKind.rolling p).jT q 1 0 = -ry (q 2) p.dx p.dy from rfl,
          show (CKind.rolling p).jT q 1 1 = rx (q 2) p.dx p.dy from rfl,
          show (CKind.rolling p).jT q 1 3 = ry (q 2) p.dx p.dy from rfl,
          show (CKind.rolling p).jT q 1 4 = -rx (q 2) p.dx p.dy from rfl]
        ring)
  · interval_cases j
    simp [CKind.jT]
  · rename_i p
    interval_cases j
    exact (two_sum _ _ _).trans (by
        rw [show (CKind.clutch p).jT q 0 0 = 0 from rfl, show (CKind.clutch p).jT q 0 1 = 0 from rfl,
          show (CKind.clutch p).jT q 0 3 = 0 from rfl, show (CKind.clutch p).jT q 0 4 = 0 from rfl]
        ring)
  · interval_cases j
    simp [CKind.jT]
  · rename_i p
    interval_cases j
    exact (two_sum _ _ _).trans (by
        rw [show (CKind.simpleGear p).jT q 0 0 = 0 from rfl,
          show (CKind.simpleGear p).jT q 0 1 = 0 from rfl,
          show (CKind.simpleGear p).jT q 0 3 = 0 from rfl,
          show (CKind.simpleGear p).jT q 0 4 = 0 from rfl]
        ring)

theorem mix_cancel (f : View) {k : CKind ℝ} {r n : Nat} (hc : k.counts = some (r, n))
    (a b : Nat → ℝ) : ∑ j ∈ range r, (∑ i ∈ range r, f.mix k j i * a i) *
      (∑ i ∈ range r, f.mix k j i * b i) = ∑ i ∈ range r, a i * b i := by
  have e : ∀ j, (∑ i ∈ range r, f.mix k j i * a i) * (∑ i ∈ range r, f.mix k j i * b i) =
      ∑ i ∈ range r, ∑ i' ∈ range r, a i * b i' * (f.mix k j i * f.mix k j i') := fun j => by
    rw [sum_mul_sum]
    exact sum_congr rfl fun i _ => sum_congr rfl fun i' _ => by ring
  simp only [e]
  rw [sum_comm]
  refine sum_congr rfl fun i hi => ?_
  rw [sum_comm]
  have : ∀ i' ∈ range r, ∑ j ∈ range r, a i * b i' * (f.mix k j i * f.mix k j i') =
      if i = i' then a i * b i' else 0 := fun i' hi' => by
    rw [← mul_sum, f.mix_orth hc (mem_range.mp hi) (mem_range.mp hi')]
    split <;> simp
  rw [sum_congr rfl this, sum_ite_eq, if_pos hi]

/-- Mixed and back. -/
theorem mix_back (f : View) {k : CKind ℝ} {r n : Nat} (hc : k.counts = some (r, n))
    (a : Nat → ℝ) {j : Nat} (hj : j < r) :
    ∑ i ∈ range r, f.mix k j i * (∑ j' ∈ range r, f.mix k j' i * a j') = a j := by
  simp only [mul_sum]
  rw [sum_comm]
  have : ∀ j' ∈ range r, ∑ i ∈ range r, f.mix k j i * (f.mix k j' i * a j') =
      if j = j' then a j' else 0 := fun j' hj' => by
    have := f.mix_orth' hc hj (mem_range.mp hj')
    simp only [← mul_assoc]
    rw [← sum_mul, this]
    split <;> simp
  rw [sum_congr rfl this, sum_ite_eq, if_pos (mem_range.mpr hj)]

theorem mix_zero (f : View) {k : CKind ℝ} {r n : Nat} (hc : k.counts = some (r, n))
    (a : Nat → ℝ) (h : ∀ j, j < r → ∑ i ∈ range r, f.mix k j i * a i = 0) {i : Nat} (hi : i < r) :
    a i = 0 := by
  have : ∑ j ∈ range r, f.mix k j i * (∑ i' ∈ range r, f.mix k j i' * a i') = a i := by
    simp only [mul_sum]
    rw [sum_comm]
    have : ∀ i' ∈ range r, ∑ j ∈ range r, f.mix k j i * (f.mix k j i' * a i') =
        if i = i' then a i' else 0 := fun i' hi' => by
      have := f.mix_orth hc hi (mem_range.mp hi')
      simp only [← mul_assoc]
      rw [← sum_mul, this]
      split <;> simp
    rw [sum_congr rfl this, sum_ite_eq, if_pos (mem_range.mpr hi)]
  rw [← this]
  exact sum_eq_zero fun j hj => by rw [h j (mem_range.mp hj), mul_zero]

end View

end Scs
