import Verif.ConstraintLemmas
import Verif.ConstraintAgree
import Verif.StateSpec
import Mathlib.Tactic.LinearCombination
import Mathlib.Tactic.FieldSimp

/-!
# Properties C37 to C41 and C63: the constraints

`Carries s idx nb q v`: the state `s` holds the coordinates `q` and the velocities `v` (x, y, angle
of the first body, then of the second) of the bodies with the indices `idx`.
-/

namespace Scs

open SysState Finset

/-- The constraints on positions. -/
def CKind.Positional {α : Type} : CKind α → Prop
  | .fixedPosition _ | .fixedRotation _ | .line _ | .link _ | .rolling _ => True
  | _ => False

/-- For any coordinates and velocities of two bodies there is a reachable state with exactly
these. -/
theorem demo_carries (q v : Nat → ℝ) :
    ∃ s : SysState ℝ, s.Reach ∧ ∀ nb, nb ≤ 2 → Carries s (fun b => .ok b) nb q v := by
  obtain ⟨s, hr, hs⟩ := reach_shows (α := ℝ) 2 0 (by decide)
    (fun f i => match f with
      | .p_x => q (3 * i) | .p_y => q (3 * i + 1) | .theta => q (3 * i + 2)
      | .v_x => v (3 * i) | .v_y => v (3 * i + 1) | .v_theta => v (3 * i + 2)
      | _ => 0) (fun _ _ => 0)
  exact ⟨s, hr, fun nb hn b hb => ⟨b, rfl, hs.fld .p_x b (by omega), hs.fld .p_y b (by omega),
    hs.fld .theta b (by omega), hs.fld .v_x b (by omega), hs.fld .v_y b (by omega),
    hs.fld .v_theta b (by omega)⟩⟩

/-! ## C37 -/

/-- **C37.** Along any differentiable motion of the attached bodies the value `C` that the
constraint reports changes at the rate `J q'` given by the `J` it reports: `J` is the derivative of
`C`. `v` (the velocities in the states) and `o` (what the output held before) are arbitrary. -/
theorem C37_jacobian (k : CKind ℝ) (hp : k.Positional) {rows nb : Nat}
    (hk : k.counts = some (rows, nb)) (idx : Nat → Exec Int) (s : ℝ → SysState ℝ)
    (q v : ℝ → Nat → ℝ) (hs : ∀ u, Carries (s u) idx nb (q u) (v u)) (o : ℝ → Output ℝ)
    (t : ℝ) (q' : Nat → ℝ) (hq : ∀ c, c < 3 * nb → HasDerivAt (fun u => q u c) (q' c) t) :
    ∃ out : ℝ → Output ℝ, (∀ u, k.calculate idx (o u) (s u) = .ok (out u)) ∧
      ∀ r, r < rows →
        HasDerivAt (fun u => (out u).C r) (∑ c ∈ range (3 * nb), (out t).J r c * q' c) t := by
  choose out e h using fun u => k.calculate_has hk (hs u) (o u)
  refine ⟨out, e, fun r hr => ?_⟩
  have hC : (fun u => (out u).C r) = fun u => k.cT (q u) r := funext fun u => (h u).C r hr
  have hJ : (∑ c ∈ range (3 * nb), (out t).J r c * q' c)
      = ∑ c ∈ range (3 * nb), k.jT (q t) r c * q' c :=
    sum_congr rfl fun c hc => by rw [(h t).J r c hr (mem_range.mp hc)]
  rw [hC, hJ]
  clear hC hJ h e hs
  cases k with
  | fixedPosition p =>
    cases hk
    have h0 := hq 0 (by decide); have h1 := hq 1 (by decide); have h2 := hq 2 (by decide)
    have hx := hasDerivAt_rx h2 p.local_x p.local_y
    have hy := hasDerivAt_ry h2 p.local_x p.local_y
    interval_cases r
    · refine ((h0.add hx).sub_const p.world_x).congr_deriv ?_
      simp [sum_range_succ, CKind.jT]
    · refine ((h1.add hy).sub_const p.world_y).congr_deriv ?_
      simp [sum_range_succ, CKind.jT]
  | fixedRotation p =>
    cases hk
    have h2 := hq 2 (by decide)
    interval_cases r
    refine (h2.sub_const p.rotation).congr_deriv ?_
    simp [sum_range_succ, CKind.jT]
  | line p =>
    cases hk
    have h0 := hq 0 (by decide); have h1 := hq 1 (by decide); have h2 := hq 2 (by decide)
    have hx := hasDerivAt_rx h2 p.local_x p.local_y
    have hy := hasDerivAt_ry h2 p.local_x p.local_y
    interval_cases r
    refine ((((h1.add hy).sub_const p.p0_y).mul_const p.dx).sub
      (((h0.add hx).sub_const p.p0_x).mul_const p.dy)).congr_deriv ?_
    simp [sum_range_succ, CKind.jT]
    ring
  | link p =>
    cases hk
    have h0 := hq 0 (by decide); have h1 := hq 1 (by decide); have h2 := hq 2 (by decide)
    have h3 := hq 3 (by decide); have h4 := hq 4 (by decide); have h5 := hq 5 (by decide)
    have hx := hasDerivAt_rx h2 p.local_x_1 p.local_y_1
    have hy := hasDerivAt_ry h2 p.local_x_1 p.local_y_1
    have hx' := hasDerivAt_rx h5 p.local_x_2 p.local_y_2
    have hy' := hasDerivAt_ry h5 p.local_x_2 p.local_y_2
    interval_cases r
    · refine ((h0.add hx).sub (h3.add hx')).congr_deriv ?_
      simp [sum_range_succ, CKind.jT]
      ring
    · refine ((h1.add hy).sub (h4.add hy')).congr_deriv ?_
      simp [sum_range_succ, CKind.jT]
      ring
  | rolling p =>
    cases hk
    have h0 := hq 0 (by decide); have h1 := hq 1 (by decide); have h2 := hq 2 (by decide)
    have h3 := hq 3 (by decide); have h4 := hq 4 (by decide); have h5 := hq 5 (by decide)
    have hx := hasDerivAt_rx h2 p.local_x p.local_y
    have hy := hasDerivAt_ry h2 p.local_x p.local_y
    have dx := hasDerivAt_rx h2 p.dx p.dy
    have dy := hasDerivAt_ry h2 p.dx p.dy
    have ex := (h3.sub h0).sub hx
    have ey := (h4.sub h1).sub hy
    interval_cases r
    · refine (h5.neg.sub (((ex.mul dx).add (ey.mul dy)).const_mul p.radius)).congr_deriv ?_
      simp [sum_range_succ, CKind.jT]
      ring
    · refine (((ex.mul dy).const_add p.radius).sub (ey.mul dx)).congr_deriv ?_
      simp [sum_range_succ, CKind.jT]
      ring
  | _ => exact hp.elim

/-- **C37.** Partial derivatives: if only coordinate `c` differs between the states, with value `u`
in state `s u`, then the derivative of `C` with respect to `u` is the entry of `J` in column `c`. -/
theorem C37_jacobian_column (k : CKind ℝ) (hp : k.Positional) {rows nb : Nat}
    (hk : k.counts = some (rows, nb)) (idx : Nat → Exec Int) (s : ℝ → SysState ℝ)
    (q : Nat → ℝ) (v : ℝ → Nat → ℝ) (c : Nat) (hc : c < 3 * nb)
    (hs : ∀ u, Carries (s u) idx nb (fun j => if j = c then u else q j) (v u)) (o : ℝ → Output ℝ) :
    ∃ out : ℝ → Output ℝ, (∀ u, k.calculate idx (o u) (s u) = .ok (out u)) ∧
      ∀ t r, r < rows → HasDerivAt (fun u => (out u).C r) ((out t).J r c) t := by
  choose out e _ using fun u => k.calculate_has hk (hs u) (o u)
  refine ⟨out, e, fun t r hr => ?_⟩
  obtain ⟨out', e', h'⟩ := C37_jacobian k hp hk idx s _ v hs o t (fun j => if j = c then 1 else 0)
    (fun j _ => by
      by_cases h : j = c
      · simp only [h, if_true]; exact hasDerivAt_id t
      · simp only [h, if_false]; exact hasDerivAt_const _ _)
  have : out' = out := funext fun u => by
    have := e u; rw [e' u] at this; exact Except.ok.inj this
  subst this
  refine (h' r hr).congr_deriv ?_
  simp [hc]

/-- Any motion of two bodies is carried by reachable states; here the first body turns and the
second one moves along the x axis. -/
example : ∃ (s : ℝ → SysState ℝ) (q v : ℝ → Nat → ℝ), (∀ u, (s u).Reach) ∧
    (∀ u, Carries (s u) (fun b => .ok b) 2 (q u) (v u)) ∧
    (∀ c, c < 6 → HasDerivAt (fun u => q u c) (v 1 c) 1) ∧ v 1 2 = 5 ∧ v 1 3 = 1 := by
  choose s hr hs using fun u : ℝ => demo_carries
    (fun c => if c = 2 then 5 * u else if c = 3 then u else c)
    (fun c => if c = 2 then 5 else if c = 3 then 1 else 0)
  refine ⟨s, _, _, hr, fun u => hs u 2 (by decide), fun c hc => ?_, by simp, by simp⟩
  interval_cases c <;> norm_num <;> first
    | exact hasDerivAt_const _ _
    | exact hasDerivAt_id _
    | simpa using (hasDerivAt_id (1 : ℝ)).const_mul 5

/-! ## C38 -/

/-- **C38.** Along any differentiable motion whose velocities at time `t` are those in the state,
`J_dot` is the time derivative of `J` at time `t`. All shipped constraints. -/
theorem C38_jacobian_derivative (k : CKind ℝ) {rows nb : Nat}
    (hk : k.counts = some (rows, nb)) (idx : Nat → Exec Int) (s : ℝ → SysState ℝ)
    (q v : ℝ → Nat → ℝ) (hs : ∀ u, Carries (s u) idx nb (q u) (v u)) (o : ℝ → Output ℝ)
    (t : ℝ) (hq : ∀ c, c < 3 * nb → HasDerivAt (fun u => q u c) (v t c) t) :
    ∃ out : ℝ → Output ℝ, (∀ u, k.calculate idx (o u) (s u) = .ok (out u)) ∧
      ∀ r c, r < rows → c < 3 * nb →
        HasDerivAt (fun u => (out u).J r c) ((out t).J_dot r c) t := by
  choose out e h using fun u => k.calculate_has hk (hs u) (o u)
  refine ⟨out, e, fun r c hr hc => ?_⟩
  have hJ : (fun u => (out u).J r c) = fun u => k.jT (q u) r c := funext fun u => (h u).J r c hr hc
  rw [hJ, (h t).Jd r c hr hc]
  clear hJ h e hs
  cases k with
  | base => cases hk
  | custom f => cases hk
  | fixedPosition p =>
    cases hk
    have h2 := hq 2 (by decide)
    have hx := hasDerivAt_rx h2 p.local_x p.local_y
    have hy := hasDerivAt_ry h2 p.local_x p.local_y
    interval_cases r <;> interval_cases c <;> first
      | exact hasDerivAt_const _ _
      | exact hx
      | exact hy
      | (refine hy.neg.congr_deriv ?_; simp [CKind.jdT])
      | (refine hx.congr_deriv ?_; simp [CKind.jdT])
  | fixedRotation p =>
    cases hk
    interval_cases r; interval_cases c <;> exact hasDerivAt_const _ _
  | line p =>
    cases hk
    have h2 := hq 2 (by decide)
    have hx := hasDerivAt_rx h2 p.local_x p.local_y
    have hy := hasDerivAt_ry h2 p.local_x p.local_y
    interval_cases r; interval_cases c
    · exact hasDerivAt_const _ _
    · exact hasDerivAt_const _ _
    · refine ((hy.mul_const p.dy).add (hx.mul_const p.dx)).congr_deriv ?_
      simp only [CKind.jdT]
      ring
  | link p =>
    cases hk
    have h2 := hq 2 (by decide)
    have h5 := hq 5 (by decide)
    have hx := hasDerivAt_rx h2 p.local_x_1 p.local_y_1
    have hy := hasDerivAt_ry h2 p.local_x_1 p.local_y_1
    have hx' := hasDerivAt_rx h5 p.local_x_2 p.local_y_2
    have hy' := hasDerivAt_ry h5 p.local_x_2 p.local_y_2
    interval_cases r
    · interval_cases c
      · exact hasDerivAt_const _ _
      · exact hasDerivAt_const _ _
      · exact hy.neg
      · exact hasDerivAt_const _ _
      · exact hasDerivAt_const _ _
      · exact hy'
    · interval_cases c
      · exact hasDerivAt_const _ _
      · exact hasDerivAt_const _ _
      · exact hx
      · exact hasDerivAt_const _ _
      · exact hasDerivAt_const _ _
      · refine hx'.neg.congr_deriv ?_
        simp [CKind.jdT]
  | rolling p =>
    cases hk
    have h0 := hq 0 (by decide); have h1 := hq 1 (by decide); have h2 := hq 2 (by decide)
    have h3 := hq 3 (by decide); have h4 := hq 4 (by decide)
    have hx := hasDerivAt_rx h2 p.local_x p.local_y
    have hy := hasDerivAt_ry h2 p.local_x p.local_y
    have dx := hasDerivAt_rx h2 p.dx p.dy
    have dy := hasDerivAt_ry h2 p.dx p.dy
    have ex := (h3.sub h0).sub hx
    have ey := (h4.sub h1).sub hy
    interval_cases r
    · interval_cases c
      · refine (dx.const_mul p.radius).congr_deriv ?_
        simp only [CKind.jdT]; ring
      · refine (dy.const_mul p.radius).congr_deriv ?_
        simp only [CKind.jdT]; ring
      · refine (((((hy.mul dx).sub (hx.mul dy)).sub (ex.mul dy)).add (ey.mul dx)).const_mul
          (-p.radius)).congr_deriv ?_
        simp only [CKind.jdT, Pi.sub_apply]; ring
      · refine (dx.const_mul p.radius).neg.congr_deriv ?_
        simp only [CKind.jdT]; ring
      · refine (dy.const_mul p.radius).neg.congr_deriv ?_
        simp only [CKind.jdT]; ring
      · exact hasDerivAt_const _ _
    · interval_cases c
      · exact dy.neg
      · exact dx
      · refine ((((dx.mul ex).add (dy.mul ey)).add (dy.mul hy)).add (dx.mul hx)).congr_deriv ?_
        simp only [CKind.jdT, Pi.sub_apply]; ring
      · exact dy
      · refine dx.neg.congr_deriv ?_
        simp only [CKind.jdT]; ring
      · exact hasDerivAt_const _ _
  | constantRotation p =>
    cases hk
    interval_cases r; interval_cases c <;> exact hasDerivAt_const _ _
  | clutch p =>
    cases hk
    interval_cases r; interval_cases c <;> exact hasDerivAt_const _ _
  | rotationFriction p =>
    cases hk
    interval_cases r; interval_cases c <;> exact hasDerivAt_const _ _
  | simpleGear p =>
    cases hk
    interval_cases r; interval_cases c <;> exact hasDerivAt_const _ _

/-! ## C39 -/

/-- The velocity condition `J q' + v_bias = 0` of a constraint with `rows` rows and `nb` bodies. -/
def VelocityCondition (out : Output ℝ) (rows nb : Nat) (v : Nat → ℝ) : Prop :=
  ∀ r, r < rows → (∑ c ∈ range (3 * nb), out.J r c * v c) + out.v_bias r = 0

/-- **C39** (partial). What the velocity condition says for a clutch, a gear and a rotation friction
constraint. Missing: the constant rotation constraint, for which the claim is false, see
`C39_constant_rotation`. -/
theorem C39_velocity_conditions_partial (idx : Nat → Exec Int) (s : SysState ℝ) (q v : Nat → ℝ)
    (o out : Output ℝ) :
    (∀ p : Clutch ℝ, Carries s idx 2 q v → (CKind.clutch p).calculate idx o s = .ok out →
      (VelocityCondition out 1 2 v ↔ v 2 = v 5)) ∧
    (∀ p : SimpleGear ℝ, Carries s idx 2 q v → (CKind.simpleGear p).calculate idx o s = .ok out →
      (VelocityCondition out 1 2 v ↔ v 2 = p.ratio * v 5)) ∧
    (∀ p : RotationFriction ℝ, Carries s idx 1 q v →
      (CKind.rotationFriction p).calculate idx o s = .ok out →
      (VelocityCondition out 1 1 v ↔ v 2 = 0)) := by
  refine ⟨fun p hs e => ?_, fun p hs e => ?_, fun p hs e => ?_⟩
  · obtain ⟨_, e', h⟩ := (CKind.clutch p).calculate_has rfl hs o
    rw [e] at e'; cases e'
    have : VelocityCondition out 1 2 v ↔ -v 2 + v 5 = 0 := by
      refine ⟨fun H => ?_, fun H r hr => ?_⟩
      · have := H 0 (by decide)
        simpa [sum_range_succ, h.J, h.bias, CKind.jT, CKind.biasT] using this
      · interval_cases r
        simpa [sum_range_succ, h.J, h.bias, CKind.jT, CKind.biasT] using H
    rw [this]
    constructor <;> intro H <;> linarith
  · obtain ⟨_, e', h⟩ := (CKind.simpleGear p).calculate_has rfl hs o
    rw [e] at e'; cases e'
    have : VelocityCondition out 1 2 v ↔ v 2 + -(p.ratio * v 5) = 0 := by
      refine ⟨fun H => ?_, fun H r hr => ?_⟩
      · have := H 0 (by decide)
        simpa [sum_range_succ, h.J, h.bias, CKind.jT, CKind.biasT] using this
      · interval_cases r
        simpa [sum_range_succ, h.J, h.bias, CKind.jT, CKind.biasT] using H
    rw [this]
    constructor <;> intro H <;> linarith
  · obtain ⟨_, e', h⟩ := (CKind.rotationFriction p).calculate_has rfl hs o
    rw [e] at e'; cases e'
    refine ⟨fun H => ?_, fun H r hr => ?_⟩
    · have := H 0 (by decide)
      simpa [sum_range_succ, h.J, h.bias, CKind.jT, CKind.biasT] using this
    · interval_cases r
      simpa [sum_range_succ, h.J, h.bias, CKind.jT, CKind.biasT] using H

/-- **C39**, the case in which the code differs from the claim: the velocity condition of a constant
rotation constraint says that the body turns with the angular velocity `-m_rotationSpeed`. -/
theorem C39_constant_rotation (p : ConstantRotation ℝ) (idx : Nat → Exec Int) (s : SysState ℝ)
    (q v : Nat → ℝ) (hs : Carries s idx 1 q v) (o out : Output ℝ)
    (e : (CKind.constantRotation p).calculate idx o s = .ok out) :
    VelocityCondition out 1 1 v ↔ v 2 = -p.rotationSpeed := by
  obtain ⟨_, e', h⟩ := (CKind.constantRotation p).calculate_has rfl hs o
  rw [e] at e'; cases e'
  have : VelocityCondition out 1 1 v ↔ v 2 + p.rotationSpeed = 0 := by
    refine ⟨fun H => ?_, fun H r hr => ?_⟩
    · have := H 0 (by decide)
      simpa [sum_range_succ, h.J, h.bias, CKind.jT, CKind.biasT] using this
    · interval_cases r
      simpa [sum_range_succ, h.J, h.bias, CKind.jT, CKind.biasT] using H
  rw [this]
  constructor <;> intro H <;> linarith

/-- **C39 refuted** for every non-zero rotation speed: no body that turns with the angular velocity
`m_rotationSpeed` meets the velocity condition of the constant rotation constraint. -/
theorem C39_constant_rotation_refuted (p : ConstantRotation ℝ) (h0 : p.rotationSpeed ≠ 0)
    (idx : Nat → Exec Int) (s : SysState ℝ) (q v : Nat → ℝ) (hs : Carries s idx 1 q v)
    (hv : v 2 = p.rotationSpeed) (o out : Output ℝ)
    (e : (CKind.constantRotation p).calculate idx o s = .ok out) :
    ¬ VelocityCondition out 1 1 v := by
  rw [C39_constant_rotation p idx s q v hs o out e, hv]
  intro h
  exact h0 (by linarith)

/-- A state in which a body turns with the speed of the constraint. -/
example : ∃ (p : ConstantRotation ℝ) (s : SysState ℝ) (q v : Nat → ℝ) (o out : Output ℝ), s.Reach ∧
    Carries s (fun b => .ok b) 1 q v ∧ v 2 = p.rotationSpeed ∧ p.rotationSpeed ≠ 0 ∧
    (CKind.constantRotation p).calculate (fun b => .ok b) o s = .ok out := by
  obtain ⟨s, hr, hs⟩ := demo_carries (fun _ => 0) (fun _ => 3)
  exact ⟨⟨3, 0, 0, 0, 0⟩, s, _, _, ⟨fun _ => 0, fun _ _ => 0, fun _ _ => 0, fun _ => 0, fun _ _ => 0,
    fun _ => 0, fun _ => 0⟩, _, hr, hs 1 (by decide), rfl, by norm_num, rfl⟩

/-! ## C40 -/

/-- **C40**, what the code does: if the velocity condition of the rolling constraint holds with the
base body at rest, then the point of the rolling body that touches the line (the centre minus
`radius` times the unit normal of the line) moves along the line with the speed
`omega * (radius - 1 / radius)`. -/
theorem C40_contact_velocity (p : Rolling ℝ) (hr : p.radius ≠ 0) (hd : p.dx ^ 2 + p.dy ^ 2 = 1)
    (idx : Nat → Exec Int) (s : SysState ℝ) (q v : Nat → ℝ) (hs : Carries s idx 2 q v)
    (hv : v 0 = 0 ∧ v 1 = 0 ∧ v 2 = 0) (o out : Output ℝ)
    (e : (CKind.rolling p).calculate idx o s = .ok out) (hc : VelocityCondition out 2 2 v)
    (i : Int) (hi : idx 1 = .ok i) (dx dy : ℝ)
    (hdx : dx = Real.cos (q 2) * p.dx - Real.sin (q 2) * p.dy)
    (hdy : dy = Real.sin (q 2) * p.dx + Real.cos (q 2) * p.dy) (x y : ℝ)
    (hxy : s.localToWorld x y i = .ok (q 3 - p.radius * -dy, q 4 - p.radius * dx)) :
    s.velocityAtPoint x y i =
      .ok (v 5 * (p.radius - 1 / p.radius) * dx, v 5 * (p.radius - 1 / p.radius) * dy) := by
  obtain ⟨_, e', h⟩ := (CKind.rolling p).calculate_has rfl hs o
  rw [e] at e'; cases e'
  obtain ⟨j, hj, h1, h2, h3, h4, h5, h6⟩ := hs 1 (by decide)
  rw [hi] at hj; cases hj
  have edx : rx (q 2) p.dx p.dy = dx := hdx.symm
  have edy : ry (q 2) p.dx p.dy = dy := hdy.symm
  have c0 := hc 0 (by decide)
  have c1 := hc 1 (by decide)
  simp only [sum_range_succ, sum_range_zero, Nat.reduceMul, h.J 0 _ (by decide) (by decide : 0 < 3 * 2),
    h.J 0 _ (by decide) (by decide : 1 < 3 * 2), h.J 0 _ (by decide) (by decide : 2 < 3 * 2),
    h.J 0 _ (by decide) (by decide : 3 < 3 * 2), h.J 0 _ (by decide) (by decide : 4 < 3 * 2),
    h.J 0 _ (by decide) (by decide : 5 < 3 * 2), h.bias 0 (by decide), CKind.biasT] at c0
  simp only [sum_range_succ, sum_range_zero, Nat.reduceMul, h.J 1 _ (by decide) (by decide : 0 < 3 * 2),
    h.J 1 _ (by decide) (by decide : 1 < 3 * 2), h.J 1 _ (by decide) (by decide : 2 < 3 * 2),
    h.J 1 _ (by decide) (by decide : 3 < 3 * 2), h.J 1 _ (by decide) (by decide : 4 < 3 * 2),
    h.J 1 _ (by decide) (by decide : 5 < 3 * 2), h.bias 1 (by decide), CKind.biasT] at c1
  simp only [CKind.jT, edx, edy, hv.1, hv.2.1, hv.2.2, mul_zero, add_zero, zero_add, zero_mul] at c0 c1
  have unit : dx ^ 2 + dy ^ 2 = 1 := by
    rw [hdx, hdy]
    have := Real.sin_sq_add_cos_sq (q 2)
    linear_combination (p.dx ^ 2 + p.dy ^ 2) * this + hd
  have a : p.radius * (dx * v 3 + dy * v 4) = -v 5 := by linear_combination -c0
  have a' : dx * v 3 + dy * v 4 = -v 5 / p.radius := by field_simp; linear_combination a
  have b : dy * v 3 - dx * v 4 = 0 := by linear_combination c1
  have vx : v 3 = -v 5 / p.radius * dx := by rw [← a']; linear_combination -v 3 * unit + dy * b
  have vy : v 4 = -v 5 / p.radius * dy := by rw [← a']; linear_combination -v 4 * unit - dx * b
  simp only [SysState.velocityAtPoint, hxy, ok_bind, h1, h2, h4, h5, h6]
  refine congrArg Except.ok (Prod.ext ?_ ?_)
  · show v 3 + -v 5 * (q 4 - p.radius * dx - q 4) = _
    rw [vx]; field_simp; ring
  · show v 4 + v 5 * (q 3 - p.radius * -dy - q 3) = _
    rw [vy]; field_simp; ring

/-- **C40** (partial). For radius 1 the velocity condition is rolling without slipping. Missing:
other radii, for which the claim is false, see `C40_contact_velocity` and `C40_refuted`. -/
theorem C40_rolling_partial (p : Rolling ℝ) (hr : p.radius = 1) (hd : p.dx ^ 2 + p.dy ^ 2 = 1)
    (idx : Nat → Exec Int) (s : SysState ℝ) (q v : Nat → ℝ) (hs : Carries s idx 2 q v)
    (hv : v 0 = 0 ∧ v 1 = 0 ∧ v 2 = 0) (o out : Output ℝ)
    (e : (CKind.rolling p).calculate idx o s = .ok out) (hc : VelocityCondition out 2 2 v)
    (i : Int) (hi : idx 1 = .ok i) (dx dy : ℝ)
    (hdx : dx = Real.cos (q 2) * p.dx - Real.sin (q 2) * p.dy)
    (hdy : dy = Real.sin (q 2) * p.dx + Real.cos (q 2) * p.dy) (x y : ℝ)
    (hxy : s.localToWorld x y i = .ok (q 3 - p.radius * -dy, q 4 - p.radius * dx)) :
    s.velocityAtPoint x y i = .ok (0, 0) := by
  rw [C40_contact_velocity p (by rw [hr]; norm_num) hd idx s q v hs hv o out e hc i hi dx dy hdx hdy
    x y hxy, hr]
  norm_num

/-- Every radius and speed of rotation has a state that meets the hypotheses of the theorems on
rolling: the base is at rest at the origin, its line is the x axis, the rolling body is above it. -/
theorem demo_rolling (r w : ℝ) (hr : r ≠ 0) : ∃ (p : Rolling ℝ) (s : SysState ℝ) (q v : Nat → ℝ)
    (o out : Output ℝ), p.radius = r ∧ p.dx ^ 2 + p.dy ^ 2 = 1 ∧ s.Reach ∧
    Carries s (fun b => .ok b) 2 q v ∧ (v 0 = 0 ∧ v 1 = 0 ∧ v 2 = 0) ∧ v 5 = w ∧
    (CKind.rolling p).calculate (fun b => .ok b) o s = .ok out ∧ VelocityCondition out 2 2 v ∧
    Real.cos (q 2) * p.dx - Real.sin (q 2) * p.dy = 1 ∧
    Real.sin (q 2) * p.dx + Real.cos (q 2) * p.dy = 0 ∧
    s.localToWorld 0 (-r) 1 = .ok (q 3 - p.radius * -0, q 4 - p.radius * 1) := by
  obtain ⟨s, hreach, hs⟩ := demo_carries (fun c => if c = 4 then r else 0)
    (fun c => if c = 5 then w else if c = 3 then -w / r else 0)
  let p : Rolling ℝ := ⟨0, 0, 1, 0, r, 0, 0⟩
  have hs2 := hs 2 (by decide)
  obtain ⟨out, e, h⟩ := (CKind.rolling p).calculate_has rfl hs2 ⟨fun _ => 0, fun _ _ => 0,
    fun _ _ => 0, fun _ => 0, fun _ _ => 0, fun _ => 0, fun _ => 0⟩
  refine ⟨p, s, _, _, _, out, rfl, by norm_num [p], hreach, hs2, by simp, by simp, e, ?_, by simp [p],
    by simp [p], ?_⟩
  · intro k hk
    interval_cases k
    · have : ∑ c ∈ range (3 * 2), out.J 0 c *
          (if c = 5 then w else if c = 3 then -w / r else 0) =
          ∑ c ∈ range 6, (CKind.rolling p).jT (fun c => if c = 4 then r else 0) 0 c *
            (if c = 5 then w else if c = 3 then -w / r else 0) :=
        sum_congr rfl fun c hc => by rw [h.J 0 c (by decide) (mem_range.mp hc)]
      rw [this, h.bias 0 (by decide)]
      simp [sum_range_succ, CKind.jT, CKind.biasT, p, rx]
      field_simp
      ring
    · have : ∑ c ∈ range (3 * 2), out.J 1 c *
          (if c = 5 then w else if c = 3 then -w / r else 0) =
          ∑ c ∈ range 6, (CKind.rolling p).jT (fun c => if c = 4 then r else 0) 1 c *
            (if c = 5 then w else if c = 3 then -w / r else 0) :=
        sum_congr rfl fun c hc => by rw [h.J 1 c (by decide) (mem_range.mp hc)]
      rw [this, h.bias 1 (by decide)]
      simp [sum_range_succ, CKind.jT, CKind.biasT, p, rx, ry]
  · obtain ⟨j, hj, h1, h2, h3, _⟩ := hs2 1 (by decide)
    cases hj
    have h1' : s.rd .p_x 1 = .ok 0 := by simpa using h1
    have h2' : s.rd .p_y 1 = .ok r := by simpa using h2
    have h3' : s.rd .theta 1 = .ok 0 := by simpa using h3
    simp only [SysState.localToWorld, h1', h2', h3', ok_bind, Fp.cos, Fp.sin, p]
    refine congrArg Except.ok (Prod.ext ?_ ?_) <;> simp

/-- **C40 refuted** for every radius other than 1 (and -1): there is a state in which the velocity
condition holds with the base at rest, and the contact point moves. -/
theorem C40_refuted (r : ℝ) (h0 : r ≠ 0) (h1 : r ^ 2 ≠ 1) :
    ∃ (p : Rolling ℝ) (s : SysState ℝ) (q v : Nat → ℝ) (o out : Output ℝ) (x y : ℝ) (u : ℝ × ℝ),
      p.radius = r ∧ p.dx ^ 2 + p.dy ^ 2 = 1 ∧ s.Reach ∧ Carries s (fun b => .ok b) 2 q v ∧
      (v 0 = 0 ∧ v 1 = 0 ∧ v 2 = 0) ∧ (CKind.rolling p).calculate (fun b => .ok b) o s = .ok out ∧
      VelocityCondition out 2 2 v ∧
      s.localToWorld x y 1 = .ok
        (q 3 - p.radius * -(Real.sin (q 2) * p.dx + Real.cos (q 2) * p.dy),
          q 4 - p.radius * (Real.cos (q 2) * p.dx - Real.sin (q 2) * p.dy)) ∧
      s.velocityAtPoint x y 1 = .ok u ∧ u ≠ (0, 0) := by
  obtain ⟨p, s, q, v, o, out, hp, hd, hr, hs, hv, hw, e, hc, hx, hy, hl⟩ := demo_rolling r 1 h0
  have hl' : s.localToWorld 0 (-r) 1 = .ok
      (q 3 - p.radius * -(Real.sin (q 2) * p.dx + Real.cos (q 2) * p.dy),
        q 4 - p.radius * (Real.cos (q 2) * p.dx - Real.sin (q 2) * p.dy)) := by rw [hx, hy]; exact hl
  refine ⟨p, s, q, v, o, out, 0, -r, _, hp, hd, hr, hs, hv, e, hc, hl',
    C40_contact_velocity p (by rw [hp]; exact h0) hd _ s q v hs hv o out e hc 1 rfl _ _ rfl rfl 0
      (-r) hl', ?_⟩
  intro h
  have := (Prod.ext_iff.mp h).1
  rw [hx, hw, hp] at this
  apply h1
  have h2 : r - 1 / r = 0 := by simpa using this
  field_simp at h2
  linarith

/-- The hypotheses of `C40_rolling_partial` and `C40_contact_velocity` are met by a rolling body. -/
example : ∃ (p : Rolling ℝ) (s : SysState ℝ) (q v : Nat → ℝ) (o out : Output ℝ), p.radius = 1 ∧
    p.dx ^ 2 + p.dy ^ 2 = 1 ∧ s.Reach ∧ Carries s (fun b => .ok b) 2 q v ∧
    (v 0 = 0 ∧ v 1 = 0 ∧ v 2 = 0) ∧ v 5 = 7 ∧
    (CKind.rolling p).calculate (fun b => .ok b) o s = .ok out ∧ VelocityCondition out 2 2 v := by
  obtain ⟨p, s, q, v, o, out, hp, hd, hr, hs, hv, hw, e, hc, _⟩ := demo_rolling 1 7 one_ne_zero
  exact ⟨p, s, q, v, o, out, hp, hd, hr, hs, hv, hw, e, hc⟩

/-! ## C41 -/

/-- **C41** (partial). The nine shipped constraints write all entries of their rows and bodies: the
outcome for two different previous contents of the output is the same error or two outputs that
agree on these entries. Any arithmetic, any state. Missing: the base class `Constraint` itself, for
which the claim is false, see `C41_base_refuted`. -/
theorem C41_all_entries_written_partial {α : Type} [Zero α] [Add α] [Mul α] [Sub α] [Neg α] [Fp α]
    (k : CKind α) {rows nb : Nat} (hk : k.counts = some (rows, nb)) (idx : Nat → Exec Int)
    (s : SysState α) (o o' : Output α) :
    SameOutcome rows nb (k.calculate idx o s) (k.calculate idx o' s) := by
  cases k with
  | base => cases hk
  | custom f => cases hk
  | fixedPosition p => cases hk; exact p.calculate_agree idx s o o'
  | fixedRotation p => cases hk; exact p.calculate_agree idx s o o'
  | line p => cases hk; exact p.calculate_agree idx s o o'
  | link p => cases hk; exact p.calculate_agree idx s o o'
  | rolling p => cases hk; exact p.calculate_agree idx s o o'
  | constantRotation p => cases hk; exact p.calculate_agree idx s o o'
  | clutch p => cases hk; exact p.calculate_agree idx s o o'
  | rotationFriction p => cases hk; exact p.calculate_agree idx s o o'
  | simpleGear p => cases hk; exact p.calculate_agree idx s o o'

/-- The claim applied to the clutch in a state where `calculate` succeeds: the entries are the same
whatever the output held. -/
example (q v : Nat → ℝ) (r : Clutch ℝ) (o o' : Output ℝ) : ∃ s out out', s.Reach ∧
    (CKind.clutch r).calculate (fun b => .ok b) o s = .ok out ∧
    (CKind.clutch r).calculate (fun b => .ok b) o' s = .ok out' ∧
    SameOutcome 1 2 (.ok out) (.ok out') := by
  obtain ⟨s, hr, hc⟩ := demo_carries q v
  obtain ⟨out, e, _⟩ := (CKind.clutch r).calculate_has rfl (hc 2 le_rfl) o
  obtain ⟨out', e', _⟩ := (CKind.clutch r).calculate_has rfl (hc 2 le_rfl) o'
  have := C41_all_entries_written_partial (CKind.clutch r) rfl (fun b => .ok b) s o o'
  rw [e, e'] at this
  exact ⟨s, out, out', hr, e, e', this⟩

/-- **C41 refuted** for the class `Constraint` itself, which is not abstract: `calculate` succeeds
and leaves in every entry what was there. -/
theorem C41_base_refuted {α : Type} [Zero α] [Add α] [Mul α] [Sub α] [Neg α] [Fp α]
    (idx : Nat → Exec Int) (s : SysState α) (o : Output α) :
    (CKind.base : CKind α).calculate idx o s = .ok o := rfl

/-! ## C63 -/

/-- **C63.** The fixed position constraint reports `C = 0` exactly if the attached point of the body
is at the world position. -/
theorem C63_fixed_position (p : FixedPosition ℝ) (idx : Nat → Exec Int) (s : SysState ℝ)
    (q v : Nat → ℝ) (hs : Carries s idx 1 q v) (o : Output ℝ) :
    ∃ out i w, (CKind.fixedPosition p).calculate idx o s = .ok out ∧ idx 0 = .ok i ∧
      s.localToWorld p.local_x p.local_y i = .ok w ∧
      ((out.C 0 = 0 ∧ out.C 1 = 0) ↔ w = (p.world_x, p.world_y)) := by
  obtain ⟨out, e, h⟩ := (CKind.fixedPosition p).calculate_has rfl hs o
  obtain ⟨i, hi, h1, h2, h3, _⟩ := hs 0 (by decide)
  refine ⟨out, i, _, e, hi, by simp only [SysState.localToWorld, h1, h2, h3, ok_bind]; rfl, ?_⟩
  rw [h.C 0 (by decide), h.C 1 (by decide)]
  simp only [CKind.cT, rx, ry, Prod.mk.injEq, Fp.cos, Fp.sin]
  refine and_congr ⟨fun H => ?_, fun H => ?_⟩ ⟨fun H => ?_, fun H => ?_⟩ <;> linarith

/-- The claim applied to a body at (3, 4), unturned, whose point (1, 0) is held at (4, 4): no error. -/
example (o : Output ℝ) : ∃ s out, SysState.Reach s ∧
    (CKind.fixedPosition ⟨1, 0, 4, 4, 10, 1⟩).calculate (fun b => .ok b) o s = .ok out ∧
    out.C 0 = 0 ∧ out.C 1 = 0 := by
  obtain ⟨s, hr, hc⟩ := demo_carries (fun j => if j = 0 then 3 else if j = 1 then 4 else 0) fun _ => 5
  obtain ⟨out, i, p, e, hi, hp, hiff⟩ := C63_fixed_position ⟨1, 0, 4, 4, 10, 1⟩ (fun b => .ok b) s _ _
    (hc 1 (by decide)) o
  obtain ⟨i', hi', h1, h2, h3, _⟩ := hc 1 (by decide) 0 (by decide)
  cases hi.symm.trans hi'
  refine ⟨s, out, hr, e, hiff.mpr ?_⟩
  simp only [SysState.localToWorld, h1, h2, h3, ok_bind, Fp.cos, Fp.sin] at hp
  cases hp
  norm_num

/-- **C63.** The fixed rotation constraint reports `C = 0` exactly if the angle of the body is the
requested one. -/
theorem C63_fixed_rotation (p : FixedRotation ℝ) (idx : Nat → Exec Int) (s : SysState ℝ)
    (q v : Nat → ℝ) (hs : Carries s idx 1 q v) (o : Output ℝ) :
    ∃ out i, (CKind.fixedRotation p).calculate idx o s = .ok out ∧ idx 0 = .ok i ∧
      (out.C 0 = 0 ↔ s.rd .theta i = .ok p.rotation) := by
  obtain ⟨out, e, h⟩ := (CKind.fixedRotation p).calculate_has rfl hs o
  obtain ⟨i, hi, _, _, h3, _⟩ := hs 0 (by decide)
  refine ⟨out, i, e, hi, ?_⟩
  rw [h.C 0 (by decide), h3]
  simp only [CKind.cT, Except.ok.injEq]
  exact sub_eq_zero

/-- The claim applied to a body at the angle 2 which is held at the angle 3: an error. -/
example (o : Output ℝ) : ∃ s out, SysState.Reach s ∧
    (CKind.fixedRotation ⟨3, 10, 1⟩).calculate (fun b => .ok b) o s = .ok out ∧ out.C 0 ≠ 0 := by
  obtain ⟨s, hr, hc⟩ := demo_carries (fun _ => 2) fun _ => 5
  obtain ⟨out, i, e, hi, hiff⟩ := C63_fixed_rotation ⟨3, 10, 1⟩ (fun b => .ok b) s _ _
    (hc 1 (by decide)) o
  obtain ⟨i', hi', h1, h2, h3, _⟩ := hc 1 (by decide) 0 (by decide)
  cases hi.symm.trans hi'
  refine ⟨s, out, hr, e, fun hz => ?_⟩
  have := hiff.mp hz
  rw [h3] at this
  simp only [Except.ok.injEq] at this
  norm_num at this

/-- **C63.** The line constraint reports `C = 0` exactly if the attached point lies on the line
through `p0` with direction `(dx, dy)`. -/
theorem C63_line (p : Line ℝ) (hd : p.dx ≠ 0 ∨ p.dy ≠ 0) (idx : Nat → Exec Int) (s : SysState ℝ)
    (q v : Nat → ℝ) (hs : Carries s idx 1 q v) (o : Output ℝ) :
    ∃ out i w, (CKind.line p).calculate idx o s = .ok out ∧ idx 0 = .ok i ∧
      s.localToWorld p.local_x p.local_y i = .ok w ∧
      (out.C 0 = 0 ↔ ∃ a : ℝ, w = (p.p0_x + a * p.dx, p.p0_y + a * p.dy)) := by
  obtain ⟨out, e, h⟩ := (CKind.line p).calculate_has rfl hs o
  obtain ⟨i, hi, h1, h2, h3, _⟩ := hs 0 (by decide)
  refine ⟨out, i, (q 0 + rx (q 2) p.local_x p.local_y, q 1 + ry (q 2) p.local_x p.local_y), e, hi, ?_, ?_⟩
  · simp only [SysState.localToWorld, h1, h2, h3, ok_bind, Fp.cos, Fp.sin, rx, ry]
    exact congrArg Except.ok (Prod.ext (by ring) (by ring))
  rw [h.C 0 (by decide)]
  simp only [CKind.cT, Prod.mk.injEq]
  generalize q 0 + rx (q 2) p.local_x p.local_y = X
  generalize q 1 + ry (q 2) p.local_x p.local_y = Y
  constructor
  · intro H
    rcases hd with hd | hd
    · exact ⟨(X - p.p0_x) / p.dx, by field_simp; ring, by field_simp; linear_combination H⟩
    · exact ⟨(Y - p.p0_y) / p.dy, by field_simp; linear_combination -H, by field_simp; ring⟩
  · rintro ⟨a, rfl, rfl⟩
    ring

/-- The claim applied to a body at (3, 4), unturned, and the line through (1, 2) with the direction
(1, 1): the centre lies on it. -/
example (o : Output ℝ) : ∃ s out, SysState.Reach s ∧
    (CKind.line ⟨0, 0, 1, 2, 1, 1, 10, 1⟩).calculate (fun b => .ok b) o s = .ok out ∧ out.C 0 = 0 := by
  obtain ⟨s, hr, hc⟩ := demo_carries (fun j => if j = 0 then 3 else if j = 1 then 4 else 0) fun _ => 5
  obtain ⟨out, i, p, e, hi, hp, hiff⟩ := C63_line ⟨0, 0, 1, 2, 1, 1, 10, 1⟩ (.inl one_ne_zero)
    (fun b => .ok b) s _ _ (hc 1 (by decide)) o
  obtain ⟨i', hi', h1, h2, h3, _⟩ := hc 1 (by decide) 0 (by decide)
  cases hi.symm.trans hi'
  refine ⟨s, out, hr, e, hiff.mpr ⟨2, ?_⟩⟩
  simp only [SysState.localToWorld, h1, h2, h3, ok_bind, Fp.cos, Fp.sin] at hp
  cases hp
  norm_num

/-- **C63.** The link constraint reports `C = 0` exactly if the two attached points coincide. -/
theorem C63_link (p : Link ℝ) (idx : Nat → Exec Int) (s : SysState ℝ)
    (q v : Nat → ℝ) (hs : Carries s idx 2 q v) (o : Output ℝ) :
    ∃ out i j w w', (CKind.link p).calculate idx o s = .ok out ∧ idx 0 = .ok i ∧ idx 1 = .ok j ∧
      s.localToWorld p.local_x_1 p.local_y_1 i = .ok w ∧
      s.localToWorld p.local_x_2 p.local_y_2 j = .ok w' ∧
      ((out.C 0 = 0 ∧ out.C 1 = 0) ↔ w = w') := by
  obtain ⟨out, e, h⟩ := (CKind.link p).calculate_has rfl hs o
  obtain ⟨i, hi, h1, h2, h3, _⟩ := hs 0 (by decide)
  obtain ⟨j, hj, h1', h2', h3', _⟩ := hs 1 (by decide)
  refine ⟨out, i, j, _, _, e, hi, hj, by simp only [SysState.localToWorld, h1, h2, h3, ok_bind]; rfl,
    by simp only [SysState.localToWorld, h1', h2', h3', ok_bind]; rfl, ?_⟩
  rw [h.C 0 (by decide), h.C 1 (by decide)]
  simp only [CKind.cT, rx, ry, Prod.mk.injEq, Fp.cos, Fp.sin, Nat.mul_zero, Nat.mul_one]
  refine and_congr ⟨fun H => ?_, fun H => ?_⟩ ⟨fun H => ?_, fun H => ?_⟩ <;> linarith

/-- The claim applied to two bodies at the same place and angle, linked at (1, 0) and (0, 0): an
error. -/
example (o : Output ℝ) : ∃ s out, SysState.Reach s ∧
    (CKind.link ⟨1, 0, 0, 0, 7, 10, 1⟩).calculate (fun b => .ok b) o s = .ok out ∧
    ¬(out.C 0 = 0 ∧ out.C 1 = 0) := by
  obtain ⟨s, hr, hc⟩ := demo_carries (fun _ => 0) fun _ => 5
  obtain ⟨out, i, j, p, p', e, hi, hj, hp, hp', hiff⟩ := C63_link ⟨1, 0, 0, 0, 7, 10, 1⟩
    (fun b => .ok b) s _ _ (hc 2 le_rfl) o
  obtain ⟨i', hi', h1, h2, h3, _⟩ := hc 2 le_rfl 0 (by decide)
  obtain ⟨j', hj', k1, k2, k3, _⟩ := hc 2 le_rfl 1 (by decide)
  cases hi.symm.trans hi'
  cases hj.symm.trans hj'
  refine ⟨s, out, hr, e, fun hz => ?_⟩
  have := hiff.mp hz
  simp only [SysState.localToWorld, h1, h2, h3, k1, k2, k3, ok_bind, Fp.cos, Fp.sin] at hp hp'
  cases hp
  cases hp'
  norm_num at this

/-- **C63.** The second row of the rolling constraint (line with a unit direction) reports `C = 0`
exactly if the centre of the rolling body is at the distance `radius` to the left of the line, that
is, if it is a point of the line plus `radius` times the normal. -/
theorem C63_rolling (p : Rolling ℝ) (hd : p.dx ^ 2 + p.dy ^ 2 = 1) (idx : Nat → Exec Int)
    (s : SysState ℝ) (q v : Nat → ℝ) (hs : Carries s idx 2 q v) (o : Output ℝ) :
    ∃ (out : Output ℝ) (i : Int) (w d : ℝ × ℝ), (CKind.rolling p).calculate idx o s = .ok out ∧ idx 0 = .ok i ∧
      s.localToWorld p.local_x p.local_y i = .ok w ∧
      s.localToWorld (p.local_x + p.dx) (p.local_y + p.dy) i = .ok (w.1 + d.1, w.2 + d.2) ∧
      (out.C 1 = 0 ↔ ∃ a : ℝ, q 3 = w.1 + a * d.1 - p.radius * d.2 ∧
        q 4 = w.2 + a * d.2 + p.radius * d.1) := by
  obtain ⟨out, e, h⟩ := (CKind.rolling p).calculate_has rfl hs o
  obtain ⟨i, hi, h1, h2, h3, _⟩ := hs 0 (by decide)
  have tr := Real.sin_sq_add_cos_sq (q 2)
  refine ⟨out, i, (q 0 + rx (q 2) p.local_x p.local_y, q 1 + ry (q 2) p.local_x p.local_y),
    (rx (q 2) p.dx p.dy, ry (q 2) p.dx p.dy), e, hi, ?_, ?_, ?_⟩
  · simp only [SysState.localToWorld, h1, h2, h3, ok_bind, Fp.cos, Fp.sin, rx, ry]
    exact congrArg Except.ok (Prod.ext (by ring) (by ring))
  · simp only [SysState.localToWorld, h1, h2, h3, ok_bind, Fp.cos, Fp.sin, rx, ry]
    exact congrArg Except.ok (Prod.ext (by ring) (by ring))
  rw [h.C 1 (by decide)]
  have unit : rx (q 2) p.dx p.dy ^ 2 + ry (q 2) p.dx p.dy ^ 2 = 1 := by
    simp only [rx, ry]
    linear_combination (p.dx ^ 2 + p.dy ^ 2) * tr + hd
  simp only [CKind.cT]
  generalize rx (q 2) p.local_x p.local_y = lx at *
  generalize ry (q 2) p.local_x p.local_y = ly at *
  generalize rx (q 2) p.dx p.dy = dx at *
  generalize ry (q 2) p.dx p.dy = dy at *
  constructor
  · intro H
    refine ⟨(q 3 - q 0 - lx) * dx + (q 4 - q 1 - ly) * dy, ?_, ?_⟩
    · linear_combination -(q 3 - q 0 - lx) * unit + dy * H
    · linear_combination -(q 4 - q 1 - ly) * unit - dx * H
  · rintro ⟨a, h3, h4⟩
    rw [h3, h4]
    linear_combination -p.radius * unit

/-- The claim applied to a body of radius 2 at (5, 2) and the x axis of an unturned body at the origin:
it touches the line. -/
example (o : Output ℝ) : ∃ s out, SysState.Reach s ∧
    (CKind.rolling ⟨0, 0, 1, 0, 2, 10, 1⟩).calculate (fun b => .ok b) o s = .ok out ∧ out.C 1 = 0 := by
  obtain ⟨s, hr, hc⟩ := demo_carries (fun j => if j = 3 then 5 else if j = 4 then 2 else 0) fun _ => 5
  obtain ⟨out, i, p, d, e, hi, hp, hd, hiff⟩ := C63_rolling ⟨0, 0, 1, 0, 2, 10, 1⟩ (by norm_num)
    (fun b => .ok b) s _ _ (hc 2 le_rfl) o
  obtain ⟨i', hi', h1, h2, h3, _⟩ := hc 2 le_rfl 0 (by decide)
  cases hi.symm.trans hi'
  refine ⟨s, out, hr, e, hiff.mpr ⟨5, ?_⟩⟩
  simp only [SysState.localToWorld, h1, h2, h3, ok_bind, Fp.cos, Fp.sin] at hp hd
  cases hp
  have d1 := congrArg Prod.fst (Except.ok.inj hd)
  have d2 := congrArg Prod.snd (Except.ok.inj hd)
  norm_num at d1 d2
  rw [← d1, ← d2]
  norm_num

end Scs
