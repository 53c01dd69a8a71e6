import Verif.Constraint
import Verif.Real
import Mathlib.Tactic.IntervalCases
import Mathlib.Tactic.Ring
import Mathlib.Analysis.SpecialFunctions.Trigonometric.Deriv

/-!
# What the shipped constraints compute, over the reals
-/

namespace Scs

/-- First coordinate of the vector `(a, b)` turned by `θ`. -/
noncomputable def rx (θ a b : ℝ) : ℝ := Real.cos θ * a - Real.sin θ * b

/-- Second coordinate of the vector `(a, b)` turned by `θ`. -/
noncomputable def ry (θ a b : ℝ) : ℝ := Real.sin θ * a + Real.cos θ * b

/-- The state holds the coordinates `q` (x, y, angle of the first body, then of the second) and the
velocities `v` of the `nb` bodies of a constraint whose body indices are `idx`. -/
def Carries {α : Type} (s : SysState α) (idx : Nat → Exec Int) (nb : Nat) (q v : Nat → α) : Prop :=
  ∀ b, b < nb → ∃ i : Int, idx b = .ok i ∧
    s.rd .p_x i = .ok (q (3 * b)) ∧ s.rd .p_y i = .ok (q (3 * b + 1)) ∧
    s.rd .theta i = .ok (q (3 * b + 2)) ∧
    s.rd .v_x i = .ok (v (3 * b)) ∧ s.rd .v_y i = .ok (v (3 * b + 1)) ∧
    s.rd .v_theta i = .ok (v (3 * b + 2))

/-- Constraint values by row. -/
noncomputable def CKind.cT (k : CKind ℝ) (q : Nat → ℝ) (r : Nat) : ℝ :=
  match k, r with
  | .fixedPosition p, 0 => q 0 + rx (q 2) p.local_x p.local_y - p.world_x
  | .fixedPosition p, 1 => q 1 + ry (q 2) p.local_x p.local_y - p.world_y
  | .fixedRotation p, 0 => q 2 - p.rotation
  | .line p, 0 => (q 1 + ry (q 2) p.local_x p.local_y - p.p0_y) * p.dx
      - (q 0 + rx (q 2) p.local_x p.local_y - p.p0_x) * p.dy
  | .link p, 0 => q 0 + rx (q 2) p.local_x_1 p.local_y_1 - (q 3 + rx (q 5) p.local_x_2 p.local_y_2)
  | .link p, 1 => q 1 + ry (q 2) p.local_x_1 p.local_y_1 - (q 4 + ry (q 5) p.local_x_2 p.local_y_2)
  | .rolling p, 0 => -q 5 - p.radius *
      ((q 3 - q 0 - rx (q 2) p.local_x p.local_y) * rx (q 2) p.dx p.dy
        + (q 4 - q 1 - ry (q 2) p.local_x p.local_y) * ry (q 2) p.dx p.dy)
  | .rolling p, 1 => p.radius
      + (q 3 - q 0 - rx (q 2) p.local_x p.local_y) * ry (q 2) p.dx p.dy
      - (q 4 - q 1 - ry (q 2) p.local_x p.local_y) * rx (q 2) p.dx p.dy
  | _, _ => 0

/-- Jacobian by row and column. -/
noncomputable def CKind.jT (k : CKind ℝ) (q : Nat → ℝ) (r c : Nat) : ℝ :=
  match k, r, c with
  | .fixedPosition _, 0, 0 => 1
  | .fixedPosition p, 0, 2 => -ry (q 2) p.local_x p.local_y
  | .fixedPosition _, 1, 1 => 1
  | .fixedPosition p, 1, 2 => rx (q 2) p.local_x p.local_y
  | .fixedRotation _, 0, 2 => 1
  | .line p, 0, 0 => -p.dy
  | .line p, 0, 1 => p.dx
  | .line p, 0, 2 => ry (q 2) p.local_x p.local_y * p.dy + rx (q 2) p.local_x p.local_y * p.dx
  | .link _, 0, 0 => 1
  | .link p, 0, 2 => -ry (q 2) p.local_x_1 p.local_y_1
  | .link _, 0, 3 => -1
  | .link p, 0, 5 => ry (q 5) p.local_x_2 p.local_y_2
  | .link _, 1, 1 => 1
  | .link p, 1, 2 => rx (q 2) p.local_x_1 p.local_y_1
  | .link _, 1, 4 => -1
  | .link p, 1, 5 => -rx (q 5) p.local_x_2 p.local_y_2
  | .rolling p, 0, 0 => p.radius * rx (q 2) p.dx p.dy
  | .rolling p, 0, 1 => p.radius * ry (q 2) p.dx p.dy
  | .rolling p, 0, 2 => -p.radius *
      (ry (q 2) p.local_x p.local_y * rx (q 2) p.dx p.dy
        - rx (q 2) p.local_x p.local_y * ry (q 2) p.dx p.dy
        - (q 3 - q 0 - rx (q 2) p.local_x p.local_y) * ry (q 2) p.dx p.dy
        + (q 4 - q 1 - ry (q 2) p.local_x p.local_y) * rx (q 2) p.dx p.dy)
  | .rolling p, 0, 3 => -(p.radius * rx (q 2) p.dx p.dy)
  | .rolling p, 0, 4 => -(p.radius * ry (q 2) p.dx p.dy)
  | .rolling _, 0, 5 => -1
  | .rolling p, 1, 0 => -ry (q 2) p.dx p.dy
  | .rolling p, 1, 1 => rx (q 2) p.dx p.dy
  | .rolling p, 1, 2 => rx (q 2) p.dx p.dy * (q 3 - q 0 - rx (q 2) p.local_x p.local_y)
      + ry (q 2) p.dx p.dy * (q 4 - q 1 - ry (q 2) p.local_x p.local_y)
      + ry (q 2) p.dx p.dy * ry (q 2) p.local_x p.local_y
      + rx (q 2) p.dx p.dy * rx (q 2) p.local_x p.local_y
  | .rolling p, 1, 3 => ry (q 2) p.dx p.dy
  | .rolling p, 1, 4 => -rx (q 2) p.dx p.dy
  | .constantRotation _, 0, 2 => 1
  | .clutch _, 0, 2 => -1
  | .clutch _, 0, 5 => 1
  | .rotationFriction _, 0, 2 => 1
  | .simpleGear _, 0, 2 => 1
  | .simpleGear p, 0, 5 => -p.ratio
  | _, _, _ => 0

/-- Time derivative of the Jacobian by row and column. -/
noncomputable def CKind.jdT (k : CKind ℝ) (q v : Nat → ℝ) (r c : Nat) : ℝ :=
  match k, r, c with
  | .fixedPosition p, 0, 2 => -(rx (q 2) p.local_x p.local_y * v 2)
  | .fixedPosition p, 1, 2 => -(ry (q 2) p.local_x p.local_y * v 2)
  | .line p, 0, 2 =>
      (rx (q 2) p.local_x p.local_y * p.dy - ry (q 2) p.local_x p.local_y * p.dx) * v 2
  | .link p, 0, 2 => -(rx (q 2) p.local_x_1 p.local_y_1 * v 2)
  | .link p, 0, 5 => rx (q 5) p.local_x_2 p.local_y_2 * v 5
  | .link p, 1, 2 => -(ry (q 2) p.local_x_1 p.local_y_1 * v 2)
  | .link p, 1, 5 => ry (q 5) p.local_x_2 p.local_y_2 * v 5
  | .rolling p, 0, 0 => -(p.radius * ry (q 2) p.dx p.dy * v 2)
  | .rolling p, 0, 1 => p.radius * rx (q 2) p.dx p.dy * v 2
  | .rolling p, 0, 2 => -p.radius *
      (-((v 3 - v 0 + ry (q 2) p.local_x p.local_y * v 2) * ry (q 2) p.dx p.dy)
        - (q 3 - q 0 - rx (q 2) p.local_x p.local_y) * (rx (q 2) p.dx p.dy * v 2)
        + (v 4 - v 1 - rx (q 2) p.local_x p.local_y * v 2) * rx (q 2) p.dx p.dy
        - (q 4 - q 1 - ry (q 2) p.local_x p.local_y) * (ry (q 2) p.dx p.dy * v 2))
  | .rolling p, 0, 3 => p.radius * ry (q 2) p.dx p.dy * v 2
  | .rolling p, 0, 4 => -(p.radius * rx (q 2) p.dx p.dy * v 2)
  | .rolling p, 1, 0 => -(rx (q 2) p.dx p.dy * v 2)
  | .rolling p, 1, 1 => -(ry (q 2) p.dx p.dy * v 2)
  | .rolling p, 1, 2 =>
      -(ry (q 2) p.dx p.dy * v 2 * (q 3 - q 0 - rx (q 2) p.local_x p.local_y))
        + rx (q 2) p.dx p.dy * (v 3 - v 0 + ry (q 2) p.local_x p.local_y * v 2)
        + rx (q 2) p.dx p.dy * v 2 * (q 4 - q 1 - ry (q 2) p.local_x p.local_y)
        + ry (q 2) p.dx p.dy * (v 4 - v 1 - rx (q 2) p.local_x p.local_y * v 2)
  | .rolling p, 1, 3 => rx (q 2) p.dx p.dy * v 2
  | .rolling p, 1, 4 => ry (q 2) p.dx p.dy * v 2
  | _, _, _ => 0

/-- Velocity bias by row. -/
def CKind.biasT (k : CKind ℝ) : ℝ :=
  match k with
  | .constantRotation p => p.rotationSpeed
  | _ => 0

/-- Lower limit by row. -/
noncomputable def CKind.loT (k : CKind ℝ) : ℝ :=
  match k with
  | .link p => -p.maxForce
  | .constantRotation p => p.minTorque
  | .clutch p => p.minTorque
  | .rotationFriction p => p.minTorque
  | .simpleGear p => if p.neutral then 0 else -Fp.dblMax
  | _ => -Fp.dblMax

/-- Upper limit by row. -/
noncomputable def CKind.hiT (k : CKind ℝ) : ℝ :=
  match k with
  | .link p => p.maxForce
  | .constantRotation p => p.maxTorque
  | .clutch p => p.maxTorque
  | .rotationFriction p => p.maxTorque
  | .simpleGear p => if p.neutral then 0 else Fp.dblMax
  | _ => Fp.dblMax

/-- Stiffness by row. -/
def CKind.ksT (k : CKind ℝ) (r : Nat) : ℝ :=
  match k, r with
  | .fixedPosition p, _ => p.ks
  | .fixedRotation p, _ => p.ks
  | .line p, _ => p.ks
  | .link p, _ => p.ks
  | .rolling p, 1 => p.ks
  | .constantRotation p, _ => p.ks
  | .clutch p, _ => p.ks
  | .rotationFriction p, _ => p.ks
  | .simpleGear p, _ => p.ks
  | _, _ => 0

/-- Damping by row. -/
def CKind.kdT (k : CKind ℝ) (r : Nat) : ℝ :=
  match k, r with
  | .fixedPosition p, _ => p.kd
  | .fixedRotation p, _ => p.kd
  | .line p, _ => p.kd
  | .link p, _ => p.kd
  | .rolling p, 1 => p.kd
  | .constantRotation p, _ => p.kd
  | .clutch p, _ => p.kd
  | .rotationFriction p, _ => p.kd
  | .simpleGear p, _ => p.kd
  | _, _ => 0

/-- The entries of an output that belong to the rows and bodies of a constraint. -/
structure Output.Has (o : Output ℝ) (k : CKind ℝ) (rows nb : Nat) (q v : Nat → ℝ) : Prop where
  C : ∀ r, r < rows → o.C r = k.cT q r
  J : ∀ r c, r < rows → c < 3 * nb → o.J r c = k.jT q r c
  Jd : ∀ r c, r < rows → c < 3 * nb → o.J_dot r c = k.jdT q v r c
  bias : ∀ r, r < rows → o.v_bias r = k.biasT
  lo : ∀ r, r < rows → o.limits r 0 = k.loT
  hi : ∀ r, r < rows → o.limits r 1 = k.hiT
  ks : ∀ r, r < rows → o.ks r = k.ksT r
  kd : ∀ r, r < rows → o.kd r = k.kdT r

section
variable {α : Type}

@[simp] theorem Output.setC_C (o : Output α) (i : Nat) (v : α) (r : Nat) :
    (o.setC i v).C r = if r = i then v else o.C r := rfl
@[simp] theorem Output.setB_v_bias (o : Output α) (i : Nat) (v : α) (r : Nat) :
    (o.setB i v).v_bias r = if r = i then v else o.v_bias r := rfl
@[simp] theorem Output.setKs_ks (o : Output α) (i : Nat) (v : α) (r : Nat) :
    (o.setKs i v).ks r = if r = i then v else o.ks r := rfl
@[simp] theorem Output.setKd_kd (o : Output α) (i : Nat) (v : α) (r : Nat) :
    (o.setKd i v).kd r = if r = i then v else o.kd r := rfl
@[simp] theorem Output.setJ_J (o : Output α) (i j : Nat) (v : α) (r c : Nat) :
    (o.setJ i j v).J r c = if r = i ∧ c = j then v else o.J r c := by
  by_cases h : r = i <;> by_cases h' : c = j <;> simp [Output.setJ, upd, h, h']
@[simp] theorem Output.setJd_J_dot (o : Output α) (i j : Nat) (v : α) (r c : Nat) :
    (o.setJd i j v).J_dot r c = if r = i ∧ c = j then v else o.J_dot r c := by
  by_cases h : r = i <;> by_cases h' : c = j <;> simp [Output.setJd, upd, h, h']
@[simp] theorem Output.setL_limits (o : Output α) (i j : Nat) (v : α) (r c : Nat) :
    (o.setL i j v).limits r c = if r = i ∧ c = j then v else o.limits r c := by
  by_cases h : r = i <;> by_cases h' : c = j <;> simp [Output.setL, upd, h, h']

@[simp] theorem Output.setC_J (o : Output α) (i : Nat) (v : α) : (o.setC i v).J = o.J := rfl
@[simp] theorem Output.setC_J_dot (o : Output α) (i : Nat) (v : α) : (o.setC i v).J_dot = o.J_dot := rfl
@[simp] theorem Output.setC_v_bias (o : Output α) (i : Nat) (v : α) : (o.setC i v).v_bias = o.v_bias := rfl
@[simp] theorem Output.setC_limits (o : Output α) (i : Nat) (v : α) : (o.setC i v).limits = o.limits := rfl
@[simp] theorem Output.setC_ks (o : Output α) (i : Nat) (v : α) : (o.setC i v).ks = o.ks := rfl
@[simp] theorem Output.setC_kd (o : Output α) (i : Nat) (v : α) : (o.setC i v).kd = o.kd := rfl
@[simp] theorem Output.setB_C (o : Output α) (i : Nat) (v : α) : (o.setB i v).C = o.C := rfl
@[simp] theorem Output.setB_J (o : Output α) (i : Nat) (v : α) : (o.setB i v).J = o.J := rfl
@[simp] theorem Output.setB_J_dot (o : Output α) (i : Nat) (v : α) : (o.setB i v).J_dot = o.J_dot := rfl
@[simp] theorem Output.setB_limits (o : Output α) (i : Nat) (v : α) : (o.setB i v).limits = o.limits := rfl
@[simp] theorem Output.setB_ks (o : Output α) (i : Nat) (v : α) : (o.setB i v).ks = o.ks := rfl
@[simp] theorem Output.setB_kd (o : Output α) (i : Nat) (v : α) : (o.setB i v).kd = o.kd := rfl
@[simp] theorem Output.setKs_C (o : Output α) (i : Nat) (v : α) : (o.setKs i v).C = o.C := rfl
@[simp] theorem Output.setKs_J (o : Output α) (i : Nat) (v : α) : (o.setKs i v).J = o.J := rfl
@[simp] theorem Output.setKs_J_dot (o : Output α) (i : Nat) (v : α) : (o.setKs i v).J_dot = o.J_dot := rfl
@[simp] theorem Output.setKs_v_bias (o : Output α) (i : Nat) (v : α) : (o.setKs i v).v_bias = o.v_bias := rfl
@[simp] theorem Output.setKs_limits (o : Output α) (i : Nat) (v : α) : (o.setKs i v).limits = o.limits := rfl
@[simp] theorem Output.setKs_kd (o : Output α) (i : Nat) (v : α) : (o.setKs i v).kd = o.kd := rfl
@[simp] theorem Output.setKd_C (o : Output α) (i : Nat) (v : α) : (o.setKd i v).C = o.C := rfl
@[simp] theorem Output.setKd_J (o : Output α) (i : Nat) (v : α) : (o.setKd i v).J = o.J := rfl
@[simp] theorem Output.setKd_J_dot (o : Output α) (i : Nat) (v : α) : (o.setKd i v).J_dot = o.J_dot := rfl
@[simp] theorem Output.setKd_v_bias (o : Output α) (i : Nat) (v : α) : (o.setKd i v).v_bias = o.v_bias := rfl
@[simp] theorem Output.setKd_limits (o : Output α) (i : Nat) (v : α) : (o.setKd i v).limits = o.limits := rfl
@[simp] theorem Output.setKd_ks (o : Output α) (i : Nat) (v : α) : (o.setKd i v).ks = o.ks := rfl
@[simp] theorem Output.setJ_C (o : Output α) (i j : Nat) (v : α) : (o.setJ i j v).C = o.C := rfl
@[simp] theorem Output.setJ_J_dot (o : Output α) (i j : Nat) (v : α) : (o.setJ i j v).J_dot = o.J_dot := rfl
@[simp] theorem Output.setJ_v_bias (o : Output α) (i j : Nat) (v : α) : (o.setJ i j v).v_bias = o.v_bias := rfl
@[simp] theorem Output.setJ_limits (o : Output α) (i j : Nat) (v : α) : (o.setJ i j v).limits = o.limits := rfl
@[simp] theorem Output.setJ_ks (o : Output α) (i j : Nat) (v : α) : (o.setJ i j v).ks = o.ks := rfl
@[simp] theorem Output.setJ_kd (o : Output α) (i j : Nat) (v : α) : (o.setJ i j v).kd = o.kd := rfl
@[simp] theorem Output.setJd_C (o : Output α) (i j : Nat) (v : α) : (o.setJd i j v).C = o.C := rfl
@[simp] theorem Output.setJd_J (o : Output α) (i j : Nat) (v : α) : (o.setJd i j v).J = o.J := rfl
@[simp] theorem Output.setJd_v_bias (o : Output α) (i j : Nat) (v : α) : (o.setJd i j v).v_bias = o.v_bias := rfl
@[simp] theorem Output.setJd_limits (o : Output α) (i j : Nat) (v : α) : (o.setJd i j v).limits = o.limits := rfl
@[simp] theorem Output.setJd_ks (o : Output α) (i j : Nat) (v : α) : (o.setJd i j v).ks = o.ks := rfl
@[simp] theorem Output.setJd_kd (o : Output α) (i j : Nat) (v : α) : (o.setJd i j v).kd = o.kd := rfl
@[simp] theorem Output.setL_C (o : Output α) (i j : Nat) (v : α) : (o.setL i j v).C = o.C := rfl
@[simp] theorem Output.setL_J (o : Output α) (i j : Nat) (v : α) : (o.setL i j v).J = o.J := rfl
@[simp] theorem Output.setL_J_dot (o : Output α) (i j : Nat) (v : α) : (o.setL i j v).J_dot = o.J_dot := rfl
@[simp] theorem Output.setL_v_bias (o : Output α) (i j : Nat) (v : α) : (o.setL i j v).v_bias = o.v_bias := rfl
@[simp] theorem Output.setL_ks (o : Output α) (i j : Nat) (v : α) : (o.setL i j v).ks = o.ks := rfl
@[simp] theorem Output.setL_kd (o : Output α) (i j : Nat) (v : α) : (o.setL i j v).kd = o.kd := rfl

end

section
variable {α : Type} [Zero α] [Add α] [Mul α] [Sub α] [Neg α] [Fp α]

@[simp] theorem Output.noLimits_C (o : Output α) : o.noLimits.C = o.C := rfl
@[simp] theorem Output.noLimits_J (o : Output α) : o.noLimits.J = o.J := rfl
@[simp] theorem Output.noLimits_J_dot (o : Output α) : o.noLimits.J_dot = o.J_dot := rfl
@[simp] theorem Output.noLimits_v_bias (o : Output α) : o.noLimits.v_bias = o.v_bias := rfl
@[simp] theorem Output.noLimits_ks (o : Output α) : o.noLimits.ks = o.ks := rfl
@[simp] theorem Output.noLimits_kd (o : Output α) : o.noLimits.kd = o.kd := rfl
theorem Output.noLimits_lo (o : Output α) {r : Nat} (h : r < 3) : o.noLimits.limits r 0 = -Fp.dblMax := by
  interval_cases r <;> rfl
theorem Output.noLimits_hi (o : Output α) {r : Nat} (h : r < 3) : o.noLimits.limits r 1 = Fp.dblMax := by
  interval_cases r <;> rfl

end

/-- Reads off the entries written by a `calculate` function. -/
macro "entries" : tactic => `(tactic| (
  refine ⟨?_, ?_, ?_, ?_, ?_, ?_, ?_, ?_⟩
  · intro r hr
    interval_cases r <;> simp [CKind.cT, rx, ry, Fp.cos, Fp.sin, fp_lit] <;> ring
  · intro r c hr hc
    interval_cases r <;> interval_cases c <;> simp [CKind.jT, rx, ry, Fp.cos, Fp.sin, fp_lit] <;> ring
  · intro r c hr hc
    interval_cases r <;> interval_cases c <;> simp [CKind.jdT, rx, ry, Fp.cos, Fp.sin, fp_lit] <;> ring
  · intro r hr
    interval_cases r <;> simp [CKind.biasT, fp_lit]
  · intro r hr
    interval_cases r <;> simp [CKind.loT, Output.noLimits_lo, fp_lit]
  · intro r hr
    interval_cases r <;> simp [CKind.hiT, Output.noLimits_hi, fp_lit]
  · intro r hr
    interval_cases r <;> simp [CKind.ksT, fp_lit]
  · intro r hr
    interval_cases r <;> simp [CKind.kdT, fp_lit]))

theorem FixedPosition.calculate_has (p : FixedPosition ℝ) {idx : Nat → Exec Int} {s : SysState ℝ}
    {q v : Nat → ℝ} (hs : Carries s idx 1 q v) (o : Output ℝ) :
    ∃ out, (CKind.fixedPosition p).calculate idx o s = .ok out ∧ out.Has (.fixedPosition p) 2 1 q v := by
  obtain ⟨i, hi, h1, h2, h3, h4, h5, h6⟩ := hs 0 (by decide)
  simp only [CKind.calculate, FixedPosition.calculate, hi, h1, h2, h3, h6, ok_bind]
  refine ⟨_, rfl, ?_⟩
  entries

theorem FixedRotation.calculate_has (p : FixedRotation ℝ) {idx : Nat → Exec Int} {s : SysState ℝ}
    {q v : Nat → ℝ} (hs : Carries s idx 1 q v) (o : Output ℝ) :
    ∃ out, (CKind.fixedRotation p).calculate idx o s = .ok out ∧ out.Has (.fixedRotation p) 1 1 q v := by
  obtain ⟨i, hi, h1, h2, h3, h4, h5, h6⟩ := hs 0 (by decide)
  simp only [CKind.calculate, FixedRotation.calculate, hi, h3, ok_bind]
  refine ⟨_, rfl, ?_⟩
  entries

theorem Line.calculate_has (p : Line ℝ) {idx : Nat → Exec Int} {s : SysState ℝ}
    {q v : Nat → ℝ} (hs : Carries s idx 1 q v) (o : Output ℝ) :
    ∃ out, (CKind.line p).calculate idx o s = .ok out ∧ out.Has (.line p) 1 1 q v := by
  obtain ⟨i, hi, h1, h2, h3, h4, h5, h6⟩ := hs 0 (by decide)
  simp only [CKind.calculate, Line.calculate, hi, h1, h2, h3, h6, ok_bind]
  refine ⟨_, rfl, ?_⟩
  entries

set_option maxHeartbeats 1000000 in
theorem Link.calculate_has (p : Link ℝ) {idx : Nat → Exec Int} {s : SysState ℝ}
    {q v : Nat → ℝ} (hs : Carries s idx 2 q v) (o : Output ℝ) :
    ∃ out, (CKind.link p).calculate idx o s = .ok out ∧ out.Has (.link p) 2 2 q v := by
  obtain ⟨i, hi, h1, h2, h3, h4, h5, h6⟩ := hs 0 (by decide)
  obtain ⟨i', hi', h1', h2', h3', h4', h5', h6'⟩ := hs 1 (by decide)
  simp only [CKind.calculate, Link.calculate, hi, h1, h2, h3, h6, hi', h1', h2', h3', h6', ok_bind]
  refine ⟨_, rfl, ?_⟩
  entries

set_option maxHeartbeats 1000000 in
theorem Rolling.calculate_has (p : Rolling ℝ) {idx : Nat → Exec Int} {s : SysState ℝ}
    {q v : Nat → ℝ} (hs : Carries s idx 2 q v) (o : Output ℝ) :
    ∃ out, (CKind.rolling p).calculate idx o s = .ok out ∧ out.Has (.rolling p) 2 2 q v := by
  obtain ⟨i, hi, h1, h2, h3, h4, h5, h6⟩ := hs 0 (by decide)
  obtain ⟨i', hi', h1', h2', h3', h4', h5', h6'⟩ := hs 1 (by decide)
  simp only [CKind.calculate, Rolling.calculate, hi, h1, h2, h3, h4, h5, h6, hi', h1', h2', h3',
    h4', h5', ok_bind]
  refine ⟨_, rfl, ?_⟩
  entries

theorem ConstantRotation.calculate_has (p : ConstantRotation ℝ) {idx : Nat → Exec Int} {s : SysState ℝ}
    {q v : Nat → ℝ} (o : Output ℝ) :
    ∃ out, (CKind.constantRotation p).calculate idx o s = .ok out ∧ out.Has (.constantRotation p) 1 1 q v := by
  refine ⟨_, rfl, ?_⟩
  simp only [ConstantRotation.calculate]
  entries

theorem Clutch.calculate_has (p : Clutch ℝ) {idx : Nat → Exec Int} {s : SysState ℝ}
    {q v : Nat → ℝ} (o : Output ℝ) :
    ∃ out, (CKind.clutch p).calculate idx o s = .ok out ∧ out.Has (.clutch p) 1 2 q v := by
  refine ⟨_, rfl, ?_⟩
  simp only [Clutch.calculate]
  entries

theorem RotationFriction.calculate_has (p : RotationFriction ℝ) {idx : Nat → Exec Int} {s : SysState ℝ}
    {q v : Nat → ℝ} (hs : Carries s idx 1 q v) (o : Output ℝ) :
    ∃ out, (CKind.rotationFriction p).calculate idx o s = .ok out ∧ out.Has (.rotationFriction p) 1 1 q v := by
  obtain ⟨i, hi, _⟩ := hs 0 (by decide)
  simp only [CKind.calculate, RotationFriction.calculate, hi, ok_bind]
  refine ⟨_, rfl, ?_⟩
  entries

theorem SimpleGear.calculate_has (p : SimpleGear ℝ) {idx : Nat → Exec Int} {s : SysState ℝ}
    {q v : Nat → ℝ} (o : Output ℝ) :
    ∃ out, (CKind.simpleGear p).calculate idx o s = .ok out ∧ out.Has (.simpleGear p) 1 2 q v := by
  refine ⟨_, rfl, ?_⟩
  obtain ⟨ratio, neutral, ks, kd⟩ := p
  simp only [SimpleGear.calculate]
  cases neutral
  · simp only [Bool.false_eq_true, if_false]
    entries
  · simp only [if_true]
    entries

/-- A shipped constraint whose bodies are in the state writes all its entries. -/
theorem CKind.calculate_has (k : CKind ℝ) {rows nb : Nat} (hk : k.counts = some (rows, nb))
    {idx : Nat → Exec Int} {s : SysState ℝ} {q v : Nat → ℝ} (hs : Carries s idx nb q v)
    (o : Output ℝ) : ∃ out, k.calculate idx o s = .ok out ∧ out.Has k rows nb q v := by
  cases k with
  | base => cases hk
  | custom f => cases hk
  | fixedPosition p => cases hk; exact p.calculate_has hs o
  | fixedRotation p => cases hk; exact p.calculate_has hs o
  | line p => cases hk; exact p.calculate_has hs o
  | link p => cases hk; exact p.calculate_has hs o
  | rolling p => cases hk; exact p.calculate_has hs o
  | constantRotation p => cases hk; exact p.calculate_has o
  | clutch p => cases hk; exact p.calculate_has o
  | rotationFriction p => cases hk; exact p.calculate_has hs o
  | simpleGear p => cases hk; exact p.calculate_has o

/-! ## Derivatives -/

theorem hasDerivAt_rx {th : ℝ → ℝ} {w t : ℝ} (h : HasDerivAt th w t) (a b : ℝ) :
    HasDerivAt (fun u => rx (th u) a b) (-(ry (th t) a b * w)) t := by
  refine ((h.cos.mul_const a).sub (h.sin.mul_const b)).congr_deriv ?_
  simp only [ry]; ring

theorem hasDerivAt_ry {th : ℝ → ℝ} {w t : ℝ} (h : HasDerivAt th w t) (a b : ℝ) :
    HasDerivAt (fun u => ry (th u) a b) (rx (th t) a b * w) t := by
  refine ((h.sin.mul_const a).add (h.cos.mul_const b)).congr_deriv ?_
  simp only [rx]; ring

end Scs
