import Mathlib.LinearAlgebra.Matrix.ToLin
import Mathlib.LinearAlgebra.Matrix.NonsingularInverse
import Verif.Project
import Verif.WorldConverge
import Verif.WorldDamped

/-!
# Sub-steps of the optimized system near an exact motion

The sub-steps of the optimized system with Gaussian elimination as steps that correct the constraints,
and bounds on everything they consist of near a motion in which the constraint matrix is not singular.
-/

namespace Scs

open Finset Filter Topology

/-! ### Linear maps given by tables -/

section
variable {ι κ : Type} [Fintype ι] [Fintype κ] [DecidableEq κ]

/-- The linear map with the table `A`. -/
noncomputable def app (A : ι → κ → ℝ) : (κ → ℝ) →ₗ[ℝ] (ι → ℝ) := Matrix.mulVecLin (Matrix.of A)

theorem app_at (A : ι → κ → ℝ) (v : κ → ℝ) (i : ι) : app A v i = ∑ j, A i j * v j := rfl

theorem app_le (A : ι → κ → ℝ) (v : κ → ℝ) : ‖app A v‖ ≤ Fintype.card κ * ‖A‖ * ‖v‖ := by
  refine (pi_norm_le_iff_of_nonneg (by positivity)).mpr fun i => ?_
  rw [app_at]
  refine (norm_sum_le _ _).trans ?_
  have : ∀ j ∈ (univ : Finset κ), ‖A i j * v j‖ ≤ ‖A‖ * ‖v‖ := fun j _ => by
    rw [norm_mul]
    exact mul_le_mul ((norm_le_pi_norm (A i) j).trans (norm_le_pi_norm A i)) (norm_le_pi_norm v j)
      (norm_nonneg _) (norm_nonneg _)
  refine (sum_le_card_nsmul _ _ _ this).trans (le_of_eq ?_)
  rw [nsmul_eq_mul, card_univ, mul_assoc]

theorem app_sub (A B : ι → κ → ℝ) (v : κ → ℝ) : app A v - app B v = app (A - B) v := by
  funext i
  rw [Pi.sub_apply, app_at, app_at, app_at, ← sum_sub_distrib]
  exact sum_congr rfl fun j _ => by simp only [Pi.sub_apply]; ring

end

section
variable (w : World ℝ)

/-! ### The parts of a sub-step -/

noncomputable def World.freeAcc (y : w.Pt × w.Pt) : w.Pt := fun i =>
  w.load (w.motionOf y) i.1 i.2 / (w.bodies i.1).mass i.2

noncomputable def World.jac (y : w.Pt × w.Pt) (r : w.RowIdx) (i : w.rb.toFinset × Coord) : ℝ :=
  w.coef (w.rowsOf (w.motionOf y)) r.1 r.2 i.1 i.2

noncomputable def World.errs (y : w.Pt × w.Pt) (r : w.RowIdx) : ℝ :=
  (w.rowsOf (w.motionOf y) r.1).C r.2

noncomputable def World.turn (y : w.Pt × w.Pt) (r : w.RowIdx) : ℝ :=
  w.rowDot (w.rowsOf (w.motionOf y) r.1) r.1 r.2 (w.motionOf y).vel

/-- The inverse of the constraint matrix. -/
noncomputable def World.inv (y : w.Pt × w.Pt) (r r' : w.RowIdx) : ℝ :=
  cramerSol (w.matOf y) (Pi.single r' 1) r

/-- The accelerations by given forces along the rows. -/
noncomputable def World.push (y : w.Pt × w.Pt) (i : w.rb.toFinset × Coord) (r : w.RowIdx) : ℝ :=
  w.jac y r i / (w.bodies i.1).mass i.2

/-- The change of velocities that changes `J v` by a given amount. -/
noncomputable def World.fix (y : w.Pt × w.Pt) (i : w.rb.toFinset × Coord) (r : w.RowIdx) : ℝ :=
  ∑ r', w.push y i r' * w.inv y r' r

noncomputable def World.offs (r : w.RowIdx) : ℝ := (w.cons r.1).kind.biasT

noncomputable def World.bound : Bound w.Pt (w.RowIdx → ℝ) where
  f := w.freeAcc
  J := fun y => app (w.jac y)
  Jd := w.turn
  C := w.errs
  G := fun y => app (w.fix y)
  off := w.offs

end

section
variable {w : World ℝ}

theorem sum_parts (f : Nat → Coord → ℝ) : ∑ i : w.rb.toFinset × Coord, f i.1 i.2 =
    ∑ b ∈ w.rb.toFinset, Coord.sum (f b) := by
  rw [Fintype.sum_prod_type, ← Finset.sum_coe_sort w.rb.toFinset]
  refine sum_congr rfl fun b _ => ?_
  show ∑ q ∈ ({.x, .y, .th} : Finset Coord), f b q = _
  rw [sum_insert (by decide), sum_insert (by decide), sum_singleton, Coord.sum]
  ring

/-- The rows as a linear map. -/
theorem rowAt_jac (p : w.Placed) (y : w.Pt × w.Pt) (r : w.RowIdx) {u : Nat → Coord → ℝ} {v : w.Pt}
    (huv : ∀ i : w.rb.toFinset × Coord, u i.1 i.2 = v i) :
    w.rowAt (w.rowsOf (w.motionOf y) r.1) r.1 r.2 u = app (w.jac y) v r := by
  rw [rowAt_coef p (List.mem_toFinset.mp r.1.2) (w.rowsOf (w.motionOf y)), app_at,
    ← sum_parts (fun b q => w.coef (w.rowsOf (w.motionOf y)) r.1 r.2 b q * u b q)]
  exact sum_congr rfl fun i _ => by rw [huv]; rfl

theorem jac_push (y : w.Pt × w.Pt) : Matrix.of (w.jac y) * Matrix.of (w.push y) = w.matOf y := by
  ext r r'
  rw [Matrix.mul_apply]
  show _ = w.coupling _ _ _ _ _
  rw [World.coupling, ← sum_parts (fun b q => w.coef (w.rowsOf (w.motionOf y)) r.1 r.2 b q *
    (1 / (w.bodies b).mass q) * w.coef (w.rowsOf (w.motionOf y)) r'.1 r'.2 b q)]
  refine sum_congr rfl fun i _ => ?_
  simp only [Matrix.of_apply, World.push, World.jac]
  ring

section
variable {y : w.Pt × w.Pt} (hd : (w.matOf y).det ≠ 0)
include hd

theorem mat_inv : w.matOf y * Matrix.of (w.inv y) = 1 := by
  ext r r'
  rw [Matrix.mul_apply, Matrix.one_apply]
  have := cramerSol_spec hd (Pi.single r' 1) r
  refine this.trans ?_
  rw [Pi.single_apply]

theorem fix_eq : Matrix.of (w.fix y) = Matrix.of (w.push y) * Matrix.of (w.inv y) := by
  ext i r
  rfl

theorem jac_fix (e : w.RowIdx → ℝ) : app (w.jac y) (app (w.fix y) e) = e := by
  have : Matrix.of (w.jac y) * Matrix.of (w.fix y) = 1 := by
    rw [fix_eq hd, ← Matrix.mul_assoc, jac_push, mat_inv hd]
  rw [app, app, Matrix.mulVecLin_apply, Matrix.mulVecLin_apply, Matrix.mulVec_mulVec, this,
    Matrix.one_mulVec]

theorem fix_push (e : w.RowIdx → ℝ) :
    app (w.fix y) (app (w.jac y) (app (w.push y) e)) = app (w.push y) e := by
  have : Matrix.of (w.fix y) * (Matrix.of (w.jac y) * Matrix.of (w.push y)) =
      Matrix.of (w.push y) := by
    rw [fix_eq hd, jac_push, Matrix.mul_assoc, mul_eq_one_comm.mp (mat_inv hd),
      Matrix.mul_one]
  simp only [app, Matrix.mulVecLin_apply, Matrix.mulVec_mulVec, this]

end

/-! ### Sub-steps -/

theorem load_pack (hg : w.Driven) {x : Motion} (hr : ∀ g ∈ w.fg, (w.gens g).Regular x)
    {b : Nat} (hb : b ∈ w.rb) (q : Coord) :
    w.load x b q = w.load (w.motionOf (w.pack x)) b q := by
  rw [← load_congr hg (pack_same x) hb]
  refine sum_congr rfl fun g hg => ?_
  have := hr g (List.mem_toFinset.mp hg)
  cases h : w.gens g with
  | motor m =>
    rw [h] at this
    have hk : m.kd = 0 := this
    simp only [Gen.load, Motor.drive, motorTorque, hk, zero_mul]
  | _ => rfl

theorem rows_pack (p : w.Placed) (x : Motion) {c : Nat} (hc : c ∈ w.cs) :
    w.rowsOf x c = w.rowsOf (w.motionOf (w.pack x)) c :=
  rowsOf_congr p (pack_same x) hc

/-- Accelerations by forces along the rows. -/
theorem force_push (p : w.Placed) (x : Motion) (mult : Nat → Nat → ℝ)
    (i : w.rb.toFinset × Coord) :
    w.conForce (w.reaction x mult) i.1 i.2 / (w.bodies i.1).mass i.2 =
      app (w.push (w.pack x)) (fun r => mult r.1 r.2) i := by
  have s := pack_same (w := w) x
  rw [conForce_coef, ← sum_rowIdx (fun c j => mult c j * w.coef (w.rowsOf x) c j i.1 i.2), app_at,
    sum_div]
  refine sum_congr rfl fun r _ => ?_
  simp only [World.push, World.jac, World.coef, rows_pack p x (List.mem_toFinset.mp r.1.2)]
  ring

/-- A sub-step of the optimized system with Gaussian elimination corrects the constraints. -/
theorem World.Move.bound (p : w.Placed) (hg : w.Driven) (hs : w.sle = some .ge) {h : ℝ}
    {x x' : Motion} {mult : Nat → Nat → ℝ} (hr : ∀ g ∈ w.fg, (w.gens g).Regular x)
    (st : w.Move h x x' mult) : w.bound.Step w.bias h (w.pack x) (w.pack x') := by
  have hd : (w.matOf (w.pack x)).det ≠ 0 :=
    (det_iff p _).mpr ((sameRows_congr p (pack_same x)).indep (st.indep hs))
  have hb : ∀ i : w.rb.toFinset × Coord, (i.1 : Nat) ∈ w.rb := fun i => List.mem_toFinset.mp i.1.2
  have row : w.offs + app (w.jac (w.pack x)) (w.pack x').2 + (w.bias / h) • w.errs (w.pack x) = 0 := by
    funext r
    have := st.ge hs r.1 (List.mem_toFinset.mp r.1.2) r.2 r.2.2
    rw [rows_pack p x (List.mem_toFinset.mp r.1.2),
      rowAt_jac p _ r (v := (w.pack x').2) (fun i => rfl)] at this
    show (w.cons r.1).kind.biasT + _ + w.bias / h * _ = 0
    rw [add_comm (w.cons r.1).kind.biasT]
    exact this
  have vel : (w.pack x').2 = (w.pack x).2 + h • w.freeAcc (w.pack x) +
      app (w.push (w.pack x)) (h • fun r => mult r.1 r.2) := by
    funext i
    refine (st.vel i.1 (hb i) i.2).trans ?_
    rw [st.acc i.1 (hb i) i.2, add_div, force_push p, load_pack hg hr (hb i), map_smul]
    simp only [Pi.add_apply, Pi.smul_apply, smul_eq_mul, World.freeAcc, World.pack]
    ring
  refine ⟨funext fun i => st.pos i.1 (hb i) i.2, ?_, row⟩
  have e1 : app (w.push (w.pack x)) (h • fun r => mult r.1 r.2) =
      app (w.fix (w.pack x)) (app (w.jac (w.pack x))
        ((w.pack x').2 - (w.pack x).2 - h • w.freeAcc (w.pack x))) := by
    have e2 : (w.pack x').2 - (w.pack x).2 - h • w.freeAcc (w.pack x) =
        app (w.push (w.pack x)) (h • fun r => mult r.1 r.2) := by rw [vel]; abel
    rw [e2, fix_push hd]
  show (w.pack x').2 = (w.pack x).2 + h • w.freeAcc (w.pack x) -
    app (w.fix (w.pack x)) (w.offs + app (w.jac (w.pack x)) (w.pack x).2 +
      (w.bias / h) • w.errs (w.pack x) + h • app (w.jac (w.pack x)) (w.freeAcc (w.pack x)))
  have e3 : app (w.jac (w.pack x)) ((w.pack x').2 - (w.pack x).2 - h • w.freeAcc (w.pack x)) =
      -(w.offs + app (w.jac (w.pack x)) (w.pack x).2 +
        (w.bias / h) • w.errs (w.pack x) + h • app (w.jac (w.pack x)) (w.freeAcc (w.pack x))) := by
    have e4 := eq_neg_of_add_eq_zero_left (a := app (w.jac (w.pack x)) (w.pack x').2)
      (b := w.offs + (w.bias / h) • w.errs (w.pack x)) (by rw [← row]; abel)
    rw [map_sub, map_sub, map_smul, e4]
    abel
  rw [e3, map_neg] at e1
  rw [sub_eq_add_neg, ← e1]
  exact vel

/-! ### Everything is limited near a regular motion -/

section
variable {y : w.Pt × w.Pt}

theorem jac_smooth (r : w.RowIdx) (i : w.rb.toFinset × Coord) :
    ContDiff ℝ 1 (fun y => w.jac y r i) := coef_smooth _ _ _ _

theorem freeAcc_lip (hr : ∀ g ∈ w.fg, (w.gens g).Regular (w.motionOf y)) : LipAt w.freeAcc y :=
  LipAt.pi fun i => (worldLoad_lip hr _ _).div_const _

theorem turn_lip (r : w.RowIdx) : LipAt (fun y : w.Pt × w.Pt => w.turn y r) y := by
  show LipAt (fun y : w.Pt × w.Pt =>
    w.rowDot (w.rowsOf (w.motionOf y) r.1) r.1 r.2 (w.motionOf y).vel) y
  refine LipAt.sum _ fun k _ => ?_
  have h : ∀ q : Coord, LipAt (fun y => (w.rowsOf (w.motionOf y) r.1).J_dot r.2 (k * 3 + q.d) *
      (w.motionOf y).vel (w.bodyOf r.1 k) q) y := fun q =>
    (ContDiff.lipAt (jdT_smooth _ (fun t => (q_smooth r.1 t).1)
      (fun t => (q_smooth r.1 t).2) _ _) y).mul (ContDiff.lipAt (motionOf_smooth _ _).2 y)
  exact ((h .x).add (h .y)).add (h .th)

theorem fix_lip (hd : (w.matOf y).det ≠ 0) (i : w.rb.toFinset × Coord) (r : w.RowIdx) :
    LipAt (fun y : w.Pt × w.Pt => w.fix y i r) y := by
  have h1 : ∀ r', LipAt (fun y : w.Pt × w.Pt => w.push y i r') y := fun r' =>
    (ContDiff.lipAt (jac_smooth r' i) y).div_const _
  have h2 : ∀ r', LipAt (fun y : w.Pt × w.Pt => w.inv y r' r) y := fun r' =>
    LipAt.cramerSol (b := fun _ => Pi.single r 1)
      (fun i j => ContDiff.lipAt (mat_smooth i j) y) (fun i => LipAt.const _ _) hd r'
  exact LipAt.sum _ fun r' _ => (h1 r').mul (h2 r')

theorem LipAt.pi2 {E ι κ : Type} [NormedAddCommGroup E] [Fintype ι] [Fintype κ]
    {f : E → ι → κ → ℝ} {y : E} (h : ∀ i j, LipAt (fun u => f u i j) y) : LipAt f y := by
  have h1 : LipAt (fun u => fun i : ι × κ => f u i.1 i.2) y := LipAt.pi fun i => h i.1 i.2
  obtain ⟨K, U, K0, hU, hK⟩ := h1.weaken
  refine ⟨K, U, hU, fun u hu v hv => (le_trans ?_ (hK u hu v hv))⟩
  refine (pi_norm_le_iff_of_nonneg (norm_nonneg _)).mpr fun i => ?_
  refine (pi_norm_le_iff_of_nonneg (norm_nonneg _)).mpr fun j => ?_
  exact norm_le_pi_norm ((fun i : ι × κ => f u i.1 i.2) - fun i : ι × κ => f v i.1 i.2) (i, j)

theorem acc_lip (hr : ∀ g ∈ w.fg, (w.gens g).Regular (w.motionOf y))
    (hd : (w.matOf y).det ≠ 0) : LipAt w.bound.acc y := by
  refine LipAt.pi fun i => ?_
  have hf : ∀ i, LipAt (fun y => w.freeAcc y i) y := fun i => (worldLoad_lip hr _ _).div_const _
  refine (hf i).sub (LipAt.sum _ fun r _ => (fix_lip hd i r).mul ?_)
  exact (LipAt.sum _ fun j _ => (ContDiff.lipAt (jac_smooth r j) y).mul (hf j)).add (turn_lip r)

end

/-- Constraint functions and rows while the bodies move on with constant velocities. -/
theorem rows_line (p : w.Placed) (pr : w.Proper) (q v : w.Pt) (r : w.RowIdx) (S : Set ℝ) (t : ℝ) :
    ((w.cons r.1).kind.Positional → HasDerivWithinAt (fun u : ℝ => w.errs (q + u • v, v) r)
      (app (w.jac (q + t • v, v)) v r) S t) ∧
    HasDerivWithinAt (fun u : ℝ => app (w.jac (q + u • v, v)) v r) (w.turn (q + t • v, v) r) S t := by
  have hc' := List.mem_toFinset.mp r.1.2
  have hcnt := pr r.1 hc'
  have hj := r.2.2
  set Y : ℝ → Motion := fun u => w.motionOf (q + u • v, v) with hYd
  have hn := (counts_le hcnt).2.2.2
  have h6 : ∀ u t, 6 ≤ t → (Y u).q w r.1 t = 0 := fun u t ht => by
    rw [Motion.q, if_neg (by omega)]
  have h6' : ∀ u t, 6 ≤ t → (Y u).u w r.1 t = 0 := fun u t ht => by
    rw [Motion.u, if_neg (by omega)]
  have hpos : ∀ b ∈ w.rb, ∀ k : Coord,
      HasDerivWithinAt (fun s => (Y s).pos b k) ((Y t).vel b k) S t := fun b hb k => by
    simp only [hYd, motionOf_pos _ hb, motionOf_vel _ hb, Pi.add_apply, Pi.smul_apply, smul_eq_mul]
    have := ((hasDerivWithinAt_id t S).mul_const (v (⟨b, List.mem_toFinset.mpr hb⟩, k))).const_add
      (q (⟨b, List.mem_toFinset.mpr hb⟩, k))
    rw [one_mul] at this
    exact this
  have hq : ∀ i, HasDerivWithinAt (fun s => (Y s).q w r.1 i) ((Y t).u w r.1 i) S t := by
    intro i
    by_cases hi : i / 3 < (w.cons r.1).bodyCount
    · simp only [Motion.q, Motion.u, if_pos hi]
      exact hpos _ (p.bodies r.1 hc' _ hi).2 _
    · simp only [Motion.q, Motion.u, if_neg hi]
      exact hasDerivWithinAt_const _ _ _
  have hrow : ∀ u, app (w.jac (q + u • v, v)) v r =
      w.rowAt (w.rowsOf (Y u) r.1) r.1 r.2 (Y u).vel := fun u =>
    (rowAt_jac p _ r (u := (Y u).vel) (v := v)
      fun i => motionOf_vel (q + u • v, v) (List.mem_toFinset.mp i.1.2) _).symm
  constructor
  · intro hp
    refine (cT_along _ hcnt hj hp h6 (h6' t) hq).congr_deriv ?_
    rw [hrow, sum_three, World.rowAt]
    refine sum_congr rfl fun k hk => Coord.sum_congr fun q => ?_
    rw [u_at _ (mem_range.mp hk)]
    rfl
  · have key : ∀ k ∈ range (w.cons r.1).bodyCount, ∀ q : Coord, HasDerivWithinAt
        (fun s => (w.rowsOf (Y s) r.1).J r.2 (k * 3 + q.d) * (Y s).vel (w.bodyOf r.1 k) q)
        ((w.rowsOf (Y t) r.1).J_dot r.2 (k * 3 + q.d) * (Y t).vel (w.bodyOf r.1 k) q) S t :=
      fun k hk q => by
        have hk := mem_range.mp hk
        have hlt : k * 3 + q.d < 3 * (w.cons r.1).bodyCount := by
          cases q <;> simp only [Coord.d] <;> omega
        have hv : ∀ s, (Y s).vel (w.bodyOf r.1 k) q = (Y t).vel (w.bodyOf r.1 k) q := fun s => by
          rw [motionOf_vel _ (p.bodies r.1 hc' k hk).2, motionOf_vel _ (p.bodies r.1 hc' k hk).2]
        simp only [hv]
        exact (jT_along _ hcnt hj hlt h6 (h6' t) hq).mul_const _
    have := HasDerivWithinAt.fun_sum fun k hk => ((key k hk .x).add (key k hk .y)).add (key k hk .th)
    simp only [hrow]
    exact this

/-- A function whose slope differs little from `D`. -/
theorem slope_le {g g' : ℝ → ℝ} {h D M : ℝ} (h0 : 0 ≤ h)
    (hg : ∀ u ∈ Set.Icc 0 h, HasDerivWithinAt g (g' u) (Set.Icc 0 h) u)
    (hM : ∀ u ∈ Set.Icc 0 h, |g' u - D| ≤ M) : |g h - g 0 - h * D| ≤ M * h := by
  have hd : ∀ u ∈ Set.Icc 0 h, HasDerivWithinAt (fun u => g u - u * D) (g' u - D) (Set.Icc 0 h) u :=
    fun u hu => by
      have := (hg u hu).sub ((hasDerivWithinAt_id u (Set.Icc 0 h)).mul_const D)
      rw [one_mul] at this
      exact this
  have := (convex_Icc 0 h).norm_image_sub_le_of_norm_hasDerivWithin_le hd hM
    (Set.left_mem_Icc.mpr h0) (Set.right_mem_Icc.mpr h0)
  rw [Real.norm_eq_abs, Real.norm_eq_abs, sub_zero, abs_of_nonneg h0] at this
  refine le_trans (le_of_eq ?_) this
  congr 1
  ring

theorem CKind.cT_free {k : CKind ℝ} (h : ¬ k.Positional) (q : Nat → ℝ) (j : Nat) : k.cT q j = 0 := by
  cases k <;> first | rfl | exact absurd trivial h

theorem CKind.bias_pos {k : CKind ℝ} (h : k.Positional) : k.biasT = 0 := by
  cases k <;> first | rfl | exact h.elim

theorem jac_congr {y z : w.Pt × w.Pt} (h : y.1 = z.1) : w.jac y = w.jac z := by
  funext r i
  have hq : (w.motionOf y).q w r.1 = (w.motionOf z).q w r.1 := by
    funext t
    simp only [Motion.q, World.motionOf, h]
  simp only [World.jac, World.coef, World.rowsOf, hq]

theorem errs_congr {y z : w.Pt × w.Pt} (h : y.1 = z.1) : w.errs y = w.errs z := by
  funext r
  have hq : (w.motionOf y).q w r.1 = (w.motionOf z).q w r.1 := by
    funext t
    simp only [Motion.q, World.motionOf, h]
  simp only [World.errs, World.rowsOf, hq]

set_option maxHeartbeats 1000000 in
theorem bound_tame (p : w.Placed) (pr : w.Proper) {T : ℝ} {Y : ℝ → w.Pt × w.Pt}
    (hY : ContinuousOn Y (Set.Icc 0 T)) (hf : ∀ t ∈ Set.Icc 0 T, w.Fair (w.motionOf (Y t))) :
    ∃ r L, 0 < r ∧ 0 ≤ L ∧ (∀ t ∈ Set.Icc 0 T, ∀ β, w.bound.Tame β (Y t) r L) ∧
      ∀ t ∈ Set.Icc 0 T, ∀ y, ‖y - Y t‖ < r → w.Fair (w.motionOf y) := by
  have hS : IsCompact (Y '' Set.Icc 0 T) := isCompact_Icc.image_of_continuousOn hY
  let Φ : w.Pt × w.Pt → w.Pt × ((w.rb.toFinset × Coord → w.RowIdx → ℝ) × ((w.RowIdx → ℝ) ×
      ((w.RowIdx → w.rb.toFinset × Coord → ℝ) × w.Pt))) := fun y =>
    (w.bound.acc y, (w.fix y, (w.turn y, (w.jac y, w.freeAcc y))))
  have hΦ : ∀ x ∈ Y '' Set.Icc 0 T, LipAt Φ x := by
    rintro _ ⟨t, ht, rfl⟩
    have hd := (det_iff p _).mpr (hf t ht).1
    have hr := (hf t ht).2
    exact (acc_lip hr hd).prodMk ((LipAt.pi2 fun i r => fix_lip hd i r).prodMk
      ((LipAt.pi fun r => turn_lip r).prodMk ((LipAt.pi2 fun r i =>
        ContDiff.lipAt (jac_smooth r i) _).prodMk (freeAcc_lip hr))))
  obtain ⟨r1, h1, K, K0, hK⟩ := lipschitz_two (f := Φ) hS hΦ
  obtain ⟨r2, h2, g⟩ := good_near (Good := fun y => w.Fair (w.motionOf y)) hS (by
    rintro _ ⟨t, ht, rfl⟩
    exact field_near p (hf t ht).2 (hf t ht).1)
  obtain ⟨B, hB⟩ := (hS.image_of_continuousOn fun x hx =>
    (hΦ x hx).continuousAt.continuousWithinAt).isBounded.exists_norm_le
  obtain ⟨V, hV⟩ := hS.isBounded.exists_norm_le
  set r := min (min r1 r2) 1 with hr
  have r0 : 0 < r := by positivity
  have hr1 : r ≤ r1 := (min_le_left _ _).trans (min_le_left _ _)
  have hr2 : r ≤ r2 := (min_le_left _ _).trans (min_le_right _ _)
  have hr3 : r ≤ 1 := min_le_right _ _
  set M := max B 0 + K with hM
  have M0 : 0 ≤ M := by positivity
  set W := max V 0 + 1 with hW
  have W0 : 0 ≤ W := by positivity
  set n1 : ℝ := ((Fintype.card w.RowIdx : Nat) : ℝ) with hn1
  set n2 : ℝ := ((Fintype.card (w.rb.toFinset × Coord) : Nat) : ℝ) with hn2
  have n10 : 0 ≤ n1 := by positivity
  have n20 : 0 ≤ n2 := by positivity
  set L := (n1 + n2 + 1) * M + W + (n1 + 1) * K + K * W with hL
  have p1 : 0 ≤ n1 * M := by positivity
  have p2 : 0 ≤ n2 * M := by positivity
  have p3 : 0 ≤ n1 * K := by positivity
  have p4 : 0 ≤ K * W := by positivity
  have L0 : 0 ≤ L := by positivity
  have lM : M ≤ L := by rw [hL]; nlinarith
  refine ⟨r, L, r0, L0, fun t ht β => ?_, fun t ht y hy => g _ ⟨t, ht, rfl⟩ y (hy.trans_le hr2)⟩
  have lip : ∀ y z, ‖y - Y t‖ < r → ‖z - Y t‖ < r → ‖Φ y - Φ z‖ ≤ K * ‖y - z‖ := fun y z hy hz =>
    hK _ ⟨t, ht, rfl⟩ y z (hy.trans_le hr1) (hz.trans_le hr1)
  have bd : ∀ y, ‖y - Y t‖ < r → ‖Φ y‖ ≤ M := fun y hy => by
    have a1 := lip y (Y t) hy (by rw [sub_self, norm_zero]; exact r0)
    have a2 : ‖Φ (Y t)‖ ≤ B := hB _ ⟨_, ⟨t, ht, rfl⟩, rfl⟩
    have a3 : Φ y = Φ (Y t) + (Φ y - Φ (Y t)) := by abel
    have a4 : K * ‖y - Y t‖ ≤ K * 1 := mul_le_mul_of_nonneg_left (hy.le.trans hr3) K0
    rw [a3]
    refine (norm_add_le_of a2 a1).trans ?_
    have := le_max_left B 0
    linarith
  have bJd : ∀ y, ‖y - Y t‖ < r → ‖w.turn y‖ ≤ M := fun y hy =>
    (norm_fst_le (Φ y).2.2).trans ((norm_snd_le (Φ y).2).trans ((norm_snd_le (Φ y)).trans (bd y hy)))
  have lJd : ∀ y z, ‖y - Y t‖ < r → ‖z - Y t‖ < r → ‖w.turn y - w.turn z‖ ≤ K * ‖y - z‖ :=
    fun y z hy hz => (norm_fst_le (Φ y - Φ z).2.2).trans ((norm_snd_le (Φ y - Φ z).2).trans
      ((norm_snd_le (Φ y - Φ z)).trans (lip y z hy hz)))
  have bv : ∀ y, ‖y - Y t‖ < r → ‖y.2‖ ≤ W := fun y hy => by
    have a1 : y = Y t + (y - Y t) := by abel
    refine (norm_snd_le y).trans ?_
    rw [a1]
    refine (norm_add_le_of (hV _ ⟨t, ht, rfl⟩) (hy.le.trans hr3)).trans ?_
    rw [hW]
    have := le_max_left V 0
    linarith
  refine ⟨fun y hy => (bv y hy).trans ?_, fun y hy => ?_, fun y hy v => ?_,
    fun y hy => (bJd y hy).trans lM, fun y hy e => ?_, fun y z hy hz e => ?_, fun y z hy hz => ?_,
    fun q v v' h h0 hseg => ?_, fun q v v' h h0 hseg hrow => ?_⟩
  · rw [hL]; nlinarith
  · exact ((norm_snd_le (Φ y).2.2.2).trans ((norm_snd_le (Φ y).2.2).trans ((norm_snd_le (Φ y).2).trans
      ((norm_snd_le (Φ y)).trans (bd y hy))))).trans lM
  · have a : ‖w.jac y‖ ≤ M := (norm_fst_le (Φ y).2.2.2).trans ((norm_snd_le (Φ y).2.2).trans
      ((norm_snd_le (Φ y).2).trans ((norm_snd_le (Φ y)).trans (bd y hy))))
    refine (app_le _ _).trans (mul_le_mul_of_nonneg_right ?_ (norm_nonneg _))
    have := mul_le_mul_of_nonneg_left a n20
    rw [hL]; nlinarith
  · have a : ‖w.fix y‖ ≤ M := (norm_fst_le (Φ y).2).trans ((norm_snd_le (Φ y)).trans (bd y hy))
    refine (app_le _ _).trans (mul_le_mul_of_nonneg_right ?_ (norm_nonneg _))
    have := mul_le_mul_of_nonneg_left a n10
    rw [hL]; nlinarith
  · have a : ‖w.fix y - w.fix z‖ ≤ K * ‖y - z‖ := (norm_fst_le (Φ y - Φ z).2).trans
      ((norm_snd_le (Φ y - Φ z)).trans (lip y z hy hz))
    show ‖app (w.fix y) e - app (w.fix z) e‖ ≤ _
    rw [app_sub]
    refine (app_le _ _).trans (mul_le_mul_of_nonneg_right ?_ (norm_nonneg _))
    have a1 := mul_le_mul_of_nonneg_left a n10
    have a2 : n1 * K ≤ L := by rw [hL]; nlinarith
    have := mul_le_mul_of_nonneg_right a2 (norm_nonneg (y - z))
    linarith
  · refine ((norm_fst_le (Φ y - Φ z)).trans (lip y z hy hz)).trans
      (mul_le_mul_of_nonneg_right ?_ (norm_nonneg _))
    rw [hL]; nlinarith
  · have hh : h ∈ Set.Icc 0 h := ⟨h0.le, le_rfl⟩
    have hv : ‖v‖ ≤ W := bv _ (hseg h hh)
    refine (pi_norm_le_iff_of_nonneg (by positivity)).mpr fun i => ?_
    show |app (w.jac (q + h • v, v)) v i - app (w.jac (q, v')) v i -
      h * w.turn (q + h • v, v) i| ≤ _
    have := slope_le (g := fun u => app (w.jac (q + u • v, v)) v i) h0.le
      (fun u hu => (rows_line p pr q v i _ u).2) (D := w.turn (q + h • v, v) i) (M := K * (h * W))
      (fun u hu => by
        refine (norm_le_pi_norm (w.turn (q + u • v, v) - w.turn (q + h • v, v)) i).trans
          ((lJd _ _ (hseg u hu) (hseg h hh)).trans (mul_le_mul_of_nonneg_left ?_ K0))
        refine norm_prod_le_iff.mpr ⟨?_, ?_⟩
        · have a : (((q + u • v, v) : w.Pt × w.Pt) - (q + h • v, v)).1 = (u - h) • v := by
            simp only [Prod.fst_sub]; module
          rw [a, norm_smul, Real.norm_eq_abs]
          refine mul_le_mul ?_ hv (norm_nonneg _) h0.le
          rw [abs_le]
          constructor <;> linarith [hu.1, hu.2]
        · simp only [Prod.snd_sub, sub_self, norm_zero]
          positivity)
    simp only [zero_smul, add_zero] at this
    rw [jac_congr (y := (q, v')) (z := (q, v)) rfl]
    refine this.trans ?_
    have a : K * W ≤ L := by rw [hL]; nlinarith
    have := mul_le_mul_of_nonneg_right a (sq_nonneg h)
    nlinarith
  · have hh : h ∈ Set.Icc 0 h := ⟨h0.le, le_rfl⟩
    refine (pi_norm_le_iff_of_nonneg (by positivity)).mpr fun i => ?_
    show |w.errs (q + h • v, v) i - (1 - β) * w.errs (q, v') i| ≤ _
    by_cases hp : (w.cons i.1).kind.Positional
    · have hs1 : ∀ u ∈ Set.Icc 0 h, |app (w.jac (q + u • v, v)) v i - app (w.jac (q, v)) v i| ≤
          M * h := fun u hu => by
        have := slope_le (g := fun u => app (w.jac (q + u • v, v)) v i) hu.1
          (fun u hu => (rows_line p pr q v i _ u).2) (D := 0) (M := M) (fun a ha => by
            rw [sub_zero]
            exact (norm_le_pi_norm (w.turn (q + a • v, v)) i).trans
              (bJd _ (hseg a ⟨ha.1, ha.2.trans hu.2⟩)))
        simp only [zero_smul, add_zero, mul_zero, sub_zero] at this
        exact this.trans (mul_le_mul_of_nonneg_left hu.2 M0)
      have := slope_le (g := fun u => w.errs (q + u • v, v) i) h0.le
        (fun u hu => (rows_line p pr q v i _ u).1 hp) (D := app (w.jac (q, v)) v i) (M := M * h) hs1
      simp only [zero_smul, add_zero] at this
      have e1 : (w.cons i.1).kind.biasT + app (w.jac (q, v')) v i +
        β / h * w.errs (q, v') i = 0 := congrFun hrow i
      rw [CKind.bias_pos hp, zero_add, jac_congr (y := (q, v')) (z := (q, v)) rfl,
        errs_congr (y := (q, v')) (z := (q, v)) rfl] at e1
      have e2 : h * app (w.jac (q, v)) v i = -(β * w.errs (q, v) i) := by
        have h2 := congrArg (fun x => h * x) e1
        simp only [mul_add, mul_zero] at h2
        have h3 : h * (β / h * w.errs (q, v) i) = β * w.errs (q, v) i := by field_simp
        linarith
      rw [e2] at this
      rw [errs_congr (y := (q, v')) (z := (q, v)) rfl]
      have e3 : w.errs (q + h • v, v) i - (1 - β) * w.errs (q, v) i =
        w.errs (q + h • v, v) i - w.errs (q, v) i - -(β * w.errs (q, v) i) := by ring
      rw [e3]
      refine this.trans ?_
      have := mul_le_mul_of_nonneg_right lM (sq_nonneg h)
      nlinarith
    · have e1 : ∀ y, w.errs y i = 0 := fun y => CKind.cT_free hp _ _
      rw [e1, e1, mul_zero, sub_zero, abs_zero]
      exact mul_nonneg L0 (sq_nonneg h)

end

end Scs
