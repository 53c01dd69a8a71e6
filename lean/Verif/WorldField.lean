import Verif.FieldSmooth
import Verif.Converge
import Verif.WorldExact

/-!
# The accelerations as a function of positions and velocities

With Gaussian elimination an evaluation computes the accelerations from the positions and velocities
of the registered bodies alone. Near a motion in which the constraint matrix is not singular and the
force generators are regular, this function is Lipschitz.
-/

namespace Scs

open Finset Filter Topology

instance : Fintype Coord := ⟨{.x, .y, .th}, fun q => by cases q <;> decide⟩

section
variable (w : World ℝ)

/-- One number for each coordinate of each registered body. -/
abbrev World.Pt := w.rb.toFinset × Coord → ℝ

/-- The rows of the registered constraints. -/
abbrev World.RowIdx := Σ c : w.cs.toFinset, Fin (w.cons c).rows

/-- The motion with given positions and velocities of the registered bodies. -/
noncomputable def World.motionOf (y : w.Pt × w.Pt) : Motion where
  pos := fun b q => if hb : b ∈ w.rb.toFinset then y.1 (⟨b, hb⟩, q) else 0
  vel := fun b q => if hb : b ∈ w.rb.toFinset then y.2 (⟨b, hb⟩, q) else 0
  acc := fun _ _ => 0

/-- The positions and velocities of the registered bodies in a motion. -/
def World.pack (x : Motion) : w.Pt × w.Pt := (fun i => x.pos i.1 i.2, fun i => x.vel i.1 i.2)

noncomputable def World.matOf (y : w.Pt × w.Pt) : Matrix w.RowIdx w.RowIdx ℝ := fun i i' =>
  w.coupling (w.rowsOf (w.motionOf y)) i.1 i.2 i'.1 i'.2

noncomputable def World.rhsOf (y : w.Pt × w.Pt) (i : w.RowIdx) : ℝ :=
  -w.rowDot (w.rowsOf (w.motionOf y) i.1) i.1 i.2 (w.motionOf y).vel -
    (w.cons i.1).kind.ksT i.2 * (w.rowsOf (w.motionOf y) i.1).C i.2 -
    (w.cons i.1).kind.kdT i.2 * w.rowAt (w.rowsOf (w.motionOf y) i.1) i.1 i.2 (w.motionOf y).vel -
    w.rowAt (w.rowsOf (w.motionOf y) i.1) i.1 i.2
      (fun b q => w.load (w.motionOf y) b q / (w.bodies b).mass q)

noncomputable def World.multOf (y : w.Pt × w.Pt) (c j : Nat) : ℝ :=
  if h : c ∈ w.cs.toFinset ∧ j < (w.cons c).rows then
    cramerSol (w.matOf y) (w.rhsOf y) ⟨⟨c, h.1⟩, ⟨j, h.2⟩⟩ else 0

/-- The accelerations in given positions and velocities. -/
noncomputable def World.field (y : w.Pt × w.Pt) : w.Pt := fun i =>
  (w.load (w.motionOf y) i.1 i.2 + ∑ r : w.RowIdx, cramerSol (w.matOf y) (w.rhsOf y) r *
    w.coef (w.rowsOf (w.motionOf y)) r.1 r.2 i.1 i.2) / (w.bodies i.1).mass i.2

end

section
variable {w : World ℝ}

theorem sum_rowIdx (f : Nat → Nat → ℝ) : ∑ r : w.RowIdx, f r.1 r.2 =
    ∑ c ∈ w.cs.toFinset, ∑ j ∈ range (w.cons c).rows, f c j := by
  rw [Fintype.sum_sigma, ← Finset.sum_coe_sort w.cs.toFinset]
  refine sum_congr rfl fun c _ => ?_
  exact (Finset.sum_range (fun j => f c j)).symm

theorem multOf_eq (y : w.Pt × w.Pt) (r : w.RowIdx) :
    w.multOf y r.1 r.2 = cramerSol (w.matOf y) (w.rhsOf y) r := by
  rw [World.multOf, dif_pos ⟨r.1.2, r.2.2⟩]

theorem motionOf_pos (y : w.Pt × w.Pt) {b : Nat} (hb : b ∈ w.rb) (q : Coord) :
    (w.motionOf y).pos b q = y.1 (⟨b, List.mem_toFinset.mpr hb⟩, q) :=
  dif_pos (List.mem_toFinset.mpr hb)

theorem motionOf_vel (y : w.Pt × w.Pt) {b : Nat} (hb : b ∈ w.rb) (q : Coord) :
    (w.motionOf y).vel b q = y.2 (⟨b, List.mem_toFinset.mpr hb⟩, q) :=
  dif_pos (List.mem_toFinset.mpr hb)

/-- The matrix is invertible exactly if the constraints are independent. -/
theorem det_iff (p : w.Placed) (y : w.Pt × w.Pt) :
    (w.matOf y).det ≠ 0 ↔ w.Indep (w.rowsOf (w.motionOf y)) := by
  have key : ∀ z : Nat → Nat → ℝ, ∀ r : w.RowIdx, ∑ b ∈ w.rb.toFinset,
      Coord.sum (fun q => w.coef (w.rowsOf (w.motionOf y)) r.1 r.2 b q *
        w.response (w.rowsOf (w.motionOf y)) z b q) =
      ∑ r' : w.RowIdx, w.matOf y r r' * z r'.1 r'.2 := fun z r => by
    have hc := List.mem_toFinset.mp r.1.2
    rw [← rowAt_coef p hc (w.rowsOf (w.motionOf y)) r.2, rowAt_response p _ _ hc,
      ← sum_rowIdx (fun c' j' => w.coupling (w.rowsOf (w.motionOf y)) r.1 r.2 c' j' * z c' j')]
    rfl
  constructor
  · intro hd z hz c hc i hi
    have h0 : (w.matOf y).mulVec (fun r => z r.1 r.2) = 0 := by
      funext r
      rw [Matrix.mulVec, Pi.zero_apply, ← hz r.1 (List.mem_toFinset.mp r.1.2) r.2 r.2.2, key]
      rfl
    have := Matrix.eq_zero_of_mulVec_eq_zero hd h0
    exact congrFun this ⟨⟨c, List.mem_toFinset.mpr hc⟩, ⟨i, hi⟩⟩
  · intro hi hd
    obtain ⟨z, hz, h0⟩ := Matrix.exists_mulVec_eq_zero_iff.mpr hd
    refine hz (funext fun r => ?_)
    let z' : Nat → Nat → ℝ := fun c j => if h : c ∈ w.cs.toFinset ∧ j < (w.cons c).rows then
      z ⟨⟨c, h.1⟩, ⟨j, h.2⟩⟩ else 0
    have hz' : ∀ r : w.RowIdx, z' r.1 r.2 = z r := fun r => dif_pos ⟨r.1.2, r.2.2⟩
    rw [← hz' r]
    refine hi z' (fun c hc i hi => ?_) r.1 (List.mem_toFinset.mp r.1.2) r.2 r.2.2
    have := key z' ⟨⟨c, List.mem_toFinset.mpr hc⟩, ⟨i, hi⟩⟩
    refine this.trans ?_
    simp only [hz']
    exact congrFun h0 ⟨⟨c, List.mem_toFinset.mpr hc⟩, ⟨i, hi⟩⟩

theorem rowAt_sum (o : Output ℝ) (c j : Nat) (u v : Nat → Coord → ℝ) :
    w.rowAt o c j (fun b q => u b q + v b q) = w.rowAt o c j u + w.rowAt o c j v := by
  have := rowAt_add (w := w) o c j u v 1
  simpa using this

/-- The accelerations are those of an evaluation. -/
theorem field_accel (p : w.Placed) (hs : w.sle = some .ge) {y : w.Pt × w.Pt}
    (hd : w.Indep (w.rowsOf (w.motionOf y))) {a : Nat → Coord → ℝ}
    (ha : ∀ i : w.rb.toFinset × Coord, a i.1 i.2 = w.field y i) :
    w.Accel (w.motionOf y) a (w.multOf y) := by
  have hdet := (det_iff p y).mpr hd
  have hn : ∀ b ∈ w.rb, ∀ q : Coord, a b q = (w.load (w.motionOf y) b q +
      w.conForce (w.reaction (w.motionOf y) (w.multOf y)) b q) / (w.bodies b).mass q := by
    intro b hb q
    rw [ha (⟨b, List.mem_toFinset.mpr hb⟩, q), World.field, conForce_coef,
      ← sum_rowIdx (fun c j => w.multOf y c j * w.coef (w.rowsOf (w.motionOf y)) c j b q)]
    simp only [multOf_eq]
  refine ⟨hn, fun _ => hd, fun _ c hc j hj => ?_, fun m e1 e2 h => ?_⟩
  · have e : w.rowAt (w.rowsOf (w.motionOf y) c) c j a =
        w.rowAt (w.rowsOf (w.motionOf y) c) c j
          (fun b q => w.load (w.motionOf y) b q / (w.bodies b).mass q) +
        w.rowAt (w.rowsOf (w.motionOf y) c) c j
          (w.response (w.rowsOf (w.motionOf y)) (w.multOf y)) := by
      rw [← rowAt_sum]
      refine sum_congr rfl fun k hk => Coord.sum_congr fun q => ?_
      rw [hn _ (p.bodies c hc k (mem_range.mp hk)).2 q, conForce_coef, add_div]
      rfl
    rw [e, rowAt_response p _ _ hc, ← sum_rowIdx (fun c' j' =>
      w.coupling (w.rowsOf (w.motionOf y)) c j c' j' * w.multOf y c' j')]
    simp only [multOf_eq]
    have := cramerSol_spec hdet (w.rhsOf y) ⟨⟨c, List.mem_toFinset.mpr hc⟩, ⟨j, hj⟩⟩
    rw [show ∑ r : w.RowIdx, w.coupling (w.rowsOf (w.motionOf y)) c j r.1 r.2 *
      cramerSol (w.matOf y) (w.rhsOf y) r = _ from this]
    simp only [World.rhsOf, World.rowsOf]
    ring
  · rw [hs] at h; cases h

/-- An evaluation in which the generators are regular depends only on positions and velocities. -/
theorem World.Accel.like (p : w.Placed) (hg : w.Driven) {x y : Motion}
    (hr : ∀ g ∈ w.fg, (w.gens g).Regular x)
    (hp : ∀ b ∈ w.rb, ∀ q : Coord, x.pos b q = y.pos b q)
    (hv : ∀ b ∈ w.rb, ∀ q : Coord, x.vel b q = y.vel b q)
    {a : Nat → Coord → ℝ} {mult : Nat → Nat → ℝ} (st : w.Accel x a mult) : w.Accel y a mult := by
  have st' := st.congr p hg (y := { y with acc := x.acc }) ⟨hp, hv, fun _ _ _ => rfl⟩
  have hl : ∀ b q, w.load { y with acc := x.acc } b q = w.load y b q := fun b q => by
    refine sum_congr rfl fun g hg => ?_
    have := hr g (List.mem_toFinset.mp hg)
    cases h : w.gens g with
    | motor m =>
      rw [h] at this
      have hk : m.kd = 0 := this
      simp only [Gen.load, Motor.drive, motorTorque, hk, zero_mul]
    | _ => rfl
  refine ⟨fun b hb q => ?_, st'.indep, st'.ge, fun m e1 e2 h c hc j hj => ?_⟩
  · rw [← hl]; exact st'.newton b hb q
  · have := st'.cg m e1 e2 h c hc j hj
    simp only [hl] at this
    exact this

/-! ### The accelerations are Lipschitz -/

section
variable (hg : w.Driven)

theorem motionOf_smooth (b : Nat) (q : Coord) :
    ContDiff ℝ 1 (fun y : w.Pt × w.Pt => (w.motionOf y).pos b q) ∧
      ContDiff ℝ 1 (fun y : w.Pt × w.Pt => (w.motionOf y).vel b q) := by
  by_cases hb : b ∈ w.rb.toFinset
  · simp only [World.motionOf, dif_pos hb]
    exact ⟨by fun_prop, by fun_prop⟩
  · simp only [World.motionOf, dif_neg hb]
    exact ⟨contDiff_const, contDiff_const⟩

theorem q_smooth (c t : Nat) : ContDiff ℝ 1 (fun y : w.Pt × w.Pt => (w.motionOf y).q w c t) ∧
    ContDiff ℝ 1 (fun y : w.Pt × w.Pt => (w.motionOf y).u w c t) := by
  simp only [Motion.q, Motion.u]
  split
  · exact motionOf_smooth _ _
  · exact ⟨contDiff_const, contDiff_const⟩

theorem J_smooth (c j t : Nat) :
    ContDiff ℝ 1 (fun y : w.Pt × w.Pt => (w.rowsOf (w.motionOf y) c).J j t) :=
  jT_smooth _ (fun t => (q_smooth c t).1) _ _

theorem coef_smooth (c j b : Nat) (q : Coord) :
    ContDiff ℝ 1 (fun y : w.Pt × w.Pt => w.coef (w.rowsOf (w.motionOf y)) c j b q) := by
  simp only [World.coef]
  refine ContDiff.sum fun k _ => ?_
  split
  · exact J_smooth _ _ _
  · exact contDiff_const

theorem mat_smooth (i i' : w.RowIdx) : ContDiff ℝ 1 (fun y : w.Pt × w.Pt => w.matOf y i i') := by
  simp only [World.matOf, World.coupling]
  refine ContDiff.sum fun b _ => ?_
  have h := fun c j q => coef_smooth (w := w) c j b q
  simp only [Coord.sum]
  exact (((h _ _ _).mul contDiff_const).mul (h _ _ _)).add
    (((h _ _ _).mul contDiff_const).mul (h _ _ _)) |>.add
    (((h _ _ _).mul contDiff_const).mul (h _ _ _))

theorem worldLoad_lip {y : w.Pt × w.Pt} (hr : ∀ g ∈ w.fg, (w.gens g).Regular (w.motionOf y))
    (b : Nat) (q : Coord) : LipAt (fun y => w.load (w.motionOf y) b q) y :=
  LipAt.sum _ fun g hg => load_lip (fun b q => (motionOf_smooth b q).1)
    (fun b q => (motionOf_smooth b q).2) (hr g (List.mem_toFinset.mp hg)) _ _ _

theorem rowAt_lip {y : w.Pt × w.Pt} (c j : Nat) {u : w.Pt × w.Pt → Nat → Coord → ℝ}
    (hu : ∀ b q, LipAt (fun y => u y b q) y) :
    LipAt (fun y => w.rowAt (w.rowsOf (w.motionOf y) c) c j (u y)) y := by
  refine LipAt.sum _ fun k _ => ?_
  have h : ∀ q : Coord, LipAt (fun y => (w.rowsOf (w.motionOf y) c).J j (k * 3 + q.d) *
      u y (w.bodyOf c k) q) y := fun q => (ContDiff.lipAt (J_smooth _ _ _) y).mul (hu _ _)
  exact ((h .x).add (h .y)).add (h .th)

theorem rhs_lip {y : w.Pt × w.Pt} (hr : ∀ g ∈ w.fg, (w.gens g).Regular (w.motionOf y))
    (i : w.RowIdx) : LipAt (fun y => w.rhsOf y i) y := by
  have hv : ∀ b q, LipAt (fun y : w.Pt × w.Pt => (w.motionOf y).vel b q) y := fun b q =>
    ContDiff.lipAt (motionOf_smooth b q).2 y
  have hC : LipAt (fun y => (w.rowsOf (w.motionOf y) i.1).C i.2) y :=
    ContDiff.lipAt (cT_smooth _ (fun t => (q_smooth i.1 t).1) _) y
  have hd : LipAt (fun y => w.rowDot (w.rowsOf (w.motionOf y) i.1) i.1 i.2
      (w.motionOf y).vel) y := by
    refine LipAt.sum _ fun k _ => ?_
    have h : ∀ q : Coord, LipAt (fun y => (w.rowsOf (w.motionOf y) i.1).J_dot i.2 (k * 3 + q.d) *
        (w.motionOf y).vel (w.bodyOf i.1 k) q) y := fun q =>
      (ContDiff.lipAt (jdT_smooth _ (fun t => (q_smooth i.1 t).1)
        (fun t => (q_smooth i.1 t).2) _ _) y).mul (hv _ _)
    exact ((h .x).add (h .y)).add (h .th)
  exact ((hd.neg.sub ((LipAt.const _ _).mul hC)).sub ((LipAt.const _ _).mul
    (rowAt_lip _ _ hv))).sub (rowAt_lip _ _ fun b q => (worldLoad_lip hr b q).div_const _)

theorem field_lip (p : w.Placed) {y : w.Pt × w.Pt}
    (hr : ∀ g ∈ w.fg, (w.gens g).Regular (w.motionOf y))
    (hd : w.Indep (w.rowsOf (w.motionOf y))) : LipAt w.field y := by
  refine LipAt.pi fun i => ?_
  refine LipAt.div_const ((worldLoad_lip hr _ _).add (LipAt.sum _ fun r _ => ?_)) _
  refine LipAt.mul ?_ (ContDiff.lipAt (coef_smooth _ _ _ _) y)
  exact LipAt.cramerSol (fun i j => ContDiff.lipAt (mat_smooth i j) y) (fun i => rhs_lip hr i)
    ((det_iff p y).mpr hd) r

/-- Both conditions hold near a motion in which they hold. -/
theorem field_near (p : w.Placed) {y : w.Pt × w.Pt}
    (hr : ∀ g ∈ w.fg, (w.gens g).Regular (w.motionOf y))
    (hd : w.Indep (w.rowsOf (w.motionOf y))) :
    ∀ᶠ z in 𝓝 y, w.Indep (w.rowsOf (w.motionOf z)) ∧
      ∀ g ∈ w.fg, (w.gens g).Regular (w.motionOf z) := by
  have h1 : ∀ᶠ z in 𝓝 y, (w.matOf z).det ≠ 0 :=
    (LipAt.det fun i j => ContDiff.lipAt (mat_smooth i j) y).continuousAt.eventually_ne
      ((det_iff p y).mpr hd)
  have h2 : ∀ᶠ z in 𝓝 y, ∀ g ∈ w.fg, (w.gens g).Regular (w.motionOf z) := by
    have : ∀ g ∈ w.fg.toFinset, ∀ᶠ z in 𝓝 y, (w.gens g).Regular (w.motionOf z) := fun g hg => by
      have := hr g (List.mem_toFinset.mp hg)
      cases h : w.gens g with
      | spring s =>
        rw [h] at this
        cases e1 : s.body1 with
        | obj b1 =>
          cases e2 : s.body2 with
          | obj b2 =>
            have hn := this b1 b2 e1 e2
            have hp := fun b q => (motionOf_smooth (w := w) b q).1
            obtain ⟨p1, p2⟩ := point_smooth hp b1 s.p1_x s.p1_y
            obtain ⟨r1, r2⟩ := point_smooth hp b2 s.p2_x s.p2_y
            have hD : Continuous fun u => (((w.motionOf u).point b2 s.p2_x s.p2_y).1 -
                ((w.motionOf u).point b1 s.p1_x s.p1_y).1) ^ 2 +
                (((w.motionOf u).point b2 s.p2_x s.p2_y).2 -
                ((w.motionOf u).point b1 s.p1_x s.p1_y).2) ^ 2 := by
              have p1 := p1.continuous
              have p2 := p2.continuous
              have r1 := r1.continuous
              have r2 := r2.continuous
              fun_prop
            have hc : Continuous fun u => distOf ((w.motionOf u).point b1 s.p1_x s.p1_y)
                ((w.motionOf u).point b2 s.p2_x s.p2_y) := Real.continuous_sqrt.comp hD
            filter_upwards [hc.continuousAt.eventually_ne hn] with z hz c1 c2 f1 f2
            rw [e1] at f1
            rw [e2] at f2
            cases f1
            cases f2
            exact hz
          | _ => exact Eventually.of_forall fun z c1 c2 f1 f2 => by rw [e2] at f2; cases f2
        | _ => exact Eventually.of_forall fun z c1 c2 f1 f2 => by rw [e1] at f1; cases f1
      | motor m => rw [h] at this; exact Eventually.of_forall fun z => this
      | _ => exact Eventually.of_forall fun z => trivial
    have := (Filter.eventually_all_finset w.fg.toFinset).mpr this
    filter_upwards [this] with z hz g hg
    exact hz g (List.mem_toFinset.mpr hg)
  filter_upwards [h1, h2] with z a1 a2
  exact ⟨(det_iff p z).mp a1, a2⟩

end

end

end Scs
