import Verif.WorldMech

/-!
# Conservation of energy

C96: in the limit of small sub-steps the mechanical energy is conserved; dampers only take energy away.
-/

namespace Scs

open Finset

/-! ## C96 -/

/-- The potential energy that belongs to a force generator: of gravity over the bodies `S`, of a
constant force at its point of attack, and for a spring what `Spring::energy` returns. -/
noncomputable def Gen.stored (g : Gen ℝ) (S : Finset Nat) (bodies : Nat → Body ℝ) : ℝ :=
  match g with
  | .gravity a => ∑ b ∈ S, (bodies b).m * a * (bodies b).p_y
  | .static p => match p.body with
    | .obj b => -(p.f_x * ((bodies b).localToWorld p.p_x p.p_y).1 +
        p.f_y * ((bodies b).localToWorld p.p_x p.p_y).2)
    | _ => 0
  | .spring p => match p.energy bodies with
    | .ok e => e
    | .error _ => 0
  | _ => 0

/-- The mechanical energy of the registered bodies and force generators: the sum of what
`RigidBody::energy` returns and the potential energies. -/
noncomputable def World.mechanical (w : World ℝ) (h : List (Op ℝ)) : ℝ :=
  ∑ b ∈ regBodies h, (w.bodies b).energy +
    ∑ g ∈ regGens h, (w.gens g).stored (regBodies h) w.bodies

/-- Gravity, a constant force, or a spring without damping whose ends are more than 0.01 apart. -/
def Gen.Elastic (g : Gen ℝ) (bodies : Nat → Body ℝ) : Prop :=
  match g with
  | .gravity _ | .static _ => True
  | .spring p => p.kd = 0 ∧ ∀ b1 b2, p.body1 = .obj b1 → p.body2 = .obj b2 →
      1 / 100 < distOf ((bodies b1).localToWorld p.p1_x p.p1_y)
        ((bodies b2).localToWorld p.p2_x p.p2_y)
  | _ => False

/-- The same, where springs may be damped. -/
def Gen.Damping (g : Gen ℝ) (bodies : Nat → Body ℝ) : Prop :=
  match g with
  | .gravity _ | .static _ => True
  | .spring p => 0 ≤ p.kd ∧ ∀ b1 b2, p.body1 = .obj b1 → p.body2 = .obj b2 →
      1 / 100 < distOf ((bodies b1).localToWorld p.p1_x p.p1_y)
        ((bodies b2).localToWorld p.p2_x p.p2_y)
  | _ => False

section
variable {G : Gen ℝ → Prop} {h : List (Op ℝ)} {w w' : World ℝ} {env : Env ℝ} {dt : ℝ}
  {steps : Int} {o : Ode ℝ} {Y : ℝ → Motion} {lam : ℝ → Nat → Nat → ℝ} {cls : Cls}

theorem now_point (b : Nat) (px py : ℝ) :
    w.now.point b px py = (w.bodies b).localToWorld px py := by
  simp only [Motion.point, World.now, Body.localToWorld, Body.pos]
  exact Prod.ext (add_comm _ _) (add_comm _ _)

theorem stored_now (g : Gen ℝ) (S : Finset Nat) :
    g.stored S w.bodies = g.potOf (fun b => (w.bodies b).m) S w.now := by
  cases g with
  | gravity a => rfl
  | static p =>
    cases h1 : p.body with
    | obj b => simp only [Gen.stored, Gen.potOf, h1, now_point]
    | _ => simp only [Gen.stored, Gen.potOf, h1]
  | spring p =>
    cases h1 : p.body1 with
    | null => simp [Gen.stored, Gen.potOf, Spring.energy, h1, Ptr.isNull, pure, Except.pure, bind, Except.bind, fp_lit]
    | uninit => simp [Gen.stored, Gen.potOf, Spring.energy, h1, Ptr.isNull, bind, Except.bind]
    | obj b1 =>
      cases h2 : p.body2 with
      | null => simp [Gen.stored, Gen.potOf, Spring.energy, h1, h2, Ptr.isNull, pure, Except.pure, bind, Except.bind, fp_lit]
      | uninit => simp [Gen.stored, Gen.potOf, Spring.energy, h1, h2, Ptr.isNull, pure, Except.pure, bind, Except.bind]
      | obj b2 =>
        have e : p.energy w.bodies = .ok (p.ks * (distOf (w.now.point b1 p.p1_x p.p1_y)
            (w.now.point b2 p.p2_x p.p2_y) - p.restLength) ^ 2 / 2) := by
          simp only [Spring.energy, h1, h2, Ptr.isNull, Ptr.get, ok_bind]
          rw [if_neg (by decide), if_neg (by decide), now_point, now_point]
          refine congrArg Except.ok ?_
          simp only [fp_lit, distOf, pow_two]
          show _ * _ * (√_ - _) * (√_ - _) = _
          push_cast
          ring
        simp only [Gen.stored, Gen.potOf, h1, h2, e]
  | motor p => rfl
  | custom f => rfl

theorem mechanical_now (r : w.Regs cls h) : w.mechanical h = w.mechOf w.now := by
  rw [World.mechanical, World.mechOf, World.energyOf, r.rb_finset, r.fg_finset]
  congr 1
  · refine sum_congr rfl fun b _ => ?_
    simp only [Body.energy, Coord.sum, Body.mass, World.now, Body.vel, fp_lit]
    push_cast
    ring
  · exact sum_congr rfl fun g _ => stored_now _ _

/-! ### Exact motions of the generic system that keep the constraints -/

/-- If the constraints hold at the start and have no bias speeds, an exact motion of the generic system
keeps them. -/
theorem World.ExactMotion.held (r : w.Regs cls h) (p : w.Placed) (pr : w.Proper) {T : ℝ}
    (hT : 0 < T) (hY : w.ExactMotion h T Y lam)
    (hh : ∀ c ∈ regCons h, ∀ j, j < (w.cons c).rows → (w.rowsOf w.now c).C j = 0 ∧
      w.rowAt (w.rowsOf w.now c) c j w.now.vel = 0 ∧ (w.rowsOf w.now c).v_bias j = 0) :
    w.HeldMotion h T Y lam := by
  refine ⟨hY.start, hY.pos, hY.vel, hY.newton, fun t ht c hc j hj => ?_, hY.indep, hY.regular⟩
  have hc' := (r.cons.mem c).mpr hc
  obtain ⟨i1, i2, i3⟩ := hh c hc j hj
  have same0 : w.SameAs { Y 0 with acc := fun _ _ => 0 } w.now :=
    ⟨fun b hb q => (hY.start b ((r.bodies.mem b).mp hb) q).1,
      fun b hb q => (hY.start b ((r.bodies.mem b).mp hb) q).2, fun _ _ _ => rfl⟩
  have r0 : w.rowsOf (Y 0) c = w.rowsOf w.now c := rowsOf_congr p same0 hc'
  have v0 : w.rowAt (w.rowsOf w.now c) c j (Y 0).vel =
      w.rowAt (w.rowsOf w.now c) c j w.now.vel :=
    sum_congr rfl fun k hk => Coord.sum_congr fun q => by
      rw [same0.vel _ (p.bodies c hc' k (mem_range.mp hk)).2 q]
  have hbias : (w.rowsOf (Y t) c).v_bias j = 0 := i3
  have zc : ∀ t ∈ Set.Icc 0 T, HasDerivWithinAt (fun _ : ℝ => (0 : ℝ)) ((fun _ : ℝ => (0 : ℝ)) t)
      (Set.Icc 0 T) t := fun t _ => hasDerivWithinAt_const _ _ _
  have zu : ∀ ks kd : ℝ, ∀ t ∈ Set.Icc 0 T, HasDerivWithinAt (fun _ : ℝ => (0 : ℝ))
      (-(ks * (fun _ : ℝ => (0 : ℝ)) t) - kd * (fun _ : ℝ => (0 : ℝ)) t)
      (Set.Icc 0 T) t := fun ks kd t _ =>
    (hasDerivWithinAt_const t (Set.Icc 0 T) (0 : ℝ)).congr_deriv (by simp)
  have row := fun t ht => hY.row r p pr hc hj (t := t) ht
  rw [hbias, add_zero]
  by_cases hp : (w.cons c).kind.Positional
  · exact damped_unique (fun t ht => (row t ht).1 hp) (fun t ht => (row t ht).2) zc
      (zu _ _) ⟨by rw [r0, i1], by rw [r0, v0, i2]⟩ ht
  · have c0 : ∀ s, (w.rowsOf (Y s) c).C j = 0 := fun s => CKind.cT_free hp _ _
    have hu : ∀ t ∈ Set.Icc 0 T,
        HasDerivWithinAt (fun s => w.rowAt (w.rowsOf (Y s) c) c j (Y s).vel)
          (-((w.cons c).kind.kdT j) * w.rowAt (w.rowsOf (Y t) c) c j (Y t).vel) (Set.Icc 0 T) t :=
      fun t ht => (row t ht).2.congr_deriv (by
        rw [c0]
        show _ - (w.cons c).kind.kdT j * _ = _
        ring)
    refine ⟨c0 t, (damped_unique (ks := 0) (kd := (w.cons c).kind.kdT j)
      (z := fun s => w.rowAt (w.rowsOf (Y s) c) c j (Y s).vel) hu (fun t ht =>
        ((hu t ht).const_mul (-((w.cons c).kind.kdT j))).congr_deriv (by ring)) zc (zu _ _)
      ⟨by rw [r0, v0, i2], by rw [r0, v0, i2, mul_zero]⟩ ht).1⟩

/-! ### Energy along an exact motion -/

theorem Gen.Elastic.stretched {g : Gen ℝ} (hg : g.Elastic w.bodies) : g.Stretched w.now ∧
    g.Damping w.bodies ∧ ∀ x, g.lossOf x = 0 := by
  cases g with
  | gravity a => exact ⟨trivial, trivial, fun _ => rfl⟩
  | static p => exact ⟨trivial, trivial, fun _ => rfl⟩
  | spring p =>
    refine ⟨fun b1 b2 h1 h2 => by rw [now_point, now_point]; exact hg.2 b1 b2 h1 h2,
      ⟨hg.1.ge, hg.2⟩, fun x => ?_⟩
    simp only [Gen.lossOf, hg.1, zero_mul]
    split <;> rfl
  | motor p => exact hg.elim
  | custom f => exact hg.elim

theorem Gen.Damping.stretched {g : Gen ℝ} (hg : g.Damping w.bodies) : g.Stretched w.now ∧
    ∀ x, 0 ≤ g.lossOf x := by
  cases g with
  | gravity a => exact ⟨trivial, fun _ => le_rfl⟩
  | static p => exact ⟨trivial, fun _ => le_rfl⟩
  | spring p =>
    refine ⟨fun b1 b2 h1 h2 => by rw [now_point, now_point]; exact hg.2 b1 b2 h1 h2, fun x => ?_⟩
    have := hg.1
    simp only [Gen.lossOf]
    split
    · positivity
    · exact le_rfl
  | motor p => exact hg.elim
  | custom f => exact hg.elim

theorem Gen.Stretched.congr {g : Gen ℝ} (hg : g.Within (· ∈ w.rb)) {x y : Motion}
    (hp : ∀ b ∈ w.rb, ∀ q : Coord, x.pos b q = y.pos b q) (h : g.Stretched x) : g.Stretched y := by
  cases g with
  | spring s =>
    intro b1 b2 e1 e2
    have m : b1 ∈ w.rb ∧ b2 ∈ w.rb := by
      rcases hg with hn | ⟨⟨c1, m1, f1⟩, hn | ⟨c2, m2, f2⟩⟩
      · rw [hn] at e1; cases e1
      · rw [hn] at e2; cases e2
      · rw [f1] at e1
        rw [f2] at e2
        cases e1
        cases e2
        exact ⟨m1, m2⟩
    have := h b1 b2 e1 e2
    simp only [Motion.point, hp b1 m.1, hp b2 m.2] at this
    exact this
  | motor m => exact h
  | custom f => exact h
  | _ => trivial

theorem potOf_congr {g : Gen ℝ} (hg : g.Within (· ∈ w.rb)) (m : Nat → ℝ) {x y : Motion}
    (hp : ∀ b ∈ w.rb, ∀ q : Coord, x.pos b q = y.pos b q) :
    g.potOf m w.rb.toFinset x = g.potOf m w.rb.toFinset y := by
  cases g with
  | gravity a => exact sum_congr rfl fun b hb => by rw [hp b (List.mem_toFinset.mp hb)]
  | static p =>
    obtain ⟨b, hb, e⟩ := hg
    simp only [Gen.potOf, e, Motion.point, hp b hb]
  | spring s =>
    rcases hg with hn | ⟨⟨c1, m1, f1⟩, hn | ⟨c2, m2, f2⟩⟩
    · simp only [Gen.potOf, hn]
    · simp only [Gen.potOf, hn, f1]
    · simp only [Gen.potOf, f1, f2, Motion.point, hp c1 m1, hp c2 m2]
  | motor m => rfl
  | custom f => rfl

theorem mechOf_congr (hd : w.Driven) {x y : Motion}
    (hp : ∀ b ∈ w.rb, ∀ q : Coord, x.pos b q = y.pos b q)
    (hv : ∀ b ∈ w.rb, ∀ q : Coord, x.vel b q = y.vel b q) : w.mechOf x = w.mechOf y := by
  rw [World.mechOf, World.mechOf, World.energyOf_congr hv]
  congr 1
  exact sum_congr rfl fun g hg => potOf_congr (hd.2 g (List.mem_toFinset.mp hg)) _ hp

theorem pot_lip {g : Gen ℝ} {B : Finset Nat} (m : Nat → ℝ) {y : w.Pt × w.Pt}
    (hs : g.Stretched (w.motionOf y)) :
    LipAt (fun y : w.Pt × w.Pt => g.potOf m B (w.motionOf y)) y := by
  have hp : ∀ b q, ContDiff ℝ 1 fun y : w.Pt × w.Pt => (w.motionOf y).pos b q := fun b q =>
    (motionOf_smooth b q).1
  cases g with
  | gravity a => exact LipAt.sum _ fun b _ => (LipAt.const _ _).mul (ContDiff.lipAt (hp b .y) y)
  | static p =>
    simp only [Gen.potOf]
    cases h1 : p.body with
    | obj b =>
      obtain ⟨p1, p2⟩ := point_smooth hp b p.p_x p.p_y
      exact (((LipAt.const _ _).mul (ContDiff.lipAt p1 y)).add
        ((LipAt.const _ _).mul (ContDiff.lipAt p2 y))).neg
    | _ => exact LipAt.const _ _
  | spring p =>
    simp only [Gen.potOf]
    cases h1 : p.body1 with
    | null => exact LipAt.const _ _
    | uninit => exact LipAt.const _ _
    | obj b1 =>
      cases h2 : p.body2 with
      | null => exact LipAt.const _ _
      | uninit => exact LipAt.const _ _
      | obj b2 =>
        have hl := hs b1 b2 h1 h2
        obtain ⟨p1, p2⟩ := point_smooth hp b1 p.p1_x p.p1_y
        obtain ⟨r1, r2⟩ := point_smooth hp b2 p.p2_x p.p2_y
        have hD : ContDiff ℝ 1 fun u : w.Pt × w.Pt =>
            (((w.motionOf u).point b2 p.p2_x p.p2_y).1 -
              ((w.motionOf u).point b1 p.p1_x p.p1_y).1) ^ 2 +
            (((w.motionOf u).point b2 p.p2_x p.p2_y).2 -
              ((w.motionOf u).point b1 p.p1_x p.p1_y).2) ^ 2 := by fun_prop
        have h0 : (((w.motionOf y).point b2 p.p2_x p.p2_y).1 -
              ((w.motionOf y).point b1 p.p1_x p.p1_y).1) ^ 2 +
            (((w.motionOf y).point b2 p.p2_x p.p2_y).2 -
              ((w.motionOf y).point b1 p.p1_x p.p1_y).2) ^ 2 ≠ 0 := by
          intro h0
          rw [distOf, h0, Real.sqrt_zero] at hl
          norm_num at hl
        have dl : LipAt (fun u : w.Pt × w.Pt => distOf ((w.motionOf u).point b1 p.p1_x p.p1_y)
            ((w.motionOf u).point b2 p.p2_x p.p2_y) - p.restLength) y :=
          (ContDiffAt.lipAt (hD.contDiffAt.sqrt h0)).sub (LipAt.const _ _)
        simp only [pow_two]
        exact ((LipAt.const _ _).mul (dl.mul dl)).div_const 2
  | motor p => exact hs.elim
  | custom f => exact hs.elim

theorem mech_lip {y : w.Pt × w.Pt} (hs : ∀ g ∈ w.fg, (w.gens g).Stretched (w.motionOf y)) :
    LipAt (fun y : w.Pt × w.Pt => w.mechOf (w.motionOf y)) y := by
  refine LipAt.add ?_ (LipAt.sum _ fun g hg => pot_lip _ (hs g (List.mem_toFinset.mp hg)))
  have hv : ∀ b q, ContDiff ℝ 1 fun y : w.Pt × w.Pt => (w.motionOf y).vel b q := fun b q =>
    (motionOf_smooth b q).2
  refine LipAt.sum _ fun b _ => LipAt.div_const (ContDiff.lipAt ?_ y) 2
  have h1 := hv b .x
  have h2 := hv b .y
  have h3 := hv b .th
  simp only [Coord.sum]
  fun_prop

/-- What depends smoothly on positions and velocities converges like they do. -/
theorem carry (r : w.Regs cls h) {F : w.Pt × w.Pt → ℝ} (hF : LipAt F (w.pack (Y dt)))
    (conv : ∃ (N : Int) (E : ℝ), ∀ steps, N ≤ steps → ∀ env : Env ℝ,
      ∃ w', w.process cls env dt steps = .ok w' ∧ ∀ b ∈ regBodies h, ∀ q : Coord,
          |(w'.bodies b).pos q - (Y dt).pos b q| ≤ E / steps ∧
          |(w'.bodies b).vel q - (Y dt).vel b q| ≤ E / steps) :
    ∃ (N : Int) (E : ℝ), ∀ steps, N ≤ steps → ∀ env : Env ℝ,
      ∃ w', w.process cls env dt steps = .ok w' ∧
        |F (w.pack w'.now) - F (w.pack (Y dt))| ≤ E / steps := by
  obtain ⟨L, U, hL, hU, key⟩ := hF.weaken
  obtain ⟨ε, hε, hball⟩ := Metric.mem_nhds_iff.mp hU
  obtain ⟨N, E, conv⟩ := conv
  obtain ⟨M, hM⟩ := exists_nat_gt (|E| / ε)
  have hMpos : (0 : ℝ) < M := lt_of_le_of_lt (by positivity) hM
  refine ⟨max N M, L * |E|, fun steps hsteps env => ?_⟩
  obtain ⟨w', e, hb⟩ := conv steps (le_of_max_le_left hsteps) env
  have hMs : (M : ℝ) ≤ steps := by exact_mod_cast le_of_max_le_right hsteps
  have hpos : (0 : ℝ) < steps := hMpos.trans_le hMs
  have hn : ‖w.pack w'.now - w.pack (Y dt)‖ ≤ |E| / steps := by
    have hle : E / steps ≤ |E| / steps := div_le_div_of_nonneg_right (le_abs_self E) hpos.le
    refine norm_prod_le_iff.mpr ⟨?_, ?_⟩
    · refine (pi_norm_le_iff_of_nonneg (by positivity)).mpr fun i => ?_
      exact ((hb _ ((r.bodies.mem _).mp (List.mem_toFinset.mp i.1.2)) i.2).1).trans hle
    · refine (pi_norm_le_iff_of_nonneg (by positivity)).mpr fun i => ?_
      exact ((hb _ ((r.bodies.mem _).mp (List.mem_toFinset.mp i.1.2)) i.2).2).trans hle
  have hin : w.pack w'.now ∈ U := hball (by
    rw [Metric.mem_ball, dist_eq_norm]
    refine hn.trans_lt ?_
    rw [div_lt_iff₀ hpos]
    rw [div_lt_iff₀ hε] at hM
    nlinarith)
  have hdiff := (key _ hin _ (mem_of_mem_nhds hU)).trans (mul_le_mul_of_nonneg_left hn hL)
  rw [← mul_div_assoc] at hdiff
  exact ⟨w', e, hdiff⟩

/-- Energy along a motion that keeps the constraints. -/
theorem World.HeldMotion.energy (r : w.Regs cls h) (p : w.Placed) (hd : w.Driven) {T : ℝ}
    (hT : 0 < T) (hY : w.HeldMotion h T Y lam)
    (hz : ∀ c ∈ regCons h, ∀ j, j < (w.cons c).rows → (w.rowsOf w.now c).v_bias j = 0)
    (hg : ∀ g ∈ regGens h, (w.gens g).Damping w.bodies) :
    (∀ t ∈ Set.Icc 0 T, ∀ g ∈ w.fg, (w.gens g).Stretched (Y t)) ∧ w.mechOf (Y 0) = w.mechOf w.now ∧
    ∀ t ∈ Set.Icc 0 T,
      HasDerivWithinAt (fun s => w.mechOf (Y s)) (-w.lossOf (Y t)) (Set.Icc 0 T) t := by
  have hpos : ∀ t ∈ Set.Icc 0 T, ∀ b ∈ w.rb, ∀ q : Coord,
      HasDerivWithinAt (fun s => (Y s).pos b q) ((Y t).vel b q) (Set.Icc 0 T) t :=
    fun t ht b hb => hY.pos t ht b ((r.bodies.mem b).mp hb)
  have hvel : ∀ t ∈ Set.Icc 0 T, ∀ b ∈ w.rb, ∀ q : Coord,
      HasDerivWithinAt (fun s => (Y s).vel b q) ((Y t).acc b q) (Set.Icc 0 T) t :=
    fun t ht b hb => hY.vel t ht b ((r.bodies.mem b).mp hb)
  have hst : ∀ t ∈ Set.Icc 0 T, ∀ g ∈ w.fg, (w.gens g).Stretched (Y t) := fun t ht g hg' => by
    have hg2 := (r.gens.mem g).mp hg'
    refine stretched_along (B := w.rb.toFinset)
      ((hd.2 g hg').mono fun b hb => List.mem_toFinset.mpr hb)
      (fun t ht b hb => hpos t ht b (List.mem_toFinset.mp hb)) (fun t ht => hY.regular t ht g hg2) ?_ ht
    exact (hg g hg2).stretched.1.congr (hd.2 g hg') fun b hb q =>
      ((hY.start b ((r.bodies.mem b).mp hb) q).1).symm
  refine ⟨hst, mechOf_congr hd (fun b hb q => (hY.start b ((r.bodies.mem b).mp hb) q).1)
    (fun b hb q => (hY.start b ((r.bodies.mem b).mp hb) q).2), fun t ht => ?_⟩
  refine (mech_along p hd (hpos t ht) (hvel t ht) (mult := lam t)
    (fun b hb q => hY.newton t ht b ((r.bodies.mem b).mp hb) q) (hst t ht)).congr_deriv ?_
  rw [sum_eq_zero fun c hc => sum_eq_zero fun j hj => ?_, zero_sub]
  have hc' := (r.cons.mem c).mp (List.mem_toFinset.mp hc)
  have h1 := (hY.held t ht c hc' j (mem_range.mp hj)).2
  have h2 : (w.rowsOf (Y t) c).v_bias j = 0 := hz c hc' j (mem_range.mp hj)
  rw [h2, add_zero] at h1
  rw [h1, mul_zero]

theorem World.HeldMotion.carried (hw : World.Hist G cls h w) (p : w.Placed) (hd : w.Driven)
    (hdt : 0 < dt) (hY : w.HeldMotion h dt Y lam)
    (hz : ∀ c ∈ regCons h, ∀ j, j < (w.cons c).rows → (w.rowsOf w.now c).v_bias j = 0)
    (hg : ∀ g ∈ regGens h, (w.gens g).Damping w.bodies)
    (conv : ∃ (N : Int) (E : ℝ), ∀ steps, N ≤ steps → ∀ env : Env ℝ,
      ∃ w', w.process cls env dt steps = .ok w' ∧ ∀ b ∈ regBodies h, ∀ q : Coord,
          |(w'.bodies b).pos q - (Y dt).pos b q| ≤ E / steps ∧
          |(w'.bodies b).vel q - (Y dt).vel b q| ≤ E / steps) :
    ∃ (N : Int) (E : ℝ), ∀ steps, N ≤ steps → ∀ env : Env ℝ,
      ∃ w', w.process cls env dt steps = .ok w' ∧
        |w'.mechanical h - w.mechOf (Y dt)| ≤ E / steps := by
  obtain ⟨hst, -, -⟩ := hY.energy hw.regs p hd hdt hz hg
  have hT : dt ∈ Set.Icc 0 dt := ⟨hdt.le, le_rfl⟩
  have s : ∀ x : Motion, w.mechOf (w.motionOf (w.pack x)) = w.mechOf x := fun x =>
    mechOf_congr hd (fun b hb q => motionOf_pos _ hb q) (fun b hb q => motionOf_vel _ hb q)
  obtain ⟨N, E, key⟩ := carry hw.regs (mech_lip (w := w) (y := w.pack (Y dt)) fun g hg' =>
    (hst dt hT g hg').congr (hd.2 g hg') fun b hb q =>
      (motionOf_pos (w.pack (Y dt)) hb q).symm) conv
  refine ⟨N, E, fun steps hs env => ?_⟩
  obtain ⟨w', e, k⟩ := key steps hs env
  refine ⟨w', e, ?_⟩
  have hmv := C56_process_only_moves hw e
  have e1 : w'.mechanical h = w.mechOf w'.now := by
    rw [World.mechanical, World.mechOf, World.energyOf, hw.regs.rb_finset, hw.regs.fg_finset]
    congr 1
    · refine sum_congr rfl fun b _ => ?_
      simp only [Body.energy, Coord.sum, Body.mass, World.now, Body.vel, fp_lit, hmv.mass,
        hmv.inertia]
      push_cast
      ring
    · refine sum_congr rfl fun g _ => ?_
      rw [stored_now, hmv.gens]
      simp only [hmv.mass]
  rw [e1, ← s w'.now, ← s (Y dt)]
  exact k

theorem energy_kept {f : ℝ → ℝ} {T : ℝ} (hT : 0 < T)
    (hf : ∀ t ∈ Set.Icc 0 T, HasDerivWithinAt f 0 (Set.Icc 0 T) t) : f T = f 0 := by
  have := (convex_Icc 0 T).norm_image_sub_le_of_norm_hasDerivWithin_le (C := 0) hf
    (fun _ _ => by simp) ⟨le_rfl, hT.le⟩ ⟨hT.le, le_rfl⟩
  rw [zero_mul] at this
  exact sub_eq_zero.mp (norm_le_zero_iff.mp this)

theorem energy_lost {f f' : ℝ → ℝ} {T : ℝ} (hT : 0 < T)
    (hf : ∀ t ∈ Set.Icc 0 T, HasDerivWithinAt f (-f' t) (Set.Icc 0 T) t)
    (h0 : ∀ t, 0 ≤ f' t) : f T ≤ f 0 := by
  have := antitoneOn_of_hasDerivWithinAt_nonpos (convex_Icc 0 T) (f := f) (f' := fun t => -f' t)
    (fun t ht => (hf t ht).continuousWithinAt)
    (fun t ht => (hf t (interior_subset ht)).mono interior_subset)
    (fun t _ => neg_nonpos.mpr (h0 t))
  exact this ⟨le_rfl, hT.le⟩ ⟨hT.le, le_rfl⟩ hT.le

/-- **C96.** In a scene of gravity, constant forces and undamped springs, whose constraints hold at the
start and drive nothing, the optimized system conserves the mechanical energy up to a constant divided
by the number of sub-steps. -/
theorem C96_conserved (hG : ∀ g, G g → g.OnlyForces) (hw : World.Hist G .opt h w)
    (hst : w.Standard h) (hs : w.sle = some .ge) (hne : regCons h ≠ ∅) (hb0 : 0 < w.bias)
    (hb2 : w.bias < 2)
    (hm : ∀ b ∈ regBodies h, (w.bodies b).m ≠ 0 ∧ (w.bodies b).I ≠ 0) (hdt : 0 < dt)
    (hY : w.HeldMotion h dt Y lam)
    (hz : ∀ c ∈ regCons h, ∀ j, j < (w.cons c).rows → (w.rowsOf w.now c).v_bias j = 0)
    (hg : ∀ g ∈ regGens h, (w.gens g).Elastic w.bodies) :
    ∃ (N : Int) (E : ℝ), ∀ steps, N ≤ steps → ∀ env : Env ℝ,
      ∃ w', w.process .opt env dt steps = .ok w' ∧
        |w'.mechanical h - w.mechanical h| ≤ E / steps := by
  have p := (hw.ready hG hst.wired).2
  have hd := hst.driven hw.regs
  have hg' : ∀ g ∈ regGens h, (w.gens g).Damping w.bodies := fun g h => (hg g h).stretched.2.1
  obtain ⟨-, e0, der⟩ := hY.energy hw.regs p hd hdt hz hg'
  have hl : ∀ x, w.lossOf x = 0 := fun x => sum_eq_zero fun g hg' =>
    (hg g ((hw.regs.gens.mem g).mp (List.mem_toFinset.mp hg'))).stretched.2.2 x
  rw [mechanical_now hw.regs, ← e0, ← energy_kept hdt fun t ht =>
    (der t ht).congr_deriv (by rw [hl, neg_zero])]
  obtain ⟨N, E, key⟩ := C95_converges hG hw hst hs hne hb0 hb2 hm hdt hY
  exact hY.carried hw p hd hdt hz hg' ⟨N, E, fun steps hs env => by
    obtain ⟨w', e, k, _⟩ := key steps hs env
    exact ⟨w', e, k⟩⟩

/-- The claim applied to a body that slides down an inclined line. -/
example : ∃ (h : List (Op ℝ)) (w : World ℝ), World.Hist Gen.Shipped .opt h w ∧ w.Standard h ∧
    ∃ (N : Int) (E : ℝ), ∀ steps, N ≤ steps → ∀ env : Env ℝ,
      ∃ w', w.process .opt env 2 steps = .ok w' ∧
        |w'.mechanical h - w.mechanical h| ≤ E / steps := by
  obtain ⟨h, w, d⟩ := demo (.line ⟨0, 0, 0, 0, 3, 4, 0, 0⟩) (g := .gravity 9) trivial (cs := [0])
    (fg := [0]) (by decide) (by decide) .ge
  have hst := d.standard (.inl (by simp [CKind.counts])) trivial
  exact ⟨h, w, d.hist, hst, C96_conserved (fun g => Gen.tame) d.hist hst d.sle
    (ne_empty_of_mem (d.mem0 rfl)) (by rw [d.bias]; norm_num) (by rw [d.bias]; norm_num) d.masses
    two_pos (demoSlide_held d.toDemoSys 2)
    (fun c _ j _ => by simp only [World.rowsOf, d.kind, CKind.biasT])
    (fun g _ => by rw [d.gens]; trivial)⟩

/-- Two linked bodies that move together, with a spring between them. -/
theorem linked_start {f ks kd : ℝ} {p : Spring ℝ} {sv : Solver ℝ}
    (d : DemoSys (.link ⟨0, 0, -1, -2, f, ks, kd⟩) (.spring p) [0] [0] sv h w) :
    ∀ c ∈ regCons h, ∀ j, j < (w.cons c).rows → (w.rowsOf w.now c).C j = 0 ∧
      w.rowAt (w.rowsOf w.now c) c j w.now.vel = 0 ∧ (w.rowsOf w.now c).v_bias j = 0 := by
  have hrow : (w.cons 0).rows = 2 := d.rows 0
  have hbc : (w.cons 0).bodyCount = 2 := d.count 0
  have ep : ∀ b q, w.now.pos b q = (demoBody b).pos q := fun b q => d.pos b q
  have ev : ∀ b q, w.now.vel b q = (demoBody b).vel q := fun b q => d.vel b q
  intro c hc j hj
  have hc0 : c = 0 := by simpa [d.regC] using hc
  subst hc0
  obtain ⟨q0, q1, q2, q3, q4, q5⟩ := q_two hbc (d.bodies 0 0) (d.bodies 0 1) (x := w.now)
  have hj2 : j = 0 ∨ j = 1 := by omega
  rcases hj2 with rfl | rfl
  all_goals
    simp only [World.rowAt, hbc, sum_range_succ, sum_range_zero, d.bodyOf, World.rowsOf, d.kind,
      Coord.sum, Coord.d, CKind.jT, CKind.cT, CKind.biasT, q0, q1, q2, q3, q4, q5, ep, ev,
      demoBody, Body.pos, Body.vel, rx, ry]
    norm_num

/-- The centres of the two bodies are more than 0.01 apart. -/
theorem centres_apart {K : CKind ℝ} {g : Gen ℝ} {sv : Solver ℝ} {cs fg : List Nat}
    (d : DemoSys K g cs fg sv h w) :
    1 / 100 < distOf (w.now.point 0 0 0) (w.now.point 1 0 0) := by
  have ep : ∀ b q, w.now.pos b q = (demoBody b).pos q := fun b q => d.pos b q
  simp only [distOf, Motion.point, ep, demoBody, Body.pos]
  refine Real.lt_sqrt_of_sq_lt ?_
  norm_num

/-- **C96.** If springs are damped, the mechanical energy does not increase, up to a constant divided by
the number of sub-steps. -/
theorem C96_damped (hG : ∀ g, G g → g.OnlyForces) (hw : World.Hist G .opt h w)
    (hst : w.Standard h) (hs : w.sle = some .ge) (hne : regCons h ≠ ∅) (hb0 : 0 < w.bias)
    (hb2 : w.bias < 2)
    (hm : ∀ b ∈ regBodies h, (w.bodies b).m ≠ 0 ∧ (w.bodies b).I ≠ 0) (hdt : 0 < dt)
    (hY : w.HeldMotion h dt Y lam)
    (hz : ∀ c ∈ regCons h, ∀ j, j < (w.cons c).rows → (w.rowsOf w.now c).v_bias j = 0)
    (hg : ∀ g ∈ regGens h, (w.gens g).Damping w.bodies) :
    ∃ (N : Int) (E : ℝ), ∀ steps, N ≤ steps → ∀ env : Env ℝ,
      ∃ w', w.process .opt env dt steps = .ok w' ∧
        w'.mechanical h ≤ w.mechanical h + E / steps := by
  have p := (hw.ready hG hst.wired).2
  have hd := hst.driven hw.regs
  obtain ⟨-, e0, der⟩ := hY.energy hw.regs p hd hdt hz hg
  have hl : ∀ x, 0 ≤ w.lossOf x := fun x => sum_nonneg fun g hg' =>
    (hg g ((hw.regs.gens.mem g).mp (List.mem_toFinset.mp hg'))).stretched.2 x
  have hle := energy_lost hdt der fun t => hl _
  rw [mechanical_now hw.regs, ← e0]
  obtain ⟨N, E, key⟩ := C95_converges hG hw hst hs hne hb0 hb2 hm hdt hY
  obtain ⟨N, E, key⟩ := hY.carried hw p hd hdt hz hg ⟨N, E, fun steps hs env => by
    obtain ⟨w', e, k, _⟩ := key steps hs env
    exact ⟨w', e, k⟩⟩
  refine ⟨N, E, fun steps hs env => ?_⟩
  obtain ⟨w', e, k⟩ := key steps hs env
  refine ⟨w', e, ?_⟩
  have := (abs_le.mp k).2
  linarith

/-- The claim applied to two linked bodies with a damped spring between them. -/
example (f ks kd : ℝ) : ∃ (h : List (Op ℝ)) (w : World ℝ), World.Hist Gen.Shipped .opt h w ∧
    ∃ dt : ℝ, 0 < dt ∧ ∃ (N : Int) (E : ℝ), ∀ steps, N ≤ steps → ∀ env : Env ℝ,
      ∃ w', w.process .opt env dt steps = .ok w' ∧
        w'.mechanical h ≤ w.mechanical h + E / steps := by
  obtain ⟨h, w, d⟩ := demo (.link ⟨0, 0, -1, -2, f, ks, kd⟩)
    (g := .spring ⟨1, 7, 1, 0, 0, 0, 0, .obj 0, .obj 1⟩) trivial (cs := [0]) (fg := [0]) (by decide)
    (by decide) .ge
  have hst := d.standard (.inl (by simp [CKind.counts]))
    (.inr ⟨⟨0, by simp, rfl⟩, .inr ⟨1, by simp, rfl⟩⟩)
  have hi := d.solvable (d.rank_pins (pins_link _) w.now) trivial
    (by rw [d.full]; simp [CKind.counts]) (.inl (by simp))
  have hh := linked_start d.toDemoSys
  have ha := centres_apart d.toDemoSys
  obtain ⟨T, hT, Y, lam, hY⟩ := C95_exact_motion_exists (fun g => Gen.tame) d.hist hst d.masses
    (fun c hc j hj => ⟨(hh c hc j hj).1, by rw [(hh c hc j hj).2.1, (hh c hc j hj).2.2, add_zero]⟩)
    (by simpa [World.Solvable, d.sle] using hi) (fun g _ => by
      rw [d.gens]
      intro b1 b2 e1 e2
      cases e1
      cases e2
      exact ha.ne')
  exact ⟨h, w, d.hist, T, hT, C96_damped (fun g => Gen.tame) d.hist hst d.sle
    (ne_empty_of_mem (d.mem0 rfl)) (by rw [d.bias]; norm_num) (by rw [d.bias]; norm_num) d.masses
    hT hY (fun c hc j hj => (hh c hc j hj).2.2) (fun g _ => by
      rw [d.gens]
      refine ⟨zero_le_one, fun b1 b2 e1 e2 => ?_⟩
      cases e1
      cases e2
      rw [← now_point, ← now_point]
      exact ha)⟩

/-- **C96.** The generic system with any of its ODE solvers conserves the mechanical energy in the same
sense. -/
theorem C96_conserved_generic (hG : ∀ g, G g → g.OnlyForces) (hw : World.Hist G .gen h w)
    (hst : w.Standard h) (hs : w.sle = some .ge) (hode : w.ode = some o) (ho : o.sort ≠ 0)
    (hsync : o.sort = 3 → InSync h) (hne : regCons h ≠ ∅)
    (hm : ∀ b ∈ regBodies h, (w.bodies b).m ≠ 0 ∧ (w.bodies b).I ≠ 0) (hdt : 0 < dt)
    (hY : w.ExactMotion h dt Y lam)
    (hz : ∀ c ∈ regCons h, ∀ j, j < (w.cons c).rows → (w.rowsOf w.now c).C j = 0 ∧
      w.rowAt (w.rowsOf w.now c) c j w.now.vel = 0 ∧ (w.rowsOf w.now c).v_bias j = 0)
    (hg : ∀ g ∈ regGens h, (w.gens g).Elastic w.bodies) :
    ∃ (N : Int) (E : ℝ), ∀ steps, N ≤ steps → ∀ env : Env ℝ,
      ∃ w', w.process .gen env dt steps = .ok w' ∧
        |w'.mechanical h - w.mechanical h| ≤ E / steps := by
  have p := (hw.readyG hG hst.wired).2
  have hd := hst.driven hw.regs
  have hH := hY.held hw.regs p (hst.proper hw.regs) hdt hz
  have hg' : ∀ g ∈ regGens h, (w.gens g).Damping w.bodies := fun g h => (hg g h).stretched.2.1
  have hz' := fun c hc j hj => (hz c hc j hj).2.2
  obtain ⟨-, e0, der⟩ := hH.energy hw.regs p hd hdt hz' hg'
  have hl : ∀ x, w.lossOf x = 0 := fun x => sum_eq_zero fun g hg' =>
    (hg g ((hw.regs.gens.mem g).mp (List.mem_toFinset.mp hg'))).stretched.2.2 x
  rw [mechanical_now hw.regs, ← e0, ← energy_kept hdt fun t ht =>
    (der t ht).congr_deriv (by rw [hl, neg_zero])]
  exact hH.carried hw p hd hdt hz' hg' (C92_converges hG hw hst hs hode ho hsync hne hm hdt hY)

/-- The claim applied to two linked bodies with a spring between them. -/
example (f ks kd : ℝ) : ∃ (h : List (Op ℝ)) (w : World ℝ), World.Hist Gen.Shipped .gen h w ∧
    w.ode = some (.rk4 newRk4) ∧
    ∃ dt : ℝ, 0 < dt ∧ ∃ (N : Int) (E : ℝ), ∀ steps, N ≤ steps → ∀ env : Env ℝ,
      ∃ w', w.process .gen env dt steps = .ok w' ∧
        |w'.mechanical h - w.mechanical h| ≤ E / steps := by
  obtain ⟨h, w, d, hs⟩ := demo_ode (.link ⟨0, 0, -1, -2, f, ks, kd⟩)
    (g := .spring ⟨1, 7, 0, 0, 0, 0, 0, .obj 0, .obj 1⟩) trivial (cs := [0])
    (fg := [0]) (by decide) (by decide) .ge (o := .rk4 newRk4) (.inr (.inr rfl))
  have hst := d.standard (.inl (by simp [CKind.counts]))
    (.inr ⟨⟨0, by simp, rfl⟩, .inr ⟨1, by simp, rfl⟩⟩)
  have hi := d.solvable (d.rank_pins (pins_link _) w.now) trivial
    (by rw [d.full]; simp [CKind.counts]) (.inl (by simp))
  have hh := linked_start d.toDemoSys
  have ha := centres_apart d.toDemoSys
  obtain ⟨T, hT, Y, lam, hY⟩ := C92_exact_motion_exists (fun g => Gen.tame) d.hist hst d.sle d.masses
    (by simpa [World.Solvable, d.sle] using hi) (fun g _ => by
      rw [d.gens]
      intro b1 b2 e1 e2
      cases e1
      cases e2
      exact ha.ne')
  exact ⟨h, w, d.hist, d.ode, T, hT, C96_conserved_generic (fun g => Gen.tame) d.hist hst d.sle d.ode
    (by decide) (fun _ => hs) (ne_empty_of_mem (d.mem0 rfl)) d.masses hT hY hh (fun g _ => by
      rw [d.gens]
      refine ⟨rfl, fun b1 b2 e1 e2 => ?_⟩
      cases e1
      cases e2
      rw [← now_point, ← now_point]
      exact ha)⟩

/-- **C96.** Dampers take energy away in the generic system, too. -/
theorem C96_damped_generic (hG : ∀ g, G g → g.OnlyForces) (hw : World.Hist G .gen h w)
    (hst : w.Standard h) (hs : w.sle = some .ge) (hode : w.ode = some o) (ho : o.sort ≠ 0)
    (hsync : o.sort = 3 → InSync h) (hne : regCons h ≠ ∅)
    (hm : ∀ b ∈ regBodies h, (w.bodies b).m ≠ 0 ∧ (w.bodies b).I ≠ 0) (hdt : 0 < dt)
    (hY : w.ExactMotion h dt Y lam)
    (hz : ∀ c ∈ regCons h, ∀ j, j < (w.cons c).rows → (w.rowsOf w.now c).C j = 0 ∧
      w.rowAt (w.rowsOf w.now c) c j w.now.vel = 0 ∧ (w.rowsOf w.now c).v_bias j = 0)
    (hg : ∀ g ∈ regGens h, (w.gens g).Damping w.bodies) :
    ∃ (N : Int) (E : ℝ), ∀ steps, N ≤ steps → ∀ env : Env ℝ,
      ∃ w', w.process .gen env dt steps = .ok w' ∧
        w'.mechanical h ≤ w.mechanical h + E / steps := by
  have p := (hw.readyG hG hst.wired).2
  have hd := hst.driven hw.regs
  have hH := hY.held hw.regs p (hst.proper hw.regs) hdt hz
  have hz' := fun c hc j hj => (hz c hc j hj).2.2
  obtain ⟨-, e0, der⟩ := hH.energy hw.regs p hd hdt hz' hg
  have hl : ∀ x, 0 ≤ w.lossOf x := fun x => sum_nonneg fun g hg' =>
    (hg g ((hw.regs.gens.mem g).mp (List.mem_toFinset.mp hg'))).stretched.2 x
  have hle := energy_lost hdt der fun t => hl _
  rw [mechanical_now hw.regs, ← e0]
  obtain ⟨N, E, key⟩ := hH.carried hw p hd hdt hz' hg
    (C92_converges hG hw hst hs hode ho hsync hne hm hdt hY)
  refine ⟨N, E, fun steps hs env => ?_⟩
  obtain ⟨w', e, k⟩ := key steps hs env
  refine ⟨w', e, ?_⟩
  have := (abs_le.mp k).2
  linarith

/-- The claim applied to two linked bodies with a spring between them. -/
example (f ks kd : ℝ) : ∃ (h : List (Op ℝ)) (w : World ℝ), World.Hist Gen.Shipped .gen h w ∧
    w.ode = some (.rk4 newRk4) ∧
    ∃ dt : ℝ, 0 < dt ∧ ∃ (N : Int) (E : ℝ), ∀ steps, N ≤ steps → ∀ env : Env ℝ,
      ∃ w', w.process .gen env dt steps = .ok w' ∧
        w'.mechanical h ≤ w.mechanical h + E / steps := by
  obtain ⟨h, w, d, hs⟩ := demo_ode (.link ⟨0, 0, -1, -2, f, ks, kd⟩)
    (g := .spring ⟨1, 7, 1, 0, 0, 0, 0, .obj 0, .obj 1⟩) trivial (cs := [0])
    (fg := [0]) (by decide) (by decide) .ge (o := .rk4 newRk4) (.inr (.inr rfl))
  have hst := d.standard (.inl (by simp [CKind.counts]))
    (.inr ⟨⟨0, by simp, rfl⟩, .inr ⟨1, by simp, rfl⟩⟩)
  have hi := d.solvable (d.rank_pins (pins_link _) w.now) trivial
    (by rw [d.full]; simp [CKind.counts]) (.inl (by simp))
  have hh := linked_start d.toDemoSys
  have ha := centres_apart d.toDemoSys
  obtain ⟨T, hT, Y, lam, hY⟩ := C92_exact_motion_exists (fun g => Gen.tame) d.hist hst d.sle d.masses
    (by simpa [World.Solvable, d.sle] using hi) (fun g _ => by
      rw [d.gens]
      intro b1 b2 e1 e2
      cases e1
      cases e2
      exact ha.ne')
  exact ⟨h, w, d.hist, d.ode, T, hT, C96_damped_generic (fun g => Gen.tame) d.hist hst d.sle d.ode
    (by decide) (fun _ => hs) (ne_empty_of_mem (d.mem0 rfl)) d.masses hT hY hh (fun g _ => by
      rw [d.gens]
      refine ⟨zero_le_one, fun b1 b2 e1 e2 => ?_⟩
      cases e1
      cases e2
      rw [← now_point, ← now_point]
      exact ha)⟩

end

end Scs
