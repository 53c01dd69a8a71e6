import Verif.PropsMotion

/-!
# Work, kinetic energy and angular momentum of a step

Lemmas for C66 and C67.
-/

namespace Scs

open Finset

section
variable {w w' : World ℝ}

/-! ### Work -/

/-- The kinetic energy of the bodies `S`. -/
noncomputable def World.kinetic (w : World ℝ) (S : Finset Nat) : ℝ :=
  ∑ b ∈ S, ((w.bodies b).m * ((w.bodies b).v_x ^ 2 + (w.bodies b).v_y ^ 2) +
    (w.bodies b).I * (w.bodies b).v_theta ^ 2) / 2

theorem conForce_power (p : w.Placed) (F : Nat → Coord → Nat → Nat → ℝ) (v : Nat → Coord → ℝ) :
    ∑ b ∈ w.rb.toFinset, Coord.sum (fun q => w.conForce F b q * v b q) =
      ∑ c ∈ w.cs.toFinset, ∑ j ∈ range (w.cons c).rows, ∑ k ∈ range (w.cons c).bodyCount,
        Coord.sum (fun q => F c q j k * v (w.bodyOf c k) q) := by
  have one : ∀ q : Coord, ∑ b ∈ w.rb.toFinset, w.conForce F b q * v b q =
      ∑ c ∈ w.cs.toFinset, ∑ j ∈ range (w.cons c).rows, ∑ k ∈ range (w.cons c).bodyCount,
        F c q j k * v (w.bodyOf c k) q := by
    intro q
    simp only [World.conForce, sum_mul]
    rw [sum_comm]
    refine sum_congr rfl fun c hc => ?_
    rw [sum_comm]
    refine sum_congr rfl fun j _ => ?_
    rw [sum_comm]
    refine sum_congr rfl fun k hk => ?_
    simp only [ite_mul, zero_mul]
    rw [sum_ite_eq, if_pos]
    rw [List.mem_toFinset]
    exact (p.bodies c (List.mem_toFinset.mp hc) k (mem_range.mp hk)).2
  simp only [Coord.sum, sum_add_distrib, one]

theorem reaction_power (p : w.Placed) (x : Motion) (mult : Nat → Nat → ℝ) (v : Nat → Coord → ℝ) :
    ∑ b ∈ w.rb.toFinset, Coord.sum (fun q => w.conForce (w.reaction x mult) b q * v b q) =
      ∑ c ∈ w.cs.toFinset, ∑ j ∈ range (w.cons c).rows,
        mult c j * w.rowAt (w.rowsOf x c) c j v := by
  rw [conForce_power p]
  refine sum_congr rfl fun c _ => sum_congr rfl fun j _ => ?_
  rw [World.rowAt, mul_sum]
  refine sum_congr rfl fun k _ => ?_
  simp only [Coord.sum, World.reaction]
  ring

/-- In a step with Gaussian elimination the constraint forces do work only against the position
errors and bias speeds. -/
theorem power_step (p : w.Placed) (hsle : w.sle = some .ge) {s : ℝ} {x x' : Motion}
    {mult : Nat → Nat → ℝ} (st : w.Move s x x' mult)
    (hz : ∀ c ∈ w.cs, ∀ j, j < (w.cons c).rows →
      (w.rowsOf x c).C j = 0 ∧ (w.rowsOf x c).v_bias j = 0) :
    ∑ b ∈ w.rb.toFinset, Coord.sum (fun q =>
      w.conForce (w.reaction x mult) b q * x'.vel b q) = 0 := by
  rw [reaction_power p]
  refine sum_eq_zero fun c hc => sum_eq_zero fun j hj => ?_
  have hc' := List.mem_toFinset.mp hc
  have := st.ge hsle c hc' j (mem_range.mp hj)
  obtain ⟨z1, z2⟩ := hz c hc' j (mem_range.mp hj)
  rw [z1, z2, mul_zero, add_zero, add_zero] at this
  rw [this, mul_zero]

/-- Energy of the velocities `v`. -/
noncomputable def World.energyOf (w : World ℝ) (v : Nat → Coord → ℝ) : ℝ :=
  ∑ b ∈ w.rb.toFinset, Coord.sum (fun q => (w.bodies b).mass q * v b q ^ 2) / 2

/-- The kinetic energy after a step, and the work of the constraint forces. -/
theorem energy_move (p : w.Placed) (hm : ∀ b ∈ w.rb, ∀ q : Coord, (w.bodies b).mass q ≠ 0) {s : ℝ}
    {x : Motion} {u : Nat → Coord → ℝ} {mult : Nat → Nat → ℝ}
    (st : ∀ b ∈ w.rb, ∀ q : Coord, u b q = x.vel b q + s *
      ((w.load x b q + w.conForce (w.reaction x mult) b q) / (w.bodies b).mass q)) :
    w.energyOf u + w.energyOf (fun b q =>
        u b q - (x.vel b q + s * (w.load x b q / (w.bodies b).mass q))) =
      w.energyOf (fun b q => x.vel b q + s * (w.load x b q / (w.bodies b).mass q)) +
      s * ∑ c ∈ w.cs.toFinset, ∑ j ∈ range (w.cons c).rows,
        mult c j * w.rowAt (w.rowsOf x c) c j u := by
  rw [← reaction_power p]
  simp only [World.energyOf]
  rw [← sum_add_distrib]
  have e : ∀ b ∈ w.rb.toFinset, Coord.sum (fun q => (w.bodies b).mass q * u b q ^ 2) / 2 +
      Coord.sum (fun q => (w.bodies b).mass q * (u b q -
        (x.vel b q + s * (w.load x b q / (w.bodies b).mass q))) ^ 2) / 2 =
      Coord.sum (fun q => (w.bodies b).mass q *
        (x.vel b q + s * (w.load x b q / (w.bodies b).mass q)) ^ 2) / 2 +
      s * Coord.sum (fun q => w.conForce (w.reaction x mult) b q * u b q) := by
    intro b hb
    rw [List.mem_toFinset] at hb
    have one : ∀ q : Coord, (w.bodies b).mass q * u b q ^ 2 / 2 +
        (w.bodies b).mass q * (u b q -
          (x.vel b q + s * (w.load x b q / (w.bodies b).mass q))) ^ 2 / 2 =
        (w.bodies b).mass q * (x.vel b q + s * (w.load x b q / (w.bodies b).mass q)) ^ 2 / 2 +
        s * (w.conForce (w.reaction x mult) b q * u b q) := by
      intro q
      have hv := st b hb q
      have hm' := hm b hb q
      have hf : (w.bodies b).mass q * (u b q -
          (x.vel b q + s * (w.load x b q / (w.bodies b).mass q))) =
          s * w.conForce (w.reaction x mult) b q := by
        rw [hv]
        generalize w.conForce (w.reaction x mult) b q = f
        field_simp
        ring
      linear_combination u b q * hf
    have o1 := one .x
    have o2 := one .y
    have o3 := one .th
    simp only [Coord.sum]
    linear_combination o1 + o2 + o3
  rw [sum_congr rfl e, sum_add_distrib, ← mul_sum]

theorem energy_step (p : w.Placed) (hsle : w.sle = some .ge)
    (hm : ∀ b ∈ w.rb, ∀ q : Coord, (w.bodies b).mass q ≠ 0) {s : ℝ} {x x' : Motion}
    {mult : Nat → Nat → ℝ} (st : w.Move s x x' mult)
    (hz : ∀ c ∈ w.cs, ∀ j, j < (w.cons c).rows →
      (w.rowsOf x c).C j = 0 ∧ (w.rowsOf x c).v_bias j = 0) :
    w.energyOf x'.vel + w.energyOf (fun b q =>
        x'.vel b q - (x.vel b q + s * (w.load x b q / (w.bodies b).mass q))) =
      w.energyOf (fun b q => x.vel b q + s * (w.load x b q / (w.bodies b).mass q)) := by
  have key := power_step p hsle st hz
  rw [reaction_power p] at key
  rw [energy_move p hm fun b hb q => by rw [st.vel b hb q, st.acc b hb q], key, mul_zero, add_zero]

theorem energyOf_kinetic (S : Finset Nat) (hS : w.rb.toFinset = S) (hb : ∀ b, (w'.bodies b).m = (w.bodies b).m ∧
    (w'.bodies b).I = (w.bodies b).I) :
    w.energyOf (fun b => (w'.bodies b).vel) = w'.kinetic S := by
  rw [World.energyOf, World.kinetic, hS]
  refine sum_congr rfl fun b _ => ?_
  obtain ⟨h1, h2⟩ := hb b
  simp only [Coord.sum, Body.mass, Body.vel, h1, h2]
  ring

theorem World.energyOf_congr {v v' : Nat → Coord → ℝ} (hv : ∀ b ∈ w.rb, ∀ q : Coord, v b q = v' b q) :
    w.energyOf v = w.energyOf v' :=
  sum_congr rfl fun b hb => by
    rw [Coord.sum_congr fun q => by rw [hv b (List.mem_toFinset.mp hb) q]]

/-! ### Angular momentum -/

/-- The angular momentum of the bodies `S` about the origin. -/
noncomputable def World.angular (w : World ℝ) (S : Finset Nat) : ℝ :=
  ∑ b ∈ S, ((w.bodies b).m * ((w.bodies b).p_x * (w.bodies b).v_y -
    (w.bodies b).p_y * (w.bodies b).v_x) + (w.bodies b).I * (w.bodies b).v_theta)

/-- The moment about the origin of the force `F` on body `b`. -/
def Motion.moment (x : Motion) (b : Nat) (F : Coord → ℝ) : ℝ :=
  x.pos b .x * F .y - x.pos b .y * F .x + F .th

theorem Motion.moment_add (x : Motion) (b : Nat) (F F' : Coord → ℝ) :
    x.moment b (fun q => F q + F' q) = x.moment b F + x.moment b F' := by
  simp only [Motion.moment]; ring

theorem Motion.moment_zero (x : Motion) (b : Nat) : x.moment b (fun _ => 0) = 0 := by
  simp only [Motion.moment]; ring

theorem Motion.moment_wrench (x : Motion) (b : Nat) (z f : ℝ × ℝ) :
    x.moment b (x.wrench b z f) = z.1 * f.2 - z.2 * f.1 := by
  simp only [Motion.moment, Motion.wrench]; ring

/-- Angular momentum of a motion. -/
noncomputable def World.spin (w : World ℝ) (x : Motion) : ℝ :=
  ∑ b ∈ w.rb.toFinset, x.moment b (fun q => (w.bodies b).mass q * x.vel b q)

theorem spin_step (hm : ∀ b ∈ w.rb, ∀ q : Coord, (w.bodies b).mass q ≠ 0) {s : ℝ} {x x' : Motion}
    {mult : Nat → Nat → ℝ} (st : w.Move s x x' mult) : w.spin x' = w.spin x + s *
      (∑ b ∈ w.rb.toFinset, x.moment b (w.load x b) +
        ∑ b ∈ w.rb.toFinset, x.moment b (w.conForce (w.reaction x mult) b)) := by
  rw [← sum_add_distrib, mul_sum, World.spin, World.spin, ← sum_add_distrib]
  refine sum_congr rfl fun b hb => ?_
  rw [List.mem_toFinset] at hb
  have hv : ∀ q : Coord, (w.bodies b).mass q * x'.vel b q = (w.bodies b).mass q * x.vel b q +
      s * (w.load x b q + w.conForce (w.reaction x mult) b q) := by
    intro q
    have hm' := hm b hb q
    rw [st.vel b hb q, st.acc b hb q]
    generalize w.conForce (w.reaction x mult) b q = f
    field_simp
  have h1 := hv .x
  have h2 := hv .y
  have h3 := hv .th
  have hxy : (w.bodies b).mass .x = (w.bodies b).mass .y := rfl
  simp only [Motion.moment, st.pos b hb]
  rw [hxy] at h1 ⊢
  linear_combination (-x.pos b .y) * h1 + x.pos b .x * h2 + h3

/-- Springs without damping, and motors. -/
def Gen.Central : Gen ℝ → Prop
  | .spring p => p.kd = 0
  | .motor _ => True
  | _ => False

theorem moment_central {g : Gen ℝ} (hg : g.Central) {S : Finset Nat} (hS : g.Within (· ∈ S))
    (x : Motion) (m : Nat → ℝ) : ∑ b ∈ S, x.moment b (g.load (m b) x b) = 0 := by
  cases g with
  | gravity a => exact hg.elim
  | static p => exact hg.elim
  | custom f => exact hg.elim
  | motor p =>
    obtain ⟨⟨b0, h0, e0⟩, b1, h1, e1⟩ := hS
    simp only [Motion.moment, Gen.load, e0, e1, pureTorque, ite_self, add_zero, mul_zero, sub_zero,
      zero_add, sum_add_distrib, sum_ite_eq', h0, h1, if_true, neg_add_cancel]
  | spring p =>
    rcases hS with e | ⟨⟨b1, h1, e1⟩, e | ⟨b2, h2, e2⟩⟩
    · exact sum_eq_zero fun b _ => by simp only [Motion.moment, Gen.load, e]; ring
    · exact sum_eq_zero fun b _ => by simp only [Motion.moment, Gen.load, e, e1]; ring
    · have hkd : p.kd = 0 := hg
      have e3 : ∀ b ∈ S, x.moment b ((Gen.spring p).load (m b) x b) =
          (if b = b1 then x.moment b (x.wrench b (x.point b1 p.p1_x p.p1_y) (p.pullOn x b1 b2))
            else 0) +
          (if b = b2 then x.moment b (x.wrench b (x.point b2 p.p2_x p.p2_y)
            (-(p.pullOn x b1 b2))) else 0) := by
        intro b _
        simp only [Motion.moment, Gen.load, e1, e2]
        split <;> split <;> ring
      rw [sum_congr rfl e3, sum_add_distrib, sum_ite_eq', sum_ite_eq', if_pos h1, if_pos h2,
        Motion.moment_wrench, Motion.moment_wrench]
      simp only [Spring.pullOn, springForce, hooke, hkd]
      split <;> simp <;> ring

theorem moment_load (hd : w.Driven) (hg : ∀ g ∈ w.fg, (w.gens g).Central) (x : Motion) :
    ∑ b ∈ w.rb.toFinset, x.moment b (w.load x b) = 0 := by
  have e : ∀ b, x.moment b (w.load x b) =
      ∑ g ∈ w.fg.toFinset, x.moment b ((w.gens g).load (w.bodies b).m x b) := by
    intro b
    simp only [Motion.moment, World.load, mul_sum, ← sum_sub_distrib, ← sum_add_distrib]
  simp only [e]
  rw [sum_comm]
  refine sum_eq_zero fun g hgm => ?_
  rw [List.mem_toFinset] at hgm
  exact moment_central (hg g hgm) ((hd.2 g hgm).mono fun b hb => List.mem_toFinset.mpr hb) x
    (fun b => (w.bodies b).m)

theorem moment_conForce (p : w.Placed) (F : Nat → Coord → Nat → Nat → ℝ) (x : Motion) :
    ∑ b ∈ w.rb.toFinset, x.moment b (w.conForce F b) = ∑ c ∈ w.cs.toFinset,
      ∑ j ∈ range (w.cons c).rows, ∑ k ∈ range (w.cons c).bodyCount,
        x.moment (w.bodyOf c k) (fun q => F c q j k) := by
  have e1 := conForce_power p F (fun b q => match q with
    | .x => -x.pos b .y
    | .y => x.pos b .x
    | .th => 1)
  simp only [Coord.sum] at e1
  refine Eq.trans (sum_congr rfl fun b _ => ?_) (e1.trans (sum_congr rfl fun c _ => sum_congr rfl
    fun j _ => sum_congr rfl fun k _ => ?_))
  · simp only [Motion.moment]; ring
  · simp only [Motion.moment]; ring

end

end Scs
