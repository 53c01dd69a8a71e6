import Verif.PropsMech

/-!
# Undamped springs over long times: lemmas

The semi-implicit step `v' = v + h F(x) / m`, `x' = x + h v'` with forces that are affine in the
positions.
-/

namespace Scs

open Finset

/-- Gravity, a constant force at the centre of a body, or a spring of rest length zero without damping
between the centres of two bodies. -/
def Gen.Harmonic (g : Gen ℝ) : Prop :=
  match g with
  | .gravity _ => True
  | .static p => p.p_x = 0 ∧ p.p_y = 0
  | .spring p => p.restLength = 0 ∧ p.kd = 0 ∧ p.p1_x = 0 ∧ p.p1_y = 0 ∧ p.p2_x = 0 ∧ p.p2_y = 0
  | _ => False

/-- The power of the force generator at the positions `x` with the velocities `v`. -/
noncomputable def Gen.powerOf (g : Gen ℝ) (m : Nat → ℝ) (S : Finset Nat) (x v : Nat → Coord → ℝ) : ℝ :=
  match g with
  | .gravity a => -∑ b ∈ S, m b * a * v b .y
  | .static p => match p.body with
    | .obj b => p.f_x * v b .x + p.f_y * v b .y
    | _ => 0
  | .spring p => match p.body1, p.body2 with
    | .obj b1, .obj b2 => -(p.ks * ((x b1 .x - x b2 .x) * (v b1 .x - v b2 .x) +
        (x b1 .y - x b2 .y) * (v b1 .y - v b2 .y)))
    | _, _ => 0
  | _ => 0

theorem point_centre (x : Motion) (b : Nat) : x.point b 0 0 = (x.pos b .x, x.pos b .y) := by
  simp [Motion.point]

theorem distOf_sq (a b : ℝ × ℝ) : distOf a b ^ 2 = (b.1 - a.1) ^ 2 + (b.2 - a.2) ^ 2 :=
  Real.sq_sqrt (by positivity)

/-- The potential energy changes by the mean of the powers at the two ends of the step. -/
theorem Gen.trapezoid {g : Gen ℝ} (hg : g.Harmonic) {m : Nat → ℝ} {S : Finset Nat}
    (hw : g.Within (· ∈ S)) {h : ℝ} {x x' : Motion}
    (hp : ∀ b ∈ S, ∀ q : Coord, x'.pos b q = x.pos b q + h * x'.vel b q) :
    g.potOf m S x' = g.potOf m S x -
      h / 2 * (g.powerOf m S x.pos x'.vel + g.powerOf m S x'.pos x'.vel) := by
  cases g with
  | gravity a =>
    simp only [Gen.potOf, Gen.powerOf]
    have : ∑ b ∈ S, m b * a * x'.pos b .y =
        ∑ b ∈ S, m b * a * x.pos b .y + h * ∑ b ∈ S, m b * a * x'.vel b .y := by
      rw [mul_sum, ← sum_add_distrib]
      exact sum_congr rfl fun b hb => by rw [hp b hb]; ring
    rw [this]
    ring
  | static p =>
    obtain ⟨b, hb, e⟩ := hw
    simp only [Gen.potOf, Gen.powerOf, e, hg.1, hg.2, point_centre, hp b hb]
    ring
  | spring p =>
    obtain ⟨h0, _, h1, h2, h3, h4⟩ := hg
    cases e1 : p.body1 with
    | null => simp only [Gen.potOf, Gen.powerOf, e1]; ring
    | uninit => simp only [Gen.potOf, Gen.powerOf, e1]; ring
    | obj b1 =>
      cases e2 : p.body2 with
      | null => simp only [Gen.potOf, Gen.powerOf, e1, e2]; ring
      | uninit => simp only [Gen.potOf, Gen.powerOf, e1, e2]; ring
      | obj b2 =>
        have m1 : b1 ∈ S := by
          rcases hw with h | ⟨⟨b, hb, e⟩, _⟩
          · rw [e1] at h; cases h
          · rw [e1] at e; cases e; exact hb
        have m2 : b2 ∈ S := by
          rcases hw with h | ⟨_, h | ⟨b, hb, e⟩⟩
          · rw [e1] at h; cases h
          · rw [e2] at h; cases h
          · rw [e2] at e; cases e; exact hb
        simp only [Gen.potOf, Gen.powerOf, e1, e2, h0, h1, h2, h3, h4, point_centre, sub_zero, distOf_sq,
          hp b1 m1, hp b2 m2]
        ring
  | motor p => exact hg.elim
  | custom f => exact hg.elim

/-- A spring whose ends are closer than 0.01 exerts no force; this says that it is not. -/
def Gen.Long (g : Gen ℝ) (x : Nat → Coord → ℝ) : Prop :=
  match g with
  | .spring p => ∀ b1 b2, p.body1 = .obj b1 → p.body2 = .obj b2 →
      1 / 100 ≤ distOf (x b1 .x, x b1 .y) (x b2 .x, x b2 .y)
  | _ => True

/-- The forces of the force generator have that power. -/
theorem Gen.load_power {g : Gen ℝ} (hg : g.Harmonic) {m : Nat → ℝ} {S : Finset Nat}
    (hw : g.Within (· ∈ S)) {x : Motion} (hd : g.Long x.pos) (v : Nat → Coord → ℝ) :
    ∑ b ∈ S, Coord.sum (fun q => g.load (m b) x b q * v b q) = g.powerOf m S x.pos v := by
  cases g with
  | gravity a =>
    simp only [Gen.load, Gen.powerOf]
    rw [← sum_neg_distrib]
    exact sum_congr rfl fun b _ => by simp [Coord.sum]
  | static p =>
    obtain ⟨b, hb, e⟩ := hw
    simp only [Gen.load, Gen.powerOf, e, hg.1, hg.2, point_centre]
    have e2 : ∀ b', ((Ptr.obj b : Ptr) = .obj b') = (b' = b) := fun b' => by simp [eq_comm]
    simp only [e2]
    rw [sum_at hb (fun b' q => x.wrench b' (x.pos b' .x, x.pos b' .y) (p.f_x, p.f_y) q)]
    simp [Coord.sum, Motion.wrench]
  | spring p =>
    obtain ⟨h0, hk, h1, h2, h3, h4⟩ := hg
    cases e1 : p.body1 with
    | null => simp only [Gen.load, Gen.powerOf, e1]; simp [Coord.sum]
    | uninit => simp only [Gen.load, Gen.powerOf, e1]; simp [Coord.sum]
    | obj b1 =>
      cases e2 : p.body2 with
      | null => simp only [Gen.load, Gen.powerOf, e1, e2]; simp [Coord.sum]
      | uninit => simp only [Gen.load, Gen.powerOf, e1, e2]; simp [Coord.sum]
      | obj b2 =>
        have m1 : b1 ∈ S := by
          rcases hw with h | ⟨⟨b, hb, e⟩, _⟩
          · rw [e1] at h; cases h
          · rw [e1] at e; cases e; exact hb
        have m2 : b2 ∈ S := by
          rcases hw with h | ⟨_, h | ⟨b, hb, e⟩⟩
          · rw [e1] at h; cases h
          · rw [e2] at h; cases h
          · rw [e2] at e; cases e; exact hb
        have hl := hd b1 b2 e1 e2
        have hf : p.pullOn x b1 b2 = (p.ks * (x.pos b2 .x - x.pos b1 .x),
            p.ks * (x.pos b2 .y - x.pos b1 .y)) := by
          simp only [Spring.pullOn, springForce, h1, h2, h3, h4, point_centre, if_pos hl, hooke, hk, h0]
          have hne : √((x.pos b2 .x - x.pos b1 .x) ^ 2 + (x.pos b2 .y - x.pos b1 .y) ^ 2) ≠ 0 := by
            intro h; simp only [distOf, h] at hl; norm_num at hl
          ext <;> field_simp <;> ring
        simp only [Gen.load, Gen.powerOf, e1, e2, hf, h1, h2, h3, h4, point_centre]
        have t1 := sum_at m1 (fun b' q => x.wrench b' (x.pos b1 .x, x.pos b1 .y)
          (p.ks * (x.pos b2 .x - x.pos b1 .x), p.ks * (x.pos b2 .y - x.pos b1 .y)) q) v
        have t2 := sum_at m2 (fun b' q => x.wrench b' (x.pos b2 .x, x.pos b2 .y)
          (-(p.ks * (x.pos b2 .x - x.pos b1 .x), p.ks * (x.pos b2 .y - x.pos b1 .y))) q) v
        have : ∀ A B : Nat → Coord → ℝ, ∑ b ∈ S, Coord.sum (fun q =>
            ((if b = b1 then A b q else 0) + if b = b2 then B b q else 0) * v b q) =
            (∑ b ∈ S, Coord.sum fun q => (if b = b1 then A b q else 0) * v b q) +
              ∑ b ∈ S, Coord.sum fun q => (if b = b2 then B b q else 0) * v b q := by
          intro A B
          rw [← sum_add_distrib]
          refine sum_congr rfl fun b _ => ?_
          simp only [Coord.sum]
          ring
        rw [this, t1, t2]
        simp only [Coord.sum, Motion.wrench, Prod.fst_neg, Prod.snd_neg]
        ring
  | motor p => exact hg.elim
  | custom f => exact hg.elim

/-- The power of all registered force generators. -/
noncomputable def World.powerOf (w : World ℝ) (x : Motion) : ℝ :=
  ∑ g ∈ w.fg.toFinset, (w.gens g).powerOf (fun b => (w.bodies b).m) w.rb.toFinset x.pos x.vel

/-- One step keeps the energy plus half the length of the step times the power. -/
theorem World.Move.shadow {w : World ℝ} {h : ℝ} {x x' : Motion} {mult : Nat → Nat → ℝ}
    (s : w.Move h x x' mult) (hcs : w.cs = [])
    (hm : ∀ b ∈ w.rb, ∀ q : Coord, (w.bodies b).mass q ≠ 0)
    (hH : ∀ g ∈ w.fg, (w.gens g).Harmonic) (hW : ∀ g ∈ w.fg, (w.gens g).Within (· ∈ w.rb))
    (hd : ∀ g ∈ w.fg, (w.gens g).Long x.pos) :
    w.mechOf x' + h / 2 * w.powerOf x' = w.mechOf x + h / 2 * w.powerOf x := by
  have hW' : ∀ g ∈ w.fg, (w.gens g).Within (· ∈ w.rb.toFinset) := by
    intro g hg
    simpa only [List.mem_toFinset] using hW g hg
  have key : ∀ v : Nat → Coord → ℝ, ∑ b ∈ w.rb.toFinset, Coord.sum (fun q => w.load x b q * v b q) =
      ∑ g ∈ w.fg.toFinset, (w.gens g).powerOf (fun b => (w.bodies b).m) w.rb.toFinset x.pos v := by
    intro v
    rw [← sum_congr rfl fun g hg => Gen.load_power (hH g (List.mem_toFinset.mp hg))
      (hW' g (List.mem_toFinset.mp hg)) (hd g (List.mem_toFinset.mp hg)) v, sum_comm]
    refine sum_congr rfl fun b _ => ?_
    simp only [World.load, Coord.sum, sum_mul, sum_add_distrib]
  have kin : w.energyOf x'.vel = w.energyOf x.vel + h / 2 *
      (∑ b ∈ w.rb.toFinset, Coord.sum (fun q => w.load x b q * x'.vel b q) +
        ∑ b ∈ w.rb.toFinset, Coord.sum (fun q => w.load x b q * x.vel b q)) := by
    rw [World.energyOf, World.energyOf, ← sum_add_distrib, mul_sum, ← sum_add_distrib]
    refine sum_congr rfl fun b hb => ?_
    have hb' := List.mem_toFinset.mp hb
    have one : ∀ q : Coord, (w.bodies b).mass q * x'.vel b q ^ 2 =
        (w.bodies b).mass q * x.vel b q ^ 2 + h * (w.load x b q * x'.vel b q + w.load x b q * x.vel b q) := by
      intro q
      have e := s.vel b hb' q
      rw [s.acc b hb' q] at e
      have z : w.conForce (w.reaction x mult) b q = 0 := by rw [World.conForce, hcs]; simp
      rw [z, add_zero] at e
      have m := hm b hb' q
      have e' : (w.bodies b).mass q * (x'.vel b q - x.vel b q) = h * w.load x b q := by
        rw [e]; field_simp; ring
      linear_combination (x'.vel b q + x.vel b q) * e'
    simp only [Coord.sum, one]
    ring
  have pot := fun g hg => Gen.trapezoid (hH g hg) (m := fun b => (w.bodies b).m) (hW' g hg)
    (h := h) (x := x) (x' := x') fun b hb q => s.pos b (List.mem_toFinset.mp hb) q
  rw [World.mechOf, World.mechOf, kin, key, key, World.powerOf, World.powerOf,
    sum_congr rfl fun g hg => pot g (List.mem_toFinset.mp hg), sum_sub_distrib, ← mul_sum,
    sum_add_distrib]
  ring

end Scs
