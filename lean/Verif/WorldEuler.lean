import Verif.WorldSpring
import Verif.WorldGenMove

/-!
# Undamped springs with the explicit solver: lemmas

The explicit step `v' = v + h F(x) / m`, `x' = x + h v` with forces that are affine in the positions, and
the semi-implicit one in the generic system.
-/

namespace Scs

open Finset

/-- Twice the energy that the ends of a spring of rest length zero would have if they were as far apart as
their velocities are. -/
noncomputable def Gen.bendOf (g : Gen ℝ) (v : Nat → Coord → ℝ) : ℝ :=
  match g with
  | .spring p => match p.body1, p.body2 with
    | .obj b1, .obj b2 => p.ks * ((v b1 .x - v b2 .x) ^ 2 + (v b1 .y - v b2 .y) ^ 2)
    | _, _ => 0
  | _ => 0

/-- The potential energy is quadratic in the positions. -/
theorem Gen.taylor {g : Gen ℝ} (hg : g.Harmonic) {m : Nat → ℝ} {S : Finset Nat}
    (hw : g.Within (· ∈ S)) {h : ℝ} {x x' : Motion} {v : Nat → Coord → ℝ}
    (hp : ∀ b ∈ S, ∀ q : Coord, x'.pos b q = x.pos b q + h * v b q) :
    g.potOf m S x' = g.potOf m S x - h * g.powerOf m S x.pos v + h ^ 2 / 2 * g.bendOf v := by
  cases g with
  | gravity a =>
    simp only [Gen.potOf, Gen.powerOf, Gen.bendOf]
    have : ∑ b ∈ S, m b * a * x'.pos b .y =
        ∑ b ∈ S, m b * a * x.pos b .y + h * ∑ b ∈ S, m b * a * v b .y := by
      rw [mul_sum, ← sum_add_distrib]
      exact sum_congr rfl fun b hb => by rw [hp b hb]; ring
    rw [this]
    ring
  | static p =>
    obtain ⟨b, hb, e⟩ := hw
    simp only [Gen.potOf, Gen.powerOf, Gen.bendOf, e, hg.1, hg.2, point_centre, hp b hb]
    ring
  | spring p =>
    obtain ⟨h0, _, h1, h2, h3, h4⟩ := hg
    cases e1 : p.body1 with
    | null => simp only [Gen.potOf, Gen.powerOf, Gen.bendOf, e1]; ring
    | uninit => simp only [Gen.potOf, Gen.powerOf, Gen.bendOf, e1]; ring
    | obj b1 =>
      cases e2 : p.body2 with
      | null => simp only [Gen.potOf, Gen.powerOf, Gen.bendOf, e1, e2]; ring
      | uninit => simp only [Gen.potOf, Gen.powerOf, Gen.bendOf, e1, e2]; ring
      | obj b2 =>
        have m1 : b1 ∈ S := by
          rcases hw with h | ⟨⟨b, hb, e⟩, _⟩
          · rw [e1] at h; cases h
          · rw [e1] at e; cases e; exact hb
        have m2 : b2 ∈ S := by
          rcases hw with h | ⟨_, h | ⟨b, hb, e⟩⟩
          · rw [e1] at h; cases h
          · rw [e2] at h; cases h
          · rw [e2] at e; cases e; exact hb
        simp only [Gen.potOf, Gen.powerOf, Gen.bendOf, e1, e2, h0, h1, h2, h3, h4, point_centre, sub_zero,
          distOf_sq, hp b1 m1, hp b2 m2]
        ring
  | motor p => exact hg.elim
  | custom f => exact hg.elim

section
variable {w : World ℝ} {h : ℝ} {x x' : Motion} {mult : Nat → Nat → ℝ} {sym : Bool}

/-- The momentum that the forces supply without constraints. -/
theorem World.GMove.push (s : w.GMove sym h x x' mult) (hcs : w.cs = [])
    (hm : ∀ b ∈ w.rb, ∀ q : Coord, (w.bodies b).mass q ≠ 0) {b : Nat} (hb : b ∈ w.rb) (q : Coord) :
    (w.bodies b).mass q * (x'.vel b q - x.vel b q) = h * w.load x b q := by
  have e := s.vel b hb q
  rw [s.acc.newton b hb q] at e
  have z : w.conForce (w.reaction x mult) b q = 0 := by rw [World.conForce, hcs]; simp
  rw [z, add_zero] at e
  have m := hm b hb q
  rw [e]
  field_simp
  ring

/-- The power of the forces. -/
theorem World.load_power (hH : ∀ g ∈ w.fg, (w.gens g).Harmonic)
    (hW : ∀ g ∈ w.fg, (w.gens g).Within (· ∈ w.rb)) (hd : ∀ g ∈ w.fg, (w.gens g).Long x.pos)
    (v : Nat → Coord → ℝ) :
    ∑ b ∈ w.rb.toFinset, Coord.sum (fun q => w.load x b q * v b q) =
      ∑ g ∈ w.fg.toFinset, (w.gens g).powerOf (fun b => (w.bodies b).m) w.rb.toFinset x.pos v := by
  rw [← sum_congr rfl fun g hg => Gen.load_power (hH g (List.mem_toFinset.mp hg))
    (S := w.rb.toFinset) (by simpa only [List.mem_toFinset] using hW g (List.mem_toFinset.mp hg))
    (hd g (List.mem_toFinset.mp hg)) v, sum_comm]
  refine sum_congr rfl fun b _ => ?_
  simp only [World.load, Coord.sum, sum_mul, sum_add_distrib]

/-- The energy that one explicit step adds. -/
theorem World.GMove.gain (s : w.GMove false h x x' mult) (hcs : w.cs = [])
    (hm : ∀ b ∈ w.rb, ∀ q : Coord, (w.bodies b).mass q ≠ 0)
    (hH : ∀ g ∈ w.fg, (w.gens g).Harmonic) (hW : ∀ g ∈ w.fg, (w.gens g).Within (· ∈ w.rb))
    (hd : ∀ g ∈ w.fg, (w.gens g).Long x.pos) :
    w.mechOf x' = w.mechOf x + w.energyOf (fun b q => x'.vel b q - x.vel b q) +
      h ^ 2 / 2 * ∑ g ∈ w.fg.toFinset, (w.gens g).bendOf x.vel := by
  have hW' : ∀ g ∈ w.fg, (w.gens g).Within (· ∈ w.rb.toFinset) := by
    intro g hg
    simpa only [List.mem_toFinset] using hW g hg
  have kin : w.energyOf x'.vel = w.energyOf x.vel + w.energyOf (fun b q => x'.vel b q - x.vel b q) + h *
      ∑ b ∈ w.rb.toFinset, Coord.sum (fun q => w.load x b q * x.vel b q) := by
    rw [World.energyOf, World.energyOf, World.energyOf, ← sum_add_distrib, mul_sum, ← sum_add_distrib]
    refine sum_congr rfl fun b hb => ?_
    have one : ∀ q : Coord, (w.bodies b).mass q * x'.vel b q ^ 2 = (w.bodies b).mass q * x.vel b q ^ 2 +
        (w.bodies b).mass q * (x'.vel b q - x.vel b q) ^ 2 + 2 * (h * (w.load x b q * x.vel b q)) := by
      intro q
      linear_combination (2 * x.vel b q) * s.push hcs hm (List.mem_toFinset.mp hb) q
    simp only [Coord.sum, one]
    ring
  have pot := fun g hg => Gen.taylor (hH g hg) (m := fun b => (w.bodies b).m) (hW' g hg)
    (h := h) (x := x) (x' := x') (v := x.vel) fun b hb q => by
      have := s.pos b (List.mem_toFinset.mp hb) q
      simpa using this
  rw [World.mechOf, World.mechOf, kin, World.load_power hH hW hd,
    sum_congr rfl fun g hg => pot g (List.mem_toFinset.mp hg), sum_add_distrib, sum_sub_distrib, ← mul_sum,
    ← mul_sum]
  ring

/-- One semi-implicit step keeps the energy plus half the length of the step times the power. -/
theorem World.GMove.shadow (s : w.GMove true h x x' mult) (hcs : w.cs = [])
    (hm : ∀ b ∈ w.rb, ∀ q : Coord, (w.bodies b).mass q ≠ 0)
    (hH : ∀ g ∈ w.fg, (w.gens g).Harmonic) (hW : ∀ g ∈ w.fg, (w.gens g).Within (· ∈ w.rb))
    (hd : ∀ g ∈ w.fg, (w.gens g).Long x.pos) :
    w.mechOf x' + h / 2 * w.powerOf x' = w.mechOf x + h / 2 * w.powerOf x := by
  have hW' : ∀ g ∈ w.fg, (w.gens g).Within (· ∈ w.rb.toFinset) := by
    intro g hg
    simpa only [List.mem_toFinset] using hW g hg
  have key := World.load_power hH hW hd
  have kin : w.energyOf x'.vel = w.energyOf x.vel + h / 2 *
      (∑ b ∈ w.rb.toFinset, Coord.sum (fun q => w.load x b q * x'.vel b q) +
        ∑ b ∈ w.rb.toFinset, Coord.sum (fun q => w.load x b q * x.vel b q)) := by
    rw [World.energyOf, World.energyOf, ← sum_add_distrib, mul_sum, ← sum_add_distrib]
    refine sum_congr rfl fun b hb => ?_
    have one : ∀ q : Coord, (w.bodies b).mass q * x'.vel b q ^ 2 =
        (w.bodies b).mass q * x.vel b q ^ 2 +
          h * (w.load x b q * x'.vel b q + w.load x b q * x.vel b q) := by
      intro q
      linear_combination (x'.vel b q + x.vel b q) * s.push hcs hm (List.mem_toFinset.mp hb) q
    simp only [Coord.sum, one]
    ring
  have pot := fun g hg => Gen.trapezoid (hH g hg) (m := fun b => (w.bodies b).m) (hW' g hg)
    (h := h) (x := x) (x' := x') fun b hb q => s.pos b (List.mem_toFinset.mp hb) q
  rw [World.mechOf, World.mechOf, kin, key, key, World.powerOf, World.powerOf,
    sum_congr rfl fun g hg => pot g (List.mem_toFinset.mp hg), sum_sub_distrib, ← mul_sum,
    sum_add_distrib]
  ring

end

end Scs
