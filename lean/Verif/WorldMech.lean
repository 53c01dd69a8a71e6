import Mathlib.Analysis.Calculus.Deriv.MeanValue
import Verif.WorldEnergy
import Verif.PropsHeld

/-!
# Mechanical energy along a motion

Lemmas for C96: the rate of change of the potential of a force generator, the kinetic energy, and how
exact motions of the generic system keep the constraints.
-/

namespace Scs

open Finset

/-! ### Potentials -/

/-- The potential energy that belongs to a force generator in the motion `x`; `m` are the masses of
the bodies, `S` the bodies gravity acts on. -/
noncomputable def Gen.potOf (g : Gen ℝ) (m : Nat → ℝ) (S : Finset Nat) (x : Motion) : ℝ :=
  match g with
  | .gravity a => ∑ b ∈ S, m b * a * x.pos b .y
  | .static p => match p.body with
    | .obj b => -(p.f_x * (x.point b p.p_x p.p_y).1 + p.f_y * (x.point b p.p_x p.p_y).2)
    | _ => 0
  | .spring p => match p.body1, p.body2 with
    | .obj b1, .obj b2 => p.ks *
        (distOf (x.point b1 p.p1_x p.p1_y) (x.point b2 p.p2_x p.p2_y) - p.restLength) ^ 2 / 2
    | _, _ => 0
  | _ => 0

/-- The power lost in the damper of a spring. -/
noncomputable def Gen.lossOf (g : Gen ℝ) (x : Motion) : ℝ :=
  match g with
  | .spring p => match p.body1, p.body2 with
    | .obj b1, .obj b2 => p.kd *
      (((x.pointVel b2 p.p2_x p.p2_y).1 - (x.pointVel b1 p.p1_x p.p1_y).1) ^ 2 +
        ((x.pointVel b2 p.p2_x p.p2_y).2 - (x.pointVel b1 p.p1_x p.p1_y).2) ^ 2)
    | _, _ => 0
  | _ => 0

/-- The force generator is no motor, and a spring is longer than 0.01. -/
def Gen.Stretched (g : Gen ℝ) (x : Motion) : Prop :=
  match g with
  | .spring p => ∀ b1 b2, p.body1 = .obj b1 → p.body2 = .obj b2 →
      1 / 100 < distOf (x.point b1 p.p1_x p.p1_y) (x.point b2 p.p2_x p.p2_y)
  | .motor _ | .custom _ => False
  | _ => True

section
variable {Y : ℝ → Motion} {S : Set ℝ} {t : ℝ}

theorem point_along {b : Nat} (hb : ∀ q : Coord,
    HasDerivWithinAt (fun s => (Y s).pos b q) ((Y t).vel b q) S t) (px py : ℝ) :
    HasDerivWithinAt (fun s => ((Y s).point b px py).1) ((Y t).pointVel b px py).1 S t ∧
    HasDerivWithinAt (fun s => ((Y s).point b px py).2) ((Y t).pointVel b px py).2 S t := by
  have c := (hb .th).cos
  have s := (hb .th).sin
  constructor
  · refine ((hb .x).add ((c.mul_const px).sub (s.mul_const py))).congr_deriv ?_
    simp only [Motion.pointVel, Motion.point]
    ring
  · refine ((hb .y).add ((s.mul_const px).add (c.mul_const py))).congr_deriv ?_
    simp only [Motion.pointVel, Motion.point]
    ring

theorem wrench_power (x : Motion) (b : Nat) (px py : ℝ) (f : ℝ × ℝ) :
    Coord.sum (fun q => x.wrench b (x.point b px py) f q * x.vel b q) =
      f.1 * (x.pointVel b px py).1 + f.2 * (x.pointVel b px py).2 := by
  simp only [Coord.sum, Motion.wrench, Motion.pointVel]
  ring

theorem sum_at {B : Finset Nat} {b : Nat} (hb : b ∈ B) (f : Nat → Coord → ℝ)
    (v : Nat → Coord → ℝ) : ∑ b' ∈ B, Coord.sum (fun q => (if b' = b then f b' q else 0) * v b' q) =
      Coord.sum (fun q => f b q * v b q) := by
  rw [sum_eq_single_of_mem b hb fun b' _ hne => by simp [Coord.sum, hne]]
  simp

/-- A potential changes at minus the power of the force and minus the loss. -/
theorem pot_along {g : Gen ℝ} {B : Finset Nat} (hg : g.Within (· ∈ B)) (m : Nat → ℝ)
    (hb : ∀ b ∈ B, ∀ q : Coord, HasDerivWithinAt (fun s => (Y s).pos b q) ((Y t).vel b q) S t)
    (hs : g.Stretched (Y t)) : HasDerivWithinAt (fun s => g.potOf m B (Y s))
      (-(∑ b ∈ B, Coord.sum (fun q => g.load (m b) (Y t) b q * (Y t).vel b q)) - g.lossOf (Y t))
      S t := by
  cases g with
  | gravity a =>
    have := HasDerivWithinAt.fun_sum fun b h => (hb b h .y).const_mul (m b * a)
    refine this.congr_deriv ?_
    simp only [Gen.lossOf, sub_zero, Gen.load, Coord.sum, ← sum_neg_distrib]
    exact sum_congr rfl fun b _ => by simp
  | static p =>
    obtain ⟨b, h, e⟩ := hg
    obtain ⟨d1, d2⟩ := point_along (hb b h) p.p_x p.p_y
    simp only [Gen.potOf, Gen.load, Gen.lossOf, e, sub_zero, Ptr.obj.injEq]
    refine ((d1.const_mul p.f_x).add (d2.const_mul p.f_y)).neg.congr_deriv ?_
    have e2 : ∀ b', (b = b') = (b' = b) := fun b' => propext eq_comm
    simp only [e2]
    rw [sum_at h (fun b' q => (Y t).wrench b' ((Y t).point b' p.p_x p.p_y) (p.f_x, p.f_y) q),
      wrench_power]
  | spring p =>
    cases h1 : p.body1 with
    | null => simp only [Gen.potOf, Gen.load, Gen.lossOf, h1]; simpa [Coord.sum] using hasDerivWithinAt_const t S (0 : ℝ)
    | uninit => simp only [Gen.potOf, Gen.load, Gen.lossOf, h1]; simpa [Coord.sum] using hasDerivWithinAt_const t S (0 : ℝ)
    | obj b1 =>
      cases h2 : p.body2 with
      | null => simp only [Gen.potOf, Gen.load, Gen.lossOf, h1, h2]; simpa [Coord.sum] using hasDerivWithinAt_const t S (0 : ℝ)
      | uninit => simp only [Gen.potOf, Gen.load, Gen.lossOf, h1, h2]; simpa [Coord.sum] using hasDerivWithinAt_const t S (0 : ℝ)
      | obj b2 =>
        have m1 : b1 ∈ B := by
          rcases hg with h | ⟨⟨b, hb, e⟩, _⟩
          · rw [h1] at h; cases h
          · rw [h1] at e; cases e; exact hb
        have m2 : b2 ∈ B := by
          rcases hg with h | ⟨_, h | ⟨b, hb, e⟩⟩
          · rw [h1] at h; cases h
          · rw [h2] at h; cases h
          · rw [h2] at e; cases e; exact hb
        obtain ⟨d1, d2⟩ := point_along (hb b1 m1) p.p1_x p.p1_y
        obtain ⟨d3, d4⟩ := point_along (hb b2 m2) p.p2_x p.p2_y
        have hl := hs b1 b2 h1 h2
        simp only [Gen.potOf, Gen.load, Gen.lossOf, h1, h2]
        have e1 := sum_at m1 (fun b' q => (Y t).wrench b' ((Y t).point b1 p.p1_x p.p1_y)
          (p.pullOn (Y t) b1 b2) q) (Y t).vel
        have e2 := sum_at m2 (fun b' q => (Y t).wrench b' ((Y t).point b2 p.p2_x p.p2_y)
          (-(p.pullOn (Y t) b1 b2)) q) (Y t).vel
        rw [wrench_power] at e1 e2
        have e3 : (∑ b ∈ B, Coord.sum (fun q =>
            ((if b = b1 then (Y t).wrench b ((Y t).point b1 p.p1_x p.p1_y)
              (p.pullOn (Y t) b1 b2) q else 0) +
            if b = b2 then (Y t).wrench b ((Y t).point b2 p.p2_x p.p2_y)
              (-p.pullOn (Y t) b1 b2) q else 0) * (Y t).vel b q)) =
            ((p.pullOn (Y t) b1 b2).1 * ((Y t).pointVel b1 p.p1_x p.p1_y).1 +
              (p.pullOn (Y t) b1 b2).2 * ((Y t).pointVel b1 p.p1_x p.p1_y).2) +
            ((-p.pullOn (Y t) b1 b2).1 * ((Y t).pointVel b2 p.p2_x p.p2_y).1 +
              (-p.pullOn (Y t) b1 b2).2 * ((Y t).pointVel b2 p.p2_x p.p2_y).2) := by
          rw [← e1, ← e2, ← sum_add_distrib]
          refine sum_congr rfl fun b _ => ?_
          simp only [Coord.sum]
          ring
        rw [e3, Spring.pullOn, springForce, if_pos hl.le]
        set l := distOf ((Y t).point b1 p.p1_x p.p1_y) ((Y t).point b2 p.p2_x p.p2_y) with hld
        have l0 : l ≠ 0 := by intro h0; rw [h0] at hl; norm_num at hl
        have hsq : (((Y t).point b2 p.p2_x p.p2_y).1 - ((Y t).point b1 p.p1_x p.p1_y).1) ^ 2 +
            (((Y t).point b2 p.p2_x p.p2_y).2 - ((Y t).point b1 p.p1_x p.p1_y).2) ^ 2 ≠ 0 := by
          intro h0
          apply l0
          rw [hld, distOf, h0, Real.sqrt_zero]
        have dl := (((d3.sub d1).pow 2).add ((d4.sub d2).pow 2)).sqrt hsq
        have dp := (((dl.sub_const p.restLength).pow 2).const_mul p.ks).div_const 2
        refine dp.congr_deriv ?_
        have hl' : √((((Y t).point b2 p.p2_x p.p2_y).1 - ((Y t).point b1 p.p1_x p.p1_y).1) ^ 2 +
            (((Y t).point b2 p.p2_x p.p2_y).2 - ((Y t).point b1 p.p1_x p.p1_y).2) ^ 2) = l := rfl
        simp only [Pi.sub_apply, Pi.pow_apply, Pi.add_apply, hl', hooke, Prod.fst_neg, Prod.snd_neg]
        field_simp
        push_cast
        ring
  | motor p => exact hs.elim
  | custom f => exact hs.elim

/-- A spring that is longer than 0.01 stays so if its length is never 0.01. -/
theorem stretched_along {g : Gen ℝ} {B : Finset Nat} (hg : g.Within (· ∈ B)) {T : ℝ}
    (hb : ∀ t ∈ Set.Icc 0 T, ∀ b ∈ B, ∀ q : Coord,
      HasDerivWithinAt (fun s => (Y s).pos b q) ((Y t).vel b q) (Set.Icc 0 T) t)
    (hr : ∀ t ∈ Set.Icc 0 T, g.Regular (Y t)) (h0 : g.Stretched (Y 0)) (ht : t ∈ Set.Icc 0 T) :
    g.Stretched (Y t) := by
  cases g with
  | gravity a => trivial
  | static p => trivial
  | motor p => exact h0
  | custom f => exact h0
  | spring p =>
    intro b1 b2 h1 h2
    have m1 : b1 ∈ B := by
      rcases hg with h | ⟨⟨b, hb, e⟩, _⟩
      · rw [h1] at h; cases h
      · rw [h1] at e; cases e; exact hb
    have m2 : b2 ∈ B := by
      rcases hg with h | ⟨_, h | ⟨b, hb, e⟩⟩
      · rw [h1] at h; cases h
      · rw [h2] at h; cases h
      · rw [h2] at e; cases e; exact hb
    by_contra hn
    have hT : 0 ≤ T := ht.1.trans ht.2
    have hc : ContinuousOn (fun s => distOf ((Y s).point b1 p.p1_x p.p1_y)
        ((Y s).point b2 p.p2_x p.p2_y)) (Set.Icc 0 T) := by
      intro s hs
      obtain ⟨d1, d2⟩ := point_along (hb s hs b1 m1) p.p1_x p.p1_y
      obtain ⟨d3, d4⟩ := point_along (hb s hs b2 m2) p.p2_x p.p2_y
      exact ((((d3.continuousWithinAt.sub d1.continuousWithinAt).pow 2).add
        ((d4.continuousWithinAt.sub d2.continuousWithinAt).pow 2)).sqrt)
    obtain ⟨s, hs, e⟩ := isPreconnected_Icc.intermediate_value ht ⟨le_rfl, hT⟩ hc
      ⟨not_lt.mp hn, (h0 b1 b2 h1 h2).le⟩
    exact hr s hs b1 b2 h1 h2 e

end

/-! ### The energy of a system -/

section
variable (w : World ℝ)

/-- Kinetic and potential energy in the motion `x`. -/
noncomputable def World.mechOf (x : Motion) : ℝ :=
  w.energyOf x.vel + ∑ g ∈ w.fg.toFinset, (w.gens g).potOf (fun b => (w.bodies b).m) w.rb.toFinset x

/-- The power lost in the dampers of springs. -/
noncomputable def World.lossOf (x : Motion) : ℝ := ∑ g ∈ w.fg.toFinset, (w.gens g).lossOf x

variable {w} {Y : ℝ → Motion} {S : Set ℝ} {t : ℝ}

/-- The energy changes at the power of the constraint forces minus the loss. -/
theorem mech_along (p : w.Placed) (hd : w.Driven)
    (hpos : ∀ b ∈ w.rb, ∀ q : Coord, HasDerivWithinAt (fun s => (Y s).pos b q) ((Y t).vel b q) S t)
    (hvel : ∀ b ∈ w.rb, ∀ q : Coord, HasDerivWithinAt (fun s => (Y s).vel b q) ((Y t).acc b q) S t)
    {mult : Nat → Nat → ℝ}
    (hn : ∀ b ∈ w.rb, ∀ q : Coord, (w.bodies b).mass q * (Y t).acc b q = w.load (Y t) b q +
      w.conForce (w.reaction (Y t) mult) b q)
    (hs : ∀ g ∈ w.fg, (w.gens g).Stretched (Y t)) : HasDerivWithinAt (fun s => w.mechOf (Y s))
      ((∑ c ∈ w.cs.toFinset, ∑ j ∈ range (w.cons c).rows,
        mult c j * w.rowAt (w.rowsOf (Y t) c) c j (Y t).vel) - w.lossOf (Y t)) S t := by
  have mem : ∀ {b}, b ∈ w.rb.toFinset → b ∈ w.rb := fun hb => List.mem_toFinset.mp hb
  have dpot := HasDerivWithinAt.fun_sum (u := w.fg.toFinset) fun g hg =>
    pot_along (g := w.gens g) (B := w.rb.toFinset)
      ((hd.2 g (List.mem_toFinset.mp hg)).mono fun b hb => List.mem_toFinset.mpr hb)
      (fun b => (w.bodies b).m) (fun b hb => hpos b (mem hb)) (hs g (List.mem_toFinset.mp hg))
  have dkin : HasDerivWithinAt (fun s => w.energyOf (Y s).vel) (∑ b ∈ w.rb.toFinset,
      Coord.sum (fun q => (w.load (Y t) b q + w.conForce (w.reaction (Y t) mult) b q) *
        (Y t).vel b q)) S t := by
    have one : ∀ b ∈ w.rb.toFinset, ∀ q : Coord, HasDerivWithinAt
        (fun s => (w.bodies b).mass q * (Y s).vel b q ^ 2)
        (2 * ((w.load (Y t) b q + w.conForce (w.reaction (Y t) mult) b q) * (Y t).vel b q)) S t :=
      fun b hb q => by
        refine (((hvel b (mem hb) q).pow 2).const_mul ((w.bodies b).mass q)).congr_deriv ?_
        rw [← hn b (mem hb) q]
        push_cast
        ring
    have := HasDerivWithinAt.fun_sum fun b hb =>
      (((one b hb .x).add (one b hb .y)).add (one b hb .th)).div_const 2
    refine HasDerivWithinAt.congr_deriv this ?_
    refine sum_congr rfl fun b _ => ?_
    simp only [Coord.sum]
    ring
  refine (dkin.add dpot).congr_deriv ?_
  rw [← reaction_power p, World.lossOf, sum_sub_distrib]
  have e : ∑ g ∈ w.fg.toFinset, -(∑ b ∈ w.rb.toFinset, Coord.sum (fun q =>
      (w.gens g).load (w.bodies b).m (Y t) b q * (Y t).vel b q)) =
      -∑ b ∈ w.rb.toFinset, Coord.sum (fun q => w.load (Y t) b q * (Y t).vel b q) := by
    rw [sum_neg_distrib, sum_comm]
    congr 1
    refine sum_congr rfl fun b _ => ?_
    simp only [Coord.sum, World.load, sum_mul, sum_add_distrib]
  rw [e]
  have e2 : ∑ b ∈ w.rb.toFinset, Coord.sum (fun q =>
      (w.load (Y t) b q + w.conForce (w.reaction (Y t) mult) b q) * (Y t).vel b q) =
      ∑ b ∈ w.rb.toFinset, Coord.sum (fun q => w.load (Y t) b q * (Y t).vel b q) +
      ∑ b ∈ w.rb.toFinset, Coord.sum (fun q =>
        w.conForce (w.reaction (Y t) mult) b q * (Y t).vel b q) := by
    rw [← sum_add_distrib]
    refine sum_congr rfl fun b _ => ?_
    simp only [Coord.sum]
    ring
  rw [e2]
  ring

end

end Scs
