import Verif.WorldFollow
import Verif.WorldEnergy

/-!
# Least change, idle constraints and superposition

C78, C79, C80: see `PropsStep.lean` for the notions used.
-/

namespace Scs

open Finset

/-! ## C78 -/

section
variable {G : Gen ℝ → Prop} {h : List (Op ℝ)} {w w' : World ℝ} {env : Env ℝ} {dt : ℝ}

/-- The velocities that the bodies would have after a sub-step of length `dt` without constraints. -/
noncomputable def World.freeVel (w : World ℝ) (dt : ℝ) (b : Nat) (q : Coord) : ℝ :=
  (w.bodies b).vel q + dt * w.load w.now b q / (w.bodies b).mass q

/-- How much velocities `u` deviate from velocities `v`: the sum of the squares of the differences,
weighted by the masses and moments of inertia. -/
noncomputable def World.deviation (w : World ℝ) (S : Finset Nat) (u v : Nat → Coord → ℝ) : ℝ :=
  ∑ b ∈ S, Coord.sum (fun q => (w.bodies b).mass q * (u b q - v b q) ^ 2)

/-- The velocities `u` are what the registered constraints demand in a sub-step of length `dt`. -/
def World.Demanded (w : World ℝ) (h : List (Op ℝ)) (dt : ℝ) (u : Nat → Coord → ℝ) : Prop :=
  ∀ c ∈ regCons h, ∀ j, j < (w.cons c).rows →
    w.rowAt (w.rowsOf w.now c) c j u + (w.rowsOf w.now c).v_bias j +
      w.bias / dt * (w.rowsOf w.now c).C j = 0

theorem demanded_after (hG : ∀ g, G g → g.OnlyForces) (hw : World.Hist G .opt h w)
    (hst : w.Standard h) (hs : w.sle = some .ge) (e : w.process .opt env dt 1 = .ok w') :
    w.Demanded h dt (fun b => (w'.bodies b).vel) := by
  have p := (hw.ready hG hst.wired).2
  obtain ⟨X, μ, hX0, hX⟩ := hw.moved hG hst e
  have st := hX.step 0 (by decide)
  rw [Int.cast_one, div_one, hX0] at st
  have hl : w.Shows (X 1) w'.bodies := hX.last
  intro c hc j hj
  have hc' := (hw.regs.cons.mem c).mpr hc
  refine Eq.trans ?_ (st.ge hs c hc' j hj)
  congr 2
  exact sum_congr rfl fun k hk => Coord.sum_congr fun q =>
    congrArg _ (hl _ (p.bodies c hc' k (mem_range.mp hk)).2 q).2.symm

theorem least_identity (hG : ∀ g, G g → g.OnlyForces) (hw : World.Hist G .opt h w)
    (hst : w.Standard h) (hs : w.sle = some .ge) (e : w.process .opt env dt 1 = .ok w')
    {u : Nat → Coord → ℝ} (hu : w.Demanded h dt u) :
    w.deviation (regBodies h) u (w.freeVel dt) =
      w.deviation (regBodies h) (fun b => (w'.bodies b).vel) (w.freeVel dt) +
        w.deviation (regBodies h) u (fun b => (w'.bodies b).vel) := by
  have p := (hw.ready hG hst.wired).2
  obtain ⟨X, μ, hX0, hX⟩ := hw.moved hG hst e
  have st := hX.step 0 (by decide)
  rw [Int.cast_one, div_one, hX0] at st
  have hl : w.Shows (X 1) w'.bodies := hX.last
  have met := demanded_after hG hw hst hs e
  have orth : ∑ b ∈ w.rb.toFinset, Coord.sum (fun q =>
      w.conForce (w.reaction w.now (μ 0)) b q * (u b q - (w'.bodies b).vel q)) = 0 := by
    rw [reaction_power p w.now (μ 0) (fun b q => u b q - (w'.bodies b).vel q)]
    refine sum_eq_zero fun c hc => sum_eq_zero fun j hj => ?_
    have hc' : c ∈ regCons h := (hw.regs.cons.mem c).mp (List.mem_toFinset.mp hc)
    have h1 := hu c hc' j (mem_range.mp hj)
    have h2 := met c hc' j (mem_range.mp hj)
    have h3 : w.rowAt (w.rowsOf w.now c) c j (fun b q => u b q - (w'.bodies b).vel q) =
        w.rowAt (w.rowsOf w.now c) c j u -
          w.rowAt (w.rowsOf w.now c) c j (fun b => (w'.bodies b).vel) := by
      rw [World.rowAt, World.rowAt, World.rowAt, ← sum_sub_distrib]
      refine sum_congr rfl fun k _ => ?_
      simp only [Coord.sum]
      ring
    rw [h3, show w.rowAt (w.rowsOf w.now c) c j u -
      w.rowAt (w.rowsOf w.now c) c j (fun b => (w'.bodies b).vel) = 0 by
        linear_combination h1 - h2, mul_zero]
  have key : ∀ b ∈ w.rb, ∀ q, (w.bodies b).mass q * ((w'.bodies b).vel q - w.freeVel dt b q) =
      dt * w.conForce (w.reaction w.now (μ 0)) b q := fun b hb q => by
    have hm := hX.mass b hb q
    have h1 := st.vel b hb q
    rw [st.acc b hb q] at h1
    rw [← (hl b hb q).2, show (X 1).vel b q = _ from h1, World.freeVel,
      show w.now.vel b q = (w.bodies b).vel q from rfl]
    field_simp
    ring
  have hreg : w.rb.toFinset = regBodies h := hw.regs.rb_finset
  rw [← hreg, World.deviation, World.deviation, World.deviation, ← sum_add_distrib]
  have : ∑ b ∈ w.rb.toFinset, Coord.sum (fun q => (w.bodies b).mass q * (u b q - w.freeVel dt b q) ^ 2) =
      ∑ b ∈ w.rb.toFinset, (Coord.sum (fun q => (w.bodies b).mass q *
        ((w'.bodies b).vel q - w.freeVel dt b q) ^ 2) + Coord.sum (fun q => (w.bodies b).mass q *
        (u b q - (w'.bodies b).vel q) ^ 2) + 2 * dt * Coord.sum (fun q =>
          w.conForce (w.reaction w.now (μ 0)) b q * (u b q - (w'.bodies b).vel q))) := by
    refine sum_congr rfl fun b hb => ?_
    have k := key b (List.mem_toFinset.mp hb)
    have kx := k .x
    have ky := k .y
    have kt := k .th
    simp only [Coord.sum]
    linear_combination 2 * (u b .x - (w'.bodies b).vel .x) * kx +
      2 * (u b .y - (w'.bodies b).vel .y) * ky + 2 * (u b .th - (w'.bodies b).vel .th) * kt
  rw [this, sum_add_distrib, ← mul_sum, orth, mul_zero, add_zero]

/-- **C78**: with Gaussian elimination the velocities after a sub-step are what the constraints demand,
and among all such velocities they deviate least from the velocities without constraints. -/
theorem C78_least (hG : ∀ g, G g → g.OnlyForces) (hw : World.Hist G .opt h w)
    (hst : w.Standard h) (hs : w.sle = some .ge)
    (hm : ∀ b ∈ regBodies h, 0 < (w.bodies b).m ∧ 0 < (w.bodies b).I)
    (e : w.process .opt env dt 1 = .ok w') {u : Nat → Coord → ℝ} (hu : w.Demanded h dt u) :
    w.Demanded h dt (fun b => (w'.bodies b).vel) ∧
    w.deviation (regBodies h) (fun b => (w'.bodies b).vel) (w.freeVel dt) ≤
      w.deviation (regBodies h) u (w.freeVel dt) := by
  have h2 := least_identity hG hw hst hs e hu
  refine ⟨demanded_after hG hw hst hs e, ?_⟩
  rw [h2]
  refine le_add_of_nonneg_right (sum_nonneg fun b hb => ?_)
  obtain ⟨m1, m2⟩ := hm b hb
  simp only [Coord.sum, Body.mass]
  positivity

/-- **C78**: no other velocities that the constraints demand deviate as little. -/
theorem C78_unique (hG : ∀ g, G g → g.OnlyForces) (hw : World.Hist G .opt h w)
    (hst : w.Standard h) (hs : w.sle = some .ge)
    (hm : ∀ b ∈ regBodies h, 0 < (w.bodies b).m ∧ 0 < (w.bodies b).I)
    (e : w.process .opt env dt 1 = .ok w') {u : Nat → Coord → ℝ} (hu : w.Demanded h dt u)
    (hmin : w.deviation (regBodies h) u (w.freeVel dt) ≤
      w.deviation (regBodies h) (fun b => (w'.bodies b).vel) (w.freeVel dt)) :
    ∀ b ∈ regBodies h, u b = (w'.bodies b).vel := by
  have h2 := least_identity hG hw hst hs e hu
  have hpos : ∀ b ∈ regBodies h, ∀ q, 0 < (w.bodies b).mass q := fun b hb q => by
    cases q
    · exact (hm b hb).1
    · exact (hm b hb).1
    · exact (hm b hb).2
  have hz : w.deviation (regBodies h) u (fun b => (w'.bodies b).vel) ≤ 0 := by linarith
  have nn : ∀ b ∈ regBodies h, ∀ q, 0 ≤ (w.bodies b).mass q * (u b q - (w'.bodies b).vel q) ^ 2 :=
    fun b hb q => mul_nonneg (hpos b hb q).le (sq_nonneg _)
  intro b hb
  have t : Coord.sum (fun q => (w.bodies b).mass q * (u b q - (w'.bodies b).vel q) ^ 2) ≤ 0 :=
    le_trans (single_le_sum (f := fun b => Coord.sum (fun q => (w.bodies b).mass q *
      (u b q - (w'.bodies b).vel q) ^ 2)) (fun b hb => by
        simp only [Coord.sum]
        exact add_nonneg (add_nonneg (nn b hb .x) (nn b hb .y)) (nn b hb .th)) hb) hz
  simp only [Coord.sum] at t
  have n1 := nn b hb .x
  have n2 := nn b hb .y
  have n3 := nn b hb .th
  have zero : ∀ q, (w.bodies b).mass q * (u b q - (w'.bodies b).vel q) ^ 2 = 0 →
      u b q = (w'.bodies b).vel q := fun q h0 => by
    have := (mul_eq_zero.mp h0).resolve_left (hpos b hb q).ne'
    exact sub_eq_zero.mp (pow_eq_zero_iff two_ne_zero |>.mp this)
  funext q
  cases q
  · exact zero .x (by linarith)
  · exact zero .y (by linarith)
  · exact zero .th (by linarith)

/-- The hypotheses are met: two linked bodies under gravity; the velocities after the sub-step are
demanded themselves. -/
example (l : Link ℝ) (env : Env ℝ) : ∃ (h : List (Op ℝ)) (w w' : World ℝ) (u : Nat → Coord → ℝ),
    World.Hist Gen.Shipped .opt h w ∧ w.Standard h ∧ w.sle = some .ge ∧
      (∀ b ∈ regBodies h, 0 < (w.bodies b).m ∧ 0 < (w.bodies b).I) ∧ regCons h ≠ ∅ ∧
      w.process .opt env 2 1 = .ok w' ∧ w.Demanded h 2 u := by
  obtain ⟨h, w, w', d, hst, e⟩ := demo_pins (pins_link l) (g := .gravity 9) trivial trivial
    (sv := .ge) trivial (by simp) two_ne_zero 1 env
  refine ⟨h, w, w', fun b => (w'.bodies b).vel, d.hist, hst, d.sle, fun b _ => ?_,
    ne_empty_of_mem (d.mem0 rfl), e, ?_⟩
  · have m1 := d.mass b .x
    have m2 := d.mass b .th
    exact ⟨by rw [show (w.bodies b).m = 1 from m1]; exact one_pos,
      by rw [show (w.bodies b).I = 1 from m2]; exact one_pos⟩
  · exact demanded_after (fun g => Gen.tame) d.hist hst d.sle e

end

end Scs
