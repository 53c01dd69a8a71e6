import Verif.WorldGs

/-!
# Rows that act

With positive masses every row of the shipped constraints can move the bodies it is attached to, and
the limits of its force are in order.
-/

namespace Scs

open Finset

/-- The limits of the force of a constraint are in order. -/
def CKind.Ordered : CKind ℝ → Prop
  | .link p => 0 ≤ p.maxForce
  | .constantRotation p => p.minTorque ≤ p.maxTorque
  | .clutch p => p.minTorque ≤ p.maxTorque
  | .rotationFriction p => p.minTorque ≤ p.maxTorque
  | _ => True

/-- A line has a direction. -/
def CKind.Directed : CKind ℝ → Prop
  | .line p => p.dx ≠ 0 ∨ p.dy ≠ 0
  | .rolling p => p.dx ≠ 0 ∨ p.dy ≠ 0
  | _ => True

/-- Positive masses and moments of inertia, force limits in order, lines with a direction, and no
constraint between a body and itself. -/
structure World.Sensible (w : World ℝ) (h : List (Op ℝ)) : Prop where
  mass : ∀ b ∈ regBodies h, 0 < (w.bodies b).m ∧ 0 < (w.bodies b).I
  ordered : ∀ c ∈ regCons h, (w.cons c).kind.Ordered
  directed : ∀ c ∈ regCons h, (w.cons c).kind.Directed
  apart : ∀ c ∈ regCons h, (w.cons c).bodyCount = 2 → (w.cons c).bodies 0 ≠ (w.cons c).bodies 1

theorem dblMax_nonneg : (0 : ℝ) ≤ Fp.dblMax := by
  show (0 : ℝ) ≤ (2 ^ 53 - 1) * 2 ^ 971
  positivity

theorem CKind.Ordered.le {K : CKind ℝ} (h : K.Ordered) : K.loT ≤ K.hiT := by
  have hd := neg_le_self dblMax_nonneg
  cases K with
  | link p => exact neg_le_self h
  | constantRotation p => exact h
  | clutch p => exact h
  | rotationFriction p => exact h
  | simpleGear p =>
    simp only [CKind.loT, CKind.hiT]
    split
    · exact le_rfl
    · exact hd
  | _ => exact hd

/-- A direction is a direction in every frame. -/
theorem turned_ne {dx dy : ℝ} (h : dx ≠ 0 ∨ dy ≠ 0) (θ : ℝ) : rx θ dx dy ≠ 0 ∨ ry θ dx dy ≠ 0 := by
  by_contra hc
  push Not at hc
  obtain ⟨h1, h2⟩ := hc
  have e : dx ^ 2 + dy ^ 2 = rx θ dx dy ^ 2 + ry θ dx dy ^ 2 := by
    have := Real.sin_sq_add_cos_sq θ
    simp only [rx, ry]
    linear_combination -(dx ^ 2 + dy ^ 2) * this
  rw [h1, h2] at e
  have e1 : dx = 0 := by nlinarith [sq_nonneg dx, sq_nonneg dy]
  have e2 : dy = 0 := by nlinarith [sq_nonneg dx, sq_nonneg dy]
  exact h.elim (· e1) (· e2)

/-- Every row of a constraint has an entry which is not zero. -/
theorem CKind.Directed.entry {K : CKind ℝ} (h : K.Directed) (q : Nat → ℝ) {n m : Nat}
    (hK : K.counts = some (n, m)) {j : Nat} (hj : j < n) :
    ∃ k, k < m ∧ ∃ r : Coord, K.jT q j (k * 3 + r.d) ≠ 0 := by
  cases K with
  | base => cases hK
  | custom p => cases hK
  | fixedPosition p =>
    obtain ⟨rfl, rfl⟩ := Prod.mk.inj (Option.some.inj hK)
    obtain rfl | rfl : j = 0 ∨ j = 1 := by omega
    · exact ⟨0, by omega, .x, one_ne_zero⟩
    · exact ⟨0, by omega, .y, one_ne_zero⟩
  | fixedRotation p =>
    obtain ⟨rfl, rfl⟩ := Prod.mk.inj (Option.some.inj hK)
    obtain rfl : j = 0 := by omega
    exact ⟨0, by omega, .th, one_ne_zero⟩
  | line p =>
    obtain ⟨rfl, rfl⟩ := Prod.mk.inj (Option.some.inj hK)
    obtain rfl : j = 0 := by omega
    have h : p.dx ≠ 0 ∨ p.dy ≠ 0 := h
    rcases h with h | h
    · exact ⟨0, by omega, .y, h⟩
    · exact ⟨0, by omega, .x, neg_ne_zero.mpr h⟩
  | link p =>
    obtain ⟨rfl, rfl⟩ := Prod.mk.inj (Option.some.inj hK)
    obtain rfl | rfl : j = 0 ∨ j = 1 := by omega
    · exact ⟨0, by omega, .x, one_ne_zero⟩
    · exact ⟨0, by omega, .y, one_ne_zero⟩
  | rolling p =>
    obtain ⟨rfl, rfl⟩ := Prod.mk.inj (Option.some.inj hK)
    have h : p.dx ≠ 0 ∨ p.dy ≠ 0 := h
    obtain rfl | rfl : j = 0 ∨ j = 1 := by omega
    · exact ⟨1, by omega, .th, neg_ne_zero.mpr one_ne_zero⟩
    · rcases turned_ne h (q 2) with h | h
      · exact ⟨0, by omega, .y, h⟩
      · exact ⟨0, by omega, .x, neg_ne_zero.mpr h⟩
  | constantRotation p =>
    obtain ⟨rfl, rfl⟩ := Prod.mk.inj (Option.some.inj hK)
    obtain rfl : j = 0 := by omega
    exact ⟨0, by omega, .th, one_ne_zero⟩
  | clutch p =>
    obtain ⟨rfl, rfl⟩ := Prod.mk.inj (Option.some.inj hK)
    obtain rfl : j = 0 := by omega
    exact ⟨0, by omega, .th, neg_ne_zero.mpr one_ne_zero⟩
  | rotationFriction p =>
    obtain ⟨rfl, rfl⟩ := Prod.mk.inj (Option.some.inj hK)
    obtain rfl : j = 0 := by omega
    exact ⟨0, by omega, .th, one_ne_zero⟩
  | simpleGear p =>
    obtain ⟨rfl, rfl⟩ := Prod.mk.inj (Option.some.inj hK)
    obtain rfl : j = 0 := by omega
    exact ⟨0, by omega, .th, one_ne_zero⟩

section
variable {w : World ℝ}

/-- The entry of a row for a body, when the bodies of the constraint are different. -/
theorem coef_at {o : Nat → Output ℝ} {c j : Nat} (h2 : (w.cons c).bodyCount ≤ 2)
    (ha : (w.cons c).bodyCount = 2 → w.bodyOf c 0 ≠ w.bodyOf c 1) {k : Nat}
    (hk : k < (w.cons c).bodyCount) (q : Coord) :
    w.coef o c j (w.bodyOf c k) q = (o c).J j (k * 3 + q.d) := by
  rw [World.coef, sum_eq_single k (fun k' hk' hne => if_neg fun e => ?_)
    (fun hk' => absurd (mem_range.mpr hk) hk'), if_pos rfl]
  have hk' := mem_range.mp hk'
  have ha := ha (by omega)
  obtain ⟨rfl, rfl⟩ | ⟨rfl, rfl⟩ : (k = 0 ∧ k' = 1) ∨ (k = 1 ∧ k' = 0) := by omega
  · exact ha e.symm
  · exact ha e

theorem coupling_pos (hm : ∀ b ∈ w.rb, ∀ q : Coord, 0 < (w.bodies b).mass q) {o : Nat → Output ℝ}
    {c j b : Nat} (hb : b ∈ w.rb) {q : Coord} (h0 : w.coef o c j b q ≠ 0) :
    0 < w.coupling o c j c j := by
  have nn : ∀ b ∈ w.rb.toFinset, ∀ q : Coord,
      0 ≤ w.coef o c j b q * (1 / (w.bodies b).mass q) * w.coef o c j b q := by
    intro b hb q
    have := hm b (List.mem_toFinset.mp hb) q
    have h2 : w.coef o c j b q * (1 / (w.bodies b).mass q) * w.coef o c j b q =
      w.coef o c j b q ^ 2 / (w.bodies b).mass q := by ring
    rw [h2]
    positivity
  have hb' := List.mem_toFinset.mpr hb
  refine sum_pos' (fun b hb => ?_) ⟨b, hb', ?_⟩
  · have n := nn b hb
    simp only [Coord.sum]
    exact add_nonneg (add_nonneg (n .x) (n .y)) (n .th)
  · have n := nn b hb'
    have hp : 0 < w.coef o c j b q * (1 / (w.bodies b).mass q) * w.coef o c j b q := by
      have := hm b hb q
      have h2 : w.coef o c j b q * (1 / (w.bodies b).mass q) * w.coef o c j b q =
        w.coef o c j b q ^ 2 / (w.bodies b).mass q := by ring
      rw [h2]
      positivity
    simp only [Coord.sum]
    cases q with
    | x => exact add_pos_of_pos_of_nonneg (add_pos_of_pos_of_nonneg hp (n .y)) (n .th)
    | y => exact add_pos_of_pos_of_nonneg (add_pos_of_nonneg_of_pos (n .x) hp) (n .th)
    | th => exact add_pos_of_nonneg_of_pos (add_nonneg (n .x) (n .y)) hp

variable {cls : Cls} {h : List (Op ℝ)}

theorem World.Sensible.masses (s : w.Sensible h) (r : w.Regs cls h) :
    ∀ b ∈ w.rb, ∀ q : Coord, 0 < (w.bodies b).mass q := fun b hb q => by
  have := s.mass b ((r.bodies.mem b).mp hb)
  cases q with
  | th => exact this.2
  | _ => exact this.1

theorem World.Sensible.acts (s : w.Sensible h) (hst : w.Standard h) (r : w.Regs cls h) (x : Motion) :
    w.Acts x := by
  intro c hc j hj
  have hc' := (r.cons.mem c).mp hc
  obtain ⟨k, hk, q, hne⟩ := (s.directed c hc').entry (x.q w c) (hst.kind c hc') hj
  obtain ⟨b, hb, eb⟩ := hst.bodies c hc' k hk
  have e1 : w.bodyOf c k = b := by rw [World.bodyOf, eb]
  refine coupling_pos (s.masses r) (b := w.bodyOf c k) (q := q) (by
    rw [e1]; exact (r.bodies.mem b).mpr hb) ?_
  rw [coef_at (counts_le (hst.kind c hc')).2.2.2 (fun h2 e => ?_) hk]
  · exact hne
  · obtain ⟨b0, _, e0⟩ := hst.bodies c hc' 0 (by omega)
    obtain ⟨b1, _, e1⟩ := hst.bodies c hc' 1 (by omega)
    refine s.apart c hc' h2 ?_
    rw [World.bodyOf, World.bodyOf, e0, e1] at e
    rw [e0, e1]
    exact congrArg Ptr.obj e

end

end Scs
