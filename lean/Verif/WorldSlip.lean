import Verif.PropsPassive

/-!
# A constraint with one row that shares its bodies with no other

Lemmas for C89.
-/

namespace Scs

open Finset

section
variable {w : World ℝ}

/-- No other constraint acts on a body of constraint `c`. -/
def World.Lone (w : World ℝ) (S : Finset Nat) (c : Nat) : Prop :=
  ∀ c' ∈ S, c' ≠ c → ∀ k, k < (w.cons c).bodyCount → ∀ k', k' < (w.cons c').bodyCount →
    w.bodyOf c k ≠ w.bodyOf c' k'

theorem World.Lone.coef {S : Finset Nat} {c : Nat} (hl : w.Lone S c) {c' : Nat} (hc' : c' ∈ S)
    (hne : c' ≠ c) (o : Nat → Output ℝ) {k : Nat} (hk : k < (w.cons c).bodyCount) (j : Nat) (q : Coord) :
    w.coef o c' j (w.bodyOf c k) q = 0 :=
  sum_eq_zero fun k' hk' => if_neg fun e => hl c' hc' hne k hk k' (mem_range.mp hk') e.symm

theorem coef_off {o : Nat → Output ℝ} {c b : Nat}
    (h : ∀ k, k < (w.cons c).bodyCount → w.bodyOf c k ≠ b) (j : Nat) (q : Coord) :
    w.coef o c j b q = 0 :=
  sum_eq_zero fun k hk => if_neg (h k (mem_range.mp hk))

theorem World.Lone.coupling {S : Finset Nat} {c : Nat} (hl : w.Lone S c) {c' : Nat} (hc' : c' ∈ S)
    (hne : c' ≠ c) (o : Nat → Output ℝ) (j j' : Nat) : w.coupling o c j c' j' = 0 := by
  refine sum_eq_zero fun b _ => ?_
  by_cases h : ∃ k, k < (w.cons c).bodyCount ∧ w.bodyOf c k = b
  · obtain ⟨k, hk, rfl⟩ := h
    simp only [Coord.sum, hl.coef hc' hne o hk, mul_zero, add_zero]
  · simp only [Coord.sum, coef_off (o := o) (j := j) (fun k hk e => h ⟨k, hk, e⟩), zero_mul, add_zero]

/-- The velocities after a step of length `s` from the motion `x` without constraints. -/
noncomputable def World.freely (w : World ℝ) (s : ℝ) (x : Motion) (b : Nat) (q : Coord) : ℝ :=
  x.vel b q + s * (w.load x b q / (w.bodies b).mass q)

/-- The velocity along the row of a lone constraint after a step. -/
theorem World.Lone.row (p : w.Placed) {c : Nat} (hc : c ∈ w.cs) (hl : w.Lone w.cs.toFinset c)
    (h1 : (w.cons c).rows = 1) {s : ℝ} {x x' : Motion} {mult : Nat → Nat → ℝ}
    (st : w.Move s x x' mult) :
    w.rowAt (w.rowsOf x c) c 0 x'.vel = w.rowAt (w.rowsOf x c) c 0 (w.freely s x) +
      s * (w.coupling (w.rowsOf x) c 0 c 0 * mult c 0) := by
  have e : w.rowAt (w.rowsOf x c) c 0 x'.vel = w.rowAt (w.rowsOf x c) c 0
      (fun b q => w.freely s x b q + s * w.response (w.rowsOf x) mult b q) := by
    refine sum_congr rfl fun k hk => Coord.sum_congr fun q => ?_
    have hb := (p.bodies c hc k (mem_range.mp hk)).2
    have : x'.vel (w.bodyOf c k) q = w.freely s x (w.bodyOf c k) q +
        s * w.response (w.rowsOf x) mult (w.bodyOf c k) q := by
      rw [st.vel _ hb, st.acc _ hb, conForce_coef, add_div, mul_add, ← add_assoc]
      rfl
    rw [this]
  rw [e, rowAt_add, rowAt_response p _ _ hc, sum_eq_single c (fun c' hc' hne => sum_eq_zero fun j' _ => by
    rw [hl.coupling hc' hne, zero_mul]) (fun h => absurd (List.mem_toFinset.mpr hc) h), h1,
    sum_range_one]

/-- The force along the row of a lone constraint: the one that satisfies it, if within the limits, and
else the limit. -/
theorem World.Lone.force (p : w.Placed) {c : Nat} (hc : c ∈ w.cs) (hl : w.Lone w.cs.toFinset c)
    (h1 : (w.cons c).rows = 1) {s e : ℝ} (hs : 0 < s) {x x' : Motion} {mult : Nat → Nat → ℝ}
    (st : w.Move s x x' mult) (hg : w.GsRows e s x x' mult)
    (hpos : 0 < w.coupling (w.rowsOf x) c 0 c 0)
    (hlim : (w.cons c).kind.loT ≤ mult c 0 ∧ mult c 0 ≤ (w.cons c).kind.hiT) :
    mult c 0 = max (w.cons c).kind.loT (min (w.cons c).kind.hiT
      (-(w.rowAt (w.rowsOf x c) c 0 (w.freely s x) + (w.rowsOf x c).v_bias 0 +
        w.bias / s * (w.rowsOf x c).C 0) / (s * w.coupling (w.rowsOf x) c 0 c 0))) := by
  obtain ⟨prev, -, h2⟩ := hg
  have key := h2 c hc 0 (by omega) hpos (hlim.1.trans hlim.2) _ _ rfl rfl
  have z : (∑ c' ∈ w.cs.toFinset, ∑ j' ∈ range (w.cons c').rows, (if c' = c ∧ j' = 0 then 0 else
        |w.coupling (w.rowsOf x) c 0 c' j'| * |s * mult c' j' - prev c' j'|)) = 0 := by
    refine sum_eq_zero fun c' hc' => sum_eq_zero fun j' hj' => ?_
    by_cases hne : c' = c
    · subst hne
      have : j' = 0 := by have := mem_range.mp hj'; omega
      rw [if_pos ⟨rfl, this⟩]
    · rw [if_neg fun h => hne h.1, hl.coupling hc' hne, abs_zero, zero_mul]
  rw [z, neg_zero, hl.row p hc h1 st] at key
  have hb : (w.rowsOf x c).v_bias 0 = (w.cons c).kind.biasT := rfl
  rw [hb]
  have hk : 0 < s * w.coupling (w.rowsOf x) c 0 c 0 := mul_pos hs hpos
  generalize w.rowAt (w.rowsOf x c) c 0 (w.freely s x) = a at *
  generalize (w.cons c).kind.biasT = b at *
  generalize w.bias / s * (w.rowsOf x c).C 0 = g at *
  rw [← mul_assoc] at key
  generalize s * w.coupling (w.rowsOf x) c 0 c 0 = k at *
  rcases key with h | ⟨h3, h4⟩ | ⟨h3, h4⟩
  · have h5 := abs_nonpos_iff.mp h
    have : -(a + b + g) / k = mult c 0 := by
      rw [div_eq_iff hk.ne']
      linarith
    rw [this, min_eq_right hlim.2, max_eq_right hlim.1]
  · have : -(a + b + g) / k ≤ mult c 0 := by
      rw [div_le_iff₀ hk]
      linarith
    rw [max_eq_left ((min_le_right _ _).trans (this.trans h3.le)), h3]
  · have : mult c 0 ≤ -(a + b + g) / k := by
      rw [le_div_iff₀ hk]
      linarith
    rw [← h3, min_eq_left this, max_eq_right hlim.1]

/-- The velocities of the bodies of a lone constraint after a step. -/
theorem World.Lone.vel (p : w.Placed) {c : Nat} (hc : c ∈ w.cs) (hl : w.Lone w.cs.toFinset c)
    (h1 : (w.cons c).rows = 1) (h2 : (w.cons c).bodyCount ≤ 2)
    (ha : (w.cons c).bodyCount = 2 → w.bodyOf c 0 ≠ w.bodyOf c 1) {s : ℝ} {x x' : Motion}
    {mult : Nat → Nat → ℝ} (st : w.Move s x x' mult) {k : Nat} (hk : k < (w.cons c).bodyCount)
    (q : Coord) : x'.vel (w.bodyOf c k) q = w.freely s x (w.bodyOf c k) q +
      s * (mult c 0 * (w.rowsOf x c).J 0 (k * 3 + q.d) / (w.bodies (w.bodyOf c k)).mass q) := by
  have hb := (p.bodies c hc k hk).2
  rw [st.vel _ hb, st.acc _ hb, conForce_coef, sum_eq_single c (fun c' hc' hne => sum_eq_zero
    fun j' _ => by rw [hl.coef hc' hne _ hk, mul_zero])
    (fun h => absurd (List.mem_toFinset.mpr hc) h), h1, sum_range_one, coef_at h2 ha hk, add_div,
    mul_add, ← add_assoc]
  rfl

theorem coupling_one (p : w.Placed) {c : Nat} (hc : c ∈ w.cs) (hn : (w.cons c).bodyCount = 1)
    (o : Nat → Output ℝ) (j : Nat) : w.coupling o c j c j = Coord.sum (fun q =>
      (o c).J j q.d ^ 2 / (w.bodies (w.bodyOf c 0)).mass q) := by
  have hb := (p.bodies c hc 0 (by omega)).2
  rw [World.coupling, sum_eq_single (w.bodyOf c 0) (fun b _ hne => ?_)
    (fun h => absurd (List.mem_toFinset.mpr hb) h)]
  · refine Coord.sum_congr fun q => ?_
    rw [coef_at (by omega) (fun h => by omega) (by omega : 0 < _), zero_mul, zero_add]
    ring
  · have : ∀ q, w.coef o c j b q = 0 := coef_off (fun k hk e => hne (by
      rw [← e]; congr 1; omega)) j
    simp only [Coord.sum, this, mul_zero, add_zero]

theorem coupling_two (p : w.Placed) {c : Nat} (hc : c ∈ w.cs) (hn : (w.cons c).bodyCount = 2)
    (ha : w.bodyOf c 0 ≠ w.bodyOf c 1) (o : Nat → Output ℝ) (j : Nat) :
    w.coupling o c j c j = Coord.sum (fun q =>
        (o c).J j q.d ^ 2 / (w.bodies (w.bodyOf c 0)).mass q) +
      Coord.sum (fun q => (o c).J j (3 + q.d) ^ 2 / (w.bodies (w.bodyOf c 1)).mass q) := by
  have hb0 := (p.bodies c hc 0 (by omega)).2
  have hb1 := (p.bodies c hc 1 (by omega)).2
  have h0 : ∀ q, w.coef o c j (w.bodyOf c 0) q = (o c).J j q.d := fun q => by
    rw [coef_at (by omega) (fun _ => ha) (by omega : 0 < _), zero_mul, zero_add]
  have h1 : ∀ q, w.coef o c j (w.bodyOf c 1) q = (o c).J j (3 + q.d) := fun q => by
    rw [coef_at (by omega) (fun _ => ha) (by omega : 1 < _), one_mul]
  have hz : ∀ b ∈ w.rb.toFinset, b ∉ ({w.bodyOf c 0, w.bodyOf c 1} : Finset Nat) →
      Coord.sum (fun q => w.coef o c j b q * (1 / (w.bodies b).mass q) * w.coef o c j b q) = 0 := by
    intro b _ hb
    rw [mem_insert, mem_singleton, not_or] at hb
    have : ∀ q, w.coef o c j b q = 0 := coef_off (fun k hk e => by
      obtain rfl | rfl : k = 0 ∨ k = 1 := by omega
      · exact hb.1 e.symm
      · exact hb.2 e.symm) j
    simp only [Coord.sum, this, mul_zero, add_zero]
  rw [World.coupling, ← sum_subset (s₁ := {w.bodyOf c 0, w.bodyOf c 1}) (fun b hb => by
    rw [mem_insert, mem_singleton] at hb
    rw [List.mem_toFinset]
    rcases hb with rfl | rfl
    · exact hb0
    · exact hb1) hz, sum_pair ha]
  congr 1
  · exact Coord.sum_congr fun q => by rw [h0]; ring
  · exact Coord.sum_congr fun q => by rw [h1]; ring

end

end Scs
