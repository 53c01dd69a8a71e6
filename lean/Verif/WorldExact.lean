import Verif.PropsGsWorld
import Verif.PropsGs

/-!
# The exact step with limited forces

The velocities at the end of a step in which every constraint is either satisfied or at a limit of its
force; how much two steps that are nearly exact can differ.
-/

namespace Scs

open Finset

section
variable {w v : World ℝ}

/-- A step of length `h` from the present state to the velocities `u` with forces `mult` along the rows
of the constraints: the forces are within their limits, they and those of the generators accelerate the
bodies, and row `j` of constraint `c` is satisfied up to `E c j`, or its force is at a limit and the
bodies give way in the direction in which it holds them back. -/
structure World.Nearly (w : World ℝ) (h : ℝ) (E mult : Nat → Nat → ℝ) (u : Nat → Coord → ℝ) :
    Prop where
  newton : ∀ b ∈ w.rb, ∀ q : Coord, u b q = (w.bodies b).vel q +
    h * ((w.load w.now b q + w.conForce (w.reaction w.now mult) b q) / (w.bodies b).mass q)
  limits : ∀ c ∈ w.cs, ∀ j, j < (w.cons c).rows →
    (w.cons c).kind.loT ≤ mult c j ∧ mult c j ≤ (w.cons c).kind.hiT
  row : ∀ c ∈ w.cs, ∀ j, j < (w.cons c).rows → ∀ r,
    r = w.rowAt (w.rowsOf w.now c) c j u + (w.rowsOf w.now c).v_bias j +
      w.bias / h * (w.rowsOf w.now c).C j →
    |r| ≤ E c j ∨ (mult c j = (w.cons c).kind.loT ∧ -E c j ≤ r) ∨
      (mult c j = (w.cons c).kind.hiT ∧ r ≤ E c j)

/-- What a row may lack is paid for by the force. -/
theorem nearly_cone {r E l lo hi μ : ℝ} (hμ : lo ≤ μ ∧ μ ≤ hi)
    (h : |r| ≤ E ∨ (l = lo ∧ -E ≤ r) ∨ (l = hi ∧ r ≤ E)) : -(E * |μ - l|) ≤ r * (μ - l) := by
  rcases h with h | ⟨rfl, h⟩ | ⟨rfl, h⟩
  · have h1 := neg_abs_le (r * (μ - l))
    rw [abs_mul] at h1
    have h2 := mul_le_mul_of_nonneg_right h (abs_nonneg (μ - l))
    linarith
  · have h0 : 0 ≤ μ - l := by linarith
    rw [abs_of_nonneg h0]
    nlinarith
  · have h0 : μ - l ≤ 0 := by linarith
    rw [abs_of_nonpos h0]
    nlinarith

/-- The work of the difference of the forces on the difference of the velocities. -/
theorem World.Nearly.work (p : w.Placed) (hm : ∀ b ∈ w.rb, ∀ q : Coord, 0 < (w.bodies b).mass q)
    {h : ℝ} {E E' mult mult' : Nat → Nat → ℝ} {u u' : Nat → Coord → ℝ} (a : w.Nearly h E mult u)
    (a' : w.Nearly h E' mult' u') :
    ∑ b ∈ w.rb.toFinset, Coord.sum (fun q => (w.bodies b).mass q * (u b q - u' b q) ^ 2) =
      h * ∑ c ∈ w.cs.toFinset, ∑ j ∈ range (w.cons c).rows, (mult c j - mult' c j) *
        (w.rowAt (w.rowsOf w.now c) c j u - w.rowAt (w.rowsOf w.now c) c j u') := by
  have e1 : ∀ b ∈ w.rb, ∀ q : Coord, (w.bodies b).mass q * (u b q - u' b q) ^ 2 =
      h * ∑ c ∈ w.cs.toFinset, ∑ j ∈ range (w.cons c).rows, (mult c j - mult' c j) *
        (w.coef (w.rowsOf w.now) c j b q * (u b q - u' b q)) := by
    intro b hb q
    have hne := (hm b hb q).ne'
    have e : (w.bodies b).mass q * (u b q - u' b q) = h * ∑ c ∈ w.cs.toFinset,
        ∑ j ∈ range (w.cons c).rows, (mult c j - mult' c j) * w.coef (w.rowsOf w.now) c j b q := by
      have es : ∑ c ∈ w.cs.toFinset, ∑ j ∈ range (w.cons c).rows,
          (mult c j - mult' c j) * w.coef (w.rowsOf w.now) c j b q =
          w.conForce (w.reaction w.now mult) b q - w.conForce (w.reaction w.now mult') b q := by
        rw [conForce_coef, conForce_coef, ← sum_sub_distrib]
        refine sum_congr rfl fun c _ => ?_
        rw [← sum_sub_distrib]
        exact sum_congr rfl fun j _ => by ring
      rw [es, a.newton b hb q, a'.newton b hb q]
      field_simp
      ring
    rw [sq, ← mul_assoc, e, mul_assoc, sum_mul]
    congr 1
    refine sum_congr rfl fun c _ => ?_
    rw [sum_mul]
    exact sum_congr rfl fun j _ => by ring
  have e2 : ∀ c ∈ w.cs, ∀ j, w.rowAt (w.rowsOf w.now c) c j u - w.rowAt (w.rowsOf w.now c) c j u' =
      ∑ b ∈ w.rb.toFinset, Coord.sum (fun q => w.coef (w.rowsOf w.now) c j b q *
        (u b q - u' b q)) := by
    intro c hc j
    rw [rowAt_coef p hc (w.rowsOf w.now), rowAt_coef p hc (w.rowsOf w.now), ← sum_sub_distrib]
    refine sum_congr rfl fun b _ => ?_
    simp only [Coord.sum]
    ring
  have e3 : ∑ b ∈ w.rb.toFinset, Coord.sum (fun q => (w.bodies b).mass q * (u b q - u' b q) ^ 2) =
      ∑ b ∈ w.rb.toFinset, h * ∑ c ∈ w.cs.toFinset, ∑ j ∈ range (w.cons c).rows,
        (mult c j - mult' c j) * Coord.sum (fun q => w.coef (w.rowsOf w.now) c j b q *
          (u b q - u' b q)) := by
    refine sum_congr rfl fun b hb => ?_
    have hb := List.mem_toFinset.mp hb
    simp only [Coord.sum, e1 b hb]
    rw [← mul_add, ← mul_add, ← sum_add_distrib, ← sum_add_distrib]
    congr 1
    refine sum_congr rfl fun c _ => ?_
    rw [← sum_add_distrib, ← sum_add_distrib]
    exact sum_congr rfl fun j _ => by ring
  rw [e3, ← mul_sum, sum_comm]
  congr 1
  refine sum_congr rfl fun c hc => ?_
  rw [sum_comm]
  refine sum_congr rfl fun j _ => ?_
  rw [← mul_sum, e2 c (List.mem_toFinset.mp hc) j]

/-- Two steps which are nearly exact differ little. -/
theorem World.Nearly.close (p : w.Placed) (hm : ∀ b ∈ w.rb, ∀ q : Coord, 0 < (w.bodies b).mass q)
    {h : ℝ} (hh : 0 < h) {E E' mult mult' : Nat → Nat → ℝ} {u u' : Nat → Coord → ℝ}
    (a : w.Nearly h E mult u) (a' : w.Nearly h E' mult' u') :
    ∑ b ∈ w.rb.toFinset, Coord.sum (fun q => (w.bodies b).mass q * (u b q - u' b q) ^ 2) ≤
      h * ∑ c ∈ w.cs.toFinset, ∑ j ∈ range (w.cons c).rows,
        (E c j + E' c j) * |mult c j - mult' c j| := by
  rw [a.work p hm a']
  refine mul_le_mul_of_nonneg_left (sum_le_sum fun c hc => sum_le_sum fun j hj => ?_) hh.le
  have hc := List.mem_toFinset.mp hc
  have hj := mem_range.mp hj
  have h1 := nearly_cone (a'.limits c hc j hj) (a.row c hc j hj _ rfl)
  have h2 := nearly_cone (a.limits c hc j hj) (a'.row c hc j hj _ rfl)
  rw [abs_sub_comm] at h1
  nlinarith

/-- The velocity along a row caused by forces along the rows. -/
theorem rowAt_response (p : w.Placed) (o : Nat → Output ℝ) (z : Nat → Nat → ℝ) {c : Nat}
    (hc : c ∈ w.cs) (j : Nat) : w.rowAt (o c) c j (w.response o z) =
      ∑ c' ∈ w.cs.toFinset, ∑ j' ∈ range (w.cons c').rows, w.coupling o c j c' j' * z c' j' := by
  rw [rowAt_coef p hc o]
  have e : ∀ b, Coord.sum (fun q => w.coef o c j b q * w.response o z b q) =
      ∑ c' ∈ w.cs.toFinset, ∑ j' ∈ range (w.cons c').rows, Coord.sum (fun q =>
        w.coef o c j b q * (1 / (w.bodies b).mass q) * w.coef o c' j' b q) * z c' j' := by
    intro b
    have e1 : ∀ q : Coord, w.coef o c j b q * w.response o z b q = ∑ c' ∈ w.cs.toFinset,
        ∑ j' ∈ range (w.cons c').rows,
          w.coef o c j b q * (1 / (w.bodies b).mass q) * w.coef o c' j' b q * z c' j' := by
      intro q
      rw [World.response, div_eq_mul_one_div, ← mul_assoc, mul_right_comm, mul_sum]
      refine sum_congr rfl fun c' _ => ?_
      rw [mul_sum]
      exact sum_congr rfl fun j' _ => by ring
    simp only [Coord.sum, e1]
    rw [← sum_add_distrib, ← sum_add_distrib]
    refine sum_congr rfl fun c' _ => ?_
    rw [← sum_add_distrib, ← sum_add_distrib]
    exact sum_congr rfl fun j' _ => by ring
  simp only [e]
  rw [sum_comm]
  refine sum_congr rfl fun c' _ => ?_
  rw [sum_comm]
  refine sum_congr rfl fun j' _ => ?_
  rw [World.coupling, sum_mul]

theorem coupling_symm (o : Nat → Output ℝ) (c j c' j' : Nat) :
    w.coupling o c j c' j' = w.coupling o c' j' c j :=
  sum_congr rfl fun b _ => Coord.sum_congr fun q => by ring

theorem rowAt_add (o : Output ℝ) (c j : Nat) (u u' : Nat → Coord → ℝ) (h : ℝ) :
    w.rowAt o c j (fun b q => u b q + h * u' b q) = w.rowAt o c j u + h * w.rowAt o c j u' := by
  rw [World.rowAt, World.rowAt, World.rowAt, mul_sum, ← sum_add_distrib]
  refine sum_congr rfl fun k _ => ?_
  simp only [Coord.sum]
  ring

/-- There is an exact step. -/
theorem World.Acts.exact (p : w.Placed) (hfit : w.Fit (fun c k => w.at (w.bodyOf c k))) {h : ℝ}
    (hh : 0 < h) (ha : w.Acts w.now)
    (hl : ∀ c ∈ w.cs, (w.cons c).kind.loT ≤ (w.cons c).kind.hiT) :
    ∃ mult u, w.Nearly h (fun _ _ => 0) mult u := by
  set free : Nat → Coord → ℝ := fun b q =>
    (w.bodies b).vel q + h * (w.load w.now b q / (w.bodies b).mass q) with hfree
  set b : Nat → Nat → ℝ := fun c j => -(w.rowAt (w.rowsOf w.now c) c j free +
    (w.rowsOf w.now c).v_bias j + w.bias / h * (w.rowsOf w.now c).C j) with hb
  obtain ⟨z, hz⟩ := exists_complementary (n := w.fullCount)
    (M := fun f g => h * w.coupling (w.rowsOf w.now) (w.rowC f) (w.rowK f) (w.rowC g) (w.rowK g))
    (lo := fun f => (w.cons (w.rowC f)).kind.loT) (hi := fun f => (w.cons (w.rowC f)).kind.hiT)
    (fun f g _ _ => by rw [coupling_symm]) (fun f hf => by
      obtain ⟨c, hc, j, hj, rfl⟩ := row_get p hfit hf
      obtain ⟨_, _, r3, r4⟩ := row_of p hfit hc hj
      rw [r3, r4]
      exact mul_pos hh (ha c hc j hj)) (fun f hf => by
      obtain ⟨c, hc, j, hj, rfl⟩ := row_get p hfit hf
      obtain ⟨_, _, _, r4⟩ := row_of p hfit hc hj
      rw [r4]
      exact hl c hc) (fun f => b (w.rowC f) (w.rowK f))
  set mult : Nat → Nat → ℝ := fun c j => z (w.off (w.conAt c) + j) with hmult
  set u : Nat → Coord → ℝ := fun b q => (w.bodies b).vel q +
    h * ((w.load w.now b q + w.conForce (w.reaction w.now mult) b q) / (w.bodies b).mass q) with hu
  have eu : u = fun b q => free b q + h * w.response (w.rowsOf w.now) mult b q := by
    funext b q
    simp only [hu, hfree, World.response, conForce_coef]
    ring
  have key : ∀ c ∈ w.cs, ∀ j, j < (w.cons c).rows → ((w.cons c).kind.loT ≤ mult c j ∧
      mult c j ≤ (w.cons c).kind.hiT) ∧ ∀ r,
      r = w.rowAt (w.rowsOf w.now c) c j u + (w.rowsOf w.now c).v_bias j +
        w.bias / h * (w.rowsOf w.now c).C j →
      r = 0 ∨ (mult c j = (w.cons c).kind.loT ∧ 0 ≤ r) ∨ (mult c j = (w.cons c).kind.hiT ∧ r ≤ 0) := by
    intro c hc j hj
    obtain ⟨r1, _, r3, r4⟩ := row_of p hfit hc hj
    obtain ⟨l1, l2, l3⟩ := hz _ r1
    simp only [r3, r4] at l1 l2 l3
    refine ⟨⟨l1, l2⟩, fun r hr => ?_⟩
    have er : r = ∑ g ∈ range w.fullCount,
        h * w.coupling (w.rowsOf w.now) c j (w.rowC g) (w.rowK g) * z g - b c j := by
      rw [hr, eu, rowAt_add, rowAt_response p _ _ hc, sum_full p hfit, mul_sum, hb]
      have : ∀ c' ∈ w.cs.toFinset, ∑ j' ∈ range (w.cons c').rows,
          h * w.coupling (w.rowsOf w.now) c j (w.rowC (w.off (w.conAt c') + j'))
            (w.rowK (w.off (w.conAt c') + j')) * z (w.off (w.conAt c') + j') =
          h * ∑ j' ∈ range (w.cons c').rows, w.coupling (w.rowsOf w.now) c j c' j' * mult c' j' := by
        intro c' hc'
        rw [mul_sum]
        refine sum_congr rfl fun j' hj' => ?_
        obtain ⟨_, _, s3, s4⟩ := row_of p hfit (List.mem_toFinset.mp hc') (mem_range.mp hj')
        rw [s3, s4, mul_assoc]
      rw [sum_congr rfl this]
      ring
    rcases l3 with l | ⟨l, l'⟩ | ⟨l, l'⟩
    · left; rw [er, l, sub_self]
    · right; left; exact ⟨l', by rw [er]; linarith⟩
    · right; right; exact ⟨l', by rw [er]; linarith⟩
  refine ⟨mult, u, fun b _ q => rfl, fun c hc j hj => (key c hc j hj).1, fun c hc j hj r hr => ?_⟩
  rcases (key c hc j hj).2 r hr with h0 | h0 | h0
  · left; rw [h0, abs_zero]
  · right; left; rw [neg_zero]; exact h0
  · right; right; exact h0

/-- Systems with the same objects have the same nearly exact steps. -/
theorem World.Alike.nearly (a : w.Alike v) (p : w.Placed) (hg : w.Driven) {h : ℝ} {E mult : Nat → Nat → ℝ}
    {u : Nat → Coord → ℝ} (st : w.Nearly h E mult u) : v.Nearly h E mult u := by
  have sm : w.SameAs w.now v.now := ⟨fun b hb q => (a.pos hb q).symm, fun b hb q => (a.vel hb q).symm,
    fun b hb q => rfl⟩
  have er : ∀ c ∈ w.cs, v.rowsOf v.now c = w.rowsOf w.now c := fun c hc => by
    rw [a.rowsOf v.now hc, rowsOf_congr p sm hc]
  refine ⟨fun b hb q => ?_, fun c hc j hj => ?_, fun c hc j hj r hr => ?_⟩
  · rw [a.memb] at hb
    rw [st.newton b hb q, a.vel hb, a.mass hb, a.load v.now hb, a.conForce,
      load_congr hg sm hb]
    congr 4
    exact conForce_congr (fun c hc q j k _ _ => by
      rw [World.reaction, World.reaction, er c hc]) b q
  · rw [a.memc] at hc
    rw [a.rows c hc] at hj
    rw [a.kind c hc]
    exact st.limits c hc j hj
  · rw [a.memc] at hc
    rw [a.rows c hc] at hj
    rw [a.kind c hc]
    rw [er c hc, a.rowAt _ hc, a.bias] at hr
    exact st.row c hc j hj r hr

end

end Scs
