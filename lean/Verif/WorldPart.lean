import Verif.WorldFollow

/-!
# Independent parts of a system
-/

namespace Scs

open Finset

/-- The system `v` is a part of the system `w`: its objects are objects of `w`, and the other
constraints and force generators of `w` do not act on its bodies. -/
structure World.PartOf (v w : World ℝ) : Prop where
  rb : ∀ b ∈ v.rb, b ∈ w.rb
  cs : ∀ c ∈ v.cs, c ∈ w.cs
  fg : ∀ g ∈ v.fg, g ∈ w.fg
  m : ∀ b ∈ v.rb, (v.bodies b).m = (w.bodies b).m
  I : ∀ b ∈ v.rb, (v.bodies b).I = (w.bodies b).I
  kind : ∀ c ∈ v.cs, (v.cons c).kind = (w.cons c).kind
  rows : ∀ c ∈ v.cs, (v.cons c).rows = (w.cons c).rows
  count : ∀ c ∈ v.cs, (v.cons c).bodyCount = (w.cons c).bodyCount
  at_ : ∀ c ∈ v.cs, ∀ k, k < (w.cons c).bodyCount → (v.cons c).bodies k = (w.cons c).bodies k
  gens : ∀ g ∈ v.fg, v.gens g = w.gens g
  bias : v.bias = w.bias
  apart : ∀ c ∈ w.cs, c ∉ v.cs → ∀ k, k < (w.cons c).bodyCount → w.bodyOf c k ∉ v.rb
  idle : ∀ g ∈ w.fg, g ∉ v.fg → ∀ (m : ℝ) (x : Motion), ∀ b ∈ v.rb, ∀ q : Coord,
    (w.gens g).load m x b q = 0

namespace World.PartOf
variable {w v : World ℝ} (a : v.PartOf w)
include a

theorem mass {b : Nat} (hb : b ∈ v.rb) (q : Coord) : (v.bodies b).mass q = (w.bodies b).mass q := by
  cases q
  · exact a.m b hb
  · exact a.m b hb
  · exact a.I b hb

theorem bodyOf {c : Nat} (hc : c ∈ v.cs) {k : Nat} (hk : k < (w.cons c).bodyCount) :
    v.bodyOf c k = w.bodyOf c k := by
  rw [World.bodyOf, World.bodyOf, a.at_ c hc k hk]

theorem rowsOf (x : Motion) {c : Nat} (hc : c ∈ v.cs) : v.rowsOf x c = w.rowsOf x c := by
  have hq : x.q v c = x.q w c := by
    funext t
    rw [Motion.q, Motion.q, a.count c hc]
    by_cases h : t / 3 < (w.cons c).bodyCount
    · rw [if_pos h, if_pos h, a.bodyOf hc h]
    · rw [if_neg h, if_neg h]
  have hu : x.u v c = x.u w c := by
    funext t
    rw [Motion.u, Motion.u, a.count c hc]
    by_cases h : t / 3 < (w.cons c).bodyCount
    · rw [if_pos h, if_pos h, a.bodyOf hc h]
    · rw [if_neg h, if_neg h]
  rw [World.rowsOf, World.rowsOf, hq, hu, a.kind c hc]

theorem rowAt (o : Output ℝ) {c : Nat} (hc : c ∈ v.cs) (j : Nat) (u : Nat → Coord → ℝ) :
    v.rowAt o c j u = w.rowAt o c j u := by
  rw [World.rowAt, World.rowAt, a.count c hc]
  refine sum_congr rfl fun k hk => ?_
  rw [a.bodyOf hc (mem_range.mp hk)]

theorem coef (x : Motion) {c : Nat} (hc : c ∈ v.cs) (j b : Nat) (q : Coord) :
    v.coef (v.rowsOf x) c j b q = w.coef (w.rowsOf x) c j b q := by
  rw [World.coef, World.coef, a.count c hc, a.rowsOf x hc]
  refine sum_congr rfl fun k hk => ?_
  rw [a.bodyOf hc (mem_range.mp hk)]

theorem coef_other (o : Nat → Output ℝ) {c : Nat} (hc : c ∈ w.cs) (hc' : c ∉ v.cs) (j : Nat) {b : Nat}
    (hb : b ∈ v.rb) (q : Coord) : w.coef o c j b q = 0 :=
  sum_eq_zero fun k hk => if_neg fun e : w.bodyOf c k = b =>
    a.apart c hc hc' k (mem_range.mp hk) (by rw [e]; exact hb)

theorem coef_far (p : v.Placed) (o : Nat → Output ℝ) {c : Nat} (hc : c ∈ v.cs) (j : Nat) {b : Nat}
    (hb : b ∉ v.rb) (q : Coord) : w.coef o c j b q = 0 := by
  refine sum_eq_zero fun k hk => if_neg fun e => hb ?_
  have hk := mem_range.mp hk
  rw [← e, ← a.bodyOf hc hk]
  exact (p.bodies c hc k (by rw [a.count c hc]; exact hk)).2

theorem sum_cons {g : Nat → ℝ} (h : ∀ c ∈ w.cs, c ∉ v.cs → g c = 0) :
    ∑ c ∈ w.cs.toFinset, g c = ∑ c ∈ v.cs.toFinset, g c := by
  refine (sum_subset (fun c hc => ?_) fun c hc hc' => ?_).symm
  · rw [List.mem_toFinset] at *
    exact a.cs c hc
  · rw [List.mem_toFinset] at *
    exact h c hc hc'

theorem sum_bodies {g : Nat → ℝ} (h : ∀ b ∈ w.rb, b ∉ v.rb → g b = 0) :
    ∑ b ∈ w.rb.toFinset, g b = ∑ b ∈ v.rb.toFinset, g b := by
  refine (sum_subset (fun c hc => ?_) fun c hc hc' => ?_).symm
  · rw [List.mem_toFinset] at *
    exact a.rb c hc
  · rw [List.mem_toFinset] at *
    exact h c hc hc'

/-- Forces along the rows act on the bodies of the part as in the whole. -/
theorem forces (x : Motion) (z : Nat → Nat → ℝ) {b : Nat} (hb : b ∈ v.rb) (q : Coord) :
    ∑ c ∈ w.cs.toFinset, ∑ j ∈ range (w.cons c).rows, z c j * w.coef (w.rowsOf x) c j b q =
      ∑ c ∈ v.cs.toFinset, ∑ j ∈ range (v.cons c).rows, z c j * v.coef (v.rowsOf x) c j b q := by
  rw [a.sum_cons fun c hc hc' => sum_eq_zero fun j _ => by
    rw [a.coef_other _ hc hc' j hb, mul_zero]]
  refine sum_congr rfl fun c hc => ?_
  rw [List.mem_toFinset] at hc
  rw [a.rows c hc]
  exact sum_congr rfl fun j _ => by rw [a.coef x hc]

theorem conForce (x : Motion) (μ : Nat → Nat → ℝ) {b : Nat} (hb : b ∈ v.rb) (q : Coord) :
    w.conForce (w.reaction x μ) b q = v.conForce (v.reaction x μ) b q := by
  rw [conForce_coef, conForce_coef, a.forces x μ hb]

theorem response (x : Motion) (z : Nat → Nat → ℝ) {b : Nat} (hb : b ∈ v.rb) (q : Coord) :
    w.response (w.rowsOf x) z b q = v.response (v.rowsOf x) z b q := by
  rw [World.response, World.response, a.forces x z hb, a.mass hb]

theorem load (x : Motion) {b : Nat} (hb : b ∈ v.rb) (q : Coord) : w.load x b q = v.load x b q := by
  rw [World.load, World.load, a.m b hb]
  refine Eq.trans (sum_subset (fun g hg => ?_) fun g hg hg' => ?_).symm (sum_congr rfl fun g hg => ?_)
  · rw [List.mem_toFinset] at *
    exact a.fg g hg
  · rw [List.mem_toFinset] at *
    exact a.idle g hg hg' _ x b hb q
  · rw [List.mem_toFinset] at hg
    rw [a.gens g hg]

theorem indep (p : v.Placed) {x : Motion} (hI : w.Indep (w.rowsOf x)) :
    v.Indep (v.rowsOf x) := by
  intro z hz c hc i hi
  have key := hI (fun c i => if c ∈ v.cs then z c i else 0) (fun c hc i hi => ?_) c (a.cs c hc) i
    (by rw [← a.rows c hc]; exact hi)
  · simpa only [if_pos hc] using key
  · have hr : ∀ b ∈ v.rb, ∀ q, w.response (w.rowsOf x) (fun c i => if c ∈ v.cs then z c i else 0) b q =
        v.response (v.rowsOf x) z b q := fun b hb q => by
      rw [a.response x _ hb, World.response, World.response]
      congr 1
      refine sum_congr rfl fun c hc => sum_congr rfl fun j _ => ?_
      rw [if_pos (List.mem_toFinset.mp hc)]
    by_cases h : c ∈ v.cs
    · rw [a.sum_bodies fun b _ hb => by simp only [a.coef_far p _ h i hb, zero_mul, Coord.sum, add_zero]]
      refine Eq.trans ?_ (hz c h i (by rw [a.rows c h]; exact hi))
      refine sum_congr rfl fun b hb => Coord.sum_congr fun q => ?_
      rw [hr b (List.mem_toFinset.mp hb), a.coef x h]
    · refine sum_eq_zero fun b hb => ?_
      by_cases hb' : b ∈ v.rb
      · simp only [a.coef_other _ hc h i hb', zero_mul, Coord.sum, add_zero]
      · have h0 : ∀ q, w.response (w.rowsOf x) (fun c i => if c ∈ v.cs then z c i else 0) b q = 0 :=
          fun q => by
            rw [World.response, sum_eq_zero fun c _ => sum_eq_zero fun j _ => ?_, zero_div]
            by_cases hv : c ∈ v.cs
            · rw [a.coef_far p _ hv j hb', mul_zero]
            · rw [if_neg hv, zero_mul]
        simp only [h0, mul_zero, Coord.sum, add_zero]

/-- A sub-step of the whole is a sub-step of the part. -/
theorem move (p : v.Placed) (hs : w.sle = some .ge) (hs' : v.sle = some .ge) {s : ℝ} {x x' : Motion}
    {μ : Nat → Nat → ℝ} (st : w.Move s x x' μ) : v.Move s x x' μ where
  ne := st.ne
  acc := fun b hb q => by
    rw [st.acc b (a.rb b hb) q, a.load x hb, a.conForce x μ hb, a.mass hb]
  vel := fun b hb => st.vel b (a.rb b hb)
  pos := fun b hb => st.pos b (a.rb b hb)
  indep := fun _ => a.indep p (st.indep hs)
  ge := fun _ c hc j hj => by
    rw [a.rows c hc] at hj
    rw [a.rowsOf x hc, a.rowAt _ hc, a.bias]
    exact st.ge hs c (a.cs c hc) j hj
  cg := fun m e1 e2 h => by rw [hs'] at h; cases h
  gs := fun m e h => by rw [hs'] at h; cases h

end World.PartOf

section
variable {w v u : World ℝ}

/-- Sub-steps of two parts that make up the whole are a sub-step of the whole. -/
theorem World.Move.join (a : v.PartOf w) (b : u.PartOf w) (pv : v.Placed) (pu : u.Placed)
    (hb : ∀ i ∈ w.rb, i ∈ v.rb ∨ i ∈ u.rb) (hc : ∀ c ∈ w.cs, c ∈ v.cs ∨ c ∈ u.cs)
    (hcd : ∀ c ∈ v.cs, c ∉ u.cs) (hs : w.sle = some .ge) (hsv : v.sle = some .ge)
    (hsu : u.sle = some .ge) {s : ℝ} {x x' : Motion} {μ ν : Nat → Nat → ℝ} (st : v.Move s x x' μ)
    (st' : u.Move s x x' ν) : w.Move s x x' (fun c => if c ∈ v.cs then μ c else ν c) := by
  have fv : ∀ i ∈ v.rb, ∀ q, v.conForce (v.reaction x (fun c => if c ∈ v.cs then μ c else ν c)) i q =
      v.conForce (v.reaction x μ) i q := fun i _ q => conForce_congr (fun c hc q j k _ _ => by
    simp only [World.reaction, if_pos hc]) i q
  have fu : ∀ i ∈ u.rb, ∀ q, u.conForce (u.reaction x (fun c => if c ∈ v.cs then μ c else ν c)) i q =
      u.conForce (u.reaction x ν) i q := fun i _ q => conForce_congr (fun c hc q j k _ _ => by
    simp only [World.reaction, if_neg (fun h => hcd c h hc)]) i q
  refine ⟨st.ne, fun i hi q => ?_, fun i hi q => ?_, fun i hi q => ?_, fun _ => ?_,
    fun _ c hc' j hj => ?_, fun m e1 e2 h => ?_, fun m e h => ?_⟩
  · rcases hb i hi with h | h
    · rw [st.acc i h q, a.load x h, a.conForce x _ h, a.mass h, fv i h]
    · rw [st'.acc i h q, b.load x h, b.conForce x _ h, b.mass h, fu i h]
  · rcases hb i hi with h | h
    · exact st.vel i h q
    · exact st'.vel i h q
  · rcases hb i hi with h | h
    · exact st.pos i h q
    · exact st'.pos i h q
  · intro z hz
    have half : ∀ {t : World ℝ}, t.PartOf w → t.Placed → t.Indep (t.rowsOf x) →
        ∀ c ∈ t.cs, ∀ i, i < (w.cons c).rows → z c i = 0 := fun {t} d pt hI c hc i hi => by
      refine hI z (fun c hc i hi => ?_) c hc i (by rw [d.rows c hc]; exact hi)
      rw [d.rows c hc] at hi
      rw [← hz c (d.cs c hc) i hi, d.sum_bodies fun b _ hb => by
        simp only [d.coef_far pt _ hc i hb, zero_mul, Coord.sum, add_zero]]
      refine sum_congr rfl fun b hb => Coord.sum_congr fun q => ?_
      rw [d.response x z (List.mem_toFinset.mp hb), d.coef x hc]
    intro c hc' i hi
    rcases hc c hc' with h | h
    · exact half a pv (st.indep hsv) c h i hi
    · exact half b pu (st'.indep hsu) c h i hi
  · rcases hc c hc' with h | h
    · rw [← a.rowsOf x h, ← a.rowAt _ h, ← a.bias]
      exact st.ge hsv c h j (by rw [a.rows c h]; exact hj)
    · rw [← b.rowsOf x h, ← b.rowAt _ h, ← b.bias]
      exact st'.ge hsu c h j (by rw [b.rows c h]; exact hj)
  · rw [hs] at h; cases h
  · rw [hs] at h; cases h

end

end Scs
