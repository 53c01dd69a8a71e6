import Verif.WorldMove
import Verif.WorldBuild

/-!
# A concrete system

A system of two bodies and one constraint between them (or on the first), reached by a history, and
conditions under which it is processed successfully. Used to show that the hypotheses of the
theorems about the optimized system can be met.
-/

namespace Scs

open Finset

/-! ### Independent rows -/

/-- With positive masses and linearly independent rows the constraint matrix is not singular. -/
theorem indep_of_rank {w : World ℝ} (hm : ∀ b ∈ w.rb, ∀ q : Coord, 0 < (w.bodies b).mass q)
    {o : Nat → Output ℝ}
    (hz : ∀ z : Nat → Nat → ℝ, (∀ b ∈ w.rb, ∀ q : Coord, ∑ c ∈ w.cs.toFinset,
        ∑ j ∈ range (w.cons c).rows, z c j * w.coef o c j b q = 0) →
      ∀ c ∈ w.cs, ∀ i, i < (w.cons c).rows → z c i = 0) : w.Indep o := by
  intro z hz0
  refine hz z fun b hb q => ?_
  have e : ∑ c ∈ w.cs.toFinset, ∑ i ∈ range (w.cons c).rows, z c i * ∑ b ∈ w.rb.toFinset,
      Coord.sum (fun q => w.coef o c i b q * w.response o z b q) = 0 :=
    sum_eq_zero fun c hc => sum_eq_zero fun i hi => by
      rw [hz0 c (List.mem_toFinset.mp hc) i (mem_range.mp hi), mul_zero]
  have e2 : ∑ b ∈ w.rb.toFinset, Coord.sum (fun q => (w.bodies b).mass q *
      w.response o z b q ^ 2) = 0 := by
    rw [← e]
    simp only [mul_sum]
    rw [sum_congr rfl fun c _ => sum_comm, sum_comm]
    refine sum_congr rfl fun b hb => ?_
    have hb := List.mem_toFinset.mp hb
    have key : ∀ q : Coord, (w.bodies b).mass q * w.response o z b q ^ 2 =
        ∑ c ∈ w.cs.toFinset, ∑ i ∈ range (w.cons c).rows,
          z c i * (w.coef o c i b q * w.response o z b q) := by
      intro q
      have h1 : (w.bodies b).mass q * w.response o z b q = ∑ c ∈ w.cs.toFinset,
          ∑ j ∈ range (w.cons c).rows, z c j * w.coef o c j b q := by
        rw [World.response, mul_div_cancel₀ _ (hm b hb q).ne']
      rw [pow_two, ← mul_assoc, h1, sum_mul]
      refine sum_congr rfl fun c _ => ?_
      rw [sum_mul]
      exact sum_congr rfl fun j _ => by ring
    simp only [Coord.sum, key, ← sum_add_distrib]
    refine sum_congr rfl fun c _ => sum_congr rfl fun i _ => ?_
    ring
  have nn : ∀ b ∈ w.rb.toFinset, 0 ≤ Coord.sum (fun q => (w.bodies b).mass q *
      w.response o z b q ^ 2) := by
    intro b hb
    have hb := List.mem_toFinset.mp hb
    have h1 := hm b hb .x; have h2 := hm b hb .y; have h3 := hm b hb .th
    simp only [Coord.sum]
    positivity
  have h0 := (sum_eq_zero_iff_of_nonneg nn).mp e2 b (List.mem_toFinset.mpr hb)
  have h1 := hm b hb .x; have h2 := hm b hb .y; have h3 := hm b hb .th
  simp only [Coord.sum] at h0
  have p1 : 0 ≤ (w.bodies b).mass .x * w.response o z b .x ^ 2 := by positivity
  have p2 : 0 ≤ (w.bodies b).mass .y * w.response o z b .y ^ 2 := by positivity
  have p3 : 0 ≤ (w.bodies b).mass .th * w.response o z b .th ^ 2 := by positivity
  have hq : w.response o z b q = 0 := by
    cases q
    · have : (w.bodies b).mass .x * w.response o z b .x ^ 2 = 0 := by linarith
      exact pow_eq_zero_iff (two_ne_zero) |>.mp ((mul_eq_zero.mp this).resolve_left h1.ne')
    · have : (w.bodies b).mass .y * w.response o z b .y ^ 2 = 0 := by linarith
      exact pow_eq_zero_iff (two_ne_zero) |>.mp ((mul_eq_zero.mp this).resolve_left h2.ne')
    · have : (w.bodies b).mass .th * w.response o z b .th ^ 2 = 0 := by linarith
      exact pow_eq_zero_iff (two_ne_zero) |>.mp ((mul_eq_zero.mp this).resolve_left h3.ne')
  rw [World.response, div_eq_zero_iff] at hq
  exact hq.resolve_right (hm b hb q).ne'

/-! ### The system -/

/-- Two bodies of mass 1 and moment of inertia 1; the first turns. -/
def demoBody (b : Nat) : Body ℝ :=
  ⟨b, 2 * b, 3, 4, 0, if b = 0 then 5 else 0, 1, 1, -1⟩

/-- A constraint between the bodies 0 and 1, or on body 0. -/
def demoCon (K : CKind ℝ) (_ : Nat) : Con ℝ where
  kind := K
  index := -1
  bodyCount := (K.counts.getD (0, 0)).2
  bodies := fun k => .obj k
  F_x := fun _ _ => 0
  F_y := fun _ _ => 0
  F_t := fun _ _ => 0
  rows := (K.counts.getD (0, 0)).1

/-- The history `h` leads to the system `w` with the bodies 0 and 1, the constraints `cs` (none or
constraint 0, which is `K`), the force generators `fg` (none or generator 0, which is `g`) and the
solver `sv`; it has not been processed yet. -/
structure DemoSys (K : CKind ℝ) (g : Gen ℝ) (cs fg : List Nat) (sv : Solver ℝ) (h : List (Op ℝ))
    (w : World ℝ) : Prop where
  regB : regBodies h = {0, 1}
  regC : regCons h = cs.toFinset
  regG : regGens h = fg.toFinset
  body : ∀ b, { w.bodies b with index := -1 } = demoBody b
  con : ∀ c, { w.cons c with index := -1 } = demoCon K c
  gens : ∀ i, w.gens i = g
  rb : ∀ b, b ∈ w.rb ↔ b = 0 ∨ b = 1
  cs_eq : w.cs = cs
  fg_eq : w.fg = fg
  sle : w.sle = some sv
  bias : w.bias = 1
  new : processedDts h = []
  regs : ∃ cls, w.Regs cls h

/-- The optimized system. -/
structure Demo (K : CKind ℝ) (g : Gen ℝ) (cs fg : List Nat) (sv : Solver ℝ) (h : List (Op ℝ))
    (w : World ℝ) : Prop extends DemoSys K g cs fg sv h w where
  hist : World.Hist Gen.Shipped .opt h w

/-- The generic system, with the ODE solver `o`. -/
structure DemoG (K : CKind ℝ) (g : Gen ℝ) (cs fg : List Nat) (sv : Solver ℝ) (o : Ode ℝ)
    (h : List (Op ℝ)) (w : World ℝ) : Prop extends DemoSys K g cs fg sv h w where
  hist : World.Hist Gen.Shipped .gen h w
  ode : w.ode = some o

/-- The system exists, with the bodies registered in either order and any contents of uninitialised
memory. -/
theorem demo_any (K : CKind ℝ) {g : Gen ℝ} (hg : g.Shipped) {cs fg : List Nat} (hcs : cs.Nodup)
    (hfg : fg.Nodup) (sv : Solver ℝ) {rb : List Nat} (hrb : rb = [0, 1] ∨ rb = [1, 0])
    (j : Nat → Nat → ℝ) (k : Nat → Nat → Nat) :
    ∃ h w, Demo K g cs fg sv h w ∧ w.rb = rb ∧ w.mem = Store.fresh j k := by
  obtain ⟨h, w, h1, h2, h3, h4, h5, h6, h7, h8⟩ := build (G := Gen.Shipped) demoBody (demoCon K)
    (gens := fun _ => g) (fun _ => hg) (rb := rb) (cs := cs) (fg := fg)
    (by rcases hrb with rfl | rfl <;> decide) hcs hfg (some sv) j k
  refine ⟨h, w, ⟨⟨?_, h4, h5, h2.bodies, h2.cons, fun i => by rw [h2.gens], fun b => ?_,
    h2.cs, h2.fg, h7, ?_, h8, _, h1.regs⟩, h1⟩, h2.rb, h6⟩
  · rw [h3]
    rcases hrb with rfl | rfl <;> decide
  · rw [h2.rb]
    rcases hrb with rfl | rfl <;> simp [or_comm]
  · rw [h2.bias, fp_lit]
    norm_num

theorem demoG (K : CKind ℝ) {g : Gen ℝ} (hg : g.Shipped) {cs fg : List Nat} (hcs : cs.Nodup)
    (hfg : fg.Nodup) (sv : Solver ℝ) {o : Ode ℝ} (ho : o.Idle) :
    ∃ h w, DemoG K g cs fg sv o h w ∧ w.rb = [0, 1] := by
  obtain ⟨h, w, h1, h2, h3, h4, h5, h6, h7, h8, h9⟩ := buildG (G := Gen.Shipped) demoBody (demoCon K)
    (gens := fun _ => g) (fun _ => hg) (rb := [0, 1]) (cs := cs) (fg := fg)
    (by decide) hcs hfg (some sv) (some o) (fun o' e => by cases e; exact ho) (fun _ _ => 0)
    (fun _ _ => 0)
  refine ⟨h, w, ⟨⟨?_, h4, h5, h2.bodies, h2.cons, fun i => by rw [h2.gens], fun b => ?_,
    h2.cs, h2.fg, h7, ?_, h9, _, h1.regs⟩, h1, h8⟩, h2.rb⟩
  · rw [h3]
    decide
  · rw [h2.rb]
    simp
  · rw [h2.bias, fp_lit]
    norm_num

theorem demo (K : CKind ℝ) {g : Gen ℝ} (hg : g.Shipped) {cs fg : List Nat} (hcs : cs.Nodup)
    (hfg : fg.Nodup) (sv : Solver ℝ) : ∃ h w, Demo K g cs fg sv h w := by
  obtain ⟨h, w, d, _⟩ := demo_any K hg hcs hfg sv (.inl rfl) (fun _ _ => 0) (fun _ _ => 0)
  exact ⟨h, w, d⟩

theorem shipped_only {g : Gen ℝ} (h : g.Shipped) : g.OnlyForces := Gen.tame h

namespace DemoSys
variable {K : CKind ℝ} {g : Gen ℝ} {cs fg : List Nat} {sv : Solver ℝ} {h : List (Op ℝ)} {w : World ℝ}
variable (d : DemoSys K g cs fg sv h w)
include d

theorem mass (b : Nat) (q : Coord) : (w.bodies b).mass q = 1 := by
  have := congrArg (fun x : Body ℝ => x.mass q) (d.body b)
  cases q <;> exact this

theorem m (b : Nat) : (w.bodies b).m = 1 := d.mass b .x
theorem I (b : Nat) : (w.bodies b).I = 1 := d.mass b .th

theorem vel (b : Nat) (q : Coord) : (w.bodies b).vel q = (demoBody b).vel q := by
  have := congrArg (fun x : Body ℝ => x.vel q) (d.body b)
  cases q <;> exact this

theorem pos (b : Nat) (q : Coord) : (w.bodies b).pos q = (demoBody b).pos q := by
  have := congrArg (fun x : Body ℝ => x.pos q) (d.body b)
  cases q <;> exact this

theorem kind (c : Nat) : (w.cons c).kind = K := congrArg Con.kind (d.con c)
theorem bodies (c : Nat) (k : Nat) : (w.cons c).bodies k = .obj k :=
  congrFun (congrArg Con.bodies (d.con c)) k
theorem bodyOf (c k : Nat) : w.bodyOf c k = k := by rw [World.bodyOf, d.bodies c k]
theorem rows (c : Nat) : (w.cons c).rows = (K.counts.getD (0, 0)).1 := congrArg Con.rows (d.con c)
theorem count (c : Nat) : (w.cons c).bodyCount = (K.counts.getD (0, 0)).2 :=
  congrArg Con.bodyCount (d.con c)

theorem standard (hK : K.counts ≠ none ∨ cs = []) (hg : g.Within (· ∈ ({0, 1} : Finset Nat))) :
    w.Standard h where
  kind := fun c hc => by
    rcases hK with hK | hK
    · rw [d.kind, d.rows, d.count]
      cases hk : K.counts with
      | none => exact absurd hk hK
      | some p => rfl
    · rw [d.regC, hK] at hc
      simp at hc
  bodies := fun c hc k hk => by
    rcases hK with hK | hK
    · rw [d.count] at hk
      cases hKc : K.counts with
      | none => exact absurd hKc hK
      | some p =>
        rw [hKc] at hk
        have := counts_le (r := p.1) (n := p.2) hKc
        have hk : k < p.2 := hk
        refine ⟨k, ?_, d.bodies c k⟩
        rw [d.regB]
        have : k = 0 ∨ k = 1 := by omega
        rcases this with rfl | rfl <;> simp
    · rw [d.regC, hK] at hc
      simp at hc
  gens := fun i _ => by
    rw [d.gens i, d.regB]
    exact hg
  near := by
    obtain ⟨cls, r⟩ := d.regs
    intro c hc k hk b e
    rw [d.bodies] at e
    cases e
    have hk2 : k < 2 := by
      rw [d.count] at hk
      cases hKc : K.counts with
      | none => rw [hKc] at hk; exact absurd hk (by simp)
      | some p =>
        have := counts_le (r := p.1) (n := p.2) hKc
        rw [hKc] at hk
        exact hk.trans_le (this.2.2.2)
    have hb : k ∈ regBodies h := by
      rw [d.regB]
      have : k = 0 ∨ k = 1 := by omega
      rcases this with rfl | rfl <;> simp
    obtain ⟨i, hi, _, e2⟩ := r.bodies.at hb
    rw [show (w.bodies k).index = (i : Int) from Option.some.inj e2]
    have h1 := r.bodies.length
    have h2 : (regBodies h).card = 2 := by rw [d.regB]; rfl
    omega

theorem masses : ∀ b ∈ regBodies h, (w.bodies b).m ≠ 0 ∧ (w.bodies b).I ≠ 0 := fun b _ => by
  rw [d.m b, d.I b]
  exact ⟨one_ne_zero, one_ne_zero⟩

end DemoSys

/-- A constraint of one row that acts on a coordinate of its first body. -/
def CKind.Turns (K : CKind ℝ) : Prop :=
  (∃ n, K.counts = some (1, n)) ∧ ∃ k : Coord, ∀ q, K.jT q 0 k.d ≠ 0

/-- A constraint of two rows that acts on the position of its first body. -/
def CKind.Pins (K : CKind ℝ) : Prop :=
  (∃ n, K.counts = some (2, n)) ∧
    ∀ q, K.jT q 0 0 = 1 ∧ K.jT q 0 1 = 0 ∧ K.jT q 1 0 = 0 ∧ K.jT q 1 1 = 1

/-- The number of iterations and the tolerance allow the solver to solve a system of two independent
rows. -/
def Solver.Fine : Solver ℝ → Prop
  | .ge => True
  | .gs m e => 2 ≤ m ∧ 0 < e
  | .cg m _ _ => 2 ≤ m

namespace DemoSys
variable {K : CKind ℝ} {g : Gen ℝ} {fg : List Nat} {sv : Solver ℝ} {h : List (Op ℝ)} {w : World ℝ}

theorem rank_turns (d : DemoSys K g [0] fg sv h w) (hK : K.Turns) (x : Motion) (z : Nat → Nat → ℝ)
    (hz : ∀ b ∈ w.rb, ∀ q : Coord, ∑ c ∈ w.cs.toFinset,
        ∑ j ∈ range (w.cons c).rows, z c j * w.coef (w.rowsOf x) c j b q = 0) :
    ∀ c ∈ w.cs, ∀ i, i < (w.cons c).rows → z c i = 0 := by
  obtain ⟨⟨n, hn⟩, k, hJ⟩ := hK
  have hr : (w.cons 0).rows = 1 := by rw [d.rows, hn]; rfl
  have hbc : (w.cons 0).bodyCount = n := by rw [d.count, hn]; rfl
  have hle := counts_le hn
  have := hz 0 (by exact (d.rb 0).mpr (.inl rfl)) k
  rw [d.cs_eq] at this
  simp only [List.toFinset_cons, List.toFinset_nil, insert_empty_eq, sum_singleton, hr,
    range_one] at this
  have hc : w.coef (w.rowsOf x) 0 0 0 k = K.jT (x.q w 0) 0 k.d := by
    simp only [World.coef, d.bodyOf, hbc]
    rw [sum_ite_eq' , if_pos (mem_range.mpr (by omega))]
    simp only [World.rowsOf, d.kind, Nat.zero_mul, Nat.zero_add]
  rw [hc] at this
  intro c hcm i hi
  rw [d.cs_eq, List.mem_singleton] at hcm
  subst hcm
  have hi0 : i = 0 := by omega
  subst hi0
  exact (mul_eq_zero.mp this).resolve_right (hJ _)

theorem rank_pins (d : DemoSys K g [0] fg sv h w) (hK : K.Pins) (x : Motion) (z : Nat → Nat → ℝ)
    (hz : ∀ b ∈ w.rb, ∀ q : Coord, ∑ c ∈ w.cs.toFinset,
        ∑ j ∈ range (w.cons c).rows, z c j * w.coef (w.rowsOf x) c j b q = 0) :
    ∀ c ∈ w.cs, ∀ i, i < (w.cons c).rows → z c i = 0 := by
  obtain ⟨⟨n, hn⟩, hJ⟩ := hK
  have hr : (w.cons 0).rows = 2 := by rw [d.rows, hn]; rfl
  have hbc : (w.cons 0).bodyCount = n := by rw [d.count, hn]; rfl
  have hle := counts_le hn
  have hc : ∀ j q, w.coef (w.rowsOf x) 0 j 0 q = K.jT (x.q w 0) j q.d := by
    intro j q
    simp only [World.coef, d.bodyOf, hbc]
    rw [sum_ite_eq', if_pos (mem_range.mpr (by omega))]
    simp only [World.rowsOf, d.kind, Nat.zero_mul, Nat.zero_add]
  have h0 := hz 0 (by exact (d.rb 0).mpr (.inl rfl)) .x
  have h1 := hz 0 (by exact (d.rb 0).mpr (.inl rfl)) .y
  obtain ⟨j1, j2, j3, j4⟩ := hJ (x.q w 0)
  rw [d.cs_eq] at h0 h1
  simp only [List.toFinset_cons, List.toFinset_nil, insert_empty_eq, sum_singleton, hr,
    sum_range_succ, range_zero, sum_empty, zero_add, hc, Coord.d, j1, j2, j3, j4, mul_one, mul_zero,
    add_zero] at h0 h1
  intro c hcm i hi
  rw [d.cs_eq, List.mem_singleton] at hcm
  subst hcm
  have : i = 0 ∨ i = 1 := by omega
  rcases this with rfl | rfl
  · exact h0
  · exact h1

/-- Motions of the system in which the constraint can be solved. -/
theorem solvable (d : DemoSys K g [0] fg sv h w) {x : Motion}
    (hz : ∀ z : Nat → Nat → ℝ, (∀ b ∈ w.rb, ∀ q : Coord, ∑ c ∈ w.cs.toFinset,
        ∑ j ∈ range (w.cons c).rows, z c j * w.coef (w.rowsOf x) c j b q = 0) →
      ∀ c ∈ w.cs, ∀ i, i < (w.cons c).rows → z c i = 0) (hsv : sv.Fine) (hr : w.fullCount ≤ 2)
    (hd : (∀ m e, sv ≠ .gs m e) ∨ w.Decoupled (w.rowsOf x)) : w.Solvable x := by
  have hm : ∀ b ∈ w.rb, ∀ q : Coord, 0 < (w.bodies b).mass q := fun b _ q => by
    rw [d.mass b q]; exact one_pos
  simp only [World.Solvable, d.sle]
  cases sv with
  | ge => exact indep_of_rank hm hz
  | cg m e1 e2 => exact ⟨hm, hr.trans hsv, hz⟩
  | gs m e =>
    exact ⟨hsv.2, hsv.1, indep_of_rank hm hz, hd.resolve_left fun h => h m e rfl⟩

theorem full (d : DemoSys K g [0] fg sv h w) : w.fullCount = (K.counts.getD (0, 0)).1 := by
  rw [World.fullCount, d.cs_eq]
  simp [d.rows]

/-- The two rows of a link at the centres of the bodies are decoupled. -/
theorem decoupled_link {l : Link ℝ} (d : DemoSys (.link l) g [0] fg sv h w)
    (hl : l.local_x_1 = 0 ∧ l.local_y_1 = 0 ∧ l.local_x_2 = 0 ∧ l.local_y_2 = 0) (x : Motion) :
    w.Decoupled (w.rowsOf x) := by
  have hrow : (w.cons 0).rows = 2 := d.rows 0
  have hbc : (w.cons 0).bodyCount = 2 := d.count 0
  obtain ⟨l1, l2, l3, l4⟩ := hl
  intro c hc i hi c' hc' i' hi' hne
  rw [d.cs_eq, List.mem_singleton] at hc hc'
  subst hc; subst hc'
  have hc : ∀ j b q, w.coef (w.rowsOf x) 0 j b q = ∑ k ∈ range 2, if k = b then
      CKind.jT (.link l) (x.q w 0) j (k * 3 + q.d) else 0 := by
    intro j b q
    simp only [World.coef, d.bodyOf, hbc, World.rowsOf, d.kind]
  have hi2 : i < 2 := by omega
  have hi2' : i' < 2 := by omega
  have : i = 0 ∧ i' = 1 ∨ i = 1 ∧ i' = 0 := by omega
  have c0 : ∀ b q, q ≠ .x → w.coef (w.rowsOf x) 0 0 b q = 0 := by
    intro b q hq
    rw [hc]
    refine sum_eq_zero fun k hk => ?_
    have : k = 0 ∨ k = 1 := by have := mem_range.mp hk; omega
    rcases this with rfl | rfl <;> cases q <;> first | exact absurd rfl hq | skip
    all_goals simp only [Coord.d, CKind.jT, ry, l1, l2, l3, l4]
    all_goals simp
  have c1 : ∀ b q, q ≠ .y → w.coef (w.rowsOf x) 0 1 b q = 0 := by
    intro b q hq
    rw [hc]
    refine sum_eq_zero fun k hk => ?_
    have : k = 0 ∨ k = 1 := by have := mem_range.mp hk; omega
    rcases this with rfl | rfl <;> cases q <;> first | exact absurd rfl hq | skip
    all_goals simp only [Coord.d, CKind.jT, rx, l1, l2, l3, l4]
    all_goals simp
  refine sum_eq_zero fun b _ => ?_
  have ne1 : Coord.x ≠ Coord.y := by decide
  have ne2 : Coord.y ≠ Coord.x := by decide
  have ne3 : Coord.th ≠ Coord.y := by decide
  rcases this with ⟨rfl, rfl⟩ | ⟨rfl, rfl⟩ <;>
    simp only [Coord.sum, c1 _ _ ne1, c0 _ _ ne2, c1 _ _ ne3, mul_zero, zero_mul, add_zero]

end DemoSys

namespace Demo
variable {K : CKind ℝ} {g : Gen ℝ} {fg : List Nat} {sv : Solver ℝ} {h : List (Op ℝ)} {w : World ℝ}

/-- The system with a constraint of one row is processed successfully by all solvers. -/
theorem runs (d : Demo K g [0] fg sv h w) (hg : g.Within (· ∈ ({0, 1} : Finset Nat))) (hK : K.Turns)
    (hsv : sv.Fine) {dt : ℝ} (hdt : dt ≠ 0) (steps : Int) (env : Env ℝ) :
    ∃ w', w.process .opt env dt steps = .ok w' := by
  obtain ⟨n, hn⟩ := hK.1
  have hst := d.standard (Or.inl (by rw [hn]; simp)) hg
  have hr : w.fullCount = 1 := by rw [d.full, hn]; rfl
  have hrow : (w.cons 0).rows = 1 := by rw [d.rows, hn]; rfl
  refine World.Hist.goes (fun g => shipped_only) d.hist hst (fun b _ q => ?_) hdt
    (by rw [d.sle]; simp) (fun _ _ => True) (fun _ _ _ => trivial) (fun _ _ _ _ _ _ _ => trivial)
    (fun _ _ x _ _ => ?_) (fun h0 => ?_) env
  · rw [d.mass b q]; exact one_ne_zero
  · refine d.solvable (d.rank_turns hK x) hsv (by omega) (Or.inr ?_)
    intro c hc i hi c' hc' i' hi' hne
    rw [d.cs_eq, List.mem_singleton] at hc hc'
    subst hc; subst hc'
    omega
  · rw [d.cs_eq] at h0
    cases h0

/-- The system with a constraint of two rows is processed successfully, by Gauss-Seidel if the rows
are decoupled. -/
theorem runs_pins (d : Demo K g [0] fg sv h w) (hg : g.Within (· ∈ ({0, 1} : Finset Nat)))
    (hK : K.Pins) (hsv : sv.Fine) (hl : (∀ m e, sv ≠ .gs m e) ∨ ∀ x, w.Decoupled (w.rowsOf x))
    {dt : ℝ} (hdt : dt ≠ 0) (steps : Int) (env : Env ℝ) :
    ∃ w', w.process .opt env dt steps = .ok w' := by
  obtain ⟨n, hn⟩ := hK.1
  have hst := d.standard (Or.inl (by rw [hn]; simp)) hg
  have hr : w.fullCount = 2 := by rw [d.full, hn]; rfl
  refine World.Hist.goes (fun g => shipped_only) d.hist hst (fun b _ q => ?_) hdt
    (by rw [d.sle]; simp) (fun _ _ => True) (fun _ _ _ => trivial) (fun _ _ _ _ _ _ _ => trivial)
    (fun _ _ x _ _ => ?_) (fun h0 => ?_) env
  · rw [d.mass b q]; exact one_ne_zero
  · exact d.solvable (d.rank_pins hK x) hsv (by omega) (hl.imp id fun hl => hl x)
  · rw [d.cs_eq] at h0
    cases h0

end Demo

theorem turns_clutch (l : Clutch ℝ) : (CKind.clutch l).Turns :=
  ⟨⟨2, rfl⟩, .th, fun q => by simp [CKind.jT, Coord.d]⟩
theorem turns_gear (l : SimpleGear ℝ) : (CKind.simpleGear l).Turns :=
  ⟨⟨2, rfl⟩, .th, fun q => by simp [CKind.jT, Coord.d]⟩
theorem turns_constant (l : ConstantRotation ℝ) : (CKind.constantRotation l).Turns :=
  ⟨⟨1, rfl⟩, .th, fun q => by simp [CKind.jT, Coord.d]⟩
theorem turns_friction (l : RotationFriction ℝ) : (CKind.rotationFriction l).Turns :=
  ⟨⟨1, rfl⟩, .th, fun q => by simp [CKind.jT, Coord.d]⟩
theorem turns_fixed (l : FixedRotation ℝ) : (CKind.fixedRotation l).Turns :=
  ⟨⟨1, rfl⟩, .th, fun q => by simp [CKind.jT, Coord.d]⟩
theorem turns_line (l : Line ℝ) (h : l.dy ≠ 0) : (CKind.line l).Turns :=
  ⟨⟨1, rfl⟩, .x, fun q => by simp [CKind.jT, Coord.d, h]⟩
theorem pins_link (l : Link ℝ) : (CKind.link l).Pins :=
  ⟨⟨2, rfl⟩, fun q => by simp [CKind.jT]⟩
theorem pins_fixed (l : FixedPosition ℝ) : (CKind.fixedPosition l).Pins :=
  ⟨⟨1, rfl⟩, fun q => by simp [CKind.jT]⟩

/-- A system with a constraint of one row is reached and processed. -/
theorem demo_turns {K : CKind ℝ} (hK : K.Turns) {g : Gen ℝ} (hg : g.Shipped)
    (hgw : g.Within (· ∈ ({0, 1} : Finset Nat))) {sv : Solver ℝ} (hsv : sv.Fine) {dt : ℝ}
    (hdt : dt ≠ 0) (steps : Int) (env : Env ℝ) : ∃ h w w', Demo K g [0] [0] sv h w ∧
      w.Standard h ∧ w.process .opt env dt steps = .ok w' := by
  obtain ⟨h, w, d⟩ := demo K hg (cs := [0]) (fg := [0]) (by decide) (by decide) sv
  obtain ⟨w', e⟩ := d.runs hgw hK hsv hdt steps env
  obtain ⟨n, hn⟩ := hK.1
  exact ⟨h, w, w', d, d.standard (.inl (by rw [hn]; simp)) hgw, e⟩

/-- A system with a constraint of two rows is reached and processed. -/
theorem demo_pins {K : CKind ℝ} (hK : K.Pins) {g : Gen ℝ} (hg : g.Shipped)
    (hgw : g.Within (· ∈ ({0, 1} : Finset Nat))) {sv : Solver ℝ} (hsv : sv.Fine)
    (hl : ∀ m e, sv ≠ .gs m e) {dt : ℝ}
    (hdt : dt ≠ 0) (steps : Int) (env : Env ℝ) : ∃ h w w', Demo K g [0] [0] sv h w ∧
      w.Standard h ∧ w.process .opt env dt steps = .ok w' := by
  obtain ⟨h, w, d⟩ := demo K hg (cs := [0]) (fg := [0]) (by decide) (by decide) sv
  obtain ⟨w', e⟩ := d.runs_pins hgw hK hsv (.inl hl) hdt steps env
  obtain ⟨n, hn⟩ := hK.1
  exact ⟨h, w, w', d, d.standard (.inl (by rw [hn]; simp)) hgw, e⟩

/-- A system with a link at the centres of the bodies is reached and processed. -/
theorem demo_link {l : Link ℝ}
    (hl : l.local_x_1 = 0 ∧ l.local_y_1 = 0 ∧ l.local_x_2 = 0 ∧ l.local_y_2 = 0) {g : Gen ℝ}
    (hg : g.Shipped) (hgw : g.Within (· ∈ ({0, 1} : Finset Nat))) {sv : Solver ℝ} (hsv : sv.Fine)
    {dt : ℝ} (hdt : dt ≠ 0) (steps : Int) (env : Env ℝ) :
    ∃ h w w', Demo (.link l) g [0] [0] sv h w ∧
      w.Standard h ∧ w.process .opt env dt steps = .ok w' := by
  obtain ⟨h, w, d⟩ := demo (.link l) hg (cs := [0]) (fg := [0]) (by decide) (by decide) sv
  obtain ⟨w', e⟩ := d.runs_pins hgw (pins_link l) hsv (.inr (d.decoupled_link hl)) hdt steps env
  exact ⟨h, w, w', d, d.standard (.inl (by simp [CKind.counts])) hgw, e⟩

namespace DemoSys
variable {K : CKind ℝ} {g : Gen ℝ} {cs fg : List Nat} {sv : Solver ℝ} {h : List (Op ℝ)} {w : World ℝ}
variable (d : DemoSys K g cs fg sv h w)
include d

theorem mem0 (hcs : cs = [0]) : 0 ∈ regCons h := by rw [d.regC, hcs]; simp
theorem bodies_mem : 0 ∈ regBodies h ∧ 1 ∈ regBodies h := by rw [d.regB]; simp

end DemoSys

end Scs
