import Verif.WorldPart

/-!
# Independent parts of a system do not influence each other

C75: see `PropsStep.lean` for the notions used.
-/

namespace Scs

open Finset

section
variable {G : Gen ℝ → Prop} {h h2 h3 : List (Op ℝ)} {w w' v v' u u' : World ℝ}
  {env env2 env3 : Env ℝ} {dt : ℝ} {steps : Int}

/-- The history `h2` ends with a part of the objects with which the history `h` ends, and the
constraints and force generators of `h` that are not among them are not attached to its bodies
(a gravity force generator acts on all bodies). -/
structure PartObjects (h2 : List (Op ℝ)) (v : World ℝ) (h : List (Op ℝ)) (w : World ℝ) : Prop where
  rb : regBodies h2 ⊆ regBodies h
  cs : regCons h2 ⊆ regCons h
  fg : regGens h2 ⊆ regGens h
  pos : ∀ b ∈ regBodies h2, (v.bodies b).pos = (w.bodies b).pos
  vel : ∀ b ∈ regBodies h2, (v.bodies b).vel = (w.bodies b).vel
  m : ∀ b ∈ regBodies h2, (v.bodies b).m = (w.bodies b).m
  I : ∀ b ∈ regBodies h2, (v.bodies b).I = (w.bodies b).I
  kind : ∀ c ∈ regCons h2, (v.cons c).kind = (w.cons c).kind
  rows : ∀ c ∈ regCons h2, (v.cons c).rows = (w.cons c).rows
  count : ∀ c ∈ regCons h2, (v.cons c).bodyCount = (w.cons c).bodyCount
  at_ : ∀ c ∈ regCons h2, ∀ k, k < (w.cons c).bodyCount → (v.cons c).bodies k = (w.cons c).bodies k
  gens : ∀ g ∈ regGens h2, v.gens g = w.gens g
  bias : v.bias = w.bias
  apart : ∀ c ∈ regCons h, c ∉ regCons h2 → ∀ k, k < (w.cons c).bodyCount →
    ∀ b ∈ regBodies h2, (w.cons c).bodies k ≠ .obj b
  idle : ∀ g ∈ regGens h, g ∉ regGens h2 →
    (∀ a, w.gens g ≠ .gravity a) ∧ (w.gens g).Within (· ∉ regBodies h2)

theorem load_apart {g : Gen ℝ} {S : Finset Nat} (h1 : ∀ a, g ≠ .gravity a) (h2 : g.Within (· ∉ S))
    (m : ℝ) (x : Motion) {b : Nat} (hb : b ∈ S) (q : Coord) : g.load m x b q = 0 := by
  have ne : ∀ {b' : Nat}, b' ∉ S → b ≠ b' := fun h e => h (e ▸ hb)
  cases g with
  | gravity a => exact absurd rfl (h1 a)
  | static p =>
    obtain ⟨b', hb', e⟩ := h2
    refine if_neg fun e' => hb' ?_
    rw [e] at e'
    cases e'
    exact hb
  | spring p =>
    rcases h2 with h2 | ⟨⟨b1, hb1, e1⟩, h2 | ⟨b2, hb2, e2⟩⟩
    · simp only [Gen.load, h2]
    · simp only [Gen.load, h2, e1]
    · simp only [Gen.load, e1, e2, if_neg (ne hb1), if_neg (ne hb2), add_zero]
  | motor p =>
    obtain ⟨⟨b1, hb1, e1⟩, b2, hb2, e2⟩ := h2
    simp only [Gen.load, e1, e2, if_neg (ne hb1), if_neg (ne hb2), add_zero]
  | custom f => rfl

theorem PartObjects.part (s : PartObjects h2 v h w) (hst : w.Standard h) (hw : World.Hist G .opt h w)
    (hv : World.Hist G .opt h2 v) : v.PartOf w where
  rb := fun b hb => (hw.regs.bodies.mem b).mpr (s.rb ((hv.regs.bodies.mem b).mp hb))
  cs := fun c hc => (hw.regs.cons.mem c).mpr (s.cs ((hv.regs.cons.mem c).mp hc))
  fg := fun g hg => (hw.regs.gens.mem g).mpr (s.fg ((hv.regs.gens.mem g).mp hg))
  m := fun b hb => s.m b ((hv.regs.bodies.mem b).mp hb)
  I := fun b hb => s.I b ((hv.regs.bodies.mem b).mp hb)
  kind := fun c hc => s.kind c ((hv.regs.cons.mem c).mp hc)
  rows := fun c hc => s.rows c ((hv.regs.cons.mem c).mp hc)
  count := fun c hc => s.count c ((hv.regs.cons.mem c).mp hc)
  at_ := fun c hc => s.at_ c ((hv.regs.cons.mem c).mp hc)
  gens := fun g hg => s.gens g ((hv.regs.gens.mem g).mp hg)
  bias := s.bias
  apart := fun c hc hc' k hk hb => by
    have hc1 := (hw.regs.cons.mem c).mp hc
    obtain ⟨b, -, e⟩ := hst.bodies c hc1 k hk
    rw [World.bodyOf, e] at hb
    exact s.apart c hc1 (fun h => hc' ((hv.regs.cons.mem c).mpr h)) k hk b
      ((hv.regs.bodies.mem b).mp hb) e
  idle := fun g hg hg' m x b hb q => by
    obtain ⟨i1, i2⟩ := s.idle g ((hw.regs.gens.mem g).mp hg)
      (fun h => hg' ((hv.regs.gens.mem g).mpr h))
    exact load_apart i1 i2 m x ((hv.regs.bodies.mem b).mp hb) q

/-- The motion of the whole is a motion of the part. -/
theorem PartObjects.path (s : PartObjects h2 v h w) (hG : ∀ g, G g → g.OnlyForces)
    (hst : w.Standard h) (hstv : v.Standard h2)
    (hw : World.Hist G .opt h w) (hv : World.Hist G .opt h2 v) (hs : w.sle = some .ge)
    (hs' : v.sle = some .ge) {X : Nat → Motion} {μ : Nat → Nat → Nat → ℝ} (h0 : X 0 = w.now)
    (hX : ∀ n, n < steps.toNat → w.Move (dt / steps) (X n) (X (n + 1)) (μ n)) :
    v.Path dt steps X μ where
  first := by
    rw [h0]
    exact ⟨fun b hb q => congrFun (s.pos b ((hv.regs.bodies.mem b).mp hb)) q,
      fun b hb q => congrFun (s.vel b ((hv.regs.bodies.mem b).mp hb)) q, fun _ _ _ => rfl⟩
  step := fun n hn => (s.part hst hw hv).move (hv.ready hG hstv.wired).2 hs hs' (hX n hn)

/-- **C75**: with Gaussian elimination an independent part of a system moves exactly as it does alone:
after a successful call of `process` for the whole and one for the part alone, the bodies of the
part have the same positions and velocities and its constraints report the same forces. -/
theorem C75_moves_as_alone (hG : ∀ g, G g → g.OnlyForces) (hw : World.Hist G .opt h w)
    (hv : World.Hist G .opt h2 v) (hst : w.Standard h) (hstv : v.Standard h2)
    (s : PartObjects h2 v h w) (hs : w.sle = some .ge) (hs' : v.sle = some .ge)
    (e : w.process .opt env dt steps = .ok w') (e2 : v.process .opt env2 dt steps = .ok v') :
    (∀ b ∈ regBodies h2, (w'.bodies b).pos = (v'.bodies b).pos ∧
      (w'.bodies b).vel = (v'.bodies b).vel) ∧
    (0 < steps → ∀ c ∈ regCons h2, ∀ (q : Coord) j k, j < (w.cons c).rows →
      k < (w.cons c).bodyCount → (w'.cons c).F q j k = (v'.cons c).F q j k) := by
  have a := s.part hst hw hv
  obtain ⟨X, μ, h0, hX⟩ := hw.moved hG hst e
  obtain ⟨k1, k2⟩ := hv.follows hG hstv hs' (s.path hG hst hstv hw hv hs hs' h0 hX.step) e2
  refine ⟨fun b hb => ?_, fun hpos c hc q j k hj hk => ?_⟩
  · have hb' := (hv.regs.bodies.mem b).mpr hb
    have hl := hX.last b (a.rb b hb')
    exact ⟨funext fun q => by rw [(k1 b hb' q).1, (hl q).1],
      funext fun q => by rw [(k1 b hb' q).2, (hl q).2]⟩
  · have hc' := (hv.regs.cons.mem c).mpr hc
    obtain ⟨n, hn⟩ : ∃ n, steps.toNat = n + 1 := ⟨steps.toNat - 1, by omega⟩
    rw [hX.forces n hn c (a.cs c hc') q j k hj hk, k2 n hn c hc' q j k
      (by rw [a.rows c hc']; exact hj) (by rw [a.count c hc']; exact hk), World.reaction,
      World.reaction, a.rowsOf _ hc']

/-- **C75**: if the whole can be processed, so can an independent part that has a constraint. -/
theorem C75_part_succeeds (hG : ∀ g, G g → g.OnlyForces) (hw : World.Hist G .opt h w)
    (hv : World.Hist G .opt h2 v) (hst : w.Standard h) (hstv : v.Standard h2)
    (s : PartObjects h2 v h w) (hs : w.sle = some .ge) (hs' : v.sle = some .ge)
    (hne : regCons h2 ≠ ∅) (hpos : 0 < steps) (e : w.process .opt env dt steps = .ok w')
    (env2 : Env ℝ) : ∃ v', v.process .opt env2 dt steps = .ok v' := by
  have a := s.part hst hw hv
  obtain ⟨X, μ, h0, hX⟩ := hw.moved hG hst e
  have hdt : dt ≠ 0 := fun h0 => (hX.step 0 (by omega)).ne (by rw [h0, zero_div])
  refine hv.follows_ok hG hstv hs' (s.path hG hst hstv hw hv hs hs' h0 hX.step)
    (fun b hb q => ?_) hdt (fun h0 => ?_) env2
  · rw [a.mass hb]
    exact hX.mass b (a.rb b hb) q
  · rw [hv.regs.cs_nil] at h0
    exact absurd h0 hne

/-- **C75**: if a system consists of two independent parts that can both be processed, it can be
processed itself. -/
theorem C75_whole_succeeds (hG : ∀ g, G g → g.OnlyForces) (hw : World.Hist G .opt h w)
    (hv : World.Hist G .opt h2 v) (hu : World.Hist G .opt h3 u) (hst : w.Standard h)
    (hstv : v.Standard h2) (hstu : u.Standard h3) (s : PartObjects h2 v h w)
    (s' : PartObjects h3 u h w) (hb : regBodies h = regBodies h2 ∪ regBodies h3)
    (hbd : Disjoint (regBodies h2) (regBodies h3)) (hc : regCons h = regCons h2 ∪ regCons h3)
    (hcd : Disjoint (regCons h2) (regCons h3)) (hs : w.sle = some .ge) (hsv : v.sle = some .ge)
    (hsu : u.sle = some .ge) (hne : regCons h ≠ ∅) (hpos : 0 < steps)
    (e2 : v.process .opt env2 dt steps = .ok v') (e3 : u.process .opt env3 dt steps = .ok u')
    (env : Env ℝ) : ∃ w', w.process .opt env dt steps = .ok w' := by
  have a := s.part hst hw hv
  have b := s'.part hst hw hu
  have pv := (hv.ready hG hstv.wired).2
  have pu := (hu.ready hG hstu.wired).2
  obtain ⟨X, μ, x0, hX⟩ := hv.moved hG hstv e2
  obtain ⟨Y, ν, y0, hY⟩ := hu.moved hG hstu e3
  have hdt : dt ≠ 0 := fun h0 => (hX.step 0 (by omega)).ne (by rw [h0, zero_div])
  have cov : ∀ i ∈ w.rb, i ∈ v.rb ∨ i ∈ u.rb := fun i hi => by
    have := (hw.regs.bodies.mem i).mp hi
    rw [hb, mem_union] at this
    exact this.imp (hv.regs.bodies.mem i).mpr (hu.regs.bodies.mem i).mpr
  have dis : ∀ i ∈ u.rb, i ∉ v.rb := fun i hi hi' => (Finset.disjoint_left.mp hbd)
    ((hv.regs.bodies.mem i).mp hi') ((hu.regs.bodies.mem i).mp hi)
  have covc : ∀ i ∈ w.cs, i ∈ v.cs ∨ i ∈ u.cs := fun i hi => by
    have := (hw.regs.cons.mem i).mp hi
    rw [hc, mem_union] at this
    exact this.imp (hv.regs.cons.mem i).mpr (hu.regs.cons.mem i).mpr
  have disc : ∀ i ∈ v.cs, i ∉ u.cs := fun i hi hi' => (Finset.disjoint_left.mp hcd)
    ((hv.regs.cons.mem i).mp hi) ((hu.regs.cons.mem i).mp hi')
  let Z : Nat → Motion := fun n =>
    ⟨fun i => if i ∈ v.rb then (X n).pos i else (Y n).pos i,
      fun i => if i ∈ v.rb then (X n).vel i else (Y n).vel i,
      fun i => if i ∈ v.rb then (X n).acc i else (Y n).acc i⟩
  have zx : ∀ n, v.SameAs (X n) (Z n) := fun n => ⟨fun i hi q => by simp only [Z, if_pos hi],
    fun i hi q => by simp only [Z, if_pos hi], fun i hi q => by simp only [Z, if_pos hi]⟩
  have zy : ∀ n, u.SameAs (Y n) (Z n) := fun n =>
    ⟨fun i hi q => by simp only [Z, if_neg (dis i hi)],
      fun i hi q => by simp only [Z, if_neg (dis i hi)],
      fun i hi q => by simp only [Z, if_neg (dis i hi)]⟩
  have hZ : w.Path dt steps Z (fun n c => if c ∈ v.cs then μ n c else ν n c) := by
    refine ⟨⟨fun i hi q => ?_, fun i hi q => ?_, fun i hi q => ?_⟩, fun n hn => ?_⟩
    · by_cases h : i ∈ v.rb
      · simp only [Z, if_pos h, x0]
        exact (congrFun (s.pos i ((hv.regs.bodies.mem i).mp h)) q).symm
      · simp only [Z, if_neg h, y0]
        exact (congrFun (s'.pos i ((hu.regs.bodies.mem i).mp ((cov i hi).resolve_left h))) q).symm
    · by_cases h : i ∈ v.rb
      · simp only [Z, if_pos h, x0]
        exact (congrFun (s.vel i ((hv.regs.bodies.mem i).mp h)) q).symm
      · simp only [Z, if_neg h, y0]
        exact (congrFun (s'.vel i ((hu.regs.bodies.mem i).mp ((cov i hi).resolve_left h))) q).symm
    · by_cases h : i ∈ v.rb
      · simp only [Z, if_pos h, x0]; rfl
      · simp only [Z, if_neg h, y0]; rfl
    · exact World.Move.join a b pv pu cov covc disc hs hsv hsu
        ((hX.step n hn).congr pv (hstv.driven hv.regs) (zx n) (zx (n + 1)))
        ((hY.step n hn).congr pu (hstu.driven hu.regs) (zy n) (zy (n + 1)))
  refine hw.follows_ok hG hst hs hZ (fun i hi q => ?_) hdt (fun h0 => ?_) env
  · rcases cov i hi with h | h
    · rw [← a.mass h]
      exact hX.mass i h q
    · rw [← b.mass h]
      exact hY.mass i h q
  · rw [hw.regs.cs_nil] at h0
    exact absurd h0 hne

/-- A constraint that turns body `c` into the direction `c`. -/
def loneCon (c : Nat) : Con ℝ where
  kind := .fixedRotation ⟨c, 0, 0⟩
  index := -1
  bodyCount := 1
  bodies := fun _ => .obj c
  F_x := fun _ _ => 0
  F_y := fun _ _ => 0
  F_t := fun _ _ => 0
  rows := 1

/-- A force on body `g`. -/
def lonePush (g : Nat) : Gen ℝ := .static ⟨3, 4, 1, 2, .obj g⟩

/-- A system with the bodies `l`, each of them turned by a constraint and pushed by a force. -/
theorem lone {l : List Nat} (hl : l.Nodup) (hlen : l.length ≤ 255) :
    ∃ (h : List (Op ℝ)) (w : World ℝ), World.Hist Gen.Shipped .opt h w ∧ w.Standard h ∧
      w.Holds demoBody loneCon lonePush l l l ∧ regBodies h = l.toFinset ∧ regCons h = l.toFinset ∧
      regGens h = l.toFinset ∧ w.sle = some .ge := by
  obtain ⟨h, w, h1, h2, h3, h4, h5, h6, h7, h8⟩ := build (G := Gen.Shipped) demoBody loneCon
    (gens := lonePush) (fun _ => trivial) hl hl hl (some .ge) (fun _ _ => 0) (fun _ _ => 0)
  have hk : ∀ c, (w.cons c).kind = .fixedRotation ⟨c, 0, 0⟩ :=
    fun c => by exact congrArg Con.kind (h2.cons c)
  have hbo : ∀ c k, (w.cons c).bodies k = .obj c :=
    fun c k => by exact congrFun (congrArg Con.bodies (h2.cons c)) k
  have hb : ∀ c ∈ regCons h, ∀ k, k < (w.cons c).bodyCount →
      ∃ b ∈ regBodies h, (w.cons c).bodies k = .obj b := fun c hc k _ =>
    ⟨c, by rw [h3, ← h4]; exact hc, hbo c k⟩
  refine ⟨h, w, h1, ⟨fun c hc => ?_, hb, fun g hg => ?_, .of_card h1.regs hb ?_⟩, h2, h3, h4, h5, h7⟩
  · rw [hk, show (w.cons c).rows = 1 by exact congrArg Con.rows (h2.cons c),
      show (w.cons c).bodyCount = 1 by exact congrArg Con.bodyCount (h2.cons c)]
    rfl
  · rw [h2.gens]
    exact ⟨g, by rw [h3, ← h5]; exact hg, rfl⟩
  · rw [h3]
    exact (List.toFinset_card_le l).trans hlen

/-- Each body of the system is an independent part of it. -/
theorem lone_part {l l2 : List Nat} (hs : l2 ⊆ l)
    (q : w.Holds demoBody loneCon lonePush l l l) (r1 : regBodies h = l.toFinset)
    (r2 : regCons h = l.toFinset) (r3 : regGens h = l.toFinset)
    (q' : v.Holds demoBody loneCon lonePush l2 l2 l2) (r1' : regBodies h2 = l2.toFinset)
    (r2' : regCons h2 = l2.toFinset) (r3' : regGens h2 = l2.toFinset) : PartObjects h2 v h w := by
  have hs' : l2.toFinset ⊆ l.toFinset := fun x hx => by
    rw [List.mem_toFinset] at *
    exact hs hx
  have hB : ∀ b, { v.bodies b with index := -1 } = { w.bodies b with index := -1 } := fun b => by
    exact (q'.bodies b).trans (q.bodies b).symm
  have hC : ∀ c, { v.cons c with index := -1 } = { w.cons c with index := -1 } := fun c => by
    exact (q'.cons c).trans (q.cons c).symm
  exact
    { rb := by rw [r1, r1']; exact hs'
      cs := by rw [r2, r2']; exact hs'
      fg := by rw [r3, r3']; exact hs'
      pos := fun b _ => funext fun q => by
        have := congrArg (fun x : Body ℝ => x.pos q) (hB b)
        cases q <;> exact this
      vel := fun b _ => funext fun q => by
        have := congrArg (fun x : Body ℝ => x.vel q) (hB b)
        cases q <;> exact this
      m := fun b _ => by simpa using congrArg Body.m (hB b)
      I := fun b _ => by simpa using congrArg Body.I (hB b)
      kind := fun c _ => by simpa using congrArg Con.kind (hC c)
      rows := fun c _ => by simpa using congrArg Con.rows (hC c)
      count := fun c _ => by simpa using congrArg Con.bodyCount (hC c)
      at_ := fun c _ k _ => by simpa using congrFun (congrArg Con.bodies (hC c)) k
      gens := fun g _ => by rw [q.gens, q'.gens]
      bias := by rw [q.bias, q'.bias]
      apart := fun c _ hc k _ b hb e => by
        have : (w.cons c).bodies k = .obj c := by
          exact congrFun (congrArg Con.bodies (q.cons c)) k
        rw [this] at e
        cases e
        rw [r1', ← r2'] at hb
        exact hc hb
      idle := fun g _ hg => by
        rw [q.gens]
        refine ⟨fun a => by simp [lonePush], g, ?_, rfl⟩
        rw [r1', ← r3']
        exact hg }

/-- A system of one such body is processed. -/
theorem lone_runs {i : Nat} (hw : World.Hist Gen.Shipped .opt h w) (hst : w.Standard h)
    (q : w.Holds demoBody loneCon lonePush [i] [i] [i]) (hs : w.sle = some .ge) (hdt : dt ≠ 0)
    (env : Env ℝ) : ∃ w', w.process .opt env dt steps = .ok w' := by
  have hm : ∀ b, ∀ q : Coord, (w.bodies b).mass q = 1 := fun b c => by
    have := congrArg (fun x : Body ℝ => x.mass c) (q.bodies b)
    cases c <;> exact this
  refine World.Hist.goes (fun g => Gen.tame) hw hst (fun b _ c => by rw [hm]; exact one_ne_zero) hdt
    (by rw [hs]; simp) (fun _ _ => True) (fun _ _ _ => trivial) (fun _ _ _ _ _ _ _ => trivial)
    (fun _ _ x _ _ => ?_) (fun h0 => by rw [q.cs] at h0; cases h0) env
  simp only [World.Solvable, hs]
  refine indep_of_rank (fun b _ c => by rw [hm]; exact one_pos) fun z hz c hc j hj => ?_
  rw [q.cs, List.mem_singleton] at hc
  subst hc
  have h1 : (w.cons c).rows = 1 := by exact congrArg Con.rows (q.cons c)
  have h2 : (w.cons c).bodyCount = 1 := by exact congrArg Con.bodyCount (q.cons c)
  have h3 : w.bodyOf c 0 = c := by
    rw [World.bodyOf, show (w.cons c).bodies 0 = .obj c by
      exact congrFun (congrArg Con.bodies (q.cons c)) 0]
  have h4 : (w.cons c).kind = .fixedRotation ⟨c, 0, 0⟩ := by
    exact congrArg Con.kind (q.cons c)
  have := hz c (by rw [q.rb]; simp) .th
  rw [q.cs] at this
  simp only [List.toFinset_cons, List.toFinset_nil, insert_empty_eq, sum_singleton, h1, range_one,
    World.coef, h2, h3, if_true, World.rowsOf, h4] at this
  obtain rfl : j = 0 := by omega
  rwa [show (CKind.fixedRotation (⟨c, 0, 0⟩ : FixedRotation ℝ)).jT (x.q w c) 0 (0 * 3 + Coord.th.d) = 1
    from rfl, mul_one] at this

/-- The hypotheses of the three theorems are met by a system of two bodies, each with a constraint and a
force of its own. -/
example (env env2 env3 : Env ℝ) :
    ∃ (h h2 h3 : List (Op ℝ)) (w w' v v' u u' : World ℝ), World.Hist Gen.Shipped .opt h w ∧
      World.Hist Gen.Shipped .opt h2 v ∧ World.Hist Gen.Shipped .opt h3 u ∧ w.Standard h ∧
      v.Standard h2 ∧ u.Standard h3 ∧ PartObjects h2 v h w ∧ PartObjects h3 u h w ∧
      regBodies h = regBodies h2 ∪ regBodies h3 ∧ Disjoint (regBodies h2) (regBodies h3) ∧
      regCons h = regCons h2 ∪ regCons h3 ∧ Disjoint (regCons h2) (regCons h3) ∧
      w.sle = some .ge ∧ v.sle = some .ge ∧ u.sle = some .ge ∧ regCons h2 = {0} ∧
      w.process .opt env 2 4 = .ok w' ∧ v.process .opt env2 2 4 = .ok v' ∧
      u.process .opt env3 2 4 = .ok u' := by
  obtain ⟨h, w, hw, hst, q, r1, r2, r3, hs⟩ := lone (l := [0, 1]) (by decide) (by decide)
  obtain ⟨h2, v, hv, hstv, q2, s1, s2, s3, hsv⟩ := lone (l := [0]) (by decide) (by decide)
  obtain ⟨h3, u, hu, hstu, q3, t1, t2, t3, hsu⟩ := lone (l := [1]) (by decide) (by decide)
  obtain ⟨v', e2⟩ := lone_runs (steps := 4) hv hstv q2 hsv (two_ne_zero (α := ℝ)) env2
  obtain ⟨u', e3⟩ := lone_runs (steps := 4) hu hstu q3 hsu (two_ne_zero (α := ℝ)) env3
  have p1 := lone_part (by simp) q r1 r2 r3 q2 s1 s2 s3
  have p2 := lone_part (by simp) q r1 r2 r3 q3 t1 t2 t3
  have hb : regBodies h = regBodies h2 ∪ regBodies h3 := by rw [r1, s1, t1]; rfl
  have hc : regCons h = regCons h2 ∪ regCons h3 := by rw [r2, s2, t2]; rfl
  have hbd : Disjoint (regBodies h2) (regBodies h3) := by rw [s1, t1]; decide
  have hcd : Disjoint (regCons h2) (regCons h3) := by rw [s2, t2]; decide
  obtain ⟨w', e⟩ := C75_whole_succeeds (fun g => Gen.tame) hw hv hu hst hstv hstu p1 p2 hb hbd hc hcd
    hs hsv hsu (by rw [r2]; decide) (by decide) e2 e3 env
  exact ⟨h, h2, h3, w, w', v, v', u, u', hw, hv, hu, hst, hstv, hstu, p1, p2, hb, hbd, hc, hcd, hs, hsv,
    hsu, by rw [s2]; rfl, e, e2, e3⟩

end

end Scs
