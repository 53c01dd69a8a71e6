import Verif.PropsLeast
import Verif.PropsMotion

/-!
# Idle constraints and superposition

C79, C80: see `PropsStep.lean` for the notions used.
-/

namespace Scs

open Finset

/-- The system `v` has the bodies of the system `w` and some of its constraints. -/
structure World.Fewer (v w : World ℝ) : Prop where
  rb : ∀ b, b ∈ v.rb ↔ b ∈ w.rb
  cs : ∀ c ∈ v.cs, c ∈ w.cs
  m : ∀ b ∈ v.rb, (v.bodies b).m = (w.bodies b).m
  I : ∀ b ∈ v.rb, (v.bodies b).I = (w.bodies b).I
  kind : ∀ c ∈ v.cs, (v.cons c).kind = (w.cons c).kind
  rows : ∀ c ∈ v.cs, (v.cons c).rows = (w.cons c).rows
  count : ∀ c ∈ v.cs, (v.cons c).bodyCount = (w.cons c).bodyCount
  at_ : ∀ c ∈ v.cs, ∀ k, k < (w.cons c).bodyCount → (v.cons c).bodies k = (w.cons c).bodies k
  bias : v.bias = w.bias

namespace World.Fewer
variable {w v : World ℝ} (a : v.Fewer w)
include a

theorem mass {b : Nat} (hb : b ∈ v.rb) (q : Coord) : (v.bodies b).mass q = (w.bodies b).mass q := by
  cases q
  · exact a.m b hb
  · exact a.m b hb
  · exact a.I b hb

theorem bodyOf {c : Nat} (hc : c ∈ v.cs) {k : Nat} (hk : k < (w.cons c).bodyCount) :
    v.bodyOf c k = w.bodyOf c k := by
  rw [World.bodyOf, World.bodyOf, a.at_ c hc k hk]

theorem rowsOf (x : Motion) {c : Nat} (hc : c ∈ v.cs) : v.rowsOf x c = w.rowsOf x c := by
  have hq : x.q v c = x.q w c := by
    funext t
    rw [Motion.q, Motion.q, a.count c hc]
    by_cases h : t / 3 < (w.cons c).bodyCount
    · rw [if_pos h, if_pos h, a.bodyOf hc h]
    · rw [if_neg h, if_neg h]
  have hu : x.u v c = x.u w c := by
    funext t
    rw [Motion.u, Motion.u, a.count c hc]
    by_cases h : t / 3 < (w.cons c).bodyCount
    · rw [if_pos h, if_pos h, a.bodyOf hc h]
    · rw [if_neg h, if_neg h]
  rw [World.rowsOf, World.rowsOf, hq, hu, a.kind c hc]

theorem rowAt (o : Output ℝ) {c : Nat} (hc : c ∈ v.cs) (j : Nat) (u : Nat → Coord → ℝ) :
    v.rowAt o c j u = w.rowAt o c j u := by
  rw [World.rowAt, World.rowAt, a.count c hc]
  refine sum_congr rfl fun k hk => ?_
  rw [a.bodyOf hc (mem_range.mp hk)]

/-- Forces along the rows of `v` act in `w` if the other constraints exert none. -/
theorem conForce (x : Motion) {μ ν : Nat → Nat → ℝ} (h : ∀ c ∈ v.cs, ν c = μ c)
    (h0 : ∀ c ∈ w.cs, c ∉ v.cs → ∀ j, ν c j = 0) (b : Nat) (q : Coord) :
    w.conForce (w.reaction x ν) b q = v.conForce (v.reaction x μ) b q := by
  rw [World.conForce, World.conForce]
  refine (sum_subset (fun c hc => ?_) fun c hc hc' => ?_).symm.trans (sum_congr rfl fun c hc => ?_)
  · rw [List.mem_toFinset] at *
    exact a.cs c hc
  · rw [List.mem_toFinset] at *
    refine sum_eq_zero fun j _ => sum_eq_zero fun k _ => ?_
    rw [World.reaction, h0 c hc hc', zero_mul, ite_self]
  · rw [List.mem_toFinset] at hc
    rw [a.rows c hc, a.count c hc]
    refine sum_congr rfl fun j _ => sum_congr rfl fun k hk => ?_
    rw [a.bodyOf hc (mem_range.mp hk), World.reaction, World.reaction, a.rowsOf x hc, h c hc]

end World.Fewer

section
variable {G : Gen ℝ → Prop} {h h1 h2 h3 : List (Op ℝ)} {w w' v v' u u' z z' : World ℝ}
  {env env1 env2 env3 : Env ℝ} {dt : ℝ}

/-- The history `h2` ends with the bodies with which the history `h` ends, in the same motion, and with
some of its constraints. -/
structure FewerCons (h2 : List (Op ℝ)) (v : World ℝ) (h : List (Op ℝ)) (w : World ℝ) : Prop where
  rb : regBodies h2 = regBodies h
  cs : regCons h2 ⊆ regCons h
  pos : ∀ b ∈ regBodies h, (v.bodies b).pos = (w.bodies b).pos
  vel : ∀ b ∈ regBodies h, (v.bodies b).vel = (w.bodies b).vel
  m : ∀ b ∈ regBodies h, (v.bodies b).m = (w.bodies b).m
  I : ∀ b ∈ regBodies h, (v.bodies b).I = (w.bodies b).I
  kind : ∀ c ∈ regCons h2, (v.cons c).kind = (w.cons c).kind
  rows : ∀ c ∈ regCons h2, (v.cons c).rows = (w.cons c).rows
  count : ∀ c ∈ regCons h2, (v.cons c).bodyCount = (w.cons c).bodyCount
  at_ : ∀ c ∈ regCons h2, ∀ k, k < (w.cons c).bodyCount → (v.cons c).bodies k = (w.cons c).bodies k
  bias : v.bias = w.bias

theorem FewerCons.fewer (s : FewerCons h2 v h w) (hw : World.Hist G .opt h w)
    (hv : World.Hist G .opt h2 v) : v.Fewer w where
  rb := fun b => by rw [hv.regs.bodies.mem, hw.regs.bodies.mem, s.rb]
  cs := fun c hc => (hw.regs.cons.mem c).mpr (s.cs ((hv.regs.cons.mem c).mp hc))
  m := fun b hb => s.m b (s.rb ▸ (hv.regs.bodies.mem b).mp hb)
  I := fun b hb => s.I b (s.rb ▸ (hv.regs.bodies.mem b).mp hb)
  kind := fun c hc => s.kind c ((hv.regs.cons.mem c).mp hc)
  rows := fun c hc => s.rows c ((hv.regs.cons.mem c).mp hc)
  count := fun c hc => s.count c ((hv.regs.cons.mem c).mp hc)
  at_ := fun c hc => s.at_ c ((hv.regs.cons.mem c).mp hc)
  bias := s.bias

theorem FewerCons.now (s : FewerCons h2 v h w) (hw : World.Hist G .opt h w) : w.SameAs v.now w.now :=
  ⟨fun b hb => congrFun (s.pos b ((hw.regs.bodies.mem b).mp hb)),
    fun b hb => congrFun (s.vel b ((hw.regs.bodies.mem b).mp hb)), fun _ _ _ => rfl⟩

/-! ## C79 -/

theorem idle_path (hG : ∀ g, G g → g.OnlyForces) (hw : World.Hist G .opt h w)
    (hv : World.Hist G .opt h2 v) (hst : w.Standard h) (hstv : v.Standard h2)
    (s : FewerCons h2 v h w) (hf : regGens h2 = regGens h) (hg : ∀ g ∈ regGens h, v.gens g = w.gens g)
    (hs : w.sle = some .ge) (hs' : v.sle = some .ge) (e2 : v.process .opt env2 dt 1 = .ok v')
    (hmet : w.Demanded h dt (fun b => (v'.bodies b).vel)) (hI : w.Indep (w.rowsOf w.now)) :
    ∃ x μ, w.Path dt 1 (fun n => if n = 0 then w.now else x) (fun _ => μ) ∧
      (∀ b ∈ w.rb, ∀ q, (v'.bodies b).pos q = x.pos b q ∧ (v'.bodies b).vel q = x.vel b q) ∧
      (∀ c ∈ w.cs, c ∉ v.cs → ∀ j, μ c j = 0) ∧
      (∀ c ∈ v.cs, ∀ (q : Coord) j k, j < (w.cons c).rows → k < (w.cons c).bodyCount →
        (v'.cons c).F q j k = w.reaction w.now μ c q j k) ∧ dt ≠ 0 ∧
      ∀ b ∈ w.rb, ∀ q : Coord, (w.bodies b).mass q ≠ 0 := by
  have a := s.fewer hw hv
  have p := (hw.ready hG hst.wired).2
  have pv := (hv.ready hG hstv.wired).2
  obtain ⟨X, μ, hX0, hX⟩ := hv.moved hG hstv e2
  have st := hX.step 0 (by decide)
  rw [Int.cast_one, div_one, hX0] at st
  have sn : v.SameAs v.now w.now := by
    have := s.now hw
    exact ⟨fun b hb => this.pos b ((a.rb b).mp hb), fun b hb => this.vel b ((a.rb b).mp hb),
      fun b hb => this.acc b ((a.rb b).mp hb)⟩
  have st2 := st.congr pv (hstv.driven hv.regs) sn (.refl (X (0 + 1)))
  have hl : v.Shows (X (0 + 1)) v'.bodies := hX.last
  have hld : ∀ b ∈ w.rb, ∀ q, v.load w.now b q = w.load w.now b q := fun b hb q => by
    rw [World.load, World.load, hw.regs.fg_finset, hv.regs.fg_finset, hf, a.m b ((a.rb b).mpr hb)]
    exact sum_congr rfl fun g hgm => by rw [hg g hgm]
  let ν : Nat → Nat → ℝ := fun c => if c ∈ v.cs then μ 0 c else fun _ => 0
  have hν : ∀ c ∈ v.cs, ν c = μ 0 c := fun c hc => if_pos hc
  have hν0 : ∀ c ∈ w.cs, c ∉ v.cs → ∀ j, ν c j = 0 := fun c _ hc j => by
    rw [show ν c = _ from if_neg hc]
  refine ⟨X (0 + 1), ν, ⟨?_, fun n hn => ?_⟩, fun b hb q => ?_, hν0,
    fun c hc q j k hj hk => ?_, st.ne, fun b hb q => ?_⟩
  · rw [if_pos rfl]; exact .refl _
  · obtain rfl : n = 0 := by
      have : n < 1 := hn
      omega
    rw [if_pos rfl, if_neg (Nat.succ_ne_zero 0), Int.cast_one, div_one]
    refine ⟨st.ne, fun b hb q => ?_, fun b hb => st2.vel b ((a.rb b).mpr hb),
      fun b hb => st2.pos b ((a.rb b).mpr hb), fun _ => hI, fun _ c hc j hj => ?_,
      (fun m e1 e2 h => by rw [hs] at h; cases h), (fun m e h => by rw [hs] at h; cases h)⟩
    · have hb' := (a.rb b).mpr hb
      rw [st2.acc b hb' q, hld b hb, a.conForce w.now hν hν0, a.mass hb']
    · refine Eq.trans ?_ (hmet c ((hw.regs.cons.mem c).mp hc) j hj)
      congr 2
      exact sum_congr rfl fun k hk => Coord.sum_congr fun q => congrArg _
        (hl _ ((a.rb _).mpr (p.bodies c hc k (mem_range.mp hk)).2) q).2
  · have := hl b ((a.rb b).mpr hb) q
    exact ⟨this.1.symm, this.2.symm⟩
  · rw [hX.forces 0 rfl c hc q j k (by rw [a.rows c hc]; exact hj) (by rw [a.count c hc]; exact hk),
      World.reaction, World.reaction, hν c hc, hX0, a.rowsOf _ hc,
      rowsOf_congr p (s.now hw) (a.cs c hc)]
  · rw [← a.mass ((a.rb b).mpr hb)]
    exact hX.mass b ((a.rb b).mpr hb) q

/-- **C79**: with Gaussian elimination, if additional constraints demand nothing but what the motion
without them fulfils anyway, they exert no force and the motion and the other forces are the same. -/
theorem C79_idle (hG : ∀ g, G g → g.OnlyForces) (hw : World.Hist G .opt h w)
    (hv : World.Hist G .opt h2 v) (hst : w.Standard h) (hstv : v.Standard h2)
    (s : FewerCons h2 v h w) (hf : regGens h2 = regGens h) (hg : ∀ g ∈ regGens h, v.gens g = w.gens g)
    (hs : w.sle = some .ge) (hs' : v.sle = some .ge) (e2 : v.process .opt env2 dt 1 = .ok v')
    (hmet : w.Demanded h dt (fun b => (v'.bodies b).vel)) (e : w.process .opt env dt 1 = .ok w') :
    (∀ b ∈ regBodies h, (w'.bodies b).pos = (v'.bodies b).pos ∧
      (w'.bodies b).vel = (v'.bodies b).vel) ∧
    ∀ c ∈ regCons h, ∀ (q : Coord) j k, j < (w.cons c).rows → k < (w.cons c).bodyCount →
      (w'.cons c).F q j k = if c ∈ regCons h2 then (v'.cons c).F q j k else 0 := by
  obtain ⟨Y, ν, hY0, hY⟩ := hw.moved hG hst e
  have hI := (hY.step 0 (by decide)).indep hs
  rw [hY0] at hI
  obtain ⟨x, μ, hP, k1, k2, k3, -⟩ := idle_path hG hw hv hst hstv s hf hg hs hs' e2 hmet hI
  obtain ⟨f1, f2⟩ := hw.follows hG hst hs hP e
  refine ⟨fun b hb => ?_, fun c hc q j k hj hk => ?_⟩
  · have hb' := (hw.regs.bodies.mem b).mpr hb
    exact ⟨funext fun q => by rw [(k1 b hb' q).1]; exact (f1 b hb' q).1,
      funext fun q => by rw [(k1 b hb' q).2]; exact (f1 b hb' q).2⟩
  · have hc' := (hw.regs.cons.mem c).mpr hc
    have e1 := f2 0 rfl c hc' q j k hj hk
    rw [if_pos rfl] at e1
    by_cases hm : c ∈ regCons h2
    · rw [if_pos hm, e1, k3 c ((hv.regs.cons.mem c).mpr hm) q j k hj hk]
    · rw [if_neg hm, e1, World.reaction, k2 c hc' (fun h => hm ((hv.regs.cons.mem c).mp h)), zero_mul]

/-- **C79**: such a system is processed successfully if its constraints are independent. -/
theorem C79_succeeds (hG : ∀ g, G g → g.OnlyForces) (hw : World.Hist G .opt h w)
    (hv : World.Hist G .opt h2 v) (hst : w.Standard h) (hstv : v.Standard h2)
    (s : FewerCons h2 v h w) (hf : regGens h2 = regGens h) (hg : ∀ g ∈ regGens h, v.gens g = w.gens g)
    (hs : w.sle = some .ge) (hs' : v.sle = some .ge) (e2 : v.process .opt env2 dt 1 = .ok v')
    (hmet : w.Demanded h dt (fun b => (v'.bodies b).vel)) (hI : w.Indep (w.rowsOf w.now))
    (hne : regCons h ≠ ∅) (env : Env ℝ) : ∃ w', w.process .opt env dt 1 = .ok w' := by
  obtain ⟨x, μ, hP, -, -, -, k4, k5⟩ := idle_path hG hw hv hst hstv s hf hg hs hs' e2 hmet hI
  refine hw.follows_ok hG hst hs hP k5 k4 (fun h0 => ?_) env
  rw [hw.regs.cs_nil] at h0
  exact absurd h0 hne

/-- Two of the demonstration systems differ in their constraints only. -/
theorem demo_fewer {K : CKind ℝ} {g g' : Gen ℝ} {cs cs' fg fg' : List Nat} {sv sv' : Solver ℝ}
    (d : Demo K g cs fg sv h w) (d' : Demo K g' cs' fg' sv' h2 v) (hs : cs'.toFinset ⊆ cs.toFinset) :
    FewerCons h2 v h w where
  rb := by rw [d.regB, d'.regB]
  cs := by rw [d.regC, d'.regC]; exact hs
  pos := fun b _ => funext fun q => by rw [d.pos, d'.pos]
  vel := fun b _ => funext fun q => by rw [d.vel, d'.vel]
  m := fun b _ => (d'.mass b .x).trans (d.mass b .x).symm
  I := fun b _ => (d'.mass b .th).trans (d.mass b .th).symm
  kind := fun c _ => by rw [d.kind, d'.kind]
  rows := fun c _ => by rw [d.rows, d'.rows]
  count := fun c _ => by rw [d.count, d'.count]
  at_ := fun c _ k _ => by rw [d.bodies, d'.bodies]
  bias := by rw [d.bias, d'.bias]

/-- The hypotheses of the two theorems are met: a body that falls and turns with the speed that the
additional constraint demands. -/
example (env env2 : Env ℝ) : ∃ (h h2 : List (Op ℝ)) (w w' v v' : World ℝ),
    World.Hist Gen.Shipped .opt h w ∧ World.Hist Gen.Shipped .opt h2 v ∧ w.Standard h ∧
      v.Standard h2 ∧ FewerCons h2 v h w ∧ regGens h2 = regGens h ∧ regGens h = {0} ∧
      (∀ g ∈ regGens h, v.gens g = w.gens g) ∧ w.sle = some .ge ∧ v.sle = some .ge ∧
      regCons h = {0} ∧ regCons h2 = ∅ ∧ v.process .opt env2 2 1 = .ok v' ∧
      w.Demanded h 2 (fun b => (v'.bodies b).vel) ∧ w.process .opt env 2 1 = .ok w' ∧
      w.Indep (w.rowsOf w.now) := by
  let K : CKind ℝ := .constantRotation ⟨-5, 0, 0, 0, 0⟩
  obtain ⟨h, w, w', d, hst, e⟩ := demo_turns (turns_constant ⟨-5, 0, 0, 0, 0⟩) (g := .gravity 9) trivial
    trivial (sv := .ge) trivial (two_ne_zero (α := ℝ)) 1 env
  obtain ⟨h2, v, d2⟩ := demo K (g := .gravity 9) trivial (cs := []) (fg := [0]) (by decide) (by decide)
    .ge
  have hst2 := d2.standard (.inr rfl) trivial
  have hc : regCons h2 = ∅ := by rw [d2.regC]; rfl
  obtain ⟨v', e2⟩ := C59_ge_succeeds (fun g => Gen.tame) d2.hist hst2 hc d2.masses
    (two_ne_zero (α := ℝ)) d2.sle d2.new env2 (steps := 1)
  have hI : w.Indep (w.rowsOf w.now) :=
    ((C48_succeeds_iff (fun g => Gen.tame) d.hist hst d.sle (ne_empty_of_mem (d.mem0 rfl))).mp
      ⟨w', e⟩).2.2
  refine ⟨h, h2, w, w', v, v', d.hist, d2.hist, hst, hst2, demo_fewer d d2 (by simp), ?_, ?_, fun g _ => ?_,
    d.sle, d2.sle, by rw [d.regC]; rfl, hc, e2, fun c hc j hj => ?_, e, hI⟩
  · rw [d.regG, d2.regG]
  · rw [d.regG]; rfl
  · rw [d.gens, d2.gens]
  · rw [d.regC] at hc
    obtain rfl : c = 0 := by simpa using hc
    have hr : (w.cons 0).rows = 1 := by rw [d.rows]; rfl
    have hn : (w.cons 0).bodyCount = 1 := by rw [d.count]; rfl
    obtain rfl : j = 0 := by omega
    have hk : (w.cons 0).kind = K := d.kind 0
    have hv : (v'.bodies 0).vel .th = 5 := by
      rw [(C49_one_step (fun g => Gen.tame) d2.hist hst2.wired hst2.gens e2 d2.bodies_mem.1 .th).1,
        d2.vel, World.load, d2.fg_eq, World.conForce, d2.cs_eq]
      simp [d2.gens, Gen.load, demoBody, Body.vel]
    rw [World.rowAt, hn, sum_range_one, d.bodyOf]
    simp only [World.rowsOf, hk, Coord.sum, Coord.d, hv, Nat.zero_mul, Nat.zero_add]
    rw [show K.jT (w.now.q w 0) 0 0 = 0 from rfl, show K.jT (w.now.q w 0) 0 1 = 0 from rfl,
      show K.jT (w.now.q w 0) 0 2 = 1 from rfl, show K.biasT = -5 from rfl,
      show K.cT (w.now.q w 0) 0 = 0 from rfl]
    norm_num

/-! ## C80 -/

/-- **C80**: with Gaussian elimination forces superpose.  Four systems have the same bodies, in the same
motion, and the same constraints; at the beginning of the sub-step the force generators of the first
and of the second together exert the same forces as those of the third and of the fourth together.
Then the sums of the new velocities, of the new positions and of the reported forces are the same. -/
theorem C80_superposition (hG : ∀ g, G g → g.OnlyForces) (hw : World.Hist G .opt h w)
    (hv : World.Hist G .opt h1 v) (hu : World.Hist G .opt h2 u) (hz : World.Hist G .opt h3 z)
    (stw : w.Standard h) (stv : v.Standard h1) (stu : u.Standard h2) (stz : z.Standard h3)
    (sv : FewerCons h1 v h w) (su : FewerCons h2 u h w) (sz : FewerCons h3 z h w)
    (cv : regCons h1 = regCons h) (cu : regCons h2 = regCons h) (cz : regCons h3 = regCons h)
    (hl : ∀ b ∈ regBodies h, ∀ q, w.load w.now b q + v.load w.now b q =
      u.load w.now b q + z.load w.now b q)
    (lw : w.sle = some .ge) (lv : v.sle = some .ge) (lu : u.sle = some .ge) (lz : z.sle = some .ge)
    (ew : w.process .opt env dt 1 = .ok w') (ev : v.process .opt env1 dt 1 = .ok v')
    (eu : u.process .opt env2 dt 1 = .ok u') (ez : z.process .opt env3 dt 1 = .ok z') :
    (∀ b ∈ regBodies h, ∀ q,
      (w'.bodies b).vel q + (v'.bodies b).vel q = (u'.bodies b).vel q + (z'.bodies b).vel q ∧
      (w'.bodies b).pos q + (v'.bodies b).pos q = (u'.bodies b).pos q + (z'.bodies b).pos q) ∧
    ∀ c ∈ regCons h, ∀ (q : Coord) j k, j < (w.cons c).rows → k < (w.cons c).bodyCount →
      (w'.cons c).F q j k + (v'.cons c).F q j k = (u'.cons c).F q j k + (z'.cons c).F q j k := by
  have p := (hw.ready hG stw.wired).2
  -- a sub-step of one of the systems, in terms of `w`
  have gen : ∀ {h1 : List (Op ℝ)} {v v' : World ℝ} {env1 : Env ℝ}, World.Hist G .opt h1 v →
      v.Standard h1 → FewerCons h1 v h w → regCons h1 = regCons h → v.sle = some .ge →
      v.process .opt env1 dt 1 = .ok v' → ∃ (x : Motion) (μ : Nat → Nat → ℝ),
        (∀ b ∈ w.rb, ∀ q, x.acc b q = (v.load w.now b q +
          w.conForce (w.reaction w.now μ) b q) / (w.bodies b).mass q) ∧
        (∀ b ∈ w.rb, ∀ q, x.vel b q = w.now.vel b q + dt * x.acc b q) ∧
        (∀ b ∈ w.rb, ∀ q, x.pos b q = w.now.pos b q + dt * x.vel b q) ∧
        (∀ c ∈ w.cs, ∀ j, j < (w.cons c).rows → w.rowAt (w.rowsOf w.now c) c j x.vel +
          (w.rowsOf w.now c).v_bias j + w.bias / dt * (w.rowsOf w.now c).C j = 0) ∧
        (∀ b ∈ w.rb, ∀ q, (v'.bodies b).pos q = x.pos b q ∧ (v'.bodies b).vel q = x.vel b q) ∧
        ∀ c ∈ w.cs, ∀ (q : Coord) j k, j < (w.cons c).rows → k < (w.cons c).bodyCount →
          (v'.cons c).F q j k = w.reaction w.now μ c q j k := by
    intro h1 v v' env1 hv stv s hc lv ev
    have a := s.fewer hw hv
    have pv := (hv.ready hG stv.wired).2
    have mem : ∀ c, c ∈ w.cs → c ∈ v.cs := fun c hcw => by
      rw [hv.regs.cons.mem, hc, ← hw.regs.cons.mem]; exact hcw
    obtain ⟨X, μ, hX0, hX⟩ := hv.moved hG stv ev
    have st := hX.step 0 (by decide)
    rw [Int.cast_one, div_one, hX0] at st
    have sn : v.SameAs v.now w.now := by
      have := s.now hw
      exact ⟨fun b hb => this.pos b ((a.rb b).mp hb), fun b hb => this.vel b ((a.rb b).mp hb),
        fun b hb => this.acc b ((a.rb b).mp hb)⟩
    have st2 := st.congr pv (stv.driven hv.regs) sn (.refl (X (0 + 1)))
    refine ⟨X (0 + 1), μ 0, fun b hb q => ?_, fun b hb => st2.vel b ((a.rb b).mpr hb),
      fun b hb => st2.pos b ((a.rb b).mpr hb), fun c hcw j hj => ?_, fun b hb q => ?_,
      fun c hcw q j k hj hk => ?_⟩
    · rw [st2.acc b ((a.rb b).mpr hb) q, a.mass ((a.rb b).mpr hb),
        a.conForce w.now (fun _ _ => rfl) (fun c hcw hcv => absurd (mem c hcw) hcv)]
    · have := st2.ge lv c (mem c hcw) j (by rw [a.rows c (mem c hcw)]; exact hj)
      rw [a.rowsOf _ (mem c hcw), a.rowAt _ (mem c hcw), a.bias] at this
      exact this
    · have := hX.last b ((a.rb b).mpr hb) q
      exact ⟨this.1.symm, this.2.symm⟩
    · have hcv := mem c hcw
      rw [hX.forces 0 rfl c hcv q j k (by rw [a.rows c hcv]; exact hj)
        (by rw [a.count c hcv]; exact hk), World.reaction, World.reaction, hX0, a.rowsOf _ hcv,
        rowsOf_congr p (s.now hw) hcw]
  obtain ⟨xv, μv, va, vv, vp, vr, ve, vf⟩ := gen hv stv sv cv lv ev
  obtain ⟨xu, μu, ua, uv, up, ur, ue, uf⟩ := gen hu stu su cu lu eu
  obtain ⟨xz, μz, za, zv, zp, zr, ze, zf⟩ := gen hz stz sz cz lz ez
  obtain ⟨Y, ν, hY0, hY⟩ := hw.moved hG stw ew
  have stY := hY.step 0 (by decide)
  rw [Int.cast_one, div_one, hY0] at stY
  let x : Motion := ⟨fun b q => xu.pos b q + xz.pos b q - xv.pos b q,
    fun b q => xu.vel b q + xz.vel b q - xv.vel b q, fun b q => xu.acc b q + xz.acc b q - xv.acc b q⟩
  let μ : Nat → Nat → ℝ := fun c j => μu c j + μz c j - μv c j
  have lin : ∀ b q, w.conForce (w.reaction w.now μ) b q = w.conForce (w.reaction w.now μu) b q +
      w.conForce (w.reaction w.now μz) b q - w.conForce (w.reaction w.now μv) b q := fun b q => by
    rw [conForce_coef, conForce_coef, conForce_coef, conForce_coef, ← sum_add_distrib,
      ← sum_sub_distrib]
    refine sum_congr rfl fun c _ => ?_
    rw [← sum_add_distrib, ← sum_sub_distrib]
    exact sum_congr rfl fun j _ => by ring
  have mv : w.Move dt w.now x μ := by
    refine ⟨stY.ne, fun b hb q => ?_, fun b hb q => ?_, fun b hb q => ?_, stY.indep,
      fun _ c hc j hj => ?_, (fun m e1 e2 h => by rw [lw] at h; cases h),
      (fun m e h => by rw [lw] at h; cases h)⟩
    · show xu.acc b q + xz.acc b q - xv.acc b q = _
      have := hl b ((hw.regs.bodies.mem b).mp hb) q
      rw [ua b hb, za b hb, va b hb, lin, ← add_div, ← sub_div]
      congr 1
      linear_combination -this
    · show xu.vel b q + xz.vel b q - xv.vel b q =
        w.now.vel b q + dt * (xu.acc b q + xz.acc b q - xv.acc b q)
      rw [uv b hb, zv b hb, vv b hb]
      ring
    · show xu.pos b q + xz.pos b q - xv.pos b q =
        w.now.pos b q + dt * (xu.vel b q + xz.vel b q - xv.vel b q)
      rw [up b hb, zp b hb, vp b hb]
      ring
    · have e1 := ur c hc j hj
      have e2 := zr c hc j hj
      have e3 := vr c hc j hj
      have e4 : w.rowAt (w.rowsOf w.now c) c j x.vel = w.rowAt (w.rowsOf w.now c) c j xu.vel +
          w.rowAt (w.rowsOf w.now c) c j xz.vel - w.rowAt (w.rowsOf w.now c) c j xv.vel := by
        simp only [World.rowAt, ← sum_add_distrib, ← sum_sub_distrib]
        refine sum_congr rfl fun k _ => ?_
        simp only [Coord.sum, x]
        ring
      rw [e4]
      linear_combination e1 + e2 - e3
  obtain ⟨q1, q2⟩ := stY.unique p lw mv
  have hlast : w.Shows (Y (0 + 1)) w'.bodies := hY.last
  refine ⟨fun b hb q => ?_, fun c hc q j k hj hk => ?_⟩
  · have hb' := (hw.regs.bodies.mem b).mpr hb
    rw [← (hlast b hb' q).1, ← (hlast b hb' q).2, q2.vel b hb' q, q2.pos b hb' q, (ve b hb' q).1,
      (ve b hb' q).2, (ue b hb' q).1, (ue b hb' q).2, (ze b hb' q).1, (ze b hb' q).2]
    show (xu.vel b q + xz.vel b q - xv.vel b q) + _ = _ ∧
      (xu.pos b q + xz.pos b q - xv.pos b q) + _ = _
    constructor <;> ring
  · have hc' := (hw.regs.cons.mem c).mpr hc
    rw [hY.forces 0 rfl c hc' q j k hj hk, vf c hc' q j k hj hk, uf c hc' q j k hj hk,
      zf c hc' q j k hj hk, hY0, World.reaction, q1 c hc' j hj, World.reaction, World.reaction,
      World.reaction]
    show (μu c j + μz c j - μv c j) * _ + _ = _
    ring

/-- **C80** for two groups of force generators: the changes of velocities, positions and reported forces
that they cause together are the sums of the changes that they cause alone. -/
theorem C80_two_forces (hG : ∀ g, G g → g.OnlyForces) (hw : World.Hist G .opt h w)
    (hv : World.Hist G .opt h1 v) (hu : World.Hist G .opt h2 u) (hz : World.Hist G .opt h3 z)
    (stw : w.Standard h) (stv : v.Standard h1) (stu : u.Standard h2) (stz : z.Standard h3)
    (sv : FewerCons h1 v h w) (su : FewerCons h2 u h w) (sz : FewerCons h3 z h w)
    (cv : regCons h1 = regCons h) (cu : regCons h2 = regCons h) (cz : regCons h3 = regCons h)
    (gw : regGens h = regGens h2 ∪ regGens h3) (gd : Disjoint (regGens h2) (regGens h3))
    (gv : regGens h1 = ∅) (gu : ∀ g ∈ regGens h2, u.gens g = w.gens g)
    (gz : ∀ g ∈ regGens h3, z.gens g = w.gens g)
    (lw : w.sle = some .ge) (lv : v.sle = some .ge) (lu : u.sle = some .ge) (lz : z.sle = some .ge)
    (ew : w.process .opt env dt 1 = .ok w') (ev : v.process .opt env1 dt 1 = .ok v')
    (eu : u.process .opt env2 dt 1 = .ok u') (ez : z.process .opt env3 dt 1 = .ok z') :
    (∀ b ∈ regBodies h, ∀ q,
      (w'.bodies b).vel q - (v'.bodies b).vel q =
        ((u'.bodies b).vel q - (v'.bodies b).vel q) + ((z'.bodies b).vel q - (v'.bodies b).vel q) ∧
      (w'.bodies b).pos q - (v'.bodies b).pos q =
        ((u'.bodies b).pos q - (v'.bodies b).pos q) + ((z'.bodies b).pos q - (v'.bodies b).pos q)) ∧
    ∀ c ∈ regCons h, ∀ (q : Coord) j k, j < (w.cons c).rows → k < (w.cons c).bodyCount →
      (w'.cons c).F q j k - (v'.cons c).F q j k = ((u'.cons c).F q j k - (v'.cons c).F q j k) +
        ((z'.cons c).F q j k - (v'.cons c).F q j k) := by
  have hl : ∀ b ∈ regBodies h, ∀ q, w.load w.now b q + v.load w.now b q =
      u.load w.now b q + z.load w.now b q := fun b hb q => by
    rw [World.load, World.load, World.load, World.load, hw.regs.fg_finset, hv.regs.fg_finset,
      hu.regs.fg_finset, hz.regs.fg_finset, gw, gv, sum_union gd, sum_empty, add_zero, su.m b hb,
      sz.m b hb]
    exact congrArg₂ _ (sum_congr rfl fun g hg => by rw [gu g hg])
      (sum_congr rfl fun g hg => by rw [gz g hg])
  obtain ⟨k1, k2⟩ := C80_superposition hG hw hv hu hz stw stv stu stz sv su sz cv cu cz hl lw lv lu lz
    ew ev eu ez
  refine ⟨fun b hb q => ⟨?_, ?_⟩, fun c hc q j k hj hk => ?_⟩
  · linear_combination (k1 b hb q).1
  · linear_combination (k1 b hb q).2
  · linear_combination k2 c hc q j k hj hk

/-- The hypotheses of the two theorems are met: two linked bodies and two forces. -/
example (l : Link ℝ) (p : StaticForce ℝ) (env : Env ℝ) :
    ∃ (h h1 h2 h3 : List (Op ℝ)) (w w' v v' u u' z z' : World ℝ),
      World.Hist Gen.Shipped .opt h w ∧ World.Hist Gen.Shipped .opt h1 v ∧
      World.Hist Gen.Shipped .opt h2 u ∧ World.Hist Gen.Shipped .opt h3 z ∧
      w.Standard h ∧ v.Standard h1 ∧ u.Standard h2 ∧ z.Standard h3 ∧
      FewerCons h1 v h w ∧ FewerCons h2 u h w ∧ FewerCons h3 z h w ∧
      regCons h1 = regCons h ∧ regCons h2 = regCons h ∧ regCons h3 = regCons h ∧ regCons h = {0} ∧
      regGens h = regGens h2 ∪ regGens h3 ∧ regGens h2 = {0} ∧ regGens h3 = {1} ∧ regGens h1 = ∅ ∧
      (∀ g ∈ regGens h2, u.gens g = w.gens g) ∧ (∀ g ∈ regGens h3, z.gens g = w.gens g) ∧
      w.gens 0 = .static { p with body := .obj 0 } ∧
      w.sle = some .ge ∧ v.sle = some .ge ∧ u.sle = some .ge ∧ z.sle = some .ge ∧
      w.process .opt env 2 1 = .ok w' ∧ v.process .opt env 2 1 = .ok v' ∧
      u.process .opt env 2 1 = .ok u' ∧ z.process .opt env 2 1 = .ok z' := by
  have hg : (Gen.static { p with body := .obj 0 }).Within (· ∈ ({0, 1} : Finset Nat)) :=
    ⟨0, by simp, rfl⟩
  have sys : ∀ fg : List Nat, fg.Nodup → ∃ h w w', Demo (.link l) (.static { p with body := .obj 0 })
      [0] fg .ge h w ∧ w.Standard h ∧ w.process .opt env 2 1 = .ok w' := fun fg hfg => by
    obtain ⟨h, w, d⟩ := demo (.link l) (g := .static { p with body := .obj 0 }) trivial (cs := [0])
      (fg := fg) (by decide) hfg .ge
    obtain ⟨w', e⟩ := d.runs_pins hg (pins_link l) trivial (.inl (by simp)) two_ne_zero 1 env
    exact ⟨h, w, w', d, d.standard (.inl (by simp [CKind.counts])) hg, e⟩
  obtain ⟨h, w, w', d, hst, e⟩ := sys [0, 1] (by decide)
  obtain ⟨h1, v, v', d1, hst1, e1⟩ := sys [] (by decide)
  obtain ⟨h2, u, u', d2, hst2, e2⟩ := sys [0] (by decide)
  obtain ⟨h3, z, z', d3, hst3, e3⟩ := sys [1] (by decide)
  refine ⟨h, h1, h2, h3, w, w', v, v', u, u', z, z', d.hist, d1.hist, d2.hist, d3.hist, hst, hst1, hst2,
    hst3, demo_fewer d d1 (by simp), demo_fewer d d2 (by simp), demo_fewer d d3 (by simp), ?_, ?_, ?_, ?_,
    ?_, ?_, ?_, ?_, fun g _ => ?_, fun g _ => ?_, d.gens 0, d.sle, d1.sle, d2.sle, d3.sle, e, e1, e2, e3⟩
  · rw [d.regC, d1.regC]
  · rw [d.regC, d2.regC]
  · rw [d.regC, d3.regC]
  · rw [d.regC]; rfl
  · rw [d.regG, d2.regG, d3.regG]; rfl
  · rw [d2.regG]; rfl
  · rw [d3.regG]; rfl
  · rw [d1.regG]; rfl
  · rw [d2.gens, d.gens]
  · rw [d3.gens, d.gens]

end

end Scs
