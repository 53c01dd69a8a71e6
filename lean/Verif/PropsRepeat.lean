import Verif.PropsMotion

/-!
# The motion depends on the registered objects only

C60: see `PropsStep.lean` for the notions used.
-/

namespace Scs

open Finset

section
variable {w v : World ℝ}

/-- Two worlds with the same registered objects (possibly in another order), up to the indices of
the objects, and the same bias factor. -/
structure World.Alike (w v : World ℝ) : Prop where
  rb : w.rb.toFinset = v.rb.toFinset
  cs : w.cs.toFinset = v.cs.toFinset
  fg : w.fg.toFinset = v.fg.toFinset
  bodies : ∀ b ∈ w.rb, { v.bodies b with index := (w.bodies b).index } = w.bodies b
  kind : ∀ c ∈ w.cs, (v.cons c).kind = (w.cons c).kind
  rows : ∀ c ∈ w.cs, (v.cons c).rows = (w.cons c).rows
  count : ∀ c ∈ w.cs, (v.cons c).bodyCount = (w.cons c).bodyCount
  at_ : ∀ c ∈ w.cs, ∀ k, k < (w.cons c).bodyCount → (v.cons c).bodies k = (w.cons c).bodies k
  gens : ∀ g ∈ w.fg, v.gens g = w.gens g
  bias : v.bias = w.bias

namespace World.Alike
variable (a : w.Alike v)
include a

theorem memb {b : Nat} : b ∈ v.rb ↔ b ∈ w.rb := by
  rw [← List.mem_toFinset, ← List.mem_toFinset, a.rb]

theorem memc {c : Nat} : c ∈ v.cs ↔ c ∈ w.cs := by
  rw [← List.mem_toFinset, ← List.mem_toFinset, a.cs]

theorem mass {b : Nat} (hb : b ∈ w.rb) (q : Coord) : (v.bodies b).mass q = (w.bodies b).mass q := by
  rw [← a.bodies b hb]; cases q <;> rfl

theorem m {b : Nat} (hb : b ∈ w.rb) : (v.bodies b).m = (w.bodies b).m := by
  rw [← a.bodies b hb]

theorem pos {b : Nat} (hb : b ∈ w.rb) (q : Coord) : (v.bodies b).pos q = (w.bodies b).pos q := by
  rw [← a.bodies b hb]; cases q <;> rfl

theorem vel {b : Nat} (hb : b ∈ w.rb) (q : Coord) : (v.bodies b).vel q = (w.bodies b).vel q := by
  rw [← a.bodies b hb]; cases q <;> rfl

theorem bodyOf {c : Nat} (hc : c ∈ w.cs) {k : Nat} (hk : k < (w.cons c).bodyCount) :
    v.bodyOf c k = w.bodyOf c k := by
  rw [World.bodyOf, World.bodyOf, a.at_ c hc k hk]

theorem rowsOf (x : Motion) {c : Nat} (hc : c ∈ w.cs) : v.rowsOf x c = w.rowsOf x c := by
  have hq : x.q v c = x.q w c := by
    funext t
    rw [Motion.q, Motion.q, a.count c hc]
    by_cases h : t / 3 < (w.cons c).bodyCount
    · rw [if_pos h, if_pos h, a.bodyOf hc h]
    · rw [if_neg h, if_neg h]
  have hu : x.u v c = x.u w c := by
    funext t
    rw [Motion.u, Motion.u, a.count c hc]
    by_cases h : t / 3 < (w.cons c).bodyCount
    · rw [if_pos h, if_pos h, a.bodyOf hc h]
    · rw [if_neg h, if_neg h]
  rw [World.rowsOf, World.rowsOf, hq, hu, a.kind c hc]

theorem load (x : Motion) {b : Nat} (hb : b ∈ w.rb) (q : Coord) : v.load x b q = w.load x b q := by
  rw [World.load, World.load, a.fg, a.m hb]
  refine sum_congr rfl fun g hg => ?_
  rw [← a.fg, List.mem_toFinset] at hg
  rw [a.gens g hg]

theorem conForce (F : Nat → Coord → Nat → Nat → ℝ) (b : Nat) (q : Coord) :
    v.conForce F b q = w.conForce F b q := by
  rw [World.conForce, World.conForce, a.cs]
  refine sum_congr rfl fun c hc => ?_
  rw [← a.cs, List.mem_toFinset] at hc
  rw [a.rows c hc, a.count c hc]
  refine sum_congr rfl fun j _ => sum_congr rfl fun k hk => ?_
  rw [a.bodyOf hc (mem_range.mp hk)]

theorem coef (o : Nat → Output ℝ) {c : Nat} (hc : c ∈ w.cs) (j b : Nat) (q : Coord) :
    v.coef o c j b q = w.coef o c j b q := by
  rw [World.coef, World.coef, a.count c hc]
  refine sum_congr rfl fun k hk => ?_
  rw [a.bodyOf hc (mem_range.mp hk)]

theorem rowAt (o : Output ℝ) {c : Nat} (hc : c ∈ w.cs) (j : Nat) (u : Nat → Coord → ℝ) :
    v.rowAt o c j u = w.rowAt o c j u := by
  rw [World.rowAt, World.rowAt, a.count c hc]
  refine sum_congr rfl fun k hk => ?_
  rw [a.bodyOf hc (mem_range.mp hk)]

theorem coef_rows (x : Motion) {c : Nat} (hc : c ∈ w.cs) (j b : Nat) (q : Coord) :
    v.coef (v.rowsOf x) c j b q = w.coef (w.rowsOf x) c j b q := by
  rw [a.coef _ hc, World.coef, World.coef, a.rowsOf x hc]

theorem response (x : Motion) (z : Nat → Nat → ℝ) {b : Nat} (hb : b ∈ w.rb) (q : Coord) :
    v.response (v.rowsOf x) z b q = w.response (w.rowsOf x) z b q := by
  rw [World.response, World.response, a.cs, a.mass hb]
  congr 1
  refine sum_congr rfl fun c hc => ?_
  rw [← a.cs, List.mem_toFinset] at hc
  rw [a.rows c hc]
  refine sum_congr rfl fun j _ => ?_
  rw [a.coef_rows x hc]

theorem indep {x : Motion} (h : w.Indep (w.rowsOf x)) : v.Indep (v.rowsOf x) := by
  intro z hz c hc i hi
  rw [a.memc] at hc
  rw [a.rows c hc] at hi
  refine h z (fun c hc i hi => ?_) c hc i hi
  rw [← hz c (a.memc.mpr hc) i (by rw [a.rows c hc]; exact hi), a.rb]
  refine sum_congr rfl fun b hb => Coord.sum_congr fun q => ?_
  rw [← a.rb, List.mem_toFinset] at hb
  rw [a.coef_rows x hc, a.response x z hb]

theorem reaction (x : Motion) (mult : Nat → Nat → ℝ) {c : Nat} (hc : c ∈ w.cs) (q : Coord)
    (j k : Nat) : v.reaction x mult c q j k = w.reaction x mult c q j k := by
  rw [World.reaction, World.reaction, a.rowsOf x hc]

end World.Alike

theorem World.Alike.symm (a : w.Alike v) : v.Alike w where
  rb := a.rb.symm
  cs := a.cs.symm
  fg := a.fg.symm
  bodies := fun b hb => by
    rw [← a.bodies b (a.memb.mp hb)]
  kind := fun c hc => (a.kind c (a.memc.mp hc)).symm
  rows := fun c hc => (a.rows c (a.memc.mp hc)).symm
  count := fun c hc => (a.count c (a.memc.mp hc)).symm
  at_ := fun c hc k hk => by
    have hc' := a.memc.mp hc
    rw [a.count c hc'] at hk
    exact (a.at_ c hc' k hk).symm
  gens := fun g hg => by
    rw [← List.mem_toFinset, ← a.fg, List.mem_toFinset] at hg
    exact (a.gens g hg).symm
  bias := a.bias.symm

theorem World.Alike.move (a : w.Alike v) (hs : w.sle = some .ge) (hs' : v.sle = some .ge) {s : ℝ}
    {x x' : Motion} {mult : Nat → Nat → ℝ} (st : w.Move s x x' mult) : v.Move s x x' mult where
  ne := st.ne
  acc := fun b hb q => by
    rw [a.memb] at hb
    rw [st.acc b hb q, a.load x hb, a.conForce, a.mass hb]
    congr 2
    exact conForce_congr (fun c hc q j k _ _ => (a.reaction x mult hc q j k).symm) b q
  vel := fun b hb q => st.vel b (a.memb.mp hb) q
  pos := fun b hb q => st.pos b (a.memb.mp hb) q
  indep := fun _ => a.indep (st.indep hs)
  ge := fun _ c hc j hj => by
    rw [a.memc] at hc
    rw [a.rows c hc] at hj
    rw [a.rowsOf x hc, a.rowAt _ hc, a.bias]
    exact st.ge hs c hc j hj
  cg := fun m e1 e2 h => by rw [hs'] at h; cases h
  gs := fun m e h => by rw [hs'] at h; cases h

theorem rowAt_coef (p : w.Placed) {c : Nat} (hc : c ∈ w.cs) (o : Nat → Output ℝ) (j : Nat)
    (u : Nat → Coord → ℝ) : w.rowAt (o c) c j u =
      ∑ b ∈ w.rb.toFinset, Coord.sum (fun q => w.coef o c j b q * u b q) := by
  have e : ∀ b, Coord.sum (fun q => w.coef o c j b q * u b q) =
      ∑ k ∈ range (w.cons c).bodyCount, if w.bodyOf c k = b then
        Coord.sum (fun q => (o c).J j (k * 3 + q.d) * u b q) else 0 := by
    intro b
    simp only [World.coef, sum_mul]
    rw [Coord.sum_sum]
    refine sum_congr rfl fun k _ => ?_
    by_cases h : w.bodyOf c k = b
    · simp only [if_pos h]
    · simp only [if_neg h, zero_mul, Coord.sum, add_zero]
  simp only [e]
  rw [sum_comm, World.rowAt]
  refine sum_congr rfl fun k hk => ?_
  rw [sum_ite_eq, if_pos (List.mem_toFinset.mpr (p.bodies c hc k (mem_range.mp hk)).2)]

theorem conForce_coef (x : Motion) (mult : Nat → Nat → ℝ) (b : Nat) (q : Coord) :
    w.conForce (w.reaction x mult) b q = ∑ c ∈ w.cs.toFinset, ∑ j ∈ range (w.cons c).rows,
      mult c j * w.coef (w.rowsOf x) c j b q := by
  refine sum_congr rfl fun c _ => sum_congr rfl fun j _ => ?_
  rw [World.coef, mul_sum]
  refine sum_congr rfl fun k _ => ?_
  rw [mul_ite, mul_zero]
  rfl

/-- With Gaussian elimination a sub-step is determined by the motion before it. -/
theorem World.Move.unique (p : w.Placed) (hs : w.sle = some .ge) {s : ℝ} {x x' x'' : Motion}
    {μ ν : Nat → Nat → ℝ} (st : w.Move s x x' μ) (st' : w.Move s x x'' ν) :
    (∀ c ∈ w.cs, ∀ j, j < (w.cons c).rows → μ c j = ν c j) ∧ w.SameAs x' x'' := by
  have hresp : ∀ b ∈ w.rb, ∀ q : Coord, x'.vel b q - x''.vel b q =
      s * w.response (w.rowsOf x) (fun c j => μ c j - ν c j) b q := by
    intro b hb q
    rw [st.vel b hb q, st'.vel b hb q, st.acc b hb q, st'.acc b hb q, World.response,
      conForce_coef, conForce_coef]
    have : ∑ c ∈ w.cs.toFinset, ∑ j ∈ range (w.cons c).rows,
        (μ c j - ν c j) * w.coef (w.rowsOf x) c j b q =
        (∑ c ∈ w.cs.toFinset, ∑ j ∈ range (w.cons c).rows, μ c j * w.coef (w.rowsOf x) c j b q) -
        ∑ c ∈ w.cs.toFinset, ∑ j ∈ range (w.cons c).rows, ν c j * w.coef (w.rowsOf x) c j b q := by
      rw [← sum_sub_distrib]
      refine sum_congr rfl fun c _ => ?_
      rw [← sum_sub_distrib]
      exact sum_congr rfl fun j _ => sub_mul _ _ _
    rw [this]
    ring
  have hμ : ∀ c ∈ w.cs, ∀ j, j < (w.cons c).rows → μ c j = ν c j := by
    intro c hc j hj
    have h0 := st.indep hs (fun c j => μ c j - ν c j) (fun c hc i hi => ?_) c hc j hj
    · exact sub_eq_zero.mp h0
    · have e1 := st.ge hs c hc i hi
      have e2 := st'.ge hs c hc i hi
      have e3 : w.rowAt (w.rowsOf x c) c i x'.vel - w.rowAt (w.rowsOf x c) c i x''.vel = 0 := by
        linear_combination e1 - e2
      rw [rowAt_coef p hc (w.rowsOf x), rowAt_coef p hc (w.rowsOf x), ← sum_sub_distrib] at e3
      have e4 : s * ∑ b ∈ w.rb.toFinset, Coord.sum (fun q => w.coef (w.rowsOf x) c i b q *
          w.response (w.rowsOf x) (fun c j => μ c j - ν c j) b q) = 0 := by
        rw [← e3, mul_sum]
        refine sum_congr rfl fun b hb => ?_
        rw [List.mem_toFinset] at hb
        have q1 := hresp b hb .x
        have q2 := hresp b hb .y
        have q3 := hresp b hb .th
        simp only [Coord.sum]
        linear_combination -(w.coef (w.rowsOf x) c i b .x) * q1 -
          (w.coef (w.rowsOf x) c i b .y) * q2 - (w.coef (w.rowsOf x) c i b .th) * q3
      exact (mul_eq_zero.mp e4).resolve_left st.ne
  have hacc : ∀ b ∈ w.rb, ∀ q : Coord, x'.acc b q = x''.acc b q := by
    intro b hb q
    rw [st.acc b hb q, st'.acc b hb q]
    congr 2
    refine conForce_congr (fun c hc q j k hj _ => ?_) b q
    rw [World.reaction, World.reaction, hμ c hc j hj]
  have hvel : ∀ b ∈ w.rb, ∀ q : Coord, x'.vel b q = x''.vel b q := by
    intro b hb q
    rw [st.vel b hb q, st'.vel b hb q, hacc b hb q]
  exact ⟨hμ, fun b hb q => by rw [st.pos b hb q, st'.pos b hb q, hvel b hb q], hvel, hacc⟩

theorem World.SameAs.trans {x y z : Motion} (s : w.SameAs x y) (t : w.SameAs y z) : w.SameAs x z :=
  ⟨fun b hb q => (s.pos b hb q).trans (t.pos b hb q),
    fun b hb q => (s.vel b hb q).trans (t.vel b hb q),
    fun b hb q => (s.acc b hb q).trans (t.acc b hb q)⟩

theorem World.Moved.unique (p : w.Placed) (hg : w.Driven) (pv : v.Placed) (hgv : v.Driven)
    (a : w.Alike v) (hs : w.sle = some .ge) (hs' : v.sle = some .ge) {dt : ℝ} {steps : Int}
    {w' v' : World ℝ} {X Y : Nat → Motion} {μ ν : Nat → Nat → Nat → ℝ}
    (hX : w.Moved dt steps w' X μ) (hY : v.Moved dt steps v' Y ν) :
    ∀ n, n ≤ steps.toNat → w.SameAs (X n) (Y n) ∧
      ∀ i, i < n → ∀ c ∈ w.cs, ∀ j, j < (w.cons c).rows → μ i c j = ν i c j := by
  intro n
  induction n with
  | zero =>
    refine fun _ => ⟨⟨fun b hb q => ?_, fun b hb q => ?_, fun b hb q => ?_⟩, fun i hi => by omega⟩
    · rw [(hX.first b hb q).1, (hY.first b (a.memb.mpr hb) q).1, a.pos hb]
    · rw [(hX.first b hb q).2, (hY.first b (a.memb.mpr hb) q).2, a.vel hb]
    · rw [hX.still b hb q, hY.still b (a.memb.mpr hb) q]
  | succ n ih =>
    intro hn
    obtain ⟨i1, i2⟩ := ih (by omega)
    have s1 := hX.step n (by omega)
    have s2 := a.symm.move hs' hs (hY.step n (by omega))
    have s3 := s2.congr p hg i1.symm (y' := Y (n + 1)) ⟨fun _ _ _ => rfl, fun _ _ _ => rfl,
      fun _ _ _ => rfl⟩
    obtain ⟨u1, u2⟩ := s1.unique p hs s3
    refine ⟨u2, fun i hi c hc j hj => ?_⟩
    by_cases h : i = n
    · subst h; exact u1 c hc j hj
    · exact i2 i (by omega) c hc j hj

end

section
variable {G : Gen ℝ → Prop} {h h2 : List (Op ℝ)} {w w' v v' : World ℝ} {env env2 : Env ℝ} {dt : ℝ}
  {steps : Int}

/-- The histories `h` and `h2` end with the same registered objects, as a program can see them: the
same bodies, constraints and force generators are registered, and they have equal members (other than
the index, which the library manages, and what a constraint reports); the systems have the same bias
factor. -/
structure SameObjects (h : List (Op ℝ)) (w : World ℝ) (h2 : List (Op ℝ)) (v : World ℝ) : Prop where
  rb : regBodies h = regBodies h2
  cs : regCons h = regCons h2
  fg : regGens h = regGens h2
  bodies : ∀ b ∈ regBodies h, (v.bodies b).pos = (w.bodies b).pos ∧
    (v.bodies b).vel = (w.bodies b).vel ∧ (v.bodies b).m = (w.bodies b).m ∧
    (v.bodies b).I = (w.bodies b).I
  kind : ∀ c ∈ regCons h, (v.cons c).kind = (w.cons c).kind
  rows : ∀ c ∈ regCons h, (v.cons c).rows = (w.cons c).rows
  count : ∀ c ∈ regCons h, (v.cons c).bodyCount = (w.cons c).bodyCount
  at_ : ∀ c ∈ regCons h, ∀ k, k < (w.cons c).bodyCount →
    (v.cons c).bodies k = (w.cons c).bodies k
  gens : ∀ g ∈ regGens h, v.gens g = w.gens g
  bias : v.bias = w.bias

theorem SameObjects.alike {cls : Cls} (s : SameObjects h w h2 v) (hw : World.Hist G cls h w)
    (hv : World.Hist G cls h2 v) : w.Alike v where
  rb := by rw [hw.regs.rb_finset, hv.regs.rb_finset, s.rb]
  cs := by rw [hw.regs.cs_finset, hv.regs.cs_finset, s.cs]
  fg := by rw [hw.regs.fg_finset, hv.regs.fg_finset, s.fg]
  bodies := fun b hb => by
    obtain ⟨h1, h2, h3, h4⟩ := s.bodies b ((hw.regs.bodies.mem b).mp hb)
    have x1 := congrFun h1 .x; have x2 := congrFun h1 .y; have x3 := congrFun h1 .th
    have y1 := congrFun h2 .x; have y2 := congrFun h2 .y; have y3 := congrFun h2 .th
    simp only [Body.pos, Body.vel] at x1 x2 x3 y1 y2 y3
    generalize w.bodies b = B at *
    generalize v.bodies b = B' at *
    cases B; cases B'
    simp_all
  kind := fun c hc => s.kind c ((hw.regs.cons.mem c).mp hc)
  rows := fun c hc => s.rows c ((hw.regs.cons.mem c).mp hc)
  count := fun c hc => s.count c ((hw.regs.cons.mem c).mp hc)
  at_ := fun c hc => s.at_ c ((hw.regs.cons.mem c).mp hc)
  gens := fun g hg => s.gens g ((hw.regs.gens.mem g).mp hg)
  bias := s.bias

theorem SameObjects.standard (s : SameObjects h w h2 v) (hst : w.Standard h) (hnr : v.Near h2) :
    v.Standard h2 where
  kind := fun c hc => by
    rw [← s.cs] at hc
    rw [s.kind c hc, s.rows c hc, s.count c hc]
    exact hst.kind c hc
  bodies := fun c hc k hk => by
    rw [← s.cs] at hc
    rw [s.count c hc] at hk
    rw [s.at_ c hc k hk, ← s.rb]
    exact hst.bodies c hc k hk
  gens := fun g hg => by
    rw [← s.fg] at hg
    rw [s.gens g hg, ← s.rb]
    exact hst.gens g hg
  near := hnr

/-- **C60**: with Gaussian elimination the positions and velocities of all registered bodies and the
reported forces of all registered constraints after a successful call of `process` depend only on the
registered objects and the arguments: two systems of any histories with equal registered objects give
equal results, whatever order the objects were registered in and whatever the uninitialised
memory contains. -/
theorem C60_same_motion (hG : ∀ g, G g → g.OnlyForces) (hw : World.Hist G .opt h w)
    (hv : World.Hist G .opt h2 v) (hst : w.Standard h) (hnr : v.Near h2)
    (s : SameObjects h w h2 v) (hs : w.sle = some .ge) (hs' : v.sle = some .ge)
    (e : w.process .opt env dt steps = .ok w') (e2 : v.process .opt env2 dt steps = .ok v') :
    (∀ b ∈ regBodies h, (w'.bodies b).pos = (v'.bodies b).pos ∧
      (w'.bodies b).vel = (v'.bodies b).vel) ∧
    (0 < steps → ∀ c ∈ regCons h, ∀ (q : Coord) j k, j < (w.cons c).rows →
      k < (w.cons c).bodyCount → (w'.cons c).F q j k = (v'.cons c).F q j k) := by
  have a := s.alike hw hv
  have hstv := s.standard hst hnr
  have p := (hw.ready hG hst.wired).2
  have pv := (hv.ready hG hstv.wired).2
  obtain ⟨X, μ, -, hX⟩ := hw.moved hG hst e
  obtain ⟨Y, ν, -, hY⟩ := hv.moved hG hstv e2
  have key := hX.unique p (hst.driven hw.regs) pv (hstv.driven hv.regs) a hs hs' hY
  refine ⟨fun b hb => ?_, fun hpos c hc q j k hj hk => ?_⟩
  · have hb' := (hw.regs.bodies.mem b).mpr hb
    have k1 := (key _ (Nat.le_refl _)).1
    refine ⟨funext fun q => ?_, funext fun q => ?_⟩
    · rw [← (hX.last b hb' q).1, ← (hY.last b (a.memb.mpr hb') q).1, k1.pos b hb' q]
    · rw [← (hX.last b hb' q).2, ← (hY.last b (a.memb.mpr hb') q).2, k1.vel b hb' q]
  · have hc' := (hw.regs.cons.mem c).mpr hc
    obtain ⟨n, hn⟩ : ∃ n, steps.toNat = n + 1 := ⟨steps.toNat - 1, by omega⟩
    obtain ⟨k1, k2⟩ := key _ (Nat.le_refl _)
    have kn := (key n (by omega)).1
    rw [hX.forces n hn c hc' q j k hj hk, hY.forces n hn c (a.memc.mpr hc') q j k
      (by rw [a.rows c hc']; exact hj) (by rw [a.count c hc']; exact hk), a.reaction _ _ hc',
      ← reaction_congr p kn _ hc', World.reaction, World.reaction, k2 n (by omega) c hc' j hj]

/-- Two demonstration systems with the same constraint are the same objects. -/
theorem Demo.same {K : CKind ℝ} {g : Gen ℝ} {cs fg : List Nat} {sv sv' : Solver ℝ}
    (d : Demo K g cs fg sv h w) (d' : Demo K g cs fg sv' h2 v) : SameObjects h w h2 v where
  rb := by rw [d.regB, d'.regB]
  cs := by rw [d.regC, d'.regC]
  fg := by rw [d.regG, d'.regG]
  bodies := fun b _ => ⟨by funext q; rw [d.pos, d'.pos], by funext q; rw [d.vel, d'.vel],
    by rw [d.m, d'.m], by rw [d.I, d'.I]⟩
  kind := fun c _ => by rw [d.kind, d'.kind]
  rows := fun c _ => by rw [d.rows, d'.rows]
  count := fun c _ => by rw [d.count, d'.count]
  at_ := fun c _ k _ => by rw [d.bodies, d'.bodies]
  gens := fun g _ => by rw [d.gens, d'.gens]
  bias := by rw [d.bias, d'.bias]

/-- The claims applied: two bodies with a gear, registered in different orders in systems with
different contents of uninitialised memory, move alike. -/
example (env env2 : Env ℝ) (j j' : Nat → Nat → ℝ) (k k' : Nat → Nat → Nat) :
    ∃ (h h2 : List (Op ℝ)) (w w' v v' : World ℝ), World.Hist Gen.Shipped .opt h w ∧
      World.Hist Gen.Shipped .opt h2 v ∧ w.rb = [0, 1] ∧ v.rb = [1, 0] ∧
      w.mem = Store.fresh j k ∧ v.mem = Store.fresh j' k' ∧ w.process .opt env 2 4 = .ok w' ∧
      v.process .opt env2 2 4 = .ok v' ∧ (w'.bodies 0).pos = (v'.bodies 0).pos := by
  obtain ⟨h, w, d, hr, hm⟩ := demo_any (.simpleGear ⟨3, false, 0, 0⟩) (g := .gravity 9) trivial
    (cs := [0]) (fg := [0]) (by decide) (by decide) .ge (.inl rfl) j k
  obtain ⟨h2, v, d', hr', hm'⟩ := demo_any (.simpleGear ⟨3, false, 0, 0⟩) (g := .gravity 9) trivial
    (cs := [0]) (fg := [0]) (by decide) (by decide) .ge (.inr rfl) j' k'
  obtain ⟨w', e⟩ := d.runs trivial (turns_gear _) trivial (two_ne_zero (α := ℝ)) 4 env
  obtain ⟨v', e'⟩ := d'.runs trivial (turns_gear _) trivial (two_ne_zero (α := ℝ)) 4 env2
  exact ⟨h, h2, w, w', v, v', d.hist, d'.hist, hr, hr', hm, hm', e, e', ((C60_same_motion
    (fun g => Gen.tame) d.hist d'.hist (d.standard (.inl (by simp [CKind.counts])) trivial)
    (d'.standard (.inl (by simp [CKind.counts])) trivial).near (d.same d') d.sle d'.sle e e').1 0 d.bodies_mem.1).1⟩

/-- **C60**: when there is at least one constraint, whether `process` succeeds depends only on the
registered objects and the arguments as well. -/
theorem C60_same_success_partial (hG : ∀ g, G g → g.OnlyForces) (hw : World.Hist G .opt h w)
    (hv : World.Hist G .opt h2 v) (hst : w.Standard h) (hnr : v.Near h2)
    (s : SameObjects h w h2 v) (hs : w.sle = some .ge) (hs' : v.sle = some .ge) (hne : regCons h ≠ ∅) (hpos : 0 < steps)
    (e : w.process .opt env dt steps = .ok w') (env2 : Env ℝ) :
    ∃ v', v.process .opt env2 dt steps = .ok v' := by
  have a := s.alike hw hv
  have hstv := s.standard hst hnr
  have p := (hw.ready hG hst.wired).2
  have pv := (hv.ready hG hstv.wired).2
  obtain ⟨X, μ, -, hX⟩ := hw.moved hG hst e
  have hdt : dt ≠ 0 := fun h0 => (hX.step 0 (by omega)).ne (by rw [h0, zero_div])
  refine World.Hist.goes hG hv hstv (fun b hb q => ?_) hdt (by rw [hs']; simp)
    (fun j y => w.SameAs (X j) y) (fun y hy ha => ⟨fun b hb q => ?_, fun b hb q => ?_,
      fun b hb q => ?_⟩) (fun j hj y y' ν hy st => ?_) (fun j hj y hy _ => ?_)
    (fun h0 => ?_) env2
  · rw [a.memb] at hb
    rw [a.mass hb]
    exact hX.mass b hb q
  · rw [(hX.first b hb q).1, (hy b (a.memb.mpr hb) q).1, a.pos hb]
  · rw [(hX.first b hb q).2, (hy b (a.memb.mpr hb) q).2, a.vel hb]
  · rw [hX.still b hb q, ha b (a.memb.mpr hb) q]
  · have s1 := hX.step j hj
    have s2 := a.symm.move hs' hs st
    have s3 := s2.congr p (hst.driven hw.regs) hy.symm (y' := y') ⟨fun _ _ _ => rfl,
      fun _ _ _ => rfl, fun _ _ _ => rfl⟩
    exact (s1.unique p hs s3).2
  · simp only [World.Solvable, hs']
    exact a.indep ((sameRows_congr p hy).indep ((hX.step j hj).indep hs))
  · rw [hv.regs.cs_nil, ← s.cs] at h0
    exact absurd h0 hne

/-- The hypotheses can be met. -/
example (env : Env ℝ) (j j' : Nat → Nat → ℝ) (k k' : Nat → Nat → Nat) :
    ∃ (h h2 : List (Op ℝ)) (w w' v : World ℝ), World.Hist Gen.Shipped .opt h w ∧
      World.Hist Gen.Shipped .opt h2 v ∧ w.Standard h ∧ SameObjects h w h2 v ∧ w.rb = [0, 1] ∧
      v.rb = [1, 0] ∧ w.mem = Store.fresh j k ∧ v.mem = Store.fresh j' k' ∧ w.sle = some .ge ∧
      v.sle = some .ge ∧ regCons h ≠ ∅ ∧ w.process .opt env 2 4 = .ok w' := by
  obtain ⟨h, w, d, hr, hm⟩ := demo_any (.simpleGear ⟨3, false, 0, 0⟩) (g := .gravity 9) trivial
    (cs := [0]) (fg := [0]) (by decide) (by decide) .ge (.inl rfl) j k
  obtain ⟨h2, v, d', hr', hm'⟩ := demo_any (.simpleGear ⟨3, false, 0, 0⟩) (g := .gravity 9) trivial
    (cs := [0]) (fg := [0]) (by decide) (by decide) .ge (.inr rfl) j' k'
  obtain ⟨w', e⟩ := d.runs trivial (turns_gear _) trivial (two_ne_zero (α := ℝ)) 4 env
  exact ⟨h, h2, w, w', v, d.hist, d'.hist, d.standard (.inl (by simp [CKind.counts])) trivial,
    d.same d', hr, hr', hm, hm', d.sle, d'.sle, ne_empty_of_mem (d.mem0 rfl), e⟩

/-- **C60** does not hold for systems without constraints: there are two systems with the same
registered objects and the same solver of which one can be processed and the other cannot, because
an earlier frame of the latter had a constraint. -/
theorem C60_stale_failure (env env2 env3 : Env ℝ) :
    ∃ (h h2 : List (Op ℝ)) (w v v' : World ℝ), World.Hist Gen.Shipped .opt h w ∧
      World.Hist Gen.Shipped .opt h2 v ∧ w.Standard h ∧ SameObjects h w h2 v ∧
      regBodies h = {0, 1} ∧ w.sle = some .ge ∧ v.sle = some .ge ∧
      v.process .opt env 2 4 = .ok v' ∧ ∀ w', w.process .opt env2 2 4 ≠ .ok w' := by
  obtain ⟨h, w, w', d, hst, e⟩ := demo_turns (turns_clutch ⟨-1, 1, 0, 0⟩) (g := .gravity 9)
    trivial trivial (sv := .ge) trivial (two_ne_zero) 4 env3
  obtain ⟨w2, q, hb, hst2, hc, hs, hg, hbias, hm⟩ := d.remove trivial e
  have hw' : World.Hist Gen.Shipped .opt (.process env3 2 4 :: h) w' :=
    d.hist.step (.process env3 2 4) trivial e
  have hgr : regGens (.removeCon 0 :: .process env3 2 4 :: h) = {0} := d.regG
  have hbr : regBodies (.removeCon 0 :: .process env3 2 4 :: h) = {0, 1} := d.regB
  obtain ⟨h2, v, b1, b2, b3, b4, b5, b6, b7, b8⟩ := build (G := Gen.Shipped) w2.bodies w2.cons
    (gens := fun _ => .gravity 9) (fun _ => trivial) (rb := [0, 1]) (cs := []) (fg := [0])
    (by decide) (by decide) (by decide) (some .ge) (fun _ _ => 0) (fun _ _ => 0)
  have hbody : ∀ b, { v.bodies b with index := (w2.bodies b).index } = w2.bodies b := b2.bodies
  have hmass : ∀ b, (v.bodies b).m = (w2.bodies b).m ∧ (v.bodies b).I = (w2.bodies b).I :=
    fun b => by
      have e1 := congrArg (fun x : Body ℝ => x.m) (hbody b)
      have e2 := congrArg (fun x : Body ℝ => x.I) (hbody b)
      exact ⟨e1, e2⟩
  have so : SameObjects (.removeCon 0 :: .process env3 2 4 :: h) w2 h2 v := {
    rb := by rw [hbr, b3]; rfl
    cs := by rw [hc, b4]; rfl
    fg := by rw [hgr, b5]; rfl
    bodies := fun b _ => by
      have e1 := fun q : Coord => congrArg (fun x : Body ℝ => x.pos q) (hbody b)
      have e2 := fun q : Coord => congrArg (fun x : Body ℝ => x.vel q) (hbody b)
      refine ⟨funext fun q => ?_, funext fun q => ?_, (hmass b).1, (hmass b).2⟩
      · have := e1 q
        cases q <;> exact this
      · have := e2 q
        cases q <;> exact this
    kind := fun c hcm => by rw [hc] at hcm; simp at hcm
    rows := fun c hcm => by rw [hc] at hcm; simp at hcm
    count := fun c hcm => by rw [hc] at hcm; simp at hcm
    at_ := fun c hcm => by rw [hc] at hcm; simp at hcm
    gens := fun i _ => by rw [b2.gens, hg, d.gens]
    bias := by
      rw [b2.bias, hbias, d.bias, fp_lit]
      norm_num }
  obtain ⟨v', e'⟩ := C59_ge_succeeds (fun g => Gen.tame) b1 (so.standard hst2 fun c hcm => by rw [b4] at hcm; simp at hcm) (by rw [b4]; rfl)
    (fun b hbm => by
      rw [(hmass b).1, (hmass b).2]
      exact hm b (by rw [so.rb]; exact hbm)) (two_ne_zero (α := ℝ)) b7 b8 env (steps := 4)
  exact ⟨_, h2, w2, v, v', q.hist hw', b1, hst2, so, hbr, hs, b7, e', fun w3 => C57_gaussian_fails
    (fun g => Gen.tame) d.hist hst.wired (ne_empty_of_mem (d.mem0 rfl)) (by norm_num) d.sle e q
    hst2.wired hc hs (by norm_num)⟩

end

end Scs
