import Verif.PropsStep

/-!
# Systems with many bodies

C73. The sparse Jacobian stores the index of a body in one byte, and 255 stands for "no body"
(include/sparse_matrix.h:52-60, 105-113). `World.Standard` therefore asks that the bodies that carry
constraints are among the first 255 of the system; the number of bodies is not limited.
-/

namespace Scs

open Finset

section
variable {G : Gen ℝ → Prop} {h : List (Op ℝ)} {w w' : World ℝ} {env : Env ℝ} {dt : ℝ} {steps : Int}

theorem World.Hist.ran (hG : ∀ g, G g → g.OnlyForces) (hw : World.Hist G .opt h w)
    (hwd : w.Wired h) (e : w.process .opt env dt steps = .ok w') :
    ∃ S, w.OptRun (fun c k => w.at (w.bodyOf c k)) dt steps w' S := by
  have := optProcess_spec (hw.ready hG hwd).1 (env := env) (dt := dt) (steps := steps)
    (P := fun _ _ => True) (E := anyErr) (Or.inl fun _ => trivial)
  rw [show w.optProcess env dt steps = .ok w' from e] at this
  exact this

/-- A row of which no body is stored. -/
theorem jb_lost (p : w.Placed) (hfit : w.Fit (fun c k => w.at (w.bodyOf c k))) {c : Nat}
    (hc : c ∈ w.cs) {j : Nat} (hj : j < (w.cons c).rows)
    (hb : ∀ k, k < (w.cons c).bodyCount → w.at (w.bodyOf c k) % 256 = 255) (out : Nat → Output ℝ)
    (q : Coord) (i : Nat) :
    w.jb (fun c k => w.at (w.bodyOf c k)) out (w.off (w.conAt c) + j) q i = 0 := by
  obtain ⟨_, _, _, r4⟩ := row_of p hfit hc hj
  refine sum_eq_zero fun k hk => if_neg fun hh => hh.1 ?_
  rw [r4]
  rw [World.rowN, r4] at hk
  exact hb k (mem_range.mp hk)

/-- C73 fails: a constraint all of whose bodies have an index of 255 modulo 256 (for a constraint on
one body: the 256th body of the system) makes every call of `process` with Gaussian elimination
fail, whatever the constraint, the bodies and `dt`. -/
theorem C73_lost_body_violates (hG : ∀ g, G g → g.OnlyForces) (hw : World.Hist G .opt h w)
    (hwd : w.Wired h) (hsle : w.sle = some .ge) (hs : 0 < steps) {c : Nat} (hc : c ∈ regCons h)
    (hb : ∀ k, k < (w.cons c).bodyCount → ∃ b, (w.cons c).bodies k = .obj b ∧
      (w.bodies b).index % 256 = 255) : w.process .opt env dt steps ≠ .ok w' := by
  intro e
  obtain ⟨hr, p⟩ := hw.ready hG hwd
  obtain ⟨S, r⟩ := hw.ran hG hwd e
  obtain ⟨s1, out, lam, st⟩ := r.trace 0 (by omega)
  have hc' := (hw.regs.cons.mem c).mpr hc
  have hb' : ∀ k, k < (w.cons c).bodyCount → w.at (w.bodyOf c k) % 256 = 255 := by
    intro k hk
    obtain ⟨b, e1, e2⟩ := hb k hk
    obtain ⟨e3, hm⟩ := p.bodies c hc' k hk
    rw [e1] at e3
    cases e3
    rw [p.index _ hm] at e2
    exact_mod_cast e2
  obtain ⟨r1, _⟩ := row_of p hr.fit hc' (hwd.rows c hc).1
  obtain ⟨sv, h1, h2⟩ := st.solved
  rw [hsle] at h1
  cases h1
  obtain ⟨hreg, _⟩ := h2 (by omega)
  have := hreg (fun f => if f = w.off (w.conAt c) + 0 then 1 else 0) (fun f _ => by
    refine sum_eq_zero fun g _ => ?_
    beta_reduce
    split
    · rename_i hg
      rw [hg, World.sysM]
      refine mul_eq_zero_of_left (sum_eq_zero fun i _ => ?_) _
      simp only [jb_lost p hr.fit hc' (hwd.rows c hc).1 hb' out, mul_zero, Coord.sum]
      norm_num
    · rw [mul_zero]) _ r1
  simp at this

/-- The rows of a single constraint. -/
theorem single_row (p : w.Placed) (hfit : w.Fit (fun c k => w.at (w.bodyOf c k))) {c : Nat}
    (hcs : w.cs = [c]) (h1 : (w.cons c).rows = 1) :
    w.fullCount = 1 ∧ w.rowI 0 = 0 ∧ w.rowK 0 = 0 ∧ w.rowC 0 = c ∧ w.conAt c = 0 := by
  have hc : c ∈ w.cs := by rw [hcs]; simp
  have h0 : w.conAt c = 0 := by rw [World.conAt, hcs]; simp
  obtain ⟨_, r2, r3, r4⟩ := row_of p hfit hc (j := 0) (by omega)
  rw [h0, off_zero] at r2 r3 r4
  refine ⟨?_, r2, r3, r4, h0⟩
  rw [World.fullCount, hcs]
  simp [h1]

/-- The row of a constraint on one body. -/
theorem jb_single (p : w.Placed) (hfit : w.Fit (fun c k => w.at (w.bodyOf c k))) {c : Nat}
    (hcs : w.cs = [c]) (h1 : (w.cons c).rows = 1) (h2 : (w.cons c).bodyCount = 1)
    (hne : w.at (w.bodyOf c 0) % 256 ≠ 255) (out : Nat → Output ℝ) (q : Coord) (i : Nat) :
    w.jb (fun c k => w.at (w.bodyOf c k)) out 0 q i =
      if i = w.at (w.bodyOf c 0) % 256 then (out 0).J 0 q.d else 0 := by
  obtain ⟨_, r2, r3, r4, _⟩ := single_row p hfit hcs h1
  rw [World.jb, World.rowN, r2, r3, r4, h2, sum_range_one, Nat.zero_mul, Nat.zero_add]
  by_cases hi : i = w.at (w.bodyOf c 0) % 256
  · rw [if_pos hi, if_pos ⟨hne, hi⟩]
  · rw [if_neg hi, if_neg fun hh => hi hh.2]

/-- The equation of a constraint on the angle of one body. -/
theorem sysM_single (p : w.Placed) (hfit : w.Fit (fun c k => w.at (w.bodyOf c k))) {c b0 : Nat}
    (hcs : w.cs = [c]) (h1 : (w.cons c).rows = 1) (h2 : (w.cons c).bodyCount = 1)
    (hne : w.at (w.bodyOf c 0) % 256 ≠ 255) (hb0 : b0 ∈ w.rb)
    (hat : w.at b0 = w.at (w.bodyOf c 0) % 256) {out : Nat → Output ℝ} (J0 : (out 0).J 0 0 = 0)
    (J1 : (out 0).J 0 1 = 0) (J2 : (out 0).J 0 2 = 1) :
    w.sysM (fun c k => w.at (w.bodyOf c k)) out 0 0 = 1 / (w.bodies b0).I := by
  have hj := jb_single p hfit hcs h1 h2 hne out
  rw [← hat] at hj
  rw [World.sysM, sum_eq_single (w.at b0)]
  · simp only [hj, if_true, Coord.sum, Coord.d, J0, J1, J2, World.massAt, p.rbAt b0 hb0]
    simp [Body.mass]
  · intro i _ hi
    simp [hj, if_neg hi, Coord.sum]
  · exact fun hn => absurd (mem_range.mpr (p.lt b0 hb0)) hn

/-- What the code does with a `FixedRotationConstraint` on body `b`, the only constraint of a system
without force generators: the change of angular momentum of `b` is the one that would give body `b0`,
whose index is that of `b` modulo 256, the desired angular velocity. -/
theorem C73_index_wraps (hG : ∀ g, G g → g.OnlyForces) (hw : World.Hist G .opt h w)
    (hwd : w.Wired h) (hsle : w.sle = some .ge) (hg : regGens h = ∅) {c b b0 : Nat}
    (hc : regCons h = {c}) {l : FixedRotation ℝ} (hk : (w.cons c).kind = .fixedRotation l)
    (h1 : (w.cons c).rows = 1) (h2 : (w.cons c).bodyCount = 1) (h3 : (w.cons c).bodies 0 = .obj b)
    (hne : (w.bodies b).index % 256 ≠ 255) (hb0 : b0 ∈ regBodies h)
    (hi0 : (w.bodies b0).index = (w.bodies b).index % 256)
    (e : w.process .opt env dt 1 = .ok w') :
    (w.bodies b).I * ((w'.bodies b).v_theta - (w.bodies b).v_theta) =
      -(w.bodies b0).I * ((w.bodies b0).v_theta +
        w.bias / dt * ((w.bodies b).theta - l.rotation)) := by
  obtain ⟨hr, p⟩ := hw.ready hG hwd
  obtain ⟨S, r⟩ := hw.ran hG hwd e
  obtain ⟨s1, out, lam, st⟩ := r.trace 0 (by decide)
  have hcs : w.cs = [c] := by
    have h1 := hw.regs.cs_finset
    have h2 := hw.regs.cons.length
    rw [hc] at h1 h2
    obtain ⟨x, hx⟩ := List.length_eq_one_iff.mp h2
    rw [hx] at h1 ⊢
    simpa using h1
  have hfg : w.fg = [] := by
    rw [← List.toFinset_eq_empty_iff, hw.regs.fg_finset, hg]
  have hcm : c ∈ w.cs := by rw [hcs]; simp
  obtain ⟨f1, f2, f3, f4, f5⟩ := single_row p hr.fit hcs h1
  have hof : w.bodyOf c 0 = b := by rw [World.bodyOf, h3]
  have hbm : b ∈ w.rb := hof ▸ (p.bodies c hcm 0 (by omega)).2
  have hb0m := (hw.regs.bodies.mem b0).mpr hb0
  have hne' : w.at (w.bodyOf c 0) % 256 ≠ 255 := by
    rw [hof]
    rw [p.index _ hbm] at hne
    exact_mod_cast hne
  have hat : w.at b0 = w.at (w.bodyOf c 0) % 256 := by
    rw [hof]
    rw [p.index _ hbm, p.index _ hb0m] at hi0
    exact_mod_cast hi0
  have sub := st.obj p hr.fit (r.start.wf) r.start.n fun b hb => by
    rw [r.start.mass _ (p.lt b hb), p.rbAt b hb]
  have hdr : w.Driven := ⟨by rw [hfg]; simp, fun g hg => by rw [hfg] at hg; simp at hg⟩
  have hpr : w.Proper := fun c' hc' => by
    rw [hcs, List.mem_singleton] at hc'
    subst hc'
    rw [hk, h1, h2]
    rfl
  have has := sub.has p hpr hcm
  rw [f5, hk, h1, h2] at has
  have hf : ∀ b ∈ w.rb, ∀ q : Coord, s1.val q.f (w.at b) = 0 := fun b hb q => by
    rw [sub.load p hdr hb, World.load, hfg]
    rfl
  have J0 : (out 0).J 0 0 = 0 := has.J 0 0 (by omega) (by omega)
  have J1 : (out 0).J 0 1 = 0 := has.J 0 1 (by omega) (by omega)
  have J2 : (out 0).J 0 2 = 1 := has.J 0 2 (by omega) (by omega)
  have hC : (out 0).C 0 = (w.bodies b).theta - l.rotation := by
    rw [has.C 0 (by omega)]
    have hp := r.start.pos .th _ (p.lt b hbm)
    rw [p.rbAt b hbm] at hp
    show Motion.q _ w c 2 - _ = _
    rw [Motion.q, if_pos (by omega), hof]
    exact congrArg (· - l.rotation) hp
  have hB : (out 0).v_bias 0 = 0 := has.bias 0 (by omega)
  have hj := jb_single p hr.fit hcs h1 h2 hne' out
  rw [← hat] at hj
  have hlt := p.lt b0 hb0m
  have hv : ∀ b ∈ w.rb, ∀ q : Coord, (S 0).val q.v (w.at b) = (w.bodies b).vel q := fun b hb q => by
    rw [r.start.vel q _ (p.lt b hb), p.rbAt b hb]
  have hM := sysM_single p hr.fit hcs h1 h2 hne' hb0m hat J0 J1 J2
  have hR : w.optRhs (fun c k => w.at (w.bodyOf c k)) out (dt / (1 : Int)) s1 0 =
      -((w.bodies b0).v_theta + w.bias / dt * ((w.bodies b).theta - l.rotation)) := by
    have h5 : s1.val .v_theta (w.at b0) = (w.bodies b0).v_theta :=
      (st.writes.keep (vel_not_force .th) _).trans (hv b0 hb0m .th)
    have h6 : s1.val .t (w.at b0) = 0 := hf b0 hb0m .th
    rw [World.optRhs, f2, f3, hB, hC, World.rowV, sum_eq_single (w.at b0)]
    · simp only [hj, if_true, Coord.sum, Coord.d, J0, J1, J2]
      simp [Coord.v, Coord.f, h5, h6]
    · intro i _ hi
      simp [hj, if_neg hi, Coord.sum]
    · exact fun hn => absurd (mem_range.mpr hlt) hn
  obtain ⟨sv, g1, g2⟩ := st.solved
  rw [hsle] at g1
  cases g1
  obtain ⟨hreg, hsol⟩ := g2 (by omega)
  rw [f1] at hsol
  have hl := hsol 0 (by omega)
  rw [sum_range_one, hM, hR] at hl
  have hI0 : (w.bodies b0).I ≠ 0 := by
    have := r.mass _ hlt .th
    rw [World.massAt, p.rbAt b0 hb0m] at this
    exact this
  have hI : (w.bodies b).I ≠ 0 := by
    have := r.mass _ (p.lt b hbm) .th
    rw [World.massAt, p.rbAt b hbm] at this
    exact this
  have hdt := st.ne
  have hre := st.react .th 0 0 (by omega) (by rw [World.rowN, f4, h2]; exact one_pos)
    (by rw [f4]; exact hne')
  have hvel := st.vel .th _ (p.lt b hbm)
  rw [hf b hbm .th, hv b hbm .th, World.massAt, p.rbAt b hbm, World.reactSum, f1, sum_range_one,
    World.rowN, f4, h2, sum_range_one, if_pos (by rw [hof])] at hvel
  have hst := (r.stored.body _ (p.lt b hbm) .th).2
  rw [p.rbAt b hbm] at hst
  rw [f2, f3] at hre
  have hre' : (S (0 + 1)).rval .r_t (0 * 2 + 0) = lam 0 / (dt / (1 : Int)) * 1 := by
    rw [← J2]; exact hre
  have hst' : (w'.bodies b).v_theta = (S (0 + 1)).val .v_theta (w.at b) := hst
  have hvel' : (S (0 + 1)).val .v_theta (w.at b) = (w.bodies b).v_theta +
      dt / (1 : Int) * ((0 + (S (0 + 1)).rval .r_t (0 * 2 + 0)) / (w.bodies b).I) := hvel
  rw [hre'] at hvel'
  rw [hst', hvel']
  have : lam 0 = (w.bodies b0).I *
      -((w.bodies b0).v_theta + w.bias / dt * ((w.bodies b).theta - l.rotation)) := by
    rw [← hl]
    field_simp
  rw [this]
  have hd : dt ≠ 0 := fun h0 => hdt (by rw [h0, zero_div])
  push_cast
  field_simp
  ring

/-- The bodies of a system of which only body `t` turns. -/
noncomputable def manyBody (t : Nat) (ω : ℝ) (b : Nat) : Body ℝ :=
  ⟨b, 0, 0, 0, 0, if b = t then ω else 0, 1, 1, -1⟩

/-- A constraint on body `b`. -/
noncomputable def manyCon (b : Nat) (_ : Nat) : Con ℝ where
  kind := .fixedRotation ⟨0, 0, 0⟩
  index := -1
  bodyCount := 1
  bodies := fun _ => .obj b
  F_x := fun _ _ => 0
  F_y := fun _ _ => 0
  F_t := fun _ _ => 0
  rows := 1

/-- A system of `n` bodies with a constraint on body `b`, the only one that turns. -/
structure Many (ω : ℝ) (n b : Nat) (h : List (Op ℝ)) (w : World ℝ) : Prop where
  hist : World.Hist Gen.Shipped .opt h w
  sle : w.sle = some .ge
  regB : regBodies h = range n
  regC : regCons h = {0}
  regG : regGens h = ∅
  cs : w.cs = [0]
  fg : w.fg = []
  body : ∀ i, { w.bodies i with index := -1 } = manyBody b ω i
  con : ∀ c, { w.cons c with index := -1 } = manyCon b c
  idx : ∀ b, b < n → (w.bodies b).index = b

theorem many (ω : ℝ) (n b : Nat) : ∃ h w, Many ω n b h w := by
  obtain ⟨h, w, h1, h2, h3, h4, h5, h6, h7, h8⟩ := build (G := Gen.Shipped) (manyBody b ω) (manyCon b)
    (gens := fun _ => .gravity 9) (fun _ => trivial) (rb := List.range n) (cs := [0]) (fg := [])
    List.nodup_range (by simp) (by simp) (some .ge) (fun _ _ => 0) (fun _ _ => 0)
  refine ⟨h, w, h1, h7, ?_, by rw [h4]; rfl, by rw [h5]; rfl, h2.cs, h2.fg, h2.bodies, h2.cons, ?_⟩
  · rw [h3]
    ext i
    simp
  · intro i hi
    have := h1.regs.bodies.pos i (by rw [h2.rb]; simpa using hi)
    simp only [h2.rb, List.getElem_range] at this
    exact Option.some.inj this

namespace Many
variable {ω : ℝ} {n b : Nat} (d : Many ω n b h w)
include d

theorem wired (hb : b < n) : w.Wired h where
  rows := fun c _ => by
    have : (w.cons c).rows = 1 := congrArg Con.rows (d.con c)
    omega
  two := fun c _ => by
    have : (w.cons c).bodyCount = 1 := congrArg Con.bodyCount (d.con c)
    omega
  bodies := fun c _ k _ => ⟨b, by rw [d.regB]; simpa using hb,
    congrFun (congrArg Con.bodies (d.con c)) k⟩

theorem proper : w.Proper := fun c _ => by
  have h1 : (w.cons c).kind = .fixedRotation ⟨0, 0, 0⟩ := congrArg Con.kind (d.con c)
  have h2 : (w.cons c).rows = 1 := congrArg Con.rows (d.con c)
  have h3 : (w.cons c).bodyCount = 1 := congrArg Con.bodyCount (d.con c)
  rw [h1, h2, h3]
  rfl

theorem runs (hb : b < n) (hne : b % 256 ≠ 255) (hdt : dt ≠ 0) (env : Env ℝ) :
    ∃ w', w.process .opt env dt 1 = .ok w' := by
  have hG : ∀ g : Gen ℝ, g.Shipped → g.OnlyForces := fun g => Gen.tame
  obtain ⟨hr, p⟩ := d.hist.ready hG (d.wired hb)
  have h1 : (w.cons 0).rows = 1 := congrArg Con.rows (d.con 0)
  have h2 : (w.cons 0).bodyCount = 1 := congrArg Con.bodyCount (d.con 0)
  have h3 : (w.cons 0).bodies 0 = .obj b := congrFun (congrArg Con.bodies (d.con 0)) 0
  have hk : (w.cons 0).kind = .fixedRotation ⟨0, 0, 0⟩ := congrArg Con.kind (d.con 0)
  have hof : w.bodyOf 0 0 = b := by rw [World.bodyOf, h3]
  have hat : ∀ i, i < n → w.at i = i := fun i hi => by rw [World.at, d.idx i hi]; rfl
  have hm : ∀ i, i ∈ w.rb ↔ i < n := fun i => by
    rw [d.hist.regs.bodies.mem, d.regB, mem_range]
  have hI : ∀ i, (w.bodies i).I = 1 := fun i => congrArg Body.I (d.body i)
  have hM : ∀ i, (w.bodies i).m = 1 := fun i => congrArg Body.m (d.body i)
  have hb0 : b % 256 < n := lt_of_le_of_lt (Nat.mod_le _ _) hb
  refine d.hist.goes_any hG (d.wired hb) d.proper ⟨by rw [d.fg]; simp, by rw [d.fg]; simp⟩ ?_ hdt
    (by rw [d.sle]; simp) (fun _ _ => True) (fun _ _ => trivial) (fun _ _ _ _ _ _ _ _ _ _ _ _ => trivial)
    ?_ (by rw [d.cs]; simp) env
  · intro i _ q
    cases q
    · exact (hM i).trans_ne one_ne_zero
    · exact (hM i).trans_ne one_ne_zero
    · exact (hI i).trans_ne one_ne_zero
  · intro j _ s _ _ sv out hsv ho
    rw [d.sle] at hsv
    cases hsv
    obtain ⟨f1, f2, f3, f4, f5⟩ := single_row p hr.fit d.cs h1
    have hc : 0 ∈ w.cs := by rw [d.cs]; simp
    have hJ := ho.J 0 hc 0 (by omega) 0 (by omega)
    rw [f5] at hJ
    have e := sysM_single p hr.fit d.cs h1 h2 (by rw [hof, hat b hb]; exact hne)
      ((hm _).mpr hb0) (by rw [hof, hat b hb, hat _ hb0]) (out := out)
      ((hJ .x).trans (by rw [World.rowsOf, hk]; rfl)) ((hJ .y).trans (by rw [World.rowsOf, hk]; rfl))
      ((hJ .th).trans (by rw [World.rowsOf, hk]; rfl))
    rw [hI] at e
    refine fun _ _ _ => show Regular _ _ from ?_
    rw [f1]
    intro x hx i hi
    have := hx 0 (by omega)
    rw [sum_range_one, e] at this
    have hi : i = 0 := by omega
    rw [hi]
    simpa using this

end Many

/-- **C73** fails: a body with index 256, turning with any angular velocity `ω`, that a
`FixedRotationConstraint` should hold at its angle keeps turning, although `process` reports success
with Gaussian elimination; the other 256 bodies are at rest, nothing else acts and all masses are 1. -/
theorem C73_wrong_body_violates (ω : ℝ) (hdt : dt ≠ 0) (env : Env ℝ) :
    ∃ (h : List (Op ℝ)) (w w' : World ℝ), World.Hist Gen.Shipped .opt h w ∧ w.sle = some .ge ∧
      regBodies h = range 257 ∧ regCons h = {0} ∧ regGens h = ∅ ∧
      (w.cons 0).kind = .fixedRotation ⟨0, 0, 0⟩ ∧ (w.cons 0).rows = 1 ∧
      (w.cons 0).bodyCount = 1 ∧ (w.cons 0).bodies 0 = .obj 256 ∧
      (∀ b, (w.bodies b).m = 1 ∧ (w.bodies b).I = 1 ∧ (w.bodies b).theta = 0 ∧
        (w.bodies b).v_theta = if b = 256 then ω else 0) ∧
      w.process .opt env dt 1 = .ok w' ∧ (w'.bodies 256).v_theta = ω := by
  obtain ⟨h, w, d⟩ := many ω 257 256
  have hG : ∀ g : Gen ℝ, g.Shipped → g.OnlyForces := fun g => Gen.tame
  obtain ⟨w', e⟩ := d.runs (by omega) (by omega) hdt env
  have h1 : (w.cons 0).rows = 1 := congrArg Con.rows (d.con 0)
  have h2 : (w.cons 0).bodyCount = 1 := congrArg Con.bodyCount (d.con 0)
  have h3 : (w.cons 0).bodies 0 = .obj 256 := congrFun (congrArg Con.bodies (d.con 0)) 0
  have hk : (w.cons 0).kind = .fixedRotation ⟨0, 0, 0⟩ := congrArg Con.kind (d.con 0)
  have hb : ∀ b, (w.bodies b).m = 1 ∧ (w.bodies b).I = 1 ∧ (w.bodies b).theta = 0 ∧
        (w.bodies b).v_theta = if b = 256 then ω else 0 := fun b =>
    ⟨congrArg Body.m (d.body b), congrArg Body.I (d.body b), congrArg Body.theta (d.body b),
      congrArg Body.v_theta (d.body b)⟩
  refine ⟨h, w, w', d.hist, d.sle, d.regB, d.regC, d.regG, hk, h1, h2, h3, hb, e, ?_⟩
  have := C73_index_wraps hG d.hist (d.wired (by omega)) d.sle d.regG d.regC hk h1 h2 h3
    (b0 := 0) (by rw [d.idx 256 (by omega)]; decide) (by rw [d.regB]; simp)
    (by rw [d.idx 256 (by omega), d.idx 0 (by omega)]; rfl) e
  rw [(hb 256).2.1, (hb 0).2.1, (hb 256).2.2.1, (hb 256).2.2.2, (hb 0).2.2.2] at this
  simp at this
  linarith

/-- `C73_lost_body_violates` applies: a `FixedRotationConstraint` on the 256th of 256 bodies. -/
example (ω : ℝ) (env : Env ℝ) (w'' : World ℝ) : ∃ (h : List (Op ℝ)) (w : World ℝ),
    World.Hist Gen.Shipped .opt h w ∧ regBodies h = range 256 ∧ regCons h = {0} ∧
    w.process .opt env 2 4 ≠ .ok w'' := by
  obtain ⟨h, w, d⟩ := many ω 256 255
  exact ⟨h, w, d.hist, d.regB, d.regC, C73_lost_body_violates (fun g => Gen.tame) d.hist
    (d.wired (by omega)) d.sle (by norm_num) (c := 0) (by rw [d.regC]; simp) fun k _ =>
      ⟨255, congrFun (congrArg Con.bodies (d.con 0)) k, by rw [d.idx 255 (by omega)]; rfl⟩⟩

/-- **C73** (partial): in a system with any number of bodies the constraints attached to the first 255
bodies act as in a small system: after `process(dt, 1)` with Gaussian elimination the velocities
satisfy the condition of every row, and the change of momentum of every body, whatever its place, is
`dt` times the force of the generators plus the reported reactions of the constraints attached to it.
Missing: constraints attached to later bodies, where it is false (`C73_wrong_body_violates`,
`C73_lost_body_violates`). -/
theorem C73_many_bodies_partial (hG : ∀ g, G g → g.OnlyForces) (hw : World.Hist G .opt h w)
    (hst : w.Standard h) (hsle : w.sle = some .ge) (e : w.process .opt env dt 1 = .ok w') :
    (∀ c ∈ regCons h, ∀ j, j < (w.cons c).rows →
      w.rowAt (w.rowsOf w.now c) c j (fun b => (w'.bodies b).vel) + (w.rowsOf w.now c).v_bias j +
        w.bias / dt * (w.rowsOf w.now c).C j = 0) ∧
    ∀ b ∈ regBodies h, ∀ q : Coord, (w.bodies b).mass q * ((w'.bodies b).vel q -
      (w.bodies b).vel q) = dt * (w.load w.now b q + w.conForce (fun c => (w'.cons c).F) b q) := by
  refine ⟨fun c hc j hj => C48_velocity_condition hG hw hst hsle e hc hj, fun b hb q => ?_⟩
  obtain ⟨_, _, _, _, _, h3⟩ := C49_newton hG hw hst.wired hst.gens e
  have hm := (h3 0 (by decide) b hb q).1
  rw [(C49_one_step hG hw hst.wired hst.gens e hb q).1]
  field_simp
  ring

/-- The claim applied: with 300 bodies a `FixedRotationConstraint` on the body with index 254 stops
it. -/
example (ω : ℝ) (env : Env ℝ) : ∃ (h : List (Op ℝ)) (w w' : World ℝ),
    World.Hist Gen.Shipped .opt h w ∧ regBodies h = range 300 ∧ (w.bodies 254).v_theta = ω ∧
    w.process .opt env 2 1 = .ok w' ∧ (w'.bodies 254).v_theta = 0 := by
  obtain ⟨h, w, d⟩ := many ω 300 254
  obtain ⟨w', e⟩ := d.runs (dt := 2) (by omega) (by omega) (by norm_num) env
  have h1 : (w.cons 0).rows = 1 := congrArg Con.rows (d.con 0)
  have h2 : (w.cons 0).bodyCount = 1 := congrArg Con.bodyCount (d.con 0)
  have h3 : ∀ c k, (w.cons c).bodies k = .obj 254 :=
    fun c k => congrFun (congrArg Con.bodies (d.con c)) k
  have hk : (w.cons 0).kind = .fixedRotation ⟨0, 0, 0⟩ := congrArg Con.kind (d.con 0)
  have hv : (w.bodies 254).v_theta = ω := congrArg Body.v_theta (d.body 254)
  have ht : (w.bodies 254).theta = 0 := congrArg Body.theta (d.body 254)
  have hst : w.Standard h :=
    ⟨fun c hc => d.proper c ((d.hist.regs.cons.mem c).mpr hc), (d.wired (by omega)).bodies,
      by rw [d.regG]; simp, fun c _ k _ b hb => by
        rw [h3] at hb
        cases hb
        rw [d.idx 254 (by omega)]
        decide⟩
  refine ⟨h, w, w', d.hist, d.regB, hv, e, ?_⟩
  have := (C73_many_bodies_partial (fun g => Gen.tame) d.hist hst d.sle e).1 0
    (by rw [d.regC]; simp) 0 (by omega)
  have hof : w.bodyOf 0 0 = 254 := by rw [World.bodyOf, h3]
  rw [World.rowAt, h2, sum_range_one, hof] at this
  simpa [World.rowsOf, hk, CKind.jT, CKind.cT, CKind.biasT, Coord.sum, Coord.d, World.now, hof, ht,
    h2, Body.vel, Body.pos, Motion.q, coordOf] using this

/-- Newton's law (C49) holds of all bodies, also of the one whose constraint acts in the wrong
place. -/
example (ω : ℝ) (env : Env ℝ) : ∃ (h : List (Op ℝ)) (w w' : World ℝ),
    World.Hist Gen.Shipped .opt h w ∧ regBodies h = range 257 ∧
    w.process .opt env 2 1 = .ok w' ∧ (w'.bodies 256).vel .th = (w.bodies 256).vel .th +
      2 * ((w.load w.now 256 .th + w.conForce (fun c => (w'.cons c).F) 256 .th) /
        (w.bodies 256).mass .th) := by
  obtain ⟨h, w, d⟩ := many ω 257 256
  obtain ⟨w', e⟩ := d.runs (dt := 2) (by omega) (by omega) (by norm_num) env
  exact ⟨h, w, w', d.hist, d.regB, e, (C49_one_step (fun g => Gen.tame) d.hist (d.wired (by omega))
    (by rw [d.regG]; simp) e (by rw [d.regB]; simp) .th).1⟩

end

end Scs
