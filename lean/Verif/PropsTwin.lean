import Verif.TwinHist
import Verif.PropsGeneric
import Verif.PropsSle

/-!
# The same program gives the same results

C71. Two runs of one program of API calls: the processes may differ in everything the program does
not determine, that is in the contents of every piece of uninitialised memory and in the clock read
by the profiling code. The arithmetic is arbitrary, so the claims are about the bits of the results.
The notions used (`Op.Same`, `Legal`, `World.SameSight`) are defined at the beginning of
`TwinHist.lean`.
-/

namespace Scs

open Finset

section
variable {α : Type} [Zero α] [Add α] [Mul α] [Sub α] [Neg α] [Fp α]

variable {bodies : Nat → Body α} {cons cons' : Nat → Con α} {gens : Nat → Gen α}
  {genIndex : Nat → Option Int} {cls : Cls} {ops ops' : List (Op α)}

/-- **C71**, for both classes: two runs of the same program end with the same error, or they both
return and leave the same bodies, constraints (but for the reported forces), force generators,
registrations and time. Missing: the generic system with the Gauss-Seidel solver, see
`C71_gauss_seidel_violates`, and the forces reported by the generic system. -/
theorem C71_same_results_partial (hc : ∀ c, (cons c).SameBut (cons' c))
    (j j' j1 j1' : Nat → Nat → α) (k k' k1 k1' : Nat → Nat → Nat)
    (hs : List.Forall₂ Op.Same ops ops')
    (hl : Legal cls [] (World.construct bodies cons gens genIndex (Store.fresh j k) j1 k1) ops) :
    let x := runAll cls ops (World.construct bodies cons gens genIndex (Store.fresh j k) j1 k1)
    let x' := runAll cls ops' (World.construct bodies cons' gens genIndex (Store.fresh j' k') j1' k1')
    (∃ e, x = .error e ∧ x' = .error e) ∨ ∃ v v', x = .ok v ∧ x' = .ok v' ∧ v.SameSight v' := by
  intro x x'
  have m := runAll_rel (World.mate_start (bodies := bodies) (gens := gens) (genIndex := genIndex) hc
    j j' j1 j1' k k' k1 k1') (.start bodies cons gens genIndex (fun _ => trivial) j j1 k k1) hs hl
  change Rel Mate x x' at m
  cases hx : x with
  | error e =>
    cases hx' : x' with
    | error e' => rw [hx, hx'] at m; cases m; exact .inl ⟨e, rfl, rfl⟩
    | ok v' => rw [hx, hx'] at m; cases m
  | ok v =>
    cases hx' : x' with
    | error e' => rw [hx, hx'] at m; cases m
    | ok v' => rw [hx, hx'] at m; exact .inr ⟨v, v', rfl, rfl, m.sight⟩

theorem runAll_hist {h : List (Op α)} {w v : World α} (hw : World.Hist (fun _ => True) cls h w) :
    ∀ {ops : List (Op α)}, Legal cls h w ops → runAll cls ops w = .ok v →
      World.Hist (fun _ => True) cls (ops.reverse ++ h) v := by
  intro ops
  induction ops generalizing h w with
  | nil => intro _ e; cases e; exact hw
  | cons op ops ih =>
    intro hl e
    simp only [runAll] at e
    cases e1 : op.run cls w with
    | error r => rw [e1] at e; cases e
    | ok u =>
      rw [e1, ok_bind] at e
      have := ih (.step op hw hl.1 e1) (hl.2.2 u e1) e
      simpa using this

theorem Legal.take {h : List (Op α)} {w : World α} (n : Nat) : ∀ {ops : List (Op α)},
    Legal cls h w ops → Legal cls h w (ops.take n) := by
  induction n generalizing h w with
  | zero => intro ops _; exact trivial
  | succ n ih =>
    intro ops hl
    cases ops with
    | nil => trivial
    | cons op ops => exact ⟨hl.1, hl.2.1, fun v e => ih (hl.2.2 v e)⟩

/-- **C71**, the forces reported by the optimized system: after a program that ends with a call of
`process` with at least one step, the two runs report the same forces as well. -/
theorem C71_same_forces (hc : ∀ c, (cons c).SameBut (cons' c))
    (j j' j1 j1' : Nat → Nat → α) (k k' k1 k1' : Nat → Nat → Nat)
    (hs : List.Forall₂ Op.Same ops ops')
    (hl : Legal .opt [] (World.construct bodies cons gens genIndex (Store.fresh j k) j1 k1) ops)
    {v v' : World α}
    (e : runAll .opt ops (World.construct bodies cons gens genIndex (Store.fresh j k) j1 k1) = .ok v)
    (e' : runAll .opt ops' (World.construct bodies cons' gens genIndex (Store.fresh j' k') j1' k1') =
      .ok v') (hu : v.Usual ops.reverse) {env env' : Env α} {dt : α} {steps : Int}
    (hpos : 0 < steps) :
    (∃ r, v.process .opt env dt steps = .error r ∧ v'.process .opt env' dt steps = .error r) ∨
    ∃ u u', v.process .opt env dt steps = .ok u ∧ v'.process .opt env' dt steps = .ok u' ∧
      u.SameSight u' ∧ ∀ c ∈ regCons ops.reverse, ∀ (q : Coord) r b, r < (u.cons c).rows →
        b < (u.cons c).bodyCount → (u'.cons c).F q r b = (u.cons c).F q r b := by
  have h0 : World.Hist (fun _ => True) .opt [] (World.construct bodies cons gens genIndex
      (Store.fresh j k) j1 k1) := .start bodies cons gens genIndex (fun _ => trivial) j j1 k k1
  have m := runAll_rel (World.mate_start (bodies := bodies) (gens := gens) (genIndex := genIndex) hc
    j j' j1 j1' k k' k1 k1') h0 hs hl
  rw [e, e'] at m
  have hv := runAll_hist h0 hl e
  rw [List.append_nil] at hv
  have p := optProcess_rel m (hu.set hv.regs) hv.regs.nsv env env' dt steps
  change Rel _ (v.process .opt env dt steps) (v'.process .opt env' dt steps) at p
  cases hx : v.process .opt env dt steps with
  | error r =>
    cases hx' : v'.process .opt env' dt steps with
    | error r' => rw [hx, hx'] at p; cases p; exact .inl ⟨r, rfl, rfl⟩
    | ok u' => rw [hx, hx'] at p; cases p
  | ok u =>
    cases hx' : v'.process .opt env' dt steps with
    | error r' => rw [hx, hx'] at p; cases p
    | ok u' =>
      rw [hx, hx'] at p
      refine .inr ⟨u, u', rfl, rfl, p.1.sight, fun c hcr q r b hr hb => ?_⟩
      have hu := World.Hist.step (G := fun _ => True) (.process env dt steps) hv trivial hx
      have hmem := (hu.regs.cons.mem c).mpr hcr
      obtain ⟨i, hi, rfl⟩ := List.getElem_of_mem hmem
      exact (p.2 hpos i hi q r b hr hb).symm

/-- `Usual` speaks about what `process` leaves alone. -/
theorem World.Usual.congr {w v : World α} {h h2 : List (Op α)} (u : w.Usual h)
    (hk : ∀ c, (v.cons c).kind = (w.cons c).kind ∧ (v.cons c).rows = (w.cons c).rows ∧
      (v.cons c).bodyCount = (w.cons c).bodyCount ∧ (v.cons c).bodies = (w.cons c).bodies)
    (hi : ∀ b, (v.bodies b).index = (w.bodies b).index) (hg : v.gens = w.gens) (h0 : regBodies h2 = regBodies h) (h1 : regCons h2 = regCons h)
    (h3 : regGens h2 = regGens h) : v.Usual h2 := by
  refine ⟨fun c hc => ?_, fun c hc k hk' => ?_, fun g hg' => ?_, fun c hc k hk' b e => ?_⟩
  · obtain ⟨e1, e2, e3, e4⟩ := hk c
    rw [e1, e2, e3]; exact u.kind c (h1 ▸ hc)
  · obtain ⟨e1, e2, e3, e4⟩ := hk c
    rw [e4, h0]; exact u.bodies c (h1 ▸ hc) k (e3 ▸ hk')
  · rw [hg, h0]; exact u.gens g (h3 ▸ hg')
  · obtain ⟨e1, e2, e3, e4⟩ := hk c
    rw [hi]; exact u.near c (h1 ▸ hc) k (e3 ▸ hk') b (e4 ▸ e)

end

/-! ## A program -/

/-- A program that sets up a system with two bodies, a gear between them and gravity, and processes
it twice. -/
noncomputable def demoOps (ode : Option (Ode ℝ)) (env env2 : Env ℝ) : List (Op ℝ) :=
  [.addBody 0, .addBody 1, .addCon 0, .addGen 0, .init (some .ge) ode, .process env 2 4,
    .setBias 3, .process env2 1 2]

/-- The gear of the program. -/
noncomputable def demoGear : CKind ℝ := .simpleGear ⟨3, false, 0, 0⟩

/-- The world in which the program starts. -/
noncomputable def demoStart (j j' : Nat → Nat → ℝ) (k k' : Nat → Nat → Nat) : World ℝ :=
  World.construct demoBody (demoCon demoGear) (fun _ => .gravity 9) (fun _ => none)
    (Store.fresh j k) j' k'

section
variable {j j' : Nat → Nat → ℝ} {k k' : Nat → Nat → Nat} {cls : Cls}

/-- The system before `initialize`. -/
noncomputable def demoSet (j j' : Nat → Nat → ℝ) (k k' : Nat → Nat → Nat) : World ℝ :=
  ((((demoStart j j' k k').addBody 0).addBody 1).addCon 0).addGen 0

theorem demoSet_hist {G : Gen ℝ → Prop} (hG : G (.gravity 9)) :
    World.Hist G cls [.addGen 0, .addCon 0, .addBody 1, .addBody 0] (demoSet j j' k k') := by
  have a0 : World.Hist G cls [] (demoStart j j' k k') := .start _ _ _ _ (fun _ => hG) _ _ _ _
  have a1 := a0.step (.addBody 0) (by simp [Op.Valid, regBodies]) rfl
  have a2 := a1.step (.addBody 1) (by simp [Op.Valid, regBodies]) rfl
  have a3 := a2.step (.addCon 0) (by simp [Op.Valid, regCons]) rfl
  exact a3.step (.addGen 0) (by simp [Op.Valid, regGens]) rfl

/-- The solvers of the program. -/
noncomputable def demoOde : Cls → Option (Ode ℝ)
  | .opt => none
  | .gen => some .newEuler

theorem demoSet_init : ∃ w, Op.run cls (.init (some .ge) (demoOde cls)) (demoSet j j' k k') = .ok w ∧
    DemoSys demoGear (.gravity 9) [0] [0] .ge
      [.init (some .ge) (demoOde cls), .addGen 0, .addCon 0, .addBody 1, .addBody 0] w ∧
    (cls = .gen → w.ode = some .newEuler) := by
  have hd : ∀ w : World ℝ, (∃ m o, w = { demoSet j j' k k' with sle := some .ge, ode := o, mem := m }) →
      DemoSys demoGear (.gravity 9) [0] [0] .ge
      [.init (some .ge) (demoOde cls), .addGen 0, .addCon 0, .addBody 1, .addBody 0] w := by
    rintro _ ⟨m, o, rfl⟩
    have r := (demoSet_hist (j := j) (j' := j') (k := k) (k' := k') (cls := cls)
      (G := fun _ => True) trivial).regs
    refine ⟨by simp only [regBodies]; decide, by simp [regCons], by simp [regGens], fun b => ?_, fun c => ?_,
      fun i => rfl, fun b => ?_, rfl, rfl, rfl, ?_, rfl, cls, r.bodies, r.cons, r.gens, r.nsv⟩
    · rcases b with _ | _ | b <;> rfl
    · rcases c with _ | c <;> rfl
    · show b ∈ [0, 1] ↔ _
      simp
    · show (Fp.lit 1 : ℝ) = 1
      rw [fp_lit]; norm_num
  cases cls with
  | opt => exact ⟨_, rfl, hd _ ⟨_, _, rfl⟩, fun h => by cases h⟩
  | gen =>
    obtain ⟨m, e, _⟩ := Store.init0_spec (demoSet j j' k k').mem .ivLambda 0 0
      (((demoSet_hist (G := Gen.Shipped) trivial).sound (cls := .gen) divOk_real
        (fun g => Gen.tame)).mem.mat _)
    refine ⟨{ demoSet j j' k k' with sle := some .ge, ode := some .newEuler, mem := m }, ?_,
      hd _ ⟨_, _, rfl⟩, fun _ => rfl⟩
    show World.genInit _ _ _ = _
    rw [World.genInit, e, ok_bind]
    rfl

theorem demo_usual {w : World ℝ} {h : List (Op ℝ)}
    (d : DemoSys demoGear (.gravity 9) [0] [0] .ge h w) : w.Usual h := by
  have := d.standard (.inl (by simp [CKind.counts, demoGear])) trivial
  exact ⟨this.kind, this.bodies, this.gens, this.near⟩

end

/-- The hypotheses of `C71_same_results_partial` and `C71_same_forces` can be met, for both classes:
the program is legal, and its first call of `process` returns. -/
theorem demoOps_legal (cls : Cls) (env env2 : Env ℝ) (j j' : Nat → Nat → ℝ) (k k' : Nat → Nat → Nat) :
    Legal cls [] (demoStart j j' k k') (demoOps (demoOde cls) env env2) ∧
    ∃ v, runAll cls ((demoOps (demoOde cls) env env2).take 6) (demoStart j j' k k') = .ok v := by
  obtain ⟨w, e, d, ho⟩ := demoSet_init (j := j) (j' := j') (k := k) (k' := k') (cls := cls)
  have hg : ∀ v : World ℝ, v.sle = w.sle → (cls = .gen → v.ode.map Ode.sort = some 1) → cls = .gen →
      (∀ sv, v.sle = some sv → sv.Direct) ∧ ∀ r, v.ode = some (.rk4 r) → DivEven ℝ := by
    intro v h1 h2 hc
    refine ⟨fun sv hs => ?_, fun r hr => ?_⟩
    · rw [h1, d.sle] at hs
      cases hs
      trivial
    · have := h2 hc
      rw [hr] at this
      cases this
  have hi : World.Hist Gen.Shipped cls
      [.init (some .ge) (demoOde cls), .addGen 0, .addCon 0, .addBody 1, .addBody 0] w :=
    (demoSet_hist trivial).step _ (by
      intro o ho'
      cases cls <;> cases ho'
      trivial) e
  obtain ⟨v, e2⟩ : ∃ v, w.process cls env 2 4 = .ok v := by
    cases cls with
    | opt => exact Demo.runs ⟨d, hi⟩ trivial (turns_gear _) trivial two_ne_zero 4 env
    | gen => exact (DemoG.runs ⟨d, hi, ho rfl⟩ trivial (.inl (turns_gear _)) trivial
        (fun m e => by simp) (sym := false) rfl 2 4 env).2
  refine ⟨?_, v, ?_⟩
  · refine ⟨by simp [Op.Valid, regBodies], trivial, fun w1 h1 => ?_⟩
    cases h1
    refine ⟨by simp [Op.Valid, regBodies], trivial, fun w1 h1 => ?_⟩
    cases h1
    refine ⟨by simp [Op.Valid, regCons], trivial, fun w1 h1 => ?_⟩
    cases h1
    refine ⟨by simp [Op.Valid, regGens], trivial, fun w1 h1 => ?_⟩
    cases h1
    refine ⟨?_, trivial, fun w1 h1 => ?_⟩
    · intro o ho'
      cases cls <;> cases ho'
      trivial
    cases e.symm.trans h1
    have u := demo_usual d
    refine ⟨trivial, ⟨u, hg w rfl fun h => by rw [ho h]; rfl⟩, fun w1 h1 => ?_⟩
    have hm := C56_process_only_moves hi h1
    have ho1 : cls = .gen → w1.ode.map Ode.sort = some 1 := by
      rintro rfl
      rw [((genProcess_wp w env 2 4).of_eq h1).2.2.2, ho rfl]
      rfl
    refine ⟨trivial, trivial, fun w2 h2 => ?_⟩
    cases h2
    refine ⟨trivial, ⟨u.congr (fun c => ⟨hm.kind c, hm.rows c, hm.bodyCount c, hm.conBodies c⟩) hm.index
      hm.gens rfl rfl rfl, hg _ hm.sle ho1⟩, fun _ _ => trivial⟩
  · show (Op.run cls (.init (some .ge) (demoOde cls)) (demoSet j j' k k') >>= fun w =>
      Op.run cls (.process env 2 4) w >>= runAll cls []) = _
    rw [e, ok_bind]
    show (w.process cls env 2 4 >>= runAll cls []) = _
    rw [e2, ok_bind]
    rfl

example (env env2 env' env2' : Env ℝ) (j1 j2 j3 j4 : Nat → Nat → ℝ) (k1 k2 k3 k4 : Nat → Nat → Nat) :
    ∃ v v', runAll .opt ((demoOps none env env2).take 6) (demoStart j1 j2 k1 k2) = .ok v ∧
      runAll .opt ((demoOps none env' env2').take 6) (demoStart j3 j4 k3 k4) = .ok v' ∧
      v.SameSight v' := by
  obtain ⟨hl, v, e⟩ := demoOps_legal .opt env env2 j1 j2 k1 k2
  have hs : List.Forall₂ Op.Same ((demoOps none env env2).take 6) ((demoOps none env' env2').take 6) :=
    .cons rfl (.cons rfl (.cons rfl (.cons rfl (.cons rfl (.cons ⟨rfl, rfl⟩ .nil)))))
  rcases C71_same_results_partial (cons := demoCon demoGear) (cons' := demoCon demoGear) (fun _ => rfl) j1 j3 j2 j4 k1 k3 k2 k4 hs (hl.take 6) with
    ⟨r, h1, _⟩ | ⟨v, v', h1, h2, h3⟩
  · cases e.symm.trans h1
  · exact ⟨v, v', h1, h2, h3⟩

example (env env2 env' : Env ℝ) (j1 j2 j3 j4 : Nat → Nat → ℝ) (k1 k2 k3 k4 : Nat → Nat → Nat) :
    ∃ v v' u u', runAll .opt ((demoOps none env env2).take 5) (demoStart j1 j2 k1 k2) = .ok v ∧
      runAll .opt ((demoOps none env env2).take 5) (demoStart j3 j4 k3 k4) = .ok v' ∧
      v.process .opt env 2 4 = .ok u ∧ v'.process .opt env' 2 4 = .ok u' ∧
      ∀ q : Coord, (u'.cons 0).F q 0 1 = (u.cons 0).F q 0 1 := by
  obtain ⟨hl, u, e⟩ := demoOps_legal .opt env env2 j1 j2 k1 k2
  obtain ⟨v, h1, d, _⟩ := demoSet_init (j := j1) (j' := j2) (k := k1) (k' := k2) (cls := .opt)
  obtain ⟨v', h1', d', _⟩ := demoSet_init (j := j3) (j' := j4) (k := k3) (k' := k4) (cls := .opt)
  have e1 : runAll .opt ((demoOps none env env2).take 5) (demoStart j1 j2 k1 k2) = .ok v := by
    show (Op.run .opt (.init (some .ge) none) (demoSet j1 j2 k1 k2) >>= runAll .opt []) = _
    rw [show Op.run .opt (.init (some .ge) none) (demoSet j1 j2 k1 k2) = _ from h1]
    rfl
  have e1' : runAll .opt ((demoOps none env env2).take 5) (demoStart j3 j4 k3 k4) = .ok v' := by
    show (Op.run .opt (.init (some .ge) none) (demoSet j3 j4 k3 k4) >>= runAll .opt []) = _
    rw [show Op.run .opt (.init (some .ge) none) (demoSet j3 j4 k3 k4) = _ from h1']
    rfl
  have hp : v.process .opt env 2 4 = .ok u := by
    have : (Op.run .opt (.init (some .ge) none) (demoSet j1 j2 k1 k2) >>= fun w =>
        Op.run .opt (.process env 2 4) w >>= runAll .opt []) = .ok u := e
    rw [show Op.run .opt (.init (some .ge) none) (demoSet j1 j2 k1 k2) = _ from h1, ok_bind] at this
    cases hx : v.process .opt env 2 4 with
    | error r =>
      rw [show Op.run .opt (.process env 2 4) v = _ from hx] at this
      cases this
    | ok z =>
      rw [show Op.run .opt (.process env 2 4) v = _ from hx] at this
      cases this
      rfl
  have hs : List.Forall₂ Op.Same ((demoOps none env env2).take 5) ((demoOps none env env2).take 5) :=
    .cons rfl (.cons rfl (.cons rfl (.cons rfl (.cons rfl .nil))))
  have hm := C56_process_only_moves (World.Hist.step (G := fun _ => True)
    (.init (some .ge) none) (demoSet_hist trivial) (fun o e => by cases e) h1) hp
  rcases C71_same_forces (cons := demoCon demoGear) (cons' := demoCon demoGear) (fun _ => rfl) j1 j3 j2 j4 k1 k3 k2 k4 hs (hl.take 5)
    e1 e1' (demo_usual d) (env := env) (env' := env') (dt := 2) (steps := 4) (by decide) with
    ⟨r, h2, _⟩ | ⟨u, u', h2, h3, _, h5⟩
  · cases hp.symm.trans h2
  · cases hp.symm.trans h2
    refine ⟨v, v', u, u', e1, e1', h2, h3, fun q => h5 0 (d.regC ▸ by simp : (0 : Nat) ∈ regCons _) q 0 1 ?_ ?_⟩
    · rw [hm.rows, d.rows]; exact Nat.one_pos
    · rw [hm.bodyCount, d.count]; exact Nat.one_lt_two

/-! ## What does not hold -/

/-- C71 fails for the Gauss-Seidel solver of the generic system. The system calls `solve` with one
vector as `previous` and `result`; when it has not been used before, the solver starts from the
uninitialised memory it has just allocated. Here it solves `x = -1` with the default settings, in
the state the same program produces from memory that contains 1 or 0: it reports success in one
case, and failure in the other. -/
theorem C71_gauss_seidel_violates (b : Bool) : ∃ (s s' : Store ℝ),
    SReach 3 2 solverRestr s ∧
    Sys 3 2 s (.user 0) (.user 0) (.user 1) 3 1 (fun _ c => if c = 0 then 1 else 0) (fun _ => 1)
      (fun _ => -1) ∧
    s.mat (.user 4) = Mat.empty ∧ s.junk = (fun _ _ => if b then 1 else 0) ∧
    Solver.gsDefault.solve 3 2 s (.user 0) (.user 0) (.user 1) (some (.user 4)) (some (.user 4)) =
      .ok (s', b) := by
  let A : Nat → Nat → ℝ := fun _ c => if c = 0 then 1 else 0
  let v : ℝ := if b then 1 else 0
  obtain ⟨s, hs, h, _, _, h4, hj⟩ := demo_sys_junk v 1 A (fun _ => 1) (fun _ => -1) (fun _ => 0)
    (fun _ => 0) (fun _ => 0)
  obtain ⟨s1, e1, o1, wf1, w1, hh1, _⟩ := Store.resize_spec s (.user 4) 1 1 (hs.okR.ok.mat _)
  have hs1 : SReach 3 2 solverRestr s1 := .call (.resize (.user 4) 1 1) hs trivial trivial (by
    simp only [run]; exact e1)
  have hX : s1.Shows (.user 4) 1 1 (fun _ _ => v) := by
    refine ⟨w1, hh1, fun r c hr hc => ?_⟩
    obtain ⟨rb, e2, hz, hv⟩ := Mat.layout_spec (m := ⟨some ⟨1, fun _ => none⟩, some ⟨1 * 1, s.junk s.tick⟩,
      1, 1, 1, 1⟩) (h := 1) (w := 1) rfl rfl (by decide)
    have e3 : s.resize (.user 4) 1 1 = (Mat.layout ⟨some ⟨1, fun _ => none⟩, some ⟨1 * 1, s.junk s.tick⟩,
        1, 1, 1, 1⟩ 1 1 >>= fun m => pure { s.setMat (.user 4) m with tick := s.tick + 1 }) := by
      rw [Store.resize, h4]
      rfl
    rw [e3, e2, ok_bind] at e1
    cases e1
    obtain rfl : r = 0 := by omega
    obtain rfl : c = 0 := by omega
    have hs1 : 0 < rb.size := by rw [hz]; exact Nat.one_pos
    simp only [Store.get, Store.load, Store.setMat, upd_same, chk, Nat.one_pos, if_true, ok_bind, Mat.load,
      deref, Buf.rd, hs1, hv 0 Nat.one_pos, initd, hj, Nat.add_zero, Nat.mul_one]
  have h1 : Sys 3 2 s1 (.user 0) (.user 0) (.user 1) 3 1 A (fun _ => 1) (fun _ => -1) := by
    have hd := hs1.okR.ok.denotes (a := .user 0) (by decide) (by rw [o1.smat]; exact h.layout)
    refine ⟨by rw [o1.smat]; exact h.layout, ⟨by rw [o1.smat]; exact h.mat.width,
      by rw [o1.smat]; exact h.mat.height, fun t => ?_⟩, ?_, ?_, trivial, trivial, trivial⟩
    · obtain ⟨s', e', g', ot⟩ := hd.expand t
      rw [o1.smat, h.mat.width, h.mat.height] at g'
      exact ⟨s', e', g'.congr fun r c hr hc => hs.okR.ok.eq_val (by decide) h.layout h.mat hr hc, ot⟩
    · have e := o1.mat (.user 0) (by decide)
      exact ⟨by rw [e]; exact h.wts.width, by rw [e]; exact h.wts.height, fun r c hr hc => by
        rw [← h.wts.get r c hr hc]; simp only [Store.get, Store.load, e]⟩
    · have e := o1.mat (.user 1) (by decide)
      exact ⟨by rw [e]; exact h.rhs.width, by rw [e]; exact h.rhs.height, fun r c hr hc => by
        rw [← h.rhs.get r c hr hc]; simp only [Store.get, Store.load, e]⟩
  have hM : gram 3 A (fun _ => 1) 0 0 = 1 := by
    simp [gram, A]
  have hF : ∀ x : Nat → ℝ, sweepTo (rowSolve 1 (gram 3 A fun _ => 1) fun _ => -1) 1 x 0 = -1 := by
    intro x
    simp [sweepTo, rowSolve, hM, upd]
  have hsame : s.gsSolve 3 2 128 (1 / 10) (.user 0) (.user 0) (.user 1) (some (.user 4)) (some (.user 4)) =
      s1.gsSolve 3 2 128 (1 / 10) (.user 0) (.user 0) (.user 1) (some (.user 4)) (some (.user 4)) := by
    have e2 : s1.resize (.user 4) 1 1 = .ok s1 := by
      rw [Store.resize]; simp only [w1, hh1, and_self, if_true]
    simp only [Store.gsSolve]
    rw [h.rhs.height, h1.rhs.height]
    show (s.resize (.user 4) 1 1 >>= _) = (s1.resize (.user 4) 1 1 >>= _)
    rw [e1, e2]
  have hlit : (Fp.lit (1 / 10) : ℝ) = 1 / 10 := by rw [fp_lit]; norm_num
  obtain ⟨s', c, y, x0, e3, g, hx0, hf⟩ := C17_success_partial (prev := some (.user 4))
    (r := .user 4) (by decide) hs1 h1 trivial (by decide) (by decide)
    (fun q hq _ => by cases hq; exact hX.width) (fun i hi => by
      rw [show i = 0 by omega, hM]; exact one_ne_zero) 128 (e := 1 / 10) (by norm_num)
  have hx0 := hx0 (fun _ => v) (Or.inl ⟨.user 4, rfl, hX⟩) 0 (by decide)
  refine ⟨s, s', hs, h, h4, hj, ?_⟩
  rw [Solver.gsDefault, hlit]
  show s.gsSolve 3 2 128 (1 / 10) _ _ _ _ _ = _
  rw [hsame]
  refine e3.trans ?_
  have : c = b := by
    cases b with
    | true =>
      rcases hf with ⟨rfl, _⟩ | ⟨_, hb, _⟩
      · rfl
      · refine absurd ?_ (hb 0 (by decide))
        intro i hi
        rw [show i = 0 by omega, Function.iterate_zero, id, Function.iterate_one, hF, hx0]
        norm_num [v]
    | false =>
      rcases hf with ⟨rfl, k, _, hT, _⟩ | ⟨rfl, _⟩
      · exfalso
        have := hT 0 (by decide)
        rw [Function.iterate_succ_apply', hF] at this
        cases k with
        | zero =>
          rw [Function.iterate_zero, id, hx0] at this
          norm_num [v] at this
        | succ k =>
          rw [Function.iterate_succ_apply', hF] at this
          norm_num at this
      · rfl
  rw [this]

end Scs
