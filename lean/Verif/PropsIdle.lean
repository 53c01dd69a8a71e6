import Verif.WorldIdle
import Verif.WorldDemo
import Mathlib.Data.List.GetD

/-!
# C70: a call of `process` without sub-steps

`process(dt, steps)` with `steps ≤ 0` makes no sub-step. It must then change neither the bodies nor
the forces the constraints report.
-/

namespace Scs

open Finset

section
variable {α : Type} [Zero α] [Add α] [Mul α] [Sub α] [Neg α] [Fp α]
variable {G : Gen α → Prop} {cls : Cls} {h : List (Op α)} {w w' w'' : World α}
  {env env' : Env α} {dt dt' : α} {steps steps' : Int}

theorem conCount_le (hr : ∀ c ∈ w.cs, 1 ≤ (w.cons c).rows) : w.conCount ≤ w.fullCount := by
  rw [fullCount_eq, ← rowCounts_length]
  have : ∀ l : List Nat, (∀ r ∈ l, 1 ≤ r) → l.length ≤ l.sum := by
    intro l
    induction l with
    | nil => intro _; simp
    | cons a l ih =>
      intro h
      have h1 := h a (by simp)
      have h2 := ih fun r hr => h r (by simp [hr])
      simp
      omega
  refine this _ fun r h => ?_
  obtain ⟨c, hc, rfl⟩ := List.mem_map.mp h
  exact hr c hc

theorem shaped_of (hd : DivOk α) (hG : ∀ g, G g → g.OnlyForces) (hw : World.Hist G cls h w)
    (hr : ∀ c ∈ regCons h, 1 ≤ (w.cons c).rows ∧ (w.cons c).rows ≤ 3)
    (h2 : ∀ c ∈ regCons h, (w.cons c).bodyCount ≤ 2) : w.Shaped := by
  have r := hw.regs
  have hc : ∀ c ∈ w.cs, c ∈ regCons h := fun c hc => (r.cons.mem c).mp hc
  exact ⟨r.bodies.nodup, r.cons.nodup, (hw.sound hd hG).st.wf,
    conCount_le fun c h => (hr c (hc c h)).1, fun c h => (hr c (hc c h)).2, fun c h => h2 c (hc c h)⟩

theorem parts_of (hw : World.Hist G cls h w) (sh : w.Shaped)
    (e : w.process cls env dt steps = .ok w') : ∃ s s', w.Parts cls steps w' s s' := by
  cases cls with
  | opt =>
    obtain ⟨s, _, q, _, _, p⟩ := opt_parts sh hw.regs.nsv e
    exact ⟨s, _, p⟩
  | gen =>
    obtain ⟨s, _, q, _, _, p⟩ := gen_parts sh e
    exact ⟨s, _, p⟩

/-- **C70**, the bodies: a call of `process` of either class with `steps ≤ 0` leaves all bodies as they
are. -/
theorem C70_bodies (hd : DivOk α) (hG : ∀ g, G g → g.OnlyForces) (hw : World.Hist G cls h w)
    (hr : ∀ c ∈ regCons h, 1 ≤ (w.cons c).rows ∧ (w.cons c).rows ≤ 3)
    (h2 : ∀ c ∈ regCons h, (w.cons c).bodyCount ≤ 2) (hs : steps ≤ 0)
    (e : w.process cls env dt steps = .ok w') : w'.bodies = w.bodies := by
  have sh := shaped_of hd hG hw hr h2
  obtain ⟨s, s', p⟩ := parts_of hw sh e
  obtain ⟨s1, e1, hp⟩ := populated_of sh.st sh.con
  rw [p.pop] at e1
  cases e1
  have st := p.stored (by rw [p.idle hs]; exact hp.wf) (by rw [p.idle hs]; exact hp.n)
    (by rw [p.idle hs]; exact hp.nc)
  rw [p.idle hs] at st
  funext b
  by_cases hb : b ∈ w.rb
  · obtain ⟨i, hi, rfl⟩ := List.getElem_of_mem hb
    have hrb : w.rbAt i = w.rb[i] := List.getD_eq_getElem _ _ hi
    have q : ∀ q : Coord, (w'.bodies w.rb[i]).pos q = (w.bodies w.rb[i]).pos q ∧
        (w'.bodies w.rb[i]).vel q = (w.bodies w.rb[i]).vel q := by
      intro q
      have a := st.body i hi q
      rw [hp.pos q i hi, hp.vel q i hi, hrb] at a
      exact a
    have q1 := q .x; have q2 := q .y; have q3 := q .th
    have m1 := p.moves.mass w.rb[i]
    have m2 := p.moves.inertia w.rb[i]
    have m3 := p.moves.index w.rb[i]
    revert q1 q2 q3 m1 m2 m3
    cases w'.bodies w.rb[i]
    cases w.bodies w.rb[i]
    simp only [Body.pos, Body.vel]
    rintro ⟨rfl, rfl⟩ ⟨rfl, rfl⟩ ⟨rfl, rfl⟩ rfl rfl rfl
    rfl
  · exact p.moves.other b hb

/-- **C70**, the forces: if the last call of `process` was successful and nothing has been done since, a
call with `steps ≤ 0` leaves the reported forces as they are. (In general this is false, see below;
for the generic system the RK4 solver must have been used for this system only.) -/
theorem C70_forces_partial (hd : DivOk α) (hG : ∀ g, G g → g.OnlyForces) (hw : World.Hist G cls h w)
    (hr : ∀ c ∈ regCons h, 1 ≤ (w.cons c).rows ∧ (w.cons c).rows ≤ 3)
    (h2 : ∀ c ∈ regCons h, (w.cons c).bodyCount ≤ 2)
    (ho : cls = .opt ∨ InSync h ∨ ∀ r, w.ode ≠ some (.rk4 r))
    (e : w.process cls env dt steps = .ok w') (hs : steps' ≤ 0)
    (e' : w'.process cls env' dt' steps' = .ok w'') {c : Nat} (hc : c ∈ regCons h) (q : Coord)
    {j k : Nat} (hj : j < (w.cons c).rows) (hk : k < (w.cons c).bodyCount) :
    (w''.cons c).F q j k = (w'.cons c).F q j k := by
  have sh := shaped_of hd hG hw hr h2
  have hw' : World.Hist G cls (.process env dt steps :: h) w' := hw.step _ trivial e
  have sound := hw.sound hd hG
  have h1 : ∃ s s', w.Parts cls steps w' s s' ∧ s'.Wf ∧ s'.Sz s.n s.nc := by
    cases cls with
    | opt =>
      obtain ⟨s, mem, q, e1, e2, p⟩ := opt_parts sh hw.regs.nsv e
      have hm := (wp_anyErr_iff.1 (m_populateMass sound.mem) _ e1).1
      have hR := wp_anyErr_iff.1 (reach_populateState sound.st) _ p.pop
      exact ⟨s, _, p, wp_anyErr_iff.1 (optLoop_sz hd sound hm hR hw.regs.nsv) _ e2⟩
    | gen =>
      obtain ⟨s, mem, q, e1, e2, p⟩ := gen_parts sh e
      have hm := (wp_anyErr_iff.1 (m_populateMass sound.mem) _ e1).1
      have hR := wp_anyErr_iff.1 (reach_populateState sound.st) _ p.pop
      have hmt : w.Matched := by
        rcases ho with ho | ho | ho
        · cases ho
        · exact hw.matched hd hG ho
        · rw [World.Matched]
          split
          · exact absurd (by assumption) (ho _)
          · trivial
      exact ⟨s, _, p, wp_anyErr_iff.1 (genLoop_sz hd sound hm hR fun o ho =>
        hmt.takes ho (sound.ode o ho) (wp_anyErr_iff.1 z_populateState _ p.pop)) _ e2⟩
  obtain ⟨s, s', p, hwf, hsz⟩ := h1
  obtain ⟨s1, e1, hp⟩ := populated_of sh.st sh.con
  rw [p.pop] at e1
  cases e1
  have st := p.stored hwf (by rw [hsz.1]; exact hp.n) (by rw [hsz.2]; exact hp.nc)
  have mv := p.moves
  have sh' := shaped_of hd hG hw' (fun c hc => by rw [mv.rows]; exact hr c hc)
    (fun c hc => by rw [mv.bodyCount]; exact h2 c hc)
  have full : w'.fullCount = w.fullCount := by
    rw [World.fullCount, World.fullCount, mv.cs]
    simp only [mv.rows]
  have bc : w'.bodyCount = w.bodyCount := by rw [World.bodyCount, World.bodyCount, mv.rb]
  obtain ⟨t, t', p'⟩ := parts_of hw' sh' e'
  obtain ⟨t1, e1', hp'⟩ := populated_of sh'.st sh'.con
  rw [p'.pop] at e1'
  cases e1'
  have st' := p'.stored (by rw [p'.idle hs]; exact hp'.wf) (by rw [p'.idle hs]; exact hp'.n)
    (by rw [p'.idle hs]; exact hp'.nc)
  rw [p'.idle hs] at st'
  have hrf := wp_anyErr_iff.1 rf_populateState _ p'.pop
  rw [SysState.resize_of_ge _ (by rw [p.st, bc, hsz.1]; exact hp.n)
    (by rw [p.st, full, hsz.2]; exact hp.nc), p.st] at hrf
  obtain ⟨i, hi, rfl⟩ := List.getElem_of_mem ((hw.regs.cons.mem c).mpr hc)
  have a := st.con i hi q j k hj hk
  have a' := st'.con i (by rw [mv.cs]; exact hi) q j k
  simp only [mv.cs, mv.rows, mv.bodyCount] at a'
  have off : w'.off i = w.off i := by
    rw [World.off, World.off, World.rowCounts, World.rowCounts, mv.cs]
    simp only [mv.rows]
  rw [a, a' hj hk, off]
  obtain ⟨b, q2, _⟩ := (hwf (Or.inr (by
    have := off_lt w hi hj
    rw [hsz.2]; have := hp.nc; omega))).rf q.r
  rw [SysState.rval, SysState.rval, hrf, q2]

end

section
variable {G : Gen ℝ → Prop} {cls : Cls} {h : List (Op ℝ)} {w : World ℝ}

/-- If no body has mass or moment of inertia zero, such a call is successful (even without solvers),
and the forces it reports are read from the reaction arrays of the state. -/
theorem idle_runs (hG : ∀ g, G g → g.OnlyForces) (hw : World.Hist G cls h w)
    (hr : ∀ c ∈ regCons h, 1 ≤ (w.cons c).rows ∧ (w.cons c).rows ≤ 3)
    (h2 : ∀ c ∈ regCons h, (w.cons c).bodyCount ≤ 2)
    (hm : ∀ b ∈ regBodies h, (w.bodies b).m ≠ 0 ∧ (w.bodies b).I ≠ 0) (env : Env ℝ) (dt : ℝ)
    {steps : Int} (hs : steps ≤ 0) : ∃ w', w.process cls env dt steps = .ok w' ∧
      ∀ i (hi : i < w.cs.length) (q : Coord) j k, j < (w.cons w.cs[i]).rows →
        k < (w.cons w.cs[i]).bodyCount → (w'.cons w.cs[i]).F q j k =
          (w.st.resize w.bodyCount w.fullCount).rval q.r (cls.place (w.off i + j) k) := by
  have sh := shaped_of divOk_real hG hw hr h2
  have sound := hw.sound divOk_real hG
  obtain ⟨s, e1, hp⟩ := populated_of sh.st sh.con
  have hmass : ∃ m, w.populateMass w.mem = .ok m := by
    have := populateMass_wp (w := w) sound.mem (E := fun _ => False) (by
      rintro ⟨i, hi, c, h0⟩
      have := hm _ ((hw.regs.bodies.mem _).mp (rbAt_mem w hi))
      cases c
      · exact this.1 h0
      · exact this.1 h0
      · exact this.2 h0)
    cases e : w.populateMass w.mem with
    | ok m => exact ⟨m, rfl⟩
    | error x => rw [e] at this; exact this.elim
  obtain ⟨mem, e2⟩ := hmass
  have h0 : steps.toNat = 0 := by omega
  have hring : w.RingOk := hw.prof.ringOk
  have pl : ∀ f k, f < w.fullCount → k < 2 → cls.place f k < s.nc * 2 := by
    intro f k hf hk
    have := hp.nc
    cases cls <;> simp only [Cls.place] <;> omega
  have ex : ∃ w', w.process cls env dt steps = .ok w' := by
    cases cls with
    | opt =>
      obtain ⟨w1, z, f1, f2, f3, f4, f5⟩ := propagate_spec
        (w := { w with st := s, mem := mem, nsv := w.nsv }) sh.rows sh.two sh.rb sh.cs hp.wf hp.n
        (pos := Cls.opt.place) pl
      obtain ⟨w3, r1, r2⟩ := record_ok (w := z.1) (by rw [f3]; exact hring) (fun _ => 0)
      have hpr : ({ w with st := s, mem := mem, nsv := w.nsv } : World ℝ).propagateResults s
          = .ok z.1 := by
        rw [World.propagateResults, f1, ok_bind]
        have f2 : w1.storeForces s (fun f k => f * 2 + k) = .ok z := f2
        rw [f2, ok_bind]
        rfl
      refine ⟨{ w3 with t := w3.t + dt }, ?_⟩
      show w.optProcess env dt steps = _
      rw [World.optProcess, e1, ok_bind, e2, ok_bind, World.optLoop, h0, forN, ok_bind]
      simp only []
      rw [hpr, ok_bind, r1, ok_bind]
      rfl
    | gen =>
      obtain ⟨w1, z, f1, f2, f3, f4, f5⟩ := propagate_spec
        (w := { w with st := s, mem := mem, ode := w.ode }) sh.rows sh.two sh.rb sh.cs hp.wf hp.n
        (pos := Cls.gen.place) pl
      obtain ⟨w3, r1, r2⟩ := record_ok (w := z.1) (by rw [f3]; exact hring) (fun _ => 0)
      have hst : w1.st = s := by
        rw [(wp_anyErr_iff.1 (storeBodies_wp _ _ _) _ f1).1]
      refine ⟨w3, ?_⟩
      show w.genProcess env dt steps = _
      rw [World.genProcess, e1, ok_bind, e2, ok_bind, World.genLoop, h0, forN, ok_bind]
      simp only []
      rw [f1, ok_bind, hst]
      have f2 : w1.storeForces s (fun f _ => f) = .ok z := f2
      rw [f2, ok_bind, r1]
  obtain ⟨w', e⟩ := ex
  refine ⟨w', e, fun i hi q j k hj hk => ?_⟩
  obtain ⟨s1, s', p⟩ := parts_of hw sh e
  rw [p.pop] at e1
  cases e1
  have st := p.stored (by rw [p.idle hs]; exact hp.wf) (by rw [p.idle hs]; exact hp.n)
    (by rw [p.idle hs]; exact hp.nc)
  rw [p.idle hs] at st
  have hrf := wp_anyErr_iff.1 rf_populateState _ p.pop
  have hlt := off_lt w hi hj
  obtain ⟨b, q2, _⟩ := (hp.wf (Or.inr (by have := hp.nc; omega))).rf q.r
  rw [st.con i hi q j k hj hk, SysState.rval, SysState.rval, ← hrf, q2]

/-- A system of either class with one body and one constraint, in which uninitialised memory contains
`v`. -/
theorem idle_demo (cls : Cls) (v : ℝ) : ∃ (h : List (Op ℝ)) (w : World ℝ),
    World.Hist Gen.Shipped cls h w ∧ w.Standard h ∧ w.sle ≠ none ∧ regCons h = {0} ∧
    regBodies h = {0} ∧ (w.cons 0).kind = .fixedRotation ⟨3, 0, 0⟩ ∧ w.cs = [0] ∧
    w.bodyCount = 1 ∧ w.fullCount = 1 ∧ w.st = SysState.mk0 (fun _ _ => v) (fun _ _ => 0) ∧
    (∀ b, (w.bodies b).m ≠ 0 ∧ (w.bodies b).I ≠ 0) ∧ w.ode = match cls with
      | .opt => none
      | .gen => some .newEuler := by
  let K : CKind ℝ := .fixedRotation ⟨3, 0, 0⟩
  let w0 : World ℝ := World.construct demoBody (demoCon K) (fun _ => .gravity 9) (fun _ => none)
    (Store.fresh (fun _ _ => v) fun _ _ => 0) (fun _ _ => v) (fun _ _ => 0)
  have a0 : World.Hist Gen.Shipped cls [] w0 := .start _ _ _ _ (fun _ => trivial) _ _ _ _
  have a1 : World.Hist Gen.Shipped cls [.addBody 0] (w0.addBody 0) :=
    a0.step (.addBody 0) (by simp [Op.Valid, regBodies]) rfl
  have a2 : World.Hist Gen.Shipped cls [.addCon 0, .addBody 0] ((w0.addBody 0).addCon 0) :=
    a1.step (.addCon 0) (by simp [Op.Valid, regCons]) rfl
  have hmass : ∀ b, (((w0.addBody 0).addCon 0).bodies b).m ≠ 0 ∧
      (((w0.addBody 0).addCon 0).bodies b).I ≠ 0 := by
    intro b
    simp only [World.addCon, World.setConIndex, World.addBody, World.setBodyIndex, upd]
    split <;> exact ⟨one_ne_zero, one_ne_zero⟩
  have std : ∀ w : World ℝ, w.cons = ((w0.addBody 0).addCon 0).cons →
      w.bodies = ((w0.addBody 0).addCon 0).bodies → ∀ op : Op ℝ,
      regCons (op :: [.addCon 0, .addBody 0]) = {0} → regBodies (op :: [.addCon 0, .addBody 0]) = {0} →
      regGens (op :: [.addCon 0, .addBody 0]) = ∅ →
      w.Standard (op :: [.addCon 0, .addBody 0]) := by
    intro w e hidx op r1 r2 r3
    refine ⟨fun c hc => ?_, fun c hc k hk => ?_, fun g hg => ?_, ?_⟩
    · rw [r1, mem_singleton] at hc
      subst hc
      rw [e]
      rfl
    · rw [r1, mem_singleton] at hc
      subst hc
      rw [e] at hk ⊢
      have : k < 1 := hk
      refine ⟨0, by rw [r2]; simp, ?_⟩
      rw [show k = 0 by omega]
      rfl
    · rw [r3] at hg
      simp at hg
    · intro c hc k hk b eb
      rw [r1, mem_singleton] at hc
      subst hc
      rw [e] at eb
      cases eb
      rw [hidx]
      have : (((w0.addBody 0).addCon 0).bodies k).index ≤ 0 := by
        simp only [World.addCon, World.setConIndex, World.addBody, World.setBodyIndex, upd]
        split
        · exact le_refl _
        · exact (by norm_num : (-1 : Int) ≤ 0)
      omega
  cases cls with
  | opt =>
    refine ⟨[.init (some .ge) none, .addCon 0, .addBody 0],
      ((w0.addBody 0).addCon 0).optInit (some .ge), a2.step (.init (some .ge) none)
        (fun o e => by cases e) rfl, ?_, by simp [World.optInit], ?_, ?_, rfl, rfl,
        rfl, rfl, rfl, hmass, rfl⟩
    · refine std (((w0.addBody 0).addCon 0).optInit (some .ge)) rfl rfl _ ?_ ?_ ?_ <;>
        simp [regCons, regBodies, regGens]
    all_goals simp [regCons, regBodies]
  | gen =>
    obtain ⟨m, e, _⟩ := Store.init0_spec ((w0.addBody 0).addCon 0).mem .ivLambda 0 0
      ((a2.sound divOk_real (fun g => Gen.tame)).mem.mat _)
    refine ⟨[.init (some .ge) (some .newEuler), .addCon 0, .addBody 0],
      { (w0.addBody 0).addCon 0 with sle := some .ge, ode := some .newEuler, mem := m },
      a2.step (.init (some .ge) (some .newEuler)) (by intro o e; cases e; trivial) ?_,
      ?_, by simp, ?_, ?_, rfl, rfl, rfl, rfl, rfl, hmass, rfl⟩
    · show World.genInit _ _ _ = _
      rw [World.genInit, e, ok_bind]
      rfl
    · refine std { (w0.addBody 0).addCon 0 with sle := some .ge, ode := some .newEuler, mem := m }
        rfl rfl _ ?_ ?_ ?_ <;> simp [regCons, regBodies, regGens]
    all_goals simp [regCons, regBodies]

/-- C70 fails in a new system of either class: a call with `steps ≤ 0` reports whatever the memory
contained that was allocated for the forces. -/
theorem C70_fresh_violates (cls : Cls) (v : ℝ) (env : Env ℝ) (dt : ℝ) {steps : Int}
    (hs : steps ≤ 0) : ∃ (h : List (Op ℝ)) (w w' : World ℝ), World.Hist Gen.Shipped cls h w ∧
      w.Standard h ∧ w.sle ≠ none ∧ regCons h = {0} ∧
      (w.cons 0).kind = .fixedRotation ⟨3, 0, 0⟩ ∧ w.process cls env dt steps = .ok w' ∧
      ∀ q : Coord, (w'.cons 0).F q 0 0 = v := by
  obtain ⟨h, w, a1, a2, a3, a4, a5, a6, a7, a8, a9, a10, a11, _⟩ := idle_demo cls v
  obtain ⟨w', e, hF⟩ := idle_runs (fun g => Gen.tame) a1 (fun c hc => by
      have := counts_le (a2.kind c hc); omega) (fun c hc => (counts_le (a2.kind c hc)).2.2.2)
      (fun b _ => a11 b) env dt hs
  refine ⟨h, w, w', a1, a2, a3, a4, a6, e, fun q => ?_⟩
  have hk := a2.kind 0 (by rw [a4]; simp)
  rw [a6] at hk
  simp only [CKind.counts, Option.some.injEq, Prod.mk.injEq] at hk
  have := hF 0 (by rw [a7]; simp) q 0 0
  simp only [a7, List.getElem_cons_zero] at this
  rw [this (by omega) (by omega), a8, a9, a10,
    SysState.resize_of_not _ (by simp [SysState.mk0]), off_zero]
  cases cls <;> cases q <;> rfl

/-- The claims applied to systems of both classes with a body and a constraint: the first call makes a
sub-step or not, the second makes none. -/
example (cls : Cls) (env : Env ℝ) : ∃ (h : List (Op ℝ)) (w w' w'' : World ℝ),
    World.Hist Gen.Shipped cls h w ∧ regCons h = {0} ∧ w.process cls env 2 0 = .ok w' ∧
    w'.bodies = w.bodies ∧ w'.process cls env 2 (-1) = .ok w'' ∧ w''.bodies = w'.bodies ∧
    ∀ q : Coord, (w''.cons 0).F q 0 0 = (w'.cons 0).F q 0 0 := by
  obtain ⟨h, w, a1, a2, a3, a4, a5, a6, a7, a8, a9, a10, a11, a12⟩ := idle_demo cls 7
  have hr : ∀ c ∈ regCons h, 1 ≤ (w.cons c).rows ∧ (w.cons c).rows ≤ 3 := fun c hc => by
    have := counts_le (a2.kind c hc); omega
  have h2 : ∀ c ∈ regCons h, (w.cons c).bodyCount ≤ 2 := fun c hc => (counts_le (a2.kind c hc)).2.2.2
  obtain ⟨w', e, _⟩ := idle_runs (fun g => Gen.tame) a1 hr h2 (fun b _ => a11 b) env 2 (le_refl 0)
  have b1 := C70_bodies divOk_real (fun g => Gen.tame) a1 hr h2 le_rfl e
  have a1' : World.Hist Gen.Shipped cls (.process env 2 0 :: h) w' := a1.step _ trivial e
  obtain ⟨_, _, p⟩ := parts_of a1 (shaped_of divOk_real (fun g => Gen.tame) a1 hr h2) e
  have hr' : ∀ c ∈ regCons (.process env 2 0 :: h), 1 ≤ (w'.cons c).rows ∧ (w'.cons c).rows ≤ 3 :=
    fun c hc => by rw [p.moves.rows]; exact hr c hc
  have h2' : ∀ c ∈ regCons (.process env 2 0 :: h), (w'.cons c).bodyCount ≤ 2 :=
    fun c hc => by rw [p.moves.bodyCount]; exact h2 c hc
  obtain ⟨w'', e', _⟩ := idle_runs (fun g => Gen.tame) a1' hr' h2' (fun b _ => by rw [b1]; exact a11 b)
    env 2 (show (-1 : Int) ≤ 0 by decide)
  have hk := a2.kind 0 (by rw [a4]; simp)
  rw [a6] at hk
  simp only [CKind.counts, Option.some.injEq, Prod.mk.injEq] at hk
  exact ⟨h, w, w', w'', a1, a4, e, b1, e', C70_bodies divOk_real (fun g => Gen.tame) a1' hr' h2'
    (by decide) e', fun q => C70_forces_partial divOk_real (fun g => Gen.tame) a1 hr h2
      (by
        cases cls
        · exact .inl rfl
        · exact .inr (.inr fun r => by rw [a12]; simp [Ode.newEuler])) e (by decide) e'
      (by rw [a4]; simp) q (by omega) (by omega)⟩

end

end Scs
