import Verif.WorldSync

/-!
Support for C70: what `process` does when it makes no sub-step, and that the reported forces are
those in the arrays of the state.
-/

namespace Scs

theorem bind_inv {β γ : Type} {m : Exec β} {f : β → Exec γ} {y : γ} (e : (m >>= f) = .ok y) :
    ∃ x, m = .ok x ∧ f x = .ok y := by
  cases m with
  | error x => cases e
  | ok x => exact ⟨x, rfl, e⟩

section
variable {α : Type} [Zero α] [Add α] [Mul α] [Sub α] [Neg α] [Fp α] {n nc : Nat} {s : SysState α}

theorem wr_rf (s : SysState α) (f : Fld) (i : Int) (v : α) :
    Wp (s.wr f i v) (fun s' => s'.rf = s.rf) anyErr := by
  rw [SysState.wr]
  exact wp_anyOf fun _ => rfl

theorem imSet_rf (s : SysState α) (i : Int) (v : Nat) :
    Wp (s.imSet i v) (fun s' => s'.rf = s.rf) anyErr := by
  rw [SysState.imSet]
  exact wp_anyOf fun _ => rfl

/-- `populateSystemState` leaves the reaction arrays alone, except that it may replace them. -/
theorem rf_populateState {w : World α} : Wp w.populateState
    (fun s => s.rf = (w.st.resize w.bodyCount w.fullCount).rf) anyErr := by
  have k : ∀ (R : CFld → Option (Buf α)) (s : SysState α) (f : Fld) (i : Int) (v : α), s.rf = R →
      Wp (s.wr f i v) (fun s' => s'.rf = R) anyErr := fun R s f i v h =>
    (wr_rf s f i v).mono (fun _ q => q.trans h) fun _ q => q
  rw [World.populateState]
  refine ib (ifor (R := fun s : SysState α => s.rf = (w.st.resize w.bodyCount w.fullCount).rf) rfl
    fun i s h => ?_) fun s h => ?_
  · rw [World.popBody]
    refine wp_anyOf fun id => ?_
    refine ib (k _ _ _ _ _ h) fun s h => ?_
    refine ib (k _ _ _ _ _ h) fun s h => ?_
    refine ib (k _ _ _ _ _ h) fun s h => ?_
    refine ib (k _ _ _ _ _ h) fun s h => ?_
    refine ib (k _ _ _ _ _ h) fun s h => ?_
    refine ib (k _ _ _ _ _ h) fun s h => ?_
    refine ib (k _ _ _ _ _ h) fun s h => ?_
    refine ib (k _ _ _ _ _ h) fun s h => ?_
    refine ib (k _ _ _ _ _ h) fun s h => ?_
    exact k _ _ _ _ _ h
  · refine ib (R := fun q : SysState α × Nat => q.1.rf = (w.st.resize w.bodyCount w.fullCount).rf)
      ?_ fun q h => h
    rw [World.popIndex]
    refine ifor (R := fun q : SysState α × Nat => q.1.rf = (w.st.resize w.bodyCount w.fullCount).rf)
      h fun i q h => ?_
    refine ib ((imSet_rf _ _ _).mono (fun _ q => q.trans h) fun _ q => q) fun s h => ?_
    exact wp_anyOf fun _ => h

theorem z_optEval {w : World α} (hg : ∀ g ∈ w.fg, (w.gens g).OnlyForces) {env : Env α} {dt : α}
    {x : Ctx α} (h : s.Sz n nc) : Wp (w.optEval env dt x s) (fun q => q.2.Sz n nc) anyErr := by
  rw [World.optEval]
  refine ib ((processForces_wp hg s).mono (fun s' q => sz_force h q) fun _ q => q) fun s h => ?_
  refine ib (R := fun q => q.2.Sz n nc) ?_ fun q h => h
  rw [World.optConstraints]
  refine wp_anyOf fun _ => wp_anyOf fun _ => wp_anyOf fun _ => wp_anyOf fun _ =>
    wp_anyOf fun _ => ?_
  exact ib (z_applyReactions h) fun s h => h

/-- Where `process` finds the force of row `f` on the body `k`. -/
def Cls.place : Cls → Nat → Nat → Nat
  | .opt => fun f k => f * 2 + k
  | .gen => fun f _ => f

/-- The shape of the registered constraints. -/
structure World.Shaped (w : World α) : Prop where
  rb : w.rb.Nodup
  cs : w.cs.Nodup
  st : w.st.Wf
  con : w.conCount ≤ w.fullCount
  rows : ∀ c ∈ w.cs, (w.cons c).rows ≤ 3
  two : ∀ c ∈ w.cs, (w.cons c).bodyCount ≤ 2

theorem World.Shaped.tail {w : World α} (sh : w.Shaped) {s : SysState α} (hs : s.Wf)
    (hn : w.bodyCount ≤ s.n) (hc : w.fullCount ≤ s.nc) (cls : Cls) {w0 w1 : World α}
    {z : World α × Nat} (e0 : w0.rb = w.rb ∧ w0.cs = w.cs ∧ w0.cons = w.cons ∧ w0.bodies = w.bodies)
    (e1 : forN w0.bodyCount (World.storeBody s) w0 = .ok w1)
    (e2 : w1.storeForces s cls.place = .ok z) :
    w.Stored { z.1 with st := s } s cls.place := by
  obtain ⟨a1, a2, a3, a4⟩ := e0
  have full : w0.fullCount = w.fullCount := by rw [World.fullCount, World.fullCount, a2, a3]
  have bc : w0.bodyCount = w.bodyCount := by rw [World.bodyCount, World.bodyCount, a1]
  have off : ∀ i, w0.off i = w.off i := fun i => by
    rw [World.off, World.off, World.rowCounts, World.rowCounts, a2, a3]
  have rbAt : ∀ i, w0.rbAt i = w.rbAt i := fun i => by rw [World.rbAt, World.rbAt, a1]
  obtain ⟨w1', z', f1, f2, _, _, f5⟩ := propagate_spec (w := w0) (by rw [a2, a3]; exact sh.rows)
    (by rw [a2, a3]; exact sh.two) (by rw [a1]; exact sh.rb) (by rw [a2]; exact sh.cs) hs
    (by rw [bc]; exact hn) (pos := cls.place) (by
      intro f k hf hk
      rw [full] at hf
      cases cls <;> simp only [Cls.place] <;> omega)
  rw [e1] at f1
  cases f1
  rw [e2] at f2
  cases f2
  refine ⟨fun i hi q => ?_, fun i hi q j k hj hk => ?_, f5.st⟩
  · rw [← rbAt]
    exact f5.body i (by rw [bc]; exact hi) q
  · have := f5.con i (by rw [a2]; exact hi) q j k
    simp only [a2, a3, off] at this
    exact this hj hk

/-- The parts of a call of `process`. -/
structure World.Parts (cls : Cls) (w : World α) (steps : Int) (w' : World α)
    (s s' : SysState α) : Prop where
  pop : w.populateState = .ok s
  st : w'.st = s'
  moves : w.Moves w'
  idle : steps ≤ 0 → s' = s
  stored : s'.Wf → w.bodyCount ≤ s'.n → w.fullCount ≤ s'.nc → w.Stored w' s' cls.place

theorem opt_parts {w w' : World α} (sh : w.Shaped) {env : Env α} {dt : α} {steps : Int}
    (hn : w.nsv.sort = 2) (e : w.optProcess env dt steps = .ok w') :
    ∃ s mem q, w.populateMass w.mem = .ok mem ∧ w.optLoop env dt steps s mem = .ok q ∧
      w.Parts .opt steps w' s q.2.2 := by
  have hmv := ((optProcess_wp w env dt steps hn).of_eq e).1.moves
  rw [World.optProcess] at e
  obtain ⟨s, e1, e⟩ := bind_inv e
  obtain ⟨mem, e2, e⟩ := bind_inv e
  obtain ⟨q, e3, e⟩ := bind_inv e
  simp only [World.propagateResults, bind_assoc] at e
  obtain ⟨w1, e4, e⟩ := bind_inv e
  obtain ⟨z, e5, e⟩ := bind_inv e
  rw [pure_bind] at e
  obtain ⟨w2, e6, e⟩ := bind_inv e
  cases e
  have h1 := wp_anyErr_iff.1 (storeBodies_wp _ _ _) _ e4
  have h2 := wp_anyErr_iff.1 (storeForces_wp _ _ _) _ e5
  have h3 := wp_anyErr_iff.1 (record_wp _ _) _ e6
  refine ⟨s, mem, q, e2, e3, e1, ?_, hmv, fun hs => ?_, fun a b c => ?_⟩
  · show w2.st = _
    rw [h3.1]; show z.1.st = _; rw [h2.1]; show w1.st = _; rw [h1.1]
  · rw [World.optLoop, show steps.toNat = 0 by omega, forN] at e3
    cases e3
    rfl
  · have := sh.tail a b c .opt (w0 := { w with st := q.2.2, mem := q.1.mem, nsv := q.2.1 })
      ⟨rfl, rfl, rfl, rfl⟩ e4 e5
    refine ⟨fun i hi c => ?_, fun i hi c j k hj hk => ?_, ?_⟩
    · have := this.body i hi c
      simp only []
      rw [h3.1]
      exact this
    · have := this.con i hi c j k hj hk
      simp only []
      rw [h3.1]
      exact this
    · show w2.st = _
      rw [h3.1]; show z.1.st = _; rw [h2.1]; show w1.st = _; rw [h1.1]

theorem gen_parts {w w' : World α} (sh : w.Shaped) {env : Env α} {dt : α} {steps : Int}
    (e : w.genProcess env dt steps = .ok w') :
    ∃ s mem q, w.populateMass w.mem = .ok mem ∧ w.genLoop env dt steps s mem = .ok q ∧
      w.Parts .gen steps w' s q.2.2 := by
  have hmv := ((genProcess_wp w env dt steps).of_eq e).1.moves
  rw [World.genProcess] at e
  obtain ⟨s, e1, e⟩ := bind_inv e
  obtain ⟨mem, e2, e⟩ := bind_inv e
  obtain ⟨q, e3, e⟩ := bind_inv e
  simp only [] at e
  obtain ⟨w1, e4, e⟩ := bind_inv e
  obtain ⟨z, e5, e6⟩ := bind_inv e
  have h1 := wp_anyErr_iff.1 (storeBodies_wp _ _ _) _ e4
  have h2 := wp_anyErr_iff.1 (storeForces_wp _ _ _) _ e5
  have h3 := wp_anyErr_iff.1 (record_wp _ _) _ e6
  have hst : w1.st = q.2.2 := by rw [h1.1]
  rw [hst] at e5
  refine ⟨s, mem, q, e2, e3, e1, ?_, hmv, fun hs => ?_, fun a b c => ?_⟩
  · rw [h3.1]; show z.1.st = _; rw [h2.1]; exact hst
  · rw [World.genLoop, show steps.toNat = 0 by omega, forN] at e3
    cases e3
    rfl
  · have := sh.tail a b c .gen (w0 := { w with st := q.2.2, mem := q.1.mem, ode := q.2.1 })
      ⟨rfl, rfl, rfl, rfl⟩ e4 e5
    refine ⟨fun i hi c => ?_, fun i hi c j k hj hk => ?_, ?_⟩
    · have := this.body i hi c
      rw [h3.1]
      exact this
    · have := this.con i hi c j k hj hk
      rw [h3.1]
      exact this
    · rw [h3.1]; show z.1.st = _; rw [h2.1]; exact hst

/-- The state after the sub-steps of the optimized system. -/
theorem optLoop_sz (hd : DivOk α) {w : World α} (h : w.Sound) {env : Env α} {dt : α} {steps : Int}
    {s : SysState α} {mem : Store α} (hm : MemOk mem) (hs : s.Reach) (hn : w.nsv.sort = 2) :
    Wp (w.optLoop env dt steps s mem) (fun q => q.2.2.Wf ∧ q.2.2.Sz s.n s.nc) anyErr := by
  rw [World.optLoop]
  refine (ifor (R := fun q : Ctx α × Ode α × SysState α => MemOk q.1.mem ∧ q.2.1.Idle ∧
    q.2.1.sort = 2 ∧ q.2.2.Reach ∧ q.2.2.Sz s.n s.nc) ⟨hm, h.nsv, hn, hs, rfl, rfl⟩
    fun i q hq => wp_anyOf fun hh => ?_).mono (fun q hq => ⟨hq.2.2.2.1.wf, hq.2.2.2.2⟩) fun _ q => q
  obtain ⟨q1, q2, q3, q4, q5⟩ := hq
  have ht : q.2.1.Takes q.2.2 := by
    revert q3
    cases q.2.1 with
    | rk4 r => intro h; cases h
    | _ => exact fun _ => trivial
  have a1 := z_odeRun (ev := w.optEval env hh) (fun x s hs => z_optEval (fun g _ => h.gens g) hs)
    (x := q.1) q4.wf q5 ht hh
  have a2 := reach_odeRun (ev := w.optEval env hh) (X := fun x : Ctx α => MemOk x.mem)
    (fun x s hx hs => (m_optEval hd (fun g _ => h.gens g) hx hs).mono
                (fun _ q => ⟨q.1.1, q.2⟩) fun _ q => q) q1 q2.whole q4 hh
  have a3 := odeRun_wp (ev := w.optEval env hh) (A := fun _ _ _ => True)
    (fun _ _ _ _ _ _ _ => trivial) (fun _ _ => wp_anyErr_iff.2 fun _ _ => trivial) q.1 q.2.1 q.2.2 hh
  refine wp_anyErr_iff.2 fun z e => ?_
  have b1 := wp_anyErr_iff.1 a1 z e
  have b2 := wp_anyErr_iff.1 a2 z e
  have b3 := wp_anyErr_iff.1 a3 z e
  exact ⟨b2.1, b2.2.1, b3.2.trans q3, b2.2.2, b1.2⟩

/-- The state after the sub-steps of the generic system. -/
theorem genLoop_sz (hd : DivOk α) {w : World α} (h : w.Sound) {env : Env α} {dt : α} {steps : Int}
    {s : SysState α} {mem : Store α} (hm : MemOk mem) (hs : s.Reach)
    (ho : ∀ o, w.ode = some o → o.Takes s) :
    Wp (w.genLoop env dt steps s mem) (fun q => q.2.2.Wf ∧ q.2.2.Sz s.n s.nc) anyErr := by
  rw [World.genLoop]
  refine (ifor (R := fun q : Ctx α × Option (Ode α) × SysState α => MemOk q.1.mem ∧ q.2.2.Reach ∧
    q.2.2.Sz s.n s.nc ∧ ∀ o, q.2.1 = some o → o.Takes q.2.2 ∧ o.Whole)
    ⟨hm, hs, ⟨rfl, rfl⟩, fun o e => ⟨ho o e, (h.ode o e).whole⟩⟩ fun i q hq => ?_).mono
      (fun q hq => ⟨hq.2.1.wf, hq.2.2.1⟩) fun _ q => q
  obtain ⟨q1, q2, q3, q4⟩ := hq
  cases ho : q.2.1 with
  | none => trivial
  | some o =>
    rw [deref, ok_bind]
    obtain ⟨q5, q6⟩ := q4 o ho
    refine wp_anyOf fun hh => ?_
    refine ib (R := fun z : Ctx α × Ode α × SysState α => (z.2.1.Sz s.n s.nc ∧
      z.2.2.Sz s.n s.nc) ∧ MemOk z.1.mem ∧ z.2.1.Idle ∧ z.2.2.Reach)
      (wp_anyErr_iff.2 fun z e => ⟨wp_anyErr_iff.1 (z_odeRun (fun x s hs =>
        z_genEval (fun g _ => h.gens g) hs) q2.wf q3 q5 hh) z e,
        wp_anyErr_iff.1 (reach_odeRun (X := fun x : Ctx α => MemOk x.mem)
          (fun x s hx hs => (m_genEval hd (fun g _ => h.gens g) hx hs).mono
            (fun _ q => ⟨q.1.1, q.2⟩) fun _ q => q) q1 q6 q2 hh) z e⟩) fun z hz => ?_
    obtain ⟨⟨z1, z2⟩, z3, z4, z5⟩ := hz
    have hz' : z.2.1.Sz z.2.2.n z.2.2.nc := by rw [z2.1, z2.2]; exact z1
    refine ⟨z3, z5, z2, fun o e => ?_⟩
    cases e
    refine ⟨?_, z4.whole⟩
    revert z4 hz'
    cases z.2.1 with
    | rk4 r => exact fun z4 hz' => ⟨⟨z4.2.2.1.wf, .inl hz'.1⟩, z4.2.2.2.wf, .inl hz'.2⟩
    | _ => exact fun _ _ => trivial

end

end Scs
