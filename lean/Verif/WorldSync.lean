import Verif.WorldSafe
import Verif.OdeKeep

/-!
Support for C68: the states inside an RK4 solver have the size of `m_state` or are new, as long as
every call of `process` since the last `initialize` has at least one sub-step. Also: the systems of
shipped and of careful constraints and generators meet `World.Guarded`.
-/

namespace Scs

section
variable {α : Type}

/-- The number of bodies and rows in the state. -/
def SysState.Sz (n nc : Nat) (s : SysState α) : Prop := s.n = n ∧ s.nc = nc

variable {n nc : Nat} {s : SysState α}

theorem z_wr (h : s.Sz n nc) (f : Fld) (i : Int) (v : α) :
    Wp (s.wr f i v) (SysState.Sz n nc) anyErr := by
  simp only [SysState.wr]
  exact wp_anyOf fun _ => h

theorem z_rwr (h : s.Sz n nc) (f : CFld) (i : Int) (v : α) :
    Wp (s.rwr f i v) (SysState.Sz n nc) anyErr := by
  simp only [SysState.rwr]
  exact wp_anyOf fun _ => h

theorem z_imSet (h : s.Sz n nc) (i : Int) (v : Nat) :
    Wp (s.imSet i v) (SysState.Sz n nc) anyErr := by
  simp only [SysState.imSet]
  exact wp_anyOf fun _ => h

theorem sz_loose (n nc : Nat) : Loose (SysState.Sz n nc : SysState α → Prop) where
  wr := fun _ h e => wp_anyErr_iff.1 (z_wr h _ _ _) _ e
  rwr := fun h e => wp_anyErr_iff.1 (z_rwr h _ _ _) _ e
  dt := fun _ h => h

theorem sz_force {s' : SysState α} (h : s.Sz n nc) (f : ForceWrites s s') : s'.Sz n nc := by
  induction f with
  | refl => exact h
  | wr _ _ i v e ih => exact wp_anyErr_iff.1 (z_wr ih _ _ _) _ e

end

section
variable {α : Type} [Zero α] [Add α] [Mul α] [Sub α] [Neg α] [Fp α] {n nc : Nat} {s : SysState α}

theorem z_addTo (h : s.Sz n nc) (f : Fld) (i : Int) (v : α) :
    Wp (s.addTo f i v) (SysState.Sz n nc) anyErr := wp_anyOf fun _ => z_wr h _ _ _

theorem z_populateState {w : World α} : Wp w.populateState
    (SysState.Sz (w.st.resize w.bodyCount w.fullCount).n (w.st.resize w.bodyCount w.fullCount).nc)
    anyErr := by
  rw [World.populateState]
  refine ib (ifor (R := SysState.Sz (w.st.resize w.bodyCount w.fullCount).n
    (w.st.resize w.bodyCount w.fullCount).nc) ⟨rfl, rfl⟩ fun i s h => ?_) fun s h => ?_
  · rw [World.popBody]
    refine wp_anyOf fun id => ?_
    refine ib (z_wr h _ _ _) fun s h => ?_
    refine ib (z_wr h _ _ _) fun s h => ?_
    refine ib (z_wr h _ _ _) fun s h => ?_
    refine ib (z_wr h _ _ _) fun s h => ?_
    refine ib (z_wr h _ _ _) fun s h => ?_
    refine ib (z_wr h _ _ _) fun s h => ?_
    refine ib (z_wr h _ _ _) fun s h => ?_
    refine ib (z_wr h _ _ _) fun s h => ?_
    refine ib (z_wr h _ _ _) fun s h => ?_
    exact z_wr h _ _ _
  · refine ib (R := fun q => SysState.Sz (w.st.resize w.bodyCount w.fullCount).n
      (w.st.resize w.bodyCount w.fullCount).nc q.1) ?_ fun q h => by rw [wp_pure]; exact h
    rw [World.popIndex]
    refine ifor (R := fun (q : SysState α × Nat) => SysState.Sz (w.st.resize w.bodyCount w.fullCount).n
      (w.st.resize w.bodyCount w.fullCount).nc q.1) h fun i q h => ?_
    refine ib (z_imSet h _ _) fun s h => ?_
    exact wp_anyOf fun _ => h

theorem z_applyReactions {w : World α} {mem : Store α} (h : s.Sz n nc) :
    Wp (w.applyReactions mem s) (SysState.Sz n nc) anyErr := by
  rw [World.applyReactions]
  refine ib (R := SysState.Sz n nc) ?_ fun s h => ib (R := SysState.Sz n nc) ?_ fun s h => ?_
  · rw [writeReactions]
    refine ifor h fun i s h => ifor h fun j s h => ?_
    refine wp_anyOf fun _ => ib (z_rwr h _ _ _) fun s h => ?_
    refine wp_anyOf fun _ => ib (z_rwr h _ _ _) fun s h => ?_
    exact wp_anyOf fun _ => z_rwr h _ _ _
  · rw [startAccel]
    refine ifor h fun i s h => ?_
    refine wp_anyOf fun _ => ib (z_wr h _ _ _) fun s h => ?_
    refine wp_anyOf fun _ => ib (z_wr h _ _ _) fun s h => ?_
    exact wp_anyOf fun _ => z_wr h _ _ _
  · refine ib (R := fun q => q.1.Sz n nc) ?_ fun q h => ?_
    · rw [World.addReactions]
      refine ifor (R := fun (q : SysState α × Nat) => q.1.Sz n nc) h fun i q h => ?_
      refine wp_anyOf fun _ => ifor (R := fun (q : SysState α × Nat) => q.1.Sz n nc) h
        fun i q h => ?_
      refine ib (R := SysState.Sz n nc) ?_ fun s h => h
      rw [addReaction]
      refine ifor h fun i s h => ?_
      refine wp_anyOf fun _ => wp_anyOf fun _ => ib (z_addTo h _ _ _) fun s h => ?_
      refine wp_anyOf fun _ => ib (z_addTo h _ _ _) fun s h => ?_
      exact wp_anyOf fun _ => z_addTo h _ _ _
    · rw [scaleAccel]
      refine ifor h fun i s h => ?_
      refine wp_anyOf fun _ => wp_anyOf fun _ => ib (wp_anyOf fun _ => z_wr h _ _ _) fun s h => ?_
      exact ib (wp_anyOf fun _ => z_wr h _ _ _) fun s h => wp_anyOf fun _ => z_wr h _ _ _

theorem z_genEval {w : World α} (hg : ∀ g ∈ w.fg, (w.gens g).OnlyForces) {env : Env α} {x : Ctx α}
    (h : s.Sz n nc) : Wp (w.genEval env x s) (fun q => q.2.Sz n nc) anyErr := by
  rw [World.genEval]
  refine ib ((processForces_wp hg s).mono (fun s' q => sz_force h q) fun _ q => q) fun s h => ?_
  refine ib (R := fun q => q.2.Sz n nc) ?_ fun q h => h
  rw [World.genConstraints]
  refine wp_anyOf fun _ => wp_anyOf fun _ => wp_anyOf fun _ => wp_anyOf fun _ =>
    wp_anyOf fun _ => wp_anyOf fun _ => ?_
  exact ib (z_applyReactions h) fun s h => h

/-! ## The states inside a solver -/

/-- The sizes of the states inside an RK4 solver. -/
def Ode.Sz (n nc : Nat) : Ode α → Prop
  | .rk4 r => r.init.Sz n nc ∧ r.acc.Sz n nc
  | _ => True

/-- The RK4 solver has not been used yet. -/
def Ode.New : Ode α → Prop
  | .rk4 r => r.init.Sz 0 0 ∧ r.acc.Sz 0 0
  | _ => True

theorem z_copy {d d' : SysState α} (hd : d.Wf) (hs : s.Wf) (hf : d.Fits s)
    (e : d.copy s = .ok d') : d'.Sz s.n s.nc := by
  obtain ⟨d1, e1, _, h2, h3, _⟩ := copy_fits hd hs hf
  rw [e1] at e
  cases e
  exact ⟨h2, h3⟩

theorem z_start {o : Ode α} (hs : s.Wf) (ht : o.Takes s) (dt : α) :
    Wp (o.start s dt) (Ode.Sz s.n s.nc) anyErr := by
  cases o with
  | base d => trivial
  | euler d => trivial
  | nsv d => trivial
  | rk4 r =>
    obtain ⟨⟨hi, fi⟩, ha, fa⟩ := ht
    obtain ⟨i, e1, _, h2, h3, _⟩ := copy_fits hi hs fi
    obtain ⟨a, e2, _, h5, h6, _⟩ := copy_fits ha hs fa
    simp only [Ode.start, Rk4.start, e1, e2, ok_bind]
    exact ⟨⟨h2, h3⟩, h5, h6⟩

theorem z_step {o : Ode α} (ho : o.Sz n nc) : Wp (o.step s) (fun q => q.1.Sz n nc) anyErr := by
  cases o with
  | base d => trivial
  | euler d => trivial
  | nsv d => trivial
  | rk4 r =>
    rw [Ode.step]
    refine ib (R := fun q : Rk4 α × SysState α × Bool => q.1.init.Sz n nc ∧ q.1.acc.Sz n nc) ?_
      fun q h => h
    simp only [Rk4.step]
    cases r.stage <;> simp only []
    · exact ho
    · exact wp_anyOf fun _ => wp_anyOf fun _ => ho
    · exact wp_anyOf fun _ => wp_anyOf fun _ => ho
    · exact wp_anyOf fun _ => ho
    · exact ho
    · exact ho

theorem z_rkAcc {dt w : α} {sys : SysState α} (h : s.Sz n nc) (v a : Fld) (i : Nat) :
    Wp (rkAcc dt w sys v a i s) (SysState.Sz n nc) anyErr :=
  wp_anyOf fun _ => wp_anyOf fun _ => z_addTo h _ _ _

theorem z_rkAccR {dt w : α} {sys : SysState α} (h : s.Sz n nc) (f : CFld) (i : Nat) :
    Wp (rkAccR dt w sys f i s) (SysState.Sz n nc) anyErr :=
  wp_anyOf fun _ => wp_anyOf fun _ => wp_anyOf fun _ => z_rwr h _ _ _

theorem z_solve {o : Ode α} (ho : o.Sz n nc) : Wp (o.solve s) (fun q => q.1.Sz n nc) anyErr := by
  cases o with
  | base d => trivial
  | euler d => exact wp_anyOf fun _ => trivial
  | nsv d => exact wp_anyOf fun _ => trivial
  | rk4 r =>
    obtain ⟨hi, ha⟩ := ho
    rw [Ode.solve]
    refine ib (R := fun q : Rk4 α × SysState α => q.1.init.Sz n nc ∧ q.1.acc.Sz n nc) ?_
      fun q h => h
    simp only [Rk4.solve]
    refine ib (ifor (R := SysState.Sz n nc) ha fun i a ha => ?_) fun a ha =>
      ib (ifor (R := SysState.Sz n nc) ha fun i a ha => ?_) fun a ha => ?_
    · exact ib (z_rkAcc ha _ _ _) fun _ ha => ib (z_rkAcc ha _ _ _) fun _ ha =>
        ib (z_rkAcc ha _ _ _) fun _ ha => ib (z_rkAcc ha _ _ _) fun _ ha =>
        ib (z_rkAcc ha _ _ _) fun _ ha => z_rkAcc ha _ _ _
    · exact ib (z_rkAccR ha _ _) fun _ ha => ib (z_rkAccR ha _ _) fun _ ha => z_rkAccR ha _ _
    · split
      · exact wp_anyOf fun _ => wp_anyOf fun _ => ⟨hi, ha⟩
      · exact ⟨hi, ha⟩

theorem z_odeLoop {τ : Type} {ev : τ → SysState α → Exec (τ × SysState α)}
    (hev : ∀ x s, s.Sz n nc → Wp (ev x s) (fun q => q.2.Sz n nc) anyErr) :
    ∀ (k : Nat) (x : τ) (o : Ode α) (s : SysState α), s.Sz n nc → o.Sz n nc →
      Wp (odeLoop ev k x o s) (fun z => z.2.1.Sz n nc ∧ z.2.2.Sz n nc) anyErr
  | 0, _, _, _, _, _ => trivial
  | k + 1, x, o, s, hs, ho => by
    rw [odeLoop]
    refine ib (R := fun q => q.1.Sz n nc ∧ q.2.1.Sz n nc) (wp_anyErr_iff.2 fun q e =>
      ⟨wp_anyErr_iff.1 (z_step ho) q e, wp_anyErr_iff.1 ((sz_loose n nc).step hs) q e⟩) fun q hq => ?_
    refine ib (hev _ _ hq.2) fun e he => ?_
    refine ib (R := fun z => z.1.Sz n nc ∧ z.2.Sz n nc) (wp_anyErr_iff.2 fun z e =>
      ⟨wp_anyErr_iff.1 (z_solve hq.1) z e, wp_anyErr_iff.1 ((sz_loose n nc).solve he) z e⟩)
      fun z hz => ?_
    cases q.2.2 with
    | true => exact hz
    | false => exact z_odeLoop hev k _ _ _ hz.2 hz.1

theorem z_odeRun {τ : Type} {ev : τ → SysState α → Exec (τ × SysState α)}
    (hev : ∀ x s, s.Sz n nc → Wp (ev x s) (fun q => q.2.Sz n nc) anyErr) {x : τ} {o : Ode α}
    (hw : s.Wf) (hs : s.Sz n nc) (ho : o.Takes s) (dt : α) :
    Wp (odeRun ev x o s dt) (fun z => z.2.1.Sz n nc ∧ z.2.2.Sz n nc) anyErr := by
  rw [odeRun]
  refine ib (z_start hw ho dt) fun o ho => ?_
  refine ib (z_odeLoop hev 5 x o s hs (by rw [← hs.1, ← hs.2]; exact ho)) fun z hz => ?_
  refine ⟨?_, hz.2⟩
  have h := hz.1
  revert h
  cases z.2.1 <;> exact fun h => h

/-! ## Histories -/

/-- The states inside the RK4 solver are new or have the size of `m_state`. -/
def World.Matched (w : World α) : Prop :=
  match w.ode with
  | some (.rk4 r) => (r.init.Sz 0 0 ∨ r.init.Sz w.st.n w.st.nc) ∧
      (r.acc.Sz 0 0 ∨ r.acc.Sz w.st.n w.st.nc)
  | _ => True

theorem fits_new {d s : SysState α} (h : d.Sz 0 0) : d.Fits s := by
  by_cases hs : s.n = 0 ∧ s.nc = 0
  · exact .inl ⟨h.1.trans hs.1.symm, h.2.trans hs.2.symm⟩
  · refine .inr fun hh => hs ?_
    rw [h.1, h.2] at hh
    omega

theorem fits_same {d t s : SysState α} {n nc : Nat} (h : d.Sz t.n t.nc)
    (hs : s.Sz (t.resize n nc).n (t.resize n nc).nc) : d.Fits s := by
  by_cases hr : n ≤ t.n ∧ nc ≤ t.nc
  · rw [SysState.resize_of_ge t hr.1 hr.2] at hs
    exact .inl ⟨h.1.trans hs.1.symm, h.2.trans hs.2.symm⟩
  · rw [SysState.resize_of_not t hr] at hs
    have h1 : s.n = n := hs.1
    have h2 : s.nc = nc := hs.2
    exact .inr fun hh => hr ⟨by rw [← h1, ← h.1]; exact hh.1, by rw [← h2, ← h.2]; exact hh.2⟩

theorem World.Matched.takes {w : World α} (h : w.Matched) {o : Ode α} (ho : w.ode = some o)
    (hi : o.Idle) {s : SysState α} {n nc : Nat}
    (hs : s.Sz (w.st.resize n nc).n (w.st.resize n nc).nc) : o.Takes s := by
  cases o with
  | rk4 r =>
    rw [World.Matched, ho] at h
    obtain ⟨_, _, hi, ha⟩ := hi
    refine ⟨⟨hi.wf, ?_⟩, ha.wf, ?_⟩
    · rcases h.1 with h | h
      · exact fits_new h
      · exact fits_same h hs
    · rcases h.2 with h | h
      · exact fits_new h
      · exact fits_same h hs
  | _ => trivial

/-- After a call with at least one sub-step the sizes agree. -/
theorem genProcess_matched (hd : DivOk α) {w : World α} (h : w.Sound) (hm : w.Matched)
    (env : Env α) (dt : α) {steps : Int} (h1 : 1 ≤ steps) :
    Wp (w.genProcess env dt steps) World.Matched anyErr := by
  rw [World.genProcess]
  refine ib (R := fun s : SysState α => s.Reach ∧ s.Sz (w.st.resize w.bodyCount w.fullCount).n
    (w.st.resize w.bodyCount w.fullCount).nc) (wp_anyErr_iff.2 fun s e =>
      ⟨wp_anyErr_iff.1 (reach_populateState h.st) s e, wp_anyErr_iff.1 z_populateState s e⟩)
    fun s hs => ib (m_populateMass h.mem) fun m hmm => ?_
  refine ib (R := fun q : Ctx α × Option (Ode α) × SysState α =>
    ∃ o, q.2.1 = some o ∧ o.Sz q.2.2.n q.2.2.nc) ?_ fun q hq => ?_
  · rw [World.genLoop]
    obtain ⟨k, hk⟩ : ∃ k, steps.toNat = k + 1 := ⟨steps.toNat - 1, by omega⟩
    rw [hk, forN]
    have main : ∀ i (q : Ctx α × Option (Ode α) × SysState α), (MemOk q.1.mem ∧ q.2.2.Reach ∧
        q.2.2.Sz s.n s.nc ∧ ∀ o, q.2.1 = some o → o.Takes q.2.2 ∧ o.Whole) →
        Wp ((fun _ q => do
          let o ← deref q.2.1
          let h ← Fp.div dt (Fp.lit steps)
          let z ← odeRun (w.genEval env) q.1 o q.2.2 h
          pure (z.1, some z.2.1, z.2.2) : Nat → Ctx α × Option (Ode α) × SysState α → _) i q)
        (fun q => (MemOk q.1.mem ∧ q.2.2.Reach ∧ q.2.2.Sz s.n s.nc ∧ ∀ o, q.2.1 = some o →
          o.Takes q.2.2 ∧ o.Whole) ∧ ∃ o, q.2.1 = some o ∧ o.Sz q.2.2.n q.2.2.nc) anyErr := by
      rintro i q ⟨q1, q2, q3, q4⟩
      cases ho : q.2.1 with
      | none => simp only [ho]; trivial
      | some o =>
        simp only [ho, deref, ok_bind]
        obtain ⟨q5, q6⟩ := q4 o ho
        refine wp_anyOf fun hh => ?_
        refine ib (R := fun z : Ctx α × Ode α × SysState α => (z.2.1.Sz s.n s.nc ∧
          z.2.2.Sz s.n s.nc) ∧ MemOk z.1.mem ∧ z.2.1.Idle ∧ z.2.2.Reach)
          (wp_anyErr_iff.2 fun z e => ⟨wp_anyErr_iff.1 (z_odeRun (fun x s hs =>
            z_genEval (fun g _ => h.gens g) hs) q2.wf q3 q5 hh) z e,
            wp_anyErr_iff.1 (reach_odeRun (X := fun x : Ctx α => MemOk x.mem)
              (fun x s hx hs => (m_genEval hd (fun g _ => h.gens g) hx hs).mono
                (fun _ q => ⟨q.1.1, q.2⟩) fun _ q => q) q1 q6 q2 hh) z e⟩) fun z hz => ?_
        obtain ⟨⟨z1, z2⟩, z3, z4, z5⟩ := hz
        have hz' : z.2.1.Sz z.2.2.n z.2.2.nc := by rw [z2.1, z2.2]; exact z1
        refine ⟨⟨z3, z5, z2, fun o e => ?_⟩, _, rfl, hz'⟩
        cases e
        refine ⟨?_, z4.whole⟩
        revert z4 hz'
        cases z.2.1 with
        | rk4 r => exact fun z4 hz' => ⟨⟨z4.2.2.1.wf, .inl hz'.1⟩, z4.2.2.2.wf, .inl hz'.2⟩
        | _ => exact fun _ _ => trivial
    refine ib ((ifor (R := fun q : Ctx α × Option (Ode α) × SysState α => MemOk q.1.mem ∧
      q.2.2.Reach ∧ q.2.2.Sz s.n s.nc ∧ ∀ o, q.2.1 = some o → o.Takes q.2.2 ∧ o.Whole)
      ⟨hmm.1, hs.1, ⟨rfl, rfl⟩, fun o ho => ⟨hm.takes ho (h.ode o ho) hs.2, (h.ode o ho).whole⟩⟩
      fun i q hq => (main i q hq).mono (fun _ q => q.1) fun _ q => q)) fun q hq => ?_
    exact (main k q hq).mono (fun _ q => q.2) fun _ q => q
  · refine ib (storeBodies_wp _ _ _) fun w1 h1 => ?_
    refine ib (storeForces_wp _ _ _) fun z hz => ?_
    refine (record_wp _ _).mono (fun w2 h2 => ?_) (fun _ q => q)
    have e2 := h2.1
    have e1 := hz.1
    have e0 := h1.1
    obtain ⟨o, ho, hsz⟩ := hq
    rw [World.Matched, e2]; simp only []; rw [e1]; simp only []; rw [e0]; simp only []
    rw [ho]
    cases o with
    | rk4 r => exact ⟨.inr hsz.1, .inr hsz.2⟩
    | _ => trivial

/-- The last call of `initialize` supplied a new solver, and since then every call of `process` had
at least one sub-step. -/
def InSync : List (Op α) → Prop
  | [] => True
  | .init _ ode :: _ => ∀ o, ode = some o → o.New
  | .process _ _ steps :: h => 1 ≤ steps ∧ InSync h
  | _ :: h => InSync h

theorem World.Matched.same {w w' : World α} (h : w.Matched) (e : w'.ode = w.ode ∧ w'.st = w.st) :
    w'.Matched := by
  rw [World.Matched, e.1, e.2]; exact h

theorem World.Hist.matched (hd : DivOk α) {G : Gen α → Prop} (hG : ∀ g, G g → g.OnlyForces)
    {h : List (Op α)} {w : World α} (hw : World.Hist G .gen h w) (hs : InSync h) : w.Matched := by
  induction hw with
  | start => trivial
  | @step h w w' op hw hv e ih =>
    cases op with
    | addBody b => cases e; exact (ih hs).same ⟨rfl, rfl⟩
    | removeBody b =>
      simp only [Op.run, World.removeBody] at e
      cases q : unregister w.rb (w.bodies b).index with
      | error _ => rw [q] at e; cases e
      | ok z => rw [q] at e; cases e; exact (ih hs).same ⟨rfl, rfl⟩
    | addCon b => cases e; exact (ih hs).same ⟨rfl, rfl⟩
    | removeCon b =>
      simp only [Op.run, World.removeCon] at e
      cases q : unregister w.cs (w.cons b).index with
      | error _ => rw [q] at e; cases e
      | ok z => rw [q] at e; cases e; exact (ih hs).same ⟨rfl, rfl⟩
    | addGen b => cases e; exact (ih hs).same ⟨rfl, rfl⟩
    | removeGen b =>
      simp only [Op.run, World.removeGen] at e
      cases q0 : initd (w.genIndex b) with
      | error _ => rw [q0] at e; cases e
      | ok i =>
        rw [q0, ok_bind] at e
        cases q : unregister w.fg i with
        | error _ => rw [q] at e; cases e
        | ok z => rw [q] at e; cases e; exact (ih hs).same ⟨rfl, rfl⟩
    | reset => cases e; exact (ih hs).same ⟨rfl, rfl⟩
    | newBody b x => cases e; exact (ih hs).same ⟨rfl, rfl⟩
    | newCon c x => cases e; exact (ih hs).same ⟨rfl, rfl⟩
    | newGen g x => cases e; exact (ih hs).same ⟨rfl, rfl⟩
    | setBody b x => cases e; exact (ih hs).same ⟨rfl, rfl⟩
    | setCon c x => cases e; exact (ih hs).same ⟨rfl, rfl⟩
    | setGen g x => cases e; exact (ih hs).same ⟨rfl, rfl⟩
    | setBias x => cases e; exact (ih hs).same ⟨rfl, rfl⟩
    | init sle ode =>
      have e' := genInit_eq e
      have hs : ∀ o, ode = some o → o.New := hs
      rw [World.Matched, e']
      cases ode with
      | none => trivial
      | some o =>
        have := hs o rfl
        cases o with
        | rk4 r => exact ⟨.inl this.1, .inl this.2⟩
        | _ => trivial
    | process env dt steps =>
      have hs : 1 ≤ steps ∧ InSync h := hs
      exact wp_anyErr_iff.1 (genProcess_matched hd (hw.sound hd hG) (ih hs.2) env dt hs.1) _ e

/-! ## Systems built by the user -/

/-- The registered constraints have one to three rows and at most two bodies, all registered; they
can be evaluated, and the registered force generators can be applied. -/
structure World.Usable (w : World α) (h : List (Op α)) : Prop where
  rows : ∀ c ∈ regCons h, 1 ≤ (w.cons c).rows ∧ (w.cons c).rows ≤ 3
  two : ∀ c ∈ regCons h, (w.cons c).bodyCount ≤ 2
  bodies : ∀ c ∈ regCons h, ∀ k, k < (w.cons c).bodyCount →
    ∃ b ∈ regBodies h, (w.cons c).bodies k = .obj b
  kind : ∀ c ∈ regCons h, (w.cons c).kind.Careful (w.cons c).bodyCount
  gens : ∀ g ∈ regGens h, (w.gens g).Careful (· ∈ regBodies h)

theorem World.Hist.guarded (hd : DivOk α) {G : Gen α → Prop} (hG : ∀ g, G g → g.OnlyForces)
    {cls : Cls} {h : List (Op α)} {w : World α} (hw : World.Hist G cls h w) (hu : w.Usable h) :
    w.Guarded := by
  have r := hw.regs
  have hpos : ∀ b ∈ regBodies h, ∃ i : Nat, i < w.bodyCount ∧ (w.bodies b).index = (i : Int) := by
    intro b hb
    obtain ⟨i, hi, _, e⟩ := r.bodies.at hb
    exact ⟨i, hi, Option.some.inj e⟩
  have hc : ∀ c ∈ w.cs, c ∈ regCons h := fun c hc => (r.cons.mem c).mp hc
  refine ⟨fun c h => (hu.rows c (hc c h)).1, fun c h => (hu.rows c (hc c h)).2,
    fun c h => hu.two c (hc c h), fun c h k hk => ?_, fun c h => hu.kind c (hc c h),
    fun g hg => ⟨?_, (hw.sound hd hG).gens g⟩, fun b hb => hpos b ((r.bodies.mem b).mp hb),
    r.bodies.nodup, r.cons.nodup, hw.prof.ringOk⟩
  · obtain ⟨b, hb, e⟩ := hu.bodies c (hc c h) k hk
    obtain ⟨i, hi, e'⟩ := hpos b hb
    refine ⟨i, hi, ?_⟩
    have := hu.two c (hc c h)
    have : rd1 maxBodies (w.cons c).bodies k = .ok (.obj b) := by
      rw [rd1, if_pos (show k < maxBodies by rw [maxBodies]; omega), e]
    rw [Con.idx, this, ok_bind]
    show Except.ok (w.bodies b).index = _
    rw [e']
  · intro bodies s hs hb
    exact hu.gens g ((r.gens.mem g).mp hg) bodies s hs
      fun b h => hb b ((r.bodies.mem b).mpr h)

end

end Scs
