import Verif.WorldEval
import Verif.WorldReg

/-!
# Invariants of the rigid body systems

Whatever a program does with a system, its matrices satisfy the representation invariant, its state
and the states of an RK4 solver are well formed, and the multipliers are empty or a column.
-/

namespace Scs

/-- Bind for runs that may fail in any way. -/
theorem ib {τ σ : Type} {x : Exec τ} {f : τ → Exec σ} {R : τ → Prop} {Q : σ → Prop}
    (hx : Wp x R anyErr) (h : ∀ a, R a → Wp (f a) Q anyErr) : Wp (x >>= f) Q anyErr := by
  rw [wp_bind]; exact hx.mono h (fun _ q => q)

theorem ifor {σ : Type} {n : Nat} {f : Nat → σ → Exec σ} {s : σ} {R : σ → Prop} (hs : R s)
    (h : ∀ i a, R a → Wp (f i a) R anyErr) : Wp (forN n f s) R anyErr :=
  wp_forN' (fun _ a => R a) hs (fun i _ a ha => h i a ha) (fun _ ha => ha)

/-! ## The state -/

section
variable {α : Type} [Zero α]

theorem reach_wr {s : SysState α} (h : s.Reach) (f : Fld) (i : Int) (v : α) :
    Wp (s.wr f i v) SysState.Reach anyErr := by
  cases e : s.wr f i v with
  | error _ => trivial
  | ok s' => exact h.wr f i v e

theorem reach_rwr {s : SysState α} (h : s.Reach) (f : CFld) (i : Int) (v : α) :
    Wp (s.rwr f i v) SysState.Reach anyErr := by
  cases e : s.rwr f i v with
  | error _ => trivial
  | ok s' => exact h.rwr f i v e

theorem reach_imSet {s : SysState α} (h : s.Reach) (i : Int) (v : Nat) :
    Wp (s.imSet i v) SysState.Reach anyErr := by
  cases e : s.imSet i v with
  | error _ => trivial
  | ok s' => exact h.imSet i v e

theorem reach_copy {s src : SysState α} (h : s.Reach) (h' : src.Reach) :
    Wp (s.copy src) SysState.Reach anyErr := by
  cases e : s.copy src with
  | error _ => trivial
  | ok s' => exact h.copy h' e

end

section
variable {α : Type} [Zero α] [Add α] [Mul α] [Sub α] [Neg α] [Fp α]

theorem reach_addTo {s : SysState α} (h : s.Reach) (f : Fld) (i : Int) (v : α) :
    Wp (s.addTo f i v) SysState.Reach anyErr := wp_anyOf fun _ => reach_wr h _ _ _

theorem reach_popBody {w : World α} {s : SysState α} (h : s.Reach) (i : Nat) :
    Wp (w.popBody i s) SysState.Reach anyErr := by
  rw [World.popBody]
  refine wp_anyOf fun id => ?_
  refine ib (reach_wr h _ _ _) fun s h => ?_
  refine ib (reach_wr h _ _ _) fun s h => ?_
  refine ib (reach_wr h _ _ _) fun s h => ?_
  refine ib (reach_wr h _ _ _) fun s h => ?_
  refine ib (reach_wr h _ _ _) fun s h => ?_
  refine ib (reach_wr h _ _ _) fun s h => ?_
  refine ib (reach_wr h _ _ _) fun s h => ?_
  refine ib (reach_wr h _ _ _) fun s h => ?_
  refine ib (reach_wr h _ _ _) fun s h => ?_
  exact reach_wr h _ _ _

theorem reach_populateState {w : World α} (h : w.st.Reach) :
    Wp w.populateState SysState.Reach anyErr := by
  rw [World.populateState]
  refine ib (ifor (h.resize _ _) fun i s h => reach_popBody h i) fun s h => ?_
  refine ib (R := fun q => q.1.Reach) ?_ fun q h => h
  rw [World.popIndex]
  refine ifor (R := fun (q : SysState α × Nat) => q.1.Reach) h fun i q h => ?_
  refine ib (reach_imSet h _ _) fun s h => ?_
  exact wp_anyOf fun _ => h

theorem reach_processForces {w : World α} (hg : ∀ g ∈ w.fg, (w.gens g).OnlyForces)
    {s : SysState α} (h : s.Reach) : Wp (w.processForces s) SysState.Reach anyErr :=
  (processForces_wp hg s).mono (fun _ q => q.reach h) (fun _ q => q)

theorem reach_writeReactions {mf : Nat} {mem : Store α} {s : SysState α} (h : s.Reach) :
    Wp (writeReactions mf mem s) SysState.Reach anyErr := by
  rw [writeReactions]
  refine ifor h fun i s h => ifor h fun j s h => ?_
  refine wp_anyOf fun _ => ib (reach_rwr h _ _ _) fun s h => ?_
  refine wp_anyOf fun _ => ib (reach_rwr h _ _ _) fun s h => ?_
  exact wp_anyOf fun _ => reach_rwr h _ _ _

theorem reach_startAccel {n : Nat} {mem : Store α} {s : SysState α} (h : s.Reach) :
    Wp (startAccel n mem s) SysState.Reach anyErr := by
  rw [startAccel]
  refine ifor h fun i s h => ?_
  refine wp_anyOf fun _ => ib (reach_wr h _ _ _) fun s h => ?_
  refine wp_anyOf fun _ => ib (reach_wr h _ _ _) fun s h => ?_
  exact wp_anyOf fun _ => reach_wr h _ _ _

theorem reach_mulBy {s : SysState α} (h : s.Reach) (f : Fld) (i : Nat) (v : α) :
    Wp (mulBy s f i v) SysState.Reach anyErr := wp_anyOf fun _ => reach_wr h _ _ _

theorem reach_scaleAccel {n : Nat} {mem : Store α} {s : SysState α} (h : s.Reach) :
    Wp (scaleAccel n mem s) SysState.Reach anyErr := by
  rw [scaleAccel]
  refine ifor h fun i s h => ?_
  refine wp_anyOf fun _ => wp_anyOf fun _ => ib (reach_mulBy h _ _ _) fun s h => ?_
  exact ib (reach_mulBy h _ _ _) fun s h => reach_mulBy h _ _ _

theorem reach_addReaction {c : Con α} {bodies : Nat → Body α} {jf : Nat} {s : SysState α}
    (h : s.Reach) : Wp (addReaction c bodies jf s) SysState.Reach anyErr := by
  rw [addReaction]
  refine ifor h fun i s h => ?_
  refine wp_anyOf fun _ => wp_anyOf fun _ => ib (reach_addTo h _ _ _) fun s h => ?_
  refine wp_anyOf fun _ => ib (reach_addTo h _ _ _) fun s h => ?_
  exact wp_anyOf fun _ => reach_addTo h _ _ _

theorem reach_applyReactions {w : World α} {mem : Store α} {s : SysState α} (h : s.Reach) :
    Wp (w.applyReactions mem s) SysState.Reach anyErr := by
  rw [World.applyReactions]
  refine ib (reach_writeReactions h) fun s h => ?_
  refine ib (reach_startAccel h) fun s h => ?_
  refine ib (R := fun q => q.1.Reach) ?_ fun q h => reach_scaleAccel h
  rw [World.addReactions]
  refine ifor (R := fun (q : SysState α × Nat) => q.1.Reach) h fun i q h => ?_
  refine wp_anyOf fun _ => ifor (R := fun (q : SysState α × Nat) => q.1.Reach) h fun i q h => ?_
  exact ib (reach_addReaction h) fun s h => h

/-! ## The ODE solvers -/

/-- The states inside an ODE solver are well formed. -/
def Ode.Whole : Ode α → Prop
  | .rk4 r => r.init.Reach ∧ r.acc.Reach
  | _ => True

theorem reach_rkHalf {dt : α} {ini s : SysState α} (h : s.Reach) (v a : Fld) (i : Nat) :
    Wp (rkHalf dt ini v a i s) SysState.Reach anyErr :=
  wp_anyOf fun _ => wp_anyOf fun _ => wp_anyOf fun _ => reach_wr h _ _ _

theorem reach_rkFull {dt : α} {ini s : SysState α} (h : s.Reach) (v a : Fld) (i : Nat) :
    Wp (rkFull dt ini v a i s) SysState.Reach anyErr :=
  wp_anyOf fun _ => wp_anyOf fun _ => reach_wr h _ _ _

theorem reach_rkHalfBody {dt : α} {ini s : SysState α} (h : s.Reach) (i : Nat) :
    Wp (rkHalfBody dt ini i s) SysState.Reach anyErr := by
  rw [rkHalfBody]
  refine ib (reach_rkHalf h _ _ _) fun s h => ?_
  refine ib (reach_rkHalf h _ _ _) fun s h => ?_
  refine ib (reach_rkHalf h _ _ _) fun s h => ?_
  refine ib (reach_rkHalf h _ _ _) fun s h => ?_
  exact ib (reach_rkHalf h _ _ _) fun s h => reach_rkHalf h _ _ _

theorem reach_rkFullBody {dt : α} {ini s : SysState α} (h : s.Reach) (i : Nat) :
    Wp (rkFullBody dt ini i s) SysState.Reach anyErr := by
  rw [rkFullBody]
  refine ib (reach_rkFull h _ _ _) fun s h => ?_
  refine ib (reach_rkFull h _ _ _) fun s h => ?_
  refine ib (reach_rkFull h _ _ _) fun s h => ?_
  refine ib (reach_rkFull h _ _ _) fun s h => ?_
  exact ib (reach_rkFull h _ _ _) fun s h => reach_rkFull h _ _ _

theorem reach_step {o : Ode α} {s : SysState α} (ho : o.Whole) (h : s.Reach) :
    Wp (o.step s) (fun q => q.1.Whole ∧ q.2.1.Reach) anyErr := by
  cases o with
  | base dt => exact ⟨trivial, h⟩
  | euler dt => exact ⟨trivial, h.setDt _⟩
  | nsv dt => exact ⟨trivial, h.setDt _⟩
  | rk4 r =>
    rw [Ode.step]
    refine ib (R := fun q => q.1.init.Reach ∧ q.1.acc.Reach ∧ q.2.1.Reach) ?_
      fun q h => ⟨⟨h.1, h.2.1⟩, h.2.2⟩
    rw [Rk4.step]
    simp only []
    cases hs : r.stage <;> simp only []
    · exact ⟨ho.1, ho.2, h.setDt _⟩
    · refine ib (ifor h fun i s h => reach_rkHalfBody h i) fun s h => ?_
      exact wp_anyOf fun _ => ⟨ho.1, ho.2, h.setDt _⟩
    · refine ib (ifor h fun i s h => reach_rkHalfBody h i) fun s h => ?_
      exact wp_anyOf fun _ => ⟨ho.1, ho.2, h.setDt _⟩
    · refine ib (ifor h fun i s h => reach_rkFullBody h i) fun s h => ?_
      exact ⟨ho.1, ho.2, h.setDt _⟩
    · exact ⟨ho.1, ho.2, h⟩
    · exact ⟨ho.1, ho.2, h⟩

theorem reach_eulerBody {dt : α} {s : SysState α} (h : s.Reach) (i : Nat) :
    Wp (eulerBody dt i s) SysState.Reach anyErr := by
  rw [eulerBody]
  refine wp_anyOf fun _ => ib (reach_addTo h _ _ _) fun s h => ?_
  refine wp_anyOf fun _ => ib (reach_addTo h _ _ _) fun s h => ?_
  refine wp_anyOf fun _ => ib (reach_addTo h _ _ _) fun s h => ?_
  refine wp_anyOf fun _ => ib (reach_addTo h _ _ _) fun s h => ?_
  refine wp_anyOf fun _ => ib (reach_addTo h _ _ _) fun s h => ?_
  exact wp_anyOf fun _ => reach_addTo h _ _ _

theorem reach_nsvBody {dt : α} {s : SysState α} (h : s.Reach) (i : Nat) :
    Wp (nsvBody dt i s) SysState.Reach anyErr := by
  rw [nsvBody]
  refine wp_anyOf fun _ => ib (reach_addTo h _ _ _) fun s h => ?_
  refine wp_anyOf fun _ => ib (reach_addTo h _ _ _) fun s h => ?_
  refine wp_anyOf fun _ => ib (reach_addTo h _ _ _) fun s h => ?_
  refine wp_anyOf fun _ => ib (reach_addTo h _ _ _) fun s h => ?_
  refine wp_anyOf fun _ => ib (reach_addTo h _ _ _) fun s h => ?_
  exact wp_anyOf fun _ => reach_addTo h _ _ _

theorem reach_rkAcc {dt w : α} {sys acc : SysState α} (h : acc.Reach) (v a : Fld) (i : Nat) :
    Wp (rkAcc dt w sys v a i acc) SysState.Reach anyErr :=
  wp_anyOf fun _ => wp_anyOf fun _ => reach_addTo h _ _ _

theorem reach_rkAccR {dt w : α} {sys acc : SysState α} (h : acc.Reach) (f : CFld) (i : Nat) :
    Wp (rkAccR dt w sys f i acc) SysState.Reach anyErr :=
  wp_anyOf fun _ => wp_anyOf fun _ => wp_anyOf fun _ => reach_rwr h _ _ _

theorem reach_rkGet {acc s : SysState α} (h : s.Reach) (f : Fld) (i : Nat) :
    Wp (rkGet acc f i s) SysState.Reach anyErr := wp_anyOf fun _ => reach_wr h _ _ _

theorem reach_rkGetR {acc s : SysState α} (h : s.Reach) (f : CFld) (i : Nat) :
    Wp (rkGetR acc f i s) SysState.Reach anyErr := wp_anyOf fun _ => reach_rwr h _ _ _

theorem reach_rkAccBody {dt w : α} {sys acc : SysState α} (h : acc.Reach) (i : Nat) :
    Wp (rkAccBody dt w sys i acc) SysState.Reach anyErr := by
  rw [rkAccBody]
  refine ib (reach_rkAcc h _ _ _) fun s h => ?_
  refine ib (reach_rkAcc h _ _ _) fun s h => ?_
  refine ib (reach_rkAcc h _ _ _) fun s h => ?_
  refine ib (reach_rkAcc h _ _ _) fun s h => ?_
  exact ib (reach_rkAcc h _ _ _) fun s h => reach_rkAcc h _ _ _

theorem reach_rkGetBody {acc s : SysState α} (h : s.Reach) (i : Nat) :
    Wp (rkGetBody acc i s) SysState.Reach anyErr := by
  rw [rkGetBody]
  refine ib (reach_rkGet h _ _) fun s h => ?_
  refine ib (reach_rkGet h _ _) fun s h => ?_
  refine ib (reach_rkGet h _ _) fun s h => ?_
  refine ib (reach_rkGet h _ _) fun s h => ?_
  exact ib (reach_rkGet h _ _) fun s h => reach_rkGet h _ _

theorem reach_solve {o : Ode α} {s : SysState α} (ho : o.Whole) (h : s.Reach) :
    Wp (o.solve s) (fun q => q.1.Whole ∧ q.2.Reach) anyErr := by
  cases o with
  | base dt => exact ⟨trivial, h⟩
  | euler dt =>
    rw [Ode.solve]
    exact ib (ifor (h.setDt _) fun i s h => reach_eulerBody h i) fun s h => ⟨trivial, h⟩
  | nsv dt =>
    rw [Ode.solve]
    exact ib (ifor (h.setDt _) fun i s h => reach_nsvBody h i) fun s h => ⟨trivial, h⟩
  | rk4 r =>
    rw [Ode.solve]
    refine ib (R := fun q => q.1.init.Reach ∧ q.1.acc.Reach ∧ q.2.Reach) ?_
      fun q h => ⟨⟨h.1, h.2.1⟩, h.2.2⟩
    rw [Rk4.solve]
    simp only []
    refine ib (ifor ho.2 fun i a h => reach_rkAccBody h i) fun a ha => ?_
    refine ib (ifor ha fun i a h => ?_) fun a ha => ?_
    · rw [rkAccRBody]
      refine ib (reach_rkAccR h _ _) fun s h => ?_
      exact ib (reach_rkAccR h _ _) fun s h => reach_rkAccR h _ _
    · split
      · refine ib (ifor h fun i s h => reach_rkGetBody h i) fun s h => ?_
        refine ib (ifor h fun i s h => ?_) fun s h => ⟨ho.1, ha, h⟩
        rw [rkGetRBody]
        refine ib (reach_rkGetR h _ _) fun s h => ?_
        exact ib (reach_rkGetR h _ _) fun s h => reach_rkGetR h _ _
      · exact ⟨ho.1, ha, h⟩

theorem reach_odeLoop {τ : Type} {ev : τ → SysState α → Exec (τ × SysState α)} {X : τ → Prop}
    (hev : ∀ x s, X x → s.Reach → Wp (ev x s) (fun e => X e.1 ∧ e.2.Reach) anyErr) :
    ∀ (k : Nat) (x : τ) (o : Ode α) (s : SysState α), X x → o.Whole → s.Reach →
      Wp (odeLoop ev k x o s) (fun z => X z.1 ∧ z.2.1.Whole ∧ z.2.2.Reach) anyErr
  | 0, _, _, _, _, _, _ => trivial
  | k + 1, x, o, s, hx, ho, h => by
    rw [odeLoop]
    refine ib (reach_step ho h) fun q hq => ?_
    refine ib (hev _ _ hx hq.2) fun e he => ?_
    refine ib (reach_solve hq.1 he.2) fun z hz => ?_
    cases q.2.2 with
    | true => exact ⟨he.1, hz.1, hz.2⟩
    | false => exact reach_odeLoop hev k _ _ _ he.1 hz.1 hz.2

theorem reach_odeRun {τ : Type} {ev : τ → SysState α → Exec (τ × SysState α)} {X : τ → Prop}
    (hev : ∀ x s, X x → s.Reach → Wp (ev x s) (fun e => X e.1 ∧ e.2.Reach) anyErr) {x : τ}
    {o : Ode α} {s : SysState α} (hx : X x) (ho : o.Whole) (h : s.Reach) (dt : α) :
    Wp (odeRun ev x o s dt) (fun z => X z.1 ∧ z.2.1.Idle ∧ z.2.2.Reach) anyErr := by
  rw [odeRun]
  refine ib (R := Ode.Whole) ?_ fun o ho => ?_
  · cases o with
    | base dt => trivial
    | euler dt => trivial
    | nsv dt => trivial
    | rk4 r =>
      rw [Ode.start]
      refine ib (R := fun r => r.init.Reach ∧ r.acc.Reach) ?_ fun r (h : r.init.Reach ∧ _) => h
      rw [Rk4.start]
      refine ib (reach_copy ho.1 h) fun i hi => ?_
      exact ib (reach_copy ho.2 h) fun a ha => ⟨hi, ha⟩
  · refine ib (reach_odeLoop hev 5 x o s hx ho h) fun z hz => ⟨hz.1, ?_, hz.2.2⟩
    obtain ⟨_, hz, _⟩ := hz
    revert hz
    cases z.2.1 with
    | rk4 r => exact fun hz => ⟨rfl, rfl, hz.1, hz.2⟩
    | base dt => exact fun _ => trivial
    | euler dt => exact fun _ => trivial
    | nsv dt => exact fun _ => trivial

theorem Ode.Idle.whole {o : Ode α} (h : o.Idle) : o.Whole := by
  cases o with
  | rk4 r => exact ⟨h.2.2.1, h.2.2.2⟩
  | base dt => trivial
  | euler dt => trivial
  | nsv dt => trivial

/-! ## The matrices -/

/-- The representation invariant of the matrices of a system. -/
abbrev MemOk (mem : Store α) : Prop := Inv 3 2 sysRestr mem

theorem mcall {mem : Store α} (h : MemOk mem) (c : Call α) (hc : SafeCall c mem)
    (hp : NoSwap sysRestr c) : Wp (run 3 2 c mem) MemOk anyErr :=
  (run_safe h c hc hp).mono (fun _ q => q) (fun _ _ => trivial)

theorem m_set {mem : Store α} (h : MemOk mem) (t : MId) (c r : Nat) (v : α) :
    Wp (mem.set t c r v) MemOk anyErr := mcall h (.set t c r v) trivial trivial

theorem m_init0 {mem : Store α} (h : MemOk mem) (t : MId) (a b : Nat) :
    Wp (mem.init0 t a b) MemOk anyErr := mcall h (.init0 t a b) trivial trivial

theorem m_setBlock {mem : Store α} (h : MemOk mem) (t : SId) (r e : Nat) (i : Int) :
    Wp (mem.setBlock 2 t r e i) MemOk anyErr := mcall h (.setBlock t r e i) trivial trivial

theorem m_sset {mem : Store α} (h : MemOk mem) (t : SId) (r e k : Nat) (v : α) :
    Wp (mem.sset 3 2 t r e k v) MemOk anyErr := mcall h (.sset t r e k v) trivial trivial

theorem m_sinit {mem : Store α} (h : MemOk mem) (t : SId) (a b : Nat) :
    Wp (mem.sinit 3 2 t a b) MemOk anyErr :=
  mcall h (.sinit t a b) (Or.inl (h.sfresh t)) trivial

theorem m_sleftScale {mem : Store α} (h : MemOk mem) (a : SId) (sc : MId) (t : SId) :
    Wp (mem.sleftScale 3 2 a sc t) MemOk anyErr :=
  mcall h (.sleftScale a sc t) (Or.inl (h.sfresh t)) trivial

theorem m_populateMass {w : World α} {mem : Store α} (h : MemOk mem) :
    Wp (w.populateMass mem) (fun m => MemOk m ∧ m.mat .ivLambda = mem.mat .ivLambda) anyErr := by
  have h1 : Wp (w.populateMass mem) MemOk anyErr := by
    rw [World.populateMass]
    refine ib (m_init0 h _ _ _) fun m h => ib (m_init0 h _ _ _) fun m h => ifor h fun i m h => ?_
    rw [World.popMass]
    refine wp_anyOf fun _ => ib (m_set h _ _ _ _) fun m h => ib (m_set h _ _ _ _) fun m h =>
      ib (m_set h _ _ _ _) fun m h => wp_anyOf fun _ => ib (m_set h _ _ _ _) fun m h =>
      wp_anyOf fun _ => ib (m_set h _ _ _ _) fun m h => wp_anyOf fun _ => m_set h _ _ _ _
  have h2 : Wp (w.populateMass mem)
      (Frame (fun a => a = .ivM ∨ a = .ivMinv) (fun _ => False) mem) anyErr := by
    have hM : (fun a => a = MId.ivM ∨ a = .ivMinv) .ivM := Or.inl rfl
    have hI : (fun a => a = MId.ivM ∨ a = .ivMinv) .ivMinv := Or.inr rfl
    rw [World.populateMass]
    refine ib (fr_init0 (Frame.refl _ _ _) hM _ _) fun m h => ib (fr_init0 h hI _ _) fun m h =>
      ifor h fun i m h => ?_
    rw [World.popMass]
    refine wp_anyOf fun _ => ib (fr_set h hM _ _ _) fun m h => ib (fr_set h hM _ _ _) fun m h =>
      ib (fr_set h hM _ _ _) fun m h => wp_anyOf fun _ => ib (fr_set h hI _ _ _) fun m h =>
      wp_anyOf fun _ => ib (fr_set h hI _ _ _) fun m h => wp_anyOf fun _ => fr_set h hI _ _ _
  cases e : w.populateMass mem with
  | error _ => trivial
  | ok m =>
    rw [e] at h1 h2
    exact ⟨h1, h2.mat _ (by simp)⟩

theorem m_loadVec {t : MId} {fx fy ft : Fld} {n : Nat} {s : SysState α} {mem : Store α}
    (h : MemOk mem) : Wp (loadVec t fx fy ft n s mem) MemOk anyErr := by
  rw [loadVec]
  exact ifor h fun i m h => wp_anyOf fun _ => ib (m_set h _ _ _ _) fun m h =>
    wp_anyOf fun _ => ib (m_set h _ _ _ _) fun m h => wp_anyOf fun _ => m_set h _ _ _ _

theorem m_loadQdot {n : Nat} {s : SysState α} {mem : Store α} (h : MemOk mem) :
    Wp (loadQdot n s mem) MemOk anyErr := by
  rw [loadQdot]
  exact ib (mcall h (.resize .ivQdot 1 (n * 3)) trivial trivial) fun m h => m_loadVec h

theorem m_loadFext {n : Nat} {s : SysState α} {mem : Store α} (h : MemOk mem) :
    Wp (loadFext n s mem) MemOk anyErr := by
  rw [loadFext]
  exact ib (mcall h (.init .ivFExt 1 (3 * n) (Fp.lit 0)) trivial trivial) fun m h => m_loadVec h

theorem m_optRow {c : Con α} {bodies : Nat → Body α} {out : Output α} {dt : α} {k jf : Nat}
    {mem : Store α} (h : MemOk mem) : Wp (optRow c bodies out dt k jf mem) MemOk anyErr := by
  rw [optRow]
  refine ib (R := MemOk) ?_ fun m h => ib (R := MemOk) ?_ fun m h => wp_anyOf fun _ => ib (m_set h _ _ _ _)
    fun m h => wp_anyOf fun _ => ib (m_set h _ _ _ _) fun m h => wp_anyOf fun _ =>
    ib (m_set h _ _ _ _) fun m h => wp_anyOf fun _ => m_set h _ _ _ _
  · rw [optBlocks]
    refine ifor h fun i m h => wp_anyOf fun x => ?_
    split
    · exact h
    · exact m_setBlock h _ _ _ _
  · rw [optEntries]
    refine ifor h fun i m h => wp_anyOf fun x => ?_
    split
    · exact h
    · exact wp_anyOf fun _ => m_sset h _ _ _ _ _

theorem m_optAssemble {w : World α} {dt : α} {raw : Output α} {s : SysState α} {mem : Store α}
    (h : MemOk mem) : Wp (w.optAssemble dt raw s mem) MemOk anyErr := by
  rw [World.optAssemble]
  refine ib (m_sinit h _ _ _) fun m h => ib (m_init0 h _ _ _) fun m h => ib (m_init0 h _ _ _)
    fun m h => ib (m_init0 h _ _ _) fun m h => ib (R := fun q => MemOk q.mem) ?_ fun q (h : MemOk q.mem) => h
  refine ifor (R := fun (q : Asm α) => MemOk q.mem) h fun i q h => ?_
  rw [World.optCon]
  refine wp_anyOf fun _ => wp_anyOf fun _ =>
    ifor (R := fun (q : Asm α) => MemOk q.mem) h fun i q h => ?_
  exact ib (m_optRow h) fun m h => h

theorem m_optRight {bias dt : α} {mem : Store α} (h : MemOk mem) :
    Wp (optRight bias dt mem) MemOk anyErr := by
  rw [optRight]
  refine ib (mcall h (.scale .ivFExt dt .ivReg0) trivial trivial) fun m h => ?_
  refine ib (mcall h (.leftScale .ivReg0 .ivMinv .ivReg1) trivial trivial) fun m h => ?_
  refine ib (mcall h (.addM .ivReg1 .ivQdot .ivQdotPrime) trivial trivial) fun m h => ?_
  refine wp_anyOf fun e => ?_
  refine ib (mcall h (.scale .ivC e .ivBErr) trivial trivial) fun m h => ?_
  refine ib (mcall h (.smultiply .ivJ .ivQdotPrime .ivReg0) trivial trivial) fun m h => ?_
  refine ib (mcall h (.addM .ivReg0 .ivVBias .ivReg1) trivial trivial) fun m h => ?_
  refine ib (mcall h (.addM .ivReg1 .ivBErr .ivReg0) trivial trivial) fun m h => ?_
  exact mcall h (.negate .ivReg0 .ivRight) trivial trivial

theorem m_optCall (hd : DivOk α) (sv : Solver α) {mem : Store α} (h : MemOk mem) :
    Wp (optCall sv mem) (fun q => MemOk q.1) anyErr := by
  rw [optCall]
  split
  · exact (h.solve_safe hd sysRestr_ok sv .ivJ .ivMinv .ivRight (some .ivLambda) .ivLambda).mono
      (fun _ q => q) (fun _ _ => trivial)
  · exact (h.solveL_safe hd sysRestr_ok sv .ivJ .ivMinv .ivRight .ivLimits .ivLambda
      (some .ivLambda)).mono (fun _ q => q) (fun _ _ => trivial)

/-- After scaling the rows of the Jacobian the multipliers are empty or a column. -/
theorem sleftScale_lam {mem : Store α} {a : SId} {sc : MId} {t : SId} {mem' : Store α}
    (e : mem.sleftScale 3 2 a sc t = .ok mem') :
    (mem.mat sc).height = 0 ∨ (mem.mat sc).width = 1 := by
  rw [Store.sleftScale] at e
  by_cases h1 : (mem.mat sc).width = 1 ∨ (mem.smat a).height = 0
  · rw [chk_true _ h1, ok_bind] at e
    by_cases h2 : (mem.mat sc).height = (mem.smat a).height
    · rcases h1 with h1 | h1
      · exact Or.inr h1
      · exact Or.inl (h2.trans h1)
    · rw [chk_false _ h2] at e
      cases e
  · rw [chk_false _ h1] at e
    cases e

theorem sleftScale_mat {mem : Store α} {a : SId} {sc : MId} {t : SId} {mem' : Store α}
    (e : mem.sleftScale 3 2 a sc t = .ok mem') (x : MId) : mem'.mat x = mem.mat x := by
  have := fr_sleftScale (T := fun _ => False) (S := fun _ => True) 3 2
    (Frame.refl _ _ mem) (t := t) trivial a sc
  rw [e] at this
  exact this.mat x (fun h => h)

theorem m_optSolve (hd : DivOk α) {w : World α} {dt : α} {mem : Store α} (h : MemOk mem) :
    Wp (w.optSolve dt mem) (fun m => MemOk m ∧ LamOk m) anyErr := by
  rw [World.optSolve]
  refine wp_anyOf fun sv => ib (m_optCall hd sv h) fun q h => wp_anyOf fun _ => wp_anyOf fun r => ?_
  obtain ⟨m1, e1, w1⟩ := Store.scale_spec q.1 .ivLambda r .ivReg0 (h.mat _) (h.mat _)
  have h1 := h.wrote w1
  rw [e1, ok_bind]
  cases e : m1.sleftScale 3 2 .ivJ .ivReg0 .ivSreg0 with
  | error _ => trivial
  | ok m2 =>
    have h2 := m_sleftScale h1 .ivJ .ivReg0 .ivSreg0
    rw [e] at h2
    refine ⟨h2, ?_⟩
    have := sleftScale_lam e
    rw [w1.height, w1.width] at this
    rw [LamOk, sleftScale_mat e, w1.only.mat _ (by decide)]
    exact this

theorem m_optConstraints (hd : DivOk α) {w : World α} {dt : α} {raw : Output α} {mem : Store α}
    {s : SysState α} (h : MemOk mem) (hs : s.Reach) : Wp (w.optConstraints dt raw mem s)
      (fun q => (MemOk q.1 ∧ LamOk q.1) ∧ q.2.Reach) anyErr := by
  rw [World.optConstraints]
  refine ib (m_optAssemble h) fun m h => ib (m_loadQdot h) fun m h => ib (m_loadFext h) fun m h =>
    ib (m_optRight h) fun m h => ib (m_optSolve hd h) fun m h =>
    ib (reach_applyReactions hs) fun s hs => ⟨h, hs⟩

theorem m_genAssemble {w : World α} {raw : Output α} {s : SysState α} {mem : Store α}
    (h : MemOk mem) : Wp (w.genAssemble raw s mem) MemOk anyErr := by
  rw [World.genAssemble]
  refine ib (m_sinit h _ _ _) fun m h => ib (m_sinit h _ _ _) fun m h => ib (m_init0 h _ _ _)
    fun m h => ib (m_init0 h _ _ _) fun m h => ib (m_init0 h _ _ _) fun m h =>
    ib (R := fun q => MemOk q.mem) ?_ fun q (h : MemOk q.mem) => h
  refine ifor (R := fun (q : Asm α) => MemOk q.mem) h fun i q h => ?_
  rw [World.genCon]
  refine wp_anyOf fun _ => wp_anyOf fun _ =>
    ifor (R := fun (q : Asm α) => MemOk q.mem) h fun i q h => ?_
  refine ib (R := MemOk) ?_ fun m h => ib (R := MemOk) ?_ fun m (h : MemOk m) => h
  · rw [genBlocks]
    refine ifor h fun i m h => wp_anyOf fun x => ?_
    split
    · exact h
    · exact ib (m_setBlock h _ _ _ _) fun m h => m_setBlock h _ _ _ _
  · rw [genEntries]
    refine ifor h fun i m h => wp_anyOf fun x => ?_
    split
    · exact h
    · exact wp_anyOf fun _ => ib (m_sset h _ _ _ _ _) fun m h => wp_anyOf fun _ =>
        ib (m_sset h _ _ _ _ _) fun m h => wp_anyOf fun _ => ib (m_set h _ _ _ _) fun m h =>
        wp_anyOf fun _ => ib (m_set h _ _ _ _) fun m h => wp_anyOf fun _ => m_set h _ _ _ _

theorem m_genGains {mf : Nat} {mem : Store α} (h : MemOk mem) :
    Wp (genGains mf mem) MemOk anyErr := by
  rw [genGains]
  refine ib (mcall h (.smultiply .ivJ .ivQdot .ivReg0) trivial trivial) fun m h => ?_
  exact ifor h fun i m h => wp_anyOf fun _ => wp_anyOf fun _ => ib (m_set h _ _ _ _) fun m h =>
    wp_anyOf fun _ => wp_anyOf fun _ => m_set h _ _ _ _

theorem m_genRight {mem : Store α} (h : MemOk mem) : Wp (genRight mem) MemOk anyErr := by
  rw [genRight]
  refine ib (mcall h (.leftScale .ivFExt .ivMinv .ivReg2) trivial trivial) fun m h => ?_
  refine ib (mcall h (.smultiply .ivJ .ivReg2 .ivReg0) trivial trivial) fun m h => ?_
  refine ib (mcall h (.smultiply .ivJdot .ivQdot .ivReg2) trivial trivial) fun m h => ?_
  refine ib (mcall h (.negate .ivReg2 .ivReg1) trivial trivial) fun m h => ?_
  refine ib (mcall h (.subtract .ivReg1 .ivReg0 .ivReg2) trivial trivial) fun m h => ?_
  refine ib (mcall h (.subtract .ivReg2 .ivKs .ivReg0) trivial trivial) fun m h => ?_
  exact mcall h (.subtract .ivReg0 .ivKd .ivRight) trivial trivial

theorem m_genSolve (hd : DivOk α) {w : World α} {mem : Store α} (h : MemOk mem) :
    Wp (w.genSolve mem) (fun m => MemOk m ∧ LamOk m) anyErr := by
  rw [World.genSolve]
  refine wp_anyOf fun sv => ib (R := fun q => MemOk q.1) ?_ fun q h => wp_anyOf fun _ => ?_
  · exact (h.solve_safe hd sysRestr_ok sv .ivJ .ivMinv .ivRight (some .ivLambda) .ivLambda).mono
      (fun _ q => q) (fun _ _ => trivial)
  · cases e : q.1.sleftScale 3 2 .ivJ .ivLambda .ivSreg0 with
    | error _ => trivial
    | ok m2 =>
      have h2 := m_sleftScale h .ivJ .ivLambda .ivSreg0
      rw [e] at h2
      refine ⟨h2, ?_⟩
      rw [LamOk, sleftScale_mat e]
      exact sleftScale_lam e

theorem m_genConstraints (hd : DivOk α) {w : World α} {raw : Output α} {mem : Store α}
    {s : SysState α} (h : MemOk mem) (hs : s.Reach) : Wp (w.genConstraints raw mem s)
      (fun q => (MemOk q.1 ∧ LamOk q.1) ∧ q.2.Reach) anyErr := by
  rw [World.genConstraints]
  refine ib (m_loadQdot h) fun m h => ib (m_genAssemble h) fun m h => ib (m_genGains h) fun m h =>
    ib (m_loadFext h) fun m h => ib (m_genRight h) fun m h => ib (m_genSolve hd h) fun m h =>
    ib (reach_applyReactions hs) fun s hs => ⟨h, hs⟩

theorem m_optEval (hd : DivOk α) {w : World α} (hg : ∀ g ∈ w.fg, (w.gens g).OnlyForces)
    {env : Env α} {dt : α} {x : Ctx α} {s : SysState α} (h : MemOk x.mem) (hs : s.Reach) :
    Wp (w.optEval env dt x s) (fun q => (MemOk q.1.mem ∧ LamOk q.1.mem) ∧ q.2.Reach) anyErr := by
  rw [World.optEval]
  exact ib (reach_processForces hg hs) fun s hs => ib (m_optConstraints hd h hs) fun q h => h

theorem m_genEval (hd : DivOk α) {w : World α} (hg : ∀ g ∈ w.fg, (w.gens g).OnlyForces)
    {env : Env α} {x : Ctx α} {s : SysState α} (h : MemOk x.mem) (hs : s.Reach) :
    Wp (w.genEval env x s) (fun q => (MemOk q.1.mem ∧ LamOk q.1.mem) ∧ q.2.Reach) anyErr := by
  rw [World.genEval]
  exact ib (reach_processForces hg hs) fun s hs => ib (m_genConstraints hd h hs) fun q h => h

/-! ## The system -/

/-- The parts of a system between two calls. -/
structure World.Sound (w : World α) : Prop where
  mem : MemOk w.mem
  lam : LamOk w.mem
  st : w.st.Reach
  nsv : w.nsv.Idle
  ode : ∀ o, w.ode = some o → o.Idle
  gens : ∀ g, (w.gens g).OnlyForces

theorem World.Sound.same {w w' : World α} (h : w.Sound)
    (e : w'.mem = w.mem ∧ w'.st = w.st ∧ w'.nsv = w.nsv ∧ w'.ode = w.ode ∧ w'.gens = w.gens) :
    w'.Sound := by
  obtain ⟨e1, e2, e3, e4, e5⟩ := e
  refine ⟨?_, ?_, ?_, ?_, ?_, ?_⟩
  · rw [e1]; exact h.mem
  · rw [e1]; exact h.lam
  · rw [e2]; exact h.st
  · rw [e3]; exact h.nsv
  · rw [e4]; exact h.ode
  · rw [e5]; exact h.gens

theorem optProcess_sound (hd : DivOk α) {w : World α} (h : w.Sound) (env : Env α) (dt : α)
    (steps : Int) : Wp (w.optProcess env dt steps) World.Sound anyErr := by
  rw [World.optProcess]
  refine ib (reach_populateState h.st) fun s hs => ib (m_populateMass h.mem) fun m hm => ?_
  have hl : LamOk m := by rw [LamOk, hm.2]; exact h.lam
  refine ib (R := fun q : Ctx α × Ode α × SysState α =>
    (MemOk q.1.mem ∧ LamOk q.1.mem) ∧ q.2.1.Idle ∧ q.2.2.Reach) ?_ fun q hq => ?_
  · rw [World.optLoop]
    refine ifor ⟨⟨hm.1, hl⟩, h.nsv, hs⟩ fun i q hq => wp_anyOf fun hh => ?_
    exact reach_odeRun (X := fun x : Ctx α => MemOk x.mem ∧ LamOk x.mem)
      (fun x s hx hs => m_optEval hd (fun g _ => h.gens g) hx.1 hs) hq.1 hq.2.1.whole hq.2.2 hh
  · simp only [World.propagateResults, bind_assoc]
    refine ib (storeBodies_wp _ _ _) fun w1 h1 => ?_
    refine ib (storeForces_wp _ _ _) fun z hz => ?_
    rw [pure_bind]
    refine ib (record_wp _ _) fun w2 h2 => ?_
    have e2 := h2.1
    have e1 := hz.1
    have e0 := h1.1
    rw [wp_pure]
    refine ⟨?_, ?_, ?_, ?_, ?_, ?_⟩ <;> simp only [] <;> rw [e2] <;> simp only [] <;> rw [e1] <;>
      simp only [] <;> rw [e0]
    · exact hq.1.1
    · exact hq.1.2
    · exact hq.2.2
    · exact hq.2.1
    · exact h.ode
    · exact h.gens

theorem genProcess_sound (hd : DivOk α) {w : World α} (h : w.Sound) (env : Env α) (dt : α)
    (steps : Int) : Wp (w.genProcess env dt steps) World.Sound anyErr := by
  rw [World.genProcess]
  refine ib (reach_populateState h.st) fun s hs => ib (m_populateMass h.mem) fun m hm => ?_
  have hl : LamOk m := by rw [LamOk, hm.2]; exact h.lam
  refine ib (R := fun q : Ctx α × Option (Ode α) × SysState α =>
    (MemOk q.1.mem ∧ LamOk q.1.mem) ∧ (∀ o, q.2.1 = some o → o.Idle) ∧ q.2.2.Reach) ?_ fun q hq => ?_
  · rw [World.genLoop]
    refine ifor (R := fun q : Ctx α × Option (Ode α) × SysState α =>
      (MemOk q.1.mem ∧ LamOk q.1.mem) ∧ (∀ o, q.2.1 = some o → o.Idle) ∧ q.2.2.Reach)
      ⟨⟨hm.1, hl⟩, h.ode, hs⟩ fun i q hq => ?_
    cases ho : q.2.1 with
    | none => trivial
    | some o =>
      simp only [deref, ok_bind]
      refine wp_anyOf fun hh => ?_
      refine ib (reach_odeRun (X := fun x : Ctx α => MemOk x.mem ∧ LamOk x.mem)
        (fun x s hx hs => m_genEval hd (fun g _ => h.gens g) hx.1 hs) hq.1
          (hq.2.1 o ho).whole hq.2.2 hh) fun z hz => ?_
      refine ⟨hz.1, ?_, hz.2.2⟩
      intro o' e
      cases e
      exact hz.2.1
  · refine ib (storeBodies_wp _ _ _) fun w1 h1 => ?_
    refine ib (storeForces_wp _ _ _) fun z hz => ?_
    refine (record_wp _ _).mono (fun w2 h2 => ?_) (fun _ q => q)
    have e2 := h2.1
    have e1 := hz.1
    have e0 := h1.1
    refine ⟨?_, ?_, ?_, ?_, ?_, ?_⟩ <;> rw [e2] <;> simp only [] <;> rw [e1] <;>
      simp only [] <;> rw [e0]
    · exact hq.1.1
    · exact hq.1.2
    · exact hq.2.2
    · exact h.nsv
    · exact hq.2.1
    · exact h.gens

theorem genInit_sound {w : World α} (h : w.Sound) (sle : Option (Solver α)) (ode : Option (Ode α))
    (ho : ∀ o, ode = some o → o.Idle) : Wp (w.genInit sle ode) World.Sound anyErr := by
  rw [World.genInit]
  obtain ⟨m, e, o⟩ := Store.init0_spec w.mem .ivLambda 0 0 (h.mem.mat _)
  rw [e, ok_bind]
  exact ⟨h.mem.wrote o, Or.inl o.height, h.st, h.nsv, ho, h.gens⟩

/-- Between any two calls the parts of a system are in order, whatever the history. -/
theorem World.Hist.sound (hd : DivOk α) {G : Gen α → Prop} (hG : ∀ g, G g → g.OnlyForces)
    {cls : Cls} {h : List (Op α)} {w : World α} (hw : World.Hist G cls h w) : w.Sound := by
  induction hw with
  | start bodies cons gens genIndex hg j j' k k' =>
    exact ⟨Inv.ofFresh 3 2 j k, Or.inl rfl, SysState.Reach.fresh j' k', trivial,
      (fun _ e => by cases e), fun g => hG _ (hg g)⟩
  | @step h w w' op hw hv e ih =>
    cases op with
    | addBody b => cases e; exact ih.same ⟨rfl, rfl, rfl, rfl, rfl⟩
    | removeBody b =>
      simp only [Op.run, World.removeBody] at e
      cases q : unregister w.rb (w.bodies b).index with
      | error _ => rw [q] at e; cases e
      | ok z => rw [q] at e; cases e; exact ih.same ⟨rfl, rfl, rfl, rfl, rfl⟩
    | addCon b => cases e; exact ih.same ⟨rfl, rfl, rfl, rfl, rfl⟩
    | removeCon b =>
      simp only [Op.run, World.removeCon] at e
      cases q : unregister w.cs (w.cons b).index with
      | error _ => rw [q] at e; cases e
      | ok z => rw [q] at e; cases e; exact ih.same ⟨rfl, rfl, rfl, rfl, rfl⟩
    | addGen b => cases e; exact ih.same ⟨rfl, rfl, rfl, rfl, rfl⟩
    | removeGen b =>
      simp only [Op.run, World.removeGen] at e
      cases q0 : initd (w.genIndex b) with
      | error _ => rw [q0] at e; cases e
      | ok i =>
        rw [q0, ok_bind] at e
        cases q : unregister w.fg i with
        | error _ => rw [q] at e; cases e
        | ok z => rw [q] at e; cases e; exact ih.same ⟨rfl, rfl, rfl, rfl, rfl⟩
    | reset => cases e; exact ih.same ⟨rfl, rfl, rfl, rfl, rfl⟩
    | newBody b x => cases e; exact ih.same ⟨rfl, rfl, rfl, rfl, rfl⟩
    | newCon b x => cases e; exact ih.same ⟨rfl, rfl, rfl, rfl, rfl⟩
    | newGen b x =>
      cases e
      refine ⟨ih.mem, ih.lam, ih.st, ih.nsv, ih.ode, fun g => ?_⟩
      simp only [upd]
      split
      · exact hG _ hv.2
      · exact ih.gens g
    | setBody b x => cases e; exact ih.same ⟨rfl, rfl, rfl, rfl, rfl⟩
    | setCon b x => cases e; exact ih.same ⟨rfl, rfl, rfl, rfl, rfl⟩
    | setGen b x =>
      cases e
      refine ⟨ih.mem, ih.lam, ih.st, ih.nsv, ih.ode, fun g => ?_⟩
      simp only [upd]
      split
      · exact hG _ hv
      · exact ih.gens g
    | init sle ode =>
      cases cls with
      | opt => cases e; exact ih.same ⟨rfl, rfl, rfl, rfl, rfl⟩
      | gen =>
        have := genInit_sound ih sle ode hv
        simp only [Op.run, World.initialize] at e
        rw [e] at this
        exact this
    | setBias x => cases e; exact ih.same ⟨rfl, rfl, rfl, rfl, rfl⟩
    | process env dt steps =>
      cases cls with
      | opt =>
        have := optProcess_sound hd ih env dt steps
        simp only [Op.run, World.process] at e
        rw [e] at this
        exact this
      | gen =>
        have := genProcess_sound hd ih env dt steps
        simp only [Op.run, World.process] at e
        rw [e] at this
        exact this

end

end Scs
