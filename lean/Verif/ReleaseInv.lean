import Verif.Release
import Verif.WorldInv
import Verif.WorldProf
import Verif.WorldObj

/-!
# Invariants of systems in a release build

The lemmas of `WorldFrame.lean`, `WorldInv.lean`, `WorldReg.lean` and `WorldProf.lean` for the
definitions of `Release.lean`.
-/

namespace Scs

section
variable {α : Type} [Zero α] [Add α] [Mul α] [Sub α] [Neg α] [Fp α]

theorem optEvalR_adv (w : World α) (env : Env α) (dt : α) (x : Ctx α) (s : SysState α) :
    Wp (w.optEvalR env dt x s) (fun e => Ctx.Adv env 1 x e.1) anyErr := by
  rw [World.optEvalR]
  refine wp_anyOf fun s => wp_anyOf fun q => ?_
  exact ⟨rfl, fun p => by simp⟩

theorem genEvalR_adv (w : World α) (env : Env α) (x : Ctx α) (s : SysState α) :
    Wp (w.genEvalR env x s) (fun e => Ctx.Adv env 1 x e.1) anyErr := by
  rw [World.genEvalR]
  refine wp_anyOf fun s => wp_anyOf fun q => ?_
  exact ⟨rfl, fun p => by simp⟩

theorem optLoopR_wp (w : World α) (env : Env α) (dt : α) (steps : Int) (s : SysState α)
    (mem : Store α) (hn : w.nsv.sort = 2) :
    Wp (w.optLoopR env dt steps s mem) (fun q => Ctx.Adv env steps.toNat ⟨mem, 0, fun _ => 0⟩ q.1 ∧
      q.2.1.sort = 2) anyErr := by
  refine wp_forN (fun i (q : Ctx α × Ode α × SysState α) =>
    Ctx.Adv env i ⟨mem, 0, fun _ => 0⟩ q.1 ∧ q.2.1.sort = 2)
    ⟨Ctx.Adv.refl _ _, hn⟩ fun i _ q hq => ?_
  refine wp_anyOf fun h => ?_
  refine (odeRun_wp (fun _ _ _ _ _ => Ctx.Adv.trans) (optEvalR_adv w env h) q.1 q.2.1 q.2.2 h).imp
    fun z hz => ⟨?_, hz.2.trans hq.2⟩
  obtain ⟨d, hd⟩ := sort_nsv hq.2
  have h1 := hz.1
  rw [hd] at h1
  exact hq.1.trans h1

theorem genLoopR_wp (w : World α) (env : Env α) (dt : α) (steps : Int) (s : SysState α)
    (mem : Store α) :
    Wp (w.genLoopR env dt steps s mem) (fun q =>
      Ctx.Adv env (evalCount steps w.ode) ⟨mem, 0, fun _ => 0⟩ q.1 ∧
      q.2.1.map Ode.sort = w.ode.map Ode.sort) anyErr := by
  cases ho : w.ode with
  | none =>
    rw [World.genLoopR, ho]
    cases h : steps.toNat with
    | zero => exact ⟨Ctx.Adv.refl _ _, rfl⟩
    | succ k =>
      rw [forN_first_error (e := .null) rfl]
      exact trivial
  | some o =>
    rw [World.genLoopR, ho]
    refine wp_forN' (fun i (q : Ctx α × Option (Ode α) × SysState α) =>
      Ctx.Adv env (i * o.stages) ⟨mem, 0, fun _ => 0⟩ q.1 ∧
      ∃ o', q.2.1 = some o' ∧ o'.sort = o.sort) ⟨by rw [Nat.zero_mul]; exact Ctx.Adv.refl _ _, o, rfl, rfl⟩
      (fun i _ q hq => ?_) ?_
    · obtain ⟨h1, o', ho', hs⟩ := hq
      rw [ho', deref, ok_bind]
      refine wp_anyOf fun h => ?_
      rw [wp_bind]
      refine (odeRun_wp (fun _ _ _ _ _ => Ctx.Adv.trans) (genEvalR_adv w env) q.1 o' q.2.2 h).imp
        fun z hz => ⟨?_, z.2.1, rfl, hz.2.trans hs⟩
      rw [Nat.add_mul, Nat.one_mul, ← sort_stages hs]
      exact (sort_stages hs ▸ h1).trans hz.1
    · rintro q ⟨h1, o', ho', hs⟩
      exact ⟨h1, by rw [ho', Option.map_some, Option.map_some, hs]⟩

theorem optProcessR_wp (w : World α) (env : Env α) (dt : α) (steps : Int) (hn : w.nsv.sort = 2) :
    Wp (w.optProcessR env dt steps) (fun w' => World.Ticks env steps.toNat w w' ∧ w'.t = w.t + dt ∧
      w'.nsv.sort = 2 ∧ w'.ode = w.ode) anyErr := by
  rw [World.optProcessR]
  refine wp_anyOf fun s => wp_anyOf fun mem => ?_
  rw [wp_bind]
  refine (optLoopR_wp w env dt steps s mem hn).imp fun q hq => ?_
  simp only []
  rw [wp_bind, World.propagateResults, wp_bind]
  refine (storeBodies_wp _ _ _).imp fun w1 h1 => ?_
  rw [wp_bind]
  refine (storeForces_wp _ _ _).imp fun z hz => ?_
  rw [wp_pure, wp_bind]
  refine (record_wp _ _).imp fun w2 h2 => ?_
  rw [wp_pure]
  have hm : w.Moves z.1 := ((World.Moves.refl w).of_rest rfl).trans (h1.2.trans hz.2)
  have ez : z.1 = { w with
      st := q.2.2, mem := q.1.mem, nsv := q.2.1, bodies := w1.bodies,
      cons := z.1.cons } := by rw [hz.1, h1.1]
  refine ⟨⟨hm.of_rest ?_, ?_⟩, ?_, ?_, ?_⟩
  · rw [h2.1]
  · refine ⟨fun p => ?_, ?_⟩
    · have := h2.2.at_ p
      rw [ez] at this
      refine ⟨this.1, this.2.trans ?_⟩
      rw [hq.1.times]
      simp [sampleOf]
    · have := h2.2.frame
      rw [ez] at this
      exact this
  · show w2.t + dt = _
    rw [h2.1, ez]
  · show w2.nsv.sort = _
    rw [h2.1, ez]
    exact hq.2
  · show w2.ode = _
    rw [h2.1, ez]

theorem genProcessR_wp (w : World α) (env : Env α) (dt : α) (steps : Int) :
    Wp (w.genProcessR env dt steps) (fun w' => World.Ticks env (evalCount steps w.ode) w w' ∧
      w'.t = w.t ∧ w'.nsv = w.nsv ∧ w'.ode.map Ode.sort = w.ode.map Ode.sort) anyErr := by
  rw [World.genProcessR]
  refine wp_anyOf fun s => wp_anyOf fun mem => ?_
  rw [wp_bind]
  refine (genLoopR_wp w env dt steps s mem).imp fun q hq => ?_
  simp only []
  rw [wp_bind]
  refine (storeBodies_wp _ _ _).imp fun w1 h1 => ?_
  rw [wp_bind]
  refine (storeForces_wp _ _ _).imp fun z hz => ?_
  refine (record_wp _ _).imp fun w2 h2 => ?_
  have hm : w.Moves z.1 := ((World.Moves.refl w).of_rest rfl).trans (h1.2.trans hz.2)
  have ez : z.1 = { w with
      st := q.2.2, mem := q.1.mem, ode := q.2.1, bodies := w1.bodies,
      cons := z.1.cons } := by rw [hz.1, h1.1]
  refine ⟨⟨hm.of_rest ?_, ?_⟩, ?_, ?_, ?_⟩
  · rw [h2.1]
  · refine ⟨fun p => ?_, ?_⟩
    · have := h2.2.at_ p
      rw [ez] at this
      refine ⟨this.1, this.2.trans ?_⟩
      rw [hq.1.times]
      simp [sampleOf]
    · have := h2.2.frame
      rw [ez] at this
      exact this
  · rw [h2.1, ez]
  · rw [h2.1, ez]
  · rw [h2.1, ez]
    exact hq.2

end

section
variable {α : Type} [Zero α] [Add α] [Mul α] [Sub α] [Neg α] [Fp α] {P : Restr} {st en : Nat}
  {s : Store α} (hd : DivOk α)

include hd

theorem Inv.geBackR_safe (hi : Inv st en P s) (r : MId) (n m : Nat) :
    Wp (s.geBackR r n m) (Inv st en P) SolveErr := by
  refine sb (hi.get_safe _ _ _) (fun _ _ => sb (hi.get_safe _ _ _) (fun _ _ =>
    sb (hi.get_safe _ _ _) (fun _ _ => sb' (hd _ _).de (fun _ _ => sb (hi.set_safe _ _ _ _)
    (fun s1 h1 => ?_)))))
  refine Wp.imp (Q := Same s1) (wp_forN_same (h1.inv hi) (fun q hq s2 i2 _ => ?_))
    (fun _ h => h.inv (h1.inv hi))
  refine sb (i2.get_safe _ _ _) (fun _ _ => sb' (forN_safe (fun _ _ _ =>
    sb' (i2.prodAt_safe _ _ _ _) (fun _ _ => trivial))) (fun _ _ => sb (i2.get_safe _ _ _)
    (fun _ _ => (wp_ite _ _ _).2 ⟨fun _ => (i2.set_safe _ _ _ _).se, fun _ =>
      sb (i2.get_safe _ _ _) (fun _ _ => sb' (hd _ _).de (fun _ _ => (i2.set_safe _ _ _ _).se))⟩)))

theorem Inv.geSolveR_safe (hi : Inv st en P s) (hP : SolverP P) (J : SId) (W right : MId)
    (p : Option MId) (r : MId) :
    Wp (s.geSolveR st en J W right p (some r)) (fun q => Inv st en P q.1) SolveErr := by
  refine sb' (hi.formM_safe J W .geM hP.geReg) (fun s1 i1 => ?_)
  simp only []
  refine sc (fun _ => (wp_ite _ _ _).2 ⟨fun _ => i1, fun _ => ?_⟩)
  simp only [deref, ok_bind]
  refine sb' (i1.run_se (.resize r 1 _) trivial trivial) (fun s2 i2 => ?_)
  obtain ⟨s3, e3, i3, o3, w3, h3, _⟩ := i2.resize .geA ((s1.mat .geM).width + 1)
    (s1.mat .geM).height
  rw [e3, ok_bind]
  refine sb' (i3.geLoad_safe right _ _) (fun s4 h4 => ?_)
  refine sb' (geLoop_safe hd hP.geA _ _ _ 0 0 s4 (h4.inv i3)
    (by rw [(h4.mat .geA).height, h3]) (by omega)) (fun s5 i5 => ?_)
  refine sb' (i5.geBackR_safe hd r _ _) (fun s6 i6 => ?_)
  exact i6

theorem Inv.solveR_safe (hi : Inv st en P s) (hP : SolverP P) (sv : Solver α) (J : SId)
    (W right : MId) (p : Option MId) (r : MId) :
    Wp (sv.solveR st en s J W right p (some r)) (fun q => Inv st en P q.1) SolveErr := by
  cases sv with
  | gs n d => exact hi.gsSolve_safe hd hP n d J W right p r
  | ge => exact hi.geSolveR_safe hd hP J W right p r
  | cg n e1 e2 => exact hi.cgSolve_safe hd hP n e1 e2 J W right p r

end

section
variable {α : Type} [Zero α] [Add α] [Mul α] [Sub α] [Neg α] [Fp α]

theorem m_optCallR (hd : DivOk α) (sv : Solver α) {mem : Store α} (h : MemOk mem) :
    Wp (optCallR sv mem) (fun q => MemOk q.1) anyErr := by
  rw [optCallR]
  split
  · exact (h.solveR_safe hd sysRestr_ok sv .ivJ .ivMinv .ivRight (some .ivLambda) .ivLambda).mono
      (fun _ q => q) (fun _ _ => trivial)
  · exact (h.solveL_safe hd sysRestr_ok sv .ivJ .ivMinv .ivRight .ivLimits .ivLambda
      (some .ivLambda)).mono (fun _ q => q) (fun _ _ => trivial)

theorem m_optSolveR (hd : DivOk α) {w : World α} {dt : α} {mem : Store α} (h : MemOk mem) :
    Wp (w.optSolveR dt mem) (fun m => MemOk m ∧ LamOk m) anyErr := by
  rw [World.optSolveR]
  refine wp_anyOf fun sv => ib (m_optCallR hd sv h) fun q h => wp_anyOf fun r => ?_
  obtain ⟨m1, e1, w1⟩ := Store.scale_spec q.1 .ivLambda r .ivReg0 (h.mat _) (h.mat _)
  have h1 := h.wrote w1
  rw [e1, ok_bind]
  cases e : m1.sleftScale 3 2 .ivJ .ivReg0 .ivSreg0 with
  | error _ => trivial
  | ok m2 =>
    have h2 := m_sleftScale h1 .ivJ .ivReg0 .ivSreg0
    rw [e] at h2
    refine ⟨h2, ?_⟩
    have := sleftScale_lam e
    rw [w1.height, w1.width] at this
    rw [LamOk, sleftScale_mat e, w1.only.mat _ (by decide)]
    exact this

theorem m_optConstraintsR (hd : DivOk α) {w : World α} {dt : α} {raw : Output α} {mem : Store α}
    {s : SysState α} (h : MemOk mem) (hs : s.Reach) : Wp (w.optConstraintsR dt raw mem s)
      (fun q => (MemOk q.1 ∧ LamOk q.1) ∧ q.2.Reach) anyErr := by
  rw [World.optConstraintsR]
  refine ib (m_optAssemble h) fun m h => ib (m_loadQdot h) fun m h => ib (m_loadFext h) fun m h =>
    ib (m_optRight h) fun m h => ib (m_optSolveR hd h) fun m h =>
    ib (reach_applyReactions hs) fun s hs => ⟨h, hs⟩

theorem m_genSolveR (hd : DivOk α) {w : World α} {mem : Store α} (h : MemOk mem) :
    Wp (w.genSolveR mem) (fun m => MemOk m ∧ LamOk m) anyErr := by
  rw [World.genSolveR]
  refine wp_anyOf fun sv => ib (R := fun q => MemOk q.1) ?_ fun q h => ?_
  · exact (h.solveR_safe hd sysRestr_ok sv .ivJ .ivMinv .ivRight (some .ivLambda) .ivLambda).mono
      (fun _ q => q) (fun _ _ => trivial)
  · cases e : q.1.sleftScale 3 2 .ivJ .ivLambda .ivSreg0 with
    | error _ => trivial
    | ok m2 =>
      have h2 := m_sleftScale h .ivJ .ivLambda .ivSreg0
      rw [e] at h2
      refine ⟨h2, ?_⟩
      rw [LamOk, sleftScale_mat e]
      exact sleftScale_lam e

theorem m_genConstraintsR (hd : DivOk α) {w : World α} {raw : Output α} {mem : Store α}
    {s : SysState α} (h : MemOk mem) (hs : s.Reach) : Wp (w.genConstraintsR raw mem s)
      (fun q => (MemOk q.1 ∧ LamOk q.1) ∧ q.2.Reach) anyErr := by
  rw [World.genConstraintsR]
  refine ib (m_loadQdot h) fun m h => ib (m_genAssemble h) fun m h => ib (m_genGains h) fun m h =>
    ib (m_loadFext h) fun m h => ib (m_genRight h) fun m h => ib (m_genSolveR hd h) fun m h =>
    ib (reach_applyReactions hs) fun s hs => ⟨h, hs⟩

theorem m_optEvalR (hd : DivOk α) {w : World α} (hg : ∀ g ∈ w.fg, (w.gens g).OnlyForces)
    {env : Env α} {dt : α} {x : Ctx α} {s : SysState α} (h : MemOk x.mem) (hs : s.Reach) :
    Wp (w.optEvalR env dt x s) (fun q => (MemOk q.1.mem ∧ LamOk q.1.mem) ∧ q.2.Reach) anyErr := by
  rw [World.optEvalR]
  exact ib (reach_processForces hg hs) fun s hs => ib (m_optConstraintsR hd h hs) fun q h => h

theorem m_genEvalR (hd : DivOk α) {w : World α} (hg : ∀ g ∈ w.fg, (w.gens g).OnlyForces)
    {env : Env α} {x : Ctx α} {s : SysState α} (h : MemOk x.mem) (hs : s.Reach) :
    Wp (w.genEvalR env x s) (fun q => (MemOk q.1.mem ∧ LamOk q.1.mem) ∧ q.2.Reach) anyErr := by
  rw [World.genEvalR]
  exact ib (reach_processForces hg hs) fun s hs => ib (m_genConstraintsR hd h hs) fun q h => h

theorem optProcessR_sound (hd : DivOk α) {w : World α} (h : w.Sound) (env : Env α) (dt : α)
    (steps : Int) : Wp (w.optProcessR env dt steps) World.Sound anyErr := by
  rw [World.optProcessR]
  refine ib (reach_populateState h.st) fun s hs => ib (m_populateMass h.mem) fun m hm => ?_
  have hl : LamOk m := by rw [LamOk, hm.2]; exact h.lam
  refine ib (R := fun q : Ctx α × Ode α × SysState α =>
    (MemOk q.1.mem ∧ LamOk q.1.mem) ∧ q.2.1.Idle ∧ q.2.2.Reach) ?_ fun q hq => ?_
  · rw [World.optLoopR]
    refine ifor ⟨⟨hm.1, hl⟩, h.nsv, hs⟩ fun i q hq => wp_anyOf fun hh => ?_
    exact reach_odeRun (X := fun x : Ctx α => MemOk x.mem ∧ LamOk x.mem)
      (fun x s hx hs => m_optEvalR hd (fun g _ => h.gens g) hx.1 hs) hq.1 hq.2.1.whole hq.2.2 hh
  · simp only [World.propagateResults, bind_assoc]
    refine ib (storeBodies_wp _ _ _) fun w1 h1 => ?_
    refine ib (storeForces_wp _ _ _) fun z hz => ?_
    rw [pure_bind]
    refine ib (record_wp _ _) fun w2 h2 => ?_
    have e2 := h2.1
    have e1 := hz.1
    have e0 := h1.1
    rw [wp_pure]
    refine ⟨?_, ?_, ?_, ?_, ?_, ?_⟩ <;> simp only [] <;> rw [e2] <;> simp only [] <;> rw [e1] <;>
      simp only [] <;> rw [e0]
    · exact hq.1.1
    · exact hq.1.2
    · exact hq.2.2
    · exact hq.2.1
    · exact h.ode
    · exact h.gens

theorem genProcessR_sound (hd : DivOk α) {w : World α} (h : w.Sound) (env : Env α) (dt : α)
    (steps : Int) : Wp (w.genProcessR env dt steps) World.Sound anyErr := by
  rw [World.genProcessR]
  refine ib (reach_populateState h.st) fun s hs => ib (m_populateMass h.mem) fun m hm => ?_
  have hl : LamOk m := by rw [LamOk, hm.2]; exact h.lam
  refine ib (R := fun q : Ctx α × Option (Ode α) × SysState α =>
    (MemOk q.1.mem ∧ LamOk q.1.mem) ∧ (∀ o, q.2.1 = some o → o.Idle) ∧ q.2.2.Reach) ?_ fun q hq => ?_
  · rw [World.genLoopR]
    refine ifor (R := fun q : Ctx α × Option (Ode α) × SysState α =>
      (MemOk q.1.mem ∧ LamOk q.1.mem) ∧ (∀ o, q.2.1 = some o → o.Idle) ∧ q.2.2.Reach)
      ⟨⟨hm.1, hl⟩, h.ode, hs⟩ fun i q hq => ?_
    cases ho : q.2.1 with
    | none => trivial
    | some o =>
      simp only [deref, ok_bind]
      refine wp_anyOf fun hh => ?_
      refine ib (reach_odeRun (X := fun x : Ctx α => MemOk x.mem ∧ LamOk x.mem)
        (fun x s hx hs => m_genEvalR hd (fun g _ => h.gens g) hx.1 hs) hq.1
          (hq.2.1 o ho).whole hq.2.2 hh) fun z hz => ?_
      refine ⟨hz.1, ?_, hz.2.2⟩
      intro o' e
      cases e
      exact hz.2.1
  · refine ib (storeBodies_wp _ _ _) fun w1 h1 => ?_
    refine ib (storeForces_wp _ _ _) fun z hz => ?_
    refine (record_wp _ _).mono (fun w2 h2 => ?_) (fun _ q => q)
    have e2 := h2.1
    have e1 := hz.1
    have e0 := h1.1
    refine ⟨?_, ?_, ?_, ?_, ?_, ?_⟩ <;> rw [e2] <;> simp only [] <;> rw [e1] <;>
      simp only [] <;> rw [e0]
    · exact hq.1.1
    · exact hq.1.2
    · exact hq.2.2
    · exact h.nsv
    · exact hq.2.1
    · exact h.gens

theorem World.HistR.regs {G : Gen α → Prop} {cls : Cls} {h : List (Op α)} {w : World α}
    (hw : World.HistR G cls h w) : w.Regs cls h := by
  induction hw with
  | start bodies cons gens genIndex hg j j' k k' =>
    exact ⟨RegInv.nil _, RegInv.nil _, RegInv.nil _, rfl⟩
  | @step h w w' op hw hv e ih =>
    cases op with
    | addBody b =>
      cases e
      refine ⟨?_, ih.cons, ih.gens, ih.nsv⟩
      have := ih.bodies.add hv
      rw [World.addBody, upd_bodyIdx]
      rw [show ((({ w with rb := w.rb ++ [b] } : World α).rb.length : Int) - 1) = w.rb.length by simp]
      exact this
    | removeBody b =>
      obtain ⟨l', x, he, hr, _⟩ := removeBody_ok ih.bodies hv
      have e' : w.removeBody b = .ok w' := e
      rw [he] at e'
      cases e'
      refine ⟨?_, ih.cons, ih.gens, ih.nsv⟩
      rw [upd_bodyIdx]
      exact hr
    | addCon b =>
      cases e
      refine ⟨ih.bodies, ?_, ih.gens, ih.nsv⟩
      have := ih.cons.add hv
      rw [World.addCon, upd_conIdx]
      rw [show ((({ w with cs := w.cs ++ [b] } : World α).cs.length : Int) - 1) = w.cs.length by simp]
      exact this
    | removeCon b =>
      obtain ⟨l', x, he, hr, _⟩ := removeCon_ok ih.cons hv
      have e' : w.removeCon b = .ok w' := e
      rw [he] at e'
      cases e'
      refine ⟨ih.bodies, ?_, ih.gens, ih.nsv⟩
      rw [upd_conIdx]
      exact hr
    | addGen b =>
      cases e
      refine ⟨ih.bodies, ih.cons, ?_, ih.nsv⟩
      have := ih.gens.add hv
      show RegInv (w.fg ++ [b]) _ (upd w.genIndex b (some (((w.fg ++ [b]).length : Int) - 1)))
      rw [show (((w.fg ++ [b]).length : Int) - 1) = w.fg.length by simp]
      exact this
    | removeGen b =>
      obtain ⟨l', x, i, he, hr, _⟩ := removeGen_ok ih.gens hv
      have e' : w.removeGen b = .ok w' := e
      rw [he] at e'
      cases e'
      exact ⟨ih.bodies, ih.cons, hr, ih.nsv⟩
    | reset =>
      cases e
      exact ⟨RegInv.nil _, RegInv.nil _, RegInv.nil _, ih.nsv⟩
    | newBody b x =>
      cases e
      refine ⟨ih.bodies.congr fun c hc => ?_, ih.cons, ih.gens, ih.nsv⟩
      have : c ≠ b := fun hcb => hv (hcb ▸ hc)
      simp [World.bodyIdx, upd_other _ _ this]
    | newCon b x =>
      cases e
      refine ⟨ih.bodies, ih.cons.congr fun c hc => ?_, ih.gens, ih.nsv⟩
      have : c ≠ b := fun hcb => hv (hcb ▸ hc)
      simp [World.conIdx, upd_other _ _ this]
    | newGen b x =>
      cases e
      refine ⟨ih.bodies, ih.cons, ih.gens.congr fun c hc => ?_, ih.nsv⟩
      have : c ≠ b := fun hcb => hv.1 (hcb ▸ hc)
      exact upd_other _ _ this
    | setBody b x =>
      cases e
      refine ⟨ih.bodies.congr fun c hc => ?_, ih.cons, ih.gens, ih.nsv⟩
      by_cases hcb : c = b
      · subst hcb; simp [World.bodyIdx, upd_same]
      · simp [World.bodyIdx, upd_other _ _ hcb]
    | setCon b x =>
      cases e
      refine ⟨ih.bodies, ih.cons.congr fun c hc => ?_, ih.gens, ih.nsv⟩
      by_cases hcb : c = b
      · subst hcb; simp [World.conIdx, upd_same]
      · simp [World.conIdx, upd_other _ _ hcb]
    | setGen b x =>
      cases e
      exact ⟨ih.bodies, ih.cons, ih.gens, ih.nsv⟩
    | init sle ode =>
      cases cls with
      | opt => cases e; exact ⟨ih.bodies, ih.cons, ih.gens, ih.nsv⟩
      | gen =>
        rw [genInit_eq (show w.genInit sle ode = .ok w' from e)]
        exact ⟨ih.bodies, ih.cons, ih.gens, ih.nsv⟩
    | setBias x =>
      cases e
      exact ⟨ih.bodies, ih.cons, ih.gens, ih.nsv⟩
    | process env dt steps =>
      cases cls with
      | opt =>
        have := (optProcessR_wp w env dt steps ih.nsv).of_eq (show w.optProcessR env dt steps = .ok w' from e)
        exact Moves.regs this.1.moves ih this.2.2.1 rfl rfl rfl
      | gen =>
        have := (genProcessR_wp w env dt steps).of_eq (show w.genProcessR env dt steps = .ok w' from e)
        exact Moves.regs this.1.moves ih (this.2.2.1 ▸ ih.nsv) rfl rfl rfl

theorem World.HistR.prof {G : Gen α → Prop} {cls : Cls} {h : List (Op α)} {w : World α}
    (hw : World.HistR G cls h w) : w.Prof cls h := by
  induction hw with
  | start bodies cons gens genIndex hg j j' k k' =>
    refine ⟨fun p => RingInv.start, ?_⟩
    cases cls <;> rfl
  | @step h w w' op hw hv e ih =>
    cases op with
    | removeBody b =>
      obtain ⟨l', x, he, _⟩ := removeBody_ok hw.regs.bodies hv
      have e' : w.removeBody b = .ok w' := e
      rw [he] at e'
      cases e'
      exact ih.keep (fun _ => rfl) (stagesIn_other (fun _ _ e => by cases e)) rfl rfl rfl
    | removeCon b =>
      obtain ⟨l', x, he, _⟩ := removeCon_ok hw.regs.cons hv
      have e' : w.removeCon b = .ok w' := e
      rw [he] at e'
      cases e'
      exact ih.keep (fun _ => rfl) (stagesIn_other (fun _ _ e => by cases e)) rfl rfl rfl
    | removeGen b =>
      obtain ⟨l', x, i, he, _⟩ := removeGen_ok hw.regs.gens hv
      have e' : w.removeGen b = .ok w' := e
      rw [he] at e'
      cases e'
      exact ih.keep (fun _ => rfl) (stagesIn_other (fun _ _ e => by cases e)) rfl rfl rfl
    | init sle ode =>
      cases cls with
      | opt => cases e; exact ih.keep (fun _ => rfl) ((stagesIn_opt _).trans (stagesIn_opt _).symm) rfl rfl rfl
      | gen =>
        rw [genInit_eq (show w.genInit sle ode = .ok w' from e)]
        exact ⟨ih.ring, rfl⟩
    | process env dt steps =>
      cases cls with
      | opt =>
        have := (optProcessR_wp w env dt steps hw.regs.nsv).of_eq
          (show w.optProcessR env dt steps = .ok w' from e)
        refine ⟨fun p => ?_, rfl⟩
        rw [(this.1.records.at_ p).2, this.1.records.frame]
        have := (ih.ring p).push (sampleOf env steps.toNat p)
        rw [samples, stagesIn_opt, Nat.mul_one]
        exact this
      | gen =>
        have := (genProcessR_wp w env dt steps).of_eq (show w.genProcessR env dt steps = .ok w' from e)
        refine ⟨fun p => ?_, (World.stages_gen this.2.2.2).trans ih.stages⟩
        rw [(this.1.records.at_ p).2, this.1.records.frame]
        have hc : evalCount steps w.ode = steps.toNat * stagesIn .gen h := by
          rw [← ih.stages]
          simp only [World.stages]
          cases w.ode <;> rfl
        have := (ih.ring p).push (sampleOf env (evalCount steps w.ode) p)
        rw [samples, ← hc]
        exact this
    | _ => cases e; exact ih.keep (fun _ => rfl) (stagesIn_other (fun _ _ e => by cases e)) rfl rfl rfl

/-- Between any two calls the parts of a system are in order, whatever the history. -/
theorem World.HistR.sound (hd : DivOk α) {G : Gen α → Prop} (hG : ∀ g, G g → g.OnlyForces)
    {cls : Cls} {h : List (Op α)} {w : World α} (hw : World.HistR G cls h w) : w.Sound := by
  induction hw with
  | start bodies cons gens genIndex hg j j' k k' =>
    exact ⟨Inv.ofFresh 3 2 j k, Or.inl rfl, SysState.Reach.fresh j' k', trivial,
      (fun _ e => by cases e), fun g => hG _ (hg g)⟩
  | @step h w w' op hw hv e ih =>
    cases op with
    | addBody b => cases e; exact ih.same ⟨rfl, rfl, rfl, rfl, rfl⟩
    | removeBody b =>
      simp only [Op.runR, Op.run, World.removeBody] at e
      cases q : unregister w.rb (w.bodies b).index with
      | error _ => rw [q] at e; cases e
      | ok z => rw [q] at e; cases e; exact ih.same ⟨rfl, rfl, rfl, rfl, rfl⟩
    | addCon b => cases e; exact ih.same ⟨rfl, rfl, rfl, rfl, rfl⟩
    | removeCon b =>
      simp only [Op.runR, Op.run, World.removeCon] at e
      cases q : unregister w.cs (w.cons b).index with
      | error _ => rw [q] at e; cases e
      | ok z => rw [q] at e; cases e; exact ih.same ⟨rfl, rfl, rfl, rfl, rfl⟩
    | addGen b => cases e; exact ih.same ⟨rfl, rfl, rfl, rfl, rfl⟩
    | removeGen b =>
      simp only [Op.runR, Op.run, World.removeGen] at e
      cases q0 : initd (w.genIndex b) with
      | error _ => rw [q0] at e; cases e
      | ok i =>
        rw [q0, ok_bind] at e
        cases q : unregister w.fg i with
        | error _ => rw [q] at e; cases e
        | ok z => rw [q] at e; cases e; exact ih.same ⟨rfl, rfl, rfl, rfl, rfl⟩
    | reset => cases e; exact ih.same ⟨rfl, rfl, rfl, rfl, rfl⟩
    | newBody b x => cases e; exact ih.same ⟨rfl, rfl, rfl, rfl, rfl⟩
    | newCon b x => cases e; exact ih.same ⟨rfl, rfl, rfl, rfl, rfl⟩
    | newGen b x =>
      cases e
      refine ⟨ih.mem, ih.lam, ih.st, ih.nsv, ih.ode, fun g => ?_⟩
      simp only [upd]
      split
      · exact hG _ hv.2
      · exact ih.gens g
    | setBody b x => cases e; exact ih.same ⟨rfl, rfl, rfl, rfl, rfl⟩
    | setCon b x => cases e; exact ih.same ⟨rfl, rfl, rfl, rfl, rfl⟩
    | setGen b x =>
      cases e
      refine ⟨ih.mem, ih.lam, ih.st, ih.nsv, ih.ode, fun g => ?_⟩
      simp only [upd]
      split
      · exact hG _ hv
      · exact ih.gens g
    | init sle ode =>
      cases cls with
      | opt => cases e; exact ih.same ⟨rfl, rfl, rfl, rfl, rfl⟩
      | gen =>
        have := genInit_sound ih sle ode hv
        simp only [Op.runR, Op.run, World.initialize] at e
        rw [e] at this
        exact this
    | setBias x => cases e; exact ih.same ⟨rfl, rfl, rfl, rfl, rfl⟩
    | process env dt steps =>
      cases cls with
      | opt =>
        have := optProcessR_sound hd ih env dt steps
        simp only [Op.runR, World.processR] at e
        rw [e] at this
        exact this
      | gen =>
        have := genProcessR_sound hd ih env dt steps
        simp only [Op.runR, World.processR] at e
        rw [e] at this
        exact this

end

end Scs
