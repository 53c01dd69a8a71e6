import Verif.WorldInv

/-!
# Matrices that the evaluations do not touch

Nothing but `populateMassMatrices` writes `m_iv.M`, and nothing releases it; `m_A` of the conjugate
gradient solver is never used.
-/

namespace Scs

section
variable {α : Type} [Zero α] [Add α] [Mul α] [Sub α] [Neg α] [Fp α]

/-- `mem` has the mass matrix of `m0`, and the unused matrix of the conjugate gradient solver. -/
abbrev KeepM (m0 mem : Store α) : Prop := Frame (fun t => t ≠ .ivM ∧ t ≠ .cgA) (fun _ => True) m0 mem

variable {m0 mem : Store α}

theorem keep_loadVec (h : KeepM m0 mem) {t : MId} (ht : t ≠ .ivM ∧ t ≠ .cgA) {fx fy ft : Fld} {n : Nat}
    {s : SysState α} : Wp (loadVec t fx fy ft n s mem) (KeepM m0) anyErr := by
  rw [loadVec]
  exact ifor h fun i m h => wp_anyOf fun _ => ib (fr_set h ht _ _ _) fun m h => wp_anyOf fun _ =>
    ib (fr_set h ht _ _ _) fun m h => wp_anyOf fun _ => fr_set h ht _ _ _

theorem keep_genAssemble (h : KeepM m0 mem) {w : World α} {raw : Output α} {s : SysState α} :
    Wp (w.genAssemble raw s mem) (KeepM m0) anyErr := by
  have hKs : (fun t => t ≠ MId.ivM ∧ t ≠ .cgA) .ivKs := by decide
  have hKd : (fun t => t ≠ MId.ivM ∧ t ≠ .cgA) .ivKd := by decide
  have hC : (fun t => t ≠ MId.ivM ∧ t ≠ .cgA) .ivC := by decide
  rw [World.genAssemble]
  refine ib (fr_sinit 3 2 h trivial _ _) fun m h => ib (fr_sinit 3 2 h trivial _ _) fun m h =>
    ib (fr_init0 h hKs _ _) fun m h => ib (fr_init0 h hKd _ _) fun m h =>
    ib (fr_init0 h hC _ _) fun m h =>
    ib (R := fun q => KeepM m0 q.mem) ?_ fun q (h : KeepM m0 q.mem) => h
  refine ifor (R := fun (q : Asm α) => KeepM m0 q.mem) h fun i q h => ?_
  rw [World.genCon]
  refine wp_anyOf fun _ => wp_anyOf fun _ =>
    ifor (R := fun (q : Asm α) => KeepM m0 q.mem) h fun i q h => ?_
  refine ib (R := KeepM m0) ?_ fun m h => ib (R := KeepM m0) ?_ fun m (h : KeepM m0 m) => h
  · rw [genBlocks]
    refine ifor h fun i m h => wp_anyOf fun x => ?_
    split
    · exact h
    · exact ib (fr_setBlock 2 h trivial _ _ _) fun m h => fr_setBlock 2 h trivial _ _ _
  · rw [genEntries]
    refine ifor h fun i m h => wp_anyOf fun x => ?_
    split
    · exact h
    · exact wp_anyOf fun _ => ib (fr_sset 3 2 h trivial _ _ _ _) fun m h => wp_anyOf fun _ =>
        ib (fr_sset 3 2 h trivial _ _ _ _) fun m h => wp_anyOf fun _ =>
        ib (fr_set h hKs _ _ _) fun m h => wp_anyOf fun _ => ib (fr_set h hKd _ _ _) fun m h =>
        wp_anyOf fun _ => fr_set h hC _ _ _

theorem keep_genGains (h : KeepM m0 mem) {mf : Nat} : Wp (genGains mf mem) (KeepM m0) anyErr := by
  have hKs : (fun t => t ≠ MId.ivM ∧ t ≠ .cgA) .ivKs := by decide
  have hKd : (fun t => t ≠ MId.ivM ∧ t ≠ .cgA) .ivKd := by decide
  have h0 : (fun t => t ≠ MId.ivM ∧ t ≠ .cgA) .ivReg0 := by decide
  rw [genGains]
  refine ib (fr_smultiply 3 2 h h0 _ _) fun m h => ?_
  exact ifor h fun i m h => wp_anyOf fun _ => wp_anyOf fun _ => ib (fr_set h hKd _ _ _) fun m h =>
    wp_anyOf fun _ => wp_anyOf fun _ => fr_set h hKs _ _ _

theorem keep_genRight (h : KeepM m0 mem) : Wp (genRight mem) (KeepM m0) anyErr := by
  have h0 : (fun t => t ≠ MId.ivM ∧ t ≠ .cgA) .ivReg0 := by decide
  have h1 : (fun t => t ≠ MId.ivM ∧ t ≠ .cgA) .ivReg1 := by decide
  have h2 : (fun t => t ≠ MId.ivM ∧ t ≠ .cgA) .ivReg2 := by decide
  have hr : (fun t => t ≠ MId.ivM ∧ t ≠ .cgA) .ivRight := by decide
  rw [genRight]
  exact ib (fr_leftScale h h2 _ _) fun m h => ib (fr_smultiply 3 2 h h0 _ _) fun m h =>
    ib (fr_smultiply 3 2 h h2 _ _) fun m h => ib (fr_negate h h1 _) fun m h =>
    ib (fr_subtract h h2 _ _) fun m h => ib (fr_subtract h h0 _ _) fun m h =>
    fr_subtract h hr _ _

theorem Solver.keep {sv : Solver α} {q : Store α × Bool} (h : KeepM m0 mem)
    (f : Frame (fun m => some m = some MId.ivLambda ∨ sv.Own m) sv.OwnS mem q.1) : KeepM m0 q.1 := by
  refine ⟨fun a ha => ?_, fun a ha => absurd trivial ha⟩
  rw [f.mat _ ?_, h.mat _ ha]
  rintro (h | h)
  · cases h; exact ha (by decide)
  · cases sv <;> simp only [Solver.Own] at h
    · subst h; exact ha (by decide)
    · rcases h with rfl | rfl <;> exact ha (by decide)
    · rcases h with rfl | rfl | rfl | rfl | rfl | rfl <;> exact ha (by decide)

theorem keep_genSolve (h : KeepM m0 mem) {w : World α} :
    Wp (w.genSolve mem) (KeepM m0) anyErr := by
  rw [World.genSolve]
  refine wp_anyOf fun sv => ib (R := fun q => KeepM m0 q.1) ?_ fun q h => wp_anyOf fun _ => ?_
  · exact (sv.fr_solve (s := mem) 3 2 .ivJ .ivMinv .ivRight (some .ivLambda)
      (some .ivLambda)).mono (fun q f => Solver.keep h f) (fun _ q => q)
  · exact fr_sleftScale 3 2 h trivial _ _

theorem keep_genConstraints (h : KeepM m0 mem) {w : World α} {raw : Output α} {s : SysState α} :
    Wp (w.genConstraints raw mem s) (fun q => KeepM m0 q.1) anyErr := by
  rw [World.genConstraints]
  refine ib (R := KeepM m0) ?_ fun m h => ib (keep_genAssemble h) fun m h =>
    ib (keep_genGains h) fun m h => ib (R := KeepM m0) ?_ fun m h =>
    ib (keep_genRight h) fun m h => ib (keep_genSolve h) fun m h => wp_anyOf fun _ => h
  · rw [loadQdot]
    exact ib (fr_resize h (by decide) _ _) fun m h => keep_loadVec h (by decide)
  · rw [loadFext]
    exact ib (fr_init h (by decide) _ _ _) fun m h => keep_loadVec h (by decide)

theorem keep_optAssemble (h : KeepM m0 mem) {w : World α} {dt : α} {raw : Output α}
    {s : SysState α} : Wp (w.optAssemble dt raw s mem) (KeepM m0) anyErr := by
  have hB : (fun t => t ≠ MId.ivM ∧ t ≠ .cgA) .ivVBias := by decide
  have hL : (fun t => t ≠ MId.ivM ∧ t ≠ .cgA) .ivLimits := by decide
  have hC : (fun t => t ≠ MId.ivM ∧ t ≠ .cgA) .ivC := by decide
  rw [World.optAssemble]
  refine ib (fr_sinit 3 2 h trivial _ _) fun m h => ib (fr_init0 h (by decide) _ _) fun m h =>
    ib (fr_init0 h (by decide) _ _) fun m h => ib (fr_init0 h (by decide) _ _) fun m h =>
    ib (R := fun q => KeepM m0 q.mem) ?_ fun q (h : KeepM m0 q.mem) => h
  refine ifor (R := fun (q : Asm α) => KeepM m0 q.mem) h fun i q h => ?_
  rw [World.optCon]
  refine wp_anyOf fun _ => wp_anyOf fun _ =>
    ifor (R := fun (q : Asm α) => KeepM m0 q.mem) h fun i q h => ?_
  refine ib (R := KeepM m0) ?_ fun m h => h
  rw [optRow]
  refine ib (R := KeepM m0) ?_ fun m h => ib (R := KeepM m0) ?_ fun m h => wp_anyOf fun _ =>
    ib (fr_set h (by decide) _ _ _) fun m h => wp_anyOf fun _ => ib (fr_set h (by decide) _ _ _)
    fun m h => wp_anyOf fun _ => ib (fr_set h (by decide) _ _ _) fun m h => wp_anyOf fun _ =>
    fr_set h (by decide) _ _ _
  · rw [optBlocks]
    refine ifor h fun i m h => wp_anyOf fun x => ?_
    split
    · exact h
    · exact fr_setBlock 2 h trivial _ _ _
  · rw [optEntries]
    refine ifor h fun i m h => wp_anyOf fun x => ?_
    split
    · exact h
    · exact wp_anyOf fun _ => fr_sset 3 2 h trivial _ _ _ _

theorem keep_optRight (h : KeepM m0 mem) {bias dt : α} :
    Wp (optRight bias dt mem) (KeepM m0) anyErr := by
  rw [optRight]
  exact ib (fr_scale h (by decide) _ _) fun m h => ib (fr_leftScale h (by decide) _ _) fun m h =>
    ib (fr_addM h (by decide) _ _) fun m h => wp_anyOf fun _ => ib (fr_scale h (by decide) _ _)
    fun m h => ib (fr_smultiply 3 2 h (by decide) _ _) fun m h => ib (fr_addM h (by decide) _ _)
    fun m h => ib (fr_addM h (by decide) _ _) fun m h => fr_negate h (by decide) _

theorem keep_optSolve (h : KeepM m0 mem) {w : World α} {dt : α} :
    Wp (w.optSolve dt mem) (KeepM m0) anyErr := by
  rw [World.optSolve]
  refine wp_anyOf fun sv => ib (R := fun q => KeepM m0 q.1) ?_ fun q h => wp_anyOf fun _ =>
    wp_anyOf fun r => ib (fr_scale h (by decide) _ _) fun m h => fr_sleftScale 3 2 h trivial _ _
  rw [optCall]
  split
  · exact (sv.fr_solve (s := mem) 3 2 .ivJ .ivMinv .ivRight (some .ivLambda)
      (some .ivLambda)).mono (fun q f => Solver.keep h f) (fun _ q => q)
  · exact (sv.fr_solveL (s := mem) 3 2 .ivJ .ivMinv .ivRight .ivLimits (some .ivLambda)
      (some .ivLambda)).mono (fun q f => Solver.keep h f) (fun _ q => q)

theorem keep_optConstraints (h : KeepM m0 mem) {w : World α} {dt : α} {raw : Output α}
    {s : SysState α} : Wp (w.optConstraints dt raw mem s) (fun q => KeepM m0 q.1) anyErr := by
  rw [World.optConstraints]
  refine ib (keep_optAssemble h) fun m h => ib (R := KeepM m0) ?_ fun m h =>
    ib (R := KeepM m0) ?_ fun m h => ib (keep_optRight h) fun m h => ib (keep_optSolve h) fun m h =>
    wp_anyOf fun _ => h
  · rw [loadQdot]
    exact ib (fr_resize h (by decide) _ _) fun m h => keep_loadVec h (by decide)
  · rw [loadFext]
    exact ib (fr_init h (by decide) _ _ _) fun m h => keep_loadVec h (by decide)

theorem keep_odeLoop {ev : Ctx α → SysState α → Exec (Ctx α × SysState α)}
    (hev : ∀ x s, KeepM m0 x.mem → Wp (ev x s) (fun e => KeepM m0 e.1.mem) anyErr) :
    ∀ (k : Nat) (x : Ctx α) (o : Ode α) (s : SysState α), KeepM m0 x.mem →
      Wp (odeLoop ev k x o s) (fun z => KeepM m0 z.1.mem) anyErr
  | 0, _, _, _, _ => trivial
  | k + 1, x, o, s, hx => by
    rw [odeLoop]
    refine wp_anyOf fun q => ib (hev _ _ hx) fun e he => wp_anyOf fun z => ?_
    cases q.2.2 with
    | true => exact he
    | false => exact keep_odeLoop hev k _ _ _ he

theorem keep_odeRun {ev : Ctx α → SysState α → Exec (Ctx α × SysState α)}
    (hev : ∀ x s, KeepM m0 x.mem → Wp (ev x s) (fun e => KeepM m0 e.1.mem) anyErr) {x : Ctx α}
    (hx : KeepM m0 x.mem) (o : Ode α) (s : SysState α) (dt : α) :
    Wp (odeRun ev x o s dt) (fun z => KeepM m0 z.1.mem) anyErr := by
  rw [odeRun]
  exact wp_anyOf fun o => ib (keep_odeLoop hev 5 _ _ _ hx) fun z hz => hz

theorem keep_optLoop {w : World α} {env : Env α} {dt : α} {steps : Int} {s : SysState α} :
    Wp (w.optLoop env dt steps s mem) (fun q => KeepM mem q.1.mem) anyErr := by
  rw [World.optLoop]
  refine ifor (R := fun q : Ctx α × Ode α × SysState α => KeepM mem q.1.mem)
    (Frame.refl _ _ _) fun i q hq => wp_anyOf fun hh => ?_
  refine keep_odeRun (fun x s hx => ?_) hq _ _ _
  rw [World.optEval]
  exact wp_anyOf fun _ => ib (keep_optConstraints hx) fun q h => h

theorem keep_genLoop {w : World α} {env : Env α} {dt : α} {steps : Int} {s : SysState α} :
    Wp (w.genLoop env dt steps s mem) (fun q => KeepM mem q.1.mem) anyErr := by
  rw [World.genLoop]
  refine ifor (R := fun q : Ctx α × Option (Ode α) × SysState α => KeepM mem q.1.mem)
    (Frame.refl _ _ _) fun i q hq => ?_
  refine wp_anyOf fun o => wp_anyOf fun hh =>
    ib (R := fun z : Ctx α × Ode α × SysState α => KeepM mem z.1.mem) ?_ fun z hz => hz
  refine keep_odeRun (fun x s hx => ?_) hq _ _ _
  rw [World.genEval]
  exact wp_anyOf fun _ => ib (keep_genConstraints hx) fun q h => h

/-- `m_iv.M` is one column wide. -/
abbrev WideM (mem : Store α) : Prop := (mem.mat .ivM).width = 1

theorem wide_set (h : WideM mem) (t : MId) (c r : Nat) (v : α) :
    Wp (mem.set t c r v) WideM anyErr := by
  rw [Store.set]
  refine wp_anyOf fun _ => wp_anyOf fun _ => ?_
  rw [Store.store, Mat.store]
  refine ib (R := fun m => m.width = (mem.mat t).width) ?_ fun m hm => ?_
  · exact wp_anyOf fun _ => wp_anyOf fun _ => wp_anyOf fun _ => wp_anyOf fun _ => wp_anyOf fun _ =>
      rfl
  · change ((mem.setMat t m).mat .ivM).width = 1
    by_cases ht : t = .ivM
    · subst ht
      rw [Store.setMat_same, hm]
      exact h
    · rw [(Only.setMat t mem m).mat _ (Ne.symm ht)]
      exact h

theorem wide_populateMass (h : MemOk mem) {w : World α} :
    Wp (w.populateMass mem) WideM anyErr := by
  rw [World.populateMass]
  obtain ⟨m1, e1, w1⟩ := mem.init0_spec .ivM 1 (3 * w.bodyCount) (h.mat _)
  rw [e1, ok_bind]
  refine ib (R := WideM) ?_ fun m h => ifor h fun i m h => ?_
  · have := fr_init0 (Frame.refl (fun t => t ≠ MId.ivM ∧ t ≠ .cgA) (fun _ => True) m1)
      (t := .ivMinv) (by decide) 1 (3 * w.bodyCount)
    refine this.mono (fun m f => ?_) (fun _ q => q)
    change (m.mat .ivM).width = 1
    rw [f.mat _ (by simp)]
    exact w1.width
  · rw [World.popMass]
    exact wp_anyOf fun _ => ib (wide_set h _ _ _ _) fun m h => ib (wide_set h _ _ _ _) fun m h =>
      ib (wide_set h _ _ _ _) fun m h => wp_anyOf fun _ => ib (wide_set h _ _ _ _) fun m h =>
      wp_anyOf fun _ => ib (wide_set h _ _ _ _) fun m h => wp_anyOf fun _ => wide_set h _ _ _ _

theorem cgA_populateMass {w : World α} :
    Wp (w.populateMass mem) (fun m => m.mat .cgA = mem.mat .cgA) anyErr := by
  have : Wp (w.populateMass mem) (Frame (fun t => t ≠ MId.cgA) (fun _ => True) mem) anyErr := by
    rw [World.populateMass]
    refine ib (fr_init0 (Frame.refl _ _ _) (by decide) _ _) fun m h => ib (fr_init0 h (by decide) _ _) fun m h =>
      ifor h fun i m h => ?_
    rw [World.popMass]
    refine wp_anyOf fun _ => ib (fr_set h (by decide) _ _ _) fun m h => ib (fr_set h (by decide) _ _ _) fun m h =>
      ib (fr_set h (by decide) _ _ _) fun m h => wp_anyOf fun _ => ib (fr_set h (by decide) _ _ _) fun m h =>
      wp_anyOf fun _ => ib (fr_set h (by decide) _ _ _) fun m h => wp_anyOf fun _ => fr_set h (by decide) _ _ _
  exact this.mono (fun m f => f.mat _ (by simp)) (fun _ q => q)

theorem cgA_process {cls : Cls} {w : World α} (env : Env α) (dt : α) (steps : Int) :
    Wp (w.process cls env dt steps) (fun w' => w'.mem.mat .cgA = w.mem.mat .cgA) anyErr := by
  cases cls with
  | opt =>
    simp only [World.process]
    rw [World.optProcess]
    refine wp_anyOf fun s => ib cgA_populateMass fun m hm => ib keep_optLoop fun q hq => ?_
    simp only [World.propagateResults, bind_assoc]
    refine ib (storeBodies_wp _ _ _) fun w1 h1 => ?_
    refine ib (storeForces_wp _ _ _) fun z hz => ?_
    rw [pure_bind]
    refine ib (record_wp _ _) fun w2 h2 => ?_
    rw [wp_pure]
    simp only []
    rw [h2.1]
    simp only []
    rw [hz.1]
    simp only []
    rw [h1.1]
    simp only []
    rw [hq.mat _ (by simp)]
    exact hm
  | gen =>
    simp only [World.process]
    rw [World.genProcess]
    refine wp_anyOf fun s => ib cgA_populateMass fun m hm => ib keep_genLoop fun q hq => ?_
    refine ib (storeBodies_wp _ _ _) fun w1 h1 => ?_
    refine ib (storeForces_wp _ _ _) fun z hz => ?_
    refine (record_wp _ _).mono (fun w2 h2 => ?_) (fun _ q => q)
    rw [h2.1]
    simp only []
    rw [hz.1]
    simp only []
    rw [h1.1]
    simp only []
    rw [hq.mat _ (by simp)]
    exact hm

theorem wide_genProcess {w : World α} (h : MemOk w.mem) (env : Env α) (dt : α) (steps : Int) :
    Wp (w.genProcess env dt steps) (fun w' => WideM w'.mem) anyErr := by
  rw [World.genProcess]
  refine wp_anyOf fun s => ib (wide_populateMass h) fun m hm => ib keep_genLoop fun q hq => ?_
  refine ib (storeBodies_wp _ _ _) fun w1 h1 => ?_
  refine ib (storeForces_wp _ _ _) fun z hz => ?_
  refine (record_wp _ _).mono (fun w2 h2 => ?_) (fun _ q => q)
  rw [h2.1]
  simp only []
  rw [hz.1]
  simp only []
  rw [h1.1]
  simp only [WideM]
  rw [hq.mat _ (by simp)]
  exact hm

/-- No action but `init` and `process` changes the matrices. -/
theorem Op.run_mem {cls : Cls} {op : Op α} {w w' : World α} (e : op.run cls w = .ok w')
    (h1 : ∀ sle ode, op ≠ .init sle ode) (h2 : ∀ env dt steps, op ≠ .process env dt steps) :
    w'.mem = w.mem := by
  cases op with
  | removeBody b =>
    simp only [Op.run, World.removeBody] at e
    cases q : unregister w.rb (w.bodies b).index with
    | error _ => rw [q] at e; cases e
    | ok z => rw [q] at e; cases e; rfl
  | removeCon b =>
    simp only [Op.run, World.removeCon] at e
    cases q : unregister w.cs (w.cons b).index with
    | error _ => rw [q] at e; cases e
    | ok z => rw [q] at e; cases e; rfl
  | removeGen b =>
    simp only [Op.run, World.removeGen] at e
    cases q0 : initd (w.genIndex b) with
    | error _ => rw [q0] at e; cases e
    | ok i =>
      rw [q0, ok_bind] at e
      cases q : unregister w.fg i with
      | error _ => rw [q] at e; cases e
      | ok z => rw [q] at e; cases e; rfl
  | init sle ode => exact absurd rfl (h1 _ _)
  | process env dt steps => exact absurd rfl (h2 _ _ _)
  | _ => cases e; rfl

/-- The mass matrix of a generic system has storage exactly if `process` has been called; before the
first call no matrix has. -/
theorem World.Hist.massG (hd : DivOk α) {G : Gen α → Prop} (hG : ∀ g, G g → g.OnlyForces)
    {h : List (Op α)} {w : World α} (hw : World.Hist G .gen h w) :
    (processedDts h ≠ [] ∧ WideM w.mem) ∨
      (processedDts h = [] ∧ w.mem.mat = (fun _ => Mat.empty) ∧ w.mem.smat = fun _ => SMat.empty) := by
  induction hw with
  | start bodies cons gens genIndex hg j j' k k' => exact Or.inr ⟨rfl, rfl, rfl⟩
  | @step h w w' op hw hv e ih =>
    by_cases h2 : ∃ env dt steps, op = .process env dt steps
    · obtain ⟨env, dt, steps, rfl⟩ := h2
      refine Or.inl ⟨by simp [processedDts], ?_⟩
      exact (wide_genProcess (hw.sound hd hG).mem env dt steps).of_eq e
    · by_cases h1 : ∃ sle ode, op = .init sle ode
      · obtain ⟨sle, ode, rfl⟩ := h1
        have e : w.genInit sle ode = .ok w' := e
        rw [World.genInit] at e
        cases q : w.mem.init0 .ivLambda 0 0 with
        | error _ => rw [q] at e; cases e
        | ok m =>
          rw [q, ok_bind] at e
          cases e
          rcases ih with ⟨p, i⟩ | ⟨p, i1, i2⟩
          · refine Or.inl ⟨p, ?_⟩
            have f := (fr_init0 (Frame.refl (fun t => t ≠ MId.ivM ∧ t ≠ .cgA) (fun _ => True) w.mem)
              (t := .ivLambda) (by decide) 0 0).of_eq q
            change (m.mat .ivM).width = 1
            rw [f.mat _ (by simp)]
            exact i
          · refine Or.inr ⟨p, ?_⟩
            have : w.mem.init0 .ivLambda 0 0 = .ok (w.mem.setMat .ivLambda (w.mem.mat .ivLambda)) := by
              rw [Store.init0, Store.resize]
              simp only []
              rw [if_pos (by rw [i1]; exact ⟨rfl, rfl⟩), ok_bind]
              rfl
            rw [this] at q
            cases q
            refine ⟨?_, i2⟩
            funext t
            simp only [Store.setMat, upd, i1]
            split <;> rfl
      · have hm := Op.run_mem e (fun _ _ q => h1 ⟨_, _, q⟩) (fun _ _ _ q => h2 ⟨_, _, _, q⟩)
        have hp : processedDts (op :: h) = processedDts h := by
          cases op <;> first | rfl | exact absurd ⟨_, _, _, rfl⟩ h2
        rw [hm, hp]
        exact ih

/-- `m_A` of the conjugate gradient solver never gets storage. -/
theorem World.Hist.cgA {G : Gen α → Prop} {cls : Cls} {h : List (Op α)} {w : World α}
    (hw : World.Hist G cls h w) : w.mem.mat .cgA = Mat.empty := by
  induction hw with
  | start bodies cons gens genIndex hg j j' k k' => rfl
  | @step h w w' op hw hv e ih =>
    by_cases h2 : ∃ env dt steps, op = .process env dt steps
    · obtain ⟨env, dt, steps, rfl⟩ := h2
      exact ((cgA_process env dt steps).of_eq e).trans ih
    · by_cases h1 : ∃ sle ode, op = .init sle ode
      · obtain ⟨sle, ode, rfl⟩ := h1
        cases cls with
        | opt => cases e; exact ih
        | gen =>
          have e : w.genInit sle ode = .ok w' := e
          rw [World.genInit] at e
          cases q : w.mem.init0 .ivLambda 0 0 with
          | error _ => rw [q] at e; cases e
          | ok m =>
            rw [q, ok_bind] at e
            cases e
            have f := (fr_init0 (Frame.refl (fun t => t ≠ MId.ivM ∧ t ≠ .cgA) (fun _ => True) w.mem)
              (t := .ivLambda) (by decide) 0 0).of_eq q
            exact (f.mat _ (by simp)).trans ih
      · rw [Op.run_mem e (fun _ _ q => h1 ⟨_, _, q⟩) (fun _ _ _ q => h2 ⟨_, _, _, q⟩)]
        exact ih

end

end Scs
