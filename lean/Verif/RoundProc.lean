import Verif.RoundWorld
import Verif.RoundGe
import Verif.RoundCg
import Verif.WorldProc
import Verif.WorldGenStep
import Verif.WorldRk

/-!
# Rounding: `process`

A call of `process` keeps corresponding numbers close: of either system with the elimination solver or
the conjugate gradient solver, and of the optimized system with the Gauss-Seidel solver, unless a number
that an iterative solver compares with its tolerances equals them exactly.
-/

namespace Scs

open Filter Topology

local macro "noeq" : tactic => `(tactic| (intro e; cases e))

/-! ## Specification -/

/-- The matrices handed to the solver, src/optimized_nsv_rigid_body_system.cpp:116-197: the statements
of `processConstraints` before the call. -/
noncomputable def World.optInput (W : World ℝ) (D : ℝ) (raw : Output ℝ) (mem : Store ℝ) (S : SysState ℝ) :
    Exec (Store ℝ) := do
  let mem ← W.optAssemble D raw S mem
  let mem ← loadQdot W.bodyCount S mem
  let mem ← loadFext W.bodyCount S mem
  optRight W.bias D mem

/-- The same for the generic system, src/generic_rigid_body_system.cpp:97-179. -/
noncomputable def World.genInput (W : World ℝ) (raw : Output ℝ) (mem : Store ℝ) (S : SysState ℝ) :
    Exec (Store ℝ) := do
  let mem ← loadQdot W.bodyCount S mem
  let mem ← W.genAssemble raw S mem
  let mem ← genGains W.fullCount mem
  let mem ← loadFext W.bodyCount S mem
  genRight mem

/-- Solving the given system, Gauss-Seidel has no sweep with a largest change of exactly the tolerance,
and conjugate gradients have no residual with an entry exactly as large as allowed. -/
def World.Untied (W : World ℝ) (mem : Store ℝ) : Prop :=
  (∀ n δ, W.sle = some (.gs n δ) →
    mem.GsClear 3 2 n δ .ivJ .ivMinv .ivRight .ivLimits (some .ivLambda) (some .ivLambda)) ∧
  ∀ n δ δ', W.sle = some (.cg n δ δ') →
    mem.CgClear 3 2 n δ δ' .ivJ .ivMinv .ivRight (some .ivLambda) (some .ivLambda)

/-- `Untied` for the system assembled in an evaluation. -/
def World.EvalUntied (W : World ℝ) (E : Env ℝ) (D : ℝ) (X : Ctx ℝ) (S : SysState ℝ) : Prop :=
  ∀ S1, W.processForces S = .ok S1 → ∀ N, W.optInput D (E.raw X.evals) X.mem S1 = .ok N → W.Untied N

@[inherit_doc World.EvalUntied]
def World.EvalUntiedG (W : World ℝ) (E : Env ℝ) (X : Ctx ℝ) (S : SysState ℝ) : Prop :=
  ∀ S1, W.processForces S = .ok S1 → ∀ N, W.genInput (E.raw X.evals) X.mem S1 = .ok N → W.Untied N

section
variable {W : World ℝ} {B : Nat → Nat → Nat} {M : Store ℝ} {S S0 : SysState ℝ}

theorem wp_free {τ : Type} (x : Exec τ) : Wp x (fun _ => True) anyErr :=
  wp_anyErr_iff.2 fun _ _ => trivial

/-- What the optimized system hands to the solver. -/
theorem optBefore (hfit : W.Fit B) {D : ℝ} {raw : Output ℝ} (hinv : MemOk M) (hm : W.Masses M)
    (hs : S.Wf) (hn : W.bodyCount ≤ S.n) {m1 m2 m3 m4 : Store ℝ}
    (e1 : W.optAssemble D raw S M = .ok m1) (e2 : loadQdot W.bodyCount S m1 = .ok m2)
    (e3 : loadFext W.bodyCount S m2 = .ok m3) (e4 : optRight W.bias D m3 = .ok m4) :
    SleIn 3 2 m4 .ivJ .ivMinv .ivRight W.fullCount ∧ (m4.smat .geReg).Fresh := by
  obtain ⟨out, hout, ha⟩ := wp_anyErr_iff.1 (optAssemble_wp (E := anyErr) hfit hinv
    fun c _ o => wp_free _) m1 e1
  obtain ⟨m2', e2', i2, o2, w2, h2, v2⟩ := loadQdot_spec hs hn ha.inv
  rw [e2] at e2'; cases e2'
  obtain ⟨m3', e3', i3, o3, w3, h3, v3⟩ := loadFext_spec hs hn i2
  rw [e3] at e3'; cases e3'
  have hJ3 : m3.smat .ivJ = m1.smat .ivJ := by rw [o3.smat, o2.smat]
  have hM3 : m3.mat .ivMinv = M.mat .ivMinv := by
    rw [o3.mat _ (by decide), o2.mat _ (by decide), ha.frame.mat _ (by simp)]
  have k3 : ∀ a, a = MId.ivVBias ∨ a = .ivC ∨ a = .ivLimits → m3.mat a = m1.mat a := by
    rintro a (rfl | rfl | rfl) <;> rw [o3.mat _ (by decide), o2.mat _ (by decide)]
  have hm3 := hm.frame hM3
  have hQ3 : m3.mat .ivQdot = m2.mat .ivQdot := o3.mat _ (by decide)
  obtain ⟨hdt0, i4, f4, w4, h4, v4⟩ := wp_anyErr_iff.1 (optRight_wp (n := W.bodyCount * 3)
    (m := W.fullCount) (E := anyErr) i3
    (by rw [hJ3]; exact AsmRows_inRange hfit ha) (by rw [hJ3, ha.wJ, Nat.mul_comm])
    (by rw [hJ3, ha.hJ]) w3 h3 hm3.width hm3.height (by rw [hQ3]; exact w2) (by rw [hQ3]; exact h2)
    (by rw [k3 _ (Or.inl rfl)]; exact ha.wb) (by rw [k3 _ (Or.inl rfl)]; exact ha.hb)
    (by rw [k3 _ (Or.inr (Or.inl rfl))]; exact ha.we)
    (by rw [k3 _ (Or.inr (Or.inl rfl))]; exact ha.he) fun _ => trivial) m4 e4
  have hJ4 : m4.smat .ivJ = m1.smat .ivJ := by rw [f4.smat _ id, hJ3]
  have hM4 : m4.mat .ivMinv = M.mat .ivMinv := by rw [f4.mat _ (by simp), hM3]
  have hm4 := hm.frame hM4
  exact ⟨⟨i4.ok, by rw [hJ4]; exact AsmRows_inRange hfit ha, by rw [hJ4]; exact ha.hJ, hm4.width,
    by rw [hm4.height, hJ4, ha.wJ, Nat.mul_comm], w4, h4⟩, i4.fresh _ (by simp [sysRestr])⟩

/-- What the generic system hands to the solver. -/
theorem genBefore (hfit : W.Fit B) (hid : W.NoIdle) {raw : Output ℝ} (hinv : MemOk M)
    (hm : W.Masses M) (hs : S.Wf) (hn : W.bodyCount ≤ S.n) {m0 m1 m2 m3 m4 : Store ℝ}
    (e0 : loadQdot W.bodyCount S M = .ok m0) (e1 : W.genAssemble raw S m0 = .ok m1)
    (e2 : genGains W.fullCount m1 = .ok m2) (e3 : loadFext W.bodyCount S m2 = .ok m3)
    (e4 : genRight m3 = .ok m4) :
    SleIn 3 2 m4 .ivJ .ivMinv .ivRight W.fullCount ∧ (m4.smat .geReg).Fresh := by
  obtain ⟨m0', e0', i0, o0, w0, h0, v0⟩ := loadQdot_spec hs hn hinv
  rw [e0] at e0'; cases e0'
  obtain ⟨out, hout, ha⟩ := wp_anyErr_iff.1 (genAssemble_wp (E := anyErr) hfit hid i0
    fun c _ o => wp_free _) m1 e1
  have dJ := ha.dims .ivJ (Or.inl rfl)
  have dD := ha.dims .ivJdot (Or.inr rfl)
  have Q1 : m1.mat .ivQdot = m0.mat .ivQdot := ha.frame.mat _ (by simp)
  obtain ⟨m2', e2', i2, f2, v2, g2⟩ := genGains_spec (n := W.bodyCount * 3) (m := W.fullCount)
    ha.inv (GenRows_inRange hfit ha (Or.inl rfl)) (by rw [dJ.1, Nat.mul_comm]) dJ.2.1
    (by rw [Q1]; exact w0) (by rw [Q1]; exact h0) ha.vec
  rw [e2] at e2'; cases e2'
  obtain ⟨m3', e3', i3, o3, w3, h3, v3⟩ := loadFext_spec hs hn i2
  rw [e3] at e3'; cases e3'
  have sm3 : ∀ t, m3.smat t = m1.smat t := fun t => by rw [o3.smat, f2.smat _ id]
  have hM3 : m3.mat .ivMinv = M.mat .ivMinv := by
    rw [o3.mat _ (by decide), f2.mat _ (by simp), ha.frame.mat _ (by simp), o0.mat _ (by decide)]
  have hQ3 : m3.mat .ivQdot = m0.mat .ivQdot := by
    rw [o3.mat _ (by decide), f2.mat _ (by simp), Q1]
  have k3 : ∀ a, a = MId.ivKs ∨ a = .ivKd → m3.mat a = m2.mat a := by
    rintro a (rfl | rfl) <;> rw [o3.mat _ (by decide)]
  have hm3 := hm.frame hM3
  obtain ⟨m4', e4', i4, f4, w4, h4, v4⟩ := genRight_spec (n := W.bodyCount * 3) (m := W.fullCount)
    i3 (fun t ht => by
      rw [sm3 t]
      refine ⟨GenRows_inRange hfit ha ht, ?_, (ha.dims t ht).2.1⟩
      rw [(ha.dims t ht).1, Nat.mul_comm])
    w3 h3 hm3.width hm3.height (by rw [hQ3]; exact w0) (by rw [hQ3]; exact h0)
    (fun a q => by rw [k3 a q]; exact v2 a q)
  rw [e4] at e4'; cases e4'
  have hJ4 : m4.smat .ivJ = m1.smat .ivJ := by rw [f4.smat _ id, sm3]
  have hM4 : m4.mat .ivMinv = M.mat .ivMinv := by rw [f4.mat _ (by simp), hM3]
  have hm4 := hm.frame hM4
  exact ⟨⟨i4.ok, by rw [hJ4]; exact GenRows_inRange hfit ha (Or.inl rfl), by rw [hJ4]; exact dJ.2.1,
    hm4.width, by rw [hm4.height, hJ4, dJ.1, Nat.mul_comm], w4, h4⟩,
    i4.fresh _ (by simp [sysRestr])⟩

/-- The states in which the exact system evaluates. -/
def World.Runs (W : World ℝ) (S0 : SysState ℝ) : Prop :=
  W.bodyCount ≤ S0.n ∧ W.fullCount ≤ S0.nc

theorem optEval_keeps (hfit : W.Fit B) (hg : ∀ g ∈ W.fg, (W.gens g).OnlyForces) (hr : W.Runs S0)
    (E : Env ℝ) (D : ℝ) (x : Ctx ℝ) (S : SysState ℝ) (hm : W.Mid x.mem) (hl : S0.Like S) :
    Wp (W.optEval E D x S) (fun z => W.Mid z.1.mem ∧ S0.Like z.2) anyErr := by
  rw [World.optEval, wp_bind]
  refine (processForces_wp hg S).imp fun S1 fw => ?_
  have fw : ForceWrites S S1 := fw
  rw [wp_bind]
  refine (optConstraints_wp (B := B) hfit hm.inv hm.mass hm.lam (fw.wf hl.wf)
    (by rw [fw.n, hl.n]; exact hr.1) (by rw [fw.nc, hl.nc]; exact hr.2) (E := anyErr)
    (fun _ => trivial) (fun c _ o => wp_free _) (fun _ => trivial)
    (fun sv _ out _ => .inr fun _ => trivial)).imp ?_
  rintro q ⟨_, qi, qm, ql, _, out, lam, qe⟩
  exact ⟨⟨qi, qm, ql⟩, qe.wf, by rw [qe.n, fw.n, hl.n], by rw [qe.nc, fw.nc, hl.nc],
    fun i => by rw [qe.keep _ _ mass_not_acc, fw.keep mass_not_force, hl.mass]⟩

theorem genEval_keeps (hfit : W.Fit B) (hid : W.NoIdle)
    (hg : ∀ g ∈ W.fg, (W.gens g).OnlyForces) (hr : W.Runs S0)
    (E : Env ℝ) (x : Ctx ℝ) (S : SysState ℝ) (hm : W.Mid x.mem) (hl : S0.Like S) :
    Wp (W.genEval E x S) (fun z => W.Mid z.1.mem ∧ S0.Like z.2) anyErr := by
  refine (genEval_wp (P := fun _ => True) (E := anyErr) hfit hid hg hm hl.wf
    (by rw [hl.n]; exact hr.1) (by rw [hl.nc]; exact hr.2) (.inl fun _ => trivial)).imp ?_
  rintro z ⟨z1, _, s1, out, lam, z2⟩
  exact ⟨z1, z2.like hl⟩

end

section
variable {ι : Type} {U : Ultrafilter ι} {F : ι → Type} [∀ i, Rounded (F i)]
  [Shrinks (U : Filter ι) F]
  {w : ∀ i, World (F i)} {W : World ℝ} {s : ∀ i, SysState (F i)} {S S0 : SysState ℝ}
  {m : ∀ i, Store (F i)} {M : Store ℝ} {G : Mat ℝ} {B : Nat → Nat → Nat}

theorem rel_geCall (hG : G.WF) (hm : NStore U (some G) m M)
    {n : Nat} (hin : SleIn 3 2 M .ivJ .ivMinv .ivRight n) (hf : (M.smat .geReg).Fresh) :
    RelF U (fun (a : ∀ i, Store (F i) × Bool) b => NMem (U : Filter ι) (fun i => (a i).1) b.1 ∧
        SameF (U : Filter ι) (fun i => (a i).2) b.2)
      (fun i => (m i).geSolve 3 2 .ivJ .ivMinv .ivRight (some .ivLambda) (some .ivLambda))
      (M.geSolve 3 2 .ivJ .ivMinv .ivRight (some .ivLambda) (some .ivLambda)) :=
  rel_geSolve (by decide) _ hG hm hin (by noeq) hf (by noeq) (by noeq) (by noeq) (by noeq)
    (by noeq)

omit [Shrinks (U : Filter ι) F] in
/-- Dereferencing the solver. -/
theorem rel_sle {σ : ι → Type} {τ : Type} {R : (∀ i, σ i) → τ → Prop}
    {v : ∀ i, Option (Solver (F i))} {V : Option (Solver ℝ)} (h : NSle (U : Filter ι) v V)
    {f : ∀ i, Solver (F i) → Exec (σ i)} {g : Solver ℝ → Exec τ}
    (hg : ∀ n d D, V = some (.gs n D) → Near (U : Filter ι) d D →
      RelF U R (fun i => f i (.gs n (d i))) (g (.gs n D)))
    (hf : V = some .ge → RelF U R (fun i => f i .ge) (g .ge))
    (hk : ∀ n d d' D D', V = some (.cg n D D') → Near (U : Filter ι) d D → Near (U : Filter ι) d' D' →
      RelF U R (fun i => f i (.cg n (d i) (d' i))) (g (.cg n D D'))) :
    RelF U R (fun i => deref (v i) >>= f i) (deref V >>= g) := by
  rcases V with _ | ⟨n, D⟩ | _ | ⟨n, D, D'⟩
  · exact relf_error _ _
  · obtain ⟨d, e, hd⟩ := h
    exact relf_congr (x' := fun i => f i (.gs n (d i))) (e.mono fun i e => by rw [e]; rfl)
      (hg n d D rfl hd)
  · have h : ∀ᶠ i in (U : Filter ι), v i = some .ge := h
    refine relf_congr (x' := fun i => f i .ge) (h.mono fun i e => by rw [e]; rfl) (hf rfl)
  · obtain ⟨d, d', e, hd, hd'⟩ := h
    exact relf_congr (x' := fun i => f i (.cg n (d i) (d' i))) (e.mono fun i e => by rw [e]; rfl)
      (hk n d d' D D' rfl hd hd')

theorem rel_cgCall (hG : G.WF) (hm : NStore U (some G) m M) (n : Nat) {d d' : ∀ i, F i} {D D' : ℝ}
    (hd : Near (U : Filter ι) d D) (hd' : Near (U : Filter ι) d' D')
    (hc : M.CgClear 3 2 n D D' .ivJ .ivMinv .ivRight (some .ivLambda) (some .ivLambda)) :
    RelF U (fun (a : ∀ i, Store (F i) × Bool) b => NMem (U : Filter ι) (fun i => (a i).1) b.1 ∧
        SameF (U : Filter ι) (fun i => (a i).2) b.2)
      (fun i => (m i).cgSolve 3 2 n (d i) (d' i) .ivJ .ivMinv .ivRight (some .ivLambda)
        (some .ivLambda))
      (M.cgSolve 3 2 n D D' .ivJ .ivMinv .ivRight (some .ivLambda) (some .ivLambda)) :=
  (rel_cgSolve 3 2 n hm (by noeq) (by noeq) (by noeq) (by noeq) hd hd' hc).mono fun _ _ h =>
    ⟨⟨G, hG, h.1⟩, h.2⟩

theorem rel_gsCall (hG : G.WF) (hm : NStore U (some G) m M) (n : Nat) {d : ∀ i, F i} {D : ℝ}
    (hd : Near (U : Filter ι) d D)
    (hc : M.GsClear 3 2 n D .ivJ .ivMinv .ivRight .ivLimits (some .ivLambda) (some .ivLambda)) :
    RelF U (fun (a : ∀ i, Store (F i) × Bool) b => NMem (U : Filter ι) (fun i => (a i).1) b.1 ∧
        SameF (U : Filter ι) (fun i => (a i).2) b.2)
      (fun i => (m i).gsSolveL 3 2 n (d i) .ivJ .ivMinv .ivRight .ivLimits (some .ivLambda)
        (some .ivLambda))
      (M.gsSolveL 3 2 n D .ivJ .ivMinv .ivRight .ivLimits (some .ivLambda) (some .ivLambda)) :=
  (rel_gsSolveL 3 2 n hm (by noeq) (by noeq) (by noeq) (by noeq) hd hc).mono fun _ _ h =>
    ⟨⟨G, hG, h.1⟩, h.2⟩

theorem rel_optSolve (h : NWorld (U : Filter ι) w W) {d : ∀ i, F i} {D : ℝ}
    (hd : Near (U : Filter ι) d D) (hG : G.WF) (hm : NStore U (some G) m M)
    {n : Nat} (hin : SleIn 3 2 M .ivJ .ivMinv .ivRight n) (hf : (M.smat .geReg).Fresh)
    (hc : W.Untied M) :
    RelF U (NMem (U : Filter ι)) (fun i => (w i).optSolve (d i) (m i)) (W.optSolve D M) := by
  have after : ∀ (x : ∀ i, Exec (Store (F i) × Bool)) (y : Exec (Store ℝ × Bool)),
      RelF U (fun (a : ∀ i, Store (F i) × Bool) b => NMem (U : Filter ι) (fun i => (a i).1) b.1 ∧
        SameF (U : Filter ι) (fun i => (a i).2) b.2) x y →
      RelF U (NMem (U : Filter ι)) (fun i => (do
        let q ← x i
        chk (q.2 = true) "optimized_nsv_rigid_body_system.cpp:219"
        let r ← Fp.div (Fp.lit 1) (d i)
        let mem ← q.1.scale .ivLambda r .ivReg0
        mem.sleftScale 3 2 .ivJ .ivReg0 .ivSreg0 : Exec (Store (F i)))) (do
        let q ← y
        chk (q.2 = true) "optimized_nsv_rigid_body_system.cpp:219"
        let r ← Fp.div (Fp.lit 1) D
        let mem ← q.1.scale .ivLambda r .ivReg0
        mem.sleftScale 3 2 .ivJ .ivReg0 .ivSreg0) := by
    intro x y hxy
    refine relf_bind hxy fun a b hab => ?_
    obtain ⟨⟨G', hG', hm⟩, hb⟩ := hab
    refine relf_chk_bind (fun hp => hb.mono fun i e => e.trans hp) fun _ => ?_
    refine relf_bind (near_div (Near.lit 1) hd) fun q Q hq => ?_
    refine relf_bind (rel_scale hm (by noeq) (by noeq) hq) fun m M hm => ?_
    exact (rel_sleftScale _ _ hm (by noeq)).mono fun m M hm => ⟨G', hG', hm⟩
  unfold World.optSolve
  refine rel_sle h.sle (fun k e E hW he => ?_) (fun _ => ?_) fun k e e' E E' hW he he' => ?_
  · exact after _ _ (rel_gsCall hG hm k he (hc.1 k E hW))
  · exact after _ _ (rel_geCall hG hm hin hf)
  · exact after _ _ (rel_cgCall hG hm k he he' (hc.2 k E E' hW))

theorem rel_genSolve (h : NWorld (U : Filter ι) w W) (hG : G.WF) (hm : NStore U (some G) m M)
    {n : Nat} (hin : SleIn 3 2 M .ivJ .ivMinv .ivRight n) (hf : (M.smat .geReg).Fresh)
    (hq : ∀ n d, W.sle ≠ some (.gs n d)) (hc : W.Untied M) :
    RelF U (NMem (U : Filter ι)) (fun i => (w i).genSolve (m i)) (W.genSolve M) := by
  have after : ∀ (x : ∀ i, Exec (Store (F i) × Bool)) (y : Exec (Store ℝ × Bool)),
      RelF U (fun (a : ∀ i, Store (F i) × Bool) b => NMem (U : Filter ι) (fun i => (a i).1) b.1 ∧
        SameF (U : Filter ι) (fun i => (a i).2) b.2) x y →
      RelF U (NMem (U : Filter ι)) (fun i => (do
        let q ← x i
        chk (q.2 = true) "generic_rigid_body_system.cpp:188"
        q.1.sleftScale 3 2 .ivJ .ivLambda .ivSreg0 : Exec (Store (F i)))) (do
        let q ← y
        chk (q.2 = true) "generic_rigid_body_system.cpp:188"
        q.1.sleftScale 3 2 .ivJ .ivLambda .ivSreg0) := by
    intro x y hxy
    refine relf_bind hxy fun a b hab => ?_
    obtain ⟨⟨G', hG', hm⟩, hb⟩ := hab
    refine relf_chk_bind (fun hp => hb.mono fun i e => e.trans hp) fun _ => ?_
    exact (rel_sleftScale _ _ hm (by noeq)).mono fun m M hm => ⟨G', hG', hm⟩
  unfold World.genSolve
  refine rel_sle h.sle (fun k _ E hW _ => absurd hW (hq k E)) (fun _ => ?_)
    fun k e e' E E' hW he he' => ?_
  · exact after _ _ (rel_geCall hG hm hin hf)
  · exact after _ _ (rel_cgCall hG hm k he he' (hc.2 k E E' hW))

/-- Matrices and a state. -/
def NMemState (l : Filter ι) (a : ∀ i, Store (F i) × SysState (F i)) (b : Store ℝ × SysState ℝ) :
    Prop := NMem l (fun i => (a i).1) b.1 ∧ NState l (fun i => (a i).2) b.2

theorem rel_optConstraints (h : NWorld (U : Filter ι) w W) (hfit : W.Fit B)
    {d : ∀ i, F i} {D : ℝ} (hd : Near (U : Filter ι) d D) {o : ∀ i, Output (F i)} {O : Output ℝ}
    (ho : NOut (U : Filter ι) o O) (hM : NMem (U : Filter ι) m M)
    (hs : NState (U : Filter ι) s S) (hinv : MemOk M) (hmass : W.Masses M) (hwf : S.Wf)
    (hn : W.bodyCount ≤ S.n) (hc : ∀ N, W.optInput D O M S = .ok N → W.Untied N) :
    RelF U (NMemState (U : Filter ι)) (fun i => (w i).optConstraints (d i) (o i) (m i) (s i))
      (W.optConstraints D O M S) := by
  obtain ⟨G, hG, hm⟩ := hM
  unfold World.optConstraints
  refine relf_bind' (rel_optAssemble h hd ho hs hm) fun m M1 _ e1 hm => ?_
  refine relf_bind' (rel_loadQdot h.bodyCount hs hm) fun m M2 _ e2 hm => ?_
  refine relf_bind' (rel_loadFext h.bodyCount hs hm) fun m M3 _ e3 hm => ?_
  refine relf_bind' (rel_optRight h.bias hd hm) fun m M4 _ e4 hm => ?_
  obtain ⟨hin, hf⟩ := optBefore hfit hinv hmass hwf hn e1 e2 e3 e4
  refine relf_bind (rel_optSolve h hd hG hm hin hf (hc M4 (by
    rw [World.optInput, e1, ok_bind, e2, ok_bind, e3, ok_bind, e4]))) fun m M5 hm => ?_
  obtain ⟨G', hG', hm⟩ := hm
  refine relf_bind (rel_applyReactions h hm hs) fun s S hs => ?_
  exact relf_pure ⟨⟨G', hG', hm⟩, hs⟩

theorem rel_genConstraints (h : NWorld (U : Filter ι) w W) (hfit : W.Fit B) (hid : W.NoIdle)
    {o : ∀ i, Output (F i)} {O : Output ℝ}
    (ho : NOut (U : Filter ι) o O) (hM : NMem (U : Filter ι) m M)
    (hs : NState (U : Filter ι) s S) (hinv : MemOk M) (hmass : W.Masses M) (hwf : S.Wf)
    (hn : W.bodyCount ≤ S.n) (hq : ∀ n d, W.sle ≠ some (.gs n d))
    (hc : ∀ N, W.genInput O M S = .ok N → W.Untied N) :
    RelF U (NMemState (U : Filter ι)) (fun i => (w i).genConstraints (o i) (m i) (s i))
      (W.genConstraints O M S) := by
  obtain ⟨G, hG, hm⟩ := hM
  unfold World.genConstraints
  refine relf_bind' (rel_loadQdot h.bodyCount hs hm) fun m M0 _ e0 hm => ?_
  refine relf_bind' (rel_genAssemble h ho hs hm) fun m M1 _ e1 hm => ?_
  refine relf_bind' (rel_genGains h.fullCount hm) fun m M2 _ e2 hm => ?_
  refine relf_bind' (rel_loadFext h.bodyCount hs hm) fun m M3 _ e3 hm => ?_
  refine relf_bind' (rel_genRight hm) fun m M4 _ e4 hm => ?_
  obtain ⟨hin, hf⟩ := genBefore hfit hid hinv hmass hwf hn e0 e1 e2 e3 e4
  refine relf_bind (rel_genSolve h hG hm hin hf hq (hc M4 (by
    rw [World.genInput, e0, ok_bind, e1, ok_bind, e2, ok_bind, e3, ok_bind, e4]))) fun m M5 hm => ?_
  obtain ⟨G', hG', hm⟩ := hm
  refine relf_bind (rel_applyReactions h hm hs) fun s S hs => ?_
  exact relf_pure ⟨⟨G', hG', hm⟩, hs⟩

/-- The data changed by `process`. -/
def NCtx (l : Filter ι) (a : ∀ i, Ctx (F i)) (b : Ctx ℝ) : Prop :=
  NMem l (fun i => (a i).mem) b.mem ∧ SameF l (fun i => (a i).evals) b.evals ∧
    SameF l (fun i => (a i).times) b.times

/-- The data changed by `process` and a state. -/
def NCtxState (l : Filter ι) (a : ∀ i, Ctx (F i) × SysState (F i)) (b : Ctx ℝ × SysState ℝ) :
    Prop := NCtx l (fun i => (a i).1) b.1 ∧ NState l (fun i => (a i).2) b.2

theorem NCtx.next {l : Filter ι} {e : ∀ i, Env (F i)} {E : Env ℝ} (he : NEnv l e E)
    {x : ∀ i, Ctx (F i)} {X : Ctx ℝ} (hx : NCtx l x X) (hm : NMem l m M) :
    NCtx l (fun i => ⟨m i, (x i).evals + 1, fun p => (x i).times p +
      evalTimes ((e i).now (x i).evals) p⟩)
      ⟨M, X.evals + 1, fun p => X.times p + evalTimes (E.now X.evals) p⟩ := by
  refine ⟨hm, hx.2.1.map (· + 1), ?_⟩
  filter_upwards [hx.2.1, hx.2.2, he.now] with i e1 e2 e3
  rw [e1, e2, e3]

theorem NEnv.at {l : Filter ι} {e : ∀ i, Env (F i)} {E : Env ℝ} (he : NEnv l e E)
    {n : ι → Nat} {N : Nat} (hn : SameF l n N) : NOut l (fun i => (e i).raw (n i)) (E.raw N) :=
  (he.raw N).congr (hn.mono fun i e => by rw [e])

theorem rel_optEval (h : NWorld (U : Filter ι) w W) (hfit : W.Fit B) (hr : W.Runs S0)
    {e : ∀ i, Env (F i)} {E : Env ℝ} (he : NEnv (U : Filter ι) e E)
    {d : ∀ i, F i} {D : ℝ} (hd : Near (U : Filter ι) d D) (x : ∀ i, Ctx (F i)) (X : Ctx ℝ)
    (s : ∀ i, SysState (F i)) (S : SysState ℝ) (hx : NCtx (U : Filter ι) x X)
    (hs : NState (U : Filter ι) s S) (hm : W.Mid X.mem) (hl : S0.Like S)
    (ha : W.Apart S ∧ W.EvalUntied E D X S) :
    RelF U (NCtxState (U : Filter ι)) (fun i => (w i).optEval (e i) (d i) (x i) (s i))
      (W.optEval E D X S) := by
  unfold World.optEval
  refine relf_bind' (rel_processForces h hs ha.1) fun s1 S1 _ e1 hs1 => ?_
  have fw : ForceWrites S S1 := wp_anyErr_iff.1
    (processForces_wp (fun g _ => Gen.tame (h.gens g).shipped) S) S1 e1
  refine relf_bind (rel_optConstraints h hfit hd (he.at hx.2.1) hx.1 hs1 hm.inv hm.mass
    (fw.wf hl.wf) (by rw [fw.n, hl.n]; exact hr.1) (ha.2 S1 e1)) fun a b hab => ?_
  exact relf_pure ⟨hx.next he hab.1, hab.2⟩

theorem rel_genEval (h : NWorld (U : Filter ι) w W) (hfit : W.Fit B) (hid : W.NoIdle)
    (hr : W.Runs S0)
    {e : ∀ i, Env (F i)} {E : Env ℝ} (he : NEnv (U : Filter ι) e E)
    (x : ∀ i, Ctx (F i)) (X : Ctx ℝ)
    (s : ∀ i, SysState (F i)) (S : SysState ℝ) (hx : NCtx (U : Filter ι) x X)
    (hs : NState (U : Filter ι) s S) (hm : W.Mid X.mem) (hl : S0.Like S)
    (ha : W.Apart S ∧ W.EvalUntiedG E X S) (hq : ∀ n d, W.sle ≠ some (.gs n d)) :
    RelF U (NCtxState (U : Filter ι)) (fun i => (w i).genEval (e i) (x i) (s i))
      (W.genEval E X S) := by
  unfold World.genEval
  refine relf_bind' (rel_processForces h hs ha.1) fun s1 S1 _ e1 hs1 => ?_
  have fw : ForceWrites S S1 := wp_anyErr_iff.1
    (processForces_wp (fun g _ => Gen.tame (h.gens g).shipped) S) S1 e1
  refine relf_bind (rel_genConstraints h hfit hid (he.at hx.2.1) hx.1 hs1 hm.inv hm.mass
    (fw.wf hl.wf) (by rw [fw.n, hl.n]; exact hr.1) hq (ha.2 S1 e1)) fun a b hab => ?_
  exact relf_pure ⟨hx.next he hab.1, hab.2⟩

end

/-! ## The loops of sub-steps -/

/-- One pass of the loop of sub-steps of the optimized system, as in `World.optLoop`. -/
def World.optSub {α : Type} [Zero α] [Add α] [Mul α] [Sub α] [Neg α] [Fp α] (w : World α)
    (env : Env α) (dt : α) (steps : Int) (q : Ctx α × Ode α × SysState α) :
    Exec (Ctx α × Ode α × SysState α) := do
  let h ← Fp.div dt (Fp.lit steps)
  odeRun (w.optEval env h) q.1 q.2.1 q.2.2 h

/-- One pass of the loop of sub-steps of the generic system, as in `World.genLoop`. -/
def World.genSub {α : Type} [Zero α] [Add α] [Mul α] [Sub α] [Neg α] [Fp α] (w : World α)
    (env : Env α) (dt : α) (steps : Int) (q : Ctx α × Option (Ode α) × SysState α) :
    Exec (Ctx α × Option (Ode α) × SysState α) := do
  let o ← deref q.2.1
  let h ← Fp.div dt (Fp.lit steps)
  let z ← odeRun (w.genEval env) q.1 o q.2.2 h
  pure (z.1, some z.2.1, z.2.2)

/-- `P` holds for the data and the state of all evaluations of a call of `process` of the optimized
system. -/
def World.OptMeets (W : World ℝ) (E : Env ℝ) (D : ℝ) (steps : Int)
    (P : ℝ → Ctx ℝ → SysState ℝ → Prop) : Prop :=
  ∀ s mem, W.populateState = .ok s → W.populateMass W.mem = .ok mem →
    ∀ k, k < steps.toNat → ∀ q,
      forN k (fun _ => W.optSub E D steps) (⟨mem, 0, fun _ => 0⟩, W.nsv, s) = .ok q →
      ∀ h, Fp.div D (Fp.lit steps) = .ok h →
        RunMeets (P h) (W.optEval E h) q.1 q.2.1 q.2.2 h

/-- In no evaluation of a call of `process` of the optimized system is a spring exactly 0.01 long. -/
def World.OptClear (W : World ℝ) (E : Env ℝ) (D : ℝ) (steps : Int) : Prop :=
  W.OptMeets E D steps fun _ _ S => W.Apart S

/-- In no iteration of the solver during a call of `process` of the optimized system is a number exactly
the tolerance it is compared with. -/
def World.OptUntied (W : World ℝ) (E : Env ℝ) (D : ℝ) (steps : Int) : Prop :=
  W.OptMeets E D steps fun h => W.EvalUntied E h

/-- `P` holds for the data and the state of all evaluations of a call of `process` of the generic
system. -/
def World.GenMeets (W : World ℝ) (E : Env ℝ) (D : ℝ) (steps : Int)
    (P : Ctx ℝ → SysState ℝ → Prop) : Prop :=
  ∀ s mem, W.populateState = .ok s → W.populateMass W.mem = .ok mem →
    ∀ k, k < steps.toNat → ∀ q,
      forN k (fun _ => W.genSub E D steps) (⟨mem, 0, fun _ => 0⟩, W.ode, s) = .ok q →
      ∀ o, q.2.1 = some o → ∀ h, Fp.div D (Fp.lit steps) = .ok h →
        RunMeets P (W.genEval E) q.1 o q.2.2 h

/-- In no evaluation of a call of `process` of the generic system is a spring exactly 0.01 long. -/
def World.GenClear (W : World ℝ) (E : Env ℝ) (D : ℝ) (steps : Int) : Prop :=
  W.GenMeets E D steps fun _ S => W.Apart S

/-- The same as `OptUntied` for the generic system. -/
def World.GenUntied (W : World ℝ) (E : Env ℝ) (D : ℝ) (steps : Int) : Prop :=
  W.GenMeets E D steps fun X S => W.EvalUntiedG E X S

section
variable {ι : Type} {U : Ultrafilter ι} {F : ι → Type} [∀ i, Rounded (F i)]
  [Shrinks (U : Filter ι) F]
  {w : ∀ i, World (F i)} {W : World ℝ} {s : ∀ i, SysState (F i)} {S : SysState ℝ}
  {m : ∀ i, Store (F i)} {M : Store ℝ} {G : Mat ℝ} {B : Nat → Nat → Nat}
  {e : ∀ i, Env (F i)} {E : Env ℝ} {d : ∀ i, F i} {D : ℝ}

theorem rel_optLoop (h : NWorld (U : Filter ι) w W) (hfit : W.Fit B)
    (he : NEnv (U : Filter ι) e E) (hd : Near (U : Filter ι) d D) (steps : Int)
    (es : W.populateState = .ok S) (em : W.populateMass W.mem = .ok M)
    (hs : NState (U : Filter ι) s S) (hM : NMem (U : Filter ι) m M) (hmid : W.Mid M)
    (hwf : S.Wf) (hr : W.Runs S) (hc : W.OptClear E D steps)
    (ht : W.OptUntied E D steps) :
    RelF U (NRun (U : Filter ι) (NCtx (U : Filter ι)))
      (fun i => (w i).optLoop (e i) (d i) steps (s i) (m i)) (W.optLoop E D steps S M) := by
  have hg : ∀ g ∈ W.fg, (W.gens g).OnlyForces := fun g _ => Gen.tame (h.gens g).shipped
  unfold World.optLoop
  refine (relf_forN' (SameF.rfl') (fun _ a b => NRun (U : Filter ι) (NCtx (U : Filter ι)) a b ∧
    W.Mid b.1.mem ∧ S.Like b.2.2)
    ⟨⟨⟨hM, SameF.rfl', SameF.rfl'⟩, h.nsv, hs⟩, hmid, like_self hwf⟩ fun k hk a b hb hab => ?_).mono
    fun a b hab => hab.1
  refine relf_bind' (near_div hd (Near.lit _)) fun q Q _ eq hq => ?_
  refine RelF.wp (rel_odeRun (like_loose S) (I := fun x => W.Mid x.mem)
    (fun x s hx hl => optEval_keeps hfit hg hr E Q x s hx hl)
    (fun x X s S1 hx hs hm hl ha => rel_optEval h hfit hr he hq x X s S1 hx hs hm hl ha)
    hab.1.1 hab.1.2.1 hab.1.2.2 hab.2.1 hab.2.2 hq 
      fun o eo => (hc S M es em k hk b hb Q eq o eo).and (ht S M es em k hk b hb Q eq o eo)) ?_
  exact (like_loose S).run (X := fun x => W.Mid x.mem)
    (fun x s hx hl => optEval_keeps hfit hg hr E Q x s hx hl) hab.2.1 hab.2.2 Q

/-- The results of the loop of the generic system. -/
def NRunO (l : Filter ι) (a : ∀ i, Ctx (F i) × Option (Ode (F i)) × SysState (F i))
    (b : Ctx ℝ × Option (Ode ℝ) × SysState ℝ) : Prop :=
  NCtx l (fun i => (a i).1) b.1 ∧ NOdeO l (fun i => (a i).2.1) b.2.1 ∧
    NState l (fun i => (a i).2.2) b.2.2

omit [Shrinks (U : Filter ι) F] in
theorem rel_odeO {v : ∀ i, Option (Ode (F i))} {V : Option (Ode ℝ)} (h : NOdeO (U : Filter ι) v V) :
    RelF U (NOde (U : Filter ι)) (fun i => deref (v i)) (deref V) := by
  rcases V with _ | O
  · exact relf_error _ _
  · obtain ⟨p, h1, h2⟩ := h
    refine relf_congr (x' := fun i => .ok (p i)) (h1.mono fun i e => by rw [e]; rfl) ?_
    exact relf_ok h2

theorem rel_genLoop (h : NWorld (U : Filter ι) w W) (hfit : W.Fit B) (hid : W.NoIdle)
    (he : NEnv (U : Filter ι) e E) (hd : Near (U : Filter ι) d D) (steps : Int)
    (es : W.populateState = .ok S) (em : W.populateMass W.mem = .ok M)
    (hs : NState (U : Filter ι) s S) (hM : NMem (U : Filter ι) m M) (hmid : W.Mid M)
    (hwf : S.Wf) (hr : W.Runs S) (hc : W.GenClear E D steps)
    (ht : W.GenUntied E D steps) (hq : ∀ n d, W.sle ≠ some (.gs n d)) :
    RelF U (NRunO (U : Filter ι))
      (fun i => (w i).genLoop (e i) (d i) steps (s i) (m i)) (W.genLoop E D steps S M) := by
  have hg : ∀ g ∈ W.fg, (W.gens g).OnlyForces := fun g _ => Gen.tame (h.gens g).shipped
  unfold World.genLoop
  refine (relf_forN' (SameF.rfl') (fun _ a b => NRunO (U : Filter ι) a b ∧
    W.Mid b.1.mem ∧ S.Like b.2.2)
    ⟨⟨⟨hM, SameF.rfl', SameF.rfl'⟩, h.ode, hs⟩, hmid, like_self hwf⟩ fun k hk a b hb hab => ?_).mono
    fun a b hab => hab.1
  refine relf_bind' (rel_odeO hab.1.2.1) fun o O _ eo ho => ?_
  have eo : b.2.1 = some O := by
    cases hb2 : b.2.1 with
    | none => rw [hb2] at eo; cases eo
    | some O' => rw [hb2] at eo; cases eo; rfl
  refine relf_bind' (near_div hd (Near.lit _)) fun q Q _ eq hQ => ?_
  have hrun := (like_loose S).run (X := fun x => W.Mid x.mem) (o := O)
    (fun x s hx hl => genEval_keeps hfit hid hg hr E x s hx hl) hab.2.1 hab.2.2 Q
  refine relf_bind' (rel_odeRun (like_loose S) (I := fun x => W.Mid x.mem)
    (fun x s hx hl => genEval_keeps hfit hid hg hr E x s hx hl)
    (fun x X s S1 hx hs hm hl ha => rel_genEval h hfit hid hr he x X s S1 hx hs hm hl ha hq)
    hab.1.1 ho hab.1.2.2 hab.2.1 hab.2.2 hQ fun o' eo' =>
      (hc S M es em k hk b hb O eo Q eq o' eo').and (ht S M es em k hk b hb O eo Q eq o' eo'))
    fun z Z _ ez hz => ?_
  have hZ := wp_anyErr_iff.1 hrun Z ez
  exact relf_pure ⟨⟨hz.1, ⟨_, .of_forall fun _ => rfl, hz.2.1⟩, hz.2.2⟩, hZ⟩

theorem populate_mid (hsound : W.Sound) (em : W.populateMass W.mem = .ok M) : W.Mid M := by
  obtain ⟨i1, _, i3⟩ := wp_anyErr_iff.1 (populateMass_wp (E := anyErr) hsound.mem
    fun _ => trivial) M em
  refine ⟨i1, i3, ?_⟩
  rw [LamOk, (wp_anyErr_iff.1 (m_populateMass hsound.mem) M em).2]
  exact hsound.lam

/-- Rounding and a call of `process` of the optimized system. -/
theorem rel_optProcess (h : NWorld (U : Filter ι) w W) (hfit : W.Fit B) (hsound : W.Sound)
    (he : NEnv (U : Filter ι) e E) (hd : Near (U : Filter ι) d D) (steps : Int)
    (hc : W.OptClear E D steps)
    (ht : W.OptUntied E D steps) :
    RelF U (NWorld (U : Filter ι)) (fun i => (w i).optProcess (e i) (d i) steps)
      (W.optProcess E D steps) := by
  obtain ⟨S', eS, hp⟩ := populated_of hsound.st.wf hfit.con
  unfold World.optProcess
  refine relf_bind' (rel_populateState h) fun s S _ es hs => ?_
  rw [es] at eS; cases eS
  obtain ⟨G, hG, hm⟩ := h.mem
  refine relf_bind' (rel_populateMass h hm) fun m M _ em hm => ?_
  refine relf_bind (rel_optLoop h hfit he hd steps es em hs ⟨G, hG, hm⟩ (populate_mid hsound em)
    hp.wf ⟨hp.n, hp.nc⟩ hc ht) fun q Q hq => ?_
  have h1 : NWorld (U : Filter ι)
      (fun i => { w i with st := (q i).2.2, mem := (q i).1.mem, nsv := (q i).2.1 })
      { W with st := Q.2.2, mem := Q.1.mem, nsv := Q.2.1 } :=
    ⟨h.bodies, h.cons, h.gens, h.genIndex, h.rb, h.cs, h.fg, hq.2.2, hq.1.1, h.ring, h.frame, h.sle,
      h.ode, hq.2.1, h.bias, h.t⟩
  refine relf_bind (rel_propagateResults h1 hq.2.2) fun w W h => ?_
  refine relf_bind (rel_record h hq.1.2.2) fun w W h => ?_
  exact relf_pure ⟨h.bodies, h.cons, h.gens, h.genIndex, h.rb, h.cs, h.fg, h.st, h.mem, h.ring,
    h.frame, h.sle, h.ode, h.nsv, h.bias, h.t.add hd⟩

/-- Rounding and a call of `process` of the generic system. -/
theorem rel_genProcess (h : NWorld (U : Filter ι) w W) (hfit : W.Fit B) (hid : W.NoIdle)
    (hsound : W.Sound) (he : NEnv (U : Filter ι) e E) (hd : Near (U : Filter ι) d D) (steps : Int)
    (hc : W.GenClear E D steps) (ht : W.GenUntied E D steps)
    (hq : ∀ n d, W.sle ≠ some (.gs n d)) :
    RelF U (NWorld (U : Filter ι)) (fun i => (w i).genProcess (e i) (d i) steps)
      (W.genProcess E D steps) := by
  obtain ⟨S', eS, hp⟩ := populated_of hsound.st.wf hfit.con
  unfold World.genProcess
  refine relf_bind' (rel_populateState h) fun s S _ es hs => ?_
  rw [es] at eS; cases eS
  obtain ⟨G, hG, hm⟩ := h.mem
  refine relf_bind' (rel_populateMass h hm) fun m M _ em hm => ?_
  refine relf_bind (rel_genLoop h hfit hid he hd steps es em hs ⟨G, hG, hm⟩ (populate_mid hsound em)
    hp.wf ⟨hp.n, hp.nc⟩ hc ht hq) fun q Q hq => ?_
  have h1 : NWorld (U : Filter ι)
      (fun i => { w i with st := (q i).2.2, mem := (q i).1.mem, ode := (q i).2.1 })
      { W with st := Q.2.2, mem := Q.1.mem, ode := Q.2.1 } :=
    ⟨h.bodies, h.cons, h.gens, h.genIndex, h.rb, h.cs, h.fg, hq.2.2, hq.1.1, h.ring, h.frame, h.sle,
      hq.2.1, h.nsv, h.bias, h.t⟩
  refine relf_bind (relf_forN h1.bodyCount h1 fun k _ w W h => rel_storeBody hq.2.2 k h)
    fun w W h => ?_
  refine relf_bind (rel_storeForces h.st _ h) fun z Z hz => ?_
  exact rel_record hz.1 hq.1.2.2

end

end Scs
