import Verif.RoundCon
import Verif.RoundOde
import Verif.ForceLemmas

/-!
# Rounding: the parts of `process` around the linear solver

Populating the state, forces, assembly of the constraints, right hand side, reactions and writing
back the results keep corresponding scalars close.
-/

namespace Scs

open Filter Topology

/-- Closes goals that assume an impossible equation of constructors. -/
local macro "noeq" : tactic => `(tactic| (intro e; cases e))

section
variable {ι : Type} {l : Filter ι} {F : ι → Type} [∀ i, Rounded (F i)]

/-- Both systems have no linear solver, the elimination solver, or Gauss-Seidel or conjugate gradient
solvers with the same number of iterations and close tolerances. -/
def NSle (l : Filter ι) (v : ∀ i, Option (Solver (F i))) : Option (Solver ℝ) → Prop
  | none => ∀ᶠ i in l, v i = none
  | some .ge => ∀ᶠ i in l, v i = some .ge
  | some (.gs n D) => ∃ d, (∀ᶠ i in l, v i = some (.gs n (d i))) ∧ Near l d D
  | some (.cg n D D') => ∃ d d', (∀ᶠ i in l, v i = some (.cg n (d i) (d' i))) ∧ Near l d D ∧
      Near l d' D'

/-- ODE solver pointers to corresponding objects. -/
def NOdeO (l : Filter ι) (v : ∀ i, Option (Ode (F i))) : Option (Ode ℝ) → Prop
  | none => ∀ᶠ i in l, v i = none
  | some o => ∃ p, (∀ᶠ i in l, v i = some (p i)) ∧ NOde l p o

/-- The matrices of two systems: close, except the scratch matrix of the elimination, which is close
to some other matrix. -/
def NMem (l : Filter ι) (s : ∀ i, Store (F i)) (S : Store ℝ) : Prop :=
  ∃ G : Mat ℝ, G.WF ∧ NStore l (some G) s S

/-- Worlds with the same registries and close numbers. -/
structure NWorld (l : Filter ι) (w : ∀ i, World (F i)) (W : World ℝ) : Prop where
  bodies : NBodies l (fun i => (w i).bodies) W.bodies
  cons : ∀ c, NCon l (fun i => (w i).cons c) (W.cons c)
  gens : ∀ g, NGen l (fun i => (w i).gens g) (W.gens g)
  genIndex : ∀ᶠ i in l, (w i).genIndex = W.genIndex
  rb : ∀ᶠ i in l, (w i).rb = W.rb
  cs : ∀ᶠ i in l, (w i).cs = W.cs
  fg : ∀ᶠ i in l, (w i).fg = W.fg
  st : NState l (fun i => (w i).st) W.st
  mem : NMem l (fun i => (w i).mem) W.mem
  ring : ∀ᶠ i in l, (w i).ring = W.ring
  frame : ∀ᶠ i in l, (w i).frame = W.frame
  sle : NSle l (fun i => (w i).sle) W.sle
  ode : NOdeO l (fun i => (w i).ode) W.ode
  nsv : NOde l (fun i => (w i).nsv) W.nsv
  bias : Near l (fun i => (w i).bias) W.bias
  t : Near l (fun i => (w i).t) W.t

/-- Environments with the same clock and close uninitialised variables. -/
structure NEnv (l : Filter ι) (e : ∀ i, Env (F i)) (E : Env ℝ) : Prop where
  now : ∀ᶠ i in l, (e i).now = E.now
  raw : ∀ k, NOut l (fun i => (e i).raw k) (E.raw k)

variable {w : ∀ i, World (F i)} {W : World ℝ} {s : ∀ i, SysState (F i)} {S : SysState ℝ}
  {X : Option (Mat ℝ)} {m : ∀ i, Store (F i)} {M : Store ℝ}

theorem ev_list {κ : Type} {p : ι → κ → Prop} (L : List κ) (h : ∀ c, ∀ᶠ i in l, p i c) :
    ∀ᶠ i in l, ∀ c ∈ L, p i c := by
  induction L with
  | nil => exact .of_forall fun _ _ h => absurd h List.not_mem_nil
  | cons a L ih =>
    filter_upwards [ih, h a] with i e1 e2 c hc
    rcases List.mem_cons.1 hc with rfl | hc
    · exact e2
    · exact e1 c hc

theorem foldl_same {κ : Type} {f g : Nat → κ → Nat} (L : List κ) (a : Nat)
    (h : ∀ n, ∀ c ∈ L, f n c = g n c) : L.foldl f a = L.foldl g a := by
  induction L generalizing a with
  | nil => rfl
  | cons b L ih =>
    rw [List.foldl_cons, List.foldl_cons, h a b (by simp)]
    exact ih _ fun n c hc => h n c (by simp [hc])

theorem NWorld.bodyCount (h : NWorld l w W) : SameF l (fun i => (w i).bodyCount) W.bodyCount :=
  h.rb.mono fun i e => by unfold World.bodyCount; dsimp only; rw [e]

theorem NWorld.conCount (h : NWorld l w W) : SameF l (fun i => (w i).conCount) W.conCount :=
  h.cs.mono fun i e => by unfold World.conCount; dsimp only; rw [e]

theorem NWorld.genCount (h : NWorld l w W) : SameF l (fun i => (w i).genCount) W.genCount :=
  h.fg.mono fun i e => by unfold World.genCount; dsimp only; rw [e]

theorem NWorld.fullCount (h : NWorld l w W) : SameF l (fun i => (w i).fullCount) W.fullCount := by
  filter_upwards [h.cs, ev_list W.cs fun c => (h.cons c).rows] with i e1 e2
  unfold World.fullCount
  rw [e1]
  exact foldl_same _ _ fun n c hc => by rw [e2 c hc]

/-! ## Populating the state -/

theorem rel_popBody [Shrinks l F] (h : NWorld l w W) (k : Nat) (hs : NState l s S) :
    RelF l (NState l) (fun i => (w i).popBody k (s i)) (W.popBody k S) := by
  unfold World.popBody
  refine relf_bindc (relf_same (h.rb.mono fun i e => by rw [e])) fun b _ => ?_
  have hb := h.bodies b
  refine relf_bind (rel_fwr hs _ _ (Near.lit 0)) fun s S hs => ?_
  refine relf_bind (rel_fwr hs _ _ (Near.lit 0)) fun s S hs => ?_
  refine relf_bind (rel_fwr hs _ _ hb.v_x) fun s S hs => ?_
  refine relf_bind (rel_fwr hs _ _ hb.v_y) fun s S hs => ?_
  refine relf_bind (rel_fwr hs _ _ hb.p_x) fun s S hs => ?_
  refine relf_bind (rel_fwr hs _ _ hb.p_y) fun s S hs => ?_
  refine relf_bind (rel_fwr hs _ _ (Near.lit 0)) fun s S hs => ?_
  refine relf_bind (rel_fwr hs _ _ hb.v_theta) fun s S hs => ?_
  refine relf_bind (rel_fwr hs _ _ hb.theta) fun s S hs => ?_
  exact rel_fwr hs _ _ hb.m

/-- A state and a counter. -/
def NCount (l : Filter ι) (a : ∀ i, SysState (F i) × Nat) (b : SysState ℝ × Nat) : Prop :=
  NState l (fun i => (a i).1) b.1 ∧ SameF l (fun i => (a i).2) b.2

theorem rel_popIndex (h : NWorld l w W) (hs : NState l s S) :
    RelF l (NCount l) (fun i => (w i).popIndex (s i)) (W.popIndex S) := by
  unfold World.popIndex
  refine relf_forN h.conCount ⟨hs, SameF.rfl'⟩ fun k _ a b hab => ?_
  refine relf_congr (x' := fun i => ((a i).1.imSet k b.2 >>= fun s => vecAt (w i).cs k >>= fun c =>
    pure (s, (a i).2 + ((w i).cons c).rows))) (hab.2.mono fun i e => by dsimp only at e; rw [e]) ?_
  refine relf_bind (rel_imSet hab.1 k b.2) fun s S hs => ?_
  refine relf_bindc (relf_same (h.cs.mono fun i e => by rw [e])) fun c _ => ?_
  refine relf_pure ⟨hs, ?_⟩
  filter_upwards [hab.2, (h.cons c).rows] with i e1 e2
  rw [e1, e2]

theorem rel_populateState [Shrinks l F] (h : NWorld l w W) :
    RelF l (NState l) (fun i => (w i).populateState) W.populateState := by
  unfold World.populateState
  refine relf_bind (relf_forN h.bodyCount (h.st.resize h.bodyCount h.fullCount)
    fun k _ s S hs => rel_popBody h k hs) fun s S hs => ?_
  refine relf_bind (rel_popIndex h hs) fun a b hab => ?_
  exact relf_pure hab.1

theorem rel_popMass [Shrinks l F] (h : NWorld l w W) (k : Nat)
    {G : Mat ℝ} (hm : NStore l (some G) m M) :
    RelF l (NStore l (some G)) (fun i => (w i).popMass k (m i)) (W.popMass k M) := by
  unfold World.popMass
  refine relf_bindc (relf_same (h.rb.mono fun i e => by rw [e])) fun b _ => ?_
  have hb := h.bodies b
  refine relf_bind (rel_set hm (by noeq) _ _ hb.m) fun m M hm => ?_
  refine relf_bind (rel_set hm (by noeq) _ _ hb.m) fun m M hm => ?_
  refine relf_bind (rel_set hm (by noeq) _ _ hb.I) fun m M hm => ?_
  refine relf_bind (near_div (Near.lit 1) hb.m) fun x X hx => ?_
  refine relf_bind (rel_set hm (by noeq) _ _ hx) fun m M hm => ?_
  refine relf_bind (near_div (Near.lit 1) hb.m) fun x X hx => ?_
  refine relf_bind (rel_set hm (by noeq) _ _ hx) fun m M hm => ?_
  refine relf_bind (near_div (Near.lit 1) hb.I) fun x X hx => ?_
  exact rel_set hm (by noeq) _ _ hx

theorem SameF.map {σ τ : Type} {a : ι → σ} {b : σ} (h : SameF l a b) (f : σ → τ) :
    SameF l (fun i => f (a i)) (f b) := h.mono fun i e => congrArg f e

theorem rel_populateMass [Shrinks l F] (h : NWorld l w W) {G : Mat ℝ}
    (hm : NStore l (some G) m M) :
    RelF l (NStore l (some G)) (fun i => (w i).populateMass (m i)) (W.populateMass M) := by
  unfold World.populateMass
  refine relf_bind (rel_init0 hm (by noeq) SameF.rfl' (h.bodyCount.map (3 * ·))) fun m M hm => ?_
  refine relf_bind (rel_init0 hm (by noeq) SameF.rfl' (h.bodyCount.map (3 * ·))) fun m M hm => ?_
  exact relf_forN h.bodyCount hm fun k _ m M hm => rel_popMass h k hm

/-! ## Forces -/

theorem rel_zeroForce [Shrinks l F] (k : Nat) (hs : NState l s S) :
    RelF l (NState l) (fun i => zeroForce k (s i)) (zeroForce k S) := by
  unfold zeroForce
  refine relf_bind (rel_fwr hs _ _ (Near.lit 0)) fun s S hs => ?_
  refine relf_bind (rel_fwr hs _ _ (Near.lit 0)) fun s S hs => ?_
  exact rel_fwr hs _ _ (Near.lit 0)

omit [∀ i, Rounded (F i)] in
theorem ForceWrites.fld_eq {α : Type} {s s' : SysState α} (h : ForceWrites s s') {f : Fld}
    (hf : ¬ f.IsForce) : s'.fld f = s.fld f := by
  induction h with
  | refl => rfl
  | @wr s1 s2 _ g hg i v e ih =>
    rw [← ih]
    simp only [SysState.wr] at e
    cases hp : pSet (s1.fld g) i v with
    | error _ => rw [hp] at e; cases e
    | ok q =>
      rw [hp] at e; cases e
      exact if_neg fun e : f = g => hf (e ▸ hg)

theorem fw_zeroForce {α : Type} [Zero α] [Add α] [Mul α] [Sub α] [Neg α] [Fp α] (k : Nat)
    (s : SysState α) : Wp (zeroForce k s) (ForceWrites s) anyErr := by
  unfold zeroForce
  refine fw_bind (fw_wr (.inl rfl) _ _) fun s1 => ?_
  refine fw_bind (fw_wr (.inr (.inl rfl)) _ _) fun s2 => ?_
  exact fw_wr (.inr (.inr rfl)) _ _

theorem ForceWrites.springEnd {S S' : SysState ℝ} (h : ForceWrites S S') (bodies : Nat → Body ℝ)
    (b : Nat) (x y : ℝ) : springEnd bodies b x y S' = springEnd bodies b x y S := by
  have e : ∀ f : Fld, ¬ f.IsForce → S'.rd f = S.rd f := fun f hf => by
    funext k; unfold SysState.rd; rw [h.fld_eq hf]
  unfold Scs.springEnd SysState.velocityAtPoint SysState.localToWorld
  rw [e .theta (by simp [Fld.IsForce]), e .p_x (by simp [Fld.IsForce]),
    e .p_y (by simp [Fld.IsForce]), e .v_x (by simp [Fld.IsForce]), e .v_y (by simp [Fld.IsForce]),
    e .v_theta (by simp [Fld.IsForce])]

theorem ForceWrites.apart {S S' : SysState ℝ} (h : ForceWrites S S') {g : Gen ℝ}
    {bodies : Nat → Body ℝ} (hg : g.Apart bodies S) : g.Apart bodies S' := by
  intro p hp b1 b2 e1 e2 h1 h2 h3 h4
  rw [h.springEnd] at h3 h4
  exact hg p hp b1 b2 e1 e2 h1 h2 h3 h4

/-- No spring of the system is exactly 0.01 long in the state. -/
def World.Apart (W : World ℝ) (S : SysState ℝ) : Prop :=
  ∀ g ∈ W.fg, (W.gens g).Apart W.bodies S

theorem NGen.shipped {g : ∀ i, Gen (F i)} {G : Gen ℝ} (h : NGen l g G) : G.Shipped := by
  cases G <;> first | exact trivial | exact h.elim

theorem rel_processForces [Shrinks l F] (h : NWorld l w W) (hs : NState l s S)
    (ha : W.Apart S) :
    RelF l (NState l) (fun i => (w i).processForces (s i)) (W.processForces S) := by
  unfold World.processForces
  refine relf_bind' (relf_forN h.bodyCount hs fun k _ s S hs => rel_zeroForce k hs)
    fun s1 S1 _ e1 hs1 => ?_
  have f1 : ForceWrites S S1 := wp_anyErr_iff.1 (fw_forN _ fw_zeroForce) _ e1
  refine (relf_forN' h.genCount (fun _ a b => NState l a b ∧ ForceWrites S b) ⟨hs1, f1⟩
    fun k _ a b _ hab => ?_).mono fun a b hab => hab.1
  refine relf_bindc (relf_same (h.fg.mono fun i e => by rw [e])) fun g eg => ?_
  refine RelF.wp (rel_genApply (h.gens g) h.bodies hab.1
    (hab.2.apart (ha g (vecAt_mem eg).2.2))) (wp_anyErr_iff.2 fun z ez => ?_)
  exact hab.2.trans (Gen.tame (h.gens g).shipped _ _ _ ez)

/-! ## Loading and applying -/

theorem rel_loadVec {t : MId} (ht : Direct X t) (fx fy ft : Fld) {n : ι → Nat} {N : Nat}
    (hn : SameF l n N) (hs : NState l s S) (hm : NStore l X m M) :
    RelF l (NStore l X) (fun i => loadVec t fx fy ft (n i) (s i) (m i))
      (loadVec t fx fy ft N S M) := by
  unfold loadVec
  refine relf_forN hn hm fun k _ m M hm => ?_
  refine relf_bind (rel_frd hs _ _) fun x X hx => ?_
  refine relf_bind (rel_set hm ht _ _ hx) fun m M hm => ?_
  refine relf_bind (rel_frd hs _ _) fun x X hx => ?_
  refine relf_bind (rel_set hm ht _ _ hx) fun m M hm => ?_
  refine relf_bind (rel_frd hs _ _) fun x X hx => ?_
  exact rel_set hm ht _ _ hx

theorem rel_loadQdot {n : ι → Nat} {N : Nat} (hn : SameF l n N) (hs : NState l s S)
    (hm : NStore l X m M) :
    RelF l (NStore l X) (fun i => loadQdot (n i) (s i) (m i)) (loadQdot N S M) := by
  unfold loadQdot
  refine relf_bind (rel_resize hm (by noeq) SameF.rfl' (hn.map (· * 3))) fun m M hm => ?_
  exact rel_loadVec (by noeq) _ _ _ hn hs hm

theorem rel_loadFext [Shrinks l F] {n : ι → Nat} {N : Nat} (hn : SameF l n N) (hs : NState l s S)
    (hm : NStore l X m M) :
    RelF l (NStore l X) (fun i => loadFext (n i) (s i) (m i)) (loadFext N S M) := by
  unfold loadFext
  refine relf_bind (rel_init hm (by noeq) SameF.rfl' (hn.map (3 * ·)) (Near.lit 0)) fun m M hm => ?_
  exact rel_loadVec (by noeq) _ _ _ hn hs hm

theorem rel_writeReactions {n : ι → Nat} {N : Nat} (hn : SameF l n N) (hm : NStore l X m M)
    (hs : NState l s S) :
    RelF l (NState l) (fun i => writeReactions (n i) (m i) (s i)) (writeReactions N M S) := by
  unfold writeReactions
  refine relf_forN hn hs fun k _ s S hs => relf_forN SameF.rfl' hs fun j _ s S hs => ?_
  refine relf_bind (rel_sget _ _ hm _ _ _) fun x X hx => ?_
  refine relf_bind (rel_rwr hs _ _ hx) fun s S hs => ?_
  refine relf_bind (rel_sget _ _ hm _ _ _) fun x X hx => ?_
  refine relf_bind (rel_rwr hs _ _ hx) fun s S hs => ?_
  refine relf_bind (rel_sget _ _ hm _ _ _) fun x X hx => ?_
  exact rel_rwr hs _ _ hx

theorem rel_startAccel {n : ι → Nat} {N : Nat} (hn : SameF l n N) (hm : NStore l X m M)
    (hs : NState l s S) :
    RelF l (NState l) (fun i => startAccel (n i) (m i) (s i)) (startAccel N M S) := by
  unfold startAccel
  refine relf_forN hn hs fun k _ s S hs => ?_
  refine relf_bind (rel_get hm (by noeq) _ _) fun x X hx => ?_
  refine relf_bind (rel_fwr hs _ _ hx) fun s S hs => ?_
  refine relf_bind (rel_get hm (by noeq) _ _) fun x X hx => ?_
  refine relf_bind (rel_fwr hs _ _ hx) fun s S hs => ?_
  refine relf_bind (rel_get hm (by noeq) _ _) fun x X hx => ?_
  exact rel_fwr hs _ _ hx

theorem rel_addReaction [Shrinks l F] {c : ∀ i, Con (F i)} {C : Con ℝ} (hc : NCon l c C)
    {bs : ∀ i, Nat → Body (F i)} {BS : Nat → Body ℝ} (hb : NBodies l bs BS) (jf : Nat)
    (hs : NState l s S) :
    RelF l (NState l) (fun i => addReaction (c i) (bs i) jf (s i)) (addReaction C BS jf S) := by
  unfold addReaction
  refine relf_forN hc.bodyCount hs fun k _ s S hs => ?_
  refine relf_bindc (relf_same (hc.idx hb k)) fun b _ => ?_
  refine relf_bind (rel_rrd hs _ _) fun x X hx => ?_
  refine relf_bind (rel_addTo hs _ _ hx) fun s S hs => ?_
  refine relf_bind (rel_rrd hs _ _) fun x X hx => ?_
  refine relf_bind (rel_addTo hs _ _ hx) fun s S hs => ?_
  refine relf_bind (rel_rrd hs _ _) fun x X hx => ?_
  exact rel_addTo hs _ _ hx

theorem rel_addReactions [Shrinks l F] (h : NWorld l w W) (hs : NState l s S) :
    RelF l (NCount l) (fun i => (w i).addReactions (s i)) (W.addReactions S) := by
  unfold World.addReactions
  refine relf_forN h.conCount ⟨hs, SameF.rfl'⟩ fun k _ a b hab => ?_
  refine relf_bindc (relf_same (h.cs.mono fun i e => by rw [e])) fun c _ => ?_
  refine relf_forN (h.cons c).rows hab fun j _ a b hab => ?_
  refine relf_congr (x' := fun i => addReaction ((w i).cons c) (w i).bodies b.2 (a i).1 >>=
    fun s => pure (s, (a i).2 + 1)) (hab.2.mono fun i e => by dsimp only at e; rw [e]) ?_
  refine relf_bind (rel_addReaction (h.cons c) h.bodies b.2 hab.1) fun s S hs => ?_
  exact relf_pure ⟨hs, hab.2.map (· + 1)⟩

theorem rel_mulBy [Shrinks l F] (hs : NState l s S) (f : Fld) (k : Nat) {v : ∀ i, F i} {V : ℝ}
    (hv : Near l v V) :
    RelF l (NState l) (fun i => mulBy (s i) f k (v i)) (mulBy S f k V) := by
  unfold mulBy
  refine relf_bind (rel_frd hs _ _) fun x X hx => ?_
  exact rel_fwr hs _ _ (hx.mul hv)

theorem rel_scaleAccel [Shrinks l F] {n : ι → Nat} {N : Nat} (hn : SameF l n N)
    (hm : NStore l X m M) (hs : NState l s S) :
    RelF l (NState l) (fun i => scaleAccel (n i) (m i) (s i)) (scaleAccel N M S) := by
  unfold scaleAccel
  refine relf_forN hn hs fun k _ s S hs => ?_
  refine relf_bind (rel_get hm (by noeq) _ _) fun x X hx => ?_
  refine relf_bind (rel_get hm (by noeq) _ _) fun y Y hy => ?_
  refine relf_bind (rel_mulBy hs _ _ hx) fun s S hs => ?_
  refine relf_bind (rel_mulBy hs _ _ hx) fun s S hs => ?_
  exact rel_mulBy hs _ _ hy

theorem rel_applyReactions [Shrinks l F] (h : NWorld l w W) (hm : NStore l X m M)
    (hs : NState l s S) :
    RelF l (NState l) (fun i => (w i).applyReactions (m i) (s i)) (W.applyReactions M S) := by
  unfold World.applyReactions
  refine relf_bind (rel_writeReactions h.fullCount hm hs) fun s S hs => ?_
  refine relf_bind (rel_startAccel h.bodyCount hm hs) fun s S hs => ?_
  refine relf_bind (rel_addReactions h hs) fun a b hab => ?_
  exact rel_scaleAccel h.bodyCount hm hab.1

/-! ## Assembly -/

theorem rel_rd1 (n : Nat) {a : ∀ i, Nat → F i} {A : Nat → ℝ}
    (h : ∀ j, Near l (fun i => a i j) (A j)) (j : Nat) :
    RelF l (Near l) (fun i => rd1 n (a i) j) (rd1 n A j) := by
  unfold rd1
  exact relf_ite (.of_forall fun _ => Iff.rfl) (fun _ => relf_ok (h j)) fun _ => relf_error _ _

theorem rel_rd2 (n k : Nat) {R : (∀ i, F i) → ℝ → Prop} {a : ∀ i, Nat → Nat → F i}
    {A : Nat → Nat → ℝ} (h : ∀ p q, R (fun i => a i p q) (A p q)) (p q : Nat) :
    RelF l R (fun i => rd2 n k (a i) p q) (rd2 n k A p q) := by
  unfold rd2
  exact relf_ite (.of_forall fun _ => Iff.rfl) (fun _ => relf_ok (h p q)) fun _ => relf_error _ _

variable {c : ∀ i, Con (F i)} {C : Con ℝ} {bs : ∀ i, Nat → Body (F i)} {BS : Nat → Body ℝ}
  {o : ∀ i, Output (F i)} {O : Output ℝ}

theorem rel_optBlocks (hc : NCon l c C) (hb : NBodies l bs BS) (jf : Nat) (hm : NStore l X m M) :
    RelF l (NStore l X) (fun i => optBlocks (c i) (bs i) jf (m i)) (optBlocks C BS jf M) := by
  unfold optBlocks
  refine relf_forN hc.bodyCount hm fun k _ m M hm => ?_
  refine relf_bindc (relf_same (hc.idx hb k)) fun b _ => ?_
  exact relf_ite (.of_forall fun _ => Iff.rfl) (fun _ => relf_pure hm)
    fun _ => rel_setBlock 2 hm jf k b

theorem rel_optEntries (hc : NCon l c C) (hb : NBodies l bs BS) (ho : NOut l o O) (k jf : Nat)
    (hm : NStore l X m M) :
    RelF l (NStore l X) (fun i => optEntries (c i) (bs i) (o i) k jf (m i))
      (optEntries C BS O k jf M) := by
  unfold optEntries
  refine relf_forN (hc.bodyCount.mono fun i e => by rw [e]) hm fun q _ m M hm => ?_
  refine relf_bindc (relf_same (hc.idx hb _)) fun b _ => ?_
  refine relf_ite (.of_forall fun _ => Iff.rfl) (fun _ => relf_pure hm) fun _ => ?_
  refine relf_bind (rel_rd2 (R := Near l) _ _ ho.J _ _) fun v V hv => ?_
  exact rel_sset _ _ hm _ _ _ hv

theorem rel_optRow [Shrinks l F] (hc : NCon l c C) (hb : NBodies l bs BS) (ho : NOut l o O)
    {d : ∀ i, F i} {D : ℝ} (hd : Near l d D) (k jf : Nat) (hm : NStore l X m M) :
    RelF l (NStore l X) (fun i => optRow (c i) (bs i) (o i) (d i) k jf (m i))
      (optRow C BS O D k jf M) := by
  unfold optRow
  refine relf_bind (rel_optBlocks hc hb jf hm) fun m M hm => ?_
  refine relf_bind (rel_optEntries hc hb ho k jf hm) fun m M hm => ?_
  refine relf_bind (rel_rd1 _ ho.v_bias _) fun v V hv => ?_
  refine relf_bind (rel_set hm (by noeq) _ _ hv) fun m M hm => ?_
  refine relf_bind (rel_rd1 _ ho.C _) fun v V hv => ?_
  refine relf_bind (rel_set hm (by noeq) _ _ hv) fun m M hm => ?_
  refine relf_bind (rel_rd2 (R := Near l) _ _ ho.limits _ _) fun v V hv => ?_
  refine relf_bind (rel_set hm (by noeq) _ _ (hv.mul hd)) fun m M hm => ?_
  refine relf_bind (rel_rd2 (R := Near l) _ _ ho.limits _ _) fun v V hv => ?_
  exact rel_set hm (by noeq) _ _ (hv.mul hd)

/-- The variables of the assembly loops. -/
def NAsm (l : Filter ι) (X : Option (Mat ℝ)) (a : ∀ i, Asm (F i)) (b : Asm ℝ) : Prop :=
  NStore l X (fun i => (a i).mem) b.mem ∧ NOut l (fun i => (a i).out) b.out ∧
    SameF l (fun i => (a i).jf) b.jf

theorem rel_optCon [Shrinks l F] (h : NWorld l w W) {d : ∀ i, F i} {D : ℝ} (hd : Near l d D)
    (hs : NState l s S) (j : Nat) {a : ∀ i, Asm (F i)} {b : Asm ℝ} (hab : NAsm l X a b) :
    RelF l (NAsm l X) (fun i => (w i).optCon (d i) (s i) j (a i)) (W.optCon D S j b) := by
  unfold World.optCon
  refine relf_bindc (relf_same (h.cs.mono fun i e => by rw [e])) fun c _ => ?_
  refine relf_bind (rel_calculate (h.cons c).kind (fun k => (h.cons c).idx h.bodies k) hab.2.1 hs)
    fun o O ho => ?_
  refine relf_forN (R := NAsm l X) (h.cons c).rows ⟨hab.1, ho, hab.2.2⟩ fun k _ a b hab => ?_
  refine relf_congr (x' := fun i => optRow ((w i).cons c) (w i).bodies (o i) (d i) k b.jf (a i).mem
    >>= fun mem => pure { a i with mem := mem, jf := (a i).jf + 1 })
    (hab.2.2.mono fun i e => by dsimp only at e; rw [e]) ?_
  refine relf_bind (rel_optRow (h.cons c) h.bodies ho hd k b.jf hab.1) fun m M hm => ?_
  exact relf_pure ⟨hm, hab.2.1, hab.2.2.map (· + 1)⟩

theorem rel_optAssemble [Shrinks l F] (h : NWorld l w W) {d : ∀ i, F i} {D : ℝ}
    (hd : Near l d D) (ho : NOut l o O) (hs : NState l s S) {G : Mat ℝ}
    (hm : NStore l (some G) m M) :
    RelF l (NStore l (some G)) (fun i => (w i).optAssemble (d i) (o i) (s i) (m i))
      (W.optAssemble D O S M) := by
  unfold World.optAssemble
  refine relf_bind (rel_sinit _ _ hm (h.bodyCount.map (3 * ·)) h.fullCount) fun m M hm => ?_
  refine relf_bind (rel_init0 hm (by noeq) SameF.rfl' h.fullCount) fun m M hm => ?_
  refine relf_bind (rel_init0 hm (by noeq) SameF.rfl' h.fullCount) fun m M hm => ?_
  refine relf_bind (rel_init0 hm (by noeq) SameF.rfl' h.fullCount) fun m M hm => ?_
  refine relf_bind (relf_forN (R := NAsm l (some G)) h.conCount ⟨hm, ho, SameF.rfl'⟩
    fun j _ a b hab => rel_optCon h hd hs j hab) fun a b hab => ?_
  exact relf_pure hab.1

theorem rel_optRight [Shrinks l F] {e d : ∀ i, F i} {E D : ℝ} (he : Near l e E)
    (hd : Near l d D) (hm : NStore l X m M) :
    RelF l (NStore l X) (fun i => optRight (e i) (d i) (m i)) (optRight E D M) := by
  unfold optRight
  refine relf_bind (rel_scale hm (by noeq) (by noeq) hd) fun m M hm => ?_
  refine relf_bind (rel_leftScale hm (by noeq) (by noeq) (by noeq)) fun m M hm => ?_
  refine relf_bind (rel_addM hm (by noeq) (by noeq) (by noeq)) fun m M hm => ?_
  refine relf_bind (near_div he hd) fun q Q hq => ?_
  refine relf_bind (rel_scale hm (by noeq) (by noeq) hq) fun m M hm => ?_
  refine relf_bind (rel_smultiply _ _ hm (by noeq) (by noeq)) fun m M hm => ?_
  refine relf_bind (rel_addM hm (by noeq) (by noeq) (by noeq)) fun m M hm => ?_
  refine relf_bind (rel_addM hm (by noeq) (by noeq) (by noeq)) fun m M hm => ?_
  exact rel_negate hm (by noeq) (by noeq)

theorem rel_genBlocks (hc : NCon l c C) (hb : NBodies l bs BS) (jf : Nat) (hm : NStore l X m M) :
    RelF l (NStore l X) (fun i => genBlocks (c i) (bs i) jf (m i)) (genBlocks C BS jf M) := by
  unfold genBlocks
  refine relf_forN hc.bodyCount hm fun k _ m M hm => ?_
  refine relf_bindc (relf_same (hc.idx hb k)) fun b _ => ?_
  refine relf_ite (.of_forall fun _ => Iff.rfl) (fun _ => relf_pure hm) fun _ => ?_
  refine relf_bind (rel_setBlock 2 hm jf k b) fun m M hm => ?_
  exact rel_setBlock 2 hm jf k b

theorem rel_genEntries (hc : NCon l c C) (hb : NBodies l bs BS) (ho : NOut l o O) (k jf : Nat)
    (hm : NStore l X m M) :
    RelF l (NStore l X) (fun i => genEntries (c i) (bs i) (o i) k jf (m i))
      (genEntries C BS O k jf M) := by
  unfold genEntries
  refine relf_forN (hc.bodyCount.mono fun i e => by rw [e]) hm fun q _ m M hm => ?_
  refine relf_bindc (relf_same (hc.idx hb _)) fun b _ => ?_
  refine relf_ite (.of_forall fun _ => Iff.rfl) (fun _ => relf_pure hm) fun _ => ?_
  refine relf_bind (rel_rd2 (R := Near l) _ _ ho.J _ _) fun v V hv => ?_
  refine relf_bind (rel_sset _ _ hm _ _ _ hv) fun m M hm => ?_
  refine relf_bind (rel_rd2 (R := Near l) _ _ ho.J_dot _ _) fun v V hv => ?_
  refine relf_bind (rel_sset _ _ hm _ _ _ hv) fun m M hm => ?_
  refine relf_bind (rel_rd1 _ ho.ks _) fun v V hv => ?_
  refine relf_bind (rel_set hm (by noeq) _ _ hv) fun m M hm => ?_
  refine relf_bind (rel_rd1 _ ho.kd _) fun v V hv => ?_
  refine relf_bind (rel_set hm (by noeq) _ _ hv) fun m M hm => ?_
  refine relf_bind (rel_rd1 _ ho.C _) fun v V hv => ?_
  exact rel_set hm (by noeq) _ _ hv

theorem rel_genCon [Shrinks l F] (h : NWorld l w W) (hs : NState l s S)
    (j : Nat) {a : ∀ i, Asm (F i)} {b : Asm ℝ} (hab : NAsm l X a b) :
    RelF l (NAsm l X) (fun i => (w i).genCon (s i) j (a i)) (W.genCon S j b) := by
  unfold World.genCon
  refine relf_bindc (relf_same (h.cs.mono fun i e => by rw [e])) fun c _ => ?_
  refine relf_bind (rel_calculate (h.cons c).kind (fun k => (h.cons c).idx h.bodies k) hab.2.1 hs)
    fun o O ho => ?_
  refine relf_forN (R := NAsm l X) (h.cons c).rows ⟨hab.1, ho, hab.2.2⟩ fun k _ a b hab => ?_
  refine relf_congr (x' := fun i => genBlocks ((w i).cons c) (w i).bodies b.jf (a i).mem
    >>= fun mem => genEntries ((w i).cons c) (w i).bodies (o i) k b.jf mem
    >>= fun mem => pure { a i with mem := mem, jf := (a i).jf + 1 })
    (hab.2.2.mono fun i e => by dsimp only at e; rw [e]) ?_
  refine relf_bind (rel_genBlocks (h.cons c) h.bodies b.jf hab.1) fun m M hm => ?_
  refine relf_bind (rel_genEntries (h.cons c) h.bodies ho k b.jf hm) fun m M hm => ?_
  exact relf_pure ⟨hm, hab.2.1, hab.2.2.map (· + 1)⟩

theorem rel_genAssemble [Shrinks l F] (h : NWorld l w W)
    (ho : NOut l o O) (hs : NState l s S) {G : Mat ℝ}
    (hm : NStore l (some G) m M) :
    RelF l (NStore l (some G)) (fun i => (w i).genAssemble (o i) (s i) (m i))
      (W.genAssemble O S M) := by
  unfold World.genAssemble
  refine relf_bind (rel_sinit _ _ hm (h.bodyCount.map (3 * ·)) h.fullCount) fun m M hm => ?_
  refine relf_bind (rel_sinit _ _ hm (h.bodyCount.map (3 * ·)) h.fullCount) fun m M hm => ?_
  refine relf_bind (rel_init0 hm (by noeq) SameF.rfl' h.fullCount) fun m M hm => ?_
  refine relf_bind (rel_init0 hm (by noeq) SameF.rfl' h.fullCount) fun m M hm => ?_
  refine relf_bind (rel_init0 hm (by noeq) SameF.rfl' h.fullCount) fun m M hm => ?_
  refine relf_bind (relf_forN (R := NAsm l (some G)) h.conCount ⟨hm, ho, SameF.rfl'⟩
    fun j _ a b hab => rel_genCon h hs j hab) fun a b hab => ?_
  exact relf_pure hab.1

theorem rel_genGains [Shrinks l F] {n : ι → Nat} {N : Nat} (hn : SameF l n N)
    (hm : NStore l X m M) :
    RelF l (NStore l X) (fun i => genGains (n i) (m i)) (genGains N M) := by
  unfold genGains
  refine relf_bind (rel_smultiply _ _ hm (by noeq) (by noeq)) fun m M hm => ?_
  refine relf_forN hn hm fun k _ m M hm => ?_
  refine relf_bind (rel_get hm (by noeq) _ _) fun a A ha => ?_
  refine relf_bind (rel_get hm (by noeq) _ _) fun b B hb => ?_
  refine relf_bind (rel_set hm (by noeq) _ _ (ha.mul hb)) fun m M hm => ?_
  refine relf_bind (rel_get hm (by noeq) _ _) fun a A ha => ?_
  refine relf_bind (rel_get hm (by noeq) _ _) fun b B hb => ?_
  exact rel_set hm (by noeq) _ _ (ha.mul hb)

theorem rel_genRight [Shrinks l F] (hm : NStore l X m M) :
    RelF l (NStore l X) (fun i => genRight (m i)) (genRight M) := by
  unfold genRight
  refine relf_bind (rel_leftScale hm (by noeq) (by noeq) (by noeq)) fun m M hm => ?_
  refine relf_bind (rel_smultiply _ _ hm (by noeq) (by noeq)) fun m M hm => ?_
  refine relf_bind (rel_smultiply _ _ hm (by noeq) (by noeq)) fun m M hm => ?_
  refine relf_bind (rel_negate hm (by noeq) (by noeq)) fun m M hm => ?_
  refine relf_bind (rel_subtract hm (by noeq) (by noeq) (by noeq)) fun m M hm => ?_
  refine relf_bind (rel_subtract hm (by noeq) (by noeq) (by noeq)) fun m M hm => ?_
  exact rel_subtract hm (by noeq) (by noeq) (by noeq)

/-! ## Writing back -/

theorem NWorld.setBodies (h : NWorld l w W) {b : ∀ i, Nat → Body (F i)} {B : Nat → Body ℝ}
    (hb : NBodies l b B) : NWorld l (fun i => { w i with bodies := b i }) { W with bodies := B } :=
  ⟨hb, h.cons, h.gens, h.genIndex, h.rb, h.cs, h.fg, h.st, h.mem, h.ring, h.frame, h.sle, h.ode,
    h.nsv, h.bias, h.t⟩

theorem NWorld.setCons (h : NWorld l w W) {b : ∀ i, Nat → Con (F i)} {B : Nat → Con ℝ}
    (hb : ∀ k, NCon l (fun i => b i k) (B k)) :
    NWorld l (fun i => { w i with cons := b i }) { W with cons := B } :=
  ⟨h.bodies, hb, h.gens, h.genIndex, h.rb, h.cs, h.fg, h.st, h.mem, h.ring, h.frame, h.sle, h.ode,
    h.nsv, h.bias, h.t⟩

theorem nbodies_upd (h : NBodies l bs BS) {b : ∀ i, Body (F i)} {B : Body ℝ} (hb : NBody l b B)
    (k : Nat) : NBodies l (fun i => upd (bs i) k (b i)) (upd BS k B) := by
  intro j
  unfold upd
  by_cases e : j = k
  · simp only [e, if_true]; exact hb
  · simp only [e, if_false]; exact h j

theorem ncons_upd {cs : ∀ i, Nat → Con (F i)} {CS : Nat → Con ℝ}
    (h : ∀ k, NCon l (fun i => cs i k) (CS k)) (hb : NCon l c C)
    (k j : Nat) : NCon l (fun i => upd (cs i) k (c i) j) (upd CS k C j) := by
  unfold upd
  by_cases e : j = k
  · simp only [e, if_true]; exact hb
  · simp only [e, if_false]; exact h j

theorem rel_storeBody (hs : NState l s S) (k : Nat) (h : NWorld l w W) :
    RelF l (NWorld l) (fun i => World.storeBody (s i) k (w i)) (World.storeBody S k W) := by
  unfold World.storeBody
  refine relf_bindc (relf_same (h.rb.mono fun i e => by rw [e])) fun b _ => ?_
  refine relf_bind (rel_frd hs _ _) fun vx VX h1 => ?_
  refine relf_bind (rel_frd hs _ _) fun vy VY h2 => ?_
  refine relf_bind (rel_frd hs _ _) fun px PX h3 => ?_
  refine relf_bind (rel_frd hs _ _) fun py PY h4 => ?_
  refine relf_bind (rel_frd hs _ _) fun vt VT h5 => ?_
  refine relf_bind (rel_frd hs _ _) fun th TH h6 => ?_
  have hb : NBody l (fun i => { (w i).bodies b with
      v_x := vx i, v_y := vy i, p_x := px i, p_y := py i, v_theta := vt i, theta := th i })
      { W.bodies b with v_x := VX, v_y := VY, p_x := PX, p_y := PY, v_theta := VT, theta := TH } :=
    ⟨h3, h4, h1, h2, h6, h5, (h.bodies b).m, (h.bodies b).I, (h.bodies b).index⟩
  exact relf_pure (h.setBodies (nbodies_upd h.bodies hb b))

/-- Arrays of numbers that are close. -/
def NTab (l : Filter ι) (a : ∀ i, Nat → Nat → F i) (A : Nat → Nat → ℝ) : Prop :=
  ∀ j k, Near l (fun i => a i j k) (A j k)

theorem rel_wr2 (n k : Nat) {a : ∀ i, Nat → Nat → F i} {A : Nat → Nat → ℝ}
    (h : NTab l a A) (p q : Nat) {v : ∀ i, F i} {V : ℝ} (hv : Near l v V) :
    RelF l (NTab l) (fun i => wr2 n k (a i) p q (v i)) (wr2 n k A p q V) := by
  unfold wr2
  exact relf_ite (.of_forall fun _ => Iff.rfl) (fun _ => relf_ok (near_upd2 h p q hv))
    fun _ => relf_error _ _

theorem rel_storeForce (hs : NState l s S) (pos j k : Nat) (hc : NCon l c C) :
    RelF l (NCon l) (fun i => storeForce (s i) pos j k (c i)) (storeForce S pos j k C) := by
  unfold storeForce
  refine relf_bind (rel_rrd hs _ _) fun x X hx => ?_
  refine relf_bind (rel_wr2 _ _ hc.F_x j k hx) fun fx FX h1 => ?_
  refine relf_bind (rel_rrd hs _ _) fun x X hx => ?_
  refine relf_bind (rel_wr2 _ _ hc.F_y j k hx) fun fy FY h2 => ?_
  refine relf_bind (rel_rrd hs _ _) fun x X hx => ?_
  refine relf_bind (rel_wr2 _ _ hc.F_t j k hx) fun ft FT h3 => ?_
  exact relf_pure ⟨hc.kind, hc.index, hc.bodyCount, hc.bodies, h1, h2, h3, hc.rows⟩

/-- A constraint and a counter. -/
def NConCount (l : Filter ι) (a : ∀ i, Con (F i) × Nat) (b : Con ℝ × Nat) : Prop :=
  NCon l (fun i => (a i).1) b.1 ∧ SameF l (fun i => (a i).2) b.2

theorem rel_storeCon (hs : NState l s S) (pos : Nat → Nat → Nat) (hc : NCon l c C) (jf : Nat) :
    RelF l (NConCount l) (fun i => storeCon (s i) pos (c i) jf) (storeCon S pos C jf) := by
  unfold storeCon
  refine relf_forN (R := NConCount l) hc.rows ⟨hc, SameF.rfl'⟩ fun j _ a b hab => ?_
  refine relf_congr (x' := fun i => forN (c i).bodyCount
    (fun k c => storeForce (s i) (pos b.2 k) j k c) (a i).1 >>= fun c => pure (c, (a i).2 + 1))
    (hab.2.mono fun i e => by dsimp only at e; rw [e]) ?_
  refine relf_bind (relf_forN hc.bodyCount hab.1 fun k _ c C hc => rel_storeForce hs _ j k hc)
    fun c C hc => ?_
  exact relf_pure ⟨hc, hab.2.map (· + 1)⟩

/-- A world and a counter. -/
def NWorldCount (l : Filter ι) (a : ∀ i, World (F i) × Nat) (b : World ℝ × Nat) : Prop :=
  NWorld l (fun i => (a i).1) b.1 ∧ SameF l (fun i => (a i).2) b.2

theorem rel_storeForces (hs : NState l s S) (pos : Nat → Nat → Nat) (h : NWorld l w W) :
    RelF l (NWorldCount l) (fun i => World.storeForces (s i) pos (w i))
      (World.storeForces S pos W) := by
  unfold World.storeForces
  refine relf_forN (R := NWorldCount l) h.conCount ⟨h, SameF.rfl'⟩ fun j _ a b hab => ?_
  refine relf_bindc (relf_same (hab.1.cs.mono fun i e => by rw [e])) fun c _ => ?_
  refine relf_congr (x' := fun i => storeCon (s i) pos ((a i).1.cons c) b.2 >>= fun z =>
    pure ({ (a i).1 with cons := upd (a i).1.cons c z.1 }, z.2))
    (hab.2.mono fun i e => by dsimp only at e; rw [e]) ?_
  refine relf_bind (rel_storeCon hs pos (hab.1.cons c) b.2) fun z Z hz => ?_
  exact relf_pure ⟨hab.1.setCons (ncons_upd hab.1.cons hz.1 c), hz.2⟩

theorem rel_propagateResults (h : NWorld l w W) (hs : NState l s S) :
    RelF l (NWorld l) (fun i => (w i).propagateResults (s i)) (W.propagateResults S) := by
  unfold World.propagateResults
  refine relf_bind (relf_forN h.bodyCount h fun k _ w W h => rel_storeBody hs k h) fun w W h => ?_
  refine relf_bind (rel_storeForces hs _ h) fun a b hab => ?_
  exact relf_pure hab.1

theorem rel_record (h : NWorld l w W) {t : ι → Prof → Int} {T : Prof → Int} (ht : SameF l t T) :
    RelF l (NWorld l) (fun i => (w i).record (t i)) (W.record T) := by
  have ring : ∀ {w : ∀ i, World (F i)} {W : World ℝ}, NWorld l w W → ∀ p,
      SameF l (fun i => ((w i).ring p).wr (w i).frame (t i p)) ((W.ring p).wr W.frame (T p)) := by
    intro w W h p
    filter_upwards [h.ring, h.frame, ht] with i e1 e2 e3
    rw [e1, e2, e3]
  have step : ∀ {w : ∀ i, World (F i)} {W : World ℝ}, NWorld l w W → ∀ (p : Prof) (r : Buf Int),
      NWorld l (fun i => { w i with ring := upd (w i).ring p r })
        { W with ring := upd W.ring p r } := by
    intro w W h p r
    exact ⟨h.bodies, h.cons, h.gens, h.genIndex, h.rb, h.cs, h.fg, h.st, h.mem,
      h.ring.mono fun i e => by rw [e], h.frame, h.sle, h.ode, h.nsv, h.bias, h.t⟩
  unfold World.record
  refine relf_bindc (relf_same (ring h _)) fun r1 _ => ?_
  have h := step h .odeSolve r1
  refine relf_bindc (relf_same (ring h _)) fun r2 _ => ?_
  have h := step h .constraintSolve r2
  refine relf_bindc (relf_same (ring h _)) fun r3 _ => ?_
  have h := step h .forceEval r3
  refine relf_bindc (relf_same (ring h _)) fun r4 _ => ?_
  have h := step h .constraintEval r4
  exact relf_pure ⟨h.bodies, h.cons, h.gens, h.genIndex, h.rb, h.cs, h.fg, h.st, h.mem,
      h.ring, h.frame.mono fun i e => by dsimp only at e ⊢; rw [e], h.sle, h.ode, h.nsv, h.bias, h.t⟩

end

end Scs
