import Verif.RoundGs

/-!
# Rounding: conjugate gradients

`ConjugateGradientSleSolver::solve` keeps corresponding scalars close, unless an entry of a residual is
exactly as large as the solver allows.
-/

namespace Scs

open Filter Topology

/-! ## Specification -/

section
variable {α : Type} [Zero α] [Add α] [Mul α] [Sub α] [Neg α] [Fp α]

/-- `solve` up to the first test of the residual, src/conjugate_gradient_sle_solver.cpp:30-45. -/
def Store.cgStart (st en : Nat) (s : Store α) (J : SId) (W right : MId) (previous result : Option MId) :
    Exec (Store α × MId) := do
  let n := (s.mat right).height
  let s ← s.resize .cgR 1 n
  let s ← s.resize .cgP 1 n
  let s ← s.resize .cgAp 1 n
  let s ← s.init0 .cgX 1 n
  let s ← s.warmStart previous .cgX n
  let result ← deref result
  let s ← s.resize result 1 n
  let s ← s.setMatFrom .cgR right
  let s ← s.cgMultiply st en J W .cgX .cgAp
  let s ← s.madd .cgR .cgAp (Fp.lit (-1))
  pure (s, result)

/-- The loop body up to the test of the residual, src/conjugate_gradient_sle_solver.cpp:54-59. -/
def Store.cgAdvance (st en : Nat) (s : Store α) (J : SId) (W : MId) : Exec (Store α × α) := do
  let s ← s.cgMultiply st en J W .cgP .cgAp
  let rk ← s.vectorMagnitudeSquared .cgR
  let pAp ← s.dot .cgP .cgAp
  let alpha ← Fp.div rk pAp
  let s ← s.madd .cgX .cgP alpha
  let s ← s.madd .cgR .cgAp (-alpha)
  pure (s, rk)

/-- The rest of the loop body, src/conjugate_gradient_sle_solver.cpp:65-67. -/
def Store.cgTurn (s : Store α) (rk : α) : Exec (Store α) := do
  let rk1 ← s.vectorMagnitudeSquared .cgR
  let beta ← Fp.div rk1 rk
  s.pmadd .cgP .cgR beta

end

/-- No entry of the residual is exactly as large as the solver allows. -/
def Store.OffEdge (s : Store ℝ) (e1 e2 : ℝ) (right : MId) : Prop :=
  ∀ i a b, s.get .cgR 0 i = .ok a → s.get right 0 i = .ok b → |a| ≠ max |e1 * b| e2

/-- `OffEdge` for the first `n` iterations, starting with `s`. -/
def CgNoTie (st en : Nat) (e1 e2 : ℝ) (J : SId) (W right : MId) : Nat → Store ℝ → Prop
  | 0, _ => True
  | n + 1, s => ∀ q, s.cgAdvance st en J W = .ok q → q.1.OffEdge e1 e2 right ∧
      ∀ s', q.1.cgTurn q.2 = .ok s' → CgNoTie st en e1 e2 J W right n s'

/-- In no iteration of `solve` is an entry of the residual exactly as large as the solver allows. -/
def Store.CgClear (st en : Nat) (maxIter : Nat) (e1 e2 : ℝ) (s : Store ℝ) (J : SId) (W right : MId)
    (previous result : Option MId) : Prop :=
  ∀ q, s.cgStart st en J W right previous result = .ok q → q.1.OffEdge e1 e2 right ∧
    ∀ s', q.1.setMatFrom .cgP .cgR = .ok s' → CgNoTie st en e1 e2 J W right maxIter s'

/-! ## Proofs -/

section
variable {α : Type} [Zero α] [Add α] [Mul α] [Sub α] [Neg α] [Fp α]

theorem cgLoop_succ (st en n : Nat) (e1 e2 : α) (J : SId) (W right : MId) (s : Store α) :
    cgLoop st en e1 e2 J W right (n + 1) s = (do
      let q ← s.cgAdvance st en J W
      let small ← q.1.cgSmall e1 e2 .cgR right
      if small then pure (q.1, true)
      else do
        let s ← q.1.cgTurn q.2
        cgLoop st en e1 e2 J W right n s) := by
  conv_lhs => unfold cgLoop
  unfold Store.cgAdvance Store.cgTurn
  simp only [bind_assoc, LawfulMonad.pure_bind]

theorem cgSolve_parts (st en n : Nat) (e1 e2 : α) (s : Store α) (J : SId) (W right : MId)
    (previous result : Option MId) :
    s.cgSolve st en n e1 e2 J W right previous result = (do
      let q ← s.cgStart st en J W right previous result
      let small ← q.1.cgSmall e1 e2 .cgR right
      let z ← (if small then pure (q.1, true)
        else (do
          let s ← q.1.setMatFrom .cgP .cgR
          cgLoop st en e1 e2 J W right n s) : Exec (Store α × Bool))
      if z.2 then do
        let s ← z.1.setMatFrom q.2 .cgX
        pure (s, true)
      else pure (z.1, false)) := by
  unfold Store.cgSolve Store.cgStart
  simp only [bind_assoc, LawfulMonad.pure_bind]
  iterate 11 refine congrArg (Bind.bind _) (funext fun _ => ?_)
  split
  · simp only [LawfulMonad.pure_bind, if_true]
  · simp only [bind_assoc]

end

section
variable {ι : Type} {l : Filter ι} {F : ι → Type} [∀ i, Rounded (F i)] [Shrinks l F]
  {X : Option (Mat ℝ)} {s : ∀ i, Store (F i)} {S : Store ℝ} {a b t : MId}

theorem rel_componentMultiply (h : NStore l X s S) (ht : Direct X t) (ha : Direct X a)
    (hb : Direct X b) :
    RelF l (NStore l X) (fun i => (s i).componentMultiply a b t) (S.componentMultiply a b t) := by
  unfold Store.componentMultiply
  refine relf_chk_bind (fun hp => ?_) fun _ => ?_
  · filter_upwards [(h.at hb).height, (h.at ha).height] with i e1 e2; rw [e1, e2]; exact hp
  refine relf_chk_bind (fun hp => ?_) fun _ => ?_
  · filter_upwards [(h.at hb).width, (h.at ha).width] with i e1 e2; rw [e1, e2]; exact hp
  refine relf_bind (rel_resize h ht (h.at ha).width (h.at ha).height) fun s S h => ?_
  have hw := (h.at ha).width
  refine relf_forN (h.at ha).height h fun r _ s S h => ?_
  refine relf_forN hw h fun c _ s S h => ?_
  refine relf_bind (rel_get h ha _ _) fun x x' hx => ?_
  refine relf_bind (rel_get h hb _ _) fun y y' hy => ?_
  exact rel_set h ht _ _ (hx.mul hy)

theorem rel_transposeMultiplyVector (st en : Nat) (h : NStore l X s S) {J : SId} (hb : Direct X b)
    (ht : Direct X t) :
    RelF l (NStore l X) (fun i => (s i).transposeMultiplyVector st en J b t)
      (S.transposeMultiplyVector st en J b t) := by
  unfold Store.transposeMultiplyVector
  refine relf_chk_bind (fun hp => ?_) fun _ => ?_
  · filter_upwards [(h.at hb).width] with i e1; rw [e1]; exact hp
  refine relf_chk_bind (fun hp => ?_) fun _ => ?_
  · filter_upwards [(h.smat J).height, (h.at hb).height] with i e1 e2; rw [e1, e2]; exact hp
  refine relf_bind (rel_init0 h ht SameF.rfl' (h.smat J).width) fun s S h => ?_
  have hJ := h.smat J
  refine relf_forN hJ.height h fun r _ s S h => ?_
  refine relf_forN SameF.rfl' h fun k _ s S h => ?_
  refine relf_bindc (rel_block hJ _) fun b0 _ => ?_
  refine relf_ite (.of_forall fun _ => Iff.rfl) (fun _ => relf_ok h) fun _ => ?_
  refine relf_forN SameF.rfl' h fun m _ s S h => ?_
  refine relf_bind (rel_sload hJ _ _) fun p p' hp => ?_
  refine relf_bind (rel_get h hb _ _) fun q q' hq => ?_
  exact rel_addAt h ht _ _ (hp.mul hq)

theorem rel_dotLoop (h : NStore l X s S) (ha : Direct X a) (hb : Direct X b) :
    RelF l (Near l) (fun i => forN ((s i).mat a).height (fun k v => do
        let x ← (do
          let x ← (s i).load a 0 k
          let y ← (s i).load b 0 k
          pure (x * y))
        pure (v + x)) 0)
      (forN (S.mat a).height (fun k v => do
        let x ← (do
          let x ← S.load a 0 k
          let y ← S.load b 0 k
          pure (x * y))
        pure (v + x)) 0) := by
  refine relf_forN (h.at ha).height Near.zero fun k _ v V hv => ?_
  refine relf_bind (R := Near l) ?_ fun x x' hx => relf_pure (hv.add hx)
  refine relf_bind (rel_load h ha _ _) fun x x' hx => ?_
  refine relf_bind (rel_load h hb _ _) fun y y' hy => ?_
  exact relf_pure (hx.mul hy)

theorem rel_dot (h : NStore l X s S) (ha : Direct X a) (hb : Direct X b) :
    RelF l (Near l) (fun i => (s i).dot a b) (S.dot a b) := by
  unfold Store.dot
  refine relf_chk_bind (fun hp => ?_) fun _ => ?_
  · filter_upwards [(h.at ha).width] with i e1; rw [e1]; exact hp
  refine relf_chk_bind (fun hp => ?_) fun _ => ?_
  · filter_upwards [(h.at hb).width] with i e1; rw [e1]; exact hp
  refine relf_chk_bind (fun hp => ?_) fun _ => ?_
  · filter_upwards [(h.at ha).height, (h.at hb).height] with i e1 e2; rw [e1, e2]; exact hp
  exact rel_dotLoop h ha hb

theorem rel_vectorMagnitudeSquared (h : NStore l X s S) (ha : Direct X a) :
    RelF l (Near l) (fun i => (s i).vectorMagnitudeSquared a) (S.vectorMagnitudeSquared a) := by
  unfold Store.vectorMagnitudeSquared
  refine relf_chk_bind (fun hp => ?_) fun _ => ?_
  · filter_upwards [(h.at ha).width] with i e1; rw [e1]; exact hp
  exact rel_dotLoop h ha ha

theorem rel_madd (h : NStore l X s S) (ha : Direct X a) (hb : Direct X b) {c : ∀ i, F i} {C : ℝ}
    (hc : Near l c C) :
    RelF l (NStore l X) (fun i => (s i).madd a b (c i)) (S.madd a b C) := by
  unfold Store.madd
  refine relf_chk_bind (fun hp => ?_) fun _ => ?_
  · filter_upwards [(h.at hb).width, (h.at ha).width] with i e1 e2; rw [e1, e2]; exact hp
  refine relf_chk_bind (fun hp => ?_) fun _ => ?_
  · filter_upwards [(h.at hb).height, (h.at ha).height] with i e1 e2; rw [e1, e2]; exact hp
  refine rel_fill h ha (h.at ha).width (h.at ha).height fun s S h r c => ?_
  refine relf_bind (rel_load h ha r c) fun x x' hx => ?_
  refine relf_bind (rel_load h hb r c) fun y y' hy => ?_
  exact relf_pure (hx.add (hy.mul hc))

theorem rel_pmadd (h : NStore l X s S) (ha : Direct X a) (hb : Direct X b) {c : ∀ i, F i} {C : ℝ}
    (hc : Near l c C) :
    RelF l (NStore l X) (fun i => (s i).pmadd a b (c i)) (S.pmadd a b C) := by
  unfold Store.pmadd
  refine relf_chk_bind (fun hp => ?_) fun _ => ?_
  · filter_upwards [(h.at hb).width, (h.at ha).width] with i e1 e2; rw [e1, e2]; exact hp
  refine relf_chk_bind (fun hp => ?_) fun _ => ?_
  · filter_upwards [(h.at hb).height, (h.at ha).height] with i e1 e2; rw [e1, e2]; exact hp
  refine rel_fill h ha (h.at ha).width (h.at ha).height fun s S h r c => ?_
  refine relf_bind (rel_load h ha r c) fun x x' hx => ?_
  refine relf_bind (rel_load h hb r c) fun y y' hy => ?_
  exact relf_pure ((hc.mul hx).add hy)

theorem rel_cgMultiply (st en : Nat) (h : NStore l X s S) {J : SId} {W x : MId} (h1 : Direct X W)
    (h2 : Direct X x) (ht : Direct X t) :
    RelF l (NStore l X) (fun i => (s i).cgMultiply st en J W x t) (S.cgMultiply st en J W x t) := by
  unfold Store.cgMultiply
  have hh := (h.at h2).height
  refine relf_bind (rel_resize h ht SameF.rfl' hh) fun s S h => ?_
  refine relf_bind (rel_transposeMultiplyVector st en h h2 (by intro e; cases e)) fun s S h => ?_
  refine relf_bind (rel_componentMultiply h (by intro e; cases e) h1 (by intro e; cases e))
    fun s S h => ?_
  exact rel_smultiply st en h (by intro e; cases e) ht

variable {d d' : ∀ i, F i} {D D' : ℝ}

theorem rel_cgSmall (h : NStore l X s S) {right : MId} (hr : Direct X right) (hd : Near l d D)
    (hd' : Near l d' D') (ho : S.OffEdge D D' right) :
    RelF l (SameF l) (fun i => (s i).cgSmall (d i) (d' i) .cgR right) (S.cgSmall D D' .cgR right) := by
  unfold Store.cgSmall
  have hR : Direct X .cgR := by intro e; cases e
  refine relf_forN (R := SameF l) (h.at hR).height SameF.rfl' fun k _ a A ha => ?_
  refine relf_ite (ha.mono fun i e => by rw [e]) (fun _ => ?_) fun _ => relf_ok SameF.rfl'
  refine relf_bind' (rel_get h hR _ _) fun x x' _ ex hx => ?_
  refine relf_bind' (rel_get h hr _ _) fun y y' _ ey hy => ?_
  refine relf_pure ?_
  filter_upwards [near_gt hx.abs ((hd.mul hy).abs.fmax hd') (ho k x' y' ex ey)] with i e
  rw [e]

theorem rel_cgAdvance (st en : Nat) (h : NStore l X s S) {J : SId} {W : MId} (h1 : Direct X W) :
    RelF l (NSweep l X) (fun i => (s i).cgAdvance st en J W) (S.cgAdvance st en J W) := by
  unfold Store.cgAdvance
  refine relf_bind (rel_cgMultiply st en h h1 (by intro e; cases e) (by intro e; cases e))
    fun s S h => ?_
  refine relf_bind (rel_vectorMagnitudeSquared h (by intro e; cases e)) fun rk RK hk => ?_
  refine relf_bind (rel_dot h (by intro e; cases e) (by intro e; cases e)) fun p P hp => ?_
  refine relf_bind (near_div hk hp) fun al AL ha => ?_
  refine relf_bind (rel_madd h (by intro e; cases e) (by intro e; cases e) ha) fun s S h => ?_
  refine relf_bind (rel_madd h (by intro e; cases e) (by intro e; cases e) ha.neg) fun s S h => ?_
  exact relf_pure ⟨h, hk⟩

theorem rel_cgTurn (h : NStore l X s S) {rk : ∀ i, F i} {RK : ℝ} (hk : Near l rk RK) :
    RelF l (NStore l X) (fun i => (s i).cgTurn (rk i)) (S.cgTurn RK) := by
  unfold Store.cgTurn
  refine relf_bind (rel_vectorMagnitudeSquared h (by intro e; cases e)) fun k1 K1 h1 => ?_
  refine relf_bind (near_div h1 hk) fun be BE hb => ?_
  exact rel_pmadd h (by intro e; cases e) (by intro e; cases e) hb

theorem rel_cgLoop (st en : Nat) {J : SId} {W right : MId} (h1 : Direct X W) (hr : Direct X right)
    (hd : Near l d D) (hd' : Near l d' D') :
    ∀ n (s : ∀ i, Store (F i)) S, NStore l X s S → CgNoTie st en D D' J W right n S →
      RelF l (NSolved l X) (fun i => cgLoop st en (d i) (d' i) J W right n (s i))
        (cgLoop st en D D' J W right n S)
  | 0, _, _, h, _ => relf_ok ⟨h, SameF.rfl'⟩
  | n + 1, s, S, h, hc => by
    simp only [cgLoop_succ]
    refine relf_bind' (rel_cgAdvance st en h h1) fun q Q _ eq hq => ?_
    obtain ⟨ho, hc⟩ := hc Q eq
    refine relf_bindc (rel_cgSmall hq.1 hr hd hd' ho) fun z _ => ?_
    refine relf_ite (.of_forall fun _ => Iff.rfl) (fun _ => relf_pure ⟨hq.1, SameF.rfl'⟩) fun _ => ?_
    refine relf_bind' (rel_cgTurn hq.1 hq.2) fun s S _ es h => ?_
    exact rel_cgLoop st en h1 hr hd hd' n _ _ h (hc S es)

theorem rel_cgStart (st en : Nat) (h : NStore l X s S) {J : SId} {W right p r : MId}
    (h1 : Direct X W) (h2 : Direct X right) (h3 : Direct X p) (h4 : Direct X r) :
    RelF l (fun (a : ∀ i, Store (F i) × MId) b => NStore l X (fun i => (a i).1) b.1 ∧
        SameF l (fun i => (a i).2) b.2 ∧ b.2 = r)
      (fun i => (s i).cgStart st en J W right (some p) (some r))
      (S.cgStart st en J W right (some p) (some r)) := by
  unfold Store.cgStart
  simp only [deref, ok_bind]
  have hr := (h.at h2).height
  refine relf_bind (rel_resize h (by intro e; cases e) SameF.rfl' hr) fun s S h => ?_
  refine relf_bind (rel_resize h (by intro e; cases e) SameF.rfl' hr) fun s S h => ?_
  refine relf_bind (rel_resize h (by intro e; cases e) SameF.rfl' hr) fun s S h => ?_
  refine relf_bind (rel_init0 h (by intro e; cases e) SameF.rfl' hr) fun s S h => ?_
  refine relf_bind (R := NStore l X) ?_ fun (s : ∀ i, Store (F i)) S h => ?_
  · unfold Store.warmStart
    refine relf_ite ?_ (fun _ => rel_setMatFrom h (by intro e; cases e) h3) fun _ => relf_ok h
    filter_upwards [(h.at h3).height, hr] with i e1 e2
    rw [e1, e2]
  refine relf_bind (rel_resize h h4 SameF.rfl' hr) fun s S h => ?_
  refine relf_bind (rel_setMatFrom h (by intro e; cases e) h2) fun s S h => ?_
  refine relf_bind (rel_cgMultiply st en h h1 (by intro e; cases e) (by intro e; cases e))
    fun s S h => ?_
  refine relf_bind (rel_madd h (by intro e; cases e) (by intro e; cases e) (Near.lit (-1)))
    fun s S h => ?_
  exact relf_pure ⟨h, SameF.rfl', rfl⟩

/-- `ConjugateGradientSleSolver::solve`. -/
theorem rel_cgSolve (st en n : Nat) (h : NStore l X s S) {J : SId} {W right p r : MId}
    (h1 : Direct X W) (h2 : Direct X right) (h3 : Direct X p) (h4 : Direct X r)
    (hd : Near l d D) (hd' : Near l d' D')
    (hc : S.CgClear st en n D D' J W right (some p) (some r)) :
    RelF l (NSolved l X)
      (fun i => (s i).cgSolve st en n (d i) (d' i) J W right (some p) (some r))
      (S.cgSolve st en n D D' J W right (some p) (some r)) := by
  simp only [cgSolve_parts]
  refine relf_bind' (rel_cgStart st en h h1 h2 h3 h4) fun a A _ ea ha => ?_
  obtain ⟨b1, b2, b3⟩ := ha
  obtain ⟨ho, hc⟩ := hc A ea
  refine relf_bindc (rel_cgSmall b1 h2 hd hd' ho) fun z _ => ?_
  refine relf_bind (R := NSolved l X) ?_ fun z Z hz => ?_
  · refine relf_ite (.of_forall fun _ => Iff.rfl) (fun _ => relf_pure ⟨b1, SameF.rfl'⟩) fun _ => ?_
    refine relf_bind' (rel_setMatFrom b1 (by intro e; cases e) (by intro e; cases e))
      fun s S _ es h => ?_
    exact rel_cgLoop st en h1 h2 hd hd' n _ _ h (hc S es)
  · refine relf_ite (hz.2.mono fun i e => by dsimp only at e; rw [e]) (fun _ => ?_) fun _ =>
      relf_pure ⟨hz.1, SameF.rfl'⟩
    refine relf_congr (x' := fun i => (do
      let s ← (z i).1.setMatFrom A.2 .cgX
      pure (s, true) : Exec (Store (F i) × Bool))) (b2.mono fun i e => by dsimp only at e; rw [e]) ?_
    refine relf_bind (rel_setMatFrom hz.1 (by rw [b3]; exact h4) (by intro e; cases e))
      fun s S h => ?_
    exact relf_pure ⟨h, SameF.rfl'⟩

end

end Scs
