import Verif.SleSpec

/-!
# What each function may change

Whatever the arguments and their aliasing, a call that returns has changed no object but its
targets. (No well-formedness is needed: these lemmas read the code only.)
-/

namespace Scs

set_option linter.unusedSectionVars false

section
variable {α : Type} {T : MId → Prop} {S : SId → Prop} {s0 : Store α}

theorem Frame.setMat {s : Store α} (h : Frame T S s0 s) {t : MId} (ht : T t) (m : Mat α) :
    Frame T S s0 (s.setMat t m) :=
  ⟨fun a ha => (upd_other s.mat m (fun e : a = t => ha (e ▸ ht))).trans (h.mat a ha), h.smat⟩

theorem Frame.setSMat {s : Store α} (h : Frame T S s0 s) {t : SId} (ht : S t) (m : SMat α) :
    Frame T S s0 (s.setSMat t m) :=
  ⟨h.mat, fun a ha => (upd_other s.smat m (fun e : a = t => ha (e ▸ ht))).trans (h.smat a ha)⟩

theorem Frame.tick {s : Store α} (h : Frame T S s0 s) (k : Nat) :
    Frame T S s0 { s with tick := k } := ⟨h.mat, h.smat⟩

/-- A frame for the store component of a result. -/
abbrev FrameP {β : Type} (T : MId → Prop) (S : SId → Prop) (s0 : Store α) (q : Store α × β) :
    Prop := Frame T S s0 q.1

theorem fr_any {τ σ : Type} {x : Exec τ} {f : τ → Exec σ} {Q : σ → Prop}
    (h : ∀ a, Wp (f a) Q anyErr) : Wp (x >>= f) Q anyErr := by
  rw [wp_bind]; exact (wp_any x).imp (fun a _ => h a)

theorem fr_bind {x : Exec (Store α)} {f : Store α → Exec (Store α)}
    (hx : Wp x (Frame T S s0) anyErr)
    (h : ∀ s, Frame T S s0 s → Wp (f s) (Frame T S s0) anyErr) :
    Wp (x >>= f) (Frame T S s0) anyErr := by
  rw [wp_bind]; exact hx.imp h

theorem fr_bindP {β : Type} {x : Exec (Store α)} {f : Store α → Exec (Store α × β)}
    (hx : Wp x (Frame T S s0) anyErr)
    (h : ∀ s, Frame T S s0 s → Wp (f s) (FrameP T S s0) anyErr) :
    Wp (x >>= f) (FrameP T S s0) anyErr := by
  rw [wp_bind]; exact hx.imp h

theorem fr_bindPP {β γ : Type} {x : Exec (Store α × β)} {f : Store α × β → Exec (Store α × γ)}
    (hx : Wp x (FrameP T S s0) anyErr)
    (h : ∀ q : Store α × β, Frame T S s0 q.1 → Wp (f q) (FrameP T S s0) anyErr) :
    Wp (x >>= f) (FrameP T S s0) anyErr := by
  rw [wp_bind]; exact hx.imp h

theorem fr_forN {n : Nat} {f : Nat → Store α → Exec (Store α)} {s : Store α}
    (h : Frame T S s0 s)
    (hf : ∀ i s, Frame T S s0 s → Wp (f i s) (Frame T S s0) anyErr) :
    Wp (forN n f s) (Frame T S s0) anyErr :=
  wp_forN (I := fun _ => Frame T S s0) h (fun i _ s hs => hf i s hs)

theorem fr_forNP {β : Type} {n : Nat} {f : Nat → Store α × β → Exec (Store α × β)}
    {s : Store α × β} (h : Frame T S s0 s.1)
    (hf : ∀ i s, Frame T S s0 s.1 → Wp (f i s) (FrameP T S s0) anyErr) :
    Wp (forN n f s) (FrameP T S s0) anyErr :=
  wp_forN (I := fun _ => FrameP T S s0) h (fun i _ s hs => hf i s hs)

variable {s : Store α}

theorem fr_store (h : Frame T S s0 s) {t : MId} (ht : T t) (r c : Nat) (v : α) :
    Wp (s.store t r c v) (Frame T S s0) anyErr :=
  fr_any (fun m => h.setMat ht m)

theorem fr_set (h : Frame T S s0 s) {t : MId} (ht : T t) (c r : Nat) (v : α) :
    Wp (s.set t c r v) (Frame T S s0) anyErr :=
  fr_any (fun _ => fr_any (fun _ => fr_store h ht r c v))

theorem fr_addAt [Add α] (h : Frame T S s0 s) {t : MId} (ht : T t) (c r : Nat) (v : α) :
    Wp (s.addAt t c r v) (Frame T S s0) anyErr :=
  fr_any (fun _ => fr_any (fun _ => fr_any (fun x => fr_store h ht r c (x + v))))

theorem fr_rowSwap (h : Frame T S s0 s) {t : MId} (ht : T t) (a b : Nat) :
    Wp (s.rowSwap t a b) (Frame T S s0) anyErr :=
  fr_any (fun _ => fr_any (fun _ => fr_any (fun _ => fr_any (fun _ => fr_any (fun _ =>
    h.setMat ht _)))))

theorem fr_destroy (h : Frame T S s0 s) {t : MId} (ht : T t) :
    Wp (s.destroy t) (Frame T S s0) anyErr := h.setMat ht _

theorem fr_resize (h : Frame T S s0 s) {t : MId} (ht : T t) (w hh : Nat) :
    Wp (s.resize t w hh) (Frame T S s0) anyErr := by
  unfold Store.resize
  simp only []
  rw [wp_ite]
  exact ⟨fun _ => h, fun _ => fr_any (fun m => (h.setMat ht m).tick _)⟩

theorem fr_fill (h : Frame T S s0 s) {t : MId} (ht : T t) (hh w : Nat)
    (f : Store α → Nat → Nat → Exec α) : Wp (s.fill t hh w f) (Frame T S s0) anyErr :=
  fr_forN h (fun _ _ h => fr_forN h (fun _ _ h => fr_any (fun _ => fr_store h ht _ _ _)))

theorem fr_init (h : Frame T S s0 s) {t : MId} (ht : T t) (w hh : Nat) (v : α) :
    Wp (s.init t w hh v) (Frame T S s0) anyErr :=
  fr_bind (fr_resize h ht w hh) (fun _ h => fr_fill h ht _ _ _)

theorem fr_init0 [Zero α] (h : Frame T S s0 s) {t : MId} (ht : T t) (w hh : Nat) :
    Wp (s.init0 t w hh) (Frame T S s0) anyErr :=
  fr_bind (fr_resize h ht w hh) (fun _ h => fr_any (fun _ => h.setMat ht _))

theorem fr_setData (h : Frame T S s0 s) {t : MId} (ht : T t) (src : Buf α) :
    Wp (s.setData t src) (Frame T S s0) anyErr := fr_any (fun _ => h.setMat ht _)

theorem fr_setMatFrom (h : Frame T S s0 s) {t : MId} (ht : T t) (ref : MId) :
    Wp (s.setMatFrom t ref) (Frame T S s0) anyErr :=
  fr_bind (fr_resize h ht _ _) (fun _ h => fr_fill h ht _ _ _)

theorem fr_sdestroy (h : Frame T S s0 s) {t : SId} (ht : S t) :
    Wp (s.sdestroy t) (Frame T S s0) anyErr := h.setSMat ht _

theorem fr_sresize (st en : Nat) (h : Frame T S s0 s) {t : SId} (ht : S t) (w hh : Nat) :
    Wp (s.sresize st en t w hh) (Frame T S s0) anyErr := by
  unfold Store.sresize
  simp only []
  rw [wp_ite]
  exact ⟨fun _ => h, fun _ => fr_any (fun m => (h.setSMat ht m).tick _)⟩

theorem fr_sinit (st en : Nat) (h : Frame T S s0 s) {t : SId} (ht : S t) (w hh : Nat) :
    Wp (s.sinit st en t w hh) (Frame T S s0) anyErr :=
  fr_bind (fr_sresize st en h ht w hh) (fun _ h => fr_any (fun _ => h.setSMat ht _))

theorem fr_setBlock (en : Nat) (h : Frame T S s0 s) {t : SId} (ht : S t) (row entry : Nat)
    (index : Int) : Wp (s.setBlock en t row entry index) (Frame T S s0) anyErr :=
  fr_any (fun _ => fr_any (fun _ => fr_any (fun _ => fr_any (fun _ => h.setSMat ht _))))

theorem fr_sset (st en : Nat) (h : Frame T S s0 s) {t : SId} (ht : S t) (row entry slice : Nat)
    (v : α) : Wp (s.sset st en t row entry slice v) (Frame T S s0) anyErr :=
  fr_any (fun _ => fr_any (fun _ => fr_any (fun _ => fr_any (fun _ => h.setSMat ht _))))

theorem fr_setEmpty [Zero α] (st en : Nat) (h : Frame T S s0 s) {t : SId} (ht : S t)
    (row col : Nat) : Wp (s.setEmpty st en t row col) (Frame T S s0) anyErr :=
  fr_any (fun _ => fr_any (fun _ => fr_any (fun _ => fr_any (fun _ => h.setSMat ht _))))

end

section
variable {α : Type} [Zero α] [Add α] [Mul α] [Sub α] [Neg α] [Fp α] {T : MId → Prop}
  {S : SId → Prop} {s0 s : Store α}

theorem fr_multiply (h : Frame T S s0 s) {t : MId} (ht : T t) (a b : MId) :
    Wp (s.multiply a b t) (Frame T S s0) anyErr :=
  fr_any (fun _ => fr_bind (fr_resize h ht _ _) (fun _ h => fr_fill h ht _ _ _))

theorem fr_componentMultiply (h : Frame T S s0 s) {t : MId} (ht : T t) (a b : MId) :
    Wp (s.componentMultiply a b t) (Frame T S s0) anyErr :=
  fr_any (fun _ => fr_any (fun _ => fr_bind (fr_resize h ht _ _) (fun _ h =>
    fr_forN h (fun _ _ h => fr_forN h (fun _ _ h => fr_any (fun _ => fr_any (fun _ =>
      fr_set h ht _ _ _)))))))

theorem fr_transposeMultiply (h : Frame T S s0 s) {t : MId} (ht : T t) (a b : MId) :
    Wp (s.transposeMultiply a b t) (Frame T S s0) anyErr :=
  fr_any (fun _ => fr_bind (fr_resize h ht _ _) (fun _ h => fr_fill h ht _ _ _))

theorem fr_leftScale (h : Frame T S s0 s) {t : MId} (ht : T t) (a sc : MId) :
    Wp (s.leftScale a sc t) (Frame T S s0) anyErr :=
  fr_any (fun _ => fr_any (fun _ => fr_bind (fr_resize h ht _ _) (fun _ h =>
    fr_fill h ht _ _ _)))

theorem fr_rightScale (h : Frame T S s0 s) {t : MId} (ht : T t) (a sc : MId) :
    Wp (s.rightScale a sc t) (Frame T S s0) anyErr :=
  fr_any (fun _ => fr_any (fun _ => fr_bind (fr_resize h ht _ _) (fun _ h =>
    fr_fill h ht _ _ _)))

theorem fr_scale (h : Frame T S s0 s) {t : MId} (ht : T t) (a : MId) (c : α) :
    Wp (s.scale a c t) (Frame T S s0) anyErr :=
  fr_bind (fr_resize h ht _ _) (fun _ h => fr_fill h ht _ _ _)

theorem fr_subtract (h : Frame T S s0 s) {t : MId} (ht : T t) (a b : MId) :
    Wp (s.subtract a b t) (Frame T S s0) anyErr :=
  fr_any (fun _ => fr_any (fun _ => fr_bind (fr_resize h ht _ _) (fun _ h =>
    fr_fill h ht _ _ _)))

theorem fr_addM (h : Frame T S s0 s) {t : MId} (ht : T t) (a b : MId) :
    Wp (s.addM a b t) (Frame T S s0) anyErr :=
  fr_any (fun _ => fr_any (fun _ => fr_bind (fr_resize h ht _ _) (fun _ h =>
    fr_fill h ht _ _ _)))

theorem fr_negate (h : Frame T S s0 s) {t : MId} (ht : T t) (a : MId) :
    Wp (s.negate a t) (Frame T S s0) anyErr :=
  fr_bind (fr_resize h ht _ _) (fun _ h => fr_fill h ht _ _ _)

theorem fr_madd (h : Frame T S s0 s) {t : MId} (ht : T t) (b : MId) (c : α) :
    Wp (s.madd t b c) (Frame T S s0) anyErr :=
  fr_any (fun _ => fr_any (fun _ => fr_fill h ht _ _ _))

theorem fr_pmadd (h : Frame T S s0 s) {t : MId} (ht : T t) (b : MId) (c : α) :
    Wp (s.pmadd t b c) (Frame T S s0) anyErr :=
  fr_any (fun _ => fr_any (fun _ => fr_fill h ht _ _ _))

theorem fr_transpose (h : Frame T S s0 s) {t : MId} (ht : T t) (a : MId) :
    Wp (s.transpose a t) (Frame T S s0) anyErr :=
  fr_bind (fr_resize h ht _ _) (fun _ h => fr_fill h ht _ _ _)

theorem fr_expand (st en : Nat) (h : Frame T S s0 s) {t : MId} (ht : T t) (a : SId) :
    Wp (s.expand st en a t) (Frame T S s0) anyErr :=
  fr_bind (fr_init0 h ht _ _) (fun _ h => fr_forN h (fun _ _ h => fr_forN h (fun _ _ h =>
    fr_any (fun _ => (wp_ite _ _ _).2 ⟨fun _ => h, fun _ => fr_forN h (fun _ _ h =>
      fr_any (fun _ => fr_set h ht _ _ _))⟩))))

theorem fr_expandTransposed (st en : Nat) (h : Frame T S s0 s) {t : MId} (ht : T t) (a : SId) :
    Wp (s.expandTransposed st en a t) (Frame T S s0) anyErr :=
  fr_bind (fr_init0 h ht _ _) (fun _ h => fr_forN h (fun _ _ h => fr_forN h (fun _ _ h =>
    fr_any (fun _ => (wp_ite _ _ _).2 ⟨fun _ => h, fun _ => fr_forN h (fun _ _ h =>
      fr_any (fun _ => fr_set h ht _ _ _))⟩))))

theorem fr_multiplyTranspose (st en : Nat) (h : Frame T S s0 s) {t : MId} (ht : T t) (a b : SId) :
    Wp (s.multiplyTranspose st en a b t) (Frame T S s0) anyErr :=
  fr_any (fun _ => fr_bind (fr_init0 h ht _ _) (fun _ h => fr_forN h (fun _ _ h =>
    fr_forN h (fun _ _ h => fr_any (fun _ => fr_set h ht _ _ _)))))

theorem fr_transposeMultiplyVector (st en : Nat) (h : Frame T S s0 s) {t : MId} (ht : T t)
    (a : SId) (b : MId) : Wp (s.transposeMultiplyVector st en a b t) (Frame T S s0) anyErr :=
  fr_any (fun _ => fr_any (fun _ => fr_bind (fr_init0 h ht _ _) (fun _ h => fr_forN h (fun _ _ h =>
    fr_forN h (fun _ _ h => fr_any (fun _ => (wp_ite _ _ _).2 ⟨fun _ => h, fun _ =>
      fr_forN h (fun _ _ h => fr_any (fun _ => fr_any (fun _ => fr_addAt h ht _ _ _)))⟩))))))

theorem fr_smultiply (st en : Nat) (h : Frame T S s0 s) {t : MId} (ht : T t)
    (a : SId) (b : MId) : Wp (s.smultiply st en a b t) (Frame T S s0) anyErr :=
  fr_any (fun _ => fr_bind (fr_init0 h ht _ _) (fun _ h => fr_forN h (fun _ _ h =>
    fr_forN h (fun _ _ h => fr_any (fun _ => fr_set h ht _ _ _)))))

theorem fr_srightScale (st en : Nat) (h : Frame T S s0 s) {t : SId} (ht : S t)
    (a : SId) (sc : MId) : Wp (s.srightScale st en a sc t) (Frame T S s0) anyErr :=
  fr_any (fun _ => fr_any (fun _ => fr_bind (fr_sinit st en h ht _ _) (fun _ h =>
    fr_forN h (fun _ _ h => fr_forN h (fun _ _ h => fr_any (fun _ =>
      (wp_ite _ _ _).2 ⟨fun _ => h, fun _ => fr_bind (fr_setBlock en h ht _ _ _) (fun _ h =>
      fr_forN h (fun _ _ h => fr_any (fun _ => fr_any (fun _ => fr_sset st en h ht _ _ _ _))))⟩))))))

theorem fr_sleftScale (st en : Nat) (h : Frame T S s0 s) {t : SId} (ht : S t)
    (a : SId) (sc : MId) : Wp (s.sleftScale st en a sc t) (Frame T S s0) anyErr :=
  fr_any (fun _ => fr_any (fun _ => fr_bind (fr_sinit st en h ht _ _) (fun _ h =>
    fr_forN h (fun _ _ h => fr_forN h (fun _ _ h => fr_any (fun _ =>
      (wp_ite _ _ _).2 ⟨fun _ => h, fun _ => fr_bind (fr_setBlock en h ht _ _ _) (fun _ h =>
      fr_forN h (fun _ _ h => fr_any (fun _ => fr_any (fun _ => fr_sset st en h ht _ _ _ _))))⟩))))))

/-! ## The solvers -/

theorem fr_formM (st en : Nat) (h : Frame T S s0 s) (J : SId) (W : MId) {reg : SId} {M : MId}
    (hr : S reg) (hM : T M) : Wp (s.formM st en J W reg M) (Frame T S s0) anyErr :=
  fr_bind (fr_srightScale st en h hr J W) (fun _ h => fr_multiplyTranspose st en h hM _ _)

theorem fr_warmStart (h : Frame T S s0 s) (p : Option MId) {r : MId} (hr : T r) (n : Nat) :
    Wp (s.warmStart p r n) (Frame T S s0) anyErr := by
  cases p with
  | none => exact h
  | some p =>
    rw [Store.warmStart, wp_ite]
    exact ⟨fun _ => fr_setMatFrom h hr p, fun _ => h⟩

theorem fr_gsIteration (h : Frame T S s0 s) {kn : MId} (hk : T kn) (left right k : MId) :
    Wp (s.gsIteration left right kn k) (FrameP T S s0) anyErr :=
  fr_forNP h (fun _ _ h => fr_any (fun _ => fr_any (fun _ => fr_any (fun _ => fr_any (fun _ =>
    fr_any (fun _ => fr_any (fun _ => fr_any (fun _ => fr_bindP (fr_set h hk _ _ _)
      (fun _ h => h)))))))))

theorem fr_gsIterationL (h : Frame T S s0 s) {kn : MId} (hk : T kn) (left right limits k : MId) :
    Wp (s.gsIterationL left right limits kn k) (FrameP T S s0) anyErr :=
  fr_forNP h (fun _ _ h => fr_any (fun _ => fr_any (fun _ => fr_any (fun _ => fr_any (fun _ =>
    fr_any (fun _ => fr_any (fun _ => fr_any (fun _ => fr_any (fun _ => fr_any (fun _ =>
    fr_bindP (fr_set h hk _ _ _) (fun _ h => h)))))))))))

theorem fr_gsLoop {sweep : Store α → Exec (Store α × α)} {minDelta : α}
    (hs : ∀ s, Frame T S s0 s → Wp (sweep s) (FrameP T S s0) anyErr) (n : Nat) (s : Store α)
    (h : Frame T S s0 s) : Wp (gsLoop sweep minDelta n s) (FrameP T S s0) anyErr := by
  induction n generalizing s with
  | zero => exact h
  | succ n ih =>
    exact fr_bindPP (hs s h) (fun q hq => (wp_ite _ _ _).2 ⟨fun _ => hq, fun _ => ih q.1 hq⟩)

theorem fr_gsSolve (st en : Nat) (h : Frame T S s0 s) (maxIter : Nat) (minDelta : α) (J : SId)
    (W right : MId) (p result : Option MId) (hr : ∀ r, result = some r → T r) (hM : T .gsM)
    (hg : S .gsReg) :
    Wp (s.gsSolve st en maxIter minDelta J W right p result) (FrameP T S s0) anyErr := by
  cases result with
  | none => trivial
  | some r =>
    have hr := hr r rfl
    exact fr_bindP (fr_resize h hr _ _) (fun _ h => fr_bindP (fr_warmStart h p hr _) (fun _ h =>
      fr_bindP (fr_formM st en h J W hg hM) (fun _ h =>
        fr_gsLoop (fun _ h => fr_gsIteration h hr _ _ _) _ _ h)))

theorem fr_gsSolveL (st en : Nat) (h : Frame T S s0 s) (maxIter : Nat) (minDelta : α) (J : SId)
    (W right limits : MId) (result p : Option MId) (hr : ∀ r, result = some r → T r)
    (hM : T .gsM) (hg : S .gsReg) :
    Wp (s.gsSolveL st en maxIter minDelta J W right limits result p) (FrameP T S s0) anyErr := by
  cases result with
  | none => trivial
  | some r =>
    have hr := hr r rfl
    have rest : ∀ s : Store α, Frame T S s0 s → ∀ n, Wp (do
        let s ← s.warmStart p r n
        let s ← s.formM st en J W .gsReg .gsM
        gsLoop (fun s => s.gsIterationL .gsM right limits r r) minDelta maxIter s)
        (FrameP T S s0) anyErr := fun s h n =>
      fr_bindP (fr_warmStart h p hr n) (fun _ h => fr_bindP (fr_formM st en h J W hg hM)
        (fun _ h => fr_gsLoop (fun _ h => fr_gsIterationL h hr _ _ _ _) _ _ h))
    unfold Store.gsSolveL
    simp only [deref, ok_bind]
    rw [wp_ite]
    exact ⟨fun _ => fr_bindP (fr_init0 h hr _ _) (fun _ h => rest _ h _), fun _ => rest _ h _⟩

theorem fr_geLoad (h : Frame T S s0 s) (hA : T .geA) (right : MId) (n m : Nat) :
    Wp (s.geLoad right n m) (Frame T S s0) anyErr :=
  fr_forN h (fun _ _ h => fr_bind (fr_forN h (fun _ _ h => fr_any (fun _ => fr_set h hA _ _ _)))
    (fun _ h => fr_any (fun _ => fr_set h hA _ _ _)))

theorem fr_geElim (h : Frame T S s0 s) (hA : T .geA) (n m hh k : Nat) :
    Wp (s.geElim n m hh k) (Frame T S s0) anyErr :=
  fr_forN h (fun _ _ h => fr_any (fun _ => fr_any (fun _ => fr_any (fun _ =>
    fr_bind (fr_set h hA _ _ _) (fun _ h => fr_forN h (fun _ _ h => fr_any (fun _ => fr_any
      (fun _ => fr_set h hA _ _ _))))))))

theorem fr_geLoop (hA : T .geA) (n m fuel hh k : Nat) (s : Store α) (h : Frame T S s0 s) :
    Wp (geLoop n m fuel hh k s) (Frame T S s0) anyErr := by
  induction fuel generalizing hh k s with
  | zero =>
    rw [geLoop, wp_ite]
    exact ⟨fun _ => trivial, fun _ => h⟩
  | succ fuel ih =>
    rw [geLoop, wp_ite]
    exact ⟨fun _ => fr_any (fun _ => (wp_ite _ _ _).2 ⟨fun _ => ih _ _ _ h, fun _ =>
      fr_bind (fr_rowSwap h hA _ _) (fun _ h => fr_bind (fr_geElim h hA _ _ _ _)
        (fun _ h => ih _ _ _ h))⟩), fun _ => h⟩

theorem fr_geBack (h : Frame T S s0 s) {r : MId} (hr : T r) (n m : Nat) :
    Wp (s.geBack r n m) (Frame T S s0) anyErr :=
  fr_any (fun _ => fr_any (fun _ => fr_any (fun _ => fr_any (fun _ => fr_any (fun _ =>
    fr_bind (fr_set h hr _ _ _) (fun _ h => fr_forN h (fun _ _ h => fr_any (fun _ =>
      fr_any (fun _ => fr_any (fun _ => (wp_ite _ _ _).2 ⟨fun _ => fr_set h hr _ _ _, fun _ =>
        fr_any (fun _ => fr_any (fun _ => fr_set h hr _ _ _))⟩))))))))))

theorem fr_geSolve (st en : Nat) (h : Frame T S s0 s) (J : SId)
    (W right : MId) (p result : Option MId) (hr : ∀ r, result = some r → T r) (hM : T .geM)
    (hA : T .geA) (hg : S .geReg) :
    Wp (s.geSolve st en J W right p result) (FrameP T S s0) anyErr := by
  refine fr_bindP (fr_formM st en h J W hg hM) (fun s h => ?_)
  simp only []
  refine fr_any (fun _ => (wp_ite _ _ _).2 ⟨fun _ => h, fun _ => ?_⟩)
  cases result with
  | none => trivial
  | some r =>
    have hr := hr r rfl
    exact fr_bindP (fr_resize h hr _ _) (fun _ h => fr_bindP (fr_resize h hA _ _) (fun _ h =>
      fr_bindP (fr_geLoad h hA _ _ _) (fun _ h => fr_bindP (fr_geLoop hA _ _ _ _ _ _ h)
        (fun _ h => fr_bindP (fr_geBack h hr _ _) (fun _ h => fr_any (fun _ => h))))))

theorem fr_cgMultiply (st en : Nat) (h : Frame T S s0 s) (J : SId) (W x : MId) {t : MId}
    (ht : T t) (h0 : T .cgReg0) (h1 : T .cgReg1) :
    Wp (s.cgMultiply st en J W x t) (Frame T S s0) anyErr :=
  fr_bind (fr_resize h ht _ _) (fun _ h => fr_bind (fr_transposeMultiplyVector st en h h0 _ _)
    (fun _ h => fr_bind (fr_componentMultiply h h1 _ _) (fun _ h => fr_smultiply st en h ht _ _)))

/-- The scratch matrices of the conjugate gradient solver may change. -/
structure CgMay (T : MId → Prop) : Prop where
  reg0 : T .cgReg0
  reg1 : T .cgReg1
  ap : T .cgAp
  x : T .cgX
  r : T .cgR
  p : T .cgP

theorem fr_cgLoop (st en : Nat) (hT : CgMay T) (e1 e2 : α) (J : SId) (W right : MId) (n : Nat)
    (s : Store α) (h : Frame T S s0 s) :
    Wp (cgLoop st en e1 e2 J W right n s) (FrameP T S s0) anyErr := by
  induction n generalizing s with
  | zero => exact h
  | succ n ih =>
    exact fr_bindP (fr_cgMultiply st en h J W _ hT.ap hT.reg0 hT.reg1) (fun _ h =>
      fr_any (fun _ => fr_any (fun _ => fr_any (fun _ => fr_bindP (fr_madd h hT.x _ _)
      (fun _ h => fr_bindP (fr_madd h hT.r _ _) (fun _ h => fr_any (fun _ =>
        (wp_ite _ _ _).2 ⟨fun _ => h, fun _ => fr_any (fun _ => fr_any (fun _ =>
          fr_bindP (fr_pmadd h hT.p _ _) (fun _ h => ih _ h)))⟩)))))))

theorem fr_cgSolve (st en : Nat) (h : Frame T S s0 s) (n : Nat) (e1 e2 : α) (J : SId)
    (W right : MId) (p result : Option MId) (hr : ∀ r, result = some r → T r) (hT : CgMay T) :
    Wp (s.cgSolve st en n e1 e2 J W right p result) (FrameP T S s0) anyErr := by
  unfold Store.cgSolve
  refine fr_bindP (fr_resize h hT.r _ _) (fun _ h => fr_bindP (fr_resize h hT.p _ _) (fun _ h =>
    fr_bindP (fr_resize h hT.ap _ _) (fun _ h => fr_bindP (fr_init0 h hT.x _ _) (fun _ h =>
    fr_bindP (fr_warmStart h p hT.x _) (fun _ h => ?_)))))
  cases result with
  | none => trivial
  | some r =>
    have hr := hr r rfl
    have fin : ∀ q : Store α × Bool, Frame T S s0 q.1 → Wp (if q.2 = true then (do
        let s ← q.1.setMatFrom r .cgX
        pure (s, true)) else pure (q.1, false)) (FrameP T S s0) anyErr := fun q hq =>
      (wp_ite _ _ _).2 ⟨fun _ => fr_bindP (fr_setMatFrom hq hr _) (fun _ h => h), fun _ => hq⟩
    refine fr_bindP (fr_resize h hr _ _) (fun _ h => fr_bindP (fr_setMatFrom h hT.r _) (fun _ h =>
      fr_bindP (fr_cgMultiply st en h J W _ hT.ap hT.reg0 hT.reg1) (fun _ h =>
      fr_bindP (fr_madd h hT.r _ _) (fun s h => fr_any (fun small => ?_)))))
    simp only []
    rw [wp_ite]
    exact ⟨fun _ => fin (s, true) h, fun _ => fr_bindP (fr_setMatFrom h hT.p _) (fun _ h =>
      fr_bindPP (fr_cgLoop st en hT _ _ J W right n _ h) fin)⟩

/-- The private matrices of each solver object. -/
def Solver.Own : Solver α → MId → Prop
  | .gs .., m => m = .gsM
  | .ge, m => m = .geM ∨ m = .geA
  | .cg .., m => m = .cgReg0 ∨ m = .cgReg1 ∨ m = .cgAp ∨ m = .cgX ∨ m = .cgR ∨ m = .cgP

/-- The private sparse matrices of each solver object. -/
def Solver.OwnS : Solver α → SId → Prop
  | .gs .., m => m = .gsReg
  | .ge, m => m = .geReg
  | .cg .., _ => False

theorem Solver.fr_solve (st en : Nat) (sv : Solver α) (J : SId) (W right : MId)
    (p result : Option MId) :
    Wp (sv.solve st en s J W right p result)
      (fun q => Frame (fun m => some m = result ∨ sv.Own m) sv.OwnS s q.1) anyErr := by
  cases sv with
  | gs n d =>
    exact fr_gsSolve st en (Frame.refl _ _ s) n d J W right p result
      (fun r h => Or.inl h.symm) (Or.inr rfl) rfl
  | ge =>
    exact fr_geSolve st en (Frame.refl _ _ s) J W right p result
      (fun r h => Or.inl h.symm) (Or.inr (Or.inl rfl)) (Or.inr (Or.inr rfl)) rfl
  | cg n e1 e2 =>
    exact fr_cgSolve st en (Frame.refl _ _ s) n e1 e2 J W right p result
      (fun r h => Or.inl h.symm) ⟨Or.inr (by simp [Own]), Or.inr (by simp [Own]),
        Or.inr (by simp [Own]), Or.inr (by simp [Own]), Or.inr (by simp [Own]),
        Or.inr (by simp [Own])⟩

theorem Solver.fr_solveL (st en : Nat) (sv : Solver α) (J : SId) (W right limits : MId)
    (result p : Option MId) :
    Wp (sv.solveL st en s J W right limits result p)
      (fun q => Frame (fun m => some m = result ∨ sv.Own m) sv.OwnS s q.1) anyErr := by
  cases sv with
  | gs n d =>
    exact fr_gsSolveL st en (Frame.refl _ _ s) n d J W right limits result p
      (fun r h => Or.inl h.symm) (Or.inr rfl) rfl
  | ge => exact Frame.refl _ _ s
  | cg n e1 e2 => exact Frame.refl _ _ s

end

end Scs
