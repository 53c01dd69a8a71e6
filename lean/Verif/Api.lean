import Verif.SparseScale

/-!
# Programs over the matrix classes

The public functions of `Matrix` and `SparseMatrix` as an alphabet of calls on a store of matrix
objects, and the states reachable by any finite sequence of calls.
-/

namespace Scs

set_option linter.unusedSectionVars false

/-- A call of a public function of `Matrix` (include/matrix.h:8-68) or `SparseMatrix`
(include/sparse_matrix.h:17-268). Constructors are named like the model functions. -/
inductive Call (α : Type) where
  | get (a : MId) (c r : Nat)
  | set (t : MId) (c r : Nat) (v : α)
  | addAt (t : MId) (c r : Nat) (v : α)
  | rowSwap (t : MId) (a b : Nat)
  | destroy (t : MId)
  | dtor (t : MId)
  | resize (t : MId) (w h : Nat)
  | init (t : MId) (w h : Nat) (v : α)
  | init0 (t : MId) (w h : Nat)
  | setData (t : MId) (src : Buf α)
  | setMatFrom (t ref : MId)
  | multiply (a b t : MId)
  | componentMultiply (a b t : MId)
  | transposeMultiply (a b t : MId)
  | leftScale (a sc t : MId)
  | rightScale (a sc t : MId)
  | scale (a : MId) (c : α) (t : MId)
  | subtract (a b t : MId)
  | addM (a b t : MId)
  | negate (a t : MId)
  | equals (a b : MId) (err : α)
  | vms (a : MId)
  | dot (a b : MId)
  | madd (a b : MId) (c : α)
  | pmadd (a b : MId) (c : α)
  | transpose (a t : MId)
  | sdestroy (t : SId)
  | sdtor (t : SId)
  | sresize (t : SId) (w h : Nat)
  | sinit (t : SId) (w h : Nat)
  | setBlock (t : SId) (row entry : Nat) (index : Int)
  | sset (t : SId) (row entry slice : Nat) (v : α)
  | sget (t : SId) (row entry slice : Nat)
  | setEmpty (t : SId) (row col : Nat)
  | expand (a : SId) (t : MId)
  | expandTransposed (a : SId) (t : MId)
  | multiplyTranspose (a b : SId) (t : MId)
  | transposeMultiplyVector (a : SId) (b t : MId)
  | smultiply (a : SId) (b t : MId)
  | srightScale (a : SId) (sc : MId) (t : SId)
  | sleftScale (a : SId) (sc : MId) (t : SId)

section
variable {α : Type} [Zero α] [Add α] [Mul α] [Sub α] [Neg α] [Fp α]

/-- Execution of a call; the value of a query is dropped. Dispatch only: each case is the function
cited at its definition. -/
def run (st en : Nat) : Call α → Store α → Exec (Store α)
  | .get a c r, s => do let _ ← s.get a c r; pure s
  | .set t c r v, s => s.set t c r v
  | .addAt t c r v, s => s.addAt t c r v
  | .rowSwap t a b, s => s.rowSwap t a b
  | .destroy t, s => s.destroy t
  | .dtor t, s => do let _ ← s.dtor t; pure s
  | .resize t w h, s => s.resize t w h
  | .init t w h v, s => s.init t w h v
  | .init0 t w h, s => s.init0 t w h
  | .setData t src, s => s.setData t src
  | .setMatFrom t ref, s => s.setMatFrom t ref
  | .multiply a b t, s => s.multiply a b t
  | .componentMultiply a b t, s => s.componentMultiply a b t
  | .transposeMultiply a b t, s => s.transposeMultiply a b t
  | .leftScale a sc t, s => s.leftScale a sc t
  | .rightScale a sc t, s => s.rightScale a sc t
  | .scale a c t, s => s.scale a c t
  | .subtract a b t, s => s.subtract a b t
  | .addM a b t, s => s.addM a b t
  | .negate a t, s => s.negate a t
  | .equals a b err, s => do let _ ← s.equals a b err; pure s
  | .vms a, s => do let _ ← s.vectorMagnitudeSquared a; pure s
  | .dot a b, s => do let _ ← s.dot a b; pure s
  | .madd a b c, s => s.madd a b c
  | .pmadd a b c, s => s.pmadd a b c
  | .transpose a t, s => s.transpose a t
  | .sdestroy t, s => s.sdestroy t
  | .sdtor t, s => do let _ ← s.sdtor t; pure s
  | .sresize t w h, s => s.sresize st en t w h
  | .sinit t w h, s => s.sinit st en t w h
  | .setBlock t row entry index, s => s.setBlock en t row entry index
  | .sset t row entry slice v, s => s.sset st en t row entry slice v
  | .sget t row entry slice, s => do let _ ← s.sget st en t row entry slice; pure s
  | .setEmpty t row col, s => s.setEmpty st en t row col
  | .expand a t, s => s.expand st en a t
  | .expandTransposed a t, s => s.expandTransposed st en a t
  | .multiplyTranspose a b t, s => s.multiplyTranspose st en a b t
  | .transposeMultiplyVector a b t, s => s.transposeMultiplyVector st en a b t
  | .smultiply a b t, s => s.smultiply st en a b t
  | .srightScale a sc t, s => s.srightScale st en a sc t
  | .sleftScale a sc t, s => s.sleftScale st en a sc t

/-- All objects freshly constructed; memory contents arbitrary. -/
def Store.fresh (junk : Nat → Nat → α) (junkB : Nat → Nat → Nat) : Store α :=
  ⟨fun _ => Mat.empty, fun _ => SMat.empty, junk, junkB, 0⟩

/-- `fastRowSwap` has no bounds check, its documented use is with rows of the matrix. This is the
only restriction put on the programs considered. -/
def RowSwapOk : Call α → Store α → Prop
  | .rowSwap t a b, s => a < (s.mat t).height ∧ b < (s.mat t).height
  | _, _ => True

/-- A class of programs: without `fastRowSwap` on the matrices in `plain` and without `destroy` of
the sparse matrices in `kept`. -/
structure Restr where
  plain : MId → Prop
  kept : SId → Prop

/-- All programs. -/
def Restr.none : Restr := ⟨fun _ => False, fun _ => False⟩

/-- The call belongs to the class of programs. -/
def NoSwap (P : Restr) : Call α → Prop
  | .rowSwap t _ _ => ¬ P.plain t
  | .sdestroy t => ¬ P.kept t
  | _ => True

/-- States reachable from freshly constructed objects by any finite sequence of successful calls,
with any aliasing, for any contents of fresh memory, of the class `P`. -/
inductive ReachableNS (st en : Nat) (P : Restr) : Store α → Prop where
  | fresh (junk : Nat → Nat → α) (junkB : Nat → Nat → Nat) :
      ReachableNS st en P (Store.fresh junk junkB)
  | call {s s' : Store α} (c : Call α) : ReachableNS st en P s → RowSwapOk c s → NoSwap P c →
      run st en c s = .ok s' → ReachableNS st en P s'

/-- States reachable by any finite sequence of successful calls. -/
abbrev Reachable (st en : Nat) (s : Store α) : Prop := ReachableNS st en Restr.none s

/-- The preconditions under which a call is memory safe. Every condition not listed is `True`. -/
def SafeCall : Call α → Store α → Prop
  | .rowSwap t a b, s => a < (s.mat t).height ∧ b < (s.mat t).height
  | .setData t src, s => (s.mat t).width * (s.mat t).height ≤ src.size
  | .multiply a b t, s => (t ≠ a ∧ t ≠ b) ∨
      ((s.mat t).width = (s.mat b).width ∧ (s.mat t).height = (s.mat a).height)
  | .transposeMultiply a b t, s => (t ≠ a ∧ t ≠ b) ∨
      ((s.mat t).width = (s.mat b).width ∧ (s.mat t).height = (s.mat a).width)
  | .transpose a t, s => t ≠ a ∨ (s.mat a).width = (s.mat a).height
  | .rightScale a sc t, s => t ≠ sc ∨ (s.mat a).width ≤ (s.mat a).height
  | .vms a, s => (s.mat a).Plain
  | .dot a b, s => (s.mat a).Plain ∧ (s.mat b).Plain
  | .sresize t _ h, s => (s.smat t).Fresh ∨ h = 0 ∨ (s.smat t).capH < h
  | .sinit t _ h, s => (s.smat t).Fresh ∨ h = 0 ∨ (s.smat t).capH < h
  | .srightScale a _ t, s =>
      (s.smat t).Fresh ∨ (s.smat a).height = 0 ∨ (s.smat t).capH < (s.smat a).height
  | .sleftScale a _ t, s =>
      (s.smat t).Fresh ∨ (s.smat a).height = 0 ∨ (s.smat t).capH < (s.smat a).height
  | _, _ => True

end

section
variable {α : Type} [Zero α]

/-- Representation invariant of all objects; the rows of the matrices in `P.plain` are in order,
the sparse matrices in `P.kept` were never destroyed. -/
structure Inv (st en : Nat) (P : Restr) (s : Store α) : Prop where
  mat : ∀ i, (s.mat i).WF
  plain : ∀ i, P.plain i → (s.mat i).Plain
  smat : ∀ i, (s.smat i).WF st en
  fresh : ∀ i, P.kept i → (s.smat i).Fresh

/-- Equal up to matrix contents. -/
structure Same (s s' : Store α) : Prop where
  mat : ∀ i, (s.mat i).SameShape (s'.mat i)
  smat : ∀ i, (s.smat i).SameShape (s'.smat i)

theorem Same.refl (s : Store α) : Same s s :=
  ⟨fun _ => Mat.SameShape.refl _, fun _ => SMat.SameShape.refl _⟩

theorem Same.trans {a b c : Store α} (h : Same a b) (h' : Same b c) : Same a c :=
  ⟨fun i => (h.mat i).trans (h'.mat i), fun i => (h.smat i).trans (h'.smat i)⟩

theorem Same.inv {st en : Nat} {s s' : Store α} (h : Same s s') (i : Inv st en P s) : Inv st en P s' :=
  ⟨fun x => (h.mat x).wf (i.mat x), fun x hx => (h.mat x).plain (i.plain x hx),
    fun x => (h.smat x).wf (i.smat x), fun x hx => (h.smat x).fresh (i.fresh x hx)⟩

theorem Same.of_setMat {s : Store α} {t : MId} {m : Mat α} (h : (s.mat t).SameShape m) :
    Same s (s.setMat t m) := by
  refine ⟨fun i => ?_, fun i => SMat.SameShape.refl _⟩
  by_cases hi : i = t
  · subst hi; simpa using h
  · rw [show (s.setMat t m).mat i = s.mat i from upd_other _ _ hi]
    exact Mat.SameShape.refl _

theorem Same.of_setSMat {s : Store α} {t : SId} {m : SMat α} (h : (s.smat t).SameShape m) :
    Same s (s.setSMat t m) := by
  refine ⟨fun i => Mat.SameShape.refl _, fun i => ?_⟩
  by_cases hi : i = t
  · subst hi; simpa using h
  · rw [show (s.setSMat t m).smat i = s.smat i from upd_other _ _ hi]
    exact SMat.SameShape.refl _

theorem Inv.of_only {st en : Nat} {s s' : Store α} {t : MId} (i : Inv st en P s) (h : Only t s s')
    (wf : (s'.mat t).WF) (pl : P.plain t → (s'.mat t).Plain) : Inv st en P s' := by
  refine ⟨fun x => ?_, fun x hp => ?_, fun x => ?_, fun x hp => ?_⟩
  · by_cases hx : x = t
    · subst hx; exact wf
    · rw [h.mat x hx]; exact i.mat x
  · by_cases hx : x = t
    · subst hx; exact pl hp
    · rw [h.mat x hx]; exact i.plain x hp
  · rw [h.smat]; exact i.smat x
  · rw [h.smat]; exact i.fresh x hp

theorem Inv.of_onlyS {st en : Nat} {s s' : Store α} {t : SId} (i : Inv st en P s) (h : OnlyS t s s')
    (wf : (s'.smat t).WF st en) (fr : P.kept t → (s'.smat t).Fresh) : Inv st en P s' := by
  refine ⟨fun x => ?_, fun x hp => ?_, fun x => ?_, fun x hp => ?_⟩
  · rw [h.mat]; exact i.mat x
  · rw [h.mat]; exact i.plain x hp
  · by_cases hx : x = t
    · subst hx; exact wf
    · rw [h.smat x hx]; exact i.smat x
  · by_cases hx : x = t
    · subst hx; exact fr hp
    · rw [h.smat x hx]; exact i.fresh x hp

theorem wp_any {σ : Type} (x : Exec σ) : Wp x (fun _ => True) anyErr := by
  cases x <;> trivial

theorem Wp.and_left {σ : Type} {x : Exec σ} {Q R : σ → Prop} {E : Err → Prop}
    (h : Wp x Q E) (h' : Wp x R anyErr) : Wp x (fun s => Q s ∧ R s) E := by
  cases x with
  | ok s => exact ⟨h, h'⟩
  | error e => exact h

theorem noErr_le {E : Err → Prop} (e : Err) (h : noErr e) : E e := h.elim

/-- A successful value is safe for every error predicate. -/
theorem Wp.of_ok {σ : Type} {x : Exec σ} {s : σ} {Q : σ → Prop} {E : Err → Prop} (h : x = .ok s)
    (q : Q s) : Wp x Q E := by rw [h]; exact q

theorem Store.store_any (s : Store α) (t : MId) (r c : Nat) (v : α) :
    Wp (s.store t r c v) (Same s) anyErr := by
  unfold Store.store
  cases h : (s.mat t).store r c v with
  | error e => trivial
  | ok m => exact Same.of_setMat (Mat.store_shape h)

theorem SMat.store_shape {m : SMat α} {r c : Nat} {v : α} :
    Wp (m.store r c v) (fun m' => m.SameShape m') anyErr := by
  unfold SMat.store
  cases hr : m.rows with
  | none => trivial
  | some rb =>
    simp only [deref, ok_bind]
    cases hp : rb.rd r with
    | error e => trivial
    | ok p =>
      rw [ok_bind]
      cases p with
      | none => trivial
      | some off =>
        simp only [initd, ok_bind]
        cases hd : m.data with
        | none => trivial
        | some db =>
          simp only [ok_bind, Buf.wr]
          split
          · exact ⟨hr.symm, rfl, rfl, rfl, by simp [hd], rfl⟩
          · trivial

theorem SMat.putBlock_shape {m : SMat α} {i b : Nat} :
    Wp (m.putBlock i b) (fun m' => m.SameShape m') anyErr := by
  unfold SMat.putBlock
  cases hb : m.blocks with
  | none => trivial
  | some bb =>
    simp only [deref, ok_bind, Buf.wr]
    split
    · exact ⟨rfl, rfl, rfl, rfl, rfl, by simp [hb]⟩
    · trivial

/-- A loop body that only changes contents. -/
theorem wp_forN_same {st en : Nat} {n : Nat} {f : Nat → Store α → Exec (Store α)} {s : Store α}
    {E : Err → Prop} (hi : Inv st en P s)
    (h : ∀ i, i < n → ∀ s', Inv st en P s' → Same s s' → Wp (f i s') (Same s') E) :
    Wp (forN n f s) (Same s) E :=
  wp_forN (I := fun _ => Same s) (Same.refl s) (fun i hlt s' hs' =>
    (h i hlt s' (hs'.inv hi) hs').imp (fun _ h2 => hs'.trans h2))

theorem Inv.load_ok {st en : Nat} {s : Store α} (hi : Inv st en P s) {a : MId} {r c : Nat}
    (hr : r < (s.mat a).height) (hc : c < (s.mat a).width) {E : Err → Prop} :
    Wp (s.load a r c) (fun _ => True) E := by
  rw [Store.load, (hi.mat a).load_eq hr hc]; trivial

theorem Inv.store_ok {st en : Nat} {s : Store α} (hi : Inv st en P s) {t : MId} {r c : Nat}
    (hr : r < (s.mat t).height) (hc : c < (s.mat t).width) (v : α) {E : Err → Prop} :
    Wp (s.store t r c v) (Same s) E := by
  obtain ⟨m', e, h, _⟩ := (hi.mat t).store_spec hr hc v
  rw [Store.store, e]
  exact Same.of_setMat h

theorem Inv.get_safe {st en : Nat} {s : Store α} (hi : Inv st en P s) (a : MId) (c r : Nat) :
    Wp (s.get a c r) (fun _ => True) Err.IsAssert := by
  rw [Store.get, wp_bind, wp_chk]
  refine ⟨fun hc => ?_, fun _ => trivial⟩
  rw [wp_bind, wp_chk]
  exact ⟨fun hr => hi.load_ok hr hc, fun _ => trivial⟩

theorem Inv.set_safe {st en : Nat} {s : Store α} (hi : Inv st en P s) (t : MId) (c r : Nat) (v : α) :
    Wp (s.set t c r v) (Same s) Err.IsAssert := by
  rw [Store.set, wp_bind, wp_chk]
  refine ⟨fun hc => ?_, fun _ => trivial⟩
  rw [wp_bind, wp_chk]
  exact ⟨fun hr => hi.store_ok hr hc v, fun _ => trivial⟩

theorem Inv.addAt_safe [Add α] {st en : Nat} {s : Store α} (hi : Inv st en P s) (t : MId) (c r : Nat)
    (v : α) : Wp (s.addAt t c r v) (Same s) Err.IsAssert := by
  rw [Store.addAt, wp_bind, wp_chk]
  refine ⟨fun hc => ?_, fun _ => trivial⟩
  rw [wp_bind, wp_chk]
  refine ⟨fun hr => ?_, fun _ => trivial⟩
  rw [wp_bind]
  exact (hi.load_ok hr hc).imp (fun x _ => hi.store_ok hr hc _)

/-- The fill loop keeps all shapes, whatever it reads. -/
theorem Store.fill_any (s : Store α) (t : MId) (h w : Nat) (f : Store α → Nat → Nat → Exec α) :
    Wp (s.fill t h w f) (Same s) anyErr := by
  unfold Store.fill
  refine wp_forN (I := fun _ => Same s) (Same.refl s) (fun i _ s1 h1 => ?_)
  refine wp_forN (I := fun _ => Same s) h1 (fun j _ s2 h2 => ?_)
  rw [wp_bind]
  exact (wp_any _).imp (fun v _ => (Store.store_any s2 t i j v).imp (fun _ h => h2.trans h))

/-- The fill loop is safe if it stays inside the target and what it reads is safe. -/
theorem Inv.fill_safe {st en : Nat} {s : Store α} (hi : Inv st en P s) {t : MId} {h w : Nat}
    {f : Store α → Nat → Nat → Exec α} (hh : h ≤ (s.mat t).height) (hw : w ≤ (s.mat t).width)
    (hf : ∀ s', Inv st en P s' → Same s s' → ∀ i, i < h → ∀ j, j < w →
      Wp (f s' i j) (fun _ => True) Err.IsAssert) :
    Wp (s.fill t h w f) (Same s) Err.IsAssert := by
  unfold Store.fill
  refine wp_forN (I := fun _ => Same s) (Same.refl s) (fun i hlt s1 h1 => ?_)
  refine wp_forN (I := fun _ => Same s) h1 (fun j hj s2 h2 => ?_)
  rw [wp_bind]
  refine (hf s2 (h2.inv hi) h2 i hlt j hj).imp (fun v _ => ?_)
  refine ((h2.inv hi).store_ok (by rw [(h2.mat t).height]; omega)
    (by rw [(h2.mat t).width]; omega) v).imp (fun _ h => h2.trans h)

/-- `resize`, for the invariant. -/
theorem Inv.resize {st en : Nat} {s : Store α} (hi : Inv st en P s) (t : MId) (w h : Nat) :
    ∃ s', s.resize t w h = .ok s' ∧ Inv st en P s' ∧ Only t s s' ∧ (s'.mat t).width = w ∧
      (s'.mat t).height = h ∧
      (∀ x, (s.mat x).width = w → (s.mat x).height = h → s'.mat x = s.mat x) := by
  obtain ⟨s', e, o, wf, hw, hh, hp, hx⟩ := Store.resize_spec2 s t w h (hi.mat t)
  exact ⟨s', e, hi.of_only o wf (fun p => hp (hi.plain t p)), o, hw, hh, hx⟩

theorem Inv.init0 {st en : Nat} {s : Store α} (hi : Inv st en P s) (t : MId) (w h : Nat) :
    ∃ s', s.init0 t w h = .ok s' ∧ Inv st en P s' ∧ Only t s s' ∧ (s'.mat t).width = w ∧
      (s'.mat t).height = h := by
  obtain ⟨s', e, h⟩ := Store.init0_spec s t w h (hi.mat t)
  exact ⟨s', e, hi.of_only h.only h.wf (fun p => h.plain (hi.plain _ p)), h.only, h.width, h.height⟩

/-! ## Safety of the dense functions -/

theorem load2_safe {st en : Nat} {s : Store α} (hi : Inv st en P s) {a b : MId} {r c r' c' : Nat}
    (h1 : r < (s.mat a).height) (h2 : c < (s.mat a).width) (h3 : r' < (s.mat b).height)
    (h4 : c' < (s.mat b).width) (op : α → α → α) {E : Err → Prop} :
    Wp (do let x ← s.load a r c; let y ← s.load b r' c'; pure (op x y)) (fun _ => True) E := by
  rw [wp_bind]
  refine (hi.load_ok h1 h2).imp (fun x _ => ?_)
  rw [wp_bind]
  exact (hi.load_ok h3 h4).imp (fun y _ => trivial)

theorem Inv.map1_safe {st en : Nat} {s : Store α} (hi : Inv st en P s) (a t : MId) (op : α → α) :
    Wp (do
      let s ← s.resize t (s.mat a).width (s.mat a).height
      s.fill t (s.mat a).height (s.mat a).width (fun s i j => do
        let x ← s.load a i j
        pure (op x))) (Inv st en P) Err.IsAssert := by
  obtain ⟨s1, e1, i1, o1, w1, h1, hx⟩ := hi.resize t (s.mat a).width (s.mat a).height
  rw [e1, ok_bind]
  have ha := hx a rfl rfl
  refine (i1.fill_safe (by rw [ha, h1]) (by rw [ha, w1]) ?_).imp (fun _ h => h.inv i1)
  intro s' hi' hs i hii j hj
  rw [wp_bind]
  exact (hi'.load_ok (by rw [(hs.mat a).height]; exact hii)
    (by rw [(hs.mat a).width]; exact hj)).imp (fun _ _ => trivial)

theorem Inv.map2_safe {st en : Nat} {s : Store α} (hi : Inv st en P s) (a b t : MId)
    (op : α → α → α) (hw : (s.mat b).width = (s.mat a).width)
    (hh : (s.mat b).height = (s.mat a).height) :
    Wp (do
      let s ← s.resize t (s.mat a).width (s.mat a).height
      s.fill t (s.mat a).height (s.mat a).width (fun s i j => do
        let x ← s.load a i j
        let y ← s.load b i j
        pure (op x y))) (Inv st en P) Err.IsAssert := by
  obtain ⟨s1, e1, i1, o1, w1, h1, hx⟩ := hi.resize t (s.mat a).width (s.mat a).height
  rw [e1, ok_bind]
  have ha := hx a rfl rfl
  have hb := hx b hw hh
  refine (i1.fill_safe (by rw [ha, h1]) (by rw [ha, w1]) ?_).imp (fun _ h => h.inv i1)
  intro s' hi' hs i hii j hj
  exact load2_safe hi' (by rw [(hs.mat a).height]; exact hii) (by rw [(hs.mat a).width]; exact hj)
    (by rw [(hs.mat b).height, hb, hh, ← ha]; exact hii)
    (by rw [(hs.mat b).width, hb, hw, ← ha]; exact hj) op

/-- Products: the inner loop of `multiply` and `transposeMultiply`. -/
theorem forN_safe {n : Nat} {g : Nat → α → Exec α} {v : α}
    {E : Err → Prop} (h : ∀ i, i < n → ∀ v, Wp (g i v) (fun _ => True) E) :
    Wp (forN n g v) (fun _ => True) E :=
  wp_forN (I := fun _ _ => True) trivial (fun i hi v _ => h i hi v)

theorem Inv.multiply_any [Add α] [Mul α] {st en : Nat} {s : Store α} (hi : Inv st en P s)
    (a b t : MId) : Wp (s.multiply a b t) (Inv st en P) anyErr := by
  rw [Store.multiply, wp_bind, wp_chk]
  refine ⟨fun _ => ?_, fun _ => trivial⟩
  obtain ⟨s1, e1, i1, _⟩ := hi.resize t (s.mat b).width (s.mat a).height
  rw [e1, ok_bind]
  exact (Store.fill_any s1 t _ _ _).imp (fun _ h => h.inv i1)

theorem Inv.multiply_safe [Add α] [Mul α] {st en : Nat} {s : Store α} (hi : Inv st en P s)
    (a b t : MId) (hs : (t ≠ a ∧ t ≠ b) ∨
      ((s.mat t).width = (s.mat b).width ∧ (s.mat t).height = (s.mat a).height)) :
    Wp (s.multiply a b t) (Inv st en P) Err.IsAssert := by
  rw [Store.multiply, wp_bind, wp_chk]
  refine ⟨fun hd => ?_, fun _ => trivial⟩
  obtain ⟨s1, e1, i1, o1, w1, h1, hx⟩ := hi.resize t (s.mat b).width (s.mat a).height
  rw [e1, ok_bind]
  have ha : s1.mat a = s.mat a := by
    by_cases hat : a = t
    · subst hat
      rcases hs with h | h
      · exact absurd rfl h.1
      · exact hx a h.1 h.2
    · exact o1.mat a hat
  have hb : s1.mat b = s.mat b := by
    by_cases hbt : b = t
    · subst hbt
      rcases hs with h | h
      · exact absurd rfl h.2
      · exact hx b h.1 h.2
    · exact o1.mat b hbt
  refine (i1.fill_safe (by rw [ha, h1]) (by rw [hb, w1]) ?_).imp (fun _ h => h.inv i1)
  intro s' hi' hs i hii j hj
  refine forN_safe (fun ii hk v => ?_)
  rw [wp_bind]
  refine (load2_safe hi' (by rw [(hs.mat a).height]; exact hii)
    (by rw [(hs.mat a).width]; exact hk) (by rw [(hs.mat b).height, hb, ← hd, ← ha]; exact hk)
    (by rw [(hs.mat b).width]; exact hj) (· * ·)).imp (fun _ _ => trivial)

theorem Inv.transposeMultiply_any [Add α] [Mul α] {st en : Nat} {s : Store α} (hi : Inv st en P s)
    (a b t : MId) : Wp (s.transposeMultiply a b t) (Inv st en P) anyErr := by
  rw [Store.transposeMultiply, wp_bind, wp_chk]
  refine ⟨fun _ => ?_, fun _ => trivial⟩
  obtain ⟨s1, e1, i1, _⟩ := hi.resize t (s.mat b).width (s.mat a).width
  rw [e1, ok_bind]
  exact (Store.fill_any s1 t _ _ _).imp (fun _ h => h.inv i1)

theorem Inv.transposeMultiply_safe [Add α] [Mul α] {st en : Nat} {s : Store α} (hi : Inv st en P s)
    (a b t : MId) (hs : (t ≠ a ∧ t ≠ b) ∨
      ((s.mat t).width = (s.mat b).width ∧ (s.mat t).height = (s.mat a).width)) :
    Wp (s.transposeMultiply a b t) (Inv st en P) Err.IsAssert := by
  rw [Store.transposeMultiply, wp_bind, wp_chk]
  refine ⟨fun hd => ?_, fun _ => trivial⟩
  obtain ⟨s1, e1, i1, o1, w1, h1, hx⟩ := hi.resize t (s.mat b).width (s.mat a).width
  rw [e1, ok_bind]
  have ha : s1.mat a = s.mat a := by
    by_cases hat : a = t
    · subst hat
      rcases hs with h | h
      · exact absurd rfl h.1
      · exact hx a h.1 h.2
    · exact o1.mat a hat
  have hb : s1.mat b = s.mat b := by
    by_cases hbt : b = t
    · subst hbt
      rcases hs with h | h
      · exact absurd rfl h.2
      · exact hx b h.1 h.2
    · exact o1.mat b hbt
  refine (i1.fill_safe (by rw [ha, h1]) (by rw [hb, w1]) ?_).imp (fun _ h => h.inv i1)
  intro s' hi' hs i hii j hj
  refine forN_safe (fun ii hk v => ?_)
  rw [wp_bind]
  refine (load2_safe hi' (by rw [(hs.mat a).height]; exact hk)
    (by rw [(hs.mat a).width]; exact hii) (by rw [(hs.mat b).height, hb, ← hd, ← ha]; exact hk)
    (by rw [(hs.mat b).width]; exact hj) (· * ·)).imp (fun _ _ => trivial)

theorem Inv.transpose_any {st en : Nat} {s : Store α} (hi : Inv st en P s)
    (a t : MId) : Wp (s.transpose a t) (Inv st en P) anyErr := by
  obtain ⟨s1, e1, i1, _⟩ := hi.resize t (s.mat a).height (s.mat a).width
  rw [Store.transpose, e1, ok_bind]
  exact (Store.fill_any s1 t _ _ _).imp (fun _ h => h.inv i1)

theorem Inv.transpose_safe {st en : Nat} {s : Store α} (hi : Inv st en P s)
    (a t : MId) (hs : t ≠ a ∨ (s.mat a).width = (s.mat a).height) :
    Wp (s.transpose a t) (Inv st en P) Err.IsAssert := by
  obtain ⟨s1, e1, i1, o1, w1, h1, hx⟩ := hi.resize t (s.mat a).height (s.mat a).width
  rw [Store.transpose, e1, ok_bind]
  have ha : s1.mat a = s.mat a := by
    by_cases hat : a = t
    · subst hat
      rcases hs with h | h
      · exact absurd rfl h
      · exact hx a h h.symm
    · exact o1.mat a hat
  refine (i1.fill_safe (by rw [ha, h1]) (by rw [ha, w1]) ?_).imp (fun _ h => h.inv i1)
  intro s' hi' hs i hii j hj
  exact hi'.load_ok (by rw [(hs.mat a).height]; exact hj) (by rw [(hs.mat a).width]; exact hii)

theorem Inv.leftScale_safe [Mul α] {st en : Nat} {s : Store α} (hi : Inv st en P s)
    (a sc t : MId) : Wp (s.leftScale a sc t) (Inv st en P) Err.IsAssert := by
  rw [Store.leftScale, wp_bind, wp_chk]
  refine ⟨fun hd1 => ?_, fun _ => trivial⟩
  rw [wp_bind, wp_chk]
  refine ⟨fun hd2 => ?_, fun _ => trivial⟩
  obtain ⟨s1, e1, i1, o1, w1, h1, hx⟩ := hi.resize t (s.mat a).width (s.mat a).height
  rw [e1, ok_bind]
  have ha := hx a rfl rfl
  refine (i1.fill_safe (by rw [ha, h1]) (by rw [ha, w1]) ?_).imp (fun _ h => h.inv i1)
  intro s' hi' hs i hii j hj
  have hsc : i < (s1.mat sc).height ∧ 0 < (s1.mat sc).width := by
    rw [ha] at hii hj
    by_cases hst : sc = t
    · subst hst; exact ⟨by omega, by omega⟩
    · rw [o1.mat sc hst]; exact ⟨by omega, by omega⟩
  exact load2_safe hi' (by rw [(hs.mat sc).height]; exact hsc.1)
    (by rw [(hs.mat sc).width]; exact hsc.2) (by rw [(hs.mat a).height]; exact hii)
    (by rw [(hs.mat a).width]; exact hj) (· * ·)

theorem Inv.rightScale_any [Mul α] {st en : Nat} {s : Store α} (hi : Inv st en P s)
    (a sc t : MId) : Wp (s.rightScale a sc t) (Inv st en P) anyErr := by
  rw [Store.rightScale, wp_bind, wp_chk]
  refine ⟨fun _ => ?_, fun _ => trivial⟩
  rw [wp_bind, wp_chk]
  refine ⟨fun _ => ?_, fun _ => trivial⟩
  obtain ⟨s1, e1, i1, _⟩ := hi.resize t (s.mat a).width (s.mat a).height
  rw [e1, ok_bind]
  exact (Store.fill_any s1 t _ _ _).imp (fun _ h => h.inv i1)

theorem Inv.rightScale_safe [Mul α] {st en : Nat} {s : Store α} (hi : Inv st en P s)
    (a sc t : MId) (hs : t ≠ sc ∨ (s.mat a).width ≤ (s.mat a).height) :
    Wp (s.rightScale a sc t) (Inv st en P) Err.IsAssert := by
  rw [Store.rightScale, wp_bind, wp_chk]
  refine ⟨fun hd1 => ?_, fun _ => trivial⟩
  rw [wp_bind, wp_chk]
  refine ⟨fun hd2 => ?_, fun _ => trivial⟩
  obtain ⟨s1, e1, i1, o1, w1, h1, hx⟩ := hi.resize t (s.mat a).width (s.mat a).height
  rw [e1, ok_bind]
  have ha := hx a rfl rfl
  refine (i1.fill_safe (by rw [ha, h1]) (by rw [ha, w1]) ?_).imp (fun _ h => h.inv i1)
  intro s' hi' hs' i hii j hj
  have hsc : j < (s1.mat sc).height ∧ 0 < (s1.mat sc).width := by
    rw [ha] at hii hj
    by_cases hst : sc = t
    · subst hst
      rcases hs with h | h
      · exact absurd rfl h
      · exact ⟨by omega, by omega⟩
    · rw [o1.mat sc hst]; exact ⟨by omega, by omega⟩
  exact load2_safe hi' (by rw [(hs'.mat sc).height]; exact hsc.1)
    (by rw [(hs'.mat sc).width]; exact hsc.2) (by rw [(hs'.mat a).height]; exact hii)
    (by rw [(hs'.mat a).width]; exact hj) (· * ·)

theorem Inv.upd2_safe {st en : Nat} {s : Store α} (hi : Inv st en P s) (a b : MId)
    (op : α → α → α) (hw : (s.mat a).width = (s.mat b).width)
    (hh : (s.mat a).height = (s.mat b).height) :
    Wp (s.fill a (s.mat a).height (s.mat a).width (fun s i j => do
        let x ← s.load a i j
        let y ← s.load b i j
        pure (op x y))) (Inv st en P) Err.IsAssert := by
  refine (hi.fill_safe (Nat.le_refl _) (Nat.le_refl _) ?_).imp (fun _ h => h.inv hi)
  intro s' hi' hs i hii j hj
  exact load2_safe hi' (by rw [(hs.mat a).height]; exact hii) (by rw [(hs.mat a).width]; exact hj)
    (by rw [(hs.mat b).height, ← hh]; exact hii) (by rw [(hs.mat b).width, ← hw]; exact hj) op

theorem Inv.componentMultiply_safe [Mul α] {st en : Nat} {s : Store α} (hi : Inv st en P s)
    (a b t : MId) : Wp (s.componentMultiply a b t) (Inv st en P) Err.IsAssert := by
  rw [Store.componentMultiply, wp_bind, wp_chk]
  refine ⟨fun _ => ?_, fun _ => trivial⟩
  rw [wp_bind, wp_chk]
  refine ⟨fun _ => ?_, fun _ => trivial⟩
  obtain ⟨s1, e1, i1, _⟩ := hi.resize t (s.mat a).width (s.mat a).height
  rw [e1, ok_bind]
  refine Wp.imp (Q := Same s1) (wp_forN_same i1 (fun i _ s2 i2 _ => ?_)) (fun _ h => h.inv i1)
  refine wp_forN_same i2 (fun j _ s3 i3 _ => ?_)
  rw [wp_bind]
  refine (i3.get_safe a j i).imp (fun x _ => ?_)
  rw [wp_bind]
  exact (i3.get_safe b j i).imp (fun y _ => i3.set_safe t j i _)

theorem Inv.equals_safe [Sub α] [Fp α] {st en : Nat} {s : Store α} (hi : Inv st en P s)
    (a b : MId) (err : α) : Wp (s.equals a b err) (fun _ => True) Err.IsAssert := by
  rw [Store.equals]
  split
  · trivial
  · split
    · trivial
    · refine wp_forN (I := fun _ _ => True) trivial (fun i _ acc _ => ?_)
      refine wp_forN (I := fun _ _ => True) trivial (fun j _ acc _ => ?_)
      split
      · rw [wp_bind]
        refine (hi.get_safe a j i).imp (fun x _ => ?_)
        rw [wp_bind]
        exact (hi.get_safe b j i).imp (fun y _ => trivial)
      · trivial

theorem Inv.setData_any {st en : Nat} {s : Store α} (hi : Inv st en P s) (t : MId) (src : Buf α) :
    Wp (s.setData t src) (Inv st en P) anyErr := by
  rw [Store.setData, wp_bind]
  refine Wp.imp (Q := fun m => (s.mat t).SameShape m) ?_
    (fun m h => (Same.of_setMat h).inv hi)
  refine wp_forN (I := fun _ m => (s.mat t).SameShape m) (Mat.SameShape.refl _)
    (fun i _ m hm => ?_)
  cases src.rd i with
  | error e => trivial
  | ok v =>
    rw [ok_bind]
    cases hd : m.data with
    | none => trivial
    | some db =>
      simp only [deref, ok_bind, Buf.wr]
      split
      · exact hm.trans ⟨rfl, rfl, rfl, rfl, rfl, by simp [hd]⟩
      · trivial

/-! ## Safety of the sparse functions -/

theorem Inv.sload_ok {st en : Nat} {s : Store α} (hi : Inv st en P s) {a : SId} {r c : Nat}
    (hr : r < (s.smat a).height) (hc : c < en * st) {E : Err → Prop} :
    Wp ((s.smat a).load r c) (fun _ => True) E := by
  rw [(hi.smat a).load_eq hr hc]; trivial

/-- The sparse matrix can be resized to height `h`: it was not destroyed, or `h` is zero, or `h`
exceeds the capacity it remembers. -/
theorem Store.sresize_spec' {st en : Nat} {s : Store α} {t : SId} {w h : Nat}
    (wf : (s.smat t).WF st en) (hf : (s.smat t).Fresh ∨ h = 0 ∨ (s.smat t).capH < h) :
    ∃ s', s.sresize st en t w h = .ok s' ∧ OnlyS t s s' ∧ (s'.smat t).WF st en ∧
      (s'.smat t).width = w ∧ (s'.smat t).height = h ∧
      ((s.smat t).Fresh → (s'.smat t).Fresh) := by
  by_cases hfr : (s.smat t).Fresh
  · obtain ⟨s', e, o, wf', hf', hw, hh, _⟩ := Store.sresize_spec st en s t w h wf hfr
    exact ⟨s', e, o, wf', hw, hh, fun _ => hf'⟩
  · have hr : (s.smat t).rows = none := by
      by_contra hne
      exact hfr (fun h => absurd h hne)
    rcases wf with ⟨_, hd, hb, hht⟩ | ⟨rb, db, bb, h1, _⟩
    swap
    · rw [hr] at h1; cases h1
    rw [Store.sresize]
    simp only
    split
    · rename_i hsame
      exact ⟨s, rfl, OnlyS.refl _ _, Or.inl ⟨hr, hd, hb, hht⟩, hsame.1.symm, hsame.2.symm, id⟩
    · rename_i hsame
      split
      · rename_i hcap
        have hdes : (s.smat t).destroy = s.smat t := by rw [SMat.destroy, hr]
        rw [hdes]
        obtain ⟨rb', e', hs', hv⟩ := SMat.layout_spec (st := st) (en := en) (h := h)
          (m := { s.smat t with
            capH := if (s.smat t).capH < h then h else (s.smat t).capH,
            data := some ⟨st * en * (if (s.smat t).capH < h then h else (s.smat t).capH),
              s.junk s.tick⟩,
            rows := some ⟨if (s.smat t).capH < h then h else (s.smat t).capH, fun _ => none⟩,
            blocks := some ⟨(if (s.smat t).capH < h then h else (s.smat t).capH) * en,
              s.junkB s.tick⟩, width := w, height := h }) rfl rfl
          (by simp only [if_pos hcap]; omega)
        rw [e', ok_bind]
        refine ⟨_, rfl, ⟨rfl, fun a ha => upd_other _ _ ha, rfl, rfl⟩, ?_, ?_, ?_,
          fun h => absurd h hfr⟩
        · right
          simp only [Store.setSMat, upd_same]
          refine ⟨rb', _, _, rfl, rfl, rfl, hs', ?_, ?_, ?_, hv⟩
          · simp only [Nat.mul_comm st en]
          · simp only [Nat.mul_comm]
          · simp only [if_pos hcap]; omega
        · simp [Store.setSMat, upd_same]
        · simp [Store.setSMat, upd_same]
      · rename_i hcap
        have h0 : h = 0 := by
          rcases hf with h | h | h
          · exact absurd h hfr
          · exact h
          · exact absurd h hcap
        subst h0
        refine ⟨_, rfl, ⟨rfl, fun a ha => upd_other _ _ ha, rfl, rfl⟩, ?_, ?_, ?_,
          fun h => absurd h hfr⟩
        · left
          simp only [Store.setSMat, upd_same]
          simp [hr, hd, hb]
        · simp [Store.setSMat, upd_same]
        · simp [Store.setSMat, upd_same]

/-- Otherwise `resize` writes through the null row table. -/
theorem Store.sresize_null {st en : Nat} {s : Store α} {t : SId} {w h : Nat}
    (wf : (s.smat t).WF st en) (hf : ¬((s.smat t).Fresh ∨ h = 0 ∨ (s.smat t).capH < h)) :
    s.sresize st en t w h = .error .null := by
  have hr : (s.smat t).rows = none := by
    by_contra hne
    exact hf (Or.inl (fun h => absurd h hne))
  have hf2 : h ≠ 0 ∧ ¬ (s.smat t).capH < h := ⟨fun x => hf (Or.inr (Or.inl x)),
    fun x => hf (Or.inr (Or.inr x))⟩
  rcases wf with ⟨_, hd, hb, hht⟩ | ⟨rb, db, bb, h1, _⟩
  swap
  · rw [hr] at h1; cases h1
  rw [Store.sresize]
  simp only
  rw [if_neg (by omega), if_neg hf2.2]
  obtain ⟨k, rfl⟩ : ∃ k, h = k + 1 := ⟨h - 1, by omega⟩
  have key : ∀ (k : Nat) (m : SMat α), m.rows = none → m.layout st en (k + 1) = .error .null := by
    intro k m hm
    induction k with
    | zero => simp [SMat.layout, forN, hm, deref, ok_bind, error_bind]
    | succ k ih =>
      rw [SMat.layout, forN_succ]
      rw [SMat.layout] at ih
      rw [ih]; rfl
  rw [key k { s.smat t with width := w, height := k + 1 } hr]
  rfl

theorem Store.sresize_any {st en : Nat} {s : Store α} (hi : Inv st en P s) (t : SId) (w h : Nat) :
    Wp (s.sresize st en t w h) (fun s' => Inv st en P s' ∧ (s'.smat t).height = h) anyErr := by
  by_cases hf : (s.smat t).Fresh ∨ h = 0 ∨ (s.smat t).capH < h
  · obtain ⟨s', e, o, wf, _, hh, hf'⟩ := Store.sresize_spec' (w := w) (hi.smat t) hf
    rw [e]; exact ⟨hi.of_onlyS o wf (fun p => hf' (hi.fresh t p)), hh⟩
  · rw [Store.sresize_null (hi.smat t) hf]; trivial

theorem Store.sinit_any {st en : Nat} {s : Store α} (hi : Inv st en P s) (t : SId) (w h : Nat) :
    Wp (s.sinit st en t w h) (Inv st en P) anyErr := by
  rw [Store.sinit, wp_bind]
  refine (Store.sresize_any hi t w h).imp (fun s1 h1 => ?_)
  obtain ⟨m', e, hs, _⟩ := SMat.clear_spec (h1.1.smat t) (Nat.le_refl _)
  rw [e, ok_bind]
  exact (Same.of_setSMat hs).inv h1.1

theorem Inv.sinit_ok {st en : Nat} {s : Store α} (hi : Inv st en P s) {t : SId} {w h : Nat}
    (hf : (s.smat t).Fresh ∨ h = 0 ∨ (s.smat t).capH < h) :
    ∃ s', s.sinit st en t w h = .ok s' ∧ Inv st en P s' := by
  obtain ⟨s1, e1, o1, wf1, _, hh, hf1⟩ := Store.sresize_spec' (w := w) (hi.smat t) hf
  obtain ⟨m', e, hs, _⟩ := SMat.clear_spec wf1 (Nat.le_refl _)
  refine ⟨s1.setSMat t m', ?_, (Same.of_setSMat hs).inv
    (hi.of_onlyS o1 wf1 (fun p => hf1 (hi.fresh t p)))⟩
  rw [Store.sinit, e1, ok_bind, e]; rfl

theorem Inv.setBlock_safe {st en : Nat} {s : Store α} (hi : Inv st en P s) (t : SId)
    (row entry : Nat) (index : Int) :
    Wp (s.setBlock en t row entry index) (Same s) Err.IsAssert := by
  rw [Store.setBlock, wp_bind, wp_chk]
  refine ⟨fun hr => ?_, fun _ => trivial⟩
  rw [wp_bind, wp_chk]
  refine ⟨fun he => ?_, fun _ => trivial⟩
  rw [wp_bind, wp_chk]
  refine ⟨fun _ => ?_, fun _ => trivial⟩
  obtain ⟨m', e, h1, _⟩ := (hi.smat t).putBlock_spec hr he (index % 256).toNat
  rw [e, ok_bind]
  exact Same.of_setSMat h1

theorem Inv.sset_safe {st en : Nat} {s : Store α} (hi : Inv st en P s) (t : SId)
    (row entry slice : Nat) (v : α) :
    Wp (s.sset st en t row entry slice v) (Same s) Err.IsAssert := by
  rw [Store.sset, wp_bind, wp_chk]
  refine ⟨fun hr => ?_, fun _ => trivial⟩
  rw [wp_bind, wp_chk]
  refine ⟨fun he => ?_, fun _ => trivial⟩
  rw [wp_bind, wp_chk]
  refine ⟨fun hs => ?_, fun _ => trivial⟩
  obtain ⟨m', e, h1, _⟩ := (hi.smat t).store_spec hr (packed_lt he hs) v
  rw [e, ok_bind]
  exact Same.of_setSMat h1

theorem Inv.sget_safe {st en : Nat} {s : Store α} (hi : Inv st en P s) (t : SId)
    (row entry slice : Nat) : Wp (s.sget st en t row entry slice) (fun _ => True) Err.IsAssert := by
  rw [Store.sget, wp_bind, wp_chk]
  refine ⟨fun hr => ?_, fun _ => trivial⟩
  rw [wp_bind, wp_chk]
  refine ⟨fun he => ?_, fun _ => trivial⟩
  rw [wp_bind, wp_chk]
  exact ⟨fun hs => hi.sload_ok hr (packed_lt he hs), fun _ => trivial⟩

theorem Inv.setEmpty_safe {st en : Nat} {s : Store α} (hi : Inv st en P s) (t : SId)
    (row col : Nat) : Wp (s.setEmpty st en t row col) (Same s) Err.IsAssert := by
  by_cases hr : row < (s.smat t).height
  · by_cases he : col < en
    · obtain ⟨s', e, o, _, sh, _⟩ := Store.setEmpty_spec st en s t (hi.smat t) hr he
      rw [e]
      refine ⟨fun i => ?_, fun i => ?_⟩
      · rw [o.mat]; exact Mat.SameShape.refl _
      · by_cases hit : i = t
        · subst hit; exact sh
        · rw [o.smat i hit]; exact SMat.SameShape.refl _
    · rw [Store.setEmpty, chk_true _ hr, ok_bind, chk_false _ he]; trivial
  · rw [Store.setEmpty, chk_false _ hr]; trivial

/-- Loop nest over the entries of a sparse matrix. -/
theorem Inv.expand_safe {st en : Nat} {s : Store α} (hi : Inv st en P s) (a : SId) (t : MId) :
    Wp (s.expand st en a t) (Inv st en P) Err.IsAssert := by
  obtain ⟨s1, e1, i1, o1, _⟩ := hi.init0 t (s.smat a).width (s.smat a).height
  rw [Store.expand, e1, ok_bind]
  refine Wp.imp (Q := Same s1) (wp_forN_same i1 (fun i hh s2 i2 _ => ?_)) (fun _ h => h.inv i1)
  refine wp_forN_same i2 (fun j hj s3 i3 _ => ?_)
  rw [(i1.smat a).block_eq hh hj, ok_bind, wp_ite]
  refine ⟨fun _ => Same.refl _, fun _ => ?_⟩
  refine wp_forN_same i3 (fun k hk s4 i4 _ => ?_)
  rw [(i1.smat a).load_eq hh (packed_lt hj hk), ok_bind]
  exact i4.set_safe t _ _ _

theorem Inv.expandTransposed_safe {st en : Nat} {s : Store α} (hi : Inv st en P s) (a : SId)
    (t : MId) : Wp (s.expandTransposed st en a t) (Inv st en P) Err.IsAssert := by
  obtain ⟨s1, e1, i1, o1, _⟩ := hi.init0 t (s.smat a).height (s.smat a).width
  rw [Store.expandTransposed, e1, ok_bind]
  refine Wp.imp (Q := Same s1) (wp_forN_same i1 (fun i hh s2 i2 _ => ?_)) (fun _ h => h.inv i1)
  refine wp_forN_same i2 (fun j hj s3 i3 _ => ?_)
  rw [(i1.smat a).block_eq hh hj, ok_bind, wp_ite]
  refine ⟨fun _ => Same.refl _, fun _ => ?_⟩
  refine wp_forN_same i3 (fun k hk s4 i4 _ => ?_)
  rw [(i1.smat a).load_eq hh (packed_lt hj hk), ok_bind]
  exact i4.set_safe t _ _ _

theorem rowDot_safe [Add α] [Mul α] {st en : Nat} {a b : SMat α} (wfa : a.WF st en)
    (wfb : b.WF st en) {i j : Nat} (hi : i < a.height) (hj : j < b.height) {E : Err → Prop} :
    Wp (SMat.rowDot st en a b i j) (fun _ => True) E := by
  unfold SMat.rowDot
  refine forN_safe (fun k hk v => ?_)
  rw [wfa.block_eq hi hk, ok_bind, wp_ite]
  refine ⟨fun _ => trivial, fun _ => forN_safe (fun l hl v => ?_)⟩
  rw [wfb.block_eq hj hl, ok_bind, wp_ite]
  refine ⟨fun _ => forN_safe (fun m hm v => ?_), fun _ => trivial⟩
  rw [wfa.load_eq hi (packed_lt hk hm), ok_bind, wfb.load_eq hj (packed_lt hl hm)]
  trivial

theorem Inv.multiplyTranspose_safe [Add α] [Mul α] {st en : Nat} {s : Store α} (hi : Inv st en P s)
    (a b : SId) (t : MId) : Wp (s.multiplyTranspose st en a b t) (Inv st en P) Err.IsAssert := by
  rw [Store.multiplyTranspose, wp_bind, wp_chk]
  refine ⟨fun _ => ?_, fun _ => trivial⟩
  obtain ⟨s1, e1, i1, o1, _⟩ := hi.init0 t (s.smat b).height (s.smat a).height
  rw [e1, ok_bind]
  refine Wp.imp (Q := Same s1) (wp_forN_same i1 (fun i hh s2 i2 _ => ?_)) (fun _ h => h.inv i1)
  refine wp_forN_same i2 (fun j hj s3 i3 _ => ?_)
  rw [wp_bind]
  exact (rowDot_safe (i1.smat a) (i1.smat b) hh hj).imp (fun v _ => i3.set_safe t _ _ _)

theorem Inv.transposeMultiplyVector_safe [Add α] [Mul α] {st en : Nat} {s : Store α}
    (hi : Inv st en P s) (a : SId) (b t : MId) :
    Wp (s.transposeMultiplyVector st en a b t) (Inv st en P) Err.IsAssert := by
  rw [Store.transposeMultiplyVector, wp_bind, wp_chk]
  refine ⟨fun _ => ?_, fun _ => trivial⟩
  rw [wp_bind, wp_chk]
  refine ⟨fun _ => ?_, fun _ => trivial⟩
  obtain ⟨s1, e1, i1, o1, _⟩ := hi.init0 t 1 (s.smat a).width
  rw [e1, ok_bind]
  refine Wp.imp (Q := Same s1) (wp_forN_same i1 (fun i hh s2 i2 _ => ?_)) (fun _ h => h.inv i1)
  refine wp_forN_same i2 (fun j hj s3 i3 _ => ?_)
  rw [(i1.smat a).block_eq hh hj, ok_bind, wp_ite]
  refine ⟨fun _ => Same.refl _, fun _ => ?_⟩
  refine wp_forN_same i3 (fun k hk s4 i4 _ => ?_)
  rw [(i1.smat a).load_eq hh (packed_lt hj hk), ok_bind, wp_bind]
  exact (i4.get_safe b 0 i).imp (fun y _ => i4.addAt_safe t _ _ _)

theorem Inv.smultiply_safe [Add α] [Mul α] {st en : Nat} {s : Store α}
    (hi : Inv st en P s) (a : SId) (b t : MId) :
    Wp (s.smultiply st en a b t) (Inv st en P) Err.IsAssert := by
  rw [Store.smultiply]
  simp only
  rw [wp_bind, wp_chk]
  refine ⟨fun _ => ?_, fun _ => trivial⟩
  obtain ⟨s1, e1, i1, o1, _⟩ := hi.init0 t (s.mat b).width (s.smat a).height
  rw [e1, ok_bind]
  refine Wp.imp (Q := Same s1) (wp_forN_same i1 (fun i hh s2 i2 _ => ?_)) (fun _ h => h.inv i1)
  refine wp_forN_same i2 (fun j hj s3 i3 _ => ?_)
  rw [wp_bind]
  refine Wp.imp (Q := fun _ => True) (forN_safe (fun k hk v => ?_))
    (fun v _ => i3.set_safe t _ _ _)
  rw [(i1.smat a).block_eq hh hk, ok_bind, wp_ite]
  refine ⟨fun _ => trivial, fun _ => forN_safe (fun l hl v => ?_)⟩
  rw [(i1.smat a).load_eq hh (packed_lt hk hl), ok_bind, wp_bind]
  exact (i3.get_safe b _ _).imp (fun y _ => trivial)

theorem scaleLoop_safe [Mul α] {st en : Nat} {s1 : Store α} (i1 : Inv st en P s1) (a : SId)
    (sc : MId) (t : SId) (pos : Nat → Nat → Nat → Nat) :
    Wp (forN (s1.smat a).height (fun i s => forN en (fun j s => do
        let index ← (s.smat a).block (i * en + j)
        if index = 255 then .ok s
        else do
          let s ← s.setBlock en t i j index
          forN st (fun k s => do
            let x ← s.get sc 0 (pos i index k)
            let y ← (s.smat a).load i (j * st + k)
            s.sset st en t i j k (x * y)) s) s) s1) (Inv st en P) Err.IsAssert := by
  refine Wp.imp (Q := Same s1) (wp_forN_same i1 (fun i hh s2 i2 h12 => ?_)) (fun _ h => h.inv i1)
  refine wp_forN_same i2 (fun j hj s3 i3 h23 => ?_)
  have h3 : i < (s3.smat a).height := by
    rw [(h23.smat a).height, (h12.smat a).height]; exact hh
  rw [(i3.smat a).block_eq h3 hj, ok_bind, wp_ite]
  refine ⟨fun _ => Same.refl _, fun _ => ?_⟩
  rw [wp_bind]
  refine (i3.setBlock_safe t _ _ _).imp (fun s4 h34 => ?_)
  refine Wp.imp (Q := Same s4) (wp_forN_same (h34.inv i3) (fun k hk s5 i5 h45 => ?_))
    (fun _ h => h34.trans h)
  rw [wp_bind]
  refine (i5.get_safe sc _ _).imp (fun x _ => ?_)
  rw [(i5.smat a).load_eq (by rw [(h45.smat a).height, (h34.smat a).height]; exact h3)
    (packed_lt hj hk), ok_bind]
  exact i5.sset_safe t _ _ _ _

theorem Inv.srightScale_safe [Mul α] {st en : Nat} {s : Store α} (hi : Inv st en P s) (a : SId)
    (sc : MId) (t : SId) (hf : (s.smat t).Fresh ∨ (s.smat a).height = 0 ∨
      (s.smat t).capH < (s.smat a).height) :
    Wp (s.srightScale st en a sc t) (Inv st en P) Err.IsAssert := by
  rw [Store.srightScale, wp_bind, wp_chk]
  refine ⟨fun _ => ?_, fun _ => trivial⟩
  rw [wp_bind, wp_chk]
  refine ⟨fun _ => ?_, fun _ => trivial⟩
  obtain ⟨s1, e1, i1⟩ := hi.sinit_ok (w := (s.smat a).width) hf
  rw [e1, ok_bind]
  exact scaleLoop_safe i1 a sc t (fun _ index k => index * st + k)

theorem Inv.sleftScale_safe [Mul α] {st en : Nat} {s : Store α} (hi : Inv st en P s) (a : SId)
    (sc : MId) (t : SId) (hf : (s.smat t).Fresh ∨ (s.smat a).height = 0 ∨
      (s.smat t).capH < (s.smat a).height) :
    Wp (s.sleftScale st en a sc t) (Inv st en P) Err.IsAssert := by
  rw [Store.sleftScale, wp_bind, wp_chk]
  refine ⟨fun _ => ?_, fun _ => trivial⟩
  rw [wp_bind, wp_chk]
  refine ⟨fun _ => ?_, fun _ => trivial⟩
  obtain ⟨s1, e1, i1⟩ := hi.sinit_ok (w := (s.smat a).width) hf
  rw [e1, ok_bind]
  exact scaleLoop_safe i1 a sc t (fun i _ _ => i)

theorem Inv.srightScale_any [Mul α] {st en : Nat} {s : Store α} (hi : Inv st en P s) (a : SId)
    (sc : MId) (t : SId) : Wp (s.srightScale st en a sc t) (Inv st en P) anyErr := by
  rw [Store.srightScale, wp_bind, wp_chk]
  refine ⟨fun _ => ?_, fun _ => trivial⟩
  rw [wp_bind, wp_chk]
  refine ⟨fun _ => ?_, fun _ => trivial⟩
  rw [wp_bind]
  exact (Store.sinit_any hi t _ _).imp (fun s1 i1 =>
    (scaleLoop_safe i1 a sc t (fun _ index k => index * st + k)).mono (fun _ h => h)
      (fun _ _ => trivial))

theorem Inv.sleftScale_any [Mul α] {st en : Nat} {s : Store α} (hi : Inv st en P s) (a : SId)
    (sc : MId) (t : SId) : Wp (s.sleftScale st en a sc t) (Inv st en P) anyErr := by
  rw [Store.sleftScale, wp_bind, wp_chk]
  refine ⟨fun _ => ?_, fun _ => trivial⟩
  rw [wp_bind, wp_chk]
  refine ⟨fun _ => ?_, fun _ => trivial⟩
  rw [wp_bind]
  exact (Store.sinit_any hi t _ _).imp (fun s1 i1 =>
    (scaleLoop_safe i1 a sc t (fun i _ _ => i)).mono (fun _ h => h) (fun _ _ => trivial))

theorem Inv.sdestroy {st en : Nat} {s : Store α} (hi : Inv st en P s) (t : SId)
    (hp : ¬ P.kept t) : Inv st en P (s.setSMat t (s.smat t).destroy) := by
  refine hi.of_onlyS (OnlyS.setSMat _ _ _) ?_ (fun p => absurd p hp)
  simp only [Store.setSMat_same]
  rcases hi.smat t with ⟨h1, h2, h3, h4⟩ | ⟨rb, db, bb, h1, _⟩
  · rw [SMat.destroy, h1]; exact Or.inl ⟨h1, h2, h3, h4⟩
  · rw [SMat.destroy, h1]; exact Or.inl ⟨rfl, rfl, rfl, rfl⟩

end

section
variable {α : Type} [Zero α] {P : Restr} [Add α] [Mul α] [Sub α] [Neg α] [Fp α]

theorem wp_query {σ : Type} {x : Exec σ} {s : Store α} {Q : Store α → Prop} {E : Err → Prop}
    (hx : Wp x (fun _ => True) E) (hq : Q s) : Wp (do let _ ← x; pure s) Q E := by
  rw [wp_bind]; exact hx.imp (fun _ _ => hq)

/-- A call whose precondition holds keeps the invariant and fails only in an assert. -/
theorem run_safe {st en : Nat} {s : Store α} (hi : Inv st en P s) (c : Call α)
    (hc : SafeCall c s) (hp : NoSwap P c) : Wp (run st en c s) (Inv st en P) Err.IsAssert := by
  cases c with
  | get a c r => exact wp_query (hi.get_safe a c r) hi
  | set t c r v => exact (hi.set_safe t c r v).imp (fun _ h => h.inv hi)
  | addAt t c r v => exact (hi.addAt_safe t c r v).imp (fun _ h => h.inv hi)
  | rowSwap t a b =>
    obtain ⟨s', e, o, _, wf, _⟩ := Store.rowSwap_spec s t (hi.mat t) hc.1 hc.2
    exact Wp.of_ok e (hi.of_only o wf (fun p => absurd p hp))
  | destroy t =>
    obtain ⟨s', e, o, he⟩ := Store.destroy_spec s t (hi.mat t)
    exact Wp.of_ok e (hi.of_only o (by rw [he]; exact Mat.empty_wf)
      (fun _ => by rw [he]; exact Mat.empty_plain))
  | dtor t =>
    refine wp_query ?_ hi
    rw [Store.dtor, wp_chk]; exact ⟨fun _ => trivial, fun _ => trivial⟩
  | resize t w h =>
    obtain ⟨s', e, i, _⟩ := hi.resize t w h
    exact Wp.of_ok e i
  | init t w h v =>
    obtain ⟨s', e, h⟩ := Store.init_spec s t w h v (hi.mat t)
    exact Wp.of_ok e (hi.of_only h.only h.wf (fun p => h.plain (hi.plain _ p)))
  | init0 t w h =>
    obtain ⟨s', e, i, _⟩ := hi.init0 t w h
    exact Wp.of_ok e i
  | setData t src =>
    obtain ⟨s', e, o, _, sh, _⟩ := Store.setData_spec s t src (hi.mat t) hc
    exact Wp.of_ok e (hi.of_only o (sh.wf (hi.mat t)) (fun p => sh.plain (hi.plain _ p)))
  | setMatFrom t ref =>
    obtain ⟨s', e, h⟩ := Store.setMatFrom_spec s t ref (hi.mat ref) (hi.mat t)
    exact Wp.of_ok e (hi.of_only h.only h.wf (fun p => h.plain (hi.plain _ p)))
  | multiply a b t => exact hi.multiply_safe a b t hc
  | componentMultiply a b t => exact hi.componentMultiply_safe a b t
  | transposeMultiply a b t => exact hi.transposeMultiply_safe a b t hc
  | leftScale a sc t => exact hi.leftScale_safe a sc t
  | rightScale a sc t => exact hi.rightScale_safe a sc t hc
  | scale a c t => exact hi.map1_safe a t (fun x => c * x)
  | subtract a b t =>
    rw [run, Store.subtract, wp_bind, wp_chk]
    refine ⟨fun h1 => ?_, fun _ => trivial⟩
    rw [wp_bind, wp_chk]
    exact ⟨fun h2 => hi.map2_safe a b t (· - ·) h1 h2, fun _ => trivial⟩
  | addM a b t =>
    rw [run, Store.addM, wp_bind, wp_chk]
    refine ⟨fun h1 => ?_, fun _ => trivial⟩
    rw [wp_bind, wp_chk]
    exact ⟨fun h2 => hi.map2_safe a b t (· + ·) h1 h2, fun _ => trivial⟩
  | negate a t => exact hi.map1_safe a t (fun x => -x)
  | equals a b err => exact wp_query (hi.equals_safe a b err) hi
  | vms a =>
    refine wp_query ?_ hi
    by_cases hw : (s.mat a).width = 1
    · rw [Store.vms_spec s a (hi.mat a) hc hw]; trivial
    · rw [Store.vectorMagnitudeSquared, chk_false _ hw]; trivial
  | dot a b =>
    refine wp_query ?_ hi
    by_cases hw : (s.mat a).width = 1
    · by_cases hw' : (s.mat b).width = 1
      · by_cases hh : (s.mat b).height = (s.mat a).height
        · rw [Store.dot_spec s a b (hi.mat a) (hi.mat b) hc.1 hc.2 hw hw' hh]; trivial
        · rw [Store.dot, chk_true _ hw, ok_bind, chk_true _ hw', ok_bind, chk_false _ hh]; trivial
      · rw [Store.dot, chk_true _ hw, ok_bind, chk_false _ hw']; trivial
    · rw [Store.dot, chk_false _ hw]; trivial
  | madd a b c =>
    rw [run, Store.madd, wp_bind, wp_chk]
    refine ⟨fun h1 => ?_, fun _ => trivial⟩
    rw [wp_bind, wp_chk]
    exact ⟨fun h2 => hi.upd2_safe a b (fun x y => x + y * c) h1 h2, fun _ => trivial⟩
  | pmadd a b c =>
    rw [run, Store.pmadd, wp_bind, wp_chk]
    refine ⟨fun h1 => ?_, fun _ => trivial⟩
    rw [wp_bind, wp_chk]
    exact ⟨fun h2 => hi.upd2_safe a b (fun x y => c * x + y) h1 h2, fun _ => trivial⟩
  | transpose a t => exact hi.transpose_safe a t hc
  | sdestroy t => exact hi.sdestroy t hp
  | sdtor t =>
    refine wp_query ?_ hi
    rw [Store.sdtor, wp_bind, wp_chk]
    refine ⟨fun _ => ?_, fun _ => trivial⟩
    rw [wp_bind, wp_chk]
    refine ⟨fun _ => ?_, fun _ => trivial⟩
    rw [wp_chk]
    exact ⟨fun _ => trivial, fun _ => trivial⟩
  | sresize t w h =>
    obtain ⟨s', e, o, wf, _, _, hf⟩ := Store.sresize_spec' (w := w) (hi.smat t) hc
    exact Wp.of_ok e (hi.of_onlyS o wf (fun p => hf (hi.fresh t p)))
  | sinit t w h =>
    obtain ⟨s', e, i⟩ := hi.sinit_ok (w := w) hc
    exact Wp.of_ok e i
  | setBlock t row entry index => exact (hi.setBlock_safe t _ _ _).imp (fun _ h => h.inv hi)
  | sset t row entry slice v => exact (hi.sset_safe t _ _ _ _).imp (fun _ h => h.inv hi)
  | sget t row entry slice => exact wp_query (hi.sget_safe t _ _ _) hi
  | setEmpty t row col => exact (hi.setEmpty_safe t _ _).imp (fun _ h => h.inv hi)
  | expand a t => exact hi.expand_safe a t
  | expandTransposed a t => exact hi.expandTransposed_safe a t
  | multiplyTranspose a b t => exact hi.multiplyTranspose_safe a b t
  | transposeMultiplyVector a b t => exact hi.transposeMultiplyVector_safe a b t
  | smultiply a b t => exact hi.smultiply_safe a b t
  | srightScale a sc t => exact hi.srightScale_safe a sc t hc
  | sleftScale a sc t => exact hi.sleftScale_safe a sc t hc

theorem Wp.any {σ : Type} {x : Exec σ} {Q : σ → Prop} {E : Err → Prop} (h : Wp x Q E) :
    Wp x Q anyErr := h.mono (fun _ h => h) (fun _ _ => trivial)

/-- Every successful call keeps the invariant, also when its memory safety precondition fails. -/
theorem run_inv {st en : Nat} {s : Store α} (hi : Inv st en P s) (c : Call α)
    (hc : RowSwapOk c s) (hp : NoSwap P c) : Wp (run st en c s) (Inv st en P) anyErr := by
  by_cases hs : SafeCall c s
  · exact (run_safe hi c hs hp).any
  · cases c with
    | rowSwap t a b => exact absurd hc hs
    | setData t src => exact hi.setData_any t src
    | multiply a b t => exact hi.multiply_any a b t
    | transposeMultiply a b t => exact hi.transposeMultiply_any a b t
    | transpose a t => exact hi.transpose_any a t
    | rightScale a sc t => exact hi.rightScale_any a sc t
    | vms a => exact wp_query (wp_any _) hi
    | dot a b => exact wp_query (wp_any _) hi
    | sresize t w h => exact (Store.sresize_any hi t w h).imp (fun _ h => h.1)
    | sinit t w h => exact Store.sinit_any hi t w h
    | srightScale a sc t => exact hi.srightScale_any a sc t
    | sleftScale a sc t => exact hi.sleftScale_any a sc t
    | _ => exact absurd trivial hs

theorem Inv.ofFresh (st en : Nat) (junk : Nat → Nat → α) (junkB : Nat → Nat → Nat) :
    Inv st en P (Store.fresh junk junkB) :=
  ⟨fun _ => Mat.empty_wf, fun _ _ => Mat.empty_plain, fun _ => SMat.empty_wf st en,
    fun _ _ => SMat.empty_fresh⟩

theorem ReachableNS.inv {st en : Nat} {s : Store α} (h : ReachableNS st en P s) :
    Inv st en P s := by
  induction h with
  | fresh junk junkB => exact Inv.ofFresh st en junk junkB
  | call c _ hc hp e ih => exact (run_inv ih c hc hp).of_eq e

theorem ReachableNS.mono {st en : Nat} {P Q : Restr} (hPQ : ∀ i, Q.plain i → P.plain i)
    (hPQ' : ∀ i, Q.kept i → P.kept i) {s : Store α}
    (h : ReachableNS st en P s) : ReachableNS st en Q s := by
  induction h with
  | fresh junk junkB => exact .fresh junk junkB
  | call c _ hc hp e ih =>
    refine .call c ih hc ?_ e
    cases c <;> first | exact trivial | exact fun h => hp (hPQ _ h) |
      exact fun h => hp (hPQ' _ h)

theorem ReachableNS.any {st en : Nat} {s : Store α} (h : ReachableNS st en P s) :
    Reachable st en s :=
  h.mono (Q := Restr.none) (fun _ h => False.elim h) (fun _ h => False.elim h)

end

end Scs
