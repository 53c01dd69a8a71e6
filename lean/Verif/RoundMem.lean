import Verif.Round
import Verif.Sle

/-!
# Rounding: matrices

A family of stores of matrices with rounded entries follows a store with exact entries: every
function of the matrix classes keeps corresponding entries close. The scratch matrix `m_A` of Gaussian
elimination is compared with the matrix `X` when one is given.
-/

namespace Scs

open Filter Topology

section
variable {ι : Type} {l : Filter ι} {F : ι → Type} [∀ i, Rounded (F i)]

theorem SameF.rfl' {τ : Type} {b : τ} : SameF l (fun _ => b) b := Eventually.of_forall fun _ => rfl

/-- The arrays have the same length and close elements. -/
structure NBuf (l : Filter ι) (a : ∀ i, Buf (F i)) (b : Buf ℝ) : Prop where
  size : ∀ᶠ i in l, (a i).size = b.size
  val : ∀ k, Near l (fun i => (a i).val k) (b.val k)

/-- The same for pointers to arrays. -/
def NPtr (l : Filter ι) (a : ∀ i, Option (Buf (F i))) : Option (Buf ℝ) → Prop
  | none => ∀ᶠ i in l, a i = none
  | some b => ∃ c, (∀ᶠ i in l, a i = some (c i)) ∧ NBuf l c b


theorem rel_deref {a : ∀ i, Option (Buf (F i))} {b : Option (Buf ℝ)} (h : NPtr l a b) :
    RelF l (NBuf l) (fun i => deref (a i)) (deref b) := by
  cases b with
  | none => exact relf_error _ _
  | some b =>
    obtain ⟨c, h1, h2⟩ := h
    exact relf_congr (h1.mono fun i e => by rw [e]; rfl) (relf_ok h2)

theorem NPtr.some {a : ∀ i, Buf (F i)} {b : Buf ℝ} (h : NBuf l a b) :
    NPtr l (fun i => some (a i)) (some b) := ⟨a, Eventually.of_forall fun _ => rfl, h⟩

theorem NPtr.none : NPtr l (fun i => (none : Option (Buf (F i)))) none :=
  Eventually.of_forall fun _ => rfl

theorem NPtr.isSome {a : ∀ i, Option (Buf (F i))} {b : Option (Buf ℝ)} (h : NPtr l a b) :
    ∀ᶠ i in l, (a i).isSome = b.isSome := by
  cases b with
  | none => exact h.mono fun i e => by rw [e]; rfl
  | some b =>
    obtain ⟨c, h1, _⟩ := h
    exact h1.mono fun i e => by rw [e]; rfl

theorem rel_rd {a : ∀ i, Buf (F i)} {b : Buf ℝ} (h : NBuf l a b) (k : Nat) :
    RelF l (Near l) (fun i => (a i).rd k) (b.rd k) := by
  unfold Buf.rd
  exact relf_ite (h.size.mono fun i e => by rw [e]) (fun _ => relf_ok (h.val k))
    fun _ => relf_error _ _

theorem NBuf.put {a : ∀ i, Buf (F i)} {b : Buf ℝ} (h : NBuf l a b) (k : Nat) {v : ∀ i, F i}
    {V : ℝ} (hv : Near l v V) :
    NBuf l (fun i => { a i with val := fun j => if j = k then v i else (a i).val j })
      { b with val := fun j => if j = k then V else b.val j } := by
  refine ⟨h.size, fun j => ?_⟩
  by_cases e : j = k
  · simp only [if_pos e]; exact hv
  · simp only [if_neg e]; exact h.val j

theorem rel_wr {a : ∀ i, Buf (F i)} {b : Buf ℝ} (h : NBuf l a b) (k : Nat) {v : ∀ i, F i}
    {V : ℝ} (hv : Near l v V) :
    RelF l (NBuf l) (fun i => (a i).wr k (v i)) (b.wr k V) := by
  unfold Buf.wr
  exact relf_ite (h.size.mono fun i e => by rw [e]) (fun _ => relf_ok (h.put k hv))
    fun _ => relf_error _ _

/-! ## Dense matrices -/

/-- Matrices of the same shape with close entries. -/
structure NMat (l : Filter ι) (a : ∀ i, Mat (F i)) (b : Mat ℝ) : Prop where
  rows : ∀ᶠ i in l, (a i).rows = b.rows
  data : NPtr l (fun i => (a i).data) b.data
  width : ∀ᶠ i in l, (a i).width = b.width
  height : ∀ᶠ i in l, (a i).height = b.height
  capW : ∀ᶠ i in l, (a i).capW = b.capW
  capH : ∀ᶠ i in l, (a i).capH = b.capH

theorem rel_mload {a : ∀ i, Mat (F i)} {b : Mat ℝ} (h : NMat l a b) (r c : Nat) :
    RelF l (Near l) (fun i => (a i).load r c) (b.load r c) := by
  unfold Mat.load
  refine relf_bindc (relf_same (h.rows.mono fun i e => by rw [e])) fun rb _ => ?_
  refine relf_bindc (relf_same SameF.rfl') fun p _ => ?_
  refine relf_bindc (relf_same SameF.rfl') fun off _ => ?_
  refine relf_bind (rel_deref h.data) fun d D hd => ?_
  exact rel_rd hd _

theorem NMat.setData {a : ∀ i, Mat (F i)} {b : Mat ℝ} (h : NMat l a b) {d : ∀ i, Buf (F i)}
    {D : Buf ℝ} (hd : NBuf l d D) :
    NMat l (fun i => { a i with data := some (d i) }) { b with data := some D } :=
  ⟨h.rows, NPtr.some hd, h.width, h.height, h.capW, h.capH⟩

theorem rel_mstore {a : ∀ i, Mat (F i)} {b : Mat ℝ} (h : NMat l a b) (r c : Nat) {v : ∀ i, F i}
    {V : ℝ} (hv : Near l v V) :
    RelF l (NMat l) (fun i => (a i).store r c (v i)) (b.store r c V) := by
  unfold Mat.store
  refine relf_bindc (relf_same (h.rows.mono fun i e => by rw [e])) fun rb _ => ?_
  refine relf_bindc (relf_same SameF.rfl') fun p _ => ?_
  refine relf_bindc (relf_same SameF.rfl') fun off _ => ?_
  refine relf_bind (rel_deref h.data) fun d D hd => ?_
  refine relf_bind (rel_wr hd _ hv) fun d D hd => ?_
  exact relf_pure (h.setData hd)

theorem rel_layout {a : ∀ i, Mat (F i)} {b : Mat ℝ} (h : NMat l a b) (H W : Nat) :
    RelF l (NMat l) (fun i => (a i).layout H W) (b.layout H W) := by
  unfold Mat.layout
  refine relf_forN SameF.rfl' h fun k _ a b h => ?_
  refine relf_bindc (relf_same (h.rows.mono fun i e => by rw [e])) fun rb _ => ?_
  refine relf_bind (rel_deref h.data) fun d D hd => ?_
  refine relf_bindc (relf_same SameF.rfl') fun rb _ => ?_
  exact relf_pure ⟨SameF.rfl', h.data, h.width, h.height, h.capW, h.capH⟩

theorem NPtr.congr {a a' : ∀ i, Option (Buf (F i))} {b : Option (Buf ℝ)} (h : NPtr l a b)
    (e : ∀ᶠ i in l, a' i = a i) : NPtr l a' b := by
  cases b with
  | none => filter_upwards [e, h] with i e e2; rw [e]; exact e2
  | some d =>
    obtain ⟨c, h1, h2⟩ := h
    refine ⟨c, ?_, h2⟩
    filter_upwards [e, h1] with i e e2; rw [e]; exact e2

theorem NMat.congr {a a' : ∀ i, Mat (F i)} {b : Mat ℝ} (h : NMat l a b)
    (e : ∀ᶠ i in l, a' i = a i) : NMat l a' b := by
  refine ⟨?_, h.data.congr (e.mono fun i e => by rw [e]), ?_, ?_, ?_, ?_⟩
  · filter_upwards [e, h.rows] with i e e2; rw [e, e2]
  · filter_upwards [e, h.width] with i e e2; rw [e, e2]
  · filter_upwards [e, h.height] with i e e2; rw [e, e2]
  · filter_upwards [e, h.capW] with i e e2; rw [e, e2]
  · filter_upwards [e, h.capH] with i e e2; rw [e, e2]

theorem NMat.empty : NMat l (fun i => (Mat.empty : Mat (F i))) Mat.empty :=
  ⟨SameF.rfl', NPtr.none, SameF.rfl', SameF.rfl', SameF.rfl', SameF.rfl'⟩

theorem NMat.destroy {a : ∀ i, Mat (F i)} {b : Mat ℝ} (h : NMat l a b) :
    NMat l (fun i => (a i).destroy) b.destroy := by
  cases hr : b.rows with
  | none =>
    have e : b.destroy = b := by rw [Mat.destroy, hr]
    rw [e]
    refine h.congr ?_
    filter_upwards [h.rows] with i e
    rw [Mat.destroy, e, hr]
  | some r =>
    have e : b.destroy = Mat.empty := by rw [Mat.destroy, hr]; rfl
    rw [e]
    refine NMat.empty.congr ?_
    filter_upwards [h.rows] with i e
    rw [Mat.destroy, e, hr]
    rfl

/-! ## Sparse matrices -/

/-- Sparse matrices of the same shape with the same blocks and close entries. -/
structure NSMat (l : Filter ι) (a : ∀ i, SMat (F i)) (b : SMat ℝ) : Prop where
  rows : ∀ᶠ i in l, (a i).rows = b.rows
  data : NPtr l (fun i => (a i).data) b.data
  blocks : ∀ᶠ i in l, (a i).blocks = b.blocks
  width : ∀ᶠ i in l, (a i).width = b.width
  height : ∀ᶠ i in l, (a i).height = b.height
  capH : ∀ᶠ i in l, (a i).capH = b.capH

theorem rel_sload {a : ∀ i, SMat (F i)} {b : SMat ℝ} (h : NSMat l a b) (r c : Nat) :
    RelF l (Near l) (fun i => (a i).load r c) (b.load r c) := by
  unfold SMat.load
  refine relf_bindc (relf_same (h.rows.mono fun i e => by rw [e])) fun rb _ => ?_
  refine relf_bindc (relf_same SameF.rfl') fun p _ => ?_
  refine relf_bindc (relf_same SameF.rfl') fun off _ => ?_
  refine relf_bind (rel_deref h.data) fun d D hd => ?_
  exact rel_rd hd _

theorem rel_sstore {a : ∀ i, SMat (F i)} {b : SMat ℝ} (h : NSMat l a b) (r c : Nat)
    {v : ∀ i, F i} {V : ℝ} (hv : Near l v V) :
    RelF l (NSMat l) (fun i => (a i).store r c (v i)) (b.store r c V) := by
  unfold SMat.store
  refine relf_bindc (relf_same (h.rows.mono fun i e => by rw [e])) fun rb _ => ?_
  refine relf_bindc (relf_same SameF.rfl') fun p _ => ?_
  refine relf_bindc (relf_same SameF.rfl') fun off _ => ?_
  refine relf_bind (rel_deref h.data) fun d D hd => ?_
  refine relf_bind (rel_wr hd _ hv) fun d D hd => ?_
  exact relf_pure ⟨h.rows, NPtr.some hd, h.blocks, h.width, h.height, h.capH⟩

theorem rel_block {a : ∀ i, SMat (F i)} {b : SMat ℝ} (h : NSMat l a b) (k : Nat) :
    RelF l (SameF l) (fun i => (a i).block k) (b.block k) := by
  refine relf_same ?_
  filter_upwards [h.blocks] with i e
  rw [SMat.block, SMat.block, e]

theorem rel_putBlock {a : ∀ i, SMat (F i)} {b : SMat ℝ} (h : NSMat l a b) (k v : Nat) :
    RelF l (NSMat l) (fun i => (a i).putBlock k v) (b.putBlock k v) := by
  unfold SMat.putBlock
  refine relf_bindc (relf_same (h.blocks.mono fun i e => by rw [e])) fun bb _ => ?_
  refine relf_bindc (relf_same SameF.rfl') fun bb _ => ?_
  exact relf_pure ⟨h.rows, h.data, SameF.rfl', h.width, h.height, h.capH⟩

theorem rel_slayout (st en : Nat) {a : ∀ i, SMat (F i)} {b : SMat ℝ} (h : NSMat l a b) (H : Nat) :
    RelF l (NSMat l) (fun i => (a i).layout st en H) (b.layout st en H) := by
  unfold SMat.layout
  refine relf_forN SameF.rfl' h fun k _ a b h => ?_
  refine relf_bindc (relf_same (h.rows.mono fun i e => by rw [e])) fun rb _ => ?_
  refine relf_bind (rel_deref h.data) fun d D hd => ?_
  refine relf_bindc (relf_same SameF.rfl') fun rb _ => ?_
  exact relf_pure ⟨SameF.rfl', h.data, h.blocks, h.width, h.height, h.capH⟩

theorem NSMat.congr {a a' : ∀ i, SMat (F i)} {b : SMat ℝ} (h : NSMat l a b)
    (e : ∀ᶠ i in l, a' i = a i) : NSMat l a' b := by
  refine ⟨?_, h.data.congr (e.mono fun i e => by rw [e]), ?_, ?_, ?_, ?_⟩
  · filter_upwards [e, h.rows] with i e e2; rw [e, e2]
  · filter_upwards [e, h.blocks] with i e e2; rw [e, e2]
  · filter_upwards [e, h.width] with i e e2; rw [e, e2]
  · filter_upwards [e, h.height] with i e e2; rw [e, e2]
  · filter_upwards [e, h.capH] with i e e2; rw [e, e2]

theorem NSMat.destroy {a : ∀ i, SMat (F i)} {b : SMat ℝ} (h : NSMat l a b) :
    NSMat l (fun i => (a i).destroy) b.destroy := by
  cases hr : b.rows with
  | none =>
    have e : b.destroy = b := by rw [SMat.destroy, hr]
    rw [e]
    refine h.congr ?_
    filter_upwards [h.rows] with i e
    rw [SMat.destroy, e, hr]
  | some r =>
    have e : b.destroy = ⟨none, none, none, 0, 0, b.capH⟩ := by rw [SMat.destroy, hr]
    rw [e]
    refine NSMat.congr (a := fun i => ⟨none, none, none, 0, 0, (a i).capH⟩)
      ⟨SameF.rfl', NPtr.none, SameF.rfl', SameF.rfl', SameF.rfl', h.capH⟩ ?_
    filter_upwards [h.rows] with i e
    rw [SMat.destroy, e, hr]

/-! ## Stores -/

/-- The matrix that the matrix `t` of the family is compared with. -/
def Store.seen (X : Option (Mat ℝ)) (S : Store ℝ) (t : MId) : Mat ℝ :=
  if t = .geA then X.getD (S.mat t) else S.mat t

/-- The matrix `t` is compared with its counterpart. -/
def Direct (X : Option (Mat ℝ)) (t : MId) : Prop := t = .geA → X = none

theorem Direct.seen {X : Option (Mat ℝ)} {t : MId} (h : Direct X t) (S : Store ℝ) :
    S.seen X t = S.mat t := by
  unfold Store.seen
  split
  · rename_i e; rw [h e]; rfl
  · rfl

theorem Direct.none (t : MId) : Direct none t := fun _ => rfl

/-- Matrices with the same dimensions. -/
def SameShape {α β : Type} (a : Mat α) (b : Mat β) : Prop :=
  a.width = b.width ∧ a.height = b.height ∧ a.capW = b.capW ∧ a.capH = b.capH

/-- Stores of matrices of the same shapes with close entries. -/
structure NStore (l : Filter ι) (X : Option (Mat ℝ)) (s : ∀ i, Store (F i)) (S : Store ℝ) :
    Prop where
  mat : ∀ t, NMat l (fun i => (s i).mat t) (S.seen X t)
  smat : ∀ t, NSMat l (fun i => (s i).smat t) (S.smat t)
  junk : ∀ n k, Near l (fun i => (s i).junk n k) (S.junk n k)
  junkB : ∀ᶠ i in l, (s i).junkB = S.junkB
  tick : ∀ᶠ i in l, (s i).tick = S.tick
  shape : ∀ᶠ i in l, SameShape ((s i).mat .geA) (S.mat .geA)

variable {X : Option (Mat ℝ)} {s : ∀ i, Store (F i)} {S : Store ℝ} {t : MId}

theorem NStore.at (h : NStore l X s S) (ht : Direct X t) :
    NMat l (fun i => (s i).mat t) (S.mat t) := by
  rw [← ht.seen S]; exact h.mat t

theorem NStore.setMat (h : NStore l X s S) (ht : Direct X t) {m : ∀ i, Mat (F i)} {M : Mat ℝ}
    (hm : NMat l m M) :
    NStore l X (fun i => (s i).setMat t (m i)) (S.setMat t M) := by
  refine ⟨fun t' => ?_, h.smat, h.junk, h.junkB, h.tick, ?_⟩
  swap
  · by_cases e : MId.geA = t
    · subst e
      filter_upwards [hm.width, hm.height, hm.capW, hm.capH] with i a b c d
      simp only [Store.setMat, upd_same]
      exact ⟨a, b, c, d⟩
    · simp only [Store.setMat, upd_other _ _ e]
      exact h.shape
  by_cases e : t' = t
  · subst e
    rw [ht.seen]
    simp only [Store.setMat, upd_same]
    exact hm
  · have e2 : (S.setMat t M).seen X t' = S.seen X t' := by
      simp only [Store.seen, Store.setMat, upd_other _ _ e]
    rw [e2]
    simp only [Store.setMat, upd_other _ _ e]
    exact h.mat t'

theorem NStore.setSMat (h : NStore l X s S) {t : SId} {m : ∀ i, SMat (F i)} {M : SMat ℝ}
    (hm : NSMat l m M) : NStore l X (fun i => (s i).setSMat t (m i)) (S.setSMat t M) := by
  refine ⟨fun t' => h.mat t', fun t' => ?_, h.junk, h.junkB, h.tick, h.shape⟩
  by_cases e : t' = t
  · subst e
    simp only [Store.setSMat, upd_same]
    exact hm
  · simp only [Store.setSMat, upd_other _ _ e]
    exact h.smat t'

theorem NStore.setTick (h : NStore l X s S) {n : ι → Nat} {N : Nat} (hn : SameF l n N) :
    NStore l X (fun i => { s i with tick := n i }) { S with tick := N } :=
  ⟨fun t => h.mat t, h.smat, h.junk, h.junkB, hn, h.shape⟩

theorem rel_load (h : NStore l X s S) (ht : Direct X t) (r c : Nat) :
    RelF l (Near l) (fun i => (s i).load t r c) (S.load t r c) := rel_mload (h.at ht) r c

theorem rel_store (h : NStore l X s S) (ht : Direct X t) (r c : Nat) {v : ∀ i, F i} {V : ℝ}
    (hv : Near l v V) :
    RelF l (NStore l X) (fun i => (s i).store t r c (v i)) (S.store t r c V) := by
  unfold Store.store
  refine relf_bind (rel_mstore (h.at ht) r c hv) fun m M hm => ?_
  exact relf_pure (h.setMat ht hm)

theorem rel_get (h : NStore l X s S) (ht : Direct X t) (c r : Nat) :
    RelF l (Near l) (fun i => (s i).get t c r) (S.get t c r) := by
  unfold Store.get
  refine relf_chk_bind (fun hp => (h.at ht).width.mono fun i e => by rw [e]; exact hp) fun _ => ?_
  refine relf_chk_bind (fun hp => (h.at ht).height.mono fun i e => by rw [e]; exact hp) fun _ => ?_
  exact rel_load h ht r c

theorem rel_set (h : NStore l X s S) (ht : Direct X t) (c r : Nat) {v : ∀ i, F i} {V : ℝ}
    (hv : Near l v V) :
    RelF l (NStore l X) (fun i => (s i).set t c r (v i)) (S.set t c r V) := by
  unfold Store.set
  refine relf_chk_bind (fun hp => (h.at ht).width.mono fun i e => by rw [e]; exact hp) fun _ => ?_
  refine relf_chk_bind (fun hp => (h.at ht).height.mono fun i e => by rw [e]; exact hp) fun _ => ?_
  exact rel_store h ht r c hv

theorem rel_addAt [Shrinks l F] (h : NStore l X s S) (ht : Direct X t)
    (c r : Nat) {v : ∀ i, F i} {V : ℝ} (hv : Near l v V) :
    RelF l (NStore l X) (fun i => (s i).addAt t c r (v i)) (S.addAt t c r V) := by
  unfold Store.addAt
  refine relf_chk_bind (fun hp => (h.at ht).width.mono fun i e => by rw [e]; exact hp) fun _ => ?_
  refine relf_chk_bind (fun hp => (h.at ht).height.mono fun i e => by rw [e]; exact hp) fun _ => ?_
  refine relf_bind (rel_load h ht r c) fun x Y hx => ?_
  exact rel_store h ht r c (hx.add hv)

theorem rel_rowSwap (h : NStore l X s S) (ht : Direct X t) (a b : Nat) :
    RelF l (NStore l X) (fun i => (s i).rowSwap t a b) (S.rowSwap t a b) := by
  unfold Store.rowSwap
  refine relf_bindc (relf_same ((h.at ht).rows.mono fun i e => by rw [e])) fun rb _ => ?_
  refine relf_bindc (relf_same SameF.rfl') fun pa _ => ?_
  refine relf_bindc (relf_same SameF.rfl') fun pb _ => ?_
  refine relf_bindc (relf_same SameF.rfl') fun rb _ => ?_
  refine relf_bindc (relf_same SameF.rfl') fun rb _ => ?_
  have hm := h.at ht
  exact relf_pure (h.setMat ht ⟨SameF.rfl', hm.data, hm.width, hm.height, hm.capW, hm.capH⟩)

/-- `Store.resize` with its cases side by side. -/
theorem Store.resize_eq {α : Type} (s : Store α) (t : MId) (w h : Nat) :
    s.resize t w h = if w = (s.mat t).width ∧ h = (s.mat t).height then .ok s
      else if (s.mat t).capW < w ∨ (s.mat t).capH < h then
        Mat.layout ⟨some ⟨if (s.mat t).destroy.capH < h then h else (s.mat t).destroy.capH,
            fun _ => none⟩,
          some ⟨(if (s.mat t).destroy.capW < w then w else (s.mat t).destroy.capW) *
            (if (s.mat t).destroy.capH < h then h else (s.mat t).destroy.capH), s.junk s.tick⟩,
          w, h, if (s.mat t).destroy.capW < w then w else (s.mat t).destroy.capW,
          if (s.mat t).destroy.capH < h then h else (s.mat t).destroy.capH⟩ h w >>= fun m =>
        pure { s.setMat t m with tick := s.tick + 1 }
      else Mat.layout { s.mat t with width := w, height := h } h w >>= fun m =>
        pure { s.setMat t m with tick := s.tick } := by
  unfold Store.resize
  simp only []
  split
  · rfl
  · split <;> rfl

theorem rel_resize (h : NStore l X s S) (ht : Direct X t) {w H : ι → Nat} {W' H' : Nat}
    (hw : SameF l w W') (hh : SameF l H H') :
    RelF l (NStore l X) (fun i => (s i).resize t (w i) (H i)) (S.resize t W' H') := by
  refine relf_congr (x' := fun i => (s i).resize t W' H') ?_ ?_
  · filter_upwards [hw, hh] with i e1 e2; rw [e1, e2]
  · simp only [Store.resize_eq]
    have hm := h.at ht
    have hd := hm.destroy
    refine relf_ite ?_ (fun _ => relf_ok h) fun _ => relf_ite ?_ (fun _ => ?_) fun _ => ?_
    · filter_upwards [hm.width, hm.height] with i e1 e2; rw [e1, e2]
    · filter_upwards [hm.capW, hm.capH] with i e1 e2; rw [e1, e2]
    · refine relf_bind (R := NMat l) (rel_layout ?_ _ _) fun m M hM => ?_
      · refine ⟨?_, ?_, SameF.rfl', SameF.rfl', ?_, ?_⟩
        · filter_upwards [hd.capH] with i e; rw [e]
        · refine NPtr.some ⟨?_, fun k => ?_⟩
          · filter_upwards [hd.capW, hd.capH] with i e1 e2; simp only [e1, e2]
          · refine (h.junk S.tick k).congr ?_
            filter_upwards [h.tick] with i e; rw [e]
        · filter_upwards [hd.capW] with i e; rw [e]
        · filter_upwards [hd.capH] with i e; rw [e]
      · refine relf_pure ((h.setMat ht hM).setTick ?_)
        filter_upwards [h.tick] with i e; rw [e]
    · refine relf_bind (R := NMat l) (rel_layout ?_ _ _) fun m M hM => ?_
      · exact ⟨hm.rows, hm.data, SameF.rfl', SameF.rfl', hm.capW, hm.capH⟩
      · exact relf_pure ((h.setMat ht hM).setTick h.tick)

theorem rel_fill (h : NStore l X s S) (ht : Direct X t) {w H : ι → Nat} {W' H' : Nat}
    (hw : SameF l w W') (hh : SameF l H H') {f : ∀ i, Store (F i) → Nat → Nat → Exec (F i)}
    {g : Store ℝ → Nat → Nat → Exec ℝ}
    (hf : ∀ s S, NStore l X s S → ∀ r c, RelF l (Near l) (fun i => f i (s i) r c) (g S r c)) :
    RelF l (NStore l X) (fun i => (s i).fill t (H i) (w i) (f i)) (S.fill t H' W' g) := by
  unfold Store.fill
  refine relf_forN hh h fun r _ s S h => ?_
  refine relf_forN hw h fun c _ s S h => ?_
  refine relf_bind (hf s S h r c) fun v V hv => ?_
  exact rel_store h ht r c hv

theorem rel_init (h : NStore l X s S) (ht : Direct X t) {w H : ι → Nat} {W' H' : Nat}
    (hw : SameF l w W') (hh : SameF l H H') {v : ∀ i, F i} {V : ℝ} (hv : Near l v V) :
    RelF l (NStore l X) (fun i => (s i).init t (w i) (H i) (v i)) (S.init t W' H' V) := by
  unfold Store.init
  refine relf_bind (rel_resize h ht hw hh) fun s S h => ?_
  exact rel_fill h ht hw hh fun s S _ r c => relf_ok hv

theorem rel_zeroData [Shrinks l F] {a : ∀ i, Mat (F i)} {b : Mat ℝ} (h : NMat l a b)
    {n : ι → Nat} {N : Nat} (hn : SameF l n N) :
    RelF l (NMat l) (fun i => (a i).zeroData (n i)) (b.zeroData N) := by
  unfold Mat.zeroData
  refine relf_forN hn h fun k _ a b h => ?_
  refine relf_bind (rel_deref h.data) fun d D hd => ?_
  refine relf_bind (rel_wr hd _ Near.zero) fun d D hd => ?_
  exact relf_pure (h.setData hd)

theorem rel_init0 [Shrinks l F] (h : NStore l X s S) (ht : Direct X t) {w H : ι → Nat}
    {W' H' : Nat} (hw : SameF l w W') (hh : SameF l H H') :
    RelF l (NStore l X) (fun i => (s i).init0 t (w i) (H i)) (S.init0 t W' H') := by
  unfold Store.init0
  refine relf_bind (rel_resize h ht hw hh) fun s S h => ?_
  refine relf_bind (rel_zeroData (h.at ht) ?_) fun m M hm => ?_
  · filter_upwards [hw, hh] with i e1 e2; rw [e1, e2]
  · exact relf_pure (h.setMat ht hm)

theorem rel_setMatFrom (h : NStore l X s S) (ht : Direct X t) {a : MId} (ha : Direct X a) :
    RelF l (NStore l X) (fun i => (s i).setMatFrom t a) (S.setMatFrom t a) := by
  unfold Store.setMatFrom
  refine relf_bind (rel_resize h ht (h.at ha).width (h.at ha).height) fun s S h => ?_
  exact rel_fill h ht (h.at ha).width (h.at ha).height fun s S h r c => rel_load h ha r c

section
variable [Shrinks l F] {a b : MId}

theorem rel_leftScale (h : NStore l X s S) (ht : Direct X t) (ha : Direct X a) (hb : Direct X b) :
    RelF l (NStore l X) (fun i => (s i).leftScale a b t) (S.leftScale a b t) := by
  unfold Store.leftScale
  refine relf_chk_bind (fun hp => (h.at hb).width.mono fun i e => by rw [e]; exact hp) fun _ => ?_
  refine relf_chk_bind (fun hp => ?_) fun _ => ?_
  · filter_upwards [(h.at hb).height, (h.at ha).height] with i e1 e2; rw [e1, e2]; exact hp
  refine relf_bind (rel_resize h ht (h.at ha).width (h.at ha).height) fun s S h => ?_
  refine rel_fill h ht (h.at ha).width (h.at ha).height fun s S h r c => ?_
  refine relf_bind (rel_load h hb r 0) fun x x' hx => ?_
  refine relf_bind (rel_load h ha r c) fun y y' hy => ?_
  exact relf_pure (hx.mul hy)

theorem rel_scale (h : NStore l X s S) (ht : Direct X t) (ha : Direct X a)
    {v : ∀ i, F i} {V : ℝ} (hv : Near l v V) :
    RelF l (NStore l X) (fun i => (s i).scale a (v i) t) (S.scale a V t) := by
  unfold Store.scale
  refine relf_bind (rel_resize h ht (h.at ha).width (h.at ha).height) fun s S h => ?_
  refine rel_fill h ht (h.at ha).width (h.at ha).height fun s S h r c => ?_
  refine relf_bind (rel_load h ha r c) fun y y' hy => ?_
  exact relf_pure (hv.mul hy)

theorem rel_subtract (h : NStore l X s S) (ht : Direct X t) (ha : Direct X a) (hb : Direct X b) :
    RelF l (NStore l X) (fun i => (s i).subtract a b t) (S.subtract a b t) := by
  unfold Store.subtract
  refine relf_chk_bind (fun hp => ?_) fun _ => ?_
  · filter_upwards [(h.at hb).width, (h.at ha).width] with i e1 e2; rw [e1, e2]; exact hp
  refine relf_chk_bind (fun hp => ?_) fun _ => ?_
  · filter_upwards [(h.at hb).height, (h.at ha).height] with i e1 e2; rw [e1, e2]; exact hp
  refine relf_bind (rel_resize h ht (h.at ha).width (h.at ha).height) fun s S h => ?_
  refine rel_fill h ht (h.at ha).width (h.at ha).height fun s S h r c => ?_
  refine relf_bind (rel_load h ha r c) fun x x' hx => ?_
  refine relf_bind (rel_load h hb r c) fun y y' hy => ?_
  exact relf_pure (hx.sub hy)

theorem rel_addM (h : NStore l X s S) (ht : Direct X t) (ha : Direct X a) (hb : Direct X b) :
    RelF l (NStore l X) (fun i => (s i).addM a b t) (S.addM a b t) := by
  unfold Store.addM
  refine relf_chk_bind (fun hp => ?_) fun _ => ?_
  · filter_upwards [(h.at hb).width, (h.at ha).width] with i e1 e2; rw [e1, e2]; exact hp
  refine relf_chk_bind (fun hp => ?_) fun _ => ?_
  · filter_upwards [(h.at hb).height, (h.at ha).height] with i e1 e2; rw [e1, e2]; exact hp
  refine relf_bind (rel_resize h ht (h.at ha).width (h.at ha).height) fun s S h => ?_
  refine rel_fill h ht (h.at ha).width (h.at ha).height fun s S h r c => ?_
  refine relf_bind (rel_load h ha r c) fun x x' hx => ?_
  refine relf_bind (rel_load h hb r c) fun y y' hy => ?_
  exact relf_pure (hx.add hy)

omit [Shrinks l F] in
theorem rel_negate (h : NStore l X s S) (ht : Direct X t) (ha : Direct X a) :
    RelF l (NStore l X) (fun i => (s i).negate a t) (S.negate a t) := by
  unfold Store.negate
  refine relf_bind (rel_resize h ht (h.at ha).width (h.at ha).height) fun s S h => ?_
  refine rel_fill h ht (h.at ha).width (h.at ha).height fun s S h r c => ?_
  refine relf_bind (rel_load h ha r c) fun x x' hx => ?_
  exact relf_pure hx.neg

end

/-- `Store.sresize` with its cases side by side. -/
theorem Store.sresize_eq {α : Type} (st en : Nat) (s : Store α) (t : SId) (w h : Nat) :
    s.sresize st en t w h = if w = (s.smat t).width ∧ h = (s.smat t).height then .ok s
      else if (s.smat t).capH < h then
        SMat.layout st en ⟨some ⟨if (s.smat t).destroy.capH < h then h
            else (s.smat t).destroy.capH, fun _ => none⟩,
          some ⟨st * en * (if (s.smat t).destroy.capH < h then h else (s.smat t).destroy.capH),
            s.junk s.tick⟩,
          some ⟨(if (s.smat t).destroy.capH < h then h else (s.smat t).destroy.capH) * en,
            s.junkB s.tick⟩, w, h,
          if (s.smat t).destroy.capH < h then h else (s.smat t).destroy.capH⟩ h >>= fun m =>
        pure { s.setSMat t m with tick := s.tick + 1 }
      else SMat.layout st en { s.smat t with width := w, height := h } h >>= fun m =>
        pure { s.setSMat t m with tick := s.tick } := by
  unfold Store.sresize
  simp only []
  split
  · rfl
  · split <;> rfl

section
variable {t a b : SId} {c d : MId}

theorem rel_sresize (st en : Nat) (h : NStore l X s S) {w H : ι → Nat} {W' H' : Nat}
    (hw : SameF l w W') (hh : SameF l H H') :
    RelF l (NStore l X) (fun i => (s i).sresize st en t (w i) (H i)) (S.sresize st en t W' H') := by
  refine relf_congr (x' := fun i => (s i).sresize st en t W' H') ?_ ?_
  · filter_upwards [hw, hh] with i e1 e2; rw [e1, e2]
  · simp only [Store.sresize_eq]
    have hm := h.smat t
    have hd := hm.destroy
    refine relf_ite ?_ (fun _ => relf_ok h) fun _ => relf_ite ?_ (fun _ => ?_) fun _ => ?_
    · filter_upwards [hm.width, hm.height] with i e1 e2; rw [e1, e2]
    · filter_upwards [hm.capH] with i e; rw [e]
    · refine relf_bind (R := NSMat l) (rel_slayout st en ?_ _) fun m M hM => ?_
      · refine ⟨?_, ?_, ?_, SameF.rfl', SameF.rfl', ?_⟩
        · filter_upwards [hd.capH] with i e; rw [e]
        · refine NPtr.some ⟨?_, fun k => ?_⟩
          · filter_upwards [hd.capH] with i e; simp only [e]
          · refine (h.junk S.tick k).congr ?_
            filter_upwards [h.tick] with i e; rw [e]
        · filter_upwards [hd.capH, h.junkB, h.tick] with i e1 e2 e3; rw [e1, e2, e3]
        · filter_upwards [hd.capH] with i e; rw [e]
      · refine relf_pure ((h.setSMat hM).setTick ?_)
        filter_upwards [h.tick] with i e; rw [e]
    · refine relf_bind (R := NSMat l) (rel_slayout st en ?_ _) fun m M hM => ?_
      · exact ⟨hm.rows, hm.data, hm.blocks, SameF.rfl', SameF.rfl', hm.capH⟩
      · exact relf_pure ((h.setSMat hM).setTick h.tick)

theorem rel_sinit (st en : Nat) (h : NStore l X s S) {w H : ι → Nat} {W' H' : Nat}
    (hw : SameF l w W') (hh : SameF l H H') :
    RelF l (NStore l X) (fun i => (s i).sinit st en t (w i) (H i)) (S.sinit st en t W' H') := by
  unfold Store.sinit
  refine relf_bind (rel_sresize st en h hw hh) fun s S h => ?_
  refine relf_bind (relf_forN (R := NSMat l) ?_ (h.smat t) fun k _ m M hm => rel_putBlock hm k 255)
    fun m M hm => ?_
  · filter_upwards [(h.smat t).height] with i e; rw [e]
  · exact relf_pure (h.setSMat hm)

theorem rel_setBlock (en : Nat) (h : NStore l X s S) (row entry : Nat) (index : Int) :
    RelF l (NStore l X) (fun i => (s i).setBlock en t row entry index)
      (S.setBlock en t row entry index) := by
  unfold Store.setBlock
  simp only []
  refine relf_chk_bind (fun hp => (h.smat t).height.mono fun i e => by rw [e]; exact hp)
    fun _ => ?_
  refine relf_chk_bind (fun hp => .of_forall fun _ => hp) fun _ => ?_
  refine relf_chk_bind (fun hp => (h.smat t).width.mono fun i e => by rw [e]; exact hp)
    fun _ => ?_
  refine relf_bind (rel_putBlock (h.smat t) _ _) fun m M hm => ?_
  exact relf_pure (h.setSMat hm)

theorem rel_sset (st en : Nat) (h : NStore l X s S) (row entry slice : Nat) {v : ∀ i, F i} {V : ℝ}
    (hv : Near l v V) :
    RelF l (NStore l X) (fun i => (s i).sset st en t row entry slice (v i))
      (S.sset st en t row entry slice V) := by
  unfold Store.sset
  refine relf_chk_bind (fun hp => (h.smat t).height.mono fun i e => by rw [e]; exact hp)
    fun _ => ?_
  refine relf_chk_bind (fun hp => .of_forall fun _ => hp) fun _ => ?_
  refine relf_chk_bind (fun hp => .of_forall fun _ => hp) fun _ => ?_
  refine relf_bind (rel_sstore (h.smat t) _ _ hv) fun m M hm => ?_
  exact relf_pure (h.setSMat hm)

theorem rel_sget (st en : Nat) (h : NStore l X s S) (row entry slice : Nat) :
    RelF l (Near l) (fun i => (s i).sget st en t row entry slice)
      (S.sget st en t row entry slice) := by
  unfold Store.sget
  refine relf_chk_bind (fun hp => (h.smat t).height.mono fun i e => by rw [e]; exact hp)
    fun _ => ?_
  refine relf_chk_bind (fun hp => .of_forall fun _ => hp) fun _ => ?_
  refine relf_chk_bind (fun hp => .of_forall fun _ => hp) fun _ => ?_
  exact rel_sload (h.smat t) _ _

variable [Shrinks l F]

theorem rel_rowDot (st en : Nat) {x y : ∀ i, SMat (F i)} {x' y' : SMat ℝ} (hx : NSMat l x x')
    (hy : NSMat l y y') (r c : Nat) :
    RelF l (Near l) (fun i => SMat.rowDot st en (x i) (y i) r c) (SMat.rowDot st en x' y' r c) := by
  unfold SMat.rowDot
  refine relf_forN SameF.rfl' Near.zero fun k _ v v' hv => ?_
  refine relf_bindc (rel_block hx _) fun b0 _ => ?_
  refine relf_ite (.of_forall fun _ => Iff.rfl) (fun _ => relf_ok hv) fun _ => ?_
  refine relf_forN SameF.rfl' hv fun k2 _ v v' hv => ?_
  refine relf_bindc (rel_block hy _) fun b1 _ => ?_
  refine relf_ite (.of_forall fun _ => Iff.rfl) (fun _ => ?_) fun _ => relf_ok hv
  refine relf_forN SameF.rfl' hv fun m _ v v' hv => ?_
  refine relf_bind (rel_sload hx _ _) fun p p' hp => ?_
  refine relf_bind (rel_sload hy _ _) fun q q' hq => ?_
  exact relf_pure (hv.add (hp.mul hq))

theorem rel_multiplyTranspose (st en : Nat) (h : NStore l X s S) (hc : Direct X c) :
    RelF l (NStore l X) (fun i => (s i).multiplyTranspose st en a b c)
      (S.multiplyTranspose st en a b c) := by
  unfold Store.multiplyTranspose
  refine relf_chk_bind (fun hp => ?_) fun _ => ?_
  · filter_upwards [(h.smat a).width, (h.smat b).width] with i e1 e2; rw [e1, e2]; exact hp
  refine relf_bind (rel_init0 h hc (h.smat b).height (h.smat a).height) fun s S h => ?_
  have ha := h.smat a
  have hb := h.smat b
  simp only []
  refine relf_forN ha.height h fun r _ s S h => ?_
  refine relf_forN hb.height h fun k _ s S h => ?_
  refine relf_bind (rel_rowDot st en ha hb _ _) fun v v' hv => ?_
  exact rel_set h hc _ _ hv

theorem rel_smultiply (st en : Nat) (h : NStore l X s S) (hc : Direct X c) (hd : Direct X d) :
    RelF l (NStore l X) (fun i => (s i).smultiply st en a c d) (S.smultiply st en a c d) := by
  unfold Store.smultiply
  simp only []
  have hbw := (h.at hc).width
  refine relf_chk_bind (fun hp => ?_) fun _ => ?_
  · filter_upwards [(h.smat a).width, (h.at hc).height] with i e1 e2; rw [e1, e2]; exact hp
  refine relf_bind (rel_init0 h hd hbw (h.smat a).height) fun s S h => ?_
  have ha := h.smat a
  refine relf_forN ha.height h fun r _ s S h => ?_
  refine relf_forN hbw h fun k _ s S h => ?_
  refine relf_bind (R := Near l) ?_ fun v v' hv => rel_set h hd _ _ hv
  refine relf_forN SameF.rfl' Near.zero fun k _ v v' hv => ?_
  refine relf_bindc (rel_block ha _) fun b0 _ => ?_
  refine relf_ite (.of_forall fun _ => Iff.rfl) (fun _ => relf_ok hv) fun _ => ?_
  refine relf_forN SameF.rfl' hv fun m _ v v' hv => ?_
  refine relf_bind (rel_sload ha _ _) fun p p' hp => ?_
  refine relf_bind (rel_get h hc _ _) fun q q' hq => ?_
  exact relf_pure (hv.add (hp.mul hq))

theorem rel_srightScale (st en : Nat) (h : NStore l X s S) (hc : Direct X c) :
    RelF l (NStore l X) (fun i => (s i).srightScale st en a c t) (S.srightScale st en a c t) := by
  unfold Store.srightScale
  refine relf_chk_bind (fun hp => (h.at hc).width.mono fun i e => by rw [e]; exact hp) fun _ => ?_
  refine relf_chk_bind (fun hp => ?_) fun _ => ?_
  · filter_upwards [(h.at hc).height, (h.smat a).width] with i e1 e2; rw [e1, e2]; exact hp
  refine relf_bind (rel_sinit st en h (h.smat a).width (h.smat a).height) fun s S h => ?_
  refine relf_forN (h.smat a).height h fun r _ s S h => ?_
  refine relf_forN SameF.rfl' h fun k _ s S h => ?_
  refine relf_bindc (rel_block (h.smat a) _) fun b0 _ => ?_
  refine relf_ite (.of_forall fun _ => Iff.rfl) (fun _ => relf_ok h) fun _ => ?_
  refine relf_bind (rel_setBlock en h _ _ _) fun s S h => ?_
  refine relf_forN SameF.rfl' h fun m _ s S h => ?_
  refine relf_bind (rel_get h hc _ _) fun p p' hp => ?_
  refine relf_bind (rel_sload (h.smat a) _ _) fun q q' hq => ?_
  exact rel_sset st en h _ _ _ (hp.mul hq)

theorem rel_sleftScale (st en : Nat) (h : NStore l X s S) (hc : Direct X c) :
    RelF l (NStore l X) (fun i => (s i).sleftScale st en a c t) (S.sleftScale st en a c t) := by
  unfold Store.sleftScale
  refine relf_chk_bind (fun hp => ?_) fun _ => ?_
  · filter_upwards [(h.at hc).width, (h.smat a).height] with i e1 e2; rw [e1, e2]; exact hp
  refine relf_chk_bind (fun hp => ?_) fun _ => ?_
  · filter_upwards [(h.at hc).height, (h.smat a).height] with i e1 e2; rw [e1, e2]; exact hp
  refine relf_bind (rel_sinit st en h (h.smat a).width (h.smat a).height) fun s S h => ?_
  refine relf_forN (h.smat a).height h fun r _ s S h => ?_
  refine relf_forN SameF.rfl' h fun k _ s S h => ?_
  refine relf_bindc (rel_block (h.smat a) _) fun b0 _ => ?_
  refine relf_ite (.of_forall fun _ => Iff.rfl) (fun _ => relf_ok h) fun _ => ?_
  refine relf_bind (rel_setBlock en h _ _ _) fun s S h => ?_
  refine relf_forN SameF.rfl' h fun m _ s S h => ?_
  refine relf_bind (rel_get h hc _ _) fun p p' hp => ?_
  refine relf_bind (rel_sload (h.smat a) _ _) fun q q' hq => ?_
  exact rel_sset st en h _ _ _ (hp.mul hq)

theorem rel_formM (st en : Nat) (h : NStore l X s S) (hc : Direct X c) (hd : Direct X d) :
    RelF l (NStore l X) (fun i => (s i).formM st en a c t d) (S.formM st en a c t d) := by
  unfold Store.formM
  refine relf_bind (rel_srightScale st en h hc) fun s S h => ?_
  exact rel_multiplyTranspose st en h hd

end

end

end Scs
