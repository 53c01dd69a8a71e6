import Verif.SparseRelease
import Verif.PropsSparse

/-!
# Property C112: matrices in release builds

With `NDEBUG` the size checks of `Matrix` are gone. These theorems say what the functions then do with
operands for which the debug build stops at an assert.
-/

namespace Scs

set_option linter.unusedSectionVars false

section
variable {α : Type} [Zero α] [Add α] [Mul α] [Sub α] [Neg α] [Fp α]
variable {st en : Nat} {s : Store α}

/-- C112: for every state and all operands, each function does in a release build exactly what it does in
a debug build, unless the debug build stops at an assert. -/
theorem C112_agrees (s : Store α) (a b t : MId) (c r : Nat) (v : α) :
    Unless Err.IsAssert (s.get a c r) (s.getR a c r) ∧
    Unless Err.IsAssert (s.set a c r v) (s.setR a c r v) ∧
    Unless Err.IsAssert (s.addAt a c r v) (s.addAtR a c r v) ∧
    Unless Err.IsAssert (s.dtor a) (s.dtorR a) ∧
    Unless Err.IsAssert (s.multiply a b t) (s.multiplyR a b t) ∧
    Unless Err.IsAssert (s.transposeMultiply a b t) (s.transposeMultiplyR a b t) ∧
    Unless Err.IsAssert (s.componentMultiply a b t) (s.componentMultiplyR a b t) ∧
    Unless Err.IsAssert (s.leftScale a b t) (s.leftScaleR a b t) ∧
    Unless Err.IsAssert (s.rightScale a b t) (s.rightScaleR a b t) ∧
    Unless Err.IsAssert (s.subtract a b t) (s.subtractR a b t) ∧
    Unless Err.IsAssert (s.addM a b t) (s.addMR a b t) ∧
    Unless Err.IsAssert (s.equals a b v) (s.equalsR a b v) ∧
    Unless Err.IsAssert (s.vectorMagnitudeSquared a) (s.vectorMagnitudeSquaredR a) ∧
    Unless Err.IsAssert (s.dot a b) (s.dotR a b) ∧
    Unless Err.IsAssert (s.madd a b v) (s.maddR a b v) ∧
    Unless Err.IsAssert (s.pmadd a b v) (s.pmaddR a b v) := by
  have one : ∀ {σ : Type} (p : Prop) [Decidable p] (l : String) (x : Exec σ),
      Unless Err.IsAssert (do chk p l; x) x :=
    fun p _ l x => Unless.chk isAssert (Unless.refl _)
  have two : ∀ {σ : Type} (p q : Prop) [Decidable p] [Decidable q] (l l' : String) (x : Exec σ),
      Unless Err.IsAssert (do chk p l; chk q l'; x) x :=
    fun p q _ _ l l' x => Unless.chk isAssert (Unless.chk isAssert (Unless.refl _))
  refine ⟨s.get_unless a c r, s.set_unless a c r v, two _ _ _ _ _, ?_, one _ _ _, one _ _ _, ?_,
    two _ _ _ _ _, two _ _ _ _ _, two _ _ _ _ _, two _ _ _ _ _, ?_, one _ _ _, ?_, two _ _ _ _ _,
    two _ _ _ _ _⟩
  · rw [Store.dtor, Store.dtorR]
    by_cases h : (s.mat a).rows.isNone = true
    · exact .inl (chk_true _ h)
    · exact .inr ⟨_, chk_false _ h, trivial⟩
  · refine Unless.chk isAssert (Unless.chk isAssert (Unless.after fun s => Unless.forN (fun i s =>
      Unless.forN (fun j s => ?_) _ _) _ _))
    exact (s.get_unless a j i).bind fun x => (s.get_unless b j i).bind fun y => s.set_unless t j i _
  · refine Unless.ite (Unless.refl _) (Unless.ite (Unless.refl _) (Unless.forN (fun i acc =>
      Unless.forN (fun j acc => Unless.ite ?_ (Unless.refl _)) _ _) _ _))
    exact (s.get_unless a j i).bind fun x => (s.get_unless b j i).bind fun y => Unless.refl _
  · exact Unless.chk isAssert (Unless.chk isAssert (one _ _ _))

/-- Both outcomes of `C112_agrees` occur: an element inside and one outside a 3 x 2 matrix. -/
example (x y z : α) : ∃ s : Store α, Reachable st en s ∧
    s.get (.user 0) 2 0 = .ok z ∧ s.getR (.user 0) 2 0 = .ok z ∧
    Asserts (s.get (.user 2) 1 0) ∧ s.getR (.user 2) 1 0 = .ok y := by
  obtain ⟨s, h, h1, h2, h3, h4, h5, h6, hz, -, hy⟩ :=
    demo_reachable (st := st) (en := en) (fun _ _ => x) (fun _ _ => 7) x y z
  refine ⟨s, h.any, hz, ?_, (C01_out_of_range s _ (by rw [h5]; omega) x).1, ?_⟩
  · rcases (C112_agrees s (.user 0) (.user 0) (.user 0) 2 0 x).1 with e | ⟨e, he, -⟩
    · rw [← e, hz]
    · rw [hz] at he; cases he
  · have hp := h.inv.plain (.user 2) (show MId.user 2 ≠ .user 0 by decide)
    have := (hp.wrap (h.inv.mat _) (r := 0) (c := 1) (r' := 1) (c' := 0) (by omega) (by omega)
      (by rw [h5])).1
    rw [Store.getR, Store.load, this]
    rw [Store.get_ok s _ (h.inv.mat _) (by omega) (by omega)] at hy
    rw [(h.inv.mat _).load_eq (by omega) (by omega), hy]

/-- C112: in a release build element access beyond the right edge reaches the element with the same
row-major position: column `c` of row `r` is column `(r w + c) mod w` of row `(r w + c) div w`, which is
read or written instead. The matrix is one whose rows were never swapped. -/
theorem C112_access_wraps {P : Restr} (hs : ReachableNS st en P s) {t : MId} (hp : P.plain t)
    {w h c r : Nat} (hw : (s.mat t).width = w) (hh : (s.mat t).height = h) (hr : r < h)
    (hc : r * w + c < h * w) (v : α) :
    s.getR t c r = s.get t ((r * w + c) % w) ((r * w + c) / w) ∧
    s.setR t c r v = s.set t ((r * w + c) % w) ((r * w + c) / w) v ∧
    s.addAtR t c r v = s.addAt t ((r * w + c) % w) ((r * w + c) / w) v := by
  have hw0 : 0 < w := by
    rcases Nat.eq_zero_or_pos w with rfl | h
    · simp at hc
    · exact h
  have hq : (r * w + c) / w < h := Nat.div_lt_of_lt_mul (by rw [Nat.mul_comm w h]; exact hc)
  have hm : (r * w + c) % w < w := Nat.mod_lt _ hw0
  obtain ⟨e1, e2⟩ := (hs.inv.plain t hp).wrap (hs.inv.mat t) (r := r) (c := c)
    (r' := (r * w + c) / w) (c' := (r * w + c) % w) (by omega) (by omega)
    (by rw [hw]; exact (Nat.div_add_mod' _ _).symm)
  have l1 : s.load t r c = s.load t ((r * w + c) / w) ((r * w + c) % w) := e1
  have l2 : ∀ v, s.store t r c v = s.store t ((r * w + c) / w) ((r * w + c) % w) v := fun v => by
    rw [Store.store, Store.store, e2 v]
  refine ⟨?_, ?_, ?_⟩
  · rw [Store.getR, Store.get, chk_true _ (by omega), ok_bind, chk_true _ (by omega), ok_bind, l1]
  · rw [Store.setR, Store.set, chk_true _ (by omega), ok_bind, chk_true _ (by omega), ok_bind, l2]
  · rw [Store.addAtR, Store.addAt, chk_true _ (by omega), ok_bind, chk_true _ (by omega), ok_bind, l1]
    exact congrArg (Bind.bind _) (funext fun x => l2 _)

/-- Column 3 of row 0 of a 2 x 3 matrix is column 1 of row 1. -/
example (x y z : α) : ∃ s s' : Store α, Reachable st en s ∧
    (s.mat (.user 1)).width = 2 ∧ Asserts (s.set (.user 1) 3 0 z) ∧
    s.setR (.user 1) 3 0 z = .ok s' ∧ s'.get (.user 1) 1 1 = .ok z := by
  obtain ⟨s, h, h1, h2, h3, h4, -⟩ :=
    demo_reachable (st := st) (en := en) (fun _ _ => x) (fun _ _ => 7) x y z
  obtain ⟨s', e, g, -⟩ := C01_set_get h.any (.user 1) (c := 1) (r := 1) (by omega) (by omega) z
  exact ⟨s, s', h.any, h3, (C01_out_of_range s _ (by omega) z).2.1,
    (C112_access_wraps h (t := .user 1) (by decide) h3 h4 (c := 3) (r := 0) (by decide) (by decide)
      z).2.1.trans e, g⟩

variable {a b t : MId} {w h w' h' n n' : Nat} {A B : Nat → Nat → α}

/-- C112: in a release build the elementwise functions cut a larger second operand to the size of the
first. -/
theorem C112_larger_operand (hs : Reachable st en s) (ha : s.Shows a w h A) (hb : s.Shows b w' h' B)
    (hw : w ≤ w') (hh : h ≤ h') (k : α) :
    (b ≠ t →
      (∃ s', s.addMR a b t = .ok s' ∧ s'.Shows t w h (fun r c => A r c + B r c) ∧ OthersSame t s s') ∧
      (∃ s', s.subtractR a b t = .ok s' ∧ s'.Shows t w h (fun r c => A r c - B r c) ∧
        OthersSame t s s') ∧
      (∃ s', s.componentMultiplyR a b t = .ok s' ∧ s'.Shows t w h (fun r c => A r c * B r c) ∧
        OthersSame t s s')) ∧
    (b ≠ a →
      (∃ s', s.maddR a b k = .ok s' ∧ s'.Shows a w h (fun r c => A r c + B r c * k) ∧
        OthersSame a s s') ∧
      (∃ s', s.pmaddR a b k = .ok s' ∧ s'.Shows a w h (fun r c => k * A r c + B r c) ∧
        OthersSame a s s')) := by
  have wf := hs.inv.mat
  have h1 : (s.mat a).width ≤ (s.mat b).width := by rw [ha.width, hb.width]; exact hw
  have h2 : (s.mat a).height ≤ (s.mat b).height := by rw [ha.height, hb.height]; exact hh
  have fin : ∀ {x : Exec (Store α)} {t : MId} (op : α → α → α),
      (∃ s', x = .ok s' ∧ Wrote t s s' (s.mat a).width (s.mat a).height
        (fun i j => op ((s.mat a).ent i j) ((s.mat b).ent i j))) →
      ∃ s', x = .ok s' ∧ s'.Shows t w h (fun r c => op (A r c) (B r c)) ∧ OthersSame t s s' := by
    intro x t op ⟨s', e, hq⟩
    rw [ha.width, ha.height] at hq
    exact ⟨s', e, hq.shows.congr (fun r c hr hc => by
      rw [ha.ent hr hc, hb.ent (by omega) (by omega)]), hq.only.others⟩
  refine ⟨fun hbt => ⟨fin (fun x y => x + y) ?_, fin (fun x y => x - y) ?_, fin (fun x y => x * y) ?_⟩,
    fun hba => ⟨fin (fun x y => x + y * k) ?_, fin (fun x y => k * x + y) ?_⟩⟩
  · exact s.map2R_spec a b t _ hbt (wf a) (wf b) (wf t) h1 h2
  · exact s.map2R_spec a b t _ hbt (wf a) (wf b) (wf t) h1 h2
  · exact s.componentMultiplyR_spec a b t hbt (wf a) (wf b) (wf t) h1 h2
  · exact s.upd2R_spec a b (fun x y => x + y * k) hba (wf a) (wf b) h1 h2
  · exact s.upd2R_spec a b (fun x y => k * x + y) hba (wf a) (wf b) h1 h2

/-- C112: in a release build the products use only the rows of the second factor that are needed, and
the scalings only the first column of the scale. -/
theorem C112_larger_factor (hs : Reachable st en s) (ha : s.Shows a w h A) (hb : s.Shows b w' h' B)
    (hbt : b ≠ t) :
    (a ≠ t → w ≤ h' → ∃ s', s.multiplyR a b t = .ok s' ∧
      s'.Shows t w' h (fun r c => sumTo w (fun k => A r k * B k c)) ∧ OthersSame t s s') ∧
    (a ≠ t → h ≤ h' → ∃ s', s.transposeMultiplyR a b t = .ok s' ∧
      s'.Shows t w' w (fun r c => sumTo h (fun k => A k r * B k c)) ∧ OthersSame t s s') ∧
    (1 ≤ w' → h ≤ h' → ∃ s', s.leftScaleR a b t = .ok s' ∧
      s'.Shows t w h (fun r c => B r 0 * A r c) ∧ OthersSame t s s') ∧
    (1 ≤ w' → w ≤ h' → ∃ s', s.rightScaleR a b t = .ok s' ∧
      s'.Shows t w h (fun r c => B c 0 * A r c) ∧ OthersSame t s s') := by
  have wf := hs.inv.mat
  refine ⟨fun hat hd => ?_, fun hat hd => ?_, fun h1 hd => ?_, fun h1 hd => ?_⟩
  · obtain ⟨s', e, hq⟩ := s.multiplyR_spec a b t hat hbt (wf a) (wf b) (wf t)
      (by rw [ha.width, hb.height]; exact hd)
    rw [ha.width, ha.height, hb.width] at hq
    exact ⟨s', e, hq.shows.congr (fun r c hr hc => sumTo_congr (fun k hk => by
      rw [ha.ent hr hk, hb.ent (by omega) hc])), hq.only.others⟩
  · obtain ⟨s', e, hq⟩ := s.transposeMultiplyR_spec a b t hat hbt (wf a) (wf b) (wf t)
      (by rw [ha.height, hb.height]; exact hd)
    rw [ha.width, ha.height, hb.width] at hq
    exact ⟨s', e, hq.shows.congr (fun r c hr hc => sumTo_congr (fun k hk => by
      rw [ha.ent hk hr, hb.ent (by omega) hc])), hq.only.others⟩
  · obtain ⟨s', e, hq⟩ := s.scaleR_spec a t b (fun i _ => i) hbt (wf a) (wf b) (wf t)
      (by rw [hb.width]; exact h1) (fun i j hi _ => by rw [ha.height] at hi; rw [hb.height]; omega)
    rw [ha.width, ha.height] at hq
    exact ⟨s', e, hq.shows.congr (fun r c hr hc => by
      rw [ha.ent hr hc, hb.ent (by omega) (by omega)]), hq.only.others⟩
  · obtain ⟨s', e, hq⟩ := s.scaleR_spec a t b (fun _ j => j) hbt (wf a) (wf b) (wf t)
      (by rw [hb.width]; exact h1) (fun i j _ hj => by rw [ha.width] at hj; rw [hb.height]; omega)
    rw [ha.width, ha.height] at hq
    exact ⟨s', e, hq.shows.congr (fun r c hr hc => by
      rw [ha.ent hr hc, hb.ent (by omega) (by omega)]), hq.only.others⟩

/-- The column (`user 2`, 1 x 2) plus the 2 x 3 matrix (`user 1`) is the column plus the corner of the
matrix in a release build and an assert in a debug build. Their product needs one row of three. -/
example (x y z : α) : ∃ (s s' s2 : Store α) (A B : Nat → Nat → α), Reachable st en s ∧
    s.Shows (.user 2) 1 2 A ∧ s.Shows (.user 1) 2 3 B ∧
    Asserts (s.addM (.user 2) (.user 1) (.user 3)) ∧
    s.addMR (.user 2) (.user 1) (.user 3) = .ok s' ∧
    s'.Shows (.user 3) 1 2 (fun r c => A r c + B r c) ∧
    Asserts (s.multiply (.user 2) (.user 1) (.user 3)) ∧
    s.multiplyR (.user 2) (.user 1) (.user 3) = .ok s2 ∧
    s2.Shows (.user 3) 2 2 (fun r c => sumTo 1 (fun k => A r k * B k c)) := by
  obtain ⟨s, h, h1, h2, h3, h4, h5, h6, -⟩ :=
    demo_reachable (st := st) (en := en) (fun _ _ => x) (fun _ _ => 7) x y z
  have ha := (h.inv.mat (.user 2)).shows
  have hb := (h.inv.mat (.user 1)).shows
  rw [h5, h6] at ha
  rw [h3, h4] at hb
  obtain ⟨s', e, hs', -⟩ := ((C112_larger_operand h.any ha hb (t := .user 3) (by decide) (by decide)
    x).1 (by decide)).1
  obtain ⟨s2, e2, hs2, -⟩ := (C112_larger_factor h.any ha hb (t := .user 3) (by decide)).1 (by decide)
    (by decide)
  have hm := C04_mismatch s (.user 2) (.user 1) (.user 3) x
  exact ⟨s, s', s2, _, _, h.any, ha, hb, (hm.2.2.2.2 (.inl (by omega))).1, e, hs',
    hm.1 (by omega), e2, hs2⟩

/-- C112: in a release build a second operand that has no memory for a row that is needed makes the call
read outside the memory of the matrix: it has undefined behaviour, whatever the contents. `capH` is
the number of rows the matrix has memory for. -/
theorem C112_smaller_operand (hs : Reachable st en s) (ha : s.Shows a w h A) (hw : 0 < w) (hh : 0 < h)
    (k : α) :
    (b ≠ t → (s.mat b).capH < h →
      (∃ e, s.addMR a b t = .error e ∧ e.IsUB) ∧ (∃ e, s.subtractR a b t = .error e ∧ e.IsUB) ∧
      (∃ e, s.componentMultiplyR a b t = .error e ∧ e.IsUB) ∧
      (∃ e, s.leftScaleR a b t = .error e ∧ e.IsUB)) ∧
    (b ≠ a → (s.mat b).capH < h →
      (∃ e, s.maddR a b k = .error e ∧ e.IsUB) ∧ ∃ e, s.pmaddR a b k = .error e ∧ e.IsUB) ∧
    (b ≠ t → (s.mat b).capH < w → ∃ e, s.rightScaleR a b t = .error e ∧ e.IsUB) ∧
    (a ≠ t → b ≠ t → 0 < (s.mat b).width → (s.mat b).capH < w →
      ∃ e, s.multiplyR a b t = .error e ∧ e.IsUB) ∧
    (a ≠ t → b ≠ t → 0 < (s.mat b).width → (s.mat b).capH < h →
      ∃ e, s.transposeMultiplyR a b t = .error e ∧ e.IsUB) ∧
    ((s.mat b).capW * (s.mat b).capH < h → ∃ e, s.dotR a b = .error e ∧ e.IsUB) := by
  have wf := hs.inv.mat
  have h1 : 0 < (s.mat a).width := by rw [ha.width]; exact hw
  have h2 : 0 < (s.mat a).height := by rw [ha.height]; exact hh
  refine ⟨fun hbt hc => ?_, fun hba hc => ?_, fun hbt hc => ?_, fun hat hbt hb hc => ?_,
    fun hat hbt hb hc => ?_, fun hc => ?_⟩
  · have hc' : (s.mat b).capH < (s.mat a).height := by rw [ha.height]; exact hc
    refine ⟨s.map2R_short a b t _ hbt (wf b) (wf t) h1 hc', s.map2R_short a b t _ hbt (wf b) (wf t) h1 hc',
      ?_, s.scaleR_short a t b (fun i _ => i) hbt (wf b) (wf t) hc' h1 (Nat.le_refl _)⟩
    rw [s.componentMultiplyR_eq]
    exact s.map2R_short a b t _ hbt (wf b) (wf t) h1 hc'
  · have hc' : (s.mat b).capH < (s.mat a).height := by rw [ha.height]; exact hc
    exact ⟨s.upd2R_short a b (fun x y => x + y * k) hba (wf b) h1 hc',
      s.upd2R_short a b (fun x y => k * x + y) hba (wf b) h1 hc'⟩
  · exact s.scaleR_short a t b (fun _ j => j) hbt (wf b) (wf t) h2 (by rw [ha.width]; exact hc)
      (Nat.le_refl _)
  · obtain ⟨s1, e1, o, -⟩ := Store.resize_spec2 s t (s.mat b).width (s.mat a).height (wf t)
    rw [Store.multiplyR, e1, ok_bind]
    have ea := o.mat a hat
    have eb := o.mat b hbt
    exact s1.productR_short a b t hbt (by rw [eb]; exact wf b) _ _ _ (fun i _ => i) (fun _ k => k)
      (by rw [ea]; exact h2) (by rw [eb]; exact hb) (by rw [ea, eb, ha.width]; exact hc)
  · obtain ⟨s1, e1, o, -⟩ := Store.resize_spec2 s t (s.mat b).width (s.mat a).width (wf t)
    rw [Store.transposeMultiplyR, e1, ok_bind]
    have ea := o.mat a hat
    have eb := o.mat b hbt
    exact s1.productR_short a b t hbt (by rw [eb]; exact wf b) _ _ _ (fun _ k => k) (fun i _ => i)
      (by rw [ea]; exact h1) (by rw [eb]; exact hb) (by rw [ea, eb, ha.height]; exact hc)
  · exact s.dotR_short a b (wf b) (by rw [ha.height]; exact hc)

/-- The 2 x 3 matrix (`user 1`) plus the column of two (`user 2`). -/
example (junk : Nat → Nat → α) (junkB : Nat → Nat → Nat) (x y : α) :
    ∃ (s : Store α) (A : Nat → Nat → α), Reachable st en s ∧ s.Shows (.user 1) 2 3 A ∧
      (s.mat (.user 2)).height = 2 ∧ (s.mat (.user 2)).capH < 3 ∧
      Asserts (s.addM (.user 1) (.user 2) (.user 3)) ∧
      (∃ e, s.addMR (.user 1) (.user 2) (.user 3) = .error e ∧ e.IsUB) := by
  obtain ⟨s, h, e2, h3, h4, h6⟩ : ∃ s : Store α, Reachable st en s ∧ (s.mat (.user 2)).capH = 2 ∧
      (s.mat (.user 1)).width = 2 ∧ (s.mat (.user 1)).height = 3 ∧ (s.mat (.user 2)).height = 2 :=
    ⟨_, .call (.init (.user 2) 1 2 y) (.call (.init (.user 1) 2 3 x) (.fresh junk junkB) trivial trivial
      rfl) trivial trivial rfl, rfl, rfl, rfl, rfl⟩
  have ha := (h.inv.mat (.user 1)).shows
  rw [h3, h4] at ha
  exact ⟨s, _, h, ha, h6, by omega,
    ((C04_mismatch s (.user 1) (.user 2) (.user 3) x).2.2.2.2 (.inr (by omega))).1,
    ((C112_smaller_operand h ha (b := .user 2) (t := .user 3) (by decide) (by decide) x).1 (by decide)
      (by omega)).1⟩

/-! ## Sparse matrices -/

/-- C112: the same for the functions of `SparseMatrix`. -/
theorem C112_sparse_agrees (s : Store α) (a b t : SId) (d d' : MId) (r e k : Nat) (i : Int) (v : α) :
    Unless Err.IsAssert (s.sdtor a) (s.sdtorR a) ∧
    Unless Err.IsAssert (s.setBlock en a r e i) (s.setBlockR en a r e i) ∧
    Unless Err.IsAssert (s.sset st en a r e k v) (s.ssetR st a r e k v) ∧
    Unless Err.IsAssert (s.sget st en a r e k) (s.sgetR st a r e k) ∧
    Unless Err.IsAssert (s.setEmpty st en a r e) (s.setEmptyR st en a r e) ∧
    Unless Err.IsAssert (s.expand st en a d) (s.expandR st en a d) ∧
    Unless Err.IsAssert (s.expandTransposed st en a d) (s.expandTransposedR st en a d) ∧
    Unless Err.IsAssert (s.multiplyTranspose st en a b d) (s.multiplyTransposeR st en a b d) ∧
    Unless Err.IsAssert (s.transposeMultiplyVector st en a d d')
      (s.transposeMultiplyVectorR st en a d d') ∧
    Unless Err.IsAssert (s.smultiply st en a d d') (s.smultiplyR st en a d d') ∧
    Unless Err.IsAssert (s.srightScale st en a d t) (s.srightScaleR st en a d t) ∧
    Unless Err.IsAssert (s.sleftScale st en a d t) (s.sleftScaleR st en a d t) := by
  refine ⟨?_, s.setBlock_unless en a r e i, s.sset_unless st en a r e k v, ?_, ?_, ?_, ?_, ?_, ?_, ?_,
    ?_, ?_⟩
  · rw [Store.sdtor, Store.sdtorR]
    refine Unless.chk isAssert (Unless.chk isAssert ?_)
    by_cases h : (s.smat a).blocks.isNone = true
    · exact .inl (chk_true _ h)
    · exact .inr ⟨_, chk_false _ h, trivial⟩
  · exact Unless.chk isAssert (Unless.chk isAssert (Unless.chk isAssert (Unless.refl _)))
  · exact Unless.chk isAssert (Unless.chk isAssert (Unless.refl _))
  · exact Unless.after fun s => Unless.forN (fun i s => Unless.forN (fun j s => Unless.after fun q =>
      Unless.ite (Unless.refl _) (Unless.forN (fun k s => Unless.after fun v =>
        s.set_unless d _ _ v) _ _)) _ _) _ _
  · exact Unless.after fun s => Unless.forN (fun i s => Unless.forN (fun j s => Unless.after fun q =>
      Unless.ite (Unless.refl _) (Unless.forN (fun k s => Unless.after fun v =>
        s.set_unless d _ _ v) _ _)) _ _) _ _
  · exact Unless.chk isAssert (Unless.after fun s => Unless.forN (fun i s => Unless.forN (fun j s =>
      Unless.after fun v => s.set_unless d _ _ v) _ _) _ _)
  · exact Unless.chk isAssert (Unless.chk isAssert (Unless.after fun s => Unless.forN (fun i s =>
      Unless.forN (fun j s => Unless.after fun q => Unless.ite (Unless.refl _) (Unless.forN (fun k s =>
        Unless.after fun x => (s.get_unless d _ _).bind fun y => s.addAt_unless d' _ _ _) _ _)) _ _) _ _))
  · exact Unless.chk isAssert (Unless.after fun s => Unless.forN (fun i s => Unless.forN (fun j s =>
      Unless.bind (Unless.forN (fun k v => Unless.after fun q => Unless.ite (Unless.refl _)
        (Unless.forN (fun l v => Unless.after fun x => (s.get_unless d _ _).bind fun y =>
          Unless.refl _) _ _)) _ _) fun v => s.set_unless d' _ _ v) _ _) _ _)
  · exact Unless.chk isAssert (Unless.chk isAssert (Unless.after fun s => Unless.forN (fun i s =>
      Unless.forN (fun j s => Unless.after fun q => Unless.ite (Unless.refl _)
        ((s.setBlock_unless en t i j q).bind fun s => Unless.forN (fun k s =>
          (s.get_unless d _ _).bind fun x => Unless.after fun y => s.sset_unless st en t _ _ _ _) _ _))
        _ _) _ _))
  · exact Unless.chk isAssert (Unless.chk isAssert (Unless.after fun s => Unless.forN (fun i s =>
      Unless.forN (fun j s => Unless.after fun q => Unless.ite (Unless.refl _)
        ((s.setBlock_unless en t i j q).bind fun s => Unless.forN (fun k s =>
          (s.get_unless d _ _).bind fun x => Unless.after fun y => s.sset_unless st en t _ _ _ _) _ _))
        _ _) _ _))

/-- C112: in a release build a value beyond the end of an entry is the value with the same position in
the following entries or rows. -/
theorem C112_sparse_wraps (hs : Reachable st en s) {t : SId} {row entry slice row' entry' slice' : Nat}
    (hr : row < (s.smat t).height) (hr' : row' < (s.smat t).height) (he : entry' < en)
    (hk : slice' < st)
    (e : row * (en * st) + entry * st + slice = row' * (en * st) + entry' * st + slice') (v : α) :
    s.sgetR st t row entry slice = s.sget st en t row' entry' slice' ∧
    s.ssetR st t row entry slice v = s.sset st en t row' entry' slice' v := by
  obtain ⟨e1, e2⟩ := (hs.inv.smat t).wrap (r := row) (c := entry * st + slice) (r' := row')
    (c' := entry' * st + slice') hr hr' (by omega)
  constructor
  · rw [Store.sgetR, Store.sget, chk_true _ hr', ok_bind, chk_true _ he, ok_bind, chk_true _ hk, ok_bind,
      e1]
  · rw [Store.ssetR, Store.sset, chk_true _ hr', ok_bind, chk_true _ he, ok_bind, chk_true _ hk, ok_bind,
      e2]

/-- Slice 4 of the first entry of row 0 is slice 1 of the second entry; entry 2 of row 0 is entry 0 of
row 1. -/
example (junk : Nat → Nat → α) (junkB : Nat → Nat → Nat) (x : α) :
    ∃ s s' : Store α, Reachable 3 2 s ∧ Asserts (s.sset 3 2 (.user 0) 0 0 4 x) ∧
      s.ssetR 3 (.user 0) 0 0 4 x = .ok s' ∧ s'.sget 3 2 (.user 0) 0 1 1 = .ok x ∧
      s.sgetR 3 (.user 0) 0 2 0 = s.sget 3 2 (.user 0) 1 0 0 := by
  obtain ⟨s, h, hh⟩ : ∃ s : Store α, Reachable 3 2 s ∧ (s.smat (.user 0)).height = 2 :=
    ⟨_, .call (.sinit (.user 0) 6 2) (.fresh junk junkB) trivial trivial rfl, rfl⟩
  obtain ⟨s', e, g, -⟩ := C10_set_get h (.user 0) (row := 0) (entry := 1) (slice := 1) (by omega)
    (by decide) (by decide) x
  refine ⟨s, s', h, (C10_out_of_range s _ (by omega) x).2, ?_, g, ?_⟩
  · rw [← e]
    exact (C112_sparse_wraps h (t := .user 0) (row' := 0) (entry' := 1) (slice' := 1) (by omega)
      (by omega) (by decide) (by decide) rfl x).2
  · exact (C112_sparse_wraps h (t := .user 0) (row := 0) (entry := 2) (slice := 0) (row' := 1) (entry' := 0) (slice' := 0) (by omega)
      (by omega) (by decide) (by decide) rfl x).1

/-- C112: in a release build `expand` of a matrix that uses a block beyond its width (`setBlock` accepts
it: it compares the block index with the width in columns) writes into other rows; the debug build
stops. Here row 0 of a 3 x 3 matrix uses block 2, and its values show up in row 2. -/
theorem C112_expand_overwrites (junk : Nat → Nat → α) (junkB : Nat → Nat → Nat) (x y z : α) :
    ∃ s s', exec 3 2 [.sinit (.user 0) 3 3, .setBlock (.user 0) 0 0 2, .sset (.user 0) 0 0 0 x,
        .sset (.user 0) 0 0 1 y, .sset (.user 0) 0 0 2 z] (Store.fresh junk junkB) = .ok s ∧
      Asserts (s.expand 3 2 (.user 0) (.user 0)) ∧
      s.expandR 3 2 (.user 0) (.user 0) = .ok s' ∧
      s'.Shows (.user 0) 3 3 (fun r c => if r = 2 then (if c = 0 then x else if c = 1 then y else z)
        else 0) := by
  refine ⟨_, _, rfl, ⟨"matrix.h:22", rfl⟩, rfl, ⟨rfl, rfl, ?_⟩⟩
  intro r c hr hc
  have hr3 : r = 0 ∨ r = 1 ∨ r = 2 := by omega
  have hc3 : c = 0 ∨ c = 1 ∨ c = 2 := by omega
  rcases hr3 with rfl | rfl | rfl <;> rcases hc3 with rfl | rfl | rfl <;> rfl

end

section Real
variable {st en : Nat} {s : Store ℝ}

open Finset

/-- C112: in a release build the products of a sparse matrix use only the columns both factors have, and
only the rows and the first column of a dense factor that are needed. -/
theorem C112_sparse_products (hst : 0 < st) (hs : Reachable st en s) {a b : SId} {w h w' h' : Nat}
    {A B : Nat → Nat → ℝ} (hl : Layout st en (s.smat a)) (hA : Denotes st en s a w h A) :
    (Layout st en (s.smat b) → Denotes st en s b w' h' B → ∀ t, ∃ s',
      s.multiplyTransposeR st en a b t = .ok s' ∧
      s'.Shows t h' h (fun i j => ∑ c ∈ range (min w w'), A i c * B j c) ∧ OthersSame t s s') ∧
    (∀ {d t : MId} {n m : Nat} {D : Nat → Nat → ℝ}, s.Shows d n m D → d ≠ t → w ≤ m → ∃ s',
      s.smultiplyR st en a d t = .ok s' ∧
      s'.Shows t n h (fun i j => ∑ c ∈ range w, A i c * D c j) ∧ OthersSame t s s') ∧
    (∀ {v t : MId} {n m : Nat} {V : Nat → Nat → ℝ}, s.Shows v n m V → v ≠ t → 1 ≤ n → h ≤ m → ∃ s',
      s.transposeMultiplyVectorR st en a v t = .ok s' ∧
      s'.Shows t 1 w (fun c _ => ∑ i ∈ range h, A i c * V i 0) ∧ OthersSame t s s') := by
  refine ⟨fun hl' hB t => ?_, fun {d t n m D} hD hne hm => ?_, fun {v t n m V} hV hne hn hm => ?_⟩
  · obtain ⟨s', e, hw⟩ := Store.multiplyTransposeR_spec st en hst s a b t (hs.inv.smat a)
      (hs.inv.smat b) hl.inRange (hs.inv.mat t)
    rw [hB.height, hA.height, hA.width] at hw
    refine ⟨s', e, hw.shows.congr (fun i j hi hj => ?_), hw.only.others⟩
    rw [← sum_subset (range_subset_range.mpr (min_le_left w w')) (fun c hc hc' => ?_)]
    · refine sum_congr rfl fun c hc => ?_
      have hc := lt_min_iff.mp (mem_range.mp hc)
      rw [hA.eq_val hst hs hl hi hc.1, hB.eq_val hst hs hl' hj hc.2]
    · have h1 := mem_range.mp hc
      have h2 : w' ≤ c := by
        by_contra h
        exact hc' (mem_range.mpr (lt_min h1 (by omega)))
      have : (s.smat b).val st en j c = 0 := by
        refine SMat.val_zero fun q hq hb e => ?_
        have := (hl'.inRange j q (by rw [hB.height]; exact hj) hq).resolve_left hb
        rw [hB.width] at this
        have hd := eq_of_divmod e
        have := Nat.mod_lt c hst
        omega
      rw [this, mul_zero]
  · obtain ⟨s', e, hw⟩ := Store.smultiplyR_spec st en hst s a d t hne (hs.inv.smat a) (hs.inv.mat d)
      hl.inRange (hs.inv.mat t) (by rw [hA.width, hD.height]; exact hm)
    rw [hD.width, hA.height, hA.width] at hw
    refine ⟨s', e, hw.shows.congr (fun i j hi hj => sum_congr rfl (fun c hc => ?_)), hw.only.others⟩
    rw [hA.eq_val hst hs hl hi (mem_range.mp hc),
      hD.ent (lt_of_lt_of_le (mem_range.mp hc) hm) hj]
  · obtain ⟨s', e, hw⟩ := Store.transposeMultiplyVectorR_spec st en hst s a v t hne (hs.inv.smat a)
      (hs.inv.mat v) hl.inRange (hs.inv.mat t) (by rw [hV.width]; exact hn)
      (by rw [hA.height, hV.height]; exact hm)
    rw [hA.height, hA.width] at hw
    refine ⟨s', e, hw.shows.congr (fun c j hc _ => sum_congr rfl (fun i hi => ?_)), hw.only.others⟩
    rw [hA.eq_val hst hs hl (mem_range.mp hi) hc,
      hV.ent (lt_of_lt_of_le (mem_range.mp hi) hm) (by omega)]

/-- A 9 x 2 matrix with three used blocks times a matrix with twelve rows: refused by the debug build. -/
example : ∃ (s s' : Store ℝ) (A : Nat → Nat → ℝ), Reachable 3 2 s ∧ Denotes 3 2 s (.user 0) 9 2 A ∧
    Asserts (s.smultiply 3 2 (.user 0) (.user 0) (.user 1)) ∧
    s.smultiplyR 3 2 (.user 0) (.user 0) (.user 1) = .ok s' ∧
    s'.Shows (.user 1) 1 2 (fun i _ => ∑ c ∈ range 9, A i c * 4) := by
  obtain ⟨s0, h0, hl0, hw0, hh0, -⟩ := demo_sparse (fun _ _ => 1) (fun _ _ => 7)
  obtain ⟨s, e, hs, o⟩ := C03_init h0.any (.user 0) 1 12 4
  have h : Reachable 3 2 s := .call (.init (.user 0) 1 12 4) h0.any trivial trivial e
  have em : s.smat = s0.smat := o.smat
  have hl : Layout 3 2 (s.smat (.user 0)) := by rw [em]; exact hl0
  obtain ⟨A, hA, -⟩ := C09_expand (by decide) h hl
  rw [em, hw0, hh0] at hA
  obtain ⟨s', e', hs', -⟩ := (C112_sparse_products (b := .user 1) (w' := 0) (h' := 0)
    (B := fun _ _ => 0) (by decide) h hl hA).2.1 hs (t := .user 1) (by decide) (by decide)
  refine ⟨s, s', A, h, hA, ⟨"sparse_matrix.h:197", ?_⟩, e', hs'⟩
  rw [Store.smultiply, chk_false _ (by rw [em, hw0, hs.height]; decide)]
  rfl

end Real

end Scs
