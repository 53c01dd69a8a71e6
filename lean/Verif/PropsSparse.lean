import Verif.PropsMatrix
import Verif.SleSpec

/-!
# Properties C09-C14: sparse matrices

`st` is `T_Stride` and `en` is `T_Entries` (3 and 2 in the library).
-/

namespace Scs

set_option linter.unusedSectionVars false

open Finset

section
variable {α : Type} [Zero α] [Add α] [Mul α] [Sub α] [Neg α] [Fp α]
variable {st en : Nat} {s : Store α} {P : Restr}

/-- Seen through `expand` (into any dense matrix), the sparse matrix `a` is the `w` x `h` matrix with
element `A r c` in row `r`, column `c`. -/
structure Denotes (st en : Nat) (s : Store α) (a : SId) (w h : Nat) (A : Nat → Nat → α) : Prop where
  width : (s.smat a).width = w
  height : (s.smat a).height = h
  expand : ∀ t, ∃ s', s.expand st en a t = .ok s' ∧ s'.Shows t w h A ∧ OthersSame t s s'

/-- A block layout: every entry of a row is unused (255) or names a block inside the width, and no
two used entries of a row name the same block. -/
structure Layout (st en : Nat) (m : SMat α) : Prop where
  inRange : m.InRange st en
  distinct : m.Distinct en

/-! ## C10 -/

/-- C10: `set` writes one entry, and neither another entry nor a block index. -/
theorem C10_set_get (hs : Reachable st en s) (t : SId) {row entry slice : Nat}
    (hr : row < (s.smat t).height) (he : entry < en) (hl : slice < st) (v : α) :
    ∃ s', s.sset st en t row entry slice v = .ok s' ∧ s'.sget st en t row entry slice = .ok v ∧
      (∀ r j k, (r, j, k) ≠ (row, entry, slice) →
        s'.sget st en t r j k = s.sget st en t r j k) ∧
      (s'.smat t).blocks = (s.smat t).blocks ∧ (s'.smat t).width = (s.smat t).width ∧
      (s'.smat t).height = (s.smat t).height ∧ OthersSameS t s s' := by
  have wf := hs.inv.smat t
  obtain ⟨s', e, o, _, sh, hb, hv⟩ := Store.sset_spec st en s t wf hr he hl v
  have wf' := sh.wf wf
  refine ⟨s', e, ?_, ?_, hb, sh.width, sh.height, o.others⟩
  · rw [Store.sget_ok st en s' t wf' (by rw [sh.height]; exact hr) he hl,
      hv _ _ hr (packed_lt he hl), if_pos ⟨rfl, rfl⟩]
  · intro r j k hne
    by_cases h1 : r < (s.smat t).height
    · by_cases h2 : j < en
      · by_cases h3 : k < st
        · rw [Store.sget_ok st en s' t wf' (by rw [sh.height]; exact h1) h2 h3,
            Store.sget_ok st en s t wf h1 h2 h3, hv _ _ h1 (packed_lt h2 h3), if_neg]
          rintro ⟨q1, q2⟩
          obtain ⟨q3, q4⟩ := idx_inj h3 hl q2
          exact hne (by rw [q1, q3, q4])
        · rw [Store.sget, Store.sget, sh.height, chk_true _ h1, ok_bind, ok_bind, chk_true _ h2,
            ok_bind, ok_bind, chk_false _ h3]; rfl
      · rw [Store.sget, Store.sget, sh.height, chk_true _ h1, ok_bind, ok_bind, chk_false _ h2]; rfl
    · rw [Store.sget, Store.sget, sh.height, chk_false _ h1]; rfl

/-- C10: `setBlock` changes one block index and no entry. -/
theorem C10_setBlock (hs : Reachable st en s) (t : SId) {row entry i : Nat}
    (hr : row < (s.smat t).height) (he : entry < en) (hi : i < 256) (hw : i < (s.smat t).width) :
    ∃ s', s.setBlock en t row entry i = .ok s' ∧ (s'.smat t).blk en row entry = i ∧
      (∀ r j, r < (s.smat t).height → j < en → (r, j) ≠ (row, entry) →
        (s'.smat t).blk en r j = (s.smat t).blk en r j) ∧
      (∀ r j k, s'.sget st en t r j k = s.sget st en t r j k) ∧
      (s'.smat t).width = (s.smat t).width ∧
      (s'.smat t).height = (s.smat t).height ∧ OthersSameS t s s' := by
  have wf := hs.inv.smat t
  have hm : ((i : Int) % 256).toNat = i := by omega
  obtain ⟨s', e, o, _, sh, hd, hb⟩ := Store.setBlock_spec st en s t wf (index := i) hr he
    (by rw [hm]; exact hw)
  refine ⟨s', e, ?_, ?_, ?_, sh.width, sh.height, o.others⟩
  · rw [hb _ _ hr he, if_pos ⟨rfl, rfl⟩, hm]
  · intro r j h1 h2 hne
    rw [hb _ _ h1 h2, if_neg]
    rintro ⟨rfl, rfl⟩; exact hne rfl
  · intro r j k
    simp only [Store.sget, sh.height, SMat.load, sh.rows, hd]

/-- C10: `setEmpty` removes one block: its index becomes "unused" and its values zero. -/
theorem C10_setEmpty (hs : Reachable st en s) (t : SId) {row entry : Nat}
    (hr : row < (s.smat t).height) (he : entry < en) :
    ∃ s', s.setEmpty st en t row entry = .ok s' ∧ (s'.smat t).blk en row entry = 255 ∧
      (∀ r j, r < (s.smat t).height → j < en → (r, j) ≠ (row, entry) →
        (s'.smat t).blk en r j = (s.smat t).blk en r j) ∧
      (∀ k, k < st → s'.sget st en t row entry k = .ok 0) ∧
      (∀ r j k, (r, j) ≠ (row, entry) → s'.sget st en t r j k = s.sget st en t r j k) ∧
      (s'.smat t).width = (s.smat t).width ∧
      (s'.smat t).height = (s.smat t).height ∧ OthersSameS t s s' := by
  have wf := hs.inv.smat t
  obtain ⟨s', e, o, _, sh, hb, hv⟩ := Store.setEmpty_spec st en s t wf hr he
  have wf' := sh.wf wf
  refine ⟨s', e, ?_, ?_, ?_, ?_, sh.width, sh.height, o.others⟩
  · rw [hb _ _ hr he, if_pos ⟨rfl, rfl⟩]
  · intro r j h1 h2 hne
    rw [hb _ _ h1 h2, if_neg]
    rintro ⟨rfl, rfl⟩; exact hne rfl
  · intro k hk
    rw [Store.sget_ok st en s' t wf' (by rw [sh.height]; exact hr) he hk, hv _ _ _ hr he hk,
      if_pos ⟨rfl, rfl⟩]
  · intro r j k hne
    by_cases h1 : r < (s.smat t).height
    · by_cases h2 : j < en
      · by_cases h3 : k < st
        · rw [Store.sget_ok st en s' t wf' (by rw [sh.height]; exact h1) h2 h3,
            Store.sget_ok st en s t wf h1 h2 h3, hv _ _ _ h1 h2 h3, if_neg]
          rintro ⟨rfl, rfl⟩; exact hne rfl
        · rw [Store.sget, Store.sget, sh.height, chk_true _ h1, ok_bind, ok_bind, chk_true _ h2,
            ok_bind, ok_bind, chk_false _ h3]; rfl
      · rw [Store.sget, Store.sget, sh.height, chk_true _ h1, ok_bind, ok_bind, chk_false _ h2]; rfl
    · rw [Store.sget, Store.sget, sh.height, chk_false _ h1]; rfl

/-- C10: entry access outside the matrix stops at an assert, in every state. -/
theorem C10_out_of_range (s : Store α) (t : SId) {row entry slice : Nat}
    (h : ¬(row < (s.smat t).height ∧ entry < en ∧ slice < st)) (v : α) :
    Asserts (s.sget st en t row entry slice) ∧ Asserts (s.sset st en t row entry slice v) := by
  by_cases h1 : row < (s.smat t).height
  · by_cases h2 : entry < en
    · have h3 : ¬ slice < st := fun h3 => h ⟨h1, h2, h3⟩
      refine ⟨⟨"sparse_matrix.h:125", ?_⟩, ⟨"sparse_matrix.h:117", ?_⟩⟩
      · rw [Store.sget, chk_true _ h1, ok_bind, chk_true _ h2, ok_bind, chk_false _ h3]; rfl
      · rw [Store.sset, chk_true _ h1, ok_bind, chk_true _ h2, ok_bind, chk_false _ h3]; rfl
    · refine ⟨⟨"sparse_matrix.h:124", ?_⟩, ⟨"sparse_matrix.h:116", ?_⟩⟩
      · rw [Store.sget, chk_true _ h1, ok_bind, chk_false _ h2]; rfl
      · rw [Store.sset, chk_true _ h1, ok_bind, chk_false _ h2]; rfl
  · refine ⟨⟨"sparse_matrix.h:123", ?_⟩, ⟨"sparse_matrix.h:115", ?_⟩⟩
    · rw [Store.sget, chk_false _ h1]; rfl
    · rw [Store.sset, chk_false _ h1]; rfl

/-! ## C11 -/

/-- C11 violated: once a sparse matrix with `n` rows has been destroyed, initialising it with
between one and `n` rows writes through a null pointer, whatever happened before. -/
theorem C11_reinit_null (hs : Reachable st en s) (t : SId) (w : Nat) {h : Nat} (h0 : 0 < h)
    (hh : h ≤ (s.smat t).height) :
    ∃ s', s.sdestroy t = .ok s' ∧ s'.sinit st en t w h = .error .null := by
  refine ⟨_, rfl, ?_⟩
  have hi : Inv st en Restr.none (s.setSMat t (s.smat t).destroy) := hs.inv.sdestroy t id
  have hc : ∃ rb, (s.smat t).rows = some rb ∧ h ≤ (s.smat t).capH := by
    rcases hs.inv.smat t with ⟨_, _, _, h4⟩ | ⟨rb, db, bb, h1, _, _, _, _, _, h7, _⟩
    · omega
    · exact ⟨rb, h1, by omega⟩
  obtain ⟨rb, hrb, hcap⟩ := hc
  rw [Store.sinit, Store.sresize_null (hi.smat t)]
  · rfl
  · simp only [Store.setSMat_same, SMat.destroy, hrb]
    rintro (h | h | h)
    · have := h rfl; simp only at this; omega
    · omega
    · omega

/-- C11 (partial): a destroyed sparse matrix can be initialised again with no rows or with more rows
than it ever had capacity for. Missing: `0 < h ≤ capacity`, where the code writes through null
(`C11_reinit_null`). -/
theorem C11_reinit_partial (hst : 0 < st) (hs : Reachable st en s) (t : SId) (w h : Nat)
    (hh : h = 0 ∨ (s.smat t).capH < h) :
    ∃ s' s'', s.sdestroy t = .ok s' ∧ s'.sinit st en t w h = .ok s'' ∧
      Denotes st en s'' t w h (fun _ _ => 0) := by
  have hi : Inv st en Restr.none (s.setSMat t (s.smat t).destroy) := hs.inv.sdestroy t id
  have hcap : (s.smat t).destroy.capH = (s.smat t).capH := by
    unfold SMat.destroy; split <;> rfl
  obtain ⟨s1, e1, o1, wf1, hw1, hh1, _⟩ := Store.sresize_spec' (w := w) (h := h) (hi.smat t)
    (Or.inr (by simp only [Store.setSMat_same, hcap]; exact hh))
  obtain ⟨m', e2, sh, hd, hb⟩ := SMat.clear_spec wf1 (Nat.le_refl _)
  have hempty : ∀ r j, r < h → j < en → m'.blk en r j = 255 := by
    intro r j hr hj
    apply SMat.blk_of_block
    apply hb
    rw [hh1]
    exact idx_lt hr hj (Nat.le_refl _) (Nat.le_refl _)
  have hi2 : Inv st en Restr.none (s1.setSMat t m') :=
    (Same.of_setSMat sh).inv (hi.of_onlyS o1 wf1 (fun p => p.elim))
  have hwd : m'.width = w := sh.width.trans hw1
  have hht : m'.height = h := sh.height.trans hh1
  refine ⟨_, s1.setSMat t m', rfl, ?_, ?_, ?_, ?_⟩
  · rw [Store.sinit, e1, ok_bind, e2]; rfl
  · simpa using hwd
  · simpa using hht
  · intro t'
    obtain ⟨s2, e3, h3⟩ := Store.expand_spec st en hst (s1.setSMat t m') t t' (hi2.smat t)
      (by
        simp only [Store.setSMat_same]
        intro r j hr hj
        exact Or.inl (hempty r j (by rw [← hht]; exact hr) hj)) (hi2.mat t')
    simp only [Store.setSMat_same, hwd, hht] at h3
    refine ⟨s2, e3, h3.shows.congr ?_, h3.only.others⟩
    intro r c hr hc
    have : ∀ j, j ≤ en → m'.expTo st en r c j = 0 := by
      intro j hj
      induction j with
      | zero => rfl
      | succ j ih =>
        rw [SMat.expTo, if_neg, ih (by omega)]
        rintro ⟨h1, _⟩
        exact h1 (hempty r j hr (by omega))
    exact this en (Nat.le_refl _)

/-! ## C12 -/

/-- The call is a function of `SparseMatrix`. -/
def Call.IsSparse : Call α → Prop
  | .sdestroy .. | .sdtor .. | .sresize .. | .sinit .. | .setBlock .. | .sset .. | .sget ..
  | .setEmpty .. | .expand .. | .expandTransposed .. | .multiplyTranspose ..
  | .transposeMultiplyVector .. | .smultiply .. | .srightScale .. | .sleftScale .. => True
  | _ => False

theorem ok_or_asserts {σ : Type} {x : Exec σ} {Q : σ → Prop} (h : Wp x Q Err.IsAssert) :
    (∃ s', x = .ok s') ∨ Asserts x := by
  cases x with
  | ok s' => exact Or.inl ⟨s', rfl⟩
  | error er =>
    cases er with
    | assert loc => exact Or.inr ⟨loc, rfl⟩
    | _ => exact h.elim

/-- C12 (partial): in programs that never destroy a sparse matrix, every call of a function of
`SparseMatrix`, with any arguments and any aliasing, succeeds or stops at an assert. Missing: sparse
matrices that are used again after `destroy`, see `C12_reinit_unsafe`. -/
theorem C12_call_safe_partial (hs : ReachableNS st en P s) (hk : ∀ i, P.kept i) (c : Call α)
    (hc : c.IsSparse) : (∃ s', run st en c s = .ok s') ∨ Asserts (run st en c s) := by
  have hi := hs.inv
  refine ok_or_asserts (Q := Inv st en Restr.none) (run_safe (hs.any).inv c ?_ ?_)
  · cases c with
    | sresize t w h => exact Or.inl (hi.fresh t (hk t))
    | sinit t w h => exact Or.inl (hi.fresh t (hk t))
    | srightScale a sc t => exact Or.inl (hi.fresh t (hk t))
    | sleftScale a sc t => exact Or.inl (hi.fresh t (hk t))
    | sdestroy | sdtor | setBlock | sset | sget | setEmpty | expand | expandTransposed
    | multiplyTranspose | transposeMultiplyVector | smultiply => trivial
    | _ => exact hc.elim
  · cases c <;> first | trivial | exact id

/-- C12 (partial): the exact memory safety condition of `resize` and `initialize`, also after
`destroy`: the matrix owns storage or never did, or the new height is zero or exceeds the remembered
capacity. -/
theorem C12_resize_safe_iff (hs : Reachable st en s) (t : SId) (w h : Nat) :
    ((s.smat t).Fresh ∨ h = 0 ∨ (s.smat t).capH < h) ↔
      s.sresize st en t w h ≠ .error .null := by
  constructor
  · intro hf
    obtain ⟨s', e, _⟩ := Store.sresize_spec' (w := w) (hs.inv.smat t) hf
    rw [e]; simp
  · intro h1
    by_contra h2
    exact h1 (Store.sresize_null (hs.inv.smat t) h2)

/-- C12 violated: a complete program. -/
theorem C12_reinit_unsafe (junk : Nat → Nat → α) (junkB : Nat → Nat → Nat) (w w' : Nat) :
    exec st en [.sinit (.user 0) w 0, .sresize (.user 0) w 1, .sdestroy (.user 0),
      .sinit (.user 0) w' 1] (Store.fresh junk junkB) = .error .null := by
  have h0 : Reachable st en (Store.fresh junk junkB) := .fresh junk junkB
  obtain ⟨s1, e1, _, wf1, f1, _⟩ := Store.sinit_spec st en (Store.fresh junk junkB) (.user 0) w 0
    (h0.inv.smat _) SMat.empty_fresh
  have r1 : Reachable st en s1 := .call (.sinit (.user 0) w 0) h0 trivial trivial e1
  obtain ⟨s2, e2, _, wf2, f2, _, hh2, _⟩ := Store.sresize_spec st en s1 (.user 0) w 1 wf1 f1
  have r2 : Reachable st en s2 := .call (.sresize (.user 0) w 1) r1 trivial trivial e2
  obtain ⟨s3, e3, h3⟩ := C11_reinit_null r2 (.user 0) w' (h := 1) (by omega) (by omega)
  simp only [exec, run, e1, ok_bind, e2, e3, h3]
  rfl

end

section Real
variable {st en : Nat} {s : Store ℝ} {P : Restr} {a b : SId} {w h : Nat} {A B : Nat → Nat → ℝ}

/-! ## C09 -/

theorem Layout.denotes (hst : 0 < st) (hs : Reachable st en s) (hl : Layout st en (s.smat a)) :
    Denotes st en s a (s.smat a).width (s.smat a).height ((s.smat a).val st en) := by
  refine ⟨rfl, rfl, fun t => ?_⟩
  obtain ⟨s', e, hw⟩ := Store.expand_val st en hst s a t (hs.inv.smat a) hl.inRange hl.distinct
    (hs.inv.mat t)
  exact ⟨s', e, hw.shows, hw.only.others⟩

theorem Denotes.eq_val (hst : 0 < st) (hs : Reachable st en s) (hl : Layout st en (s.smat a))
    (hA : Denotes st en s a w h A) {r c : Nat} (hr : r < h) (hc : c < w) :
    (s.smat a).val st en r c = A r c := by
  obtain ⟨s1, e1, h1, _⟩ := (hl.denotes hst hs).expand (.user 0)
  obtain ⟨s2, e2, h2, _⟩ := hA.expand (.user 0)
  rw [e1] at e2
  cases e2
  have q1 := h1.get r c (by rw [hA.height]; exact hr) (by rw [hA.width]; exact hc)
  rw [h2.get r c hr hc] at q1
  exact (Except.ok.inj q1).symm

/-- The dense matrix an entry contributes to. -/
theorem SMat.val_entry {m : SMat ℝ} (hd : m.Distinct en) {r j k : Nat}
    (hr : r < m.height) (hj : j < en) (hk : k < st) (hb : m.blk en r j ≠ 255) :
    m.val st en r (m.blk en r j * st + k) = m.ent r (j * st + k) := by
  obtain ⟨d1, d2⟩ := divmod_of (b := m.blk en r j) hk
  rw [SMat.val, sum_eq_single j]
  · rw [d1, d2, if_pos ⟨hb, rfl⟩]
  · intro j' hj' hne
    rw [d1, if_neg]
    rintro ⟨_, q2⟩
    exact hne (hd r j j' hr hj (mem_range.mp hj') hb q2).symm
  · intro h; exact absurd (mem_range.mpr hj) h

theorem SMat.val_zero {m : SMat ℝ} {r c : Nat}
    (h : ∀ j, j < en → m.blk en r j ≠ 255 → c / st ≠ m.blk en r j) : m.val st en r c = 0 := by
  rw [SMat.val]
  refine sum_eq_zero (fun j hj => ?_)
  rw [if_neg]
  rintro ⟨h1, h2⟩
  exact h j (mem_range.mp hj) h1 h2

/-- C09: `expand` puts the values of every used entry in the columns of its block and zero
elsewhere. -/
theorem C09_expand (hst : 0 < st) (hs : Reachable st en s) (hl : Layout st en (s.smat a)) :
    ∃ A, Denotes st en s a (s.smat a).width (s.smat a).height A ∧
      (∀ r j k, r < (s.smat a).height → j < en → k < st → (s.smat a).blk en r j ≠ 255 →
        s.sget st en a r j k = .ok (A r ((s.smat a).blk en r j * st + k))) ∧
      (∀ r c, (∀ j, j < en → (s.smat a).blk en r j ≠ 255 → c / st ≠ (s.smat a).blk en r j) →
        A r c = 0) := by
  refine ⟨_, hl.denotes hst hs, ?_, ?_⟩
  · intro r j k hr hj hk hb
    rw [Store.sget_ok st en s a (hs.inv.smat a) hr hj hk, SMat.val_entry hl.distinct hr hj hk hb]
  · intro r c h
    exact SMat.val_zero h

/-- C09: `expandTransposed` is the transpose of `expand`. -/
theorem C09_expandTransposed (hst : 0 < st) (hs : Reachable st en s) (hl : Layout st en (s.smat a))
    (hA : Denotes st en s a w h A) (t : MId) :
    ∃ s', s.expandTransposed st en a t = .ok s' ∧ s'.Shows t h w (fun r c => A c r) ∧
      OthersSame t s s' := by
  obtain ⟨s', e, hw⟩ := Store.expandTransposed_val st en hst s a t (hs.inv.smat a) hl.inRange
    hl.distinct (hs.inv.mat t)
  rw [hA.width, hA.height] at hw
  exact ⟨s', e, hw.shows.congr (fun r c hr hc => hA.eq_val hst hs hl hc hr), hw.only.others⟩

/-- C09: `multiply` is the product of what `expand` shows with the dense operand. -/
theorem C09_multiply (hst : 0 < st) (hs : Reachable st en s) (hl : Layout st en (s.smat a))
    (hA : Denotes st en s a w h A) {d t : MId} {n : Nat} {D : Nat → Nat → ℝ}
    (hD : s.Shows d n w D) (hne : d ≠ t) :
    ∃ s', s.smultiply st en a d t = .ok s' ∧
      s'.Shows t n h (fun i j => ∑ c ∈ range w, A i c * D c j) ∧ OthersSame t s s' := by
  obtain ⟨s', e, hw⟩ := Store.smultiply_spec st en hst s a d t hne (hs.inv.smat a) (hs.inv.mat d)
    hl.inRange (hs.inv.mat t) (by rw [hA.width, hD.height])
  rw [hD.width, hA.height, hA.width] at hw
  refine ⟨s', e, hw.shows.congr (fun i j hi hj => sum_congr rfl (fun c hc => ?_)), hw.only.others⟩
  rw [hA.eq_val hst hs hl hi (mem_range.mp hc), hD.ent (mem_range.mp hc) hj]

/-- C09: `multiplyTranspose` is `A * Bᵀ`. -/
theorem C09_multiplyTranspose (hst : 0 < st) (hs : Reachable st en s)
    (hl : Layout st en (s.smat a)) (hl' : Layout st en (s.smat b)) (hA : Denotes st en s a w h A)
    {h' : Nat} (hB : Denotes st en s b w h' B) (t : MId) :
    ∃ s', s.multiplyTranspose st en a b t = .ok s' ∧
      s'.Shows t h' h (fun i j => ∑ c ∈ range w, A i c * B j c) ∧ OthersSame t s s' := by
  obtain ⟨s', e, hw⟩ := Store.multiplyTranspose_spec st en hst s a b t (hs.inv.smat a)
    (hs.inv.smat b) hl.inRange (hs.inv.mat t) (by rw [hA.width, hB.width])
  rw [hB.height, hA.height, hA.width] at hw
  refine ⟨s', e, hw.shows.congr (fun i j hi hj => sum_congr rfl (fun c hc => ?_)), hw.only.others⟩
  rw [hA.eq_val hst hs hl hi (mem_range.mp hc), hB.eq_val hst hs hl' hj (mem_range.mp hc)]

/-- C09: `transposeMultiplyVector` is `Aᵀ * v`. -/
theorem C09_transposeMultiplyVector (hst : 0 < st) (hs : Reachable st en s)
    (hl : Layout st en (s.smat a)) (hA : Denotes st en s a w h A) {v t : MId} {V : Nat → Nat → ℝ}
    (hV : s.Shows v 1 h V) (hne : v ≠ t) :
    ∃ s', s.transposeMultiplyVector st en a v t = .ok s' ∧
      s'.Shows t 1 w (fun c _ => ∑ i ∈ range h, A i c * V i 0) ∧ OthersSame t s s' := by
  obtain ⟨s', e, hw⟩ := Store.transposeMultiplyVector_spec st en hst s a v t hne (hs.inv.smat a)
    (hs.inv.mat v) hl.inRange (hs.inv.mat t) hV.width (by rw [hA.height, hV.height])
  rw [hA.height, hA.width] at hw
  refine ⟨s', e, hw.shows.congr (fun c j hc _ => sum_congr rfl (fun i hi => ?_)), hw.only.others⟩
  rw [hA.eq_val hst hs hl (mem_range.mp hi) hc, hV.ent (mem_range.mp hi) (by decide)]

theorem SWrote.layout' {t : SId} {s' : Store ℝ} {X : Nat → Nat → Nat → ℝ}
    (hw : SWrote st en t s s' (s.smat a).width (s.smat a).height ((s.smat a).blk en) X)
    (hl : Layout st en (s.smat a)) : Layout st en (s'.smat t) := by
  refine ⟨hw.layout hl.inRange, ?_⟩
  intro r j j' hr hj hj' hb he
  rw [hw.height] at hr
  rw [hw.blk r j hr hj] at hb he
  rw [hw.blk r j' hr hj'] at he
  exact hl.distinct r j j' hr hj hj' hb he

/-- C09 (partial): `leftScale` into another sparse matrix scales the rows of what `expand` shows.
Missing: scaling in place, which erases the matrix (`C09_scale_in_place_erases`), and targets
that were destroyed (C11). -/
theorem C09_leftScale_partial (hst : 0 < st) (hs : ReachableNS st en P s)
    (hl : Layout st en (s.smat a)) (hA : Denotes st en s a w h A) {t : SId} (hne : a ≠ t)
    (hk : P.kept t) {v : MId} {V : Nat → Nat → ℝ} (hV : s.Shows v 1 h V) :
    ∃ s', s.sleftScale st en a v t = .ok s' ∧
      Denotes st en s' t w h (fun r c => V r 0 * A r c) ∧ Layout st en (s'.smat t) ∧
      OthersSameS t s s' := by
  obtain ⟨s', e, hw⟩ := Store.sleftScale_spec st en hst s a t v hne (hs.inv.smat a) hl.inRange
    (hs.inv.smat t) (hs.inv.fresh t hk) (hs.inv.mat v) (Or.inl hV.width)
    (by rw [hV.height, hA.height])
  have hr' : Reachable st en s' := .call (.sleftScale a v t) hs.any trivial trivial e
  have hl' := hw.layout' hl
  have hd := hl'.denotes hst hr'
  rw [hw.width, hw.height, hA.width, hA.height] at hd
  refine ⟨s', e, ⟨hd.width, hd.height, fun t' => ?_⟩, hl', hw.only.others⟩
  obtain ⟨s2, e2, h2, o2⟩ := hd.expand t'
  refine ⟨s2, e2, h2.congr (fun r c hr hc => ?_), o2⟩
  rw [SWrote.val (f := fun r _ => (s.mat v).ent r 0) hw hst (by rw [hA.height]; exact hr),
    hA.eq_val hst hs.any hl hr hc, hV.ent hr (by decide)]

/-- C09 (partial): `rightScale` into another sparse matrix scales the columns. Missing: as for
`C09_leftScale_partial`. -/
theorem C09_rightScale_partial (hst : 0 < st) (hs : ReachableNS st en P s)
    (hl : Layout st en (s.smat a)) (hA : Denotes st en s a w h A) {t : SId} (hne : a ≠ t)
    (hk : P.kept t) {v : MId} {V : Nat → Nat → ℝ} (hV : s.Shows v 1 w V) :
    ∃ s', s.srightScale st en a v t = .ok s' ∧
      Denotes st en s' t w h (fun r c => A r c * V c 0) ∧ Layout st en (s'.smat t) ∧
      OthersSameS t s s' := by
  obtain ⟨s', e, hw⟩ := Store.srightScale_spec st en hst s a t v hne (hs.inv.smat a) hl.inRange
    (hs.inv.smat t) (hs.inv.fresh t hk) (hs.inv.mat v) hV.width (by rw [hV.height, hA.width])
  have hr' : Reachable st en s' := .call (.srightScale a v t) hs.any trivial trivial e
  have hl' := hw.layout' hl
  have hd := hl'.denotes hst hr'
  rw [hw.width, hw.height, hA.width, hA.height] at hd
  refine ⟨s', e, ⟨hd.width, hd.height, fun t' => ?_⟩, hl', hw.only.others⟩
  obtain ⟨s2, e2, h2, o2⟩ := hd.expand t'
  refine ⟨s2, e2, h2.congr (fun r c hr hc => ?_), o2⟩
  rw [SWrote.val (f := fun _ c => (s.mat v).ent c 0) hw hst (by rw [hA.height]; exact hr),
    hA.eq_val hst hs.any hl hr hc, hV.ent hc (by decide), mul_comm]

/-- A sparse matrix all of whose entries are unused is zero. -/
theorem denotes_zero (hst : 0 < st) (hs : Reachable st en s) (hw : (s.smat a).width = w)
    (hh : (s.smat a).height = h) (hb : ∀ r j, r < h → j < en → (s.smat a).blk en r j = 255) :
    Layout st en (s.smat a) ∧ Denotes st en s a w h (fun _ _ => 0) := by
  subst hw hh
  have hl : Layout st en (s.smat a) :=
    ⟨fun r j hr hj => Or.inl (hb r j hr hj), fun r j j' hr hj _ hne => absurd (hb r j hr hj) hne⟩
  refine ⟨hl, rfl, rfl, fun t => ?_⟩
  obtain ⟨s2, e2, h2, o2⟩ := (hl.denotes hst hs).expand t
  exact ⟨s2, e2, h2.congr (fun r c hr hc => SMat.val_zero (fun j hj hne =>
    absurd (hb r j hr hj) hne)), o2⟩

/-- C09 violated: scaling a sparse matrix in place erases it. -/
theorem C09_scale_in_place_erases (hst : 0 < st) (hs : ReachableNS st en P s) (hk : P.kept a)
    {v : MId} {V : Nat → Nat → ℝ} :
    (s.Shows v 1 (s.smat a).height V → ∃ s', s.sleftScale st en a v a = .ok s' ∧
      Denotes st en s' a (s.smat a).width (s.smat a).height (fun _ _ => 0)) ∧
    (s.Shows v 1 (s.smat a).width V → ∃ s', s.srightScale st en a v a = .ok s' ∧
      Denotes st en s' a (s.smat a).width (s.smat a).height (fun _ _ => 0)) := by
  obtain ⟨s1, e1, o1, wf1, f1, w1, hh1, b1⟩ := Store.sinit_spec st en s a (s.smat a).width
    (s.smat a).height (hs.inv.smat a) (hs.inv.fresh a hk)
  have r1 : Reachable st en s1 := .call (.sinit a _ _) hs.any trivial trivial e1
  have hz := (denotes_zero hst r1 w1 hh1 b1).2
  have loop : ∀ body : Nat → Nat → Nat → Store ℝ → Exec (Store ℝ),
      forN (s1.smat a).height (fun i s => forN en (fun j s => do
        let index ← (s.smat a).block (i * en + j)
        if index = 255 then .ok s else body i j index s) s) s1 = .ok s1 := by
    intro body
    have key : Wp (forN (s1.smat a).height (fun i s => forN en (fun j s => do
        let index ← (s.smat a).block (i * en + j)
        if index = 255 then .ok s else body i j index s) s) s1) (fun s => s = s1) noErr := by
      refine wp_forN (I := fun _ s => s = s1) rfl (fun i hi s hs => ?_)
      refine wp_forN (I := fun _ s => s = s1) hs (fun j hj s hs => ?_)
      subst hs
      rw [wf1.block_eq hi hj, ok_bind, b1 i j (by rw [← hh1]; exact hi) hj, if_pos rfl, wp_ok]
    obtain ⟨s', e, h⟩ := wp_noErr_iff.mp key
    rw [e, h]
  refine ⟨fun hV => ⟨s1, ?_, hz⟩, fun hV => ⟨s1, ?_, hz⟩⟩
  · rw [Store.sleftScale, chk_true _ (Or.inl hV.width), ok_bind, chk_true _ hV.height, ok_bind, e1,
      ok_bind]
    exact loop _
  · rw [Store.srightScale, chk_true _ hV.width, ok_bind, chk_true _ hV.height, ok_bind, e1, ok_bind]
    exact loop _

/-! ## C13 -/

/-- C13 (partial): below 255, `setBlock(row, entry, i)` makes the entry denote the columns
`i*st .. i*st+st-1`. Missing: `i >= 255`, where the code is wrong (`C13_block_255`,
`C13_block_256`). -/
theorem C13_setBlock_partial (hst : 0 < st) (hs : Reachable st en s)
    (hl : Layout st en (s.smat a)) {row entry i : Nat} (hr : row < (s.smat a).height)
    (he : entry < en) (hi : i < 255) (hw : i * st + st ≤ (s.smat a).width)
    (hd : ∀ j, j < en → j ≠ entry → (s.smat a).blk en row j ≠ i) :
    ∃ s' A, s.setBlock en a row entry i = .ok s' ∧ Layout st en (s'.smat a) ∧
      Denotes st en s' a (s.smat a).width (s.smat a).height A ∧
      ∀ k, k < st → s.sget st en a row entry k = .ok (A row (i * st + k)) := by
  have hi1 : i < (s.smat a).width := by
    have := Nat.le_mul_of_pos_right i hst
    omega
  obtain ⟨s', e, hb, hb', hg, hw', hh', o⟩ := C10_setBlock hs a hr he (by omega) hi1
  have r' : Reachable st en s' := .call (.setBlock a row entry i) hs trivial trivial e
  have hl' : Layout st en (s'.smat a) := by
    refine ⟨?_, ?_⟩
    · intro r j hr' hj
      rw [hh'] at hr'
      by_cases hc : (r, j) = (row, entry)
      · cases hc; rw [hb, hw']; exact Or.inr ⟨hi, hw⟩
      · rw [hb' r j hr' hj hc, hw']; exact hl.inRange r j hr' hj
    · intro r j j' hr' hj hj' hne heq
      rw [hh'] at hr'
      by_cases hc : (r, j) = (row, entry)
      · cases hc
        by_cases hc' : j' = entry
        · exact hc'.symm
        · rw [hb, hb' row j' hr hj' (fun h => hc' (Prod.mk.inj h).2)] at heq
          exact absurd heq.symm (hd j' hj' hc')
      · rw [hb' r j hr' hj hc] at hne heq
        by_cases hc' : (r, j') = (row, entry)
        · cases hc'
          rw [hb] at heq
          exact absurd heq (hd j hj (fun h => hc (by rw [h])))
        · rw [hb' r j' hr' hj' hc'] at heq
          exact hl.distinct r j j' hr' hj hj' hne heq
  obtain ⟨A, hA, hA1, _⟩ := C09_expand hst r' hl'
  rw [hw', hh'] at hA
  refine ⟨s', A, e, hl', hA, fun k hk => ?_⟩
  rw [← hg, hA1 row entry k (by rw [hh']; exact hr) he hk (by rw [hb]; omega), hb]

/-- C13 violated: a matrix with 256 blocks or more; naming block 255 leaves the columns of that
block zero, whatever values the entry holds. -/
theorem C13_block_255 (hst : 0 < st) (hs : Reachable st en s) (hl : Layout st en (s.smat a))
    {row entry : Nat} (hr : row < (s.smat a).height) (he : entry < en)
    (hw : 255 * st + st ≤ (s.smat a).width) :
    ∃ s' A, s.setBlock en a row entry 255 = .ok s' ∧
      Denotes st en s' a (s.smat a).width (s.smat a).height A ∧
      ∀ k, k < st → A row (255 * st + k) = 0 := by
  obtain ⟨s', e, hb, hb', hg, hw', hh', o⟩ := C10_setBlock (i := 255) hs a hr he (by omega)
    (by omega)
  have r' : Reachable st en s' := .call (.setBlock a row entry 255) hs trivial trivial e
  have hl' : Layout st en (s'.smat a) := by
    refine ⟨?_, ?_⟩
    · intro r j hr' hj
      rw [hh'] at hr'
      by_cases hc : (r, j) = (row, entry)
      · cases hc; rw [hb]; exact Or.inl rfl
      · rw [hb' r j hr' hj hc, hw']; exact hl.inRange r j hr' hj
    · intro r j j' hr' hj hj' hne heq
      rw [hh'] at hr'
      by_cases hc : (r, j) = (row, entry)
      · cases hc; exact absurd hb hne
      · rw [hb' r j hr' hj hc] at hne heq
        by_cases hc' : (r, j') = (row, entry)
        · cases hc'; rw [hb] at heq; exact absurd heq hne
        · rw [hb' r j' hr' hj' hc'] at heq
          exact hl.distinct r j j' hr' hj hj' hne heq
  obtain ⟨A, hA, _, hA2⟩ := C09_expand hst r' hl'
  rw [hw', hh'] at hA
  refine ⟨s', A, e, hA, fun k hk => hA2 _ _ (fun j hj hne => ?_)⟩
  rw [(divmod_of hk).1]
  exact fun h => hne h.symm

/-- C13 violated: naming block `i + 256` is the same as naming block `i`. -/
theorem C13_block_256 {α : Type} (s : Store α) (row entry i : Nat) :
    s.setBlock en a row entry ((i + 256 : Nat) : Int) = s.setBlock en a row entry (i : Int) := by
  have : (((i + 256 : Nat) : Int) % 256) = ((i : Int) % 256) := by omega
  simp only [Store.setBlock, this]

/-! ## C14 -/

/-- C14 (partial): after `initialize(w, h)` the matrix is zero, whatever it contained and whatever is
in memory; products with it are zero. Missing: matrices destroyed before, where `initialize` itself
may be undefined behaviour (C11). -/
theorem C14_zero_partial (hst : 0 < st) (hs : ReachableNS st en P s) (hk : P.kept a) (w h : Nat) :
    ∃ s', s.sinit st en a w h = .ok s' ∧ Layout st en (s'.smat a) ∧
      Denotes st en s' a w h (fun _ _ => 0) ∧ OthersSameS a s s' ∧
      ∀ (d t : MId) (n : Nat) (D : Nat → Nat → ℝ), s'.Shows d n w D → d ≠ t →
        ∃ s'', s'.smultiply st en a d t = .ok s'' ∧ s''.Shows t n h (fun _ _ => 0) := by
  obtain ⟨s1, e1, o1, wf1, f1, w1, hh1, b1⟩ := Store.sinit_spec st en s a w h (hs.inv.smat a)
    (hs.inv.fresh a hk)
  have r1 : Reachable st en s1 := .call (.sinit a _ _) hs.any trivial trivial e1
  obtain ⟨hl, hz⟩ := denotes_zero hst r1 w1 hh1 b1
  refine ⟨s1, e1, hl, hz, o1.others, fun d t n D hD hne => ?_⟩
  obtain ⟨s2, e2, h2, _⟩ := C09_multiply hst r1 hl hz hD hne
  exact ⟨s2, e2, h2.congr (fun i j _ _ => by simp)⟩

/-- Adding a free block keeps the layout. -/
theorem Layout.setBlock (hst : 0 < st) (hs : ReachableNS st en P s)
    (hl : Layout st en (s.smat a)) {row entry i : Nat} (hr : row < (s.smat a).height)
    (he : entry < en) (hi : i < 255) (hw : i * st + st ≤ (s.smat a).width)
    (hd : ∀ j, j < en → j ≠ entry → (s.smat a).blk en row j ≠ i) :
    ∃ s', s.setBlock en a row entry i = .ok s' ∧ ReachableNS st en P s' ∧
      Layout st en (s'.smat a) ∧ (s'.smat a).width = (s.smat a).width ∧
      (s'.smat a).height = (s.smat a).height ∧ (s'.smat a).blk en row entry = i ∧
      (∀ r j, r < (s.smat a).height → j < en → (r, j) ≠ (row, entry) →
        (s'.smat a).blk en r j = (s.smat a).blk en r j) := by
  obtain ⟨s', A, e, hl', hA, _⟩ := C13_setBlock_partial hst hs.any hl hr he hi hw hd
  have hi1 : i < (s.smat a).width := by
    have := Nat.le_mul_of_pos_right i hst
    omega
  obtain ⟨s2, e2, hb, hb', _⟩ := C10_setBlock hs.any a hr he (by omega) hi1
  rw [e] at e2
  cases e2
  exact ⟨s', e, .call (.setBlock a row entry i) hs trivial trivial e, hl', hA.width, hA.height, hb,
    hb'⟩

/-- A reachable sparse matrix with two rows and three used entries (stride 3, two entries a row). -/
theorem demo_sparse (junk : Nat → Nat → ℝ) (junkB : Nat → Nat → Nat) :
    ∃ s : Store ℝ, ReachableNS 3 2 ⟨fun _ => True, fun _ => True⟩ s ∧
      Layout 3 2 (s.smat (.user 0)) ∧ (s.smat (.user 0)).width = 9 ∧
      (s.smat (.user 0)).height = 2 ∧ (s.smat (.user 0)).blk 2 1 1 = 1 ∧
      (s.smat (.user 0)).blk 2 0 1 = 2 ∧ (s.smat (.user 0)).blk 2 1 0 = 0 ∧
      s.sget 3 2 (.user 0) 1 1 2 = .ok 5 := by
  have h0 : ReachableNS 3 2 ⟨fun _ => True, fun _ => True⟩ (Store.fresh junk junkB) := .fresh _ _
  obtain ⟨s1, e1, _, _, _, w1, hh1, b1⟩ := Store.sinit_spec 3 2 _ (.user 0) 9 2 (h0.inv.smat _)
    (h0.inv.fresh (.user 0) trivial)
  have r1 : ReachableNS 3 2 ⟨fun _ => True, fun _ => True⟩ s1 :=
    .call (.sinit (.user 0) 9 2) h0 trivial trivial e1
  have l1 := (denotes_zero (by decide) r1.any w1 hh1 b1).1
  obtain ⟨s2, _, r2, l2, w2, hh2, b2, b2'⟩ := Layout.setBlock (row := 0) (entry := 1) (i := 2)
    (by decide) r1 l1 (by omega) (by decide) (by decide) (by omega)
    (fun j hj _ => by rw [b1 0 j (by decide) hj]; decide)
  obtain ⟨s3, _, r3, l3, w3, hh3, b3, b3'⟩ := Layout.setBlock (row := 1) (entry := 0) (i := 0)
    (by decide) r2 l2 (by omega) (by decide) (by decide) (by omega)
    (fun j hj hne => by rw [b2' 1 j (by omega) hj (by simp), b1 1 j (by decide) hj]; decide)
  obtain ⟨s4, _, r4, l4, w4, hh4, b4, b4'⟩ := Layout.setBlock (row := 1) (entry := 1) (i := 1)
    (by decide) r3 l3 (by omega) (by decide) (by decide) (by omega)
    (fun j hj hne => by
      obtain rfl : j = 0 := by omega
      rw [b3]; decide)
  obtain ⟨s5, e5, g5, _, bb5, w5, hh5, _⟩ := C10_set_get r4.any (.user 0) (row := 1) (entry := 1)
    (slice := 2) (by omega) (by decide) (by decide) 5
  have hb5 : (s5.smat (.user 0)).blk 2 = (s4.smat (.user 0)).blk 2 := by
    funext r j; exact SMat.blk_congr bb5 r j
  refine ⟨s5, .call (.sset (.user 0) 1 1 2 5) r4 trivial trivial e5, ⟨?_, ?_⟩, by omega, by omega,
    ?_, ?_, ?_, g5⟩
  · intro r j hr hj
    rw [hb5, w5]
    exact l4.inRange r j (by omega) hj
  · intro r j j' hr hj hj'
    rw [hb5]
    exact l4.distinct r j j' (by omega) hj hj'
  · rw [hb5, b4]
  · rw [hb5, b4' 0 1 (by omega) (by decide) (by simp), b3' 0 1 (by omega) (by decide) (by simp), b2]
  · rw [hb5, b4' 1 0 (by omega) (by decide) (by simp), b3]

/-- The hypotheses of C09-C14 are met by a matrix with several blocks, and what `expand` shows there
is not zero. -/
example : ∃ (s : Store ℝ) (A : Nat → Nat → ℝ), ReachableNS 3 2 ⟨fun _ => True, fun _ => True⟩ s ∧
    Layout 3 2 (s.smat (.user 0)) ∧ Denotes 3 2 s (.user 0) 9 2 A ∧ A 1 5 = 5 := by
  obtain ⟨s, h, hl, hw, hh, hb, _, _, hg⟩ := demo_sparse (fun _ _ => 1) (fun _ _ => 7)
  obtain ⟨A, hA, hA1, _⟩ := C09_expand (by decide) h.any hl
  rw [hw, hh] at hA
  refine ⟨s, A, h, hl, hA, ?_⟩
  have := hA1 1 1 2 (by rw [hh]; decide) (by decide) (by decide) (by rw [hb]; decide)
  rw [hg, hb] at this
  exact (Except.ok.inj this).symm

/-- `C13_setBlock_partial` applies to that matrix: block 0 of row 0 is free. -/
example : ∃ (s : Store ℝ), Reachable 3 2 s ∧ Layout 3 2 (s.smat (.user 0)) ∧
    0 < (s.smat (.user 0)).height ∧ 0 * 3 + 3 ≤ (s.smat (.user 0)).width := by
  obtain ⟨s, h, hl, hw, hh, _⟩ := demo_sparse (fun _ _ => 1) (fun _ _ => 7)
  exact ⟨s, h.any, hl, by omega, by omega⟩

/-- `C13_block_255` applies: a fresh matrix with 256 blocks. -/
example : ∃ (s : Store ℝ), Reachable 3 2 s ∧ Layout 3 2 (s.smat (.user 0)) ∧
    0 < (s.smat (.user 0)).height ∧ 255 * 3 + 3 ≤ (s.smat (.user 0)).width := by
  have h0 : ReachableNS 3 2 ⟨fun _ => True, fun _ => True⟩ (Store.fresh (fun _ _ => (1 : ℝ)) (fun _ _ => 7)) :=
    .fresh _ _
  obtain ⟨s, e, hl, hz, _⟩ := C14_zero_partial (by decide) h0 (a := .user 0) trivial 768 1
  exact ⟨s, .call (.sinit (.user 0) 768 1) h0.any trivial trivial e, hl, by rw [hz.height]; decide,
    by rw [hz.width]⟩

end Real

end Scs
