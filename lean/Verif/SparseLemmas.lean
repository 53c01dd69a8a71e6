import Verif.Sparse
import Verif.MatrixSpec

/-!
# Lemmas about the `SparseMatrix` model
-/

namespace Scs

section
variable {α : Type}

/-- Representation invariant of `SparseMatrix`. An unallocated matrix may have any capacity
(`destroy` keeps it) and any width, but no rows. -/
def SMat.WF (st en : Nat) (m : SMat α) : Prop :=
  (m.rows = none ∧ m.data = none ∧ m.blocks = none ∧ m.height = 0) ∨
  (∃ rb db bb, m.rows = some rb ∧ m.data = some db ∧ m.blocks = some bb ∧ rb.size = m.capH ∧
    db.size = en * st * m.capH ∧ bb.size = en * m.capH ∧ m.height ≤ m.capH ∧
    ∀ r, r < m.height → rb.val r = some (r * (en * st)))

/-- The matrix has storage, or none was ever allocated: it can be resized to any size. -/
def SMat.Fresh (m : SMat α) : Prop := m.rows = none → m.capH = 0

/-- Stored value at row `r`, position `c` of the packed row. -/
def SMat.ent [Zero α] (m : SMat α) (r c : Nat) : α :=
  match m.load r c with
  | .ok v => v
  | .error _ => 0

/-- Block index of entry `j` of row `r` (255: empty). -/
def SMat.blk (en : Nat) (m : SMat α) (r j : Nat) : Nat :=
  match m.block (r * en + j) with
  | .ok v => v
  | .error _ => 255

theorem SMat.empty_wf (st en : Nat) : (SMat.empty : SMat α).WF st en :=
  Or.inl ⟨rfl, rfl, rfl, rfl⟩
theorem SMat.empty_fresh : (SMat.empty : SMat α).Fresh := fun _ => rfl

theorem SMat.ent_of_load [Zero α] {m : SMat α} {r c : Nat} {v : α} (h : m.load r c = .ok v) :
    m.ent r c = v := by simp [SMat.ent, h]

theorem SMat.blk_of_block {en : Nat} {m : SMat α} {r j : Nat} {v : Nat}
    (h : m.block (r * en + j) = .ok v) : m.blk en r j = v := by simp [SMat.blk, h]

theorem SMat.load_data {m : SMat α} {rb : Buf (Option Nat)} {db : Buf α}
    (hr : m.rows = some rb) (hd : m.data = some db) {r c q : Nat} (h1 : r < rb.size)
    (h2 : rb.val r = some q) (h3 : q + c < db.size) : m.load r c = .ok (db.val (q + c)) := by
  simp only [SMat.load, hr, deref, ok_bind, Buf.rd_ok rb h1, h2, initd, hd, Buf.rd_ok db h3]

theorem SMat.WF.load_eq [Zero α] {st en : Nat} {m : SMat α} (wf : m.WF st en) {r c : Nat}
    (hr : r < m.height) (hc : c < en * st) : m.load r c = .ok (m.ent r c) := by
  rcases wf with ⟨_, _, _, h⟩ | ⟨rb, db, bb, h1, h2, h3, h4, h5, h6, h7, h8⟩
  · omega
  · have hl : r * (en * st) + c < db.size := by
      rw [h5]; exact idx_lt hr hc (Nat.le_refl _) h7
    have := SMat.load_data h1 h2 (show r < rb.size by omega) (h8 r hr) hl
    rw [this, SMat.ent_of_load this]

theorem SMat.WF.block_eq {st en : Nat} {m : SMat α} (wf : m.WF st en) {r j : Nat}
    (hr : r < m.height) (hj : j < en) : m.block (r * en + j) = .ok (m.blk en r j) := by
  rcases wf with ⟨_, _, _, h⟩ | ⟨rb, db, bb, h1, h2, h3, h4, h5, h6, h7, h8⟩
  · omega
  · have hl : r * en + j < bb.size := by
      rw [h6]; exact idx_lt hr hj (Nat.le_refl _) h7
    have : m.block (r * en + j) = .ok (bb.val (r * en + j)) := by
      simp only [SMat.block, h3, deref, ok_bind, Buf.rd_ok bb hl]
    rw [this, SMat.blk_of_block this]

/-- Equal up to the contents of `m_data` and `m_blockData`. -/
structure SMat.SameShape (m m' : SMat α) : Prop where
  rows : m'.rows = m.rows
  width : m'.width = m.width
  height : m'.height = m.height
  capH : m'.capH = m.capH
  data : m'.data.map Buf.size = m.data.map Buf.size
  blocks : m'.blocks.map Buf.size = m.blocks.map Buf.size

theorem SMat.SameShape.refl (m : SMat α) : m.SameShape m := ⟨rfl, rfl, rfl, rfl, rfl, rfl⟩

theorem SMat.SameShape.trans {a b c : SMat α} (h : a.SameShape b) (h' : b.SameShape c) :
    a.SameShape c :=
  ⟨h'.rows.trans h.rows, h'.width.trans h.width, h'.height.trans h.height,
    h'.capH.trans h.capH, h'.data.trans h.data, h'.blocks.trans h.blocks⟩

theorem SMat.SameShape.wf {st en : Nat} {m m' : SMat α} (h : m.SameShape m') (wf : m.WF st en) :
    m'.WF st en := by
  obtain ⟨h1, h2, h3, h4, h5, h6⟩ := h
  rcases wf with ⟨a, b, c, d⟩ | ⟨rb, db, bb, a, b, c, d, e, f, g, i⟩
  · left
    rw [b] at h5
    rw [c] at h6
    simp at h5 h6
    exact ⟨h1.trans a, h5, h6, by omega⟩
  · right
    rw [b] at h5
    rw [c] at h6
    simp only [Option.map_some, Option.map_eq_some_iff] at h5 h6
    obtain ⟨db', hd, hs⟩ := h5
    obtain ⟨bb', hb, hbs⟩ := h6
    refine ⟨rb, db', bb', h1.trans a, hd, hb, by omega, ?_, ?_, by omega, ?_⟩
    · rw [hs, e, h4]
    · rw [hbs, f, h4]
    · rw [h3]; exact i

theorem SMat.SameShape.fresh {m m' : SMat α} (h : m.SameShape m') (f : m.Fresh) : m'.Fresh := by
  intro h'; rw [h.capH]; rw [h.rows] at h'; exact f h'

theorem SMat.WF.store_spec [Zero α] {st en : Nat} {m : SMat α} (wf : m.WF st en) {r c : Nat}
    (hr : r < m.height) (hc : c < en * st) (v : α) :
    ∃ m', m.store r c v = .ok m' ∧ m.SameShape m' ∧
      (∀ r' c', r' < m.height → c' < en * st →
        m'.ent r' c' = if r' = r ∧ c' = c then v else m.ent r' c') ∧
      m'.blocks = m.blocks := by
  rcases wf with ⟨_, _, _, h⟩ | ⟨rb, db, bb, h1, h2, h3, h4, h5, h6, h7, h8⟩
  · omega
  · have hl : ∀ {r c}, r < m.height → c < en * st → r * (en * st) + c < db.size := by
      intro r c hr hc; rw [h5]; exact idx_lt hr hc (Nat.le_refl _) h7
    let db' : Buf α := { db with val := fun j => if j = r * (en * st) + c then v else db.val j }
    have hst : m.store r c v = .ok { m with data := some db' } := by
      simp only [SMat.store, h1, deref, ok_bind, Buf.rd_ok rb (show r < rb.size by omega), h8 r hr,
        initd, h2, Buf.wr, if_pos (hl hr hc)]
      rfl
    refine ⟨_, hst, ⟨rfl, rfl, rfl, rfl, by simp [h2, db'], rfl⟩, ?_, rfl⟩
    intro r' c' hr' hc'
    have e1 := SMat.load_data (m := { m with data := some db' }) h1 rfl
      (show r' < rb.size by omega) (h8 r' hr') (show _ < db'.size from hl hr' hc')
    have e2 := SMat.load_data h1 h2 (show r' < rb.size by omega) (h8 r' hr') (hl hr' hc')
    rw [SMat.ent_of_load e1, SMat.ent_of_load e2]
    simp only [db']
    by_cases hcase : r' = r ∧ c' = c
    · obtain ⟨rfl, rfl⟩ := hcase; simp
    · rw [if_neg hcase, if_neg]
      intro heq
      exact hcase (idx_inj hc' hc heq)

theorem SMat.WF.putBlock_spec {st en : Nat} {m : SMat α} (wf : m.WF st en) {r j : Nat}
    (hr : r < m.height) (hj : j < en) (v : Nat) :
    ∃ m', m.putBlock (r * en + j) v = .ok m' ∧ m.SameShape m' ∧ m'.data = m.data ∧
      ∀ r' j', r' < m.height → j' < en →
        m'.blk en r' j' = if r' = r ∧ j' = j then v else m.blk en r' j' := by
  rcases wf with ⟨_, _, _, h⟩ | ⟨rb, db, bb, h1, h2, h3, h4, h5, h6, h7, h8⟩
  · omega
  · have hl : ∀ {r j}, r < m.height → j < en → r * en + j < bb.size := by
      intro r c hr hc; rw [h6]; exact idx_lt hr hc (Nat.le_refl _) h7
    let bb' : Buf Nat := { bb with val := fun i => if i = r * en + j then v else bb.val i }
    have hst : m.putBlock (r * en + j) v = .ok { m with blocks := some bb' } := by
      simp only [SMat.putBlock, h3, deref, ok_bind, Buf.wr, if_pos (hl hr hj)]
      rfl
    refine ⟨_, hst, ⟨rfl, rfl, rfl, rfl, rfl, by simp [h3, bb']⟩, rfl, ?_⟩
    intro r' j' hr' hj'
    have e1 : ({ m with blocks := some bb' } : SMat α).block (r' * en + j') =
        .ok (bb'.val (r' * en + j')) := by
      simp only [SMat.block, deref, ok_bind]
      exact Buf.rd_ok bb' (hl hr' hj')
    have e2 : m.block (r' * en + j') = .ok (bb.val (r' * en + j')) := by
      simp only [SMat.block, h3, deref, ok_bind]
      exact Buf.rd_ok bb (hl hr' hj')
    rw [SMat.blk_of_block e1, SMat.blk_of_block e2]
    simp only [bb']
    by_cases hcase : r' = r ∧ j' = j
    · obtain ⟨rfl, rfl⟩ := hcase; simp
    · rw [if_neg hcase, if_neg]
      intro heq
      exact hcase (idx_inj hj' hj heq)

theorem SMat.ent_congr [Zero α] {m m' : SMat α} (h1 : m'.rows = m.rows) (h2 : m'.data = m.data)
    (r c : Nat) : m'.ent r c = m.ent r c := by
  simp only [SMat.ent, SMat.load, h1, h2]

theorem SMat.blk_congr {en : Nat} {m m' : SMat α} (h : m'.blocks = m.blocks) (r j : Nat) :
    m'.blk en r j = m.blk en r j := by
  simp only [SMat.blk, SMat.block, h]

/-! ## resize / initialize -/

/-- Only the sparse matrix `t` may differ. -/
structure OnlyS (t : SId) (s s' : Store α) : Prop where
  mat : s'.mat = s.mat
  smat : ∀ a, a ≠ t → s'.smat a = s.smat a
  junk : s'.junk = s.junk
  junkB : s'.junkB = s.junkB

theorem OnlyS.refl (t : SId) (s : Store α) : OnlyS t s s := ⟨rfl, fun _ _ => rfl, rfl, rfl⟩

theorem OnlyS.trans {t : SId} {a b c : Store α} (h : OnlyS t a b) (h' : OnlyS t b c) :
    OnlyS t a c :=
  ⟨h'.mat.trans h.mat, fun x hx => (h'.smat x hx).trans (h.smat x hx), h'.junk.trans h.junk,
    h'.junkB.trans h.junkB⟩

theorem OnlyS.setSMat (t : SId) (s : Store α) (m : SMat α) : OnlyS t s (s.setSMat t m) :=
  ⟨rfl, fun _ ha => upd_other _ _ ha, rfl, rfl⟩

@[simp] theorem Store.setSMat_same (s : Store α) (t : SId) (m : SMat α) :
    (s.setSMat t m).smat t = m := upd_same _ _ _

@[simp] theorem Store.setSMat_mat (s : Store α) (t : SId) (m : SMat α) :
    (s.setSMat t m).mat = s.mat := rfl

@[simp] theorem Store.setMat_smat (s : Store α) (t : MId) (m : Mat α) :
    (s.setMat t m).smat = s.smat := rfl

theorem SMat.layout_spec {st en : Nat} {m : SMat α} {h : Nat} {rb : Buf (Option Nat)} {db : Buf α}
    (hr : m.rows = some rb) (hd : m.data = some db) (hs : h ≤ rb.size) :
    ∃ rb', m.layout st en h = .ok { m with rows := some rb' } ∧ rb'.size = rb.size ∧
      (∀ r, r < h → rb'.val r = some (r * (en * st))) := by
  have key : Wp (m.layout st en h) (fun m' => ∃ rb', m' = { m with rows := some rb' } ∧
      rb'.size = rb.size ∧ ∀ r, r < h → rb'.val r = some (r * (en * st))) noErr := by
    unfold SMat.layout
    refine wp_forN (I := fun i m' => ∃ rb', m' = { m with rows := some rb' } ∧
      rb'.size = rb.size ∧ ∀ r, r < i → rb'.val r = some (r * (en * st))) ?_ ?_
    · exact ⟨rb, by rw [← hr], rfl, by intro r h; omega⟩
    · rintro i hi _ ⟨rb', rfl, hs', hv⟩
      have : i < rb'.size := by omega
      simp only [deref, ok_bind, hd, Buf.wr, if_pos this, wp_pure]
      refine ⟨_, rfl, hs', ?_⟩
      intro r hr
      by_cases h : r = i
      · simp [h, Nat.mul_assoc]
      · simp only [h, if_false]; exact hv r (by omega)
  obtain ⟨m', he, rb', rfl, h1, h2⟩ := wp_noErr_iff.mp key
  exact ⟨rb', he, h1, h2⟩

/-- `resize` succeeds on every well-formed matrix that was not destroyed while it had capacity. -/
theorem Store.sresize_spec (st en : Nat) (s : Store α) (t : SId) (w h : Nat)
    (wf : (s.smat t).WF st en) (hf : (s.smat t).Fresh) :
    ∃ s', s.sresize st en t w h = .ok s' ∧ OnlyS t s s' ∧ (s'.smat t).WF st en ∧
      (s'.smat t).Fresh ∧ (s'.smat t).width = w ∧ (s'.smat t).height = h ∧
      ((w = (s.smat t).width ∧ h = (s.smat t).height) → s' = s) := by
  unfold Store.sresize
  by_cases hsame : w = (s.smat t).width ∧ h = (s.smat t).height
  · simp only [hsame, and_self, if_true]
    exact ⟨s, rfl, OnlyS.refl _ _, wf, hf, rfl, rfl, fun _ => rfl⟩
  · simp only [if_neg hsame]
    have hmain : ∀ (m : SMat α) (tick : Nat) (rb : Buf (Option Nat)) (db : Buf α) (bb : Buf Nat),
        m.rows = some rb → m.data = some db → m.blocks = some bb → rb.size = m.capH →
        db.size = en * st * m.capH → bb.size = en * m.capH → h ≤ m.capH →
        ∃ s', (do
          let m ← SMat.layout st en { m with width := w, height := h } h
          pure { s.setSMat t m with tick := tick } : Exec (Store α)) = .ok s' ∧ OnlyS t s s' ∧
            (s'.smat t).WF st en ∧ (s'.smat t).Fresh ∧ (s'.smat t).width = w ∧
            (s'.smat t).height = h := by
      intro m tick rb db bb hr hd hb hrs hds hbs hh
      obtain ⟨rb', he, hs', hv⟩ := SMat.layout_spec (st := st) (en := en)
        (m := { m with width := w, height := h }) (h := h) hr hd (by omega)
      rw [he]
      refine ⟨_, rfl, ⟨rfl, fun a ha => upd_other _ _ ha, rfl, rfl⟩, ?_, ?_, ?_, ?_⟩
      · right
        simp only [Store.setSMat, upd_same]
        exact ⟨rb', db, bb, rfl, hd, hb, by omega, hds, hbs, hh, hv⟩
      · simp [Store.setSMat, upd_same, SMat.Fresh]
      · simp [Store.setSMat, upd_same]
      · simp [Store.setSMat, upd_same]
    by_cases hcap : (s.smat t).capH < h
    · simp only [if_pos hcap]
      have hd0 : (s.smat t).destroy.capH = (s.smat t).capH := by
        unfold SMat.destroy; split <;> rfl
      simp only [hd0, if_pos hcap]
      obtain ⟨s', e, a, b, c, d, f⟩ := hmain
        { (s.smat t).destroy with
          capH := h
          data := some ⟨st * en * h, s.junk s.tick⟩
          rows := some ⟨h, fun _ => none⟩
          blocks := some ⟨h * en, s.junkB s.tick⟩ } (s.tick + 1) _ _ _ rfl rfl rfl rfl
        (by simp [Nat.mul_comm st en]) (Nat.mul_comm _ _) (Nat.le_refl _)
      exact ⟨s', e, a, b, c, d, f, fun h => absurd h hsame⟩
    · simp only [if_neg hcap]
      rcases wf with ⟨h1, h2, h3, h4⟩ | ⟨rb, db, bb, h1, h2, h3, h4, h5, h6, h7, _⟩
      · -- no storage, no capacity: only a change of width of an empty matrix
        have hc0 := hf h1
        have hh0 : h = 0 := by omega
        subst hh0
        refine ⟨_, rfl, ⟨rfl, fun a ha => upd_other _ _ ha, rfl, rfl⟩, ?_, ?_, ?_, ?_,
          fun h => absurd h hsame⟩
        · left; simp only [Store.setSMat, upd_same]; exact ⟨h1, h2, h3, trivial⟩
        · simp only [Store.setSMat, upd_same]; exact fun _ => hc0
        · simp [Store.setSMat, upd_same]
        · simp [Store.setSMat, upd_same]
      · obtain ⟨s', e, a, b, c, d, f⟩ := hmain (s.smat t) s.tick rb db bb h1 h2 h3 h4 h5 h6
          (by omega)
        exact ⟨s', e, a, b, c, d, f, fun h => absurd h hsame⟩

/-- The `memset` of the block indices. -/
theorem SMat.clear_spec {st en : Nat} {m : SMat α} (wf : m.WF st en) {n : Nat}
    (hn : n ≤ en * m.height) :
    ∃ m', forN n (fun i (m : SMat α) => m.putBlock i 255) m = .ok m' ∧ m.SameShape m' ∧
      m'.data = m.data ∧ (∀ i, i < n → m'.block i = .ok 255) := by
  rcases wf with ⟨h1, h2, h3, h4⟩ | ⟨rb, db, bb, h1, h2, h3, h4, h5, h6, h7, h8⟩
  · rw [h4] at hn
    have : n = 0 := by omega
    subst this
    exact ⟨m, rfl, SMat.SameShape.refl _, rfl, by intro i hi; omega⟩
  · have key : Wp (forN n (fun i (m : SMat α) => m.putBlock i 255) m)
        (fun m' => ∃ bb', m' = { m with blocks := some bb' } ∧ bb'.size = bb.size ∧
          ∀ i, i < n → bb'.val i = 255) noErr := by
      refine wp_forN (I := fun k m' => ∃ bb', m' = { m with blocks := some bb' } ∧
        bb'.size = bb.size ∧ ∀ i, i < k → bb'.val i = 255) ?_ ?_
      · exact ⟨bb, by rw [← h3], rfl, by intro i hi; omega⟩
      · rintro k hk _ ⟨bb', rfl, hs, hv⟩
        have hle : en * m.height ≤ en * m.capH := Nat.mul_le_mul_left _ h7
        have : k < bb'.size := by omega
        simp only [SMat.putBlock, deref, ok_bind, Buf.wr, if_pos this, wp_pure]
        refine ⟨_, rfl, hs, ?_⟩
        intro i hi
        by_cases h : i = k
        · simp [h]
        · simp only [h, if_false]; exact hv i (by omega)
    obtain ⟨m', e, bb', rfl, hs, hv⟩ := wp_noErr_iff.mp key
    refine ⟨_, e, ⟨rfl, rfl, rfl, rfl, rfl, by simp [h3, hs]⟩, rfl, ?_⟩
    intro i hi
    have hle : en * m.height ≤ en * m.capH := Nat.mul_le_mul_left _ h7
    simp only [SMat.block, deref, ok_bind]
    rw [Buf.rd_ok bb' (by omega), hv i hi]

theorem Store.sinit_spec (st en : Nat) (s : Store α) (t : SId) (w h : Nat)
    (wf : (s.smat t).WF st en) (hf : (s.smat t).Fresh) :
    ∃ s', s.sinit st en t w h = .ok s' ∧ OnlyS t s s' ∧ (s'.smat t).WF st en ∧
      (s'.smat t).Fresh ∧ (s'.smat t).width = w ∧ (s'.smat t).height = h ∧
      ∀ r j, r < h → j < en → (s'.smat t).blk en r j = 255 := by
  obtain ⟨s1, e1, h1, wf1, hf1, hw, hh, _⟩ := Store.sresize_spec st en s t w h wf hf
  obtain ⟨m', e2, hs, hd, hb⟩ := SMat.clear_spec wf1 (Nat.le_refl _)
  refine ⟨s1.setSMat t m', ?_, h1.trans (OnlyS.setSMat _ _ _), ?_, ?_, ?_, ?_, ?_⟩
  · rw [Store.sinit, e1, ok_bind, e2]; rfl
  · simpa using hs.wf wf1
  · simpa using hs.fresh hf1
  · simpa using hs.width.trans hw
  · simpa using hs.height.trans hh
  · intro r j hr hj
    simp only [Store.setSMat_same]
    apply SMat.blk_of_block
    apply hb
    rw [hh]
    exact idx_lt hr hj (Nat.le_refl _) (Nat.le_refl _)

end

end Scs
