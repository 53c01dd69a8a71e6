import Verif.MatrixRelease
import Verif.SparseReal
import Verif.SparseScale

/-!
# `SparseMatrix` in release builds

The functions of include/sparse_matrix.h that contain asserts, or call functions of `Matrix` that do,
without them (`NDEBUG`).
-/

namespace Scs

open Finset

section
variable {α : Type}

theorem Unless.ok {σ : Type} {P : Err → Prop} {x : σ} {y : Exec σ} (h : Unless P (.ok x) y) :
    y = .ok x := by
  rcases h with h | ⟨e, h, -⟩
  · exact h.symm
  · cases h

theorem isAssert (l : String) : Err.IsAssert (.assert l) := trivial

theorem Store.get_unless (s : Store α) (a : MId) (c r : Nat) :
    Unless Err.IsAssert (s.get a c r) (s.getR a c r) :=
  Unless.chk isAssert (Unless.chk isAssert (Unless.refl _))

theorem Store.set_unless (s : Store α) (a : MId) (c r : Nat) (v : α) :
    Unless Err.IsAssert (s.set a c r v) (s.setR a c r v) :=
  Unless.chk isAssert (Unless.chk isAssert (Unless.refl _))

theorem Store.addAt_unless [Add α] (s : Store α) (a : MId) (c r : Nat) (v : α) :
    Unless Err.IsAssert (s.addAt a c r v) (s.addAtR a c r v) :=
  Unless.chk isAssert (Unless.chk isAssert (Unless.refl _))

/-! ## The model -/

/-- `SparseMatrix::~SparseMatrix`, include/sparse_matrix.h:25-29, in a release build. -/
def Store.sdtorR (_ : Store α) (_ : SId) : Exec PUnit := .ok ⟨⟩

/-- `SparseMatrix::setBlock`, include/sparse_matrix.h:106-112, in a release build. -/
def Store.setBlockR (en : Nat) (s : Store α) (t : SId) (row entry : Nat) (index : Int) :
    Exec (Store α) := do
  let index := (index % 256).toNat
  let m ← (s.smat t).putBlock (row * en + entry) index
  pure (s.setSMat t m)

/-- `SparseMatrix::set`, include/sparse_matrix.h:114-120, in a release build. -/
def Store.ssetR (st : Nat) (s : Store α) (t : SId) (row entry slice : Nat) (v : α) :
    Exec (Store α) := do
  let m ← (s.smat t).store row (entry * st + slice) v
  pure (s.setSMat t m)

/-- `SparseMatrix::get`, include/sparse_matrix.h:122-128, in a release build. -/
def Store.sgetR (st : Nat) (s : Store α) (t : SId) (row entry slice : Nat) : Exec α :=
  (s.smat t).load row (entry * st + slice)

/-- `SparseMatrix::setEmpty`, include/sparse_matrix.h:130-138, in a release build. -/
def Store.setEmptyR [Zero α] (st en : Nat) (s : Store α) (t : SId) (row col : Nat) :
    Exec (Store α) := do
  let m ← (s.smat t).putBlock (row * en + col) 255
  let m ← forN st (fun i m => m.store row (col * st + i) 0) m
  pure (s.setSMat t m)

/-- `SparseMatrix::expand`, include/sparse_matrix.h:74-88, in a release build (`Matrix::set` has
asserts). -/
def Store.expandR [Zero α] (st en : Nat) (s : Store α) (a : SId) (t : MId) : Exec (Store α) := do
  let s ← s.init0 t (s.smat a).width (s.smat a).height
  let m := s.smat a
  forN m.height (fun i s => forN en (fun j s => do
    let block ← m.block (i * en + j)
    if block = 255 then .ok s
    else forN st (fun k s => do
      let v ← m.load i (j * st + k)
      s.setR t (block * st + k) i v) s) s) s

/-- `SparseMatrix::expandTransposed`, include/sparse_matrix.h:90-104, in a release build. -/
def Store.expandTransposedR [Zero α] (st en : Nat) (s : Store α) (a : SId) (t : MId) :
    Exec (Store α) := do
  let s ← s.init0 t (s.smat a).height (s.smat a).width
  let m := s.smat a
  forN m.height (fun i s => forN en (fun j s => do
    let block ← m.block (i * en + j)
    if block = 255 then .ok s
    else forN st (fun k s => do
      let v ← m.load i (j * st + k)
      s.setR t i (block * st + k) v) s) s) s

/-- `SparseMatrix::multiplyTranspose`, include/sparse_matrix.h:140-167, in a release build. -/
def Store.multiplyTransposeR [Zero α] [Add α] [Mul α] (st en : Nat) (s : Store α) (a b : SId)
    (t : MId) : Exec (Store α) := do
  let s ← s.init0 t (s.smat b).height (s.smat a).height
  let ma := s.smat a
  let mb := s.smat b
  forN ma.height (fun i s => forN mb.height (fun j s => do
    let v ← SMat.rowDot st en ma mb i j
    s.setR t j i v) s) s

/-- `SparseMatrix::transposeMultiplyVector`, include/sparse_matrix.h:169-191, in a release build. -/
def Store.transposeMultiplyVectorR [Zero α] [Add α] [Mul α] (st en : Nat) (s : Store α) (a : SId)
    (b t : MId) : Exec (Store α) := do
  let s ← s.init0 t 1 (s.smat a).width
  let m := s.smat a
  forN m.height (fun i s => forN en (fun k s => do
    let block ← m.block (i * en + k)
    if block = 255 then .ok s
    else forN st (fun l s => do
      let x ← m.load i (k * st + l)
      let y ← s.getR b 0 i
      s.addAtR t 0 (block * st + l) (x * y)) s) s) s

/-- `SparseMatrix::multiply`, include/sparse_matrix.h:193-217, in a release build. -/
def Store.smultiplyR [Zero α] [Add α] [Mul α] (st en : Nat) (s : Store α) (a : SId) (b t : MId) :
    Exec (Store α) := do
  let bw := (s.mat b).width
  let s ← s.init0 t (s.mat b).width (s.smat a).height
  let m := s.smat a
  forN m.height (fun i s => forN bw (fun j s => do
    let v ← forN en (fun k v => do
      let block ← m.block (i * en + k)
      if block = 255 then .ok v
      else forN st (fun l v => do
        let x ← m.load i (k * st + l)
        let y ← s.getR b j (block * st + l)
        pure (v + x * y)) v) 0
    s.setR t j i v) s) s

/-- `SparseMatrix::rightScale`, include/sparse_matrix.h:219-241, in a release build. -/
def Store.srightScaleR [Mul α] (st en : Nat) (s : Store α) (a : SId) (sc : MId) (t : SId) :
    Exec (Store α) := do
  let s ← s.sinit st en t (s.smat a).width (s.smat a).height
  forN (s.smat a).height (fun i s => forN en (fun j s => do
    let index ← (s.smat a).block (i * en + j)
    if index = 255 then .ok s
    else do
      let s ← s.setBlockR en t i j index
      forN st (fun k s => do
        let x ← s.getR sc 0 (index * st + k)
        let y ← (s.smat a).load i (j * st + k)
        s.ssetR st t i j k (x * y)) s) s) s

/-- `SparseMatrix::leftScale`, include/sparse_matrix.h:243-265, in a release build. -/
def Store.sleftScaleR [Mul α] (st en : Nat) (s : Store α) (a : SId) (sc : MId) (t : SId) :
    Exec (Store α) := do
  let s ← s.sinit st en t (s.smat a).width (s.smat a).height
  forN (s.smat a).height (fun i s => forN en (fun j s => do
    let index ← (s.smat a).block (i * en + j)
    if index = 255 then .ok s
    else do
      let s ← s.setBlockR en t i j index
      forN st (fun k s => do
        let x ← s.getR sc 0 i
        let y ← (s.smat a).load i (j * st + k)
        s.ssetR st t i j k (x * y)) s) s) s

/-! ## Lemmas -/

theorem Store.setBlock_unless (en : Nat) (s : Store α) (t : SId) (row entry : Nat) (index : Int) :
    Unless Err.IsAssert (s.setBlock en t row entry index) (s.setBlockR en t row entry index) :=
  Unless.chk isAssert (Unless.chk isAssert (Unless.chk isAssert (Unless.refl _)))

theorem Store.sset_unless (st en : Nat) (s : Store α) (t : SId) (row entry slice : Nat) (v : α) :
    Unless Err.IsAssert (s.sset st en t row entry slice v) (s.ssetR st t row entry slice v) :=
  Unless.chk isAssert (Unless.chk isAssert (Unless.chk isAssert (Unless.refl _)))

/-- `m_matrix[r][c]` and `m_matrix[r'][c']` are the same memory if the positions agree. -/
theorem SMat.WF.wrap {st en : Nat} {m : SMat α} (wf : m.WF st en) {r c r' c' : Nat} (hr : r < m.height)
    (hr' : r' < m.height) (e : r * (en * st) + c = r' * (en * st) + c') :
    m.load r c = m.load r' c' ∧ ∀ v, m.store r c v = m.store r' c' v := by
  rcases wf with ⟨_, _, _, h⟩ | ⟨rb, db, bb, hb, hd, -, hrs, hds, -, hhc, hrow⟩
  · omega
  · constructor
    · simp only [SMat.load, hb, hd, deref, ok_bind, Buf.rd_ok rb (show r < rb.size by omega),
        Buf.rd_ok rb (show r' < rb.size by omega), hrow r hr, hrow r' hr', initd, e]
    · intro v
      simp only [SMat.store, hb, hd, deref, ok_bind, Buf.rd_ok rb (show r < rb.size by omega),
        Buf.rd_ok rb (show r' < rb.size by omega), hrow r hr, hrow r' hr', initd, e]

end

theorem Store.multiplyTransposeR_spec (st en : Nat) (hst : 0 < st) (s : Store ℝ) (a b : SId)
    (t : MId) (wfa : (s.smat a).WF st en) (wfb : (s.smat b).WF st en)
    (hin : (s.smat a).InRange st en) (wft : (s.mat t).WF) :
    ∃ s', s.multiplyTransposeR st en a b t = .ok s' ∧
      Wrote t s s' (s.smat b).height (s.smat a).height (fun i j =>
        ∑ c ∈ range (s.smat a).width, (s.smat a).val st en i c * (s.smat b).val st en j c) := by
  obtain ⟨s1, e1, h1⟩ := Store.init0_spec s t (s.smat b).height (s.smat a).height wft
  have hsa : s1.smat a = s.smat a := by rw [h1.only.smat]
  have hsb : s1.smat b = s.smat b := by rw [h1.only.smat]
  obtain ⟨s2, e2, h2, h3, h4⟩ := fill_set h1.wf h1.height h1.width
    (f := fun i j _ => SMat.rowDot st en (s.smat a) (s.smat b) i j)
    (g := fun i j =>
        ∑ c ∈ range (s.smat a).width, (s.smat a).val st en i c * (s.smat b).val st en j c)
    (fun i hi j hj _ _ => SMat.rowDot_eq hst wfa wfb hin hi hj)
  refine ⟨s2, ?_, wrote_of_fill h1.only h1.wf h1.width h1.height h1.plain h2 h3 h4⟩
  rw [Store.multiplyTransposeR, e1, ok_bind]
  simp only [hsa, hsb]
  have hu : Unless Err.IsAssert _ (forN (s.smat a).height (fun i s' => forN (s.smat b).height
      (fun j s' => do
        let v ← SMat.rowDot st en (s.smat a) (s.smat b) i j
        s'.setR t j i v) s') s1) :=
    Unless.forN (fun i s' => Unless.forN (fun j s' => Unless.after fun v => s'.set_unless t j i v) _ _) _ _
  rw [e2] at hu
  exact hu.ok

theorem Store.smultiplyR_spec (st en : Nat) (hst : 0 < st) (s : Store ℝ) (a : SId) (b t : MId)
    (hbt : b ≠ t) (wfa : (s.smat a).WF st en) (wfb : (s.mat b).WF)
    (hin : (s.smat a).InRange st en) (wft : (s.mat t).WF)
    (hw : (s.smat a).width ≤ (s.mat b).height) :
    ∃ s', s.smultiplyR st en a b t = .ok s' ∧
      Wrote t s s' (s.mat b).width (s.smat a).height (fun i j =>
        ∑ c ∈ range (s.smat a).width, (s.smat a).val st en i c * (s.mat b).ent c j) := by
  obtain ⟨s1, e1, h1⟩ := Store.init0_spec s t (s.mat b).width (s.smat a).height wft
  have hsa : s1.smat a = s.smat a := by rw [h1.only.smat]
  have hsb : s1.mat b = s.mat b := h1.only.mat b hbt
  generalize hm : s.smat a = m at *
  obtain ⟨s2, e2, h2, h3, h4⟩ := fill_set h1.wf h1.height h1.width
    (f := fun i j s => forN en (fun k v => do
      let block ← m.block (i * en + k)
      if block = 255 then .ok v
      else forN st (fun l v => do
        let x ← m.load i (k * st + l)
        let y ← s.get b j (block * st + l)
        pure (v + x * y)) v) 0)
    (g := fun i j => ∑ c ∈ range m.width, m.val st en i c * (s.mat b).ent c j)
    (by
      intro i hi j hj s' hs'
      rw [SMat.val_sum hin hi hst]
      have h0 : ∀ x : ℝ, (Except.ok x : Exec ℝ) = .ok (0 + x) := by intro x; rw [zero_add]
      rw [h0]
      refine forN_acc ?_ 0
      intro k hk v
      rw [wfa.block_eq hi hk, ok_bind]
      by_cases hb : m.blk en i k = 255
      · simp [hb]
      · rw [if_neg hb, if_neg hb]
        refine forN_acc ?_ v
        intro l hl v
        have hr := (hin i k hi hk).resolve_left hb
        rw [wfa.load_eq hi (packed_lt hk hl), ok_bind, hs'.get (x := b) (by rw [hsb]; exact wfb)
          (by rw [hsb]; omega) (by rw [hsb]; exact hj) (fun h => absurd h hbt), ok_bind, hsb]
        rfl)
  refine ⟨s2, ?_, wrote_of_fill h1.only h1.wf h1.width h1.height h1.plain h2 h3 h4⟩
  have hu : Unless Err.IsAssert (do
      let s1 ← s.init0 t (s.mat b).width m.height
      forN m.height (fun i s1 => forN (s.mat b).width (fun j s1 => do
        let v ← forN en (fun k v => do
          let block ← m.block (i * en + k)
          if block = 255 then .ok v
          else forN st (fun l v => do
            let x ← m.load i (k * st + l)
            let y ← s1.get b j (block * st + l)
            pure (v + x * y)) v) 0
        s1.set t j i v) s1) s1) (s.smultiplyR st en a b t) := by
    rw [Store.smultiplyR, hm]
    simp only
    rw [e1, ok_bind, ok_bind]
    simp only [hsa]
    exact Unless.forN (fun i s1 => Unless.forN (fun j s1 => Unless.bind (Unless.forN (fun k v =>
      Unless.after fun block => Unless.ite (Unless.refl _) (Unless.forN (fun l v => Unless.after fun x =>
        (s1.get_unless b j _).bind fun y => Unless.refl _) _ _)) _ _) fun v => s1.set_unless t j i v) _ _) _ _
  rw [e1, ok_bind, e2] at hu
  exact hu.ok

theorem Store.transposeMultiplyVectorR_spec (st en : Nat) (hst : 0 < st) (s : Store ℝ) (a : SId)
    (b t : MId) (hbt : b ≠ t) (wfa : (s.smat a).WF st en) (wfb : (s.mat b).WF)
    (hin : (s.smat a).InRange st en) (wft : (s.mat t).WF)
    (hw : 1 ≤ (s.mat b).width) (hh : (s.smat a).height ≤ (s.mat b).height) :
    ∃ s', s.transposeMultiplyVectorR st en a b t = .ok s' ∧
      Wrote t s s' 1 (s.smat a).width (fun c _ =>
        ∑ i ∈ range (s.smat a).height, (s.smat a).val st en i c * (s.mat b).ent i 0) := by
  obtain ⟨s1, e1, h1⟩ := Store.init0_spec s t 1 (s.smat a).width wft
  have hsa : s1.smat a = s.smat a := by rw [h1.only.smat]
  have hsb : s1.mat b = s.mat b := h1.only.mat b hbt
  rw [Store.transposeMultiplyVectorR, e1, ok_bind]
  simp only [hsa]
  generalize hm : s.smat a = m at *
  let term : Nat → Nat → Nat → ℝ := fun i c k =>
    (if m.blk en i k ≠ 255 ∧ c / st = m.blk en i k then m.ent i (k * st + c % st) else 0) *
      (s.mat b).ent i 0
  have key : Wp (forN m.height (fun i s => forN en (fun k s => do
      let block ← m.block (i * en + k)
      if block = 255 then .ok s
      else forN st (fun l s => do
        let x ← m.load i (k * st + l)
        let y ← s.get b 0 i
        s.addAt t 0 (block * st + l) (x * y)) s) s) s1)
      (Holds t s1 (fun c _ => ∑ i ∈ range m.height, ∑ k ∈ range en, term i c k)) noErr := by
    refine wp_forN (I := fun i' => Holds t s1 (fun c _ =>
      ∑ i ∈ range i', ∑ k ∈ range en, term i c k)) ?_ ?_
    · exact ⟨Only.refl _ _, Mat.SameShape.refl _, fun r c hr hc => by
        simpa using h1.ent r c (by rw [← h1.height]; exact hr) (by rw [← h1.width]; exact hc)⟩
    · intro i hi s' hs'
      simp only [sum_range_succ]
      refine wp_forN (I := fun k' => Holds t s1 (fun c _ =>
        ∑ i ∈ range i, ∑ k ∈ range en, term i c k + ∑ k ∈ range k', term i c k)) ?_ ?_
      · exact hs'.congr (by intro r c _ _; simp)
      · intro k hk s' hs'
        simp only [sum_range_succ, ← add_assoc]
        rw [wfa.block_eq hi hk, ok_bind, wp_ite]
        constructor
        · intro hb
          rw [wp_ok]
          exact hs'.congr (by intro r c _ _; simp [term, hb])
        · intro hb
          have hr := (hin i k hi hk).resolve_left hb
          refine wp_forN' (I := fun l' => Holds t s1 (fun c _ =>
            ∑ i ∈ range i, ∑ k ∈ range en, term i c k + ∑ k ∈ range k, term i c k +
              if c % st < l' then term i c k else 0)) ?_ ?_ ?_
          · exact hs'.congr (by intro r c _ _; simp)
          · intro l hl s' hs'
            have hgb : s'.get b 0 i = .ok ((s.mat b).ent i 0) := by
              have e : s'.mat b = s.mat b := (hs'.only.mat b hbt).trans hsb
              rw [Store.get_ok s' b (by rw [e]; exact wfb) (by rw [e]; omega)
                (by rw [e]; omega), e]
            rw [wfa.load_eq hi (packed_lt hk hl), ok_bind, hgb, ok_bind]
            refine hs'.addAt h1.wf (by rw [h1.width]; omega) (by rw [h1.height]; omega) ?_
            intro c z hc hz
            have hz0 : z = 0 := by rw [h1.width] at hz; omega
            obtain ⟨d1, d2⟩ := divmod_of (b := m.blk en i k) hl
            by_cases hA : c = m.blk en i k * st + l ∧ z = 0
            · rw [if_pos hA, hA.1]
              simp [term, d1, d2, hb]
            · rw [if_neg hA]
              have hcne : c ≠ m.blk en i k * st + l := fun h => hA ⟨h, hz0⟩
              congr 1
              by_cases h2 : c % st < l
              · rw [if_pos h2, if_pos (by omega)]
              · rw [if_neg h2]
                by_cases h3 : c % st < l + 1
                · rw [if_pos h3]
                  have h4 : c / st ≠ m.blk en i k := by
                    intro h
                    have := eq_of_divmod h
                    omega
                  simp [term, h4]
                · rw [if_neg h3]
          · intro s' hs'
            refine hs'.congr ?_
            intro c z _ _
            rw [if_pos (Nat.mod_lt c hst)]
  obtain ⟨s2, e2, h2⟩ := wp_noErr_iff.mp key
  have hu : Unless Err.IsAssert _ (forN m.height (fun i s => forN en (fun k s => do
      let block ← m.block (i * en + k)
      if block = 255 then .ok s
      else forN st (fun l s => do
        let x ← m.load i (k * st + l)
        let y ← s.getR b 0 i
        s.addAtR t 0 (block * st + l) (x * y)) s) s) s1) :=
    Unless.forN (fun i s => Unless.forN (fun k s => Unless.after fun block => Unless.ite (Unless.refl _)
      (Unless.forN (fun l s => Unless.after fun x => (s.get_unless b 0 i).bind fun y =>
        s.addAt_unless t 0 _ _) _ _)) _ _) _ _
  rw [e2] at hu
  refine ⟨s2, hu.ok, wrote_of_fill h1.only h1.wf h1.width h1.height h1.plain h2.only h2.shape ?_⟩
  intro c z hc hz
  rw [h2.ent c z (by rw [h1.height]; exact hc) (by rw [h1.width]; exact hz)]
  refine sum_congr rfl ?_
  intro i _
  simp only [term, SMat.val, sum_mul]

end Scs
