import Verif.SparseSpec

/-!
# Specification lemmas: sparse element access and scaling
-/

namespace Scs

section
variable {α : Type}

theorem Store.sset_spec [Zero α] (st en : Nat) (s : Store α) (t : SId) (wf : (s.smat t).WF st en)
    {row entry slice : Nat} (hr : row < (s.smat t).height) (he : entry < en) (hs : slice < st)
    (v : α) :
    ∃ s', s.sset st en t row entry slice v = .ok s' ∧ OnlyS t s s' ∧ s'.tick = s.tick ∧
      (s.smat t).SameShape (s'.smat t) ∧ (s'.smat t).blocks = (s.smat t).blocks ∧
      ∀ r c, r < (s.smat t).height → c < en * st → (s'.smat t).ent r c =
        if r = row ∧ c = entry * st + slice then v else (s.smat t).ent r c := by
  obtain ⟨m', e, h1, h2, h3⟩ := wf.store_spec hr (packed_lt he hs) v
  refine ⟨s.setSMat t m', ?_, OnlyS.setSMat _ _ _, rfl, by simpa using h1, by simpa using h3,
    by simpa using h2⟩
  rw [Store.sset, chk_true _ hr, ok_bind, chk_true _ he, ok_bind, chk_true _ hs, ok_bind, e]
  rfl

theorem Store.sget_ok [Zero α] (st en : Nat) (s : Store α) (t : SId) (wf : (s.smat t).WF st en)
    {row entry slice : Nat} (hr : row < (s.smat t).height) (he : entry < en) (hs : slice < st) :
    s.sget st en t row entry slice = .ok ((s.smat t).ent row (entry * st + slice)) := by
  rw [Store.sget, chk_true _ hr, ok_bind, chk_true _ he, ok_bind, chk_true _ hs, ok_bind,
    wf.load_eq hr (packed_lt he hs)]

theorem Store.setBlock_spec (st en : Nat) (s : Store α) (t : SId) (wf : (s.smat t).WF st en)
    {row entry : Nat} {index : Int} (hr : row < (s.smat t).height) (he : entry < en)
    (hi : (index % 256).toNat < (s.smat t).width) :
    ∃ s', s.setBlock en t row entry index = .ok s' ∧ OnlyS t s s' ∧ s'.tick = s.tick ∧
      (s.smat t).SameShape (s'.smat t) ∧ (s'.smat t).data = (s.smat t).data ∧
      ∀ r j, r < (s.smat t).height → j < en → (s'.smat t).blk en r j =
        if r = row ∧ j = entry then (index % 256).toNat else (s.smat t).blk en r j := by
  obtain ⟨m', e, h1, h2, h3⟩ := wf.putBlock_spec hr he (index % 256).toNat
  refine ⟨s.setSMat t m', ?_, OnlyS.setSMat _ _ _, rfl, by simpa using h1, by simpa using h2,
    by simpa using h3⟩
  rw [Store.setBlock, chk_true _ hr, ok_bind, chk_true _ he, ok_bind, chk_true _ hi, ok_bind, e]
  rfl

theorem Store.setEmpty_spec [Zero α] (st en : Nat) (s : Store α) (t : SId)
    (wf : (s.smat t).WF st en) {row col : Nat} (hr : row < (s.smat t).height) (he : col < en) :
    ∃ s', s.setEmpty st en t row col = .ok s' ∧ OnlyS t s s' ∧ s'.tick = s.tick ∧
      (s.smat t).SameShape (s'.smat t) ∧
      (∀ r j, r < (s.smat t).height → j < en → (s'.smat t).blk en r j =
        if r = row ∧ j = col then 255 else (s.smat t).blk en r j) ∧
      ∀ r j k, r < (s.smat t).height → j < en → k < st → (s'.smat t).ent r (j * st + k) =
        if r = row ∧ j = col then 0 else (s.smat t).ent r (j * st + k) := by
  obtain ⟨m1, e1, h1, h2, h3⟩ := wf.putBlock_spec hr he 255
  have key : Wp (forN st (fun i (m : SMat α) => m.store row (col * st + i) 0) m1)
      (fun m' => m1.SameShape m' ∧ m'.blocks = m1.blocks ∧
        ∀ r j k, r < (s.smat t).height → j < en → k < st → m'.ent r (j * st + k) =
          if r = row ∧ j = col ∧ k < st then 0 else m1.ent r (j * st + k)) noErr := by
    refine wp_forN (I := fun i m' => m1.SameShape m' ∧ m'.blocks = m1.blocks ∧
        ∀ r j k, r < (s.smat t).height → j < en → k < st → m'.ent r (j * st + k) =
          if r = row ∧ j = col ∧ k < i then 0 else m1.ent r (j * st + k)) ?_ ?_
    · exact ⟨SMat.SameShape.refl _, rfl, by simp⟩
    · rintro i hi m' ⟨a, b, c⟩
      have hh : m'.height = (s.smat t).height := a.height.trans h1.height
      obtain ⟨m2, e2, k1, k2, k3⟩ := (a.wf (h1.wf wf)).store_spec (r := row) (c := col * st + i)
        (by rw [hh]; exact hr) (packed_lt he hi) (0 : α)
      rw [e2]
      refine ⟨a.trans k1, k3.trans b, ?_⟩
      intro r j k hr' hj hk
      rw [k2 r _ (by rw [hh]; exact hr') (packed_lt hj hk), c r j k hr' hj hk]
      by_cases hA : r = row ∧ j * st + k = col * st + i
      · obtain ⟨q1, q2⟩ := idx_inj hk hi hA.2
        rw [if_pos hA, if_pos ⟨hA.1, q1, by omega⟩]
      · rw [if_neg hA]
        by_cases hB : r = row ∧ j = col ∧ k < i
        · rw [if_pos hB, if_pos ⟨hB.1, hB.2.1, by omega⟩]
        · rw [if_neg hB, if_neg]
          rintro ⟨q1, q2, q3⟩
          have : k = i := by
            have : ¬ k < i := fun h => hB ⟨q1, q2, h⟩
            omega
          exact hA ⟨q1, by rw [q2, this]⟩
  obtain ⟨m2, e2, a, b, c⟩ := wp_noErr_iff.mp key
  refine ⟨s.setSMat t m2, ?_, OnlyS.setSMat _ _ _, rfl, by simpa using h1.trans a, ?_, ?_⟩
  · rw [Store.setEmpty, chk_true _ hr, ok_bind, chk_true _ he, ok_bind, e1, ok_bind, e2]
    rfl
  · intro r j hr' hj
    simp only [Store.setSMat_same]
    rw [SMat.blk_congr b, h3 r j hr' hj]
  · intro r j k hr' hj hk
    simp only [Store.setSMat_same]
    rw [c r j k hr' hj hk, SMat.ent_congr h1.rows h2]
    by_cases h : r = row ∧ j = col
    · rw [if_pos h, if_pos ⟨h.1, h.2, hk⟩]
    · rw [if_neg h, if_neg (fun h' => h ⟨h'.1, h'.2.1⟩)]

/-- `s'` is `s` with the sparse matrix `t` replaced by one of size `w` x `h` with block indices `B`
and values `X r j k` in the used entries. -/
structure SWrote [Zero α] (st en : Nat) (t : SId) (s s' : Store α) (w h : Nat)
    (B : Nat → Nat → Nat) (X : Nat → Nat → Nat → α) : Prop where
  only : OnlyS t s s'
  wf : (s'.smat t).WF st en
  fresh : (s'.smat t).Fresh
  width : (s'.smat t).width = w
  height : (s'.smat t).height = h
  blk : ∀ r j, r < h → j < en → (s'.smat t).blk en r j = B r j
  ent : ∀ r j k, r < h → j < en → k < st → B r j ≠ 255 →
    (s'.smat t).ent r (j * st + k) = X r j k

/-- Loop state of the scaling functions before entry `j` of row `i`. -/
structure ScaleInv [Zero α] (st en : Nat) (t : SId) (s1 : Store α) (B : Nat → Nat → Nat)
    (X : Nat → Nat → Nat → α) (i j : Nat) (s : Store α) : Prop where
  only : OnlyS t s1 s
  shape : (s1.smat t).SameShape (s.smat t)
  blk : ∀ r l, r < (s1.smat t).height → l < en →
    (s.smat t).blk en r l = if r < i ∨ (r = i ∧ l < j) then B r l else 255
  ent : ∀ r l k, r < (s1.smat t).height → l < en → k < st → (r < i ∨ (r = i ∧ l < j)) →
    B r l ≠ 255 → (s.smat t).ent r (l * st + k) = X r l k

/-- Common loop nest of `leftScale` and `rightScale` for a target different from the source. -/
theorem Store.scaleLoop_spec [Zero α] [Mul α] (st en : Nat) (hst : 0 < st) (s1 : Store α) (a t : SId)
    (sc : MId) (hat : a ≠ t) (wfa : (s1.smat a).WF st en) (hin : (s1.smat a).InRange st en)
    (wft : (s1.smat t).WF st en) (hft : (s1.smat t).Fresh)
    (hw : (s1.smat t).width = (s1.smat a).width) (hh : (s1.smat t).height = (s1.smat a).height)
    (hempty : ∀ r j, r < (s1.smat a).height → j < en → (s1.smat t).blk en r j = 255)
    (pos : Nat → Nat → Nat → Nat) (F : Nat → Nat → Nat → α)
    (hsc : ∀ i j k, i < (s1.smat a).height → j < en → k < st → (s1.smat a).blk en i j ≠ 255 →
      s1.get sc 0 (pos i ((s1.smat a).blk en i j) k) = .ok (F i j k)) :
    ∃ s', forN (s1.smat a).height (fun i s => forN en (fun j s => do
        let index ← (s.smat a).block (i * en + j)
        if index = 255 then .ok s
        else do
          let s ← s.setBlock en t i j index
          forN st (fun k s => do
            let x ← s.get sc 0 (pos i index k)
            let y ← (s.smat a).load i (j * st + k)
            s.sset st en t i j k (x * y)) s) s) s1 = .ok s' ∧
      SWrote st en t s1 s' (s1.smat a).width (s1.smat a).height ((s1.smat a).blk en)
        (fun r j k => F r j k * (s1.smat a).ent r (j * st + k)) := by
  let B := (s1.smat a).blk en
  let X : Nat → Nat → Nat → α := fun r j k => F r j k * (s1.smat a).ent r (j * st + k)
  have key : Wp (forN (s1.smat a).height (fun i s => forN en (fun j s => do
        let index ← (s.smat a).block (i * en + j)
        if index = 255 then .ok s
        else do
          let s ← s.setBlock en t i j index
          forN st (fun k s => do
            let x ← s.get sc 0 (pos i index k)
            let y ← (s.smat a).load i (j * st + k)
            s.sset st en t i j k (x * y)) s) s) s1)
      (ScaleInv st en t s1 B X (s1.smat a).height 0) noErr := by
    refine wp_forN (I := fun i => ScaleInv st en t s1 B X i 0) ?_ ?_
    · refine ⟨OnlyS.refl _ _, SMat.SameShape.refl _, ?_, ?_⟩
      · intro r l hr hl
        rw [hempty r l (by omega) hl, if_neg (by omega)]
      · intro r l k _ _ _ h; omega
    · intro i hi s hs
      refine wp_forN' (I := fun j => ScaleInv st en t s1 B X i j) hs ?_ ?_
      · intro j hj s hs
        have hsa : s.smat a = s1.smat a := hs.only.smat a hat
        rw [hsa, wfa.block_eq hi hj, ok_bind, wp_ite]
        constructor
        · intro hb
          rw [wp_ok]
          refine ⟨hs.only, hs.shape, ?_, ?_⟩
          · intro r l hr hl
            rw [hs.blk r l hr hl]
            by_cases h : r = i ∧ l = j
            · rw [if_neg (by omega), if_pos (by omega), h.1, h.2]; exact hb.symm
            · by_cases h2 : r < i ∨ (r = i ∧ l < j)
              · rw [if_pos h2, if_pos (by omega)]
              · rw [if_neg h2, if_neg (by omega)]
          · intro r l k hr hl hk hd hne
            refine hs.ent r l k hr hl hk ?_ hne
            by_cases h : r = i ∧ l = j
            · exact absurd (by rw [h.1, h.2]; exact hb) hne
            · omega
        · intro hb
          have hrange := (hin i j hi hj).resolve_left hb
          have hmul : (s1.smat a).blk en i j ≤ (s1.smat a).blk en i j * st :=
            Nat.le_mul_of_pos_right _ hst
          have hidx : (((s1.smat a).blk en i j : Int) % 256).toNat = (s1.smat a).blk en i j := by
            omega
          have wfs := hs.shape.wf wft
          obtain ⟨s2, e2, o2, _, sh2, d2, b2⟩ := Store.setBlock_spec st en s t wfs (row := i)
            (entry := j) (index := ((s1.smat a).blk en i j : Int))
            (by rw [hs.shape.height, hh]; exact hi) hj
            (by rw [hidx, hs.shape.width, hw]; omega)
          rw [e2, ok_bind]
          have hsh : (s1.smat t).SameShape (s2.smat t) := hs.shape.trans sh2
          refine wp_forN' (I := fun k s => OnlyS t s1 s ∧ (s2.smat t).SameShape (s.smat t) ∧
            (s.smat t).blocks = (s2.smat t).blocks ∧
            ∀ r l k', r < (s1.smat t).height → l < en → k' < st →
              (s.smat t).ent r (l * st + k') =
                if r = i ∧ l = j ∧ k' < k then X i j k' else (s2.smat t).ent r (l * st + k'))
            ?_ ?_ ?_
          · exact ⟨hs.only.trans o2, SMat.SameShape.refl _, rfl, by simp⟩
          · rintro k hk s ⟨q1, q2, q3, q4⟩
            have hsa' : s.smat a = s1.smat a := q1.smat a hat
            have hget : s.get sc 0 (pos i ((s1.smat a).blk en i j) k) = .ok (F i j k) := by
              rw [← hsc i j k hi hj hk hb]
              simp only [Store.get, Store.load, q1.mat]
            rw [hget, ok_bind, hsa', wfa.load_eq hi (packed_lt hj hk), ok_bind]
            have hsh' := hsh.trans q2
            obtain ⟨s3, e3, o3, _, sh3, b3, v3⟩ := Store.sset_spec st en s t (hsh'.wf wft)
              (row := i) (entry := j) (slice := k) (by rw [hsh'.height, hh]; exact hi) hj hk
              (F i j k * (s1.smat a).ent i (j * st + k))
            rw [e3]
            refine ⟨q1.trans o3, q2.trans sh3, b3.trans q3, ?_⟩
            intro r l k' hr hl hk'
            rw [v3 r _ (by rw [hsh'.height]; exact hr) (packed_lt hl hk'), q4 r l k' hr hl hk']
            by_cases hA : r = i ∧ l * st + k' = j * st + k
            · obtain ⟨z1, z2⟩ := idx_inj hk' hk hA.2
              rw [if_pos hA, if_pos ⟨hA.1, z1, by omega⟩, z2]
            · rw [if_neg hA]
              by_cases hB : r = i ∧ l = j ∧ k' < k
              · rw [if_pos hB, if_pos ⟨hB.1, hB.2.1, by omega⟩]
              · rw [if_neg hB, if_neg]
                rintro ⟨z1, z2, z3⟩
                have : k' = k := by
                  have : ¬ k' < k := fun h => hB ⟨z1, z2, h⟩
                  omega
                exact hA ⟨z1, by rw [z2, this]⟩
          · rintro s ⟨q1, q2, q3, q4⟩
            refine ⟨q1, hsh.trans q2, ?_, ?_⟩
            · intro r l hr hl
              rw [SMat.blk_congr q3, b2 r l (by rw [hs.shape.height]; exact hr) hl, hs.blk r l hr hl]
              by_cases h : r = i ∧ l = j
              · rw [if_pos h, if_pos (by omega), hidx, h.1, h.2]
              · rw [if_neg h]
                by_cases h2 : r < i ∨ (r = i ∧ l < j)
                · rw [if_pos h2, if_pos (by omega)]
                · rw [if_neg h2, if_neg (by omega)]
            · intro r l k hr hl hk hd hne
              rw [q4 r l k hr hl hk]
              by_cases h : r = i ∧ l = j
              · rw [if_pos ⟨h.1, h.2, hk⟩, h.1, h.2]
              · rw [if_neg (fun h' => h ⟨h'.1, h'.2.1⟩), SMat.ent_congr sh2.rows d2]
                exact hs.ent r l k hr hl hk (by omega) hne
      · intro s hs
        refine ⟨hs.only, hs.shape, ?_, ?_⟩
        · intro r l hr hl
          rw [hs.blk r l hr hl]
          by_cases h2 : r < i ∨ (r = i ∧ l < en)
          · rw [if_pos h2, if_pos (by omega)]
          · rw [if_neg h2, if_neg (by omega)]
        · intro r l k hr hl hk hd hne
          exact hs.ent r l k hr hl hk (by omega) hne
  obtain ⟨s', e, h⟩ := wp_noErr_iff.mp key
  refine ⟨s', e, h.only, h.shape.wf wft, h.shape.fresh hft, h.shape.width.trans hw,
    h.shape.height.trans hh, ?_, ?_⟩
  · intro r j hr hj
    rw [h.blk r j (by omega) hj, if_pos (by omega)]
  · intro r j k hr hj hk hne
    exact h.ent r j k (by omega) hj hk (by omega) hne

/-- `rightScale` into another sparse matrix. -/
theorem Store.srightScale_spec [Zero α] [Mul α] (st en : Nat) (hst : 0 < st) (s : Store α)
    (a t : SId) (sc : MId) (hat : a ≠ t) (wfa : (s.smat a).WF st en)
    (hin : (s.smat a).InRange st en) (wft : (s.smat t).WF st en) (hft : (s.smat t).Fresh)
    (wfs : (s.mat sc).WF) (hw : (s.mat sc).width = 1)
    (hh : (s.mat sc).height = (s.smat a).width) :
    ∃ s', s.srightScale st en a sc t = .ok s' ∧
      SWrote st en t s s' (s.smat a).width (s.smat a).height ((s.smat a).blk en)
        (fun r j k => (s.mat sc).ent ((s.smat a).blk en r j * st + k) 0 *
          (s.smat a).ent r (j * st + k)) := by
  obtain ⟨s1, e1, o1, wf1, f1, w1, hh1, b1⟩ :=
    Store.sinit_spec st en s t (s.smat a).width (s.smat a).height wft hft
  have hsa : s1.smat a = s.smat a := o1.smat a hat
  have hms : s1.mat sc = s.mat sc := by rw [o1.mat]
  obtain ⟨s2, e2, h2⟩ := Store.scaleLoop_spec st en hst s1 a t sc hat (by rw [hsa]; exact wfa)
    (by rw [hsa]; exact hin) wf1 f1 (by rw [hsa]; exact w1) (by rw [hsa]; exact hh1)
    (by rw [hsa]; exact b1) (fun _ index k => index * st + k)
    (fun i j k => (s.mat sc).ent ((s.smat a).blk en i j * st + k) 0) (by
      intro i j k hi hj hk hb
      rw [hsa] at hb hi ⊢
      have := (hin i j hi hj).resolve_left hb
      rw [Store.get_ok s1 sc (by rw [hms]; exact wfs) (by rw [hms]; omega)
        (by rw [hms, hh]; omega), hms])
  refine ⟨s2, ?_, ?_⟩
  · rw [Store.srightScale, chk_true _ hw, ok_bind, chk_true _ hh, ok_bind, e1, ok_bind]
    exact e2
  · rw [hsa] at h2
    exact ⟨o1.trans h2.only, h2.wf, h2.fresh, h2.width, h2.height, h2.blk, h2.ent⟩

/-- `leftScale` into another sparse matrix. -/
theorem Store.sleftScale_spec [Zero α] [Mul α] (st en : Nat) (hst : 0 < st) (s : Store α)
    (a t : SId) (sc : MId) (hat : a ≠ t) (wfa : (s.smat a).WF st en)
    (hin : (s.smat a).InRange st en) (wft : (s.smat t).WF st en) (hft : (s.smat t).Fresh)
    (wfs : (s.mat sc).WF) (hw : (s.mat sc).width = 1 ∨ (s.smat a).height = 0)
    (hh : (s.mat sc).height = (s.smat a).height) :
    ∃ s', s.sleftScale st en a sc t = .ok s' ∧
      SWrote st en t s s' (s.smat a).width (s.smat a).height ((s.smat a).blk en)
        (fun r j k => (s.mat sc).ent r 0 * (s.smat a).ent r (j * st + k)) := by
  obtain ⟨s1, e1, o1, wf1, f1, w1, hh1, b1⟩ :=
    Store.sinit_spec st en s t (s.smat a).width (s.smat a).height wft hft
  have hsa : s1.smat a = s.smat a := o1.smat a hat
  have hms : s1.mat sc = s.mat sc := by rw [o1.mat]
  obtain ⟨s2, e2, h2⟩ := Store.scaleLoop_spec st en hst s1 a t sc hat (by rw [hsa]; exact wfa)
    (by rw [hsa]; exact hin) wf1 f1 (by rw [hsa]; exact w1) (by rw [hsa]; exact hh1)
    (by rw [hsa]; exact b1) (fun i _ _ => i)
    (fun i _ _ => (s.mat sc).ent i 0) (by
      intro i j k hi hj hk hb
      rw [hsa] at hi
      rw [Store.get_ok s1 sc (by rw [hms]; exact wfs) (by rw [hms]; omega)
        (by rw [hms, hh]; omega), hms])
  refine ⟨s2, ?_, ?_⟩
  · rw [Store.sleftScale, chk_true _ hw, ok_bind, chk_true _ hh, ok_bind, e1, ok_bind]
    exact e2
  · rw [hsa] at h2
    exact ⟨o1.trans h2.only, h2.wf, h2.fresh, h2.width, h2.height, h2.blk, h2.ent⟩

end

end Scs
