import Verif.SparseLemmas
import Mathlib.Data.Real.Basic
import Mathlib.Algebra.BigOperators.Intervals

/-!
# Specification lemmas for the `SparseMatrix` functions
-/

namespace Scs

open Finset

section
variable {α : Type}

/-- All used blocks of the matrix are valid 8-bit indices and lie inside its width. -/
def SMat.InRange (st en : Nat) (m : SMat α) : Prop :=
  ∀ r j, r < m.height → j < en →
    m.blk en r j = 255 ∨ (m.blk en r j < 255 ∧ m.blk en r j * st + st ≤ m.width)

/-- No row uses the same block twice. -/
def SMat.Distinct (en : Nat) (m : SMat α) : Prop :=
  ∀ r j j', r < m.height → j < en → j' < en → m.blk en r j ≠ 255 →
    m.blk en r j = m.blk en r j' → j = j'

/-! ## Dense target: generic state predicate -/

/-- `s` differs from `s1` only in the elements of `t`, which are `F`. -/
structure Holds [Zero α] (t : MId) (s1 : Store α) (F : Nat → Nat → α) (s : Store α) : Prop where
  only : Only t s1 s
  shape : (s1.mat t).SameShape (s.mat t)
  ent : ∀ r c, r < (s1.mat t).height → c < (s1.mat t).width → (s.mat t).ent r c = F r c

theorem Holds.set [Zero α] {t : MId} {s1 s : Store α} {F F' : Nat → Nat → α}
    (h : Holds t s1 F s) (wf : (s1.mat t).WF) {c r : Nat} {v : α} (hc : c < (s1.mat t).width)
    (hr : r < (s1.mat t).height)
    (hF : ∀ r' c', r' < (s1.mat t).height → c' < (s1.mat t).width →
      F' r' c' = if r' = r ∧ c' = c then v else F r' c') :
    Wp (s.set t c r v) (Holds t s1 F') noErr := by
  obtain ⟨s', e, h1, _, h2, h3⟩ := Store.set_spec s t (h.shape.wf wf) (c := c) (r := r)
    (by rw [h.shape.width]; exact hc) (by rw [h.shape.height]; exact hr) v
  rw [e]
  refine ⟨h.only.trans h1, h.shape.trans h2, ?_⟩
  intro r' c' hr' hc'
  rw [h3 r' c' (by rw [h.shape.height]; exact hr') (by rw [h.shape.width]; exact hc'),
    hF r' c' hr' hc', h.ent r' c' hr' hc']

theorem Holds.addAt [Zero α] [Add α] {t : MId} {s1 s : Store α} {F F' : Nat → Nat → α}
    (h : Holds t s1 F s) (wf : (s1.mat t).WF) {c r : Nat} {v : α} (hc : c < (s1.mat t).width)
    (hr : r < (s1.mat t).height)
    (hF : ∀ r' c', r' < (s1.mat t).height → c' < (s1.mat t).width →
      F' r' c' = if r' = r ∧ c' = c then F r c + v else F r' c') :
    Wp (s.addAt t c r v) (Holds t s1 F') noErr := by
  obtain ⟨s', e, h1, _, h2, h3⟩ := Store.addAt_spec s t (h.shape.wf wf) (c := c) (r := r)
    (by rw [h.shape.width]; exact hc) (by rw [h.shape.height]; exact hr) v
  rw [e]
  refine ⟨h.only.trans h1, h.shape.trans h2, ?_⟩
  intro r' c' hr' hc'
  rw [h3 r' c' (by rw [h.shape.height]; exact hr') (by rw [h.shape.width]; exact hc'),
    hF r' c' hr' hc', h.ent r' c' hr' hc', h.ent r c hr hc]

theorem Holds.congr [Zero α] {t : MId} {s1 s : Store α} {F F' : Nat → Nat → α}
    (h : Holds t s1 F s) (hF : ∀ r c, r < (s1.mat t).height → c < (s1.mat t).width →
      F' r c = F r c) : Holds t s1 F' s :=
  ⟨h.only, h.shape, fun r c hr hc => by rw [hF r c hr hc, h.ent r c hr hc]⟩

/-! ## expand -/

/-- What `expand` has written in row `r`, column `c` after the first `j` entries. -/
def SMat.expTo [Zero α] (st en : Nat) (m : SMat α) (r c : Nat) : Nat → α
  | 0 => 0
  | j + 1 =>
    if m.blk en r j ≠ 255 ∧ c / st = m.blk en r j then m.ent r (j * st + c % st)
    else m.expTo st en r c j

theorem divmod_of {b st k : Nat} (hk : k < st) : (b * st + k) / st = b ∧ (b * st + k) % st = k := by
  have h1 : b * st + k = k + st * b := by rw [Nat.mul_comm]; omega
  rw [h1, Nat.add_mul_div_left _ _ (by omega), Nat.add_mul_mod_self_left, Nat.div_eq_of_lt hk,
    Nat.mod_eq_of_lt hk]
  omega

theorem eq_of_divmod {c b st : Nat} (h : c / st = b) : c = b * st + c % st := by
  have := Nat.div_add_mod c st
  rw [h] at this
  rw [Nat.mul_comm]; exact this.symm

theorem packed_lt {j en st k : Nat} (hj : j < en) (hk : k < st) : j * st + k < en * st := by
  have := idx_lt hj hk (Nat.le_refl _) (Nat.le_refl _)
  rwa [Nat.mul_comm st en] at this

theorem Store.expand_spec [Zero α] (st en : Nat) (hst : 0 < st) (s : Store α) (a : SId) (t : MId)
    (wfa : (s.smat a).WF st en) (hin : (s.smat a).InRange st en) (wft : (s.mat t).WF) :
    ∃ s', s.expand st en a t = .ok s' ∧
      Wrote t s s' (s.smat a).width (s.smat a).height
        (fun r c => (s.smat a).expTo st en r c en) := by
  obtain ⟨s1, e1, h1⟩ := Store.init0_spec s t (s.smat a).width (s.smat a).height wft
  have hsm : s1.smat a = s.smat a := by rw [h1.only.smat]
  rw [Store.expand, e1, ok_bind]
  simp only [hsm]
  generalize hm : s.smat a = m at *
  have key : Wp (forN m.height (fun i s => forN en (fun j s => do
    let block ← m.block (i * en + j)
    if block = 255 then .ok s
    else forN st (fun k s => do
      let v ← m.load i (j * st + k)
      s.set t (block * st + k) i v) s) s) s1)
      (Holds t s1 (fun r c => if r < m.height then m.expTo st en r c en else 0)) noErr := by
    refine wp_forN (I := fun i => Holds t s1 (fun r c => if r < i then m.expTo st en r c en else 0))
      ?_ ?_
    · exact ⟨Only.refl _ _, Mat.SameShape.refl _, fun r c hr hc => by
        simpa using h1.ent r c (by rw [← h1.height]; exact hr) (by rw [← h1.width]; exact hc)⟩
    · intro i hi s hs
      refine wp_forN' (I := fun j => Holds t s1 (fun r c =>
        if r < i then m.expTo st en r c en else if r = i then m.expTo st en r c j else 0)) ?_ ?_ ?_
      · refine hs.congr ?_
        intro r c _ _
        by_cases h : r < i
        · simp [h]
        · simp only [h, if_false]
          split <;> rfl
      · intro j hj s hs
        rw [wfa.block_eq hi hj, ok_bind, wp_ite]
        constructor
        · intro hb
          rw [wp_ok]
          refine hs.congr ?_
          intro r c _ _
          by_cases h : r = i
          · subst h; simp [SMat.expTo, hb]
          · simp [h]
        · intro hb
          refine wp_forN' (I := fun k => Holds t s1 (fun r c =>
            if r < i then m.expTo st en r c en
            else if r = i then
              (if c / st = m.blk en i j ∧ c % st < k then m.ent i (j * st + c % st)
               else m.expTo st en r c j)
            else 0)) ?_ ?_ ?_
          · exact hs.congr (by intro r c _ _; simp)
          · intro k hk s hs
            rw [wfa.load_eq hi (packed_lt hj hk), ok_bind]
            have hrange := (hin i j hi hj).resolve_left hb
            refine hs.set h1.wf (by rw [h1.width]; omega) (by rw [h1.height]; exact hi) ?_
            intro r' c' hr' hc'
            obtain ⟨d1, d2⟩ := divmod_of (b := m.blk en i j) hk
            by_cases hA : r' = i ∧ c' = m.blk en i j * st + k
            · rw [if_pos hA, if_neg (by omega), if_pos hA.1, if_pos, hA.2, d2]
              rw [hA.2, d1, d2]; exact ⟨rfl, by omega⟩
            · rw [if_neg hA]
              by_cases hr : r' < i
              · simp [hr]
              · by_cases hr2 : r' = i
                · subst hr2
                  simp only [Nat.lt_irrefl, if_false, if_true]
                  by_cases hB : c' / st = m.blk en r' j ∧ c' % st < k
                  · rw [if_pos hB, if_pos ⟨hB.1, by omega⟩]
                  · rw [if_neg hB, if_neg]
                    rintro ⟨q1, q2⟩
                    have := eq_of_divmod q1
                    have q3 : c' % st = k := by
                      have : ¬ c' % st < k := fun h => hB ⟨q1, h⟩
                      omega
                    exact hA ⟨rfl, by omega⟩
                · simp [hr, hr2]
          · intro s hs
            refine hs.congr ?_
            intro r c _ _
            by_cases hr : r < i
            · simp [hr]
            · by_cases hr2 : r = i
              · subst hr2
                simp only [Nat.lt_irrefl, if_false, if_true, SMat.expTo]
                by_cases hB : c / st = m.blk en r j
                · have := Nat.mod_lt c hst
                  simp [hB, hb, this]
                · simp [hB]
              · simp [hr, hr2]
      · intro s hs
        refine hs.congr ?_
        intro r c _ _
        by_cases h1 : r < i
        · rw [if_pos h1, if_pos (by omega)]
        · by_cases h2 : r = i
          · rw [if_neg h1, if_pos h2, if_pos (by omega)]
          · rw [if_neg h1, if_neg h2, if_neg (by omega)]
  obtain ⟨s2, e2, h2⟩ := wp_noErr_iff.mp key
  refine ⟨s2, e2, wrote_of_fill h1.only h1.wf h1.width h1.height h1.plain h2.only h2.shape ?_⟩
  intro r c hr hc
  rw [h2.ent r c (by rw [h1.height]; exact hr) (by rw [h1.width]; exact hc), if_pos hr]

theorem Store.expandTransposed_spec [Zero α] (st en : Nat) (hst : 0 < st) (s : Store α) (a : SId) (t : MId)
    (wfa : (s.smat a).WF st en) (hin : (s.smat a).InRange st en) (wft : (s.mat t).WF) :
    ∃ s', s.expandTransposed st en a t = .ok s' ∧
      Wrote t s s' (s.smat a).height (s.smat a).width
        (fun c r => (s.smat a).expTo st en r c en) := by
  obtain ⟨s1, e1, h1⟩ := Store.init0_spec s t (s.smat a).height (s.smat a).width wft
  have hsm : s1.smat a = s.smat a := by rw [h1.only.smat]
  rw [Store.expandTransposed, e1, ok_bind]
  simp only [hsm]
  generalize hm : s.smat a = m at *
  have key : Wp (forN m.height (fun i s => forN en (fun j s => do
    let block ← m.block (i * en + j)
    if block = 255 then .ok s
    else forN st (fun k s => do
      let v ← m.load i (j * st + k)
      s.set t i (block * st + k) v) s) s) s1)
      (Holds t s1 (fun c r => if r < m.height then m.expTo st en r c en else 0)) noErr := by
    refine wp_forN (I := fun i => Holds t s1 (fun c r => if r < i then m.expTo st en r c en else 0))
      ?_ ?_
    · exact ⟨Only.refl _ _, Mat.SameShape.refl _, fun c r hc hr => by
        simpa using h1.ent c r (by rw [← h1.height]; exact hc) (by rw [← h1.width]; exact hr)⟩
    · intro i hi s hs
      refine wp_forN' (I := fun j => Holds t s1 (fun c r =>
        if r < i then m.expTo st en r c en else if r = i then m.expTo st en r c j else 0)) ?_ ?_ ?_
      · refine hs.congr ?_
        intro c r _ _
        by_cases h : r < i
        · simp [h]
        · simp only [h, if_false]
          split <;> rfl
      · intro j hj s hs
        rw [wfa.block_eq hi hj, ok_bind, wp_ite]
        constructor
        · intro hb
          rw [wp_ok]
          refine hs.congr ?_
          intro c r _ _
          by_cases h : r = i
          · subst h; simp [SMat.expTo, hb]
          · simp [h]
        · intro hb
          refine wp_forN' (I := fun k => Holds t s1 (fun c r =>
            if r < i then m.expTo st en r c en
            else if r = i then
              (if c / st = m.blk en i j ∧ c % st < k then m.ent i (j * st + c % st)
               else m.expTo st en r c j)
            else 0)) ?_ ?_ ?_
          · exact hs.congr (by intro c r _ _; simp)
          · intro k hk s hs
            rw [wfa.load_eq hi (packed_lt hj hk), ok_bind]
            have hrange := (hin i j hi hj).resolve_left hb
            refine hs.set h1.wf (by rw [h1.width]; exact hi) (by rw [h1.height]; omega) ?_
            intro c' r' hc' hr'
            obtain ⟨d1, d2⟩ := divmod_of (b := m.blk en i j) hk
            by_cases hA : c' = m.blk en i j * st + k ∧ r' = i
            · rw [if_pos hA, if_neg (by omega), if_pos hA.2, if_pos, hA.1, d2]
              rw [hA.1, d1, d2]; exact ⟨rfl, by omega⟩
            · rw [if_neg hA]
              by_cases hr : r' < i
              · simp [hr]
              · by_cases hr2 : r' = i
                · subst hr2
                  simp only [Nat.lt_irrefl, if_false, if_true]
                  by_cases hB : c' / st = m.blk en r' j ∧ c' % st < k
                  · rw [if_pos hB, if_pos ⟨hB.1, by omega⟩]
                  · rw [if_neg hB, if_neg]
                    rintro ⟨q1, q2⟩
                    have := eq_of_divmod q1
                    have q3 : c' % st = k := by
                      have : ¬ c' % st < k := fun h => hB ⟨q1, h⟩
                      omega
                    exact hA ⟨by omega, rfl⟩
                · simp [hr, hr2]
          · intro s hs
            refine hs.congr ?_
            intro c r _ _
            by_cases hr : r < i
            · simp [hr]
            · by_cases hr2 : r = i
              · subst hr2
                simp only [Nat.lt_irrefl, if_false, if_true, SMat.expTo]
                by_cases hB : c / st = m.blk en r j
                · have := Nat.mod_lt c hst
                  simp [hB, hb, this]
                · simp [hB]
              · simp [hr, hr2]
      · intro s hs
        refine hs.congr ?_
        intro c r _ _
        by_cases h1 : r < i
        · rw [if_pos h1, if_pos (by omega)]
        · by_cases h2 : r = i
          · rw [if_neg h1, if_pos h2, if_pos (by omega)]
          · rw [if_neg h1, if_neg h2, if_neg (by omega)]
  obtain ⟨s2, e2, h2⟩ := wp_noErr_iff.mp key
  refine ⟨s2, e2, wrote_of_fill h1.only h1.wf h1.width h1.height h1.plain h2.only h2.shape ?_⟩
  intro c r hc hr
  rw [h2.ent c r (by rw [h1.height]; exact hc) (by rw [h1.width]; exact hr), if_pos hr]

end

end Scs
