import Verif.SparseSpec
import Mathlib.Algebra.BigOperators.Ring.Finset

/-!
# The sparse functions over the reals, in terms of the dense matrix they denote
-/

namespace Scs

open Finset

/-- The dense matrix denoted by a sparse one: element `(r, c)`. -/
noncomputable def SMat.val (st en : Nat) (m : SMat ℝ) (r c : Nat) : ℝ :=
  ∑ k ∈ range en,
    if m.blk en r k ≠ 255 ∧ c / st = m.blk en r k then m.ent r (k * st + c % st) else 0

theorem sumTo_eq (n : Nat) (f : Nat → ℝ) : sumTo n f = ∑ i ∈ range n, f i := by
  induction n with
  | zero => rfl
  | succ n ih => rw [sumTo, ih, sum_range_succ]

/-- Accumulation in a loop whose body adds a known amount. -/
theorem forN_acc {n : Nat} {f : Nat → ℝ → Exec ℝ} {g : Nat → ℝ}
    (h : ∀ i, i < n → ∀ v, f i v = .ok (v + g i)) (v0 : ℝ) :
    forN n f v0 = .ok (v0 + ∑ i ∈ range n, g i) := by
  induction n with
  | zero => simp [forN]
  | succ n ih =>
    rw [forN_succ, ih (fun i hi => h i (by omega)), ok_bind, h n (by omega), sum_range_succ,
      add_assoc]

/-- A block contributes the columns `b * st .. b * st + st - 1`. -/
theorem block_sum {st W b : Nat} (hst : 0 < st) (hb : b * st + st ≤ W) (x : Nat → ℝ) (f : Nat → ℝ) :
    ∑ c ∈ range W, (if c / st = b then x (c % st) else 0) * f c =
      ∑ l ∈ range st, x l * f (b * st + l) := by
  have hsub : Ico (b * st) (b * st + st) ⊆ range W := by
    intro c hc
    rw [mem_Ico] at hc
    rw [mem_range]; omega
  rw [← sum_subset hsub]
  · rw [sum_Ico_eq_sum_range]
    have : b * st + st - b * st = st := by omega
    rw [this]
    refine sum_congr rfl ?_
    intro l hl
    obtain ⟨d1, d2⟩ := divmod_of (b := b) (mem_range.mp hl)
    rw [d1, d2, if_pos rfl]
  · intro c _ hc
    rw [if_neg, zero_mul]
    intro h
    have h1 := eq_of_divmod h
    have h2 := Nat.mod_lt c hst
    apply hc
    rw [mem_Ico]; omega

/-- Multiplying a denoted row by a vector. -/
theorem SMat.val_sum {st en : Nat} {m : SMat ℝ} (hin : m.InRange st en) {r : Nat}
    (hr : r < m.height) (hst : 0 < st) (f : Nat → ℝ) :
    ∑ c ∈ range m.width, m.val st en r c * f c =
      ∑ k ∈ range en, if m.blk en r k = 255 then 0 else
        ∑ l ∈ range st, m.ent r (k * st + l) * f (m.blk en r k * st + l) := by
  simp only [SMat.val, sum_mul]
  rw [sum_comm]
  refine sum_congr rfl ?_
  intro k hk
  by_cases hb : m.blk en r k = 255
  · simp [hb]
  · rw [if_neg hb, ← block_sum hst ((hin r k hr (mem_range.mp hk)).resolve_left hb).2
      (fun l => m.ent r (k * st + l)) f]
    refine sum_congr rfl ?_
    intro c _
    simp [hb]

theorem SMat.expTo_eq_val {st en : Nat} {m : SMat ℝ} (hd : m.Distinct en) {r : Nat}
    (hr : r < m.height) (c : Nat) : m.expTo st en r c en = m.val st en r c := by
  have key : ∀ j, j ≤ en → m.expTo st en r c j = ∑ k ∈ range j,
      if m.blk en r k ≠ 255 ∧ c / st = m.blk en r k then m.ent r (k * st + c % st) else 0 := by
    intro j hj
    induction j with
    | zero => rfl
    | succ j ih =>
      rw [sum_range_succ, SMat.expTo]
      by_cases h : m.blk en r j ≠ 255 ∧ c / st = m.blk en r j
      · rw [if_pos h, if_pos h, sum_eq_zero, zero_add]
        intro k hk
        have hk' := mem_range.mp hk
        rw [if_neg]
        rintro ⟨h1, h2⟩
        have := hd r k j hr (by omega) (by omega) h1 (h2.symm.trans h.2)
        omega
      · rw [if_neg h, if_neg h, add_zero, ih (by omega)]
  exact key en (Nat.le_refl _)

/-- `expand` yields the denoted matrix. -/
theorem Store.expand_val (st en : Nat) (hst : 0 < st) (s : Store ℝ) (a : SId) (t : MId)
    (wfa : (s.smat a).WF st en) (hin : (s.smat a).InRange st en)
    (hd : (s.smat a).Distinct en) (wft : (s.mat t).WF) :
    ∃ s', s.expand st en a t = .ok s' ∧
      Wrote t s s' (s.smat a).width (s.smat a).height ((s.smat a).val st en) := by
  obtain ⟨s', e, h⟩ := Store.expand_spec st en hst s a t wfa hin wft
  exact ⟨s', e, h.only, h.wf, h.width, h.height, h.plain, fun r c hr hc => by
    rw [h.ent r c hr hc, SMat.expTo_eq_val hd hr]⟩

/-- `expandTransposed` yields the transpose of the denoted matrix. -/
theorem Store.expandTransposed_val (st en : Nat) (hst : 0 < st) (s : Store ℝ) (a : SId) (t : MId)
    (wfa : (s.smat a).WF st en) (hin : (s.smat a).InRange st en)
    (hd : (s.smat a).Distinct en) (wft : (s.mat t).WF) :
    ∃ s', s.expandTransposed st en a t = .ok s' ∧
      Wrote t s s' (s.smat a).height (s.smat a).width (fun r c => (s.smat a).val st en c r) := by
  obtain ⟨s', e, h⟩ := Store.expandTransposed_spec st en hst s a t wfa hin wft
  exact ⟨s', e, h.only, h.wf, h.width, h.height, h.plain, fun r c hr hc => by
    rw [h.ent r c hr hc, SMat.expTo_eq_val hd hc]⟩

/-- Filling a dense target (already `init0`-ed) element by element with `set`. -/
theorem fill_set {α : Type} [Zero α] {s1 : Store α} {t : MId} (wf : (s1.mat t).WF) {h w : Nat}
    (hh : (s1.mat t).height = h) (hw : (s1.mat t).width = w)
    {f : Nat → Nat → Store α → Exec α} {g : Nat → Nat → α}
    (hf : ∀ i, i < h → ∀ j, j < w → ∀ s, FillInv s1 t g i j s → f i j s = .ok (g i j)) :
    ∃ s', forN h (fun i s => forN w (fun j s => do
        let v ← f i j s
        s.set t j i v) s) s1 = .ok s' ∧ Only t s1 s' ∧
      (s1.mat t).SameShape (s'.mat t) ∧ ∀ r c, r < h → c < w → (s'.mat t).ent r c = g r c := by
  obtain ⟨s', e, a, _, b, c⟩ := Store.fill_spec' wf hh.symm hw.symm
    (body := fun i j s => f i j s >>= fun v => s.set t j i v) (g := g) (by
      intro i hi j hj s hs
      have hdt := hs.dims t
      simp only [hf i hi j hj s hs, ok_bind]
      rw [Store.set, chk_true _ (by rw [hdt.1, hw]; exact hj), ok_bind,
        chk_true _ (by rw [hdt.2, hh]; exact hi), ok_bind])
  exact ⟨s', e, a, b, c⟩

/-- Inner product of two rows. -/
theorem SMat.rowDot_eq {st en : Nat} {a b : SMat ℝ} (hst : 0 < st) (wfa : a.WF st en)
    (wfb : b.WF st en) (hin : a.InRange st en) {i j : Nat} (hi : i < a.height) (hj : j < b.height) :
    SMat.rowDot st en a b i j =
      .ok (∑ c ∈ range a.width, a.val st en i c * b.val st en j c) := by
  rw [SMat.val_sum hin hi hst]
  have h0 : ∀ x : ℝ, (Except.ok x : Exec ℝ) = .ok (0 + x) := by intro x; rw [zero_add]
  rw [h0]
  unfold SMat.rowDot
  refine forN_acc ?_ 0
  intro k hk v
  rw [wfa.block_eq hi hk, ok_bind]
  by_cases hb : a.blk en i k = 255
  · simp [hb]
  · rw [if_neg hb, if_neg hb]
    have hval : ∀ l, l < st → b.val st en j (a.blk en i k * st + l) =
        ∑ q ∈ range en, if a.blk en i k = b.blk en j q then b.ent j (q * st + l) else 0 := by
      intro l hl
      obtain ⟨d1, d2⟩ := divmod_of (b := a.blk en i k) hl
      rw [SMat.val]
      refine sum_congr rfl ?_
      intro q _
      rw [d1, d2]
      by_cases h : a.blk en i k = b.blk en j q
      · rw [if_pos h, if_pos ⟨by rw [← h]; exact hb, h⟩]
      · rw [if_neg h, if_neg (fun h' => h h'.2)]
    have e1 : ∑ l ∈ range st, a.ent i (k * st + l) * b.val st en j (a.blk en i k * st + l) =
        ∑ q ∈ range en, if a.blk en i k = b.blk en j q then
          ∑ l ∈ range st, a.ent i (k * st + l) * b.ent j (q * st + l) else 0 := by
      rw [sum_congr rfl (fun l hl => by rw [hval l (mem_range.mp hl), mul_sum]), sum_comm]
      refine sum_congr rfl ?_
      intro q _
      by_cases h : a.blk en i k = b.blk en j q
      · simp only [if_pos h]
      · simp only [if_neg h, mul_zero, sum_const_zero]
    rw [e1]
    refine forN_acc ?_ v
    intro q hq v
    rw [wfb.block_eq hj hq, ok_bind]
    by_cases h : a.blk en i k = b.blk en j q
    · rw [if_pos h, if_pos h]
      refine forN_acc ?_ v
      intro l hl v
      rw [wfa.load_eq hi (packed_lt hk hl), ok_bind, wfb.load_eq hj (packed_lt hq hl), ok_bind]
      rfl
    · rw [if_neg h, if_neg h, add_zero]

/-- `multiplyTranspose` is `A * Bᵀ`. -/
theorem Store.multiplyTranspose_spec (st en : Nat) (hst : 0 < st) (s : Store ℝ) (a b : SId)
    (t : MId) (wfa : (s.smat a).WF st en) (wfb : (s.smat b).WF st en)
    (hin : (s.smat a).InRange st en) (wft : (s.mat t).WF)
    (hw : (s.smat a).width = (s.smat b).width) :
    ∃ s', s.multiplyTranspose st en a b t = .ok s' ∧
      Wrote t s s' (s.smat b).height (s.smat a).height (fun i j =>
        ∑ c ∈ range (s.smat a).width, (s.smat a).val st en i c * (s.smat b).val st en j c) := by
  obtain ⟨s1, e1, h1⟩ := Store.init0_spec s t (s.smat b).height (s.smat a).height wft
  have hsa : s1.smat a = s.smat a := by rw [h1.only.smat]
  have hsb : s1.smat b = s.smat b := by rw [h1.only.smat]
  obtain ⟨s2, e2, h2, h3, h4⟩ := fill_set h1.wf h1.height h1.width
    (f := fun i j _ => SMat.rowDot st en (s.smat a) (s.smat b) i j)
    (g := fun i j =>
        ∑ c ∈ range (s.smat a).width, (s.smat a).val st en i c * (s.smat b).val st en j c)
    (fun i hi j hj _ _ => SMat.rowDot_eq hst wfa wfb hin hi hj)
  refine ⟨s2, ?_, wrote_of_fill h1.only h1.wf h1.width h1.height h1.plain h2 h3 h4⟩
  rw [Store.multiplyTranspose, chk_true _ hw, ok_bind, e1, ok_bind]
  simp only [hsa, hsb]
  exact e2

/-- `multiply` is `A * B`. -/
theorem Store.smultiply_spec (st en : Nat) (hst : 0 < st) (s : Store ℝ) (a : SId) (b t : MId)
    (hbt : b ≠ t) (wfa : (s.smat a).WF st en) (wfb : (s.mat b).WF)
    (hin : (s.smat a).InRange st en) (wft : (s.mat t).WF)
    (hw : (s.smat a).width = (s.mat b).height) :
    ∃ s', s.smultiply st en a b t = .ok s' ∧
      Wrote t s s' (s.mat b).width (s.smat a).height (fun i j =>
        ∑ c ∈ range (s.smat a).width, (s.smat a).val st en i c * (s.mat b).ent c j) := by
  obtain ⟨s1, e1, h1⟩ := Store.init0_spec s t (s.mat b).width (s.smat a).height wft
  have hsa : s1.smat a = s.smat a := by rw [h1.only.smat]
  have hsb : s1.mat b = s.mat b := h1.only.mat b hbt
  generalize hm : s.smat a = m at *
  obtain ⟨s2, e2, h2, h3, h4⟩ := fill_set h1.wf h1.height h1.width
    (f := fun i j s => forN en (fun k v => do
      let block ← m.block (i * en + k)
      if block = 255 then .ok v
      else forN st (fun l v => do
        let x ← m.load i (k * st + l)
        let y ← s.get b j (block * st + l)
        pure (v + x * y)) v) 0)
    (g := fun i j => ∑ c ∈ range m.width, m.val st en i c * (s.mat b).ent c j)
    (by
      intro i hi j hj s' hs'
      rw [SMat.val_sum hin hi hst]
      have h0 : ∀ x : ℝ, (Except.ok x : Exec ℝ) = .ok (0 + x) := by intro x; rw [zero_add]
      rw [h0]
      refine forN_acc ?_ 0
      intro k hk v
      rw [wfa.block_eq hi hk, ok_bind]
      by_cases hb : m.blk en i k = 255
      · simp [hb]
      · rw [if_neg hb, if_neg hb]
        refine forN_acc ?_ v
        intro l hl v
        have hr := (hin i k hi hk).resolve_left hb
        rw [wfa.load_eq hi (packed_lt hk hl), ok_bind, hs'.get (x := b) (by rw [hsb]; exact wfb)
          (by rw [hsb, ← hw]; omega) (by rw [hsb]; exact hj) (fun h => absurd h hbt), ok_bind, hsb]
        rfl)
  refine ⟨s2, ?_, wrote_of_fill h1.only h1.wf h1.width h1.height h1.plain h2 h3 h4⟩
  rw [Store.smultiply, hm]
  simp only
  rw [chk_true _ hw, ok_bind, e1, ok_bind]
  simp only [hsa]
  exact e2

/-- `transposeMultiplyVector` is `Aᵀ * b`. -/
theorem Store.transposeMultiplyVector_spec (st en : Nat) (hst : 0 < st) (s : Store ℝ) (a : SId)
    (b t : MId) (hbt : b ≠ t) (wfa : (s.smat a).WF st en) (wfb : (s.mat b).WF)
    (hin : (s.smat a).InRange st en) (wft : (s.mat t).WF)
    (hw : (s.mat b).width = 1) (hh : (s.smat a).height = (s.mat b).height) :
    ∃ s', s.transposeMultiplyVector st en a b t = .ok s' ∧
      Wrote t s s' 1 (s.smat a).width (fun c _ =>
        ∑ i ∈ range (s.smat a).height, (s.smat a).val st en i c * (s.mat b).ent i 0) := by
  obtain ⟨s1, e1, h1⟩ := Store.init0_spec s t 1 (s.smat a).width wft
  have hsa : s1.smat a = s.smat a := by rw [h1.only.smat]
  have hsb : s1.mat b = s.mat b := h1.only.mat b hbt
  rw [Store.transposeMultiplyVector, chk_true _ hw, ok_bind, chk_true _ hh, ok_bind, e1, ok_bind]
  simp only [hsa]
  generalize hm : s.smat a = m at *
  let term : Nat → Nat → Nat → ℝ := fun i c k =>
    (if m.blk en i k ≠ 255 ∧ c / st = m.blk en i k then m.ent i (k * st + c % st) else 0) *
      (s.mat b).ent i 0
  have key : Wp (forN m.height (fun i s => forN en (fun k s => do
      let block ← m.block (i * en + k)
      if block = 255 then .ok s
      else forN st (fun l s => do
        let x ← m.load i (k * st + l)
        let y ← s.get b 0 i
        s.addAt t 0 (block * st + l) (x * y)) s) s) s1)
      (Holds t s1 (fun c _ => ∑ i ∈ range m.height, ∑ k ∈ range en, term i c k)) noErr := by
    refine wp_forN (I := fun i' => Holds t s1 (fun c _ =>
      ∑ i ∈ range i', ∑ k ∈ range en, term i c k)) ?_ ?_
    · exact ⟨Only.refl _ _, Mat.SameShape.refl _, fun r c hr hc => by
        simpa using h1.ent r c (by rw [← h1.height]; exact hr) (by rw [← h1.width]; exact hc)⟩
    · intro i hi s' hs'
      simp only [sum_range_succ]
      refine wp_forN (I := fun k' => Holds t s1 (fun c _ =>
        ∑ i ∈ range i, ∑ k ∈ range en, term i c k + ∑ k ∈ range k', term i c k)) ?_ ?_
      · exact hs'.congr (by intro r c _ _; simp)
      · intro k hk s' hs'
        simp only [sum_range_succ, ← add_assoc]
        rw [wfa.block_eq hi hk, ok_bind, wp_ite]
        constructor
        · intro hb
          rw [wp_ok]
          exact hs'.congr (by intro r c _ _; simp [term, hb])
        · intro hb
          have hr := (hin i k hi hk).resolve_left hb
          refine wp_forN' (I := fun l' => Holds t s1 (fun c _ =>
            ∑ i ∈ range i, ∑ k ∈ range en, term i c k + ∑ k ∈ range k, term i c k +
              if c % st < l' then term i c k else 0)) ?_ ?_ ?_
          · exact hs'.congr (by intro r c _ _; simp)
          · intro l hl s' hs'
            have hgb : s'.get b 0 i = .ok ((s.mat b).ent i 0) := by
              have e : s'.mat b = s.mat b := (hs'.only.mat b hbt).trans hsb
              rw [Store.get_ok s' b (by rw [e]; exact wfb) (by rw [e]; omega)
                (by rw [e, ← hh]; exact hi), e]
            rw [wfa.load_eq hi (packed_lt hk hl), ok_bind, hgb, ok_bind]
            refine hs'.addAt h1.wf (by rw [h1.width]; omega) (by rw [h1.height]; omega) ?_
            intro c z hc hz
            have hz0 : z = 0 := by rw [h1.width] at hz; omega
            obtain ⟨d1, d2⟩ := divmod_of (b := m.blk en i k) hl
            by_cases hA : c = m.blk en i k * st + l ∧ z = 0
            · rw [if_pos hA, hA.1]
              simp [term, d1, d2, hb]
            · rw [if_neg hA]
              have hcne : c ≠ m.blk en i k * st + l := fun h => hA ⟨h, hz0⟩
              congr 1
              by_cases h2 : c % st < l
              · rw [if_pos h2, if_pos (by omega)]
              · rw [if_neg h2]
                by_cases h3 : c % st < l + 1
                · rw [if_pos h3]
                  have h4 : c / st ≠ m.blk en i k := by
                    intro h
                    have := eq_of_divmod h
                    omega
                  simp [term, h4]
                · rw [if_neg h3]
          · intro s' hs'
            refine hs'.congr ?_
            intro c z _ _
            rw [if_pos (Nat.mod_lt c hst)]
  obtain ⟨s2, e2, h2⟩ := wp_noErr_iff.mp key
  refine ⟨s2, e2, wrote_of_fill h1.only h1.wf h1.width h1.height h1.plain h2.only h2.shape ?_⟩
  intro c z hc hz
  rw [h2.ent c z (by rw [h1.height]; exact hc) (by rw [h1.width]; exact hz)]
  refine sum_congr rfl ?_
  intro i _
  simp only [term, SMat.val, sum_mul]

end Scs
