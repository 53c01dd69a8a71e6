import Verif.MatrixLemmas

/-!
# Specification lemmas for the `Matrix` functions
-/

namespace Scs

section
variable {α : Type}

/-- `s'` is `s` with the dense matrix `t` replaced by a well-formed `w` x `h` matrix whose element
in row `r`, column `c` is `g r c`. -/
structure Wrote [Zero α] (t : MId) (s s' : Store α) (w h : Nat) (g : Nat → Nat → α) : Prop where
  only : Only t s s'
  wf : (s'.mat t).WF
  width : (s'.mat t).width = w
  height : (s'.mat t).height = h
  plain : (s.mat t).Plain → (s'.mat t).Plain
  ent : ∀ r c, r < h → c < w → (s'.mat t).ent r c = g r c

theorem FillInv.load [Zero α] {s0 s : Store α} {t : MId} {g : Nat → Nat → α} {i j : Nat}
    (h : FillInv s0 t g i j s) {x : MId} (wf : (s0.mat x).WF) {r c : Nat}
    (hr : r < (s0.mat x).height) (hc : c < (s0.mat x).width)
    (hx : x = t → ¬ (r < i ∨ (r = i ∧ c < j))) :
    s.load x r c = .ok ((s0.mat x).ent r c) := by
  unfold Store.load
  by_cases hxt : x = t
  · subst hxt
    rw [(h.shape.wf wf).load_eq (by rw [h.shape.height]; exact hr) (by rw [h.shape.width]; exact hc),
      h.ent r c hr hc, if_neg (hx rfl)]
  · rw [h.only.mat x hxt, wf.load_eq hr hc]

/-- Matrices that already have the new size survive a `resize` of `t`, even when they are `t`. -/
theorem Store.resize_spec2 (s : Store α) (t : MId) (w h : Nat) (wf : (s.mat t).WF) :
    ∃ s', s.resize t w h = .ok s' ∧ Only t s s' ∧ (s'.mat t).WF ∧ (s'.mat t).width = w ∧
      (s'.mat t).height = h ∧ ((s.mat t).Plain → (s'.mat t).Plain) ∧
      (∀ x, (s.mat x).width = w → (s.mat x).height = h → s'.mat x = s.mat x) := by
  obtain ⟨s', h1, h2, h3, h4, h5, h6, h7, _⟩ := Store.resize_spec s t w h wf
  refine ⟨s', h1, h2, h3, h4, h5, h6, ?_⟩
  intro x hw hh
  by_cases hx : x = t
  · subst hx; rw [h7 ⟨hw.symm, hh.symm⟩]
  · exact h2.mat x hx

/-- Combination of `resize` and a fill loop. -/
theorem wrote_of_fill [Zero α] {s s1 s2 : Store α} {t : MId} {w h : Nat} {g : Nat → Nat → α}
    (h1 : Only t s s1) (wf : (s1.mat t).WF) (hw : (s1.mat t).width = w)
    (hh : (s1.mat t).height = h) (hp : (s.mat t).Plain → (s1.mat t).Plain)
    (h2 : Only t s1 s2) (hs : (s1.mat t).SameShape (s2.mat t))
    (he : ∀ r c, r < h → c < w → (s2.mat t).ent r c = g r c) : Wrote t s s2 w h g :=
  ⟨h1.trans h2, hs.wf wf, hs.width.trans hw, hs.height.trans hh, fun p => hs.plain (hp p), he⟩

theorem Store.init_spec [Zero α] (s : Store α) (t : MId) (w h : Nat) (v : α)
    (wf : (s.mat t).WF) : ∃ s', s.init t w h v = .ok s' ∧ Wrote t s s' w h (fun _ _ => v) := by
  obtain ⟨s1, e1, h1, wf1, hw, hh, hp, _⟩ := Store.resize_spec2 s t w h wf
  obtain ⟨s2, e2, h2, _, hs, he⟩ := Store.fill_spec wf1 hh.symm hw.symm
    (f := fun _ _ _ => .ok v) (g := fun _ _ => v) (fun _ _ _ _ _ _ => rfl)
  exact ⟨s2, by rw [Store.init, e1, ok_bind, e2], wrote_of_fill h1 wf1 hw hh hp h2 hs he⟩

/-- Elementwise functions of one operand (possibly the target itself). -/
theorem Store.map1_spec [Zero α] (s : Store α) (a t : MId) (op : α → α)
    (wfa : (s.mat a).WF) (wft : (s.mat t).WF) :
    ∃ s', (do
      let s ← s.resize t (s.mat a).width (s.mat a).height
      s.fill t (s.mat a).height (s.mat a).width (fun s i j => do
        let x ← s.load a i j
        pure (op x)) : Exec (Store α)) = .ok s' ∧
      Wrote t s s' (s.mat a).width (s.mat a).height (fun i j => op ((s.mat a).ent i j)) := by
  obtain ⟨s1, e1, h1, wf1, hw, hh, hp, hk⟩ :=
    Store.resize_spec2 s t (s.mat a).width (s.mat a).height wft
  have ha := hk a rfl rfl
  obtain ⟨s2, e2, h2, _, hs, he⟩ := Store.fill_spec (h := (s1.mat a).height)
    (w := (s1.mat a).width) wf1 (by rw [ha]; exact hh.symm)
    (by rw [ha]; exact hw.symm)
    (f := fun s i j => do let x ← s.load a i j; pure (op x))
    (g := fun i j => op ((s.mat a).ent i j)) (by
      intro i hi j hj s' hs'
      rw [hs'.load (x := a) (r := i) (c := j) (by rw [ha]; exact wfa) hi hj (by intros; omega),
        ok_bind, ha]; rfl)
  refine ⟨s2, by rw [e1, ok_bind, e2], wrote_of_fill h1 wf1 hw hh hp h2 hs ?_⟩
  rw [ha] at he; exact he

/-- Elementwise functions of two operands (either may be the target). -/
theorem Store.map2_spec [Zero α] (s : Store α) (a b t : MId) (op : α → α → α)
    (wfa : (s.mat a).WF) (wfb : (s.mat b).WF) (wft : (s.mat t).WF)
    (hw0 : (s.mat b).width = (s.mat a).width) (hh0 : (s.mat b).height = (s.mat a).height) :
    ∃ s', (do
      let s ← s.resize t (s.mat a).width (s.mat a).height
      s.fill t (s.mat a).height (s.mat a).width (fun s i j => do
        let x ← s.load a i j
        let y ← s.load b i j
        pure (op x y)) : Exec (Store α)) = .ok s' ∧
      Wrote t s s' (s.mat a).width (s.mat a).height
        (fun i j => op ((s.mat a).ent i j) ((s.mat b).ent i j)) := by
  obtain ⟨s1, e1, h1, wf1, hw, hh, hp, hk⟩ :=
    Store.resize_spec2 s t (s.mat a).width (s.mat a).height wft
  have ha := hk a rfl rfl
  have hb := hk b hw0 hh0
  obtain ⟨s2, e2, h2, _, hs, he⟩ := Store.fill_spec (h := (s1.mat a).height)
    (w := (s1.mat a).width) wf1 (by rw [ha]; exact hh.symm)
    (by rw [ha]; exact hw.symm)
    (f := fun s i j => do let x ← s.load a i j; let y ← s.load b i j; pure (op x y))
    (g := fun i j => op ((s.mat a).ent i j) ((s.mat b).ent i j)) (by
      intro i hi j hj s' hs'
      rw [hs'.load (x := a) (r := i) (c := j) (by rw [ha]; exact wfa) hi hj (by intros; omega),
        ok_bind, hs'.load (x := b) (r := i) (c := j) (by rw [hb]; exact wfb)
          (by rw [hb, hh0, ← ha]; exact hi) (by rw [hb, hw0, ← ha]; exact hj) (by intros; omega),
        ok_bind, ha, hb]; rfl)
  refine ⟨s2, by rw [e1, ok_bind, e2], wrote_of_fill h1 wf1 hw hh hp h2 hs ?_⟩
  rw [ha] at he; exact he

theorem Store.setMatFrom_spec [Zero α] (s : Store α) (t a : MId) (wfa : (s.mat a).WF)
    (wft : (s.mat t).WF) : ∃ s', s.setMatFrom t a = .ok s' ∧
      Wrote t s s' (s.mat a).width (s.mat a).height (s.mat a).ent := by
  obtain ⟨s', e, h⟩ := Store.map1_spec s a t id wfa wft
  refine ⟨s', ?_, h⟩
  rw [← e, Store.setMatFrom]
  congr 1
  funext s
  congr 1
  funext s i j
  show s.load a i j = s.load a i j >>= pure
  cases s.load a i j <;> rfl

theorem Store.scale_spec [Zero α] [Mul α] (s : Store α) (a : MId) (c : α) (t : MId)
    (wfa : (s.mat a).WF) (wft : (s.mat t).WF) : ∃ s', s.scale a c t = .ok s' ∧
      Wrote t s s' (s.mat a).width (s.mat a).height (fun i j => c * (s.mat a).ent i j) :=
  Store.map1_spec s a t (fun x => c * x) wfa wft

theorem Store.negate_spec [Zero α] [Neg α] (s : Store α) (a t : MId)
    (wfa : (s.mat a).WF) (wft : (s.mat t).WF) : ∃ s', s.negate a t = .ok s' ∧
      Wrote t s s' (s.mat a).width (s.mat a).height (fun i j => -(s.mat a).ent i j) :=
  Store.map1_spec s a t (fun x => -x) wfa wft

theorem Store.addM_spec [Zero α] [Add α] (s : Store α) (a b t : MId)
    (wfa : (s.mat a).WF) (wfb : (s.mat b).WF) (wft : (s.mat t).WF)
    (hw0 : (s.mat b).width = (s.mat a).width) (hh0 : (s.mat b).height = (s.mat a).height) :
    ∃ s', s.addM a b t = .ok s' ∧
      Wrote t s s' (s.mat a).width (s.mat a).height
        (fun i j => (s.mat a).ent i j + (s.mat b).ent i j) := by
  obtain ⟨s', e, h⟩ := Store.map2_spec s a b t (fun x y => x + y) wfa wfb wft hw0 hh0
  exact ⟨s', by rw [Store.addM, chk_true _ hw0, ok_bind, chk_true _ hh0, ok_bind, ← e], h⟩

theorem Store.subtract_spec [Zero α] [Sub α] (s : Store α) (a b t : MId)
    (wfa : (s.mat a).WF) (wfb : (s.mat b).WF) (wft : (s.mat t).WF)
    (hw0 : (s.mat b).width = (s.mat a).width) (hh0 : (s.mat b).height = (s.mat a).height) :
    ∃ s', s.subtract a b t = .ok s' ∧
      Wrote t s s' (s.mat a).width (s.mat a).height
        (fun i j => (s.mat a).ent i j - (s.mat b).ent i j) := by
  obtain ⟨s', e, h⟩ := Store.map2_spec s a b t (fun x y => x - y) wfa wfb wft hw0 hh0
  exact ⟨s', by rw [Store.subtract, chk_true _ hw0, ok_bind, chk_true _ hh0, ok_bind, ← e], h⟩

theorem FillInv.get [Zero α] {s0 s : Store α} {t : MId} {g : Nat → Nat → α} {i j : Nat}
    (h : FillInv s0 t g i j s) {x : MId} (wf : (s0.mat x).WF) {r c : Nat}
    (hr : r < (s0.mat x).height) (hc : c < (s0.mat x).width)
    (hx : x = t → ¬ (r < i ∨ (r = i ∧ c < j))) :
    s.get x c r = .ok ((s0.mat x).ent r c) := by
  have hwh : (s.mat x).width = (s0.mat x).width ∧ (s.mat x).height = (s0.mat x).height := by
    by_cases hxt : x = t
    · subst hxt; exact ⟨h.shape.width, h.shape.height⟩
    · rw [h.only.mat x hxt]; exact ⟨rfl, rfl⟩
  rw [Store.get, chk_true _ (by rw [hwh.1]; exact hc), ok_bind, chk_true _ (by rw [hwh.2]; exact hr),
    ok_bind, h.load wf hr hc hx]

theorem FillInv.dims [Zero α] {s0 s : Store α} {t : MId} {g : Nat → Nat → α} {i j : Nat}
    (h : FillInv s0 t g i j s) (x : MId) :
    (s.mat x).width = (s0.mat x).width ∧ (s.mat x).height = (s0.mat x).height := by
  by_cases hxt : x = t
  · subst hxt; exact ⟨h.shape.width, h.shape.height⟩
  · rw [h.only.mat x hxt]; exact ⟨rfl, rfl⟩

theorem Store.componentMultiply_spec [Zero α] [Mul α] (s : Store α) (a b t : MId)
    (wfa : (s.mat a).WF) (wfb : (s.mat b).WF) (wft : (s.mat t).WF)
    (hw0 : (s.mat b).width = (s.mat a).width) (hh0 : (s.mat b).height = (s.mat a).height) :
    ∃ s', s.componentMultiply a b t = .ok s' ∧
      Wrote t s s' (s.mat a).width (s.mat a).height
        (fun i j => (s.mat a).ent i j * (s.mat b).ent i j) := by
  obtain ⟨s1, e1, h1, wf1, hw, hh, hp, hk⟩ :=
    Store.resize_spec2 s t (s.mat a).width (s.mat a).height wft
  have ha := hk a rfl rfl
  have hb := hk b hw0 hh0
  let g := fun i j => (s.mat a).ent i j * (s.mat b).ent i j
  let body : Nat → Nat → Store α → Exec (Store α) := fun i j s => do
    let x ← s.get a j i
    let y ← s.get b j i
    s.set t j i (x * y)
  have hbody : ∀ i, i < (s1.mat a).height → ∀ j, j < (s1.mat a).width → ∀ s', FillInv s1 t g i j s' →
      body i j s' = s'.store t i j (g i j) := by
    intro i hi j hj s' hs'
    simp only [body]
    have hdt := hs'.dims t
    rw [hs'.get (x := a) (r := i) (c := j) (by rw [ha]; exact wfa) hi hj (by intros; omega),
        ok_bind, hs'.get (x := b) (r := i) (c := j) (by rw [hb]; exact wfb)
          (by rw [hb, hh0, ← ha]; exact hi) (by rw [hb, hw0, ← ha]; exact hj) (by intros; omega),
        ok_bind, ha, hb, Store.set, chk_true _ (by rw [hdt.1, hw, ← ha]; exact hj), ok_bind,
        chk_true _ (by rw [hdt.2, hh, ← ha]; exact hi), ok_bind]
  obtain ⟨s2, e2, h2, _, hs, he⟩ := Store.fill_spec' (h := (s1.mat a).height)
    (w := (s1.mat a).width) wf1 (by rw [ha]; exact hh.symm) (by rw [ha]; exact hw.symm)
    (body := body) (g := g) hbody
  refine ⟨s2, ?_, wrote_of_fill h1 wf1 hw hh hp h2 hs (by rw [ha] at he; exact he)⟩
  rw [Store.componentMultiply, chk_true _ hh0.symm, ok_bind, chk_true _ hw0.symm, ok_bind, e1,
    ok_bind, ← e2]

/-- Reading an operand that is not the target of the fill loop. -/
theorem FillInv.load_other [Zero α] {s0 s : Store α} {t : MId} {g : Nat → Nat → α} {i j : Nat}
    (h : FillInv s0 t g i j s) {x : MId} (hx : x ≠ t) {r c : Nat} :
    s.load x r c = s0.load x r c := by
  unfold Store.load; rw [h.only.mat x hx]

theorem Store.multiply_spec [Zero α] [Add α] [Mul α] (s : Store α) (a b t : MId)
    (hta : a ≠ t) (htb : b ≠ t)
    (wfa : (s.mat a).WF) (wfb : (s.mat b).WF) (wft : (s.mat t).WF)
    (hd : (s.mat a).width = (s.mat b).height) :
    ∃ s', s.multiply a b t = .ok s' ∧
      Wrote t s s' (s.mat b).width (s.mat a).height
        (fun i j => sumTo (s.mat a).width (fun k => (s.mat a).ent i k * (s.mat b).ent k j)) := by
  obtain ⟨s1, e1, h1, wf1, hw, hh, hp, _⟩ :=
    Store.resize_spec2 s t (s.mat b).width (s.mat a).height wft
  have ha := h1.mat a hta
  have hb := h1.mat b htb
  obtain ⟨s2, e2, h2, _, hs, he⟩ := Store.fill_spec (h := (s1.mat a).height)
    (w := (s1.mat b).width) wf1 (by rw [ha]; exact hh.symm) (by rw [hb]; exact hw.symm)
    (f := fun s i j => forN (s1.mat a).width (fun ii v => do
      let x ← (do
        let x ← s.load a i ii
        let y ← s.load b ii j
        pure (x * y))
      pure (v + x)) 0)
    (g := fun i j => sumTo (s.mat a).width (fun k => (s.mat a).ent i k * (s.mat b).ent k j)) (by
      intro i hi j hj s' hs'
      rw [ha]
      rw [ha] at hi
      rw [hb] at hj
      refine forN_sum ?_
      intro k hk
      rw [hs'.load_other hta, hs'.load_other htb, Store.load, Store.load, ha, hb,
        wfa.load_eq hi hk, ok_bind, wfb.load_eq (by omega) hj, ok_bind]
      rfl)
  refine ⟨s2, by rw [Store.multiply, chk_true _ hd, ok_bind, e1, ok_bind, e2],
    wrote_of_fill h1 wf1 hw hh hp h2 hs ?_⟩
  rw [ha, hb] at he; exact he

theorem Store.transposeMultiply_spec [Zero α] [Add α] [Mul α] (s : Store α) (a b t : MId)
    (hta : a ≠ t) (htb : b ≠ t)
    (wfa : (s.mat a).WF) (wfb : (s.mat b).WF) (wft : (s.mat t).WF)
    (hd : (s.mat a).height = (s.mat b).height) :
    ∃ s', s.transposeMultiply a b t = .ok s' ∧
      Wrote t s s' (s.mat b).width (s.mat a).width
        (fun i j => sumTo (s.mat a).height (fun k => (s.mat a).ent k i * (s.mat b).ent k j)) := by
  obtain ⟨s1, e1, h1, wf1, hw, hh, hp, _⟩ :=
    Store.resize_spec2 s t (s.mat b).width (s.mat a).width wft
  have ha := h1.mat a hta
  have hb := h1.mat b htb
  obtain ⟨s2, e2, h2, _, hs, he⟩ := Store.fill_spec (h := (s1.mat a).width)
    (w := (s1.mat b).width) wf1 (by rw [ha]; exact hh.symm) (by rw [hb]; exact hw.symm)
    (f := fun s i j => forN (s1.mat a).height (fun ii v => do
      let x ← (do
        let x ← s.load a ii i
        let y ← s.load b ii j
        pure (x * y))
      pure (v + x)) 0)
    (g := fun i j => sumTo (s.mat a).height (fun k => (s.mat a).ent k i * (s.mat b).ent k j)) (by
      intro i hi j hj s' hs'
      rw [ha]
      rw [ha] at hi
      rw [hb] at hj
      refine forN_sum ?_
      intro k hk
      rw [hs'.load_other hta, hs'.load_other htb, Store.load, Store.load, ha, hb,
        wfa.load_eq hk hi, ok_bind, wfb.load_eq (by omega) hj, ok_bind]
      rfl)
  refine ⟨s2, by rw [Store.transposeMultiply, chk_true _ hd, ok_bind, e1, ok_bind, e2],
    wrote_of_fill h1 wf1 hw hh hp h2 hs ?_⟩
  rw [ha, hb] at he; exact he

theorem Store.transpose_spec [Zero α] (s : Store α) (a t : MId) (hta : a ≠ t)
    (wfa : (s.mat a).WF) (wft : (s.mat t).WF) :
    ∃ s', s.transpose a t = .ok s' ∧
      Wrote t s s' (s.mat a).height (s.mat a).width (fun i j => (s.mat a).ent j i) := by
  obtain ⟨s1, e1, h1, wf1, hw, hh, hp, _⟩ :=
    Store.resize_spec2 s t (s.mat a).height (s.mat a).width wft
  have ha := h1.mat a hta
  obtain ⟨s2, e2, h2, _, hs, he⟩ := Store.fill_spec (h := (s1.mat a).width)
    (w := (s1.mat a).height) wf1 (by rw [ha]; exact hh.symm) (by rw [ha]; exact hw.symm)
    (f := fun s i j => s.load a j i)
    (g := fun i j => (s.mat a).ent j i) (by
      intro i hi j hj s' hs'
      rw [hs'.load_other hta, Store.load, ha, wfa.load_eq (by rw [← ha]; exact hj)
        (by rw [← ha]; exact hi)])
  refine ⟨s2, by rw [Store.transpose, e1, ok_bind, e2], wrote_of_fill h1 wf1 hw hh hp h2 hs ?_⟩
  rw [ha] at he; exact he

/-- `leftScale`; the target may be the matrix itself but not the scale vector. -/
theorem Store.leftScale_spec [Zero α] [Mul α] (s : Store α) (a sc t : MId) (hts : sc ≠ t)
    (wfa : (s.mat a).WF) (wfs : (s.mat sc).WF) (wft : (s.mat t).WF)
    (hw0 : (s.mat sc).width = 1) (hh0 : (s.mat sc).height = (s.mat a).height) :
    ∃ s', s.leftScale a sc t = .ok s' ∧
      Wrote t s s' (s.mat a).width (s.mat a).height
        (fun i j => (s.mat sc).ent i 0 * (s.mat a).ent i j) := by
  obtain ⟨s1, e1, h1, wf1, hw, hh, hp, hk⟩ :=
    Store.resize_spec2 s t (s.mat a).width (s.mat a).height wft
  have ha := hk a rfl rfl
  have hb := h1.mat sc hts
  obtain ⟨s2, e2, h2, _, hs, he⟩ := Store.fill_spec (h := (s1.mat a).height)
    (w := (s1.mat a).width) wf1 (by rw [ha]; exact hh.symm) (by rw [ha]; exact hw.symm)
    (f := fun s i j => do let x ← s.load sc i 0; let y ← s.load a i j; pure (x * y))
    (g := fun i j => (s.mat sc).ent i 0 * (s.mat a).ent i j) (by
      intro i hi j hj s' hs'
      rw [hs'.load_other hts, Store.load, hb, wfs.load_eq (by rw [hh0, ← ha]; exact hi) (by omega),
        ok_bind, hs'.load (x := a) (r := i) (c := j) (by rw [ha]; exact wfa) hi hj
        (by intros; omega), ok_bind, ha]
      rfl)
  refine ⟨s2, by rw [Store.leftScale, chk_true _ hw0, ok_bind, chk_true _ hh0, ok_bind, e1,
    ok_bind, e2], wrote_of_fill h1 wf1 hw hh hp h2 hs ?_⟩
  rw [ha] at he; exact he

/-- `rightScale`; the target may be the matrix itself but not the scale vector. -/
theorem Store.rightScale_spec [Zero α] [Mul α] (s : Store α) (a sc t : MId) (hts : sc ≠ t)
    (wfa : (s.mat a).WF) (wfs : (s.mat sc).WF) (wft : (s.mat t).WF)
    (hw0 : (s.mat sc).width = 1) (hh0 : (s.mat sc).height = (s.mat a).width) :
    ∃ s', s.rightScale a sc t = .ok s' ∧
      Wrote t s s' (s.mat a).width (s.mat a).height
        (fun i j => (s.mat sc).ent j 0 * (s.mat a).ent i j) := by
  obtain ⟨s1, e1, h1, wf1, hw, hh, hp, hk⟩ :=
    Store.resize_spec2 s t (s.mat a).width (s.mat a).height wft
  have ha := hk a rfl rfl
  have hb := h1.mat sc hts
  obtain ⟨s2, e2, h2, _, hs, he⟩ := Store.fill_spec (h := (s1.mat a).height)
    (w := (s1.mat a).width) wf1 (by rw [ha]; exact hh.symm) (by rw [ha]; exact hw.symm)
    (f := fun s i j => do let x ← s.load sc j 0; let y ← s.load a i j; pure (x * y))
    (g := fun i j => (s.mat sc).ent j 0 * (s.mat a).ent i j) (by
      intro i hi j hj s' hs'
      rw [hs'.load_other hts, Store.load, hb, wfs.load_eq (by rw [hh0, ← ha]; exact hj) (by omega),
        ok_bind, hs'.load (x := a) (r := i) (c := j) (by rw [ha]; exact wfa) hi hj
        (by intros; omega), ok_bind, ha]
      rfl)
  refine ⟨s2, by rw [Store.rightScale, chk_true _ hw0, ok_bind, chk_true _ hh0, ok_bind, e1,
    ok_bind, e2], wrote_of_fill h1 wf1 hw hh hp h2 hs ?_⟩
  rw [ha] at he; exact he

/-- In-place fused operations. -/
theorem Store.upd2_spec [Zero α] (s : Store α) (a b : MId) (op : α → α → α)
    (wfa : (s.mat a).WF) (wfb : (s.mat b).WF)
    (hw0 : (s.mat a).width = (s.mat b).width) (hh0 : (s.mat a).height = (s.mat b).height) :
    ∃ s', s.fill a (s.mat a).height (s.mat a).width (fun s i j => do
        let x ← s.load a i j
        let y ← s.load b i j
        pure (op x y)) = .ok s' ∧
      Wrote a s s' (s.mat a).width (s.mat a).height
        (fun i j => op ((s.mat a).ent i j) ((s.mat b).ent i j)) := by
  obtain ⟨s2, e2, h2, _, hs, he⟩ := Store.fill_spec (h := (s.mat a).height)
    (w := (s.mat a).width) wfa rfl rfl
    (f := fun s i j => do let x ← s.load a i j; let y ← s.load b i j; pure (op x y))
    (g := fun i j => op ((s.mat a).ent i j) ((s.mat b).ent i j)) (by
      intro i hi j hj s' hs'
      rw [hs'.load (x := a) (r := i) (c := j) wfa hi hj (by intros; omega),
        ok_bind, hs'.load (x := b) (r := i) (c := j) wfb
          (by omega) (by omega) (by intros; omega),
        ok_bind]; rfl)
  exact ⟨s2, e2, wrote_of_fill (Only.refl _ _) wfa rfl rfl id h2 hs he⟩

theorem Store.madd_spec [Zero α] [Add α] [Mul α] (s : Store α) (a b : MId) (c : α)
    (wfa : (s.mat a).WF) (wfb : (s.mat b).WF)
    (hw0 : (s.mat a).width = (s.mat b).width) (hh0 : (s.mat a).height = (s.mat b).height) :
    ∃ s', s.madd a b c = .ok s' ∧ Wrote a s s' (s.mat a).width (s.mat a).height
        (fun i j => (s.mat a).ent i j + (s.mat b).ent i j * c) := by
  obtain ⟨s', e, h⟩ := Store.upd2_spec s a b (fun x y => x + y * c) wfa wfb hw0 hh0
  exact ⟨s', by rw [Store.madd, chk_true _ hw0, ok_bind, chk_true _ hh0, ok_bind, ← e], h⟩

theorem Store.pmadd_spec [Zero α] [Add α] [Mul α] (s : Store α) (a b : MId) (c : α)
    (wfa : (s.mat a).WF) (wfb : (s.mat b).WF)
    (hw0 : (s.mat a).width = (s.mat b).width) (hh0 : (s.mat a).height = (s.mat b).height) :
    ∃ s', s.pmadd a b c = .ok s' ∧ Wrote a s s' (s.mat a).width (s.mat a).height
        (fun i j => c * (s.mat a).ent i j + (s.mat b).ent i j) := by
  obtain ⟨s', e, h⟩ := Store.upd2_spec s a b (fun x y => c * x + y) wfa wfb hw0 hh0
  exact ⟨s', by rw [Store.pmadd, chk_true _ hw0, ok_bind, chk_true _ hh0, ok_bind, ← e], h⟩

/-! ## Element access through the checked interface -/

theorem Store.get_ok [Zero α] (s : Store α) (a : MId) (wf : (s.mat a).WF) {c r : Nat}
    (hc : c < (s.mat a).width) (hr : r < (s.mat a).height) :
    s.get a c r = .ok ((s.mat a).ent r c) := by
  rw [Store.get, chk_true _ hc, ok_bind, chk_true _ hr, ok_bind, Store.load, wf.load_eq hr hc]

theorem Store.set_spec [Zero α] (s : Store α) (t : MId) (wf : (s.mat t).WF) {c r : Nat}
    (hc : c < (s.mat t).width) (hr : r < (s.mat t).height) (v : α) :
    ∃ s', s.set t c r v = .ok s' ∧ Only t s s' ∧ s'.tick = s.tick ∧
      (s.mat t).SameShape (s'.mat t) ∧
      ∀ r' c', r' < (s.mat t).height → c' < (s.mat t).width →
        (s'.mat t).ent r' c' = if r' = r ∧ c' = c then v else (s.mat t).ent r' c' := by
  rw [Store.set, chk_true _ hc, ok_bind, chk_true _ hr, ok_bind]
  exact Store.store_spec s t wf hr hc v

theorem Store.addAt_spec [Zero α] [Add α] (s : Store α) (t : MId) (wf : (s.mat t).WF) {c r : Nat}
    (hc : c < (s.mat t).width) (hr : r < (s.mat t).height) (v : α) :
    ∃ s', s.addAt t c r v = .ok s' ∧ Only t s s' ∧ s'.tick = s.tick ∧
      (s.mat t).SameShape (s'.mat t) ∧
      ∀ r' c', r' < (s.mat t).height → c' < (s.mat t).width →
        (s'.mat t).ent r' c' =
          if r' = r ∧ c' = c then (s.mat t).ent r c + v else (s.mat t).ent r' c' := by
  rw [Store.addAt, chk_true _ hc, ok_bind, chk_true _ hr, ok_bind, Store.load, wf.load_eq hr hc,
    ok_bind]
  exact Store.store_spec s t wf hr hc _

/-! ## memset / memcpy -/

/-- Copying `n` values into the start of `m_data`. -/
theorem Mat.blit_spec {m : Mat α} {db : Buf α} (hd : m.data = some db) {n : Nat} (hn : n ≤ db.size)
    {f : Nat → Exec α} {g : Nat → α} (hf : ∀ i, i < n → f i = .ok (g i)) :
    ∃ db', forN n (fun i m => do
        let v ← f i
        let db ← deref m.data
        let db ← db.wr i v
        pure { m with data := some db }) m = .ok { m with data := some db' } ∧
      db'.size = db.size ∧ ∀ i, db'.val i = if i < n then g i else db.val i := by
  have key : Wp (forN n (fun i (m : Mat α) => do
        let v ← f i
        let db ← deref m.data
        let db ← db.wr i v
        pure { m with data := some db }) m) (fun m' => ∃ db', m' = { m with data := some db' } ∧
      db'.size = db.size ∧ ∀ i, db'.val i = if i < n then g i else db.val i) noErr := by
    refine wp_forN (I := fun k m' => ∃ db', m' = { m with data := some db' } ∧
      db'.size = db.size ∧ ∀ i, db'.val i = if i < k then g i else db.val i) ?_ ?_
    · exact ⟨db, by rw [← hd], rfl, by simp⟩
    · rintro k hk _ ⟨db', rfl, hs, hv⟩
      have : k < db'.size := by omega
      simp only [hf k hk, ok_bind, deref, Buf.wr, if_pos this, wp_pure]
      refine ⟨_, rfl, hs, ?_⟩
      intro i
      simp only [hv]
      by_cases h1 : i = k
      · subst h1; simp
      · by_cases h2 : i < k
        · rw [if_neg h1, if_pos h2, if_pos (by omega)]
        · rw [if_neg h1, if_neg h2, if_neg (by omega)]
  obtain ⟨m', he, db', rfl, h1, h2⟩ := wp_noErr_iff.mp key
  exact ⟨db', he, h1, h2⟩

theorem Mat.WF.ent_data [Zero α] {m : Mat α} {rb : Buf (Option Nat)} {db : Buf α}
    (hr : m.rows = some rb) (hd : m.data = some db) {r c q : Nat} (h1 : r < rb.size)
    (h2 : rb.val r = some q) (h3 : q + c < db.size) : m.ent r c = db.val (q + c) := by
  apply Mat.ent_of_load
  simp only [Mat.load, hr, deref, ok_bind, Buf.rd_ok rb h1, h2, initd, hd, Buf.rd_ok db h3]

theorem Store.init0_spec [Zero α] (s : Store α) (t : MId) (w h : Nat)
    (wf : (s.mat t).WF) : ∃ s', s.init0 t w h = .ok s' ∧ Wrote t s s' w h (fun _ _ => 0) := by
  obtain ⟨s1, e1, h1, wf1, hw, hh, hp, _⟩ := Store.resize_spec2 s t w h wf
  rcases wf1 with ⟨hr, hd, hw', hh', hcw, hch⟩ | ⟨rb, db, hr, hd, hrs, hds, hwc, hhc, σ, hσ, hinj⟩
  · have hz : w * h = 0 := by rw [← hw, hw']; simp
    refine ⟨s1.setMat t (s1.mat t), ?_, ?_⟩
    · rw [Store.init0, e1, ok_bind, hz]; rfl
    · refine ⟨h1.trans (Only.setMat _ _ _), ?_, by simpa using hw, by simpa using hh,
        by simpa using hp, ?_⟩
      · simp only [Store.setMat_same]
        exact Or.inl ⟨hr, hd, hw', hh', hcw, hch⟩
      · intro r c hr' hc'; omega
  · have hle : w * h ≤ db.size := by
      rw [hds, ← hw, ← hh]; exact Nat.mul_le_mul hwc hhc
    obtain ⟨db', e2, hs', hv⟩ := Mat.blit_spec hd (n := w * h) hle (f := fun _ => .ok (0 : α))
      (g := fun _ => 0) (fun _ _ => rfl)
    have hshape : (s1.mat t).SameShape { s1.mat t with data := some db' } :=
      ⟨rfl, rfl, rfl, rfl, rfl, by simp [hd, hs']⟩
    have wf1 : (s1.mat t).WF :=
      Or.inr ⟨rb, db, hr, hd, hrs, hds, hwc, hhc, σ, hσ, hinj⟩
    refine ⟨s1.setMat t { s1.mat t with data := some db' }, ?_, ?_⟩
    · rw [Store.init0, e1, ok_bind, Mat.zeroData]
      have e2' : forN (w * h) (fun i (m : Mat α) => do
        let db ← deref m.data
        let db ← db.wr i 0
        pure { m with data := some db }) (s1.mat t) = .ok { s1.mat t with data := some db' } := e2
      rw [e2']; rfl
    · refine ⟨h1.trans (Only.setMat _ _ _), ?_, by simpa using hw, by simpa using hh, ?_, ?_⟩
      · simpa using hshape.wf wf1
      · simpa using fun p => hshape.plain (hp p)
      · intro r c hrr hcc
        obtain ⟨k1, k2⟩ := hσ r (by omega)
        have hlt : σ r * (s1.mat t).width + c < w * h := by
          rw [hw]; exact idx_lt (by omega : σ r < h) hcc (Nat.le_refl _) (Nat.le_refl _)
        simp only [Store.setMat_same]
        rw [Mat.WF.ent_data (m := { s1.mat t with data := some db' }) hr rfl
          (by omega) k2 (by omega), hv, if_pos hlt]

/-- `set(const double *)` on a matrix with rows in order. -/
theorem Store.setData_spec [Zero α] (s : Store α) (t : MId) (src : Buf α) (wf : (s.mat t).WF)
    (hsrc : (s.mat t).width * (s.mat t).height ≤ src.size) :
    ∃ s', s.setData t src = .ok s' ∧ Only t s s' ∧ s'.tick = s.tick ∧
      (s.mat t).SameShape (s'.mat t) ∧
      ((s.mat t).Plain → ∀ r c, r < (s.mat t).height → c < (s.mat t).width →
          (s'.mat t).ent r c = src.val (r * (s.mat t).width + c)) := by
  rcases wf with ⟨hr, hd, hw', hh', hcw, hch⟩ | ⟨rb, db, hr, hd, hrs, hds, hwc, hhc, σ, hσ, hinj⟩
  · refine ⟨s.setMat t (s.mat t), ?_, Only.setMat _ _ _, rfl,
      by simpa using Mat.SameShape.refl _, ?_⟩
    · rw [Store.setData, hw']; simp only [Nat.zero_mul, forN]; rfl
    · intro _ r c hr; omega
  · have hle : (s.mat t).width * (s.mat t).height ≤ db.size := by
      rw [hds]; exact Nat.mul_le_mul hwc hhc
    obtain ⟨db', e2, hs', hv⟩ := Mat.blit_spec hd hle (f := fun i => src.rd i)
      (g := src.val) (fun i hi => Buf.rd_ok src (by omega))
    have hshape : (s.mat t).SameShape { s.mat t with data := some db' } :=
      ⟨rfl, rfl, rfl, rfl, rfl, by simp [hd, hs']⟩
    refine ⟨s.setMat t { s.mat t with data := some db' }, ?_, Only.setMat _ _ _, rfl,
      by simpa using hshape, ?_⟩
    · rw [Store.setData]; simp only; rw [e2]; rfl
    · intro hp r c hrr hcc
      have hlt : r * (s.mat t).width + c < (s.mat t).width * (s.mat t).height :=
        idx_lt hrr hcc (Nat.le_refl _) (Nat.le_refl _)
      simp only [Store.setMat_same]
      rw [Mat.WF.ent_data (m := { s.mat t with data := some db' }) hr rfl
        (by omega) (hp rb hr r hrr) (by omega), hv, if_pos hlt]

/-- `fastRowSwap` of two rows of the matrix exchanges exactly these rows. -/
theorem Store.rowSwap_spec [Zero α] (s : Store α) (t : MId) (wf : (s.mat t).WF) {a b : Nat}
    (ha : a < (s.mat t).height) (hb : b < (s.mat t).height) :
    ∃ s', s.rowSwap t a b = .ok s' ∧ Only t s s' ∧ s'.tick = s.tick ∧ (s'.mat t).WF ∧
      (s'.mat t).width = (s.mat t).width ∧ (s'.mat t).height = (s.mat t).height ∧
      ∀ r c, r < (s.mat t).height → c < (s.mat t).width →
        (s'.mat t).ent r c = (s.mat t).ent (if r = a then b else if r = b then a else r) c := by
  rcases wf with ⟨hr, hd, hw', hh', hcw, hch⟩ | ⟨rb, db, hr, hd, hrs, hds, hwc, hhc, σ, hσ, hinj⟩
  · omega
  · let rb' : Buf (Option Nat) := ⟨rb.size, fun j =>
        if j = b then rb.val a else (if j = a then rb.val b else rb.val j)⟩
    let sw : Nat → Nat := fun r => if r = a then b else if r = b then a else r
    have hsw : ∀ r, r < (s.mat t).height → sw r < (s.mat t).height := by
      intro r hr; simp only [sw]; split
      · exact hb
      · split <;> assumption
    have hval : ∀ r, rb'.val r = rb.val (sw r) := by
      intro r; simp only [rb', sw]
      by_cases h1 : r = a <;> by_cases h2 : r = b <;> simp_all
    have he : s.rowSwap t a b = .ok (s.setMat t { s.mat t with rows := some rb' }) := by
      simp only [Store.rowSwap, hr, deref, ok_bind, Buf.rd_ok rb (show a < rb.size by omega),
        Buf.rd_ok rb (show b < rb.size by omega), Buf.wr, if_pos (show a < rb.size by omega),
        if_pos (show b < rb.size by omega)]
      rfl
    refine ⟨_, he, Only.setMat _ _ _, rfl, ?_, by simp, by simp, ?_⟩
    · simp only [Store.setMat_same]
      refine Or.inr ⟨rb', db, rfl, hd, hrs, hds, hwc, hhc, fun r => σ (sw r), ?_, ?_⟩
      · intro r hr'
        have := hσ (sw r) (hsw r hr')
        exact ⟨this.1, by rw [hval]; exact this.2⟩
      · intro r r' h1 h2 h3
        have := hinj _ _ (hsw r h1) (hsw r' h2) h3
        simp only [sw] at this
        split at this <;> split at this <;> (try split at this) <;> (try split at this) <;> omega
    · intro r c hr1 hc1
      obtain ⟨k1, k2⟩ := hσ (sw r) (hsw r hr1)
      have hlt : σ (sw r) * (s.mat t).width + c < db.size := by
        rw [hds]; exact idx_lt k1 hc1 hwc hhc
      have hswr := hsw r hr1
      simp only [Store.setMat_same]
      rw [Mat.WF.ent_data (m := { s.mat t with rows := some rb' }) rfl hd
        (show r < rb.size by omega) (by rw [hval]; exact k2) hlt]
      exact (Mat.WF.ent_data hr hd (show sw r < rb.size by omega) k2 hlt).symm

/-- On a column vector with rows in order, `m_matrix[0][i]` is element `i`. -/
theorem Mat.Plain.col_load [Zero α] {m : Mat α} (p : m.Plain) (wf : m.WF) (hw : m.width = 1)
    {i : Nat} (hi : i < m.height) : m.load 0 i = .ok (m.ent i 0) := by
  rcases wf with ⟨_, _, h, _⟩ | ⟨rb, db, hr, hd, hrs, hds, hwc, hhc, σ, hσ, hinj⟩
  · omega
  · have hlt : i * m.width + 0 < db.size := by
      rw [hds]; exact idx_lt hi (by omega) hwc hhc
    have e1 := Mat.WF.ent_data hr hd (show i < rb.size by omega) (p rb hr i hi) hlt
    rw [e1]
    simp only [Mat.load, hr, deref, ok_bind, Buf.rd_ok rb (show 0 < rb.size by omega),
      p rb hr 0 (by omega), initd, hd]
    rw [hw] at hlt ⊢
    rw [Buf.rd_ok db (by omega)]
    congr 2

theorem Store.dot_spec [Zero α] [Add α] [Mul α] (s : Store α) (a b : MId)
    (wfa : (s.mat a).WF) (wfb : (s.mat b).WF) (pa : (s.mat a).Plain) (pb : (s.mat b).Plain)
    (hwa : (s.mat a).width = 1) (hwb : (s.mat b).width = 1)
    (hh : (s.mat b).height = (s.mat a).height) :
    s.dot a b = .ok (sumTo (s.mat a).height (fun i => (s.mat a).ent i 0 * (s.mat b).ent i 0)) := by
  rw [Store.dot, chk_true _ hwa, ok_bind, chk_true _ hwb, ok_bind, chk_true _ hh, ok_bind]
  refine forN_sum ?_
  intro i hi
  rw [Store.load, Store.load, pa.col_load wfa hwa hi, ok_bind, pb.col_load wfb hwb (by omega)]
  rfl

theorem Store.vms_spec [Zero α] [Add α] [Mul α] (s : Store α) (a : MId)
    (wfa : (s.mat a).WF) (pa : (s.mat a).Plain) (hwa : (s.mat a).width = 1) :
    s.vectorMagnitudeSquared a =
      .ok (sumTo (s.mat a).height (fun i => (s.mat a).ent i 0 * (s.mat a).ent i 0)) := by
  rw [Store.vectorMagnitudeSquared, chk_true _ hwa, ok_bind]
  refine forN_sum ?_
  intro i hi
  rw [Store.load, pa.col_load wfa hwa hi, ok_bind]
  rfl

theorem Store.destroy_spec (s : Store α) (t : MId) (wf : (s.mat t).WF) :
    ∃ s', s.destroy t = .ok s' ∧ Only t s s' ∧ s'.mat t = Mat.empty := by
  refine ⟨_, rfl, Only.setMat _ _ _, ?_⟩
  simp only [Store.setMat_same, Mat.destroy]
  rcases wf with ⟨hr, hd, h1, h2, h3, h4⟩ | ⟨rb, db, hr, _⟩
  · rw [hr]
    revert hr hd h1 h2 h3 h4
    generalize s.mat t = m
    obtain ⟨a, b, c, d, e, f⟩ := m
    intro hr hd h1 h2 h3 h4
    simp_all [Mat.empty]
  · rw [hr]; rfl

end

end Scs
