import Verif.GsSolve
import Mathlib.Tactic.FieldSimp

/-!
# Lemmas for Gaussian elimination

The elimination loop refines row operations on an augmented matrix (`m` rows, `m + 1` columns).
-/

namespace Scs

open Finset

/-! ## Pure part -/

/-- The vector `y` (with `m + 1` components) is orthogonal to all rows. -/
def Ker (m : Nat) (A : Nat → Nat → ℝ) (y : Nat → ℝ) : Prop :=
  ∀ i, i < m → ∑ j ∈ range (m + 1), A i j * y j = 0

/-- Rows `a` and `b` exchanged. -/
def swapRows (A : Nat → Nat → ℝ) (a b : Nat) (r c : Nat) : ℝ :=
  A (if r = a then b else if r = b then a else r) c

/-- Column `k` eliminated below row `h`. -/
noncomputable def elimCol (A : Nat → Nat → ℝ) (h k r c : Nat) : ℝ :=
  if r ≤ h then A r c else if c < k then A r c else if c = k then 0
  else A r c - A h c * (A r k / A h k)

theorem ker_swapRows {m : Nat} {A : Nat → Nat → ℝ} {a b : Nat} (ha : a < m) (hb : b < m)
    (y : Nat → ℝ) : Ker m (swapRows A a b) y ↔ Ker m A y := by
  have hlt : ∀ r, r < m → (if r = a then b else if r = b then a else r) < m := by
    intro r hr; split
    · exact hb
    · split <;> assumption
  constructor
  · intro h i hi
    have := h _ (hlt i hi)
    simp only [swapRows] at this
    have e : (if (if i = a then b else if i = b then a else i) = a then b
        else if (if i = a then b else if i = b then a else i) = b then a
        else (if i = a then b else if i = b then a else i)) = i := by
      by_cases h1 : i = a <;> by_cases h2 : i = b <;> by_cases h3 : b = a <;> simp_all
    rw [e] at this
    exact this
  · intro h i hi
    exact h _ (hlt i hi)

theorem elimCol_gt {A : Nat → Nat → ℝ} {h k r : Nat} (hr : h < r) (hz : ∀ c, c < k → A h c = 0)
    (hp : A h k ≠ 0) (c : Nat) : elimCol A h k r c = A r c - A h c * (A r k / A h k) := by
  rw [elimCol, if_neg (by omega)]
  by_cases h1 : c < k
  · rw [if_pos h1, hz c h1]; ring
  · rw [if_neg h1]
    by_cases h2 : c = k
    · rw [if_pos h2, h2]; field_simp; ring
    · rw [if_neg h2]

theorem ker_elimCol {m : Nat} {A : Nat → Nat → ℝ} {h k : Nat} (hh : h < m)
    (hz : ∀ c, c < k → A h c = 0) (hp : A h k ≠ 0) (y : Nat → ℝ) :
    Ker m (elimCol A h k) y ↔ Ker m A y := by
  have hrow : ∀ r, h < r → ∑ j ∈ range (m + 1), elimCol A h k r j * y j =
      ∑ j ∈ range (m + 1), A r j * y j - (A r k / A h k) * ∑ j ∈ range (m + 1), A h j * y j := by
    intro r hr
    rw [mul_sum, ← sum_sub_distrib]
    refine sum_congr rfl (fun j _ => ?_)
    rw [elimCol_gt hr hz hp]; ring
  have hrow' : ∀ r, r ≤ h → ∑ j ∈ range (m + 1), elimCol A h k r j * y j =
      ∑ j ∈ range (m + 1), A r j * y j := by
    intro r hr
    refine sum_congr rfl (fun j _ => ?_)
    rw [elimCol, if_pos hr]
  constructor
  · intro hk i hi
    by_cases hih : i ≤ h
    · rw [← hrow' i hih]; exact hk i hi
    · have h1 := hk i hi
      have h2 := hk h hh
      rw [hrow i (by omega)] at h1
      rw [hrow' h (Nat.le_refl h)] at h2
      rw [h2, mul_zero, sub_zero] at h1
      exact h1
  · intro hk i hi
    by_cases hih : i ≤ h
    · rw [hrow' i hih]; exact hk i hi
    · rw [hrow i (by omega), hk i hi, hk h hh]; ring

/-- An upper triangular system with non-zero diagonal has a solution. -/
theorem tri_solve (k : Nat) {A : Nat → Nat → ℝ} (hd : ∀ r, r < k → A r r ≠ 0)
    (hu : ∀ r c, r < k → c < r → A r c = 0) (b : Nat → ℝ) :
    ∃ y : Nat → ℝ, ∀ i, i < k → ∑ j ∈ range k, A i j * y j = b i := by
  induction k generalizing b with
  | zero => exact ⟨fun _ => 0, by intro i hi; omega⟩
  | succ k ih =>
    obtain ⟨y, hy⟩ := ih (fun r hr => hd r (by omega)) (fun r c hr hc => hu r c (by omega) hc)
      (fun i => b i - A i k * (b k / A k k))
    refine ⟨upd y k (b k / A k k), ?_⟩
    intro i hi
    rw [sum_range_succ, upd_same]
    have e : ∑ j ∈ range k, A i j * upd y k (b k / A k k) j = ∑ j ∈ range k, A i j * y j := by
      refine sum_congr rfl (fun j hj => ?_)
      rw [upd_other _ _ (by have := mem_range.mp hj; omega)]
    rw [e]
    by_cases hik : i < k
    · rw [hy i hik]; ring
    · have hik' : i = k := by omega
      subst hik'
      have : ∑ j ∈ range i, A i j * y j = 0 := by
        refine sum_eq_zero (fun j hj => ?_)
        rw [hu i j (by omega) (mem_range.mp hj), zero_mul]
      rw [this]
      have := hd i (by omega)
      field_simp
      ring

/-- An upper triangular system with non-zero diagonal has no other solution than zero for the right
hand side zero. -/
theorem tri_inj (k : Nat) {A : Nat → Nat → ℝ} (hd : ∀ r, r < k → A r r ≠ 0)
    (hu : ∀ r c, r < k → c < r → A r c = 0) {y : Nat → ℝ}
    (hy : ∀ i, i < k → ∑ j ∈ range k, A i j * y j = 0) : ∀ i, i < k → y i = 0 := by
  induction k with
  | zero => intro i hi; omega
  | succ k ih =>
    have hk : y k = 0 := by
      have h1 := hy k (by omega)
      rw [sum_range_succ] at h1
      have : ∑ j ∈ range k, A k j * y j = 0 := by
        refine sum_eq_zero (fun j hj => ?_)
        rw [hu k j (by omega) (mem_range.mp hj), zero_mul]
      rw [this, zero_add] at h1
      exact (mul_eq_zero.mp h1).resolve_left (hd k (by omega))
    intro i hi
    by_cases hik : i = k
    · rw [hik]; exact hk
    · refine ih (fun r hr => hd r (by omega)) (fun r c hr hc => hu r c (by omega) hc) ?_ i (by omega)
      intro r hr
      have h1 := hy r (by omega)
      rw [sum_range_succ, hk, mul_zero, add_zero] at h1
      exact h1

/-- The elimination invariant, at row `h` and column `k`. -/
structure GeInv (m : Nat) (A0 A : Nat → Nat → ℝ) (h k : Nat) : Prop where
  ker : ∀ y, Ker m A y ↔ Ker m A0 y
  le : h ≤ k
  hm : h ≤ m
  km : k ≤ m + 1
  zeros : ∀ r c, h ≤ r → r < m → c < k → A r c = 0
  diag : h = k → ∀ r, r < h → A r r ≠ 0 ∧ ∀ c, c < r → A r c = 0
  skipped : h < k → ∃ y, Ker m A0 y ∧ y m = 0 ∧ ∃ j, j < m ∧ y j ≠ 0
  last : h < k → h = m → A (m - 1) (m - 1) = 0

theorem GeInv.init (m : Nat) (A : Nat → Nat → ℝ) : GeInv m A A 0 0 :=
  ⟨fun _ => Iff.rfl, Nat.le_refl _, Nat.zero_le _, Nat.zero_le _, by intro r c _ _ h; omega,
    by intro _ r h; omega, by intro h; omega, by intro h; omega⟩

theorem GeInv.skip {m : Nat} {A0 A : Nat → Nat → ℝ} {h k : Nat} (i : GeInv m A0 A h k)
    (hh : h < m) (hk : k < m + 1) (hz : ∀ r, h ≤ r → r < m → A r k = 0) :
    GeInv m A0 A h (k + 1) := by
  refine ⟨i.ker, by have := i.le; omega, i.hm, by omega, ?_, ?_, ?_, ?_⟩
  · intro r c hr hrm hc
    by_cases hck : c = k
    · rw [hck]; exact hz r hr hrm
    · exact i.zeros r c hr hrm (by omega)
  · intro e; have := i.le; omega
  · intro _
    rcases Nat.lt_or_ge h k with hlt | hge
    · exact i.skipped hlt
    · have hek : h = k := Nat.le_antisymm i.le hge
      subst hek
      obtain ⟨y, hy⟩ := tri_solve h (A := A) (fun r hr => (i.diag rfl r hr).1)
        (fun r c hr hc => (i.diag rfl r hr).2 c hc) (fun r => - A r h)
      refine ⟨fun j => if j < h then y j else if j = h then 1 else 0, ?_, ?_, h, hh, ?_⟩
      · rw [← i.ker]
        intro r hr
        have e : ∑ j ∈ range (m + 1), A r j * (if j < h then y j else if j = h then 1 else 0) =
            ∑ j ∈ range h, A r j * y j + A r h := by
          rw [← sum_subset (range_subset_range.mpr (show h + 1 ≤ m + 1 by omega)), sum_range_succ]
          · congr 1
            · refine sum_congr rfl (fun j hj => ?_)
              rw [if_pos (mem_range.mp hj)]
            · rw [if_neg (Nat.lt_irrefl h), if_pos rfl, mul_one]
          · intro j _ hj
            have hj' : ¬ j < h + 1 := fun q => hj (mem_range.mpr q)
            rw [if_neg (by omega), if_neg (by omega), mul_zero]
        rw [e]
        by_cases hrh : r < h
        · rw [hy r hrh]; ring
        · rw [hz r (by omega) hr, add_zero]
          refine sum_eq_zero (fun j hj => ?_)
          rw [i.zeros r j (by omega) hr (mem_range.mp hj), zero_mul]
      · simp only
        rw [if_neg (by omega), if_neg (by omega)]
      · simp
  · intro _ e; omega

theorem GeInv.pivot {m : Nat} {A0 A : Nat → Nat → ℝ} {h k p : Nat} (i : GeInv m A0 A h k)
    (hk : k < m + 1) (hp : h ≤ p) (hpm : p < m) (hz : A p k ≠ 0) :
    GeInv m A0 (elimCol (swapRows A h p) h k) (h + 1) (k + 1) := by
  have hh : h < m := by omega
  have hsz : ∀ c, c < k → swapRows A h p h c = 0 := by
    intro c hc
    rw [swapRows, if_pos rfl]; exact i.zeros p c hp hpm hc
  have hsp : swapRows A h p h k ≠ 0 := by rw [swapRows, if_pos rfl]; exact hz
  refine ⟨fun y => ((ker_elimCol hh hsz hsp y).trans (ker_swapRows hh hpm y)).trans (i.ker y),
    by have := i.le; omega, by omega, by omega, ?_, ?_, ?_, ?_⟩
  · intro r c hr hrm hc
    rw [elimCol, if_neg (by omega)]
    by_cases hck : c < k
    · rw [if_pos hck, swapRows]
      rw [if_neg (show r ≠ h by omega)]
      split
      · exact i.zeros h c (Nat.le_refl h) hh hck
      · exact i.zeros r c (by omega) hrm hck
    · rw [if_neg hck, if_pos (by omega)]
  · intro e r hr
    have e' : h = k := by omega
    subst e'
    rw [elimCol, if_pos (by omega)]
    by_cases hrh : r = h
    · subst hrh
      refine ⟨hsp, fun c hc => ?_⟩
      rw [elimCol, if_pos (Nat.le_refl r)]; exact hsz c hc
    · have hd := i.diag rfl r (by omega)
      have e2 : ∀ c, swapRows A h p r c = A r c := by
        intro c; rw [swapRows, if_neg hrh, if_neg (by omega)]
      refine ⟨by rw [e2]; exact hd.1, fun c hc => ?_⟩
      rw [elimCol, if_pos (by omega), e2]; exact hd.2 c hc
  · intro e; exact i.skipped (by omega)
  · intro e e2
    have : m - 1 = h := by omega
    rw [this, elimCol, if_pos (Nat.le_refl h)]
    exact hsz h (by omega)

/-! ## Refinement -/

/-- The scratch matrix `m_A` holds `A`; nothing else changed since `s0`. -/
structure GeA (s0 : Store ℝ) (m : Nat) (s : Store ℝ) (A : Nat → Nat → ℝ) : Prop where
  only : Only .geA s0 s
  wf : (s.mat .geA).WF
  width : (s.mat .geA).width = m + 1
  height : (s.mat .geA).height = m
  ent : ∀ r c, r < m → c < m + 1 → (s.mat .geA).ent r c = A r c

theorem GeA.get {s0 s : Store ℝ} {m : Nat} {A : Nat → Nat → ℝ} (h : GeA s0 m s A) {r c : Nat}
    (hr : r < m) (hc : c < m + 1) : s.get .geA c r = .ok (A r c) := by
  rw [Store.get_ok s .geA h.wf (by rw [h.width]; exact hc) (by rw [h.height]; exact hr),
    h.ent r c hr hc]

theorem GeA.set {s0 s : Store ℝ} {m : Nat} {A : Nat → Nat → ℝ} (h : GeA s0 m s A) {r c : Nat}
    (hr : r < m) (hc : c < m + 1) (v : ℝ) :
    ∃ s', s.set .geA c r v = .ok s' ∧
      GeA s0 m s' (fun r' c' => if r' = r ∧ c' = c then v else A r' c') := by
  obtain ⟨s2, e2, o2, _, sh2, he2⟩ := Store.set_spec s .geA h.wf (c := c) (r := r)
    (by rw [h.width]; exact hc) (by rw [h.height]; exact hr) v
  refine ⟨s2, e2, h.only.trans o2, sh2.wf h.wf, sh2.width.trans h.width,
    sh2.height.trans h.height, ?_⟩
  intro r' c' hr' hc'
  rw [he2 r' c' (by rw [h.height]; exact hr') (by rw [h.width]; exact hc')]
  split
  · rfl
  · exact h.ent r' c' hr' hc'

theorem GeA.congr {s0 s : Store ℝ} {m : Nat} {A B : Nat → Nat → ℝ} (h : GeA s0 m s A)
    (e : ∀ r c, r < m → c < m + 1 → A r c = B r c) : GeA s0 m s B :=
  ⟨h.only, h.wf, h.width, h.height, fun r c hr hc => (h.ent r c hr hc).trans (e r c hr hc)⟩

theorem fastAbs_eq (v : ℝ) : fastAbs v = |v| := by
  rw [fastAbs]
  by_cases h : 0 < v
  · rw [if_pos (fp_gt.mpr h), abs_of_pos h]
  · rw [if_neg (fun q => h (fp_gt.mp q)), abs_of_nonpos (not_lt.mp h)]

theorem gePivot_spec {s0 s : Store ℝ} {m h k : Nat} {A : Nat → Nat → ℝ} (hA : GeA s0 m s A)
    (hh : h < m) (hk : k < m + 1) :
    ∃ p, s.gePivot m h k = .ok (p, |A p k|) ∧ h ≤ p ∧ p < m ∧
      ∀ r, h ≤ r → r < m → |A r k| ≤ |A p k| := by
  have key : Wp (s.gePivot m h k) (fun q => h ≤ q.1 ∧ q.1 < m ∧ q.2 = |A q.1 k| ∧
      ∀ r, h ≤ r → r < m → |A r k| ≤ |A q.1 k|) noErr := by
    rw [Store.gePivot, hA.get hh hk, ok_bind, fastAbs_eq]
    refine (wp_forN (I := fun i (q : Nat × ℝ) => h ≤ q.1 ∧ q.1 < m ∧ q.2 = |A q.1 k| ∧
      ∀ r, h ≤ r → r < h + 1 + i → |A r k| ≤ |A q.1 k|) ?_ ?_).imp ?_
    · refine ⟨Nat.le_refl h, hh, rfl, ?_⟩
      intro r h1 h2
      rw [show r = h by omega]
    · rintro i hi ⟨p, v⟩ ⟨h1, h2, h3, h4⟩
      simp only at h1 h2 h3 h4 ⊢
      rw [hA.get (show h + 1 + i < m by omega) hk, ok_bind, wp_pure, fastAbs_eq]
      split
      · rename_i hg
        have hg' := fp_gt.mp hg
        refine ⟨by simp only; omega, by simp only; omega, rfl, ?_⟩
        intro r hr1 hr2
        simp only
        by_cases hr : r = h + 1 + i
        · rw [hr]
        · have := h4 r hr1 (by omega)
          linarith
      · rename_i hg
        have hg' := not_lt.mp (fun q => hg (fp_gt.mpr q))
        refine ⟨h1, h2, h3, ?_⟩
        intro r hr1 hr2
        simp only
        by_cases hr : r = h + 1 + i
        · rw [hr]; linarith
        · exact h4 r hr1 (by omega)
    · rintro ⟨p, v⟩ ⟨h1, h2, h3, h4⟩
      exact ⟨h1, h2, h3, fun r hr1 hr2 => h4 r hr1 (by omega)⟩
  obtain ⟨⟨p, v⟩, e, h1, h2, h3, h4⟩ := wp_noErr_iff.mp key
  simp only at h1 h2 h3 h4
  exact ⟨p, by rw [e, h3], h1, h2, h4⟩

theorem geElim_spec {s0 s : Store ℝ} {m h k : Nat} {A : Nat → Nat → ℝ} (hA : GeA s0 m s A)
    (hh : h < m) (hk : k < m + 1) (hp : A h k ≠ 0) :
    ∃ s', s.geElim (m + 1) m h k = .ok s' ∧ GeA s0 m s' (elimCol A h k) := by
  have key : Wp (s.geElim (m + 1) m h k) (fun s' => GeA s0 m s' (elimCol A h k)) noErr := by
    rw [Store.geElim]
    refine (wp_forN (I := fun i s' => GeA s0 m s' (fun r c => if r < h + 1 + i then
      elimCol A h k r c else A r c)) ?_ ?_).imp ?_
    · refine hA.congr (fun r c _ _ => ?_)
      split
      · rw [elimCol, if_pos (by omega)]
      · rfl
    · intro i hi s1 h1
      have hrow : h + 1 + i < m := by omega
      have g1 : s1.get .geA k (h + 1 + i) = .ok (A (h + 1 + i) k) := by
        rw [h1.get hrow hk, if_neg (Nat.lt_irrefl _)]
      have g2 : s1.get .geA k h = .ok (A h k) := by
        rw [h1.get hh hk, if_pos (by omega), elimCol, if_pos (Nat.le_refl h)]
      simp only []
      rw [g1, ok_bind, g2, ok_bind, fp_div hp, ok_bind]
      obtain ⟨s2, e2, h2⟩ := h1.set hrow hk (Fp.lit 0)
      rw [e2, ok_bind]
      refine (wp_forN (I := fun p s' => GeA s0 m s' (fun r c => if r < h + 1 + i then
        elimCol A h k r c else if r = h + 1 + i ∧ c < k + 1 + p then elimCol A h k r c
        else A r c)) ?_ ?_).imp ?_
      · refine h2.congr (fun r c _ _ => ?_)
        by_cases hr : r = h + 1 + i
        · subst hr
          rw [if_neg (Nat.lt_irrefl _), if_neg (Nat.lt_irrefl _)]
          by_cases hc : c = k
          · rw [if_pos ⟨rfl, hc⟩, if_pos ⟨rfl, by omega⟩, elimCol, if_neg (by omega),
              if_neg (by omega), if_pos hc, fp_lit, Rat.cast_zero]
          · rw [if_neg (fun q => hc q.2)]
            split
            · rename_i hq
              rw [elimCol, if_neg (by omega), if_pos (by omega)]
            · rfl
        · rw [if_neg (fun q => hr q.1)]
          split
          · rfl
          · rw [if_neg (fun q => hr q.1)]
      · intro p hp2 s3 h3
        have hc : k + 1 + p < m + 1 := by omega
        have g3 : s3.get .geA (k + 1 + p) (h + 1 + i) = .ok (A (h + 1 + i) (k + 1 + p)) := by
          rw [h3.get hrow hc, if_neg (Nat.lt_irrefl _),
            if_neg (fun q => absurd q.2 (Nat.lt_irrefl _))]
        have g4 : s3.get .geA (k + 1 + p) h = .ok (A h (k + 1 + p)) := by
          rw [h3.get hh hc, if_pos (by omega), elimCol, if_pos (Nat.le_refl h)]
        rw [g3, ok_bind, g4, ok_bind]
        obtain ⟨s4, e4, h4⟩ := h3.set hrow hc (A (h + 1 + i) (k + 1 + p) -
          A h (k + 1 + p) * (A (h + 1 + i) k / A h k))
        rw [e4, wp_ok]
        refine h4.congr (fun r c _ _ => ?_)
        by_cases hr : r = h + 1 + i
        · subst hr
          rw [if_neg (Nat.lt_irrefl _), if_neg (Nat.lt_irrefl _)]
          by_cases hc2 : c = k + 1 + p
          · subst hc2
            rw [if_pos ⟨rfl, rfl⟩, if_pos ⟨rfl, by omega⟩, elimCol, if_neg (by omega),
              if_neg (by omega), if_neg (by omega)]
          · rw [if_neg (fun q => hc2 q.2)]
            by_cases hc3 : c < k + 1 + p
            · rw [if_pos ⟨rfl, hc3⟩, if_pos ⟨rfl, by omega⟩]
            · rw [if_neg (fun q => hc3 q.2), if_neg (fun q => hc3 (by omega))]
        · rw [if_neg (fun q => hr q.1)]
          split
          · rfl
          · rw [if_neg (fun q => hr q.1), if_neg (fun q => hr q.1)]
      · intro s3 h3
        refine h3.congr (fun r c _ hc => ?_)
        by_cases hr : r = h + 1 + i
        · subst hr
          rw [if_neg (Nat.lt_irrefl _), if_pos ⟨rfl, by omega⟩, if_pos (by omega)]
        · by_cases hr2 : r < h + 1 + i
          · rw [if_pos hr2, if_pos (by omega)]
          · rw [if_neg hr2, if_neg (fun q => hr q.1), if_neg (by omega)]
    · intro s' h'
      refine h'.congr (fun r c hr _ => ?_)
      rw [if_pos (by omega)]
  obtain ⟨s', e, h'⟩ := wp_noErr_iff.mp key
  exact ⟨s', e, h'⟩

theorem GeA.swap {s0 s : Store ℝ} {m a b : Nat} {A : Nat → Nat → ℝ} (hA : GeA s0 m s A)
    (ha : a < m) (hb : b < m) :
    ∃ s', s.rowSwap .geA a b = .ok s' ∧ GeA s0 m s' (swapRows A a b) := by
  obtain ⟨s', e, o, _, wf, hw, hh, he⟩ := Store.rowSwap_spec s .geA hA.wf (a := a) (b := b)
    (by rw [hA.height]; exact ha) (by rw [hA.height]; exact hb)
  refine ⟨s', e, hA.only.trans o, wf, hw.trans hA.width, hh.trans hA.height, ?_⟩
  intro r c hr hc
  rw [he r c (by rw [hA.height]; exact hr) (by rw [hA.width]; exact hc), swapRows]
  refine hA.ent _ c ?_ hc
  split
  · exact hb
  · split <;> assumption

/-- The elimination loop ends with `m` pivots (regular) or without (singular). -/
theorem geLoop_spec {s0 : Store ℝ} {m : Nat} {A0 : Nat → Nat → ℝ} :
    ∀ fuel h k s A, GeA s0 m s A → GeInv m A0 A h k → m + 1 ≤ fuel + k →
      ∃ s' A' h' k', geLoop (m + 1) m fuel h k s = .ok s' ∧ GeA s0 m s' A' ∧
        GeInv m A0 A' h' k' ∧ ¬ (h' < m ∧ k' < m + 1) := by
  intro fuel
  induction fuel with
  | zero =>
    intro h k s A hA hI hf
    have hn : ¬ (h < m ∧ k < m + 1) := by omega
    exact ⟨s, A, h, k, by rw [geLoop, if_neg hn], hA, hI, hn⟩
  | succ fuel ih =>
    intro h k s A hA hI hf
    by_cases hc : h < m ∧ k < m + 1
    · obtain ⟨p, e1, hp1, hp2, hp3⟩ := gePivot_spec hA hc.1 hc.2
      by_cases hz : A p k = 0
      · obtain ⟨s', A', h', k', e, q⟩ := ih h (k + 1) s A hA (hI.skip hc.1 hc.2 (fun r h1 h2 => by
          have := hp3 r h1 h2
          rw [hz, abs_zero] at this
          exact abs_eq_zero.mp (le_antisymm this (abs_nonneg _)))) (by omega)
        refine ⟨s', A', h', k', ?_, q⟩
        rw [geLoop, if_pos hc, e1, ok_bind, if_pos (by rw [fp_isZero, hz, abs_zero]), e]
      · obtain ⟨s1, e2, hA1⟩ := hA.swap hc.1 hp2
        obtain ⟨s2, e3, hA2⟩ := geElim_spec hA1 hc.1 hc.2 (by rw [swapRows, if_pos rfl]; exact hz)
        obtain ⟨s', A', h', k', e, q⟩ := ih (h + 1) (k + 1) s2 _ hA2
          (hI.pivot hc.2 hp1 hp2 hz) (by omega)
        refine ⟨s', A', h', k', ?_, q⟩
        rw [geLoop, if_pos hc, e1, ok_bind, if_neg (by
          rw [fp_isZero]; exact fun q => hz (abs_eq_zero.mp q)), e2, ok_bind, e3, ok_bind, e]
    · exact ⟨s, A, h, k, by rw [geLoop, if_neg hc], hA, hI, hc⟩

/-- Loading of the augmented matrix. -/
theorem geLoad_spec {s0 s : Store ℝ} {m : Nat} {A0 M : Nat → Nat → ℝ} {b : Nat → ℝ} {right : MId}
    (hA : GeA s0 m s A0) (hr : right ≠ .geA) (wfM : (s0.mat .geM).WF)
    (wM : (s0.mat .geM).width = m) (hM : (s0.mat .geM).height = m)
    (eM : ∀ r c, r < m → c < m → (s0.mat .geM).ent r c = M r c)
    (wfB : (s0.mat right).WF) (wB : 0 < (s0.mat right).width) (hB : (s0.mat right).height = m)
    (eB : ∀ r, r < m → (s0.mat right).ent r 0 = b r) :
    ∃ s', s.geLoad right (m + 1) m = .ok s' ∧
      GeA s0 m s' (fun r c => if c < m then M r c else b r) := by
  have key : Wp (s.geLoad right (m + 1) m) (fun s' =>
      GeA s0 m s' (fun r c => if c < m then M r c else b r)) noErr := by
    rw [Store.geLoad]
    refine (wp_forN (I := fun i s' => GeA s0 m s' (fun r c => if r < i then
      (if c < m then M r c else b r) else A0 r c)) ?_ ?_).imp ?_
    · exact hA.congr (fun r c _ _ => by rw [if_neg (by omega)])
    · intro i hi s1 h1
      rw [wp_bind]
      refine (wp_forN (I := fun j s' => GeA s0 m s' (fun r c => if r < i then
        (if c < m then M r c else b r) else if r = i ∧ c < j then M r c else A0 r c)) ?_ ?_).imp ?_
      · exact h1.congr (fun r c _ _ => by
          split
          · rfl
          · rw [if_neg (by omega)])
      · intro j hj s2 h2
        have hj' : j < m := by omega
        have e1 : s2.mat .geM = s0.mat .geM := h2.only.mat _ (by decide)
        rw [Store.get_ok s2 .geM (by rw [e1]; exact wfM) (by rw [e1, wM]; exact hj')
          (by rw [e1, hM]; exact hi), ok_bind, e1, eM i j hi hj']
        obtain ⟨s3, e3, h3⟩ := h2.set hi (show j < m + 1 by omega) (M i j)
        rw [e3, wp_ok]
        refine h3.congr (fun r c _ _ => ?_)
        by_cases hri : r = i
        · subst hri
          rw [if_neg (Nat.lt_irrefl _), if_neg (Nat.lt_irrefl _)]
          by_cases hcj : c = j
          · subst hcj; rw [if_pos ⟨rfl, rfl⟩, if_pos ⟨rfl, by omega⟩]
          · rw [if_neg (fun q => hcj q.2)]
            by_cases hc2 : c < j
            · rw [if_pos ⟨rfl, hc2⟩, if_pos ⟨rfl, by omega⟩]
            · rw [if_neg (fun q => hc2 q.2), if_neg (fun q => hc2 (by omega))]
        · rw [if_neg (fun q => hri q.1)]
          split
          · rfl
          · rw [if_neg (fun q => hri q.1), if_neg (fun q => hri q.1)]
      · intro s2 h2
        have e1 : s2.mat right = s0.mat right := h2.only.mat _ hr
        rw [Store.get_ok s2 right (by rw [e1]; exact wfB) (by rw [e1]; exact wB)
          (by rw [e1, hB]; exact hi), ok_bind, e1, eB i hi]
        obtain ⟨s3, e3, h3⟩ := h2.set hi (show m + 1 - 1 < m + 1 by omega) (b i)
        rw [e3, wp_ok]
        refine h3.congr (fun r c _ hc => ?_)
        by_cases hri : r = i
        · subst hri
          rw [if_neg (Nat.lt_irrefl _), if_pos (Nat.lt_succ_self r)]
          by_cases hcm : c < m
          · rw [if_neg (by omega), if_pos ⟨rfl, by omega⟩, if_pos hcm]
          · rw [if_pos ⟨rfl, by omega⟩, if_neg hcm]
        · rw [if_neg (fun q => hri q.1)]
          by_cases hri2 : r < i
          · rw [if_pos hri2, if_pos (show r < i + 1 by omega)]
          · rw [if_neg hri2, if_neg (fun q => hri q.1), if_neg (show ¬ r < i + 1 by omega)]
    · intro s' h'
      exact h'.congr (fun r c hr _ => by rw [if_pos hr])
  obtain ⟨s', e, h'⟩ := wp_noErr_iff.mp key
  exact ⟨s', e, h'⟩

end Scs
