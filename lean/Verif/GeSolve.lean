import Verif.GaussElim

/-!
# The solve function of Gaussian elimination
-/

namespace Scs

open Finset

theorem Col.set {s0 s : Store ℝ} {res : MId} {n i : Nat} {y : Nat → ℝ} (h : Col s0 res n s y)
    (hi : i < n) (v : ℝ) : ∃ s', s.set res 0 i v = .ok s' ∧ Col s0 res n s' (upd y i v) := by
  obtain ⟨s2, e2, o2, _, sh2, he2⟩ := Store.set_spec s res h.wf (c := 0) (r := i) h.width
    (by rw [h.height]; exact hi) v
  refine ⟨s2, e2, h.only.trans o2, sh2.wf h.wf, by rw [sh2.width]; exact h.width,
    h.shape.trans sh2, sh2.height.trans h.height, ?_⟩
  intro r hr
  rw [he2 r 0 (by rw [h.height]; exact hr) h.width]
  by_cases hri : r = i
  · subst hri; rw [if_pos ⟨rfl, rfl⟩, upd_same]
  · rw [if_neg (fun q => hri q.1), upd_other _ _ hri, h.ent r hr]

theorem GeA.of_col {s00 s0 s : Store ℝ} {res : MId} {n m : Nat} {y : Nat → ℝ}
    {A : Nat → Nat → ℝ} (hA : GeA s00 m s0 A) (h : Col s0 res n s y) (hr : res ≠ .geA)
    {r c : Nat} (hr' : r < m) (hc : c < m + 1) : s.get .geA c r = .ok (A r c) := by
  have e : s.mat .geA = s0.mat .geA := h.only.mat _ (Ne.symm hr)
  rw [Store.get_ok s .geA (by rw [e]; exact hA.wf) (by rw [e, hA.width]; exact hc)
    (by rw [e, hA.height]; exact hr'), e, hA.ent r c hr' hc]

theorem sum_rev_tail {m i : Nat} (hi : i < m) (g : Nat → ℝ) :
    ∑ p ∈ range (m - 1 - i), g (m - 1 - p) = ∑ j ∈ Ico (i + 1) m, g j := by
  rw [sum_Ico_eq_sum_range, show m - (i + 1) = m - 1 - i by omega,
    ← sum_range_reflect]
  refine sum_congr rfl (fun p hp => ?_)
  have := mem_range.mp hp
  rw [show m - 1 - (m - 1 - i - 1 - p) = i + 1 + p by omega]

theorem sum_upper {m i : Nat} (hi : i < m) {f : Nat → ℝ} {y : Nat → ℝ}
    (hz : ∀ c, c < i → f c = 0) :
    ∑ j ∈ range m, f j * y j = f i * y i + ∑ j ∈ Ico (i + 1) m, f j * y j := by
  rw [← sum_range_add_sum_Ico _ (show i + 1 ≤ m by omega), sum_range_succ]
  rw [sum_eq_zero (fun j hj => by rw [hz j (mem_range.mp hj), zero_mul])]
  ring

theorem geBack_singular {s0 s : Store ℝ} {m : Nat} {A : Nat → Nat → ℝ} {res : MId}
    (hA : GeA s0 m s A) (hm : 0 < m) (hz : A (m - 1) (m - 1) = 0) :
    s.geBack res (m + 1) m = .error (.assert "gaussian_elimination_sle_solver.cpp:82") := by
  rw [Store.geBack, show m + 1 - 2 = m - 1 by omega, hA.get (show m - 1 < m by omega) (by omega),
    ok_bind, hz, chk_false]
  · rfl
  · rw [fp_isZero.mpr rfl]; decide

theorem geBack_spec {s00 s : Store ℝ} {m : Nat} {A : Nat → Nat → ℝ} {res : MId}
    {y0 : Nat → ℝ} (hA : GeA s00 m s A) (hm : 0 < m) (hc : Col s res m s y0) (hr : res ≠ .geA)
    (hd : ∀ r, r < m → A r r ≠ 0) (hu : ∀ r c, r < m → c < r → A r c = 0) :
    ∃ s' y, s.geBack res (m + 1) m = .ok s' ∧ Col s res m s' y ∧
      ∀ i, i < m → ∑ j ∈ range m, A i j * y j = A i m := by
  have key : Wp (s.geBack res (m + 1) m) (fun s' => ∃ y, Col s res m s' y ∧
      ∀ i, i < m → ∑ j ∈ range m, A i j * y j = A i m) noErr := by
    have hm1 : m - 1 < m := by omega
    rw [Store.geBack, show m + 1 - 2 = m - 1 by omega, show m + 1 - 1 = m by omega,
      hA.get hm1 (by omega), ok_bind, chk_true, ok_bind, hA.get hm1 (by omega), ok_bind, ok_bind,
      fp_div (hd _ hm1), ok_bind]
    · obtain ⟨s1, e1, h1⟩ := hc.set hm1 (A (m - 1) m / A (m - 1) (m - 1))
      rw [e1, ok_bind]
      refine (wp_forN (I := fun q s' => ∃ y, Col s res m s' y ∧ ∀ i, m - 1 - q ≤ i → i < m →
        ∑ j ∈ range m, A i j * y j = A i m) ⟨_, h1, ?_⟩ ?_).imp ?_
      · intro i hi1 hi2
        have : i = m - 1 := by omega
        subst this
        rw [sum_upper hi2 (hu _ · hi2), show m - 1 + 1 = m by omega, Ico_self, sum_empty, upd_same,
          add_zero]
        have := hd _ hi2
        field_simp
      · rintro q hq s2 ⟨y, h2, hy⟩
        have hi : m - 2 - q < m := by omega
        simp only []
        rw [hA.of_col h2 hr hi (by omega), ok_bind]
        have hsum : forN (m - 1 - (m - 2 - q)) (fun p v => do
            let x ← s2.prodAt .geA res (m - 2 - q) (m - 1 - p)
            pure (v + x)) 0 = .ok (∑ j ∈ Ico (m - 2 - q + 1) m, A (m - 2 - q) j * y j) := by
          rw [← sum_rev_tail hi (fun j => A (m - 2 - q) j * y j), ← sumTo_eq]
          refine forN_sum (fun p hp => ?_)
          have hj : m - 1 - p < m := by omega
          rw [Store.prodAt, hA.of_col h2 hr hi (by omega), ok_bind,
            Store.get_ok s2 res h2.wf h2.width (by rw [h2.height]; exact hj), ok_bind,
            h2.ent _ hj]
          rfl
        rw [hsum, ok_bind, hA.of_col h2 hr hi (by omega), ok_bind,
          if_neg (fun q' => hd _ hi (fp_isZero.mp q')), ok_bind, fp_div (hd _ hi), ok_bind]
        obtain ⟨s3, e3, h3⟩ := h2.set hi ((A (m - 2 - q) m -
          ∑ j ∈ Ico (m - 2 - q + 1) m, A (m - 2 - q) j * y j) / A (m - 2 - q) (m - 2 - q))
        rw [e3, wp_ok]
        refine ⟨_, h3, ?_⟩
        intro i hi1 hi2
        rw [sum_upper hi2 (hu i · hi2)]
        have e : ∀ v, ∑ j ∈ Ico (i + 1) m, A i j * upd y (m - 2 - q) v j =
            ∑ j ∈ Ico (i + 1) m, A i j * y j := by
          intro v
          refine sum_congr rfl (fun j hj => ?_)
          rw [upd_other _ _ (by have := mem_Ico.mp hj; omega)]
        rw [e]
        by_cases hii : i = m - 2 - q
        · subst hii
          rw [upd_same]
          have := hd _ hi2
          field_simp
          ring
        · rw [upd_other _ _ hii, ← sum_upper hi2 (hu i · hi2)]
          exact hy i (by omega) hi2
      · rintro s' ⟨y, h1, h2⟩
        exact ⟨y, h1, fun i hi => h2 i (by omega) hi⟩
    · have := hd _ hm1
      by_contra hcon
      rw [Bool.not_eq_false] at hcon
      exact this (fp_isZero.mp hcon)
  obtain ⟨s', e, y, h1, h2⟩ := wp_noErr_iff.mp key
  exact ⟨s', y, e, h1, h2⟩

theorem geCheck_spec {s0 s : Store ℝ} {res : MId} {n : Nat} {y : Nat → ℝ} (h : Col s0 res n s y) :
    s.geCheck res n = .ok ⟨⟩ := by
  have key : Wp (s.geCheck res n) (fun _ => True) noErr := by
    rw [Store.geCheck]
    refine wp_forN (I := fun _ _ => True) trivial ?_
    intro i hi _ _
    rw [Store.get_ok s res h.wf h.width (by rw [h.height]; exact hi), ok_bind,
      chk_true _ (show Fp.notFinite ((s.mat res).ent i 0) = false from rfl)]
    trivial
  obtain ⟨⟨⟩, e, _⟩ := wp_noErr_iff.mp key
  exact e

/-- The square system `M x = b` with `m` rows has only the trivial solution for `b = 0`. -/
def Regular (m : Nat) (M : Nat → Nat → ℝ) : Prop :=
  ∀ x : Nat → ℝ, (∀ i, i < m → ∑ j ∈ range m, M i j * x j = 0) → ∀ j, j < m → x j = 0

/-- `Store.geSolve` with at least one row. -/
theorem Store.geSolve_spec {st en : Nat} (hst : 0 < st) {s : Store ℝ} {J : SId}
    {W right r : MId} (prev : Option MId) {n : Nat} (h : SleIn st en s J W right n)
    (hJ : J ≠ .geReg) (hf : (s.smat .geReg).Fresh) (h1 : r ≠ .geM) (h2 : r ≠ .geA)
    (h5 : right ≠ .geM) (h6 : right ≠ .geA) (hn : 0 < n) :
    (Regular n (sysMat st en s J W) ∧
      ∃ s', ∃ y : Nat → ℝ, s.geSolve st en J W right prev (some r) = .ok (s', true) ∧ Ok st en s' ∧
        Frame (fun a => a = r ∨ a = .geM ∨ a = .geA) (· = .geReg) s s' ∧
        (s'.smat .geReg).Fresh ∧
        (s'.mat r).width = 1 ∧ (s'.mat r).height = n ∧ (∀ i, i < n → (s'.mat r).ent i 0 = y i) ∧
        ∀ i, i < n → ∑ j ∈ range n, sysMat st en s J W i j * y j = (s.mat right).ent i 0) ∨
    (¬ Regular n (sysMat st en s J W) ∧ s.geSolve st en J W right prev (some r) =
      .error (.assert "gaussian_elimination_sle_solver.cpp:82")) := by
  obtain ⟨s1, e1, ok1, f1, fr1, _, wM, hhM, eM⟩ := Store.formM_spec hst h.ok (J := J)
    (reg := .geReg) (W := W) (M := .geM) h.inRange hJ hf h.wW h.hW
  rw [h.rows] at wM hhM eM
  have hB1 : s1.mat right = s.mat right := f1.mat right h5
  obtain ⟨s2, e2, o2, wf2, w2, hh2, _, k2, _⟩ := Store.resize_spec s1 r 1 n (ok1.mat r)
  have ok2 := ok1.only o2 wf2
  obtain ⟨s3, e3, o3, wf3, w3, hh3, _⟩ := Store.resize_spec s2 .geA (n + 1) n (ok2.mat .geA)
  have ok3 := ok2.only o3 wf3
  have hM3 : s3.mat .geM = s1.mat .geM :=
    (o3.mat _ (by decide)).trans (o2.mat _ (Ne.symm h1))
  have hB3 : s3.mat right = s.mat right := by
    rw [o3.mat _ h6]
    by_cases hrr : right = r
    · subst hrr
      rw [k2 ⟨by rw [hB1, h.wB], by rw [hB1, h.hB]⟩, hB1]
    · rw [o2.mat _ hrr, hB1]
  obtain ⟨s4, e4, hA4⟩ := geLoad_spec (s0 := s3) (s := s3) (m := n) (A0 := (s3.mat .geA).ent)
    (M := sysMat st en s J W) (b := fun i => (s.mat right).ent i 0) (right := right)
    ⟨Only.refl _ _, wf3, w3, hh3, fun _ _ _ _ => rfl⟩ h6 (ok3.mat _) (by rw [hM3, wM])
    (by rw [hM3, hhM]) (fun i j hi hj => by rw [hM3, eM i j hi hj]; rfl) (ok3.mat _)
    (by rw [hB3, h.wB]; decide) (by rw [hB3, h.hB]) (fun i _ => by rw [hB3])
  obtain ⟨s5, A, hh, kk, e5, hA5, hI, hend⟩ := geLoop_spec (n + 1) 0 0 s4 _ hA4
    (GeInv.init n _) (by omega)
  have hsolve : s.geSolve st en J W right prev (some r) = (do
      let s ← s5.geBack r (n + 1) n
      s.geCheck r n
      pure (s, true)) := by
    rw [Store.geSolve, e1, ok_bind]
    simp only []
    rw [wM, hhM, hB1, h.hB, chk_true _ rfl, ok_bind, if_neg (by omega)]
    simp only [deref, ok_bind]
    rw [e2, ok_bind, e3, ok_bind, e4, ok_bind, e5, ok_bind]
  have hle := hI.le
  have hhm := hI.hm
  have hkm := hI.km
  have hkeraug : ∀ y : Nat → ℝ, Ker n (fun r c => if c < n then sysMat st en s J W r c
      else (s.mat right).ent r 0) y ↔ ∀ i, i < n →
        ∑ j ∈ range n, sysMat st en s J W i j * y j + (s.mat right).ent i 0 * y n = 0 := by
    intro y
    have : ∀ i, ∑ j ∈ range (n + 1), (if j < n then sysMat st en s J W i j
        else (s.mat right).ent i 0) * y j =
        ∑ j ∈ range n, sysMat st en s J W i j * y j + (s.mat right).ent i 0 * y n := by
      intro i
      rw [sum_range_succ, if_neg (Nat.lt_irrefl n)]
      congr 1
      exact sum_congr rfl (fun j hj => by rw [if_pos (mem_range.mp hj)])
    simp only [Ker, this]
  by_cases hk : hh = kk
  · left
    have hhn : hh = n := by omega
    have hkn : kk = n := by omega
    subst hhn
    have hdiag := hI.diag (by omega)
    have hreg : Regular hh (sysMat st en s J W) := by
      intro x hx
      have : Ker hh A (fun j => if j < hh then x j else 0) := by
        rw [hI.ker, hkeraug]
        intro i hi
        rw [if_neg (Nat.lt_irrefl hh), mul_zero, add_zero, ← hx i hi]
        exact sum_congr rfl (fun j hj => by rw [if_pos (mem_range.mp hj)])
      have h0 := tri_inj hh (A := A) (fun r hr => (hdiag r hr).1)
        (fun r c hr hc => (hdiag r hr).2 c hc) (y := x) (by
          intro i hi
          have := this i hi
          simp only [] at this
          rw [sum_range_succ, if_neg (Nat.lt_irrefl hh), mul_zero, add_zero] at this
          rw [← this]
          exact sum_congr rfl (fun j hj => by rw [if_pos (mem_range.mp hj)]))
      exact h0
    refine ⟨hreg, ?_⟩
    have hr5 : s5.mat r = s2.mat r := by
      rw [hA5.only.mat r h2, o3.mat r h2]
    have hcol : Col s5 r hh s5 (fun i => (s5.mat r).ent i 0) :=
      ⟨Only.refl _ _, by rw [hr5]; exact wf2, by rw [hr5, w2]; decide, Mat.SameShape.refl _,
        by rw [hr5, hh2], fun _ _ => rfl⟩
    obtain ⟨s6, y, e6, hc6, hy⟩ := geBack_spec hA5 hn hcol h2 (fun r hr => (hdiag r hr).1)
      (fun r c hr hc => (hdiag r hr).2 c hc)
    have ok5 := ok3.only hA5.only hA5.wf
    refine ⟨s6, y, ?_, ok5.only hc6.only hc6.wf, ?_, ?_, ?_, hc6.height, hc6.ent, ?_⟩
    · rw [hsolve, e6, ok_bind, geCheck_spec hc6]; rfl
    · have g1 : Frame (fun a => a = r ∨ a = .geM ∨ a = .geA) (· = .geReg) s s1 :=
        f1.mono (fun _ q => Or.inr (Or.inl q)) (fun _ q => q)
      have g2 := g1.trans (o2.frame (Or.inl rfl))
      have g3 := g2.trans (o3.frame (Or.inr (Or.inr rfl)))
      have g4 := g3.trans (hA5.only.frame (Or.inr (Or.inr rfl)))
      exact g4.trans (hc6.only.frame (Or.inl rfl))
    · rw [hc6.only.smat, hA5.only.smat, o3.smat, o2.smat]; exact fr1
    · rw [hc6.shape.width, hr5, w2]
    · intro i hi
      have : Ker hh A (fun j => if j < hh then y j else -1) := by
        intro i hi
        simp only []
        rw [sum_range_succ, if_neg (Nat.lt_irrefl hh)]
        have e : ∑ j ∈ range hh, A i j * (if j < hh then y j else -1) =
            ∑ j ∈ range hh, A i j * y j :=
          sum_congr rfl (fun j hj => by rw [if_pos (mem_range.mp hj)])
        rw [e, hy i hi]; ring
      rw [hI.ker, hkeraug] at this
      have h3 := this i hi
      rw [if_neg (Nat.lt_irrefl hh)] at h3
      have e : ∑ j ∈ range hh, sysMat st en s J W i j * (if j < hh then y j else -1) =
          ∑ j ∈ range hh, sysMat st en s J W i j * y j :=
        sum_congr rfl (fun j hj => by rw [if_pos (mem_range.mp hj)])
      rw [e] at h3
      linarith
  · right
    have hlt : hh < kk := by omega
    constructor
    · obtain ⟨y, hy1, hy2, j, hj1, hj2⟩ := hI.skipped hlt
      intro hreg
      rw [hkeraug] at hy1
      exact hj2 (hreg y (fun i hi => by
        have := hy1 i hi
        rw [hy2, mul_zero, add_zero] at this
        exact this) j hj1)
    · have hz : A (n - 1) (n - 1) = 0 := by
        by_cases hhn : hh = n
        · exact hI.last hlt hhn
        · exact hI.zeros (n - 1) (n - 1) (by omega) (by omega) (by omega)
      rw [hsolve, geBack_singular hA5 hn hz]
      rfl

end Scs
