import Verif.SleSpec
import Mathlib.Logic.Function.Iterate

/-!
# Lemmas for the Gauss-Seidel solver

The solver refines sweeps over a real vector.
-/

namespace Scs

open Finset

/-- The value component `i` must have for row `i` of `M x = b` to hold, the others being kept. -/
noncomputable def rowSolve (n : Nat) (M : Nat → Nat → ℝ) (b : Nat → ℝ) (x : Nat → ℝ) (i : Nat) : ℝ :=
  (b i - ∑ j ∈ (range n).erase i, M i j * x j) / M i i

/-- Restriction to an interval. -/
noncomputable def clamp (lo hi v : ℝ) : ℝ := max lo (min hi v)

/-- `rowSolve` restricted to the limits of the row. -/
noncomputable def rowSolveL (n : Nat) (M : Nat → Nat → ℝ) (b lo hi : Nat → ℝ) (x : Nat → ℝ)
    (i : Nat) : ℝ := clamp (lo i) (hi i) (rowSolve n M b x i)

/-- Components `0 .. i-1` replaced one after the other, each computed from the current vector. -/
def sweepTo (f : (Nat → ℝ) → Nat → ℝ) : Nat → (Nat → ℝ) → Nat → ℝ
  | 0, x => x
  | i + 1, x => upd (sweepTo f i x) i (f (sweepTo f i x) i)

theorem sweepTo_ge (f : (Nat → ℝ) → Nat → ℝ) (x : Nat → ℝ) {i r : Nat} (h : i ≤ r) :
    sweepTo f i x r = x r := by
  induction i with
  | zero => rfl
  | succ i ih => rw [sweepTo, upd_other _ _ (by omega), ih (by omega)]

theorem sweepTo_lt (f : (Nat → ℝ) → Nat → ℝ) (x : Nat → ℝ) {i r : Nat} (h : r < i) :
    sweepTo f i x r = f (sweepTo f r x) r := by
  induction i with
  | zero => omega
  | succ i ih =>
    by_cases hr : r = i
    · subst hr; rw [sweepTo, upd_same]
    · rw [sweepTo, upd_other _ _ hr, ih (by omega)]

/-- Running maximum starting from zero, as the solver computes it. -/
noncomputable def maxTo (d : Nat → ℝ) : Nat → ℝ
  | 0 => 0
  | i + 1 => if Fp.gt (d i) (maxTo d i) then d i else maxTo d i

theorem maxTo_lt {d : Nat → ℝ} {n : Nat} {e : ℝ} :
    maxTo d n < e ↔ 0 < e ∧ ∀ i, i < n → d i < e := by
  induction n with
  | zero => simp [maxTo]
  | succ n ih =>
    rw [maxTo]
    constructor
    · intro h
      have h' : maxTo d n < e ∧ d n < e := by
        by_cases hg : Fp.gt (d n) (maxTo d n) = true
        · rw [if_pos hg] at h
          exact ⟨lt_trans (fp_gt.mp hg) h, h⟩
        · rw [if_neg hg] at h
          have : ¬ maxTo d n < d n := fun q => hg (fp_gt.mpr q)
          exact ⟨h, lt_of_le_of_lt (not_lt.mp this) h⟩
      refine ⟨(ih.mp h'.1).1, fun i hi => ?_⟩
      by_cases hi' : i = n
      · subst hi'; exact h'.2
      · exact (ih.mp h'.1).2 i (by omega)
    · rintro ⟨h0, h1⟩
      have h2 := ih.mpr ⟨h0, fun i hi => h1 i (by omega)⟩
      split
      · exact h1 n (by omega)
      · exact h2

theorem sum_erase_split {n i : Nat} (hi : i < n) (g : Nat → ℝ) :
    ∑ j ∈ Ico 0 i, g j + ∑ j ∈ Ico (i + 1) n, g j = ∑ j ∈ (range n).erase i, g j := by
  have h1 : ∑ j ∈ range n, g j = g i + ∑ j ∈ (range n).erase i, g j :=
    (add_sum_erase _ _ (mem_range.mpr hi)).symm
  have h2 : ∑ j ∈ range n, g j = ∑ j ∈ range (i + 1), g j + ∑ j ∈ Ico (i + 1) n, g j :=
    (sum_range_add_sum_Ico _ (by omega)).symm
  rw [sum_range_succ] at h2
  rw [Nat.Ico_zero_eq_range]
  linarith

/-- The object `res` is a column of `n` rows holding `y`, and nothing else changed since `s0`. -/
structure Col (s0 : Store ℝ) (res : MId) (n : Nat) (s : Store ℝ) (y : Nat → ℝ) : Prop where
  only : Only res s0 s
  wf : (s.mat res).WF
  width : 0 < (s.mat res).width
  shape : (s0.mat res).SameShape (s.mat res)
  height : (s.mat res).height = n
  ent : ∀ r, r < n → (s.mat res).ent r 0 = y r

/-- A sweep whose rows compute `f` (new value) and `d` (relative change). -/
theorem gsIter_gen {s0 : Store ℝ} {res : MId} {n : Nat}
    {row : Nat → Store ℝ → ℝ → Exec (Store ℝ × ℝ)} {f d : (Nat → ℝ) → Nat → ℝ} {s : Store ℝ}
    {x : Nat → ℝ} (hx : Col s0 res n s x)
    (hrow : ∀ i, i < n → ∀ s D y, Col s0 res n s y → row i s D =
      (do
        let s' ← s.set res 0 i (f y i)
        pure (s', if Fp.gt (d y i) D then d y i else D))) :
    ∃ s', forN n (fun i (q : Store ℝ × ℝ) => row i q.1 q.2) (s, 0) =
        .ok (s', maxTo (fun i => d (sweepTo f i x) i) n) ∧
      Col s0 res n s' (sweepTo f n x) := by
  have key : Wp (forN n (fun i (q : Store ℝ × ℝ) => row i q.1 q.2) (s, 0)) (fun q =>
      q.2 = maxTo (fun i => d (sweepTo f i x) i) n ∧ Col s0 res n q.1 (sweepTo f n x)) noErr := by
    refine wp_forN (I := fun i (q : Store ℝ × ℝ) => q.2 = maxTo (fun i => d (sweepTo f i x) i) i ∧
      Col s0 res n q.1 (sweepTo f i x)) ⟨rfl, hx⟩ ?_
    rintro i hi ⟨s1, D⟩ ⟨hD, hc⟩
    simp only at hD hc ⊢
    rw [hrow i hi s1 D _ hc]
    obtain ⟨s2, e2, o2, _, sh2, he2⟩ := Store.set_spec s1 res hc.wf (c := 0) (r := i) hc.width
      (by rw [hc.height]; exact hi) (f (sweepTo f i x) i)
    rw [e2, ok_bind, wp_pure]
    refine ⟨by simp only [maxTo, hD], hc.only.trans o2, sh2.wf hc.wf, by rw [sh2.width]; exact hc.width,
      hc.shape.trans sh2, sh2.height.trans hc.height, ?_⟩
    intro r hr
    rw [he2 r 0 (by rw [hc.height]; exact hr) hc.width]
    by_cases hri : r = i
    · subst hri; rw [if_pos ⟨rfl, rfl⟩, sweepTo, upd_same]
    · rw [if_neg (fun q => hri q.1), sweepTo, upd_other _ _ hri, hc.ent r hr]
  obtain ⟨⟨s', D⟩, e, h1, h2⟩ := wp_noErr_iff.mp key
  exact ⟨s', by rw [e, ← h1], h2⟩

/-- The iteration loop. -/
theorem gsLoop_spec {sweep : Store ℝ → Exec (Store ℝ × ℝ)} {e : ℝ}
    {R : Store ℝ → (Nat → ℝ) → Prop} {F : (Nat → ℝ) → Nat → ℝ} {D : (Nat → ℝ) → ℝ}
    (h : ∀ s y, R s y → ∃ s', sweep s = .ok (s', D y) ∧ R s' (F y)) :
    ∀ n s y, R s y → ∃ s' b, gsLoop sweep e n s = .ok (s', b) ∧
      (b = true → ∃ k, k < n ∧ D (F^[k] y) < e ∧ (∀ l, l < k → ¬ D (F^[l] y) < e) ∧
        R s' (F^[k + 1] y)) ∧
      (b = false → (∀ k, k < n → ¬ D (F^[k] y) < e) ∧ R s' (F^[n] y)) := by
  intro n
  induction n with
  | zero =>
    intro s y hr
    exact ⟨s, false, rfl, fun h => (Bool.false_ne_true h).elim, fun _ => ⟨by intro k hk; omega, hr⟩⟩
  | succ n ih =>
    intro s y hr
    obtain ⟨s1, e1, r1⟩ := h s y hr
    by_cases hd : D y < e
    · refine ⟨s1, true, ?_, fun _ => ⟨0, by omega, hd, by intro l hl; omega, r1⟩,
        fun h => (Bool.false_ne_true h.symm).elim⟩
      rw [gsLoop, e1, ok_bind, if_pos (fp_gt.mpr hd)]
      rfl
    · obtain ⟨s2, b, e2, h2, h3⟩ := ih s1 (F y) r1
      refine ⟨s2, b, ?_, ?_, ?_⟩
      · rw [gsLoop, e1, ok_bind, if_neg (fun q => hd (fp_gt.mp q)), e2]
      · intro hb
        obtain ⟨k, hk, hk1, hk2, hk3⟩ := h2 hb
        refine ⟨k + 1, by omega, hk1, ?_, hk3⟩
        intro l hl
        cases l with
        | zero => exact hd
        | succ l => exact hk2 l (by omega)
      · intro hb
        obtain ⟨hk, hk3⟩ := h3 hb
        refine ⟨?_, hk3⟩
        intro l hl
        cases l with
        | zero => exact hd
        | succ l => exact hk l (by omega)

/-- The right hand side and the matrix the sweeps work with are in place. -/
structure GsData (s : Store ℝ) (right : MId) (n : Nat) (M : Nat → Nat → ℝ) (b : Nat → ℝ) :
    Prop where
  wfM : (s.mat .gsM).WF
  wM : (s.mat .gsM).width = n
  hM : (s.mat .gsM).height = n
  eM : ∀ i j, i < n → j < n → (s.mat .gsM).ent i j = M i j
  wfB : (s.mat right).WF
  wB : 0 < (s.mat right).width
  hB : (s.mat right).height = n
  eB : ∀ i, i < n → (s.mat right).ent i 0 = b i

theorem GsData.of_col {s s' : Store ℝ} {right res : MId} {n : Nat} {M : Nat → Nat → ℝ}
    {b y : Nat → ℝ} (h : GsData s right n M b) (hc : Col s res n s' y) (h1 : res ≠ .gsM)
    (h2 : res ≠ right) : GsData s' right n M b := by
  have e1 : s'.mat .gsM = s.mat .gsM := hc.only.mat _ (Ne.symm h1)
  have e2 : s'.mat right = s.mat right := hc.only.mat _ (Ne.symm h2)
  exact ⟨by rw [e1]; exact h.wfM, by rw [e1]; exact h.wM, by rw [e1]; exact h.hM,
    by rw [e1]; exact h.eM, by rw [e2]; exact h.wfB, by rw [e2]; exact h.wB,
    by rw [e2]; exact h.hB, by rw [e2]; exact h.eB⟩

theorem gsRow_sums {s : Store ℝ} {s0 : Store ℝ} {right res : MId} {n i : Nat} {M : Nat → Nat → ℝ}
    {b y : Nat → ℝ} (hd : GsData s right n M b) (hc : Col s0 res n s y) (hi : i < n) :
    accR 0 i (fun j => s.prodAt .gsM res i j) = .ok (∑ j ∈ Ico 0 i, M i j * y j) ∧
    accR (i + 1) n (fun j => s.prodAt .gsM res i j) = .ok (∑ j ∈ Ico (i + 1) n, M i j * y j) := by
  have key : ∀ j, j < n → s.prodAt .gsM res i j = .ok (M i j * y j) := by
    intro j hj
    rw [Store.prodAt_ok hd.wfM hc.wf (by rw [hd.wM]; exact hj) (by rw [hd.hM]; exact hi) hc.width
      (by rw [hc.height]; exact hj), hd.eM i j hi hj, hc.ent j hj]
  exact ⟨accR_eq (fun j _ hj => key j (by omega)), accR_eq (fun j _ hj => key j hj)⟩

theorem rowSolve_eq {n i : Nat} (hi : i < n) (M : Nat → Nat → ℝ) (b y : Nat → ℝ) :
    1 / M i i * (b i - ∑ j ∈ Ico 0 i, M i j * y j - ∑ j ∈ Ico (i + 1) n, M i j * y j) =
      rowSolve n M b y i := by
  rw [rowSolve, ← sum_erase_split hi, sub_sub, one_div, div_eq_inv_mul]

theorem tol_pos (v : ℝ) : 0 < max (((1 / 1000 : Rat) : ℝ)) v :=
  lt_of_lt_of_le (by norm_num) (le_max_left _ _)

/-- One row without limits. -/
theorem gsRow_spec {s0 s : Store ℝ} {right res : MId} {n i : Nat} {M : Nat → Nat → ℝ}
    {b y : Nat → ℝ} (hd : GsData s right n M b) (hc : Col s0 res n s y) (hi : i < n)
    (hM : M i i ≠ 0) (D : ℝ) :
    Store.gsRow .gsM right res res n i s D = (do
      let s' ← s.set res 0 i (rowSolve n M b y i)
      pure (s', if Fp.gt ((|rowSolve n M b y i| - max (((1 / 1000 : Rat) : ℝ)) (y i)) /
          max (((1 / 1000 : Rat) : ℝ)) (y i)) D
        then (|rowSolve n M b y i| - max (((1 / 1000 : Rat) : ℝ)) (y i)) /
          max (((1 / 1000 : Rat) : ℝ)) (y i) else D)) := by
  obtain ⟨a1, a2⟩ := gsRow_sums hd hc hi
  rw [Store.gsRow, a1, ok_bind, a2, ok_bind,
    Store.get_ok s .gsM hd.wfM (by rw [hd.wM]; exact hi) (by rw [hd.hM]; exact hi), ok_bind,
    hd.eM i i hi hi, fp_div hM, ok_bind,
    Store.get_ok s right hd.wfB hd.wB (by rw [hd.hB]; exact hi), ok_bind, hd.eB i hi,
    Store.get_ok s res hc.wf hc.width (by rw [hc.height]; exact hi), ok_bind, hc.ent i hi]
  simp only [fp_lit, fp_fmax, fp_abs, Rat.cast_one, rowSolve_eq hi M b y]
  rw [fp_div (ne_of_gt (tol_pos _)), ok_bind]

/-- One row with limits. -/
theorem gsRowL_spec {s0 s : Store ℝ} {right limits res : MId} {n i : Nat} {M : Nat → Nat → ℝ}
    {b lo hi y : Nat → ℝ} (hd : GsData s right n M b) (hc : Col s0 res n s y) (hin : i < n)
    (hM : M i i ≠ 0) (D : ℝ) (wfl : (s.mat limits).WF) (hwl : 1 < (s.mat limits).width)
    (hhl : (s.mat limits).height = n) (hlo : ∀ i, i < n → (s.mat limits).ent i 0 = lo i)
    (hhi : ∀ i, i < n → (s.mat limits).ent i 1 = hi i) :
    Store.gsRowL .gsM right limits res res n i s D = (do
      let s' ← s.set res 0 i (rowSolveL n M b lo hi y i)
      pure (s', if Fp.gt (|rowSolveL n M b lo hi y i - y i| / max (((1 / 1000 : Rat) : ℝ)) |y i|) D
        then |rowSolveL n M b lo hi y i - y i| / max (((1 / 1000 : Rat) : ℝ)) |y i| else D)) := by
  obtain ⟨a1, a2⟩ := gsRow_sums hd hc hin
  rw [Store.gsRowL, a1, ok_bind, a2, ok_bind,
    Store.get_ok s .gsM hd.wfM (by rw [hd.wM]; exact hin) (by rw [hd.hM]; exact hin), ok_bind,
    hd.eM i i hin hin, fp_div hM, ok_bind,
    Store.get_ok s right hd.wfB hd.wB (by rw [hd.hB]; exact hin), ok_bind, hd.eB i hin,
    Store.get_ok s limits wfl (by omega) (by rw [hhl]; exact hin), ok_bind,
    Store.get_ok s limits wfl hwl (by rw [hhl]; exact hin), ok_bind,
    Store.get_ok s res hc.wf hc.width (by rw [hc.height]; exact hin), ok_bind, hc.ent i hin]
  simp only [fp_lit, fp_fmax, fp_fmin, fp_abs, Rat.cast_one, rowSolve_eq hin M b y, hlo i hin,
    hhi i hin]
  rw [fp_div (ne_of_gt (tol_pos _)), ok_bind]
  rfl

/-- The relative change of component `i` tested by `solveWithLimits`. -/
noncomputable def relChange (y y' : Nat → ℝ) (i : Nat) : ℝ :=
  |y' i - y i| / max (((1 / 1000 : Rat) : ℝ)) |y i|

/-- The quantity tested by `solve`. -/
noncomputable def gsTest (y y' : Nat → ℝ) (i : Nat) : ℝ :=
  (|y' i| - max (((1 / 1000 : Rat) : ℝ)) (y i)) / max (((1 / 1000 : Rat) : ℝ)) (y i)

theorem gsIteration_spec {s0 s : Store ℝ} {right res : MId} {n : Nat} {M : Nat → Nat → ℝ}
    {b y : Nat → ℝ} (hd : GsData s0 right n M b) (hc : Col s0 res n s y) (h1 : res ≠ .gsM)
    (h2 : res ≠ right) (hM : ∀ i, i < n → M i i ≠ 0) :
    ∃ s', s.gsIteration .gsM right res res =
        .ok (s', maxTo (gsTest y (sweepTo (rowSolve n M b) n y)) n) ∧
      Col s0 res n s' (sweepTo (rowSolve n M b) n y) := by
  obtain ⟨s', e, h⟩ := gsIter_gen hc
    (row := fun i s D => Store.gsRow .gsM right res res n i s D)
    (f := rowSolve n M b)
    (d := fun y i => (|rowSolve n M b y i| - max (((1 / 1000 : Rat) : ℝ)) (y i)) /
          max (((1 / 1000 : Rat) : ℝ)) (y i))
    (fun i hi s D y hc => gsRow_spec (hd.of_col hc h1 h2) hc hi (hM i hi) D)
  refine ⟨s', ?_, h⟩
  rw [Store.gsIteration, hc.height, e]
  congr 2
  have : ∀ k, k ≤ n → maxTo (fun i => (|rowSolve n M b (sweepTo (rowSolve n M b) i y) i| -
      max (((1 / 1000 : Rat) : ℝ)) (sweepTo (rowSolve n M b) i y i)) /
      max (((1 / 1000 : Rat) : ℝ)) (sweepTo (rowSolve n M b) i y i)) k =
      maxTo (gsTest y (sweepTo (rowSolve n M b) n y)) k := by
    intro k hk
    induction k with
    | zero => rfl
    | succ k ih =>
      rw [maxTo, maxTo, ih (by omega), gsTest, sweepTo_ge _ _ (Nat.le_refl k), sweepTo_lt _ _ hk]
  exact this n (Nat.le_refl n)

theorem gsIterationL_spec {s0 s : Store ℝ} {right limits res : MId} {n : Nat} {M : Nat → Nat → ℝ}
    {b lo hi y : Nat → ℝ} (hd : GsData s0 right n M b) (hc : Col s0 res n s y) (h1 : res ≠ .gsM)
    (h2 : res ≠ right) (h3 : res ≠ limits) (hM : ∀ i, i < n → M i i ≠ 0)
    (wfl : (s0.mat limits).WF) (hwl : 1 < (s0.mat limits).width)
    (hhl : (s0.mat limits).height = n) (hlo : ∀ i, i < n → (s0.mat limits).ent i 0 = lo i)
    (hhi : ∀ i, i < n → (s0.mat limits).ent i 1 = hi i) :
    ∃ s', s.gsIterationL .gsM right limits res res =
        .ok (s', maxTo (relChange y (sweepTo (rowSolveL n M b lo hi) n y)) n) ∧
      Col s0 res n s' (sweepTo (rowSolveL n M b lo hi) n y) := by
  obtain ⟨s', e, h⟩ := gsIter_gen hc
    (row := fun i s D => Store.gsRowL .gsM right limits res res n i s D)
    (f := rowSolveL n M b lo hi)
    (d := fun y i => |rowSolveL n M b lo hi y i - y i| / max (((1 / 1000 : Rat) : ℝ)) |y i|)
    (fun i hi s D y hc => by
      have e3 : s.mat limits = s0.mat limits := hc.only.mat _ (Ne.symm h3)
      exact gsRowL_spec (hd.of_col hc h1 h2) hc hi (hM i hi) D (by rw [e3]; exact wfl)
        (by rw [e3]; exact hwl) (by rw [e3]; exact hhl) (by rw [e3]; exact hlo)
        (by rw [e3]; exact hhi))
  refine ⟨s', ?_, h⟩
  rw [Store.gsIterationL, hc.height, e]
  congr 2
  have : ∀ k, k ≤ n → maxTo (fun i => |rowSolveL n M b lo hi (sweepTo (rowSolveL n M b lo hi) i y) i
      - sweepTo (rowSolveL n M b lo hi) i y i| /
      max (((1 / 1000 : Rat) : ℝ)) |sweepTo (rowSolveL n M b lo hi) i y i|) k =
      maxTo (relChange y (sweepTo (rowSolveL n M b lo hi) n y)) k := by
    intro k hk
    induction k with
    | zero => rfl
    | succ k ih =>
      rw [maxTo, maxTo, ih (by omega), relChange, sweepTo_ge _ _ (Nat.le_refl k), sweepTo_lt _ _ hk]
  exact this n (Nat.le_refl n)

end Scs
