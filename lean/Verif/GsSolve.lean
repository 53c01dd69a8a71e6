import Verif.GaussSeidel

/-!
# The two solve functions of the Gauss-Seidel solver
-/

namespace Scs

open Finset

/-- The vector the iteration starts from: `previous` if given and of the right size, else `base`. -/
noncomputable def startVec (s : Store ℝ) (previous : Option MId) (n : Nat) (base : Nat → ℝ) :
    Nat → ℝ :=
  match previous with
  | none => base
  | some p => if (s.mat p).height = n then fun i => (s.mat p).ent i 0 else base

theorem Store.warmStart_spec {st en : Nat} {s0 s : Store ℝ} (ok : Ok st en s) {r : MId} {n : Nat}
    {base : Nat → ℝ} (o : Only r s0 s) (hw : (s.mat r).width = 1) (hh : (s.mat r).height = n)
    (he : ∀ i, i < n → (s.mat r).ent i 0 = base i) (previous : Option MId)
    (hp : ∀ p, previous = some p → (s0.mat p).height = n → (s0.mat p).width = 1)
    (hk : ∀ p, previous = some p → (s0.mat p).height = n → s.mat p = s0.mat p)
    (hpl : (s0.mat r).Plain → (s.mat r).Plain) :
    ∃ s', s.warmStart previous r n = .ok s' ∧ Ok st en s' ∧ Only r s0 s' ∧
      (s'.mat r).width = 1 ∧ (s'.mat r).height = n ∧
      ((s0.mat r).Plain → (s'.mat r).Plain) ∧
      ∀ i, i < n → (s'.mat r).ent i 0 = if previous = some r ∧ (s0.mat r).height ≠ n then base i
        else startVec s0 previous n base i := by
  cases previous with
  | none => exact ⟨s, rfl, ok, o, hw, hh, hpl, by simpa [startVec] using he⟩
  | some p =>
    by_cases hpr : p = r
    · subst hpr
      rw [Store.warmStart, if_pos hh]
      obtain ⟨s', e, w⟩ := Store.setMatFrom_spec s p p (ok.mat p) (ok.mat p)
      refine ⟨s', e, ok.only w.only w.wf, o.trans w.only, w.width.trans hw, w.height.trans hh,
        fun q => w.plain (hpl q), ?_⟩
      intro i hi
      rw [w.ent i 0 (by rw [hh]; exact hi) (by rw [hw]; decide)]
      by_cases hn : (s0.mat p).height = n
      · rw [if_neg (by simp [hn]), startVec, if_pos hn, hk p rfl hn]
      · rw [if_pos ⟨rfl, hn⟩, he i hi]
    · have hpe : s.mat p = s0.mat p := o.mat p hpr
      rw [Store.warmStart, hpe]
      by_cases hn : (s0.mat p).height = n
      · rw [if_pos hn]
        obtain ⟨s', e, w⟩ := Store.setMatFrom_spec s r p (ok.mat p) (ok.mat r)
        rw [hpe] at w
        refine ⟨s', e, ok.only w.only w.wf, o.trans w.only, w.width.trans (hp p rfl hn),
          w.height.trans hn, fun q => w.plain (hpl q), ?_⟩
        intro i hi
        rw [w.ent i 0 (by rw [hn]; exact hi) (by rw [hp p rfl hn]; decide), if_neg (by simp [hpr]),
          startVec, if_pos hn]
      · rw [if_neg hn]
        refine ⟨s, rfl, ok, o, hw, hh, hpl, ?_⟩
        intro i hi
        rw [he i hi, if_neg (by simp [hpr]), startVec, if_neg hn]

/-- Outcome of an iteration of `F` with test `D` limited to `maxIter` rounds. -/
def Iterated (F : (Nat → ℝ) → Nat → ℝ) (D : (Nat → ℝ) → ℝ) (e : ℝ) (maxIter : Nat)
    (x0 : Nat → ℝ) (b : Bool) (y : Nat → ℝ) : Prop :=
  (b = true → ∃ k, k < maxIter ∧ D (F^[k] x0) < e ∧ (∀ l, l < k → ¬ D (F^[l] x0) < e) ∧
    y = F^[k + 1] x0) ∧
  (b = false → (∀ k, k < maxIter → ¬ D (F^[k] x0) < e) ∧ y = F^[maxIter] x0)

theorem gsLoop_iterated {sweep : Store ℝ → Exec (Store ℝ × ℝ)} {e : ℝ}
    {R : Store ℝ → (Nat → ℝ) → Prop} {F : (Nat → ℝ) → Nat → ℝ} {D : (Nat → ℝ) → ℝ}
    (h : ∀ s y, R s y → ∃ s', sweep s = .ok (s', D y) ∧ R s' (F y)) (n : Nat) {s : Store ℝ}
    {x0 : Nat → ℝ} (hr : R s x0) :
    ∃ s' b y, gsLoop sweep e n s = .ok (s', b) ∧ R s' y ∧ Iterated F D e n x0 b y := by
  obtain ⟨s', b, he, h1, h2⟩ := gsLoop_spec (e := e) h n s x0 hr
  cases b with
  | true =>
    obtain ⟨k, hk, hk1, hk2, hk3⟩ := h1 rfl
    exact ⟨s', true, _, he, hk3, fun _ => ⟨k, hk, hk1, hk2, rfl⟩,
      fun q => (Bool.false_ne_true q.symm).elim⟩
  | false =>
    obtain ⟨h3, h4⟩ := h2 rfl
    exact ⟨s', false, _, he, h4, fun q => (Bool.false_ne_true q).elim, fun _ => ⟨h3, rfl⟩⟩

/-- What both solve functions need: `J` (sparse, `n` rows), `W`, `right`, distinct objects. -/
structure SleIn (st en : Nat) (s : Store ℝ) (J : SId) (W right : MId) (n : Nat) : Prop where
  ok : Ok st en s
  inRange : (s.smat J).InRange st en
  rows : (s.smat J).height = n
  wW : (s.mat W).width = 1
  hW : (s.mat W).height = (s.smat J).width
  wB : (s.mat right).width = 1
  hB : (s.mat right).height = n

/-- The matrix `J W J^T` of a solver call. -/
noncomputable def sysMat (st en : Nat) (s : Store ℝ) (J : SId) (W : MId) (i j : Nat) : ℝ :=
  gram (s.smat J).width ((s.smat J).val st en) (fun c => (s.mat W).ent c 0) i j

theorem Store.gsSolveL_spec {st en : Nat} (hst : 0 < st) {s : Store ℝ} {J : SId}
    {W right limits r : MId} {prev : Option MId} {n : Nat} (h : SleIn st en s J W right n)
    (hJ : J ≠ .gsReg) (hf : (s.smat .gsReg).Fresh) (hwl : (s.mat limits).width = 2)
    (hhl : (s.mat limits).height = n) (h1 : r ≠ .gsM) (h2 : r ≠ right) (h3 : r ≠ limits)
    (h4 : r ≠ W) (h5 : right ≠ .gsM) (h6 : limits ≠ .gsM)
    (hp : ∀ p, prev = some p → (s.mat p).height = n → (s.mat p).width = 1)
    (hr : (s.mat r).height = n → (s.mat r).width = 1)
    (hM : ∀ i, i < n → sysMat st en s J W i i ≠ 0) (maxIter : Nat) (e : ℝ) :
    ∃ s' b y x0, s.gsSolveL st en maxIter e J W right limits (some r) prev = .ok (s', b) ∧
      Ok st en s' ∧ Frame (fun a => a = r ∨ a = .gsM) (· = .gsReg) s s' ∧
      (s'.smat .gsReg).Fresh ∧
      (s'.mat r).width = 1 ∧ (s'.mat r).height = n ∧ (∀ i, i < n → (s'.mat r).ent i 0 = y i) ∧
      (∀ i, i < n → x0 i = startVec s prev n
        (fun i => if (s.mat r).height = n then (s.mat r).ent i 0 else 0) i) ∧
      Iterated (sweepTo (rowSolveL n (sysMat st en s J W) (fun i => (s.mat right).ent i 0)
          (fun i => (s.mat limits).ent i 0) (fun i => (s.mat limits).ent i 1)) n)
        (fun y => maxTo (relChange y (sweepTo (rowSolveL n (sysMat st en s J W)
          (fun i => (s.mat right).ent i 0) (fun i => (s.mat limits).ent i 0)
          (fun i => (s.mat limits).ent i 1)) n y)) n) e maxIter x0 b y := by
  have hinit : ∃ s1, (if (s.mat r).height ≠ n then s.init0 r 1 n else pure s) = .ok s1 ∧
      Ok st en s1 ∧ Only r s s1 ∧ (s1.mat r).width = 1 ∧ (s1.mat r).height = n ∧
      ((s.mat r).height = n → s1 = s) ∧
      ((s.mat r).Plain → (s1.mat r).Plain) ∧
      ∀ i, i < n → (s1.mat r).ent i 0 =
        if (s.mat r).height = n then (s.mat r).ent i 0 else 0 := by
    by_cases hn : (s.mat r).height = n
    · rw [if_neg (by simpa using hn)]
      exact ⟨s, rfl, h.ok, Only.refl _ _, hr hn, hn, fun _ => rfl, id, fun i _ => by rw [if_pos hn]⟩
    · rw [if_pos hn]
      obtain ⟨s1, e1, w1⟩ := Store.init0_spec s r 1 n (h.ok.mat r)
      exact ⟨s1, e1, h.ok.only w1.only w1.wf, w1.only, w1.width, w1.height,
        fun q => absurd q hn, w1.plain, fun i hi => by
          rw [w1.ent i 0 hi (by decide), if_neg hn]⟩
  obtain ⟨s1, e1, ok1, o1, w1, hh1, k1, pl1, en1⟩ := hinit
  obtain ⟨s2, e2, ok2, o2, w2, hh2, _, en2⟩ := Store.warmStart_spec ok1 o1 w1 hh1 en1 prev hp
    (fun p hpp hpn => by
      by_cases hpr : p = r
      · subst hpr; rw [k1 hpn]
      · exact o1.mat p hpr) pl1
  have hstart : ∀ i, i < n → (s2.mat r).ent i 0 = startVec s prev n
      (fun i => if (s.mat r).height = n then (s.mat r).ent i 0 else 0) i := by
    intro i hi
    rw [en2 i hi]
    split
    · rename_i hc
      simp only [startVec, hc.1, if_neg hc.2]
    · rfl
  have hJs : s2.smat = s.smat := o2.smat
  have hWs : s2.mat W = s.mat W := o2.mat W (Ne.symm h4)
  obtain ⟨s3, e3, ok3, f3, fr3, _, wM, hhM, eM⟩ := Store.formM_spec hst ok2 (J := J)
    (reg := .gsReg) (W := W) (M := .gsM) (by rw [hJs]; exact h.inRange) hJ (by rw [hJs]; exact hf)
    (by rw [hWs]; exact h.wW) (by rw [hWs, hJs]; exact h.hW)
  rw [hJs, h.rows] at wM hhM
  have f3' : Frame (fun a => a = r ∨ a = .gsM) (· = .gsReg) s s3 :=
    Frame.trans (o2.frame (Or.inl rfl)) (f3.mono (fun _ q => Or.inr q) (fun _ q => q))
  have hB3 : s3.mat right = s.mat right := f3'.mat right (by
    rintro (q | q)
    · exact h2 q.symm
    · exact h5 q)
  have hL3 : s3.mat limits = s.mat limits := f3'.mat limits (by
    rintro (q | q)
    · exact h3 q.symm
    · exact h6 q)
  have hr3 : s3.mat r = s2.mat r := f3.mat r h1
  have hd : GsData s3 right n (sysMat st en s J W) (fun i => (s.mat right).ent i 0) := by
    refine ⟨ok3.mat _, wM, hhM, ?_, ok3.mat _, by rw [hB3, h.wB]; decide, by rw [hB3, h.hB], ?_⟩
    · intro i j hi hj
      rw [eM i j (by rw [hJs, h.rows]; exact hi) (by rw [hJs, h.rows]; exact hj), sysMat, hJs, hWs]
    · intro i _; rw [hB3]
  have hc : Col s3 r n s3 (fun i => (s2.mat r).ent i 0) :=
    ⟨Only.refl _ _, ok3.mat _, by rw [hr3, w2]; decide, Mat.SameShape.refl _, by rw [hr3, hh2],
      fun i _ => by rw [hr3]⟩
  obtain ⟨s4, b, y, e4, hc4, hit⟩ := gsLoop_iterated (e := e)
    (sweep := fun s => s.gsIterationL .gsM right limits r r)
    (R := Col s3 r n)
    (fun s' y hc => gsIterationL_spec (lo := fun i => (s.mat limits).ent i 0)
      (hi := fun i => (s.mat limits).ent i 1) hd hc h1 h2 h3 hM (ok3.mat _)
      (by rw [hL3, hwl]; decide) (by rw [hL3, hhl]) (fun i _ => by rw [hL3])
      (fun i _ => by rw [hL3])) maxIter hc
  refine ⟨s4, b, y, _, ?_, ok3.only hc4.only hc4.wf, f3'.trans (hc4.only.frame (Or.inl rfl)),
    by rw [hc4.only.smat]; exact fr3, by rw [hc4.shape.width, hr3, w2], hc4.height, hc4.ent,
    hstart, hit⟩
  rw [Store.gsSolveL]
  simp only [deref, ok_bind, h.hB]
  by_cases hn : (s.mat r).height = n
  · rw [if_neg (by simpa using hn)] at e1 ⊢
    rw [e1, ok_bind, e2, ok_bind, e3, ok_bind, e4]
  · rw [if_pos hn] at e1 ⊢
    rw [e1, ok_bind, e2, ok_bind, e3, ok_bind, e4]

theorem Store.gsSolve_spec {st en : Nat} (hst : 0 < st) {s : Store ℝ} {J : SId}
    {W right r : MId} {prev : Option MId} {n : Nat} (h : SleIn st en s J W right n)
    (hJ : J ≠ .gsReg) (hf : (s.smat .gsReg).Fresh) (h1 : r ≠ .gsM) (h2 : r ≠ right)
    (h4 : r ≠ W) (h5 : right ≠ .gsM)
    (hp : ∀ p, prev = some p → (s.mat p).height = n → (s.mat p).width = 1)
    (hM : ∀ i, i < n → sysMat st en s J W i i ≠ 0) (maxIter : Nat) (e : ℝ) :
    ∃ s' b y x0, ∃ junk : Nat → ℝ, s.gsSolve st en maxIter e J W right prev (some r) = .ok (s', b) ∧
      Ok st en s' ∧ Frame (fun a => a = r ∨ a = .gsM) (· = .gsReg) s s' ∧
      (s'.smat .gsReg).Fresh ∧
      (s'.mat r).width = 1 ∧ (s'.mat r).height = n ∧ (∀ i, i < n → (s'.mat r).ent i 0 = y i) ∧
      (∀ i, i < n → x0 i = startVec s prev n
        (fun i => if (s.mat r).height = n ∧ (s.mat r).width = 1 then (s.mat r).ent i 0
          else junk i) i) ∧
      Iterated (sweepTo (rowSolve n (sysMat st en s J W) (fun i => (s.mat right).ent i 0)) n)
        (fun y => maxTo (gsTest y (sweepTo (rowSolve n (sysMat st en s J W)
          (fun i => (s.mat right).ent i 0)) n y)) n) e maxIter x0 b y := by
  obtain ⟨s1, e1, o1, wf1, w1, hh1, pl1, k1, _⟩ := Store.resize_spec s r 1 n (h.ok.mat r)
  have ok1 := h.ok.only o1 wf1
  obtain ⟨s2, e2, ok2, o2, w2, hh2, _, en2⟩ := Store.warmStart_spec ok1 o1 w1 hh1
    (base := fun i => (s1.mat r).ent i 0) (fun _ _ => rfl) prev hp
    (fun p hpp hpn => by
      by_cases hpr : p = r
      · subst hpr
        rw [k1 ⟨(hp p hpp hpn).symm, hpn.symm⟩]
      · exact o1.mat p hpr) pl1
  have hstart : ∀ i, i < n → (s2.mat r).ent i 0 = startVec s prev n
      (fun i => if (s.mat r).height = n ∧ (s.mat r).width = 1 then (s.mat r).ent i 0
        else (s1.mat r).ent i 0) i := by
    intro i hi
    have hb : (s1.mat r).ent i 0 = if (s.mat r).height = n ∧ (s.mat r).width = 1
        then (s.mat r).ent i 0 else (s1.mat r).ent i 0 := by
      split
      · rename_i hc; rw [k1 ⟨hc.2.symm, hc.1.symm⟩]
      · rfl
    rw [en2 i hi]
    split
    · rename_i hc
      simp only [startVec, hc.1, if_neg hc.2]
      exact hb
    · cases prev with
      | none => simpa [startVec] using hb
      | some p =>
        simp only [startVec]
        by_cases hpn : (s.mat p).height = n
        · rw [if_pos hpn, if_pos hpn]
        · rw [if_neg hpn, if_neg hpn]; exact hb
  have hJs : s2.smat = s.smat := o2.smat
  have hWs : s2.mat W = s.mat W := o2.mat W (Ne.symm h4)
  obtain ⟨s3, e3, ok3, f3, fr3, _, wM, hhM, eM⟩ := Store.formM_spec hst ok2 (J := J)
    (reg := .gsReg) (W := W) (M := .gsM) (by rw [hJs]; exact h.inRange) hJ (by rw [hJs]; exact hf)
    (by rw [hWs]; exact h.wW) (by rw [hWs, hJs]; exact h.hW)
  rw [hJs, h.rows] at wM hhM
  have f3' : Frame (fun a => a = r ∨ a = .gsM) (· = .gsReg) s s3 :=
    Frame.trans (o2.frame (Or.inl rfl)) (f3.mono (fun _ q => Or.inr q) (fun _ q => q))
  have hB3 : s3.mat right = s.mat right := f3'.mat right (by
    rintro (q | q)
    · exact h2 q.symm
    · exact h5 q)
  have hr3 : s3.mat r = s2.mat r := f3.mat r h1
  have hd : GsData s3 right n (sysMat st en s J W) (fun i => (s.mat right).ent i 0) := by
    refine ⟨ok3.mat _, wM, hhM, ?_, ok3.mat _, by rw [hB3, h.wB]; decide, by rw [hB3, h.hB], ?_⟩
    · intro i j hi hj
      rw [eM i j (by rw [hJs, h.rows]; exact hi) (by rw [hJs, h.rows]; exact hj), sysMat, hJs, hWs]
    · intro i _; rw [hB3]
  have hc : Col s3 r n s3 (fun i => (s2.mat r).ent i 0) :=
    ⟨Only.refl _ _, ok3.mat _, by rw [hr3, w2]; decide, Mat.SameShape.refl _, by rw [hr3, hh2],
      fun i _ => by rw [hr3]⟩
  obtain ⟨s4, b, y, e4, hc4, hit⟩ := gsLoop_iterated (e := e)
    (sweep := fun s => s.gsIteration .gsM right r r)
    (R := Col s3 r n)
    (fun s' y hc => gsIteration_spec hd hc h1 h2 hM) maxIter hc
  refine ⟨s4, b, y, _, fun i => (s1.mat r).ent i 0, ?_, ok3.only hc4.only hc4.wf,
    f3'.trans (hc4.only.frame (Or.inl rfl)),
    by rw [hc4.only.smat]; exact fr3, by rw [hc4.shape.width, hr3, w2], hc4.height, hc4.ent,
    hstart, hit⟩
  rw [Store.gsSolve]
  simp only [deref, ok_bind, h.hB]
  rw [e1, ok_bind, e2, ok_bind, e3, ok_bind, e4]

end Scs
