import Verif.GsSolve
import Verif.CgPure

/-!
# Lemmas for the conjugate gradient solver
-/

namespace Scs

open Finset

/-- The object `a` is a column of `n` rows holding `y`. -/
structure IsVec (s : Store ℝ) (a : MId) (n : Nat) (y : Nat → ℝ) : Prop where
  width : (s.mat a).width = 1
  height : (s.mat a).height = n
  ent : ∀ i, i < n → (s.mat a).ent i 0 = y i

theorem IsVec.congr {s s' : Store ℝ} {a : MId} {n : Nat} {y : Nat → ℝ} (h : IsVec s a n y)
    (e : s'.mat a = s.mat a) : IsVec s' a n y :=
  ⟨by rw [e]; exact h.width, by rw [e]; exact h.height, by rw [e]; exact h.ent⟩

theorem IsVec.ext {s : Store ℝ} {a : MId} {n : Nat} {y y' : Nat → ℝ} (h : IsVec s a n y)
    (e : ∀ i, i < n → y i = y' i) : IsVec s a n y' :=
  ⟨h.width, h.height, fun i hi => (h.ent i hi).trans (e i hi)⟩

/-- The scratch matrices the solver computes with. -/
def IsCg (a : MId) : Prop :=
  a = .cgR ∨ a = .cgP ∨ a = .cgAp ∨ a = .cgX ∨ a = .cgReg0 ∨ a = .cgReg1

/-- Fixed data of a run: `J`, `W`, `right` with system matrix `M` and right hand side `b`. -/
structure CgData (st en : Nat) (s : Store ℝ) (J : SId) (W right : MId) (n : Nat)
    (M : Nat → Nat → ℝ) (b : Nat → ℝ) : Prop where
  inRange : (s.smat J).InRange st en
  rows : (s.smat J).height = n
  wW : (s.mat W).width = 1
  hW : (s.mat W).height = (s.smat J).width
  vB : IsVec s right n b
  eM : ∀ i j, sysMat st en s J W i j = M i j

theorem CgData.frame {st en : Nat} {s s' : Store ℝ} {J : SId} {W right : MId} {n : Nat}
    {M : Nat → Nat → ℝ} {b : Nat → ℝ} (h : CgData st en s J W right n M b)
    (eJ : s'.smat J = s.smat J) (eW : s'.mat W = s.mat W) (eB : s'.mat right = s.mat right) :
    CgData st en s' J W right n M b :=
  ⟨by rw [eJ]; exact h.inRange, by rw [eJ]; exact h.rows, by rw [eW]; exact h.wW,
    by rw [eW, eJ]; exact h.hW, h.vB.congr eB, fun i j => by rw [← h.eM, sysMat, sysMat, eJ, eW]⟩

theorem cgMultiply_spec {st en : Nat} (hst : 0 < st) {s : Store ℝ} (ok : Ok st en s) {J : SId}
    {W right x t : MId} {n : Nat} {M : Nat → Nat → ℝ} {b y : Nat → ℝ}
    (hd : CgData st en s J W right n M b) (hx : IsVec s x n y) (hxt : x ≠ t) (hx0 : x ≠ .cgReg0)
    (ht0 : t ≠ .cgReg0) (ht1 : t ≠ .cgReg1) (hWt : W ≠ t) (hW0 : W ≠ .cgReg0) :
    ∃ s', s.cgMultiply st en J W x t = .ok s' ∧ Ok st en s' ∧
      Frame (fun a => a = t ∨ a = .cgReg0 ∨ a = .cgReg1) (fun _ => False) s s' ∧
      IsVec s' t n (mulV n M y) ∧ ((s.mat t).Plain → (s'.mat t).Plain) := by
  obtain ⟨s1, e1, o1, wf1, w1, hh1, p1, _, _⟩ := Store.resize_spec s t 1 n (ok.mat t)
  have ok1 := ok.only o1 wf1
  have hx1' : s1.mat x = s.mat x := o1.mat x hxt
  have hJ1 : s1.smat J = s.smat J := by rw [o1.smat]
  obtain ⟨s2, e2, w2⟩ := Store.transposeMultiplyVector_spec st en hst s1 J x .cgReg0 hx0
    (ok1.smat J) (ok1.mat x) (by rw [hJ1]; exact hd.inRange) (ok1.mat _)
    (by rw [hx1']; exact hx.width) (by rw [hJ1, hx1', hd.rows, hx.height])
  have ok2 := ok1.only w2.only w2.wf
  have hW2 : s2.mat W = s.mat W := by rw [w2.only.mat W hW0, o1.mat W hWt]
  obtain ⟨s3, e3, w3⟩ := Store.componentMultiply_spec s2 W .cgReg0 .cgReg1 (ok2.mat _) (ok2.mat _)
    (ok2.mat _) (by rw [w2.width, hW2, hd.wW]) (by rw [w2.height, hW2, hd.hW, hJ1])
  have ok3 := ok2.only w3.only w3.wf
  have hJ3 : s3.smat J = s.smat J := by rw [w3.only.smat, w2.only.smat, o1.smat]
  obtain ⟨s4, e4, w4⟩ := Store.smultiply_spec st en hst s3 J .cgReg1 t (Ne.symm ht1) (ok3.smat J)
    (ok3.mat _) (by rw [hJ3]; exact hd.inRange) (ok3.mat _)
    (by rw [w3.height, hW2, hd.hW, hJ3])
  have ok4 := ok3.only w4.only w4.wf
  refine ⟨s4, ?_, ok4, ?_, ⟨?_, ?_, ?_⟩, ?_⟩
  · rw [Store.cgMultiply, hx.height, e1, ok_bind, e2, ok_bind, e3, ok_bind, e4]
  · have f1 : Frame (fun a => a = t ∨ a = .cgReg0 ∨ a = .cgReg1) (fun _ => False) s s1 :=
      o1.frame (Or.inl rfl)
    exact ((f1.trans (w2.only.frame (Or.inr (Or.inl rfl)))).trans
      (w3.only.frame (Or.inr (Or.inr rfl)))).trans (w4.only.frame (Or.inl rfl))
  · rw [w4.width, w3.width, hW2, hd.wW]
  · rw [w4.height, hJ3, hd.rows]
  · intro i hi
    rw [w4.ent i 0 (by rw [hJ3, hd.rows]; exact hi) (by rw [w3.width, hW2, hd.wW]; decide), hJ3]
    have e5 : ∀ c, c < (s.smat J).width → (s3.mat .cgReg1).ent c 0 = (s.mat W).ent c 0 *
        ∑ j ∈ range n, (s.smat J).val st en j c * y j := by
      intro c hc
      rw [w3.ent c 0 (by rw [hW2, hd.hW]; exact hc) (by rw [hW2, hd.wW]; decide), hW2,
        w2.ent c 0 (by rw [hJ1]; exact hc) (by decide), hJ1, hd.rows, hx1']
      congr 1
      exact sum_congr rfl (fun j hj => by rw [hx.ent j (mem_range.mp hj)])
    rw [sum_congr rfl (fun c hc => by rw [e5 c (mem_range.mp hc)])]
    simp only [mulV, ← hd.eM, sysMat, gram, mul_sum, sum_mul]
    rw [sum_comm]
    exact sum_congr rfl (fun j _ => sum_congr rfl (fun c _ => by ring))
  · intro p
    refine w4.plain ?_
    rw [w3.only.mat t ht1, w2.only.mat t ht0]
    exact p1 p

/-- What `sufficientlySmall` decides. -/
def Small (maxError minError : ℝ) (n : Nat) (r b : Nat → ℝ) : Prop :=
  ∀ i, i < n → |r i| ≤ max |maxError * b i| minError

open Classical in
theorem cgSmall_spec {st en : Nat} {s : Store ℝ} (ok : Ok st en s) {x t : MId} {n : Nat}
    {r b : Nat → ℝ} (hx : IsVec s x n r) (hb : IsVec s t n b) (e1 e2 : ℝ) :
    s.cgSmall e1 e2 x t = .ok (decide (Small e1 e2 n r b)) := by
  have key : Wp (s.cgSmall e1 e2 x t) (fun q => q = decide (Small e1 e2 n r b)) noErr := by
    rw [Store.cgSmall, hx.height]
    refine (wp_forN (I := fun i q => q = decide (Small e1 e2 i r b)) ?_ ?_)
    · simp [Small]
    · intro i hi q hq
      subst hq
      by_cases hs : Small e1 e2 i r b
      · rw [if_pos (by simpa using hs),
          Store.get_ok s x (ok.mat x) (by rw [hx.width]; decide) (by rw [hx.height]; exact hi),
          ok_bind,
          Store.get_ok s t (ok.mat t) (by rw [hb.width]; decide) (by rw [hb.height]; exact hi),
          ok_bind, wp_pure, hx.ent i hi, hb.ent i hi, fp_abs, fp_abs, fp_fmax]
        have : Small e1 e2 (i + 1) r b ↔ |r i| ≤ max |e1 * b i| e2 := by
          constructor
          · intro h; exact h i (Nat.lt_succ_self i)
          · intro h j hj
            by_cases hji : j = i
            · rw [hji]; exact h
            · exact hs j (by omega)
        by_cases hc : |r i| ≤ max |e1 * b i| e2
        · rw [show Fp.gt |r i| (max |e1 * b i| e2) = false by
            rw [← Bool.not_eq_true, fp_gt]; exact not_lt.mpr hc]
          simp [this.mpr hc]
        · rw [show Fp.gt |r i| (max |e1 * b i| e2) = true by
            rw [fp_gt]; exact not_le.mp hc]
          have hn : ¬ Small e1 e2 (i + 1) r b := fun q => hc (this.mp q)
          simp [hn]
      · rw [if_neg (by simpa using hs), wp_ok]
        have hn : ¬ Small e1 e2 (i + 1) r b := fun q => hs (fun j hj => q j (by omega))
        simp [hn]
  obtain ⟨q, e, h⟩ := wp_noErr_iff.mp key
  rw [e, h]

theorem small_of_zero {n : Nat} {r b : Nat → ℝ} (h : ip n r r = 0) (e1 e2 : ℝ) :
    Small e1 e2 n r b := by
  intro i hi
  rw [ip_self_eq_zero.mp h i hi, abs_zero]
  exact le_trans (abs_nonneg _) (le_max_left _ _)

/-- State between two iterations: `m_x`, `m_r`, `m_p` hold `x`, `r`, `p`. -/
structure CgSt (st en : Nat) (s0 : Store ℝ) (n : Nat) (s : Store ℝ) (x r p : Nat → ℝ) : Prop where
  ok : Ok st en s
  frame : Frame IsCg (fun _ => False) s0 s
  vX : IsVec s .cgX n x
  vR : IsVec s .cgR n r
  vP : IsVec s .cgP n p
  pR : (s.mat .cgR).Plain
  pP : (s.mat .cgP).Plain
  pAp : (s.mat .cgAp).Plain

/-- The vectors after one iteration. -/
noncomputable def cgX' (n : Nat) (M : Nat → Nat → ℝ) (x r p : Nat → ℝ) (i : Nat) : ℝ :=
  x i + p i * (ip n r r / ip n p (mulV n M p))
noncomputable def cgR' (n : Nat) (M : Nat → Nat → ℝ) (r p : Nat → ℝ) (i : Nat) : ℝ :=
  r i + mulV n M p i * -(ip n r r / ip n p (mulV n M p))
noncomputable def cgP' (n : Nat) (M : Nat → Nat → ℝ) (r p : Nat → ℝ) (i : Nat) : ℝ :=
  ip n (cgR' n M r p) (cgR' n M r p) / ip n r r * p i + cgR' n M r p i

open Classical in
/-- One iteration: division by zero, success, or the next state. -/
theorem cgStep_spec {st en : Nat} (hst : 0 < st) {s0 s : Store ℝ} {J : SId} {W right : MId}
    {n : Nat} {M : Nat → Nat → ℝ} {b x r p : Nat → ℝ} (hd : CgData st en s0 J W right n M b)
    (hW : ¬ IsCg W) (hB : ¬ IsCg right) (h : CgSt st en s0 n s x r p) (hr : ip n r r ≠ 0)
    (e1 e2 : ℝ) (k : Nat) :
    (ip n p (mulV n M p) = 0 ∧
      cgLoop st en e1 e2 J W right (k + 1) s = .error .divZero) ∨
    (ip n p (mulV n M p) ≠ 0 ∧ ∃ s', CgSt st en s0 n s' (cgX' n M x r p) (cgR' n M r p)
        (if Small e1 e2 n (cgR' n M r p) b then p else cgP' n M r p) ∧
      cgLoop st en e1 e2 J W right (k + 1) s =
        (if Small e1 e2 n (cgR' n M r p) b then .ok (s', true)
        else cgLoop st en e1 e2 J W right k s')) := by
  have hd' := hd.frame (h.frame.smat J id) (h.frame.mat W hW) (h.frame.mat right hB)
  have hWn : W ≠ .cgAp ∧ W ≠ .cgReg0 := by
    refine ⟨?_, ?_⟩ <;> intro q <;> exact hW (by simp [IsCg, q])
  obtain ⟨s1, q1, ok1, f1, v1, p1⟩ := cgMultiply_spec hst h.ok (x := .cgP) (t := .cgAp) hd' h.vP
    (by decide) (by decide) (by decide) (by decide) hWn.1 hWn.2
  have hR1 : s1.mat .cgR = s.mat .cgR := f1.mat _ (by decide)
  have hP1 : s1.mat .cgP = s.mat .cgP := f1.mat _ (by decide)
  have hX1 : s1.mat .cgX = s.mat .cgX := f1.mat _ (by decide)
  have vR1 := h.vR.congr hR1
  have vP1 := h.vP.congr hP1
  have vX1 := h.vX.congr hX1
  have F1 : Frame IsCg (fun _ => False) s0 s1 := h.frame.trans (f1.mono (fun a q => by
    rcases q with q | q | q <;> simp [IsCg, q]) (fun _ q => q))
  have q2 : s1.vectorMagnitudeSquared .cgR = .ok (ip n r r) := by
    rw [Store.vms_spec s1 .cgR (ok1.mat _) (by rw [hR1]; exact h.pR) vR1.width, vR1.height,
      sumTo_eq, ip]
    congr 1
    exact sum_congr rfl (fun i hi => by rw [vR1.ent i (mem_range.mp hi)])
  have q3 : s1.dot .cgP .cgAp = .ok (ip n p (mulV n M p)) := by
    rw [Store.dot_spec s1 .cgP .cgAp (ok1.mat _) (ok1.mat _) (by rw [hP1]; exact h.pP)
      (p1 h.pAp) vP1.width v1.width (by rw [v1.height, vP1.height]), vP1.height, sumTo_eq, ip]
    congr 1
    exact sum_congr rfl (fun i hi => by rw [vP1.ent i (mem_range.mp hi), v1.ent i (mem_range.mp hi)])
  by_cases hz : ip n p (mulV n M p) = 0
  · left
    refine ⟨hz, ?_⟩
    rw [cgLoop, q1, ok_bind, q2, ok_bind, q3, ok_bind, hz, fp_div_zero]
    rfl
  · right
    refine ⟨hz, ?_⟩
    obtain ⟨s2, q4, w2⟩ := Store.madd_spec s1 .cgX .cgP (ip n r r / ip n p (mulV n M p))
      (ok1.mat _) (ok1.mat _) (by rw [vX1.width, vP1.width]) (by rw [vX1.height, vP1.height])
    have ok2 := ok1.only w2.only w2.wf
    have vX2 : IsVec s2 .cgX n (cgX' n M x r p) := by
      refine ⟨by rw [w2.width, vX1.width], by rw [w2.height, vX1.height], fun i hi => ?_⟩
      rw [w2.ent i 0 (by rw [vX1.height]; exact hi) (by rw [vX1.width]; decide), vX1.ent i hi,
        vP1.ent i hi, cgX']
    have vR2 := vR1.congr (w2.only.mat .cgR (by decide))
    have vA2 := v1.congr (w2.only.mat .cgAp (by decide))
    obtain ⟨s3, q5, w3⟩ := Store.madd_spec s2 .cgR .cgAp (-(ip n r r / ip n p (mulV n M p)))
      (ok2.mat _) (ok2.mat _) (by rw [vR2.width, vA2.width]) (by rw [vR2.height, vA2.height])
    have ok3 := ok2.only w3.only w3.wf
    have vR3 : IsVec s3 .cgR n (cgR' n M r p) := by
      refine ⟨by rw [w3.width, vR2.width], by rw [w3.height, vR2.height], fun i hi => ?_⟩
      rw [w3.ent i 0 (by rw [vR2.height]; exact hi) (by rw [vR2.width]; decide), vR2.ent i hi,
        vA2.ent i hi, cgR']
    have pR2 : (s2.mat .cgR).Plain := by
      rw [w2.only.mat _ (by decide), hR1]; exact h.pR
    have pR3 : (s3.mat .cgR).Plain := w3.plain pR2
    have F3 : Frame IsCg (fun _ => False) s0 s3 :=
      (F1.trans (w2.only.frame (by simp [IsCg]))).trans (w3.only.frame (by simp [IsCg]))
    have vX3 := vX2.congr (w3.only.mat .cgX (by decide))
    have hP3 : s3.mat .cgP = s.mat .cgP := by
      rw [w3.only.mat _ (by decide), w2.only.mat _ (by decide), hP1]
    have vP3 := h.vP.congr hP3
    have vB3 : IsVec s3 right n b := hd.vB.congr (F3.mat right hB)
    have pAp3 : (s3.mat .cgAp).Plain := by
      rw [w3.only.mat _ (by decide), w2.only.mat _ (by decide)]; exact p1 h.pAp
    have hsm := cgSmall_spec ok3 vR3 vB3 e1 e2
    by_cases hs : Small e1 e2 n (cgR' n M r p) b
    · refine ⟨s3, ⟨ok3, F3, vX3, vR3, ?_, pR3, by rw [hP3]; exact h.pP, pAp3⟩, ?_⟩
      · rw [if_pos hs]; exact vP3
      · rw [if_pos hs, cgLoop, q1, ok_bind, q2, ok_bind, q3, ok_bind, fp_div hz, ok_bind, q4,
          ok_bind, q5, ok_bind, hsm, ok_bind, if_pos (by simpa using hs)]
        rfl
    · have q6 : s3.vectorMagnitudeSquared .cgR = .ok (ip n (cgR' n M r p) (cgR' n M r p)) := by
        rw [Store.vms_spec s3 .cgR (ok3.mat _) pR3 vR3.width, vR3.height, sumTo_eq, ip]
        congr 1
        exact sum_congr rfl (fun i hi => by rw [vR3.ent i (mem_range.mp hi)])
      obtain ⟨s4, q7, w4⟩ := Store.pmadd_spec s3 .cgP .cgR
        (ip n (cgR' n M r p) (cgR' n M r p) / ip n r r) (ok3.mat _) (ok3.mat _)
        (by rw [vP3.width, vR3.width]) (by rw [vP3.height, vR3.height])
      have vP4 : IsVec s4 .cgP n (cgP' n M r p) := by
        refine ⟨by rw [w4.width, vP3.width], by rw [w4.height, vP3.height], fun i hi => ?_⟩
        rw [w4.ent i 0 (by rw [vP3.height]; exact hi) (by rw [vP3.width]; decide), vP3.ent i hi,
          vR3.ent i hi, cgP']
      refine ⟨s4, ⟨ok3.only w4.only w4.wf, F3.trans (w4.only.frame (by simp [IsCg])),
        vX3.congr (w4.only.mat _ (by decide)), vR3.congr (w4.only.mat _ (by decide)), ?_,
        by rw [w4.only.mat _ (by decide)]; exact pR3, w4.plain (by rw [hP3]; exact h.pP),
        by rw [w4.only.mat _ (by decide)]; exact pAp3⟩, ?_⟩
      · rw [if_neg hs]; exact vP4
      · rw [if_neg hs, cgLoop, q1, ok_bind, q2, ok_bind, q3, ok_bind, fp_div hz, ok_bind, q4,
          ok_bind, q5, ok_bind, hsm, ok_bind, if_neg (by simpa using hs), q6, ok_bind, fp_div hr,
          ok_bind, q7, ok_bind]

/-- `r` is the residual of `x`. -/
def IsRes (n : Nat) (M : Nat → Nat → ℝ) (b x r : Nat → ℝ) : Prop :=
  ∀ i, i < n → r i = b i - mulV n M x i

theorem IsRes.step {n : Nat} {M : Nat → Nat → ℝ} {b x r : Nat → ℝ} (h : IsRes n M b x r)
    (p : Nat → ℝ) : IsRes n M b (cgX' n M x r p) (cgR' n M r p) := by
  intro i hi
  have : mulV n M (cgX' n M x r p) i = mulV n M x i +
      mulV n M p i * (ip n r r / ip n p (mulV n M p)) := mulV_lin n M x p _ i
  rw [cgR', h i hi, this]
  ring

/-- The loop either divides by zero or returns, with an accurate residual if it reports success. -/
theorem cgLoop_spec {st en : Nat} (hst : 0 < st) {s0 : Store ℝ} {J : SId} {W right : MId}
    {n : Nat} {M : Nat → Nat → ℝ} {b : Nat → ℝ} (hd : CgData st en s0 J W right n M b)
    (hW : ¬ IsCg W) (hB : ¬ IsCg right) (e1 e2 : ℝ) :
    ∀ k s x r p, CgSt st en s0 n s x r p → IsRes n M b x r → ¬ Small e1 e2 n r b →
      cgLoop st en e1 e2 J W right k s = .error .divZero ∨
      ∃ s' c x' r' p', cgLoop st en e1 e2 J W right k s = .ok (s', c) ∧
        CgSt st en s0 n s' x' r' p' ∧ IsRes n M b x' r' ∧ (c = true → Small e1 e2 n r' b) := by
  intro k
  induction k with
  | zero =>
    intro s x r p h hr _
    exact Or.inr ⟨s, false, x, r, p, rfl, h, hr, fun q => (Bool.false_ne_true q).elim⟩
  | succ k ih =>
    intro s x r p h hr hns
    have hrr : ip n r r ≠ 0 := fun q => hns (small_of_zero q e1 e2)
    rcases cgStep_spec hst hd hW hB h hrr e1 e2 k with ⟨_, he⟩ | ⟨_, s', h', he⟩
    · exact Or.inl he
    · by_cases hs : Small e1 e2 n (cgR' n M r p) b
      · rw [if_pos hs] at he
        exact Or.inr ⟨s', true, _, _, _, he, h', hr.step p, fun _ => hs⟩
      · rw [if_neg hs] at he h'
        rw [he]
        exact ih s' _ _ _ h' (hr.step p) hs

/-- The sequence of vectors of an undisturbed run. -/
noncomputable def cgRun (n : Nat) (M : Nat → Nat → ℝ) (x r : Nat → ℝ) :
    Nat → (Nat → ℝ) × (Nat → ℝ) × (Nat → ℝ)
  | 0 => (x, r, r)
  | k + 1 =>
    let q := cgRun n M x r k
    (cgX' n M q.1 q.2.1 q.2.2, cgR' n M q.2.1 q.2.2, cgP' n M q.2.1 q.2.2)

theorem cgRun_seq (n : Nat) (M : Nat → Nat → ℝ) (x r : Nat → ℝ) :
    CgSeq n M (fun k => (cgRun n M x r k).2.1) (fun k => (cgRun n M x r k).2.2) :=
  ⟨fun _ _ => rfl, fun _ _ _ => rfl, fun _ _ _ => rfl⟩

/-- With a positive definite matrix the loop succeeds within `n` iterations. -/
theorem cgLoop_posDef {st en : Nat} (hst : 0 < st) {s0 : Store ℝ} {J : SId} {W right : MId}
    {n : Nat} {M : Nat → Nat → ℝ} {b x r : Nat → ℝ} (hd : CgData st en s0 J W right n M b)
    (hW : ¬ IsCg W) (hB : ¬ IsCg right) (e1 e2 : ℝ) (hM : PosDef n M) :
    ∀ k j s, CgSt st en s0 n s (cgRun n M x r j).1 (cgRun n M x r j).2.1 (cgRun n M x r j).2.2 →
      (∀ i, i ≤ j → ¬ Small e1 e2 n (cgRun n M x r i).2.1 b) → n ≤ j + k →
      ∃ s', cgLoop st en e1 e2 J W right k s = .ok (s', true) := by
  have hseq := cgRun_seq n M x r
  have hne : ∀ j, (∀ i, i ≤ j → ¬ Small e1 e2 n (cgRun n M x r i).2.1 b) → ∀ i, i ≤ j →
      ip n (cgRun n M x r i).2.1 (cgRun n M x r i).2.1 ≠ 0 :=
    fun j h i hi q => h i hi (small_of_zero q e1 e2)
  intro k
  induction k with
  | zero =>
    intro j s h hns hj
    obtain ⟨l, hl, hz⟩ := hseq.ends hM
    exact absurd hz (hne j hns l (by omega))
  | succ k ih =>
    intro j s h hns hj
    have ho := hseq.orth hM j (fun i hi => hne j hns i (by omega))
    have hpp := hM.ip_pos (ho.p_ne (hne j hns j (Nat.le_refl j)))
    rcases cgStep_spec hst hd hW hB h (hne j hns j (Nat.le_refl j)) e1 e2 k with
      ⟨hz, _⟩ | ⟨_, s', h', he⟩
    · exact absurd hz hpp.ne'
    · by_cases hs : Small e1 e2 n (cgR' n M (cgRun n M x r j).2.1 (cgRun n M x r j).2.2) b
      · rw [if_pos hs] at he
        exact ⟨s', he⟩
      · rw [if_neg hs] at he h'
        rw [he]
        refine ih (j + 1) s' h' ?_ (by omega)
        intro i hi
        by_cases hij : i = j + 1
        · subst hij; exact hs
        · exact hns i (by omega)

end Scs
