import Verif.WorldAsmGen
import Verif.SolveGen

/-!
# One evaluation of the generic system
-/

namespace Scs

open Finset

/-- The coefficient of row `f` in the time derivative of the Jacobian. -/
noncomputable def World.jd (w : World ℝ) (B : Nat → Nat → Nat) (out : Nat → Output ℝ) (f : Nat)
    (q : Coord) (i : Nat) : ℝ :=
  ∑ k ∈ range (w.rowN f),
    if B (w.rowC f) k % 256 ≠ 255 ∧ i = B (w.rowC f) k % 256 then
      (out (w.rowI f)).J_dot (w.rowK f) (k * 3 + q.d) else 0

/-- Row `f` of the time derivative of the Jacobian applied to the velocities `u`. -/
noncomputable def World.rowD (w : World ℝ) (B : Nat → Nat → Nat) (out : Nat → Output ℝ) (f : Nat)
    (u : Coord → Nat → ℝ) : ℝ :=
  ∑ i ∈ range w.bodyCount, Coord.sum (fun q => w.jd B out f q i * u q i)

/-- The right hand side of the generic system. -/
noncomputable def World.genRhs (w : World ℝ) (B : Nat → Nat → Nat) (out : Nat → Output ℝ)
    (s : SysState ℝ) (f : Nat) : ℝ :=
  -w.rowD B out f (fun q i => s.val q.v i) -
    w.rowV B out f (fun q i => s.val q.f i / w.massAt q i) -
    (out (w.rowI f)).ks (w.rowK f) * (out (w.rowI f)).C (w.rowK f) -
    (out (w.rowI f)).kd (w.rowK f) * w.rowV B out f (fun q i => s.val q.v i)

section
variable {w : World ℝ} {B : Nat → Nat → Nat}

theorem gen_val (hfit : w.Fit B) {m : SMat ℝ} {g : Nat → Nat → ℝ} {f : Nat} (hf : f < w.fullCount)
    (hblk : ∀ j, j < 2 → m.blk 2 f j = if f < w.fullCount ∧ j < w.rowN f then
      B (w.rowC f) j % 256 else 255)
    (hent : ∀ q, q < w.rowN f * 3 → m.ent f q = g f q) (q : Coord) (i : Nat) :
    m.val 3 2 f (q.row i) =
      ∑ k ∈ range (w.rowN f), if B (w.rowC f) k % 256 ≠ 255 ∧ i = B (w.rowC f) k % 256 then
        g f (k * 3 + q.d) else 0 := by
  obtain ⟨h2, hb⟩ := hfit.rowB hf
  rw [SMat.val, q.row_div, q.row_mod]
  have : ∀ k, k < 2 → (if m.blk 2 f k ≠ 255 ∧ i = m.blk 2 f k then
      m.ent f (k * 3 + q.d) else 0) = if k < w.rowN f then
        (if B (w.rowC f) k % 256 ≠ 255 ∧ i = B (w.rowC f) k % 256 then
          g f (k * 3 + q.d) else 0) else 0 := by
    intro k hk
    have hbk := hblk k hk
    by_cases hkn : k < w.rowN f
    · rw [if_pos ⟨hf, hkn⟩] at hbk
      rw [hbk, if_pos hkn, hent _ (by have := q.d_lt; omega)]
    · rw [if_neg (fun q => hkn q.2)] at hbk
      rw [hbk, if_neg hkn]; simp
  rw [sum_congr rfl (fun k hk => this k (mem_range.mp hk)), ← sum_filter]
  congr 1
  ext k
  simp only [mem_filter, mem_range]
  omega

theorem GenRows_val (hfit : w.Fit B) {out : Nat → Output ℝ} {mem0 mem : Store ℝ}
    (h : w.GenRows B out mem0 w.fullCount mem) {f : Nat} (hf : f < w.fullCount) (q : Coord)
    (i : Nat) : (mem.smat .ivJ).val 3 2 f (q.row i) = w.jb B out f q i ∧
      (mem.smat .ivJdot).val 3 2 f (q.row i) = w.jd B out f q i :=
  ⟨gen_val hfit (g := fun f q => (out (w.rowI f)).J (w.rowK f) q) hf
      (fun j hj => (h.dims _ (Or.inl rfl)).2.2 f j hf hj) (fun q hq => h.ent f q hf hq) q i,
    gen_val hfit (g := fun f q => (out (w.rowI f)).J_dot (w.rowK f) q) hf
      (fun j hj => (h.dims _ (Or.inr rfl)).2.2 f j hf hj) (fun q hq => h.dot f q hf hq) q i⟩

theorem GenRows_inRange (hfit : w.Fit B) {out : Nat → Output ℝ} {mem0 mem : Store ℝ}
    (h : w.GenRows B out mem0 w.fullCount mem) {t : SId} (ht : t = .ivJ ∨ t = .ivJdot) :
    (mem.smat t).InRange 3 2 := by
  obtain ⟨d1, d2, d3⟩ := h.dims t ht
  intro f j hf hj
  rw [d2] at hf
  rw [d3 f j hf hj, d1]
  by_cases hjn : j < w.rowN f
  · obtain ⟨h2, hb⟩ := hfit.rowB hf
    have := hb j hjn
    rw [if_pos ⟨hf, hjn⟩]
    beta_reduce
    omega
  · rw [if_neg (fun q => hjn q.2)]; left; rfl

/-- The gains: `kd` becomes `kd (J q')`, `ks` becomes `ks C`. -/
theorem genGains_spec {mem : Store ℝ} (hi : Inv 3 2 sysRestr mem) {n m : Nat}
    (hJ : (mem.smat .ivJ).InRange 3 2) (wJ : (mem.smat .ivJ).width = n)
    (hJh : (mem.smat .ivJ).height = m)
    (wQ : (mem.mat .ivQdot).width = 1) (hQ : (mem.mat .ivQdot).height = n)
    (hv : ∀ a, a = .ivKs ∨ a = .ivKd ∨ a = .ivC → (mem.mat a).width = 1 ∧ (mem.mat a).height = m) :
    ∃ mem', genGains m mem = .ok mem' ∧ Inv 3 2 sysRestr mem' ∧
      Frame (fun a => a = .ivReg0 ∨ a = .ivKd ∨ a = .ivKs) (fun _ => False) mem mem' ∧
      (∀ a, a = .ivKs ∨ a = .ivKd → (mem'.mat a).width = 1 ∧ (mem'.mat a).height = m) ∧
      ∀ f, f < m → (mem'.mat .ivKd).ent f 0 = (mem.mat .ivKd).ent f 0 *
          (∑ c ∈ range n, (mem.smat .ivJ).val 3 2 f c * (mem.mat .ivQdot).ent c 0) ∧
        (mem'.mat .ivKs).ent f 0 = (mem.mat .ivKs).ent f 0 * (mem.mat .ivC).ent f 0 := by
  obtain ⟨m1, e1, w1⟩ := Store.smultiply_spec 3 2 (by decide) mem .ivJ .ivQdot .ivReg0
    (by decide) (hi.smat _) (hi.mat _) hJ (hi.mat _) (by rw [wJ, hQ])
  have i1 := hi.wrote w1
  rw [wQ, hJh, wJ] at w1
  have hv1 : ∀ a, a = .ivKs ∨ a = .ivKd ∨ a = .ivC → m1.mat a = mem.mat a := by
    rintro a (rfl | rfl | rfl) <;> exact w1.only.mat _ (by decide)
  apply wp_noErr_iff.1
  rw [genGains, e1, ok_bind]
  refine wp_forN' (fun i (z : Store ℝ) => Inv 3 2 sysRestr z ∧
    Frame (fun a => a = .ivKd ∨ a = .ivKs) (fun _ => False) m1 z ∧
    (m1.mat .ivKd).SameShape (z.mat .ivKd) ∧ (m1.mat .ivKs).SameShape (z.mat .ivKs) ∧
    ∀ f, f < m → (z.mat .ivKd).ent f 0 = (if f < i then (m1.mat .ivKd).ent f 0 *
        (m1.mat .ivReg0).ent f 0 else (m1.mat .ivKd).ent f 0) ∧
      (z.mat .ivKs).ent f 0 = (if f < i then (m1.mat .ivKs).ent f 0 * (m1.mat .ivC).ent f 0
        else (m1.mat .ivKs).ent f 0))
    ⟨i1, Frame.refl _ _ _, Mat.SameShape.refl _, Mat.SameShape.refl _, fun f _ => by simp⟩ ?_ ?_
  · rintro i hi z ⟨iz, fz, sd, ss, ez⟩
    have dKd : (z.mat .ivKd).width = 1 ∧ (z.mat .ivKd).height = m := by
      rw [sd.width, sd.height, hv1 _ (by simp)]; exact hv _ (by simp)
    have dKs : (z.mat .ivKs).width = 1 ∧ (z.mat .ivKs).height = m := by
      rw [ss.width, ss.height, hv1 _ (by simp)]; exact hv _ (by simp)
    have zC : z.mat .ivC = m1.mat .ivC := fz.mat _ (by simp)
    have zR : z.mat .ivReg0 = m1.mat .ivReg0 := fz.mat _ (by simp)
    have dC : (m1.mat .ivC).width = 1 ∧ (m1.mat .ivC).height = m := by
      rw [hv1 _ (by simp)]; exact hv _ (by simp)
    rw [Store.get_ok z .ivKd (iz.mat _) (by rw [dKd.1]; decide) (by rw [dKd.2]; exact hi), ok_bind,
      Store.get_ok z .ivReg0 (iz.mat _) (by rw [zR, w1.width]; decide)
        (by rw [zR, w1.height]; exact hi), ok_bind]
    obtain ⟨z1, e2, o2, _, s2, v2⟩ := Store.set_spec z .ivKd (iz.mat _) (c := 0) (r := i)
      (by rw [dKd.1]; decide) (by rw [dKd.2]; exact hi)
      ((z.mat .ivKd).ent i 0 * (z.mat .ivReg0).ent i 0)
    have j1 := iz.shaped o2 s2
    have k1 : z1.mat .ivKs = z.mat .ivKs := o2.mat _ (by decide)
    have k2 : z1.mat .ivC = z.mat .ivC := o2.mat _ (by decide)
    rw [e2, ok_bind, Store.get_ok z1 .ivKs (j1.mat _) (by rw [k1, dKs.1]; decide)
      (by rw [k1, dKs.2]; exact hi), ok_bind, Store.get_ok z1 .ivC (j1.mat _)
      (by rw [k2, zC, dC.1]; decide) (by rw [k2, zC, dC.2]; exact hi), ok_bind]
    obtain ⟨z2, e3, o3, _, s3, v3⟩ := Store.set_spec z1 .ivKs (j1.mat _) (c := 0) (r := i)
      (by rw [k1, dKs.1]; decide) (by rw [k1, dKs.2]; exact hi)
      ((z1.mat .ivKs).ent i 0 * (z1.mat .ivC).ent i 0)
    have j2 := j1.shaped o3 s3
    rw [k1, k2, zC] at v3
    rw [k1] at s3
    rw [zR] at v2
    have k3 : z2.mat .ivKd = z1.mat .ivKd := o3.mat _ (by decide)
    refine Wp.of_ok e3 ⟨j2, ⟨fun a ha => ?_, fun a ha => ?_⟩, ?_, ss.trans s3, fun f hf => ⟨?_, ?_⟩⟩
    · rw [o3.mat _ (fun q => ha (Or.inr q)), o2.mat _ (fun q => ha (Or.inl q)), fz.mat a ha]
    · rw [o3.smat, o2.smat, fz.smat a ha]
    · rw [k3]; exact sd.trans s2
    · rw [k3, v2 f 0 (by rw [dKd.2]; exact hf) (by rw [dKd.1]; decide)]
      by_cases hfi : f = i
      · subst hfi
        rw [if_pos ⟨rfl, rfl⟩, if_pos (by omega), (ez f hf).1, if_neg (by omega)]
      · rw [if_neg (fun q => hfi q.1), (ez f hf).1]
        by_cases h1 : f < i
        · rw [if_pos h1, if_pos (by omega)]
        · rw [if_neg h1, if_neg (by omega)]
    · rw [v3 f 0 (by rw [dKs.2]; exact hf) (by rw [dKs.1]; decide)]
      by_cases hfi : f = i
      · subst hfi
        rw [if_pos ⟨rfl, rfl⟩, if_pos (by omega), (ez f hf).2, if_neg (by omega)]
      · rw [if_neg (fun q => hfi q.1), (ez f hf).2]
        by_cases h1 : f < i
        · rw [if_pos h1, if_pos (by omega)]
        · rw [if_neg h1, if_neg (by omega)]
  · rintro z ⟨iz, fz, sd, ss, ez⟩
    refine ⟨iz, ⟨fun a ha => ?_, fun a ha => ?_⟩, ?_, fun f hf => ?_⟩
    · simp only [not_or] at ha
      rw [fz.mat a (by simp [ha.2.1, ha.2.2]), w1.only.mat a ha.1]
    · rw [fz.smat a ha, w1.only.smat]
    · rintro a (rfl | rfl)
      · rw [ss.width, ss.height, hv1 _ (by simp)]; exact hv _ (by simp)
      · rw [sd.width, sd.height, hv1 _ (by simp)]; exact hv _ (by simp)
    · obtain ⟨a1, a2⟩ := ez f hf
      rw [if_pos hf] at a1 a2
      rw [a1, a2, w1.ent f 0 hf (by decide), hv1 _ (by simp), hv1 .ivKs (by simp),
        hv1 .ivC (by simp)]
      exact ⟨rfl, rfl⟩

/-- The chain of matrix operations computing the right hand side. -/
theorem genRight_spec {mem : Store ℝ} (hi : Inv 3 2 sysRestr mem) {n m : Nat}
    (hJ : ∀ t, t = .ivJ ∨ t = .ivJdot → (mem.smat t).InRange 3 2 ∧ (mem.smat t).width = n ∧
      (mem.smat t).height = m)
    (wF : (mem.mat .ivFExt).width = 1) (hF : (mem.mat .ivFExt).height = n)
    (wM : (mem.mat .ivMinv).width = 1) (hM : (mem.mat .ivMinv).height = n)
    (wQ : (mem.mat .ivQdot).width = 1) (hQ : (mem.mat .ivQdot).height = n)
    (hv : ∀ a, a = .ivKs ∨ a = .ivKd → (mem.mat a).width = 1 ∧ (mem.mat a).height = m) :
    ∃ mem', genRight mem = .ok mem' ∧ Inv 3 2 sysRestr mem' ∧
      Frame (fun a => a = .ivReg0 ∨ a = .ivReg1 ∨ a = .ivReg2 ∨ a = .ivRight)
        (fun _ => False) mem mem' ∧
      (mem'.mat .ivRight).width = 1 ∧ (mem'.mat .ivRight).height = m ∧
      ∀ f, f < m → (mem'.mat .ivRight).ent f 0 =
        -(∑ c ∈ range n, (mem.smat .ivJdot).val 3 2 f c * (mem.mat .ivQdot).ent c 0) -
        (∑ c ∈ range n, (mem.smat .ivJ).val 3 2 f c * ((mem.mat .ivMinv).ent c 0 *
          (mem.mat .ivFExt).ent c 0)) - (mem.mat .ivKs).ent f 0 - (mem.mat .ivKd).ent f 0 := by
  obtain ⟨rJ, wJ, hJh⟩ := hJ .ivJ (Or.inl rfl)
  obtain ⟨rD, wD, hDh⟩ := hJ .ivJdot (Or.inr rfl)
  obtain ⟨wks, hks⟩ := hv .ivKs (Or.inl rfl)
  obtain ⟨wkd, hkd⟩ := hv .ivKd (Or.inr rfl)
  obtain ⟨m1, e1, w1⟩ := Store.leftScale_spec mem .ivFExt .ivMinv .ivReg2 (by decide) (hi.mat _)
    (hi.mat _) (hi.mat _) wM (by rw [hM, hF])
  have i1 := hi.wrote w1
  rw [wF, hF] at w1
  have sm1 : m1.smat = mem.smat := w1.only.smat
  obtain ⟨m2, e2, w2⟩ := Store.smultiply_spec 3 2 (by decide) m1 .ivJ .ivReg2 .ivReg0
    (by decide) (i1.smat _) (i1.mat _) (by rw [sm1]; exact rJ) (i1.mat _)
    (by rw [sm1, wJ, w1.height])
  have i2 := i1.wrote w2
  rw [w1.width, sm1, hJh, wJ] at w2
  have sm2 : m2.smat = mem.smat := w2.only.smat.trans sm1
  have Q2 : m2.mat .ivQdot = mem.mat .ivQdot := by
    rw [w2.only.mat _ (by decide), w1.only.mat _ (by decide)]
  obtain ⟨m3, e3, w3⟩ := Store.smultiply_spec 3 2 (by decide) m2 .ivJdot .ivQdot .ivReg2
    (by decide) (i2.smat _) (i2.mat _) (by rw [sm2]; exact rD) (i2.mat _)
    (by rw [sm2, wD, Q2, hQ])
  have i3 := i2.wrote w3
  rw [Q2, wQ, sm2, hDh, wD] at w3
  obtain ⟨m4, e4, w4⟩ := Store.negate_spec m3 .ivReg2 .ivReg1 (i3.mat _) (i3.mat _)
  have i4 := i3.wrote w4
  rw [w3.width, w3.height] at w4
  have R4 : m4.mat .ivReg0 = m2.mat .ivReg0 := by
    rw [w4.only.mat _ (by decide), w3.only.mat _ (by decide)]
  obtain ⟨m5, e5, w5⟩ := Store.subtract_spec m4 .ivReg1 .ivReg0 .ivReg2 (i4.mat _) (i4.mat _)
    (i4.mat _) (by rw [R4, w2.width, w4.width]) (by rw [R4, w2.height, w4.height])
  have i5 := i4.wrote w5
  rw [w4.width, w4.height, R4] at w5
  have S5 : m5.mat .ivKs = mem.mat .ivKs := by
    rw [w5.only.mat _ (by decide), w4.only.mat _ (by decide), w3.only.mat _ (by decide),
      w2.only.mat _ (by decide), w1.only.mat _ (by decide)]
  obtain ⟨m6, e6, w6⟩ := Store.subtract_spec m5 .ivReg2 .ivKs .ivReg0 (i5.mat _) (i5.mat _)
    (i5.mat _) (by rw [S5, wks, w5.width]) (by rw [S5, hks, w5.height])
  have i6 := i5.wrote w6
  rw [w5.width, w5.height, S5] at w6
  have D6 : m6.mat .ivKd = mem.mat .ivKd := by
    rw [w6.only.mat _ (by decide), w5.only.mat _ (by decide), w4.only.mat _ (by decide),
      w3.only.mat _ (by decide), w2.only.mat _ (by decide), w1.only.mat _ (by decide)]
  obtain ⟨m7, e7, w7⟩ := Store.subtract_spec m6 .ivReg0 .ivKd .ivRight (i6.mat _) (i6.mat _)
    (i6.mat _) (by rw [D6, wkd, w6.width]) (by rw [D6, hkd, w6.height])
  have i7 := i6.wrote w7
  rw [w6.width, w6.height, D6] at w7
  refine ⟨m7, by rw [genRight, e1, ok_bind, e2, ok_bind, e3, ok_bind, e4, ok_bind, e5, ok_bind, e6,
    ok_bind, e7], i7, ⟨fun a ha => ?_, fun a _ => ?_⟩, w7.width, w7.height, fun f hf => ?_⟩
  · simp only [not_or] at ha
    rw [w7.only.mat _ ha.2.2.2, w6.only.mat _ ha.1, w5.only.mat _ ha.2.2.1, w4.only.mat _ ha.2.1,
      w3.only.mat _ ha.2.2.1, w2.only.mat _ ha.1, w1.only.mat _ ha.2.2.1]
  · rw [w7.only.smat, w6.only.smat, w5.only.smat, w4.only.smat, w3.only.smat, w2.only.smat,
      w1.only.smat]
  · rw [w7.ent f 0 hf (by decide), w6.ent f 0 hf (by decide), w5.ent f 0 hf (by decide),
      w4.ent f 0 hf (by decide), w3.ent f 0 hf (by decide), w2.ent f 0 hf (by decide)]
    congr 3
    refine sum_congr rfl (fun c hc => ?_)
    rw [w1.ent c 0 (mem_range.mp hc) (by decide)]

/-- Conditions under which a solver of the generic system certainly succeeds. -/
def Solver.SureU (sv : Solver ℝ) (n : Nat) (M : Nat → Nat → ℝ) (lam : Mat ℝ) : Prop :=
  (0 < n → sv.EasyU n M) ∧ (n = 0 → sv.Easy0 lam)

theorem genSolve_wp {w : World ℝ} {mem : Store ℝ} {n : Nat}
    (h : SleIn 3 2 mem .ivJ .ivMinv .ivRight n) (hi : Inv 3 2 sysRestr mem)
    (hlam : LamOk mem) {E : Err → Prop} (hnull : w.sle = none → E .null)
    (hE : ∀ sv, w.sle = some sv → sv.SureU n (sysMat 3 2 mem .ivJ .ivMinv) (mem.mat .ivLambda) ∨
      ∀ e, E e) :
    Wp (w.genSolve mem) (fun mem' => Inv 3 2 sysRestr mem' ∧ LamOk mem' ∧
      (∀ a, a = .ivFExt ∨ a = .ivMinv → mem'.mat a = mem.mat a) ∧
      (mem'.smat .ivSreg0).height = n ∧
      ∃ sv, w.sle = some sv ∧
        sv.Kept n (mem.mat .ivLambda) (mem'.mat .ivLambda) ∧
        ∃ lam : Nat → ℝ,
        (0 < n → sv.SolvedU n (sysMat 3 2 mem .ivJ .ivMinv) (fun i => (mem.mat .ivRight).ent i 0)
          lam) ∧
        ∀ f j k, f < n → j < 2 → k < 3 → (mem.smat .ivJ).blk 2 f j ≠ 255 →
          (mem'.smat .ivSreg0).ent f (j * 3 + k) =
            lam f * (mem.smat .ivJ).ent f (j * 3 + k)) E := by
  rw [World.genSolve]
  cases hsv : w.sle with
  | none => exact hnull hsv
  | some sv =>
    simp only [deref, ok_bind]
    rw [wp_bind]
    -- the part after the solver call
    have rest : ∀ q : Store ℝ × Bool, Inv 3 2 sysRestr q.1 →
        Frame (fun m => m = .ivLambda ∨ sv.Own m) sv.OwnS mem q.1 →
        (q.2 = true ∨ ∀ e, E e) → ((q.1.mat .ivLambda).height = n ∨ ∀ e, E e) →
        (q.2 = true → 0 < n → (q.1.mat .ivLambda).width = 1) →
        (n = 0 → sv.Easy0 (mem.mat .ivLambda) → sv.Easy0 (q.1.mat .ivLambda)) →
        (n = 0 → (q.1.mat .ivLambda).height = 0 → sv.Need0 (mem.mat .ivLambda)) →
        (q.2 = true → 0 < n → sv.SolvedU n (sysMat 3 2 mem .ivJ .ivMinv)
          (fun i => (mem.mat .ivRight).ent i 0)
          (fun i => (q.1.mat .ivLambda).ent i 0)) →
        Wp (do
          chk (q.2 = true) "generic_rigid_body_system.cpp:188"
          q.1.sleftScale 3 2 .ivJ .ivLambda .ivSreg0) (fun mem' => Inv 3 2 sysRestr mem' ∧
          LamOk mem' ∧ (∀ a, a = .ivFExt ∨ a = .ivMinv → mem'.mat a = mem.mat a) ∧
          (mem'.smat .ivSreg0).height = n ∧
          ∃ sv', some sv = some sv' ∧
            sv'.Kept n (mem.mat .ivLambda) (mem'.mat .ivLambda) ∧
            ∃ lam : Nat → ℝ,
            (0 < n → sv'.SolvedU n (sysMat 3 2 mem .ivJ .ivMinv)
              (fun i => (mem.mat .ivRight).ent i 0) lam) ∧
            ∀ f j k, f < n → j < 2 → k < 3 → (mem.smat .ivJ).blk 2 f j ≠ 255 →
              (mem'.smat .ivSreg0).ent f (j * 3 + k) =
                lam f * (mem.smat .ivJ).ent f (j * 3 + k)) E := by
      intro q hqi hqf hq1 hq2 hq3 hq5 hq6 hq4
      by_cases hc : q.2 = true
      · rw [chk_true _ hc, ok_bind]
        have hJ1 : q.1.smat .ivJ = mem.smat .ivJ := by
          rw [hqf.smat _ (ownS_not (Or.inl rfl))]
        by_cases hh : (q.1.mat .ivLambda).height = n
        · have hwd : (q.1.mat .ivLambda).width = 1 ∨ (q.1.smat .ivJ).height = 0 := by
            rw [hJ1, h.rows]
            rcases Nat.eq_zero_or_pos n with hn | hn
            · exact Or.inr hn
            · exact Or.inl (hq3 hc hn)
          obtain ⟨m2, e2, w2⟩ := Store.sleftScale_spec 3 2 (by decide) q.1 .ivJ .ivSreg0 .ivLambda
            (by decide) (hqi.smat _) (by rw [hJ1]; exact h.inRange) (hqi.smat _) (hqi.sfresh _)
            (hqi.mat _) hwd (by rw [hJ1, h.rows, hh])
          have i2 := hqi.swrote w2
          have hl2 : m2.mat .ivLambda = q.1.mat .ivLambda := by rw [w2.only.mat]
          rw [e2, wp_ok]
          refine ⟨i2, ?_, fun a ha => ?_, by rw [w2.height, hJ1, h.rows], sv, rfl, ?_,
            fun i => (q.1.mat .ivLambda).ent i 0, hq4 hc, fun f j k hf hj hk hb => ?_⟩
          · unfold LamOk
            rw [hl2, hh]
            rcases Nat.eq_zero_or_pos n with hn | hn
            · exact Or.inl hn
            · exact Or.inr (hq3 hc hn)
          · rw [w2.only.mat, hqf.mat _ (own_not (by rcases ha with rfl | rfl <;> simp))]
          · rw [hl2]; exact ⟨hh, hq5, fun h0 => hq6 h0 (hh.trans h0)⟩
          · rw [w2.ent f j k (by rw [hJ1, h.rows]; exact hf) hj hk (by rw [hJ1]; exact hb), hJ1]
        · have hEa : ∀ e, E e := hq2.resolve_left hh
          rw [Store.sleftScale]
          by_cases hw1 : (q.1.mat .ivLambda).width = 1 ∨ (q.1.smat .ivJ).height = 0
          · rw [chk_true _ hw1, ok_bind, chk_false _ (by rw [hJ1, h.rows]; exact hh)]
            exact hEa _
          · rw [chk_false _ hw1]
            exact hEa _
      · rw [chk_false _ hc]
        exact (hq1.resolve_left hc) _
    rcases Nat.eq_zero_or_pos n with hn | hn
    · subst hn
      refine (genCall_zero sv h hi ((hE sv hsv).imp_left fun q => q.2 rfl)).mono ?_ (fun _ q => q)
      rintro q ⟨q1, q2, q3, q4⟩
      refine rest q q1 q2 ((hE sv hsv).imp_left fun p => (q3 (p.2 rfl)).1)
        ((hE sv hsv).imp_left fun p => (q3 (p.2 rfl)).2.1) (fun _ p => absurd p (Nat.lt_irrefl 0))
        (fun _ p => (q3 p).2.2) (fun _ p => q4 p) (fun _ p => absurd p (Nat.lt_irrefl 0))
    · refine (genCall_wp sv h hi (fun q => ?_) hn ((hE sv hsv).imp_left fun q => q.1 hn)).mono
        ?_ (fun _ q => q)
      · rcases hlam with q' | q'
        · omega
        · exact q'
      · rintro q ⟨q1, q2, q3, q4⟩
        by_cases hc : q.2 = true
        · obtain ⟨q5, q6, q7⟩ := q4 hc
          exact rest q q1 q2 (Or.inl hc) (Or.inl q6) (fun _ _ => q5) (fun p => by omega)
            (fun p => by omega) (fun _ _ => q7)
        · have hEa : ∀ e, E e := (hE sv hsv).resolve_left (fun p => hc (q3 (p.1 hn)))
          rw [chk_false _ hc]
          exact hEa _

end

/-- The effect of `processConstraints` of the generic system on the state: the multipliers `lam`
belong to the constraints evaluated in `s`, the reactions are `lam` times the Jacobian and the
accelerations are those of external forces and reactions together. -/
structure World.GenEff (w : World ℝ) (B : Nat → Nat → Nat) (s s' : SysState ℝ)
    (out : Nat → Output ℝ) (lam : Nat → ℝ) : Prop where
  eval : w.Calc s out
  solved : ∃ sv, w.sle = some sv ∧ (0 < w.fullCount → sv.SolvedU w.fullCount (w.sysM B out)
    (w.genRhs B out s) lam)
  react : ∀ (q : Coord) f j, f < w.fullCount → j < w.rowN f → B (w.rowC f) j % 256 ≠ 255 →
    s'.rval q.r (f * 2 + j) = lam f * (out (w.rowI f)).J (w.rowK f) (j * 3 + q.d)
  acc : ∀ (q : Coord) i, i < w.bodyCount →
    s'.val q.a i = (s.val q.f i + w.reactSum B s'.rval w.fullCount q i) / w.massAt q i
  keep : ∀ f i, ¬ f.IsAcc → s'.val f i = s.val f i
  wf : s'.Wf
  n : s'.n = s.n
  nc : s'.nc = s.nc

theorem sysMat_gen {w : World ℝ} {B : Nat → Nat → Nat} (hfit : w.Fit B)
    {out : Nat → Output ℝ} {mem0 mem mem' : Store ℝ}
    (h : w.GenRows B out mem0 w.fullCount mem) (hm : w.Masses mem')
    (eJ : mem'.smat .ivJ = mem.smat .ivJ) {f g : Nat} (hf : f < w.fullCount)
    (hg : g < w.fullCount) : sysMat 3 2 mem' .ivJ .ivMinv f g = w.sysM B out f g := by
  rw [sysMat, gram, eJ, (h.dims _ (Or.inl rfl)).1, Nat.mul_comm, sum_cols, World.sysM]
  refine Finset.sum_congr rfl (fun i hi => Coord.sum_congr (fun q => ?_))
  rw [(GenRows_val hfit h hf q i).1, (GenRows_val hfit h hg q i).1, hm.ent q i (mem_range.mp hi)]
  rfl

theorem genConstraints_wp {w : World ℝ} {B : Nat → Nat → Nat} (hfit : w.Fit B) (hid : w.NoIdle)
    {raw : Output ℝ} {mem : Store ℝ} {s : SysState ℝ} (hinv : Inv 3 2 sysRestr mem)
    (hm : w.Masses mem) (hlam : LamOk mem) (hs : s.Wf) (hn : w.bodyCount ≤ s.n)
    (hc : w.fullCount ≤ s.nc) {E : Err → Prop}
    (hcalc : ∀ c ∈ w.cs, ∀ o, Wp ((w.cons c).kind.calculate ((w.cons c).idx w.bodies) o s)
      (fun _ => True) E)
    (hnull : w.sle = none → E .null)
    (hE : ∀ sv, w.sle = some sv → ∀ out, w.Calc s out →
      sv.SureU w.fullCount (w.sysM B out) (mem.mat .ivLambda) ∨ ∀ e, E e) :
    Wp (w.genConstraints raw mem s) (fun q => Inv 3 2 sysRestr q.1 ∧ w.Masses q.1 ∧
      LamOk q.1 ∧ (∀ sv, w.sle = some sv →
        sv.Kept w.fullCount (mem.mat .ivLambda) (q.1.mat .ivLambda)) ∧
      ∃ out lam, w.GenEff B s q.2 out lam) E := by
  obtain ⟨m0, e0, i0, o0, w0, h0, v0⟩ := loadQdot_spec hs hn hinv
  rw [World.genConstraints, e0, ok_bind, wp_bind]
  refine (genAssemble_wp hfit hid i0 hcalc).mono ?_ (fun _ q => q)
  rintro m1 ⟨out, hout, ha⟩
  have dJ := ha.dims .ivJ (Or.inl rfl)
  have dD := ha.dims .ivJdot (Or.inr rfl)
  have Q1 : m1.mat .ivQdot = m0.mat .ivQdot := ha.frame.mat _ (by simp)
  obtain ⟨m2, e2, i2, f2, v2, g2⟩ := genGains_spec (n := w.bodyCount * 3) (m := w.fullCount) ha.inv
    (GenRows_inRange hfit ha (Or.inl rfl)) (by rw [dJ.1, Nat.mul_comm]) dJ.2.1
    (by rw [Q1]; exact w0) (by rw [Q1]; exact h0) ha.vec
  obtain ⟨m3, e3, i3, o3, w3, h3, v3⟩ := loadFext_spec hs hn i2
  have sm3 : ∀ t, m3.smat t = m1.smat t := fun t => by rw [o3.smat, f2.smat _ id]
  have hM3 : m3.mat .ivMinv = mem.mat .ivMinv := by
    rw [o3.mat _ (by decide), f2.mat _ (by simp), ha.frame.mat _ (by simp), o0.mat _ (by decide)]
  have hL3 : m3.mat .ivLambda = mem.mat .ivLambda := by
    rw [o3.mat _ (by decide), f2.mat _ (by simp), ha.frame.mat _ (by simp), o0.mat _ (by decide)]
  have hQ3 : m3.mat .ivQdot = m0.mat .ivQdot := by
    rw [o3.mat _ (by decide), f2.mat _ (by simp), Q1]
  have k3 : ∀ a, a = MId.ivKs ∨ a = .ivKd → m3.mat a = m2.mat a := by
    rintro a (rfl | rfl) <;> rw [o3.mat _ (by decide)]
  have hm3 := hm.frame hM3
  obtain ⟨m4, e4, i4, f4, w4, h4, v4⟩ := genRight_spec (n := w.bodyCount * 3) (m := w.fullCount) i3
    (fun t ht => by
      rw [sm3 t]
      refine ⟨GenRows_inRange hfit ha ht, ?_, (ha.dims t ht).2.1⟩
      rw [(ha.dims t ht).1, Nat.mul_comm])
    w3 h3 hm3.width hm3.height (by rw [hQ3]; exact w0) (by rw [hQ3]; exact h0)
    (fun a q => by rw [k3 a q]; exact v2 a q)
  rw [e2, ok_bind, e3, ok_bind, e4, ok_bind]
  have hJ4 : m4.smat .ivJ = m1.smat .ivJ := by rw [f4.smat _ id, sm3]
  have hM4 : m4.mat .ivMinv = mem.mat .ivMinv := by rw [f4.mat _ (by simp), hM3]
  have hL4 : m4.mat .ivLambda = mem.mat .ivLambda := by rw [f4.mat _ (by simp), hL3]
  have hF4 : m4.mat .ivFExt = m3.mat .ivFExt := f4.mat _ (by simp)
  have hm4 := hm.frame hM4
  have hsle : SleIn 3 2 m4 .ivJ .ivMinv .ivRight w.fullCount :=
    ⟨i4.ok, by rw [hJ4]; exact GenRows_inRange hfit ha (Or.inl rfl), by rw [hJ4]; exact dJ.2.1,
      hm4.width, by rw [hm4.height, hJ4, dJ.1, Nat.mul_comm], w4, h4⟩
  have hMs : ∀ f g, f < w.fullCount → g < w.fullCount →
      sysMat 3 2 m4 .ivJ .ivMinv f g = w.sysM B out f g := fun f g hf hg =>
    sysMat_gen hfit ha hm4 hJ4 hf hg
  have hqd : ∀ (q : Coord) i, i < w.bodyCount → (m0.mat .ivQdot).ent (q.row i) 0 = s.val q.v i := v0
  have hR : ∀ f, f < w.fullCount → (m4.mat .ivRight).ent f 0 = w.genRhs B out s f := by
    intro f hf
    rw [v4 f hf, World.genRhs, k3 _ (Or.inl rfl), k3 _ (Or.inr rfl), (g2 f hf).1, (g2 f hf).2,
      ha.gs f hf, ha.gd f hf, ha.err f hf, sum_cols, sum_cols, sum_cols, World.rowD, World.rowV,
      World.rowV, hQ3, Q1, sm3, sm3]
    have a1 : ∀ i ∈ range w.bodyCount, Coord.sum (fun q => (m1.smat .ivJdot).val 3 2 f (q.row i) *
        (m0.mat .ivQdot).ent (q.row i) 0) = Coord.sum (fun q => w.jd B out f q i * s.val q.v i) :=
      fun i hi => Coord.sum_congr (fun q => by
        rw [(GenRows_val hfit ha hf q i).2, v0 q i (mem_range.mp hi)])
    have a2 : ∀ i ∈ range w.bodyCount, Coord.sum (fun q => (m1.smat .ivJ).val 3 2 f (q.row i) *
        ((m3.mat .ivMinv).ent (q.row i) 0 * (m3.mat .ivFExt).ent (q.row i) 0)) =
        Coord.sum (fun q => w.jb B out f q i * (s.val q.f i / w.massAt q i)) :=
      fun i hi => Coord.sum_congr (fun q => by
        rw [(GenRows_val hfit ha hf q i).1, v3 q i (mem_range.mp hi),
          hm3.ent q i (mem_range.mp hi), World.massAt]
        ring)
    have a3 : ∀ i ∈ range w.bodyCount, Coord.sum (fun q => (m1.smat .ivJ).val 3 2 f (q.row i) *
        (m0.mat .ivQdot).ent (q.row i) 0) = Coord.sum (fun q => w.jb B out f q i * s.val q.v i) :=
      fun i hi => Coord.sum_congr (fun q => by
        rw [(GenRows_val hfit ha hf q i).1, v0 q i (mem_range.mp hi)])
    rw [Finset.sum_congr rfl a1, Finset.sum_congr rfl a2, Finset.sum_congr rfl a3]
  rw [wp_bind]
  refine (genSolve_wp (w := w) hsle i4 (by unfold LamOk; rw [hL4]; exact hlam) hnull ?_).mono ?_
    (fun _ q => q)
  · intro sv hsv
    rw [hL4]
    exact (hE sv hsv out hout).imp_left (fun p =>
      ⟨fun hn => (p.1 hn).congr (fun i j hi hj => (hMs i j hi hj).symm), p.2⟩)
  · rintro m5 ⟨i5, lam5, k5, h5, sv, hsv, ez, lam, hsol, hsr⟩
    have hM5 : m5.mat .ivMinv = mem.mat .ivMinv := by rw [k5 _ (Or.inr rfl), hM4]
    have hF5 : m5.mat .ivFExt = m3.mat .ivFExt := by rw [k5 _ (Or.inl rfl), hF4]
    have hm5 := hm.frame hM5
    obtain ⟨s', e6, wf6, n6, nc6, r6, a6, keep6⟩ := applyReactions_spec hfit i5 h5
      (by rw [hF5]; exact w3) (by rw [hF5]; exact h3) hm5.width hm5.height hs hn hc
    rw [e6, ok_bind]
    refine ⟨i5, hm5, lam5, ?_, out, lam, hout, ⟨sv, hsv, fun hp => ?_⟩, ?_, ?_, keep6, wf6, n6,
      nc6⟩
    · intro sv' hsv'
      rw [hsv] at hsv'
      cases hsv'
      rw [hL4] at ez
      exact ez
    · exact (hsol hp).congr hMs hR (fun _ _ => rfl)
    · intro q f j hf hj hne
      obtain ⟨r2, rb⟩ := hfit.rowB hf
      have hb := dJ.2.2 f j hf (by omega)
      rw [if_pos ⟨hf, hj⟩] at hb
      rw [r6 q f j hf (by omega), hsr f j q.d hf (by omega) q.d_lt
        (by rw [hJ4, hb]; exact hne), hJ4,
        ha.ent f (j * 3 + q.d) hf (by have := q.d_lt; beta_reduce; omega)]
    · intro q i hi
      have : (m5.mat .ivMinv).ent (i * 3 + q.dm) 0 = 1 / w.massAt q i := by
        cases q with
        | x => exact hm5.ent .x i hi
        | y => exact hm5.ent .x i hi
        | th => exact hm5.ent .th i hi
      rw [a6 q i hi, hF5, v3 q i hi, this]
      ring

end Scs
