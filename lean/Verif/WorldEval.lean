import Verif.WorldPop
import Verif.SolveRun

/-!
# One evaluation of the optimized system
-/

namespace Scs

open Finset

/-- Sum over the three coordinates. -/
def Coord.sum (f : Coord → ℝ) : ℝ := f .x + f .y + f .th

theorem Coord.sum_congr {f g : Coord → ℝ} (h : ∀ q, f q = g q) : Coord.sum f = Coord.sum g := by
  simp only [Coord.sum, h]

/-- Columns are coordinates of bodies. -/
theorem sum_cols (n : Nat) (F : Nat → ℝ) :
    ∑ c ∈ range (n * 3), F c = ∑ i ∈ range n, Coord.sum (fun q => F (q.row i)) := by
  induction n with
  | zero => simp
  | succ n ih =>
    rw [sum_range_succ, ← ih, show (n + 1) * 3 = n * 3 + 1 + 1 + 1 by ring, sum_range_succ,
      sum_range_succ, sum_range_succ]
    simp only [Coord.sum, Coord.row, Coord.d]
    ring_nf

/-- The coefficient of row `f` for coordinate `q` of body `i`: the Jacobian entries that the
constraints wrote for this body. -/
noncomputable def World.jc (w : World ℝ) (B : Nat → Nat → Nat) (out : Nat → Output ℝ) (f : Nat)
    (q : Coord) (i : Nat) : ℝ :=
  ∑ k ∈ range (w.rowN f),
    if B (w.rowC f) k = i then (out (w.rowI f)).J (w.rowK f) (k * 3 + q.d) else 0

/-- The coefficient of row `f` for coordinate `q` of body `i` in the sparse Jacobian: the block index
is an unsigned char, and 255 stands for an empty block (include/sparse_matrix.h:74-88, 106-112). -/
noncomputable def World.jb (w : World ℝ) (B : Nat → Nat → Nat) (out : Nat → Output ℝ) (f : Nat)
    (q : Coord) (i : Nat) : ℝ :=
  ∑ k ∈ range (w.rowN f), if B (w.rowC f) k % 256 ≠ 255 ∧ i = B (w.rowC f) k % 256 then
    (out (w.rowI f)).J (w.rowK f) (k * 3 + q.d) else 0

/-- Mass of registered body `i` (moment of inertia for the angle). -/
def World.massAt {α : Type} (w : World α) (q : Coord) (i : Nat) : α := (w.bodies (w.rbAt i)).mass q

/-- The matrix of the system of equations for the multipliers. -/
noncomputable def World.sysM (w : World ℝ) (B : Nat → Nat → Nat) (out : Nat → Output ℝ)
    (f g : Nat) : ℝ :=
  ∑ i ∈ range w.bodyCount, Coord.sum (fun q =>
    w.jb B out f q i * (1 / w.massAt q i) * w.jb B out g q i)

/-- The velocity condition of row `f` at the velocities `u`. -/
noncomputable def World.rowV (w : World ℝ) (B : Nat → Nat → Nat) (out : Nat → Output ℝ) (f : Nat)
    (u : Coord → Nat → ℝ) : ℝ :=
  ∑ i ∈ range w.bodyCount, Coord.sum (fun q => w.jb B out f q i * u q i)

/-- The right hand side: minus the violation of the velocity condition by the velocities the
external forces alone would cause. -/
noncomputable def World.optRhs (w : World ℝ) (B : Nat → Nat → Nat) (out : Nat → Output ℝ) (h : ℝ)
    (s : SysState ℝ) (f : Nat) : ℝ :=
  -(w.rowV B out f (fun q i => s.val q.v i + h * s.val q.f i / w.massAt q i) +
    (out (w.rowI f)).v_bias (w.rowK f) + w.bias / h * (out (w.rowI f)).C (w.rowK f))

section
variable {w : World ℝ} {B : Nat → Nat → Nat}

theorem World.Fit.rowB (hfit : w.Fit B) {f : Nat} (hf : f < w.fullCount) :
    w.rowN f ≤ 2 ∧ ∀ k, k < w.rowN f → B (w.rowC f) k < w.bodyCount := by
  obtain ⟨_, _, _, _, hm⟩ := row_spec w hf
  exact ⟨hfit.two _ hm, fun k hk => hfit.lt _ hm k hk⟩

theorem World.Low.row (hlow : w.Low B) {f : Nat} (hf : f < w.fullCount) {k : Nat}
    (hk : k < w.rowN f) : B (w.rowC f) k < 255 :=
  hlow _ (row_spec w hf).2.2.2.2 k hk

theorem World.Low.jb (hlow : w.Low B) (out : Nat → Output ℝ) {f : Nat} (hf : f < w.fullCount)
    (q : Coord) (i : Nat) : w.jb B out f q i = w.jc B out f q i := by
  refine sum_congr rfl fun k hk => ?_
  have := hlow.row hf (mem_range.mp hk)
  have e : B (w.rowC f) k % 256 = B (w.rowC f) k := by omega
  rw [e]
  by_cases h : B (w.rowC f) k = i
  · rw [if_pos h, if_pos ⟨by omega, h.symm⟩]
  · rw [if_neg h, if_neg (fun q => h q.2.symm)]

theorem AsmRows_val (hfit : w.Fit B) {dt : ℝ} {out : Nat → Output ℝ} {mem0 mem : Store ℝ}
    (h : w.AsmRows B dt out mem0 w.fullCount mem) {f : Nat} (hf : f < w.fullCount) (q : Coord)
    (i : Nat) : (mem.smat .ivJ).val 3 2 f (q.row i) = w.jb B out f q i := by
  obtain ⟨h2, hb⟩ := hfit.rowB hf
  rw [SMat.val, World.jb, q.row_div, q.row_mod]
  have hblk := fun j hj => h.blk f j hf hj
  have : ∀ k, k < 2 → (if (mem.smat .ivJ).blk 2 f k ≠ 255 ∧ i = (mem.smat .ivJ).blk 2 f k then
      (mem.smat .ivJ).ent f (k * 3 + q.d) else 0) = if k < w.rowN f then
        (if B (w.rowC f) k % 256 ≠ 255 ∧ i = B (w.rowC f) k % 256 then
          (out (w.rowI f)).J (w.rowK f) (k * 3 + q.d) else 0) else 0 := by
    intro k hk
    have hbk := hblk k hk
    by_cases hkn : k < w.rowN f
    · rw [if_pos ⟨hf, hkn⟩] at hbk
      rw [hbk, if_pos hkn, h.ent f _ hf (by have := q.d_lt; beta_reduce; omega)]
    · rw [if_neg (fun q => hkn q.2)] at hbk
      rw [hbk, if_neg hkn]; simp
  rw [sum_congr rfl (fun k hk => this k (mem_range.mp hk)), ← sum_filter]
  congr 1
  ext k
  simp only [mem_filter, mem_range]
  omega

theorem AsmRows_inRange (hfit : w.Fit B) {dt : ℝ} {out : Nat → Output ℝ} {mem0 mem : Store ℝ}
    (h : w.AsmRows B dt out mem0 w.fullCount mem) : (mem.smat .ivJ).InRange 3 2 := by
  intro f j hf hj
  rw [h.hJ] at hf
  rw [h.blk f j hf hj, h.wJ]
  by_cases hjn : j < w.rowN f
  · obtain ⟨h2, hb⟩ := hfit.rowB hf
    have := hb j hjn
    rw [if_pos ⟨hf, hjn⟩]
    beta_reduce
    omega
  · rw [if_neg (fun q => hjn q.2)]; left; rfl

/-- The chain of matrix operations computing the right hand side. -/
theorem optRight_wp {bias dt : ℝ} {mem : Store ℝ} (hi : Inv 3 2 sysRestr mem) {n m : Nat}
    (hJ : (mem.smat .ivJ).InRange 3 2) (wJ : (mem.smat .ivJ).width = n)
    (hJh : (mem.smat .ivJ).height = m)
    (wF : (mem.mat .ivFExt).width = 1) (hF : (mem.mat .ivFExt).height = n)
    (wM : (mem.mat .ivMinv).width = 1) (hM : (mem.mat .ivMinv).height = n)
    (wQ : (mem.mat .ivQdot).width = 1) (hQ : (mem.mat .ivQdot).height = n)
    (wB : (mem.mat .ivVBias).width = 1) (hB : (mem.mat .ivVBias).height = m)
    (wC : (mem.mat .ivC).width = 1) (hC : (mem.mat .ivC).height = m)
    {E : Err → Prop} (hE : dt = 0 → E .divZero) :
    Wp (optRight bias dt mem) (fun mem' => dt ≠ 0 ∧ Inv 3 2 sysRestr mem' ∧
      Frame (fun a => a = .ivReg0 ∨ a = .ivReg1 ∨ a = .ivQdotPrime ∨ a = .ivBErr ∨ a = .ivRight)
        (fun _ => False) mem mem' ∧
      (mem'.mat .ivRight).width = 1 ∧ (mem'.mat .ivRight).height = m ∧
      ∀ f, f < m → (mem'.mat .ivRight).ent f 0 =
        -(∑ c ∈ range n, (mem.smat .ivJ).val 3 2 f c * ((mem.mat .ivMinv).ent c 0 *
          (dt * (mem.mat .ivFExt).ent c 0) + (mem.mat .ivQdot).ent c 0) +
          (mem.mat .ivVBias).ent f 0 + bias / dt * (mem.mat .ivC).ent f 0)) E := by
  obtain ⟨m1, e1, w1⟩ := Store.scale_spec mem .ivFExt dt .ivReg0 (hi.mat _) (hi.mat _)
  have i1 := hi.wrote w1
  rw [wF, hF] at w1
  obtain ⟨m2, e2, w2⟩ := Store.leftScale_spec m1 .ivReg0 .ivMinv .ivReg1 (by decide) (i1.mat _)
    (i1.mat _) (i1.mat _) (by rw [w1.only.mat _ (by decide), wM])
    (by rw [w1.only.mat _ (by decide), w1.height, hM])
  have i2 := i1.wrote w2
  rw [w1.width, w1.height] at w2
  obtain ⟨m3, e3, w3⟩ := Store.addM_spec m2 .ivReg1 .ivQdot .ivQdotPrime (i2.mat _)
    (i2.mat _) (i2.mat _) (by rw [w2.only.mat _ (by decide), w1.only.mat _ (by decide), w2.width, wQ])
    (by rw [w2.only.mat _ (by decide), w1.only.mat _ (by decide), w2.height, hQ])
  have i3 := i2.wrote w3
  rw [w2.width, w2.height] at w3
  by_cases hdt : dt = 0
  · subst hdt
    rw [optRight, e1, ok_bind, e2, ok_bind, e3, ok_bind, fp_div_zero]
    exact hE rfl
  obtain ⟨m4, e4, w4⟩ := Store.scale_spec m3 .ivC (bias / dt) .ivBErr (i3.mat _) (i3.mat _)
  have i4 := i3.wrote w4
  have hC3 : m3.mat .ivC = mem.mat .ivC := by
    rw [w3.only.mat _ (by decide), w2.only.mat _ (by decide), w1.only.mat _ (by decide)]
  rw [hC3, wC, hC] at w4
  have hJ4 : m4.smat .ivJ = mem.smat .ivJ := by
    rw [w4.only.smat, w3.only.smat, w2.only.smat, w1.only.smat]
  have hq4 : m4.mat .ivQdotPrime = m3.mat .ivQdotPrime := w4.only.mat _ (by decide)
  obtain ⟨m5, e5, w5⟩ := Store.smultiply_spec 3 2 (by decide) m4 .ivJ .ivQdotPrime .ivReg0
    (by decide) (i4.smat _) (i4.mat _) (by rw [hJ4]; exact hJ) (i4.mat _)
    (by rw [hJ4, hq4, w3.height, wJ])
  have i5 := i4.wrote w5
  rw [hJ4, hq4, w3.width, hJh, wJ] at w5
  have hB5 : m5.mat .ivVBias = mem.mat .ivVBias := by
    rw [w5.only.mat _ (by decide), w4.only.mat _ (by decide), w3.only.mat _ (by decide),
      w2.only.mat _ (by decide), w1.only.mat _ (by decide)]
  obtain ⟨m6, e6, w6⟩ := Store.addM_spec m5 .ivReg0 .ivVBias .ivReg1 (i5.mat _) (i5.mat _)
    (i5.mat _) (by rw [hB5, wB, w5.width]) (by rw [hB5, hB, w5.height])
  have i6 := i5.wrote w6
  rw [w5.width, w5.height, hB5] at w6
  have hb6 : m6.mat .ivBErr = m4.mat .ivBErr := by
    rw [w6.only.mat _ (by decide), w5.only.mat _ (by decide)]
  obtain ⟨m7, e7, w7⟩ := Store.addM_spec m6 .ivReg1 .ivBErr .ivReg0 (i6.mat _) (i6.mat _)
    (i6.mat _) (by rw [hb6, w4.width, w6.width]) (by rw [hb6, w4.height, w6.height])
  have i7 := i6.wrote w7
  rw [w6.width, w6.height, hb6] at w7
  obtain ⟨m8, e8, w8⟩ := Store.negate_spec m7 .ivReg0 .ivRight (i7.mat _) (i7.mat _)
  have i8 := i7.wrote w8
  rw [w7.width, w7.height] at w8
  rw [optRight, e1, ok_bind, e2, ok_bind, e3, ok_bind, fp_div hdt, ok_bind, e4, ok_bind, e5, ok_bind,
    e6, ok_bind, e7, ok_bind, e8, wp_ok]
  refine ⟨hdt, i8, ⟨fun a ha => ?_, fun a _ => ?_⟩, w8.width, w8.height, fun f hf => ?_⟩
  · simp only [not_or] at ha
    rw [w8.only.mat _ ha.2.2.2.2, w7.only.mat _ ha.1, w6.only.mat _ ha.2.1, w5.only.mat _ ha.1,
      w4.only.mat _ ha.2.2.2.1, w3.only.mat _ ha.2.2.1, w2.only.mat _ ha.2.1, w1.only.mat _ ha.1]
  · rw [w8.only.smat, w7.only.smat, w6.only.smat, w5.only.smat, w4.only.smat, w3.only.smat,
      w2.only.smat, w1.only.smat]
  · rw [w8.ent f 0 hf (by decide), w7.ent f 0 hf (by decide), w6.ent f 0 hf (by decide),
      w5.ent f 0 hf (by decide), w4.ent f 0 hf (by decide)]
    congr 3
    refine sum_congr rfl (fun c hc => ?_)
    have hc := mem_range.mp hc
    rw [w3.ent c 0 hc (by decide), w2.ent c 0 hc (by decide), w1.ent c 0 hc (by decide),
      w2.only.mat _ (by decide), w1.only.mat _ (by decide), w1.only.mat _ (by decide)]

/-- The multipliers of the previous call are an empty matrix or a column. -/
def LamOk {α : Type} (mem : Store α) : Prop :=
  (mem.mat .ivLambda).height = 0 ∨ (mem.mat .ivLambda).width = 1

/-- Conditions under which a solver certainly succeeds. -/
def Solver.Sure (sv : Solver ℝ) (n : Nat) (M : Nat → Nat → ℝ) (b lo hi : Nat → ℝ) (lam : Mat ℝ) :
    Prop :=
  (0 < n → sv.Easy n M b lo hi) ∧ (n = 0 → sv.Easy0 lam)

theorem own_not {sv : Solver ℝ} {a : MId} (h : a = .ivFExt ∨ a = .ivMinv ∨ a = .ivReg0 ∨ a = .ivRight ∨ a = .ivLimits) :
    ¬ (a = .ivLambda ∨ sv.Own a) := by
  rcases h with rfl | rfl | rfl | rfl | rfl <;> cases sv <;> simp [Solver.Own]

theorem ownS_not {sv : Solver ℝ} {a : SId} (h : a = .ivJ ∨ a = .ivSreg0) :
    ¬ sv.OwnS a := by
  rcases h with rfl | rfl <;> cases sv <;> simp [Solver.OwnS]

theorem optSolve_wp {w : World ℝ} {dt : ℝ} (hdt : dt ≠ 0) {mem : Store ℝ} {n : Nat}
    (h : SleIn 3 2 mem .ivJ .ivMinv .ivRight n) (hi : Inv 3 2 sysRestr mem)
    (hwl : (mem.mat .ivLimits).width = 2) (hhl : (mem.mat .ivLimits).height = n)
    (hlam : LamOk mem) {E : Err → Prop} (hnull : w.sle = none → E .null)
    (hE : ∀ sv, w.sle = some sv → sv.Sure n (sysMat 3 2 mem .ivJ .ivMinv)
      (fun i => (mem.mat .ivRight).ent i 0) (fun i => (mem.mat .ivLimits).ent i 0)
      (fun i => (mem.mat .ivLimits).ent i 1) (mem.mat .ivLambda) ∨ ∀ e, E e) :
    Wp (w.optSolve dt mem) (fun mem' => Inv 3 2 sysRestr mem' ∧ LamOk mem' ∧
      (∀ a, a = .ivFExt ∨ a = .ivMinv → mem'.mat a = mem.mat a) ∧
      (mem'.smat .ivSreg0).height = n ∧
      ∃ sv, w.sle = some sv ∧
        sv.Kept n (mem.mat .ivLambda) (mem'.mat .ivLambda) ∧
        ∃ lam : Nat → ℝ,
        (0 < n → sv.Solved n (sysMat 3 2 mem .ivJ .ivMinv) (fun i => (mem.mat .ivRight).ent i 0)
          (fun i => (mem.mat .ivLimits).ent i 0) (fun i => (mem.mat .ivLimits).ent i 1) lam) ∧
        ∀ f j k, f < n → j < 2 → k < 3 → (mem.smat .ivJ).blk 2 f j ≠ 255 →
          (mem'.smat .ivSreg0).ent f (j * 3 + k) =
            lam f / dt * (mem.smat .ivJ).ent f (j * 3 + k)) E := by
  rw [World.optSolve]
  cases hsv : w.sle with
  | none => exact hnull hsv
  | some sv =>
    simp only [deref, ok_bind]
    rw [wp_bind]
    -- the part after the solver call
    have rest : ∀ q : Store ℝ × Bool, Inv 3 2 sysRestr q.1 →
        Frame (fun m => m = .ivLambda ∨ sv.Own m) sv.OwnS mem q.1 →
        (q.2 = true ∨ ∀ e, E e) → ((q.1.mat .ivLambda).height = n ∨ ∀ e, E e) →
        (q.2 = true → 0 < n → (q.1.mat .ivLambda).width = 1) →
        (n = 0 → sv.Easy0 (mem.mat .ivLambda) → sv.Easy0 (q.1.mat .ivLambda)) →
        (n = 0 → (q.1.mat .ivLambda).height = 0 → sv.Need0 (mem.mat .ivLambda)) →
        (q.2 = true → 0 < n → sv.Solved n (sysMat 3 2 mem .ivJ .ivMinv)
          (fun i => (mem.mat .ivRight).ent i 0)
          (fun i => (mem.mat .ivLimits).ent i 0) (fun i => (mem.mat .ivLimits).ent i 1)
          (fun i => (q.1.mat .ivLambda).ent i 0)) →
        Wp (do
          chk (q.2 = true) "optimized_nsv_rigid_body_system.cpp:219"
          let r ← Fp.div (Fp.lit 1) dt
          let mem ← q.1.scale .ivLambda r .ivReg0
          mem.sleftScale 3 2 .ivJ .ivReg0 .ivSreg0) (fun mem' => Inv 3 2 sysRestr mem' ∧
          LamOk mem' ∧ (∀ a, a = .ivFExt ∨ a = .ivMinv → mem'.mat a = mem.mat a) ∧
          (mem'.smat .ivSreg0).height = n ∧
          ∃ sv', some sv = some sv' ∧
            sv'.Kept n (mem.mat .ivLambda) (mem'.mat .ivLambda) ∧
            ∃ lam : Nat → ℝ,
            (0 < n → sv'.Solved n (sysMat 3 2 mem .ivJ .ivMinv)
              (fun i => (mem.mat .ivRight).ent i 0)
              (fun i => (mem.mat .ivLimits).ent i 0) (fun i => (mem.mat .ivLimits).ent i 1) lam) ∧
            ∀ f j k, f < n → j < 2 → k < 3 → (mem.smat .ivJ).blk 2 f j ≠ 255 →
              (mem'.smat .ivSreg0).ent f (j * 3 + k) =
                lam f / dt * (mem.smat .ivJ).ent f (j * 3 + k)) E := by
      intro q hqi hqf hq1 hq2 hq3 hq5 hq6 hq4
      by_cases hc : q.2 = true
      · rw [chk_true _ hc, ok_bind, fp_div hdt, ok_bind]
        obtain ⟨m1, e1, w1⟩ := Store.scale_spec q.1 .ivLambda ((Fp.lit 1 : ℝ) / dt) .ivReg0
          (hqi.mat _) (hqi.mat _)
        have i1 := hqi.wrote w1
        rw [e1, ok_bind]
        have hJ1 : m1.smat .ivJ = mem.smat .ivJ := by
          rw [w1.only.smat, hqf.smat _ (ownS_not (Or.inl rfl))]
        by_cases hh : (q.1.mat .ivLambda).height = n
        · have hwd : (m1.mat .ivReg0).width = 1 ∨ (m1.smat .ivJ).height = 0 := by
            rw [hJ1, h.rows, w1.width]
            rcases Nat.eq_zero_or_pos n with hn | hn
            · exact Or.inr hn
            · exact Or.inl (hq3 hc hn)
          obtain ⟨m2, e2, w2⟩ := Store.sleftScale_spec 3 2 (by decide) m1 .ivJ .ivSreg0 .ivReg0
            (by decide) (i1.smat _) (by rw [hJ1]; exact h.inRange) (i1.smat _) (i1.sfresh _)
            (i1.mat _) hwd (by rw [hJ1, h.rows, w1.height, hh])
          have i2 := i1.swrote w2
          have hl2 : m2.mat .ivLambda = q.1.mat .ivLambda := by
            rw [w2.only.mat, w1.only.mat _ (by decide)]
          rw [e2, wp_ok]
          refine ⟨i2, ?_, fun a ha => ?_, by rw [w2.height, hJ1, h.rows], sv, rfl, ?_,
            fun i => (q.1.mat .ivLambda).ent i 0, hq4 hc, fun f j k hf hj hk hb => ?_⟩
          · unfold LamOk
            rw [hl2, hh]
            rcases Nat.eq_zero_or_pos n with hn | hn
            · exact Or.inl hn
            · exact Or.inr (hq3 hc hn)
          · rw [w2.only.mat, w1.only.mat _ (by rcases ha with rfl | rfl <;> decide),
              hqf.mat _ (own_not (by rcases ha with rfl | rfl <;> simp))]
          · rw [hl2]; exact ⟨hh, hq5, fun h0 => hq6 h0 (hh.trans h0)⟩
          · have w0 := hq3 hc (by omega)
            rw [w2.ent f j k (by rw [hJ1, h.rows]; exact hf) hj hk (by rw [hJ1]; exact hb), hJ1,
              w1.ent f 0 (by rw [hh]; exact hf) (by rw [w0]; decide)]
            simp only [fp_lit]
            push_cast
            ring
        · have hEa : ∀ e, E e := hq2.resolve_left hh
          rw [Store.sleftScale]
          by_cases hw1 : (m1.mat .ivReg0).width = 1 ∨ (m1.smat .ivJ).height = 0
          · rw [chk_true _ hw1, ok_bind, chk_false _ (by rw [w1.height, hJ1, h.rows]; exact hh)]
            exact hEa _
          · rw [chk_false _ hw1]
            exact hEa _
      · rw [chk_false _ hc]
        exact (hq1.resolve_left hc) _
    rcases Nat.eq_zero_or_pos n with hn | hn
    · subst hn
      refine (optCall_zero sv h hi ((hE sv hsv).imp_left fun q => q.2 rfl)).mono ?_ (fun _ q => q)
      rintro q ⟨q1, q2, q3, q4⟩
      refine rest q q1 q2 ((hE sv hsv).imp_left fun p => (q3 (p.2 rfl)).1)
        ((hE sv hsv).imp_left fun p => (q3 (p.2 rfl)).2.1) (fun _ p => absurd p (Nat.lt_irrefl 0))
        (fun _ p => (q3 p).2.2) (fun _ p => q4 p) (fun _ p => absurd p (Nat.lt_irrefl 0))
    · refine (optCall_wp sv h hi (fun _ => hwl) (fun _ => hhl) (fun q => ?_) hn ((hE sv hsv).imp_left fun q => q.1 hn)).mono
        ?_ (fun _ q => q)
      · rcases hlam with q' | q'
        · omega
        · exact q'
      · rintro q ⟨q1, q2, q3, q4⟩
        by_cases hc : q.2 = true
        · obtain ⟨q5, q6, q7⟩ := q4 hc
          exact rest q q1 q2 (Or.inl hc) (Or.inl q6) (fun _ _ => q5) (fun p => by omega)
            (fun p => by omega) (fun _ _ => q7)
        · have hEa : ∀ e, E e := (hE sv hsv).resolve_left (fun p => hc (q3 (p.1 hn)))
          rw [chk_false _ hc]
          exact hEa _

end

/-- The constraints were evaluated in state `s`, with results `out`. -/
def World.Calc (w : World ℝ) (s : SysState ℝ) (out : Nat → Output ℝ) : Prop :=
  ∀ i (hi : i < w.cs.length), ∃ o, (w.cons w.cs[i]).kind.calculate
    ((w.cons w.cs[i]).idx w.bodies) o s = .ok (out i)

/-- The effect of `processConstraints` of the optimized system on the state, for the step size `h`:
the multipliers `lam` belong to the constraints evaluated in `s`, the reactions are `lam / h` times
the Jacobian, except on bodies whose block index stands for an empty block, and the accelerations are those of external forces and reactions together. -/
structure World.OptEff (w : World ℝ) (B : Nat → Nat → Nat) (h : ℝ) (s s' : SysState ℝ)
    (out : Nat → Output ℝ) (lam : Nat → ℝ) : Prop where
  eval : w.Calc s out
  solved : ∃ sv, w.sle = some sv ∧ (0 < w.fullCount → sv.Solved w.fullCount (w.sysM B out)
    (w.optRhs B out h s) (fun f => (out (w.rowI f)).limits (w.rowK f) 0 * h)
    (fun f => (out (w.rowI f)).limits (w.rowK f) 1 * h) lam)
  react : ∀ (q : Coord) f j, f < w.fullCount → j < w.rowN f → B (w.rowC f) j % 256 ≠ 255 →
    s'.rval q.r (f * 2 + j) = lam f / h * (out (w.rowI f)).J (w.rowK f) (j * 3 + q.d)
  acc : ∀ (q : Coord) i, i < w.bodyCount →
    s'.val q.a i = (s.val q.f i + w.reactSum B s'.rval w.fullCount q i) / w.massAt q i
  keep : ∀ f i, ¬ f.IsAcc → s'.val f i = s.val f i
  wf : s'.Wf
  n : s'.n = s.n
  nc : s'.nc = s.nc

theorem sysMat_eq {w : World ℝ} {B : Nat → Nat → Nat} (hfit : w.Fit B) {dt : ℝ}
    {out : Nat → Output ℝ} {mem0 mem mem' : Store ℝ}
    (h : w.AsmRows B dt out mem0 w.fullCount mem) (hm : w.Masses mem')
    (eJ : mem'.smat .ivJ = mem.smat .ivJ) {f g : Nat} (hf : f < w.fullCount)
    (hg : g < w.fullCount) : sysMat 3 2 mem' .ivJ .ivMinv f g = w.sysM B out f g := by
  rw [sysMat, gram, eJ, h.wJ, Nat.mul_comm, sum_cols, World.sysM]
  refine Finset.sum_congr rfl (fun i hi => Coord.sum_congr (fun q => ?_))
  rw [AsmRows_val hfit h hf, AsmRows_val hfit h hg, hm.ent q i (mem_range.mp hi)]
  rfl

theorem optConstraints_wp {w : World ℝ} {B : Nat → Nat → Nat} (hfit : w.Fit B) {dt : ℝ}
    {raw : Output ℝ} {mem : Store ℝ} {s : SysState ℝ} (hinv : Inv 3 2 sysRestr mem)
    (hm : w.Masses mem) (hlam : LamOk mem) (hs : s.Wf) (hn : w.bodyCount ≤ s.n)
    (hc : w.fullCount ≤ s.nc) {E : Err → Prop} (hdt : dt = 0 → E .divZero)
    (hcalc : ∀ c ∈ w.cs, ∀ o, Wp ((w.cons c).kind.calculate ((w.cons c).idx w.bodies) o s)
      (fun _ => True) E)
    (hnull : w.sle = none → E .null)
    (hE : ∀ sv, w.sle = some sv → ∀ out, w.Calc s out →
      sv.Sure w.fullCount (w.sysM B out) (w.optRhs B out dt s)
        (fun f => (out (w.rowI f)).limits (w.rowK f) 0 * dt)
        (fun f => (out (w.rowI f)).limits (w.rowK f) 1 * dt) (mem.mat .ivLambda) ∨ ∀ e, E e) :
    Wp (w.optConstraints dt raw mem s) (fun q => dt ≠ 0 ∧ Inv 3 2 sysRestr q.1 ∧ w.Masses q.1 ∧
      LamOk q.1 ∧ (∀ sv, w.sle = some sv →
        sv.Kept w.fullCount (mem.mat .ivLambda) (q.1.mat .ivLambda)) ∧
      ∃ out lam, w.OptEff B dt s q.2 out lam) E := by
  rw [World.optConstraints, wp_bind]
  refine (optAssemble_wp hfit hinv hcalc).mono ?_ (fun _ q => q)
  rintro m1 ⟨out, hout, ha⟩
  obtain ⟨m2, e2, i2, o2, w2, h2, v2⟩ := loadQdot_spec hs hn ha.inv
  obtain ⟨m3, e3, i3, o3, w3, h3, v3⟩ := loadFext_spec hs hn i2
  rw [e2, ok_bind, e3, ok_bind, wp_bind]
  have hJ3 : m3.smat .ivJ = m1.smat .ivJ := by rw [o3.smat, o2.smat]
  have hM3 : m3.mat .ivMinv = mem.mat .ivMinv := by
    rw [o3.mat _ (by decide), o2.mat _ (by decide), ha.frame.mat _ (by simp)]
  have hL3 : m3.mat .ivLambda = mem.mat .ivLambda := by
    rw [o3.mat _ (by decide), o2.mat _ (by decide), ha.frame.mat _ (by simp)]
  have k3 : ∀ a, a = MId.ivVBias ∨ a = .ivC ∨ a = .ivLimits → m3.mat a = m1.mat a := by
    rintro a (rfl | rfl | rfl) <;> rw [o3.mat _ (by decide), o2.mat _ (by decide)]
  have hm3 := hm.frame hM3
  have hQ3 : m3.mat .ivQdot = m2.mat .ivQdot := o3.mat _ (by decide)
  refine (optRight_wp (n := w.bodyCount * 3) (m := w.fullCount) i3
    (by rw [hJ3]; exact AsmRows_inRange hfit ha) (by rw [hJ3, ha.wJ, Nat.mul_comm])
    (by rw [hJ3, ha.hJ]) w3 h3 hm3.width hm3.height (by rw [hQ3]; exact w2) (by rw [hQ3]; exact h2)
    (by rw [k3 _ (Or.inl rfl)]; exact ha.wb) (by rw [k3 _ (Or.inl rfl)]; exact ha.hb)
    (by rw [k3 _ (Or.inr (Or.inl rfl))]; exact ha.we)
    (by rw [k3 _ (Or.inr (Or.inl rfl))]; exact ha.he) hdt).mono ?_ (fun _ q => q)
  rintro m4 ⟨hdt0, i4, f4, w4, h4, v4⟩
  have hJ4 : m4.smat .ivJ = m1.smat .ivJ := by rw [f4.smat _ id, hJ3]
  have hM4 : m4.mat .ivMinv = mem.mat .ivMinv := by rw [f4.mat _ (by simp), hM3]
  have hL4 : m4.mat .ivLambda = mem.mat .ivLambda := by rw [f4.mat _ (by simp), hL3]
  have hF4 : m4.mat .ivFExt = m3.mat .ivFExt := f4.mat _ (by simp)
  have hl4 : m4.mat .ivLimits = m1.mat .ivLimits := by
    rw [f4.mat _ (by simp), k3 _ (Or.inr (Or.inr rfl))]
  have hm4 := hm.frame hM4
  have hsle : SleIn 3 2 m4 .ivJ .ivMinv .ivRight w.fullCount :=
    ⟨i4.ok, by rw [hJ4]; exact AsmRows_inRange hfit ha, by rw [hJ4]; exact ha.hJ, hm4.width,
      by rw [hm4.height, hJ4, ha.wJ, Nat.mul_comm], w4, h4⟩
  have hMs : ∀ f g, f < w.fullCount → g < w.fullCount →
      sysMat 3 2 m4 .ivJ .ivMinv f g = w.sysM B out f g := fun f g hf hg =>
    sysMat_eq hfit ha hm4 hJ4 hf hg
  have hR : ∀ f, f < w.fullCount → (m4.mat .ivRight).ent f 0 = w.optRhs B out dt s f := by
    intro f hf
    rw [v4 f hf, World.optRhs, sum_cols, World.rowV, k3 _ (Or.inl rfl), k3 _ (Or.inr (Or.inl rfl)),
      ha.bias f hf, ha.err f hf]
    congr 3
    refine Finset.sum_congr rfl (fun i hi => Coord.sum_congr (fun q => ?_))
    have hi := mem_range.mp hi
    rw [hJ3, AsmRows_val hfit ha hf, hm3.ent q i hi, v3 q i hi, hQ3, v2 q i hi, World.massAt]
    ring
  rw [wp_bind]
  refine (optSolve_wp (w := w) hdt0 hsle i4 (by rw [hl4]; exact ha.wl) (by rw [hl4]; exact ha.hl)
    (by unfold LamOk; rw [hL4]; exact hlam) hnull ?_).mono ?_ (fun _ q => q)
  · intro sv hsv
    rw [hL4]
    exact (hE sv hsv out hout).imp_left (fun p =>
      ⟨fun hn => (p.1 hn).congr (fun i j hi hj => (hMs i j hi hj).symm)
        (fun i hi => (hR i hi).symm) (fun f hf => by rw [hl4, ha.low f hf])
        (fun f hf => by rw [hl4, ha.high f hf]), p.2⟩)
  · rintro m5 ⟨i5, lam5, k5, h5, sv, hsv, ez, lam, hsol, hsr⟩
    have hM5 : m5.mat .ivMinv = mem.mat .ivMinv := by rw [k5 _ (Or.inr rfl), hM4]
    have hF5 : m5.mat .ivFExt = m3.mat .ivFExt := by rw [k5 _ (Or.inl rfl), hF4]
    have hm5 := hm.frame hM5
    obtain ⟨s', e6, wf6, n6, nc6, r6, a6, keep6⟩ := applyReactions_spec hfit i5 h5
      (by rw [hF5]; exact w3) (by rw [hF5]; exact h3) hm5.width hm5.height hs hn hc
    rw [e6, ok_bind]
    refine ⟨hdt0, i5, hm5, lam5, ?_, out, lam, hout, ⟨sv, hsv, fun hp => ?_⟩, ?_, ?_, keep6, wf6, n6,
      nc6⟩
    · intro sv' hsv'
      rw [hsv] at hsv'
      cases hsv'
      rw [hL4] at ez
      exact ez
    · refine (hsol hp).congr hMs hR (fun f hf => ?_) (fun f hf => ?_) (fun _ _ => rfl)
      · rw [hl4, ha.low f hf]
      · rw [hl4, ha.high f hf]
    · intro q f j hf hj hne
      obtain ⟨r2, rb⟩ := hfit.rowB hf
      have hb := ha.blk f j hf (by omega)
      rw [if_pos ⟨hf, hj⟩] at hb
      rw [r6 q f j hf (by omega), hsr f j q.d hf (by omega) q.d_lt
        (by rw [hJ4, hb]; exact hne), hJ4,
        ha.ent f (j * 3 + q.d) hf (by have := q.d_lt; beta_reduce; omega)]
    · intro q i hi
      have : (m5.mat .ivMinv).ent (i * 3 + q.dm) 0 = 1 / w.massAt q i := by
        cases q with
        | x => exact hm5.ent .x i hi
        | y => exact hm5.ent .x i hi
        | th => exact hm5.ent .th i hi
      rw [a6 q i hi, hF5, v3 q i hi, this]
      ring

end Scs
