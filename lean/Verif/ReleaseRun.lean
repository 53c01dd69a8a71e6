import Verif.ReleaseInv
import Verif.WorldMore
import Verif.WorldGs

/-!
# The iteration with limits in a release build

Whether or not the iteration reports success, its result is that of a last sweep from some previous
multipliers. That is what `Solver.Solved` says of an iteration that was allowed one sweep, for some
tolerance, so the statements about sub-steps apply to the world with such a solver.
-/

namespace Scs

open Finset

/-- After at least one sweep the result is one sweep of something. -/
theorem Iterated.last {F : (Nat → ℝ) → Nat → ℝ} {D : (Nat → ℝ) → ℝ} {e : ℝ} {m : Nat}
    {x0 : Nat → ℝ} {b : Bool} {y : Nat → ℝ} (h : Iterated F D e m x0 b y) (hm : 1 ≤ m) :
    ∃ x, y = F x := by
  cases b with
  | true =>
    obtain ⟨k, _, _, _, e⟩ := h.1 rfl
    exact ⟨F^[k] x0, by rw [e, Function.iterate_succ_apply']⟩
  | false =>
    obtain ⟨_, e⟩ := h.2 rfl
    obtain ⟨k, rfl⟩ : ∃ k, m = k + 1 := ⟨m - 1, by omega⟩
    exact ⟨F^[k] x0, by rw [e, Function.iterate_succ_apply']⟩

/-- Any change is small for some tolerance. -/
theorem settled_some (n : Nat) (x y : Nat → ℝ) : ∃ e, 0 < e ∧ Settled n e x y := by
  refine ⟨1 + ∑ i ∈ range n, |y i - x i| * 1000, ?_, fun i hi => ?_⟩
  · have : 0 ≤ ∑ i ∈ range n, |y i - x i| * 1000 := sum_nonneg fun i _ => by positivity
    linarith
  · have h1 : |y i - x i| * 1000 ≤ ∑ i ∈ range n, |y i - x i| * 1000 :=
      single_le_sum (f := fun i => |y i - x i| * 1000) (fun i _ => by positivity)
        (mem_range.mpr hi)
    have h2 : (1 / 1000 : ℝ) ≤ max (1 / 1000) |x i| := le_max_left _ _
    have h3 : (0 : ℝ) ≤ 1 + ∑ i ∈ range n, |y i - x i| * 1000 := by
      linarith [abs_nonneg (y i - x i)]
    have h4 := mul_le_mul_of_nonneg_left h2 h3
    linarith

theorem solved_once {n : Nat} {M : Nat → Nat → ℝ} {b lo hi x lam : Nat → ℝ}
    (hM : ∀ i, i < n → M i i ≠ 0)
    (h : ∀ i, i < n → lam i = sweepTo (rowSolveL n M b lo hi) n x i) :
    ∃ e, (Solver.gs 1 e).Solved n M b lo hi lam := by
  obtain ⟨e, he, hs⟩ := settled_some n x (sweepTo (rowSolveL n M b lo hi) n x)
  exact ⟨e, he, hM, x, .inl ⟨rfl, 0, Nat.one_pos, hs, fun l hl => absurd hl (Nat.not_lt_zero l), h⟩⟩

theorem gsLoop_begins {sweep : Store ℝ → Exec (Store ℝ × ℝ)} {e : ℝ} {n : Nat} (hn : 1 ≤ n)
    {s : Store ℝ} {q : Store ℝ × Bool} (h : gsLoop sweep e n s = .ok q) :
    ∃ q, sweep s = .ok q := by
  obtain ⟨n, rfl⟩ : ∃ k, n = k + 1 := ⟨n - 1, by omega⟩
  rw [gsLoop] at h
  cases hq : sweep s with
  | error e => rw [hq] at h; cases h
  | ok q => exact ⟨q, rfl⟩

/-- Without rows the iteration leaves no multipliers. -/
theorem gsSolveL_none {mem : Store ℝ} (h : SleIn 3 2 mem .ivJ .ivMinv .ivRight 0)
    (hi : Inv 3 2 sysRestr mem) (m : Nat) (e : ℝ) :
    ∃ s' b, mem.gsSolveL 3 2 m e .ivJ .ivMinv .ivRight .ivLimits (some .ivLambda) (some .ivLambda) =
      .ok (s', b) ∧ (s'.mat .ivLambda).height = 0 := by
  have h1 : ∃ s1, (if (mem.mat .ivLambda).height ≠ 0 then mem.init0 .ivLambda 1 0 else pure mem) =
      .ok s1 ∧ Inv 3 2 sysRestr s1 ∧ Only .ivLambda mem s1 ∧ (s1.mat .ivLambda).height = 0 := by
    by_cases hn : (mem.mat .ivLambda).height = 0
    · exact ⟨mem, by rw [if_neg (by simpa using hn)]; rfl, hi, Only.refl _ _, hn⟩
    · obtain ⟨s1, e1, i1, o1, _, h1⟩ := hi.init0 .ivLambda 1 0
      exact ⟨s1, by rw [if_pos hn, e1], i1, o1, h1⟩
  obtain ⟨s1, e1, i1, o1, hh1⟩ := h1
  obtain ⟨s2, e2, w2⟩ := Store.setMatFrom_spec s1 .ivLambda .ivLambda (i1.mat _) (i1.mat _)
  have i2 := i1.wrote w2
  have o2 := o1.trans w2.only
  obtain ⟨s3, e3, _, f3, _⟩ := Store.formM_spec (st := 3) (en := 2) (by decide) i2.ok (J := .ivJ)
    (reg := .gsReg) (W := .ivMinv) (M := .gsM) (by rw [o2.smat]; exact h.inRange) (by decide)
    (i2.sfresh _) (by rw [o2.mat _ (by decide)]; exact h.wW)
    (by rw [o2.mat _ (by decide), o2.smat]; exact h.hW)
  have hh3 : (s3.mat .ivLambda).height = 0 := by
    rw [f3.mat _ (by decide), w2.height, hh1]
  have el : ∀ m, ∃ b, gsLoop (fun s => s.gsIterationL .gsM .ivRight .ivLimits .ivLambda .ivLambda)
      e m s3 = .ok (s3, b) := by
    intro m
    induction m with
    | zero => exact ⟨false, rfl⟩
    | succ m ih =>
      obtain ⟨b, hb⟩ := ih
      have e0 : s3.gsIterationL .gsM .ivRight .ivLimits .ivLambda .ivLambda = .ok (s3, 0) := by
        rw [Store.gsIterationL, hh3]
        rfl
      rw [gsLoop, e0, ok_bind]
      by_cases hc : Fp.gt e 0 = true
      · exact ⟨true, by rw [if_pos hc]; rfl⟩
      · exact ⟨b, by rw [if_neg hc, hb]⟩
  obtain ⟨b, el⟩ := el m
  refine ⟨s3, b, ?_, hh3⟩
  rw [Store.gsSolveL]
  simp only [deref, ok_bind, h.hB]
  by_cases hn : (mem.mat .ivLambda).height = 0
  · rw [if_neg (by simpa using hn)] at e1 ⊢
    rw [e1, ok_bind, Store.warmStart, if_pos hh1, e2, ok_bind, e3, ok_bind, el]
  · rw [if_pos hn] at e1 ⊢
    rw [e1, ok_bind, Store.warmStart, if_pos hh1, e2, ok_bind, e3, ok_bind, el]

/-- A call of `solveWithLimits` that made a sweep has divided by every element of the diagonal. -/
theorem Store.gsSolveL_swept {st en : Nat} (hst : 0 < st) {s : Store ℝ} {J : SId}
    {W right limits r : MId} {prev : Option MId} {n : Nat} (h : SleIn st en s J W right n)
    (hJ : J ≠ .gsReg) (hf : (s.smat .gsReg).Fresh) (h1 : r ≠ .gsM)
    (h4 : r ≠ W) 
    (hp : ∀ p, prev = some p → (s.mat p).height = n → (s.mat p).width = 1)
    (hr : (s.mat r).height = n → (s.mat r).width = 1) {maxIter : Nat} {e : ℝ} {q : Store ℝ × Bool} (hm : 1 ≤ maxIter)
    (hok : s.gsSolveL st en maxIter e J W right limits (some r) prev = .ok q) {i : Nat}
    (hi : i < n) : sysMat st en s J W i i ≠ 0 := by
  have hinit : ∃ s1, (if (s.mat r).height ≠ n then s.init0 r 1 n else pure s) = .ok s1 ∧
      Ok st en s1 ∧ Only r s s1 ∧ (s1.mat r).width = 1 ∧ (s1.mat r).height = n ∧
      ((s.mat r).height = n → s1 = s) ∧
      ((s.mat r).Plain → (s1.mat r).Plain) ∧
      ∀ i, i < n → (s1.mat r).ent i 0 =
        if (s.mat r).height = n then (s.mat r).ent i 0 else 0 := by
    by_cases hn : (s.mat r).height = n
    · rw [if_neg (by simpa using hn)]
      exact ⟨s, rfl, h.ok, Only.refl _ _, hr hn, hn, fun _ => rfl, id, fun i _ => by rw [if_pos hn]⟩
    · rw [if_pos hn]
      obtain ⟨s1, e1, w1⟩ := Store.init0_spec s r 1 n (h.ok.mat r)
      exact ⟨s1, e1, h.ok.only w1.only w1.wf, w1.only, w1.width, w1.height,
        fun q => absurd q hn, w1.plain, fun i hi => by
          rw [w1.ent i 0 hi (by decide), if_neg hn]⟩
  obtain ⟨s1, e1, ok1, o1, w1, hh1, k1, pl1, en1⟩ := hinit
  obtain ⟨s2, e2, ok2, o2, w2, hh2, _, en2⟩ := Store.warmStart_spec ok1 o1 w1 hh1 en1 prev hp
    (fun p hpp hpn => by
      by_cases hpr : p = r
      · subst hpr; rw [k1 hpn]
      · exact o1.mat p hpr) pl1
  have hJs : s2.smat = s.smat := o2.smat
  have hWs : s2.mat W = s.mat W := o2.mat W (Ne.symm h4)
  obtain ⟨s3, e3, ok3, f3, fr3, _, wM, hhM, eM⟩ := Store.formM_spec hst ok2 (J := J)
    (reg := .gsReg) (W := W) (M := .gsM) (by rw [hJs]; exact h.inRange) hJ (by rw [hJs]; exact hf)
    (by rw [hWs]; exact h.wW) (by rw [hWs, hJs]; exact h.hW)
  rw [hJs, h.rows] at wM hhM
  have hr3 : s3.mat r = s2.mat r := f3.mat r h1
  rw [Store.gsSolveL] at hok
  simp only [deref, ok_bind, h.hB] at hok
  have hloop : ∃ q, s3.gsIterationL .gsM right limits r r = .ok q := by
    by_cases hn : (s.mat r).height = n
    · rw [if_neg (by simpa using hn)] at e1 hok
      rw [e1, ok_bind, e2, ok_bind, e3, ok_bind] at hok
      exact gsLoop_begins hm hok
    · rw [if_pos hn] at e1 hok
      rw [e1, ok_bind, e2, ok_bind, e3, ok_bind] at hok
      exact gsLoop_begins hm hok
  obtain ⟨q, hq⟩ := hloop
  have := gsIterationL_diag hq (Ne.symm h1) (ok3.mat _) (i := i) (by rw [hr3, hh2]; exact hi)
    (by rw [wM]; exact hi) (by rw [hhM]; exact hi)
  rw [eM i i (by rw [hJs, h.rows]; exact hi) (by rw [hJs, h.rows]; exact hi), hJs, hWs] at this
  exact this

/-- The solver call of the optimized system with the iteration. -/
theorem optCallR_wp {m : Nat} (hm : 1 ≤ m) (e : ℝ) {mem : Store ℝ} {n : Nat}
    (h : SleIn 3 2 mem .ivJ .ivMinv .ivRight n) (hi : Inv 3 2 sysRestr mem)
    (hwl : (mem.mat .ivLimits).width = 2) (hhl : (mem.mat .ivLimits).height = n)
    (hlam : LamOk mem) {E : Err → Prop}
    (hE : (∀ i, i < n → sysMat 3 2 mem .ivJ .ivMinv i i ≠ 0) ∨ ∀ e, E e) :
    Wp (optCallR (.gs m e) mem) (fun q => Inv 3 2 sysRestr q.1 ∧
      Frame (fun a => a = .ivLambda ∨ (Solver.gs m e).Own a) (Solver.gs m e).OwnS mem q.1 ∧
      (q.1.mat .ivLambda).height = n ∧ (0 < n → (q.1.mat .ivLambda).width = 1) ∧
      ∃ e', 0 < n → (Solver.gs 1 e').Solved n (sysMat 3 2 mem .ivJ .ivMinv)
        (fun i => (mem.mat .ivRight).ent i 0) (fun i => (mem.mat .ivLimits).ent i 0)
        (fun i => (mem.mat .ivLimits).ent i 1) (fun i => (q.1.mat .ivLambda).ent i 0)) E := by
  have ec : optCallR (.gs m e) mem = mem.gsSolveL 3 2 m e .ivJ .ivMinv .ivRight .ivLimits
    (some .ivLambda) (some .ivLambda) := rfl
  have inv : ∀ {q}, optCallR (.gs m e) mem = .ok q → Inv 3 2 sysRestr q.1 := by
    intro q hq
    have := m_optCallR divOk_real (.gs m e) (mem := mem) hi
    rw [hq] at this
    exact this
  have frm : ∀ {q}, optCallR (.gs m e) mem = .ok q →
      Frame (fun a => a = .ivLambda ∨ (Solver.gs m e).Own a) (Solver.gs m e).OwnS mem q.1 := by
    intro q hq
    have h2 := (Solver.gs m e).fr_solveL (s := mem) 3 2 .ivJ .ivMinv .ivRight .ivLimits
      (some .ivLambda) (some .ivLambda)
    rw [show (Solver.gs m e).solveL 3 2 mem .ivJ .ivMinv .ivRight .ivLimits (some .ivLambda)
      (some .ivLambda) = .ok q from hq] at h2
    exact Frame.mono h2 (fun _ q => q.imp (fun q => Option.some.inj q) id) (fun _ q => q)
  rcases Nat.eq_zero_or_pos n with hn | hn
  · subst hn
    obtain ⟨s', b, e1, h1⟩ := gsSolveL_none h hi m e
    have e2 := ec.trans e1
    have i2 := inv e2
    have f2 := frm e2
    rw [e2, wp_ok]
    exact ⟨i2, f2, h1, fun p => absurd p (Nat.lt_irrefl 0), 1, fun p => absurd p (Nat.lt_irrefl 0)⟩
  · have hl : (mem.mat .ivLambda).height = n → (mem.mat .ivLambda).width = 1 := fun q => by
      rcases hlam with q' | q'
      · omega
      · exact q'
    by_cases hM : ∀ i, i < n → sysMat 3 2 mem .ivJ .ivMinv i i ≠ 0
    · obtain ⟨s', c, y, x0, e1, _, _, _, w1, h1, en, _, it⟩ := Store.gsSolveL_spec
        (prev := some .ivLambda) (r := .ivLambda) (by decide) h
        (by decide) (hi.sfresh _) hwl hhl (by decide) (by decide) (by decide) (by decide)
        (by decide) (by decide) (fun p hp => by cases hp; exact hl) hl hM m e
      have e2 := ec.trans e1
      have i2 := inv e2
      have f2 := frm e2
      rw [e2, wp_ok]
      obtain ⟨x, hx⟩ := it.last hm
      obtain ⟨e', hs⟩ := solved_once (lam := fun i => (s'.mat .ivLambda).ent i 0) (x := x) hM
        (b := fun i => (mem.mat .ivRight).ent i 0) (lo := fun i => (mem.mat .ivLimits).ent i 0)
        (hi := fun i => (mem.mat .ivLimits).ent i 1) (fun i hi' => by rw [en i hi', hx])
      exact ⟨i2, f2, h1, fun _ => w1, e', fun _ => hs⟩
    · have hez : ∀ e', E e' := hE.resolve_left hM
      cases hq : optCallR (.gs m e) mem with
      | error e' => exact hez e'
      | ok q =>
        refine absurd (fun i hi' => ?_) hM
        exact Store.gsSolveL_swept (by decide) (r := .ivLambda) (prev := some .ivLambda)
          (limits := .ivLimits) (maxIter := m) (e := e) h (by decide) (hi.sfresh _)
          (by decide) (by decide) (fun p hp => by cases hp; exact hl) hl hm (ec.symm.trans hq) hi'

theorem optSolveR_wp {w : World ℝ} {dt : ℝ} (hdt : dt ≠ 0) {mem : Store ℝ} {n : Nat}
    (h : SleIn 3 2 mem .ivJ .ivMinv .ivRight n) (hi : Inv 3 2 sysRestr mem)
    (hwl : (mem.mat .ivLimits).width = 2) (hhl : (mem.mat .ivLimits).height = n)
    (hlam : LamOk mem) {m : Nat} {e : ℝ} (hsv : w.sle = some (.gs m e)) (hm : 1 ≤ m)
    {E : Err → Prop} (hE : (∀ i, i < n → sysMat 3 2 mem .ivJ .ivMinv i i ≠ 0) ∨ ∀ e, E e) :
    Wp (w.optSolveR dt mem) (fun mem' => Inv 3 2 sysRestr mem' ∧ LamOk mem' ∧
      (∀ a, a = .ivFExt ∨ a = .ivMinv → mem'.mat a = mem.mat a) ∧
      (mem'.smat .ivSreg0).height = n ∧ ∃ e', ∃ lam : Nat → ℝ,
        (0 < n → (Solver.gs 1 e').Solved n (sysMat 3 2 mem .ivJ .ivMinv)
          (fun i => (mem.mat .ivRight).ent i 0)
          (fun i => (mem.mat .ivLimits).ent i 0) (fun i => (mem.mat .ivLimits).ent i 1) lam) ∧
        ∀ f j k, f < n → j < 2 → k < 3 → (mem.smat .ivJ).blk 2 f j ≠ 255 →
          (mem'.smat .ivSreg0).ent f (j * 3 + k) =
            lam f / dt * (mem.smat .ivJ).ent f (j * 3 + k)) E := by
  rw [World.optSolveR, hsv]
  simp only [deref, ok_bind]
  rw [wp_bind]
  refine (optCallR_wp hm e h hi hwl hhl hlam hE).mono ?_ (fun _ q => q)
  rintro q ⟨hqi, hqf, hh, hq3, e', hq4⟩
  rw [fp_div hdt, ok_bind]
  obtain ⟨m1, e1, w1⟩ := Store.scale_spec q.1 .ivLambda ((Fp.lit 1 : ℝ) / dt) .ivReg0
    (hqi.mat _) (hqi.mat _)
  have i1 := hqi.wrote w1
  rw [e1, ok_bind]
  have hJ1 : m1.smat .ivJ = mem.smat .ivJ := by
    rw [w1.only.smat, hqf.smat _ (ownS_not (Or.inl rfl))]
  have hwd : (m1.mat .ivReg0).width = 1 ∨ (m1.smat .ivJ).height = 0 := by
    rw [hJ1, h.rows, w1.width]
    rcases Nat.eq_zero_or_pos n with hn | hn
    · exact Or.inr hn
    · exact Or.inl (hq3 hn)
  obtain ⟨m2, e2, w2⟩ := Store.sleftScale_spec 3 2 (by decide) m1 .ivJ .ivSreg0 .ivReg0
    (by decide) (i1.smat _) (by rw [hJ1]; exact h.inRange) (i1.smat _) (i1.sfresh _)
    (i1.mat _) hwd (by rw [hJ1, h.rows, w1.height, hh])
  have i2 := i1.swrote w2
  have hl2 : m2.mat .ivLambda = q.1.mat .ivLambda := by
    rw [w2.only.mat, w1.only.mat _ (by decide)]
  rw [e2, wp_ok]
  refine ⟨i2, ?_, fun a ha => ?_, by rw [w2.height, hJ1, h.rows], e',
    fun i => (q.1.mat .ivLambda).ent i 0, hq4, fun f j k hf hj hk hb => ?_⟩
  · unfold LamOk
    rw [hl2, hh]
    rcases Nat.eq_zero_or_pos n with hn | hn
    · exact Or.inl hn
    · exact Or.inr (hq3 hn)
  · rw [w2.only.mat, w1.only.mat _ (by rcases ha with rfl | rfl <;> decide),
      hqf.mat _ (own_not (by rcases ha with rfl | rfl <;> simp))]
  · have w0 := hq3 (by omega)
    rw [w2.ent f j k (by rw [hJ1, h.rows]; exact hf) hj hk (by rw [hJ1]; exact hb), hJ1,
      w1.ent f 0 (by rw [hh]; exact hf) (by rw [w0]; decide)]
    simp only [fp_lit]
    push_cast
    ring

/-- The world with an iteration that is allowed one sweep, for the tolerance `e`. -/
noncomputable def World.once (w : World ℝ) (e : ℝ) : World ℝ := w.withSle (some (.gs 1 e))

theorem optConstraintsR_wp {w : World ℝ} {B : Nat → Nat → Nat} (hfit : w.Fit B) {dt : ℝ}
    {raw : Output ℝ} {mem : Store ℝ} {s : SysState ℝ} (hinv : Inv 3 2 sysRestr mem)
    (hm : w.Masses mem) (hlam : LamOk mem) (hs : s.Wf) (hn : w.bodyCount ≤ s.n)
    (hc : w.fullCount ≤ s.nc) {m : Nat} {e : ℝ} (hsv : w.sle = some (.gs m e)) (hm1 : 1 ≤ m)
    {E : Err → Prop} (hdt : dt = 0 → E .divZero)
    (hcalc : ∀ c ∈ w.cs, ∀ o, Wp ((w.cons c).kind.calculate ((w.cons c).idx w.bodies) o s)
      (fun _ => True) E)
    (hE : (∀ out, w.Calc s out → ∀ f, f < w.fullCount → w.sysM B out f f ≠ 0) ∨ ∀ e, E e) :
    Wp (w.optConstraintsR dt raw mem s) (fun q => dt ≠ 0 ∧ Inv 3 2 sysRestr q.1 ∧ w.Masses q.1 ∧
      LamOk q.1 ∧ ∃ e' out lam, (w.once e').OptEff B dt s q.2 out lam) E := by
  rw [World.optConstraintsR, wp_bind]
  refine (optAssemble_wp hfit hinv hcalc).mono ?_ (fun _ q => q)
  rintro m1 ⟨out, hout, ha⟩
  obtain ⟨m2, e2, i2, o2, w2, h2, v2⟩ := loadQdot_spec hs hn ha.inv
  obtain ⟨m3, e3, i3, o3, w3, h3, v3⟩ := loadFext_spec hs hn i2
  rw [e2, ok_bind, e3, ok_bind, wp_bind]
  have hJ3 : m3.smat .ivJ = m1.smat .ivJ := by rw [o3.smat, o2.smat]
  have hM3 : m3.mat .ivMinv = mem.mat .ivMinv := by
    rw [o3.mat _ (by decide), o2.mat _ (by decide), ha.frame.mat _ (by simp)]
  have hL3 : m3.mat .ivLambda = mem.mat .ivLambda := by
    rw [o3.mat _ (by decide), o2.mat _ (by decide), ha.frame.mat _ (by simp)]
  have k3 : ∀ a, a = MId.ivVBias ∨ a = .ivC ∨ a = .ivLimits → m3.mat a = m1.mat a := by
    rintro a (rfl | rfl | rfl) <;> rw [o3.mat _ (by decide), o2.mat _ (by decide)]
  have hm3 := hm.frame hM3
  have hQ3 : m3.mat .ivQdot = m2.mat .ivQdot := o3.mat _ (by decide)
  refine (optRight_wp (n := w.bodyCount * 3) (m := w.fullCount) i3
    (by rw [hJ3]; exact AsmRows_inRange hfit ha) (by rw [hJ3, ha.wJ, Nat.mul_comm])
    (by rw [hJ3, ha.hJ]) w3 h3 hm3.width hm3.height (by rw [hQ3]; exact w2) (by rw [hQ3]; exact h2)
    (by rw [k3 _ (Or.inl rfl)]; exact ha.wb) (by rw [k3 _ (Or.inl rfl)]; exact ha.hb)
    (by rw [k3 _ (Or.inr (Or.inl rfl))]; exact ha.we)
    (by rw [k3 _ (Or.inr (Or.inl rfl))]; exact ha.he) hdt).mono ?_ (fun _ q => q)
  rintro m4 ⟨hdt0, i4, f4, w4, h4, v4⟩
  have hJ4 : m4.smat .ivJ = m1.smat .ivJ := by rw [f4.smat _ id, hJ3]
  have hM4 : m4.mat .ivMinv = mem.mat .ivMinv := by rw [f4.mat _ (by simp), hM3]
  have hL4 : m4.mat .ivLambda = mem.mat .ivLambda := by rw [f4.mat _ (by simp), hL3]
  have hF4 : m4.mat .ivFExt = m3.mat .ivFExt := f4.mat _ (by simp)
  have hl4 : m4.mat .ivLimits = m1.mat .ivLimits := by
    rw [f4.mat _ (by simp), k3 _ (Or.inr (Or.inr rfl))]
  have hm4 := hm.frame hM4
  have hsle : SleIn 3 2 m4 .ivJ .ivMinv .ivRight w.fullCount :=
    ⟨i4.ok, by rw [hJ4]; exact AsmRows_inRange hfit ha, by rw [hJ4]; exact ha.hJ, hm4.width,
      by rw [hm4.height, hJ4, ha.wJ, Nat.mul_comm], w4, h4⟩
  have hMs : ∀ f g, f < w.fullCount → g < w.fullCount →
      sysMat 3 2 m4 .ivJ .ivMinv f g = w.sysM B out f g := fun f g hf hg =>
    sysMat_eq hfit ha hm4 hJ4 hf hg
  have hR : ∀ f, f < w.fullCount → (m4.mat .ivRight).ent f 0 = w.optRhs B out dt s f := by
    intro f hf
    rw [v4 f hf, World.optRhs, sum_cols, World.rowV, k3 _ (Or.inl rfl), k3 _ (Or.inr (Or.inl rfl)),
      ha.bias f hf, ha.err f hf]
    congr 3
    refine Finset.sum_congr rfl (fun i hi => Coord.sum_congr (fun q => ?_))
    have hi := mem_range.mp hi
    rw [hJ3, AsmRows_val hfit ha hf, hm3.ent q i hi, v3 q i hi, hQ3, v2 q i hi, World.massAt]
    ring
  rw [wp_bind]
  refine (optSolveR_wp (w := w) hdt0 hsle i4 (by rw [hl4]; exact ha.wl) (by rw [hl4]; exact ha.hl)
    (by unfold LamOk; rw [hL4]; exact hlam) hsv hm1 ?_).mono ?_ (fun _ q => q)
  · exact hE.imp_left fun p i hi => by rw [hMs i i hi hi]; exact p out hout i hi
  · rintro m5 ⟨i5, lam5, k5, h5, e', lam, hsol, hsr⟩
    have hM5 : m5.mat .ivMinv = mem.mat .ivMinv := by rw [k5 _ (Or.inr rfl), hM4]
    have hF5 : m5.mat .ivFExt = m3.mat .ivFExt := by rw [k5 _ (Or.inl rfl), hF4]
    have hm5 := hm.frame hM5
    obtain ⟨s', e6, wf6, n6, nc6, r6, a6, keep6⟩ := applyReactions_spec hfit i5 h5
      (by rw [hF5]; exact w3) (by rw [hF5]; exact h3) hm5.width hm5.height hs hn hc
    rw [e6, ok_bind]
    have solved : 0 < w.fullCount → (Solver.gs 1 e').Solved w.fullCount (w.sysM B out)
        (w.optRhs B out dt s) (fun f => (out (w.rowI f)).limits (w.rowK f) 0 * dt)
        (fun f => (out (w.rowI f)).limits (w.rowK f) 1 * dt) lam := by
      intro hp
      refine (hsol hp).congr hMs hR (fun f hf => ?_) (fun f hf => ?_) (fun _ _ => rfl)
      · rw [hl4, ha.low f hf]
      · rw [hl4, ha.high f hf]
    have react : ∀ (q : Coord) f j, f < w.fullCount → j < w.rowN f → B (w.rowC f) j % 256 ≠ 255 →
        s'.rval q.r (f * 2 + j) = lam f / dt * (out (w.rowI f)).J (w.rowK f) (j * 3 + q.d) := by
      intro q f j hf hj hne
      obtain ⟨r2, rb⟩ := hfit.rowB hf
      have hb := ha.blk f j hf (by omega)
      rw [if_pos ⟨hf, hj⟩] at hb
      rw [r6 q f j hf (by omega), hsr f j q.d hf (by omega) q.d_lt
        (by rw [hJ4, hb]; exact hne), hJ4,
        ha.ent f (j * 3 + q.d) hf (by have := q.d_lt; beta_reduce; omega)]
    have acc : ∀ (q : Coord) i, i < w.bodyCount →
        s'.val q.a i = (s.val q.f i + w.reactSum B s'.rval w.fullCount q i) / w.massAt q i := by
      intro q i hi
      have : (m5.mat .ivMinv).ent (i * 3 + q.dm) 0 = 1 / w.massAt q i := by
        cases q with
        | x => exact hm5.ent .x i hi
        | y => exact hm5.ent .x i hi
        | th => exact hm5.ent .th i hi
      rw [a6 q i hi, hF5, v3 q i hi, this]
      ring
    exact ⟨hdt0, i5, hm5, lam5, e', out, lam, hout, ⟨.gs 1 e', rfl, solved⟩, react, acc, keep6,
      wf6, n6, nc6⟩

section
variable {w : World ℝ} {B : Nat → Nat → Nat}

/-- Conditions under which a sub-step of length `h` from a state with property `P` succeeds in a
release build. -/
structure World.GoodR (w : World ℝ) (B : Nat → Nat → Nat) (h : ℝ) (P : SysState ℝ → Prop) :
    Prop where
  ne : h ≠ 0
  forces : ∀ s, P s → ∃ s1, w.processForces { s with dt := h } = .ok s1
  calc_ : ∀ s s1, P s → w.processForces { s with dt := h } = .ok s1 → ∀ c ∈ w.cs, ∀ o, ∃ out,
    (w.cons c).kind.calculate ((w.cons c).idx w.bodies) o s1 = .ok out
  diag : ∀ s s1 out, P s → w.processForces { s with dt := h } = .ok s1 → w.Calc s1 out →
    ∀ f, f < w.fullCount → w.sysM B out f f ≠ 0

/-- Conditions under which `n` sub-steps succeed in a release build: the state before sub-step `j`
has the property `P j`. -/
structure World.GoodRunR (w : World ℝ) (B : Nat → Nat → Nat) (h : ℝ) (n : Nat)
    (P : Nat → SysState ℝ → Prop) : Prop where
  good : ∀ j, j < n → w.GoodR B h (P j)
  keep : ∀ j, j < n → ∀ e s s1 s' out lam, P j s → (w.once e).Step B h s s1 s' out lam →
    P (j + 1) s'

/-- One sub-step in a release build. -/
theorem substepR_wp (hfit : w.Fit B) (hg : ∀ g ∈ w.fg, (w.gens g).OnlyForces) {env : Env ℝ} {h : ℝ}
    {x : Ctx ℝ} {d : ℝ} {s : SysState ℝ} (hm : w.Mid x.mem) (hs : s.Wf) (hn : w.bodyCount ≤ s.n)
    (hc : w.fullCount ≤ s.nc) {m : Nat} {e : ℝ} (hsv : w.sle = some (.gs m e)) (hm1 : 1 ≤ m)
    {P : SysState ℝ → Prop} {E : Err → Prop} (hE : (∀ e, E e) ∨ (w.GoodR B h P ∧ P s)) :
    Wp (odeRun (w.optEvalR env h) x (.nsv d) s h) (fun z => w.Mid z.1.mem ∧ z.2.1 = .nsv h ∧
      ∃ e' s1 out lam, (w.once e').Step B h s s1 z.2.2 out lam) E := by
  rw [C33_nsv_run, wp_bind, World.optEvalR, wp_bind]
  have hfw := processForces_wp hg { s with dt := h }
  cases ef : w.processForces { s with dt := h } with
  | error e =>
    rcases hE with hE | ⟨hg, hP⟩
    · exact hE e
    · obtain ⟨s1, e1⟩ := hg.forces s hP
      rw [e1] at ef
      cases ef
  | ok s1 =>
    rw [ef] at hfw
    have hfw : ForceWrites { s with dt := h } s1 := hfw
    rw [wp_ok, wp_bind]
    refine (optConstraintsR_wp (B := B) hfit hm.inv hm.mass hm.lam (hfw.wf (wf_setDt hs h))
      (by rw [hfw.n]; exact hn) (by rw [hfw.nc]; exact hc) hsv hm1 (E := E) ?_ ?_ ?_).mono ?_
      (fun _ q => q)
    · intro h0
      rcases hE with hE | ⟨hg, _⟩
      · exact hE _
      · exact absurd h0 hg.ne
    · intro c hcm o
      rcases hE with hE | ⟨hg, hP⟩
      · exact (Wp.mono (wp_anyErr_iff.mpr fun _ _ => trivial) (fun _ q => q) (fun e _ => hE e))
      · obtain ⟨out, e⟩ := hg.calc_ s s1 hP ef c hcm o
        rw [e]; trivial
    · rcases hE with hE | ⟨hg, hP⟩
      · exact Or.inr hE
      · exact Or.inl fun out hout => hg.diag s s1 out hP ef hout
    · rintro q ⟨hh, qi, qm, ql, e', out, lam, qe⟩
      rw [wp_pure]
      obtain ⟨s', e, st⟩ := step_of (w := w.once e') hh hn ef hfw qe
      simp only []
      rw [e, ok_bind, wp_pure]
      exact ⟨⟨qi, qm, ql⟩, rfl, e', s1, out, lam, st⟩

/-- A sequence of `k` sub-steps of length `h` in a release build. -/
def World.TraceR (w : World ℝ) (B : Nat → Nat → Nat) (h : ℝ) (k : Nat) (S : Nat → SysState ℝ) :
    Prop :=
  ∀ j, j < k → ∃ e s1 out lam, (w.once e).Step B h (S j) s1 (S (j + 1)) out lam

theorem World.TraceR.snoc {h : ℝ} {k : Nat} {S : Nat → SysState ℝ} (t : w.TraceR B h k S) {e : ℝ}
    {s1 s' : SysState ℝ} {out : Nat → Output ℝ} {lam : Nat → ℝ}
    (st : (w.once e).Step B h (S k) s1 s' out lam) :
    w.TraceR B h (k + 1) (fun j => if j ≤ k then S j else s') := by
  intro j hj
  rcases Nat.lt_or_eq_of_le (Nat.lt_succ_iff.mp hj) with hj | rfl
  · obtain ⟨e, s1, out, lam, h⟩ := t j hj
    refine ⟨e, s1, out, lam, ?_⟩
    simp only [if_pos (Nat.le_of_lt hj), if_pos (Nat.succ_le_of_lt hj)]
    exact h
  · refine ⟨e, s1, out, lam, ?_⟩
    simp only [if_pos (Nat.le_refl _), if_neg (Nat.not_succ_le_self _)]
    exact st

theorem World.TraceR.wf {h : ℝ} {k : Nat} {S : Nat → SysState ℝ} (t : w.TraceR B h k S)
    (h0 : (S 0).Wf) : ∀ j, j ≤ k → (S j).Wf ∧ (S j).n = (S 0).n ∧ (S j).nc = (S 0).nc ∧
      ∀ i, (S j).val .m i = (S 0).val .m i
  | 0, _ => ⟨h0, rfl, rfl, fun _ => rfl⟩
  | j + 1, hj => by
    obtain ⟨e, s1, out, lam, st⟩ := t j hj
    have ih := t.wf h0 j (by omega)
    exact ⟨st.wf, st.n.trans ih.2.1, st.nc.trans ih.2.2.1, fun i => (st.mass i).trans (ih.2.2.2 i)⟩

/-- The sub-steps of one call in a release build. -/
theorem optLoopR_trace (hfit : w.Fit B) (hg : ∀ g ∈ w.fg, (w.gens g).OnlyForces) {env : Env ℝ}
    {dt : ℝ} {steps : Int} {mem : Store ℝ} {s : SysState ℝ} (hnsv : w.nsv.sort = 2)
    (hm : w.Mid mem) (hs : s.Wf) (hn : w.bodyCount ≤ s.n) (hc : w.fullCount ≤ s.nc)
    {m : Nat} {e : ℝ} (hsv : w.sle = some (.gs m e)) (hm1 : 1 ≤ m)
    {P : Nat → SysState ℝ → Prop} {E : Err → Prop}
    (hE : (∀ e, E e) ∨ (w.GoodRunR B (dt / steps) steps.toNat P ∧ P 0 s)) :
    Wp (w.optLoopR env dt steps s mem) (fun q => w.Mid q.1.mem ∧ q.2.1.sort = 2 ∧
      ∃ S : Nat → SysState ℝ, S 0 = s ∧ S steps.toNat = q.2.2 ∧
        w.TraceR B (dt / steps) steps.toNat S) E := by
  rw [World.optLoopR]
  refine wp_forN' (fun k (q : Ctx ℝ × Ode ℝ × SysState ℝ) => w.Mid q.1.mem ∧ q.2.1.sort = 2 ∧
      q.2.2.Wf ∧ q.2.2.n = s.n ∧ q.2.2.nc = s.nc ∧
      ((∀ e, E e) ∨ (w.GoodRunR B (dt / steps) steps.toNat P ∧ P k q.2.2)) ∧
      ∃ S : Nat → SysState ℝ, S 0 = s ∧ S k = q.2.2 ∧ w.TraceR B (dt / steps) k S)
    ⟨hm, hnsv, hs, rfl, rfl, hE, fun _ => s, rfl, rfl, fun j hj => absurd hj (by omega)⟩ ?_ ?_
  · rintro k hk q ⟨qm, qn, qw, q1, q2, qE, S, S0, Sk, St⟩
    have h0 : ((steps : Int) : ℝ) ≠ 0 := by
      have : 0 < steps := by omega
      exact_mod_cast this.ne'
    have hl : (Fp.lit (steps : Rat) : ℝ) = (steps : ℝ) := by simp [fp_lit]
    rw [hl, fp_div h0, ok_bind]
    obtain ⟨d, hd⟩ := sort_nsv qn
    rw [hd]
    refine (substepR_wp (env := env) hfit hg (x := q.1) (d := d) qm qw (by omega) (by omega) hsv hm1
      (qE.imp_right fun g => ⟨g.1.good k hk, g.2⟩)).mono ?_ (fun _ z => z)
    rintro z ⟨z1, z2, e', s1, out, lam, zs⟩
    refine ⟨z1, by rw [z2]; rfl, zs.wf, by rw [zs.n, q1], by rw [zs.nc, q2], ?_, ?_⟩
    · rcases qE with qE | ⟨qg, qP⟩
      · exact Or.inl qE
      · exact Or.inr ⟨qg, qg.keep k hk _ _ _ _ _ _ qP zs⟩
    · rw [← Sk] at zs
      exact ⟨_, by simp [S0], by simp, St.snoc zs⟩
  · rintro q ⟨qm, qn, _, _, _, _, S, S0, Sk, St⟩
    exact ⟨qm, qn, S, S0, Sk, St⟩

/-- The effect of a call of `process` of the optimized system in a release build. -/
structure World.OptRunR (w : World ℝ) (B : Nat → Nat → Nat) (dt : ℝ) (steps : Int) (w' : World ℝ)
    (S : Nat → SysState ℝ) : Prop where
  start : w.Populated (S 0)
  mass : ∀ i, i < w.bodyCount → ∀ c : Coord, w.massAt c i ≠ 0
  trace : w.TraceR B (dt / steps) steps.toNat S
  stored : w.Stored w' (S steps.toNat) (fun f k => f * 2 + k)

theorem optProcessR_spec (hr : w.Ready B) {env : Env ℝ} {dt : ℝ} {steps : Int}
    {m : Nat} {e : ℝ} (hsv : w.sle = some (.gs m e)) (hm1 : 1 ≤ m)
    {P : Nat → SysState ℝ → Prop} {E : Err → Prop}
    (hE : (∀ e, E e) ∨ ((∀ i, i < w.bodyCount → ∀ c : Coord, w.massAt c i ≠ 0) ∧
      w.GoodRunR B (dt / steps) steps.toNat P ∧ ∀ s, w.Populated s → P 0 s)) :
    Wp (w.optProcessR env dt steps) (fun w' => ∃ S, w.OptRunR B dt steps w' S) E := by
  rw [World.optProcessR]
  obtain ⟨s, e, hp⟩ := populated_of hr.sound.st.wf hr.fit.con
  rw [e, ok_bind, wp_bind]
  have hm : Wp (w.populateMass w.mem) (fun m => m.mat .ivLambda = w.mem.mat .ivLambda) anyErr :=
    (m_populateMass hr.sound.mem).mono (fun _ h => h.2) (fun _ h => h)
  have hmass : (∃ i, i < w.bodyCount ∧ ∃ c : Coord, w.massAt c i = 0) → E .divZero := by
    rintro ⟨i, hi, c, h0⟩
    rcases hE with hE | hE
    · exact hE _
    · exact absurd h0 (hE.1 i hi c)
  have hw := (populateMass_wp hr.sound.mem (E := E) hmass).and hm
  cases em : w.populateMass w.mem with
  | error er =>
    rw [em] at hw
    exact hw.1
  | ok mem =>
  rw [em] at hw
  obtain ⟨⟨i1, _, i3⟩, i4⟩ := hw
  rw [wp_ok, wp_bind]
  have hl : LamOk mem := by
    rw [LamOk, i4]
    exact hr.sound.lam
  refine (optLoopR_trace (env := env) (dt := dt) (steps := steps) (P := P) (E := E) hr.fit
      (fun g _ => hr.sound.gens g) hr.nsv ⟨i1, i3, hl⟩ hp.wf hp.n hp.nc hsv hm1
      (hE.imp_right fun q => ⟨q.2.1, q.2.2 s hp⟩)).mono ?_ (fun _ h => h)
  rintro q ⟨_, _, S, S0, Sk, St⟩
  have hS := St.wf (by rw [S0]; exact hp.wf) steps.toNat (Nat.le_refl _)
  rw [Sk, S0] at hS
  obtain ⟨w1, z, f1, f2, f3, f4, f5⟩ := propagate_spec
    (w := { w with st := q.2.2, mem := q.1.mem, nsv := q.2.1 })
    hr.fit.rows hr.fit.two hr.rb hr.cs hS.1
    (by rw [hS.2.1]; exact hp.n) (pos := fun f k => f * 2 + k) (by
      intro f k hf hk
      have h1 : f < w.fullCount := hf
      have h2 := hp.nc
      rw [hS.2.2.1]
      show f * 2 + k < s.nc * 2
      omega)
  obtain ⟨w3, r1, r2⟩ := record_ok (w := z.1) (by
    rw [f3]; exact hr.ring) q.1.times
  have hpr : ({ w with st := q.2.2, mem := q.1.mem, nsv := q.2.1 } : World ℝ).propagateResults q.2.2
      = .ok z.1 := by
    rw [World.propagateResults, f1, ok_bind, f2, ok_bind]
    rfl
  simp only []
  rw [hpr, ok_bind, r1, ok_bind, wp_pure]
  refine ⟨S, by rw [S0]; exact hp, i3.ne, St, ?_⟩
  rw [Sk]
  refine ⟨fun i hi c => ?_, fun i hi c j k hj hk => ?_, ?_⟩
  · have := f5.body i hi c
    rw [r2]
    exact this
  · have := f5.con i hi c j k hj hk
    rw [r2]
    exact this
  · simp only []
    rw [r2, f3]

/-- What a system with the iteration does is the same for any number of sweeps and tolerance. -/
theorem World.Move.ofOnce {m : Nat} {e e' h : ℝ} (hsv : w.sle = some (.gs m e)) {x x' : Motion}
    {mult : Nat → Nat → ℝ} (st : (w.once e').Move h x x' mult) : w.Move h x x' mult where
  ne := st.ne
  acc := st.acc
  vel := st.vel
  pos := st.pos
  indep := fun q => by rw [hsv] at q; cases q
  ge := fun q => by rw [hsv] at q; cases q
  cg := fun _ _ _ q => by rw [hsv] at q; cases q
  gs := fun _ _ _ => st.gs 1 e' rfl

/-- A sub-step of a release build is a sub-step of the motion. -/
theorem World.Step.moveR (p : w.Placed) (hfit : w.Fit (fun c k => w.at (w.bodyOf c k)))
    (hlow : w.Slim) (hp : w.Proper) (hg : w.Driven) {m : Nat} {e e' h : ℝ}
    (hsv : w.sle = some (.gs m e)) {s s1 s' : SysState ℝ} {out : Nat → Output ℝ} {lam : Nat → ℝ}
    (st : (w.once e').Step (fun c k => w.at (w.bodyOf c k)) h s s1 s' out lam) (hs : s.Wf)
    (hn : w.bodyCount ≤ s.n) (hm : ∀ b ∈ w.rb, s.val .m (w.at b) = (w.bodies b).m) :
    w.Move h (w.seen s) (w.seen s') (fun c j => lam (w.off (w.conAt c) + j) / h) ∧
      (∀ c ∈ w.cs, ∀ (q : Coord) j k, j < (w.cons c).rows → k < (w.cons c).bodyCount →
        w.forceAt s'.rval c q j k = w.reaction (w.seen s)
          (fun c j => lam (w.off (w.conAt c) + j) / h) c q j k) ∧
      (0 < h → w.GsRows e' h (w.seen s) (w.seen s')
        (fun c j => lam (w.off (w.conAt c) + j) / h)) := by
  have p' : (w.once e').Placed := ⟨p.rb, p.cs, p.lt, p.rbAt, p.index, p.place, p.bodies⟩
  have f' : (w.once e').Fit (fun c k => w.at (w.bodyOf c k)) :=
    ⟨hfit.pos, hfit.rows, hfit.two, hfit.idx, hfit.lt⟩
  have h1 := World.Step.obj (w := w.once e') p' f' st hs hn hm
  have h2 := h1.move (w := w.once e') p' hlow hp hg
  exact ⟨h2.1.ofOnce hsv, h2.2, fun hh => h1.gsRows (w := w.once e') p' hlow hp rfl hh⟩

theorem World.HistR.ready {G : Gen ℝ → Prop} {h : List (Op ℝ)} (hG : ∀ g, G g → g.OnlyForces)
    (hw : World.HistR G .opt h w) (hwd : w.Wired h) :
    w.Ready (fun c k => w.at (w.bodyOf c k)) ∧ w.Placed where
  left :=
    { fit := (hw.regs.placed hwd).fit hw.regs hwd
      sound := hw.sound divOk_real hG
      rb := hw.regs.bodies.nodup
      cs := hw.regs.cons.nodup
      nsv := hw.regs.nsv
      ring := hw.prof.ringOk }
  right := hw.regs.placed hwd

/-- Every successful call of `process` in a release build is a sequence of sub-steps that starts from
what the bodies show. -/
theorem World.HistR.moved {G : Gen ℝ → Prop} {h : List (Op ℝ)} (hG : ∀ g, G g → g.OnlyForces)
    (hw : World.HistR G .opt h w) (hst : w.Standard h) {m : Nat} {e : ℝ}
    (hsv : w.sle = some (.gs m e)) (hm1 : 1 ≤ m) {env : Env ℝ} {dt : ℝ} {steps : Int}
    {w' : World ℝ} (er : w.processR .opt env dt steps = .ok w') :
    ∃ X mult, X 0 = w.now ∧ w.Moved dt steps w' X mult ∧ (0 < dt → ∀ j, j < steps.toNat →
      ∃ e', w.GsRows e' (dt / steps) (X j) (X (j + 1)) (mult j)) := by
  obtain ⟨hr, p⟩ := hw.ready hG hst.wired
  have hlow := hst.slim hw.regs
  have hp := hst.proper hw.regs
  have hg := hst.driven hw.regs
  have := optProcessR_spec hr (env := env) (dt := dt) (steps := steps) hsv hm1
    (P := fun _ _ => True) (E := anyErr) (Or.inl fun _ => trivial)
  rw [show w.optProcessR env dt steps = .ok w' from er] at this
  obtain ⟨S, r⟩ := this
  have hx : ∀ j, ∃ e' s1 out lam, j < steps.toNat →
      (w.once e').Step (fun c k => w.at (w.bodyOf c k)) (dt / steps) (S j) s1 (S (j + 1)) out lam := by
    intro j
    by_cases hj : j < steps.toNat
    · obtain ⟨e', s1, out, lam, h⟩ := r.trace j hj
      exact ⟨e', s1, out, lam, fun _ => h⟩
    · exact ⟨0, S 0, fun _ => ⟨fun _ => 0, fun _ _ => 0, fun _ _ => 0, fun _ => 0, fun _ _ => 0,
        fun _ => 0, fun _ => 0⟩, fun _ => 0, fun h => absurd h hj⟩
  choose e' s1 out lam hstep using hx
  have hmv := fun j (hj : j < steps.toNat) => by
    have hw' := r.trace.wf r.start.wf j (by omega)
    exact World.Step.moveR p hr.fit hlow hp hg hsv (hstep j hj) hw'.1
      (by rw [hw'.2.1]; exact r.start.n) (fun b hb => by
        rw [hw'.2.2.2, r.start.mass _ (p.lt b hb), p.rbAt b hb])
  have hM : w.Moved dt steps w' (fun j => w.seen (S j))
      (fun j c i => lam j (w.off (w.conAt c) + i) / (dt / steps)) := by
    refine ⟨fun b hb q => ?_, fun b hb q => ?_, fun b hb q => ?_, fun j hj => (hmv j hj).1, ?_, ?_⟩
    · have h1 := r.start.pos q _ (p.lt b hb)
      have h2 := r.start.vel q _ (p.lt b hb)
      rw [p.rbAt b hb] at h1 h2
      exact ⟨h1, h2⟩
    · have h1 := r.start.acc q _ (p.lt b hb)
      rw [fp_lit] at h1
      exact h1.trans (by simp)
    · have h1 := r.stored.body _ (p.lt b hb) q
      rw [p.rbAt b hb] at h1
      exact ⟨h1.1.symm, h1.2.symm⟩
    · intro n hn c hc q j k hj hk
      obtain ⟨hi, hci⟩ := conAt_spec hc
      have := r.stored.con _ hi q j k (by rw [hci]; exact hj) (by rw [hci]; exact hk)
      rw [hci, hn] at this
      exact this.trans ((hmv n (by omega)).2.1 c hc q j k hj hk)
    · intro b hb q
      have := r.mass _ (p.lt b hb) q
      rw [World.massAt, p.rbAt b hb] at this
      exact this
  refine ⟨_, _, if_pos rfl, hM.start p hg, fun hdt j hj => ⟨e' j, ?_⟩⟩
  have hh : 0 < dt / steps := by
    have : 0 < steps := by omega
    exact div_pos hdt (by exact_mod_cast this)
  have s : ∀ j, w.SameAs (w.seen (S j)) (if j = 0 then w.now else w.seen (S j)) := by
    intro j
    by_cases hj : j = 0
    · subst hj
      rw [if_pos rfl]
      exact ⟨fun b hb q => (hM.first b hb q).1, fun b hb q => (hM.first b hb q).2,
        fun b hb q => hM.still b hb q⟩
    · rw [if_neg hj]
      exact ⟨fun _ _ _ => rfl, fun _ _ _ => rfl, fun _ _ _ => rfl⟩
  exact ((hmv j hj).2.2 hh).congr p (s j) (s (j + 1))

/-- A call of `process` of the optimized system returns in a release build if every row of the
constraints acts on a body in every motion that can occur; `R j` is a property of the motion before
sub-step `j`. -/
theorem World.HistR.goes {G : Gen ℝ → Prop} {h : List (Op ℝ)} (hG : ∀ g, G g → g.OnlyForces)
    (hw : World.HistR G .opt h w) (hst : w.Standard h) {m : Nat} {e : ℝ}
    (hsv : w.sle = some (.gs m e)) (hm1 : 1 ≤ m) {dt : ℝ} {steps : Int}
    (hm : ∀ b ∈ w.rb, ∀ q : Coord, (w.bodies b).mass q ≠ 0) (hdt : dt ≠ 0)
    (R : Nat → Motion → Prop)
    (h0 : ∀ x, w.Shows x w.bodies → (∀ b ∈ w.rb, ∀ q : Coord, x.acc b q = 0) → R 0 x)
    (hR : ∀ j, j < steps.toNat → ∀ x x' mult, R j x → w.Move (dt / steps) x x' mult →
      R (j + 1) x')
    (hS : ∀ j, j < steps.toNat → ∀ x, R j x → ∀ c ∈ w.cs, ∀ i, i < (w.cons c).rows →
      w.coupling (w.rowsOf x) c i c i ≠ 0) (env : Env ℝ) :
    ∃ w', w.processR .opt env dt steps = .ok w' := by
  obtain ⟨hr, p⟩ := hw.ready hG hst.wired
  have hlow := hst.slim hw.regs
  have hp := hst.proper hw.regs
  have hg := hst.driven hw.regs
  have hn0 : ∀ j, j < steps.toNat → dt / steps ≠ 0 := by
    intro j hj
    have : 0 < steps := by omega
    refine div_ne_zero hdt ?_
    exact_mod_cast this.ne'
  have seenDt : ∀ (s : SysState ℝ) (d : ℝ), (∀ b ∈ w.rb, s.val .m (w.at b) = (w.bodies b).m) →
      w.Seen ({ s with dt := d } : SysState ℝ) (w.seen s) := fun s d hs =>
    ⟨fun b _ q => rfl, fun b _ q => rfl, fun b _ q => rfl, hs⟩
  have key := optProcessR_spec hr (env := env) (dt := dt) (steps := steps) hsv hm1 (E := noErr)
    (P := fun j s => s.Wf ∧ w.bodyCount ≤ s.n ∧
      (∀ b ∈ w.rb, s.val .m (w.at b) = (w.bodies b).m) ∧ R j (w.seen s)) (Or.inr ⟨?_, ⟨?_, ?_⟩, ?_⟩)
  · obtain ⟨w', e, _⟩ := wp_noErr_iff.mp key
    exact ⟨w', e⟩
  · intro i hi c
    have : w.rbAt i ∈ w.rb := by
      rw [World.rbAt, List.getD_eq_getElem _ _ hi]
      exact List.getElem_mem hi
    exact hm _ this c
  · intro j hj
    refine ⟨hn0 j hj, ?_, ?_, ?_⟩
    · rintro s ⟨s1, s2, s3, s4⟩
      obtain ⟨s', e, _⟩ := forces_run p hg (wf_setDt s1 (dt / steps)) s2 (seenDt s _ s3)
      exact ⟨s', e⟩
    · rintro s s1 ⟨q1, q2, q3, q4⟩ e c hc o
      obtain ⟨s', e', f', g', _⟩ := forces_run p hg (wf_setDt q1 (dt / steps)) q2
          (seenDt s _ q3)
      rw [e] at e'
      cases e'
      obtain ⟨out, e, _⟩ := has_of p hp hc (f'.wf (wf_setDt q1 _)) (by rw [f'.n]; exact q2) g' o
      exact ⟨out, e⟩
    · rintro s s1 out ⟨q1, q2, q3, q4⟩ e hc f hf
      obtain ⟨s', e', f', g', _⟩ := forces_run p hg (wf_setDt q1 (dt / steps)) q2 (seenDt s _ q3)
      rw [e] at e'
      cases e'
      have sm : w.SameRows (fun c => out (w.conAt c)) (w.rowsOf (w.seen s)) := by
        refine same_of_has fun c hc' => ?_
        obtain ⟨hi, hci⟩ := conAt_spec hc'
        obtain ⟨o, eo⟩ := hc _ hi
        rw [hci] at eo
        obtain ⟨out', eo', h'⟩ := has_of p hp hc' (f'.wf (wf_setDt q1 _))
          (by rw [f'.n]; exact q2) g' o
        rw [eo] at eo'
        cases eo'
        exact h'
      obtain ⟨c, hc', i, hi, rfl⟩ := row_get p hr.fit hf
      rw [sysM_coupling p hr.fit hlow out hc' hi hc' hi, sm.coupling hc' hi hc' hi]
      exact hS j hj _ q4 c hc' i hi
  · rintro j hj e' s s1 s' out lam ⟨q1, q2, q3, q4⟩ st
    exact ⟨st.wf, by rw [st.n]; exact q2, fun b hb => by rw [st.mass]; exact q3 b hb,
      hR j hj _ _ _ q4 (World.Step.moveR p hr.fit hlow hp hg hsv st q1 q2 q3).1⟩
  · intro s hs
    refine ⟨hs.wf, hs.n, fun b hb => ?_, h0 _ (fun b hb q => ?_) (fun b hb q => ?_)⟩
    · rw [hs.mass _ (p.lt b hb), p.rbAt b hb]
    · have h1 := hs.pos q _ (p.lt b hb)
      have h2 := hs.vel q _ (p.lt b hb)
      rw [p.rbAt b hb] at h1 h2
      exact ⟨h1, h2⟩
    · have h1 := hs.acc q _ (p.lt b hb)
      rw [fp_lit] at h1
      exact h1.trans (by simp)

end

end Scs
