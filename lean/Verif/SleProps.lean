import Verif.GsPure
import Verif.GeSolve
import Verif.CgSolve
import Verif.Setup
import Mathlib.LinearAlgebra.Matrix.ToLinearEquiv

/-!
# Vocabulary and lemmas for the solver properties C15-C25
-/

namespace Scs

open Finset

/-- The dense matrix is not a private member of a solver. -/
def MId.Pub : MId → Prop
  | .gsM | .geA | .geM | .cgReg0 | .cgReg1 | .cgAp | .cgX | .cgR | .cgP | .cgA => False
  | _ => True

/-- The sparse matrix is not a private member of a solver. -/
def SId.Pub : SId → Prop
  | .gsReg | .geReg => False
  | _ => True

/-- The arguments of a solver call: `J` is (through `expand`) the `n` x `w` matrix `A`, `W` the column
`D`, `right` the column `b`. -/
structure Sys (st en : Nat) (s : Store ℝ) (J : SId) (W right : MId) (w n : Nat)
    (A : Nat → Nat → ℝ) (D b : Nat → ℝ) : Prop where
  layout : Layout st en (s.smat J)
  mat : Denotes st en s J w n A
  wts : s.Shows W 1 w (fun c _ => D c)
  rhs : s.Shows right 1 n (fun i _ => b i)
  pubJ : J.Pub
  pubW : W.Pub
  pubB : right.Pub

/-- `M x = b`, `n` equations. -/
def Solves (n : Nat) (M : Nat → Nat → ℝ) (b x : Nat → ℝ) : Prop :=
  ∀ i, i < n → ∑ j ∈ range n, M i j * x j = b i

theorem SReach.okR {st en : Nat} {s : Store ℝ} (h : SReach st en solverRestr s) :
    Inv st en solverRestr s := h.inv divOk_real solverRestr_ok

section
variable {st en : Nat} {s : Store ℝ} {J : SId} {W right : MId} {w n : Nat} {A : Nat → Nat → ℝ}
  {D b : Nat → ℝ}

theorem Ok.denotes (hst : 0 < st) (ok : Ok st en s) {a : SId} (hl : Layout st en (s.smat a)) :
    Denotes st en s a (s.smat a).width (s.smat a).height ((s.smat a).val st en) := by
  refine ⟨rfl, rfl, fun t => ?_⟩
  obtain ⟨s', e, hw⟩ := Store.expand_val st en hst s a t (ok.smat a) hl.inRange hl.distinct
    (ok.mat t)
  exact ⟨s', e, hw.shows, hw.only.others⟩

theorem Ok.eq_val (hst : 0 < st) (ok : Ok st en s) {a : SId} (hl : Layout st en (s.smat a))
    (hA : Denotes st en s a w n A) {r c : Nat} (hr : r < n) (hc : c < w) :
    (s.smat a).val st en r c = A r c := by
  obtain ⟨s1, e1, h1, _⟩ := (ok.denotes hst hl).expand (.user 0)
  obtain ⟨s2, e2, h2, _⟩ := hA.expand (.user 0)
  rw [e1] at e2
  cases e2
  have q1 := h1.get r c (by rw [hA.height]; exact hr) (by rw [hA.width]; exact hc)
  rw [h2.get r c hr hc] at q1
  exact (Except.ok.inj q1).symm

theorem Sys.sleIn (h : Sys st en s J W right w n A D b) (ok : Ok st en s) :
    SleIn st en s J W right n :=
  ⟨ok, h.layout.inRange, h.mat.height, h.wts.width, h.wts.height.trans h.mat.width.symm, h.rhs.width,
    h.rhs.height⟩

theorem Sys.sysMat_eq (hst : 0 < st) (h : Sys st en s J W right w n A D b) (ok : Ok st en s)
    {i j : Nat} (hi : i < n) (hj : j < n) : sysMat st en s J W i j = gram w A D i j := by
  unfold sysMat gram
  rw [h.mat.width]
  refine sum_congr rfl (fun c hc => ?_)
  have hc := mem_range.mp hc
  rw [ok.eq_val hst h.layout h.mat hi hc, ok.eq_val hst h.layout h.mat hj hc,
    show (fun c => (s.mat W).ent c 0) c = D c from h.wts.ent hc (by decide)]

theorem Sys.b_eq (h : Sys st en s J W right w n A D b) {i : Nat} (hi : i < n) :
    (s.mat right).ent i 0 = b i := h.rhs.ent hi (by decide)

theorem Sys.regular_iff (hst : 0 < st) (h : Sys st en s J W right w n A D b) (ok : Ok st en s) :
    Regular n (sysMat st en s J W) ↔ Regular n (gram w A D) := by
  unfold Regular
  refine forall_congr' (fun x => ?_)
  have : (∀ i, i < n → ∑ j ∈ range n, sysMat st en s J W i j * x j = 0) ↔
      (∀ i, i < n → ∑ j ∈ range n, gram w A D i j * x j = 0) := by
    refine forall_congr' (fun i => ?_)
    refine forall_congr' (fun hi => ?_)
    rw [sum_congr rfl (fun j hj => by rw [h.sysMat_eq hst ok hi (mem_range.mp hj)])]
  rw [this]

/-- In terms of Mathlib's matrices: `J W J^T` with `W` as a diagonal matrix. -/
noncomputable def jwjt (w n : Nat) (A : Nat → Nat → ℝ) (D : Nat → ℝ) : Matrix (Fin n) (Fin n) ℝ :=
  (Matrix.of fun (i : Fin n) (c : Fin w) => A i c) * Matrix.diagonal (fun c : Fin w => D c) *
    (Matrix.of fun (i : Fin n) (c : Fin w) => A i c).transpose

theorem jwjt_apply (w n : Nat) (A : Nat → Nat → ℝ) (D : Nat → ℝ) (i j : Fin n) :
    jwjt w n A D i j = gram w A D i j := by
  unfold jwjt gram
  rw [Matrix.mul_apply, ← Fin.sum_univ_eq_sum_range (fun c => A i c * D c * A j c)]
  refine sum_congr rfl (fun c _ => ?_)
  rw [Matrix.mul_diagonal]
  rfl

theorem regular_iff_det (w n : Nat) (A : Nat → Nat → ℝ) (D : Nat → ℝ) :
    Regular n (gram w A D) ↔ (jwjt w n A D).det ≠ 0 := by
  have hmul : ∀ (x : Nat → ℝ) (i : Fin n), (jwjt w n A D).mulVec (fun j => x j) i =
      ∑ j ∈ range n, gram w A D i j * x j := by
    intro x i
    rw [← Fin.sum_univ_eq_sum_range (fun j => gram w A D i j * x j), Matrix.mulVec, dotProduct]
    exact sum_congr rfl (fun j _ => by rw [jwjt_apply])
  constructor
  · intro h h0
    obtain ⟨v, hv, hv0⟩ := Matrix.exists_mulVec_eq_zero_iff.mpr h0
    apply hv
    have hx : (fun j : Fin n => (fun k : Nat => if hk : k < n then v ⟨k, hk⟩ else 0) (j : Nat)) = v := by
      funext j; simp
    funext j
    have := h (fun k => if hk : k < n then v ⟨k, hk⟩ else 0) (fun i hi => by
      have e := hmul (fun k => if hk : k < n then v ⟨k, hk⟩ else 0) ⟨i, hi⟩
      rw [hx, hv0] at e
      exact e.symm) j j.2
    simpa using this
  · intro h x hx
    by_contra hne
    push Not at hne
    obtain ⟨j, hj, hxj⟩ := hne
    apply h
    apply Matrix.exists_mulVec_eq_zero_iff.mp
    refine ⟨fun k : Fin n => x k, ?_, ?_⟩
    · intro h0
      exact hxj (congrFun h0 ⟨j, hj⟩)
    · funext i
      rw [hmul x i, hx i i.2]; rfl

theorem Regular.unique {M : Nat → Nat → ℝ} (h : Regular n M) {x y : Nat → ℝ}
    (hx : Solves n M b x) (hy : Solves n M b y) {i : Nat} (hi : i < n) : x i = y i := by
  have := h (fun j => x j - y j) (fun i hi => by
    have e1 := hx i hi
    have e2 := hy i hi
    simp only [mul_sub, sum_sub_distrib, e1, e2, sub_self]) i hi
  linarith

/-! ## Iterations -/

/-- `maxIter` rounds of `F` from `x0`, stopping with `true` after the first round whose effect passes
the test `T`; `y` is the final vector. -/
def FirstPass (T : (Nat → ℝ) → (Nat → ℝ) → Prop) (F : (Nat → ℝ) → Nat → ℝ) (n maxIter : Nat)
    (x0 : Nat → ℝ) (c : Bool) (y : Nat → ℝ) : Prop :=
  (c = true ∧ ∃ k, k < maxIter ∧ T (F^[k] x0) (F^[k + 1] x0) ∧
    (∀ l, l < k → ¬ T (F^[l] x0) (F^[l + 1] x0)) ∧ ∀ i, i < n → y i = F^[k + 1] x0 i) ∨
  (c = false ∧ (∀ k, k < maxIter → ¬ T (F^[k] x0) (F^[k + 1] x0)) ∧
    ∀ i, i < n → y i = F^[maxIter] x0 i)

/-- Every component changed by a relative amount below `e`. -/
def Settled (n : Nat) (e : ℝ) (x x' : Nat → ℝ) : Prop :=
  ∀ i, i < n → |x' i - x i| < e * max (1 / 1000) |x i|

/-- What `solve` without limits tests instead. -/
def Passed (n : Nat) (e : ℝ) (x x' : Nat → ℝ) : Prop :=
  ∀ i, i < n → |x' i| < (1 + e) * max (1 / 1000) (x i)

theorem lit1000 : (((1 / 1000 : Rat) : ℝ)) = 1 / 1000 := by norm_num

theorem settled_iff {n : Nat} {e : ℝ} (he : 0 < e) {x x' : Nat → ℝ} :
    maxTo (relChange x x') n < e ↔ Settled n e x x' := by
  rw [maxTo_lt]
  constructor
  · rintro ⟨_, h⟩ i hi
    have := h i hi
    rw [relChange, lit1000, div_lt_iff₀ (lt_of_lt_of_le (by norm_num) (le_max_left _ _))] at this
    exact this
  · intro h
    refine ⟨he, fun i hi => ?_⟩
    rw [relChange, lit1000, div_lt_iff₀ (lt_of_lt_of_le (by norm_num) (le_max_left _ _))]
    exact h i hi

theorem passed_iff {n : Nat} {e : ℝ} (he : 0 < e) {x x' : Nat → ℝ} :
    maxTo (gsTest x x') n < e ↔ Passed n e x x' := by
  rw [maxTo_lt]
  have key : ∀ i, gsTest x x' i < e ↔ |x' i| < (1 + e) * max (1 / 1000) (x i) := by
    intro i
    rw [gsTest, lit1000, div_lt_iff₀ (lt_of_lt_of_le (by norm_num) (le_max_left _ _))]
    constructor <;> intro h <;> linarith
  constructor
  · rintro ⟨_, h⟩ i hi
    exact (key i).mp (h i hi)
  · intro h
    exact ⟨he, fun i hi => (key i).mpr (h i hi)⟩

theorem Iterated.firstPass {T : (Nat → ℝ) → (Nat → ℝ) → Prop} {F F' : (Nat → ℝ) → Nat → ℝ}
    {Dt : (Nat → ℝ) → ℝ} {e : ℝ} {maxIter : Nat} {x0 X : Nat → ℝ} {c : Bool} {y : Nat → ℝ}
    (h : Iterated F Dt e maxIter x0 c y) (hF : F = F') (hT : ∀ x, Dt x < e ↔ T x (F' x))
    (hTl : ∀ x x' z z', (∀ i, i < n → x i = x' i) → (∀ i, i < n → z i = z' i) → (T x z ↔ T x' z'))
    (hl : Local n F') (hx : ∀ i, i < n → x0 i = X i) : FirstPass T F' n maxIter X c y := by
  subst hF
  have hit : ∀ k, ∀ i, i < n → F^[k] x0 i = F^[k] X i := fun k i hi => hl.iterate k x0 X hx i hi
  have hTk : ∀ k, Dt (F^[k] x0) < e ↔ T (F^[k] X) (F^[k + 1] X) := by
    intro k
    rw [hT, ← Function.iterate_succ_apply' F k x0]
    exact hTl _ _ _ _ (hit k) (hit (k + 1))
  cases c with
  | true =>
    obtain ⟨k, hk, h1, h2, h3⟩ := h.1 rfl
    exact Or.inl ⟨rfl, k, hk, (hTk k).mp h1, fun l hl => fun q => h2 l hl ((hTk l).mpr q),
      fun i hi => by rw [h3]; exact hit _ i hi⟩
  | false =>
    obtain ⟨h1, h2⟩ := h.2 rfl
    exact Or.inr ⟨rfl, fun k hk q => h1 k hk ((hTk k).mpr q), fun i hi => by rw [h2]; exact hit _ i hi⟩

theorem settled_local {e : ℝ} : ∀ x x' z z' : Nat → ℝ, (∀ i, i < n → x i = x' i) →
    (∀ i, i < n → z i = z' i) → (Settled n e x z ↔ Settled n e x' z') := by
  intro x x' z z' h1 h2
  unfold Settled
  refine forall_congr' (fun i => forall_congr' (fun hi => ?_))
  rw [h1 i hi, h2 i hi]

theorem passed_local {e : ℝ} : ∀ x x' z z' : Nat → ℝ, (∀ i, i < n → x i = x' i) →
    (∀ i, i < n → z i = z' i) → (Passed n e x z ↔ Passed n e x' z') := by
  intro x x' z z' h1 h2
  unfold Passed
  refine forall_congr' (fun i => forall_congr' (fun hi => ?_))
  rw [h1 i hi, h2 i hi]

/-- The vector the iteration starts from: `previous` if it has `n` rows, otherwise the old contents
of the result if it has `n` rows, otherwise zero. -/
def StartsAt (s : Store ℝ) (prev : Option MId) (r : MId) (n : Nat) (X : Nat → ℝ) : Prop :=
  (∃ p, prev = some p ∧ s.Shows p 1 n (fun i _ => X i)) ∨
  ((∀ p, prev = some p → (s.mat p).height ≠ n) ∧ s.Shows r 1 n (fun i _ => X i)) ∨
  ((∀ p, prev = some p → (s.mat p).height ≠ n) ∧ (s.mat r).height ≠ n ∧ ∀ i, i < n → X i = 0)

theorem startVec_none {prev : Option MId} {base : Nat → ℝ}
    (h : ∀ p, prev = some p → (s.mat p).height ≠ n) : startVec s prev n base = base := by
  cases prev with
  | none => rfl
  | some p => rw [startVec, if_neg (h p rfl)]

theorem StartsAt.eq {prev : Option MId} {r : MId} {X : Nat → ℝ} (h : StartsAt s prev r n X)
    {i : Nat} (hi : i < n) : startVec s prev n
      (fun i => if (s.mat r).height = n then (s.mat r).ent i 0 else 0) i = X i := by
  rcases h with ⟨p, rfl, hp⟩ | ⟨h1, h2⟩ | ⟨h1, h2, h3⟩
  · rw [startVec, if_pos hp.height]
    exact hp.ent hi (by decide)
  · rw [startVec_none h1, if_pos h2.height]; exact h2.ent hi (by decide)
  · rw [startVec_none h1, if_neg h2, h3 i hi]

theorem StartsAt.width {prev : Option MId} {r : MId} {X : Nat → ℝ} (h : StartsAt s prev r n X) :
    ∀ p, prev = some p → (s.mat p).height = n → (s.mat p).width = 1 := by
  intro p hp hn
  rcases h with ⟨q, hq, h1⟩ | ⟨h1, _⟩ | ⟨h1, _⟩
  · rw [hp] at hq; cases hq; exact h1.width
  · exact absurd hn (h1 p hp)
  · exact absurd hn (h1 p hp)

theorem MId.Pub.ne {a b : MId} (h : a.Pub) (hb : ¬ b.Pub) : a ≠ b := fun e => hb (e ▸ h)

theorem SId.Pub.ne {a b : SId} (h : a.Pub) (hb : ¬ b.Pub) : a ≠ b := fun e => hb (e ▸ h)

theorem MId.Pub.notCg {a : MId} (h : a.Pub) : ¬ IsCg a := by
  rintro (rfl | rfl | rfl | rfl | rfl | rfl) <;> exact h

/-- The limits matrix: column 0 the minima, column 1 the maxima. -/
def limGrid (lo hi : Nat → ℝ) (i j : Nat) : ℝ := if j = 0 then lo i else hi i

theorem gsL_run (hst : 0 < st) (hs : SReach st en solverRestr s)
    (h : Sys st en s J W right w n A D b) {limits r : MId} {prev : Option MId} {lo hi : Nat → ℝ}
    (hl : s.Shows limits 2 n (limGrid lo hi)) (pl : limits.Pub) (pr : r.Pub) (h2 : r ≠ right)
    (h3 : r ≠ limits) (h4 : r ≠ W)
    (hp : ∀ p, prev = some p → (s.mat p).height = n → (s.mat p).width = 1)
    (hr : (s.mat r).height = n → (s.mat r).width = 1)
    (hM : ∀ i, i < n → gram w A D i i ≠ 0) (maxIter : Nat) {e : ℝ} (he : 0 < e) :
    ∃ (s' : Store ℝ) (c : Bool) (y x0 : Nat → ℝ),
      s.gsSolveL st en maxIter e J W right limits (some r) prev = .ok (s', c) ∧
      s'.Shows r 1 n (fun i _ => y i) ∧
      (∀ X, StartsAt s prev r n X → ∀ i, i < n → x0 i = X i) ∧
      FirstPass (Settled n e) (sweepTo (rowSolveL n (gram w A D) b lo hi) n) n maxIter x0 c y := by
  have ok := hs.okR.ok
  obtain ⟨s', c, y, x0, e1, ok', _, _, w', h', en', st', it⟩ := Store.gsSolveL_spec (prev := prev)
    hst (h.sleIn ok) (h.pubJ.ne id) (hs.okR.fresh _ (Or.inl rfl)) hl.width hl.height
    (pr.ne id) h2 h3 h4 (h.pubB.ne id) (pl.ne id) hp hr
    (fun i hi => by rw [h.sysMat_eq hst ok hi hi]; exact hM i hi) maxIter e
  have hF : (sweepTo (rowSolveL n (sysMat st en s J W) (fun i => (s.mat right).ent i 0)
      (fun i => (s.mat limits).ent i 0) (fun i => (s.mat limits).ent i 1)) n) =
      sweepTo (rowSolveL n (gram w A D) b lo hi) n := by
    funext x
    refine sweepTo_congr (fun i hi' x => ?_) x
    simp only [rowSolveL]
    rw [rowSolve_congr (fun i j hi hj => h.sysMat_eq hst ok hi hj) (fun i hi => h.b_eq hi) x hi',
      show (s.mat limits).ent i 0 = lo i from hl.ent hi' (by decide),
      show (s.mat limits).ent i 1 = hi i from hl.ent hi' (by decide)]
  refine ⟨s', c, y, x0, e1, Store.shows_of (ok'.mat r) w' h' (fun i k hi hk => ?_), ?_, ?_⟩
  · obtain rfl : k = 0 := by omega
    exact en' i hi
  · intro X hX i hi
    rw [st' i hi, hX.eq hi]
  · refine it.firstPass hF (fun x => ?_) settled_local
      ((rowSolveL_local n _ _ _ _).sweep (Nat.le_refl n)) (fun _ _ => rfl)
    rw [hF]
    exact settled_iff he

/-- `StartsAt` for `solve`: there is no initialisation when neither vector has `n` rows. -/
def StartsAtU (s : Store ℝ) (prev : Option MId) (r : MId) (n : Nat) (X : Nat → ℝ) : Prop :=
  (∃ p, prev = some p ∧ s.Shows p 1 n (fun i _ => X i)) ∨
  ((∀ p, prev = some p → (s.mat p).height ≠ n) ∧ s.Shows r 1 n (fun i _ => X i))

theorem gs_run (hst : 0 < st) (hs : SReach st en solverRestr s)
    (h : Sys st en s J W right w n A D b) {r : MId} {prev : Option MId}
    (pr : r.Pub) (h2 : r ≠ right) (h4 : r ≠ W)
    (hp : ∀ p, prev = some p → (s.mat p).height = n → (s.mat p).width = 1)
    (hM : ∀ i, i < n → gram w A D i i ≠ 0) (maxIter : Nat) {e : ℝ} (he : 0 < e) :
    ∃ (s' : Store ℝ) (c : Bool) (y x0 : Nat → ℝ),
      s.gsSolve st en maxIter e J W right prev (some r) = .ok (s', c) ∧
      s'.Shows r 1 n (fun i _ => y i) ∧
      (∀ X, StartsAtU s prev r n X → ∀ i, i < n → x0 i = X i) ∧
      FirstPass (Passed n e) (sweepTo (rowSolve n (gram w A D) b) n) n maxIter x0 c y := by
  have ok := hs.okR.ok
  obtain ⟨s', c, y, x0, junk, e1, ok', _, _, w', h', en', st', it⟩ := Store.gsSolve_spec
    (prev := prev) hst (h.sleIn ok) (h.pubJ.ne id) (hs.okR.fresh _ (Or.inl rfl))
    (pr.ne id) h2 h4 (h.pubB.ne id) hp
    (fun i hi => by rw [h.sysMat_eq hst ok hi hi]; exact hM i hi) maxIter e
  have hF : (sweepTo (rowSolve n (sysMat st en s J W) (fun i => (s.mat right).ent i 0)) n) =
      sweepTo (rowSolve n (gram w A D) b) n := by
    funext x
    exact sweepTo_congr (fun i hi' x => rowSolve_congr
      (fun i j hi hj => h.sysMat_eq hst ok hi hj) (fun i hi => h.b_eq hi) x hi') x
  refine ⟨s', c, y, x0, e1, Store.shows_of (ok'.mat r) w' h' (fun i k hi hk => ?_), ?_, ?_⟩
  · obtain rfl : k = 0 := by omega
    exact en' i hi
  · intro X hX i hi
    rw [st' i hi]
    rcases hX with ⟨p, rfl, hq⟩ | ⟨h1, h2⟩
    · rw [startVec, if_pos hq.height]
      exact hq.ent hi (by decide)
    · rw [startVec_none h1, if_pos ⟨h2.height, h2.width⟩]; exact h2.ent hi (by decide)
  · refine it.firstPass hF (fun x => ?_) passed_local
      ((rowSolve_local n _ _).sweep (Nat.le_refl n)) (fun _ _ => rfl)
    rw [hF]
    exact passed_iff he

/-- Positive weights and independent rows make `J W J^T` positive definite. -/
theorem gram_posDef (hD : ∀ c, c < w → 0 < D c)
    (hA : ∀ x : Nat → ℝ, (∀ c, c < w → ∑ i ∈ range n, x i * A i c = 0) → ∀ i, i < n → x i = 0) :
    PosDef n (gram w A D) := by
  refine ⟨fun i j _ _ => gram_symm w A D i j, fun v hv => ?_⟩
  have key : ∑ i ∈ range n, ∑ j ∈ range n, v i * gram w A D i j * v j =
      ∑ c ∈ range w, D c * (∑ i ∈ range n, v i * A i c) ^ 2 := by
    have e1 : ∀ c, D c * (∑ i ∈ range n, v i * A i c) ^ 2 =
        ∑ i ∈ range n, ∑ j ∈ range n, v i * (A i c * D c * A j c) * v j := by
      intro c
      rw [pow_two, sum_mul_sum, mul_sum]
      refine sum_congr rfl (fun i _ => ?_)
      rw [mul_sum]
      exact sum_congr rfl (fun j _ => by ring)
    have e2 : ∑ c ∈ range w, D c * (∑ i ∈ range n, v i * A i c) ^ 2 =
        ∑ c ∈ range w, ∑ i ∈ range n, ∑ j ∈ range n, v i * (A i c * D c * A j c) * v j :=
      sum_congr rfl (fun c _ => e1 c)
    rw [e2, sum_comm (s := range w)]
    refine sum_congr rfl (fun i _ => ?_)
    rw [sum_comm (s := range w)]
    refine sum_congr rfl (fun j _ => ?_)
    rw [gram, mul_sum, sum_mul]
  rw [key]
  by_contra hc
  obtain ⟨k, hk, hvk⟩ := hv
  apply hvk
  refine hA v (fun c hc' => ?_) k hk
  have hz := (sum_eq_zero_iff_of_nonneg (s := range w) (f := fun c => D c *
    (∑ i ∈ range n, v i * A i c) ^ 2) (fun c hc => mul_nonneg (hD c (mem_range.mp hc)).le
      (sq_nonneg _))).mp (le_antisymm (not_lt.mp hc) (sum_nonneg (fun c hc =>
        mul_nonneg (hD c (mem_range.mp hc)).le (sq_nonneg _)))) c (mem_range.mpr hc')
  rcases mul_eq_zero.mp hz with q | q
  · exact absurd q (hD c hc').ne'
  · exact pow_eq_zero_iff (two_ne_zero) |>.mp q

theorem PosDef.regular {M : Nat → Nat → ℝ} (h : PosDef n M) : Regular n M := by
  intro x hx j hj
  by_contra hne
  have := h.pos x ⟨j, hj, hne⟩
  rw [sum_congr rfl (g := fun _ => 0) (fun i hi => by
    rw [sum_congr rfl (fun j _ => mul_assoc (x i) (M i j) (x j)), ← mul_sum,
      hx i (mem_range.mp hi), mul_zero]), sum_const_zero] at this
  exact lt_irrefl _ this

end

/-! ## Concrete systems -/

/-- Any system with `n` rows over one body can be set up, together with limits, a vector to start
from and a result vector that has never been used. -/
theorem demo_sys_junk (v : ℝ) (n : Nat) (A : Nat → Nat → ℝ) (D b lo hi x : Nat → ℝ) :
    ∃ s : Store ℝ, SReach 3 2 solverRestr s ∧
      Sys 3 2 s (.user 0) (.user 0) (.user 1) 3 n A D b ∧
      s.Shows (.user 2) 2 n (limGrid lo hi) ∧ s.Shows (.user 3) 1 n (fun i _ => x i) ∧
      s.mat (.user 4) = Mat.empty ∧ s.junk = fun _ _ => v := by
  have h0 : ReachableNS 3 2 setupP (Store.fresh (fun _ _ => v) (fun _ _ => 7)) := .fresh _ _
  obtain ⟨s1, r1, o1, w1, hh1, b1, v1⟩ := put_sparse (by decide) h0 (.user 0) 1 n
    (fun _ j => if j = 0 then 0 else 255) A (fun r j _ _ => by by_cases hj : j = 0 <;> simp [hj])
  obtain ⟨s2, r2, o2, g2⟩ := put_dense r1 (t := .user 0) (by decide) 1 3 (fun c _ => D c)
  obtain ⟨s3, r3, o3, g3⟩ := put_dense r2 (t := .user 1) (by decide) 1 n (fun c _ => b c)
  obtain ⟨s4, r4, o4, g4⟩ := put_dense r3 (t := .user 2) (by decide) 2 n (limGrid lo hi)
  obtain ⟨s5, r5, o5, g5⟩ := put_dense r4 (t := .user 3) (by decide) 1 n (fun c _ => x c)
  have hsm : s5.smat = s1.smat := by rw [o5.smat, o4.smat, o3.smat, o2.smat]
  have move : ∀ {s s' : Store ℝ} {a t : MId} {w h : Nat} {g : Nat → Nat → ℝ}, Only t s s' → a ≠ t →
      s.Shows a w h g → s'.Shows a w h g := by
    intro s s' a t w h g o hne hs
    have e := o.mat a hne
    exact ⟨by rw [e]; exact hs.width, by rw [e]; exact hs.height, fun r c hr hc => by
      rw [← hs.get r c hr hc]; simp only [Store.get, Store.load, e]⟩
  have hl : Layout 3 2 (s5.smat (.user 0)) := by
    rw [hsm]
    refine ⟨fun r j hr hj => ?_, fun r j j' hr hj hj' hne he => ?_⟩
    · rw [hh1] at hr
      rw [b1 r j hr hj, w1]
      by_cases hj0 : j = 0 <;> simp [hj0]
    · rw [hh1] at hr
      rw [b1 r j hr hj] at hne he
      rw [b1 r j' hr hj'] at he
      by_cases h1 : j = 0 <;> by_cases h2 : j' = 0 <;> simp_all
  have hd := (r5.solver.okR.ok).denotes (by decide) hl
  refine ⟨s5, r5.solver, ⟨hl, ⟨by rw [hsm, w1], by rw [hsm, hh1], fun t => ?_⟩,
    move o5 (by decide) (move o4 (by decide) (move o3 (by decide) g2)),
    move o5 (by decide) (move o4 (by decide) g3), trivial, trivial, trivial⟩,
    move o5 (by decide) g4, g5, ?_, by rw [o5.junk, o4.junk, o3.junk, o2.junk, o1.junk]; rfl⟩
  · obtain ⟨s', e', g', ot⟩ := hd.expand t
    refine ⟨s', e', ?_, ot⟩
    rw [hsm, w1, hh1] at g'
    refine g'.congr (fun r c hr hc => ?_)
    have hc0 : c / 3 = 0 := by omega
    have hc1 : c % 3 = c := by omega
    rw [SMat.val, sum_range_succ, sum_range_succ, sum_range_zero, b1 r 0 hr (by decide),
      b1 r 1 hr (by decide), hc0, hc1]
    simp [v1 r c hr (by omega)]
  · rw [o5.mat _ (by decide), o4.mat _ (by decide), o3.mat _ (by decide), o2.mat _ (by decide),
      o1.mat]
    rfl

theorem demo_sys (n : Nat) (A : Nat → Nat → ℝ) (D b lo hi x : Nat → ℝ) :
    ∃ s : Store ℝ, SReach 3 2 solverRestr s ∧
      Sys 3 2 s (.user 0) (.user 0) (.user 1) 3 n A D b ∧
      s.Shows (.user 2) 2 n (limGrid lo hi) ∧ s.Shows (.user 3) 1 n (fun i _ => x i) ∧
      (s.mat (.user 4)).height = 0 := by
  obtain ⟨s, h1, h2, h3, h4, h5, _⟩ := demo_sys_junk 1 n A D b lo hi x
  exact ⟨s, h1, h2, h3, h4, by rw [h5]; rfl⟩

/-- Two rows over one body, `J W J^T = [[2, 1], [1, 2]]`. -/
def demoA (i c : Nat) : ℝ := if c = 0 ∨ c = i + 1 then 1 else 0

theorem demo_gram : gram 3 demoA (fun _ => 1) 0 0 = 2 ∧ gram 3 demoA (fun _ => 1) 0 1 = 1 ∧
    gram 3 demoA (fun _ => 1) 1 0 = 1 ∧ gram 3 demoA (fun _ => 1) 1 1 = 2 := by
  refine ⟨?_, ?_, ?_, ?_⟩ <;> simp [gram, demoA, sum_range_succ] <;> norm_num

theorem demo_diag : ∀ i, i < 2 → 0 < gram 3 demoA (fun _ => 1) i i := by
  intro i hi
  obtain ⟨h1, _, _, h2⟩ := demo_gram
  interval_cases i
  · rw [h1]; norm_num
  · rw [h2]; norm_num

theorem demo_row0 (b x : Nat → ℝ) :
    rowSolve 2 (gram 3 demoA (fun _ => 1)) b x 0 = (b 0 - x 1) / 2 := by
  obtain ⟨h1, h2, _, _⟩ := demo_gram
  rw [rowSolve, show (range 2).erase 0 = {1} by decide, sum_singleton, h1, h2, one_mul]

theorem demo_row1 (b x : Nat → ℝ) :
    rowSolve 2 (gram 3 demoA (fun _ => 1)) b x 1 = (b 1 - x 0) / 2 := by
  obtain ⟨_, _, h3, h4⟩ := demo_gram
  rw [rowSolve, show (range 2).erase 1 = {0} by decide, sum_singleton, h3, h4, one_mul]

theorem demo_sweep0 (b x : Nat → ℝ) :
    sweepTo (rowSolve 2 (gram 3 demoA (fun _ => 1)) b) 2 x 0 = (b 0 - x 1) / 2 := by
  rw [sweepTo_lt _ _ (by decide), sweepTo, demo_row0]

theorem demo_sweep1 (b x : Nat → ℝ) :
    sweepTo (rowSolve 2 (gram 3 demoA (fun _ => 1)) b) 2 x 1 = (b 1 - (b 0 - x 1) / 2) / 2 := by
  rw [sweepTo_lt _ _ (by decide), demo_row1, sweepTo, sweepTo, upd_same, demo_row0]

theorem demo_posDef : PosDef 2 (gram 3 demoA (fun _ => 1)) := by
  refine gram_posDef (fun _ _ => one_pos) (fun x hx i hi => ?_)
  have h1 := hx 1 (by decide)
  have h2 := hx 2 (by decide)
  simp [sum_range_succ, demoA] at h1 h2
  interval_cases i
  · exact h1
  · exact h2

end Scs
