import Verif.RoundMem

/-!
# Rounding: Gauss-Seidel

`GaussSeidelSleSolver::solveWithLimits` keeps corresponding scalars close, unless the largest change
of a sweep is exactly the tolerance of the solver.
-/

namespace Scs

open Filter Topology

/-! ## Specification -/

/-- `solveWithLimits` up to the iteration loop, src/gauss_seidel_sle_solver.cpp:59-71. -/
def Store.gsStart {α : Type} [Zero α] [Add α] [Mul α] [Sub α] [Neg α] [Fp α] (st en : Nat)
    (s : Store α) (J : SId) (W right : MId) (result previous : Option MId) : Exec (Store α × MId) := do
  let n := (s.mat right).height
  let result ← deref result
  let s ← (if (s.mat result).height ≠ n then s.init0 result 1 n else pure s : Exec (Store α))
  let s ← s.warmStart previous result n
  let s ← s.formM st en J W .gsReg .gsM
  pure (s, result)

/-- In none of the first `n` sweeps, starting with `s`, is the largest change exactly `δ`. -/
def NoTie (sweep : Store ℝ → Exec (Store ℝ × ℝ)) (δ : ℝ) : Nat → Store ℝ → Prop
  | 0, _ => True
  | n + 1, s => ∀ q, sweep s = .ok q → q.2 ≠ δ ∧ NoTie sweep δ n q.1

/-- In no sweep of `solveWithLimits` is the largest change exactly the tolerance. -/
def Store.GsClear (st en : Nat) (maxIter : Nat) (δ : ℝ) (s : Store ℝ) (J : SId)
    (W right limits : MId) (result previous : Option MId) : Prop :=
  ∀ q, s.gsStart st en J W right result previous = .ok q →
    NoTie (fun s => s.gsIterationL .gsM right limits q.2 q.2) δ maxIter q.1

/-! ## Proofs -/

theorem gsSolveL_start {α : Type} [Zero α] [Add α] [Mul α] [Sub α] [Neg α] [Fp α] (st en n : Nat)
    (δ : α) (s : Store α) (J : SId) (W right limits : MId) (result previous : Option MId) :
    s.gsSolveL st en n δ J W right limits result previous = (do
      let q ← s.gsStart st en J W right result previous
      gsLoop (fun s => s.gsIterationL .gsM right limits q.2 q.2) δ n q.1) := by
  unfold Store.gsSolveL Store.gsStart
  cases result with
  | none => rfl
  | some r =>
    simp only [deref, ok_bind, bind_assoc, LawfulMonad.pure_bind]
    by_cases h : (s.mat r).height ≠ (s.mat right).height
    · simp only [if_pos h]
    · simp only [if_neg h, LawfulMonad.pure_bind]

section
variable {ι : Type} {l : Filter ι} {F : ι → Type} [∀ i, Rounded (F i)] [Shrinks l F]
  {X : Option (Mat ℝ)} {s : ∀ i, Store (F i)} {S : Store ℝ}

omit [Shrinks l F] in
/-- The larger of two scalars. -/
theorem Near.larger {a b : ∀ i, F i} {r t : ℝ} (ha : Near l a r) (hb : Near l b t) :
    Near l (fun i => if Fp.gt (a i) (b i) then a i else b i) (if Fp.gt r t then r else t) := by
  have e : (if Fp.gt r t then r else t) = max r t := by
    by_cases h : t < r
    · rw [if_pos (fp_gt.2 h), max_eq_left h.le]
    · rw [if_neg (fun q => h (fp_gt.1 q)), max_eq_right (not_lt.1 h)]
  rw [e]
  refine ⟨?_, (ha.lim.max hb.lim).congr' ?_⟩
  · filter_upwards [ha.fin, hb.fin] with i h1 h2
    split
    · exact h1
    · exact h2
  · filter_upwards [ha.fin, hb.fin] with i h1 h2
    split
    · rename_i h
      exact max_eq_left ((Rounded.gt_exact _ _ h1 h2).1 h).le
    · rename_i h
      exact max_eq_right (not_lt.1 fun q => h ((Rounded.gt_exact _ _ h1 h2).2 q))

theorem rel_accR (a b : Nat) {f : ∀ i, Nat → Exec (F i)} {g : Nat → Exec ℝ}
    (h : ∀ k, RelF l (Near l) (fun i => f i k) (g k)) :
    RelF l (Near l) (fun i => accR a b (f i)) (accR a b g) := by
  unfold accR
  refine relf_forN SameF.rfl' Near.zero fun k _ v V hv => ?_
  refine relf_bind (h _) fun x Y hx => ?_
  exact relf_pure (hv.add hx)

theorem rel_prodAt (h : NStore l X s S) {a b : MId} (ha : Direct X a) (hb : Direct X b)
    (i j : Nat) : RelF l (Near l) (fun k => (s k).prodAt a b i j) (S.prodAt a b i j) := by
  unfold Store.prodAt
  refine relf_bind (rel_get h ha _ _) fun x Y hx => ?_
  refine relf_bind (rel_get h hb _ _) fun y Z hy => ?_
  exact relf_pure (hx.mul hy)

/-- The results of a row or a sweep. -/
def NSweep (l : Filter ι) (X : Option (Mat ℝ)) (a : ∀ i, Store (F i) × F i) (b : Store ℝ × ℝ) :
    Prop := NStore l X (fun i => (a i).1) b.1 ∧ Near l (fun i => (a i).2) b.2

theorem rel_gsRowL (h : NStore l X s S) {left right limits x k : MId} (h1 : Direct X left)
    (h2 : Direct X right) (h3 : Direct X limits) (h4 : Direct X x) (h5 : Direct X k) (n j : Nat)
    {d : ∀ i, F i} {D : ℝ} (hd : Near l d D) :
    RelF l (NSweep l X) (fun i => Store.gsRowL left right limits x k n j (s i) (d i))
      (Store.gsRowL left right limits x k n j S D) := by
  unfold Store.gsRowL
  refine relf_bind (rel_accR _ _ fun q => rel_prodAt h h1 h4 j q) fun a A ha => ?_
  refine relf_bind (rel_accR _ _ fun q => rel_prodAt h h1 h5 j q) fun b B hb => ?_
  refine relf_bind (rel_get h h1 _ _) fun c C hc => ?_
  refine relf_bind (near_div (Near.lit 1) hc) fun inv V hv => ?_
  refine relf_bind (rel_get h h2 _ _) fun r R hr => ?_
  refine relf_bind (rel_get h h3 _ _) fun p P hp => ?_
  refine relf_bind (rel_get h h3 _ _) fun q Q hq => ?_
  refine relf_bind (rel_get h h5 _ _) fun o O ho => ?_
  have hx := hp.fmax (hq.fmin (hv.mul ((hr.sub ha).sub hb)))
  refine relf_bind (near_div (hx.sub ho).abs ((Near.lit (1 / 1000)).fmax ho.abs)) fun e E he => ?_
  refine relf_bind (rel_set h h4 _ _ hx) fun s S h => ?_
  exact relf_pure ⟨h, he.larger hd⟩

theorem rel_gsIterationL (h : NStore l X s S) {left right limits x k : MId} (h1 : Direct X left)
    (h2 : Direct X right) (h3 : Direct X limits) (h4 : Direct X x) (h5 : Direct X k) :
    RelF l (NSweep l X) (fun i => (s i).gsIterationL left right limits x k)
      (S.gsIterationL left right limits x k) := by
  unfold Store.gsIterationL
  have hn := (h.at h5).height
  refine relf_congr (x' := fun i => forN ((s i).mat k).height (fun j q =>
    Store.gsRowL left right limits x k (S.mat k).height j q.1 q.2) (s i, 0))
    (hn.mono fun i e => by rw [e]) ?_
  exact relf_forN (R := NSweep l X) hn ⟨h, Near.zero⟩ fun j _ a b hab =>
    rel_gsRowL hab.1 h1 h2 h3 h4 h5 _ j hab.2

/-- The results of the iteration loop. -/
def NSolved (l : Filter ι) (X : Option (Mat ℝ)) (a : ∀ i, Store (F i) × Bool)
    (b : Store ℝ × Bool) : Prop :=
  NStore l X (fun i => (a i).1) b.1 ∧ SameF l (fun i => (a i).2) b.2

omit [Shrinks l F] in
theorem rel_gsLoop {sw : ∀ i, Store (F i) → Exec (Store (F i) × F i)}
    {SW : Store ℝ → Exec (Store ℝ × ℝ)}
    (hs : ∀ s S, NStore l X s S → RelF l (NSweep l X) (fun i => sw i (s i)) (SW S))
    {d : ∀ i, F i} {D : ℝ} (hd : Near l d D) :
    ∀ n (s : ∀ i, Store (F i)) S, NStore l X s S → NoTie SW D n S →
      RelF l (NSolved l X) (fun i => gsLoop (sw i) (d i) n (s i)) (gsLoop SW D n S)
  | 0, _, _, h, _ => relf_ok ⟨h, SameF.rfl'⟩
  | n + 1, s, S, h, hc => by
    unfold gsLoop
    refine relf_bind' (hs s S h) fun q Q _ eq hq => ?_
    obtain ⟨hne, hc⟩ := hc Q eq
    refine relf_ite ?_ (fun _ => relf_pure ⟨hq.1, SameF.rfl'⟩) fun _ =>
      rel_gsLoop hs hd n _ _ hq.1 hc
    filter_upwards [near_gt hd hq.2 hne.symm] with i e
    rw [e]

theorem rel_gsStart (st en : Nat) (h : NStore l X s S) {J : SId} {W right r : MId}
    (h1 : Direct X W) (h2 : Direct X right) (h3 : Direct X r) :
    RelF l (fun (a : ∀ i, Store (F i) × MId) b => NStore l X (fun i => (a i).1) b.1 ∧
        SameF l (fun i => (a i).2) b.2 ∧ b.2 = r)
      (fun i => (s i).gsStart st en J W right (some r) (some r))
      (S.gsStart st en J W right (some r) (some r)) := by
  unfold Store.gsStart
  simp only [deref, ok_bind]
  have hr := (h.at h2).height
  refine relf_bind (R := NStore l X) ?_ fun (s : ∀ i, Store (F i)) S h => ?_
  · refine relf_ite ?_ (fun _ => rel_init0 h h3 SameF.rfl' hr) fun _ => relf_pure h
    filter_upwards [(h.at h3).height, hr] with i e1 e2
    rw [e1, e2]
  refine relf_bind (R := NStore l X) ?_ fun (s : ∀ i, Store (F i)) S h => ?_
  · unfold Store.warmStart
    refine relf_ite ?_ (fun _ => rel_setMatFrom h h3 h3) fun _ => relf_ok h
    filter_upwards [(h.at h3).height, hr] with i e1 e2
    rw [e1, e2]
  refine relf_bind (rel_formM st en h h1 (by intro e; cases e)) fun s S h => ?_
  exact relf_pure ⟨h, SameF.rfl', rfl⟩

/-- `GaussSeidelSleSolver::solveWithLimits`. -/
theorem rel_gsSolveL (st en n : Nat) (h : NStore l X s S) {J : SId} {W right limits r : MId}
    (h1 : Direct X W) (h2 : Direct X right) (h3 : Direct X limits) (h4 : Direct X r)
    {d : ∀ i, F i} {D : ℝ} (hd : Near l d D)
    (hc : S.GsClear st en n D J W right limits (some r) (some r)) :
    RelF l (NSolved l X)
      (fun i => (s i).gsSolveL st en n (d i) J W right limits (some r) (some r))
      (S.gsSolveL st en n D J W right limits (some r) (some r)) := by
  simp only [gsSolveL_start]
  refine relf_bind' (rel_gsStart st en h h1 h2 h4) fun a A _ ea ha => ?_
  obtain ⟨b1, b2, b3⟩ := ha
  have hc := hc A ea
  refine relf_congr (x' := fun i => gsLoop (fun s => s.gsIterationL .gsM right limits A.2 A.2) (d i) n
    (a i).1) (b2.mono fun i e => by dsimp only at e; rw [e]) ?_
  refine rel_gsLoop (fun s S h => rel_gsIterationL h (by intro e; cases e) h2 h3 ?_ ?_) hd n _ _ b1 hc
  · rw [b3]; exact h4
  · rw [b3]; exact h4

end

end Scs
