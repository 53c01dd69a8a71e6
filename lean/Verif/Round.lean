import Verif.Real
import Mathlib.Order.Filter.Ultrafilter.Basic
import Mathlib.Topology.Algebra.Order.LiminfLimsup
import Mathlib.Analysis.SpecialFunctions.Trigonometric.Basic

/-!
# Arithmetic with rounding

`Rounded F` says that the scalars `F` behave like floating point numbers of some precision: results
in range are finite and close to the exact ones, comparisons of finite numbers are exact. Nothing in
this file models a file of `/repo`; it is the specification of the arithmetic used by the theorems
on rounding. `RelF` compares a family of executions with one over the exact reals.
-/

namespace Scs

open Filter Topology

/-- Scalars with rounding. `val x` is the number that a finite `x` stands for and `prec` bounds the
error: a result `r` with `|r| ≤ 1 / prec` is finite and off by at most `prec * (1 + |r|)`. IEEE
`double` with a good `libm` satisfies this for `prec = 2 ^ (-52)`; the exact reals for `prec = 0`. -/
class Rounded (F : Type) extends Zero F, Add F, Mul F, Sub F, Neg F, Fp F where
  /-- the number that a finite scalar stands for -/
  val : F → ℝ
  /-- neither infinite nor NaN -/
  fin : F → Prop
  /-- bound of the rounding error -/
  prec : ℝ
  prec_nonneg : 0 ≤ prec
  zero_fin : fin 0
  zero_val : val 0 = 0
  add_near : ∀ a b, fin a → fin b → prec * |val a + val b| ≤ 1 →
    fin (a + b) ∧ |val (a + b) - (val a + val b)| ≤ prec * (1 + |val a + val b|)
  sub_near : ∀ a b, fin a → fin b → prec * |val a - val b| ≤ 1 →
    fin (a - b) ∧ |val (a - b) - (val a - val b)| ≤ prec * (1 + |val a - val b|)
  mul_near : ∀ a b, fin a → fin b → prec * |val a * val b| ≤ 1 →
    fin (a * b) ∧ |val (a * b) - val a * val b| ≤ prec * (1 + |val a * val b|)
  div_near : ∀ a b, fin a → fin b → val b ≠ 0 → prec * |val a / val b| ≤ 1 →
    ∃ c, Fp.div a b = .ok c ∧ fin c ∧ |val c - val a / val b| ≤ prec * (1 + |val a / val b|)
  sin_near : ∀ a, fin a → prec ≤ 1 →
    fin (Fp.sin a) ∧ |val (Fp.sin a) - Real.sin (val a)| ≤ prec * (1 + |Real.sin (val a)|)
  cos_near : ∀ a, fin a → prec ≤ 1 →
    fin (Fp.cos a) ∧ |val (Fp.cos a) - Real.cos (val a)| ≤ prec * (1 + |Real.cos (val a)|)
  sqrt_near : ∀ a, fin a → 0 ≤ val a → prec * |√(val a)| ≤ 1 →
    fin (Fp.sqrt a) ∧ |val (Fp.sqrt a) - √(val a)| ≤ prec * (1 + |√(val a)|)
  lit_near : ∀ q : Rat, prec * |(q : ℝ)| ≤ 1 →
    fin (Fp.lit q) ∧ |val (Fp.lit q) - (q : ℝ)| ≤ prec * (1 + |(q : ℝ)|)
  /-- `DBL_MAX` is the same constant in every arithmetic, up to rounding -/
  dbl_near : fin Fp.dblMax ∧
    |val Fp.dblMax - (Fp.dblMax : ℝ)| ≤ prec * (1 + |(Fp.dblMax : ℝ)|)
  add_sign : ∀ a b, fin a → fin b → 0 ≤ val a → 0 ≤ val b → fin (a + b) → 0 ≤ val (a + b)
  sq_sign : ∀ a, fin a → fin (a * a) → 0 ≤ val (a * a)
  neg_exact : ∀ a, fin a → fin (-a) ∧ val (-a) = -val a
  abs_exact : ∀ a, fin a → fin (Fp.abs a) ∧ val (Fp.abs a) = |val a|
  fmin_exact : ∀ a b, fin a → fin b → fin (Fp.fmin a b) ∧ val (Fp.fmin a b) = min (val a) (val b)
  fmax_exact : ∀ a b, fin a → fin b → fin (Fp.fmax a b) ∧ val (Fp.fmax a b) = max (val a) (val b)
  gt_exact : ∀ a b, fin a → fin b → (Fp.gt a b = true ↔ val b < val a)
  ge_exact : ∀ a b, fin a → fin b → (Fp.ge a b = true ↔ val b ≤ val a)
  zero_exact : ∀ a, fin a → (Fp.isZero a = true ↔ val a = 0)
  fin_exact : ∀ a, fin a → Fp.notFinite a = false
  /-- whether a division fails depends on the divisor only -/
  div_even : ∀ a b d : F, ∀ e, (Fp.div a d : Exec F) = .error e → (Fp.div b d : Exec F) = .error e

/-- Families of arithmetics whose precision improves along `l`. -/
class Shrinks {ι : Type} (l : Filter ι) (F : ι → Type) [∀ i, Rounded (F i)] : Prop where
  lim : Tendsto (fun i => Rounded.prec (F i)) l (𝓝 0)

section
variable {ι : Type} {l : Filter ι} {F : ι → Type} [∀ i, Rounded (F i)]

/-- The scalars `a i` are finite in the end and approach `r`. -/
structure Near (l : Filter ι) (a : ∀ i, F i) (r : ℝ) : Prop where
  fin : ∀ᶠ i in l, Rounded.fin (a i)
  lim : Tendsto (fun i => Rounded.val (a i)) l (𝓝 r)

theorem Near.congr {a b : ∀ i, F i} {r : ℝ} (h : Near l a r) (e : ∀ᶠ i in l, b i = a i) :
    Near l b r := by
  refine ⟨?_, h.lim.congr' ?_⟩
  · filter_upwards [h.fin, e] with i h e; rw [e]; exact h
  · filter_upwards [e] with i e; rw [e]

variable [Shrinks l F]

theorem small_prec {x : ι → ℝ} {r : ℝ} (hx : Tendsto x l (𝓝 r)) :
    ∀ᶠ i in l, Rounded.prec (F i) * |x i| ≤ 1 := by
  have h := (Shrinks.lim (l := l) (F := F)).mul hx.abs
  rw [zero_mul] at h
  exact (h.eventually (gt_mem_nhds one_pos)).mono fun _ => le_of_lt

theorem prec_le_one : ∀ᶠ i in l, Rounded.prec (F i) ≤ 1 :=
  ((Shrinks.lim (l := l) (F := F)).eventually (gt_mem_nhds one_pos)).mono fun _ => le_of_lt

theorem near_of_close {a : ∀ i, F i} {x : ι → ℝ} {r : ℝ} (hx : Tendsto x l (𝓝 r))
    (h : ∀ᶠ i in l, Rounded.fin (a i) ∧
      |Rounded.val (a i) - x i| ≤ Rounded.prec (F i) * (1 + |x i|)) : Near l a r := by
  refine ⟨h.mono fun _ h => h.1, ?_⟩
  have hb : Tendsto (fun i => Rounded.prec (F i) * (1 + |x i|)) l (𝓝 0) := by
    have := (Shrinks.lim (l := l) (F := F)).mul (hx.abs.const_add 1)
    rwa [zero_mul] at this
  have hd : Tendsto (fun i => Rounded.val (a i) - x i) l (𝓝 0) :=
    squeeze_zero_norm' (h.mono fun i h => by rw [Real.norm_eq_abs]; exact h.2) hb
  have := hd.add hx
  rw [zero_add] at this
  exact this.congr fun i => by ring

variable {a b : ∀ i, F i} {r s : ℝ}

theorem Near.zero : Near l (fun i => (0 : F i)) 0 :=
  ⟨Eventually.of_forall fun _ => Rounded.zero_fin,
    tendsto_const_nhds.congr fun _ => Rounded.zero_val.symm⟩

theorem Near.add (ha : Near l a r) (hb : Near l b s) : Near l (fun i => a i + b i) (r + s) := by
  have hx := ha.lim.add hb.lim
  refine near_of_close hx ?_
  filter_upwards [ha.fin, hb.fin, small_prec (F := F) hx] with i h1 h2 h3
  exact Rounded.add_near _ _ h1 h2 h3

theorem Near.sub (ha : Near l a r) (hb : Near l b s) : Near l (fun i => a i - b i) (r - s) := by
  have hx := ha.lim.sub hb.lim
  refine near_of_close hx ?_
  filter_upwards [ha.fin, hb.fin, small_prec (F := F) hx] with i h1 h2 h3
  exact Rounded.sub_near _ _ h1 h2 h3

theorem Near.mul (ha : Near l a r) (hb : Near l b s) : Near l (fun i => a i * b i) (r * s) := by
  have hx := ha.lim.mul hb.lim
  refine near_of_close hx ?_
  filter_upwards [ha.fin, hb.fin, small_prec (F := F) hx] with i h1 h2 h3
  exact Rounded.mul_near _ _ h1 h2 h3

omit [Shrinks l F] in
theorem Near.neg (ha : Near l a r) : Near l (fun i => -a i) (-r) := by
  refine ⟨ha.fin.mono fun i h => (Rounded.neg_exact _ h).1, ha.lim.neg.congr' ?_⟩
  filter_upwards [ha.fin] with i h
  exact (Rounded.neg_exact _ h).2.symm

theorem Near.sin (ha : Near l a r) : Near l (fun i => Fp.sin (a i)) (Fp.sin r) := by
  refine near_of_close (Real.continuous_sin.continuousAt.tendsto.comp ha.lim) ?_
  filter_upwards [ha.fin, prec_le_one (l := l) (F := F)] with i h1 h2
  exact Rounded.sin_near _ h1 h2

theorem Near.cos (ha : Near l a r) : Near l (fun i => Fp.cos (a i)) (Fp.cos r) := by
  refine near_of_close (Real.continuous_cos.continuousAt.tendsto.comp ha.lim) ?_
  filter_upwards [ha.fin, prec_le_one (l := l) (F := F)] with i h1 h2
  exact Rounded.cos_near _ h1 h2

theorem Near.lit (q : Rat) : Near l (fun i => (Fp.lit q : F i)) (Fp.lit q) := by
  refine near_of_close tendsto_const_nhds ?_
  filter_upwards [small_prec (F := F) (l := l) (tendsto_const_nhds (x := (q : ℝ)))] with i h
  exact Rounded.lit_near q h

theorem Near.dblMax : Near l (fun i => (Fp.dblMax : F i)) Fp.dblMax :=
  near_of_close tendsto_const_nhds (.of_forall fun _ => Rounded.dbl_near)

theorem Near.sqrt (ha : Near l a r) (h0 : ∀ᶠ i in l, 0 ≤ Rounded.val (a i)) :
    Near l (fun i => Fp.sqrt (a i)) (Fp.sqrt r) := by
  have hx : Tendsto (fun i => √(Rounded.val (a i))) l (𝓝 (√r)) :=
    Real.continuous_sqrt.continuousAt.tendsto.comp ha.lim
  refine near_of_close hx ?_
  filter_upwards [ha.fin, h0, small_prec (F := F) hx] with i h1 h2 h3
  exact Rounded.sqrt_near _ h1 h2 h3

omit [Shrinks l F] in
theorem Near.abs (ha : Near l a r) : Near l (fun i => Fp.abs (a i)) (Fp.abs r) := by
  refine ⟨ha.fin.mono fun i h => (Rounded.abs_exact _ h).1, ha.lim.abs.congr' ?_⟩
  filter_upwards [ha.fin] with i h
  exact (Rounded.abs_exact _ h).2.symm

omit [Shrinks l F] in
theorem Near.fmin (ha : Near l a r) (hb : Near l b s) :
    Near l (fun i => Fp.fmin (a i) (b i)) (Fp.fmin r s) := by
  refine ⟨?_, (ha.lim.min hb.lim).congr' ?_⟩
  · filter_upwards [ha.fin, hb.fin] with i h1 h2; exact (Rounded.fmin_exact _ _ h1 h2).1
  · filter_upwards [ha.fin, hb.fin] with i h1 h2; exact (Rounded.fmin_exact _ _ h1 h2).2.symm

omit [Shrinks l F] in
theorem Near.fmax (ha : Near l a r) (hb : Near l b s) :
    Near l (fun i => Fp.fmax (a i) (b i)) (Fp.fmax r s) := by
  refine ⟨?_, (ha.lim.max hb.lim).congr' ?_⟩
  · filter_upwards [ha.fin, hb.fin] with i h1 h2; exact (Rounded.fmax_exact _ _ h1 h2).1
  · filter_upwards [ha.fin, hb.fin] with i h1 h2; exact (Rounded.fmax_exact _ _ h1 h2).2.symm

/-! ## Comparing executions -/

omit [∀ i, Rounded (F i)] [Shrinks l F] in
/-- If the exact execution returns, so do the others in the end, with a related result. -/
def RelF (l : Filter ι) {σ : ι → Type} {τ : Type} (R : (∀ i, σ i) → τ → Prop)
    (x : ∀ i, Exec (σ i)) (y : Exec τ) : Prop :=
  ∀ b, y = .ok b → ∃ a, (∀ᶠ i in l, x i = .ok (a i)) ∧ R a b

end

section
variable {ι : Type} {l : Filter ι} {σ σ' : ι → Type} {τ τ' : Type}
  {R R' : (∀ i, σ i) → τ → Prop} {S : (∀ i, σ' i) → τ' → Prop}

theorem bind_ok_of {σ τ : Type} {x : Exec τ} {f : τ → Exec σ} {b : σ} (e : (x >>= f) = .ok b) :
    ∃ a, x = .ok a ∧ f a = .ok b := by
  cases x with
  | error r => cases e
  | ok a => exact ⟨a, rfl, e⟩

theorem RelF.mono {x : ∀ i, Exec (σ i)} {y : Exec τ} (h : RelF l R x y)
    (hm : ∀ a b, R a b → R' a b) : RelF l R' x y := by
  intro b e
  obtain ⟨a, h1, h2⟩ := h b e
  exact ⟨a, h1, hm a b h2⟩

theorem relf_congr {x x' : ∀ i, Exec (σ i)} {y : Exec τ} (e : ∀ᶠ i in l, x i = x' i)
    (h : RelF l R x' y) : RelF l R x y := by
  intro b hb
  obtain ⟨a, h1, h2⟩ := h b hb
  refine ⟨a, ?_, h2⟩
  filter_upwards [e, h1] with i e h; rw [e, h]

theorem relf_ok {a : ∀ i, σ i} {b : τ} (h : R a b) :
    RelF l R (fun i => .ok (a i)) (.ok b) := by
  intro c e
  cases e
  exact ⟨a, Eventually.of_forall fun _ => rfl, h⟩

theorem relf_pure {a : ∀ i, σ i} {b : τ} (h : R a b) :
    RelF l R (fun i => pure (a i)) (pure b) := relf_ok h

theorem relf_error (x : ∀ i, Exec (σ i)) (e : Err) : RelF l R x (.error e : Exec τ) := by
  intro b h; cases h

theorem relf_bind' {x : ∀ i, Exec (σ i)} {y : Exec τ} {f : ∀ i, σ i → Exec (σ' i)}
    {g : τ → Exec τ'} (h : RelF l R x y)
    (hf : ∀ a b, (∀ᶠ i in l, x i = .ok (a i)) → y = .ok b → R a b →
      RelF l S (fun i => f i (a i)) (g b)) :
    RelF l S (fun i => x i >>= f i) (y >>= g) := by
  intro c e
  cases hy : y with
  | error e' => rw [hy] at e; cases e
  | ok b =>
    rw [hy, ok_bind] at e
    obtain ⟨a, h1, h2⟩ := h b hy
    obtain ⟨d, h3, h4⟩ := hf a b h1 hy h2 c e
    refine ⟨d, ?_, h4⟩
    filter_upwards [h1, h3] with i h1 h3
    rw [h1, ok_bind, h3]

theorem relf_bind {x : ∀ i, Exec (σ i)} {y : Exec τ} {f : ∀ i, σ i → Exec (σ' i)}
    {g : τ → Exec τ'} (h : RelF l R x y)
    (hf : ∀ a b, R a b → RelF l S (fun i => f i (a i)) (g b)) :
    RelF l S (fun i => x i >>= f i) (y >>= g) :=
  relf_bind' h fun a b _ _ => hf a b

/-- Both executions compute the same data. -/
def SameF (l : Filter ι) (a : ι → τ) (b : τ) : Prop := ∀ᶠ i in l, a i = b

theorem relf_same {x : ι → Exec τ} {y : Exec τ} (h : ∀ᶠ i in l, x i = y) :
    RelF l (SameF l) x y := by
  intro b e
  refine ⟨fun _ => b, ?_, Eventually.of_forall fun _ => rfl⟩
  filter_upwards [h] with i h; rw [h, e]

/-- Binding data that both executions share. -/
theorem relf_bindc {x : ι → Exec τ} {y : Exec τ} {f : ∀ i, τ → Exec (σ' i)}
    {g : τ → Exec τ'} (h : RelF l (SameF l) x y)
    (hf : ∀ b, y = .ok b → RelF l S (fun i => f i b) (g b)) :
    RelF l S (fun i => x i >>= f i) (y >>= g) := by
  refine relf_bind' h fun a b _ hy hs => relf_congr ?_ (hf b hy)
  filter_upwards [hs] with i e; rw [e]

theorem relf_chk {p : ι → Prop} {P : Prop} [∀ i, Decidable (p i)] [Decidable P] {loc : String}
    (h : P → ∀ᶠ i in l, p i) :
    RelF l (fun (_ : ι → PUnit) (_ : PUnit) => True) (fun i => chk (p i) loc) (chk P loc) := by
  by_cases hp : P
  · rw [chk_true _ hp]
    refine relf_congr ?_ (relf_ok (a := fun _ => ⟨⟩) trivial)
    filter_upwards [h hp] with i h; exact chk_true _ h
  · rw [chk_false _ hp]; exact relf_error _ _

theorem relf_chk_bind {p : ι → Prop} {P : Prop} [∀ i, Decidable (p i)] [Decidable P]
    {loc : String} {f : ∀ i, PUnit → Exec (σ' i)} {g : PUnit → Exec τ'}
    (h : P → ∀ᶠ i in l, p i) (hf : P → RelF l S (fun i => f i ⟨⟩) (g ⟨⟩)) :
    RelF l S (fun i => chk (p i) loc >>= f i) (chk P loc >>= g) := by
  by_cases hp : P
  · refine relf_bind (relf_chk h) fun _ _ _ => ?_
    exact hf hp
  · rw [chk_false _ hp]; exact relf_error _ _

theorem relf_ite {c : ι → Prop} {C : Prop} [∀ i, Decidable (c i)] [Decidable C]
    {x x' : ∀ i, Exec (σ i)} {y y' : Exec τ} (hc : ∀ᶠ i in l, (c i ↔ C)) (h : C → RelF l R x y)
    (h' : ¬ C → RelF l R x' y') :
    RelF l R (fun i => if c i then x i else x' i) (if C then y else y') := by
  by_cases hC : C
  · rw [if_pos hC]
    refine relf_congr ?_ (h hC)
    filter_upwards [hc] with i e; exact if_pos (e.2 hC)
  · rw [if_neg hC]
    refine relf_congr ?_ (h' hC)
    filter_upwards [hc] with i e; exact if_neg fun q => hC (e.1 q)

theorem relf_forN' {n : ι → Nat} {N : Nat} (hn : ∀ᶠ i in l, n i = N)
    (I : Nat → (∀ i, σ i) → τ → Prop)
    {f : ∀ i, Nat → σ i → Exec (σ i)} {g : Nat → τ → Exec τ} {s : ∀ i, σ i} {t : τ} (h0 : I 0 s t)
    (hs : ∀ k, k < N → ∀ a b, forN k g t = .ok b → I k a b →
      RelF l (I (k + 1)) (fun i => f i k (a i)) (g k b)) :
    RelF l (I N) (fun i => forN (n i) (f i) (s i)) (forN N g t) := by
  refine relf_congr (x' := fun i => forN N (f i) (s i)) ?_ ?_
  · filter_upwards [hn] with i e; rw [e]
  · clear hn
    induction N with
    | zero => exact relf_ok h0
    | succ N ih =>
      simp only [forN_succ]
      refine relf_bind' (ih fun k hk => hs k (Nat.lt_succ_of_lt hk)) fun a b _ hb hI => ?_
      exact hs N (Nat.lt_succ_self N) a b hb hI

theorem relf_forN {n : ι → Nat} {N : Nat} (hn : ∀ᶠ i in l, n i = N)
    {f : ∀ i, Nat → σ i → Exec (σ i)} {g : Nat → τ → Exec τ} {s : ∀ i, σ i} {t : τ} (h0 : R s t)
    (hs : ∀ k, k < N → ∀ a b, R a b → RelF l R (fun i => f i k (a i)) (g k b)) :
    RelF l R (fun i => forN (n i) (f i) (s i)) (forN N g t) :=
  relf_forN' hn (fun _ => R) h0 fun k hk a b _ => hs k hk a b

end

section
variable {ι : Type} {l : Filter ι} {F : ι → Type} [∀ i, Rounded (F i)] [Shrinks l F]
  {a b : ∀ i, F i} {r s : ℝ}

theorem near_div (ha : Near l a r) (hb : Near l b s) :
    RelF l (Near l) (fun i => Fp.div (a i) (b i)) (Fp.div r s) := by
  by_cases hs : s = 0
  · rw [hs, fp_div_zero]; exact relf_error _ _
  · rw [fp_div hs]
    have hx := ha.lim.div hb.lim hs
    have hne : ∀ᶠ i in l, Rounded.val (b i) ≠ 0 := hb.lim.eventually_ne hs
    have key : ∀ᶠ i in l, ∃ c, Fp.div (a i) (b i) = .ok c ∧ Rounded.fin c ∧
        |Rounded.val c - Rounded.val (a i) / Rounded.val (b i)| ≤
          Rounded.prec (F i) * (1 + |Rounded.val (a i) / Rounded.val (b i)|) := by
      filter_upwards [ha.fin, hb.fin, hne, small_prec (F := F) hx] with i h1 h2 h3 h4
      exact Rounded.div_near _ _ h1 h2 h3 h4
    intro c e
    cases e
    classical
    refine ⟨fun i => if h : ∃ c, Fp.div (a i) (b i) = .ok c then h.choose else 0, ?_, ?_⟩
    · filter_upwards [key] with i h
      obtain ⟨c, h1, _⟩ := h
      have : ∃ c, Fp.div (a i) (b i) = .ok c := ⟨c, h1⟩
      rw [dif_pos this]; exact this.choose_spec
    · refine near_of_close hx ?_
      filter_upwards [key] with i h
      obtain ⟨c, h1, h2, h3⟩ := h
      have : ∃ c, Fp.div (a i) (b i) = .ok c := ⟨c, h1⟩
      have e : this.choose = c := (Except.ok.inj (h1.symm.trans this.choose_spec)).symm
      simp only [dif_pos this, e]
      exact ⟨h2, h3⟩

omit [Shrinks l F] in
/-- A comparison that is strict for the exact values. -/
theorem near_gt (ha : Near l a r) (hb : Near l b s) (h : r ≠ s) :
    ∀ᶠ i in l, Fp.gt (a i) (b i) = Fp.gt r s := by
  rcases lt_or_gt_of_ne h with h | h
  · have e : Fp.gt r s = false := by
      rw [Bool.eq_false_iff, ne_eq, fp_gt]; exact not_lt.2 h.le
    filter_upwards [ha.fin, hb.fin, ha.lim.eventually_lt hb.lim h] with i h1 h2 h3
    rw [e, Bool.eq_false_iff, ne_eq, Rounded.gt_exact _ _ h1 h2]
    exact not_lt.2 h3.le
  · have e : Fp.gt r s = true := fp_gt.2 h
    filter_upwards [ha.fin, hb.fin, hb.lim.eventually_lt ha.lim h] with i h1 h2 h3
    rw [e, Rounded.gt_exact _ _ h1 h2]
    exact h3

omit [Shrinks l F] in
theorem near_ge (ha : Near l a r) (hb : Near l b s) (h : r ≠ s) :
    ∀ᶠ i in l, Fp.ge (a i) (b i) = Fp.ge r s := by
  rcases lt_or_gt_of_ne h with h | h
  · have e : Fp.ge r s = false := by
      rw [Bool.eq_false_iff, ne_eq, fp_ge]; exact not_le.2 h
    filter_upwards [ha.fin, hb.fin, ha.lim.eventually_lt hb.lim h] with i h1 h2 h3
    rw [e, Bool.eq_false_iff, ne_eq, Rounded.ge_exact _ _ h1 h2]
    exact not_le.2 h3
  · have e : Fp.ge r s = true := fp_ge.2 h.le
    filter_upwards [ha.fin, hb.fin, hb.lim.eventually_lt ha.lim h] with i h1 h2 h3
    rw [e, Rounded.ge_exact _ _ h1 h2]
    exact h3.le

omit [Shrinks l F] in
theorem near_isZero (ha : Near l a r) (h : r ≠ 0) : ∀ᶠ i in l, Fp.isZero (a i) = Fp.isZero r := by
  have e : Fp.isZero r = false := by rw [Bool.eq_false_iff, ne_eq, fp_isZero]; exact h
  filter_upwards [ha.fin, ha.lim.eventually_ne h] with i h1 h2
  rw [e, Bool.eq_false_iff, ne_eq, Rounded.zero_exact _ h1]
  exact h2

end

end Scs
