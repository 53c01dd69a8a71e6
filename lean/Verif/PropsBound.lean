import Verif.PropsMatrix
import Verif.RoundFormat

/-!
# Explicit bounds of rounding errors

C108. How far products computed with rounding are from the exact ones. `Rounded` (beginning of
`Round.lean`) says what is assumed of the arithmetic, with the rounding error `prec`.
-/

namespace Scs

open Finset

/-! ## Specification -/

/-- What `n` products and sums can lose, relative to `1 + Σ (1 + |a k * b k|)`. -/
noncomputable def loss (F : Type) [Rounded F] (n : Nat) : ℝ := (1 + Rounded.prec F) ^ (2 * n) - 1

/-- The exact counterpart of an entry that is computed as a sum of `n` products, and its size. -/
noncomputable def exactSum {F : Type} [Rounded F] (n : Nat) (a b : Nat → F) : ℝ :=
  ∑ k ∈ range n, Rounded.val (a k) * Rounded.val (b k)

@[inherit_doc exactSum]
noncomputable def sizeSum {F : Type} [Rounded F] (n : Nat) (a b : Nat → F) : ℝ :=
  1 + ∑ k ∈ range n, (1 + |Rounded.val (a k) * Rounded.val (b k)|)

/-! ## Proofs -/

section
variable {F : Type} [Rounded F]

theorem prec_nn : 0 ≤ Rounded.prec F := Rounded.prec_nonneg

theorem sizeSum_pos (n : Nat) (a b : Nat → F) : 1 ≤ sizeSum n a b :=
  le_add_of_nonneg_right (sum_nonneg fun _ _ => by positivity)

theorem exact_le_size (n : Nat) (a b : Nat → F) : |exactSum n a b| + 1 ≤ sizeSum n a b := by
  have h1 : |exactSum n a b| ≤ ∑ k ∈ range n, |Rounded.val (a k) * Rounded.val (b k)| :=
    abs_sum_le_sum_abs _ _
  have h2 : ∑ k ∈ range n, |Rounded.val (a k) * Rounded.val (b k)| ≤
      ∑ k ∈ range n, (1 + |Rounded.val (a k) * Rounded.val (b k)|) :=
    sum_le_sum fun k _ => by linarith
  unfold sizeSum
  linarith

/-- One more product. -/
theorem step_bound {p g S m e σ : ℝ} (hp : 0 ≤ p) (hg : 0 ≤ g) (hS : |σ| + 1 ≤ S) (he : e ≤ g * S)
    {d1 d2 : ℝ} (h1 : |d1| ≤ p * (1 + |m|)) {s : ℝ} (hs : |s - σ| ≤ e)
    (h2 : |d2| ≤ p * (1 + |s + (m + d1)|)) :
    |s + (m + d1) + d2 - (σ + m)| ≤ ((1 + p) ^ 2 * (1 + g) - 1) * (S + (1 + |m|)) := by
  have hS0 : 0 ≤ S := by linarith [abs_nonneg σ]
  have hm0 := abs_nonneg m
  have a1 : |s + (m + d1)| ≤ |s - σ| + |σ| + |m| + |d1| := by
    have : s + (m + d1) = (s - σ) + σ + m + d1 := by ring
    rw [this]
    exact (abs_add_le _ _).trans (by
      gcongr
      exact (abs_add_le _ _).trans (by gcongr; exact abs_add_le _ _))
  have a2 : |s + (m + d1) + d2 - (σ + m)| ≤ |s - σ| + |d1| + |d2| := by
    have : s + (m + d1) + d2 - (σ + m) = (s - σ) + d1 + d2 := by ring
    rw [this]
    exact (abs_add_le _ _).trans (by gcongr; exact abs_add_le _ _)
  have a3 : |d2| ≤ p * (1 + (e + |σ| + |m| + p * (1 + |m|))) :=
    h2.trans (by
      refine mul_le_mul_of_nonneg_left ?_ hp
      linarith)
  have a4 : p * (1 + (e + |σ| + |m| + p * (1 + |m|))) ≤ p * (g * S + S + (1 + |m|) + p * (1 + |m|)) := by
    refine mul_le_mul_of_nonneg_left ?_ hp
    linarith
  have a5 : |s + (m + d1) + d2 - (σ + m)| ≤
      g * S + p * (1 + |m|) + p * (g * S + S + (1 + |m|) + p * (1 + |m|)) := by linarith
  refine a5.trans ?_
  have b1 : 0 ≤ (1 + p) ^ 2 * g * (1 + |m|) := by positivity
  have b2 : 0 ≤ p * (1 + p) * g * S + p * (1 + p) * S := by positivity
  nlinarith [b1, b2]

theorem loss_succ (n : Nat) : loss F (n + 1) = (1 + Rounded.prec F) ^ 2 * (1 + loss F n) - 1 := by
  unfold loss
  rw [show 2 * (n + 1) = 2 + 2 * n by ring, pow_add]
  ring

theorem loss_nonneg (n : Nat) : 0 ≤ loss F n := by
  unfold loss
  have := one_le_pow₀ (n := 2 * n) (show (1 : ℝ) ≤ 1 + Rounded.prec F by linarith [prec_nn (F := F)])
  linarith

theorem loss_mono {m n : Nat} (h : m ≤ n) : loss F m ≤ loss F n := by
  unfold loss
  have := pow_le_pow_right₀ (show (1 : ℝ) ≤ 1 + Rounded.prec F by linarith [prec_nn (F := F)])
    (show 2 * m ≤ 2 * n by omega)
  linarith

theorem size_mono {m n : Nat} (h : m ≤ n) (a b : Nat → F) : sizeSum m a b ≤ sizeSum n a b := by
  unfold sizeSum
  have := sum_le_sum_of_subset_of_nonneg (range_mono h) (f := fun k =>
    1 + |Rounded.val (a k) * Rounded.val (b k)|) fun k _ _ => by positivity
  linarith

/-- A rounded sum of products. -/
theorem sumTo_bound (a b : Nat → F) : ∀ n : Nat, (∀ k, k < n → Rounded.fin (a k) ∧ Rounded.fin (b k)) →
    Rounded.prec F * ((1 + loss F n) * sizeSum n a b) ≤ 1 →
    Rounded.fin (sumTo n fun k => a k * b k) ∧
      |Rounded.val (sumTo n fun k => a k * b k) - exactSum n a b| ≤ loss F n * sizeSum n a b
  | 0, _, _ => ⟨Rounded.zero_fin, by
      simp [sumTo, Rounded.zero_val, exactSum, loss]⟩
  | n + 1, hf, hr => by
    have p0 := prec_nn (F := F)
    have g0 := loss_nonneg (F := F) n
    have S0 := sizeSum_pos n a b
    have hS : sizeSum (n + 1) a b = sizeSum n a b + (1 + |Rounded.val (a n) * Rounded.val (b n)|) := by
      rw [sizeSum, sum_range_succ, ← add_assoc]
      rfl
    have hE : exactSum (n + 1) a b = exactSum n a b + Rounded.val (a n) * Rounded.val (b n) :=
      sum_range_succ _ _
    have hmono : (1 + loss F n) * sizeSum n a b ≤ (1 + loss F (n + 1)) * sizeSum (n + 1) a b :=
      mul_le_mul (by linarith [loss_mono (F := F) (Nat.le_succ n)]) (size_mono (Nat.le_succ n) a b)
        (by linarith) (by linarith [loss_nonneg (F := F) (n + 1)])
    obtain ⟨f0, e0⟩ := sumTo_bound a b n (fun k hk => hf k (by omega))
      ((mul_le_mul_of_nonneg_left hmono p0).trans hr)
    have hm0 := abs_nonneg (Rounded.val (a n) * Rounded.val (b n))
    set m := Rounded.val (a n) * Rounded.val (b n) with hm
    have big : (1 + Rounded.prec F) ^ 2 * (1 + loss F n) * (sizeSum n a b + (1 + |m|)) =
        (1 + loss F (n + 1)) * sizeSum (n + 1) a b := by rw [hS, loss_succ]; ring
    have sm : |m| ≤ (1 + loss F (n + 1)) * sizeSum (n + 1) a b := by
      rw [← big]
      have : (1 : ℝ) ≤ (1 + Rounded.prec F) ^ 2 * (1 + loss F n) := by
        have := one_le_pow₀ (n := 2) (show (1 : ℝ) ≤ 1 + Rounded.prec F by linarith)
        nlinarith
      nlinarith
    obtain ⟨f1, e1⟩ := Rounded.mul_near (a n) (b n) (hf n (by omega)).1 (hf n (by omega)).2
      ((mul_le_mul_of_nonneg_left sm p0).trans hr)
    rw [← hm] at e1
    have ss : |Rounded.val (sumTo n fun k => a k * b k) + Rounded.val (a n * b n)| ≤
        (1 + loss F (n + 1)) * sizeSum (n + 1) a b := by
      rw [← big]
      have h1 := exact_le_size n a b
      have a1 : |Rounded.val (sumTo n fun k => a k * b k) + Rounded.val (a n * b n)| ≤
          |Rounded.val (sumTo n fun k => a k * b k) - exactSum n a b| + |exactSum n a b| +
            (|Rounded.val (a n * b n) - m| + |m|) := by
        have : Rounded.val (sumTo n fun k => a k * b k) + Rounded.val (a n * b n) =
          (Rounded.val (sumTo n fun k => a k * b k) - exactSum n a b) + exactSum n a b +
            ((Rounded.val (a n * b n) - m) + m) := by ring
        rw [this]
        exact (abs_add_le _ _).trans (add_le_add (abs_add_le _ _) (abs_add_le _ _))
      refine a1.trans ?_
      have h2 : |Rounded.val (sumTo n fun k => a k * b k) - exactSum n a b| + |exactSum n a b| ≤
          (1 + loss F n) * sizeSum n a b := by linarith
      have h3 : |Rounded.val (a n * b n) - m| + |m| ≤ (1 + Rounded.prec F) * (1 + |m|) := by linarith
      have h4 : (1 + loss F n) * sizeSum n a b ≤
          (1 + Rounded.prec F) ^ 2 * (1 + loss F n) * sizeSum n a b := by
        have := one_le_pow₀ (n := 2) (show (1 : ℝ) ≤ 1 + Rounded.prec F by linarith)
        have h5 : 0 ≤ (1 + loss F n) * sizeSum n a b := by positivity
        nlinarith
      have h6 : (1 + Rounded.prec F) * (1 + |m|) ≤
          (1 + Rounded.prec F) ^ 2 * (1 + loss F n) * (1 + |m|) := by
        refine mul_le_mul_of_nonneg_right ?_ (by positivity)
        nlinarith [mul_nonneg (mul_nonneg p0 p0) g0, mul_nonneg p0 g0, mul_nonneg p0 p0]
      linarith
    obtain ⟨f2, e2⟩ := Rounded.add_near _ _ f0 f1 ((mul_le_mul_of_nonneg_left ss p0).trans hr)
    refine ⟨f2, ?_⟩
    have := step_bound (s := Rounded.val (sumTo n fun k => a k * b k)) (σ := exactSum n a b)
      (m := m) (d1 := Rounded.val (a n * b n) - m)
      (d2 := Rounded.val (sumTo n (fun k => a k * b k) + a n * b n) -
        (Rounded.val (sumTo n fun k => a k * b k) + Rounded.val (a n * b n))) p0 g0
      (exact_le_size n a b) le_rfl e1 e0 (by
        rw [add_sub_cancel]
        exact e2)
    rw [loss_succ, hS, hE]
    convert this using 2
    show Rounded.val (sumTo n (fun k => a k * b k) + a n * b n) - _ = _
    ring

end

/-! ## Theorems -/

section
variable {F : Type} [Rounded F] {st en : Nat} {s : Store F} {a b t : MId} {w h n : Nat}
  {A B : Nat → Nat → F}

/-- **C108**: `multiply` in floating point. If all entries are finite and in range, the entries of the
product are finite, and each differs from the exact product of the given matrices by at most
`(1 + prec)^(2 n) - 1` times `1 + n` plus the sum of the absolute products. -/
theorem C108_multiply (hs : Reachable st en s) (ha : s.Shows a n h A) (hb : s.Shows b w n B)
    (hta : a ≠ t) (htb : b ≠ t)
    (hA : ∀ r k, r < h → k < n → Rounded.fin (A r k)) (hB : ∀ k c, k < n → c < w → Rounded.fin (B k c))
    (hR : ∀ r c, r < h → c < w → Rounded.prec F * ((1 + Rounded.prec F) ^ (2 * n) *
      (1 + n + ∑ k ∈ range n, |Rounded.val (A r k) * Rounded.val (B k c)|)) ≤ 1) :
    ∃ (s' : Store F) (P : Nat → Nat → F), s.multiply a b t = .ok s' ∧ s'.Shows t w h P ∧
      OthersSame t s s' ∧ ∀ r c, r < h → c < w → Rounded.fin (P r c) ∧
        |Rounded.val (P r c) - ∑ k ∈ range n, Rounded.val (A r k) * Rounded.val (B k c)| ≤
          ((1 + Rounded.prec F) ^ (2 * n) - 1) *
            (1 + n + ∑ k ∈ range n, |Rounded.val (A r k) * Rounded.val (B k c)|) := by
  obtain ⟨s', e, h1, h2⟩ := C04_multiply_any hs ha hb hta htb
  refine ⟨s', _, e, h1, h2, fun r c hr hc => ?_⟩
  have size : sizeSum n (A r) (fun k => B k c) =
      1 + n + ∑ k ∈ range n, |Rounded.val (A r k) * Rounded.val (B k c)| := by
    simp [sizeSum, sum_add_distrib, add_assoc]
  have := sumTo_bound (A r) (fun k => B k c) n (fun k hk => ⟨hA r k hr hk, hB k c hk hc⟩) (by
    rw [size, loss, add_sub_cancel]; exact hR r c hr hc)
  rw [size] at this
  exact this

/-- **C108** for `transposeMultiply`. -/
theorem C108_transposeMultiply (hs : Reachable st en s) (ha : s.Shows a h n A) (hb : s.Shows b w n B)
    (hta : a ≠ t) (htb : b ≠ t)
    (hA : ∀ k r, k < n → r < h → Rounded.fin (A k r)) (hB : ∀ k c, k < n → c < w → Rounded.fin (B k c))
    (hR : ∀ r c, r < h → c < w → Rounded.prec F * ((1 + Rounded.prec F) ^ (2 * n) *
      (1 + n + ∑ k ∈ range n, |Rounded.val (A k r) * Rounded.val (B k c)|)) ≤ 1) :
    ∃ (s' : Store F) (P : Nat → Nat → F), s.transposeMultiply a b t = .ok s' ∧ s'.Shows t w h P ∧
      OthersSame t s s' ∧ ∀ r c, r < h → c < w → Rounded.fin (P r c) ∧
        |Rounded.val (P r c) - ∑ k ∈ range n, Rounded.val (A k r) * Rounded.val (B k c)| ≤
          ((1 + Rounded.prec F) ^ (2 * n) - 1) *
            (1 + n + ∑ k ∈ range n, |Rounded.val (A k r) * Rounded.val (B k c)|) := by
  obtain ⟨s', e, h1, h2⟩ := C04_transposeMultiply_any hs ha hb hta htb
  refine ⟨s', _, e, h1, h2, fun r c hr hc => ?_⟩
  have size : sizeSum n (fun k => A k r) (fun k => B k c) =
      1 + n + ∑ k ∈ range n, |Rounded.val (A k r) * Rounded.val (B k c)| := by
    simp [sizeSum, sum_add_distrib, add_assoc]
  have := sumTo_bound (fun k => A k r) (fun k => B k c) n (fun k hk => ⟨hA k r hk hr, hB k c hk hc⟩) (by
    rw [size, loss, add_sub_cancel]; exact hR r c hr hc)
  rw [size] at this
  exact this

/-- **C108** for `dot` and `vectorMagnitudeSquared` (take `b = a`) of vectors whose rows have not been
swapped. -/
theorem C108_dot {P : Restr} (hs : ReachableNS st en P s) (hpa : P.plain a) (hpb : P.plain b)
    (ha : s.Shows a 1 n A) (hb : s.Shows b 1 n B)
    (hA : ∀ k, k < n → Rounded.fin (A k 0)) (hB : ∀ k, k < n → Rounded.fin (B k 0))
    (hR : Rounded.prec F * ((1 + Rounded.prec F) ^ (2 * n) *
      (1 + n + ∑ k ∈ range n, |Rounded.val (A k 0) * Rounded.val (B k 0)|)) ≤ 1) :
    ∃ d : F, s.dot a b = .ok d ∧ (a = b → s.vectorMagnitudeSquared a = .ok d) ∧ Rounded.fin d ∧
      |Rounded.val d - ∑ k ∈ range n, Rounded.val (A k 0) * Rounded.val (B k 0)| ≤
        ((1 + Rounded.prec F) ^ (2 * n) - 1) *
          (1 + n + ∑ k ∈ range n, |Rounded.val (A k 0) * Rounded.val (B k 0)|) := by
  have hi := hs.inv
  have size : sizeSum n (fun k => A k 0) (fun k => B k 0) =
      1 + n + ∑ k ∈ range n, |Rounded.val (A k 0) * Rounded.val (B k 0)| := by
    simp [sizeSum, sum_add_distrib, add_assoc]
  have := sumTo_bound (fun k => A k 0) (fun k => B k 0) n (fun k hk => ⟨hA k hk, hB k hk⟩) (by
    rw [size, loss, add_sub_cancel]; exact hR)
  rw [size] at this
  have e : s.dot a b = .ok (sumTo n fun k => A k 0 * B k 0) := by
    rw [Store.dot_spec s a b (hi.mat a) (hi.mat b) (hi.plain a hpa) (hi.plain b hpb) ha.width
      hb.width (by rw [ha.height, hb.height]), ha.height]
    congr 1
    exact sumTo_congr fun i hi => by rw [ha.ent hi (by decide), hb.ent hi (by decide)]
  refine ⟨_, e, fun hab => ?_, this.1, this.2⟩
  subst hab
  rw [← e, Store.vms_spec s a (hi.mat a) (hi.plain a hpa) ha.width,
    Store.dot_spec s a a (hi.mat a) (hi.mat a) (hi.plain a hpa) (hi.plain a hpa) ha.width ha.width rfl]

end

/-- The hypotheses of the C108 theorems are met in the format `double`: products of vectors of three
equal numbers up to 1000. The results are off by less than `10 ^ (-8)`. -/
example (x y : ℝ) (hx : |x| ≤ 1000) (hy : |y| ≤ 1000) : ∃ (s s' : Store (Fl double))
    (A B P : Nat → Nat → Fl double), Reachable 3 2 s ∧ s.Shows (.user 0) 3 2 A ∧
    s.Shows (.user 1) 2 3 B ∧ A 0 2 = .num x ∧ B 2 1 = .num y ∧
    s.multiply (.user 0) (.user 1) (.user 2) = .ok s' ∧ s'.Shows (.user 2) 2 2 P ∧
    |Rounded.val (P 1 1) - 3 * (x * y)| ≤ 1 / 10 ^ 8 := by
  obtain ⟨s1, e1, h1, o1⟩ := C03_init (st := 3) (en := 2)
    (.fresh (fun _ _ => (.num 0 : Fl double)) fun _ _ => 0) (.user 0) 3 2 (.num x)
  have r1 : Reachable 3 2 s1 := .call (.init (.user 0) 3 2 (.num x)) (.fresh _ _) trivial trivial e1
  obtain ⟨s2, e2, h2, o2⟩ := C03_init r1 (.user 1) 2 3 (.num y)
  have r2 : Reachable 3 2 s2 := .call (.init (.user 1) 2 3 (.num y)) r1 trivial trivial e2
  have h12 : s2.Shows (.user 0) 3 2 fun _ _ => .num x := by
    have e := o2.mat (.user 0) (by decide)
    refine ⟨by rw [e]; exact h1.width, by rw [e]; exact h1.height, fun r c hr hc => ?_⟩
    rw [← h1.get r c hr hc]
    simp only [Store.get, Store.load, e]
  have hp : Rounded.prec (Fl double) = 1 / 2 ^ 52 := by
    show ((1 / 2 : ℝ)) ^ 52 = _
    norm_num
  have hxy : |x * y| ≤ 1000000 := by
    rw [abs_mul]
    nlinarith [abs_nonneg x, abs_nonneg y]
  obtain ⟨s', P, e, hP, -, hb⟩ := C108_multiply (t := .user 2) r2 h12 h2
    (by decide) (by decide) (fun _ _ _ _ => ⟨x, rfl⟩) (fun _ _ _ _ => ⟨y, rfl⟩) (fun r c _ _ => by
      show Rounded.prec (Fl double) * ((1 + Rounded.prec (Fl double)) ^ (2 * 3) *
        (1 + (3 : ℕ) + ∑ k ∈ range 3, |x * y|)) ≤ 1
      rw [hp]
      simp only [sum_const, card_range, nsmul_eq_mul]
      push_cast
      have : 1 / 2 ^ 52 * ((1 + 1 / 2 ^ 52) ^ (2 * 3) * (1 + 3 + 3 * 1000000)) ≤ (1 : ℝ) := by norm_num
      refine le_trans ?_ this
      gcongr)
  refine ⟨s2, s', _, _, P, r2, h12, h2, rfl, rfl, e, hP, ?_⟩
  have := (hb 1 1 (by decide) (by decide)).2
  have e3 : ∑ k ∈ range 3, Rounded.val (Fl.num x : Fl double) * Rounded.val (Fl.num y : Fl double) =
      3 * (x * y) := by
    rw [sum_const, card_range, nsmul_eq_mul]
    rfl
  rw [e3] at this
  refine this.trans ?_
  have e4 : ∑ k ∈ range 3, |Rounded.val (Fl.num x : Fl double) * Rounded.val (Fl.num y : Fl double)| =
      3 * |x * y| := by
    rw [sum_const, card_range, nsmul_eq_mul]
    rfl
  rw [e4, hp]
  push_cast
  have : ((1 + 1 / 2 ^ 52) ^ (2 * 3) - 1) * (1 + 3 + 3 * 1000000) ≤ (1 / 10 ^ 8 : ℝ) := by norm_num
  refine le_trans ?_ this
  have h0 : (0 : ℝ) ≤ (1 + 1 / 2 ^ 52) ^ (2 * 3) - 1 := by norm_num
  gcongr

end Scs
