import Verif.WorldNoise
import Verif.WorldExact

/-!
# How much a Gauss-Seidel iteration misses the conditions of the constraints

Near an exact motion the forces of a Gauss-Seidel iteration, which stops when a sweep changes the forces
little, miss the conditions of the constraints by at most a constant times the tolerance.
-/

namespace Scs

open Finset

section
variable {ι κ : Type} [Fintype ι] [Fintype κ] [DecidableEq ι] [DecidableEq κ]

theorem sum_abs_le (f g : ι → ℝ) : ∑ r, |f r| * |g r| ≤ Fintype.card ι * (‖f‖ * ‖g‖) := by
  refine (sum_le_card_nsmul _ _ (‖f‖ * ‖g‖) fun r _ => ?_).trans_eq ?_
  · exact mul_le_mul (norm_le_pi_norm f r) (norm_le_pi_norm g r) (abs_nonneg _) (norm_nonneg _)
  · rw [nsmul_eq_mul, card_univ]

/-- The square of the largest entry is at most the sum of the squares. -/
theorem norm_sq_le (v : κ → ℝ) : ‖v‖ ^ 2 ≤ ∑ i, v i ^ 2 := by
  have h0 : 0 ≤ ∑ i, v i ^ 2 := sum_nonneg fun _ _ => sq_nonneg _
  have h1 : ‖v‖ ≤ Real.sqrt (∑ i, v i ^ 2) := by
    refine (pi_norm_le_iff_of_nonneg (Real.sqrt_nonneg _)).mpr fun i => ?_
    refine Real.le_sqrt_of_sq_le ?_
    rw [Real.norm_eq_abs, sq_abs]
    exact single_le_sum (f := fun i => v i ^ 2) (fun _ _ => sq_nonneg _) (mem_univ i)
  have := pow_le_pow_left₀ (norm_nonneg _) h1 2
  rwa [Real.sq_sqrt h0] at this

/-- Impulses `z` along the rows, of which a Gauss-Seidel iteration with the tolerance `d` makes sure that
each row is satisfied up to `S` or its impulse is at a limit, satisfy all rows up to a constant times
`d`, if the impulses that satisfy them exactly are within the limits. -/
theorem gs_noise {A Kb μ : ℝ} (A0 : 0 ≤ A) (Kb0 : 0 ≤ Kb) (hμ : 0 < μ) :
    ∃ K d0, 0 ≤ K ∧ 0 < d0 ∧ d0 ≤ 1 / 2 ∧ ∀ (J : ι → κ → ℝ) (mass : κ → ℝ) (V M : ι → ι → ℝ)
      (b z S : ι → ℝ) (d : ℝ), (∀ i, μ ≤ mass i) →
      (∀ x, app M x = app J (fun i => (∑ r, J r i * x r) / mass i)) →
      (∀ x, app V (app M x) = x) → (∀ x, app M (app V x) = x) → ‖J‖ ≤ A → ‖V‖ ≤ A → ‖M‖ ≤ A →
      ‖b‖ ≤ Kb → 0 < d → d ≤ d0 →
      (∀ r, 0 ≤ S r ∧ S r ≤ ∑ r', |M r r'| * (d * max (1 / 1000) (|z r'| / (1 - d)))) →
      (∀ r, (app M z r + b r) * (z r - (-app V b) r) ≤ S r * |z r - (-app V b) r|) →
      ‖app M z + b‖ ≤ K * d := by
  set n1 : ℝ := ((Fintype.card ι : Nat) : ℝ) with hn1
  set n2 : ℝ := ((Fintype.card κ : Nat) : ℝ) with hn2
  have n10 : 0 ≤ n1 := by positivity
  have n20 : 0 ≤ n2 := by positivity
  set a := n1 * A with ha
  have a0 : 0 ≤ a := by positivity
  set e := n2 * A with he
  have e0 : 0 ≤ e := by positivity
  set Q := e * (n1 * a * e) / μ with hQ
  have Q0 : 0 ≤ Q := by positivity
  set W := Q * a with hW
  have W0 : 0 ≤ W := by positivity
  set d0 := 1 / (4 * W * a + 2) with hd0
  have d00 : 0 < d0 := by positivity
  have d01 : d0 ≤ 1 / 2 := by
    rw [hd0]
    refine one_div_le_one_div_of_le (by norm_num) ?_
    have : 0 ≤ 4 * W * a := by positivity
    linarith
  refine ⟨2 * (W * (1 + 2 * (a * Kb))), d0, by positivity, d00, d01, ?_⟩
  intro J mass V M b z S d hmass hM hVM hMV hJ hV hMn hb hd hdd hS hcone
  set zs : ι → ℝ := -app V b with hzs
  set δ : ι → ℝ := z - zs with hδ
  set ε : ι → ℝ := app M z + b with hε
  set Δ : κ → ℝ := fun i => (∑ r, J r i * δ r) / mass i with hΔ
  have mpos : ∀ i, 0 < mass i := fun i => hμ.trans_le (hmass i)
  -- the errors are those of the difference of the impulses
  have e1 : ε = app M δ := by
    rw [hδ, map_sub, hzs, map_neg, hMV, sub_neg_eq_add]
  have e2 : ε = app J Δ := by rw [e1, hM]
  have e3 : δ = app V ε := by rw [e1, hVM]
  have b1 : ‖δ‖ ≤ a * ‖ε‖ := by
    rw [e3]
    refine (app_le _ _).trans ?_
    rw [ha]
    exact mul_le_mul_of_nonneg_right (mul_le_mul_of_nonneg_left hV n10) (norm_nonneg _)
  have b2 : ‖ε‖ ≤ e * ‖Δ‖ := by
    rw [e2]
    refine (app_le _ _).trans ?_
    rw [he]
    exact mul_le_mul_of_nonneg_right (mul_le_mul_of_nonneg_left hJ n20) (norm_nonneg _)
  -- the work
  have work : ∑ r, ε r * δ r = ∑ i, mass i * Δ i ^ 2 := by
    have l1 : ∀ r, ε r * δ r = ∑ i, J r i * δ r * Δ i := fun r => by
      rw [e2, app_at, sum_mul]
      exact sum_congr rfl fun i _ => by ring
    simp only [l1]
    rw [sum_comm]
    refine sum_congr rfl fun i _ => ?_
    rw [← sum_mul]
    have l2 : ∑ r, J r i * δ r = mass i * Δ i := by
      rw [hΔ]
      have := (mpos i).ne'
      field_simp
    rw [l2]
    ring
  have w1 : μ * ‖Δ‖ ^ 2 ≤ ∑ i, mass i * Δ i ^ 2 := by
    refine (mul_le_mul_of_nonneg_left (norm_sq_le Δ) hμ.le).trans ?_
    rw [mul_sum]
    exact sum_le_sum fun i _ => mul_le_mul_of_nonneg_right (hmass i) (sq_nonneg _)
  have w2 : ∑ r, ε r * δ r ≤ n1 * (‖S‖ * ‖δ‖) := by
    refine (sum_le_sum fun r _ => (hcone r).trans ?_).trans (sum_abs_le S δ)
    rw [abs_of_nonneg (hS r).1]
    exact le_rfl
  have w3 : ‖ε‖ ≤ Q * ‖S‖ := by
    have h1 : μ * ‖Δ‖ ^ 2 ≤ (n1 * a * e * ‖S‖) * ‖Δ‖ := by
      have t1 : ‖δ‖ ≤ a * (e * ‖Δ‖) := b1.trans (mul_le_mul_of_nonneg_left b2 a0)
      have t2 := mul_le_mul_of_nonneg_left (mul_le_mul_of_nonneg_left t1 (norm_nonneg S)) n10
      rw [← work] at w1
      refine (w1.trans w2).trans (t2.trans (le_of_eq (by ring)))
    have h2 : μ * ‖Δ‖ ≤ n1 * a * e * ‖S‖ := by
      rcases (norm_nonneg Δ).eq_or_lt with h | h
      · rw [← h, mul_zero]; positivity
      · refine le_of_mul_le_mul_right ?_ h
        rw [mul_assoc, ← pow_two]
        exact h1
    have h3 : ‖Δ‖ ≤ n1 * a * e * ‖S‖ / μ := by rw [le_div_iff₀ hμ]; linarith
    refine b2.trans ((mul_le_mul_of_nonneg_left h3 e0).trans (le_of_eq ?_))
    rw [hQ]
    ring
  -- the tolerance
  have hd1 : 1 / 2 ≤ 1 - d := by linarith
  have s1 : ‖S‖ ≤ d * (a * (1 + 2 * ‖z‖)) := by
    refine (pi_norm_le_iff_of_nonneg (by positivity)).mpr fun r => ?_
    rw [Real.norm_eq_abs, abs_of_nonneg (hS r).1]
    refine (hS r).2.trans ?_
    refine (sum_le_card_nsmul _ _ (A * (d * (1 + 2 * ‖z‖))) fun r' _ => ?_).trans (le_of_eq ?_)
    · refine mul_le_mul ?_ (mul_le_mul_of_nonneg_left ?_ hd.le) (by positivity) A0
      · exact ((norm_le_pi_norm (M r) r').trans (norm_le_pi_norm M r)).trans hMn
      · have t1 : |z r'| / (1 - d) ≤ 2 * ‖z‖ := by
          rw [div_le_iff₀ (by linarith)]
          have t2 : |z r'| ≤ ‖z‖ := norm_le_pi_norm z r'
          have := norm_nonneg z
          nlinarith
        have := norm_nonneg z
        exact max_le (by linarith) (by linarith)
    · rw [nsmul_eq_mul, card_univ, ha]
      ring
  have z1 : ‖z‖ ≤ a * Kb + a * ‖ε‖ := by
    have t1 : z = zs + δ := by rw [hδ]; abel
    rw [t1]
    refine norm_add_le_of ?_ b1
    rw [hzs, norm_neg]
    refine (app_le _ _).trans ?_
    rw [ha]
    exact mul_le_mul (mul_le_mul_of_nonneg_left hV n10) hb (norm_nonneg _) (by positivity)
  have f1 : ‖ε‖ ≤ W * d * (1 + 2 * (a * Kb) + 2 * (a * ‖ε‖)) := by
    have t1 : 1 + 2 * ‖z‖ ≤ 1 + 2 * (a * Kb) + 2 * (a * ‖ε‖) := by linarith
    have t2 := mul_le_mul_of_nonneg_left t1 (by positivity : 0 ≤ W * d)
    have t3 := mul_le_mul_of_nonneg_left s1 Q0
    refine w3.trans (t3.trans (le_trans (le_of_eq ?_) t2))
    rw [hW]
    ring
  have f2 : W * d * (2 * a) ≤ 1 / 2 := by
    have t1 : d * (4 * W * a + 2) ≤ 1 := by
      rw [hd0, le_div_iff₀ (by positivity)] at hdd
      exact hdd
    nlinarith
  have f3 := mul_le_mul_of_nonneg_right f2 (norm_nonneg ε)
  nlinarith

end

section
variable {w : World ℝ}

/-- A sub-step of length `h` from the motion `x` to the motion `x'` with forces `mult` along the rows,
whatever the solver. -/
structure World.Push (w : World ℝ) (h : ℝ) (x x' : Motion) (mult : Nat → Nat → ℝ) : Prop where
  vel : ∀ b ∈ w.rb, ∀ q : Coord, x'.vel b q = x.vel b q +
    h * ((w.load x b q + w.conForce (w.reaction x mult) b q) / (w.bodies b).mass q)
  pos : ∀ b ∈ w.rb, ∀ q : Coord, x'.pos b q = x.pos b q + h * x'.vel b q

theorem World.Move.push {h : ℝ} {x x' : Motion} {mult : Nat → Nat → ℝ} (st : w.Move h x x' mult) :
    w.Push h x x' mult :=
  ⟨fun b hb q => by rw [st.vel b hb q, st.acc b hb q], st.pos⟩

/-- By how much the conditions of the constraints are missed. -/
noncomputable def World.miss (w : World ℝ) (h : ℝ) (x x' : Motion) : w.RowIdx → ℝ :=
  w.offs + app (w.jac (w.pack x)) (w.pack x').2 + (w.bias / h) • w.errs (w.pack x)

theorem miss_at (p : w.Placed) (h : ℝ) (x x' : Motion) (r : w.RowIdx) : w.miss h x x' r =
    w.rowAt (w.rowsOf x r.1) r.1 r.2 x'.vel + (w.rowsOf x r.1).v_bias r.2 +
      w.bias / h * (w.rowsOf x r.1).C r.2 := by
  rw [rows_pack p x (List.mem_toFinset.mp r.1.2),
    rowAt_jac p _ r (v := (w.pack x').2) (fun i => rfl)]
  show (w.cons r.1).kind.biasT + _ + w.bias / h * _ = _
  rw [add_comm (w.cons r.1).kind.biasT]
  rfl

section
variable (p : w.Placed) (hg : w.Driven) {h : ℝ} {x x' : Motion} {mult : Nat → Nat → ℝ}
  (hf : w.Fair x) (st : w.Push h x x' mult)
include p hg hf st

theorem World.Push.flat : (w.pack x').2 = (w.pack x).2 + h • w.freeAcc (w.pack x) +
    app (w.push (w.pack x)) (h • fun r => mult r.1 r.2) := by
  have hb : ∀ i : w.rb.toFinset × Coord, (i.1 : Nat) ∈ w.rb := fun i => List.mem_toFinset.mp i.1.2
  funext i
  refine (st.vel i.1 (hb i) i.2).trans ?_
  rw [add_div, force_push p, load_pack hg hf.2 (hb i), map_smul]
  simp only [Pi.add_apply, Pi.smul_apply, smul_eq_mul, World.freeAcc, World.pack]
  ring

theorem World.Push.noisy : w.bound.Noisy w.bias h (w.miss h x x') (w.pack x) (w.pack x') := by
  have hd : (w.matOf (w.pack x)).det ≠ 0 :=
    (det_iff p _).mpr ((fair_pack p hg).mpr hf).1
  have hb : ∀ i : w.rb.toFinset × Coord, (i.1 : Nat) ∈ w.rb := fun i => List.mem_toFinset.mp i.1.2
  have vel := st.flat p hg hf
  refine ⟨funext fun i => st.pos i.1 (hb i) i.2, ?_, rfl⟩
  have e1 : app (w.push (w.pack x)) (h • fun r => mult r.1 r.2) =
      app (w.fix (w.pack x)) (app (w.jac (w.pack x))
        ((w.pack x').2 - (w.pack x).2 - h • w.freeAcc (w.pack x))) := by
    have e2 : (w.pack x').2 - (w.pack x).2 - h • w.freeAcc (w.pack x) =
        app (w.push (w.pack x)) (h • fun r => mult r.1 r.2) := by rw [vel]; abel
    rw [e2, fix_push hd]
  show (w.pack x').2 = (w.pack x).2 + h • w.freeAcc (w.pack x) -
    app (w.fix (w.pack x)) (w.offs + app (w.jac (w.pack x)) (w.pack x).2 +
      ((w.bias / h) • w.errs (w.pack x) - w.miss h x x') +
      h • app (w.jac (w.pack x)) (w.freeAcc (w.pack x)))
  have e3 : app (w.jac (w.pack x)) ((w.pack x').2 - (w.pack x).2 - h • w.freeAcc (w.pack x)) =
      -(w.offs + app (w.jac (w.pack x)) (w.pack x).2 +
        ((w.bias / h) • w.errs (w.pack x) - w.miss h x x') +
          h • app (w.jac (w.pack x)) (w.freeAcc (w.pack x))) := by
    rw [map_sub, map_sub, map_smul, World.miss]
    abel
  rw [e3, map_neg] at e1
  rw [sub_eq_add_neg, ← e1]
  exact vel

end

/-- What the constraints lack before the forces along them act. -/
noncomputable def World.lack (w : World ℝ) (h : ℝ) (x : Motion) : w.RowIdx → ℝ :=
  w.offs + app (w.jac (w.pack x)) (w.pack x).2 + (w.bias / h) • w.errs (w.pack x) +
    h • app (w.jac (w.pack x)) (w.freeAcc (w.pack x))

theorem World.Push.miss_eq (p : w.Placed) (hg : w.Driven) {h : ℝ} {x x' : Motion}
    {mult : Nat → Nat → ℝ} (hf : w.Fair x) (st : w.Push h x x' mult) :
    w.miss h x x' = app (fun i j => w.matOf (w.pack x) i j) (h • fun r => mult r.1 r.2) +
      w.lack h x := by
  have e : app (w.jac (w.pack x)) (app (w.push (w.pack x)) (h • fun r => mult r.1 r.2)) =
      app (fun i j => w.matOf (w.pack x) i j) (h • fun r => mult r.1 r.2) := by
    simp only [app, Matrix.mulVecLin_apply, Matrix.mulVec_mulVec, jac_push]
    rfl
  rw [World.miss, World.lack, st.flat p hg hf, map_add, map_add, map_smul, e]
  abel

theorem lack_le {A h θ : ℝ} {x : Motion} (A0 : 0 ≤ A) (h0 : 0 < h) (hθ : h ≤ θ)
    (h1 : ‖w.offs + app (w.jac (w.pack x)) (w.pack x).2‖ ≤ A * θ)
    (h2 : ‖w.errs (w.pack x)‖ ≤ A * h * θ) (h3 : ‖w.freeAcc (w.pack x)‖ ≤ A)
    (h4 : ‖w.jac (w.pack x)‖ ≤ A) : ‖w.lack h x‖ ≤ (A + |w.bias| * A +
      Fintype.card (w.rb.toFinset × Coord) * A * A) * θ := by
  have n1 : ‖(w.bias / h) • w.errs (w.pack x)‖ ≤ |w.bias| * A * θ := by
    rw [norm_smul, Real.norm_eq_abs, abs_div, abs_of_pos h0]
    calc |w.bias| / h * ‖w.errs (w.pack x)‖ ≤ |w.bias| / h * (A * h * θ) :=
          mul_le_mul_of_nonneg_left h2 (by positivity)
      _ = |w.bias| * A * θ := by field_simp
  have n2 : ‖h • app (w.jac (w.pack x)) (w.freeAcc (w.pack x))‖ ≤
      Fintype.card (w.rb.toFinset × Coord) * A * A * θ := by
    rw [norm_smul, Real.norm_eq_abs, abs_of_pos h0, mul_comm]
    refine mul_le_mul ((app_le _ _).trans ?_) hθ h0.le (by positivity)
    exact mul_le_mul (mul_le_mul_of_nonneg_left h4 (by positivity)) h3 (norm_nonneg _) (by positivity)
  refine (norm_add_le_of (norm_add_le_of h1 n1) n2).trans (le_of_eq ?_)
  ring

end

end Scs
