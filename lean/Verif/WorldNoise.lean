import Verif.Noise
import Verif.PropsHeld

/-!
# Sub-steps that satisfy the constraints only nearly, near an exact motion

The sub-steps of the optimized system with iterative solvers: bounds on everything they consist of, how
far a sequence of such sub-steps is from the exact motion, and how much the conditions of the constraints
are missed if the forces are those of a Gauss-Seidel iteration.
-/

namespace Scs

open Finset Filter Topology

section
variable {w : World ℝ}

/-! ### Bounds -/

theorem mat_congr {y z : w.Pt × w.Pt} (h : y.1 = z.1) : w.matOf y = w.matOf z := by
  rw [← jac_push, ← jac_push]
  have e : w.push y = w.push z := by
    funext i r
    rw [World.push, World.push, jac_congr h]
  rw [e, jac_congr h]

theorem fix_congr {y z : w.Pt × w.Pt} (h : y.1 = z.1) : w.fix y = w.fix z := by
  funext i r
  simp only [World.fix, World.push, World.inv, jac_congr h, mat_congr h]

theorem Bound.Tame.calm (p : w.Placed) (pr : w.Proper) {β : ℝ} {c : w.Pt × w.Pt} {r L : ℝ}
    (L0 : 0 ≤ L) (t : w.bound.Tame β c r L) : w.bound.Calm β c r L where
  tame := t
  Gpos := fun y z hy hz e => by
    have hu : ‖((y.1, z.2) : w.Pt × w.Pt) - c‖ < r := by
      have h1 := (norm_prod_le_iff.mp (le_refl ‖y - c‖)).1
      have h2 := (norm_prod_le_iff.mp (le_refl ‖z - c‖)).2
      refine lt_of_le_of_lt (norm_prod_le_iff.mpr ⟨?_, ?_⟩) (max_lt hy hz)
      · exact h1.trans (le_max_left _ _)
      · exact h2.trans (le_max_right _ _)
    have e1 : w.bound.G y = w.bound.G (y.1, z.2) := by
      show app (w.fix y) = app (w.fix (y.1, z.2))
      rw [fix_congr (y := y) (z := (y.1, z.2)) rfl]
    have e2 : ‖((y.1, z.2) : w.Pt × w.Pt) - z‖ ≤ ‖y.1 - z.1‖ := by
      refine norm_prod_le_iff.mpr ⟨le_rfl, ?_⟩
      simp
    rw [e1]
    refine (t.Glip _ z hu hz e).trans (mul_le_mul_of_nonneg_right ?_ (norm_nonneg _))
    exact mul_le_mul_of_nonneg_left e2 L0
  Cn := fun q v v' h ε h0 hseg hrow => by
    have key : ∀ i : w.RowIdx, |w.errs (q + h • v, v) i| ≤
        |1 - β| * ‖w.errs (q, v')‖ + L * h ^ 2 + h * ‖ε‖ := by
      intro i
      by_cases hp : (w.cons i.1).kind.Positional
      · have hs1 : ∀ u ∈ Set.Icc 0 h, |app (w.jac (q + u • v, v)) v i - app (w.jac (q, v)) v i| ≤
            L * h := fun u hu => by
          have := slope_le (g := fun u => app (w.jac (q + u • v, v)) v i) hu.1
            (fun u hu => (rows_line p pr q v i _ u).2) (D := 0) (M := L) (fun a ha => by
              rw [sub_zero]
              exact (norm_le_pi_norm (w.turn (q + a • v, v)) i).trans
                (t.Jd _ (hseg a ⟨ha.1, ha.2.trans hu.2⟩)))
          simp only [zero_smul, add_zero, mul_zero, sub_zero] at this
          exact this.trans (mul_le_mul_of_nonneg_left hu.2 L0)
        have := slope_le (g := fun u => w.errs (q + u • v, v) i) h0.le
          (fun u hu => (rows_line p pr q v i _ u).1 hp) (D := app (w.jac (q, v)) v i) (M := L * h) hs1
        simp only [zero_smul, add_zero] at this
        have e1 : (w.cons i.1).kind.biasT + app (w.jac (q, v')) v i +
          β / h * w.errs (q, v') i = ε i := congrFun hrow i
        rw [CKind.bias_pos hp, zero_add, jac_congr (y := (q, v')) (z := (q, v)) rfl] at e1
        have e2 : h * app (w.jac (q, v)) v i = h * ε i - β * w.errs (q, v') i := by
          have h2 := congrArg (fun x => h * x) e1
          simp only [mul_add] at h2
          have h3 : h * (β / h * w.errs (q, v') i) = β * w.errs (q, v') i := by field_simp
          linarith
        rw [e2, errs_congr (y := (q, v)) (z := (q, v')) rfl] at this
        have e3 : w.errs (q + h • v, v) i = (1 - β) * w.errs (q, v') i + h * ε i +
            (w.errs (q + h • v, v) i - w.errs (q, v') i - (h * ε i - β * w.errs (q, v') i)) := by ring
        have e4 : |(1 - β) * w.errs (q, v') i| ≤ |1 - β| * ‖w.errs (q, v')‖ := by
          rw [abs_mul]
          exact mul_le_mul_of_nonneg_left (norm_le_pi_norm (w.errs (q, v')) i) (abs_nonneg _)
        have e5 : |h * ε i| ≤ h * ‖ε‖ := by
          rw [abs_mul, abs_of_pos h0]
          exact mul_le_mul_of_nonneg_left (norm_le_pi_norm ε i) h0.le
        have e6 : L * h ^ 2 = L * h * h := by ring
        rw [e3, e6]
        refine (abs_add_le _ _).trans ?_
        have := abs_add_le ((1 - β) * w.errs (q, v') i) (h * ε i)
        linarith
      · have e1 : w.errs (q + h • v, v) i = 0 := CKind.cT_free hp _ _
        rw [e1, abs_zero]
        positivity
    exact (pi_norm_le_iff_of_nonneg (by positivity)).mpr key

/-- Bounds near a motion in which the constraint matrix is singular nowhere. -/
theorem bound_calm (p : w.Placed) (pr : w.Proper) {T : ℝ} {Y : ℝ → w.Pt × w.Pt}
    (hY : ContinuousOn Y (Set.Icc 0 T)) (hf : ∀ t ∈ Set.Icc 0 T, w.Fair (w.motionOf (Y t))) :
    ∃ r L, 0 < r ∧ 0 ≤ L ∧ (∀ t ∈ Set.Icc 0 T, ∀ β, w.bound.Calm β (Y t) r L) ∧
      (∀ t ∈ Set.Icc 0 T, ∀ y, ‖y - Y t‖ < r → w.Fair (w.motionOf y)) ∧
      ∀ t ∈ Set.Icc 0 T, ∀ y, ‖y - Y t‖ < r → ‖w.inv y‖ ≤ L ∧ ‖w.jac y‖ ≤ L ∧
        ‖fun i j => w.matOf y i j‖ ≤ L := by
  obtain ⟨r1, L1, h1, L10, tame, good⟩ := bound_tame p pr hY hf
  have hS : IsCompact (Y '' Set.Icc 0 T) := isCompact_Icc.image_of_continuousOn hY
  let Φ : w.Pt × w.Pt → (w.RowIdx → w.RowIdx → ℝ) × ((w.RowIdx → w.rb.toFinset × Coord → ℝ) ×
      (w.RowIdx → w.RowIdx → ℝ)) := fun y => (w.inv y, (w.jac y, fun i j => w.matOf y i j))
  have hΦ : ∀ x ∈ Y '' Set.Icc 0 T, LipAt Φ x := by
    rintro _ ⟨t, ht, rfl⟩
    have hd := (det_iff p _).mpr (hf t ht).1
    have hi : LipAt w.inv (Y t) := LipAt.pi2 fun r' r => LipAt.cramerSol (b := fun _ => Pi.single r 1)
      (fun i j => ContDiff.lipAt (mat_smooth i j) _) (fun i => LipAt.const _ _) hd r'
    have hm : LipAt (fun y : w.Pt × w.Pt => fun i j => w.matOf y i j) (Y t) :=
      LipAt.pi2 fun i j => ContDiff.lipAt (mat_smooth i j) _
    exact hi.prodMk ((LipAt.pi2 fun r i => ContDiff.lipAt (jac_smooth r i) _).prodMk hm)
  obtain ⟨r2, h2, K, K0, hK⟩ := lipschitz_two (f := Φ) hS hΦ
  obtain ⟨B, hB⟩ := (hS.image_of_continuousOn fun x hx =>
    (hΦ x hx).continuousAt.continuousWithinAt).isBounded.exists_norm_le
  set r := min r1 r2 with hr
  have r0 : 0 < r := lt_min h1 h2
  set L := max L1 (B + K * r2) with hL
  have L0 : 0 ≤ L := L10.trans (le_max_left _ _)
  refine ⟨r, L, r0, L0, fun t ht β => ((tame t ht β).mono (min_le_left _ _) (le_max_left _ _)).calm p pr L0,
    fun t ht y hy => good t ht y (hy.trans_le (min_le_left _ _)), fun t ht y hy => ?_⟩
  have bd : ‖Φ y‖ ≤ L := by
    have hy2 := hy.trans_le (min_le_right r1 r2)
    have a1 := hK _ ⟨t, ht, rfl⟩ y (Y t) hy2 (by rw [sub_self, norm_zero]; exact h2)
    have a2 : ‖Φ (Y t)‖ ≤ B := hB _ ⟨_, ⟨t, ht, rfl⟩, rfl⟩
    have a3 : Φ y = Φ (Y t) + (Φ y - Φ (Y t)) := by abel
    have a4 := mul_le_mul_of_nonneg_left hy2.le K0
    rw [a3]
    exact ((norm_add_le_of a2 (a1.trans a4))).trans (le_max_right _ _)
  exact ⟨(norm_fst_le (Φ y)).trans bd, (norm_fst_le (Φ y).2).trans ((norm_snd_le (Φ y)).trans bd),
    (norm_snd_le (Φ y).2).trans ((norm_snd_le (Φ y)).trans bd)⟩

/-! ### A sequence of sub-steps -/

variable {h : List (Op ℝ)} {Y : ℝ → Motion} {lam : ℝ → Nat → Nat → ℝ} {dt : ℝ} {cls : Cls}

set_option maxHeartbeats 1000000 in
/-- A sequence of sub-steps which miss the conditions of the constraints by at most `τ` stays near the
exact motion. That they do so may be shown for motions near the exact one. -/
theorem World.HeldMotion.tracks (p : w.Placed) (pr : w.Proper) (hd : w.Driven) (r0 : w.Regs cls h)
    (hm : ∀ b ∈ regBodies h, (w.bodies b).m ≠ 0 ∧ (w.bodies b).I ≠ 0) (hdt : 0 < dt)
    (hY : w.HeldMotion h dt Y lam) (hb0 : 0 < w.bias) (hb2 : w.bias < 2) :
    ∃ ρ r A, 0 < ρ ∧ 0 < r ∧ 0 ≤ A ∧
      (∀ t ∈ Set.Icc 0 dt, ∀ y, ‖y - w.pack (Y t)‖ < r → w.Fair (w.motionOf y) ∧
        ‖w.freeAcc y‖ ≤ A ∧ ‖w.inv y‖ ≤ A ∧ ‖w.jac y‖ ≤ A ∧ ‖fun i j => w.matOf y i j‖ ≤ A) ∧
      ∀ s τ : ℝ, 0 < s → 0 ≤ τ → s + τ ≤ ρ → ∀ n : Nat, n * s = dt → ∀ k, k ≤ n →
        ∀ X : Nat → Motion, w.Shows (X 0) w.bodies →
        (∀ i, i < k → i * s ∈ Set.Icc 0 dt → ‖w.pack (X i) - w.pack (Y (i * s))‖ < r →
          ‖w.offs + app (w.jac (w.pack (X i))) (w.pack (X i)).2‖ ≤ A * (s + τ) →
          ‖w.errs (w.pack (X i))‖ ≤ A * s * (s + τ) →
          ∃ ε, ‖ε‖ ≤ τ ∧ w.bound.Noisy w.bias s ε (w.pack (X i)) (w.pack (X (i + 1)))) →
        ∀ i, i ≤ k → (i * s ∈ Set.Icc 0 dt ∧ ‖w.pack (X i) - w.pack (Y (i * s))‖ < r) ∧
          ‖w.pack (X i) - w.pack (Y (i * s))‖ ≤ A * (s + τ) ∧
          ‖w.offs + app (w.jac (w.pack (X i))) (w.pack (X i)).2‖ ≤ A * (s + τ) ∧
          ‖w.errs (w.pack (X i))‖ ≤ A * s * (s + τ) := by
  have key := fun t ht => hY.deriv p pr hd r0 hm hdt (t := t) ht
  obtain ⟨r, L, hr0, L0, calm, good, more⟩ := bound_calm (T := dt) (Y := fun s => w.pack (Y s)) p pr
    (fun t ht => (key t ht).2.continuousWithinAt) (fun t ht => (key t ht).1)
  set β := w.bias with hβ
  have self : ∀ t, ‖w.pack (Y t) - w.pack (Y t)‖ < r := fun t => by rw [sub_self, norm_zero]; exact hr0
  set B := L + (L + L * (L * L + L)) with hBd
  have B0 : 0 ≤ B := by positivity
  have u : Tube w.bound.acc (fun y => w.Fair (w.motionOf y)) (fun s => w.pack (Y s)) dt r L B := by
    refine ⟨hr0, L0, B0, good, fun t ht y hy => (calm t ht β).tame.acc _ _ hy (self t), fun t ht => ?_⟩
    have tm := (calm t ht β).tame
    have a1 := tm.vel _ (self t)
    have a2 := tm.f _ (self t)
    have a3 := tm.J _ (self t) (w.bound.f (w.pack (Y t)))
    have a4 := tm.Jd _ (self t)
    have a5 := tm.G _ (self t) (w.bound.J (w.pack (Y t)) (w.bound.f (w.pack (Y t))) +
      w.bound.Jd (w.pack (Y t)))
    have a6 : ‖w.bound.J (w.pack (Y t)) (w.bound.f (w.pack (Y t))) + w.bound.Jd (w.pack (Y t))‖ ≤
        L * L + L := norm_add_le_of (a3.trans (mul_le_mul_of_nonneg_left a2 L0)) a4
    refine norm_prod_le_iff.mpr ⟨a1.trans ?_, ?_⟩
    · rw [hBd]
      have : 0 ≤ L + L * (L * L + L) := by positivity
      linarith
    · refine (norm_sub_le _ _).trans ((add_le_add a2 (a5.trans
        (mul_le_mul_of_nonneg_left a6 L0))).trans ?_)
      rw [hBd]
      linarith
  have hβ1 : |1 - β| < 1 := by rw [abs_lt]; constructor <;> linarith
  set c3 := (L + 1) / (1 - |1 - β|) with hc3
  have c30 : 0 ≤ c3 := div_nonneg (by linarith) (by linarith)
  have hc3' : |1 - β| * c3 + L + 1 = c3 := by
    have : c3 * (1 - |1 - β|) = L + 1 := div_mul_cancel₀ _ (by linarith)
    linarith
  set c1 := max L (|β| * c3 + 1) with hc1
  have c1L : L ≤ c1 := le_max_left _ _
  have c10 : 0 ≤ c1 := L0.trans c1L
  have hc1' : |β| * c3 + 1 ≤ c1 := le_max_right _ _
  have g0 : 0 ≤ gain L c1 L := by rw [gain]; positivity
  set D := slack L c1 L + (L + 1) * B with hD
  have d0 : 0 ≤ D := by rw [hD, slack]; positivity
  set A0 := Real.exp ((L + 1) * dt) * (L * c1) + dt * D * Real.exp ((L + 1) * dt) with hA0
  have a0 : 0 ≤ A0 := by positivity
  set M := L * c1 + L + gain L c1 L with hM
  have m0 : 0 ≤ M := by positivity
  set A := A0 + L * c1 + (c1 + L + L) + c3 with hA
  have A00 : 0 ≤ A := by positivity
  have A1 : L ≤ A := by
    have : 0 ≤ L * c1 := by positivity
    rw [hA]; linarith
  set ρ := min 1 (r / (2 * (B + A0 + M + 1))) with hρ
  have ρ0 : 0 < ρ := by positivity
  refine ⟨ρ, r, A, ρ0, hr0, A00, fun t ht y hy => ⟨good t ht y hy, ((calm t ht β).tame.f y hy).trans A1,
    (more t ht y hy).1.trans A1, (more t ht y hy).2.1.trans A1, (more t ht y hy).2.2.trans A1⟩, ?_⟩
  intro s τ s0 τ0 hsρ n hn k hkn X hX0 hst
  have θ0 : 0 < s + τ := by linarith
  have s1 : s + τ ≤ 1 := hsρ.trans (min_le_left _ _)
  have s2 : (s + τ) * (B + A0 + M) < r := by
    have h1 := hsρ.trans (min_le_right _ _)
    rw [le_div_iff₀ (by positivity)] at h1
    have : 0 ≤ (s + τ) * (B + A0 + M) := by positivity
    nlinarith
  have hBs : B * s < r := by
    have t1 : B * s ≤ B * (s + τ) := mul_le_mul_of_nonneg_left (by linarith) B0
    nlinarith [mul_nonneg θ0.le a0, mul_nonneg θ0.le m0]
  have hjt : ∀ j : Nat, j ≤ n → (j : ℝ) * s ∈ Set.Icc 0 dt := fun j hj => by
    refine ⟨by positivity, ?_⟩
    have : (j : ℝ) ≤ n := by exact_mod_cast hj
    calc (j : ℝ) * s ≤ n * s := mul_le_mul_of_nonneg_right this s0.le
      _ = dt := hn
  set D' := D * (s + τ) / s with hD'
  have d0' : 0 ≤ D' := by positivity
  let err : Nat → ℝ := fun n => (1 + (L + 1) * s) ^ n * (L * c1 * (s + τ)) + errBound (L + 1) D' s n
  have herr : ∀ j, j ≤ n → err j ≤ A0 * (s + τ) := fun j hj => by
    have h1 := errBound_le (L := L + 1) (by linarith) d0' s0.le j (hjt j hj).2
    have h2 : (1 + (L + 1) * s) ^ j ≤ Real.exp ((L + 1) * dt) := by
      have e1 : 1 + (L + 1) * s ≤ Real.exp ((L + 1) * s) := by
        linarith [Real.add_one_le_exp ((L + 1) * s)]
      refine (pow_le_pow_left₀ (by positivity) e1 j).trans ?_
      rw [← Real.exp_nat_mul]
      refine Real.exp_le_exp.mpr ?_
      have := mul_le_mul_of_nonneg_left (hjt j hj).2 (by linarith : 0 ≤ L + 1)
      linarith
    have h3 := mul_le_mul_of_nonneg_right h2 (by positivity : 0 ≤ L * c1 * (s + τ))
    have h4 : dt * D' * Real.exp ((L + 1) * dt) * s = dt * D * Real.exp ((L + 1) * dt) * (s + τ) := by
      rw [hD']; field_simp
    rw [h4] at h1
    show (1 + (L + 1) * s) ^ j * (L * c1 * (s + τ)) + errBound (L + 1) D' s j ≤ A0 * (s + τ)
    rw [hA0]
    linarith
  let R : Nat → Prop := fun j => ∃ κ, w.bound.Loose s (s + τ) L c1 c3 (w.pack (Y (j * s)))
    (w.pack (X j)) (err j) κ
  have hin : ∀ j, j ≤ n → err j + M * (s + τ) < r := fun j hj => by
    have := herr j hj
    nlinarith [mul_nonneg θ0.le B0]
  have hin' : ∀ j, j ≤ n → err j + L * c1 * (s + τ) < r := fun j hj => by
    have := hin j hj
    rw [hM] at this
    nlinarith [mul_nonneg θ0.le L0, mul_nonneg θ0.le g0]
  have out : ∀ j, j ≤ n → R j → ‖w.pack (X j) - w.pack (Y (j * s))‖ < r ∧
      ‖w.pack (X j) - w.pack (Y (j * s))‖ ≤ A * (s + τ) ∧
      ‖w.offs + app (w.jac (w.pack (X j))) (w.pack (X j)).2‖ ≤ A * (s + τ) ∧
      ‖w.errs (w.pack (X j))‖ ≤ A * s * (s + τ) := by
    rintro j hj ⟨κ, hx⟩
    have b1 := hx.near
    have b2 : ‖w.pack (X j) - w.pack (Y (j * s))‖ < r := b1.trans_lt (hin' j hj)
    have b3 := herr j hj
    refine ⟨b2, b1.trans ?_, ?_, hx.C.trans ?_⟩
    · have : (A0 + L * c1) * (s + τ) ≤ A * (s + τ) :=
        mul_le_mul_of_nonneg_right (by rw [hA]; linarith) θ0.le
      linarith
    · have := hx.speed (calm _ (hjt j hj) β).tame L0 s0 τ0 s1 b2
      refine this.trans (mul_le_mul_of_nonneg_right ?_ θ0.le)
      have : 0 ≤ L * c1 := by positivity
      rw [hA]; linarith
    · refine mul_le_mul_of_nonneg_right (mul_le_mul_of_nonneg_right ?_ s0.le) θ0.le
      have : 0 ≤ L * c1 := by positivity
      rw [hA]; linarith
  have hR0 : R 0 := by
    have e0 : w.pack (X 0) = w.pack (Y ((0 : Nat) * s)) := by
      have e : ((0 : Nat) : ℝ) * s = 0 := by simp
      rw [e]
      have hb : ∀ i : w.rb.toFinset × Coord, (i.1 : Nat) ∈ w.rb := fun i =>
        List.mem_toFinset.mp i.1.2
      refine Prod.ext (funext fun i => ?_) (funext fun i => ?_)
      · exact ((hX0 i.1 (hb i) i.2).1).trans
          (hY.start i.1 ((r0.bodies.mem _).mp (hb i)) i.2).1.symm
      · exact ((hX0 i.1 (hb i) i.2).2).trans
          (hY.start i.1 ((r0.bodies.mem _).mp (hb i)) i.2).2.symm
    have hz : ((0 : Nat) : ℝ) * s ∈ Set.Icc 0 dt := hjt 0 (Nat.zero_le _)
    have tm := (calm _ hz β).tame
    set t0 := ((0 : Nat) : ℝ) * s with ht0
    have held := hY.held t0 hz
    have hC : w.errs (w.pack (Y t0)) = 0 := by
      funext i
      have hc := List.mem_toFinset.mp i.1.2
      rw [World.errs, ← rows_pack p _ hc]
      exact (held i.1 ((r0.cons.mem _).mp hc) i.2 i.2.2).1
    have hV : w.offs + app (w.jac (w.pack (Y t0))) (w.pack (Y t0)).2 = 0 := by
      funext i
      have hc := List.mem_toFinset.mp i.1.2
      have := (held i.1 ((r0.cons.mem _).mp hc) i.2 i.2.2).2
      rw [rows_pack p _ hc, rowAt_jac p _ i (v := (w.pack (Y t0)).2) (fun _ => rfl), add_comm] at this
      exact this
    have hk : ‖s • w.turn (w.pack (Y t0))‖ ≤ c1 * (s + τ) := by
      rw [norm_smul, Real.norm_eq_abs, abs_of_pos s0, mul_comm]
      exact mul_le_mul ((tm.Jd _ (self t0)).trans c1L) (by linarith) s0.le c10
    have hp := (tm.G _ (self t0) (s • w.turn (w.pack (Y t0)))).trans
      (mul_le_mul_of_nonneg_left hk L0)
    show ∃ κ, w.bound.Loose s (s + τ) L c1 c3 (w.pack (Y t0)) (w.pack (X 0)) (err 0) κ
    rw [e0]
    refine ⟨s • w.turn (w.pack (Y t0)), hk, ?_, ?_, ?_, by rw [mul_assoc]; exact hp⟩
    · show ‖w.offs + app (w.jac (w.pack (Y t0))) (w.pack (Y t0)).2 + s • w.turn (w.pack (Y t0)) -
        s • w.turn (w.pack (Y t0))‖ ≤ _
      rw [hV, zero_add, sub_self, norm_zero]
      positivity
    · show ‖w.errs (w.pack (Y t0))‖ ≤ _
      rw [hC, norm_zero]
      positivity
    · have e1 : (((w.pack (Y t0)).1, (w.pack (Y t0)).2 + w.bound.G (w.pack (Y t0))
          (s • w.turn (w.pack (Y t0)))) - w.pack (Y t0) : w.Pt × w.Pt) =
          (0, w.bound.G (w.pack (Y t0)) (s • w.turn (w.pack (Y t0)))) :=
        Prod.ext (by simp) (by simp)
      have e2 : err 0 = L * (c1 * (s + τ)) := by
        show (1 + (L + 1) * s) ^ 0 * (L * c1 * (s + τ)) + 0 = _
        rw [pow_zero]; ring
      rw [e1, e2]
      refine norm_prod_le_iff.mpr ⟨?_, hp⟩
      rw [norm_zero]
      positivity
  have hRs : ∀ j, j < k → R j → R (j + 1) := fun j hj' hx => by
    have hj := hj'.trans_le hkn
    have e : ((j + 1 : Nat) : ℝ) * s = (j : ℝ) * s + s := by push_cast; ring
    have ht' := hjt (j + 1) hj
    rw [e] at ht'
    obtain ⟨q1, _, q3, q4⟩ := out j hj.le hx
    obtain ⟨ε, hε, st⟩ := hst j hj' (hjt j hj.le) q1 q3 q4
    obtain ⟨κ, hx⟩ := hx
    have := st.follows u (fun t ht => (key t ht).2) (hjt j hj.le) ht'
      (calm _ (hjt j hj.le) β) s0 τ0 s1 hε hBs c10 hc1' hc3' hx (hin j hj.le)
    refine ⟨(β / s) • w.bound.C (w.pack (X j)) - ε, ?_⟩
    rw [e]
    have e2 : err (j + 1) = (1 + (L + 1) * s) * err j + D * s * (s + τ) := by
      have e3 : D' * s ^ 2 = D * s * (s + τ) := by rw [hD']; field_simp
      show (1 + (L + 1) * s) ^ (j + 1) * (L * c1 * (s + τ)) +
        ((1 + (L + 1) * s) * errBound (L + 1) D' s j + D' * s ^ 2) = (1 + (L + 1) * s) *
        ((1 + (L + 1) * s) ^ j * (L * c1 * (s + τ)) + errBound (L + 1) D' s j) + D * s * (s + τ)
      rw [e3]
      ring
    rw [e2]
    exact this
  have all : ∀ j, j ≤ k → R j := by
    intro j
    induction j with
    | zero => exact fun _ => hR0
    | succ j ih => exact fun hj => hRs j hj (ih (by omega))
  exact fun i hi => have o := out i (hi.trans hkn) (all i hi)
    ⟨⟨hjt i (hi.trans hkn), o.1⟩, o.2⟩

end

end Scs
