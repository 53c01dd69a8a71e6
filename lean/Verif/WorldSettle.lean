import Verif.PropsIgnore
import Mathlib.Analysis.SpecialFunctions.Pow.Real
import Mathlib.Analysis.SpecificLimits.Normed
import Mathlib.Analysis.Complex.Basic
import Mathlib.Topology.Algebra.Order.LiminfLimsup

/-!
# The sampled oscillator

What one sub-step of the generic system makes of the error of a constraint and its rate, and what becomes
of that over many sub-steps. Used in `PropsSettle.lean`.
-/

open Finset Filter Topology

namespace Scs

/-- One sub-step of length `h` for the error `x.1` of a constraint and its rate `x.2`: the rate changes by
`-(ks error + kd rate)` times the length, and the error by the rate before (Euler, `sym = false`) or after
(semi-implicit, `sym = true`) times the length. -/
noncomputable def oscStep (sym : Bool) (ks kd h : ℝ) (x : ℝ × ℝ) : ℝ × ℝ :=
  (x.1 + h * (if sym then x.2 - h * (ks * x.1 + kd * x.2) else x.2), x.2 - h * (ks * x.1 + kd * x.2))

/-- The trace of `oscStep`. -/
def oscT (sym : Bool) (ks kd h : ℝ) : ℝ := if sym then 2 - h * kd - h * h * ks else 2 - h * kd

/-- The determinant of `oscStep`. -/
def oscD (sym : Bool) (ks kd h : ℝ) : ℝ := if sym then 1 - h * kd else 1 - h * kd + h * h * ks

theorem osc_twice (sym : Bool) (ks kd h : ℝ) (x : ℝ × ℝ) :
    oscStep sym ks kd h (oscStep sym ks kd h x) =
      oscT sym ks kd h • oscStep sym ks kd h x - oscD sym ks kd h • x := by
  cases sym <;> ext <;> simp [oscStep, oscT, oscD] <;> ring_nf

/-- A quadratic polynomial has two complex roots. -/
theorem quad_roots (T D : ℝ) : ∃ a b : ℂ, a + b = T ∧ a * b = D ∧
    (T ^ 2 - 4 * D < 0 → ‖a‖ ^ 2 = D ∧ ‖b‖ ^ 2 = D) ∧
    (0 ≤ T ^ 2 - 4 * D → ‖a‖ = |(T + √(T ^ 2 - 4 * D)) / 2| ∧ ‖b‖ = |(T - √(T ^ 2 - 4 * D)) / 2|) := by
  by_cases hd : T ^ 2 - 4 * D < 0
  · have hs : √(4 * D - T ^ 2) ^ 2 = 4 * D - T ^ 2 := Real.sq_sqrt (by linarith)
    refine ⟨⟨T / 2, √(4 * D - T ^ 2) / 2⟩, ⟨T / 2, -√(4 * D - T ^ 2) / 2⟩, ?_, ?_, fun _ => ?_,
      fun h => absurd hd (not_lt.mpr h)⟩
    · apply Complex.ext <;> simp; ring
    · apply Complex.ext <;> simp
      · nlinarith
      · ring
    · rw [← Complex.normSq_eq_norm_sq, ← Complex.normSq_eq_norm_sq, Complex.normSq_mk, Complex.normSq_mk]
      constructor <;> nlinarith
  · have hs : √(T ^ 2 - 4 * D) ^ 2 = T ^ 2 - 4 * D := Real.sq_sqrt (by linarith)
    refine ⟨((T + √(T ^ 2 - 4 * D)) / 2 : ℝ), ((T - √(T ^ 2 - 4 * D)) / 2 : ℝ), ?_, ?_,
      fun h => absurd h hd, fun _ => ⟨?_, ?_⟩⟩
    · rw [← Complex.ofReal_add]; congr 1; ring
    · rw [← Complex.ofReal_mul]; congr 1; nlinarith
    · rw [Complex.norm_real, Real.norm_eq_abs]
    · rw [Complex.norm_real, Real.norm_eq_abs]

theorem roots_inside {T D : ℝ} (h1 : D < 1) (h2 : |T| < 1 + D) :
    ∃ a b : ℂ, a + b = T ∧ a * b = D ∧ ‖a‖ < 1 ∧ ‖b‖ < 1 := by
  obtain ⟨a, b, hs, hp, hn, hr⟩ := quad_roots T D
  obtain ⟨h3, h4⟩ := abs_lt.mp h2
  refine ⟨a, b, hs, hp, ?_⟩
  by_cases hd : T ^ 2 - 4 * D < 0
  · obtain ⟨ha, hb⟩ := hn hd
    constructor <;> nlinarith [norm_nonneg a, norm_nonneg b]
  · obtain ⟨ha, hb⟩ := hr (not_lt.mp hd)
    have s0 := Real.sqrt_nonneg (T ^ 2 - 4 * D)
    have s1 : √(T ^ 2 - 4 * D) < 2 - T := by
      rw [Real.sqrt_lt' (by linarith)]; nlinarith
    have s2 : √(T ^ 2 - 4 * D) < 2 + T := by
      rw [Real.sqrt_lt' (by linarith)]; nlinarith
    rw [ha, hb]
    constructor <;> rw [abs_lt] <;> constructor <;> linarith

theorem root_outside {T D : ℝ} (h : 1 < D ∨ 1 + D < |T|) :
    ∃ a : ℂ, a * a = T * a - D ∧ 1 < ‖a‖ := by
  obtain ⟨a, b, hs, hp, hn, hr⟩ := quad_roots T D
  have ra : a * a = T * a - D := by rw [← hs, ← hp]; ring
  have rb : b * b = T * b - D := by rw [← hs, ← hp]; ring
  by_contra hc
  push Not at hc
  have la := hc a ra
  have lb := hc b rb
  have ld : |D| ≤ 1 := by
    have := congrArg norm hp
    rw [norm_mul, Complex.norm_real, Real.norm_eq_abs] at this
    rw [← this]
    exact mul_le_one₀ la (norm_nonneg _) lb
  obtain ⟨d1, d2⟩ := abs_le.mp ld
  obtain h | h := h
  · linarith
  · have h0 : 0 ≤ T ^ 2 - 4 * D := by
      have := abs_nonneg T
      have := sq_abs T
      nlinarith [sq_nonneg (1 - D)]
    obtain ⟨ha, hb⟩ := hr h0
    have s1 : 1 - D ≤ √(T ^ 2 - 4 * D) := by
      apply Real.le_sqrt_of_sq_le
      have := sq_abs T
      nlinarith
    rw [ha, abs_le] at la
    rw [hb, abs_le] at lb
    obtain ⟨-, la⟩ := la
    obtain ⟨lb, -⟩ := lb
    rcases abs_cases T with ⟨ht, _⟩ | ⟨ht, _⟩ <;> linarith

/-- A sequence of which each member is a fixed part, less than one, of the one before up to something that
tends to zero, tends to zero. -/
theorem tendsto_of_driven {x y : ℕ → ℂ} {a : ℂ} (ha : ‖a‖ < 1) (h : ∀ n, x (n + 1) = a * x n + y n)
    {C r : ℝ} (hr : r < 1) (hr0 : 0 ≤ r) (hy : ∀ n, ‖y n‖ ≤ C * r ^ n) : Tendsto x atTop (𝓝 0) := by
  obtain ⟨s, hs, hs1⟩ := exists_between (max_lt ha hr)
  have sa : ‖a‖ < s := (le_max_left _ _).trans_lt hs
  have sr : r < s := (le_max_right _ _).trans_lt hs
  have s0 : 0 < s := hr0.trans_lt sr
  have hC : 0 ≤ C := by simpa using (norm_nonneg _).trans (hy 0)
  have bound : ∀ n : ℕ, ‖x n‖ ≤ (‖x 0‖ + n * (C / s)) * s ^ n := by
    intro n
    induction n with
    | zero => simp
    | succ n ih =>
      rw [h]
      refine (norm_add_le _ _).trans ?_
      rw [norm_mul]
      have h1 : ‖a‖ * ‖x n‖ ≤ s * ((‖x 0‖ + n * (C / s)) * s ^ n) :=
        mul_le_mul sa.le ih (norm_nonneg _) s0.le
      have h2 : ‖y n‖ ≤ C * s ^ n := (hy n).trans
        (mul_le_mul_of_nonneg_left (pow_le_pow_left₀ hr0 sr.le n) hC)
      refine (add_le_add h1 h2).trans (le_of_eq ?_)
      push_cast
      field_simp
      ring
  have lim : Tendsto (fun n : ℕ => (‖x 0‖ + n * (C / s)) * s ^ n) atTop (𝓝 0) := by
    have l1 := (tendsto_pow_atTop_nhds_zero_of_lt_one s0.le hs1).const_mul ‖x 0‖
    have l2 := (tendsto_self_mul_const_pow_of_lt_one s0.le hs1).const_mul (C / s)
    have := l1.add l2
    simp only [mul_zero, add_zero] at this
    refine this.congr fun n => ?_
    ring
  exact squeeze_zero_norm bound lim

/-- The sequences with `x (n + 2) = T x (n + 1) - D x n` tend to zero if the roots are inside the unit
circle. -/
theorem tendsto_of_two {x : ℕ → ℝ} {T D : ℝ} (h1 : D < 1) (h2 : |T| < 1 + D)
    (h : ∀ n, x (n + 2) = T * x (n + 1) - D * x n) : Tendsto x atTop (𝓝 0) := by
  obtain ⟨a, b, hs, hp, ha, hb⟩ := roots_inside h1 h2
  have geo : ∀ n, (x (n + 1) : ℂ) - a * x n = b ^ n * ((x 1 : ℂ) - a * x 0) := by
    intro n
    induction n with
    | zero => simp
    | succ n ih =>
      rw [pow_succ', mul_assoc, ← ih, h]
      push_cast
      rw [← hs, ← hp]
      ring
  have := tendsto_of_driven (x := fun n => (x n : ℂ)) (y := fun n => (x (n + 1) : ℂ) - a * x n) ha
    (fun n => by ring) (C := ‖(x 1 : ℂ) - a * x 0‖) hb (norm_nonneg _)
    (fun n => by rw [geo, norm_mul, norm_pow, mul_comm])
  have t := (Complex.continuous_re.tendsto _).comp this
  simpa [Function.comp_def] using t

/-- The sub-steps bring error and rate to zero. -/
theorem osc_tendsto {sym : Bool} {ks kd h : ℝ} (h1 : oscD sym ks kd h < 1)
    (h2 : |oscT sym ks kd h| < 1 + oscD sym ks kd h) (x : ℝ × ℝ) :
    Tendsto (fun n => (oscStep sym ks kd h)^[n] x) atTop (𝓝 0) := by
  have rec2 : ∀ n, (oscStep sym ks kd h)^[n + 2] x =
      oscT sym ks kd h • (oscStep sym ks kd h)^[n + 1] x - oscD sym ks kd h • (oscStep sym ks kd h)^[n] x := by
    intro n
    rw [Function.iterate_succ_apply', Function.iterate_succ_apply', osc_twice]
  refine Prod.tendsto_iff _ _ |>.mpr ⟨?_, ?_⟩
  · exact tendsto_of_two h1 h2 fun n => by rw [rec2]; rfl
  · exact tendsto_of_two h1 h2 fun n => by rw [rec2]; rfl

/-- The sub-steps enlarge a start at rest without bound. -/
theorem osc_diverges {sym : Bool} {ks kd h : ℝ} (hk : ks ≠ 0) (hh : h ≠ 0)
    (h1 : 1 < oscD sym ks kd h ∨ 1 + oscD sym ks kd h < |oscT sym ks kd h|) {x : ℝ} (hx : x ≠ 0) :
    Tendsto (fun n => |((oscStep sym ks kd h)^[n] (x, 0)).1| + |((oscStep sym ks kd h)^[n] (x, 0)).2|)
      atTop atTop := by
  obtain ⟨a, ha, hn⟩ := root_outside h1
  have hk' : (ks : ℂ) ≠ 0 := by exact_mod_cast hk
  have hh' : (h : ℂ) ≠ 0 := by exact_mod_cast hh
  obtain ⟨l, hl⟩ : ∃ l : ℂ, ∀ y : ℝ × ℝ, ((oscStep sym ks kd h y).1 : ℂ) + l * (oscStep sym ks kd h y).2 =
      a * (y.1 + l * y.2) := by
    cases sym
    · refine ⟨(1 - a) / (h * ks), fun y => ?_⟩
      simp only [oscT, oscD, Bool.false_eq_true, if_false] at ha
      push_cast at ha
      simp only [oscStep, Bool.false_eq_true, if_false]
      push_cast
      field_simp
      linear_combination (y.2 : ℂ) * ha
    · refine ⟨(1 - h * h * ks - a) / (h * ks), fun y => ?_⟩
      simp only [oscT, oscD, if_true] at ha
      push_cast at ha
      simp only [oscStep, if_true]
      push_cast
      field_simp
      linear_combination (y.2 : ℂ) * ha
  have geo : ∀ n, (((oscStep sym ks kd h)^[n] (x, 0)).1 : ℂ) + l * ((oscStep sym ks kd h)^[n] (x, 0)).2 =
      a ^ n * x := by
    intro n
    induction n with
    | zero => simp
    | succ n ih => rw [Function.iterate_succ_apply', hl, ih, pow_succ', mul_assoc]
  have big : Tendsto (fun n : ℕ => ‖a‖ ^ n * (|x| / (1 + ‖l‖))) atTop atTop :=
    (tendsto_pow_atTop_atTop_of_one_lt hn).atTop_mul_const (by positivity)
  refine tendsto_atTop_mono (fun n => ?_) big
  have hp : 0 < 1 + ‖l‖ := by positivity
  rw [← mul_div_assoc, div_le_iff₀ hp]
  have := congrArg norm (geo n)
  rw [norm_mul, norm_pow, Complex.norm_real, Real.norm_eq_abs] at this
  rw [← this]
  refine (norm_add_le _ _).trans ?_
  rw [norm_mul, Complex.norm_real, Complex.norm_real, Real.norm_eq_abs, Real.norm_eq_abs]
  nlinarith [abs_nonneg ((oscStep sym ks kd h)^[n] (x, 0)).1, abs_nonneg ((oscStep sym ks kd h)^[n] (x, 0)).2,
    norm_nonneg l]

theorem rowAt_plus (w : World ℝ) (o : Output ℝ) (c j : Nat) (u v s t : Nat → Coord → ℝ) :
    w.rowAt o c j (fun b q => u b q + 2 * v b q + 2 * s b q + t b q) =
      w.rowAt o c j u + 2 * w.rowAt o c j v + 2 * w.rowAt o c j s + w.rowAt o c j t := by
  simp only [World.rowAt, mul_sum, ← sum_add_distrib]
  refine sum_congr rfl fun k _ => ?_
  simp only [Coord.sum]
  ring

section
variable {G : Gen ℝ → Prop} {h : List (Op ℝ)} {w w' : World ℝ} {env : Env ℝ} {dt : ℝ} {steps : Int}

/-- Row `i` of constraint `c` has a fixed Jacobian; its error is that row applied to the positions, less
`a`. -/
structure World.Straight (w : World ℝ) (c i : Nat) (a ks kd : ℝ) : Prop where
  J : ∀ x k, (w.rowsOf x c).J i k = (w.rowsOf w.now c).J i k
  Jd : ∀ x k, (w.rowsOf x c).J_dot i k = 0
  C : ∀ x : Motion, (w.rowsOf x c).C i = w.rowAt (w.rowsOf w.now c) c i x.pos - a
  ks_eq : ∀ x, (w.rowsOf x c).ks i = ks
  kd_eq : ∀ x, (w.rowsOf x c).kd i = kd

/-- The acceleration along such a row. -/
theorem World.Straight.acc {c i : Nat} {a ks kd : ℝ} (s : w.Straight c i a ks kd) (hsle : w.sle = some .ge)
    (hcs : c ∈ w.cs) (hr : i < (w.cons c).rows) {x : Motion} {A : Nat → Coord → ℝ} {mult : Nat → Nat → ℝ}
    (ac : w.Accel x A mult) : w.rowAt (w.rowsOf w.now c) c i A =
      -(ks * (w.rowAt (w.rowsOf w.now c) c i x.pos - a) + kd * w.rowAt (w.rowsOf w.now c) c i x.vel) := by
  have e := ac.ge hsle c hcs i hr
  have same : ∀ x y (v : Nat → Coord → ℝ), w.rowAt (w.rowsOf x c) c i v = w.rowAt (w.rowsOf y c) c i v :=
    fun x y v => by simp only [World.rowAt, s.J x, s.J y]
  have hd : w.rowDot (w.rowsOf x c) c i x.vel = 0 :=
    sum_eq_zero fun k _ => by simp only [s.Jd, Coord.sum]; ring
  rw [hd, s.C, s.ks_eq, s.kd_eq, same x w.now, same x w.now] at e
  rw [e]
  ring

/-- A row looks at registered bodies only. -/
theorem World.Placed.rowAt_congr (p : w.Placed) {c i : Nat} (hcs : c ∈ w.cs) {u v : Nat → Coord → ℝ}
    (huv : ∀ b ∈ w.rb, ∀ q, u b q = v b q) :
    w.rowAt (w.rowsOf w.now c) c i u = w.rowAt (w.rowsOf w.now c) c i v := by
  refine sum_congr rfl fun k hk => ?_
  have hb := (p.bodies c hcs k (mem_range.mp hk)).2
  simp only [Coord.sum, huv _ hb]

/-- The error of a row with a fixed Jacobian and its rate go through as many steps of `oscStep` as the call
has sub-steps. -/
theorem oscillates (hG : ∀ g, G g → g.OnlyForces) (hw : World.Hist G .gen h w) (hst : w.Standard h)
    (hsle : w.sle = some .ge) {sym : Bool} {o : Ode ℝ} (hode : w.ode = some o) (ho : o.isSym sym)
    (e : w.process .gen env dt steps = .ok w') {c : Nat} (hc : c ∈ regCons h) {a ks kd : ℝ} {i : Nat}
    (hr : i < (w.cons c).rows) (s : w.Straight c i a ks kd) :
    (w.rowAt (w.rowsOf w.now c) c i (fun b => (w'.bodies b).pos) - a,
        w.rowAt (w.rowsOf w.now c) c i (fun b => (w'.bodies b).vel)) =
      (oscStep sym ks kd (dt / steps))^[steps.toNat]
        (w.rowAt (w.rowsOf w.now c) c i (fun b => (w.bodies b).pos) - a,
          w.rowAt (w.rowsOf w.now c) c i (fun b => (w.bodies b).vel)) := by
  obtain ⟨X, mult, r, h0, hm⟩ := hw.gmoved hG hst hode ho e
  have hcs := (hw.regs.cons.mem c).mpr hc
  have p := hw.regs.placed hst.wired
  have main : ∀ j, j ≤ steps.toNat →
      (w.rowAt (w.rowsOf w.now c) c i (X j).pos - a, w.rowAt (w.rowsOf w.now c) c i (X j).vel) =
      (oscStep sym ks kd (dt / steps))^[j]
        (w.rowAt (w.rowsOf w.now c) c i (X 0).pos - a, w.rowAt (w.rowsOf w.now c) c i (X 0).vel) := by
    intro j
    induction j with
    | zero => intro _; rfl
    | succ j ih =>
      intro hj
      have st := hm.step j (by omega)
      have ac := s.acc hsle hcs hr st.acc
      have hv : w.rowAt (w.rowsOf w.now c) c i (X (j + 1)).vel = w.rowAt (w.rowsOf w.now c) c i (X j).vel -
          dt / steps * (ks * (w.rowAt (w.rowsOf w.now c) c i (X j).pos - a) +
            kd * w.rowAt (w.rowsOf w.now c) c i (X j).vel) := by
        rw [p.rowAt_congr hcs (v := fun b q => (X j).vel b q + dt / steps * (X (j + 1)).acc b q) st.vel,
          rowAt_add, ac]
        ring
      rw [Function.iterate_succ_apply', ← ih (by omega),
        p.rowAt_congr hcs (v := fun b q => (X j).pos b q + dt / steps *
          (if sym then (X (j + 1)).vel b q else (X j).vel b q)) st.pos, rowAt_add, hv]
      cases sym
      · simp only [oscStep, Bool.false_eq_true, if_false]
        ext <;> simp; ring
      · simp only [oscStep, if_true]
        rw [show (fun b q => (X (j + 1)).vel b q) = (X (j + 1)).vel from rfl, hv]
        ext <;> simp; ring
  have := main _ le_rfl
  rw [p.rowAt_congr hcs (v := fun b => (w'.bodies b).vel) (fun b hb q => (hm.last b hb q).2),
    p.rowAt_congr hcs (u := (X 0).vel) (v := fun b => (w.bodies b).vel) (fun b hb q => (hm.first b hb q).2),
    p.rowAt_congr hcs (v := fun b => (w'.bodies b).pos) (fun b hb q => (hm.last b hb q).1),
    p.rowAt_congr hcs (u := (X 0).pos) (v := fun b => (w.bodies b).pos)
      (fun b hb q => (hm.first b hb q).1)] at this
  exact this

/-- One step of length `h` of the Runge-Kutta solver for the error `x.1` of a constraint and its rate `x.2`;
`r2` to `r4` and `f1` to `f4` are rates and accelerations in the four evaluations. -/
noncomputable def rkStep (ks kd h : ℝ) (x : ℝ × ℝ) : ℝ × ℝ :=
  let f1 := -(ks * x.1 + kd * x.2)
  let r2 := x.2 + h / 2 * f1
  let f2 := -(ks * (x.1 + h / 2 * r2) + kd * r2)
  let r3 := x.2 + h / 2 * f2
  let f3 := -(ks * (x.1 + h / 2 * r3) + kd * r3)
  let r4 := x.2 + h * f3
  let f4 := -(ks * (x.1 + h * r4) + kd * r4)
  (x.1 + h / 6 * (x.2 + 2 * r2 + 2 * r3 + r4), x.2 + h / 6 * (f1 + 2 * f2 + 2 * f3 + f4))

/-- The same with the Runge-Kutta solver. -/
theorem oscillates_rk (hG : ∀ g, G g → g.OnlyForces) (hw : World.Hist G .gen h w) (hst : w.Standard h)
    (hsle : w.sle = some .ge) {k : Rk4 ℝ} (hode : w.ode = some (.rk4 k)) (hsync : InSync h)
    (e : w.process .gen env dt steps = .ok w') {c : Nat} (hc : c ∈ regCons h) {a ks kd : ℝ} {i : Nat}
    (hr : i < (w.cons c).rows) (s : w.Straight c i a ks kd) :
    (w.rowAt (w.rowsOf w.now c) c i (fun b => (w'.bodies b).pos) - a,
        w.rowAt (w.rowsOf w.now c) c i (fun b => (w'.bodies b).vel)) =
      (rkStep ks kd (dt / steps))^[steps.toNat]
        (w.rowAt (w.rowsOf w.now c) c i (fun b => (w.bodies b).pos) - a,
          w.rowAt (w.rowsOf w.now c) c i (fun b => (w.bodies b).vel)) := by
  obtain ⟨X, hm⟩ := hw.ode_moved hG hst hode (fun f => by cases f) (fun _ => hsync) e
  have hcs := (hw.regs.cons.mem c).mpr hc
  have p := hw.regs.placed hst.wired
  have main : ∀ j, j ≤ steps.toNat →
      (w.rowAt (w.rowsOf w.now c) c i (X j).pos - a, w.rowAt (w.rowsOf w.now c) c i (X j).vel) =
      (rkStep ks kd (dt / steps))^[j]
        (w.rowAt (w.rowsOf w.now c) c i (X 0).pos - a, w.rowAt (w.rowsOf w.now c) c i (X 0).vel) := by
    intro j
    induction j with
    | zero => intro _; rfl
    | succ j ih =>
      intro hj
      obtain ⟨A, mult, st⟩ := hm.step j (by omega)
      rw [Function.iterate_succ_apply', ← ih (by omega)]
      generalize dt / (steps : ℝ) = τ at st ⊢
      generalize X j = x at st ⊢
      generalize X (j + 1) = x' at st ⊢
      have a1 := s.acc hsle hcs hr st.acc1
      have a2 := s.acc hsle hcs hr st.acc2
      have a3 := s.acc hsle hcs hr st.acc3
      have a4 := s.acc hsle hcs hr st.acc4
      simp only [Motion.ahead, rowAt_add] at a2 a3 a4
      have hv : w.rowAt (w.rowsOf w.now c) c i x'.vel = w.rowAt (w.rowsOf w.now c) c i x.vel + τ / 6 *
          (w.rowAt (w.rowsOf w.now c) c i (A 1) + 2 * w.rowAt (w.rowsOf w.now c) c i (A 2) +
            2 * w.rowAt (w.rowsOf w.now c) c i (A 3) + w.rowAt (w.rowsOf w.now c) c i (A 4)) := by
        rw [p.rowAt_congr hcs (v := fun b q => x.vel b q + τ / 6 * (A 1 b q + 2 * A 2 b q + 2 * A 3 b q +
          A 4 b q)) st.vel, rowAt_add, rowAt_plus]
      have hp : w.rowAt (w.rowsOf w.now c) c i x'.pos = w.rowAt (w.rowsOf w.now c) c i x.pos + τ / 6 *
          (w.rowAt (w.rowsOf w.now c) c i x.vel +
            2 * (w.rowAt (w.rowsOf w.now c) c i x.vel + τ / 2 * w.rowAt (w.rowsOf w.now c) c i (A 1)) +
            2 * (w.rowAt (w.rowsOf w.now c) c i x.vel + τ / 2 * w.rowAt (w.rowsOf w.now c) c i (A 2)) +
            (w.rowAt (w.rowsOf w.now c) c i x.vel + τ * w.rowAt (w.rowsOf w.now c) c i (A 3))) := by
        rw [p.rowAt_congr hcs (v := fun b q => x.pos b q + τ / 6 * (x.vel b q +
          2 * (x.vel b q + τ / 2 * A 1 b q) + 2 * (x.vel b q + τ / 2 * A 2 b q) +
          (x.vel b q + τ * A 3 b q))) st.pos, rowAt_add, rowAt_plus]
        simp only [rowAt_add]
      rw [hp, hv, a4, a3, a2, a1]
      simp only [rkStep]
      ext <;> simp only <;> ring
  have := main _ le_rfl
  rw [hm.first] at this
  rw [p.rowAt_congr hcs (v := fun b => (w'.bodies b).vel) (fun b hb q => (hm.last b hb q).2),
    p.rowAt_congr hcs (u := (X steps.toNat).pos) (v := fun b => (w'.bodies b).pos)
      (fun b hb q => (hm.last b hb q).1)] at this
  exact this

/-- The trace of `rkStep` with `a = h kd` and `b = h² ks`. -/
noncomputable def rkT (a b : ℝ) : ℝ :=
  2 - b + 5 * b ^ 2 / 24 - b ^ 3 / 32 - a + 2 * a * b / 3 - a * b ^ 2 / 6 + a * b ^ 3 / 96 + a ^ 2 /
    2 - 7 * a ^ 2 * b / 24 + 5 * a ^ 2 * b ^ 2 / 96 - a ^ 3 / 6 + a ^ 3 * b / 12 + a ^ 4 / 24

/-- The determinant of `rkStep`. -/
noncomputable def rkD (a b : ℝ) : ℝ :=
  1 - b ^ 2 / 24 + b ^ 3 / 288 - b ^ 4 / 576 - a + a * b / 6 - a * b ^ 3 / 72 + a ^ 2 / 2 - a ^ 2 *
    b / 8 - a ^ 2 * b ^ 2 / 96 - a ^ 3 / 6 + a ^ 3 * b / 24 + a ^ 4 / 24

theorem rk_twice (ks kd h : ℝ) (x : ℝ × ℝ) : rkStep ks kd h (rkStep ks kd h x) =
    rkT (h * kd) (h ^ 2 * ks) • rkStep ks kd h x - rkD (h * kd) (h ^ 2 * ks) • x := by
  ext <;> simp only [rkStep, rkT, rkD, Prod.fst_sub, Prod.snd_sub, Prod.smul_fst, Prod.smul_snd,
    smul_eq_mul] <;> ring

theorem rk_tendsto_of {ks kd h : ℝ} (h3 : rkD (h * kd) (h ^ 2 * ks) < 1)
    (h4 : |rkT (h * kd) (h ^ 2 * ks)| < 1 + rkD (h * kd) (h ^ 2 * ks)) (x : ℝ × ℝ) :
    Tendsto (fun n => (rkStep ks kd h)^[n] x) atTop (𝓝 0) := by
  have rec2 : ∀ n, (rkStep ks kd h)^[n + 2] x =
      rkT (h * kd) (h ^ 2 * ks) • (rkStep ks kd h)^[n + 1] x -
        rkD (h * kd) (h ^ 2 * ks) • (rkStep ks kd h)^[n] x := by
    intro n
    rw [Function.iterate_succ_apply', Function.iterate_succ_apply', rk_twice]
  refine Prod.tendsto_iff _ _ |>.mpr ⟨?_, ?_⟩
  · exact tendsto_of_two h3 h4 fun n => by rw [rec2]; rfl
  · exact tendsto_of_two h3 h4 fun n => by rw [rec2]; rfl

theorem rk_tendsto {ks h : ℝ} (h1 : 0 < h ^ 2 * ks) (h2 : h ^ 2 * ks ≤ 4.28) (x : ℝ × ℝ) :
    Tendsto (fun n => (rkStep ks 0 h)^[n] x) atTop (𝓝 0) := by
  refine rk_tendsto_of ?_ ?_ x <;> rw [mul_zero] <;> simp only [rkT, rkD] <;>
    generalize h ^ 2 * ks = z at *
  · have : 0 < z ^ 2 * (24 - 2 * z + z ^ 2) := by
      have : 0 < 24 - 2 * z + z ^ 2 := by nlinarith
      positivity
    nlinarith
  · have h2' : 0 ≤ 4.28 - z := by linarith
    have hb : ∀ i j : Nat, 0 ≤ z ^ i * (4.28 - z) ^ j := fun i j => by positivity
    rw [abs_lt]
    constructor
    · linarith [hb 0 4, hb 1 3, hb 2 2, hb 3 1, hb 4 0]
    · have : 0 < z * (576 - 144 * z + 20 * z ^ 2 - z ^ 3) := by
        refine mul_pos h1 ?_
        linarith [hb 0 3, hb 1 2, hb 2 1, hb 3 0]
      nlinarith

theorem rk_tendsto_damped {ks kd h : ℝ} (h1 : 0 < h ^ 2 * ks) (h2 : h ^ 2 * ks ≤ 3) (k1 : 0 ≤ h * kd)
    (k2 : h * kd ≤ 1) (x : ℝ × ℝ) : Tendsto (fun n => (rkStep ks kd h)^[n] x) atTop (𝓝 0) := by
  refine rk_tendsto_of ?_ ?_ x <;> simp only [rkT, rkD] <;> generalize h ^ 2 * ks = b at * <;>
    generalize h * kd = a at *
  all_goals
    have h2' : 0 ≤ 3 - b := by linarith
    have k2' : 0 ≤ 1 - a := by linarith
    have hb : ∀ i j k l : Nat, 0 ≤ a ^ i * (1 - a) ^ j * b ^ k * (3 - b) ^ l := fun i j k l => by positivity
  · have p : 0 ≤ a * (1 - b / 6 + b ^ 3 / 72 - a / 2 + a * b / 8 + a * b ^ 2 / 96 + a ^ 2 / 6 - a ^ 2 * b / 24 - a ^ 3 / 24) := by
      refine mul_nonneg k1 ?_
      linarith [hb 0 3 0 3, hb 0 3 1 2, hb 0 3 2 1, hb 0 3 3 0, hb 1 2 0 3, hb 1 2 1 2, hb 1 2 2 1, hb 1 2 3 0, hb 2 1 0 3, hb 2 1 1 2, hb 2 1 2 1, hb 2 1 3 0, hb 3 0 0 3, hb 3 0 1 2, hb 3 0 2 1, hb 3 0 3 0]
    have q : 0 < b ^ 2 * (24 - 2 * b + b ^ 2) := by
      have : 0 < 24 - 2 * b + b ^ 2 := by nlinarith
      positivity
    linarith
  · rw [abs_lt]
    constructor
    · linarith [hb 0 4 0 4, hb 0 4 1 3, hb 0 4 2 2, hb 0 4 3 1, hb 0 4 4 0, hb 1 3 0 4, hb 1 3 1 3, hb 1 3 2 2, hb 1 3 3 1, hb 1 3 4 0, hb 2 2 0 4, hb 2 2 1 3, hb 2 2 2 2, hb 2 2 3 1, hb 2 2 4 0, hb 3 1 0 4, hb 3 1 1 3, hb 3 1 2 2, hb 3 1 3 1, hb 3 1 4 0, hb 4 0 0 4, hb 4 0 1 3, hb 4 0 2 2, hb 4 0 3 1, hb 4 0 4 0]
    · have : 0 < b * (1 - b / 4 + 5 * b ^ 2 / 144 - b ^ 3 / 576 - a / 2 + a * b / 6 - 7 * a * b ^ 2 / 288 + a ^ 2 / 6 - a ^ 2 * b / 16 - a ^ 3 / 24) := by
        refine mul_pos h1 ?_
        linarith [hb 0 3 0 3, hb 0 3 1 2, hb 0 3 2 1, hb 0 3 3 0, hb 1 2 0 3, hb 1 2 1 2, hb 1 2 2 1, hb 1 2 3 0, hb 2 1 0 3, hb 2 1 1 2, hb 2 1 2 1, hb 2 1 3 0, hb 3 0 0 3, hb 3 0 1 2, hb 3 0 2 1, hb 3 0 3 0]
      linarith

/-- A linear map of the plane with an eigenvalue outside the unit circle. -/
theorem linear_diverges {f : ℝ × ℝ → ℝ × ℝ} {p q r s T D : ℝ} (hf : ∀ y, f y = (p * y.1 + q * y.2, r * y.1 + s * y.2))
    (hr : r ≠ 0) (hT : T = p + s) (hD : D = p * s - q * r) (h1 : 1 < D ∨ 1 + D < |T|) {x : ℝ} (hx : x ≠ 0) :
    Tendsto (fun n => |(f^[n] (x, 0)).1| + |(f^[n] (x, 0)).2|) atTop atTop := by
  obtain ⟨a, ha, hn⟩ := root_outside h1
  have hr' : (r : ℂ) ≠ 0 := by exact_mod_cast hr
  rw [hT, hD] at ha
  push_cast at ha
  obtain ⟨l, hl⟩ : ∃ l : ℂ, ∀ y : ℝ × ℝ, ((f y).1 : ℂ) + l * (f y).2 = a * (y.1 + l * y.2) := by
    refine ⟨(a - p) / r, fun y => ?_⟩
    rw [hf]
    push_cast
    field_simp
    linear_combination -(y.2 : ℂ) * ha
  have geo : ∀ n, ((f^[n] (x, 0)).1 : ℂ) + l * (f^[n] (x, 0)).2 = a ^ n * x := by
    intro n
    induction n with
    | zero => simp
    | succ n ih => rw [Function.iterate_succ_apply', hl, ih, pow_succ', mul_assoc]
  have big : Tendsto (fun n : ℕ => ‖a‖ ^ n * (|x| / (1 + ‖l‖))) atTop atTop :=
    (tendsto_pow_atTop_atTop_of_one_lt hn).atTop_mul_const (by positivity)
  refine tendsto_atTop_mono (fun n => ?_) big
  have hp : 0 < 1 + ‖l‖ := by positivity
  rw [← mul_div_assoc, div_le_iff₀ hp]
  have := congrArg norm (geo n)
  rw [norm_mul, norm_pow, Complex.norm_real, Real.norm_eq_abs] at this
  rw [← this]
  refine (norm_add_le _ _).trans ?_
  rw [norm_mul, Complex.norm_real, Complex.norm_real, Real.norm_eq_abs, Real.norm_eq_abs]
  nlinarith [abs_nonneg (f^[n] (x, 0)).1, abs_nonneg (f^[n] (x, 0)).2, norm_nonneg l]

theorem rk_diverges {ks h : ℝ} (hh : h ≠ 0) (h1 : 4.29 ≤ h ^ 2 * ks) {x : ℝ} (hx : x ≠ 0) :
    Tendsto (fun n => |((rkStep ks 0 h)^[n] (x, 0)).1| + |((rkStep ks 0 h)^[n] (x, 0)).2|) atTop atTop := by
  have hks : ks ≠ 0 := by rintro rfl; norm_num at h1
  refine linear_diverges (T := rkT 0 (h ^ 2 * ks)) (D := rkD 0 (h ^ 2 * ks))
    (p := 1 - h ^ 2 * ks / 2 + (h ^ 2 * ks) ^ 2 / 12 - (h ^ 2 * ks) ^ 3 / 96)
    (q := h * (1 - h ^ 2 * ks / 6 + (h ^ 2 * ks) ^ 2 / 48))
    (r := -h * ks * (1 - h ^ 2 * ks / 3 + (h ^ 2 * ks) ^ 2 / 16 - (h ^ 2 * ks) ^ 3 / 96))
    (s := 1 - h ^ 2 * ks / 2 + (h ^ 2 * ks) ^ 2 / 8 - (h ^ 2 * ks) ^ 3 / 48)
    (fun y => ?_) ?_ ?_ ?_ ?_ hx
  · ext <;> simp only [rkStep] <;> ring
  · refine mul_ne_zero (mul_ne_zero (neg_ne_zero.mpr hh) hks) ?_
    generalize h ^ 2 * ks = z at *
    have : 1 - z / 3 + z ^ 2 / 16 - z ^ 3 / 96 = (4 - z) * (z ^ 2 / 96 - z / 48 + 1 / 4) := by ring
    rw [this]
    refine mul_ne_zero (by linarith) ?_
    nlinarith
  · simp only [rkT]; ring
  · simp only [rkD]; ring
  · refine .inr (lt_of_lt_of_le ?_ (neg_le_abs _))
    simp only [rkT, rkD]
    generalize h ^ 2 * ks = z at *
    have hz : 0 ≤ z - 4.29 := by linarith
    have hb : ∀ i : Nat, 0 ≤ (z - 4.29) ^ i := fun i => by positivity
    linarith [hb 1, hb 2, hb 3, hb 4]

end

end Scs
