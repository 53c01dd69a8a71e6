import Verif.WorldUnits

/-!
# Systems described in other units
-/

namespace Scs

open Finset

/-- A motion in the units `f`. -/
noncomputable def Motion.inUnits (x : Motion) (f : Units) : Motion where
  pos := fun b => f.pos (x.pos b)
  vel := fun b => f.vel (x.vel b)
  acc := fun b => f.acc (x.acc b)

theorem point_units (x : Motion) (f : Units) (b : Nat) (px py : ℝ) :
    (x.inUnits f).point b (f.L * px) (f.σ * f.L * py) =
      (f.L * (x.point b px py).1, f.σ * f.L * (x.point b px py).2) := by
  have h1 := f.rx_pt (x.pos b .th) px py
  have h2 := f.ry_pt (x.pos b .th) px py
  simp only [rx, ry] at h1 h2
  simp only [Motion.point, Motion.inUnits, Units.pos, Units.len, h1, h2, Prod.mk.injEq]
  constructor <;> ring

theorem pointVel_units (x : Motion) (f : Units) (b : Nat) (px py : ℝ) :
    (x.inUnits f).pointVel b (f.L * px) (f.σ * f.L * py) =
      (f.L / f.T * (x.pointVel b px py).1, f.σ * f.L / f.T * (x.pointVel b px py).2) := by
  have h := f.σσ
  simp only [Motion.pointVel, point_units]
  simp only [Motion.inUnits, Units.pos, Units.vel, Units.len, Prod.mk.injEq]
  constructor
  · linear_combination (-(f.L / f.T) * x.vel b .th * ((x.point b px py).2 - x.pos b .y)) * h
  · ring

theorem wrench_units (x : Motion) (f : Units) (b : Nat) (z g : ℝ × ℝ) (q : Coord) :
    (x.inUnits f).wrench b (f.L * z.1, f.σ * f.L * z.2)
      (f.M * f.L / f.T ^ 2 * g.1, f.σ * (f.M * f.L / f.T ^ 2) * g.2) q =
      f.force (x.wrench b z g) q := by
  cases q
  · rfl
  · rfl
  · simp only [Motion.wrench, Motion.inUnits, Units.pos, Units.force, Units.len]
    ring

theorem distOf_units (f : Units) (w1 w2 : ℝ × ℝ) :
    distOf (f.L * w1.1, f.σ * f.L * w1.2) (f.L * w2.1, f.σ * f.L * w2.2) = f.L * distOf w1 w2 := by
  have h := f.σσ
  have e : (f.L * w2.1 - f.L * w1.1) ^ 2 + (f.σ * f.L * w2.2 - f.σ * f.L * w1.2) ^ 2 =
      f.L ^ 2 * ((w2.1 - w1.1) ^ 2 + (w2.2 - w1.2) ^ 2) := by
    linear_combination (f.L ^ 2 * (w2.2 - w1.2) ^ 2) * h
  simp only [distOf, e]
  rw [Real.sqrt_mul (sq_nonneg _), Real.sqrt_sq f.hL.le]

/-- A spring in the units `f`. -/
noncomputable def Spring.inUnits (p : Spring ℝ) (f : Units) : Spring ℝ :=
  { p with
    restLength := f.L * p.restLength, ks := f.M / f.T ^ 2 * p.ks, kd := f.M / f.T * p.kd
    p1_x := f.L * p.p1_x, p1_y := f.σ * f.L * p.p1_y
    p2_x := f.L * p.p2_x, p2_y := f.σ * f.L * p.p2_y }

theorem springForce_units (p : Spring ℝ) (f : Units) (w1 w2 u1 u2 : ℝ × ℝ)
    (hf : f.L = 1 ∨ p.ks = 0 ∨ (1 / 100 ≤ distOf w1 w2 ∧ 1 / 100 ≤ f.L * distOf w1 w2)) :
    springForce (p.inUnits f) (f.L * w1.1, f.σ * f.L * w1.2) (f.L * w2.1, f.σ * f.L * w2.2)
      (f.L / f.T * u1.1, f.σ * f.L / f.T * u1.2) (f.L / f.T * u2.1, f.σ * f.L / f.T * u2.2) =
    (f.M * f.L / f.T ^ 2 * (springForce p w1 w2 u1 u2).1,
      f.σ * (f.M * f.L / f.T ^ 2) * (springForce p w1 w2 u1 u2).2) := by
  have dd := distOf_units f w1 w2
  have hL := f.hL.ne'
  have hook : hooke (p.inUnits f).ks (p.inUnits f).restLength (p.inUnits f).kd
      (f.L * w1.1, f.σ * f.L * w1.2) (f.L * w2.1, f.σ * f.L * w2.2)
      (f.L / f.T * u1.1, f.σ * f.L / f.T * u1.2) (f.L / f.T * u2.1, f.σ * f.L / f.T * u2.2) =
      (f.M * f.L / f.T ^ 2 * (hooke p.ks p.restLength p.kd w1 w2 u1 u2).1,
        f.σ * (f.M * f.L / f.T ^ 2) * (hooke p.ks p.restLength p.kd w1 w2 u1 u2).2) := by
    have d2 := dd
    simp only [distOf] at d2
    simp only [hooke, d2, Spring.inUnits]
    generalize √((w2.1 - w1.1) ^ 2 + (w2.2 - w1.2) ^ 2) = l
    have e1 : (f.L * w2.1 - f.L * w1.1) / (f.L * l) = (w2.1 - w1.1) / l := by
      rw [← mul_sub, mul_div_mul_left _ _ hL]
    have e2 : (f.σ * f.L * w2.2 - f.σ * f.L * w1.2) / (f.L * l) = f.σ * ((w2.2 - w1.2) / l) := by
      rw [show f.σ * f.L * w2.2 - f.σ * f.L * w1.2 = f.L * (f.σ * (w2.2 - w1.2)) by ring,
        mul_div_mul_left _ _ hL, mul_div_assoc]
    rw [e1, e2]
    simp only [Prod.mk.injEq]
    constructor <;> ring
  have damp : ((p.inUnits f).kd * (f.L / f.T * u2.1 - f.L / f.T * u1.1),
      (p.inUnits f).kd * (f.σ * f.L / f.T * u2.2 - f.σ * f.L / f.T * u1.2)) =
      (f.M * f.L / f.T ^ 2 * (p.kd * (u2.1 - u1.1)),
        f.σ * (f.M * f.L / f.T ^ 2) * (p.kd * (u2.2 - u1.2))) := by
    simp only [Spring.inUnits, Prod.mk.injEq]
    constructor <;> ring
  have zero : p.ks = 0 → hooke p.ks p.restLength p.kd w1 w2 u1 u2 =
      (p.kd * (u2.1 - u1.1), p.kd * (u2.2 - u1.2)) := fun h => by
    simp only [hooke, h, zero_mul, zero_add]
  have zero' : p.ks = 0 → springForce p w1 w2 u1 u2 =
      (p.kd * (u2.1 - u1.1), p.kd * (u2.2 - u1.2)) := fun h => by
    rw [springForce, zero h, ite_self]
  simp only [springForce, dd, hook]
  by_cases h0 : p.ks = 0
  · rw [zero h0, damp, ite_self, ite_self]
  · by_cases h : 1 / 100 ≤ distOf w1 w2
    · have h' : 1 / 100 ≤ f.L * distOf w1 w2 := by
        rcases hf with h1 | h1 | h1
        · rw [h1, one_mul]; exact h
        · exact absurd h1 h0
        · exact h1.2
      rw [if_pos h, if_pos h']
    · have h1 : f.L = 1 := by
        rcases hf with h1 | h1 | h1
        · exact h1
        · exact absurd h1 h0
        · exact absurd h1.1 h
      rw [if_neg h, if_neg (by rw [h1, one_mul]; exact h), damp]

theorem pullOn_units (p : Spring ℝ) (x : Motion) (f : Units) (b b' : Nat)
    (h1 : p.body1 = .obj b) (h2 : p.body2 = .obj b') (hf : f.L = 1 ∨ p.ks = 0 ∨ f.Apart p x) :
    (p.inUnits f).pullOn (x.inUnits f) b b' =
      (f.M * f.L / f.T ^ 2 * (p.pullOn x b b').1,
        f.σ * (f.M * f.L / f.T ^ 2) * (p.pullOn x b b').2) := by
  rw [Spring.pullOn]
  show springForce (p.inUnits f) ((x.inUnits f).point b (f.L * p.p1_x) (f.σ * f.L * p.p1_y))
    ((x.inUnits f).point b' (f.L * p.p2_x) (f.σ * f.L * p.p2_y))
    ((x.inUnits f).pointVel b (f.L * p.p1_x) (f.σ * f.L * p.p1_y))
    ((x.inUnits f).pointVel b' (f.L * p.p2_x) (f.σ * f.L * p.p2_y)) = _
  rw [point_units, point_units, pointVel_units, pointVel_units, springForce_units]
  · rfl
  · exact hf.imp id (Or.imp id fun h => h b b' h1 h2)

theorem drive_units (p : Motor ℝ) (x : Motion) (f : Units) (b b' : Nat)
    (hf : f.σ = 1 ∨ 0 ≤ p.maxTorque) :
    Motor.drive { p with
      ks := f.M * f.L ^ 2 / f.T * p.ks, kd := f.M * f.L ^ 2 * p.kd, maxTorque := f.κ * p.maxTorque
      speed := f.σ / f.T * p.speed } (x.inUnits f) b b' = f.σ * f.κ * p.drive x b b' := by
  have hk := f.κ_pos
  have e : ∀ v0 a0 v1 a1, motorTorque { p with
      ks := f.M * f.L ^ 2 / f.T * p.ks, kd := f.M * f.L ^ 2 * p.kd, maxTorque := f.κ * p.maxTorque
      speed := f.σ / f.T * p.speed } (f.σ / f.T * v0) (f.σ / f.T ^ 2 * a0) (f.σ / f.T * v1)
      (f.σ / f.T ^ 2 * a1) = f.κ * (f.σ * motorTorque p v0 a0 v1 a1) := by
    intro v0 a0 v1 a1
    simp only [motorTorque, Units.κ]
    ring
  simp only [Motor.drive, Motion.inUnits, Units.vel, Units.acc, Units.len, e, fp_fmin, fp_fmax]
  generalize motorTorque p (x.vel b .th) (x.acc b .th) (x.vel b' .th) (x.acc b' .th) = t
  rw [← mul_neg, ← mul_max_of_nonneg _ _ hk.le, ← mul_min_of_nonneg _ _ hk.le, mul_comm f.σ f.κ,
    mul_assoc]
  congr 1
  rcases f.hσ with h | h
  · rw [h, one_mul, one_mul]
  · have hm : 0 ≤ p.maxTorque := hf.resolve_left (by rw [h]; norm_num)
    rw [h]
    generalize p.maxTorque = m at hm
    rcases le_total t (-m) with h1 | h1 <;> rcases le_total m t with h2 | h2
    · rw [max_eq_right (by linarith), min_eq_left (by linarith), max_eq_left h1,
        min_eq_right (by linarith)]
      ring
    · rw [max_eq_right (by linarith), min_eq_left (by linarith), max_eq_left h1,
        min_eq_right (by linarith)]
      ring
    · rw [max_eq_left (by linarith), min_eq_right (by linarith), max_eq_right h1, min_eq_left h2]
      ring
    · rw [max_eq_right (by linarith), min_eq_right (by linarith), max_eq_right h1, min_eq_right h2]

theorem load_units {g : Gen ℝ} {f : Units} {x : Motion} (hf : f.FitsGen x g) (m : ℝ) (b : Nat)
    (q : Coord) : (f.gen g).load (f.M * m) (x.inUnits f) b q = f.force (g.load m x b) q := by
  cases g with
  | gravity a =>
    cases q <;> simp [Units.gen, Gen.load, Units.force]
    ring
  | static p =>
    by_cases h : p.body = .obj b
    · have e : ∀ q, (Gen.static p).load m x b q = x.wrench b (x.point b p.p_x p.p_y) (p.f_x, p.f_y) q :=
        fun q => if_pos h
      rw [show (Gen.static p).load m x b = x.wrench b (x.point b p.p_x p.p_y) (p.f_x, p.f_y) from
        funext e, ← wrench_units, ← point_units]
      exact if_pos h
    · have e : ∀ q, (Gen.static p).load m x b q = 0 := fun q => if_neg h
      rw [show (Gen.static p).load m x b = fun _ => 0 from funext e, f.force_zero]
      exact if_neg h
  | spring p =>
    have none : (∀ b1 b2, ¬(p.body1 = .obj b1 ∧ p.body2 = .obj b2)) →
        (f.gen (.spring p)).load (f.M * m) (x.inUnits f) b q =
          f.force ((Gen.spring p).load m x b) q := fun hn => by
      have e : (Gen.spring p).load m x b = fun _ => 0 := by
        funext q
        simp only [Gen.load]
        split
        · rename_i h1 h2
          exact absurd ⟨h1, h2⟩ (hn _ _)
        · rfl
      rw [e, f.force_zero]
      simp only [Units.gen, Gen.load]
      split
      · rename_i h1 h2
        exact absurd ⟨h1, h2⟩ (hn _ _)
      · rfl
    cases h1 : p.body1 with
    | obj b1 =>
      cases h2 : p.body2 with
      | obj b2 =>
        have e : (Gen.spring p).load m x b = fun q =>
          (if b = b1 then x.wrench b (x.point b1 p.p1_x p.p1_y) (p.pullOn x b1 b2) q else 0) +
          (if b = b2 then x.wrench b (x.point b2 p.p2_x p.p2_y) (-(p.pullOn x b1 b2)) q else 0) := by
          funext q
          simp only [Gen.load, h1, h2]
        have e' : (f.gen (.spring p)).load (f.M * m) (x.inUnits f) b q =
          (if b = b1 then (x.inUnits f).wrench b
            ((x.inUnits f).point b1 (f.L * p.p1_x) (f.σ * f.L * p.p1_y))
            ((p.inUnits f).pullOn (x.inUnits f) b1 b2) q else 0) +
          (if b = b2 then (x.inUnits f).wrench b
            ((x.inUnits f).point b2 (f.L * p.p2_x) (f.σ * f.L * p.p2_y))
            (-((p.inUnits f).pullOn (x.inUnits f) b1 b2)) q else 0) := by
          simp only [Units.gen, Gen.load, h1, h2]
          rfl
        have en : -((p.inUnits f).pullOn (x.inUnits f) b1 b2) =
            (f.M * f.L / f.T ^ 2 * (-(p.pullOn x b1 b2)).1,
              f.σ * (f.M * f.L / f.T ^ 2) * (-(p.pullOn x b1 b2)).2) := by
          rw [pullOn_units p x f b1 b2 h1 h2 hf]
          simp only [Prod.neg_mk, Prod.fst_neg, Prod.snd_neg, mul_neg]
        rw [e', e, en, pullOn_units p x f b1 b2 h1 h2 hf, point_units, point_units, wrench_units,
          wrench_units, f.force_eq, f.force_eq, f.force_eq, mul_add, mul_ite, mul_ite, mul_zero]
      | null => exact none (fun _ _ h => by rw [h2] at h; cases h.2)
      | uninit => exact none (fun _ _ h => by rw [h2] at h; cases h.2)
    | null => exact none (fun _ _ h => by rw [h1] at h; cases h.1)
    | uninit => exact none (fun _ _ h => by rw [h1] at h; cases h.1)
  | motor p =>
    have hd := fun b0 b1 => drive_units p x f b0 b1 hf
    have none : (∀ b0 b1, ¬(p.body0 = .obj b0 ∧ p.body1 = .obj b1)) →
        (f.gen (.motor p)).load (f.M * m) (x.inUnits f) b q =
          f.force ((Gen.motor p).load m x b) q := fun hn => by
      have e : (Gen.motor p).load m x b = fun _ => 0 := by
        funext q
        simp only [Gen.load]
        split
        · rename_i h1 h2
          exact absurd ⟨h1, h2⟩ (hn _ _)
        · rfl
      rw [e, f.force_zero]
      simp only [Units.gen, Gen.load]
      split
      · rename_i h1 h2
        exact absurd ⟨h1, h2⟩ (hn _ _)
      · rfl
    cases h0 : p.body0 with
    | obj b0 =>
      cases h1 : p.body1 with
      | obj b1 =>
        have e : (Gen.motor p).load m x b = fun q =>
          (if b = b0 then pureTorque (-(p.drive x b0 b1)) q else 0) +
          (if b = b1 then pureTorque (p.drive x b0 b1) q else 0) := by
          funext q
          simp only [Gen.load, h0, h1]
        have e' : (f.gen (.motor p)).load (f.M * m) (x.inUnits f) b q =
          (if b = b0 then pureTorque (-(f.σ * f.κ * p.drive x b0 b1)) q else 0) +
          (if b = b1 then pureTorque (f.σ * f.κ * p.drive x b0 b1) q else 0) := by
          rw [← hd]
          simp only [Units.gen, Gen.load, h0, h1]
        rw [e', e]
        generalize p.drive x b0 b1 = t
        cases q <;> simp only [Units.force, pureTorque, mul_zero, ite_self, add_zero, mul_add, mul_ite]
        congr 1 <;> congr 1 <;> simp only [Units.κ] <;> ring
      | null => exact none (fun _ _ h => by rw [h1] at h; cases h.2)
      | uninit => exact none (fun _ _ h => by rw [h1] at h; cases h.2)
    | null => exact none (fun _ _ h => by rw [h0] at h; cases h.1)
    | uninit => exact none (fun _ _ h => by rw [h0] at h; cases h.1)
  | custom c => cases q <;> simp [Units.gen, Gen.load, Units.force]

/-- The system `v` is the system `w` described in the units `f`. -/
structure World.Scaled (f : Units) (w v : World ℝ) : Prop where
  rb : v.rb.toFinset = w.rb.toFinset
  cs : v.cs.toFinset = w.cs.toFinset
  fg : v.fg.toFinset = w.fg.toFinset
  m : ∀ b ∈ w.rb, (v.bodies b).m = f.M * (w.bodies b).m
  I : ∀ b ∈ w.rb, (v.bodies b).I = f.M * f.L ^ 2 * (w.bodies b).I
  kind : ∀ c ∈ w.cs, (v.cons c).kind = f.con (w.cons c).kind
  fits : ∀ c ∈ w.cs, f.FitsCon (w.cons c).kind
  rows : ∀ c ∈ w.cs, (v.cons c).rows = (w.cons c).rows
  count : ∀ c ∈ w.cs, (v.cons c).bodyCount = (w.cons c).bodyCount
  at_ : ∀ c ∈ w.cs, ∀ k, k < (w.cons c).bodyCount → (v.cons c).bodies k = (w.cons c).bodies k
  gens : ∀ g ∈ w.fg, v.gens g = f.gen (w.gens g)
  bias : v.bias = w.bias

namespace World.Scaled

variable {f : Units} {w v : World ℝ} (a : World.Scaled f w v)
include a

theorem memb {b : Nat} : b ∈ v.rb ↔ b ∈ w.rb := by
  rw [← List.mem_toFinset, ← List.mem_toFinset, a.rb]

theorem memc {c : Nat} : c ∈ v.cs ↔ c ∈ w.cs := by
  rw [← List.mem_toFinset, ← List.mem_toFinset, a.cs]

theorem mass {b : Nat} (hb : b ∈ w.rb) (q : Coord) :
    (v.bodies b).mass q = f.M * f.L ^ 2 / f.len q ^ 2 * (w.bodies b).mass q := by
  have h := f.σσ
  have hL := f.hL.ne'
  cases q
  · refine (a.m b hb).trans ?_
    simp only [Units.len, Body.mass]
    field_simp
  · refine (a.m b hb).trans ?_
    simp only [Units.len, Body.mass]
    rw [mul_pow, sq f.σ, h]
    field_simp
  · refine (a.I b hb).trans ?_
    simp only [Units.len, Body.mass]
    rw [sq f.σ, h, div_one]

theorem bodyOf {c : Nat} (hc : c ∈ w.cs) {k : Nat} (hk : k < (w.cons c).bodyCount) :
    v.bodyOf c k = w.bodyOf c k := by
  rw [World.bodyOf, World.bodyOf, a.at_ c hc k hk]

theorem sees (x : Motion) {c : Nat} (hc : c ∈ w.cs) :
    f.Sees (w.cons c).bodyCount (x.q w c) ((x.inUnits f).q v c) := by
  intro i hi
  have e : ∀ (y : Motion) (u : World ℝ) (q : Coord), i < (u.cons c).bodyCount →
      y.q u c (i * 3 + q.d) = y.pos (u.bodyOf c i) q := fun y u q h => by
    have h1 : (i * 3 + q.d) / 3 = i := by cases q <;> simp only [Coord.d] <;> omega
    have h2 : (i * 3 + q.d) % 3 = q.d := by cases q <;> simp only [Coord.d] <;> omega
    rw [Motion.q, h1, h2, if_pos h, coordOf_d]
  have hi' : i < (v.cons c).bodyCount := by rw [a.count c hc]; exact hi
  have e1 := fun q => e x w q hi
  have e2 := fun q => e (x.inUnits f) v q hi'
  have f1 := e1 .x
  have f2 := e1 .y
  have f3 := e1 .th
  have g1 := e2 .x
  have g2 := e2 .y
  have g3 := e2 .th
  simp only [Coord.d, add_zero] at f1 f2 f3 g1 g2 g3
  rw [f1, f2, f3, g1, g2, g3, a.bodyOf hc hi]
  exact ⟨rfl, rfl, rfl⟩

theorem load {x : Motion} (hx : ∀ g ∈ w.fg, f.FitsGen x (w.gens g)) {b : Nat} (hb : b ∈ w.rb)
    (q : Coord) : v.load (x.inUnits f) b q = f.force (w.load x b) q := by
  have e : w.load x b = fun q => ∑ g ∈ w.fg.toFinset, (w.gens g).load (w.bodies b).m x b q := rfl
  rw [World.load, a.fg, a.m b hb, e, f.force_sum]
  refine sum_congr rfl fun g hg => ?_
  rw [List.mem_toFinset] at hg
  rw [a.gens g hg, load_units (hx g hg)]

variable (hp : w.Proper)
include hp

theorem J (x : Motion) {c : Nat} (hc : c ∈ w.cs) {j k : Nat} (hj : j < (w.cons c).rows)
    (hk : k < (w.cons c).bodyCount) (q : Coord) :
    (v.rowsOf (x.inUnits f) c).J j (k * 3 + q.d) =
      f.row (w.cons c).kind j / f.len q * (w.rowsOf x c).J j (k * 3 + q.d) := by
  simp only [World.rowsOf, a.kind c hc]
  exact Units.jT_con (hp c hc) (a.fits c hc) (a.sees x hc) hj hk q

theorem C (x : Motion) {c : Nat} (hc : c ∈ w.cs) {j : Nat} (hj : j < (w.cons c).rows) :
    (v.rowsOf (x.inUnits f) c).C j = f.row (w.cons c).kind j * (w.rowsOf x c).C j := by
  simp only [World.rowsOf, a.kind c hc]
  exact Units.cT_con (hp c hc) (a.fits c hc) (a.sees x hc) hj

omit hp in
theorem vBias (x : Motion) {c : Nat} (hc : c ∈ w.cs) (j : Nat) :
    (v.rowsOf (x.inUnits f) c).v_bias j = f.row (w.cons c).kind j / f.T * (w.rowsOf x c).v_bias j := by
  simp only [World.rowsOf, a.kind c hc]
  exact f.biasT_con _ j

theorem coef (x : Motion) {c : Nat} (hc : c ∈ w.cs) {j : Nat} (hj : j < (w.cons c).rows) (b : Nat)
    (q : Coord) : v.coef (v.rowsOf (x.inUnits f)) c j b q =
      f.row (w.cons c).kind j / f.len q * w.coef (w.rowsOf x) c j b q := by
  rw [World.coef, World.coef, a.count c hc, mul_sum]
  refine sum_congr rfl fun k hk => ?_
  rw [a.bodyOf hc (mem_range.mp hk), a.J hp x hc hj (mem_range.mp hk), mul_ite, mul_zero]

/-- Forces along the rows in the new units. -/
theorem forceSum (x : Motion) (z : Nat → Nat → ℝ) (b : Nat) (q : Coord) :
    ∑ c ∈ v.cs.toFinset, ∑ j ∈ range (v.cons c).rows,
        z c j * v.coef (v.rowsOf (x.inUnits f)) c j b q =
      1 / f.len q * ∑ c ∈ w.cs.toFinset, ∑ j ∈ range (w.cons c).rows,
        (f.row (w.cons c).kind j * z c j) * w.coef (w.rowsOf x) c j b q := by
  rw [a.cs, mul_sum]
  refine sum_congr rfl fun c hc => ?_
  rw [List.mem_toFinset] at hc
  rw [a.rows c hc, mul_sum]
  refine sum_congr rfl fun j hj => ?_
  rw [a.coef hp x hc (mem_range.mp hj)]
  ring

theorem conForce (x : Motion) (μ : Nat → Nat → ℝ) (b : Nat) (q : Coord) :
    v.conForce (v.reaction (x.inUnits f) (fun c j => f.κ / f.row (w.cons c).kind j * μ c j)) b q =
      f.force (w.conForce (w.reaction x μ) b) q := by
  rw [f.force_eq, conForce_coef, conForce_coef, a.forceSum hp x]
  have : ∀ c j, f.row (w.cons c).kind j * (f.κ / f.row (w.cons c).kind j * μ c j) = f.κ * μ c j :=
    fun c j => by
      have := f.row0 (w.cons c).kind j
      field_simp
  simp only [this, mul_assoc, ← mul_sum]
  ring

theorem response (x : Motion) (z : Nat → Nat → ℝ) {b : Nat} (hb : b ∈ w.rb) (q : Coord) :
    v.response (v.rowsOf (x.inUnits f)) z b q = f.len q / (f.M * f.L ^ 2) *
      w.response (w.rowsOf x) (fun c j => f.row (w.cons c).kind j * z c j) b q := by
  have hL := f.hL.ne'
  have hM := f.hM.ne'
  have h0 := f.len0 q
  rw [World.response, a.forceSum hp x z b q, a.mass hb, World.response]
  generalize ∑ c ∈ w.cs.toFinset, ∑ j ∈ range (w.cons c).rows,
    f.row (w.cons c).kind j * z c j * w.coef (w.rowsOf x) c j b q = S
  rw [mul_div_mul_comm]
  congr 1
  field_simp

theorem indep {x : Motion} (hI : w.Indep (w.rowsOf x)) : v.Indep (v.rowsOf (x.inUnits f)) := by
  intro z hz c hc j hj
  have hL := f.hL.ne'
  have hM := f.hM.ne'
  rw [a.memc] at hc
  rw [a.rows c hc] at hj
  have key := hI (fun c j => f.row (w.cons c).kind j * z c j) (fun c hc j hj => ?_) c hc j hj
  · exact (mul_eq_zero.mp key).resolve_left (f.row0 _ _)
  · have h0 := hz c (a.memc.mpr hc) j (by rw [a.rows c hc]; exact hj)
    rw [a.rb] at h0
    have e : ∀ b ∈ w.rb.toFinset, Coord.sum (fun q => v.coef (v.rowsOf (x.inUnits f)) c j b q *
        v.response (v.rowsOf (x.inUnits f)) z b q) = f.row (w.cons c).kind j / (f.M * f.L ^ 2) *
        Coord.sum (fun q => w.coef (w.rowsOf x) c j b q * w.response (w.rowsOf x)
          (fun c j => f.row (w.cons c).kind j * z c j) b q) := fun b hb => by
      rw [← Coord.sum_mul]
      refine Coord.sum_congr fun q => ?_
      rw [a.coef hp x hc hj, a.response hp x z (List.mem_toFinset.mp hb)]
      have := f.len0 q
      field_simp
    rw [sum_congr rfl e, ← mul_sum] at h0
    exact (mul_eq_zero.mp h0).resolve_left (div_ne_zero (f.row0 _ _) (by positivity))

theorem rowAt (x : Motion) {c : Nat} (hc : c ∈ w.cs) {j : Nat} (hj : j < (w.cons c).rows)
    (u : Nat → Coord → ℝ) : v.rowAt (v.rowsOf (x.inUnits f) c) c j (fun b => f.vel (u b)) =
      f.row (w.cons c).kind j / f.T * w.rowAt (w.rowsOf x c) c j u := by
  rw [World.rowAt, World.rowAt, a.count c hc, mul_sum]
  refine sum_congr rfl fun k hk => ?_
  rw [← Coord.sum_mul, a.bodyOf hc (mem_range.mp hk)]
  refine Coord.sum_congr fun q => ?_
  rw [a.J hp x hc hj (mem_range.mp hk), Units.vel]
  have := f.len0 q
  have := f.hT.ne'
  field_simp

/-- A sub-step in the new units. -/
theorem move (hs : w.sle = some .ge) (hs' : v.sle = some .ge) {s : ℝ} {x x' : Motion}
    {μ : Nat → Nat → ℝ} (hx : ∀ g ∈ w.fg, f.FitsGen x (w.gens g)) (st : w.Move s x x' μ) :
    v.Move (f.T * s) (x.inUnits f) (x'.inUnits f)
      (fun c j => f.κ / f.row (w.cons c).kind j * μ c j) where
  ne := mul_ne_zero f.hT.ne' st.ne
  acc := fun b hb q => by
    rw [a.memb] at hb
    rw [a.load hx hb, a.conForce hp, a.mass hb, f.force_eq, f.force_eq]
    show f.len q / f.T ^ 2 * x'.acc b q = _
    rw [st.acc b hb q, ← mul_add, Units.κ]
    have h1 := f.len0 q
    have h2 := f.hT.ne'
    have h3 := f.hM.ne'
    have h4 := f.hL.ne'
    rw [mul_div_mul_comm]
    congr 1
    field_simp
  vel := fun b hb q => by
    rw [a.memb] at hb
    simp only [Motion.inUnits, Units.vel, Units.acc, st.vel b hb]
    have h2 := f.hT.ne'
    field_simp
  pos := fun b hb q => by
    rw [a.memb] at hb
    simp only [Motion.inUnits, Units.pos, Units.vel, st.pos b hb]
    have h2 := f.hT.ne'
    field_simp
  indep := fun _ => a.indep hp (st.indep hs)
  ge := fun _ c hc j hj => by
    rw [a.memc] at hc
    rw [a.rows c hc] at hj
    have e : (x'.inUnits f).vel = fun b => f.vel (x'.vel b) := rfl
    have hT := f.hT.ne'
    have hs0 := st.ne
    have key := st.ge hs c hc j hj
    rw [e, a.rowAt hp x hc hj, a.vBias x hc j, a.C hp x hc hj, a.bias,
      show w.bias / (f.T * s) * (f.row (w.cons c).kind j * (w.rowsOf x c).C j) =
        f.row (w.cons c).kind j / f.T * (w.bias / s * (w.rowsOf x c).C j) by field_simp,
      ← mul_add, ← mul_add, key, mul_zero]
  cg := fun m e1 e2 h => by rw [hs'] at h; cases h
  gs := fun m e h => by rw [hs'] at h; cases h

end World.Scaled

end Scs
