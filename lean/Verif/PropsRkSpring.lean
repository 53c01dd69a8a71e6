import Verif.PropsEuler
import Verif.PropsOdeWorld
import Mathlib.Analysis.SpecialFunctions.Trigonometric.Bounds

/-!
# The Runge-Kutta solver on an undamped spring

C116: what a step of the shipped Runge-Kutta solver does to two bodies joined by a spring. Its stages use
velocities that are already updated (C35), and so it is not a method of fourth order: the error of one step
in the velocity is of third order in the step, and the angular momentum of the pair, which is constant in
the exact motion, decays.
-/

namespace Scs

open Finset

/-! ## C116 -/

section
variable {G : Gen ℝ → Prop} {h : List (Op ℝ)} {w w' : World ℝ} {env : Env ℝ} {dt : ℝ}

/-- The relative acceleration of the bodies at the ends of the only spring. -/
theorem pair_accel {y : Motion} {a : Nat → Coord → ℝ} {mult : Nat → Nat → ℝ} (s : w.Accel y a mult)
    (hcs : w.cs = []) (hm : ∀ b ∈ w.rb, ∀ q : Coord, (w.bodies b).mass q ≠ 0) {g : Nat}
    (hg : w.fg.toFinset = {g}) {p : Spring ℝ} (hp : w.gens g = .spring p) (hH : (w.gens g).Harmonic)
    {b1 b2 : Nat} (h1 : p.body1 = .obj b1) (h2 : p.body2 = .obj b2) (m1 : b1 ∈ w.rb) (m2 : b2 ∈ w.rb)
    (hne : b1 ≠ b2) (hd : (w.gens g).Long y.pos) {q : Coord} (hq : q ≠ .th) :
    a b1 q - a b2 q = -(p.ks * (1 / (w.bodies b1).m + 1 / (w.bodies b2).m)) *
      (y.pos b1 q - y.pos b2 q) := by
  have hW' : (w.gens g).Within (· ∈ w.rb.toFinset) := by
    rw [hp]
    exact .inr ⟨⟨b1, List.mem_toFinset.mpr m1, h1⟩, .inr ⟨b2, List.mem_toFinset.mpr m2, h2⟩⟩
  have load : ∀ b ∈ w.rb, ∀ q, a b q = (Gen.spring p).powerOf (fun b => (w.bodies b).m)
      w.rb.toFinset y.pos (fun b' q' => if b' = b ∧ q' = q then 1 else 0) / (w.bodies b).mass q := by
    intro b hb q
    have z : w.conForce (w.reaction y mult) b q = 0 := by rw [World.conForce, hcs]; simp
    rw [s.newton b hb q, z, add_zero, World.load, hg, sum_singleton, ← hp]
    rw [load_eq hH hW' hd (List.mem_toFinset.mpr hb) q (m := fun b => (w.bodies b).m)]
  rw [load b1 m1, load b2 m2]
  have ne1 := hm b1 m1 .x
  have ne2 := hm b2 m2 .x
  cases q with
  | th => exact absurd rfl hq
  | x =>
    simp only [Gen.powerOf, h1, h2, Body.mass, hne, Ne.symm hne, true_and,
      false_and, if_true, if_false, reduceCtorEq, and_true, and_false, and_self] at *
    field_simp
    ring
  | y =>
    simp only [Gen.powerOf, h1, h2, Body.mass, hne, Ne.symm hne, true_and,
      false_and, if_true, if_false, reduceCtorEq, and_true, and_false, and_self] at *
    field_simp
    ring

/-- Two points that stay apart when they move on straight lines. -/
def Straight (a b : Body ℝ) : Prop :=
  ∀ t : ℝ, (1 / 50) ^ 2 ≤ (a.p_x - b.p_x + t * (a.v_x - b.v_x)) ^ 2 +
    (a.p_y - b.p_y + t * (a.v_y - b.v_y)) ^ 2

/-- **C116**: two bodies joined by the only spring, undamped, of rest length zero and between the centres,
no constraints; the bodies would stay at least 1/50 apart if they moved on straight lines, and
`z = dt ^ 2 * ks * (1 / m1 + 1 / m2)` is at most 1/2. A call `process(dt, 1)` of a generic system with the
Runge-Kutta solver changes relative position and velocity by these polynomials. -/
theorem C116_step (hG : ∀ g, G g → g.OnlyForces) (hw : World.Hist G .gen h w) (hst : w.Standard h)
    {r : Rk4 ℝ} (hode : w.ode = some (.rk4 r)) (hsync : InSync h) (hc : regCons h = ∅)
    (hm : ∀ b ∈ regBodies h, 0 < (w.bodies b).m ∧ 0 < (w.bodies b).I)
    {g : Nat} (hg : regGens h = {g}) {p : Spring ℝ} (hp : w.gens g = .spring p)
    (hH : (w.gens g).Harmonic) (hk : 0 ≤ p.ks) {b1 b2 : Nat} (h1 : p.body1 = .obj b1)
    (h2 : p.body2 = .obj b2) (hs : Straight (w.bodies b1) (w.bodies b2)) {z : ℝ}
    (hz : z = dt ^ 2 * (p.ks * (1 / (w.bodies b1).m + 1 / (w.bodies b2).m))) (hz1 : z ≤ 1 / 2)
    (e : w.process .gen env dt 1 = .ok w') {q : Coord} (hq : q ≠ .th) :
    (w'.bodies b1).pos q - (w'.bodies b2).pos q =
      (1 - z / 2 + z ^ 2 / 12 - z ^ 3 / 96) * ((w.bodies b1).pos q - (w.bodies b2).pos q) +
      dt * (1 - z / 6 + z ^ 2 / 48) * ((w.bodies b1).vel q - (w.bodies b2).vel q) ∧
    (w'.bodies b1).vel q - (w'.bodies b2).vel q =
      (1 - z / 2 + z ^ 2 / 8 - z ^ 3 / 48) * ((w.bodies b1).vel q - (w.bodies b2).vel q) -
      dt * (p.ks * (1 / (w.bodies b1).m + 1 / (w.bodies b2).m)) *
        (1 - z / 3 + z ^ 2 / 16 - z ^ 3 / 96) * ((w.bodies b1).pos q - (w.bodies b2).pos q) := by
  have hne : b1 ≠ b2 := by
    rintro rfl
    have := hs 0
    norm_num at this
  have rr := hw.regs
  have hcs := rr.cs_nil.mpr hc
  have hgm : g ∈ regGens h := by rw [hg]; exact mem_singleton_self g
  have hW := hst.gens g hgm
  rw [hp] at hW
  have r1 : b1 ∈ regBodies h := by
    rcases hW with f | ⟨⟨b, hb, f⟩, _⟩
    · rw [h1] at f; cases f
    · rw [h1] at f; cases f; exact hb
  have r2 : b2 ∈ regBodies h := by
    rcases hW with f | ⟨_, f | ⟨b, hb, f⟩⟩
    · rw [h1] at f; cases f
    · rw [h2] at f; cases f
    · rw [h2] at f; cases f; exact hb
  have m1 := (rr.bodies.mem b1).mpr r1
  have m2 := (rr.bodies.mem b2).mpr r2
  obtain ⟨X, hX⟩ := hw.ode_moved hG hst hode (fun f => by cases f) (fun _ => hsync) e
  obtain ⟨a, mult, st⟩ := hX.step 0 (by decide)
  rw [hX.first] at st
  simp only [Int.cast_one, div_one, zero_add] at st
  have last : w.Shows (X 1) w'.bodies := hX.last
  have p1 := (hm b1 r1).1
  have p2 := (hm b2 r2).1
  set κ := p.ks * (1 / (w.bodies b1).m + 1 / (w.bodies b2).m) with hκ
  have κ0 : 0 ≤ κ := by positivity
  have z0 : 0 ≤ z := by rw [hz]; positivity
  -- the relative acceleration of every stage
  have rel := fun {y : Motion} {a mult} (s : w.Accel y a mult) hd {q} (hq : q ≠ Coord.th) =>
    pair_accel s hcs hX.mass (rr.fg_finset.trans hg) hp hH h1 h2 m1 m2 hne hd hq
  -- a combination of position and velocity is at least 1/100 long
  have far : ∀ (y : Motion) (α β : ℝ), 1 / 2 ≤ α →
      (∀ q, q ≠ .th → y.pos b1 q - y.pos b2 q = α * ((w.bodies b1).pos q - (w.bodies b2).pos q) +
        β * ((w.bodies b1).vel q - (w.bodies b2).vel q)) → (w.gens g).Long y.pos := by
    intro y α β hα hy
    rw [hp]
    intro c1 c2 f1 f2
    rw [h1] at f1
    rw [h2] at f2
    cases f1
    cases f2
    refine Real.le_sqrt_of_sq_le ?_
    have ex := hy .x (by decide)
    have ey := hy .y (by decide)
    simp only [Body.pos, Body.vel] at ex ey
    have l := hs (β / α)
    have hα0 : 0 < α := by linarith
    have sw : ∀ x y : ℝ, (x - y) ^ 2 = (y - x) ^ 2 := fun x y => by ring
    simp only
    rw [sw, sw (y.pos b2 .y), ex, ey]
    generalize (w.bodies b1).p_x - (w.bodies b2).p_x = D at *
    generalize (w.bodies b1).p_y - (w.bodies b2).p_y = D' at *
    generalize (w.bodies b1).v_x - (w.bodies b2).v_x = U at *
    generalize (w.bodies b1).v_y - (w.bodies b2).v_y = U' at *
    have l2 := mul_le_mul_of_nonneg_left l (show 0 ≤ α ^ 2 by positivity)
    have e1 : α ^ 2 * ((D + β / α * U) ^ 2 + (D' + β / α * U') ^ 2) =
        (α * D + β * U) ^ 2 + (α * D' + β * U') ^ 2 := by
      field_simp
    rw [e1] at l2
    nlinarith
  have d1 : (w.gens g).Long w.now.pos := far _ 1 0 (by norm_num) fun q _ => by
    simp only [World.now]
    ring
  have A1 := fun {q} (hq : q ≠ Coord.th) => rel st.acc1 d1 hq
  have P2 : ∀ q, q ≠ Coord.th → (w.now.ahead (dt / 2) (a 1)).pos b1 q - (w.now.ahead (dt / 2) (a 1)).pos b2 q =
      (1 - z / 4) * ((w.bodies b1).pos q - (w.bodies b2).pos q) +
        dt / 2 * ((w.bodies b1).vel q - (w.bodies b2).vel q) := by
    intro q hq
    have := A1 hq
    simp only [Motion.ahead, World.now] at this ⊢
    rw [hz]
    linear_combination dt ^ 2 / 4 * this
  have A2 := fun {q} (hq : q ≠ Coord.th) => rel st.acc2 (far _ _ _ (by linarith) P2) hq
  have P3 : ∀ q, q ≠ Coord.th → (w.now.ahead (dt / 2) (a 2)).pos b1 q - (w.now.ahead (dt / 2) (a 2)).pos b2 q =
      (1 - z / 4 + z ^ 2 / 16) * ((w.bodies b1).pos q - (w.bodies b2).pos q) +
        dt / 2 * (1 - z / 4) * ((w.bodies b1).vel q - (w.bodies b2).vel q) := by
    intro q hq
    have := A2 hq
    rw [P2 q hq] at this
    simp only [Motion.ahead, World.now] at this ⊢
    rw [hz] at this ⊢
    linear_combination dt ^ 2 / 4 * this
  have A3 := fun {q} (hq : q ≠ Coord.th) => rel st.acc3 (far _ _ _ (by nlinarith) P3) hq
  have P4 : ∀ q, q ≠ Coord.th → (w.now.ahead dt (a 3)).pos b1 q - (w.now.ahead dt (a 3)).pos b2 q =
      (1 - z + z ^ 2 / 4 - z ^ 3 / 16) * ((w.bodies b1).pos q - (w.bodies b2).pos q) +
        dt * (1 - z / 2 + z ^ 2 / 8) * ((w.bodies b1).vel q - (w.bodies b2).vel q) := by
    intro q hq
    have := A3 hq
    rw [P3 q hq] at this
    simp only [Motion.ahead, World.now] at this ⊢
    rw [hz] at this ⊢
    linear_combination dt ^ 2 * this
  have A4 := fun {q} (hq : q ≠ Coord.th) => rel st.acc4
    (far _ _ _ (by nlinarith [mul_nonneg (sq_nonneg z) (by linarith : 0 ≤ 1 / 2 - z)]) P4) hq
  have B1 := A1 hq
  have B2 := A2 hq
  have B3 := A3 hq
  have B4 := A4 hq
  rw [P2 q hq] at B2
  rw [P3 q hq] at B3
  rw [P4 q hq] at B4
  have v1 := st.vel b1 m1 q
  have v2 := st.vel b2 m2 q
  have x1 := st.pos b1 m1 q
  have x2 := st.pos b2 m2 q
  rw [(last b1 m1 q).2] at v1
  rw [(last b2 m2 q).2] at v2
  rw [(last b1 m1 q).1] at x1
  rw [(last b2 m2 q).1] at x2
  simp only [World.now] at B1 v1 v2 x1 x2
  rw [v1, v2, x1, x2]
  rw [hz] at B2 B3 B4 ⊢
  constructor
  · linear_combination dt ^ 2 / 6 * (B1 + B2 + B3)
  · linear_combination dt / 6 * (B1 + 2 * B2 + 2 * B3 + B4)

/-- **C116**: such a call multiplies the rate at which the line between the bodies sweeps out area, that
is their angular momentum about each other, by `1 - z ^ 2 / 24 + z ^ 3 / 288 - z ^ 4 / 576`, a factor less
than one: the Runge-Kutta solver brakes rotations that no force brakes. -/
theorem C116_brakes (hG : ∀ g, G g → g.OnlyForces) (hw : World.Hist G .gen h w) (hst : w.Standard h)
    {r : Rk4 ℝ} (hode : w.ode = some (.rk4 r)) (hsync : InSync h) (hc : regCons h = ∅)
    (hm : ∀ b ∈ regBodies h, 0 < (w.bodies b).m ∧ 0 < (w.bodies b).I)
    {g : Nat} (hg : regGens h = {g}) {p : Spring ℝ} (hp : w.gens g = .spring p)
    (hH : (w.gens g).Harmonic) (hk : 0 < p.ks) {b1 b2 : Nat} (h1 : p.body1 = .obj b1)
    (h2 : p.body2 = .obj b2) (hs : Straight (w.bodies b1) (w.bodies b2)) (hdt : dt ≠ 0) {z : ℝ}
    (hz : z = dt ^ 2 * (p.ks * (1 / (w.bodies b1).m + 1 / (w.bodies b2).m))) (hz1 : z ≤ 1 / 2)
    (e : w.process .gen env dt 1 = .ok w') :
    areaRate (w'.bodies b1) (w'.bodies b2) =
      (1 - z ^ 2 / 24 + z ^ 3 / 288 - z ^ 4 / 576) * areaRate (w.bodies b1) (w.bodies b2) ∧
    0 < 1 - z ^ 2 / 24 + z ^ 3 / 288 - z ^ 4 / 576 ∧ 1 - z ^ 2 / 24 + z ^ 3 / 288 - z ^ 4 / 576 < 1 := by
  have st := fun {q} (hq : q ≠ Coord.th) => C116_step hG hw hst hode hsync hc hm hg hp hH hk.le h1 h2 hs hz
    hz1 e hq
  obtain ⟨px, vx⟩ := st (q := .x) (by decide)
  obtain ⟨py, vy⟩ := st (q := .y) (by decide)
  simp only [Body.pos, Body.vel] at px vx py vy
  have z0 : 0 < z := by
    have hW := hst.gens g (by rw [hg]; exact mem_singleton_self g)
    rw [hp] at hW
    have r1 : b1 ∈ regBodies h := by
      rcases hW with f | ⟨⟨b, hb, f⟩, _⟩
      · rw [h1] at f; cases f
      · rw [h1] at f; cases f; exact hb
    have r2 : b2 ∈ regBodies h := by
      rcases hW with f | ⟨_, f | ⟨b, hb, f⟩⟩
      · rw [h1] at f; cases f
      · rw [h2] at f; cases f
      · rw [h2] at f; cases f; exact hb
    have p1 := (hm b1 r1).1
    have p2 := (hm b2 r2).1
    rw [hz]
    positivity
  have z2 : 0 < z ^ 2 := by positivity
  have t : z ^ 3 ≤ z ^ 2 / 2 := by nlinarith
  have t4 : z ^ 4 ≤ z ^ 2 / 4 := by nlinarith [sq_nonneg z]
  have t2 : z ^ 2 ≤ 1 / 4 := by nlinarith
  have t4' : 0 < z ^ 4 := by positivity
  have t3 : 0 < z ^ 3 := by positivity
  refine ⟨?_, by linarith, by linarith⟩
  simp only [areaRate]
  rw [px, py, vx, vy]
  generalize (w.bodies b1).p_x - (w.bodies b2).p_x = D
  generalize (w.bodies b1).p_y - (w.bodies b2).p_y = D'
  generalize (w.bodies b1).v_x - (w.bodies b2).v_x = U
  generalize (w.bodies b1).v_y - (w.bodies b2).v_y = U'
  generalize p.ks * (1 / (w.bodies b1).m + 1 / (w.bodies b2).m) = κ at *
  subst hz
  ring

/-- The polynomials against the exact motion. -/
theorem order_bound (u d : ℝ) {ω dt : ℝ} (hω : 0 ≤ ω) (hdt : 0 ≤ dt) (hz1 : (ω * dt) ^ 2 ≤ 1 / 2) :
    |(1 - (ω * dt) ^ 2 / 2 + ((ω * dt) ^ 2) ^ 2 / 8 - ((ω * dt) ^ 2) ^ 3 / 48) * u -
      dt * ω ^ 2 * (1 - (ω * dt) ^ 2 / 3 + ((ω * dt) ^ 2) ^ 2 / 16 - ((ω * dt) ^ 2) ^ 3 / 96) * d -
      (u * Real.cos (ω * dt) - d * ω * Real.sin (ω * dt)) - ω ^ 4 * d * dt ^ 3 / 6| ≤
    (ω ^ 4 * |u| + ω ^ 5 * |d|) * dt ^ 4 := by
  have y0 : 0 ≤ ω * dt := mul_nonneg hω hdt
  have y1 : ω * dt ≤ 1 := by nlinarith
  have hc := Real.cos_bound (x := ω * dt) (by rw [abs_of_nonneg y0]; exact y1)
  have hsn := Real.sin_bound (x := ω * dt) (by rw [abs_of_nonneg y0]; exact y1)
  rw [abs_of_nonneg y0] at hc hsn
  generalize Real.cos (ω * dt) = C at *
  generalize Real.sin (ω * dt) = S at *
  have e1 : (1 - (ω * dt) ^ 2 / 2 + ((ω * dt) ^ 2) ^ 2 / 8 - ((ω * dt) ^ 2) ^ 3 / 48) * u -
      dt * ω ^ 2 * (1 - (ω * dt) ^ 2 / 3 + ((ω * dt) ^ 2) ^ 2 / 16 - ((ω * dt) ^ 2) ^ 3 / 96) * d -
      (u * C - d * ω * S) - ω ^ 4 * d * dt ^ 3 / 6 =
      u * ((ω * dt) ^ 4 / 8 - (ω * dt) ^ 6 / 48 - (C - (1 - (ω * dt) ^ 2 / 2))) +
        d * ω * ((S - (ω * dt - (ω * dt) ^ 3 / 6)) -
          ω * dt * ((ω * dt) ^ 4 / 16 - (ω * dt) ^ 6 / 96)) := by
    ring
  have e2 : (ω ^ 4 * |u| + ω ^ 5 * |d|) * dt ^ 4 = |u| * (ω * dt) ^ 4 + |d| * ω * (ω * dt) ^ 4 := by ring
  rw [e1, e2]
  generalize ω * dt = y at *
  generalize hC : C - (1 - y ^ 2 / 2) = C' at *
  generalize hS : S - (y - y ^ 3 / 6) = S' at *
  have y4 : 0 ≤ y ^ 4 := by positivity
  have y6 : y ^ 6 ≤ y ^ 4 := by nlinarith [mul_nonneg y4 (by nlinarith : 0 ≤ 1 - y ^ 2)]
  have y60 : 0 ≤ y ^ 6 := by positivity
  have y5 : y ^ 5 ≤ y ^ 4 := by nlinarith [mul_nonneg y4 (by linarith : 0 ≤ 1 - y)]
  have y50 : 0 ≤ y ^ 5 := by positivity
  have b1 : |y ^ 4 / 8 - y ^ 6 / 48 - C'| ≤ y ^ 4 := by
    rw [abs_le] at hc ⊢
    constructor <;> linarith [hc.1, hc.2]
  have b2 : |S' - y * (y ^ 4 / 16 - y ^ 6 / 96)| ≤ y ^ 4 := by
    have k0 : 0 ≤ y * (y ^ 4 / 16 - y ^ 6 / 96) := mul_nonneg y0 (by linarith)
    have k1 : y * (y ^ 4 / 16 - y ^ 6 / 96) ≤ 1 * (y ^ 4 / 16) :=
      mul_le_mul y1 (by linarith) (by linarith) zero_le_one
    rw [abs_le] at hsn ⊢
    constructor <;> linarith [hsn.1, hsn.2]
  refine (abs_add_le _ _).trans ?_
  rw [abs_mul, abs_mul, abs_mul, abs_of_nonneg hω]
  exact add_le_add (mul_le_mul_of_nonneg_left b1 (abs_nonneg u))
    (mul_le_mul_of_nonneg_left b2 (mul_nonneg (abs_nonneg d) hω))

/-- The exact motion: it starts at `d` with the velocity `u`, and its acceleration is `-ω ^ 2` times its
position. -/
theorem exact_pair (u d : ℝ) {ω : ℝ} (hω : ω ≠ 0) :
    (d * Real.cos (ω * 0) + u / ω * Real.sin (ω * 0) = d ∧
      u * Real.cos (ω * 0) - d * ω * Real.sin (ω * 0) = u) ∧
    ∀ t, HasDerivAt (fun t => d * Real.cos (ω * t) + u / ω * Real.sin (ω * t))
        (u * Real.cos (ω * t) - d * ω * Real.sin (ω * t)) t ∧
      HasDerivAt (fun t => u * Real.cos (ω * t) - d * ω * Real.sin (ω * t))
        (-ω ^ 2 * (d * Real.cos (ω * t) + u / ω * Real.sin (ω * t))) t := by
  refine ⟨by simp, fun t => ?_⟩
  have l : HasDerivAt (fun t => ω * t) ω t := by simpa using (hasDerivAt_id t).const_mul ω
  have c := (Real.hasDerivAt_cos (ω * t)).comp t l
  have s := (Real.hasDerivAt_sin (ω * t)).comp t l
  refine ⟨((c.const_mul d).add (s.const_mul (u / ω))).congr_deriv ?_,
    ((c.const_mul u).sub (s.const_mul (d * ω))).congr_deriv ?_⟩
  · field_simp
    ring
  · field_simp
    ring

/-- **C116**: the Runge-Kutta solver is not of fourth order. After one call `process(dt, 1)` with
`ω ^ 2 = ks * (1 / m1 + 1 / m2)` the relative velocity of the bodies differs from the one that the exact
motion on the spring has at time `dt`, namely `u * cos (ω * dt) - d * ω * sin (ω * dt)` if it starts at the
relative position `d` with the relative velocity `u`, by `ω ^ 4 * d * dt ^ 3 / 6` up to terms of order
`dt ^ 4`. -/
theorem C116_order (hG : ∀ g, G g → g.OnlyForces) (hw : World.Hist G .gen h w) (hst : w.Standard h)
    {r : Rk4 ℝ} (hode : w.ode = some (.rk4 r)) (hsync : InSync h) (hc : regCons h = ∅)
    (hm : ∀ b ∈ regBodies h, 0 < (w.bodies b).m ∧ 0 < (w.bodies b).I)
    {g : Nat} (hg : regGens h = {g}) {p : Spring ℝ} (hp : w.gens g = .spring p)
    (hH : (w.gens g).Harmonic) (hk : 0 ≤ p.ks) {b1 b2 : Nat} (h1 : p.body1 = .obj b1)
    (h2 : p.body2 = .obj b2) (hs : Straight (w.bodies b1) (w.bodies b2)) {ω : ℝ} (hω : 0 ≤ ω)
    (hω2 : ω ^ 2 = p.ks * (1 / (w.bodies b1).m + 1 / (w.bodies b2).m)) (hdt : 0 ≤ dt)
    (hz1 : (ω * dt) ^ 2 ≤ 1 / 2) (e : w.process .gen env dt 1 = .ok w') {q : Coord} (hq : q ≠ .th) :
    |((w'.bodies b1).vel q - (w'.bodies b2).vel q) -
      (((w.bodies b1).vel q - (w.bodies b2).vel q) * Real.cos (ω * dt) -
        ((w.bodies b1).pos q - (w.bodies b2).pos q) * ω * Real.sin (ω * dt)) -
      ω ^ 4 * ((w.bodies b1).pos q - (w.bodies b2).pos q) * dt ^ 3 / 6| ≤
    (ω ^ 4 * |(w.bodies b1).vel q - (w.bodies b2).vel q| +
      ω ^ 5 * |(w.bodies b1).pos q - (w.bodies b2).pos q|) * dt ^ 4 := by
  obtain ⟨-, v⟩ := C116_step hG hw hst hode hsync hc hm hg hp hH hk h1 h2 hs (z := (ω * dt) ^ 2)
    (by rw [← hω2]; ring) hz1 e hq
  rw [v, ← hω2]
  exact order_bound _ _ hω hdt hz1

/-- The circling bodies with a new Runge-Kutta solver. -/
theorem spiral_rk : ∃ h w, Spiral (.rk4 newRk4) h w ∧ InSync h := by
  obtain ⟨h, w, d⟩ := spiral (o := .newEuler) trivial
  obtain ⟨m, e, _⟩ := Store.init0_spec w.mem .ivLambda 0 0
    ((d.hist.sound divOk_real (fun g => Gen.tame)).mem.mat _)
  obtain ⟨o1, o2, _⟩ := (show (Ode.rk4 newRk4).Shipped from .inr (.inr rfl)).props
  have hh : World.Hist Gen.Shipped .gen (.init (some .ge) (some (.rk4 newRk4)) :: h)
      { w with sle := some .ge, ode := some (.rk4 newRk4), mem := m } := by
    refine .step _ d.hist (by intro o e; cases e; exact o1) ?_
    show w.genInit _ _ = _
    rw [World.genInit, e, ok_bind]
    rfl
  exact ⟨_, _, ⟨hh, d.bodies, d.gens, d.regB, d.regC, d.regG, rfl, rfl, d.new⟩,
    fun o' e => by cases e; exact o2⟩

theorem Spiral.runsRk {h : List (Op ℝ)} {w : World ℝ} (d : Spiral (.rk4 newRk4) h w) (hs : InSync h)
    (env : Env ℝ) (dt : ℝ) : ∃ w', w.process .gen env dt 1 = .ok w' :=
  d.hist.goesOde (fun g => Gen.tame) d.standard d.ode (fun f => by cases f) (fun _ => hs) (fun b hb q => by
      have := d.masses b ((d.hist.regs.bodies.mem b).mp hb)
      cases q
      · exact this.1.ne'
      · exact this.1.ne'
      · exact this.2.ne') (by rw [d.sle]; simp)
    (fun m e => by rw [d.sle]; simp) (fun _ _ => True) (fun _ _ => trivial) (fun _ _ _ _ _ _ => trivial)
    (fun _ _ _ _ q => absurd (d.hist.regs.cs_nil.mpr d.regC) q)
    (fun _ _ _ _ _ q => absurd (d.hist.regs.cs_nil.mpr d.regC) q)
    (fun _ sv f => by rw [d.sle] at f; cases f; exact (d.hist.unprocessedG d.new).1) env

theorem Spiral.straight {o : Ode ℝ} {h : List (Op ℝ)} {w : World ℝ} (d : Spiral o h w) :
    Straight (w.bodies 0) (w.bodies 1) := by
  intro t
  simp only [d.p_x, d.p_y, d.v_x, d.v_y]
  norm_num
  nlinarith [sq_nonneg t]

/-- The claims applied: one step of length 1/2 of the circling bodies. -/
example (env : Env ℝ) : ∃ (h : List (Op ℝ)) (w w' : World ℝ), World.Hist Gen.Shipped .gen h w ∧
    regBodies h = {0, 1} ∧ w.process .gen env (1 / 2) 1 = .ok w' ∧
    (w'.bodies 0).p_x - (w'.bodies 1).p_x = 197 / 256 ∧
    areaRate (w.bodies 0) (w.bodies 1) = 1 ∧ areaRate (w'.bodies 0) (w'.bodies 1) = 9123 / 9216 := by
  obtain ⟨h, w, d, hs⟩ := spiral_rk
  obtain ⟨w', e⟩ := d.runsRk hs env (1 / 2)
  have hz : (1 / 2 : ℝ) = (1 / 2) ^ 2 * (orbitSpring.ks * (1 / (w.bodies 0).m + 1 / (w.bodies 1).m)) := by
    rw [d.m, d.m, show orbitSpring.ks = 1 from rfl]
    norm_num
  have k := C116_step (fun g => Gen.tame) d.hist d.standard d.ode hs d.regC d.masses d.regG (d.gens 0)
    (d.harmonic 0) (zero_le_one (α := ℝ)) rfl rfl d.straight hz le_rfl e (q := .x) (by decide)
  have k2 := C116_brakes (fun g => Gen.tame) d.hist d.standard d.ode hs d.regC d.masses d.regG (d.gens 0)
    (d.harmonic 0) (zero_lt_one (α := ℝ)) rfl rfl d.straight (by norm_num) hz le_rfl e
  refine ⟨h, w, w', d.hist, d.regB, e, ?_, d.rate, ?_⟩
  · have := k.1
    simp only [Body.pos, Body.vel, d.p_x, d.v_x] at this
    rw [this]
    norm_num
  · rw [k2.1, d.rate]
    norm_num

/-- The error of one step of the circling bodies in the velocity along the spring: for short steps between
`dt ^ 3 / 2` and `dt ^ 3`. -/
example (env : Env ℝ) : ∃ (h : List (Op ℝ)) (w : World ℝ), World.Hist Gen.Shipped .gen h w ∧
    regBodies h = {0, 1} ∧ ∀ dt, 0 < dt → dt ≤ 1 / 100 → ∃ w', w.process .gen env dt 1 = .ok w' ∧
      1 / 2 * dt ^ 3 ≤ (w'.bodies 0).v_x - (w'.bodies 1).v_x + √2 * Real.sin (√2 * dt) ∧
      (w'.bodies 0).v_x - (w'.bodies 1).v_x + √2 * Real.sin (√2 * dt) ≤ dt ^ 3 := by
  obtain ⟨h, w, d, hs⟩ := spiral_rk
  refine ⟨h, w, d.hist, d.regB, fun dt h0 h1 => ?_⟩
  obtain ⟨w', e⟩ := d.runsRk hs env dt
  refine ⟨w', e, ?_⟩
  have s2 : √2 ^ 2 = (2 : ℝ) := Real.sq_sqrt (by norm_num)
  have k := C116_order (fun g => Gen.tame) d.hist d.standard d.ode hs d.regC d.masses d.regG (d.gens 0)
    (d.harmonic 0) (zero_le_one (α := ℝ)) rfl rfl d.straight (ω := √2) (Real.sqrt_nonneg _)
    (by rw [d.m, d.m, s2, show orbitSpring.ks = 1 from rfl]; norm_num) h0.le
    (by rw [mul_pow, s2]; nlinarith) e (q := .x) (by decide)
  have s4 : √2 ^ 4 = (4 : ℝ) := by rw [show √2 ^ 4 = (√2 ^ 2) ^ 2 by ring, s2]; norm_num
  have s5 : √2 ^ 5 = 4 * √2 := by rw [show √2 ^ 5 = √2 ^ 4 * √2 by ring, s4]
  have s1 : √2 ≤ 3 / 2 := by
    rw [Real.sqrt_le_left (by norm_num)]
    norm_num
  simp only [Body.pos, Body.vel, d.p_x, d.v_x, s4, s5] at k
  norm_num at k
  rw [abs_le] at k
  have q : dt ^ 4 ≤ dt ^ 3 / 100 := by nlinarith [pow_pos h0 3]
  have q3 := pow_pos h0 3
  have q4 := pow_pos h0 4
  have t := mul_le_mul_of_nonneg_right s1 q4.le
  constructor <;> nlinarith [k.1, k.2]

end

end Scs
