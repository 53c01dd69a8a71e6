import Verif.PropsRkSpring

/-!
# Dampers

C118: two bodies joined by a spring without stiffness between their centres, otherwise only subject to gravity.
Every sub-step multiplies their relative velocity by `1 - z`, with `z` the length of the sub-step times
`kd * (1 / m1 + 1 / m2)`. So the damper brings them to relative rest when `0 < z < 2`, and makes them run away
from each other when `z > 2`.
-/

namespace Scs

open Finset

/-- A damper between the centres of the bodies `b1` and `b2`. -/
structure Spring.Damper (p : Spring ℝ) (b1 b2 : Nat) : Prop where
  slack : p.ks = 0
  first : p.body1 = .obj b1
  second : p.body2 = .obj b2
  centre1 : p.p1_x = 0 ∧ p.p1_y = 0
  centre2 : p.p2_x = 0 ∧ p.p2_y = 0

/-- How fast the body `b` turns relative to `a`. -/
def spinOf (a b : Body ℝ) : ℝ := b.v_theta - a.v_theta

/-- Apart from `g`, the force generators of the system are gravity. -/
def OnlyGravityBut (h : List (Op ℝ)) (w : World ℝ) (g : Nat) : Prop :=
  g ∈ regGens h ∧ ∀ g' ∈ regGens h, g' = g ∨ ∃ a, w.gens g' = .gravity a

section
variable {G : Gen ℝ → Prop} {h : List (Op ℝ)} {w w' : World ℝ} {env : Env ℝ} {dt : ℝ} {steps : Int}

/-- The load is that of one generator and a common acceleration. -/
theorem OnlyGravityBut.load {cls : Cls} {g : Nat} (ho : OnlyGravityBut h w g) (r : w.Regs cls h) :
    ∃ A : Coord → ℝ, A .th = 0 ∧ ∀ x b q, w.load x b q =
      (w.gens g).load (w.bodies b).m x b q - (w.bodies b).m * A q := by
  refine ⟨fun q => ∑ g' ∈ (regGens h).erase g, match w.gens g' with
    | .gravity a => if q = .y then a else 0
    | _ => 0, ?_, fun x b q => ?_⟩
  · refine sum_eq_zero fun g' _ => ?_
    split <;> simp
  · rw [World.load, r.fg_finset, ← add_sum_erase _ _ ho.1, mul_sum, sub_eq_add_neg, ← sum_neg_distrib]
    congr 1
    refine sum_congr rfl fun g' hg' => ?_
    obtain ⟨n1, n2⟩ := mem_erase.mp hg'
    obtain ⟨a, ha⟩ := (ho.2 g' n2).resolve_left n1
    rw [ha]
    simp only [Gen.load]
    split <;> simp

theorem Spring.Damper.force {p : Spring ℝ} {b1 b2 : Nat} (d : p.Damper b1 b2) (x : Motion) :
    p.pullOn x b1 b2 = (p.kd * (x.vel b2 .x - x.vel b1 .x), p.kd * (x.vel b2 .y - x.vel b1 .y)) := by
  simp only [Spring.pullOn, springForce, hooke, Motion.pointVel, Motion.point, d.slack, d.centre1.1, d.centre1.2,
    d.centre2.1, d.centre2.2, mul_zero, sub_zero, add_zero, sub_self, zero_mul, zero_add,
    ite_self]

/-- The relative acceleration. -/
theorem Spring.Damper.brakes {cls : Cls} {p : Spring ℝ} {b1 b2 g : Nat} (d : p.Damper b1 b2)
    (ho : OnlyGravityBut h w g) (r : w.Regs cls h) (hp : w.gens g = .spring p) (hcs : w.cs = [])
    (m1 : b1 ∈ w.rb) (m2 : b2 ∈ w.rb) (n1 : (w.bodies b1).m ≠ 0) (n2 : (w.bodies b2).m ≠ 0)
    {x : Motion} {a : Nat → Coord → ℝ} {mult : Nat → Nat → ℝ}
    (acc : ∀ b ∈ w.rb, ∀ q : Coord, a b q =
      (w.load x b q + w.conForce (w.reaction x mult) b q) / (w.bodies b).mass q) {q : Coord} (hq : q ≠ .th) :
    a b1 q - a b2 q = -(p.kd * (1 / (w.bodies b1).m + 1 / (w.bodies b2).m)) *
      (x.vel b1 q - x.vel b2 q) := by
  by_cases hne : b1 = b2
  · subst hne; simp
  have z : ∀ b q, w.conForce (w.reaction x mult) b q = 0 := fun b q => by rw [World.conForce, hcs]; simp
  obtain ⟨A, -, hA⟩ := ho.load r
  rw [acc b1 m1, acc b2 m2, z, z, hA, hA, hp]
  cases q with
  | th => exact absurd rfl hq
  | x =>
    simp only [Gen.load, d.first, d.second, hne, Ne.symm hne, if_true, if_false, Motion.wrench, d.force, Prod.fst_neg,
      Body.mass]
    field_simp
    ring
  | y =>
    simp only [Gen.load, d.first, d.second, hne, Ne.symm hne, if_true, if_false, Motion.wrench, d.force, Prod.snd_neg,
      Body.mass]
    field_simp
    ring

/-- One sub-step. -/
theorem Spring.Damper.slows {cls : Cls} {p : Spring ℝ} {b1 b2 g : Nat} (d : p.Damper b1 b2)
    (ho : OnlyGravityBut h w g) (r : w.Regs cls h) (hp : w.gens g = .spring p) (hcs : w.cs = [])
    (m1 : b1 ∈ w.rb) (m2 : b2 ∈ w.rb) (n1 : (w.bodies b1).m ≠ 0) (n2 : (w.bodies b2).m ≠ 0) {s : ℝ}
    {x x' : Motion} {mult : Nat → Nat → ℝ}
    (acc : ∀ b ∈ w.rb, ∀ q : Coord, x'.acc b q =
      (w.load x b q + w.conForce (w.reaction x mult) b q) / (w.bodies b).mass q)
    (vel : ∀ b ∈ w.rb, ∀ q : Coord, x'.vel b q = x.vel b q + s * x'.acc b q) {q : Coord} (hq : q ≠ .th) :
    x'.vel b1 q - x'.vel b2 q = (1 - s * (p.kd * (1 / (w.bodies b1).m + 1 / (w.bodies b2).m))) *
      (x.vel b1 q - x.vel b2 q) := by
  rw [vel b1 m1, vel b2 m2]
  linear_combination s * d.brakes ho r hp hcs m1 m2 n1 n2 acc hq

theorem Spring.Damper.within {p : Spring ℝ} {b1 b2 g : Nat} (d : p.Damper b1 b2) (hst : w.Standard h)
    (hg : g ∈ regGens h) (hp : w.gens g = .spring p) : b1 ∈ regBodies h ∧ b2 ∈ regBodies h := by
  have hW := hst.gens g hg
  rw [hp] at hW
  rcases hW with f | ⟨⟨b, hb, f⟩, f' | ⟨b', hb', f'⟩⟩
  · rw [d.first] at f; cases f
  · rw [d.second] at f'; cases f'
  · rw [d.first] at f; rw [d.second] at f'; cases f; cases f'; exact ⟨hb, hb'⟩

/-- **C118** (optimised system): two bodies joined by a damper between their centres, no constraints, otherwise
only gravity: a call of `process` multiplies both components of their relative velocity by `1 - z` for every
sub-step, `z` being the length of the sub-step times `kd * (1 / m1 + 1 / m2)`. -/
theorem C118_decay (hG : ∀ g, G g → g.OnlyForces) (hw : World.Hist G .opt h w)
    (hst : w.Standard h) (hc : regCons h = ∅) {g : Nat} (ho : OnlyGravityBut h w g) {p : Spring ℝ}
    (hp : w.gens g = .spring p) {b1 b2 : Nat} (d : p.Damper b1 b2)
    (e : w.process .opt env dt steps = .ok w') {z : ℝ}
    (hz : z = dt / steps * (p.kd * (1 / (w.bodies b1).m + 1 / (w.bodies b2).m))) :
    (w'.bodies b1).v_x - (w'.bodies b2).v_x =
      (1 - z) ^ steps.toNat * ((w.bodies b1).v_x - (w.bodies b2).v_x) ∧
    (w'.bodies b1).v_y - (w'.bodies b2).v_y =
      (1 - z) ^ steps.toNat * ((w.bodies b1).v_y - (w.bodies b2).v_y) := by
  obtain ⟨X, mult, h0, hM⟩ := hw.moved hG hst e
  have r := hw.regs
  obtain ⟨r1, r2⟩ := d.within hst ho.1 hp
  have m1 := (r.bodies.mem b1).mpr r1
  have m2 := (r.bodies.mem b2).mpr r2
  have key : ∀ q : Coord, q ≠ .th → ∀ j, j ≤ steps.toNat → (X j).vel b1 q - (X j).vel b2 q =
      (1 - z) ^ j * ((w.bodies b1).vel q - (w.bodies b2).vel q) := by
    intro q hq j
    induction j with
    | zero => intro _; rw [h0, pow_zero, one_mul]; rfl
    | succ j ih =>
      intro hj
      have st := hM.step j (by omega)
      rw [d.slows ho r hp (r.cs_nil.mpr hc) m1 m2 (hM.mass b1 m1 .x) (hM.mass b2 m2 .x) st.acc st.vel hq,
        ih (by omega), hz]
      ring
  have l1 := hM.last b1 m1
  have l2 := hM.last b2 m2
  constructor
  · have k := key .x (by decide) _ le_rfl
    rwa [(l1 .x).2, (l2 .x).2] at k
  · have k := key .y (by decide) _ le_rfl
    rwa [(l1 .y).2, (l2 .y).2] at k

/-- **C118** (generic system): the same with the explicit and the semi-implicit solver. -/
theorem C118_decay_generic (hG : ∀ g, G g → g.OnlyForces) (hw : World.Hist G .gen h w)
    (hst : w.Standard h) {o : Ode ℝ} {sym : Bool} (hode : w.ode = some o) (hsym : o.isSym sym)
    (hc : regCons h = ∅) {g : Nat} (ho : OnlyGravityBut h w g) {p : Spring ℝ}
    (hp : w.gens g = .spring p) {b1 b2 : Nat} (d : p.Damper b1 b2)
    (e : w.process .gen env dt steps = .ok w') {z : ℝ}
    (hz : z = dt / steps * (p.kd * (1 / (w.bodies b1).m + 1 / (w.bodies b2).m))) :
    (w'.bodies b1).v_x - (w'.bodies b2).v_x =
      (1 - z) ^ steps.toNat * ((w.bodies b1).v_x - (w.bodies b2).v_x) ∧
    (w'.bodies b1).v_y - (w'.bodies b2).v_y =
      (1 - z) ^ steps.toNat * ((w.bodies b1).v_y - (w.bodies b2).v_y) := by
  obtain ⟨X, mult, _, h0, hM⟩ := hw.gmoved hG hst hode hsym e
  have r := hw.regs
  obtain ⟨r1, r2⟩ := d.within hst ho.1 hp
  have m1 := (r.bodies.mem b1).mpr r1
  have m2 := (r.bodies.mem b2).mpr r2
  have key : ∀ q : Coord, q ≠ .th → ∀ j, j ≤ steps.toNat → (X j).vel b1 q - (X j).vel b2 q =
      (1 - z) ^ j * ((w.bodies b1).vel q - (w.bodies b2).vel q) := by
    intro q hq j
    induction j with
    | zero => intro _; rw [h0, pow_zero, one_mul]; rfl
    | succ j ih =>
      intro hj
      have st := hM.step j (by omega)
      rw [d.slows ho r hp (r.cs_nil.mpr hc) m1 m2 (hM.mass b1 m1 .x) (hM.mass b2 m2 .x) st.acc.newton st.vel hq,
        ih (by omega), hz]
      ring
  have l1 := hM.last b1 m1
  have l2 := hM.last b2 m2
  constructor
  · have k := key .x (by decide) _ le_rfl
    rwa [(l1 .x).2, (l2 .x).2] at k
  · have k := key .y (by decide) _ le_rfl
    rwa [(l1 .y).2, (l2 .y).2] at k

/-- The size of the relative velocity of two bodies. -/
noncomputable def slipSpeed (a b : Body ℝ) : ℝ := √((a.v_x - b.v_x) ^ 2 + (a.v_y - b.v_y) ^ 2)

theorem slipSpeed_scale {a b a' b' : Body ℝ} {c : ℝ} (hx : a'.v_x - b'.v_x = c * (a.v_x - b.v_x))
    (hy : a'.v_y - b'.v_y = c * (a.v_y - b.v_y)) : slipSpeed a' b' = |c| * slipSpeed a b := by
  rw [slipSpeed, hx, hy, mul_pow, mul_pow, ← mul_add, Real.sqrt_mul (sq_nonneg _), Real.sqrt_sq_eq_abs, ← slipSpeed]

/-- **C118** (generic system, Runge-Kutta): every sub-step multiplies the relative velocity by
`1 - z + z ^ 2 / 2 - z ^ 3 / 6 + z ^ 4 / 24`, so it is never reversed; it is reduced when `0 < z ≤ 2.7` and grows when
`z ≥ 2.8`. -/
theorem C118_runge_kutta (hG : ∀ g, G g → g.OnlyForces) (hw : World.Hist G .gen h w)
    (hst : w.Standard h) {rk : Rk4 ℝ} (hode : w.ode = some (.rk4 rk)) (hsync : InSync h)
    (hc : regCons h = ∅) {g : Nat} (ho : OnlyGravityBut h w g) {p : Spring ℝ}
    (hp : w.gens g = .spring p) {b1 b2 : Nat} (d : p.Damper b1 b2)
    (e : w.process .gen env dt steps = .ok w') {z : ℝ}
    (hz : z = dt / steps * (p.kd * (1 / (w.bodies b1).m + 1 / (w.bodies b2).m))) :
    ((w'.bodies b1).v_x - (w'.bodies b2).v_x =
      (1 - z + z ^ 2 / 2 - z ^ 3 / 6 + z ^ 4 / 24) ^ steps.toNat * ((w.bodies b1).v_x - (w.bodies b2).v_x) ∧
    (w'.bodies b1).v_y - (w'.bodies b2).v_y =
      (1 - z + z ^ 2 / 2 - z ^ 3 / 6 + z ^ 4 / 24) ^ steps.toNat * ((w.bodies b1).v_y - (w.bodies b2).v_y)) ∧
    0 < 1 - z + z ^ 2 / 2 - z ^ 3 / 6 + z ^ 4 / 24 ∧
    (0 < z → z ≤ 27 / 10 → 0 < steps → slipSpeed (w.bodies b1) (w.bodies b2) ≠ 0 →
      slipSpeed (w'.bodies b1) (w'.bodies b2) < slipSpeed (w.bodies b1) (w.bodies b2)) ∧
    (14 / 5 ≤ z → 0 < steps → slipSpeed (w.bodies b1) (w.bodies b2) ≠ 0 →
      slipSpeed (w.bodies b1) (w.bodies b2) < slipSpeed (w'.bodies b1) (w'.bodies b2)) := by
  obtain ⟨X, hM⟩ := hw.ode_moved hG hst hode (fun f => by cases f) (fun _ => hsync) e
  have r := hw.regs
  obtain ⟨r1, r2⟩ := d.within hst ho.1 hp
  have m1 := (r.bodies.mem b1).mpr r1
  have m2 := (r.bodies.mem b2).mpr r2
  have key : ∀ q : Coord, q ≠ .th → ∀ j, j ≤ steps.toNat → (X j).vel b1 q - (X j).vel b2 q =
      (1 - z + z ^ 2 / 2 - z ^ 3 / 6 + z ^ 4 / 24) ^ j * ((w.bodies b1).vel q - (w.bodies b2).vel q) := by
    intro q hq j
    induction j with
    | zero => intro _; rw [hM.first, pow_zero, one_mul]; rfl
    | succ j ih =>
      intro hj
      obtain ⟨a, mult, st⟩ := hM.step j (by omega)
      have br := fun {x : Motion} {a : Nat → Coord → ℝ} {mult : Nat → Nat → ℝ} (s : w.Accel x a mult) =>
        d.brakes ho r hp (r.cs_nil.mpr hc) m1 m2 (hM.mass b1 m1 .x) (hM.mass b2 m2 .x) s.newton hq
      have k1 := br st.acc1
      have k2 := br st.acc2
      have k3 := br st.acc3
      have k4 := br st.acc4
      simp only [Motion.ahead] at k2 k3 k4
      have i := ih (by omega)
      rw [pow_succ, mul_right_comm, ← i, st.vel b1 m1, st.vel b2 m2, hz]
      generalize p.kd * (1 / (w.bodies b1).m + 1 / (w.bodies b2).m) = κ at *
      generalize dt / (steps : ℝ) = s at *
      have u1 : a 1 b1 q = a 1 b2 q + -κ * ((X j).vel b1 q - (X j).vel b2 q) := by linear_combination k1
      have u2 : a 2 b1 q = a 2 b2 q + -κ * (((X j).vel b1 q + s / 2 * a 1 b1 q) -
        ((X j).vel b2 q + s / 2 * a 1 b2 q)) := by linear_combination k2
      have u3 : a 3 b1 q = a 3 b2 q + -κ * (((X j).vel b1 q + s / 2 * a 2 b1 q) -
        ((X j).vel b2 q + s / 2 * a 2 b2 q)) := by linear_combination k3
      have u4 : a 4 b1 q = a 4 b2 q + -κ * (((X j).vel b1 q + s * a 3 b1 q) -
        ((X j).vel b2 q + s * a 3 b2 q)) := by linear_combination k4
      rw [u4, u3, u2, u1]
      ring
  have l1 := hM.last b1 m1
  have l2 := hM.last b2 m2
  have vx := key .x (by decide) _ le_rfl
  have vy := key .y (by decide) _ le_rfl
  rw [(l1 .x).2, (l2 .x).2] at vx
  rw [(l1 .y).2, (l2 .y).2] at vy
  have pos : 0 < 1 - z + z ^ 2 / 2 - z ^ 3 / 6 + z ^ 4 / 24 := by
    nlinarith [sq_nonneg (z ^ 2 - 2 * z), sq_nonneg (z - 2), sq_nonneg (z ^ 2 - 2 * z - 1)]
  have sc := slipSpeed_scale vx vy
  refine ⟨⟨vx, vy⟩, pos, fun z0 z1 s0 hv => ?_, fun z1 s0 hv => ?_⟩
  · have v0 : 0 < slipSpeed (w.bodies b1) (w.bodies b2) := lt_of_le_of_ne (Real.sqrt_nonneg _) (Ne.symm hv)
    have lt : 1 - z + z ^ 2 / 2 - z ^ 3 / 6 + z ^ 4 / 24 < 1 := by
      have : 0 < z * (1 - z / 2 + z ^ 2 / 6 - z ^ 3 / 24) := mul_pos z0 (by
        nlinarith [sq_nonneg (z - 2), mul_nonneg z0.le (sub_nonneg.mpr z1), sq_nonneg z,
          mul_nonneg (sq_nonneg z) (sub_nonneg.mpr z1)])
      nlinarith
    rw [sc, abs_of_pos (pow_pos pos _)]
    have := pow_lt_one₀ pos.le lt (n := steps.toNat) (by omega)
    nlinarith
  · have v0 : 0 < slipSpeed (w.bodies b1) (w.bodies b2) := lt_of_le_of_ne (Real.sqrt_nonneg _) (Ne.symm hv)
    have lt : 1 < 1 - z + z ^ 2 / 2 - z ^ 3 / 6 + z ^ 4 / 24 := by
      have : 0 < z * (-1 + z / 2 - z ^ 2 / 6 + z ^ 3 / 24) := mul_pos (by linarith) (by
        nlinarith [sq_nonneg (z - 2), sq_nonneg z,
          mul_nonneg (sq_nonneg z) (sub_nonneg.mpr z1)])
      nlinarith
    rw [sc, abs_of_pos (pow_pos pos _)]
    have := one_lt_pow₀ lt (n := steps.toNat) (by omega)
    nlinarith

/-- The relative velocity after `n` calls. -/
theorem damper_calls (hG : ∀ g, G g → g.OnlyForces) (hw : World.Hist G .opt h w)
    (hst : w.Standard h) (hc : regCons h = ∅) (hsle : w.sle = some .ge) (hnew : processedDts h = [])
    (hm : ∀ b ∈ regBodies h, (w.bodies b).m ≠ 0 ∧ (w.bodies b).I ≠ 0) (hdt : dt ≠ 0)
    {g : Nat} (ho : OnlyGravityBut h w g) {p : Spring ℝ}
    (hp : w.gens g = .spring p) {b1 b2 : Nat} (d : p.Damper b1 b2) {z : ℝ}
    (hz : z = dt * (p.kd * (1 / (w.bodies b1).m + 1 / (w.bodies b2).m)))
    (envs : Nat → Env ℝ) (n : Nat) :
    (w.calls envs dt n).process .opt (envs n) dt 1 = .ok (w.calls envs dt (n + 1)) ∧
    slipSpeed ((w.calls envs dt n).bodies b1) ((w.calls envs dt n).bodies b2) =
      |1 - z| ^ n * slipSpeed (w.bodies b1) (w.bodies b2) := by
  refine ⟨(calls_succeed hG hw hst hc hm hdt hsle hnew envs n).1, ?_⟩
  induction n with
  | zero => rw [pow_zero, one_mul]; rfl
  | succ n ih =>
    obtain ⟨en, h', a, k1, k2, k3, st, mv⟩ := calls_succeed hG hw hst hc hm hdt hsle hnew envs n
    have ho' : OnlyGravityBut h' (w.calls envs dt n) g := by
      refine ⟨k3 ▸ ho.1, fun g' hg' => ?_⟩
      rw [mv.gens]
      exact ho.2 g' (k3 ▸ hg')
    obtain ⟨x, y⟩ := C118_decay hG a st (k2.trans hc) ho' (by rw [mv.gens]; exact hp) d en (z := z)
      (by rw [mv.mass, mv.mass, hz]; simp)
    have t : Int.toNat 1 = 1 := rfl
    rw [t, pow_one] at x y
    rw [slipSpeed_scale x y, ih, pow_succ]
    ring

open Filter in
/-- **C118**: when `0 < dt * kd * (1 / m1 + 1 / m2) < 2` the bodies come to rest relative to each other: every one
of infinitely many calls `process(dt, 1)` succeeds and their relative speed tends to zero. -/
theorem C118_comes_to_rest (hG : ∀ g, G g → g.OnlyForces) (hw : World.Hist G .opt h w)
    (hst : w.Standard h) (hc : regCons h = ∅) (hsle : w.sle = some .ge) (hnew : processedDts h = [])
    (hm : ∀ b ∈ regBodies h, (w.bodies b).m ≠ 0 ∧ (w.bodies b).I ≠ 0)
    {g : Nat} (ho : OnlyGravityBut h w g) {p : Spring ℝ}
    (hp : w.gens g = .spring p) {b1 b2 : Nat} (d : p.Damper b1 b2)
    (z0 : 0 < dt * (p.kd * (1 / (w.bodies b1).m + 1 / (w.bodies b2).m)))
    (z2 : dt * (p.kd * (1 / (w.bodies b1).m + 1 / (w.bodies b2).m)) < 2) (envs : Nat → Env ℝ) :
    (∀ n, (w.calls envs dt n).process .opt (envs n) dt 1 = .ok (w.calls envs dt (n + 1))) ∧
    Tendsto (fun n => slipSpeed ((w.calls envs dt n).bodies b1) ((w.calls envs dt n).bodies b2)) atTop
      (nhds 0) := by
  have hdt : dt ≠ 0 := by rintro rfl; simp at z0
  have key := fun n => damper_calls hG hw hst hc hsle hnew hm hdt ho hp d rfl envs n
  refine ⟨fun n => (key n).1, ?_⟩
  simp only [fun n => (key n).2]
  have := (tendsto_pow_atTop_nhds_zero_of_lt_one (abs_nonneg (1 - dt * (p.kd * (1 / (w.bodies b1).m +
    1 / (w.bodies b2).m)))) (abs_lt.mpr ⟨by linarith, by linarith⟩)).mul_const
    (slipSpeed (w.bodies b1) (w.bodies b2))
  rwa [zero_mul] at this

open Filter in
/-- **C118**: when `dt * kd * (1 / m1 + 1 / m2) > 2` the damper drives the bodies: unless they are at relative rest
their relative speed grows beyond every bound. -/
theorem C118_runs_away (hG : ∀ g, G g → g.OnlyForces) (hw : World.Hist G .opt h w)
    (hst : w.Standard h) (hc : regCons h = ∅) (hsle : w.sle = some .ge) (hnew : processedDts h = [])
    (hm : ∀ b ∈ regBodies h, (w.bodies b).m ≠ 0 ∧ (w.bodies b).I ≠ 0)
    {g : Nat} (ho : OnlyGravityBut h w g) {p : Spring ℝ}
    (hp : w.gens g = .spring p) {b1 b2 : Nat} (d : p.Damper b1 b2)
    (z2 : 2 < dt * (p.kd * (1 / (w.bodies b1).m + 1 / (w.bodies b2).m)))
    (hv : slipSpeed (w.bodies b1) (w.bodies b2) ≠ 0) (envs : Nat → Env ℝ) :
    (∀ n, (w.calls envs dt n).process .opt (envs n) dt 1 = .ok (w.calls envs dt (n + 1))) ∧
    Tendsto (fun n => slipSpeed ((w.calls envs dt n).bodies b1) ((w.calls envs dt n).bodies b2)) atTop atTop := by
  have hdt : dt ≠ 0 := by rintro rfl; norm_num at z2
  have key := fun n => damper_calls hG hw hst hc hsle hnew hm hdt ho hp d rfl envs n
  refine ⟨fun n => (key n).1, ?_⟩
  simp only [fun n => (key n).2]
  refine (tendsto_pow_atTop_atTop_of_one_lt ?_).atTop_mul_const
    (lt_of_le_of_ne (Real.sqrt_nonneg _) (Ne.symm hv))
  rw [abs_of_neg (by linarith)]
  linarith

/-- Two bodies of mass one, the first one moving. -/
noncomputable def slipBody (b : Nat) : Body ℝ :=
  ⟨0, 0, if b = 0 then 3 else 0, if b = 0 then 4 else 0, 0, 0, 1, 1, -1⟩

/-- A damper between the bodies 0 and 1. -/
def damper (k : ℝ) : Spring ℝ := ⟨0, 0, k, 0, 0, 0, 0, .obj 0, .obj 1⟩

theorem damper_is (k : ℝ) : (damper k).Damper 0 1 := ⟨rfl, rfl, rfl, ⟨rfl, rfl⟩, rfl, rfl⟩

/-- A system with the damper and gravity. -/
theorem demo_damper (k : ℝ) : ∃ (h : List (Op ℝ)) (w : World ℝ), World.Hist Gen.Shipped .opt h w ∧
    w.Standard h ∧ regCons h = ∅ ∧ w.sle = some .ge ∧ processedDts h = [] ∧ OnlyGravityBut h w 0 ∧
    regGens h = {0, 1} ∧ w.gens 0 = .spring (damper k) ∧ (∀ b, (w.bodies b).m = 1) ∧ (∀ b, (w.bodies b).I = 1) ∧
    slipSpeed (w.bodies 0) (w.bodies 1) = 5 := by
  obtain ⟨h, w, h1, h2, h3, h4, h5, h6, h7, h8⟩ := build (G := Gen.Shipped) slipBody (demoCon .base)
    (gens := fun g => if g = 0 then .spring (damper k) else .gravity 10)
    (fun g => by by_cases hg : g = 0 <;> simp only [hg, if_true, if_false] <;> trivial)
    (rb := [0, 1]) (cs := []) (fg := [0, 1])
    (by decide) (by decide) (by decide) (some .ge) (fun _ _ => 0) (fun _ _ => 0)
  have rB : regBodies h = {0, 1} := by rw [h3]; rfl
  have rC : regCons h = ∅ := by rw [h4]; rfl
  have rG : regGens h = {0, 1} := by rw [h5]; rfl
  have gens : ∀ g, w.gens g = if g = 0 then .spring (damper k) else .gravity 10 := fun g => by rw [h2.gens]
  refine ⟨h, w, h1, ⟨fun c hc => ?_, fun c hc => ?_, fun g hg => ?_, fun c hc => ?_⟩, rC, h7, h8,
    ⟨by rw [rG]; simp, fun g hg => ?_⟩, rG, gens 0, fun b => congrArg Body.m (h2.bodies b),
    fun b => congrArg Body.I (h2.bodies b), ?_⟩
  · rw [rC] at hc; simp at hc
  · rw [rC] at hc; simp at hc
  · rw [gens, rB]
    split
    · exact .inr ⟨⟨0, by simp, rfl⟩, .inr ⟨1, by simp, rfl⟩⟩
    · trivial
  · rw [rC] at hc; simp at hc
  · rw [rG, mem_insert, mem_singleton] at hg
    rcases hg with rfl | rfl
    · exact .inl rfl
    · exact .inr ⟨10, gens 1⟩
  · have vx : ∀ b, (w.bodies b).v_x = if b = 0 then 3 else 0 := fun b => congrArg Body.v_x (h2.bodies b)
    have vy : ∀ b, (w.bodies b).v_y = if b = 0 then 4 else 0 := fun b => congrArg Body.v_y (h2.bodies b)
    rw [slipSpeed, vx, vx, vy, vy, show (((if (0 : Nat) = 0 then (3 : ℝ) else 0) - if (1 : Nat) = 0 then 3 else 0) ^ 2 +
      ((if (0 : Nat) = 0 then (4 : ℝ) else 0) - if (1 : Nat) = 0 then 4 else 0) ^ 2) = 5 ^ 2 by norm_num]
    exact Real.sqrt_sq (by norm_num)

open Filter in
/-- The claims applied: with a damping of one half and time steps of one the bodies stop at once, with one of three
halves they run away. -/
example : (∃ (h : List (Op ℝ)) (w : World ℝ), World.Hist Gen.Shipped .opt h w ∧
      slipSpeed (w.bodies 0) (w.bodies 1) = 5 ∧ ∀ env, ∃ w', w.process .opt env 1 1 = .ok w' ∧
      (w'.bodies 0).v_x - (w'.bodies 1).v_x = 0) ∧
    (∃ (h : List (Op ℝ)) (w : World ℝ), World.Hist Gen.Shipped .opt h w ∧ ∀ envs, Tendsto (fun n =>
      slipSpeed ((w.calls envs 1 n).bodies 0) ((w.calls envs 1 n).bodies 1)) atTop (nhds 0)) ∧
    ∃ (h : List (Op ℝ)) (w : World ℝ), World.Hist Gen.Shipped .opt h w ∧ ∀ envs, Tendsto (fun n =>
      slipSpeed ((w.calls envs 1 n).bodies 0) ((w.calls envs 1 n).bodies 1)) atTop atTop := by
  refine ⟨?_, ?_, ?_⟩
  · obtain ⟨h, w, hw, hst, hc, hs, hn, ho, hg, hp, hm, hI, hv⟩ := demo_damper (1 / 2)
    have hmm : ∀ b ∈ regBodies h, (w.bodies b).m ≠ 0 ∧ (w.bodies b).I ≠ 0 := fun b _ => by
      rw [hm, hI]; exact ⟨one_ne_zero, one_ne_zero⟩
    refine ⟨h, w, hw, hv, fun env => ?_⟩
    have e := (calls_succeed (fun g => Gen.tame) hw hst hc hmm one_ne_zero hs hn (fun _ => env) 0).1
    refine ⟨_, e, ?_⟩
    have := (C118_decay (fun g => Gen.tame) hw hst hc ho hp (damper_is _) e (z := 1)
      (by rw [hm, hm]; norm_num [damper])).1
    rw [this]
    have t : Int.toNat 1 = 1 := rfl
    rw [t]
    norm_num
  · obtain ⟨h, w, hw, hst, hc, hs, hn, ho, hg, hp, hm, hI, hv⟩ := demo_damper (1 / 2)
    have hmm : ∀ b ∈ regBodies h, (w.bodies b).m ≠ 0 ∧ (w.bodies b).I ≠ 0 := fun b _ => by
      rw [hm, hI]; exact ⟨one_ne_zero, one_ne_zero⟩
    exact ⟨h, w, hw, fun envs => (C118_comes_to_rest (fun g => Gen.tame) hw hst hc hs hn hmm ho hp (damper_is _)
      (by rw [hm, hm]; norm_num [damper]) (by rw [hm, hm]; norm_num [damper]) envs).2⟩
  · obtain ⟨h, w, hw, hst, hc, hs, hn, ho, hg, hp, hm, hI, hv⟩ := demo_damper (3 / 2)
    have hmm : ∀ b ∈ regBodies h, (w.bodies b).m ≠ 0 ∧ (w.bodies b).I ≠ 0 := fun b _ => by
      rw [hm, hI]; exact ⟨one_ne_zero, one_ne_zero⟩
    exact ⟨h, w, hw, fun envs => (C118_runs_away (fun g => Gen.tame) hw hst hc hs hn hmm ho hp (damper_is _)
      (by rw [hm, hm]; norm_num [damper]) (by rw [hv]; norm_num) envs).2⟩

/-- A generic system with the two bodies and one force generator. -/
structure Slip (g : Gen ℝ) (o : Ode ℝ) (h : List (Op ℝ)) (w : World ℝ) : Prop where
  hist : World.Hist Gen.Shipped .gen h w
  bodies : ∀ b, { w.bodies b with index := -1 } = slipBody b
  gens : ∀ i, w.gens i = g
  regB : regBodies h = {0, 1}
  regC : regCons h = ∅
  regG : regGens h = {0}
  sle : w.sle = some .ge
  ode : w.ode = some o
  new : processedDts h = []

theorem slip {g : Gen ℝ} (hg : g.Shipped) {o : Ode ℝ} (ho : o.Idle) : ∃ h w, Slip g o h w := by
  obtain ⟨h, w, h1, h2, h3, h4, h5, h6, h7, h8, h9⟩ := buildG (G := Gen.Shipped) slipBody (demoCon .base)
    (gens := fun _ => g) (fun _ => hg) (rb := [0, 1]) (cs := []) (fg := [0])
    (by decide) (by decide) (by decide) (some .ge) (some o) (fun o' e => by cases e; exact ho)
    (fun _ _ => 0) (fun _ _ => 0)
  exact ⟨h, w, h1, h2.bodies, fun i => by rw [h2.gens], by rw [h3]; rfl, by rw [h4]; rfl, by rw [h5]; rfl, h7, h8, h9⟩

theorem slip_rk {g : Gen ℝ} (hg : g.Shipped) : ∃ h w, Slip g (.rk4 newRk4) h w ∧ InSync h := by
  obtain ⟨h, w, d⟩ := slip hg (o := .newEuler) trivial
  obtain ⟨m, e, _⟩ := Store.init0_spec w.mem .ivLambda 0 0
    ((d.hist.sound divOk_real (fun g => Gen.tame)).mem.mat _)
  obtain ⟨o1, o2, _⟩ := (show (Ode.rk4 newRk4).Shipped from .inr (.inr rfl)).props
  have hh : World.Hist Gen.Shipped .gen (.init (some .ge) (some (.rk4 newRk4)) :: h)
      { w with sle := some .ge, ode := some (.rk4 newRk4), mem := m } := by
    refine .step _ d.hist (by intro o e; cases e; exact o1) ?_
    show w.genInit _ _ = _
    rw [World.genInit, e, ok_bind]
    rfl
  exact ⟨_, _, ⟨hh, d.bodies, d.gens, d.regB, d.regC, d.regG, rfl, rfl, d.new⟩,
    fun o' e => by cases e; exact o2⟩

namespace Slip
variable {g : Gen ℝ} {o : Ode ℝ} (d : Slip g o h w)
include d

theorem m (b : Nat) : (w.bodies b).m = 1 := congrArg Body.m (d.bodies b)
theorem I (b : Nat) : (w.bodies b).I = 1 := congrArg Body.I (d.bodies b)
theorem v_x (b : Nat) : (w.bodies b).v_x = if b = 0 then 3 else 0 := congrArg Body.v_x (d.bodies b)
theorem v_y (b : Nat) : (w.bodies b).v_y = if b = 0 then 4 else 0 := congrArg Body.v_y (d.bodies b)
theorem v_theta (b : Nat) : (w.bodies b).v_theta = 0 := congrArg Body.v_theta (d.bodies b)

theorem apart : (w.bodies 0).v_x - (w.bodies 1).v_x = 3 := by rw [d.v_x, d.v_x]; norm_num

theorem spin : spinOf (w.bodies 0) (w.bodies 1) = 0 := by rw [spinOf, d.v_theta, d.v_theta, sub_self]

theorem speed : slipSpeed (w.bodies 0) (w.bodies 1) = 5 := by
  rw [slipSpeed, d.v_x, d.v_x, d.v_y, d.v_y,
    show (((if (0 : Nat) = 0 then (3 : ℝ) else 0) - if (1 : Nat) = 0 then 3 else 0) ^ 2 +
      ((if (0 : Nat) = 0 then (4 : ℝ) else 0) - if (1 : Nat) = 0 then 4 else 0) ^ 2) = 5 ^ 2 by norm_num]
  exact Real.sqrt_sq (by norm_num)

theorem only : OnlyGravityBut h w 0 :=
  ⟨by rw [d.regG]; simp, fun i hi => by rw [d.regG, mem_singleton] at hi; exact .inl hi⟩

theorem standard (hW : g.Within (· ∈ ({0, 1} : Finset Nat))) : w.Standard h := by
  refine ⟨fun c hc => ?_, fun c hc => ?_, fun i _ => ?_, fun c hc => ?_⟩
  · rw [d.regC] at hc; simp at hc
  · rw [d.regC] at hc; simp at hc
  · rw [d.gens, d.regB]
    exact hW
  · rw [d.regC] at hc; simp at hc

theorem runs (hW : g.Within (· ∈ ({0, 1} : Finset Nat))) (ho : o.sort ≠ 0) (hs : o.sort = 3 → InSync h)
    (env : Env ℝ) (dt : ℝ) (steps : Int) : ∃ w', w.process .gen env dt steps = .ok w' :=
  d.hist.goesOde (fun g => Gen.tame) (d.standard hW) d.ode ho hs (fun b hb q => by
      cases q
      · show (w.bodies b).m ≠ 0; rw [d.m]; exact one_ne_zero
      · show (w.bodies b).m ≠ 0; rw [d.m]; exact one_ne_zero
      · show (w.bodies b).I ≠ 0; rw [d.I]; exact one_ne_zero) (by rw [d.sle]; simp)
    (fun m e => by rw [d.sle]; simp) (fun _ _ => True) (fun _ _ => trivial) (fun _ _ _ _ _ _ => trivial)
    (fun _ _ _ _ q => absurd (d.hist.regs.cs_nil.mpr d.regC) q)
    (fun _ _ _ _ _ q => absurd (d.hist.regs.cs_nil.mpr d.regC) q)
    (fun _ sv f => by rw [d.sle] at f; cases f; exact (d.hist.unprocessedG d.new).1) env

end Slip

theorem damper_within (k : ℝ) : (Gen.spring (damper k)).Within (· ∈ ({0, 1} : Finset Nat)) :=
  .inr ⟨⟨0, by simp, rfl⟩, .inr ⟨1, by simp, rfl⟩⟩

/-- The claim on the generic system applied, with the explicit and the semi-implicit solver: three sub-steps of length
one with a damping of one reverse the relative velocity three times. -/
example (env : Env ℝ) : ∀ o sym, (o = Ode.newEuler ∧ sym = false ∨ o = Ode.newNsv ∧ sym = true) →
    ∃ (h : List (Op ℝ)) (w w' : World ℝ), World.Hist Gen.Shipped .gen h w ∧ w.ode = some o ∧
      w.process .gen env 3 3 = .ok w' ∧ (w.bodies 0).v_x - (w.bodies 1).v_x = 3 ∧
      (w'.bodies 0).v_x - (w'.bodies 1).v_x = -3 := by
  intro o sym hos
  have idle : o.Idle := by rcases hos with ⟨rfl, -⟩ | ⟨rfl, -⟩ <;> trivial
  have hsym : o.isSym sym := by rcases hos with ⟨rfl, rfl⟩ | ⟨rfl, rfl⟩ <;> rfl
  obtain ⟨h, w, d⟩ := slip (g := .spring (damper 1)) trivial idle
  have hst := d.standard (damper_within 1)
  obtain ⟨w', e⟩ := d.runs (damper_within 1) (by rcases hos with ⟨rfl, -⟩ | ⟨rfl, -⟩ <;> decide)
    (by rcases hos with ⟨rfl, -⟩ | ⟨rfl, -⟩ <;> (intro f; cases f)) env 3 3
  refine ⟨h, w, w', d.hist, d.ode, e, d.apart, ?_⟩
  rw [(C118_decay_generic (fun g => Gen.tame) d.hist hst d.ode hsym d.regC d.only (d.gens 0) (damper_is 1) e (z := 2)
    (by rw [d.m, d.m]; norm_num [damper])).1, d.apart]
  have t : Int.toNat 3 = 3 := rfl
  rw [t]
  norm_num

/-- The claim on Runge-Kutta applied: one sub-step of length one with a damping of one reduces the relative velocity from
three to one, with a damping of two increases it to fifteen. -/
example (env : Env ℝ) : ∀ k r, (k = 1 ∧ r = 1 ∨ k = 2 ∧ r = 15) →
    ∃ (h : List (Op ℝ)) (w w' : World ℝ), World.Hist Gen.Shipped .gen h w ∧ w.ode = some (.rk4 newRk4) ∧
      w.gens 0 = .spring (damper k) ∧ w.process .gen env 1 1 = .ok w' ∧
      (w.bodies 0).v_x - (w.bodies 1).v_x = 3 ∧ (w'.bodies 0).v_x - (w'.bodies 1).v_x = r := by
  intro k r hk
  obtain ⟨h, w, d, hs⟩ := slip_rk (g := .spring (damper k)) trivial
  have hst := d.standard (damper_within k)
  obtain ⟨w', e⟩ := d.runs (damper_within k) (fun f => by cases f) (fun _ => hs) env 1 1
  refine ⟨h, w, w', d.hist, d.ode, d.gens 0, e, d.apart, ?_⟩
  rw [(C118_runge_kutta (fun g => Gen.tame) d.hist hst d.ode hs d.regC d.only (d.gens 0) (damper_is k) e rfl).1.1,
    d.apart, d.m, d.m]
  have t : Int.toNat 1 = 1 := rfl
  rw [t, show (damper k).kd = k from rfl]
  rcases hk with ⟨rfl, rfl⟩ | ⟨rfl, rfl⟩ <;> norm_num

end

end Scs
