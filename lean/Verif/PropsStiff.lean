import Verif.PropsSpring

/-!
# Springs that are too stiff for the time step

C117: the bound on the time step in C113 cannot be relaxed. When `dt ^ 2 * ks * (1 / m1 + 1 / m2)` exceeds
four, two bodies at rest on an undamped spring fly apart.
-/

namespace Scs

open Finset

/-! ## C117 -/

/-- The distance of the centres of two bodies. -/
noncomputable def gap (a b : Body ℝ) : ℝ := distOf (a.p_x, a.p_y) (b.p_x, b.p_y)

section
variable {G : Gen ℝ → Prop} {h : List (Op ℝ)} {w w' : World ℝ} {env : Env ℝ} {dt : ℝ}

/-- One call for the relative motion of two bodies joined by the only spring. -/
theorem pair_call (hG : ∀ g, G g → g.OnlyForces) (hw : World.Hist G .opt h w)
    (hst : w.Standard h) (hc : regCons h = ∅) {g : Nat} (hg : regGens h = {g}) {p : Spring ℝ}
    (hp : w.gens g = .spring p) (hH : (w.gens g).Harmonic) {b1 b2 : Nat} (h1 : p.body1 = .obj b1)
    (h2 : p.body2 = .obj b2) (hne : b1 ≠ b2) (hd : (w.gens g).Long fun b => (w.bodies b).pos)
    (e : w.process .opt env dt 1 = .ok w') {q : Coord} (hq : q ≠ .th) :
    (w'.bodies b1).vel q - (w'.bodies b2).vel q = ((w.bodies b1).vel q - (w.bodies b2).vel q) -
      dt * (p.ks * (1 / (w.bodies b1).m + 1 / (w.bodies b2).m)) *
        ((w.bodies b1).pos q - (w.bodies b2).pos q) ∧
    (w'.bodies b1).pos q - (w'.bodies b2).pos q = ((w.bodies b1).pos q - (w.bodies b2).pos q) +
      dt * ((w'.bodies b1).vel q - (w'.bodies b2).vel q) := by
  obtain ⟨x, mult, s, hx⟩ := hw.one_move hG hst e
  obtain ⟨_, _, _, hm⟩ := hw.moved hG hst e
  have r := hw.regs
  have hcs := r.cs_nil.mpr hc
  have hgm : g ∈ regGens h := by rw [hg]; exact mem_singleton_self g
  have hW := hst.gens g hgm
  have hW' := within_congr hW fun b hb => List.mem_toFinset.mpr ((r.bodies.mem b).mpr hb)
  have m1 : b1 ∈ w.rb := by
    rw [hp] at hW
    rcases hW with f | ⟨⟨b, hb, f⟩, _⟩
    · rw [h1] at f; cases f
    · rw [h1] at f; cases f; exact (r.bodies.mem _).mpr hb
  have m2 : b2 ∈ w.rb := by
    rw [hp] at hW
    rcases hW with f | ⟨_, f | ⟨b, hb, f⟩⟩
    · rw [h1] at f; cases f
    · rw [h2] at f; cases f
    · rw [h2] at f; cases f; exact (r.bodies.mem _).mpr hb
  have load : ∀ b ∈ w.rb, ∀ q, w.load w.now b q = (Gen.spring p).powerOf (fun b => (w.bodies b).m)
      w.rb.toFinset w.now.pos fun b' q' => if b' = b ∧ q' = q then 1 else 0 := by
    intro b hb q
    rw [World.load, r.fg_finset, hg, sum_singleton, ← hp]
    exact load_eq hH hW' hd (List.mem_toFinset.mpr hb) q (m := fun b => (w.bodies b).m)
  have vel : ∀ b ∈ w.rb, ∀ q, (w'.bodies b).vel q = (w.bodies b).vel q +
      dt * ((Gen.spring p).powerOf (fun b => (w.bodies b).m)
      w.rb.toFinset w.now.pos (fun b' q' => if b' = b ∧ q' = q then 1 else 0) / (w.bodies b).mass q) := by
    intro b hb q
    rw [← (hx b hb q).2, s.vel b hb q, s.acc b hb q, load b hb q]
    have z : w.conForce (w.reaction w.now mult) b q = 0 := by rw [World.conForce, hcs]; simp
    rw [z, add_zero]
    rfl
  have pos : ∀ b ∈ w.rb, ∀ q, (w'.bodies b).pos q = (w.bodies b).pos q + dt * (w'.bodies b).vel q := by
    intro b hb q
    rw [← (hx b hb q).1, s.pos b hb q, (hx b hb q).2]
    rfl
  refine ⟨?_, by rw [pos b1 m1, pos b2 m2]; ring⟩
  have ne1 := hm.mass b1 m1 .x
  have ne2 := hm.mass b2 m2 .x
  rw [vel b1 m1, vel b2 m2]
  cases q with
  | th => exact absurd rfl hq
  | x =>
    simp only [Gen.powerOf, h1, h2, Body.mass, World.now, hne, Ne.symm hne, true_and,
      false_and, if_true, if_false, reduceCtorEq, and_true, and_false, and_self] at *
    field_simp
    ring
  | y =>
    simp only [Gen.powerOf, h1, h2, Body.mass, World.now, hne, Ne.symm hne, true_and,
      false_and, if_true, if_false, reduceCtorEq, and_true, and_false, and_self] at *
    field_simp
    ring

/-- **C117**: two bodies at rest relative to each other, at least 0.01 apart, joined by the only spring,
undamped, of rest length zero and between the centres, with `z = dt ^ 2 * ks * (1 / m1 + 1 / m2) > 4`, fly
apart: every one of infinitely many calls `process(dt, 1)` succeeds and multiplies their distance by at least
`z - 3`. -/
theorem C117_apart (hG : ∀ g, G g → g.OnlyForces) (hw : World.Hist G .opt h w)
    (hst : w.Standard h) (hc : regCons h = ∅) (hsle : w.sle = some .ge) (hnew : processedDts h = [])
    (hm : ∀ b ∈ regBodies h, 0 < (w.bodies b).m ∧ 0 < (w.bodies b).I)
    {g : Nat} (hg : regGens h = {g}) {p : Spring ℝ} (hp : w.gens g = .spring p)
    (hH : (w.gens g).Harmonic) {b1 b2 : Nat} (h1 : p.body1 = .obj b1)
    (h2 : p.body2 = .obj b2) (hx : (w.bodies b1).v_x = (w.bodies b2).v_x)
    (hy : (w.bodies b1).v_y = (w.bodies b2).v_y) (hd : 1 / 100 ≤ gap (w.bodies b1) (w.bodies b2)) {z : ℝ}
    (hz : z = dt ^ 2 * (p.ks * (1 / (w.bodies b1).m + 1 / (w.bodies b2).m))) (hz4 : 4 < z)
    (envs : Nat → Env ℝ) (n : Nat) :
    (w.calls envs dt n).process .opt (envs n) dt 1 = .ok (w.calls envs dt (n + 1)) ∧
    (z - 3) * gap ((w.calls envs dt n).bodies b1) ((w.calls envs dt n).bodies b2) ≤
      gap ((w.calls envs dt (n + 1)).bodies b1) ((w.calls envs dt (n + 1)).bodies b2) ∧
    (z - 3) ^ n / 100 ≤ gap ((w.calls envs dt n).bodies b1) ((w.calls envs dt n).bodies b2) := by
  have hdt : dt ≠ 0 := by
    rintro rfl
    rw [hz] at hz4
    norm_num at hz4
  have hne : b1 ≠ b2 := by
    rintro rfl
    simp only [gap, distOf] at hd
    norm_num at hd
  have run := fun n => calls_succeed hG hw hst hc
    (fun b hb => ⟨(hm b hb).1.ne', (hm b hb).2.ne'⟩) hdt hsle hnew envs n
  have gapOf : ∀ (v : World ℝ) (c : ℝ), (∀ q, q ≠ Coord.th → (v.bodies b1).pos q - (v.bodies b2).pos q =
      c * ((w.bodies b1).pos q - (w.bodies b2).pos q)) →
      gap (v.bodies b1) (v.bodies b2) = |c| * gap (w.bodies b1) (w.bodies b2) := by
    intro v c hv
    have ex := hv .x (by decide)
    have ey := hv .y (by decide)
    simp only [Body.pos] at ex ey
    have sw : ∀ x y : ℝ, (x - y) ^ 2 = (y - x) ^ 2 := fun x y => by ring
    simp only [gap, distOf]
    rw [sw, sw ((v.bodies b2).p_y), ex, ey, sw (w.bodies b2).p_x, sw (w.bodies b2).p_y, mul_pow, mul_pow,
      ← mul_add, Real.sqrt_mul (sq_nonneg c), Real.sqrt_sq_eq_abs]
  -- the relative motion is along the first direction
  have step : ∀ n (c v : ℝ), 1 ≤ |c| → |c - v| ≤ |c| → (∀ q, q ≠ Coord.th →
        ((w.calls envs dt n).bodies b1).pos q - ((w.calls envs dt n).bodies b2).pos q =
          c * ((w.bodies b1).pos q - (w.bodies b2).pos q) ∧
        dt * (((w.calls envs dt n).bodies b1).vel q - ((w.calls envs dt n).bodies b2).vel q) =
          v * ((w.bodies b1).pos q - (w.bodies b2).pos q)) →
      ∃ c' v' : ℝ, (z - 3) * |c| ≤ |c'| ∧ |c' - v'| ≤ |c'| ∧ ∀ q, q ≠ Coord.th →
        ((w.calls envs dt (n + 1)).bodies b1).pos q - ((w.calls envs dt (n + 1)).bodies b2).pos q =
          c' * ((w.bodies b1).pos q - (w.bodies b2).pos q) ∧
        dt * (((w.calls envs dt (n + 1)).bodies b1).vel q - ((w.calls envs dt (n + 1)).bodies b2).vel q) =
          v' * ((w.bodies b1).pos q - (w.bodies b2).pos q) := by
    intro n c v hc1 hcv hq
    obtain ⟨en, h', a, k1, k2, k3, st, mv⟩ := run n
    have long : ((w.calls envs dt n).gens g).Long fun b => ((w.calls envs dt n).bodies b).pos := by
      rw [mv.gens, hp]
      intro c1 c2 f1 f2
      rw [h1] at f1
      rw [h2] at f2
      cases f1
      cases f2
      have := gapOf _ c fun q hq' => (hq q hq').1
      simp only [gap] at this hd
      simp only [Body.pos]
      rw [this]
      nlinarith
    have big : (z - 3) * |c| ≤ |c + (v - z * c)| := by
      have t := abs_sub_abs_le_abs_sub ((2 - z) * c) (c - v)
      rw [show (2 - z) * c - (c - v) = c + (v - z * c) by ring, abs_mul,
        abs_of_neg (by linarith : 2 - z < 0)] at t
      linarith
    refine ⟨c + (v - z * c), v - z * c, big, ?_, fun q hq' => ?_⟩
    · rw [show c + (v - z * c) - (v - z * c) = c by ring]
      nlinarith [abs_nonneg c]
    · obtain ⟨e1, e2⟩ := pair_call hG a st (k2.trans hc) (k3.trans hg) (by rw [mv.gens]; exact hp)
        (by rw [mv.gens]; exact hH) h1 h2 hne long en hq'
      rw [mv.mass, mv.mass] at e1
      obtain ⟨q1, q2⟩ := hq q hq'
      have ev : dt * (((w.calls envs dt (n + 1)).bodies b1).vel q -
          ((w.calls envs dt (n + 1)).bodies b2).vel q) =
          (v - z * c) * ((w.bodies b1).pos q - (w.bodies b2).pos q) := by
        rw [e1, q1, hz]
        linear_combination q2
      refine ⟨?_, ev⟩
      rw [e2, q1, ev]
      ring
  have key : ∀ n, ∃ c v : ℝ, (z - 3) ^ n ≤ |c| ∧ |c - v| ≤ |c| ∧ ∀ q, q ≠ Coord.th →
        ((w.calls envs dt n).bodies b1).pos q - ((w.calls envs dt n).bodies b2).pos q =
          c * ((w.bodies b1).pos q - (w.bodies b2).pos q) ∧
        dt * (((w.calls envs dt n).bodies b1).vel q - ((w.calls envs dt n).bodies b2).vel q) =
          v * ((w.bodies b1).pos q - (w.bodies b2).pos q) := by
    intro n
    induction n with
    | zero =>
      refine ⟨1, 0, by simp, by simp, fun q hq => ⟨by rw [one_mul]; rfl, ?_⟩⟩
      cases q with
      | x => simp only [World.calls, Body.vel, hx]; ring
      | y => simp only [World.calls, Body.vel, hy]; ring
      | th => exact absurd rfl hq
    | succ n ih =>
      obtain ⟨c, v, a1, a2, a3⟩ := ih
      have one : 1 ≤ (z - 3) ^ n := one_le_pow₀ (by linarith)
      obtain ⟨c', v', k1, k2, k3⟩ := step n c v (one.trans a1) a2 a3
      refine ⟨c', v', ?_, k2, k3⟩
      rw [pow_succ, mul_comm]
      exact (mul_le_mul_of_nonneg_left a1 (by linarith)).trans k1
  obtain ⟨c, v, a1, a2, a3⟩ := key n
  have one : 1 ≤ (z - 3) ^ n := one_le_pow₀ (by linarith)
  obtain ⟨c', v', k1, k2, k3⟩ := step n c v (one.trans a1) a2 a3
  have g0 : 0 ≤ gap (w.bodies b1) (w.bodies b2) := by linarith
  refine ⟨(run n).1, ?_, ?_⟩
  · rw [gapOf _ c fun q hq => (a3 q hq).1, gapOf _ c' fun q hq => (k3 q hq).1, ← mul_assoc]
    exact mul_le_mul_of_nonneg_right k1 g0
  · rw [gapOf _ c fun q hq => (a3 q hq).1, div_eq_mul_one_div]
    exact mul_le_mul a1 hd (by norm_num) (abs_nonneg c)

/-- **C117**: the distance of such bodies exceeds every bound. -/
theorem C117_unbounded (hG : ∀ g, G g → g.OnlyForces) (hw : World.Hist G .opt h w)
    (hst : w.Standard h) (hc : regCons h = ∅) (hsle : w.sle = some .ge) (hnew : processedDts h = [])
    (hm : ∀ b ∈ regBodies h, 0 < (w.bodies b).m ∧ 0 < (w.bodies b).I)
    {g : Nat} (hg : regGens h = {g}) {p : Spring ℝ} (hp : w.gens g = .spring p)
    (hH : (w.gens g).Harmonic) {b1 b2 : Nat} (h1 : p.body1 = .obj b1)
    (h2 : p.body2 = .obj b2) (hx : (w.bodies b1).v_x = (w.bodies b2).v_x)
    (hy : (w.bodies b1).v_y = (w.bodies b2).v_y) (hd : 1 / 100 ≤ gap (w.bodies b1) (w.bodies b2))
    (hz4 : 4 < dt ^ 2 * (p.ks * (1 / (w.bodies b1).m + 1 / (w.bodies b2).m)))
    (envs : Nat → Env ℝ) (B : ℝ) :
    ∃ n, ∀ m, n ≤ m → B < gap ((w.calls envs dt m).bodies b1) ((w.calls envs dt m).bodies b2) := by
  obtain ⟨n, hn⟩ := pow_unbounded_of_one_lt (100 * B)
    (show 1 < dt ^ 2 * (p.ks * (1 / (w.bodies b1).m + 1 / (w.bodies b2).m)) - 3 by linarith)
  refine ⟨n, fun m hnm => ?_⟩
  obtain ⟨-, -, k⟩ := C117_apart hG hw hst hc hsle hnew hm hg hp hH h1 h2 hx hy hd rfl hz4 envs m
  have := pow_le_pow_right₀ (show 1 ≤ dt ^ 2 * (p.ks * (1 / (w.bodies b1).m + 1 / (w.bodies b2).m)) - 3 by
    linarith) hnm
  linarith

/-- Two bodies of mass one at rest at distance one. -/
noncomputable def restBody (b : Nat) : Body ℝ :=
  ⟨if b = 0 then 1 else 0, 0, 0, 0, 0, 0, 1, 1, -1⟩

/-- The claim applied: with a spring of stiffness one and time steps of two the bodies are `5 ^ n / 100` or
more apart after `n` calls. -/
example : ∃ (h : List (Op ℝ)) (w : World ℝ), World.Hist Gen.Shipped .opt h w ∧ regBodies h = {0, 1} ∧
    gap (w.bodies 0) (w.bodies 1) = 1 ∧ (∀ envs n,
      (w.calls envs 2 n).process .opt (envs n) 2 1 = .ok (w.calls envs 2 (n + 1)) ∧
      5 * gap ((w.calls envs 2 n).bodies 0) ((w.calls envs 2 n).bodies 1) ≤
        gap ((w.calls envs 2 (n + 1)).bodies 0) ((w.calls envs 2 (n + 1)).bodies 1)) ∧
    ∀ envs, ∃ n, ∀ m, n ≤ m → 1000000 < gap ((w.calls envs 2 m).bodies 0) ((w.calls envs 2 m).bodies 1) := by
  obtain ⟨h, w, h1, h2, h3, h4, h5, h6, h7, h8⟩ := build (G := Gen.Shipped) restBody (demoCon .base)
    (gens := fun _ => .spring orbitSpring) (fun _ => trivial) (rb := [0, 1]) (cs := []) (fg := [0])
    (by decide) (by decide) (by decide) (some .ge) (fun _ _ => 0) (fun _ _ => 0)
  have rB : regBodies h = {0, 1} := by rw [h3]; rfl
  have rC : regCons h = ∅ := by rw [h4]; rfl
  have rG : regGens h = {0} := by rw [h5]; rfl
  have bm : ∀ b, (w.bodies b).m = 1 := fun b => congrArg Body.m (h2.bodies b)
  have bI : ∀ b, (w.bodies b).I = 1 := fun b => congrArg Body.I (h2.bodies b)
  have bx : ∀ b, (w.bodies b).p_x = if b = 0 then 1 else 0 := fun b => congrArg Body.p_x (h2.bodies b)
  have bY : ∀ b, (w.bodies b).p_y = 0 := fun b => congrArg Body.p_y (h2.bodies b)
  have bvx : ∀ b, (w.bodies b).v_x = 0 := fun b => congrArg Body.v_x (h2.bodies b)
  have bvy : ∀ b, (w.bodies b).v_y = 0 := fun b => congrArg Body.v_y (h2.bodies b)
  have gens : ∀ g, w.gens g = .spring orbitSpring := fun g => by rw [h2.gens]
  have hst : w.Standard h := by
    refine ⟨fun c hc => ?_, fun c hc => ?_, fun g _ => ?_, fun c hc => ?_⟩
    · rw [rC] at hc; simp at hc
    · rw [rC] at hc; simp at hc
    · rw [gens, rB]
      exact .inr ⟨⟨0, by simp, rfl⟩, .inr ⟨1, by simp, rfl⟩⟩
    · rw [rC] at hc; simp at hc
  have g0 : gap (w.bodies 0) (w.bodies 1) = 1 := by
    simp only [gap, distOf, bx, bY]
    norm_num
  have hm : ∀ b ∈ regBodies h, 0 < (w.bodies b).m ∧ 0 < (w.bodies b).I :=
    fun b _ => ⟨by rw [bm]; exact one_pos, by rw [bI]; exact one_pos⟩
  have hH : (w.gens 0).Harmonic := by
    rw [gens]
    exact ⟨rfl, rfl, rfl, rfl, rfl, rfl⟩
  have hz : (8 : ℝ) = 2 ^ 2 * (orbitSpring.ks * (1 / (w.bodies 0).m + 1 / (w.bodies 1).m)) := by
    rw [bm, bm, show orbitSpring.ks = 1 from rfl]
    norm_num
  refine ⟨h, w, h1, rB, g0, fun envs n => ?_, fun envs => C117_unbounded (fun g => Gen.tame) h1 hst rC h7 h8
    hm rG (gens 0) hH rfl rfl (by rw [bvx, bvx]) (by rw [bvy, bvy]) (by rw [g0]; norm_num)
    (by rw [← hz]; norm_num) envs _⟩
  obtain ⟨k1, k2, -⟩ := C117_apart (fun g => Gen.tame) h1 hst rC h7 h8 hm rG (gens 0) hH rfl rfl
    (by rw [bvx, bvx]) (by rw [bvy, bvy]) (by rw [g0]; norm_num) hz (by norm_num) envs n
  exact ⟨k1, by linarith⟩

end

end Scs
