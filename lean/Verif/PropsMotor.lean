import Verif.PropsDamper

/-!
# Constant-speed motors

C119: two bodies driven by a motor, otherwise only subject to gravity, in calls `process(dt, 1)`. The damping of the
motor has no effect, because the accelerations it reads are reset at the beginning of a call. The relative speed
approaches the speed of the motor when `0 < dt * ks * (1 / I0 + 1 / I1) < 2`, whatever the limit on the torque, and
never settles at that speed when this number exceeds two.
-/

namespace Scs

open Finset

/-- The torque of the motor for the relative speed `r`, without damping: proportional to the missing speed, within the
limits. -/
noncomputable def Motor.undamped (p : Motor ℝ) (r : ℝ) : ℝ :=
  min p.maxTorque (max (-p.maxTorque) (p.ks * (p.speed - r)))

section
variable {G : Gen ℝ → Prop} {h : List (Op ℝ)} {w w' : World ℝ} {env : Env ℝ} {dt : ℝ}

theorem motor_within {p : Motor ℝ} {b0 b1 g : Nat} (h0 : p.body0 = .obj b0) (h1 : p.body1 = .obj b1)
    (hst : w.Standard h) (hg : g ∈ regGens h) (hp : w.gens g = .motor p) :
    b0 ∈ regBodies h ∧ b1 ∈ regBodies h := by
  have hW := hst.gens g hg
  rw [hp] at hW
  obtain ⟨⟨b, hb, f⟩, b', hb', f'⟩ := hW
  rw [h0] at f
  rw [h1] at f'
  cases f
  cases f'
  exact ⟨hb, hb'⟩

/-- One sub-step that begins without accelerations. -/
theorem motor_turns {cls : Cls} {p : Motor ℝ} {b0 b1 g : Nat} (h0 : p.body0 = .obj b0) (h1 : p.body1 = .obj b1)
    (ho : OnlyGravityBut h w g) (r : w.Regs cls h) (hp : w.gens g = .motor p) (hcs : w.cs = [])
    (m0 : b0 ∈ w.rb) (m1 : b1 ∈ w.rb) (hne : b0 ≠ b1) (n0 : (w.bodies b0).I ≠ 0) (n1 : (w.bodies b1).I ≠ 0) {s : ℝ}
    {x' : Motion} {mult : Nat → Nat → ℝ}
    (acc : ∀ b ∈ w.rb, ∀ q : Coord, x'.acc b q =
      (w.load w.now b q + w.conForce (w.reaction w.now mult) b q) / (w.bodies b).mass q)
    (vel : ∀ b ∈ w.rb, ∀ q : Coord, x'.vel b q = w.now.vel b q + s * x'.acc b q) :
    x'.vel b1 .th - x'.vel b0 .th = spinOf (w.bodies b0) (w.bodies b1) +
      s * (1 / (w.bodies b0).I + 1 / (w.bodies b1).I) * p.undamped (spinOf (w.bodies b0) (w.bodies b1)) := by
  have z : ∀ b q, w.conForce (w.reaction w.now mult) b q = 0 := fun b q => by rw [World.conForce, hcs]; simp
  obtain ⟨A, hA0, hA⟩ := ho.load r
  have dr : p.drive w.now b0 b1 = p.undamped (spinOf (w.bodies b0) (w.bodies b1)) := by
    simp only [Motor.drive, motorTorque, fp_fmin, fp_fmax, Motor.undamped, World.now, sub_self, mul_zero, sub_zero]
    rfl
  rw [vel b1 m1, vel b0 m0, acc b1 m1, acc b0 m0, z, z, hA, hA, hp, hA0]
  simp only [Gen.load, h0, h1, hne, Ne.symm hne, if_true, if_false, pureTorque, dr, Body.mass]
  have e0 : w.now.vel b0 .th = (w.bodies b0).v_theta := rfl
  have e1 : w.now.vel b1 .th = (w.bodies b1).v_theta := rfl
  rw [e0, e1, spinOf]
  generalize p.undamped _ = T
  field_simp
  ring

/-- **C119** (optimised system): two bodies driven by a motor, no constraints, otherwise only gravity. A call
`process(dt, 1)` changes their relative speed by `dt * (1 / I0 + 1 / I1)` times the torque of the motor without
damping: `kd` has no effect. -/
theorem C119_call (hG : ∀ g, G g → g.OnlyForces) (hw : World.Hist G .opt h w)
    (hst : w.Standard h) (hc : regCons h = ∅) {g : Nat} (ho : OnlyGravityBut h w g) {p : Motor ℝ}
    (hp : w.gens g = .motor p) {b0 b1 : Nat} (h0 : p.body0 = .obj b0) (h1 : p.body1 = .obj b1) (hne : b0 ≠ b1)
    (e : w.process .opt env dt 1 = .ok w') :
    spinOf (w'.bodies b0) (w'.bodies b1) = spinOf (w.bodies b0) (w.bodies b1) +
      dt * (1 / (w.bodies b0).I + 1 / (w.bodies b1).I) * p.undamped (spinOf (w.bodies b0) (w.bodies b1)) := by
  obtain ⟨x, mult, s, hx⟩ := hw.one_move hG hst e
  obtain ⟨_, _, _, hM⟩ := hw.moved hG hst e
  have r := hw.regs
  obtain ⟨r0, r1⟩ := motor_within h0 h1 hst ho.1 hp
  have m0 := (r.bodies.mem b0).mpr r0
  have m1 := (r.bodies.mem b1).mpr r1
  rw [← motor_turns h0 h1 ho r hp (r.cs_nil.mpr hc) m0 m1 hne (hM.mass b0 m0 .th) (hM.mass b1 m1 .th) s.acc s.vel,
    (hx b0 m0 .th).2, (hx b1 m1 .th).2]
  rfl

/-- **C119** (generic system): the same with the explicit and the semi-implicit solver. -/
theorem C119_call_generic (hG : ∀ g, G g → g.OnlyForces) (hw : World.Hist G .gen h w)
    (hst : w.Standard h) {o : Ode ℝ} {sym : Bool} (hode : w.ode = some o) (hsym : o.isSym sym)
    (hc : regCons h = ∅) {g : Nat} (ho : OnlyGravityBut h w g) {p : Motor ℝ}
    (hp : w.gens g = .motor p) {b0 b1 : Nat} (h0 : p.body0 = .obj b0) (h1 : p.body1 = .obj b1) (hne : b0 ≠ b1)
    (e : w.process .gen env dt 1 = .ok w') :
    spinOf (w'.bodies b0) (w'.bodies b1) = spinOf (w.bodies b0) (w.bodies b1) +
      dt * (1 / (w.bodies b0).I + 1 / (w.bodies b1).I) * p.undamped (spinOf (w.bodies b0) (w.bodies b1)) := by
  obtain ⟨x, mult, s, hx, hM⟩ := hw.one_gmove hG hst hode hsym e
  have r := hw.regs
  obtain ⟨r0, r1⟩ := motor_within h0 h1 hst ho.1 hp
  have m0 := (r.bodies.mem b0).mpr r0
  have m1 := (r.bodies.mem b1).mpr r1
  rw [← motor_turns h0 h1 ho r hp (r.cs_nil.mpr hc) m0 m1 hne (hM b0 m0 .th) (hM b1 m1 .th) s.acc.newton s.vel,
    (hx b0 m0 .th).2, (hx b1 m1 .th).2]
  rfl

/-- The calls, one after the other. -/
theorem motor_calls (hG : ∀ g, G g → g.OnlyForces) (hw : World.Hist G .opt h w)
    (hst : w.Standard h) (hc : regCons h = ∅) (hsle : w.sle = some .ge) (hnew : processedDts h = [])
    (hm : ∀ b ∈ regBodies h, (w.bodies b).m ≠ 0 ∧ (w.bodies b).I ≠ 0) (hdt : dt ≠ 0)
    {g : Nat} (ho : OnlyGravityBut h w g) {p : Motor ℝ}
    (hp : w.gens g = .motor p) {b0 b1 : Nat} (h0 : p.body0 = .obj b0) (h1 : p.body1 = .obj b1) (hne : b0 ≠ b1)
    (envs : Nat → Env ℝ) (n : Nat) :
    (w.calls envs dt n).process .opt (envs n) dt 1 = .ok (w.calls envs dt (n + 1)) ∧
    spinOf ((w.calls envs dt (n + 1)).bodies b0) ((w.calls envs dt (n + 1)).bodies b1) =
      spinOf ((w.calls envs dt n).bodies b0) ((w.calls envs dt n).bodies b1) +
      dt * (1 / (w.bodies b0).I + 1 / (w.bodies b1).I) *
        p.undamped (spinOf ((w.calls envs dt n).bodies b0) ((w.calls envs dt n).bodies b1)) := by
  obtain ⟨en, h', a, k1, k2, k3, st, mv⟩ := calls_succeed hG hw hst hc hm hdt hsle hnew envs n
  refine ⟨en, ?_⟩
  have ho' : OnlyGravityBut h' (w.calls envs dt n) g := by
    refine ⟨k3 ▸ ho.1, fun g' hg' => ?_⟩
    rw [mv.gens]
    exact ho.2 g' (k3 ▸ hg')
  have := C119_call hG a st (k2.trans hc) ho' (by rw [mv.gens]; exact hp) h0 h1 hne en
  rwa [mv.inertia, mv.inertia] at this

/-- The torque in terms of the missing speed: a factor between `min ks (T / |d|)` and `ks`. -/
theorem undamped_factor {p : Motor ℝ} (hk : 0 < p.ks) (hT : 0 < p.maxTorque) {r D : ℝ} (hD : |p.speed - r| ≤ D)
    (hD0 : 0 < D) : ∃ f, min p.ks (p.maxTorque / D) ≤ f ∧ f ≤ p.ks ∧ p.undamped r = f * (p.speed - r) := by
  rw [Motor.undamped]
  generalize p.speed - r = d at *
  rcases le_total (|p.ks * d|) p.maxTorque with hl | hl
  · obtain ⟨l1, l2⟩ := abs_le.mp hl
    exact ⟨p.ks, min_le_left _ _, le_rfl, by rw [max_eq_right l1, min_eq_right l2]⟩
  · have hd0 : 0 < |d| := by
      rcases eq_or_ne d 0 with rfl | hd
      · simp at hl; linarith
      · exact abs_pos.mpr hd
    have key : p.maxTorque / |d| ≤ p.ks := by
      rw [div_le_iff₀ hd0]
      rwa [abs_mul, abs_of_pos hk] at hl
    refine ⟨p.maxTorque / |d|, (min_le_right _ _).trans
      (div_le_div_of_nonneg_left hT.le hd0 hD), key, ?_⟩
    rcases le_total 0 d with h | h
    · have : p.maxTorque ≤ p.ks * d := by rwa [abs_of_nonneg (mul_nonneg hk.le h)] at hl
      have hne : d ≠ 0 := abs_pos.mp hd0
      rw [max_eq_right (by linarith), min_eq_left this, abs_of_nonneg h]
      field_simp
    · have : p.ks * d ≤ -p.maxTorque := by
        rw [abs_of_nonpos (mul_nonpos_of_nonneg_of_nonpos hk.le h)] at hl
        linarith
      have hne : d ≠ 0 := abs_pos.mp hd0
      rw [max_eq_left this, min_eq_right (by linarith), abs_of_nonpos h]
      field_simp

open Filter in
/-- **C119**: when `0 < dt * ks * (1 / I0 + 1 / I1) < 2` the motor reaches its speed whatever its limit: every one of
infinitely many calls `process(dt, 1)` succeeds, no call takes the relative speed further from that of the motor, and
it tends to it. -/
theorem C119_reaches_speed (hG : ∀ g, G g → g.OnlyForces) (hw : World.Hist G .opt h w)
    (hst : w.Standard h) (hc : regCons h = ∅) (hsle : w.sle = some .ge) (hnew : processedDts h = [])
    (hm : ∀ b ∈ regBodies h, (w.bodies b).m ≠ 0 ∧ (w.bodies b).I ≠ 0)
    {g : Nat} (ho : OnlyGravityBut h w g) {p : Motor ℝ}
    (hp : w.gens g = .motor p) {b0 b1 : Nat} (h0 : p.body0 = .obj b0) (h1 : p.body1 = .obj b1) (hne : b0 ≠ b1)
    (hk : 0 < p.ks) (hT : 0 < p.maxTorque)
    (z0 : 0 < dt * (1 / (w.bodies b0).I + 1 / (w.bodies b1).I) * p.ks)
    (z2 : dt * (1 / (w.bodies b0).I + 1 / (w.bodies b1).I) * p.ks < 2) (envs : Nat → Env ℝ) :
    (∀ n, (w.calls envs dt n).process .opt (envs n) dt 1 = .ok (w.calls envs dt (n + 1)) ∧
      |p.speed - spinOf ((w.calls envs dt (n + 1)).bodies b0) ((w.calls envs dt (n + 1)).bodies b1)| ≤
        |p.speed - spinOf ((w.calls envs dt n).bodies b0) ((w.calls envs dt n).bodies b1)|) ∧
    Tendsto (fun n => spinOf ((w.calls envs dt n).bodies b0) ((w.calls envs dt n).bodies b1)) atTop
      (nhds p.speed) := by
  have hdt : dt ≠ 0 := by rintro rfl; simp at z0
  have key := fun n => motor_calls hG hw hst hc hsle hnew hm hdt ho hp h0 h1 hne envs n
  set r : Nat → ℝ := fun n => spinOf ((w.calls envs dt n).bodies b0) ((w.calls envs dt n).bodies b1) with hr
  set c := dt * (1 / (w.bodies b0).I + 1 / (w.bodies b1).I) with hcd
  have c0 : 0 < c := by
    by_contra hn
    have := mul_nonpos_of_nonpos_of_nonneg (not_lt.mp hn) hk.le
    linarith
  have recur : ∀ n, r (n + 1) = r n + c * p.undamped (r n) := fun n => (key n).2
  set D := |p.speed - r 0| + 1 with hD
  have D0 : 0 < D := by positivity
  set f0 := min p.ks (p.maxTorque / D) with hf0
  have f0pos : 0 < f0 := lt_min hk (div_pos hT D0)
  set ρ := max (1 - c * f0) (c * p.ks - 1) with hρ
  have ρ1 : ρ < 1 := max_lt (by nlinarith) (by linarith)
  have ρ0 : 0 ≤ ρ := by
    rcases le_total 1 (c * p.ks) with hl | hl
    · exact le_max_of_le_right (by linarith)
    · refine le_max_of_le_left ?_
      have := mul_le_mul_of_nonneg_left (min_le_left p.ks (p.maxTorque / D)) c0.le
      linarith
  have one : ∀ n, |p.speed - r n| ≤ D → |p.speed - r (n + 1)| ≤ ρ * |p.speed - r n| := by
    intro n hn
    obtain ⟨f, f1, f2, f3⟩ := undamped_factor hk hT hn D0
    rw [recur, f3, show p.speed - (r n + c * (f * (p.speed - r n))) = (1 - c * f) * (p.speed - r n) by ring, abs_mul]
    refine mul_le_mul_of_nonneg_right (abs_le.mpr ⟨?_, ?_⟩) (abs_nonneg _)
    · have := mul_le_mul_of_nonneg_left f2 c0.le
      have := le_max_right (1 - c * f0) (c * p.ks - 1)
      linarith
    · have := mul_le_mul_of_nonneg_left f1 c0.le
      have := le_max_left (1 - c * f0) (c * p.ks - 1)
      linarith
  have pow : ∀ n, |p.speed - r n| ≤ ρ ^ n * |p.speed - r 0| ∧ |p.speed - r n| ≤ D := by
    intro n
    induction n with
    | zero => exact ⟨by simp, by linarith⟩
    | succ n ih =>
      have k := one n ih.2
      refine ⟨?_, ?_⟩
      · rw [pow_succ, mul_comm (ρ ^ n), mul_assoc]
        exact k.trans (mul_le_mul_of_nonneg_left ih.1 ρ0)
      · nlinarith [abs_nonneg (p.speed - r n), ih.2]
  refine ⟨fun n => ⟨(key n).1, ?_⟩, ?_⟩
  · have := one n (pow n).2
    show |p.speed - r (n + 1)| ≤ |p.speed - r n|
    nlinarith [abs_nonneg (p.speed - r n)]
  · show Tendsto r atTop (nhds p.speed)
    rw [tendsto_iff_dist_tendsto_zero]
    refine squeeze_zero (fun _ => dist_nonneg) (fun n => ?_)
      (g := fun n => ρ ^ n * |p.speed - r 0|) ?_
    · rw [Real.dist_eq, abs_sub_comm]
      exact (pow n).1
    · have := (tendsto_pow_atTop_nhds_zero_of_lt_one ρ0 ρ1).mul_const |p.speed - r 0|
      rwa [zero_mul] at this

open Filter in
/-- **C119**: when `dt * ks * (1 / I0 + 1 / I1) > 2` the motor hunts: a relative speed that is so close to that of the
motor that the torque is within the limits is thrown further away by the next call, and the relative speed does not
tend to that of the motor unless it hits it exactly. -/
theorem C119_hunts (hG : ∀ g, G g → g.OnlyForces) (hw : World.Hist G .opt h w)
    (hst : w.Standard h) (hc : regCons h = ∅) (hsle : w.sle = some .ge) (hnew : processedDts h = [])
    (hm : ∀ b ∈ regBodies h, (w.bodies b).m ≠ 0 ∧ (w.bodies b).I ≠ 0)
    {g : Nat} (ho : OnlyGravityBut h w g) {p : Motor ℝ}
    (hp : w.gens g = .motor p) {b0 b1 : Nat} (h0 : p.body0 = .obj b0) (h1 : p.body1 = .obj b1) (hne : b0 ≠ b1)
    (hk : 0 < p.ks) (hT : 0 < p.maxTorque)
    (z2 : 2 < dt * (1 / (w.bodies b0).I + 1 / (w.bodies b1).I) * p.ks) (envs : Nat → Env ℝ) :
    (∀ n, (w.calls envs dt n).process .opt (envs n) dt 1 = .ok (w.calls envs dt (n + 1)) ∧
      (p.ks * |p.speed - spinOf ((w.calls envs dt n).bodies b0) ((w.calls envs dt n).bodies b1)| ≤ p.maxTorque →
        |p.speed - spinOf ((w.calls envs dt (n + 1)).bodies b0) ((w.calls envs dt (n + 1)).bodies b1)| =
          (dt * (1 / (w.bodies b0).I + 1 / (w.bodies b1).I) * p.ks - 1) *
          |p.speed - spinOf ((w.calls envs dt n).bodies b0) ((w.calls envs dt n).bodies b1)|)) ∧
    (Tendsto (fun n => spinOf ((w.calls envs dt n).bodies b0) ((w.calls envs dt n).bodies b1)) atTop
      (nhds p.speed) → ∃ n, spinOf ((w.calls envs dt n).bodies b0) ((w.calls envs dt n).bodies b1) = p.speed) := by
  have hdt : dt ≠ 0 := by rintro rfl; norm_num at z2
  have key := fun n => motor_calls hG hw hst hc hsle hnew hm hdt ho hp h0 h1 hne envs n
  set r : Nat → ℝ := fun n => spinOf ((w.calls envs dt n).bodies b0) ((w.calls envs dt n).bodies b1) with hr
  set c := dt * (1 / (w.bodies b0).I + 1 / (w.bodies b1).I) with hcd
  have recur : ∀ n, r (n + 1) = r n + c * p.undamped (r n) := fun n => (key n).2
  have one : ∀ n, p.ks * |p.speed - r n| ≤ p.maxTorque →
      |p.speed - r (n + 1)| = (c * p.ks - 1) * |p.speed - r n| := by
    intro n hn
    have hl : |p.ks * (p.speed - r n)| ≤ p.maxTorque := by rwa [abs_mul, abs_of_pos hk]
    obtain ⟨l1, l2⟩ := abs_le.mp hl
    rw [recur, Motor.undamped, max_eq_right l1, min_eq_right l2,
      show p.speed - (r n + c * (p.ks * (p.speed - r n))) = -((c * p.ks - 1) * (p.speed - r n)) by ring, abs_neg,
      abs_mul, abs_of_pos (by linarith)]
  refine ⟨fun n => ⟨(key n).1, one n⟩, fun ht => ?_⟩
  by_contra hno
  have hne' : ∀ n, r n ≠ p.speed := fun n e => hno ⟨n, e⟩
  have ε0 : 0 < p.maxTorque / p.ks := div_pos hT hk
  obtain ⟨N, hN⟩ := Metric.tendsto_atTop.mp ht _ ε0
  have small : ∀ n, N ≤ n → p.ks * |p.speed - r n| ≤ p.maxTorque := by
    intro n hn
    have := hN n hn
    rw [Real.dist_eq, abs_sub_comm, lt_div_iff₀ hk] at this
    linarith
  have grow : ∀ k, |p.speed - r N| ≤ |p.speed - r (N + k)| := by
    intro k
    induction k with
    | zero => exact le_rfl
    | succ k ih =>
      rw [← add_assoc, one (N + k) (small _ (by omega))]
      nlinarith [abs_nonneg (p.speed - r (N + k))]
  have d0 : 0 < |p.speed - r N| := abs_pos.mpr (sub_ne_zero.mpr (hne' N).symm)
  obtain ⟨M, hM⟩ := Metric.tendsto_atTop.mp ht _ d0
  have k1 := grow M
  have k2 := hM (N + M) (by omega)
  rw [Real.dist_eq, abs_sub_comm] at k2
  linarith

/-- A motor between the bodies 0 and 1. -/
def rotor (k T : ℝ) : Motor ℝ := ⟨k, 7, T, 3, .obj 0, .obj 1⟩

/-- A system with the motor and gravity. -/
theorem demo_rotor (k T : ℝ) : ∃ (h : List (Op ℝ)) (w : World ℝ), World.Hist Gen.Shipped .opt h w ∧
    w.Standard h ∧ regCons h = ∅ ∧ w.sle = some .ge ∧ processedDts h = [] ∧ OnlyGravityBut h w 0 ∧
    w.gens 0 = .motor (rotor k T) ∧ (∀ b, (w.bodies b).m = 1) ∧ (∀ b, (w.bodies b).I = 1) ∧
    spinOf (w.bodies 0) (w.bodies 1) = 0 := by
  obtain ⟨h, w, h1, h2, h3, h4, h5, h6, h7, h8⟩ := build (G := Gen.Shipped) slipBody (demoCon .base)
    (gens := fun g => if g = 0 then .motor (rotor k T) else .gravity 10)
    (fun g => by by_cases hg : g = 0 <;> simp only [hg, if_true, if_false] <;> trivial)
    (rb := [0, 1]) (cs := []) (fg := [0, 1])
    (by decide) (by decide) (by decide) (some .ge) (fun _ _ => 0) (fun _ _ => 0)
  have rB : regBodies h = {0, 1} := by rw [h3]; rfl
  have rC : regCons h = ∅ := by rw [h4]; rfl
  have rG : regGens h = {0, 1} := by rw [h5]; rfl
  have gens : ∀ g, w.gens g = if g = 0 then .motor (rotor k T) else .gravity 10 := fun g => by rw [h2.gens]
  refine ⟨h, w, h1, ⟨fun c hc => ?_, fun c hc => ?_, fun g hg => ?_, fun c hc => ?_⟩, rC, h7, h8,
    ⟨by rw [rG]; simp, fun g hg => ?_⟩, gens 0, fun b => congrArg Body.m (h2.bodies b),
    fun b => congrArg Body.I (h2.bodies b), ?_⟩
  · rw [rC] at hc; simp at hc
  · rw [rC] at hc; simp at hc
  · rw [gens, rB]
    split
    · exact ⟨⟨0, by simp, rfl⟩, 1, by simp, rfl⟩
    · trivial
  · rw [rC] at hc; simp at hc
  · rw [rG, mem_insert, mem_singleton] at hg
    rcases hg with rfl | rfl
    · exact .inl rfl
    · exact .inr ⟨10, gens 1⟩
  · have vt : ∀ b, (w.bodies b).v_theta = 0 := fun b => congrArg Body.v_theta (h2.bodies b)
    rw [spinOf, vt, vt, sub_self]

open Filter in
/-- The claims applied: a motor of stiffness one half and torque one reaches its speed three with time steps of one; with
a stiffness of four and a torque of twenty the first call turns the missing speed round and makes it seven times as
large. -/
example : (∃ (h : List (Op ℝ)) (w : World ℝ), World.Hist Gen.Shipped .opt h w ∧
      spinOf (w.bodies 0) (w.bodies 1) = 0 ∧ ∀ envs, Tendsto (fun n =>
      spinOf ((w.calls envs 1 n).bodies 0) ((w.calls envs 1 n).bodies 1)) atTop (nhds 3)) ∧
    ∃ (h : List (Op ℝ)) (w : World ℝ), World.Hist Gen.Shipped .opt h w ∧
      spinOf (w.bodies 0) (w.bodies 1) = 0 ∧ ∀ envs,
      |3 - spinOf ((w.calls envs 1 1).bodies 0) ((w.calls envs 1 1).bodies 1)| = 21 := by
  refine ⟨?_, ?_⟩
  · obtain ⟨h, w, hw, hst, hc, hs, hn, ho, hp, hm, hI, hv⟩ := demo_rotor (1 / 2) 1
    have hmm : ∀ b ∈ regBodies h, (w.bodies b).m ≠ 0 ∧ (w.bodies b).I ≠ 0 := fun b _ => by
      rw [hm, hI]; exact ⟨one_ne_zero, one_ne_zero⟩
    exact ⟨h, w, hw, hv, fun envs => (C119_reaches_speed (fun g => Gen.tame) hw hst hc hs hn hmm ho hp rfl rfl
      (by decide) (by norm_num [rotor]) (by norm_num [rotor]) (by rw [hI, hI]; norm_num [rotor])
      (by rw [hI, hI]; norm_num [rotor]) envs).2⟩
  · obtain ⟨h, w, hw, hst, hc, hs, hn, ho, hp, hm, hI, hv⟩ := demo_rotor 4 20
    have hmm : ∀ b ∈ regBodies h, (w.bodies b).m ≠ 0 ∧ (w.bodies b).I ≠ 0 := fun b _ => by
      rw [hm, hI]; exact ⟨one_ne_zero, one_ne_zero⟩
    refine ⟨h, w, hw, hv, fun envs => ?_⟩
    have := ((C119_hunts (dt := 1) (fun g => Gen.tame) hw hst hc hs hn hmm ho hp rfl rfl
      (by decide) (by norm_num [rotor]) (by norm_num [rotor]) (by rw [hI, hI]; norm_num [rotor]) envs).1 0).2
    rw [show w.calls envs 1 0 = w from rfl, hv, hI, hI] at this
    simp only [rotor] at this
    norm_num at this
    exact this

/-- The claim on the generic system applied: a motor of stiffness one and torque twenty, damping seven, takes the relative
speed from zero to six, twice its speed, in a time step of one. -/
example (env : Env ℝ) : ∀ o sym, (o = Ode.newEuler ∧ sym = false ∨ o = Ode.newNsv ∧ sym = true) →
    ∃ (h : List (Op ℝ)) (w w' : World ℝ), World.Hist Gen.Shipped .gen h w ∧ w.ode = some o ∧
      w.process .gen env 1 1 = .ok w' ∧ spinOf (w.bodies 0) (w.bodies 1) = 0 ∧
      spinOf (w'.bodies 0) (w'.bodies 1) = 6 := by
  intro o sym hos
  have idle : o.Idle := by rcases hos with ⟨rfl, -⟩ | ⟨rfl, -⟩ <;> trivial
  have hsym : o.isSym sym := by rcases hos with ⟨rfl, rfl⟩ | ⟨rfl, rfl⟩ <;> rfl
  have hW : (Gen.motor (rotor 1 20)).Within (· ∈ ({0, 1} : Finset Nat)) := ⟨⟨0, by simp, rfl⟩, 1, by simp, rfl⟩
  obtain ⟨h, w, d⟩ := slip (g := .motor (rotor 1 20)) trivial idle
  obtain ⟨w', e⟩ := d.runs hW (by rcases hos with ⟨rfl, -⟩ | ⟨rfl, -⟩ <;> decide)
    (by rcases hos with ⟨rfl, -⟩ | ⟨rfl, -⟩ <;> (intro f; cases f)) env 1 1
  refine ⟨h, w, w', d.hist, d.ode, e, d.spin, ?_⟩
  rw [C119_call_generic (fun g => Gen.tame) d.hist (d.standard hW) d.ode hsym d.regC d.only (d.gens 0) rfl rfl
    (by decide) e, d.spin, d.I, d.I]
  norm_num [rotor, Motor.undamped]

end

end Scs
