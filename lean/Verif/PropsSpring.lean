import Verif.WorldSpring
import Verif.PropsSplit
import Verif.WorldDemo

/-!
# Undamped springs over long times

C113: without constraints, sub-steps of the semi-implicit integrator keep a quantity that differs from the
mechanical energy by half the length of the step times the power of the forces, so that stiff enough
bodies on springs neither gain nor lose energy, however long the simulation runs.
-/

namespace Scs

open Finset

/-! ## C113 -/

/-- The power of the registered force generators with the present velocities of the bodies. -/
noncomputable def World.power (w : World ℝ) (h : List (Op ℝ)) : ℝ :=
  ∑ g ∈ regGens h, (w.gens g).powerOf (fun b => (w.bodies b).m) (regBodies h)
    (fun b => (w.bodies b).pos) (fun b => (w.bodies b).vel)

/-- The sum of the stiffnesses of the ends of the force generator at body `b`. -/
noncomputable def Gen.stiffAt (g : Gen ℝ) (b : Nat) : ℝ :=
  match g with
  | .spring p => (if p.body1 = .obj b then p.ks else 0) + (if p.body2 = .obj b then p.ks else 0)
  | _ => 0

/-- The force generator is a spring that does not push. -/
def Gen.Pulls (g : Gen ℝ) : Prop :=
  match g with
  | .spring p => 0 ≤ p.ks
  | _ => False

/-- The states after `process(dt, 1)` called again and again, the `i`-th call in the circumstances
`env i`; a failing call is skipped. -/
noncomputable def World.calls (w : World ℝ) (env : Nat → Env ℝ) (dt : ℝ) : Nat → World ℝ
  | 0 => w
  | n + 1 => match (w.calls env dt n).process .opt (env n) dt 1 with
    | .ok w' => w'
    | .error _ => w.calls env dt n

section
variable {G : Gen ℝ → Prop} {h : List (Op ℝ)} {w w' : World ℝ} {env : Env ℝ} {dt : ℝ}

theorem power_now (r : w.Regs .opt h) : w.power h = w.powerOf w.now := by
  rw [World.power, World.powerOf, r.rb_finset, r.fg_finset]
  rfl

/-- The motion of a single call. -/
theorem World.Hist.one_move (hG : ∀ g, G g → g.OnlyForces) (hw : World.Hist G .opt h w)
    (hst : w.Standard h) (e : w.process .opt env dt 1 = .ok w') :
    ∃ x mult, w.Move dt w.now x mult ∧
      ∀ b ∈ w.rb, ∀ q : Coord, x.pos b q = (w'.bodies b).pos q ∧ x.vel b q = (w'.bodies b).vel q := by
  obtain ⟨X, mult, h0, hm⟩ := hw.moved hG hst e
  have s := hm.step 0 (by decide)
  rw [h0] at s
  simp only [Int.cast_one, div_one, zero_add] at s
  exact ⟨X 1, mult 0, s, hm.last⟩

theorem within_congr {g : Gen ℝ} {S T : Nat → Prop} (hw : g.Within S) (h : ∀ b, S b → T b) :
    g.Within T := by
  cases g with
  | gravity a => trivial
  | static p => obtain ⟨b, hb, e⟩ := hw; exact ⟨b, h b hb, e⟩
  | spring p =>
    rcases hw with e | ⟨⟨b, hb, e⟩, f | ⟨c, hc, f⟩⟩
    · exact .inl e
    · exact .inr ⟨⟨b, h b hb, e⟩, .inl f⟩
    · exact .inr ⟨⟨b, h b hb, e⟩, .inr ⟨c, h c hc, f⟩⟩
  | motor p => obtain ⟨⟨b, hb, e⟩, c, hc, f⟩ := hw; exact ⟨⟨b, h b hb, e⟩, c, h c hc, f⟩
  | custom f => exact hw

theorem powerOf_congr {g : Gen ℝ} {S : Finset Nat} (hw : g.Within (· ∈ S)) (m : Nat → ℝ)
    {x x' v v' : Nat → Coord → ℝ} (hx : ∀ b ∈ S, ∀ q, x b q = x' b q)
    (hv : ∀ b ∈ S, ∀ q, v b q = v' b q) : g.powerOf m S x v = g.powerOf m S x' v' := by
  cases g with
  | gravity a =>
    exact congrArg Neg.neg (sum_congr rfl fun b hb => by rw [hv b hb])
  | static p =>
    obtain ⟨b, hb, e⟩ := hw
    simp only [Gen.powerOf, e, hv b hb]
  | spring p =>
    rcases hw with e | ⟨⟨b, hb, e⟩, f | ⟨c, hc, f⟩⟩
    · simp only [Gen.powerOf, e]
    · simp only [Gen.powerOf, e, f]
    · simp only [Gen.powerOf, e, f, hx b hb, hx c hc, hv b hb, hv c hc]
  | motor p => rfl
  | custom f => rfl

/-- **C113**: one call of `process(dt, 1)` without constraints, with gravity, constant forces at centres
and undamped springs of rest length zero between centres (which are at least 0.01 long before the call),
keeps the mechanical energy plus half of `dt` times the power of the forces. -/
theorem C113_call (hG : ∀ g, G g → g.OnlyForces) (hw : World.Hist G .opt h w)
    (hst : w.Standard h) (hc : regCons h = ∅) (hH : ∀ g ∈ regGens h, (w.gens g).Harmonic)
    (hd : ∀ g ∈ regGens h, (w.gens g).Long fun b => (w.bodies b).pos)
    (e : w.process .opt env dt 1 = .ok w') :
    w'.mechanical h + dt / 2 * w'.power h = w.mechanical h + dt / 2 * w.power h := by
  obtain ⟨x, mult, s, hx⟩ := hw.one_move hG hst e
  obtain ⟨_, _, _, hm⟩ := hw.moved hG hst e
  have mv := C56_process_only_moves hw e
  have r := hw.regs
  have hw' : World.Hist G .opt (.process env dt 1 :: h) w' := hw.step _ trivial e
  have hcs := r.cs_nil.mpr hc
  have mem := fun g (hg : g ∈ w.fg) => (r.gens.mem g).mp hg
  have k := s.shadow hcs hm.mass (fun g hg => hH g (mem g hg))
    (fun g hg => within_congr (hst.gens g (mem g hg)) fun b hb => (r.bodies.mem b).mpr hb)
    (fun g hg => hd g (mem g hg))
  have e1 : w'.mechanical h = w.mechOf x := by
    rw [show w'.mechanical h = w'.mechanical (.process env dt 1 :: h) from rfl, mechanical_now hw'.regs,
      World.mechOf, World.mechOf, World.energyOf, World.energyOf, mv.rb, mv.fg, mv.gens]
    congr 1
    · refine sum_congr rfl fun b hb => ?_
      have hb' := List.mem_toFinset.mp hb
      congr 1
      refine Coord.sum_congr fun q => ?_
      rw [(hx b hb' q).2]
      congr 1
      cases q <;> simp [Body.mass, mv.mass, mv.inertia]
    · refine sum_congr rfl fun g hg => ?_
      have hW := within_congr (hst.gens g (mem g (List.mem_toFinset.mp hg)))
        fun b hb => (r.bodies.mem b).mpr hb
      rw [funext mv.mass]
      exact potOf_congr hW _ (y := x) (x := w'.now) fun b hb q => (hx b hb q).1.symm
  have e2 : w'.power h = w.powerOf x := by
    rw [show w'.power h = w'.power (.process env dt 1 :: h) from rfl, power_now hw'.regs,
      World.powerOf, World.powerOf, mv.rb, mv.fg, mv.gens, funext mv.mass]
    refine sum_congr rfl fun g hg => ?_
    have hW := within_congr (hst.gens g (mem g (List.mem_toFinset.mp hg)))
      fun b hb => List.mem_toFinset.mpr ((r.bodies.mem b).mpr hb)
    exact powerOf_congr hW _ (fun b hb q => (hx b (List.mem_toFinset.mp hb) q).1.symm)
      (fun b hb q => (hx b (List.mem_toFinset.mp hb) q).2.symm)
  rw [e1, e2, k, mechanical_now r, power_now r]

/-- The claim applied: two bodies fall. -/
example (env : Env ℝ) : ∃ (h : List (Op ℝ)) (w w' : World ℝ), World.Hist Gen.Shipped .opt h w ∧
    regBodies h = {0, 1} ∧ regGens h = {0} ∧ w.gens 0 = .gravity 9 ∧
    w.process .opt env (1 / 2) 1 = .ok w' ∧
    w'.mechanical h + 1 / 2 / 2 * w'.power h = w.mechanical h + 1 / 2 / 2 * w.power h := by
  obtain ⟨h, w, d⟩ := demo .base (g := .gravity 9) trivial (cs := []) (fg := [0]) (by decide)
    (by decide) .ge
  have hst := d.standard (.inr rfl) trivial
  have hc : regCons h = ∅ := by rw [d.regC]; rfl
  obtain ⟨w', e⟩ := C59_ge_succeeds (fun g => Gen.tame) d.hist hst hc d.masses
    (show (1 / 2 : ℝ) ≠ 0 by norm_num) d.sle d.new env (steps := 1)
  exact ⟨h, w, w', d.hist, d.regB, by rw [d.regG]; rfl, d.gens 0, e,
    C113_call (fun g => Gen.tame) d.hist hst hc (fun g _ => by rw [d.gens]; trivial)
      (fun g _ => by rw [d.gens]; trivial) e⟩

/-- Successful calls lead to reachable states with the same objects. -/
theorem run_hist (hw : World.Hist G .opt h w) (hst : w.Standard h) {W : Nat → World ℝ}
    (h0 : W 0 = w) {envs : Nat → Env ℝ} : ∀ n, (∀ i, i < n →
      (W i).process .opt (envs i) dt 1 = .ok (W (i + 1))) →
    ∃ h', World.Hist G .opt h' (W n) ∧ regBodies h' = regBodies h ∧ regCons h' = regCons h ∧
      regGens h' = regGens h ∧ (W n).Standard h' ∧ w.Moves (W n)
  | 0, _ => ⟨h, by rw [h0]; exact hw, rfl, rfl, rfl, by rw [h0]; exact hst,
      by rw [h0]; exact World.Moves.refl w⟩
  | n + 1, e => by
    obtain ⟨h', a, b1, b2, b3, c, m⟩ := run_hist hw hst h0 n fun i hi => e i (by omega)
    have en := e n (by omega)
    have mv := C56_process_only_moves a en
    exact ⟨.process (envs n) dt 1 :: h', a.step _ trivial en, b1, b2, b3, mv.standard c, m.trans mv⟩

/-- **C113**: over any number of calls of `process(dt, 1)` without constraints, the mechanical energy plus
half of `dt` times the power of the forces keeps its value. -/
theorem C113_invariant (hG : ∀ g, G g → g.OnlyForces) (hw : World.Hist G .opt h w)
    (hst : w.Standard h) (hc : regCons h = ∅) (hH : ∀ g ∈ regGens h, (w.gens g).Harmonic)
    {W : Nat → World ℝ} {envs : Nat → Env ℝ} (h0 : W 0 = w) {n : Nat}
    (e : ∀ i, i < n → (W i).process .opt (envs i) dt 1 = .ok (W (i + 1)))
    (hd : ∀ i, i < n → ∀ g ∈ regGens h, (w.gens g).Long fun b => ((W i).bodies b).pos) :
    (W n).mechanical h + dt / 2 * (W n).power h = w.mechanical h + dt / 2 * w.power h := by
  induction n with
  | zero => rw [h0]
  | succ n ih =>
    rw [← ih (fun i hi => e i (by omega)) fun i hi => hd i (by omega)]
    obtain ⟨h', a, b1, b2, b3, c, m⟩ := run_hist hw hst h0 n fun i hi => e i (by omega)
    have k := C113_call hG a c (b2.trans hc) (fun g hg => by rw [m.gens]; exact hH g (b3 ▸ hg))
      (fun g hg => by rw [m.gens]; exact hd n (by omega) g (b3 ▸ hg)) (e n (by omega))
    simpa only [World.mechanical, World.power, b1, b3] using k

/-- The work of the springs over half a step is bounded by a part of the energy. -/
theorem power_le (hst : w.Standard h) (hH : ∀ g ∈ regGens h, (w.gens g).Harmonic)
    (hP : ∀ g ∈ regGens h, (w.gens g).Pulls) {θ : ℝ} (h0 : 0 < θ)
    (hI : ∀ b ∈ regBodies h, 0 ≤ (w.bodies b).I)
    (hs : ∀ b ∈ regBodies h, dt ^ 2 * ∑ g ∈ regGens h, (w.gens g).stiffAt b ≤
      2 * θ ^ 2 * (w.bodies b).m) :
    |dt / 2 * w.power h| ≤ θ * w.mechanical h := by
  have one : ∀ g ∈ regGens h, |dt / 2 * (w.gens g).powerOf (fun b => (w.bodies b).m) (regBodies h)
      (fun b => (w.bodies b).pos) (fun b => (w.bodies b).vel)| ≤
      θ * (w.gens g).stored (regBodies h) w.bodies + 1 / (4 * θ) *
        ∑ b ∈ regBodies h, dt ^ 2 * (w.gens g).stiffAt b *
          ((w.bodies b).v_x ^ 2 + (w.bodies b).v_y ^ 2) := by
    intro g hg
    rw [stored_now]
    have hW := hst.gens g hg
    have hh := hH g hg
    have hp := hP g hg
    cases e : w.gens g with
    | spring p =>
      rw [e] at hW hh hp
      have hp : 0 ≤ p.ks := hp
      have nn : 0 ≤ ∑ b ∈ regBodies h, dt ^ 2 * (Gen.spring p).stiffAt b *
          ((w.bodies b).v_x ^ 2 + (w.bodies b).v_y ^ 2) := sum_nonneg fun b _ => by
        have : 0 ≤ (Gen.spring p).stiffAt b := by
          simp only [Gen.stiffAt]
          split <;> split <;> linarith
        positivity
      obtain ⟨r0, -, r1, r2, r3, r4⟩ := hh
      rcases hW with f | ⟨⟨b1, m1, f1⟩, f | ⟨b2, m2, f2⟩⟩
      · simp only [Gen.powerOf, Gen.potOf, f, mul_zero, abs_zero, zero_add]
        positivity
      · simp only [Gen.powerOf, Gen.potOf, f1, f, mul_zero, abs_zero, zero_add]
        positivity
      · have st : ∑ b ∈ regBodies h, dt ^ 2 * (Gen.spring p).stiffAt b *
            ((w.bodies b).v_x ^ 2 + (w.bodies b).v_y ^ 2) =
            dt ^ 2 * p.ks * ((w.bodies b1).v_x ^ 2 + (w.bodies b1).v_y ^ 2) +
              dt ^ 2 * p.ks * ((w.bodies b2).v_x ^ 2 + (w.bodies b2).v_y ^ 2) := by
          have : ∀ b, dt ^ 2 * (Gen.spring p).stiffAt b *
              ((w.bodies b).v_x ^ 2 + (w.bodies b).v_y ^ 2) =
              (if b1 = b then dt ^ 2 * p.ks * ((w.bodies b).v_x ^ 2 + (w.bodies b).v_y ^ 2) else 0) +
              if b2 = b then dt ^ 2 * p.ks * ((w.bodies b).v_x ^ 2 + (w.bodies b).v_y ^ 2) else 0 := by
            intro b
            simp only [Gen.stiffAt, f1, f2, Ptr.obj.injEq]
            split <;> split <;> ring
          simp only [this]
          rw [sum_add_distrib, sum_ite_eq, sum_ite_eq, if_pos m1, if_pos m2]
        rw [st]
        simp only [Gen.powerOf, Gen.potOf, f1, f2, r0, r1, r2, r3, r4, point_centre, sub_zero, distOf_sq,
          World.now, Body.pos, Body.vel]
        generalize (w.bodies b1).p_x = x1
        generalize (w.bodies b1).p_y = y1
        generalize (w.bodies b2).p_x = x2
        generalize (w.bodies b2).p_y = y2
        generalize (w.bodies b1).v_x = a1
        generalize (w.bodies b1).v_y = c1
        generalize (w.bodies b2).v_x = a2
        generalize (w.bodies b2).v_y = c2
        have key : ∀ r s d : ℝ, |dt / 2 * (r * (s - d))| ≤
            θ * (r ^ 2 / 2) + 1 / (4 * θ) * (dt ^ 2 * s ^ 2 + dt ^ 2 * d ^ 2) := by
          intro r s d
          have q : θ * (r ^ 2 / 2) + 1 / (4 * θ) * (dt ^ 2 * s ^ 2 + dt ^ 2 * d ^ 2) =
              (4 * θ ^ 2 * r ^ 2 + 2 * (dt * s) ^ 2 + 2 * (dt * d) ^ 2) / (8 * θ) := by
            field_simp
            ring
          rw [q, abs_le, neg_le, le_div_iff₀ (by positivity), le_div_iff₀ (by positivity)]
          constructor
          · nlinarith [sq_nonneg (2 * θ * r + dt * (s - d)), sq_nonneg (dt * (s + d))]
          · nlinarith [sq_nonneg (2 * θ * r - dt * (s - d)), sq_nonneg (dt * (s + d))]
        have kx := key (x1 - x2) a1 a2
        have ky := key (y1 - y2) c1 c2
        have : dt / 2 * -(p.ks * ((x1 - x2) * (a1 - a2) + (y1 - y2) * (c1 - c2))) =
            -(p.ks * (dt / 2 * ((x1 - x2) * (a1 - a2)) + dt / 2 * ((y1 - y2) * (c1 - c2)))) := by ring
        rw [this, abs_neg, abs_mul, abs_of_nonneg hp]
        refine (mul_le_mul_of_nonneg_left ((abs_add_le _ _).trans (add_le_add kx ky)) hp).trans
          (le_of_eq ?_)
        ring
    | gravity a => rw [e] at hp; exact hp.elim
    | static p => rw [e] at hp; exact hp.elim
    | motor p => rw [e] at hp; exact hp.elim
    | custom f => rw [e] at hp; exact hp.elim
  rw [World.power, mul_sum]
  refine (abs_sum_le_sum_abs _ _).trans ((sum_le_sum one).trans ?_)
  rw [sum_add_distrib, ← mul_sum, ← mul_sum, sum_comm, World.mechanical, mul_add, add_comm]
  refine add_le_add ?_ le_rfl
  rw [mul_sum, mul_sum]
  refine sum_le_sum fun b hb => ?_
  rw [← sum_mul, ← mul_sum]
  have q := mul_le_mul_of_nonneg_right (hs b hb)
    (show 0 ≤ (w.bodies b).v_x ^ 2 + (w.bodies b).v_y ^ 2 by positivity)
  refine (mul_le_mul_of_nonneg_left q (by positivity : 0 ≤ 1 / (4 * θ))).trans ?_
  simp only [Body.energy, fp_lit]
  push_cast
  have := mul_nonneg h0.le (mul_nonneg (hI b hb) (sq_nonneg (w.bodies b).v_theta))
  have e1 : 1 / (4 * θ) * (2 * θ ^ 2 * (w.bodies b).m * ((w.bodies b).v_x ^ 2 + (w.bodies b).v_y ^ 2)) =
      θ * (1 / 2 * (w.bodies b).m * ((w.bodies b).v_x ^ 2 + (w.bodies b).v_y ^ 2)) := by
    field_simp
    ring
  rw [e1]
  nlinarith

/-- **C113**: if the steps are short compared with the stiffness of the springs at every body, then the
mechanical energy stays between fixed multiples of its first value, however many calls are made. -/
theorem C113_bounded (hG : ∀ g, G g → g.OnlyForces) (hw : World.Hist G .opt h w)
    (hst : w.Standard h) (hc : regCons h = ∅) (hH : ∀ g ∈ regGens h, (w.gens g).Harmonic)
    (hP : ∀ g ∈ regGens h, (w.gens g).Pulls) (hI : ∀ b ∈ regBodies h, 0 ≤ (w.bodies b).I)
    {θ : ℝ} (h1 : 0 < θ) (h2 : θ < 1)
    (hs : ∀ b ∈ regBodies h, dt ^ 2 * ∑ g ∈ regGens h, (w.gens g).stiffAt b ≤
      2 * θ ^ 2 * (w.bodies b).m)
    {W : Nat → World ℝ} {envs : Nat → Env ℝ} (h0 : W 0 = w) {n : Nat}
    (e : ∀ i, i < n → (W i).process .opt (envs i) dt 1 = .ok (W (i + 1)))
    (hd : ∀ i, i < n → ∀ g ∈ regGens h, (w.gens g).Long fun b => ((W i).bodies b).pos) :
    (1 - θ) / (1 + θ) * w.mechanical h ≤ (W n).mechanical h ∧
      (W n).mechanical h ≤ (1 + θ) / (1 - θ) * w.mechanical h := by
  have inv := C113_invariant hG hw hst hc hH h0 e hd
  obtain ⟨h', a, b1, b2, b3, c, m⟩ := run_hist hw hst h0 n e
  have p0 := abs_le.mp (power_le hst hH hP h1 hI hs)
  have pn := abs_le.mp (power_le (w := W n) (h := h') c (fun g hg => by rw [m.gens]; exact hH g (b3 ▸ hg))
    (fun g hg => by rw [m.gens]; exact hP g (b3 ▸ hg)) h1
    (fun b hb => by rw [m.inertia]; exact hI b (b1 ▸ hb))
    (fun b hb => by rw [m.mass, b3, m.gens]; exact hs b (b1 ▸ hb)))
  simp only [World.mechanical, World.power, b1, b3] at pn p0 inv ⊢
  constructor
  · rw [div_mul_eq_mul_div, div_le_iff₀ (by linarith)]
    nlinarith [pn.1, pn.2, p0.1, p0.2]
  · rw [div_mul_eq_mul_div, le_div_iff₀ (by linarith)]
    nlinarith [pn.1, pn.2, p0.1, p0.2]

/-! ### A pair of bodies that runs forever -/

/-- A system without constraints with Gaussian elimination that is processed again and again: no call
fails. -/
theorem calls_succeed (hG : ∀ g, G g → g.OnlyForces) (hw : World.Hist G .opt h w)
    (hst : w.Standard h) (hc : regCons h = ∅)
    (hm : ∀ b ∈ regBodies h, (w.bodies b).m ≠ 0 ∧ (w.bodies b).I ≠ 0) (hdt : dt ≠ 0)
    (hsle : w.sle = some .ge) (hp : processedDts h = []) (envs : Nat → Env ℝ) (n : Nat) :
    (w.calls envs dt n).process .opt (envs n) dt 1 = .ok (w.calls envs dt (n + 1)) ∧
      ∃ h', World.Hist G .opt h' (w.calls envs dt n) ∧ regBodies h' = regBodies h ∧
        regCons h' = regCons h ∧ regGens h' = regGens h ∧ (w.calls envs dt n).Standard h' ∧
        w.Moves (w.calls envs dt n) := by
  have pick : ∀ n, (∃ w', (w.calls envs dt n).process .opt (envs n) dt 1 = .ok w') →
      (w.calls envs dt n).process .opt (envs n) dt 1 = .ok (w.calls envs dt (n + 1)) := by
    rintro n ⟨w', e⟩
    rw [World.calls, e]
  have key : ∀ n, ((w.calls envs dt n).mem.mat .ivLambda).height = 0 ∧
      ∃ h', World.Hist G .opt h' (w.calls envs dt n) ∧ regBodies h' = regBodies h ∧
        regCons h' = regCons h ∧ regGens h' = regGens h ∧ (w.calls envs dt n).Standard h' ∧
        w.Moves (w.calls envs dt n) := by
    intro n
    induction n with
    | zero => exact ⟨(hw.unprocessed hp).1, h, hw, rfl, rfl, rfl, hst, World.Moves.refl w⟩
    | succ n ih =>
      obtain ⟨k, h', a, b1, b2, b3, c, m⟩ := ih
      have en := pick n (a.empty_goes hG c (b2.trans hc)
        (fun b hb => by rw [m.mass, m.inertia]; exact hm b (b1 ▸ hb)) hdt (m.sle.trans hsle) k (envs n))
      have mv := C56_process_only_moves a en
      have kk := a.kept hG c.wired en (by norm_num) (m.sle.trans hsle)
      refine ⟨kk.height.trans ?_, .process (envs n) dt 1 :: h', a.step _ trivial en, b1, b2, b3,
        mv.standard c, m.trans mv⟩
      rw [World.fullCount, a.regs.cs_nil.mpr (b2.trans hc)]
      rfl
  obtain ⟨k, h', a, b1, b2, b3, c, m⟩ := key n
  exact ⟨pick n (a.empty_goes hG c (b2.trans hc)
    (fun b hb => by rw [m.mass, m.inertia]; exact hm b (b1 ▸ hb)) hdt (m.sle.trans hsle) k (envs n)),
    h', a, b1, b2, b3, c, m⟩

/-- Twice the rate at which the line between the centres of two bodies sweeps out area. -/
def areaRate (a b : Body ℝ) : ℝ :=
  (a.p_x - b.p_x) * (a.v_y - b.v_y) - (a.p_y - b.p_y) * (a.v_x - b.v_x)

/-- The force on a body as a power. -/
theorem load_eq {g : Gen ℝ} (hg : g.Harmonic) {m : Nat → ℝ} {S : Finset Nat}
    (hw : g.Within (· ∈ S)) {x : Motion} (hd : g.Long x.pos) {b : Nat} (hb : b ∈ S) (q : Coord) :
    g.load (m b) x b q = g.powerOf m S x.pos fun b' q' => if b' = b ∧ q' = q then 1 else 0 := by
  rw [← Gen.load_power hg hw hd, sum_eq_single_of_mem b hb fun b' _ hne => by simp [Coord.sum, hne]]
  cases q <;> simp [Coord.sum]

/-- A call keeps the area rate of two bodies joined by the only spring. -/
theorem area_call (hG : ∀ g, G g → g.OnlyForces) (hw : World.Hist G .opt h w)
    (hst : w.Standard h) (hc : regCons h = ∅) {g : Nat} (hg : regGens h = {g}) {p : Spring ℝ}
    (hp : w.gens g = .spring p) (hH : (w.gens g).Harmonic) {b1 b2 : Nat} (h1 : p.body1 = .obj b1)
    (h2 : p.body2 = .obj b2) (hd : (w.gens g).Long fun b => (w.bodies b).pos)
    (e : w.process .opt env dt 1 = .ok w') :
    areaRate (w'.bodies b1) (w'.bodies b2) = areaRate (w.bodies b1) (w.bodies b2) := by
  by_cases hne : b1 = b2
  · subst hne; simp [areaRate]
  obtain ⟨x, mult, s, hx⟩ := hw.one_move hG hst e
  obtain ⟨_, _, _, hm⟩ := hw.moved hG hst e
  have r := hw.regs
  have hcs := r.cs_nil.mpr hc
  have hgm : g ∈ regGens h := by rw [hg]; exact mem_singleton_self g
  have hW := hst.gens g hgm
  have hW' := within_congr hW fun b hb => List.mem_toFinset.mpr ((r.bodies.mem b).mpr hb)
  have m1 : b1 ∈ w.rb := by
    rw [hp] at hW
    rcases hW with f | ⟨⟨b, hb, f⟩, _⟩
    · rw [h1] at f; cases f
    · rw [h1] at f; cases f; exact (r.bodies.mem _).mpr hb
  have m2 : b2 ∈ w.rb := by
    rw [hp] at hW
    rcases hW with f | ⟨_, f | ⟨b, hb, f⟩⟩
    · rw [h1] at f; cases f
    · rw [h2] at f; cases f
    · rw [h2] at f; cases f; exact (r.bodies.mem _).mpr hb
  have load : ∀ b ∈ w.rb, ∀ q, w.load w.now b q = (Gen.spring p).powerOf (fun b => (w.bodies b).m)
      w.rb.toFinset w.now.pos fun b' q' => if b' = b ∧ q' = q then 1 else 0 := by
    intro b hb q
    rw [World.load, r.fg_finset, hg, sum_singleton, ← hp]
    exact load_eq hH hW' hd (List.mem_toFinset.mpr hb) q (m := fun b => (w.bodies b).m)
  have vel : ∀ b ∈ w.rb, ∀ q, (w'.bodies b).vel q = (w.bodies b).vel q +
      dt * ((Gen.spring p).powerOf (fun b => (w.bodies b).m)
      w.rb.toFinset w.now.pos (fun b' q' => if b' = b ∧ q' = q then 1 else 0) / (w.bodies b).mass q) := by
    intro b hb q
    rw [← (hx b hb q).2, s.vel b hb q, s.acc b hb q, load b hb q]
    have z : w.conForce (w.reaction w.now mult) b q = 0 := by rw [World.conForce, hcs]; simp
    rw [z, add_zero]
    rfl
  have pos : ∀ b ∈ w.rb, ∀ q, (w'.bodies b).pos q = (w.bodies b).pos q + dt * (w'.bodies b).vel q := by
    intro b hb q
    rw [← (hx b hb q).1, s.pos b hb q, (hx b hb q).2]
    rfl
  have ne1 := hm.mass b1 m1 .x
  have ne2 := hm.mass b2 m2 .x
  have p1x := pos b1 m1 .x
  have p1y := pos b1 m1 .y
  have p2x := pos b2 m2 .x
  have p2y := pos b2 m2 .y
  have v1x := vel b1 m1 .x
  have v1y := vel b1 m1 .y
  have v2x := vel b2 m2 .x
  have v2y := vel b2 m2 .y
  simp only [Gen.powerOf, h1, h2, World.now, Body.mass, Body.pos, Body.vel, hne, Ne.symm hne, true_and,
    false_and, if_true, if_false, reduceCtorEq, and_true, and_false, and_self] at *
  simp only [areaRate, p1x, p1y, p2x, p2y, v1x, v1y, v2x, v2y]
  field_simp
  ring

/-- The relative motion of two bodies has at most the energy of the system. -/
theorem area_le (hm : ∀ b ∈ regBodies h, 0 < (w.bodies b).m ∧ 0 < (w.bodies b).I)
    (hP : ∀ g ∈ regGens h, (w.gens g).Pulls) {b1 b2 : Nat} (m1 : b1 ∈ regBodies h) (m2 : b2 ∈ regBodies h)
    (hne : b1 ≠ b2) : (w.bodies b1).m * (w.bodies b2).m / ((w.bodies b1).m + (w.bodies b2).m) *
      areaRate (w.bodies b1) (w.bodies b2) ^ 2 ≤
    (((w.bodies b1).p_x - (w.bodies b2).p_x) ^ 2 + ((w.bodies b1).p_y - (w.bodies b2).p_y) ^ 2) *
      (2 * w.mechanical h) := by
  have en : ∀ b ∈ regBodies h, (w.bodies b).m * ((w.bodies b).v_x ^ 2 + (w.bodies b).v_y ^ 2) ≤
      2 * (w.bodies b).energy ∧ 0 ≤ (w.bodies b).energy := by
    intro b hb
    obtain ⟨a, c⟩ := hm b hb
    simp only [Body.energy, fp_lit]
    push_cast
    have t1 := mul_nonneg a.le (sq_nonneg (w.bodies b).v_x)
    have t2 := mul_nonneg a.le (sq_nonneg (w.bodies b).v_y)
    have t3 := mul_nonneg c.le (sq_nonneg (w.bodies b).v_theta)
    constructor <;> nlinarith
  have st : 0 ≤ ∑ g ∈ regGens h, (w.gens g).stored (regBodies h) w.bodies := by
    refine sum_nonneg fun g hg => ?_
    have hp := hP g hg
    rw [stored_now]
    cases e : w.gens g with
    | spring p =>
      rw [e] at hp
      have hp : 0 ≤ p.ks := hp
      cases f1 : p.body1 with
      | obj b1 =>
        cases f2 : p.body2 with
        | obj b2 => simp only [Gen.potOf, f1, f2]; positivity
        | _ => simp only [Gen.potOf, f1, f2]; exact le_rfl
      | _ => simp only [Gen.potOf, f1]; exact le_rfl
    | gravity a => rw [e] at hp; exact hp.elim
    | static p => rw [e] at hp; exact hp.elim
    | motor p => rw [e] at hp; exact hp.elim
    | custom f => rw [e] at hp; exact hp.elim
  have two : (w.bodies b1).energy + (w.bodies b2).energy ≤ w.mechanical h := by
    have : (w.bodies b1).energy + (w.bodies b2).energy ≤ ∑ b ∈ regBodies h, (w.bodies b).energy := by
      rw [← sum_pair hne (f := fun b => (w.bodies b).energy)]
      refine sum_le_sum_of_subset_of_nonneg (fun b hb => ?_) fun b hb _ => (en b hb).2
      rcases mem_insert.mp hb with rfl | hb
      · exact m1
      · rw [mem_singleton.mp hb]; exact m2
    rw [World.mechanical]
    linarith
  have e1 := (en b1 m1).1
  have e2 := (en b2 m2).1
  have a1 := (hm b1 m1).1
  have a2 := (hm b2 m2).1
  generalize w.mechanical h = E at *
  simp only [areaRate]
  generalize (w.bodies b1).energy = E1 at *
  generalize (w.bodies b2).energy = E2 at *
  generalize (w.bodies b1).m = μ at *
  generalize (w.bodies b2).m = ν at *
  generalize (w.bodies b1).v_x = a at *
  generalize (w.bodies b2).v_x = a' at *
  generalize (w.bodies b1).v_y = c at *
  generalize (w.bodies b2).v_y = c' at *
  have u : μ * ν / (μ + ν) * ((a - a') ^ 2 + (c - c') ^ 2) ≤ 2 * E := by
    have : μ * ν * ((a - a') ^ 2 + (c - c') ^ 2) ≤
        (μ * (a ^ 2 + c ^ 2) + ν * (a' ^ 2 + c' ^ 2)) * (μ + ν) := by
      nlinarith [sq_nonneg (μ * a + ν * a'), sq_nonneg (μ * c + ν * c')]
    rw [div_mul_eq_mul_div, div_le_iff₀ (by linarith)]
    refine this.trans (mul_le_mul_of_nonneg_right (by linarith) (by linarith))
  generalize (w.bodies b1).p_x - (w.bodies b2).p_x = X
  generalize (w.bodies b1).p_y - (w.bodies b2).p_y = Y
  have l : (X * (c - c') - Y * (a - a')) ^ 2 ≤ (X ^ 2 + Y ^ 2) * ((a - a') ^ 2 + (c - c') ^ 2) := by
    nlinarith [sq_nonneg (X * (a - a') + Y * (c - c'))]
  have k := mul_le_mul_of_nonneg_left l (show 0 ≤ μ * ν / (μ + ν) by positivity)
  have k' := mul_le_mul_of_nonneg_left u (show 0 ≤ X ^ 2 + Y ^ 2 by positivity)
  linarith

/-- **C113**: two bodies joined by an undamped spring of rest length zero that circle each other fast
enough do so forever: every one of infinitely many calls succeeds, the bodies never come closer than 0.01,
the line between them sweeps out area at a constant rate and the mechanical energy stays between fixed
multiples of its first value. -/
theorem C113_orbit (hG : ∀ g, G g → g.OnlyForces) (hw : World.Hist G .opt h w)
    (hst : w.Standard h) (hc : regCons h = ∅) (hsle : w.sle = some .ge) (hnew : processedDts h = [])
    (hm : ∀ b ∈ regBodies h, 0 < (w.bodies b).m ∧ 0 < (w.bodies b).I) (hdt : dt ≠ 0)
    {g : Nat} (hg : regGens h = {g}) {p : Spring ℝ} (hp : w.gens g = .spring p)
    (hH : (w.gens g).Harmonic) (hk : 0 ≤ p.ks) {b1 b2 : Nat} (h1 : p.body1 = .obj b1)
    (h2 : p.body2 = .obj b2) {θ : ℝ} (t0 : 0 < θ) (t1 : θ < 1)
    (s1 : dt ^ 2 * p.ks ≤ 2 * θ ^ 2 * (w.bodies b1).m) (s2 : dt ^ 2 * p.ks ≤ 2 * θ ^ 2 * (w.bodies b2).m)
    (ha : areaRate (w.bodies b1) (w.bodies b2) ≠ 0)
    (hf : (1 / 100) ^ 2 * (2 * ((1 + θ) / (1 - θ) * w.mechanical h)) ≤
      (w.bodies b1).m * (w.bodies b2).m / ((w.bodies b1).m + (w.bodies b2).m) *
        areaRate (w.bodies b1) (w.bodies b2) ^ 2) (envs : Nat → Env ℝ) (n : Nat) :
    (w.calls envs dt n).process .opt (envs n) dt 1 = .ok (w.calls envs dt (n + 1)) ∧
    1 / 100 ≤ distOf (((w.calls envs dt n).bodies b1).p_x, ((w.calls envs dt n).bodies b1).p_y)
      (((w.calls envs dt n).bodies b2).p_x, ((w.calls envs dt n).bodies b2).p_y) ∧
    areaRate ((w.calls envs dt n).bodies b1) ((w.calls envs dt n).bodies b2) =
      areaRate (w.bodies b1) (w.bodies b2) ∧
    (1 - θ) / (1 + θ) * w.mechanical h ≤ (w.calls envs dt n).mechanical h ∧
      (w.calls envs dt n).mechanical h ≤ (1 + θ) / (1 - θ) * w.mechanical h := by
  have hne : b1 ≠ b2 := by
    rintro rfl
    exact ha (by simp [areaRate])
  have hgm : g ∈ regGens h := by rw [hg]; exact mem_singleton_self g
  have hW := hst.gens g hgm
  rw [hp] at hW
  have m1 : b1 ∈ regBodies h := by
    rcases hW with f | ⟨⟨b, hb, f⟩, _⟩
    · rw [h1] at f; cases f
    · rw [h1] at f; cases f; exact hb
  have m2 : b2 ∈ regBodies h := by
    rcases hW with f | ⟨_, f | ⟨b, hb, f⟩⟩
    · rw [h1] at f; cases f
    · rw [h2] at f; cases f
    · rw [h2] at f; cases f; exact hb
  have hHs : ∀ g ∈ regGens h, (w.gens g).Harmonic := by
    intro g' hg'
    rw [hg, mem_singleton] at hg'
    rw [hg']
    exact hH
  have hPs : ∀ g ∈ regGens h, (w.gens g).Pulls := by
    intro g' hg'
    rw [hg, mem_singleton] at hg'
    rw [hg', hp]
    exact hk
  have stiff : ∀ b ∈ regBodies h, dt ^ 2 * ∑ g ∈ regGens h, (w.gens g).stiffAt b ≤
      2 * θ ^ 2 * (w.bodies b).m := by
    intro b hb
    rw [hg, sum_singleton, hp]
    simp only [Gen.stiffAt, h1, h2, Ptr.obj.injEq]
    by_cases e1 : b1 = b
    · subst e1
      rw [if_pos rfl, if_neg hne.symm, add_zero]
      exact s1
    · rw [if_neg e1, zero_add]
      by_cases e2 : b2 = b
      · subst e2
        rw [if_pos rfl]
        exact s2
      · rw [if_neg e2, mul_zero]
        have := (hm b hb).1
        positivity
  have run := fun n => calls_succeed hG hw hst hc
    (fun b hb => ⟨(hm b hb).1.ne', (hm b hb).2.ne'⟩) hdt hsle hnew envs n
  have bound := fun n hd => C113_bounded hG hw hst hc hHs hPs (fun b hb => (hm b hb).2.le) t0 t1 stiff
    (W := w.calls envs dt) (envs := envs) rfl (n := n) (fun i _ => (run i).1) hd
  have dist : ∀ n, areaRate ((w.calls envs dt n).bodies b1) ((w.calls envs dt n).bodies b2) =
      areaRate (w.bodies b1) (w.bodies b2) →
      (w.calls envs dt n).mechanical h ≤ (1 + θ) / (1 - θ) * w.mechanical h →
      1 / 100 ≤ distOf (((w.calls envs dt n).bodies b1).p_x, ((w.calls envs dt n).bodies b1).p_y)
        (((w.calls envs dt n).bodies b2).p_x, ((w.calls envs dt n).bodies b2).p_y) := by
    intro n ea ee
    obtain ⟨_, h', a, c1, c2, c3, st, mv⟩ := run n
    have k := area_le (fun b hb => by rw [mv.mass, mv.inertia]; exact hm b (c1 ▸ hb))
      (fun g hg => by rw [mv.gens]; exact hPs g (c3 ▸ hg)) (c1 ▸ m1) (c1 ▸ m2) hne
    rw [show (w.calls envs dt n).mechanical h' = (w.calls envs dt n).mechanical h by
      simp only [World.mechanical, c1, c3], ea, mv.mass, mv.mass] at k
    have pos : 0 < (w.bodies b1).m * (w.bodies b2).m / ((w.bodies b1).m + (w.bodies b2).m) *
        areaRate (w.bodies b1) (w.bodies b2) ^ 2 := by
      have := (hm b1 m1).1
      have := (hm b2 m2).1
      positivity
    refine Real.le_sqrt_of_sq_le ?_
    have sw : ∀ x y : ℝ, (x - y) ^ 2 = (y - x) ^ 2 := fun x y => by ring
    simp only
    rw [sw, sw (((w.calls envs dt n).bodies b2).p_y)]
    have R0 : 0 ≤ (((w.calls envs dt n).bodies b1).p_x - ((w.calls envs dt n).bodies b2).p_x) ^ 2 +
      (((w.calls envs dt n).bodies b1).p_y - ((w.calls envs dt n).bodies b2).p_y) ^ 2 := by positivity
    generalize (((w.calls envs dt n).bodies b1).p_x - ((w.calls envs dt n).bodies b2).p_x) ^ 2 +
      (((w.calls envs dt n).bodies b1).p_y - ((w.calls envs dt n).bodies b2).p_y) ^ 2 = R at *
    have k2 := k.trans (mul_le_mul_of_nonneg_left (mul_le_mul_of_nonneg_left ee (by norm_num)) R0)
    have c0 : 0 < 2 * ((1 + θ) / (1 - θ) * w.mechanical h) := by
      by_contra hle
      push Not at hle
      nlinarith
    exact le_of_mul_le_mul_right (hf.trans k2) c0
  have hap : ∀ n, (∀ i, i < n → ∀ g ∈ regGens h,
      (w.gens g).Long fun b => ((w.calls envs dt i).bodies b).pos) ∧
      areaRate ((w.calls envs dt n).bodies b1) ((w.calls envs dt n).bodies b2) =
        areaRate (w.bodies b1) (w.bodies b2) := by
    intro n
    induction n with
    | zero => exact ⟨fun i hi => absurd hi (by omega), rfl⟩
    | succ n ih =>
      have dn := dist n ih.2 (bound n ih.1).2
      have ap : ∀ g ∈ regGens h, (w.gens g).Long fun b => ((w.calls envs dt n).bodies b).pos := by
        intro g' hg'
        rw [hg, mem_singleton] at hg'
        rw [hg', hp]
        intro c1 c2 f1 f2
        rw [h1] at f1
        rw [h2] at f2
        cases f1
        cases f2
        exact dn
      refine ⟨fun i hi => ?_, ?_⟩
      · rcases Nat.lt_succ_iff_lt_or_eq.mp hi with hi | rfl
        · exact ih.1 i hi
        · exact ap
      · obtain ⟨en, h', a, c1, c2, c3, st, mv⟩ := run n
        rw [← ih.2]
        exact area_call hG a st (c2.trans hc) (c3.trans hg) (by rw [mv.gens]; exact hp)
          (by rw [mv.gens]; exact hH) h1 h2 (by rw [mv.gens]; exact ap g hgm) en
  obtain ⟨q1, q2⟩ := hap n
  exact ⟨(run n).1, dist n q2 (bound n q1).2, q2, bound n q1⟩

/-- Two bodies of mass one that circle each other at distance one, with a spring of stiffness one. -/
noncomputable def orbitBody (b : Nat) : Body ℝ :=
  ⟨if b = 0 then 1 / 2 else -1 / 2, 0, 0, if b = 0 then 1 / 2 else -1 / 2, 0, 0, 1, 1, -1⟩

@[inherit_doc orbitBody]
def orbitSpring : Spring ℝ := ⟨0, 1, 0, 0, 0, 0, 0, .obj 0, .obj 1⟩

@[inherit_doc orbitBody]
structure Orbit (h : List (Op ℝ)) (w : World ℝ) : Prop where
  hist : World.Hist Gen.Shipped .opt h w
  bodies : ∀ b, { w.bodies b with index := -1 } = orbitBody b
  gens : ∀ g, w.gens g = .spring orbitSpring
  regB : regBodies h = {0, 1}
  regC : regCons h = ∅
  regG : regGens h = {0}
  sle : w.sle = some .ge
  new : processedDts h = []

theorem orbit : ∃ h w, Orbit h w := by
  obtain ⟨h, w, h1, h2, h3, h4, h5, h6, h7, h8⟩ := build (G := Gen.Shipped) orbitBody (demoCon .base)
    (gens := fun _ => .spring orbitSpring) (fun _ => trivial) (rb := [0, 1]) (cs := []) (fg := [0])
    (by decide) (by decide) (by decide) (some .ge) (fun _ _ => 0) (fun _ _ => 0)
  exact ⟨h, w, h1, h2.bodies, fun g => by rw [h2.gens], by rw [h3]; rfl, by rw [h4]; rfl,
    by rw [h5]; rfl, h7, h8⟩

namespace Orbit
variable (d : Orbit h w)
include d

theorem m (b : Nat) : (w.bodies b).m = 1 := congrArg Body.m (d.bodies b)
theorem I (b : Nat) : (w.bodies b).I = 1 := congrArg Body.I (d.bodies b)
theorem p_x (b : Nat) : (w.bodies b).p_x = if b = 0 then 1 / 2 else -1 / 2 :=
  congrArg Body.p_x (d.bodies b)
theorem p_y (b : Nat) : (w.bodies b).p_y = 0 := congrArg Body.p_y (d.bodies b)
theorem v_x (b : Nat) : (w.bodies b).v_x = 0 := congrArg Body.v_x (d.bodies b)
theorem v_y (b : Nat) : (w.bodies b).v_y = if b = 0 then 1 / 2 else -1 / 2 :=
  congrArg Body.v_y (d.bodies b)
theorem v_theta (b : Nat) : (w.bodies b).v_theta = 0 := congrArg Body.v_theta (d.bodies b)

theorem standard : w.Standard h where
  kind := fun c hc => absurd (d.regC ▸ hc) (by simp)
  bodies := fun c hc => absurd (d.regC ▸ hc) (by simp)
  gens := fun g _ => by
    rw [d.gens, d.regB]
    exact .inr ⟨⟨0, by simp, rfl⟩, .inr ⟨1, by simp, rfl⟩⟩
  near := fun c hc => absurd (d.regC ▸ hc) (by simp)

theorem harmonic (g : Nat) : (w.gens g).Harmonic := by
  rw [d.gens]
  exact ⟨rfl, rfl, rfl, rfl, rfl, rfl⟩

theorem energy : w.mechanical h = 3 / 4 := by
  rw [World.mechanical, d.regB, d.regG, sum_singleton, sum_pair (by decide), stored_now, d.gens]
  simp only [Body.energy, Gen.potOf, orbitSpring, point_centre, sub_zero, distOf_sq, d.m, d.I, d.v_x, d.v_y,
    d.v_theta, World.now, Body.pos, d.p_x, d.p_y, fp_lit]
  norm_num

theorem rate : areaRate (w.bodies 0) (w.bodies 1) = 1 := by
  simp only [areaRate, d.p_x, d.p_y, d.v_x, d.v_y]
  norm_num

theorem runs (envs : Nat → Env ℝ) (n : Nat) :
    (w.calls envs (1 / 2) n).process .opt (envs n) (1 / 2) 1 = .ok (w.calls envs (1 / 2) (n + 1)) ∧
    1 / 100 ≤ distOf (((w.calls envs (1 / 2) n).bodies 0).p_x, ((w.calls envs (1 / 2) n).bodies 0).p_y)
      (((w.calls envs (1 / 2) n).bodies 1).p_x, ((w.calls envs (1 / 2) n).bodies 1).p_y) ∧
    areaRate ((w.calls envs (1 / 2) n).bodies 0) ((w.calls envs (1 / 2) n).bodies 1) =
      areaRate (w.bodies 0) (w.bodies 1) ∧
    (1 - 1 / 2) / (1 + 1 / 2) * w.mechanical h ≤ (w.calls envs (1 / 2) n).mechanical h ∧
      (w.calls envs (1 / 2) n).mechanical h ≤ (1 + 1 / 2) / (1 - 1 / 2) * w.mechanical h :=
  C113_orbit (fun g => Gen.tame) d.hist d.standard d.regC d.sle d.new
    (fun b _ => ⟨by rw [d.m]; exact one_pos, by rw [d.I]; exact one_pos⟩)
    (dt := 1 / 2) (by norm_num) d.regG (d.gens 0) (d.harmonic 0) (zero_le_one (α := ℝ)) rfl rfl (θ := 1 / 2)
    (by norm_num) (by norm_num) (by rw [d.m]; norm_num [orbitSpring])
    (by rw [d.m]; norm_num [orbitSpring]) (by rw [d.rate]; norm_num)
    (by rw [d.rate, d.energy, d.m, d.m]; norm_num) envs n

end Orbit

/-- The claim applied: the circling bodies have an energy between 1/4 and 9/4 after any number of calls
with a time step of 1/2, and the line between them sweeps out area at the same rate. -/
example : ∃ (h : List (Op ℝ)) (w : World ℝ), World.Hist Gen.Shipped .opt h w ∧ regBodies h = {0, 1} ∧
    w.mechanical h = 3 / 4 ∧ ∀ envs n,
      (w.calls envs (1 / 2) n).process .opt (envs n) (1 / 2) 1 = .ok (w.calls envs (1 / 2) (n + 1)) ∧
      areaRate ((w.calls envs (1 / 2) n).bodies 0) ((w.calls envs (1 / 2) n).bodies 1) = 1 ∧
      1 / 4 ≤ (w.calls envs (1 / 2) n).mechanical h ∧ (w.calls envs (1 / 2) n).mechanical h ≤ 9 / 4 := by
  obtain ⟨h, w, d⟩ := orbit
  refine ⟨h, w, d.hist, d.regB, d.energy, fun envs n => ?_⟩
  obtain ⟨a, -, c, e1, e2⟩ := d.runs envs n
  rw [d.energy] at e1 e2
  rw [d.rate] at c
  norm_num at e1 e2
  exact ⟨a, c, by linarith, by linarith⟩

/-- The hypotheses of the claims about any number of calls can be met for every number. -/
example (envs : Nat → Env ℝ) : ∃ (h : List (Op ℝ)) (w : World ℝ), World.Hist Gen.Shipped .opt h w ∧
    regBodies h = {0, 1} ∧ ∀ n, (w.calls envs (1 / 2) n).mechanical h +
      1 / 2 / 2 * (w.calls envs (1 / 2) n).power h = w.mechanical h + 1 / 2 / 2 * w.power h := by
  obtain ⟨h, w, d⟩ := orbit
  refine ⟨h, w, d.hist, d.regB, fun n => C113_invariant (fun g => Gen.tame) d.hist d.standard d.regC
    (fun g _ => d.harmonic g) rfl (fun i _ => (d.runs envs i).1) fun i _ g _ => ?_⟩
  rw [d.gens]
  intro b1 b2 f1 f2
  cases f1
  cases f2
  exact (d.runs envs i).2.1

end

end Scs
