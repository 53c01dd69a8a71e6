import Verif.PropsOdeWorld

/-!
# Bodies to which nothing is attached

C121: a body without constraints, springs and motors moves as a particle does under its weight and the
static forces on it, whatever happens to the other bodies.
-/

open Finset

namespace Scs

/-- The generator is no spring or motor attached to body `b`. -/
def Gen.Spares (g : Gen ℝ) (b : Nat) : Prop :=
  match g with
  | .spring p => p.body1 ≠ .obj b ∧ p.body2 ≠ .obj b
  | .motor p => p.body0 ≠ .obj b ∧ p.body1 ≠ .obj b
  | _ => True

/-- The force in the direction of `q` that a generator exerts on body `b` of mass `m`: the weight and static
forces. -/
noncomputable def Gen.pushOn (b : Nat) (m : ℝ) (g : Gen ℝ) (q : Coord) : ℝ :=
  match g, q with
  | .gravity a, .y => -m * a
  | .static p, .x => if p.body = .obj b then p.f_x else 0
  | .static p, .y => if p.body = .obj b then p.f_y else 0
  | _, _ => 0

/-- The generator is no static force on body `b` that acts beside its centre. -/
def Gen.Centred (g : Gen ℝ) (b : Nat) : Prop :=
  ∀ p, g = .static p → p.body = .obj b → p.p_x = 0 ∧ p.p_y = 0

theorem load_pushOn {g : Gen ℝ} {S : Nat → Prop} (hS : g.Within S) {b : Nat} (hg : g.Spares b) {q : Coord}
    (hq : q = .th → g.Centred b) (m : ℝ) (x : Motion) : g.load m x b q = g.pushOn b m q := by
  cases g with
  | gravity a => cases q <;> simp [Gen.load, Gen.pushOn]
  | static p =>
    simp only [Gen.load]
    by_cases hb : p.body = .obj b
    · rw [if_pos hb]
      cases q with
      | x => simp [Gen.pushOn, hb, Motion.wrench]
      | y => simp [Gen.pushOn, hb, Motion.wrench]
      | th =>
        obtain ⟨h1, h2⟩ := hq rfl p rfl hb
        simp [Gen.pushOn, Motion.wrench, Motion.point, h1, h2]
    · rw [if_neg hb]
      cases q <;> simp [Gen.pushOn, hb]
  | spring p =>
    have : Gen.pushOn b m (.spring p) q = 0 := by cases q <;> rfl
    rw [this]
    simp only [Gen.load]
    cases h1 : p.body1 <;> cases h2 : p.body2 <;> try rfl
    have k1 := hg.1
    have k2 := hg.2
    rw [h1] at k1
    rw [h2] at k2
    show (if _ then _ else _) + (if _ then _ else _) = (0 : ℝ)
    rw [if_neg (fun e : b = _ => k1 (by rw [e])), if_neg (fun e : b = _ => k2 (by rw [e])), add_zero]
  | motor p =>
    have : Gen.pushOn b m (.motor p) q = 0 := by cases q <;> rfl
    rw [this]
    simp only [Gen.load]
    cases h1 : p.body0 <;> cases h2 : p.body1 <;> try rfl
    have k1 := hg.1
    have k2 := hg.2
    rw [h1] at k1
    rw [h2] at k2
    show (if _ then _ else _) + (if _ then _ else _) = (0 : ℝ)
    rw [if_neg (fun e : b = _ => k1 (by rw [e])), if_neg (fun e : b = _ => k2 (by rw [e])), add_zero]
  | custom f => exact hS.elim

section
variable {G : Gen ℝ → Prop} {h : List (Op ℝ)} {w w' : World ℝ} {env : Env ℝ} {dt : ℝ} {steps : Int}
  {o : Ode ℝ}

/-- Nothing but gravity and static forces acts on body `b`; if `q` is the angle, the static forces act at
its centre. -/
structure World.Alone (w : World ℝ) (h : List (Op ℝ)) (b : Nat) (q : Coord) : Prop where
  mem : b ∈ regBodies h
  cons : ∀ c ∈ regCons h, ∀ k, k < (w.cons c).bodyCount → (w.cons c).bodies k ≠ .obj b
  gens : ∀ g ∈ regGens h, (w.gens g).Spares b
  centred : q = .th → ∀ g ∈ regGens h, (w.gens g).Centred b

/-- The acceleration of a body on which nothing but gravity and static forces acts. -/
noncomputable def World.fall (w : World ℝ) (h : List (Op ℝ)) (b : Nat) (q : Coord) : ℝ :=
  (∑ g ∈ regGens h, (w.gens g).pushOn b (w.bodies b).m q) / (w.bodies b).mass q

theorem World.Alone.acc {cls : Cls} {b : Nat} {q : Coord} (hb : w.Alone h b q) (hr : w.Regs cls h) (hst : w.Standard h)
    (x : Motion) (F : Nat → Coord → Nat → Nat → ℝ) :
    (w.load x b q + w.conForce F b q) / (w.bodies b).mass q = w.fall h b q := by
  have p := hr.placed hst.wired
  have hd := hst.driven hr
  have h1 : w.conForce F b q = 0 := by
    refine sum_eq_zero fun c hc => sum_eq_zero fun j _ => sum_eq_zero fun k hk => ?_
    rw [List.mem_toFinset] at hc
    rw [mem_range] at hk
    rw [if_neg]
    intro e
    have := (p.bodies c hc k hk).1
    rw [e] at this
    exact hb.cons c ((hr.cons.mem c).mp hc) k hk this
  rw [h1, add_zero, World.fall, World.load, hr.fg_finset]
  congr 1
  refine sum_congr rfl fun g hg => ?_
  exact load_pushOn (hd.2 g ((hr.gens.mem g).mpr hg)) (hb.gens g hg) (fun e => hb.centred e g hg) _ _

/-- **C121**, generic system: whatever the other bodies do, the velocity of a body to which no constraint,
spring or motor is attached changes by `dt` times its acceleration under gravity and static forces, and the
body moves by `dt` times the velocity plus `dt² / 2` times the acceleration: exactly with Runge-Kutta, with
an error inversely proportional to the number of sub-steps with the Euler and the semi-implicit solver. The
angle obeys the same law if the static forces act at the centre: the body keeps turning. Every linear
solver. -/
theorem C121_particle_generic (hG : ∀ g, G g → g.OnlyForces) (hw : World.Hist G .gen h w)
    (hst : w.Standard h) (hode : w.ode = some o) (ho : o.sort ≠ 0) (hsync : o.sort = 3 → InSync h)
    (hs : 0 < steps) (e : w.process .gen env dt steps = .ok w') {b : Nat} {q : Coord}
    (hb : w.Alone h b q) :
    (w'.bodies b).vel q = (w.bodies b).vel q + dt * w.fall h b q ∧
      (w'.bodies b).pos q = (w.bodies b).pos q + dt * (w.bodies b).vel q +
        dt ^ 2 / 2 * o.lag steps * w.fall h b q := by
  obtain ⟨X, hX⟩ := hw.ode_moved hG hst hode ho hsync e
  have hbm := (hw.regs.bodies.mem b).mpr hb.mem
  have st : ∀ j, j < steps.toNat →
      (X (j + 1)).vel b q = (X j).vel b q + dt / steps * w.fall h b q ∧
      (X (j + 1)).pos b q = (X j).pos b q + dt / steps * (X j).vel b q +
        (dt / steps) ^ 2 / 2 * o.lag 1 * w.fall h b q := by
    intro j hj
    have t := hX.step j hj
    cases o with
    | base d => exact t.elim
    | euler d =>
      obtain ⟨mult, t⟩ := t
      rw [t.vel b hbm q, t.pos b hbm q, t.acc.newton b hbm q, hb.acc hw.regs hst]
      simp [Ode.lag]
    | nsv d =>
      obtain ⟨mult, t⟩ := t
      rw [t.pos b hbm q, if_pos rfl, t.vel b hbm q, t.acc.newton b hbm q, hb.acc hw.regs hst]
      simp only [Ode.lag]
      exact ⟨trivial, by ring⟩
    | rk4 r =>
      obtain ⟨a, mult, t⟩ := t
      rw [t.vel b hbm q, t.pos b hbm q, t.acc1.newton b hbm q, t.acc2.newton b hbm q,
        t.acc3.newton b hbm q, t.acc4.newton b hbm q, hb.acc hw.regs hst, hb.acc hw.regs hst,
        hb.acc hw.regs hst, hb.acc hw.regs hst]
      simp only [Ode.lag]
      exact ⟨by ring, by ring⟩
  obtain ⟨k1, k2⟩ := steps_thrust (P := fun j => (X j).vel b q) (Q := fun j => (X j).pos b q)
    (fun j hj => (st j hj).1) (fun j hj => (st j hj).2) _ (Nat.le_refl _)
  have hn : ((steps.toNat : Nat) : ℝ) = (steps : ℝ) := by
    exact_mod_cast Int.toNat_of_nonneg hs.le
  have hd : (steps : ℝ) * (dt / steps) = dt := by
    have : (steps : ℝ) ≠ 0 := by exact_mod_cast hs.ne'
    field_simp
  simp only [hn, hd, hX.first] at k1 k2
  obtain ⟨l1, l2⟩ := hX.last b hbm q
  exact ⟨l2.symm.trans k1, l1.symm.trans k2⟩

/-- The second body of the demonstration is alone. -/
theorem demo_alone {a : ℝ} (rc : regCons h = {0}) (rg : regGens h = {0}) (rb : 1 ∈ regBodies h)
    (hn : (w.cons 0).bodyCount = 1) (hc : (w.cons 0).bodies 0 = .obj 0) (hg : w.gens 0 = .gravity a)
    (q : Coord) : w.Alone h 1 q where
  mem := rb
  cons := fun c hc' k hk => by
    rw [rc, mem_singleton] at hc'
    subst hc'
    obtain rfl : k = 0 := by omega
    rw [hc]
    nofun
  gens := fun g hg' => by
    rw [rg, mem_singleton] at hg'
    subst hg'
    rw [hg]
    trivial
  centred := fun _ g hg' => by
    rw [rg, mem_singleton] at hg'
    subst hg'
    rw [hg]
    nofun

/-- The claim applied to a body that flies past a pinned one, with the Runge-Kutta solver: it follows the
parabola. -/
example (env : Env ℝ) : ∃ (h : List (Op ℝ)) (w w' : World ℝ), World.Hist Gen.Shipped .gen h w ∧
    (w.cons 0).kind = .fixedPosition ⟨1, 0, 0, 0, 10, 1⟩ ∧ w.process .gen env 2 4 = .ok w' ∧
    (w'.bodies 1).v_y = 4 - 2 * 9 ∧ (w'.bodies 1).p_y = 2 + 2 * 4 - 2 ^ 2 / 2 * 9 := by
  obtain ⟨h, w, w', d, hs, hst, e⟩ := demo_genOde (.inr (pins_fixed ⟨1, 0, 0, 0, 10, 1⟩))
    (g := .gravity 9) trivial trivial (sv := .cg 2 0 0) (le_refl 2) (by simp)
    (o := .rk4 newRk4) (.inr (.inr rfl)) 2 4 env
  have q := C121_particle_generic (fun g => Gen.tame) d.hist hst d.ode (by decide) (fun _ => hs)
    (by decide) e (demo_alone d.regC d.regG
      (by rw [d.regB]; decide) (d.count 0) (d.bodies 0 0) (d.gens 0) .y)
  refine ⟨h, w, w', d.hist, d.kind 0, e, ?_⟩
  have f : w.fall h 1 .y = -9 := by
    simp [World.fall, d.regG, d.gens, d.mass, Gen.pushOn, d.m]
  have v1 : (w.bodies 1).vel .y = 4 := d.vel 1 .y
  have p1 : (w.bodies 1).pos .y = 2 := (d.pos 1 .y).trans (by simp [demoBody, Body.pos])
  rw [f, v1, p1] at q
  refine ⟨q.1.trans (by norm_num), q.2.trans (by simp [Ode.lag]; norm_num)⟩

/-- **C121**, optimized system. -/
theorem C121_particle_optimized (hG : ∀ g, G g → g.OnlyForces) (hw : World.Hist G .opt h w)
    (hst : w.Standard h) (hs : 0 < steps) (e : w.process .opt env dt steps = .ok w') {b : Nat} {q : Coord}
    (hb : w.Alone h b q) :
    (w'.bodies b).vel q = (w.bodies b).vel q + dt * w.fall h b q ∧
      (w'.bodies b).pos q = (w.bodies b).pos q + dt * (w.bodies b).vel q +
        dt ^ 2 / 2 * (1 + 1 / steps) * w.fall h b q := by
  obtain ⟨X, mult, h0, hX⟩ := hw.moved hG hst e
  have hbm := (hw.regs.bodies.mem b).mpr hb.mem
  have st : ∀ j, j < steps.toNat →
      (X (j + 1)).vel b q = (X j).vel b q + dt / steps * w.fall h b q ∧
      (X (j + 1)).pos b q = (X j).pos b q + dt / steps * (X j).vel b q +
        (dt / steps) ^ 2 / 2 * (Ode.newNsv : Ode ℝ).lag 1 * w.fall h b q := by
    intro j hj
    have t := hX.step j hj
    rw [t.pos b hbm q, t.vel b hbm q, t.acc b hbm q, hb.acc hw.regs hst]
    simp only [Ode.newNsv, Ode.lag]
    exact ⟨trivial, by ring⟩
  obtain ⟨k1, k2⟩ := steps_thrust (P := fun j => (X j).vel b q) (Q := fun j => (X j).pos b q)
    (fun j hj => (st j hj).1) (fun j hj => (st j hj).2) _ (Nat.le_refl _)
  have hn : ((steps.toNat : Nat) : ℝ) = (steps : ℝ) := by
    exact_mod_cast Int.toNat_of_nonneg hs.le
  have hd : (steps : ℝ) * (dt / steps) = dt := by
    have : (steps : ℝ) ≠ 0 := by exact_mod_cast hs.ne'
    field_simp
  simp only [hn, hd, h0] at k1 k2
  obtain ⟨l1, l2⟩ := hX.last b hbm q
  exact ⟨l2.symm.trans k1, l1.symm.trans k2⟩

/-- The claim applied to a body that flies past a pinned one. -/
example (env : Env ℝ) : ∃ (h : List (Op ℝ)) (w w' : World ℝ), World.Hist Gen.Shipped .opt h w ∧
    (w.cons 0).kind = .fixedPosition ⟨1, 0, 0, 0, 10, 1⟩ ∧ w.process .opt env 2 4 = .ok w' ∧
    (w'.bodies 1).v_y = 4 - 2 * 9 ∧ (w'.bodies 1).p_y = 2 + 2 * 4 - 5 / 4 * (2 ^ 2 / 2 * 9) := by
  obtain ⟨h, w, w', d, hst, e⟩ := demo_pins (pins_fixed ⟨1, 0, 0, 0, 10, 1⟩)
    (g := .gravity 9) trivial trivial (sv := .cg 2 0 0) (le_refl 2) (by simp) (two_ne_zero) 4 env
  have q := C121_particle_optimized (fun g => Gen.tame) d.hist hst (by decide) e
    (demo_alone d.regC d.regG
      (by rw [d.regB]; decide) (d.count 0) (d.bodies 0 0) (d.gens 0) .y)
  refine ⟨h, w, w', d.hist, d.kind 0, e, ?_⟩
  have f : w.fall h 1 .y = -9 := by
    simp [World.fall, d.regG, d.gens, d.mass, Gen.pushOn, d.m]
  have v1 : (w.bodies 1).vel .y = 4 := d.vel 1 .y
  have p1 : (w.bodies 1).pos .y = 2 := (d.pos 1 .y).trans (by simp [demoBody, Body.pos])
  rw [f, v1, p1] at q
  refine ⟨q.1.trans (by norm_num), q.2.trans (by norm_num)⟩

end

end Scs
