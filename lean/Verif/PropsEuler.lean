import Verif.WorldEuler
import Verif.PropsSpring

/-!
# Undamped springs with the explicit solver

C115: in the generic system the explicit Euler solver adds energy to undamped springs in every step, by an
amount that can be read off the bodies, so that a pair of bodies that should circle each other forever
spirals outwards without bound; the semi-implicit solver keeps the quantity of C113.
-/

namespace Scs

open Finset

/-! ## C115 -/

/-- The kinetic energy of a body with the mass of `a` that moves with the difference of the velocities. -/
noncomputable def kick (a b : Body ℝ) : ℝ :=
  (a.m * ((b.v_x - a.v_x) ^ 2 + (b.v_y - a.v_y) ^ 2) + a.I * (b.v_theta - a.v_theta) ^ 2) / 2

/-- For a spring the stiffness times the square of the relative velocity of the bodies at its ends. -/
noncomputable def Gen.shear (g : Gen ℝ) (bodies : Nat → Body ℝ) : ℝ :=
  match g with
  | .spring p => match p.body1, p.body2 with
    | .obj b1, .obj b2 => p.ks * (((bodies b1).v_x - (bodies b2).v_x) ^ 2 +
        ((bodies b1).v_y - (bodies b2).v_y) ^ 2)
    | _, _ => 0
  | _ => 0

/-- If it is a spring, it does not push. -/
def Gen.Firm (g : Gen ℝ) : Prop :=
  match g with
  | .spring p => 0 ≤ p.ks
  | _ => True

/-- The energy of the relative motion of two bodies on a spring of stiffness `k` and rest length zero. -/
noncomputable def pairEnergy (k : ℝ) (a b : Body ℝ) : ℝ :=
  a.m * b.m / (a.m + b.m) * ((a.v_x - b.v_x) ^ 2 + (a.v_y - b.v_y) ^ 2) / 2 +
    k * ((a.p_x - b.p_x) ^ 2 + (a.p_y - b.p_y) ^ 2) / 2

section
variable {G : Gen ℝ → Prop} {h : List (Op ℝ)} {w w' : World ℝ} {env : Env ℝ} {dt : ℝ} {o : Ode ℝ}
  {sym : Bool}

/-- The motion of a single call. -/
theorem World.Hist.one_gmove (hG : ∀ g, G g → g.OnlyForces) (hw : World.Hist G .gen h w)
    (hst : w.Standard h) (hode : w.ode = some o) (ho : o.isSym sym)
    (e : w.process .gen env dt 1 = .ok w') :
    ∃ x mult, w.GMove sym dt w.now x mult ∧ w.Shows x w'.bodies ∧
      ∀ b ∈ w.rb, ∀ q : Coord, (w.bodies b).mass q ≠ 0 := by
  obtain ⟨X, mult, r, h0, hm⟩ := hw.gmoved hG hst hode ho e
  have s := hm.step 0 (by decide)
  rw [h0] at s
  simp only [Int.cast_one, div_one, zero_add] at s
  exact ⟨X 1, mult 0, s, hm.last, hm.mass⟩

/-- The mechanical energy that the bodies show. -/
theorem mech_shown {cls : Cls} (r : w.Regs cls h) (hst : w.Standard h) (r' : w'.Regs cls h)
    (mv : w.Moves w') {x : Motion} (hx : w.Shows x w'.bodies) : w'.mechanical h = w.mechOf x := by
  rw [mechanical_now r', World.mechOf, World.mechOf, World.energyOf, World.energyOf, mv.rb, mv.fg, mv.gens]
  congr 1
  · refine sum_congr rfl fun b hb => ?_
    have hb' := List.mem_toFinset.mp hb
    congr 1
    refine Coord.sum_congr fun q => ?_
    rw [(hx b hb' q).2]
    congr 1
    cases q <;> simp [Body.mass, mv.mass, mv.inertia]
  · refine sum_congr rfl fun g hg => ?_
    have hW := within_congr (hst.gens g ((r.gens.mem g).mp (List.mem_toFinset.mp hg)))
      fun b hb => (r.bodies.mem b).mpr hb
    rw [funext mv.mass]
    exact potOf_congr hW _ (y := x) (x := w'.now) fun b hb q => (hx b hb q).1.symm

/-- The power that the bodies show. -/
theorem power_shown {cls : Cls} (r : w.Regs cls h) (hst : w.Standard h) (r' : w'.Regs cls h)
    (mv : w.Moves w') {x : Motion} (hx : w.Shows x w'.bodies) : w'.power h = w.powerOf x := by
  rw [World.power, ← r'.rb_finset, ← r'.fg_finset,
    World.powerOf, mv.rb, mv.fg, mv.gens, funext mv.mass]
  refine sum_congr rfl fun g hg => ?_
  have hW := within_congr (hst.gens g ((r.gens.mem g).mp (List.mem_toFinset.mp hg)))
    fun b hb => List.mem_toFinset.mpr ((r.bodies.mem b).mpr hb)
  exact powerOf_congr hW _ (fun b hb q => (hx b (List.mem_toFinset.mp hb) q).1.symm)
    (fun b hb q => (hx b (List.mem_toFinset.mp hb) q).2.symm)

/-- A further call of `process` does not change what is registered. -/
theorem regs_after {cls : Cls} {steps : Int} (hw : World.Hist G cls h w)
    (e : w.process cls env dt steps = .ok w') : w'.Regs cls h :=
  have r := (hw.step (.process env dt steps) trivial e).regs
  ⟨r.bodies, r.cons, r.gens, r.nsv⟩

/-- **C115**: one call of `process(dt, 1)` of a generic system without constraints with the explicit Euler
solver, with gravity, constant forces at centres and undamped springs of rest length zero between centres
(which are at least 0.01 long before the call), adds to the mechanical energy the kinetic energy of the
changes of the velocities and `dt ^ 2 / 2` times the stiffness of every spring times the square of the
relative velocity of its ends. -/
theorem C115_gain (hG : ∀ g, G g → g.OnlyForces) (hw : World.Hist G .gen h w)
    (hst : w.Standard h) (hode : w.ode = some o) (ho : o.isSym false) (hc : regCons h = ∅)
    (hH : ∀ g ∈ regGens h, (w.gens g).Harmonic)
    (hd : ∀ g ∈ regGens h, (w.gens g).Long fun b => (w.bodies b).pos)
    (e : w.process .gen env dt 1 = .ok w') :
    w'.mechanical h = w.mechanical h + ∑ b ∈ regBodies h, kick (w.bodies b) (w'.bodies b) +
      dt ^ 2 / 2 * ∑ g ∈ regGens h, (w.gens g).shear w.bodies := by
  obtain ⟨x, mult, s, hx, hm⟩ := hw.one_gmove hG hst hode ho e
  have mv := C56_process_only_moves hw e
  have r := hw.regs
  have mem := fun g (hg : g ∈ w.fg) => (r.gens.mem g).mp hg
  have k := s.gain (r.cs_nil.mpr hc) hm (fun g hg => hH g (mem g hg))
    (fun g hg => within_congr (hst.gens g (mem g hg)) fun b hb => (r.bodies.mem b).mpr hb)
    (fun g hg => hd g (mem g hg))
  rw [mech_shown r hst (regs_after hw e) mv hx, k, mechanical_now r, ← r.rb_finset, ← r.fg_finset]
  congr 2
  · refine sum_congr rfl fun b hb => ?_
    have hb' := List.mem_toFinset.mp hb
    have hv := fun q => (hx b hb' q).2
    simp only [Coord.sum, hv, World.now, Body.mass, Body.vel, kick]
    ring

/-- **C115**: with the explicit Euler solver no such call reduces the mechanical energy, and it grows
unless no velocity changes and no spring has ends that move relative to each other. -/
theorem C115_grows (hG : ∀ g, G g → g.OnlyForces) (hw : World.Hist G .gen h w)
    (hst : w.Standard h) (hode : w.ode = some o) (ho : o.isSym false) (hc : regCons h = ∅)
    (hH : ∀ g ∈ regGens h, (w.gens g).Harmonic) (hF : ∀ g ∈ regGens h, (w.gens g).Firm)
    (hm : ∀ b ∈ regBodies h, 0 < (w.bodies b).m ∧ 0 < (w.bodies b).I) (hdt : dt ≠ 0)
    (hd : ∀ g ∈ regGens h, (w.gens g).Long fun b => (w.bodies b).pos)
    (e : w.process .gen env dt 1 = .ok w') :
    w.mechanical h ≤ w'.mechanical h ∧
      (w'.mechanical h = w.mechanical h ↔ (∀ b ∈ regBodies h, (w'.bodies b).v_x = (w.bodies b).v_x ∧
        (w'.bodies b).v_y = (w.bodies b).v_y ∧ (w'.bodies b).v_theta = (w.bodies b).v_theta) ∧
        ∀ g ∈ regGens h, (w.gens g).shear w.bodies = 0) := by
  rw [C115_gain hG hw hst hode ho hc hH hd e]
  have k0 : ∀ b ∈ regBodies h, 0 ≤ kick (w.bodies b) (w'.bodies b) := by
    intro b hb
    obtain ⟨a, c⟩ := hm b hb
    simp only [kick]
    positivity
  have s0 : ∀ g ∈ regGens h, 0 ≤ (w.gens g).shear w.bodies := by
    intro g hg
    have hf := hF g hg
    cases f : w.gens g with
    | spring p =>
      rw [f] at hf
      have hf : 0 ≤ p.ks := hf
      cases f1 : p.body1 with
      | obj b1 =>
        cases f2 : p.body2 with
        | obj b2 => simp only [Gen.shear, f1, f2]; positivity
        | _ => simp only [Gen.shear, f1, f2]; exact le_rfl
      | _ => simp only [Gen.shear, f1]; exact le_rfl
    | _ => exact le_rfl
  have K := sum_nonneg k0
  have S := sum_nonneg s0
  have d2 : 0 < dt ^ 2 / 2 := by positivity
  refine ⟨by nlinarith, ?_⟩
  have split : (w.mechanical h + ∑ b ∈ regBodies h, kick (w.bodies b) (w'.bodies b) +
      dt ^ 2 / 2 * ∑ g ∈ regGens h, (w.gens g).shear w.bodies = w.mechanical h) ↔
      ∑ b ∈ regBodies h, kick (w.bodies b) (w'.bodies b) = 0 ∧
        ∑ g ∈ regGens h, (w.gens g).shear w.bodies = 0 := by
    constructor
    · intro q
      have : 0 ≤ dt ^ 2 / 2 * ∑ g ∈ regGens h, (w.gens g).shear w.bodies := by positivity
      have z : ∑ b ∈ regBodies h, kick (w.bodies b) (w'.bodies b) = 0 := by linarith
      exact ⟨z, (mul_eq_zero.mp (by linarith :
        dt ^ 2 / 2 * ∑ g ∈ regGens h, (w.gens g).shear w.bodies = 0)).resolve_left d2.ne'⟩
    · rintro ⟨a, b⟩
      rw [a, b]
      ring
  rw [split, sum_eq_zero_iff_of_nonneg k0, sum_eq_zero_iff_of_nonneg s0]
  refine and_congr_left fun _ => forall₂_congr fun b hb => ?_
  obtain ⟨a, c⟩ := hm b hb
  simp only [kick]
  constructor
  · intro q
    have p1 := mul_nonneg a.le (sq_nonneg ((w'.bodies b).v_x - (w.bodies b).v_x))
    have p2 := mul_nonneg a.le (sq_nonneg ((w'.bodies b).v_y - (w.bodies b).v_y))
    have p3 := mul_nonneg c.le (sq_nonneg ((w'.bodies b).v_theta - (w.bodies b).v_theta))
    have z : ∀ {m y : ℝ}, 0 < m → m * y ^ 2 = 0 → y = 0 := fun hm h =>
      pow_eq_zero_iff (two_ne_zero) |>.mp ((mul_eq_zero.mp h).resolve_left hm.ne')
    exact ⟨sub_eq_zero.mp (z a (by linarith)), sub_eq_zero.mp (z a (by linarith)),
      sub_eq_zero.mp (z c (by linarith))⟩
  · rintro ⟨q1, q2, q3⟩
    rw [q1, q2, q3]
    ring

/-- **C115**: with the semi-implicit solver the generic system keeps the mechanical energy plus half of
`dt` times the power of the forces. -/
theorem C115_semi_implicit (hG : ∀ g, G g → g.OnlyForces) (hw : World.Hist G .gen h w)
    (hst : w.Standard h) (hode : w.ode = some o) (ho : o.isSym true) (hc : regCons h = ∅)
    (hH : ∀ g ∈ regGens h, (w.gens g).Harmonic)
    (hd : ∀ g ∈ regGens h, (w.gens g).Long fun b => (w.bodies b).pos)
    (e : w.process .gen env dt 1 = .ok w') :
    w'.mechanical h + dt / 2 * w'.power h = w.mechanical h + dt / 2 * w.power h := by
  obtain ⟨x, mult, s, hx, hm⟩ := hw.one_gmove hG hst hode ho e
  have mv := C56_process_only_moves hw e
  have r := hw.regs
  have mem := fun g (hg : g ∈ w.fg) => (r.gens.mem g).mp hg
  have k := s.shadow (r.cs_nil.mpr hc) hm (fun g hg => hH g (mem g hg))
    (fun g hg => within_congr (hst.gens g (mem g hg)) fun b hb => (r.bodies.mem b).mpr hb)
    (fun g hg => hd g (mem g hg))
  rw [mech_shown r hst (regs_after hw e) mv hx, power_shown r hst (regs_after hw e) mv hx, k,
    mechanical_now r, World.power, World.powerOf, r.rb_finset, r.fg_finset]
  rfl

/-! ### A pair of bodies that spirals outwards -/

/-- Before the first call there are no multipliers. -/
theorem World.Hist.unprocessedG (hw : World.Hist G .gen h w) (hp : processedDts h = []) :
    (w.mem.mat .ivLambda).height = 0 ∧ (w.mem.mat .ivLambda).width = 0 := by
  induction hw with
  | start => exact ⟨rfl, rfl⟩
  | @step h w w' op hw hv e ih =>
    cases op with
    | process env dt steps => cases hp
    | init sle ode =>
      obtain ⟨k1, k2⟩ := ih hp
      have e : w.genInit sle ode = .ok w' := e
      have z : w.mem.init0 .ivLambda 0 0 = .ok (w.mem.setMat .ivLambda (w.mem.mat .ivLambda)) := by
        rw [Store.init0, Store.resize, k1, k2]
        rfl
      rw [World.genInit, z] at e
      cases e
      simp only [Store.setMat, upd_same]
      exact ⟨k1, k2⟩
    | removeBody b =>
      simp only [Op.run, World.removeBody] at e
      cases hu : unregister w.rb (w.bodies b).index with
      | error _ => rw [hu] at e; cases e
      | ok q => rw [hu] at e; cases e; exact ih hp
    | removeCon b =>
      simp only [Op.run, World.removeCon] at e
      cases hu : unregister w.cs (w.cons b).index with
      | error _ => rw [hu] at e; cases e
      | ok q => rw [hu] at e; cases e; exact ih hp
    | removeGen b =>
      simp only [Op.run, World.removeGen] at e
      cases hi : initd (w.genIndex b) with
      | error _ => rw [hi] at e; cases e
      | ok i =>
        rw [hi, ok_bind] at e
        cases hu : unregister w.fg i with
        | error _ => rw [hu] at e; cases e
        | ok q => rw [hu] at e; cases e; exact ih hp
    | _ => cases e; exact ih hp

/-- One explicit step of two bodies joined by the only spring multiplies the energy of their relative
motion and their area rate. -/
theorem pair_step {x x' : Motion} {mult : Nat → Nat → ℝ} {s : ℝ} (st : w.GMove false s x x' mult)
    (hcs : w.cs = []) (hm : ∀ b ∈ w.rb, ∀ q : Coord, (w.bodies b).mass q ≠ 0) {g : Nat}
    (hg : w.fg.toFinset = {g}) {p : Spring ℝ} (hp : w.gens g = .spring p) (hH : (w.gens g).Harmonic)
    {b1 b2 : Nat} (h1 : p.body1 = .obj b1) (h2 : p.body2 = .obj b2) (m1 : b1 ∈ w.rb) (m2 : b2 ∈ w.rb)
    (hne : b1 ≠ b2) (hs : (w.bodies b1).m + (w.bodies b2).m ≠ 0)
    (hd : (w.gens g).Long x.pos) {B B' : Nat → Body ℝ} (hB : w.Shows x B) (hB' : w.Shows x' B')
    (mB : ∀ b, (B b).m = (w.bodies b).m) (mB' : ∀ b, (B' b).m = (w.bodies b).m) :
    pairEnergy p.ks (B' b1) (B' b2) = (1 + s ^ 2 * p.ks * (1 / (w.bodies b1).m + 1 / (w.bodies b2).m)) *
      pairEnergy p.ks (B b1) (B b2) ∧
    areaRate (B' b1) (B' b2) = (1 + s ^ 2 * p.ks * (1 / (w.bodies b1).m + 1 / (w.bodies b2).m)) *
      areaRate (B b1) (B b2) := by
  have hW' : (w.gens g).Within (· ∈ w.rb.toFinset) := by
    rw [hp]
    exact .inr ⟨⟨b1, List.mem_toFinset.mpr m1, h1⟩, .inr ⟨b2, List.mem_toFinset.mpr m2, h2⟩⟩
  have load : ∀ b ∈ w.rb, ∀ q, w.load x b q = (Gen.spring p).powerOf (fun b => (w.bodies b).m)
      w.rb.toFinset x.pos fun b' q' => if b' = b ∧ q' = q then 1 else 0 := by
    intro b hb q
    rw [World.load, hg, sum_singleton, ← hp]
    exact load_eq hH hW' hd (List.mem_toFinset.mpr hb) q (m := fun b => (w.bodies b).m)
  have vel : ∀ b ∈ w.rb, ∀ q, (B' b).vel q = (B b).vel q +
      s * ((Gen.spring p).powerOf (fun b => (w.bodies b).m)
      w.rb.toFinset x.pos (fun b' q' => if b' = b ∧ q' = q then 1 else 0) / (w.bodies b).mass q) := by
    intro b hb q
    have k := st.push hcs hm hb q
    rw [load b hb q, (hB b hb q).2, (hB' b hb q).2] at k
    have := hm b hb q
    field_simp
    linear_combination k
  have pos : ∀ b ∈ w.rb, ∀ q, (B' b).pos q = (B b).pos q + s * (B b).vel q := by
    intro b hb q
    have := st.pos b hb q
    simp only [Bool.false_eq_true, if_false] at this
    rw [← (hB' b hb q).1, this, (hB b hb q).1, (hB b hb q).2]
  have ne1 := hm b1 m1 .x
  have ne2 := hm b2 m2 .x
  have p1x := pos b1 m1 .x
  have p1y := pos b1 m1 .y
  have p2x := pos b2 m2 .x
  have p2y := pos b2 m2 .y
  have v1x := vel b1 m1 .x
  have v1y := vel b1 m1 .y
  have v2x := vel b2 m2 .x
  have v2y := vel b2 m2 .y
  have x1x := (hB b1 m1 .x).1
  have x1y := (hB b1 m1 .y).1
  have x2x := (hB b2 m2 .x).1
  have x2y := (hB b2 m2 .y).1
  simp only [Gen.powerOf, h1, h2, Body.mass, Body.pos, Body.vel, hne, Ne.symm hne, true_and,
    false_and, if_true, if_false, reduceCtorEq, and_true, and_false, and_self] at *
  simp only [areaRate, pairEnergy, p1x, p1y, p2x, p2y, v1x, v1y, v2x, v2y, x1x, x1y, x2x, x2y, mB, mB']
  generalize (w.bodies b1).m = μ at *
  generalize (w.bodies b2).m = ν at *
  constructor
  · field_simp
    ring
  · field_simp
    ring

/-- **C115**: two bodies joined by an undamped spring of rest length zero that circle each other fast
enough: in a generic system with the explicit Euler solver a call of `process` with any number of sub-steps
succeeds and every sub-step of length `s` multiplies the energy of the relative motion by
`1 + s ^ 2 * ks * (1 / m1 + 1 / m2)`. -/
theorem C115_spiral (hG : ∀ g, G g → g.OnlyForces) (hw : World.Hist G .gen h w)
    (hst : w.Standard h) (hode : w.ode = some o) (ho : o.isSym false) (hc : regCons h = ∅)
    (hsle : w.sle = some .ge) (hnew : processedDts h = [])
    (hm : ∀ b ∈ regBodies h, 0 < (w.bodies b).m ∧ 0 < (w.bodies b).I)
    {g : Nat} (hg : regGens h = {g}) {p : Spring ℝ} (hp : w.gens g = .spring p)
    (hH : (w.gens g).Harmonic) (hk : 0 ≤ p.ks) {b1 b2 : Nat} (h1 : p.body1 = .obj b1)
    (h2 : p.body2 = .obj b2) (ha : areaRate (w.bodies b1) (w.bodies b2) ≠ 0)
    (hf : (1 / 100) ^ 2 * (2 * pairEnergy p.ks (w.bodies b1) (w.bodies b2)) ≤
      (w.bodies b1).m * (w.bodies b2).m / ((w.bodies b1).m + (w.bodies b2).m) *
        areaRate (w.bodies b1) (w.bodies b2) ^ 2) (env : Env ℝ) (s : ℝ) (n : Nat) (hn : 0 < n) :
    ∃ w', w.process .gen env (n * s) n = .ok w' ∧
      pairEnergy p.ks (w'.bodies b1) (w'.bodies b2) =
        (1 + s ^ 2 * p.ks * (1 / (w.bodies b1).m + 1 / (w.bodies b2).m)) ^ n *
          pairEnergy p.ks (w.bodies b1) (w.bodies b2) ∧
      areaRate (w'.bodies b1) (w'.bodies b2) =
        (1 + s ^ 2 * p.ks * (1 / (w.bodies b1).m + 1 / (w.bodies b2).m)) ^ n *
          areaRate (w.bodies b1) (w.bodies b2) := by
  have hne : b1 ≠ b2 := by
    rintro rfl
    exact ha (by simp [areaRate])
  have r := hw.regs
  have hcs := r.cs_nil.mpr hc
  have hgm : g ∈ regGens h := by rw [hg]; exact mem_singleton_self g
  have hW := hst.gens g hgm
  rw [hp] at hW
  have r1 : b1 ∈ regBodies h := by
    rcases hW with f | ⟨⟨b, hb, f⟩, _⟩
    · rw [h1] at f; cases f
    · rw [h1] at f; cases f; exact hb
  have r2 : b2 ∈ regBodies h := by
    rcases hW with f | ⟨_, f | ⟨b, hb, f⟩⟩
    · rw [h1] at f; cases f
    · rw [h2] at f; cases f
    · rw [h2] at f; cases f; exact hb
  have m1 := (r.bodies.mem b1).mpr r1
  have m2 := (r.bodies.mem b2).mpr r2
  have hmm : ∀ b ∈ w.rb, ∀ q : Coord, (w.bodies b).mass q ≠ 0 := by
    intro b hb q
    have := hm b ((r.bodies.mem b).mp hb)
    cases q
    · exact this.1.ne'
    · exact this.1.ne'
    · exact this.2.ne'
  obtain ⟨w', e⟩ := hw.goesG hG hst (dt := n * s) (steps := n) hode ho hmm (by rw [hsle]; simp)
    (fun m e => by rw [hsle]; simp) (fun _ _ => True) (fun _ _ _ => trivial) (fun _ _ _ _ _ _ _ => trivial)
    (fun _ _ _ _ q => absurd hcs q) (fun _ sv f => by rw [hsle] at f; cases f; exact (hw.unprocessedG hnew).1) env
  refine ⟨w', e, ?_⟩
  have mv := C56_process_only_moves hw e
  obtain ⟨X, mult, rr, h0, hM⟩ := hw.gmoved hG hst hode ho e
  have hs : (n * s : ℝ) / ((n : Int) : ℝ) = s := by
    have : (n : ℝ) ≠ 0 := by exact_mod_cast hn.ne'
    push_cast
    field_simp
  have p1 := (hm b1 r1).1
  have p2 := (hm b2 r2).1
  -- the bodies in the state after `j` sub-steps
  have step : ∀ j, j < n → w.GMove false s (X j) (X (j + 1)) (mult j) := by
    intro j hj
    have := hM.step j (by simpa using hj)
    rwa [hs] at this
  let bod : Nat → Nat → Body ℝ := fun j b => { w.bodies b with
    p_x := (X j).pos b .x, p_y := (X j).pos b .y, theta := (X j).pos b .th,
    v_x := (X j).vel b .x, v_y := (X j).vel b .y, v_theta := (X j).vel b .th }
  have shows : ∀ j, w.Shows (X j) (bod j) := by
    intro j b _ q
    cases q <;> exact ⟨rfl, rfl⟩
  have start : ∀ b, bod 0 b = w.bodies b := by
    intro b
    simp only [bod, h0]
    rfl
  set c := 1 + s ^ 2 * p.ks * (1 / (w.bodies b1).m + 1 / (w.bodies b2).m) with hcdef
  have c1 : 1 ≤ c := by
    have : 0 ≤ s ^ 2 * p.ks * (1 / (w.bodies b1).m + 1 / (w.bodies b2).m) := by positivity
    linarith
  have lagr : ∀ a b : Body ℝ, 0 < a.m → 0 < b.m → a.m * b.m / (a.m + b.m) * areaRate a b ^ 2 ≤
      ((a.p_x - b.p_x) ^ 2 + (a.p_y - b.p_y) ^ 2) * (2 * pairEnergy p.ks a b) := by
    intro a b ha hb
    simp only [areaRate, pairEnergy]
    generalize a.p_x - b.p_x = X
    generalize a.p_y - b.p_y = Y
    generalize a.v_x - b.v_x = U
    generalize a.v_y - b.v_y = V
    have μ0 : 0 ≤ a.m * b.m / (a.m + b.m) := by positivity
    generalize a.m * b.m / (a.m + b.m) = μ at *
    have l : (X * V - Y * U) ^ 2 ≤ (X ^ 2 + Y ^ 2) * (U ^ 2 + V ^ 2) := by
      nlinarith [sq_nonneg (X * U + Y * V)]
    have k := mul_le_mul_of_nonneg_left l μ0
    have k2 : 0 ≤ (X ^ 2 + Y ^ 2) * (p.ks * (X ^ 2 + Y ^ 2)) := by positivity
    nlinarith
  have area0 : 0 < areaRate (w.bodies b1) (w.bodies b2) ^ 2 := by positivity
  have E0 : 0 < pairEnergy p.ks (w.bodies b1) (w.bodies b2) := by
    have l := lagr _ _ p1 p2
    have : 0 < (w.bodies b1).m * (w.bodies b2).m / ((w.bodies b1).m + (w.bodies b2).m) *
      areaRate (w.bodies b1) (w.bodies b2) ^ 2 := by positivity
    by_contra hle
    push Not at hle
    nlinarith [sq_nonneg ((w.bodies b1).p_x - (w.bodies b2).p_x),
      sq_nonneg ((w.bodies b1).p_y - (w.bodies b2).p_y)]
  have far : ∀ j, pairEnergy p.ks (bod j b1) (bod j b2) =
        c ^ j * pairEnergy p.ks (w.bodies b1) (w.bodies b2) →
      areaRate (bod j b1) (bod j b2) = c ^ j * areaRate (w.bodies b1) (w.bodies b2) →
      (w.gens g).Long (X j).pos := by
    intro j eE eA
    rw [hp]
    intro c1' c2' f1 f2
    rw [h1] at f1
    rw [h2] at f2
    cases f1
    cases f2
    refine Real.le_sqrt_of_sq_le ?_
    have l := lagr (bod j b1) (bod j b2) p1 p2
    rw [eE, eA] at l
    have sw : ∀ x y : ℝ, (x - y) ^ 2 = (y - x) ^ 2 := fun x y => by ring
    simp only
    rw [sw, sw ((X j).pos b2 .y)]
    change (w.bodies b1).m * (w.bodies b2).m / ((w.bodies b1).m + (w.bodies b2).m) *
      (c ^ j * areaRate (w.bodies b1) (w.bodies b2)) ^ 2 ≤
      (((X j).pos b1 .x - (X j).pos b2 .x) ^ 2 + ((X j).pos b1 .y - (X j).pos b2 .y) ^ 2) * _ at l
    generalize ((X j).pos b1 .x - (X j).pos b2 .x) ^ 2 + ((X j).pos b1 .y - (X j).pos b2 .y) ^ 2 = D at *
    have cj : 1 ≤ c ^ j := one_le_pow₀ c1
    generalize c ^ j = C at *
    generalize pairEnergy p.ks (w.bodies b1) (w.bodies b2) = E at *
    generalize areaRate (w.bodies b1) (w.bodies b2) = A at *
    have l2 := mul_le_mul_of_nonneg_left hf (show 0 ≤ C ^ 2 by positivity)
    have l3 : (1 / 100) ^ 2 * C * (2 * C * E) ≤ D * (2 * C * E) := by nlinarith
    have l4 := le_of_mul_le_mul_right l3 (by positivity)
    nlinarith
  have run : ∀ j, j ≤ n → pairEnergy p.ks (bod j b1) (bod j b2) =
        c ^ j * pairEnergy p.ks (w.bodies b1) (w.bodies b2) ∧
      areaRate (bod j b1) (bod j b2) = c ^ j * areaRate (w.bodies b1) (w.bodies b2) := by
    intro j
    induction j with
    | zero => intro _; rw [start, start]; simp
    | succ j ih =>
      intro hj
      obtain ⟨i1, i2⟩ := ih (by omega)
      obtain ⟨k1, k2⟩ := pair_step (step j hj) hcs hmm (r.fg_finset.trans hg) hp hH h1 h2 m1 m2 hne
        (by positivity) (far j i1 i2) (shows j) (shows (j + 1)) (fun _ => rfl) (fun _ => rfl)
      rw [k1, k2, i1, i2, pow_succ]
      exact ⟨by ring, by ring⟩
  obtain ⟨q1, q2⟩ := run n le_rfl
  have last : w.Shows (X n) w'.bodies := by simpa using hM.last
  have l := fun b hb q => last b hb q
  have eE : pairEnergy p.ks (w'.bodies b1) (w'.bodies b2) = pairEnergy p.ks (bod n b1) (bod n b2) := by
    have := l b1 m1
    simp only [pairEnergy, bod, (l b1 m1 .x).1, (l b1 m1 .y).1, (l b2 m2 .x).1, (l b2 m2 .y).1,
      (l b1 m1 .x).2, (l b1 m1 .y).2, (l b2 m2 .x).2, (l b2 m2 .y).2, Body.pos, Body.vel, mv.mass]
  have eA : areaRate (w'.bodies b1) (w'.bodies b2) = areaRate (bod n b1) (bod n b2) := by
    simp only [areaRate, bod, (l b1 m1 .x).1, (l b1 m1 .y).1, (l b2 m2 .x).1, (l b2 m2 .y).1,
      (l b1 m1 .x).2, (l b1 m1 .y).2, (l b2 m2 .x).2, (l b2 m2 .y).2, Body.pos, Body.vel]
  rw [eE, eA]
  exact ⟨q1, q2⟩

/-- **C115**: the energy of such a pair exceeds every bound: however short the sub-steps, enough of them
make the mechanical energy as large as one likes. -/
theorem C115_diverges (hG : ∀ g, G g → g.OnlyForces) (hw : World.Hist G .gen h w)
    (hst : w.Standard h) (hode : w.ode = some o) (ho : o.isSym false) (hc : regCons h = ∅)
    (hsle : w.sle = some .ge) (hnew : processedDts h = [])
    (hm : ∀ b ∈ regBodies h, 0 < (w.bodies b).m ∧ 0 < (w.bodies b).I)
    {g : Nat} (hg : regGens h = {g}) {p : Spring ℝ} (hp : w.gens g = .spring p)
    (hH : (w.gens g).Harmonic) (hk : 0 < p.ks) {b1 b2 : Nat} (h1 : p.body1 = .obj b1)
    (h2 : p.body2 = .obj b2) (ha : areaRate (w.bodies b1) (w.bodies b2) ≠ 0)
    (hf : (1 / 100) ^ 2 * (2 * pairEnergy p.ks (w.bodies b1) (w.bodies b2)) ≤
      (w.bodies b1).m * (w.bodies b2).m / ((w.bodies b1).m + (w.bodies b2).m) *
        areaRate (w.bodies b1) (w.bodies b2) ^ 2) (env : Env ℝ) {s : ℝ} (hs : s ≠ 0) (B : ℝ) :
    ∃ (n : Nat) (w' : World ℝ), w.process .gen env (n * s) n = .ok w' ∧ B < w'.mechanical h := by
  have hgm : g ∈ regGens h := by rw [hg]; exact mem_singleton_self g
  have hW := hst.gens g hgm
  rw [hp] at hW
  have r1 : b1 ∈ regBodies h := by
    rcases hW with f | ⟨⟨b, hb, f⟩, _⟩
    · rw [h1] at f; cases f
    · rw [h1] at f; cases f; exact hb
  have r2 : b2 ∈ regBodies h := by
    rcases hW with f | ⟨_, f | ⟨b, hb, f⟩⟩
    · rw [h1] at f; cases f
    · rw [h2] at f; cases f
    · rw [h2] at f; cases f; exact hb
  have hne : b1 ≠ b2 := by
    rintro rfl
    exact ha (by simp [areaRate])
  have p1 := (hm b1 r1).1
  have p2 := (hm b2 r2).1
  -- the mechanical energy is at least that of the relative motion
  have whole : ∀ v : World ℝ, (∀ b, (v.bodies b).m = (w.bodies b).m) →
      (∀ b, (v.bodies b).I = (w.bodies b).I) → v.gens = w.gens →
      pairEnergy p.ks (v.bodies b1) (v.bodies b2) ≤ v.mechanical h := by
    intro v vm vI vg
    have en : ∀ b ∈ regBodies h, (v.bodies b).m * ((v.bodies b).v_x ^ 2 + (v.bodies b).v_y ^ 2) ≤
        2 * (v.bodies b).energy ∧ 0 ≤ (v.bodies b).energy := by
      intro b hb
      obtain ⟨a, c⟩ := hm b hb
      rw [← vm] at a
      rw [← vI] at c
      simp only [Body.energy, fp_lit]
      push_cast
      have t1 := mul_nonneg a.le (sq_nonneg (v.bodies b).v_x)
      have t2 := mul_nonneg a.le (sq_nonneg (v.bodies b).v_y)
      have t3 := mul_nonneg c.le (sq_nonneg (v.bodies b).v_theta)
      constructor <;> nlinarith
    have two : (v.bodies b1).energy + (v.bodies b2).energy ≤ ∑ b ∈ regBodies h, (v.bodies b).energy := by
      rw [← sum_pair hne (f := fun b => (v.bodies b).energy)]
      refine sum_le_sum_of_subset_of_nonneg (fun b hb => ?_) fun b hb _ => (en b hb).2
      rcases mem_insert.mp hb with rfl | hb
      · exact r1
      · rw [mem_singleton.mp hb]; exact r2
    have st : (v.gens g).stored (regBodies h) v.bodies = p.ks * (((v.bodies b1).p_x - (v.bodies b2).p_x) ^ 2 +
        ((v.bodies b1).p_y - (v.bodies b2).p_y) ^ 2) / 2 := by
      rw [stored_now, vg]
      rw [hp] at hH ⊢
      obtain ⟨q0, -, q1, q2, q3, q4⟩ := hH
      simp only [Gen.potOf, h1, h2, q0, q1, q2, q3, q4, point_centre, sub_zero, distOf_sq, World.now, Body.pos]
      ring
    rw [World.mechanical, hg, sum_singleton, st, pairEnergy]
    have e1 := (en b1 r1).1
    have e2 := (en b2 r2).1
    have q1 : 0 < (v.bodies b1).m := by rw [vm]; exact p1
    have q2 : 0 < (v.bodies b2).m := by rw [vm]; exact p2
    refine add_le_add (le_trans ?_ two) le_rfl
    generalize (v.bodies b1).energy = E1 at *
    generalize (v.bodies b2).energy = E2 at *
    generalize (v.bodies b1).m = μ at *
    generalize (v.bodies b2).m = ν at *
    generalize (v.bodies b1).v_x = a at *
    generalize (v.bodies b2).v_x = a' at *
    generalize (v.bodies b1).v_y = c at *
    generalize (v.bodies b2).v_y = c' at *
    have : μ * ν * ((a - a') ^ 2 + (c - c') ^ 2) ≤
        (μ * (a ^ 2 + c ^ 2) + ν * (a' ^ 2 + c' ^ 2)) * (μ + ν) := by
      nlinarith [sq_nonneg (μ * a + ν * a'), sq_nonneg (μ * c + ν * c')]
    rw [div_mul_eq_mul_div, div_div, div_le_iff₀ (by linarith)]
    nlinarith
  have E0 : 0 < pairEnergy p.ks (w.bodies b1) (w.bodies b2) := by
    have v0 : 0 ≤ (w.bodies b1).m * (w.bodies b2).m / ((w.bodies b1).m + (w.bodies b2).m) *
        (((w.bodies b1).v_x - (w.bodies b2).v_x) ^ 2 + ((w.bodies b1).v_y - (w.bodies b2).v_y) ^ 2) / 2 := by
      positivity
    have x0 : 0 < ((w.bodies b1).p_x - (w.bodies b2).p_x) ^ 2 +
        ((w.bodies b1).p_y - (w.bodies b2).p_y) ^ 2 := by
      by_contra hle
      push Not at hle
      have z1 := sq_nonneg ((w.bodies b1).p_x - (w.bodies b2).p_x)
      have z2 := sq_nonneg ((w.bodies b1).p_y - (w.bodies b2).p_y)
      have y1 : (w.bodies b1).p_x - (w.bodies b2).p_x = 0 := by
        exact pow_eq_zero_iff two_ne_zero |>.mp (by linarith)
      have y2 : (w.bodies b1).p_y - (w.bodies b2).p_y = 0 := by
        exact pow_eq_zero_iff two_ne_zero |>.mp (by linarith)
      exact ha (by rw [areaRate, y1, y2]; ring)
    rw [pairEnergy]
    have := mul_pos hk x0
    linarith
  have c1 : 1 < 1 + s ^ 2 * p.ks * (1 / (w.bodies b1).m + 1 / (w.bodies b2).m) := by
    have : 0 < s ^ 2 * p.ks * (1 / (w.bodies b1).m + 1 / (w.bodies b2).m) := by positivity
    linarith
  obtain ⟨n, hn⟩ := pow_unbounded_of_one_lt (|B| / pairEnergy p.ks (w.bodies b1) (w.bodies b2)) c1
  obtain ⟨w', e, k, -⟩ := C115_spiral hG hw hst hode ho hc hsle hnew hm hg hp hH hk.le h1 h2 ha hf env s
    (n + 1) (by omega)
  have mv := C56_process_only_moves hw e
  refine ⟨n + 1, w', e, lt_of_lt_of_le ?_ (whole w' mv.mass mv.inertia mv.gens)⟩
  rw [k]
  have big := (div_lt_iff₀ E0).mp hn
  refine (le_abs_self B).trans_lt (big.trans_le (mul_le_mul_of_nonneg_right ?_ E0.le))
  exact pow_le_pow_right₀ c1.le (by omega)

/-- The bodies of `orbitBody` in a generic system. -/
structure Spiral (o : Ode ℝ) (h : List (Op ℝ)) (w : World ℝ) : Prop where
  hist : World.Hist Gen.Shipped .gen h w
  bodies : ∀ b, { w.bodies b with index := -1 } = orbitBody b
  gens : ∀ g, w.gens g = .spring orbitSpring
  regB : regBodies h = {0, 1}
  regC : regCons h = ∅
  regG : regGens h = {0}
  sle : w.sle = some .ge
  ode : w.ode = some o
  new : processedDts h = []

theorem spiral {o : Ode ℝ} (ho : o.Idle) : ∃ h w, Spiral o h w := by
  obtain ⟨h, w, h1, h2, h3, h4, h5, h6, h7, h8, h9⟩ := buildG (G := Gen.Shipped) orbitBody (demoCon .base)
    (gens := fun _ => .spring orbitSpring) (fun _ => trivial) (rb := [0, 1]) (cs := []) (fg := [0])
    (by decide) (by decide) (by decide) (some .ge) (some o) (fun o' e => by cases e; exact ho)
    (fun _ _ => 0) (fun _ _ => 0)
  exact ⟨h, w, h1, h2.bodies, fun g => by rw [h2.gens], by rw [h3]; rfl, by rw [h4]; rfl,
    by rw [h5]; rfl, h7, h8, h9⟩

namespace Spiral
variable (d : Spiral o h w)
include d

theorem m (b : Nat) : (w.bodies b).m = 1 := congrArg Body.m (d.bodies b)
theorem I (b : Nat) : (w.bodies b).I = 1 := congrArg Body.I (d.bodies b)
theorem p_x (b : Nat) : (w.bodies b).p_x = if b = 0 then 1 / 2 else -1 / 2 :=
  congrArg Body.p_x (d.bodies b)
theorem p_y (b : Nat) : (w.bodies b).p_y = 0 := congrArg Body.p_y (d.bodies b)
theorem v_x (b : Nat) : (w.bodies b).v_x = 0 := congrArg Body.v_x (d.bodies b)
theorem v_y (b : Nat) : (w.bodies b).v_y = if b = 0 then 1 / 2 else -1 / 2 :=
  congrArg Body.v_y (d.bodies b)

theorem standard : w.Standard h where
  kind := fun c hc => absurd (d.regC ▸ hc) (by simp)
  bodies := fun c hc => absurd (d.regC ▸ hc) (by simp)
  gens := fun g _ => by
    rw [d.gens, d.regB]
    exact .inr ⟨⟨0, by simp, rfl⟩, .inr ⟨1, by simp, rfl⟩⟩
  near := fun c hc => absurd (d.regC ▸ hc) (by simp)

theorem harmonic (g : Nat) : (w.gens g).Harmonic := by
  rw [d.gens]
  exact ⟨rfl, rfl, rfl, rfl, rfl, rfl⟩

theorem rate : areaRate (w.bodies 0) (w.bodies 1) = 1 := by
  simp only [areaRate, d.p_x, d.p_y, d.v_x, d.v_y]
  norm_num

theorem pair : pairEnergy 1 (w.bodies 0) (w.bodies 1) = 3 / 4 := by
  simp only [pairEnergy, d.p_x, d.p_y, d.v_x, d.v_y, d.m]
  norm_num

theorem masses : ∀ b ∈ regBodies h, 0 < (w.bodies b).m ∧ 0 < (w.bodies b).I :=
  fun b _ => ⟨by rw [d.m]; exact one_pos, by rw [d.I]; exact one_pos⟩

theorem long (g : Nat) : (w.gens g).Long fun b => (w.bodies b).pos := by
  rw [d.gens]
  intro b1 b2 f1 f2
  cases f1
  cases f2
  refine Real.le_sqrt_of_sq_le ?_
  simp only [Body.pos, d.p_x, d.p_y]
  norm_num

theorem succeeds (ho : o.isSym sym) (env : Env ℝ) (dt : ℝ) (steps : Int) :
    ∃ w', w.process .gen env dt steps = .ok w' :=
  d.hist.goesG (fun g => Gen.tame) d.standard d.ode ho (fun b hb q => by
      have := d.masses b ((d.hist.regs.bodies.mem b).mp hb)
      cases q
      · exact this.1.ne'
      · exact this.1.ne'
      · exact this.2.ne') (by rw [d.sle]; simp)
    (fun m e => by rw [d.sle]; simp) (fun _ _ => True) (fun _ _ _ => trivial) (fun _ _ _ _ _ _ _ => trivial)
    (fun _ _ _ _ q => absurd (d.hist.regs.cs_nil.mpr d.regC) q)
    (fun _ sv f => by rw [d.sle] at f; cases f; exact (d.hist.unprocessedG d.new).1) env

end Spiral

/-- The claims applied: one step of length 1/2 of the circling bodies. -/
example (env : Env ℝ) : ∃ (h : List (Op ℝ)) (w w' : World ℝ), World.Hist Gen.Shipped .gen h w ∧
    regBodies h = {0, 1} ∧ w.process .gen env (1 / 2) 1 = .ok w' ∧
    w.mechanical h + 1 / 8 ≤ w'.mechanical h := by
  obtain ⟨h, w, d⟩ := spiral (o := .newEuler) trivial
  obtain ⟨w', e⟩ := d.succeeds (sym := false) rfl env (1 / 2) 1
  have k := C115_gain (fun g => Gen.tame) d.hist d.standard d.ode rfl d.regC (fun g _ => d.harmonic g)
    (fun g _ => d.long g) e
  refine ⟨h, w, w', d.hist, d.regB, e, ?_⟩
  rw [k, d.regG, sum_singleton, d.gens]
  have : 0 ≤ ∑ b ∈ regBodies h, kick (w.bodies b) (w'.bodies b) := sum_nonneg fun b hb => by
    obtain ⟨a, c⟩ := d.masses b hb
    simp only [kick]
    positivity
  simp only [Gen.shear, orbitSpring, d.v_x, d.v_y]
  norm_num
  exact this

/-- The energy of the circling bodies grows strictly. -/
example (env : Env ℝ) : ∃ (h : List (Op ℝ)) (w w' : World ℝ), World.Hist Gen.Shipped .gen h w ∧
    w.process .gen env (1 / 2) 1 = .ok w' ∧ w.mechanical h < w'.mechanical h := by
  obtain ⟨h, w, d⟩ := spiral (o := .newEuler) trivial
  obtain ⟨w', e⟩ := d.succeeds (sym := false) rfl env (1 / 2) 1
  obtain ⟨k1, k2⟩ := C115_grows (fun g => Gen.tame) d.hist d.standard d.ode rfl d.regC
    (fun g _ => d.harmonic g) (fun g _ => by rw [d.gens]; exact zero_le_one (α := ℝ)) d.masses
    (by norm_num) (fun g _ => d.long g) e
  refine ⟨h, w, w', d.hist, e, lt_of_le_of_ne k1 fun q => ?_⟩
  have := (k2.mp q.symm).2 0 (by rw [d.regG]; simp)
  rw [d.gens] at this
  simp only [Gen.shear, orbitSpring, d.v_x, d.v_y] at this
  norm_num at this

/-- With the semi-implicit solver the circling bodies keep the quantity of C113. -/
example (env : Env ℝ) : ∃ (h : List (Op ℝ)) (w w' : World ℝ), World.Hist Gen.Shipped .gen h w ∧
    regBodies h = {0, 1} ∧ w.process .gen env (1 / 2) 1 = .ok w' ∧
    w'.mechanical h + 1 / 2 / 2 * w'.power h = w.mechanical h + 1 / 2 / 2 * w.power h := by
  obtain ⟨h, w, d⟩ := spiral (o := .newNsv) trivial
  obtain ⟨w', e⟩ := d.succeeds (sym := true) rfl env (1 / 2) 1
  exact ⟨h, w, w', d.hist, d.regB, e, C115_semi_implicit (fun g => Gen.tame) d.hist d.standard d.ode rfl
    d.regC (fun g _ => d.harmonic g) (fun g _ => d.long g) e⟩

/-- The circling bodies after `n` sub-steps of length 1/2: the energy of their relative motion has grown
by the factor `(3 / 2) ^ n`. -/
example (env : Env ℝ) : ∃ (h : List (Op ℝ)) (w : World ℝ), World.Hist Gen.Shipped .gen h w ∧
    regBodies h = {0, 1} ∧ ∀ n : Nat, 0 < n → ∃ w', w.process .gen env (n * (1 / 2)) n = .ok w' ∧
      pairEnergy 1 (w'.bodies 0) (w'.bodies 1) = (3 / 2) ^ n * (3 / 4) := by
  obtain ⟨h, w, d⟩ := spiral (o := .newEuler) trivial
  refine ⟨h, w, d.hist, d.regB, fun n hn => ?_⟩
  obtain ⟨w', e, k, -⟩ := C115_spiral (fun g => Gen.tame) d.hist d.standard d.ode rfl d.regC d.sle d.new
    d.masses d.regG (d.gens 0) (d.harmonic 0) (zero_le_one (α := ℝ)) rfl rfl (by rw [d.rate]; norm_num)
    (by rw [d.rate, show orbitSpring.ks = 1 from rfl, d.pair, d.m, d.m]; norm_num) env (1 / 2) n hn
  refine ⟨w', e, ?_⟩
  rw [show orbitSpring.ks = 1 from rfl, d.pair, d.m, d.m] at k
  rw [k]
  norm_num

/-- The energy of the circling bodies exceeds a million. -/
example (env : Env ℝ) : ∃ (h : List (Op ℝ)) (w : World ℝ), World.Hist Gen.Shipped .gen h w ∧
    ∃ (n : Nat) (w' : World ℝ), w.process .gen env (n * (1 / 1000)) n = .ok w' ∧
      1000000 < w'.mechanical h := by
  obtain ⟨h, w, d⟩ := spiral (o := .newEuler) trivial
  exact ⟨h, w, d.hist, C115_diverges (fun g => Gen.tame) d.hist d.standard d.ode rfl d.regC d.sle d.new
    d.masses d.regG (d.gens 0) (d.harmonic 0) (zero_lt_one (α := ℝ)) rfl rfl (by rw [d.rate]; norm_num)
    (by rw [d.rate, show orbitSpring.ks = 1 from rfl, d.pair, d.m, d.m]; norm_num) env (by norm_num) _⟩

end

end Scs
