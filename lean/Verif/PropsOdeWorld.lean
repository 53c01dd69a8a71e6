import Verif.WorldOde
import Verif.PropsGeneric

/-!
# The generic system with any ODE solver

C90 (the centre of mass moves like a free particle) and C91 (the generic system with Gaussian
elimination depends only on the registered objects), for `EulerOdeSolver`, `NsvOdeSolver` and
`Rk4OdeSolver`.
-/

namespace Scs

open Finset

/-! ### The demonstration system -/

/-- A new `Rk4OdeSolver`. -/
def newRk4 : Rk4 ℝ :=
  ⟨0, .undefined, .undefined, SysState.mk0 (fun _ _ => 0) fun _ _ => 0,
    SysState.mk0 (fun _ _ => 0) fun _ _ => 0⟩

/-- A new solver of one of the three shipped kinds. -/
def Ode.Shipped (o : Ode ℝ) : Prop := o = .newEuler ∨ o = .newNsv ∨ o = .rk4 newRk4

theorem Ode.Shipped.props {o : Ode ℝ} (h : o.Shipped) : o.Idle ∧ o.New ∧ o.sort ≠ 0 := by
  rcases h with rfl | rfl | rfl
  · exact ⟨trivial, trivial, by decide⟩
  · exact ⟨trivial, trivial, by decide⟩
  · exact ⟨⟨rfl, rfl, .fresh _ _, .fresh _ _⟩, ⟨⟨rfl, rfl⟩, rfl, rfl⟩, by decide⟩

/-- The generic system with any of the solvers, with the bodies registered in either order and any
contents of uninitialised memory. -/
theorem demo_ode_any (K : CKind ℝ) {g : Gen ℝ} (hg : g.Shipped) {cs fg : List Nat} (hcs : cs.Nodup)
    (hfg : fg.Nodup) (sv : Solver ℝ) {o : Ode ℝ} (ho : o.Shipped) {rb : List Nat}
    (hrb : rb = [0, 1] ∨ rb = [1, 0]) (j : Nat → Nat → ℝ) (k : Nat → Nat → Nat) :
    ∃ h w, DemoG K g cs fg sv o h w ∧ InSync h ∧ w.rb = rb := by
  obtain ⟨h, w, h1, h2, h3, h4, h5, h6, h7, h8, h9⟩ := buildG (G := Gen.Shipped) demoBody (demoCon K)
    (gens := fun _ => g) (fun _ => hg) (rb := rb) (cs := cs) (fg := fg)
    (by rcases hrb with rfl | rfl <;> decide) hcs hfg (some sv) (some .newEuler)
    (fun o' e => by cases e; exact trivial) j k
  obtain ⟨m, e, _⟩ := Store.init0_spec w.mem .ivLambda 0 0
    ((h1.sound divOk_real (fun g => Gen.tame)).mem.mat _)
  obtain ⟨o1, o2, _⟩ := ho.props
  have hh : World.Hist Gen.Shipped .gen (.init (some sv) (some o) :: h)
      { w with sle := some sv, ode := some o, mem := m } := by
    refine .step _ h1 (by intro o e; cases e; exact o1) ?_
    show w.genInit _ _ = _
    rw [World.genInit, e, ok_bind]
    rfl
  refine ⟨.init (some sv) (some o) :: h, { w with sle := some sv, ode := some o, mem := m },
    ⟨⟨?_, h4, h5, h2.bodies, h2.cons, fun i => by
      show w.gens i = g
      rw [h2.gens], fun b => ?_, h2.cs, h2.fg, rfl, ?_, h9, _, hh.regs⟩, hh, rfl⟩, ?_, h2.rb⟩
  · show regBodies h = _
    rw [h3]
    rcases hrb with rfl | rfl <;> decide
  · show b ∈ w.rb ↔ _
    rw [h2.rb]
    rcases hrb with rfl | rfl
    · simp
    · simp [or_comm]
  · show w.bias = _
    rw [h2.bias, fp_lit]
    norm_num
  · intro o' e
    cases e
    exact o2

theorem demo_ode (K : CKind ℝ) {g : Gen ℝ} (hg : g.Shipped) {cs fg : List Nat} (hcs : cs.Nodup)
    (hfg : fg.Nodup) (sv : Solver ℝ) {o : Ode ℝ} (ho : o.Shipped) :
    ∃ h w, DemoG K g cs fg sv o h w ∧ InSync h := by
  obtain ⟨h, w, d, hs, _⟩ := demo_ode_any K hg hcs hfg sv ho (.inl rfl) (fun _ _ => 0) (fun _ _ => 0)
  exact ⟨h, w, d, hs⟩

/-- The generic system with a constraint of one row is processed successfully with any solver. -/
theorem DemoG.runsOde {K : CKind ℝ} {g : Gen ℝ} {fg : List Nat} {sv : Solver ℝ} {o : Ode ℝ}
    {h : List (Op ℝ)} {w : World ℝ} (d : DemoG K g [0] fg sv o h w) (hs : InSync h)
    (hg : g.Within (· ∈ ({0, 1} : Finset Nat)))
    (hK : K.Turns ∨ K.Pins) (hsv : sv.Fine) (hl : ∀ m e, sv ≠ .gs m e) (ho : o.sort ≠ 0)
    (dt : ℝ) (steps : Int) (env : Env ℝ) :
    w.Standard h ∧ ∃ w', w.process .gen env dt steps = .ok w' := by
  have hn : ∃ r n, K.counts = some (r, n) ∧ r ≤ 2 := by
    rcases hK with ⟨⟨n, hn⟩, _⟩ | ⟨⟨n, hn⟩, _⟩
    · exact ⟨1, n, hn, by omega⟩
    · exact ⟨2, n, hn, by omega⟩
  obtain ⟨r, n, hn, hr2⟩ := hn
  have hst := d.standard (Or.inl (by rw [hn]; simp)) hg
  have hr : w.fullCount = r := by rw [d.full, hn]; rfl
  have hso : ∀ x, w.Solvable x := fun x => by
    refine d.solvable ?_ hsv (by omega) (Or.inl hl)
    rcases hK with hK | hK
    · exact d.rank_turns hK x
    · exact d.rank_pins hK x
  refine ⟨hst, World.Hist.goesOde (fun g => shipped_only) d.hist hst d.ode ho (fun _ => hs)
    (fun b _ q => ?_)
    (by rw [d.sle]; simp) (fun m e he => ?_) (fun _ _ => True) (fun _ _ => trivial)
    (fun _ _ _ _ _ _ => trivial) (fun _ _ x _ _ => hso x) (fun _ _ _ x _ _ => ?_)
    (fun h0 => ?_) env⟩
  · rw [d.mass b q]; exact one_ne_zero
  · rw [d.sle] at he
    exact hl m e (Option.some.inj he)
  · exact ⟨hso _, fun _ _ _ => ⟨hso _, fun _ _ _ => ⟨hso _, fun _ _ _ => hso _⟩⟩⟩
  · rw [d.cs_eq] at h0
    cases h0

/-- A generic system with any ODE solver is reached and processed. -/
theorem demo_genOde {K : CKind ℝ} (hK : K.Turns ∨ K.Pins) {g : Gen ℝ} (hg : g.Shipped)
    (hgw : g.Within (· ∈ ({0, 1} : Finset Nat))) {sv : Solver ℝ} (hsv : sv.Fine)
    (hl : ∀ m e, sv ≠ .gs m e) {o : Ode ℝ} (ho : o.Shipped) (dt : ℝ) (steps : Int)
    (env : Env ℝ) : ∃ h w w', DemoG K g [0] [0] sv o h w ∧ InSync h ∧ w.Standard h ∧
      w.process .gen env dt steps = .ok w' := by
  obtain ⟨h, w, d, hs⟩ := demo_ode K hg (cs := [0]) (fg := [0]) (by decide) (by decide) sv ho
  obtain ⟨hst, w', e⟩ := d.runsOde hs hgw hK hsv hl ho.props.2.2 dt steps env
  exact ⟨h, w, w', d, hs, hst, e⟩

section
variable {G : Gen ℝ → Prop} {h h2 : List (Op ℝ)} {w w' v v' : World ℝ} {env env2 : Env ℝ} {dt : ℝ}
  {steps : Int} {o o2 : Ode ℝ}

/-! ## C90 -/

/-- The total force in the direction of `q` of a generator on a system of total mass `M`: the weight
for gravity and the force for a static force; springs and motors act between two bodies. -/
def Gen.thrust (M : ℝ) : Gen ℝ → Coord → ℝ
  | .gravity a, .y => -M * a
  | .static p, .x => p.f_x
  | .static p, .y => p.f_y
  | _, _ => 0

/-- The factor of `F dt² / 2` in the displacement in `n` sub-steps: exact for Runge-Kutta, too small
for Euler, too large for the semi-implicit solver. -/
noncomputable def Ode.lag (o : Ode ℝ) (n : ℝ) : ℝ :=
  match o with
  | .rk4 _ => 1
  | .euler _ => 1 - 1 / n
  | _ => 1 + 1 / n

theorem load_thrust {g : Gen ℝ} {S : Finset Nat} (hS : g.Within (· ∈ S)) (x : Motion)
    (m : Nat → ℝ) {q : Coord} (hq : q ≠ .th) :
    ∑ b ∈ S, g.load (m b) x b q = g.thrust (∑ b ∈ S, m b) q := by
  cases g with
  | gravity a =>
    cases q with
    | th => exact absurd rfl hq
    | x => simp [Gen.load, Gen.thrust]
    | y => simp [Gen.load, Gen.thrust, sum_mul, sum_neg_distrib]
  | static p =>
    obtain ⟨b, hb, e⟩ := hS
    have : ∀ c, (p.body = .obj c) = (b = c) := fun c => by rw [e]; simp
    simp only [Gen.load, this, sum_ite_eq, hb, if_true]
    cases q with
    | th => exact absurd rfl hq
    | x => rfl
    | y => rfl
  | custom f => exact hS.elim
  | motor p =>
    rw [load_internal (g := .motor p) trivial hS x m hq]
    cases q <;> rfl
  | spring p =>
    rw [load_internal (g := .spring p) trivial hS x m hq]
    cases q <;> rfl

theorem forces_thrust (p : w.Placed) (hp : w.Proper) (hd : w.Driven)
    (hk : ∀ c ∈ w.cs, (w.cons c).kind.Internal)
    (x : Motion) (mult : Nat → Nat → ℝ) {q : Coord} (hq : q ≠ .th) :
    ∑ b ∈ w.rb.toFinset, (w.load x b q + w.conForce (w.reaction x mult) b q) =
      ∑ g ∈ w.fg.toFinset, (w.gens g).thrust (∑ b ∈ w.rb.toFinset, (w.bodies b).m) q := by
  rw [sum_add_distrib, conForce_internal p hp hk x mult hq, add_zero]
  simp only [World.load]
  rw [sum_comm]
  refine sum_congr rfl fun g hg => ?_
  rw [List.mem_toFinset] at hg
  exact load_thrust ((hd.2 g hg).mono fun b hb => List.mem_toFinset.mpr hb) x
    (fun b => (w.bodies b).m) hq

theorem accel_thrust (p : w.Placed) (hp : w.Proper) (hd : w.Driven)
    (hk : ∀ c ∈ w.cs, (w.cons c).kind.Internal)
    (hm : ∀ b ∈ w.rb, ∀ q : Coord, (w.bodies b).mass q ≠ 0) {x : Motion}
    {a : Nat → Coord → ℝ} {mult : Nat → Nat → ℝ} {q : Coord} (hq : q ≠ .th)
    (e : ∀ b ∈ w.rb, a b q =
      (w.load x b q + w.conForce (w.reaction x mult) b q) / (w.bodies b).mass q) :
    ∑ b ∈ w.rb.toFinset, (w.bodies b).m * a b q =
      ∑ g ∈ w.fg.toFinset, (w.gens g).thrust (∑ b ∈ w.rb.toFinset, (w.bodies b).m) q := by
  rw [← forces_thrust p hp hd hk x mult hq]
  refine sum_congr rfl fun b hb => ?_
  rw [List.mem_toFinset] at hb
  have hm' := hm b hb q
  have hmass : (w.bodies b).mass q = (w.bodies b).m := by
    cases q <;> first | rfl | exact absurd rfl hq
  rw [e b hb]
  rw [hmass] at hm' ⊢
  field_simp

/-- What a sub-step does to the total momentum and the moment of the masses. -/
theorem odeStep_thrust (p : w.Placed) (hp : w.Proper) (hd : w.Driven)
    (hk : ∀ c ∈ w.cs, (w.cons c).kind.Internal)
    (hm : ∀ b ∈ w.rb, ∀ q : Coord, (w.bodies b).mass q ≠ 0) {x x' : Motion} {h : ℝ} {q : Coord}
    (hq : q ≠ .th) (t : w.OdeStep o h x x') :
    ∑ b ∈ w.rb.toFinset, (w.bodies b).m * x'.vel b q =
        ∑ b ∈ w.rb.toFinset, (w.bodies b).m * x.vel b q + h * ∑ g ∈ w.fg.toFinset,
          (w.gens g).thrust (∑ b ∈ w.rb.toFinset, (w.bodies b).m) q ∧
      ∑ b ∈ w.rb.toFinset, (w.bodies b).m * x'.pos b q =
        ∑ b ∈ w.rb.toFinset, (w.bodies b).m * x.pos b q +
        h * ∑ b ∈ w.rb.toFinset, (w.bodies b).m * x.vel b q +
        h ^ 2 / 2 * o.lag 1 * ∑ g ∈ w.fg.toFinset,
          (w.gens g).thrust (∑ b ∈ w.rb.toFinset, (w.bodies b).m) q := by
  cases o with
  | base d => exact t.elim
  | euler d =>
    obtain ⟨mult, t⟩ := t
    have hF := accel_thrust p hp hd hk hm hq (fun b hb => t.acc.newton b hb q)
    rw [← hF]
    simp only [Ode.lag]
    constructor
    · rw [mul_sum, ← sum_add_distrib]
      refine sum_congr rfl fun b hb => ?_
      rw [t.vel b (List.mem_toFinset.mp hb) q]
      ring
    · rw [mul_sum, ← sum_add_distrib]
      norm_num
      refine sum_congr rfl fun b hb => ?_
      rw [t.pos b (List.mem_toFinset.mp hb) q, if_neg (by decide)]
      ring
  | nsv d =>
    obtain ⟨mult, t⟩ := t
    have hF := accel_thrust p hp hd hk hm hq (fun b hb => t.acc.newton b hb q)
    rw [← hF]
    simp only [Ode.lag]
    constructor
    · rw [mul_sum, ← sum_add_distrib]
      refine sum_congr rfl fun b hb => ?_
      rw [t.vel b (List.mem_toFinset.mp hb) q]
      ring
    · rw [mul_sum, mul_sum, ← sum_add_distrib, ← sum_add_distrib]
      refine sum_congr rfl fun b hb => ?_
      rw [t.pos b (List.mem_toFinset.mp hb) q, if_pos rfl, t.vel b (List.mem_toFinset.mp hb) q]
      ring
  | rk4 r =>
    obtain ⟨a, mult, t⟩ := t
    have h1 := accel_thrust p hp hd hk hm hq (fun b hb => t.acc1.newton b hb q)
    have h2 := accel_thrust p hp hd hk hm hq (fun b hb => t.acc2.newton b hb q)
    have h3 := accel_thrust p hp hd hk hm hq (fun b hb => t.acc3.newton b hb q)
    have h4 := accel_thrust p hp hd hk hm hq (fun b hb => t.acc4.newton b hb q)
    rw [Ode.lag]
    constructor
    · have : ∑ b ∈ w.rb.toFinset, (w.bodies b).m * x'.vel b q =
          ∑ b ∈ w.rb.toFinset, (w.bodies b).m * x.vel b q +
          h / 6 * (∑ b ∈ w.rb.toFinset, (w.bodies b).m * a 1 b q +
            2 * ∑ b ∈ w.rb.toFinset, (w.bodies b).m * a 2 b q +
            2 * ∑ b ∈ w.rb.toFinset, (w.bodies b).m * a 3 b q +
            ∑ b ∈ w.rb.toFinset, (w.bodies b).m * a 4 b q) := by
        simp only [mul_sum, ← sum_add_distrib]
        refine sum_congr rfl fun b hb => ?_
        rw [t.vel b (List.mem_toFinset.mp hb) q]
        ring
      rw [this, h1, h2, h3, h4]
      ring
    · have : ∑ b ∈ w.rb.toFinset, (w.bodies b).m * x'.pos b q =
          ∑ b ∈ w.rb.toFinset, (w.bodies b).m * x.pos b q +
          h * ∑ b ∈ w.rb.toFinset, (w.bodies b).m * x.vel b q +
          h ^ 2 / 6 * (∑ b ∈ w.rb.toFinset, (w.bodies b).m * a 1 b q +
            ∑ b ∈ w.rb.toFinset, (w.bodies b).m * a 2 b q +
            ∑ b ∈ w.rb.toFinset, (w.bodies b).m * a 3 b q) := by
        simp only [mul_sum, ← sum_add_distrib]
        refine sum_congr rfl fun b hb => ?_
        rw [t.pos b (List.mem_toFinset.mp hb) q]
        ring
      rw [this, h1, h2, h3]
      ring

/-- The sums over several sub-steps. -/
theorem steps_thrust {P Q : Nat → ℝ} {F s : ℝ} {N : Nat}
    (hP : ∀ j, j < N → P (j + 1) = P j + s * F)
    (hQ : ∀ j, j < N → Q (j + 1) = Q j + s * P j + s ^ 2 / 2 * o.lag 1 * F) :
    ∀ n, n ≤ N → P n = P 0 + n * s * F ∧
      Q n = Q 0 + n * s * P 0 + (n * s) ^ 2 / 2 * o.lag n * F := by
  intro n
  induction n with
  | zero => intro _; simp
  | succ n ih =>
    intro hn
    obtain ⟨i1, i2⟩ := ih (by omega)
    refine ⟨?_, ?_⟩
    · rw [hP n (by omega), i1]
      push_cast
      ring
    · rw [hQ n (by omega), i1, i2]
      have hn1 : ((n : ℝ) + 1) ≠ 0 := by positivity
      push_cast
      rcases Nat.eq_zero_or_pos n with rfl | hn0
      · cases o <;> simp [Ode.lag] <;> ring
      · have hn2 : (n : ℝ) ≠ 0 := by positivity
        cases o <;> simp only [Ode.lag] <;> field_simp <;> ring

/-- **C90** for the generic system. When all constraints act between two bodies (links, clutches,
gears, rolling contacts), the total momentum after a successful call of `process` has grown by `dt`
times the total weight and static force, and the centre of mass has moved as a particle does under
that force: exactly with Runge-Kutta, and with an error that is inversely proportional to the number
of sub-steps with the Euler and the semi-implicit solver. Every linear solver. -/
theorem C90_centre_generic (hG : ∀ g, G g → g.OnlyForces) (hw : World.Hist G .gen h w)
    (hst : w.Standard h) (hk : ∀ c ∈ regCons h, (w.cons c).kind.Internal) (hode : w.ode = some o)
    (ho : o.sort ≠ 0) (hsync : o.sort = 3 → InSync h) (hs : 0 < steps)
    (e : w.process .gen env dt steps = .ok w') (q : Coord) (hq : q ≠ .th) :
    ∑ b ∈ regBodies h, (w'.bodies b).m * (w'.bodies b).vel q =
        ∑ b ∈ regBodies h, (w.bodies b).m * (w.bodies b).vel q + dt * ∑ g ∈ regGens h,
          (w.gens g).thrust (∑ b ∈ regBodies h, (w.bodies b).m) q ∧
      ∑ b ∈ regBodies h, (w'.bodies b).m * (w'.bodies b).pos q =
        ∑ b ∈ regBodies h, (w.bodies b).m * (w.bodies b).pos q +
        dt * ∑ b ∈ regBodies h, (w.bodies b).m * (w.bodies b).vel q +
        dt ^ 2 / 2 * o.lag steps * ∑ g ∈ regGens h,
          (w.gens g).thrust (∑ b ∈ regBodies h, (w.bodies b).m) q := by
  obtain ⟨X, hX⟩ := hw.ode_moved hG hst hode ho hsync e
  have p := (hw.readyG hG hst.wired).2
  have st := fun j hj => odeStep_thrust p (hst.proper hw.regs) (hst.driven hw.regs)
    (fun c hc => hk c ((hw.regs.cons.mem c).mp hc)) hX.mass hq (hX.step j hj)
  obtain ⟨k1, k2⟩ := steps_thrust
    (P := fun j => ∑ b ∈ w.rb.toFinset, (w.bodies b).m * (X j).vel b q)
    (Q := fun j => ∑ b ∈ w.rb.toFinset, (w.bodies b).m * (X j).pos b q)
    (fun j hj => (st j hj).1) (fun j hj => (st j hj).2) _ (Nat.le_refl _)
  have hmv := C56_process_only_moves hw e
  have hn : ((steps.toNat : Nat) : ℝ) = (steps : ℝ) := by
    exact_mod_cast Int.toNat_of_nonneg hs.le
  have hd : (steps : ℝ) * (dt / steps) = dt := by
    have : (steps : ℝ) ≠ 0 := by exact_mod_cast hs.ne'
    field_simp
  simp only [hn, hd, hX.first] at k1 k2
  rw [hw.regs.rb_finset, hw.regs.fg_finset] at k1 k2
  have l : ∀ b ∈ regBodies h, (w'.bodies b).m = (w.bodies b).m ∧
      (w'.bodies b).vel q = (X steps.toNat).vel b q ∧
      (w'.bodies b).pos q = (X steps.toNat).pos b q := fun b hb => by
    obtain ⟨l1, l2⟩ := hX.last b ((hw.regs.bodies.mem b).mpr hb) q
    exact ⟨hmv.mass b, l2.symm, l1.symm⟩
  refine ⟨Eq.trans (sum_congr rfl fun b hb => ?_) k1, Eq.trans (sum_congr rfl fun b hb => ?_) k2⟩
  · rw [(l b hb).1, (l b hb).2.1]
  · rw [(l b hb).1, (l b hb).2.2]

/-- The claim applied to two bodies with a link under gravity and the Runge-Kutta solver. -/
example (env : Env ℝ) : ∃ (h : List (Op ℝ)) (w w' : World ℝ), World.Hist Gen.Shipped .gen h w ∧
    w.process .gen env 2 4 = .ok w' ∧
    ∑ b ∈ {0, 1}, (w'.bodies b).m * (w'.bodies b).pos .y =
      ∑ b ∈ {0, 1}, (w.bodies b).m * (w.bodies b).pos .y +
        2 * ∑ b ∈ {0, 1}, (w.bodies b).m * (w.bodies b).vel .y - 36 := by
  obtain ⟨h, w, w', d, hs, hst, e⟩ := demo_genOde (.inr (pins_link ⟨1, 3, 4, 7, 9, 0, 0⟩))
    (g := .gravity 9) trivial trivial (sv := .cg 2 0 0) (le_refl 2) (by simp)
    (o := .rk4 newRk4) (.inr (.inr rfl)) 2 4 env
  have q := (C90_centre_generic (fun g => Gen.tame) d.hist hst (fun c _ => by rw [d.kind c]; trivial)
    d.ode (by decide) (fun _ => hs) (by decide) e .y (by decide)).2
  rw [d.regB, d.regG] at q
  refine ⟨h, w, w', d.hist, e, q.trans ?_⟩
  simp [d.gens, Gen.thrust, Ode.lag, d.m]
  ring

/-- **C90** for the optimized system. -/
theorem C90_centre_optimized (hG : ∀ g, G g → g.OnlyForces) (hw : World.Hist G .opt h w)
    (hst : w.Standard h) (hk : ∀ c ∈ regCons h, (w.cons c).kind.Internal) (hs : 0 < steps)
    (e : w.process .opt env dt steps = .ok w') (q : Coord) (hq : q ≠ .th) :
    ∑ b ∈ regBodies h, (w'.bodies b).m * (w'.bodies b).vel q =
        ∑ b ∈ regBodies h, (w.bodies b).m * (w.bodies b).vel q + dt * ∑ g ∈ regGens h,
          (w.gens g).thrust (∑ b ∈ regBodies h, (w.bodies b).m) q ∧
      ∑ b ∈ regBodies h, (w'.bodies b).m * (w'.bodies b).pos q =
        ∑ b ∈ regBodies h, (w.bodies b).m * (w.bodies b).pos q +
        dt * ∑ b ∈ regBodies h, (w.bodies b).m * (w.bodies b).vel q +
        dt ^ 2 / 2 * (1 + 1 / steps) * ∑ g ∈ regGens h,
          (w.gens g).thrust (∑ b ∈ regBodies h, (w.bodies b).m) q := by
  obtain ⟨X, mult, h0, hX⟩ := hw.moved hG hst e
  have p := (hw.ready hG hst.wired).2
  have st : ∀ j, j < steps.toNat →
      ∑ b ∈ w.rb.toFinset, (w.bodies b).m * (X (j + 1)).vel b q =
        ∑ b ∈ w.rb.toFinset, (w.bodies b).m * (X j).vel b q + dt / steps * ∑ g ∈ w.fg.toFinset,
          (w.gens g).thrust (∑ b ∈ w.rb.toFinset, (w.bodies b).m) q ∧
      ∑ b ∈ w.rb.toFinset, (w.bodies b).m * (X (j + 1)).pos b q =
        ∑ b ∈ w.rb.toFinset, (w.bodies b).m * (X j).pos b q +
        dt / steps * ∑ b ∈ w.rb.toFinset, (w.bodies b).m * (X j).vel b q +
        (dt / steps) ^ 2 / 2 * (Ode.newNsv : Ode ℝ).lag 1 * ∑ g ∈ w.fg.toFinset,
          (w.gens g).thrust (∑ b ∈ w.rb.toFinset, (w.bodies b).m) q := by
    intro j hj
    have t := hX.step j hj
    have hF := accel_thrust p (hst.proper hw.regs) (hst.driven hw.regs)
      (fun c hc => hk c ((hw.regs.cons.mem c).mp hc)) hX.mass hq (fun b hb => t.acc b hb q)
    rw [← hF]
    simp only [Ode.newNsv, Ode.lag]
    constructor
    · rw [mul_sum, ← sum_add_distrib]
      refine sum_congr rfl fun b hb => ?_
      rw [t.vel b (List.mem_toFinset.mp hb) q]
      ring
    · rw [mul_sum, mul_sum, ← sum_add_distrib, ← sum_add_distrib]
      refine sum_congr rfl fun b hb => ?_
      rw [t.pos b (List.mem_toFinset.mp hb) q, t.vel b (List.mem_toFinset.mp hb) q]
      ring
  obtain ⟨k1, k2⟩ := steps_thrust
    (P := fun j => ∑ b ∈ w.rb.toFinset, (w.bodies b).m * (X j).vel b q)
    (Q := fun j => ∑ b ∈ w.rb.toFinset, (w.bodies b).m * (X j).pos b q)
    (fun j hj => (st j hj).1) (fun j hj => (st j hj).2) _ (Nat.le_refl _)
  have hmv := C56_process_only_moves hw e
  have hn : ((steps.toNat : Nat) : ℝ) = (steps : ℝ) := by
    exact_mod_cast Int.toNat_of_nonneg hs.le
  have hd : (steps : ℝ) * (dt / steps) = dt := by
    have : (steps : ℝ) ≠ 0 := by exact_mod_cast hs.ne'
    field_simp
  simp only [hn, hd, h0] at k1 k2
  rw [hw.regs.rb_finset, hw.regs.fg_finset] at k1 k2
  have l : ∀ b ∈ regBodies h, (w'.bodies b).m = (w.bodies b).m ∧
      (w'.bodies b).vel q = (X steps.toNat).vel b q ∧
      (w'.bodies b).pos q = (X steps.toNat).pos b q := fun b hb => by
    obtain ⟨l1, l2⟩ := hX.last b ((hw.regs.bodies.mem b).mpr hb) q
    exact ⟨hmv.mass b, l2.symm, l1.symm⟩
  refine ⟨Eq.trans (sum_congr rfl fun b hb => ?_) k1, Eq.trans (sum_congr rfl fun b hb => ?_) k2⟩
  · rw [(l b hb).1, (l b hb).2.1]
  · rw [(l b hb).1, (l b hb).2.2]

/-- The claim applied to two bodies with a link under gravity. -/
example (env : Env ℝ) : ∃ (h : List (Op ℝ)) (w w' : World ℝ), World.Hist Gen.Shipped .opt h w ∧
    w.process .opt env 2 4 = .ok w' ∧
    ∑ b ∈ {0, 1}, (w'.bodies b).m * (w'.bodies b).pos .y =
      ∑ b ∈ {0, 1}, (w.bodies b).m * (w.bodies b).pos .y +
        2 * ∑ b ∈ {0, 1}, (w.bodies b).m * (w.bodies b).vel .y - 45 := by
  obtain ⟨h, w, w', d, hst, e⟩ := demo_pins (pins_link ⟨1, 3, 4, 7, 9, 0, 0⟩)
    (g := .gravity 9) trivial trivial (sv := .cg 2 0 0) (le_refl 2) (by simp) (two_ne_zero) 4 env
  have q := (C90_centre_optimized (fun g => Gen.tame) d.hist hst
    (fun c _ => by rw [d.kind c]; trivial) (by decide) e .y (by decide)).2
  rw [d.regB, d.regG] at q
  refine ⟨h, w, w', d.hist, e, q.trans ?_⟩
  simp [d.gens, Gen.thrust, d.m]
  ring

/-! ## C91 -/

/-- **C91**: with Gaussian elimination the positions and velocities of all registered bodies after a
successful call of `process` of the generic system depend only on the registered objects, the kind of
the ODE solver and the arguments: two systems of any histories with equal registered objects give
equal results, whatever order the objects were registered in and whatever the uninitialised memory
contains. With Runge-Kutta, `initialize` must have been given a new solver and every call of
`process` since then at least one sub-step (see C68). -/
theorem C91_same_motion (hG : ∀ g, G g → g.OnlyForces) (hw : World.Hist G .gen h w)
    (hv : World.Hist G .gen h2 v) (hst : w.Standard h) (hnr : v.Near h2)
    (s : SameObjects h w h2 v) (hs : w.sle = some .ge) (hs' : v.sle = some .ge)
    (hode : w.ode = some o) (hode' : v.ode = some o2) (ho : o.sort ≠ 0) (hoo : o.sort = o2.sort)
    (hsync : o.sort = 3 → InSync h ∧ InSync h2)
    (e : w.process .gen env dt steps = .ok w') (e2 : v.process .gen env2 dt steps = .ok v') :
    ∀ b ∈ regBodies h, (w'.bodies b).pos = (v'.bodies b).pos ∧
      (w'.bodies b).vel = (v'.bodies b).vel := by
  have a := s.alike hw hv
  have hstv := s.standard hst hnr
  have p := (hw.readyG hG hst.wired).2
  have hd := hst.driven hw.regs
  obtain ⟨X, hX⟩ := hw.ode_moved hG hst hode ho (fun q => (hsync q).1) e
  obtain ⟨Y, hY⟩ := hv.ode_moved hG hstv hode' (hoo ▸ ho) (fun q => (hsync (hoo.trans q)).2) e2
  have key : ∀ n, n ≤ steps.toNat → w.SameAs (X n) (Y n) := by
    intro n
    induction n with
    | zero =>
      refine fun _ => ⟨fun b hb q => ?_, fun b hb q => ?_, fun b hb q => ?_⟩
      · rw [hX.first, hY.first]; exact (a.pos hb q).symm
      · rw [hX.first, hY.first]; exact (a.vel hb q).symm
      · rw [hX.first, hY.first]; rfl
    | succ n ih =>
      intro hn
      exact (hX.step n (by omega)).same p hd hs hoo (ih (by omega))
        (a.symm.odeStep hs' hs (hY.step n (by omega)))
  intro b hb
  have hb' := (hw.regs.bodies.mem b).mpr hb
  have k1 := key _ (Nat.le_refl _)
  refine ⟨funext fun q => ?_, funext fun q => ?_⟩
  · rw [← (hX.last b hb' q).1, ← (hY.last b (a.memb.mpr hb') q).1, k1.pos b hb' q]
  · rw [← (hX.last b hb' q).2, ← (hY.last b (a.memb.mpr hb') q).2, k1.vel b hb' q]

/-- Two demonstration systems with the same constraint are the same objects. -/
theorem DemoG.same {K : CKind ℝ} {g : Gen ℝ} {cs fg : List Nat} {sv sv' : Solver ℝ}
    (d : DemoG K g cs fg sv o h w) (d' : DemoG K g cs fg sv' o2 h2 v) : SameObjects h w h2 v where
  rb := by rw [d.regB, d'.regB]
  cs := by rw [d.regC, d'.regC]
  fg := by rw [d.regG, d'.regG]
  bodies := fun b _ => ⟨by funext q; rw [d.pos, d'.pos], by funext q; rw [d.vel, d'.vel],
    by rw [d.m, d'.m], by rw [d.I, d'.I]⟩
  kind := fun c _ => by rw [d.kind, d'.kind]
  rows := fun c _ => by rw [d.rows, d'.rows]
  count := fun c _ => by rw [d.count, d'.count]
  at_ := fun c _ k _ => by rw [d.bodies, d'.bodies]
  gens := fun g _ => by rw [d.gens, d'.gens]
  bias := by rw [d.bias, d'.bias]

/-- The claim applied to two systems with their bodies in opposite orders and different contents of
uninitialised memory, with the Runge-Kutta solver. -/
example (env env2 : Env ℝ) : ∃ (h h2 : List (Op ℝ)) (w w' v v' : World ℝ),
    World.Hist Gen.Shipped .gen h w ∧ World.Hist Gen.Shipped .gen h2 v ∧
    w.rb = [0, 1] ∧ v.rb = [1, 0] ∧ w.ode = some (.rk4 newRk4) ∧
    w.process .gen env 2 4 = .ok w' ∧ v.process .gen env2 2 4 = .ok v' ∧
    (w'.bodies 0).pos = (v'.bodies 0).pos := by
  obtain ⟨h, w, d, hs, hr⟩ := demo_ode_any (.simpleGear ⟨3, false, 0, 0⟩) (g := .gravity 9) trivial
    (cs := [0]) (fg := [0]) (by decide) (by decide) .ge (o := .rk4 newRk4) (.inr (.inr rfl))
    (.inl rfl) (fun _ _ => 0) (fun _ _ => 0)
  obtain ⟨h2, v, d', hs', hr'⟩ := demo_ode_any (.simpleGear ⟨3, false, 0, 0⟩) (g := .gravity 9)
    trivial (cs := [0]) (fg := [0]) (by decide) (by decide) .ge (o := .rk4 newRk4)
    (.inr (.inr rfl)) (.inr rfl) (fun _ _ => 1) (fun _ _ => 2)
  obtain ⟨hst, w', e⟩ := d.runsOde hs trivial (.inl (turns_gear _)) trivial (by simp) (by decide) 2 4
    env
  obtain ⟨hst', v', e'⟩ := d'.runsOde hs' trivial (.inl (turns_gear _)) trivial (by simp)
    (by decide) 2 4 env2
  exact ⟨h, h2, w, w', v, v', d.hist, d'.hist, hr, hr', d.ode, e, e', (C91_same_motion
    (fun g => Gen.tame) d.hist d'.hist hst hst'.near (d.same d') d.sle d'.sle d.ode d'.ode
    (by decide) rfl (fun _ => ⟨hs, hs'⟩) e e' 0 d.bodies_mem.1).1⟩

/-- **C91**: when there is at least one constraint, whether `process` succeeds depends only on the
registered objects, the kind of the ODE solver and the arguments as well. -/
theorem C91_same_success (hG : ∀ g, G g → g.OnlyForces) (hw : World.Hist G .gen h w)
    (hv : World.Hist G .gen h2 v) (hst : w.Standard h) (hnr : v.Near h2)
    (s : SameObjects h w h2 v) (hs : w.sle = some .ge) (hs' : v.sle = some .ge)
    (hode : w.ode = some o) (hode' : v.ode = some o2) (ho : o.sort ≠ 0) (hoo : o.sort = o2.sort)
    (hsync : o.sort = 3 → InSync h ∧ InSync h2) (hne : regCons h ≠ ∅)
    (e : w.process .gen env dt steps = .ok w') (env2 : Env ℝ) :
    ∃ v', v.process .gen env2 dt steps = .ok v' := by
  have a := s.alike hw hv
  have hstv := s.standard hst hnr
  have p := (hw.readyG hG hst.wired).2
  have pv := (hv.readyG hG hstv.wired).2
  have hd := hst.driven hw.regs
  have hdv := hstv.driven hv.regs
  obtain ⟨X, hX⟩ := hw.ode_moved hG hst hode ho (fun q => (hsync q).1) e
  have same : ∀ {x y : Motion}, w.SameAs x y → v.SameAs x y := fun t =>
    ⟨fun b hb => t.pos b (a.memb.mp hb), fun b hb => t.vel b (a.memb.mp hb),
      fun b hb => t.acc b (a.memb.mp hb)⟩
  refine hv.goesOde hG hstv hode' (hoo ▸ ho) (fun q => (hsync (hoo.trans q)).2) (fun b hb q => ?_)
    (by rw [hs']; simp) (fun m e => by rw [hs']; simp) (fun j y => w.SameAs (X j) y)
    (fun y hy => ⟨fun b hb q => ?_, fun b hb q => ?_, fun b hb q => ?_⟩)
    (fun j hj y y' hy t => (hX.step j hj).same p hd hs hoo hy (a.symm.odeStep hs' hs t))
    (fun j hj y hy _ => ?_) (fun h3 j hj y hy _ => ?_) (fun h0 => ?_) env2
  · rw [a.memb] at hb
    rw [a.mass hb]
    exact hX.mass b hb q
  · rw [hX.first, hy.pos b (a.memb.mpr hb) q]; exact (a.pos hb q).symm
  · rw [hX.first, hy.vel b (a.memb.mpr hb) q]; exact (a.vel hb q).symm
  · rw [hX.first, hy.acc b (a.memb.mpr hb) q]; rfl
  · have t := a.odeStep hs hs' (hX.step j hj)
    refine Solvable.congr pv (same hy) ?_
    cases o with
    | base d => exact t.elim
    | euler d => obtain ⟨_, t⟩ := t; exact t.acc.solvable hs'
    | nsv d => obtain ⟨_, t⟩ := t; exact t.acc.solvable hs'
    | rk4 r => obtain ⟨_, _, t⟩ := t; exact t.acc1.solvable hs'
  · have t := a.odeStep hs hs' (hX.step j hj)
    cases o with
    | rk4 r => obtain ⟨_, _, t⟩ := t; exact t.solvable pv hdv hs' (same hy)
    | _ => rw [← hoo] at h3; simp [Ode.sort] at h3
  · rw [hv.regs.cs_nil, ← s.cs] at h0
    exact absurd h0 hne

/-- The hypotheses are met by two systems with their bodies in opposite orders. -/
example (env : Env ℝ) : ∃ (h h2 : List (Op ℝ)) (w w' v : World ℝ),
    World.Hist Gen.Shipped .gen h w ∧ World.Hist Gen.Shipped .gen h2 v ∧ w.Standard h ∧ v.Near h2 ∧
    SameObjects h w h2 v ∧ w.rb = [0, 1] ∧ v.rb = [1, 0] ∧ w.sle = some .ge ∧ v.sle = some .ge ∧
    w.ode = some (.rk4 newRk4) ∧ v.ode = some (.rk4 newRk4) ∧ InSync h ∧ InSync h2 ∧
    regCons h ≠ ∅ ∧ w.process .gen env 2 4 = .ok w' := by
  obtain ⟨h, w, d, hs, hr⟩ := demo_ode_any (.simpleGear ⟨3, false, 0, 0⟩) (g := .gravity 9) trivial
    (cs := [0]) (fg := [0]) (by decide) (by decide) .ge (o := .rk4 newRk4) (.inr (.inr rfl))
    (.inl rfl) (fun _ _ => 0) (fun _ _ => 0)
  obtain ⟨h2, v, d', hs', hr'⟩ := demo_ode_any (.simpleGear ⟨3, false, 0, 0⟩) (g := .gravity 9)
    trivial (cs := [0]) (fg := [0]) (by decide) (by decide) .ge (o := .rk4 newRk4)
    (.inr (.inr rfl)) (.inr rfl) (fun _ _ => 1) (fun _ _ => 2)
  obtain ⟨hst, w', e⟩ := d.runsOde hs trivial (.inl (turns_gear _)) trivial (by simp) (by decide) 2 4
    env
  exact ⟨h, h2, w, w', v, d.hist, d'.hist, hst,
    (d'.standard (.inl (by simp [CKind.counts])) trivial).near, d.same d', hr, hr', d.sle, d'.sle,
    d.ode, d'.ode, hs, hs', ne_empty_of_mem (d.mem0 rfl), e⟩

end

end Scs
