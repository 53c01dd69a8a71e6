import Verif.PropsExact
import Verif.PropsEnergy
import Verif.PropsLeast

/-!
# C88: with Gauss-Seidel, constraints add no energy beyond the tolerance
-/

namespace Scs

open Finset

section
variable {G : Gen ℝ → Prop} {h : List (Op ℝ)} {w w' : World ℝ} {env : Env ℝ} {dt : ℝ} {steps : Int}

/-- The torque limits of a constraint allow both directions, so that it does not drive the bodies. -/
def CKind.Passive : CKind ℝ → Prop
  | .constantRotation p => p.minTorque ≤ 0 ∧ 0 ≤ p.maxTorque
  | .clutch p => p.minTorque ≤ 0 ∧ 0 ≤ p.maxTorque
  | .rotationFriction p => p.minTorque ≤ 0 ∧ 0 ≤ p.maxTorque
  | _ => True

theorem CKind.Passive.limits {K : CKind ℝ} (hp : K.Passive) (ho : K.Ordered) :
    K.loT ≤ 0 ∧ 0 ≤ K.hiT := by
  have hb : (0 : ℝ) ≤ Fp.dblMax := dblMax_nonneg
  have hn : -(Fp.dblMax : ℝ) ≤ 0 := neg_nonpos.mpr hb
  cases K with
  | link p => exact ⟨neg_nonpos.mpr ho, ho⟩
  | constantRotation p => exact hp
  | clutch p => exact hp
  | rotationFriction p => exact hp
  | simpleGear p =>
    simp only [CKind.loT, CKind.hiT]
    split
    · exact ⟨le_rfl, le_rfl⟩
    · exact ⟨hn, hb⟩
  | base => exact ⟨hn, hb⟩
  | fixedPosition p => exact ⟨hn, hb⟩
  | fixedRotation p => exact ⟨hn, hb⟩
  | line p => exact ⟨hn, hb⟩
  | rolling p => exact ⟨hn, hb⟩
  | custom f => exact ⟨hn, hb⟩

/-- A call with Gauss-Seidel and enough iterations of the demonstration system. -/
theorem demo_gsOf (K : CKind ℝ) (hK : K.counts ≠ none) {g : Gen ℝ} (hg : g.Shipped)
    {cs fg : List Nat} (hcs : cs.Nodup) (hfg : fg.Nodup)
    (hin : g.Within (· ∈ ({0, 1} : Finset Nat)))
    (ho : K.Ordered) (hd : K.Directed) {e : ℝ} (he : 0 < e) (hdt : 0 < dt) (env : Env ℝ) (steps : Int) :
    ∃ (h : List (Op ℝ)) (w w' : World ℝ) (m : Nat), Demo K g cs fg (.gs m e) h w ∧ w.Standard h ∧
      w.Sensible h ∧ w.process .opt env dt steps = .ok w' := by
  obtain ⟨h, w, d⟩ := demo K hg hcs hfg .ge
  have hst : w.Standard h := d.standard (Or.inl hK) hin
  have hs : w.Sensible h := d.sensible ho hd
  obtain ⟨N, w', h1⟩ := C85_enough_iterations (fun g => Gen.tame) d.hist hst hs he hdt env steps
  have hi := d.hist.gs N e
  exact ⟨.init (some (.gs N e)) none :: h, { w with sle := some (.gs N e) }, _, N, ⟨⟨d.regB, d.regC, d.regG, d.body, d.con, d.gens, d.rb, d.cs_eq, d.fg_eq, rfl,
    d.bias, d.new, _, hi.regs⟩, hi⟩, ⟨hst.kind, hst.bodies, hst.gens, hst.near⟩,
    ⟨hs.mass, hs.ordered, hs.directed, hs.apart⟩, h1 N le_rfl⟩

/-- The kinetic energy the bodies `S` would have with the velocities `u`. -/
noncomputable def World.kineticOf (w : World ℝ) (S : Finset Nat) (u : Nat → Coord → ℝ) : ℝ :=
  ∑ b ∈ S, ((w.bodies b).m * (u b .x ^ 2 + u b .y ^ 2) + (w.bodies b).I * u b .th ^ 2) / 2

theorem energyOf_eq (hS : w.rb.toFinset = regBodies h) (u : Nat → Coord → ℝ) :
    w.energyOf u = w.kineticOf (regBodies h) u := by
  rw [World.energyOf, World.kineticOf, hS]
  refine sum_congr rfl fun b _ => ?_
  simp only [Coord.sum, Body.mass]
  ring

/-- The power of a row that is nearly satisfied or gives way. -/
theorem row_power {r E l lo hi : ℝ} (h0 : lo ≤ 0 ∧ 0 ≤ hi)
    (h : |r| ≤ E ∨ (l = lo ∧ -E ≤ r) ∨ (l = hi ∧ r ≤ E)) : l * r ≤ E * |l| := by
  have := nearly_cone (μ := 0) h0 h
  rw [zero_sub, abs_neg] at this
  linarith

theorem World.Nearly.energy (p : w.Placed) (hm : ∀ b ∈ w.rb, ∀ q : Coord, 0 < (w.bodies b).mass q)
    (hS : w.rb.toFinset = regBodies h) (hC : w.cs.toFinset = regCons h) (hz : w.Satisfied h)
    (hl : ∀ c ∈ regCons h, (w.cons c).kind.loT ≤ 0 ∧ 0 ≤ (w.cons c).kind.hiT) (hdt : 0 < dt)
    {E mult : Nat → Nat → ℝ} {u : Nat → Coord → ℝ} (a : w.Nearly dt E mult u) :
    w.kineticOf (regBodies h) u +
        w.kineticOf (regBodies h) (fun b q => u b q - w.freeVel dt b q) ≤
      w.kineticOf (regBodies h) (w.freeVel dt) +
        dt * ∑ c ∈ regCons h, ∑ j ∈ range (w.cons c).rows, E c j * |mult c j| := by
  have key := energy_move p (fun b hb q => (hm b hb q).ne') (x := w.now) a.newton
  have ef : ∀ b q, w.now.vel b q + dt * (w.load w.now b q / (w.bodies b).mass q) =
      w.freeVel dt b q := fun b q => by rw [World.freeVel, mul_div_assoc]; rfl
  simp only [ef, energyOf_eq hS] at key
  rw [key, hC]
  refine add_le_add_right (mul_le_mul_of_nonneg_left (sum_le_sum fun c hc => sum_le_sum
    fun j hj => ?_) hdt.le) _
  have hc' : c ∈ w.cs := List.mem_toFinset.mp (by rw [hC]; exact hc)
  obtain ⟨z1, z2⟩ := hz c hc j (mem_range.mp hj)
  refine row_power (hl c hc) (a.row c hc' j (mem_range.mp hj) _ ?_)
  rw [z1, z2, mul_zero, add_zero, add_zero]

/-- **C88**: when the registered constraints are satisfied and do not drive the bodies, the kinetic
energy after `process(dt, 1)` with Gauss-Seidel, together with that of the change of the velocities
which the constraints cause, is at most the one without constraints plus, for each row, the sub-step
times its force times the speed by which it may be off (C86). -/
theorem C88_energy (hG : ∀ g, G g → g.OnlyForces) (hw : World.Hist G .opt h w)
    (hst : w.Standard h) (hs : w.Sensible h) (hz : w.Satisfied h)
    (hp : ∀ c ∈ regCons h, (w.cons c).kind.Passive) {m : Nat} {d : ℝ} (hsle : w.sle = some (.gs m d))
    (hd : 0 < d) (hd1 : d < 1) (hdt : 0 < dt) (e : w.process .opt env dt 1 = .ok w') :
    ∃ mult : Nat → Nat → ℝ, (∀ c ∈ regCons h, ∀ j, j < (w.cons c).rows →
      ∀ (q : Coord) k, k < (w.cons c).bodyCount →
        (w'.cons c).F q j k = mult c j * (w.rowsOf w.now c).J j (k * 3 + q.d)) ∧
      w'.kinetic (regBodies h) +
          w.kineticOf (regBodies h) (fun b q => (w'.bodies b).vel q - w.freeVel dt b q) ≤
        w.kineticOf (regBodies h) (w.freeVel dt) +
          dt * ∑ c ∈ regCons h, ∑ j ∈ range (w.cons c).rows,
            w.gsSlack d dt w.now mult c j * |mult c j| := by
  obtain ⟨mult, f, a⟩ := gs_nearly hG hw hst hs hsle hd hd1 hdt e
  refine ⟨mult, f, ?_⟩
  have p := (hw.ready hG hst.wired).2
  have hmv := ((optProcess_wp w env dt 1 hw.regs.nsv).of_eq e).1.moves
  have key := a.energy p (hs.masses hw.regs) hw.regs.rb_finset hw.regs.cs_finset hz
    (fun c hc => (hp c hc).limits (hs.ordered c hc)) hdt
  rw [← energyOf_eq hw.regs.rb_finset (fun b => (w'.bodies b).vel),
    energyOf_kinetic _ hw.regs.rb_finset fun b => ⟨hmv.mass b, hmv.inertia b⟩] at key
  exact key

/-- A call of a turning body and another one, linked at coinciding points. -/
theorem demo_joined (env : Env ℝ) : ∃ (h : List (Op ℝ)) (w w' : World ℝ) (m : Nat),
    World.Hist Gen.Shipped .opt h w ∧ w.Standard h ∧ w.Sensible h ∧ w.Satisfied h ∧
      (∀ c ∈ regCons h, (w.cons c).kind.Passive) ∧ (w.bodies 0).v_theta = 5 ∧
      w.sle = some (.gs m (1 / 10)) ∧ w.process .opt env 2 1 = .ok w' := by
  obtain ⟨h, w, w', m, d, hst, hs, e⟩ := demo_gsOf (.link ⟨1, 2, 0, 0, 9, 0, 0⟩) nofun
    (g := .gravity 9) trivial (cs := [0]) (fg := [0]) (by decide) (by decide) trivial
    (by show (0 : ℝ) ≤ 9; norm_num) trivial (e := 1 / 10) (by norm_num) two_pos env 1
  have hn : (w.cons 0).bodyCount = 2 := d.count 0
  have hr : (w.cons 0).rows = 2 := d.rows 0
  have hz : w.Satisfied h := by
    intro c hc j hj
    rw [d.regC] at hc
    obtain rfl : c = 0 := by simpa using hc
    obtain ⟨q0, q1, q2, q3, q4, q5⟩ := q_two (x := w.now) hn (d.bodies 0 0) (d.bodies 0 1)
    have hp : ∀ b q, w.now.pos b q = (demoBody b).pos q := d.pos
    have : j = 0 ∨ j = 1 := by omega
    simp only [World.rowsOf, d.kind]
    rcases this with rfl | rfl <;>
      simp [CKind.cT, CKind.biasT, q0, q1, q2, q3, q4, q5, hp, demoBody, Body.pos, rx, ry]
  exact ⟨h, w, w', m, d.hist, hst, hs, hz, fun c _ => by rw [d.kind]; trivial, d.vel 0 .th, d.sle, e⟩

/-- The hypotheses can be met. -/
example (env : Env ℝ) : ∃ (h : List (Op ℝ)) (w w' : World ℝ) (m : Nat),
    World.Hist Gen.Shipped .opt h w ∧ w.Standard h ∧ w.Sensible h ∧ w.Satisfied h ∧
      (∀ c ∈ regCons h, (w.cons c).kind.Passive) ∧ (w.bodies 0).v_theta = 5 ∧
      w.sle = some (.gs m (1 / 10)) ∧ w.process .opt env 2 1 = .ok w' := demo_joined env

/-- **C88**, the exact step: it does not increase the kinetic energy. -/
theorem C88_exact (hG : ∀ g, G g → g.OnlyForces) (hw : World.Hist G .opt h w)
    (hst : w.Standard h) (hs : w.Sensible h) (hz : w.Satisfied h)
    (hp : ∀ c ∈ regCons h, (w.cons c).kind.Passive) (hdt : 0 < dt) {mult : Nat → Nat → ℝ}
    {u : Nat → Coord → ℝ} (a : w.Nearly dt (fun _ _ => 0) mult u) :
    w.kineticOf (regBodies h) u ≤ w.kineticOf (regBodies h) (w.freeVel dt) := by
  have p := (hw.ready hG hst.wired).2
  have key := a.energy p (hs.masses hw.regs) hw.regs.rb_finset hw.regs.cs_finset hz
    (fun c hc => (hp c hc).limits (hs.ordered c hc)) hdt
  simp only [zero_mul, sum_const_zero, mul_zero, add_zero] at key
  refine le_trans (le_add_of_nonneg_right (sum_nonneg fun b hb => ?_)) key
  obtain ⟨h1, h2⟩ := hs.mass b hb
  positivity

/-- The hypotheses can be met. -/
example (env : Env ℝ) : ∃ (h : List (Op ℝ)) (w : World ℝ) (mult : Nat → Nat → ℝ) (u : Nat → Coord → ℝ),
    World.Hist Gen.Shipped .opt h w ∧ w.Nearly 2 (fun _ _ => 0) mult u ∧ (w.bodies 0).v_theta = 5 ∧
      w.kineticOf (regBodies h) u ≤ w.kineticOf (regBodies h) (w.freeVel 2) := by
  obtain ⟨h, w, w', m, k1, k2, k3, k4, k5, k6, k7, e⟩ := demo_joined env
  obtain ⟨mult, u, a⟩ := C87_exact_exists (fun g => Gen.tame) k1 k2 k3 (two_pos (α := ℝ))
  exact ⟨h, w, mult, u, k1, a, k6, C88_exact (fun g => Gen.tame) k1 k2 k3 k4 k5 two_pos a⟩

theorem kineticOf_near (w : World ℝ) {S : Finset Nat} (hm : ∀ b ∈ S, 0 < (w.bodies b).m ∧ 0 < (w.bodies b).I)
    (u : Nat → Coord → ℝ) {ε : ℝ} (hε : 0 < ε) : ∃ δ, 0 < δ ∧ ∀ v : Nat → Coord → ℝ,
      (∀ b ∈ S, ∀ q : Coord, |v b q - u b q| ≤ δ) → w.kineticOf S v ≤ w.kineticOf S u + ε := by
  have hc : Continuous fun δ : ℝ => ∑ b ∈ S, ((w.bodies b).m * ((|u b .x| + δ) ^ 2 +
      (|u b .y| + δ) ^ 2) + (w.bodies b).I * (|u b .th| + δ) ^ 2) / 2 := by fun_prop
  have h0 : (∑ b ∈ S, ((w.bodies b).m * ((|u b .x| + 0) ^ 2 +
      (|u b .y| + 0) ^ 2) + (w.bodies b).I * (|u b .th| + 0) ^ 2) / 2) = w.kineticOf S u := by
    simp only [add_zero, sq_abs, World.kineticOf]
  obtain ⟨δ, hδ, hd⟩ := Metric.continuousAt_iff.mp (hc.continuousAt (x := 0)) ε hε
  refine ⟨δ / 2, by positivity, fun v hv => ?_⟩
  have := hd (x := δ / 2) (by rw [Real.dist_eq, sub_zero, abs_of_pos (by positivity)]; linarith)
  rw [Real.dist_eq] at this
  have h1 := (abs_lt.mp this).2
  beta_reduce at h1
  rw [h0] at h1
  refine le_trans ?_ (by linarith : _ ≤ w.kineticOf S u + ε)
  refine sum_le_sum fun b hb => ?_
  obtain ⟨m1, m2⟩ := hm b hb
  have hq : ∀ q : Coord, v b q ^ 2 ≤ (|u b q| + δ / 2) ^ 2 := fun q => by
    refine sq_le_sq.mpr ?_
    have h3 := hv b hb q
    have h4 := abs_sub_abs_le_abs_sub (v b q) (u b q)
    rw [abs_of_nonneg (add_nonneg (abs_nonneg (u b q)) (by positivity))]
    linarith
  have hx := mul_le_mul_of_nonneg_left (add_le_add (hq .x) (hq .y)) m1.le
  have ht := mul_le_mul_of_nonneg_left (hq .th) m2.le
  linarith

/-- **C88**: with a small enough tolerance the kinetic energy rises by less than any given amount,
whatever the calls were that led to the registered objects. -/
theorem C88_limit (hG : ∀ g, G g → g.OnlyForces) (hw : World.Hist G .opt h w)
    (hst : w.Standard h) (hs : w.Sensible h) (hz : w.Satisfied h)
    (hp : ∀ c ∈ regCons h, (w.cons c).kind.Passive) (hdt : 0 < dt) {ε : ℝ} (hε : 0 < ε) :
    ∃ e0 : ℝ, 0 < e0 ∧ ∀ (h2 : List (Op ℝ)) (v v' : World ℝ) (env : Env ℝ) (m : Nat) (d : ℝ),
      World.Hist G .opt h2 v → v.Near h2 → SameObjects h w h2 v → v.sle = some (.gs m d) → 0 < d →
      d ≤ e0 → v.process .opt env dt 1 = .ok v' →
      v'.kinetic (regBodies h) ≤ w.kineticOf (regBodies h) (w.freeVel dt) + ε := by
  obtain ⟨mult, u, a⟩ := C87_exact_exists hG hw hst hs hdt
  obtain ⟨δ, hδ, hn⟩ := kineticOf_near w hs.mass u hε
  obtain ⟨e0, h0, hl⟩ := C87_limit hG hw hst hs hdt a hδ
  refine ⟨e0, h0, fun h2 v v' env m d k1 k2 k3 k4 k5 k6 k7 => ?_⟩
  have hu := C88_exact hG hw hst hs hz hp hdt a
  have hv := hn (fun b => (v'.bodies b).vel) fun b hb q => (hl h2 v v' env m d k1 k2 k3 k4 k5 k6 k7 b hb q).1
  have hmv := ((optProcess_wp v env dt 1 k1.regs.nsv).of_eq k7).1.moves
  have e : v'.kinetic (regBodies h) = w.kineticOf (regBodies h) (fun b => (v'.bodies b).vel) := by
    refine sum_congr rfl fun b hb => ?_
    have := k3.bodies b hb
    rw [hmv.mass b, hmv.inertia b, this.2.2.1, this.2.2.2]
    rfl
  rw [e]
  linarith

/-- The claim applied: the system itself is one with the same objects. -/
example (env : Env ℝ) {ε : ℝ} (hε : 0 < ε) : ∃ (h : List (Op ℝ)) (w : World ℝ) (e0 : ℝ),
    World.Hist Gen.Shipped .opt h w ∧ (w.bodies 0).v_theta = 5 ∧ 0 < e0 ∧ ∀ d, 0 < d → d ≤ e0 →
      ∃ (m : Nat) (w' : World ℝ),
        ({ w with sle := some (.gs m d) } : World ℝ).process .opt env 2 1 = .ok w' ∧
        w'.kinetic (regBodies h) ≤ w.kineticOf (regBodies h) (w.freeVel 2) + ε := by
  obtain ⟨h, w, -, -, k1, k2, k3, k4, k5, k6, -, -⟩ := demo_joined env
  obtain ⟨e0, h0, hl⟩ := C88_limit (fun g => Gen.tame) k1 k2 k3 k4 k5 two_pos hε
  refine ⟨h, w, e0, k1, k6, h0, fun d hd hd0 => ?_⟩
  obtain ⟨N, w', h1⟩ := C85_enough_iterations (fun g => Gen.tame) k1 k2 k3 hd two_pos env 1
  exact ⟨N, _, h1 N le_rfl, hl (.init (some (.gs N d)) none :: h) _ _ env N d (k1.gs N d) k2.near
    ⟨rfl, rfl, rfl, fun _ _ => ⟨rfl, rfl, rfl, rfl⟩, fun _ _ => rfl, fun _ _ => rfl, fun _ _ => rfl,
      fun _ _ _ _ => rfl, fun _ _ => rfl, rfl⟩ rfl hd hd0 (h1 N le_rfl)⟩

/-- **C88**, any number of sub-steps: when the only constraints are clutches, gears and rotation
friction and no forces act, `process` with Gauss-Seidel increases the kinetic energy at most by the
tolerance; `X i` is the motion before sub-step `i` and `mult i` are the torques in it. -/
theorem C88_couplings (hG : ∀ g, G g → g.OnlyForces) (hw : World.Hist G .opt h w)
    (hst : w.Standard h) (hs : w.Sensible h) (hk : ∀ c ∈ regCons h, (w.cons c).kind.Coupling)
    (hp : ∀ c ∈ regCons h, (w.cons c).kind.Passive) (hg : regGens h = ∅) {m : Nat} {d : ℝ}
    (hsle : w.sle = some (.gs m d)) (hd : 0 < d) (hd1 : d < 1) (hdt : 0 < dt)
    (e : w.process .opt env dt steps = .ok w') :
    ∃ (X : Nat → Motion) (mult : Nat → Nat → Nat → ℝ), X 0 = w.now ∧
      (∀ b ∈ regBodies h, ∀ q : Coord, (X steps.toNat).pos b q = (w'.bodies b).pos q ∧
        (X steps.toNat).vel b q = (w'.bodies b).vel q) ∧
      (∀ i, i < steps.toNat → ∀ c ∈ regCons h, ∀ j, j < (w.cons c).rows →
        (w.cons c).kind.loT ≤ mult i c j ∧ mult i c j ≤ (w.cons c).kind.hiT) ∧
      w'.kinetic (regBodies h) ≤ w.kinetic (regBodies h) + ∑ i ∈ range steps.toNat,
        dt / steps * ∑ c ∈ regCons h, ∑ j ∈ range (w.cons c).rows,
          w.gsSlack d (dt / steps) (X i) (mult i) c j * |mult i c j| := by
  obtain ⟨X, mult, h0, hm, hgs⟩ := hw.gs_moved hG hst hsle hdt e
  have p := (hw.ready hG hst.wired).2
  have hfg : w.fg = [] := by
    rw [← List.toFinset_eq_empty_iff, hw.regs.fg_finset, hg]
  have hz : ∀ x : Motion, ∀ c ∈ w.cs, ∀ j, j < (w.cons c).rows →
      (w.rowsOf x c).C j = 0 ∧ (w.rowsOf x c).v_bias j = 0 := by
    intro x c hc j _
    have := hk c ((hw.regs.cons.mem c).mp hc)
    simp only [World.rowsOf]
    cases hkc : (w.cons c).kind <;> rw [hkc] at this <;> first | exact this.elim | skip
    all_goals exact ⟨rfl, rfl⟩
  have hh : ∀ i, i < steps.toNat → 0 < dt / (steps : ℝ) := fun i hi => by
    have : 0 < steps := by omega
    exact div_pos hdt (by exact_mod_cast this)
  refine ⟨X, mult, h0, fun b hb q => hm.last b ((hw.regs.bodies.mem b).mpr hb) q,
    fun i hi c hc j hj => (hm.step i hi).gs m d hsle (hh i hi) c ((hw.regs.cons.mem c).mpr hc) j hj
      (hs.ordered c hc).le, ?_⟩
  have key : ∀ n, n ≤ steps.toNat → w.energyOf (X n).vel ≤ w.energyOf (X 0).vel +
      ∑ i ∈ range n, dt / steps * ∑ c ∈ regCons h, ∑ j ∈ range (w.cons c).rows,
          w.gsSlack d (dt / steps) (X i) (mult i) c j * |mult i c j| := by
    intro n
    induction n with
    | zero => intro _; rw [sum_range_zero, add_zero]
    | succ n ih =>
      intro hn
      have st := hm.step n (by omega)
      have hpos := hh n (by omega)
      have s := energy_move p hm.mass (x := X n) (s := dt / steps) (u := (X (n + 1)).vel)
        (mult := mult n) fun b hb q => by rw [st.vel b hb q, st.acc b hb q]
      simp only [World.load, hfg, List.toFinset_nil, sum_empty, zero_div, mul_zero, add_zero] at s
      have hnn : 0 ≤ w.energyOf (fun b q => (X (n + 1)).vel b q - (X n).vel b q) := by
        refine sum_nonneg fun b hb => ?_
        rw [hw.regs.rb_finset] at hb
        obtain ⟨h1, h2⟩ := hs.mass b hb
        simp only [Coord.sum, Body.mass]
        positivity
      have hle : ∑ c ∈ w.cs.toFinset, ∑ j ∈ range (w.cons c).rows,
          mult n c j * w.rowAt (w.rowsOf (X n) c) c j (X (n + 1)).vel ≤
          ∑ c ∈ regCons h, ∑ j ∈ range (w.cons c).rows,
            w.gsSlack d (dt / steps) (X n) (mult n) c j * |mult n c j| := by
        rw [hw.regs.cs_finset]
        refine sum_le_sum fun c hc => sum_le_sum fun j hj => ?_
        have hc' := (hw.regs.cons.mem c).mpr hc
        have hj' := mem_range.mp hj
        obtain ⟨z1, z2⟩ := hz (X n) c hc' j hj'
        refine row_power ((hp c hc).limits (hs.ordered c hc)) ((hgs n (by omega)).slack hd hd1 hc' hj'
          (hs.acts hst hw.regs _ c hc' j hj') (hs.ordered c hc).le ?_)
        rw [z1, z2, mul_zero, add_zero, add_zero]
      have := mul_le_mul_of_nonneg_left hle hpos.le
      rw [sum_range_succ]
      linarith [ih (by omega)]
  have hmv := ((optProcess_wp w env dt steps hw.regs.nsv).of_eq e).1.moves
  have fin := key _ (le_refl _)
  rw [h0] at fin
  rw [← energyOf_kinetic (w := w) (w' := w') _ hw.regs.rb_finset
      fun b => ⟨hmv.mass b, hmv.inertia b⟩,
    ← energyOf_kinetic (w := w) (w' := w) _ hw.regs.rb_finset fun b => ⟨rfl, rfl⟩]
  rw [World.energyOf_congr fun b hb q => (hm.last b hb q).2] at fin
  exact fin

/-- The hypotheses can be met: four sub-steps of two clutches between the same two bodies. -/
example (env : Env ℝ) : ∃ (h : List (Op ℝ)) (w w' : World ℝ) (m : Nat),
    World.Hist Gen.Shipped .opt h w ∧ w.Standard h ∧ w.Sensible h ∧ regCons h = {0, 1} ∧
      (∀ c ∈ regCons h, (w.cons c).kind.Coupling ∧ (w.cons c).kind.Passive) ∧ regGens h = ∅ ∧
      w.sle = some (.gs m (1 / 10)) ∧ w.process .opt env 2 4 = .ok w' := by
  obtain ⟨h, w, w', m, d, hst, hs, e⟩ := demo_gsOf (.clutch ⟨-1, 3, 0, 0⟩) nofun
    (g := .gravity 9) trivial (cs := [0, 1]) (fg := []) (by decide) (by decide) trivial
    (by show (-1 : ℝ) ≤ 3; norm_num) trivial (e := 1 / 10) (by norm_num) two_pos env 4
  refine ⟨h, w, w', m, d.hist, hst, hs, d.regC, fun c _ => ?_, d.regG, d.sle, e⟩
  rw [d.kind]
  exact ⟨trivial, by show (-1 : ℝ) ≤ 0 ∧ (0 : ℝ) ≤ 3; norm_num⟩

/-- **C88**: a clutch, gear or rotation friction which is the only constraint never increases the
kinetic energy, whatever the tolerance. -/
theorem C88_alone (hG : ∀ g, G g → g.OnlyForces) (hw : World.Hist G .opt h w)
    (hst : w.Standard h) (hs : w.Sensible h) {c : Nat} (hc : regCons h = {c})
    (hk : (w.cons c).kind.Coupling) (hp : (w.cons c).kind.Passive) (hg : regGens h = ∅) {m : Nat}
    {d : ℝ} (hsle : w.sle = some (.gs m d)) (hd : 0 < d) (hd1 : d < 1) (hdt : 0 < dt)
    (e : w.process .opt env dt steps = .ok w') :
    w'.kinetic (regBodies h) ≤ w.kinetic (regBodies h) := by
  obtain ⟨X, mult, -, -, -, key⟩ := C88_couplings hG hw hst hs (by simp [hc, hk]) (by simp [hc, hp]) hg
    hsle hd hd1 hdt e
  have hr : (w.cons c).rows ≤ 1 := by
    have := hst.proper hw.regs c ((hw.regs.cons.mem c).mpr (by rw [hc]; exact mem_singleton_self c))
    cases hkc : (w.cons c).kind <;> rw [hkc] at this hk <;> first | exact hk.elim | skip
    all_goals
      simp only [CKind.counts, Option.some.injEq, Prod.mk.injEq] at this
      omega
  refine key.trans (le_of_eq ?_)
  rw [add_eq_left]
  refine sum_eq_zero fun i _ => ?_
  rw [hc, sum_singleton]
  refine mul_eq_zero_of_right _ (sum_eq_zero fun j hj => ?_)
  have hj0 : j = 0 := by have := mem_range.mp hj; omega
  subst hj0
  rw [World.gsSlack, hw.regs.cs_finset, hc, sum_singleton,
    sum_eq_zero fun j' hj' => ?_, zero_mul]
  have : j' = 0 := by have := mem_range.mp hj'; omega
  rw [if_pos ⟨rfl, this⟩]

/-- The claim applied to three sub-steps of a clutch between a turning body and another one. -/
example (env : Env ℝ) : ∃ (h : List (Op ℝ)) (w w' : World ℝ), World.Hist Gen.Shipped .opt h w ∧
    (w.bodies 0).v_theta = 5 ∧ w.process .opt env 2 3 = .ok w' ∧
    w'.kinetic {0, 1} ≤ w.kinetic {0, 1} := by
  obtain ⟨h, w, w', m, d, hst, hs, e⟩ := demo_gsOf (.clutch ⟨-1, 3, 0, 0⟩) nofun
    (g := .gravity 9) trivial (cs := [0]) (fg := []) (by decide) (by decide) trivial
    (by show (-1 : ℝ) ≤ 3; norm_num) trivial (e := 1 / 10) (by norm_num) two_pos env 3
  have q := C88_alone (c := 0) (fun g => Gen.tame) d.hist hst hs d.regC (by rw [d.kind]; trivial)
    (by rw [d.kind]; show (-1 : ℝ) ≤ 0 ∧ (0 : ℝ) ≤ 3; norm_num) d.regG d.sle (by norm_num)
    (by norm_num) two_pos e
  rw [d.regB] at q
  exact ⟨h, w, w', d.hist, d.vel 0 .th, e, q⟩

end

end Scs
