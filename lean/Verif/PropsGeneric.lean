import Verif.WorldGenMove
import Verif.PropsMotion

/-!
# The generic system (C52, and C51 and C61 for it)
-/

namespace Scs

open Finset

/-! ### The demonstration system -/

namespace DemoG
variable {K : CKind ℝ} {g : Gen ℝ} {fg : List Nat} {sv : Solver ℝ} {o : Ode ℝ} {h : List (Op ℝ)}
  {w : World ℝ}

/-- The generic system with a constraint of one row is processed successfully. -/
theorem runs (d : DemoG K g [0] fg sv o h w) (hg : g.Within (· ∈ ({0, 1} : Finset Nat)))
    (hK : K.Turns ∨ K.Pins) (hsv : sv.Fine) (hl : ∀ m e, sv ≠ .gs m e) {sym : Bool}
    (ho : o.isSym sym) (dt : ℝ) (steps : Int) (env : Env ℝ) :
    w.Standard h ∧ ∃ w', w.process .gen env dt steps = .ok w' := by
  have hn : ∃ r n, K.counts = some (r, n) ∧ r ≤ 2 := by
    rcases hK with ⟨⟨n, hn⟩, _⟩ | ⟨⟨n, hn⟩, _⟩
    · exact ⟨1, n, hn, by omega⟩
    · exact ⟨2, n, hn, by omega⟩
  obtain ⟨r, n, hn, hr2⟩ := hn
  have hst := d.standard (Or.inl (by rw [hn]; simp)) hg
  have hr : w.fullCount = r := by rw [d.full, hn]; rfl
  refine ⟨hst, World.Hist.goesG (fun g => shipped_only) d.hist hst d.ode ho (fun b _ q => ?_)
    (by rw [d.sle]; simp) (fun m e he => ?_) (fun _ _ => True) (fun _ _ _ => trivial)
    (fun _ _ _ _ _ _ _ => trivial) (fun _ _ x _ _ => ?_) (fun h0 => ?_) env⟩
  · rw [d.mass b q]; exact one_ne_zero
  · rw [d.sle] at he
    exact hl m e (Option.some.inj he)
  · refine d.solvable ?_ hsv (by omega) (Or.inl hl)
    rcases hK with hK | hK
    · exact d.rank_turns hK x
    · exact d.rank_pins hK x
  · rw [d.cs_eq] at h0
    cases h0

end DemoG

/-- A generic system is reached and processed. -/
theorem demo_gen {K : CKind ℝ} (hK : K.Turns ∨ K.Pins) {g : Gen ℝ} (hg : g.Shipped)
    (hgw : g.Within (· ∈ ({0, 1} : Finset Nat))) {sv : Solver ℝ} (hsv : sv.Fine)
    (hl : ∀ m e, sv ≠ .gs m e) {o : Ode ℝ} {sym : Bool} (ho : o.isSym sym) (dt : ℝ) (steps : Int)
    (env : Env ℝ) : ∃ h w w', DemoG K g [0] [0] sv o h w ∧ w.Standard h ∧
      w.process .gen env dt steps = .ok w' := by
  have hi : o.Idle := by
    cases sym <;> cases o <;> first | trivial | (cases ho)
  obtain ⟨h, w, d, _⟩ := demoG K hg (cs := [0]) (fg := [0]) (by decide) (by decide) sv hi
  obtain ⟨hst, w', e⟩ := d.runs hgw hK hsv hl ho dt steps env
  exact ⟨h, w, w', d, hst, e⟩

section
variable {G : Gen ℝ → Prop} {h : List (Op ℝ)} {w w' : World ℝ} {env : Env ℝ} {dt : ℝ} {steps : Int}

/-! ## C52 -/

/-- **C52**: in every evaluation of a call of `process` of a generic system with Gaussian elimination
(`evaluations` runs the call and lists the states before and after each evaluation of forces and
constraints; there are as many as the ODE solver has stages, in each of the `steps` sub-steps) the
accelerations computed satisfy `J a = -J_dot q' - ks C - kd J q'` in every row of every registered
constraint, and `M a` is the force of the generators plus `Jᵀ λ`. `out c` are the results of
`calculate` of constraint `c`, which may be user-defined. -/
theorem C52_acceleration_conditions (hG : ∀ g, G g → g.OnlyForces) (hw : World.Hist G .gen h w)
    (hwd : w.Wired h) (hnr : w.Near h) (hid : ∀ c ∈ regCons h, 1 ≤ (w.cons c).bodyCount) (hsle : w.sle = some .ge)
    (e : w.process .gen env dt steps = .ok w') :
    ∃ L, w.evaluations env dt steps = .ok L ∧ L.length = evalCount steps w.ode ∧
      ∀ z ∈ L, ∃ (s1 : SysState ℝ) (out : Nat → Output ℝ) (lam : Nat → Nat → ℝ),
        w.processForces z.1 = .ok s1 ∧
        (∀ c ∈ regCons h, ∃ o,
          (w.cons c).kind.calculate ((w.cons c).idx w.bodies) o s1 = .ok (out c)) ∧
        (∀ b ∈ regBodies h, ∀ q : Coord, (w.bodies b).mass q * (w.seen z.2).acc b q =
          s1.val q.f (w.at b) +
            w.conForce (fun c q j k => lam c j * (out c).J j (k * 3 + q.d)) b q) ∧
        ∀ c ∈ regCons h, ∀ j, j < (w.cons c).rows →
          w.rowAt (out c) c j (w.seen z.2).acc = -w.rowDot (out c) c j (w.seen z.1).vel -
            (out c).ks j * (out c).C j -
            (out c).kd j * w.rowAt (out c) c j (w.seen z.1).vel := by
  obtain ⟨hm, L, l1, l2, l3⟩ := hw.evaluated hG hwd (hnr.slim (hw.regs.placed hwd) hw.regs) hid e
  refine ⟨L, l1, l2, fun z hz => ?_⟩
  obtain ⟨z1, z2, z3, ext, out, mult, st⟩ := l3 z hz
  obtain ⟨s1, e1, _, _, _, x1, c1⟩ := st.state
  refine ⟨s1, out, mult, e1, fun c hc => c1 c ((hw.regs.cons.mem c).mpr hc), fun b hb q => ?_,
    fun c hc => st.ge hsle c ((hw.regs.cons.mem c).mpr hc)⟩
  have hb := (hw.regs.bodies.mem b).mpr hb
  rw [st.acc b hb q, ← x1 b hb q, mul_div_cancel₀ _ (hm b hb q)]

/-- **C52** for shipped constraints and force generators: the results of the constraints and the
external forces are given by explicit formulas at the motion in which they are evaluated. -/
theorem C52_shipped (hG : ∀ g, G g → g.OnlyForces) (hw : World.Hist G .gen h w)
    (hst : w.Standard h) (hsle : w.sle = some .ge) (e : w.process .gen env dt steps = .ok w') :
    ∃ L, w.evaluations env dt steps = .ok L ∧ L.length = evalCount steps w.ode ∧
      ∀ z ∈ L, ∃ (x : Motion) (lam : Nat → Nat → ℝ), x = w.seen z.1 ∧
        (∀ b ∈ regBodies h, ∀ q : Coord, (w.bodies b).mass q * (w.seen z.2).acc b q =
          w.load x b q +
            w.conForce (fun c q j k => lam c j * (w.rowsOf x c).J j (k * 3 + q.d)) b q) ∧
        ∀ c ∈ regCons h, ∀ j, j < (w.cons c).rows →
          w.rowAt (w.rowsOf x c) c j (w.seen z.2).acc = -w.rowDot (w.rowsOf x c) c j x.vel -
            (w.rowsOf x c).ks j * (w.rowsOf x c).C j -
            (w.rowsOf x c).kd j * w.rowAt (w.rowsOf x c) c j x.vel := by
  obtain ⟨hm, L, l1, l2, l3⟩ := hw.accel hG hst e
  refine ⟨L, l1, l2, fun z hz => ?_⟩
  obtain ⟨_, mult, st⟩ := l3 z hz
  refine ⟨_, mult, rfl, fun b hb q => ?_, fun c hc => st.ge hsle c ((hw.regs.cons.mem c).mpr hc)⟩
  have hb := (hw.regs.bodies.mem b).mpr hb
  rw [st.newton b hb q, mul_div_cancel₀ _ (hm b hb q)]
  rfl

/-- **C52** as seen by the user: one step with the Euler or the semi-implicit solver changes the
velocities by `dt` times accelerations that satisfy the conditions in the motion the bodies have
before the call. -/
theorem C52_one_step (hG : ∀ g, G g → g.OnlyForces) (hw : World.Hist G .gen h w)
    (hst : w.Standard h) (hsle : w.sle = some .ge) {sym : Bool} {o : Ode ℝ} (hode : w.ode = some o)
    (ho : o.isSym sym) (e : w.process .gen env dt 1 = .ok w') :
    ∃ (a : Nat → Coord → ℝ) (lam : Nat → Nat → ℝ),
      (∀ b ∈ regBodies h, ∀ q : Coord,
        (w'.bodies b).vel q = (w.bodies b).vel q + dt * a b q ∧
        (w'.bodies b).pos q = (w.bodies b).pos q +
          dt * (if sym then (w'.bodies b).vel q else (w.bodies b).vel q) ∧
        (w.bodies b).mass q * a b q = w.load w.now b q +
          w.conForce (fun c q j k => lam c j * (w.rowsOf w.now c).J j (k * 3 + q.d)) b q) ∧
      ∀ c ∈ regCons h, ∀ j, j < (w.cons c).rows →
        w.rowAt (w.rowsOf w.now c) c j a =
          -w.rowDot (w.rowsOf w.now c) c j (fun b => (w.bodies b).vel) -
          (w.rowsOf w.now c).ks j * (w.rowsOf w.now c).C j -
          (w.rowsOf w.now c).kd j * w.rowAt (w.rowsOf w.now c) c j (fun b => (w.bodies b).vel) := by
  obtain ⟨X, mult, r, h0, hm⟩ := hw.gmoved hG hst hode ho e
  have st := hm.step 0 (by decide)
  rw [h0] at st
  simp only [Int.cast_one, div_one] at st
  have hl : w.Shows (X (0 + 1)) w'.bodies := hm.last
  refine ⟨(X (0 + 1)).acc, mult 0, fun b hb q => ?_,
    fun c hc j hj => st.acc.ge hsle c ((hw.regs.cons.mem c).mpr hc) j hj⟩
  have hb := (hw.regs.bodies.mem b).mpr hb
  obtain ⟨l1, l2⟩ := hl b hb q
  rw [← l1, ← l2]
  refine ⟨st.vel b hb q, st.pos b hb q, ?_⟩
  rw [st.acc.newton b hb q, mul_div_cancel₀ _ (hm.mass b hb q)]
  rfl

/-- With Gaussian elimination and the Euler or the semi-implicit solver a call of `process` succeeds
if no mass is zero and the constraint matrix is not singular in the motions that occur: in every
motion that satisfies `R`, where `R 0` holds at the start and the sub-steps lead from `R j` to
`R (j + 1)`. -/
theorem C52_succeeds (hG : ∀ g, G g → g.OnlyForces) (hw : World.Hist G .gen h w)
    (hst : w.Standard h) (hsle : w.sle = some .ge) {sym : Bool} {o : Ode ℝ} (hode : w.ode = some o)
    (ho : o.isSym sym) (hne : regCons h ≠ ∅)
    (hm : ∀ b ∈ regBodies h, (w.bodies b).m ≠ 0 ∧ (w.bodies b).I ≠ 0)
    (R : Nat → Motion → Prop) (h0 : ∀ x, w.SameAs w.now x → R 0 x)
    (hR : ∀ j, j < steps.toNat → ∀ x x' mult, R j x → w.GMove sym (dt / steps) x x' mult →
      R (j + 1) x')
    (hS : ∀ j, j < steps.toNat → ∀ x, R j x → w.Indep (w.rowsOf x)) :
    ∃ w', w.process .gen env dt steps = .ok w' := by
  refine hw.goesG hG hst hode ho (fun b hb q => ?_) (by rw [hsle]; simp)
    (fun m e he => by rw [hsle] at he; cases he) R (fun x h1 h2 => h0 x ?_) hR
    (fun j hj x hx _ => ?_) (fun h0 => ?_) env
  · obtain ⟨m1, m2⟩ := hm b ((hw.regs.bodies.mem b).mp hb)
    cases q
    · exact m1
    · exact m1
    · exact m2
  · exact ⟨fun b hb q => (h1 b hb q).1.symm, fun b hb q => (h1 b hb q).2.symm,
      fun b hb q => (h2 b hb q).symm⟩
  · rw [World.Solvable, hsle]
    exact hS j hj x hx
  · refine absurd ?_ hne
    rw [Finset.eq_empty_iff_forall_notMem]
    intro c hc
    have := (hw.regs.cons.mem c).mpr hc
    rw [h0] at this
    cases this

/-- The claims applied to a rotating body pinned by its centre, under gravity, with the
semi-implicit solver. -/
example (env : Env ℝ) : ∃ (h : List (Op ℝ)) (w w' : World ℝ), World.Hist Gen.Shipped .gen h w ∧
    w.Standard h ∧ w.sle = some .ge ∧ w.process .gen env 2 3 = .ok w' ∧
    (∃ L, w.evaluations env 2 3 = .ok L ∧ L.length = 3) ∧ 0 ∈ regCons h ∧ (w.cons 0).rows = 2 := by
  obtain ⟨h, w, w', d, hst, e⟩ := demo_gen (.inr (pins_fixed ⟨1, 2, 3, 4, 5, 6⟩)) (g := .gravity 9)
    trivial trivial (sv := .ge) trivial (by intro m e h; cases h) (o := .newNsv) (sym := true) rfl 2 3
    env
  obtain ⟨L, l1, l2, _⟩ := C52_shipped (fun g => Gen.tame) d.hist hst d.sle e
  refine ⟨h, w, w', d.hist, hst, d.sle, e, ⟨L, l1, ?_⟩, d.mem0 rfl, d.rows 0⟩
  rw [l2, d.ode]
  rfl

/-- One Euler step of a body turning with speed 5 against an angular spring and damper. -/
example (env : Env ℝ) : ∃ (h : List (Op ℝ)) (w w' : World ℝ), World.Hist Gen.Shipped .gen h w ∧
    (w.cons 0).kind = .fixedRotation ⟨1, 2, 3⟩ ∧ (w.bodies 0).v_theta = 5 ∧
    w.process .gen env 2 1 = .ok w' ∧ (w'.bodies 0).v_theta = 5 + 2 * (-(2 * (0 - 1)) - 3 * 5) := by
  obtain ⟨h, w, w', d, hst, e⟩ := demo_gen (.inl (turns_fixed ⟨1, 2, 3⟩)) (g := .gravity 9)
    trivial trivial (sv := .ge) trivial (by intro m e h; cases h) (o := .newEuler) (sym := false) rfl
    2 1 env
  obtain ⟨a, lam, q1, q2⟩ := C52_one_step (fun g => Gen.tame) d.hist hst d.sle d.ode (sym := false) rfl e
  refine ⟨h, w, w', d.hist, d.kind 0, d.vel 0 .th, e, ?_⟩
  have hv := (q1 0 (d.bodies_mem).1 .th).1
  have hr := q2 0 (d.mem0 rfl) 0 (by rw [d.rows]; decide)
  rw [rowAt_one _ _ _ (d.count 0) (d.bodies 0 0), rowAt_one _ _ _ (d.count 0) (d.bodies 0 0)] at hr
  have hd : w.rowDot (w.rowsOf w.now 0) 0 0 (fun b => (w.bodies b).vel) = 0 := by
    refine sum_eq_zero fun k _ => ?_
    simp [World.rowsOf, d.kind 0, CKind.jdT, Coord.sum]
  have hq : w.now.q w 0 2 = 0 := by
    have : w.now.q w 0 2 = (w.bodies 0).pos .th := by
      simp [Motion.q, d.count 0, CKind.counts, coordOf, d.bodyOf, World.now]
    rw [this, d.pos 0 .th]
    rfl
  have h5 : (w.bodies 0).vel .th = 5 := d.vel 0 .th
  rw [hd] at hr
  simp only [World.rowsOf, d.kind 0, CKind.jT, CKind.ksT, CKind.kdT, CKind.cT, hq, h5] at hr
  have hv : (w'.bodies 0).v_theta = 5 + 2 * a 0 .th := by rw [← h5]; exact hv
  rw [hv]
  linear_combination 2 * hr

/-! ## C51 for the generic system -/

/-- What the generic system reports for row 0 of its first constraint (the one of index 0): on every
body of the constraint the force that was applied to its **first** body. -/
theorem C51_generic_first_row (hG : ∀ g, G g → g.OnlyForces) (hw : World.Hist G .gen h w)
    (hst : w.Standard h) {sym : Bool} {o : Ode ℝ} (hode : w.ode = some o)
    (ho : o.isSym sym) (hs : 0 < steps) (e : w.process .gen env dt steps = .ok w') :
    ∃ (x : Motion) (μ : Nat → Nat → ℝ), (steps = 1 → x = w.now) ∧
      (∀ b ∈ regBodies h, ∀ q : Coord,
        (w.bodies b).mass q * ((w'.bodies b).vel q - x.vel b q) = dt / steps * (w.load x b q +
          w.conForce (fun c q j k => μ c j * (w.rowsOf x c).J j (k * 3 + q.d)) b q)) ∧
      ∀ c ∈ regCons h, (w.cons c).index = 0 → ∀ (q : Coord) k, k < (w.cons c).bodyCount →
        (w'.cons c).F q 0 k = μ c 0 * (w.rowsOf x c).J 0 q.d := by
  obtain ⟨X, mult, r, h0, hm⟩ := hw.gmoved hG hst hode ho e
  obtain ⟨n, hn⟩ : ∃ n, steps.toNat = n + 1 := ⟨steps.toNat - 1, by omega⟩
  refine ⟨X n, mult n, fun h1 => ?_, fun b hb q => ?_, fun c hc hi q k hk => ?_⟩
  · have : n = 0 := by omega
    rw [this, h0]
  · have hb := (hw.regs.bodies.mem b).mpr hb
    have st := hm.step n (by omega)
    obtain ⟨_, l2⟩ := hm.last b hb q
    rw [hn] at l2
    rw [← l2, st.vel b hb q, st.acc.newton b hb q]
    have := hm.mass b hb q
    change _ = dt / steps * (w.load (X n) b q + w.conForce (w.reaction (X n) (mult n)) b q)
    field_simp
    ring
  · have hc' := (hw.regs.cons.mem c).mpr hc
    have hcount := counts_le (hst.kind c hc)
    obtain ⟨hl, hci⟩ := conAt_spec hc'
    have hpos := hw.regs.cons.pos _ hl
    rw [hci] at hpos
    have h00 : w.conAt c = 0 := by
      have hpos : some (w.cons c).index = some ((w.conAt c : Nat) : Int) := hpos
      rw [hi] at hpos
      have := Option.some.inj hpos
      omega
    have f1 := hm.forces n hn c hc' q 0 0 (by omega) (by omega)
    have f2 := hm.shown c hc' q 0 k (by omega) hk
    rw [h00] at f1 f2
    have o0 : w.off 0 = 0 := rfl
    rw [o0] at f1 f2
    rw [f2]
    refine Eq.trans f1 ?_
    rw [World.reaction]
    simp

/-- **C51 is violated** by the generic system: a gear of ratio 3 between two bodies reports the torque
on its first body also as the torque on its second, but the torque that turned the second body in the
step was another one. -/
theorem C51_generic_misreports (env : Env ℝ) : ∃ (h : List (Op ℝ)) (w w' : World ℝ),
    World.Hist Gen.Shipped .gen h w ∧ w.Standard h ∧ w.process .gen env 2 1 = .ok w' ∧
    regBodies h = {0, 1} ∧ regCons h = {0} ∧ (w.cons 0).bodies 1 = .obj 1 ∧
    w.load w.now 1 .th = 0 ∧
    (w.bodies 1).I * ((w'.bodies 1).v_theta - (w.bodies 1).v_theta) ≠ 2 * (w'.cons 0).F_t 0 1 := by
  obtain ⟨h, w, w', d, hst, e⟩ := demo_gen (.inl (turns_gear ⟨3, false, 0, 1⟩)) (g := .gravity 9)
    trivial trivial (sv := .ge) trivial (by intro m e h; cases h) (o := .newEuler) (sym := false) rfl
    2 1 env
  have hload : ∀ b, w.load w.now b .th = 0 := fun b => by
    rw [World.load, d.fg_eq]
    simp [d.gens, Gen.load]
  refine ⟨h, w, w', d.hist, hst, e, d.regB, by rw [d.regC]; rfl, d.bodies 0 1, hload 1, ?_⟩
  have hi : (w.cons 0).index = 0 := by
    have := d.hist.regs.cons.pos 0 (by rw [d.cs_eq]; decide)
    simp only [d.cs_eq] at this
    exact Option.some.inj this
  obtain ⟨X, mult, r, h0, hm⟩ := d.hist.gmoved (fun g => Gen.tame) hst d.ode
    (sym := false) rfl e
  have st := hm.step 0 (by decide)
  rw [h0] at st
  simp only [Int.cast_one, div_one] at st
  have hc0 : 0 ∈ w.cs := by rw [d.cs_eq]; simp
  have hrow : (w.cons 0).rows = 1 := d.rows 0
  have hbc : (w.cons 0).bodyCount = 2 := d.count 0
  have hF : (w'.cons 0).F .th 0 1 = mult 0 0 0 := by
    have f1 := hm.forces 0 rfl 0 hc0 .th 0 0 (by omega) (by omega)
    have f2 := hm.shown 0 hc0 .th 0 1 (by omega) (by omega)
    have h00 : w.conAt 0 = 0 := by rw [World.conAt, d.cs_eq]; rfl
    rw [h00] at f1 f2
    rw [f2]
    refine Eq.trans f1 ?_
    simp [World.reaction, World.rowsOf, d.kind 0, CKind.jT, Coord.d]
  have hcf : ∀ b, w.conForce (w.reaction w.now (mult 0)) b .th =
      (if 0 = b then mult 0 0 0 else 0) + if 1 = b then mult 0 0 0 * -3 else 0 := by
    intro b
    simp only [World.conForce, d.cs_eq, List.toFinset_cons, List.toFinset_nil, insert_empty_eq,
      sum_singleton, hrow, hbc, sum_range_succ, range_zero, sum_empty, zero_add, d.bodyOf,
      World.reaction, World.rowsOf, d.kind 0, CKind.jT, Coord.d, mul_one]
  have hb0 : 0 ∈ w.rb := (d.rb 0).mpr (.inl rfl)
  have hb1 : 1 ∈ w.rb := (d.rb 1).mpr (.inr rfl)
  have n0 := st.acc.newton 0 hb0 .th
  have n1 := st.acc.newton 1 hb1 .th
  rw [hload, hcf, d.mass] at n0 n1
  simp only [if_true, one_ne_zero, zero_ne_one, if_false, zero_add, add_zero, div_one] at n0 n1
  have hr := st.acc.ge d.sle 0 hc0 0 (by omega)
  rw [rowAt_two _ _ _ hbc (d.bodies 0 0) (d.bodies 0 1),
    rowAt_two _ _ _ hbc (d.bodies 0 0) (d.bodies 0 1)] at hr
  have hd : w.rowDot (w.rowsOf w.now 0) 0 0 w.now.vel = 0 := by
    refine sum_eq_zero fun k _ => ?_
    simp [World.rowsOf, d.kind 0, CKind.jdT, Coord.sum]
  have v0 : w.now.vel 0 .th = 5 := d.vel 0 .th
  have v1 : w.now.vel 1 .th = 0 := d.vel 1 .th
  rw [hd] at hr
  simp only [World.rowsOf, d.kind 0, CKind.jT, CKind.ksT, CKind.kdT, CKind.cT, n0, n1, v0, v1] at hr
  have hl : w.Shows (X (0 + 1)) w'.bodies := hm.last
  have e1 := st.vel 1 hb1 .th
  rw [(hl 1 hb1 .th).2, n1, v1] at e1
  have e1 : (w'.bodies 1).v_theta = _ := e1
  rw [d.I, e1, show (w.bodies 1).v_theta = 0 from d.vel 1 .th,
    show (w'.cons 0).F_t 0 1 = mult 0 0 0 from hF]
  intro h
  linarith

/-! ## C61 for the generic system -/

/-- **C61 is violated** by the generic system with Gaussian elimination: a gear in neutral with a
damping constant changes the speed of its bodies in one step whenever `ω₁ ≠ ratio * ω₂`, although
they are in no other constraint and feel no external torque. -/
theorem C61_generic_transmits (hG : ∀ g, G g → g.OnlyForces) (hw : World.Hist G .gen h w)
    (hst : w.Standard h) (hsle : w.sle = some .ge) {sym : Bool} {o : Ode ℝ} (hode : w.ode = some o)
    (ho : o.isSym sym) (e : w.process .gen env dt 1 = .ok w') (hdt : dt ≠ 0)
    {c b1 b2 : Nat} (hc : c ∈ regCons h) {l : SimpleGear ℝ} (hk : (w.cons c).kind = .simpleGear l)
    (h1 : (w.cons c).bodies 0 = .obj b1) (h2 : (w.cons c).bodies 1 = .obj b2)
    (hkd : l.kd ≠ 0) (hω : (w.bodies b1).v_theta ≠ l.ratio * (w.bodies b2).v_theta) :
    (w'.bodies b1).v_theta ≠ (w.bodies b1).v_theta ∨
      (w'.bodies b2).v_theta ≠ (w.bodies b2).v_theta := by
  have hcount := hst.kind c hc
  simp only [hk, CKind.counts, Option.some.injEq, Prod.mk.injEq] at hcount
  have mem : ∀ k b, k < 2 → (w.cons c).bodies k = .obj b → b ∈ regBodies h := by
    intro k b hk2 hb
    obtain ⟨b', hb', e'⟩ := hst.bodies c hc k (by omega)
    rw [hb] at e'
    cases e'
    exact hb'
  by_contra hn
  push Not at hn
  obtain ⟨a, lam, q1, q2⟩ := C52_one_step hG hw hst hsle hode ho e
  have v1 : (w'.bodies b1).v_theta = (w.bodies b1).v_theta + dt * a b1 .th :=
    (q1 b1 (mem 0 b1 (by decide) h1) .th).1
  have v2 : (w'.bodies b2).v_theta = (w.bodies b2).v_theta + dt * a b2 .th :=
    (q1 b2 (mem 1 b2 (by decide) h2) .th).1
  have a1 : a b1 .th = 0 := by
    have : dt * a b1 .th = 0 := by linarith [hn.1]
    exact (mul_eq_zero.mp this).resolve_left hdt
  have a2 : a b2 .th = 0 := by
    have : dt * a b2 .th = 0 := by linarith [hn.2]
    exact (mul_eq_zero.mp this).resolve_left hdt
  have hr := q2 c hc 0 (by omega)
  rw [rowAt_two _ _ _ hcount.2.symm h1 h2, rowAt_two _ _ _ hcount.2.symm h1 h2] at hr
  have hd : w.rowDot (w.rowsOf w.now c) c 0 (fun b => (w.bodies b).vel) = 0 := by
    refine sum_eq_zero fun k _ => ?_
    simp [World.rowsOf, hk, CKind.jdT, Coord.sum]
  rw [hd] at hr
  simp only [World.rowsOf, hk, CKind.jT, CKind.ksT, CKind.kdT, CKind.cT, a1, a2, Body.vel] at hr
  have : l.kd * ((w.bodies b1).v_theta - l.ratio * (w.bodies b2).v_theta) = 0 := by
    linear_combination hr
  rcases mul_eq_zero.mp this with h | h
  · exact hkd h
  · exact hω (by linarith)

/-- A gear in neutral that changes the speed of its bodies. -/
example (env : Env ℝ) : ∃ (h : List (Op ℝ)) (w w' : World ℝ), World.Hist Gen.Shipped .gen h w ∧
    (w.cons 0).kind = .simpleGear ⟨3, true, 0, 1⟩ ∧ regCons h = {0} ∧ w.load w.now 0 .th = 0 ∧
    w.load w.now 1 .th = 0 ∧ w.process .gen env 2 1 = .ok w' ∧
    ((w'.bodies 0).v_theta ≠ (w.bodies 0).v_theta ∨ (w'.bodies 1).v_theta ≠ (w.bodies 1).v_theta) := by
  obtain ⟨h, w, w', d, hst, e⟩ := demo_gen (.inl (turns_gear ⟨3, true, 0, 1⟩)) (g := .gravity 9)
    trivial trivial (sv := .ge) trivial (by intro m e h; cases h) (o := .newEuler) (sym := false) rfl
    2 1 env
  have hload : ∀ b, w.load w.now b .th = 0 := fun b => by
    rw [World.load, d.fg_eq]
    simp [d.gens, Gen.load]
  refine ⟨h, w, w', d.hist, d.kind 0, by rw [d.regC]; rfl, hload 0, hload 1, e,
    C61_generic_transmits (fun g => Gen.tame) d.hist hst d.sle d.ode (sym := false) rfl e two_ne_zero
      (d.mem0 rfl) (d.kind 0) (d.bodies 0 0) (d.bodies 0 1) one_ne_zero ?_⟩
  rw [show (w.bodies 0).v_theta = 5 from d.vel 0 .th, show (w.bodies 1).v_theta = 0 from d.vel 1 .th]
  norm_num

end

end Scs
