import Verif.WorldSettle

/-!
# Which constraint errors die out in the generic system

C120: in the generic system the error of a constraint follows a sampled damped oscillation; whether it dies
out or grows without bound is decided by the length of the sub-steps.
-/

open Filter Topology

namespace Scs

/-- `ErrorOf w c E ks kd`: `E` gives, for the bodies of a system, one of the errors of constraint `c` and its
rate of change, and `ks` and `kd` are the stiffness and damping configured for it. A pin and a line hold the
centre of the body, a link joins the centres of two bodies. -/
inductive ErrorOf (w : World ℝ) (c : Nat) : ((Nat → Body ℝ) → ℝ × ℝ) → ℝ → ℝ → Prop
  | rotation {l : FixedRotation ℝ} {b : Nat} (hk : (w.cons c).kind = .fixedRotation l)
      (hb : (w.cons c).bodies 0 = .obj b) :
      ErrorOf w c (fun B => ((B b).theta - l.rotation, (B b).v_theta)) l.ks l.kd
  | pin_x {l : FixedPosition ℝ} {b : Nat} (hk : (w.cons c).kind = .fixedPosition l)
      (hl : l.local_x = 0 ∧ l.local_y = 0) (hb : (w.cons c).bodies 0 = .obj b) :
      ErrorOf w c (fun B => ((B b).p_x - l.world_x, (B b).v_x)) l.ks l.kd
  | pin_y {l : FixedPosition ℝ} {b : Nat} (hk : (w.cons c).kind = .fixedPosition l)
      (hl : l.local_x = 0 ∧ l.local_y = 0) (hb : (w.cons c).bodies 0 = .obj b) :
      ErrorOf w c (fun B => ((B b).p_y - l.world_y, (B b).v_y)) l.ks l.kd
  | link_x {l : Link ℝ} {b1 b2 : Nat} (hk : (w.cons c).kind = .link l)
      (hl : l.local_x_1 = 0 ∧ l.local_y_1 = 0 ∧ l.local_x_2 = 0 ∧ l.local_y_2 = 0)
      (h1 : (w.cons c).bodies 0 = .obj b1) (h2 : (w.cons c).bodies 1 = .obj b2) :
      ErrorOf w c (fun B => ((B b1).p_x - (B b2).p_x, (B b1).v_x - (B b2).v_x)) l.ks l.kd
  | link_y {l : Link ℝ} {b1 b2 : Nat} (hk : (w.cons c).kind = .link l)
      (hl : l.local_x_1 = 0 ∧ l.local_y_1 = 0 ∧ l.local_x_2 = 0 ∧ l.local_y_2 = 0)
      (h1 : (w.cons c).bodies 0 = .obj b1) (h2 : (w.cons c).bodies 1 = .obj b2) :
      ErrorOf w c (fun B => ((B b1).p_y - (B b2).p_y, (B b1).v_y - (B b2).v_y)) l.ks l.kd
  | line {l : Line ℝ} {b : Nat} (hk : (w.cons c).kind = .line l) (hl : l.local_x = 0 ∧ l.local_y = 0)
      (hb : (w.cons c).bodies 0 = .obj b) :
      ErrorOf w c (fun B => (l.dx * ((B b).p_y - l.p0_y) - l.dy * ((B b).p_x - l.p0_x),
        l.dx * (B b).v_y - l.dy * (B b).v_x)) l.ks l.kd

section
variable {G : Gen ℝ → Prop} {h : List (Op ℝ)} {w w' : World ℝ} {env : Env ℝ} {dt : ℝ} {steps : Int}

set_option maxHeartbeats 1000000 in
/-- These errors are those of rows with fixed Jacobians. -/
theorem ErrorOf.straight (hst : w.Standard h) {c : Nat} (hc : c ∈ regCons h)
    {E : (Nat → Body ℝ) → ℝ × ℝ} {ks kd : ℝ} (hE : ErrorOf w c E ks kd) :
    ∃ i a, i < (w.cons c).rows ∧ w.Straight c i a ks kd ∧
      ∀ B, E B = (w.rowAt (w.rowsOf w.now c) c i (fun b => (B b).pos) - a,
        w.rowAt (w.rowsOf w.now c) c i (fun b => (B b).vel)) := by
  have cn := hst.kind c hc
  cases hE with
  | rotation hk hb =>
    rename_i l b
    simp only [hk, CKind.counts, Option.some.injEq, Prod.mk.injEq] at cn
    have hn := cn.2.symm
    have r := World.Straight.mk (w := w) (c := c) (i := 0) (ks := l.ks) (kd := l.kd)
      (a := l.rotation)
      (fun x k => by simp only [World.rowsOf, hk]; rcases k with _ | _ | _ | _ | _ | _ | k <;> rfl)
      (fun x k => by simp only [World.rowsOf, hk]; rcases k with _ | _ | _ | _ | _ | _ | k <;> rfl)
      (fun x => by
        rw [rowAt_one _ _ _ hn hb]
        simp only [World.rowsOf, hk, CKind.jT, CKind.cT, (q_one (x := x) hn hb).2.2]
        ring)
      (fun x => by simp only [World.rowsOf, hk]; rfl) (fun x => by simp only [World.rowsOf, hk]; rfl)
    exact ⟨0, l.rotation, by omega, r, fun B => by
      simp [rowAt_one _ _ _ hn hb, World.rowsOf, hk, CKind.jT, Body.vel, Body.pos]⟩
  | pin_x hk hl hb =>
    rename_i l b
    simp only [hk, CKind.counts, Option.some.injEq, Prod.mk.injEq] at cn
    have hn := cn.2.symm
    have r := World.Straight.mk (w := w) (c := c) (i := 0) (ks := l.ks) (kd := l.kd)
      (a := l.world_x)
      (fun x k => by
        simp only [World.rowsOf, hk]
        rcases k with _ | _ | _ | _ | _ | _ | k <;> simp [CKind.jT, rx, ry, hl.1, hl.2])
      (fun x k => by
        simp only [World.rowsOf, hk]
        rcases k with _ | _ | _ | _ | _ | _ | k <;> simp [CKind.jdT, rx, ry, hl.1, hl.2])
      (fun x => by
        rw [rowAt_one _ _ _ hn hb]
        simp [World.rowsOf, hk, CKind.jT, CKind.cT, (q_one (x := x) hn hb).1, rx, ry, hl.1, hl.2])
      (fun x => by simp only [World.rowsOf, hk]; rfl) (fun x => by simp only [World.rowsOf, hk]; rfl)
    exact ⟨0, l.world_x, by omega, r, fun B => by
      simp [rowAt_one _ _ _ hn hb, World.rowsOf, hk, CKind.jT, Body.vel, Body.pos, rx, ry, hl.1,
      hl.2]⟩
  | pin_y hk hl hb =>
    rename_i l b
    simp only [hk, CKind.counts, Option.some.injEq, Prod.mk.injEq] at cn
    have hn := cn.2.symm
    have r := World.Straight.mk (w := w) (c := c) (i := 1) (ks := l.ks) (kd := l.kd)
      (a := l.world_y)
      (fun x k => by
        simp only [World.rowsOf, hk]
        rcases k with _ | _ | _ | _ | _ | _ | k <;> simp [CKind.jT, rx, ry, hl.1, hl.2])
      (fun x k => by
        simp only [World.rowsOf, hk]
        rcases k with _ | _ | _ | _ | _ | _ | k <;> simp [CKind.jdT, rx, ry, hl.1, hl.2])
      (fun x => by
        rw [rowAt_one _ _ _ hn hb]
        simp [World.rowsOf, hk, CKind.jT, CKind.cT, (q_one (x := x) hn hb).2.1, rx, ry, hl.1, hl.2])
      (fun x => by simp only [World.rowsOf, hk]; rfl) (fun x => by simp only [World.rowsOf, hk]; rfl)
    exact ⟨1, l.world_y, by omega, r, fun B => by
      simp [rowAt_one _ _ _ hn hb, World.rowsOf, hk, CKind.jT, Body.vel, Body.pos, rx, ry, hl.1,
      hl.2]⟩
  | link_x hk hl h1 h2 =>
    rename_i l b1 b2
    simp only [hk, CKind.counts, Option.some.injEq, Prod.mk.injEq] at cn
    have hn := cn.2.symm
    obtain ⟨l1, l2, l3, l4⟩ := hl
    have r := World.Straight.mk (w := w) (c := c) (i := 0) (ks := l.ks) (kd := l.kd)
      (a := 0)
      (fun x k => by
        simp only [World.rowsOf, hk]
        rcases k with _ | _ | _ | _ | _ | _ | k <;> simp [CKind.jT, rx, ry, l1, l2, l3, l4])
      (fun x k => by
        simp only [World.rowsOf, hk]
        rcases k with _ | _ | _ | _ | _ | _ | k <;> simp [CKind.jdT, rx, ry, l1, l2, l3, l4])
      (fun x => by
        obtain ⟨q0, q1, q2, q3, q4, q5⟩ := q_two (x := x) hn h1 h2
        rw [rowAt_two _ _ _ hn h1 h2]
        simp [World.rowsOf, hk, CKind.jT, CKind.cT, q0, q3, rx, ry, l1, l2, l3, l4]
        ring)
      (fun x => by simp only [World.rowsOf, hk]; rfl) (fun x => by simp only [World.rowsOf, hk]; rfl)
    exact ⟨0, 0, by omega, r, fun B => by
      simp [rowAt_two _ _ _ hn h1 h2, World.rowsOf, hk, CKind.jT, Body.vel, Body.pos, rx, ry, l1, l2, l3, l4,
      ← sub_eq_add_neg]⟩
  | link_y hk hl h1 h2 =>
    rename_i l b1 b2
    simp only [hk, CKind.counts, Option.some.injEq, Prod.mk.injEq] at cn
    have hn := cn.2.symm
    obtain ⟨l1, l2, l3, l4⟩ := hl
    have r := World.Straight.mk (w := w) (c := c) (i := 1) (ks := l.ks) (kd := l.kd)
      (a := 0)
      (fun x k => by
        simp only [World.rowsOf, hk]
        rcases k with _ | _ | _ | _ | _ | _ | k <;> simp [CKind.jT, rx, ry, l1, l2, l3, l4])
      (fun x k => by
        simp only [World.rowsOf, hk]
        rcases k with _ | _ | _ | _ | _ | _ | k <;> simp [CKind.jdT, rx, ry, l1, l2, l3, l4])
      (fun x => by
        obtain ⟨q0, q1, q2, q3, q4, q5⟩ := q_two (x := x) hn h1 h2
        rw [rowAt_two _ _ _ hn h1 h2]
        simp [World.rowsOf, hk, CKind.jT, CKind.cT, q1, q4, rx, ry, l1, l2, l3, l4]
        ring)
      (fun x => by simp only [World.rowsOf, hk]; rfl) (fun x => by simp only [World.rowsOf, hk]; rfl)
    exact ⟨1, 0, by omega, r, fun B => by
      simp [rowAt_two _ _ _ hn h1 h2, World.rowsOf, hk, CKind.jT, Body.vel, Body.pos, rx, ry, l1, l2, l3, l4,
      ← sub_eq_add_neg]⟩
  | line hk hl hb =>
    rename_i l b
    simp only [hk, CKind.counts, Option.some.injEq, Prod.mk.injEq] at cn
    have hn := cn.2.symm
    have r := World.Straight.mk (w := w) (c := c) (i := 0) (ks := l.ks) (kd := l.kd)
      (a := l.dx * l.p0_y - l.dy * l.p0_x)
      (fun x k => by
        simp only [World.rowsOf, hk]
        rcases k with _ | _ | _ | _ | _ | _ | k <;> simp [CKind.jT, rx, ry, hl.1, hl.2])
      (fun x k => by
        simp only [World.rowsOf, hk]
        rcases k with _ | _ | _ | _ | _ | _ | k <;> simp [CKind.jdT, rx, ry, hl.1, hl.2])
      (fun x => by
        rw [rowAt_one _ _ _ hn hb]
        simp [World.rowsOf, hk, CKind.jT, CKind.cT, (q_one (x := x) hn hb).1, (q_one (x := x) hn hb).2.1,
          rx, ry, hl.1, hl.2]
        ring)
      (fun x => by simp only [World.rowsOf, hk]; rfl) (fun x => by simp only [World.rowsOf, hk]; rfl)
    exact ⟨0, l.dx * l.p0_y - l.dy * l.p0_x, by omega, r, fun B => by
      rw [rowAt_one _ _ _ hn hb, rowAt_one _ _ _ hn hb]
      simp only [World.rowsOf, hk, CKind.jT, Body.vel, Body.pos, rx, ry, hl.1, hl.2]
      ext <;> simp <;> ring⟩

/-- **C120**: with Gaussian elimination and the Euler or the semi-implicit solver each sub-step of the
generic system takes the error of a fixed rotation, of a pinned centre, of a centre on a line and of two
linked centres, together with its rate, through one step of the sampled oscillator `oscStep` with the
configured stiffness and damping, whatever other constraints and forces there are. -/
theorem C120_oscillates (hG : ∀ g, G g → g.OnlyForces) (hw : World.Hist G .gen h w)
    (hst : w.Standard h) (hsle : w.sle = some .ge) {sym : Bool} {o : Ode ℝ} (hode : w.ode = some o)
    (ho : o.isSym sym) (e : w.process .gen env dt steps = .ok w') {c : Nat} (hc : c ∈ regCons h)
    {E : (Nat → Body ℝ) → ℝ × ℝ} {ks kd : ℝ} (hE : ErrorOf w c E ks kd) :
    E w'.bodies = (oscStep sym ks kd (dt / steps))^[steps.toNat] (E w.bodies) := by
  obtain ⟨i, a, hr, s, hs⟩ := hE.straight hst hc
  rw [hs, hs]
  exact oscillates hG hw hst hsle hode ho e hc hr s

/-- The claim applied to two bodies with linked centres, ten sub-steps, and to a pinned body. -/
example (env : Env ℝ) : ∃ (h : List (Op ℝ)) (w w' : World ℝ), World.Hist Gen.Shipped .gen h w ∧
    (w.cons 0).kind = .link ⟨0, 0, 0, 0, 0, 10, 1⟩ ∧ w.process .gen env 1 10 = .ok w' ∧
    ((w'.bodies 0).p_x - (w'.bodies 1).p_x, (w'.bodies 0).v_x - (w'.bodies 1).v_x) =
      (oscStep true 10 1 (1 / 10))^[10] (-1, 0) := by
  obtain ⟨h, w, w', d, hst, e⟩ := demo_gen (.inr (pins_link ⟨0, 0, 0, 0, 0, 10, 1⟩)) (g := .gravity 9)
    trivial trivial (sv := .ge) trivial (by intro m e h; cases h) (o := .newNsv) (sym := true) rfl
    1 10 env
  have q := C120_oscillates (fun g => Gen.tame) d.hist hst d.sle d.ode (sym := true) rfl e
    (d.mem0 rfl) (.link_x (d.kind 0) ⟨rfl, rfl, rfl, rfl⟩ (d.bodies 0 0) (d.bodies 0 1))
  have p0 : (w.bodies 0).p_x = 0 := by simpa [Body.pos, demoBody] using d.pos 0 .x
  have p1 : (w.bodies 1).p_x = 1 := by simpa [Body.pos, demoBody] using d.pos 1 .x
  have v0 : (w.bodies 0).v_x = 3 := d.vel 0 .x
  have v1 : (w.bodies 1).v_x = 3 := d.vel 1 .x
  refine ⟨h, w, w', d.hist, d.kind 0, e, ?_⟩
  have ht : Int.toNat 10 = 10 := rfl
  simpa [p0, p1, v0, v1, ht] using q

/-- Sub-steps of length `s` suit the stiffness and the damping. -/
def Suits (sym : Bool) (ks kd s : ℝ) : Prop :=
  if sym then 0 < kd ∧ 2 * s * kd + s ^ 2 * ks < 4 else s * ks < kd ∧ 2 * s * kd < 4 + s ^ 2 * ks

/-- Sub-steps of length `s` are too long for the stiffness or the damping. -/
def TooLong (sym : Bool) (ks kd s : ℝ) : Prop :=
  if sym then kd < 0 ∨ 4 < 2 * s * kd + s ^ 2 * ks else kd < s * ks ∨ 4 + s ^ 2 * ks < 2 * s * kd

/-- Calls with more and more sub-steps of the same length. -/
theorem sub_steps {s : ℝ} {n : Nat} {f : ℝ → ℝ × ℝ → ℝ × ℝ} (x : ℝ × ℝ) :
    (f ((n : ℝ) * s / ((n : Int) : ℝ)))^[(n : Int).toNat] x = (f s)^[n] x := by
  rw [Int.toNat_natCast, Int.cast_natCast]
  rcases Nat.eq_zero_or_pos n with rfl | hn
  · rfl
  · have : (n : ℝ) ≠ 0 := by exact_mod_cast hn.ne'
    rw [mul_div_assoc, mul_div_cancel₀ _ this]

/-- **C120**: if the length `s` of the sub-steps suits stiffness and damping, then the error and its rate
die out, whatever they are at the start and whatever else is in the system: `s ks < kd` and
`2 s kd < 4 + s² ks` for the Euler solver, `2 s kd + s² ks < 4` for the semi-implicit one. `W n` is the
system after a call with `n` sub-steps. -/
theorem C120_settles (hG : ∀ g, G g → g.OnlyForces) (hw : World.Hist G .gen h w) (hst : w.Standard h)
    (hsle : w.sle = some .ge) {sym : Bool} {o : Ode ℝ} (hode : w.ode = some o) (ho : o.isSym sym)
    {s : ℝ} (hs : 0 < s) {W : Nat → World ℝ} (e : ∀ n : Nat, w.process .gen env (n * s) n = .ok (W n))
    {c : Nat} (hc : c ∈ regCons h) {E : (Nat → Body ℝ) → ℝ × ℝ} {ks kd : ℝ} (hE : ErrorOf w c E ks kd)
    (hk : 0 < ks) (hf : Suits sym ks kd s) :
    Tendsto (fun n => E (W n).bodies) atTop (𝓝 0) := by
  have hx : ∀ n, E (W n).bodies = (oscStep sym ks kd s)^[n] (E w.bodies) := fun n => by
    rw [C120_oscillates hG hw hst hsle hode ho (e n) hc hE, sub_steps]
  rw [funext hx]
  have h2 : 0 < s ^ 2 * ks := by positivity
  refine osc_tendsto ?_ ?_ _
  · cases sym <;> simp only [Suits, oscD, Bool.false_eq_true, if_false, if_true] at hf ⊢ <;> nlinarith
  · rw [abs_lt]
    cases sym <;> simp only [Suits, oscD, oscT, Bool.false_eq_true, if_false, if_true] at hf ⊢ <;>
      constructor <;> nlinarith

/-- A system for which every call succeeds. -/
theorem demo_all {K : CKind ℝ} (hK : K.Turns ∨ K.Pins) {o : Ode ℝ} {sym : Bool} (ho : o.isSym sym)
    (env : Env ℝ) : ∃ h w, DemoG K (.gravity 9) [0] [0] .ge o h w ∧ w.Standard h ∧
      ∀ (s : ℝ), ∃ W : Nat → World ℝ, ∀ n : Nat, w.process .gen env (n * s) n = .ok (W n) := by
  have hi : o.Idle := by
    cases sym <;> cases o <;> first | trivial | (cases ho)
  obtain ⟨h, w, d, _⟩ := demoG K (g := .gravity 9) trivial (cs := [0]) (fg := [0]) (by decide) (by decide)
    .ge hi
  have r := fun dt steps => d.runs trivial hK trivial (by intro m e h; cases h) ho dt steps env
  refine ⟨h, w, d, (r 0 0).1, fun s => ?_⟩
  choose W hW using fun n : Nat => (r (n * s) n).2
  exact ⟨W, hW⟩

/-- The claim applied to a body that turns with speed 5 and a fixed rotation with the stiffness and damping
of a new constraint, with sub-steps of a hundredth and the Euler solver. -/
example (env : Env ℝ) : ∃ (h : List (Op ℝ)) (w : World ℝ) (W : Nat → World ℝ),
    World.Hist Gen.Shipped .gen h w ∧ (w.cons 0).kind = .fixedRotation ⟨7, 10, 1⟩ ∧
    (w.bodies 0).v_theta = 5 ∧ (∀ n : Nat, w.process .gen env (n * (1 / 100)) n = .ok (W n)) ∧
    Tendsto (fun n => (((W n).bodies 0).theta - 7, ((W n).bodies 0).v_theta)) atTop (𝓝 0) := by
  obtain ⟨h, w, d, hst, hW⟩ := demo_all (.inl (turns_fixed ⟨7, 10, 1⟩)) (o := .newEuler) (sym := false) rfl
    env
  obtain ⟨W, e⟩ := hW (1 / 100)
  refine ⟨h, w, W, d.hist, d.kind 0, d.vel 0 .th, e, ?_⟩
  exact C120_settles (fun g => Gen.tame) d.hist hst d.sle d.ode (sym := false) rfl (by norm_num) e
    (d.mem0 rfl) (.rotation (d.kind 0) (d.bodies 0 0)) (by norm_num) (by simp [Suits]; norm_num)

/-- **C120**: if the sub-steps are too long, an error whose rate is zero at the start grows: error and rate
together exceed every bound for good. With the Euler solver this is the case for every undamped constraint,
however short the sub-steps. -/
theorem C120_flies_off (hG : ∀ g, G g → g.OnlyForces) (hw : World.Hist G .gen h w) (hst : w.Standard h)
    (hsle : w.sle = some .ge) {sym : Bool} {o : Ode ℝ} (hode : w.ode = some o) (ho : o.isSym sym)
    {s : ℝ} (hs : 0 < s) {W : Nat → World ℝ} (e : ∀ n : Nat, w.process .gen env (n * s) n = .ok (W n))
    {c : Nat} (hc : c ∈ regCons h) {E : (Nat → Body ℝ) → ℝ × ℝ} {ks kd : ℝ} (hE : ErrorOf w c E ks kd)
    (hk : 0 < ks) (hf : TooLong sym ks kd s) (h0 : (E w.bodies).1 ≠ 0) (hr : (E w.bodies).2 = 0) :
    Tendsto (fun n => |(E (W n).bodies).1| + |(E (W n).bodies).2|) atTop atTop := by
  have hx : ∀ n, E (W n).bodies = (oscStep sym ks kd s)^[n] ((E w.bodies).1, 0) := fun n => by
    rw [C120_oscillates hG hw hst hsle hode ho (e n) hc hE, sub_steps, ← hr]
  simp only [hx]
  refine osc_diverges hk.ne' hs.ne' ?_ h0
  have h2 : 0 < s ^ 2 * ks := by positivity
  cases sym
  · simp only [TooLong, oscD, oscT, Bool.false_eq_true, if_false] at hf ⊢
    obtain hf | hf := hf
    · exact .inl (by nlinarith)
    · exact .inr (lt_of_lt_of_le (by nlinarith) (neg_le_abs _))
  · simp only [TooLong, oscD, oscT, if_true] at hf ⊢
    obtain hf | hf := hf
    · exact .inl (by nlinarith)
    · exact .inr (lt_of_lt_of_le (by nlinarith) (neg_le_abs _))

/-- The claim applied to two linked bodies a unit apart that do not move relative to each other: with the
stiffness and damping of a new link and the Euler solver, sub-steps of an eighth make them fly off. -/
example (env : Env ℝ) : ∃ (h : List (Op ℝ)) (w : World ℝ) (W : Nat → World ℝ),
    World.Hist Gen.Shipped .gen h w ∧ (w.cons 0).kind = .link ⟨0, 0, 0, 0, 0, 10, 1⟩ ∧
    (∀ n : Nat, w.process .gen env (n * (1 / 8)) n = .ok (W n)) ∧
    Tendsto (fun n => |((W n).bodies 0).p_x - ((W n).bodies 1).p_x| +
      |((W n).bodies 0).v_x - ((W n).bodies 1).v_x|) atTop atTop := by
  obtain ⟨h, w, d, hst, hW⟩ := demo_all (.inr (pins_link ⟨0, 0, 0, 0, 0, 10, 1⟩)) (o := .newEuler)
    (sym := false) rfl env
  obtain ⟨W, e⟩ := hW (1 / 8)
  have p0 : (w.bodies 0).p_x = 0 := by simpa [Body.pos, demoBody] using d.pos 0 .x
  have p1 : (w.bodies 1).p_x = 1 := by simpa [Body.pos, demoBody] using d.pos 1 .x
  have v0 : (w.bodies 0).v_x = 3 := d.vel 0 .x
  have v1 : (w.bodies 1).v_x = 3 := d.vel 1 .x
  refine ⟨h, w, W, d.hist, d.kind 0, e, ?_⟩
  exact C120_flies_off (fun g => Gen.tame) d.hist hst d.sle d.ode (sym := false) rfl (by norm_num) e
    (d.mem0 rfl) (.link_x (d.kind 0) ⟨rfl, rfl, rfl, rfl⟩ (d.bodies 0 0) (d.bodies 0 1)) (by norm_num)
    (by simp [TooLong]; norm_num) (by simp [p0, p1]) (by simp [v0, v1])

/-- **C120**: without damping the semi-implicit solver neither damps nor enlarges the error:
`rate² + ks error² - s ks error rate` stays what it is. -/
theorem C120_undamped (hG : ∀ g, G g → g.OnlyForces) (hw : World.Hist G .gen h w) (hst : w.Standard h)
    (hsle : w.sle = some .ge) {o : Ode ℝ} (hode : w.ode = some o) (ho : o.isSym true)
    (e : w.process .gen env dt steps = .ok w') {c : Nat} (hc : c ∈ regCons h)
    {E : (Nat → Body ℝ) → ℝ × ℝ} {ks : ℝ} (hE : ErrorOf w c E ks 0) :
    (E w'.bodies).2 ^ 2 + ks * (E w'.bodies).1 ^ 2 -
        dt / steps * ks * (E w'.bodies).1 * (E w'.bodies).2 =
      (E w.bodies).2 ^ 2 + ks * (E w.bodies).1 ^ 2 -
        dt / steps * ks * (E w.bodies).1 * (E w.bodies).2 := by
  rw [C120_oscillates hG hw hst hsle hode ho e hc hE]
  induction steps.toNat with
  | zero => rfl
  | succ n ih =>
    rw [Function.iterate_succ_apply', ← ih]
    generalize (oscStep true ks 0 (dt / steps))^[n] (E w.bodies) = x
    simp only [oscStep, if_true]
    ring

/-- The claim applied to an undamped fixed rotation and a body that turns with speed 5. -/
example (env : Env ℝ) : ∃ (h : List (Op ℝ)) (w w' : World ℝ), World.Hist Gen.Shipped .gen h w ∧
    (w.cons 0).kind = .fixedRotation ⟨0, 4, 0⟩ ∧ w.process .gen env 1 10 = .ok w' ∧
    (w'.bodies 0).v_theta ^ 2 + 4 * (w'.bodies 0).theta ^ 2 -
      1 / 10 * 4 * (w'.bodies 0).theta * (w'.bodies 0).v_theta = 25 := by
  obtain ⟨h, w, w', d, hst, e⟩ := demo_gen (.inl (turns_fixed ⟨0, 4, 0⟩)) (g := .gravity 9)
    trivial trivial (sv := .ge) trivial (by intro m e h; cases h) (o := .newNsv) (sym := true) rfl
    1 10 env
  have q := C120_undamped (fun g => Gen.tame) d.hist hst d.sle d.ode rfl e
    (d.mem0 rfl) (.rotation (d.kind 0) (d.bodies 0 0))
  have h5 : (w.bodies 0).v_theta = 5 := d.vel 0 .th
  have h0 : (w.bodies 0).theta = 0 := by simpa [Body.pos, demoBody] using d.pos 0 .th
  refine ⟨h, w, w', d.hist, d.kind 0, e, ?_⟩
  simp only [h5, h0, sub_zero] at q
  norm_num at q ⊢
  linarith

/-- **C120**, the Runge-Kutta solver: each sub-step takes error and rate through `rkStep`. -/
theorem C120_runge_kutta (hG : ∀ g, G g → g.OnlyForces) (hw : World.Hist G .gen h w)
    (hst : w.Standard h) (hsle : w.sle = some .ge) {k : Rk4 ℝ} (hode : w.ode = some (.rk4 k))
    (hsync : InSync h) (e : w.process .gen env dt steps = .ok w') {c : Nat} (hc : c ∈ regCons h)
    {E : (Nat → Body ℝ) → ℝ × ℝ} {ks kd : ℝ} (hE : ErrorOf w c E ks kd) :
    E w'.bodies = (rkStep ks kd (dt / steps))^[steps.toNat] (E w.bodies) := by
  obtain ⟨i, a, hr, s, hs⟩ := hE.straight hst hc
  rw [hs, hs]
  exact oscillates_rk hG hw hst hsle hode hsync e hc hr s

/-- The claim applied to a body that turns with speed 5 and a fixed rotation, one sub-step. -/
example (env : Env ℝ) : ∃ (h : List (Op ℝ)) (w w' : World ℝ), World.Hist Gen.Shipped .gen h w ∧
    (w.cons 0).kind = .fixedRotation ⟨0, 0, 1⟩ ∧ w.process .gen env 1 1 = .ok w' ∧
    (w'.bodies 0).v_theta = 15 / 8 := by
  obtain ⟨h, w, w', d, hs, hst, e⟩ := demo_genOde (.inl (turns_fixed ⟨0, 0, 1⟩)) (g := .gravity 9)
    trivial trivial (sv := .ge) trivial (by intro m e h; cases h) (o := .rk4 newRk4) (.inr (.inr rfl))
    1 1 env
  have q := C120_runge_kutta (fun g => Gen.tame) d.hist hst d.sle d.ode hs e (d.mem0 rfl)
    (.rotation (d.kind 0) (d.bodies 0 0))
  have h5 : (w.bodies 0).v_theta = 5 := d.vel 0 .th
  refine ⟨h, w, w', d.hist, d.kind 0, e, ?_⟩
  have ht : Int.toNat 1 = 1 := rfl
  have := congrArg Prod.snd q
  rw [ht, Function.iterate_one] at this
  simp only [rkStep, h5] at this
  norm_num at this
  exact this

/-- **C120**: with the Runge-Kutta solver the error of an undamped constraint dies out, although it should
oscillate for ever, if the length `s` of the sub-steps has `s² ks ≤ 4.28`. -/
theorem C120_runge_kutta_settles (hG : ∀ g, G g → g.OnlyForces) (hw : World.Hist G .gen h w)
    (hst : w.Standard h) (hsle : w.sle = some .ge) {k : Rk4 ℝ} (hode : w.ode = some (.rk4 k))
    (hsync : InSync h) {s : ℝ} (hs : s ≠ 0) {W : Nat → World ℝ}
    (e : ∀ n : Nat, w.process .gen env (n * s) n = .ok (W n)) {c : Nat} (hc : c ∈ regCons h)
    {E : (Nat → Body ℝ) → ℝ × ℝ} {ks : ℝ} (hE : ErrorOf w c E ks 0) (hk : 0 < ks) (hf : s ^ 2 * ks ≤ 4.28) :
    Tendsto (fun n => E (W n).bodies) atTop (𝓝 0) := by
  have hx : ∀ n, E (W n).bodies = (rkStep ks 0 s)^[n] (E w.bodies) := fun n => by
    rw [C120_runge_kutta hG hw hst hsle hode hsync (e n) hc hE, sub_steps]
  rw [funext hx]
  exact rk_tendsto (by positivity) hf _

/-- The claim applied to a body that turns with speed 5 and an undamped fixed rotation. -/
example (env : Env ℝ) : ∃ (h : List (Op ℝ)) (w : World ℝ) (W : Nat → World ℝ),
    World.Hist Gen.Shipped .gen h w ∧ (w.cons 0).kind = .fixedRotation ⟨7, 4, 0⟩ ∧
    (w.bodies 0).v_theta = 5 ∧ (∀ n : Nat, w.process .gen env (n * (1 / 2)) n = .ok (W n)) ∧
    Tendsto (fun n => (((W n).bodies 0).theta - 7, ((W n).bodies 0).v_theta)) atTop (𝓝 0) := by
  obtain ⟨h, w, d, hs⟩ := demo_ode (.fixedRotation ⟨7, 4, 0⟩) (g := .gravity 9) trivial (cs := [0])
    (fg := [0]) (by decide) (by decide) .ge (o := .rk4 newRk4) (.inr (.inr rfl))
  have r := fun dt steps => d.runsOde hs trivial (.inl (turns_fixed ⟨7, 4, 0⟩)) trivial
    (by intro m e h; cases h) (fun f => by cases f) dt steps env
  choose W e using fun n : Nat => (r (n * (1 / 2)) n).2
  refine ⟨h, w, W, d.hist, d.kind 0, d.vel 0 .th, e, ?_⟩
  exact C120_runge_kutta_settles (fun g => Gen.tame) d.hist (r 0 0).1 d.sle d.ode hs (by norm_num) e
    (d.mem0 rfl) (.rotation (d.kind 0) (d.bodies 0 0)) (by norm_num) (by norm_num)

/-- **C120**: with the Runge-Kutta solver the error of a constraint dies out if the length `s` of the
sub-steps has `s kd ≤ 1` and `s² ks ≤ 3`. -/
theorem C120_runge_kutta_damped (hG : ∀ g, G g → g.OnlyForces) (hw : World.Hist G .gen h w)
    (hst : w.Standard h) (hsle : w.sle = some .ge) {k : Rk4 ℝ} (hode : w.ode = some (.rk4 k))
    (hsync : InSync h) {s : ℝ} (hs : 0 < s) {W : Nat → World ℝ}
    (e : ∀ n : Nat, w.process .gen env (n * s) n = .ok (W n)) {c : Nat} (hc : c ∈ regCons h)
    {E : (Nat → Body ℝ) → ℝ × ℝ} {ks kd : ℝ} (hE : ErrorOf w c E ks kd) (hk : 0 < ks)
    (hf : s ^ 2 * ks ≤ 3) (hd : 0 ≤ kd) (hf' : s * kd ≤ 1) :
    Tendsto (fun n => E (W n).bodies) atTop (𝓝 0) := by
  have hx : ∀ n, E (W n).bodies = (rkStep ks kd s)^[n] (E w.bodies) := fun n => by
    rw [C120_runge_kutta hG hw hst hsle hode hsync (e n) hc hE, sub_steps]
  rw [funext hx]
  exact rk_tendsto_damped (by positivity) hf (by positivity) hf' _

/-- The claim applied to a body that turns with speed 5 and a fixed rotation with the stiffness and damping
of a new one, with sub-steps of half a second. -/
example (env : Env ℝ) : ∃ (h : List (Op ℝ)) (w : World ℝ) (W : Nat → World ℝ),
    World.Hist Gen.Shipped .gen h w ∧ (w.cons 0).kind = .fixedRotation ⟨7, 10, 1⟩ ∧
    (w.bodies 0).v_theta = 5 ∧ (∀ n : Nat, w.process .gen env (n * (1 / 2)) n = .ok (W n)) ∧
    Tendsto (fun n => (((W n).bodies 0).theta - 7, ((W n).bodies 0).v_theta)) atTop (𝓝 0) := by
  obtain ⟨h, w, d, hs⟩ := demo_ode (.fixedRotation ⟨7, 10, 1⟩) (g := .gravity 9) trivial (cs := [0])
    (fg := [0]) (by decide) (by decide) .ge (o := .rk4 newRk4) (.inr (.inr rfl))
  have r := fun dt steps => d.runsOde hs trivial (.inl (turns_fixed ⟨7, 10, 1⟩)) trivial
    (by intro m e h; cases h) (fun f => by cases f) dt steps env
  choose W e using fun n : Nat => (r (n * (1 / 2)) n).2
  refine ⟨h, w, W, d.hist, d.kind 0, d.vel 0 .th, e, ?_⟩
  exact C120_runge_kutta_damped (fun g => Gen.tame) d.hist (r 0 0).1 d.sle d.ode hs (by norm_num) e
    (d.mem0 rfl) (.rotation (d.kind 0) (d.bodies 0 0)) (by norm_num) (by norm_num) (by norm_num)
    (by norm_num)

/-- **C120**: with the Runge-Kutta solver the error of an undamped constraint whose rate is zero at the start
grows beyond every bound if the length `s` of the sub-steps has `s² ks ≥ 4.29`. -/
theorem C120_runge_kutta_flies_off (hG : ∀ g, G g → g.OnlyForces) (hw : World.Hist G .gen h w)
    (hst : w.Standard h) (hsle : w.sle = some .ge) {k : Rk4 ℝ} (hode : w.ode = some (.rk4 k))
    (hsync : InSync h) {s : ℝ} (hs : s ≠ 0) {W : Nat → World ℝ}
    (e : ∀ n : Nat, w.process .gen env (n * s) n = .ok (W n)) {c : Nat} (hc : c ∈ regCons h)
    {E : (Nat → Body ℝ) → ℝ × ℝ} {ks : ℝ} (hE : ErrorOf w c E ks 0) (hf : 4.29 ≤ s ^ 2 * ks)
    (h0 : (E w.bodies).1 ≠ 0) (hr : (E w.bodies).2 = 0) :
    Tendsto (fun n => |(E (W n).bodies).1| + |(E (W n).bodies).2|) atTop atTop := by
  have hx : ∀ n, E (W n).bodies = (rkStep ks 0 s)^[n] ((E w.bodies).1, 0) := fun n => by
    rw [C120_runge_kutta hG hw hst hsle hode hsync (e n) hc hE, sub_steps, ← hr]
  simp only [hx]
  exact rk_diverges hs hf h0

/-- The claim applied to two bodies linked without damping, a unit apart, that do not move relative to each
other, with sub-steps of half a second. -/
example (env : Env ℝ) : ∃ (h : List (Op ℝ)) (w : World ℝ) (W : Nat → World ℝ),
    World.Hist Gen.Shipped .gen h w ∧ (w.cons 0).kind = .link ⟨0, 0, 0, 0, 0, 20, 0⟩ ∧
    (∀ n : Nat, w.process .gen env (n * (1 / 2)) n = .ok (W n)) ∧
    Tendsto (fun n => |((W n).bodies 0).p_x - ((W n).bodies 1).p_x| +
      |((W n).bodies 0).v_x - ((W n).bodies 1).v_x|) atTop atTop := by
  obtain ⟨h, w, d, hs⟩ := demo_ode (.link ⟨0, 0, 0, 0, 0, 20, 0⟩) (g := .gravity 9) trivial (cs := [0])
    (fg := [0]) (by decide) (by decide) .ge (o := .rk4 newRk4) (.inr (.inr rfl))
  have r := fun dt steps => d.runsOde hs trivial (.inr (pins_link ⟨0, 0, 0, 0, 0, 20, 0⟩)) trivial
    (by intro m e h; cases h) (fun f => by cases f) dt steps env
  choose W e using fun n : Nat => (r (n * (1 / 2)) n).2
  have p0 : (w.bodies 0).p_x = 0 := by simpa [Body.pos, demoBody] using d.pos 0 .x
  have p1 : (w.bodies 1).p_x = 1 := by simpa [Body.pos, demoBody] using d.pos 1 .x
  have v0 : (w.bodies 0).v_x = 3 := d.vel 0 .x
  have v1 : (w.bodies 1).v_x = 3 := d.vel 1 .x
  refine ⟨h, w, W, d.hist, d.kind 0, e, ?_⟩
  exact C120_runge_kutta_flies_off (fun g => Gen.tame) d.hist (r 0 0).1 d.sle d.ode hs (by norm_num) e
    (d.mem0 rfl) (.link_x (d.kind 0) ⟨rfl, rfl, rfl, rfl⟩ (d.bodies 0 0) (d.bodies 0 1))
    (by norm_num) (by simp [p0, p1]) (by simp [v0, v1])

end

end Scs
