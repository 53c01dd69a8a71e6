import Verif.OdeProps
import Verif.Real
import Mathlib.Algebra.Module.Basic
import Mathlib.Algebra.Module.Prod
import Mathlib.Algebra.Module.Pi
import Mathlib.Tactic.Ring
import Mathlib.Tactic.NormNum

/-!
# Properties C32 to C36: the ODE solvers
-/

namespace Scs

open SysState

section
variable {α : Type} [Zero α] [Add α] [Mul α] [Sub α] [Neg α] [Fp α]

/-! ## C32 -/

/-- Explicit Euler: positions advance with the old velocities. -/
def eulerStep (dt : α) (g : Fld → Nat → α) : Fld → Nat → α
  | .p_x, i => g .p_x i + g .v_x i * dt
  | .p_y, i => g .p_y i + g .v_y i * dt
  | .theta, i => g .theta i + g .v_theta i * dt
  | .v_x, i => g .v_x i + g .a_x i * dt
  | .v_y, i => g .v_y i + g .a_y i * dt
  | .v_theta, i => g .v_theta i + g .a_theta i * dt
  | f, i => g f i

/-- **C32.** `EulerOdeSolver::solve` advances every body by an explicit Euler step of length `m_dt`
and changes nothing else but `dt`. Any arithmetic. -/
theorem C32_euler (s : SysState α) (hr : s.Reach) {n c : Nat} {g : Fld → Nat → α}
    {r : CFld → Nat → α} (hs : s.Shows n c g r) (dt : α) :
    ∃ s', (Ode.euler dt).solve s = .ok (.euler dt, s') ∧ s'.Shows n c (eulerStep dt g) r ∧
      s'.dt = dt ∧ s'.indexMap = s.indexMap := by
  obtain ⟨s', e, hb⟩ := euler_solve hr.wf dt
  have hn := hs.bodies
  have hc := hs.rows
  have en : s'.n = s.n := by rw [hb.1]
  have ec : s'.nc = s.nc := by rw [hb.1]
  refine ⟨s', e, ⟨by omega, by omega, fun f i hi => ?_, fun f i hi => ?_⟩, by rw [hb.1], by rw [hb.1]⟩
  · rw [hb.2.1.shows.fld f i (by omega), hb.2.2, if_pos (by omega)]
    congr 1
    have hv : ∀ f, s.val f i = g f i := fun f => hs.val_eq hr.wf f hi
    show motion _ _ (fun f => s.val f i) f = _
    cases f <;> simp only [motion, eulerStep, Coord.p, Coord.v, Coord.a] <;>
      simp only [← hv] <;> rfl
  · rw [hb.2.1.shows.rf f i (by omega)]
    have : s'.rval f i = s.rval f i := by rw [hb.1]; rfl
    rw [this, hs.rval_eq hr.wf f hi]

/-- **C32.** A whole step evaluates the forces once, on the state at the start of the step with `dt`
set to the step length, and then calls `solve`. -/
theorem C32_euler_run {τ : Type} (ev : τ → SysState α → Exec (τ × SysState α)) (x : τ) (d dt : α)
    (s : SysState α) :
    odeRun ev x (.euler d) s dt = (do
      let e ← ev x { s with dt := dt }
      let z ← (Ode.euler dt).solve e.2
      pure (e.1, z.1, z.2)) := by
  simp only [odeRun, Ode.start, odeLoop, Ode.step]
  show ((ev x { s with dt := dt } >>= _) >>= _) = _
  rw [bind_assoc]
  refine congrArg _ (funext fun e => ?_)
  cases h : (Ode.euler dt).solve e.2 with
  | error e' => simp only [h]; rfl
  | ok z =>
    have : z.1 = .euler dt := by
      simp only [Ode.solve] at h
      cases h' : forN e.2.n (eulerBody dt) { e.2 with dt := dt } with
      | error e' => rw [h'] at h; cases h
      | ok s' => rw [h'] at h; cases h; rfl
    obtain ⟨z1, z2⟩ := z
    simp only at this
    subst this
    simp only [h]
    rfl

/-! ## C33 -/

/-- The Newton-Stormer-Verlet update: positions advance with the new velocities. -/
def nsvStep (dt : α) (g : Fld → Nat → α) : Fld → Nat → α
  | .p_x, i => g .p_x i + (g .v_x i + g .a_x i * dt) * dt
  | .p_y, i => g .p_y i + (g .v_y i + g .a_y i * dt) * dt
  | .theta, i => g .theta i + (g .v_theta i + g .a_theta i * dt) * dt
  | .v_x, i => g .v_x i + g .a_x i * dt
  | .v_y, i => g .v_y i + g .a_y i * dt
  | .v_theta, i => g .v_theta i + g .a_theta i * dt
  | f, i => g f i

/-- **C33.** `NsvOdeSolver::solve` advances every body by such a step of length `m_dt` and changes
nothing else but `dt`. Any arithmetic. -/
theorem C33_nsv (s : SysState α) (hr : s.Reach) {n c : Nat} {g : Fld → Nat → α}
    {r : CFld → Nat → α} (hs : s.Shows n c g r) (dt : α) :
    ∃ s', (Ode.nsv dt).solve s = .ok (.nsv dt, s') ∧ s'.Shows n c (nsvStep dt g) r ∧
      s'.dt = dt ∧ s'.indexMap = s.indexMap := by
  obtain ⟨s', e, hb⟩ := nsv_solve hr.wf dt
  have hn := hs.bodies
  have hc := hs.rows
  have en : s'.n = s.n := by rw [hb.1]
  have ec : s'.nc = s.nc := by rw [hb.1]
  refine ⟨s', e, ⟨by omega, by omega, fun f i hi => ?_, fun f i hi => ?_⟩, by rw [hb.1], by rw [hb.1]⟩
  · rw [hb.2.1.shows.fld f i (by omega), hb.2.2, if_pos (by omega)]
    congr 1
    have hv : ∀ f, s.val f i = g f i := fun f => hs.val_eq hr.wf f hi
    show motion _ _ (fun f => s.val f i) f = _
    cases f <;> simp only [motion, nsvStep, Coord.p, Coord.v, Coord.a] <;>
      simp only [← hv] <;> rfl
  · rw [hb.2.1.shows.rf f i (by omega)]
    have : s'.rval f i = s.rval f i := by rw [hb.1]; rfl
    rw [this, hs.rval_eq hr.wf f hi]

/-- **C33.** A whole step evaluates the forces once, on the state at the start of the step with `dt`
set to the step length, and then calls `solve`. -/
theorem C33_nsv_run {τ : Type} (ev : τ → SysState α → Exec (τ × SysState α)) (x : τ) (d dt : α)
    (s : SysState α) :
    odeRun ev x (.nsv d) s dt = (do
      let e ← ev x { s with dt := dt }
      let z ← (Ode.nsv dt).solve e.2
      pure (e.1, z.1, z.2)) := by
  simp only [odeRun, Ode.start, odeLoop, Ode.step]
  show ((ev x { s with dt := dt } >>= _) >>= _) = _
  rw [bind_assoc]
  refine congrArg _ (funext fun e => ?_)
  cases h : (Ode.nsv dt).solve e.2 with
  | error e' => simp only [h]; rfl
  | ok z =>
    have : z.1 = .nsv dt := by
      simp only [Ode.solve] at h
      cases h' : forN e.2.n (nsvBody dt) { e.2 with dt := dt } with
      | error e' => rw [h'] at h; cases h
      | ok s' => rw [h'] at h; cases h; rfl
    obtain ⟨z1, z2⟩ := z
    simp only at this
    subst this
    simp only [h]
    rfl

/-- Two bodies and one row of constraints, for C32 and C33. -/
example : ∃ (s : SysState ℝ) (g : Fld → Nat → ℝ) (r : CFld → Nat → ℝ), s.Reach ∧ s.Shows 2 1 g r ∧
    g .a_x 1 = 5 ∧ g .v_x 1 = 6 := by
  obtain ⟨s, hr, hs⟩ := reach_shows (α := ℝ) 2 1 (by decide)
    (fun f _ => match f with | .a_x => 5 | .v_x => 6 | _ => 1) (fun _ _ => 7)
  exact ⟨s, _, _, hr, hs, rfl, rfl⟩

/-! ## C34 -/

/-- **C34.** Whatever happens to the state between the calls, and whatever the solver object was
used for before: after `start`, the first three calls of `step` report that the step is not done
and the fourth that it is. -/
theorem C34_done_on_fourth (r r1 r2 r3 r4 r5 r6 r7 r8 r9 : Rk4 α)
    (s0 s1 t1 u1 u1' s2 t2 u2 u2' s3 t3 u3 u3' s4 t4 u4 u4' : SysState α) (dt : α)
    (d1 d2 d3 d4 : Bool) (h0 : r.start s0 dt = .ok r1)
    (h1 : r1.step s1 = .ok (r2, t1, d1)) (g1 : r2.solve u1 = .ok (r3, u1'))
    (h2 : r3.step s2 = .ok (r4, t2, d2)) (g2 : r4.solve u2 = .ok (r5, u2'))
    (h3 : r5.step s3 = .ok (r6, t3, d3)) (g3 : r6.solve u3 = .ok (r7, u3'))
    (h4 : r7.step s4 = .ok (r8, t4, d4)) (g4 : r8.solve u4 = .ok (r9, u4')) :
    d1 = false ∧ d2 = false ∧ d3 = false ∧ d4 = true ∧ r9.fin.stage = .undefined ∧
      r9.fin.nextStage = .undefined := by
  have L : Lax α anyErr := ⟨trivial, trivial, fun _ _ _ _ => trivial⟩
  have q0 := (L.start r s0 dt).of_eq h0
  have q1 := (L.step r1 s1).of_eq h1
  have p1 := (L.solve r2 u1).of_eq g1
  have q2 := (L.step r3 s2).of_eq h2
  have p2 := (L.solve r4 u2).of_eq g2
  have q3 := (L.step r5 s3).of_eq h3
  have p3 := (L.solve r6 u3).of_eq g3
  have q4 := (L.step r7 s4).of_eq h4
  simp only at q1 q2 q3 q4 p1 p2 p3
  have k3 : r3.stage = .stage2 := by rw [p1, q1.2.1, q0]; rfl
  have k5 : r5.stage = .stage3 := by rw [p2, q2.2.1, k3]; rfl
  have k7 : r7.stage = .stage4 := by rw [p3, q3.2.1, k5]; rfl
  refine ⟨?_, ?_, ?_, ?_, rfl, rfl⟩
  · rw [Bool.eq_false_iff]; intro h; have := q1.2.2.1 h; rw [q0] at this; cases this
  · rw [Bool.eq_false_iff]; intro h; have := q2.2.2.1 h; rw [k3] at this; cases this
  · rw [Bool.eq_false_iff]; intro h; have := q3.2.2.1 h; rw [k5] at this; cases this
  · exact q4.2.2.2 k7

/-- The evaluation `ev`, counting its calls. -/
def counted {τ : Type} (ev : τ → SysState α → Exec (τ × SysState α)) (x : τ × Nat) (s : SysState α) :
    Exec ((τ × Nat) × SysState α) := do
  let e ← ev x.1 s
  pure ((e.1, x.2 + 1), e.2)

/-- Consecutive steps with the same solver object. -/
def odeRuns {τ : Type} (ev : τ → SysState α → Exec (τ × SysState α)) :
    List α → τ → Ode α → SysState α → Exec (τ × Ode α × SysState α)
  | [], x, o, s => pure (x, o, s)
  | dt :: l, x, o, s => do
    let z ← odeRun ev x o s dt
    odeRuns ev l z.1 z.2.1 z.2.2

theorem run_counts {E : Err → Prop} (L : Lax α E) {τ : Type}
    (ev : τ → SysState α → Exec (τ × SysState α))
    (hev : ∀ x s, Wp (ev x s) (fun _ => True) E) (x : τ) (k : Nat) (r : Rk4 α) (s : SysState α)
    (dt : α) :
    Wp (odeRun (counted ev) (x, k) (.rk4 r) s dt) (fun z => z.1.2 = k + 4 ∧ ∃ r', z.2.1 = .rk4 r' ∧
      r'.stage = .undefined ∧ r'.nextStage = .undefined) E := by
  rw [odeRun]
  simp only [Ode.start, bind_assoc]
  rw [wp_bind]
  refine (L.start r s dt).imp fun r1 h1 => ?_
  rw [wp_bind, wp_pure, wp_bind]
  refine (L.loop (P := fun a b => b.2 = a.2 + 1) (k := 1) (ev := counted ev) (fun x s => ?_) h1).imp
    fun z hz => ?_
  · rw [counted]
    refine wpT_bind (hev x.1 s) fun e => ?_
    exact rfl
  · obtain ⟨⟨x1, x2, x3, p1, p2, p3, p4⟩, r', e, _⟩ := hz
    rw [wp_pure]
    refine ⟨by simp only; omega, r'.fin, by rw [e]; rfl, rfl, rfl⟩

/-- **C34.** Any number of consecutive steps with the same RK4 solver, for every evaluation of
forces, every state and every step length: if they succeed, each of them has evaluated the forces
exactly four times, and after each the solver is back in its initial stage. -/
theorem C34_four_evaluations {τ : Type} (ev : τ → SysState α → Exec (τ × SysState α)) (l : List α)
    (x x' : τ) (k : Nat) (r : Rk4 α) (hr : r.stage = .undefined ∧ r.nextStage = .undefined)
    (s s' : SysState α) (o : Ode α)
    (h : odeRuns (counted ev) l (x, 0) (.rk4 r) s = .ok ((x', k), o, s')) :
    k = 4 * l.length ∧ ∃ r', o = .rk4 r' ∧ r'.stage = .undefined ∧ r'.nextStage = .undefined := by
  have L : Lax α anyErr := ⟨trivial, trivial, fun _ _ _ _ => trivial⟩
  have main : ∀ (l : List α) (x : τ) (k : Nat) (r : Rk4 α) (s : SysState α),
      r.stage = .undefined ∧ r.nextStage = .undefined →
      Wp (odeRuns (counted ev) l (x, k) (.rk4 r) s) (fun z => z.1.2 = k + 4 * l.length ∧
        ∃ r', z.2.1 = .rk4 r' ∧ r'.stage = .undefined ∧ r'.nextStage = .undefined) anyErr := by
    intro l
    induction l with
    | nil => exact fun x k r s hr => ⟨rfl, r, rfl, hr⟩
    | cons dt l ih =>
      intro x k r s hr
      rw [odeRuns, wp_bind]
      refine (run_counts L ev (fun x s => wp_anyErr_iff.2 fun _ _ => trivial) x k r s dt).imp ?_
      rintro ⟨⟨x1, k1⟩, o1, s1⟩ ⟨hk, r1, ho, hr1⟩
      simp only at hk ho
      subst hk ho
      refine (ih x1 (k + 4) r1 s1 hr1).imp fun z hz => ⟨?_, hz.2⟩
      rw [hz.1, List.length_cons]
      omega
  have := (main l x 0 r s hr).of_eq h
  simp only [Nat.zero_add] at this
  exact this

/-- **C34.** The step/solve loop terminates: a step never ends in non-termination, whatever the
solver object was used for before, unless an evaluation of forces (or the division of the
arithmetic) does not terminate. -/
theorem C34_terminates {τ : Type} (ev : τ → SysState α → Exec (τ × SysState α))
    (hev : ∀ x s, ev x s ≠ .error .nonterm) (hdiv : ∀ a b : α, Fp.div a b ≠ .error .nonterm) (x : τ)
    (r : Rk4 α) (s : SysState α) (dt : α) : odeRun ev x (.rk4 r) s dt ≠ .error .nonterm := by
  have L : Lax α (· ≠ Err.nonterm) := ⟨by decide, by decide, fun a b e h h' => hdiv a b (h' ▸ h)⟩
  have : Wp (odeRun ev x (.rk4 r) s dt) (fun _ => True) (· ≠ Err.nonterm) := by
    rw [odeRun]
    simp only [Ode.start, bind_assoc]
    rw [wp_bind]
    refine (L.start r s dt).imp fun r1 h1 => ?_
    rw [wp_bind, wp_pure, wp_bind]
    refine (L.loop (P := fun _ _ => True) (k := 1) (ev := ev) (fun x s => ?_) h1).imp
      fun z hz => trivial
    cases h : ev x s with
    | ok e => exact trivial
    | error e => intro h'; exact hev x s (h' ▸ h)
  intro h
  rw [h] at this
  exact this rfl

end

/-! ## C35 -/

/-- Positions, angles, velocities or accelerations of `n` bodies. -/
abbrev Conf (n : Nat) := Coord → Fin n → ℝ

/-- A state holds the positions `q` and velocities `v` of `n` bodies. -/
structure Moves (s : SysState ℝ) (n : Nat) (q v : Conf n) : Prop where
  bodies : s.n = n
  pos : ∀ (c : Coord) (i : Fin n), s.rd c.p (i : Nat) = .ok (q c i)
  vel : ∀ (c : Coord) (i : Fin n), s.rd c.v (i : Nat) = .ok (v c i)

/-- The evaluation `ev` succeeds on every allocated state with `n` bodies and `nc` rows, computes
the accelerations `A q v` and leaves positions and velocities alone. -/
def Evaluates {τ : Type} (n nc : Nat) (A : Conf n → Conf n → Conf n)
    (ev : τ → SysState ℝ → Exec (τ × SysState ℝ)) : Prop :=
  ∀ x s q v, s.Wf → s.nc = nc → Moves s n q v → ∃ x' e, ev x s = .ok (x', e) ∧ e.Wf ∧ e.nc = nc ∧
    Moves e n q v ∧ ∀ (c : Coord) (i : Fin n), e.rd c.a (i : Nat) = .ok (A q v c i)

/-- The classical Runge-Kutta step of length `h` for `y' = F y`. -/
noncomputable def classicalRK4 {E : Type} [AddCommGroup E] [Module ℝ E] (F : E → E) (h : ℝ) (y : E) : E :=
  let k1 := F y
  let k2 := F (y + (h / 2) • k1)
  let k3 := F (y + (h / 2) • k2)
  let k4 := F (y + h • k3)
  y + (h / 6) • (k1 + (2 : ℝ) • k2 + (2 : ℝ) • k3 + k4)

/-- The first-order system of `x'' = A(x, x')`. -/
def firstOrder {n : Nat} (A : Conf n → Conf n → Conf n) (y : Conf n × Conf n) : Conf n × Conf n :=
  (y.2, A y.1 y.2)

/-- What the code computes: the positions of the stages are advanced with the velocities of the same
stage instead of the previous one. -/
noncomputable def codeRK4 {n : Nat} (A : Conf n → Conf n → Conf n) (h : ℝ) (y : Conf n × Conf n) :
    Conf n × Conf n :=
  let q := y.1
  let v := y.2
  let a1 := A q v
  let v2 := v + (h / 2) • a1
  let a2 := A (q + (h / 2) • v2) v2
  let v3 := v + (h / 2) • a2
  let a3 := A (q + (h / 2) • v3) v3
  let v4 := v + h • a3
  let a4 := A (q + h • v4) v4
  (q + (h / 6) • (v + (2 : ℝ) • v2 + (2 : ℝ) • v3 + v4),
    v + (h / 6) • (a1 + (2 : ℝ) • a2 + (2 : ℝ) • a3 + a4))

/-- The buffers of the solver are new or have the size of the state, as after a previous step. -/
structure RkReady (r : Rk4 ℝ) (s : SysState ℝ) : Prop where
  init : r.init.Wf
  acc : r.acc.Wf
  fitsI : (r.init.n = 0 ∧ r.init.nc = 0) ∨ (r.init.n = s.n ∧ r.init.nc = s.nc)
  fitsA : (r.acc.n = 0 ∧ r.acc.nc = 0) ∨ (r.acc.n = s.n ∧ r.acc.nc = s.nc)

theorem fits_of {d s : SysState ℝ} (h : (d.n = 0 ∧ d.nc = 0) ∨ (d.n = s.n ∧ d.nc = s.nc)) :
    d.Fits s := by
  rcases h with h | h
  · by_cases h' : s.n = 0 ∧ s.nc = 0
    · exact Or.inl (by omega)
    · exact Or.inr (by omega)
  · exact Or.inl h

theorem Moves.of_val {s : SysState ℝ} {n : Nat} {q v : Conf n} (hw : s.Wf) (hn : s.n = n)
    (hq : ∀ c (i : Fin n), s.val (Coord.p c) i = q c i)
    (hv : ∀ c (i : Fin n), s.val (Coord.v c) i = v c i) : Moves s n q v :=
  ⟨hn, fun c i => by rw [← hq, (hw.ok (i := i) (by omega)).rd _ (by omega)],
    fun c i => by rw [← hv, (hw.ok (i := i) (by omega)).rd _ (by omega)]⟩

theorem Moves.val_p {s : SysState ℝ} {n : Nat} {q v : Conf n} (h : Moves s n q v) (hw : s.Wf)
    (c : Coord) (i : Fin n) : s.val c.p i = q c i := by
  have h1 := h.pos c i
  have hn := h.bodies
  rw [(hw.ok (i := i) (by omega)).rd _ (by omega)] at h1
  exact Except.ok.inj h1

theorem Moves.val_v {s : SysState ℝ} {n : Nat} {q v : Conf n} (h : Moves s n q v) (hw : s.Wf)
    (c : Coord) (i : Fin n) : s.val c.v i = v c i := by
  have h1 := h.vel c i
  have hn := h.bodies
  rw [(hw.ok (i := i) (by omega)).rd _ (by omega)] at h1
  exact Except.ok.inj h1

/-- **C35 (partial).** For every acceleration field, an RK4 step succeeds and computes `codeRK4`; the
solver is ready for the next step. Missing: `codeRK4` is not the classical update
(`C35_not_classical`) except for fields that depend on velocities only
(`C35_classical_for_velocity_fields_partial`). -/
theorem C35_update_partial {τ : Type} {n nc : Nat} (A : Conf n → Conf n → Conf n)
    (ev : τ → SysState ℝ → Exec (τ × SysState ℝ)) (hev : Evaluates n nc A ev) (x : τ) (r : Rk4 ℝ)
    (s : SysState ℝ) (hr : s.Wf) (hrdy : RkReady r s) (q v : Conf n) (hs : Moves s n q v)
    (hc : s.nc = nc) (h : ℝ) :
    ∃ x' r' s', odeRun ev x (.rk4 r) s h = .ok (x', .rk4 r', s') ∧ s'.Wf ∧ s'.nc = nc ∧
      Moves s' n (codeRK4 A h (q, v)).1 (codeRK4 A h (q, v)).2 ∧ RkReady r' s' := by
  have hn := hs.bodies
  have full : ∀ (x : τ) (s1 : SysState ℝ), s1.Wf → s1.n = s.n → s1.nc = s.nc →
      ∃ x' e, ev x s1 = .ok (x', e) ∧ EvOk s1 e ∧ ∀ (c : Coord) (i : Fin n), e.val c.a i =
        A (fun c i => s1.val c.p i) (fun c i => s1.val c.v i) c i := by
    intro x s1 w1 n1 c1
    obtain ⟨x', e, he, we, ce, hh, ha⟩ := hev x s1 (fun c i => s1.val c.p i) (fun c i => s1.val c.v i) w1
      (by omega) (Moves.of_val w1 (by omega) (fun _ _ => rfl) (fun _ _ => rfl))
    have ne := hh.bodies
    refine ⟨x', e, he, ⟨we, by omega, by omega, fun c i hi => ?_, fun c i hi => ?_⟩, fun c i => ?_⟩
    · exact hh.val_p we c ⟨i, by omega⟩
    · exact hh.val_v we c ⟨i, by omega⟩
    · have h1 := ha c i
      rw [(we.ok (i := i) (by omega)).rd _ (by omega)] at h1
      exact Except.ok.inj h1
  obtain ⟨x', r', s', erun, ⟨T⟩, _, _, wi, wa, ni, ci, na, ca⟩ := rk4_run hr hrdy.init hrdy.acc
    (fits_of hrdy.fitsI) (fits_of hrdy.fitsA) (fun x s1 w1 n1 c1 => by
      obtain ⟨x', e, he, hk, _⟩ := full x s1 w1 n1 c1; exact ⟨x', e, he, hk⟩) x h
  have hq : ∀ c (i : Fin n), s.val (Coord.p c) i = q c i := fun c i => hs.val_p hr c i
  have hv : ∀ c (i : Fin n), s.val (Coord.v c) i = v c i := fun c i => hs.val_v hr c i
  have w0 : ({ s with dt := 0 } : SysState ℝ).Wf := fun hp => let o := hr hp; ⟨o.fld, o.rf, o.im⟩
  -- accelerations found by an evaluation
  have acc : ∀ (x : τ) (s1 : SysState ℝ) (x' : τ) (e : SysState ℝ), ev x s1 = .ok (x', e) → s1.Wf →
      s1.n = s.n → s1.nc = s.nc → ∀ (q1 v1 : Conf n), (∀ c (i : Fin n), s1.val (Coord.p c) i = q1 c i) →
      (∀ c (i : Fin n), s1.val (Coord.v c) i = v1 c i) → ∀ c (i : Fin n), e.val (Coord.a c) i = A q1 v1 c i := by
    intro x s1 x' e he w1 n1 c1 q1 v1 h1 h2 c i
    obtain ⟨x'', e', he', _, ha⟩ := full x s1 w1 n1 c1
    rw [he] at he'
    cases he'
    rw [ha]
    have e1 : (fun c i => s1.val (Coord.p c) i : Conf n) = q1 := funext fun c => funext fun i => h1 c i
    have e2 : (fun c i => s1.val (Coord.v c) i : Conf n) = v1 := funext fun c => funext fun i => h2 c i
    rw [e1, e2]
  have ii : ∀ i : Fin n, (i : Nat) < s.n := fun i => by omega
  have A1 := acc x _ _ _ T.ev1 w0 rfl rfl q v hq hv
  have n1 : T.e1.n = s.n := T.ok1.n
  have c1 : T.e1.nc = s.nc := T.ok1.nc
  have n2 : T.s2.n = s.n := by rw [T.to2.1]; exact n1
  have c2 : T.s2.nc = s.nc := by rw [T.to2.1]; exact c1
  have V2 : ∀ c (i : Fin n), T.s2.val (Coord.v c) i = (v + (h / 2) • A q v) c i := by
    intro c i
    rw [T.to2.2.2, if_pos (ii i), halfG, motion_v, hv]
    have : ({ T.e1 with dt := h / 2 } : SysState ℝ).val (Coord.a c) i = A q v c i := A1 c i
    rw [this]
    simp only [Pi.add_apply, Pi.smul_apply, smul_eq_mul]
    ring
  have Q2 : ∀ c (i : Fin n), T.s2.val (Coord.p c) i = (q + (h / 2) • (v + (h / 2) • A q v)) c i := by
    intro c i
    rw [T.to2.2.2, if_pos (ii i), halfG, motion_p, hv, hq]
    have : ({ T.e1 with dt := h / 2 } : SysState ℝ).val (Coord.a c) i = A q v c i := A1 c i
    rw [this]
    simp only [Pi.add_apply, Pi.smul_apply, smul_eq_mul]
    ring
  have A2 := acc T.x1 _ _ _ T.ev2 T.to2.2.1 n2 c2 _ _ Q2 V2
  generalize ha1 : A q v = a1 at *
  generalize hv2 : v + (h / 2) • a1 = v2 at *
  generalize ha2 : A (q + (h / 2) • v2) v2 = a2 at *
  have n2' : T.e2.n = s.n := T.ok2.n.trans n2
  have c2' : T.e2.nc = s.nc := T.ok2.nc.trans c2
  have n3 : T.s3.n = s.n := by rw [T.to3.1]; exact n2'
  have c3 : T.s3.nc = s.nc := by rw [T.to3.1]; exact c2'
  have V3 : ∀ c (i : Fin n), T.s3.val (Coord.v c) i = (v + (h / 2) • a2) c i := by
    intro c i
    rw [T.to3.2.2, if_pos (ii i), halfG, motion_v, hv]
    have : ({ T.e2 with dt := h / 2 } : SysState ℝ).val (Coord.a c) i = a2 c i := A2 c i
    rw [this]
    simp only [Pi.add_apply, Pi.smul_apply, smul_eq_mul]
    ring
  have Q3 : ∀ c (i : Fin n), T.s3.val (Coord.p c) i = (q + (h / 2) • (v + (h / 2) • a2)) c i := by
    intro c i
    rw [T.to3.2.2, if_pos (ii i), halfG, motion_p, hv, hq]
    have : ({ T.e2 with dt := h / 2 } : SysState ℝ).val (Coord.a c) i = a2 c i := A2 c i
    rw [this]
    simp only [Pi.add_apply, Pi.smul_apply, smul_eq_mul]
    ring
  have A3 := acc T.x2 _ _ _ T.ev3 T.to3.2.1 n3 c3 _ _ Q3 V3
  generalize hv3 : v + (h / 2) • a2 = v3 at *
  generalize ha3 : A (q + (h / 2) • v3) v3 = a3 at *
  have n3' : T.e3.n = s.n := T.ok3.n.trans n3
  have c3' : T.e3.nc = s.nc := T.ok3.nc.trans c3
  have n4 : T.s4.n = s.n := by rw [T.to4.1]; exact n3'
  have c4 : T.s4.nc = s.nc := by rw [T.to4.1]; exact c3'
  have V4 : ∀ c (i : Fin n), T.s4.val (Coord.v c) i = (v + h • a3) c i := by
    intro c i
    rw [T.to4.2.2, if_pos (ii i), fullG, motion_v, hv]
    have : ({ T.e3 with dt := h } : SysState ℝ).val (Coord.a c) i = a3 c i := A3 c i
    rw [this]
    simp only [Pi.add_apply, Pi.smul_apply, smul_eq_mul]
  have Q4 : ∀ c (i : Fin n), T.s4.val (Coord.p c) i = (q + h • (v + h • a3)) c i := by
    intro c i
    rw [T.to4.2.2, if_pos (ii i), fullG, motion_p, hv, hq]
    have : ({ T.e3 with dt := h } : SysState ℝ).val (Coord.a c) i = a3 c i := A3 c i
    rw [this]
    simp only [Pi.add_apply, Pi.smul_apply, smul_eq_mul]
  have A4 := acc T.x3 _ _ _ T.ev4 T.to4.2.1 n4 c4 _ _ Q4 V4
  generalize hv4 : v + h • a3 = v4 at *
  generalize ha4 : A (q + h • v4) v4 = a4 at *
  have n4' : T.e4.n = s.n := T.ok4.n.trans n4
  have c4' : T.e4.nc = s.nc := T.ok4.nc.trans c4
  have ns : s'.n = s.n := by rw [T.fin]; exact n4'
  have cs : s'.nc = s.nc := by rw [T.fin]; exact c4'
  have E1 : ∀ c (i : Fin n), T.e1.val (Coord.v c) i = v c i := fun c i => by
    rw [T.ok1.vel c i (ii i)]; exact hv c i
  have E2 : ∀ c (i : Fin n), T.e2.val (Coord.v c) i = v2 c i := fun c i => by
    rw [T.ok2.vel c i (by rw [n2]; exact ii i)]; exact V2 c i
  have E3 : ∀ c (i : Fin n), T.e3.val (Coord.v c) i = v3 c i := fun c i => by
    rw [T.ok3.vel c i (by rw [n3]; exact ii i)]; exact V3 c i
  have E4 : ∀ c (i : Fin n), T.e4.val (Coord.v c) i = v4 c i := fun c i => by
    rw [T.ok4.vel c i (by rw [n4]; exact ii i)]; exact V4 c i
  refine ⟨x', r', s', erun, T.wf, by omega, Moves.of_val T.wf (by omega) (fun c i => ?_)
    (fun c i => ?_), ⟨wi, wa, Or.inr (by omega), Or.inr (by omega)⟩⟩
  · rw [T.vals, if_pos (ii i), motion_p, hq, E1, E2, E3, E4]
    simp only [codeRK4, ha1, hv2, ha2, hv3, ha3, hv4, Pi.add_apply, Pi.smul_apply, smul_eq_mul]
    ring
  · rw [T.vals, if_pos (ii i), motion_v, hv, A1, A2, A3, A4]
    simp only [codeRK4, ha1, hv2, ha2, hv3, ha3, hv4, ha4, Pi.add_apply, Pi.smul_apply, smul_eq_mul]
    ring

/-- **C35 (partial).** If the accelerations depend on the velocities only, an RK4 step computes the
classical update of the first-order system. Missing: fields that depend on positions. -/
theorem C35_classical_for_velocity_fields_partial {τ : Type} {n nc : Nat} (B : Conf n → Conf n)
    (ev : τ → SysState ℝ → Exec (τ × SysState ℝ)) (hev : Evaluates n nc (fun _ v => B v) ev) (x : τ)
    (r : Rk4 ℝ) (s : SysState ℝ) (hr : s.Wf) (hrdy : RkReady r s) (q v : Conf n)
    (hs : Moves s n q v) (hc : s.nc = nc) (h : ℝ) :
    ∃ x' r' s', odeRun ev x (.rk4 r) s h = .ok (x', .rk4 r', s') ∧
      Moves s' n (classicalRK4 (firstOrder fun _ v => B v) h (q, v)).1
        (classicalRK4 (firstOrder fun _ v => B v) h (q, v)).2 := by
  obtain ⟨x', r', s', e, _, _, hh, _⟩ := C35_update_partial _ ev hev x r s hr hrdy q v hs hc h
  refine ⟨x', r', s', e, ?_⟩
  have : codeRK4 (fun _ v => B v) h (q, v) = classicalRK4 (firstOrder fun _ v => B v) h (q, v) := by
    simp only [codeRK4, classicalRK4, firstOrder, Prod.snd_add, Prod.smul_snd]
    rfl
  rw [this] at hh
  exact hh

/-- A concrete evaluation: write accelerations and reactions, leave the rest. -/
noncomputable def evalBy {τ : Type} (nxt : τ → τ) (A : Coord → (Fld → Nat → ℝ) → Nat → ℝ)
    (R : τ → CFld → Nat → ℝ) (x : τ) (s : SysState ℝ) : Exec (τ × SysState ℝ) :=
  .ok (nxt x, { s with
    fld := fun f => (s.fld f).map fun b => { b with val := match f with
      | .a_x => A .x s.val
      | .a_y => A .y s.val
      | .a_theta => A .th s.val
      | _ => b.val }
    rf := fun f => (s.rf f).map fun b => { b with val := R x f } })

theorem evalBy_ok {τ : Type} (nxt : τ → τ) (A : Coord → (Fld → Nat → ℝ) → Nat → ℝ)
    (R : τ → CFld → Nat → ℝ) (x : τ) (s : SysState ℝ) (hw : s.Wf) :
    ∃ e, evalBy nxt A R x s = .ok (nxt x, e) ∧ e.Wf ∧ e.n = s.n ∧ e.nc = s.nc ∧
      (∀ c : Coord, ∀ i, i < s.n → e.val c.p i = s.val c.p i ∧ e.val c.v i = s.val c.v i ∧
        e.val c.a i = A c s.val i) ∧ (∀ f i, i < s.nc * 2 → e.rval f i = R x f i) := by
  refine ⟨_, rfl, ?_, rfl, rfl, ?_, ?_⟩
  · intro hp
    have o := hw hp
    refine ⟨fun f => ?_, fun f => ?_, o.im⟩
    · obtain ⟨b, hb, hz⟩ := o.fld f
      simp only [hb, Option.map_some]
      exact ⟨_, rfl, hz⟩
    · obtain ⟨b, hb, hz⟩ := o.rf f
      simp only [hb, Option.map_some]
      exact ⟨_, rfl, hz⟩
  · intro c i hi
    have o := hw.ok hi
    refine ⟨?_, ?_, ?_⟩
    · obtain ⟨b, hb, hz⟩ := o.fld c.p
      simp only [SysState.val, hb, Option.map_some]
      cases c <;> rfl
    · obtain ⟨b, hb, hz⟩ := o.fld c.v
      simp only [SysState.val, hb, Option.map_some]
      cases c <;> rfl
    · obtain ⟨b, hb, hz⟩ := o.fld c.a
      cases c
      all_goals
        simp only [Coord.a] at hb
        rw [SysState.val]
        simp only [Coord.a, hb, Option.map_some]
  · intro f i hi
    have o := hw.okc hi
    obtain ⟨b, hb, hz⟩ := o.rf f
    simp only [SysState.rval, hb, Option.map_some]

/-- The oscillator `x'' = -x`, for one body. -/
noncomputable def osc : Unit → SysState ℝ → Exec (Unit × SysState ℝ) :=
  evalBy id (fun c g i => -g c.p i) (fun _ _ _ => 0)

theorem osc_evaluates (n nc : Nat) : Evaluates n nc (fun q _ => -q) osc := by
  intro x s q v hw hc hs
  obtain ⟨e, he, we, ne, ce, hp, _⟩ := evalBy_ok id (fun c g i => -g c.p i) (fun (_ : Unit) _ _ => 0) x s hw
  have hn := hs.bodies
  refine ⟨_, e, he, we, by omega, Moves.of_val we (by omega) (fun c i => ?_) (fun c i => ?_), fun c i => ?_⟩
  · rw [(hp c i (by omega)).1]; exact hs.val_p hw c i
  · rw [(hp c i (by omega)).2.1]; exact hs.val_v hw c i
  · rw [(we.ok (i := i) (by omega)).rd _ (by omega), (hp c i (by omega)).2.2, hs.val_p hw c i]
    rfl

/-- A state with one body at position one and at rest, and a new solver. -/
theorem demo_rk4 (nc : Nat) : ∃ (r : Rk4 ℝ) (s : SysState ℝ), s.Reach ∧ RkReady r s ∧ s.nc = nc ∧
    Moves s 1 (fun _ _ => 1) (fun _ _ => 0) ∧ s.Shows 1 nc
      (fun f _ => match f with | .p_x => 1 | .p_y => 1 | .theta => 1 | _ => 0) (fun _ _ => 1) := by
  obtain ⟨s, hr, hs⟩ := reach_shows (α := ℝ) 1 nc (by simp)
    (fun f _ => match f with | .p_x => 1 | .p_y => 1 | .theta => 1 | _ => 0) (fun _ _ => 1)
  refine ⟨Rk4.new (fun _ _ => 0) (fun _ _ => 0) (fun _ _ => 0) (fun _ _ => 0), s, hr,
    ⟨wf_mk0 _ _, wf_mk0 _ _, Or.inl ⟨rfl, rfl⟩, Or.inl ⟨rfl, rfl⟩⟩, hs.rows, ?_, hs⟩
  refine ⟨hs.bodies, fun c i => ?_, fun c i => ?_⟩
  · rw [hs.fld c.p i i.2]; cases c <;> rfl
  · rw [hs.fld c.v i i.2]; cases c <;> rfl

/-- The hypotheses of `C35_update_partial` hold for the oscillator. -/
example : ∃ (r : Rk4 ℝ) (s : SysState ℝ) (q v : Conf 1), s.Reach ∧ RkReady r s ∧ s.nc = 0 ∧
    Moves s 1 q v ∧ Evaluates 1 0 (fun q _ => -q) osc := by
  obtain ⟨r, s, h1, h2, h3, h4, _⟩ := demo_rk4 0
  exact ⟨r, s, _, _, h1, h2, h3, h4, osc_evaluates 1 0⟩

/-- **C35 is violated.** For the oscillator `x'' = -x` started at `x = 1` at rest, one RK4 step of
length one ends at `x = 55/96`, but the classical update is `x = 52/96`. -/
theorem C35_not_classical : ∃ (r : Rk4 ℝ) (s : SysState ℝ) (q v : Conf 1), s.Reach ∧ RkReady r s ∧
    Moves s 1 q v ∧ Evaluates 1 0 (fun q _ => -q) osc ∧
    ∃ x' r' s', odeRun osc () (.rk4 r) s 1 = .ok (x', .rk4 r', s') ∧
      s'.rd .p_x 0 = .ok (55 / 96) ∧
      (classicalRK4 (firstOrder fun q _ => -q) 1 (q, v)).1 .x 0 = 52 / 96 := by
  obtain ⟨r, s, h1, h2, h3, h4, _⟩ := demo_rk4 0
  obtain ⟨x', r', s', e, _, _, hh, _⟩ := C35_update_partial _ osc (osc_evaluates 1 0) () r s h1.wf h2 _ _ h4 h3 1
  refine ⟨r, s, _, _, h1, h2, h4, osc_evaluates 1 0, x', r', s', e, ?_, ?_⟩
  · have := hh.pos .x 0
    simp only [Coord.p, Fin.val_zero, Nat.cast_zero] at this
    rw [this]
    congr 1
    simp only [codeRK4, Pi.add_apply, Pi.smul_apply, Pi.neg_apply, smul_eq_mul]
    norm_num
  · simp only [classicalRK4, firstOrder, Prod.fst_add, Prod.smul_fst, Prod.snd_add, Prod.smul_snd,
      Pi.add_apply, Pi.smul_apply, Pi.neg_apply, smul_eq_mul]
    norm_num

/-! ## C36 -/

/-- The evaluation `ev`, called for the `k`-th time, reports the reactions `ρ k`. -/
def Reports (n nc : Nat) (ρ : Nat → CFld → Nat → ℝ) (ev : Nat → SysState ℝ → Exec (Nat × SysState ℝ)) :
    Prop :=
  ∀ k s, s.Wf → s.n = n → s.nc = nc → ∃ e, ev k s = .ok (k + 1, e) ∧ EvOk s e ∧
    ∀ f (i : Nat), i < 2 * nc → e.rrd f i = .ok (ρ k f i)

/-- **C36 (partial).** For every history of reactions: after an RK4 step the first half of each
reaction array holds the reactions the state held *before* the step plus `h` times the
(1,2,2,1)/6 average of the reactions of the four stages, and the second half holds the reactions of
the last stage. Missing: the claim that all of it is the (1,2,2,1)/6 average, which is false
(`C36_not_average`). -/
theorem C36_reactions_partial {n nc : Nat} (ρ : Nat → CFld → Nat → ℝ)
    (ev : Nat → SysState ℝ → Exec (Nat × SysState ℝ)) (hev : Reports n nc ρ ev) (r : Rk4 ℝ)
    (s : SysState ℝ) (hr : s.Wf) (hrdy : RkReady r s) {g : Fld → Nat → ℝ} {r0 : CFld → Nat → ℝ}
    (hs : s.Shows n nc g r0) (hn : 0 < n) (h : ℝ) :
    ∃ r' s', odeRun ev 0 (.rk4 r) s h = .ok (4, .rk4 r', s') ∧
      (∀ f (i : Nat), i < nc → s'.rrd f i =
        .ok (r0 f i + h * ((ρ 0 f i + 2 * ρ 1 f i + 2 * ρ 2 f i + ρ 3 f i) / 6))) ∧
      (∀ f (i : Nat), nc ≤ i → i < 2 * nc → s'.rrd f i = .ok (ρ 3 f i)) := by
  have en := hs.bodies
  have ec := hs.rows
  obtain ⟨x', r', s', erun, ⟨T⟩, _⟩ := rk4_run hr hrdy.init hrdy.acc
    (fits_of hrdy.fitsI) (fits_of hrdy.fitsA) (fun k s1 w1 n1 c1 => by
      obtain ⟨e, he, hk, _⟩ := hev k s1 w1 (by omega) (by omega); exact ⟨_, e, he, hk⟩) 0 h
  have w0 : ({ s with dt := 0 } : SysState ℝ).Wf := fun hp => let o := hr hp; ⟨o.fld, o.rf, o.im⟩
  have got : ∀ (k : Nat) (s1 : SysState ℝ) (k' : Nat) (e : SysState ℝ), ev k s1 = .ok (k', e) → s1.Wf →
      s1.n = s.n → s1.nc = s.nc → k' = k + 1 ∧ e.n = s.n ∧ e.nc = s.nc ∧
        ∀ f i, i < 2 * nc → e.rval f i = ρ k f i := by
    intro k s1 k' e he w1 n1 c1
    obtain ⟨e', he', hk, hρ⟩ := hev k s1 w1 (by omega) (by omega)
    rw [he] at he'
    cases he'
    have a := hk.n
    have b := hk.nc
    refine ⟨rfl, by omega, by omega, fun f i hi => ?_⟩
    have h1 := hρ f i hi
    rw [(hk.wf.okc (i := i) (by omega)).rrd f (by omega)] at h1
    exact Except.ok.inj h1
  obtain ⟨k1, n1, c1, R1⟩ := got 0 _ _ _ T.ev1 w0 rfl rfl
  obtain ⟨k2, n2, c2, R2⟩ := got _ _ _ _ T.ev2 T.to2.2.1 (by rw [T.to2.1]; exact n1)
    (by rw [T.to2.1]; exact c1)
  obtain ⟨k3, n3, c3, R3⟩ := got _ _ _ _ T.ev3 T.to3.2.1 (by rw [T.to3.1]; exact n2)
    (by rw [T.to3.1]; exact c2)
  obtain ⟨k4, n4, c4, R4⟩ := got _ _ _ _ T.ev4 T.to4.2.1 (by rw [T.to4.1]; exact n3)
    (by rw [T.to4.1]; exact c3)
  have cs : s'.nc = s.nc := by rw [T.fin]; exact c4
  have e4 : x' = 4 := by omega
  rw [k1] at k2 R2
  rw [k2] at k3 R3
  rw [k3] at R4
  subst e4
  refine ⟨r', s', erun, fun f i hi => ?_, fun f i hi hi' => ?_⟩
  · rw [(T.wf.okc (i := i) (by omega)).rrd f (by omega), T.rvals (by omega), if_pos (by omega),
      R1 f i (by omega), R2 f i (by omega), R3 f i (by omega), R4 f i (by omega),
      hs.rval_eq hr f (by omega)]
    congr 1
    ring
  · rw [(T.wf.okc (i := i) (by omega)).rrd f (by omega), T.rvals (by omega), if_neg (by omega),
      R4 f i (by omega)]

/-- An evaluation that reports the reactions 1. -/
theorem const_reports (n nc : Nat) : Reports n nc (fun _ _ _ => 1)
    (evalBy (· + 1) (fun _ _ _ => 0) (fun _ _ _ => 1)) := by
  intro k s hw hn hc
  obtain ⟨e, he, we, ne, ce, hp, hρ⟩ := evalBy_ok (· + 1) (fun _ _ _ => 0) (fun (_ : Nat) _ _ => 1) k s hw
  refine ⟨e, he, ⟨we, ne, ce, fun c i hi => (hp c i hi).1, fun c i hi => (hp c i hi).2.1⟩,
    fun f i hi => ?_⟩
  rw [(we.okc (i := i) (by omega)).rrd f (by omega), hρ f i (by omega)]

/-- **C36 is violated.** If the reactions are 1 before the step and in every stage, their weighted
average is 1, but after a step of length one the state holds 2. -/
theorem C36_not_average : ∃ (ev : Nat → SysState ℝ → Exec (Nat × SysState ℝ)) (r : Rk4 ℝ)
    (s : SysState ℝ), Reports 1 1 (fun _ _ _ => 1) ev ∧ s.Reach ∧ RkReady r s ∧
    s.rrd .r_x 0 = .ok 1 ∧ ∃ r' s', odeRun ev 0 (.rk4 r) s 1 = .ok (4, .rk4 r', s') ∧
      s'.rrd .r_x 0 = .ok 2 := by
  obtain ⟨r, s, h1, h2, _, _, hs⟩ := demo_rk4 1
  obtain ⟨r', s', e, ha, _⟩ := C36_reactions_partial _ _ (const_reports 1 1) r s h1.wf h2 hs (by decide) 1
  refine ⟨_, r, s, const_reports 1 1, h1, h2, hs.rf .r_x 0 (by decide), r', s', e, ?_⟩
  have := ha .r_x 0 (by decide)
  simp only [Nat.cast_zero] at this
  rw [this]
  norm_num

/-- The hypotheses of C34: a new solver, one body, two consecutive steps. -/
example : ∃ (r : Rk4 ℝ) (s : SysState ℝ), (r.stage = .undefined ∧ r.nextStage = .undefined) ∧
    s.Reach ∧ ∃ z, odeRuns (counted osc) [1, 2] ((), 0) (.rk4 r) s = .ok z := by
  obtain ⟨s, hr, hs⟩ := reach_shows (α := ℝ) 1 0 (by simp) (fun _ _ => 1) (fun _ _ => 1)
  refine ⟨Rk4.new (fun _ _ => 0) (fun _ _ => 0) (fun _ _ => 0) (fun _ _ => 0), s, ⟨rfl, rfl⟩, hr, ?_⟩
  have hev : Evaluates 1 0 (fun q _ => -q) (counted osc) := by
    intro x s q v hw hc hh
    obtain ⟨x', e, he, hrest⟩ := osc_evaluates 1 0 x.1 s q v hw hc hh
    exact ⟨(x', x.2 + 1), e, by rw [counted, he]; rfl, hrest⟩
  obtain ⟨x', r', s', e, w', c', h', rdy'⟩ := C35_update_partial _ _ hev ((), 0)
    (Rk4.new (fun _ _ => 0) (fun _ _ => 0) (fun _ _ => 0) (fun _ _ => 0)) s hr.wf
    ⟨wf_mk0 _ _, wf_mk0 _ _, Or.inl ⟨rfl, rfl⟩, Or.inl ⟨rfl, rfl⟩⟩ (fun _ _ => 1) (fun _ _ => 1)
    ⟨hs.bodies, fun c i => hs.fld c.p i i.2, fun c i => hs.fld c.v i i.2⟩ hs.rows 1
  obtain ⟨x'', r'', s'', e', _⟩ := C35_update_partial _ _ hev x' r' s' w' rdy' _ _ h' c' 2
  exact ⟨_, by rw [odeRuns, e, ok_bind, odeRuns, e']; rfl⟩

end Scs
