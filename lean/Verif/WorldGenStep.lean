import Verif.WorldGen
import Verif.WorldProc
import Verif.OdeKeep

/-!
# Calls of `process` of the generic system

One evaluation, the sub-steps with the Euler and the semi-implicit solver, and the list of all
evaluations of a call with any solver.
-/

namespace Scs

open Finset

/-! ### The loop with a record of the evaluations -/

section
variable {α : Type} [Zero α] [Add α] [Mul α] [Sub α] [Neg α] [Fp α]

/-- `World.genLoop` with a list of the states before and after each evaluation. -/
def World.genLoopLog (w : World α) (env : Env α) (dt : α) (steps : Int) (s : SysState α)
    (mem : Store α) :
    Exec ((Ctx α × List (SysState α × SysState α)) × Option (Ode α) × SysState α) :=
  forN steps.toNat (fun _ q => do
    let o ← deref q.2.1
    let h ← Fp.div dt (Fp.lit steps)
    let z ← odeRun (logged (w.genEval env)) q.1 o q.2.2 h
    pure (z.1, some z.2.1, z.2.2)) ((⟨mem, 0, fun _ => 0⟩, []), w.ode, s)

theorem forN_map {σ τ : Type} {f : Nat → σ → Exec σ} {g : Nat → τ → Exec τ} {p : τ → σ}
    (h : ∀ i t, f i (p t) = (do let z ← g i t; pure (p z))) :
    ∀ (n : Nat) (t : τ), forN n f (p t) = (do let z ← forN n g t; pure (p z))
  | 0, t => rfl
  | n + 1, t => by
    rw [forN_succ, forN_succ, forN_map h n t]
    cases forN n g t with
    | error _ => rfl
    | ok z => exact h n z

theorem genLoopLog_eq (w : World α) (env : Env α) (dt : α) (steps : Int) (s : SysState α)
    (mem : Store α) : w.genLoop env dt steps s mem = (do
      let z ← w.genLoopLog env dt steps s mem
      pure (z.1.1, z.2)) := by
  rw [World.genLoop, World.genLoopLog]
  refine forN_map (p := fun (z : (Ctx α × List (SysState α × SysState α)) × Option (Ode α) ×
    SysState α) => (z.1.1, z.2)) (fun i t => ?_) _ ((⟨mem, 0, fun _ => 0⟩, []), w.ode, s)
  cases h1 : deref t.2.1 with
  | error _ => rfl
  | ok o =>
    simp only [ok_bind]
    cases h2 : Fp.div dt (Fp.lit steps : α) with
    | error _ => rfl
    | ok h =>
      simp only [ok_bind]
      rw [logged_run]
      cases odeRun (logged (w.genEval env)) t.1 o t.2.2 h with
      | error _ => rfl
      | ok z => rfl

end

section
variable {w : World ℝ} {B : Nat → Nat → Nat}

/-! ### One evaluation -/

/-- One evaluation from `s` to `s'`: `s1` is `s` with the external forces, `out` the results of the
constraints in `s1`, `lam` the multipliers. -/
structure World.GenEv (w : World ℝ) (B : Nat → Nat → Nat) (s s1 s' : SysState ℝ)
    (out : Nat → Output ℝ) (lam : Nat → ℝ) : Prop where
  forces : w.processForces s = .ok s1
  writes : ForceWrites s s1
  eff : w.GenEff B s1 s' out lam

theorem mass_not_acc : ¬ Fld.m.IsAcc := by rintro ⟨c, h⟩; cases c <;> cases h

theorem mass_not_force : ¬ Fld.m.IsForce := by rintro (h | h | h) <;> cases h

namespace World.GenEv
variable {s s1 s' : SysState ℝ} {out : Nat → Output ℝ} {lam : Nat → ℝ} (e : w.GenEv B s s1 s' out lam)
include e

theorem keep {f : Fld} (h1 : ¬ f.IsAcc) (h2 : ¬ f.IsForce) (i : Nat) : s'.val f i = s.val f i := by
  rw [e.eff.keep _ _ h1, e.writes.keep h2]

theorem like {s0 : SysState ℝ} (h : s0.Like s) : s0.Like s' :=
  ⟨e.eff.wf, by rw [e.eff.n, e.writes.n, h.n], by rw [e.eff.nc, e.writes.nc, h.nc],
    fun i => by rw [e.keep mass_not_acc mass_not_force, h.mass]⟩

end World.GenEv

/-- Conditions under which an evaluation in a state with property `P` succeeds. -/
structure World.GenGood (w : World ℝ) (B : Nat → Nat → Nat) (P : SysState ℝ → Prop) (lam : Mat ℝ) :
    Prop where
  forces : ∀ s, P s → ∃ s1, w.processForces s = .ok s1
  calc_ : ∀ s s1, P s → w.processForces s = .ok s1 → ∀ c ∈ w.cs, ∀ o, ∃ out,
    (w.cons c).kind.calculate ((w.cons c).idx w.bodies) o s1 = .ok out
  solver : ∃ sv, w.sle = some sv ∧ (w.fullCount = 0 → sv.Easy0 lam) ∧
    ∀ s s1 out, P s → w.processForces s = .ok s1 → w.Calc s1 out →
      0 < w.fullCount → sv.EasyU w.fullCount (w.sysM B out)

theorem World.GenGood.next {P : SysState ℝ → Prop} {l l' : Mat ℝ} (g : w.GenGood B P l)
    (k : ∀ sv, w.sle = some sv → w.fullCount = 0 → sv.Easy0 l → sv.Easy0 l') : w.GenGood B P l' where
  forces := g.forces
  calc_ := g.calc_
  solver := by
    obtain ⟨sv, e, e0, e1⟩ := g.solver
    exact ⟨sv, e, fun h0 => k sv e h0 (e0 h0), e1⟩

theorem genEval_wp (hfit : w.Fit B) (hid : w.NoIdle) (hg : ∀ g ∈ w.fg, (w.gens g).OnlyForces)
    {env : Env ℝ} {x : Ctx ℝ} {s : SysState ℝ} (hm : w.Mid x.mem) (hs : s.Wf)
    (hn : w.bodyCount ≤ s.n) (hc : w.fullCount ≤ s.nc) {P : SysState ℝ → Prop} {E : Err → Prop}
    (hE : (∀ e, E e) ∨ (w.GenGood B P (x.mem.mat .ivLambda) ∧ P s)) :
    Wp (w.genEval env x s) (fun z => w.Mid z.1.mem ∧
      (∀ sv, w.sle = some sv →
        sv.Kept w.fullCount (x.mem.mat .ivLambda) (z.1.mem.mat .ivLambda)) ∧
      ∃ s1 out lam, w.GenEv B s s1 z.2 out lam) E := by
  rw [World.genEval, wp_bind]
  have hfw := processForces_wp hg s
  cases ef : w.processForces s with
  | error e =>
    rcases hE with hE | ⟨hg, hP⟩
    · exact hE e
    · obtain ⟨s1, e1⟩ := hg.forces s hP
      rw [e1] at ef
      cases ef
  | ok s1 =>
    rw [ef] at hfw
    have hfw : ForceWrites s s1 := hfw
    rw [wp_ok, wp_bind]
    refine (genConstraints_wp (B := B) hfit hid hm.inv hm.mass hm.lam (hfw.wf hs)
      (by rw [hfw.n]; exact hn) (by rw [hfw.nc]; exact hc) (E := E) ?_ ?_ ?_).mono ?_ (fun _ q => q)
    · intro c hcm o
      rcases hE with hE | ⟨hg, hP⟩
      · exact (Wp.mono (wp_anyErr_iff.mpr fun _ _ => trivial) (fun _ q => q) (fun e _ => hE e))
      · obtain ⟨out, e⟩ := hg.calc_ s s1 hP ef c hcm o
        rw [e]; trivial
    · intro h0
      rcases hE with hE | ⟨hg, _⟩
      · exact hE _
      · obtain ⟨sv, e, _⟩ := hg.solver
        rw [e] at h0; cases h0
    · intro sv hsv out hout
      rcases hE with hE | ⟨hg, hP⟩
      · exact Or.inr hE
      · obtain ⟨sv', e, e0, e1⟩ := hg.solver
        rw [hsv] at e
        cases e
        exact Or.inl ⟨e1 s s1 out hP ef hout, e0⟩
    · rintro q ⟨qi, qm, ql, qz, out, lam, qe⟩
      rw [wp_pure]
      exact ⟨⟨qi, qm, ql⟩, qz, s1, out, lam, ef, hfw, qe⟩

/-! ### All evaluations of a call -/

/-- The evaluations in the list are evaluations of the system in states with the sizes and masses of
`s0`. -/
def World.AllEv (w : World ℝ) (B : Nat → Nat → Nat) (s0 : SysState ℝ)
    (L : List (SysState ℝ × SysState ℝ)) : Prop :=
  ∀ z ∈ L, s0.Like z.1 ∧ ∃ s1 out lam, w.GenEv B z.1 s1 z.2 out lam

theorem genRun_all (hfit : w.Fit B) (hid : w.NoIdle) (hg : ∀ g ∈ w.fg, (w.gens g).OnlyForces)
    {env : Env ℝ} {x : Ctx ℝ × List (SysState ℝ × SysState ℝ)} {o : Ode ℝ} {s0 s : SysState ℝ}
    (hm : w.Mid x.1.mem) (hL : w.AllEv B s0 x.2) (hs : s0.Like s) (hn : w.bodyCount ≤ s0.n)
    (hc : w.fullCount ≤ s0.nc) (h : ℝ) :
    Wp (odeRun (logged (w.genEval env)) x o s h) (fun z => (w.Mid z.1.1.mem ∧ w.AllEv B s0 z.1.2) ∧
      s0.Like z.2.2) anyErr := by
  refine (like_loose s0).run (X := fun (x : Ctx ℝ × List (SysState ℝ × SysState ℝ)) =>
    w.Mid x.1.mem ∧ w.AllEv B s0 x.2) ?_ ⟨hm, hL⟩ hs h
  rintro x s ⟨hm, hL⟩ hs
  rw [logged]
  refine ib (genEval_wp (B := B) hfit hid hg hm hs.wf (by rw [hs.n]; exact hn)
    (by rw [hs.nc]; exact hc) (P := fun _ => True) (E := anyErr) (Or.inl fun _ => trivial)) ?_
  rintro e ⟨e1, _, s1, out, lam, e2⟩
  rw [wp_pure]
  refine ⟨⟨e1, fun z hz => ?_⟩, e2.like hs⟩
  rcases List.mem_append.mp hz with hz | hz
  · exact hL z hz
  · cases List.mem_singleton.mp hz
    exact ⟨hs, s1, out, lam, e2⟩

theorem genLoop_all (hfit : w.Fit B) (hid : w.NoIdle) (hg : ∀ g ∈ w.fg, (w.gens g).OnlyForces)
    {env : Env ℝ} {dt : ℝ} {steps : Int} {mem : Store ℝ} {s : SysState ℝ} (hm : w.Mid mem)
    (hs : s.Wf) (hn : w.bodyCount ≤ s.n) (hc : w.fullCount ≤ s.nc) :
    Wp (w.genLoopLog env dt steps s mem) (fun q => w.Mid q.1.1.mem ∧ w.AllEv B s q.1.2 ∧
      s.Like q.2.2) anyErr := by
  rw [World.genLoopLog]
  refine ifor (R := fun (q : (Ctx ℝ × List (SysState ℝ × SysState ℝ)) × Option (Ode ℝ) ×
      SysState ℝ) => w.Mid q.1.1.mem ∧ w.AllEv B s q.1.2 ∧ s.Like q.2.2)
    ⟨hm, fun z hz => absurd hz List.not_mem_nil, hs, rfl, rfl, fun _ => rfl⟩ ?_
  rintro i q ⟨q1, q2, q3⟩
  refine wp_anyOf fun o => wp_anyOf fun h => ?_
  refine ib (genRun_all (o := o) hfit hid hg q1 q2 q3 hn hc h) fun z hz => ?_
  exact ⟨hz.1.1, hz.1.2, hz.2⟩

/-- The number of evaluations of a call. -/
theorem genLoop_length (env : Env ℝ) (dt : ℝ) (steps : Int) (s : SysState ℝ) (mem : Store ℝ) :
    Wp (w.genLoopLog env dt steps s mem) (fun q => q.1.2.length = evalCount steps w.ode) anyErr := by
  rw [World.genLoopLog]
  cases ho : w.ode with
  | none =>
    cases h : steps.toNat with
    | zero => rfl
    | succ k =>
      rw [forN_first_error (e := .null) rfl]
      exact trivial
  | some o =>
    refine wp_forN' (fun i (q : (Ctx ℝ × List (SysState ℝ × SysState ℝ)) × Option (Ode ℝ) ×
      SysState ℝ) => q.1.2.length = i * o.stages ∧ ∃ o', q.2.1 = some o' ∧ o'.sort = o.sort)
      ⟨by simp, o, rfl, rfl⟩ ?_ (fun q hq => hq.1)
    rintro i _ q ⟨h1, o', ho', hs⟩
    rw [ho', deref, ok_bind]
    refine wp_anyOf fun h => ?_
    rw [wp_bind]
    refine (odeRun_wp (A := fun n (x y : Ctx ℝ × List (SysState ℝ × SysState ℝ)) =>
      y.2.length = x.2.length + n) (fun n m x y z h1 h2 => by omega) (fun x s => ?_)
      q.1 o' q.2.2 h).imp fun z hz => ⟨?_, z.2.1, rfl, hz.2.trans hs⟩
    · rw [logged]
      refine wp_anyOf fun e => ?_
      rw [wp_pure]
      simp
    · have := hz.1
      rw [sort_stages hs] at this
      rw [this, h1]
      ring

/-! ### Sub-steps of the Euler and the semi-implicit solver -/

/-- One sub-step of length `h` with `EulerOdeSolver` (`sym = False`) or `NsvOdeSolver`
(`sym = True`); `s2` is the state after the evaluation. -/
structure World.GStep (w : World ℝ) (B : Nat → Nat → Nat) (sym : Bool) (h : ℝ)
    (s s1 s2 s' : SysState ℝ) (out : Nat → Output ℝ) (lam : Nat → ℝ) : Prop where
  ev : w.GenEv B { s with dt := h } s1 s2 out lam
  react : ∀ f i, s'.rval f i = s2.rval f i
  vel : ∀ (q : Coord) i, i < w.bodyCount → s'.val q.v i = s.val q.v i + h * s2.val q.a i
  pos : ∀ (q : Coord) i, i < w.bodyCount → s'.val q.p i = s.val q.p i +
    h * (if sym then s'.val q.v i else s.val q.v i)
  acc : ∀ (q : Coord) i, s'.val q.a i = s2.val q.a i
  like : s.Like s'

/-- The solver of a sub-step. -/
def Ode.isSym (o : Ode ℝ) : Bool → Prop
  | false => o.sort = 1
  | true => o.sort = 2

theorem like_dt {s : SysState ℝ} (hs : s.Wf) (h : ℝ) : s.Like { s with dt := h } :=
  ⟨wf_setDt hs h, rfl, rfl, fun _ => rfl⟩

theorem gstep_of {h : ℝ} {s s1 s2 : SysState ℝ} {out : Nat → Output ℝ} {lam : Nat → ℝ} (hs : s.Wf)
    (hn : w.bodyCount ≤ s.n) (he : w.GenEv B { s with dt := h } s1 s2 out lam) :
    (∃ s', (Ode.euler h).solve s2 = .ok (.euler h, s') ∧ w.GStep B false h s s1 s2 s' out lam) ∧
    ∃ s', (Ode.nsv h).solve s2 = .ok (.nsv h, s') ∧ w.GStep B true h s s1 s2 s' out lam := by
  have l2 : s.Like s2 := he.like (like_dt hs h)
  have v2 : ∀ (q : Coord) i, s2.val q.v i = s.val q.v i := fun q i => by
    rw [he.keep (vel_not_acc q) (vel_not_force q)]; rfl
  have p2 : ∀ (q : Coord) i, s2.val q.p i = s.val q.p i := fun q i => by
    rw [he.keep (pos_not_acc q) (pos_not_force q)]; rfl
  have n2 := l2.n
  constructor
  · obtain ⟨s', e, he1, he2, he3⟩ := euler_solve l2.wf h
    have hv : ∀ (q : Coord) i, i < w.bodyCount → s'.val q.v i = s.val q.v i + h * s2.val q.a i := by
      intro q i hi
      rw [he3 q.v i, if_pos (by beta_reduce; omega)]
      beta_reduce
      rw [motion_v]
      show s2.val q.v i + s2.val q.a i * h = _
      rw [v2, mul_comm]
    refine ⟨s', e, he, fun f i => by rw [he1]; rfl, hv, ?_, ?_,
      ⟨he2, by rw [he1]; exact l2.n, by rw [he1]; exact l2.nc, ?_⟩⟩
    · intro q i hi
      rw [he3 q.p i, if_pos (by beta_reduce; omega)]
      beta_reduce
      rw [motion_p]
      show s2.val q.p i + s2.val q.v i * h = _
      rw [v2, p2, if_neg (by decide), mul_comm]
    · intro q i
      rw [he3 q.a i]
      split
      · beta_reduce; rw [motion_a]; rfl
      · rfl
    · intro i
      rw [← l2.mass, he3 .m i]
      split <;> rfl
  · obtain ⟨s', e, he1, he2, he3⟩ := nsv_solve l2.wf h
    have hv : ∀ (q : Coord) i, i < w.bodyCount → s'.val q.v i = s.val q.v i + h * s2.val q.a i := by
      intro q i hi
      rw [he3 q.v i, if_pos (by beta_reduce; omega)]
      beta_reduce
      rw [motion_v]
      show s2.val q.v i + s2.val q.a i * h = _
      rw [v2, mul_comm]
    refine ⟨s', e, he, fun f i => by rw [he1]; rfl, hv, ?_, ?_,
      ⟨he2, by rw [he1]; exact l2.n, by rw [he1]; exact l2.nc, ?_⟩⟩
    · intro q i hi
      rw [if_pos rfl, hv q i hi, he3 q.p i, if_pos (by beta_reduce; omega)]
      beta_reduce
      rw [motion_p]
      show s2.val q.p i + (s2.val q.v i + s2.val q.a i * h) * h = _
      rw [v2, p2]
      ring
    · intro q i
      rw [he3 q.a i]
      split
      · beta_reduce; rw [motion_a]; rfl
      · rfl
    · intro i
      rw [← l2.mass, he3 .m i]
      split <;> rfl

theorem sort_euler {α : Type} {o : Ode α} (h : o.sort = 1) : ∃ d, o = .euler d := by
  cases o <;> first | exact ⟨_, rfl⟩ | simp [Ode.sort] at h

/-- One sub-step. -/
theorem gsubstep_wp (hfit : w.Fit B) (hid : w.NoIdle) (hg : ∀ g ∈ w.fg, (w.gens g).OnlyForces)
    {env : Env ℝ} {h : ℝ} {x : Ctx ℝ × List (SysState ℝ × SysState ℝ)} {sym : Bool} {o : Ode ℝ}
    (ho : o.isSym sym) {s : SysState ℝ} (hm : w.Mid x.1.mem) (hs : s.Wf) (hn : w.bodyCount ≤ s.n)
    (hc : w.fullCount ≤ s.nc) {P : SysState ℝ → Prop} {E : Err → Prop}
    (hE : (∀ e, E e) ∨ (w.GenGood B P (x.1.mem.mat .ivLambda) ∧ P { s with dt := h })) :
    Wp (odeRun (logged (w.genEval env)) x o s h) (fun z => w.Mid z.1.1.mem ∧ z.2.1.isSym sym ∧
      (∀ sv, w.sle = some sv →
        sv.Kept w.fullCount (x.1.mem.mat .ivLambda) (z.1.1.mem.mat .ivLambda)) ∧
      ∃ s1 s2 out lam, z.1.2 = x.2 ++ [({ s with dt := h }, s2)] ∧
        w.GStep B sym h s s1 s2 z.2.2 out lam) E := by
  have ev := genEval_wp (B := B) hfit hid hg (env := env) (x := x.1) (s := { s with dt := h }) hm
    (wf_setDt hs h) hn hc hE
  cases sym with
  | false =>
    obtain ⟨d, rfl⟩ := sort_euler ho
    rw [C32_euler_run, wp_bind, logged, wp_bind]
    refine ev.mono ?_ fun _ h => h
    rintro e ⟨e1, e2, s1, out, lam, e3⟩
    rw [wp_pure]
    obtain ⟨⟨s', es, st⟩, _⟩ := gstep_of hs hn e3
    simp only []
    rw [es, ok_bind, wp_pure]
    exact ⟨e1, rfl, e2, s1, e.2, out, lam, rfl, st⟩
  | true =>
    obtain ⟨d, rfl⟩ := sort_nsv ho
    rw [C33_nsv_run, wp_bind, logged, wp_bind]
    refine ev.mono ?_ fun _ h => h
    rintro e ⟨e1, e2, s1, out, lam, e3⟩
    rw [wp_pure]
    obtain ⟨_, s', es, st⟩ := gstep_of hs hn e3
    simp only []
    rw [es, ok_bind, wp_pure]
    exact ⟨e1, rfl, e2, s1, e.2, out, lam, rfl, st⟩

/-- Conditions under which `n` sub-steps succeed: the state before sub-step `j` has the property
`P j`. -/
structure World.GenGoodRun (w : World ℝ) (B : Nat → Nat → Nat) (sym : Bool) (h : ℝ) (n : Nat)
    (P : Nat → SysState ℝ → Prop) (lam : Mat ℝ) : Prop where
  good : ∀ j, j < n → w.GenGood B (fun s => ∃ s0, P j s0 ∧ s = { s0 with dt := h }) lam
  keep : ∀ j, j < n → ∀ s s1 s2 s' out lam, P j s → w.GStep B sym h s s1 s2 s' out lam → P (j + 1) s'

theorem World.GenGoodRun.next {sym : Bool} {h : ℝ} {n : Nat} {P : Nat → SysState ℝ → Prop}
    {l l' : Mat ℝ} (g : w.GenGoodRun B sym h n P l)
    (k : ∀ sv, w.sle = some sv → w.fullCount = 0 → sv.Easy0 l → sv.Easy0 l') :
    w.GenGoodRun B sym h n P l' := ⟨fun j hj => (g.good j hj).next k, g.keep⟩

/-- A sequence of `k` sub-steps of length `h`; `T j` is the state after the evaluation of sub-step
`j`. -/
def World.GTrace (w : World ℝ) (B : Nat → Nat → Nat) (sym : Bool) (h : ℝ) (k : Nat)
    (S T : Nat → SysState ℝ) : Prop :=
  ∀ j, j < k → ∃ s1 out lam, w.GStep B sym h (S j) s1 (T j) (S (j + 1)) out lam

theorem World.GTrace.snoc {sym : Bool} {h : ℝ} {k : Nat} {S T : Nat → SysState ℝ}
    (t : w.GTrace B sym h k S T) {s1 s2 s' : SysState ℝ} {out : Nat → Output ℝ} {lam : Nat → ℝ}
    (st : w.GStep B sym h (S k) s1 s2 s' out lam) :
    w.GTrace B sym h (k + 1) (fun j => if j ≤ k then S j else s')
      (fun j => if j < k then T j else s2) := by
  intro j hj
  rcases Nat.lt_or_eq_of_le (Nat.lt_succ_iff.mp hj) with hj | rfl
  · obtain ⟨s1, out, lam, e⟩ := t j hj
    refine ⟨s1, out, lam, ?_⟩
    simp only [if_pos (Nat.le_of_lt hj), if_pos (Nat.succ_le_of_lt hj), if_pos hj]
    exact e
  · refine ⟨s1, out, lam, ?_⟩
    simp only [if_pos (Nat.le_refl _), if_neg (Nat.not_succ_le_self _), if_neg (Nat.lt_irrefl _)]
    exact st

/-- The recorded evaluations of a sequence of sub-steps. -/
def gEvals (h : ℝ) (k : Nat) (S T : Nat → SysState ℝ) : List (SysState ℝ × SysState ℝ) :=
  (List.range k).map fun j => ({ S j with dt := h }, T j)

theorem gEvals_snoc {h : ℝ} {k : Nat} {S T : Nat → SysState ℝ} (s2 s' : SysState ℝ) :
    gEvals h (k + 1) (fun j => if j ≤ k then S j else s') (fun j => if j < k then T j else s2) =
      gEvals h k S T ++ [({ S k with dt := h }, s2)] := by
  rw [gEvals, gEvals, List.range_succ, List.map_append]
  congr 1
  · refine List.map_congr_left fun j hj => ?_
    have := List.mem_range.mp hj
    rw [if_pos (Nat.le_of_lt this), if_pos this]
  · simp

theorem genLoop_trace (hfit : w.Fit B) (hid : w.NoIdle) (hg : ∀ g ∈ w.fg, (w.gens g).OnlyForces)
    {env : Env ℝ} {dt : ℝ} {steps : Int} {mem : Store ℝ} {s : SysState ℝ} {sym : Bool} {o : Ode ℝ}
    (hode : w.ode = some o) (ho : o.isSym sym) (hm : w.Mid mem) (hs : s.Wf)
    (hn : w.bodyCount ≤ s.n) (hc : w.fullCount ≤ s.nc)
    {P : Nat → SysState ℝ → Prop} {E : Err → Prop}
    (hE : (∀ e, E e) ∨
      (w.GenGoodRun B sym (dt / steps) steps.toNat P (mem.mat .ivLambda) ∧ P 0 s)) :
    Wp (w.genLoopLog env dt steps s mem) (fun q => w.Mid q.1.1.mem ∧
      (∃ o', q.2.1 = some o' ∧ o'.isSym sym) ∧
      ∃ S T : Nat → SysState ℝ, S 0 = s ∧ S steps.toNat = q.2.2 ∧
        w.GTrace B sym (dt / steps) steps.toNat S T ∧
        q.1.2 = gEvals (dt / steps) steps.toNat S T) E := by
  rw [World.genLoopLog, hode]
  refine wp_forN' (fun k (q : (Ctx ℝ × List (SysState ℝ × SysState ℝ)) × Option (Ode ℝ) ×
      SysState ℝ) => w.Mid q.1.1.mem ∧ (∃ o', q.2.1 = some o' ∧ o'.isSym sym) ∧ s.Like q.2.2 ∧
      ((∀ e, E e) ∨ (w.GenGoodRun B sym (dt / steps) steps.toNat P (q.1.1.mem.mat .ivLambda) ∧
        P k q.2.2)) ∧
      ∃ S T : Nat → SysState ℝ, S 0 = s ∧ S k = q.2.2 ∧ w.GTrace B sym (dt / steps) k S T ∧
        q.1.2 = gEvals (dt / steps) k S T)
    ⟨hm, ⟨o, rfl, ho⟩, ⟨hs, rfl, rfl, fun _ => rfl⟩, hE, fun _ => s, fun _ => s, rfl, rfl,
      fun j hj => absurd hj (by omega), rfl⟩ ?_ ?_
  · rintro k hk q ⟨qm, ⟨o', qo, qs⟩, ql, qE, S, T, S0, Sk, St, SL⟩
    have h0 : ((steps : Int) : ℝ) ≠ 0 := by
      have : 0 < steps := by omega
      exact_mod_cast this.ne'
    have hl : (Fp.lit (steps : Rat) : ℝ) = (steps : ℝ) := by simp [fp_lit]
    rw [qo, deref, ok_bind, hl, fp_div h0, ok_bind, wp_bind]
    refine (gsubstep_wp (env := env) hfit hid hg qs (x := q.1) qm ql.wf (by rw [ql.n]; exact hn)
      (by rw [ql.nc]; exact hc)
      (qE.imp_right fun g => ⟨g.1.good k hk, _, g.2, rfl⟩)).mono ?_ (fun _ z => z)
    rintro z ⟨z1, z2, z3, s1, s2, out, lam, zL, zs⟩
    rw [wp_pure]
    refine ⟨z1, ⟨_, rfl, z2⟩, ⟨zs.like.wf, by rw [zs.like.n, ql.n], by rw [zs.like.nc, ql.nc],
      fun i => by rw [zs.like.mass, ql.mass]⟩, ?_, ?_⟩
    · rcases qE with qE | ⟨qg, qP⟩
      · exact Or.inl qE
      · exact Or.inr ⟨qg.next fun sv e => (z3 sv e).easy, qg.keep k hk _ _ _ _ _ _ qP zs⟩
    · rw [← Sk] at zs zL
      refine ⟨_, _, by simp [S0], by simp, St.snoc zs, ?_⟩
      rw [gEvals_snoc, ← SL]
      exact zL
  · rintro q ⟨qm, qo, _, _, S, T, S0, Sk, St, SL⟩
    exact ⟨qm, qo, S, T, S0, Sk, St, SL⟩

end

end Scs
