import Mathlib.Algebra.BigOperators.Group.Finset.Basic
import Mathlib.Tactic.Ring
import Verif.WorldHist
import Verif.OdeProps
import Verif.ForceLemmas

/-!
# What `process` leaves alone, and what it counts
-/

namespace Scs

section
variable {α : Type}

/-- `process` changed at most positions, angles and velocities of registered bodies and the
reported forces of registered constraints. -/
structure World.Moves (w w' : World α) : Prop where
  rb : w'.rb = w.rb
  cs : w'.cs = w.cs
  fg : w'.fg = w.fg
  gens : w'.gens = w.gens
  genIndex : w'.genIndex = w.genIndex
  sle : w'.sle = w.sle
  bias : w'.bias = w.bias
  mass : ∀ b, (w'.bodies b).m = (w.bodies b).m
  inertia : ∀ b, (w'.bodies b).I = (w.bodies b).I
  index : ∀ b, (w'.bodies b).index = (w.bodies b).index
  other : ∀ b, b ∉ w.rb → w'.bodies b = w.bodies b
  kind : ∀ c, (w'.cons c).kind = (w.cons c).kind
  conIndex : ∀ c, (w'.cons c).index = (w.cons c).index
  bodyCount : ∀ c, (w'.cons c).bodyCount = (w.cons c).bodyCount
  conBodies : ∀ c, (w'.cons c).bodies = (w.cons c).bodies
  rows : ∀ c, (w'.cons c).rows = (w.cons c).rows
  otherCon : ∀ c, c ∉ w.cs → w'.cons c = w.cons c

theorem World.Moves.refl (w : World α) : w.Moves w := by
  constructor <;> intros <;> rfl

theorem World.Moves.trans {a b c : World α} (h : a.Moves b) (h' : b.Moves c) : a.Moves c where
  rb := h'.rb.trans h.rb
  cs := h'.cs.trans h.cs
  fg := h'.fg.trans h.fg
  gens := h'.gens.trans h.gens
  genIndex := h'.genIndex.trans h.genIndex
  sle := h'.sle.trans h.sle
  bias := h'.bias.trans h.bias
  mass := fun x => (h'.mass x).trans (h.mass x)
  inertia := fun x => (h'.inertia x).trans (h.inertia x)
  index := fun x => (h'.index x).trans (h.index x)
  other := fun x hx => (h'.other x (h.rb ▸ hx)).trans (h.other x hx)
  kind := fun x => (h'.kind x).trans (h.kind x)
  conIndex := fun x => (h'.conIndex x).trans (h.conIndex x)
  bodyCount := fun x => (h'.bodyCount x).trans (h.bodyCount x)
  conBodies := fun x => (h'.conBodies x).trans (h.conBodies x)
  rows := fun x => (h'.rows x).trans (h.rows x)
  otherCon := fun x hx => (h'.otherCon x (h.cs ▸ hx)).trans (h.otherCon x hx)

theorem vecAt_mem {l : List Nat} {i : Int} {x : Nat} (h : vecAt l i = .ok x) :
    0 ≤ i ∧ l[i.toNat]? = some x ∧ x ∈ l := by
  rw [vecAt] at h
  split at h
  · rename_i h0
    split at h
    · rename_i y hy
      cases h
      exact ⟨h0, hy, List.mem_of_getElem? hy⟩
    · cases h
  · cases h

theorem vecAt_ok {l : List Nat} {i : Nat} (h : i < l.length) : vecAt l (i : Int) = .ok l[i] := by
  rw [vecAt, if_pos (Int.natCast_nonneg i)]
  simp [h]

end

section
variable {α : Type} [Zero α] [Add α] [Mul α] [Sub α] [Neg α] [Fp α]

/-- Nothing but the bodies changes. -/
theorem storeBody_wp (s : SysState α) (i : Nat) (w : World α) :
    Wp (World.storeBody s i w) (fun w' => w' = { w with bodies := w'.bodies } ∧ w.Moves w')
      anyErr := by
  rw [wp_anyErr_iff]
  intro w' e
  rw [World.storeBody] at e
  cases h : vecAt w.rb i with
  | error e' => rw [h] at e; cases e
  | ok id =>
    have hm := (vecAt_mem h).2.2
    rw [h] at e
    revert e
    rw [ok_bind]
    generalize s.rd .v_x i = a1
    generalize s.rd .v_y i = a2
    generalize s.rd .p_x i = a3
    generalize s.rd .p_y i = a4
    generalize s.rd .v_theta i = a5
    generalize s.rd .theta i = a6
    intro e
    cases a1 <;> [cases e; skip]
    cases a2 <;> [cases e; skip]
    cases a3 <;> [cases e; skip]
    cases a4 <;> [cases e; skip]
    cases a5 <;> [cases e; skip]
    cases a6 <;> [cases e; skip]
    cases e
    have key : ∀ (b : Nat) (x : Body α), (b = id → x.m = (w.bodies id).m ∧ x.I = (w.bodies id).I ∧
        x.index = (w.bodies id).index) → (upd w.bodies id x b).m = (w.bodies b).m ∧
        (upd w.bodies id x b).I = (w.bodies b).I ∧
        (upd w.bodies id x b).index = (w.bodies b).index := by
      intro b x hx
      by_cases hb : b = id
      · subst hb; rw [upd_same]; exact hx rfl
      · rw [upd_other _ _ hb]; exact ⟨rfl, rfl, rfl⟩
    refine ⟨rfl, ?_⟩
    constructor <;> intros <;> try rfl
    · refine (key _ _ fun _ => ?_).1; exact ⟨rfl, rfl, rfl⟩
    · refine (key _ _ fun _ => ?_).2.1; exact ⟨rfl, rfl, rfl⟩
    · refine (key _ _ fun _ => ?_).2.2; exact ⟨rfl, rfl, rfl⟩
    · rename_i b hb
      exact upd_other _ _ (fun h => hb (h ▸ hm))

theorem storeBodies_wp (s : SysState α) (n : Nat) (w : World α) :
    Wp (forN n (World.storeBody s) w) (fun w' => w' = { w with bodies := w'.bodies } ∧ w.Moves w')
      anyErr := by
  refine wp_forN (fun _ w' => w' = { w with bodies := w'.bodies } ∧ w.Moves w')
    ⟨rfl, World.Moves.refl w⟩ fun i _ w1 h1 => ?_
  refine (storeBody_wp s i w1).imp fun w2 h2 => ⟨?_, h1.2.trans h2.2⟩
  rw [h2.1, h1.1]

/-- Only the reported forces differ. -/
def Con.SameBut (c c' : Con α) : Prop := c' = { c with F_x := c'.F_x, F_y := c'.F_y, F_t := c'.F_t }

theorem Con.SameBut.trans {a b c : Con α} (h : a.SameBut b) (h' : b.SameBut c) : a.SameBut c := by
  rw [Con.SameBut] at *
  rw [h', h]

theorem storeForce_wp (s : SysState α) (pos j k : Nat) (c : Con α) :
    Wp (storeForce s pos j k c) (fun c' => c.SameBut c') anyErr := by
  rw [storeForce]
  refine wp_anyOf fun x => wp_anyOf fun fx => ?_
  refine wp_anyOf fun y => wp_anyOf fun fy => ?_
  refine wp_anyOf fun z => wp_anyOf fun ft => ?_
  rfl

theorem storeCon_wp (s : SysState α) (pos : Nat → Nat → Nat) (c : Con α) (jf : Nat) :
    Wp (storeCon s pos c jf) (fun q => c.SameBut q.1 ∧ q.2 = jf + c.rows) anyErr := by
  refine wp_forN' (fun i q => c.SameBut q.1 ∧ q.2 = jf + i) ⟨rfl, rfl⟩ (fun i _ q hq => ?_)
    fun _ h => h
  rw [wp_bind]
  refine (wp_forN' (Q := fun c' => c.SameBut c') (fun _ c' => c.SameBut c') hq.1
    (fun k _ c1 h1 => (storeForce_wp _ _ _ _ _).imp fun c2 h2 => h1.trans h2) fun _ h => h).imp
    fun c' h' => ⟨h', ?_⟩
  show q.2 + 1 = _
  rw [hq.2]; rfl

theorem storeForces_wp (s : SysState α) (pos : Nat → Nat → Nat) (w : World α) :
    Wp (w.storeForces s pos) (fun q => q.1 = { w with cons := q.1.cons } ∧ w.Moves q.1)
      anyErr := by
  refine wp_forN (fun _ (q : World α × Nat) => q.1 = { w with cons := q.1.cons } ∧ w.Moves q.1)
    ⟨rfl, World.Moves.refl w⟩ fun i _ q h1 => ?_
  rw [wp_bind, wp_anyErr_iff]
  intro id hid
  rw [wp_bind]
  refine (storeCon_wp _ _ _ _).imp fun z hz => ?_
  rw [wp_pure]
  refine ⟨by rw [h1.1], h1.2.trans ?_⟩
  have hm := (vecAt_mem hid).2.2
  have key : ∀ c, (q.1.cons c).SameBut (upd q.1.cons id z.1 c) := by
    intro c
    by_cases hc : c = id
    · subst hc; rw [upd_same]; exact hz.1
    · rw [upd_other _ _ hc]; rfl
  constructor <;> intros <;> try rfl
  · have h := key ‹_›; rw [Con.SameBut] at h; replace h := congrArg Con.kind h; exact h
  · have h := key ‹_›; rw [Con.SameBut] at h; replace h := congrArg Con.index h; exact h
  · have h := key ‹_›; rw [Con.SameBut] at h; replace h := congrArg Con.bodyCount h; exact h
  · have h := key ‹_›; rw [Con.SameBut] at h; replace h := congrArg Con.bodies h; exact h
  · have h := key ‹_›; rw [Con.SameBut] at h; replace h := congrArg Con.rows h; exact h
  · rename_i c hc
    exact upd_other _ _ fun h => hc (h ▸ hm)

/-! ## Counting evaluations -/

/-- `n` evaluations later. -/
structure Ctx.Adv (env : Env α) (n : Nat) (x x' : Ctx α) : Prop where
  evals : x'.evals = x.evals + n
  times : ∀ p, x'.times p = x.times p + ∑ i ∈ Finset.range n, evalTimes (env.now (x.evals + i)) p

omit [Zero α] [Add α] [Mul α] [Sub α] [Neg α] [Fp α] in
theorem Ctx.Adv.refl (env : Env α) (x : Ctx α) : Ctx.Adv env 0 x x := ⟨rfl, fun p => by simp⟩

omit [Zero α] [Add α] [Mul α] [Sub α] [Neg α] [Fp α] in
theorem Ctx.Adv.trans {env : Env α} {n m : Nat} {x y z : Ctx α} (h : Ctx.Adv env n x y)
    (h' : Ctx.Adv env m y z) : Ctx.Adv env (n + m) x z where
  evals := by rw [h'.evals, h.evals]; omega
  times := fun p => by
    rw [h'.times, h.times, Finset.sum_range_add, h.evals, add_assoc]
    simp only [Nat.add_assoc]

theorem optEval_adv (w : World α) (env : Env α) (dt : α) (x : Ctx α) (s : SysState α) :
    Wp (w.optEval env dt x s) (fun e => Ctx.Adv env 1 x e.1) anyErr := by
  rw [World.optEval]
  refine wp_anyOf fun s => wp_anyOf fun q => ?_
  exact ⟨rfl, fun p => by simp⟩

theorem genEval_adv (w : World α) (env : Env α) (x : Ctx α) (s : SysState α) :
    Wp (w.genEval env x s) (fun e => Ctx.Adv env 1 x e.1) anyErr := by
  rw [World.genEval]
  refine wp_anyOf fun s => wp_anyOf fun q => ?_
  exact ⟨rfl, fun p => by simp⟩

/-- Evaluations of forces and constraints in one step of the solver. -/
def Ode.stages : Ode α → Nat
  | .rk4 _ => 4
  | _ => 1

/-- The class of the solver. -/
def Ode.sort : Ode α → Fin 4
  | .base _ => 0
  | .euler _ => 1
  | .nsv _ => 2
  | .rk4 _ => 3

theorem lax_any : Lax α anyErr := ⟨trivial, trivial, fun _ _ _ _ => trivial⟩

theorem odeRun_wp {τ : Type} {ev : τ → SysState α → Exec (τ × SysState α)} {A : Nat → τ → τ → Prop}
    (ht : ∀ n m x y z, A n x y → A m y z → A (n + m) x z)
    (hev : ∀ x s, Wp (ev x s) (fun e => A 1 x e.1) anyErr) (x : τ) (o : Ode α) (s : SysState α)
    (dt : α) :
    Wp (odeRun ev x o s dt) (fun z => A o.stages x z.1 ∧ z.2.1.sort = o.sort) anyErr := by
  have simple : ∀ o1 : Ode α, ∀ (q : Ode α × SysState α × Bool), q.1.sort = o1.sort →
      q.2.2 = true → o1.step s = .ok q → (∀ s, Wp (q.1.solve s) (fun z => z.1.sort = o1.sort ∧
        z.1.fin = z.1) anyErr) →
      Wp (odeLoop ev 5 x o1 s >>= fun z => pure (z.1, z.2.1.fin, z.2.2))
        (fun z => A 1 x z.1 ∧ z.2.1.sort = o1.sort) anyErr := by
    intro o1 q h1 h2 hs hsolve
    rw [wp_bind, odeLoop, hs, ok_bind, wp_bind]
    refine (hev x q.2.1).imp fun e he => ?_
    rw [wp_bind]
    refine (hsolve e.2).imp fun z hz => ?_
    rw [if_pos h2, wp_pure, wp_pure]
    refine ⟨he, ?_⟩
    rw [hz.2]; exact hz.1
  cases o with
  | base d => exact simple (.base dt) (.base dt, s, true) rfl rfl rfl fun s => ⟨rfl, rfl⟩
  | euler d =>
    exact simple (.euler dt) (.euler dt, { s with dt := dt }, true) rfl rfl rfl
      fun s => wp_anyOf fun _ => ⟨rfl, rfl⟩
  | nsv d =>
    exact simple (.nsv dt) (.nsv dt, { s with dt := dt }, true) rfl rfl rfl
      fun s => wp_anyOf fun _ => ⟨rfl, rfl⟩
  | rk4 r =>
    rw [odeRun]
    simp only [Ode.start, bind_assoc]
    rw [wp_bind]
    refine (lax_any.start r s dt).imp fun r1 h1 => ?_
    rw [wp_bind, wp_pure, wp_bind]
    refine (lax_any.loop (P := A 1) (k := 1) hev h1).imp fun z hz => ?_
    obtain ⟨⟨x1, x2, x3, a1, a2, a3, a4⟩, r', hr, _⟩ := hz
    rw [wp_pure]
    refine ⟨ht 3 1 _ _ _ (ht 2 1 _ _ _ (ht 1 1 _ _ _ a1 a2) a3) a4, ?_⟩
    show Ode.sort (Ode.fin z.2.1) = _
    rw [hr]; rfl

theorem sort_stages {o o' : Ode α} (h : o.sort = o'.sort) : o.stages = o'.stages := by
  cases o <;> cases o' <;> first | rfl | simp [Ode.sort] at h

theorem sort_nsv {o : Ode α} (h : o.sort = 2) : ∃ d, o = .nsv d := by
  cases o <;> first | exact ⟨_, rfl⟩ | simp [Ode.sort] at h

theorem optLoop_wp (w : World α) (env : Env α) (dt : α) (steps : Int) (s : SysState α)
    (mem : Store α) (hn : w.nsv.sort = 2) :
    Wp (w.optLoop env dt steps s mem) (fun q => Ctx.Adv env steps.toNat ⟨mem, 0, fun _ => 0⟩ q.1 ∧
      q.2.1.sort = 2) anyErr := by
  refine wp_forN (fun i (q : Ctx α × Ode α × SysState α) =>
    Ctx.Adv env i ⟨mem, 0, fun _ => 0⟩ q.1 ∧ q.2.1.sort = 2)
    ⟨Ctx.Adv.refl _ _, hn⟩ fun i _ q hq => ?_
  refine wp_anyOf fun h => ?_
  refine (odeRun_wp (fun _ _ _ _ _ => Ctx.Adv.trans) (optEval_adv w env h) q.1 q.2.1 q.2.2 h).imp
    fun z hz => ⟨?_, hz.2.trans hq.2⟩
  obtain ⟨d, hd⟩ := sort_nsv hq.2
  have h1 := hz.1
  rw [hd] at h1
  exact hq.1.trans h1

theorem forN_first_error {σ : Type} {f : Nat → σ → Exec σ} {s : σ} {e : Err} {k : Nat}
    (h : f 0 s = .error e) : forN (k + 1) f s = .error e := by
  induction k with
  | zero => exact h
  | succ k ih => rw [forN_succ, ih]; rfl

/-- The number of evaluations of a call of `process`. -/
def evalCount (steps : Int) : Option (Ode α) → Nat
  | none => 0
  | some o => steps.toNat * o.stages

theorem genLoop_wp (w : World α) (env : Env α) (dt : α) (steps : Int) (s : SysState α)
    (mem : Store α) :
    Wp (w.genLoop env dt steps s mem) (fun q =>
      Ctx.Adv env (evalCount steps w.ode) ⟨mem, 0, fun _ => 0⟩ q.1 ∧
      q.2.1.map Ode.sort = w.ode.map Ode.sort) anyErr := by
  cases ho : w.ode with
  | none =>
    rw [World.genLoop, ho]
    cases h : steps.toNat with
    | zero => exact ⟨Ctx.Adv.refl _ _, rfl⟩
    | succ k =>
      rw [forN_first_error (e := .null) rfl]
      exact trivial
  | some o =>
    rw [World.genLoop, ho]
    refine wp_forN' (fun i (q : Ctx α × Option (Ode α) × SysState α) =>
      Ctx.Adv env (i * o.stages) ⟨mem, 0, fun _ => 0⟩ q.1 ∧
      ∃ o', q.2.1 = some o' ∧ o'.sort = o.sort) ⟨by rw [Nat.zero_mul]; exact Ctx.Adv.refl _ _, o, rfl, rfl⟩
      (fun i _ q hq => ?_) ?_
    · obtain ⟨h1, o', ho', hs⟩ := hq
      rw [ho', deref, ok_bind]
      refine wp_anyOf fun h => ?_
      rw [wp_bind]
      refine (odeRun_wp (fun _ _ _ _ _ => Ctx.Adv.trans) (genEval_adv w env) q.1 o' q.2.2 h).imp
        fun z hz => ⟨?_, z.2.1, rfl, hz.2.trans hs⟩
      rw [Nat.add_mul, Nat.one_mul, ← sort_stages hs]
      exact (sort_stages hs ▸ h1).trans hz.1
    · rintro q ⟨h1, o', ho', hs⟩
      exact ⟨h1, by rw [ho', Option.map_some, Option.map_some, hs]⟩

/-! ## The whole of `process` -/

/-- The profiling arrays after a frame: the values of this frame at the frame index. -/
structure World.Records (w w' : World α) (times : Prof → Int) : Prop where
  at_ : ∀ p, w.frame < (w.ring p).size ∧
    w'.ring p = { w.ring p with val := upd (w.ring p).val w.frame (times p) }
  frame : w'.frame = (w.frame + 1) % profSamples

theorem record_wp (w : World α) (times : Prof → Int) :
    Wp (w.record times) (fun w' => w' = { w with ring := w'.ring, frame := w'.frame } ∧
      w.Records w' times) anyErr := by
  rw [wp_anyErr_iff]
  intro w' e
  have hw : ∀ (b : Buf Int) i v b', b.wr i v = .ok b' → i < b.size ∧
      b' = { b with val := upd b.val i v } := by
    intro b i v b' h
    rw [Buf.wr] at h
    split at h
    · cases h
      exact ⟨by assumption, rfl⟩
    · cases h
  rw [World.record] at e
  cases h1 : (w.ring .odeSolve).wr w.frame (times .odeSolve) with
  | error e' => rw [h1] at e; cases e
  | ok r1 =>
  rw [h1, ok_bind] at e
  simp only [upd_other _ _ (show Prof.constraintSolve ≠ .odeSolve by decide)] at e
  cases h2 : (w.ring .constraintSolve).wr w.frame (times .constraintSolve) with
  | error e' => rw [h2] at e; cases e
  | ok r2 =>
  rw [h2, ok_bind] at e
  simp only [upd_other _ _ (show Prof.forceEval ≠ .odeSolve by decide),
    upd_other _ _ (show Prof.forceEval ≠ .constraintSolve by decide)] at e
  cases h3 : (w.ring .forceEval).wr w.frame (times .forceEval) with
  | error e' => rw [h3] at e; cases e
  | ok r3 =>
  rw [h3, ok_bind] at e
  simp only [upd_other _ _ (show Prof.constraintEval ≠ .odeSolve by decide),
    upd_other _ _ (show Prof.constraintEval ≠ .constraintSolve by decide),
    upd_other _ _ (show Prof.constraintEval ≠ .forceEval by decide)] at e
  cases h4 : (w.ring .constraintEval).wr w.frame (times .constraintEval) with
  | error e' => rw [h4] at e; cases e
  | ok r4 =>
  rw [h4, ok_bind] at e
  cases e
  refine ⟨rfl, ⟨fun p => ?_, rfl⟩⟩
  cases p
  · exact ⟨(hw _ _ _ _ h1).1, (hw _ _ _ _ h1).2⟩
  · exact ⟨(hw _ _ _ _ h2).1, (hw _ _ _ _ h2).2⟩
  · exact ⟨(hw _ _ _ _ h3).1, (hw _ _ _ _ h3).2⟩
  · exact ⟨(hw _ _ _ _ h4).1, (hw _ _ _ _ h4).2⟩

/-- The sample a call of `process` with `n` evaluations records. -/
def sampleOf (env : Env α) (n : Nat) (p : Prof) : Int :=
  ∑ e ∈ Finset.range n, evalTimes (env.now e) p

/-- Effect of a call of `process` except on state and matrices. -/
structure World.Ticks (env : Env α) (n : Nat) (w w' : World α) : Prop where
  moves : w.Moves w'
  records : w.Records w' (sampleOf env n)

theorem World.Moves.of_rest {w w1 w2 : World α} (h : w.Moves w1)
    (e : w2 = { w1 with
      st := w2.st, mem := w2.mem, nsv := w2.nsv, ode := w2.ode, ring := w2.ring,
      frame := w2.frame, t := w2.t }) : w.Moves w2 := by
  rw [e]
  exact ⟨h.rb, h.cs, h.fg, h.gens, h.genIndex, h.sle, h.bias, h.mass, h.inertia, h.index, h.other,
    h.kind, h.conIndex, h.bodyCount, h.conBodies, h.rows, h.otherCon⟩

theorem optProcess_wp (w : World α) (env : Env α) (dt : α) (steps : Int) (hn : w.nsv.sort = 2) :
    Wp (w.optProcess env dt steps) (fun w' => World.Ticks env steps.toNat w w' ∧ w'.t = w.t + dt ∧
      w'.nsv.sort = 2 ∧ w'.ode = w.ode) anyErr := by
  rw [World.optProcess]
  refine wp_anyOf fun s => wp_anyOf fun mem => ?_
  rw [wp_bind]
  refine (optLoop_wp w env dt steps s mem hn).imp fun q hq => ?_
  simp only []
  rw [wp_bind, World.propagateResults, wp_bind]
  refine (storeBodies_wp _ _ _).imp fun w1 h1 => ?_
  rw [wp_bind]
  refine (storeForces_wp _ _ _).imp fun z hz => ?_
  rw [wp_pure, wp_bind]
  refine (record_wp _ _).imp fun w2 h2 => ?_
  rw [wp_pure]
  have hm : w.Moves z.1 := ((World.Moves.refl w).of_rest rfl).trans (h1.2.trans hz.2)
  have ez : z.1 = { w with
      st := q.2.2, mem := q.1.mem, nsv := q.2.1, bodies := w1.bodies,
      cons := z.1.cons } := by rw [hz.1, h1.1]
  refine ⟨⟨hm.of_rest ?_, ?_⟩, ?_, ?_, ?_⟩
  · rw [h2.1]
  · refine ⟨fun p => ?_, ?_⟩
    · have := h2.2.at_ p
      rw [ez] at this
      refine ⟨this.1, this.2.trans ?_⟩
      rw [hq.1.times]
      simp [sampleOf]
    · have := h2.2.frame
      rw [ez] at this
      exact this
  · show w2.t + dt = _
    rw [h2.1, ez]
  · show w2.nsv.sort = _
    rw [h2.1, ez]
    exact hq.2
  · show w2.ode = _
    rw [h2.1, ez]

theorem genProcess_wp (w : World α) (env : Env α) (dt : α) (steps : Int) :
    Wp (w.genProcess env dt steps) (fun w' => World.Ticks env (evalCount steps w.ode) w w' ∧
      w'.t = w.t ∧ w'.nsv = w.nsv ∧ w'.ode.map Ode.sort = w.ode.map Ode.sort) anyErr := by
  rw [World.genProcess]
  refine wp_anyOf fun s => wp_anyOf fun mem => ?_
  rw [wp_bind]
  refine (genLoop_wp w env dt steps s mem).imp fun q hq => ?_
  simp only []
  rw [wp_bind]
  refine (storeBodies_wp _ _ _).imp fun w1 h1 => ?_
  rw [wp_bind]
  refine (storeForces_wp _ _ _).imp fun z hz => ?_
  refine (record_wp _ _).imp fun w2 h2 => ?_
  have hm : w.Moves z.1 := ((World.Moves.refl w).of_rest rfl).trans (h1.2.trans hz.2)
  have ez : z.1 = { w with
      st := q.2.2, mem := q.1.mem, ode := q.2.1, bodies := w1.bodies,
      cons := z.1.cons } := by rw [hz.1, h1.1]
  refine ⟨⟨hm.of_rest ?_, ?_⟩, ?_, ?_, ?_⟩
  · rw [h2.1]
  · refine ⟨fun p => ?_, ?_⟩
    · have := h2.2.at_ p
      rw [ez] at this
      refine ⟨this.1, this.2.trans ?_⟩
      rw [hq.1.times]
      simp [sampleOf]
    · have := h2.2.frame
      rw [ez] at this
      exact this
  · rw [h2.1, ez]
  · rw [h2.1, ez]
  · rw [h2.1, ez]
    exact hq.2

end

end Scs
