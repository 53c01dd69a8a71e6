import Verif.WorldProf
import Verif.WorldDemo
import Verif.PropsForce

/-!
# Properties of the rigid body systems: registries, time, profiling, frame

C46, C47, C54, C55, C56. `World.Hist G cls h w` says that `w` is the world after the actions `h`
(newest first) of a program on one rigid body system of class `cls`; `regBodies h`, `regCons h` and
`regGens h` are the sets of objects added and not removed (`WorldHist.lean`).
-/

namespace Scs

section
variable {α : Type} [Zero α] [Add α] [Mul α] [Sub α] [Neg α] [Fp α]
variable {G : Gen α → Prop} {cls : Cls} {h : List (Op α)} {w w' : World α}

/-! ## C46 -/

theorem RegInv.find {l : List Nat} {S : Finset Nat} {idx : Nat → Option Int} (r : RegInv l S idx)
    {b : Nat} (hb : b ∈ S) {i : Int} (hi : idx b = some i) :
    0 ≤ i ∧ i < l.length ∧ vecAt l i = .ok b := by
  obtain ⟨k, hk, e, e'⟩ := r.at hb
  rw [e'] at hi
  cases hi
  refine ⟨by omega, by omega, ?_⟩
  rw [vecAt_ok hk, e]

/-- **C46**, bodies: the registry holds exactly the bodies added and not removed, each once,
`getRigidBody` at the index of a body gives the body, and the count is right. -/
theorem C46_bodies (hw : World.Hist G cls h w) :
    w.rb.Nodup ∧ (∀ b, b ∈ w.rb ↔ b ∈ regBodies h) ∧ w.bodyCount = (regBodies h).card ∧
      ∀ b ∈ regBodies h, w.getBody (w.bodies b).index = .ok b := by
  have r := hw.regs.bodies
  refine ⟨r.nodup, r.mem, r.length, fun b hb => ?_⟩
  obtain ⟨h0, h1, h2⟩ := r.find hb (i := (w.bodies b).index) rfl
  rw [World.getBody, chk_true _ ⟨h0, h1⟩, ok_bind, h2]

/-- **C46**, constraints. -/
theorem C46_constraints (hw : World.Hist G cls h w) :
    w.cs.Nodup ∧ (∀ c, c ∈ w.cs ↔ c ∈ regCons h) ∧ w.conCount = (regCons h).card ∧
      ∀ c ∈ regCons h, vecAt w.cs (w.cons c).index = .ok c := by
  have r := hw.regs.cons
  exact ⟨r.nodup, r.mem, r.length, fun b hb => (r.find hb (i := (w.cons b).index) rfl).2.2⟩

/-- **C46**, force generators. -/
theorem C46_generators (hw : World.Hist G cls h w) :
    w.fg.Nodup ∧ (∀ g, g ∈ w.fg ↔ g ∈ regGens h) ∧ w.genCount = (regGens h).card ∧
      ∀ g ∈ regGens h, ∃ i, w.genIndex g = some i ∧ vecAt w.fg i = .ok g := by
  have r := hw.regs.gens
  refine ⟨r.nodup, r.mem, r.length, fun b hb => ?_⟩
  obtain ⟨k, hk, e, e'⟩ := r.at hb
  exact ⟨k, e', (r.find hb e').2.2⟩

/-- The number of rows reported by `getFullConstraintCount` is the sum over the registered
constraints. -/
theorem C46_full_count (hw : World.Hist G cls h w) :
    w.fullCount = ∑ c ∈ regCons h, (w.cons c).rows := by
  have r := hw.regs.cons
  have e : regCons h = w.cs.toFinset := by ext b; rw [List.mem_toFinset, r.mem]
  rw [e, List.sum_toFinset _ r.nodup, World.fullCount]
  have : ∀ (l : List Nat) (a : Nat), l.foldl (fun count c => count + (w.cons c).rows) a =
      a + (l.map fun c => (w.cons c).rows).sum := by
    intro l
    induction l with
    | nil => intro a; rfl
    | cons c l ih => intro a; rw [List.foldl_cons, ih, List.map_cons, List.sum_cons, Nat.add_assoc]
  rw [this, Nat.zero_add]

/-- Actions on the registries. -/
def Op.OnRegistry : Op α → Prop
  | .addBody _ | .removeBody _ | .addCon _ | .removeCon _ | .addGen _ | .removeGen _ | .reset =>
    True
  | _ => False

/-- **C46**: every valid registry action succeeds. -/
theorem C46_actions_succeed (hw : World.Hist G cls h w) {op : Op α} (ho : op.OnRegistry)
    (hv : op.Valid G h) : ∃ w', op.run cls w = .ok w' ∧ World.Hist G cls (op :: h) w' := by
  have key : ∀ w', op.run cls w = .ok w' → ∃ w', op.run cls w = .ok w' ∧
      World.Hist G cls (op :: h) w' := fun w' e => ⟨w', e, hw.step op hv e⟩
  cases op with
  | removeBody b =>
    obtain ⟨l', x, he, _⟩ := removeBody_ok hw.regs.bodies hv
    exact key _ he
  | removeCon b =>
    obtain ⟨l', x, he, _⟩ := removeCon_ok hw.regs.cons hv
    exact key _ he
  | removeGen b =>
    obtain ⟨l', x, i, he, _⟩ := removeGen_ok hw.regs.gens hv
    exact key _ he
  | addBody b => exact key _ rfl
  | addCon b => exact key _ rfl
  | addGen b => exact key _ rfl
  | reset => exact key _ rfl
  | _ => exact absurd ho id

/-- The claim applied to the removal of a body that is not the last one. -/
example (bodies : Nat → Body α) (cons : Nat → Con α) (gens : Nat → Gen α)
    (j j' : Nat → Nat → α) (k k' : Nat → Nat → Nat) (cls : Cls) :
    ∃ w w' : World α, World.Hist (fun _ => True) cls [.addBody 5, .addBody 3] w ∧
      w.removeBody 3 = .ok w' ∧
      World.Hist (fun _ => True) cls [.removeBody 3, .addBody 5, .addBody 3] w' := by
  have h0 := World.Hist.start (G := fun _ => True) (cls := cls) bodies cons gens (fun _ => none)
    (fun _ => trivial) j j' k k'
  have h1 := h0.step (.addBody 3) (by simp [Op.Valid, regBodies]) rfl
  have h2 := h1.step (.addBody 5) (by simp [Op.Valid, regBodies]) rfl
  obtain ⟨w', e, hw'⟩ := C46_actions_succeed h2 (op := .removeBody 3) trivial
    (by simp [Op.Valid, regBodies])
  exact ⟨_, w', h2, e, hw'⟩

/-- Any list of valid registry actions is the history of a world. -/
theorem hist_of_registry (bodies : Nat → Body α) (cons : Nat → Con α) (gens : Nat → Gen α)
    (genIndex : Nat → Option Int) (hg : ∀ g, G (gens g)) (j j' : Nat → Nat → α)
    (k k' : Nat → Nat → Nat) (cls : Cls) : ∀ h : List (Op α),
    (∀ op h', (op :: h') <:+ h → op.OnRegistry ∧ op.Valid G h') →
    ∃ w, World.Hist G cls h w := by
  intro h
  induction h with
  | nil => intro _; exact ⟨_, .start bodies cons gens genIndex hg j j' k k'⟩
  | cons op h ih =>
    intro hv
    obtain ⟨w, hw⟩ := ih fun op' h' hs => hv op' h' (hs.trans (List.suffix_cons _ _))
    obtain ⟨ho, hv'⟩ := hv op h (List.suffix_rfl)
    obtain ⟨w', _, hw'⟩ := C46_actions_succeed hw ho hv'
    exact ⟨w', hw'⟩

/-- Bodies 3, 5, 7 are added and 3 is removed: the last body takes its place. -/
theorem demo_registry (bodies : Nat → Body α) (cons : Nat → Con α) (gens : Nat → Gen α)
    (j j' : Nat → Nat → α) (k k' : Nat → Nat → Nat) (cls : Cls) :
    ∃ w : World α, World.Hist (fun _ => True) cls
      [.removeBody 3, .addBody 7, .addBody 5, .addBody 3] w ∧
      regBodies ([.removeBody 3, .addBody 7, .addBody 5, .addBody 3] : List (Op α)) = {5, 7} ∧
      w.rb = [7, 5] := by
  have h0 := World.Hist.start (G := fun _ => True) (cls := cls) bodies cons gens (fun _ => none)
    (fun _ => trivial) j j' k k'
  have h1 := h0.step (.addBody 3) (by simp [Op.Valid, regBodies]) rfl
  have h2 := h1.step (.addBody 5) (by simp [Op.Valid, regBodies]) rfl
  have h3 := h2.step (.addBody 7) (by simp [Op.Valid, regBodies]) rfl
  have h4 := h3.step (.removeBody 3) (by simp [Op.Valid, regBodies]) rfl
  exact ⟨_, h4, by simp only [regBodies]; decide, rfl⟩

/-! ## C47 -/

/-- The last registered body. -/
theorem unregister_last {l : List Nat} {i : Int} {l' : List Nat} {x : Nat}
    (e : unregister l i = .ok (l', x)) : l.getLast? = some x := by
  rw [unregister] at e
  cases h1 : vecBack l with
  | error _ => rw [h1] at e; cases e
  | ok last =>
  rw [h1, ok_bind] at e
  cases h2 : vecSet l i last with
  | error _ => rw [h2] at e; cases e
  | ok l2 =>
  rw [h2, ok_bind] at e
  cases h3 : vecAt l2 i with
  | error _ => rw [h3] at e; cases e
  | ok y =>
  rw [h3, ok_bind] at e
  cases e
  rw [vecSet] at h2
  split at h2
  · rename_i hi
    cases h2
    have := (vecAt_mem h3).2.1
    rw [List.getElem?_set_self hi.2] at this
    cases this
    rw [vecBack] at h1
    split at h1
    · cases h1; assumption
    · cases h1
  · cases h2

/-- **C47 is violated**: for every history, removing a body leaves its index as it was; it is not
-1. -/
theorem C47_removed_keeps_index (hw : World.Hist G cls h w) {b : Nat} (hb : b ∈ regBodies h)
    (e : w.removeBody b = .ok w') :
    (w'.bodies b).index = (w.bodies b).index ∧ (w'.bodies b).index ≠ -1 := by
  obtain ⟨l', x, he, hr, hx, hl, hu⟩ := removeBody_ok hw.regs.bodies hb
  have := (hw.regs.bodies.find hb (i := (w.bodies b).index) rfl).1
  rw [he] at e
  cases e
  have e1 : ((({ w with rb := l' } : World α).setBodyIndex x (w.bodies b).index).bodies b).index =
      (w.bodies b).index := by
    by_cases hxb : b = x
    · subst hxb; simp [World.setBodyIndex, upd_same]
    · simp [World.setBodyIndex, upd_other _ _ hxb]
  rw [e1]
  exact ⟨rfl, by omega⟩

/-- **C47 is violated**: `reset` leaves the indices of the dropped bodies as they were. -/
theorem C47_reset_keeps_index (hw : World.Hist G cls h w) {b : Nat} (hb : b ∈ regBodies h) :
    (w.reset.bodies b).index = (w.bodies b).index ∧ (w.reset.bodies b).index ≠ -1 ∧
      w.reset.rb = [] := by
  have := (hw.regs.bodies.find hb (i := (w.bodies b).index) rfl).1
  exact ⟨rfl, by show (w.bodies b).index ≠ -1; omega, rfl⟩

/-- **C47 is violated**: when the removed body is not the last one, its stale index is the index of
another body `x` that is still registered, and removing it a second time removes `x`. -/
theorem C47_second_removal (hw : World.Hist G cls h w) {b : Nat} (hb : b ∈ regBodies h)
    (hlast : w.rb.getLast? ≠ some b) (e : w.removeBody b = .ok w') :
    ∃ x w'', x ∈ regBodies h ∧ x ≠ b ∧ x ∈ w'.rb ∧ (w'.bodies x).index = (w'.bodies b).index ∧
      w'.getBody (w'.bodies b).index = .ok x ∧ w'.removeBody b = .ok w'' ∧ x ∉ w''.rb := by
  obtain ⟨l', x, he, hr, hx, hl, hu⟩ := removeBody_ok hw.regs.bodies hb
  have hxl := unregister_last hu
  have hxb : x ≠ b := by rintro rfl; exact hlast hxl
  have hw' : World.Hist G cls (.removeBody b :: h) w' := hw.step _ hb e
  have hx' : x ∈ regBodies (.removeBody b :: h : List (Op α)) := Finset.mem_erase.2 ⟨hxb, hx⟩
  have e0 := e
  rw [he] at e
  cases e
  have ix : ((({ w with rb := l' } : World α).setBodyIndex x (w.bodies b).index).bodies x).index =
      (w.bodies b).index := by simp [World.setBodyIndex, upd_same]
  have ib : ((({ w with rb := l' } : World α).setBodyIndex x (w.bodies b).index).bodies b).index =
      (w.bodies b).index := by simp [World.setBodyIndex, upd_other _ _ (Ne.symm hxb)]
  obtain ⟨l2, y, he2, hr2, -, -, hu2⟩ := removeBody_ok hw'.regs.bodies hx'
  have hrm : (({ w with rb := l' } : World α).setBodyIndex x (w.bodies b).index).removeBody b =
      (({ w with rb := l' } : World α).setBodyIndex x (w.bodies b).index).removeBody x := by
    rw [World.removeBody, World.removeBody, ix, ib]
  refine ⟨x, _, hx, hxb, (hr.mem x).2 hx', ix.trans ib.symm, ?_, hrm.trans he2, ?_⟩
  · rw [ib, ← ix]
    exact (C46_bodies hw').2.2.2 x hx'
  · intro hm
    have : x ∈ l2 := hm
    rw [hr2.mem] at this
    exact Finset.notMem_erase _ _ this

/-- **C47**, what holds: a removed body is no longer registered, all others still are. -/
theorem C47_removed_unregistered_partial (hw : World.Hist G cls h w) {b : Nat}
    (hb : b ∈ regBodies h) (e : w.removeBody b = .ok w') :
    b ∉ w'.rb ∧ (∀ x, x ≠ b → (x ∈ w'.rb ↔ x ∈ w.rb)) ∧
      ∀ i, w'.getBody i ≠ .ok b := by
  have hw' : World.Hist G cls (.removeBody b :: h) w' := hw.step _ hb e
  have m := (C46_bodies hw').2.1
  have hn : b ∉ w'.rb := by
    rw [m]
    exact Finset.notMem_erase _ _
  refine ⟨hn, fun x hx => ?_, fun i hi => ?_⟩
  · rw [m, (C46_bodies hw).2.1]
    exact ⟨fun hm => (Finset.mem_erase.1 hm).2, fun hm => Finset.mem_erase.2 ⟨hx, hm⟩⟩
  · rw [World.getBody] at hi
    by_cases hc : 0 ≤ i ∧ i < w'.rb.length
    · rw [chk_true _ hc, ok_bind] at hi
      exact hn (vecAt_mem hi).2.2
    · rw [chk_false _ hc] at hi
      cases hi

/-- The situation of `C47_second_removal` occurs. -/
example (bodies : Nat → Body α) (cons : Nat → Con α) (gens : Nat → Gen α)
    (j j' : Nat → Nat → α) (k k' : Nat → Nat → Nat) (cls : Cls) :
    ∃ w w' : World α, World.Hist (fun _ => True) cls [.addBody 5, .addBody 3] w ∧
      3 ∈ regBodies ([.addBody 5, .addBody 3] : List (Op α)) ∧
      w.rb.getLast? ≠ some 3 ∧ w.removeBody 3 = .ok w' := by
  have h0 := World.Hist.start (G := fun _ => True) (cls := cls) bodies cons gens (fun _ => none)
    (fun _ => trivial) j j' k k'
  have h1 := h0.step (.addBody 3) (by simp [Op.Valid, regBodies]) rfl
  have h2 := h1.step (.addBody 5) (by simp [Op.Valid, regBodies]) rfl
  refine ⟨_, _, h2, by simp [regBodies], ?_, rfl⟩
  show some 5 ≠ some 3
  decide

/-! ## C56 -/

/-- **C56**: whenever `process` returns, it has changed nothing but positions, angles and velocities
of registered bodies and the reported forces of registered constraints. -/
theorem C56_process_only_moves (hw : World.Hist G cls h w) {env : Env α} {dt : α} {steps : Int}
    (e : w.process cls env dt steps = .ok w') : w.Moves w' := by
  cases cls with
  | opt => exact ((optProcess_wp w env dt steps hw.regs.nsv).of_eq e).1.moves
  | gen => exact ((genProcess_wp w env dt steps).of_eq e).1.moves

/-- The hypotheses can be met: two linked bodies under gravity. -/
example (l : Link ℝ) (env : Env ℝ) : ∃ (h : List (Op ℝ)) (w w' : World ℝ),
    World.Hist Gen.Shipped .opt h w ∧ regBodies h = {0, 1} ∧ 0 ∈ regCons h ∧
      w.process .opt env 2 4 = .ok w' := by
  obtain ⟨h, w, w', d, hst, e⟩ := demo_pins (pins_link l) (g := .gravity 9) trivial trivial
    (sv := .ge) trivial (by simp) (two_ne_zero) 4 env
  exact ⟨h, w, w', d.hist, d.regB, d.mem0 rfl, e⟩

/-! ## C54 -/

/-- **C54** for any arithmetic: the elapsed time is the sum, in order, of the `dt` arguments of the
calls of `process`. -/
theorem C54_time_in_order (hw : World.Hist G .opt h w) :
    w.t = (processedDts h).foldr (fun dt t => t + dt) (Fp.lit 0) := hw.time

end

section
variable {G : Gen ℝ → Prop} {cls : Cls} {h : List (Op ℝ)} {w w' : World ℝ}

/-- **C54**: the elapsed time is the sum of the `dt` arguments of the calls of `process`. -/
theorem C54_time_elapsed (hw : World.Hist G .opt h w) : w.t = (processedDts h).sum := by
  rw [hw.time]
  induction processedDts h with
  | nil => simp [fp_lit]
  | cons x l ih => rw [List.foldr_cons, ih, List.sum_cons, add_comm]

/-- The claim applied after a frame of two time units. -/
example (l : Link ℝ) (env : Env ℝ) : ∃ (h : List (Op ℝ)) (w : World ℝ),
    World.Hist Gen.Shipped .opt h w ∧ processedDts h = [2] ∧ w.t = 2 := by
  obtain ⟨h, w, w', d, hst, e⟩ := demo_pins (pins_link l) (g := .gravity 9) trivial trivial
    (sv := .ge) trivial (by simp) (two_ne_zero) 4 env
  have hw' : World.Hist Gen.Shipped .opt (.process env 2 4 :: h) w' := d.hist.step _ trivial e
  have hp : processedDts (.process env 2 4 :: h) = [2] := by
    show 2 :: processedDts h = [2]
    rw [d.new]
  refine ⟨_, w', hw', hp, ?_⟩
  rw [C54_time_elapsed hw', hp, List.sum_singleton]

/-- **C47 is violated**: a static force still naming the removed body acts on another body, the one
that now has its index. -/
theorem C47_force_hits_other_body (hw : World.Hist G cls h w) {b : Nat} (hb : b ∈ regBodies h)
    (hlast : w.rb.getLast? ≠ some b) (e : w.removeBody b = .ok w') {p : StaticForce ℝ}
    (hp : p.body = .obj b) {s : SysState ℝ} {n c : Nat} {g : Fld → Nat → ℝ} {r : CFld → Nat → ℝ}
    (hr : s.Reach) (hs : s.Shows n c g r) (hn : w'.bodyCount ≤ n) :
    ∃ (x i : Nat) (q : ℝ × ℝ) (s' : SysState ℝ), x ≠ b ∧ w'.getBody i = .ok x ∧
      (Gen.static p).apply w'.bodies s = .ok s' ∧ s'.Shows n c (forced g i q p.f_x p.f_y) r := by
  obtain ⟨x, w'', hx, hxb, hm, hi, hg, -, -⟩ := C47_second_removal hw hb hlast e
  have hw' : World.Hist G cls (.removeBody b :: h) w' := hw.step _ hb e
  have f := hw'.regs.bodies.find ((hw'.regs.bodies.mem x).1 hm) (i := (w'.bodies x).index) rfl
  obtain ⟨i, e'⟩ := Int.eq_ofNat_of_zero_le f.1
  have hib : (w'.bodies b).index = (i : Int) := hi.symm.trans e'
  have hin : i < n := by
    have h1 : ((i : Nat) : Int) < w'.rb.length := e' ▸ f.2.1
    have h2 : w'.rb.length ≤ n := hn
    omega
  have ok : s.Ok := hr.wf.ok (by rw [hs.bodies]; exact hin)
  obtain ⟨q, hq⟩ : ∃ q, s.localToWorld p.p_x p.p_y i = .ok q := by
    rw [SysState.localToWorld, hs.fld _ _ hin, hs.fld _ _ hin, hs.fld _ _ hin]
    exact ⟨_, rfl⟩
  obtain ⟨s', h1, h2, -⟩ := C45_static hr hs hp hib hin hq
  exact ⟨x, i, q, s', hxb, hib ▸ hg, h1, h2⟩

/-! ## C55 -/

/-- The microseconds, rounded down, that one evaluation spends in a phase: `now 0 … now 7` are the
readings of the clock, in nanoseconds, before and after the force generators (0, 1), at the start of
the constraint evaluation, before and after the linear solve and at the end (2, 3, 4, 5), before and
after the integration (6, 7). -/
def phaseTime (now : Nat → Int) : Prof → Int
  | .forceEval => (now 1 - now 0) / 1000
  | .constraintEval => ((now 3 - now 2) + (now 5 - now 4)) / 1000
  | .constraintSolve => (now 4 - now 3) / 1000
  | .odeSolve => (now 7 - now 6) / 1000

/-- The times of the phase in all calls of `process`, newest first: the sum over the evaluations of
the call, one per stage of the ODE solver and sub-step. -/
def frameTimes (cls : Cls) (p : Prof) : List (Op ℝ) → List Int
  | [] => []
  | .process env _ steps :: h =>
    (∑ e ∈ Finset.range (steps.toNat * stagesIn cls h), phaseTime (env.now e) p) ::
      frameTimes cls p h
  | _ :: h => frameTimes cls p h

/-- The clock of `process` never went back. -/
def SteadyClock (h : List (Op ℝ)) : Prop :=
  ∀ env dt steps, .process env dt steps ∈ h → ∀ e k, env.now e k ≤ env.now e (k + 1)

theorem evalTimes_eq {now : Nat → Int} (hm : ∀ k, now k ≤ now (k + 1)) (p : Prof) :
    evalTimes now p = phaseTime now p ∧ 0 ≤ phaseTime now p := by
  have h0 := hm 0; have h1 := hm 1; have h2 := hm 2; have h3 := hm 3
  have h4 := hm 4; have h5 := hm 5; have h6 := hm 6
  simp only [Nat.reduceAdd] at h0 h1 h2 h3 h4 h5 h6
  have key : ∀ d : Int, 0 ≤ d → micros d = d / 1000 ∧ 0 ≤ d / 1000 := by
    intro d hd
    exact ⟨Int.tdiv_eq_ediv_of_nonneg hd, Int.ediv_nonneg hd (by decide)⟩
  cases p
  · exact key _ (by omega)
  · exact key _ (by omega)
  · exact key _ (by omega)
  · have := key (now 3 - now 2 + now 5 - now 4) (by omega)
    have e : now 3 - now 2 + now 5 - now 4 = (now 3 - now 2) + (now 5 - now 4) := by omega
    rw [e] at this
    rw [evalTimes, e]
    exact this

theorem samples_eq (p : Prof) (hc : SteadyClock h) :
    samples cls p h = frameTimes cls p h ∧ ∀ x ∈ frameTimes cls p h, 0 ≤ x := by
  induction h with
  | nil => exact ⟨rfl, fun x hx => absurd hx (by simp [frameTimes])⟩
  | cons op h ih =>
    have ih := ih fun env dt steps hm => hc env dt steps (List.mem_cons_of_mem _ hm)
    cases op with
    | process env dt steps =>
      have hs := hc env dt steps (List.mem_cons_self ..)
      refine ⟨?_, fun x hx => ?_⟩
      · show _ :: _ = _ :: _
        rw [ih.1, sampleOf]
        congr 1
        exact Finset.sum_congr rfl fun e _ => (evalTimes_eq (hs e) p).1
      · rcases List.mem_cons.1 hx with rfl | hx
        · exact Finset.sum_nonneg fun e _ => (evalTimes_eq (hs e) p).2
        · exact ih.2 x hx
    | _ => exact ih

/-- **C55**: a profiling getter returns 0 before the first call of `process` and then the mean of the
times of the last 600 calls (all calls if there were fewer). -/
theorem C55_average (hw : World.Hist G cls h w) (hc : SteadyClock h) (p : Prof) :
    w.getMicroseconds p = .ok (if frameTimes cls p h = [] then 0 else
      (((frameTimes cls p h).take 600).sum : Int) /
        ((min (frameTimes cls p h).length 600 : Nat) : ℝ)) := by
  obtain ⟨e, hn⟩ := samples_eq (cls := cls) p hc
  have r := hw.prof.ring p
  rw [e] at r
  rw [World.getMicroseconds, r.average fun x hx => by have := hn x hx; omega]
  split
  · rename_i h0
    rw [h0]
    simp
  · rfl

/-- **C55**: the frame index is the number of calls of `process` modulo 600, so it stays in range. -/
theorem C55_frame_index (hw : World.Hist G cls h w) (hc : SteadyClock h) (p : Prof) :
    w.frame = (frameTimes cls p h).length % 600 ∧ w.frame < 600 ∧ (w.ring p).size = 600 := by
  have r := hw.prof.ring p
  rw [(samples_eq (cls := cls) p hc).1] at r
  have := r.frame
  exact ⟨this, by omega, r.size⟩

/-- The claims applied after a frame of four sub-steps, each evaluating the forces in 1000 ns. -/
example (l : Link ℝ) (raw : Nat → Output ℝ) : ∃ (h : List (Op ℝ)) (w : World ℝ),
    World.Hist Gen.Shipped .opt h w ∧ processedDts h = [2] ∧ SteadyClock h ∧ w.getMicroseconds .forceEval = .ok 4 ∧ w.frame = 1 := by
  obtain ⟨h, w, w', d, hst, e⟩ := demo_pins (pins_link l) (g := .gravity 9) trivial trivial
    (sv := .ge) trivial (by simp) (two_ne_zero) 4
    ⟨fun _ k => 1000 * k, raw⟩
  have hw' := d.hist.step (.process _ 2 4) trivial e
  have hno : ∀ h : List (Op ℝ), processedDts h = [] → (∀ env dt steps, .process env dt steps ∉ h) ∧
      frameTimes .opt .forceEval h = [] := by
    intro h
    induction h with
    | nil => intro _; simp [frameTimes]
    | cons op h ih =>
      intro h0
      cases op with
      | process => cases h0
      | _ =>
        have := ih h0
        exact ⟨fun env dt steps hm => this.1 env dt steps (by simpa using hm), this.2⟩
  have hp := hno h d.new
  have hc : SteadyClock (.process ⟨fun _ k => 1000 * (k : Int), raw⟩ 2 4 :: h) := by
    intro env dt steps hm e k
    rcases List.mem_cons.mp hm with h1 | h1
    · cases h1
      show (1000 * (k : Int)) ≤ 1000 * ((k + 1 : Nat) : Int)
      omega
    · exact absurd h1 (hp.1 env dt steps)
  have hf : frameTimes .opt .forceEval (.process ⟨fun _ k => 1000 * (k : Int), raw⟩ 2 4 :: h) = [4] := by
    show _ :: _ = _
    rw [hp.2]
    simp [stagesIn, phaseTime, show Int.toNat 4 = 4 from rfl]
  refine ⟨_, w', hw', by show 2 :: processedDts h = [2]; rw [d.new], hc, ?_, ?_⟩
  · rw [C55_average hw' hc, hf]
    norm_num
  · rw [(C55_frame_index hw' hc .forceEval).1, hf]
    rfl

end

end Scs
