import Verif.Systems
import Verif.PropsTwin

/-!
# C105, C106: a system and the other objects of the program
-/

namespace Scs

/-! ## C105 -/

section
variable {α : Type} [Zero α] [Add α] [Mul α] [Sub α] [Neg α] [Fp α] {o : Own} {w w' : World α}

/-- **C105**: in any arithmetic, a program that uses the objects `o` for its system does the same to
the system and to these objects whatever the other objects of the program are, and it stops with the
same error if it does not return; it changes no other object. -/
theorem C105_only_its_objects (cls : Cls) {ops : List (Op α)} (ho : ∀ op ∈ ops, op.In o)
    (h : w.AgreeOn o w') (hw : w.In o) :
    (∀ v, runAll cls ops w = .ok v → w.Spared o v ∧
      ∃ v', runAll cls ops w' = .ok v' ∧ v.AgreeOn o v' ∧ w'.Spared o v') ∧
    ∀ e, runAll cls ops w = .error e → runAll cls ops w' = .error e := by
  have hr := runAll_local cls ho h hw
  cases e1 : runAll cls ops w with
  | error e =>
    cases e2 : runAll cls ops w' with
    | ok v' => rw [e1, e2] at hr; exact hr.elim
    | error e' =>
      rw [e1, e2] at hr
      exact ⟨(fun v hv => by cases hv), (fun e hv => by cases hv; cases hr; rfl)⟩
  | ok v =>
    cases e2 : runAll cls ops w' with
    | error e' => rw [e1, e2] at hr; exact hr.elim
    | ok v' =>
      rw [e1, e2] at hr
      have hc : Confined o w w' v v' := hr
      exact ⟨(fun u hu => by cases hu; exact ⟨hc.left, v', rfl, hc.agree, hc.right⟩),
        (fun e hv => by cases hv)⟩

/-- **C105** for a system from its construction on: only the objects used for it matter. -/
theorem C105_from_the_start (cls : Cls) {ops : List (Op α)} (ho : ∀ op ∈ ops, op.In o)
    (H H' : Heap α) (hb : ∀ b ∈ o.bodies, H'.bodies b = H.bodies b)
    (hc : ∀ c ∈ o.cons, H'.cons c = H.cons c ∧ (H.cons c).AttachedIn o)
    (hg : ∀ g ∈ o.gens, H'.gens g = H.gens g ∧ H'.genIndex g = H.genIndex g ∧
      (H.gens g).AttachedIn o) (mem : Store α) (j : Nat → Nat → α) (k : Nat → Nat → Nat) {v : World α}
    (e : runAll cls ops (World.construct H.bodies H.cons H.gens H.genIndex mem j k) = .ok v) :
    ∃ v', runAll cls ops (World.construct H'.bodies H'.cons H'.gens H'.genIndex mem j k) = .ok v' ∧
      v.AgreeOn o v' :=
  let r := (C105_only_its_objects cls ho
    (w := World.construct H.bodies H.cons H.gens H.genIndex mem j k)
    (w' := World.construct H'.bodies H'.cons H'.gens H'.genIndex mem j k)
    ⟨hb, fun c h => (hc c h).1, fun g h => ⟨(hg g h).1, (hg g h).2.1⟩, rfl⟩
    ⟨(fun _ hb => by cases hb), (fun _ hb => by cases hb), (fun _ hb => by cases hb),
      fun c h => (hc c h).2, fun g h => (hg g h).2.2⟩).1 v e
  let ⟨v', e', h, _⟩ := r.2
  ⟨v', e', h⟩

end

/-- The objects of the example program. -/
def demoOwn : Own := ⟨{0, 1}, {0}, {0}⟩

theorem demoOps_in (ode : Option (Ode ℝ)) (env env2 : Env ℝ) :
    ∀ op ∈ demoOps ode env env2, op.In demoOwn := by
  intro op h
  simp only [demoOps, List.mem_cons, List.not_mem_nil, or_false] at h
  rcases h with rfl | rfl | rfl | rfl | rfl | rfl | rfl | rfl <;> simp [Op.In, demoOwn]

theorem demoStart_in (j j' : Nat → Nat → ℝ) (k k' : Nat → Nat → Nat) :
    (demoStart j j' k k').In demoOwn where
  rb := fun _ hb => by cases hb
  cs := fun _ hb => by cases hb
  fg := fun _ hb => by cases hb
  cons := fun c _ i hi b hb => by
    have : Ptr.obj i = Ptr.obj b := hb
    cases this
    show _ = 0 ∨ _ = 1
    omega
  gens := fun g _ => trivial

/-- The hypotheses can be met: the program with two bodies, a gear and gravity, in a world with a
different body 7 and a different constraint 3. -/
example (cls : Cls) (env env2 : Env ℝ) (j j' : Nat → Nat → ℝ) (k k' : Nat → Nat → Nat) (x : Body ℝ)
    (c : Con ℝ) : ∃ v v',
    runAll cls ((demoOps (demoOde cls) env env2).take 6) (demoStart j j' k k') = .ok v ∧
    runAll cls ((demoOps (demoOde cls) env env2).take 6)
      { demoStart j j' k k' with
        bodies := upd demoBody 7 x, cons := upd (demoCon demoGear) 3 c } = .ok v' ∧
    v'.bodies 0 = v.bodies 0 ∧ v'.bodies 7 = x := by
  obtain ⟨_, v, e⟩ := demoOps_legal cls env env2 j j' k k'
  obtain ⟨v', e', h, hs⟩ := ((C105_only_its_objects cls (o := demoOwn)
    (fun op ho => demoOps_in _ _ _ op (List.mem_of_mem_take ho))
    (w := demoStart j j' k k') (w' := { demoStart j j' k k' with
        bodies := upd demoBody 7 x, cons := upd (demoCon demoGear) 3 c })
    ⟨fun b hb => upd_other _ _ (by rcases hb with rfl | rfl <;> decide),
      fun b hb => upd_other _ _ (by obtain rfl : b = 0 := hb; decide),
      fun _ _ => ⟨rfl, rfl⟩, rfl⟩ (demoStart_in j j' k k')).1 v e).2
  refine ⟨v, v', e, e', h.bodies 0 (.inl rfl), ?_⟩
  rw [hs.bodies 7 (by simp [demoOwn])]
  exact upd_same demoBody 7 x

/-- A program that uses nothing but the objects 0 and 1 does not see the others from the start. -/
example (cls : Cls) (env env2 : Env ℝ) (j j' : Nat → Nat → ℝ) (k k' : Nat → Nat → Nat) (x : Body ℝ) :
    ∃ v v', runAll cls ((demoOps (demoOde cls) env env2).take 6)
      (World.construct demoBody (demoCon demoGear) (fun _ => .gravity 9) (fun _ => none)
        (Store.fresh j k) j' k') = .ok v ∧
      runAll cls ((demoOps (demoOde cls) env env2).take 6)
      (World.construct (upd demoBody 7 x) (demoCon demoGear) (fun _ => .gravity 9) (fun _ => none)
        (Store.fresh j k) j' k') = .ok v' ∧ v'.bodies 1 = v.bodies 1 := by
  obtain ⟨_, v, e⟩ := demoOps_legal cls env env2 j j' k k'
  have hin := demoStart_in j j' k k'
  obtain ⟨v', e', h⟩ := C105_from_the_start cls (o := demoOwn)
    (fun op ho => demoOps_in _ _ _ op (List.mem_of_mem_take ho))
    ⟨demoBody, demoCon demoGear, fun _ => .gravity 9, fun _ => none⟩
    ⟨upd demoBody 7 x, demoCon demoGear, fun _ => .gravity 9, fun _ => none⟩
    (fun b hb => upd_other _ _ (by rcases hb with rfl | rfl <;> decide))
    (fun c hc => ⟨rfl, hin.cons c hc⟩) (fun _ _ => ⟨rfl, rfl, trivial⟩) _ _ _ e
  exact ⟨v, v', e, e', h.bodies 1 (.inr rfl)⟩

/-! ## C106 -/

section
variable {α : Type} [Zero α] [Add α] [Mul α] [Sub α] [Neg α] [Fp α] {o : Nat → Own}
  {cls : Nat → Cls} {prog : List (Nat × Op α)} {m : Systems α}

/-- **C106**: any number of systems, of either class, that share no objects: in a program that uses
them in any order each ends up as if its own actions had been the whole program. -/
theorem C106_independent (ha : Own.Apart o) (hp : ∀ p ∈ prog, p.2.In (o p.1))
    (hm : ∀ k, (m.view k).In (o k)) {m' : Systems α} (e : m.runAll cls prog = .ok m') (k : Nat) :
    ∃ v, runAll (cls k) (part k prog) (m.view k) = .ok v ∧ v.AgreeOn (o k) (m'.view k) :=
  (systems_run ha hp (fun _ => .refl _) hm).1 m' e k

/-- **C106**: a program with several systems that share no objects returns if each system's own
actions do; otherwise it stops with an error one of the systems causes alone. -/
theorem C106_no_new_errors (ha : Own.Apart o) (hp : ∀ p ∈ prog, p.2.In (o p.1))
    (hm : ∀ k, (m.view k).In (o k)) :
    ((∀ k, ∃ v, runAll (cls k) (part k prog) (m.view k) = .ok v) → ∃ m', m.runAll cls prog = .ok m') ∧
    ∀ e, m.runAll cls prog = .error e →
      ∃ k, runAll (cls k) (part k prog) (m.view k) = .error e := by
  have hr := (systems_run (cls := cls) ha hp (fun _ => .refl _) hm).2
  refine ⟨fun h => ?_, hr⟩
  cases e : m.runAll cls prog with
  | ok m' => exact ⟨m', rfl⟩
  | error e' =>
    obtain ⟨k, hk⟩ := hr e' e
    obtain ⟨v, hv⟩ := h k
    rw [hv] at hk
    cases hk

/-- **C106**: sharing matters. Body 1 is added to two systems, which each add their bodies once;
removing it from the first removes body 0 there instead. -/
theorem C106_sharing_matters (cls : Nat → Cls) (m : Systems α) (h0 : (m.sys 0).rb = [])
    (h1 : (m.sys 1).rb = []) :
    let prog : List (Nat × Op α) :=
      [(0, .addBody 0), (0, .addBody 1), (1, .addBody 1), (0, .removeBody 1)]
    (∃ v, runAll (cls 0) (part 0 prog) (m.view 0) = .ok v ∧ v.rb = [0]) ∧
      ∃ m', m.runAll cls prog = .ok m' ∧ (m'.view 0).rb = [1] := by
  obtain ⟨H, sys⟩ := m
  have h0' : (sys 0).rb = [] := h0
  have h1' : (sys 1).rb = [] := h1
  constructor <;>
  simp [Systems.runAll, Systems.act, Systems.view, World.amid, World.heap, Op.run, World.addBody,
    World.setBodyIndex, World.removeBody, unregister, vecBack, vecSet, vecAt, upd, part, runAll, h0',
    h1', ok_bind, pure, Except.pure, bind, Except.bind]

end

/-- A second system with the objects 2 and 3 beside the example program. -/
def twoOwn (k : Nat) : Own :=
  if k = 0 then demoOwn else if k = 1 then ⟨{2, 3}, ∅, ∅⟩ else ⟨∅, ∅, ∅⟩

/-- The program of the first system with actions for the second in between. -/
noncomputable def twoProg (env env2 : Env ℝ) (x : Body ℝ) : List (Nat × Op ℝ) :=
  [(0, .addBody 0), (1, .addBody 2), (0, .addBody 1), (0, .addCon 0), (1, .addBody 3),
    (0, .addGen 0), (1, .setBody 2 x), (0, .init (some .ge) none), (1, .removeBody 2),
    (0, .process env 2 4)]

/-- Both systems before the program starts. -/
noncomputable def twoStart (j j' : Nat → Nat → ℝ) (k k' : Nat → Nat → Nat) : Systems ℝ :=
  ⟨(demoStart j j' k k').heap, fun _ => demoStart j j' k k'⟩

theorem twoOwn_apart : Own.Apart twoOwn := by
  intro j k h
  simp only [twoOwn]
  by_cases j0 : j = 0 <;> by_cases j1 : j = 1 <;> by_cases k0 : k = 0 <;> by_cases k1 : k = 1 <;>
    first | omega | simp [demoOwn, j0, j1, k0, k1]

/-- The hypotheses can be met: while the first system is set up and processed, two bodies are added
to a second one and one of them is changed and removed. -/
example (env env2 : Env ℝ) (j j' : Nat → Nat → ℝ) (k k' : Nat → Nat → Nat) (x : Body ℝ) :
    ∃ v m', (twoStart j j' k k').runAll (fun _ => .opt) (twoProg env env2 x) = .ok m' ∧
      runAll .opt ((demoOps none env env2).take 6) (demoStart j j' k k') = .ok v ∧
      (m'.view 0).bodies 1 = v.bodies 1 := by
  have ho : ∀ p ∈ twoProg env env2 x, p.2.In (twoOwn p.1) := by
    intro p hp
    simp only [twoProg, List.mem_cons, List.not_mem_nil, or_false] at hp
    rcases hp with rfl | rfl | rfl | rfl | rfl | rfl | rfl | rfl | rfl | rfl <;>
      simp [Op.In, twoOwn, demoOwn]
  have hi : ∀ i, ((twoStart j j' k k').view i).In (twoOwn i) := by
    intro i
    refine ⟨(fun _ hb => by cases hb), (fun _ hb => by cases hb), (fun _ hb => by cases hb), ?_, ?_⟩
    · intro c hc
      by_cases h0 : i = 0
      · subst h0; exact (demoStart_in j j' k k').cons c hc
      · rw [twoOwn, if_neg h0] at hc
        split at hc <;> cases hc
    · exact fun _ _ => trivial
  obtain ⟨_, v, e⟩ := demoOps_legal .opt env env2 j j' k k'
  have e : runAll .opt ((demoOps none env env2).take 6) (demoStart j j' k k') = .ok v := e
  obtain ⟨m', hm⟩ := (C106_no_new_errors (cls := fun _ => .opt) twoOwn_apart ho hi).1 fun i => by
    by_cases h0 : i = 0
    · subst h0; exact ⟨v, e⟩
    by_cases h1 : i = 1
    · subst h1
      simp [part, twoProg, runAll, Op.run, World.addBody, World.setBodyIndex, World.removeBody,
        unregister, vecBack, vecSet, vecAt, upd, twoStart, Systems.view, World.amid, World.heap,
        demoStart, World.construct, pure, Except.pure, bind, Except.bind]
    · have : part i (twoProg env env2 x) = [] := by
        simp [part, twoProg, Ne.symm h0, Ne.symm h1]
      exact ⟨_, by rw [this]; rfl⟩
  obtain ⟨u, hu, ha⟩ := C106_independent twoOwn_apart ho hi hm 0
  have : u = v := by
    have hu' : runAll .opt ((demoOps none env env2).take 6) (demoStart j j' k k') = .ok u := hu
    rw [e] at hu'
    cases hu'
    rfl
  subst this
  exact ⟨u, m', hm, e, ha.bodies 1 (.inr rfl)⟩

/-- Two new systems with no bodies yet. -/
example (j j' : Nat → Nat → ℝ) (k k' : Nat → Nat → Nat) :
    ((twoStart j j' k k').sys 0).rb = [] ∧ ((twoStart j j' k k').sys 1).rb = [] := ⟨rfl, rfl⟩

end Scs
