import Verif.Shared
import Verif.PropsLocal
import Verif.PropsConfig

/-!
# C107: solver objects may be shared

Several systems that have no bodies, constraints and force generators in common, but may have been given
the same solver objects. `Shared`, at the beginning of `Shared.lean`, is the memory of such a program.
-/

namespace Scs

section
variable {α : Type} [Zero α] [Add α] [Mul α] [Sub α] [Neg α] [Fp α] {o : Nat → Own}
  {cls : Nat → Cls} {prog : List (Step α)} {m : Shared α}

/-- What the program sees of the system and its objects is the same. -/
structure World.SameFor (o : Own) (v v' : World α) : Prop where
  bodies : ∀ b ∈ o.bodies, v'.bodies b = v.bodies b
  cons : ∀ c ∈ o.cons, (v.cons c).SameBut (v'.cons c)
  gens : ∀ g ∈ o.gens, v'.gens g = v.gens g
  rb : v'.rb = v.rb
  cs : v'.cs = v.cs
  fg : v'.fg = v.fg
  t : v'.t = v.t
  bias : v'.bias = v.bias

/-- The systems are new; their memory has arbitrary contents. -/
def Shared.New (m : Shared α) : Prop :=
  ∀ k, ∃ j j' l l', m.sys k = World.construct m.heap.bodies m.heap.cons m.heap.gens m.heap.genIndex
    (Store.fresh j l) j' l'

theorem Shared.New.tracks (hm : m.New) (hi : ∀ k, (m.sys k).In (o k)) (k : Nat) :
    m.Tracks o cls k [] (m.sys k) := by
  obtain ⟨j, j', l, l', e⟩ := hm k
  rw [e]
  refine ⟨.start _ _ _ _ (fun _ => trivial) _ _ _ _, ⟨_, World.mate_start
    (show ∀ c, (m.heap.cons c).SameBut (m.heap.cons c) from fun _ => rfl) j j j' j' l l l' l',
    ?_, e ▸ hi k⟩, fun i x _ hx => ?_⟩
  · rw [e]
    exact .refl _
  · rw [e] at hx
    cases hx

/-- The shared ODE solver objects a call hands over are of the class its arguments say, and not
`Rk4OdeSolver` objects. -/
def Shared.Shareable (m : Shared α) (p : Step α) : Prop :=
  ∀ i, p.ode = some i → ∀ sle x, p.op = .init sle (some x) → x.sort = (m.ode i).sort ∧ x.sort ≠ 3

/-- **C107**: any number of systems of either class that share no objects but may share solver objects and
ODE solver objects (not RK4), which may have been used before: in a program that uses them in any order each
ends up as if it had solvers of its own and its own actions had been the whole program. -/
theorem C107_shared_solvers (ha : Own.Apart o) (hp : ∀ p ∈ prog, p.op.In (o p.sys)) (hm : m.New)
    (hi : ∀ k, (m.sys k).In (o k)) (hs : ∀ i, MemOk (m.solver i)) (hf : ∀ p ∈ prog, m.Shareable p)
    (hl : ∀ k, Legal (cls k) [] (m.sys k) (callsOf k prog)) {m' : Shared α}
    (e : m.runAll cls prog = .ok m') (k : Nat) :
    ∃ v, runAll (cls k) (callsOf k prog) (m.sys k) = .ok v ∧ v.SameFor (o k) (m'.view k) := by
  obtain ⟨v, h', e1, t⟩ := (shared_run ha hp hs hf (hm.tracks hi) hl).1 m' e k
  obtain ⟨u, hu, hg, -⟩ := t.mate
  have s := hu.sight
  refine ⟨v, e1, ⟨fun b hb => ?_, fun c hc => ?_, fun g hg' => ?_, ?_, ?_, ?_, ?_, ?_⟩⟩
  · exact (hg.bodies b hb).trans (by rw [s.bodies])
  · have := s.cons c
    rw [← hg.cons c hc] at this
    exact this
  · exact (hg.gens g hg').1.trans (by rw [s.gens])
  · exact hg.rb.trans s.rb
  · exact hg.cs.trans s.cs
  · exact hg.fg.trans s.fg
  · exact hg.t.trans s.t
  · exact hg.bias.trans s.bias

/-- **C107**: such a program returns if each system's own actions do; otherwise it stops with an error
one of the systems causes alone. -/
theorem C107_no_new_errors (ha : Own.Apart o) (hp : ∀ p ∈ prog, p.op.In (o p.sys)) (hm : m.New)
    (hi : ∀ k, (m.sys k).In (o k)) (hs : ∀ i, MemOk (m.solver i)) (hf : ∀ p ∈ prog, m.Shareable p)
    (hl : ∀ k, Legal (cls k) [] (m.sys k) (callsOf k prog)) :
    ((∀ k, ∃ v, runAll (cls k) (callsOf k prog) (m.sys k) = .ok v) → ∃ m', m.runAll cls prog = .ok m') ∧
    ∀ e, m.runAll cls prog = .error e →
      ∃ k, runAll (cls k) (callsOf k prog) (m.sys k) = .error e := by
  have hr := (shared_run ha hp hs hf (hm.tracks hi) hl).2
  refine ⟨fun h => ?_, hr⟩
  cases e : m.runAll cls prog with
  | ok m' => exact ⟨m', rfl⟩
  | error e' =>
    obtain ⟨k, hk⟩ := hr e' e
    obtain ⟨v, hv⟩ := h k
    rw [hv] at hk
    cases hk

end

/-! ## An example -/

theorem Shared.uses_of_runAll {cls : Nat → Cls} {m' : Shared ℝ} : ∀ (prog : List (Step ℝ)) (m : Shared ℝ),
    m.runAll cls prog = .ok m' →
    m'.uses = prog.foldl (fun u c => match c.op with
      | .init _ _ => upd u c.sys c.solver
      | _ => u) m.uses ∧
    m'.usesOde = prog.foldl (fun u c => match c.op with
      | .init _ _ => (match cls c.sys with
        | .gen => upd u c.sys c.ode
        | .opt => u)
      | _ => u) m.usesOde
  | [], m, e => by cases e; exact ⟨rfl, rfl⟩
  | p :: ps, m, e => by
    obtain ⟨m1, e1, e2⟩ := bind_eq_ok e
    obtain ⟨w, -, e4⟩ := bind_eq_ok e1
    obtain ⟨h1, h2⟩ := Shared.uses_of_runAll ps m1 e2
    rw [h1, h2, List.foldl_cons, List.foldl_cons]
    cases e4
    cases p with
    | mk k i d op => cases op <;> exact ⟨rfl, rfl⟩

/-- Two systems with the same solver objects: the program of `demoOps_legal` for the first, and two free
bodies in the second, which is processed in between. -/
noncomputable def poolProg (cls : Cls) (env env2 : Env ℝ) : List (Step ℝ) :=
  [⟨0, 0, none, .addBody 0⟩, ⟨1, 0, none, .addBody 2⟩, ⟨0, 0, none, .addBody 1⟩, ⟨0, 0, none, .addCon 0⟩,
    ⟨1, 0, none, .addBody 3⟩, ⟨0, 0, none, .addGen 0⟩, ⟨1, 7, some 5, .init (some .ge) (demoOde cls)⟩,
    ⟨0, 7, some 5, .init (some .ge) (demoOde cls)⟩, ⟨1, 0, none, .process env2 3 2⟩,
    ⟨0, 0, none, .process env 2 4⟩]

/-- Both systems before the program starts. -/
noncomputable def poolStart (j j' : Nat → Nat → ℝ) (k k' : Nat → Nat → Nat) : Shared ℝ :=
  ⟨(demoStart j j' k k').heap, fun _ => demoStart j j' k k', fun _ => Store.fresh j k, fun _ => 0,
    fun _ => .newEuler, fun _ => none⟩

/-- The second system alone. -/
theorem pool_second (cls : Cls) (env2 : Env ℝ) (j j' : Nat → Nat → ℝ) (k k' : Nat → Nat → Nat) :
    let ops : List (Op ℝ) := [.addBody 2, .addBody 3, .init (some .ge) (demoOde cls), .process env2 3 2]
    Legal cls [] (demoStart j j' k k') ops ∧ ∃ v, runAll cls ops (demoStart j j' k k') = .ok v := by
  have a0 : World.Hist Gen.Shipped cls [] (demoStart j j' k k') :=
    .start _ _ _ _ (fun _ => trivial) _ _ _ _
  have a1 := a0.step (.addBody 2) (by simp [Op.Valid, regBodies]) rfl
  have a2 := a1.step (.addBody 3) (by simp [Op.Valid, regBodies]) rfl
  obtain ⟨w0, hw0⟩ : ∃ w0 : World ℝ, w0 = ((demoStart j j' k k').addBody 2).addBody 3 := ⟨_, rfl⟩
  have a2 : World.Hist Gen.Shipped cls [.addBody 3, .addBody 2] w0 := hw0 ▸ a2
  have hval : Op.Valid Gen.Shipped [.addBody 3, .addBody 2] (.init (some .ge) (demoOde cls)) := by
    intro o ho
    cases cls <;> cases ho
    trivial
  obtain ⟨w, e, hw, hode, hlam⟩ : ∃ w, Op.run cls (.init (some .ge) (demoOde cls)) w0 = .ok w ∧
      (∃ m d, w = { w0 with sle := some .ge, ode := d, mem := m }) ∧
      (cls = .gen → w.ode = some .newEuler) ∧ (w.mem.mat .ivLambda).height = 0 := by
    cases cls with
    | opt => exact ⟨_, rfl, ⟨_, _, rfl⟩, nofun, by rw [hw0]; rfl⟩
    | gen =>
      obtain ⟨m, e, sp⟩ := Store.init0_spec w0.mem .ivLambda 0 0
        ((a2.sound divOk_real (fun g => Gen.tame)).mem.mat _)
      refine ⟨{ w0 with sle := some .ge, ode := some .newEuler, mem := m }, ?_, ⟨_, _, rfl⟩,
        fun _ => rfl, ?_⟩
      · show World.genInit _ _ _ = _
        rw [World.genInit, e, ok_bind]
        rfl
      · exact sp.height
  have a3 := a2.step _ hval e
  have hrb : w.rb = [2, 3] ∧ w.cs = [] ∧ w.fg = [] ∧ w.sle = some .ge := by
    obtain ⟨m, d, rfl⟩ := hw
    rw [hw0]
    exact ⟨rfl, rfl, rfl, rfl⟩
  have hu : World.Usual w [.init (some .ge) (demoOde cls), .addBody 3, .addBody 2] :=
    ⟨fun c hc => (by cases hc), fun c hc => (by cases hc), fun g hg => (by cases hg),
      fun c hc => (by cases hc)⟩
  refine ⟨⟨by simp [Op.Valid, regBodies], trivial, fun w1 h1 => ?_⟩, ?_⟩
  · cases h1
    refine ⟨by simp [Op.Valid, regBodies], trivial, fun w1 h1 => ?_⟩
    cases h1
    rw [← hw0]
    refine ⟨fun o ho => hval o ho, trivial, fun w1 h1 => ?_⟩
    cases e.symm.trans h1
    refine ⟨trivial, ⟨hu, fun hc => ⟨fun sv hs => ?_, fun r hr => ?_⟩⟩, fun _ _ => trivial⟩
    · rw [hrb.2.2.2] at hs
      cases hs
      trivial
    · rw [hode hc] at hr
      cases hr
  · have hm : ∀ b ∈ w.rb, ∀ q : Coord, (w.bodies b).mass q ≠ 0 := by
      intro b hb q
      rw [hrb.1] at hb
      have : (w.bodies b).mass q = (demoBody b).mass q := by
        obtain ⟨m, d, rfl⟩ := hw
        rw [hw0]
        simp only [List.mem_cons, List.not_mem_nil, or_false] at hb
        rcases hb with rfl | rfl <;> cases q <;> rfl
      rw [this]
      cases q <;> exact one_ne_zero
    have hst : w.Standard [.init (some .ge) (demoOde cls), .addBody 3, .addBody 2] :=
      ⟨hu.kind, hu.bodies, hu.gens, hu.near⟩
    obtain ⟨w', e'⟩ : ∃ w', w.process cls env2 3 2 = .ok w' := by
      cases cls with
      | opt =>
        exact a3.goes (fun g => Gen.tame) hst (dt := 3) (steps := 2) hm (by norm_num)
          (by rw [hrb.2.2.2]; simp) (fun _ _ => True) (fun _ _ _ => trivial)
          (fun _ _ _ _ _ _ _ => trivial) (fun _ _ _ _ hc => absurd hrb.2.1 hc)
          (fun _ sv hsv => by rw [hrb.2.2.2] at hsv; cases hsv; exact hlam) env2
      | gen =>
        exact a3.goesG (fun g => Gen.tame) hst (dt := 3) (steps := 2) (hode rfl) (sym := false) rfl hm
          (by rw [hrb.2.2.2]; simp) (fun m e he => by rw [hrb.2.2.2] at he; cases he)
          (fun _ _ => True) (fun _ _ _ => trivial)
          (fun _ _ _ _ _ _ _ => trivial) (fun _ _ _ _ hc => absurd hrb.2.1 hc)
          (fun _ sv hsv => by rw [hrb.2.2.2] at hsv; cases hsv; exact hlam) env2
    refine ⟨w', ?_⟩
    show (Op.run cls (.init (some .ge) (demoOde cls)) (((demoStart j j' k k').addBody 2).addBody 3) >>=
      fun w => World.process cls w env2 3 2 >>= runAll cls []) = _
    rw [← hw0, e]
    show (World.process cls w env2 3 2 >>= runAll cls []) = _
    exact (congrArg (· >>= runAll cls []) e').trans rfl

/-- The hypotheses can be met in both classes: both systems work with the solver object 7 and, in the
generic class, with the Euler solver object 5. -/
example (cls : Cls) (env env2 : Env ℝ) (j j' : Nat → Nat → ℝ) (k k' : Nat → Nat → Nat) :
    ∃ v m', (poolStart j j' k k').runAll (fun _ => cls) (poolProg cls env env2) = .ok m' ∧
      m'.uses 0 = m'.uses 1 ∧ (cls = .gen → m'.usesOde 0 = some 5 ∧ m'.usesOde 1 = some 5) ∧
      runAll cls ((demoOps (demoOde cls) env env2).take 6) (demoStart j j' k k') = .ok v ∧
      (m'.view 0).bodies 1 = v.bodies 1 := by
  have ho : ∀ p ∈ poolProg cls env env2, p.op.In (twoOwn p.sys) := by
    intro p hp
    simp only [poolProg, List.mem_cons, List.not_mem_nil, or_false] at hp
    rcases hp with rfl | rfl | rfl | rfl | rfl | rfl | rfl | rfl | rfl | rfl <;>
      simp [Op.In, twoOwn, demoOwn]
  have hf : ∀ p ∈ poolProg cls env env2, (poolStart j j' k k').Shareable p := by
    intro p hp i hi sle x hx
    simp only [poolProg, List.mem_cons, List.not_mem_nil, or_false] at hp
    have key : demoOde cls = some x → x.sort = ((poolStart j j' k k').ode i).sort ∧ x.sort ≠ 3 := by
      intro h
      cases cls <;> cases h
      exact ⟨rfl, by decide⟩
    rcases hp with rfl | rfl | rfl | rfl | rfl | rfl | rfl | rfl | rfl | rfl <;>
      first | cases hx; done | (injection hx with _ hx; exact key hx)
  have hi : ∀ i, ((poolStart j j' k k').sys i).In (twoOwn i) := by
    intro i
    refine ⟨(fun _ hb => by cases hb), (fun _ hb => by cases hb), (fun _ hb => by cases hb), ?_, ?_⟩
    · intro c hc
      by_cases h0 : i = 0
      · subst h0; exact (demoStart_in j j' k k').cons c hc
      · rw [twoOwn, if_neg h0] at hc
        split at hc <;> cases hc
    · exact fun _ _ => trivial
  obtain ⟨hl, v, e⟩ := demoOps_legal cls env env2 j j' k k'
  obtain ⟨hl1, v1, e1⟩ := pool_second cls env2 j j' k k'
  have c0 : callsOf 0 (poolProg cls env env2) = (demoOps (demoOde cls) env env2).take 6 := rfl
  have c1 : callsOf 1 (poolProg cls env env2) =
      [.addBody 2, .addBody 3, .init (some .ge) (demoOde cls), .process env2 3 2] := rfl
  have c2 : ∀ i, i ≠ 0 → i ≠ 1 → callsOf i (poolProg cls env env2) = [] := fun i h0 h1 => by
    simp [callsOf, poolProg, Ne.symm h0, Ne.symm h1]
  have hn : (poolStart j j' k k').New := fun i => ⟨j, j', k, k', rfl⟩
  have hs : ∀ i, MemOk ((poolStart j j' k k').solver i) := fun _ => Inv.ofFresh 3 2 j k
  have hL : ∀ i, Legal cls [] ((poolStart j j' k k').sys i) (callsOf i (poolProg cls env env2)) := by
    intro i
    by_cases h0 : i = 0
    · subst h0; rw [c0]; exact hl.take 6
    by_cases h1 : i = 1
    · subst h1; rw [c1]; exact hl1
    · rw [c2 i h0 h1]; trivial
  obtain ⟨m', hm⟩ := (C107_no_new_errors (cls := fun _ => cls) twoOwn_apart ho hn hi hs hf hL).1
    fun i => by
      by_cases h0 : i = 0
      · subst h0; exact ⟨v, e⟩
      by_cases h1 : i = 1
      · subst h1; exact ⟨v1, e1⟩
      · exact ⟨_, by rw [c2 i h0 h1]; rfl⟩
  obtain ⟨u, hu, ha⟩ := C107_shared_solvers twoOwn_apart ho hn hi hs hf hL hm 0
  have : u = v := Except.ok.inj (hu.symm.trans e)
  subst this
  refine ⟨u, m', hm, ?_, ?_, e, ha.bodies 1 (.inr rfl)⟩
  · rw [(Shared.uses_of_runAll _ _ hm).1]
    rfl
  · rintro rfl
    rw [(Shared.uses_of_runAll _ _ hm).2]
    exact ⟨rfl, rfl⟩

end Scs
