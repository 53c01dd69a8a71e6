import Verif.Systems
import Verif.PropsConfig

/-!
# Systems that share solver objects

As in `Systems.lean`, but the solver objects of the program are listed as well, and several systems may
be given the same one.
-/

namespace Scs

/-- The matrices that are members of a solver object: include/gauss_seidel_sle_solver.h:42-43,
include/gaussian_elimination_sle_solver.h:28-30, include/conjugate_gradient_sle_solver.h:32-39. -/
def MId.ofSolver : MId → Bool
  | .gsM | .geA | .geM | .cgReg0 | .cgReg1 | .cgAp | .cgX | .cgR | .cgP | .cgA => true
  | _ => false

@[inherit_doc MId.ofSolver]
def SId.ofSolver : SId → Bool
  | .gsReg | .geReg => true
  | _ => false

/-- A call of a function of system `sys`, or an action on an object used with it. If it is `initialize`,
`solver` is the solver object handed over, and `ode` the ODE solver object if that is one of those the
systems share (`none`: a new one, described by the arguments of `op`). -/
structure Step (α : Type) where
  sys : Nat
  solver : Nat
  ode : Option Nat
  op : Op α

/-- Any number of `RigidBodySystem` objects (include/rigid_body_system.h:14-66) and solver objects in one
program. Of `sys k` only the members of the system count, of `solver i` only the matrices of a solver;
`uses k` is the solver object system `k` points to (include/generic_rigid_body_system.h:25,
include/optimized_nsv_rigid_body_system.h:31), `usesOde k` the ODE solver object of those that may be shared
(include/generic_rigid_body_system.h:26; `none`: the system has one of its own). As a simplification the
parameters of a solver are those at the time it is handed over. -/
structure Shared (α : Type) where
  heap : Heap α
  sys : Nat → World α
  solver : Nat → Store α
  uses : Nat → Nat
  ode : Nat → Ode α
  usesOde : Nat → Option Nat

section
variable {α : Type}

/-- The memory of a system together with that of its solver object (the members of the system refer to
the solver by a pointer, include/generic_rigid_body_system.h:25). -/
def Store.withSolver (m s : Store α) : Store α :=
  { m with mat := fun a => if a.ofSolver then s.mat a else m.mat a
           smat := fun a => if a.ofSolver then s.smat a else m.smat a }

/-- The ODE solver a system with the pointer `p` works with, include/generic_rigid_body_system.h:26. -/
def Shared.odeAt (m : Shared α) (p : Option Nat) (own : Option (Ode α)) : Option (Ode α) :=
  match p with
  | some i => own.map fun _ => m.ode i
  | none => own

/-- What system `k` works on: its members, the objects in memory and its solver objects. -/
def Shared.view (m : Shared α) (k : Nat) : World α :=
  { (m.sys k).amid m.heap with
    mem := (m.sys k).mem.withSolver (m.solver (m.uses k))
    ode := m.odeAt (m.usesOde k) (m.sys k).ode }

/-- `initialize` stores the pointers to the solvers, src/generic_rigid_body_system.cpp:18-19,
src/optimized_nsv_rigid_body_system.cpp:34 (no ODE solver is handed over there). -/
def Shared.choose (cls : Nat → Cls) (c : Step α) (m : Shared α) : Shared α :=
  match c.op with
  | .init _ _ => { m with
      uses := upd m.uses c.sys c.solver
      usesOde := match cls c.sys with
        | .gen => upd m.usesOde c.sys c.ode
        | .opt => m.usesOde }
  | _ => m

/-- The call with the ODE solver object handed over as it is at that time,
src/generic_rigid_body_system.cpp:17-19. -/
def Step.call (c : Step α) (m : Shared α) : Op α :=
  match c.op with
  | .init sle ode => .init sle (m.odeAt c.ode ode)
  | op => op

/-- The ODE solver object of the system after the call (the system works on it through the pointer,
include/generic_rigid_body_system.h:26). -/
def Shared.putOde (m : Shared α) (k : Nat) (ode : Option (Ode α)) : Nat → Ode α :=
  match m.usesOde k, ode with
  | some i, some o => upd m.ode i o
  | _, _ => m.ode

variable [Zero α] [Add α] [Mul α] [Sub α] [Neg α] [Fp α]

/-- One action (the functions of include/rigid_body_system.h:23-53 are called on the object of system
`c.sys`). -/
def Shared.act (cls : Nat → Cls) (c : Step α) (m : Shared α) : Exec (Shared α) := do
  let w ← (c.call m).run (cls c.sys) (m.view c.sys)
  let n := m.choose cls c
  pure ⟨w.heap, upd m.sys c.sys w, upd m.solver (m.uses c.sys) w.mem, n.uses,
    n.putOde c.sys w.ode, n.usesOde⟩

/-- A program with several systems and solvers. -/
def Shared.runAll (cls : Nat → Cls) : List (Step α) → Shared α → Exec (Shared α)
  | [], m => .ok m
  | p :: ps, m => m.act cls p >>= Shared.runAll cls ps

/-- The actions for system `k`. -/
def callsOf (k : Nat) : List (Step α) → List (Op α)
  | [] => []
  | p :: ps => if p.sys = k then p.op :: callsOf k ps else callsOf k ps

/-! ## Lemmas -/

omit [Add α] [Mul α] [Sub α] [Neg α] [Fp α] in
theorem memOk_withSolver {m s : Store α} (hm : MemOk m) (hs : MemOk s) : MemOk (m.withSolver s) where
  mat := fun i => by
    show (if i.ofSolver then s.mat i else m.mat i).WF
    split
    · exact hs.mat i
    · exact hm.mat i
  plain := fun i h => by
    show (if i.ofSolver then s.mat i else m.mat i).Plain
    split
    · exact hs.plain i h
    · exact hm.plain i h
  smat := fun i => by
    show (if i.ofSolver then s.smat i else m.smat i).WF 3 2
    split
    · exact hs.smat i
    · exact hm.smat i
  fresh := fun i h => by
    show (if i.ofSolver then s.smat i else m.smat i).Fresh
    split
    · exact hs.fresh i h
    · exact hm.fresh i h

omit [Mul α] [Sub α] [Neg α] [Add α] [Fp α] in
/-- Another solver object of the same class. -/
theorem Mate.withSolver {w u : World α} (h : Mate w u) {s : Store α} (hs : MemOk s) :
    Mate w { u with mem := u.mem.withSolver s } := by
  obtain ⟨fx, fy, ft, st, mem, ring, ode, nsv, e⟩ := h.eq
  refine ⟨⟨fx, fy, ft, st, mem.withSolver s, ring, ode, nsv, ?_⟩, h.wf, h.wf', h.n, h.nc, h.ring,
    ⟨h.ring'.size, h.ring'.frame⟩, ?_, h.ode, h.nsv⟩
  · rw [e]; rfl
  · have t := h.mem
    refine ⟨t.ok, memOk_withSolver t.ok' hs, ?_, ?_, ?_, ?_, ?_, ?_, ?_, ?_⟩
    · intro a ha; obtain rfl := List.mem_singleton.1 ha; exact t.width _ (by simp)
    · intro a ha; obtain rfl := List.mem_singleton.1 ha; exact t.height _ (by simp)
    · intro a ha; obtain rfl := List.mem_singleton.1 ha; exact t.ent _ (by simp)
    all_goals intro a ha; cases ha

omit [Mul α] [Sub α] [Neg α] [Add α] [Fp α] in
theorem Ode.Alike.sort : ∀ {a b : Ode α}, a.Alike b → b.sort = a.sort
  | .base _, .base _, _ => rfl
  | .euler _, .euler _, _ => rfl
  | .nsv _, .nsv _, _ => rfl
  | .rk4 _, .rk4 _, _ => rfl

omit [Mul α] [Sub α] [Neg α] [Add α] [Fp α] in
theorem Ode.alike_of_sort : ∀ {a b : Ode α}, b.sort = a.sort → a.sort ≠ 3 → a.Alike b ∧ a.SameSort b
  | .base _, .base _, _, _ => ⟨trivial, trivial⟩
  | .euler _, .euler _, _, _ => ⟨trivial, trivial⟩
  | .nsv _, .nsv _, _, _ => ⟨trivial, trivial⟩
  | .rk4 _, _, _, h => absurd rfl h
  | .base _, .euler _, h, _ | .base _, .nsv _, h, _ | .base _, .rk4 _, h, _ => by simp [Ode.sort] at h
  | .euler _, .base _, h, _ | .euler _, .nsv _, h, _ | .euler _, .rk4 _, h, _ => by simp [Ode.sort] at h
  | .nsv _, .base _, h, _ | .nsv _, .euler _, h, _ | .nsv _, .rk4 _, h, _ => by simp [Ode.sort] at h

omit [Mul α] [Sub α] [Neg α] [Add α] [Fp α] in
/-- Another ODE solver object of the same class. -/
theorem Mate.withOde {w u : World α} (h : Mate w u) {d : Option (Ode α)} (hd : OdeLike w.ode d) :
    Mate w { u with ode := d } := by
  obtain ⟨fx, fy, ft, st, mem, ring, ode, nsv, e⟩ := h.eq
  refine ⟨⟨fx, fy, ft, st, mem, ring, d, nsv, ?_⟩, h.wf, h.wf', h.n, h.nc, h.ring,
    ⟨h.ring'.size, h.ring'.frame⟩, h.mem, hd, h.nsv⟩
  rw [e]; rfl

omit [Add α] [Mul α] [Sub α] [Neg α] [Fp α] in
theorem Op.Valid.same {G : Gen α → Prop} {h : List (Op α)} {op : Op α} (hv : op.Valid G h) :
    op.Same op := by
  cases op with
  | init sle ode =>
    cases ode with
    | none => rfl
    | some o =>
      refine ⟨rfl, ?_⟩
      have hi : o.Idle := hv o rfl
      cases o with
      | rk4 r => exact ⟨hi, hi, rfl, rfl, rfl, rfl⟩
      | _ => trivial
  | newCon c x => exact ⟨rfl, rfl⟩
  | setCon c x => exact ⟨rfl, rfl⟩
  | process e d n => exact ⟨rfl, rfl⟩
  | _ => rfl

variable {o : Nat → Own} {cls : Nat → Cls}

/-- System `k` of the program and its own run. -/
structure Shared.Tracks (o : Nat → Own) (cls : Nat → Cls) (m : Shared α) (k : Nat) (h : List (Op α))
    (w : World α) : Prop where
  hist : World.Hist (fun _ => True) (cls k) h w
  mate : ∃ u : World α, Mate w u ∧ u.AgreeOn (o k) ((m.sys k).amid m.heap) ∧ u.In (o k)
  sort : ∀ i x, m.usesOde k = some i → (m.sys k).ode = some x → x.sort = (m.ode i).sort ∧ x.sort ≠ 3

theorem OdeLike.sort {a b : Option (Ode α)} (h : OdeLike a b) : b.map Ode.sort = a.map Ode.sort := by
  cases a <;> cases b
  · rfl
  · exact h.elim
  · exact h.elim
  · exact congrArg some (Ode.Alike.sort h)

/-- The hypothesis on the ODE solvers: the shared ones are not RK4 objects. -/
def OdesFit (m : Shared α) (p : Step α) : Prop :=
  ∀ i, p.ode = some i → ∀ sle x, p.op = .init sle (some x) → x.sort = (m.ode i).sort ∧ x.sort ≠ 3

theorem call_in {m : Shared α} {p : Step α} {o : Own} (h : p.op.In o) : (p.call m).In o := by
  obtain ⟨k, i, d, op⟩ := p
  cases op <;> exact h

theorem call_same {m : Shared α} {p : Step α} (hf : OdesFit m p) (hs : p.op.Same p.op) :
    p.op.Same (p.call m) := by
  obtain ⟨k, i, d, op⟩ := p
  cases op with
  | init sle x =>
    cases x with
    | none => cases d <;> exact hs
    | some x =>
      cases d with
      | none => exact hs
      | some a =>
        obtain ⟨h1, h2⟩ := hf a rfl sle x rfl
        exact ⟨rfl, (Ode.alike_of_sort h1.symm h2).2⟩
  | _ => exact hs

/-- The class of the ODE solver in use after a call. -/
theorem sort_after {m : Shared α} {p : Step α} (hf : OdesFit m p) {h : List (Op α)} {w v x : World α}
    (hw : World.Hist (fun _ => True) (cls p.sys) h w) (e : p.op.run (cls p.sys) w = .ok v)
    (hx : OdeLike v.ode x.ode)
    (hsort : ∀ i y, m.usesOde p.sys = some i → w.ode = some y → y.sort = (m.ode i).sort ∧ y.sort ≠ 3)
    (i : Nat) (y : Ode α) (hi : (m.choose cls p).usesOde p.sys = some i) (hy : x.ode = some y) :
    y.sort = (m.ode i).sort ∧ y.sort ≠ 3 := by
  have hxs := hx.sort
  rw [hy] at hxs
  have hnon : ((m.choose cls p).usesOde = m.usesOde) → v.ode.map Ode.sort = w.ode.map Ode.sort →
      y.sort = (m.ode i).sort ∧ y.sort ≠ 3 := by
    intro e1 e2
    rw [e2] at hxs
    cases hz : w.ode with
    | none => rw [hz] at hxs; cases hxs
    | some z =>
      rw [hz] at hxs
      have e3 : y.sort = z.sort := Option.some.inj hxs
      rw [e3]
      exact hsort i z (e1 ▸ hi) hz
  by_cases hin : ∃ s d, p.op = .init s d
  · obtain ⟨s, d, hop⟩ := hin
    rw [hop] at e
    cases hc : cls p.sys with
    | opt =>
      rw [hc] at e
      refine hnon ?_ ?_
      · simp only [Shared.choose, hop, hc]
      · cases e; rfl
    | gen =>
      rw [hc] at e
      have e : w.genInit s d = .ok v := e
      rw [World.genInit] at e
      obtain ⟨mm, _, e⟩ := bind_eq_ok e
      cases e
      simp only [Shared.choose, hop, hc, upd_same] at hi
      cases d with
      | none => cases hxs
      | some z =>
        have e3 : y.sort = z.sort := Option.some.inj hxs
        rw [e3]
        exact hf i hi s z hop
  · have h2 : ∀ s d, p.op ≠ .init s d := fun s d hx => hin ⟨s, d, hx⟩
    refine hnon ?_ ?_
    · rw [Shared.choose]
      cases hop : p.op with
      | init s d => exact absurd hop (h2 s d)
      | _ => rfl
    · by_cases h1 : ∃ b, p.op = .setBias b
      · obtain ⟨b, hb⟩ := h1
        rw [hb] at e
        cases e; rfl
      · exact (run_keeps hw.regs.nsv e (fun b hb => h1 ⟨b, hb⟩) h2).2.2

theorem shared_run (ha : Own.Apart o) {prog : List (Step α)} (hp : ∀ p ∈ prog, p.op.In (o p.sys))
    {m : Shared α} (hs : ∀ i, MemOk (m.solver i)) (hf : ∀ p ∈ prog, OdesFit m p)
    {h : Nat → List (Op α)} {w : Nat → World α} (hw : ∀ k, m.Tracks o cls k (h k) (w k))
    (hl : ∀ k, Legal (cls k) (h k) (w k) (callsOf k prog)) :
    (∀ m', m.runAll cls prog = .ok m' → ∀ k, ∃ v h', Scs.runAll (cls k) (callsOf k prog) (w k) = .ok v ∧
      m'.Tracks o cls k h' v) ∧
    ∀ e, m.runAll cls prog = .error e →
      ∃ k, Scs.runAll (cls k) (callsOf k prog) (w k) = .error e := by
  induction prog generalizing m h w with
  | nil =>
    refine ⟨fun m' e k => ⟨w k, h k, rfl, ?_⟩, fun e h => by cases h⟩
    cases e
    exact hw k
  | cons p ps ih =>
    obtain ⟨k, hk⟩ : ∃ k, k = p.sys := ⟨_, rfl⟩
    have hin : ∀ q ∈ ps, q.op.In (o q.sys) := fun q hq => hp q (by simp [hq])
    have hpart : ∀ j, callsOf j (p :: ps) =
        if k = j then p.op :: callsOf j ps else callsOf j ps := fun j => by rw [hk]; rfl
    have halone : Scs.runAll (cls k) (callsOf k (p :: ps)) (w k) =
        p.op.run (cls k) (w k) >>= Scs.runAll (cls k) (callsOf k ps) := by
      rw [hpart, if_pos rfl]; rfl
    have hlk := hl k
    rw [hpart, if_pos rfl] at hlk
    obtain ⟨n, hn⟩ : ∃ n : Shared α, n = m.choose cls p := ⟨_, rfl⟩
    have n1 : n.ode = m.ode := by
      rw [hn, Shared.choose]
      split <;> rfl
    have n2 : ∀ j, j ≠ k → n.usesOde j = m.usesOde j := by
      intro j hj
      rw [hn, Shared.choose]
      split
      · cases cls p.sys
        · rfl
        · exact upd_other _ _ (hk ▸ hj)
      · rfl
    have hrun : m.runAll cls (p :: ps) = (p.call m).run (cls k) (m.view k) >>= fun v =>
        (⟨v.heap, upd m.sys k v, upd m.solver (m.uses k) v.mem, n.uses, n.putOde k v.ode, n.usesOde⟩ :
          Shared α).runAll cls ps := by
      rw [hk, hn]
      show ((p.call m).run (cls p.sys) (m.view p.sys) >>= _) >>= _ = _
      cases (p.call m).run (cls p.sys) (m.view p.sys) <;> rfl
    obtain ⟨u, hm, hag, hui⟩ := (hw k).mate
    have hou : (m.sys k).ode = u.ode := by
      have := congrArg World.ode hag.system
      exact this
    have hsw : ∀ i y, m.usesOde k = some i → (w k).ode = some y →
        y.sort = (m.ode i).sort ∧ y.sort ≠ 3 := by
      intro i y hi hy
      have h1 := hm.ode.sort
      rw [hy, ← hou] at h1
      cases hz : (m.sys k).ode with
      | none => rw [hz] at h1; cases h1
      | some z =>
        rw [hz] at h1
        have e3 : z.sort = y.sort := Option.some.inj h1
        rw [← e3]
        exact (hw k).sort i z hi hz
    have hlike : OdeLike (w k).ode (m.odeAt (m.usesOde k) u.ode) := by
      cases hi : m.usesOde k with
      | none => exact hm.ode
      | some i =>
        have h1 := hm.ode
        cases hy : (w k).ode with
        | none =>
          rw [hy] at h1
          cases hz : u.ode with
          | none => trivial
          | some z => rw [hz] at h1; exact h1.elim
        | some y =>
          rw [hy] at h1
          cases hz : u.ode with
          | none => rw [hz] at h1; exact h1.elim
          | some z =>
            obtain ⟨h2, h3⟩ := hsw i y hi hy
            exact (Ode.alike_of_sort h2.symm h3).1
    have hm' := (hm.withSolver (hs (m.uses k))).withOde hlike
    obtain ⟨u', hu'⟩ : ∃ u' : World α, u' = { u with
      mem := u.mem.withSolver (m.solver (m.uses k)), ode := m.odeAt (m.usesOde k) u.ode } := ⟨_, rfl⟩
    have hm' : Mate (w k) u' := hu' ▸ hm'
    have hag' : World.AgreeOn (o k) u' (m.view k) := by
      rw [hu', Shared.view]
      refine ⟨hag.bodies, hag.cons, hag.gens, ?_⟩
      have e1 := hag.system
      have e2 : (m.sys k).mem = u.mem := hag.mem
      rw [e2, hou]
      rw [e1]
    have hloc := op_local (cls k) (call_in (m := m) (hk ▸ hp p (by simp))) hag'
      (hu' ▸ ⟨hui.rb, hui.cs, hui.fg, hui.cons, hui.gens⟩)
    have hrel := Op.run_rel hm' (hw k).hist.regs hlk.2.1 (call_same (hf p (by simp)) hlk.1.same)
    rw [hrun]
    cases e1 : (p.call m).run (cls k) (m.view k) with
    | error e' =>
      refine ⟨(fun m' e => by cases e), fun e he => ⟨k, ?_⟩⟩
      rw [halone]
      cases e2 : (p.call m).run (cls k) u' with
      | ok v => rw [e1, e2] at hloc; exact hloc.elim
      | error e2' =>
        rw [e1, e2] at hloc
        cases e3 : p.op.run (cls k) (w k) with
        | ok v => rw [e2, e3] at hrel; exact hrel.elim
        | error e3' =>
          rw [e2, e3] at hrel
          cases he; cases hloc; cases hrel; rfl
    | ok v' =>
      cases e2 : (p.call m).run (cls k) u' with
      | error e2' => rw [e1, e2] at hloc; exact hloc.elim
      | ok x =>
        rw [e1, e2] at hloc
        cases e3 : p.op.run (cls k) (w k) with
        | error e3' => rw [e2, e3] at hrel; exact hrel.elim
        | ok v =>
          rw [e2, e3] at hrel
          have hc : Confined (o k) _ (m.view k) x v' := hloc
          have hmv : Mate v x := hrel
          have hmem : MemOk v'.mem := by rw [hc.agree.mem]; exact hmv.mem.ok'
          have hov : v'.ode = x.ode := by
            have := congrArg World.ode hc.agree.system
            exact this
          -- the ODE solver objects stay of their classes
          have hafter : ∀ i y, n.usesOde k = some i → v'.ode = some y →
              y.sort = (m.ode i).sort ∧ y.sort ≠ 3 := by
            intro i y hi hy
            rw [hov] at hy
            subst hk
            exact sort_after (hf p (by simp)) (hw _).hist e3 hmv.ode hsw i y (hn ▸ hi) hy
          have hput : ∀ i, (n.putOde k v'.ode i).sort = (m.ode i).sort := by
            intro i
            cases ha' : n.usesOde k with
            | none => simp only [Shared.putOde, ha', n1]
            | some a =>
              cases hy : v'.ode with
              | none => simp only [Shared.putOde, ha', n1]
              | some y =>
                simp only [Shared.putOde, ha', n1]
                by_cases hia : i = a
                · subst hia; rw [upd_same]; exact (hafter i y ha' hy).1
                · rw [upd_other _ _ hia]
          have hw' : ∀ j, (⟨v'.heap, upd m.sys k v', upd m.solver (m.uses k) v'.mem, n.uses,
              n.putOde k v'.ode, n.usesOde⟩ : Shared α).Tracks o cls j (upd h k (p.op :: h k) j)
                (upd w k v j) := by
            intro j
            by_cases hj : j = k
            · subst hj
              rw [upd_same, upd_same]
              refine ⟨.step p.op (hw j).hist hlk.1 e3, ⟨x, hmv, ?_, hc.inside⟩, fun i y hi hy => ?_⟩
              · simp only [upd_same]
                exact hc.agree
              · simp only [upd_same] at hy
                show _ = (n.putOde j v'.ode i).sort ∧ _
                rw [hput]
                exact hafter i y hi hy
            · rw [upd_other _ _ hj, upd_other _ _ hj]
              obtain ⟨y, a1, a2, a3⟩ := (hw j).mate
              refine ⟨(hw j).hist, ⟨y, a1, a2.trans ?_, a3⟩, fun i y hi hy => ?_⟩
              · simp only [upd_other _ _ hj]
                have hd := ha j k hj
                have hr := hc.right
                exact ⟨fun b hb => hr.bodies b (Set.disjoint_left.1 hd.1 hb),
                  fun b hb => hr.cons b (Set.disjoint_left.1 hd.2.1 hb),
                  fun b hb => hr.gens b (Set.disjoint_left.1 hd.2.2 hb), rfl⟩
              · simp only [upd_other _ _ hj] at hy
                show _ = (n.putOde k v'.ode i).sort ∧ _
                rw [hput]
                have hi : n.usesOde j = some i := hi
                rw [n2 j hj] at hi
                exact (hw j).sort i y hi hy
          have hs' : ∀ a, MemOk (upd m.solver (m.uses k) v'.mem a) := by
            intro a
            by_cases hj : a = m.uses k
            · subst hj; rw [upd_same]; exact hmem
            · rw [upd_other _ _ hj]; exact hs a
          have hf' : ∀ q ∈ ps, OdesFit (⟨v'.heap, upd m.sys k v', upd m.solver (m.uses k) v'.mem, n.uses,
              n.putOde k v'.ode, n.usesOde⟩ : Shared α) q := by
            intro q hq i hi sle y hy
            show _ = (n.putOde k v'.ode i).sort ∧ _
            rw [hput]
            exact hf q (by simp [hq]) i hi sle y hy
          have hl' : ∀ j, Legal (cls j) (upd h k (p.op :: h k) j) (upd w k v j) (callsOf j ps) := by
            intro j
            by_cases hj : j = k
            · subst hj; rw [upd_same, upd_same]; exact hlk.2.2 v e3
            · rw [upd_other _ _ hj, upd_other _ _ hj]
              have := hl j
              rwa [hpart, if_neg (fun h => hj h.symm)] at this
          obtain ⟨h1, h2⟩ := ih hin hs' hf' hw' hl'
          have hstep : ∀ j, Scs.runAll (cls j) (callsOf j (p :: ps)) (w j) =
              Scs.runAll (cls j) (callsOf j ps) (upd w k v j) := by
            intro j
            by_cases hj : j = k
            · subst hj; rw [halone, e3, upd_same]; rfl
            · rw [hpart, if_neg (fun h => hj h.symm), upd_other _ _ hj]
          refine ⟨fun m' e j => ?_, fun e he => ?_⟩
          · obtain ⟨v, h', a, b⟩ := h1 m' e j
            exact ⟨v, h', by rw [hstep]; exact a, b⟩
          · obtain ⟨j, hj⟩ := h2 e he
            exact ⟨j, by rw [hstep]; exact hj⟩

end

end Scs
