import Verif.Local

/-!
# Several systems in one program

The bodies, constraints and force generators of a program live in one memory; each system refers to
some of them. A system together with that memory is a `World`.
-/

namespace Scs

/-- The bodies, constraints and force generators of the program with the indices the systems wrote
into them: include/rigid_body.h:6-29, include/constraint.h:12-43, include/force_generator.h:6-14. -/
structure Heap (α : Type) where
  bodies : Nat → Body α
  cons : Nat → Con α
  gens : Nat → Gen α
  genIndex : Nat → Option Int

/-- Any number of `RigidBodySystem` objects (include/rigid_body_system.h:14-66) in one program. Of
`sys k` only the members of the system count; the objects are those in `heap`. As a simplification
each system has its own solver objects (shared ones: Shared.lean). -/
structure Systems (α : Type) where
  heap : Heap α
  sys : Nat → World α

section
variable {α : Type}

/-- The objects in a world. -/
def World.heap (w : World α) : Heap α := ⟨w.bodies, w.cons, w.gens, w.genIndex⟩

/-- The system with other objects in memory. -/
def World.amid (w : World α) (H : Heap α) : World α :=
  { w with bodies := H.bodies, cons := H.cons, gens := H.gens, genIndex := H.genIndex }

/-- What system `k` works on, include/rigid_body_system.h:55-66: its members and the objects in
memory. -/
def Systems.view (m : Systems α) (k : Nat) : World α := (m.sys k).amid m.heap

variable [Zero α] [Add α] [Mul α] [Sub α] [Neg α] [Fp α]

/-- An action for system `k`, or on an object used with it (the functions of
include/rigid_body_system.h:23-53 are called on the object of system `k`). -/
def Systems.act (cls : Nat → Cls) (k : Nat) (op : Op α) (m : Systems α) : Exec (Systems α) := do
  let w ← op.run (cls k) (m.view k)
  pure ⟨w.heap, upd m.sys k w⟩

/-- A program with several systems: each action says which system it is for. -/
def Systems.runAll (cls : Nat → Cls) : List (Nat × Op α) → Systems α → Exec (Systems α)
  | [], m => .ok m
  | p :: ps, m => m.act cls p.1 p.2 >>= Systems.runAll cls ps

/-- The actions for system `k`. -/
def part (k : Nat) : List (Nat × Op α) → List (Op α)
  | [] => []
  | p :: ps => if p.1 = k then p.2 :: part k ps else part k ps

end

/-- No object is used for two systems. -/
def Own.Apart (o : Nat → Own) : Prop :=
  ∀ j k, j ≠ k → Disjoint (o j).bodies (o k).bodies ∧ Disjoint (o j).cons (o k).cons ∧
    Disjoint (o j).gens (o k).gens

/-! ## Lemmas -/

section
variable {α : Type} [Zero α] [Add α] [Mul α] [Sub α] [Neg α] [Fp α] {o : Nat → Own}
  {cls : Nat → Cls}

omit [Zero α] [Add α] [Mul α] [Sub α] [Neg α] [Fp α] in
theorem act_agree (ha : Own.Apart o) {m : Systems α} {k : Nat} {v : World α}
    (hv : (m.view k).Spared (o k) v) {j : Nat} (hj : j ≠ k) :
    (m.view j).AgreeOn (o j) ((⟨v.heap, upd m.sys k v⟩ : Systems α).view j) := by
  have hd := ha j k hj
  have e : (⟨v.heap, upd m.sys k v⟩ : Systems α).view j = (m.sys j).amid v.heap := by
    simp only [Systems.view, upd_other _ _ hj]
  rw [e]
  exact ⟨fun b hb => hv.bodies b (Set.disjoint_left.1 hd.1 hb),
    fun b hb => hv.cons b (Set.disjoint_left.1 hd.2.1 hb),
    fun b hb => hv.gens b (Set.disjoint_left.1 hd.2.2 hb), rfl⟩

omit [Zero α] [Add α] [Mul α] [Sub α] [Neg α] [Fp α] in
theorem act_view {m : Systems α} {k : Nat} {v : World α} :
    (⟨v.heap, upd m.sys k v⟩ : Systems α).view k = v := by
  simp only [Systems.view, upd_same]; rfl

/-- Each system of the program and its own run. -/
theorem systems_run (ha : Own.Apart o) {prog : List (Nat × Op α)}
    (hp : ∀ p ∈ prog, p.2.In (o p.1)) {m : Systems α} {w : Nat → World α}
    (hw : ∀ k, (w k).AgreeOn (o k) (m.view k)) (hi : ∀ k, (w k).In (o k)) :
    (∀ m', m.runAll cls prog = .ok m' → ∀ k, ∃ v, Scs.runAll (cls k) (part k prog) (w k) = .ok v ∧
      v.AgreeOn (o k) (m'.view k)) ∧
    ∀ e, m.runAll cls prog = .error e →
      ∃ k, Scs.runAll (cls k) (part k prog) (w k) = .error e := by
  induction prog generalizing m w with
  | nil =>
    refine ⟨fun m' e k => ⟨w k, rfl, ?_⟩, fun e h => by cases h⟩
    cases e
    exact hw k
  | cons p ps ih =>
    obtain ⟨k, op⟩ := p
    have hr := op_local (cls k) (hp (k, op) (by simp)) (hw k) (hi k)
    have hin : ∀ q ∈ ps, q.2.In (o q.1) := fun q hq => hp q (by simp [hq])
    have hrun : m.runAll cls ((k, op) :: ps) = op.run (cls k) (m.view k) >>= fun v =>
        (⟨v.heap, upd m.sys k v⟩ : Systems α).runAll cls ps := by
      show (op.run (cls k) (m.view k) >>= _) >>= _ = _
      cases op.run (cls k) (m.view k) <;> rfl
    rw [hrun]
    have hpart : ∀ j, part j ((k, op) :: ps) = if k = j then op :: part j ps else part j ps :=
      fun j => rfl
    have halone : Scs.runAll (cls k) (part k ((k, op) :: ps)) (w k) =
        op.run (cls k) (w k) >>= Scs.runAll (cls k) (part k ps) := by
      rw [hpart, if_pos rfl]; rfl
    cases e1 : op.run (cls k) (m.view k) with
    | error e' =>
      refine ⟨(fun m' e => by cases e), fun e he => ⟨k, ?_⟩⟩
      rw [halone]
      cases e2 : op.run (cls k) (w k) with
      | ok v => rw [e1, e2] at hr; exact hr.elim
      | error e2' => rw [e1, e2] at hr; cases he; cases hr; rfl
    | ok v' =>
      cases e2 : op.run (cls k) (w k) with
      | error e2' => rw [e1, e2] at hr; exact hr.elim
      | ok v =>
        rw [e1, e2] at hr
        have hc : Confined (o k) (w k) (m.view k) v v' := hr
        have hw' : ∀ j, (upd w k v j).AgreeOn (o j)
            ((⟨v'.heap, upd m.sys k v'⟩ : Systems α).view j) := by
          intro j
          by_cases hj : j = k
          · subst hj; rw [upd_same, act_view]; exact hc.agree
          · rw [upd_other _ _ hj]; exact (hw j).trans (act_agree ha hc.right hj)
        have hi' : ∀ j, (upd w k v j).In (o j) := by
          intro j
          by_cases hj : j = k
          · subst hj; rw [upd_same]; exact hc.inside
          · rw [upd_other _ _ hj]; exact hi j
        obtain ⟨h1, h2⟩ := ih hin hw' hi'
        have hstep : ∀ j, Scs.runAll (cls j) (part j ((k, op) :: ps)) (w j) =
            Scs.runAll (cls j) (part j ps) (upd w k v j) := by
          intro j
          by_cases hj : j = k
          · subst hj; rw [halone, e2, upd_same]; rfl
          · rw [hpart, if_neg (fun h => hj h.symm), upd_other _ _ hj]
        refine ⟨fun m' e j => ?_, fun e he => ?_⟩
        · rw [hstep]; exact h1 m' e j
        · obtain ⟨j, hj⟩ := h2 e he
          exact ⟨j, by rw [hstep]; exact hj⟩

end

end Scs
