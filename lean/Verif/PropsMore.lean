import Verif.WorldMore
import Verif.WorldDemo

/-!
# C84: more iterations never change a result

An iterative solver is created with a maximal number of iterations. A user who raises that number,
because some call of `process` failed, wants to know that everything which worked before still gives
the same numbers. The claim holds for every arithmetic, in particular for the one of the machine.
-/

namespace Scs

section
variable {α : Type} [Zero α] [Add α] [Mul α] [Sub α] [Neg α] [Fp α]

/-- Specification: `op'` is the action `op`, except that an `initialize` may hand over the same kind
of solver with the same tolerances and a larger number of allowed iterations. -/
inductive Op.More : Op α → Op α → Prop
  | same (op : Op α) : Op.More op op
  | init {sv tv : Solver α} (h : sv.More tv) (ode : Option (Ode α)) :
      Op.More (.init (some sv) ode) (.init (some tv) ode)

theorem moreBodies {h h' : List (Op α)} (hm : List.Forall₂ Op.More h h') :
    regBodies h' = regBodies h ∧ regCons h' = regCons h ∧ regGens h' = regGens h := by
  induction hm with
  | nil => exact ⟨rfl, rfl, rfl⟩
  | cons ho _ ih =>
    obtain ⟨i1, i2, i3⟩ := ih
    cases ho with
    | init h ode => exact ⟨i1, i2, i3⟩
    | same =>
      rename_i op _ _ _
      cases op <;> simp only [regBodies, regCons, regGens, i1, i2, i3, and_self]

/-- A solver, or none, with at least as many iterations allowed. -/
inductive MoreOpt : Option (Solver α) → Option (Solver α) → Prop
  | none : MoreOpt none none
  | some {sv tv : Solver α} (h : sv.More tv) : MoreOpt (some sv) (some tv)

theorem MoreOpt.refl (t : Option (Solver α)) : MoreOpt t t := by
  cases t with
  | none => exact .none
  | some sv =>
    refine .some ?_
    cases sv with
    | gs m d => exact .gs le_rfl d
    | cg m e1 e2 => exact .cg le_rfl e1 e2
    | ge => exact .ge

/-- C84, one call: raising the number of allowed iterations of the solver of a system leaves the
result of every call of `process` that returns as it is, and the call still returns. -/
theorem C84_process (cls : Cls) (w w' : World α) (sv tv : Solver α) (env : Env α) (dt : α) (steps : Int)
    (hw : w.sle = some sv) (hm : sv.More tv) (e : w.process cls env dt steps = .ok w') :
    ({ w with sle := some tv } : World α).process cls env dt steps =
      .ok { w' with sle := some tv } :=
  World.process_more hw hm cls env dt steps w' e

theorem Op.run_sle {cls : Cls} {op : Op α} (hi : ∀ sle ode, op ≠ .init sle ode) {w : World α}
    {t : Option (Solver α)} (ht : MoreOpt w.sle t) :
    KeptAs (World.withSle · t) (op.run cls w) (op.run cls (w.withSle t)) := by
  cases op with
  | process env dt steps =>
    generalize hs : w.sle = x at ht
    cases ht with
    | none =>
      have e : w.withSle none = w := by cases w; cases hs; rfl
      exact World.process_kept none cls env dt steps (fun _ _ => e ▸ Kept.refl _)
        (fun _ _ => e ▸ Kept.refl _)
    | some h => exact World.process_more hs h cls env dt steps
  | init sle ode => exact absurd rfl (hi sle ode)
  | removeBody b => exact KeptAs.after fun _ => KeptAs.pure rfl
  | removeCon b => exact KeptAs.after fun _ => KeptAs.pure rfl
  | removeGen b => exact KeptAs.after fun _ => KeptAs.after fun _ => KeptAs.pure rfl
  | _ => exact KeptAs.pure rfl

theorem Op.run_more {cls : Cls} {op op' : Op α} (ho : op.More op') {w w' : World α}
    {t : Option (Solver α)} (ht : MoreOpt w.sle t) (e : op.run cls w = .ok w') :
    ∃ t', MoreOpt w'.sle t' ∧ op'.run cls (w.withSle t) = .ok (w'.withSle t') := by
  cases ho with
  | init h ode =>
    cases cls with
    | opt => cases e; exact ⟨_, .some h, rfl⟩
    | gen =>
      obtain ⟨mem, e1, e2⟩ := bind_eq_ok (show (do
        let mem ← w.mem.init0 .ivLambda 0 0
        pure { w with sle := some _, ode := ode, mem := mem }) = Except.ok w' from e)
      cases e2
      refine ⟨_, .some h, ?_⟩
      have e3 : (w.withSle t).mem.init0 .ivLambda 0 0 = .ok mem := e1
      simp only [Op.run, World.initialize, World.genInit, e3]
      rfl
  | same =>
    by_cases hi : ∃ sle ode, op = .init sle ode
    · obtain ⟨sle, ode, rfl⟩ := hi
      cases cls with
      | opt => cases e; exact ⟨_, MoreOpt.refl _, rfl⟩
      | gen =>
        obtain ⟨mem, e1, e2⟩ := bind_eq_ok (show (do
          let mem ← w.mem.init0 .ivLambda 0 0
          pure { w with sle := sle, ode := ode, mem := mem }) = Except.ok w' from e)
        cases e2
        refine ⟨sle, MoreOpt.refl _, ?_⟩
        have e3 : (w.withSle t).mem.init0 .ivLambda 0 0 = .ok mem := e1
        simp only [Op.run, World.initialize, World.genInit, e3]
        rfl
    · have hi' : ∀ sle ode, op ≠ .init sle ode := fun sle ode h => hi ⟨sle, ode, h⟩
      have hs : w'.sle = w.sle := by
        have h := Op.run_sle (cls := cls) hi' (MoreOpt.refl w.sle) w' e
        have h2 : w.withSle w.sle = w := rfl
        rw [h2, e] at h
        exact (congrArg World.sle (Except.ok.inj h) : w'.sle = (w'.withSle w.sle).sle)
      exact ⟨t, hs ▸ ht, Op.run_sle hi' ht w' e⟩

/-- C84, whole histories: let a user repeat everything that was done to a system, with solvers that
may take more iterations. Then every call still returns, and the system, its bodies, its constraints
with the reported forces and its statistics are the same; only the solver handed over differs. -/
theorem C84_history {G : Gen α → Prop} {cls : Cls} {h h' : List (Op α)} {w : World α}
    (hw : World.Hist G cls h w) (hm : List.Forall₂ Op.More h h') :
    ∃ t, World.Hist G cls h' { w with sle := t } := by
  suffices H : ∃ t, MoreOpt w.sle t ∧ World.Hist G cls h' (w.withSle t) from
    ⟨H.choose, H.choose_spec.2⟩
  induction hw generalizing h' with
  | start bodies cons gens genIndex hg j j' k k' =>
    cases hm
    exact ⟨_, MoreOpt.refl _, .start bodies cons gens genIndex hg j j' k k'⟩
  | step op hw hv e ih =>
    cases hm with
    | cons ho hm =>
      obtain ⟨t, ht, hh⟩ := ih hm
      obtain ⟨t', ht', e'⟩ := Op.run_more ho ht e
      refine ⟨t', ht', .step _ hh ?_ e'⟩
      obtain ⟨b1, b2, b3⟩ := moreBodies hm
      cases ho with
      | init h ode => exact hv
      | same =>
        cases op <;> simp only [Op.Valid, b1, b2, b3] at hv ⊢ <;> exact hv

/-- Every iteration count raised by `k`. -/
def Op.raise (k : Nat) : Op α → Op α
  | .init (some (.gs m d)) ode => .init (some (.gs (m + k) d)) ode
  | .init (some (.cg m e1 e2)) ode => .init (some (.cg (m + k) e1 e2)) ode
  | op => op

/-- The hypotheses are met by every history. -/
example (h : List (Op α)) (k : Nat) : List.Forall₂ Op.More h (h.map (Op.raise k)) := by
  induction h with
  | nil => exact .nil
  | cons op h ih =>
    refine .cons ?_ ih
    cases op with
    | init sle ode =>
      cases sle with
      | none => exact .same _
      | some sv =>
        cases sv with
        | gs m d => exact .init (.gs (Nat.le_add_right m k) d) ode
        | cg m e1 e2 => exact .init (.cg (Nat.le_add_right m k) e1 e2) ode
        | ge => exact .same _
    | _ => exact .same _

end

/-- The hypotheses are met: two bodies with a clutch between them, under gravity, with two iterations allowed and with
a hundred. -/
example (dt : ℝ) (hdt : dt ≠ 0) (steps : Int) (env : Env ℝ) : ∃ w w' : World ℝ,
    w.sle = some (.gs 2 (1 / 10)) ∧ (Solver.gs 2 (1 / 10 : ℝ)).More (.gs 100 (1 / 10)) ∧
    w.process .opt env dt steps = .ok w' := by
  obtain ⟨h, w, w', d, _, e⟩ := demo_turns (turns_clutch ⟨-5, 5, 10, 1⟩)
    (g := .gravity (-9)) trivial trivial
    (sv := .gs 2 (1 / 10)) ⟨le_rfl, by norm_num⟩ hdt steps env
  exact ⟨w, w', d.sle, .gs (by norm_num) _, e⟩

/-- A history with a successful call of `process` is met. -/
example (dt : ℝ) (hdt : dt ≠ 0) (steps : Int) (env : Env ℝ) : ∃ (h : List (Op ℝ)) (w : World ℝ),
    World.Hist Gen.Shipped .opt (.process env dt steps :: h) w := by
  obtain ⟨h, w, w', d, _, e⟩ := demo_turns (turns_clutch ⟨-5, 5, 10, 1⟩)
    (g := .gravity (-9)) trivial trivial
    (sv := .gs 2 (1 / 10)) ⟨le_rfl, by norm_num⟩ hdt steps env
  exact ⟨h, w', .step _ d.hist trivial e⟩

end Scs
