import Verif.PropsWorld

/-!
# The configuration of a system

C72: the solvers and the bias factor in use.
-/

namespace Scs

section
variable {α : Type} [Zero α] [Add α] [Mul α] [Sub α] [Neg α] [Fp α]
variable {G : Gen α → Prop} {cls : Cls} {h : List (Op α)} {w w' : World α}

/-! ## Specification -/

/-- The bias factor set last, 1 by default. -/
def lastBias : List (Op α) → α
  | [] => Fp.lit 1
  | .setBias x :: _ => x
  | _ :: h => lastBias h

/-- The constraint solver given to `initialize` last. -/
def lastSle : List (Op α) → Option (Solver α)
  | [] => none
  | .init sle _ :: _ => sle
  | _ :: h => lastSle h

/-- The class of the ODE solver in use: the optimized system has its own. -/
def lastOde (cls : Cls) : List (Op α) → Option (Fin 4)
  | [] => none
  | .init _ ode :: h => match cls with
    | .opt => lastOde cls h
    | .gen => ode.map Ode.sort
  | _ :: h => lastOde cls h

theorem bind_eq_ok {σ τ : Type} {x : Exec τ} {f : τ → Exec σ} {b : σ} (e : (x >>= f) = .ok b) :
    ∃ a, x = .ok a ∧ f a = .ok b := by
  cases x with
  | error r => cases e
  | ok a => exact ⟨a, rfl, e⟩

theorem run_keeps (hn : w.nsv.sort = 2) {op : Op α} (e : op.run cls w = .ok w') (h1 : ∀ x, op ≠ .setBias x)
    (h2 : ∀ s o, op ≠ .init s o) : w'.bias = w.bias ∧ w'.sle = w.sle ∧
      w'.ode.map Ode.sort = w.ode.map Ode.sort := by
  cases op with
  | addBody b => cases e; exact ⟨rfl, rfl, rfl⟩
  | removeBody b =>
    simp only [Op.run, World.removeBody] at e
    obtain ⟨q, _, e⟩ := bind_eq_ok e
    cases e; exact ⟨rfl, rfl, rfl⟩
  | addCon c => cases e; exact ⟨rfl, rfl, rfl⟩
  | removeCon c =>
    simp only [Op.run, World.removeCon] at e
    obtain ⟨q, _, e⟩ := bind_eq_ok e
    cases e; exact ⟨rfl, rfl, rfl⟩
  | addGen g => cases e; exact ⟨rfl, rfl, rfl⟩
  | removeGen g =>
    simp only [Op.run, World.removeGen] at e
    obtain ⟨i, _, e⟩ := bind_eq_ok e
    obtain ⟨q, _, e⟩ := bind_eq_ok e
    cases e; exact ⟨rfl, rfl, rfl⟩
  | reset => cases e; exact ⟨rfl, rfl, rfl⟩
  | newBody b x => cases e; exact ⟨rfl, rfl, rfl⟩
  | newCon c x => cases e; exact ⟨rfl, rfl, rfl⟩
  | newGen g x => cases e; exact ⟨rfl, rfl, rfl⟩
  | setBody b x => cases e; exact ⟨rfl, rfl, rfl⟩
  | setCon c x => cases e; exact ⟨rfl, rfl, rfl⟩
  | setGen g x => cases e; exact ⟨rfl, rfl, rfl⟩
  | init s o => exact absurd rfl (h2 s o)
  | setBias x => exact absurd rfl (h1 x)
  | process env dt steps =>
    cases cls with
    | opt =>
      have := (optProcess_wp w env dt steps hn).of_eq e
      exact ⟨this.1.moves.bias, this.1.moves.sle, by rw [this.2.2.2]⟩
    | gen =>
      have := (genProcess_wp w env dt steps).of_eq e
      exact ⟨this.1.moves.bias, this.1.moves.sle, this.2.2.2⟩

/-- **C72**: after any history the system uses the bias factor assigned last (1 by default), the
constraint solver given to the last `initialize`, and (in the generic class) an ODE solver of the
class given to it. -/
theorem C72_configuration (hw : World.Hist G cls h w) : w.bias = lastBias h ∧ w.sle = lastSle h ∧
    w.ode.map Ode.sort = lastOde cls h := by
  induction hw with
  | start => exact ⟨rfl, rfl, rfl⟩
  | @step h w w' op hw hv e ih =>
    obtain ⟨i1, i2, i3⟩ := ih
    by_cases h1 : ∃ x, op = .setBias x
    · obtain ⟨x, rfl⟩ := h1
      cases e
      exact ⟨rfl, i2, i3⟩
    · by_cases h2 : ∃ s o, op = .init s o
      · obtain ⟨s, o, rfl⟩ := h2
        cases cls with
        | opt => cases e; exact ⟨i1, rfl, i3⟩
        | gen =>
          have e : w.genInit s o = .ok w' := e
          rw [World.genInit] at e
          obtain ⟨m, _, e⟩ := bind_eq_ok e
          cases e
          exact ⟨i1, rfl, rfl⟩
      · have h1 : ∀ x, op ≠ .setBias x := fun x hx => h1 ⟨x, hx⟩
        have h2 : ∀ s o, op ≠ .init s o := fun s o hx => h2 ⟨s, o, hx⟩
        obtain ⟨j1, j2, j3⟩ := run_keeps hw.regs.nsv e h1 h2
        rw [j1, j2, j3]
        cases op <;> first | exact ⟨i1, i2, i3⟩ | exact absurd rfl (h1 _) | exact absurd rfl (h2 _ _)


/-- The hypotheses can be met: a history that assigns both, with other actions in between. -/
example (bodies : Nat → Body α) (cons : Nat → Con α) (gens : Nat → Gen α) (j j' : Nat → Nat → α)
    (k k' : Nat → Nat → Nat) (x : α) : ∃ (h : List (Op α)) (w : World α),
    World.Hist (fun _ => True) .opt h w ∧ w.sle = some .ge ∧ w.bias = x ∧ regBodies h = {3} := by
  have h0 := World.Hist.start (G := fun _ => True) (cls := .opt) bodies cons gens (fun _ => none)
    (fun _ => trivial) j j' k k'
  have h1 := h0.step (.init (some .ge) none) (fun o e => by cases e) rfl
  have h2 := h1.step (.setBias x) trivial rfl
  have h3 := h2.step (.addBody 3) (by simp [Op.Valid, regBodies]) rfl
  obtain ⟨e1, e2, _⟩ := C72_configuration h3
  exact ⟨_, _, h3, e2, e1, by simp [regBodies]⟩

end

end Scs
