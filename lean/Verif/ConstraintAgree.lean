import Verif.ConstraintLemmas

/-!
# The output of a constraint does not depend on what the output held before
-/

namespace Scs

/-- Two outputs agree on the entries that belong to `rows` rows and `nb` bodies. -/
structure Output.Agree {α : Type} (rows nb : Nat) (o o' : Output α) : Prop where
  C : ∀ r, r < rows → o.C r = o'.C r
  J : ∀ r c, r < rows → c < 3 * nb → o.J r c = o'.J r c
  J_dot : ∀ r c, r < rows → c < 3 * nb → o.J_dot r c = o'.J_dot r c
  v_bias : ∀ r, r < rows → o.v_bias r = o'.v_bias r
  limits : ∀ r c, r < rows → c < 2 → o.limits r c = o'.limits r c
  ks : ∀ r, r < rows → o.ks r = o'.ks r
  kd : ∀ r, r < rows → o.kd r = o'.kd r

/-- Both runs stop with the same error, or both succeed with outputs that agree. -/
def SameOutcome {α : Type} (rows nb : Nat) (x y : Exec (Output α)) : Prop :=
  (∃ e, x = .error e ∧ y = .error e) ∨ ∃ o o', x = .ok o ∧ y = .ok o' ∧ o.Agree rows nb o'

theorem SameOutcome.bind {α τ : Type} {rows nb : Nat} (x : Exec τ) (f g : τ → Exec (Output α))
    (h : ∀ a, SameOutcome rows nb (f a) (g a)) : SameOutcome rows nb (x >>= f) (x >>= g) := by
  cases x with
  | error e => exact Or.inl ⟨e, rfl, rfl⟩
  | ok a => exact h a

/-- Compares the entries written into two outputs. -/
macro "agree" : tactic => `(tactic| (
  refine ⟨?_, ?_, ?_, ?_, ?_, ?_, ?_⟩
  · intro r hr
    interval_cases r <;> simp
  · intro r c hr hc
    interval_cases r <;> interval_cases c <;> simp
  · intro r c hr hc
    interval_cases r <;> interval_cases c <;> simp
  · intro r hr
    interval_cases r <;> simp
  · intro r c hr hc
    interval_cases r <;> interval_cases c <;> simp [Output.noLimits_lo, Output.noLimits_hi]
  · intro r hr
    interval_cases r <;> simp
  · intro r hr
    interval_cases r <;> simp))

variable {α : Type} [Zero α] [Add α] [Mul α] [Sub α] [Neg α] [Fp α]

theorem FixedPosition.calculate_agree (p : FixedPosition α) (idx : Nat → Exec Int) (s : SysState α)
    (o o' : Output α) : SameOutcome 2 1 ((CKind.fixedPosition p).calculate idx o s)
      ((CKind.fixedPosition p).calculate idx o' s) := by
  simp only [CKind.calculate, FixedPosition.calculate]
  iterate 5 refine SameOutcome.bind _ _ _ fun _ => ?_
  refine Or.inr ⟨_, _, rfl, rfl, ?_⟩
  agree

theorem FixedRotation.calculate_agree (p : FixedRotation α) (idx : Nat → Exec Int) (s : SysState α)
    (o o' : Output α) : SameOutcome 1 1 ((CKind.fixedRotation p).calculate idx o s)
      ((CKind.fixedRotation p).calculate idx o' s) := by
  simp only [CKind.calculate, FixedRotation.calculate]
  iterate 2 refine SameOutcome.bind _ _ _ fun _ => ?_
  refine Or.inr ⟨_, _, rfl, rfl, ?_⟩
  agree

theorem Line.calculate_agree (p : Line α) (idx : Nat → Exec Int) (s : SysState α)
    (o o' : Output α) : SameOutcome 1 1 ((CKind.line p).calculate idx o s)
      ((CKind.line p).calculate idx o' s) := by
  simp only [CKind.calculate, Line.calculate]
  iterate 5 refine SameOutcome.bind _ _ _ fun _ => ?_
  refine Or.inr ⟨_, _, rfl, rfl, ?_⟩
  agree

theorem Link.calculate_agree (p : Link α) (idx : Nat → Exec Int) (s : SysState α)
    (o o' : Output α) : SameOutcome 2 2 ((CKind.link p).calculate idx o s)
      ((CKind.link p).calculate idx o' s) := by
  simp only [CKind.calculate, Link.calculate]
  iterate 10 refine SameOutcome.bind _ _ _ fun _ => ?_
  refine Or.inr ⟨_, _, rfl, rfl, ?_⟩
  agree

theorem Rolling.calculate_agree (p : Rolling α) (idx : Nat → Exec Int) (s : SysState α)
    (o o' : Output α) : SameOutcome 2 2 ((CKind.rolling p).calculate idx o s)
      ((CKind.rolling p).calculate idx o' s) := by
  simp only [CKind.calculate, Rolling.calculate]
  iterate 13 refine SameOutcome.bind _ _ _ fun _ => ?_
  refine Or.inr ⟨_, _, rfl, rfl, ?_⟩
  agree

theorem ConstantRotation.calculate_agree (p : ConstantRotation α) (idx : Nat → Exec Int) (s : SysState α)
    (o o' : Output α) : SameOutcome 1 1 ((CKind.constantRotation p).calculate idx o s)
      ((CKind.constantRotation p).calculate idx o' s) := by
  simp only [CKind.calculate, ConstantRotation.calculate]
  refine Or.inr ⟨_, _, rfl, rfl, ?_⟩
  agree

theorem Clutch.calculate_agree (p : Clutch α) (idx : Nat → Exec Int) (s : SysState α)
    (o o' : Output α) : SameOutcome 1 2 ((CKind.clutch p).calculate idx o s)
      ((CKind.clutch p).calculate idx o' s) := by
  simp only [CKind.calculate, Clutch.calculate]
  refine Or.inr ⟨_, _, rfl, rfl, ?_⟩
  agree

theorem RotationFriction.calculate_agree (p : RotationFriction α) (idx : Nat → Exec Int)
    (s : SysState α) (o o' : Output α) : SameOutcome 1 1
      ((CKind.rotationFriction p).calculate idx o s)
      ((CKind.rotationFriction p).calculate idx o' s) := by
  simp only [CKind.calculate, RotationFriction.calculate]
  refine SameOutcome.bind _ _ _ fun _ => ?_
  refine Or.inr ⟨_, _, rfl, rfl, ?_⟩
  agree

theorem SimpleGear.calculate_agree (p : SimpleGear α) (idx : Nat → Exec Int) (s : SysState α)
    (o o' : Output α) : SameOutcome 1 2 ((CKind.simpleGear p).calculate idx o s)
      ((CKind.simpleGear p).calculate idx o' s) := by
  obtain ⟨ratio, neutral, ks, kd⟩ := p
  simp only [CKind.calculate, SimpleGear.calculate]
  refine Or.inr ⟨_, _, rfl, rfl, ?_⟩
  cases neutral
  · simp only [Bool.false_eq_true, if_false]
    agree
  · simp only [if_true]
    agree

end Scs
