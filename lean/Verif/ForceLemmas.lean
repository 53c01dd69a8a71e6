import Verif.Force
import Verif.StateSpec
import Verif.PropsState
import Mathlib.Tactic.Linarith
import Mathlib.Tactic.Ring
import Mathlib.Tactic.FieldSimp

/-!
# Helper lemmas about force generators
-/

namespace Scs

open SysState

/-- The arrays a force generator is meant to write. -/
def Fld.IsForce (f : Fld) : Prop := f = .f_x ∨ f = .f_y ∨ f = .t

/-- `s'` arises from `s` by writes to the force and torque arrays. -/
inductive ForceWrites {α : Type} (s : SysState α) : SysState α → Prop where
  | refl : ForceWrites s s
  | wr {s1 s2 : SysState α} (h : ForceWrites s s1) {f : Fld} (hf : f.IsForce) (i : Int) (v : α)
      (e : s1.wr f i v = .ok s2) : ForceWrites s s2

theorem wr_cases {α : Type} {s s' : SysState α} {f : Fld} {i : Int} {v : α}
    (e : s.wr f i v = .ok s') :
    s' = { s with fld := s'.fld } ∧ ∀ g j, g ≠ f → s'.val g j = s.val g j := by
  simp only [SysState.wr] at e
  cases hp : pSet (s.fld f) i v with
  | error _ => rw [hp] at e; cases e
  | ok q =>
    rw [hp] at e; cases e
    exact ⟨rfl, fun g j h => by simp only [SysState.val, upd, if_neg h]⟩

namespace ForceWrites
variable {α : Type} {s s' s'' : SysState α}

theorem trans (h : ForceWrites s s') (h' : ForceWrites s' s'') : ForceWrites s s'' := by
  induction h' with
  | refl => exact h
  | wr _ hf i v e ih => exact .wr ih hf i v e

theorem eqv (h : ForceWrites s s') : s' = { s with fld := s'.fld } := by
  induction h with
  | refl => rfl
  | wr _ _ _ _ e ih => rw [(wr_cases e).1, ih]

theorem wf (h : ForceWrites s s') (hw : s.Wf) : s'.Wf := by
  induction h with
  | refl => exact hw
  | wr _ _ _ _ e ih => exact SysState.wr_ok_iff e ih

theorem ok (h : ForceWrites s s') (hw : s.Ok) : s'.Ok := by
  induction h with
  | refl => exact hw
  | @wr s1 s2 _ f _ i v e ih =>
    have hn : s2.n = s1.n := by rw [(wr_cases e).1]
    refine SysState.wr_ok_iff e ih.wf (Or.inl ?_)
    simp only [SysState.wr] at e
    cases hp : pSet (s1.fld f) i v with
    | error _ => rw [hp] at e; cases e
    | ok q =>
      obtain ⟨b, hb, _, h3, _⟩ := pSet_ok hp
      obtain ⟨b', hb', hs⟩ := ih.fld f
      rw [hb] at hb'; cases hb'
      omega

theorem reach [Zero α] (h : ForceWrites s s') (hr : s.Reach) : s'.Reach := by
  induction h with
  | refl => exact hr
  | wr _ _ i v e ih => exact .wr ih _ i v e

theorem keep (h : ForceWrites s s') {f : Fld} (hf : ¬ f.IsForce) (i : Nat) :
    s'.val f i = s.val f i := by
  induction h with
  | refl => rfl
  | wr _ hg _ _ e ih => rw [(wr_cases e).2 f i (fun h => hf (h ▸ hg)), ih]

theorem n (h : ForceWrites s s') : s'.n = s.n := by rw [h.eqv]
theorem nc (h : ForceWrites s s') : s'.nc = s.nc := by rw [h.eqv]
theorem dt (h : ForceWrites s s') : s'.dt = s.dt := by rw [h.eqv]
theorem indexMap (h : ForceWrites s s') : s'.indexMap = s.indexMap := by rw [h.eqv]
theorem rval (h : ForceWrites s s') (f : CFld) (i : Nat) : s'.rval f i = s.rval f i := by
  rw [h.eqv]; rfl

end ForceWrites

/-- Everything after a computation that may fail. -/
theorem wp_anyOf {σ τ : Type} {x : Exec τ} {f : τ → Exec σ} {Q : σ → Prop}
    (h : ∀ a, Wp (f a) Q anyErr) : Wp (x >>= f) Q anyErr := by
  cases x with
  | error _ => exact trivial
  | ok a => exact h a

/-- Composition of two computations on the same state. -/
theorem fw_bind {α : Type} {s : SysState α} {x : Exec (SysState α)}
    {f : SysState α → Exec (SysState α)} (hx : Wp x (ForceWrites s) anyErr)
    (h : ∀ s1, Wp (f s1) (ForceWrites s1) anyErr) : Wp (x >>= f) (ForceWrites s) anyErr := by
  cases x with
  | error _ => exact trivial
  | ok a => exact (h a).imp fun _ h' => ForceWrites.trans hx h'

theorem fw_wr {α : Type} {s : SysState α} {f : Fld} (hf : f.IsForce) (i : Int) (v : α) :
    Wp (s.wr f i v) (ForceWrites s) anyErr :=
  wp_anyErr_iff.2 fun _ e => .wr .refl hf i v e

section
variable {α : Type} [Zero α] [Add α] [Mul α] [Sub α] [Neg α] [Fp α]

theorem fw_addTo {s : SysState α} {f : Fld} (hf : f.IsForce) (i : Int) (v : α) :
    Wp (s.addTo f i v) (ForceWrites s) anyErr := wp_anyOf fun _ => fw_wr hf _ _

theorem fw_applyForce (s : SysState α) (x y fx fy : α) (b : Int) :
    Wp (s.applyForce x y fx fy b) (ForceWrites s) anyErr := by
  refine wp_anyOf fun w => fw_bind (fw_addTo (.inl rfl) _ _) fun s1 => ?_
  refine fw_bind (fw_addTo (.inr (.inl rfl)) _ _) fun s2 => ?_
  exact wp_anyOf fun _ => wp_anyOf fun _ => fw_addTo (.inr (.inr rfl)) _ _

theorem fw_forN {s : SysState α} (N : Nat) {f : Nat → SysState α → Exec (SysState α)}
    (h : ∀ i s1, Wp (f i s1) (ForceWrites s1) anyErr) : Wp (forN N f s) (ForceWrites s) anyErr := by
  refine wp_forN (I := fun _ s1 => ForceWrites s s1) .refl fun i _ s1 h1 => ?_
  exact (h i _).imp fun _ h2 => h1.trans h2

/-- A generator that only writes forces and torques. All shipped generators do (`Gen.tame`). -/
def Gen.OnlyForces (g : Gen α) : Prop :=
  ∀ (bodies : Nat → Body α) (s s' : SysState α), g.apply bodies s = .ok s' → ForceWrites s s'

/-- The generators of the library. -/
def Gen.Shipped : Gen α → Prop
  | .custom _ => False
  | _ => True

theorem Gen.tame {g : Gen α} (hg : g.Shipped) : g.OnlyForces := by
  intro bodies s s' e
  refine (?_ : Wp (g.apply bodies s) (ForceWrites s) anyErr).of_eq e
  cases g with
  | custom f => exact hg.elim
  | gravity g =>
    exact fw_forN _ fun i s1 => wp_anyOf fun _ => fw_addTo (.inr (.inl rfl)) _ _
  | static p => exact wp_anyOf fun _ => fw_applyForce ..
  | spring p =>
    refine wp_anyOf fun n1 => ?_
    cases n1
    · refine wp_anyOf fun n2 => ?_
      cases n2
      · refine wp_anyOf fun b1 => wp_anyOf fun b2 => wp_anyOf fun e1 => wp_anyOf fun e2 => wp_anyOf fun q => ?_
        exact fw_bind (fw_applyForce ..) fun s1 => fw_applyForce ..
      · exact ForceWrites.refl
    · exact ForceWrites.refl
  | motor p =>
    refine wp_anyOf fun b0 => wp_anyOf fun v1 => wp_anyOf fun a1 => wp_anyOf fun b1 => wp_anyOf fun v =>
      wp_anyOf fun a => fw_bind ?_ fun s1 => fw_addTo (.inr (.inr rfl)) _ _
    unfold motorReact
    split
    · exact wp_anyOf fun _ => fw_wr (.inr (.inr rfl)) _ _
    · exact ForceWrites.refl

end

/-- `applyForce` on a body of the state. -/
theorem applyForce_spec {s : SysState ℝ} (ho : s.Ok) {i : Nat} (hi : i < s.n) (x y fx fy : ℝ)
    {w : ℝ × ℝ} (hw : s.localToWorld x y i = .ok w) :
    ∃ s', s.applyForce x y fx fy i = .ok s' ∧ s'.Ok ∧ ForceWrites s s' ∧
      ∀ f j, s'.val f j = forced s.val i w fx fy f j := by
  obtain ⟨s1, e1, o1, n1, c1, v1, r1⟩ := put_wr ho .f_x hi (s.val .f_x i + fx)
  obtain ⟨s2, e2, o2, n2, c2, v2, r2⟩ := put_wr o1 .f_y (i := i) (by omega) (s1.val .f_y i + fy)
  obtain ⟨s3, e3, o3, n3, c3, v3, r3⟩ := put_wr o2 .t (i := i) (by omega)
    (s2.val .t i + ((w.2 - s2.val .p_y i) * -fx + (w.1 - s2.val .p_x i) * fy))
  have er : s.applyForce x y fx fy i = .ok s3 := by
    simp only [SysState.applyForce, hw, ok_bind, SysState.addTo]
    rw [ho.rd .f_x hi, ok_bind, e1, ok_bind, o1.rd .f_y (by omega), ok_bind, e2, ok_bind,
      o2.rd .p_y (by omega), ok_bind, o2.rd .p_x (by omega), ok_bind, o2.rd .t (by omega), ok_bind]
    exact e3
  refine ⟨s3, er, o3, (fw_applyForce ..).of_eq er, fun f j => ?_⟩
  rw [v3, v2, v1]
  simp only [v2, v1, forced]
  by_cases hj : j = i
  · subst hj
    cases f <;> simp
    ring
  · simp [hj]

end Scs
