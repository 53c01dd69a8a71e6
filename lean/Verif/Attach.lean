import Verif.WorldReg
import Verif.SolveRun
import Verif.PropsConfig

/-!
# What a successful evaluation tells about pointers and indices

Inversions of the loops of `process`: if a call returned, every pointer it followed pointed to an
object and every index it used was not negative.
-/

namespace Scs

section
variable {α : Type} [Zero α] [Add α] [Mul α] [Sub α] [Neg α] [Fp α]

theorem pAt_nonneg {β : Type} {p : Option (Buf β)} {i : Int} {x : β} (e : pAt p i = .ok x) :
    0 ≤ i := by
  by_contra hi
  obtain ⟨b, -, e⟩ := bind_eq_ok e
  simp only [if_neg hi] at e
  cases e

theorem SysState.addTo_nonneg {s s' : SysState α} {f : Fld} {i : Int} {v : α}
    (e : s.addTo f i v = .ok s') : 0 ≤ i := by
  obtain ⟨x, hx, -⟩ := bind_eq_ok e
  exact pAt_nonneg hx

theorem SysState.applyForce_nonneg {s s' : SysState α} {x y fx fy : α} {i : Int}
    (e : s.applyForce x y fx fy i = .ok s') : 0 ≤ i := by
  obtain ⟨q, -, e⟩ := bind_eq_ok e
  obtain ⟨s1, h1, -⟩ := bind_eq_ok e
  exact SysState.addTo_nonneg h1

theorem Ptr.get_ok {p : Ptr} {b : Nat} (e : p.get = .ok b) : p = .obj b := by
  cases p <;> simp_all [Ptr.get]

/-- What `apply` of a generator needs: the bodies it names exist and, where they are written to,
have an index. -/
def Gen.Attached (bodies : Nat → Body α) : Gen α → Prop
  | .gravity _ => True
  | .static p => ∃ b, p.body = .obj b ∧ 0 ≤ (bodies b).index
  | .spring p => p.body1 = .null ∨ p.body2 = .null ∨ ∃ b1 b2, p.body1 = .obj b1 ∧
      p.body2 = .obj b2 ∧ 0 ≤ (bodies b1).index ∧ 0 ≤ (bodies b2).index
  | .motor p => ∃ b0 b1, p.body0 = .obj b0 ∧ p.body1 = .obj b1 ∧ -1 ≤ (bodies b0).index ∧
      0 ≤ (bodies b1).index
  | .custom _ => True

theorem Ptr.isNull_ok {p : Ptr} {v : Bool} (e : p.isNull = .ok v) :
    (v = true ∧ p = .null) ∨ v = false := by
  cases p <;> simp_all [Ptr.isNull]

theorem Gen.attached {g : Gen α} {bodies : Nat → Body α} {s s' : SysState α}
    (e : g.apply bodies s = .ok s') : g.Attached bodies := by
  cases g with
  | gravity g => trivial
  | custom f => trivial
  | static p =>
    obtain ⟨b, hb, e⟩ := bind_eq_ok e
    exact ⟨b, Ptr.get_ok hb, SysState.applyForce_nonneg e⟩
  | spring p =>
    obtain ⟨n1, h1, e⟩ := bind_eq_ok e
    rcases Ptr.isNull_ok h1 with ⟨-, h⟩ | rfl
    · exact .inl h
    obtain ⟨n2, h2, e⟩ := bind_eq_ok e
    rcases Ptr.isNull_ok h2 with ⟨-, h⟩ | rfl
    · exact .inr (.inl h)
    obtain ⟨b1, g1, e⟩ := bind_eq_ok e
    obtain ⟨b2, g2, e⟩ := bind_eq_ok e
    obtain ⟨e1, -, e⟩ := bind_eq_ok e
    obtain ⟨e2, -, e⟩ := bind_eq_ok e
    obtain ⟨q, -, e⟩ := bind_eq_ok e
    obtain ⟨s1, k1, e⟩ := bind_eq_ok e
    exact .inr (.inr ⟨b1, b2, Ptr.get_ok g1, Ptr.get_ok g2, SysState.applyForce_nonneg k1,
      SysState.applyForce_nonneg e⟩)
  | motor p =>
    obtain ⟨b0, h0, e⟩ := bind_eq_ok e
    obtain ⟨v1, hv, e⟩ := bind_eq_ok e
    obtain ⟨a1, -, e⟩ := bind_eq_ok e
    obtain ⟨b1, h1, e⟩ := bind_eq_ok e
    obtain ⟨v, k, -⟩ := bind_eq_ok e
    refine ⟨b0, b1, Ptr.get_ok h0, Ptr.get_ok h1, ?_, pAt_nonneg k⟩
    simp only [motorRead] at hv
    split at hv
    · omega
    · have := pAt_nonneg hv; omega

/-- The bodies a constraint needs: pointers to objects with an index. -/
def Con.Attached (bodies : Nat → Body α) (c : Con α) : Prop :=
  ∀ k < c.bodyCount, ∃ b, c.bodies k = .obj b ∧ 0 ≤ (bodies b).index

theorem addReaction_attached {c : Con α} {bodies : Nat → Body α} {jf : Nat} {s s' : SysState α}
    (e : addReaction c bodies jf s = .ok s') : c.Attached bodies := by
  intro k hk
  obtain ⟨z, z', -, e⟩ := forN_visits e k hk
  obtain ⟨i, hi, e⟩ := bind_eq_ok e
  obtain ⟨x, -, e⟩ := bind_eq_ok e
  obtain ⟨s1, h1, -⟩ := bind_eq_ok e
  have := SysState.addTo_nonneg h1
  obtain ⟨p, hp, hi⟩ := bind_eq_ok hi
  obtain ⟨b, hb, hi⟩ := bind_eq_ok hi
  cases hi
  simp only [rd1] at hp
  split at hp <;> cases hp
  exact ⟨b, Ptr.get_ok hb, this⟩

theorem vecAt_get {l : List Nat} {i : Nat} (h : i < l.length) : vecAt l i = .ok l[i] := by
  simp [vecAt, h]

theorem World.addReactions_attached {w : World α} {s : SysState α} {q : SysState α × Nat}
    (e : w.addReactions s = .ok q) (c : Nat) (hc : c ∈ w.cs) (hr : 0 < (w.cons c).rows) :
    (w.cons c).Attached w.bodies := by
  obtain ⟨i, hi, rfl⟩ := List.getElem_of_mem hc
  obtain ⟨z, z', -, e⟩ := forN_visits e i hi
  rw [vecAt_get hi] at e
  obtain ⟨z, z', -, e⟩ := forN_visits (n := (w.cons w.cs[i]).rows) e 0 hr
  obtain ⟨s1, h1, -⟩ := bind_eq_ok e
  exact addReaction_attached h1

theorem World.processForces_attached {w : World α} {s s' : SysState α}
    (e : w.processForces s = .ok s') (g : Nat) (hg : g ∈ w.fg) :
    (w.gens g).Attached w.bodies := by
  obtain ⟨i, hi, rfl⟩ := List.getElem_of_mem hg
  obtain ⟨s1, -, e⟩ := bind_eq_ok e
  obtain ⟨z, z', -, e⟩ := forN_visits e i hi
  rw [vecAt_get hi] at e
  exact Gen.attached e

/-- One evaluation of the class. -/
def World.evalOf (cls : Cls) (w : World α) (env : Env α) (h : α) (x : Ctx α) (s : SysState α) :
    Exec (Ctx α × SysState α) :=
  match cls with
  | .opt => w.optEval env h x s
  | .gen => w.genEval env x s

theorem World.evalOf_parts {cls : Cls} {w : World α} {env : Env α} {h : α} {x : Ctx α}
    {s : SysState α} {z : Ctx α × SysState α} (e : w.evalOf cls env h x s = .ok z) :
    (∃ s', w.processForces s = .ok s') ∧ ∃ mem s' s'', w.applyReactions mem s' = .ok s'' := by
  cases cls with
  | opt =>
    obtain ⟨s1, h1, e⟩ := bind_eq_ok e
    obtain ⟨q, h2, -⟩ := bind_eq_ok e
    obtain ⟨_, -, e⟩ := bind_eq_ok h2
    obtain ⟨_, -, e⟩ := bind_eq_ok e
    obtain ⟨_, -, e⟩ := bind_eq_ok e
    obtain ⟨_, -, e⟩ := bind_eq_ok e
    obtain ⟨_, -, e⟩ := bind_eq_ok e
    obtain ⟨_, h3, -⟩ := bind_eq_ok e
    exact ⟨⟨_, h1⟩, _, _, _, h3⟩
  | gen =>
    obtain ⟨s1, h1, e⟩ := bind_eq_ok e
    obtain ⟨q, h2, -⟩ := bind_eq_ok e
    obtain ⟨_, -, e⟩ := bind_eq_ok h2
    obtain ⟨_, -, e⟩ := bind_eq_ok e
    obtain ⟨_, -, e⟩ := bind_eq_ok e
    obtain ⟨_, -, e⟩ := bind_eq_ok e
    obtain ⟨_, -, e⟩ := bind_eq_ok e
    obtain ⟨_, -, e⟩ := bind_eq_ok e
    obtain ⟨_, h3, -⟩ := bind_eq_ok e
    exact ⟨⟨_, h1⟩, _, _, _, h3⟩

theorem odeRun_evals {τ : Type} {ev : τ → SysState α → Exec (τ × SysState α)} {x : τ} {o : Ode α}
    {s : SysState α} {dt : α} {z : τ × Ode α × SysState α} (e : odeRun ev x o s dt = .ok z) :
    ∃ y t r, ev y t = .ok r := by
  obtain ⟨o1, -, e⟩ := bind_eq_ok e
  obtain ⟨z1, e, -⟩ := bind_eq_ok e
  obtain ⟨q, -, e⟩ := bind_eq_ok e
  obtain ⟨r, h, -⟩ := bind_eq_ok e
  exact ⟨_, _, _, h⟩

/-- A successful call with at least one sub-step evaluates forces and constraints. -/
theorem World.process_evals {cls : Cls} {w w' : World α} {env : Env α} {dt : α} {steps : Int}
    (e : w.process cls env dt steps = .ok w') (hs : 0 < steps) :
    ∃ h x s z, w.evalOf cls env h x s = .ok z := by
  have hn : 0 < steps.toNat := by omega
  cases cls with
  | opt =>
    obtain ⟨_, -, e⟩ := bind_eq_ok e
    obtain ⟨_, -, e⟩ := bind_eq_ok e
    obtain ⟨q, e, -⟩ := bind_eq_ok e
    obtain ⟨z, z', -, e⟩ := forN_visits e 0 hn
    obtain ⟨h, -, e⟩ := bind_eq_ok e
    obtain ⟨y, t, r, h'⟩ := odeRun_evals e
    exact ⟨h, y, t, r, h'⟩
  | gen =>
    obtain ⟨_, -, e⟩ := bind_eq_ok e
    obtain ⟨_, -, e⟩ := bind_eq_ok e
    obtain ⟨q, e, -⟩ := bind_eq_ok e
    obtain ⟨z, z', -, e⟩ := forN_visits e 0 hn
    obtain ⟨o, -, e⟩ := bind_eq_ok e
    obtain ⟨h, -, e⟩ := bind_eq_ok e
    obtain ⟨z, e, -⟩ := bind_eq_ok e
    obtain ⟨y, t, r, h'⟩ := odeRun_evals e
    exact ⟨h, y, t, r, h'⟩

theorem World.process_attached {cls : Cls} {w w' : World α} {env : Env α} {dt : α} {steps : Int}
    (e : w.process cls env dt steps = .ok w') (hs : 0 < steps) :
    (∀ g ∈ w.fg, (w.gens g).Attached w.bodies) ∧
      ∀ c ∈ w.cs, 0 < (w.cons c).rows → (w.cons c).Attached w.bodies := by
  obtain ⟨h, x, s, z, e⟩ := World.process_evals e hs
  obtain ⟨⟨s1, h1⟩, mem, s2, s3, h2⟩ := World.evalOf_parts e
  refine ⟨fun g hg => World.processForces_attached h1 g hg, fun c hc hr => ?_⟩
  obtain ⟨_, -, e⟩ := bind_eq_ok h2
  obtain ⟨_, -, e⟩ := bind_eq_ok e
  obtain ⟨_, h3, -⟩ := bind_eq_ok e
  exact World.addReactions_attached h3 c hc hr

end

end Scs
