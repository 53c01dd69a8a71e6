import Verif.RoundHist
import Mathlib.Data.Set.Countable
import Mathlib.Analysis.Real.Cardinality

/-!
# Rounding: how often the test of an iterative solver is a tie

For a given program without `initialize`, only countably many tolerances of the Gauss-Seidel solver
are ever exactly the largest change of a sweep, and similarly for conjugate gradients.
-/

namespace Scs

/-! ## Specification -/

/-- In no iteration of the solver during the exact run of the program, on the optimized system, is a
number exactly the tolerance it is compared with. -/
def NoTies : World ℝ → List (Op ℝ) → Prop
  | _, [] => True
  | W, op :: ops => (∀ E D steps, op = .process E D steps → W.OptUntied E D steps) ∧
      ∀ V, op.run .opt W = .ok V → NoTies V ops

/-- What `Sharp` demands of a program on the optimized system, without the condition on the tolerances of
the solver. -/
def NearlySharp : List (Op ℝ) → World ℝ → List (Op ℝ) → Prop
  | _, _, [] => True
  | h, W, op :: ops => op.Valid Gen.Shipped h ∧ (∀ E D steps, op = .process E D steps →
      W.Standard h ∧ ((∀ g ∈ regGens h, ∀ p, W.gens g ≠ .spring p) ∨ W.OptClear E D steps)) ∧
      ∀ V, op.run .opt W = .ok V → NearlySharp (op :: h) V ops

/-! ## Proofs -/

theorem NearlySharp.sharp : ∀ {ops h : List (Op ℝ)} {W : World ℝ}, NearlySharp h W ops → NoTies W ops →
    Sharp .opt h W ops
  | [], _, _, _, _ => trivial
  | op :: ops, h, W, hr, hn => by
    refine ⟨hr.1, ?_, fun V e => NearlySharp.sharp (hr.2.2 V e) (hn.2 V e)⟩
    cases op with
    | process E D steps =>
      obtain ⟨h1, h2⟩ := hr.2.1 E D steps rfl
      exact ⟨h1, h2, .inr (hn.1 E D steps rfl)⟩
    | _ => trivial

/-- `f` takes countably many values. -/
def Ctb {X : Type} (f : ℝ → X) : Prop := (Set.range f).Countable

/-- All but countably many. -/
def Almost (P : ℝ → Prop) : Prop := {δ | ¬ P δ}.Countable

theorem Ctb.const {X : Type} (a : X) : Ctb fun _ => a :=
  (Set.countable_singleton a).mono (by rintro _ ⟨_, rfl⟩; rfl)

theorem Ctb.bind {X Y : Type} {f : ℝ → Exec X} {g : ℝ → X → Exec Y} (hf : Ctb f)
    (hg : ∀ a, Ctb fun δ => g δ a) : Ctb fun δ => f δ >>= g δ := by
  refine (Set.Countable.biUnion hf (t := fun y _ => Except.casesOn (motive := fun _ => Set _) y
    (fun e => {.error e}) fun a => Set.range fun δ => g δ a) fun y _ => ?_).mono ?_
  · cases y with
    | error e => exact Set.countable_singleton _
    | ok a => exact hg a
  · rintro _ ⟨δ, rfl⟩
    refine Set.mem_iUnion₂.2 ⟨f δ, ⟨δ, rfl⟩, ?_⟩
    dsimp only
    generalize f δ = y
    cases y with
    | error e => exact rfl
    | ok a => exact ⟨δ, rfl⟩

theorem Ctb.then {X Y : Type} {f : ℝ → Exec X} {g : X → Exec Y} (hf : Ctb f) :
    Ctb fun δ => f δ >>= g := hf.bind fun a => .const (g a)

theorem Ctb.ite {X : Type} (c : ℝ → Bool) {f g : ℝ → X} (hf : Ctb f) (hg : Ctb g) :
    Ctb fun δ => if c δ then f δ else g δ := by
  refine (hf.union hg).mono ?_
  rintro _ ⟨δ, rfl⟩
  by_cases h : c δ
  · exact .inl ⟨δ, by simp only [h, if_true]⟩
  · exact .inr ⟨δ, by simp only [h]; rfl⟩

theorem Ctb.forN {X : Type} {f : ℝ → Nat → X → Exec X} (h : ∀ i a, Ctb fun δ => f δ i a) (a : X) :
    ∀ n, Ctb fun δ => forN n (f δ) a
  | 0 => .const _
  | n + 1 => (Ctb.forN h a n).bind (g := fun δ s => f δ n s) fun b => h n b

theorem Almost.of {P : ℝ → Prop} (h : ∀ δ, P δ) : Almost P :=
  Set.Countable.mono (fun δ hn => (hn (h δ)).elim) Set.countable_empty

theorem Almost.and {P Q : ℝ → Prop} (h : Almost P) (h' : Almost Q) : Almost fun δ => P δ ∧ Q δ :=
  (h.union h').mono fun δ hn => by
    by_cases hp : P δ
    · exact .inr fun hq => hn ⟨hp, hq⟩
    · exact .inl hp

theorem Almost.mono {P Q : ℝ → Prop} (h : Almost P) (i : ∀ δ, P δ → Q δ) : Almost Q :=
  Set.Countable.mono (fun δ hn hp => hn (i δ hp)) h

theorem Almost.all {ι : Type} [Countable ι] {P : ι → ℝ → Prop} (h : ∀ k, Almost (P k)) :
    Almost fun δ => ∀ k, P k δ :=
  (Set.countable_iUnion h).mono fun δ hn => by
    obtain ⟨k, hk⟩ := not_forall.1 hn
    exact Set.mem_iUnion.2 ⟨k, hk⟩

theorem Almost.imp {P : ℝ → Prop} {p : Prop} (h : p → Almost P) : Almost fun δ => p → P δ := by
  by_cases hp : p
  · exact (h hp).mono fun _ h _ => h
  · exact .of fun _ q => (hp q).elim

/-- A property of the results of a function with countably many values. -/
theorem Almost.results {X : Type} {f : ℝ → Exec X} {P : ℝ → X → Prop} (hf : Ctb f)
    (h : ∀ a, Almost fun δ => P δ a) : Almost fun δ => ∀ a, f δ = .ok a → P δ a := by
  refine (Set.Countable.biUnion hf (t := fun y _ => Except.casesOn (motive := fun _ => Set _) y
    (fun _ => ∅) fun a => {δ | ¬ P δ a}) fun y _ => ?_).mono ?_
  · cases y with
    | error e => exact Set.countable_empty
    | ok a => exact h a
  · intro δ hn
    obtain ⟨a, ha⟩ := not_forall.1 hn
    obtain ⟨e, hp⟩ := _root_.not_imp.1 ha
    refine Set.mem_iUnion₂.2 ⟨f δ, ⟨δ, rfl⟩, ?_⟩
    rw [e]
    exact hp

theorem Almost.exists {P : ℝ → Prop} (h : Almost P) {a b : ℝ} (hab : a < b) :
    ∃ δ, a < δ ∧ δ < b ∧ P δ := by
  by_contra hn
  have h1 : (Set.Ioo a b).Countable := Set.Countable.mono (fun δ hd hp => hn ⟨δ, hd.1, hd.2, hp⟩) h
  have h2 := Cardinal.mk_Ioo_real hab
  have h3 := Cardinal.le_aleph0_iff_set_countable.2 h1
  rw [h2] at h3
  exact absurd Cardinal.aleph0_lt_continuum (not_lt.2 h3)

theorem ctb_gsLoop (sweep : Store ℝ → Exec (Store ℝ × ℝ)) :
    ∀ n s, Ctb fun δ => gsLoop sweep δ n s
  | 0, _ => .const _
  | n + 1, s => by
    show Ctb fun δ => (sweep s >>= fun q =>
      if Fp.gt δ q.2 then pure (q.1, true) else gsLoop sweep δ n q.1)
    exact (Ctb.const (sweep s)).bind fun q => .ite (fun δ => Fp.gt δ q.2) (.const _) (ctb_gsLoop sweep n q.1)

theorem almost_noTie (sweep : Store ℝ → Exec (Store ℝ × ℝ)) :
    ∀ n s, Almost fun δ => NoTie sweep δ n s
  | 0, _ => .of fun _ => trivial
  | n + 1, s => Almost.results (f := fun _ => sweep s) (.const _) fun q =>
      .and ((Set.countable_singleton q.2).mono fun δ hn => (not_not.1 hn).symm)
        (almost_noTie sweep n q.1)

theorem ctb_gsSolveL (st en n : Nat) (s : Store ℝ) (J : SId) (W right limits : MId)
    (result previous : Option MId) :
    Ctb fun δ => s.gsSolveL st en n δ J W right limits result previous := by
  simp only [gsSolveL_start]
  exact (Ctb.const _).bind fun q => ctb_gsLoop _ n q.1

theorem ctb_cgSmall (f g : ℝ → ℝ) (s : Store ℝ) (x t : MId) :
    Ctb fun δ => s.cgSmall (f δ) (g δ) x t := by
  refine Ctb.forN (fun i acc => .ite (fun _ => acc) ?_ (.const _)) true _
  refine (Ctb.const (s.get x 0 i)).bind (g := fun δ a => _) fun a => ?_
  refine (Ctb.const (s.get t 0 i)).bind (g := fun δ b => _) fun b => ?_
  exact (Set.countable_range (Except.ok : Bool → Exec Bool)).mono
    (by rintro _ ⟨δ, rfl⟩; exact ⟨_, rfl⟩)

theorem ctb_cgLoop (f g : ℝ → ℝ) (st en : Nat) (J : SId) (W right : MId) :
    ∀ n s, Ctb fun δ => cgLoop st en (f δ) (g δ) J W right n s
  | 0, _ => .const _
  | n + 1, s => by
    simp only [cgLoop_succ]
    refine (Ctb.const (s.cgAdvance st en J W)).bind (g := fun δ q => _) fun q => ?_
    refine (ctb_cgSmall f g q.1 .cgR right).bind (g := fun δ z => _) fun z => ?_
    refine .ite (fun _ => z) (.const _) ?_
    exact (Ctb.const (q.1.cgTurn q.2)).bind (g := fun δ s => _) fun s =>
      ctb_cgLoop f g st en J W right n s

theorem ctb_cgSolve (f g : ℝ → ℝ) (st en n : Nat) (s : Store ℝ) (J : SId) (W right : MId)
    (previous result : Option MId) :
    Ctb fun δ => s.cgSolve st en n (f δ) (g δ) J W right previous result := by
  simp only [cgSolve_parts]
  refine (Ctb.const (s.cgStart st en J W right previous result)).bind (g := fun δ q => _) fun q => ?_
  refine (ctb_cgSmall f g q.1 .cgR right).bind (g := fun δ z => _) fun z => ?_
  refine Ctb.then ?_
  refine .ite (fun _ => z) (.const _) ?_
  exact (Ctb.const (q.1.setMatFrom .cgP .cgR)).bind (g := fun δ s => _) fun s =>
    ctb_cgLoop f g st en J W right n s

theorem almost_offEdge {a b : ℝ} (hb : 0 < b) (s : Store ℝ) (right : MId) :
    Almost fun δ => s.OffEdge (|δ| * a) (|δ| * b) right := by
  refine Almost.all fun i => ?_
  have h1 := Almost.results (f := fun _ => s.get .cgR 0 i) (.const _) (P := fun δ x =>
    ∀ y, s.get right 0 i = .ok y → |x| ≠ max (|(|δ| * a * y)|) (|δ| * b)) fun x => by
      refine Almost.results (f := fun _ => s.get right 0 i) (.const _) fun y => ?_
      have hM : 0 < max |a * y| b := lt_max_of_lt_right hb
      refine Set.Countable.mono (fun δ hn => ?_)
        ((Set.countable_singleton (|x| / max |a * y| b)).union
          (Set.countable_singleton (-(|x| / max |a * y| b))))
      have hn : |x| = max (|(|δ| * a * y)|) (|δ| * b) := not_not.1 hn
      rw [mul_assoc, abs_mul, abs_abs, ← mul_max_of_nonneg _ _ (abs_nonneg δ)] at hn
      have : |δ| = |x| / max |a * y| b := by rw [hn]; field_simp
      rw [← this]
      rcases abs_cases δ with ⟨e, _⟩ | ⟨e, _⟩
      · exact .inl e.symm
      · exact .inr (by rw [Set.mem_singleton_iff, e, neg_neg])
  exact h1.mono fun δ h x y ex ey => h x ex y ey

theorem almost_cgNoTie {a b : ℝ} (hb : 0 < b) (st en : Nat) (J : SId) (W right : MId) :
    ∀ n s, Almost fun δ => CgNoTie st en (|δ| * a) (|δ| * b) J W right n s
  | 0, _ => .of fun _ => trivial
  | n + 1, s => Almost.results (f := fun _ => s.cgAdvance st en J W) (.const _) fun q =>
      .and (almost_offEdge hb q.1 right) (Almost.results (f := fun _ => q.1.cgTurn q.2) (.const _)
        fun s' => almost_cgNoTie hb st en J W right n s')

/-- Solvers for which only countably many parameters matter. -/
structure Tuned (sv : ℝ → Solver ℝ) : Prop where
  ctb : ∀ m, Ctb fun δ => optCall (sv δ) m
  untied : ∀ (W : World ℝ) m, Almost fun δ => ({ W with sle := some (sv δ) } : World ℝ).Untied m

theorem tuned_gs (n : Nat) : Tuned fun δ => .gs n δ := by
  refine ⟨fun m => ctb_gsSolveL 3 2 n m .ivJ .ivMinv .ivRight .ivLimits (some .ivLambda)
    (some .ivLambda), fun W m => ?_⟩
  refine (Almost.results (f := fun _ => m.gsStart 3 2 .ivJ .ivMinv .ivRight (some .ivLambda)
    (some .ivLambda)) (.const _) fun q =>
    almost_noTie (fun s => s.gsIterationL .gsM .ivRight .ivLimits q.2 q.2) n q.1).mono ?_
  refine fun δ hd => ⟨fun n' δ' e => ?_, fun n' δ' δ'' e => ?_⟩
  · cases e
    exact hd
  · cases e

theorem tuned_cg (n : Nat) (a : ℝ) {b : ℝ} (hb : 0 < b) :
    Tuned fun δ => .cg n (|δ| * a) (|δ| * b) := by
  refine ⟨fun m => ctb_cgSolve (fun δ => |δ| * a) (fun δ => |δ| * b) 3 2 n m .ivJ .ivMinv .ivRight
    (some .ivLambda) (some .ivLambda), fun W m => ?_⟩
  refine (Almost.results (f := fun _ => m.cgStart 3 2 .ivJ .ivMinv .ivRight (some .ivLambda)
    (some .ivLambda)) (.const _) fun q => (almost_offEdge (a := a) hb q.1 .ivRight).and
      (Almost.results (f := fun _ => q.1.setMatFrom .cgP .cgR) (.const _) fun s =>
        almost_cgNoTie (a := a) hb 3 2 .ivJ .ivMinv .ivRight n s)).mono ?_
  refine fun δ hd => ⟨fun n' δ' e => ?_, fun n' δ' δ'' e => ?_⟩
  · cases e
  · cases e
    exact hd

section
variable (sv : ℝ → Solver ℝ)

/-- The same world with another tolerance. -/
def World.tol (W : World ℝ) (δ : ℝ) : World ℝ := { W with sle := some (sv δ) }

variable (htn : Tuned sv) (W : World ℝ) (E : Env ℝ) (D : ℝ) (steps : Int)

include htn in
theorem ctb_optEval (h : ℝ) (x : Ctx ℝ) (s : SysState ℝ) : Ctb fun δ => (W.tol sv δ).optEval E h x s := by
  refine (Ctb.const (W.processForces s)).bind (g := fun δ s => _) fun s => ?_
  refine Ctb.then ?_
  refine (Ctb.const (W.optAssemble h (E.raw x.evals) s x.mem)).bind (g := fun δ m => _) fun m => ?_
  refine (Ctb.const (loadQdot W.bodyCount s m)).bind (g := fun δ m => _) fun m => ?_
  refine (Ctb.const (loadFext W.bodyCount s m)).bind (g := fun δ m => _) fun m => ?_
  refine (Ctb.const (optRight W.bias h m)).bind (g := fun δ m => _) fun m => ?_
  refine Ctb.bind (f := fun δ => (W.tol sv δ).optSolve h m) ?_ fun m => .const (do
    let s ← W.applyReactions m s
    pure (m, s))
  exact Ctb.then (f := fun δ => optCall (sv δ) m) (htn.ctb m)

theorem ctb_odeLoop {T : Type} {ev : ℝ → T → SysState ℝ → Exec (T × SysState ℝ)}
    (h : ∀ x s, Ctb fun δ => ev δ x s) : ∀ k x o s, Ctb fun δ => odeLoop (ev δ) k x o s
  | 0, _, _, _ => .const _
  | k + 1, x, o, s => by
    refine (Ctb.const (o.step s)).bind (g := fun δ q => _) fun q => ?_
    refine (h x q.2.1).bind (g := fun δ e => _) fun e => ?_
    refine (Ctb.const (q.1.solve e.2)).bind (g := fun δ z => _) fun z => ?_
    exact .ite (fun _ => q.2.2) (.const _) (ctb_odeLoop h k e.1 z.1 z.2)

include htn in
theorem ctb_optSub (q : Ctx ℝ × Ode ℝ × SysState ℝ) : Ctb fun δ => (W.tol sv δ).optSub E D steps q := by
  refine (Ctb.const (Fp.div D (Fp.lit steps))).bind (g := fun δ h => _) fun h => ?_
  refine (Ctb.const (q.2.1.start q.2.2 h)).bind (g := fun δ o => _) fun o => ?_
  exact Ctb.then (ctb_odeLoop (ctb_optEval sv htn W E h) 5 q.1 o q.2.2)

theorem almost_loop {T : Type} {A : ℝ → T → SysState ℝ → Prop}
    {ev : ℝ → T → SysState ℝ → Exec (T × SysState ℝ)} (hA : ∀ x s, Almost fun δ => A δ x s)
    (h : ∀ x s, Ctb fun δ => ev δ x s) : ∀ k x o s, Almost fun δ => LoopMeets (A δ) (ev δ) k x o s
  | 0, _, _, _ => .of fun _ => trivial
  | k + 1, x, o, s => by
    refine Almost.results (f := fun _ => o.step s) (.const _) fun q => (hA x q.2.1).and ?_
    refine Almost.results (h x q.2.1) fun e => ?_
    refine Almost.results (f := fun _ => q.1.solve e.2) (.const _) fun z => ?_
    exact .imp fun _ => almost_loop hA h k e.1 z.1 z.2

include htn in
theorem almost_evalUntied (h : ℝ) (x : Ctx ℝ) (s : SysState ℝ) :
    Almost fun δ => (W.tol sv δ).EvalUntied E h x s := by
  refine Almost.results (f := fun _ => W.processForces s) (.const _) fun s1 => ?_
  refine Almost.results (f := fun _ => W.optInput h (E.raw x.evals) x.mem s1) (.const _) fun m => ?_
  exact htn.untied W m

include htn in
theorem almost_untied : Almost fun δ => (W.tol sv δ).OptUntied E D steps := by
  have h1 : ∀ s mem k, Almost fun δ => ∀ q, forN k (fun _ => (W.tol sv δ).optSub E D steps)
      (⟨mem, 0, fun _ => 0⟩, W.nsv, s) = .ok q → ∀ h, Fp.div D (Fp.lit steps) = .ok h →
      RunMeets ((W.tol sv δ).EvalUntied E h) ((W.tol sv δ).optEval E h) q.1 q.2.1 q.2.2 h := by
    intro s mem k
    refine Almost.results (.forN (fun _ q => ctb_optSub sv htn W E D steps q) _ k) fun q => ?_
    refine Almost.results (f := fun _ => Fp.div D (Fp.lit steps)) (.const _) fun h => ?_
    refine Almost.results (f := fun _ => q.2.1.start q.2.2 h) (.const _) fun o => ?_
    exact almost_loop (almost_evalUntied sv htn W E h) (ctb_optEval sv htn W E h) 5 q.1 o q.2.2
  have h2 : Almost fun δ => ∀ s, W.populateState = .ok s → ∀ mem, W.populateMass W.mem = .ok mem →
      ∀ k q, forN k (fun _ => (W.tol sv δ).optSub E D steps)
      (⟨mem, 0, fun _ => 0⟩, W.nsv, s) = .ok q → ∀ h, Fp.div D (Fp.lit steps) = .ok h →
      RunMeets ((W.tol sv δ).EvalUntied E h) ((W.tol sv δ).optEval E h) q.1 q.2.1 q.2.2 h :=
    Almost.results (f := fun _ => W.populateState) (.const _) fun s =>
      Almost.results (f := fun _ => W.populateMass W.mem) (.const _) fun mem => .all fun k => h1 s mem k
  exact h2.mono fun δ h s mem es em k _ q => h s es mem em k q

/-! The rest of a call does not read the tolerance. -/

theorem forN_through {X Y : Type} (g : X → Y) {f : Nat → X → Exec X} {f' : Nat → Y → Exec Y}
    (h : ∀ i a, f' i (g a) = g <$> f i a) (a : X) : ∀ n, forN n f' (g a) = g <$> forN n f a
  | 0 => rfl
  | n + 1 => by
    show (forN n f' (g a) >>= f' n) = g <$> (forN n f a >>= f n)
    rw [forN_through g h a n]
    cases forN n f a with
    | error e => rfl
    | ok b => exact h n b

theorem storeBody_tol (s : SysState ℝ) (i : Nat) (δ : ℝ) :
    World.storeBody s i (W.tol sv δ) = (World.tol sv · δ) <$> World.storeBody s i W := by
  unfold World.storeBody
  simp only [map_eq_pure_bind, bind_assoc, LawfulMonad.pure_bind]
  rfl

theorem storeForces_tol (s : SysState ℝ) (pos : Nat → Nat → Nat) (δ : ℝ) :
    (W.tol sv δ).storeForces s pos = (fun q => (q.1.tol sv δ, q.2)) <$> W.storeForces s pos :=
  forN_through (fun q : World ℝ × Nat => (q.1.tol sv δ, q.2)) (fun i q => by
    simp only [map_eq_pure_bind, bind_assoc, LawfulMonad.pure_bind]
    rfl) (W, 0) W.conCount

theorem propagate_tol (s : SysState ℝ) (δ : ℝ) :
    (W.tol sv δ).propagateResults s = (World.tol sv · δ) <$> W.propagateResults s := by
  unfold World.propagateResults
  rw [show (W.tol sv δ).bodyCount = W.bodyCount from rfl,
    forN_through (World.tol sv · δ) (fun i a => storeBody_tol sv a s i δ) W W.bodyCount]
  simp only [map_eq_pure_bind, bind_assoc, LawfulMonad.pure_bind, storeForces_tol]

theorem record_tol (times : Prof → Int) (δ : ℝ) :
    (W.tol sv δ).record times = (World.tol sv · δ) <$> W.record times := by
  unfold World.record
  simp only [map_eq_pure_bind, bind_assoc, LawfulMonad.pure_bind]
  rfl

include htn in
/-- An action other than `initialize` keeps the solver, and takes countably many values otherwise. -/
theorem run_tol (op : Op ℝ) (hop : ∀ v o, op ≠ .init v o) : ∃ f : ℝ → Exec (World ℝ), Ctb f ∧
    ∀ δ, op.run .opt (W.tol sv δ) = (World.tol sv · δ) <$> f δ := by
  have c : (∀ δ, op.run .opt (W.tol sv δ) = (World.tol sv · δ) <$> op.run .opt W) →
      ∃ f : ℝ → Exec (World ℝ), Ctb f ∧ ∀ δ, op.run .opt (W.tol sv δ) = (World.tol sv · δ) <$> f δ :=
    fun h => ⟨fun _ => op.run .opt W, .const _, h⟩
  cases op with
  | init v o => exact (hop v o rfl).elim
  | removeBody b =>
    refine c fun δ => ?_
    show World.removeBody _ _ = _ <$> World.removeBody _ _
    unfold World.removeBody
    simp only [map_eq_pure_bind, bind_assoc, LawfulMonad.pure_bind]
    rfl
  | removeCon b =>
    refine c fun δ => ?_
    show World.removeCon _ _ = _ <$> World.removeCon _ _
    unfold World.removeCon
    simp only [map_eq_pure_bind, bind_assoc, LawfulMonad.pure_bind]
    rfl
  | removeGen b =>
    refine c fun δ => ?_
    show World.removeGen _ _ = _ <$> World.removeGen _ _
    unfold World.removeGen
    simp only [map_eq_pure_bind, bind_assoc, LawfulMonad.pure_bind]
    rfl
  | process E D steps =>
    refine ⟨fun δ => do
      let s ← W.populateState
      let mem ← W.populateMass W.mem
      let q ← (W.tol sv δ).optLoop E D steps s mem
      let w := { W with st := q.2.2, mem := q.1.mem, nsv := q.2.1 }
      let w ← w.propagateResults w.st
      let w ← w.record q.1.times
      pure { w with t := w.t + D }, ?_, fun δ => ?_⟩
    · refine (Ctb.const W.populateState).bind (g := fun δ s => _) fun s => ?_
      refine (Ctb.const (W.populateMass W.mem)).bind (g := fun δ m => _) fun m => ?_
      refine Ctb.then ?_
      exact Ctb.forN (fun _ q => ctb_optSub sv htn W E D steps q)
        ((⟨m, 0, fun _ => 0⟩ : Ctx ℝ), W.nsv, s) steps.toNat
    · show (W.tol sv δ).optProcess E D steps = _
      have hp : ∀ q : Ctx ℝ × Ode ℝ × SysState ℝ,
          (({ W.tol sv δ with st := q.2.2, mem := q.1.mem, nsv := q.2.1 } : World ℝ).propagateResults
            q.2.2) = (World.tol sv · δ) <$>
          (({ W with st := q.2.2, mem := q.1.mem, nsv := q.2.1 } : World ℝ).propagateResults q.2.2) :=
        fun q => propagate_tol sv { W with st := q.2.2, mem := q.1.mem, nsv := q.2.1 } q.2.2 δ
      unfold World.optProcess
      simp only [hp, record_tol, map_eq_pure_bind, bind_assoc, LawfulMonad.pure_bind]
      rfl
  | _ => exact c fun _ => rfl

include htn in
/-- For all but countably many tolerances there is no tie. -/
theorem almost_noTies : ∀ (ops : List (Op ℝ)) (W : World ℝ), (∀ op ∈ ops, ∀ v o, op ≠ .init v o) →
    Almost fun δ => NoTies (W.tol sv δ) ops
  | [], _, _ => .of fun _ => trivial
  | op :: ops, W, h => by
    obtain ⟨f, hf, e⟩ := run_tol sv htn W op (h op List.mem_cons_self)
    refine Almost.and ?_ ?_
    · cases op with
      | process E D steps =>
        refine (almost_untied sv htn W E D steps).mono fun δ h E' D' steps' e => ?_
        cases e
        exact h
      | _ => exact .of fun _ _ _ _ e => by cases e
    · refine (Almost.results hf fun V => almost_noTies ops V fun o ho => h o (.tail _ ho)).mono
        fun δ h V eV => ?_
      rw [e] at eV
      cases hv : f δ with
      | error r => rw [hv] at eV; cases eV
      | ok v => rw [hv] at eV; cases eV; exact h v hv


include htn in
theorem almost_sharp {B : List (Op ℝ)} (hB : ∀ op ∈ B, ∀ v o, op ≠ .init v o) :
    ∀ (A h : List (Op ℝ)) (W : World ℝ), (∀ op ∈ A, ∀ E D steps, op ≠ .process E D steps) →
    Almost fun δ => NearlySharp h W (A ++ .init (some (sv δ)) none :: B) →
      Sharp .opt h W (A ++ .init (some (sv δ)) none :: B)
  | [], h, W, _ => by
    refine (almost_noTies sv htn B W hB).mono fun δ hn hr => ?_
    refine NearlySharp.sharp hr ⟨fun _ _ _ e => (by cases e), fun V e => ?_⟩
    cases e
    exact hn
  | op :: A, h, W, hA => by
    have hs : Op.Sharp .opt h W op := by
      cases op with
      | process E D steps => exact (hA _ List.mem_cons_self E D steps rfl).elim
      | _ => trivial
    cases hv : op.run .opt W with
    | error r => exact .of fun δ hr => ⟨hr.1, hs, fun V e => (by rw [hv] at e; cases e)⟩
    | ok v =>
      refine (almost_sharp hB A (op :: h) v fun o ho => hA o (.tail _ ho)).mono fun δ hi hr => ?_
      refine ⟨hr.1, hs, fun V e => ?_⟩
      obtain rfl : v = V := Except.ok.inj (hv.symm.trans e)
      exact hi (hr.2.2 v hv)

end

end Scs
