import Verif.PropsConfig

/-!
# What a run with one solver keeps in a run with another

`Kept x y`: whenever `x` succeeds, `y` succeeds with the same result.
-/

namespace Scs

/-- Whenever `x` succeeds, `y` succeeds with the same result. -/
def Kept {σ : Type} (x y : Exec σ) : Prop := ∀ a, x = .ok a → y = .ok a

section
variable {σ τ : Type}

theorem Kept.refl (x : Exec σ) : Kept x x := fun _ h => h

theorem Kept.bind {x y : Exec τ} {f g : τ → Exec σ} (h : Kept x y) (hf : ∀ a, Kept (f a) (g a)) :
    Kept (x >>= f) (y >>= g) := by
  intro b e
  obtain ⟨a, e1, e2⟩ := bind_eq_ok e
  rw [h a e1]
  exact hf a b e2

theorem Kept.after {x : Exec τ} {f g : τ → Exec σ} (hf : ∀ a, Kept (f a) (g a)) :
    Kept (x >>= f) (x >>= g) := (Kept.refl x).bind hf

theorem Kept.first {x y : Exec τ} {f : τ → Exec σ} (h : Kept x y) : Kept (x >>= f) (y >>= f) :=
  h.bind fun _ => Kept.refl _

theorem Kept.forN {f g : Nat → σ → Exec σ} (h : ∀ i s, Kept (f i s) (g i s)) (n : Nat) (s : σ) :
    Kept (forN n f s) (forN n g s) := by
  induction n with
  | zero => exact Kept.refl _
  | succ n ih => exact ih.bind fun a => h n a

/-- Whenever `x` succeeds with a result that fulfils `p`, `y` succeeds with the same result. -/
def KeptIf (p : σ → Prop) (x y : Exec σ) : Prop := ∀ a, p a → x = .ok a → y = .ok a

theorem KeptIf.refl (p : σ → Prop) (x : Exec σ) : KeptIf p x x := fun _ _ h => h

theorem KeptIf.after {p : σ → Prop} {x : Exec τ} {f g : τ → Exec σ} (hf : ∀ a, KeptIf p (f a) (g a)) :
    KeptIf p (x >>= f) (x >>= g) := by
  intro b hb e
  obtain ⟨a, e1, e2⟩ := bind_eq_ok e
  rw [e1]
  exact hf a b hb e2

theorem KeptIf.ite {p : σ → Prop} {c : Prop} [Decidable c] {x y x' y' : Exec σ} (h : KeptIf p x x')
    (h' : KeptIf p y y') : KeptIf p (if c then x else y) (if c then x' else y') := by
  by_cases hc : c
  · rw [if_pos hc, if_pos hc]; exact h
  · rw [if_neg hc, if_neg hc]; exact h'

theorem KeptIf.chk {x y : Exec τ} {p : τ → Bool} {l : String} {f : τ → Exec σ}
    (h : KeptIf (fun a => p a = true) x y) :
    Kept (x >>= fun q => Scs.chk (p q = true) l >>= fun _ => f q)
      (y >>= fun q => Scs.chk (p q = true) l >>= fun _ => f q) := by
  intro b e
  obtain ⟨a, e1, e2⟩ := bind_eq_ok e
  have hp : p a = true := by
    by_contra hc
    rw [Scs.chk, if_neg hc] at e2
    cases e2
  rw [h a hp e1]
  exact e2

end

section
variable {α : Type} [Zero α] [Add α] [Sub α] [Mul α] [Neg α] [Fp α]

theorem gsLoop_more {sweep : Store α → Exec (Store α × α)} {d : α} {m m' : Nat} (h : m ≤ m')
    (s : Store α) : KeptIf (fun q => q.2 = true) (gsLoop sweep d m s) (gsLoop sweep d m' s) := by
  induction m generalizing m' s with
  | zero => intro a ha e; cases e; cases ha
  | succ m ih =>
    obtain ⟨m', rfl⟩ : ∃ k, m' = k + 1 := ⟨m' - 1, by omega⟩
    exact KeptIf.after fun q => KeptIf.ite (KeptIf.refl _ _) (ih (by omega) _)

theorem cgLoop_more {st en : Nat} {e1 e2 : α} {J : SId} {W right : MId} {m m' : Nat} (h : m ≤ m')
    (s : Store α) : KeptIf (fun q => q.2 = true) (cgLoop st en e1 e2 J W right m s)
      (cgLoop st en e1 e2 J W right m' s) := by
  induction m generalizing m' s with
  | zero => intro a ha e; cases e; cases ha
  | succ m ih =>
    obtain ⟨m', rfl⟩ : ∃ k, m' = k + 1 := ⟨m' - 1, by omega⟩
    exact KeptIf.after fun s => KeptIf.after fun rk => KeptIf.after fun pAp => KeptIf.after fun al =>
      KeptIf.after fun s => KeptIf.after fun s => KeptIf.after fun small =>
        KeptIf.ite (KeptIf.refl _ _) (KeptIf.after fun _ => KeptIf.after fun _ => KeptIf.after fun _ =>
          ih (by omega) _)

/-- The solver `t` is the solver `s` with at least as many iterations allowed. -/
inductive Solver.More : Solver α → Solver α → Prop
  | gs {m m' : Nat} (h : m ≤ m') (d : α) : Solver.More (.gs m d) (.gs m' d)
  | cg {m m' : Nat} (h : m ≤ m') (e1 e2 : α) : Solver.More (.cg m e1 e2) (.cg m' e1 e2)
  | ge : Solver.More .ge .ge

theorem Solver.More.solve {sv tv : Solver α} (h : sv.More tv) (st en : Nat) (s : Store α) (J : SId)
    (W right : MId) (a4 a5 : Option MId) : KeptIf (fun q => q.2 = true)
      (sv.solve st en s J W right a4 a5) (tv.solve st en s J W right a4 a5) := by
  cases h with
  | gs h d =>
    exact KeptIf.after fun _ => KeptIf.after fun _ => KeptIf.after fun _ => KeptIf.after fun _ =>
      gsLoop_more h _
  | ge => exact KeptIf.refl _ _
  | cg h e1 e2 =>
    refine KeptIf.after fun _ => KeptIf.after fun _ => KeptIf.after fun _ => KeptIf.after fun _ =>
      KeptIf.after fun _ => KeptIf.after fun _ => KeptIf.after fun _ => KeptIf.after fun _ =>
      KeptIf.after fun _ => KeptIf.after fun _ => KeptIf.after fun small => KeptIf.ite (KeptIf.refl _ _)
        (KeptIf.after fun s => ?_)
    intro b hb e
    obtain ⟨q, e1', e2'⟩ := bind_eq_ok e
    have hq : q.2 = true := by
      by_contra hc
      simp only [if_neg hc] at e2'
      cases e2'
      cases hb
    rw [cgLoop_more h s q hq e1']
    exact e2'

theorem Solver.More.solveL {sv tv : Solver α} (h : sv.More tv) (st en : Nat) (s : Store α) (J : SId)
    (W right limits : MId) (res prev : Option MId) : KeptIf (fun q => q.2 = true)
      (sv.solveL st en s J W right limits res prev) (tv.solveL st en s J W right limits res prev) := by
  cases h with
  | gs h d =>
    exact KeptIf.after fun _ => KeptIf.ite
      (KeptIf.after fun _ => KeptIf.after fun _ => KeptIf.after fun _ => gsLoop_more h _)
      (KeptIf.after fun _ => KeptIf.after fun _ => KeptIf.after fun _ => gsLoop_more h _)
  | ge => exact KeptIf.refl _ _
  | cg h e1 e2 => exact KeptIf.refl _ _

theorem Solver.More.limits {sv tv : Solver α} (h : sv.More tv) :
    tv.supportsLimits = sv.supportsLimits := by cases h <;> rfl

/-- The world with the linear solver exchanged. -/
def World.withSle (w : World α) (sv : Option (Solver α)) : World α := { w with sle := sv }

variable {w : World α} {sv tv : Solver α}

theorem World.optSolve_more (hw : w.sle = some sv) (h : sv.More tv) (dt : α) (mem : Store α) :
    Kept (w.optSolve dt mem) ((w.withSle (some tv)).optSolve dt mem) := by
  rw [World.optSolve, hw]
  refine KeptIf.chk (p := fun q : Store α × Bool => q.2) ?_
  rw [optCall, optCall, h.limits]
  exact KeptIf.ite (h.solve _ _ _ _ _ _ _ _) (h.solveL _ _ _ _ _ _ _ _ _)

theorem World.genSolve_more (hw : w.sle = some sv) (h : sv.More tv) (mem : Store α) :
    Kept (w.genSolve mem) ((w.withSle (some tv)).genSolve mem) := by
  rw [World.genSolve, hw]
  exact KeptIf.chk (p := fun q : Store α × Bool => q.2) (h.solve _ _ _ _ _ _ _ _)

theorem World.optEval_more (hw : w.sle = some sv) (h : sv.More tv) (env : Env α) (dt : α) (x : Ctx α)
    (s : SysState α) : Kept (w.optEval env dt x s) ((w.withSle (some tv)).optEval env dt x s) :=
  Kept.after fun _ => Kept.first <| Kept.after fun _ => Kept.after fun _ => Kept.after fun _ =>
    Kept.after fun _ => Kept.first <| optSolve_more hw h dt _

theorem World.genEval_more (hw : w.sle = some sv) (h : sv.More tv) (env : Env α) (x : Ctx α)
    (s : SysState α) : Kept (w.genEval env x s) ((w.withSle (some tv)).genEval env x s) :=
  Kept.after fun _ => Kept.first <| Kept.after fun _ => Kept.after fun _ => Kept.after fun _ =>
    Kept.after fun _ => Kept.after fun _ => Kept.first <| genSolve_more hw h _

theorem odeRun_kept {τ : Type} {ev ev' : τ → SysState α → Exec (τ × SysState α)}
    (h : ∀ x s, Kept (ev x s) (ev' x s)) (x : τ) (o : Ode α) (s : SysState α) (dt : α) :
    Kept (odeRun ev x o s dt) (odeRun ev' x o s dt) := by
  refine Kept.after fun o => Kept.first ?_
  generalize (5 : Nat) = k
  induction k generalizing x o s with
  | zero => exact Kept.refl _
  | succ k ih =>
    refine Kept.after fun q => (h _ _).bind fun e => Kept.after fun z => ?_
    by_cases hq : q.2.2 = true
    · simp only [if_pos hq]; exact Kept.refl _
    · simp only [if_neg hq]; exact ih _ _ _

theorem World.optLoop_more (hw : w.sle = some sv) (h : sv.More tv) (env : Env α) (dt : α) (steps : Int)
    (s : SysState α) (mem : Store α) :
    Kept (w.optLoop env dt steps s mem) ((w.withSle (some tv)).optLoop env dt steps s mem) :=
  Kept.forN (fun _ _ => Kept.after fun r => odeRun_kept (fun x s => optEval_more hw h env r x s) _ _ _ r) _ _

theorem World.genLoop_more (hw : w.sle = some sv) (h : sv.More tv) (env : Env α) (dt : α) (steps : Int)
    (s : SysState α) (mem : Store α) :
    Kept (w.genLoop env dt steps s mem) ((w.withSle (some tv)).genLoop env dt steps s mem) :=
  Kept.forN (fun _ _ => Kept.after fun _ => Kept.after fun r => Kept.first <|
    odeRun_kept (fun x s => genEval_more hw h env x s) _ _ _ r) _ _

/-- Whenever `x` succeeds, `y` succeeds with the image under `g` of the result. -/
def KeptAs {σ τ : Type} (g : σ → τ) (x : Exec σ) (y : Exec τ) : Prop := ∀ a, x = .ok a → y = .ok (g a)

theorem KeptAs.bind {σ τ σ' τ' : Type} {g : σ → τ} {g' : σ' → τ'} {x : Exec σ} {y : Exec τ}
    {f : σ → Exec σ'} {f' : τ → Exec τ'} (h : KeptAs g x y) (hf : ∀ a, KeptAs g' (f a) (f' (g a))) :
    KeptAs g' (x >>= f) (y >>= f') := by
  intro b e
  obtain ⟨a, e1, e2⟩ := bind_eq_ok e
  rw [h a e1]
  exact hf a b e2

theorem KeptAs.after {σ τ ρ : Type} {g : σ → τ} {x : Exec ρ} {f : ρ → Exec σ} {f' : ρ → Exec τ}
    (hf : ∀ a, KeptAs g (f a) (f' a)) : KeptAs g (x >>= f) (x >>= f') := by
  intro b e
  obtain ⟨a, e1, e2⟩ := bind_eq_ok e
  rw [e1]
  exact hf a b e2

theorem KeptAs.pure {σ τ : Type} {g : σ → τ} {a : σ} {b : τ} (h : g a = b) :
    KeptAs g (pure a) (pure b) := by
  intro c e
  cases e
  rw [h]; rfl

theorem KeptAs.forN {σ τ : Type} {g : σ → τ} {f : Nat → σ → Exec σ} {f' : Nat → τ → Exec τ}
    (h : ∀ i s, KeptAs g (f i s) (f' i (g s))) (n : Nat) (s : σ) :
    KeptAs g (forN n f s) (forN n f' (g s)) := by
  induction n with
  | zero => exact KeptAs.pure rfl
  | succ n ih => exact ih.bind fun a => h n a

variable (t : Option (Solver α))

theorem World.storeBody_sle (s : SysState α) (i : Nat) (w : World α) :
    KeptAs (World.withSle · t) (World.storeBody s i w) (World.storeBody s i (w.withSle t)) :=
  KeptAs.after fun _ => KeptAs.after fun _ => KeptAs.after fun _ => KeptAs.after fun _ =>
    KeptAs.after fun _ => KeptAs.after fun _ => KeptAs.after fun _ => KeptAs.pure rfl

theorem World.storeForces_sle (s : SysState α) (pos : Nat → Nat → Nat) (w : World α) :
    KeptAs (fun q : World α × Nat => (q.1.withSle t, q.2)) (w.storeForces s pos)
      ((w.withSle t).storeForces s pos) :=
  KeptAs.forN (g := fun q : World α × Nat => (q.1.withSle t, q.2))
    (fun _ _ => KeptAs.after fun _ => KeptAs.after fun _ => KeptAs.pure rfl) _ _

theorem World.record_sle (times : Scs.Prof → Int) (w : World α) :
    KeptAs (World.withSle · t) (w.record times) ((w.withSle t).record times) :=
  KeptAs.after fun _ => KeptAs.after fun _ => KeptAs.after fun _ => KeptAs.after fun _ => KeptAs.pure rfl

theorem Kept.bindAs {σ τ ρ : Type} {g : σ → τ} {x y : Exec ρ} {f : ρ → Exec σ} {f' : ρ → Exec τ}
    (h : Kept x y) (hf : ∀ a, KeptAs g (f a) (f' a)) : KeptAs g (x >>= f) (y >>= f') := by
  intro b e
  obtain ⟨a, e1, e2⟩ := bind_eq_ok e
  rw [h a e1]
  exact hf a b e2

theorem World.process_kept (cls : Cls) (env : Env α) (dt : α) (steps : Int)
    (ho : ∀ s mem, Kept (w.optLoop env dt steps s mem) ((w.withSle t).optLoop env dt steps s mem))
    (hg : ∀ s mem, Kept (w.genLoop env dt steps s mem) ((w.withSle t).genLoop env dt steps s mem)) :
    KeptAs (World.withSle · t) (w.process cls env dt steps)
      ((w.withSle t).process cls env dt steps) := by
  cases cls with
  | opt =>
    refine KeptAs.after fun s => KeptAs.after fun mem => (ho s mem).bindAs fun q => ?_
    refine KeptAs.bind (g := (World.withSle · t)) ?_ fun w' =>
      (World.record_sle t q.1.times w').bind fun w'' => KeptAs.pure rfl
    exact (KeptAs.forN (fun i w => World.storeBody_sle t q.2.2 i w) _ _).bind fun w' =>
      (World.storeForces_sle t q.2.2 _ w').bind fun _ => KeptAs.pure rfl
  | gen =>
    refine KeptAs.after fun s => KeptAs.after fun mem => (hg s mem).bindAs fun q => ?_
    exact (KeptAs.forN (fun i w => World.storeBody_sle t q.2.2 i w) _ _).bind fun w' =>
      (World.storeForces_sle t w'.st _ w').bind fun z => World.record_sle t q.1.times z.1

/-- `process` leaves the solver in place. -/
theorem World.process_sle {w w' : World α} {cls : Cls} {env : Env α} {dt : α} {steps : Int}
    (e : w.process cls env dt steps = .ok w') : w'.sle = w.sle := by
  have h := World.process_kept (w := w) w.sle cls env dt steps (fun _ _ => Kept.refl _)
    (fun _ _ => Kept.refl _) w' e
  have h2 : w.withSle w.sle = w := rfl
  rw [h2, e] at h
  exact (congrArg World.sle (Except.ok.inj h) : w'.sle = (w'.withSle w.sle).sle)

/-- One call of `process` with more iterations allowed. -/
theorem World.process_more (hw : w.sle = some sv) (h : sv.More tv) (cls : Cls) (env : Env α) (dt : α)
    (steps : Int) : KeptAs (World.withSle · (some tv)) (w.process cls env dt steps)
      ((w.withSle (some tv)).process cls env dt steps) :=
  World.process_kept _ cls env dt steps (World.optLoop_more hw h env dt steps)
    (World.genLoop_more hw h env dt steps)

end

end Scs
