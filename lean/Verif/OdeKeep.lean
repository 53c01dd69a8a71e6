import Verif.WorldInv

/-!
# What the ODE solvers leave alone

The solvers write positions, velocities, reactions and the time step only, so the sizes of the state
and the masses are the same in every evaluation of a call of `process`.
-/

namespace Scs

section
variable {α : Type}

/-- A property of states that survives writes to everything but the masses. -/
structure Loose (P : SysState α → Prop) : Prop where
  wr : ∀ {s s' : SysState α} {f : Fld} {i : Int} {v : α}, f ≠ .m → P s → s.wr f i v = .ok s' → P s'
  rwr : ∀ {s s' : SysState α} {f : CFld} {i : Int} {v : α}, P s → s.rwr f i v = .ok s' → P s'
  dt : ∀ {s : SysState α} (h : α), P s → P { s with dt := h }

/-- The sizes and masses are those of `s0`. -/
structure SysState.Like (s0 s : SysState α) : Prop where
  wf : s.Wf
  n : s.n = s0.n
  nc : s.nc = s0.nc
  mass : ∀ i, s.val .m i = s0.val .m i

theorem like_loose (s0 : SysState α) : Loose s0.Like where
  wr := by
    intro s s' f i v hf h e
    obtain ⟨e1, e2⟩ := wr_cases e
    exact ⟨SysState.wr_ok_iff e h.wf, by rw [e1]; exact h.n, by rw [e1]; exact h.nc,
      fun j => by rw [e2 _ _ (Ne.symm hf)]; exact h.mass j⟩
  rwr := by
    intro s s' f i v h e
    refine ⟨SysState.rwr_ok_iff e h.wf, ?_, ?_, ?_⟩ <;> simp only [SysState.rwr] at e <;>
      cases hp : pSet (s.rf f) i v with
      | error _ => rw [hp] at e; cases e
      | ok q => rw [hp] at e; cases e; first | exact h.n | exact h.nc | exact h.mass
  dt := fun {s} h hs => ⟨fun q => ⟨(hs.wf q).fld, (hs.wf q).rf, (hs.wf q).im⟩, hs.n, hs.nc, hs.mass⟩

end

section
variable {α : Type} [Zero α] [Add α] [Mul α] [Sub α] [Neg α] [Fp α]
variable {P : SysState α → Prop} (L : Loose P)
include L

theorem Loose.w {s : SysState α} (h : P s) {f : Fld} (hf : f ≠ .m) (i : Int) (v : α) :
    Wp (s.wr f i v) P anyErr := wp_anyErr_iff.2 fun _ e => L.wr hf h e

theorem Loose.r {s : SysState α} (h : P s) (f : CFld) (i : Int) (v : α) :
    Wp (s.rwr f i v) P anyErr := wp_anyErr_iff.2 fun _ e => L.rwr h e

theorem Loose.a {s : SysState α} (h : P s) {f : Fld} (hf : f ≠ .m) (i : Int) (v : α) :
    Wp (s.addTo f i v) P anyErr := wp_anyOf fun _ => L.w h hf _ _

theorem Loose.half {dt : α} {ini s : SysState α} (h : P s) {v : Fld} (hv : v ≠ .m) (a : Fld)
    (i : Nat) : Wp (rkHalf dt ini v a i s) P anyErr :=
  wp_anyOf fun _ => wp_anyOf fun _ => wp_anyOf fun _ => L.w h hv _ _

theorem Loose.full {dt : α} {ini s : SysState α} (h : P s) {v : Fld} (hv : v ≠ .m) (a : Fld)
    (i : Nat) : Wp (rkFull dt ini v a i s) P anyErr :=
  wp_anyOf fun _ => wp_anyOf fun _ => L.w h hv _ _

theorem Loose.get {acc s : SysState α} (h : P s) {f : Fld} (hf : f ≠ .m) (i : Nat) :
    Wp (rkGet acc f i s) P anyErr := wp_anyOf fun _ => L.w h hf _ _

theorem Loose.getR {acc s : SysState α} (h : P s) (f : CFld) (i : Nat) :
    Wp (rkGetR acc f i s) P anyErr := wp_anyOf fun _ => L.r h f _ _

theorem Loose.step {o : Ode α} {s : SysState α} (h : P s) :
    Wp (o.step s) (fun q => P q.2.1) anyErr := by
  cases o with
  | base dt => exact h
  | euler dt => exact L.dt _ h
  | nsv dt => exact L.dt _ h
  | rk4 r =>
    rw [Ode.step]
    refine ib (R := fun (q : Rk4 α × SysState α × Bool) => P q.2.1) ?_ fun q h => h
    rw [Rk4.step]
    simp only []
    have half : ∀ (i : Nat) (s : SysState α), P s → Wp (rkHalfBody r.dt r.init i s) P anyErr := by
      intro i s h
      rw [rkHalfBody]
      refine ib (L.half h (by decide) _ _) fun s h => ?_
      refine ib (L.half h (by decide) _ _) fun s h => ?_
      refine ib (L.half h (by decide) _ _) fun s h => ?_
      refine ib (L.half h (by decide) _ _) fun s h => ?_
      exact ib (L.half h (by decide) _ _) fun s h => L.half h (by decide) _ _
    have full : ∀ (i : Nat) (s : SysState α), P s → Wp (rkFullBody r.dt r.init i s) P anyErr := by
      intro i s h
      rw [rkFullBody]
      refine ib (L.full h (by decide) _ _) fun s h => ?_
      refine ib (L.full h (by decide) _ _) fun s h => ?_
      refine ib (L.full h (by decide) _ _) fun s h => ?_
      refine ib (L.full h (by decide) _ _) fun s h => ?_
      exact ib (L.full h (by decide) _ _) fun s h => L.full h (by decide) _ _
    cases hs : r.stage <;> simp only []
    · exact L.dt _ h
    · exact ib (ifor h half) fun s h => wp_anyOf fun _ => L.dt _ h
    · exact ib (ifor h half) fun s h => wp_anyOf fun _ => L.dt _ h
    · exact ib (ifor h full) fun s h => L.dt _ h
    · exact h
    · exact h

theorem Loose.solve {o : Ode α} {s : SysState α} (h : P s) :
    Wp (o.solve s) (fun q => P q.2) anyErr := by
  cases o with
  | base dt => exact h
  | euler dt =>
    rw [Ode.solve]
    refine ib (ifor (L.dt _ h) fun i s h => ?_) fun s h => h
    rw [eulerBody]
    refine wp_anyOf fun _ => ib (L.a h (by decide) _ _) fun s h => ?_
    refine wp_anyOf fun _ => ib (L.a h (by decide) _ _) fun s h => ?_
    refine wp_anyOf fun _ => ib (L.a h (by decide) _ _) fun s h => ?_
    refine wp_anyOf fun _ => ib (L.a h (by decide) _ _) fun s h => ?_
    refine wp_anyOf fun _ => ib (L.a h (by decide) _ _) fun s h => ?_
    exact wp_anyOf fun _ => L.a h (by decide) _ _
  | nsv dt =>
    rw [Ode.solve]
    refine ib (ifor (L.dt _ h) fun i s h => ?_) fun s h => h
    rw [nsvBody]
    refine wp_anyOf fun _ => ib (L.a h (by decide) _ _) fun s h => ?_
    refine wp_anyOf fun _ => ib (L.a h (by decide) _ _) fun s h => ?_
    refine wp_anyOf fun _ => ib (L.a h (by decide) _ _) fun s h => ?_
    refine wp_anyOf fun _ => ib (L.a h (by decide) _ _) fun s h => ?_
    refine wp_anyOf fun _ => ib (L.a h (by decide) _ _) fun s h => ?_
    exact wp_anyOf fun _ => L.a h (by decide) _ _
  | rk4 r =>
    rw [Ode.solve]
    refine ib (R := fun (q : Rk4 α × SysState α) => P q.2) ?_ fun q h => h
    rw [Rk4.solve]
    simp only []
    refine wp_anyOf fun _ => wp_anyOf fun _ => ?_
    split
    · refine ib (ifor h fun i s h => ?_) fun s h => ?_
      · rw [rkGetBody]
        refine ib (L.get h (by decide) _) fun s h => ?_
        refine ib (L.get h (by decide) _) fun s h => ?_
        refine ib (L.get h (by decide) _) fun s h => ?_
        refine ib (L.get h (by decide) _) fun s h => ?_
        exact ib (L.get h (by decide) _) fun s h => L.get h (by decide) _
      · refine ib (ifor h fun i s h => ?_) fun s h => h
        rw [rkGetRBody]
        refine ib (L.getR h _ _) fun s h => ?_
        exact ib (L.getR h _ _) fun s h => L.getR h _ _
    · exact h

theorem Loose.loop {τ : Type} {ev : τ → SysState α → Exec (τ × SysState α)} {X : τ → Prop}
    (hev : ∀ x s, X x → P s → Wp (ev x s) (fun e => X e.1 ∧ P e.2) anyErr) :
    ∀ (k : Nat) (x : τ) (o : Ode α) (s : SysState α), X x → P s →
      Wp (odeLoop ev k x o s) (fun z => X z.1 ∧ P z.2.2) anyErr
  | 0, _, _, _, _, _ => trivial
  | k + 1, x, o, s, hx, h => by
    rw [odeLoop]
    refine ib (L.step h) fun q hq => ?_
    refine ib (hev _ _ hx hq) fun e he => ?_
    refine ib (L.solve he.2) fun z hz => ?_
    cases q.2.2 with
    | true => exact ⟨he.1, hz⟩
    | false => exact Loose.loop hev k _ _ _ he.1 hz

/-- A property of the state that survives the evaluations holds after a sub-step. -/
theorem Loose.run {τ : Type} {ev : τ → SysState α → Exec (τ × SysState α)} {X : τ → Prop}
    (hev : ∀ x s, X x → P s → Wp (ev x s) (fun e => X e.1 ∧ P e.2) anyErr) {x : τ} {o : Ode α}
    {s : SysState α} (hx : X x) (h : P s) (dt : α) :
    Wp (odeRun ev x o s dt) (fun z => X z.1 ∧ P z.2.2) anyErr := by
  rw [odeRun]
  refine wp_anyOf fun o => ?_
  exact ib (L.loop hev 5 x o s hx h) fun z hz => hz

end

/-! ### Recording the evaluations -/

section
variable {α : Type} [Zero α] [Add α] [Mul α] [Sub α] [Neg α] [Fp α]
variable {τ : Type} {ev : τ → SysState α → Exec (τ × SysState α)}

/-- The evaluation `ev` with a list of the states before and after each evaluation. -/
def logged (ev : τ → SysState α → Exec (τ × SysState α))
    (x : τ × List (SysState α × SysState α)) (s : SysState α) :
    Exec ((τ × List (SysState α × SysState α)) × SysState α) := do
  let e ← ev x.1 s
  pure ((e.1, x.2 ++ [(s, e.2)]), e.2)

/-- Recording changes neither the results nor the errors. -/
theorem logged_loop : ∀ (k : Nat) (x : τ × List (SysState α × SysState α)) (o : Ode α)
    (s : SysState α), odeLoop ev k x.1 o s = (do
      let z ← odeLoop (logged ev) k x o s
      pure (z.1.1, z.2))
  | 0, _, _, _ => rfl
  | k + 1, x, o, s => by
    rw [odeLoop, odeLoop]
    cases h1 : o.step s with
    | error _ => rfl
    | ok q =>
      simp only [ok_bind]
      rw [logged]
      cases h2 : ev x.1 q.2.1 with
      | error _ => rfl
      | ok e =>
        simp only [ok_bind]
        show _ = (q.1.solve e.2 >>= _) >>= _
        cases h3 : q.1.solve e.2 with
        | error _ => rfl
        | ok z =>
          simp only [ok_bind]
          cases q.2.2 with
          | true => rfl
          | false => exact logged_loop k (e.1, x.2 ++ [(q.2.1, e.2)]) z.1 z.2

theorem logged_run (x : τ × List (SysState α × SysState α)) (o : Ode α) (s : SysState α) (dt : α) :
    odeRun ev x.1 o s dt = (do
      let z ← odeRun (logged ev) x o s dt
      pure (z.1.1, z.2)) := by
  rw [odeRun, odeRun]
  cases h1 : o.start s dt with
  | error _ => rfl
  | ok o1 =>
    simp only [ok_bind]
    rw [logged_loop]
    cases h2 : odeLoop (logged ev) 5 x o1 s with
    | error _ => rfl
    | ok z => rfl

end

end Scs
