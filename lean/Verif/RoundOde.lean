import Verif.RoundState
import Verif.OdeKeep

/-!
# Rounding: the ODE solvers

The integrators keep corresponding scalars close, and so does a whole step if the evaluation of forces
and constraints does.
-/

namespace Scs

open Filter Topology

section
variable {ι : Type} {l : Filter ι} {σ : ι → Type} {τ : Type} {R : (∀ i, σ i) → τ → Prop}

/-- A relation of two executions together with a property of the result of the exact one. -/
theorem RelF.wp {x : ∀ i, Exec (σ i)} {y : Exec τ} (h : RelF l R x y) {Q : τ → Prop}
    (hq : Wp y Q anyErr) : RelF l (fun a b => R a b ∧ Q b) x y := by
  intro b e
  obtain ⟨a, h1, h2⟩ := h b e
  exact ⟨a, h1, h2, wp_anyErr_iff.1 hq b e⟩

end

section
variable {ι : Type} {l : Filter ι} {F : ι → Type} [∀ i, Rounded (F i)]

/-- Runge-Kutta solver objects in the same stage with close data. -/
structure NRk4 (l : Filter ι) (r : ∀ i, Rk4 (F i)) (R : Rk4 ℝ) : Prop where
  dt : Near l (fun i => (r i).dt) R.dt
  stage : ∀ᶠ i in l, (r i).stage = R.stage
  nextStage : ∀ᶠ i in l, (r i).nextStage = R.nextStage
  init : NState l (fun i => (r i).init) R.init
  acc : NState l (fun i => (r i).acc) R.acc

/-- ODE solver objects of the same class with close data. -/
def NOde (l : Filter ι) (o : ∀ i, Ode (F i)) : Ode ℝ → Prop
  | .base d => ∃ e, (∀ᶠ i in l, o i = .base (e i)) ∧ Near l e d
  | .euler d => ∃ e, (∀ᶠ i in l, o i = .euler (e i)) ∧ Near l e d
  | .nsv d => ∃ e, (∀ᶠ i in l, o i = .nsv (e i)) ∧ Near l e d
  | .rk4 r => ∃ p, (∀ᶠ i in l, o i = .rk4 (p i)) ∧ NRk4 l p r

variable {s t : ∀ i, SysState (F i)} {S T : SysState ℝ}

theorem NState.setDt (h : NState l s S) {d : ∀ i, F i} {D : ℝ} (hd : Near l d D) :
    NState l (fun i => { s i with dt := d i }) { S with dt := D } :=
  ⟨h.im, h.fld, h.rf, h.n, h.nc, hd, h.junk, h.junkI, h.allocs, h.frees⟩

/-! ## Copying a state -/

theorem rel_memcpy {a b : ∀ i, Option (Buf (F i))} {A B : Option (Buf ℝ)} (ha : NPtr l a A)
    (hb : NPtr l b B) {k : ι → Nat} {K : Nat} (hk : SameF l k K) :
    RelF l (NPtr l) (fun i => memcpy (a i) (b i) (k i)) (memcpy A B K) := by
  unfold memcpy
  refine relf_bind (rel_deref ha) fun d D hd => ?_
  refine relf_bind (rel_deref hb) fun c C hc => ?_
  refine relf_ite ?_ (fun _ => ?_) fun _ => relf_error _ _
  · filter_upwards [hk, hd.size, hc.size] with i e1 e2 e3
    rw [e1, e2, e3]
  · refine relf_pure (NPtr.some ⟨hd.size, fun j => ?_⟩)
    by_cases hj : j < K
    · refine Near.congr ?_ (hk.mono fun i e => if_pos (by rw [e]; exact hj))
      simp only [hj, if_true]
      exact hc.val j
    · refine Near.congr ?_ (hk.mono fun i e => if_neg (by rw [e]; exact hj))
      simp only [hj, if_false]
      exact hd.val j

theorem rel_cpF (h : NState l s S) (ht : NState l t T) (f : Fld) :
    RelF l (NState l) (fun i => (s i).cpF (t i) f) (S.cpF T f) := by
  unfold SysState.cpF
  refine relf_bind (rel_memcpy (h.fld f) (ht.fld f) h.n) fun p P hp => ?_
  exact relf_pure (h.setFld f hp)

theorem rel_cpR (h : NState l s S) (ht : NState l t T) (f : CFld) :
    RelF l (NState l) (fun i => (s i).cpR (t i) f) (S.cpR T f) := by
  unfold SysState.cpR
  refine relf_bind (rel_memcpy (h.rf f) (ht.rf f) (h.nc.mono fun i e => congrArg (· * 2) e))
    fun p P hp => ?_
  exact relf_pure (h.setRf f hp)

theorem NState.setIm (h : NState l s S) {m : ι → Option (Buf Nat)} {M : Option (Buf Nat)}
    (hm : SameF l m M) : NState l (fun i => { s i with indexMap := m i }) { S with indexMap := M } :=
  ⟨hm, h.fld, h.rf, h.n, h.nc, h.dt, h.junk, h.junkI, h.allocs, h.frees⟩

theorem rel_copy (h : NState l s S) (ht : NState l t T) :
    RelF l (NState l) (fun i => (s i).copy (t i)) (S.copy T) := by
  unfold SysState.copy
  have h := h.resize ht.n ht.nc
  refine relf_ite (ht.n.mono fun i e => by rw [e]) (fun _ => relf_pure h) fun _ => ?_
  refine relf_bind (R := SameF l) (relf_same ?_) fun p P hp => ?_
  · filter_upwards [h.im, ht.im, h.nc] with i e1 e2 e3
    rw [e1, e2, e3]
  have h := h.setIm hp
  refine relf_bind (rel_cpF h ht _) fun s S h => ?_
  refine relf_bind (rel_cpF h ht _) fun s S h => ?_
  refine relf_bind (rel_cpF h ht _) fun s S h => ?_
  refine relf_bind (rel_cpF h ht _) fun s S h => ?_
  refine relf_bind (rel_cpF h ht _) fun s S h => ?_
  refine relf_bind (rel_cpF h ht _) fun s S h => ?_
  refine relf_bind (rel_cpF h ht _) fun s S h => ?_
  refine relf_bind (rel_cpF h ht _) fun s S h => ?_
  refine relf_bind (rel_cpF h ht _) fun s S h => ?_
  refine relf_bind (rel_cpF h ht _) fun s S h => ?_
  refine relf_bind (rel_cpF h ht _) fun s S h => ?_
  refine relf_bind (rel_cpF h ht _) fun s S h => ?_
  refine relf_bind (rel_cpF h ht _) fun s S h => ?_
  refine relf_bind (rel_cpR h ht _) fun s S h => ?_
  refine relf_bind (rel_cpR h ht _) fun s S h => ?_
  exact rel_cpR h ht _

/-! ## The loops of the solvers -/

variable [Shrinks l F] {d : ∀ i, F i} {D : ℝ}

theorem rel_eulerBody (h : NState l s S) (hd : Near l d D) (k : Nat) :
    RelF l (NState l) (fun i => eulerBody (d i) k (s i)) (eulerBody D k S) := by
  unfold eulerBody
  refine relf_bind (rel_frd h _ _) fun v V hv => ?_
  refine relf_bind (rel_addTo h _ _ (hv.mul hd)) fun s S h => ?_
  refine relf_bind (rel_frd h _ _) fun v V hv => ?_
  refine relf_bind (rel_addTo h _ _ (hv.mul hd)) fun s S h => ?_
  refine relf_bind (rel_frd h _ _) fun v V hv => ?_
  refine relf_bind (rel_addTo h _ _ (hv.mul hd)) fun s S h => ?_
  refine relf_bind (rel_frd h _ _) fun v V hv => ?_
  refine relf_bind (rel_addTo h _ _ (hv.mul hd)) fun s S h => ?_
  refine relf_bind (rel_frd h _ _) fun v V hv => ?_
  refine relf_bind (rel_addTo h _ _ (hv.mul hd)) fun s S h => ?_
  refine relf_bind (rel_frd h _ _) fun v V hv => ?_
  exact rel_addTo h _ _ (hv.mul hd)

theorem rel_nsvBody (h : NState l s S) (hd : Near l d D) (k : Nat) :
    RelF l (NState l) (fun i => nsvBody (d i) k (s i)) (nsvBody D k S) := by
  unfold nsvBody
  refine relf_bind (rel_frd h _ _) fun v V hv => ?_
  refine relf_bind (rel_addTo h _ _ (hv.mul hd)) fun s S h => ?_
  refine relf_bind (rel_frd h _ _) fun v V hv => ?_
  refine relf_bind (rel_addTo h _ _ (hv.mul hd)) fun s S h => ?_
  refine relf_bind (rel_frd h _ _) fun v V hv => ?_
  refine relf_bind (rel_addTo h _ _ (hv.mul hd)) fun s S h => ?_
  refine relf_bind (rel_frd h _ _) fun v V hv => ?_
  refine relf_bind (rel_addTo h _ _ (hv.mul hd)) fun s S h => ?_
  refine relf_bind (rel_frd h _ _) fun v V hv => ?_
  refine relf_bind (rel_addTo h _ _ (hv.mul hd)) fun s S h => ?_
  refine relf_bind (rel_frd h _ _) fun v V hv => ?_
  exact rel_addTo h _ _ (hv.mul hd)

theorem rel_rkHalf (hd : Near l d D) (ht : NState l t T) (v a : Fld) (k : Nat)
    (h : NState l s S) :
    RelF l (NState l) (fun i => rkHalf (d i) (t i) v a k (s i)) (rkHalf D T v a k S) := by
  unfold rkHalf
  refine relf_bind (rel_frd ht _ _) fun x0 X0 h0 => ?_
  refine relf_bind (rel_frd h _ _) fun x X hx => ?_
  refine relf_bind (near_div (hd.mul hx) (Near.lit 2)) fun q Q hq => ?_
  exact rel_fwr h _ _ (h0.add hq)

theorem rel_rkFull (hd : Near l d D) (ht : NState l t T) (v a : Fld) (k : Nat)
    (h : NState l s S) :
    RelF l (NState l) (fun i => rkFull (d i) (t i) v a k (s i)) (rkFull D T v a k S) := by
  unfold rkFull
  refine relf_bind (rel_frd ht _ _) fun x0 X0 h0 => ?_
  refine relf_bind (rel_frd h _ _) fun x X hx => ?_
  exact rel_fwr h _ _ (h0.add (hd.mul hx))

theorem rel_rkHalfBody (hd : Near l d D) (ht : NState l t T) (k : Nat) (h : NState l s S) :
    RelF l (NState l) (fun i => rkHalfBody (d i) (t i) k (s i)) (rkHalfBody D T k S) := by
  unfold rkHalfBody
  refine relf_bind (rel_rkHalf hd ht _ _ k h) fun s S h => ?_
  refine relf_bind (rel_rkHalf hd ht _ _ k h) fun s S h => ?_
  refine relf_bind (rel_rkHalf hd ht _ _ k h) fun s S h => ?_
  refine relf_bind (rel_rkHalf hd ht _ _ k h) fun s S h => ?_
  refine relf_bind (rel_rkHalf hd ht _ _ k h) fun s S h => ?_
  exact rel_rkHalf hd ht _ _ k h

theorem rel_rkFullBody (hd : Near l d D) (ht : NState l t T) (k : Nat) (h : NState l s S) :
    RelF l (NState l) (fun i => rkFullBody (d i) (t i) k (s i)) (rkFullBody D T k S) := by
  unfold rkFullBody
  refine relf_bind (rel_rkFull hd ht _ _ k h) fun s S h => ?_
  refine relf_bind (rel_rkFull hd ht _ _ k h) fun s S h => ?_
  refine relf_bind (rel_rkFull hd ht _ _ k h) fun s S h => ?_
  refine relf_bind (rel_rkFull hd ht _ _ k h) fun s S h => ?_
  refine relf_bind (rel_rkFull hd ht _ _ k h) fun s S h => ?_
  exact rel_rkFull hd ht _ _ k h

theorem rel_rkAcc (hd : Near l d D) {w : ∀ i, F i} {W : ℝ} (hw : Near l w W) (ht : NState l t T)
    (v a : Fld) (k : Nat) (h : NState l s S) :
    RelF l (NState l) (fun i => rkAcc (d i) (w i) (t i) v a k (s i)) (rkAcc D W T v a k S) := by
  unfold rkAcc
  refine relf_bind (near_div hd (Near.lit 6)) fun q Q hq => ?_
  refine relf_bind (rel_frd ht _ _) fun x X hx => ?_
  exact rel_addTo h _ _ ((hq.mul hx).mul hw)

theorem rel_rkAccR (hd : Near l d D) {w : ∀ i, F i} {W : ℝ} (hw : Near l w W) (ht : NState l t T)
    (f : CFld) (k : Nat) (h : NState l s S) :
    RelF l (NState l) (fun i => rkAccR (d i) (w i) (t i) f k (s i)) (rkAccR D W T f k S) := by
  unfold rkAccR
  refine relf_bind (near_div hd (Near.lit 6)) fun q Q hq => ?_
  refine relf_bind (rel_rrd ht _ _) fun x X hx => ?_
  refine relf_bind (rel_rrd h _ _) fun y Y hy => ?_
  exact rel_rwr h _ _ (hy.add ((hq.mul hx).mul hw))

theorem rel_rkAccBody (hd : Near l d D) {w : ∀ i, F i} {W : ℝ} (hw : Near l w W)
    (ht : NState l t T) (k : Nat) (h : NState l s S) :
    RelF l (NState l) (fun i => rkAccBody (d i) (w i) (t i) k (s i)) (rkAccBody D W T k S) := by
  unfold rkAccBody
  refine relf_bind (rel_rkAcc hd hw ht _ _ k h) fun s S h => ?_
  refine relf_bind (rel_rkAcc hd hw ht _ _ k h) fun s S h => ?_
  refine relf_bind (rel_rkAcc hd hw ht _ _ k h) fun s S h => ?_
  refine relf_bind (rel_rkAcc hd hw ht _ _ k h) fun s S h => ?_
  refine relf_bind (rel_rkAcc hd hw ht _ _ k h) fun s S h => ?_
  exact rel_rkAcc hd hw ht _ _ k h

theorem rel_rkAccRBody (hd : Near l d D) {w : ∀ i, F i} {W : ℝ} (hw : Near l w W)
    (ht : NState l t T) (k : Nat) (h : NState l s S) :
    RelF l (NState l) (fun i => rkAccRBody (d i) (w i) (t i) k (s i)) (rkAccRBody D W T k S) := by
  unfold rkAccRBody
  refine relf_bind (rel_rkAccR hd hw ht _ k h) fun s S h => ?_
  refine relf_bind (rel_rkAccR hd hw ht _ k h) fun s S h => ?_
  exact rel_rkAccR hd hw ht _ k h

omit [Shrinks l F] in
theorem rel_rkGet (ht : NState l t T) (f : Fld) (k : Nat) (h : NState l s S) :
    RelF l (NState l) (fun i => rkGet (t i) f k (s i)) (rkGet T f k S) := by
  unfold rkGet
  refine relf_bind (rel_frd ht _ _) fun x X hx => ?_
  exact rel_fwr h _ _ hx

omit [Shrinks l F] in
theorem rel_rkGetR (ht : NState l t T) (f : CFld) (k : Nat) (h : NState l s S) :
    RelF l (NState l) (fun i => rkGetR (t i) f k (s i)) (rkGetR T f k S) := by
  unfold rkGetR
  refine relf_bind (rel_rrd ht _ _) fun x X hx => ?_
  exact rel_rwr h _ _ hx

omit [Shrinks l F] in
theorem rel_rkGetBody (ht : NState l t T) (k : Nat) (h : NState l s S) :
    RelF l (NState l) (fun i => rkGetBody (t i) k (s i)) (rkGetBody T k S) := by
  unfold rkGetBody
  refine relf_bind (rel_rkGet ht _ k h) fun s S h => ?_
  refine relf_bind (rel_rkGet ht _ k h) fun s S h => ?_
  refine relf_bind (rel_rkGet ht _ k h) fun s S h => ?_
  refine relf_bind (rel_rkGet ht _ k h) fun s S h => ?_
  refine relf_bind (rel_rkGet ht _ k h) fun s S h => ?_
  exact rel_rkGet ht _ k h

omit [Shrinks l F] in
theorem rel_rkGetRBody (ht : NState l t T) (k : Nat) (h : NState l s S) :
    RelF l (NState l) (fun i => rkGetRBody (t i) k (s i)) (rkGetRBody T k S) := by
  unfold rkGetRBody
  refine relf_bind (rel_rkGetR ht _ k h) fun s S h => ?_
  refine relf_bind (rel_rkGetR ht _ k h) fun s S h => ?_
  exact rel_rkGetR ht _ k h

/-! ## `start`, `step`, `solve`, `end` -/

omit [Shrinks l F] in
theorem rel_odeStart {o : ∀ i, Ode (F i)} {O : Ode ℝ} (ho : NOde l o O) (h : NState l s S)
    (hd : Near l d D) :
    RelF l (NOde l) (fun i => (o i).start (s i) (d i)) (O.start S D) := by
  cases O with
  | base e =>
    obtain ⟨e', h1, h2⟩ := ho
    refine relf_congr (x' := fun i => pure (.base (d i))) (h1.mono fun i e => by rw [e]; rfl) ?_
    exact relf_pure ⟨d, .of_forall fun _ => rfl, hd⟩
  | euler e =>
    obtain ⟨e', h1, h2⟩ := ho
    refine relf_congr (x' := fun i => pure (.euler (d i))) (h1.mono fun i e => by rw [e]; rfl) ?_
    exact relf_pure ⟨d, .of_forall fun _ => rfl, hd⟩
  | nsv e =>
    obtain ⟨e', h1, h2⟩ := ho
    refine relf_congr (x' := fun i => pure (.nsv (d i))) (h1.mono fun i e => by rw [e]; rfl) ?_
    exact relf_pure ⟨d, .of_forall fun _ => rfl, hd⟩
  | rk4 r =>
    obtain ⟨p, h1, h2⟩ := ho
    refine relf_congr (x' := fun i => (p i).start (s i) (d i) >>= fun r => pure (.rk4 r))
      (h1.mono fun i e => by rw [e]; rfl) ?_
    show RelF l (NOde l) _ (r.start S D >>= fun r => pure (.rk4 r))
    refine relf_bind (R := NRk4 l) ?_ fun q Q hq => relf_pure ⟨q, .of_forall fun _ => rfl, hq⟩
    unfold Rk4.start
    refine relf_bind (rel_copy h2.init h) fun a A ha => ?_
    refine relf_bind (rel_copy h2.acc h) fun b B hb => ?_
    exact relf_pure ⟨hd, SameF.rfl', h2.nextStage, ha, hb⟩

/-- The results of `step`. -/
def NStep (l : Filter ι) (a : ∀ i, Ode (F i) × SysState (F i) × Bool)
    (b : Ode ℝ × SysState ℝ × Bool) : Prop :=
  NOde l (fun i => (a i).1) b.1 ∧ NState l (fun i => (a i).2.1) b.2.1 ∧
    SameF l (fun i => (a i).2.2) b.2.2

omit [∀ i, Rounded (F i)] [Shrinks l F] in
theorem rkStep_eq {α : Type} [Zero α] [Add α] [Mul α] [Sub α] [Neg α] [Fp α] (r : Rk4 α)
    (s : SysState α) : r.step s = (do
      let s ← (match r.stage with
        | .stage1 => pure { s with dt := Fp.lit 0 }
        | .stage2 | .stage3 => forN s.n (rkHalfBody r.dt r.init) s >>= fun t =>
          Fp.div r.dt (Fp.lit 2) >>= fun h => pure { t with dt := h }
        | .stage4 => forN s.n (rkFullBody r.dt r.init) s >>= fun t => pure { t with dt := r.dt }
        | _ => pure s : Exec (SysState α))
      pure ({ r with nextStage := r.stage.next }, s, r.stage.next == .complete)) := by
  unfold Rk4.step
  cases r.stage <;> simp

theorem rel_rkStep {r : ∀ i, Rk4 (F i)} {R : Rk4 ℝ} (hr : NRk4 l r R) (h : NState l s S) :
    RelF l (fun (a : ∀ i, Rk4 (F i) × SysState (F i) × Bool) b => NRk4 l (fun i => (a i).1) b.1 ∧
        NState l (fun i => (a i).2.1) b.2.1 ∧ SameF l (fun i => (a i).2.2) b.2.2)
      (fun i => (r i).step (s i)) (R.step S) := by
  have half : RelF l (NState l) (fun i => (do
      let t ← forN (s i).n (rkHalfBody (r i).dt (r i).init) (s i)
      let h ← Fp.div (r i).dt (Fp.lit 2)
      pure { t with dt := h } : Exec (SysState (F i)))) (do
      let t ← forN S.n (rkHalfBody R.dt R.init) S
      let h ← Fp.div R.dt (Fp.lit 2)
      pure { t with dt := h }) := by
    refine relf_bind (relf_forN h.n h fun k _ s S h => rel_rkHalfBody hr.dt hr.init k h)
      fun s S h => ?_
    refine relf_bind (near_div hr.dt (Near.lit 2)) fun q Q hq => ?_
    exact relf_pure (h.setDt hq)
  refine relf_congr (.of_forall fun i => rkStep_eq (r i) (s i)) ?_
  rw [rkStep_eq]
  refine relf_bind (R := NState l) ?_ fun s S h => ?_
  · refine relf_congr (hr.stage.mono fun i e => by rw [e]) ?_
    cases R.stage with
    | stage1 => exact relf_pure (h.setDt (Near.lit 0))
    | stage2 => exact half
    | stage3 => exact half
    | stage4 =>
      refine relf_bind (relf_forN h.n h fun k _ s S h => rel_rkFullBody hr.dt hr.init k h)
        fun s S h => ?_
      exact relf_pure (h.setDt hr.dt)
    | complete => exact relf_pure h
    | undefined => exact relf_pure h
  · refine relf_pure ⟨⟨hr.dt, hr.stage, ?_, hr.init, hr.acc⟩, h, ?_⟩
    · filter_upwards [hr.stage] with i e; rw [e]
    · filter_upwards [hr.stage] with i e; rw [e]

theorem rel_odeStep {o : ∀ i, Ode (F i)} {O : Ode ℝ} (ho : NOde l o O) (h : NState l s S) :
    RelF l (NStep l) (fun i => (o i).step (s i)) (O.step S) := by
  cases O with
  | base e =>
    obtain ⟨d, h1, h2⟩ := ho
    refine relf_congr (x' := fun i => pure (.base (d i), s i, true))
      (h1.mono fun i e => by rw [e]; rfl) ?_
    exact relf_pure ⟨⟨d, .of_forall fun _ => rfl, h2⟩, h, SameF.rfl'⟩
  | euler e =>
    obtain ⟨d, h1, h2⟩ := ho
    refine relf_congr (x' := fun i => pure (.euler (d i), { s i with dt := d i }, true))
      (h1.mono fun i e => by rw [e]; rfl) ?_
    exact relf_pure ⟨⟨d, .of_forall fun _ => rfl, h2⟩, h.setDt h2, SameF.rfl'⟩
  | nsv e =>
    obtain ⟨d, h1, h2⟩ := ho
    refine relf_congr (x' := fun i => pure (.nsv (d i), { s i with dt := d i }, true))
      (h1.mono fun i e => by rw [e]; rfl) ?_
    exact relf_pure ⟨⟨d, .of_forall fun _ => rfl, h2⟩, h.setDt h2, SameF.rfl'⟩
  | rk4 r =>
    obtain ⟨p, h1, h2⟩ := ho
    refine relf_congr (x' := fun i => (p i).step (s i) >>= fun q => pure (.rk4 q.1, q.2.1, q.2.2))
      (h1.mono fun i e => by rw [e]; rfl) ?_
    show RelF l (NStep l) _ (r.step S >>= fun q => pure (.rk4 q.1, q.2.1, q.2.2))
    refine relf_bind (rel_rkStep h2 h) fun q Q hq => ?_
    exact relf_pure ⟨⟨fun i => (q i).1, .of_forall fun _ => rfl, hq.1⟩, hq.2⟩

/-- The results of `solve`. -/
def NSolve (l : Filter ι) (a : ∀ i, Ode (F i) × SysState (F i)) (b : Ode ℝ × SysState ℝ) : Prop :=
  NOde l (fun i => (a i).1) b.1 ∧ NState l (fun i => (a i).2) b.2

theorem near_weight (st : RkStage) :
    Near l (fun i => (st.weight : F i)) (st.weight : ℝ) := by
  cases st <;> exact Near.lit _

theorem rel_rkSolve {r : ∀ i, Rk4 (F i)} {R : Rk4 ℝ} (hr : NRk4 l r R) (h : NState l s S) :
    RelF l (fun (a : ∀ i, Rk4 (F i) × SysState (F i)) b => NRk4 l (fun i => (a i).1) b.1 ∧
        NState l (fun i => (a i).2) b.2)
      (fun i => (r i).solve (s i)) (R.solve S) := by
  have hw : Near l (fun i => ((r i).stage.weight : F i)) (R.stage.weight : ℝ) :=
    (near_weight R.stage).congr (hr.stage.mono fun i e => by rw [e])
  unfold Rk4.solve
  refine relf_bind (relf_forN h.n hr.acc fun k _ a A ha => rel_rkAccBody hr.dt hw h k ha)
    fun a A ha => ?_
  refine relf_bind (relf_forN h.nc ha fun k _ a A ha => rel_rkAccRBody hr.dt hw h k ha)
    fun a A ha => ?_
  refine relf_ite (hr.stage.mono fun i e => by rw [e]) (fun _ => ?_) fun _ =>
    relf_pure ⟨⟨hr.dt, hr.nextStage, hr.nextStage, hr.init, ha⟩, h⟩
  refine relf_bind (relf_forN h.n h fun k _ s S h => rel_rkGetBody ha k h) fun s S h => ?_
  refine relf_bind (relf_forN h.nc h fun k _ s S h => rel_rkGetRBody ha k h) fun s S h => ?_
  exact relf_pure ⟨⟨hr.dt, hr.nextStage, hr.nextStage, hr.init, ha⟩, h⟩

theorem rel_odeSolve {o : ∀ i, Ode (F i)} {O : Ode ℝ} (ho : NOde l o O) (h : NState l s S) :
    RelF l (NSolve l) (fun i => (o i).solve (s i)) (O.solve S) := by
  cases O with
  | base e =>
    obtain ⟨d, h1, h2⟩ := ho
    refine relf_congr (x' := fun i => pure (.base (d i), s i))
      (h1.mono fun i e => by rw [e]; rfl) ?_
    exact relf_pure ⟨⟨d, .of_forall fun _ => rfl, h2⟩, h⟩
  | euler e =>
    obtain ⟨d, h1, h2⟩ := ho
    refine relf_congr (x' := fun i => forN (s i).n (eulerBody (d i)) { s i with dt := d i } >>=
      fun s => pure (.euler (d i), s)) (h1.mono fun i e => by rw [e]; rfl) ?_
    show RelF l (NSolve l) _ (forN S.n (eulerBody e) { S with dt := e } >>= fun s =>
      pure (.euler e, s))
    refine relf_bind (relf_forN h.n (h.setDt h2) fun k _ s S h => rel_eulerBody h h2 k)
      fun s S h => ?_
    exact relf_pure ⟨⟨d, .of_forall fun _ => rfl, h2⟩, h⟩
  | nsv e =>
    obtain ⟨d, h1, h2⟩ := ho
    refine relf_congr (x' := fun i => forN (s i).n (nsvBody (d i)) { s i with dt := d i } >>=
      fun s => pure (.nsv (d i), s)) (h1.mono fun i e => by rw [e]; rfl) ?_
    show RelF l (NSolve l) _ (forN S.n (nsvBody e) { S with dt := e } >>= fun s =>
      pure (.nsv e, s))
    refine relf_bind (relf_forN h.n (h.setDt h2) fun k _ s S h => rel_nsvBody h h2 k)
      fun s S h => ?_
    exact relf_pure ⟨⟨d, .of_forall fun _ => rfl, h2⟩, h⟩
  | rk4 r =>
    obtain ⟨p, h1, h2⟩ := ho
    refine relf_congr (x' := fun i => (p i).solve (s i) >>= fun q => pure (.rk4 q.1, q.2))
      (h1.mono fun i e => by rw [e]; rfl) ?_
    show RelF l (NSolve l) _ (r.solve S >>= fun q => pure (.rk4 q.1, q.2))
    refine relf_bind (rel_rkSolve h2 h) fun q Q hq => ?_
    exact relf_pure ⟨⟨fun i => (q i).1, .of_forall fun _ => rfl, hq.1⟩, hq.2⟩

omit [Shrinks l F] in
theorem NOde.congr {o o' : ∀ i, Ode (F i)} {O : Ode ℝ} (ho : NOde l o O)
    (e : ∀ᶠ i in l, o' i = o i) : NOde l o' O := by
  cases O <;> obtain ⟨d, h1, h2⟩ := ho <;> refine ⟨d, ?_, h2⟩ <;>
    filter_upwards [h1, e] with i h1 e <;> rw [e, h1]

omit [Shrinks l F] in
theorem NOde.fin {o : ∀ i, Ode (F i)} {O : Ode ℝ} (ho : NOde l o O) :
    NOde l (fun i => (o i).fin) O.fin := by
  cases O with
  | base e =>
    obtain ⟨d, h1, h2⟩ := ho
    exact ⟨d, h1.mono fun i e => by dsimp only; rw [e]; rfl, h2⟩
  | euler e =>
    obtain ⟨d, h1, h2⟩ := ho
    exact ⟨d, h1.mono fun i e => by dsimp only; rw [e]; rfl, h2⟩
  | nsv e =>
    obtain ⟨d, h1, h2⟩ := ho
    exact ⟨d, h1.mono fun i e => by dsimp only; rw [e]; rfl, h2⟩
  | rk4 r =>
    obtain ⟨p, h1, h2⟩ := ho
    exact ⟨fun i => (p i).fin, h1.mono fun i e => by dsimp only; rw [e]; rfl, h2.dt, SameF.rfl', SameF.rfl',
      h2.init, h2.acc⟩

end

/-! ## A whole step -/

/-- All states in which the stage loop evaluates forces and constraints, together with the other data
that `process` changes, have the property `A`. -/
def LoopMeets {T : Type} (A : T → SysState ℝ → Prop) (ev : T → SysState ℝ → Exec (T × SysState ℝ)) :
    Nat → T → Ode ℝ → SysState ℝ → Prop
  | 0, _, _, _ => True
  | k + 1, x, o, s => ∀ q, o.step s = .ok q → A x q.2.1 ∧ ∀ e, ev x q.2.1 = .ok e →
      ∀ z, q.1.solve e.2 = .ok z → q.2.2 = false → LoopMeets A ev k e.1 z.1 z.2

/-- All states in which a sub-step evaluates forces and constraints, together with the other data
that `process` changes, have the property `A`. -/
def RunMeets {T : Type} (A : T → SysState ℝ → Prop) (ev : T → SysState ℝ → Exec (T × SysState ℝ))
    (x : T) (o : Ode ℝ) (s : SysState ℝ) (d : ℝ) : Prop :=
  ∀ o', o.start s d = .ok o' → LoopMeets A ev 5 x o' s

theorem LoopMeets.of {T : Type} {A : T → SysState ℝ → Prop}
    {ev : T → SysState ℝ → Exec (T × SysState ℝ)} (h : ∀ x s, A x s) :
    ∀ k x o s, LoopMeets A ev k x o s
  | 0, _, _, _ => trivial
  | k + 1, _, _, _ => fun _ _ => ⟨h _ _, fun _ _ _ _ _ => LoopMeets.of h k _ _ _⟩

theorem LoopMeets.and {T : Type} {A A' : T → SysState ℝ → Prop}
    {ev : T → SysState ℝ → Exec (T × SysState ℝ)} :
    ∀ {k x o s}, LoopMeets A ev k x o s → LoopMeets A' ev k x o s →
      LoopMeets (fun x s => A x s ∧ A' x s) ev k x o s
  | 0, _, _, _, _, _ => trivial
  | k + 1, _, _, _, h, h' => fun q e => ⟨⟨(h q e).1, (h' q e).1⟩, fun y ey z ez hq =>
      LoopMeets.and ((h q e).2 y ey z ez hq) ((h' q e).2 y ey z ez hq)⟩

section
variable {ι : Type} {l : Filter ι} {F : ι → Type} [∀ i, Rounded (F i)] [Shrinks l F]
  {τ : ι → Type} {T : Type} {ev : ∀ i, τ i → SysState (F i) → Exec (τ i × SysState (F i))}
  {EV : T → SysState ℝ → Exec (T × SysState ℝ)} {N : (∀ i, τ i) → T → Prop}
  {P : SysState ℝ → Prop} {A : T → SysState ℝ → Prop} {I : T → Prop}

/-- The results of the stage loop. -/
def NRun (l : Filter ι) {τ : ι → Type} {T : Type} (N : (∀ i, τ i) → T → Prop)
    (a : ∀ i, τ i × Ode (F i) × SysState (F i)) (b : T × Ode ℝ × SysState ℝ) : Prop :=
  N (fun i => (a i).1) b.1 ∧ NOde l (fun i => (a i).2.1) b.2.1 ∧ NState l (fun i => (a i).2.2) b.2.2

theorem rel_odeLoop (L : Loose P)
    (hk : ∀ x s, I x → P s → Wp (EV x s) (fun e => I e.1 ∧ P e.2) anyErr)
    (hev : ∀ x X s S, N x X → NState l s S → I X → P S → A X S →
      RelF l (fun (a : ∀ i, τ i × SysState (F i)) b => N (fun i => (a i).1) b.1 ∧
        NState l (fun i => (a i).2) b.2) (fun i => ev i (x i) (s i)) (EV X S)) :
    ∀ k (x : ∀ i, τ i) X (o : ∀ i, Ode (F i)) O s S, N x X → NOde l o O → NState l s S → I X →
      P S → LoopMeets A EV k X O S →
      RelF l (NRun l N) (fun i => odeLoop (ev i) k (x i) (o i) (s i)) (odeLoop EV k X O S)
  | 0, _, _, _, _, _, _, _, _, _, _, _, _ => relf_error _ _
  | k + 1, x, X, o, O, s, S, hx, ho, hs, hI, hP, hA => by
    unfold odeLoop
    refine relf_bind' (rel_odeStep ho hs) fun q Q _ eq hq => ?_
    obtain ⟨hA1, hA2⟩ := hA Q eq
    have hP1 := wp_anyErr_iff.1 (L.step (o := O) hP) Q eq
    refine relf_bind' (hev x X _ _ hx hq.2.1 hI hP1 hA1) fun e E _ ee he => ?_
    obtain ⟨hI2, hP2⟩ := wp_anyErr_iff.1 (hk X _ hI hP1) E ee
    refine relf_bind' (rel_odeSolve hq.1 he.2) fun z Z _ ez hz => ?_
    have hP3 := wp_anyErr_iff.1 (L.solve (o := Q.1) hP2) Z ez
    cases hQ : Q.2.2 with
    | true =>
      refine relf_congr (x' := fun i => pure ((e i).1, (z i).1, (z i).2)) ?_ ?_
      · filter_upwards [hq.2.2] with i h; rw [h, hQ]; rfl
      · exact relf_pure ⟨he.1, hz⟩
    | false =>
      refine relf_congr (x' := fun i => odeLoop (ev i) k (e i).1 (z i).1 (z i).2) ?_ ?_
      · filter_upwards [hq.2.2] with i h; rw [h, hQ]; rfl
      · exact rel_odeLoop L hk hev k _ _ _ _ _ _ he.1 hz.1 hz.2 hI2 hP3
          (hA2 E ee Z ez hQ)

theorem rel_odeRun (L : Loose P)
    (hk : ∀ x s, I x → P s → Wp (EV x s) (fun e => I e.1 ∧ P e.2) anyErr)
    (hev : ∀ x X s S, N x X → NState l s S → I X → P S → A X S →
      RelF l (fun (a : ∀ i, τ i × SysState (F i)) b => N (fun i => (a i).1) b.1 ∧
        NState l (fun i => (a i).2) b.2) (fun i => ev i (x i) (s i)) (EV X S))
    {x : ∀ i, τ i} {X : T} {o : ∀ i, Ode (F i)} {O : Ode ℝ} {s : ∀ i, SysState (F i)}
    {S : SysState ℝ} (hx : N x X) (ho : NOde l o O) (hs : NState l s S) (hI : I X) (hP : P S)
    {d : ∀ i, F i} {D : ℝ} (hd : Near l d D) (hA : RunMeets A EV X O S D) :
    RelF l (NRun l N) (fun i => odeRun (ev i) (x i) (o i) (s i) (d i)) (odeRun EV X O S D) := by
  unfold odeRun
  refine relf_bind' (rel_odeStart ho hs hd) fun p Q _ eq hp => ?_
  refine relf_bind (rel_odeLoop L hk hev 5 _ _ _ _ _ _ hx hp hs hI hP (hA Q eq)) fun z Z hz => ?_
  exact relf_pure ⟨hz.1, hz.2.1.fin, hz.2.2⟩

end

end Scs
