import Verif.StateSpec

/-!
# Control flow of the stage loop

For every evaluation between the stages, every arithmetic, and including runs that stop with an
error.
-/

namespace Scs

open SysState

section
variable {α : Type} [Zero α] [Add α] [Mul α] [Sub α] [Neg α] [Fp α]

/-- `E` admits the errors the solvers themselves can produce: null pointers, accesses out of bounds
and whatever the division of the arithmetic reports. -/
structure Lax (α : Type) [Fp α] (E : Err → Prop) : Prop where
  null : E .null
  oob : E .oob
  div : ∀ (a b : α) e, Fp.div a b = .error e → E e

variable {E : Err → Prop}

theorem Lax.pAt {β : Type} (h : Lax α E) (p : Option (Buf β)) (i : Int) :
    Wp (pAt p i) (fun _ => True) E := by
  cases p with
  | none => exact h.null
  | some b =>
    simp only [Scs.pAt, deref, ok_bind, Buf.rd]
    split
    · split
      · exact trivial
      · exact h.oob
    · exact h.oob

theorem Lax.pSet {β : Type} (h : Lax α E) (p : Option (Buf β)) (i : Int) (v : β) :
    Wp (pSet p i v) (fun _ => True) E := by
  cases p with
  | none => exact h.null
  | some b =>
    simp only [Scs.pSet, deref, ok_bind, Buf.wr]
    split
    · split
      · exact trivial
      · exact h.oob
    · exact h.oob

theorem Lax.memcpy {β : Type} (h : Lax α E) (p q : Option (Buf β)) (k : Nat) :
    Wp (memcpy p q k) (fun _ => True) E := by
  cases p with
  | none => exact h.null
  | some b =>
    cases q with
    | none => exact h.null
    | some b' =>
      simp only [Scs.memcpy, deref, ok_bind]
      split
      · exact trivial
      · exact h.oob

theorem Lax.fdiv (h : Lax α E) (a b : α) : Wp (Fp.div a b) (fun _ => True) E := by
  cases hd : Fp.div a b with
  | ok q => exact trivial
  | error e => exact h.div a b e hd

theorem wpT_bind {σ ρ : Type} {x : Exec σ} {f : σ → Exec ρ} {Q : ρ → Prop}
    (hx : Wp x (fun _ => True) E) (hf : ∀ a, Wp (f a) Q E) : Wp (x >>= f) Q E := by
  rw [wp_bind]
  exact hx.imp fun a _ => hf a

theorem wpT_forN {σ : Type} {n : Nat} {f : Nat → σ → Exec σ} {s : σ}
    (hf : ∀ i s, Wp (f i s) (fun _ => True) E) : Wp (forN n f s) (fun _ => True) E :=
  wp_forN (fun _ _ => True) trivial fun i _ s _ => hf i s

theorem Lax.rd (h : Lax α E) (s : SysState α) (f : Fld) (i : Int) : Wp (s.rd f i) (fun _ => True) E :=
  h.pAt _ _
theorem Lax.rrd (h : Lax α E) (s : SysState α) (f : CFld) (i : Int) :
    Wp (s.rrd f i) (fun _ => True) E := h.pAt _ _
theorem Lax.wr (h : Lax α E) (s : SysState α) (f : Fld) (i : Int) (v : α) :
    Wp (s.wr f i v) (fun _ => True) E := wpT_bind (h.pSet _ _ _) fun _ => trivial
theorem Lax.rwr (h : Lax α E) (s : SysState α) (f : CFld) (i : Int) (v : α) :
    Wp (s.rwr f i v) (fun _ => True) E := wpT_bind (h.pSet _ _ _) fun _ => trivial
theorem Lax.addTo (h : Lax α E) (s : SysState α) (f : Fld) (i : Int) (v : α) :
    Wp (s.addTo f i v) (fun _ => True) E := wpT_bind (h.rd _ _ _) fun _ => h.wr _ _ _ _

theorem Lax.cpF (h : Lax α E) (s src : SysState α) (f : Fld) : Wp (s.cpF src f) (fun _ => True) E :=
  wpT_bind (h.memcpy _ _ _) fun _ => trivial
theorem Lax.cpR (h : Lax α E) (s src : SysState α) (f : CFld) : Wp (s.cpR src f) (fun _ => True) E :=
  wpT_bind (h.memcpy _ _ _) fun _ => trivial

theorem Lax.copy (h : Lax α E) (s src : SysState α) : Wp (s.copy src) (fun _ => True) E := by
  rw [SysState.copy]
  simp only []
  split
  · exact trivial
  · refine wpT_bind (h.memcpy _ _ _) fun _ => ?_
    iterate 13 refine wpT_bind (h.cpF _ _ _) fun _ => ?_
    iterate 2 refine wpT_bind (h.cpR _ _ _) fun _ => ?_
    exact h.cpR _ _ _

theorem Lax.rkHalf (h : Lax α E) (dt : α) (ini : SysState α) (v a : Fld) (i : Nat) (s : SysState α) :
    Wp (rkHalf dt ini v a i s) (fun _ => True) E :=
  wpT_bind (h.rd _ _ _) fun _ => wpT_bind (h.rd _ _ _) fun _ => wpT_bind (h.fdiv _ _) fun _ =>
    h.wr _ _ _ _
theorem Lax.rkFull (h : Lax α E) (dt : α) (ini : SysState α) (v a : Fld) (i : Nat) (s : SysState α) :
    Wp (rkFull dt ini v a i s) (fun _ => True) E :=
  wpT_bind (h.rd _ _ _) fun _ => wpT_bind (h.rd _ _ _) fun _ => h.wr _ _ _ _
theorem Lax.rkAcc (h : Lax α E) (dt w : α) (sys : SysState α) (v a : Fld) (i : Nat)
    (s : SysState α) : Wp (rkAcc dt w sys v a i s) (fun _ => True) E :=
  wpT_bind (h.fdiv _ _) fun _ => wpT_bind (h.rd _ _ _) fun _ => h.addTo _ _ _ _
theorem Lax.rkAccR (h : Lax α E) (dt w : α) (sys : SysState α) (f : CFld) (i : Nat)
    (s : SysState α) : Wp (rkAccR dt w sys f i s) (fun _ => True) E :=
  wpT_bind (h.fdiv _ _) fun _ => wpT_bind (h.rrd _ _ _) fun _ => wpT_bind (h.rrd _ _ _) fun _ =>
    h.rwr _ _ _ _
theorem Lax.rkGet (h : Lax α E) (acc : SysState α) (f : Fld) (i : Nat) (s : SysState α) :
    Wp (rkGet acc f i s) (fun _ => True) E := wpT_bind (h.rd _ _ _) fun _ => h.wr _ _ _ _
theorem Lax.rkGetR (h : Lax α E) (acc : SysState α) (f : CFld) (i : Nat) (s : SysState α) :
    Wp (rkGetR acc f i s) (fun _ => True) E := wpT_bind (h.rrd _ _ _) fun _ => h.rwr _ _ _ _

theorem Lax.start (h : Lax α E) (r : Rk4 α) (s : SysState α) (dt : α) :
    Wp (r.start s dt) (fun r' => r'.stage = .stage1) E :=
  wpT_bind (h.copy _ _) fun _ => wpT_bind (h.copy _ _) fun _ => rfl

theorem Lax.step (h : Lax α E) (r : Rk4 α) (s : SysState α) :
    Wp (r.step s) (fun q => q.1.stage = r.stage ∧ q.1.nextStage = r.stage.next ∧
      (q.2.2 = true ↔ r.stage = .stage4)) E := by
  have half : ∀ s : SysState α, Wp (forN s.n (rkHalfBody r.dt r.init) s) (fun _ => True) E := by
    intro s
    refine wpT_forN fun i s => ?_
    rw [rkHalfBody]
    iterate 5 refine wpT_bind (h.rkHalf _ _ _ _ _ _) fun _ => ?_
    exact h.rkHalf _ _ _ _ _ _
  have full : ∀ s : SysState α, Wp (forN s.n (rkFullBody r.dt r.init) s) (fun _ => True) E := by
    intro s
    refine wpT_forN fun i s => ?_
    rw [rkFullBody]
    iterate 5 refine wpT_bind (h.rkFull _ _ _ _ _ _) fun _ => ?_
    exact h.rkFull _ _ _ _ _ _
  rw [Rk4.step]
  simp only []
  cases hs : r.stage <;> simp only []
  · exact ⟨rfl, rfl, by simp [RkStage.next]⟩
  · exact wpT_bind (half s) fun _ => wpT_bind (h.fdiv _ _) fun _ => ⟨rfl, rfl, by simp [RkStage.next]⟩
  · exact wpT_bind (half s) fun _ => wpT_bind (h.fdiv _ _) fun _ => ⟨rfl, rfl, by simp [RkStage.next]⟩
  · exact wpT_bind (full s) fun _ => ⟨rfl, rfl, by simp [RkStage.next]⟩
  · exact ⟨rfl, rfl, by simp [RkStage.next]⟩
  · exact ⟨rfl, rfl, by simp [RkStage.next]⟩

theorem Lax.solve (h : Lax α E) (r : Rk4 α) (s : SysState α) :
    Wp (r.solve s) (fun q => q.1.stage = r.nextStage) E := by
  rw [Rk4.solve]
  simp only []
  refine wpT_bind (wpT_forN fun i s => ?_) fun acc => wpT_bind (wpT_forN fun i s => ?_) fun acc' => ?_
  · rw [rkAccBody]
    iterate 5 refine wpT_bind (h.rkAcc _ _ _ _ _ _ _) fun _ => ?_
    exact h.rkAcc _ _ _ _ _ _ _
  · rw [rkAccRBody]
    iterate 2 refine wpT_bind (h.rkAccR _ _ _ _ _ _) fun _ => ?_
    exact h.rkAccR _ _ _ _ _ _
  · split
    · refine wpT_bind (wpT_forN fun i s => ?_) fun _ => wpT_bind (wpT_forN fun i s => ?_) fun _ => rfl
      · rw [rkGetBody]
        iterate 5 refine wpT_bind (h.rkGet _ _ _ _) fun _ => ?_
        exact h.rkGet _ _ _ _
      · rw [rkGetRBody]
        iterate 2 refine wpT_bind (h.rkGetR _ _ _ _) fun _ => ?_
        exact h.rkGetR _ _ _ _
    · exact rfl

/-- One pass of the loop. -/
theorem Lax.pass (h : Lax α E) {τ : Type} {ev : τ → SysState α → Exec (τ × SysState α)}
    {P : τ → τ → Prop} (hev : ∀ x s, Wp (ev x s) (fun e => P x e.1) E) {k : Nat} {x : τ} {r : Rk4 α}
    {s : SysState α} {Q : τ × Ode α × SysState α → Prop}
    (hQ : ∀ x' r' s', P x x' → r'.stage = r.stage.next →
      if r.stage = .stage4 then Q (x', .rk4 r', s') else Wp (odeLoop ev k x' (.rk4 r') s') Q E) :
    Wp (odeLoop ev (k + 1) x (.rk4 r) s) Q E := by
  simp only [odeLoop, Ode.step, Ode.solve, bind_assoc]
  rw [wp_bind]
  refine (h.step r s).imp fun q hq => ?_
  rw [wp_bind, wp_pure, wp_bind]
  refine (hev x q.2.1).imp fun e he => ?_
  simp only [bind_assoc]
  rw [wp_bind]
  refine (h.solve q.1 e.2).imp fun z hz => ?_
  rw [wp_bind, wp_pure]
  simp only []
  have := hQ e.1 z.1 z.2 he (by rw [hz, hq.2.1])
  by_cases hd : r.stage = .stage4
  · rw [if_pos hd] at this
    rw [if_pos (hq.2.2.2 hd)]
    exact this
  · rw [if_neg hd] at this
    rw [if_neg (fun h => hd (hq.2.2.1 h))]
    exact this

/-- From the first stage the loop makes exactly four passes. -/
theorem Lax.loop (h : Lax α E) {τ : Type} {ev : τ → SysState α → Exec (τ × SysState α)}
    {P : τ → τ → Prop} (hev : ∀ x s, Wp (ev x s) (fun e => P x e.1) E) {k : Nat} {x : τ} {r : Rk4 α}
    (hr : r.stage = .stage1) {s : SysState α} :
    Wp (odeLoop ev (k + 4) x (.rk4 r) s) (fun z => (∃ x1 x2 x3, P x x1 ∧ P x1 x2 ∧ P x2 x3 ∧
      P x3 z.1) ∧ ∃ r', z.2.1 = .rk4 r' ∧ r'.stage = .complete) E := by
  refine h.pass (k := k + 3) hev fun x1 r1 s1 p1 h1 => ?_
  rw [hr] at h1 ⊢
  rw [if_neg (by decide)]
  refine h.pass (k := k + 2) hev fun x2 r2 s2 p2 h2 => ?_
  rw [h1] at h2 ⊢
  rw [if_neg (by decide)]
  refine h.pass (k := k + 1) hev fun x3 r3 s3 p3 h3 => ?_
  rw [h2] at h3 ⊢
  rw [if_neg (by decide)]
  refine h.pass (k := k) hev fun x4 r4 s4 p4 h4 => ?_
  rw [h3] at h4 ⊢
  rw [if_pos (by decide)]
  exact ⟨⟨x1, x2, x3, p1, p2, p3, p4⟩, r4, rfl, h4⟩

end
end Scs
