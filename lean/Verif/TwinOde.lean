import Verif.TwinState
import Verif.OdeRun
import Verif.StateSpec

/-!
# Two runs of the same code: constraints and ODE solvers
-/

namespace Scs

open SysState

section
variable {α : Type} [Zero α] [Add α] [Mul α] [Sub α] [Neg α] [Fp α]

/-! ## Constraints -/

/-- `calculate` of a shipped constraint reads positions and velocities of its bodies only. -/
theorem calculate_reads {k : CKind α} {rows nb : Nat} (hk : k.counts = some (rows, nb))
    {idx : Nat → Exec Int} {s s' : SysState α}
    (h : ∀ j, j < nb → ∀ i, idx j = .ok i → ∀ f : Fld, f.Kept → s'.rd f i = s.rd f i)
    (o : Output α) : k.calculate idx o s' = k.calculate idx o s := by
  cases k with
  | base => cases hk
  | custom f => cases hk
  | fixedPosition p =>
    cases hk
    refine eq_bind rfl fun b hb => ?_
    have r := h 0 (by decide) b hb
    exact eq_bind (r .p_x (by decide)) fun _ _ => eq_bind (r .p_y (by decide)) fun _ _ =>
      eq_bind (r .theta (by decide)) fun _ _ => eq_bind (r .v_theta (by decide)) fun _ _ => rfl
  | fixedRotation p =>
    cases hk
    refine eq_bind rfl fun b hb => ?_
    exact eq_bind (h 0 (by decide) b hb .theta (by decide)) fun _ _ => rfl
  | line p =>
    cases hk
    refine eq_bind rfl fun b hb => ?_
    have r := h 0 (by decide) b hb
    exact eq_bind (r .p_x (by decide)) fun _ _ => eq_bind (r .p_y (by decide)) fun _ _ =>
      eq_bind (r .theta (by decide)) fun _ _ => eq_bind (r .v_theta (by decide)) fun _ _ => rfl
  | link p =>
    cases hk
    refine eq_bind rfl fun b hb => eq_bind rfl fun b' hb' => ?_
    have r := h 0 (by decide) b hb
    have r' := h 1 (by decide) b' hb'
    exact eq_bind (r .p_x (by decide)) fun _ _ => eq_bind (r .p_y (by decide)) fun _ _ =>
      eq_bind (r .theta (by decide)) fun _ _ => eq_bind (r' .p_x (by decide)) fun _ _ =>
      eq_bind (r' .p_y (by decide)) fun _ _ => eq_bind (r' .theta (by decide)) fun _ _ =>
      eq_bind (r .v_theta (by decide)) fun _ _ => eq_bind (r' .v_theta (by decide)) fun _ _ => rfl
  | rolling p =>
    cases hk
    refine eq_bind rfl fun b hb => eq_bind rfl fun b' hb' => ?_
    have r := h 0 (by decide) b hb
    have r' := h 1 (by decide) b' hb'
    exact eq_bind (r .p_x (by decide)) fun _ _ => eq_bind (r .p_y (by decide)) fun _ _ =>
      eq_bind (r .theta (by decide)) fun _ _ => eq_bind (r' .p_x (by decide)) fun _ _ =>
      eq_bind (r' .p_y (by decide)) fun _ _ => eq_bind (r' .theta (by decide)) fun _ _ =>
      eq_bind (r .v_x (by decide)) fun _ _ => eq_bind (r .v_y (by decide)) fun _ _ =>
      eq_bind (r .v_theta (by decide)) fun _ _ => eq_bind (r' .v_x (by decide)) fun _ _ =>
      eq_bind (r' .v_y (by decide)) fun _ _ => rfl
  | constantRotation p => rfl
  | clutch p => rfl
  | rotationFriction p => rfl
  | simpleGear p => rfl

/-! ## ODE solvers -/

variable {n c N : Nat} {P : Fld → Prop} {D D' : Nat → Prop} {s s' : SysState α}

/-- `g[i] += f[i] * dt`. -/
theorem Sim.advance (h : Sim n c (Upto P N) D s s') {f g : Fld} (hf : P f) {i : Nat} (hi : i < n)
    (dt : α) {S : SysState α → SysState α → Prop} {k k' : SysState α → Exec (SysState α)}
    (hk : ∀ u u', Sim n c (Upto P N) D u u' → Rel S (k u) (k' u')) :
    Rel S (s.rd f (i : Nat) >>= fun v => s.addTo g (i : Nat) (v * dt) >>= k)
      (s'.rd f (i : Nat) >>= fun v => s'.addTo g (i : Nat) (v * dt) >>= k') := by
  refine rel_bind (h.rd f hi) fun x x' e => rel_bind (h.addTo g hi fun q => ?_) hk
  rw [e ⟨hf, q.2⟩]

theorem Sim.advance' (h : Sim n c (Upto P N) D s s') {f g : Fld} (hf : P f) {i : Nat} (hi : i < n)
    (dt : α) :
    Rel (Sim n c (Upto P N) D) (s.rd f (i : Nat) >>= fun v => s.addTo g (i : Nat) (v * dt))
      (s'.rd f (i : Nat) >>= fun v => s'.addTo g (i : Nat) (v * dt)) := by
  refine rel_bind (h.rd f hi) fun x x' e => h.addTo g hi fun q => ?_
  rw [e ⟨hf, q.2⟩]

theorem Sim.eulerBody (hP : ∀ f : Fld, f.Kept → P f) (h : Sim n c (Upto P N) D s s') {i : Nat}
    (hi : i < n) (dt : α) :
    Rel (Sim n c (Upto P N) D) (Scs.eulerBody dt i s) (Scs.eulerBody dt i s') :=
  h.advance (hP _ (by decide)) hi dt fun _ _ h => h.advance (hP _ (by decide)) hi dt fun _ _ h =>
    h.advance (hP _ (by decide)) hi dt fun _ _ h => h.advance (hP _ (by decide)) hi dt fun _ _ h =>
    h.advance (hP _ (by decide)) hi dt fun _ _ h => h.advance' (hP _ (by decide)) hi dt

theorem Sim.nsvBody (hP : ∀ f : Fld, f.Kept → P f) (h : Sim n c (Upto P N) D s s') {i : Nat}
    (hi : i < n) (dt : α) :
    Rel (Sim n c (Upto P N) D) (Scs.nsvBody dt i s) (Scs.nsvBody dt i s') :=
  h.advance (hP _ (by decide)) hi dt fun _ _ h => h.advance (hP _ (by decide)) hi dt fun _ _ h =>
    h.advance (hP _ (by decide)) hi dt fun _ _ h => h.advance (hP _ (by decide)) hi dt fun _ _ h =>
    h.advance (hP _ (by decide)) hi dt fun _ _ h => h.advance' (hP _ (by decide)) hi dt

/-- Whether a division fails depends on the divisor only. True of IEEE numbers, where no division
fails, and of the real numbers. -/
def DivEven (α : Type) [Fp α] : Prop :=
  ∀ a b d : α, ∀ e, (Fp.div a d : Exec α) = .error e → (Fp.div b d : Exec α) = .error e

theorem DivEven.rel (hd : DivEven α) {a b d : α} {p : Prop} (h : p → b = a) :
    Rel (fun x x' => p → x' = x) (Fp.div a d) (Fp.div b d) := by
  cases e : (Fp.div a d : Exec α) with
  | error er => rw [hd a b d er e]; rfl
  | ok x =>
    cases e' : (Fp.div b d : Exec α) with
    | error er => rw [hd b a d er e'] at e; cases e
    | ok y =>
      intro hp
      rw [h hp, e] at e'
      exact (Except.ok.inj e').symm

variable {i₀ : SysState α} {ini ini' acc acc' : SysState α} {n0 c0 n1 c1 : Nat} {D0 D1 : Nat → Prop}

theorem Sim.rkHalf (hd : DivEven α) (h : Sim n c (Upto P N) D s s')
    (hI : Sim n0 c0 (Upto Fld.Kept N) D0 ini ini') {i : Nat} (hi : i < n) (h0 : n ≤ n0) {v a : Fld}
    (hv : v.Kept) (ha : P a) (dt : α) :
    Rel (Sim n c (Upto P N) D) (Scs.rkHalf dt ini v a i s) (Scs.rkHalf dt ini' v a i s') := by
  unfold Scs.rkHalf
  refine rel_bind (hI.rd v (by omega)) fun x x' e => rel_bind (h.rd a hi) fun y y' e' => ?_
  refine rel_bind (hd.rel (p := i < N) fun q => by rw [e' ⟨ha, q⟩]) fun z z' ez => ?_
  exact h.put v hi fun q => by rw [e ⟨hv, q.2⟩, ez q.2]

theorem Sim.rkFull (h : Sim n c (Upto P N) D s s')
    (hI : Sim n0 c0 (Upto Fld.Kept N) D0 ini ini') {i : Nat} (hi : i < n) (h0 : n ≤ n0) {v a : Fld}
    (hv : v.Kept) (ha : P a) (dt : α) :
    Rel (Sim n c (Upto P N) D) (Scs.rkFull dt ini v a i s) (Scs.rkFull dt ini' v a i s') := by
  unfold Scs.rkFull
  refine rel_bind (hI.rd v (by omega)) fun x x' e => rel_bind (h.rd a hi) fun y y' e' => ?_
  exact h.put v hi fun q => by rw [e ⟨hv, q.2⟩, e' ⟨ha, q.2⟩]

theorem Sim.rkHalfBody (hd : DivEven α) (h : Sim n c (Upto Fld.Kept N) D s s')
    (hI : Sim n0 c0 (Upto Fld.Kept N) D0 ini ini') {i : Nat} (hi : i < n) (h0 : n ≤ n0) (dt : α) :
    Rel (Sim n c (Upto Fld.Kept N) D) (Scs.rkHalfBody dt ini i s) (Scs.rkHalfBody dt ini' i s') := by
  unfold Scs.rkHalfBody
  refine rel_bind (h.rkHalf hd hI hi h0 (by decide) (by decide) dt) fun _ _ h => ?_
  refine rel_bind (h.rkHalf hd hI hi h0 (by decide) (by decide) dt) fun _ _ h => ?_
  refine rel_bind (h.rkHalf hd hI hi h0 (by decide) (by decide) dt) fun _ _ h => ?_
  refine rel_bind (h.rkHalf hd hI hi h0 (by decide) (by decide) dt) fun _ _ h => ?_
  refine rel_bind (h.rkHalf hd hI hi h0 (by decide) (by decide) dt) fun _ _ h => ?_
  exact h.rkHalf hd hI hi h0 (by decide) (by decide) dt

theorem Sim.rkFullBody (h : Sim n c (Upto Fld.Kept N) D s s')
    (hI : Sim n0 c0 (Upto Fld.Kept N) D0 ini ini') {i : Nat} (hi : i < n) (h0 : n ≤ n0) (dt : α) :
    Rel (Sim n c (Upto Fld.Kept N) D) (Scs.rkFullBody dt ini i s) (Scs.rkFullBody dt ini' i s') := by
  unfold Scs.rkFullBody
  refine rel_bind (h.rkFull hI hi h0 (by decide) (by decide) dt) fun _ _ h => ?_
  refine rel_bind (h.rkFull hI hi h0 (by decide) (by decide) dt) fun _ _ h => ?_
  refine rel_bind (h.rkFull hI hi h0 (by decide) (by decide) dt) fun _ _ h => ?_
  refine rel_bind (h.rkFull hI hi h0 (by decide) (by decide) dt) fun _ _ h => ?_
  refine rel_bind (h.rkFull hI hi h0 (by decide) (by decide) dt) fun _ _ h => ?_
  exact h.rkFull hI hi h0 (by decide) (by decide) dt

theorem Sim.rkAcc (h : Sim n c (Upto P N) D s s') (hA : Sim n1 c1 (Upto Fld.Kept N) D1 acc acc')
    {i : Nat} (hi : i < n) (h1 : n ≤ n1) {v a : Fld} (hv : P a) (dt w : α) :
    Rel (Sim n1 c1 (Upto Fld.Kept N) D1) (Scs.rkAcc dt w s v a i acc) (Scs.rkAcc dt w s' v a i acc') := by
  unfold Scs.rkAcc
  refine rel_same _ fun q _ => rel_bind (h.rd a hi) fun x x' e => ?_
  exact hA.addTo v (by omega) fun k => by rw [e ⟨hv, k.2⟩]

theorem Sim.rkAccBody (hP : ∀ f : Fld, f.Kept → P f) (h : Sim n c (Upto P N) D s s')
    (hA : Sim n1 c1 (Upto Fld.Kept N) D1 acc acc') {i : Nat} (hi : i < n) (h1 : n ≤ n1) (dt w : α) :
    Rel (Sim n1 c1 (Upto Fld.Kept N) D1) (Scs.rkAccBody dt w s i acc)
      (Scs.rkAccBody dt w s' i acc') := by
  unfold Scs.rkAccBody
  refine rel_bind (h.rkAcc hA hi h1 (hP _ (by decide)) dt w) fun _ _ hA => ?_
  refine rel_bind (h.rkAcc hA hi h1 (hP _ (by decide)) dt w) fun _ _ hA => ?_
  refine rel_bind (h.rkAcc hA hi h1 (hP _ (by decide)) dt w) fun _ _ hA => ?_
  refine rel_bind (h.rkAcc hA hi h1 (hP _ (by decide)) dt w) fun _ _ hA => ?_
  refine rel_bind (h.rkAcc hA hi h1 (hP _ (by decide)) dt w) fun _ _ hA => ?_
  exact h.rkAcc hA hi h1 (hP _ (by decide)) dt w

/-- Nothing is known about the reactions. -/
def noRow : Nat → Prop := fun _ => False

theorem Sim.rkAccR (h : Sim n c (Upto P N) D s s')
    (hA : Sim n1 c1 (Upto Fld.Kept N) noRow acc acc') {i : Nat} (hi : i < c) (h1 : c ≤ c1) (f : CFld)
    (dt w : α) :
    Rel (Sim n1 c1 (Upto Fld.Kept N) noRow) (Scs.rkAccR dt w s f i acc)
      (Scs.rkAccR dt w s' f i acc') := by
  unfold Scs.rkAccR
  refine rel_same _ fun q _ => rel_bind (h.rrd f (by omega)) fun x x' _ =>
    rel_bind (hA.rrd f (by omega)) fun y y' _ => ?_
  exact hA.rput f (by omega) fun k => k.elim

theorem Sim.rkGet (h : Sim n c (Upto P N) D s s') (hA : Sim n1 c1 (Upto Fld.Kept N) D1 acc acc')
    {i : Nat} (hi : i < n) (h1 : n ≤ n1) {f : Fld} (hf : f.Kept) :
    Rel (Sim n c (Upto P N) D) (Scs.rkGet acc f i s) (Scs.rkGet acc' f i s') := by
  unfold Scs.rkGet
  refine rel_bind (hA.rd f (by omega)) fun x x' e => ?_
  exact h.put f hi fun k => by rw [e ⟨hf, k.2⟩]

theorem Sim.rkGetR (h : Sim n c (Upto P N) noRow s s')
    (hA : Sim n1 c1 (Upto Fld.Kept N) D1 acc acc') {i : Nat} (hi : i < c) (h1 : c ≤ c1) (f : CFld) :
    Rel (Sim n c (Upto P N) noRow) (Scs.rkGetR acc f i s) (Scs.rkGetR acc' f i s') := by
  unfold Scs.rkGetR
  refine rel_bind (hA.rrd f (by omega)) fun x x' _ => ?_
  exact h.rput f (by omega) fun k => k.elim

theorem resize_size (d d' : SysState α) (hn : d'.n = d.n) (hc : d'.nc = d.nc) (a b : Nat) :
    (d'.resize a b).n = (d.resize a b).n ∧ (d'.resize a b).nc = (d.resize a b).nc := by
  by_cases h : a ≤ d.n ∧ b ≤ d.nc
  · rw [resize_of_ge d h.1 h.2, resize_of_ge d' (by omega) (by omega)]; exact ⟨hn, hc⟩
  · rw [resize_of_not d h, resize_of_not d' (by rw [hn, hc]; exact h)]; exact ⟨rfl, rfl⟩

/-- `copy` in two runs. -/
theorem Sim.copy (h : Sim n c (Upto Fld.Kept N) D s s') (hN : N ≤ n) {d d' : SysState α}
    (hd : d.Wf) (hd' : d'.Wf) (hn : d'.n = d.n) (hc : d'.nc = d.nc) :
    Rel (fun a a' => ∃ n0 c0, n ≤ n0 ∧ c ≤ c0 ∧ Sim n0 c0 (Upto Fld.Kept N) noRow a a')
      (d.copy s) (d'.copy s') := by
  by_cases h0 : n = 0
  · have e : d.copy s = .ok (d.resize s.n s.nc) := by
      rw [SysState.copy]; simp only [h.sn, h0, if_true]; rfl
    have e' : d'.copy s' = .ok (d'.resize s'.n s'.nc) := by
      rw [SysState.copy]; simp only [h.sn', h0, if_true]; rfl
    obtain ⟨z1, z2⟩ := resize_size d d' hn hc s.n s.nc
    have l := resize_le d s.n s.nc
    rw [h.sn, h.snc] at l
    refine rel_ok e e' ⟨_, _, ?_, ?_, hd.resize _ _, hd'.resize _ _, rfl, ?_, rfl, ?_, ?_, ?_⟩
    · rw [h.sn, h.snc]; exact l.1
    · rw [h.sn, h.snc]; exact l.2
    · rw [h.sn', h.snc', ← h.sn, ← h.snc]; exact z1
    · rw [h.sn', h.snc', ← h.sn, ← h.snc]; exact z2
    · intro f i k; have := k.2; omega
    · intro f i k; exact k.elim
  · by_cases hf : d.Fits s
    · have hf' : d'.Fits s' := by
        unfold SysState.Fits at hf ⊢
        rw [hn, hc, h.sn', h.snc', ← h.sn, ← h.snc]; exact hf
      obtain ⟨a, e, w, an, ac, v, -⟩ := copy_fits hd h.wf hf
      obtain ⟨a', e', w', an', ac', v', -⟩ := copy_fits hd' h.wf' hf'
      refine rel_ok e e' ⟨n, c, Nat.le_refl _, Nat.le_refl _, w, w', by rw [an, h.sn],
        by rw [an', h.sn'], by rw [ac, h.snc], by rw [ac', h.snc'], fun f i k hi => ?_,
        fun f i k => k.elim⟩
      rw [v f i (by rw [h.sn]; exact hi), v' f i (by rw [h.sn']; exact hi), h.val f i k hi]
    · have hf' : ¬ d'.Fits s' := by
        unfold SysState.Fits at hf ⊢
        rw [hn, hc, h.sn', h.snc', ← h.sn, ← h.snc]; exact hf
      rw [copy_larger hd h.wf (by rw [h.sn]; omega) hf,
        copy_larger hd' h.wf' (by rw [h.sn']; omega) hf']
      exact rel_err

/-- Two ODE solvers of the same class that differ in the contents of their memory only. -/
def Ode.Alike : Ode α → Ode α → Prop
  | .base _, .base _ => True
  | .euler _, .euler _ => True
  | .nsv _, .nsv _ => True
  | .rk4 r, .rk4 r' => r'.stage = r.stage ∧ r'.nextStage = r.nextStage ∧
      (r.init.Wf ∧ r'.init.Wf ∧ r'.init.n = r.init.n ∧ r'.init.nc = r.init.nc) ∧
      (r.acc.Wf ∧ r'.acc.Wf ∧ r'.acc.n = r.acc.n ∧ r'.acc.nc = r.acc.nc)
  | _, _ => False

/-- The same in the middle of a step. -/
def Ode.Going (n c N : Nat) : Ode α → Ode α → Prop
  | .base d, .base d' => d' = d
  | .euler d, .euler d' => d' = d
  | .nsv d, .nsv d' => d' = d
  | .rk4 r, .rk4 r' => r'.dt = r.dt ∧ r'.stage = r.stage ∧ r'.nextStage = r.nextStage ∧
      (∃ n0 c0, n ≤ n0 ∧ c ≤ c0 ∧ Sim n0 c0 (Upto Fld.Kept N) noRow r.init r'.init) ∧
      (∃ n1 c1, n ≤ n1 ∧ c ≤ c1 ∧ Sim n1 c1 (Upto Fld.Kept N) noRow r.acc r'.acc)
  | _, _ => False

theorem Ode.Alike.start {o o' : Ode α} (ho : o.Alike o') (h : Sim n c (Upto Fld.Kept N) D s s')
    (hN : N ≤ n) (dt : α) : Rel (Ode.Going n c N) (o.start s dt) (o'.start s' dt) := by
  cases o <;> cases o' <;> first | exact ho.elim | exact rfl | skip
  rename_i r r'
  obtain ⟨h1, h2, ⟨a1, a2, a3, a4⟩, b1, b2, b3, b4⟩ := ho
  unfold Ode.start
  simp only []
  unfold Rk4.start
  refine rel_bind (R := fun r r' => Ode.Going n c N (.rk4 r) (.rk4 r')) ?_ fun _ _ q => q
  refine rel_bind (h.copy hN a1 a2 a3 a4) fun x x' hx => ?_
  refine rel_bind (h.copy hN b1 b2 b3 b4) fun y y' hy => ?_
  exact ⟨rfl, rfl, h2, hx, hy⟩

theorem Ode.Going.step (hd : DivEven α) {o o' : Ode α} (ho : Ode.Going n c N o o')
    (h : Sim n c (Upto Fld.Kept N) D s s') :
    Rel (fun q q' => Ode.Going n c N q.1 q'.1 ∧ Sim n c (Upto Fld.Kept N) D q.2.1 q'.2.1 ∧
      q'.2.2 = q.2.2) (o.step s) (o'.step s') := by
  cases o <;> cases o' <;> first | exact ho.elim | skip
  · exact ⟨ho, h, rfl⟩
  · exact ⟨ho, h.setDt _ _, rfl⟩
  · exact ⟨ho, h.setDt _ _, rfl⟩
  rename_i r r'
  obtain ⟨h1, h2, h3, ⟨n0, c0, l1, l2, hI⟩, hA⟩ := ho
  unfold Ode.step
  simp only []
  refine rel_bind (R := fun (q q' : Rk4 α × SysState α × Bool) =>
    Ode.Going n c N (.rk4 q.1) (.rk4 q'.1) ∧
    Sim n c (Upto Fld.Kept N) D q.2.1 q'.2.1 ∧ q'.2.2 = q.2.2) ?_ (fun a a' q => by exact q)
  have fin : ∀ u u' : SysState α, Sim n c (Upto Fld.Kept N) D u u' →
      Ode.Going n c N (.rk4 { r with nextStage := r.stage.next })
        (.rk4 { r' with nextStage := r'.stage.next }) ∧
      Sim n c (Upto Fld.Kept N) D u u' ∧
      (r'.stage.next == RkStage.complete) = (r.stage.next == RkStage.complete) :=
    fun u u' hu => ⟨⟨h1, h2, by show r'.stage.next = r.stage.next; rw [h2], ⟨n0, c0, l1, l2, hI⟩, hA⟩, hu, by rw [h2]⟩
  have half : Rel (fun u u' => Sim n c (Upto Fld.Kept N) D u u')
      (forN s.n (Scs.rkHalfBody r.dt r.init) s >>= fun s => Fp.div r.dt (Fp.lit 2) >>= fun h =>
        pure { s with dt := h })
      (forN s'.n (Scs.rkHalfBody r'.dt r'.init) s' >>= fun s => Fp.div r'.dt (Fp.lit 2) >>= fun h =>
        pure { s with dt := h }) := by
    rw [h.sn, h.sn', h1]
    refine rel_bind (rel_for h fun i hi a a' h => h.rkHalfBody hd hI hi l1 r.dt) fun a a' h => ?_
    exact rel_same _ fun x _ => h.setDt _ _
  have full : Rel (fun u u' => Sim n c (Upto Fld.Kept N) D u u')
      (forN s.n (Scs.rkFullBody r.dt r.init) s >>= fun s => pure { s with dt := r.dt })
      (forN s'.n (Scs.rkFullBody r'.dt r'.init) s' >>= fun s => pure { s with dt := r'.dt }) := by
    rw [h.sn, h.sn', h1]
    exact rel_bind (rel_for h fun i hi a a' h => h.rkFullBody hI hi l1 r.dt) fun a a' h => h.setDt _ _
  unfold Rk4.step
  have key : ∀ g g' : Exec (SysState α), Rel (fun u u' => Sim n c (Upto Fld.Kept N) D u u') g g' →
      Rel (fun q q' : Rk4 α × SysState α × Bool => Ode.Going n c N (.rk4 q.1) (.rk4 q'.1) ∧
        Sim n c (Upto Fld.Kept N) D q.2.1 q'.2.1 ∧ q'.2.2 = q.2.2)
        (g >>= fun s => pure ({ r with nextStage := r.stage.next }, s,
          r.stage.next == RkStage.complete))
        (g' >>= fun s => pure ({ r' with nextStage := r'.stage.next }, s,
          r'.stage.next == RkStage.complete)) :=
    fun g g' hg => rel_bind hg fun u u' hu => fin u u' hu
  have keyp : ∀ u u' : SysState α, Sim n c (Upto Fld.Kept N) D u u' → Rel
      (fun u u' => Sim n c (Upto Fld.Kept N) D u u') (pure u : Exec _) (pure u') := fun _ _ h => h
  cases e : r.stage <;> rw [e] at h2 <;> simp only [h2, e] at key ⊢
  · exact key _ _ (keyp _ _ (h.setDt _ _))
  · have := key _ _ half; simpa only [bind_assoc] using this
  · have := key _ _ half; simpa only [bind_assoc] using this
  · have := key _ _ full; simpa only [bind_assoc] using this
  · exact key _ _ (keyp _ _ h)
  · exact key _ _ (keyp _ _ h)

theorem Sim.rkAccRBody (h : Sim n c (Upto P N) D s s')
    (hA : Sim n1 c1 (Upto Fld.Kept N) noRow acc acc') {i : Nat} (hi : i < c) (h1 : c ≤ c1)
    (dt w : α) :
    Rel (Sim n1 c1 (Upto Fld.Kept N) noRow) (Scs.rkAccRBody dt w s i acc)
      (Scs.rkAccRBody dt w s' i acc') := by
  unfold Scs.rkAccRBody
  refine rel_bind (h.rkAccR hA hi h1 _ dt w) fun _ _ hA => ?_
  refine rel_bind (h.rkAccR hA hi h1 _ dt w) fun _ _ hA => ?_
  exact h.rkAccR hA hi h1 _ dt w

theorem Sim.rkGetBody (h : Sim n c (Upto P N) D s s')
    (hA : Sim n1 c1 (Upto Fld.Kept N) D1 acc acc') {i : Nat} (hi : i < n) (h1 : n ≤ n1) :
    Rel (Sim n c (Upto P N) D) (Scs.rkGetBody acc i s) (Scs.rkGetBody acc' i s') := by
  unfold Scs.rkGetBody
  refine rel_bind (h.rkGet hA hi h1 (by decide)) fun _ _ h => ?_
  refine rel_bind (h.rkGet hA hi h1 (by decide)) fun _ _ h => ?_
  refine rel_bind (h.rkGet hA hi h1 (by decide)) fun _ _ h => ?_
  refine rel_bind (h.rkGet hA hi h1 (by decide)) fun _ _ h => ?_
  refine rel_bind (h.rkGet hA hi h1 (by decide)) fun _ _ h => ?_
  exact h.rkGet hA hi h1 (by decide)

theorem Sim.rkGetRBody (h : Sim n c (Upto P N) noRow s s')
    (hA : Sim n1 c1 (Upto Fld.Kept N) D1 acc acc') {i : Nat} (hi : i < c) (h1 : c ≤ c1) :
    Rel (Sim n c (Upto P N) noRow) (Scs.rkGetRBody acc i s) (Scs.rkGetRBody acc' i s') := by
  unfold Scs.rkGetRBody
  refine rel_bind (h.rkGetR hA hi h1 _) fun _ _ h => ?_
  refine rel_bind (h.rkGetR hA hi h1 _) fun _ _ h => ?_
  exact h.rkGetR hA hi h1 _

theorem Ode.Going.solve {o o' : Ode α} (ho : Ode.Going n c N o o')
    (hP : ∀ f : Fld, f.Kept → P f) (h : Sim n c (Upto P N) D s s')
    (hD : ∀ r, o = .rk4 r → ∀ i, D i → False) :
    Rel (fun q q' => Ode.Going n c N q.1 q'.1 ∧ Sim n c (Upto P N) D q.2 q'.2)
      (o.solve s) (o'.solve s') := by
  cases o <;> cases o' <;> first | exact ho.elim | skip
  · exact ⟨ho, h⟩
  · rename_i d d'
    have ho : d' = d := ho
    rw [ho]
    unfold Ode.solve
    simp only []
    have e : forN s.n (Scs.eulerBody d) = forN n (Scs.eulerBody (α := α) d) := by rw [h.sn]
    have e' : forN s'.n (Scs.eulerBody d) = forN n (Scs.eulerBody (α := α) d) := by rw [h.sn']
    rw [e, e']
    exact rel_bind (R := Sim n c (Upto P N) D)
      (rel_for (h.setDt _ _) fun i hi a a' h => h.eulerBody hP hi _) fun a a' h => ⟨rfl, h⟩
  · rename_i d d'
    have ho : d' = d := ho
    rw [ho]
    unfold Ode.solve
    simp only []
    have e : forN s.n (Scs.nsvBody d) = forN n (Scs.nsvBody (α := α) d) := by rw [h.sn]
    have e' : forN s'.n (Scs.nsvBody d) = forN n (Scs.nsvBody (α := α) d) := by rw [h.sn']
    rw [e, e']
    exact rel_bind (R := Sim n c (Upto P N) D)
      (rel_for (h.setDt _ _) fun i hi a a' h => h.nsvBody hP hi _) fun a a' h => ⟨rfl, h⟩
  · rename_i r r'
    obtain ⟨h1, h2, h3, hI, ⟨n1, c1, l1, l2, hA⟩⟩ := ho
    have hn : Sim n c (Upto P N) noRow s s' := h.mono (fun _ _ k => k) (fun _ k => k.elim)
    have up : ∀ u u' : SysState α, Sim n c (Upto P N) noRow u u' → Sim n c (Upto P N) D u u' :=
      fun u u' q => q.mono (fun _ _ k => k) (fun i k => (hD r rfl i k).elim)
    unfold Ode.solve
    simp only []
    refine rel_bind (R := fun (q q' : Rk4 α × SysState α) =>
      Ode.Going n c N (.rk4 q.1) (.rk4 q'.1) ∧ Sim n c (Upto P N) D q.2 q'.2) ?_
      (fun a a' q => by exact q)
    unfold Rk4.solve
    simp only [h.sn, h.sn', h.snc, h.snc', h1, h2, h3]
    refine rel_bind (rel_for hA fun i hi a a' hA => hn.rkAccBody hP hA hi l1 _ _) fun a a' hA => ?_
    refine rel_bind (rel_for hA fun i hi a a' hA => hn.rkAccRBody hA hi l2 _ _) fun a a' hA => ?_
    have tail : ∀ u u' : SysState α, Sim n c (Upto P N) noRow u u' →
        Rel (fun (q q' : Rk4 α × SysState α) =>
          Ode.Going n c N (.rk4 q.1) (.rk4 q'.1) ∧ Sim n c (Upto P N) D q.2 q'.2)
          (pure ({ r with acc := a, stage := r.nextStage }, u) : Exec _)
          (pure (⟨r.dt, r.nextStage, r.nextStage, r'.init, a'⟩, u')) :=
      fun u u' hu => ⟨⟨rfl, rfl, rfl, hI, ⟨n1, c1, l1, l2, hA⟩⟩, up _ _ hu⟩
    refine rel_ite Iff.rfl (fun _ => ?_) (fun _ => by exact tail _ _ hn)
    refine rel_bind (rel_for hn fun i hi u u' hu => hu.rkGetBody hA hi l1) fun u u' hu => ?_
    simp only [hu.snc, hu.snc']
    exact rel_bind (rel_for hu fun i hi u u' hu => hu.rkGetRBody hA hi l2) fun u u' hu => tail _ _ hu

theorem Ode.Going.fin {o o' : Ode α} (ho : Ode.Going n c N o o') : o.fin.Alike o'.fin := by
  cases o <;> cases o' <;> first | exact ho.elim | exact trivial | skip
  obtain ⟨-, -, -, ⟨n0, c0, -, -, hI⟩, ⟨n1, c1, -, -, hA⟩⟩ := ho
  exact ⟨rfl, rfl, ⟨hI.wf, hI.wf', hI.sn'.trans hI.sn.symm, hI.snc'.trans hI.snc.symm⟩,
    hA.wf, hA.wf', hA.sn'.trans hA.sn.symm, hA.snc'.trans hA.snc.symm⟩

/-- The Runge-Kutta solver divides by two and six. -/
theorem Ode.Going.step' {o o' : Ode α} (hd : ∀ r, o = .rk4 r → DivEven α) (ho : Ode.Going n c N o o')
    (h : Sim n c (Upto Fld.Kept N) D s s') :
    Rel (fun q q' => Ode.Going n c N q.1 q'.1 ∧ Sim n c (Upto Fld.Kept N) D q.2.1 q'.2.1 ∧
      q'.2.2 = q.2.2) (o.step s) (o'.step s') := by
  cases o <;> cases o' <;> first | exact ho.elim | skip
  · exact ⟨ho, h, rfl⟩
  · exact ⟨ho, h.setDt _ _, rfl⟩
  · exact ⟨ho, h.setDt _ _, rfl⟩
  · exact ho.step (hd _ rfl) h

theorem step_rk4 (o : Ode α) (s : SysState α) :
    Wp (o.step s) (fun q => ∀ r, q.1 = .rk4 r → ∃ r0, o = .rk4 r0) anyErr := by
  cases o with
  | rk4 r => exact (wp_any _).mono (fun _ _ _ _ => ⟨r, rfl⟩) (fun _ _ => trivial)
  | _ => intro r e; cases e

theorem solve_rk4 (o : Ode α) (s : SysState α) :
    Wp (o.solve s) (fun q => ∀ r, q.1 = .rk4 r → ∃ r0, o = .rk4 r0) anyErr := by
  cases o with
  | rk4 r => exact (wp_any _).mono (fun _ _ _ _ => ⟨r, rfl⟩) (fun _ _ => trivial)
  | base d => intro r e; cases e
  | euler d =>
    unfold Ode.solve
    refine (wp_bind _ _).2 ((wp_any _).mono (fun _ _ r e => ?_) (fun _ _ => trivial))
    cases e
  | nsv d =>
    unfold Ode.solve
    refine (wp_bind _ _).2 ((wp_any _).mono (fun _ _ r e => ?_) (fun _ _ => trivial))
    cases e

variable {τ : Type} {X : τ → τ → Prop} {ev ev' : τ → SysState α → Exec (τ × SysState α)}

theorem odeLoop_rel
    (hev : ∀ x x' s s', X x x' → Sim n c (Upto Fld.Kept N) noRow s s' →
      Rel (fun q q' => X q.1 q'.1 ∧ Sim n c (Upto allF N) D q.2 q'.2) (ev x s) (ev' x' s')) :
    ∀ (k : Nat) {x x' : τ} {o o' : Ode α} {s s' : SysState α}, X x x' → Ode.Going n c N o o' →
      Sim n c (Upto Fld.Kept N) noRow s s' → (∀ r, o = .rk4 r → DivEven α ∧ ∀ i, D i → False) →
      Rel (fun z z' => X z.1 z'.1 ∧ Ode.Going n c N z.2.1 z'.2.1 ∧
        Sim n c (Upto Fld.Kept N) D z.2.2 z'.2.2) (odeLoop ev k x o s) (odeLoop ev' k x' o' s')
  | 0, _, _, _, _, _, _, _, _, _, _ => rfl
  | k + 1, x, x', o, o', s, s', hx, ho, h, hr => by
    rw [odeLoop, odeLoop]
    have f1 := step_rk4 o s
    refine rel_bind' (ho.step' (fun r e => (hr r e).1) h) fun q q' e _ ⟨hq, hs, hb⟩ => ?_
    have f1 := f1.of_eq e
    refine rel_bind (hev _ _ _ _ hx hs) fun y y' ⟨hy, hs⟩ => ?_
    have f2 := solve_rk4 q.1 y.2
    refine rel_bind' (hq.solve (fun _ _ => trivial) hs fun r e => ?_) fun z z' e _ ⟨hz, hs⟩ => ?_
    · obtain ⟨r0, e⟩ := f1 r e
      exact (hr r0 e).2
    have f2 := f2.of_eq e
    have hk : Sim n c (Upto Fld.Kept N) D z.2 z'.2 := hs.mono (fun _ _ k => ⟨trivial, k.2⟩) (fun _ k => k)
    rw [hb]
    refine rel_ite Iff.rfl (fun _ => ⟨hy, hz, hk⟩) fun _ => ?_
    refine odeLoop_rel hev k hy hz (hk.mono (fun _ _ k => k) (fun _ k => k.elim)) fun r e => ?_
    obtain ⟨r0, e⟩ := f2 r e
    obtain ⟨r0, e⟩ := f1 r0 e
    exact hr r0 e

theorem odeRun_rel
    (hev : ∀ x x' s s', X x x' → Sim n c (Upto Fld.Kept N) noRow s s' →
      Rel (fun q q' => X q.1 q'.1 ∧ Sim n c (Upto allF N) D q.2 q'.2) (ev x s) (ev' x' s'))
    {x x' : τ} {o o' : Ode α} {s s' : SysState α} (hx : X x x') (ho : o.Alike o')
    (h : Sim n c (Upto Fld.Kept N) noRow s s') (hN : N ≤ n)
    (hr : ∀ r, o = .rk4 r → DivEven α ∧ ∀ i, D i → False) (dt : α) :
    Rel (fun z z' => X z.1 z'.1 ∧ z.2.1.Alike z'.2.1 ∧
        Sim n c (Upto Fld.Kept N) D z.2.2 z'.2.2) (odeRun ev x o s dt) (odeRun ev' x' o' s' dt) := by
  rw [odeRun, odeRun]
  have f : ∀ q, o.start s dt = .ok q → ∀ r, q = .rk4 r → ∃ r0, o = .rk4 r0 := by
    intro q e r er
    cases o with
    | rk4 r0 => exact ⟨r0, rfl⟩
    | _ => cases e; cases er
  refine rel_bind' (ho.start h hN dt) fun q q' e _ hq => ?_
  refine rel_bind (odeLoop_rel hev 5 hx hq h fun r er => ?_) fun z z' ⟨hx, hz, hs⟩ =>
    ⟨hx, hz.fin, hs⟩
  obtain ⟨r0, e⟩ := f q e r er
  exact hr r0 e

end

end Scs
