import Verif.TwinSle
import Verif.WorldRun
import Verif.ConstraintAgree

/-!
# Two runs of the same code: the system state

`Sim n c K D s s'`: two states of `n` bodies and `c` rows whose field `f` of body `i` agrees if
`K f i` and whose reactions at position `i` agree if `D i`. Everything else, in particular entries
never written, may differ.
-/

namespace Scs

section
variable {α : Type}

/-- All per-body arrays except the forces, which are written by `processForces` only. -/
def Fld.Kept (f : Fld) : Prop := f ≠ .f_x ∧ f ≠ .f_y ∧ f ≠ .t

instance (f : Fld) : Decidable f.Kept := inferInstanceAs (Decidable (_ ∧ _ ∧ _))

/-- Two consistent states of the same size that agree where `K` and `D` say. -/
structure Sim (n c : Nat) (K : Fld → Nat → Prop) (D : Nat → Prop) (s s' : SysState α) : Prop where
  wf : s.Wf
  wf' : s'.Wf
  sn : s.n = n
  sn' : s'.n = n
  snc : s.nc = c
  snc' : s'.nc = c
  val : ∀ f i, K f i → i < n → s'.val f i = s.val f i
  rval : ∀ f i, D i → i < c * 2 → s'.rval f i = s.rval f i

/-- The fields with `P` of the first `N` bodies. -/
def Upto (P : Fld → Prop) (N : Nat) : Fld → Nat → Prop := fun f i => P f ∧ i < N

/-- All fields. -/
def allF : Fld → Prop := fun _ => True

variable {n c : Nat} {K K' : Fld → Nat → Prop} {D D' : Nat → Prop} {s s' : SysState α}

theorem Sim.mono (h : Sim n c K D s s') (hk : ∀ f i, K' f i → K f i) (hd : ∀ i, D' i → D i) :
    Sim n c K' D' s s' :=
  ⟨h.wf, h.wf', h.sn, h.sn', h.snc, h.snc', fun f i k => h.val f i (hk f i k),
    fun f i k => h.rval f i (hd i k)⟩

theorem Sim.rd (h : Sim n c K D s s') (f : Fld) {i : Nat} (hi : i < n) :
    Rel (fun x x' => K f i → x' = x) (s.rd f (i : Nat)) (s'.rd f (i : Nat)) := by
  have h1 : i < s.n := by rw [h.sn]; exact hi
  have h2 : i < s'.n := by rw [h.sn']; exact hi
  exact rel_ok ((h.wf.ok h1).rd f h1) ((h.wf'.ok h2).rd f h2) (fun k => h.val f i k hi)

theorem Sim.rd_eq (h : Sim n c K D s s') {f : Fld} {i : Nat} (hi : i < n) (hk : K f i) :
    s'.rd f (i : Nat) = s.rd f (i : Nat) :=
  eq_of_rel ((h.rd f hi).mono (fun _ _ e => (e hk).symm))

theorem Sim.wr (h : Sim n c K D s s') (f : Fld) {i : Nat} (hi : i < n) {v v' : α}
    (hv : K' f i → v' = v) (hk : ∀ g j, K' g j → ¬ (g = f ∧ j = i) → K g j) :
    Rel (Sim n c K' D) (s.wr f (i : Nat) v) (s'.wr f (i : Nat) v') := by
  have h1 : i < s.n := by rw [h.sn]; exact hi
  have h2 : i < s'.n := by rw [h.sn']; exact hi
  have o := h.wf.ok h1
  have o' := h.wf'.ok h2
  refine rel_ok (o.wr f h1 v) (o'.wr f h2 v')
    ⟨(o.put f i v).wf, (o'.put f i v').wf, h.sn, h.sn', h.snc, h.snc', fun g j k hj => ?_,
      fun g j k hj => h.rval g j k hj⟩
  rw [o.val_put, o'.val_put]
  by_cases e : g = f ∧ j = i
  · rw [if_pos e, if_pos e]
    exact hv (e.1 ▸ e.2 ▸ k)
  · rw [if_neg e, if_neg e]
    exact h.val g j (hk g j k e) hj

/-- A write that keeps what is known. -/
theorem Sim.put (h : Sim n c K D s s') (f : Fld) {i : Nat} (hi : i < n) {v v' : α}
    (hv : K f i → v' = v) : Rel (Sim n c K D) (s.wr f (i : Nat) v) (s'.wr f (i : Nat) v') :=
  h.wr f hi hv (fun _ _ k _ => k)

/-- A write of the same value. -/
theorem Sim.same (h : Sim n c K D s s') (f : Fld) {i : Nat} (hi : i < n) (v : α) :
    Rel (Sim n c (fun g j => K g j ∨ (g = f ∧ j = i)) D) (s.wr f (i : Nat) v)
      (s'.wr f (i : Nat) v) :=
  h.wr f hi (fun _ => rfl) (fun _ _ k e => k.resolve_right e)

theorem Sim.addTo [Add α] (h : Sim n c K D s s') (f : Fld) {i : Nat} (hi : i < n) {v v' : α}
    (hv : K f i → v' = v) :
    Rel (Sim n c K D) (s.addTo f (i : Nat) v) (s'.addTo f (i : Nat) v') := by
  unfold SysState.addTo
  refine rel_bind (h.rd f hi) (fun x x' e => h.put f hi (fun k => ?_))
  rw [e k, hv k]

theorem Sim.rrd (h : Sim n c K D s s') (f : CFld) {i : Nat} (hi : i < c * 2) :
    Rel (fun x x' => D i → x' = x) (s.rrd f (i : Nat)) (s'.rrd f (i : Nat)) := by
  have h1 : i < s.nc * 2 := by rw [h.snc]; exact hi
  have h2 : i < s'.nc * 2 := by rw [h.snc']; exact hi
  exact rel_ok ((h.wf.okc h1).rrd f h1) ((h.wf'.okc h2).rrd f h2) (fun k => h.rval f i k hi)

theorem Sim.rrd_eq (h : Sim n c K D s s') {f : CFld} {i : Nat} (hi : i < c * 2) (hk : D i) :
    s'.rrd f (i : Nat) = s.rrd f (i : Nat) :=
  eq_of_rel ((h.rrd f hi).mono (fun _ _ e => (e hk).symm))

theorem Sim.rput (h : Sim n c K D s s') (f : CFld) {i : Nat} (hi : i < c * 2) {v v' : α}
    (hv : D i → v' = v) :
    Rel (Sim n c K D) (s.rwr f (i : Nat) v) (s'.rwr f (i : Nat) v') := by
  have h1 : i < s.nc * 2 := by rw [h.snc]; exact hi
  have h2 : i < s'.nc * 2 := by rw [h.snc']; exact hi
  have o := h.wf.okc h1
  have o' := h.wf'.okc h2
  refine rel_ok (o.rwr f h1 v) (o'.rwr f h2 v')
    ⟨(o.rput f i v).wf, (o'.rput f i v').wf, h.sn, h.sn', h.snc, h.snc', fun g j k hj => h.val g j k hj,
      fun g j k hj => ?_⟩
  rw [o.rval_rput, o'.rval_rput]
  by_cases e : g = f ∧ j = i
  · rw [if_pos e, if_pos e]
    exact hv (e.2 ▸ k)
  · rw [if_neg e, if_neg e]
    exact h.rval g j k hj

theorem Sim.setDt (h : Sim n c K D s s') (a b : α) :
    Sim n c K D { s with dt := a } { s' with dt := b } :=
  ⟨fun q => let o := h.wf q; ⟨o.fld, o.rf, o.im⟩, fun q => let o := h.wf' q; ⟨o.fld, o.rf, o.im⟩,
    h.sn, h.sn', h.snc, h.snc', h.val, h.rval⟩

end

section
variable {α : Type} [Zero α] [Add α] [Mul α] [Sub α] [Neg α] [Fp α]
variable {n c N : Nat} {K K' : Fld → Nat → Prop} {D D' : Nat → Prop} {s s' : SysState α}

theorem eq_bind {σ τ : Type} {x y : Exec σ} (e : y = x) {f g : σ → Exec τ}
    (hf : ∀ a, x = .ok a → g a = f a) : (y >>= g) = (x >>= f) :=
  eq_of_rel (rel_eq e (fun a h => rel_of_eq (hf a h)))

/-! ## Forces -/

/-- The index is a place among the first `N` bodies. -/
def InPlace (N : Nat) (i : Int) : Prop := ∃ j : Nat, j < N ∧ i = (j : Int)

theorem Sim.rdp {P : Fld → Prop} (h : Sim n c (Upto P N) D s s') (hN : N ≤ n) {f : Fld} (hf : P f)
    {i : Int} (hi : InPlace N i) : s'.rd f i = s.rd f i := by
  obtain ⟨j, hj, rfl⟩ := hi
  exact h.rd_eq (by omega) ⟨hf, hj⟩

theorem Sim.addp {P : Fld → Prop} (h : Sim n c (Upto P N) D s s') (hN : N ≤ n) (f : Fld) {i : Int}
    (hi : InPlace N i) (v : α) : Rel (Sim n c (Upto P N) D) (s.addTo f i v) (s'.addTo f i v) := by
  obtain ⟨j, hj, rfl⟩ := hi
  exact h.addTo f (by omega) (fun _ => rfl)

theorem Sim.ltw {P : Fld → Prop} (hP : ∀ f : Fld, f.Kept → P f) (h : Sim n c (Upto P N) D s s')
    (hN : N ≤ n) {i : Int} (hi : InPlace N i) (x y : α) :
    s'.localToWorld x y i = s.localToWorld x y i := by
  unfold SysState.localToWorld
  exact eq_bind (h.rdp hN (hP _ (by decide)) hi) fun _ _ => eq_bind (h.rdp hN (hP _ (by decide)) hi)
    fun _ _ => eq_bind (h.rdp hN (hP _ (by decide)) hi) fun _ _ => rfl

theorem Sim.vap {P : Fld → Prop} (hP : ∀ f : Fld, f.Kept → P f) (h : Sim n c (Upto P N) D s s')
    (hN : N ≤ n) {i : Int} (hi : InPlace N i) (x y : α) :
    s'.velocityAtPoint x y i = s.velocityAtPoint x y i := by
  unfold SysState.velocityAtPoint
  exact eq_bind (h.ltw hP hN hi x y) fun _ _ => eq_bind (h.rdp hN (hP _ (by decide)) hi)
    fun _ _ => eq_bind (h.rdp hN (hP _ (by decide)) hi) fun _ _ =>
    eq_bind (h.rdp hN (hP _ (by decide)) hi) fun _ _ => eq_bind (h.rdp hN (hP _ (by decide)) hi)
    fun _ _ => eq_bind (h.rdp hN (hP _ (by decide)) hi) fun _ _ => rfl

theorem Sim.applyForce (h : Sim n c (Upto allF N) D s s') (hN : N ≤ n) {i : Int}
    (hi : InPlace N i) (x y fx fy : α) :
    Rel (Sim n c (Upto allF N) D) (s.applyForce x y fx fy i) (s'.applyForce x y fx fy i) := by
  unfold SysState.applyForce
  refine rel_eq (h.ltw (fun _ _ => trivial) hN hi x y) fun w _ => ?_
  refine rel_bind (h.addp hN .f_x hi fx) fun a a' h => ?_
  refine rel_bind (h.addp hN .f_y hi fy) fun a a' h => ?_
  refine rel_eq (h.rdp hN (f := .p_y) trivial hi) fun p _ => ?_
  exact rel_eq (h.rdp hN (f := .p_x) trivial hi) fun q _ => h.addp hN .t hi _

theorem Sim.springEnd (h : Sim n c (Upto allF N) D s s') (hN : N ≤ n) {bodies : Nat → Body α}
    {b : Nat} (hb : InPlace N (bodies b).index) (x y : α) :
    springEnd bodies b x y s' = springEnd bodies b x y s := by
  unfold Scs.springEnd
  refine ite_congr rfl (fun _ => ?_) (fun _ => rfl)
  exact eq_bind (h.ltw (fun _ _ => trivial) hN hb x y) fun _ _ =>
    eq_bind (h.vap (fun _ _ => trivial) hN hb x y) fun _ _ => rfl

theorem Sim.gravity (h : Sim n c (Upto allF N) D s s') (g : α) :
    Rel (Sim n c (Upto allF N) D) (forN s.n (gravityBody g) s) (forN s'.n (gravityBody g) s') := by
  rw [h.sn, h.sn']
  refine rel_for h fun i hi a a' h => ?_
  unfold gravityBody
  refine rel_bind (h.rd .m hi) fun x x' e => h.addTo .f_y hi fun k => ?_
  rw [e ⟨trivial, k.2⟩]

theorem Sim.apply (h : Sim n c (Upto allF N) D s s') (hN : N ≤ n) {bodies : Nat → Body α}
    {g : Gen α} (hg : g.Within (fun b => InPlace N (bodies b).index)) :
    Rel (Sim n c (Upto allF N) D) (g.apply bodies s) (g.apply bodies s') := by
  cases g with
  | custom f => exact hg.elim
  | gravity a => exact h.gravity a
  | static p =>
    obtain ⟨b, hb, e⟩ := hg
    unfold Gen.apply
    simp only [e, Ptr.get, ok_bind]
    exact h.applyForce hN hb _ _ _ _
  | spring p =>
    unfold Gen.apply
    simp only []
    unfold Spring.apply
    refine rel_same _ fun n1 e1 => ?_
    refine rel_ite Iff.rfl (fun _ => h) fun h1 => ?_
    refine rel_same _ fun n2 e2 => ?_
    refine rel_ite Iff.rfl (fun _ => h) fun h2 => ?_
    refine rel_same _ fun b1 g1 => rel_same _ fun b2 g2 => ?_
    have q1 : InPlace N (bodies b1).index ∧ InPlace N (bodies b2).index := by
      rcases hg with e | ⟨⟨b, hb, e⟩, e' | ⟨b', hb', e'⟩⟩
      · rw [e] at g1; cases g1
      · rw [e'] at g2; cases g2
      · rw [e] at g1; rw [e'] at g2
        cases g1; cases g2
        exact ⟨hb, hb'⟩
    unfold Spring.pull
    refine rel_eq (h.springEnd hN q1.1 _ _) fun x _ => ?_
    refine rel_eq (h.springEnd hN q1.2 _ _) fun y _ => ?_
    refine rel_same _ fun d _ => ?_
    refine rel_bind (h.applyForce hN q1.1 _ _ _ _) fun a a' h => ?_
    exact h.applyForce hN q1.2 _ _ _ _
  | motor p =>
    obtain ⟨⟨b, hb, e⟩, b', hb', e'⟩ := hg
    unfold Gen.apply
    simp only []
    unfold Motor.apply
    rw [e, e']
    have mr : ∀ f, motorRead s' f (bodies b).index = motorRead s f (bodies b).index := by
      intro f
      unfold motorRead
      exact ite_congr rfl (fun _ => rfl) (fun _ => h.rdp hN trivial hb)
    refine rel_same _ fun x hx => ?_
    cases hx
    refine rel_eq (mr .v_theta) fun v1 _ => rel_eq (mr .a_theta) fun a1 _ => ?_
    refine rel_same _ fun y hy => ?_
    cases hy
    refine rel_eq (h.rdp hN (f := .v_theta) trivial hb') fun v _ => ?_
    refine rel_eq (h.rdp hN (f := .a_theta) trivial hb') fun a _ => ?_
    refine rel_bind (R := Sim n c (Upto allF N) D) ?_ fun u u' h => h.addp hN .t hb' _
    unfold motorReact
    refine rel_ite Iff.rfl (fun _ => ?_) (fun _ => h)
    refine rel_eq (h.rdp hN (f := .t) trivial hb) fun z _ => ?_
    obtain ⟨j, hj, e⟩ := hb
    rw [e]
    exact h.put .t (by omega) fun _ => rfl

/-- `processForces` in two runs. -/
theorem Sim.forces {w : World α} (h : Sim n c (Upto Fld.Kept w.bodyCount) D s s')
    (hN : w.bodyCount ≤ n)
    (hg : ∀ g ∈ w.fg, (w.gens g).Within (fun b => InPlace w.bodyCount (w.bodies b).index)) :
    Rel (Sim n c (Upto allF w.bodyCount) D) (w.processForces s) (w.processForces s') := by
  unfold World.processForces
  refine rel_bind (R := Sim n c (Upto allF w.bodyCount) D) ?_ fun a a' h => ?_
  · refine (rel_forN (fun i => Sim n c (fun f j => Upto Fld.Kept w.bodyCount f j ∨ j < i) D)
      (h.mono (fun f i k => k.resolve_right (by omega)) (fun _ d => d)) ?_).mono
      (fun a a' h => h.mono (fun f i k => Or.inr k.2) (fun _ d => d))
    intro i hi a a' h
    have hin : i < n := by omega
    unfold zeroForce
    refine rel_bind (h.same .f_x hin _) fun a a' h => ?_
    refine rel_bind (h.same .f_y hin _) fun a a' h => ?_
    refine (h.same .t hin _).mono fun a a' h => h.mono (fun f j k => ?_) (fun _ d => d)
    rcases k with k | k
    · exact Or.inl (Or.inl (Or.inl (Or.inl k)))
    · by_cases e : j = i
      · subst e
        by_cases kf : f.Kept
        · exact Or.inl (Or.inl (Or.inl (Or.inl ⟨kf, hi⟩)))
        · cases f <;> first
            | exact (kf (by decide)).elim
            | exact Or.inr ⟨rfl, rfl⟩
            | exact Or.inl (Or.inr ⟨rfl, rfl⟩)
            | exact Or.inl (Or.inl (Or.inr ⟨rfl, rfl⟩))
      · exact Or.inl (Or.inl (Or.inl (Or.inr (by omega))))
  · refine rel_for h fun i hi a a' h => ?_
    have hi' : i < w.fg.length := hi
    rw [vecAt_ok hi', ok_bind, ok_bind]
    exact h.apply hN (hg _ (List.getElem_mem hi'))

end

end Scs
