import Verif.RoundMem
import Verif.Force

/-!
# Rounding: system states, bodies and force generators

The functions of `SystemState` and the force generators keep corresponding scalars close. A spring
chooses its direction by comparing its length with 0.01, so it must not be exactly that long.
-/

namespace Scs

open Filter Topology

section
variable {ι : Type} {l : Filter ι} {F : ι → Type} [∀ i, Rounded (F i)]

/-- States with the same array sizes and close elements. -/
structure NState (l : Filter ι) (s : ∀ i, SysState (F i)) (S : SysState ℝ) : Prop where
  im : ∀ᶠ i in l, (s i).indexMap = S.indexMap
  fld : ∀ f, NPtr l (fun i => (s i).fld f) (S.fld f)
  rf : ∀ f, NPtr l (fun i => (s i).rf f) (S.rf f)
  n : ∀ᶠ i in l, (s i).n = S.n
  nc : ∀ᶠ i in l, (s i).nc = S.nc
  dt : Near l (fun i => (s i).dt) S.dt
  junk : ∀ n k, Near l (fun i => (s i).junk n k) (S.junk n k)
  junkI : ∀ᶠ i in l, (s i).junkI = S.junkI
  allocs : ∀ᶠ i in l, (s i).allocs = S.allocs
  frees : ∀ᶠ i in l, (s i).frees = S.frees

variable {s : ∀ i, SysState (F i)} {S : SysState ℝ}

theorem NState.congr {s' : ∀ i, SysState (F i)} (h : NState l s S)
    (e : ∀ᶠ i in l, s' i = s i) : NState l s' S where
  im := by filter_upwards [e, h.im] with i e e2; rw [e, e2]
  fld f := (h.fld f).congr (e.mono fun i e => by rw [e])
  rf f := (h.rf f).congr (e.mono fun i e => by rw [e])
  n := by filter_upwards [e, h.n] with i e e2; rw [e, e2]
  nc := by filter_upwards [e, h.nc] with i e e2; rw [e, e2]
  dt := h.dt.congr (e.mono fun i e => by rw [e])
  junk n k := (h.junk n k).congr (e.mono fun i e => by rw [e])
  junkI := by filter_upwards [e, h.junkI] with i e e2; rw [e, e2]
  allocs := by filter_upwards [e, h.allocs] with i e e2; rw [e, e2]
  frees := by filter_upwards [e, h.frees] with i e e2; rw [e, e2]

theorem rel_pAt {a : ∀ i, Option (Buf (F i))} {b : Option (Buf ℝ)} (h : NPtr l a b) (k : Int) :
    RelF l (Near l) (fun i => pAt (a i) k) (pAt b k) := by
  unfold pAt
  refine relf_bind (rel_deref h) fun d D hd => ?_
  exact relf_ite (.of_forall fun _ => Iff.rfl) (fun _ => rel_rd hd _)
    fun _ => relf_error _ _

theorem rel_pSet {a : ∀ i, Option (Buf (F i))} {b : Option (Buf ℝ)} (h : NPtr l a b) (k : Int)
    {v : ∀ i, F i} {V : ℝ} (hv : Near l v V) :
    RelF l (NPtr l) (fun i => pSet (a i) k (v i)) (pSet b k V) := by
  unfold pSet
  refine relf_bind (rel_deref h) fun d D hd => ?_
  refine relf_ite (.of_forall fun _ => Iff.rfl) (fun _ => ?_) fun _ => relf_error _ _
  refine relf_bind (rel_wr hd _ hv) fun d D hd => ?_
  exact relf_pure (NPtr.some hd)

theorem nptr_upd {κ : Type} [DecidableEq κ] {p : ∀ i, κ → Option (Buf (F i))}
    {P : κ → Option (Buf ℝ)} (h : ∀ f, NPtr l (fun i => p i f) (P f)) (f : κ)
    {q : ∀ i, Option (Buf (F i))} {Q : Option (Buf ℝ)} (hq : NPtr l q Q) (g : κ) :
    NPtr l (fun i => upd (p i) f (q i) g) (upd P f Q g) := by
  by_cases e : g = f
  · subst e; simp only [upd_same]; exact hq
  · simp only [upd_other _ _ e]; exact h g

theorem NState.setFld (h : NState l s S) (f : Fld) {q : ∀ i, Option (Buf (F i))}
    {Q : Option (Buf ℝ)} (hq : NPtr l q Q) :
    NState l (fun i => { s i with fld := upd (s i).fld f (q i) }) { S with fld := upd S.fld f Q } :=
  ⟨h.im, nptr_upd h.fld f hq, h.rf, h.n, h.nc, h.dt, h.junk, h.junkI, h.allocs, h.frees⟩

theorem NState.setRf (h : NState l s S) (f : CFld) {q : ∀ i, Option (Buf (F i))}
    {Q : Option (Buf ℝ)} (hq : NPtr l q Q) :
    NState l (fun i => { s i with rf := upd (s i).rf f (q i) }) { S with rf := upd S.rf f Q } :=
  ⟨h.im, h.fld, nptr_upd h.rf f hq, h.n, h.nc, h.dt, h.junk, h.junkI, h.allocs, h.frees⟩

theorem NState.setAF (h : NState l s S) {a f : ι → Nat} {A B : Nat} (ha : SameF l a A)
    (hf : SameF l f B) :
    NState l (fun i => { s i with allocs := a i, frees := f i })
      { S with allocs := A, frees := B } :=
  ⟨h.im, h.fld, h.rf, h.n, h.nc, h.dt, h.junk, h.junkI, ha, hf⟩

theorem rel_frd (h : NState l s S) (f : Fld) (k : Int) :
    RelF l (Near l) (fun i => (s i).rd f k) (S.rd f k) := rel_pAt (h.fld f) k

theorem rel_fwr (h : NState l s S) (f : Fld) (k : Int) {v : ∀ i, F i} {V : ℝ} (hv : Near l v V) :
    RelF l (NState l) (fun i => (s i).wr f k (v i)) (S.wr f k V) := by
  unfold SysState.wr
  refine relf_bind (rel_pSet (h.fld f) k hv) fun p P hp => ?_
  exact relf_pure (h.setFld f hp)

theorem rel_rrd (h : NState l s S) (f : CFld) (k : Int) :
    RelF l (Near l) (fun i => (s i).rrd f k) (S.rrd f k) := rel_pAt (h.rf f) k

theorem rel_rwr (h : NState l s S) (f : CFld) (k : Int) {v : ∀ i, F i} {V : ℝ} (hv : Near l v V) :
    RelF l (NState l) (fun i => (s i).rwr f k (v i)) (S.rwr f k V) := by
  unfold SysState.rwr
  refine relf_bind (rel_pSet (h.rf f) k hv) fun p P hp => ?_
  exact relf_pure (h.setRf f hp)

theorem rel_addTo [Shrinks l F] (h : NState l s S) (f : Fld) (k : Int) {v : ∀ i, F i} {V : ℝ}
    (hv : Near l v V) : RelF l (NState l) (fun i => (s i).addTo f k (v i)) (S.addTo f k V) := by
  unfold SysState.addTo
  refine relf_bind (rel_frd h f k) fun x y hx => ?_
  exact rel_fwr h f k (hx.add hv)

theorem rel_imRd (h : NState l s S) (k : Int) :
    RelF l (SameF l) (fun i => (s i).imRd k) (S.imRd k) := by
  refine relf_same ?_
  filter_upwards [h.im] with i e; rw [SysState.imRd, SysState.imRd, e]

theorem rel_imSet (h : NState l s S) (k : Int) (v : Nat) :
    RelF l (NState l) (fun i => (s i).imSet k v) (S.imSet k v) := by
  unfold SysState.imSet
  refine relf_bindc (relf_same (h.im.mono fun i e => by rw [e])) fun p _ => ?_
  exact relf_pure ⟨SameF.rfl', h.fld, h.rf, h.n, h.nc, h.dt, h.junk, h.junkI, h.allocs, h.frees⟩

/-! ## Allocation -/

theorem NState.freeF (h : NState l s S) (f : Fld) : NState l (fun i => (s i).freeF f) (S.freeF f) := by
  refine (h.setFld f NPtr.none).setAF h.allocs ?_
  filter_upwards [h.frees, (h.fld f).isSome] with i e1 e2
  rw [e1, owned, owned, e2]

theorem NState.freeR (h : NState l s S) (f : CFld) :
    NState l (fun i => (s i).freeR f) (S.freeR f) := by
  refine (h.setRf f NPtr.none).setAF h.allocs ?_
  filter_upwards [h.frees, (h.rf f).isSome] with i e1 e2
  rw [e1, owned, owned, e2]

theorem NState.freeI (h : NState l s S) : NState l (fun i => (s i).freeI) S.freeI := by
  refine ⟨SameF.rfl', h.fld, h.rf, h.n, h.nc, h.dt, h.junk, h.junkI, h.allocs, ?_⟩
  filter_upwards [h.frees, h.im] with i e1 e2
  simp only [SysState.freeI, e1, e2]

theorem NState.fresh (h : NState l s S) {k : ι → Nat} {k' : Nat} (hk : SameF l k k') :
    NPtr l (fun i => some ⟨k i, (s i).junk (s i).allocs⟩) (some ⟨k', S.junk S.allocs⟩) := by
  refine NPtr.some ⟨hk, fun j => (h.junk S.allocs j).congr ?_⟩
  filter_upwards [h.allocs] with i e; simp only [e]

theorem NState.newF (h : NState l s S) (f : Fld) {k : ι → Nat} {k' : Nat} (hk : SameF l k k') :
    NState l (fun i => (s i).newF f (k i)) (S.newF f k') := by
  refine (h.setFld f (h.fresh hk)).setAF ?_ h.frees
  filter_upwards [h.allocs] with i e; rw [e]

theorem NState.newR (h : NState l s S) (f : CFld) {k : ι → Nat} {k' : Nat} (hk : SameF l k k') :
    NState l (fun i => (s i).newR f (k i)) (S.newR f k') := by
  refine (h.setRf f (h.fresh hk)).setAF ?_ h.frees
  filter_upwards [h.allocs] with i e; rw [e]

theorem NState.newI (h : NState l s S) {k : ι → Nat} {k' : Nat} (hk : SameF l k k') :
    NState l (fun i => (s i).newI (k i)) (S.newI k') := by
  refine ⟨?_, h.fld, h.rf, h.n, h.nc, h.dt, h.junk, h.junkI, ?_, h.frees⟩
  · filter_upwards [hk, h.junkI, h.allocs] with i e1 e2 e3
    simp only [SysState.newI, e1, e2, e3]
  · filter_upwards [h.allocs] with i e
    simp only [SysState.newI, e]

theorem NState.freeBodies (h : NState l s S) : NState l (fun i => (s i).freeBodies) S.freeBodies := by
  unfold SysState.freeBodies
  exact (((((((((((((h.freeF _).freeF _).freeF _).freeF _).freeF _).freeF _).freeF _).freeF
    _).freeF _).freeF _).freeF _).freeF _).freeF _)

theorem NState.freeRows (h : NState l s S) : NState l (fun i => (s i).freeRows) S.freeRows := by
  unfold SysState.freeRows
  exact ((h.freeI.freeR _).freeR _).freeR _

theorem NState.ite {c : ι → Prop} {C : Prop} [∀ i, Decidable (c i)] [Decidable C]
    {a b : ∀ i, SysState (F i)} {A B : SysState ℝ} (hc : ∀ᶠ i in l, (c i ↔ C)) (h : NState l a A)
    (h' : NState l b B) : NState l (fun i => if c i then a i else b i) (if C then A else B) := by
  by_cases hC : C
  · rw [if_pos hC]
    refine h.congr ?_
    filter_upwards [hc] with i e; exact if_pos (e.2 hC)
  · rw [if_neg hC]
    refine h'.congr ?_
    filter_upwards [hc] with i e; exact if_neg fun q => hC (e.1 q)

theorem NState.setN (h : NState l s S) {n m : ι → Nat} {N M : Nat} (hn : SameF l n N)
    (hm : SameF l m M) :
    NState l (fun i => { s i with n := n i, nc := m i }) { S with n := N, nc := M } :=
  ⟨h.im, h.fld, h.rf, hn, hm, h.dt, h.junk, h.junkI, h.allocs, h.frees⟩

theorem NState.destroy (h : NState l s S) : NState l (fun i => (s i).destroy) S.destroy := by
  have h1 := NState.ite (c := fun i => 0 < (s i).n) (C := 0 < S.n)
    (h.n.mono fun i e => by rw [e]) h.freeBodies h
  have h2 := NState.ite (c := fun i => 0 < (if 0 < (s i).n then (s i).freeBodies else s i).nc)
    (C := 0 < (if 0 < S.n then S.freeBodies else S).nc)
    (h1.nc.mono fun i e => by rw [e]) h1.freeRows h1
  exact h2.setN SameF.rfl' SameF.rfl'

theorem NState.newAll (h : NState l s S) : NState l (fun i => (s i).newAll) S.newAll := by
  have h := h.newI h.nc
  have h := h.newF .a_theta h.n
  have h := h.newF .v_theta h.n
  have h := h.newF .theta h.n
  have h := h.newF .a_x h.n
  have h := h.newF .a_y h.n
  have h := h.newF .v_x h.n
  have h := h.newF .v_y h.n
  have h := h.newF .p_x h.n
  have h := h.newF .p_y h.n
  have h := h.newF .f_x h.n
  have h := h.newF .f_y h.n
  have h := h.newF .t h.n
  have h := h.newF .m h.n
  have h := h.newR .r_x (h.nc.mono fun i e => congrArg (· * 2) e)
  have h := h.newR .r_y (h.nc.mono fun i e => congrArg (· * 2) e)
  exact h.newR .r_t (h.nc.mono fun i e => congrArg (· * 2) e)

theorem NState.resize (h : NState l s S) {n m : ι → Nat} {N M : Nat} (hn : SameF l n N)
    (hm : SameF l m M) : NState l (fun i => (s i).resize (n i) (m i)) (S.resize N M) := by
  refine NState.ite ?_ h (h.destroy.setN hn hm).newAll
  filter_upwards [h.n, h.nc, hn, hm] with i e1 e2 e3 e4
  rw [e1, e2, e3, e4]

/-- Pairs of close scalars. -/
def NPair (l : Filter ι) (a : ∀ i, F i × F i) (b : ℝ × ℝ) : Prop :=
  Near l (fun i => (a i).1) b.1 ∧ Near l (fun i => (a i).2) b.2

/-- Pairs of pairs of close scalars. -/
def NPair2 (l : Filter ι) (a : ∀ i, (F i × F i) × F i × F i) (b : (ℝ × ℝ) × ℝ × ℝ) : Prop :=
  NPair l (fun i => (a i).1) b.1 ∧ NPair l (fun i => (a i).2) b.2

variable [Shrinks l F] {x y : ∀ i, F i} {x' y' : ℝ}

theorem rel_localToWorld (h : NState l s S) (hx : Near l x x') (hy : Near l y y') (k : Int) :
    RelF l (NPair l) (fun i => (s i).localToWorld (x i) (y i) k) (S.localToWorld x' y' k) := by
  unfold SysState.localToWorld
  refine relf_bind (rel_frd h _ k) fun x0 X0 h1 => ?_
  refine relf_bind (rel_frd h _ k) fun y0 Y0 h2 => ?_
  refine relf_bind (rel_frd h _ k) fun th Th h3 => ?_
  exact relf_pure ⟨((h3.cos.mul hx).sub (h3.sin.mul hy)).add h1,
    ((h3.sin.mul hx).add (h3.cos.mul hy)).add h2⟩

theorem rel_velocityAtPoint (h : NState l s S) (hx : Near l x x') (hy : Near l y y') (k : Int) :
    RelF l (NPair l) (fun i => (s i).velocityAtPoint (x i) (y i) k) (S.velocityAtPoint x' y' k) := by
  unfold SysState.velocityAtPoint
  refine relf_bind (rel_localToWorld h hx hy k) fun w W hw => ?_
  refine relf_bind (rel_frd h _ k) fun th Th h3 => ?_
  refine relf_bind (rel_frd h _ k) fun py Py h2 => ?_
  refine relf_bind (rel_frd h _ k) fun px Px h1 => ?_
  refine relf_bind (rel_frd h _ k) fun vx Vx h4 => ?_
  refine relf_bind (rel_frd h _ k) fun vy Vy h5 => ?_
  exact relf_pure ⟨h4.add (h3.neg.mul (hw.2.sub h2)), h5.add (h3.mul (hw.1.sub h1))⟩

theorem rel_applyForce (h : NState l s S) (hx : Near l x x') (hy : Near l y y')
    {f g : ∀ i, F i} {f' g' : ℝ} (hf : Near l f f') (hg : Near l g g') (k : Int) :
    RelF l (NState l) (fun i => (s i).applyForce (x i) (y i) (f i) (g i) k)
      (S.applyForce x' y' f' g' k) := by
  unfold SysState.applyForce
  refine relf_bind (rel_localToWorld h hx hy k) fun w W hw => ?_
  refine relf_bind (rel_addTo h _ k hf) fun s S h => ?_
  refine relf_bind (rel_addTo h _ k hg) fun s S h => ?_
  refine relf_bind (rel_frd h _ k) fun py Py h2 => ?_
  refine relf_bind (rel_frd h _ k) fun px Px h1 => ?_
  exact rel_addTo h _ k (((hw.2.sub h2).mul hf.neg).add ((hw.1.sub h1).mul hg))

/-! ## Bodies -/

omit [Shrinks l F] in
/-- Bodies with close data and the same index. -/
structure NBody (l : Filter ι) (b : ∀ i, Body (F i)) (B : Body ℝ) : Prop where
  p_x : Near l (fun i => (b i).p_x) B.p_x
  p_y : Near l (fun i => (b i).p_y) B.p_y
  v_x : Near l (fun i => (b i).v_x) B.v_x
  v_y : Near l (fun i => (b i).v_y) B.v_y
  theta : Near l (fun i => (b i).theta) B.theta
  v_theta : Near l (fun i => (b i).v_theta) B.v_theta
  m : Near l (fun i => (b i).m) B.m
  I : Near l (fun i => (b i).I) B.I
  index : ∀ᶠ i in l, (b i).index = B.index

theorem NBody.localToWorld {b : ∀ i, Body (F i)} {B : Body ℝ} (h : NBody l b B)
    (hx : Near l x x') (hy : Near l y y') :
    NPair l (fun i => (b i).localToWorld (x i) (y i)) (B.localToWorld x' y') :=
  ⟨((h.theta.cos.mul hx).sub (h.theta.sin.mul hy)).add h.p_x,
    ((h.theta.sin.mul hx).add (h.theta.cos.mul hy)).add h.p_y⟩

/-! ## Force generators -/

omit [Shrinks l F] in
structure NSpring (l : Filter ι) (p : ∀ i, Spring (F i)) (P : Spring ℝ) : Prop where
  restLength : Near l (fun i => (p i).restLength) P.restLength
  ks : Near l (fun i => (p i).ks) P.ks
  kd : Near l (fun i => (p i).kd) P.kd
  p1_x : Near l (fun i => (p i).p1_x) P.p1_x
  p1_y : Near l (fun i => (p i).p1_y) P.p1_y
  p2_x : Near l (fun i => (p i).p2_x) P.p2_x
  p2_y : Near l (fun i => (p i).p2_y) P.p2_y
  body1 : ∀ᶠ i in l, (p i).body1 = P.body1
  body2 : ∀ᶠ i in l, (p i).body2 = P.body2

omit [Shrinks l F] in
structure NMotor (l : Filter ι) (p : ∀ i, Motor (F i)) (P : Motor ℝ) : Prop where
  ks : Near l (fun i => (p i).ks) P.ks
  kd : Near l (fun i => (p i).kd) P.kd
  maxTorque : Near l (fun i => (p i).maxTorque) P.maxTorque
  speed : Near l (fun i => (p i).speed) P.speed
  body0 : ∀ᶠ i in l, (p i).body0 = P.body0
  body1 : ∀ᶠ i in l, (p i).body1 = P.body1

omit [Shrinks l F] in
structure NStatic (l : Filter ι) (p : ∀ i, StaticForce (F i)) (P : StaticForce ℝ) : Prop where
  f_x : Near l (fun i => (p i).f_x) P.f_x
  f_y : Near l (fun i => (p i).f_y) P.f_y
  p_x : Near l (fun i => (p i).p_x) P.p_x
  p_y : Near l (fun i => (p i).p_y) P.p_y
  body : ∀ᶠ i in l, (p i).body = P.body

omit [Shrinks l F] in
/-- Shipped force generators of the same kind with close parameters. -/
def NGen (l : Filter ι) (g : ∀ i, Gen (F i)) : Gen ℝ → Prop
  | .gravity a => ∃ b, (∀ᶠ i in l, g i = .gravity (b i)) ∧ Near l b a
  | .static p => ∃ q, (∀ᶠ i in l, g i = .static (q i)) ∧ NStatic l q p
  | .spring p => ∃ q, (∀ᶠ i in l, g i = .spring (q i)) ∧ NSpring l q p
  | .motor p => ∃ q, (∀ᶠ i in l, g i = .motor (q i)) ∧ NMotor l q p
  | .custom _ => False

omit [Shrinks l F] in
/-- Bodies with close data. -/
def NBodies (l : Filter ι) (b : ∀ i, Nat → Body (F i)) (B : Nat → Body ℝ) : Prop :=
  ∀ k, NBody l (fun i => b i k) (B k)

variable {bs : ∀ i, Nat → Body (F i)} {BS : Nat → Body ℝ}

theorem rel_springEnd (hb : NBodies l bs BS) (h : NState l s S) (b : Nat) (hx : Near l x x')
    (hy : Near l y y') :
    RelF l (NPair2 l) (fun i => springEnd (bs i) b (x i) (y i) (s i)) (springEnd BS b x' y' S) := by
  refine relf_congr (x' := fun i => if (BS b).index ≠ -1 then (do
      let w ← (s i).localToWorld (x i) (y i) (BS b).index
      let v ← (s i).velocityAtPoint (x i) (y i) (BS b).index
      pure (w, v))
    else pure ((bs i b).localToWorld (x i) (y i), (Fp.lit 0, Fp.lit 0))) ?_ ?_
  · filter_upwards [(hb b).index] with i e; rw [springEnd, e]
  · unfold springEnd
    refine relf_ite (.of_forall fun _ => Iff.rfl) (fun _ => ?_) fun _ => ?_
    · refine relf_bind (rel_localToWorld h hx hy _) fun w W hw => ?_
      refine relf_bind (rel_velocityAtPoint h hx hy _) fun v V hv => ?_
      exact relf_pure ⟨hw, hv⟩
    · exact relf_pure ⟨(hb b).localToWorld hx hy, Near.lit 0, Near.lit 0⟩

omit [Shrinks l F] in
/-- Triples of close scalars. -/
def NTrip (l : Filter ι) (a : ∀ i, F i × F i × F i) (b : ℝ × ℝ × ℝ) : Prop :=
  Near l (fun i => (a i).1) b.1 ∧ NPair l (fun i => (a i).2) b.2

theorem rel_springDir (hx : Near l x x') (hy : Near l y y')
    (hne : √(x' * x' + y' * y') ≠ 1 / 100) :
    RelF l (NTrip l) (fun i => springDir (x i) (y i)) (springDir x' y') := by
  unfold springDir
  have hq := (hx.mul hx).add (hy.mul hy)
  have h0 : ∀ᶠ i in l, 0 ≤ Rounded.val (x i * x i + y i * y i) := by
    filter_upwards [hx.fin, hy.fin, (hx.mul hx).fin, (hy.mul hy).fin, hq.fin] with i a b c d e
    exact Rounded.add_sign _ _ c d (Rounded.sq_sign _ a c) (Rounded.sq_sign _ b d) e
  have hl := hq.sqrt h0
  have hc := near_ge hl.abs (Near.lit (l := l) (F := F) (1 / 100)) (by
    rw [fp_abs, fp_lit]
    show |√(x' * x' + y' * y')| ≠ _
    rw [abs_of_nonneg (Real.sqrt_nonneg _)]
    push_cast
    exact hne)
  refine relf_ite (hc.mono fun i e => by rw [e]) (fun _ => ?_) fun _ => ?_
  · refine relf_bind (near_div hx hl) fun u U hu => ?_
    refine relf_bind (near_div hy hl) fun v V hv => ?_
    exact relf_pure ⟨hl, hu, hv⟩
  · exact relf_pure ⟨hl, Near.lit 0, Near.lit 0⟩

/-- The ends of a spring as computed by `Spring::apply` are not exactly 0.01 apart. -/
def Spring.Apart (p : Spring ℝ) (bodies : Nat → Body ℝ) (s : SysState ℝ) : Prop :=
  ∀ b1 b2 e1 e2, p.body1 = .obj b1 → p.body2 = .obj b2 →
    springEnd bodies b1 p.p1_x p.p1_y s = .ok e1 → springEnd bodies b2 p.p2_x p.p2_y s = .ok e2 →
    √((e2.1.1 - e1.1.1) * (e2.1.1 - e1.1.1) + (e2.1.2 - e1.1.2) * (e2.1.2 - e1.1.2)) ≠ 1 / 100

/-- The same for a force generator that may be a spring. -/
def Gen.Apart (g : Gen ℝ) (bodies : Nat → Body ℝ) (s : SysState ℝ) : Prop :=
  ∀ p, g = .spring p → p.Apart bodies s

theorem rel_pull {p : ∀ i, Spring (F i)} {P : Spring ℝ} (hp : NSpring l p P) (hb : NBodies l bs BS)
    (h : NState l s S) {b1 b2 : Nat} (e1 : P.body1 = .obj b1) (e2 : P.body2 = .obj b2)
    (ha : P.Apart BS S) :
    RelF l (NState l) (fun i => (p i).pull (bs i) b1 b2 (s i)) (P.pull BS b1 b2 S) := by
  refine relf_congr (x' := fun i => (do
    let e1 ← springEnd (bs i) b1 (p i).p1_x (p i).p1_y (s i)
    let e2 ← springEnd (bs i) b2 (p i).p2_x (p i).p2_y (s i)
    let q ← springDir (e2.1.1 - e1.1.1) (e2.1.2 - e1.1.2)
    let rel_v_x := e2.2.1 - e1.2.1
    let rel_v_y := e2.2.2 - e1.2.2
    let x := q.1 - (p i).restLength
    let s ← (s i).applyForce (p i).p1_x (p i).p1_y (q.2.1 * x * (p i).ks + rel_v_x * (p i).kd)
      (q.2.2 * x * (p i).ks + rel_v_y * (p i).kd) (BS b1).index
    s.applyForce (p i).p2_x (p i).p2_y (-q.2.1 * x * (p i).ks - rel_v_x * (p i).kd)
      (-q.2.2 * x * (p i).ks - rel_v_y * (p i).kd) (BS b2).index)) ?_ ?_
  · filter_upwards [(hb b1).index, (hb b2).index] with i e1 e2; rw [Spring.pull, e1, e2]
  · unfold Spring.pull
    refine relf_bind' (rel_springEnd hb h b1 hp.p1_x hp.p1_y) fun d1 D1 _ q1 h1 => ?_
    refine relf_bind' (rel_springEnd hb h b2 hp.p2_x hp.p2_y) fun d2 D2 _ q2 h2 => ?_
    refine relf_bind (rel_springDir (h2.1.1.sub h1.1.1) (h2.1.2.sub h1.1.2)
      (ha b1 b2 D1 D2 e1 e2 q1 q2)) fun q Q hq => ?_
    have hvx := h2.2.1.sub h1.2.1
    have hvy := h2.2.2.sub h1.2.2
    have hl := hq.1.sub hp.restLength
    refine relf_bind (rel_applyForce h hp.p1_x hp.p1_y
      (((hq.2.1.mul hl).mul hp.ks).add (hvx.mul hp.kd))
      (((hq.2.2.mul hl).mul hp.ks).add (hvy.mul hp.kd)) _) fun s S h => ?_
    exact rel_applyForce h hp.p2_x hp.p2_y
      (((hq.2.1.neg.mul hl).mul hp.ks).sub (hvx.mul hp.kd))
      (((hq.2.2.neg.mul hl).mul hp.ks).sub (hvy.mul hp.kd)) _

theorem rel_springApply {p : ∀ i, Spring (F i)} {P : Spring ℝ} (hp : NSpring l p P)
    (hb : NBodies l bs BS) (h : NState l s S) (ha : P.Apart BS S) :
    RelF l (NState l) (fun i => (p i).apply (bs i) (s i)) (P.apply BS S) := by
  unfold Spring.apply
  refine relf_bindc (relf_same (hp.body1.mono fun i e => by rw [e])) fun n1 _ => ?_
  refine relf_ite (.of_forall fun _ => Iff.rfl) (fun _ => relf_pure h) fun _ => ?_
  refine relf_bindc (relf_same (hp.body2.mono fun i e => by rw [e])) fun n2 _ => ?_
  refine relf_ite (.of_forall fun _ => Iff.rfl) (fun _ => relf_pure h) fun _ => ?_
  refine relf_bindc (relf_same (hp.body1.mono fun i e => by rw [e])) fun b1 e1 => ?_
  refine relf_bindc (relf_same (hp.body2.mono fun i e => by rw [e])) fun b2 e2 => ?_
  refine rel_pull hp hb h ?_ ?_ ha
  · revert e1; cases P.body1 <;> intro e1 <;> cases e1; rfl
  · revert e2; cases P.body2 <;> intro e2 <;> cases e2; rfl

theorem rel_motorRead (h : NState l s S) (f : Fld) (k : Int) :
    RelF l (Near l) (fun i => motorRead (s i) f k) (motorRead S f k) := by
  unfold motorRead
  exact relf_ite (.of_forall fun _ => Iff.rfl) (fun _ => relf_pure (Near.lit 0))
    fun _ => rel_frd h f k

theorem rel_motorReact (h : NState l s S) (k : Int) (hx : Near l x x') :
    RelF l (NState l) (fun i => motorReact (s i) k (x i)) (motorReact S k x') := by
  unfold motorReact
  refine relf_ite (.of_forall fun _ => Iff.rfl) (fun _ => ?_) fun _ => relf_pure h
  refine relf_bind (rel_frd h _ k) fun y Y hy => ?_
  exact rel_fwr h _ k (hy.sub hx)

theorem rel_motorApply {p : ∀ i, Motor (F i)} {P : Motor ℝ} (hp : NMotor l p P)
    (hb : NBodies l bs BS) (h : NState l s S) :
    RelF l (NState l) (fun i => (p i).apply (bs i) (s i)) (P.apply BS S) := by
  unfold Motor.apply
  refine relf_bindc (relf_same (hp.body0.mono fun i e => by rw [e])) fun b0 _ => ?_
  refine relf_bind (relf_congr ((hb b0).index.mono fun i e => by rw [e])
    (rel_motorRead h _ (BS b0).index)) fun v1 V1 h1 => ?_
  refine relf_bind (relf_congr ((hb b0).index.mono fun i e => by rw [e])
    (rel_motorRead h _ (BS b0).index)) fun a1 A1 h2 => ?_
  refine relf_bindc (relf_same (hp.body1.mono fun i e => by rw [e])) fun b1 _ => ?_
  refine relf_bind (relf_congr ((hb b1).index.mono fun i e => by rw [e])
    (rel_frd h _ (BS b1).index)) fun v V h3 => ?_
  refine relf_bind (relf_congr ((hb b1).index.mono fun i e => by rw [e])
    (rel_frd h _ (BS b1).index)) fun a A h4 => ?_
  have ht := hp.maxTorque.fmin (hp.maxTorque.neg.fmax
    (((hp.speed.sub (h3.sub h1)).mul hp.ks).add ((h4.sub h2).neg.mul hp.kd)))
  refine relf_bind (relf_congr ((hb b0).index.mono fun i e => by rw [e])
    (rel_motorReact h (BS b0).index ht)) fun s S h => ?_
  exact relf_congr ((hb b1).index.mono fun i e => by rw [e]) (rel_addTo h _ (BS b1).index ht)

theorem rel_genApply {g : ∀ i, Gen (F i)} {G : Gen ℝ} (hg : NGen l g G) (hb : NBodies l bs BS)
    (h : NState l s S) (ha : G.Apart BS S) :
    RelF l (NState l) (fun i => (g i).apply (bs i) (s i)) (G.apply BS S) := by
  cases G with
  | gravity a =>
    obtain ⟨b, h1, h2⟩ := hg
    refine relf_congr (x' := fun i => forN (s i).n (gravityBody (b i)) (s i))
      (h1.mono fun i e => by rw [e]; rfl) ?_
    show RelF l (NState l) _ (forN S.n (gravityBody a) S)
    refine relf_forN h.n h fun k _ s S h => ?_
    unfold gravityBody
    refine relf_bind (rel_frd h _ k) fun m M hm => ?_
    exact rel_addTo h _ k (hm.neg.mul h2)
  | static P =>
    obtain ⟨p, h1, hp⟩ := hg
    refine relf_congr (x' := fun i => (p i).body.get >>= fun b =>
      (s i).applyForce (p i).p_x (p i).p_y (p i).f_x (p i).f_y (bs i b).index)
      (h1.mono fun i e => by rw [e]; rfl) ?_
    show RelF l (NState l) _ (P.body.get >>= fun b =>
      S.applyForce P.p_x P.p_y P.f_x P.f_y (BS b).index)
    refine relf_bindc (relf_same (hp.body.mono fun i e => by rw [e])) fun b _ => ?_
    exact relf_congr ((hb b).index.mono fun i e => by rw [e])
      (rel_applyForce h hp.p_x hp.p_y hp.f_x hp.f_y (BS b).index)
  | spring P =>
    obtain ⟨p, h1, hp⟩ := hg
    exact relf_congr (h1.mono fun i e => by rw [e]; rfl) (rel_springApply hp hb h (ha P rfl))
  | motor P =>
    obtain ⟨p, h1, hp⟩ := hg
    exact relf_congr (h1.mono fun i e => by rw [e]; rfl) (rel_motorApply hp hb h)
  | custom f => exact hg.elim

end

end Scs
