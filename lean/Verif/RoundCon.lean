import Verif.RoundState

/-!
# Rounding: constraints

The shipped constraints compute close outputs from close states.
-/

namespace Scs

open Filter Topology

section
variable {ι : Type} {l : Filter ι} {F : ι → Type} [∀ i, Rounded (F i)]

/-- Outputs with close numbers. -/
structure NOut (l : Filter ι) (o : ∀ i, Output (F i)) (O : Output ℝ) : Prop where
  C : ∀ j, Near l (fun i => (o i).C j) (O.C j)
  J : ∀ j k, Near l (fun i => (o i).J j k) (O.J j k)
  J_dot : ∀ j k, Near l (fun i => (o i).J_dot j k) (O.J_dot j k)
  v_bias : ∀ j, Near l (fun i => (o i).v_bias j) (O.v_bias j)
  limits : ∀ j k, Near l (fun i => (o i).limits j k) (O.limits j k)
  ks : ∀ j, Near l (fun i => (o i).ks j) (O.ks j)
  kd : ∀ j, Near l (fun i => (o i).kd j) (O.kd j)

variable {o : ∀ i, Output (F i)} {O : Output ℝ} {v : ∀ i, F i} {V : ℝ}

theorem near_upd {a : ∀ i, Nat → F i} {A : Nat → ℝ} (h : ∀ j, Near l (fun i => a i j) (A j))
    (k : Nat) (hv : Near l v V) (j : Nat) :
    Near l (fun i => upd (a i) k (v i) j) (upd A k V j) := by
  by_cases e : j = k
  · subst e; simp only [upd_same]; exact hv
  · simp only [upd_other _ _ e]; exact h j

theorem near_upd2 {a : ∀ i, Nat → Nat → F i} {A : Nat → Nat → ℝ}
    (h : ∀ j k, Near l (fun i => a i j k) (A j k))
    (p q : Nat) (hv : Near l v V) (j k : Nat) :
    Near l (fun i => upd (a i) p (upd (a i p) q (v i)) j k) (upd A p (upd (A p) q V) j k) := by
  by_cases e : j = p
  · subst e; simp only [upd_same]; exact near_upd (h j) q hv k
  · simp only [upd_other _ _ e]; exact h j k

theorem NOut.setC (h : NOut l o O) (k : Nat) (hv : Near l v V) :
    NOut l (fun i => (o i).setC k (v i)) (O.setC k V) :=
  ⟨near_upd h.C k hv, h.J, h.J_dot, h.v_bias, h.limits, h.ks, h.kd⟩

theorem NOut.setJ (h : NOut l o O) (j k : Nat) (hv : Near l v V) :
    NOut l (fun i => (o i).setJ j k (v i)) (O.setJ j k V) :=
  ⟨h.C, near_upd2 h.J j k hv, h.J_dot, h.v_bias, h.limits, h.ks, h.kd⟩

theorem NOut.setJd (h : NOut l o O) (j k : Nat) (hv : Near l v V) :
    NOut l (fun i => (o i).setJd j k (v i)) (O.setJd j k V) :=
  ⟨h.C, h.J, near_upd2 h.J_dot j k hv, h.v_bias, h.limits, h.ks, h.kd⟩

theorem NOut.setB (h : NOut l o O) (k : Nat) (hv : Near l v V) :
    NOut l (fun i => (o i).setB k (v i)) (O.setB k V) :=
  ⟨h.C, h.J, h.J_dot, near_upd h.v_bias k hv, h.limits, h.ks, h.kd⟩

theorem NOut.setL (h : NOut l o O) (j k : Nat) (hv : Near l v V) :
    NOut l (fun i => (o i).setL j k (v i)) (O.setL j k V) :=
  ⟨h.C, h.J, h.J_dot, h.v_bias, near_upd2 h.limits j k hv, h.ks, h.kd⟩

theorem NOut.setKs (h : NOut l o O) (k : Nat) (hv : Near l v V) :
    NOut l (fun i => (o i).setKs k (v i)) (O.setKs k V) :=
  ⟨h.C, h.J, h.J_dot, h.v_bias, h.limits, near_upd h.ks k hv, h.kd⟩

theorem NOut.setKd (h : NOut l o O) (k : Nat) (hv : Near l v V) :
    NOut l (fun i => (o i).setKd k (v i)) (O.setKd k V) :=
  ⟨h.C, h.J, h.J_dot, h.v_bias, h.limits, h.ks, near_upd h.kd k hv⟩

theorem NOut.noLimits [Shrinks l F] (h : NOut l o O) :
    NOut l (fun i => (o i).noLimits) O.noLimits :=
  (((((h.setL 0 0 Near.dblMax.neg).setL 0 1 Near.dblMax).setL 1 0 Near.dblMax.neg).setL 1 1
    Near.dblMax).setL 2 0 Near.dblMax.neg).setL 2 1 Near.dblMax

theorem NOut.congr {o' : ∀ i, Output (F i)} (h : NOut l o O) (e : ∀ᶠ i in l, o' i = o i) :
    NOut l o' O :=
  ⟨fun j => (h.C j).congr (e.mono fun i e => by rw [e]),
    fun j k => (h.J j k).congr (e.mono fun i e => by rw [e]),
    fun j k => (h.J_dot j k).congr (e.mono fun i e => by rw [e]),
    fun j => (h.v_bias j).congr (e.mono fun i e => by rw [e]),
    fun j k => (h.limits j k).congr (e.mono fun i e => by rw [e]),
    fun j => (h.ks j).congr (e.mono fun i e => by rw [e]),
    fun j => (h.kd j).congr (e.mono fun i e => by rw [e])⟩

/-- Scalars computed the same way from close scalars. -/
macro "near_expr" : tactic => `(tactic| repeat' with_reducible first
  | apply Near.lit | apply Near.dblMax | apply Near.neg | apply Near.add | apply Near.sub
  | apply Near.mul | apply Near.sin | apply Near.cos | assumption)

/-- Outputs written the same way with close scalars. -/
macro "near_out" : tactic => `(tactic| (
  repeat' with_reducible first
    | apply NOut.noLimits
    | apply NOut.setL
    | apply NOut.setJ
    | apply NOut.setJd
    | apply NOut.setKs
    | apply NOut.setKd
    | apply NOut.setC
    | apply NOut.setB
    | assumption
  all_goals near_expr))

/-- `FixedPosition` with close members. -/
structure NFixedPosition (l : Filter ι) (p : ∀ i, FixedPosition (F i)) (P : FixedPosition ℝ) : Prop where
  local_x : Near l (fun i => (p i).local_x) P.local_x
  local_y : Near l (fun i => (p i).local_y) P.local_y
  world_x : Near l (fun i => (p i).world_x) P.world_x
  world_y : Near l (fun i => (p i).world_y) P.world_y
  ks : Near l (fun i => (p i).ks) P.ks
  kd : Near l (fun i => (p i).kd) P.kd

/-- `FixedRotation` with close members. -/
structure NFixedRotation (l : Filter ι) (p : ∀ i, FixedRotation (F i)) (P : FixedRotation ℝ) : Prop where
  rotation : Near l (fun i => (p i).rotation) P.rotation
  ks : Near l (fun i => (p i).ks) P.ks
  kd : Near l (fun i => (p i).kd) P.kd

/-- `Line` with close members. -/
structure NLine (l : Filter ι) (p : ∀ i, Line (F i)) (P : Line ℝ) : Prop where
  local_x : Near l (fun i => (p i).local_x) P.local_x
  local_y : Near l (fun i => (p i).local_y) P.local_y
  p0_x : Near l (fun i => (p i).p0_x) P.p0_x
  p0_y : Near l (fun i => (p i).p0_y) P.p0_y
  dx : Near l (fun i => (p i).dx) P.dx
  dy : Near l (fun i => (p i).dy) P.dy
  ks : Near l (fun i => (p i).ks) P.ks
  kd : Near l (fun i => (p i).kd) P.kd

/-- `Link` with close members. -/
structure NLink (l : Filter ι) (p : ∀ i, Link (F i)) (P : Link ℝ) : Prop where
  local_x_1 : Near l (fun i => (p i).local_x_1) P.local_x_1
  local_y_1 : Near l (fun i => (p i).local_y_1) P.local_y_1
  local_x_2 : Near l (fun i => (p i).local_x_2) P.local_x_2
  local_y_2 : Near l (fun i => (p i).local_y_2) P.local_y_2
  maxForce : Near l (fun i => (p i).maxForce) P.maxForce
  ks : Near l (fun i => (p i).ks) P.ks
  kd : Near l (fun i => (p i).kd) P.kd

/-- `Rolling` with close members. -/
structure NRolling (l : Filter ι) (p : ∀ i, Rolling (F i)) (P : Rolling ℝ) : Prop where
  local_x : Near l (fun i => (p i).local_x) P.local_x
  local_y : Near l (fun i => (p i).local_y) P.local_y
  dx : Near l (fun i => (p i).dx) P.dx
  dy : Near l (fun i => (p i).dy) P.dy
  radius : Near l (fun i => (p i).radius) P.radius
  ks : Near l (fun i => (p i).ks) P.ks
  kd : Near l (fun i => (p i).kd) P.kd

/-- `ConstantRotation` with close members. -/
structure NConstantRotation (l : Filter ι) (p : ∀ i, ConstantRotation (F i)) (P : ConstantRotation ℝ) : Prop where
  rotationSpeed : Near l (fun i => (p i).rotationSpeed) P.rotationSpeed
  minTorque : Near l (fun i => (p i).minTorque) P.minTorque
  maxTorque : Near l (fun i => (p i).maxTorque) P.maxTorque
  ks : Near l (fun i => (p i).ks) P.ks
  kd : Near l (fun i => (p i).kd) P.kd

/-- `Clutch` with close members. -/
structure NClutch (l : Filter ι) (p : ∀ i, Clutch (F i)) (P : Clutch ℝ) : Prop where
  minTorque : Near l (fun i => (p i).minTorque) P.minTorque
  maxTorque : Near l (fun i => (p i).maxTorque) P.maxTorque
  ks : Near l (fun i => (p i).ks) P.ks
  kd : Near l (fun i => (p i).kd) P.kd

/-- `RotationFriction` with close members. -/
structure NRotationFriction (l : Filter ι) (p : ∀ i, RotationFriction (F i)) (P : RotationFriction ℝ) : Prop where
  minTorque : Near l (fun i => (p i).minTorque) P.minTorque
  maxTorque : Near l (fun i => (p i).maxTorque) P.maxTorque
  ks : Near l (fun i => (p i).ks) P.ks
  kd : Near l (fun i => (p i).kd) P.kd

/-- `SimpleGear` with close members. -/
structure NSimpleGear (l : Filter ι) (p : ∀ i, SimpleGear (F i)) (P : SimpleGear ℝ) : Prop where
  ratio : Near l (fun i => (p i).ratio) P.ratio
  ks : Near l (fun i => (p i).ks) P.ks
  kd : Near l (fun i => (p i).kd) P.kd
  neutral : ∀ᶠ i in l, (p i).neutral = P.neutral

/-- Shipped constraints of the same kind with close parameters. -/
def NKind (l : Filter ι) (k : ∀ i, CKind (F i)) : CKind ℝ → Prop
  | .base => ∀ᶠ i in l, k i = .base
  | .fixedPosition p => ∃ q, (∀ᶠ i in l, k i = .fixedPosition (q i)) ∧ NFixedPosition l q p
  | .fixedRotation p => ∃ q, (∀ᶠ i in l, k i = .fixedRotation (q i)) ∧ NFixedRotation l q p
  | .line p => ∃ q, (∀ᶠ i in l, k i = .line (q i)) ∧ NLine l q p
  | .link p => ∃ q, (∀ᶠ i in l, k i = .link (q i)) ∧ NLink l q p
  | .rolling p => ∃ q, (∀ᶠ i in l, k i = .rolling (q i)) ∧ NRolling l q p
  | .constantRotation p => ∃ q, (∀ᶠ i in l, k i = .constantRotation (q i)) ∧ NConstantRotation l q p
  | .clutch p => ∃ q, (∀ᶠ i in l, k i = .clutch (q i)) ∧ NClutch l q p
  | .rotationFriction p => ∃ q, (∀ᶠ i in l, k i = .rotationFriction (q i)) ∧ NRotationFriction l q p
  | .simpleGear p => ∃ q, (∀ᶠ i in l, k i = .simpleGear (q i)) ∧ NSimpleGear l q p
  | .custom _ => False

variable [Shrinks l F] {s : ∀ i, SysState (F i)} {S : SysState ℝ}
  {x : ι → Nat → Exec Int} {x' : Nat → Exec Int}

theorem rel_calcFixedPosition {p : ∀ i, FixedPosition (F i)} {P : FixedPosition ℝ} (hp : NFixedPosition l p P)
    (hx : ∀ k, ∀ᶠ i in l, x i k = x' k) (ho : NOut l o O) (h : NState l s S) :
    RelF l (NOut l) (fun i => (p i).calculate (x i) (o i) (s i)) (P.calculate x' O S) := by
  unfold FixedPosition.calculate
  obtain ⟨p0, p1, p2, p3, p4, p5⟩ := hp
  refine relf_bindc (relf_same (hx 0)) fun b0 _ => ?_
  refine relf_bind (rel_frd h _ _) fun q0 Q0 h0 => ?_
  refine relf_bind (rel_frd h _ _) fun q1 Q1 h1 => ?_
  refine relf_bind (rel_frd h _ _) fun q2 Q2 h2 => ?_
  refine relf_bind (rel_frd h _ _) fun q3 Q3 h3 => ?_
  refine relf_pure ?_
  try dsimp only
  near_out

theorem rel_calcFixedRotation {p : ∀ i, FixedRotation (F i)} {P : FixedRotation ℝ} (hp : NFixedRotation l p P)
    (hx : ∀ k, ∀ᶠ i in l, x i k = x' k) (ho : NOut l o O) (h : NState l s S) :
    RelF l (NOut l) (fun i => (p i).calculate (x i) (o i) (s i)) (P.calculate x' O S) := by
  unfold FixedRotation.calculate
  obtain ⟨p0, p1, p2⟩ := hp
  refine relf_bindc (relf_same (hx 0)) fun b0 _ => ?_
  refine relf_bind (rel_frd h _ _) fun q0 Q0 h0 => ?_
  refine relf_pure ?_
  try dsimp only
  near_out

theorem rel_calcLine {p : ∀ i, Line (F i)} {P : Line ℝ} (hp : NLine l p P)
    (hx : ∀ k, ∀ᶠ i in l, x i k = x' k) (ho : NOut l o O) (h : NState l s S) :
    RelF l (NOut l) (fun i => (p i).calculate (x i) (o i) (s i)) (P.calculate x' O S) := by
  unfold Line.calculate
  obtain ⟨p0, p1, p2, p3, p4, p5, p6, p7⟩ := hp
  refine relf_bindc (relf_same (hx 0)) fun b0 _ => ?_
  refine relf_bind (rel_frd h _ _) fun q0 Q0 h0 => ?_
  refine relf_bind (rel_frd h _ _) fun q1 Q1 h1 => ?_
  refine relf_bind (rel_frd h _ _) fun q2 Q2 h2 => ?_
  refine relf_bind (rel_frd h _ _) fun q3 Q3 h3 => ?_
  refine relf_pure ?_
  try dsimp only
  near_out

theorem rel_calcLink {p : ∀ i, Link (F i)} {P : Link ℝ} (hp : NLink l p P)
    (hx : ∀ k, ∀ᶠ i in l, x i k = x' k) (ho : NOut l o O) (h : NState l s S) :
    RelF l (NOut l) (fun i => (p i).calculate (x i) (o i) (s i)) (P.calculate x' O S) := by
  unfold Link.calculate
  obtain ⟨p0, p1, p2, p3, p4, p5, p6⟩ := hp
  refine relf_bindc (relf_same (hx 0)) fun b0 _ => ?_
  refine relf_bindc (relf_same (hx 1)) fun b1 _ => ?_
  refine relf_bind (rel_frd h _ _) fun q0 Q0 h0 => ?_
  refine relf_bind (rel_frd h _ _) fun q1 Q1 h1 => ?_
  refine relf_bind (rel_frd h _ _) fun q2 Q2 h2 => ?_
  refine relf_bind (rel_frd h _ _) fun q3 Q3 h3 => ?_
  refine relf_bind (rel_frd h _ _) fun q4 Q4 h4 => ?_
  refine relf_bind (rel_frd h _ _) fun q5 Q5 h5 => ?_
  refine relf_bind (rel_frd h _ _) fun q6 Q6 h6 => ?_
  refine relf_bind (rel_frd h _ _) fun q7 Q7 h7 => ?_
  refine relf_pure ?_
  try dsimp only
  near_out

theorem rel_calcRolling {p : ∀ i, Rolling (F i)} {P : Rolling ℝ} (hp : NRolling l p P)
    (hx : ∀ k, ∀ᶠ i in l, x i k = x' k) (ho : NOut l o O) (h : NState l s S) :
    RelF l (NOut l) (fun i => (p i).calculate (x i) (o i) (s i)) (P.calculate x' O S) := by
  unfold Rolling.calculate
  obtain ⟨p0, p1, p2, p3, p4, p5, p6⟩ := hp
  refine relf_bindc (relf_same (hx 0)) fun b0 _ => ?_
  refine relf_bindc (relf_same (hx 1)) fun b1 _ => ?_
  refine relf_bind (rel_frd h _ _) fun q0 Q0 h0 => ?_
  refine relf_bind (rel_frd h _ _) fun q1 Q1 h1 => ?_
  refine relf_bind (rel_frd h _ _) fun q2 Q2 h2 => ?_
  refine relf_bind (rel_frd h _ _) fun q3 Q3 h3 => ?_
  refine relf_bind (rel_frd h _ _) fun q4 Q4 h4 => ?_
  refine relf_bind (rel_frd h _ _) fun q5 Q5 h5 => ?_
  refine relf_bind (rel_frd h _ _) fun q6 Q6 h6 => ?_
  refine relf_bind (rel_frd h _ _) fun q7 Q7 h7 => ?_
  refine relf_bind (rel_frd h _ _) fun q8 Q8 h8 => ?_
  refine relf_bind (rel_frd h _ _) fun q9 Q9 h9 => ?_
  refine relf_bind (rel_frd h _ _) fun q10 Q10 h10 => ?_
  refine relf_pure ?_
  try dsimp only
  near_out

theorem NConstantRotation.calculate {p : ∀ i, ConstantRotation (F i)} {P : ConstantRotation ℝ}
    (hp : NConstantRotation l p P) (ho : NOut l o O) :
    NOut l (fun i => (p i).calculate (o i)) (P.calculate O) := by
  obtain ⟨p0, p1, p2, p3, p4⟩ := hp
  unfold ConstantRotation.calculate
  try dsimp only
  near_out

theorem NClutch.calculate {p : ∀ i, Clutch (F i)} {P : Clutch ℝ}
    (hp : NClutch l p P) (ho : NOut l o O) :
    NOut l (fun i => (p i).calculate (o i)) (P.calculate O) := by
  obtain ⟨p0, p1, p2, p3⟩ := hp
  unfold Clutch.calculate
  try dsimp only
  near_out

theorem rel_calcRotationFriction {p : ∀ i, RotationFriction (F i)} {P : RotationFriction ℝ} (hp : NRotationFriction l p P)
    (hx : ∀ k, ∀ᶠ i in l, x i k = x' k) (ho : NOut l o O) :
    RelF l (NOut l) (fun i => (p i).calculate (x i) (o i)) (P.calculate x' O) := by
  unfold RotationFriction.calculate
  obtain ⟨p0, p1, p2, p3⟩ := hp
  refine relf_bindc (relf_same (hx 0)) fun b0 _ => ?_
  refine relf_pure ?_
  try dsimp only
  near_out

theorem NSimpleGear.calculate {p : ∀ i, SimpleGear (F i)} {P : SimpleGear ℝ}
    (hp : NSimpleGear l p P) (ho : NOut l o O) :
    NOut l (fun i => (p i).calculate (o i)) (P.calculate O) := by
  obtain ⟨p0, p1, p2, p3⟩ := hp
  cases hn : P.neutral with
  | true =>
    refine NOut.congr (o := fun i => (⟨(p i).ratio, true, (p i).ks, (p i).kd⟩ : SimpleGear (F i)).calculate
      (o i)) ?_ ?_
    · simp only [SimpleGear.calculate, hn, if_true]
      near_out
    · filter_upwards [p3] with i e
      rw [← hn, ← e]
  | false =>
    refine NOut.congr (o := fun i => (⟨(p i).ratio, false, (p i).ks, (p i).kd⟩ : SimpleGear (F i)).calculate
      (o i)) ?_ ?_
    · simp only [SimpleGear.calculate, hn, Bool.false_eq_true, if_false]
      near_out
    · filter_upwards [p3] with i e
      rw [← hn, ← e]

theorem rel_calculate {k : ∀ i, CKind (F i)} {K : CKind ℝ} (hk : NKind l k K)
    (hx : ∀ k, ∀ᶠ i in l, x i k = x' k) (ho : NOut l o O) (h : NState l s S) :
    RelF l (NOut l) (fun i => (k i).calculate (x i) (o i) (s i)) (K.calculate x' O S) := by
  cases K with
  | base => exact relf_congr (hk.mono fun i e => by rw [e]; rfl) (relf_pure ho)
  | fixedPosition P =>
    obtain ⟨p, h1, hp⟩ := hk
    exact relf_congr (h1.mono fun i e => by rw [e]; rfl) (rel_calcFixedPosition hp hx ho h)
  | fixedRotation P =>
    obtain ⟨p, h1, hp⟩ := hk
    exact relf_congr (h1.mono fun i e => by rw [e]; rfl) (rel_calcFixedRotation hp hx ho h)
  | line P =>
    obtain ⟨p, h1, hp⟩ := hk
    exact relf_congr (h1.mono fun i e => by rw [e]; rfl) (rel_calcLine hp hx ho h)
  | link P =>
    obtain ⟨p, h1, hp⟩ := hk
    exact relf_congr (h1.mono fun i e => by rw [e]; rfl) (rel_calcLink hp hx ho h)
  | rolling P =>
    obtain ⟨p, h1, hp⟩ := hk
    exact relf_congr (h1.mono fun i e => by rw [e]; rfl) (rel_calcRolling hp hx ho h)
  | constantRotation P =>
    obtain ⟨p, h1, hp⟩ := hk
    exact relf_congr (h1.mono fun i e => by rw [e]; rfl) (relf_pure (hp.calculate ho))
  | clutch P =>
    obtain ⟨p, h1, hp⟩ := hk
    exact relf_congr (h1.mono fun i e => by rw [e]; rfl) (relf_pure (hp.calculate ho))
  | rotationFriction P =>
    obtain ⟨p, h1, hp⟩ := hk
    exact relf_congr (h1.mono fun i e => by rw [e]; rfl) (rel_calcRotationFriction hp hx ho)
  | simpleGear P =>
    obtain ⟨p, h1, hp⟩ := hk
    exact relf_congr (h1.mono fun i e => by rw [e]; rfl) (relf_pure (hp.calculate ho))
  | custom f => exact hk.elim

/-- Constraints of the same shape with close numbers. -/
structure NCon (l : Filter ι) (c : ∀ i, Con (F i)) (C : Con ℝ) : Prop where
  kind : NKind l (fun i => (c i).kind) C.kind
  index : ∀ᶠ i in l, (c i).index = C.index
  bodyCount : ∀ᶠ i in l, (c i).bodyCount = C.bodyCount
  bodies : ∀ᶠ i in l, (c i).bodies = C.bodies
  F_x : ∀ j k, Near l (fun i => (c i).F_x j k) (C.F_x j k)
  F_y : ∀ j k, Near l (fun i => (c i).F_y j k) (C.F_y j k)
  F_t : ∀ j k, Near l (fun i => (c i).F_t j k) (C.F_t j k)
  rows : ∀ᶠ i in l, (c i).rows = C.rows

omit [Shrinks l F] in
theorem NCon.idx {c : ∀ i, Con (F i)} {C : Con ℝ} (h : NCon l c C) {bs : ∀ i, Nat → Body (F i)}
    {BS : Nat → Body ℝ} (hb : NBodies l bs BS) (k : Nat) :
    ∀ᶠ i in l, (c i).idx (bs i) k = C.idx BS k := by
  have key : ∀ p : Exec Ptr, ∀ᶠ i in l, (p >>= fun p => p.get >>= fun b =>
      (pure (bs i b).index : Exec Int)) = p >>= fun p => p.get >>= fun b => pure (BS b).index := by
    intro p
    cases p with
    | error e => exact Eventually.of_forall fun _ => rfl
    | ok p =>
      cases p with
      | null => exact Eventually.of_forall fun _ => rfl
      | uninit => exact Eventually.of_forall fun _ => rfl
      | obj b =>
        filter_upwards [(hb b).index] with i e
        show (pure (bs i b).index : Exec Int) = pure (BS b).index
        rw [e]
  filter_upwards [h.bodies, key (rd1 maxBodies C.bodies k)] with i e1 e2
  rw [Con.idx, Con.idx, e1]
  exact e2

end

end Scs
