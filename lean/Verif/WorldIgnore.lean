import Verif.TwinHist

/-!
# What the generic system does not read

The specification and the lemmas for C114: two programs for the generic system that differ in drive
speeds, torque and force limits and the bias factor only.
-/

namespace Scs

section
variable {α : Type} [Zero α] [Add α] [Mul α] [Sub α] [Neg α] [Fp α]

/-! ## Specification -/

/-- Two results of a constraint that agree in everything but the velocity bias and the limits. -/
structure Output.Agrees (o o' : Output α) : Prop where
  C : o'.C = o.C
  J : o'.J = o.J
  J_dot : o'.J_dot = o.J_dot
  ks : o'.ks = o.ks
  kd : o'.kd = o.kd

/-- Two constraints of the same class that differ in the speed of a drive, in torque or force limits
and in whether a gear is in neutral only; two constraints of a class derived outside the library may
differ in the velocity bias and the limits they compute. -/
def CKind.SameButDrive : CKind α → CKind α → Prop
  | .link p, .link p' => p' = { p with maxForce := p'.maxForce }
  | .constantRotation p, .constantRotation p' => p'.ks = p.ks ∧ p'.kd = p.kd
  | .clutch p, .clutch p' => p'.ks = p.ks ∧ p'.kd = p.kd
  | .rotationFriction p, .rotationFriction p' => p'.ks = p.ks ∧ p'.kd = p.kd
  | .simpleGear p, .simpleGear p' => p'.ratio = p.ratio ∧ p'.ks = p.ks ∧ p'.kd = p.kd
  | .custom f, .custom f' => ∀ idx o o' s, o.Agrees o' → Rel Output.Agrees (f idx o s) (f' idx o' s)
  | .base, .base => True
  | .fixedPosition p, .fixedPosition p' => p' = p
  | .fixedRotation p, .fixedRotation p' => p' = p
  | .line p, .line p' => p' = p
  | .rolling p, .rolling p' => p' = p
  | _, _ => False

/-- Two constraint objects that differ in those parameters only. -/
def Con.SameButDrive (x x' : Con α) : Prop :=
  x' = { x with kind := x'.kind } ∧ x.kind.SameButDrive x'.kind

/-- The same action of a program, up to those parameters and the bias factor. -/
def Op.SameButDrive : Op α → Op α → Prop
  | .newCon c x, .newCon c' x' => c' = c ∧ x.SameButDrive x'
  | .setCon c x, .setCon c' x' => c' = c ∧ x.SameButDrive x'
  | .setBias _, .setBias _ => True
  | op, op' => op' = op

/-- Two systems that differ in those parameters of constraints and the bias factor only. -/
def World.SameButDrive (w w' : World α) : Prop :=
  w' = { w with cons := w'.cons, bias := w'.bias } ∧ ∀ c, (w.cons c).SameButDrive (w'.cons c)

/-! ## One constraint -/

section
variable {o o' : Output α}

theorem Output.Agrees.setC (h : o.Agrees o') (i : Nat) (v : α) : (o.setC i v).Agrees (o'.setC i v) :=
  ⟨by simp only [Output.setC, h.C], h.J, h.J_dot, h.ks, h.kd⟩

theorem Output.Agrees.setJ (h : o.Agrees o') (i j : Nat) (v : α) :
    (o.setJ i j v).Agrees (o'.setJ i j v) :=
  ⟨h.C, by simp only [Output.setJ, h.J], h.J_dot, h.ks, h.kd⟩

theorem Output.Agrees.setJd (h : o.Agrees o') (i j : Nat) (v : α) :
    (o.setJd i j v).Agrees (o'.setJd i j v) :=
  ⟨h.C, h.J, by simp only [Output.setJd, h.J_dot], h.ks, h.kd⟩

theorem Output.Agrees.setKs (h : o.Agrees o') (i : Nat) (v : α) :
    (o.setKs i v).Agrees (o'.setKs i v) :=
  ⟨h.C, h.J, h.J_dot, by simp only [Output.setKs, h.ks], h.kd⟩

theorem Output.Agrees.setKd (h : o.Agrees o') (i : Nat) (v : α) :
    (o.setKd i v).Agrees (o'.setKd i v) :=
  ⟨h.C, h.J, h.J_dot, h.ks, by simp only [Output.setKd, h.kd]⟩

theorem Output.Agrees.setB (h : o.Agrees o') (i : Nat) (v v' : α) :
    (o.setB i v).Agrees (o'.setB i v') := ⟨h.C, h.J, h.J_dot, h.ks, h.kd⟩

theorem Output.Agrees.setL (h : o.Agrees o') (i j : Nat) (v v' : α) :
    (o.setL i j v).Agrees (o'.setL i j v') := ⟨h.C, h.J, h.J_dot, h.ks, h.kd⟩

theorem Output.Agrees.noLimits (h : o.Agrees o') : o.noLimits.Agrees o'.noLimits :=
  (((((h.setL 0 0 _ _).setL 0 1 _ _).setL 1 0 _ _).setL 1 1 _ _).setL 2 0 _ _).setL 2 1 _ _

end

local macro "agrees" h:term : tactic =>
  `(tactic| repeat with_reducible first
    | refine Output.Agrees.setJ ?_ _ _ _ | refine Output.Agrees.setJd ?_ _ _ _
    | refine Output.Agrees.setC ?_ _ _ | refine Output.Agrees.setKs ?_ _ _
    | refine Output.Agrees.setKd ?_ _ _ | refine Output.Agrees.setB ?_ _ _ _
    | refine Output.Agrees.setL ?_ _ _ _ _ | refine Output.Agrees.noLimits ?_
    | exact $h)

theorem CKind.SameButDrive.calculate {K K' : CKind α} (h : K.SameButDrive K') (idx : Nat → Exec Int)
    {o o' : Output α} (ho : o.Agrees o') (s : SysState α) :
    Rel Output.Agrees (K.calculate idx o s) (K'.calculate idx o' s) := by
  cases K <;> cases K' <;> first | exact h.elim | skip
  case base => exact ho
  case fixedPosition p p' =>
    obtain rfl : p' = p := h
    simp only [CKind.calculate, FixedPosition.calculate]
    iterate 5 refine rel_same _ fun _ _ => ?_
    show Output.Agrees _ _
    agrees ho
  case fixedRotation p p' =>
    obtain rfl : p' = p := h
    simp only [CKind.calculate, FixedRotation.calculate]
    iterate 2 refine rel_same _ fun _ _ => ?_
    show Output.Agrees _ _
    agrees ho
  case line p p' =>
    obtain rfl : p' = p := h
    simp only [CKind.calculate, Line.calculate]
    iterate 5 refine rel_same _ fun _ _ => ?_
    show Output.Agrees _ _
    agrees ho
  case link p p' =>
    have h : p' = { p with maxForce := p'.maxForce } := h
    rw [h]
    simp only [CKind.calculate, Link.calculate]
    iterate 10 refine rel_same _ fun _ _ => ?_
    show Output.Agrees _ _
    agrees ho
  case rolling p p' =>
    obtain rfl : p' = p := h
    simp only [CKind.calculate, Rolling.calculate]
    iterate 13 refine rel_same _ fun _ _ => ?_
    show Output.Agrees _ _
    agrees ho
  case constantRotation p p' =>
    obtain ⟨h1, h2⟩ := h
    show Output.Agrees _ _
    simp only [ConstantRotation.calculate, h1, h2]
    agrees ho
  case clutch p p' =>
    obtain ⟨h1, h2⟩ := h
    show Output.Agrees _ _
    simp only [Clutch.calculate, h1, h2]
    agrees ho
  case rotationFriction p p' =>
    obtain ⟨h1, h2⟩ := h
    simp only [CKind.calculate, RotationFriction.calculate, h1, h2]
    refine rel_same _ fun _ _ => ?_
    show Output.Agrees _ _
    agrees ho
  case simpleGear p p' =>
    obtain ⟨h1, h2, h3⟩ := h
    show Output.Agrees _ _
    simp only [SimpleGear.calculate, h1, h2, h3]
    by_cases n : p.neutral <;> by_cases n' : p'.neutral <;> simp only [n, n', if_true, if_false] <;>
    refine ⟨?_, ?_, ?_, ?_, ?_⟩ <;>
    simp only [Output.noLimits, Output.setJ, Output.setJd, Output.setKs, Output.setKd, Output.setC,
      Output.setB, Output.setL, ho.C, ho.J, ho.J_dot, ho.ks, ho.kd, Bool.false_eq_true, if_false]
  case custom f f' => exact h idx o o' s ho

/-! ## The assembly -/

/-- A system with other kinds of constraints and another bias factor. -/
def World.tune (w : World α) (k : Nat → CKind α) (b : α) : World α :=
  { w with cons := fun c => { w.cons c with kind := k c }, bias := b }

variable {w w' : World α} {k : Nat → CKind α} {b : α}

theorem World.SameButDrive.tune (h : w.SameButDrive w') : ∃ k b, w' = w.tune k b ∧
    ∀ c, (w.cons c).kind.SameButDrive (k c) := by
  refine ⟨fun c => (w'.cons c).kind, w'.bias, ?_, fun c => (h.2 c).2⟩
  rw [h.1]
  simp only [World.tune]
  congr 1
  funext c
  exact (h.2 c).1

theorem World.tune_same (hk : ∀ c, (w.cons c).kind.SameButDrive (k c)) (b : α) :
    w.SameButDrive (w.tune k b) := ⟨rfl, fun c => ⟨rfl, hk c⟩⟩

theorem genEntries_agrees {c c' : Con α} (ec : c' = { c with kind := c'.kind })
    {bodies : Nat → Body α} {o o' : Output α} (ho : o.Agrees o') (i jf : Nat) (mem : Store α) :
    genEntries c' bodies o' i jf mem = genEntries c bodies o i jf mem := by
  rw [ec]
  simp only [genEntries, ho.C, ho.J, ho.J_dot, ho.ks, ho.kd]
  rfl

/-- The assembly has reached the same memory and row. -/
def Asm.Agrees (q q' : Asm α) : Prop := q'.mem = q.mem ∧ q'.jf = q.jf ∧ q.out.Agrees q'.out

theorem World.tune_genCon (hk : ∀ c, (w.cons c).kind.SameButDrive (k c)) (s : SysState α) (j : Nat)
    {q q' : Asm α} (hq : q.Agrees q') :
    Rel Asm.Agrees (w.genCon s j q) ((w.tune k b).genCon s j q') := by
  simp only [World.genCon]
  refine rel_same _ fun id _ => ?_
  refine rel_bind ((hk id).calculate _ hq.2.2 s) fun out out' ho => ?_
  refine rel_for ⟨hq.1, hq.2.1, ho⟩ fun i _ a a' ha => ?_
  obtain ⟨a1, a2, a3⟩ := ha
  rw [a1, a2]
  refine rel_same _ fun m _ => ?_
  refine rel_eq (genEntries_agrees rfl ho _ _ _) fun m' _ => ?_
  exact ⟨rfl, rfl, a3⟩

theorem World.tune_genAssemble (hk : ∀ c, (w.cons c).kind.SameButDrive (k c)) (raw : Output α)
    (s : SysState α) (mem : Store α) :
    (w.tune k b).genAssemble raw s mem = w.genAssemble raw s mem := by
  refine eq_of_rel ?_
  simp only [World.genAssemble]
  iterate 5 refine rel_same _ fun _ _ => ?_
  refine rel_bind (R := Asm.Agrees) (rel_for ⟨rfl, rfl, ⟨rfl, rfl, rfl, rfl, rfl⟩⟩
    fun j _ q q' hq => w.tune_genCon hk s j hq) fun q q' hq => ?_
  exact hq.1.symm

theorem World.tune_genEval (hk : ∀ c, (w.cons c).kind.SameButDrive (k c)) (env : Env α) :
    (w.tune k b).genEval env = w.genEval env := by
  funext x s
  simp only [World.genEval, World.genConstraints, World.tune_genAssemble hk]
  rfl

theorem storeCon_tune (s : SysState α) (pos : Nat → Nat → Nat) (c : Con α) (K : CKind α) (jf : Nat) :
    Rel (fun z z' => z' = ({ z.1 with kind := K }, z.2)) (storeCon s pos c jf)
      (storeCon s pos { c with kind := K } jf) := by
  refine rel_for rfl fun j _ q q' hq => ?_
  subst hq
  refine rel_bind (R := fun z z' : Con α => z' = { z with kind := K }) (rel_for rfl
    fun k _ c c' hc => ?_) fun c c' hc => ?_
  · subst hc
    simp only [storeForce]
    iterate 6 refine rel_same _ fun _ _ => ?_
    exact rfl
  · subst hc; exact rfl

theorem World.tune_storeForces (s : SysState α) (pos : Nat → Nat → Nat) :
    Rel (fun z z' => z' = (z.1.tune k b, z.2)) (w.storeForces s pos)
      ((w.tune k b).storeForces s pos) := by
  refine rel_for rfl fun i _ q q' hq => ?_
  subst hq
  refine rel_same _ fun id _ => ?_
  refine rel_bind (storeCon_tune s pos (q.1.cons id) (k id) q.2) fun z z' hz => ?_
  subst hz
  show _ = _
  simp only [World.tune]
  congr 2
  funext c
  by_cases h : c = id
  · subst h; simp only [upd_same]
  · simp only [upd_other _ _ h]

theorem World.tune_storeBody (s : SysState α) (n : Nat) :
    Rel (fun v v' => v' = v.tune k b) (forN n (World.storeBody s) w)
      (forN n (World.storeBody s) (w.tune k b)) := by
  refine rel_for rfl fun i _ q q' hq => ?_
  subst hq
  simp only [World.storeBody]
  iterate 7 refine rel_same _ fun _ _ => ?_
  exact rfl

theorem World.tune_record (times : Scs.Prof → Int) :
    Rel (fun v v' => v' = v.tune k b) (w.record times) ((w.tune k b).record times) := by
  simp only [World.record]
  iterate 4 refine rel_same _ fun _ _ => ?_
  exact rfl

theorem World.tune_genProcess (hk : ∀ c, (w.cons c).kind.SameButDrive (k c)) (env : Env α) (dt : α)
    (steps : Int) : Rel (fun v v' => v' = v.tune k b) (w.genProcess env dt steps)
      ((w.tune k b).genProcess env dt steps) := by
  simp only [World.genProcess, World.genLoop, World.tune_genEval hk]
  refine rel_same _ fun s _ => ?_
  refine rel_same _ fun mem _ => ?_
  refine rel_same _ fun q _ => ?_
  refine rel_bind (World.tune_storeBody (w := { w with st := q.2.2, mem := q.1.mem, ode := q.2.1 })
    q.2.2 _) fun v v' hv => ?_
  subst hv
  refine rel_bind (World.tune_storeForces _ _) fun z z' hz => ?_
  subst hz
  exact World.tune_record _

theorem bind_eq_ok' {σ τ : Type} {x : Exec τ} {f : τ → Exec σ} {b : σ} (e : (x >>= f) = .ok b) :
    ∃ a, x = .ok a ∧ f a = .ok b := by
  cases x with
  | error r => cases e
  | ok a => exact ⟨a, rfl, e⟩

theorem World.genProcess_kind {v : World α} {env : Env α} {dt : α} {steps : Int}
    (e : w.genProcess env dt steps = .ok v) (c : Nat) : (v.cons c).kind = (w.cons c).kind := by
  simp only [World.genProcess] at e
  obtain ⟨s, _, e⟩ := bind_eq_ok' e
  obtain ⟨mem, _, e⟩ := bind_eq_ok' e
  obtain ⟨q, _, e⟩ := bind_eq_ok' e
  obtain ⟨v1, e1, e⟩ := bind_eq_ok' e
  obtain ⟨z, e2, e3⟩ := bind_eq_ok' e
  have key : ∀ {u u' : World α} {k : Nat → CKind α} {b : α},
      Rel (fun v v' => v' = v.tune k b) (.ok u) (.ok u') → u' = u.tune k b := fun h => h
  have r1 := World.tune_storeBody (k := fun c => (w.cons c).kind) (b := w.bias)
    (w := { w with st := q.2.2, mem := q.1.mem, ode := q.2.1 }) q.2.2 w.bodyCount
  change Rel _ _ (forN _ _ { w with st := q.2.2, mem := q.1.mem, ode := q.2.1 }) at r1
  have e1' : forN w.bodyCount (World.storeBody q.2.2)
      { w with st := q.2.2, mem := q.1.mem, ode := q.2.1 } = .ok v1 := e1
  rw [e1'] at r1
  have r1 : v1 = v1.tune (fun c => (w.cons c).kind) w.bias := r1
  have r2 := World.tune_storeForces (k := fun c => (w.cons c).kind) (b := w.bias) (w := v1) v1.st
    (fun jf _ => jf)
  rw [← r1, e2] at r2
  have r2 : z = (z.1.tune (fun c => (w.cons c).kind) w.bias, z.2) := r2
  have r3 := World.tune_record (k := fun c => (w.cons c).kind) (b := w.bias) (w := z.1) q.1.times
  have r2' : z.1 = z.1.tune (fun c => (w.cons c).kind) w.bias := congrArg Prod.fst r2
  rw [← r2', e3] at r3
  have r3 : v = v.tune (fun c => (w.cons c).kind) w.bias := r3
  rw [r3]
  rfl

/-- What `process` of the generic system does with two such systems: the same, and the constraints
keep their classes and parameters. -/
theorem World.SameButDrive.process (h : w.SameButDrive w') (env : Env α) (dt : α) (steps : Int) :
    Rel World.SameButDrive (w.process .gen env dt steps) (w'.process .gen env dt steps) := by
  obtain ⟨k, b, rfl, hk⟩ := h.tune
  have h1 := World.tune_genProcess (b := b) hk env dt steps
  change Rel _ (w.genProcess env dt steps) ((w.tune k b).genProcess env dt steps)
  have h2 : ∀ v, w.genProcess env dt steps = .ok v → ∀ c, (v.cons c).kind = (w.cons c).kind :=
    fun v e => World.genProcess_kind e
  cases e : w.genProcess env dt steps with
  | error r =>
    cases e' : (w.tune k b).genProcess env dt steps with
    | error r' => rw [e, e'] at h1; exact h1
    | ok v' => rw [e, e'] at h1; exact h1.elim
  | ok v =>
    cases e' : (w.tune k b).genProcess env dt steps with
    | error r' => rw [e, e'] at h1; exact h1.elim
    | ok v' =>
      rw [e, e'] at h1
      cases h1
      exact World.tune_same (fun c => by rw [h2 v e c]; exact hk c) b

theorem Con.SameButDrive.setIndex {x x' : Con α} (h : x.SameButDrive x') (i : Int) :
    Con.SameButDrive { x with index := i } { x' with index := i } := by
  refine ⟨?_, h.2⟩
  conv_lhs => rw [h.1]

theorem Con.SameButDrive.setBoth {x x' : Con α} (h : x.SameButDrive x') (i : Int) (n : Nat) :
    Con.SameButDrive { x with index := i, rows := n } { x' with index := i, rows := n } := by
  refine ⟨?_, h.2⟩
  conv_lhs => rw [h.1]

theorem Con.SameButDrive.index {x x' : Con α} (h : x.SameButDrive x') : x'.index = x.index := by
  rw [h.1]

theorem Con.SameButDrive.rows {x x' : Con α} (h : x.SameButDrive x') : x'.rows = x.rows := by
  rw [h.1]

theorem World.SameButDrive.con (h : w.SameButDrive w') (c : Nat) {x x' : Con α}
    (hx : x.SameButDrive x') :
    World.SameButDrive { w with cons := upd w.cons c x } { w' with cons := upd w'.cons c x' } := by
  refine ⟨?_, fun d => ?_⟩
  · conv_lhs => rw [h.1]
  · by_cases e : d = c
    · subst e; simp only [upd_same]; exact hx
    · simp only [upd_other _ _ e]; exact h.2 d

theorem Op.SameButDrive.run {op op' : Op α} (ho : op.SameButDrive op') (h : w.SameButDrive w') :
    Rel World.SameButDrive (op.run .gen w) (op'.run .gen w') := by
  unfold Op.SameButDrive at ho
  split at ho
  · obtain ⟨rfl, hx⟩ := ho
    exact h.con _ (hx.setIndex _)
  · obtain ⟨rfl, hx⟩ := ho
    simp only [Op.run]
    rw [(h.2 _).index, (h.2 _).rows]
    exact h.con _ (hx.setBoth _ _)
  · obtain ⟨cs, b, e⟩ : ∃ cs b, w' = { w with cons := cs, bias := b } := ⟨_, _, h.1⟩
    subst e
    exact ⟨rfl, h.2⟩
  · rename_i n1 n2 n3
    subst ho
    obtain ⟨cs, b, e⟩ : ∃ cs b, w' = { w with cons := cs, bias := b } := ⟨_, _, h.1⟩
    subst e
    cases op' with
    | process env dt steps => exact h.process env dt steps
    | addCon c =>
      exact World.SameButDrive.con (w := { w with cs := w.cs ++ [c] })
        (w' := { w with cs := w.cs ++ [c], cons := cs, bias := b }) ⟨rfl, h.2⟩ c ((h.2 c).setIndex _)
    | removeCon c =>
      simp only [Op.run, World.removeCon]
      refine rel_eq (by rw [(h.2 c).index]) fun q _ => ?_
      rw [(h.2 c).index]
      exact World.SameButDrive.con (w := { w with cs := q.1 })
        (w' := { w with cs := q.1, cons := cs, bias := b }) ⟨rfl, h.2⟩ q.2 ((h.2 q.2).setIndex _)
    | newCon c x => exact (n1 _ _ _ _ rfl rfl).elim
    | setCon c x => exact (n2 _ _ _ _ rfl rfl).elim
    | setBias x => exact (n3 _ _ rfl rfl).elim
    | removeBody c =>
      simp only [Op.run, World.removeBody]
      exact rel_same _ fun q _ => ⟨rfl, h.2⟩
    | removeGen c =>
      simp only [Op.run, World.removeGen]
      exact rel_same _ fun _ _ => rel_same _ fun _ _ => ⟨rfl, h.2⟩
    | init sle ode =>
      simp only [Op.run, World.initialize, World.genInit]
      exact rel_same _ fun _ _ => ⟨rfl, h.2⟩
    | _ => exact ⟨rfl, h.2⟩

theorem runAll_sameButDrive {ops ops' : List (Op α)} (ho : List.Forall₂ Op.SameButDrive ops ops')
    (h : w.SameButDrive w') : Rel World.SameButDrive (runAll .gen ops w) (runAll .gen ops' w') := by
  induction ho generalizing w w' with
  | nil => exact h
  | cons a _ ih => exact rel_bind (a.run h) fun v v' hv => ih hv

end

end Scs
