import Verif.TwinHist

/-!
# Which objects a system depends on

Two worlds that agree on the objects the program uses for a system, and may differ in all others.
-/

namespace Scs

/-! ## Specification -/

/-- The objects used for one system. -/
structure Own where
  bodies : Set Nat
  cons : Set Nat
  gens : Set Nat

section
variable {α : Type}

/-- The constraint is attached to no bodies but those listed. -/
def Con.AttachedIn (c : Con α) (o : Own) : Prop :=
  ∀ k, k < 2 → ∀ b, c.bodies k = .obj b → b ∈ o.bodies

/-- The force generator is attached to no bodies but those listed; one of the user looks at no
others. -/
def Gen.AttachedIn (o : Own) : Gen α → Prop
  | .gravity _ => True
  | .static p => ∀ b, p.body = .obj b → b ∈ o.bodies
  | .spring p => (∀ b, p.body1 = .obj b → b ∈ o.bodies) ∧ ∀ b, p.body2 = .obj b → b ∈ o.bodies
  | .motor p => (∀ b, p.body0 = .obj b → b ∈ o.bodies) ∧ ∀ b, p.body1 = .obj b → b ∈ o.bodies
  | .custom f => ∀ x y : Nat → Body α, (∀ b ∈ o.bodies, y b = x b) → f y = f x

/-- The action concerns the listed objects only. -/
def Op.In (o : Own) : Op α → Prop
  | .addBody b => b ∈ o.bodies
  | .removeBody b => b ∈ o.bodies
  | .addCon c => c ∈ o.cons
  | .removeCon c => c ∈ o.cons
  | .addGen g => g ∈ o.gens
  | .removeGen g => g ∈ o.gens
  | .newBody b _ => b ∈ o.bodies
  | .newCon c x => c ∈ o.cons ∧ x.AttachedIn o
  | .newGen g x => g ∈ o.gens ∧ x.AttachedIn o
  | .setBody b _ => b ∈ o.bodies
  | .setCon c x => c ∈ o.cons ∧ x.AttachedIn o
  | .setGen g x => g ∈ o.gens ∧ x.AttachedIn o
  | _ => True

/-- The system has registered listed objects only, and these are attached to listed bodies only. -/
structure World.In (w : World α) (o : Own) : Prop where
  rb : ∀ b ∈ w.rb, b ∈ o.bodies
  cs : ∀ c ∈ w.cs, c ∈ o.cons
  fg : ∀ g ∈ w.fg, g ∈ o.gens
  cons : ∀ c ∈ o.cons, (w.cons c).AttachedIn o
  gens : ∀ g ∈ o.gens, (w.gens g).AttachedIn o

/-- The same system and the same listed objects; other objects may differ in every respect. -/
structure World.AgreeOn (o : Own) (w w' : World α) : Prop where
  bodies : ∀ b ∈ o.bodies, w'.bodies b = w.bodies b
  cons : ∀ c ∈ o.cons, w'.cons c = w.cons c
  gens : ∀ g ∈ o.gens, w'.gens g = w.gens g ∧ w'.genIndex g = w.genIndex g
  system : w' = { w with
    bodies := w'.bodies, cons := w'.cons, gens := w'.gens, genIndex := w'.genIndex }

/-- The objects that are not listed are the same. -/
structure World.Spared (o : Own) (w w' : World α) : Prop where
  bodies : ∀ b, b ∉ o.bodies → w'.bodies b = w.bodies b
  cons : ∀ c, c ∉ o.cons → w'.cons c = w.cons c
  gens : ∀ g, g ∉ o.gens → w'.gens g = w.gens g ∧ w'.genIndex g = w.genIndex g

/-! ## Lemmas -/

variable {o : Own} {w w' u u' v v' : World α}

namespace World.AgreeOn

theorem rb (h : w.AgreeOn o w') : w'.rb = w.rb := by rw [h.system]
theorem cs (h : w.AgreeOn o w') : w'.cs = w.cs := by rw [h.system]
theorem fg (h : w.AgreeOn o w') : w'.fg = w.fg := by rw [h.system]
theorem st (h : w.AgreeOn o w') : w'.st = w.st := by rw [h.system]
theorem mem (h : w.AgreeOn o w') : w'.mem = w.mem := by rw [h.system]
theorem ring (h : w.AgreeOn o w') : w'.ring = w.ring := by rw [h.system]
theorem frame (h : w.AgreeOn o w') : w'.frame = w.frame := by rw [h.system]
theorem sle (h : w.AgreeOn o w') : w'.sle = w.sle := by rw [h.system]
theorem ode (h : w.AgreeOn o w') : w'.ode = w.ode := by rw [h.system]
theorem nsv (h : w.AgreeOn o w') : w'.nsv = w.nsv := by rw [h.system]
theorem bias (h : w.AgreeOn o w') : w'.bias = w.bias := by rw [h.system]
theorem t (h : w.AgreeOn o w') : w'.t = w.t := by rw [h.system]

theorem refl (w : World α) : w.AgreeOn o w :=
  ⟨fun _ _ => rfl, fun _ _ => rfl, fun _ _ => ⟨rfl, rfl⟩, rfl⟩

theorem symm (h : w.AgreeOn o w') : w'.AgreeOn o w :=
  ⟨fun b hb => (h.bodies b hb).symm, fun b hb => (h.cons b hb).symm,
    fun b hb => ⟨(h.gens b hb).1.symm, (h.gens b hb).2.symm⟩, by rw [h.system]⟩

theorem trans (h : w.AgreeOn o v) (h' : v.AgreeOn o w') : w.AgreeOn o w' :=
  ⟨fun b hb => (h'.bodies b hb).trans (h.bodies b hb),
    fun b hb => (h'.cons b hb).trans (h.cons b hb),
    fun b hb => ⟨(h'.gens b hb).1.trans (h.gens b hb).1, (h'.gens b hb).2.trans (h.gens b hb).2⟩,
    by rw [h'.system, h.system]⟩

theorem inside (h : w.AgreeOn o w') (hw : w.In o) : w'.In o where
  rb := by rw [h.rb]; exact hw.rb
  cs := by rw [h.cs]; exact hw.cs
  fg := by rw [h.fg]; exact hw.fg
  cons := fun c hc => by rw [h.cons c hc]; exact hw.cons c hc
  gens := fun c hc => by rw [(h.gens c hc).1]; exact hw.gens c hc

end World.AgreeOn

theorem World.Spared.refl (w : World α) : w.Spared o w :=
  ⟨fun _ _ => rfl, fun _ _ => rfl, fun _ _ => ⟨rfl, rfl⟩⟩

theorem World.Spared.trans (h : w.Spared o v) (h' : v.Spared o w') : w.Spared o w' :=
  ⟨fun b hb => (h'.bodies b hb).trans (h.bodies b hb),
    fun b hb => (h'.cons b hb).trans (h.cons b hb),
    fun b hb => ⟨(h'.gens b hb).1.trans (h.gens b hb).1, (h'.gens b hb).2.trans (h.gens b hb).2⟩⟩

theorem vecAt_bind_congr {σ : Type} {l : List Nat} {i : Int} {f g : Nat → Exec σ}
    (h : ∀ x ∈ l, f x = g x) : (vecAt l i >>= f) = (vecAt l i >>= g) := by
  cases e : vecAt l i with
  | error e => rfl
  | ok x => exact h x (vecAt_mem e).2.2

variable [Zero α] [Add α] [Mul α] [Sub α] [Neg α] [Fp α]

theorem idx_local {c : Con α} (hc : c.AttachedIn o) {x y : Nat → Body α}
    (h : ∀ b ∈ o.bodies, y b = x b) : c.idx y = c.idx x := by
  funext k
  rw [Con.idx, Con.idx, rd1]
  by_cases hk : k < maxBodies
  · simp only [if_pos hk, ok_bind]
    cases e : c.bodies k with
    | null => rfl
    | uninit => rfl
    | obj b => simp only [Ptr.get, ok_bind]; rw [h b (hc k hk b e)]
  · simp only [if_neg hk]; rfl

theorem gen_local {g : Gen α} (hg : g.AttachedIn o) {x y : Nat → Body α}
    (h : ∀ b ∈ o.bodies, y b = x b) : g.apply y = g.apply x := by
  funext s
  cases g with
  | gravity g => rfl
  | static p =>
    simp only [Gen.apply]
    cases e : p.body with
    | null => rfl
    | uninit => rfl
    | obj b => simp only [Ptr.get, ok_bind]; rw [h b (hg b e)]
  | spring p =>
    simp only [Gen.apply, Spring.apply]
    cases e1 : p.body1 <;> try rfl
    cases e2 : p.body2 <;> try rfl
    rename_i b1 b2
    have h1 := h b1 (hg.1 b1 e1)
    have h2 := h b2 (hg.2 b2 e2)
    simp only [Ptr.get, Ptr.isNull, ok_bind, Spring.pull, springEnd, h1, h2]
  | motor p =>
    simp only [Gen.apply, Motor.apply]
    cases e1 : p.body0 <;> try rfl
    rename_i b1
    have h1 := h b1 (hg.1 b1 e1)
    cases e2 : p.body1 with
    | null => simp only [Ptr.get, ok_bind, h1]; rfl
    | uninit => simp only [Ptr.get, ok_bind, h1]; rfl
    | obj b2 => simp only [Ptr.get, ok_bind, h1, h b2 (hg.2 b2 e2)]
  | custom f => simp only [Gen.apply]; rw [hg x y h]

section
variable (h : w.AgreeOn o w') (hw : w.In o)
include h

theorem bodyCount_local : w'.bodyCount = w.bodyCount := by
  rw [World.bodyCount, World.bodyCount, h.rb]

theorem conCount_local : w'.conCount = w.conCount := by
  rw [World.conCount, World.conCount, h.cs]

include hw

theorem popBody_local : w'.popBody = w.popBody := by
  funext i s
  rw [World.popBody, World.popBody, h.rb]
  exact vecAt_bind_congr fun x hx => by rw [h.bodies x (hw.rb x hx)]

theorem fullCount_local : w'.fullCount = w.fullCount := by
  rw [World.fullCount, World.fullCount, h.cs]
  exact List.foldl_ext _ _ _ fun n c hc => by rw [h.cons c (hw.cs c hc)]

theorem popIndex_local : w'.popIndex = w.popIndex := by
  funext s
  rw [World.popIndex, World.popIndex, conCount_local h]
  refine forN_congr (fun i _ q => ?_) _
  rw [h.cs]
  refine congrArg _ (funext fun s => ?_)
  exact vecAt_bind_congr fun c hc => by rw [h.cons c (hw.cs c hc)]

theorem populateState_local : w'.populateState = w.populateState := by
  rw [World.populateState, World.populateState, bodyCount_local h, fullCount_local h hw, h.st,
    popBody_local h hw, popIndex_local h hw]

theorem popMass_local : w'.popMass = w.popMass := by
  funext i s
  rw [World.popMass, World.popMass, h.rb]
  exact vecAt_bind_congr fun x hx => by rw [h.bodies x (hw.rb x hx)]

theorem populateMass_local (mem : Store α) : w'.populateMass mem = w.populateMass mem := by
  rw [World.populateMass, World.populateMass, bodyCount_local h, popMass_local h hw]

theorem processForces_local : w'.processForces = w.processForces := by
  funext s
  rw [World.processForces, World.processForces, bodyCount_local h, World.genCount, World.genCount,
    h.fg]
  refine congrArg _ (funext fun s => forN_congr (fun i _ q => ?_) _)
  refine vecAt_bind_congr fun g hg => ?_
  rw [(h.gens g (hw.fg g hg)).1, gen_local (hw.gens g (hw.fg g hg)) h.bodies]

theorem addReactions_local : w'.addReactions = w.addReactions := by
  funext s
  rw [World.addReactions, World.addReactions, conCount_local h, h.cs]
  refine forN_congr (fun i _ q => ?_) _
  refine vecAt_bind_congr fun c hc => ?_
  rw [h.cons c (hw.cs c hc)]
  simp only [addReaction, idx_local (hw.cons c (hw.cs c hc)) h.bodies]

theorem applyReactions_local : w'.applyReactions = w.applyReactions := by
  funext mem s
  rw [World.applyReactions, World.applyReactions, bodyCount_local h, fullCount_local h hw,
    addReactions_local h hw]

theorem optCon_local (dt : α) (s : SysState α) : w'.optCon dt s = w.optCon dt s := by
  funext j q
  rw [World.optCon, World.optCon, h.cs]
  refine vecAt_bind_congr fun c hc => ?_
  have hi := idx_local (hw.cons c (hw.cs c hc)) h.bodies
  simp only [h.cons c (hw.cs c hc), optRow, optBlocks, optEntries, hi]

theorem genCon_local (s : SysState α) : w'.genCon s = w.genCon s := by
  funext j q
  rw [World.genCon, World.genCon, h.cs]
  refine vecAt_bind_congr fun c hc => ?_
  have hi := idx_local (hw.cons c (hw.cs c hc)) h.bodies
  simp only [h.cons c (hw.cs c hc), genBlocks, genEntries, hi]

theorem optConstraints_local (dt : α) (raw : Output α) :
    w'.optConstraints dt raw = w.optConstraints dt raw := by
  funext mem s
  rw [World.optConstraints, World.optConstraints, World.optAssemble, World.optAssemble,
    bodyCount_local h, fullCount_local h hw, conCount_local h, optCon_local h hw, h.bias,
    applyReactions_local h hw]
  simp only [World.optSolve, h.sle]

theorem genConstraints_local (raw : Output α) :
    w'.genConstraints raw = w.genConstraints raw := by
  funext mem s
  simp only [World.genConstraints, World.genAssemble, bodyCount_local h, fullCount_local h hw,
    conCount_local h, genCon_local h hw, applyReactions_local h hw, World.genSolve, h.sle]

theorem optEval_local (env : Env α) (dt : α) : w'.optEval env dt = w.optEval env dt := by
  funext x s
  rw [World.optEval, World.optEval, processForces_local h hw]
  simp only [optConstraints_local h hw]

theorem genEval_local (env : Env α) : w'.genEval env = w.genEval env := by
  funext x s
  rw [World.genEval, World.genEval, processForces_local h hw]
  simp only [genConstraints_local h hw]

theorem optLoop_local (env : Env α) (dt : α) (steps : Int) :
    w'.optLoop env dt steps = w.optLoop env dt steps := by
  funext s mem
  rw [World.optLoop, World.optLoop, h.nsv]
  simp only [optEval_local h hw]

theorem genLoop_local (env : Env α) (dt : α) (steps : Int) :
    w'.genLoop env dt steps = w.genLoop env dt steps := by
  funext s mem
  rw [World.genLoop, World.genLoop, h.ode]
  simp only [genEval_local h hw]

end

/-- Both runs do the same to the listed objects and nothing to the others. -/
structure Confined (o : Own) (w w' v v' : World α) : Prop where
  agree : v.AgreeOn o v'
  inside : v.In o
  left : w.Spared o v
  right : w'.Spared o v'

omit [Zero α] [Add α] [Mul α] [Sub α] [Neg α] [Fp α] in
theorem Confined.trans (h : Confined o w w' u u') (h' : Confined o u u' v v') : Confined o w w' v v' :=
  ⟨h'.agree, h'.inside, h.left.trans h'.left, h.right.trans h'.right⟩

omit [Zero α] [Add α] [Mul α] [Sub α] [Neg α] [Fp α] in
theorem Confined.start (h : w.AgreeOn o w') (hw : w.In o) : Confined o w w' w w' :=
  ⟨h, hw, .refl w, .refl w'⟩

section
variable (h : w.AgreeOn o w') (hw : w.In o)
include h hw

omit [Zero α] [Add α] [Mul α] [Sub α] [Neg α] [Fp α] in
theorem putBody_local {b : Nat} (hb : b ∈ o.bodies) (x : Body α) :
    Confined o w w' { w with bodies := upd w.bodies b x } { w' with bodies := upd w'.bodies b x } where
  agree :=
    { bodies := fun c hc => by
        by_cases e : c = b
        · subst e; simp only [upd_same]
        · simp only [upd_other _ _ e]; exact h.bodies c hc
      cons := h.cons
      gens := h.gens
      system := by rw [h.system] }
  inside := ⟨hw.rb, hw.cs, hw.fg, hw.cons, hw.gens⟩
  left := ⟨fun c hc => upd_other _ _ (fun e => hc (e ▸ hb)), fun _ _ => rfl, fun _ _ => ⟨rfl, rfl⟩⟩
  right := ⟨fun c hc => upd_other _ _ (fun e => hc (e ▸ hb)), fun _ _ => rfl, fun _ _ => ⟨rfl, rfl⟩⟩

omit [Zero α] [Add α] [Mul α] [Sub α] [Neg α] [Fp α] in
theorem putCon_local {b : Nat} (hb : b ∈ o.cons) {x : Con α} (hx : x.AttachedIn o) :
    Confined o w w' { w with cons := upd w.cons b x } { w' with cons := upd w'.cons b x } where
  agree :=
    { bodies := h.bodies
      cons := fun c hc => by
        by_cases e : c = b
        · subst e; simp only [upd_same]
        · simp only [upd_other _ _ e]; exact h.cons c hc
      gens := h.gens
      system := by rw [h.system] }
  inside := ⟨hw.rb, hw.cs, hw.fg, fun c hc => by
    by_cases e : c = b
    · subst e; simpa only [upd_same] using hx
    · simp only [upd_other _ _ e]; exact hw.cons c hc, hw.gens⟩
  left := ⟨fun _ _ => rfl, fun c hc => upd_other _ _ (fun e => hc (e ▸ hb)), fun _ _ => ⟨rfl, rfl⟩⟩
  right := ⟨fun _ _ => rfl, fun c hc => upd_other _ _ (fun e => hc (e ▸ hb)), fun _ _ => ⟨rfl, rfl⟩⟩

omit [Zero α] [Add α] [Mul α] [Sub α] [Neg α] [Fp α] in
theorem putGen_local {b : Nat} (hb : b ∈ o.gens) {x : Gen α} (hx : x.AttachedIn o)
    (i : Option Int) :
    Confined o w w' { w with gens := upd w.gens b x, genIndex := upd w.genIndex b i }
      { w' with gens := upd w'.gens b x, genIndex := upd w'.genIndex b i } where
  agree :=
    { bodies := h.bodies
      cons := h.cons
      gens := fun c hc => by
        by_cases e : c = b
        · subst e; simp only [upd_same, and_self]
        · simp only [upd_other _ _ e]; exact h.gens c hc
      system := by rw [h.system] }
  inside := ⟨hw.rb, hw.cs, hw.fg, hw.cons, fun c hc => by
    by_cases e : c = b
    · subst e; simpa only [upd_same] using hx
    · simp only [upd_other _ _ e]; exact hw.gens c hc⟩
  left := ⟨fun _ _ => rfl, fun _ _ => rfl, fun c hc =>
    ⟨upd_other _ _ (fun e => hc (e ▸ hb)), upd_other _ _ (fun e => hc (e ▸ hb))⟩⟩
  right := ⟨fun _ _ => rfl, fun _ _ => rfl, fun c hc =>
    ⟨upd_other _ _ (fun e => hc (e ▸ hb)), upd_other _ _ (fun e => hc (e ▸ hb))⟩⟩

omit [Zero α] [Add α] [Mul α] [Sub α] [Neg α] [Fp α] in
theorem setGen_local {b : Nat} (hb : b ∈ o.gens) {x : Gen α} (hx : x.AttachedIn o) :
    Confined o w w' { w with gens := upd w.gens b x } { w' with gens := upd w'.gens b x } where
  agree :=
    { bodies := h.bodies
      cons := h.cons
      gens := fun c hc => by
        by_cases e : c = b
        · subst e; exact ⟨by simp only [upd_same], (h.gens c hc).2⟩
        · simp only [upd_other _ _ e]; exact h.gens c hc
      system := by rw [h.system] }
  inside := ⟨hw.rb, hw.cs, hw.fg, hw.cons, fun c hc => by
    by_cases e : c = b
    · subst e; simpa only [upd_same] using hx
    · simp only [upd_other _ _ e]; exact hw.gens c hc⟩
  left := ⟨fun _ _ => rfl, fun _ _ => rfl, fun c hc => ⟨upd_other _ _ (fun e => hc (e ▸ hb)), rfl⟩⟩
  right := ⟨fun _ _ => rfl, fun _ _ => rfl, fun c hc => ⟨upd_other _ _ (fun e => hc (e ▸ hb)), rfl⟩⟩

omit [Zero α] [Add α] [Mul α] [Sub α] [Neg α] [Fp α] in
theorem setGenIndex_local {b : Nat} (hb : b ∈ o.gens) (i : Int) :
    Confined o w w' (w.setGenIndex b i) (w'.setGenIndex b i) where
  agree :=
    { bodies := h.bodies
      cons := h.cons
      gens := fun c hc => by
        simp only [World.setGenIndex]
        by_cases e : c = b
        · subst e; exact ⟨(h.gens c hc).1, by simp only [upd_same]⟩
        · simp only [upd_other _ _ e]; exact h.gens c hc
      system := by simp only [World.setGenIndex]; rw [h.system] }
  inside := ⟨hw.rb, hw.cs, hw.fg, hw.cons, hw.gens⟩
  left := ⟨fun _ _ => rfl, fun _ _ => rfl, fun c hc => ⟨rfl, upd_other _ _ (fun e => hc (e ▸ hb))⟩⟩
  right := ⟨fun _ _ => rfl, fun _ _ => rfl, fun c hc => ⟨rfl, upd_other _ _ (fun e => hc (e ▸ hb))⟩⟩

omit [Zero α] [Add α] [Mul α] [Sub α] [Neg α] [Fp α] in
theorem setBodyIndex_local {b : Nat} (hb : b ∈ o.bodies) (i : Int) :
    Confined o w w' (w.setBodyIndex b i) (w'.setBodyIndex b i) := by
  rw [World.setBodyIndex, World.setBodyIndex, h.bodies b hb]
  exact putBody_local h hw hb _

omit [Zero α] [Add α] [Mul α] [Sub α] [Neg α] [Fp α] in
theorem setConIndex_local {b : Nat} (hb : b ∈ o.cons) (i : Int) :
    Confined o w w' (w.setConIndex b i) (w'.setConIndex b i) := by
  rw [World.setConIndex, World.setConIndex, h.cons b hb]
  exact putCon_local h hw hb (hw.cons b hb)

theorem storeBody_local (s : SysState α) (i : Nat) :
    Rel (Confined o w w') (World.storeBody s i w) (World.storeBody s i w') := by
  rw [World.storeBody, World.storeBody]
  refine rel_eq (by rw [h.rb]) fun id hid => ?_
  have hb := hw.rb id (vecAt_mem hid).2.2
  refine rel_same _ fun _ _ => rel_same _ fun _ _ => rel_same _ fun _ _ => rel_same _ fun _ _ =>
    rel_same _ fun _ _ => rel_same _ fun _ _ => ?_
  rw [h.bodies id hb]
  dsimp only
  exact putBody_local h hw hb _

theorem storeBodies_local (s : SysState α) (n : Nat) :
    Rel (Confined o w w') (forN n (World.storeBody s) w) (forN n (World.storeBody s) w') := by
  refine rel_for (Confined.start h hw) fun i _ u u' hu => ?_
  exact (storeBody_local hu.agree hu.inside s i).mono fun _ _ hv => hu.trans hv

theorem storeForces_local (s : SysState α) (pos : Nat → Nat → Nat) :
    Rel (fun a a' => Confined o w w' a.1 a'.1 ∧ a'.2 = a.2) (w.storeForces s pos)
      (w'.storeForces s pos) := by
  rw [World.storeForces, World.storeForces, conCount_local h]
  refine rel_for ⟨Confined.start h hw, rfl⟩ fun i _ a a' ha => ?_
  obtain ⟨u, n⟩ := a
  obtain ⟨u', n'⟩ := a'
  obtain ⟨hu, e⟩ := ha
  obtain rfl : n' = n := e
  dsimp only at hu ⊢
  refine rel_eq (by rw [hu.agree.cs]) fun id hid => ?_
  have hc := hu.inside.cs id (vecAt_mem hid).2.2
  rw [hu.agree.cons id hc]
  refine rel_same _ fun z hz => ?_
  refine ⟨hu.trans (putCon_local hu.agree hu.inside hc ?_), rfl⟩
  have := (storeCon_wp s pos (u.cons id) n').of_eq hz
  have hb : z.1.bodies = (u.cons id).bodies := by rw [this.1]
  intro k hk b e
  rw [hb] at e
  exact hu.inside.cons id hc k hk b e

omit [Zero α] [Add α] [Mul α] [Sub α] [Neg α] [Fp α] in
theorem record_local (times : Prof → Int) :
    Rel (Confined o w w') (w.record times) (w'.record times) := by
  rw [World.record, World.record]
  simp only [h.ring, h.frame]
  refine rel_same _ fun _ _ => rel_same _ fun _ _ => rel_same _ fun _ _ => rel_same _ fun _ _ => ?_
  refine ⟨⟨h.bodies, h.cons, h.gens, ?_⟩, ⟨hw.rb, hw.cs, hw.fg, hw.cons, hw.gens⟩,
    ⟨fun _ _ => rfl, fun _ _ => rfl, fun _ _ => ⟨rfl, rfl⟩⟩,
    ⟨fun _ _ => rfl, fun _ _ => rfl, fun _ _ => ⟨rfl, rfl⟩⟩⟩
  rw [h.system]

omit [Zero α] [Add α] [Mul α] [Sub α] [Neg α] [Fp α] in
/-- The same change of the members of the system in both runs. -/
theorem members_local (f : World α → World α)
    (hf : ∀ u : World α, w.AgreeOn o u → f u = { f w with
      bodies := u.bodies, cons := u.cons, gens := u.gens, genIndex := u.genIndex })
    (hin : (f w).In o) : Confined o w w' (f w) (f w') := by
  have e := hf w' h
  have e0 := hf w (.refl w)
  refine ⟨⟨?_, ?_, ?_, ?_⟩, hin, ⟨?_, ?_, ?_⟩, ⟨?_, ?_, ?_⟩⟩
  · rw [e, e0]; exact h.bodies
  · rw [e, e0]; exact h.cons
  · rw [e, e0]; exact h.gens
  · rw [e]
  · rw [e0]; exact fun _ _ => rfl
  · rw [e0]; exact fun _ _ => rfl
  · rw [e0]; exact fun _ _ => ⟨rfl, rfl⟩
  · rw [e]; exact fun _ _ => rfl
  · rw [e]; exact fun _ _ => rfl
  · rw [e]; exact fun _ _ => ⟨rfl, rfl⟩

theorem optProcess_local (env : Env α) (dt : α) (steps : Int) :
    Rel (Confined o w w') (w.optProcess env dt steps) (w'.optProcess env dt steps) := by
  rw [World.optProcess, World.optProcess]
  refine rel_eq (populateState_local h hw) fun s _ => ?_
  refine rel_eq (by rw [populateMass_local h hw, h.mem]) fun mem _ => ?_
  refine rel_eq (by rw [optLoop_local h hw]) fun q _ => ?_
  have h1 : Confined o w w' { w with st := q.2.2, mem := q.1.mem, nsv := q.2.1 }
      { w' with st := q.2.2, mem := q.1.mem, nsv := q.2.1 } :=
    members_local h hw (fun u => { u with st := q.2.2, mem := q.1.mem, nsv := q.2.1 })
      (fun u hu => by dsimp only; rw [hu.system]) ⟨hw.rb, hw.cs, hw.fg, hw.cons, hw.gens⟩
  refine rel_bind (R := Confined o w w') ?_ fun u u' hu => ?_
  · rw [World.propagateResults, World.propagateResults]
    refine rel_bind (R := Confined o w w') ?_ fun u u' hu => ?_
    · rw [bodyCount_local h1.agree]
      exact (storeBodies_local h1.agree h1.inside _ _).mono fun _ _ hv => h1.trans hv
    refine rel_bind (storeForces_local hu.agree hu.inside _ _) fun a a' ha => hu.trans ha.1
  refine rel_bind (record_local hu.agree hu.inside _) fun v v' hv => ?_
  refine (hu.trans hv).trans ?_
  exact members_local hv.agree hv.inside (fun u => { u with t := u.t + dt })
    (fun u hu => by dsimp only; rw [hu.system]) ⟨hv.inside.rb, hv.inside.cs, hv.inside.fg,
      hv.inside.cons, hv.inside.gens⟩

theorem genProcess_local (env : Env α) (dt : α) (steps : Int) :
    Rel (Confined o w w') (w.genProcess env dt steps) (w'.genProcess env dt steps) := by
  rw [World.genProcess, World.genProcess]
  refine rel_eq (populateState_local h hw) fun s _ => ?_
  refine rel_eq (by rw [populateMass_local h hw, h.mem]) fun mem _ => ?_
  refine rel_eq (by rw [genLoop_local h hw]) fun q _ => ?_
  have h1 : Confined o w w' { w with st := q.2.2, mem := q.1.mem, ode := q.2.1 }
      { w' with st := q.2.2, mem := q.1.mem, ode := q.2.1 } :=
    members_local h hw (fun u => { u with st := q.2.2, mem := q.1.mem, ode := q.2.1 })
      (fun u hu => by dsimp only; rw [hu.system]) ⟨hw.rb, hw.cs, hw.fg, hw.cons, hw.gens⟩
  refine rel_bind (R := Confined o w w') ?_ fun u u' hu => ?_
  · rw [bodyCount_local h1.agree]
    exact (storeBodies_local h1.agree h1.inside _ _).mono fun _ _ hv => h1.trans hv
  rw [hu.agree.st]
  refine rel_bind (storeForces_local hu.agree hu.inside _ _) fun a a' ha => ?_
  exact (record_local ha.1.agree ha.1.inside _).mono fun _ _ hv => (hu.trans ha.1).trans hv

theorem genInit_local (sle : Option (Solver α)) (ode : Option (Ode α)) :
    Rel (Confined o w w') (w.genInit sle ode) (w'.genInit sle ode) := by
  rw [World.genInit, World.genInit]
  refine rel_eq (by rw [h.mem]) fun mem _ => ?_
  exact members_local h hw (fun u => { u with sle := sle, ode := ode, mem := mem })
    (fun u hu => by dsimp only; rw [hu.system]) ⟨hw.rb, hw.cs, hw.fg, hw.cons, hw.gens⟩

end

theorem unregister_mem {l : List Nat} {i : Int} {q : List Nat × Nat} (e : unregister l i = .ok q) :
    (∀ x ∈ q.1, x ∈ l) ∧ q.2 ∈ l := by
  rw [unregister, vecBack] at e
  cases hl : l.getLast? with
  | none => rw [hl] at e; cases e
  | some y =>
    have hy : y ∈ l := List.mem_of_getLast? hl
    rw [hl] at e
    simp only [ok_bind] at e
    rw [vecSet] at e
    split at e
    · simp only [ok_bind] at e
      cases hv : vecAt (l.set i.toNat y) i with
      | error e' => rw [hv] at e; cases e
      | ok z =>
        rw [hv] at e
        cases e
        have hs : ∀ x ∈ l.set i.toNat y, x ∈ l := by
          intro x hx
          rcases List.mem_or_eq_of_mem_set hx with h | h
          · exact h
          · exact h ▸ hy
        exact ⟨fun x hx => hs x (List.dropLast_subset _ hx), hs z (vecAt_mem hv).2.2⟩
    · cases e

/-- One action. -/
theorem op_local (cls : Cls) {op : Op α} (ho : op.In o) (h : w.AgreeOn o w') (hw : w.In o) :
    Rel (Confined o w w') (op.run cls w) (op.run cls w') := by
  cases op with
  | addBody b =>
    have h1 : Confined o w w' { w with rb := w.rb ++ [b] } { w' with rb := w'.rb ++ [b] } :=
      members_local h hw (fun u => { u with rb := u.rb ++ [b] })
        (fun u hu => by dsimp only; rw [hu.system])
        ⟨fun c hc => (List.mem_append.1 hc).elim (hw.rb c)
          (fun hc => List.mem_singleton.1 hc ▸ ho), hw.cs, hw.fg, hw.cons, hw.gens⟩
    show Confined o w w' (w.addBody b) (w'.addBody b)
    rw [World.addBody, World.addBody]
    have := setBodyIndex_local h1.agree h1.inside ho (((w.rb ++ [b]).length : Int) - 1)
    dsimp only
    rw [show ((w'.rb ++ [b]).length : Int) = (w.rb ++ [b]).length from by rw [h.rb]]
    exact h1.trans this
  | removeBody b =>
    show Rel _ (w.removeBody b) (w'.removeBody b)
    simp only [World.removeBody]
    rw [h.bodies b ho]
    refine rel_eq (by rw [h.rb]) fun q hq => ?_
    have hm := unregister_mem hq
    have h1 : Confined o w w' { w with rb := q.1 } { w' with rb := q.1 } :=
      members_local h hw (fun u => { u with rb := q.1 })
        (fun u hu => by dsimp only; rw [hu.system])
        ⟨fun c hc => hw.rb c (hm.1 c hc), hw.cs, hw.fg, hw.cons, hw.gens⟩
    exact h1.trans (setBodyIndex_local h1.agree h1.inside (hw.rb _ hm.2) _)
  | addCon b =>
    have h1 : Confined o w w' { w with cs := w.cs ++ [b] } { w' with cs := w'.cs ++ [b] } :=
      members_local h hw (fun u => { u with cs := u.cs ++ [b] })
        (fun u hu => by dsimp only; rw [hu.system])
        ⟨hw.rb, fun c hc => (List.mem_append.1 hc).elim (hw.cs c)
          (fun hc => List.mem_singleton.1 hc ▸ ho), hw.fg, hw.cons, hw.gens⟩
    show Confined o w w' (w.addCon b) (w'.addCon b)
    rw [World.addCon, World.addCon]
    have := setConIndex_local h1.agree h1.inside ho (((w.cs ++ [b]).length : Int) - 1)
    dsimp only
    rw [show ((w'.cs ++ [b]).length : Int) = (w.cs ++ [b]).length from by rw [h.cs]]
    exact h1.trans this
  | removeCon b =>
    show Rel _ (w.removeCon b) (w'.removeCon b)
    simp only [World.removeCon]
    rw [h.cons b ho]
    refine rel_eq (by rw [h.cs]) fun q hq => ?_
    have hm := unregister_mem hq
    have h1 : Confined o w w' { w with cs := q.1 } { w' with cs := q.1 } :=
      members_local h hw (fun u => { u with cs := q.1 })
        (fun u hu => by dsimp only; rw [hu.system])
        ⟨hw.rb, fun c hc => hw.cs c (hm.1 c hc), hw.fg, hw.cons, hw.gens⟩
    exact h1.trans (setConIndex_local h1.agree h1.inside (hw.cs _ hm.2) _)
  | addGen b =>
    have h1 : Confined o w w' { w with fg := w.fg ++ [b] } { w' with fg := w'.fg ++ [b] } :=
      members_local h hw (fun u => { u with fg := u.fg ++ [b] })
        (fun u hu => by dsimp only; rw [hu.system])
        ⟨hw.rb, hw.cs, fun c hc => (List.mem_append.1 hc).elim (hw.fg c)
          (fun hc => List.mem_singleton.1 hc ▸ ho), hw.cons, hw.gens⟩
    show Confined o w w' (w.addGen b) (w'.addGen b)
    rw [World.addGen, World.addGen]
    have := setGenIndex_local h1.agree h1.inside ho (((w.fg ++ [b]).length : Int) - 1)
    dsimp only
    rw [show ((w'.fg ++ [b]).length : Int) = (w.fg ++ [b]).length from by rw [h.fg]]
    exact h1.trans this
  | removeGen b =>
    show Rel _ (w.removeGen b) (w'.removeGen b)
    rw [World.removeGen, World.removeGen]
    refine rel_eq (by rw [(h.gens b ho).2]) fun i _ => ?_
    refine rel_eq (by rw [h.fg]) fun q hq => ?_
    have hm := unregister_mem hq
    have h1 : Confined o w w' { w with fg := q.1 } { w' with fg := q.1 } :=
      members_local h hw (fun u => { u with fg := q.1 })
        (fun u hu => by dsimp only; rw [hu.system])
        ⟨hw.rb, hw.cs, fun c hc => hw.fg c (hm.1 c hc), hw.cons, hw.gens⟩
    exact h1.trans (setGenIndex_local h1.agree h1.inside (hw.fg _ hm.2) _)
  | reset =>
    exact members_local h hw World.reset (fun u hu => by rw [World.reset, World.reset, hu.system])
      ⟨(fun _ hb => by cases hb), (fun _ hb => by cases hb), (fun _ hb => by cases hb), hw.cons,
        hw.gens⟩
  | newBody b x => exact putBody_local h hw ho _
  | newCon b x => exact putCon_local h hw ho.1 ho.2
  | newGen b x => exact putGen_local h hw ho.1 ho.2 none
  | setBody b x =>
    show Confined o w w' { w with bodies := upd w.bodies b { x with index := (w.bodies b).index } }
      { w' with bodies := upd w'.bodies b { x with index := (w'.bodies b).index } }
    rw [h.bodies b ho]
    exact putBody_local h hw ho _
  | setCon b x =>
    show Confined o w w'
      { w with cons := upd w.cons b { x with index := (w.cons b).index, rows := (w.cons b).rows } }
      { w' with
        cons := upd w'.cons b { x with index := (w'.cons b).index, rows := (w'.cons b).rows } }
    rw [h.cons b ho.1]
    exact putCon_local h hw ho.1 ho.2
  | setGen b x => exact setGen_local h hw ho.1 ho.2
  | init sle ode =>
    cases cls with
    | opt =>
      exact members_local h hw (fun u => u.optInit sle)
        (fun u hu => by rw [World.optInit, World.optInit, hu.system])
        ⟨hw.rb, hw.cs, hw.fg, hw.cons, hw.gens⟩
    | gen => exact genInit_local h hw sle ode
  | setBias x =>
    exact members_local h hw (fun u => { u with bias := x })
      (fun u hu => by dsimp only; rw [hu.system]) ⟨hw.rb, hw.cs, hw.fg, hw.cons, hw.gens⟩
  | process env dt steps =>
    cases cls with
    | opt => exact optProcess_local h hw env dt steps
    | gen => exact genProcess_local h hw env dt steps

/-- A program. -/
theorem runAll_local (cls : Cls) {ops : List (Op α)} (ho : ∀ op ∈ ops, op.In o)
    (h : w.AgreeOn o w') (hw : w.In o) :
    Rel (Confined o w w') (runAll cls ops w) (runAll cls ops w') := by
  induction ops generalizing w w' with
  | nil => exact Confined.start h hw
  | cons op ops ih =>
    refine rel_bind (op_local cls (ho op (by simp)) h hw) fun u u' hu => ?_
    exact (ih (fun p hp => ho p (by simp [hp])) hu.agree hu.inside).mono fun _ _ hv => hu.trans hv

end

end Scs
