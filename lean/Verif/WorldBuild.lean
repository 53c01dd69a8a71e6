import Verif.WorldHist

/-!
# Building systems

Every description of a system by its bodies, constraints, force generators and solver is reached by
a history: construct the objects, register them, initialise. Used to show that the hypotheses of
theorems about histories can be met.
-/

namespace Scs

section
variable {α : Type} [Zero α] [Add α] [Mul α] [Sub α] [Neg α] [Fp α]
variable {G : Gen α → Prop} {cls : Cls}

/-- The world holds the given objects, up to indices, and the given registries and solver. -/
structure World.Holds (w : World α) (bodies : Nat → Body α) (cons : Nat → Con α)
    (gens : Nat → Gen α) (rb cs fg : List Nat) : Prop where
  bodies : ∀ b, { w.bodies b with index := (bodies b).index } = bodies b
  cons : ∀ c, { w.cons c with index := (cons c).index } = cons c
  gens : w.gens = gens
  rb : w.rb = rb
  cs : w.cs = cs
  fg : w.fg = fg
  bias : w.bias = Fp.lit 1

variable {bodies : Nat → Body α} {cons : Nat → Con α} {gens : Nat → Gen α}

theorem build_bodies : ∀ (l : List Nat) {h : List (Op α)} {w : World α} {rb cs fg : List Nat},
    World.Hist G cls h w → l.Nodup → (∀ b ∈ l, b ∉ regBodies h) →
    w.Holds bodies cons gens rb cs fg →
    ∃ h' w', World.Hist G cls h' w' ∧ w'.Holds bodies cons gens (rb ++ l) cs fg ∧
      regBodies h' = regBodies h ∪ l.toFinset ∧ regCons h' = regCons h ∧ regGens h' = regGens h ∧
      w'.mem = w.mem ∧ w'.sle = w.sle ∧ processedDts h' = processedDts h
  | [], h, w, rb, cs, fg, hw, _, _, hh =>
    ⟨h, w, hw, by rw [List.append_nil]; exact hh, by simp, rfl, rfl, rfl, rfl, rfl⟩
  | b :: l, h, w, rb, cs, fg, hw, hn, hd, hh => by
    have hb : b ∉ regBodies h := hd b (by simp)
    have hn' := List.nodup_cons.mp hn
    have h1 : World.Hist G cls (.addBody b :: h) (w.addBody b) := hw.step (.addBody b) hb rfl
    obtain ⟨h', w', q1, q2, q3, q4, q5, q6, q7, q8⟩ := build_bodies l (rb := rb ++ [b]) (cs := cs)
      (fg := fg) h1 hn'.2
      (fun x hx => by
        simp only [regBodies, Finset.mem_insert, not_or]
        exact ⟨fun e => hn'.1 (e ▸ hx), hd x (by simp [hx])⟩)
      ⟨fun x => by
        simp only [World.addBody, World.setBodyIndex, upd]
        split
        · rename_i e; subst e; exact hh.bodies x
        · exact hh.bodies x, hh.cons, hh.gens, by
          show w.rb ++ [b] = _
          rw [hh.rb], hh.cs, hh.fg, hh.bias⟩
    refine ⟨h', w', q1, by rw [List.append_assoc] at q2; exact q2, ?_, q4, q5, q6, q7, q8⟩
    rw [q3]
    ext x
    simp [regBodies]

theorem build_cons : ∀ (l : List Nat) {h : List (Op α)} {w : World α} {rb cs fg : List Nat},
    World.Hist G cls h w → l.Nodup → (∀ b ∈ l, b ∉ regCons h) →
    w.Holds bodies cons gens rb cs fg →
    ∃ h' w', World.Hist G cls h' w' ∧ w'.Holds bodies cons gens rb (cs ++ l) fg ∧
      regBodies h' = regBodies h ∧ regCons h' = regCons h ∪ l.toFinset ∧ regGens h' = regGens h ∧
      w'.mem = w.mem ∧ w'.sle = w.sle ∧ processedDts h' = processedDts h
  | [], h, w, rb, cs, fg, hw, _, _, hh =>
    ⟨h, w, hw, by rw [List.append_nil]; exact hh, rfl, by simp, rfl, rfl, rfl, rfl⟩
  | b :: l, h, w, rb, cs, fg, hw, hn, hd, hh => by
    have hb : b ∉ regCons h := hd b (by simp)
    have hn' := List.nodup_cons.mp hn
    have h1 : World.Hist G cls (.addCon b :: h) (w.addCon b) := hw.step (.addCon b) hb rfl
    obtain ⟨h', w', q1, q2, q3, q4, q5, q6, q7, q8⟩ := build_cons l (rb := rb) (cs := cs ++ [b])
      (fg := fg) h1 hn'.2
      (fun x hx => by
        simp only [regCons, Finset.mem_insert, not_or]
        exact ⟨fun e => hn'.1 (e ▸ hx), hd x (by simp [hx])⟩)
      ⟨hh.bodies, fun x => by
        simp only [World.addCon, World.setConIndex, upd]
        split
        · rename_i e; subst e; exact hh.cons x
        · exact hh.cons x, hh.gens, hh.rb, by
          show w.cs ++ [b] = _
          rw [hh.cs], hh.fg, hh.bias⟩
    refine ⟨h', w', q1, by rw [List.append_assoc] at q2; exact q2, q3, ?_, q5, q6, q7, q8⟩
    rw [q4]
    ext x
    simp [regCons]

theorem build_gens : ∀ (l : List Nat) {h : List (Op α)} {w : World α} {rb cs fg : List Nat},
    World.Hist G cls h w → l.Nodup → (∀ b ∈ l, b ∉ regGens h) →
    w.Holds bodies cons gens rb cs fg →
    ∃ h' w', World.Hist G cls h' w' ∧ w'.Holds bodies cons gens rb cs (fg ++ l) ∧
      regBodies h' = regBodies h ∧ regCons h' = regCons h ∧ regGens h' = regGens h ∪ l.toFinset ∧
      w'.mem = w.mem ∧ w'.sle = w.sle ∧ processedDts h' = processedDts h
  | [], h, w, rb, cs, fg, hw, _, _, hh =>
    ⟨h, w, hw, by rw [List.append_nil]; exact hh, rfl, rfl, by simp, rfl, rfl, rfl⟩
  | b :: l, h, w, rb, cs, fg, hw, hn, hd, hh => by
    have hb : b ∉ regGens h := hd b (by simp)
    have hn' := List.nodup_cons.mp hn
    have h1 : World.Hist G cls (.addGen b :: h) (w.addGen b) := hw.step (.addGen b) hb rfl
    obtain ⟨h', w', q1, q2, q3, q4, q5, q6, q7, q8⟩ := build_gens l (rb := rb) (cs := cs)
      (fg := fg ++ [b]) h1 hn'.2
      (fun x hx => by
        simp only [regGens, Finset.mem_insert, not_or]
        exact ⟨fun e => hn'.1 (e ▸ hx), hd x (by simp [hx])⟩)
      ⟨hh.bodies, hh.cons, hh.gens, hh.rb, hh.cs, by
          show w.fg ++ [b] = _
          rw [hh.fg], hh.bias⟩
    refine ⟨h', w', q1, by rw [List.append_assoc] at q2; exact q2, q3, q4, ?_, q6, q7, q8⟩
    rw [q5]
    ext x
    simp [regGens]

/-- Every description of a system is reached before `initialize`. -/
theorem build_pre (cls : Cls) (bodies : Nat → Body α) (cons : Nat → Con α) {gens : Nat → Gen α}
    (hg : ∀ g, G (gens g)) {rb cs fg : List Nat} (h1 : rb.Nodup) (h2 : cs.Nodup) (h3 : fg.Nodup)
    (j : Nat → Nat → α) (k : Nat → Nat → Nat) :
    ∃ (h : List (Op α)) (w : World α), World.Hist G cls h w ∧ w.Holds bodies cons gens rb cs fg ∧
      regBodies h = rb.toFinset ∧ regCons h = cs.toFinset ∧ regGens h = fg.toFinset ∧
      w.mem = Store.fresh j k ∧ processedDts h = [] := by
  have s0 := World.Hist.start (G := G) (cls := cls) bodies cons gens (fun _ => none) hg j j k k
  obtain ⟨a1, w1, p1, p2, p3, p4, p5, p6, p7, p8⟩ := build_bodies (bodies := bodies) (cons := cons)
    (gens := gens) (rb := []) (cs := []) (fg := []) rb s0 h1 (fun b _ => by simp [regBodies])
    ⟨fun _ => rfl, fun _ => rfl, rfl, rfl, rfl, rfl, rfl⟩
  obtain ⟨a2, w2, q1, q2, q3, q4, q5, q6, q7, q8⟩ := build_cons cs p1 h2
    (fun b _ => by simp [p4, regCons]) p2
  obtain ⟨a3, w3, r1, r2, r3, r4, r5, r6, r7, r8⟩ := build_gens fg q1 h3
    (fun b _ => by simp [q5, p5, regGens]) q2
  refine ⟨a3, w3, r1,
    ⟨r2.bodies, r2.cons, r2.gens, by
        have e := r2.rb
        rw [List.nil_append] at e
        exact e, by
        have e := r2.cs
        rw [List.nil_append] at e
        exact e, by
        have e := r2.fg
        rw [List.nil_append] at e
        exact e, r2.bias⟩, ?_, ?_, ?_, ?_, ?_⟩
  · rw [r3, q3, p3]
    simp [regBodies]
  · rw [r4, q4, p4]
    simp [regCons]
  · rw [r5, q5, p5]
    simp [regGens]
  · rw [r6, q6, p6]
    rfl
  · rw [r8, q8, p8]
    rfl

/-- Every description of an optimized system is reached. -/
theorem build (bodies : Nat → Body α) (cons : Nat → Con α) {gens : Nat → Gen α}
    (hg : ∀ g, G (gens g)) {rb cs fg : List Nat} (h1 : rb.Nodup) (h2 : cs.Nodup) (h3 : fg.Nodup)
    (sle : Option (Solver α)) (j : Nat → Nat → α) (k : Nat → Nat → Nat) :
    ∃ (h : List (Op α)) (w : World α), World.Hist G .opt h w ∧ w.Holds bodies cons gens rb cs fg ∧
      regBodies h = rb.toFinset ∧ regCons h = cs.toFinset ∧ regGens h = fg.toFinset ∧
      w.mem = Store.fresh j k ∧ w.sle = sle ∧ processedDts h = [] := by
  obtain ⟨h, w, r1, r2, r3, r4, r5, r6, r7⟩ := build_pre (G := G) .opt bodies cons hg h1 h2 h3 j k
  exact ⟨.init sle none :: h, w.optInit sle, r1.step (.init sle none) (fun o e => by cases e) rfl,
    ⟨r2.bodies, r2.cons, r2.gens, r2.rb, r2.cs, r2.fg, r2.bias⟩, r3, r4, r5, r6, rfl, r7⟩

/-- Every description of a generic system is reached. -/
theorem buildG (bodies : Nat → Body α) (cons : Nat → Con α) {gens : Nat → Gen α}
    (hg : ∀ g, G (gens g)) {rb cs fg : List Nat} (h1 : rb.Nodup) (h2 : cs.Nodup) (h3 : fg.Nodup)
    (sle : Option (Solver α)) (ode : Option (Ode α)) (ho : ∀ o, ode = some o → o.Idle)
    (j : Nat → Nat → α) (k : Nat → Nat → Nat) :
    ∃ (h : List (Op α)) (w : World α), World.Hist G .gen h w ∧ w.Holds bodies cons gens rb cs fg ∧
      regBodies h = rb.toFinset ∧ regCons h = cs.toFinset ∧ regGens h = fg.toFinset ∧
      w.mem = Store.fresh j k ∧ w.sle = sle ∧ w.ode = ode ∧ processedDts h = [] := by
  obtain ⟨h, w, r1, r2, r3, r4, r5, r6, r7⟩ := build_pre (G := G) .gen bodies cons hg h1 h2 h3 j k
  have e : w.genInit sle ode = .ok { w with sle := sle, ode := ode } := by
    have : w.mem.init0 .ivLambda 0 0 = .ok w.mem := by
      rw [r6]
      refine Eq.trans (b := .ok ((Store.fresh j k).setMat .ivLambda Mat.empty)) rfl ?_
      congr 1
      rw [Store.setMat, Store.fresh]
      congr 1
      funext t
      by_cases ht : t = .ivLambda
      · rw [ht, upd_same]
      · rw [upd_other _ _ ht]
    rw [World.genInit, this, ok_bind]
    rfl
  exact ⟨.init sle ode :: h, { w with sle := sle, ode := ode }, r1.step (.init sle ode) ho e,
    ⟨r2.bodies, r2.cons, r2.gens, r2.rb, r2.cs, r2.fg, r2.bias⟩, r3, r4, r5, r6, rfl, rfl, r7⟩

end

end Scs
