import Mathlib.Data.List.Nodup
import Mathlib.Tactic.Linarith
import Verif.WorldFrame
import Verif.Real

/-!
# Registries, clock and profiling along a history
-/

namespace Scs

/-! ## One registry -/

/-- The vector `l` holds the elements of `S`, each once, and `idx` gives their positions. -/
structure RegInv (l : List Nat) (S : Finset Nat) (idx : Nat → Option Int) : Prop where
  nodup : l.Nodup
  mem : ∀ b, b ∈ l ↔ b ∈ S
  pos : ∀ (i : Nat) (h : i < l.length), idx l[i] = some (i : Int)

theorem RegInv.nil (idx : Nat → Option Int) : RegInv [] ∅ idx :=
  ⟨List.nodup_nil, fun b => by simp, fun i h => absurd h (Nat.not_lt_zero i)⟩

theorem RegInv.congr {l : List Nat} {S : Finset Nat} {idx idx' : Nat → Option Int}
    (h : RegInv l S idx) (e : ∀ b ∈ S, idx' b = idx b) : RegInv l S idx' :=
  ⟨h.nodup, h.mem, fun i hi => by rw [e _ ((h.mem _).1 (List.getElem_mem hi)), h.pos i hi]⟩

theorem RegInv.add {l : List Nat} {S : Finset Nat} {idx : Nat → Option Int} (h : RegInv l S idx)
    {b : Nat} (hb : b ∉ S) : RegInv (l ++ [b]) (insert b S) (upd idx b (some (l.length : Int))) where
  nodup := by
    rw [List.nodup_append]
    refine ⟨h.nodup, List.nodup_singleton b, fun a ha c hc => ?_⟩
    rw [List.mem_singleton] at hc
    subst hc
    exact fun e => hb ((h.mem _).1 (e ▸ ha))
  mem := fun c => by simp [h.mem, or_comm]
  pos := fun i hi => by
    rw [List.length_append, List.length_singleton] at hi
    by_cases hl : i < l.length
    · rw [List.getElem_append_left hl, upd_other, h.pos i hl]
      exact fun e => hb ((h.mem _).1 (e ▸ List.getElem_mem hl))
    · have : i = l.length := by omega
      subst this
      rw [List.getElem_append_right (Nat.le_refl _)]
      simp [upd_same]

theorem RegInv.at {l : List Nat} {S : Finset Nat} {idx : Nat → Option Int} (h : RegInv l S idx)
    {b : Nat} (hb : b ∈ S) : ∃ (i : Nat) (hi : i < l.length), l[i] = b ∧ idx b = some (i : Int) := by
  obtain ⟨i, hi, e⟩ := List.mem_iff_getElem.1 ((h.mem b).2 hb)
  exact ⟨i, hi, e, e ▸ h.pos i hi⟩

/-- Elements of the vector after the removal of position `i`. -/
theorem removed_get {l : List Nat} {i : Nat} (hi : i < l.length) (last : Nat) {j : Nat}
    (hj : j < (l.set i last).dropLast.length) :
    (l.set i last).dropLast[j] = if i = j then last else l[j]'(by simp at hj; omega) := by
  rw [List.getElem_dropLast, List.getElem_set]

theorem RegInv.remove {l : List Nat} {S : Finset Nat} {idx : Nat → Option Int} (h : RegInv l S idx)
    {b : Nat} (hb : b ∈ S) : ∃ (i : Int) (l' : List Nat) (x : Nat), idx b = some i ∧
      unregister l i = .ok (l', x) ∧ RegInv l' (S.erase b) (upd idx x (some i)) ∧
      x ∈ S ∧ l'.length + 1 = l.length := by
  obtain ⟨i, hi, e, hx⟩ := h.at hb
  have hne : l ≠ [] := by rintro rfl; exact absurd hi (Nat.not_lt_zero i)
  have hlast : l.getLast? = some (l.getLast hne) := List.getLast?_eq_some_getLast hne
  have hg : l.getLast hne = l[l.length - 1]'(by omega) := List.getLast_eq_getElem hne
  have inj : ∀ (a c : Nat) (ha : a < l.length) (hc : c < l.length), l[a] = l[c] → a = c :=
    fun a c ha hc e => (h.nodup.getElem_inj_iff).1 e
  refine ⟨i, (l.set i (l.getLast hne)).dropLast, l.getLast hne, hx, ?_, ⟨?_, fun c => ?_, ?_⟩,
    (h.mem _).1 (List.getLast_mem hne), ?_⟩
  · rw [unregister, vecBack, hlast, ok_bind, vecSet, if_pos ⟨Int.natCast_nonneg i, by simpa using hi⟩,
      ok_bind, Int.toNat_natCast, vecAt_ok (by simpa using hi), ok_bind, List.getElem_set_self]
    rfl
  · rw [List.nodup_iff_injective_getElem]
    rintro ⟨a, ha⟩ ⟨c, hc⟩ eq
    simp only at eq
    rw [removed_get hi, removed_get hi] at eq
    simp only [List.length_dropLast, List.length_set] at ha hc
    rw [Fin.mk.injEq]
    split at eq <;> split at eq
    · omega
    · have := inj _ _ _ _ (hg.symm.trans eq)
      omega
    · have := inj _ _ _ _ (eq.trans hg)
      omega
    · exact inj _ _ _ _ eq
  · rw [Finset.mem_erase, ← h.mem]
    constructor
    · intro hc
      obtain ⟨j, hj, ej⟩ := List.mem_iff_getElem.1 hc
      rw [removed_get hi] at ej
      simp only [List.length_dropLast, List.length_set] at hj
      split at ej
      · subst ej
        refine ⟨fun hb' => ?_, List.getLast_mem hne⟩
        rw [hg, ← e] at hb'
        have := inj _ _ _ _ hb'
        omega
      · subst ej
        refine ⟨fun hb' => ?_, List.getElem_mem _⟩
        rw [← e] at hb'
        have := inj _ _ _ _ hb'
        omega
    · rintro ⟨hc, hl⟩
      obtain ⟨j, hj, ej⟩ := List.mem_iff_getElem.1 hl
      have hij : i ≠ j := by
        rintro rfl
        exact hc (ej.symm.trans e)
      rw [List.mem_iff_getElem]
      by_cases hjl : j = l.length - 1
      · refine ⟨i, by simp; omega, ?_⟩
        rw [removed_get hi, if_pos rfl, hg, ← ej]
        congr 1
        exact hjl.symm
      · refine ⟨j, by simp; omega, ?_⟩
        rw [removed_get hi, if_neg hij, ej]
  · intro j hj
    rw [removed_get hi]
    simp only [List.length_dropLast, List.length_set] at hj
    split
    · rename_i hij
      rw [upd_same, hij]
    · rw [upd_other, h.pos]
      intro eq
      have := inj _ _ _ _ (eq.trans hg)
      omega
  · simp only [List.length_dropLast, List.length_set]
    omega

theorem RegInv.length {l : List Nat} {S : Finset Nat} {idx : Nat → Option Int} (h : RegInv l S idx) :
    l.length = S.card := by
  have : S = l.toFinset := by ext b; rw [List.mem_toFinset, h.mem]
  rw [this, List.toFinset_card_of_nodup h.nodup]

section
variable {α : Type}

/-! ## The three registries -/

def World.bodyIdx (w : World α) (b : Nat) : Option Int := some (w.bodies b).index
def World.conIdx (w : World α) (c : Nat) : Option Int := some (w.cons c).index

/-- Registries, ODE solvers and time after a history. -/
structure World.Regs [Zero α] [Add α] (cls : Cls) (h : List (Op α)) (w : World α) : Prop where
  bodies : RegInv w.rb (regBodies h) w.bodyIdx
  cons : RegInv w.cs (regCons h) w.conIdx
  gens : RegInv w.fg (regGens h) w.genIndex
  nsv : w.nsv.sort = 2

end

section
variable {α : Type} [Zero α] [Add α] [Mul α] [Sub α] [Neg α] [Fp α]

theorem upd_bodyIdx (w : World α) (b : Nat) (i : Int) :
    (w.setBodyIndex b i).bodyIdx = upd w.bodyIdx b (some i) := by
  funext x
  by_cases hx : x = b
  · subst hx; rw [upd_same]; simp [World.bodyIdx, World.setBodyIndex, upd_same]
  · rw [upd_other _ _ hx]; simp [World.bodyIdx, World.setBodyIndex, upd_other _ _ hx]

theorem upd_conIdx (w : World α) (b : Nat) (i : Int) :
    (w.setConIndex b i).conIdx = upd w.conIdx b (some i) := by
  funext x
  by_cases hx : x = b
  · subst hx; rw [upd_same]; simp [World.conIdx, World.setConIndex, upd_same]
  · rw [upd_other _ _ hx]; simp [World.conIdx, World.setConIndex, upd_other _ _ hx]

/-- Removing a registered body works. -/
theorem removeBody_ok {w : World α} {S : Finset Nat} (h : RegInv w.rb S w.bodyIdx) {b : Nat}
    (hb : b ∈ S) : ∃ l' x, w.removeBody b = .ok ({ w with rb := l' }.setBodyIndex x (w.bodies b).index) ∧
      RegInv l' (S.erase b) (upd w.bodyIdx x (some (w.bodies b).index)) ∧ x ∈ S ∧
      l'.length + 1 = w.rb.length ∧ unregister w.rb (w.bodies b).index = .ok (l', x) := by
  obtain ⟨i, l', x, hi, hu, hr, hx, hl⟩ := h.remove hb
  have : (w.bodies b).index = i := by simpa [World.bodyIdx] using hi
  subst this
  refine ⟨l', x, ?_, hr, hx, hl, hu⟩
  rw [World.removeBody, hu, ok_bind]
  rfl

theorem removeCon_ok {w : World α} {S : Finset Nat} (h : RegInv w.cs S w.conIdx) {b : Nat}
    (hb : b ∈ S) : ∃ l' x, w.removeCon b = .ok ({ w with cs := l' }.setConIndex x (w.cons b).index) ∧
      RegInv l' (S.erase b) (upd w.conIdx x (some (w.cons b).index)) ∧ x ∈ S ∧
      l'.length + 1 = w.cs.length := by
  obtain ⟨i, l', x, hi, hu, hr, hx, hl⟩ := h.remove hb
  have : (w.cons b).index = i := by simpa [World.conIdx] using hi
  subst this
  refine ⟨l', x, ?_, hr, hx, hl⟩
  rw [World.removeCon, hu, ok_bind]
  rfl

theorem removeGen_ok {w : World α} {S : Finset Nat} (h : RegInv w.fg S w.genIndex) {b : Nat}
    (hb : b ∈ S) : ∃ l' x i, w.removeGen b = .ok ({ w with fg := l' }.setGenIndex x i) ∧
      RegInv l' (S.erase b) (upd w.genIndex x (some i)) ∧ x ∈ S ∧ l'.length + 1 = w.fg.length := by
  obtain ⟨i, l', x, hi, hu, hr, hx, hl⟩ := h.remove hb
  refine ⟨l', x, i, ?_, hr, hx, hl⟩
  rw [World.removeGen, hi, initd, ok_bind, hu, ok_bind]
  rfl

theorem genInit_eq {w w' : World α} {sle : Option (Solver α)} {ode : Option (Ode α)}
    (e : w.genInit sle ode = .ok w') :
    w' = { w with sle := sle, ode := ode, mem := w'.mem } := by
  rw [World.genInit] at e
  cases hm : w.mem.init0 .ivLambda 0 0 with
  | error e' => rw [hm] at e; cases e
  | ok m => rw [hm, ok_bind] at e; cases e; rfl

theorem Moves.regs {cls : Cls} {h : List (Op α)} {w w' : World α} (m : w.Moves w')
    (r : w.Regs cls h) (hn : w'.nsv.sort = 2) {op : Op α} (h1 : regBodies (op :: h) = regBodies h)
    (h2 : regCons (op :: h) = regCons h) (h3 : regGens (op :: h) = regGens h) :
    w'.Regs cls (op :: h) where
  bodies := by
    rw [h1, m.rb]
    exact r.bodies.congr fun b _ => congrArg some (m.index b)
  cons := by
    rw [h2, m.cs]
    exact r.cons.congr fun b _ => congrArg some (m.conIndex b)
  gens := by
    rw [h3, m.fg, m.genIndex]
    exact r.gens
  nsv := hn

theorem World.Hist.regs {G : Gen α → Prop} {cls : Cls} {h : List (Op α)} {w : World α}
    (hw : World.Hist G cls h w) : w.Regs cls h := by
  induction hw with
  | start bodies cons gens genIndex hg j j' k k' =>
    exact ⟨RegInv.nil _, RegInv.nil _, RegInv.nil _, rfl⟩
  | @step h w w' op hw hv e ih =>
    cases op with
    | addBody b =>
      cases e
      refine ⟨?_, ih.cons, ih.gens, ih.nsv⟩
      have := ih.bodies.add hv
      rw [World.addBody, upd_bodyIdx]
      rw [show ((({ w with rb := w.rb ++ [b] } : World α).rb.length : Int) - 1) = w.rb.length by simp]
      exact this
    | removeBody b =>
      obtain ⟨l', x, he, hr, _⟩ := removeBody_ok ih.bodies hv
      have e' : w.removeBody b = .ok w' := e
      rw [he] at e'
      cases e'
      refine ⟨?_, ih.cons, ih.gens, ih.nsv⟩
      rw [upd_bodyIdx]
      exact hr
    | addCon b =>
      cases e
      refine ⟨ih.bodies, ?_, ih.gens, ih.nsv⟩
      have := ih.cons.add hv
      rw [World.addCon, upd_conIdx]
      rw [show ((({ w with cs := w.cs ++ [b] } : World α).cs.length : Int) - 1) = w.cs.length by simp]
      exact this
    | removeCon b =>
      obtain ⟨l', x, he, hr, _⟩ := removeCon_ok ih.cons hv
      have e' : w.removeCon b = .ok w' := e
      rw [he] at e'
      cases e'
      refine ⟨ih.bodies, ?_, ih.gens, ih.nsv⟩
      rw [upd_conIdx]
      exact hr
    | addGen b =>
      cases e
      refine ⟨ih.bodies, ih.cons, ?_, ih.nsv⟩
      have := ih.gens.add hv
      show RegInv (w.fg ++ [b]) _ (upd w.genIndex b (some (((w.fg ++ [b]).length : Int) - 1)))
      rw [show (((w.fg ++ [b]).length : Int) - 1) = w.fg.length by simp]
      exact this
    | removeGen b =>
      obtain ⟨l', x, i, he, hr, _⟩ := removeGen_ok ih.gens hv
      have e' : w.removeGen b = .ok w' := e
      rw [he] at e'
      cases e'
      exact ⟨ih.bodies, ih.cons, hr, ih.nsv⟩
    | reset =>
      cases e
      exact ⟨RegInv.nil _, RegInv.nil _, RegInv.nil _, ih.nsv⟩
    | newBody b x =>
      cases e
      refine ⟨ih.bodies.congr fun c hc => ?_, ih.cons, ih.gens, ih.nsv⟩
      have : c ≠ b := fun hcb => hv (hcb ▸ hc)
      simp [World.bodyIdx, upd_other _ _ this]
    | newCon b x =>
      cases e
      refine ⟨ih.bodies, ih.cons.congr fun c hc => ?_, ih.gens, ih.nsv⟩
      have : c ≠ b := fun hcb => hv (hcb ▸ hc)
      simp [World.conIdx, upd_other _ _ this]
    | newGen b x =>
      cases e
      refine ⟨ih.bodies, ih.cons, ih.gens.congr fun c hc => ?_, ih.nsv⟩
      have : c ≠ b := fun hcb => hv.1 (hcb ▸ hc)
      exact upd_other _ _ this
    | setBody b x =>
      cases e
      refine ⟨ih.bodies.congr fun c hc => ?_, ih.cons, ih.gens, ih.nsv⟩
      by_cases hcb : c = b
      · subst hcb; simp [World.bodyIdx, upd_same]
      · simp [World.bodyIdx, upd_other _ _ hcb]
    | setCon b x =>
      cases e
      refine ⟨ih.bodies, ih.cons.congr fun c hc => ?_, ih.gens, ih.nsv⟩
      by_cases hcb : c = b
      · subst hcb; simp [World.conIdx, upd_same]
      · simp [World.conIdx, upd_other _ _ hcb]
    | setGen b x =>
      cases e
      exact ⟨ih.bodies, ih.cons, ih.gens, ih.nsv⟩
    | init sle ode =>
      cases cls with
      | opt => cases e; exact ⟨ih.bodies, ih.cons, ih.gens, ih.nsv⟩
      | gen =>
        rw [genInit_eq (show w.genInit sle ode = .ok w' from e)]
        exact ⟨ih.bodies, ih.cons, ih.gens, ih.nsv⟩
    | setBias x =>
      cases e
      exact ⟨ih.bodies, ih.cons, ih.gens, ih.nsv⟩
    | process env dt steps =>
      cases cls with
      | opt =>
        have := (optProcess_wp w env dt steps ih.nsv).of_eq (show w.optProcess env dt steps = .ok w' from e)
        exact Moves.regs this.1.moves ih this.2.2.1 rfl rfl rfl
      | gen =>
        have := (genProcess_wp w env dt steps).of_eq (show w.genProcess env dt steps = .ok w' from e)
        exact Moves.regs this.1.moves ih (this.2.2.1 ▸ ih.nsv) rfl rfl rfl

end

end Scs
