import Mathlib.Algebra.BigOperators.Intervals
import Mathlib.Algebra.BigOperators.Group.List.Basic
import Mathlib.Algebra.BigOperators.Group.Finset.Piecewise
import Mathlib.Data.List.GetD
import Mathlib.Tactic.NormNum
import Verif.WorldReg

/-!
# The profiling arrays along a history
-/

namespace Scs

/-! ## One array -/

/-- The array after the samples `L`, newest first. -/
structure RingInv (r : Buf Int) (frame : Nat) (L : List Int) : Prop where
  size : r.size = 600
  frame : frame = L.length % 600
  recent : ∀ (k : Nat) (h : k < L.length), k < 600 → r.val ((L.length - 1 - k) % 600) = L[k]
  unused : ∀ i, i < 600 → L.length ≤ i → r.val i = -1

theorem RingInv.start : RingInv ⟨profSamples, fun _ => -1⟩ 0 [] :=
  ⟨rfl, rfl, fun k h => absurd h (Nat.not_lt_zero k), fun _ _ _ => rfl⟩

theorem RingInv.push {r : Buf Int} {f : Nat} {L : List Int} (h : RingInv r f L) (x : Int) :
    RingInv { r with val := upd r.val f x } ((f + 1) % profSamples) (x :: L) where
  size := h.size
  frame := by rw [h.frame, List.length_cons, profSamples]; omega
  recent := fun k hk h6 => by
    rw [List.length_cons] at hk ⊢
    cases k with
    | zero =>
      rw [h.frame]
      exact upd_same _ _ _
    | succ k =>
      have hk' : k < L.length := by omega
      have e : (L.length + 1 - 1 - (k + 1)) % 600 = (L.length - 1 - k) % 600 := by congr 1; omega
      show upd r.val f x ((L.length + 1 - 1 - (k + 1)) % 600) = L[k]
      rw [e, upd_other, h.recent k hk' (by omega)]
      rw [h.frame]
      omega
  unused := fun i hi hl => by
    rw [List.length_cons] at hl
    show upd r.val f x i = -1
    rw [upd_other, h.unused i hi (by omega)]
    rw [h.frame]
    omega

theorem profSum_eq {r : Buf Int} (hr : r.size = 600) :
    profSum r = .ok (∑ i ∈ Finset.range 600, (if r.val i ≠ -1 then r.val i else 0),
      ∑ i ∈ Finset.range 600, (if r.val i ≠ -1 then 1 else 0)) := by
  have : ∀ n, n ≤ 600 → forN n (fun i (q : Int × Nat) => do
      let x ← r.rd i
      pure (if x ≠ -1 then (q.1 + x, q.2 + 1) else q)) (0, 0) =
      .ok (∑ i ∈ Finset.range n, (if r.val i ≠ -1 then r.val i else 0),
        ∑ i ∈ Finset.range n, (if r.val i ≠ -1 then 1 else 0)) := by
    intro n
    induction n with
    | zero => intro _; rfl
    | succ n ih =>
      intro hn
      rw [forN_succ, ih (by omega), ok_bind, Buf.rd_ok _ (by omega), ok_bind, Finset.sum_range_succ,
        Finset.sum_range_succ]
      by_cases h : r.val n ≠ -1
      · simp only [if_pos h]; rfl
      · simp only [if_neg h, add_zero]; rfl
  exact this 600 (Nat.le_refl _)

theorem sum_take (L : List Int) (m : Nat) (hm : m ≤ L.length) :
    ∑ k ∈ Finset.range m, L.getD k 0 = (L.take m).sum := by
  induction m with
  | zero => simp
  | succ m ih =>
    rw [Finset.sum_range_succ, ih (by omega), List.take_succ_eq_append_getElem (by omega),
      List.sum_append, List.sum_singleton, List.getD_eq_getElem _ _ (by omega)]

/-- Summing over the array is summing over the last 600 samples. -/
theorem RingInv.sum {M : Type} [AddCommMonoid M] {r : Buf Int} {f : Nat} {L : List Int}
    (h : RingInv r f L) (g : Int → M) (hg : g (-1) = 0) :
    ∑ i ∈ Finset.range 600, g (r.val i) =
      ∑ k ∈ Finset.range (min L.length 600), g (L.getD k 0) := by
  classical
  have inj : ∀ a ∈ Finset.range (min L.length 600), ∀ b ∈ Finset.range (min L.length 600),
      (L.length - 1 - a) % 600 = (L.length - 1 - b) % 600 → a = b := by
    intro a ha b hb e
    rw [Finset.mem_range] at ha hb
    omega
  have h1 : ∑ i ∈ (Finset.range (min L.length 600)).image (fun k => (L.length - 1 - k) % 600),
      g (r.val i) = ∑ i ∈ Finset.range 600, g (r.val i) := by
    refine Finset.sum_subset ?_ ?_
    · intro i hi
      rw [Finset.mem_image] at hi
      obtain ⟨k, _, rfl⟩ := hi
      rw [Finset.mem_range]
      exact Nat.mod_lt _ (by omega)
    · intro i hi hni
      rw [Finset.mem_range] at hi
      by_cases hl : L.length ≤ i
      · rw [h.unused i hi hl, hg]
      · exfalso
        apply hni
        rw [Finset.mem_image]
        refine ⟨(L.length - 1 - i) % 600, ?_, ?_⟩
        · rw [Finset.mem_range]; omega
        · omega
  rw [← h1, Finset.sum_image inj]
  refine Finset.sum_congr rfl fun k hk => ?_
  rw [Finset.mem_range] at hk
  rw [h.recent k (by omega) (by omega), List.getD_eq_getElem _ _ (by omega)]

theorem RingInv.average {r : Buf Int} {f : Nat} {L : List Int} (h : RingInv r f L)
    (hL : ∀ x ∈ L, x ≠ -1) :
    findAverage (α := ℝ) r = .ok ((((L.take 600).sum : Int) : ℝ) / ((min L.length 600 : Nat) : ℝ)) := by
  have hk : ∀ k ∈ Finset.range (min L.length 600), L.getD k 0 ≠ -1 := by
    intro k hk
    rw [Finset.mem_range] at hk
    rw [List.getD_eq_getElem _ _ (by omega)]
    exact hL _ (List.getElem_mem _)
  have e1 : ∑ i ∈ Finset.range 600, (if r.val i ≠ -1 then r.val i else 0) = (L.take 600).sum := by
    rw [h.sum (fun x => if x ≠ -1 then x else 0) (by simp)]
    rw [Finset.sum_congr rfl (fun k hk' => if_pos (hk k hk')), sum_take _ _ (Nat.min_le_left _ _)]
    rcases Nat.le_total L.length 600 with h' | h'
    · rw [Nat.min_eq_left h', List.take_length, List.take_of_length_le h']
    · rw [Nat.min_eq_right h']
  have e2 : ∑ i ∈ Finset.range 600, (if r.val i ≠ -1 then 1 else 0) = min L.length 600 := by
    rw [h.sum (fun x => if x ≠ -1 then 1 else 0) (by simp)]
    rw [Finset.sum_congr rfl (fun k hk' => if_pos (hk k hk'))]
    simp
  rw [findAverage, profSum_eq h.size, ok_bind, e1, e2]
  simp only []
  split
  · rename_i h0
    have : L = [] := by
      rw [← List.length_eq_zero_iff]
      omega
    subst this
    simp [fp_lit]
    rfl
  · rename_i h0
    rw [fp_div (by rw [fp_lit]; exact_mod_cast h0), fp_lit, fp_lit, Rat.cast_intCast, Rat.cast_natCast]

section
variable {α : Type}

/-- The number of evaluations per sub-step: one in the optimized system; in the generic system the
number of stages of the ODE solver handed over last. -/
def stagesIn : Cls → List (Op α) → Nat
  | .opt, _ => 1
  | .gen, [] => 0
  | .gen, .init _ ode :: _ => match ode with
    | none => 0
    | some o => o.stages
  | .gen, _ :: h => stagesIn .gen h

/-- The samples recorded so far, newest first. -/
def samples (cls : Cls) (p : Prof) : List (Op α) → List Int
  | [] => []
  | .process env _ steps :: h =>
    sampleOf env (steps.toNat * stagesIn cls h) p :: samples cls p h
  | _ :: h => samples cls p h

variable [Zero α] [Add α] [Mul α] [Sub α] [Neg α] [Fp α]

/-- The stages of the solver in use. -/
def World.stages (cls : Cls) (w : World α) : Nat :=
  match cls with
  | .opt => 1
  | .gen => match w.ode with
    | none => 0
    | some o => o.stages

structure World.Prof (cls : Cls) (h : List (Op α)) (w : World α) : Prop where
  ring : ∀ p, RingInv (w.ring p) w.frame (samples cls p h)
  stages : w.stages cls = stagesIn cls h

theorem World.Prof.keep {cls : Cls} {h : List (Op α)} {w w' : World α} (i : w.Prof cls h)
    {op : Op α} (h1 : ∀ p, samples cls p (op :: h) = samples cls p h)
    (h2 : stagesIn cls (op :: h) = stagesIn cls h) (e1 : w'.ring = w.ring) (e2 : w'.frame = w.frame)
    (e3 : w'.ode = w.ode) : w'.Prof cls (op :: h) where
  ring := fun p => by rw [h1, e1, e2]; exact i.ring p
  stages := by
    rw [h2, ← i.stages]
    cases cls
    · rfl
    · simp only [World.stages, e3]

theorem stagesIn_opt (h : List (Op α)) : stagesIn .opt h = 1 := by
  cases h <;> rfl

theorem stagesIn_other {cls : Cls} {h : List (Op α)} {op : Op α}
    (hop : ∀ sle ode, op ≠ .init sle ode) : stagesIn cls (op :: h) = stagesIn cls h := by
  cases cls with
  | opt => rw [stagesIn_opt, stagesIn_opt]
  | gen =>
    cases op <;> first | rfl | exact absurd rfl (hop _ _)

theorem World.stages_gen {w w' : World α} (e : w'.ode.map Ode.sort = w.ode.map Ode.sort) :
    w'.stages .gen = w.stages .gen := by
  rw [World.stages, World.stages]
  cases h : w.ode with
  | none => rw [h] at e; cases h' : w'.ode with
    | none => rfl
    | some o => rw [h'] at e; cases e
  | some o => rw [h] at e; cases h' : w'.ode with
    | none => rw [h'] at e; cases e
    | some o' =>
      rw [h'] at e
      simp only []
      exact sort_stages (by simpa using e)

theorem World.Hist.prof {G : Gen α → Prop} {cls : Cls} {h : List (Op α)} {w : World α}
    (hw : World.Hist G cls h w) : w.Prof cls h := by
  induction hw with
  | start bodies cons gens genIndex hg j j' k k' =>
    refine ⟨fun p => RingInv.start, ?_⟩
    cases cls <;> rfl
  | @step h w w' op hw hv e ih =>
    cases op with
    | removeBody b =>
      obtain ⟨l', x, he, _⟩ := removeBody_ok hw.regs.bodies hv
      have e' : w.removeBody b = .ok w' := e
      rw [he] at e'
      cases e'
      exact ih.keep (fun _ => rfl) (stagesIn_other (fun _ _ e => by cases e)) rfl rfl rfl
    | removeCon b =>
      obtain ⟨l', x, he, _⟩ := removeCon_ok hw.regs.cons hv
      have e' : w.removeCon b = .ok w' := e
      rw [he] at e'
      cases e'
      exact ih.keep (fun _ => rfl) (stagesIn_other (fun _ _ e => by cases e)) rfl rfl rfl
    | removeGen b =>
      obtain ⟨l', x, i, he, _⟩ := removeGen_ok hw.regs.gens hv
      have e' : w.removeGen b = .ok w' := e
      rw [he] at e'
      cases e'
      exact ih.keep (fun _ => rfl) (stagesIn_other (fun _ _ e => by cases e)) rfl rfl rfl
    | init sle ode =>
      cases cls with
      | opt => cases e; exact ih.keep (fun _ => rfl) ((stagesIn_opt _).trans (stagesIn_opt _).symm) rfl rfl rfl
      | gen =>
        rw [genInit_eq (show w.genInit sle ode = .ok w' from e)]
        exact ⟨ih.ring, rfl⟩
    | process env dt steps =>
      cases cls with
      | opt =>
        have := (optProcess_wp w env dt steps hw.regs.nsv).of_eq
          (show w.optProcess env dt steps = .ok w' from e)
        refine ⟨fun p => ?_, rfl⟩
        rw [(this.1.records.at_ p).2, this.1.records.frame]
        have := (ih.ring p).push (sampleOf env steps.toNat p)
        rw [samples, stagesIn_opt, Nat.mul_one]
        exact this
      | gen =>
        have := (genProcess_wp w env dt steps).of_eq (show w.genProcess env dt steps = .ok w' from e)
        refine ⟨fun p => ?_, (World.stages_gen this.2.2.2).trans ih.stages⟩
        rw [(this.1.records.at_ p).2, this.1.records.frame]
        have hc : evalCount steps w.ode = steps.toNat * stagesIn .gen h := by
          rw [← ih.stages]
          simp only [World.stages]
          cases w.ode <;> rfl
        have := (ih.ring p).push (sampleOf env (evalCount steps w.ode) p)
        rw [samples, ← hc]
        exact this
    | _ => cases e; exact ih.keep (fun _ => rfl) (stagesIn_other (fun _ _ e => by cases e)) rfl rfl rfl

/-- `m_t` after a history. -/
theorem World.Hist.time {G : Gen α → Prop} {h : List (Op α)} {w : World α}
    (hw : World.Hist G .opt h w) : w.t = (processedDts h).foldr (fun dt t => t + dt) (Fp.lit 0) := by
  induction hw with
  | start bodies cons gens genIndex hg j j' k k' => rfl
  | @step h w w' op hw hv e ih =>
    cases op with
    | removeBody b =>
      obtain ⟨l', x, he, _⟩ := removeBody_ok hw.regs.bodies hv
      have e' : w.removeBody b = .ok w' := e
      rw [he] at e'
      cases e'
      exact ih
    | removeCon b =>
      obtain ⟨l', x, he, _⟩ := removeCon_ok hw.regs.cons hv
      have e' : w.removeCon b = .ok w' := e
      rw [he] at e'
      cases e'
      exact ih
    | removeGen b =>
      obtain ⟨l', x, i, he, _⟩ := removeGen_ok hw.regs.gens hv
      have e' : w.removeGen b = .ok w' := e
      rw [he] at e'
      cases e'
      exact ih
    | process env dt steps =>
      have := (optProcess_wp w env dt steps hw.regs.nsv).of_eq
        (show w.optProcess env dt steps = .ok w' from e)
      rw [this.2.1, processedDts, List.foldr_cons, ih]
    | _ => cases e; exact ih

end

end Scs
