import Verif.WorldFrame
import Verif.SleSpec
import Verif.SparseScale
import Mathlib.Data.List.GetD

/-!
# Rows of a system of constraints

Constraint `i` of the system occupies the rows `off i .. off i + rows - 1`.
-/

namespace Scs

/-- Position and offset inside of row `f`, for a list of numbers of rows. -/
def splitRow : List Nat → Nat → Nat × Nat
  | [], f => (0, f)
  | r :: rs, f => if f < r then (0, f) else ((splitRow rs (f - r)).1 + 1, (splitRow rs (f - r)).2)

theorem splitRow_add : ∀ (l : List Nat) (i k : Nat) (hi : i < l.length), k < l[i] →
    splitRow l ((l.take i).sum + k) = (i, k)
  | [], i, _, hi, _ => absurd hi (by simp)
  | r :: rs, 0, k, _, hk => by
    have hk : k < r := hk
    simp [splitRow, hk]
  | r :: rs, i + 1, k, hi, hk => by
    have hi' : i < rs.length := by simpa using hi
    have hk' : k < rs[i] := by simpa using hk
    have h := splitRow_add rs i k hi' hk'
    have e : ((r :: rs).take (i + 1)).sum + k - r = (rs.take i).sum + k := by simp; omega
    have hn : ¬ ((r :: rs).take (i + 1)).sum + k < r := by simp; omega
    rw [splitRow, if_neg hn, e, h]

theorem splitRow_spec : ∀ (l : List Nat) (f : Nat), f < l.sum →
    ∃ (i k : Nat) (hi : i < l.length), splitRow l f = (i, k) ∧ k < l[i] ∧ (l.take i).sum + k = f
  | [], f, h => absurd h (by simp)
  | r :: rs, f, h => by
    by_cases hf : f < r
    · exact ⟨0, f, by simp, by simp [splitRow, hf], hf, by simp⟩
    · obtain ⟨i, k, hi, e, hk, hs⟩ := splitRow_spec rs (f - r) (by simp at h; omega)
      refine ⟨i + 1, k, by simpa using hi, by rw [splitRow, if_neg hf, e], by simpa using hk, ?_⟩
      simp
      omega

section
variable {α : Type}

/-- The numbers of rows of the constraints of the system. -/
def World.rowCounts (w : World α) : List Nat := w.cs.map (fun c => (w.cons c).rows)

/-- The first row of constraint `i`. -/
def World.off (w : World α) (i : Nat) : Nat := (w.rowCounts.take i).sum

/-- The position (in the list of constraints) of the constraint to which row `f` belongs. -/
def World.rowI (w : World α) (f : Nat) : Nat := (splitRow w.rowCounts f).1

/-- The row inside of its constraint. -/
def World.rowK (w : World α) (f : Nat) : Nat := (splitRow w.rowCounts f).2

/-- The constraint to which row `f` belongs. -/
def World.rowC (w : World α) (f : Nat) : Nat := w.cs.getD (w.rowI f) 0

theorem fullCount_eq (w : World α) : w.fullCount = w.rowCounts.sum := by
  have h : ∀ (l : List Nat) (a : Nat), l.foldl (fun count c => count + (w.cons c).rows) a =
      a + (l.map (fun c => (w.cons c).rows)).sum := by
    intro l
    induction l with
    | nil => intro a; simp
    | cons x xs ih => intro a; rw [List.foldl_cons, ih]; simp; omega
  rw [World.fullCount, h]; simp [World.rowCounts]

theorem off_zero (w : World α) : w.off 0 = 0 := by simp [World.off]

theorem rowCounts_length (w : World α) : w.rowCounts.length = w.conCount := by
  simp [World.rowCounts, World.conCount]

theorem rowCounts_get (w : World α) {i : Nat} (hi : i < w.cs.length) :
    w.rowCounts[i]'(by rw [rowCounts_length]; exact hi) = (w.cons w.cs[i]).rows := by
  simp [World.rowCounts]

theorem off_succ (w : World α) {i : Nat} (hi : i < w.cs.length) :
    w.off (i + 1) = w.off i + (w.cons w.cs[i]).rows := by
  have h : i < w.rowCounts.length := by rw [rowCounts_length]; exact hi
  rw [World.off, List.take_succ_eq_append_getElem h, List.sum_append, rowCounts_get w hi]
  simp [World.off]

theorem off_full (w : World α) : w.off w.conCount = w.fullCount := by
  rw [World.off, ← rowCounts_length, List.take_length, fullCount_eq]

theorem off_mono (w : World α) {i j : Nat} (h : i ≤ j) (hj : j ≤ w.cs.length) :
    w.off i ≤ w.off j := by
  induction j with
  | zero => rw [Nat.le_zero.1 h]
  | succ j ih =>
    rcases Nat.lt_or_ge i (j + 1) with h1 | h1
    · rw [off_succ w (by omega)]
      have := ih (by omega) (by omega)
      omega
    · rw [Nat.le_antisymm h h1]

theorem off_lt (w : World α) {i k : Nat} (hi : i < w.cs.length) (hk : k < (w.cons w.cs[i]).rows) :
    w.off i + k < w.fullCount := by
  have h := off_mono w (i := i + 1) (j := w.conCount) (by simpa [World.conCount] using hi)
    (by simp [World.conCount])
  rw [off_full, off_succ w hi] at h
  omega

theorem row_off (w : World α) {i k : Nat} (hi : i < w.cs.length)
    (hk : k < (w.cons w.cs[i]).rows) :
    w.rowI (w.off i + k) = i ∧ w.rowK (w.off i + k) = k ∧ w.rowC (w.off i + k) = w.cs[i] := by
  have h : i < w.rowCounts.length := by rw [rowCounts_length]; exact hi
  have e := splitRow_add w.rowCounts i k h (by rw [rowCounts_get w hi]; exact hk)
  have h1 : w.rowI (w.off i + k) = i := congrArg Prod.fst e
  refine ⟨h1, congrArg Prod.snd e, ?_⟩
  rw [World.rowC, h1, List.getD_eq_getElem _ _ hi]

theorem row_spec (w : World α) {f : Nat} (hf : f < w.fullCount) :
    ∃ hi : w.rowI f < w.cs.length, w.rowC f = w.cs[w.rowI f] ∧
      w.rowK f < (w.cons (w.rowC f)).rows ∧ w.off (w.rowI f) + w.rowK f = f ∧
      w.rowC f ∈ w.cs := by
  rw [fullCount_eq] at hf
  obtain ⟨i, k, hi, e, hk, hs⟩ := splitRow_spec w.rowCounts f hf
  have hi' : i < w.cs.length := by rw [rowCounts_length] at hi; exact hi
  have e1 : w.rowI f = i := congrArg Prod.fst e
  have e2 : w.rowK f = k := congrArg Prod.snd e
  have e3 : w.rowC f = w.cs[i] := by rw [World.rowC, e1, List.getD_eq_getElem _ _ hi']
  have hk' : k < (w.cons w.cs[i]).rows := by rw [← rowCounts_get w hi']; exact hk
  refine ⟨by rw [e1]; exact hi', by simp only [e1, e3], by rw [e2, e3]; exact hk', ?_, ?_⟩
  · rw [e1, e2]; exact hs
  · rw [e3]; exact List.getElem_mem hi'

/-- A system ready to be processed: `B c k` is the index of body `k` of constraint `c`; all indices
are registered. -/
structure World.Fit (w : World α) (B : Nat → Nat → Nat) : Prop where
  pos : ∀ c ∈ w.cs, 1 ≤ (w.cons c).rows
  rows : ∀ c ∈ w.cs, (w.cons c).rows ≤ 3
  two : ∀ c ∈ w.cs, (w.cons c).bodyCount ≤ 2
  idx : ∀ c ∈ w.cs, ∀ k, k < (w.cons c).bodyCount → (w.cons c).idx w.bodies k = .ok (B c k : Int)
  lt : ∀ c ∈ w.cs, ∀ k, k < (w.cons c).bodyCount → B c k < w.bodyCount

/-- Every body that carries a constraint has an index below 255, so that the block index stored in
the Jacobian, an unsigned char, is the index (255 stands for an empty block). -/
def World.Low (w : World α) (B : Nat → Nat → Nat) : Prop :=
  ∀ c ∈ w.cs, ∀ k, k < (w.cons c).bodyCount → B c k < 255

/-- The number of bodies of the constraint to which row `f` belongs. -/
def World.rowN (w : World α) (f : Nat) : Nat := (w.cons (w.rowC f)).bodyCount

theorem World.Fit.con {w : World α} {B : Nat → Nat → Nat} (h : w.Fit B) : w.conCount ≤ w.fullCount := by
  have : ∀ i, i ≤ w.cs.length → i ≤ w.off i := by
    intro i
    induction i with
    | zero => simp
    | succ i ih =>
      intro hi
      rw [off_succ w (by omega)]
      have := h.pos _ (List.getElem_mem (by omega : i < w.cs.length))
      have := ih (by omega)
      omega
  have := this w.conCount (by simp [World.conCount])
  rwa [off_full] at this

end

end Scs
