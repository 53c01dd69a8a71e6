import Verif.Spec
import Verif.SparseReal

/-!
# Properties C01-C08: dense matrices

`Reachable st en s` ranges over all states of all matrix objects after any finite sequence of
public calls (with any aliasing and any contents of fresh memory). The scalar type is arbitrary
unless it is `ℝ`.
-/

namespace Scs

set_option linter.unusedSectionVars false

section
variable {α : Type} [Zero α] [Add α] [Mul α] [Sub α] [Neg α] [Fp α]
variable {st en : Nat} {s : Store α}

/-! ## C01 -/

/-- C01: `set` writes one element and nothing else. -/
theorem C01_set_get (hs : Reachable st en s) (t : MId) {c r : Nat} (hc : c < (s.mat t).width)
    (hr : r < (s.mat t).height) (v : α) :
    ∃ s', s.set t c r v = .ok s' ∧ s'.get t c r = .ok v ∧
      (∀ c' r', (c', r') ≠ (c, r) → s'.get t c' r' = s.get t c' r') ∧
      (s'.mat t).width = (s.mat t).width ∧ (s'.mat t).height = (s.mat t).height ∧
      OthersSame t s s' := by
  have wf := hs.inv.mat t
  obtain ⟨s', e, o, _, sh, hv⟩ := Store.set_spec s t wf hc hr v
  have wf' := sh.wf wf
  refine ⟨s', e, ?_, ?_, sh.width, sh.height, o.others⟩
  · rw [Store.get_ok s' t wf' (by rw [sh.width]; exact hc) (by rw [sh.height]; exact hr),
      hv r c hr hc, if_pos ⟨rfl, rfl⟩]
  · intro c' r' hne
    by_cases h1 : c' < (s.mat t).width
    · by_cases h2 : r' < (s.mat t).height
      · rw [Store.get_ok s' t wf' (by rw [sh.width]; exact h1) (by rw [sh.height]; exact h2),
          Store.get_ok s t wf h1 h2, hv r' c' h2 h1, if_neg]
        rintro ⟨rfl, rfl⟩; exact hne rfl
      · rw [Store.get, Store.get, sh.width, chk_true _ h1, ok_bind, ok_bind, sh.height,
          chk_false _ h2]; rfl
    · rw [Store.get, Store.get, sh.width, chk_false _ h1]; rfl

/-- C01: `add` adds to one element and changes nothing else. -/
theorem C01_add_get (hs : Reachable st en s) (t : MId) {c r : Nat} (hc : c < (s.mat t).width)
    (hr : r < (s.mat t).height) (v : α) :
    ∃ s' x, s.get t c r = .ok x ∧ s.addAt t c r v = .ok s' ∧ s'.get t c r = .ok (x + v) ∧
      (∀ c' r', (c', r') ≠ (c, r) → s'.get t c' r' = s.get t c' r') ∧
      (s'.mat t).width = (s.mat t).width ∧ (s'.mat t).height = (s.mat t).height ∧
      OthersSame t s s' := by
  have wf := hs.inv.mat t
  obtain ⟨s', e, o, _, sh, hv⟩ := Store.addAt_spec s t wf hc hr v
  have wf' := sh.wf wf
  refine ⟨s', (s.mat t).ent r c, Store.get_ok s t wf hc hr, e, ?_, ?_, sh.width, sh.height,
    o.others⟩
  · rw [Store.get_ok s' t wf' (by rw [sh.width]; exact hc) (by rw [sh.height]; exact hr),
      hv r c hr hc, if_pos ⟨rfl, rfl⟩]
  · intro c' r' hne
    by_cases h1 : c' < (s.mat t).width
    · by_cases h2 : r' < (s.mat t).height
      · rw [Store.get_ok s' t wf' (by rw [sh.width]; exact h1) (by rw [sh.height]; exact h2),
          Store.get_ok s t wf h1 h2, hv r' c' h2 h1, if_neg]
        rintro ⟨rfl, rfl⟩; exact hne rfl
      · rw [Store.get, Store.get, sh.width, chk_true _ h1, ok_bind, ok_bind, sh.height,
          chk_false _ h2]; rfl
    · rw [Store.get, Store.get, sh.width, chk_false _ h1]; rfl

/-- C01: element access outside the matrix stops at an assert, in every state. -/
theorem C01_out_of_range (s : Store α) (t : MId) {c r : Nat}
    (h : ¬(c < (s.mat t).width ∧ r < (s.mat t).height)) (v : α) :
    Asserts (s.get t c r) ∧ Asserts (s.set t c r v) ∧ Asserts (s.addAt t c r v) := by
  by_cases hc : c < (s.mat t).width
  · have hr : ¬ r < (s.mat t).height := fun hr => h ⟨hc, hr⟩
    refine ⟨⟨"matrix.h:37", ?_⟩, ⟨"matrix.h:23", ?_⟩, ⟨"matrix.h:30", ?_⟩⟩
    · rw [Store.get, chk_true _ hc, ok_bind, chk_false _ hr]; rfl
    · rw [Store.set, chk_true _ hc, ok_bind, chk_false _ hr]; rfl
    · rw [Store.addAt, chk_true _ hc, ok_bind, chk_false _ hr]; rfl
  · refine ⟨⟨"matrix.h:36", ?_⟩, ⟨"matrix.h:22", ?_⟩, ⟨"matrix.h:29", ?_⟩⟩
    · rw [Store.get, chk_false _ hc]; rfl
    · rw [Store.set, chk_false _ hc]; rfl
    · rw [Store.addAt, chk_false _ hc]; rfl

/-- C01: `fastRowSwap` of two rows of the matrix exchanges these rows and nothing else. -/
theorem C01_rowSwap (hs : Reachable st en s) (t : MId) {a b : Nat} (ha : a < (s.mat t).height)
    (hb : b < (s.mat t).height) :
    ∃ s', s.rowSwap t a b = .ok s' ∧
      (s'.mat t).width = (s.mat t).width ∧ (s'.mat t).height = (s.mat t).height ∧
      (∀ c, s'.get t c a = s.get t c b) ∧ (∀ c, s'.get t c b = s.get t c a) ∧
      (∀ c r, r ≠ a → r ≠ b → s'.get t c r = s.get t c r) ∧ OthersSame t s s' := by
  have wf := hs.inv.mat t
  obtain ⟨s', e, o, _, wf', hw, hh, hv⟩ := Store.rowSwap_spec s t wf ha hb
  have key : ∀ c r r', r < (s.mat t).height → r' < (s.mat t).height →
      r' = (if r = a then b else if r = b then a else r) → s'.get t c r = s.get t c r' := by
    intro c r r' hr hr' he
    by_cases hc : c < (s.mat t).width
    · rw [Store.get_ok s' t wf' (by rw [hw]; exact hc) (by rw [hh]; exact hr),
        Store.get_ok s t wf hc hr', hv r c hr hc, he]
    · rw [Store.get, Store.get, hw, chk_false _ hc]; rfl
  refine ⟨s', e, hw, hh, fun c => key c a b ha hb (by rw [if_pos rfl]), fun c => ?_, ?_, o.others⟩
  · refine key c b a hb ha ?_
    by_cases h : b = a
    · rw [if_pos h]; exact h.symm
    · rw [if_neg h, if_pos rfl]
  · intro c r h1 h2
    by_cases hr : r < (s.mat t).height
    · exact key c r r hr hr (by rw [if_neg h1, if_neg h2])
    · by_cases hc : c < (s.mat t).width
      · rw [Store.get, Store.get, hw, chk_true _ hc, ok_bind, ok_bind, hh, chk_false _ hr]; rfl
      · rw [Store.get, Store.get, hw, chk_false _ hc]; rfl

/-! ## C02 -/

/-- Every call of the program meets its memory safety precondition in the state it runs in. -/
def SafeRun (st en : Nat) : List (Call α) → Store α → Prop
  | [], _ => True
  | c :: cs, s => SafeCall c s ∧ ∀ s', run st en c s = .ok s' → SafeRun st en cs s'

/-- C02 (partial): in every reachable state a call that meets `SafeCall` either succeeds or stops at
an assert. Missing from the full claim, because the code violates it (see `C02_unsafe_*`): calls of
`dot`/`vectorMagnitudeSquared` on a column whose rows were swapped, `multiply`,
`transposeMultiply`, `transpose` and `rightScale` into an operand that has to change shape, and
`fastRowSwap` outside the matrix. -/
theorem C02_call_safe_partial (hs : Reachable st en s) (c : Call α) (hc : SafeCall c s) :
    (∃ s', run st en c s = .ok s') ∨ Asserts (run st en c s) := by
  have h := run_safe hs.inv c hc (P := Restr.none) (by cases c <;> first | trivial | exact id)
  cases e : run st en c s with
  | ok s' => exact Or.inl ⟨s', rfl⟩
  | error er =>
    rw [e] at h
    cases er with
    | assert loc => exact Or.inr ⟨loc, rfl⟩
    | _ => exact h.elim

/-- C02 (partial): the same for whole programs. -/
theorem C02_program_safe_partial (cs : List (Call α)) (junk : Nat → Nat → α)
    (junkB : Nat → Nat → Nat) (hc : SafeRun st en cs (Store.fresh junk junkB)) :
    (∃ s', exec st en cs (Store.fresh junk junkB) = .ok s') ∨
      Asserts (exec st en cs (Store.fresh junk junkB)) := by
  have key : ∀ (cs : List (Call α)) (s : Store α), Inv st en Restr.none s →
      SafeRun st en cs s → (∃ s', exec st en cs s = .ok s') ∨ Asserts (exec st en cs s) := by
    intro cs
    induction cs with
    | nil => exact fun s _ _ => Or.inl ⟨s, rfl⟩
    | cons c cs ih =>
      intro s hi hc
      have h := run_safe hi c hc.1 (by cases c <;> first | trivial | exact id)
      rw [exec]
      cases e : run st en c s with
      | ok s' =>
        rw [e] at h
        rw [ok_bind]
        exact ih s' h (hc.2 s' e)
      | error er =>
        rw [e] at h
        cases er with
        | assert loc => exact Or.inr ⟨loc, rfl⟩
        | _ => exact h.elim
  exact key cs _ (Inv.ofFresh st en junk junkB) hc

/-- C02: without row swaps on the operands, `dot` and `vectorMagnitudeSquared` are safe. -/
theorem C02_dot_safe_without_swaps {P : Restr} (hs : ReachableNS st en P s) {a b : MId}
    (ha : P.plain a) (hb : P.plain b) :
    ((∃ x, s.dot a b = .ok x) ∨ Asserts (s.dot a b)) ∧
      ((∃ x, s.vectorMagnitudeSquared a = .ok x) ∨ Asserts (s.vectorMagnitudeSquared a)) := by
  have hi := hs.inv
  constructor
  · by_cases hw : (s.mat a).width = 1
    · by_cases hw' : (s.mat b).width = 1
      · by_cases hh : (s.mat b).height = (s.mat a).height
        · exact Or.inl ⟨_, Store.dot_spec s a b (hi.mat a) (hi.mat b) (hi.plain a ha)
            (hi.plain b hb) hw hw' hh⟩
        · exact Or.inr ⟨_, by
            rw [Store.dot, chk_true _ hw, ok_bind, chk_true _ hw', ok_bind, chk_false _ hh]; rfl⟩
      · exact Or.inr ⟨_, by rw [Store.dot, chk_true _ hw, ok_bind, chk_false _ hw']; rfl⟩
    · exact Or.inr ⟨_, by rw [Store.dot, chk_false _ hw]; rfl⟩
  · by_cases hw : (s.mat a).width = 1
    · exact Or.inl ⟨_, Store.vms_spec s a (hi.mat a) (hi.plain a ha) hw⟩
    · exact Or.inr ⟨_, by rw [Store.vectorMagnitudeSquared, chk_false _ hw]; rfl⟩

/-- C02 violated: `vectorMagnitudeSquared` of a 2-vector whose rows were swapped reads past the end
of the storage. -/
theorem C02_unsafe_vms (junk : Nat → Nat → α) (junkB : Nat → Nat → Nat) (x : α) :
    exec st en [.init (.user 0) 1 2 x, .rowSwap (.user 0) 0 1, .vms (.user 0)]
      (Store.fresh junk junkB) = .error .oob := rfl

/-- C02 violated: the same for `dot`. -/
theorem C02_unsafe_dot (junk : Nat → Nat → α) (junkB : Nat → Nat → Nat) (x : α) :
    exec st en [.init (.user 0) 1 2 x, .init (.user 1) 1 2 x, .rowSwap (.user 0) 0 1,
      .dot (.user 0) (.user 1)] (Store.fresh junk junkB) = .error .oob := rfl

/-- C02 violated: `a.multiply(b, &a)` with `a` 1 x 2 (one row) and `b` 2 x 3 reads past the end. -/
theorem C02_unsafe_multiply (junk : Nat → Nat → α) (junkB : Nat → Nat → Nat) (x : α) :
    exec st en [.init (.user 0) 2 1 x, .init (.user 1) 3 2 x,
      .multiply (.user 0) (.user 1) (.user 0)] (Store.fresh junk junkB) = .error .oob := rfl

/-- C02 violated: `a.transposeMultiply(b, &a)` with `a` 2 x 1 and `b` 2 x 3. -/
theorem C02_unsafe_transposeMultiply (junk : Nat → Nat → α) (junkB : Nat → Nat → Nat) (x : α) :
    exec st en [.init (.user 0) 1 2 x, .init (.user 1) 3 2 x,
      .transposeMultiply (.user 0) (.user 1) (.user 0)] (Store.fresh junk junkB)
      = .error .oob := rfl

/-- C02 violated: `a.transpose(&a)` for a column of two elements. -/
theorem C02_unsafe_transpose (junk : Nat → Nat → α) (junkB : Nat → Nat → Nat) (x : α) :
    exec st en [.init (.user 0) 1 2 x, .transpose (.user 0) (.user 0)]
      (Store.fresh junk junkB) = .error .oob := rfl

/-- C02 violated: `a.rightScale(s, &s)` for a single row of two elements. -/
theorem C02_unsafe_rightScale (junk : Nat → Nat → α) (junkB : Nat → Nat → Nat) (x : α) :
    exec st en [.init (.user 0) 2 1 x, .init (.user 1) 1 2 x,
      .rightScale (.user 0) (.user 1) (.user 1)] (Store.fresh junk junkB) = .error .oob := rfl

/-- C02 violated: `fastRowSwap` outside the matrix. -/
theorem C02_unsafe_rowSwap (junk : Nat → Nat → α) (junkB : Nat → Nat → Nat) (x : α) :
    exec st en [.init (.user 0) 1 2 x, .rowSwap (.user 0) 0 2]
      (Store.fresh junk junkB) = .error .oob := rfl

/-- A reachable state with a 3 x 2 matrix (`user 0`) whose rows have been swapped, a 2 x 3 matrix
(`user 1`), a column (`user 2`) and an unused matrix (`user 3`): meets the hypotheses of C01-C05. -/
theorem demo_reachable (junk : Nat → Nat → α) (junkB : Nat → Nat → Nat) (x y z : α) :
    ∃ s : Store α, ReachableNS st en ⟨fun i => i ≠ .user 0, fun _ => True⟩ s ∧ (s.mat (.user 0)).width = 3 ∧
      (s.mat (.user 0)).height = 2 ∧ (s.mat (.user 1)).width = 2 ∧ (s.mat (.user 1)).height = 3 ∧
      (s.mat (.user 2)).width = 1 ∧ (s.mat (.user 2)).height = 2 ∧
      s.get (.user 0) 2 0 = .ok z ∧ s.get (.user 0) 1 1 = .ok x ∧ s.get (.user 2) 0 1 = .ok y := by
  refine ⟨_, .call (.init (.user 2) 1 2 y) (.call (.init (.user 1) 2 3 y)
    (.call (.rowSwap (.user 0) 0 1) (.call (.set (.user 0) 2 1 z)
      (.call (.init (.user 0) 3 2 x) (.fresh junk junkB) trivial trivial rfl) trivial trivial rfl)
      ⟨(by decide : 0 < 2), (by decide : 1 < 2)⟩ (fun h => h rfl) rfl) trivial trivial rfl)
    trivial trivial rfl, ?_⟩
  exact ⟨rfl, rfl, rfl, rfl, rfl, rfl, rfl, rfl, rfl⟩

/-- The hypotheses of `C01_*` and `C02_call_safe_partial` are met by a non-trivial state. -/
example (x y z : α) : ∃ s : Store α, Reachable st en s ∧ 2 < (s.mat (.user 0)).width ∧
    1 < (s.mat (.user 0)).height ∧ SafeCall (.multiply (.user 0) (.user 1) (.user 3)) s := by
  obtain ⟨s, h, h1, h2, _⟩ := demo_reachable (st := st) (en := en) (fun _ _ => x) (fun _ _ => 7) x y z
  exact ⟨s, h.any, by omega, by omega, Or.inl ⟨by decide, by decide⟩⟩

/-! ## C03 -/

/-- C03: `initialize(w, h, v)` in any reachable state. -/
theorem C03_init (hs : Reachable st en s) (t : MId) (w h : Nat) (v : α) :
    ∃ s', s.init t w h v = .ok s' ∧ s'.Shows t w h (fun _ _ => v) ∧ OthersSame t s s' := by
  obtain ⟨s', e, hw⟩ := Store.init_spec s t w h v (hs.inv.mat t)
  exact ⟨s', e, hw.shows, hw.only.others⟩

/-- C03: `initialize(w, h)` in any reachable state. -/
theorem C03_init_zero (hs : Reachable st en s) (t : MId) (w h : Nat) :
    ∃ s', s.init0 t w h = .ok s' ∧ s'.Shows t w h (fun _ _ => 0) ∧ OthersSame t s s' := by
  obtain ⟨s', e, hw⟩ := Store.init0_spec s t w h (hs.inv.mat t)
  exact ⟨s', e, hw.shows, hw.only.others⟩

/-- C03: `resize(w, h)` gives a usable `w` x `h` matrix: every element can be read. -/
theorem C03_resize (hs : Reachable st en s) (t : MId) (w h : Nat) :
    ∃ s', s.resize t w h = .ok s' ∧ (∃ g, s'.Shows t w h g) ∧ OthersSame t s s' := by
  obtain ⟨s', e, o, wf, hw, hh, _⟩ := Store.resize_spec s t w h (hs.inv.mat t)
  exact ⟨s', e, ⟨_, Store.shows_of wf hw hh (fun _ _ _ _ => rfl)⟩, o.others⟩

/-- C03: `resize` to the present size changes nothing at all. -/
theorem C03_resize_same (s : Store α) (t : MId) :
    s.resize t (s.mat t).width (s.mat t).height = .ok s := by
  rw [Store.resize]; simp

/-- C03: `destroy` returns the matrix to the freshly constructed state (so it may be destructed),
and everything that holds for a new matrix holds again. -/
theorem C03_destroy (hs : Reachable st en s) (t : MId) :
    ∃ s', s.destroy t = .ok s' ∧ s'.mat t = Mat.empty ∧ s'.dtor t = .ok ⟨⟩ ∧
      OthersSame t s s' := by
  obtain ⟨s', e, o, he⟩ := Store.destroy_spec s t (hs.inv.mat t)
  refine ⟨s', e, he, ?_, o.others⟩
  rw [Store.dtor, he]; rfl

/-- C03: the destructor asserts exactly when the matrix still owns storage. -/
theorem C03_dtor (s : Store α) (t : MId) :
    s.dtor t = .ok ⟨⟩ ↔ (s.mat t).rows = none := by
  rw [Store.dtor, chk]
  cases (s.mat t).rows <;> simp

example (x y z : α) : ∃ s s' : Store α, Reachable st en s ∧ s.destroy (.user 0) = .ok s' ∧
    (s.mat (.user 0)).width = 3 ∧ s'.dtor (.user 0) = .ok ⟨⟩ := by
  obtain ⟨s, h, h1, _⟩ := demo_reachable (st := st) (en := en) (fun _ _ => x) (fun _ _ => 7) x y z
  have h' : Reachable st en s := h.any
  obtain ⟨s', e, _, hd, _⟩ := C03_destroy h' (.user 0)
  exact ⟨s, s', h', e, h1, hd⟩

/-! ## C04, C05

Elementwise functions and scalings are stated for every target, also an operand (C05). -/

variable {a b t sc : MId} {w h n : Nat} {A B : Nat → Nat → α}

/-- C04/C05: `set(Matrix*)` copies. -/
theorem C04_copy (hs : Reachable st en s) (ha : s.Shows a w h A) :
    ∃ s', s.setMatFrom t a = .ok s' ∧ s'.Shows t w h A ∧ OthersSame t s s' := by
  obtain ⟨s', e, hw⟩ := Store.setMatFrom_spec s t a (hs.inv.mat a) (hs.inv.mat t)
  rw [ha.width, ha.height] at hw
  exact ⟨s', e, hw.shows.congr (fun r c hr hc => ha.ent hr hc), hw.only.others⟩

/-- C04/C05: `scale`. -/
theorem C04_scale (hs : Reachable st en s) (ha : s.Shows a w h A) (k : α) :
    ∃ s', s.scale a k t = .ok s' ∧ s'.Shows t w h (fun r c => k * A r c) ∧ OthersSame t s s' := by
  obtain ⟨s', e, hw⟩ := Store.scale_spec s a k t (hs.inv.mat a) (hs.inv.mat t)
  rw [ha.width, ha.height] at hw
  exact ⟨s', e, hw.shows.congr (fun r c hr hc => by rw [ha.ent hr hc]), hw.only.others⟩

/-- C04/C05: `negate`. -/
theorem C04_negate (hs : Reachable st en s) (ha : s.Shows a w h A) :
    ∃ s', s.negate a t = .ok s' ∧ s'.Shows t w h (fun r c => -A r c) ∧ OthersSame t s s' := by
  obtain ⟨s', e, hw⟩ := Store.negate_spec s a t (hs.inv.mat a) (hs.inv.mat t)
  rw [ha.width, ha.height] at hw
  exact ⟨s', e, hw.shows.congr (fun r c hr hc => by rw [ha.ent hr hc]), hw.only.others⟩

/-- C04/C05: `add`. -/
theorem C04_add (hs : Reachable st en s) (ha : s.Shows a w h A) (hb : s.Shows b w h B) :
    ∃ s', s.addM a b t = .ok s' ∧ s'.Shows t w h (fun r c => A r c + B r c) ∧
      OthersSame t s s' := by
  obtain ⟨s', e, hw⟩ := Store.addM_spec s a b t (hs.inv.mat a) (hs.inv.mat b) (hs.inv.mat t)
    (by rw [ha.width, hb.width]) (by rw [ha.height, hb.height])
  rw [ha.width, ha.height] at hw
  exact ⟨s', e, hw.shows.congr (fun r c hr hc => by rw [ha.ent hr hc, hb.ent hr hc]),
    hw.only.others⟩

/-- C04/C05: `subtract`. -/
theorem C04_subtract (hs : Reachable st en s) (ha : s.Shows a w h A) (hb : s.Shows b w h B) :
    ∃ s', s.subtract a b t = .ok s' ∧ s'.Shows t w h (fun r c => A r c - B r c) ∧
      OthersSame t s s' := by
  obtain ⟨s', e, hw⟩ := Store.subtract_spec s a b t (hs.inv.mat a) (hs.inv.mat b) (hs.inv.mat t)
    (by rw [ha.width, hb.width]) (by rw [ha.height, hb.height])
  rw [ha.width, ha.height] at hw
  exact ⟨s', e, hw.shows.congr (fun r c hr hc => by rw [ha.ent hr hc, hb.ent hr hc]),
    hw.only.others⟩

/-- C04/C05: `componentMultiply`. -/
theorem C04_componentMultiply (hs : Reachable st en s) (ha : s.Shows a w h A)
    (hb : s.Shows b w h B) :
    ∃ s', s.componentMultiply a b t = .ok s' ∧ s'.Shows t w h (fun r c => A r c * B r c) ∧
      OthersSame t s s' := by
  obtain ⟨s', e, hw⟩ := Store.componentMultiply_spec s a b t (hs.inv.mat a) (hs.inv.mat b)
    (hs.inv.mat t) (by rw [ha.width, hb.width]) (by rw [ha.height, hb.height])
  rw [ha.width, ha.height] at hw
  exact ⟨s', e, hw.shows.congr (fun r c hr hc => by rw [ha.ent hr hc, hb.ent hr hc]),
    hw.only.others⟩

/-- C04/C05: `madd` (`this += b * k`), `b` may be `this`. -/
theorem C04_madd (hs : Reachable st en s) (ha : s.Shows a w h A) (hb : s.Shows b w h B) (k : α) :
    ∃ s', s.madd a b k = .ok s' ∧ s'.Shows a w h (fun r c => A r c + B r c * k) ∧
      OthersSame a s s' := by
  obtain ⟨s', e, hw⟩ := Store.madd_spec s a b k (hs.inv.mat a) (hs.inv.mat b)
    (by rw [ha.width, hb.width]) (by rw [ha.height, hb.height])
  rw [ha.width, ha.height] at hw
  exact ⟨s', e, hw.shows.congr (fun r c hr hc => by rw [ha.ent hr hc, hb.ent hr hc]),
    hw.only.others⟩

/-- C04/C05: `pmadd` (`this = k * this + b`), `b` may be `this`. -/
theorem C04_pmadd (hs : Reachable st en s) (ha : s.Shows a w h A) (hb : s.Shows b w h B) (k : α) :
    ∃ s', s.pmadd a b k = .ok s' ∧ s'.Shows a w h (fun r c => k * A r c + B r c) ∧
      OthersSame a s s' := by
  obtain ⟨s', e, hw⟩ := Store.pmadd_spec s a b k (hs.inv.mat a) (hs.inv.mat b)
    (by rw [ha.width, hb.width]) (by rw [ha.height, hb.height])
  rw [ha.width, ha.height] at hw
  exact ⟨s', e, hw.shows.congr (fun r c hr hc => by rw [ha.ent hr hc, hb.ent hr hc]),
    hw.only.others⟩

/-- C04/C05: `leftScale` is `diag(S) A`; the target may be `a`, not the scale vector. -/
theorem C04_leftScale (hs : Reachable st en s) (ha : s.Shows a w h A) (hb : s.Shows sc 1 h B)
    (hne : sc ≠ t) :
    ∃ s', s.leftScale a sc t = .ok s' ∧ s'.Shows t w h (fun r c => B r 0 * A r c) ∧
      OthersSame t s s' := by
  obtain ⟨s', e, hw⟩ := Store.leftScale_spec s a sc t hne (hs.inv.mat a) (hs.inv.mat sc)
    (hs.inv.mat t) hb.width (by rw [ha.height, hb.height])
  rw [ha.width, ha.height] at hw
  exact ⟨s', e, hw.shows.congr (fun r c hr hc => by rw [ha.ent hr hc, hb.ent hr (by omega)]),
    hw.only.others⟩

/-- C04/C05: `rightScale` is `A diag(S)`; the target may be `a`, not the scale vector. -/
theorem C04_rightScale (hs : Reachable st en s) (ha : s.Shows a w h A) (hb : s.Shows sc 1 w B)
    (hne : sc ≠ t) :
    ∃ s', s.rightScale a sc t = .ok s' ∧ s'.Shows t w h (fun r c => B c 0 * A r c) ∧
      OthersSame t s s' := by
  obtain ⟨s', e, hw⟩ := Store.rightScale_spec s a sc t hne (hs.inv.mat a) (hs.inv.mat sc)
    (hs.inv.mat t) hb.width (by rw [ha.width, hb.height])
  rw [ha.width, ha.height] at hw
  exact ⟨s', e, hw.shows.congr (fun r c hr hc => by rw [ha.ent hr hc, hb.ent hc (by omega)]),
    hw.only.others⟩

/-- C04: `transpose` into another matrix. -/
theorem C04_transpose (hs : Reachable st en s) (ha : s.Shows a w h A) (hne : a ≠ t) :
    ∃ s', s.transpose a t = .ok s' ∧ s'.Shows t h w (fun r c => A c r) ∧ OthersSame t s s' := by
  obtain ⟨s', e, hw⟩ := Store.transpose_spec s a t hne (hs.inv.mat a) (hs.inv.mat t)
  rw [ha.width, ha.height] at hw
  exact ⟨s', e, hw.shows.congr (fun r c hr hc => by rw [ha.ent hc hr]), hw.only.others⟩

/-- C04: `multiply` for any scalars: row times column, accumulated from 0 left to right. -/
theorem C04_multiply_any (hs : Reachable st en s) (ha : s.Shows a n h A) (hb : s.Shows b w n B)
    (hta : a ≠ t) (htb : b ≠ t) :
    ∃ s', s.multiply a b t = .ok s' ∧
      s'.Shows t w h (fun r c => sumTo n (fun k => A r k * B k c)) ∧ OthersSame t s s' := by
  obtain ⟨s', e, hw⟩ := Store.multiply_spec s a b t hta htb (hs.inv.mat a) (hs.inv.mat b)
    (hs.inv.mat t) (by rw [ha.width, hb.height])
  rw [ha.width, ha.height, hb.width] at hw
  exact ⟨s', e, hw.shows.congr (fun r c hr hc => sumTo_congr (fun k hk => by
    rw [ha.ent hr hk, hb.ent hk hc])), hw.only.others⟩

/-- C04: `transposeMultiply` for any scalars. -/
theorem C04_transposeMultiply_any (hs : Reachable st en s) (ha : s.Shows a h n A)
    (hb : s.Shows b w n B) (hta : a ≠ t) (htb : b ≠ t) :
    ∃ s', s.transposeMultiply a b t = .ok s' ∧
      s'.Shows t w h (fun r c => sumTo n (fun k => A k r * B k c)) ∧ OthersSame t s s' := by
  obtain ⟨s', e, hw⟩ := Store.transposeMultiply_spec s a b t hta htb (hs.inv.mat a) (hs.inv.mat b)
    (hs.inv.mat t) (by rw [ha.height, hb.height])
  rw [ha.width, ha.height, hb.width] at hw
  exact ⟨s', e, hw.shows.congr (fun r c hr hc => sumTo_congr (fun k hk => by
    rw [ha.ent hk hr, hb.ent hk hc])), hw.only.others⟩

/-- C04: operands of the wrong size stop at an assert (and no matrix has been touched: the assert
comes first). -/
theorem C04_mismatch (s : Store α) (a b t : MId) (k : α) :
    ((s.mat a).width ≠ (s.mat b).height → Asserts (s.multiply a b t)) ∧
    ((s.mat a).height ≠ (s.mat b).height → Asserts (s.transposeMultiply a b t)) ∧
    ((s.mat b).width ≠ 1 ∨ (s.mat b).height ≠ (s.mat a).height → Asserts (s.leftScale a b t)) ∧
    ((s.mat b).width ≠ 1 ∨ (s.mat b).height ≠ (s.mat a).width → Asserts (s.rightScale a b t)) ∧
    ((s.mat a).width ≠ (s.mat b).width ∨ (s.mat a).height ≠ (s.mat b).height →
      Asserts (s.addM a b t) ∧ Asserts (s.subtract a b t) ∧ Asserts (s.componentMultiply a b t) ∧
      Asserts (s.madd a b k) ∧ Asserts (s.pmadd a b k)) := by
  have two : ∀ {σ : Type} (p q : Prop) [Decidable p] [Decidable q] (l l' : String) (x : Exec σ),
      ¬p ∨ ¬q → Asserts (do chk p l; chk q l'; x) := by
    intro σ p q _ _ l l' x h
    by_cases hp : p
    · rcases h with h | h
      · exact absurd hp h
      · exact ⟨l', by rw [chk_true _ hp, ok_bind, chk_false _ h]; rfl⟩
    · exact ⟨l, by rw [chk_false _ hp]; rfl⟩
  refine ⟨fun h => ⟨"matrix.cpp:96", ?_⟩, fun h => ⟨"matrix.cpp:126", ?_⟩, fun h => ?_, fun h => ?_,
    fun h => ⟨?_, ?_, ?_, ?_, ?_⟩⟩
  · rw [Store.multiply, chk_false _ h]; rfl
  · rw [Store.transposeMultiply, chk_false _ h]; rfl
  · exact two _ _ _ _ _ h
  · exact two _ _ _ _ _ h
  · exact two _ _ _ _ _ (h.imp Ne.symm Ne.symm)
  · exact two _ _ _ _ _ (h.imp Ne.symm Ne.symm)
  · exact two _ _ _ _ _ h.symm
  · exact two _ _ _ _ _ h
  · exact two _ _ _ _ _ h

/-- The hypotheses of the C04 theorems are met by a reachable state with rectangular operands. -/
example (x y z : α) : ∃ (s : Store α) (A B : Nat → Nat → α), Reachable st en s ∧
    s.Shows (.user 0) 3 2 A ∧ s.Shows (.user 1) 2 3 B ∧ A 0 2 = z := by
  obtain ⟨s, h, h1, h2, h3, h4, _, _, hz, _⟩ :=
    demo_reachable (st := st) (en := en) (fun _ _ => x) (fun _ _ => 7) x y z
  refine ⟨s, (s.mat (.user 0)).ent, (s.mat (.user 1)).ent, h.any, ?_, ?_, ?_⟩
  · have := (h.inv.mat (.user 0)).shows; rwa [h1, h2] at this
  · have := (h.inv.mat (.user 1)).shows; rwa [h3, h4] at this
  · rw [Store.get_ok s _ (h.inv.mat _) (by omega) (by omega)] at hz
    exact Except.ok.inj hz

end

section Real
variable {st en : Nat} {s : Store ℝ} {a b t : MId} {w h n : Nat} {A B : Nat → Nat → ℝ}

open Finset

/-- C04: `multiply` is the matrix product. -/
theorem C04_multiply (hs : Reachable st en s) (ha : s.Shows a n h A) (hb : s.Shows b w n B)
    (hta : a ≠ t) (htb : b ≠ t) :
    ∃ s', s.multiply a b t = .ok s' ∧
      s'.Shows t w h (fun r c => ∑ k ∈ range n, A r k * B k c) ∧ OthersSame t s s' := by
  obtain ⟨s', e, h1, h2⟩ := C04_multiply_any hs ha hb hta htb
  exact ⟨s', e, h1.congr (fun _ _ _ _ => sumTo_eq _ _), h2⟩

/-- C04: `transposeMultiply` is the product of the transpose with `b`. -/
theorem C04_transposeMultiply (hs : Reachable st en s) (ha : s.Shows a h n A)
    (hb : s.Shows b w n B) (hta : a ≠ t) (htb : b ≠ t) :
    ∃ s', s.transposeMultiply a b t = .ok s' ∧
      s'.Shows t w h (fun r c => ∑ k ∈ range n, A k r * B k c) ∧ OthersSame t s s' := by
  obtain ⟨s', e, h1, h2⟩ := C04_transposeMultiply_any hs ha hb hta htb
  exact ⟨s', e, h1.congr (fun _ _ _ _ => sumTo_eq _ _), h2⟩

end Real

section
variable {α : Type} [Zero α] [Add α] [Mul α] [Sub α] [Neg α] [Fp α]
variable {st en : Nat} {s : Store α}
variable {a b t sc : MId} {w h n : Nat} {A B : Nat → Nat → α}

/-- Two outcomes leave the same matrix, in `t` and `t'` respectively. -/
def SameResult (x y : Exec (Store α)) (t t' : MId) : Prop :=
  ∃ s1 s2 w h g, x = .ok s1 ∧ y = .ok s2 ∧ s1.Shows t w h g ∧ s2.Shows t' w h g

/-- C05 (partial): the elementwise functions, and the scalings when the target is the scaled matrix,
give in place (`t = a` or `t = b`) what they give into any other target `t'`. Missing, because the
code violates it (see `C05_*_in_place_wrong`): `multiply`, `transposeMultiply`, `transpose` into an
operand and `leftScale`, `rightScale` into the scale vector. -/
theorem C05_in_place_partial (hs : Reachable st en s) (ha : s.Shows a w h A) (hb : s.Shows b w h B)
    (t t' : MId) (k : α) :
    SameResult (s.scale a k t) (s.scale a k t') t t' ∧
    SameResult (s.negate a t) (s.negate a t') t t' ∧
    SameResult (s.addM a b t) (s.addM a b t') t t' ∧
    SameResult (s.subtract a b t) (s.subtract a b t') t t' ∧
    SameResult (s.componentMultiply a b t) (s.componentMultiply a b t') t t' ∧
    (∀ sc S, s.Shows sc 1 h S → sc ≠ t → sc ≠ t' →
      SameResult (s.leftScale a sc t) (s.leftScale a sc t') t t') ∧
    (∀ sc S, s.Shows sc 1 w S → sc ≠ t → sc ≠ t' →
      SameResult (s.rightScale a sc t) (s.rightScale a sc t') t t') := by
  refine ⟨?_, ?_, ?_, ?_, ?_, ?_, ?_⟩
  · obtain ⟨s1, e1, h1, _⟩ := C04_scale (t := t) hs ha k
    obtain ⟨s2, e2, h2, _⟩ := C04_scale (t := t') hs ha k
    exact ⟨s1, s2, _, _, _, e1, e2, h1, h2⟩
  · obtain ⟨s1, e1, h1, _⟩ := C04_negate (t := t) hs ha
    obtain ⟨s2, e2, h2, _⟩ := C04_negate (t := t') hs ha
    exact ⟨s1, s2, _, _, _, e1, e2, h1, h2⟩
  · obtain ⟨s1, e1, h1, _⟩ := C04_add (t := t) hs ha hb
    obtain ⟨s2, e2, h2, _⟩ := C04_add (t := t') hs ha hb
    exact ⟨s1, s2, _, _, _, e1, e2, h1, h2⟩
  · obtain ⟨s1, e1, h1, _⟩ := C04_subtract (t := t) hs ha hb
    obtain ⟨s2, e2, h2, _⟩ := C04_subtract (t := t') hs ha hb
    exact ⟨s1, s2, _, _, _, e1, e2, h1, h2⟩
  · obtain ⟨s1, e1, h1, _⟩ := C04_componentMultiply (t := t) hs ha hb
    obtain ⟨s2, e2, h2, _⟩ := C04_componentMultiply (t := t') hs ha hb
    exact ⟨s1, s2, _, _, _, e1, e2, h1, h2⟩
  · intro sc S hS h1 h2
    obtain ⟨s1, e1, h1, _⟩ := C04_leftScale (t := t) hs ha hS h1
    obtain ⟨s2, e2, h2, _⟩ := C04_leftScale (t := t') hs ha hS h2
    exact ⟨s1, s2, _, _, _, e1, e2, h1, h2⟩
  · intro sc S hS h1 h2
    obtain ⟨s1, e1, h1, _⟩ := C04_rightScale (t := t) hs ha hS h1
    obtain ⟨s2, e2, h2, _⟩ := C04_rightScale (t := t') hs ha hS h2
    exact ⟨s1, s2, _, _, _, e1, e2, h1, h2⟩

/-- A 2 x 2 array of data. -/
def data22 (p q r s : α) : Buf α :=
  ⟨4, fun i => if i = 0 then p else if i = 1 then q else if i = 2 then r else s⟩

/-- C05 violated: after `a.multiply(a, &a)` the element in row 0, column 1 is
`(p*p + q*r) * q + q * u` instead of `p * q + q * u`. -/
theorem C05_multiply_in_place (junk : Nat → Nat → α) (junkB : Nat → Nat → Nat) (p q r u : α) :
    ∃ s', exec st en [.init0 (.user 0) 2 2, .setData (.user 0) (data22 p q r u),
        .multiply (.user 0) (.user 0) (.user 0)] (Store.fresh junk junkB) = .ok s' ∧
      s'.get (.user 0) 1 0 = .ok (0 + (0 + p * p + q * r) * q + q * u) := ⟨_, rfl, rfl⟩

/-- C05 violated: `a.transposeMultiply(a, &a)` likewise. -/
theorem C05_transposeMultiply_in_place (junk : Nat → Nat → α) (junkB : Nat → Nat → Nat)
    (p q r u : α) :
    ∃ s', exec st en [.init0 (.user 0) 2 2, .setData (.user 0) (data22 p q r u),
        .transposeMultiply (.user 0) (.user 0) (.user 0)] (Store.fresh junk junkB) = .ok s' ∧
      s'.get (.user 0) 1 0 = .ok (0 + (0 + p * p + r * r) * q + r * u) := ⟨_, rfl, rfl⟩

/-- C05 violated: after `a.transpose(&a)` the element in row 1, column 0 is the old element of row 1,
column 0 instead of that of row 0, column 1. -/
theorem C05_transpose_in_place (junk : Nat → Nat → α) (junkB : Nat → Nat → Nat) (p q r u : α) :
    ∃ s', exec st en [.init0 (.user 0) 2 2, .setData (.user 0) (data22 p q r u),
        .transpose (.user 0) (.user 0)] (Store.fresh junk junkB) = .ok s' ∧
      s'.get (.user 0) 0 1 = .ok r := ⟨_, rfl, rfl⟩

/-- C05 violated: `a.leftScale(v, &v)` and `a.rightScale(v, &v)` multiply by uninitialised memory
when `v` has to grow. -/
theorem C05_scale_in_place (junk : Nat → Nat → α) (junkB : Nat → Nat → Nat) (x y : α) :
    (∃ s', exec st en [.init (.user 0) 2 1 x, .init (.user 1) 1 1 y,
        .leftScale (.user 0) (.user 1) (.user 1)] (Store.fresh junk junkB) = .ok s' ∧
      s'.get (.user 1) 0 0 = .ok (junk 2 0 * x)) ∧
    (∃ s', exec st en [.init (.user 0) 1 2 x, .init (.user 1) 1 1 y,
        .rightScale (.user 0) (.user 1) (.user 1)] (Store.fresh junk junkB) = .ok s' ∧
      s'.get (.user 1) 0 0 = .ok (junk 2 0 * x)) := ⟨⟨_, rfl, rfl⟩, ⟨_, rfl, rfl⟩⟩

/-! ## C06 -/

/-- C06, any scalars: `equals` always returns, and returns true exactly when the sizes agree and no
pair of elements compares as differing by more than `err`. -/
theorem C06_equals_any (_hs : Reachable st en s) (ha : s.Shows a w h A) {w' h' : Nat}
    (hb : s.Shows b w' h' B) (err : α) :
    ∃ v, s.equals a b err = .ok v ∧
      (v = true ↔ w = w' ∧ h = h' ∧
        ∀ r c, r < h → c < w → Fp.gt (Fp.abs (A r c - B r c)) err = false) := by
  rw [Store.equals, ha.width, ha.height, hb.width, hb.height]
  by_cases hw : w = w'
  · by_cases hh : h = h'
    · subst hw hh
      simp only [ne_eq, not_true_eq_false, if_false]
      rw [← wp_noErr_iff]
      refine Wp.imp (Q := fun v => v = true ↔ ∀ r c, r < h → c < w →
        Fp.gt (Fp.abs (A r c - B r c)) err = false) ?_ (fun v hv => by simpa using hv)
      refine wp_forN (I := fun i v => v = true ↔ ∀ r c, r < i → c < w →
        Fp.gt (Fp.abs (A r c - B r c)) err = false) ?_ ?_
      · simp
      · intro i hi v hv
        refine wp_forN' (I := fun j v => v = true ↔
          (∀ r c, r < i → c < w → Fp.gt (Fp.abs (A r c - B r c)) err = false) ∧
          ∀ c, c < j → Fp.gt (Fp.abs (A i c - B i c)) err = false) ?_ ?_ ?_
        · rw [hv]; simp
        · intro j hj v hv
          cases v with
          | true =>
            simp only [if_true]
            rw [ha.get i j hi hj, ok_bind, hb.get i j hi hj, ok_bind, wp_pure]
            have hv' := hv.mp rfl
            rw [Bool.not_eq_true']
            constructor
            · intro hg
              refine ⟨hv'.1, fun c hc => ?_⟩
              by_cases hcj : c = j
              · subst hcj; exact hg
              · exact hv'.2 c (by omega)
            · intro hg; exact hg.2 j (by omega)
          | false =>
            simp only [Bool.false_eq_true, if_false, wp_ok]
            constructor
            · intro h; cases h
            · intro hg
              exact absurd (hv.mpr ⟨hg.1, fun c hc => hg.2 c (by omega)⟩) (by simp)
        · intro v hv
          rw [hv]
          constructor
          · rintro ⟨h1, h2⟩ r c hr hc
            by_cases hri : r = i
            · subst hri; exact h2 c hc
            · exact h1 r c (by omega) hc
          · intro hg
            exact ⟨fun r c hr hc => hg r c (by omega) hc, fun c hc => hg i c (by omega) hc⟩
    · subst hw
      simp only [ne_eq, not_true_eq_false, if_false]
      rw [if_pos hh]
      exact ⟨false, rfl, by simp [hh]⟩
  · rw [if_pos hw]
    exact ⟨false, rfl, by simp [hw]⟩

end

section Real
variable {st en : Nat} {s : Store ℝ} {a b t : MId} {w h w' h' n : Nat} {A B : Nat → Nat → ℝ}

open Finset

/-- C05 violated, in numbers: squaring [[2, 1], [0, 0]] in place leaves 4 where 2 is right. -/
theorem C05_multiply_in_place_wrong (junk : Nat → Nat → ℝ) (junkB : Nat → Nat → Nat) :
    ∃ s1 s2, exec st en [.init0 (.user 0) 2 2, .setData (.user 0) (data22 2 1 0 0),
        .multiply (.user 0) (.user 0) (.user 0)] (Store.fresh junk junkB) = .ok s1 ∧
      exec st en [.init0 (.user 0) 2 2, .setData (.user 0) (data22 2 1 0 0),
        .multiply (.user 0) (.user 0) (.user 1)] (Store.fresh junk junkB) = .ok s2 ∧
      s1.get (.user 0) 1 0 = .ok 4 ∧ s2.get (.user 1) 1 0 = .ok 2 := by
  refine ⟨_, _, rfl, rfl, ?_, ?_⟩
  · show (Except.ok ((0 : ℝ) + (0 + 2 * 2 + 1 * 0) * 1 + 1 * 0) : Exec ℝ) = .ok 4
    norm_num
  · show (Except.ok ((0 : ℝ) + 2 * 1 + 1 * 0) : Exec ℝ) = .ok 2
    norm_num

/-- C06: `equals` compares with tolerance `err`. -/
theorem C06_equals (hs : Reachable st en s) (ha : s.Shows a w h A) (hb : s.Shows b w' h' B)
    (err : ℝ) :
    (s.equals a b err = .ok true ∨ s.equals a b err = .ok false) ∧
    (s.equals a b err = .ok true ↔ w = w' ∧ h = h' ∧
      ∀ r c, r < h → c < w → |A r c - B r c| ≤ err) := by
  obtain ⟨v, e, hv⟩ := C06_equals_any hs ha hb err
  refine ⟨by cases v <;> simp [e], ?_⟩
  rw [e]
  have : (Except.ok v : Exec Bool) = .ok true ↔ v = true := by
    constructor
    · intro h; exact Except.ok.inj h
    · intro h; rw [h]
  rw [this, hv]
  refine and_congr Iff.rfl (and_congr Iff.rfl ?_)
  refine forall_congr' (fun r => forall_congr' (fun c => ?_))
  refine imp_congr Iff.rfl (imp_congr Iff.rfl ?_)
  rw [← Bool.not_eq_true, fp_gt, fp_abs, not_lt]

/-- C06: `equals` is symmetric. -/
theorem C06_symm (hs : Reachable st en s) (a b : MId) (err : ℝ) :
    s.equals a b err = s.equals b a err := by
  have ha := (hs.inv.mat a).shows
  have hb := (hs.inv.mat b).shows
  obtain ⟨h1, h2⟩ := C06_equals hs ha hb err
  obtain ⟨h3, h4⟩ := C06_equals hs hb ha err
  have : s.equals a b err = .ok true ↔ s.equals b a err = .ok true := by
    rw [h2, h4]
    constructor
    · rintro ⟨e1, e2, e3⟩
      exact ⟨e1.symm, e2.symm, fun r c hr hc => by
        rw [abs_sub_comm]; exact e3 r c (by omega) (by omega)⟩
    · rintro ⟨e1, e2, e3⟩
      exact ⟨e1.symm, e2.symm, fun r c hr hc => by
        rw [abs_sub_comm]; exact e3 r c (by omega) (by omega)⟩
  rcases h1 with h1 | h1 <;> rcases h3 with h3 | h3
  · rw [h1, h3]
  · rw [this.mp h1] at h3; cases h3
  · rw [this.mpr h3] at h1; cases h1
  · rw [h1, h3]

/-- C06: `equals` is reflexive for a non-negative tolerance. -/
theorem C06_refl (hs : Reachable st en s) (a : MId) {err : ℝ} (he : 0 ≤ err) :
    s.equals a a err = .ok true := by
  have ha := (hs.inv.mat a).shows
  rw [(C06_equals hs ha ha err).2]
  exact ⟨rfl, rfl, fun r c _ _ => by rw [sub_self, abs_zero]; exact he⟩

/-- The comparison distinguishes: two 1 x 1 matrices holding 0 and 1. -/
example : ∃ s : Store ℝ, Reachable st en s ∧ s.equals (.user 0) (.user 1) 1 = .ok true ∧
    s.equals (.user 0) (.user 1) (1 / 2) = .ok false := by
  let s0 : Store ℝ := Store.fresh (fun _ _ => 5) (fun _ _ => 0)
  have h0 : Reachable st en s0 := .fresh _ _
  obtain ⟨s1, e1, h1, o1⟩ := C03_init h0 (.user 0) 1 1 (0 : ℝ)
  have r1 : Reachable st en s1 := .call (.init (.user 0) 1 1 0) h0 trivial trivial e1
  obtain ⟨s2, e2, h2, o2⟩ := C03_init r1 (.user 1) 1 1 (1 : ℝ)
  have r2 : Reachable st en s2 := .call (.init (.user 1) 1 1 1) r1 trivial trivial e2
  have h1' : s2.Shows (.user 0) 1 1 (fun _ _ => 0) := by
    have hm : s2.mat (.user 0) = s1.mat (.user 0) := o2.mat _ (by decide)
    refine ⟨by rw [hm]; exact h1.width, by rw [hm]; exact h1.height, fun r c hr hc => ?_⟩
    rw [← h1.get r c hr hc]; simp only [Store.get, Store.load, hm]
  refine ⟨s2, r2, ?_, ?_⟩
  · rw [(C06_equals r2 h1' h2 1).2]
    exact ⟨rfl, rfl, fun r c _ _ => by norm_num⟩
  · refine (C06_equals r2 h1' h2 (1 / 2)).1.resolve_left (fun h => ?_)
    rw [(C06_equals r2 h1' h2 (1 / 2)).2] at h
    have := h.2.2 0 0 (by decide) (by decide)
    norm_num at this

/-! ## C07 -/

/-- C07 (partial): on column vectors whose rows were never swapped, `dot` is the Euclidean product
and `vectorMagnitudeSquared` is `dot` with itself. Missing: vectors on which `fastRowSwap` was used,
where the code is wrong (`C07_dot_after_swap_wrong`). -/
theorem C07_dot_partial {P : Restr} (hs : ReachableNS st en P s) (hpa : P.plain a) (hpb : P.plain b)
    (ha : s.Shows a 1 n A) (hb : s.Shows b 1 n B) :
    s.dot a b = .ok (∑ i ∈ range n, A i 0 * B i 0) ∧
      s.vectorMagnitudeSquared a = .ok (∑ i ∈ range n, A i 0 * A i 0) ∧
      s.vectorMagnitudeSquared a = s.dot a a := by
  have hi := hs.inv
  have key : ∀ (b : MId) (B : Nat → Nat → ℝ), P.plain b → s.Shows b 1 n B →
      s.dot a b = .ok (∑ i ∈ range n, A i 0 * B i 0) := by
    intro b B hpb hb
    rw [Store.dot_spec s a b (hi.mat a) (hi.mat b) (hi.plain a hpa) (hi.plain b hpb) ha.width
      hb.width (by rw [ha.height, hb.height]), sumTo_eq, ha.height]
    congr 1
    refine sum_congr rfl (fun i hi => ?_)
    rw [ha.ent (mem_range.mp hi) (by decide), hb.ent (mem_range.mp hi) (by decide)]
  have hv : s.vectorMagnitudeSquared a = .ok (∑ i ∈ range n, A i 0 * A i 0) := by
    rw [Store.vms_spec s a (hi.mat a) (hi.plain a hpa) ha.width, sumTo_eq, ha.height]
    congr 1
    refine sum_congr rfl (fun i hi => ?_)
    rw [ha.ent (mem_range.mp hi) (by decide)]
  exact ⟨key b B hpb hb, hv, hv.trans (key a A hpa ha).symm⟩

/-- C07 violated: a vector resized from three to two elements (capacity three) and then row-swapped
shows (y, x) but its magnitude is computed from y and the stale third element. -/
theorem C07_vms_after_swap_wrong (junk : Nat → Nat → ℝ) (junkB : Nat → Nat → Nat) :
    ∃ s', exec st en [.init (.user 0) 1 3 7, .resize (.user 0) 1 2, .set (.user 0) 0 0 1,
        .set (.user 0) 0 1 2, .rowSwap (.user 0) 0 1] (Store.fresh junk junkB) = .ok s' ∧
      s'.get (.user 0) 0 0 = .ok 2 ∧ s'.get (.user 0) 0 1 = .ok 1 ∧
      s'.vectorMagnitudeSquared (.user 0) = .ok 53 := by
  refine ⟨_, rfl, rfl, rfl, ?_⟩
  show (Except.ok ((0 : ℝ) + 2 * 2 + 7 * 7) : Exec ℝ) = .ok 53
  norm_num

/-- The hypotheses of `C07_dot_partial` are met with n = 2. -/
example : ∃ (s : Store ℝ) (A : Nat → Nat → ℝ), ReachableNS st en ⟨fun i => i ≠ .user 0, fun _ => True⟩ s ∧
    s.Shows (.user 2) 1 2 A ∧ A 1 0 = 5 := by
  obtain ⟨s, h, _, _, _, _, h5, h6, _, _, hy⟩ :=
    demo_reachable (st := st) (en := en) (fun _ _ => (1 : ℝ)) (fun _ _ => 7) 3 5 7
  refine ⟨s, (s.mat (.user 2)).ent, h, ?_, ?_⟩
  · have := (h.inv.mat (.user 2)).shows; rwa [h5, h6] at this
  · rw [Store.get_ok s _ (h.inv.mat _) (by omega) (by omega)] at hy
    exact Except.ok.inj hy

end Real

section
variable {α : Type} [Zero α] [Add α] [Mul α] [Sub α] [Neg α] [Fp α]
variable {st en : Nat} {s : Store α}

/-! ## C08 -/

/-- C08 (partial): on a matrix whose rows were never swapped, `set(data)` loads in row-major order.
Missing: matrices on which `fastRowSwap` was used, where the code is wrong
(`C08_load_after_swap_wrong`). -/
theorem C08_load_partial {P : Restr} (hs : ReachableNS st en P s) {t : MId} (hp : P.plain t)
    (src : Buf α) (hsrc : (s.mat t).width * (s.mat t).height ≤ src.size) :
    ∃ s', s.setData t src = .ok s' ∧
      s'.Shows t (s.mat t).width (s.mat t).height (fun r c => src.val (r * (s.mat t).width + c)) ∧
      OthersSame t s s' := by
  obtain ⟨s', e, o, _, sh, hv⟩ := Store.setData_spec s t src (hs.inv.mat t) hsrc
  exact ⟨s', e, Store.shows_of (sh.wf (hs.inv.mat t)) sh.width sh.height
    (hv (hs.inv.plain t hp)), o.others⟩

/-- C08 violated: after a row swap, loading `(x, y)` into a 2 x 1 matrix shows `(y, x)`. -/
theorem C08_load_after_swap_wrong (junk : Nat → Nat → α) (junkB : Nat → Nat → Nat) (x y : α) :
    ∃ s', exec st en [.init0 (.user 0) 1 2, .rowSwap (.user 0) 0 1,
        .setData (.user 0) ⟨2, fun i => if i = 0 then x else y⟩] (Store.fresh junk junkB) = .ok s' ∧
      s'.get (.user 0) 0 0 = .ok y ∧ s'.get (.user 0) 0 1 = .ok x := ⟨_, rfl, rfl, rfl⟩

/-- The hypotheses of `C08_load_partial` are met by a 2 x 3 matrix. -/
example (x y z : α) : ∃ s : Store α, ReachableNS st en ⟨fun i => i ≠ .user 0, fun _ => True⟩ s ∧
    (s.mat (.user 1)).width * (s.mat (.user 1)).height ≤ (Buf.mk 6 (fun _ => x)).size := by
  obtain ⟨s, h, _, _, h3, h4, _⟩ :=
    demo_reachable (st := st) (en := en) (fun _ _ => x) (fun _ _ => 7) x y z
  exact ⟨s, h, by rw [h3, h4]⟩

end

end Scs
