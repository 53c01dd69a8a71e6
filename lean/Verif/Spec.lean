import Verif.Api
import Verif.Real

/-!
# Specification vocabulary

The few notions the property theorems are stated with, in terms of the public interface.
-/

namespace Scs

section
variable {α : Type}

/-- Seen through `getWidth`, `getHeight` and `get`, the matrix `a` is `w` x `h` with element `g r c`
in row `r`, column `c`. -/
structure Store.Shows (s : Store α) (a : MId) (w h : Nat) (g : Nat → Nat → α) : Prop where
  width : (s.mat a).width = w
  height : (s.mat a).height = h
  get : ∀ r c, r < h → c < w → s.get a c r = .ok (g r c)

/-- No other matrix than the dense matrix `t` has changed in any respect. -/
structure OthersSame (t : MId) (s s' : Store α) : Prop where
  mat : ∀ a, a ≠ t → s'.mat a = s.mat a
  smat : s'.smat = s.smat

/-- No other matrix than the sparse matrix `t` has changed in any respect. -/
structure OthersSameS (t : SId) (s s' : Store α) : Prop where
  mat : s'.mat = s.mat
  smat : ∀ a, a ≠ t → s'.smat a = s.smat a

/-- The call stops at an assert. -/
def Asserts {σ : Type} (x : Exec σ) : Prop := ∃ loc, x = .error (.assert loc)

theorem Only.others {t : MId} {s s' : Store α} (h : Only t s s') : OthersSame t s s' :=
  ⟨h.mat, h.smat⟩

theorem OnlyS.others {t : SId} {s s' : Store α} (h : OnlyS t s s') : OthersSameS t s s' :=
  ⟨h.mat, h.smat⟩

theorem Store.Shows.ent [Zero α] {s : Store α} {a : MId} {w h : Nat} {g : Nat → Nat → α}
    (hs : s.Shows a w h g) {r c : Nat} (hr : r < h) (hc : c < w) : (s.mat a).ent r c = g r c := by
  have h1 := hs.get r c hr hc
  rw [Store.get, chk_true _ (by rw [hs.width]; exact hc), ok_bind,
    chk_true _ (by rw [hs.height]; exact hr), ok_bind] at h1
  exact Mat.ent_of_load h1

theorem Store.shows_of [Zero α] {s : Store α} {a : MId} {w h : Nat} {g : Nat → Nat → α}
    (wf : (s.mat a).WF) (hw : (s.mat a).width = w) (hh : (s.mat a).height = h)
    (he : ∀ r c, r < h → c < w → (s.mat a).ent r c = g r c) : s.Shows a w h g :=
  ⟨hw, hh, fun r c hr hc => by
    rw [Store.get_ok s a wf (by rw [hw]; exact hc) (by rw [hh]; exact hr), he r c hr hc]⟩

theorem Wrote.shows [Zero α] {t : MId} {s s' : Store α} {w h : Nat} {g : Nat → Nat → α}
    (hw : Wrote t s s' w h g) : s'.Shows t w h g :=
  Store.shows_of hw.wf hw.width hw.height hw.ent

theorem Store.Shows.congr {s : Store α} {a : MId} {w h : Nat} {g g' : Nat → Nat → α}
    (hs : s.Shows a w h g) (hg : ∀ r c, r < h → c < w → g r c = g' r c) : s.Shows a w h g' :=
  ⟨hs.width, hs.height, fun r c hr hc => by rw [hs.get r c hr hc, hg r c hr hc]⟩

/-- Every well-formed matrix shows its elements. -/
theorem Mat.WF.shows [Zero α] {s : Store α} {a : MId} (wf : (s.mat a).WF) :
    s.Shows a (s.mat a).width (s.mat a).height (s.mat a).ent :=
  Store.shows_of wf rfl rfl (fun _ _ _ _ => rfl)

/-- Sequential execution of calls. -/
def exec [Zero α] [Add α] [Mul α] [Sub α] [Neg α] [Fp α] (st en : Nat) :
    List (Call α) → Store α → Exec (Store α)
  | [], s => .ok s
  | c :: cs, s => do
    let s ← run st en c s
    exec st en cs s

end

end Scs
