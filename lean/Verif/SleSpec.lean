import Verif.Sle
import Verif.Spec
import Verif.SparseReal

/-!
# Lemmas for the SLE solvers: frames and the matrix `J W J^T`
-/

namespace Scs

set_option linter.unusedSectionVars false

open Finset

section
variable {α : Type}

/-- Only dense matrices satisfying `T` and sparse matrices satisfying `S` may have changed. -/
structure Frame (T : MId → Prop) (S : SId → Prop) (s s' : Store α) : Prop where
  mat : ∀ a, ¬ T a → s'.mat a = s.mat a
  smat : ∀ a, ¬ S a → s'.smat a = s.smat a

theorem Frame.refl (T : MId → Prop) (S : SId → Prop) (s : Store α) : Frame T S s s :=
  ⟨fun _ _ => rfl, fun _ _ => rfl⟩

theorem Frame.trans {T : MId → Prop} {S : SId → Prop} {a b c : Store α} (h : Frame T S a b)
    (h' : Frame T S b c) : Frame T S a c :=
  ⟨fun x hx => (h'.mat x hx).trans (h.mat x hx), fun x hx => (h'.smat x hx).trans (h.smat x hx)⟩

theorem Frame.mono {T T' : MId → Prop} {S S' : SId → Prop} {a b : Store α} (h : Frame T S a b)
    (hT : ∀ x, T x → T' x) (hS : ∀ x, S x → S' x) : Frame T' S' a b :=
  ⟨fun x hx => h.mat x (fun q => hx (hT x q)), fun x hx => h.smat x (fun q => hx (hS x q))⟩

theorem Only.frame {t : MId} {T : MId → Prop} {S : SId → Prop} {s s' : Store α}
    (h : Only t s s') (ht : T t) : Frame T S s s' :=
  ⟨fun a ha => h.mat a (fun e => ha (e ▸ ht)), fun a _ => by rw [h.smat]⟩

theorem OnlyS.frame {t : SId} {T : MId → Prop} {S : SId → Prop} {s s' : Store α}
    (h : OnlyS t s s') (ht : S t) : Frame T S s s' :=
  ⟨fun a _ => by rw [h.mat], fun a ha => h.smat a (fun e => ha (e ▸ ht))⟩

/-- All objects are well formed. -/
structure Ok (st en : Nat) (s : Store α) : Prop where
  mat : ∀ i, (s.mat i).WF
  smat : ∀ i, (s.smat i).WF st en

theorem Inv.ok [Zero α] {st en : Nat} {P : Restr} {s : Store α} (h : Inv st en P s) : Ok st en s :=
  ⟨h.mat, h.smat⟩

theorem Ok.only {st en : Nat} {s s' : Store α} {t : MId} (h : Ok st en s) (o : Only t s s')
    (wf : (s'.mat t).WF) : Ok st en s' := by
  refine ⟨fun i => ?_, fun i => by rw [o.smat]; exact h.smat i⟩
  by_cases hi : i = t
  · subst hi; exact wf
  · rw [o.mat i hi]; exact h.mat i

theorem Ok.onlyS {st en : Nat} {s s' : Store α} {t : SId} (h : Ok st en s) (o : OnlyS t s s')
    (wf : (s'.smat t).WF st en) : Ok st en s' := by
  refine ⟨fun i => by rw [o.mat]; exact h.mat i, fun i => ?_⟩
  by_cases hi : i = t
  · subst hi; exact wf
  · rw [o.smat i hi]; exact h.smat i

end

/-- Element `(i, j)` of `A W A^T` for a matrix `A` with `w` columns and a diagonal matrix `W`. -/
noncomputable def gram (w : Nat) (A : Nat → Nat → ℝ) (W : Nat → ℝ) (i j : Nat) : ℝ :=
  ∑ c ∈ range w, A i c * W c * A j c

theorem SWrote.layout {st en : Nat} {s : Store ℝ} {a : SId} {t : SId} {s' : Store ℝ}
    {X : Nat → Nat → Nat → ℝ}
    (hw : SWrote st en t s s' (s.smat a).width (s.smat a).height ((s.smat a).blk en) X)
    (hl : (s.smat a).InRange st en) : (s'.smat t).InRange st en := by
  intro r j hr hj
  rw [hw.height] at hr
  rw [hw.blk r j hr hj, hw.width]
  exact hl r j hr hj

theorem SWrote.val {st en : Nat} {s : Store ℝ} {a : SId} {t : SId} {s' : Store ℝ}
    {f : Nat → Nat → ℝ}
    (hw : SWrote st en t s s' (s.smat a).width (s.smat a).height ((s.smat a).blk en)
      (fun r j k => f r ((s.smat a).blk en r j * st + k) * (s.smat a).ent r (j * st + k)))
    (hst : 0 < st) {r c : Nat} (hr : r < (s.smat a).height) :
    (s'.smat t).val st en r c = f r c * (s.smat a).val st en r c := by
  rw [SMat.val, SMat.val, mul_sum]
  refine sum_congr rfl (fun j hj => ?_)
  have hj' := mem_range.mp hj
  rw [hw.blk r j hr hj']
  by_cases h : (s.smat a).blk en r j ≠ 255 ∧ c / st = (s.smat a).blk en r j
  · rw [if_pos h, if_pos h, hw.ent r j _ hr hj' (Nat.mod_lt c hst) h.1]
    have : (s.smat a).blk en r j * st + c % st = c := (eq_of_divmod h.2).symm
    rw [this]
  · rw [if_neg h, if_neg h, mul_zero]

/-- `formM` computes `J W J^T`. -/
theorem Store.formM_spec {st en : Nat} (hst : 0 < st) {s : Store ℝ} (ok : Ok st en s) {J reg : SId}
    {W M : MId} (hin : (s.smat J).InRange st en) (hne : J ≠ reg) (hf : (s.smat reg).Fresh)
    (hw : (s.mat W).width = 1) (hh : (s.mat W).height = (s.smat J).width) :
    ∃ s', s.formM st en J W reg M = .ok s' ∧ Ok st en s' ∧
      Frame (· = M) (· = reg) s s' ∧ (s'.smat reg).Fresh ∧
      ((s.mat M).Plain → (s'.mat M).Plain) ∧
      (s'.mat M).width = (s.smat J).height ∧ (s'.mat M).height = (s.smat J).height ∧
      ∀ i j, i < (s.smat J).height → j < (s.smat J).height → (s'.mat M).ent i j =
        gram (s.smat J).width ((s.smat J).val st en) (fun c => (s.mat W).ent c 0) i j := by
  obtain ⟨s1, e1, w1⟩ := Store.srightScale_spec st en hst s J reg W hne (ok.smat J) hin
    (ok.smat reg) hf (ok.mat W) hw hh
  have ok1 := ok.onlyS w1.only w1.wf
  have hJ : s1.smat J = s.smat J := w1.only.smat J hne
  obtain ⟨s2, e2, w2⟩ := Store.multiplyTranspose_spec st en hst s1 reg J M (ok1.smat reg)
    (ok1.smat J) (w1.layout hin) (ok1.mat M) (by rw [w1.width, hJ])
  have ok2 := ok1.only w2.only w2.wf
  refine ⟨s2, by rw [Store.formM, e1, ok_bind, e2], ok2,
    Frame.trans (T := (· = M)) (S := (· = reg)) (w1.only.frame rfl) (w2.only.frame rfl), by rw [w2.only.smat]; exact w1.fresh,
    fun p => w2.plain (by rw [w1.only.mat]; exact p), by rw [w2.width, hJ],
    by rw [w2.height, w1.height], ?_⟩
  intro i j hi hj
  rw [w2.ent i j (by rw [w1.height]; exact hi) (by rw [hJ]; exact hj), w1.width, gram]
  refine sum_congr rfl (fun c hc => ?_)
  rw [SWrote.val (f := fun _ c => (s.mat W).ent c 0) w1 hst hi, hJ]
  ring

/-! ## Accumulation -/

theorem accR_eq {a b : Nat} {f : Nat → Exec ℝ} {g : Nat → ℝ}
    (h : ∀ j, a ≤ j → j < b → f j = .ok (g j)) :
    accR a b f = .ok (∑ j ∈ Ico a b, g j) := by
  rw [accR, forN_sum (g := fun j => g (a + j))]
  · rw [sumTo_eq, sum_Ico_eq_sum_range]
  · intro j hj
    exact h (a + j) (by omega) (by omega)

theorem Store.prodAt_ok {s : Store ℝ} {a b : MId} {i j : Nat} (wa : (s.mat a).WF)
    (wb : (s.mat b).WF) (h1 : j < (s.mat a).width) (h2 : i < (s.mat a).height)
    (h3 : 0 < (s.mat b).width) (h4 : j < (s.mat b).height) :
    s.prodAt a b i j = .ok ((s.mat a).ent i j * (s.mat b).ent j 0) := by
  rw [Store.prodAt, Store.get_ok s a wa h1 h2, ok_bind, Store.get_ok s b wb h3 h4]
  rfl

end Scs
