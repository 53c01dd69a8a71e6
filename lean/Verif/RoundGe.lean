import Verif.RoundMem
import Verif.GeSolve

/-!
# Rounding: Gaussian elimination

With rounded entries the solver may pick other pivots than with exact ones. For a family of stores
whose precision improves along an ultrafilter the picks are constant in the end; the eliminated
matrix then follows a matrix of its own (`G` below), and the solution follows the exact solution.
-/

namespace Scs

open Filter Topology Finset

/-- The stores differ in the entries of `m_A` at most. -/
structure Keeps (a b : Store ℝ) : Prop where
  only : Only .geA a b
  tick : b.tick = a.tick
  shape : SameShape (b.mat .geA) (a.mat .geA)

theorem Keeps.refl (a : Store ℝ) : Keeps a a := ⟨Only.refl _ _, rfl, rfl, rfl, rfl, rfl⟩

theorem Keeps.trans {a b c : Store ℝ} (h : Keeps a b) (h' : Keeps b c) : Keeps a c := by
  obtain ⟨w, x, y, z⟩ := h.shape
  obtain ⟨w', x', y', z'⟩ := h'.shape
  exact ⟨h.only.trans h'.only, h'.tick.trans h.tick, w'.trans w, x'.trans x, y'.trans y, z'.trans z⟩

theorem Keeps.symm {a b : Store ℝ} (h : Keeps a b) : Keeps b a := by
  obtain ⟨w, x, y, z⟩ := h.shape
  exact ⟨⟨fun t ht => (h.only.mat t ht).symm, h.only.smat.symm, h.only.junk.symm,
    h.only.junkB.symm⟩, h.tick.symm, w.symm, x.symm, y.symm, z.symm⟩

theorem keeps_setMat (s : Store ℝ) {m : Mat ℝ} (h : SameShape m (s.mat .geA)) :
    Keeps s (s.setMat .geA m) :=
  ⟨Only.setMat _ _ _, rfl, by rw [Store.setMat_same]; exact h⟩

theorem Keeps.eq {a b : Store ℝ} (h : Keeps a b) : b = a.setMat .geA (b.mat .geA) := by
  obtain ⟨⟨h1, h2, h3, h4⟩, h5, _⟩ := h
  obtain ⟨bm, bs, bj, bB, bt⟩ := b
  simp only at h1 h2 h3 h4 h5
  subst h2 h3 h4 h5
  simp only [Store.setMat, Store.mk.injEq, and_true]
  funext t
  by_cases e : t = .geA
  · subst e; rw [upd_same]
  · rw [upd_other _ _ e, h1 t e]

theorem set_keeps (s : Store ℝ) (c r : Nat) (v : ℝ) :
    Wp (s.set .geA c r v) (Keeps s) anyErr := by
  rw [wp_anyErr_iff]
  intro s' e
  rw [Store.set] at e
  obtain ⟨_, _, e⟩ := bind_ok_of e
  obtain ⟨_, _, e⟩ := bind_ok_of e
  rw [Store.store] at e
  obtain ⟨m, hm, e⟩ := bind_ok_of e
  cases e
  have h := Mat.store_shape hm
  exact keeps_setMat s ⟨h.width, h.height, h.capW, h.capH⟩

theorem rowSwap_keeps (s : Store ℝ) (a b : Nat) : Wp (s.rowSwap .geA a b) (Keeps s) anyErr := by
  rw [wp_anyErr_iff]
  intro s' e
  rw [Store.rowSwap] at e
  obtain ⟨_, _, e⟩ := bind_ok_of e
  obtain ⟨_, _, e⟩ := bind_ok_of e
  obtain ⟨_, _, e⟩ := bind_ok_of e
  obtain ⟨_, _, e⟩ := bind_ok_of e
  obtain ⟨_, _, e⟩ := bind_ok_of e
  cases e
  exact keeps_setMat s ⟨rfl, rfl, rfl, rfl⟩

theorem forN_keeps {n : Nat} {f : Nat → Store ℝ → Exec (Store ℝ)}
    (h : ∀ i s, Wp (f i s) (Keeps s) anyErr) (s : Store ℝ) : Wp (forN n f s) (Keeps s) anyErr :=
  wp_forN (I := fun _ => Keeps s) (Keeps.refl s) fun i _ s' hs' =>
    (h i s').imp fun _ q => hs'.trans q

theorem wp_skip {σ τ : Type} {x : Exec τ} {f : τ → Exec σ} {Q : σ → Prop}
    (h : ∀ a, Wp (f a) Q anyErr) : Wp (x >>= f) Q anyErr := by
  cases x with
  | error _ => exact trivial
  | ok a => exact h a

theorem geLoad_keeps (s : Store ℝ) (right : MId) (n m : Nat) :
    Wp (s.geLoad right n m) (Keeps s) anyErr := by
  refine forN_keeps (fun i s => ?_) s
  rw [wp_bind]
  refine (forN_keeps (fun j s => ?_) s).imp fun s' h => ?_
  · exact wp_skip fun v => set_keeps _ _ _ _
  · exact wp_skip fun v => (set_keeps _ _ _ _).imp fun _ q => h.trans q

theorem geElim_keeps (s : Store ℝ) (n m h k : Nat) :
    Wp (s.geElim n m h k) (Keeps s) anyErr := by
  refine forN_keeps (fun i s => ?_) s
  refine wp_skip fun a => wp_skip fun b => wp_skip fun f => ?_
  rw [wp_bind]
  refine (set_keeps _ _ _ _).imp fun s1 h1 => ?_
  refine (forN_keeps (fun j s => ?_) s1).imp fun _ q => h1.trans q
  exact wp_skip fun v => wp_skip fun v => set_keeps _ _ _ _

theorem geLoop_keeps (n m : Nat) : ∀ fuel h k (s : Store ℝ),
    Wp (geLoop n m fuel h k s) (Keeps s) anyErr := by
  intro fuel
  induction fuel with
  | zero =>
    intro h k s
    rw [geLoop]
    split
    · exact trivial
    · exact Keeps.refl s
  | succ fuel ih =>
    intro h k s
    rw [geLoop]
    split
    · refine wp_skip fun p => ?_
      split
      · exact ih _ _ _
      · rw [wp_bind]
        refine (rowSwap_keeps _ _ _).imp fun s1 h1 => ?_
        rw [wp_bind]
        refine (geElim_keeps _ _ _ _ _).imp fun s2 h2 => ?_
        exact (ih _ _ _).imp fun s3 h3 => (h1.trans h2).trans h3
    · exact Keeps.refl s

theorem layout_dims (m : Mat ℝ) (h w : Nat) :
    Wp (m.layout h w) (fun m' => SameShape m' m) anyErr := by
  refine wp_forN (I := fun _ m' => SameShape m' m) ⟨rfl, rfl, rfl, rfl⟩ fun i _ m' hm => ?_
  exact wp_skip fun _ => wp_skip fun _ => wp_skip fun _ => hm

theorem destroy_caps {m : Mat ℝ} (h : m.WF) : m.destroy.capW = 0 ∧ m.destroy.capH = 0 := by
  rcases h with ⟨a, _, _, _, c, d⟩ | ⟨rb, db, a, _⟩
  · simp only [Mat.destroy, a, c, d, and_self]
  · simp only [Mat.destroy, a, and_self]

theorem resize_twins {S T S' T' : Store ℝ} {w h : Nat} (hk : Keeps S T) (hS : (S.mat .geA).WF)
    (hT : (T.mat .geA).WF) (e : S.resize .geA w h = .ok S') (e' : T.resize .geA w h = .ok T') :
    Keeps S' T' := by
  rw [Store.resize_eq] at e e'
  obtain ⟨h1, h2, h3, h4⟩ := hk.shape
  rw [h1, h2, h3, h4] at e'
  split at e
  · rename_i hc
    rw [if_pos hc] at e'
    cases e; cases e'; exact hk
  · rename_i hc
    rw [if_neg hc] at e'
    have base : ∀ {m m' M M' : Mat ℝ} {H W : Nat} (n : Nat), m.layout H W = .ok M →
        m'.layout H W = .ok M' → SameShape m' m →
        Keeps { S.setMat .geA M with tick := n } { T.setMat .geA M' with tick := n } := by
      intro m m' M M' H W n q q' hs
      have a := wp_anyErr_iff.1 (layout_dims m H W) _ q
      have b := wp_anyErr_iff.1 (layout_dims m' H W) _ q'
      refine ⟨⟨fun t ht => ?_, hk.only.smat, hk.only.junk, hk.only.junkB⟩, rfl, ?_⟩
      · simp only [Store.setMat, upd_other _ _ ht]; exact hk.only.mat t ht
      · simp only [Store.setMat, upd_same]
        exact ⟨(b.1.trans hs.1).trans a.1.symm, (b.2.1.trans hs.2.1).trans a.2.1.symm,
          (b.2.2.1.trans hs.2.2.1).trans a.2.2.1.symm, (b.2.2.2.trans hs.2.2.2).trans a.2.2.2.symm⟩
    split at e
    · rename_i hc2
      rw [if_pos hc2] at e'
      obtain ⟨M, q, e⟩ := bind_ok_of e
      obtain ⟨M', q', e'⟩ := bind_ok_of e'
      cases e; cases e'
      rw [(destroy_caps hS).1, (destroy_caps hS).2] at q
      rw [(destroy_caps hT).1, (destroy_caps hT).2] at q'
      rw [hk.tick]
      exact base _ q q' ⟨rfl, rfl, rfl, rfl⟩
    · rename_i hc2
      rw [if_neg hc2] at e'
      obtain ⟨M, q, e⟩ := bind_ok_of e
      obtain ⟨M', q', e'⟩ := bind_ok_of e'
      cases e; cases e'
      rw [hk.tick]
      exact base _ q q' ⟨rfl, rfl, h3, h4⟩

section
variable {ι : Type} {U : Ultrafilter ι} {F : ι → Type} [∀ i, Rounded (F i)]
  {s : ∀ i, Store (F i)} {S T : Store ℝ} {G : Mat ℝ}

/-- `m_A` follows `G`: the store with `G` in the place of `m_A` is followed. -/
theorem NStore.shadow (h : NStore U (some G) s S) :
    NStore U none s (S.setMat .geA G) ∧ Keeps S (S.setMat .geA G) := by
  have hm := h.mat .geA
  rw [Store.seen, if_pos rfl] at hm
  have hs : SameShape G (S.mat .geA) := by
    obtain ⟨i, a, b, c, d, e, f, g, q⟩ := (hm.width.and (hm.height.and (hm.capW.and
      (hm.capH.and h.shape)))).exists
    exact ⟨a.symm.trans e, b.symm.trans f, c.symm.trans g, d.symm.trans q⟩
  refine ⟨⟨fun t => ?_, h.smat, h.junk, h.junkB, h.tick, ?_⟩, keeps_setMat S hs⟩
  · rw [(Direct.none t).seen]
    by_cases e : t = .geA
    · subst e; rw [Store.setMat_same]; exact hm
    · have := h.mat t
      rw [Store.seen, if_neg e] at this
      simp only [Store.setMat, upd_other _ _ e]; exact this
  · rw [Store.setMat_same]
    filter_upwards [hm.width, hm.height, hm.capW, hm.capH] with i a b c d
    exact ⟨a, b, c, d⟩

theorem NStore.cast (h : NStore U none s T) (hk : Keeps S T) :
    NStore U (some (T.mat .geA)) s S := by
  refine ⟨fun t => ?_, fun t => ?_, fun n k => ?_, ?_, ?_, ?_⟩
  · have := h.mat t
    rw [(Direct.none t).seen] at this
    rw [Store.seen]
    split
    · rename_i e; subst e; exact this
    · rename_i e; rw [hk.only.mat t e] at this; exact this
  · rw [← hk.only.smat]; exact h.smat t
  · rw [← hk.only.junk]; exact h.junk n k
  · rw [← hk.only.junkB]; exact h.junkB
  · rw [← hk.tick]; exact h.tick
  · obtain ⟨a, b, c, d⟩ := hk.shape
    exact h.shape.mono fun i q => ⟨q.1.trans a, q.2.1.trans b, q.2.2.1.trans c, q.2.2.2.trans d⟩

variable [Shrinks (U : Filter ι) F]

theorem rel_geLoad (h : NStore U none s T) {right : MId} (n m : Nat) :
    RelF U (NStore U none) (fun i => (s i).geLoad right n m) (T.geLoad right n m) := by
  unfold Store.geLoad
  refine relf_forN SameF.rfl' h fun r _ s T h => ?_
  refine relf_bind (R := NStore U none) (relf_forN SameF.rfl' h fun c _ s T h => ?_)
    fun s T h => ?_
  · refine relf_bind (rel_get h (Direct.none _) _ _) fun v V hv => ?_
    exact rel_set h (Direct.none _) _ _ hv
  · refine relf_bind (rel_get h (Direct.none _) _ _) fun v V hv => ?_
    exact rel_set h (Direct.none _) _ _ hv

theorem rel_geElim (h : NStore U none s T) (n m a k : Nat) :
    RelF U (NStore U none) (fun i => (s i).geElim n m a k) (T.geElim n m a k) := by
  unfold Store.geElim
  refine relf_forN SameF.rfl' h fun r _ s T h => ?_
  refine relf_bind (rel_get h (Direct.none _) _ _) fun x X hx => ?_
  refine relf_bind (rel_get h (Direct.none _) _ _) fun y Y hy => ?_
  refine relf_bind (near_div hx hy) fun f f' hf => ?_
  refine relf_bind (rel_set h (Direct.none _) _ _ (Near.lit 0)) fun s T h => ?_
  refine relf_forN SameF.rfl' h fun p _ s T h => ?_
  refine relf_bind (rel_get h (Direct.none _) _ _) fun x X hx => ?_
  refine relf_bind (rel_get h (Direct.none _) _ _) fun y Y hy => ?_
  exact rel_set h (Direct.none _) _ _ (hx.sub (hy.mul hf))

omit [Shrinks (U : Filter ι) F] in
theorem near_fastAbs {a : ∀ i, F i} {r : ℝ} (h : Near U a r) :
    Near U (fun i => fastAbs (a i)) |r| := by
  have key : ∀ᶠ i in (U : Filter ι), Rounded.fin (fastAbs (a i)) ∧
      |Rounded.val (a i)| = Rounded.val (fastAbs (a i)) := by
    filter_upwards [h.fin] with i hf
    have h0 : Rounded.fin (0 : F i) := Rounded.zero_fin
    have hg := Rounded.gt_exact (a i) 0 hf h0
    rw [Rounded.zero_val] at hg
    rw [fastAbs]
    split
    · rename_i q
      exact ⟨hf, abs_of_pos (hg.1 q)⟩
    · rename_i q
      have := Rounded.neg_exact (a i) hf
      refine ⟨this.1, ?_⟩
      rw [this.2, abs_of_nonpos (not_lt.1 fun p => q (hg.2 p))]
  exact ⟨key.mono fun _ q => q.1, h.lim.abs.congr' (key.mono fun _ q => q.2)⟩

omit [Shrinks (U : Filter ι) F] in
/-- The choice of the pivot settles, on a row with an exact entry of largest magnitude. -/
theorem rel_pivot {T0 : Store ℝ} {m a k : Nat} {A : Nat → Nat → ℝ} (hA : GeA T0 m T A)
    (h : NStore U none s T) (ha : a < m) (hk : k < m + 1) :
    ∃ p v, (∀ᶠ i in (U : Filter ι), (s i).gePivot m a k = .ok (p, v i)) ∧ a ≤ p ∧ p < m ∧
      Near U v |A p k| ∧ ∀ r, a ≤ r → r < m → |A r k| ≤ |A p k| := by
  have hget : ∀ r, r < m → ∃ v, (∀ᶠ i in (U : Filter ι), (s i).get .geA k r = .ok (v i)) ∧
      Near U v (A r k) := by
    intro r hr
    exact rel_get h (Direct.none .geA) k r _ (hA.get hr hk)
  have main : ∀ n, a + n < m → ∃ p v, (∀ᶠ i in (U : Filter ι), (do
      let v ← (s i).get .geA k a
      forN n (fun q p => do
        let v ← (s i).get .geA k (a + 1 + q)
        let v := fastAbs v
        pure (if Fp.gt v p.2 then (a + 1 + q, v) else p)) (a, fastAbs v) : Exec (Nat × F i)) =
          .ok (p, v i)) ∧ a ≤ p ∧ p < m ∧
      Near U v |A p k| ∧ ∀ r, a ≤ r → r ≤ a + n → |A r k| ≤ |A p k| := by
    intro n
    induction n with
    | zero =>
      intro _
      obtain ⟨v, h1, h2⟩ := hget a ha
      refine ⟨a, fun i => fastAbs (v i), ?_, le_refl _, ha, near_fastAbs h2, ?_⟩
      · filter_upwards [h1] with i e; rw [e]; rfl
      · intro r h1 h2; rw [show r = a by omega]
    | succ n ih =>
      intro hn
      obtain ⟨p, v, h1, h2, h3, h4, h5⟩ := ih (by omega)
      obtain ⟨x, g1, g2⟩ := hget (a + 1 + n) (by omega)
      have hx := near_fastAbs g2
      have step : ∀ᶠ i in (U : Filter ι), (do
          let v ← (s i).get .geA k a
          forN (n + 1) (fun q p => do
            let v ← (s i).get .geA k (a + 1 + q)
            let v := fastAbs v
            pure (if Fp.gt v p.2 then (a + 1 + q, v) else p)) (a, fastAbs v) :
              Exec (Nat × F i)) =
          .ok (if Fp.gt (fastAbs (x i)) (v i) then (a + 1 + n, fastAbs (x i)) else (p, v i)) := by
        filter_upwards [h1, g1] with i e1 e2
        cases hq : (s i).get .geA k a with
        | error e => rw [hq] at e1; cases e1
        | ok y =>
          rw [hq, ok_bind] at e1
          rw [ok_bind, forN_succ, e1, ok_bind, e2, ok_bind]
          rfl
      rcases Ultrafilter.em U (fun i => Fp.gt (fastAbs (x i)) (v i) = true) with hc | hc
      · refine ⟨a + 1 + n, fun i => fastAbs (x i), ?_, by omega, by omega, hx, ?_⟩
        · filter_upwards [step, hc] with i e c; rw [e, if_pos c]
        · have hle : |A p k| ≤ |A (a + 1 + n) k| := by
            refine le_of_tendsto_of_tendsto h4.lim hx.lim ?_
            filter_upwards [hc, h4.fin, hx.fin] with i c f1 f2
            exact ((Rounded.gt_exact _ _ f2 f1).1 c).le
          intro r hr1 hr2
          by_cases hr : r = a + 1 + n
          · rw [hr]
          · exact (h5 r hr1 (by omega)).trans hle
      · refine ⟨p, v, ?_, h2, h3, h4, ?_⟩
        · filter_upwards [step, hc] with i e c; rw [e, if_neg c]
        · have hle : |A (a + 1 + n) k| ≤ |A p k| := by
            refine le_of_tendsto_of_tendsto hx.lim h4.lim ?_
            filter_upwards [hc, h4.fin, hx.fin] with i c f1 f2
            exact not_lt.1 fun q => c ((Rounded.gt_exact _ _ f2 f1).2 q)
          intro r hr1 hr2
          by_cases hr : r = a + 1 + n
          · rw [hr]; exact hle
          · exact h5 r hr1 (by omega)
  obtain ⟨p, v, h1, h2, h3, h4, h5⟩ := main (m - (a + 1)) (by omega)
  exact ⟨p, v, h1, h2, h3, h4, fun r hr1 hr2 => h5 r hr1 (by omega)⟩

/-- The elimination loop, for a regular system. -/
theorem rel_geLoop {T0 : Store ℝ} {m : Nat} {A0 : Nat → Nat → ℝ}
    (hreg : ¬ ∃ y, Ker m A0 y ∧ y m = 0 ∧ ∃ j, j < m ∧ y j ≠ 0) :
    ∀ fuel h (s : ∀ i, Store (F i)) T A, GeA T0 m T A → NStore U none s T → GeInv m A0 A h h →
      m + 1 ≤ fuel + h →
      ∃ s' T' A', (∀ᶠ i in (U : Filter ι), geLoop (m + 1) m fuel h h (s i) = .ok (s' i)) ∧
        NStore U none s' T' ∧ Keeps T T' ∧ GeA T0 m T' A' ∧ GeInv m A0 A' m m := by
  intro fuel
  induction fuel with
  | zero =>
    intro h s T A hA hs hI hf
    have := hI.hm
    omega
  | succ fuel ih =>
    intro h s T A hA hs hI hf
    by_cases hc : h < m
    · have hk : h < m + 1 := by omega
      obtain ⟨p, v, e1, hp1, hp2, hv, hp3⟩ := rel_pivot hA hs hc hk
      have hz : A p h ≠ 0 := by
        intro hz
        refine hreg ((hI.skip hc hk fun r h1 h2 => ?_).skipped (Nat.lt_succ_self h))
        have := hp3 r h1 h2
        rw [hz, abs_zero] at this
        exact abs_eq_zero.mp (le_antisymm this (abs_nonneg _))
      obtain ⟨T1, q1, hA1⟩ := hA.swap hc hp2
      obtain ⟨T2, q2, hA2⟩ := geElim_spec hA1 hc hk (by rw [swapRows, if_pos rfl]; exact hz)
      obtain ⟨s1, e2, hs1⟩ := rel_rowSwap hs (Direct.none .geA) h p _ q1
      obtain ⟨s2, e3, hs2⟩ := rel_geElim hs1 (m + 1) m h h _ q2
      obtain ⟨s', T', A', e4, r1, r2, r3, r4⟩ := ih (h + 1) s2 T2 _ hA2 hs2
        (hI.pivot hk hp1 hp2 hz) (by omega)
      refine ⟨s', T', A', ?_, r1, ?_, r3, r4⟩
      · filter_upwards [e1, e2, e3, e4, near_isZero hv (abs_ne_zero.2 hz)] with i e1 e2 e3 e4 e5
        have e5' : Fp.isZero (v i) = false := by
          rw [e5, Bool.eq_false_iff, ne_eq, fp_isZero]; exact abs_ne_zero.2 hz
        rw [geLoop, if_pos ⟨hc, hk⟩, e1, ok_bind]
        simp only []
        rw [e5', if_neg Bool.false_ne_true, e2, ok_bind, e3, ok_bind, e4]
      · exact ((wp_anyErr_iff.1 (rowSwap_keeps T h p) _ q1).trans
          (wp_anyErr_iff.1 (geElim_keeps T1 _ _ _ _) _ q2)).trans r2
    · have hm : h = m := by have := hI.hm; omega
      subst hm
      refine ⟨s, T, A, ?_, hs, Keeps.refl T, hA, hI⟩
      filter_upwards with i
      rw [geLoop, if_neg (by omega)]

/-- The entries of the solution, in the order in which back substitution finds them. -/
def backSets {α : Type} (s : Store α) (res : MId) (m : Nat) (y : Nat → α) : Exec (Store α) := do
  let s ← s.set res 0 (m - 1) (y (m - 1))
  forN (m - 1) (fun q s => s.set res 0 (m - 2 - q) (y (m - 2 - q))) s

/-- What a triangular system says about its solution. -/
theorem tri_entry {m i : Nat} {A : Nat → Nat → ℝ} {y : Nat → ℝ} (hi : i < m) (hd : A i i ≠ 0)
    (hu : ∀ c, c < i → A i c = 0) (hy : ∑ j ∈ range m, A i j * y j = A i m) :
    (A i m - ∑ j ∈ Ico (i + 1) m, A i j * y j) / A i i = y i := by
  rw [← hy, sum_upper hi hu]
  field_simp
  ring

end

/-- Exact back substitution stores the solution. -/
theorem geBack_eq {s00 s : Store ℝ} {m : Nat} {A : Nat → Nat → ℝ} {res : MId} {y : Nat → ℝ}
    (hA : GeA s00 m s A) (hm : 0 < m) {y0 : Nat → ℝ} (hc : Col s res m s y0) (hr : res ≠ .geA)
    (hd : ∀ r, r < m → A r r ≠ 0) (hu : ∀ r c, r < m → c < r → A r c = 0)
    (hy : ∀ i, i < m → ∑ j ∈ range m, A i j * y j = A i m) :
    ∃ s', s.geBack res (m + 1) m = .ok s' ∧ backSets s res m y = .ok s' ∧ Col s res m s' y := by
  have hm1 : m - 1 < m := by omega
  have hfirst : A (m - 1) m / A (m - 1) (m - 1) = y (m - 1) := by
    have := tri_entry hm1 (hd _ hm1) (hu _ · hm1) (hy _ hm1)
    rw [show m - 1 + 1 = m by omega, Ico_self, sum_empty, sub_zero] at this
    exact this
  obtain ⟨s1, e1, h1⟩ := hc.set hm1 (y (m - 1))
  have main : ∀ n, n ≤ m - 1 → ∃ s', forN n (fun q (s : Store ℝ) => do
      let i := m - 2 - q
      let b ← s.get .geA (m + 1 - 1) i
      let sum ← forN (m - 1 - i) (fun p v => do
        let x ← s.prodAt .geA res i (m - 1 - p)
        pure (v + x)) 0
      let d ← s.get .geA i i
      if Fp.isZero d then s.set res 0 i (Fp.lit 0)
      else do
        let d ← s.get .geA i i
        let x ← Fp.div (b - sum) d
        s.set res 0 i x) s1 = .ok s' ∧
      forN n (fun q (s : Store ℝ) => s.set res 0 (m - 2 - q) (y (m - 2 - q))) s1 = .ok s' ∧
      ∃ y', Col s res m s' y' ∧ ∀ i, m - 1 - n ≤ i → i < m → y' i = y i := by
    intro n
    induction n with
    | zero =>
      intro _
      refine ⟨s1, rfl, rfl, _, h1, fun i h1 h2 => ?_⟩
      rw [show i = m - 1 by omega, upd_same]
    | succ n ih =>
      intro hn
      obtain ⟨s2, e2, e2', y', h2, hy'⟩ := ih (by omega)
      have hi : m - 2 - n < m := by omega
      obtain ⟨s3, e3, h3⟩ := h2.set hi (y (m - 2 - n))
      refine ⟨s3, ?_, ?_, _, h3, ?_⟩
      · rw [forN_succ, e2, ok_bind]
        simp only []
        rw [show m + 1 - 1 = m by omega, hA.of_col h2 hr hi (by omega), ok_bind]
        have hsum : forN (m - 1 - (m - 2 - n)) (fun p v => do
            let x ← s2.prodAt .geA res (m - 2 - n) (m - 1 - p)
            pure (v + x)) 0 = .ok (∑ j ∈ Ico (m - 2 - n + 1) m, A (m - 2 - n) j * y j) := by
          rw [← sum_rev_tail hi (fun j => A (m - 2 - n) j * y j), ← sumTo_eq]
          refine forN_sum (fun p hp => ?_)
          have hj : m - 1 - p < m := by omega
          rw [Store.prodAt, hA.of_col h2 hr hi (by omega), ok_bind,
            Store.get_ok s2 res h2.wf h2.width (by rw [h2.height]; exact hj), ok_bind,
            h2.ent _ hj, hy' _ (by omega) hj]
          rfl
        rw [hsum, ok_bind, hA.of_col h2 hr hi (by omega), ok_bind,
          if_neg (fun q' => hd _ hi (fp_isZero.mp q')), ok_bind, fp_div (hd _ hi), ok_bind,
          tri_entry hi (hd _ hi) (hu _ · hi) (hy _ hi), e3]
      · rw [forN_succ, e2', ok_bind, e3]
      · intro i hi1 hi2
        by_cases e : i = m - 2 - n
        · subst e; rw [upd_same]
        · rw [upd_other _ _ e]; exact hy' i (by omega) hi2
  obtain ⟨s', e2, e2', y', h2, hy'⟩ := main (m - 1) (le_refl _)
  refine ⟨s', ?_, ?_, h2.only, h2.wf, h2.width, h2.shape, h2.height, fun r hr' => ?_⟩
  · rw [Store.geBack, show m + 1 - 2 = m - 1 by omega, show m + 1 - 1 = m by omega,
      hA.get hm1 (by omega), ok_bind, chk_true, ok_bind, hA.get hm1 (by omega), ok_bind, ok_bind,
      fp_div (hd _ hm1), ok_bind, hfirst, e1, ok_bind]
    · rw [show m + 1 - 1 = m by omega] at e2
      exact e2
    · by_contra hcon
      rw [Bool.not_eq_false] at hcon
      exact hd _ hm1 (fp_isZero.mp hcon)
  · rw [backSets, e1, ok_bind, e2']
  · rw [h2.ent r hr', hy' r (by omega) hr']

section
variable {ι : Type} {U : Ultrafilter ι} {F : ι → Type} [∀ i, Rounded (F i)]
  {s : ∀ i, Store (F i)} {S T : Store ℝ} {G : Mat ℝ} [Shrinks (U : Filter ι) F]

omit [Shrinks (U : Filter ι) F] in
theorem shadow_get (h : NStore U (some G) s S) {m : Nat} {A : Nat → Nat → ℝ} (wf : G.WF)
    (hw : G.width = m + 1) (hh : G.height = m) (he : ∀ r c, r < m → c < m + 1 → G.ent r c = A r c)
    {r c : Nat} (hr : r < m) (hc : c < m + 1) :
    ∃ x, (∀ᶠ i in (U : Filter ι), (s i).get .geA c r = .ok (x i)) ∧ Near U x (A r c) := by
  refine rel_get h.shadow.1 (Direct.none .geA) c r _ ?_
  rw [Store.get_ok _ .geA (by rw [Store.setMat_same]; exact wf)
    (by rw [Store.setMat_same, hw]; exact hc) (by rw [Store.setMat_same, hh]; exact hr),
    Store.setMat_same, he r c hr hc]

/-- Rounded back substitution follows the solution. -/
theorem rel_geBack (h : NStore U (some G) s S) {m : Nat} {A : Nat → Nat → ℝ} {res : MId}
    {y y0 : Nat → ℝ} (wf : G.WF)
    (hw : G.width = m + 1) (hh : G.height = m) (he : ∀ r c, r < m → c < m + 1 → G.ent r c = A r c)
    (hm : 0 < m) (hc : Col S res m S y0) (hr : res ≠ .geA)
    (hd : ∀ r, r < m → A r r ≠ 0) (hu : ∀ r c, r < m → c < r → A r c = 0)
    (hy : ∀ i, i < m → ∑ j ∈ range m, A i j * y j = A i m) :
    RelF U (NStore U (some G)) (fun i => (s i).geBack res (m + 1) m) (backSets S res m y) := by
  have hm1 : m - 1 < m := by omega
  have hdir : Direct (some G) res := fun e => absurd e hr
  have hfirst : A (m - 1) m / A (m - 1) (m - 1) = y (m - 1) := by
    have := tri_entry hm1 (hd _ hm1) (hu _ · hm1) (hy _ hm1)
    rw [show m - 1 + 1 = m by omega, Ico_self, sum_empty, sub_zero] at this
    exact this
  have hnz : ∀ {d : ∀ i, F i} {r : Nat}, r < m → Near U d (A r r) →
      ∀ᶠ i in (U : Filter ι), Fp.isZero (d i) = false := by
    intro d r hr hd'
    filter_upwards [near_isZero hd' (hd r hr)] with i e
    rw [e, Bool.eq_false_iff, ne_eq, fp_isZero]; exact hd r hr
  obtain ⟨S1, E1, H1⟩ := hc.set hm1 (y (m - 1))
  obtain ⟨d, ed, hd1⟩ := shadow_get h wf hw hh he hm1 (show m - 1 < m + 1 by omega)
  obtain ⟨b, eb, hb1⟩ := shadow_get h wf hw hh he hm1 (show m < m + 1 by omega)
  obtain ⟨x, ex, hx⟩ := near_div hb1 hd1 _ (fp_div (hd _ hm1))
  rw [hfirst] at hx
  obtain ⟨s1, e1, h1⟩ := rel_set h hdir 0 (m - 1) hx _ E1
  have start : ∀ᶠ i in (U : Filter ι), (s i).geBack res (m + 1) m =
      forN (m - 1) (fun q s => do
        let i := m - 2 - q
        let b ← s.get .geA m i
        let sum ← forN (m - 1 - i) (fun p v => do
          let x ← s.prodAt .geA res i (m - 1 - p)
          pure (v + x)) 0
        let d ← s.get .geA i i
        if Fp.isZero d then s.set res 0 i (Fp.lit 0)
        else do
          let d ← s.get .geA i i
          let x ← Fp.div (b - sum) d
          s.set res 0 i x) (s1 i) := by
    filter_upwards [ed, eb, ex, e1, hnz hm1 hd1] with i ed eb ex e1 ez
    rw [Store.geBack, show m + 1 - 2 = m - 1 by omega, show m + 1 - 1 = m by omega, ed, ok_bind,
      chk_true _ ez, ok_bind, eb, ok_bind, ok_bind, ex, ok_bind, e1, ok_bind]
  refine relf_congr start ?_
  rw [backSets, E1, ok_bind]
  refine (relf_forN' (SameF.rfl') (fun n (a : ∀ i, Store (F i)) B => NStore U (some G) a B ∧
    ∃ y', Col S res m B y' ∧ ∀ i, m - 1 - n ≤ i → i < m → y' i = y i) ⟨h1, _, H1, ?_⟩ ?_).mono
    fun a b q => q.1
  · intro i h1 h2
    rw [show i = m - 1 by omega, upd_same]
  · rintro n hn s2 S2 - ⟨h2, y', H2, hy'⟩
    have hi : m - 2 - n < m := by omega
    obtain ⟨S3, E3, H3⟩ := H2.set hi (y (m - 2 - n))
    obtain ⟨b, eb, hb⟩ := shadow_get h2 wf hw hh he hi (show m < m + 1 by omega)
    obtain ⟨d, ed, hd2⟩ := shadow_get h2 wf hw hh he hi (show m - 2 - n < m + 1 by omega)
    have hsum : ∀ k, k ≤ m - 1 - (m - 2 - n) →
        ∃ v, (∀ᶠ i in (U : Filter ι), forN k (fun p v => do
          let x ← (s2 i).prodAt .geA res (m - 2 - n) (m - 1 - p)
          pure (v + x)) (0 : F i) = .ok (v i)) ∧
          Near U v (∑ p ∈ range k, A (m - 2 - n) (m - 1 - p) * y (m - 1 - p)) := by
      intro k
      induction k with
      | zero =>
        intro _
        exact ⟨fun _ => 0, Eventually.of_forall fun _ => rfl, Near.zero⟩
      | succ k ih =>
        intro hk
        obtain ⟨v, ev, hv⟩ := ih (by omega)
        have hj : m - 1 - k < m := by omega
        obtain ⟨x, ex, hx⟩ := shadow_get h2 wf hw hh he hi (show m - 1 - k < m + 1 by omega)
        obtain ⟨z, ez, hz⟩ := rel_get h2 hdir 0 (m - 1 - k) _
          (Store.get_ok S2 res H2.wf H2.width (by rw [H2.height]; exact hj))
        rw [H2.ent _ hj, hy' _ (by omega) hj] at hz
        refine ⟨fun i => v i + x i * z i, ?_, ?_⟩
        · filter_upwards [ev, ex, ez] with i ev ex ez
          rw [forN_succ, ev, ok_bind, Store.prodAt, ex, ok_bind, ez]
          rfl
        · rw [sum_range_succ]; exact hv.add (hx.mul hz)
    obtain ⟨v, ev, hv⟩ := hsum _ (le_refl _)
    rw [sum_rev_tail hi (fun j => A (m - 2 - n) j * y j)] at hv
    obtain ⟨x, ex, hx⟩ := near_div (hb.sub hv) hd2 _ (fp_div (hd _ hi))
    rw [tri_entry hi (hd _ hi) (hu _ · hi) (hy _ hi)] at hx
    obtain ⟨s3, e3, h3⟩ := rel_set h2 hdir 0 (m - 2 - n) hx _ E3
    rw [E3]
    intro B hB
    cases hB
    refine ⟨s3, ?_, h3, _, H3, ?_⟩
    · filter_upwards [eb, ed, ev, ex, e3, hnz hi hd2] with i eb ed ev ex e3 ez
      simp only []
      rw [eb, ok_bind, ev, ok_bind, ed, ok_bind, if_neg (by rw [ez]; exact Bool.false_ne_true),
        ok_bind, ex, ok_bind, e3]
    · intro i hi1 hi2
      by_cases e : i = m - 2 - n
      · subst e; rw [upd_same]
      · rw [upd_other _ _ e]; exact hy' i (by omega) hi2

omit [Shrinks (U : Filter ι) F] in
theorem rel_geCheck (h : NStore U (some G) s S) {res : MId} (hr : res ≠ .geA) {m : Nat}
    {S0 : Store ℝ} {y : Nat → ℝ} (hc : Col S0 res m S y) :
    ∀ᶠ i in (U : Filter ι), (s i).geCheck res m = .ok ⟨⟩ := by
  have key : RelF (U : Filter ι) (fun (_ : ι → PUnit) (_ : PUnit) => True)
      (fun i => (s i).geCheck res m) (S.geCheck res m) := by
    unfold Store.geCheck
    refine relf_forN SameF.rfl' trivial fun k _ _ _ _ => ?_
    refine relf_bind (rel_get h (fun e => absurd e hr) _ _) fun v V hv => ?_
    refine relf_chk fun _ => ?_
    filter_upwards [hv.fin] with i hf; exact Rounded.fin_exact _ hf
  obtain ⟨a, ha, _⟩ := key _ (geCheck_spec hc)
  exact ha

/-- `GaussianEliminationSleSolver::solve`. -/
theorem rel_geSolve {st en : Nat} (hst : 0 < st) {J : SId} {W right r : MId}
    (prev : Option MId) {n : Nat} (hG : G.WF) (h : NStore U (some G) s S)
    (hin : SleIn st en S J W right n) (hJ : J ≠ .geReg) (hf : (S.smat .geReg).Fresh)
    (h1 : r ≠ .geM) (h2 : r ≠ .geA) (h5 : right ≠ .geM) (h6 : right ≠ .geA) (hW : W ≠ .geA) :
    RelF U (fun (a : ∀ i, Store (F i) × Bool) b =>
        (∃ G', G'.WF ∧ NStore U (some G') (fun i => (a i).1) b.1) ∧
          SameF U (fun i => (a i).2) b.2)
      (fun i => (s i).geSolve st en J W right prev (some r))
      (S.geSolve st en J W right prev (some r)) := by
  intro B hB
  obtain ⟨S1, E1, ok1, f1, fr1, _, wM, hhM, eM⟩ := Store.formM_spec hst hin.ok (J := J)
    (reg := .geReg) (W := W) (M := .geM) hin.inRange hJ hf hin.wW hin.hW
  rw [hin.rows] at wM hhM eM
  have hB1 : S1.mat right = S.mat right := f1.mat right h5
  obtain ⟨s1, e1, n1⟩ := rel_formM st en h (a := J) (c := W) (t := .geReg) (d := .geM)
    (fun e => absurd e hW) (fun e => by cases e) _ E1
  have hgeM := n1.at (t := .geM) (fun e => by cases e)
  have hright := n1.at (t := right) (fun e => absurd e h6)
  rcases Nat.eq_zero_or_pos n with hn | hn
  · subst hn
    have eB : S.geSolve st en J W right prev (some r) = .ok (S1, true) := by
      rw [Store.geSolve, E1, ok_bind]
      simp only []
      rw [wM, hhM, hB1, hin.hB, chk_true _ rfl, ok_bind, if_pos rfl]
      rfl
    rw [eB] at hB
    cases hB
    refine ⟨fun i => (s1 i, true), ?_, ⟨G, hG, n1⟩, SameF.rfl'⟩
    filter_upwards [e1, hgeM.width, hgeM.height, hright.height] with i e1 a b c
    rw [Store.geSolve, e1, ok_bind]
    simp only []
    rw [a, b, c, wM, hhM, hB1, hin.hB, chk_true _ rfl, ok_bind, if_pos rfl]
    rfl
  · rcases Store.geSolve_spec hst prev hin hJ hf h1 h2 h5 h6 hn with ⟨hreg, -⟩ | ⟨-, e⟩
    swap
    · rw [e] at hB; cases hB
    obtain ⟨S2, E2, o2, wf2, w2, hh2, _, k2, _⟩ := Store.resize_spec S1 r 1 n (ok1.mat r)
    have ok2 := ok1.only o2 wf2
    obtain ⟨S3, E3, o3, wf3, w3, hh3, _⟩ := Store.resize_spec S2 .geA (n + 1) n (ok2.mat .geA)
    have ok3 := ok2.only o3 wf3
    have hM3 : S3.mat .geM = S1.mat .geM :=
      (o3.mat _ (by decide)).trans (o2.mat _ (Ne.symm h1))
    have hB3 : S3.mat right = S.mat right := by
      rw [o3.mat _ h6]
      by_cases hrr : right = r
      · subst hrr
        rw [k2 ⟨by rw [hB1, hin.wB], by rw [hB1, hin.hB]⟩, hB1]
      · rw [o2.mat _ hrr, hB1]
    obtain ⟨S4, E4, hA4⟩ := geLoad_spec (s0 := S3) (s := S3) (m := n) (A0 := (S3.mat .geA).ent)
      (M := sysMat st en S J W) (b := fun i => (S.mat right).ent i 0) (right := right)
      ⟨Only.refl _ _, wf3, w3, hh3, fun _ _ _ _ => rfl⟩ h6 (ok3.mat _) (by rw [hM3, wM])
      (by rw [hM3, hhM]) (fun i j hi hj => by rw [hM3, eM i j hi hj]; rfl) (ok3.mat _)
      (by rw [hB3, hin.wB]; decide) (by rw [hB3, hin.hB]) (fun i _ => by rw [hB3])
    obtain ⟨S5, A, hh, kk, E5, hA5, hI, hend⟩ := geLoop_spec (n + 1) 0 0 S4 _ hA4
      (GeInv.init n _) (by omega)
    have hsolve : S.geSolve st en J W right prev (some r) = (do
        let s ← S5.geBack r (n + 1) n
        s.geCheck r n
        pure (s, true)) := by
      rw [Store.geSolve, E1, ok_bind]
      simp only []
      rw [wM, hhM, hB1, hin.hB, chk_true _ rfl, ok_bind, if_neg (by omega)]
      simp only [deref, ok_bind]
      rw [E2, ok_bind, E3, ok_bind, E4, ok_bind, E5, ok_bind]
    have hkeraug : ∀ y : Nat → ℝ, Ker n (fun r c => if c < n then sysMat st en S J W r c
        else (S.mat right).ent r 0) y ↔ ∀ i, i < n →
          ∑ j ∈ range n, sysMat st en S J W i j * y j + (S.mat right).ent i 0 * y n = 0 := by
      intro y
      have : ∀ i, ∑ j ∈ range (n + 1), (if j < n then sysMat st en S J W i j
          else (S.mat right).ent i 0) * y j =
          ∑ j ∈ range n, sysMat st en S J W i j * y j + (S.mat right).ent i 0 * y n := by
        intro i
        rw [sum_range_succ, if_neg (Nat.lt_irrefl n)]
        congr 1
        exact sum_congr rfl (fun j hj => by rw [if_pos (mem_range.mp hj)])
      simp only [Ker, this]
    have hno : ¬ ∃ y, Ker n (fun r c => if c < n then sysMat st en S J W r c
        else (S.mat right).ent r 0) y ∧ y n = 0 ∧ ∃ j, j < n ∧ y j ≠ 0 := by
      rintro ⟨y, hy1, hy2, j, hj1, hj2⟩
      rw [hkeraug] at hy1
      exact hj2 (hreg y (fun i hi => by
        have := hy1 i hi
        rw [hy2, mul_zero, add_zero] at this
        exact this) j hj1)
    have hk : hh = kk := by
      by_contra hne
      exact hno (hI.skipped (by have := hI.le; omega))
    have hhn : hh = n := by have := hI.hm; omega
    subst hk hhn
    have hdiag := hI.diag rfl
    have hr5 : S5.mat r = S2.mat r := by rw [hA5.only.mat r h2, o3.mat r h2]
    have hcol : Col S5 r hh S5 (fun i => (S5.mat r).ent i 0) :=
      ⟨Only.refl _ _, by rw [hr5]; exact wf2, by rw [hr5, w2]; decide, Mat.SameShape.refl _,
        by rw [hr5, hh2], fun _ _ => rfl⟩
    obtain ⟨S6', y, E6', hc6', hy⟩ := geBack_spec hA5 hn hcol h2 (fun r hr => (hdiag r hr).1)
      (fun r c hr hc => (hdiag r hr).2 c hc)
    obtain ⟨S6, E6, Eb, hc6⟩ := geBack_eq hA5 hn hcol h2 (fun r hr => (hdiag r hr).1)
      (fun r c hr hc => (hdiag r hr).2 c hc) hy
    have eB : B = (S6, true) := by
      rw [hsolve, E6, ok_bind, geCheck_spec hc6] at hB
      exact (Except.ok.inj hB).symm
    subst eB
    -- the family
    obtain ⟨s2, e2, n2⟩ := rel_resize n1 (t := r) (fun e => absurd e h2) (W' := 1) (H' := hh)
      (w := fun _ => 1) (H := fun _ => hh) SameF.rfl' SameF.rfl' _ E2
    obtain ⟨n2', kp2⟩ := n2.shadow
    have hT2 : ((S2.setMat .geA G).mat .geA).WF := by rw [Store.setMat_same]; exact hG
    obtain ⟨T3, Et3, ot3, wft3, wt3, ht3, _⟩ :=
      Store.resize_spec (S2.setMat .geA G) .geA (hh + 1) hh hT2
    have kp3 : Keeps S3 T3 := resize_twins kp2 (ok2.mat .geA) hT2 E3 Et3
    obtain ⟨s3, e3, n3⟩ := rel_resize n2' (t := .geA) (Direct.none _) (W' := hh + 1) (H' := hh)
      (w := fun _ => hh + 1) (H := fun _ => hh) SameF.rfl' SameF.rfl' _ Et3
    have hMt : T3.mat .geM = S3.mat .geM := kp3.only.mat _ (by decide)
    have hBt : T3.mat right = S3.mat right := kp3.only.mat _ h6
    obtain ⟨T4, Et4, hAt4⟩ := geLoad_spec (s0 := T3) (s := T3) (m := hh) (A0 := (T3.mat .geA).ent)
      (M := sysMat st en S J W) (b := fun i => (S.mat right).ent i 0) (right := right)
      ⟨Only.refl _ _, wft3, wt3, ht3, fun _ _ _ _ => rfl⟩ h6 (by rw [hMt]; exact ok3.mat _)
      (by rw [hMt, hM3, wM]) (by rw [hMt, hM3, hhM])
      (fun i j hi hj => by rw [hMt, hM3, eM i j hi hj]; rfl) (by rw [hBt]; exact ok3.mat _)
      (by rw [hBt, hB3, hin.wB]; decide) (by rw [hBt, hB3, hin.hB]) (fun i _ => by rw [hBt, hB3])
    obtain ⟨s4, e4, n4⟩ := rel_geLoad n3 (hh + 1) hh _ Et4
    obtain ⟨s5, T5, A', e5, n5, kp5, hAt5, hIt⟩ := rel_geLoop hno (hh + 1) 0 s4 T4 _ hAt4 n4
      (GeInv.init hh _) (by omega)
    have k34 : Keeps S3 S5 := (wp_anyErr_iff.1 (geLoad_keeps S3 _ _ _) _ E4).trans
      (wp_anyErr_iff.1 (geLoop_keeps _ _ _ _ _ _) _ E5)
    have kt34 : Keeps T3 T5 := (wp_anyErr_iff.1 (geLoad_keeps T3 _ _ _) _ Et4).trans kp5
    have kp : Keeps S5 T5 := (k34.symm.trans kp3).trans kt34
    have n5' := n5.cast kp
    have hdiag' := hIt.diag rfl
    have hy' : ∀ i, i < hh → ∑ j ∈ range hh, A' i j * y j = A' i hh := by
      have h0 : Ker hh A (fun j => if j < hh then y j else -1) := by
        intro i hi
        simp only []
        rw [sum_range_succ, if_neg (Nat.lt_irrefl hh)]
        have e : ∑ j ∈ range hh, A i j * (if j < hh then y j else -1) =
            ∑ j ∈ range hh, A i j * y j :=
          sum_congr rfl (fun j hj => by rw [if_pos (mem_range.mp hj)])
        rw [e, hy i hi]; ring
      rw [hI.ker, ← hIt.ker] at h0
      intro i hi
      have h3 := h0 i hi
      simp only [] at h3
      rw [sum_range_succ, if_neg (Nat.lt_irrefl hh)] at h3
      have e : ∑ j ∈ range hh, A' i j * (if j < hh then y j else -1) =
          ∑ j ∈ range hh, A' i j * y j :=
        sum_congr rfl (fun j hj => by rw [if_pos (mem_range.mp hj)])
      rw [e] at h3
      linarith
    obtain ⟨s6, e6, n6⟩ := rel_geBack n5' hAt5.wf hAt5.width hAt5.height hAt5.ent hn hcol h2
      (fun r hr => (hdiag' r hr).1) (fun r c hr hc => (hdiag' r hr).2 c hc) hy' _ Eb
    refine ⟨fun i => (s6 i, true), ?_, ⟨_, hAt5.wf, n6⟩, SameF.rfl'⟩
    filter_upwards [e1, e2, e3, e4, e5, e6, rel_geCheck n6 h2 hc6, hgeM.width, hgeM.height,
      hright.height] with i e1 e2 e3 e4 e5 e6 e7 a b c
    rw [Store.geSolve, e1, ok_bind]
    simp only []
    rw [a, b, c, wM, hhM, hB1, hin.hB, chk_true _ rfl, ok_bind, if_neg (by omega)]
    simp only [deref, ok_bind]
    rw [e2, ok_bind, e3, ok_bind, e4, ok_bind, e5, ok_bind, e6, ok_bind, e7, ok_bind]
    rfl

end

end Scs
