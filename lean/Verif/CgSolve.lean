import Verif.Cg

/-!
# The solve function of the conjugate gradient solver
-/

namespace Scs

open Finset

/-- The scratch columns of the solver are not permuted. -/
structure CgPlain (s : Store ℝ) : Prop where
  r : (s.mat .cgR).Plain
  p : (s.mat .cgP).Plain
  ap : (s.mat .cgAp).Plain

/-- Everything up to the first test. -/
theorem cgSolve_start {st en : Nat} (hst : 0 < st) {s : Store ℝ} {J : SId} {W right r : MId}
    {prev : Option MId} {n : Nat} (h : SleIn st en s J W right n) (hpl : CgPlain s)
    (hW : ¬ IsCg W) (hB : ¬ IsCg right) (hR : ¬ IsCg r) (hWr : r ≠ W)
    (hp : ∀ p, prev = some p → ((s.mat p).height = n → (s.mat p).width = 1) ∧ ¬ IsCg p) :
    ∃ s0 s1 x0 r0 p0,
      CgData st en s0 J W right n (sysMat st en s J W) (fun i => (s.mat right).ent i 0) ∧
      Frame (fun a => a = r ∨ IsCg a) (fun _ => False) s s0 ∧
      (s0.mat r).width = 1 ∧ (s0.mat r).height = n ∧
      CgSt st en s0 n s1 x0 r0 p0 ∧
      IsRes n (sysMat st en s J W) (fun i => (s.mat right).ent i 0) x0 r0 ∧
      (∀ i, i < n → x0 i = startVec s prev n (fun _ => 0) i) ∧
      ∀ maxIter e1 e2, s.cgSolve st en maxIter e1 e2 J W right prev (some r) = (do
        let small ← s1.cgSmall e1 e2 .cgR right
        let q ← if small then pure (s1, true)
          else do
            let s ← s1.setMatFrom .cgP .cgR
            cgLoop st en e1 e2 J W right maxIter s
        if q.2 then do
          let s ← q.1.setMatFrom r .cgX
          pure (s, true)
        else pure (q.1, false)) := by
  have ng : ∀ {a b : MId}, ¬ IsCg a → IsCg b → a ≠ b := fun ha hb e => ha (e ▸ hb)
  obtain ⟨s1, q1, o1, wf1, w1, hh1, p1, _, _⟩ := Store.resize_spec s .cgR 1 n (h.ok.mat _)
  have ok1 := h.ok.only o1 wf1
  obtain ⟨s2, q2, o2, wf2, w2, hh2, p2, _, _⟩ := Store.resize_spec s1 .cgP 1 n (ok1.mat _)
  have ok2 := ok1.only o2 wf2
  obtain ⟨s3, q3, o3, wf3, w3, hh3, p3, _, _⟩ := Store.resize_spec s2 .cgAp 1 n (ok2.mat _)
  have ok3 := ok2.only o3 wf3
  obtain ⟨s4, q4, w4⟩ := Store.init0_spec s3 .cgX 1 n (ok3.mat _)
  have ok4 := ok3.only w4.only w4.wf
  have h3 : ∀ a, ¬ IsCg a → s3.mat a = s.mat a := fun a ha => by
    rw [o3.mat a (ng ha (by simp [IsCg])), o2.mat a (ng ha (by simp [IsCg])),
      o1.mat a (ng ha (by simp [IsCg]))]
  obtain ⟨s5, q5, ok5, o5, w5, hh5, _, en5⟩ := Store.warmStart_spec ok4 w4.only w4.width w4.height
    (base := fun _ => 0) (fun i hi => by rw [w4.ent i 0 hi (by decide)]) prev
    (fun p hpp => by rw [h3 p (hp p hpp).2]; exact (hp p hpp).1)
    (fun p hpp _ => by
      have := (hp p hpp).2
      rw [w4.only.mat p (ng this (by simp [IsCg]))]) w4.plain
  obtain ⟨s6, q6, o6, wf6, w6, hh6, _, k6, _⟩ := Store.resize_spec s5 r 1 n (ok5.mat _)
  have ok6 := ok5.only o6 wf6
  have F6 : Frame (fun a => a = r ∨ IsCg a) (fun _ => False) s s6 := by
    have f1 : Frame (fun a => a = r ∨ IsCg a) (fun _ => False) s s1 :=
      o1.frame (by simp [IsCg])
    exact (((f1.trans (o2.frame (by simp [IsCg]))).trans (o3.frame (by simp [IsCg]))).trans
      (o5.frame (by simp [IsCg]))).trans (o6.frame (Or.inl rfl))
  have h5 : ∀ a, ¬ IsCg a → s5.mat a = s.mat a := fun a ha => by
    rw [o5.mat a (ng ha (by simp [IsCg])), h3 a ha]
  have hB6 : s6.mat right = s.mat right := by
    by_cases hr : right = r
    · subst hr
      rw [k6 ⟨by rw [h5 _ hB, h.wB], by rw [h5 _ hB, h.hB]⟩, h5 _ hB]
    · rw [o6.mat _ hr, h5 _ hB]
  have hW6 : s6.mat W = s.mat W := by rw [o6.mat _ (Ne.symm hWr), h5 _ hW]
  have hd : CgData st en s6 J W right n (sysMat st en s J W)
      (fun i => (s.mat right).ent i 0) :=
    CgData.frame (s := s) ⟨h.inRange, h.rows, h.wW, h.hW, ⟨h.wB, h.hB, fun _ _ => rfl⟩,
      fun _ _ => rfl⟩ (F6.smat J id) hW6 hB6
  obtain ⟨s7, q7, w7⟩ := Store.setMatFrom_spec s6 .cgR right (ok6.mat _) (ok6.mat _)
  have ok7 := ok6.only w7.only w7.wf
  have hd7 : CgData st en s7 J W right n (sysMat st en s J W)
      (fun i => (s.mat right).ent i 0) :=
    hd.frame (by rw [w7.only.smat]) (w7.only.mat W (ng hW (by simp [IsCg])))
      (w7.only.mat right (ng hB (by simp [IsCg])))
  have hX7 : s7.mat .cgX = s5.mat .cgX := by
    rw [w7.only.mat _ (by decide), o6.mat _ (Ne.symm (ng hR (by simp [IsCg])))]
  have vX7 : IsVec s7 .cgX n (fun i => (s5.mat .cgX).ent i 0) :=
    ⟨by rw [hX7, w5], by rw [hX7, hh5], fun i _ => by rw [hX7]⟩
  obtain ⟨s8, q8, ok8, f8, v8, p8⟩ := cgMultiply_spec hst ok7 (x := .cgX) (t := .cgAp) hd7 vX7
    (by decide) (by decide) (by decide) (by decide) (ng hW (by simp [IsCg]))
    (ng hW (by simp [IsCg]))
  have hR8 : s8.mat .cgR = s7.mat .cgR := f8.mat _ (by decide)
  obtain ⟨s9, q9, w9⟩ := Store.madd_spec s8 .cgR .cgAp (Fp.lit (-1)) (ok8.mat _) (ok8.mat _)
    (by rw [hR8, w7.width, hB6, h.wB, v8.width]) (by rw [hR8, w7.height, hB6, h.hB, v8.height])
  have ok9 := ok8.only w9.only w9.wf
  have hX9 : s9.mat .cgX = s5.mat .cgX := by
    rw [w9.only.mat _ (by decide), f8.mat _ (by decide), hX7]
  have hP9 : s9.mat .cgP = s2.mat .cgP := by
    rw [w9.only.mat _ (by decide), f8.mat _ (by decide), w7.only.mat _ (by decide),
      o6.mat _ (Ne.symm (ng hR (by simp [IsCg]))), o5.mat _ (by decide), o3.mat _ (by decide)]
  have hAp7 : s7.mat .cgAp = s3.mat .cgAp := by
    rw [w7.only.mat _ (by decide), o6.mat _ (Ne.symm (ng hR (by simp [IsCg]))),
      o5.mat _ (by decide)]
  have hR6 : s6.mat .cgR = s1.mat .cgR := by
    rw [o6.mat _ (Ne.symm (ng hR (by simp [IsCg]))), o5.mat _ (by decide),
      o3.mat _ (by decide), o2.mat _ (by decide)]
  have F9 : Frame IsCg (fun _ => False) s6 s9 := by
    have f1 : Frame IsCg (fun _ => False) s6 s7 := w7.only.frame (by simp [IsCg])
    exact (f1.trans (f8.mono (fun a q => by rcases q with q | q | q <;> simp [IsCg, q])
      (fun _ q => q))).trans (w9.only.frame (by simp [IsCg]))
  refine ⟨s6, s9, fun i => (s5.mat .cgX).ent i 0, fun i => (s9.mat .cgR).ent i 0,
    fun i => (s9.mat .cgP).ent i 0, hd, F6, w6, hh6, ⟨ok9, F9, ?_, ?_, ?_, ?_, ?_, ?_⟩, ?_, ?_, ?_⟩
  · exact ⟨by rw [hX9, w5], by rw [hX9, hh5], fun i _ => by rw [hX9]⟩
  · exact ⟨by rw [w9.width, hR8, w7.width, hB6, h.wB],
      by rw [w9.height, hR8, w7.height, hB6, h.hB], fun _ _ => rfl⟩
  · exact ⟨by rw [hP9, w2], by rw [hP9, hh2], fun _ _ => rfl⟩
  · refine w9.plain ?_
    rw [hR8]
    refine w7.plain ?_
    rw [hR6]; exact p1 hpl.r
  · rw [hP9]
    exact p2 (by rw [o1.mat _ (by decide)]; exact hpl.p)
  · rw [w9.only.mat _ (by decide)]
    refine p8 ?_
    rw [hAp7]
    exact p3 (by rw [o2.mat _ (by decide), o1.mat _ (by decide)]; exact hpl.ap)
  · intro i hi
    simp only []
    rw [w9.ent i 0 (by rw [hR8, w7.height, hB6, h.hB]; exact hi)
      (by rw [hR8, w7.width, hB6, h.wB]; decide), hR8, w7.ent i 0 (by rw [hB6, h.hB]; exact hi)
      (by rw [hB6, h.wB]; decide), hB6, v8.ent i hi, fp_lit]
    push_cast
    ring
  · intro i hi
    simp only []
    rw [en5 i hi, if_neg (by
      rintro ⟨q, _⟩
      exact (hp _ q).2 (by simp [IsCg]))]
    cases prev with
    | none => rfl
    | some p => simp only [startVec, h3 p (hp p rfl).2]
  · intro maxIter e1 e2
    rw [Store.cgSolve]
    simp only [h.hB]
    rw [q1, ok_bind, q2, ok_bind, q3, ok_bind, q4, ok_bind, q5, ok_bind]
    simp only [deref, ok_bind]
    rw [q6, ok_bind, q7, ok_bind, q8, ok_bind, q9, ok_bind]

theorem CgSt.restart {st en : Nat} {s0 s : Store ℝ} {n : Nat} {x r p : Nat → ℝ}
    (h : CgSt st en s0 n s x r p) : ∃ s', s.setMatFrom .cgP .cgR = .ok s' ∧
      CgSt st en s0 n s' x r r := by
  obtain ⟨s', e, w⟩ := Store.setMatFrom_spec s .cgP .cgR (h.ok.mat _) (h.ok.mat _)
  refine ⟨s', e, h.ok.only w.only w.wf, h.frame.trans (w.only.frame (by simp [IsCg])),
    h.vX.congr (w.only.mat _ (by decide)), h.vR.congr (w.only.mat _ (by decide)), ?_,
    by rw [w.only.mat _ (by decide)]; exact h.pR, w.plain h.pP,
    by rw [w.only.mat _ (by decide)]; exact h.pAp⟩
  refine ⟨by rw [w.width, h.vR.width], by rw [w.height, h.vR.height], fun i hi => ?_⟩
  rw [w.ent i 0 (by rw [h.vR.height]; exact hi) (by rw [h.vR.width]; decide), h.vR.ent i hi]

/-- The outcome of `solve`: division by zero (only if the matrix is not positive definite) or a
return, with an accurate solution if it is `true`. -/
theorem Store.cgSolve_spec {st en : Nat} (hst : 0 < st) {s : Store ℝ} {J : SId} {W right r : MId}
    {prev : Option MId} {n : Nat} (h : SleIn st en s J W right n) (hpl : CgPlain s)
    (hW : ¬ IsCg W) (hB : ¬ IsCg right) (hR : ¬ IsCg r) (hWr : r ≠ W)
    (hp : ∀ p, prev = some p → ((s.mat p).height = n → (s.mat p).width = 1) ∧ ¬ IsCg p) (maxIter : Nat) (e1 e2 : ℝ) :
    s.cgSolve st en maxIter e1 e2 J W right prev (some r) = .error .divZero ∨
    ∃ s' c y, s.cgSolve st en maxIter e1 e2 J W right prev (some r) = .ok (s', c) ∧ Ok st en s' ∧
      Frame (fun a => a = r ∨ IsCg a) (fun _ => False) s s' ∧ CgPlain s' ∧
      (s'.mat r).width = 1 ∧ (s'.mat r).height = n ∧
      (c = true → IsVec s' r n y ∧ Small e1 e2 n (fun i => (s.mat right).ent i 0 -
        mulV n (sysMat st en s J W) y i) (fun i => (s.mat right).ent i 0)) := by
  obtain ⟨s0, s1, x0, r0, p0, hd, F, w, hh, hst1, hres, _, heq⟩ :=
    cgSolve_start hst h hpl hW hB hR hWr hp
  have ng : ∀ {b : MId}, IsCg b → r ≠ b := fun hb e => hR (e ▸ hb)
  have hsm := cgSmall_spec hst1.ok hst1.vR (hd.vB.congr (hst1.frame.mat right hB)) e1 e2
  rw [heq, hsm, ok_bind]
  -- what happens once the loop (or the first test) is over
  have fin : ∀ (s2 : Store ℝ) (c : Bool) (x r' p : Nat → ℝ), CgSt st en s0 n s2 x r' p →
      IsRes n (sysMat st en s J W) (fun i => (s.mat right).ent i 0) x r' →
      (c = true → Small e1 e2 n r' (fun i => (s.mat right).ent i 0)) →
      ∃ s' y, (if c then (do
          let s ← s2.setMatFrom r .cgX
          pure (s, true))
        else (pure (s2, false) : Exec (Store ℝ × Bool))) = .ok (s', c) ∧ Ok st en s' ∧
      Frame (fun a => a = r ∨ IsCg a) (fun _ => False) s s' ∧ CgPlain s' ∧
      (s'.mat r).width = 1 ∧ (s'.mat r).height = n ∧
      (c = true → IsVec s' r n y ∧ Small e1 e2 n (fun i => (s.mat right).ent i 0 -
        mulV n (sysMat st en s J W) y i) (fun i => (s.mat right).ent i 0)) := by
    intro s2 c x r' p hc hr hsml
    have F2 : Frame (fun a => a = r ∨ IsCg a) (fun _ => False) s s2 :=
      F.trans (hc.frame.mono (fun _ q => Or.inr q) (fun _ q => q))
    cases c with
    | false =>
      have hr2 : s2.mat r = s0.mat r := hc.frame.mat r hR
      exact ⟨s2, x, rfl, hc.ok, F2, ⟨hc.pR, hc.pP, hc.pAp⟩, by rw [hr2, w], by rw [hr2, hh],
        fun q => (Bool.false_ne_true q).elim⟩
    | true =>
      obtain ⟨s3, e3, w3⟩ := Store.setMatFrom_spec s2 r .cgX (hc.ok.mat _) (hc.ok.mat _)
      refine ⟨s3, x, ?_, hc.ok.only w3.only w3.wf, F2.trans (w3.only.frame (Or.inl rfl)), ?_, ?_, ?_,
        fun _ => ⟨⟨?_, ?_, ?_⟩, ?_⟩⟩
      · rw [if_pos rfl, e3, ok_bind]; rfl
      · exact ⟨by rw [w3.only.mat _ (Ne.symm (ng (by simp [IsCg])))]; exact hc.pR,
          by rw [w3.only.mat _ (Ne.symm (ng (by simp [IsCg])))]; exact hc.pP,
          by rw [w3.only.mat _ (Ne.symm (ng (by simp [IsCg])))]; exact hc.pAp⟩
      · rw [w3.width, hc.vX.width]
      · rw [w3.height, hc.vX.height]
      · rw [w3.width, hc.vX.width]
      · rw [w3.height, hc.vX.height]
      · intro i hi
        rw [w3.ent i 0 (by rw [hc.vX.height]; exact hi) (by rw [hc.vX.width]; decide),
          hc.vX.ent i hi]
      · intro i hi
        simp only
        rw [← hr i hi]
        exact hsml rfl i hi
  by_cases hs : Small e1 e2 n r0 (fun i => (s.mat right).ent i 0)
  · right
    obtain ⟨s', y, q⟩ := fin s1 true x0 r0 p0 hst1 hres (fun _ => hs)
    refine ⟨s', true, y, ?_, q.2⟩
    rw [if_pos (by simpa using hs)]
    exact q.1
  · rw [if_neg (by simpa using hs)]
    obtain ⟨s2, e2', h2⟩ := hst1.restart
    rw [e2', ok_bind]
    rcases cgLoop_spec hst hd hW hB e1 e2 maxIter s2 x0 r0 r0 h2 hres hs with he |
      ⟨s3, c, x', r', p', he, h3, hr3, hc3⟩
    · left; rw [he]; rfl
    · right
      obtain ⟨s', y, q⟩ := fin s3 c x' r' p' h3 hr3 hc3
      refine ⟨s', c, y, ?_, q.2⟩
      rw [he]
      exact q.1

/-- With a positive definite matrix and at least `n` iterations allowed, `solve` succeeds. -/
theorem Store.cgSolve_posDef {st en : Nat} (hst : 0 < st) {s : Store ℝ} {J : SId} {W right r : MId}
    {prev : Option MId} {n : Nat} (h : SleIn st en s J W right n) (hpl : CgPlain s)
    (hW : ¬ IsCg W) (hB : ¬ IsCg right) (hR : ¬ IsCg r) (hWr : r ≠ W)
    (hp : ∀ p, prev = some p → ((s.mat p).height = n → (s.mat p).width = 1) ∧ ¬ IsCg p) {maxIter : Nat} (e1 e2 : ℝ)
    (hM : PosDef n (sysMat st en s J W)) (hmax : n ≤ maxIter) :
    ∃ s', s.cgSolve st en maxIter e1 e2 J W right prev (some r) = .ok (s', true) := by
  obtain ⟨s0, s1, x0, r0, p0, hd, F, w, hh, hst1, hres, _, heq⟩ :=
    cgSolve_start hst h hpl hW hB hR hWr hp
  have hsm := cgSmall_spec hst1.ok hst1.vR (hd.vB.congr (hst1.frame.mat right hB)) e1 e2
  have fin : ∀ s2 x r' p, CgSt st en s0 n s2 x r' p → ∃ s3, s2.setMatFrom r .cgX = .ok s3 := by
    intro s2 x r' p h2
    obtain ⟨s3, e3, _⟩ := Store.setMatFrom_spec s2 r .cgX (h2.ok.mat _) (h2.ok.mat _)
    exact ⟨s3, e3⟩
  rw [heq, hsm, ok_bind]
  by_cases hs : Small e1 e2 n r0 (fun i => (s.mat right).ent i 0)
  · obtain ⟨s3, e3⟩ := fin _ _ _ _ hst1
    refine ⟨s3, ?_⟩
    simp only []
    rw [if_pos (by simpa using hs)]
    show (s1.setMatFrom r .cgX >>= _) = _
    rw [e3]; rfl
  · obtain ⟨s2, e2', h2⟩ := hst1.restart
    obtain ⟨s3, e3⟩ := cgLoop_posDef (x := x0) (r := r0) hst hd hW hB e1 e2 hM maxIter 0 s2 h2
      (by
        intro i hi
        have : i = 0 := by omega
        subst this
        exact hs) (by omega)
    rcases cgLoop_spec hst hd hW hB e1 e2 maxIter s2 x0 r0 r0 h2 hres hs with he |
      ⟨s3', c, x', r', p', he, h3, hr3, hc3⟩
    · rw [he] at e3; cases e3
    · rw [he] at e3
      cases e3
      obtain ⟨s4, e4⟩ := fin _ _ _ _ h3
      refine ⟨s4, ?_⟩
      simp only []
      rw [if_neg (by simpa using hs), e2', ok_bind, he, ok_bind, if_pos rfl, e4]; rfl

end Scs
