import Verif.PropsRepeat

/-!
# A call of `process` with Gaussian elimination follows every solution of the equations of motion
-/

namespace Scs

open Finset

section
variable {G : Gen ℝ → Prop} {h : List (Op ℝ)} {w w' : World ℝ} {env : Env ℝ} {dt : ℝ}
  {steps : Int} {Z : Nat → Motion} {ζ : Nat → Nat → Nat → ℝ}

theorem World.SameAs.refl (x : Motion) : w.SameAs x x :=
  ⟨fun _ _ _ => rfl, fun _ _ _ => rfl, fun _ _ _ => rfl⟩

/-- A sequence `Z` of motions that starts with what the bodies show and of which each results from the
one before by a sub-step. -/
structure World.Path (w : World ℝ) (dt : ℝ) (steps : Int) (Z : Nat → Motion)
    (ζ : Nat → Nat → Nat → ℝ) : Prop where
  first : w.SameAs w.now (Z 0)
  step : ∀ n, n < steps.toNat → w.Move (dt / steps) (Z n) (Z (n + 1)) (ζ n)

theorem World.Path.unique (p : w.Placed) (hg : w.Driven) (hs : w.sle = some .ge)
    (hZ : w.Path dt steps Z ζ) {X : Nat → Motion} {μ : Nat → Nat → Nat → ℝ}
    (hX : w.Path dt steps X μ) : ∀ n, n ≤ steps.toNat → w.SameAs (X n) (Z n) ∧
      ∀ i, i < n → ∀ c ∈ w.cs, ∀ j, j < (w.cons c).rows → μ i c j = ζ i c j := by
  intro n
  induction n with
  | zero => exact fun _ => ⟨hX.first.symm.trans hZ.first, fun i hi => by omega⟩
  | succ n ih =>
    intro hn
    obtain ⟨i1, i2⟩ := ih (by omega)
    have s3 := (hZ.step n (by omega)).congr p hg i1.symm (.refl (Z (n + 1)))
    obtain ⟨u1, u2⟩ := (hX.step n (by omega)).unique p hs s3
    refine ⟨u2, fun i hi c hc j hj => ?_⟩
    by_cases h : i = n
    · subst h; exact u1 c hc j hj
    · exact i2 i (by omega) c hc j hj

/-- A successful call of `process` ends where the path ends, and the constraints report the forces of
its last sub-step. -/
theorem World.Hist.follows (hG : ∀ g, G g → g.OnlyForces) (hw : World.Hist G .opt h w)
    (hst : w.Standard h) (hs : w.sle = some .ge) (hZ : w.Path dt steps Z ζ)
    (e : w.process .opt env dt steps = .ok w') :
    (∀ b ∈ w.rb, ∀ q : Coord, (w'.bodies b).pos q = (Z steps.toNat).pos b q ∧
      (w'.bodies b).vel q = (Z steps.toNat).vel b q) ∧
    ∀ n, steps.toNat = n + 1 → ∀ c ∈ w.cs, ∀ (q : Coord) j k, j < (w.cons c).rows →
      k < (w.cons c).bodyCount → (w'.cons c).F q j k = w.reaction (Z n) (ζ n) c q j k := by
  obtain ⟨hr, p⟩ := hw.ready hG hst.wired
  obtain ⟨X, μ, h0, hX⟩ := hw.moved hG hst e
  have key := hZ.unique p (hst.driven hw.regs) hs ⟨by rw [h0]; exact .refl _, hX.step⟩
  refine ⟨fun b hb q => ?_, fun n hn c hc q j k hj hk => ?_⟩
  · obtain ⟨k1, -⟩ := key _ (Nat.le_refl _)
    rw [← (hX.last b hb q).1, ← (hX.last b hb q).2]
    exact ⟨k1.pos b hb q, k1.vel b hb q⟩
  · obtain ⟨k1, -⟩ := key n (by omega)
    obtain ⟨-, k2⟩ := key (n + 1) (by omega)
    rw [hX.forces n hn c hc q j k hj hk, reaction_congr p k1 _ hc, World.reaction, World.reaction,
      k2 n (by omega) c hc j hj]

/-- If the equations of motion have a solution and there is a constraint, `process` succeeds. -/
theorem World.Hist.follows_ok (hG : ∀ g, G g → g.OnlyForces) (hw : World.Hist G .opt h w)
    (hst : w.Standard h) (hs : w.sle = some .ge) (hZ : w.Path dt steps Z ζ)
    (hm : ∀ b ∈ w.rb, ∀ q : Coord, (w.bodies b).mass q ≠ 0) (hdt : dt ≠ 0)
    (hz : w.cs = [] → Solver.ge.Easy0 (w.mem.mat .ivLambda)) (env : Env ℝ) :
    ∃ w', w.process .opt env dt steps = .ok w' := by
  obtain ⟨hr, p⟩ := hw.ready hG hst.wired
  refine hw.goes hG hst hm hdt (by rw [hs]; simp) (fun j y => w.SameAs (Z j) y)
    (fun y hy ha => ?_) (fun j hj y y' ν hy st => ?_) (fun j hj y hy _ => ?_)
    (fun h0 sv hsv => ?_) env
  · exact hZ.first.symm.trans (World.Shows.now hy ha)
  · have s3 := st.congr p (hst.driven hw.regs) hy.symm (.refl y')
    exact ((hZ.step j hj).unique p hs s3).2
  · simp only [World.Solvable, hs]
    exact (sameRows_congr p hy).indep ((hZ.step j hj).indep hs)
  · rw [hs] at hsv
    cases hsv
    exact hz h0

end

end Scs
