import Verif.PropsGs

/-!
# C19 and C20 for all solvers: who claims to have respected the limits

See `PropsSle.lean` for the notions used.
-/

namespace Scs

section
variable {st en : Nat} {s s' : Store ℝ} {J : SId} {W right r limits : MId} {prev : Option MId} {w n : Nat}
  {A : Nat → Nat → ℝ} {D b lo hi : Nat → ℝ}

/-- **C19** for every shipped solver: if `solveWithLimits` returns `true`, every component of the result is
within its limits. -/
theorem C19_true_within_limits (sv : Solver ℝ) (hst : 0 < st) (hs : SReach st en solverRestr s)
    (h : Sys st en s J W right w n A D b)
    (hl : s.Shows limits 2 n (limGrid lo hi)) (pl : limits.Pub) (pr : r.Pub) (h2 : r ≠ right)
    (h3 : r ≠ limits) (h4 : r ≠ W)
    (hp : ∀ p, prev = some p → (s.mat p).height = n → (s.mat p).width = 1)
    (hr : (s.mat r).height = n → (s.mat r).width = 1)
    (hM : ∀ i, i < n → gram w A D i i ≠ 0) (hlim : ∀ i, i < n → lo i ≤ hi i)
    (hsv : ∀ m e, sv = .gs m e → 0 < m ∧ 0 < e)
    (hrun : sv.solveL st en s J W right limits (some r) prev = .ok (s', true)) :
    sv.supportsLimits = true ∧ ∃ y : Nat → ℝ, s'.Shows r 1 n (fun i _ => y i) ∧
      ∀ i, i < n → lo i ≤ y i ∧ y i ≤ hi i := by
  cases sv with
  | gs m e =>
    obtain ⟨hm, he⟩ := hsv m e rfl
    obtain ⟨s'', c, y, e1, g, hy⟩ := C19_within_limits hst hs h hl pl pr h2 h3 h4 hp hr hM hlim hm he
    cases hrun.symm.trans e1
    exact ⟨rfl, y, g, hy⟩
  | ge => cases hrun
  | cg m e1 e2 => cases hrun

/-- The claim applied to two coupled rows whose exact solution is outside the limits. -/
example : ∃ (N : Nat) (s s' : Store ℝ) (y : Nat → ℝ),
    (Solver.gs N (1 / 10)).solveL 3 2 s (.user 0) (.user 0) (.user 1) (.user 2) (some (.user 4))
      (some (.user 3)) = .ok (s', true) ∧
    s'.Shows (.user 4) 1 2 (fun i _ => y i) ∧ ∀ i, i < 2 → -1 ≤ y i ∧ y i ≤ 1 / 2 := by
  obtain ⟨s, hs, h, hl, h3, h4⟩ := demo_sys 2 demoA (fun _ => 1) (fun _ => 3) (fun _ => -1)
    (fun _ => 1 / 2) (fun _ => 7)
  obtain ⟨N, hN⟩ := C82_succeeds (b := fun _ => 3) demo_diag (lo := fun _ => -1) (hi := fun _ => 1 / 2)
    (fun i _ => by norm_num) (e := 1 / 10) (by norm_num)
  obtain ⟨s', y, e, g⟩ := hN (st := 3) (en := 2) (r := .user 4) (prev := some (.user 3)) (by decide) hs h
    hl trivial trivial (by decide) (by decide) (by decide) (fun p hp _ => by cases hp; exact h3.width)
    (fun q => by omega) (N + 1) (Nat.le_succ N)
  obtain ⟨_, z, hz, hin⟩ := C19_true_within_limits (r := .user 4) _ (by decide) hs h hl trivial trivial (by decide)
    (by decide) (by decide) (fun p hp _ => by cases hp; exact h3.width) (fun q => by omega)
    (fun i hi => (demo_diag i hi).ne') (fun i _ => by norm_num)
    (fun m e' hme => by cases hme; exact ⟨Nat.succ_pos N, by norm_num⟩) e
  exact ⟨N + 1, s, s', z, e, hz, hin⟩

end

section
variable {α : Type} [Zero α] [Add α] [Mul α] [Sub α] [Neg α] [Fp α]

/-- **C20** for every shipped solver, any arithmetic and any memory: a solver that does not support limits
refuses, and changes nothing. -/
theorem C20_others_refuse (sv : Solver α) (hsv : ∀ m e, sv ≠ .gs m e) (st en : Nat) (s : Store α) (J : SId)
    (W right limits : MId) (result previous : Option MId) :
    sv.supportsLimits = false ∧
      sv.solveL st en s J W right limits result previous = .ok (s, false) := by
  cases sv with
  | gs m e => exact absurd rfl (hsv m e)
  | ge => exact ⟨rfl, rfl⟩
  | cg m e1 e2 => exact ⟨rfl, rfl⟩

/-- The claim applied to the conjugate gradient solver with its default values. -/
example (s : Store α) : (Solver.cgDefault : Solver α).solveL 3 2 s (.user 0) (.user 0) (.user 1) (.user 2)
    (some (.user 4)) none = .ok (s, false) :=
  (C20_others_refuse _ nofun 3 2 s _ _ _ _ _ _).2

end

end Scs
