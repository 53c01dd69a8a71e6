import Verif.WorldDtor
import Verif.PropsGeneric

/-!
# Destruction of the systems and solvers (C58, C65)
-/

namespace Scs

section
variable {α : Type} [Zero α] [Add α] [Mul α] [Sub α] [Neg α] [Fp α]

/-! ### Destructors of several objects -/

theorem dtorAll_ok {mem : Store α} : ∀ {l : List MId}, (∀ t ∈ l, (mem.mat t).rows = none) →
    dtorAll l mem = .ok ()
  | [], _ => rfl
  | t :: l, h => by
    rw [dtorAll, Store.dtor, h t (List.mem_cons_self ..)]
    exact dtorAll_ok fun x hx => h x (List.mem_cons_of_mem _ hx)

theorem dtorAll_fails {mem : Store α} : ∀ {l : List MId} {t : MId}, t ∈ l →
    (mem.mat t).rows ≠ none → dtorAll l mem = .error (.assert "matrix.cpp:23")
  | a :: l, t, ht, h => by
    rw [dtorAll, Store.dtor]
    cases hr : (mem.mat a).rows with
    | some rb => rfl
    | none =>
      have ha : t ≠ a := by rintro rfl; exact h hr
      have := dtorAll_fails ((List.mem_cons.mp ht).resolve_left ha) h
      exact this

theorem sdtorAll_ok {mem : Store α} : ∀ {l : List SId}, (∀ t ∈ l, (mem.smat t).rows = none ∧
    (mem.smat t).data = none ∧ (mem.smat t).blocks = none) → sdtorAll l mem = .ok ()
  | [], _ => rfl
  | t :: l, h => by
    obtain ⟨h1, h2, h3⟩ := h t (List.mem_cons_self ..)
    rw [sdtorAll, Store.sdtor, h1, h2, h3]
    exact sdtorAll_ok fun x hx => h x (List.mem_cons_of_mem _ hx)

theorem destroyAll_ok : ∀ (l : List MId) (mem : Store α), ∃ mem', destroyAll l mem = .ok mem' ∧
    mem'.smat = mem.smat ∧ ∀ t, t ∈ l ∨ (mem.mat t).rows = none → (mem'.mat t).rows = none
  | [], mem => ⟨mem, rfl, rfl, fun t h => h.resolve_left (by simp)⟩
  | a :: l, mem => by
    obtain ⟨m, e, h1, h2⟩ := destroyAll_ok l (mem.setMat a (mem.mat a).destroy)
    refine ⟨m, e, h1, fun t ht => h2 t ?_⟩
    by_cases ha : t = a
    · subst ha
      right
      rw [Store.setMat_same, Mat.destroy]
      split <;> first | assumption | rfl
    · rw [(Only.setMat a mem _).mat _ ha]
      rcases ht with ht | ht
      · exact Or.inl ((List.mem_cons.mp ht).resolve_left ha)
      · exact Or.inr ht

theorem base_dtor (w : World α) : w.baseDtor = .ok () := by
  rw [World.baseDtor, SysState.destroy]
  rfl

theorem sdestroyed {st en : Nat} {m : SMat α} (h : m.WF st en) :
    m.destroy.rows = none ∧ m.destroy.data = none ∧ m.destroy.blocks = none := by
  rcases h with ⟨h1, h2, h3, _⟩ | ⟨rb, db, bb, h1, _⟩ <;> rw [SMat.destroy, h1]
  · exact ⟨h1, h2, h3⟩
  · exact ⟨rfl, rfl, rfl⟩

variable {G : Gen α → Prop} {h : List (Op α)} {w : World α}

/-! ## C58 -/

/-- **C58** for the optimized system: after every history its destructor and the destructors of its
members pass all their assertions. -/
theorem C58_optimized_partial (hd : DivOk α) (hG : ∀ g, G g → g.OnlyForces)
    (hw : World.Hist G .opt h w) : w.optDtor = .ok () := by
  have ok := (hw.sound hd hG).mem
  rw [World.optDtor, Store.sdestroy, ok_bind, Store.sdestroy, ok_bind]
  obtain ⟨m, e, h1, h2⟩ := destroyAll_ok [.ivC, .ivM, .ivMinv, .ivBErr, .ivVBias, .ivLimits, .ivQdot,
    .ivQdotPrime, .ivReg0, .ivReg1, .ivReg2, .ivRight, .ivFExt, .ivFC, .ivR, .ivLambda]
    ((w.mem.setSMat .ivJ (w.mem.smat .ivJ).destroy).setSMat .ivSreg0
      ((w.mem.setSMat .ivJ (w.mem.smat .ivJ).destroy).smat .ivSreg0).destroy)
  rw [e, ok_bind, dtorAll_ok, ok_bind, sdtorAll_ok, ok_bind, base_dtor]
  · intro t ht
    rw [h1]
    have := sdestroyed (ok.smat .ivJ)
    have := sdestroyed (ok.smat .ivSreg0)
    rcases List.mem_cons.mp ht with rfl | ht
    · simpa [Store.setSMat, upd]
    · rw [List.mem_singleton] at ht
      subst ht
      simpa [Store.setSMat, upd]
  · intro t ht
    refine h2 t (Or.inl ?_)
    revert t
    decide

/-- **C58 is violated** by the generic system: it can be destroyed exactly as long as `process` has not
been called. -/
theorem C58_generic (hd : DivOk α) (hG : ∀ g, G g → g.OnlyForces) (hw : World.Hist G .gen h w) :
    w.genDtor = if processedDts h = [] then .ok () else .error (.assert "matrix.cpp:23") := by
  rcases hw.massG hd hG with ⟨hp, hm⟩ | ⟨hp, h1, h2⟩
  · rw [if_neg hp, World.genDtor, dtorAll_fails (t := .ivM) (by decide)]
    · rfl
    · rcases (hw.sound hd hG).mem.mat .ivM with ⟨_, _, h0, _⟩ | ⟨rb, db, hr, _⟩
      · rw [WideM, h0] at hm
        cases hm
      · rw [hr]
        simp
  · rw [if_pos hp, World.genDtor, dtorAll_ok, ok_bind, sdtorAll_ok, ok_bind, base_dtor]
    · intro t _
      rw [h2]
      exact ⟨rfl, rfl, rfl⟩
    · intro t _
      rw [h1]
      rfl

/-! ## C65 -/

theorem solver_dtor {st en : Nat} {P : Restr} {mem : Store α} (hi : Inv st en P mem)
    (sv : Solver α) (hA : (mem.mat .cgA).rows = none) : ∃ mem', sv.dtor mem = .ok mem' := by
  have dn : ∀ m : Mat α, m.destroy.rows = none := by
    intro m
    rw [Mat.destroy]
    split <;> first | assumption | rfl
  cases sv with
  | gs n d =>
    obtain ⟨h1, h2, h3⟩ := sdestroyed (hi.smat .gsReg)
    simp [Solver.dtor, Store.destroy, ok_bind, Store.sdestroy, Store.sdtor, Store.dtor, Store.setMat,
      Store.setSMat, upd, chk, dn, h1, h2, h3, pure, Except.pure]
  | ge =>
    obtain ⟨h1, h2, h3⟩ := sdestroyed (hi.smat .geReg)
    simp [Solver.dtor, Store.destroy, ok_bind, Store.sdestroy, Store.sdtor, Store.dtor, Store.setMat,
      Store.setSMat, upd, chk, dn, h1, h2, h3, pure, Except.pure]
  | cg n a b =>
    simp [Solver.dtor, Store.destroy, ok_bind, Store.dtor, Store.setMat, upd, chk, dn, hA, pure,
      Except.pure]

/-- **C65**: in every state that matrix calls, constructions of solvers and solver calls lead to, the
destructors of the three solvers of linear equations pass all assertions of their members. (Matrix
calls of the model may name any matrix; no function of the code names the protected member `m_A` of
the conjugate gradient solver.) -/
theorem C65_sle_solvers (hd : DivOk α) {st en : Nat} {mem : Store α}
    (hs : SReach st en solverRestr mem) (hA : (mem.mat .cgA).rows = none) (sv : Solver α) :
    ∃ mem', sv.dtor mem = .ok mem' :=
  solver_dtor (hs.inv hd solverRestr_ok) sv hA

/-- **C65** for the solvers handed to a rigid body system of either class, after any history. -/
theorem C65_after_process {cls : Cls} (hd : DivOk α) (hG : ∀ g, G g → g.OnlyForces)
    (hw : World.Hist G cls h w) (sv : Solver α) : ∃ mem', sv.dtor w.mem = .ok mem' :=
  solver_dtor (hw.sound hd hG).mem sv (by rw [hw.cgA]; rfl)

/-- **C65** for the Runge-Kutta solver: its destructor passes the assertions of its two states. -/
theorem C65_rk4 (r : Rk4 α) : r.dtor = .ok () := rfl

end

/-- A used optimized system is destroyed. -/
example (env : Env ℝ) : ∃ (h : List (Op ℝ)) (w : World ℝ),
    World.Hist Gen.Shipped .opt (.process env 2 3 :: h) w ∧ regBodies h = {0, 1} ∧ regCons h = {0} ∧
    w.optDtor = .ok () := by
  obtain ⟨h, w, w', d, hst, e⟩ := demo_turns (turns_gear ⟨3, false, 0, 1⟩) (g := .gravity 9)
    trivial trivial (sv := .ge) trivial (dt := 2) two_ne_zero 3 env
  have hw := d.hist.step (.process env 2 3) trivial e
  exact ⟨h, w', hw, d.regB, by rw [d.regC]; rfl, C58_optimized_partial divOk_real (fun g => shipped_only) hw⟩

/-- A used generic system cannot be destroyed. -/
example (env : Env ℝ) : ∃ (h : List (Op ℝ)) (w : World ℝ),
    World.Hist Gen.Shipped .gen (.process env 2 3 :: h) w ∧ regBodies h = {0, 1} ∧ regCons h = {0} ∧
    w.genDtor = .error (.assert "matrix.cpp:23") := by
  obtain ⟨h, w, w', d, hst, e⟩ := demo_gen (.inl (turns_gear ⟨3, false, 0, 1⟩)) (g := .gravity 9)
    trivial trivial (sv := .ge) trivial (by intro m e h; cases h) (o := .newEuler) (sym := false) rfl
    2 3 env
  have hw := d.hist.step (.process env 2 3) trivial e
  exact ⟨h, w', hw, d.regB, by rw [d.regC]; rfl, C58_generic divOk_real (fun g => shipped_only) hw⟩

/-- A conjugate gradient solver is destroyed after a call of `process` in which it was used. -/
example (env : Env ℝ) : ∃ (h : List (Op ℝ)) (w w' : World ℝ),
    World.Hist Gen.Shipped .opt h w ∧ regCons h = {0} ∧ w.sle = some .cgDefault ∧
    w.process .opt env 2 3 = .ok w' ∧ ∃ mem', Solver.cgDefault.dtor w'.mem = .ok mem' := by
  obtain ⟨h, w, w', d, hst, e⟩ := demo_turns (turns_gear ⟨3, false, 0, 1⟩) (g := .gravity 9)
    trivial trivial (sv := .cgDefault) (by simp [Solver.cgDefault, Solver.Fine, Fp.lit]) (dt := 2)
    two_ne_zero 3 env
  have hw := d.hist.step (.process env 2 3) trivial e
  exact ⟨h, w, w', d.hist, by rw [d.regC]; rfl, d.sle, e,
    C65_after_process divOk_real (fun g => shipped_only) hw _⟩

end Scs
