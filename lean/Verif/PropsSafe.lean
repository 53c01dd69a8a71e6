import Verif.WorldSync
import Verif.WorldDemo

/-!
C68: `process` never touches memory it must not touch. In a system built by any sequence of API
calls, whose constraints and force generators are attached to bodies of the system, a call of
`process` returns, stops at one of the library's asserts, or divides by zero; it reads and writes
no array out of bounds and dereferences no null or uninitialised pointer. This holds in every
arithmetic in which division has no other failure than a zero divisor, for every solver, every
content of uninitialised storage, every clock, time step and number of sub-steps.

The generic system with an RK4 solver needs more: the copies of the state inside the solver must
not be larger than the state of the system (`C68_generic_rk4_partial`, `C68_rk4_larger`).
-/

namespace Scs

section
variable {α : Type} [Zero α] [Add α] [Mul α] [Sub α] [Neg α] [Fp α]
variable {G : Gen α → Prop} {h : List (Op α)} {w : World α}

/-- Shipped constraints and force generators attached to registered bodies can always be
evaluated. -/
theorem C68_shipped_usable (hd : DivOk α)
    (hk : ∀ c ∈ regCons h, (w.cons c).kind.counts = some ((w.cons c).rows, (w.cons c).bodyCount))
    (hb : ∀ c ∈ regCons h, ∀ k, k < (w.cons c).bodyCount →
      ∃ b ∈ regBodies h, (w.cons c).bodies k = .obj b)
    (hg : ∀ g ∈ regGens h, (w.gens g).Within (· ∈ regBodies h)) : w.Usable h where
  rows := fun c hc => by have := counts_le (hk c hc); omega
  two := fun c hc => (counts_le (hk c hc)).2.2.2
  bodies := hb
  kind := fun c hc => CKind.careful (hk c hc)
  gens := fun g hg' => (hg g hg').careful hd

/-- C68 for the optimized system: `process` stops only at an assert or a zero divisor. -/
theorem C68_optimized (hd : DivOk α) (hG : ∀ g, G g → g.OnlyForces)
    (hw : World.Hist G .opt h w) (hu : w.Usable h) (hsv : w.sle ≠ none) (env : Env α) (dt : α)
    (steps : Int) (e : Err) (he : w.process .opt env dt steps = .error e) :
    e.IsAssert ∨ e = .divZero := by
  have hs := hw.sound hd hG
  have := safe_optProcess hd (hw.guarded hd hG hu) hs.mem hs.st.wf hw.regs.nsv hsv env dt steps
  have he : w.optProcess env dt steps = .error e := he
  rw [he] at this
  exact this

/-- C68 for the generic system with the Euler solver, the NSV solver or the do-nothing base class:
`process` stops only at an assert or a zero divisor. -/
theorem C68_generic (hd : DivOk α) (hG : ∀ g, G g → g.OnlyForces)
    (hw : World.Hist G .gen h w) (hu : w.Usable h) (hsv : w.sle ≠ none) {o : Ode α}
    (ho : w.ode = some o) (hrk : ∀ r, o ≠ .rk4 r) (env : Env α) (dt : α)
    (steps : Int) (e : Err) (he : w.process .gen env dt steps = .error e) :
    e.IsAssert ∨ e = .divZero := by
  have hs := hw.sound hd hG
  have := safe_genProcess hd (hw.guarded hd hG hu) hs.mem hs.st.wf hsv ho (fun s _ _ => by
    cases o with
    | rk4 r => exact absurd rfl (hrk r)
    | _ => trivial) env dt steps
  have he : w.genProcess env dt steps = .error e := he
  rw [he] at this
  exact this

/-- C68 for the generic system with any solver, in particular RK4, provided that the last
`initialize` supplied a new solver and every call of `process` since then had at least one
sub-step. -/
theorem C68_generic_rk4_partial (hd : DivOk α) (hG : ∀ g, G g → g.OnlyForces)
    (hw : World.Hist G .gen h w) (hu : w.Usable h) (hsv : w.sle ≠ none) (hode : w.ode ≠ none)
    (hsync : InSync h) (env : Env α) (dt : α)
    (steps : Int) (e : Err) (he : w.process .gen env dt steps = .error e) :
    e.IsAssert ∨ e = .divZero := by
  have hs := hw.sound hd hG
  obtain ⟨o, ho⟩ : ∃ o, w.ode = some o := by
    cases ho : w.ode with
    | none => exact absurd ho hode
    | some o => exact ⟨o, rfl⟩
  have := safe_genProcess hd (hw.guarded hd hG hu) hs.mem hs.st.wf hsv ho
    (fun s h1 h2 => (hw.matched hd hG hsync).takes ho (hs.ode o ho) ⟨h1, h2⟩) env dt steps
  have he : w.genProcess env dt steps = .error e := he
  rw [he] at this
  exact this

end

section
variable {G : Gen ℝ → Prop} {h : List (Op ℝ)} {w : World ℝ}

/-- Without that condition the property fails: when the solver keeps a copy of a state that is
larger than the state of the system, `process` reads beyond the end of the arrays of `m_state`.
This is so in every system with at least one body, bodies of nonzero mass, and any number of
sub-steps. -/
theorem C68_rk4_larger (hG : ∀ g, G g → g.OnlyForces) (hw : World.Hist G .gen h w)
    (hu : w.Usable h) (hb : (regBodies h).Nonempty)
    (hm : ∀ b ∈ regBodies h, (w.bodies b).m ≠ 0 ∧ (w.bodies b).I ≠ 0) {r : Rk4 ℝ}
    (ho : w.ode = some (.rk4 r))
    (hl : (w.st.resize w.bodyCount w.fullCount).n ≤ r.init.n ∧
      (w.st.resize w.bodyCount w.fullCount).nc ≤ r.init.nc ∧
      ((w.st.resize w.bodyCount w.fullCount).n < r.init.n ∨
        (w.st.resize w.bodyCount w.fullCount).nc < r.init.nc))
    (env : Env ℝ) (dt : ℝ) {steps : Int} (hs : 1 ≤ steps) :
    w.process .gen env dt steps = .error .oob := by
  have hsd := hw.sound divOk_real hG
  have hgd := hw.guarded divOk_real hG hu
  obtain ⟨s, e, hsh, hf⟩ := safe_populateState hgd hsd.st.wf
  show w.genProcess env dt steps = _
  rw [World.genProcess, e, ok_bind]
  have hmass := populateMass_wp (w := w) hsd.mem (E := fun _ => False) (by
    rintro ⟨i, hi, c, h0⟩
    have hmem : w.rbAt i ∈ regBodies h := by
      rw [← hw.regs.bodies.mem, World.rbAt, List.getD_eq_getElem _ _ hi]
      exact List.getElem_mem _
    have := hm _ hmem
    cases c
    · exact this.1 h0
    · exact this.1 h0
    · exact this.2 h0)
  cases em : w.populateMass w.mem with
  | error x => rw [em] at hmass; exact hmass.elim
  | ok mem =>
    rw [ok_bind, World.genLoop]
    obtain ⟨k, hk⟩ : ∃ k, steps.toNat = k + 1 := ⟨steps.toNat - 1, by omega⟩
    rw [hk, forN_first_error (e := .oob)]
    · rfl
    · have hst : (Fp.lit steps : ℝ) ≠ 0 := by
        rw [fp_lit]
        have : (steps : ℝ) ≠ 0 := by exact_mod_cast (by omega : steps ≠ 0)
        simpa using this
      obtain ⟨_, _, hi, _⟩ : Ode.Idle (.rk4 r) := hsd.ode _ ho
      have hn : 0 < s.n := by
        have h1 := hf.n
        have h2 : 0 < w.bodyCount := by
          rw [World.bodyCount, hw.regs.bodies.length]
          exact hb.card_pos
        omega
      have hc : r.init.copy s = .error .oob := copy_larger hi.wf hsh.wf hn (by
        rw [← hsh.n, ← hsh.nc] at hl
        rintro (h | h) <;> omega)
      simp only [ho, deref, ok_bind, fp_div hst, odeRun, Ode.start, Rk4.start, hc]
      rfl

/-! ### The hypotheses can be met -/

theorem Standard.usable (hst : w.Standard h) : w.Usable h :=
  C68_shipped_usable divOk_real hst.kind hst.bodies hst.gens

/-- Two bodies, a link and a spring between them, Gauss-Seidel: C68 applies to `process` with any
time step, zero included. -/
example : ∃ (h : List (Op ℝ)) (w : World ℝ), World.Hist Gen.Shipped .opt h w ∧ w.Usable h ∧
    w.sle ≠ none ∧ regCons h = {0} ∧ regGens h = {0} ∧ regBodies h = {0, 1} ∧
    (w.cons 0).kind = .link ⟨1, 2, 3, 4, 5, 6, 7⟩ := by
  obtain ⟨h, w, d⟩ := demo (.link ⟨1, 2, 3, 4, 5, 6, 7⟩)
    (g := .spring ⟨1, 2, 3, 4, 5, 6, 7, .obj 0, .obj 1⟩) trivial (cs := [0]) (fg := [0])
    (by simp) (by simp) (.gs 10 1)
  refine ⟨h, w, d.hist, Standard.usable (d.standard (.inl (by simp [CKind.counts])) ?_), ?_,
    by rw [d.regC]; rfl, by rw [d.regG]; rfl, d.regB, d.kind 0⟩
  · exact .inr ⟨⟨0, by simp, rfl⟩, .inr ⟨1, by simp, rfl⟩⟩
  · rw [d.sle]; simp

/-- The generic system with an Euler solver. -/
example : ∃ (h : List (Op ℝ)) (w : World ℝ) (o : Ode ℝ), World.Hist Gen.Shipped .gen h w ∧
    w.Usable h ∧ w.sle ≠ none ∧ w.ode = some o ∧ (∀ r, o ≠ .rk4 r) ∧ regCons h = {0} ∧
    regGens h = {0} := by
  obtain ⟨h, w, d, _⟩ := demoG (.link ⟨1, 2, 3, 4, 5, 6, 7⟩) (g := .gravity 9) trivial (cs := [0])
    (fg := [0]) (by simp) (by simp) .ge (o := .newEuler) trivial
  refine ⟨h, w, _, d.hist, Standard.usable (d.standard (.inl (by simp [CKind.counts])) trivial), ?_,
    d.ode, fun r e => (by cases e), by rw [d.regC]; rfl, by rw [d.regG]; rfl⟩
  rw [d.sle]; simp

/-- A generic system is given a new RK4 solver; then C68 holds for the first call of `process`. If
instead the solver has served a larger system, the first call reads out of bounds. -/
theorem rk4_demo {r : World ℝ → Rk4 ℝ} (hr : ∀ w, Ode.Idle (.rk4 (r w))) :
    ∃ (h : List (Op ℝ)) (w0 w : World ℝ), World.Hist Gen.Shipped .gen h w ∧ w.Usable h ∧
    w.sle ≠ none ∧ w.ode = some (.rk4 (r w0)) ∧ ((Ode.rk4 (r w0)).New → InSync h) ∧
    regCons h = {0} ∧ regBodies h = {0, 1} ∧ w.st = w0.st ∧ w.bodyCount = w0.bodyCount ∧
    w.fullCount = w0.fullCount ∧ ∀ b ∈ regBodies h, (w.bodies b).m ≠ 0 ∧ (w.bodies b).I ≠ 0 := by
  obtain ⟨h, w, d, _⟩ := demoG (.link ⟨1, 2, 3, 4, 5, 6, 7⟩) (g := .gravity 9) trivial (cs := [0])
    (fg := [0]) (by simp) (by simp) .ge (o := .newEuler) trivial
  obtain ⟨m, e, _⟩ := Store.init0_spec w.mem .ivLambda 0 0
    ((d.hist.sound divOk_real (fun g => Gen.tame)).mem.mat _)
  have hst := d.standard (.inl (by simp [CKind.counts])) trivial
  refine ⟨.init (some .ge) (some (.rk4 (r w))) :: h, w,
    { w with sle := some .ge, ode := some (.rk4 (r w)), mem := m },
    .step _ d.hist (by intro o e; cases e; exact hr w) ?_,
    Standard.usable ⟨hst.kind, hst.bodies, hst.gens, hst.near⟩, by simp, rfl, ?_,
    (show regCons h = _ by rw [d.regC]; rfl), (show regBodies h = _ from d.regB), rfl, rfl, rfl,
    d.masses⟩
  · show w.genInit _ _ = _
    rw [World.genInit, e, ok_bind]
    rfl
  · intro hn o e
    cases e
    exact hn

example : ∃ (h : List (Op ℝ)) (w : World ℝ) (r : Rk4 ℝ), World.Hist Gen.Shipped .gen h w ∧
    w.Usable h ∧ w.sle ≠ none ∧ w.ode = some (.rk4 r) ∧ InSync h ∧ regCons h = {0} ∧
    regBodies h = {0, 1} := by
  have hf : (SysState.mk0 (fun _ _ => (0 : ℝ)) fun _ _ => 0).Reach := .fresh _ _
  obtain ⟨h, w0, w, h1, h2, h3, h4, h5, h6, h7, _⟩ := rk4_demo (r := fun _ =>
    ⟨0, .undefined, .undefined, SysState.mk0 (fun _ _ => 0) fun _ _ => 0,
      SysState.mk0 (fun _ _ => 0) fun _ _ => 0⟩) (fun w => ⟨rfl, rfl, hf, hf⟩)
  exact ⟨h, w, _, h1, h2, h3, h4, h5 ⟨⟨rfl, rfl⟩, rfl, rfl⟩, h6, h7⟩

/-- C68 fails for a reachable generic system of shipped parts whose RK4 solver has served a system
with one more body. -/
theorem C68_rk4_violates (env : Env ℝ) (dt : ℝ) : ∃ (h : List (Op ℝ)) (w : World ℝ) (r : Rk4 ℝ),
    World.Hist Gen.Shipped .gen h w ∧ w.Usable h ∧ w.sle ≠ none ∧ w.ode = some (.rk4 r) ∧
    r.init.n = (w.st.resize w.bodyCount w.fullCount).n + 1 ∧
    w.process .gen env dt 1 = .error .oob := by
  let big : World ℝ → SysState ℝ := fun w => ((SysState.mk0 (fun _ _ => (0 : ℝ))
    fun _ _ => 0).resize ((w.st.resize w.bodyCount w.fullCount).n + 1)
      (w.st.resize w.bodyCount w.fullCount).nc)
  have hsz : ∀ w, (big w).n = (w.st.resize w.bodyCount w.fullCount).n + 1 ∧
      (big w).nc = (w.st.resize w.bodyCount w.fullCount).nc := by
    intro w
    have : ¬ ((w.st.resize w.bodyCount w.fullCount).n + 1 ≤ 0 ∧
      (w.st.resize w.bodyCount w.fullCount).nc ≤ 0) := by omega
    have e := SysState.resize_of_not (SysState.mk0 (fun _ _ => (0 : ℝ)) fun _ _ => 0) this
    simp only [big]
    rw [e]
    exact ⟨rfl, rfl⟩
  have hR : ∀ w, (big w).Reach := fun w =>
    (SysState.Reach.fresh (fun _ _ => (0 : ℝ)) fun _ _ => 0).resize _ _
  obtain ⟨h, w0, w, h1, h2, h3, h4, _, h6, h7, h8, h9, h10, h11⟩ := rk4_demo (r := fun w =>
    ⟨0, .undefined, .undefined, big w, big w⟩) (fun w => ⟨rfl, rfl, hR w, hR w⟩)
  have hs := hsz w0
  refine ⟨h, w, _, h1, h2, h3, h4, ?_, ?_⟩
  · rw [h8, h9, h10]; exact hs.1
  · refine C68_rk4_larger (fun g => Gen.tame) h1 h2 ⟨0, by rw [h7]; simp⟩ h11 h4 ?_ env dt le_rfl
    rw [h8, h9, h10]
    simp only []
    omega

end

end Scs
