import Verif.ReleaseRun
import Verif.PropsGsWorld
import Verif.PropsSle

/-!
# C110: release builds

With `NDEBUG` the assert about the success of the solver of linear systems is not there, and the
multipliers are used whether or not the solver reached its tolerance. C110: a release build does what
a debug build does unless that stops; with Gauss-Seidel it never stops, and what it does is motion under
the external forces and reactions within their limits.
-/

namespace Scs

open Finset

section
variable {α : Type} [Zero α] [Add α] [Mul α] [Sub α] [Neg α] [Fp α]

/-- **C110**: whenever `process` returns in a debug build, it returns in a release build, in the same
state; for both systems, every solver and every state. -/
theorem C110_agrees {w w' : World α} {cls : Cls} {env : Env α} {dt : α} {steps : Int}
    (e : w.process cls env dt steps = .ok w') : w.processR cls env dt steps = .ok w' := by
  rcases World.process_upto (P := fun _ => True) (w := w) (fun _ => trivial) (fun _ _ => trivial) cls
    env dt steps with h | ⟨er, h, _⟩
  · rw [← h, e]
  · rw [e] at h; cases h

/-- **C110**: unless the solver is Gaussian elimination, the two builds have the same outcome, an error
included, except when the debug build stops in an assert. -/
theorem C110_same_outcome {w : World α} (hge : w.sle ≠ some .ge) (cls : Cls) (env : Env α) (dt : α)
    (steps : Int) : w.process cls env dt steps = w.processR cls env dt steps ∨
      ∃ l, w.process cls env dt steps = .error (.assert l) := by
  rcases World.process_upto (P := fun e => ∃ l, e = .assert l) (w := w) (fun l => ⟨l, rfl⟩)
    (fun h => absurd h hge) cls env dt steps with h | ⟨er, h, l, rfl⟩
  · exact Or.inl h
  · exact Or.inr ⟨l, h⟩

/-- **C110**: a sequence of calls that is possible in a debug build is possible in a release build, with
the same result. -/
theorem C110_histories {G : Gen α → Prop} {cls : Cls} {h : List (Op α)} {w : World α}
    (hw : World.Hist G cls h w) : World.HistR G cls h w := by
  induction hw with
  | start bodies cons gens genIndex hg j j' k k' => exact .start bodies cons gens genIndex hg j j' k k'
  | @step h w w' op hw hv e ih =>
    refine ih.step op hv ?_
    cases op with
    | process env dt steps => exact C110_agrees e
    | _ => exact e

theorem stale_bind {σ τ : Type} {x : Exec σ} {f : σ → Exec τ} {P : σ → Prop} {Q : τ → Prop}
    (hx : Wp x P anyErr) (h : ∀ s, P s → Wp (f s) Q anyErr) : Wp (x >>= f) Q anyErr := by
  rw [wp_bind]; exact hx.imp h

/-- **C110**, conjugate gradients: a call that does not reach its tolerance returns `false` and leaves the
matrix for the result as it was, if that has the right size. A release build, which ignores the return value,
then applies the multipliers of the previous sub-step. -/
theorem C110_conjugate_gradients_stale {st en m : Nat} {e1 e2 : α} {s s' : Store α} {J : SId}
    {W right r : MId} {p : Option MId} (hr : ¬ (Solver.cg m e1 e2).Own r)
    (hw : (s.mat r).width = 1) (hh : (s.mat r).height = (s.mat right).height)
    (e : s.cgSolve st en m e1 e2 J W right p (some r) = .ok (s', false)) : s'.mat r = s.mat r := by
  have hT : CgMay ((Solver.cg m e1 e2).Own) := by constructor <;> simp [Solver.Own]
  have key : Wp (s.cgSolve st en m e1 e2 J W right p (some r))
      (fun q => q.2 = false → Frame (Solver.cg m e1 e2).Own (fun _ => False) s q.1) anyErr := by
    unfold Store.cgSolve
    have fin : ∀ (q : Store α × Bool), Frame (Solver.cg m e1 e2).Own (fun _ => False) s q.1 →
        Wp (if q.2 then do
            let s ← q.1.setMatFrom r .cgX
            pure (s, true)
          else (pure (q.1, false) : Exec (Store α × Bool)))
          (fun q => q.2 = false → Frame (Solver.cg m e1 e2).Own (fun _ => False) s q.1) anyErr := by
      intro q hq
      rw [wp_ite]
      refine ⟨fun _ => ?_, fun _ _ => hq⟩
      cases q.1.setMatFrom r .cgX with
      | error _ => trivial
      | ok _ => exact fun h => absurd h (by simp)
    refine stale_bind (fr_resize (Frame.refl (Solver.cg m e1 e2).Own (fun _ => False) s) hT.r _ _) fun s1 h1 => stale_bind (fr_resize h1 hT.p _ _)
      fun s2 h2 => stale_bind (fr_resize h2 hT.ap _ _) fun s3 h3 => stale_bind (fr_init0 h3 hT.x _ _)
      fun s4 h4 => stale_bind (fr_warmStart h4 p hT.x _) fun s5 h5 => ?_
    have e5 : s5.resize r 1 (s.mat right).height = .ok s5 := by
      have := h5.mat r hr
      unfold Store.resize
      simp only []
      rw [if_pos (by rw [this, hw, hh]; exact ⟨rfl, rfl⟩)]
    simp only [deref, ok_bind]
    rw [e5, ok_bind]
    refine stale_bind (fr_setMatFrom h5 hT.r _) fun s6 h6 => stale_bind (fr_cgMultiply st en h6 J W _ hT.ap
      hT.reg0 hT.reg1) fun s7 h7 => stale_bind (fr_madd h7 hT.r _ _) fun s8 h8 => fr_any fun small => ?_
    rw [wp_ite]
    exact ⟨fun _ => fin (s8, true) h8, fun _ => stale_bind (fr_setMatFrom h8 hT.p _) fun s9 h9 =>
      stale_bind (fr_cgLoop st en hT e1 e2 J W right m s9 h9) fin⟩
  rw [e] at key
  exact (key rfl).mat r hr

end

section
variable {G : Gen ℝ → Prop} {h : List (Op ℝ)} {w w' : World ℝ} {env : Env ℝ} {dt : ℝ} {steps : Int}
  {m : Nat} {d : ℝ}

/-- The hypotheses of `C110_conjugate_gradients_stale` can be met: with no iteration allowed the result
stays at the values it had, `(7, 7)`. -/
example : ∃ s s' : Store ℝ, SReach 3 2 solverRestr s ∧
    Sys 3 2 s (.user 0) (.user 0) (.user 1) 3 2 demoA (fun _ => 1) (fun _ => -3) ∧
    s.cgSolve 3 2 0 0 (1 / 10) (.user 0) (.user 0) (.user 1) none (some (.user 3)) = .ok (s', false) ∧
    s'.mat (.user 3) = s.mat (.user 3) ∧ s.Shows (.user 3) 1 2 (fun _ _ => 7) := by
  obtain ⟨s, hs, h, _, hX, _⟩ := demo_sys 2 demoA (fun _ => 1) (fun _ => -3) (fun _ => 0)
    (fun _ => 0) (fun _ => 7)
  have ok := hs.okR.ok
  have hpl : CgPlain s := ⟨hs.okR.plain _ (Or.inl rfl), hs.okR.plain _ (Or.inr (Or.inl rfl)),
    hs.okR.plain _ (Or.inr (Or.inr rfl))⟩
  obtain ⟨s0, s1, x0, r0, p0, hd, F, w, hh, hst1, hres, hx0, heq⟩ :=
    cgSolve_start (r := .user 3) (prev := none) (by decide) (h.sleIn ok) hpl h.pubW.notCg h.pubB.notCg
      (show MId.Pub (.user 3) from trivial).notCg (by decide) (fun p hp => by cases hp)
  have hsm := cgSmall_spec hst1.ok hst1.vR (hd.vB.congr (hst1.frame.mat _ h.pubB.notCg)) 0 (1 / 10)
  have e : ∃ s', s.cgSolve 3 2 0 0 (1 / 10) (.user 0) (.user 0) (.user 1) none (some (.user 3)) =
      .ok (s', false) := by
    have hno : ¬ Small 0 (1 / 10) 2 r0 (fun i => (s.mat (.user 1)).ent i 0) := by
      intro q
      have q0 := q 0 (by decide)
      have z : mulV 2 (sysMat 3 2 s (.user 0) (.user 0)) x0 0 = 0 :=
        sum_eq_zero fun j hj => by
          rw [show x0 j = 0 from hx0 j (mem_range.mp hj), mul_zero]
      rw [hres 0 (by decide), z] at q0
      beta_reduce at q0
      rw [h.rhs.ent (by decide) (by decide)] at q0
      norm_num at q0
    obtain ⟨s2, e2, _⟩ := Store.setMatFrom_spec s1 .cgP .cgR (hst1.ok.mat _) (hst1.ok.mat _)
    refine ⟨s2, ?_⟩
    rw [heq, hsm, ok_bind]
    simp only [hno, decide_false, e2, ok_bind, cgLoop]
    rfl
  obtain ⟨s', e⟩ := e
  exact ⟨s, s', hs, h, e, C110_conjugate_gradients_stale (by simp [Solver.Own]) hX.width
    (hX.height.trans h.rhs.height.symm) e, hX⟩

/-- The hypotheses can be met: two bodies linked twice, with Gauss-Seidel. -/
example (env : Env ℝ) : ∃ (h : List (Op ℝ)) (w w' : World ℝ), World.Hist Gen.Shipped .opt h w ∧
    regCons h = {0, 1} ∧ w.sle ≠ some .ge ∧ w.process .opt env 2 4 = .ok w' := by
  obtain ⟨h, w, w', m, hw, _, _, hc, _, hsle, e⟩ := demo_gs env 4
  exact ⟨h, w, w', hw, hc, by rw [hsle]; nofun, e⟩

/-- **C110**, Gauss-Seidel: with positive masses, force limits in order and no degenerate constraint, a
call of `process` of the optimized system returns in a release build, for any tolerance and any number of
iterations but 0. -/
theorem C110_returns (hG : ∀ g, G g → g.OnlyForces) (hw : World.HistR G .opt h w)
    (hst : w.Standard h) (hs : w.Sensible h) (hsle : w.sle = some (.gs m d)) (hm : 1 ≤ m)
    (hdt : dt ≠ 0) (env : Env ℝ) (steps : Int) :
    ∃ w', w.processR .opt env dt steps = .ok w' :=
  hw.goes hG hst hsle hm (fun b hb q => (hs.masses hw.regs b hb q).ne') hdt (fun _ _ => True)
    (fun _ _ _ => trivial) (fun _ _ _ _ _ _ _ => trivial)
    (fun _ _ x _ c hc i hi => (hs.acts hst hw.regs x c hc i hi).ne') env

/-- A release build with the two bodies linked twice, and any iteration. -/
theorem demo_release (m : Nat) (d : ℝ) : ∃ (h : List (Op ℝ)) (w : World ℝ),
    World.Hist Gen.Shipped .opt h w ∧ w.Standard h ∧ w.Sensible h ∧ regCons h = {0, 1} ∧
      (∀ c, (w.cons c).rows = 2) ∧ w.sle = some (.gs m d) := by
  obtain ⟨h, w, e⟩ := demo (.link ⟨1, 3, 4, 7, 9, 0, 0⟩) (g := .gravity 9) trivial (cs := [0, 1])
    (fg := [0]) (by decide) (by decide) (.gs m d)
  exact ⟨h, w, e.hist, e.standard (Or.inl nofun) trivial,
    e.sensible (by show (0 : ℝ) ≤ 9; norm_num) trivial, e.regC, fun c => e.rows c, e.sle⟩

/-- The hypotheses can be met, also with a single iteration. -/
example : ∃ (h : List (Op ℝ)) (w : World ℝ), World.HistR Gen.Shipped .opt h w ∧ w.Standard h ∧
    w.Sensible h ∧ regCons h = {0, 1} ∧ w.sle = some (.gs 1 (1 / 10)) := by
  obtain ⟨h, w, hw, hst, hs, hc, _, hsle⟩ := demo_release 1 (1 / 10)
  exact ⟨h, w, C110_histories hw, hst, hs, hc, hsle⟩

theorem World.HistR.moves (hw : World.HistR G .opt h w)
    (e : w.processR .opt env dt steps = .ok w') : w.Moves w' :=
  ((optProcessR_wp w env dt steps hw.regs.nsv).of_eq
    (show w.optProcessR env dt steps = .ok w' from e)).1.moves

/-- **C110**, a run: any finite sequence of calls of `process` returns in a release build with
Gauss-Seidel. -/
theorem C110_frames (hG : ∀ g, G g → g.OnlyForces) (hw : World.HistR G .opt h w)
    (hst : w.Standard h) (hs : w.Sensible h) (hsle : w.sle = some (.gs m d)) (hm : 1 ≤ m)
    (frames : List (Env ℝ × ℝ × Int)) (hf : ∀ f ∈ frames, f.2.1 ≠ 0) :
    ∃ w', frames.foldlM (fun w f => World.processR .opt w f.1 f.2.1 f.2.2) w = .ok w' := by
  induction frames generalizing h w with
  | nil => exact ⟨w, rfl⟩
  | cons f fs ih =>
    obtain ⟨w1, e1⟩ := C110_returns hG hw hst hs hsle hm (hf f (List.mem_cons_self ..)) f.1 f.2.2
    have mv := hw.moves e1
    have hw1 := hw.step (.process f.1 f.2.1 f.2.2) trivial e1
    obtain ⟨w', e2⟩ := ih hw1 (mv.standard hst)
      (mv.sensible (h := .process f.1 f.2.1 f.2.2 :: h) ⟨hs.mass, hs.ordered, hs.directed, hs.apart⟩)
      (mv.sle.trans hsle) fun g hg => hf g (List.mem_cons_of_mem _ hg)
    exact ⟨w', by rw [List.foldlM_cons, e1]; exact e2⟩

/-- The hypotheses can be met. -/
example (env : Env ℝ) : ∃ (h : List (Op ℝ)) (w : World ℝ), World.HistR Gen.Shipped .opt h w ∧
    ∃ w', [(env, 2, 4), (env, -1, 1), (env, 3, 2)].foldlM
      (fun w f => World.processR .opt w f.1 f.2.1 f.2.2) w = .ok w' := by
  obtain ⟨h, w, hw, hst, hs, hc, _, hsle⟩ := demo_release 1 (1 / 10)
  refine ⟨h, w, C110_histories hw, C110_frames (fun g => Gen.tame) (C110_histories hw) hst hs hsle
    le_rfl _ fun f hf => ?_⟩
  simp only [List.mem_cons, List.not_mem_nil, or_false] at hf
  rcases hf with rfl | rfl | rfl <;> norm_num

/-- **C110**, the motion: in a release build with Gauss-Seidel, `X i` being the motion before sub-step `i`
and `mult i` the forces along the rows of the constraints in it, each sub-step follows Newton's law for
the external forces and these reactions, the forces are within the limits, and the reported forces are
those of the last sub-step; whether or not the iteration reached its tolerance. -/
theorem C110_sub_steps (hG : ∀ g, G g → g.OnlyForces) (hw : World.HistR G .opt h w)
    (hst : w.Standard h) (hs : w.Sensible h) (hsle : w.sle = some (.gs m d)) (hm : 1 ≤ m)
    (hdt : 0 < dt) (e : w.processR .opt env dt steps = .ok w') :
    ∃ (X : Nat → Motion) (mult : Nat → Nat → Nat → ℝ), X 0 = w.now ∧
      (∀ b ∈ regBodies h, ∀ q : Coord, (X steps.toNat).pos b q = (w'.bodies b).pos q ∧
        (X steps.toNat).vel b q = (w'.bodies b).vel q) ∧
      (∀ i, i < steps.toNat → ∀ b ∈ regBodies h, ∀ q : Coord,
        (w.bodies b).mass q * ((X (i + 1)).vel b q - (X i).vel b q) = dt / steps *
          (w.load (X i) b q + w.conForce (w.reaction (X i) (mult i)) b q) ∧
        (X (i + 1)).pos b q = (X i).pos b q + dt / steps * (X (i + 1)).vel b q) ∧
      (∀ i, i < steps.toNat → ∀ c ∈ regCons h, ∀ j, j < (w.cons c).rows →
        (w.cons c).kind.loT ≤ mult i c j ∧ mult i c j ≤ (w.cons c).kind.hiT) ∧
      ∀ n, steps.toNat = n + 1 → ∀ c ∈ regCons h, ∀ (q : Coord) j k, j < (w.cons c).rows →
        k < (w.cons c).bodyCount →
        (w'.cons c).F q j k = mult n c j * (w.rowsOf (X n) c).J j (k * 3 + q.d) := by
  obtain ⟨X, mult, h0, hmv, _⟩ := hw.moved hG hst hsle hm e
  refine ⟨X, mult, h0, fun b hb q => hmv.last b ((hw.regs.bodies.mem b).mpr hb) q,
    fun i hi b hb q => ?_, fun i hi c hc j hj => ?_, fun n hn c hc q j k hj hk => ?_⟩
  · have hb' := (hw.regs.bodies.mem b).mpr hb
    have st := hmv.step i hi
    refine ⟨?_, st.pos b hb' q⟩
    have hm0 := (hs.masses hw.regs b hb' q).ne'
    rw [st.vel b hb' q, st.acc b hb' q]
    field_simp
    ring
  · have hh : 0 < dt / (steps : ℝ) := by
      have : 0 < steps := by omega
      exact div_pos hdt (by exact_mod_cast this)
    exact (hmv.step i hi).gs m d hsle hh c ((hw.regs.cons.mem c).mpr hc) j hj (hs.ordered c hc).le
  · exact hmv.forces n hn c ((hw.regs.cons.mem c).mpr hc) q j k hj hk

/-- The hypotheses can be met, also where the iteration cannot reach its tolerance. -/
example (env : Env ℝ) : ∃ (h : List (Op ℝ)) (w w' : World ℝ), World.HistR Gen.Shipped .opt h w ∧
    w.Standard h ∧ w.Sensible h ∧ regCons h = {0, 1} ∧ w.sle = some (.gs 1 0) ∧
      w.processR .opt env 2 4 = .ok w' := by
  obtain ⟨h, w, hw, hst, hs, hc, _, hsle⟩ := demo_release 1 0
  obtain ⟨w', e⟩ := C110_returns (fun g => Gen.tame) (C110_histories hw) hst hs hsle le_rfl
    two_ne_zero env 4
  exact ⟨h, w, w', C110_histories hw, hst, hs, hc, hsle, e⟩

/-- **C110**, how far off the rows may be: in a sub-step of a release build with Gauss-Seidel a row of a
constraint is met up to the effect of the last change of the other impulses from their values `prev`
before the last sweep, or its force is at a limit and the bodies give way. -/
theorem C110_accuracy (hG : ∀ g, G g → g.OnlyForces) (hw : World.HistR G .opt h w)
    (hst : w.Standard h) (hs : w.Sensible h) (hsle : w.sle = some (.gs m d)) (hm : 1 ≤ m)
    (hdt : 0 < dt) (e : w.processR .opt env dt 1 = .ok w') :
    ∃ mult prev : Nat → Nat → ℝ, ∀ c ∈ regCons h, ∀ j, j < (w.cons c).rows →
      (∀ (q : Coord) k, k < (w.cons c).bodyCount →
        (w'.cons c).F q j k = mult c j * (w.rowsOf w.now c).J j (k * 3 + q.d)) ∧
      (w.cons c).kind.loT ≤ mult c j ∧ mult c j ≤ (w.cons c).kind.hiT ∧
      ∀ r err, r = w.rowAt (w.rowsOf w.now c) c j (fun b => (w'.bodies b).vel) +
          (w.cons c).kind.biasT + w.bias / dt * (w.rowsOf w.now c).C j →
        err = ∑ c' ∈ regCons h, ∑ j' ∈ range (w.cons c').rows, (if c' = c ∧ j' = j then 0 else
          |w.coupling (w.rowsOf w.now) c j c' j'| * |dt * mult c' j' - prev c' j'|) →
        |r| ≤ err ∨ (mult c j = (w.cons c).kind.loT ∧ -err ≤ r) ∨
          (mult c j = (w.cons c).kind.hiT ∧ r ≤ err) := by
  obtain ⟨X, mult, h0, hmv, hgr⟩ := hw.moved hG hst hsle hm e
  have p := (hw.ready hG hst.wired).2
  have one : dt / ((1 : Int) : ℝ) = dt := by simp
  obtain ⟨e', prev, _, g0⟩ := hgr hdt 0 (by decide)
  have s0 := hmv.step 0 (by decide)
  rw [one, h0] at g0 s0
  refine ⟨mult 0, prev, fun c hc j hj => ?_⟩
  have hc' := (hw.regs.cons.mem c).mpr hc
  have hl := (hs.ordered c hc).le
  obtain ⟨l1, l2⟩ := s0.gs m d hsle hdt c hc' j hj hl
  refine ⟨fun q k hk => ?_, l1, l2, fun r err hr herr => ?_⟩
  · have := hmv.forces 0 rfl c hc' q j k hj hk
    rw [h0] at this
    exact this
  · have hlast : w.Shows (X (0 + 1)) w'.bodies := hmv.last
    refine g0 c hc' j hj (hs.acts hst hw.regs _ c hc' j hj) hl r err ?_ ?_
    · rw [hr, row_shown p hlast hc']
    · rw [herr, hw.regs.cs_finset]

/-- **C110**, a single row: if the only constraint of the system has one row, its condition is met exactly
in a release build, or its force is at a limit and the bodies give way; for any tolerance and any number of
iterations but 0. -/
theorem C110_single_row (hG : ∀ g, G g → g.OnlyForces) (hw : World.HistR G .opt h w)
    (hst : w.Standard h) (hs : w.Sensible h) (hsle : w.sle = some (.gs m d)) (hm : 1 ≤ m)
    (hdt : 0 < dt) (e : w.processR .opt env dt 1 = .ok w') {c : Nat} (hc : regCons h = {c})
    (h1 : (w.cons c).rows = 1) :
    ∃ mult : ℝ, (∀ (q : Coord) k, k < (w.cons c).bodyCount →
        (w'.cons c).F q 0 k = mult * (w.rowsOf w.now c).J 0 (k * 3 + q.d)) ∧
      (w.cons c).kind.loT ≤ mult ∧ mult ≤ (w.cons c).kind.hiT ∧
      ∀ r, r = w.rowAt (w.rowsOf w.now c) c 0 (fun b => (w'.bodies b).vel) +
          (w.cons c).kind.biasT + w.bias / dt * (w.rowsOf w.now c).C 0 →
        r = 0 ∨ (mult = (w.cons c).kind.loT ∧ 0 ≤ r) ∨ (mult = (w.cons c).kind.hiT ∧ r ≤ 0) := by
  obtain ⟨mult, prev, hmu⟩ := C110_accuracy hG hw hst hs hsle hm hdt e
  obtain ⟨f1, f2, f3, f4⟩ := hmu c (by rw [hc]; exact mem_singleton_self c) 0 (by omega)
  refine ⟨mult c 0, f1, f2, f3, fun r hr => ?_⟩
  have := f4 r 0 hr (by rw [hc, sum_singleton, h1, sum_range_one, if_pos ⟨rfl, rfl⟩])
  rw [neg_zero] at this
  exact this.imp_left fun h => abs_nonpos_iff.mp h

/-- The hypotheses of the last two theorems can be met: two turning bodies in a clutch, one iteration. -/
example (env : Env ℝ) : ∃ (h : List (Op ℝ)) (w w' : World ℝ), World.HistR Gen.Shipped .opt h w ∧
    w.Standard h ∧ w.Sensible h ∧ regCons h = {0} ∧ (w.cons 0).rows = 1 ∧
      w.sle = some (.gs 1 (1 / 10)) ∧ w.processR .opt env 2 1 = .ok w' := by
  obtain ⟨h, w, q⟩ := demo (.clutch ⟨-1, 3, 0, 0⟩) (g := .gravity 9) trivial (cs := [0]) (fg := [0])
    (by decide) (by decide) (.gs 1 (1 / 10))
  have hst := q.standard (Or.inl nofun) trivial
  have hs : w.Sensible h := q.sensible (by show (-1 : ℝ) ≤ 3; norm_num) trivial
  obtain ⟨w', e⟩ := C110_returns (fun g => Gen.tame) (C110_histories q.hist) hst hs q.sle le_rfl
    two_ne_zero env 1
  exact ⟨h, w, w', C110_histories q.hist, hst, hs, q.regC, q.rows 0, q.sle, e⟩

/-- **C110**, where the builds differ: with a tolerance that is not positive a debug build with
Gauss-Seidel always stops in an assert if there is a constraint, however many iterations it may do, while
the release build returns. -/
theorem C110_zero_tolerance (hG : ∀ g, G g → g.OnlyForces) (hw : World.Hist G .opt h w)
    (hst : w.Standard h) (hs : w.Sensible h) (hsle : w.sle = some (.gs m d)) (hm : 1 ≤ m) (hd : d ≤ 0)
    (hc : regCons h ≠ ∅) (hdt : 0 < dt) (hst0 : 0 < steps) (env : Env ℝ) :
    (∃ l, w.process .opt env dt steps = .error (.assert l)) ∧
      ∃ w', w.processR .opt env dt steps = .ok w' := by
  obtain ⟨w1, e1⟩ := C110_returns hG (C110_histories hw) hst hs hsle hm hdt.ne' env steps
  refine ⟨?_, w1, e1⟩
  rcases C110_same_outcome (w := w) (by rw [hsle]; nofun) .opt env dt steps with q | q
  · rw [e1] at q
    obtain ⟨X, mult, _, _, hg⟩ := hw.gs_moved hG hst hsle hdt q
    obtain ⟨c, hc⟩ := nonempty_iff_ne_empty.mpr hc
    have hc' := (hw.regs.cons.mem c).mpr hc
    obtain ⟨prev, h1, _⟩ := hg 0 (by omega)
    have := h1 c hc' 0 (by have := counts_le (hst.kind c hc); omega)
    have h2 : d * max (1 / 1000) |prev c 0| ≤ 0 :=
      mul_nonpos_of_nonpos_of_nonneg hd (le_trans (by norm_num) (le_max_left _ _))
    exact absurd (abs_nonneg (dt / (steps : ℝ) * mult 0 c 0 - prev c 0)) (by linarith)
  · exact q

/-- The hypotheses can be met: two bodies linked twice. -/
example : ∃ (h : List (Op ℝ)) (w : World ℝ), World.Hist Gen.Shipped .opt h w ∧ w.Standard h ∧
    w.Sensible h ∧ regCons h ≠ ∅ ∧ w.sle = some (.gs 100 0) := by
  obtain ⟨h, w, hw, hst, hs, hc, _, hsle⟩ := demo_release 100 0
  exact ⟨h, w, hw, hst, hs, by rw [hc]; decide, hsle⟩

end

end Scs
