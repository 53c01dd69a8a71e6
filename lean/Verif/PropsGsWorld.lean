import Verif.WorldActs
import Verif.PropsSplit
import Verif.PropsMore

/-!
# C85, C86: the optimized system with Gauss-Seidel

C85: with enough iterations every call succeeds, whatever the constraints. C86: how far the velocities
after a call may be from the conditions of the constraints.
-/

namespace Scs

open Finset

section
variable {G : Gen ℝ → Prop} {h : List (Op ℝ)} {w w' : World ℝ} {env : Env ℝ} {dt : ℝ} {steps : Int}

/-! ## C85 -/

/-- **C85**: with positive masses, force limits in order and no degenerate constraint, there is a number
of iterations from which on `process` of the optimized system with Gauss-Seidel succeeds, with one and
the same result; also if constraints are redundant or contradict each other. -/
theorem C85_enough_iterations (hG : ∀ g, G g → g.OnlyForces) (hw : World.Hist G .opt h w)
    (hst : w.Standard h) (hs : w.Sensible h) {e : ℝ} (he : 0 < e) (hdt : 0 < dt) (env : Env ℝ)
    (steps : Int) : ∃ N, ∃ w' : World ℝ, ∀ m, N ≤ m →
      ({ w with sle := some (.gs m e) } : World ℝ).process .opt env dt steps =
        .ok { w' with sle := some (.gs m e) } :=
  hw.gs_enough hG hst he hdt (fun b hb q => (hs.masses hw.regs b hb q).ne')
    (fun c hc => (hs.ordered c ((hw.regs.cons.mem c).mp hc)).le) (fun _ _ => True)
    (fun _ _ _ => trivial) (fun _ _ _ _ _ _ _ _ => trivial)
    (fun _ _ x _ => hs.acts hst hw.regs x) env

theorem DemoSys.sensible {K : CKind ℝ} {g : Gen ℝ} {cs fg : List Nat} {sv : Solver ℝ}
    (d : DemoSys K g cs fg sv h w) (ho : K.Ordered) (hd : K.Directed) : w.Sensible h where
  mass := fun b _ => by rw [d.m, d.I]; exact ⟨one_pos, one_pos⟩
  ordered := fun c _ => by rw [d.kind]; exact ho
  directed := fun c _ => by rw [d.kind]; exact hd
  apart := fun c _ _ => by rw [d.bodies, d.bodies]; exact fun e => by cases e

/-- The hypotheses can be met: two bodies which are linked twice at the same points away from their
centres, so that the constraints are redundant. -/
example : ∃ (h : List (Op ℝ)) (w : World ℝ), World.Hist Gen.Shipped .opt h w ∧ w.Standard h ∧
    w.Sensible h ∧ regCons h = {0, 1} ∧ (w.cons 0).kind = (w.cons 1).kind := by
  obtain ⟨h, w, d⟩ := demo (.link ⟨1, 3, 4, 7, 9, 0, 0⟩) (g := .gravity 9) trivial (cs := [0, 1])
    (fg := [0]) (by decide) (by decide) .ge
  exact ⟨h, w, d.hist, d.standard (Or.inl nofun) trivial,
    d.sensible (by show (0 : ℝ) ≤ 9; norm_num) trivial, d.regC, by rw [d.kind, d.kind]⟩

theorem World.Moves.sensible {w1 : World ℝ} (a : w.Moves w1) (hs : w.Sensible h) : w1.Sensible h where
  mass := fun b hb => by rw [a.mass, a.inertia]; exact hs.mass b hb
  ordered := fun c hc => by rw [a.kind]; exact hs.ordered c hc
  directed := fun c hc => by rw [a.kind]; exact hs.directed c hc
  apart := fun c hc => by rw [a.bodyCount, a.conBodies]; exact hs.apart c hc

/-- The state after `initialize` with another solver of linear systems. -/
theorem World.Hist.gs (hw : World.Hist G .opt h w) (m : Nat) (e : ℝ) :
    World.Hist G .opt (.init (some (.gs m e)) none :: h)
      ({ w with sle := some (.gs m e) } : World ℝ) :=
  hw.step (.init (some (.gs m e)) none) (fun o e => by cases e) rfl

/-- **C85**, a run: any finite sequence of calls of `process` succeeds with enough iterations. -/
theorem C85_frames (hG : ∀ g, G g → g.OnlyForces) (hw : World.Hist G .opt h w)
    (hst : w.Standard h) (hs : w.Sensible h) {e : ℝ} (he : 0 < e)
    (frames : List (Env ℝ × ℝ × Int)) (hf : ∀ f ∈ frames, 0 < f.2.1) :
    ∃ N, ∃ w' : World ℝ, ∀ m, N ≤ m →
      frames.foldlM (fun w f => World.process .opt w f.1 f.2.1 f.2.2)
        ({ w with sle := some (.gs m e) } : World ℝ) = .ok { w' with sle := some (.gs m e) } := by
  induction frames generalizing h w with
  | nil => exact ⟨0, w, fun m _ => rfl⟩
  | cons f fs ih =>
    obtain ⟨N1, w1, h1⟩ := C85_enough_iterations hG hw hst hs he (hf f (List.mem_cons_self ..)) f.1
      f.2.2
    have hi := hw.gs N1 e
    have e1 := h1 N1 le_rfl
    have hm := C56_process_only_moves hi e1
    have hw1 := hi.step (.process f.1 f.2.1 f.2.2) trivial e1
    have st : ({ w with sle := some (.gs N1 e) } : World ℝ).Standard
        (.init (some (.gs N1 e)) none :: h) :=
      ⟨hst.kind, hst.bodies, hst.gens, hst.near⟩
    have ss : ({ w with sle := some (.gs N1 e) } : World ℝ).Sensible
        (.process f.1 f.2.1 f.2.2 :: .init (some (.gs N1 e)) none :: h) :=
      ⟨hs.mass, hs.ordered, hs.directed, hs.apart⟩
    obtain ⟨N2, w2, h2⟩ := ih hw1 (hm.standard st) (hm.sensible ss)
      fun g hg => hf g (List.mem_cons_of_mem _ hg)
    refine ⟨max N1 N2, w2, fun m hm => ?_⟩
    rw [List.foldlM_cons, h1 m (le_trans (le_max_left _ _) hm)]
    exact h2 m (le_trans (le_max_right _ _) hm)

/-- The hypotheses can be met: three frames of the two bodies linked twice. -/
example (env : Env ℝ) : ∃ (h : List (Op ℝ)) (w : World ℝ), World.Hist Gen.Shipped .opt h w ∧
    ∃ N, ∃ w' : World ℝ, ∀ m, N ≤ m →
      [(env, 2, 4), (env, 1, 1), (env, 3, 2)].foldlM (fun w f => World.process .opt w f.1 f.2.1 f.2.2)
        ({ w with sle := some (.gs m (1 / 10)) } : World ℝ) =
          .ok { w' with sle := some (.gs m (1 / 10)) } := by
  obtain ⟨h, w, d⟩ := demo (.link ⟨1, 3, 4, 7, 9, 0, 0⟩) (g := .gravity 9) trivial (cs := [0, 1])
    (fg := [0]) (by decide) (by decide) .ge
  refine ⟨h, w, d.hist, C85_frames (fun g => Gen.tame) d.hist (d.standard (Or.inl nofun) trivial)
    (d.sensible (by show (0 : ℝ) ≤ 9; norm_num) trivial) (by norm_num) _ fun f hf => ?_⟩
  simp only [List.mem_cons, List.not_mem_nil, or_false] at hf
  rcases hf with rfl | rfl | rfl <;> norm_num

/-- A call with Gauss-Seidel of two bodies linked twice. -/
theorem demo_gs (env : Env ℝ) (steps : Int) : ∃ (h : List (Op ℝ)) (w w' : World ℝ) (m : Nat),
    World.Hist Gen.Shipped .opt h w ∧ w.Standard h ∧ w.Sensible h ∧ regCons h = {0, 1} ∧
      (∀ c, (w.cons c).rows = 2) ∧ w.sle = some (.gs m (1 / 10)) ∧
      w.process .opt env 2 steps = .ok w' := by
  obtain ⟨h, w, d⟩ := demo (.link ⟨1, 3, 4, 7, 9, 0, 0⟩) (g := .gravity 9) trivial (cs := [0, 1])
    (fg := [0]) (by decide) (by decide) .ge
  have hst := d.standard (Or.inl nofun) trivial
  have hs : w.Sensible h := d.sensible (by show (0 : ℝ) ≤ 9; norm_num) trivial
  obtain ⟨N, w', h1⟩ := C85_enough_iterations (fun g => Gen.tame) d.hist hst hs
    (e := 1 / 10) (by norm_num) two_pos env steps
  exact ⟨_, _, _, N, d.hist.gs N (1 / 10), ⟨hst.kind, hst.bodies, hst.gens, hst.near⟩,
    ⟨hs.mass, hs.ordered, hs.directed, hs.apart⟩, d.regC, fun c => d.rows c, rfl, h1 N le_rfl⟩

/-! ## C86 -/

/-- How far the velocity along row `j` of constraint `c` may be off in a sub-step of length `h` from the
motion `x` with forces `mult` along the rows: for each other row, the tolerance `e` times the impulse
along it, but at least a thousandth, times the effect of a unit impulse along it. -/
noncomputable def World.gsSlack (w : World ℝ) (e h : ℝ) (x : Motion) (mult : Nat → Nat → ℝ)
    (c j : Nat) : ℝ :=
  ∑ c' ∈ w.cs.toFinset, ∑ j' ∈ range (w.cons c').rows, if c' = c ∧ j' = j then 0 else
    |w.coupling (w.rowsOf x) c j c' j'| * (e * max (1 / 1000) (|h * mult c' j'| / (1 - e)))

theorem change_le {e p l : ℝ} (he : 0 < e) (he1 : e < 1) (h : |l - p| < e * max (1 / 1000) |p|) :
    |l - p| ≤ e * max (1 / 1000) (|l| / (1 - e)) := by
  refine h.le.trans (mul_le_mul_of_nonneg_left ?_ he.le)
  have h1 : 0 < 1 - e := by linarith
  rcases le_total (1 / 1000) |p| with hp | hp
  · rw [max_eq_right hp] at h ⊢
    refine le_max_of_le_right ((le_div_iff₀ h1).mpr ?_)
    have := abs_sub_abs_le_abs_sub p l
    rw [abs_sub_comm p l] at this
    nlinarith
  · rw [max_eq_left hp]
    exact le_max_left _ _

theorem World.GsRows.slack {e k : ℝ} {x x' : Motion} {mult : Nat → Nat → ℝ}
    (st : w.GsRows e k x x' mult) (he : 0 < e) (he1 : e < 1) {c : Nat} (hc : c ∈ w.cs) {j : Nat}
    (hj : j < (w.cons c).rows) (hpos : 0 < w.coupling (w.rowsOf x) c j c j)
    (hl : (w.cons c).kind.loT ≤ (w.cons c).kind.hiT) {r : ℝ}
    (hr : r = w.rowAt (w.rowsOf x c) c j x'.vel + (w.rowsOf x c).v_bias j +
      w.bias / k * (w.rowsOf x c).C j) :
    |r| ≤ w.gsSlack e k x mult c j ∨
      (mult c j = (w.cons c).kind.loT ∧ -w.gsSlack e k x mult c j ≤ r) ∨
      (mult c j = (w.cons c).kind.hiT ∧ r ≤ w.gsSlack e k x mult c j) := by
  obtain ⟨prev, h1, h2⟩ := st
  have hle : (∑ c' ∈ w.cs.toFinset, ∑ j' ∈ range (w.cons c').rows, (if c' = c ∧ j' = j then 0 else
      |w.coupling (w.rowsOf x) c j c' j'| * |k * mult c' j' - prev c' j'|)) ≤
      w.gsSlack e k x mult c j := by
    refine sum_le_sum fun c' hc' => sum_le_sum fun j' hj' => ?_
    by_cases hh : c' = c ∧ j' = j
    · rw [if_pos hh, if_pos hh]
    · rw [if_neg hh, if_neg hh]
      exact mul_le_mul_of_nonneg_left
        (change_le he he1 (h1 c' (List.mem_toFinset.mp hc') j' (mem_range.mp hj'))) (abs_nonneg _)
  rcases h2 c hc j hj hpos hl r _ hr rfl with h | ⟨ha, h⟩ | ⟨ha, h⟩
  · exact Or.inl (h.trans hle)
  · exact Or.inr (Or.inl ⟨ha, (neg_le_neg hle).trans h⟩)
  · exact Or.inr (Or.inr ⟨ha, h.trans hle⟩)

/-- **C86**: `mult` being the forces along the rows of the constraints in the last sub-step, which give
the reported forces and are within their limits, after `process(dt, 1)` with Gauss-Seidel each row of
each constraint is satisfied up to the tolerance, or its force is at a limit and the bodies give way in
the direction in which the force holds them back. -/
theorem C86_accuracy (hG : ∀ g, G g → g.OnlyForces) (hw : World.Hist G .opt h w)
    (hst : w.Standard h) (hs : w.Sensible h) {m : Nat} {d : ℝ} (hsle : w.sle = some (.gs m d))
    (hd : 0 < d) (hd1 : d < 1) (hdt : 0 < dt) (e : w.process .opt env dt 1 = .ok w') :
    ∃ mult : Nat → Nat → ℝ, ∀ c ∈ regCons h, ∀ j, j < (w.cons c).rows →
      (∀ (q : Coord) k, k < (w.cons c).bodyCount →
        (w'.cons c).F q j k = mult c j * (w.rowsOf w.now c).J j (k * 3 + q.d)) ∧
      (w.cons c).kind.loT ≤ mult c j ∧ mult c j ≤ (w.cons c).kind.hiT ∧
      ∀ r, r = w.rowAt (w.rowsOf w.now c) c j (fun b => (w'.bodies b).vel) +
          (w.rowsOf w.now c).v_bias j + w.bias / dt * (w.rowsOf w.now c).C j →
        |r| ≤ w.gsSlack d dt w.now mult c j ∨
          (mult c j = (w.cons c).kind.loT ∧ -w.gsSlack d dt w.now mult c j ≤ r) ∨
          (mult c j = (w.cons c).kind.hiT ∧ r ≤ w.gsSlack d dt w.now mult c j) := by
  obtain ⟨X, mult, h0, hm, hg⟩ := hw.gs_moved hG hst hsle hdt e
  have p := (hw.ready hG hst.wired).2
  have one : dt / ((1 : Int) : ℝ) = dt := by simp
  have g0 := hg 0 (by decide)
  have s0 := hm.step 0 (by decide)
  rw [one, h0] at g0 s0
  refine ⟨mult 0, fun c hc j hj => ?_⟩
  have hc' := (hw.regs.cons.mem c).mpr hc
  have hl := (hs.ordered c hc).le
  obtain ⟨l1, l2⟩ := s0.gs m d hsle hdt c hc' j hj hl
  refine ⟨fun q k hk => ?_, l1, l2, fun r hr => ?_⟩
  · have := hm.forces 0 rfl c hc' q j k hj hk
    rw [h0] at this
    exact this
  · have hlast : w.Shows (X (0 + 1)) w'.bodies := hm.last
    refine g0.slack hd hd1 hc' hj (hs.acts hst hw.regs _ c hc' j hj) hl ?_
    rw [hr, row_shown p hlast hc']

/-- The hypotheses can be met: two bodies linked twice. -/
example (env : Env ℝ) : ∃ (h : List (Op ℝ)) (w w' : World ℝ) (m : Nat),
    World.Hist Gen.Shipped .opt h w ∧ w.Standard h ∧ w.Sensible h ∧ regCons h = {0, 1} ∧
      (∀ c, (w.cons c).rows = 2) ∧ w.sle = some (.gs m (1 / 10)) ∧
      w.process .opt env 2 1 = .ok w' := demo_gs env 1

/-- **C86**, several sub-steps: `X i` is the motion before sub-step `i` and `mult i` are the forces along
the rows in it. -/
theorem C86_every_sub_step (hG : ∀ g, G g → g.OnlyForces) (hw : World.Hist G .opt h w)
    (hst : w.Standard h) (hs : w.Sensible h) {m : Nat} {d : ℝ} (hsle : w.sle = some (.gs m d))
    (hd : 0 < d) (hd1 : d < 1) (hdt : 0 < dt) (e : w.process .opt env dt steps = .ok w') :
    ∃ (X : Nat → Motion) (mult : Nat → Nat → Nat → ℝ), X 0 = w.now ∧
      (∀ b ∈ regBodies h, ∀ q : Coord, (X steps.toNat).pos b q = (w'.bodies b).pos q ∧
        (X steps.toNat).vel b q = (w'.bodies b).vel q) ∧
      ∀ i, i < steps.toNat → ∀ c ∈ regCons h, ∀ j, j < (w.cons c).rows →
        (w.cons c).kind.loT ≤ mult i c j ∧ mult i c j ≤ (w.cons c).kind.hiT ∧
        ∀ r, r = w.rowAt (w.rowsOf (X i) c) c j (X (i + 1)).vel + (w.rowsOf (X i) c).v_bias j +
            w.bias / (dt / steps) * (w.rowsOf (X i) c).C j →
          |r| ≤ w.gsSlack d (dt / steps) (X i) (mult i) c j ∨
            (mult i c j = (w.cons c).kind.loT ∧ -w.gsSlack d (dt / steps) (X i) (mult i) c j ≤ r) ∨
            (mult i c j = (w.cons c).kind.hiT ∧ r ≤ w.gsSlack d (dt / steps) (X i) (mult i) c j) := by
  obtain ⟨X, mult, h0, hm, hg⟩ := hw.gs_moved hG hst hsle hdt e
  refine ⟨X, mult, h0, fun b hb q => hm.last b ((hw.regs.bodies.mem b).mpr hb) q,
    fun i hi c hc j hj => ?_⟩
  have hc' := (hw.regs.cons.mem c).mpr hc
  have hl := (hs.ordered c hc).le
  have hh : 0 < dt / (steps : ℝ) := by
    have : 0 < steps := by omega
    exact div_pos hdt (by exact_mod_cast this)
  obtain ⟨l1, l2⟩ := (hm.step i hi).gs m d hsle hh c hc' j hj hl
  exact ⟨l1, l2, fun r hr => (hg i hi).slack hd hd1 hc' hj (hs.acts hst hw.regs _ c hc' j hj) hl hr⟩

/-- The hypotheses can be met with several sub-steps. -/
example (env : Env ℝ) : ∃ (h : List (Op ℝ)) (w w' : World ℝ) (m : Nat),
    World.Hist Gen.Shipped .opt h w ∧ w.Standard h ∧ w.Sensible h ∧ regCons h = {0, 1} ∧
      (∀ c, (w.cons c).rows = 2) ∧ w.sle = some (.gs m (1 / 10)) ∧
      w.process .opt env 2 4 = .ok w' := demo_gs env 4

/-- **C86**, a single row: if the only constraint of the system has one row, its condition is met
exactly, or its force is at a limit and the bodies give way in the direction in which the force holds
them back. -/
theorem C86_single_row (hG : ∀ g, G g → g.OnlyForces) (hw : World.Hist G .opt h w)
    (hst : w.Standard h) (hs : w.Sensible h) {m : Nat} {d : ℝ} (hsle : w.sle = some (.gs m d))
    (hd : 0 < d) (hd1 : d < 1) (hdt : 0 < dt) (e : w.process .opt env dt 1 = .ok w') {c : Nat}
    (hc : regCons h = {c}) (h1 : (w.cons c).rows = 1) :
    ∃ mult : ℝ, (∀ (q : Coord) k, k < (w.cons c).bodyCount →
        (w'.cons c).F q 0 k = mult * (w.rowsOf w.now c).J 0 (k * 3 + q.d)) ∧
      (w.cons c).kind.loT ≤ mult ∧ mult ≤ (w.cons c).kind.hiT ∧
      ∀ r, r = w.rowAt (w.rowsOf w.now c) c 0 (fun b => (w'.bodies b).vel) +
          (w.rowsOf w.now c).v_bias 0 + w.bias / dt * (w.rowsOf w.now c).C 0 →
        r = 0 ∨ (mult = (w.cons c).kind.loT ∧ 0 ≤ r) ∨ (mult = (w.cons c).kind.hiT ∧ r ≤ 0) := by
  obtain ⟨mult, hmu⟩ := C86_accuracy hG hw hst hs hsle hd hd1 hdt e
  obtain ⟨f1, f2, f3, f4⟩ := hmu c (by rw [hc]; exact mem_singleton_self c) 0 (by omega)
  have z : w.gsSlack d dt w.now mult c 0 = 0 := by
    rw [World.gsSlack, hw.regs.cs_finset, hc, sum_singleton, h1, sum_range_one, if_pos ⟨rfl, rfl⟩]
  refine ⟨mult c 0, f1, f2, f3, fun r hr => ?_⟩
  have := f4 r hr
  rw [z, neg_zero] at this
  exact this.imp_left fun h => abs_nonpos_iff.mp h

/-- The hypotheses can be met: two turning bodies in a clutch. -/
example (env : Env ℝ) : ∃ (h : List (Op ℝ)) (w w' : World ℝ),
    World.Hist Gen.Shipped .opt h w ∧ w.Standard h ∧ w.Sensible h ∧
      w.sle = some (.gs 2 (1 / 10)) ∧ w.process .opt env 2 1 = .ok w' ∧ regCons h = {0} ∧
      (w.cons 0).rows = 1 ∧ (w.bodies 0).v_theta ≠ (w.bodies 1).v_theta := by
  obtain ⟨h, w, w', d, hst, e⟩ := demo_turns (turns_clutch ⟨-5, 5, 10, 1⟩) (g := .gravity (-9)) trivial
    trivial (sv := .gs 2 (1 / 10)) ⟨le_rfl, by norm_num⟩ two_ne_zero 1 env
  refine ⟨h, w, w', d.hist, hst, d.sensible (by show (-5 : ℝ) ≤ 5; norm_num) trivial, d.sle, e, d.regC,
    d.rows 0, ?_⟩
  show (w.bodies 0).vel .th ≠ (w.bodies 1).vel .th
  rw [d.vel, d.vel]
  show (if 0 = 0 then (5 : ℝ) else 0) ≠ if 1 = 0 then (5 : ℝ) else 0
  norm_num

end

end Scs
