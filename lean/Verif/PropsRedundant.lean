import Verif.PropsNoise
import Verif.PropsSafe
import Verif.PropsOdeWorld
import Mathlib.LinearAlgebra.Dimension.Constructions

/-!
# Redundant constraints

C103: with Gaussian elimination, `process` works exactly if no constraint row is redundant.
-/

namespace Scs
open Finset

/-! ## Specification -/

/-- The constraints are redundant in the motion `x`: forces along their rows, not all zero, cancel on
every body. `coef` sums the entries of the reported Jacobian that belong to a body. -/
def World.Redundant (w : World ℝ) (h : List (Op ℝ)) (x : Motion) : Prop :=
  ∃ z : Nat → Nat → ℝ, (∃ c ∈ regCons h, ∃ j < (w.cons c).rows, z c j ≠ 0) ∧
    ∀ b ∈ regBodies h, ∀ q : Coord,
      ∑ c ∈ regCons h, ∑ j ∈ range (w.cons c).rows, z c j * w.coef (w.rowsOf x) c j b q = 0

section
variable {G : Gen ℝ → Prop} {cls : Cls} {h : List (Op ℝ)} {w w' : World ℝ} {env : Env ℝ} {dt : ℝ}
  {steps : Int} {o : Ode ℝ} {x : Motion}

theorem World.Redundant.not_indep (r : w.Regs cls h) (hr : w.Redundant h x) :
    ¬ w.Indep (w.rowsOf x) := by
  intro hi
  obtain ⟨z, ⟨c, hc, j, hj, hz⟩, h0⟩ := hr
  refine hz (rank_of_indep hi z (fun b hb q => ?_) c ((r.cons.mem c).mpr hc) j hj)
  rw [r.cs_finset]
  exact h0 b ((r.bodies.mem b).mp hb) q

theorem World.indep_of_not_redundant (r : w.Regs cls h)
    (hm : ∀ b ∈ regBodies h, 0 < (w.bodies b).m ∧ 0 < (w.bodies b).I) (hr : ¬ w.Redundant h x) :
    w.Indep (w.rowsOf x) := by
  refine indep_of_rank (fun b hb q => ?_) fun z hz c hc i hi => ?_
  · obtain ⟨h1, h2⟩ := hm b ((r.bodies.mem b).mp hb)
    cases q
    exacts [h1, h1, h2]
  · by_contra hn
    refine hr ⟨z, ⟨c, (r.cons.mem c).mp hc, i, hi, hn⟩, fun b hb q => ?_⟩
    rw [← r.cs_finset]
    exact hz b ((r.bodies.mem b).mpr hb) q

/-! ## C103 -/

/-- **C103.** One sub-step of the optimized system with Gaussian elimination succeeds exactly if the
constraints are not redundant. -/
theorem C103_accepts (hG : ∀ g, G g → g.OnlyForces) (hw : World.Hist G .opt h w)
    (hst : w.Standard h) (hsle : w.sle = some .ge) (hc : (regCons h).Nonempty)
    (hm : ∀ b ∈ regBodies h, 0 < (w.bodies b).m ∧ 0 < (w.bodies b).I) (hdt : dt ≠ 0) :
    (∃ w', w.process .opt env dt 1 = .ok w') ↔ ¬ w.Redundant h w.now := by
  have r := hw.regs
  refine ⟨fun ⟨w', e⟩ hr => ?_, fun hr => ?_⟩
  · obtain ⟨X, mult, h0, hX⟩ := hw.moved hG hst e
    have := (hX.step 0 (by decide)).indep hsle
    rw [h0] at this
    exact hr.not_indep r this
  · have p := (hw.ready hG hst.wired).2
    have hi := World.indep_of_not_redundant r hm hr
    have hne : w.cs ≠ [] := fun h0 => hc.ne_empty (r.cs_nil.mp h0)
    refine hw.goes hG hst (fun b hb q => ?_) hdt (by rw [hsle]; simp)
      (fun j x => j = 0 → w.SameAs w.now x) (fun x hx ha _ => hx.now ha)
      (fun j _ x x' m _ _ hj => absurd hj (by omega)) (fun j hj x hx _ => ?_)
      (fun h0 => absurd h0 hne) env
    · obtain ⟨h1, h2⟩ := hm b ((r.bodies.mem b).mp hb)
      cases q
      exacts [h1.ne', h1.ne', h2.ne']
    · have hj0 : j = 0 := by
        have : (1 : Int).toNat = 1 := rfl
        omega
      have s := hx hj0
      simp only [World.Solvable, hsle]
      exact (sameRows_congr p s).indep hi

/-- **C103.** A call with any number of sub-steps is refused if the constraints are redundant at its
start: it does not return, and it does not touch foreign memory either. -/
theorem C103_refuses (hG : ∀ g, G g → g.OnlyForces) (hw : World.Hist G .opt h w)
    (hst : w.Standard h) (hsle : w.sle = some .ge) (hs : 0 < steps) (hr : w.Redundant h w.now) :
    ∃ e, w.process .opt env dt steps = .error e ∧ (e.IsAssert ∨ e = .divZero) := by
  cases e : w.process .opt env dt steps with
  | error x => exact ⟨x, rfl, C68_optimized divOk_real hG hw (Standard.usable hst) (by rw [hsle]; simp) env dt
      steps x e⟩
  | ok w' =>
    obtain ⟨X, mult, h0, hX⟩ := hw.moved hG hst e
    have := (hX.step 0 (by omega)).indep hsle
    rw [h0] at this
    exact absurd this (hr.not_indep hw.regs)

theorem World.OdeStep.indep {h : ℝ} {x x' : Motion} (st : w.OdeStep o h x x')
    (hsle : w.sle = some .ge) : w.Indep (w.rowsOf x) := by
  cases o with
  | base d => exact absurd st id
  | euler d => obtain ⟨m, st⟩ := st; exact st.acc.indep hsle
  | nsv d => obtain ⟨m, st⟩ := st; exact st.acc.indep hsle
  | rk4 r => obtain ⟨a, m, st⟩ := st; exact st.acc1.indep hsle

/-- **C103**, for the generic system with any of the ODE solvers: redundant constraints are
refused. -/
theorem C103_refuses_generic (hG : ∀ g, G g → g.OnlyForces) (hw : World.Hist G .gen h w)
    (hst : w.Standard h) (hsle : w.sle = some .ge) (hode : w.ode = some o) (ho : o.sort ≠ 0)
    (hsync : o.sort = 3 → InSync h) (hs : 0 < steps) (hr : w.Redundant h w.now) :
    ∃ e, w.process .gen env dt steps = .error e := by
  cases e : w.process .gen env dt steps with
  | error x => exact ⟨x, rfl⟩
  | ok w' =>
    obtain ⟨X, hX⟩ := hw.ode_moved hG hst hode ho hsync e
    have := (hX.step 0 (by omega)).indep hsle
    rw [hX.first] at this
    exact absurd this (hr.not_indep hw.regs)

/-- **C103**, for the generic system with the Euler or the NSV solver: one sub-step succeeds exactly
if the constraints are not redundant. -/
theorem C103_accepts_generic (hG : ∀ g, G g → g.OnlyForces) (hw : World.Hist G .gen h w)
    (hst : w.Standard h) (hsle : w.sle = some .ge) (hode : w.ode = some o) {sym : Bool}
    (ho : o.isSym sym) (hc : (regCons h).Nonempty)
    (hm : ∀ b ∈ regBodies h, 0 < (w.bodies b).m ∧ 0 < (w.bodies b).I) :
    (∃ w', w.process .gen env dt 1 = .ok w') ↔ ¬ w.Redundant h w.now := by
  have r := hw.regs
  refine ⟨fun ⟨w', e⟩ hr => ?_, fun hr => ?_⟩
  · obtain ⟨x, he⟩ := C103_refuses_generic (env := env) (dt := dt) (steps := 1) hG hw hst hsle hode
      (by cases o <;> cases sym <;> simp_all [Ode.isSym, Ode.sort])
      (by cases o <;> cases sym <;> simp_all [Ode.isSym, Ode.sort]) (by decide) hr
    rw [e] at he
    cases he
  · have p := (hw.readyG hG hst.wired).2
    have hi := World.indep_of_not_redundant r hm hr
    have hne : w.cs ≠ [] := fun h0 => hc.ne_empty (r.cs_nil.mp h0)
    refine hw.goesG hG hst hode ho (fun b hb q => ?_) (by rw [hsle]; simp)
      (fun m e => by rw [hsle]; simp)
      (fun j x => j = 0 → w.SameAs w.now x) (fun x hx ha _ => hx.now ha)
      (fun j _ x x' m _ _ hj => absurd hj (by omega)) (fun j hj x hx _ => ?_)
      (fun h0 => absurd h0 hne) env
    · obtain ⟨h1, h2⟩ := hm b ((r.bodies.mem b).mp hb)
      cases q
      exacts [h1.ne', h1.ne', h2.ne']
    · have hj0 : j = 0 := by
        have : (1 : Int).toNat = 1 := rfl
        omega
      simp only [World.Solvable, hsle]
      exact (sameRows_congr p (hx hj0)).indep hi

/-! ### Redundant scenes -/

/-- **C103.** A constraint added twice, as two objects of the same kind on the same bodies, is
redundant. -/
theorem C103_same_twice (hst : w.Standard h) {c c' : Nat} (hc : c ∈ regCons h)
    (hc' : c' ∈ regCons h) (hne : c ≠ c') (hk : (w.cons c').kind = (w.cons c).kind)
    (hb : (w.cons c').bodies = (w.cons c).bodies) (x : Motion) : w.Redundant h x := by
  have hn : (w.cons c').rows = (w.cons c).rows ∧ (w.cons c').bodyCount = (w.cons c).bodyCount := by
    have h1 := hst.kind c hc
    have h2 := hst.kind c' hc'
    rw [hk, h1] at h2
    simpa [eq_comm] using h2
  have h1 : 0 < (w.cons c).rows := by have := counts_le (hst.kind c hc); omega
  have hbo : ∀ k, w.bodyOf c' k = w.bodyOf c k := fun k => by rw [World.bodyOf, World.bodyOf, hb]
  have hJ : (w.rowsOf x c').J = (w.rowsOf x c).J := by
    show (w.cons c').kind.jT (x.q w c') = (w.cons c).kind.jT (x.q w c)
    rw [hk, show x.q w c' = x.q w c from funext fun i => by simp only [Motion.q, hbo, hn.2]]
  have hcoef : ∀ j b q, w.coef (w.rowsOf x) c' j b q = w.coef (w.rowsOf x) c j b q := fun j b q => by
    rw [World.coef, World.coef, hn.2, hJ]
    exact sum_congr rfl fun k _ => by rw [hbo]
  refine ⟨fun d j => if d = c then 1 else if d = c' then -1 else 0, ⟨c, hc, 0, h1, by simp⟩,
    fun b _ q => ?_⟩
  have hs : ∀ d ∈ regCons h, d ∉ ({c, c'} : Finset Nat) → ∑ j ∈ range (w.cons d).rows,
      (if d = c then (1 : ℝ) else if d = c' then -1 else 0) * w.coef (w.rowsOf x) d j b q = 0 := by
    intro d _ hd
    simp only [mem_insert, mem_singleton, not_or] at hd
    simp [hd.1, hd.2]
  rw [← sum_subset (s₁ := {c, c'}) (fun d hd => by
    simp only [mem_insert, mem_singleton] at hd
    rcases hd with rfl | rfl
    exacts [hc, hc']) hs, sum_pair hne, hn.1, ← sum_add_distrib]
  refine sum_eq_zero fun j _ => ?_
  rw [hcoef]
  simp [hne.symm]

/-- **C103.** Constraints with more rows than the bodies have coordinates are redundant. -/
theorem C103_too_many_rows (hlt : 3 * (regBodies h).card < ∑ c ∈ regCons h, (w.cons c).rows)
    (x : Motion) : w.Redundant h x := by
  let ι := Σ c : regCons h, Fin (w.cons c).rows
  let f : (ι → ℝ) →ₗ[ℝ] (regBodies h × Coord → ℝ) :=
    { toFun := fun z p => ∑ i : ι, z i * w.coef (w.rowsOf x) i.1 i.2 p.1 p.2
      map_add' := fun z z' => by
        funext p
        simp only [Pi.add_apply, add_mul, sum_add_distrib]
      map_smul' := fun a z => by
        funext p
        simp only [Pi.smul_apply, smul_eq_mul, mul_assoc, mul_sum, RingHom.id_apply] }
  have hd : Module.finrank ℝ (regBodies h × Coord → ℝ) < Module.finrank ℝ (ι → ℝ) := by
    rw [Module.finrank_fintype_fun_eq_card, Module.finrank_fintype_fun_eq_card, Fintype.card_prod,
      Fintype.card_coe, Fintype.card_sigma, show Fintype.card Coord = 3 from rfl, mul_comm]
    simp only [Fintype.card_fin]
    rw [Finset.sum_coe_sort (regCons h) (fun c => (w.cons c).rows)]
    exact hlt
  have hker := LinearMap.ker_ne_bot_of_finrank_lt (f := f) hd
  obtain ⟨z, hz, hz0⟩ := Submodule.exists_mem_ne_zero_of_ne_bot hker
  obtain ⟨i, hi⟩ := Function.ne_iff.mp hz0
  let Z : Nat → Nat → ℝ := fun c j => if hc : c ∈ regCons h then
    if hj : j < (w.cons c).rows then z ⟨⟨c, hc⟩, ⟨j, hj⟩⟩ else 0 else 0
  have hZ : ∀ i : ι, Z i.1 i.2 = z i := fun i => by
    simp only [Z, dif_pos i.1.2, dif_pos i.2.2]
    rfl
  refine ⟨Z, ⟨i.1, i.1.2, i.2, i.2.2, by rw [hZ]; exact hi⟩, fun b hb q => ?_⟩
  have hf : f z (⟨b, hb⟩, q) = 0 := by rw [LinearMap.mem_ker.mp hz]; rfl
  rw [← hf]
  show _ = ∑ i : ι, z i * w.coef (w.rowsOf x) i.1 i.2 b q
  rw [Fintype.sum_sigma, ← Finset.sum_coe_sort (regCons h)]
  refine sum_congr rfl fun c _ => ?_
  rw [← Fin.sum_univ_eq_sum_range (fun j => Z c j * w.coef (w.rowsOf x) c j b q)]
  exact sum_congr rfl fun j _ => by rw [← hZ ⟨c, j⟩]

/-- **C103.** A line or a rolling constraint without direction, as constructed, is redundant by
itself. -/
theorem C103_no_direction (hst : w.Standard h) {c : Nat} (hc : c ∈ regCons h)
    (hk : (∃ l : Line ℝ, (w.cons c).kind = .line l ∧ l.dx = 0 ∧ l.dy = 0) ∨
      ∃ l : Rolling ℝ, (w.cons c).kind = .rolling l ∧ l.dx = 0 ∧ l.dy = 0) (x : Motion) :
    w.Redundant h x := by
  obtain ⟨j, hj, hJ⟩ : ∃ j < (w.cons c).rows, ∀ k < (w.cons c).bodyCount, ∀ q : Coord,
      (w.rowsOf x c).J j (k * 3 + q.d) = 0 := by
    have h1 := hst.kind c hc
    rcases hk with ⟨l, hk, h0, h0'⟩ | ⟨l, hk, h0, h0'⟩
    · rw [hk] at h1
      simp only [CKind.counts, Option.some.injEq, Prod.mk.injEq] at h1
      refine ⟨0, by omega, fun k hk' q => ?_⟩
      obtain rfl : k = 0 := by omega
      show (w.cons c).kind.jT _ 0 _ = 0
      rw [hk]
      cases q <;> simp [CKind.jT, Coord.d, h0, h0']
    · rw [hk] at h1
      simp only [CKind.counts, Option.some.injEq, Prod.mk.injEq] at h1
      refine ⟨1, by omega, fun k hk' q => ?_⟩
      have hk2 : k = 0 ∨ k = 1 := by omega
      show (w.cons c).kind.jT _ 1 _ = 0
      rw [hk]
      rcases hk2 with rfl | rfl <;> cases q <;> simp [CKind.jT, Coord.d, h0, h0', rx, ry]
  refine ⟨fun d i => if d = c ∧ i = j then 1 else 0, ⟨c, hc, j, hj, by simp⟩, fun b _ q => ?_⟩
  refine sum_eq_zero fun d _ => sum_eq_zero fun i _ => ?_
  by_cases hd : d = c ∧ i = j
  · obtain ⟨rfl, rfl⟩ := hd
    rw [World.coef, sum_eq_zero fun k hk => by rw [hJ k (mem_range.mp hk) q, ite_self], mul_zero]
  · simp [hd]

end

/-! ## The hypotheses can be met -/

/-- A link between two bodies is not redundant: `C103_accepts` applies, and the call succeeds. -/
example (env : Env ℝ) : ∃ (h : List (Op ℝ)) (w : World ℝ), World.Hist Gen.Shipped .opt h w ∧
    w.Standard h ∧ (regCons h).Nonempty ∧ ¬ w.Redundant h w.now ∧
    ∃ w', w.process .opt env (1 / 60) 1 = .ok w' := by
  obtain ⟨h, w, w', d, hst, e⟩ := demo_pins (K := .link ⟨1, 0, 0, 2, Fp.dblMax, 10, 1⟩)
    (pins_link _) (g := .gravity 10) trivial trivial (sv := .ge) trivial (by simp)
    (dt := 1 / 60) (by norm_num) 1 env
  have hc : (regCons h).Nonempty := ⟨0, d.toDemoSys.mem0 rfl⟩
  exact ⟨h, w, d.hist, hst, hc, (C103_accepts (env := env) (fun _ => Gen.tame) d.hist hst d.sle
    hc (fun b _ => by rw [d.m, d.I]; norm_num) (by norm_num)).mp ⟨w', e⟩, w', e⟩

/-- Two links with the same bodies are redundant: `C103_refuses` and `C103_same_twice` apply. -/
example (env : Env ℝ) (steps : Int) (hs : 0 < steps) : ∃ (h : List (Op ℝ)) (w : World ℝ),
    World.Hist Gen.Shipped .opt h w ∧ w.Standard h ∧ w.Redundant h w.now ∧
    ∃ e, w.process .opt env (1 / 60) steps = .error e := by
  obtain ⟨h, w, d⟩ := demo (.link ⟨1, 0, 0, 2, Fp.dblMax, 10, 1⟩) (g := .gravity 10) trivial
    (cs := [0, 1]) (fg := [0]) (by decide) (by decide) .ge
  have hst := d.standard (.inl (by simp [CKind.counts])) trivial
  have hr : w.Redundant h w.now := C103_same_twice hst (c := 0) (c' := 1) (by rw [d.regC]; decide)
    (by rw [d.regC]; decide) (by decide) (by rw [d.kind, d.kind])
    (funext fun k => by rw [d.bodies, d.bodies]) _
  obtain ⟨e, he, _⟩ := C103_refuses (env := env) (dt := 1 / 60) (fun _ => Gen.tame) d.hist hst d.sle
    hs hr
  exact ⟨h, w, d.hist, hst, hr, e, he⟩

/-- Seven rotation frictions on two bodies are redundant with the RK4 solver, too. -/
example (env : Env ℝ) (steps : Int) (hs : 0 < steps) : ∃ (h : List (Op ℝ)) (w : World ℝ),
    World.Hist Gen.Shipped .gen h w ∧ w.Standard h ∧
    3 * (regBodies h).card < ∑ c ∈ regCons h, (w.cons c).rows ∧
    ∃ e, w.process .gen env (1 / 60) steps = .error e := by
  obtain ⟨h, w, d, hi⟩ := demo_ode (.rotationFriction ⟨-1, 1, 10, 1⟩) (g := .gravity 10) trivial
    (cs := [0, 1, 2, 3, 4, 5, 6]) (fg := [0]) (by decide) (by decide) .ge (o := .rk4 newRk4)
    (.inr (.inr rfl))
  have hst := d.standard (.inl (by simp [CKind.counts])) trivial
  have hl : 3 * (regBodies h).card < ∑ c ∈ regCons h, (w.cons c).rows := by
    rw [d.regC, d.regB, sum_congr rfl fun c _ => d.rows c]
    simp [CKind.counts]
  obtain ⟨e, he⟩ := C103_refuses_generic (env := env) (dt := 1 / 60) (fun _ => Gen.tame) d.hist hst
    d.sle d.ode (by decide) (fun _ => hi) hs (C103_too_many_rows hl _)
  exact ⟨h, w, d.hist, hst, hl, e, he⟩

/-- The generic system accepts a clutch with the Euler solver. -/
example (env : Env ℝ) : ∃ (h : List (Op ℝ)) (w : World ℝ), World.Hist Gen.Shipped .gen h w ∧
    w.Standard h ∧ (regCons h).Nonempty ∧ ¬ w.Redundant h w.now := by
  obtain ⟨h, w, w', d, hst, e⟩ := demo_gen (K := .clutch ⟨-1, 1, 10, 1⟩) (.inl (turns_clutch _))
    (g := .gravity 10) trivial trivial (sv := .ge) trivial (by simp) (o := .newEuler) (sym := false)
    rfl (1 / 60) 1 env
  have hc : (regCons h).Nonempty := ⟨0, d.toDemoSys.mem0 rfl⟩
  exact ⟨h, w, d.hist, hst, hc, (C103_accepts_generic (env := env) (fun _ => Gen.tame) d.hist hst
    d.sle d.ode (sym := false) rfl hc (fun b _ => by rw [d.m, d.I]; norm_num)).mp ⟨w', e⟩⟩

/-- A line constraint as constructed, attached to a body, makes every call fail. -/
example (env : Env ℝ) (steps : Int) (hs : 0 < steps) : ∃ (h : List (Op ℝ)) (w : World ℝ),
    World.Hist Gen.Shipped .opt h w ∧ w.Standard h ∧ (w.cons 0).kind = .line Line.default ∧
    ∃ e, w.process .opt env (1 / 60) steps = .error e := by
  obtain ⟨h, w, d⟩ := demo (.line Line.default) (g := .gravity 10) trivial
    (cs := [0]) (fg := [0]) (by decide) (by decide) .ge
  have hst := d.standard (.inl (by simp [CKind.counts])) trivial
  obtain ⟨e, he, _⟩ := C103_refuses (env := env) (dt := 1 / 60) (fun _ => Gen.tame) d.hist hst d.sle
    hs (C103_no_direction hst (d.mem0 rfl) (.inl ⟨_, d.kind 0, by simp [Line.default, Fp.lit],
      by simp [Line.default, Fp.lit]⟩) _)
  exact ⟨h, w, d.hist, hst, d.kind 0, e, he⟩

end Scs
