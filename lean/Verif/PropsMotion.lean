import Verif.PropsStep
import Verif.PropsWorld

/-!
# Properties of the motion computed by the optimized system

C53, C57, C59, C60, C61; see `PropsStep.lean` for the notions used.
-/

namespace Scs

open Finset

section
variable {G : Gen ℝ → Prop} {h : List (Op ℝ)} {w w' : World ℝ} {env : Env ℝ} {dt : ℝ} {steps : Int}

/-! ## C53 -/

/-- Constraints between two bodies. -/
def CKind.Internal : CKind ℝ → Prop
  | .link _ | .clutch _ | .simpleGear _ | .rolling _ => True
  | _ => False

/-- Force generators between two bodies. -/
def Gen.Internal : Gen ℝ → Prop
  | .spring _ | .motor _ => True
  | _ => False

theorem jT_internal {k : CKind ℝ} (hk : k.Internal) (q : Nat → ℝ) (j d : Nat) (hd : d < 2) :
    k.jT q j d + k.jT q j (3 + d) = 0 := by
  have : d = 0 ∨ d = 1 := by omega
  cases k <;> first | exact hk.elim | skip
  all_goals rcases this with rfl | rfl <;> rcases j with _ | _ | j <;> simp [CKind.jT]

theorem load_internal {g : Gen ℝ} (hg : g.Internal) {S : Finset Nat}
    (hS : g.Within (· ∈ S)) (x : Motion) (m : Nat → ℝ) {q : Coord} (hq : q ≠ .th) :
    ∑ b ∈ S, g.load (m b) x b q = 0 := by
  cases g with
  | gravity a => exact hg.elim
  | static p => exact hg.elim
  | custom f => exact hg.elim
  | motor p =>
    obtain ⟨⟨b0, h0, e0⟩, b1, h1, e1⟩ := hS
    simp only [Gen.load, e0, e1]
    refine sum_eq_zero fun b _ => ?_
    cases q <;> simp [pureTorque] at hq ⊢
  | spring p =>
    rcases hS with e | ⟨⟨b1, h1, e1⟩, e | ⟨b2, h2, e2⟩⟩
    · simp only [Gen.load, e, sum_const_zero]
    · simp only [Gen.load, e, e1, sum_const_zero]
    · simp only [Gen.load, e1, e2, sum_add_distrib, sum_ite_eq', h1, h2, if_true]
      cases q <;> simp [Motion.wrench] at hq ⊢

theorem conForce_sum (p : w.Placed) (F : Nat → Coord → Nat → Nat → ℝ) (q : Coord) :
    ∑ b ∈ w.rb.toFinset, w.conForce F b q = ∑ c ∈ w.cs.toFinset, ∑ j ∈ range (w.cons c).rows,
      ∑ k ∈ range (w.cons c).bodyCount, F c q j k := by
  simp only [World.conForce]
  rw [sum_comm]
  refine sum_congr rfl fun c hc => ?_
  rw [sum_comm]
  refine sum_congr rfl fun j _ => ?_
  rw [sum_comm]
  refine sum_congr rfl fun k hk => ?_
  rw [sum_ite_eq, if_pos]
  rw [List.mem_toFinset]
  exact (p.bodies c (List.mem_toFinset.mp hc) k (mem_range.mp hk)).2

theorem conForce_internal (p : w.Placed) (hp : w.Proper)
    (hk : ∀ c ∈ w.cs, (w.cons c).kind.Internal) (x : Motion) (mult : Nat → Nat → ℝ) {q : Coord}
    (hq : q ≠ .th) : ∑ b ∈ w.rb.toFinset, w.conForce (w.reaction x mult) b q = 0 := by
  rw [conForce_sum p]
  refine sum_eq_zero fun c hc => sum_eq_zero fun j _ => ?_
  rw [List.mem_toFinset] at hc
  have hki := hk c hc
  have hn : (w.cons c).bodyCount = 2 := by
    have h1 := hp c hc
    revert h1 hki
    cases (w.cons c).kind <;> simp [CKind.Internal, CKind.counts] <;> omega
  have hd : q.d < 2 := by cases q <;> simp [Coord.d] at hq ⊢
  rw [hn, sum_range_succ, sum_range_one]
  simp only [World.reaction, World.rowsOf]
  have := jT_internal hki (x.q w c) j q.d hd
  rw [Nat.zero_mul, Nat.zero_add, Nat.one_mul, ← mul_add, this, mul_zero]

theorem momentum_step (p : w.Placed) (hp : w.Proper) (hd : w.Driven)
    (hk : ∀ c ∈ w.cs, (w.cons c).kind.Internal) (hg : ∀ g ∈ w.fg, (w.gens g).Internal)
    (hm : ∀ b ∈ w.rb, ∀ q : Coord, (w.bodies b).mass q ≠ 0)
    {s : ℝ} {x x' : Motion} {mult : Nat → Nat → ℝ} (st : w.Move s x x' mult) {q : Coord}
    (hq : q ≠ .th) : ∑ b ∈ w.rb.toFinset, (w.bodies b).m * x'.vel b q =
      ∑ b ∈ w.rb.toFinset, (w.bodies b).m * x.vel b q := by
  have hmass : ∀ b, (w.bodies b).mass q = (w.bodies b).m := fun b => by
    cases q <;> first | rfl | exact absurd rfl hq
  have e1 : ∀ b ∈ w.rb.toFinset, (w.bodies b).m * x'.vel b q = (w.bodies b).m * x.vel b q +
      s * (w.load x b q + w.conForce (w.reaction x mult) b q) := by
    intro b hb
    rw [List.mem_toFinset] at hb
    have hm' := hm b hb q
    rw [st.vel b hb q, st.acc b hb q]
    rw [hmass] at hm' ⊢
    field_simp
  have e2 : ∑ b ∈ w.rb.toFinset, w.load x b q = 0 := by
    simp only [World.load]
    rw [sum_comm]
    refine sum_eq_zero fun g hgm => ?_
    rw [List.mem_toFinset] at hgm
    exact load_internal (hg g hgm) ((hd.2 g hgm).mono fun b hb => List.mem_toFinset.mpr hb) x
      (fun b => (w.bodies b).m) hq
  rw [sum_congr rfl e1, sum_add_distrib, ← mul_sum, sum_add_distrib, e2,
    conForce_internal p hp hk x mult hq]
  ring

/-- **C53**: when all constraints are links, clutches, gears or rolling contacts and all force
generators are springs and motors, `process` leaves the total linear momentum unchanged, for every
solver, `dt` and number of steps. -/
theorem C53_momentum (hG : ∀ g, G g → g.OnlyForces) (hw : World.Hist G .opt h w)
    (hst : w.Standard h) (hk : ∀ c ∈ regCons h, (w.cons c).kind.Internal)
    (hg : ∀ g ∈ regGens h, (w.gens g).Internal) (e : w.process .opt env dt steps = .ok w') :
    ∑ b ∈ regBodies h, (w'.bodies b).m * (w'.bodies b).v_x =
        ∑ b ∈ regBodies h, (w.bodies b).m * (w.bodies b).v_x ∧
      ∑ b ∈ regBodies h, (w'.bodies b).m * (w'.bodies b).v_y =
        ∑ b ∈ regBodies h, (w.bodies b).m * (w.bodies b).v_y := by
  obtain ⟨X, mult, h0, hm⟩ := hw.moved hG hst e
  have p := (hw.ready hG hst.wired).2
  have key : ∀ q : Coord, q ≠ .th → ∀ n, n ≤ steps.toNat →
      ∑ b ∈ w.rb.toFinset, (w.bodies b).m * (X n).vel b q =
        ∑ b ∈ w.rb.toFinset, (w.bodies b).m * (X 0).vel b q := by
    intro q hq n
    induction n with
    | zero => intro _; rfl
    | succ n ih =>
      intro hn
      rw [← ih (by omega)]
      exact momentum_step p (hst.proper hw.regs) (hst.driven hw.regs)
        (fun c hc => hk c ((hw.regs.cons.mem c).mp hc))
        (fun g hgm => hg g ((hw.regs.gens.mem g).mp hgm)) hm.mass (hm.step n (by omega)) hq
  have hmv := ((optProcess_wp w env dt steps hw.regs.nsv).of_eq e).1.moves
  have fin : ∀ q : Coord, q ≠ .th → ∑ b ∈ regBodies h, (w'.bodies b).m * (w'.bodies b).vel q =
      ∑ b ∈ regBodies h, (w.bodies b).m * (w.bodies b).vel q := by
    intro q hq
    have := key q hq _ (Nat.le_refl _)
    rw [h0, hw.regs.rb_finset] at this
    refine Eq.trans (sum_congr rfl fun b hb => ?_) this
    rw [hmv.mass, (hm.last b ((hw.regs.bodies.mem b).mpr hb) q).2]
  exact ⟨fin .x (by simp), fin .y (by simp)⟩

/-- The claim applied to two bodies with a link and a spring between them. -/
example (env : Env ℝ) : ∃ (h : List (Op ℝ)) (w w' : World ℝ), World.Hist Gen.Shipped .opt h w ∧
    w.process .opt env 2 4 = .ok w' ∧
    ∑ b ∈ {0, 1}, (w'.bodies b).m * (w'.bodies b).v_x =
      ∑ b ∈ {0, 1}, (w.bodies b).m * (w.bodies b).v_x := by
  have hgw : Gen.Within (.spring ⟨1, 2, 3, 4, 5, 6, 7, .obj 0, .obj 1⟩)
      (· ∈ ({0, 1} : Finset Nat)) :=
    .inr ⟨⟨0, by decide, rfl⟩, .inr ⟨1, by decide, rfl⟩⟩
  obtain ⟨h, w, w', d, hst, e⟩ := demo_pins (pins_link ⟨1, 3, 4, 7, 9, 0, 0⟩)
    (g := .spring ⟨1, 2, 3, 4, 5, 6, 7, .obj 0, .obj 1⟩) trivial hgw
    (sv := .cg 2 0 0) (le_refl 2) (by simp) (two_ne_zero) 4 env
  have q := C53_momentum (fun g => Gen.tame) d.hist hst (fun c _ => by rw [d.kind c]; trivial)
    (fun i _ => by rw [d.gens i]; trivial) e
  rw [d.regB] at q
  exact ⟨h, w, w', d.hist, e, q.1⟩

/-! ## C59 -/

/-- Only actions other than `process` lie between the two worlds. -/
inductive World.Quiet (G : Gen ℝ → Prop) : List (Op ℝ) → World ℝ → List (Op ℝ) → World ℝ → Prop where
  | refl (h : List (Op ℝ)) (w : World ℝ) : Quiet G h w h w
  | step {h h' : List (Op ℝ)} {w w' w'' : World ℝ} (op : Op ℝ) (q : Quiet G h w h' w')
      (ho : ∀ env dt steps, op ≠ .process env dt steps) (hv : op.Valid G h')
      (e : op.run .opt w' = .ok w'') : Quiet G h w (op :: h') w''

theorem run_mem {op : Op ℝ} (ho : ∀ env dt steps, op ≠ .process env dt steps)
    (e : op.run .opt w = .ok w') : w'.mem = w.mem := by
  cases op with
  | process env dt steps => exact absurd rfl (ho env dt steps)
  | removeBody b =>
    simp only [Op.run, World.removeBody] at e
    cases hu : unregister w.rb (w.bodies b).index with
    | error _ => rw [hu] at e; cases e
    | ok q => rw [hu] at e; cases e; rfl
  | removeCon b =>
    simp only [Op.run, World.removeCon] at e
    cases hu : unregister w.cs (w.cons b).index with
    | error _ => rw [hu] at e; cases e
    | ok q => rw [hu] at e; cases e; rfl
  | removeGen b =>
    simp only [Op.run, World.removeGen] at e
    cases hi : initd (w.genIndex b) with
    | error _ => rw [hi] at e; cases e
    | ok i =>
      rw [hi, ok_bind] at e
      cases hu : unregister w.fg i with
      | error _ => rw [hu] at e; cases e
      | ok q => rw [hu] at e; cases e; rfl
  | _ => cases e; rfl

theorem World.Quiet.mem {h' : List (Op ℝ)} (q : World.Quiet G h w h' w') : w'.mem = w.mem := by
  induction q with
  | refl => rfl
  | step op q ho hv e ih => rw [run_mem ho e, ih]

theorem World.Quiet.hist {h' : List (Op ℝ)} (q : World.Quiet G h w h' w')
    (hw : World.Hist G .opt h w) : World.Hist G .opt h' w' := by
  induction q with
  | refl => exact hw
  | step op q ho hv e ih => exact (ih hw).step op hv e

theorem World.Hist.unprocessed (hw : World.Hist G .opt h w) (hp : processedDts h = []) :
    (w.mem.mat .ivLambda).height = 0 ∧ (w.mem.mat .ivLambda).width = 0 := by
  induction hw with
  | start => exact ⟨rfl, rfl⟩
  | step op hw hv e ih =>
    have ho : ∀ env dt steps, op ≠ .process env dt steps := by
      rintro env dt steps rfl
      cases hp
    rw [run_mem ho e]
    refine ih ?_
    cases op <;> first | exact hp | exact absurd rfl (ho _ _ _)

/-- A system without constraints and force generators. -/
theorem Standard_of_empty (hc : regCons h = ∅) (hg : regGens h = ∅) : w.Standard h where
  kind := fun c hc' => by rw [hc] at hc'; simp at hc'
  bodies := fun c hc' => by rw [hc] at hc'; simp at hc'
  gens := fun g hg' => by rw [hg] at hg'; simp at hg'
  near := fun c hc' => by rw [hc] at hc'; simp at hc'

/-- **C59**: without constraints and force generators a successful `process(dt, steps)` leaves the
velocities unchanged and moves every body by `dt` times its velocity, for every number of steps, any
solver and any history. -/
theorem C59_free_motion_partial (hG : ∀ g, G g → g.OnlyForces) (hw : World.Hist G .opt h w)
    (hc : regCons h = ∅) (hg : regGens h = ∅) (hs : 0 < steps)
    (e : w.process .opt env dt steps = .ok w') {b : Nat} (hb : b ∈ regBodies h) (q : Coord) :
    (w'.bodies b).vel q = (w.bodies b).vel q ∧
      (w'.bodies b).pos q = (w.bodies b).pos q + dt * (w.bodies b).vel q := by
  have hst : w.Standard h := Standard_of_empty hc hg
  obtain ⟨X, mult, h0, hm⟩ := hw.moved hG hst e
  have hb' := (hw.regs.bodies.mem b).mpr hb
  have hcs := hw.regs.cs_nil.mpr hc
  have hfg : w.fg = [] := by
    rw [← List.toFinset_eq_empty_iff, hw.regs.fg_finset, hg]
  have key : ∀ n, n ≤ steps.toNat → (X n).vel b q = (w.bodies b).vel q ∧
      (X n).pos b q = (w.bodies b).pos q + n * (dt / steps) * (w.bodies b).vel q := by
    intro n
    induction n with
    | zero => intro _; rw [h0]; exact ⟨rfl, by simp [World.now]⟩
    | succ n ih =>
      intro hn
      obtain ⟨i1, i2⟩ := ih (by omega)
      have s := hm.step n (by omega)
      have ha : (X (n + 1)).acc b q = 0 := by
        rw [s.acc b hb' q, World.load, World.conForce, hcs, hfg]
        simp
      have hv : (X (n + 1)).vel b q = (w.bodies b).vel q := by
        rw [s.vel b hb' q, ha, i1]; ring
      refine ⟨hv, ?_⟩
      rw [s.pos b hb' q, hv, i2]
      push_cast
      ring
  obtain ⟨k1, k2⟩ := key _ (Nat.le_refl _)
  obtain ⟨l1, l2⟩ := hm.last b hb' q
  rw [← l1, ← l2, k1, k2]
  refine ⟨rfl, ?_⟩
  have hs' : (steps : ℝ) ≠ 0 := by exact_mod_cast hs.ne'
  have : ((steps.toNat : Nat) : ℝ) = (steps : ℝ) := by
    have : ((steps.toNat : Nat) : Int) = steps := Int.toNat_of_nonneg hs.le
    exact_mod_cast this
  rw [this]
  field_simp

/-- A system without constraints is processed successfully if the solver copes with zero rows. -/
theorem World.Hist.empty_goes (hG : ∀ g, G g → g.OnlyForces) (hw : World.Hist G .opt h w)
    (hst : w.Standard h) (hc : regCons h = ∅)
    (hm : ∀ b ∈ regBodies h, (w.bodies b).m ≠ 0 ∧ (w.bodies b).I ≠ 0) (hdt : dt ≠ 0) {sv : Solver ℝ}
    (hsle : w.sle = some sv) (he : sv.Easy0 (w.mem.mat .ivLambda)) (env : Env ℝ) :
    ∃ w', w.process .opt env dt steps = .ok w' := by
  refine World.Hist.goes hG hw hst (fun b hb q => ?_) hdt (by rw [hsle]; simp) (fun _ _ => True)
    (fun _ _ _ => trivial) (fun _ _ _ _ _ _ _ => trivial)
    (fun _ _ _ _ hne => absurd (hw.regs.cs_nil.mpr hc) hne) (fun _ sv' e => ?_) env
  · have := hm b ((hw.regs.bodies.mem b).mp hb)
    cases q
    · exact this.1
    · exact this.1
    · exact this.2
  · rw [hsle] at e
    cases e
    exact he

/-- **C59**: with Gaussian elimination, a system that has not been processed before and has no
constraints is processed successfully. -/
theorem C59_ge_succeeds (hG : ∀ g, G g → g.OnlyForces) (hw : World.Hist G .opt h w)
    (hst : w.Standard h) (hc : regCons h = ∅)
    (hm : ∀ b ∈ regBodies h, (w.bodies b).m ≠ 0 ∧ (w.bodies b).I ≠ 0) (hdt : dt ≠ 0)
    (hsle : w.sle = some .ge) (hp : processedDts h = []) (env : Env ℝ) :
    ∃ w', w.process .opt env dt steps = .ok w' :=
  hw.empty_goes hG hst hc hm hdt hsle (hw.unprocessed hp).1 env

/-- The claims applied: two free bodies move on with their velocities. -/
example (env : Env ℝ) : ∃ (h : List (Op ℝ)) (w w' : World ℝ), World.Hist Gen.Shipped .opt h w ∧
    regBodies h = {0, 1} ∧ w.process .opt env 2 4 = .ok w' ∧
    ∀ q : Coord, (w'.bodies 0).pos q = (w.bodies 0).pos q + 2 * (w.bodies 0).vel q := by
  obtain ⟨h, w, d⟩ := demo .base (g := .gravity 9) trivial (cs := []) (fg := []) (by decide)
    (by decide) .ge
  have hst := d.standard (.inr rfl) trivial
  have hc : regCons h = ∅ := by rw [d.regC]; rfl
  obtain ⟨w', e⟩ := C59_ge_succeeds (fun g => Gen.tame) d.hist hst hc d.masses
    (two_ne_zero (α := ℝ)) d.sle d.new env (steps := 4)
  exact ⟨h, w, w', d.hist, d.regB, e, fun q => (C59_free_motion_partial (fun g => Gen.tame) d.hist
    hc (by rw [d.regG]; rfl) (by norm_num) e d.bodies_mem.1 q).2⟩

/-- **C59**: after one successful call without constraints, Gaussian elimination succeeds in all
later ones. -/
theorem C59_ge_again (hG : ∀ g, G g → g.OnlyForces) (hw : World.Hist G .opt h w)
    (hst : w.Standard h) (hc : regCons h = ∅) (hs : 0 < steps)
    (e : w.process .opt env dt steps = .ok w') (hsle : w.sle = some .ge) {dt' : ℝ} (hdt : dt' ≠ 0)
    (env' : Env ℝ) (steps' : Int) : ∃ w'', w'.process .opt env' dt' steps' = .ok w'' := by
  have hw' : World.Hist G .opt (.process env dt steps :: h) w' := hw.step _ trivial e
  have hmv := ((optProcess_wp w env dt steps hw.regs.nsv).of_eq e).1.moves
  obtain ⟨X, mult, h0, hm⟩ := hw.moved hG hst e
  have k := hw.kept hG hst.wired e hs hsle
  have hf : w.fullCount = 0 := by rw [World.fullCount, hw.regs.cs_nil.mpr hc]; rfl
  refine hw'.empty_goes hG ⟨?_, ?_, ?_, ?_⟩ hc (fun b hb => ?_) hdt (hmv.sle.trans hsle)
    (k.height.trans hf) env'
  · intro c hc'; exact absurd (hc ▸ hc' : c ∈ (∅ : Finset Nat)) (by simp)
  · intro c hc'; exact absurd (hc ▸ hc' : c ∈ (∅ : Finset Nat)) (by simp)
  · intro g hg
    rw [hmv.gens]
    exact hst.gens g hg
  · intro c hc'; exact absurd (hc ▸ hc' : c ∈ (∅ : Finset Nat)) (by simp)
  · have hb' := (hw.regs.bodies.mem b).mpr hb
    rw [hmv.mass, hmv.inertia]
    exact ⟨hm.mass b hb' .x, hm.mass b hb' .th⟩

/-- The hypotheses can be met: the free bodies are processed twice. -/
example (env env' : Env ℝ) : ∃ (h : List (Op ℝ)) (w w' w'' : World ℝ),
    World.Hist Gen.Shipped .opt h w ∧ regBodies h = {0, 1} ∧ w.process .opt env 2 4 = .ok w' ∧
    w'.process .opt env' 2 4 = .ok w'' := by
  obtain ⟨h, w, d⟩ := demo .base (g := .gravity 9) trivial (cs := []) (fg := [0]) (by decide)
    (by decide) .ge
  have hst := d.standard (.inr rfl) trivial
  have hc : regCons h = ∅ := by rw [d.regC]; rfl
  obtain ⟨w', e⟩ := C59_ge_succeeds (fun g => Gen.tame) d.hist hst hc d.masses
    (two_ne_zero (α := ℝ)) d.sle d.new env (steps := 4)
  obtain ⟨w'', e'⟩ := C59_ge_again (fun g => Gen.tame) d.hist hst hc (by norm_num) e d.sle
    (two_ne_zero (α := ℝ)) env' 4
  exact ⟨h, w, w', w'', d.hist, d.regB, e, e'⟩

/-- **C59 is violated** by the conjugate gradient solver: a system without constraints that has not
been processed before cannot be processed. -/
theorem C59_cg_fails (hG : ∀ g, G g → g.OnlyForces) (hw : World.Hist G .opt h w)
    (hst : w.Standard h) (hc : regCons h = ∅) (hp : processedDts h = []) {m : Nat} {e1 e2 : ℝ}
    (hsle : w.sle = some (.cg m e1 e2)) (hs : 0 < steps) : w.process .opt env dt steps ≠ .ok w' := by
  intro e
  have k := hw.kept hG hst.wired e hs hsle
  have hf : w.fullCount = 0 := by rw [World.fullCount, hw.regs.cs_nil.mpr hc]; rfl
  obtain ⟨u1, u2⟩ := hw.unprocessed hp
  have : (w.mem.mat .ivLambda).width = 1 := k.need hf u1
  omega

/-- A system of two free bodies that cannot be processed. -/
example (env : Env ℝ) : ∃ (h : List (Op ℝ)) (w : World ℝ), World.Hist Gen.Shipped .opt h w ∧
    regBodies h = {0, 1} ∧ w.sle = some (.cg 10 1 1) ∧
    ∀ w', w.process .opt env 2 4 ≠ .ok w' := by
  obtain ⟨h, w, d⟩ := demo .base (g := .gravity 9) trivial (cs := []) (fg := []) (by decide)
    (by decide) (.cg 10 1 1)
  have hst := d.standard (.inr rfl) trivial
  exact ⟨h, w, d.hist, d.regB, d.sle, fun w' => C59_cg_fails (fun g => Gen.tame) d.hist hst
    (by rw [d.regC]; rfl) d.new d.sle (by norm_num)⟩

/-! ## C57 -/

/-- **C57** for Gauss-Seidel: whatever happened before, a system without constraints is processed
successfully. -/
theorem C57_gauss_seidel_partial (hG : ∀ g, G g → g.OnlyForces) (hw : World.Hist G .opt h w)
    (hst : w.Standard h) (hc : regCons h = ∅)
    (hm : ∀ b ∈ regBodies h, (w.bodies b).m ≠ 0 ∧ (w.bodies b).I ≠ 0) (hdt : dt ≠ 0) {m : Nat}
    {ε : ℝ} (hsle : w.sle = some (.gs m ε)) (hε : 0 < ε) (h1 : 1 ≤ m) (env : Env ℝ) (steps : Int) :
    ∃ w', w.process .opt env dt steps = .ok w' :=
  hw.empty_goes hG hst hc hm hdt hsle ⟨hε, h1⟩ env

/-- The claim applied to two bodies under gravity. -/
example (env : Env ℝ) : ∃ (h : List (Op ℝ)) (w w' : World ℝ), World.Hist Gen.Shipped .opt h w ∧
    regBodies h = {0, 1} ∧ w.process .opt env 2 4 = .ok w' := by
  obtain ⟨h, w, d⟩ := demo .base (g := .gravity 9) trivial (cs := []) (fg := [0]) (by decide)
    (by decide) (.gs 1 1)
  obtain ⟨w', e⟩ := C57_gauss_seidel_partial (fun g => Gen.tame) d.hist
    (d.standard (.inr rfl) trivial) (by rw [d.regC]; rfl) d.masses (two_ne_zero (α := ℝ)) d.sle
    one_pos (le_refl 1) env 4
  exact ⟨h, w, w', d.hist, d.regB, e⟩

/-- What a successful call with at least one constraint leaves behind. -/
theorem World.Hist.lambda_height (hG : ∀ g, G g → g.OnlyForces) (hw : World.Hist G .opt h w)
    (hwd : w.Wired h) (hne : regCons h ≠ ∅) (hs : 0 < steps) {sv : Solver ℝ}
    (hsle : w.sle = some sv) (e : w.process .opt env dt steps = .ok w') :
    (w'.mem.mat .ivLambda).height ≠ 0 := by
  rw [(hw.kept hG hwd e hs hsle).height]
  have := ((hw.ready hG hwd).1).fit.con
  intro h0
  rw [h0, Nat.le_zero, World.conCount, List.length_eq_zero_iff, hw.regs.cs_nil] at this
  exact hne this

/-- **C57** for the conjugate gradient solver: after a successful call with constraints, a system
whose constraints have all been removed is processed successfully. -/
theorem C57_conjugate_gradient_partial (hG : ∀ g, G g → g.OnlyForces) (hw : World.Hist G .opt h w)
    (hwd : w.Wired h) (hne : regCons h ≠ ∅) (hs : 0 < steps) {sv : Solver ℝ}
    (hsle : w.sle = some sv) (e : w.process .opt env dt steps = .ok w') {h2 : List (Op ℝ)}
    {w2 : World ℝ} (hq : World.Quiet G (.process env dt steps :: h) w' h2 w2)
    (hst : w2.Standard h2) (hc : regCons h2 = ∅)
    (hm : ∀ b ∈ regBodies h2, (w2.bodies b).m ≠ 0 ∧ (w2.bodies b).I ≠ 0) {dt2 : ℝ} (hdt : dt2 ≠ 0)
    {m : Nat} {e1 e2 : ℝ} (hsle2 : w2.sle = some (.cg m e1 e2)) (env2 : Env ℝ) (steps2 : Int) :
    ∃ w3, w2.process .opt env2 dt2 steps2 = .ok w3 := by
  have hw' : World.Hist G .opt (.process env dt steps :: h) w' := hw.step _ trivial e
  refine (hq.hist hw').empty_goes hG hst hc hm hdt hsle2 (fun h0 => ?_) env2
  rw [hq.mem] at h0
  exact absurd h0 (hw.lambda_height hG hwd hne hs hsle e)

/-- After a frame of the demonstration system its constraint can be removed. -/
theorem Demo.remove {K : CKind ℝ} {g : Gen ℝ} {sv : Solver ℝ} (d : Demo K g [0] [0] sv h w)
    (hg : g.Within (· ∈ ({0, 1} : Finset Nat))) (e : w.process .opt env dt steps = .ok w') :
    ∃ w2, World.Quiet Gen.Shipped (.process env dt steps :: h) w'
        (.removeCon 0 :: .process env dt steps :: h) w2 ∧ w2.bodies = w'.bodies ∧
      w2.Standard (.removeCon 0 :: .process env dt steps :: h) ∧
      regCons (.removeCon 0 :: .process env dt steps :: h) = ∅ ∧ w2.sle = some sv ∧
      w2.gens = w.gens ∧ w2.bias = w.bias ∧
      ∀ b ∈ regBodies (.removeCon 0 :: .process env dt steps :: h),
        (w2.bodies b).m ≠ 0 ∧ (w2.bodies b).I ≠ 0 := by
  have hw' : World.Hist Gen.Shipped .opt (.process env dt steps :: h) w' :=
    d.hist.step (.process env dt steps) trivial e
  have hm := C56_process_only_moves d.hist e
  have hv : (Op.removeCon 0).Valid Gen.Shipped (.process env dt steps :: h) := d.mem0 rfl
  obtain ⟨w2, e2, hw2⟩ := C46_actions_succeed hw' (op := .removeCon 0) trivial hv
  have e3 : w2.bodies = w'.bodies ∧ w2.sle = w'.sle ∧ w2.gens = w'.gens ∧ w2.bias = w'.bias := by
    simp only [Op.run, World.removeCon] at e2
    cases hu : unregister w'.cs (w'.cons 0).index with
    | error x => rw [hu] at e2; cases e2
    | ok q => rw [hu] at e2; cases e2; exact ⟨rfl, rfl, rfl, rfl⟩
  have hc : regCons (.removeCon 0 :: .process env dt steps :: h) = ∅ := by
    show (regCons h).erase 0 = ∅
    rw [d.regC]
    rfl
  have hb : regBodies (.removeCon 0 :: .process env dt steps :: h) = {0, 1} := d.regB
  refine ⟨w2, (World.Quiet.refl _ _).step _ (fun _ _ _ h => by cases h) hv e2, e3.1, ⟨?_, ?_, ?_, ?_⟩,
    hc, ?_, ?_, ?_, fun b _ => ?_⟩
  · intro c h; rw [hc] at h; simp at h
  · intro c h; rw [hc] at h; simp at h
  · intro i _
    rw [e3.2.2.1, hm.gens, d.gens i, hb]
    exact hg
  · intro c h; rw [hc] at h; simp at h
  · rw [e3.2.1, hm.sle, d.sle]
  · rw [e3.2.2.1, hm.gens]
  · rw [e3.2.2.2, hm.bias]
  · rw [e3.1, hm.mass, hm.inertia, d.m, d.I]
    exact ⟨one_ne_zero, one_ne_zero⟩

/-- The claim applied: a system with a clutch is processed, the clutch is removed, and the system is
processed again. -/
example (env env2 : Env ℝ) : ∃ (h h2 : List (Op ℝ)) (w w' w2 w3 : World ℝ),
    World.Hist Gen.Shipped .opt h w ∧ regBodies h2 = {0, 1} ∧ w.process .opt env 2 4 = .ok w' ∧
    World.Quiet Gen.Shipped (.process env 2 4 :: h) w' h2 w2 ∧
    w2.process .opt env2 2 4 = .ok w3 := by
  obtain ⟨h, w, w', d, hst, e⟩ := demo_turns (turns_clutch ⟨-1, 1, 0, 0⟩) (g := .gravity 9)
    trivial trivial (sv := .cg 2 1 0) (le_refl 2) (two_ne_zero) 4 env
  obtain ⟨w2, q, _, hst2, hc, hs, _, _, hm⟩ := d.remove trivial e
  obtain ⟨w3, e3⟩ := C57_conjugate_gradient_partial (fun g => Gen.tame) d.hist hst.wired
    (ne_empty_of_mem (d.mem0 rfl)) (by norm_num) d.sle e q hst2 hc hm (two_ne_zero (α := ℝ)) hs env2 4
  exact ⟨h, .removeCon 0 :: .process env 2 4 :: h, w, w', w2, w3, d.hist, d.regB, e, q, e3⟩

/-- **C57 is violated** by Gaussian elimination: after a successful call with at least one
constraint (and any solver), a system whose constraints have all been removed can no longer be
processed. -/
theorem C57_gaussian_fails (hG : ∀ g, G g → g.OnlyForces) (hw : World.Hist G .opt h w)
    (hwd : w.Wired h) (hne : regCons h ≠ ∅) (hs : 0 < steps) {sv : Solver ℝ}
    (hsle : w.sle = some sv) (e : w.process .opt env dt steps = .ok w') {h2 : List (Op ℝ)}
    {w2 w3 : World ℝ} (hq : World.Quiet G (.process env dt steps :: h) w' h2 w2)
    (hwd2 : w2.Wired h2) (hc : regCons h2 = ∅) (hsle2 : w2.sle = some .ge) {env2 : Env ℝ} {dt2 : ℝ}
    {steps2 : Int} (hs2 : 0 < steps2) : w2.process .opt env2 dt2 steps2 ≠ .ok w3 := by
  intro e2
  have hw' : World.Hist G .opt (.process env dt steps :: h) w' := hw.step _ trivial e
  have hw2 := hq.hist hw'
  have k := hw2.kept hG hwd2 e2 hs2 hsle2
  have hf : w2.fullCount = 0 := by rw [World.fullCount, hw2.regs.cs_nil.mpr hc]; rfl
  have : (w2.mem.mat .ivLambda).height = 0 := k.need hf
  rw [hq.mem] at this
  exact hw.lambda_height hG hwd hne hs hsle e this

/-- A system that can no longer be processed after its clutch has been removed. -/
example (env env2 : Env ℝ) : ∃ (h h2 : List (Op ℝ)) (w w' w2 : World ℝ),
    World.Hist Gen.Shipped .opt h w ∧ regBodies h2 = {0, 1} ∧ w.process .opt env 2 4 = .ok w' ∧
    World.Quiet Gen.Shipped (.process env 2 4 :: h) w' h2 w2 ∧
    ∀ w3, w2.process .opt env2 2 4 ≠ .ok w3 := by
  obtain ⟨h, w, w', d, hst, e⟩ := demo_turns (turns_clutch ⟨-1, 1, 0, 0⟩) (g := .gravity 9)
    trivial trivial (sv := .ge) trivial (two_ne_zero) 4 env
  obtain ⟨w2, q, _, hst2, hc, hs, _⟩ := d.remove trivial e
  exact ⟨h, .removeCon 0 :: .process env 2 4 :: h, w, w', w2, d.hist, d.regB, e, q, fun w3 => C57_gaussian_fails (fun g => Gen.tame)
    d.hist hst.wired (ne_empty_of_mem (d.mem0 rfl)) (by norm_num) d.sle e q hst2.wired hc hs
    (by norm_num)⟩

/-! ## C61 -/

/-- **C61** with Gauss-Seidel: a gear in neutral reports no force and no torque on its bodies (and
by C51 these are the forces it exerts). -/
theorem C61_gauss_seidel_partial (hG : ∀ g, G g → g.OnlyForces) (hw : World.Hist G .opt h w)
    (hst : w.Standard h) {m : Nat} {ε : ℝ} (hsle : w.sle = some (.gs m ε)) (hdt : 0 < dt)
    (hs : 0 < steps) (e : w.process .opt env dt steps = .ok w') {c : Nat} (hc : c ∈ regCons h)
    {l : SimpleGear ℝ} (hk : (w.cons c).kind = .simpleGear l) (hn : l.neutral = true) (q : Coord)
    {k : Nat} (hk2 : k < 2) : (w'.cons c).F q 0 k = 0 := by
  have hcount := hst.kind c hc
  simp only [hk, CKind.counts, Option.some.injEq, Prod.mk.injEq] at hcount
  obtain ⟨x, _, hx⟩ := C50_limits hG hw hst hsle hdt hs e
  obtain ⟨μ, l1, l2, hF⟩ := hx c hc 0 (by omega) (by
    rw [hk]; simp [CKind.loT, CKind.hiT, hn])
  rw [hk] at l1 l2
  simp only [CKind.loT, CKind.hiT, hn, if_true] at l1 l2
  rw [hF q k (by omega), le_antisymm l2 l1, zero_mul]

/-- The claim applied to a gear in neutral between bodies of unrelated speeds. -/
example (env : Env ℝ) : ∃ (h : List (Op ℝ)) (w w' : World ℝ), World.Hist Gen.Shipped .opt h w ∧
    (w.bodies 0).v_theta = 5 ∧ (w.bodies 1).v_theta = 0 ∧ w.process .opt env 2 4 = .ok w' ∧
    (w'.cons 0).F .th 0 0 = 0 ∧ (w'.cons 0).F .th 0 1 = 0 := by
  obtain ⟨h, w, w', d, hst, e⟩ := demo_turns (turns_gear ⟨3, true, 0, 0⟩) (g := .gravity 9)
    trivial trivial (sv := .gs 3 1) ⟨by omega, one_pos⟩ (two_ne_zero) 4 env
  have q : ∀ k, k < 2 → (w'.cons 0).F .th 0 k = 0 := fun k hk =>
    C61_gauss_seidel_partial (fun g => Gen.tame) d.hist hst d.sle two_pos (by norm_num) e
      (d.mem0 rfl) (d.kind 0) rfl .th hk
  exact ⟨h, w, w', d.hist, d.vel 0 .th, d.vel 1 .th, e, q 0 (by omega), q 1 (by omega)⟩

/-- Bodies `b1` and `b2` of a gear `c` are in no other constraint. -/
def World.OnlyGear (w : World ℝ) (h : List (Op ℝ)) (c b1 b2 : Nat) : Prop :=
  ∀ c' ∈ regCons h, c' ≠ c → ∀ k, k < (w.cons c').bodyCount →
    (w.cons c').bodies k ≠ .obj b1 ∧ (w.cons c').bodies k ≠ .obj b2

theorem conForce_gear (p : w.Placed) (r : w.Regs .opt h) {c b1 b2 b : Nat}
    (ho : w.OnlyGear h c b1 b2) (hb : b = b1 ∨ b = b2) {F : Nat → Coord → Nat → Nat → ℝ}
    (hF : ∀ j k, j < (w.cons c).rows → k < (w.cons c).bodyCount → F c .th j k = 0) :
    w.conForce F b .th = 0 := by
  refine sum_eq_zero fun c' hc' => sum_eq_zero fun j hj => sum_eq_zero fun k hk => ?_
  rw [List.mem_toFinset] at hc'
  by_cases hcc : c' = c
  · subst hcc
    rw [hF j k (mem_range.mp hj) (mem_range.mp hk), ite_self]
  · rw [if_neg]
    intro e
    have h1 := (p.bodies c' hc' k (mem_range.mp hk)).1
    have h2 := ho c' ((r.cons.mem c').mp hc') hcc k (mem_range.mp hk)
    rw [e] at h1
    rcases hb with rfl | rfl
    · exact h2.1 h1
    · exact h2.2 h1

/-- **C61 is violated** by Gaussian elimination: a gear in neutral between two bodies that are in no
other constraint and feel no external torque exerts a torque whenever `ω₁ ≠ ratio * ω₂`. -/
theorem C61_gaussian_transmits (hG : ∀ g, G g → g.OnlyForces) (hw : World.Hist G .opt h w)
    (hst : w.Standard h) (hsle : w.sle = some .ge) (e : w.process .opt env dt 1 = .ok w')
    {c b1 b2 : Nat} (hc : c ∈ regCons h) {l : SimpleGear ℝ} (hk : (w.cons c).kind = .simpleGear l)
    (h1 : (w.cons c).bodies 0 = .obj b1) (h2 : (w.cons c).bodies 1 = .obj b2)
    (ho : w.OnlyGear h c b1 b2) (l1 : w.load w.now b1 .th = 0) (l2 : w.load w.now b2 .th = 0)
    (hω : (w.bodies b1).v_theta ≠ l.ratio * (w.bodies b2).v_theta) :
    (w'.cons c).F_t 0 0 ≠ 0 ∨ (w'.cons c).F_t 0 1 ≠ 0 := by
  have hcount := hst.kind c hc
  simp only [hk, CKind.counts, Option.some.injEq, Prod.mk.injEq] at hcount
  by_contra hn
  push Not at hn
  have p := (hw.ready hG hst.wired).2
  have hF : ∀ j k, j < (w.cons c).rows → k < (w.cons c).bodyCount →
      (w'.cons c).F .th j k = 0 := by
    intro j k hj hk'
    have : j = 0 := by omega
    subst this
    have : k = 0 ∨ k = 1 := by omega
    rcases this with rfl | rfl
    · exact hn.1
    · exact hn.2
  have mem : ∀ k b, k < 2 → (w.cons c).bodies k = .obj b → b ∈ regBodies h := by
    intro k b hk2 hb
    obtain ⟨b', hb', e'⟩ := hst.bodies c hc k (by omega)
    rw [hb] at e'
    cases e'
    exact hb'
  have v1 := (C49_one_step hG hw hst.wired hst.gens e (mem 0 b1 (by decide) h1) .th).1
  have v2 := (C49_one_step hG hw hst.wired hst.gens e (mem 1 b2 (by decide) h2) .th).1
  rw [l1, conForce_gear p hw.regs ho (Or.inl rfl) hF] at v1
  rw [l2, conForce_gear p hw.regs ho (Or.inr rfl) hF] at v2
  have g := C48_gear hG hw hst hsle e hc hk h1 h2
  have w1 : (w'.bodies b1).v_theta = (w.bodies b1).v_theta := v1.trans (by simp; rfl)
  have w2 : (w'.bodies b2).v_theta = (w.bodies b2).v_theta := v2.trans (by simp; rfl)
  rw [w1, w2] at g
  exact hω g

/-- In the demonstration system the constraint is the only one and gravity turns no body. -/
theorem Demo.gear_alone {K : CKind ℝ} {sv : Solver ℝ} {a : ℝ}
    (d : Demo K (.gravity a) [0] [0] sv h w) :
    w.OnlyGear h 0 0 1 ∧ ∀ b, w.load w.now b .th = 0 := by
  refine ⟨fun c hc hne => ?_, fun b => ?_⟩
  · rw [d.regC] at hc
    simp at hc
    exact absurd hc hne
  · rw [World.load, d.fg_eq]
    simp [d.gens, Gen.load]

/-- A gear in neutral that transmits torque. -/
example (env : Env ℝ) : ∃ (h : List (Op ℝ)) (w w' : World ℝ), World.Hist Gen.Shipped .opt h w ∧
    (w.cons 0).kind = .simpleGear ⟨3, true, 0, 0⟩ ∧ 0 ∈ regCons h ∧
    w.process .opt env 2 1 = .ok w' ∧ ((w'.cons 0).F_t 0 0 ≠ 0 ∨ (w'.cons 0).F_t 0 1 ≠ 0) := by
  obtain ⟨h, w, w', d, hst, e⟩ := demo_turns (turns_gear ⟨3, true, 0, 0⟩) (g := .gravity 9)
    trivial trivial (sv := .ge) trivial (two_ne_zero) 1 env
  refine ⟨h, w, w', d.hist, d.kind 0, d.mem0 rfl, e, C61_gaussian_transmits (fun g => Gen.tame)
    d.hist hst d.sle e (d.mem0 rfl) (d.kind 0) (d.bodies 0 0) (d.bodies 0 1) d.gear_alone.1
    (d.gear_alone.2 0) (d.gear_alone.2 1) ?_⟩
  rw [show (w.bodies 0).v_theta = 5 from d.vel 0 .th, show (w.bodies 1).v_theta = 0 from d.vel 1 .th]
  norm_num

/-- **C61 is violated** by the conjugate gradient solver with tolerances `|e1| < 1` and
`e2 < |ω₁ - ratio * ω₂|`. -/
theorem C61_gradient_transmits (hG : ∀ g, G g → g.OnlyForces) (hw : World.Hist G .opt h w)
    (hst : w.Standard h) {m : Nat} {e1 e2 : ℝ} (hsle : w.sle = some (.cg m e1 e2))
    (e : w.process .opt env dt 1 = .ok w')
    {c b1 b2 : Nat} (hc : c ∈ regCons h) {l : SimpleGear ℝ} (hk : (w.cons c).kind = .simpleGear l)
    (h1 : (w.cons c).bodies 0 = .obj b1) (h2 : (w.cons c).bodies 1 = .obj b2)
    (ho : w.OnlyGear h c b1 b2) (l1 : w.load w.now b1 .th = 0) (l2 : w.load w.now b2 .th = 0)
    (he1 : |e1| < 1)
    (hω : e2 < |(w.bodies b1).v_theta - l.ratio * (w.bodies b2).v_theta|)
    (hne : (w.bodies b1).v_theta ≠ l.ratio * (w.bodies b2).v_theta) :
    (w'.cons c).F_t 0 0 ≠ 0 ∨ (w'.cons c).F_t 0 1 ≠ 0 := by
  have hcount := hst.kind c hc
  simp only [hk, CKind.counts, Option.some.injEq, Prod.mk.injEq] at hcount
  by_contra hn
  push Not at hn
  have p := (hw.ready hG hst.wired).2
  have hF : ∀ j k, j < (w.cons c).rows → k < (w.cons c).bodyCount →
      (w'.cons c).F .th j k = 0 := by
    intro j k hj hk'
    have : j = 0 := by omega
    subst this
    have : k = 0 ∨ k = 1 := by omega
    rcases this with rfl | rfl
    · exact hn.1
    · exact hn.2
  have mem : ∀ k b, k < 2 → (w.cons c).bodies k = .obj b → b ∈ regBodies h := by
    intro k b hk2 hb
    obtain ⟨b', hb', e'⟩ := hst.bodies c hc k (by omega)
    rw [hb] at e'
    cases e'
    exact hb'
  have v1 := (C49_one_step hG hw hst.wired hst.gens e (mem 0 b1 (by decide) h1) .th).1
  have v2 := (C49_one_step hG hw hst.wired hst.gens e (mem 1 b2 (by decide) h2) .th).1
  rw [l1, conForce_gear p hw.regs ho (Or.inl rfl) hF] at v1
  rw [l2, conForce_gear p hw.regs ho (Or.inr rfl) hF] at v2
  have w1 : (w'.bodies b1).v_theta = (w.bodies b1).v_theta := v1.trans (by simp; rfl)
  have w2 : (w'.bodies b2).v_theta = (w.bodies b2).v_theta := v2.trans (by simp; rfl)
  obtain ⟨X, mult, h0, hm⟩ := hw.moved hG hst e
  have hc' := (hw.regs.cons.mem c).mpr hc
  have s := (hm.step 0 (by decide)).cg m e1 e2 hsle c hc' 0 (by omega)
  have hl : w.Shows (X (0 + 1)) w'.bodies := hm.last
  rw [row_shown p hl hc', h0, rowAt_two _ _ _ hcount.2.symm h1 h2,
    rowAt_two _ _ _ hcount.2.symm h1 h2] at s
  simp only [World.rowsOf, hk, CKind.jT, CKind.cT, CKind.biasT, l1, l2] at s
  simp only [World.now, Body.vel, w1, w2] at s
  set r := (w.bodies b1).v_theta - l.ratio * (w.bodies b2).v_theta with hr
  have hr0 : 0 < |r| := abs_pos.mpr (sub_ne_zero.mpr hne)
  have s' : |r| ≤ max |e1 * r| e2 := by
    refine le_of_eq_of_le ?_ (s.trans (le_of_eq ?_))
    · congr 1
      rw [hr]; ring
    · congr 2
      rw [hr]; ring
  rcases le_max_iff.mp s' with t | t
  · rw [abs_mul] at t
    nlinarith
  · linarith

/-- A gear in neutral that transmits torque. -/
example (env : Env ℝ) : ∃ (h : List (Op ℝ)) (w w' : World ℝ), World.Hist Gen.Shipped .opt h w ∧
    (w.cons 0).kind = .simpleGear ⟨3, true, 0, 0⟩ ∧ 0 ∈ regCons h ∧
    w.process .opt env 2 1 = .ok w' ∧ ((w'.cons 0).F_t 0 0 ≠ 0 ∨ (w'.cons 0).F_t 0 1 ≠ 0) := by
  obtain ⟨h, w, w', d, hst, e⟩ := demo_turns (turns_gear ⟨3, true, 0, 0⟩) (g := .gravity 9)
    trivial trivial (sv := .cg 2 0 1) (le_refl 2) (two_ne_zero) 1 env
  have v0 : (w.bodies 0).v_theta = 5 := d.vel 0 .th
  have v1 : (w.bodies 1).v_theta = 0 := d.vel 1 .th
  refine ⟨h, w, w', d.hist, d.kind 0, d.mem0 rfl, e, C61_gradient_transmits (fun g => Gen.tame)
    d.hist hst d.sle e (d.mem0 rfl) (d.kind 0) (d.bodies 0 0) (d.bodies 0 1) d.gear_alone.1
    (d.gear_alone.2 0) (d.gear_alone.2 1) (by norm_num) ?_ ?_⟩ <;> rw [v0, v1] <;> norm_num

end

end Scs
