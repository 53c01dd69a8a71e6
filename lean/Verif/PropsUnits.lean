import Verif.WorldScaled
import Verif.PropsView

/-!
# The units and the mirror image do not matter

C81.  The notions used: `Units` (other units of length, time and mass, possibly with a mirror),
`Units.pos`, `Units.vel`, `Units.force` (positions, velocities and forces in them), `Units.con`,
`Units.gen` (constraints and force generators described in them), `Units.FitsCon`, `Units.FitsGen`,
all in `WorldUnits.lean`; see `PropsStep.lean` for the rest.
-/

namespace Scs

open Finset

section
variable {G : Gen ℝ → Prop} {h h2 : List (Op ℝ)} {w w' v v' : World ℝ} {env env2 : Env ℝ} {dt : ℝ}
  {steps : Int} {f : Units}

/-- The history `h2` ends with the objects of the history `h` described in the units `f`. -/
structure ScaledObjects (f : Units) (h : List (Op ℝ)) (w : World ℝ) (h2 : List (Op ℝ)) (v : World ℝ) :
    Prop where
  rb : regBodies h2 = regBodies h
  cs : regCons h2 = regCons h
  fg : regGens h2 = regGens h
  pos : ∀ b ∈ regBodies h, (v.bodies b).pos = f.pos (w.bodies b).pos
  vel : ∀ b ∈ regBodies h, (v.bodies b).vel = f.vel (w.bodies b).vel
  m : ∀ b ∈ regBodies h, (v.bodies b).m = f.M * (w.bodies b).m
  I : ∀ b ∈ regBodies h, (v.bodies b).I = f.M * f.L ^ 2 * (w.bodies b).I
  kind : ∀ c ∈ regCons h, (v.cons c).kind = f.con (w.cons c).kind
  rows : ∀ c ∈ regCons h, (v.cons c).rows = (w.cons c).rows
  count : ∀ c ∈ regCons h, (v.cons c).bodyCount = (w.cons c).bodyCount
  at_ : ∀ c ∈ regCons h, ∀ k, k < (w.cons c).bodyCount →
    (v.cons c).bodies k = (w.cons c).bodies k
  gens : ∀ g ∈ regGens h, v.gens g = f.gen (w.gens g)
  bias : v.bias = w.bias

theorem ScaledObjects.scaled (s : ScaledObjects f h w h2 v)
    (hf : ∀ c ∈ regCons h, f.FitsCon (w.cons c).kind) (hw : World.Hist G .opt h w)
    (hv : World.Hist G .opt h2 v) : World.Scaled f w v where
  rb := by rw [hw.regs.rb_finset, hv.regs.rb_finset, s.rb]
  cs := by rw [hw.regs.cs_finset, hv.regs.cs_finset, s.cs]
  fg := by rw [hw.regs.fg_finset, hv.regs.fg_finset, s.fg]
  m := fun b hb => s.m b ((hw.regs.bodies.mem b).mp hb)
  I := fun b hb => s.I b ((hw.regs.bodies.mem b).mp hb)
  kind := fun c hc => s.kind c ((hw.regs.cons.mem c).mp hc)
  fits := fun c hc => hf c ((hw.regs.cons.mem c).mp hc)
  rows := fun c hc => s.rows c ((hw.regs.cons.mem c).mp hc)
  count := fun c hc => s.count c ((hw.regs.cons.mem c).mp hc)
  at_ := fun c hc => s.at_ c ((hw.regs.cons.mem c).mp hc)
  gens := fun g hg => s.gens g ((hw.regs.gens.mem g).mp hg)
  bias := s.bias

theorem within_gen_units (f : Units) {g : Gen ℝ} {P : Nat → Prop} (hg : g.Within P) :
    (f.gen g).Within P := by
  cases g <;> exact hg

theorem ScaledObjects.standard (s : ScaledObjects f h w h2 v) (hst : w.Standard h) (hnr : v.Near h2) :
    v.Standard h2 where
  kind := fun c hc => by
    rw [s.cs] at hc
    rw [s.kind c hc, s.rows c hc, s.count c hc, Units.counts_con]
    exact hst.kind c hc
  bodies := fun c hc k hk => by
    rw [s.cs] at hc
    rw [s.count c hc] at hk
    rw [s.at_ c hc k hk, s.rb]
    exact hst.bodies c hc k hk
  gens := fun g hg => by
    rw [s.fg] at hg
    rw [s.gens g hg, s.rb]
    exact within_gen_units f (hst.gens g hg)
  near := hnr

/-- The motion of the system in the new units follows the equations of motion there. -/
theorem ScaledObjects.path (s : ScaledObjects f h w h2 v)
    (hf : ∀ c ∈ regCons h, f.FitsCon (w.cons c).kind) (hw : World.Hist G .opt h w)
    (hv : World.Hist G .opt h2 v) (hst : w.Standard h) (hs : w.sle = some .ge)
    (hs' : v.sle = some .ge) {X : Nat → Motion} {μ : Nat → Nat → Nat → ℝ} (h0 : X 0 = w.now)
    (hg : ∀ n, n < steps.toNat → ∀ g ∈ regGens h, f.FitsGen (X n) (w.gens g))
    (hX : ∀ n, n < steps.toNat → w.Move (dt / steps) (X n) (X (n + 1)) (μ n)) :
    v.Path (f.T * dt) steps (fun n => (X n).inUnits f)
      (fun n c j => f.κ / f.row (w.cons c).kind j * μ n c j) where
  first := by
    have a := s.scaled hf hw hv
    simp only [h0]
    refine ⟨fun b hb q => ?_, fun b hb q => ?_, fun b hb q => ?_⟩
    · exact congrFun (s.pos b ((hw.regs.bodies.mem b).mp (a.memb.mp hb))) q
    · exact congrFun (s.vel b ((hw.regs.bodies.mem b).mp (a.memb.mp hb))) q
    · exact (mul_zero _).symm
  step := fun n hn => by
    have := (s.scaled hf hw hv).move (fun c hc => hst.kind c ((hw.regs.cons.mem c).mp hc)) hs hs'
      (fun g hgm => hg n hn g ((hw.regs.gens.mem g).mp hgm)) (hX n hn)
    rw [← mul_div_assoc] at this
    exact this

/-- What the claim says of a call of `process` for each of the two systems. -/
structure SameInUnits (f : Units) (h : List (Op ℝ)) (w w' v' : World ℝ) : Prop where
  pos : ∀ b ∈ regBodies h, (v'.bodies b).pos = f.pos (w'.bodies b).pos
  vel : ∀ b ∈ regBodies h, (v'.bodies b).vel = f.vel (w'.bodies b).vel
  force : ∀ c ∈ regCons h, ∀ j, j < (w.cons c).rows → ∀ k, k < (w.cons c).bodyCount → ∀ q : Coord,
    (v'.cons c).F q j k = f.force (fun q => (w'.cons c).F q j k) q

theorem ScaledObjects.same (s : ScaledObjects f h w h2 v)
    (hG : ∀ g, G g → g.OnlyForces) (hw : World.Hist G .opt h w)
    (hv : World.Hist G .opt h2 v) (hst : w.Standard h) (hnr : v.Near h2)
    (hf : ∀ c ∈ regCons h, f.FitsCon (w.cons c).kind)
    (hg : ∀ g ∈ regGens h, if steps = 1 then f.FitsGen w.now (w.gens g) else
      ∀ x, f.FitsGen x (w.gens g))
    (hs : w.sle = some .ge) (hs' : v.sle = some .ge) (hpos : 0 < steps)
    (e : w.process .opt env dt steps = .ok w') :
    (∀ v', v.process .opt env2 (f.T * dt) steps = .ok v' → SameInUnits f h w w' v') ∧
    (regCons h ≠ ∅ → ∃ v', v.process .opt env2 (f.T * dt) steps = .ok v') := by
  have a := s.scaled hf hw hv
  obtain ⟨X, μ, h0, hX⟩ := hw.moved hG hst e
  have hg' : ∀ n, n < steps.toNat → ∀ g ∈ regGens h, f.FitsGen (X n) (w.gens g) := by
    intro n hn g hgm
    have := hg g hgm
    split at this
    · rename_i h1
      obtain rfl : n = 0 := by
        rw [h1] at hn
        have : n < 1 := hn
        omega
      rw [h0]
      exact this
    · exact this _
  have hZ := s.path hf hw hv hst hs hs' h0 hg' hX.step
  refine ⟨fun v' e2 => ?_, fun hne => ?_⟩
  · obtain ⟨k1, k2⟩ := hv.follows hG (s.standard hst hnr) hs' hZ e2
    refine ⟨fun b hb => funext fun q => ?_, fun b hb => funext fun q => ?_,
      fun c hc j hj k hk q => ?_⟩
    · have hb' := (hw.regs.bodies.mem b).mpr hb
      rw [(k1 b (a.memb.mpr hb') q).1]
      show f.len q * (X steps.toNat).pos b q = _
      rw [(hX.last b hb' q).1]; rfl
    · have hb' := (hw.regs.bodies.mem b).mpr hb
      rw [(k1 b (a.memb.mpr hb') q).2]
      show f.len q / f.T * (X steps.toNat).vel b q = _
      rw [(hX.last b hb' q).2]; rfl
    · obtain ⟨n, hn⟩ : ∃ n, steps.toNat = n + 1 := ⟨steps.toNat - 1, by omega⟩
      have hc' := (hw.regs.cons.mem c).mpr hc
      have key := k2 n hn c (a.memc.mpr hc') q j k (by rw [a.rows c hc']; exact hj)
        (by rw [a.count c hc']; exact hk)
      rw [key, World.reaction, a.J (fun c hc => hst.kind c ((hw.regs.cons.mem c).mp hc)) (X n) hc' hj
        hk q, f.force_eq, hX.forces n hn c hc' q j k hj hk, World.reaction]
      have := f.row0 (w.cons c).kind j
      have := f.len0 q
      field_simp
  · have hdt : dt ≠ 0 := fun h0 => (hX.step 0 (by omega)).ne (by rw [h0, zero_div])
    refine hv.follows_ok hG (s.standard hst hnr) hs' hZ (fun b hb q => ?_)
      (mul_ne_zero f.hT.ne' hdt) (fun h0 => ?_) env2
    · rw [a.memb] at hb
      rw [a.mass hb]
      have h1 := hX.mass b hb q
      have h2 := f.len0 q
      have h3 := f.hM
      have h4 := f.hL
      positivity
    · rw [hv.regs.cs_nil, s.cs] at h0
      exact absurd h0 hne

/-- **C81**: with Gaussian elimination the units in which a program describes a system do not matter, nor
does it matter if it describes the mirror image: if all quantities of a second system are those of the
first in other units of length, time and mass, possibly mirrored, then after a successful call of
`process` for each of the two, with the same time, the positions and velocities of the bodies and the
reported forces of the second are those of the first in these units; when there is at least one
constraint, one call succeeds if the other does.  Without rolling constraints the unit of length is
free, except for springs (see `C81_one_sub_step_partial`, `C81_rolling_violates` and
`C81_spring_violates`). -/
theorem C81_same_partial (hG : ∀ g, G g → g.OnlyForces) (hw : World.Hist G .opt h w)
    (hv : World.Hist G .opt h2 v) (hst : w.Standard h) (hnr : v.Near h2)
    (s : ScaledObjects f h w h2 v) (hf : ∀ c ∈ regCons h, f.FitsCon (w.cons c).kind)
    (hg : ∀ g ∈ regGens h, ∀ x, f.FitsGen x (w.gens g))
    (hs : w.sle = some .ge) (hs' : v.sle = some .ge) (hpos : 0 < steps)
    (e : w.process .opt env dt steps = .ok w') (env2 : Env ℝ) :
    (∀ v', v.process .opt env2 (f.T * dt) steps = .ok v' → SameInUnits f h w w' v') ∧
    (regCons h ≠ ∅ → ∃ v', v.process .opt env2 (f.T * dt) steps = .ok v') :=
  s.same hG hw hv hst hnr hf (fun g hgm => by split; exacts [hg g hgm _, hg g hgm]) hs hs' hpos e

/-- **C81** for one sub-step: springs need only be long enough, in both units, at its beginning. -/
theorem C81_one_sub_step_partial (hG : ∀ g, G g → g.OnlyForces) (hw : World.Hist G .opt h w)
    (hv : World.Hist G .opt h2 v) (hst : w.Standard h) (hnr : v.Near h2)
    (s : ScaledObjects f h w h2 v) (hf : ∀ c ∈ regCons h, f.FitsCon (w.cons c).kind)
    (hg : ∀ g ∈ regGens h, f.FitsGen w.now (w.gens g))
    (hs : w.sle = some .ge) (hs' : v.sle = some .ge)
    (e : w.process .opt env dt 1 = .ok w') (env2 : Env ℝ) :
    (∀ v', v.process .opt env2 (f.T * dt) 1 = .ok v' → SameInUnits f h w w' v') ∧
    (regCons h ≠ ∅ → ∃ v', v.process .opt env2 (f.T * dt) 1 = .ok v') :=
  s.same hG hw hv hst hnr hf (fun g hgm => by rw [if_pos rfl]; exact hg g hgm) hs hs' one_pos e

/-- Every system with at most 255 bodies and the initial bias factor can be described in all units. -/
theorem scaled_exists (f : Units) (hw : World.Hist Gen.Shipped .opt h w) (hst : w.Standard h)
    (hg : ∀ g, (w.gens g).Shipped) (hb : w.bias = 1) (hc : (regBodies h).card ≤ 255) :
    ∃ (h2 : List (Op ℝ)) (v : World ℝ), World.Hist Gen.Shipped .opt h2 v ∧ v.Near h2 ∧
      ScaledObjects f h w h2 v ∧ v.sle = some .ge ∧ processedDts h2 = [] := by
  obtain ⟨h2, v, q1, q2, q3, q4, q5, q6, q7, q8⟩ := build (G := Gen.Shipped)
    (fun b => { w.bodies b with
      p_x := f.pos (w.bodies b).pos .x, p_y := f.pos (w.bodies b).pos .y
      theta := f.pos (w.bodies b).pos .th, v_x := f.vel (w.bodies b).vel .x
      v_y := f.vel (w.bodies b).vel .y, v_theta := f.vel (w.bodies b).vel .th
      m := f.M * (w.bodies b).m, I := f.M * f.L ^ 2 * (w.bodies b).I })
    (fun c => { w.cons c with kind := f.con (w.cons c).kind }) (gens := fun g => f.gen (w.gens g))
    (fun g => by have := hg g; revert this; cases w.gens g <;> exact id)
    hw.regs.bodies.nodup hw.regs.cons.nodup hw.regs.gens.nodup (some .ge) (fun _ _ => 0)
    (fun _ _ => 0)
  have r1 : regBodies h2 = regBodies h := by rw [q3, hw.regs.rb_finset]
  have r2 : regCons h2 = regCons h := by rw [q4, hw.regs.cs_finset]
  have r3 : regGens h2 = regGens h := by rw [q5, hw.regs.fg_finset]
  have hs : ScaledObjects f h w h2 v :=
    { rb := r1
      cs := r2
      fg := r3
      pos := fun b _ => funext fun q => by
        have := congrArg (fun x : Body ℝ => x.pos q) (q2.bodies b)
        cases q <;> exact this
      vel := fun b _ => funext fun q => by
        have := congrArg (fun x : Body ℝ => x.vel q) (q2.bodies b)
        cases q <;> exact this
      m := fun b _ => by simpa using congrArg Body.m (q2.bodies b)
      I := fun b _ => by simpa using congrArg Body.I (q2.bodies b)
      kind := fun c _ => by simpa using congrArg Con.kind (q2.cons c)
      rows := fun c _ => by simpa using congrArg Con.rows (q2.cons c)
      count := fun c _ => by simpa using congrArg Con.bodyCount (q2.cons c)
      at_ := fun c _ k _ => by simpa using congrFun (congrArg Con.bodies (q2.cons c)) k
      gens := fun g _ => by rw [q2.gens]
      bias := by rw [q2.bias, hb, fp_lit]; norm_num }
  refine ⟨h2, v, q1, .of_card q1.regs (fun c hc k hk => ?_) (by rw [r1]; exact hc), hs, q7, q8⟩
  rw [r2] at hc
  rw [hs.count c hc] at hk
  rw [hs.at_ c hc k hk, r1]
  exact hst.bodies c hc k hk

/-- The hypotheses are met, in all units and mirrored, by two linked bodies under gravity. -/
example (f : Units) (env env2 : Env ℝ) :
    ∃ (h h2 : List (Op ℝ)) (w w' v v' : World ℝ), World.Hist Gen.Shipped .opt h w ∧
      World.Hist Gen.Shipped .opt h2 v ∧ w.Standard h ∧ v.Near h2 ∧ ScaledObjects f h w h2 v ∧
      (∀ c ∈ regCons h, f.FitsCon (w.cons c).kind) ∧
      (∀ g ∈ regGens h, ∀ x, f.FitsGen x (w.gens g)) ∧ w.sle = some .ge ∧ v.sle = some .ge ∧
      regCons h = {0} ∧ regBodies h = {0, 1} ∧ w.process .opt env 2 4 = .ok w' ∧
      v.process .opt env2 (f.T * 2) 4 = .ok v' := by
  obtain ⟨h, w, w', d, hst, e⟩ := demo_pins (pins_link ⟨1, 2, 3, 4, 5, 0, 0⟩)
    (g := .gravity 9) trivial trivial (sv := .ge) trivial (by simp) (two_ne_zero (α := ℝ)) 4 env
  have hf : ∀ c ∈ regCons h, f.FitsCon (w.cons c).kind := fun c _ => by rw [d.kind]; trivial
  have hg : ∀ g ∈ regGens h, ∀ x, f.FitsGen x (w.gens g) := fun g _ x => by rw [d.gens]; trivial
  obtain ⟨h2, v, hv, hn, hs, hsle, -⟩ := scaled_exists f d.hist hst (fun g => by rw [d.gens]; trivial)
    d.bias (by rw [d.regB]; decide)
  obtain ⟨v', e2⟩ := (C81_same_partial (fun g => Gen.tame) d.hist hv hst hn hs hf hg d.sle hsle
    (by decide) e env2).2 (ne_empty_of_mem (d.mem0 rfl))
  exact ⟨h, h2, w, w', v, v', d.hist, hv, hst, hn, hs, hf, hg, d.sle, hsle,
    by rw [d.regC]; rfl, d.regB, e, e2⟩

/-- The hypotheses of the theorem on one sub-step are met by two linked bodies with a
spring between them whose ends are at the distance 5, in units of length up to 500 times as large. -/
example (f : Units) (hL : 1 / 500 ≤ f.L) (env env2 : Env ℝ) :
    ∃ (h h2 : List (Op ℝ)) (w w' v v' : World ℝ), World.Hist Gen.Shipped .opt h w ∧
      World.Hist Gen.Shipped .opt h2 v ∧ w.Standard h ∧ v.Near h2 ∧ ScaledObjects f h w h2 v ∧
      (∀ c ∈ regCons h, f.FitsCon (w.cons c).kind) ∧
      (∀ g ∈ regGens h, f.FitsGen w.now (w.gens g)) ∧ w.sle = some .ge ∧ v.sle = some .ge ∧
      regCons h = {0} ∧ regGens h = {0} ∧ w.process .opt env 2 1 = .ok w' ∧
      v.process .opt env2 (f.T * 2) 1 = .ok v' := by
  obtain ⟨h, w, w', d, hst, e⟩ := demo_pins (pins_link ⟨1, 2, 3, 4, 5, 0, 0⟩)
    (g := .spring ⟨1, 5, 6, 0, 0, 2, 2, .obj 0, .obj 1⟩) trivial (by simp [Gen.Within])
    (sv := .ge) trivial (by simp) (two_ne_zero (α := ℝ)) 1 env
  have hf : ∀ c ∈ regCons h, f.FitsCon (w.cons c).kind := fun c _ => by rw [d.kind]; trivial
  have hd : distOf (w.now.point 0 0 0) (w.now.point 1 2 2) = 5 := by
    have p0 : ∀ q, w.now.pos 0 q = (demoBody 0).pos q := d.pos 0
    have p1 : ∀ q, w.now.pos 1 q = (demoBody 1).pos q := d.pos 1
    simp only [distOf, Motion.point, p0, p1, demoBody, Body.pos]
    rw [show (5 : ℝ) = √(5 ^ 2) by rw [Real.sqrt_sq (by norm_num)]]
    congr 1
    norm_num
  have hg : ∀ g ∈ regGens h, f.FitsGen w.now (w.gens g) := fun g _ => by
    rw [d.gens]
    refine .inr (.inr fun b1 b2 h1 h2 => ?_)
    cases h1
    cases h2
    show 1 / 100 ≤ distOf (w.now.point 0 0 0) (w.now.point 1 2 2) ∧
      1 / 100 ≤ f.L * distOf (w.now.point 0 0 0) (w.now.point 1 2 2)
    rw [hd]
    constructor <;> linarith
  obtain ⟨h2, v, hv, hn, hs, hsle, -⟩ := scaled_exists f d.hist hst (fun g => by rw [d.gens]; trivial)
    d.bias (by rw [d.regB]; decide)
  obtain ⟨v', e2⟩ := (C81_one_sub_step_partial (fun g => Gen.tame) d.hist hv hst hn hs hf hg d.sle hsle
    e env2).2 (ne_empty_of_mem (d.mem0 rfl))
  exact ⟨h, h2, w, w', v, v', d.hist, hv, hst, hn, hs, hf, hg, d.sle, hsle,
    by rw [d.regC]; rfl, by rw [d.regG]; rfl, e, e2⟩

/-- Twice as small a unit of length. -/
def halfLength : Units := ⟨2, 1, 1, 1, two_pos, one_pos, one_pos, .inl rfl⟩

/-- **C81** is violated by springs whose ends are closer than 1/100 in one of the units: two bodies with
such a spring, without constraints, do not have the velocities in the new units after one sub-step.
(A spring exerts no force below this length.) -/
theorem C81_spring_violates (env env2 : Env ℝ) :
    ∃ (f : Units) (h h2 : List (Op ℝ)) (w w' v v' : World ℝ) (p : Spring ℝ),
      World.Hist Gen.Shipped .opt h w ∧ World.Hist Gen.Shipped .opt h2 v ∧ w.Standard h ∧
      v.Near h2 ∧ ScaledObjects f h w h2 v ∧ f = halfLength ∧ regBodies h = {0, 1} ∧
      regCons h = ∅ ∧ regGens h = {0} ∧ w.gens 0 = .spring p ∧ w.sle = some .ge ∧
      v.sle = some .ge ∧ w.process .opt env 1 1 = .ok w' ∧ v.process .opt env2 (f.T * 1) 1 = .ok v' ∧
      ¬ ∀ b ∈ regBodies h, (v'.bodies b).vel = f.vel (w'.bodies b).vel := by
  have hgw : Gen.Within (.spring ⟨0, 1, 0, 1, 2, 8 / 1000, 0, .obj 0, .obj 1⟩)
      (· ∈ ({0, 1} : Finset Nat)) :=
    .inr ⟨⟨0, by decide, rfl⟩, .inr ⟨1, by decide, rfl⟩⟩
  obtain ⟨h, w, d⟩ := demo .base (g := .spring ⟨0, 1, 0, 1, 2, 8 / 1000, 0, .obj 0, .obj 1⟩) trivial
    (cs := []) (fg := [0]) (by decide) (by decide) .ge
  have hst := d.standard (.inr rfl) hgw
  have hc : regCons h = ∅ := by rw [d.regC]; rfl
  obtain ⟨h2, v, hv, hn, hs, hsle, hnew⟩ := scaled_exists halfLength d.hist hst
    (fun g => by rw [d.gens]; trivial) d.bias (by rw [d.regB]; decide)
  have hstv := hs.standard hst hn
  have hcv : regCons h2 = ∅ := by rw [hs.cs, hc]
  have hmv : ∀ b ∈ regBodies h2, (v.bodies b).m = 1 ∧ (v.bodies b).I = 4 := fun b hb => by
    rw [hs.rb] at hb
    rw [hs.m b hb, hs.I b hb, d.m, d.I]
    norm_num [halfLength]
  obtain ⟨w', e⟩ := C59_ge_succeeds (fun g => Gen.tame) d.hist hst hc d.masses
    (one_ne_zero (α := ℝ)) d.sle d.new env (steps := 1)
  obtain ⟨v', e2⟩ := C59_ge_succeeds (dt := halfLength.T * 1) (fun g => Gen.tame) hv hstv hcv
    (fun b hb => by obtain ⟨h1, h2⟩ := hmv b hb; rw [h1, h2]; norm_num)
    (by norm_num [halfLength]) hsle hnew env2 (steps := 1)
  refine ⟨halfLength, h, h2, w, w', v, v', _, d.hist, hv, hst, hn, hs, rfl, d.regB, hc,
    by rw [d.regG]; rfl, d.gens 0, d.sle, hsle, e, e2, fun hall => ?_⟩
  have hb1 : 1 ∈ regBodies h := d.bodies_mem.2
  have hb1' : 1 ∈ regBodies h2 := by rw [hs.rb]; exact hb1
  have c1 := (C49_one_step (fun g => Gen.tame) d.hist hst.wired hst.gens e hb1 .x).1
  have c2 := (C49_one_step (fun g => Gen.tame) hv hstv.wired hstv.gens e2 hb1' .x).1
  have hfv : v.fg.toFinset = {0} := by rw [hv.regs.fg_finset, hs.fg, d.regG]; rfl
  have hcsv : v.cs.toFinset = ∅ := by rw [hv.regs.cs_finset, hcv]
  have hg0 : v.gens 0 = .spring ⟨0, 1, 0, 2, 4, 16 / 1000, 0, .obj 0, .obj 1⟩ := by
    rw [hs.gens 0 (by rw [d.regG]; decide), d.gens]
    norm_num [halfLength, Units.gen]
  have p0 : ∀ b q, w.now.pos b q = (demoBody b).pos q := d.pos
  have r0 : ∀ b ∈ regBodies h, ∀ q, v.now.pos b q = halfLength.len q * (demoBody b).pos q :=
    fun b hb q => by
      rw [show v.now.pos b q = (v.bodies b).pos q from rfl, hs.pos b hb, Units.pos, d.pos]
  have lw : w.load w.now 1 .x = 0 := by
    simp only [World.load, d.fg_eq, d.gens, List.toFinset_cons, List.toFinset_nil, insert_empty_eq,
      sum_singleton, Gen.load, if_neg (show ¬(1 : ℕ) = 0 by decide), if_pos, Motion.wrench,
      Spring.pullOn, zero_add]
    rw [springForce, if_neg]
    · simp
    · simp only [distOf, Motion.point, p0, demoBody, Body.pos]
      rw [show ((0 : ℕ) : ℝ) = 0 by norm_num, show ((1 : ℕ) : ℝ) = 1 by norm_num]
      simp only [Real.cos_zero, Real.sin_zero]
      rw [not_le, Real.sqrt_lt' (by norm_num)]
      norm_num
  have lv : v.load v.now 1 .x = -(16 / 1000) := by
    have hsq : √((16 / 1000 : ℝ) ^ 2) = 16 / 1000 := Real.sqrt_sq (by norm_num)
    have hw1 : v.now.point 0 2 4 = (2, 4) := by
      simp only [Motion.point, r0 0 d.bodies_mem.1, demoBody, Body.pos, Units.len, halfLength]
      norm_num
    have hw2 : v.now.point 1 (16 / 1000) 0 = (2 + 16 / 1000, 4) := by
      simp only [Motion.point, r0 1 hb1, demoBody, Body.pos, Units.len, halfLength]
      norm_num
    simp only [World.load, hfv, hg0, sum_singleton, Gen.load, if_neg (show ¬(1 : ℕ) = 0 by decide),
      if_pos, Motion.wrench, Spring.pullOn, zero_add, hw1, hw2]
    have e0 : ((2 + 16 / 1000 - 2 : ℝ) ^ 2 + (4 - 4) ^ 2) = (16 / 1000) ^ 2 := by norm_num
    rw [springForce, if_pos]
    · simp only [hooke, e0, hsq, Prod.fst_neg]
      norm_num
    · simp only [distOf, e0, hsq]
      norm_num
  rw [hall 1 hb1, Units.vel, c1, lw, lv, hs.vel 1 hb1, Units.vel, d.vel, World.conForce, World.conForce,
    d.cs_eq, hcsv, show (v.bodies 1).mass .x = 1 from (hmv 1 hb1').1, d.mass] at c2
  norm_num [halfLength, Units.len] at c2

/-- **C81** is violated by rolling constraints in another unit of length: there are two bodies with a
rolling constraint, without forces, which after one sub-step do not have the velocities in the new
units.  (The constraint compares an angle with a product of two lengths.) -/
theorem C81_rolling_violates (env env2 : Env ℝ) :
    ∃ (f : Units) (h h2 : List (Op ℝ)) (w w' v v' : World ℝ) (p : Rolling ℝ),
      World.Hist Gen.Shipped .opt h w ∧ World.Hist Gen.Shipped .opt h2 v ∧ w.Standard h ∧
      v.Near h2 ∧ ScaledObjects f h w h2 v ∧ f = halfLength ∧ regBodies h = {0, 1} ∧
      regCons h = {0} ∧ regGens h = ∅ ∧ (w.cons 0).kind = .rolling p ∧ w.sle = some .ge ∧
      v.sle = some .ge ∧ w.process .opt env 1 1 = .ok w' ∧ v.process .opt env2 (f.T * 1) 1 = .ok v' ∧
      ¬ ∀ b ∈ regBodies h, (v'.bodies b).vel = f.vel (w'.bodies b).vel := by
  obtain ⟨h, w, d⟩ := demo (.rolling ⟨0, 0, 1, 0, 1, 0, 0⟩) (g := .gravity 9) trivial (cs := [0])
    (fg := []) (by decide) (by decide) .ge
  have hst : w.Standard h := d.standard (.inl (by simp [CKind.counts])) trivial
  obtain ⟨h2, v, hv, hn, hs, hsle, -⟩ := scaled_exists halfLength d.hist hst
    (fun g => by rw [d.gens]; trivial) d.bias (by rw [d.regB]; decide)
  have hstv := hs.standard hst hn
  have hc0 : 0 ∈ regCons h := d.mem0 rfl
  have hc0' : 0 ∈ regCons h2 := by rw [hs.cs]; exact hc0
  have hr : (w.cons 0).rows = 2 := by rw [d.rows]; rfl
  have hbc : (w.cons 0).bodyCount = 2 := by rw [d.count]; rfl
  have hr' : (v.cons 0).rows = 2 := by rw [hs.rows 0 hc0]; exact hr
  have hbc' : (v.cons 0).bodyCount = 2 := by rw [hs.count 0 hc0]; exact hbc
  have hk : (w.cons 0).kind = .rolling ⟨0, 0, 1, 0, 1, 0, 0⟩ := d.kind 0
  have hk' : (v.cons 0).kind = .rolling ⟨0, 0, 1, 0, 2, 0, 0⟩ := by
    rw [hs.kind 0 hc0, hk]
    norm_num [halfLength, Units.con]
  have hmem : ∀ b, b ∈ v.rb → b ∈ regBodies h := fun b hb => by
    rw [← hs.rb]; exact (hv.regs.bodies.mem b).mp hb
  have hb0 : 0 ∈ regBodies h := d.bodies_mem.1
  have hb1 : 1 ∈ regBodies h := d.bodies_mem.2
  have hob : ∀ k, k < 2 → (v.cons 0).bodies k = .obj k := fun k hk => by
    rw [hs.at_ 0 hc0 k (by rw [hbc]; exact hk), d.bodies]
  have hmv : ∀ b ∈ regBodies h, (v.bodies b).m = 1 ∧ (v.bodies b).I = 4 := fun b hb => by
    rw [hs.m b hb, hs.I b hb, d.m, d.I]
    norm_num [halfLength]
  have hm : ∀ b ∈ v.rb, ∀ q : Coord, 0 < (v.bodies b).mass q := fun b hb q => by
    obtain ⟨h1, h2⟩ := hmv b (hmem b hb)
    cases q <;> simp [Body.mass, h1, h2]
  obtain ⟨w', e⟩ := (C48_succeeds_iff (env := env) (dt := 1) (fun g => Gen.tame) d.hist hst d.sle
    (ne_empty_of_mem hc0)).mpr ⟨one_ne_zero, d.masses, rolling_indep (by norm_num) (by norm_num) hk
      (by rw [d.cs_eq]; rfl) hr hbc (fun k _ => d.bodies 0 k) ((d.hist.regs.bodies.mem 0).mpr hb0)
      (fun b _ q => by rw [d.mass]; exact one_pos) _⟩
  obtain ⟨v', e2⟩ := (C48_succeeds_iff (env := env2) (dt := halfLength.T * 1) (fun g => Gen.tame) hv
    hstv hsle (ne_empty_of_mem hc0')).mpr ⟨by norm_num [halfLength], fun b hb => by
      rw [hs.rb] at hb
      obtain ⟨h1, h2⟩ := hmv b hb
      rw [h1, h2]
      norm_num, rolling_indep (by norm_num) (by norm_num) hk'
      (by rw [hv.regs.cs_finset, hs.cs, d.regC]; rfl) hr' hbc' hob ((hv.regs.bodies.mem 0).mpr (by
        rw [hs.rb]; exact hb0)) hm _⟩
  refine ⟨_, h, h2, w, w', v, v', _, d.hist, hv, hst, hn, hs, rfl, d.regB, by rw [d.regC]; rfl,
    by rw [d.regG]; rfl, hk, d.sle, hsle, e, e2, fun hall => ?_⟩
  have c0 := C48_velocity_condition (fun g => Gen.tame) d.hist hst d.sle e hc0 (j := 1)
    (by rw [hr]; omega)
  have c1 := C48_velocity_condition (fun g => Gen.tame) d.hist hst d.sle e hc0 (j := 0)
    (by rw [hr]; omega)
  have c2 := C48_velocity_condition (fun g => Gen.tame) hv hstv hsle e2 hc0' (j := 0)
    (by rw [hr']; omega)
  rw [rowAt_two _ _ _ hbc (d.bodies 0 0) (d.bodies 0 1)] at c0 c1
  rw [rowAt_two _ _ _ hbc' (hob 0 (by omega)) (hob 1 (by omega))] at c2
  have q1 := q_two (x := w.now) hbc (d.bodies 0 0) (d.bodies 0 1)
  have q2 := q_two (x := v.now) hbc' (hob 0 (by omega)) (hob 1 (by omega))
  simp only [World.rowsOf, hk] at c0 c1
  simp only [World.rowsOf, hk'] at c2
  have J : ∀ (r : ℝ) (q : Nat → ℝ), q 2 = 0 → ∀ K, K = CKind.rolling ⟨0, 0, 1, 0, r, 0, 0⟩ →
      K.jT q 0 0 = r ∧ K.jT q 0 1 = 0 ∧ K.jT q 0 2 = -r * (q 4 - q 1) ∧ K.jT q 0 3 = -r ∧
      K.jT q 0 4 = 0 ∧ K.jT q 0 5 = -1 ∧ K.cT q 0 = -q 5 - r * (q 3 - q 0) ∧ K.biasT = 0 := by
    rintro r q h2 _ rfl
    refine ⟨?_, ?_, ?_, ?_, ?_, rfl, ?_, rfl⟩
    · show r * rx (q 2) 1 0 = _
      simp [rx, h2]
    · show r * ry (q 2) 1 0 = _
      simp [ry, h2]
    · show -r * (ry (q 2) 0 0 * rx (q 2) 1 0 - rx (q 2) 0 0 * ry (q 2) 1 0 -
        (q 3 - q 0 - rx (q 2) 0 0) * ry (q 2) 1 0 + (q 4 - q 1 - ry (q 2) 0 0) * rx (q 2) 1 0) = _
      simp [rx, ry, h2]
    · show -(r * rx (q 2) 1 0) = _
      simp [rx, h2]
    · show -(r * ry (q 2) 1 0) = _
      simp [ry, h2]
    · show -q 5 - r * ((q 3 - q 0 - rx (q 2) 0 0) * rx (q 2) 1 0 +
        (q 4 - q 1 - ry (q 2) 0 0) * ry (q 2) 1 0) = _
      simp [rx, ry, h2]
  have p0 : ∀ q, w.now.pos 0 q = (demoBody 0).pos q := d.pos 0
  have p1 : ∀ q, w.now.pos 1 q = (demoBody 1).pos q := d.pos 1
  have r0 : ∀ b ∈ regBodies h, ∀ q, v.now.pos b q = halfLength.len q * (demoBody b).pos q :=
    fun b hb q => by
      rw [show v.now.pos b q = (v.bodies b).pos q from rfl, hs.pos b hb, Units.pos, d.pos]
  have z1 : w.now.q w 0 2 = 0 := by rw [q1.2.2.1, p0]; rfl
  have z2 : v.now.q v 0 2 = 0 := by
    rw [q2.2.2.1, r0 0 hb0, show (demoBody 0).pos .th = 0 from rfl, mul_zero]
  have K : (CKind.rolling ⟨0, 0, 1, 0, 1, 0, 0⟩).jT (w.now.q w 0) 1 0 = 0 ∧
      (CKind.rolling ⟨0, 0, 1, 0, 1, 0, 0⟩).jT (w.now.q w 0) 1 1 = 1 ∧
      (CKind.rolling ⟨0, 0, 1, 0, 1, 0, 0⟩).jT (w.now.q w 0) 1 2 = 1 ∧
      (CKind.rolling ⟨0, 0, 1, 0, 1, 0, 0⟩).jT (w.now.q w 0) 1 3 = 0 ∧
      (CKind.rolling ⟨0, 0, 1, 0, 1, 0, 0⟩).jT (w.now.q w 0) 1 4 = -1 ∧
      (CKind.rolling ⟨0, 0, 1, 0, 1, 0, 0⟩).jT (w.now.q w 0) 1 5 = 0 ∧
      (CKind.rolling ⟨0, 0, 1, 0, 1, 0, 0⟩).cT (w.now.q w 0) 1 = -1 := by
    have y0 : w.now.q w 0 0 = 0 := by rw [q1.1, p0]; simp [demoBody, Body.pos]
    have y1 : w.now.q w 0 1 = 0 := by rw [q1.2.1, p0]; simp [demoBody, Body.pos]
    have y3 : w.now.q w 0 3 = 1 := by rw [q1.2.2.2.1, p1]; simp [demoBody, Body.pos]
    have y4 : w.now.q w 0 4 = 2 := by rw [q1.2.2.2.2.1, p1]; simp [demoBody, Body.pos]
    generalize w.now.q w 0 = q at z1 y0 y1 y3 y4 ⊢
    refine ⟨?_, ?_, ?_, ?_, ?_, rfl, ?_⟩
    · show -ry (q 2) 1 0 = _
      simp [ry, z1]
    · show rx (q 2) 1 0 = _
      simp [rx, z1]
    · show rx (q 2) 1 0 * (q 3 - q 0 - rx (q 2) 0 0) + ry (q 2) 1 0 * (q 4 - q 1 - ry (q 2) 0 0) +
        ry (q 2) 1 0 * ry (q 2) 0 0 + rx (q 2) 1 0 * rx (q 2) 0 0 = _
      simp [rx, ry, z1, y0, y3]
    · show ry (q 2) 1 0 = _
      simp [ry, z1]
    · show -rx (q 2) 1 0 = _
      simp [rx, z1]
    · show 1 + (q 3 - q 0 - rx (q 2) 0 0) * ry (q 2) 1 0 -
        (q 4 - q 1 - ry (q 2) 0 0) * rx (q 2) 1 0 = _
      simp only [rx, ry, z1, y0, y1, y3, y4, Real.cos_zero, Real.sin_zero]
      norm_num
  obtain ⟨j1, j2, j3, j4, j5, j6, j7, j8⟩ := J 1 (w.now.q w 0) z1 _ rfl
  obtain ⟨i1, i2, i3, i4, i5, i6, i7⟩ := K
  obtain ⟨k1, k2, k3, k4, k5, k6, k7, k8⟩ := J 2 (v.now.q v 0) z2 _ rfl
  rw [i1, i2, i3, i4, i5, i6, i7, j8, d.bias] at c0
  rw [j1, j2, j3, j4, j5, j6, j7, j8, q1.1, q1.2.1, q1.2.2.2.1, q1.2.2.2.2.1,
    q1.2.2.2.2.2, d.bias] at c1
  rw [k1, k2, k3, k4, k5, k6, k7, k8, q2.1, q2.2.1, q2.2.2.2.1, q2.2.2.2.2.1,
    q2.2.2.2.2.2, hs.bias, d.bias, hall 0 hb0, hall 1 hb1] at c2
  have m : ∃ a b : ℝ, ∀ k, k < 2 → ∀ q : Coord, (w'.bodies k).vel q = (demoBody k).vel q +
      (a * (CKind.rolling ⟨0, 0, 1, 0, 1, 0, 0⟩).jT (w.now.q w 0) 0 (k * 3 + q.d) +
        b * (CKind.rolling ⟨0, 0, 1, 0, 1, 0, 0⟩).jT (w.now.q w 0) 1 (k * 3 + q.d)) := by
    obtain ⟨X, μ, h0, hX⟩ := d.hist.moved (fun g => Gen.tame) hst e
    have st := hX.step 0 (by decide)
    refine ⟨μ 0 0 0, μ 0 0 1, fun k hk2 q => ?_⟩
    have hkb : k ∈ w.rb := by
      rw [d.hist.regs.bodies.mem, d.regB]
      interval_cases k <;> decide
    have h1 := (hX.last k hkb q).2
    have hof : ∀ k, k < 2 → w.bodyOf 0 k = k := fun k hk => by rw [World.bodyOf, d.bodies]
    have hc : ∀ j, w.coef (w.rowsOf w.now) 0 j k q =
        (CKind.rolling ⟨0, 0, 1, 0, 1, 0, 0⟩).jT (w.now.q w 0) j (k * 3 + q.d) := by
      intro j
      simp only [World.coef, hbc, sum_range_succ, range_zero, sum_empty, hof 0 (by omega),
        hof 1 (by omega), World.rowsOf, hk]
      interval_cases k <;> simp
    rw [← h1]
    show (X (0 + 1)).vel k q = _
    rw [st.vel k hkb q, st.acc k hkb q, h0, conForce_coef, d.mass, World.load, d.fg_eq, d.cs_eq]
    simp only [List.toFinset_cons, List.toFinset_nil, insert_empty_eq, sum_singleton, hr,
      sum_range_succ, range_zero, sum_empty, hc]
    rw [show w.now.vel k q = (w.bodies k).vel q from rfl, d.vel]
    norm_num
  obtain ⟨a, b, m⟩ := m
  have m0x := m 0 (by omega) .x
  have m0y := m 0 (by omega) .y
  have m0t := m 0 (by omega) .th
  have m1x := m 1 (by omega) .x
  have m1y := m 1 (by omega) .y
  have m1t := m 1 (by omega) .th
  simp only [Coord.d, Nat.zero_mul, Nat.one_mul, Nat.zero_add, Nat.reduceAdd] at m0x m0y m0t m1x m1y m1t
  rw [j1, i1] at m0x
  rw [j2, i2] at m0y
  rw [j3, i3, q1.2.1, q1.2.2.2.2.1] at m0t
  rw [j4, i4] at m1x
  rw [j5, i5] at m1y
  rw [j6, i6] at m1t
  simp only [Units.vel, r0 0 hb0, r0 1 hb1, p0, p1, demoBody, Body.pos, Body.vel, Units.len, halfLength,
    Nat.cast_zero, Nat.cast_one] at c0 c1 c2 m0x m0y m0t m1x m1y m1t
  norm_num at c0 c1 c2 m0x m0y m0t m1x m1y m1t
  linarith

end

end Scs
