import Verif.WorldSlip

/-!
# C89: limited friction, clutches and drives
-/

namespace Scs

open Finset

section
variable {G : Gen ℝ → Prop} {h : List (Op ℝ)} {w w' : World ℝ} {env : Env ℝ} {dt : ℝ} {steps : Int}

theorem slip_bodies (hst : w.Standard h) (hs : w.Sensible h) (hw : World.Hist G .opt h w) (p : w.Placed)
    {c : Nat} (hc : c ∈ regCons h) : (w.cons c).bodyCount ≤ 2 ∧
      ((w.cons c).bodyCount = 2 → w.bodyOf c 0 ≠ w.bodyOf c 1) := by
  have := hst.proper hw.regs c ((hw.regs.cons.mem c).mpr hc)
  have hc' := (hw.regs.cons.mem c).mpr hc
  refine ⟨(counts_le this).2.2.2, fun h2 e => hs.apart c hc h2 ?_⟩
  rw [(p.bodies c hc' 0 (by omega)).1, (p.bodies c hc' 1 (by omega)).1, e]

/-- **C89**: a constraint with one row which shares its bodies with no other constraint exerts the
force that satisfies it, cut off at its limits. -/
theorem C89_one_row (hG : ∀ g, G g → g.OnlyForces) (hw : World.Hist G .opt h w)
    (hst : w.Standard h) (hs : w.Sensible h) {m : Nat} {d : ℝ} (hsle : w.sle = some (.gs m d))
    (hdt : 0 < dt) (e : w.process .opt env dt 1 = .ok w') {c : Nat} (hc : c ∈ regCons h)
    (hl : w.Lone (regCons h) c) (h1 : (w.cons c).rows = 1) :
    ∃ F : ℝ, F = max (w.cons c).kind.loT (min (w.cons c).kind.hiT
        (-(w.rowAt (w.rowsOf w.now c) c 0 (w.freeVel dt) + (w.rowsOf w.now c).v_bias 0 +
          w.bias / dt * (w.rowsOf w.now c).C 0) / (dt * w.coupling (w.rowsOf w.now) c 0 c 0))) ∧
      ∀ (q : Coord) k, k < (w.cons c).bodyCount →
        (w'.cons c).F q 0 k = F * (w.rowsOf w.now c).J 0 (k * 3 + q.d) ∧
        (w'.bodies (w.bodyOf c k)).vel q = w.freeVel dt (w.bodyOf c k) q +
          dt * (w'.cons c).F q 0 k / (w.bodies (w.bodyOf c k)).mass q := by
  obtain ⟨X, mult, h0, hm, hg⟩ := hw.gs_moved hG hst hsle hdt e
  have p := (hw.ready hG hst.wired).2
  have one : dt / ((1 : Int) : ℝ) = dt := by simp
  have g0 := hg 0 (by decide)
  have s0 := hm.step 0 (by decide)
  rw [one, h0] at g0 s0
  have hc' := (hw.regs.cons.mem c).mpr hc
  rw [← hw.regs.cs_finset] at hl
  have ef : w.freely dt w.now = w.freeVel dt := by
    funext b q
    rw [World.freely, World.freeVel, mul_div_assoc]
    rfl
  have hf := hl.force p hc' h1 hdt s0 g0 (hs.acts hst hw.regs _ c hc' 0 (by omega))
    (s0.gs m d hsle hdt c hc' 0 (by omega) (hs.ordered c hc).le)
  rw [ef] at hf
  refine ⟨mult 0 c 0, hf, fun q k hk => ?_⟩
  have hF := hm.forces 0 rfl c hc' q 0 k (by omega) hk
  rw [h0] at hF
  have hF' : (w'.cons c).F q 0 k = mult 0 c 0 * (w.rowsOf w.now c).J 0 (k * 3 + q.d) := hF
  refine ⟨hF', ?_⟩
  obtain ⟨b1, b2⟩ := slip_bodies hst hs hw p hc
  have hv := hl.vel p hc' h1 b1 b2 s0 hk q
  have hlast := (hm.last _ (p.bodies c hc' k hk).2 q).2
  have t1 : (1 : Int).toNat = 0 + 1 := rfl
  rw [t1] at hlast
  rw [← hlast, hv, ef, hF']
  ring

/-- The hypotheses are met by two bodies in a gear with the ratio 2, one of which turns with speed 5. -/
example (env : Env ℝ) : ∃ (h : List (Op ℝ)) (w w' : World ℝ), World.Hist Gen.Shipped .opt h w ∧
    (w.bodies 0).v_theta = 5 ∧ w.process .opt env (1 / 2) 1 = .ok w' ∧
    (w'.bodies 0).v_theta = w.freeVel (1 / 2) 0 .th + 1 / 2 * (w'.cons 0).F_t 0 0 := by
  obtain ⟨h, w, w', m, d, hst, hs, e⟩ := demo_gsOf (.simpleGear ⟨2, false, 0, 0⟩) nofun
    (g := .gravity 9) trivial (cs := [0]) (fg := [0]) (by decide) (by decide) trivial
    trivial trivial (e := 1 / 10) (by norm_num)
    (dt := 1 / 2) (by norm_num) env 1
  obtain ⟨F, -, q⟩ := C89_one_row (c := 0) (fun g => Gen.tame) d.hist hst hs d.sle
    (by norm_num) e (by rw [d.regC]; simp) (fun c' hc' hne => absurd (by
      rw [d.regC] at hc'; simpa using hc') hne) (d.rows 0)
  obtain ⟨-, q2⟩ := q .th 0 (by rw [show (w.cons 0).bodyCount = 2 from d.count 0]; decide)
  have hb : w.bodyOf 0 0 = 0 := d.bodyOf 0 0
  rw [hb] at q2
  have hI : (w.bodies 0).mass .th = 1 := d.I 0
  rw [hI, div_one] at q2
  exact ⟨h, w, w', d.hist, d.vel 0 .th, e, q2⟩

theorem torque_one (p : w.Placed) {c : Nat} (hc : c ∈ w.cs) (hn : (w.cons c).bodyCount = 1) {b : Nat}
    (hb : (w.cons c).bodies 0 = .obj b) {x : Motion} (j0 : (w.rowsOf x c).J 0 0 = 0)
    (j1 : (w.rowsOf x c).J 0 1 = 0) (j2 : (w.rowsOf x c).J 0 2 = 1) (v : Nat → Coord → ℝ) :
    w.rowAt (w.rowsOf x c) c 0 v = v b .th ∧
      w.coupling (w.rowsOf x) c 0 c 0 = 1 / (w.bodies b).I := by
  have e1 : w.bodyOf c 0 = b := by rw [World.bodyOf, hb]
  rw [rowAt_one _ _ _ hn hb, coupling_one p hc hn, e1]
  simp only [Coord.sum, Coord.d, j0, j1, j2, Body.mass]
  constructor <;> ring

theorem turning (hG : ∀ g, G g → g.OnlyForces) (hw : World.Hist G .opt h w)
    (hst : w.Standard h) (hs : w.Sensible h) {m : Nat} {d : ℝ} (hsle : w.sle = some (.gs m d))
    (hdt : 0 < dt) (e : w.process .opt env dt 1 = .ok w') {c b : Nat}
    (hc : c ∈ regCons h) (hr : (w.cons c).rows = 1) (hn : (w.cons c).bodyCount = 1)
    (hb : (w.cons c).bodies 0 = .obj b) (hl : w.Lone (regCons h) c)
    (j0 : (w.rowsOf w.now c).J 0 0 = 0) (j1 : (w.rowsOf w.now c).J 0 1 = 0)
    (j2 : (w.rowsOf w.now c).J 0 2 = 1) (c0 : (w.rowsOf w.now c).C 0 = 0) :
    (w'.cons c).F_t 0 0 = max (w.cons c).kind.loT (min (w.cons c).kind.hiT
        (-(w.freeVel dt b .th + (w.rowsOf w.now c).v_bias 0) * (w.bodies b).I / dt)) ∧
      (w'.bodies b).v_theta = w.freeVel dt b .th + dt * (w'.cons c).F_t 0 0 / (w.bodies b).I := by
  have p := (hw.ready hG hst.wired).2
  have hc' := (hw.regs.cons.mem c).mpr hc
  obtain ⟨F, f1, f2⟩ := C89_one_row hG hw hst hs hsle hdt e hc hl hr
  have e1 : w.bodyOf c 0 = b := by rw [World.bodyOf, hb]
  obtain ⟨g1, g2⟩ := f2 .th 0 (by omega)
  obtain ⟨t1, t2⟩ := torque_one p hc' hn hb j0 j1 j2 (w.freeVel dt)
  have j2' : (w.rowsOf w.now c).J 0 (0 * 3 + Coord.th.d) = 1 := j2
  rw [j2', mul_one] at g1
  rw [t1, t2, c0, mul_zero, add_zero] at f1
  rw [e1] at g2
  have hI : (w.bodies b).I ≠ 0 := (hs.mass b ((hw.regs.bodies.mem b).mp (by
    rw [← e1]; exact (p.bodies c hc' 0 (by omega)).2))).2.ne'
  refine ⟨?_, g2⟩
  show (w'.cons c).F .th 0 0 = _
  rw [g1, f1]
  congr 2
  field_simp

theorem demo_free {K : CKind ℝ} {sv : Solver ℝ} {a : ℝ} {cs fg : List Nat}
    (d : Demo K (.gravity a) cs fg sv h w) (x : Motion) (b : Nat) : w.load x b .th = 0 :=
  sum_eq_zero fun g _ => by
    rw [d.gens]
    simp only [Gen.load]
    exact if_neg nofun

theorem demo_freeVel {K : CKind ℝ} {sv : Solver ℝ} {a : ℝ} {cs fg : List Nat}
    (d : Demo K (.gravity a) cs fg sv h w) (b : Nat) :
    w.freeVel dt b .th = if b = 0 then 5 else 0 := by
  rw [World.freeVel, demo_free d, mul_zero, zero_div, add_zero]
  exact d.vel b .th

/-- **C89**, friction: `process(dt, 1)` brakes the body with the torque that stops it, but at most the
configured one; `freeVel` is the velocity without the constraint. -/
theorem C89_friction (hG : ∀ g, G g → g.OnlyForces) (hw : World.Hist G .opt h w)
    (hst : w.Standard h) (hs : w.Sensible h) {m : Nat} {d : ℝ} (hsle : w.sle = some (.gs m d))
    (hdt : 0 < dt) (e : w.process .opt env dt 1 = .ok w') {c b : Nat} {r : RotationFriction ℝ}
    (hc : c ∈ regCons h) (hk : (w.cons c).kind = .rotationFriction r)
    (hb : (w.cons c).bodies 0 = .obj b) (hl : w.Lone (regCons h) c) :
    (w'.cons c).F_t 0 0 = max r.minTorque (min r.maxTorque
        (-w.freeVel dt b .th * (w.bodies b).I / dt)) ∧
      (w'.bodies b).v_theta = w.freeVel dt b .th + dt * (w'.cons c).F_t 0 0 / (w.bodies b).I := by
  have cn := hst.proper hw.regs c ((hw.regs.cons.mem c).mpr hc)
  simp only [hk, CKind.counts, Option.some.injEq, Prod.mk.injEq] at cn
  have key := turning hG hw hst hs hsle hdt e hc cn.1.symm cn.2.symm hb hl
    (by simp only [World.rowsOf, hk]; rfl) (by simp only [World.rowsOf, hk]; rfl)
    (by simp only [World.rowsOf, hk]; rfl) (by simp only [World.rowsOf, hk]; rfl)
  have b0 : (w.rowsOf w.now c).v_bias 0 = 0 := by simp only [World.rowsOf, hk]; rfl
  rw [b0, hk, add_zero] at key
  exact key

/-- The claim applied to a body turning with speed 5, which a torque of at most 2 brakes for half a
second. -/
example (env : Env ℝ) : ∃ (h : List (Op ℝ)) (w w' : World ℝ), World.Hist Gen.Shipped .opt h w ∧
    (w.bodies 0).v_theta = 5 ∧ w.process .opt env (1 / 2) 1 = .ok w' ∧
    (w'.cons 0).F_t 0 0 = -2 ∧ (w'.bodies 0).v_theta = 4 := by
  obtain ⟨h, w, w', m, d, hst, hs, e⟩ := demo_gsOf (.rotationFriction ⟨-2, 2, 0, 0⟩) nofun
    (g := .gravity 9) trivial (cs := [0]) (fg := [0]) (by decide) (by decide) trivial
    (by show (-2 : ℝ) ≤ 2; norm_num) trivial (e := 1 / 10) (by norm_num)
    (dt := 1 / 2) (by norm_num) env 1
  have hv : (w.bodies 0).v_theta = 5 := d.vel 0 .th
  have q := C89_friction (c := 0) (b := 0) (fun g => Gen.tame) d.hist hst hs d.sle (by norm_num) e
    (by rw [d.regC]; simp) (d.kind 0) (d.bodies 0 0) (fun c' hc' hne => absurd (by
      rw [d.regC] at hc'; simpa using hc') hne)
  have hf : w.freeVel (1 / 2) 0 .th = 5 := demo_freeVel d 0
  rw [hf, d.I] at q
  norm_num at q
  obtain ⟨q1, q2⟩ := q
  rw [q1] at q2
  exact ⟨h, w, w', d.hist, hv, e, q1, by rw [q2]; norm_num⟩

/-- **C89**, constant rotation: the drive turns the body with the torque that brings it to the opposite
of the configured speed (C39), but at most the configured one. -/
theorem C89_constant_rotation (hG : ∀ g, G g → g.OnlyForces) (hw : World.Hist G .opt h w)
    (hst : w.Standard h) (hs : w.Sensible h) {m : Nat} {d : ℝ} (hsle : w.sle = some (.gs m d))
    (hdt : 0 < dt) (e : w.process .opt env dt 1 = .ok w') {c b : Nat} {r : ConstantRotation ℝ}
    (hc : c ∈ regCons h) (hk : (w.cons c).kind = .constantRotation r)
    (hb : (w.cons c).bodies 0 = .obj b) (hl : w.Lone (regCons h) c) :
    (w'.cons c).F_t 0 0 = max r.minTorque (min r.maxTorque
        (-(w.freeVel dt b .th + r.rotationSpeed) * (w.bodies b).I / dt)) ∧
      (w'.bodies b).v_theta = w.freeVel dt b .th + dt * (w'.cons c).F_t 0 0 / (w.bodies b).I := by
  have cn := hst.proper hw.regs c ((hw.regs.cons.mem c).mpr hc)
  simp only [hk, CKind.counts, Option.some.injEq, Prod.mk.injEq] at cn
  have key := turning hG hw hst hs hsle hdt e hc cn.1.symm cn.2.symm hb hl
    (by simp only [World.rowsOf, hk]; rfl) (by simp only [World.rowsOf, hk]; rfl)
    (by simp only [World.rowsOf, hk]; rfl) (by simp only [World.rowsOf, hk]; rfl)
  have b0 : (w.rowsOf w.now c).v_bias 0 = r.rotationSpeed := by simp only [World.rowsOf, hk]; rfl
  rw [b0, hk] at key
  exact key

/-- The claim applied to a body turning with speed 5 and a drive for the speed 1 with a torque of at
most 100. -/
example (env : Env ℝ) : ∃ (h : List (Op ℝ)) (w w' : World ℝ), World.Hist Gen.Shipped .opt h w ∧
    (w.bodies 0).v_theta = 5 ∧ w.process .opt env (1 / 2) 1 = .ok w' ∧
    (w'.cons 0).F_t 0 0 = -12 ∧ (w'.bodies 0).v_theta = -1 := by
  obtain ⟨h, w, w', m, d, hst, hs, e⟩ := demo_gsOf (.constantRotation ⟨1, -100, 100, 0, 0⟩) nofun
    (g := .gravity 9) trivial (cs := [0]) (fg := [0]) (by decide) (by decide) trivial
    (by show (-100 : ℝ) ≤ 100; norm_num) trivial (e := 1 / 10) (by norm_num)
    (dt := 1 / 2) (by norm_num) env 1
  have q := C89_constant_rotation (c := 0) (b := 0) (fun g => Gen.tame) d.hist hst hs d.sle
    (by norm_num) e (by rw [d.regC]; simp) (d.kind 0) (d.bodies 0 0) (fun c' hc' hne => absurd (by
      rw [d.regC] at hc'; simpa using hc') hne)
  have hf : w.freeVel (1 / 2) 0 .th = 5 := demo_freeVel d 0
  rw [hf, d.I] at q
  norm_num at q
  obtain ⟨q1, q2⟩ := q
  rw [q1] at q2
  exact ⟨h, w, w', d.hist, d.vel 0 .th, e, q1, by rw [q2]; norm_num⟩

/-- **C89**, clutch: the torque transmitted is the one that makes the two speeds equal, cut off at the
limits of the clutch; the other body feels the opposite torque. -/
theorem C89_clutch (hG : ∀ g, G g → g.OnlyForces) (hw : World.Hist G .opt h w)
    (hst : w.Standard h) (hs : w.Sensible h) {m : Nat} {d : ℝ} (hsle : w.sle = some (.gs m d))
    (hdt : 0 < dt) (e : w.process .opt env dt 1 = .ok w') {c b1 b2 : Nat} {r : Clutch ℝ}
    (hc : c ∈ regCons h) (hk : (w.cons c).kind = .clutch r)
    (h1 : (w.cons c).bodies 0 = .obj b1) (h2 : (w.cons c).bodies 1 = .obj b2)
    (hl : w.Lone (regCons h) c) :
    (w'.cons c).F_t 0 1 = max r.minTorque (min r.maxTorque
        ((w.freeVel dt b1 .th - w.freeVel dt b2 .th) /
          (dt * (1 / (w.bodies b1).I + 1 / (w.bodies b2).I)))) ∧
      (w'.cons c).F_t 0 0 = -(w'.cons c).F_t 0 1 ∧
      (w'.bodies b1).v_theta = w.freeVel dt b1 .th + dt * (w'.cons c).F_t 0 0 / (w.bodies b1).I ∧
      (w'.bodies b2).v_theta = w.freeVel dt b2 .th + dt * (w'.cons c).F_t 0 1 / (w.bodies b2).I := by
  have p := (hw.ready hG hst.wired).2
  have hc' := (hw.regs.cons.mem c).mpr hc
  have cn := hst.proper hw.regs c hc'
  simp only [hk, CKind.counts, Option.some.injEq, Prod.mk.injEq] at cn
  obtain ⟨F, f1, f2⟩ := C89_one_row hG hw hst hs hsle hdt e hc hl cn.1.symm
  have e1 : w.bodyOf c 0 = b1 := by rw [World.bodyOf, h1]
  have e2 : w.bodyOf c 1 = b2 := by rw [World.bodyOf, h2]
  obtain ⟨g1, g2⟩ := f2 .th 0 (by omega)
  obtain ⟨g3, g4⟩ := f2 .th 1 (by omega)
  have ha := (slip_bodies hst hs hw p hc).2 cn.2.symm
  have jj : ∀ k, (w.rowsOf w.now c).J 0 k = (CKind.clutch r).jT (w.now.q w c) 0 k := fun k => by
    rw [← hk]; rfl
  have j0 : (w.rowsOf w.now c).J 0 0 = 0 := jj 0
  have j1 : (w.rowsOf w.now c).J 0 1 = 0 := jj 1
  have j2 : (w.rowsOf w.now c).J 0 2 = -1 := jj 2
  have j3 : (w.rowsOf w.now c).J 0 3 = 0 := jj 3
  have j4 : (w.rowsOf w.now c).J 0 4 = 0 := jj 4
  have j5 : (w.rowsOf w.now c).J 0 5 = 1 := jj 5
  have j2' : (w.rowsOf w.now c).J 0 (0 * 3 + Coord.th.d) = -1 := jj 2
  have j5' : (w.rowsOf w.now c).J 0 (1 * 3 + Coord.th.d) = 1 := jj 5
  have c0 : (w.rowsOf w.now c).C 0 = 0 := by simp only [World.rowsOf, hk]; rfl
  have b0 : (w.rowsOf w.now c).v_bias 0 = 0 := by simp only [World.rowsOf, hk]; rfl
  rw [rowAt_two _ _ _ cn.2.symm h1 h2, coupling_two p hc' cn.2.symm ha, e1, e2] at f1
  simp only [Coord.sum, Coord.d, j0, j1, j2, j3, j4, j5, c0, b0, hk, Body.mass] at f1
  rw [j2'] at g1
  rw [j5', mul_one] at g3
  have g3' : (w'.cons c).F_t 0 1 = F := g3
  have g1' : (w'.cons c).F_t 0 0 = -F := by
    refine Eq.trans g1 ?_
    ring
  refine ⟨?_, by rw [g1', g3'], ?_, ?_⟩
  · rw [g3', f1]
    show max r.minTorque (min r.maxTorque _) = _
    congr 2
    ring
  · rw [e1] at g2; exact g2
  · rw [e2] at g4; exact g4

/-- The claim applied to a body turning with speed 5 and another one at rest, in a clutch that transmits
at most 2, for half a second: the clutch slips. -/
example (env : Env ℝ) : ∃ (h : List (Op ℝ)) (w w' : World ℝ), World.Hist Gen.Shipped .opt h w ∧
    (w.bodies 0).v_theta = 5 ∧ w.process .opt env (1 / 2) 1 = .ok w' ∧
    (w'.cons 0).F_t 0 1 = 2 ∧ (w'.bodies 0).v_theta = 4 ∧ (w'.bodies 1).v_theta = 1 := by
  obtain ⟨h, w, w', m, d, hst, hs, e⟩ := demo_gsOf (.clutch ⟨-2, 2, 0, 0⟩) nofun
    (g := .gravity 9) trivial (cs := [0]) (fg := [0]) (by decide) (by decide) trivial
    (by show (-2 : ℝ) ≤ 2; norm_num) trivial (e := 1 / 10) (by norm_num)
    (dt := 1 / 2) (by norm_num) env 1
  have q := C89_clutch (c := 0) (b1 := 0) (b2 := 1) (fun g => Gen.tame) d.hist hst hs d.sle
    (by norm_num) e (by rw [d.regC]; simp) (d.kind 0) (d.bodies 0 0) (d.bodies 0 1)
    (fun c' hc' hne => absurd (by rw [d.regC] at hc'; simpa using hc') hne)
  have hf : w.freeVel (1 / 2) 0 .th = 5 := demo_freeVel d 0
  have hf' : w.freeVel (1 / 2) 1 .th = 0 := demo_freeVel d 1
  rw [hf, hf', d.I, d.I] at q
  norm_num at q
  obtain ⟨q1, q2, q3, q4⟩ := q
  rw [q1] at q2 q4
  rw [q2] at q3
  exact ⟨h, w, w', d.hist, d.vel 0 .th, e, q1, by rw [q3]; norm_num, by rw [q4]; norm_num⟩

/-! ### Braking to a stop -/

theorem brake {s I T v : ℝ} (hs : 0 < s) (hI : 0 < I) (hT : 0 ≤ T) {v' : ℝ}
    (h : v' = v + s * max (-T) (min T (-v * I / s)) / I) :
    |v'| = max 0 (|v| - s * T / I) ∧ 0 ≤ v' * v := by
  have e : s * (-v * I / s) / I = -v := by field_simp
  have hst : 0 ≤ s * T / I := by positivity
  have mono : ∀ {a b : ℝ}, a ≤ b → s * a / I ≤ s * b / I := fun hab =>
    div_le_div_of_nonneg_right (mul_le_mul_of_nonneg_left hab hs.le) hI.le
  have en : s * -T / I = -(s * T / I) := by ring
  rcases le_total T (-v * I / s) with h1 | h1
  · rw [min_eq_left h1, max_eq_right (by linarith)] at h
    have h2 := mono h1
    rw [e] at h2
    have h3 : v' ≤ 0 := by linarith
    rw [abs_of_nonpos h3, abs_of_nonpos (by linarith : v ≤ 0), max_eq_right (by linarith)]
    exact ⟨by linarith, mul_nonneg_of_nonpos_of_nonpos h3 (by linarith)⟩
  · rw [min_eq_right h1] at h
    rcases le_total (-T) (-v * I / s) with h2 | h2
    · rw [max_eq_right h2, e, add_neg_cancel] at h
      have h3 := mono h1
      have h4 := mono h2
      rw [e] at h3 h4
      rw [en] at h4
      have : |v| ≤ s * T / I := abs_le.mpr ⟨by linarith, by linarith⟩
      rw [h, abs_zero, zero_mul, max_eq_left (by linarith)]
      exact ⟨rfl, le_rfl⟩
    · rw [max_eq_left h2, en] at h
      have h4 := mono h2
      rw [e, en] at h4
      have h3 : 0 ≤ v' := by linarith
      rw [abs_of_nonneg h3, abs_of_nonneg (by linarith : 0 ≤ v), max_eq_right (by linarith)]
      exact ⟨by linarith, mul_nonneg h3 (by linarith)⟩

/-- **C89**, braking: rotation friction with the torque limit `T` on a body on which no other torques act
reduces the speed of the body at the constant rate `T / I` until it stands and holds it there, whatever
the number of sub-steps; it never reverses the rotation. -/
theorem C89_brake (hG : ∀ g, G g → g.OnlyForces) (hw : World.Hist G .opt h w)
    (hst : w.Standard h) (hs : w.Sensible h) {m : Nat} {d : ℝ} (hsle : w.sle = some (.gs m d))
    (hdt : 0 < dt) (hn : 0 < steps) (e : w.process .opt env dt steps = .ok w') {c b : Nat}
    {r : RotationFriction ℝ} {T : ℝ} (hc : c ∈ regCons h) (hk : (w.cons c).kind = .rotationFriction r)
    (hT : r.minTorque = -T ∧ r.maxTorque = T)
    (hb : (w.cons c).bodies 0 = .obj b) (hl : w.Lone (regCons h) c) (hf : ∀ x, w.load x b .th = 0) :
    |(w'.bodies b).v_theta| = max 0 (|(w.bodies b).v_theta| - dt * T / (w.bodies b).I) ∧
      0 ≤ (w'.bodies b).v_theta * (w.bodies b).v_theta := by
  obtain ⟨X, mult, h0, hm, hg⟩ := hw.gs_moved hG hst hsle hdt e
  have p := (hw.ready hG hst.wired).2
  have hc' := (hw.regs.cons.mem c).mpr hc
  have cn := hst.proper hw.regs c hc'
  simp only [hk, CKind.counts, Option.some.injEq, Prod.mk.injEq] at cn
  rw [← hw.regs.cs_finset] at hl
  have e1 : w.bodyOf c 0 = b := by rw [World.bodyOf, hb]
  have hb' : b ∈ w.rb := by rw [← e1]; exact (p.bodies c hc' 0 (by omega)).2
  have hI : 0 < (w.bodies b).I := (hs.mass b ((hw.regs.bodies.mem b).mp hb')).2
  have hT0 : 0 ≤ T := by
    have : r.minTorque ≤ r.maxTorque := by
      have := hs.ordered c hc
      rw [hk] at this
      exact this
    linarith
  set s := dt / (steps : ℝ) with hsd
  have hspos : 0 < s := div_pos hdt (by exact_mod_cast hn)
  have step : ∀ i, i < steps.toNat → |(X (i + 1)).vel b .th| =
      max 0 (|(X i).vel b .th| - s * T / (w.bodies b).I) ∧
      0 ≤ (X (i + 1)).vel b .th * (X i).vel b .th := by
    intro i hi
    have st := hm.step i hi
    have h1 := cn.1.symm
    have ff := hl.force p hc' h1 hspos st (hg i hi) (hs.acts hst hw.regs _ c hc' 0 (by omega))
      (st.gs m d hsle hspos c hc' 0 (by omega) (hs.ordered c hc).le)
    have hv := hl.vel p hc' h1 (by omega) (fun h => by omega) st (k := 0) (by omega) .th
    have fr : w.freely s (X i) b .th = (X i).vel b .th := by
      rw [World.freely, hf, zero_div, mul_zero, add_zero]
    obtain ⟨t1, t2⟩ := torque_one p hc' cn.2.symm hb (x := X i)
      (by simp only [World.rowsOf, hk]; rfl) (by simp only [World.rowsOf, hk]; rfl)
      (by simp only [World.rowsOf, hk]; rfl) (w.freely s (X i))
    have j2 : (w.rowsOf (X i) c).J 0 (0 * 3 + Coord.th.d) = 1 := by
      simp only [World.rowsOf, hk]; rfl
    have c0 : (w.rowsOf (X i) c).C 0 = 0 := by simp only [World.rowsOf, hk]; rfl
    have b0 : (w.rowsOf (X i) c).v_bias 0 = 0 := by simp only [World.rowsOf, hk]; rfl
    rw [t1, t2, c0, b0, hk, mul_zero, add_zero, add_zero, fr] at ff
    have ff' : mult i c 0 = max (-T) (min T (-(X i).vel b .th * (w.bodies b).I / s)) := by
      refine ff.trans ?_
      show max r.minTorque (min r.maxTorque _) = _
      rw [hT.1, hT.2]
      congr 2
      field_simp
    rw [e1, fr, j2, mul_one] at hv
    refine brake hspos hI hT0 (hv.trans ?_)
    rw [ff', ← mul_div_assoc]
    rfl
  have key : ∀ n, n ≤ steps.toNat → |(X n).vel b .th| =
      max 0 (|(w.bodies b).v_theta| - n * (s * T / (w.bodies b).I)) ∧
      0 ≤ (X n).vel b .th * (w.bodies b).v_theta := by
    intro n
    induction n with
    | zero =>
      intro _
      rw [h0]
      refine ⟨?_, mul_self_nonneg _⟩
      rw [Nat.cast_zero, zero_mul, sub_zero, max_eq_right (abs_nonneg _)]
      rfl
    | succ n ih =>
      intro hn
      obtain ⟨i1, i2⟩ := ih (by omega)
      obtain ⟨s1, s2⟩ := step n (by omega)
      have hq : 0 ≤ s * T / (w.bodies b).I := by positivity
      constructor
      · rw [s1, i1]
        push_cast
        rcases le_total (|(w.bodies b).v_theta| - n * (s * T / (w.bodies b).I)) 0 with h | h
        · rw [max_eq_left h, max_eq_left (by linarith), max_eq_left (by linarith)]
        · rw [max_eq_right h]
          congr 1
          ring
      · rcases eq_or_ne ((X n).vel b .th) 0 with hz | hz
        · have : |(X (n + 1)).vel b .th| = 0 := by
            rw [s1, hz, abs_zero, zero_sub, max_eq_left (by linarith)]
          rw [abs_eq_zero.mp this, zero_mul]
        · have h3 := mul_nonneg s2 i2
          have h4 : 0 < (X n).vel b .th ^ 2 := by positivity
          refine le_of_mul_le_mul_left ?_ h4
          linarith
  obtain ⟨k1, k2⟩ := key _ le_rfl
  have hlast : (X steps.toNat).vel b .th = (w'.bodies b).v_theta := (hm.last b hb' .th).2
  rw [hlast] at k1 k2
  refine ⟨?_, k2⟩
  rw [k1]
  congr 2
  have : ((steps.toNat : Nat) : ℝ) = (steps : ℝ) := by
    have : ((steps.toNat : Nat) : Int) = steps := Int.toNat_of_nonneg hn.le
    exact_mod_cast this
  have hne : (steps : ℝ) ≠ 0 := by exact_mod_cast hn.ne'
  rw [this, hsd]
  field_simp

/-- The claim applied to a body turning with speed 5, a friction with at most the torque 2 and a second
in ten sub-steps. -/
example (env : Env ℝ) : ∃ (h : List (Op ℝ)) (w w' : World ℝ), World.Hist Gen.Shipped .opt h w ∧
    (w.bodies 0).v_theta = 5 ∧ w.process .opt env 1 10 = .ok w' ∧ (w'.bodies 0).v_theta = 3 := by
  obtain ⟨h, w, w', m, d, hst, hs, e⟩ := demo_gsOf (.rotationFriction ⟨-2, 2, 0, 0⟩) nofun
    (g := .gravity 9) trivial (cs := [0]) (fg := [0]) (by decide) (by decide) trivial
    (by show (-2 : ℝ) ≤ 2; norm_num) trivial (e := 1 / 10) (by norm_num)
    (dt := 1) (by norm_num) env 10
  have v0 : (w.bodies 0).v_theta = 5 := d.vel 0 .th
  obtain ⟨q1, q2⟩ := C89_brake (c := 0) (b := 0) (T := 2) (fun g => Gen.tame) d.hist hst hs d.sle
    (by norm_num) (by norm_num) e (by rw [d.regC]; simp) (d.kind 0) ⟨rfl, rfl⟩ (d.bodies 0 0)
    (fun c' hc' hne => absurd (by rw [d.regC] at hc'; simpa using hc') hne) (fun x => demo_free d x 0)
  rw [v0, d.I] at q1
  rw [v0] at q2
  norm_num at q1
  rw [abs_of_nonneg (by linarith)] at q1
  exact ⟨h, w, w', d.hist, v0, e, q1⟩

end

end Scs
