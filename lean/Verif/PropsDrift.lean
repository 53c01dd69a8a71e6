import Verif.WorldDrift

/-!
# C69: position errors are corrected

The optimized system corrects position errors by the velocities it gives the bodies: in each sub-step
the error of a position constraint is multiplied by `1 - biasFactor`, up to a term of second order in
the angle by which the bodies turn in the sub-step. `w.now.point b px py` is the place of the point
with local coordinates `(px, py)` of body `b`, `len` is the Euclidean length of a vector.
-/

namespace Scs

open Finset

section
variable {G : Gen ℝ → Prop} {h : List (Op ℝ)} {w w' : World ℝ} {env : Env ℝ} {dt : ℝ} {steps : Int}

theorem World.Shows.pointEq {x : Motion} (hs : w.Shows x w'.bodies) {b : Nat} (hb : b ∈ w.rb)
    (px py : ℝ) : x.point b px py = w'.now.point b px py := by
  simp only [Motion.point, World.now, (hs b hb _).1]

/-- What is multiplied by `a` in each step. -/
theorem geometric {e : Nat → ℝ × ℝ} {a : ℝ} {n : Nat} (he : ∀ i, i < n → e (i + 1) = a • e i) :
    e n = a ^ n • e 0 := by
  induction n with
  | zero => rw [pow_zero, one_smul]
  | succ n ih => rw [he n (by omega), ih fun i hi => he i (by omega), smul_smul, pow_succ']

/-! ## Fixed rotation -/

/-- **C69** for a fixed rotation: `process` with `n` sub-steps multiplies the deviation of the angle
by `(1 - biasFactor) ^ n`. -/
theorem C69_fixed_rotation (hG : ∀ g, G g → g.OnlyForces) (hw : World.Hist G .opt h w)
    (hst : w.Standard h) (hsle : w.sle = some .ge) (e : w.process .opt env dt steps = .ok w')
    {c b : Nat} (hc : c ∈ regCons h) {l : FixedRotation ℝ}
    (hk : (w.cons c).kind = .fixedRotation l) (h1 : (w.cons c).bodies 0 = .obj b) :
    (w'.bodies b).theta - l.rotation =
      (1 - w.bias) ^ steps.toNat * ((w.bodies b).theta - l.rotation) := by
  have hcount := hst.kind c hc
  simp only [hk, CKind.counts, Option.some.injEq, Prod.mk.injEq] at hcount
  obtain ⟨hr, hn⟩ := hcount
  obtain ⟨X, mult, h0, hm⟩ := hw.moved hG hst e
  obtain ⟨b', hb', e1⟩ := hst.bodies c hc 0 (by omega)
  have hb : b ∈ w.rb := (hw.regs.bodies.mem b).mpr
    (by rw [h1] at e1; injection e1 with e1; exact e1 ▸ hb')
  have hc' := (hw.regs.cons.mem c).mpr hc
  have := geometric (e := fun i => ((X i).pos b .th - l.rotation, 0)) (a := 1 - w.bias)
    (n := steps.toNat) fun i hi => by
      refine Prod.ext ?_ ?_
      · simpa using drift_rotation (hm.step i hi) hsle hc' hk hr.symm hn.symm hb h1
      · simp
  have t := congrArg Prod.fst this
  simp only [(hm.last b hb .th).1, (hm.first b hb .th).1, Body.pos, Prod.smul_fst, smul_eq_mul] at t
  exact t

/-- The claim applied to a turning body, with four sub-steps. -/
example (env : Env ℝ) : ∃ (h : List (Op ℝ)) (w w' : World ℝ), World.Hist Gen.Shipped .opt h w ∧
    (w.bodies 0).v_theta = 5 ∧ w.process .opt env 2 4 = .ok w' ∧
    (w'.bodies 0).theta - 7 = (1 - w.bias) ^ 4 * ((w.bodies 0).theta - 7) := by
  obtain ⟨h, w, w', d, hst, e⟩ := demo_turns (turns_fixed ⟨7, 0, 0⟩) (g := .gravity 9)
    trivial trivial (sv := .ge) trivial (two_ne_zero) 4 env
  exact ⟨h, w, w', d.hist, d.vel 0 .th, e, C69_fixed_rotation (fun g => Gen.tame) d.hist hst
    d.sle e (d.mem0 rfl) (d.kind 0) (d.bodies 0 0)⟩

/-! ## A pinned point -/

section
variable (hG : ∀ g, G g → g.OnlyForces) (hw : World.Hist G .opt h w)
    (hst : w.Standard h) (hsle : w.sle = some .ge) (e : w.process .opt env dt steps = .ok w')
    {c b : Nat} (hc : c ∈ regCons h) {l : FixedPosition ℝ} (hk : (w.cons c).kind = .fixedPosition l)
    (h1 : (w.cons c).bodies 0 = .obj b)
include hG hw hst hsle e hc hk h1

/-- The sub-steps of a pinned point. -/
theorem drift_pin : ∃ X mult, X 0 = w.now ∧ w.Moved dt steps w' X mult ∧ b ∈ w.rb ∧
    ∀ i, i < steps.toNat → (X (i + 1)).point b l.local_x l.local_y - (l.world_x, l.world_y) =
      (1 - w.bias) • ((X i).point b l.local_x l.local_y - (l.world_x, l.world_y)) +
        bend ((X i).pos b .th) ((X (i + 1)).pos b .th - (X i).pos b .th) l.local_x l.local_y := by
  have hcount := hst.kind c hc
  simp only [hk, CKind.counts, Option.some.injEq, Prod.mk.injEq] at hcount
  obtain ⟨hr, hn⟩ := hcount
  obtain ⟨X, mult, h0, hm⟩ := hw.moved hG hst e
  obtain ⟨b', hb', e1⟩ := hst.bodies c hc 0 (by omega)
  have hb : b ∈ w.rb := (hw.regs.bodies.mem b).mpr
    (by rw [h1] at e1; injection e1 with e1; exact e1 ▸ hb')
  exact ⟨X, mult, h0, hm, hb, fun i hi => drift_position (hm.step i hi) hsle
    ((hw.regs.cons.mem c).mpr hc) hk hr.symm hn.symm hb h1⟩

/-- **C69** for a body pinned at its centre of mass: `process` with `n` sub-steps multiplies the
distance vector from the place it is pinned to by `(1 - biasFactor) ^ n`. -/
theorem C69_fixed_centre (hx : l.local_x = 0) (hy : l.local_y = 0) :
    ((w'.bodies b).p_x - l.world_x, (w'.bodies b).p_y - l.world_y) = (1 - w.bias) ^ steps.toNat •
      (((w.bodies b).p_x - l.world_x, (w.bodies b).p_y - l.world_y) : ℝ × ℝ) := by
  obtain ⟨X, mult, h0, hm, hb, hs⟩ := drift_pin hG hw hst hsle e hc hk h1
  have := geometric (e := fun i => (X i).point b l.local_x l.local_y - (l.world_x, l.world_y))
    (a := 1 - w.bias) (n := steps.toNat) fun i hi => by
      rw [hs i hi, hx, hy, bend_zero, add_zero]
  rw [hm.last.pointEq hb, h0, hx, hy] at this
  simpa [Motion.point, World.now, Body.pos] using this

/-- **C69** for a pinned point, one sub-step: the distance from the place the point is pinned to is
multiplied by at most `|1 - biasFactor|`, up to half the squared angle of the turn times the distance
of the point from the centre of mass. -/
theorem C69_fixed_position (h2 : steps = 1) :
    len (w'.now.point b l.local_x l.local_y - (l.world_x, l.world_y)) ≤
      |1 - w.bias| * len (w.now.point b l.local_x l.local_y - (l.world_x, l.world_y)) +
        ((w'.bodies b).theta - (w.bodies b).theta) ^ 2 / 2 * len (l.local_x, l.local_y) := by
  obtain ⟨X, mult, h0, hm, hb, hs⟩ := drift_pin hG hw hst hsle e hc hk h1
  subst h2
  have hl := hm.last
  have := hs 0 (by decide)
  simp only [show (1 : Int).toNat = 1 from rfl] at hl
  rw [hl.pointEq hb, h0, (hl b hb .th).1] at this
  rw [this, ← len_smul]
  exact (len_add_le _ _).trans (add_le_add le_rfl (bend_le _ _ _ _))

/-- **C69** for a pinned point with `biasFactor = 1` and any number of sub-steps: whatever the error
was, it is at most half the squared angle of the turn in the last sub-step times the distance of the
point from the centre of mass. -/
theorem C69_fixed_position_default (hb1 : w.bias = 1) (h2 : 0 < steps) :
    len (w'.now.point b l.local_x l.local_y - (l.world_x, l.world_y)) ≤
      (dt / steps * (w'.bodies b).v_theta) ^ 2 / 2 * len (l.local_x, l.local_y) := by
  obtain ⟨X, mult, h0, hm, hb, hs⟩ := drift_pin hG hw hst hsle e hc hk h1
  obtain ⟨n, hn⟩ : ∃ n, steps.toNat = n + 1 := ⟨steps.toNat - 1, by omega⟩
  have hl := hm.last
  have := hs n (by omega)
  have hp := (hm.step n (by omega)).pos b hb .th
  rw [hn] at hl
  rw [hl.pointEq hb, hb1, sub_self, zero_smul, zero_add, hp, add_sub_cancel_left,
    (hl b hb .th).2] at this
  rw [this]
  exact bend_le _ _ _ _

end

/-- The claim applied to a turning body pinned at its centre of mass, with three sub-steps. -/
example (env : Env ℝ) : ∃ (h : List (Op ℝ)) (w w' : World ℝ), World.Hist Gen.Shipped .opt h w ∧
    w.process .opt env 2 3 = .ok w' ∧
    ((w'.bodies 0).p_x - 5, (w'.bodies 0).p_y - 6) = (1 - w.bias) ^ 3 •
      (((w.bodies 0).p_x - 5, (w.bodies 0).p_y - 6) : ℝ × ℝ) := by
  obtain ⟨h, w, w', d, hst, e⟩ := demo_pins (pins_fixed ⟨0, 0, 5, 6, 0, 0⟩) (g := .gravity 9)
    trivial trivial (sv := .ge) trivial (by simp) (two_ne_zero) 3 env
  exact ⟨h, w, w', d.hist, e, C69_fixed_centre (fun g => Gen.tame) d.hist hst d.sle e
    (d.mem0 rfl) (d.kind 0) (d.bodies 0 0) rfl rfl⟩

/-- The claims applied to a turning body pinned at another point; the factor is that of a new
system. -/
example (env : Env ℝ) : ∃ (h : List (Op ℝ)) (w w' : World ℝ), World.Hist Gen.Shipped .opt h w ∧
    w.process .opt env 2 1 = .ok w' ∧
    len (w'.now.point 0 1 3 - (5, 6)) ≤ |1 - w.bias| * len (w.now.point 0 1 3 - (5, 6)) +
      ((w'.bodies 0).theta - (w.bodies 0).theta) ^ 2 / 2 * len (1, 3) := by
  obtain ⟨h, w, w', d, hst, e⟩ := demo_pins (pins_fixed ⟨1, 3, 5, 6, 0, 0⟩) (g := .gravity 9)
    trivial trivial (sv := .ge) trivial (by simp) (two_ne_zero) 1 env
  exact ⟨h, w, w', d.hist, e, C69_fixed_position (fun g => Gen.tame) d.hist hst d.sle e
    (d.mem0 rfl) (d.kind 0) (d.bodies 0 0) rfl⟩

example (env : Env ℝ) : ∃ (h : List (Op ℝ)) (w w' : World ℝ), World.Hist Gen.Shipped .opt h w ∧
    w.bias = 1 ∧ w.process .opt env 2 5 = .ok w' ∧
    len (w'.now.point 0 1 3 - (5, 6)) ≤
      (2 / (5 : Int) * (w'.bodies 0).v_theta) ^ 2 / 2 * len (1, 3) := by
  obtain ⟨h, w, w', d, hst, e⟩ := demo_pins (pins_fixed ⟨1, 3, 5, 6, 0, 0⟩) (g := .gravity 9)
    trivial trivial (sv := .ge) trivial (by simp) (two_ne_zero) 5 env
  exact ⟨h, w, w', d.hist, d.bias, e, C69_fixed_position_default (fun g => Gen.tame) d.hist hst
    d.sle e (d.mem0 rfl) (d.kind 0) (d.bodies 0 0) d.bias (by decide)⟩

/-! ## A link -/

section
variable (hG : ∀ g, G g → g.OnlyForces) (hw : World.Hist G .opt h w)
    (hst : w.Standard h) (hsle : w.sle = some .ge) (e : w.process .opt env dt steps = .ok w')
    {c b1 b2 : Nat} (hc : c ∈ regCons h) {l : Link ℝ} (hk : (w.cons c).kind = .link l)
    (h1 : (w.cons c).bodies 0 = .obj b1) (h2 : (w.cons c).bodies 1 = .obj b2)
include hG hw hst hsle e hc hk h1 h2

/-- The sub-steps of a link. -/
theorem drift_linked : ∃ X mult, X 0 = w.now ∧ w.Moved dt steps w' X mult ∧ b1 ∈ w.rb ∧ b2 ∈ w.rb ∧
    ∀ i, i < steps.toNat → (X (i + 1)).point b1 l.local_x_1 l.local_y_1 -
        (X (i + 1)).point b2 l.local_x_2 l.local_y_2 =
      (1 - w.bias) • ((X i).point b1 l.local_x_1 l.local_y_1 -
        (X i).point b2 l.local_x_2 l.local_y_2) +
      (bend ((X i).pos b1 .th) ((X (i + 1)).pos b1 .th - (X i).pos b1 .th) l.local_x_1 l.local_y_1 -
        bend ((X i).pos b2 .th) ((X (i + 1)).pos b2 .th - (X i).pos b2 .th)
          l.local_x_2 l.local_y_2) := by
  have hcount := hst.kind c hc
  simp only [hk, CKind.counts, Option.some.injEq, Prod.mk.injEq] at hcount
  obtain ⟨hr, hn⟩ := hcount
  obtain ⟨X, mult, h0, hm⟩ := hw.moved hG hst e
  obtain ⟨b', hb', e1⟩ := hst.bodies c hc 0 (by omega)
  obtain ⟨b'', hb'', e2⟩ := hst.bodies c hc 1 (by omega)
  have q1 : b1 ∈ w.rb := (hw.regs.bodies.mem b1).mpr
    (by rw [h1] at e1; injection e1 with e1; exact e1 ▸ hb')
  have q2 : b2 ∈ w.rb := (hw.regs.bodies.mem b2).mpr
    (by rw [h2] at e2; injection e2 with e2; exact e2 ▸ hb'')
  exact ⟨X, mult, h0, hm, q1, q2, fun i hi => drift_link (hm.step i hi) hsle
    ((hw.regs.cons.mem c).mpr hc) hk hr.symm hn.symm q1 q2 h1 h2⟩

/-- **C69** for bodies linked at their centres of mass: `process` with `n` sub-steps multiplies the
distance vector of the centres by `(1 - biasFactor) ^ n`. -/
theorem C69_link_centres
    (hl : l.local_x_1 = 0 ∧ l.local_y_1 = 0 ∧ l.local_x_2 = 0 ∧ l.local_y_2 = 0) :
    ((w'.bodies b1).p_x - (w'.bodies b2).p_x, (w'.bodies b1).p_y - (w'.bodies b2).p_y) =
      (1 - w.bias) ^ steps.toNat • (((w.bodies b1).p_x - (w.bodies b2).p_x,
        (w.bodies b1).p_y - (w.bodies b2).p_y) : ℝ × ℝ) := by
  obtain ⟨X, mult, h0, hm, q1, q2, hs⟩ := drift_linked hG hw hst hsle e hc hk h1 h2
  obtain ⟨a1, a2, a3, a4⟩ := hl
  have := geometric (e := fun i => (X i).point b1 l.local_x_1 l.local_y_1 -
      (X i).point b2 l.local_x_2 l.local_y_2)
    (a := 1 - w.bias) (n := steps.toNat) fun i hi => by
      rw [hs i hi, a1, a2, a3, a4, bend_zero, bend_zero, sub_zero, add_zero]
  rw [hm.last.pointEq q1, hm.last.pointEq q2, h0, a1, a2, a3, a4] at this
  simpa [Motion.point, World.now, Body.pos] using this

/-- **C69** for a link, one sub-step: the distance of the linked points is multiplied by at most
`|1 - biasFactor|`, up to half the squared angles of the turns times the distances of the points from
the centres of mass. -/
theorem C69_link (hs1 : steps = 1) :
    len (w'.now.point b1 l.local_x_1 l.local_y_1 - w'.now.point b2 l.local_x_2 l.local_y_2) ≤
      |1 - w.bias| * len (w.now.point b1 l.local_x_1 l.local_y_1 -
        w.now.point b2 l.local_x_2 l.local_y_2) +
      (((w'.bodies b1).theta - (w.bodies b1).theta) ^ 2 / 2 * len (l.local_x_1, l.local_y_1) +
        ((w'.bodies b2).theta - (w.bodies b2).theta) ^ 2 / 2 * len (l.local_x_2, l.local_y_2)) := by
  obtain ⟨X, mult, h0, hm, q1, q2, hs⟩ := drift_linked hG hw hst hsle e hc hk h1 h2
  subst hs1
  have hl := hm.last
  have := hs 0 (by decide)
  simp only [show (1 : Int).toNat = 1 from rfl] at hl
  rw [hl.pointEq q1, hl.pointEq q2, h0, (hl b1 q1 .th).1, (hl b2 q2 .th).1] at this
  rw [this, ← len_smul]
  exact (len_add_le _ _).trans (add_le_add le_rfl ((len_sub_le _ _).trans
    (add_le_add (bend_le _ _ _ _) (bend_le _ _ _ _))))

/-- **C69** for a link with `biasFactor = 1` and any number of sub-steps. -/
theorem C69_link_default (hb1 : w.bias = 1) (hs1 : 0 < steps) :
    len (w'.now.point b1 l.local_x_1 l.local_y_1 - w'.now.point b2 l.local_x_2 l.local_y_2) ≤
      (dt / steps * (w'.bodies b1).v_theta) ^ 2 / 2 * len (l.local_x_1, l.local_y_1) +
        (dt / steps * (w'.bodies b2).v_theta) ^ 2 / 2 * len (l.local_x_2, l.local_y_2) := by
  obtain ⟨X, mult, h0, hm, q1, q2, hs⟩ := drift_linked hG hw hst hsle e hc hk h1 h2
  obtain ⟨n, hn⟩ : ∃ n, steps.toNat = n + 1 := ⟨steps.toNat - 1, by omega⟩
  have hl := hm.last
  have := hs n (by omega)
  have p1 := (hm.step n (by omega)).pos b1 q1 .th
  have p2 := (hm.step n (by omega)).pos b2 q2 .th
  rw [hn] at hl
  rw [hl.pointEq q1, hl.pointEq q2, hb1, sub_self, zero_smul, zero_add, p1, p2, add_sub_cancel_left,
    add_sub_cancel_left, (hl b1 q1 .th).2, (hl b2 q2 .th).2] at this
  rw [this]
  exact (len_sub_le _ _).trans (add_le_add (bend_le _ _ _ _) (bend_le _ _ _ _))

end

/-- The claim applied to two bodies linked at their centres of mass, with three sub-steps. -/
example (env : Env ℝ) : ∃ (h : List (Op ℝ)) (w w' : World ℝ), World.Hist Gen.Shipped .opt h w ∧
    w.process .opt env 2 3 = .ok w' ∧
    ((w'.bodies 0).p_x - (w'.bodies 1).p_x, (w'.bodies 0).p_y - (w'.bodies 1).p_y) =
      (1 - w.bias) ^ 3 • (((w.bodies 0).p_x - (w.bodies 1).p_x,
        (w.bodies 0).p_y - (w.bodies 1).p_y) : ℝ × ℝ) := by
  obtain ⟨h, w, w', d, hst, e⟩ := demo_pins (pins_link ⟨0, 0, 0, 0, 9, 0, 0⟩) (g := .gravity 9)
    trivial trivial (sv := .ge) trivial (by simp) (two_ne_zero) 3 env
  exact ⟨h, w, w', d.hist, e, C69_link_centres (fun g => Gen.tame) d.hist hst d.sle e
    (d.mem0 rfl) (d.kind 0) (d.bodies 0 0) (d.bodies 0 1) ⟨rfl, rfl, rfl, rfl⟩⟩

/-- The claims applied to two bodies linked at other points. -/
example (env : Env ℝ) : ∃ (h : List (Op ℝ)) (w w' : World ℝ), World.Hist Gen.Shipped .opt h w ∧
    w.process .opt env 2 1 = .ok w' ∧
    len (w'.now.point 0 1 3 - w'.now.point 1 4 7) ≤
      |1 - w.bias| * len (w.now.point 0 1 3 - w.now.point 1 4 7) +
      (((w'.bodies 0).theta - (w.bodies 0).theta) ^ 2 / 2 * len (1, 3) +
        ((w'.bodies 1).theta - (w.bodies 1).theta) ^ 2 / 2 * len (4, 7)) := by
  obtain ⟨h, w, w', d, hst, e⟩ := demo_pins (pins_link ⟨1, 3, 4, 7, 9, 0, 0⟩) (g := .gravity 9)
    trivial trivial (sv := .ge) trivial (by simp) (two_ne_zero) 1 env
  exact ⟨h, w, w', d.hist, e, C69_link (fun g => Gen.tame) d.hist hst d.sle e (d.mem0 rfl)
    (d.kind 0) (d.bodies 0 0) (d.bodies 0 1) rfl⟩

example (env : Env ℝ) : ∃ (h : List (Op ℝ)) (w w' : World ℝ), World.Hist Gen.Shipped .opt h w ∧
    w.bias = 1 ∧ w.process .opt env 2 5 = .ok w' ∧
    len (w'.now.point 0 1 3 - w'.now.point 1 4 7) ≤
      (2 / (5 : Int) * (w'.bodies 0).v_theta) ^ 2 / 2 * len (1, 3) +
        (2 / (5 : Int) * (w'.bodies 1).v_theta) ^ 2 / 2 * len (4, 7) := by
  obtain ⟨h, w, w', d, hst, e⟩ := demo_pins (pins_link ⟨1, 3, 4, 7, 9, 0, 0⟩) (g := .gravity 9)
    trivial trivial (sv := .ge) trivial (by simp) (two_ne_zero) 5 env
  exact ⟨h, w, w', d.hist, d.bias, e, C69_link_default (fun g => Gen.tame) d.hist hst d.sle e
    (d.mem0 rfl) (d.kind 0) (d.bodies 0 0) (d.bodies 0 1) d.bias (by decide)⟩

/-! ## A point on a line -/

/-- The distance of a point from the line through `(p0_x, p0_y)` with direction `(dx, dy)`, times the
length of `(dx, dy)`; the sign tells the side. -/
def offLine (l : Line ℝ) (p : ℝ × ℝ) : ℝ := (p.1 - l.p0_x) * -l.dy + (p.2 - l.p0_y) * l.dx

theorem offLine_le (l : Line ℝ) (v : ℝ × ℝ) : |v.1 * -l.dy + v.2 * l.dx| ≤ len (l.dx, l.dy) * len v := by
  simp only [len]
  rw [← Real.sqrt_sq_eq_abs, ← Real.sqrt_mul (by positivity)]
  refine Real.sqrt_le_sqrt ?_
  nlinarith [sq_nonneg (v.1 * l.dx + v.2 * l.dy)]

section
variable (hG : ∀ g, G g → g.OnlyForces) (hw : World.Hist G .opt h w)
    (hst : w.Standard h) (hsle : w.sle = some .ge) (e : w.process .opt env dt steps = .ok w')
    {c b : Nat} (hc : c ∈ regCons h) {l : Line ℝ} (hk : (w.cons c).kind = .line l)
    (h1 : (w.cons c).bodies 0 = .obj b)
include hG hw hst hsle e hc hk h1

/-- The sub-steps of a point on a line. -/
theorem drift_on_line : ∃ X mult, X 0 = w.now ∧ w.Moved dt steps w' X mult ∧ b ∈ w.rb ∧
    ∀ i, i < steps.toNat → offLine l ((X (i + 1)).point b l.local_x l.local_y) =
      (1 - w.bias) * offLine l ((X i).point b l.local_x l.local_y) +
        ((bend ((X i).pos b .th) ((X (i + 1)).pos b .th - (X i).pos b .th) l.local_x l.local_y).1 *
            -l.dy +
          (bend ((X i).pos b .th) ((X (i + 1)).pos b .th - (X i).pos b .th) l.local_x l.local_y).2 *
            l.dx) := by
  have hcount := hst.kind c hc
  simp only [hk, CKind.counts, Option.some.injEq, Prod.mk.injEq] at hcount
  obtain ⟨hr, hn⟩ := hcount
  obtain ⟨X, mult, h0, hm⟩ := hw.moved hG hst e
  obtain ⟨b', hb', e1⟩ := hst.bodies c hc 0 (by omega)
  have hb : b ∈ w.rb := (hw.regs.bodies.mem b).mpr
    (by rw [h1] at e1; injection e1 with e1; exact e1 ▸ hb')
  exact ⟨X, mult, h0, hm, hb, fun i hi => drift_line (hm.step i hi) hsle
    ((hw.regs.cons.mem c).mpr hc) hk hr.symm hn.symm hb h1⟩

/-- **C69** for a body whose centre of mass must be on a line: `process` with `n` sub-steps multiplies
its distance from the line by `(1 - biasFactor) ^ n`. -/
theorem C69_line_centre (hx : l.local_x = 0) (hy : l.local_y = 0) :
    offLine l ((w'.bodies b).p_x, (w'.bodies b).p_y) =
      (1 - w.bias) ^ steps.toNat * offLine l ((w.bodies b).p_x, (w.bodies b).p_y) := by
  obtain ⟨X, mult, h0, hm, hb, hs⟩ := drift_on_line hG hw hst hsle e hc hk h1
  have := geometric (e := fun i => (offLine l ((X i).point b l.local_x l.local_y), 0))
    (a := 1 - w.bias) (n := steps.toNat) fun i hi => by
      refine Prod.ext ?_ ?_
      · have := hs i hi
        rw [hx, hy] at this ⊢
        rw [bend_zero] at this
        simpa using this
      · simp
  have t := congrArg Prod.fst this
  simp only [hm.last.pointEq hb, h0, hx, hy] at t
  simpa [Motion.point, World.now, Body.pos] using t

/-- **C69** for a point on a line, one sub-step. -/
theorem C69_line (h2 : steps = 1) :
    |offLine l (w'.now.point b l.local_x l.local_y)| ≤
      |1 - w.bias| * |offLine l (w.now.point b l.local_x l.local_y)| +
        len (l.dx, l.dy) * (((w'.bodies b).theta - (w.bodies b).theta) ^ 2 / 2 *
          len (l.local_x, l.local_y)) := by
  obtain ⟨X, mult, h0, hm, hb, hs⟩ := drift_on_line hG hw hst hsle e hc hk h1
  subst h2
  have hl := hm.last
  have := hs 0 (by decide)
  simp only [show (1 : Int).toNat = 1 from rfl] at hl
  rw [hl.pointEq hb, h0, (hl b hb .th).1] at this
  rw [this, ← abs_mul]
  exact (abs_add_le _ _).trans (add_le_add le_rfl ((offLine_le _ _).trans
    (mul_le_mul_of_nonneg_left (bend_le _ _ _ _) (len_nonneg _))))

/-- **C69** for a point on a line with `biasFactor = 1` and any number of sub-steps. -/
theorem C69_line_default (hb1 : w.bias = 1) (h2 : 0 < steps) :
    |offLine l (w'.now.point b l.local_x l.local_y)| ≤
      len (l.dx, l.dy) * ((dt / steps * (w'.bodies b).v_theta) ^ 2 / 2 *
          len (l.local_x, l.local_y)) := by
  obtain ⟨X, mult, h0, hm, hb, hs⟩ := drift_on_line hG hw hst hsle e hc hk h1
  obtain ⟨n, hn⟩ : ∃ n, steps.toNat = n + 1 := ⟨steps.toNat - 1, by omega⟩
  have hl := hm.last
  have := hs n (by omega)
  have hp := (hm.step n (by omega)).pos b hb .th
  rw [hn] at hl
  rw [hl.pointEq hb, hb1, sub_self, zero_mul, zero_add, hp, add_sub_cancel_left,
    (hl b hb .th).2] at this
  rw [this]
  exact (offLine_le _ _).trans (mul_le_mul_of_nonneg_left (bend_le _ _ _ _) (len_nonneg _))

end

/-- The claims applied to a turning body on an oblique line. -/
example (env : Env ℝ) : ∃ (h : List (Op ℝ)) (w w' : World ℝ), World.Hist Gen.Shipped .opt h w ∧
    w.process .opt env 2 3 = .ok w' ∧
    offLine ⟨0, 0, 5, 6, 3, 4, 0, 0⟩ ((w'.bodies 0).p_x, (w'.bodies 0).p_y) =
      (1 - w.bias) ^ 3 * offLine ⟨0, 0, 5, 6, 3, 4, 0, 0⟩ ((w.bodies 0).p_x, (w.bodies 0).p_y) := by
  obtain ⟨h, w, w', d, hst, e⟩ := demo_turns (turns_line ⟨0, 0, 5, 6, 3, 4, 0, 0⟩ (by norm_num))
    (g := .gravity 9) trivial trivial (sv := .ge) trivial (two_ne_zero) 3 env
  exact ⟨h, w, w', d.hist, e, C69_line_centre (fun g => Gen.tame) d.hist hst d.sle e
    (d.mem0 rfl) (d.kind 0) (d.bodies 0 0) rfl rfl⟩

example (env : Env ℝ) : ∃ (h : List (Op ℝ)) (w w' : World ℝ), World.Hist Gen.Shipped .opt h w ∧
    w.process .opt env 2 1 = .ok w' ∧
    |offLine ⟨1, 3, 5, 6, 3, 4, 0, 0⟩ (w'.now.point 0 1 3)| ≤
      |1 - w.bias| * |offLine ⟨1, 3, 5, 6, 3, 4, 0, 0⟩ (w.now.point 0 1 3)| +
        len (3, 4) * (((w'.bodies 0).theta - (w.bodies 0).theta) ^ 2 / 2 * len (1, 3)) := by
  obtain ⟨h, w, w', d, hst, e⟩ := demo_turns (turns_line ⟨1, 3, 5, 6, 3, 4, 0, 0⟩ (by norm_num))
    (g := .gravity 9) trivial trivial (sv := .ge) trivial (two_ne_zero) 1 env
  exact ⟨h, w, w', d.hist, e, C69_line (fun g => Gen.tame) d.hist hst d.sle e
    (d.mem0 rfl) (d.kind 0) (d.bodies 0 0) rfl⟩

example (env : Env ℝ) : ∃ (h : List (Op ℝ)) (w w' : World ℝ), World.Hist Gen.Shipped .opt h w ∧
    w.bias = 1 ∧ w.process .opt env 2 5 = .ok w' ∧
    |offLine ⟨1, 3, 5, 6, 3, 4, 0, 0⟩ (w'.now.point 0 1 3)| ≤
        len (3, 4) * ((2 / (5 : Int) * (w'.bodies 0).v_theta) ^ 2 / 2 * len (1, 3)) := by
  obtain ⟨h, w, w', d, hst, e⟩ := demo_turns (turns_line ⟨1, 3, 5, 6, 3, 4, 0, 0⟩ (by norm_num))
    (g := .gravity 9) trivial trivial (sv := .ge) trivial (two_ne_zero) 5 env
  exact ⟨h, w, w', d.hist, d.bias, e, C69_line_default (fun g => Gen.tame) d.hist hst d.sle e
    (d.mem0 rfl) (d.kind 0) (d.bodies 0 0) d.bias (by decide)⟩

end

end Scs
