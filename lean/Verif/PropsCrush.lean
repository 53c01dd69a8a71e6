import Verif.PropsTorqueBudget

/-!
# C126: springs compressed to less than a hundredth
-/

namespace Scs

open Finset

/-- A spring from the centre of body `b1` to a point of body `b2` whose ends are less than 0.01 apart. -/
def Spring.Crushed (p : Spring ℝ) (w : World ℝ) (b1 b2 : Nat) : Prop :=
  p.body1 = .obj b1 ∧ p.body2 = .obj b2 ∧ p.p1_x = 0 ∧ p.p1_y = 0 ∧
    ((w.bodies b1).p_x - ((w.bodies b2).p_x + (Real.cos (w.bodies b2).theta * p.p2_x -
      Real.sin (w.bodies b2).theta * p.p2_y))) ^ 2 +
    ((w.bodies b1).p_y - ((w.bodies b2).p_y + (Real.sin (w.bodies b2).theta * p.p2_x +
      Real.cos (w.bodies b2).theta * p.p2_y))) ^ 2 < (1 / 100) ^ 2

section
variable {G : Gen ℝ → Prop} {h : List (Op ℝ)} {w w' : World ℝ} {env : Env ℝ} {dt : ℝ} {steps : Int}

/-- The bodies move together as at the start. -/
structure Together (w : World ℝ) (b1 b2 : Nat) (x : Motion) : Prop where
  vx : x.vel b1 .x = x.vel b2 .x
  vy : x.vel b1 .y = x.vel b2 .y
  x1 : x.vel b1 .x = (w.bodies b1).v_x
  vt : x.vel b2 .th = 0
  vt1 : x.vel b1 .th = (w.bodies b1).v_theta
  px : x.pos b1 .x - x.pos b2 .x = (w.bodies b1).p_x - (w.bodies b2).p_x
  py : x.pos b1 .y - x.pos b2 .y = (w.bodies b1).p_y - (w.bodies b2).p_y
  pt : x.pos b2 .th = (w.bodies b2).theta

theorem Spring.Crushed.pull {p : Spring ℝ} {b1 b2 : Nat} (hp : p.Crushed w b1 b2) {x : Motion}
    (t : Together w b1 b2 x) : p.pullOn x b1 b2 = (0, 0) := by
  obtain ⟨-, -, z1, z2, hd⟩ := hp
  have hlt : ¬ (1 / 100 ≤ distOf (x.point b1 p.p1_x p.p1_y) (x.point b2 p.p2_x p.p2_y)) := by
    rw [not_le]
    have e : distOf (x.point b1 p.p1_x p.p1_y) (x.point b2 p.p2_x p.p2_y) =
        √(((w.bodies b1).p_x - ((w.bodies b2).p_x + (Real.cos (w.bodies b2).theta * p.p2_x -
      Real.sin (w.bodies b2).theta * p.p2_y))) ^ 2 +
    ((w.bodies b1).p_y - ((w.bodies b2).p_y + (Real.sin (w.bodies b2).theta * p.p2_x +
      Real.cos (w.bodies b2).theta * p.p2_y))) ^ 2) := by
      simp only [distOf, Motion.point, z1, z2, t.pt, mul_zero, sub_zero, add_zero]
      congr 1
      have := t.px
      have := t.py
      have a1 : (w.bodies b1).p_x = x.pos b1 .x - x.pos b2 .x + (w.bodies b2).p_x := by linarith
      have a2 : (w.bodies b1).p_y = x.pos b1 .y - x.pos b2 .y + (w.bodies b2).p_y := by linarith
      rw [a1, a2]
      ring
    rw [e, Real.sqrt_lt' (by norm_num)]
    exact hd
  rw [Spring.pullOn, springForce, if_neg hlt]
  simp only [Motion.pointVel, Motion.point, z1, z2, t.vt, t.vx, t.vy, mul_zero, sub_zero, add_zero,
    zero_mul, sub_self]

/-- The acceleration of gravity generators. -/
def Gen.fallRate : Gen ℝ → ℝ
  | .gravity a => a
  | _ => 0

theorem crushed_load (r : w.Regs .opt h) {b1 b2 : Nat}
    (hg : ∀ g ∈ regGens h, (∃ a, w.gens g = .gravity a) ∨ ∃ p, w.gens g = .spring p ∧ p.Crushed w b1 b2)
    {x : Motion} (t : Together w b1 b2 x) (b : Nat) (q : Coord) :
    w.load x b q = if q = .y then -(w.bodies b).m * ∑ g ∈ regGens h, (w.gens g).fallRate else 0 := by
  have each : ∀ g ∈ regGens h, (w.gens g).load (w.bodies b).m x b q =
      if q = .y then -(w.bodies b).m * (w.gens g).fallRate else 0 := by
    intro g hgm
    rcases hg g hgm with ⟨a, ha⟩ | ⟨p, hp, hc⟩
    · rw [ha]; rfl
    · rw [hp]
      simp only [Gen.load, hc.1, hc.2.1, hc.pull t, Gen.fallRate, mul_zero, ite_self]
      have z : ∀ z : ℝ × ℝ, x.wrench b z (0, 0) q = 0 := by
        intro z; cases q <;> simp [Motion.wrench]
      have z' : (-((0 : ℝ), (0 : ℝ))) = (0, 0) := by simp
      rw [z', z, z, ite_self, ite_self, add_zero]
  rw [World.load, r.fg_finset, sum_congr rfl each]
  split
  · rw [mul_sum]
  · exact sum_const_zero

/-- **C126**: a spring whose ends are less than 0.01 apart has no stiffness: two otherwise free bodies that
move alike keep their distance, whatever the rest length and the stiffness of the springs between
them. -/
theorem C126_stays_compressed (hG : ∀ g, G g → g.OnlyForces) (hw : World.Hist G .opt h w)
    (hst : w.Standard h) (e : w.process .opt env dt steps = .ok w') {b1 b2 : Nat}
    (hb1 : b1 ∈ regBodies h) (hb2 : b2 ∈ regBodies h) (hm : 0 < (w.bodies b1).m ∧ 0 < (w.bodies b2).m)
    (ha1 : w.attached h b1 = ∅) (ha2 : w.attached h b2 = ∅)
    (hg : ∀ g ∈ regGens h, (∃ a, w.gens g = .gravity a) ∨ ∃ p, w.gens g = .spring p ∧ p.Crushed w b1 b2)
    (hv : (w.bodies b1).v_x = (w.bodies b2).v_x ∧ (w.bodies b1).v_y = (w.bodies b2).v_y ∧
      (w.bodies b2).v_theta = 0) :
    ((w'.bodies b1).v_x = (w'.bodies b2).v_x ∧ (w'.bodies b1).v_y = (w'.bodies b2).v_y ∧
      (w'.bodies b2).v_theta = 0) ∧
    (w'.bodies b1).v_x = (w.bodies b1).v_x ∧ (w'.bodies b1).v_theta = (w.bodies b1).v_theta ∧
    (w'.bodies b1).p_x - (w'.bodies b2).p_x = (w.bodies b1).p_x - (w.bodies b2).p_x ∧
    (w'.bodies b1).p_y - (w'.bodies b2).p_y = (w.bodies b1).p_y - (w.bodies b2).p_y ∧
    (w'.bodies b2).theta = (w.bodies b2).theta := by
  obtain ⟨X, mult, h0, hX⟩ := hw.moved hG hst e
  have p := (hw.ready hG hst.wired).2
  have m1 := (hw.regs.bodies.mem b1).mpr hb1
  have m2 := (hw.regs.bodies.mem b2).mpr hb2
  have free : ∀ b, w.attached h b = ∅ → ∀ F q, w.conForce F b q = 0 := by
    intro b hb F q
    refine sum_eq_zero fun c hc => sum_eq_zero fun j _ => sum_eq_zero fun k hk => if_neg fun e => ?_
    have hc' : c ∈ w.cs := by simpa using hc
    have : c ∈ w.attached h b := by
      rw [World.attached, mem_filter]
      exact ⟨(hw.regs.cons.mem c).mp hc', k, mem_range.mp hk, by
        rw [← e]; exact (p.bodies c hc' k (mem_range.mp hk)).1⟩
    rw [hb] at this
    exact absurd this (notMem_empty _)
  have inv : ∀ n, n ≤ steps.toNat → Together w b1 b2 (X n) := by
    intro n
    induction n with
    | zero =>
      intro _
      rw [h0]
      exact ⟨hv.1, hv.2.1, rfl, hv.2.2, rfl, rfl, rfl, rfl⟩
    | succ n ih =>
      intro hn
      have t := ih (by omega)
      have st := hX.step n (by omega)
      have acc : ∀ b, b ∈ w.rb → w.attached h b = ∅ → ∀ q, (X (n + 1)).acc b q =
          (if q = .y then -(w.bodies b).m * ∑ g ∈ regGens h, (w.gens g).fallRate else 0) /
            (w.bodies b).mass q := fun b hb hb' q => by
        rw [st.acc b hb q, free b hb', add_zero, crushed_load hw.regs hg t]
      have x1 : (X (n + 1)).vel b1 .x = (X n).vel b1 .x := by
        rw [st.vel b1 m1, acc b1 m1 ha1, if_neg nofun, zero_div, mul_zero, add_zero]
      have x2 : (X (n + 1)).vel b2 .x = (X n).vel b2 .x := by
        rw [st.vel b2 m2, acc b2 m2 ha2, if_neg nofun, zero_div, mul_zero, add_zero]
      have t1 : (X (n + 1)).vel b1 .th = (X n).vel b1 .th := by
        rw [st.vel b1 m1, acc b1 m1 ha1, if_neg nofun, zero_div, mul_zero, add_zero]
      have t2 : (X (n + 1)).vel b2 .th = (X n).vel b2 .th := by
        rw [st.vel b2 m2, acc b2 m2 ha2, if_neg nofun, zero_div, mul_zero, add_zero]
      have y : ∀ b, b ∈ w.rb → w.attached h b = ∅ → 0 < (w.bodies b).m →
          (X (n + 1)).acc b .y = -∑ g ∈ regGens h, (w.gens g).fallRate := fun b hb hb' hm => by
        rw [acc b hb hb', if_pos rfl]
        show _ / (w.bodies b).m = _
        have := hm.ne'
        field_simp
      have y1 : (X (n + 1)).vel b1 .y = (X (n + 1)).vel b2 .y := by
        rw [st.vel b1 m1, st.vel b2 m2, y b1 m1 ha1 hm.1, y b2 m2 ha2 hm.2, t.vy]
      refine ⟨by rw [x1, x2, t.vx], y1, x1.trans t.x1, t2.trans t.vt, t1.trans t.vt1, ?_, ?_, ?_⟩
      · rw [st.pos b1 m1, st.pos b2 m2, x1, x2, t.vx]
        linarith [t.px]
      · rw [st.pos b1 m1, st.pos b2 m2, y1]
        linarith [t.py]
      · rw [st.pos b2 m2, t2, t.vt, mul_zero, add_zero, t.pt]
  have t := inv _ le_rfl
  have l1 := fun q => (hX.last b1 m1 q)
  have l2 := fun q => (hX.last b2 m2 q)
  have a1 : (X steps.toNat).vel b1 .x = (w'.bodies b1).v_x := (l1 .x).2
  have a2 : (X steps.toNat).vel b1 .y = (w'.bodies b1).v_y := (l1 .y).2
  have a3 : (X steps.toNat).vel b1 .th = (w'.bodies b1).v_theta := (l1 .th).2
  have b1' : (X steps.toNat).vel b2 .x = (w'.bodies b2).v_x := (l2 .x).2
  have b2' : (X steps.toNat).vel b2 .y = (w'.bodies b2).v_y := (l2 .y).2
  have b3' : (X steps.toNat).vel b2 .th = (w'.bodies b2).v_theta := (l2 .th).2
  have c1 : (X steps.toNat).pos b1 .x = (w'.bodies b1).p_x := (l1 .x).1
  have c2 : (X steps.toNat).pos b1 .y = (w'.bodies b1).p_y := (l1 .y).1
  have d1 : (X steps.toNat).pos b2 .x = (w'.bodies b2).p_x := (l2 .x).1
  have d2 : (X steps.toNat).pos b2 .y = (w'.bodies b2).p_y := (l2 .y).1
  have d3 : (X steps.toNat).pos b2 .th = (w'.bodies b2).theta := (l2 .th).1
  rw [← a1, ← a2, ← a3, ← b1', ← b2', ← b3', ← c1, ← c2, ← d1, ← d2, ← d3]
  exact ⟨⟨t.vx, t.vy, t.vt⟩, t.x1, t.vt1, t.px, t.py, t.pt⟩

/-- The claim applied to a spring of rest length 1 and stiffness 1000 that is compressed to a point. -/
example (env : Env ℝ) : ∃ (h : List (Op ℝ)) (w w' : World ℝ), World.Hist Gen.Shipped .opt h w ∧
    w.gens 0 = .spring ⟨1, 1000, 0, 0, 0, -1, -2, .obj 0, .obj 1⟩ ∧
    w.process .opt env 1 100 = .ok w' ∧ (w'.bodies 0).p_x - (w'.bodies 1).p_x = -1 ∧
    (w'.bodies 0).p_y - (w'.bodies 1).p_y = -2 := by
  obtain ⟨h, w, w', m, d, hst, hs, e⟩ := demo_gsOf (.clutch ⟨-2, 2, 0, 0⟩) nofun
    (g := .spring ⟨1, 1000, 0, 0, 0, -1, -2, .obj 0, .obj 1⟩) trivial (cs := []) (fg := [0])
    (by decide) (by decide) (.inr ⟨⟨0, by decide, rfl⟩, .inr ⟨1, by decide, rfl⟩⟩)
    (by show (-2 : ℝ) ≤ 2; norm_num) trivial (e := 1 / 10) (by norm_num)
    (dt := 1) (by norm_num) env 100
  have at0 : ∀ b, w.attached h b = ∅ := fun b => by
    rw [World.attached, d.regC]
    rfl
  have p0 : (w.bodies 0).p_x = 0 := (d.pos 0 .x).trans (by norm_num [demoBody, Body.pos])
  have p0y : (w.bodies 0).p_y = 0 := (d.pos 0 .y).trans (by norm_num [demoBody, Body.pos])
  have p1 : (w.bodies 1).p_x = 1 := (d.pos 1 .x).trans (by norm_num [demoBody, Body.pos])
  have p1y : (w.bodies 1).p_y = 2 := (d.pos 1 .y).trans (by norm_num [demoBody, Body.pos])
  have pt : (w.bodies 1).theta = 0 := (d.pos 1 .th).trans (by norm_num [demoBody, Body.pos])
  obtain ⟨-, -, -, q1, q2, -⟩ := C126_stays_compressed (b1 := 0) (b2 := 1) (fun g => Gen.tame) d.hist hst e
    (by rw [d.regB]; simp) (by rw [d.regB]; simp) (by rw [d.m, d.m]; norm_num) (at0 0) (at0 1)
    (fun g hgm => .inr ⟨_, d.gens g, rfl, rfl, rfl, rfl, by
      rw [p0, p0y, p1, p1y, pt, Real.cos_zero, Real.sin_zero]; norm_num⟩)
    ⟨(d.vel 0 .x).trans (d.vel 1 .x).symm, (d.vel 0 .y).trans (d.vel 1 .y).symm, d.vel 1 .th⟩
  refine ⟨h, w, w', d.hist, d.gens 0, e, ?_, ?_⟩
  · rw [q1, p0, p1]; norm_num
  · rw [q2, p0y, p1y]; norm_num

end

end Scs
