import Verif.PropsSlip

/-!
# C122: limited drives and clutches over a whole call
-/

namespace Scs

open Finset

section
variable {G : Gen ℝ → Prop} {h : List (Op ℝ)} {w w' : World ℝ} {env : Env ℝ} {dt : ℝ} {steps : Int}

/-- A quantity that goes to zero by at most `q` in each step, without changing its sign. -/
theorem braked {x : Nat → ℝ} {q : ℝ} (hq : 0 ≤ q) {N : Nat}
    (step : ∀ i, i < N → |x (i + 1)| = max 0 (|x i| - q) ∧ 0 ≤ x (i + 1) * x i) :
    ∀ n, n ≤ N → |x n| = max 0 (|x 0| - n * q) ∧ 0 ≤ x n * x 0 := by
  intro n
  induction n with
  | zero =>
    intro _
    refine ⟨?_, mul_self_nonneg _⟩
    rw [Nat.cast_zero, zero_mul, sub_zero, max_eq_right (abs_nonneg _)]
  | succ n ih =>
    intro hn
    obtain ⟨i1, i2⟩ := ih (by omega)
    obtain ⟨s1, s2⟩ := step n (by omega)
    constructor
    · rw [s1, i1]
      push_cast
      rcases le_total (|x 0| - n * q) 0 with h | h
      · rw [max_eq_left h, max_eq_left (by linarith), max_eq_left (by linarith)]
      · rw [max_eq_right h]
        congr 1
        ring
    · rcases eq_or_ne (x n) 0 with hz | hz
      · have : |x (n + 1)| = 0 := by
          rw [s1, hz, abs_zero, zero_sub, max_eq_left (by linarith)]
        rw [abs_eq_zero.mp this, zero_mul]
      · have h3 := mul_nonneg s2 i2
        have h4 : 0 < x n ^ 2 := by positivity
        refine le_of_mul_le_mul_left ?_ h4
        linarith

theorem clamp_odd {T : ℝ} (hT : 0 ≤ T) (y : ℝ) :
    max (-T) (min T (-y)) = -max (-T) (min T y) := by
  rcases le_total T y with h | h <;> rcases le_total (-T) y with h' | h'
  · rw [min_eq_right (by linarith), max_eq_left (by linarith), min_eq_left h,
      max_eq_right (by linarith)]
  · rw [min_eq_left h, min_eq_right (by linarith), max_eq_left (by linarith),
      max_eq_right (by linarith)]
  · rw [min_eq_right (by linarith), max_eq_right (by linarith), min_eq_right h, max_eq_right h']
  · rw [min_eq_left (by linarith), max_eq_right (by linarith), min_eq_right h, max_eq_left h',
      neg_neg]

theorem sub_time (hn : 0 < steps) : ((steps.toNat : Nat) : ℝ) * (dt / (steps : ℝ)) = dt := by
  have : ((steps.toNat : Nat) : ℝ) = (steps : ℝ) := by
    have : ((steps.toNat : Nat) : Int) = steps := Int.toNat_of_nonneg hn.le
    exact_mod_cast this
  have hne : (steps : ℝ) ≠ 0 := by exact_mod_cast hn.ne'
  rw [this]
  field_simp

/-- **C122**, drive: a constant-rotation drive with the torque limit `T` on a body on which no other
torques act changes the speed of the body at the constant rate `T / I` until the body has the speed
`-rotationSpeed` and holds it there, whatever the number of sub-steps. -/
theorem C122_drive (hG : ∀ g, G g → g.OnlyForces) (hw : World.Hist G .opt h w)
    (hst : w.Standard h) (hs : w.Sensible h) {m : Nat} {d : ℝ} (hsle : w.sle = some (.gs m d))
    (hdt : 0 < dt) (hn : 0 < steps) (e : w.process .opt env dt steps = .ok w') {c b : Nat}
    {r : ConstantRotation ℝ} {T : ℝ} (hc : c ∈ regCons h) (hk : (w.cons c).kind = .constantRotation r)
    (hT : r.minTorque = -T ∧ r.maxTorque = T)
    (hb : (w.cons c).bodies 0 = .obj b) (hl : w.Lone (regCons h) c) (hf : ∀ x, w.load x b .th = 0) :
    |(w'.bodies b).v_theta + r.rotationSpeed| =
        max 0 (|(w.bodies b).v_theta + r.rotationSpeed| - dt * T / (w.bodies b).I) ∧
      0 ≤ ((w'.bodies b).v_theta + r.rotationSpeed) * ((w.bodies b).v_theta + r.rotationSpeed) := by
  obtain ⟨X, mult, h0, hm, hg⟩ := hw.gs_moved hG hst hsle hdt e
  have p := (hw.ready hG hst.wired).2
  have hc' := (hw.regs.cons.mem c).mpr hc
  have cn := hst.proper hw.regs c hc'
  simp only [hk, CKind.counts, Option.some.injEq, Prod.mk.injEq] at cn
  rw [← hw.regs.cs_finset] at hl
  have e1 : w.bodyOf c 0 = b := by rw [World.bodyOf, hb]
  have hb' : b ∈ w.rb := by rw [← e1]; exact (p.bodies c hc' 0 (by omega)).2
  have hI : 0 < (w.bodies b).I := (hs.mass b ((hw.regs.bodies.mem b).mp hb')).2
  have hT0 : 0 ≤ T := by
    have : r.minTorque ≤ r.maxTorque := by
      have := hs.ordered c hc
      rw [hk] at this
      exact this
    linarith
  have ht := sub_time (dt := dt) hn
  set s := dt / (steps : ℝ) with hsd
  have hspos : 0 < s := div_pos hdt (by exact_mod_cast hn)
  have step : ∀ i, i < steps.toNat → |(X (i + 1)).vel b .th + r.rotationSpeed| =
      max 0 (|(X i).vel b .th + r.rotationSpeed| - s * T / (w.bodies b).I) ∧
      0 ≤ ((X (i + 1)).vel b .th + r.rotationSpeed) * ((X i).vel b .th + r.rotationSpeed) := by
    intro i hi
    have st := hm.step i hi
    have h1 := cn.1.symm
    have ff := hl.force p hc' h1 hspos st (hg i hi) (hs.acts hst hw.regs _ c hc' 0 (by omega))
      (st.gs m d hsle hspos c hc' 0 (by omega) (hs.ordered c hc).le)
    have hv := hl.vel p hc' h1 (by omega) (fun h => by omega) st (k := 0) (by omega) .th
    have fr : w.freely s (X i) b .th = (X i).vel b .th := by
      rw [World.freely, hf, zero_div, mul_zero, add_zero]
    obtain ⟨t1, t2⟩ := torque_one p hc' cn.2.symm hb (x := X i)
      (by simp only [World.rowsOf, hk]; rfl) (by simp only [World.rowsOf, hk]; rfl)
      (by simp only [World.rowsOf, hk]; rfl) (w.freely s (X i))
    have j2 : (w.rowsOf (X i) c).J 0 (0 * 3 + Coord.th.d) = 1 := by
      simp only [World.rowsOf, hk]; rfl
    have c0 : (w.rowsOf (X i) c).C 0 = 0 := by simp only [World.rowsOf, hk]; rfl
    have b0 : (w.rowsOf (X i) c).v_bias 0 = r.rotationSpeed := by
      simp only [World.rowsOf, hk]; rfl
    rw [t1, t2, c0, b0, hk, mul_zero, add_zero, fr] at ff
    have ff' : mult i c 0 = max (-T) (min T
        (-((X i).vel b .th + r.rotationSpeed) * (w.bodies b).I / s)) := by
      refine ff.trans ?_
      show max r.minTorque (min r.maxTorque _) = _
      rw [hT.1, hT.2]
      congr 2
      field_simp
    rw [e1, fr, j2, mul_one] at hv
    refine brake hspos hI hT0 ?_
    rw [hv, ff', ← mul_div_assoc]
    show _ + _ / (w.bodies b).I + _ = _
    ring
  obtain ⟨k1, k2⟩ := braked (x := fun n => (X n).vel b .th + r.rotationSpeed) (by positivity) step _ le_rfl
  have hlast : (X steps.toNat).vel b .th = (w'.bodies b).v_theta := (hm.last b hb' .th).2
  have hfirst : (X 0).vel b .th = (w.bodies b).v_theta := by rw [h0]; rfl
  simp only [hlast, hfirst] at k1 k2
  refine ⟨?_, k2⟩
  rw [k1, ← mul_div_assoc, ← mul_assoc, ht]

/-- The claim applied to a body turning with speed 5, a drive for the speed -1 with at most the torque 2
and two seconds in ten sub-steps; then for seven seconds. -/
example (env : Env ℝ) : ∃ (h : List (Op ℝ)) (w w' : World ℝ), World.Hist Gen.Shipped .opt h w ∧
    (w.bodies 0).v_theta = 5 ∧ w.process .opt env 2 10 = .ok w' ∧ (w'.bodies 0).v_theta = 1 := by
  obtain ⟨h, w, w', m, d, hst, hs, e⟩ := demo_gsOf (.constantRotation ⟨1, -2, 2, 0, 0⟩) nofun
    (g := .gravity 9) trivial (cs := [0]) (fg := [0]) (by decide) (by decide) trivial
    (by show (-2 : ℝ) ≤ 2; norm_num) trivial (e := 1 / 10) (by norm_num)
    (dt := 2) (by norm_num) env 10
  have v0 : (w.bodies 0).v_theta = 5 := d.vel 0 .th
  obtain ⟨q1, q2⟩ := C122_drive (c := 0) (b := 0) (T := 2) (fun g => Gen.tame) d.hist hst hs d.sle
    (by norm_num) (by norm_num) e (by rw [d.regC]; simp) (d.kind 0) ⟨rfl, rfl⟩ (d.bodies 0 0)
    (fun c' hc' hne => absurd (by rw [d.regC] at hc'; simpa using hc') hne) (fun x => demo_free d x 0)
  rw [v0, d.I] at q1
  rw [v0] at q2
  norm_num at q1 q2
  rw [abs_of_nonneg (by linarith)] at q1
  exact ⟨h, w, w', d.hist, v0, e, by linarith⟩

example (env : Env ℝ) : ∃ (h : List (Op ℝ)) (w w' : World ℝ), World.Hist Gen.Shipped .opt h w ∧
    (w.bodies 0).v_theta = 5 ∧ w.process .opt env 7 10 = .ok w' ∧ (w'.bodies 0).v_theta = -1 := by
  obtain ⟨h, w, w', m, d, hst, hs, e⟩ := demo_gsOf (.constantRotation ⟨1, -2, 2, 0, 0⟩) nofun
    (g := .gravity 9) trivial (cs := [0]) (fg := [0]) (by decide) (by decide) trivial
    (by show (-2 : ℝ) ≤ 2; norm_num) trivial (e := 1 / 10) (by norm_num)
    (dt := 7) (by norm_num) env 10
  have v0 : (w.bodies 0).v_theta = 5 := d.vel 0 .th
  obtain ⟨q1, q2⟩ := C122_drive (c := 0) (b := 0) (T := 2) (fun g => Gen.tame) d.hist hst hs d.sle
    (by norm_num) (by norm_num) e (by rw [d.regC]; simp) (d.kind 0) ⟨rfl, rfl⟩ (d.bodies 0 0)
    (fun c' hc' hne => absurd (by rw [d.regC] at hc'; simpa using hc') hne) (fun x => demo_free d x 0)
  rw [v0, d.I] at q1
  norm_num at q1
  exact ⟨h, w, w', d.hist, v0, e, by linarith⟩

/-- **C122**, clutch: between two bodies on which no other torques act a clutch with the torque limit `T`
reduces the difference of the speeds at the constant rate `T (1/I₁ + 1/I₂)` until the speeds are equal
and holds them there, whatever the number of sub-steps; the total angular momentum about the centres
stays. -/
theorem C122_clutch (hG : ∀ g, G g → g.OnlyForces) (hw : World.Hist G .opt h w)
    (hst : w.Standard h) (hs : w.Sensible h) {m : Nat} {d : ℝ} (hsle : w.sle = some (.gs m d))
    (hdt : 0 < dt) (hn : 0 < steps) (e : w.process .opt env dt steps = .ok w') {c b1 b2 : Nat}
    {r : Clutch ℝ} {T : ℝ} (hc : c ∈ regCons h) (hk : (w.cons c).kind = .clutch r)
    (hT : r.minTorque = -T ∧ r.maxTorque = T) (h1 : (w.cons c).bodies 0 = .obj b1)
    (h2 : (w.cons c).bodies 1 = .obj b2) (hl : w.Lone (regCons h) c)
    (hf1 : ∀ x, w.load x b1 .th = 0) (hf2 : ∀ x, w.load x b2 .th = 0) :
    |(w'.bodies b1).v_theta - (w'.bodies b2).v_theta| =
        max 0 (|(w.bodies b1).v_theta - (w.bodies b2).v_theta| -
          dt * T * (1 / (w.bodies b1).I + 1 / (w.bodies b2).I)) ∧
      0 ≤ ((w'.bodies b1).v_theta - (w'.bodies b2).v_theta) *
        ((w.bodies b1).v_theta - (w.bodies b2).v_theta) ∧
      (w.bodies b1).I * (w'.bodies b1).v_theta + (w.bodies b2).I * (w'.bodies b2).v_theta =
        (w.bodies b1).I * (w.bodies b1).v_theta + (w.bodies b2).I * (w.bodies b2).v_theta := by
  obtain ⟨X, mult, h0, hm, hg⟩ := hw.gs_moved hG hst hsle hdt e
  have p := (hw.ready hG hst.wired).2
  have ha := (slip_bodies hst hs hw p hc).2
  have hc' := (hw.regs.cons.mem c).mpr hc
  have cn := hst.proper hw.regs c hc'
  simp only [hk, CKind.counts, Option.some.injEq, Prod.mk.injEq] at cn
  rw [← hw.regs.cs_finset] at hl
  have e1 : w.bodyOf c 0 = b1 := by rw [World.bodyOf, h1]
  have e2 : w.bodyOf c 1 = b2 := by rw [World.bodyOf, h2]
  have hb1 : b1 ∈ w.rb := by rw [← e1]; exact (p.bodies c hc' 0 (by omega)).2
  have hb2 : b2 ∈ w.rb := by rw [← e2]; exact (p.bodies c hc' 1 (by omega)).2
  have hI1 : 0 < (w.bodies b1).I := (hs.mass b1 ((hw.regs.bodies.mem b1).mp hb1)).2
  have hI2 : 0 < (w.bodies b2).I := (hs.mass b2 ((hw.regs.bodies.mem b2).mp hb2)).2
  have hT0 : 0 ≤ T := by
    have : r.minTorque ≤ r.maxTorque := by
      have := hs.ordered c hc
      rw [hk] at this
      exact this
    linarith
  have ht := sub_time (dt := dt) hn
  set s := dt / (steps : ℝ) with hsd
  have hspos : 0 < s := div_pos hdt (by exact_mod_cast hn)
  set I1 := (w.bodies b1).I with hI1d
  set I2 := (w.bodies b2).I with hI2d
  set K := 1 / I1 + 1 / I2 with hKd
  have hK : 0 < K := by positivity
  have step : ∀ i, i < steps.toNat → (|(X (i + 1)).vel b1 .th - (X (i + 1)).vel b2 .th| =
      max 0 (|(X i).vel b1 .th - (X i).vel b2 .th| - s * T * K) ∧
      0 ≤ ((X (i + 1)).vel b1 .th - (X (i + 1)).vel b2 .th) *
        ((X i).vel b1 .th - (X i).vel b2 .th)) ∧
      I1 * (X (i + 1)).vel b1 .th + I2 * (X (i + 1)).vel b2 .th =
        I1 * (X i).vel b1 .th + I2 * (X i).vel b2 .th := by
    intro i hi
    have st := hm.step i hi
    have r1 := cn.1.symm
    have ff := hl.force p hc' r1 hspos st (hg i hi) (hs.acts hst hw.regs _ c hc' 0 (by omega))
      (st.gs m d hsle hspos c hc' 0 (by omega) (hs.ordered c hc).le)
    have hv1 := hl.vel p hc' r1 (by omega) ha st (k := 0) (by omega) .th
    have hv2 := hl.vel p hc' r1 (by omega) ha st (k := 1) (by omega) .th
    have fr1 : w.freely s (X i) b1 .th = (X i).vel b1 .th := by
      rw [World.freely, hf1, zero_div, mul_zero, add_zero]
    have fr2 : w.freely s (X i) b2 .th = (X i).vel b2 .th := by
      rw [World.freely, hf2, zero_div, mul_zero, add_zero]
    have jj : ∀ k, (w.rowsOf (X i) c).J 0 k = (CKind.clutch r).jT ((X i).q w c) 0 k := fun k => by
      rw [← hk]; rfl
    have j0 : (w.rowsOf (X i) c).J 0 0 = 0 := jj 0
    have j1 : (w.rowsOf (X i) c).J 0 1 = 0 := jj 1
    have j2 : (w.rowsOf (X i) c).J 0 2 = -1 := jj 2
    have j3 : (w.rowsOf (X i) c).J 0 3 = 0 := jj 3
    have j4 : (w.rowsOf (X i) c).J 0 4 = 0 := jj 4
    have j5 : (w.rowsOf (X i) c).J 0 5 = 1 := jj 5
    have j2' : (w.rowsOf (X i) c).J 0 (0 * 3 + Coord.th.d) = -1 := jj 2
    have j5' : (w.rowsOf (X i) c).J 0 (1 * 3 + Coord.th.d) = 1 := jj 5
    have c0 : (w.rowsOf (X i) c).C 0 = 0 := by simp only [World.rowsOf, hk]; rfl
    have b0 : (w.rowsOf (X i) c).v_bias 0 = 0 := by simp only [World.rowsOf, hk]; rfl
    rw [rowAt_two _ _ _ cn.2.symm h1 h2, coupling_two p hc' cn.2.symm (ha cn.2.symm), e1, e2] at ff
    simp only [Coord.sum, Coord.d, j0, j1, j2, j3, j4, j5, c0, b0, hk, Body.mass, fr1, fr2,
      ← hI1d, ← hI2d] at ff
    rw [e1, fr1, j2'] at hv1
    rw [e2, fr2, j5', mul_one] at hv2
    simp only [Body.mass, ← hI1d, ← hI2d] at hv1 hv2
    have ff' : mult i c 0 = max (-T) (min T
        (((X i).vel b1 .th - (X i).vel b2 .th) / (s * K))) := by
      refine ff.trans ?_
      show max r.minTorque (min r.maxTorque _) = _
      rw [hT.1, hT.2, hKd]
      congr 2
      ring
    refine ⟨?_, ?_⟩
    · have hb := brake (s := s) (I := 1 / K) (T := T) (v := (X i).vel b1 .th - (X i).vel b2 .th)
        (v' := (X (i + 1)).vel b1 .th - (X (i + 1)).vel b2 .th) hspos (by positivity) hT0 ?_
      · rwa [div_div_eq_mul_div, div_one] at hb
      · have hn : max (-T) (min T (-((X i).vel b1 .th - (X i).vel b2 .th) * (1 / K) / s)) =
            -mult i c 0 := by
          rw [ff']
          have : -((X i).vel b1 .th - (X i).vel b2 .th) * (1 / K) / s =
              -(((X i).vel b1 .th - (X i).vel b2 .th) / (s * K)) := by
            field_simp
          rw [this]
          exact clamp_odd hT0 _
        rw [hn, hv1, hv2, div_div_eq_mul_div, div_one, hKd]
        ring
    · rw [hv1, hv2]
      field_simp
      ring
  obtain ⟨k1, k2⟩ := braked (x := fun n => (X n).vel b1 .th - (X n).vel b2 .th) (by positivity)
    (fun i hi => (step i hi).1) _ le_rfl
  have k3 : ∀ n, n ≤ steps.toNat → I1 * (X n).vel b1 .th + I2 * (X n).vel b2 .th =
      I1 * (X 0).vel b1 .th + I2 * (X 0).vel b2 .th := by
    intro n
    induction n with
    | zero => exact fun _ => rfl
    | succ n ih => exact fun hn => (step n (by omega)).2.trans (ih (by omega))
  have k3 := k3 _ le_rfl
  have l1 : (X steps.toNat).vel b1 .th = (w'.bodies b1).v_theta := (hm.last b1 hb1 .th).2
  have l2 : (X steps.toNat).vel b2 .th = (w'.bodies b2).v_theta := (hm.last b2 hb2 .th).2
  have f1 : (X 0).vel b1 .th = (w.bodies b1).v_theta := by rw [h0]; rfl
  have f2 : (X 0).vel b2 .th = (w.bodies b2).v_theta := by rw [h0]; rfl
  simp only [l1, l2, f1, f2] at k1 k2 k3
  refine ⟨?_, k2, k3⟩
  rw [k1, mul_assoc s T K, ← mul_assoc _ s, ht, ← mul_assoc]

/-- The claim applied to a body turning with speed 5 and one at rest, in a clutch that transmits at most
the torque 1: after one second the clutch still slips, after three both bodies turn alike. -/
example (env : Env ℝ) : ∃ (h : List (Op ℝ)) (w w' : World ℝ), World.Hist Gen.Shipped .opt h w ∧
    (w.bodies 0).v_theta = 5 ∧ (w.bodies 1).v_theta = 0 ∧ w.process .opt env 1 10 = .ok w' ∧
    (w'.bodies 0).v_theta = 4 ∧ (w'.bodies 1).v_theta = 1 := by
  obtain ⟨h, w, w', m, d, hst, hs, e⟩ := demo_gsOf (.clutch ⟨-1, 1, 0, 0⟩) nofun
    (g := .gravity 9) trivial (cs := [0]) (fg := [0]) (by decide) (by decide) trivial
    (by show (-1 : ℝ) ≤ 1; norm_num) trivial (e := 1 / 10) (by norm_num)
    (dt := 1) (by norm_num) env 10
  have v0 : (w.bodies 0).v_theta = 5 := d.vel 0 .th
  have v1 : (w.bodies 1).v_theta = 0 := d.vel 1 .th
  obtain ⟨q1, q2, q3⟩ := C122_clutch (c := 0) (b1 := 0) (b2 := 1) (T := 1) (fun g => Gen.tame) d.hist hst
    hs d.sle (by norm_num) (by norm_num) e (by rw [d.regC]; simp) (d.kind 0) ⟨rfl, rfl⟩ (d.bodies 0 0)
    (d.bodies 0 1) (fun c' hc' hne => absurd (by rw [d.regC] at hc'; simpa using hc') hne)
    (fun x => demo_free d x 0) (fun x => demo_free d x 1)
  rw [v0, v1, d.I, d.I] at q1
  rw [v0, v1] at q2
  rw [v0, v1, d.I, d.I] at q3
  norm_num at q1 q2 q3
  rw [abs_of_nonneg (by linarith)] at q1
  exact ⟨h, w, w', d.hist, v0, v1, e, by linarith, by linarith⟩

example (env : Env ℝ) : ∃ (h : List (Op ℝ)) (w w' : World ℝ), World.Hist Gen.Shipped .opt h w ∧
    (w.bodies 0).v_theta = 5 ∧ (w.bodies 1).v_theta = 0 ∧ w.process .opt env 3 10 = .ok w' ∧
    (w'.bodies 0).v_theta = 5 / 2 ∧ (w'.bodies 1).v_theta = 5 / 2 := by
  obtain ⟨h, w, w', m, d, hst, hs, e⟩ := demo_gsOf (.clutch ⟨-1, 1, 0, 0⟩) nofun
    (g := .gravity 9) trivial (cs := [0]) (fg := [0]) (by decide) (by decide) trivial
    (by show (-1 : ℝ) ≤ 1; norm_num) trivial (e := 1 / 10) (by norm_num)
    (dt := 3) (by norm_num) env 10
  have v0 : (w.bodies 0).v_theta = 5 := d.vel 0 .th
  have v1 : (w.bodies 1).v_theta = 0 := d.vel 1 .th
  obtain ⟨q1, q2, q3⟩ := C122_clutch (c := 0) (b1 := 0) (b2 := 1) (T := 1) (fun g => Gen.tame) d.hist hst
    hs d.sle (by norm_num) (by norm_num) e (by rw [d.regC]; simp) (d.kind 0) ⟨rfl, rfl⟩ (d.bodies 0 0)
    (d.bodies 0 1) (fun c' hc' hne => absurd (by rw [d.regC] at hc'; simpa using hc') hne)
    (fun x => demo_free d x 0) (fun x => demo_free d x 1)
  rw [v0, v1, d.I, d.I] at q1
  rw [v0, v1, d.I, d.I] at q3
  norm_num at q1 q3
  exact ⟨h, w, w', d.hist, v0, v1, e, by linarith, by linarith⟩

end

end Scs
