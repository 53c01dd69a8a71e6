import Verif.PropsEngage

/-!
# C123: limited friction, drives and clutches against other torques
-/

namespace Scs

open Finset

section
variable {G : Gen ℝ → Prop} {h : List (Op ℝ)} {w w' : World ℝ} {env : Env ℝ} {dt : ℝ} {steps : Int}

/-- A quantity that goes to zero by at least `q` in each step. -/
theorem braked_le {x : Nat → ℝ} {q : ℝ} (hq : 0 ≤ q) {N : Nat}
    (step : ∀ i, i < N → |x (i + 1)| ≤ max 0 (|x i| - q)) :
    ∀ n, n ≤ N → |x n| ≤ max 0 (|x 0| - n * q) := by
  intro n
  induction n with
  | zero => exact fun _ => by rw [Nat.cast_zero, zero_mul, sub_zero]; exact le_max_right _ _
  | succ n ih =>
    intro hn
    have i1 := ih (by omega)
    refine (step n (by omega)).trans (max_le (le_max_left _ _) ?_)
    push_cast
    rcases le_total (|x 0| - n * q) 0 with h | h
    · rw [max_eq_left h] at i1
      exact le_max_of_le_left (by linarith)
    · rw [max_eq_right h] at i1
      exact le_max_of_le_right (by linarith)

theorem brake_loaded {s I T L v τ β v' : ℝ} (hs : 0 < s) (hI : 0 < I) (hT : 0 ≤ T) (hL : |τ| ≤ L)
    (e : v' = v + s * (τ / I) + β + s * max (-T) (min T (-(v + s * (τ / I) + β) * I / s)) / I) :
    |v'| ≤ max 0 (|v + β| - s * (T - L) / I) := by
  have hb := (brake hs hI hT e).1
  rw [hb]
  refine max_le_max le_rfl ?_
  have h1 : |v + s * (τ / I) + β| ≤ |v + β| + s * L / I := by
    have : v + s * (τ / I) + β = (v + β) + s * τ / I := by ring
    rw [this]
    refine (abs_add_le _ _).trans (add_le_add_right ?_ _)
    rw [abs_div, abs_mul, abs_of_pos hs, abs_of_pos hI]
    gcongr
  have h2 : s * (T - L) / I = s * T / I - s * L / I := by ring
  linarith

theorem turn_held (hG : ∀ g, G g → g.OnlyForces) (hw : World.Hist G .opt h w)
    (hst : w.Standard h) (hs : w.Sensible h) {m : Nat} {d : ℝ} (hsle : w.sle = some (.gs m d))
    (hdt : 0 < dt) (hn : 0 < steps) (e : w.process .opt env dt steps = .ok w') {c b : Nat}
    {T L β : ℝ} (hc : c ∈ regCons h) (hr : (w.cons c).rows = 1) (hbc : (w.cons c).bodyCount = 1)
    (lo : (w.cons c).kind.loT = -T) (hi : (w.cons c).kind.hiT = T) (hT0 : 0 ≤ T)
    (hb : (w.cons c).bodies 0 = .obj b) (hl : w.Lone (regCons h) c)
    (j0 : ∀ x, (w.rowsOf x c).J 0 0 = 0) (j1 : ∀ x, (w.rowsOf x c).J 0 1 = 0)
    (j2 : ∀ x, (w.rowsOf x c).J 0 2 = 1) (c0 : ∀ x, (w.rowsOf x c).C 0 = 0)
    (b0 : ∀ x, (w.rowsOf x c).v_bias 0 = β)
    (hf : ∀ x, |w.load x b .th| ≤ L) (hL : L ≤ T) :
    |(w'.bodies b).v_theta + β| ≤
        max 0 (|(w.bodies b).v_theta + β| - dt * (T - L) / (w.bodies b).I) ∧
      ((w.bodies b).v_theta + β = 0 →
        (w'.bodies b).theta = (w.bodies b).theta - dt * β) := by
  obtain ⟨X, mult, h0, hm, hg⟩ := hw.gs_moved hG hst hsle hdt e
  have p := (hw.ready hG hst.wired).2
  have hc' := (hw.regs.cons.mem c).mpr hc
  rw [← hw.regs.cs_finset] at hl
  have e1 : w.bodyOf c 0 = b := by rw [World.bodyOf, hb]
  have hb' : b ∈ w.rb := by rw [← e1]; exact (p.bodies c hc' 0 (by omega)).2
  have hI : 0 < (w.bodies b).I := (hs.mass b ((hw.regs.bodies.mem b).mp hb')).2
  have ht := sub_time (dt := dt) hn
  set s := dt / (steps : ℝ) with hsd
  have hspos : 0 < s := div_pos hdt (by exact_mod_cast hn)
  have step : ∀ i, i < steps.toNat → |(X (i + 1)).vel b .th + β| ≤
      max 0 (|(X i).vel b .th + β| - s * (T - L) / (w.bodies b).I) := by
    intro i hi'
    have st := hm.step i hi'
    have ff := hl.force p hc' hr hspos st (hg i hi') (hs.acts hst hw.regs _ c hc' 0 (by omega))
      (st.gs m d hsle hspos c hc' 0 (by omega) (hs.ordered c hc).le)
    have hv := hl.vel p hc' hr (by omega) (fun h => by omega) st (k := 0) (by omega) .th
    obtain ⟨t1, t2⟩ := torque_one p hc' hbc hb (j0 (X i)) (j1 (X i)) (j2 (X i)) (w.freely s (X i))
    have j2' : (w.rowsOf (X i) c).J 0 (0 * 3 + Coord.th.d) = 1 := j2 (X i)
    rw [t1, t2, c0, b0, mul_zero, add_zero, lo, hi] at ff
    rw [e1, j2', mul_one] at hv
    refine brake_loaded hspos hI hT0 (hf (X i)) ?_
    have fr : w.freely s (X i) b .th =
        (X i).vel b .th + s * (w.load (X i) b .th / (w.bodies b).I) := rfl
    rw [← fr, hv, ff, ← mul_div_assoc]
    show _ + _ / (w.bodies b).I + _ = _
    have : -(w.freely s (X i) b .th + β) / (s * (1 / (w.bodies b).I)) =
        -(w.freely s (X i) b .th + β) * (w.bodies b).I / s := by field_simp
    rw [this]
    ring
  have q0 : 0 ≤ s * (T - L) / (w.bodies b).I :=
    div_nonneg (mul_nonneg hspos.le (by linarith)) hI.le
  have key := braked_le (x := fun n => (X n).vel b .th + β) q0 step
  have k1 := key _ le_rfl
  have hlast : (X steps.toNat).vel b .th = (w'.bodies b).v_theta := (hm.last b hb' .th).2
  have plast : (X steps.toNat).pos b .th = (w'.bodies b).theta := (hm.last b hb' .th).1
  have hfirst : (X 0).vel b .th = (w.bodies b).v_theta := by rw [h0]; rfl
  have pfirst : (X 0).pos b .th = (w.bodies b).theta := by rw [h0]; rfl
  simp only [hlast, hfirst] at k1
  refine ⟨?_, fun hz => ?_⟩
  · refine k1.trans (le_of_eq ?_)
    rw [← mul_div_assoc, ← mul_assoc, ht]
  · have hv : ∀ n, n ≤ steps.toNat → (X n).vel b .th = -β := by
      intro n hn'
      have k := key n hn'
      simp only [hfirst, hz, abs_zero, zero_sub] at k
      rw [max_eq_left (by have := mul_nonneg n.cast_nonneg q0; linarith)] at k
      have := abs_nonpos_iff.mp k
      linarith
    have hp : ∀ n, n ≤ steps.toNat → (X n).pos b .th = (w.bodies b).theta - n * (s * β) := by
      intro n
      induction n with
      | zero => intro _; rw [pfirst]; simp
      | succ n ih =>
        intro hn'
        have st := hm.step n (by omega)
        have := st.pos b hb' .th
        rw [this, ih (by omega), hv (n + 1) hn']
        push_cast
        ring
    have := hp _ le_rfl
    rw [plast, ← mul_assoc, ht] at this
    exact this

/-- A motor between two bodies turns each of them with at most its torque limit. -/
theorem motor_bound {p : Motor ℝ} (hm : 0 ≤ p.maxTorque) {b0 b1 : Nat} (h0 : p.body0 = .obj b0)
    (h1 : p.body1 = .obj b1) (hne : b0 ≠ b1) (m : ℝ) (x : Motion) (b : Nat) :
    |(Gen.motor p).load m x b .th| ≤ p.maxTorque := by
  have hd : |p.drive x b0 b1| ≤ p.maxTorque := (clamp_fp _ _ _ rfl hm).1
  simp only [Gen.load, h0, h1, pureTorque, if_true]
  by_cases e0 : b = b0
  · rw [if_pos e0, if_neg (fun e => hne (e0.symm.trans e)), add_zero, abs_neg]
    exact hd
  · rw [if_neg e0, zero_add]
    split
    · exact hd
    · rwa [abs_zero]

theorem demo_motored {K : CKind ℝ} {sv : Solver ℝ} {p : Motor ℝ} {cs : List Nat}
    (d : Demo K (.motor p) cs [0] sv h w) (hm : 0 ≤ p.maxTorque) {b0 b1 : Nat} (h0 : p.body0 = .obj b0)
    (h1 : p.body1 = .obj b1) (hne : b0 ≠ b1) (x : Motion) (b : Nat) :
    |w.load x b .th| ≤ p.maxTorque := by
  rw [World.load, d.fg_eq]
  show |∑ g ∈ ([0] : List Nat).toFinset, _| ≤ _
  rw [List.toFinset_cons, List.toFinset_nil, insert_empty_eq, sum_singleton, d.gens]
  exact motor_bound hm h0 h1 hne _ x b

/-- **C123**, friction: against other torques of at most `L`, a friction with the torque limit `T ≥ L`
still slows the body down at least at the rate `(T - L) / I`, and a body at rest stays where it is,
whatever the number of sub-steps. -/
theorem C123_friction (hG : ∀ g, G g → g.OnlyForces) (hw : World.Hist G .opt h w)
    (hst : w.Standard h) (hs : w.Sensible h) {m : Nat} {d : ℝ} (hsle : w.sle = some (.gs m d))
    (hdt : 0 < dt) (hn : 0 < steps) (e : w.process .opt env dt steps = .ok w') {c b : Nat}
    {r : RotationFriction ℝ} {T L : ℝ} (hc : c ∈ regCons h)
    (hk : (w.cons c).kind = .rotationFriction r) (hT : r.minTorque = -T ∧ r.maxTorque = T)
    (hb : (w.cons c).bodies 0 = .obj b) (hl : w.Lone (regCons h) c)
    (hf : ∀ x, |w.load x b .th| ≤ L) (hL : L ≤ T) :
    |(w'.bodies b).v_theta| ≤ max 0 (|(w.bodies b).v_theta| - dt * (T - L) / (w.bodies b).I) ∧
      ((w.bodies b).v_theta = 0 →
        (w'.bodies b).v_theta = 0 ∧ (w'.bodies b).theta = (w.bodies b).theta) := by
  have cn := hst.proper hw.regs c ((hw.regs.cons.mem c).mpr hc)
  simp only [hk, CKind.counts, Option.some.injEq, Prod.mk.injEq] at cn
  have hT0 : 0 ≤ T := ((abs_nonneg _).trans (hf w.now)).trans hL
  have hI : 0 ≤ (w.bodies b).I := by
    have p := (hw.ready hG hst.wired).2
    have e1 : w.bodyOf c 0 = b := by rw [World.bodyOf, hb]
    exact (hs.mass b ((hw.regs.bodies.mem b).mp (by
      rw [← e1]; exact (p.bodies c ((hw.regs.cons.mem c).mpr hc) 0 (by omega)).2))).2.le
  have key := turn_held (β := 0) hG hw hst hs hsle hdt hn e hc cn.1.symm cn.2.symm
    (by rw [hk]; exact hT.1) (by rw [hk]; exact hT.2) hT0 hb hl
    (fun x => by simp only [World.rowsOf, hk]; rfl) (fun x => by simp only [World.rowsOf, hk]; rfl)
    (fun x => by simp only [World.rowsOf, hk]; rfl) (fun x => by simp only [World.rowsOf, hk]; rfl)
    (fun x => by simp only [World.rowsOf, hk]; rfl) hf hL
  simp only [add_zero, mul_zero, sub_zero] at key
  refine ⟨key.1, fun hz => ⟨?_, key.2 hz⟩⟩
  have k := key.1
  rw [hz, abs_zero, zero_sub, max_eq_left (by
    have := div_nonneg (mul_nonneg hdt.le (sub_nonneg.mpr hL)) hI
    linarith)] at k
  exact abs_nonpos_iff.mp k

/-- The claim applied to a body turning with speed 5 that a motor turns with at most the torque 1: the
friction with the limit 2 stops it within ten seconds. -/
example (env : Env ℝ) : ∃ (h : List (Op ℝ)) (w w' : World ℝ), World.Hist Gen.Shipped .opt h w ∧
    (w.bodies 0).v_theta = 5 ∧ w.process .opt env 10 100 = .ok w' ∧ (w'.bodies 0).v_theta = 0 := by
  obtain ⟨h, w, w', m, d, hst, hs, e⟩ := demo_gsOf (.rotationFriction ⟨-2, 2, 0, 0⟩) nofun
    (g := .motor ⟨3, 0, 1, 7, .obj 1, .obj 0⟩) trivial (cs := [0]) (fg := [0])
    (by decide) (by decide) ⟨⟨1, by decide, rfl⟩, 0, by decide, rfl⟩
    (by show (-2 : ℝ) ≤ 2; norm_num) trivial (e := 1 / 10) (by norm_num)
    (dt := 10) (by norm_num) env 100
  have v0 : (w.bodies 0).v_theta = 5 := d.vel 0 .th
  have q := (C123_friction (c := 0) (b := 0) (T := 2) (L := 1) (fun g => Gen.tame) d.hist hst hs d.sle
    (by norm_num) (by norm_num) e (by rw [d.regC]; simp) (d.kind 0) ⟨rfl, rfl⟩ (d.bodies 0 0)
    (fun c' hc' hne => absurd (by rw [d.regC] at hc'; simpa using hc') hne)
    (fun x => demo_motored d (by norm_num) rfl rfl (by decide) x 0) (by norm_num)).1
  rw [v0, d.I] at q
  norm_num at q
  exact ⟨h, w, w', d.hist, v0, e, q⟩

/-- **C123**, drive: the same relative to the speed of the drive; a body at that speed keeps it and turns
evenly. -/
theorem C123_drive (hG : ∀ g, G g → g.OnlyForces) (hw : World.Hist G .opt h w)
    (hst : w.Standard h) (hs : w.Sensible h) {m : Nat} {d : ℝ} (hsle : w.sle = some (.gs m d))
    (hdt : 0 < dt) (hn : 0 < steps) (e : w.process .opt env dt steps = .ok w') {c b : Nat}
    {r : ConstantRotation ℝ} {T L : ℝ} (hc : c ∈ regCons h)
    (hk : (w.cons c).kind = .constantRotation r) (hT : r.minTorque = -T ∧ r.maxTorque = T)
    (hb : (w.cons c).bodies 0 = .obj b) (hl : w.Lone (regCons h) c)
    (hf : ∀ x, |w.load x b .th| ≤ L) (hL : L ≤ T) :
    |(w'.bodies b).v_theta + r.rotationSpeed| ≤
        max 0 (|(w.bodies b).v_theta + r.rotationSpeed| - dt * (T - L) / (w.bodies b).I) ∧
      ((w.bodies b).v_theta = -r.rotationSpeed →
        (w'.bodies b).v_theta = -r.rotationSpeed ∧
        (w'.bodies b).theta = (w.bodies b).theta - dt * r.rotationSpeed) := by
  have cn := hst.proper hw.regs c ((hw.regs.cons.mem c).mpr hc)
  simp only [hk, CKind.counts, Option.some.injEq, Prod.mk.injEq] at cn
  have hT0 : 0 ≤ T := ((abs_nonneg _).trans (hf w.now)).trans hL
  have hI : 0 ≤ (w.bodies b).I := by
    have p := (hw.ready hG hst.wired).2
    have e1 : w.bodyOf c 0 = b := by rw [World.bodyOf, hb]
    exact (hs.mass b ((hw.regs.bodies.mem b).mp (by
      rw [← e1]; exact (p.bodies c ((hw.regs.cons.mem c).mpr hc) 0 (by omega)).2))).2.le
  have key := turn_held (β := r.rotationSpeed) hG hw hst hs hsle hdt hn e hc cn.1.symm cn.2.symm
    (by rw [hk]; exact hT.1) (by rw [hk]; exact hT.2) hT0 hb hl
    (fun x => by simp only [World.rowsOf, hk]; rfl) (fun x => by simp only [World.rowsOf, hk]; rfl)
    (fun x => by simp only [World.rowsOf, hk]; rfl) (fun x => by simp only [World.rowsOf, hk]; rfl)
    (fun x => by simp only [World.rowsOf, hk]; rfl) hf hL
  refine ⟨key.1, fun hz => ?_⟩
  have hz' : (w.bodies b).v_theta + r.rotationSpeed = 0 := by linarith
  have k := key.1
  rw [hz', abs_zero, zero_sub, max_eq_left (by
    have := div_nonneg (mul_nonneg hdt.le (sub_nonneg.mpr hL)) hI
    linarith)] at k
  have := abs_nonpos_iff.mp k
  exact ⟨by linarith, key.2 hz'⟩

/-- The claim applied to a body turning with speed 5 that the drive for that speed holds against a motor
with at most the torque 1. -/
example (env : Env ℝ) : ∃ (h : List (Op ℝ)) (w w' : World ℝ), World.Hist Gen.Shipped .opt h w ∧
    (w.bodies 0).v_theta = 5 ∧ w.process .opt env 10 100 = .ok w' ∧ (w'.bodies 0).v_theta = 5 ∧
    (w'.bodies 0).theta = (w.bodies 0).theta + 50 := by
  obtain ⟨h, w, w', m, d, hst, hs, e⟩ := demo_gsOf (.constantRotation ⟨-5, -2, 2, 0, 0⟩) nofun
    (g := .motor ⟨3, 0, 1, 7, .obj 1, .obj 0⟩) trivial (cs := [0]) (fg := [0])
    (by decide) (by decide) ⟨⟨1, by decide, rfl⟩, 0, by decide, rfl⟩
    (by show (-2 : ℝ) ≤ 2; norm_num) trivial (e := 1 / 10) (by norm_num)
    (dt := 10) (by norm_num) env 100
  have v0 : (w.bodies 0).v_theta = 5 := d.vel 0 .th
  have q := (C123_drive (c := 0) (b := 0) (T := 2) (L := 1) (fun g => Gen.tame) d.hist hst hs d.sle
    (by norm_num) (by norm_num) e (by rw [d.regC]; simp) (d.kind 0) ⟨rfl, rfl⟩ (d.bodies 0 0)
    (fun c' hc' hne => absurd (by rw [d.regC] at hc'; simpa using hc') hne)
    (fun x => demo_motored d (by norm_num) rfl rfl (by decide) x 0) (by norm_num)).2
    (by rw [v0]; norm_num)
  exact ⟨h, w, w', d.hist, v0, e, by rw [q.1]; norm_num, by rw [q.2]; norm_num⟩

/-- **C123**, clutch: if the other torques change the difference of the speeds of the two bodies at most
at the rate `L`, which is at most what the clutch can do, `T (1/I₁ + 1/I₂)`, then the difference shrinks
at least at the rate `T (1/I₁ + 1/I₂) - L`, and bodies with equal speeds keep equal speeds, whatever the
number of sub-steps. -/
theorem C123_clutch (hG : ∀ g, G g → g.OnlyForces) (hw : World.Hist G .opt h w)
    (hst : w.Standard h) (hs : w.Sensible h) {m : Nat} {d : ℝ} (hsle : w.sle = some (.gs m d))
    (hdt : 0 < dt) (hn : 0 < steps) (e : w.process .opt env dt steps = .ok w') {c b1 b2 : Nat}
    {r : Clutch ℝ} {T L : ℝ} (hc : c ∈ regCons h) (hk : (w.cons c).kind = .clutch r)
    (hT : r.minTorque = -T ∧ r.maxTorque = T) (h1 : (w.cons c).bodies 0 = .obj b1)
    (h2 : (w.cons c).bodies 1 = .obj b2) (hl : w.Lone (regCons h) c)
    (hf : ∀ x, |w.load x b1 .th / (w.bodies b1).I - w.load x b2 .th / (w.bodies b2).I| ≤ L)
    (hL : L ≤ T * (1 / (w.bodies b1).I + 1 / (w.bodies b2).I)) :
    |(w'.bodies b1).v_theta - (w'.bodies b2).v_theta| ≤
        max 0 (|(w.bodies b1).v_theta - (w.bodies b2).v_theta| -
          dt * (T * (1 / (w.bodies b1).I + 1 / (w.bodies b2).I) - L)) ∧
      ((w.bodies b1).v_theta = (w.bodies b2).v_theta →
        (w'.bodies b1).v_theta = (w'.bodies b2).v_theta) := by
  obtain ⟨X, mult, h0, hm, hg⟩ := hw.gs_moved hG hst hsle hdt e
  have p := (hw.ready hG hst.wired).2
  have ha := (slip_bodies hst hs hw p hc).2
  have hc' := (hw.regs.cons.mem c).mpr hc
  have cn := hst.proper hw.regs c hc'
  simp only [hk, CKind.counts, Option.some.injEq, Prod.mk.injEq] at cn
  rw [← hw.regs.cs_finset] at hl
  have e1 : w.bodyOf c 0 = b1 := by rw [World.bodyOf, h1]
  have e2 : w.bodyOf c 1 = b2 := by rw [World.bodyOf, h2]
  have hb1 : b1 ∈ w.rb := by rw [← e1]; exact (p.bodies c hc' 0 (by omega)).2
  have hb2 : b2 ∈ w.rb := by rw [← e2]; exact (p.bodies c hc' 1 (by omega)).2
  have hI1 : 0 < (w.bodies b1).I := (hs.mass b1 ((hw.regs.bodies.mem b1).mp hb1)).2
  have hI2 : 0 < (w.bodies b2).I := (hs.mass b2 ((hw.regs.bodies.mem b2).mp hb2)).2
  have hT0 : 0 ≤ T := by
    have : r.minTorque ≤ r.maxTorque := by
      have := hs.ordered c hc
      rw [hk] at this
      exact this
    linarith
  have ht := sub_time (dt := dt) hn
  set s := dt / (steps : ℝ) with hsd
  have hspos : 0 < s := div_pos hdt (by exact_mod_cast hn)
  set I1 := (w.bodies b1).I with hI1d
  set I2 := (w.bodies b2).I with hI2d
  set K := 1 / I1 + 1 / I2 with hKd
  have hK : 0 < K := by positivity
  have step : ∀ i, i < steps.toNat → |(X (i + 1)).vel b1 .th - (X (i + 1)).vel b2 .th| ≤
      max 0 (|(X i).vel b1 .th - (X i).vel b2 .th| - s * (T * K - L)) := by
    intro i hi
    have st := hm.step i hi
    have r1 := cn.1.symm
    have ff := hl.force p hc' r1 hspos st (hg i hi) (hs.acts hst hw.regs _ c hc' 0 (by omega))
      (st.gs m d hsle hspos c hc' 0 (by omega) (hs.ordered c hc).le)
    have hv1 := hl.vel p hc' r1 (by omega) ha st (k := 0) (by omega) .th
    have hv2 := hl.vel p hc' r1 (by omega) ha st (k := 1) (by omega) .th
    have fr1 : w.freely s (X i) b1 .th = (X i).vel b1 .th + s * (w.load (X i) b1 .th / I1) := rfl
    have fr2 : w.freely s (X i) b2 .th = (X i).vel b2 .th + s * (w.load (X i) b2 .th / I2) := rfl
    set f1 := w.freely s (X i) b1 .th with hf1d
    set f2 := w.freely s (X i) b2 .th with hf2d
    have jj : ∀ k, (w.rowsOf (X i) c).J 0 k = (CKind.clutch r).jT ((X i).q w c) 0 k := fun k => by
      rw [← hk]; rfl
    have j0 : (w.rowsOf (X i) c).J 0 0 = 0 := jj 0
    have j1 : (w.rowsOf (X i) c).J 0 1 = 0 := jj 1
    have j2 : (w.rowsOf (X i) c).J 0 2 = -1 := jj 2
    have j3 : (w.rowsOf (X i) c).J 0 3 = 0 := jj 3
    have j4 : (w.rowsOf (X i) c).J 0 4 = 0 := jj 4
    have j5 : (w.rowsOf (X i) c).J 0 5 = 1 := jj 5
    have j2' : (w.rowsOf (X i) c).J 0 (0 * 3 + Coord.th.d) = -1 := jj 2
    have j5' : (w.rowsOf (X i) c).J 0 (1 * 3 + Coord.th.d) = 1 := jj 5
    have c0 : (w.rowsOf (X i) c).C 0 = 0 := by simp only [World.rowsOf, hk]; rfl
    have b0 : (w.rowsOf (X i) c).v_bias 0 = 0 := by simp only [World.rowsOf, hk]; rfl
    rw [rowAt_two _ _ _ cn.2.symm h1 h2, coupling_two p hc' cn.2.symm (ha cn.2.symm), e1, e2] at ff
    simp only [Coord.sum, Coord.d, j0, j1, j2, j3, j4, j5, c0, b0, hk, Body.mass, ← hf1d, ← hf2d,
      ← hI1d, ← hI2d] at ff
    rw [e1, ← hf1d, j2'] at hv1
    rw [e2, ← hf2d, j5', mul_one] at hv2
    simp only [Body.mass, ← hI1d, ← hI2d] at hv1 hv2
    have ff' : mult i c 0 = max (-T) (min T
        ((f1 - f2) / (s * K))) := by
      refine ff.trans ?_
      show max r.minTorque (min r.maxTorque _) = _
      rw [hT.1, hT.2, hKd]
      congr 2
      ring
    have hb := (brake (s := s) (I := 1 / K) (T := T) (v := f1 - f2)
      (v' := (X (i + 1)).vel b1 .th - (X (i + 1)).vel b2 .th) hspos (by positivity) hT0 (by
        have hn : max (-T) (min T (-(f1 - f2) * (1 / K) / s)) = -mult i c 0 := by
          rw [ff']
          have : -(f1 - f2) * (1 / K) / s = -((f1 - f2) / (s * K)) := by
            field_simp
          rw [this]
          exact clamp_odd hT0 _
        rw [hn, hv1, hv2, div_div_eq_mul_div, div_one, hKd]
        ring)).1
    rw [div_div_eq_mul_div, div_one] at hb
    rw [hb]
    refine max_le_max le_rfl ?_
    have h1 : |f1 - f2| ≤ |(X i).vel b1 .th - (X i).vel b2 .th| + s * L := by
      have : f1 - f2 = ((X i).vel b1 .th - (X i).vel b2 .th) +
          s * (w.load (X i) b1 .th / I1 - w.load (X i) b2 .th / I2) := by
        rw [fr1, fr2]; ring
      rw [this]
      refine (abs_add_le _ _).trans (add_le_add_right ?_ _)
      rw [abs_mul, abs_of_pos hspos]
      exact mul_le_mul_of_nonneg_left (hf (X i)) hspos.le
    linarith
  have q0 : 0 ≤ s * (T * K - L) := mul_nonneg hspos.le (sub_nonneg.mpr hL)
  have k1 := braked_le (x := fun n => (X n).vel b1 .th - (X n).vel b2 .th) q0 step _ le_rfl
  have l1 : (X steps.toNat).vel b1 .th = (w'.bodies b1).v_theta := (hm.last b1 hb1 .th).2
  have l2 : (X steps.toNat).vel b2 .th = (w'.bodies b2).v_theta := (hm.last b2 hb2 .th).2
  have f1 : (X 0).vel b1 .th = (w.bodies b1).v_theta := by rw [h0]; rfl
  have f2 : (X 0).vel b2 .th = (w.bodies b2).v_theta := by rw [h0]; rfl
  simp only [l1, l2, f1, f2] at k1
  rw [← mul_assoc, ht] at k1
  refine ⟨k1, fun hz => ?_⟩
  rw [hz, sub_self, abs_zero, zero_sub, max_eq_left (by
    have := mul_nonneg hdt.le (sub_nonneg.mpr hL)
    linarith)] at k1
  exact sub_eq_zero.mp (abs_nonpos_iff.mp k1)

/-- The claim applied to a body turning with speed 5 and one at rest, between which a motor with at most
the torque 1 works against a clutch for at most the torque 2: after ten seconds they turn alike. -/
example (env : Env ℝ) : ∃ (h : List (Op ℝ)) (w w' : World ℝ), World.Hist Gen.Shipped .opt h w ∧
    (w.bodies 0).v_theta = 5 ∧ (w.bodies 1).v_theta = 0 ∧ w.process .opt env 10 100 = .ok w' ∧
    (w'.bodies 0).v_theta = (w'.bodies 1).v_theta := by
  obtain ⟨h, w, w', m, d, hst, hs, e⟩ := demo_gsOf (.clutch ⟨-2, 2, 0, 0⟩) nofun
    (g := .motor ⟨3, 0, 1, 7, .obj 1, .obj 0⟩) trivial (cs := [0]) (fg := [0])
    (by decide) (by decide) ⟨⟨1, by decide, rfl⟩, 0, by decide, rfl⟩
    (by show (-2 : ℝ) ≤ 2; norm_num) trivial (e := 1 / 10) (by norm_num)
    (dt := 10) (by norm_num) env 100
  have v0 : (w.bodies 0).v_theta = 5 := d.vel 0 .th
  have v1 : (w.bodies 1).v_theta = 0 := d.vel 1 .th
  have q := (C123_clutch (c := 0) (b1 := 0) (b2 := 1) (T := 2) (L := 2) (fun g => Gen.tame) d.hist hst
    hs d.sle (by norm_num) (by norm_num) e (by rw [d.regC]; simp) (d.kind 0) ⟨rfl, rfl⟩ (d.bodies 0 0)
    (d.bodies 0 1) (fun c' hc' hne => absurd (by rw [d.regC] at hc'; simpa using hc') hne)
    (fun x => by
      have a0 := abs_le.mp (demo_motored d (by norm_num) rfl rfl (by decide) x 0)
      have a1 := abs_le.mp (demo_motored d (by norm_num) rfl rfl (by decide) x 1)
      rw [d.I, d.I, abs_le]
      norm_num at a0 a1 ⊢
      constructor <;> linarith [a0.1, a0.2, a1.1, a1.2])
    (by rw [d.I, d.I]; norm_num)).1
  rw [v0, v1, d.I, d.I] at q
  norm_num at q
  exact ⟨h, w, w', d.hist, v0, v1, e, by linarith⟩

end

end Scs
