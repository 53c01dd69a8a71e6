import Verif.PropsHoldFast

/-!
# C127: fixed rotations and gears with the Gauss-Seidel solver
-/

namespace Scs

open Finset

section
variable {G : Gen ℝ → Prop} {h : List (Op ℝ)} {w w' : World ℝ} {env : Env ℝ} {dt : ℝ} {steps : Int}

theorem clamp_within {T y : ℝ} (hy : |y| ≤ T) : max (-T) (min T y) = y := by
  obtain ⟨h1, h2⟩ := abs_le.mp hy
  rw [min_eq_right h2, max_eq_right h1]

theorem dbl_big : (100 : ℝ) ≤ (2 ^ 53 - 1) * 2 ^ 971 := by
  have h1 : (1 : ℝ) ≤ 2 ^ 971 := one_le_pow₀ (by norm_num)
  have h2 : (100 : ℝ) ≤ 2 ^ 53 - 1 := by norm_num
  have := mul_le_mul h2 h1 (by norm_num) (by linarith)
  rwa [mul_one] at this

/-- **C127**, fixed rotation: with the Gauss-Seidel solver, too, `n` sub-steps multiply the deviation of
the angle by `(1 - biasFactor) ^ n`, whatever the tolerance of the solver and the other torques, if no
other constraint shares the body and the torque that is needed is a number the code can represent. -/
theorem C127_fixed_rotation (hG : ∀ g, G g → g.OnlyForces) (hw : World.Hist G .opt h w)
    (hst : w.Standard h) (hs : w.Sensible h) {m : Nat} {d : ℝ} (hsle : w.sle = some (.gs m d))
    (hdt : 0 < dt) (hn : 0 < steps) (e : w.process .opt env dt steps = .ok w') {c b : Nat}
    {r : FixedRotation ℝ} {L : ℝ} (hc : c ∈ regCons h) (hk : (w.cons c).kind = .fixedRotation r)
    (hb : (w.cons c).bodies 0 = .obj b) (hl : w.Lone (regCons h) c)
    (hbias : 0 ≤ w.bias ∧ w.bias ≤ 2) (hf : ∀ x, |w.load x b .th| ≤ L)
    (hbig : (w.bodies b).I * (|(w.bodies b).v_theta| +
      2 * w.bias * |(w.bodies b).theta - r.rotation| / (dt / steps)) / (dt / steps) + L ≤
        (2 ^ 53 - 1) * 2 ^ 971) :
    (w'.bodies b).theta - r.rotation =
      (1 - w.bias) ^ steps.toNat * ((w.bodies b).theta - r.rotation) := by
  obtain ⟨X, mult, h0, hm, hg⟩ := hw.gs_moved hG hst hsle hdt e
  have p := (hw.ready hG hst.wired).2
  have hc' := (hw.regs.cons.mem c).mpr hc
  have cn := hst.proper hw.regs c hc'
  simp only [hk, CKind.counts, Option.some.injEq, Prod.mk.injEq] at cn
  rw [← hw.regs.cs_finset] at hl
  have e1 : w.bodyOf c 0 = b := by rw [World.bodyOf, hb]
  have hb' : b ∈ w.rb := by rw [← e1]; exact (p.bodies c hc' 0 (by omega)).2
  have hI : 0 < (w.bodies b).I := (hs.mass b ((hw.regs.bodies.mem b).mp hb')).2
  set s := dt / (steps : ℝ) with hsd
  have hspos : 0 < s := div_pos hdt (by exact_mod_cast hn)
  set I := (w.bodies b).I with hId
  set e0 := (w.bodies b).theta - r.rotation with he0
  have hpow : ∀ n : Nat, |(1 - w.bias) ^ n * e0| ≤ |e0| := fun n => by
    rw [abs_mul, abs_pow]
    have : |1 - w.bias| ≤ 1 := abs_le.mpr ⟨by linarith, by linarith⟩
    exact mul_le_of_le_one_left (abs_nonneg _) (pow_le_one₀ (abs_nonneg _) this)
  have key : ∀ n, n ≤ steps.toNat → (X n).pos b .th - r.rotation = (1 - w.bias) ^ n * e0 ∧
      |(X n).vel b .th| ≤ |(w.bodies b).v_theta| + w.bias * |e0| / s := by
    intro n
    induction n with
    | zero =>
      intro _
      rw [h0]
      refine ⟨?_, ?_⟩
      · show (w.bodies b).theta - r.rotation = _
        rw [pow_zero, one_mul]
      · show |(w.bodies b).v_theta| ≤ _
        have : 0 ≤ w.bias * |e0| / s := div_nonneg (mul_nonneg hbias.1 (abs_nonneg _)) hspos.le
        linarith
    | succ n ih =>
      intro hn'
      obtain ⟨i1, i2⟩ := ih (by omega)
      have st := hm.step n (by omega)
      have h1 := cn.1.symm
      have ff := hl.force p hc' h1 hspos st (hg n (by omega)) (hs.acts hst hw.regs _ c hc' 0 (by omega))
        (st.gs m d hsle hspos c hc' 0 (by omega) (hs.ordered c hc).le)
      have hv := hl.vel p hc' h1 (by omega) (fun h => by omega) st (k := 0) (by omega) .th
      obtain ⟨t1, t2⟩ := torque_one p hc' cn.2.symm hb (x := X n)
        (by simp only [World.rowsOf, hk]; rfl) (by simp only [World.rowsOf, hk]; rfl)
        (by simp only [World.rowsOf, hk]; rfl) (w.freely s (X n))
      have j2 : (w.rowsOf (X n) c).J 0 (0 * 3 + Coord.th.d) = 1 := by
        simp only [World.rowsOf, hk]; rfl
      have c0 : (w.rowsOf (X n) c).C 0 = (X n).pos b .th - r.rotation := by
        simp only [World.rowsOf, hk]
        show (X n).q w c 2 - r.rotation = _
        rw [Motion.q, if_pos (by omega), ← e1]
        rfl
      have b0 : (w.rowsOf (X n) c).v_bias 0 = 0 := by
        simp only [World.rowsOf, hk]; rfl
      have fr : w.freely s (X n) b .th = (X n).vel b .th + s * (w.load (X n) b .th / I) := rfl
      rw [t1, t2, c0, b0, hk, add_zero, i1, fr] at ff
      set E := (1 - w.bias) ^ n * e0 with hE
      set V := (X n).vel b .th with hV
      set τ := w.load (X n) b .th with hτ
      have ff' : mult n c 0 = -(V + s * (τ / I) + w.bias / s * E) * I / s := by
        refine ff.trans ?_
        have er : -(V + s * (τ / I) + w.bias / s * E) / (s * (1 / I)) =
            -(V + s * (τ / I) + w.bias / s * E) * I / s := by field_simp
        rw [← hId, er]
        refine clamp_within (T := (2 ^ 53 - 1) * 2 ^ 971) ?_
        refine le_trans ?_ hbig
        have es : -(V + s * (τ / I) + w.bias / s * E) * I / s =
            -(I * (V + w.bias * E / s) / s + τ) := by
          field_simp
          ring
        rw [es, abs_neg]
        refine (abs_add_le _ _).trans (add_le_add ?_ (hf _))
        rw [abs_div, abs_mul, abs_of_pos hI, abs_of_pos hspos]
        refine div_le_div_of_nonneg_right (mul_le_mul_of_nonneg_left ?_ hI.le) hspos.le
        refine (abs_add_le _ _).trans ?_
        have a1 : |w.bias * E / s| ≤ w.bias * |e0| / s := by
          rw [abs_div, abs_mul, abs_of_nonneg hbias.1, abs_of_pos hspos]
          exact div_le_div_of_nonneg_right (mul_le_mul_of_nonneg_left (hpow n) hbias.1) hspos.le
        have a2 : 2 * w.bias * |e0| / s = w.bias * |e0| / s + w.bias * |e0| / s := by ring
        linarith
      rw [e1, j2, mul_one, fr, ff'] at hv
      have hv' : (X (n + 1)).vel b .th = -(w.bias / s * E) := by
        refine hv.trans ?_
        show V + s * (τ / I) + s * (-(V + s * (τ / I) + w.bias / s * E) * I / s / I) = _
        field_simp
        ring
      refine ⟨?_, ?_⟩
      · rw [st.pos b hb' .th, hv', pow_succ]
        have : s * (w.bias / s * E) = w.bias * E := by field_simp
        have : (X n).pos b .th = E + r.rotation := by linarith
        rw [this, mul_neg, ‹s * (w.bias / s * E) = w.bias * E›, hE]
        ring
      · rw [hv', abs_neg, div_mul_eq_mul_div, abs_div, abs_mul, abs_of_nonneg hbias.1, abs_of_pos hspos]
        have := div_le_div_of_nonneg_right (mul_le_mul_of_nonneg_left (hpow n) hbias.1) hspos.le
        have := abs_nonneg (w.bodies b).v_theta
        linarith
  have k := (key _ le_rfl).1
  have plast : (X steps.toNat).pos b .th = (w'.bodies b).theta := (hm.last b hb' .th).1
  rwa [plast] at k

/-- The claim applied to a body turning with speed 5 that is to be held at the angle 7, while a motor
turns it. -/
example (env : Env ℝ) : ∃ (h : List (Op ℝ)) (w w' : World ℝ), World.Hist Gen.Shipped .opt h w ∧
    (w.bodies 0).v_theta = 5 ∧ w.process .opt env 2 4 = .ok w' ∧
    (w'.bodies 0).theta - 7 = (1 - w.bias) ^ 4 * -7 := by
  obtain ⟨h, w, w', m, d, hst, hs, e⟩ := demo_gsOf (.fixedRotation ⟨7, 0, 0⟩) nofun
    (g := .motor ⟨3, 0, 1, 7, .obj 1, .obj 0⟩) trivial (cs := [0]) (fg := [0])
    (by decide) (by decide) ⟨⟨1, by decide, rfl⟩, 0, by decide, rfl⟩
    trivial trivial (e := 1 / 10) (by norm_num)
    (dt := 2) (by norm_num) env 4
  have v0 : (w.bodies 0).v_theta = 5 := d.vel 0 .th
  have t0 : (w.bodies 0).theta = 0 := (d.pos 0 .th).trans (by norm_num [demoBody, Body.pos])
  have hb := d.bias
  have q := C127_fixed_rotation (c := 0) (b := 0) (L := 1) (fun g => Gen.tame) d.hist hst hs d.sle
    (by norm_num) (by norm_num) e (by rw [d.regC]; simp) (d.kind 0) (d.bodies 0 0)
    (fun c' hc' hne => absurd (by rw [d.regC] at hc'; simpa using hc') hne)
    (by rw [hb]; norm_num) (fun x => demo_motored d (by norm_num) rfl rfl (by decide) x 0)
    (by
      refine le_trans ?_ dbl_big
      rw [hb, v0, t0, d.I]
      norm_num)
  refine ⟨h, w, w', d.hist, v0, e, ?_⟩
  rw [t0, zero_sub] at q
  exact q

/-- **C127**, gear: with the Gauss-Seidel solver, too, an engaged gear that shares its bodies with no other
constraint makes the speeds follow its ratio exactly, whatever the tolerance of the solver and the other
torques, if the torque that is needed is a number the code can represent. -/
theorem C127_gear (hG : ∀ g, G g → g.OnlyForces) (hw : World.Hist G .opt h w)
    (hst : w.Standard h) (hs : w.Sensible h) {m : Nat} {d : ℝ} (hsle : w.sle = some (.gs m d))
    (hdt : 0 < dt) (hn : 0 < steps) (e : w.process .opt env dt steps = .ok w') {c b1 b2 : Nat}
    {r : SimpleGear ℝ} {L : ℝ} (hc : c ∈ regCons h) (hk : (w.cons c).kind = .simpleGear r)
    (hr : r.neutral = false) (h1 : (w.cons c).bodies 0 = .obj b1)
    (h2 : (w.cons c).bodies 1 = .obj b2) (hl : w.Lone (regCons h) c)
    (hf : ∀ x, |w.load x b1 .th / (w.bodies b1).I - r.ratio * (w.load x b2 .th / (w.bodies b2).I)| ≤ L)
    (hbig : (|(w.bodies b1).v_theta - r.ratio * (w.bodies b2).v_theta| / (dt / steps) + L) /
      (1 / (w.bodies b1).I + r.ratio ^ 2 / (w.bodies b2).I) ≤ (2 ^ 53 - 1) * 2 ^ 971) :
    (w'.bodies b1).v_theta = r.ratio * (w'.bodies b2).v_theta := by
  obtain ⟨X, mult, h0, hm, hg⟩ := hw.gs_moved hG hst hsle hdt e
  have p := (hw.ready hG hst.wired).2
  have ha := (slip_bodies hst hs hw p hc).2
  have hc' := (hw.regs.cons.mem c).mpr hc
  have cn := hst.proper hw.regs c hc'
  simp only [hk, CKind.counts, Option.some.injEq, Prod.mk.injEq] at cn
  rw [← hw.regs.cs_finset] at hl
  have e1 : w.bodyOf c 0 = b1 := by rw [World.bodyOf, h1]
  have e2 : w.bodyOf c 1 = b2 := by rw [World.bodyOf, h2]
  have hb1 : b1 ∈ w.rb := by rw [← e1]; exact (p.bodies c hc' 0 (by omega)).2
  have hb2 : b2 ∈ w.rb := by rw [← e2]; exact (p.bodies c hc' 1 (by omega)).2
  have hI1 : 0 < (w.bodies b1).I := (hs.mass b1 ((hw.regs.bodies.mem b1).mp hb1)).2
  have hI2 : 0 < (w.bodies b2).I := (hs.mass b2 ((hw.regs.bodies.mem b2).mp hb2)).2
  set s := dt / (steps : ℝ) with hsd
  have hspos : 0 < s := div_pos hdt (by exact_mod_cast hn)
  set I1 := (w.bodies b1).I with hI1d
  set I2 := (w.bodies b2).I with hI2d
  set K := 1 / I1 + r.ratio ^ 2 / I2 with hKd
  have hK : 0 < K := by positivity
  set S := |(w.bodies b1).v_theta - r.ratio * (w.bodies b2).v_theta| with hS
  have step : ∀ i, i < steps.toNat → |(X i).vel b1 .th - r.ratio * (X i).vel b2 .th| ≤ S →
      (X (i + 1)).vel b1 .th - r.ratio * (X (i + 1)).vel b2 .th = 0 := by
    intro i hi hslip
    have st := hm.step i hi
    have r1 := cn.1.symm
    have ff := hl.force p hc' r1 hspos st (hg i hi) (hs.acts hst hw.regs _ c hc' 0 (by omega))
      (st.gs m d hsle hspos c hc' 0 (by omega) (hs.ordered c hc).le)
    have hv1 := hl.vel p hc' r1 (by omega) ha st (k := 0) (by omega) .th
    have hv2 := hl.vel p hc' r1 (by omega) ha st (k := 1) (by omega) .th
    have fr1 : w.freely s (X i) b1 .th = (X i).vel b1 .th + s * (w.load (X i) b1 .th / I1) := rfl
    have fr2 : w.freely s (X i) b2 .th = (X i).vel b2 .th + s * (w.load (X i) b2 .th / I2) := rfl
    set f1 := w.freely s (X i) b1 .th with hf1d
    set f2 := w.freely s (X i) b2 .th with hf2d
    have jj : ∀ k, (w.rowsOf (X i) c).J 0 k = (CKind.simpleGear r).jT ((X i).q w c) 0 k := fun k => by
      rw [← hk]; rfl
    have j0 : (w.rowsOf (X i) c).J 0 0 = 0 := jj 0
    have j1 : (w.rowsOf (X i) c).J 0 1 = 0 := jj 1
    have j2 : (w.rowsOf (X i) c).J 0 2 = 1 := jj 2
    have j3 : (w.rowsOf (X i) c).J 0 3 = 0 := jj 3
    have j4 : (w.rowsOf (X i) c).J 0 4 = 0 := jj 4
    have j5 : (w.rowsOf (X i) c).J 0 5 = -r.ratio := jj 5
    have j2' : (w.rowsOf (X i) c).J 0 (0 * 3 + Coord.th.d) = 1 := jj 2
    have j5' : (w.rowsOf (X i) c).J 0 (1 * 3 + Coord.th.d) = -r.ratio := jj 5
    have c0 : (w.rowsOf (X i) c).C 0 = 0 := by simp only [World.rowsOf, hk]; rfl
    have b0 : (w.rowsOf (X i) c).v_bias 0 = 0 := by simp only [World.rowsOf, hk]; rfl
    rw [rowAt_two _ _ _ cn.2.symm h1 h2, coupling_two p hc' cn.2.symm (ha cn.2.symm), e1, e2] at ff
    simp only [Coord.sum, Coord.d, j0, j1, j2, j3, j4, j5, c0, b0, hk, Body.mass, ← hf1d, ← hf2d,
      ← hI1d, ← hI2d] at ff
    rw [e1, ← hf1d, j2', mul_one] at hv1
    rw [e2, ← hf2d, j5'] at hv2
    simp only [Body.mass, ← hI1d, ← hI2d] at hv1 hv2
    have lo : (CKind.simpleGear r).loT = -((2 ^ 53 - 1) * 2 ^ 971) := by
      simp only [CKind.loT, hr]
      exact if_neg nofun
    have hi' : (CKind.simpleGear r).hiT = (2 ^ 53 - 1) * 2 ^ 971 := by
      simp only [CKind.hiT, hr]
      exact if_neg nofun
    have ff' : mult i c 0 = -(f1 - r.ratio * f2) / (s * K) := by
      refine ff.trans ?_
      rw [lo, hi']
      refine Eq.trans ?_ (clamp_within (T := (2 ^ 53 - 1) * 2 ^ 971) ?_)
      · rw [hKd]
        congr 2
        ring
      · refine le_trans ?_ hbig
        have : f1 - r.ratio * f2 = ((X i).vel b1 .th - r.ratio * (X i).vel b2 .th) +
            s * (w.load (X i) b1 .th / I1 - r.ratio * (w.load (X i) b2 .th / I2)) := by
          rw [fr1, fr2]; ring
        rw [abs_div, abs_neg, abs_mul, abs_of_pos hspos, abs_of_pos hK, ← div_div]
        refine div_le_div_of_nonneg_right ?_ hK.le
        rw [this, div_le_iff₀ hspos]
        refine (abs_add_le _ _).trans ?_
        rw [abs_mul, abs_of_pos hspos]
        have := mul_le_mul_of_nonneg_left (hf (X i)) hspos.le
        have e3 : (S / s + L) * s = S + s * L := by field_simp
        linarith
    rw [hv1, hv2, ff']
    have hK' : s * K ≠ 0 := by positivity
    have eq : ∀ y : ℝ, f1 + s * (y / I1) - r.ratio * (f2 + s * (y * -r.ratio / I2)) =
        (f1 - r.ratio * f2) + y * (s * K) := fun y => by rw [hKd]; ring
    refine (eq _).trans ?_
    rw [div_mul_cancel₀ _ hK']
    ring
  have all : ∀ n, n ≤ steps.toNat → |(X n).vel b1 .th - r.ratio * (X n).vel b2 .th| ≤ S := by
    intro n
    induction n with
    | zero => intro _; rw [h0]; exact le_rfl
    | succ n ih =>
      intro hn'
      rw [step n (by omega) (ih (by omega)), abs_zero]
      exact abs_nonneg _
  have l1 : (X steps.toNat).vel b1 .th = (w'.bodies b1).v_theta := (hm.last b1 hb1 .th).2
  have l2 : (X steps.toNat).vel b2 .th = (w'.bodies b2).v_theta := (hm.last b2 hb2 .th).2
  have hN : steps.toNat - 1 + 1 = steps.toNat := by omega
  have fin := step (steps.toNat - 1) (by omega) (all _ (by omega))
  rw [hN, l1, l2] at fin
  linarith

/-- The claim applied to a gear with the ratio 3 between a turning body and one at rest, which a motor
drives as well. -/
example (env : Env ℝ) : ∃ (h : List (Op ℝ)) (w w' : World ℝ), World.Hist Gen.Shipped .opt h w ∧
    (w.bodies 0).v_theta = 5 ∧ (w.bodies 1).v_theta = 0 ∧ w.process .opt env 2 4 = .ok w' ∧
    (w'.bodies 0).v_theta = 3 * (w'.bodies 1).v_theta := by
  obtain ⟨h, w, w', m, d, hst, hs, e⟩ := demo_gsOf (.simpleGear ⟨3, false, 0, 0⟩) nofun
    (g := .motor ⟨3, 0, 1, 7, .obj 1, .obj 0⟩) trivial (cs := [0]) (fg := [0])
    (by decide) (by decide) ⟨⟨1, by decide, rfl⟩, 0, by decide, rfl⟩
    trivial trivial (e := 1 / 10) (by norm_num)
    (dt := 2) (by norm_num) env 4
  have v0 : (w.bodies 0).v_theta = 5 := d.vel 0 .th
  have v1 : (w.bodies 1).v_theta = 0 := d.vel 1 .th
  have q := C127_gear (c := 0) (b1 := 0) (b2 := 1) (L := 4) (fun g => Gen.tame) d.hist hst hs d.sle
    (by norm_num) (by norm_num) e (by rw [d.regC]; simp) (d.kind 0) rfl (d.bodies 0 0) (d.bodies 0 1)
    (fun c' hc' hne => absurd (by rw [d.regC] at hc'; simpa using hc') hne)
    (fun x => by
      have a0 := abs_le.mp (demo_motored d (by norm_num) rfl rfl (by decide) x 0)
      have a1 := abs_le.mp (demo_motored d (by norm_num) rfl rfl (by decide) x 1)
      rw [d.I, d.I, abs_le]
      norm_num at a0 a1 ⊢
      constructor <;> linarith [a0.1, a0.2, a1.1, a1.2])
    (by
      refine le_trans ?_ dbl_big
      rw [v0, v1, d.I, d.I]
      norm_num)
  exact ⟨h, w, w', d.hist, v0, v1, e, q⟩

end

end Scs
