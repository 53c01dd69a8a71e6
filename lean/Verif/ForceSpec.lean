import Verif.ForceLemmas
import Mathlib.Algebra.BigOperators.Group.Finset.Basic
import Mathlib.Algebra.BigOperators.Ring.Finset
import Mathlib.Analysis.SpecialFunctions.Sqrt

/-!
# Specification of the force generators, and what they compute
-/

namespace Scs

open SysState Finset

/-! ## Specification -/

/-- Hooke's law with damping: the force on the end `w1` (moving with velocity `u1`) of a spring of
stiffness `k`, rest length `L` and damping `d` whose other end is `w2`, `u2`. -/
noncomputable def hooke (k L d : ℝ) (w1 w2 u1 u2 : ℝ × ℝ) : ℝ × ℝ :=
  let l := √((w2.1 - w1.1) ^ 2 + (w2.2 - w1.2) ^ 2)
  (k * (l - L) * ((w2.1 - w1.1) / l) + d * (u2.1 - u1.1),
   k * (l - L) * ((w2.2 - w1.2) / l) + d * (u2.2 - u1.2))

/-- Distance of two points. -/
noncomputable def distOf (w1 w2 : ℝ × ℝ) : ℝ := √((w2.1 - w1.1) ^ 2 + (w2.2 - w1.2) ^ 2)

/-- A spring between bodies `i` and `j` of the state `s`, with its ends `w1`, `w2` and their
velocities `u1`, `u2`. -/
structure SpringAt (p : Spring ℝ) (bodies : Nat → Body ℝ) (s : SysState ℝ) (i j : Nat)
    (w1 w2 u1 u2 : ℝ × ℝ) : Prop where
  first : ∃ b, p.body1 = .obj b ∧ (bodies b).index = i
  second : ∃ b, p.body2 = .obj b ∧ (bodies b).index = j
  lt1 : i < s.n
  lt2 : j < s.n
  end1 : s.localToWorld p.p1_x p.p1_y i = .ok w1
  end2 : s.localToWorld p.p2_x p.p2_y j = .ok w2
  vel1 : s.velocityAtPoint p.p1_x p.p1_y i = .ok u1
  vel2 : s.velocityAtPoint p.p2_x p.p2_y j = .ok u2

/-- Total force and total torque about the origin recorded in a state with contents `g`. -/
def netForceX (n : Nat) (g : Fld → Nat → ℝ) : ℝ := ∑ k ∈ range n, g .f_x k
@[inherit_doc netForceX]
def netForceY (n : Nat) (g : Fld → Nat → ℝ) : ℝ := ∑ k ∈ range n, g .f_y k
@[inherit_doc netForceX]
def netTorque (n : Nat) (g : Fld → Nat → ℝ) : ℝ :=
  ∑ k ∈ range n, (g .t k + (g .p_x k * g .f_y k - g .p_y k * g .f_x k))

/-! ## Helpers -/

theorem sum_bump {n i : Nat} (hi : i < n) {f g : Nat → ℝ} {d : ℝ} (h0 : f i = g i + d)
    (h : ∀ k, k ≠ i → f k = g k) : ∑ k ∈ range n, f k = ∑ k ∈ range n, g k + d := by
  rw [← Finset.add_sum_erase _ f (mem_range.2 hi), ← Finset.add_sum_erase _ g (mem_range.2 hi), h0]
  have : ∑ x ∈ (range n).erase i, f x = ∑ x ∈ (range n).erase i, g x :=
    sum_congr rfl fun k hk => h k (ne_of_mem_erase hk)
  rw [this]; ring

theorem forced_net {n i : Nat} (hi : i < n) (g : Fld → Nat → ℝ) (w : ℝ × ℝ) (fx fy : ℝ) :
    netForceX n (forced g i w fx fy) = netForceX n g + fx ∧
    netForceY n (forced g i w fx fy) = netForceY n g + fy ∧
    netTorque n (forced g i w fx fy) = netTorque n g + (w.1 * fy - w.2 * fx) := by
  refine ⟨sum_bump hi ?_ ?_, sum_bump hi ?_ ?_, sum_bump hi ?_ ?_⟩
  all_goals first
    | (intro k hk; simp [forced, hk]; done)
    | (simp [forced]; done)
    | (simp [forced]; ring)

/-- The force the code computes for the first end. -/
noncomputable def springForce (p : Spring ℝ) (w1 w2 u1 u2 : ℝ × ℝ) : ℝ × ℝ :=
  if 1 / 100 ≤ distOf w1 w2 then hooke p.ks p.restLength p.kd w1 w2 u1 u2
  else (p.kd * (u2.1 - u1.1), p.kd * (u2.2 - u1.2))

theorem springDir_real (dx dy : ℝ) : springDir dx dy = .ok (if 1 / 100 ≤ √(dx ^ 2 + dy ^ 2) then
    (√(dx ^ 2 + dy ^ 2), dx / √(dx ^ 2 + dy ^ 2), dy / √(dx ^ 2 + dy ^ 2))
    else (√(dx ^ 2 + dy ^ 2), 0, 0)) := by
  have e : Fp.sqrt (dx * dx + dy * dy) = √(dx ^ 2 + dy ^ 2) := by
    rw [sq, sq]; rfl
  simp only [springDir, e]
  have hn : (0 : ℝ) ≤ √(dx ^ 2 + dy ^ 2) := Real.sqrt_nonneg _
  by_cases h : 1 / 100 ≤ √(dx ^ 2 + dy ^ 2)
  · have h0 : √(dx ^ 2 + dy ^ 2) ≠ 0 := by
      intro h0; rw [h0] at h; norm_num at h
    have : Fp.ge (Fp.abs √(dx ^ 2 + dy ^ 2)) (Fp.lit (1 / 100)) = true := by
      rw [fp_ge, fp_abs, abs_of_nonneg hn, fp_lit]; push_cast; exact h
    rw [if_pos this, if_pos h, fp_div h0, ok_bind, fp_div h0, ok_bind]; rfl
  · have : ¬ Fp.ge (Fp.abs √(dx ^ 2 + dy ^ 2)) (Fp.lit (1 / 100)) = true := by
      rw [fp_ge, fp_abs, abs_of_nonneg hn, fp_lit]; push_cast; exact h
    rw [if_neg this, if_neg h, fp_lit]; simp; rfl

theorem springEnd_in {bodies : Nat → Body ℝ} {b i : Nat} (hb : (bodies b).index = i) {x y : ℝ}
    {s : SysState ℝ} {w u : ℝ × ℝ} (hw : s.localToWorld x y i = .ok w)
    (hu : s.velocityAtPoint x y i = .ok u) : springEnd bodies b x y s = .ok (w, u) := by
  simp only [springEnd, hb]
  rw [if_pos (by omega), hw, ok_bind, hu, ok_bind]; rfl

theorem ltw_keep {s s' : SysState ℝ} (h : ForceWrites s s') (ho : s.Ok) {i : Nat} (hi : i < s.n)
    (x y : ℝ) : s'.localToWorld x y i = s.localToWorld x y i := by
  have o' := h.ok ho
  have hi' : i < s'.n := by rw [h.n]; exact hi
  simp only [SysState.localToWorld, ho.rd _ hi, o'.rd _ hi', ok_bind,
    h.keep (f := .p_x) (by simp [Fld.IsForce]), h.keep (f := .p_y) (by simp [Fld.IsForce]),
    h.keep (f := .theta) (by simp [Fld.IsForce])]

/-- What `Spring::apply` does between two bodies of the state. -/
theorem spring_run {p : Spring ℝ} {bodies : Nat → Body ℝ} {s : SysState ℝ} {i j : Nat}
    {w1 w2 u1 u2 : ℝ × ℝ} (ho : s.Ok) (h : SpringAt p bodies s i j w1 w2 u1 u2) :
    ∃ s', (Gen.spring p).apply bodies s = .ok s' ∧ s'.Ok ∧ ForceWrites s s' ∧
      ∀ f k, s'.val f k = forced (forced s.val i w1 (springForce p w1 w2 u1 u2).1
        (springForce p w1 w2 u1 u2).2) j w2 (-(springForce p w1 w2 u1 u2).1)
        (-(springForce p w1 w2 u1 u2).2) f k := by
  obtain ⟨b1, hb1, hi1⟩ := h.first
  obtain ⟨b2, hb2, hi2⟩ := h.second
  obtain ⟨s1, e1, o1, f1, v1⟩ := applyForce_spec ho h.lt1 p.p1_x p.p1_y
    (springForce p w1 w2 u1 u2).1 (springForce p w1 w2 u1 u2).2 h.end1
  have h2' : j < s1.n := by rw [f1.n]; exact h.lt2
  obtain ⟨s2, e2, o2, f2, v2⟩ := applyForce_spec o1 h2' p.p2_x p.p2_y
    (-(springForce p w1 w2 u1 u2).1) (-(springForce p w1 w2 u1 u2).2)
    ((ltw_keep f1 ho h.lt2 _ _).trans h.end2)
  refine ⟨s2, ?_, o2, f1.trans f2, fun f k => ?_⟩
  · simp only [Gen.apply, Spring.apply, hb1, hb2, Ptr.isNull, Ptr.get, ok_bind, Spring.pull,
      springEnd_in hi1 h.end1 h.vel1, springEnd_in hi2 h.end2 h.vel2, springDir_real, hi1, hi2]
    rw [if_neg (by decide), if_neg (by decide)]
    have d1 : (distOf w1 w2) = √((w2.1 - w1.1) ^ 2 + (w2.2 - w1.2) ^ 2) := rfl
    rw [← d1]
    by_cases hd : 1 / 100 ≤ distOf w1 w2
    · have q1 : (springForce p w1 w2 u1 u2).1 = (w2.1 - w1.1) / distOf w1 w2 *
          (distOf w1 w2 - p.restLength) * p.ks + (u2.1 - u1.1) * p.kd := by
        simp only [springForce, if_pos hd, hooke, ← d1]; ring
      have q2 : (springForce p w1 w2 u1 u2).2 = (w2.2 - w1.2) / distOf w1 w2 *
          (distOf w1 w2 - p.restLength) * p.ks + (u2.2 - u1.2) * p.kd := by
        simp only [springForce, if_pos hd, hooke, ← d1]; ring
      rw [if_pos hd]
      simp only [← q1, ← q2, e1, ok_bind]
      rw [← e2, q1, q2]
      congr 1 <;> ring
    · have q1 : (springForce p w1 w2 u1 u2).1 = 0 *
          (distOf w1 w2 - p.restLength) * p.ks + (u2.1 - u1.1) * p.kd := by
        simp only [springForce, if_neg hd]; ring
      have q2 : (springForce p w1 w2 u1 u2).2 = 0 *
          (distOf w1 w2 - p.restLength) * p.ks + (u2.2 - u1.2) * p.kd := by
        simp only [springForce, if_neg hd]; ring
      rw [if_neg hd]
      simp only [← q1, ← q2, e1, ok_bind]
      rw [← e2, q1, q2]
      congr 1 <;> ring
  · rw [v2]
    have : s1.val = forced s.val i w1 (springForce p w1 w2 u1 u2).1 (springForce p w1 w2 u1 u2).2 :=
      funext fun f => funext fun k => v1 f k
    rw [this]

/-- Adding a torque to a body. -/
def torqued (g : Fld → Nat → ℝ) (i : Nat) (τ : ℝ) (f : Fld) (k : Nat) : ℝ :=
  if f = .t ∧ k = i then g .t i + τ else g f k

/-- The torque the motor tries to exert. -/
def motorTorque (p : Motor ℝ) (v0 a0 v1 a1 : ℝ) : ℝ :=
  p.ks * (p.speed - (v1 - v0)) - p.kd * (a1 - a0)

theorem clamp_fp (m x : ℝ) (τ : ℝ) (h : τ = Fp.fmin m (Fp.fmax (-m) x)) (hm : 0 ≤ m) :
    |τ| ≤ m ∧ (|x| ≤ m → τ = x) ∧ (m < x → τ = m) ∧ (x < -m → τ = -m) := by
  rw [fp_fmin, fp_fmax] at h
  subst h
  refine ⟨abs_le.2 ⟨?_, min_le_left _ _⟩, fun h => ?_, fun h => ?_, fun h => ?_⟩
  · exact le_min (by linarith) (le_max_left _ _)
  · obtain ⟨h1, h2⟩ := abs_le.1 h
    rw [max_eq_right h1, min_eq_right h2]
  · rw [max_eq_right (by linarith), min_eq_left h.le]
  · rw [max_eq_left h.le, min_eq_right (by linarith)]

theorem addT {s : SysState ℝ} (ho : s.Ok) {i : Nat} (hi : i < s.n) (τ : ℝ) :
    ∃ s', s.wr .t i (s.val .t i + τ) = .ok s' ∧ s'.Ok ∧ ForceWrites s s' ∧
      ∀ f k, s'.val f k = torqued s.val i τ f k := by
  obtain ⟨s', e, o, _, _, v, _⟩ := put_wr ho .t hi (s.val .t i + τ)
  exact ⟨s', e, o, .wr .refl (.inr (.inr rfl)) _ _ e, fun f k => by rw [v]; rfl⟩

/-- What `ConstantSpeedMotor::apply` does between two bodies of the state. -/
theorem motor_run {p : Motor ℝ} {bodies : Nat → Body ℝ} {s : SysState ℝ} {i j b0 b1 : Nat}
    (ho : s.Ok) (h0 : p.body0 = .obj b0) (h1 : p.body1 = .obj b1) (hi : (bodies b0).index = i)
    (hj : (bodies b1).index = j) (hin : i < s.n) (hjn : j < s.n) :
    ∃ s' τ, (Gen.motor p).apply bodies s = .ok s' ∧ s'.Ok ∧ ForceWrites s s' ∧
      τ = Fp.fmin p.maxTorque (Fp.fmax (-p.maxTorque)
        (motorTorque p (s.val .v_theta i) (s.val .a_theta i) (s.val .v_theta j) (s.val .a_theta j))) ∧
      ∀ f k, s'.val f k = torqued (torqued s.val i (-τ)) j τ f k := by
  let τ := Fp.fmin p.maxTorque (Fp.fmax (-p.maxTorque)
        (motorTorque p (s.val .v_theta i) (s.val .a_theta i) (s.val .v_theta j) (s.val .a_theta j)))
  obtain ⟨s1, e1, o1, f1, v1⟩ := addT ho hin (-τ)
  obtain ⟨s2, e2, o2, f2, v2⟩ := addT o1 (i := j) (by rw [f1.n]; exact hjn) τ
  refine ⟨s2, τ, ?_, o2, f1.trans f2, rfl, fun f k => ?_⟩
  · have eτ : τ = Fp.fmin p.maxTorque (Fp.fmax (-p.maxTorque)
        ((p.speed - (s.val .v_theta j - s.val .v_theta i)) * p.ks +
          -(s.val .a_theta j - s.val .a_theta i) * p.kd)) := by
      simp only [τ, motorTorque]; congr 2; ring
    have ne : ((i : Nat) : Int) ≠ -1 := by omega
    simp only [Gen.apply, Motor.apply, h0, h1, Ptr.get, ok_bind, hi, hj, motorRead, motorReact,
      if_neg ne, if_pos ne, ho.rd _ hin, ho.rd _ hjn, ← eτ, SysState.addTo]
    rw [sub_eq_add_neg, e1, ok_bind, o1.rd .t (by rw [f1.n]; exact hjn), ok_bind, e2]
  · rw [v2, show s1.val = torqued s.val i (-τ) from funext fun f => funext fun k => v1 f k]

/-- A motor whose first body is the fixed world. -/
theorem motor_fixed_run {p : Motor ℝ} {bodies : Nat → Body ℝ} {s : SysState ℝ} {j b0 b1 : Nat}
    (ho : s.Ok) (h0 : p.body0 = .obj b0) (h1 : p.body1 = .obj b1) (hi : (bodies b0).index = -1)
    (hj : (bodies b1).index = j) (hjn : j < s.n) :
    ∃ s' τ, (Gen.motor p).apply bodies s = .ok s' ∧ s'.Ok ∧ ForceWrites s s' ∧
      τ = Fp.fmin p.maxTorque (Fp.fmax (-p.maxTorque)
        (motorTorque p 0 0 (s.val .v_theta j) (s.val .a_theta j))) ∧
      ∀ f k, s'.val f k = torqued s.val j τ f k := by
  let τ := Fp.fmin p.maxTorque (Fp.fmax (-p.maxTorque)
        (motorTorque p 0 0 (s.val .v_theta j) (s.val .a_theta j)))
  obtain ⟨s2, e2, o2, f2, v2⟩ := addT ho hjn τ
  refine ⟨s2, τ, ?_, o2, f2, rfl, v2⟩
  have eτ : τ = Fp.fmin p.maxTorque (Fp.fmax (-p.maxTorque)
      ((p.speed - (s.val .v_theta j - (0 : ℝ))) * p.ks +
        -(s.val .a_theta j - (0 : ℝ)) * p.kd)) := by
    simp only [τ, motorTorque]; congr 2; ring
  have l0 : (Fp.lit 0 : ℝ) = 0 := by rw [fp_lit]; simp
  simp only [Gen.apply, Motor.apply, h0, h1, Ptr.get, ok_bind, hi, hj, motorRead, motorReact,
    if_true, l0, ho.rd _ hjn, SysState.addTo, pure, Except.pure, Except.bind, bind, ne_eq, not_true,
    if_false]
  rw [← eτ, e2]

/-- What gravity does. -/
theorem gravity_run {g : ℝ} {bodies : Nat → Body ℝ} {s : SysState ℝ} (hw : s.Wf) :
    ∃ s', (Gen.gravity g).apply bodies s = .ok s' ∧ ForceWrites s s' ∧
      ∀ f k, s'.val f k = if f = .f_y ∧ k < s.n then s.val .f_y k + -(s.val .m k) * g
        else s.val f k := by
  obtain ⟨s', e, b⟩ := forN_bodies hw s.n le_rfl (body := gravityBody g)
    (G := fun _ st f => if f = .f_y then st .f_y + -(st .m) * g else st f) (by
      intro i hi s1 o1 hi1 _
      refine ⟨s1.put .f_y i (s1.val .f_y i + -(s1.val .m i) * g), ?_, rfl, o1.put _ _ _ |>.wf, ?_⟩
      · simp only [gravityBody, o1.rd _ hi1, ok_bind, o1.addTo _ hi1]
      · intro f k
        rw [o1.val_put]
        by_cases hk : k = i
        · subst hk; simp
        · simp [hk])
  refine ⟨s', e, Gen.tame (g := .gravity g) trivial bodies s s' e, fun f k => ?_⟩
  rw [b.2.2]
  by_cases hk : k < s.n <;> by_cases hf : f = .f_y <;> simp [hk, hf]

end Scs
