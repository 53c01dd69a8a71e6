import Mathlib.Analysis.ODE.ExistUnique
import Verif.PropsConverge
import Verif.PropsConstraint

/-!
# How the constraints change along an exact motion

The derivatives of the constraint functions along a motion, for motions given on an interval, and the
uniqueness of damped oscillations. Used for C93.
-/

namespace Scs

open Finset

/-! ### Constraint functions along a curve -/

/-- Six numbers, continued with zeros. -/
def six (e : Fin 6 → ℝ) (c : Nat) : ℝ := if h : c < 6 then e ⟨c, h⟩ else 0

theorem six_smooth (c : Nat) : ContDiff ℝ 1 fun e : Fin 6 → ℝ => six e c := by
  by_cases h : c < 6
  · simp only [six, dif_pos h]
    fun_prop
  · simp only [six, dif_neg h]
    exact contDiff_const

theorem six_of {q : Nat → ℝ} (h : ∀ c, 6 ≤ c → q c = 0) : six (fun i => q i) = q := by
  funext c
  by_cases hc : c < 6
  · rw [six, dif_pos hc]
  · rw [six, dif_neg hc, h c (by omega)]

theorem six_line (e d : Fin 6 → ℝ) (c : Nat) :
    HasDerivAt (fun u : ℝ => six (e + u • d) c) (six d c) 0 := by
  by_cases h : c < 6
  · simp only [six, dif_pos h, Pi.add_apply, Pi.smul_apply, smul_eq_mul]
    have := ((hasDerivAt_id (0 : ℝ)).mul_const (d ⟨c, h⟩)).const_add (e ⟨c, h⟩)
    rw [one_mul] at this
    exact this
  · simp only [six, dif_neg h]
    exact hasDerivAt_const _ _

section
variable (k : CKind ℝ) {rows nb : Nat} (hk : k.counts = some (rows, nb)) {r : Nat} (hr : r < rows)
include hk hr

theorem cT_line (hp : k.Positional) (e d : Fin 6 → ℝ) :
    HasDerivAt (fun u : ℝ => k.cT (six (e + u • d)) r)
      (∑ c ∈ range (3 * nb), k.jT (six e) r c * six d c) 0 := by
  have hn := (counts_le hk).2.2.2
  choose s _ hs using fun u : ℝ => demo_carries (six (e + u • d)) (fun _ => 0)
  have o : Output ℝ := ⟨fun _ => 0, fun _ _ => 0, fun _ _ => 0, fun _ => 0, fun _ _ => 0,
    fun _ => 0, fun _ => 0⟩
  obtain ⟨out, e1, h1⟩ := C37_jacobian k hp hk (fun b => .ok b) s _ (fun _ _ => 0)
    (fun u => hs u nb hn) (fun _ => o) 0 (six d) (fun c _ => six_line e d c)
  have ho : ∀ u, (out u).Has k rows nb (six (e + u • d)) (fun _ => 0) := fun u => by
    obtain ⟨o', e', h'⟩ := k.calculate_has hk (hs u nb hn) o
    have := e1 u
    rw [e'] at this
    cases this
    exact h'
  have h2 := h1 r hr
  have hC : (fun u => (out u).C r) = fun u => k.cT (six (e + u • d)) r :=
    funext fun u => (ho u).C r hr
  rw [hC] at h2
  refine h2.congr_deriv (sum_congr rfl fun c hc => ?_)
  rw [(ho 0).J r c hr (mem_range.mp hc), zero_smul, add_zero]

theorem jT_line {c : Nat} (hc : c < 3 * nb) (e d : Fin 6 → ℝ) :
    HasDerivAt (fun u : ℝ => k.jT (six (e + u • d)) r c) (k.jdT (six e) (six d) r c) 0 := by
  have hn := (counts_le hk).2.2.2
  choose s _ hs using fun u : ℝ => demo_carries (six (e + u • d)) (six d)
  have o : Output ℝ := ⟨fun _ => 0, fun _ _ => 0, fun _ _ => 0, fun _ => 0, fun _ _ => 0,
    fun _ => 0, fun _ => 0⟩
  obtain ⟨out, e1, h1⟩ := C38_jacobian_derivative k hk (fun b => .ok b) s _ (fun _ => six d)
    (fun u => hs u nb hn) (fun _ => o) 0 (fun c _ => six_line e d c)
  have ho : ∀ u, (out u).Has k rows nb (six (e + u • d)) (six d) := fun u => by
    obtain ⟨o', e', h'⟩ := k.calculate_has hk (hs u nb hn) o
    have := e1 u
    rw [e'] at this
    cases this
    exact h'
  have h2 := h1 r c hr hc
  have hJ : (fun u => (out u).J r c) = fun u => k.jT (six (e + u • d)) r c :=
    funext fun u => (ho u).J r c hr hc
  rw [hJ, (ho 0).Jd r c hr hc, zero_smul, add_zero] at h2
  exact h2

variable {q : ℝ → Nat → ℝ} {q' : Nat → ℝ} {s : Set ℝ} {t : ℝ}

/-- A smooth function along a curve, from its derivatives along lines. -/
theorem along {F : (Fin 6 → ℝ) → ℝ} (hF : ContDiff ℝ 1 F) {D : ℝ} {y : ℝ → Fin 6 → ℝ}
    {y' : Fin 6 → ℝ} (hy : HasDerivWithinAt y y' s t)
    (hD : HasDerivAt (fun u : ℝ => F (y t + u • y')) D 0) :
    HasDerivWithinAt (fun u => F (y u)) D s t := by
  clear hk hr
  have hf : HasFDerivAt F (fderiv ℝ F (y t)) (y t) :=
    ((hF.differentiable (by norm_num)) (y t)).hasFDerivAt
  have hl : HasDerivAt (fun u : ℝ => y t + u • y') y' 0 := by
    have := ((hasDerivAt_id (0 : ℝ)).smul_const y').const_add (y t)
    rw [one_smul] at this
    exact this
  have hf0 : HasFDerivAt F (fderiv ℝ F (y t)) (y t + (0 : ℝ) • y') := by
    rw [zero_smul, add_zero]; exact hf
  have := (hf0.comp_hasDerivAt (0 : ℝ) hl).unique hD
  rw [← this]
  exact hf.comp_hasDerivWithinAt t hy

theorem cT_along (hp : k.Positional) (h6 : ∀ u c, 6 ≤ c → q u c = 0) (h6' : ∀ c, 6 ≤ c → q' c = 0)
    (hq : ∀ c, HasDerivWithinAt (fun u => q u c) (q' c) s t) :
    HasDerivWithinAt (fun u => k.cT (q u) r) (∑ c ∈ range (3 * nb), k.jT (q t) r c * q' c) s t := by
  have hy : HasDerivWithinAt (fun u => fun i : Fin 6 => q u i) (fun i => q' i) s t :=
    hasDerivWithinAt_pi.mpr fun i => hq i
  have h := cT_line k hk hr hp (fun i => q t i) (fun i => q' i)
  rw [six_of h6', six_of (h6 t)] at h
  have := along k hk hr (cT_smooth k (q := six) six_smooth r) hy h
  simp only [six_of (h6 _)] at this
  exact this

theorem jT_along {c : Nat} (hc : c < 3 * nb) (h6 : ∀ u c, 6 ≤ c → q u c = 0)
    (h6' : ∀ c, 6 ≤ c → q' c = 0) (hq : ∀ c, HasDerivWithinAt (fun u => q u c) (q' c) s t) :
    HasDerivWithinAt (fun u => k.jT (q u) r c) (k.jdT (q t) q' r c) s t := by
  have hy : HasDerivWithinAt (fun u => fun i : Fin 6 => q u i) (fun i => q' i) s t :=
    hasDerivWithinAt_pi.mpr fun i => hq i
  have h := jT_line k hk hr hc (fun i => q t i) (fun i => q' i)
  rw [six_of h6', six_of (h6 t)] at h
  have := along k hk hr (jT_smooth k (q := six) six_smooth r c) hy h
  simp only [six_of (h6 _)] at this
  exact this

end

/-! ### Along an exact motion -/

theorem sum_three (n : Nat) (f : Nat → ℝ) :
    ∑ c ∈ range (3 * n), f c = ∑ k ∈ range n, Coord.sum (fun q => f (k * 3 + q.d)) := by
  induction n with
  | zero => simp
  | succ n ih =>
    rw [show 3 * (n + 1) = 3 * n + 1 + 1 + 1 from by ring, sum_range_succ, sum_range_succ,
      sum_range_succ, ih, sum_range_succ]
    simp only [Coord.sum, Coord.d]
    rw [show n * 3 + 0 = 3 * n from by ring, show n * 3 + 1 = 3 * n + 1 from by ring,
      show n * 3 + 2 = 3 * n + 1 + 1 from by ring]
    ring

section
variable {w : World ℝ} {h : List (Op ℝ)} {T : ℝ} {Y : ℝ → Motion} {lam : ℝ → Nat → Nat → ℝ}

theorem u_at (x : Motion) {c k : Nat} (hk : k < (w.cons c).bodyCount) (q : Coord) :
    x.u w c (k * 3 + q.d) = x.vel (w.bodyOf c k) q := by
  have e1 : (k * 3 + q.d) / 3 = k := by cases q <;> simp only [Coord.d] <;> omega
  have e2 : (k * 3 + q.d) % 3 = q.d := by cases q <;> simp only [Coord.d] <;> omega
  rw [Motion.u, e1, e2, if_pos hk]
  cases q <;> rfl

theorem World.ExactMotion.row {cls : Cls} (hY : w.ExactMotion h T Y lam) (r : w.Regs cls h)
    (p : w.Placed) (pr : w.Proper) {c : Nat} (hc : c ∈ regCons h) {j : Nat}
    (hj : j < (w.cons c).rows) {t : ℝ} (ht : t ∈ Set.Icc 0 T) :
    ((w.cons c).kind.Positional → HasDerivWithinAt (fun s => (w.rowsOf (Y s) c).C j)
      (w.rowAt (w.rowsOf (Y t) c) c j (Y t).vel) (Set.Icc 0 T) t) ∧
    HasDerivWithinAt (fun s => w.rowAt (w.rowsOf (Y s) c) c j (Y s).vel)
      (-((w.rowsOf (Y t) c).ks j * (w.rowsOf (Y t) c).C j) -
        (w.rowsOf (Y t) c).kd j * w.rowAt (w.rowsOf (Y t) c) c j (Y t).vel) (Set.Icc 0 T) t := by
  have hc' := (r.cons.mem c).mpr hc
  have hcnt := pr c hc'
  have hn := (counts_le hcnt).2.2.2
  have hb : ∀ k, k < (w.cons c).bodyCount → w.bodyOf c k ∈ regBodies h := fun k hk =>
    (r.bodies.mem _).mp (p.bodies c hc' k hk).2
  have h6 : ∀ u t, 6 ≤ t → (Y u).q w c t = 0 := fun u t ht => by
    rw [Motion.q, if_neg (by omega)]
  have h6' : ∀ u t, 6 ≤ t → (Y u).u w c t = 0 := fun u t ht => by
    rw [Motion.u, if_neg (by omega)]
  have hq : ∀ i, HasDerivWithinAt (fun s => (Y s).q w c i) ((Y t).u w c i) (Set.Icc 0 T) t := by
    intro i
    by_cases hi : i / 3 < (w.cons c).bodyCount
    · simp only [Motion.q, Motion.u, if_pos hi]
      exact hY.pos t ht _ (hb _ hi) _
    · simp only [Motion.q, Motion.u, if_neg hi]
      exact hasDerivWithinAt_const _ _ _
  constructor
  · intro hp
    have := cT_along _ hcnt hj hp h6 (h6' t) hq
    refine this.congr_deriv ?_
    rw [sum_three, World.rowAt]
    refine sum_congr rfl fun k hk => Coord.sum_congr fun q => ?_
    rw [u_at _ (mem_range.mp hk)]
    rfl
  · have key : ∀ k ∈ range (w.cons c).bodyCount, ∀ q : Coord, HasDerivWithinAt
        (fun s => (w.rowsOf (Y s) c).J j (k * 3 + q.d) * (Y s).vel (w.bodyOf c k) q)
        ((w.rowsOf (Y t) c).J_dot j (k * 3 + q.d) * (Y t).vel (w.bodyOf c k) q +
          (w.rowsOf (Y t) c).J j (k * 3 + q.d) * (Y t).acc (w.bodyOf c k) q) (Set.Icc 0 T) t :=
      fun k hk q => by
        have hk := mem_range.mp hk
        have hlt : k * 3 + q.d < 3 * (w.cons c).bodyCount := by
          cases q <;> simp only [Coord.d] <;> omega
        exact (jT_along _ hcnt hj hlt h6 (h6' t) hq).mul (hY.vel t ht _ (hb k hk) q)
    have := HasDerivWithinAt.fun_sum fun k hk => ((key k hk .x).add (key k hk .y)).add (key k hk .th)
    refine HasDerivWithinAt.congr_deriv this ?_
    have hrow := hY.rows t ht c hc j hj
    have e : ∑ k ∈ range (w.cons c).bodyCount, ((w.rowsOf (Y t) c).J_dot j (k * 3 + Coord.x.d) *
          (Y t).vel (w.bodyOf c k) .x + (w.rowsOf (Y t) c).J j (k * 3 + Coord.x.d) *
            (Y t).acc (w.bodyOf c k) .x +
        ((w.rowsOf (Y t) c).J_dot j (k * 3 + Coord.y.d) * (Y t).vel (w.bodyOf c k) .y +
          (w.rowsOf (Y t) c).J j (k * 3 + Coord.y.d) * (Y t).acc (w.bodyOf c k) .y) +
        ((w.rowsOf (Y t) c).J_dot j (k * 3 + Coord.th.d) * (Y t).vel (w.bodyOf c k) .th +
          (w.rowsOf (Y t) c).J j (k * 3 + Coord.th.d) * (Y t).acc (w.bodyOf c k) .th)) =
        w.rowDot (w.rowsOf (Y t) c) c j (Y t).vel + w.rowAt (w.rowsOf (Y t) c) c j (Y t).acc := by
      rw [World.rowDot, World.rowAt, ← sum_add_distrib]
      refine sum_congr rfl fun k _ => ?_
      simp only [Coord.sum]
      ring
    rw [e, hrow]
    ring

end

/-! ### Damped oscillations -/

theorem damped_unique {ks kd T : ℝ} {z u z' u' : ℝ → ℝ}
    (hz : ∀ t ∈ Set.Icc 0 T, HasDerivWithinAt z (u t) (Set.Icc 0 T) t)
    (hu : ∀ t ∈ Set.Icc 0 T, HasDerivWithinAt u (-(ks * z t) - kd * u t) (Set.Icc 0 T) t)
    (hz' : ∀ t ∈ Set.Icc 0 T, HasDerivWithinAt z' (u' t) (Set.Icc 0 T) t)
    (hu' : ∀ t ∈ Set.Icc 0 T, HasDerivWithinAt u' (-(ks * z' t) - kd * u' t) (Set.Icc 0 T) t)
    (h0 : z 0 = z' 0 ∧ u 0 = u' 0) {t : ℝ} (ht : t ∈ Set.Icc 0 T) : z t = z' t ∧ u t = u' t := by
  let v : ℝ → ℝ × ℝ → ℝ × ℝ := fun _ y => (y.2, -(ks * y.1) - kd * y.2)
  have lip : LipschitzWith (⟨1 + |ks| + |kd|, by positivity⟩) (v 0) := by
    refine LipschitzWith.of_dist_le_mul fun a b => ?_
    rw [dist_eq_norm, dist_eq_norm]
    have n1 := norm_fst_le (a - b)
    have n2 := norm_snd_le (a - b)
    have n0 := norm_nonneg (a - b)
    have k1 := abs_nonneg ks
    have k2 := abs_nonneg kd
    rw [Real.norm_eq_abs] at n1 n2
    show ‖(a.2 - b.2, _ - _)‖ ≤ (1 + |ks| + |kd|) * ‖a - b‖
    refine norm_prod_le_iff.mpr ⟨?_, ?_⟩
    · show |a.2 - b.2| ≤ _
      have : |a.2 - b.2| ≤ ‖a - b‖ := n2
      nlinarith [mul_nonneg k1 n0, mul_nonneg k2 n0]
    · show |-(ks * a.1) - kd * a.2 - (-(ks * b.1) - kd * b.2)| ≤ _
      have e : -(ks * a.1) - kd * a.2 - (-(ks * b.1) - kd * b.2) =
          -(ks * (a.1 - b.1)) - kd * (a.2 - b.2) := by ring
      rw [e]
      refine (abs_sub _ _).trans ?_
      rw [abs_neg, abs_mul, abs_mul]
      have a1 : |a.1 - b.1| ≤ ‖a - b‖ := n1
      have a2 : |a.2 - b.2| ≤ ‖a - b‖ := n2
      nlinarith [mul_le_mul_of_nonneg_left a1 k1, mul_le_mul_of_nonneg_left a2 k2]
  have hf : ∀ {z u : ℝ → ℝ}, (∀ t ∈ Set.Icc 0 T, HasDerivWithinAt z (u t) (Set.Icc 0 T) t) →
      (∀ t ∈ Set.Icc 0 T, HasDerivWithinAt u (-(ks * z t) - kd * u t) (Set.Icc 0 T) t) →
      ContinuousOn (fun t => (z t, u t)) (Set.Icc 0 T) ∧ ∀ t ∈ Set.Ico 0 T,
        HasDerivWithinAt (fun t => (z t, u t)) (v t (z t, u t)) (Set.Ici t) t := by
    intro z u h1 h2
    have h3 : ∀ t ∈ Set.Icc 0 T, HasDerivWithinAt (fun t => (z t, u t)) (v t (z t, u t))
        (Set.Icc 0 T) t := fun t ht => (h1 t ht).prodMk (h2 t ht)
    refine ⟨fun t ht => (h3 t ht).continuousWithinAt, fun t ht => ?_⟩
    have := (h3 t ⟨ht.1, ht.2.le⟩).mono (Set.Icc_subset_Icc_left ht.1)
    exact this.mono_of_mem_nhdsWithin (Icc_mem_nhdsGE ht.2)
  have := ODE_solution_unique_of_mem_Icc_right (v := v) (s := fun _ => Set.univ)
    (fun t _ => lip.lipschitzOnWith) (hf hz hu).1 (hf hz hu).2 (fun _ _ => trivial) (hf hz' hu').1
    (hf hz' hu').2 (fun _ _ => trivial) (Prod.ext h0.1 h0.2) ht
  exact ⟨congrArg Prod.fst this, congrArg Prod.snd this⟩

end Scs
