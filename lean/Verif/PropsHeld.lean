import Verif.WorldProject
import Verif.PropsDamped

/-!
# The optimized system approaches the exact motion

C95: with Gaussian elimination the optimized system follows the motion in which the constraints hold
exactly, with an error that is inversely proportional to the number of sub-steps.
-/

namespace Scs

open Finset

/-! ## C95 -/

/-- An exact motion of the bodies from their present positions and velocities over the time `T`, in
which the constraints hold. Velocities and accelerations are the derivatives of positions and
velocities, the accelerations are those of the registered force generators and of forces `lam` along
the rows of the constraints, and at all times `C = 0` and `J v + v_bias = 0` in every row. The
constraint matrix is singular nowhere on the way, no spring passes the distance 0.01 of its ends at
which its force jumps (C42), and motors have no damping (C77). -/
structure World.HeldMotion (w : World ℝ) (h : List (Op ℝ)) (T : ℝ) (Y : ℝ → Motion)
    (lam : ℝ → Nat → Nat → ℝ) : Prop where
  start : ∀ b ∈ regBodies h, ∀ q : Coord,
    (Y 0).pos b q = (w.bodies b).pos q ∧ (Y 0).vel b q = (w.bodies b).vel q
  pos : ∀ t ∈ Set.Icc 0 T, ∀ b ∈ regBodies h, ∀ q : Coord,
    HasDerivWithinAt (fun s => (Y s).pos b q) ((Y t).vel b q) (Set.Icc 0 T) t
  vel : ∀ t ∈ Set.Icc 0 T, ∀ b ∈ regBodies h, ∀ q : Coord,
    HasDerivWithinAt (fun s => (Y s).vel b q) ((Y t).acc b q) (Set.Icc 0 T) t
  newton : ∀ t ∈ Set.Icc 0 T, ∀ b ∈ regBodies h, ∀ q : Coord,
    (w.bodies b).mass q * (Y t).acc b q = w.load (Y t) b q +
      w.conForce (fun c q j k => lam t c j * (w.rowsOf (Y t) c).J j (k * 3 + q.d)) b q
  held : ∀ t ∈ Set.Icc 0 T, ∀ c ∈ regCons h, ∀ j, j < (w.cons c).rows →
    (w.rowsOf (Y t) c).C j = 0 ∧
    w.rowAt (w.rowsOf (Y t) c) c j (Y t).vel + (w.rowsOf (Y t) c).v_bias j = 0
  indep : ∀ t ∈ Set.Icc 0 T, w.Indep (w.rowsOf (Y t))
  regular : ∀ t ∈ Set.Icc 0 T, ∀ g ∈ regGens h, (w.gens g).Regular (Y t)

section
variable {G : Gen ℝ → Prop} {h : List (Op ℝ)} {w w' : World ℝ} {env : Env ℝ} {dt : ℝ}
  {steps : Int} {Y : ℝ → Motion} {lam : ℝ → Nat → Nat → ℝ}

/-- Constraint functions and rows along a motion of the bodies. -/
theorem rows_motion (p : w.Placed) (pr : w.Proper) {S : Set ℝ} {t : ℝ}
    (hpos : ∀ b ∈ w.rb, ∀ q : Coord, HasDerivWithinAt (fun s => (Y s).pos b q) ((Y t).vel b q) S t)
    (hvel : ∀ b ∈ w.rb, ∀ q : Coord, HasDerivWithinAt (fun s => (Y s).vel b q) ((Y t).acc b q) S t)
    {c : Nat} (hc' : c ∈ w.cs) {j : Nat} (hj : j < (w.cons c).rows) :
    ((w.cons c).kind.Positional → HasDerivWithinAt (fun s => (w.rowsOf (Y s) c).C j)
      (w.rowAt (w.rowsOf (Y t) c) c j (Y t).vel) S t) ∧
    HasDerivWithinAt (fun s => w.rowAt (w.rowsOf (Y s) c) c j (Y s).vel)
      (w.rowDot (w.rowsOf (Y t) c) c j (Y t).vel + w.rowAt (w.rowsOf (Y t) c) c j (Y t).acc) S t := by
  have hcnt := pr c hc'
  have hn := (counts_le hcnt).2.2.2
  have hb : ∀ k, k < (w.cons c).bodyCount → w.bodyOf c k ∈ w.rb := fun k hk =>
    (p.bodies c hc' k hk).2
  have h6 : ∀ u t, 6 ≤ t → (Y u).q w c t = 0 := fun u t ht => by
    rw [Motion.q, if_neg (by omega)]
  have h6' : ∀ u t, 6 ≤ t → (Y u).u w c t = 0 := fun u t ht => by
    rw [Motion.u, if_neg (by omega)]
  have hq : ∀ i, HasDerivWithinAt (fun s => (Y s).q w c i) ((Y t).u w c i) S t := by
    intro i
    by_cases hi : i / 3 < (w.cons c).bodyCount
    · simp only [Motion.q, Motion.u, if_pos hi]
      exact hpos _ (hb _ hi) _
    · simp only [Motion.q, Motion.u, if_neg hi]
      exact hasDerivWithinAt_const _ _ _
  constructor
  · intro hp
    have := cT_along _ hcnt hj hp h6 (h6' t) hq
    refine this.congr_deriv ?_
    rw [sum_three, World.rowAt]
    refine sum_congr rfl fun k hk => Coord.sum_congr fun q => ?_
    rw [u_at _ (mem_range.mp hk)]
    rfl
  · have key : ∀ k ∈ range (w.cons c).bodyCount, ∀ q : Coord, HasDerivWithinAt
        (fun s => (w.rowsOf (Y s) c).J j (k * 3 + q.d) * (Y s).vel (w.bodyOf c k) q)
        ((w.rowsOf (Y t) c).J_dot j (k * 3 + q.d) * (Y t).vel (w.bodyOf c k) q +
          (w.rowsOf (Y t) c).J j (k * 3 + q.d) * (Y t).acc (w.bodyOf c k) q) S t :=
      fun k hk q => by
        have hk := mem_range.mp hk
        have hlt : k * 3 + q.d < 3 * (w.cons c).bodyCount := by
          cases q <;> simp only [Coord.d] <;> omega
        exact (jT_along _ hcnt hj hlt h6 (h6' t) hq).mul (hvel _ (hb k hk) q)
    have := HasDerivWithinAt.fun_sum fun k hk => ((key k hk .x).add (key k hk .y)).add (key k hk .th)
    refine HasDerivWithinAt.congr_deriv this ?_
    rw [World.rowDot, World.rowAt, ← sum_add_distrib]
    refine sum_congr rfl fun k _ => ?_
    simp only [Coord.sum]
    ring

theorem World.HeldMotion.deriv (p : w.Placed) (pr : w.Proper) (hd : w.Driven) {cls : Cls}
    (r : w.Regs cls h) (hm : ∀ b ∈ regBodies h, (w.bodies b).m ≠ 0 ∧ (w.bodies b).I ≠ 0) {T : ℝ}
    (hT : 0 < T) (hY : w.HeldMotion h T Y lam) {t : ℝ} (ht : t ∈ Set.Icc 0 T) :
    w.Fair (w.motionOf (w.pack (Y t))) ∧
      HasDerivWithinAt (fun s => w.pack (Y s)) (flow w.bound.acc (w.pack (Y t))) (Set.Icc 0 T) t := by
  have hreg : ∀ g ∈ w.fg, (w.gens g).Regular (Y t) := fun g hg =>
    hY.regular t ht g ((r.gens.mem g).mp hg)
  have hf : w.Fair (w.motionOf (w.pack (Y t))) := (fair_pack p hd).mpr ⟨hY.indep t ht, hreg⟩
  have hdet := (det_iff p _).mpr hf.1
  have hb : ∀ i : w.rb.toFinset × Coord, (i.1 : Nat) ∈ regBodies h := fun i =>
    (r.bodies.mem _).mp (List.mem_toFinset.mp i.1.2)
  -- the constraints hold at all times, so their second derivatives vanish
  have hrow : app (w.jac (w.pack (Y t))) (w.packA (Y t).acc) = -w.turn (w.pack (Y t)) := by
    funext i
    have hc := List.mem_toFinset.mp i.1.2
    have h1 := (rows_motion p pr (S := Set.Icc 0 T) (t := t)
      (fun b hb q => hY.pos t ht b ((r.bodies.mem b).mp hb) q)
      (fun b hb q => hY.vel t ht b ((r.bodies.mem b).mp hb) q) hc i.2.2).2
    have h2 : HasDerivWithinAt (fun s => w.rowAt (w.rowsOf (Y s) i.1) i.1 i.2 (Y s).vel) 0
        (Set.Icc 0 T) t := by
      refine (hasDerivWithinAt_const t (Set.Icc 0 T) (-(w.cons i.1).kind.biasT)).congr_of_mem
        (fun s hs => ?_) ht
      have := (hY.held s hs i.1 ((r.cons.mem _).mp hc) i.2 i.2.2).2
      exact eq_neg_of_add_eq_zero_left this
    have h3 := (uniqueDiffOn_Icc hT t ht).eq_deriv _ h1 h2
    have s := pack_same (w := w) (Y t)
    have e1 : w.turn (w.pack (Y t)) i = w.rowDot (w.rowsOf (Y t) i.1) i.1 i.2 (Y t).vel := by
      rw [World.turn, ← rows_pack p (Y t) hc]
      exact sum_congr rfl fun k hk => Coord.sum_congr fun q => by
        rw [← s.vel _ (p.bodies i.1 hc k (mem_range.mp hk)).2 q]
    rw [rows_pack p (Y t) hc] at h3
    rw [← rowAt_jac p _ i (u := (Y t).acc) (v := w.packA (Y t).acc) (fun _ => rfl), Pi.neg_apply, e1, rows_pack p (Y t) hc]
    linarith
  have hacc : w.packA (Y t).acc = w.bound.acc (w.pack (Y t)) := by
    have e1 : w.packA (Y t).acc = w.freeAcc (w.pack (Y t)) +
        app (w.push (w.pack (Y t))) (fun i => lam t i.1 i.2) := by
      funext i
      have hbi := hb i
      have hmq : (w.bodies i.1).mass i.2 ≠ 0 := by
        obtain ⟨m1, m2⟩ := hm _ hbi
        cases i.2
        · exact m1
        · exact m1
        · exact m2
      have e2 := hY.newton t ht i.1 hbi i.2
      have e3 : (Y t).acc i.1 i.2 = (w.load (Y t) i.1 i.2 +
          w.conForce (w.reaction (Y t) (lam t)) i.1 i.2) / (w.bodies i.1).mass i.2 := by
        rw [eq_div_iff hmq, mul_comm]
        exact e2
      rw [World.packA, e3, add_div, force_push p, load_pack hd hreg ((r.bodies.mem _).mpr hbi)]
      rfl
    have e2 := hrow
    rw [e1, map_add] at e2
    have e3 : app (w.push (w.pack (Y t))) (fun i => lam t i.1 i.2) =
        -app (w.fix (w.pack (Y t))) (app (w.jac (w.pack (Y t))) (w.freeAcc (w.pack (Y t))) +
          w.turn (w.pack (Y t))) := by
      rw [← fix_push hdet, ← map_neg]
      congr 1
      have := eq_neg_of_add_eq_zero_left (a := app (w.jac (w.pack (Y t)))
        (app (w.push (w.pack (Y t))) (fun i => lam t i.1 i.2)))
        (b := app (w.jac (w.pack (Y t))) (w.freeAcc (w.pack (Y t))) + w.turn (w.pack (Y t)))
        (by rw [add_comm, add_right_comm, e2]; abel)
      exact this
    rw [e1, e3]
    exact (sub_eq_add_neg _ _).symm
  refine ⟨hf, HasDerivWithinAt.prodMk ?_ ?_⟩
  · exact hasDerivWithinAt_pi.mpr fun i => hY.pos t ht _ (hb i) _
  · refine hasDerivWithinAt_pi.mpr fun i => ?_
    show HasDerivWithinAt _ (w.bound.acc (w.pack (Y t)) i) _ _
    rw [← hacc]
    exact hY.vel t ht _ (hb i) _

/-- What the constraints evaluate to after `process`, in terms of the system before. -/
theorem World.Moves.read (hmv : w.Moves w') (x : Motion) (c : Nat) :
    w'.rowsOf x c = w.rowsOf x c ∧ ∀ o j v, w'.rowAt o c j v = w.rowAt o c j v := by
  have hbo : ∀ k, w'.bodyOf c k = w.bodyOf c k := fun k => by
    rw [World.bodyOf, World.bodyOf, hmv.conBodies]
  refine ⟨?_, fun o j v => by simp only [World.rowAt, hmv.bodyCount, hbo]⟩
  have hq : x.q w' c = x.q w c := funext fun t => by
    simp only [Motion.q, hmv.bodyCount, hbo]
  have hu : x.u w' c = x.u w c := funext fun t => by
    simp only [Motion.u, hmv.bodyCount, hbo]
  simp only [World.rowsOf, hmv.kind, hq, hu]

set_option maxHeartbeats 1000000 in
/-- **C95.** If the bodies have an exact motion over the time `dt` in which the constraints hold, then
`process` of the optimized system with Gaussian elimination and a bias factor between 0 and 2 succeeds
with every sufficiently large number of sub-steps. Positions and velocities differ from the exact ones
by at most a constant divided by the number of sub-steps, and so does the velocity error `J v + v_bias`
of each constraint from zero; the position error `C` of each constraint is at most a constant divided by
the square of the number of sub-steps. -/
theorem C95_converges (hG : ∀ g, G g → g.OnlyForces) (hw : World.Hist G .opt h w)
    (hst : w.Standard h) (hs : w.sle = some .ge) (hne : regCons h ≠ ∅) (hb0 : 0 < w.bias)
    (hb2 : w.bias < 2)
    (hm : ∀ b ∈ regBodies h, (w.bodies b).m ≠ 0 ∧ (w.bodies b).I ≠ 0) (hdt : 0 < dt)
    (hY : w.HeldMotion h dt Y lam) :
    ∃ (N : Int) (E : ℝ), ∀ steps, N ≤ steps → ∀ env : Env ℝ,
      ∃ w', w.process .opt env dt steps = .ok w' ∧
        (∀ b ∈ regBodies h, ∀ q : Coord,
          |(w'.bodies b).pos q - (Y dt).pos b q| ≤ E / steps ∧
          |(w'.bodies b).vel q - (Y dt).vel b q| ≤ E / steps) ∧
        ∀ c ∈ regCons h, ∀ j, j < (w.cons c).rows →
          |(w'.rowsOf w'.now c).C j| ≤ E / steps ^ 2 ∧
          |w'.rowAt (w'.rowsOf w'.now c) c j w'.now.vel + (w'.rowsOf w'.now c).v_bias j| ≤
            E / steps := by
  have p := (hw.ready hG hst.wired).2
  have pr := hst.proper hw.regs
  have hd := hst.driven hw.regs
  have key := fun t ht => hY.deriv p pr hd hw.regs hm hdt (t := t) ht
  obtain ⟨r, L, hr0, L0, tame, good⟩ := bound_tame (T := dt) (Y := fun s => w.pack (Y s)) p pr
    (fun t ht => (key t ht).2.continuousWithinAt) (fun t ht => (key t ht).1)
  set β := w.bias with hβ
  have self : ∀ t, ‖w.pack (Y t) - w.pack (Y t)‖ < r := fun t => by rw [sub_self, norm_zero]; exact hr0
  set B := L + (L + L * (L * L + L)) with hBd
  have B0 : 0 ≤ B := by positivity
  have u : Tube w.bound.acc (fun y => w.Fair (w.motionOf y)) (fun s => w.pack (Y s)) dt r L B := by
    refine ⟨hr0, L0, B0, good, fun t ht y hy => (tame t ht β).acc _ _ hy (self t), fun t ht => ?_⟩
    have tm := tame t ht β
    have a1 := tm.vel _ (self t)
    have a2 := tm.f _ (self t)
    have a3 := tm.J _ (self t) (w.bound.f (w.pack (Y t)))
    have a4 := tm.Jd _ (self t)
    have a5 := tm.G _ (self t) (w.bound.J (w.pack (Y t)) (w.bound.f (w.pack (Y t))) +
      w.bound.Jd (w.pack (Y t)))
    have a6 : ‖w.bound.J (w.pack (Y t)) (w.bound.f (w.pack (Y t))) + w.bound.Jd (w.pack (Y t))‖ ≤
        L * L + L := norm_add_le_of (a3.trans (mul_le_mul_of_nonneg_left a2 L0)) a4
    refine norm_prod_le_iff.mpr ⟨a1.trans ?_, ?_⟩
    · rw [hBd]
      have : 0 ≤ L + L * (L * L + L) := by positivity
      linarith
    · refine (norm_sub_le _ _).trans ((add_le_add a2 (a5.trans
        (mul_le_mul_of_nonneg_left a6 L0))).trans ?_)
      rw [hBd]
      linarith
  have hβ1 : |1 - β| < 1 := by rw [abs_lt]; constructor <;> linarith
  set c3 := L / (1 - |1 - β|) with hc3
  have c30 : 0 ≤ c3 := div_nonneg L0 (by linarith)
  have hc3' : |1 - β| * c3 + L = c3 := by
    have : c3 * (1 - |1 - β|) = L := div_mul_cancel₀ _ (by linarith)
    linarith
  set c1 := max L (|β| * c3) with hc1
  have c1L : L ≤ c1 := le_max_left _ _
  have c10 : 0 ≤ c1 := L0.trans c1L
  have hc1' : |β| * c3 ≤ c1 := le_max_right _ _
  have g0 : 0 ≤ gain L c1 L := by rw [gain]; positivity
  set D := slack L c1 L + (L + 1) * B with hD
  have d0 : 0 ≤ D := by rw [hD, slack]; positivity
  set A := Real.exp ((L + 1) * dt) * (L * c1) + dt * D * Real.exp ((L + 1) * dt) with hA
  have a0 : 0 ≤ A := by positivity
  set M := L * c1 + L + gain L c1 L with hM
  have m0 : 0 ≤ M := by positivity
  set Q := (A + L * c1) * dt + c3 * dt ^ 2 + (c1 + L + L) * dt with hQ
  obtain ⟨N, hN⟩ := exists_nat_gt (dt * (B + A + M) / r + dt)
  have hNpos : (0 : ℝ) < N := lt_of_le_of_lt (by positivity) hN
  refine ⟨N, Q, fun steps hsteps env => ?_⟩
  have hsN : (N : ℝ) ≤ steps := by exact_mod_cast hsteps
  have hpos : (0 : ℝ) < steps := hNpos.trans_le hsN
  have hpos' : 0 < steps := by exact_mod_cast hpos
  set s := dt / steps with hsd
  have s0 : 0 < s := div_pos hdt hpos
  have hss : steps * s = dt := by rw [hsd]; field_simp
  have s1 : s ≤ 1 := by
    rw [hsd, div_le_one hpos]
    have : 0 ≤ dt * (B + A + M) / r := by positivity
    linarith
  have s2 : s * (B + A + M) < r := by
    have h1 : dt * (B + A + M) / r < steps := by linarith
    rw [div_lt_iff₀ hr0] at h1
    rw [hsd, div_mul_eq_mul_div, div_lt_iff₀ hpos]
    linarith
  have hBs : B * s < r := by nlinarith [mul_nonneg s0.le a0, mul_nonneg s0.le m0]
  have hnat : ((steps.toNat : Nat) : ℝ) = (steps : ℝ) := by
    exact_mod_cast Int.toNat_of_nonneg hpos'.le
  have hjt : ∀ j : Nat, j ≤ steps.toNat → (j : ℝ) * s ∈ Set.Icc 0 dt := fun j hj => by
    refine ⟨by positivity, ?_⟩
    have : (j : ℝ) ≤ steps := by rw [← hnat]; exact_mod_cast hj
    calc (j : ℝ) * s ≤ steps * s := mul_le_mul_of_nonneg_right this s0.le
      _ = dt := hss
  let err : Nat → ℝ := fun n => (1 + (L + 1) * s) ^ n * (L * c1 * s) + errBound (L + 1) D s n
  have herr : ∀ j, j ≤ steps.toNat → err j ≤ A * s := fun j hj => by
    have h1 := errBound_le (L := L + 1) (by linarith) d0 s0.le j (hjt j hj).2
    have h2 : (1 + (L + 1) * s) ^ j ≤ Real.exp ((L + 1) * dt) := by
      have e1 : 1 + (L + 1) * s ≤ Real.exp ((L + 1) * s) := by
        linarith [Real.add_one_le_exp ((L + 1) * s)]
      refine (pow_le_pow_left₀ (by positivity) e1 j).trans ?_
      rw [← Real.exp_nat_mul]
      refine Real.exp_le_exp.mpr ?_
      have := mul_le_mul_of_nonneg_left (hjt j hj).2 (by linarith : 0 ≤ L + 1)
      linarith
    have h3 := mul_le_mul_of_nonneg_right h2 (by positivity : 0 ≤ L * c1 * s)
    show (1 + (L + 1) * s) ^ j * (L * c1 * s) + errBound (L + 1) D s j ≤ A * s
    rw [hA]
    linarith
  let R : Nat → Motion → Prop := fun j x => ∃ κ, w.bound.Close s L c1 L c3 (w.pack (Y (j * s)))
    (w.pack x) (err j) κ
  have hin : ∀ j, j ≤ steps.toNat → err j + M * s < r := fun j hj => by
    have := herr j hj
    nlinarith [mul_nonneg s0.le B0]
  have hin' : ∀ j, j ≤ steps.toNat → err j + L * c1 * s < r := fun j hj => by
    have := hin j hj
    rw [hM] at this
    nlinarith [mul_nonneg s0.le L0, mul_nonneg s0.le g0]
  have hfair : ∀ j, j ≤ steps.toNat → ∀ x, R j x → w.Fair x := fun j hj x ⟨κ, hx⟩ =>
    (fair_pack p hd).mp (good _ (hjt j hj) _ (hx.near.trans_lt (hin' j hj)))
  have hR0 : ∀ x, w.Shows x w.bodies → R 0 x := fun x hx => by
    have e0 : w.pack x = w.pack (Y ((0 : Nat) * s)) := by
      have e : ((0 : Nat) : ℝ) * s = 0 := by simp
      rw [e]
      have hb : ∀ i : w.rb.toFinset × Coord, (i.1 : Nat) ∈ w.rb := fun i =>
        List.mem_toFinset.mp i.1.2
      refine Prod.ext (funext fun i => ?_) (funext fun i => ?_)
      · exact ((hx i.1 (hb i) i.2).1).trans
          (hY.start i.1 ((hw.regs.bodies.mem _).mp (hb i)) i.2).1.symm
      · exact ((hx i.1 (hb i) i.2).2).trans
          (hY.start i.1 ((hw.regs.bodies.mem _).mp (hb i)) i.2).2.symm
    have hz : ((0 : Nat) : ℝ) * s ∈ Set.Icc 0 dt := hjt 0 (Nat.zero_le _)
    have tm := tame _ hz β
    set t0 := ((0 : Nat) : ℝ) * s with ht0
    have held := hY.held t0 hz
    have hC : w.errs (w.pack (Y t0)) = 0 := by
      funext i
      have hc := List.mem_toFinset.mp i.1.2
      rw [World.errs, ← rows_pack p _ hc]
      exact (held i.1 ((hw.regs.cons.mem _).mp hc) i.2 i.2.2).1
    have hV : w.offs + app (w.jac (w.pack (Y t0))) (w.pack (Y t0)).2 = 0 := by
      funext i
      have hc := List.mem_toFinset.mp i.1.2
      have := (held i.1 ((hw.regs.cons.mem _).mp hc) i.2 i.2.2).2
      rw [rows_pack p _ hc, rowAt_jac p _ i (v := (w.pack (Y t0)).2) (fun _ => rfl), add_comm] at this
      exact this
    have hk : ‖s • w.turn (w.pack (Y t0))‖ ≤ c1 * s := by
      rw [norm_smul, Real.norm_eq_abs, abs_of_pos s0, mul_comm]
      exact mul_le_mul_of_nonneg_right ((tm.Jd _ (self t0)).trans c1L) s0.le
    have hp := (tm.G _ (self t0) (s • w.turn (w.pack (Y t0)))).trans
      (mul_le_mul_of_nonneg_left hk L0)
    show ∃ κ, w.bound.Close s L c1 L c3 (w.pack (Y t0)) (w.pack x) (err 0) κ
    rw [e0]
    refine ⟨s • w.turn (w.pack (Y t0)), hk, ?_, ?_, ?_, by rw [mul_assoc]; exact hp⟩
    · show ‖w.offs + app (w.jac (w.pack (Y t0))) (w.pack (Y t0)).2 + s • w.turn (w.pack (Y t0)) -
        s • w.turn (w.pack (Y t0))‖ ≤ _
      rw [hV, zero_add, sub_self, norm_zero]
      positivity
    · show ‖w.errs (w.pack (Y t0))‖ ≤ _
      rw [hC, norm_zero]
      positivity
    · have e1 : (((w.pack (Y t0)).1, (w.pack (Y t0)).2 + w.bound.G (w.pack (Y t0))
          (s • w.turn (w.pack (Y t0)))) - w.pack (Y t0) : w.Pt × w.Pt) =
          (0, w.bound.G (w.pack (Y t0)) (s • w.turn (w.pack (Y t0)))) :=
        Prod.ext (by simp) (by simp)
      have e2 : err 0 = L * (c1 * s) := by
        show (1 + (L + 1) * s) ^ 0 * (L * c1 * s) + 0 = _
        rw [pow_zero]; ring
      rw [e1, e2]
      refine norm_prod_le_iff.mpr ⟨?_, hp⟩
      rw [norm_zero]
      positivity
  have hRs : ∀ j, j < steps.toNat → ∀ x x' mult, R j x → w.Move s x x' mult → R (j + 1) x' :=
    fun j hj x x' mult hx st => by
      have e : ((j + 1 : Nat) : ℝ) * s = (j : ℝ) * s + s := by push_cast; ring
      have ht' := hjt (j + 1) hj
      rw [e] at ht'
      have hf := hfair j hj.le x hx
      obtain ⟨κ, hx⟩ := hx
      have := (st.bound p hd hs hf.2).follows u (fun t ht => (key t ht).2) (hjt j hj.le) ht'
        (tame _ (hjt j hj.le) β) s0 s1 hBs c10 rfl hc1' hc3' hx (hin j hj.le)
      refine ⟨(β / s) • w.bound.C (w.pack x), ?_⟩
      rw [e]
      have e2 : err (j + 1) = (1 + (L + 1) * s) * err j + D * s ^ 2 := by
        show (1 + (L + 1) * s) ^ (j + 1) * (L * c1 * s) +
          ((1 + (L + 1) * s) * errBound (L + 1) D s j + D * s ^ 2) = (1 + (L + 1) * s) *
          ((1 + (L + 1) * s) ^ j * (L * c1 * s) + errBound (L + 1) D s j) + D * s ^ 2
        ring
      rw [e2]
      exact this
  obtain ⟨w', e⟩ := hw.goes hG hst (dt := dt) (steps := steps)
    (fun b hb q => by
      obtain ⟨m1, m2⟩ := hm b ((hw.regs.bodies.mem b).mp hb)
      cases q
      · exact m1
      · exact m1
      · exact m2) hdt.ne' (by rw [hs]; simp) R (fun x hx _ => hR0 x hx) hRs
    (fun j hj x hx _ => by
      have := (hfair j hj.le x hx).1
      simpa only [World.Solvable, hs] using this)
    (fun h0 => absurd (hw.regs.cs_nil.mp h0) hne) env
  refine ⟨w', e, ?_⟩
  obtain ⟨X, mult, hX0, hX⟩ := hw.moved hG hst e
  have hall : ∀ n, n ≤ steps.toNat → R n (X n) := by
    intro n
    induction n with
    | zero => exact fun _ => hR0 _ hX.first
    | succ n ih => exact fun hn => hRs n hn _ _ _ (ih (by omega)) (hX.step n hn)
  obtain ⟨κ, hfin⟩ := hall _ le_rfl
  have hnear := hfin.near
  have hle := herr _ le_rfl
  have tm := tame _ (hjt _ le_rfl) β
  have hinn : ‖w.pack (X steps.toNat) - w.pack (Y (steps.toNat * s))‖ < r :=
    hnear.trans_lt (hin' _ le_rfl)
  have hpk : w.pack (X steps.toNat) = w.pack w'.now := by
    refine Prod.ext (funext fun i => ?_) (funext fun i => ?_)
    · exact (hX.last i.1 (List.mem_toFinset.mp i.1.2) i.2).1
    · exact (hX.last i.1 (List.mem_toFinset.mp i.1.2) i.2).2
  have hQ1 : (A + L * c1) * s ≤ Q / steps := by
    have : (A + L * c1) * s = (A + L * c1) * dt / steps := by rw [hsd]; ring
    rw [this]
    refine div_le_div_of_nonneg_right ?_ hpos.le
    have : 0 ≤ c3 * dt ^ 2 + (c1 + L + L) * dt := by positivity
    rw [hQ]; linarith
  have hQ2 : c3 * s ^ 2 ≤ Q / steps ^ 2 := by
    have : c3 * s ^ 2 = c3 * dt ^ 2 / steps ^ 2 := by rw [hsd, div_pow]; ring
    rw [this]
    refine div_le_div_of_nonneg_right ?_ (by positivity)
    have : 0 ≤ (A + L * c1) * dt + (c1 + L + L) * dt := by positivity
    rw [hQ]; linarith
  have hQ3 : (c1 + L + L) * s ≤ Q / steps := by
    have : (c1 + L + L) * s = (c1 + L + L) * dt / steps := by rw [hsd]; ring
    rw [this]
    refine div_le_div_of_nonneg_right ?_ hpos.le
    have : 0 ≤ (A + L * c1) * dt + c3 * dt ^ 2 := by positivity
    rw [hQ]; linarith
  constructor
  · intro b hb q
    have hb' := (hw.regs.bodies.mem b).mpr hb
    have hfin' : ‖w.pack w'.now - w.pack (Y dt)‖ ≤ Q / steps := by
      have h1 : ‖w.pack (X steps.toNat) - w.pack (Y (steps.toNat * s))‖ ≤ (A + L * c1) * s := by
        refine hnear.trans ?_
        linarith
      rw [hnat, hss, hpk] at h1
      exact h1.trans hQ1
    have n1 := (norm_fst_le (w.pack w'.now - w.pack (Y dt))).trans hfin'
    have n2 := (norm_snd_le (w.pack w'.now - w.pack (Y dt))).trans hfin'
    let i : w.rb.toFinset × Coord := (⟨b, List.mem_toFinset.mpr hb'⟩, q)
    have m1 := norm_le_pi_norm (w.pack w'.now - w.pack (Y dt)).1 i
    have m2 := norm_le_pi_norm (w.pack w'.now - w.pack (Y dt)).2 i
    exact ⟨m1.trans n1, m2.trans n2⟩
  · intro c hc j hj
    have hc' := (hw.regs.cons.mem c).mpr hc
    obtain ⟨hrows, hat⟩ := (C56_process_only_moves hw e).read w'.now c
    let i : w.RowIdx := ⟨⟨c, List.mem_toFinset.mpr hc'⟩, ⟨j, hj⟩⟩
    rw [hat, hrows, rows_pack p _ hc']
    have k1 := hfin.C
    have k2 : ‖w.offs + app (w.jac (w.pack (X steps.toNat))) (w.pack (X steps.toNat)).2‖ ≤
        (c1 + L + L) * s := by
      have e1 : w.offs + app (w.jac (w.pack (X steps.toNat))) (w.pack (X steps.toNat)).2 =
          (w.offs + app (w.jac (w.pack (X steps.toNat))) (w.pack (X steps.toNat)).2 + κ -
            s • w.turn (w.pack (X steps.toNat))) + -κ + s • w.turn (w.pack (X steps.toNat)) := by
        abel
      have n3 : ‖s • w.turn (w.pack (X steps.toNat))‖ ≤ L * s := by
        rw [norm_smul, Real.norm_eq_abs, abs_of_pos s0, mul_comm]
        exact mul_le_mul_of_nonneg_right (tm.Jd _ hinn) s0.le
      rw [e1]
      refine (norm_add_le_of (norm_add_le_of hfin.row (norm_neg_le_of hfin.kap)) n3).trans ?_
      have : s ^ 2 ≤ s := by nlinarith
      have := mul_le_mul_of_nonneg_left this L0
      linarith
    rw [hpk] at k1 k2
    constructor
    · exact ((norm_le_pi_norm (w.errs (w.pack w'.now)) i).trans k1).trans hQ2
    · have := ((norm_le_pi_norm (w.offs + app (w.jac (w.pack w'.now)) (w.pack w'.now).2) i).trans
        k2).trans hQ3
      rw [rowAt_jac p (w.pack w'.now) i (v := (w.pack w'.now).2) (fun _ => rfl), add_comm]
      exact this

/-- **C95.** Wherever the constraints hold, the constraint matrix is not singular and no spring is at
its jump, an exact motion in which the constraints hold exists for some time. -/
theorem C95_exact_motion_exists (hG : ∀ g, G g → g.OnlyForces) (hw : World.Hist G .opt h w)
    (hst : w.Standard h)
    (hm : ∀ b ∈ regBodies h, (w.bodies b).m ≠ 0 ∧ (w.bodies b).I ≠ 0)
    (hh : ∀ c ∈ regCons h, ∀ j, j < (w.cons c).rows → (w.rowsOf w.now c).C j = 0 ∧
      w.rowAt (w.rowsOf w.now c) c j w.now.vel + (w.rowsOf w.now c).v_bias j = 0)
    (hi : w.Indep (w.rowsOf w.now)) (hr : ∀ g ∈ regGens h, (w.gens g).Regular w.now) :
    ∃ T : ℝ, 0 < T ∧ ∃ Y lam, w.HeldMotion h T Y lam := by
  have p := (hw.ready hG hst.wired).2
  have pr := hst.proper hw.regs
  have hd := hst.driven hw.regs
  have hf : w.Fair (w.motionOf (w.pack w.now)) := (fair_pack p hd).mpr
    ⟨hi, fun g hg => hr g ((hw.regs.gens.mem g).mp hg)⟩
  obtain ⟨T, hT, y, y0, hy⟩ := flow_exists (acc_lip hf.2 ((det_iff p _).mpr hf.1))
    (Good := fun y => w.Fair (w.motionOf y)) (field_near p hf.2 hf.1)
  have hdet : ∀ t ∈ Set.Icc 0 T, (w.matOf (y t)).det ≠ 0 := fun t ht =>
    (det_iff p _).mpr (hy t ht).1.1
  let a : ℝ → Nat → Coord → ℝ := fun t b q =>
    if hb : b ∈ w.rb.toFinset then w.bound.acc (y t) (⟨b, hb⟩, q) else 0
  let Y : ℝ → Motion := fun t => { w.motionOf (y t) with acc := a t }
  let e : ℝ → w.RowIdx → ℝ := fun t => app (w.jac (y t)) (w.freeAcc (y t)) + w.turn (y t)
  let lam : ℝ → Nat → Nat → ℝ := fun t c j =>
    if h : c ∈ w.cs.toFinset ∧ j < (w.cons c).rows then
      -app (w.inv (y t)) (e t) ⟨⟨c, h.1⟩, ⟨j, h.2⟩⟩ else 0
  have hb : ∀ b ∈ regBodies h, b ∈ w.rb := fun b hb => (hw.regs.bodies.mem b).mpr hb
  have hpack : ∀ t, w.pack (Y t) = y t := fun t => by
    refine Prod.ext (funext fun i => ?_) (funext fun i => ?_)
    · exact motionOf_pos _ (List.mem_toFinset.mp i.1.2) i.2
    · exact motionOf_vel _ (List.mem_toFinset.mp i.1.2) i.2
  have hacc : ∀ t, w.packA (Y t).acc = w.bound.acc (y t) := fun t =>
    funext fun i => dif_pos i.1.2
  have hreg : ∀ t ∈ Set.Icc 0 T, ∀ g ∈ w.fg, (w.gens g).Regular (Y t) := fun t ht g hg =>
    ((hy t ht).1.2 g hg).congr (hd.2 g hg) (fun _ _ _ => rfl)
  have hpos : ∀ t ∈ Set.Icc 0 T, ∀ b ∈ w.rb, ∀ q : Coord,
      HasDerivWithinAt (fun s => (Y s).pos b q) ((Y t).vel b q) (Set.Icc 0 T) t := by
    intro t ht b hb q
    have e : (fun s => (Y s).pos b q) = fun s => (y s).1 (⟨b, List.mem_toFinset.mpr hb⟩, q) :=
      funext fun s => motionOf_pos _ hb q
    rw [e, show (Y t).vel b q = (y t).2 (⟨b, List.mem_toFinset.mpr hb⟩, q) from
      motionOf_vel _ hb q]
    exact hasDerivWithinAt_pi.mp (hasFDerivAt_fst.comp_hasDerivWithinAt t (hy t ht).2) _
  have hvel : ∀ t ∈ Set.Icc 0 T, ∀ b ∈ w.rb, ∀ q : Coord,
      HasDerivWithinAt (fun s => (Y s).vel b q) ((Y t).acc b q) (Set.Icc 0 T) t := by
    intro t ht b hb q
    have e : (fun s => (Y s).vel b q) = fun s => (y s).2 (⟨b, List.mem_toFinset.mpr hb⟩, q) :=
      funext fun s => motionOf_vel _ hb q
    rw [e, show (Y t).acc b q = w.bound.acc (y t) (⟨b, List.mem_toFinset.mpr hb⟩, q) from
      dif_pos (List.mem_toFinset.mpr hb)]
    exact hasDerivWithinAt_pi.mp (hasFDerivAt_snd.comp_hasDerivWithinAt t (hy t ht).2) _
  -- `J v` does not change
  have zero : ∀ f : ℝ → ℝ, (∀ t ∈ Set.Icc 0 T, HasDerivWithinAt f 0 (Set.Icc 0 T) t) →
      ∀ t ∈ Set.Icc 0 T, f t = f 0 := fun f hf t ht => by
    have := (convex_Icc 0 T).norm_image_sub_le_of_norm_hasDerivWithin_le (C := 0) hf
      (fun _ _ => by simp) ⟨le_rfl, hT.le⟩ ht
    rw [zero_mul] at this
    exact sub_eq_zero.mp (norm_le_zero_iff.mp this)
  have z0 : (0 : ℝ) ∈ Set.Icc 0 T := ⟨le_rfl, hT.le⟩
  have hstart : ∀ b ∈ w.rb, ∀ q : Coord,
      (Y 0).pos b q = w.now.pos b q ∧ (Y 0).vel b q = w.now.vel b q := fun b hb q =>
    ⟨(motionOf_pos _ hb q).trans (by rw [y0]; rfl), (motionOf_vel _ hb q).trans (by rw [y0]; rfl)⟩
  have hrow : ∀ c ∈ regCons h, ∀ j, j < (w.cons c).rows → ∀ t ∈ Set.Icc 0 T,
      w.rowAt (w.rowsOf (Y t) c) c j (Y t).vel + (w.cons c).kind.biasT = 0 := by
    intro c hc j hj t ht
    have hc' := (hw.regs.cons.mem c).mpr hc
    have h0 := (hh c hc j hj).2
    have e0 : w.rowAt (w.rowsOf (Y 0) c) c j (Y 0).vel =
        w.rowAt (w.rowsOf w.now c) c j w.now.vel := by
      rw [rows_pack p (Y 0) hc', hpack, y0, ← rows_pack p w.now hc']
      exact sum_congr rfl fun k hk => Coord.sum_congr fun q => by
        rw [(hstart _ (p.bodies c hc' k (mem_range.mp hk)).2 q).2]
    rw [zero (fun s => w.rowAt (w.rowsOf (Y s) c) c j (Y s).vel) (fun t ht => ?_) t ht, e0]
    · exact h0
    · refine ((rows_motion p pr (hpos t ht) (hvel t ht) hc' hj).2).congr_deriv ?_
      let i : w.RowIdx := ⟨⟨c, List.mem_toFinset.mpr hc'⟩, ⟨j, hj⟩⟩
      have s := pack_same (w := w) (Y t)
      have e1 : w.turn (y t) i = w.rowDot (w.rowsOf (Y t) c) c j (Y t).vel := by
        rw [← hpack t, World.turn, ← rows_pack p (Y t) hc']
        exact sum_congr rfl fun k hk => Coord.sum_congr fun q => by
          rw [← s.vel _ (p.bodies c hc' k (mem_range.mp hk)).2 q]
      have e2 : w.rowAt (w.rowsOf (Y t) c) c j (Y t).acc =
          app (w.jac (y t)) (w.bound.acc (y t)) i := by
        rw [rows_pack p (Y t) hc', hpack, ← hacc t]
        exact rowAt_jac p _ i (u := (Y t).acc) (v := w.packA (Y t).acc) (fun _ => rfl)
      have e3 : app (w.jac (y t)) (w.bound.acc (y t)) = -w.turn (y t) := by
        show app (w.jac (y t)) (w.freeAcc (y t) - app (w.fix (y t)) (app (w.jac (y t))
          (w.freeAcc (y t)) + w.turn (y t))) = _
        rw [map_sub, jac_fix (hdet t ht)]
        abel
      rw [e2, e3, ← e1, Pi.neg_apply]
      exact add_neg_cancel _
  refine ⟨T, hT, Y, lam, fun b hb' q => hstart b (hb b hb') q,
    fun t ht b hb' => hpos t ht b (hb b hb'), fun t ht b hb' => hvel t ht b (hb b hb'), ?_, ?_,
    fun t ht => (hy t ht).1.1, fun t ht g hg => hreg t ht g ((hw.regs.gens.mem g).mpr hg)⟩
  · intro t ht b hb' q
    have hmq : (w.bodies b).mass q ≠ 0 := by
      cases q
      · exact (hm b hb').1
      · exact (hm b hb').1
      · exact (hm b hb').2
    let i : w.rb.toFinset × Coord := (⟨b, List.mem_toFinset.mpr (hb b hb')⟩, q)
    have e1 := force_push p (Y t) (lam t) i
    have e2 : (fun r : w.RowIdx => lam t r.1 r.2) = -app (w.inv (y t)) (e t) :=
      funext fun r => dif_pos ⟨r.1.2, r.2.2⟩
    have e3 : app (w.fix (y t)) (e t) = app (w.push (y t)) (app (w.inv (y t)) (e t)) := by
      simp only [app, Matrix.mulVecLin_apply, fix_eq (hdet t ht), Matrix.mulVec_mulVec]
    rw [e2, hpack, map_neg, ← e3] at e1
    have e4 : (Y t).acc b q = w.freeAcc (y t) i - app (w.fix (y t)) (e t) i :=
      dif_pos (List.mem_toFinset.mpr (hb b hb'))
    have e5 : w.freeAcc (y t) i = w.load (Y t) b q / (w.bodies b).mass q := by
      rw [load_pack hd (hreg t ht) (hb b hb'), hpack]
      rfl
    have e6 : w.conForce (w.reaction (Y t) (lam t)) b q / (w.bodies b).mass q =
        -app (w.fix (y t)) (e t) i := e1
    rw [e4, e5, sub_eq_add_neg, ← e6, ← add_div, mul_div_cancel₀ _ hmq]
    rfl
  · intro t ht c hc j hj
    have hc' := (hw.regs.cons.mem c).mpr hc
    refine ⟨?_, hrow c hc j hj t ht⟩
    by_cases hp : (w.cons c).kind.Positional
    · rw [zero (fun s => (w.rowsOf (Y s) c).C j) (fun t ht => ?_) t ht]
      · show (w.rowsOf (Y 0) c).C j = 0
        rw [rows_pack p (Y 0) hc', hpack, y0, ← rows_pack p w.now hc']
        exact (hh c hc j hj).1
      · refine ((rows_motion p pr (hpos t ht) (hvel t ht) hc' hj).1 hp).congr_deriv ?_
        have := hrow c hc j hj t ht
        rw [CKind.bias_pos hp, add_zero] at this
        exact this
    · exact CKind.cT_free hp _ _

/-- The claim applied to two linked bodies with a spring between them. -/
example (f ks kd : ℝ) : ∃ (h : List (Op ℝ)) (w : World ℝ), World.Hist Gen.Shipped .opt h w ∧
    ∃ T : ℝ, 0 < T ∧ ∃ Y lam, w.HeldMotion h T Y lam := by
  obtain ⟨h, w, d⟩ := demo (.link ⟨0, 0, -1, -2, f, ks, kd⟩)
    (g := .spring ⟨1, 7, 1, 0, 0, 0, 0, .obj 0, .obj 1⟩) trivial (cs := [0]) (fg := [0]) (by decide)
    (by decide) .ge
  have hst := d.standard (.inl (by simp [CKind.counts]))
    (.inr ⟨⟨0, by simp, rfl⟩, .inr ⟨1, by simp, rfl⟩⟩)
  have hi := d.solvable (d.rank_pins (pins_link _) w.now) trivial
    (by rw [d.full]; simp [CKind.counts]) (.inl (by simp))
  have hrow : (w.cons 0).rows = 2 := d.rows 0
  have hbc : (w.cons 0).bodyCount = 2 := d.count 0
  have ep : ∀ b q, w.now.pos b q = (demoBody b).pos q := fun b q => d.pos b q
  have ev : ∀ b q, w.now.vel b q = (demoBody b).vel q := fun b q => d.vel b q
  refine ⟨h, w, d.hist, C95_exact_motion_exists (fun g => Gen.tame) d.hist hst d.masses ?_
    (by simpa [World.Solvable, d.sle] using hi) (fun g _ => ?_)⟩
  · intro c hc j hj
    have hc0 : c = 0 := by simpa [d.regC] using hc
    subst hc0
    obtain ⟨q0, q1, q2, q3, q4, q5⟩ := q_two hbc (d.bodies 0 0) (d.bodies 0 1) (x := w.now)
    have hj2 : j = 0 ∨ j = 1 := by omega
    rcases hj2 with rfl | rfl
    all_goals
      simp only [World.rowAt, hbc, sum_range_succ, sum_range_zero, d.bodyOf, World.rowsOf, d.kind,
        Coord.sum, Coord.d, CKind.jT, CKind.cT, CKind.biasT, q0, q1, q2, q3, q4, q5, ep, ev,
        demoBody, Body.pos, Body.vel, rx, ry]
      norm_num
  · rw [d.gens]
    intro b1 b2 e1 e2
    cases e1
    cases e2
    intro hn
    have := congrArg (fun x : ℝ => x ^ 2) hn
    simp only [distOf, Motion.point, ep, demoBody, Body.pos] at this
    rw [Real.sq_sqrt (by positivity)] at this
    norm_num at this

/-- Two bodies under gravity, the first of which slides down an inclined line. -/
noncomputable def demoSlide (t : ℝ) : Motion where
  pos := fun b q => match q with
    | .x => if b = 0 then 3 * t - 54 / 25 * t ^ 2 else b + 3 * t
    | .y => if b = 0 then 4 * t - 72 / 25 * t ^ 2 else 2 * b + 4 * t - 9 / 2 * t ^ 2
    | .th => if b = 0 then 5 * t else 0
  vel := fun b q => match q with
    | .x => if b = 0 then 3 - 108 / 25 * t else 3
    | .y => if b = 0 then 4 - 144 / 25 * t else 4 - 9 * t
    | .th => if b = 0 then 5 else 0
  acc := fun b q => match q with
    | .x => if b = 0 then -108 / 25 else 0
    | .y => if b = 0 then -144 / 25 else -9
    | .th => 0

/-- It is the exact motion if a `LineConstraint` keeps the centre of the first body on the line through
the origin in the direction `(3, 4)`. -/
theorem demoSlide_held (d : DemoSys (.line ⟨0, 0, 0, 0, 3, 4, 0, 0⟩) (.gravity 9) [0] [0] .ge h w)
    (T : ℝ) : w.HeldMotion h T demoSlide (fun _ _ _ => 27 / 25) := by
  have hrow : (w.cons 0).rows = 1 := d.rows 0
  have hbc : (w.cons 0).bodyCount = 1 := d.count 0
  have hcs : w.cs.toFinset = {0} := by rw [d.cs_eq]; rfl
  have quad : ∀ a b c t : ℝ, HasDerivAt (fun s : ℝ => a + b * s - c * s ^ 2) (b - 2 * c * t) t :=
    fun a b c t => by
      have := (((hasDerivAt_id t).const_mul b).const_add a).sub
        (((hasDerivAt_id t).pow 2).const_mul c)
      refine this.congr_deriv ?_
      simp
      ring
  refine ⟨fun b _ q => ?_, fun t _ b _ q => ?_, fun t _ b _ q => ?_, fun t _ b _ q => ?_,
    fun t _ c hc j hj => ?_, fun t _ => ?_, fun t _ g _ => ?_⟩
  · rw [d.pos, d.vel]
    cases q <;> by_cases hb : b = 0 <;> simp [demoSlide, demoBody, Body.pos, Body.vel, hb]
  · refine HasDerivAt.hasDerivWithinAt ?_
    cases q <;> by_cases hb : b = 0 <;> simp only [demoSlide, hb, if_true, if_false]
    · simpa using (quad 0 3 (54 / 25) t).congr_deriv (by ring : _ = 3 - 108 / 25 * t)
    · simpa using quad b 3 0 t
    · simpa using (quad 0 4 (72 / 25) t).congr_deriv (by ring : _ = 4 - 144 / 25 * t)
    · exact (quad (2 * b) 4 (9 / 2) t).congr_deriv (by ring)
    · simpa using quad 0 5 0 t
    · exact hasDerivAt_const _ _
  · refine HasDerivAt.hasDerivWithinAt ?_
    cases q <;> by_cases hb : b = 0 <;> simp only [demoSlide, hb, if_true, if_false]
    · simpa [sub_eq_add_neg, neg_div] using quad 3 (-108 / 25) 0 t
    · exact hasDerivAt_const _ _
    · simpa [sub_eq_add_neg, neg_div] using quad 4 (-144 / 25) 0 t
    · simpa [sub_eq_add_neg] using quad 4 (-9) 0 t
    · exact hasDerivAt_const _ _
    · exact hasDerivAt_const _ _
  · rw [d.mass, one_mul]
    have l : w.load (demoSlide t) b q = if q = .y then -9 else 0 := by
      rw [World.load, d.fg_eq]
      simp [d.gens, Gen.load, d.m]
    have f : w.conForce (fun c q j k => 27 / 25 *
        (w.rowsOf (demoSlide t) c).J j (k * 3 + q.d)) b q = if b = 0 then
          (match q with | .x => -108 / 25 | .y => 81 / 25 | .th => 0) else 0 := by
      rw [World.conForce, hcs]
      simp only [sum_singleton, hrow, hbc, range_one, d.bodyOf, World.rowsOf, d.kind]
      cases q <;> by_cases hb : b = 0 <;> simp [hb, CKind.jT, Coord.d, eq_comm, rx, ry] <;> norm_num
    rw [l, f]
    cases q <;> by_cases hb : b = 0 <;> simp [demoSlide, hb]
    norm_num
  · have hc0 : c = 0 := by simpa [d.regC] using hc
    subst hc0
    have hj0 : j = 0 := by omega
    subst hj0
    obtain ⟨q0, q1, q2⟩ := q_one hbc (d.bodies 0 0) (x := demoSlide t)
    simp only [World.rowAt, hbc, sum_range_one, d.bodyOf, World.rowsOf, d.kind,
      Coord.sum, Coord.d, CKind.jT, CKind.cT, CKind.biasT, q0, q1, q2, rx, ry]
    simp only [demoSlide, if_true]
    constructor
    · ring
    · ring
  · have := d.solvable (d.rank_turns (turns_line _ (by norm_num)) (demoSlide t)) trivial
      (by rw [d.full]; simp [CKind.counts]) (.inl (by simp))
    simpa [World.Solvable, d.sle] using this
  · rw [d.gens]
    trivial

/-- The claim applied to that system: the position and the distance from the line after two
seconds. -/
example : ∃ (h : List (Op ℝ)) (w : World ℝ), World.Hist Gen.Shipped .opt h w ∧ w.Standard h ∧
    ∃ (N : Int) (E : ℝ), ∀ steps, N ≤ steps → ∀ env : Env ℝ,
      ∃ w', w.process .opt env 2 steps = .ok w' ∧
        |(w'.bodies 0).pos .x - (3 * 2 - 54 / 25 * 2 ^ 2)| ≤ E / steps ∧
        |(w'.rowsOf w'.now 0).C 0| ≤ E / steps ^ 2 := by
  obtain ⟨h, w, d⟩ := demo (.line ⟨0, 0, 0, 0, 3, 4, 0, 0⟩) (g := .gravity 9) trivial (cs := [0])
    (fg := [0]) (by decide) (by decide) .ge
  have hst := d.standard (.inl (by simp [CKind.counts])) trivial
  obtain ⟨N, E, key⟩ := C95_converges (fun g => Gen.tame) d.hist hst d.sle
    (ne_empty_of_mem (d.mem0 rfl)) (by rw [d.bias]; norm_num) (by rw [d.bias]; norm_num) d.masses
    two_pos (demoSlide_held d.toDemoSys 2)
  refine ⟨h, w, d.hist, hst, N, E, fun steps hn env => ?_⟩
  obtain ⟨w', e, k1, k2⟩ := key steps hn env
  exact ⟨w', e, (k1 0 d.bodies_mem.1 .x).1, (k2 0 (d.mem0 rfl) 0 (by rw [d.rows 0]; decide)).1⟩

end

end Scs
