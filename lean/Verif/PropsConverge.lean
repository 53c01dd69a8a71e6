import Mathlib.Analysis.Calculus.Deriv.Prod
import Mathlib.Analysis.Calculus.Deriv.Pi
import Verif.WorldConverge
import Verif.Flow
import Verif.PropsOdeWorld

/-!
# The motion approaches the exact motion

C92: with Gaussian elimination the generic system follows the exact motion of the constrained bodies,
with an error that is inversely proportional to the number of sub-steps.
-/

namespace Scs

open Finset

/-! ## C92 -/

/-- An exact motion of the bodies from their present positions and velocities over the time `T`.
Velocities and accelerations are the derivatives of positions and velocities, the accelerations are
those of the registered force generators and of forces `lam` along the rows of the constraints, and
they satisfy `J a = -J_dot v - ks C - kd J v` in every row. The constraint matrix is singular nowhere
on the way, no spring passes the distance 0.01 of its ends at which its force jumps (C42), and motors
have no damping (C77). -/
structure World.ExactMotion (w : World ℝ) (h : List (Op ℝ)) (T : ℝ) (Y : ℝ → Motion)
    (lam : ℝ → Nat → Nat → ℝ) : Prop where
  start : ∀ b ∈ regBodies h, ∀ q : Coord,
    (Y 0).pos b q = (w.bodies b).pos q ∧ (Y 0).vel b q = (w.bodies b).vel q
  pos : ∀ t ∈ Set.Icc 0 T, ∀ b ∈ regBodies h, ∀ q : Coord,
    HasDerivWithinAt (fun s => (Y s).pos b q) ((Y t).vel b q) (Set.Icc 0 T) t
  vel : ∀ t ∈ Set.Icc 0 T, ∀ b ∈ regBodies h, ∀ q : Coord,
    HasDerivWithinAt (fun s => (Y s).vel b q) ((Y t).acc b q) (Set.Icc 0 T) t
  newton : ∀ t ∈ Set.Icc 0 T, ∀ b ∈ regBodies h, ∀ q : Coord,
    (w.bodies b).mass q * (Y t).acc b q = w.load (Y t) b q +
      w.conForce (fun c q j k => lam t c j * (w.rowsOf (Y t) c).J j (k * 3 + q.d)) b q
  rows : ∀ t ∈ Set.Icc 0 T, ∀ c ∈ regCons h, ∀ j, j < (w.cons c).rows →
    w.rowAt (w.rowsOf (Y t) c) c j (Y t).acc = -w.rowDot (w.rowsOf (Y t) c) c j (Y t).vel -
      (w.rowsOf (Y t) c).ks j * (w.rowsOf (Y t) c).C j -
      (w.rowsOf (Y t) c).kd j * w.rowAt (w.rowsOf (Y t) c) c j (Y t).vel
  indep : ∀ t ∈ Set.Icc 0 T, w.Indep (w.rowsOf (Y t))
  regular : ∀ t ∈ Set.Icc 0 T, ∀ g ∈ regGens h, (w.gens g).Regular (Y t)

section
variable {G : Gen ℝ → Prop} {h : List (Op ℝ)} {w w' : World ℝ} {env : Env ℝ} {dt : ℝ}
  {steps : Int} {o : Ode ℝ} {Y : ℝ → Motion} {lam : ℝ → Nat → Nat → ℝ}

theorem World.ExactMotion.deriv (p : w.Placed) (hd : w.Driven) {cls : Cls} (r : w.Regs cls h)
    (hs : w.sle = some .ge)
    (hm : ∀ b ∈ regBodies h, (w.bodies b).m ≠ 0 ∧ (w.bodies b).I ≠ 0) {T : ℝ}
    (hY : w.ExactMotion h T Y lam) {t : ℝ} (ht : t ∈ Set.Icc 0 T) :
    w.Fair (w.motionOf (w.pack (Y t))) ∧
      HasDerivWithinAt (fun s => w.pack (Y s)) (flow w.field (w.pack (Y t))) (Set.Icc 0 T) t := by
  have hf : w.Fair (w.motionOf (w.pack (Y t))) := (fair_pack p hd).mpr
    ⟨hY.indep t ht, fun g hg => hY.regular t ht g ((r.gens.mem g).mp hg)⟩
  have hb : ∀ i : w.rb.toFinset × Coord, (i.1 : Nat) ∈ regBodies h := fun i =>
    (r.bodies.mem _).mp (List.mem_toFinset.mp i.1.2)
  have acc : w.Accel (Y t) (Y t).acc (lam t) := by
    refine ⟨fun b hb q => ?_, fun _ => hY.indep t ht, fun _ c hc j hj => ?_, fun m e1 e2 h => ?_⟩
    · have hb := (r.bodies.mem b).mp hb
      obtain ⟨m1, m2⟩ := hm b hb
      have hmq : (w.bodies b).mass q ≠ 0 := by
        cases q
        · exact m1
        · exact m1
        · exact m2
      rw [eq_div_iff hmq, mul_comm, hY.newton t ht b hb q]
      rfl
    · exact hY.rows t ht c ((r.cons.mem c).mp hc) j hj
    · rw [hs] at h; cases h
  refine ⟨hf, HasDerivWithinAt.prodMk ?_ ?_⟩
  · exact hasDerivWithinAt_pi.mpr fun i => hY.pos t ht _ (hb i) _
  · refine hasDerivWithinAt_pi.mpr fun i => ?_
    show HasDerivWithinAt _ (w.field (w.pack (Y t)) i) _ _
    rw [← accel_field p hd hs hf acc i]
    exact hY.vel t ht _ (hb i) _

/-- **C92.** If the constrained bodies have an exact motion over the time `dt` from their present
positions and velocities, then `process` of the generic system with Gaussian elimination and any of
the three ODE solvers succeeds with every sufficiently large number of sub-steps, and positions and
velocities differ from the exact ones by at most a constant divided by the number of sub-steps. -/
theorem C92_converges (hG : ∀ g, G g → g.OnlyForces) (hw : World.Hist G .gen h w)
    (hst : w.Standard h) (hs : w.sle = some .ge) (hode : w.ode = some o) (ho : o.sort ≠ 0)
    (hsync : o.sort = 3 → InSync h) (hne : regCons h ≠ ∅)
    (hm : ∀ b ∈ regBodies h, (w.bodies b).m ≠ 0 ∧ (w.bodies b).I ≠ 0) (hdt : 0 < dt)
    (hY : w.ExactMotion h dt Y lam) :
    ∃ (N : Int) (E : ℝ), ∀ steps, N ≤ steps → ∀ env : Env ℝ,
      ∃ w', w.process .gen env dt steps = .ok w' ∧ ∀ b ∈ regBodies h, ∀ q : Coord,
        |(w'.bodies b).pos q - (Y dt).pos b q| ≤ E / steps ∧
        |(w'.bodies b).vel q - (Y dt).vel b q| ≤ E / steps := by
  have p := (hw.readyG hG hst.wired).2
  have hd := hst.driven hw.regs
  have key := fun t ht => hY.deriv p hd hw.regs hs hm (t := t) ht
  obtain ⟨r, K, B, u⟩ := Tube.exists (Y := fun s => w.pack (Y s)) (T := dt) (a := w.field)
    (Good := fun y => w.Fair (w.motionOf y)) (fun t ht => (key t ht).2)
    (fun t ht => field_lip p (key t ht).1.2 (key t ht).1.1)
    (fun t ht => field_near p (key t ht).1.2 (key t ht).1.1)
  have hB := u.B0
  have hr0 := u.pos
  have hK := u.K0
  set C := 2 * B + r + K * r with hC
  have c0 : 0 ≤ C := by positivity
  set D := K * C + (B + K * r) + (K + 1) * B with hD
  have d0 : 0 ≤ D := by positivity
  set A := dt * D * Real.exp ((K + 1) * dt) with hA
  have a0 : 0 ≤ A := by positivity
  obtain ⟨N, hN⟩ := exists_nat_gt (dt * (B + A + C) / r + dt)
  have hNpos : (0 : ℝ) < N := lt_of_le_of_lt (by positivity) hN
  refine ⟨N, A * dt, fun steps hsteps env => ?_⟩
  have hsN : (N : ℝ) ≤ steps := by exact_mod_cast hsteps
  have hpos : (0 : ℝ) < steps := hNpos.trans_le hsN
  have hpos' : 0 < steps := by exact_mod_cast hpos
  set s := dt / steps with hsd
  have s0 : 0 < s := div_pos hdt hpos
  have hss : steps * s = dt := by rw [hsd]; field_simp
  have s1 : s ≤ 1 := by
    rw [hsd, div_le_one hpos]
    have : 0 ≤ dt * (B + A + C) / r := by positivity
    linarith
  have s2 : s * (B + A + C) < r := by
    have h1 : dt * (B + A + C) / r < steps := by linarith
    rw [div_lt_iff₀ hr0] at h1
    rw [hsd, div_mul_eq_mul_div, div_lt_iff₀ hpos]
    linarith
  have hBs : B * s < r := by nlinarith [mul_nonneg s0.le a0, mul_nonneg s0.le c0]
  have hnat : ((steps.toNat : Nat) : ℝ) = (steps : ℝ) := by
    exact_mod_cast Int.toNat_of_nonneg hpos'.le
  have hjt : ∀ j : Nat, j ≤ steps.toNat → (j : ℝ) * s ∈ Set.Icc 0 dt := fun j hj => by
    refine ⟨by positivity, ?_⟩
    have : (j : ℝ) ≤ steps := by rw [← hnat]; exact_mod_cast hj
    calc (j : ℝ) * s ≤ steps * s := mul_le_mul_of_nonneg_right this s0.le
      _ = dt := hss
  let R : Nat → Motion → Prop := fun j x => ‖w.pack x - w.pack (Y (j * s))‖ ≤ errBound (K + 1) D s j
  have hRb : ∀ j, j ≤ steps.toNat → ∀ x, R j x → ‖w.pack x - w.pack (Y (j * s))‖ ≤ A * s :=
    fun j hj x hx => hx.trans (errBound_le (by linarith) d0 s0.le j (hjt j hj).2)
  have hRr : ∀ j, j ≤ steps.toNat → ∀ x, R j x →
      ‖w.pack x - w.pack (Y (j * s))‖ + s * C < r := fun j hj x hx => by
    have := hRb j hj x hx
    nlinarith [mul_nonneg s0.le hB]
  have hR0 : ∀ x, w.SameAs x w.now → R 0 x := fun x hx => by
    have : w.pack x = w.pack (Y ((0 : Nat) * s)) := by
      have e : ((0 : Nat) : ℝ) * s = 0 := by simp
      rw [e]
      have hb : ∀ i : w.rb.toFinset × Coord, (i.1 : Nat) ∈ w.rb := fun i =>
        List.mem_toFinset.mp i.1.2
      refine Prod.ext (funext fun i => ?_) (funext fun i => ?_)
      · exact (hx.pos i.1 (hb i) i.2).trans
          (hY.start i.1 ((hw.regs.bodies.mem _).mp (hb i)) i.2).1.symm
      · exact (hx.vel i.1 (hb i) i.2).trans
          (hY.start i.1 ((hw.regs.bodies.mem _).mp (hb i)) i.2).2.symm
    show ‖_‖ ≤ _
    rw [this, sub_self, norm_zero]
    exact le_rfl
  have hRs : ∀ j, j < steps.toNat → ∀ x x', R j x → w.OdeStep o s x x' → R (j + 1) x' :=
    fun j hj x x' hx st => by
      have e : ((j + 1 : Nat) : ℝ) * s = (j : ℝ) * s + s := by push_cast; ring
      have ht' := hjt (j + 1) hj
      rw [e] at ht'
      have := u.ode p hd hs (fun t ht => (key t ht).2) s0.le s1 hBs (hjt j hj.le) ht'
        (hRr j hj.le x hx) st
      show ‖_‖ ≤ _
      rw [e]
      refine this.trans ?_
      show _ ≤ (1 + (K + 1) * s) * errBound (K + 1) D s j + D * s ^ 2
      have h1 : (0 : ℝ) ≤ 1 + (K + 1) * s := by positivity
      have := mul_le_mul_of_nonneg_left (show ‖_‖ ≤ _ from hx) h1
      linarith
  obtain ⟨w', e⟩ := hw.goesOde hG hst hode ho hsync (dt := dt) (steps := steps)
    (fun b hb q => by
      obtain ⟨m1, m2⟩ := hm b ((hw.regs.bodies.mem b).mp hb)
      cases q
      · exact m1
      · exact m1
      · exact m2) (by rw [hs]; simp) (fun m e => by rw [hs]; simp) R hR0 hRs
    (fun j hj x hx _ => (u.solvable p hd hs s0.le s1 (hjt j hj.le) (hRr j hj.le x hx)).1)
    (fun _ j hj x hx _ => (u.solvable p hd hs s0.le s1 (hjt j hj.le) (hRr j hj.le x hx)).2)
    (fun h0 => absurd (hw.regs.cs_nil.mp h0) hne) env
  refine ⟨w', e, ?_⟩
  obtain ⟨X, hX⟩ := hw.ode_moved hG hst hode ho hsync e
  have hall : ∀ n, n ≤ steps.toNat → R n (X n) := by
    intro n
    induction n with
    | zero =>
      intro _
      rw [hX.first]
      exact hR0 _ ⟨fun _ _ _ => rfl, fun _ _ _ => rfl, fun _ _ _ => rfl⟩
    | succ n ih => exact fun hn => hRs n hn _ _ (ih (by omega)) (hX.step n hn)
  have hfin := hRb _ le_rfl _ (hall _ le_rfl)
  rw [hnat, hss] at hfin
  have hAs : A * s = A * dt / steps := by rw [hsd]; ring
  rw [hAs] at hfin
  intro b hb q
  have hb' := (hw.regs.bodies.mem b).mpr hb
  obtain ⟨l1, l2⟩ := hX.last b hb' q
  rw [← l1, ← l2]
  have n1 := (norm_fst_le (w.pack (X steps.toNat) - w.pack (Y dt))).trans hfin
  have n2 := (norm_snd_le (w.pack (X steps.toNat) - w.pack (Y dt))).trans hfin
  let i : w.rb.toFinset × Coord := (⟨b, List.mem_toFinset.mpr hb'⟩, q)
  have m1 := norm_le_pi_norm (w.pack (X steps.toNat) - w.pack (Y dt)).1 i
  have m2 := norm_le_pi_norm (w.pack (X steps.toNat) - w.pack (Y dt)).2 i
  exact ⟨m1.trans n1, m2.trans n2⟩

/-- **C92**: there is an exact motion, for a short time, from all positions and velocities in which
the constraint matrix is not singular and no spring has the end distance 0.01, if the motors have no
damping. -/
theorem C92_exact_motion_exists (hG : ∀ g, G g → g.OnlyForces) (hw : World.Hist G .gen h w)
    (hst : w.Standard h) (hs : w.sle = some .ge)
    (hm : ∀ b ∈ regBodies h, (w.bodies b).m ≠ 0 ∧ (w.bodies b).I ≠ 0)
    (hi : w.Indep (w.rowsOf w.now)) (hr : ∀ g ∈ regGens h, (w.gens g).Regular w.now) :
    ∃ T : ℝ, 0 < T ∧ ∃ Y lam, w.ExactMotion h T Y lam := by
  have p := (hw.readyG hG hst.wired).2
  have hd := hst.driven hw.regs
  have hf : w.Fair (w.motionOf (w.pack w.now)) := (fair_pack p hd).mpr
    ⟨hi, fun g hg => hr g ((hw.regs.gens.mem g).mp hg)⟩
  obtain ⟨T, hT, y, y0, hy⟩ := flow_exists (field_lip p hf.2 hf.1)
    (Good := fun y => w.Fair (w.motionOf y)) (field_near p hf.2 hf.1)
  let a : ℝ → Nat → Coord → ℝ := fun t b q =>
    if hb : b ∈ w.rb.toFinset then w.field (y t) (⟨b, hb⟩, q) else 0
  let Y : ℝ → Motion := fun t => { w.motionOf (y t) with acc := a t }
  have acc : ∀ t ∈ Set.Icc 0 T, w.Accel (Y t) (Y t).acc (w.multOf (y t)) := fun t ht =>
    World.Accel.like (x := w.motionOf (y t)) (y := Y t) p hd (hy t ht).1.2
      (fun _ _ _ => rfl) (fun _ _ _ => rfl)
      (field_accel p hs (hy t ht).1.1 (a := a t) (fun i => dif_pos i.1.2))
  have hb : ∀ b ∈ regBodies h, b ∈ w.rb := fun b hb => (hw.regs.bodies.mem b).mpr hb
  refine ⟨T, hT, Y, fun t => w.multOf (y t), ?_, ?_, ?_, ?_, ?_, ?_, ?_⟩
  · intro b hb' q
    refine ⟨(motionOf_pos _ (hb b hb') q).trans ?_, (motionOf_vel _ (hb b hb') q).trans ?_⟩
    · rw [y0]; rfl
    · rw [y0]; rfl
  · intro t ht b hb' q
    have e : (fun s => (Y s).pos b q) = fun s =>
        (y s).1 (⟨b, List.mem_toFinset.mpr (hb b hb')⟩, q) :=
      funext fun s => motionOf_pos _ (hb b hb') q
    rw [e, show (Y t).vel b q = (y t).2 (⟨b, List.mem_toFinset.mpr (hb b hb')⟩, q) from
      motionOf_vel _ (hb b hb') q]
    exact hasDerivWithinAt_pi.mp (hasFDerivAt_fst.comp_hasDerivWithinAt t (hy t ht).2) _
  · intro t ht b hb' q
    have e : (fun s => (Y s).vel b q) = fun s =>
        (y s).2 (⟨b, List.mem_toFinset.mpr (hb b hb')⟩, q) :=
      funext fun s => motionOf_vel _ (hb b hb') q
    rw [e, show (Y t).acc b q = w.field (y t) (⟨b, List.mem_toFinset.mpr (hb b hb')⟩, q) from
      dif_pos (List.mem_toFinset.mpr (hb b hb'))]
    exact hasDerivWithinAt_pi.mp (hasFDerivAt_snd.comp_hasDerivWithinAt t (hy t ht).2) _
  · intro t ht b hb' q
    have hmq : (w.bodies b).mass q ≠ 0 := by
      cases q
      · exact (hm b hb').1
      · exact (hm b hb').1
      · exact (hm b hb').2
    rw [(acc t ht).newton b (hb b hb') q, mul_div_cancel₀ _ hmq]
    rfl
  · intro t ht c hc j hj
    exact (acc t ht).ge hs c ((hw.regs.cons.mem c).mpr hc) j hj
  · exact fun t ht => (hy t ht).1.1
  · intro t ht g hg
    have hg' := (hw.regs.gens.mem g).mpr hg
    exact ((hy t ht).1.2 g hg').congr (hd.2 g hg') (fun _ _ _ => rfl)

/-- The claim applied to two linked bodies with a spring between them. -/
example (l : Link ℝ) : ∃ (h : List (Op ℝ)) (w : World ℝ), World.Hist Gen.Shipped .gen h w ∧
    ∃ T : ℝ, 0 < T ∧ ∃ Y lam, w.ExactMotion h T Y lam := by
  obtain ⟨h, w, d, hs⟩ := demo_ode (.link l)
    (g := .spring ⟨1, 7, 1, 0, 0, 0, 0, .obj 0, .obj 1⟩) trivial (cs := [0])
    (fg := [0]) (by decide) (by decide) .ge (o := .rk4 newRk4) (.inr (.inr rfl))
  have hst := d.standard (.inl (by simp [CKind.counts])) (.inr ⟨⟨0, by simp, rfl⟩, .inr ⟨1, by simp, rfl⟩⟩)
  have hi := d.solvable (d.rank_pins (pins_link l) w.now) trivial
    (by rw [d.full]; simp [CKind.counts]) (.inl (by simp))
  refine ⟨h, w, d.hist, C92_exact_motion_exists (fun g => Gen.tame) d.hist hst d.sle d.masses
    (by simpa [World.Solvable, d.sle] using hi) (fun g _ => ?_)⟩
  rw [d.gens]
  intro b1 b2 e1 e2
  cases e1
  cases e2
  have e : ∀ b q, w.now.pos b q = (demoBody b).pos q := fun b q => d.pos b q
  intro hn
  have := congrArg (fun x : ℝ => x ^ 2) hn
  simp only [distOf, Motion.point, e, demoBody, Body.pos] at this
  rw [Real.sq_sqrt (by positivity)] at this
  norm_num at this

/-- Two falling bodies, the first of which turns back to the angle 0 like a damped oscillator. -/
noncomputable def demoFall (t : ℝ) : Motion where
  pos := fun b q => match q with
    | .x => b + 3 * t
    | .y => 2 * b + 4 * t - 9 / 2 * t ^ 2
    | .th => if b = 0 then 5 * (Real.exp (-t) - Real.exp (-(2 * t))) else 0
  vel := fun b q => match q with
    | .x => 3
    | .y => 4 - 9 * t
    | .th => if b = 0 then 5 * (-Real.exp (-t) + 2 * Real.exp (-(2 * t))) else 0
  acc := fun b q => match q with
    | .x => 0
    | .y => -9
    | .th => if b = 0 then 5 * (Real.exp (-t) - 4 * Real.exp (-(2 * t))) else 0

/-- It is the exact motion of two bodies under gravity, the first held at the angle 0 by a
`FixedRotationConstraint` with `ks = 2` and `kd = 3`. -/
theorem demoFall_exact (d : DemoSys (.fixedRotation ⟨0, 2, 3⟩) (.gravity 9) [0] [0] .ge h w) (T : ℝ) :
    w.ExactMotion h T demoFall
      (fun t _ _ => 5 * (Real.exp (-t) - 4 * Real.exp (-(2 * t)))) := by
  have e1 : ∀ t : ℝ, HasDerivAt (fun t : ℝ => Real.exp (-t)) (-Real.exp (-t)) t := fun t => by
    simpa using (hasDerivAt_id t).neg.exp
  have e2 : ∀ t : ℝ, HasDerivAt (fun t : ℝ => Real.exp (-(2 * t))) (-2 * Real.exp (-(2 * t))) t :=
    fun t => by
      have := ((hasDerivAt_id t).const_mul 2).neg.exp
      simp only [id_eq, mul_one] at this
      rw [mul_comm] at this
      exact this
  have hrow : (w.cons 0).rows = 1 := d.rows 0
  have hbc : (w.cons 0).bodyCount = 1 := d.count 0
  have hcs : w.cs.toFinset = {0} := by rw [d.cs_eq]; rfl
  refine ⟨fun b _ q => ?_, fun t _ b _ q => ?_, fun t _ b _ q => ?_, fun t _ b _ q => ?_,
    fun t _ c hc j hj => ?_, fun t _ => ?_, fun t _ g _ => ?_⟩
  · rw [d.pos, d.vel]
    cases q
    · simp [demoFall, demoBody, Body.pos, Body.vel]
    · simp [demoFall, demoBody, Body.pos, Body.vel]
    · simp only [demoFall, demoBody, Body.pos, Body.vel]
      constructor
      · simp
      · split
        · simp; norm_num
        · rfl
  · refine HasDerivAt.hasDerivWithinAt ?_
    cases q
    · simpa [demoFall] using ((hasDerivAt_id t).const_mul 3).const_add (b : ℝ)
    · have := (((hasDerivAt_id t).const_mul 4).const_add (2 * (b : ℝ))).sub
        (((hasDerivAt_id t).pow 2).const_mul (9 / 2))
      refine this.congr_deriv ?_
      simp [demoFall]
      ring
    · simp only [demoFall]
      split
      · have := ((e1 t).sub (e2 t)).const_mul 5
        exact this.congr_deriv (by ring)
      · exact hasDerivAt_const _ _
  · refine HasDerivAt.hasDerivWithinAt ?_
    cases q
    · exact hasDerivAt_const _ _
    · simpa [demoFall] using ((hasDerivAt_id t).const_mul 9).const_sub 4
    · simp only [demoFall]
      split
      · have := ((e1 t).neg.add ((e2 t).const_mul 2)).const_mul 5
        exact this.congr_deriv (by ring)
      · exact hasDerivAt_const _ _
  · rw [d.mass, one_mul]
    have l : w.load (demoFall t) b q = if q = .y then -9 else 0 := by
      rw [World.load, d.fg_eq]
      simp [d.gens, Gen.load, d.m]
    have f : w.conForce (fun c q j k => 5 * (Real.exp (-t) - 4 * Real.exp (-(2 * t))) *
        (w.rowsOf (demoFall t) c).J j (k * 3 + q.d)) b q = if b = 0 ∧ q = .th then
          5 * (Real.exp (-t) - 4 * Real.exp (-(2 * t))) else 0 := by
      rw [World.conForce, hcs]
      simp only [sum_singleton, hrow, hbc, range_one, d.bodyOf, World.rowsOf, d.kind]
      cases q <;> by_cases hb : b = 0 <;> simp [hb, CKind.jT, Coord.d, eq_comm]
    rw [l, f]
    cases q <;> by_cases hb : b = 0 <;> simp [demoFall, hb]
  · have hc0 : c = 0 := by simpa [d.regC] using hc
    subst hc0
    have hj0 : j = 0 := by omega
    subst hj0
    simp only [World.rowAt, World.rowDot, hbc, sum_range_one, d.bodyOf, World.rowsOf, d.kind,
      Coord.sum, Coord.d, CKind.jT, CKind.jdT, CKind.cT, CKind.ksT, CKind.kdT, demoFall]
    have q2 : (demoFall t).q w 0 2 = (demoFall t).pos 0 .th := (q_one hbc (d.bodies 0 0)).2.2
    simp [demoFall] at q2 ⊢
    rw [q2]
    ring
  · have := d.solvable (d.rank_turns (turns_fixed _) (demoFall t)) trivial
      (by rw [d.full]; simp [CKind.counts]) (.inl (by simp))
    simpa [World.Solvable, d.sle] using this
  · rw [d.gens]
    trivial

/-- The claim applied to that system, with the Runge-Kutta solver: the angular velocity after two
seconds. -/
example : ∃ (h : List (Op ℝ)) (w : World ℝ), World.Hist Gen.Shipped .gen h w ∧ w.Standard h ∧
    w.ode = some (.rk4 newRk4) ∧ ∃ (N : Int) (E : ℝ), ∀ steps, N ≤ steps → ∀ env : Env ℝ,
      ∃ w', w.process .gen env 2 steps = .ok w' ∧
        |(w'.bodies 0).vel .th - 5 * (-Real.exp (-2) + 2 * Real.exp (-(2 * 2)))| ≤ E / steps := by
  obtain ⟨h, w, d, hs⟩ := demo_ode (.fixedRotation ⟨0, 2, 3⟩) (g := .gravity 9) trivial (cs := [0])
    (fg := [0]) (by decide) (by decide) .ge (o := .rk4 newRk4) (.inr (.inr rfl))
  have hst := d.standard (.inl (by simp [CKind.counts])) trivial
  obtain ⟨N, E, key⟩ := C92_converges (fun g => Gen.tame) d.hist hst d.sle d.ode (by decide)
    (fun _ => hs) (ne_empty_of_mem (d.mem0 rfl)) d.masses two_pos
    (demoFall_exact d.toDemoSys 2)
  refine ⟨h, w, d.hist, hst, d.ode, N, E, fun steps hn env => ?_⟩
  obtain ⟨w', e, k⟩ := key steps hn env
  exact ⟨w', e, (k 0 d.bodies_mem.1 .th).2⟩

end

end Scs
