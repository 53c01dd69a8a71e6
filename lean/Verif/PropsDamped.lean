import Verif.WorldDamped

/-!
# Constraint errors are damped oscillations

C93: the stiffness `ks` and the damping `kd` of a constraint determine how its error develops, and a
constraint that is satisfied stays satisfied up to an error that vanishes with more sub-steps.
-/

namespace Scs

open Finset

/-! ## C93 -/

section
variable {G : Gen ℝ → Prop} {h : List (Op ℝ)} {w w' : World ℝ} {env : Env ℝ} {dt : ℝ}
  {steps : Int} {o : Ode ℝ} {Y : ℝ → Motion} {lam : ℝ → Nat → Nat → ℝ}

/-- **C93** for the exact motion: along it the value `C` of each row of a fixed position, fixed
rotation, line, link or rolling constraint has the derivative `J v`, and `J v` has the derivative
`-ks C - kd J v`. The rest of the system has no influence. -/
theorem C93_exact_motion (hG : ∀ g, G g → g.OnlyForces) (hw : World.Hist G .gen h w)
    (hst : w.Standard h) {T : ℝ} (hY : w.ExactMotion h T Y lam) {c : Nat} (hc : c ∈ regCons h)
    {j : Nat} (hj : j < (w.cons c).rows) {t : ℝ} (ht : t ∈ Set.Icc 0 T) :
    ((w.cons c).kind.Positional → HasDerivWithinAt (fun s => (w.rowsOf (Y s) c).C j)
      (w.rowAt (w.rowsOf (Y t) c) c j (Y t).vel) (Set.Icc 0 T) t) ∧
    HasDerivWithinAt (fun s => w.rowAt (w.rowsOf (Y s) c) c j (Y s).vel)
      (-((w.rowsOf (Y t) c).ks j * (w.rowsOf (Y t) c).C j) -
        (w.rowsOf (Y t) c).kd j * w.rowAt (w.rowsOf (Y t) c) c j (Y t).vel) (Set.Icc 0 T) t :=
  hY.row hw.regs (hw.readyG hG hst.wired).2 (hst.proper hw.regs) hc hj ht

/-- **C93.** After `process` the value `C` of each row of such a constraint and its rate `J v` are,
up to a constant divided by the number of sub-steps, those of the damped oscillation
`z'' = -ks z - kd z'` that starts from their present values. -/
theorem C93_damped (hG : ∀ g, G g → g.OnlyForces) (hw : World.Hist G .gen h w)
    (hst : w.Standard h) (hs : w.sle = some .ge) (hode : w.ode = some o) (ho : o.sort ≠ 0)
    (hsync : o.sort = 3 → InSync h)
    (hm : ∀ b ∈ regBodies h, (w.bodies b).m ≠ 0 ∧ (w.bodies b).I ≠ 0) (hdt : 0 < dt)
    (hY : w.ExactMotion h dt Y lam) {c : Nat} (hc : c ∈ regCons h)
    (hp : (w.cons c).kind.Positional) {j : Nat} (hj : j < (w.cons c).rows) {z u : ℝ → ℝ}
    (h0 : z 0 = (w.rowsOf w.now c).C j ∧ u 0 = w.rowAt (w.rowsOf w.now c) c j w.now.vel)
    (hz : ∀ t ∈ Set.Icc 0 dt, HasDerivWithinAt z (u t) (Set.Icc 0 dt) t)
    (hu : ∀ t ∈ Set.Icc 0 dt, HasDerivWithinAt u
      (-((w.cons c).kind.ksT j * z t) - (w.cons c).kind.kdT j * u t) (Set.Icc 0 dt) t) :
    ∃ (N : Int) (E : ℝ), ∀ steps, N ≤ steps → ∀ env : Env ℝ,
      ∃ w', w.process .gen env dt steps = .ok w' ∧
        |(w'.rowsOf w'.now c).C j - z dt| ≤ E / steps ∧
        |w'.rowAt (w'.rowsOf w'.now c) c j w'.now.vel - u dt| ≤ E / steps := by
  have p := (hw.readyG hG hst.wired).2
  have hc' := (hw.regs.cons.mem c).mpr hc
  have hT : (dt : ℝ) ∈ Set.Icc 0 dt := ⟨hdt.le, le_rfl⟩
  -- the exact values
  have same0 : w.SameAs { Y 0 with acc := fun _ _ => 0 } w.now :=
    ⟨fun b hb q => (hY.start b ((hw.regs.bodies.mem b).mp hb) q).1,
      fun b hb q => (hY.start b ((hw.regs.bodies.mem b).mp hb) q).2, fun _ _ _ => rfl⟩
  have r0 : w.rowsOf (Y 0) c = w.rowsOf w.now c := rowsOf_congr p same0 hc'
  have v0 : w.rowAt (w.rowsOf w.now c) c j (Y 0).vel =
      w.rowAt (w.rowsOf w.now c) c j w.now.vel :=
    sum_congr rfl fun k hk => Coord.sum_congr fun q => by
      rw [same0.vel _ (p.bodies c hc' k (mem_range.mp hk)).2 q]
  obtain ⟨d1, d2⟩ := damped_unique hz hu
    (fun t ht => (C93_exact_motion hG hw hst hY hc hj ht).1 hp)
    (fun t ht => (C93_exact_motion hG hw hst hY hc hj ht).2)
    ⟨by rw [h0.1, r0], by rw [h0.2, r0, v0]⟩ hT
  rw [d1, d2]
  -- they depend smoothly on the motion
  have hlip : LipAt (fun y => ((w.rowsOf (w.motionOf y) c).C j,
      w.rowAt (w.rowsOf (w.motionOf y) c) c j (w.motionOf y).vel)) (w.pack (Y dt)) :=
    LipAt.prodMk (ContDiff.lipAt (cT_smooth _ (fun t => (q_smooth c t).1) _) _)
      (rowAt_lip _ _ fun b q => ContDiff.lipAt (motionOf_smooth b q).2 _)
  obtain ⟨L, U, hL, hU, key⟩ := hlip.weaken
  obtain ⟨ε, hε, hball⟩ := Metric.mem_nhds_iff.mp hU
  obtain ⟨N, E, conv⟩ := C92_converges hG hw hst hs hode ho hsync (ne_empty_of_mem hc) hm hdt hY
  obtain ⟨M, hM⟩ := exists_nat_gt (|E| / ε)
  have hMpos : (0 : ℝ) < M := lt_of_le_of_lt (by positivity) hM
  refine ⟨max N M, L * |E|, fun steps hsteps env => ?_⟩
  obtain ⟨w', e, hb⟩ := conv steps (le_of_max_le_left hsteps) env
  have hMs : (M : ℝ) ≤ steps := by exact_mod_cast le_of_max_le_right hsteps
  have hpos : (0 : ℝ) < steps := hMpos.trans_le hMs
  have hmv := C56_process_only_moves hw e
  have hn : ‖w.pack w'.now - w.pack (Y dt)‖ ≤ |E| / steps := by
    have hle : E / steps ≤ |E| / steps := div_le_div_of_nonneg_right (le_abs_self E) hpos.le
    refine norm_prod_le_iff.mpr ⟨?_, ?_⟩
    · refine (pi_norm_le_iff_of_nonneg (by positivity)).mpr fun i => ?_
      exact ((hb _ ((hw.regs.bodies.mem _).mp (List.mem_toFinset.mp i.1.2)) i.2).1).trans hle
    · refine (pi_norm_le_iff_of_nonneg (by positivity)).mpr fun i => ?_
      exact ((hb _ ((hw.regs.bodies.mem _).mp (List.mem_toFinset.mp i.1.2)) i.2).2).trans hle
  have hin : w.pack w'.now ∈ U := hball (by
    rw [Metric.mem_ball, dist_eq_norm]
    refine hn.trans_lt ?_
    rw [div_lt_iff₀ hpos]
    rw [div_lt_iff₀ hε] at hM
    nlinarith)
  have hdiff := (key _ hin _ (mem_of_mem_nhds hU)).trans (mul_le_mul_of_nonneg_left hn hL)
  rw [← mul_div_assoc] at hdiff
  -- what the bodies show
  have read : ∀ x : Motion, (w.rowsOf (w.motionOf (w.pack x)) c).C j = (w.rowsOf x c).C j ∧
      w.rowAt (w.rowsOf (w.motionOf (w.pack x)) c) c j (w.motionOf (w.pack x)).vel =
        w.rowAt (w.rowsOf x c) c j x.vel := fun x => by
    have s := pack_same (w := w) x
    have e1 : w.rowsOf x c = w.rowsOf (w.motionOf (w.pack x)) c := rowsOf_congr p s hc'
    refine ⟨by rw [e1], ?_⟩
    rw [← e1]
    refine sum_congr rfl fun k hk => Coord.sum_congr fun q => ?_
    rw [← s.vel _ (p.bodies c hc' k (mem_range.mp hk)).2 q]
  have hbo : ∀ k, w'.bodyOf c k = w.bodyOf c k := fun k => by
    rw [World.bodyOf, World.bodyOf, hmv.conBodies]
  have hrows : w'.rowsOf w'.now c = w.rowsOf w'.now c := by
    have hq : w'.now.q w' c = w'.now.q w c := funext fun t => by
      simp only [Motion.q, hmv.bodyCount, hbo]
    have hu : w'.now.u w' c = w'.now.u w c := funext fun t => by
      simp only [Motion.u, hmv.bodyCount, hbo]
    simp only [World.rowsOf, hmv.kind, hq, hu]
  have hat : ∀ oo v, w'.rowAt oo c j v = w.rowAt oo c j v := fun oo v => by
    simp only [World.rowAt, hmv.bodyCount, hbo]
  obtain ⟨a1, a2⟩ := read w'.now
  obtain ⟨b1, b2⟩ := read (Y dt)
  simp only [a1, a2, b1, b2] at hdiff
  have n1 := (norm_fst_le _).trans hdiff
  have n2 := (norm_snd_le _).trans hdiff
  refine ⟨w', e, ?_, ?_⟩
  · rw [hrows]
    exact n1
  · rw [hat, hrows]
    exact n2

/-- The claim applied to a body that is held at the angle 0 with `ks = 2` and `kd = 3` and turns at
first: the angle follows `z = 5 (exp(-t) - exp(-2t))`. -/
example : ∃ (h : List (Op ℝ)) (w : World ℝ), World.Hist Gen.Shipped .gen h w ∧
    ∃ (N : Int) (E : ℝ), ∀ steps, N ≤ steps → ∀ env : Env ℝ, ∃ w',
      w.process .gen env 2 steps = .ok w' ∧
      |(w'.rowsOf w'.now 0).C 0 - 5 * (Real.exp (-2) - Real.exp (-(2 * 2)))| ≤ E / steps := by
  obtain ⟨h, w, d, hs⟩ := demo_ode (.fixedRotation ⟨0, 2, 3⟩) (g := .gravity 9) trivial (cs := [0])
    (fg := [0]) (by decide) (by decide) .ge (o := .rk4 newRk4) (.inr (.inr rfl))
  have hst := d.standard (.inl (by simp [CKind.counts])) trivial
  have hbc : (w.cons 0).bodyCount = 1 := d.count 0
  have hY := demoFall_exact d.toDemoSys 2
  have q2 : w.now.q w 0 2 = w.now.pos 0 .th := (q_one hbc (d.bodies 0 0)).2.2
  have h0 : (demoFall 0).pos 0 .th = (w.rowsOf w.now 0).C 0 ∧
      (demoFall 0).vel 0 .th = w.rowAt (w.rowsOf w.now 0) 0 0 w.now.vel := by
    rw [rowAt_one _ _ _ hbc (d.bodies 0 0)]
    simp only [World.rowsOf, d.kind, CKind.cT, CKind.jT, q2]
    constructor
    · exact ((hY.start 0 d.bodies_mem.1 .th).1).trans (by show _ = (w.bodies 0).pos .th - 0; ring)
    · refine ((hY.start 0 d.bodies_mem.1 .th).2).trans ?_
      show _ = 0 * _ + 0 * _ + 1 * (w.bodies 0).vel .th
      ring
  obtain ⟨N, E, key⟩ := C93_damped (fun g => Gen.tame) d.hist hst d.sle d.ode (by decide)
    (fun _ => hs) d.masses two_pos hY (c := 0) (j := 0) (d.mem0 rfl)
    (by rw [d.kind]; trivial) (by rw [d.rows]; simp [CKind.counts])
    (z := fun t => (demoFall t).pos 0 .th) (u := fun t => (demoFall t).vel 0 .th) h0
    (fun t ht => hY.pos t ht 0 d.bodies_mem.1 .th)
    (fun t ht => (hY.vel t ht 0 d.bodies_mem.1 .th).congr_deriv (by
      rw [d.kind]
      simp only [demoFall, CKind.ksT, CKind.kdT, if_true]
      ring))
  refine ⟨h, w, d.hist, N, E, fun steps hn env => ?_⟩
  obtain ⟨w', e, k1, _⟩ := key steps hn env
  exact ⟨w', e, k1⟩

/-- **C93** for critical damping: with `ks = omega²` and `kd = 2 omega` the value `C` approaches 0
without oscillation, as `(C + (J v + omega C) t) exp(-omega t)`. -/
theorem C93_critically_damped (hG : ∀ g, G g → g.OnlyForces) (hw : World.Hist G .gen h w)
    (hst : w.Standard h) (hs : w.sle = some .ge) (hode : w.ode = some o) (ho : o.sort ≠ 0)
    (hsync : o.sort = 3 → InSync h)
    (hm : ∀ b ∈ regBodies h, (w.bodies b).m ≠ 0 ∧ (w.bodies b).I ≠ 0) (hdt : 0 < dt)
    (hY : w.ExactMotion h dt Y lam) {c : Nat} (hc : c ∈ regCons h)
    (hp : (w.cons c).kind.Positional) {j : Nat} (hj : j < (w.cons c).rows) {omega : ℝ}
    (hk : (w.cons c).kind.ksT j = omega ^ 2 ∧ (w.cons c).kind.kdT j = 2 * omega) :
    ∃ (N : Int) (E : ℝ), ∀ steps, N ≤ steps → ∀ env : Env ℝ,
      ∃ w', w.process .gen env dt steps = .ok w' ∧
        |(w'.rowsOf w'.now c).C j - ((w.rowsOf w.now c).C j +
          (w.rowAt (w.rowsOf w.now c) c j w.now.vel + omega * (w.rowsOf w.now c).C j) * dt) *
            Real.exp (-(omega * dt))| ≤ E / steps := by
  set A := (w.rowsOf w.now c).C j with hA
  set B := w.rowAt (w.rowsOf w.now c) c j w.now.vel with hB
  have e1 : ∀ t : ℝ, HasDerivAt (fun t : ℝ => Real.exp (-(omega * t)))
      (-omega * Real.exp (-(omega * t))) t := fun t => by
    have := ((hasDerivAt_id t).const_mul omega).neg.exp
    simp only [id_eq, mul_one] at this
    rw [mul_comm] at this
    exact this
  have e2 : ∀ a b t : ℝ, HasDerivAt (fun t : ℝ => a + b * t) b t := fun a b t => by
    have := ((hasDerivAt_id t).const_mul b).const_add a
    rw [mul_one] at this
    exact this
  obtain ⟨N, E, key⟩ := C93_damped hG hw hst hs hode ho hsync hm hdt hY hc hp hj
    (z := fun t => (A + (B + omega * A) * t) * Real.exp (-(omega * t)))
    (u := fun t => (B + (-omega * (B + omega * A)) * t) * Real.exp (-(omega * t))) (by simp [hA, hB])
    (fun t _ => (((e2 A (B + omega * A) t).mul (e1 t)).congr_deriv (by ring)).hasDerivWithinAt)
    (fun t _ => by
      rw [hk.1, hk.2]
      exact (((e2 B (-omega * (B + omega * A)) t).mul (e1 t)).congr_deriv
        (by ring)).hasDerivWithinAt)
  refine ⟨N, E, fun steps hn env => ?_⟩
  obtain ⟨w', e, k1, _⟩ := key steps hn env
  exact ⟨w', e, k1⟩

/-- The claim applied to two bodies that are linked at points apart from each other: the link pulls
them together as `-(1 + omega t) exp(-omega t)`. -/
example (omega : ℝ) : ∃ (h : List (Op ℝ)) (w : World ℝ), World.Hist Gen.Shipped .gen h w ∧
    ∃ dt : ℝ, 0 < dt ∧ ∃ (N : Int) (E : ℝ), ∀ steps, N ≤ steps → ∀ env : Env ℝ, ∃ w',
      w.process .gen env dt steps = .ok w' ∧
      |(w'.rowsOf w'.now 0).C 0 - (-1 - omega * dt) * Real.exp (-(omega * dt))| ≤ E / steps := by
  obtain ⟨h, w, d, hs⟩ := demo_ode (.link ⟨0, 0, 0, 0, 1, omega ^ 2, 2 * omega⟩)
    (g := .gravity 9) trivial (cs := [0]) (fg := [0]) (by decide) (by decide) .ge
    (o := .rk4 newRk4) (.inr (.inr rfl))
  have hst := d.standard (.inl (by simp [CKind.counts])) trivial
  have hi := d.solvable (d.rank_pins (pins_link _) w.now) trivial
    (by rw [d.full]; simp [CKind.counts]) (.inl (by simp))
  obtain ⟨T, hT, Y, lam, hY⟩ := C92_exact_motion_exists (fun g => Gen.tame) d.hist hst d.sle
    d.masses (by simpa [World.Solvable, d.sle] using hi) (fun g _ => by rw [d.gens]; trivial)
  have hbc : (w.cons 0).bodyCount = 2 := d.count 0
  obtain ⟨N, E, key⟩ := C93_critically_damped (fun g => Gen.tame) d.hist hst d.sle d.ode (by decide)
    (fun _ => hs) d.masses hT hY (c := 0) (j := 0) (omega := omega) (d.mem0 rfl)
    (by rw [d.kind]; trivial) (by rw [d.rows]; simp [CKind.counts])
    (by rw [d.kind]; exact ⟨rfl, rfl⟩)
  refine ⟨h, w, d.hist, T, hT, N, E, fun steps hn env => ?_⟩
  obtain ⟨w', e, k1⟩ := key steps hn env
  obtain ⟨q0, q1, q2, q3, q4, q5⟩ := q_two (x := w.now) hbc (d.bodies 0 0) (d.bodies 0 1)
  have hC : (w.rowsOf w.now 0).C 0 = -1 := by
    simp only [World.rowsOf, d.kind, CKind.cT, q0, q2, q3, q5, rx]
    show (w.bodies 0).pos .x + _ - ((w.bodies 1).pos .x + _) = _
    rw [d.pos, d.pos]
    simp [demoBody, Body.pos]
  have hV : w.rowAt (w.rowsOf w.now 0) 0 0 w.now.vel = 0 := by
    rw [rowAt_two _ _ _ hbc (d.bodies 0 0) (d.bodies 0 1)]
    simp only [World.rowsOf, d.kind, CKind.jT, q2, q5, ry]
    show 1 * (w.bodies 0).vel .x + 0 * _ + _ * _ + (-1 * (w.bodies 1).vel .x + 0 * _ + _ * _) = 0
    rw [d.vel, d.vel]
    simp [demoBody, Body.vel]
  rw [hC, hV] at k1
  refine ⟨w', e, ?_⟩
  have e3 : (-1 + (0 + omega * -1) * T) = (-1 - omega * T) := by ring
  rw [e3] at k1
  exact k1

/-- **C93**: a constraint that is satisfied, together with its rate of change, stays satisfied up to
a constant divided by the number of sub-steps. -/
theorem C93_stays_satisfied (hG : ∀ g, G g → g.OnlyForces) (hw : World.Hist G .gen h w)
    (hst : w.Standard h) (hs : w.sle = some .ge) (hode : w.ode = some o) (ho : o.sort ≠ 0)
    (hsync : o.sort = 3 → InSync h)
    (hm : ∀ b ∈ regBodies h, (w.bodies b).m ≠ 0 ∧ (w.bodies b).I ≠ 0) (hdt : 0 < dt)
    (hY : w.ExactMotion h dt Y lam) {c : Nat} (hc : c ∈ regCons h)
    (hp : (w.cons c).kind.Positional) {j : Nat} (hj : j < (w.cons c).rows)
    (h0 : (w.rowsOf w.now c).C j = 0 ∧ w.rowAt (w.rowsOf w.now c) c j w.now.vel = 0) :
    ∃ (N : Int) (E : ℝ), ∀ steps, N ≤ steps → ∀ env : Env ℝ,
      ∃ w', w.process .gen env dt steps = .ok w' ∧
        |(w'.rowsOf w'.now c).C j| ≤ E / steps ∧
        |w'.rowAt (w'.rowsOf w'.now c) c j w'.now.vel| ≤ E / steps := by
  obtain ⟨N, E, key⟩ := C93_damped hG hw hst hs hode ho hsync hm hdt hY hc hp hj (z := fun _ => 0)
    (u := fun _ => 0) ⟨h0.1.symm, h0.2.symm⟩ (fun _ _ => hasDerivWithinAt_const _ _ _)
    (fun _ _ => by
      simp only [mul_zero, neg_zero, sub_zero]
      exact hasDerivWithinAt_const _ _ _)
  simp only [sub_zero] at key
  exact ⟨N, E, key⟩

/-- **C93** for links: two linked points that coincide and have equal velocities still do after
`process`, up to a constant divided by the number of sub-steps, whatever `ks` and `kd` are. -/
theorem C93_link (hG : ∀ g, G g → g.OnlyForces) (hw : World.Hist G .gen h w)
    (hst : w.Standard h) (hs : w.sle = some .ge) (hode : w.ode = some o) (ho : o.sort ≠ 0)
    (hsync : o.sort = 3 → InSync h)
    (hm : ∀ b ∈ regBodies h, (w.bodies b).m ≠ 0 ∧ (w.bodies b).I ≠ 0) (hdt : 0 < dt)
    (hY : w.ExactMotion h dt Y lam) {c b1 b2 : Nat} (hc : c ∈ regCons h) {l : Link ℝ}
    (hk : (w.cons c).kind = .link l) (h1 : (w.cons c).bodies 0 = .obj b1)
    (h2 : (w.cons c).bodies 1 = .obj b2)
    (hp : w.now.point b1 l.local_x_1 l.local_y_1 = w.now.point b2 l.local_x_2 l.local_y_2)
    (hv : w.now.pointVel b1 l.local_x_1 l.local_y_1 =
      w.now.pointVel b2 l.local_x_2 l.local_y_2) :
    ∃ (N : Int) (E : ℝ), ∀ steps, N ≤ steps → ∀ env : Env ℝ,
      ∃ w', w.process .gen env dt steps = .ok w' ∧
        ‖w'.now.point b1 l.local_x_1 l.local_y_1 - w'.now.point b2 l.local_x_2 l.local_y_2‖ ≤
          E / steps ∧
        ‖w'.now.pointVel b1 l.local_x_1 l.local_y_1 -
          w'.now.pointVel b2 l.local_x_2 l.local_y_2‖ ≤ E / steps := by
  have hcount := hst.kind c hc
  simp only [hk, CKind.counts, Option.some.injEq, Prod.mk.injEq] at hcount
  obtain ⟨hr, hn⟩ := hcount
  have show_ : ∀ v : World ℝ, (v.cons c).kind = .link l → (v.cons c).bodyCount = 2 →
      (v.cons c).bodies 0 = .obj b1 → (v.cons c).bodies 1 = .obj b2 →
      ((v.rowsOf v.now c).C 0, (v.rowsOf v.now c).C 1) =
        v.now.point b1 l.local_x_1 l.local_y_1 - v.now.point b2 l.local_x_2 l.local_y_2 ∧
      (v.rowAt (v.rowsOf v.now c) c 0 v.now.vel, v.rowAt (v.rowsOf v.now c) c 1 v.now.vel) =
        v.now.pointVel b1 l.local_x_1 l.local_y_1 -
          v.now.pointVel b2 l.local_x_2 l.local_y_2 := by
    intro v hk hn h1 h2
    obtain ⟨q0, q1, q2, q3, q4, q5⟩ := q_two (x := v.now) hn h1 h2
    rw [rowAt_two _ _ _ hn h1 h2, rowAt_two _ _ _ hn h1 h2]
    simp only [World.rowsOf, hk, CKind.jT, CKind.cT, q0, q1, q2, q3, q4, q5, rx, ry]
    refine ⟨Prod.ext rfl rfl, Prod.ext ?_ ?_⟩
    · simp only [Motion.pointVel, Motion.point, Prod.fst_sub]; ring
    · simp only [Motion.pointVel, Motion.point, Prod.snd_sub]; ring
  obtain ⟨s1, s2⟩ := show_ w hk hn.symm h1 h2
  rw [hp, sub_self] at s1
  rw [hv, sub_self] at s2
  have z1 := Prod.ext_iff.mp s1
  have z2 := Prod.ext_iff.mp s2
  have hpos : (w.cons c).kind.Positional := by rw [hk]; trivial
  obtain ⟨N, E, key⟩ := C93_stays_satisfied hG hw hst hs hode ho hsync hm hdt hY hc hpos (j := 0)
    (by omega) ⟨z1.1, z2.1⟩
  obtain ⟨N', E', key'⟩ := C93_stays_satisfied hG hw hst hs hode ho hsync hm hdt hY hc hpos
    (j := 1) (by omega) ⟨z1.2, z2.2⟩
  refine ⟨max 1 (max N N'), max E E', fun steps hsteps env => ?_⟩
  have hs1 : 1 ≤ steps := le_of_max_le_left hsteps
  have hpos : (0 : ℝ) ≤ steps := by exact_mod_cast (by omega : 0 ≤ steps)
  obtain ⟨w', e, k1, k2⟩ := key steps (le_of_max_le_left (le_of_max_le_right hsteps)) env
  obtain ⟨w'', e', k1', k2'⟩ := key' steps (le_of_max_le_right (le_of_max_le_right hsteps)) env
  rw [e] at e'
  cases e'
  have hmv := C56_process_only_moves hw e
  obtain ⟨t1, t2⟩ := show_ w' (by rw [hmv.kind, hk]) (by rw [hmv.bodyCount, hn])
    (by rw [hmv.conBodies, h1]) (by rw [hmv.conBodies, h2])
  have m1 : E / steps ≤ max E E' / steps := div_le_div_of_nonneg_right (le_max_left _ _) hpos
  have m2 : E' / steps ≤ max E E' / steps := div_le_div_of_nonneg_right (le_max_right _ _) hpos
  refine ⟨w', e, ?_, ?_⟩
  · rw [← t1]
    exact norm_prod_le_iff.mpr ⟨k1.trans m1, k1'.trans m2⟩
  · rw [← t2]
    exact norm_prod_le_iff.mpr ⟨k2.trans m1, k2'.trans m2⟩

/-- The claims applied to two bodies linked at a common point. -/
example (ks kd : ℝ) : ∃ (h : List (Op ℝ)) (w : World ℝ), World.Hist Gen.Shipped .gen h w ∧
    ∃ dt : ℝ, 0 < dt ∧ ∃ (N : Int) (E : ℝ), ∀ steps, N ≤ steps → ∀ env : Env ℝ, ∃ w',
      w.process .gen env dt steps = .ok w' ∧
      ‖w'.now.point 0 0 0 - w'.now.point 1 (-1) (-2)‖ ≤ E / steps := by
  obtain ⟨h, w, d, hs⟩ := demo_ode (.link ⟨0, 0, -1, -2, 1, ks, kd⟩)
    (g := .gravity 9) trivial (cs := [0]) (fg := [0]) (by decide) (by decide) .ge
    (o := .rk4 newRk4) (.inr (.inr rfl))
  have hst := d.standard (.inl (by simp [CKind.counts])) trivial
  have hi := d.solvable (d.rank_pins (pins_link _) w.now) trivial
    (by rw [d.full]; simp [CKind.counts]) (.inl (by simp))
  obtain ⟨T, hT, Y, lam, hY⟩ := C92_exact_motion_exists (fun g => Gen.tame) d.hist hst d.sle
    d.masses (by simpa [World.Solvable, d.sle] using hi) (fun g _ => by rw [d.gens]; trivial)
  have ep : ∀ b q, w.now.pos b q = (demoBody b).pos q := fun b q => d.pos b q
  have ev : ∀ b q, w.now.vel b q = (demoBody b).vel q := fun b q => d.vel b q
  obtain ⟨N, E, key⟩ := C93_link (fun g => Gen.tame) d.hist hst d.sle d.ode (by decide)
    (fun _ => hs) d.masses hT hY (d.mem0 rfl) (d.kind 0) (d.bodies 0 0) (d.bodies 0 1)
    (by simp [Motion.point, ep, demoBody, Body.pos])
    (by simp [Motion.pointVel, Motion.point, ep, ev, demoBody, Body.pos, Body.vel])
  refine ⟨h, w, d.hist, T, hT, N, E, fun steps hn env => ?_⟩
  obtain ⟨w', e, k1, _⟩ := key steps hn env
  exact ⟨w', e, k1⟩

end

end Scs
