import Verif.PropsNoise
import Verif.PropsSpin

/-!
# Conserved quantities with the iterative solvers

C111: with Gauss-Seidel and with conjugate gradients the mechanical energy and the angular momentum are
kept up to the length of the sub-steps and the tolerance of the solver.
-/

namespace Scs

open Finset

/-! ## C111 -/

section
variable {G : Gen ℝ → Prop} {h h2 : List (Op ℝ)} {w v v' : World ℝ} {dt : ℝ}
  {Y : ℝ → Motion} {lam : ℝ → Nat → Nat → ℝ} {cls cls2 : Cls}

/-- What depends smoothly on positions and velocities is as accurate as they are. -/
theorem carry_near (r : w.Regs cls h) {F : w.Pt × w.Pt → ℝ} (hF : LipAt F (w.pack (Y dt))) :
    ∃ η L : ℝ, 0 < η ∧ 0 ≤ L ∧ ∀ (x : Motion) (ε : ℝ), 0 ≤ ε → ε ≤ η →
      (∀ b ∈ regBodies h, ∀ q : Coord, |x.pos b q - (Y dt).pos b q| ≤ ε ∧
        |x.vel b q - (Y dt).vel b q| ≤ ε) →
      |F (w.pack x) - F (w.pack (Y dt))| ≤ L * ε := by
  obtain ⟨L, U, hL, hU, key⟩ := hF.weaken
  obtain ⟨ε0, hε0, hball⟩ := Metric.mem_nhds_iff.mp hU
  refine ⟨ε0 / 2, L, by positivity, hL, fun x ε hε hle hb => ?_⟩
  have hn : ‖w.pack x - w.pack (Y dt)‖ ≤ ε := by
    refine norm_prod_le_iff.mpr ⟨?_, ?_⟩
    · refine (pi_norm_le_iff_of_nonneg hε).mpr fun i => ?_
      exact (hb _ ((r.bodies.mem _).mp (List.mem_toFinset.mp i.1.2)) i.2).1
    · refine (pi_norm_le_iff_of_nonneg hε).mpr fun i => ?_
      exact (hb _ ((r.bodies.mem _).mp (List.mem_toFinset.mp i.1.2)) i.2).2
  have hin : w.pack x ∈ U := hball (by
    rw [Metric.mem_ball, dist_eq_norm]
    linarith)
  exact (key _ hin _ (mem_of_mem_nhds hU)).trans (mul_le_mul_of_nonneg_left hn hL)

theorem potOf_mass (g : Gen ℝ) {m m' : Nat → ℝ} {S : Finset Nat} (hm : ∀ b ∈ S, m b = m' b)
    (x : Motion) : g.potOf m S x = g.potOf m' S x := by
  cases g with
  | gravity a => exact sum_congr rfl fun b hb => by rw [hm b hb]
  | _ => rfl

/-- The energy of a scene that has the same bodies up to their motion, and the same force generators. -/
theorem mechanical_same (r : w.Regs cls h) (hB : regBodies h = regBodies h2)
    (hg : regGens h = regGens h2)
    (hm : ∀ b ∈ regBodies h, (v.bodies b).m = (w.bodies b).m ∧ (v.bodies b).I = (w.bodies b).I)
    (he : ∀ g ∈ regGens h, v.gens g = w.gens g) : v.mechanical h2 = w.mechOf v.now := by
  rw [World.mechanical, World.mechOf, World.energyOf, r.rb_finset, r.fg_finset, ← hB, ← hg]
  congr 1
  · refine sum_congr rfl fun b hb => ?_
    obtain ⟨e1, e2⟩ := hm b hb
    simp only [Body.energy, Coord.sum, Body.mass, World.now, Body.vel, fp_lit, e1, e2]
    push_cast
    ring
  · refine sum_congr rfl fun g hg => ?_
    rw [stored_now, he g hg]
    exact potOf_mass _ (fun b hb => (hm b hb).1) _

/-- The angular momentum of such a scene. -/
theorem angular_same (r : w.Regs cls h)
    (hm : ∀ b ∈ regBodies h, (v.bodies b).m = (w.bodies b).m ∧ (v.bodies b).I = (w.bodies b).I) :
    v.angular (regBodies h) = w.spin v.now := by
  rw [World.angular, World.spin, r.rb_finset]
  refine sum_congr rfl fun b hb => ?_
  obtain ⟨e1, e2⟩ := hm b hb
  simp only [Motion.moment, Body.mass, e1, e2, World.now, Body.pos, Body.vel]
  ring

/-- The energy after a call, if the result of the call is near the exact motion. -/
theorem World.HeldMotion.energy_near (hw : World.Hist G cls h w) (p : w.Placed) (hd : w.Driven)
    (hdt : 0 < dt) (hY : w.HeldMotion h dt Y lam)
    (hz : ∀ c ∈ regCons h, ∀ j, j < (w.cons c).rows → (w.rowsOf w.now c).v_bias j = 0)
    (hg : ∀ g ∈ regGens h, (w.gens g).Damping w.bodies) :
    ∃ η L : ℝ, 0 < η ∧ 0 ≤ L ∧ ∀ (h2 : List (Op ℝ)) (v v' : World ℝ) (ε : ℝ),
      SameButLimits h w h2 v → v.Moves v' → 0 ≤ ε → ε ≤ η →
      (∀ b ∈ regBodies h, ∀ q : Coord, |(v'.bodies b).pos q - (Y dt).pos b q| ≤ ε ∧
        |(v'.bodies b).vel q - (Y dt).vel b q| ≤ ε) →
      v'.mechanical h2 ≤ v.mechanical h2 + L * ε ∧
      ((∀ g ∈ regGens h, (w.gens g).Elastic w.bodies) →
        |v'.mechanical h2 - v.mechanical h2| ≤ L * ε) := by
  obtain ⟨hst, e0, der⟩ := hY.energy hw.regs p hd hdt hz hg
  have hT : dt ∈ Set.Icc 0 dt := ⟨hdt.le, le_rfl⟩
  have s : ∀ x : Motion, w.mechOf (w.motionOf (w.pack x)) = w.mechOf x := fun x =>
    mechOf_congr hd (fun b hb q => motionOf_pos _ hb q) (fun b hb q => motionOf_vel _ hb q)
  obtain ⟨η, L, hη, hL, key⟩ := carry_near hw.regs (mech_lip (w := w) (y := w.pack (Y dt)) fun g hg' =>
    (hst dt hT g hg').congr (hd.2 g hg') fun b hb q => (motionOf_pos (w.pack (Y dt)) hb q).symm)
  refine ⟨η, L, hη, hL, fun h2 v v' ε same mv hε hle hb => ?_⟩
  have k := key v'.now ε hε hle hb
  rw [s, s] at k
  have hm' : ∀ b ∈ regBodies h, (v'.bodies b).m = (w.bodies b).m ∧
      (v'.bodies b).I = (w.bodies b).I := fun b hb =>
    ⟨(mv.mass b).trans (same.bodies b hb).2.2.1, (mv.inertia b).trans (same.bodies b hb).2.2.2⟩
  have hge : ∀ g ∈ regGens h, v'.gens g = w.gens g := fun g hg' => by
    rw [mv.gens]; exact same.gens g hg'
  have e1 : v'.mechanical h2 = w.mechOf v'.now :=
    mechanical_same hw.regs same.rb same.fg hm' hge
  have e2 : v.mechanical h2 = w.mechOf (Y 0) := by
    rw [mechanical_same hw.regs same.rb same.fg (fun b hb => (same.bodies b hb).2.2) same.gens, e0]
    refine mechOf_congr hd (fun b hb q => ?_) (fun b hb q => ?_)
    · exact congrFun (same.bodies b ((hw.regs.bodies.mem b).mp hb)).1 q
    · exact congrFun (same.bodies b ((hw.regs.bodies.mem b).mp hb)).2.1 q
  rw [e1, e2]
  constructor
  · have hl : ∀ x, 0 ≤ w.lossOf x := fun x => sum_nonneg fun g hg' =>
      (hg g ((hw.regs.gens.mem g).mp (List.mem_toFinset.mp hg'))).stretched.2 x
    have h1 := energy_lost hdt der fun t => hl _
    have h2 := (abs_le.mp k).2
    linarith
  · intro hel
    have hl : ∀ x, w.lossOf x = 0 := fun x => sum_eq_zero fun g hg' =>
      (hel g ((hw.regs.gens.mem g).mp (List.mem_toFinset.mp hg'))).stretched.2.2 x
    rw [← energy_kept hdt fun t ht => (der t ht).congr_deriv (by rw [hl, neg_zero])]
    exact k

/-- The angular momentum after a call, if the result of the call is near the exact motion. -/
theorem World.HeldMotion.spin_near (hw : World.Hist G cls h w) (p : w.Placed) (pr : w.Proper)
    (hd : w.Driven) (hdt : 0 < dt) (hY : w.HeldMotion h dt Y lam)
    (hk : ∀ c ∈ regCons h, (w.cons c).kind.Joint) (hg : ∀ g ∈ regGens h, (w.gens g).Central) :
    ∃ η L : ℝ, 0 < η ∧ 0 ≤ L ∧ ∀ (h2 : List (Op ℝ)) (v v' : World ℝ) (ε : ℝ),
      SameButLimits h w h2 v → v.Moves v' → 0 ≤ ε → ε ≤ η →
      (∀ b ∈ regBodies h, ∀ q : Coord, |(v'.bodies b).pos q - (Y dt).pos b q| ≤ ε ∧
        |(v'.bodies b).vel q - (Y dt).vel b q| ≤ ε) →
      |v'.angular (regBodies h2) - v.angular (regBodies h2)| ≤ L * ε := by
  have s : ∀ x : Motion, w.spin (w.motionOf (w.pack x)) = w.spin x := fun x =>
    spin_congr (fun b hb q => motionOf_pos _ hb q) (fun b hb q => motionOf_vel _ hb q)
  obtain ⟨η, L, hη, hL, key⟩ := carry_near hw.regs (spin_lip (w := w) (w.pack (Y dt)))
  refine ⟨η, L, hη, hL, fun h2 v v' ε same mv hε hle hb => ?_⟩
  have k := key v'.now ε hε hle hb
  rw [s, s, hY.spin hw.regs p pr hd hdt hk hg] at k
  have hm' : ∀ b ∈ regBodies h, (v'.bodies b).m = (w.bodies b).m ∧
      (v'.bodies b).I = (w.bodies b).I := fun b hb =>
    ⟨(mv.mass b).trans (same.bodies b hb).2.2.1, (mv.inertia b).trans (same.bodies b hb).2.2.2⟩
  have e2 : w.spin v.now = w.spin w.now := spin_congr
    (fun b hb q => congrFun (same.bodies b ((hw.regs.bodies.mem b).mp hb)).1 q)
    (fun b hb q => congrFun (same.bodies b ((hw.regs.bodies.mem b).mp hb)).2.1 q)
  rw [← same.rb, angular_same hw.regs hm', angular_same hw.regs fun b hb => (same.bodies b hb).2.2, e2]
  exact k

/-- Small tolerances and many sub-steps make the bound small. -/
theorem exists_fine (E : ℝ) {η : ℝ} (hη : 0 < η) : ∃ (N : Int) (d0 : ℝ), 0 < d0 ∧
    ∀ (steps : Int) (d : ℝ), N ≤ steps → 0 ≤ d → d ≤ d0 →
      0 ≤ |E| * (1 / steps + d) ∧ |E| * (1 / steps + d) ≤ η ∧
        E * (1 / steps + d) ≤ |E| * (1 / steps + d) := by
  have hE : 0 < |E| + 1 := by positivity
  obtain ⟨N, hN⟩ := exists_nat_gt (2 * (|E| + 1) / η)
  have hNpos : (0 : ℝ) < N := lt_of_le_of_lt (by positivity) hN
  refine ⟨N, η / (2 * (|E| + 1)), by positivity, fun steps d hs hd hd0 => ?_⟩
  have hsN : (N : ℝ) ≤ steps := by exact_mod_cast hs
  have hpos : (0 : ℝ) < steps := hNpos.trans_le hsN
  have h0 : 0 ≤ 1 / (steps : ℝ) + d := by positivity
  refine ⟨by positivity, ?_, mul_le_mul_of_nonneg_right (le_abs_self E) h0⟩
  have h1 : 1 / (steps : ℝ) ≤ η / (2 * (|E| + 1)) := by
    rw [div_le_div_iff₀ hpos (by positivity)]
    rw [div_lt_iff₀ hη] at hN
    nlinarith
  have h2 : 1 / (steps : ℝ) + d ≤ η / (|E| + 1) := by
    have : η / (|E| + 1) = η / (2 * (|E| + 1)) + η / (2 * (|E| + 1)) := by field_simp; ring
    linarith
  calc |E| * (1 / steps + d) ≤ (|E| + 1) * (η / (|E| + 1)) :=
        mul_le_mul (by linarith) h2 h0 hE.le
    _ = η := by field_simp

/-- Two linked bodies with an undamped spring between them and an exact motion of them. -/
theorem demo_sprung : ∃ (h : List (Op ℝ)) (w : World ℝ) (T : ℝ) (Y : ℝ → Motion)
    (lam : ℝ → Nat → Nat → ℝ), Demo (.link ⟨0, 0, -1, -2, 1, 0, 0⟩)
      (.spring ⟨1, 7, 0, 0, 0, 0, 0, .obj 0, .obj 1⟩) [0] [0] .ge h w ∧ w.Standard h ∧ 0 < T ∧
      w.HeldMotion h T Y lam ∧
      (∀ c ∈ regCons h, ∀ j, j < (w.cons c).rows → (w.rowsOf w.now c).v_bias j = 0) ∧
      (∀ g ∈ regGens h, (w.gens g).Elastic w.bodies) := by
  obtain ⟨h, w, d⟩ := demo (.link ⟨0, 0, -1, -2, 1, 0, 0⟩)
    (g := .spring ⟨1, 7, 0, 0, 0, 0, 0, .obj 0, .obj 1⟩) trivial (cs := [0]) (fg := [0]) (by decide)
    (by decide) .ge
  have hst := d.standard (.inl (by simp [CKind.counts]))
    (.inr ⟨⟨0, by simp, rfl⟩, .inr ⟨1, by simp, rfl⟩⟩)
  have hi := d.solvable (d.rank_pins (pins_link _) w.now) trivial
    (by rw [d.full]; simp [CKind.counts]) (.inl (by simp))
  have hh := linked_start d.toDemoSys
  have ha := centres_apart d.toDemoSys
  obtain ⟨T, hT, Y, lam, hY⟩ := C95_exact_motion_exists (fun g => Gen.tame) d.hist hst d.masses
    (fun c hc j hj => ⟨(hh c hc j hj).1, by rw [(hh c hc j hj).2.1, (hh c hc j hj).2.2, add_zero]⟩)
    (by simpa [World.Solvable, d.sle] using hi) (fun g _ => by
      rw [d.gens]
      intro b1 b2 e1 e2
      cases e1
      cases e2
      exact ha.ne')
  refine ⟨h, w, T, Y, lam, d, hst, hT, hY, fun c hc j hj => (hh c hc j hj).2.2, fun g _ => ?_⟩
  rw [d.gens]
  refine ⟨rfl, fun b1 b2 e1 e2 => ?_⟩
  cases e1
  cases e2
  rw [← now_point, ← now_point]
  exact ha

/-- The same bodies in a system with Gauss-Seidel and a strong link: with enough iterations the call
succeeds. -/
theorem demo_strong {h : List (Op ℝ)} {w : World ℝ} (d : Demo (.link ⟨0, 0, -1, -2, 1, 0, 0⟩)
    (.spring ⟨1, 7, 0, 0, 0, 0, 0, .obj 0, .obj 1⟩) [0] [0] .ge h w) {T e : ℝ} (hT : 0 < T)
    (he : 0 < e) (B : ℝ) (steps : Int) (env : Env ℝ) : ∃ (h2 : List (Op ℝ)) (v v' : World ℝ) (m : Nat),
      World.Hist Gen.Shipped .opt h2 v ∧ v.Standard h2 ∧ v.Sensible h2 ∧ SameButLimits h w h2 v ∧
      v.bias = w.bias ∧ v.sle = some (.gs m e) ∧ (∀ c ∈ regCons h, (v.cons c).kind.loT ≤ -B ∧
        B ≤ (v.cons c).kind.hiT) ∧ v.process .opt env T steps = .ok v' := by
  obtain ⟨h2, v, d2⟩ := demo (.link ⟨0, 0, -1, -2, |B|, 0, 0⟩)
    (g := .spring ⟨1, 7, 0, 0, 0, 0, 0, .obj 0, .obj 1⟩) trivial (cs := [0]) (fg := [0]) (by decide)
    (by decide) .ge
  have hst2 := d2.standard (.inl (by simp [CKind.counts]))
    (.inr ⟨⟨0, by simp, rfl⟩, .inr ⟨1, by simp, rfl⟩⟩)
  have hsen := d2.sensible (abs_nonneg B) trivial
  have same := d.butLimits d2.toDemoSys rfl rfl
  obtain ⟨M, v', run⟩ := C85_enough_iterations (fun g => Gen.tame) d2.hist hst2 hsen he hT env steps
  exact ⟨.init (some (.gs M e)) none :: h2, _, _, M, d2.hist.gs M e,
    ⟨hst2.kind, hst2.bodies, hst2.gens, hst2.near⟩,
    ⟨hsen.mass, hsen.ordered, hsen.directed, hsen.apart⟩,
    ⟨same.rb, same.cs, same.fg, same.bodies, same.kind, same.rows, same.count, same.at_, same.gens⟩,
    by rw [d.bias]; exact d2.bias, rfl, fun c _ => by
      show (v.cons c).kind.loT ≤ _ ∧ _ ≤ (v.cons c).kind.hiT
      rw [d2.kind]
      exact ⟨neg_le_neg (le_abs_self _), le_abs_self _⟩, run M le_rfl⟩

/-- **C111.** With Gauss-Seidel the optimized system conserves the mechanical energy of a scene of gravity,
constant forces and undamped springs, whose constraints hold at the start and drive nothing, up to a
constant times the length of a sub-step plus the tolerance; if springs are damped, it does not increase by
more. The force limits have to be large enough for the motion. -/
theorem C111_gauss_seidel_energy (hG : ∀ g, G g → g.OnlyForces) (hw : World.Hist G .opt h w)
    (hst : w.Standard h) (hb0 : 0 < w.bias) (hb2 : w.bias < 2)
    (hm : ∀ b ∈ regBodies h, 0 < (w.bodies b).m ∧ 0 < (w.bodies b).I) (hdt : 0 < dt)
    (hY : w.HeldMotion h dt Y lam)
    (hz : ∀ c ∈ regCons h, ∀ j, j < (w.cons c).rows → (w.rowsOf w.now c).v_bias j = 0)
    (hg : ∀ g ∈ regGens h, (w.gens g).Damping w.bodies) :
    ∃ (N : Int) (d0 F E : ℝ), 0 < d0 ∧ ∀ (h2 : List (Op ℝ)) (v v' : World ℝ),
      World.Hist G .opt h2 v → v.Standard h2 → v.Sensible h2 → SameButLimits h w h2 v →
      v.bias = w.bias → ∀ (m : Nat) (d : ℝ), v.sle = some (.gs m d) → 0 < d → d ≤ d0 →
      ∀ steps : Int, N ≤ steps →
      (∀ c ∈ regCons h, (v.cons c).kind.loT ≤ -(F * (1 + d * steps)) ∧
        F * (1 + d * steps) ≤ (v.cons c).kind.hiT) →
      ∀ env : Env ℝ, v.process .opt env dt steps = .ok v' →
        v'.mechanical h2 ≤ v.mechanical h2 + E * (1 / steps + d) ∧
        ((∀ g ∈ regGens h, (w.gens g).Elastic w.bodies) →
          |v'.mechanical h2 - v.mechanical h2| ≤ E * (1 / steps + d)) := by
  obtain ⟨N, d0, F, E, hd0, key⟩ := C99_gauss_seidel hG hw hst hb0 hb2 hm hdt hY
  obtain ⟨η, L, hη, hL, near⟩ := hY.energy_near hw (hw.ready hG hst.wired).2 (hst.driven hw.regs) hdt hz hg
  obtain ⟨N2, d2, hd2, fine⟩ := exists_fine E hη
  refine ⟨max N N2, min d0 d2, F, L * |E|, lt_min hd0 hd2, ?_⟩
  intro h2 v v' hv hst2 hsen same hbias m d hsle hd hdd steps hs hlim env ev
  obtain ⟨f1, f2, f3⟩ := fine steps d (le_of_max_le_right hs) hd.le (hdd.trans (min_le_right _ _))
  have hb := (key h2 v v' hv hst2 hsen same hbias m d hsle hd (hdd.trans (min_le_left _ _)) steps
    (le_of_max_le_left hs) hlim env ev).1
  have := near h2 v v' _ same (C56_process_only_moves hv ev) f1 f2
    fun b hb' q => ⟨(hb b hb' q).1.trans f3, (hb b hb' q).2.trans f3⟩
  rwa [← mul_assoc] at this

/-- The claim applied to two linked bodies with a spring between them. -/
example : ∃ (T : ℝ) (N : Int) (d0 E : ℝ), 0 < T ∧ 0 < d0 ∧ ∀ d : ℝ, 0 < d → d ≤ d0 →
    ∀ steps : Int, N ≤ steps → ∀ env : Env ℝ, ∃ (h : List (Op ℝ)) (w w' : World ℝ) (m : Nat),
      World.Hist Gen.Shipped .opt h w ∧ regBodies h = {0, 1} ∧ w.sle = some (.gs m d) ∧
      w.process .opt env T steps = .ok w' ∧
      |w'.mechanical h - w.mechanical h| ≤ E * (1 / steps + d) := by
  obtain ⟨h, w, T, Y, lam, d, hst, hT, hY, hz, hg⟩ := demo_sprung
  obtain ⟨N, d0, F, E, hd0, key⟩ := C111_gauss_seidel_energy (fun g => Gen.tame) d.hist hst
    (by rw [d.bias]; norm_num) (by rw [d.bias]; norm_num)
    (fun b _ => by rw [d.m, d.I]; exact ⟨one_pos, one_pos⟩) hT hY hz (fun g h => (hg g h).stretched.2.1)
  refine ⟨T, N, d0, E, hT, hd0, fun e he hed steps hs env => ?_⟩
  obtain ⟨h2, v, v', m, hv, hst2, hsen, same, hbias, hsle, hlim, ev⟩ :=
    demo_strong d hT he (F * (1 + e * steps)) steps env
  exact ⟨h2, v, v', m, hv, by rw [← same.rb, d.regB], hsle, ev,
    (key h2 v v' hv hst2 hsen same hbias m e hsle he hed steps hs hlim env ev).2 hg⟩

/-- **C111.** With Gauss-Seidel the optimized system conserves the angular momentum of bodies joined by
links, clutches, undamped springs and motors in the same sense. -/
theorem C111_gauss_seidel_angular (hG : ∀ g, G g → g.OnlyForces) (hw : World.Hist G .opt h w)
    (hst : w.Standard h) (hb0 : 0 < w.bias) (hb2 : w.bias < 2)
    (hm : ∀ b ∈ regBodies h, 0 < (w.bodies b).m ∧ 0 < (w.bodies b).I) (hdt : 0 < dt)
    (hY : w.HeldMotion h dt Y lam)
    (hk : ∀ c ∈ regCons h, (w.cons c).kind.Joint) (hg : ∀ g ∈ regGens h, (w.gens g).Central) :
    ∃ (N : Int) (d0 F E : ℝ), 0 < d0 ∧ ∀ (h2 : List (Op ℝ)) (v v' : World ℝ),
      World.Hist G .opt h2 v → v.Standard h2 → v.Sensible h2 → SameButLimits h w h2 v →
      v.bias = w.bias → ∀ (m : Nat) (d : ℝ), v.sle = some (.gs m d) → 0 < d → d ≤ d0 →
      ∀ steps : Int, N ≤ steps →
      (∀ c ∈ regCons h, (v.cons c).kind.loT ≤ -(F * (1 + d * steps)) ∧
        F * (1 + d * steps) ≤ (v.cons c).kind.hiT) →
      ∀ env : Env ℝ, v.process .opt env dt steps = .ok v' →
        |v'.angular (regBodies h2) - v.angular (regBodies h2)| ≤ E * (1 / steps + d) := by
  obtain ⟨N, d0, F, E, hd0, key⟩ := C99_gauss_seidel hG hw hst hb0 hb2 hm hdt hY
  obtain ⟨η, L, hη, hL, near⟩ := hY.spin_near hw (hw.ready hG hst.wired).2 (hst.proper hw.regs)
    (hst.driven hw.regs) hdt hk hg
  obtain ⟨N2, d2, hd2, fine⟩ := exists_fine E hη
  refine ⟨max N N2, min d0 d2, F, L * |E|, lt_min hd0 hd2, ?_⟩
  intro h2 v v' hv hst2 hsen same hbias m d hsle hd hdd steps hs hlim env ev
  obtain ⟨f1, f2, f3⟩ := fine steps d (le_of_max_le_right hs) hd.le (hdd.trans (min_le_right _ _))
  have hb := (key h2 v v' hv hst2 hsen same hbias m d hsle hd (hdd.trans (min_le_left _ _)) steps
    (le_of_max_le_left hs) hlim env ev).1
  have := near h2 v v' _ same (C56_process_only_moves hv ev) f1 f2
    fun b hb' q => ⟨(hb b hb' q).1.trans f3, (hb b hb' q).2.trans f3⟩
  rwa [← mul_assoc] at this

/-- The claim applied to two linked bodies with a spring between them. -/
example : ∃ (T : ℝ) (N : Int) (d0 E : ℝ), 0 < T ∧ 0 < d0 ∧ ∀ d : ℝ, 0 < d → d ≤ d0 →
    ∀ steps : Int, N ≤ steps → ∀ env : Env ℝ, ∃ (h : List (Op ℝ)) (w w' : World ℝ) (m : Nat),
      World.Hist Gen.Shipped .opt h w ∧ regBodies h = {0, 1} ∧ w.sle = some (.gs m d) ∧
      w.process .opt env T steps = .ok w' ∧
      |w'.angular (regBodies h) - w.angular (regBodies h)| ≤ E * (1 / steps + d) := by
  obtain ⟨h, w, T, Y, lam, d, hst, hT, hY, hz, hg⟩ := demo_sprung
  obtain ⟨N, d0, F, E, hd0, key⟩ := C111_gauss_seidel_angular (fun g => Gen.tame) d.hist hst
    (by rw [d.bias]; norm_num) (by rw [d.bias]; norm_num)
    (fun b _ => by rw [d.m, d.I]; exact ⟨one_pos, one_pos⟩) hT hY (fun c _ => by rw [d.kind]; trivial)
    (fun g _ => by rw [d.gens]; rfl)
  refine ⟨T, N, d0, E, hT, hd0, fun e he hed steps hs env => ?_⟩
  obtain ⟨h2, v, v', m, hv, hst2, hsen, same, hbias, hsle, hlim, ev⟩ :=
    demo_strong d hT he (F * (1 + e * steps)) steps env
  exact ⟨h2, v, v', m, hv, by rw [← same.rb, d.regB], hsle, ev,
    (key h2 v v' hv hst2 hsen same hbias m e hsle he hed steps hs hlim env ev)⟩

/-- **C111.** With conjugate gradients every sufficiently fine call succeeds and keeps the mechanical energy
up to a constant times the length of a sub-step plus the absolute tolerance. -/
theorem C111_conjugate_gradient_energy (hG : ∀ g, G g → g.OnlyForces) (hw : World.Hist G .opt h w)
    (hst : w.Standard h) (hne : regCons h ≠ ∅) (hb0 : 0 < w.bias) (hb2 : w.bias < 2)
    (hm : ∀ b ∈ regBodies h, 0 < (w.bodies b).m ∧ 0 < (w.bodies b).I) (hdt : 0 < dt)
    (hY : w.HeldMotion h dt Y lam)
    (hz : ∀ c ∈ regCons h, ∀ j, j < (w.cons c).rows → (w.rowsOf w.now c).v_bias j = 0)
    (hg : ∀ g ∈ regGens h, (w.gens g).Damping w.bodies) :
    ∃ (N : Int) (e0 E : ℝ), 0 < e0 ∧ ∀ (h2 : List (Op ℝ)) (v : World ℝ),
      World.Hist G .opt h2 v → v.Standard h2 → SameButLimits h w h2 v → v.bias = w.bias →
      ∀ (m : Nat) (e1 e2 : ℝ), v.sle = some (.cg m e1 e2) → ∑ c ∈ regCons h, (w.cons c).rows ≤ m →
      |e1| ≤ e0 → 0 ≤ e2 → e2 ≤ e0 → ∀ steps : Int, N ≤ steps → ∀ env : Env ℝ,
      ∃ v', v.process .opt env dt steps = .ok v' ∧
        v'.mechanical h2 ≤ v.mechanical h2 + E * (1 / steps + e2) ∧
        ((∀ g ∈ regGens h, (w.gens g).Elastic w.bodies) →
          |v'.mechanical h2 - v.mechanical h2| ≤ E * (1 / steps + e2)) := by
  obtain ⟨N, e0, E, he0, key⟩ := C100_conjugate_gradient hG hw hst hne hb0 hb2 hm hdt hY
  obtain ⟨η, L, hη, hL, near⟩ := hY.energy_near hw (hw.ready hG hst.wired).2 (hst.driven hw.regs) hdt hz hg
  obtain ⟨N2, d2, hd2, fine⟩ := exists_fine E hη
  refine ⟨max N N2, min e0 d2, L * |E|, lt_min he0 hd2, ?_⟩
  intro h2 v hv hst2 same hbias m e1 e2 hsle hr h1 h3 h4 steps hs env
  obtain ⟨f1, f2, f3⟩ := fine steps e2 (le_of_max_le_right hs) h3 (h4.trans (min_le_right _ _))
  obtain ⟨v', ev, hb, -⟩ := key h2 v hv hst2 same hbias m e1 e2 hsle hr (h1.trans (min_le_left _ _)) h3
    (h4.trans (min_le_left _ _)) steps (le_of_max_le_left hs) env
  have := near h2 v v' _ same (C56_process_only_moves hv ev) f1 f2
    fun b hb' q => ⟨(hb b hb' q).1.trans f3, (hb b hb' q).2.trans f3⟩
  rw [← mul_assoc] at this
  exact ⟨v', ev, this⟩

/-- The claim applied to two linked bodies with a spring between them. -/
example : ∃ (T : ℝ) (N : Int) (e0 E : ℝ), 0 < T ∧ 0 < e0 ∧ ∀ d : ℝ, 0 ≤ d → d ≤ e0 →
    ∀ steps : Int, N ≤ steps → ∀ env : Env ℝ, ∃ (h : List (Op ℝ)) (w w' : World ℝ),
      World.Hist Gen.Shipped .opt h w ∧ regBodies h = {0, 1} ∧ w.sle = some (.cg 2 d d) ∧
      w.process .opt env T steps = .ok w' ∧
      |w'.mechanical h - w.mechanical h| ≤ E * (1 / steps + d) := by
  obtain ⟨h, w, T, Y, lam, d, hst, hT, hY, hz, hg⟩ := demo_sprung
  obtain ⟨N, e0, E, he0, key⟩ := C111_conjugate_gradient_energy (fun g => Gen.tame) d.hist hst
    (ne_empty_of_mem (d.mem0 rfl)) (by rw [d.bias]; norm_num) (by rw [d.bias]; norm_num)
    (fun b _ => by rw [d.m, d.I]; exact ⟨one_pos, one_pos⟩) hT hY hz (fun g h => (hg g h).stretched.2.1)
  refine ⟨T, N, e0, E, hT, he0, fun e he hee steps hs env => ?_⟩
  obtain ⟨h2, v, d2⟩ := demo (.link ⟨0, 0, -1, -2, 1, 0, 0⟩)
    (g := .spring ⟨1, 7, 0, 0, 0, 0, 0, .obj 0, .obj 1⟩) trivial (cs := [0]) (fg := [0]) (by decide)
    (by decide) (.cg 2 e e)
  have same := d.butLimits d2.toDemoSys rfl rfl
  obtain ⟨v', ev, k⟩ := key h2 v d2.hist (d2.standard (.inl (by simp [CKind.counts]))
    (.inr ⟨⟨0, by simp, rfl⟩, .inr ⟨1, by simp, rfl⟩⟩)) same (by rw [d.bias]; exact d2.bias) 2 e e d2.sle
    (by rw [d.regC, sum_congr rfl fun c _ => d.rows c]; simp [CKind.counts])
    (by rwa [abs_of_nonneg he]) he hee steps hs env
  exact ⟨h2, v, v', d2.hist, by rw [d2.regB], d2.sle, ev, k.2 hg⟩

/-- **C111.** With conjugate gradients the optimized system conserves the angular momentum of bodies joined
by links, clutches, undamped springs and motors in the same sense. -/
theorem C111_conjugate_gradient_angular (hG : ∀ g, G g → g.OnlyForces) (hw : World.Hist G .opt h w)
    (hst : w.Standard h) (hne : regCons h ≠ ∅) (hb0 : 0 < w.bias) (hb2 : w.bias < 2)
    (hm : ∀ b ∈ regBodies h, 0 < (w.bodies b).m ∧ 0 < (w.bodies b).I) (hdt : 0 < dt)
    (hY : w.HeldMotion h dt Y lam)
    (hk : ∀ c ∈ regCons h, (w.cons c).kind.Joint) (hg : ∀ g ∈ regGens h, (w.gens g).Central) :
    ∃ (N : Int) (e0 E : ℝ), 0 < e0 ∧ ∀ (h2 : List (Op ℝ)) (v : World ℝ),
      World.Hist G .opt h2 v → v.Standard h2 → SameButLimits h w h2 v → v.bias = w.bias →
      ∀ (m : Nat) (e1 e2 : ℝ), v.sle = some (.cg m e1 e2) → ∑ c ∈ regCons h, (w.cons c).rows ≤ m →
      |e1| ≤ e0 → 0 ≤ e2 → e2 ≤ e0 → ∀ steps : Int, N ≤ steps → ∀ env : Env ℝ,
      ∃ v', v.process .opt env dt steps = .ok v' ∧
        |v'.angular (regBodies h2) - v.angular (regBodies h2)| ≤ E * (1 / steps + e2) := by
  obtain ⟨N, e0, E, he0, key⟩ := C100_conjugate_gradient hG hw hst hne hb0 hb2 hm hdt hY
  obtain ⟨η, L, hη, hL, near⟩ := hY.spin_near hw (hw.ready hG hst.wired).2 (hst.proper hw.regs)
    (hst.driven hw.regs) hdt hk hg
  obtain ⟨N2, d2, hd2, fine⟩ := exists_fine E hη
  refine ⟨max N N2, min e0 d2, L * |E|, lt_min he0 hd2, ?_⟩
  intro h2 v hv hst2 same hbias m e1 e2 hsle hr h1 h3 h4 steps hs env
  obtain ⟨f1, f2, f3⟩ := fine steps e2 (le_of_max_le_right hs) h3 (h4.trans (min_le_right _ _))
  obtain ⟨v', ev, hb, -⟩ := key h2 v hv hst2 same hbias m e1 e2 hsle hr (h1.trans (min_le_left _ _)) h3
    (h4.trans (min_le_left _ _)) steps (le_of_max_le_left hs) env
  have := near h2 v v' _ same (C56_process_only_moves hv ev) f1 f2
    fun b hb' q => ⟨(hb b hb' q).1.trans f3, (hb b hb' q).2.trans f3⟩
  rw [← mul_assoc] at this
  exact ⟨v', ev, this⟩

/-- The claim applied to two linked bodies with a spring between them. -/
example : ∃ (T : ℝ) (N : Int) (e0 E : ℝ), 0 < T ∧ 0 < e0 ∧ ∀ d : ℝ, 0 ≤ d → d ≤ e0 →
    ∀ steps : Int, N ≤ steps → ∀ env : Env ℝ, ∃ (h : List (Op ℝ)) (w w' : World ℝ),
      World.Hist Gen.Shipped .opt h w ∧ regBodies h = {0, 1} ∧ w.sle = some (.cg 2 d d) ∧
      w.process .opt env T steps = .ok w' ∧
      |w'.angular (regBodies h) - w.angular (regBodies h)| ≤ E * (1 / steps + d) := by
  obtain ⟨h, w, T, Y, lam, d, hst, hT, hY, hz, hg⟩ := demo_sprung
  obtain ⟨N, e0, E, he0, key⟩ := C111_conjugate_gradient_angular (fun g => Gen.tame) d.hist hst
    (ne_empty_of_mem (d.mem0 rfl)) (by rw [d.bias]; norm_num) (by rw [d.bias]; norm_num)
    (fun b _ => by rw [d.m, d.I]; exact ⟨one_pos, one_pos⟩) hT hY (fun c _ => by rw [d.kind]; trivial)
    (fun g _ => by rw [d.gens]; rfl)
  refine ⟨T, N, e0, E, hT, he0, fun e he hee steps hs env => ?_⟩
  obtain ⟨h2, v, d2⟩ := demo (.link ⟨0, 0, -1, -2, 1, 0, 0⟩)
    (g := .spring ⟨1, 7, 0, 0, 0, 0, 0, .obj 0, .obj 1⟩) trivial (cs := [0]) (fg := [0]) (by decide)
    (by decide) (.cg 2 e e)
  have same := d.butLimits d2.toDemoSys rfl rfl
  obtain ⟨v', ev, k⟩ := key h2 v d2.hist (d2.standard (.inl (by simp [CKind.counts]))
    (.inr ⟨⟨0, by simp, rfl⟩, .inr ⟨1, by simp, rfl⟩⟩)) same (by rw [d.bias]; exact d2.bias) 2 e e d2.sle
    (by rw [d.regC, sum_congr rfl fun c _ => d.rows c]; simp [CKind.counts])
    (by rwa [abs_of_nonneg he]) he hee steps hs env
  exact ⟨h2, v, v', d2.hist, by rw [d2.regB], d2.sle, ev, k⟩

end

end Scs
