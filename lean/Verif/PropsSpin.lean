import Verif.PropsAgree
import Verif.PropsEnergy

/-!
# Conservation of angular momentum

C98: in the limit of small sub-steps links, clutches, undamped springs and motors conserve the angular
momentum.
-/

namespace Scs

open Finset

/-! ## C98 -/

section
variable {G : Gen ℝ → Prop} {h : List (Op ℝ)} {w w' : World ℝ} {dt : ℝ}
  {Y : ℝ → Motion} {lam : ℝ → Nat → Nat → ℝ} {o : Ode ℝ} {cls : Cls}

theorem spin_congr {x y : Motion} (hp : ∀ b ∈ w.rb, ∀ q : Coord, x.pos b q = y.pos b q)
    (hv : ∀ b ∈ w.rb, ∀ q : Coord, x.vel b q = y.vel b q) : w.spin x = w.spin y :=
  sum_congr rfl fun b hb => by
    rw [List.mem_toFinset] at hb
    simp only [Motion.moment, hp b hb, hv b hb]

theorem spin_lip (y : w.Pt × w.Pt) : LipAt (fun y : w.Pt × w.Pt => w.spin (w.motionOf y)) y := by
  have hp : ∀ b q, ContDiff ℝ 1 fun y : w.Pt × w.Pt => (w.motionOf y).pos b q := fun b q =>
    (motionOf_smooth b q).1
  have hv : ∀ b q, ContDiff ℝ 1 fun y : w.Pt × w.Pt => (w.motionOf y).vel b q := fun b q =>
    (motionOf_smooth b q).2
  refine LipAt.sum _ fun b _ => ContDiff.lipAt ?_ y
  have h1 := hp b .x
  have h2 := hp b .y
  have h3 := hv b .x
  have h4 := hv b .y
  have h5 := hv b .th
  simp only [Motion.moment]
  fun_prop

theorem spin_along {S : Set ℝ} {t : ℝ}
    (hpos : ∀ b ∈ w.rb, ∀ q : Coord, HasDerivWithinAt (fun s => (Y s).pos b q) ((Y t).vel b q) S t)
    (hvel : ∀ b ∈ w.rb, ∀ q : Coord, HasDerivWithinAt (fun s => (Y s).vel b q) ((Y t).acc b q) S t)
    {mult : Nat → Nat → ℝ}
    (hn : ∀ b ∈ w.rb, ∀ q : Coord, (w.bodies b).mass q * (Y t).acc b q = w.load (Y t) b q +
      w.conForce (w.reaction (Y t) mult) b q) : HasDerivWithinAt (fun s => w.spin (Y s))
      (∑ b ∈ w.rb.toFinset, (Y t).moment b (w.load (Y t) b) +
        ∑ b ∈ w.rb.toFinset, (Y t).moment b (w.conForce (w.reaction (Y t) mult) b)) S t := by
  rw [← sum_add_distrib]
  refine HasDerivWithinAt.fun_sum fun b hb => ?_
  rw [List.mem_toFinset] at hb
  have m : ∀ q, HasDerivWithinAt (fun s => (w.bodies b).mass q * (Y s).vel b q)
      (w.load (Y t) b q + w.conForce (w.reaction (Y t) mult) b q) S t := fun q =>
    ((hvel b hb q).const_mul _).congr_deriv (hn b hb q)
  refine ((((hpos b hb .x).mul (m .y)).sub ((hpos b hb .y).mul (m .x))).add (m .th)).congr_deriv ?_
  have e : (w.bodies b).mass .x = (w.bodies b).mass .y := rfl
  simp only [Motion.moment, e]
  ring

/-- Angular momentum along a motion that keeps the constraints. -/
theorem World.HeldMotion.spin (r : w.Regs cls h) (p : w.Placed) (pr : w.Proper) (hd : w.Driven)
    (hdt : 0 < dt) (hY : w.HeldMotion h dt Y lam)
    (hk : ∀ c ∈ regCons h, (w.cons c).kind.Joint) (hg : ∀ g ∈ regGens h, (w.gens g).Central) :
    w.spin (Y dt) = w.spin w.now := by
  rw [energy_kept (f := fun s => w.spin (Y s)) hdt fun t ht => ?_]
  · exact spin_congr (fun b hb q => (hY.start b ((r.bodies.mem b).mp hb) q).1)
      (fun b hb q => (hY.start b ((r.bodies.mem b).mp hb) q).2)
  refine (spin_along (fun b hb => hY.pos t ht b ((r.bodies.mem b).mp hb))
    (fun b hb => hY.vel t ht b ((r.bodies.mem b).mp hb)) (mult := lam t)
    (fun b hb q => hY.newton t ht b ((r.bodies.mem b).mp hb) q)).congr_deriv ?_
  rw [moment_load hd (fun g hgm => hg g ((r.gens.mem g).mp hgm)), moment_conForce p, zero_add]
  refine sum_eq_zero fun c hc => ?_
  have hc' := List.mem_toFinset.mp hc
  have hcr := (r.cons.mem c).mp hc'
  have hkc := hk c hcr
  have hcount := pr c hc'
  cases hK : (w.cons c).kind <;> rw [hK] at hkc hcount <;> first | exact hkc.elim | skip
  · rename_i l
    simp only [CKind.counts, Option.some.injEq, Prod.mk.injEq] at hcount
    obtain ⟨hr, hn⟩ := hcount
    rw [moment_link p hc' hK hr.symm hn.symm]
    have h1 := (p.bodies c hc' 0 (by omega)).1
    have h2 := (p.bodies c hc' 1 (by omega)).1
    obtain ⟨q0, q1, q2, q3, q4, q5⟩ := q_two (x := Y t) hn.symm h1 h2
    have z0 := (hY.held t ht c hcr 0 (by omega)).1
    have z1 := (hY.held t ht c hcr 1 (by omega)).1
    simp only [World.rowsOf, hK, CKind.cT, q0, q1, q2, q3, q4, q5, rx, ry] at z0 z1
    simp only [Motion.point]
    linear_combination (lam t c 1) * z0 - (lam t c 0) * z1
  · simp only [CKind.counts, Option.some.injEq, Prod.mk.injEq] at hcount
    obtain ⟨hr, hn⟩ := hcount
    exact moment_clutch p hK hr.symm hn.symm _ _

theorem World.HeldMotion.spun (hw : World.Hist G cls h w) (p : w.Placed) (pr : w.Proper)
    (hd : w.Driven) (hdt : 0 < dt) (hY : w.HeldMotion h dt Y lam)
    (hk : ∀ c ∈ regCons h, (w.cons c).kind.Joint) (hg : ∀ g ∈ regGens h, (w.gens g).Central)
    (conv : ∃ (N : Int) (E : ℝ), ∀ steps, N ≤ steps → ∀ env : Env ℝ,
      ∃ w', w.process cls env dt steps = .ok w' ∧ ∀ b ∈ regBodies h, ∀ q : Coord,
          |(w'.bodies b).pos q - (Y dt).pos b q| ≤ E / steps ∧
          |(w'.bodies b).vel q - (Y dt).vel b q| ≤ E / steps) :
    ∃ (N : Int) (E : ℝ), ∀ steps, N ≤ steps → ∀ env : Env ℝ,
      ∃ w', w.process cls env dt steps = .ok w' ∧
        |w'.angular (regBodies h) - w.angular (regBodies h)| ≤ E / steps := by
  have s : ∀ x : Motion, w.spin (w.motionOf (w.pack x)) = w.spin x := fun x =>
    spin_congr (fun b hb q => motionOf_pos _ hb q) (fun b hb q => motionOf_vel _ hb q)
  obtain ⟨N, E, key⟩ := carry hw.regs (spin_lip (w := w) (w.pack (Y dt))) conv
  refine ⟨N, E, fun steps hs env => ?_⟩
  obtain ⟨w', e, k⟩ := key steps hs env
  refine ⟨w', e, ?_⟩
  have hmv := C56_process_only_moves hw e
  rw [angular_spin (w := w) (w' := w') (x := w'.now) _ hw.regs.rb_finset
      (fun b _ q => ⟨rfl, rfl⟩) fun b => ⟨hmv.mass b, hmv.inertia b⟩,
    angular_spin (w := w) (w' := w) (x := w.now) _ hw.regs.rb_finset (fun b _ q => ⟨rfl, rfl⟩)
      fun b => ⟨rfl, rfl⟩, ← hY.spin hw.regs p pr hd hdt hk hg, ← s w'.now, ← s (Y dt)]
  exact k

/-- **C98.** With links, clutches, undamped springs and motors between bodies of the system, and
constraints that hold at the start, the optimized system conserves the angular momentum up to a constant
divided by the number of sub-steps. -/
theorem C98_conserved (hG : ∀ g, G g → g.OnlyForces) (hw : World.Hist G .opt h w)
    (hst : w.Standard h) (hs : w.sle = some .ge) (hne : regCons h ≠ ∅) (hb0 : 0 < w.bias)
    (hb2 : w.bias < 2)
    (hm : ∀ b ∈ regBodies h, (w.bodies b).m ≠ 0 ∧ (w.bodies b).I ≠ 0) (hdt : 0 < dt)
    (hY : w.HeldMotion h dt Y lam)
    (hk : ∀ c ∈ regCons h, (w.cons c).kind.Joint) (hg : ∀ g ∈ regGens h, (w.gens g).Central) :
    ∃ (N : Int) (E : ℝ), ∀ steps, N ≤ steps → ∀ env : Env ℝ,
      ∃ w', w.process .opt env dt steps = .ok w' ∧
        |w'.angular (regBodies h) - w.angular (regBodies h)| ≤ E / steps := by
  obtain ⟨N, E, key⟩ := C95_converges hG hw hst hs hne hb0 hb2 hm hdt hY
  exact hY.spun hw (hw.ready hG hst.wired).2 (hst.proper hw.regs) (hst.driven hw.regs) hdt hk hg
    ⟨N, E, fun steps hs env => by
      obtain ⟨w', e, k, _⟩ := key steps hs env
      exact ⟨w', e, k⟩⟩

/-- The claim applied to two linked bodies with a spring between them. -/
example (f ks kd : ℝ) : ∃ (h : List (Op ℝ)) (w : World ℝ), World.Hist Gen.Shipped .opt h w ∧
    ∃ dt : ℝ, 0 < dt ∧ ∃ (N : Int) (E : ℝ), ∀ steps, N ≤ steps → ∀ env : Env ℝ,
      ∃ w', w.process .opt env dt steps = .ok w' ∧
        |w'.angular {0, 1} - w.angular {0, 1}| ≤ E / steps := by
  obtain ⟨h, w, d⟩ := demo (.link ⟨0, 0, -1, -2, f, ks, kd⟩)
    (g := .spring ⟨1, 7, 0, 0, 0, 0, 0, .obj 0, .obj 1⟩) trivial (cs := [0]) (fg := [0]) (by decide)
    (by decide) .ge
  have hst := d.standard (.inl (by simp [CKind.counts]))
    (.inr ⟨⟨0, by simp, rfl⟩, .inr ⟨1, by simp, rfl⟩⟩)
  have hi := d.solvable (d.rank_pins (pins_link _) w.now) trivial
    (by rw [d.full]; simp [CKind.counts]) (.inl (by simp))
  have hh := linked_start d.toDemoSys
  have ha := centres_apart d.toDemoSys
  obtain ⟨T, hT, Y, lam, hY⟩ := C95_exact_motion_exists (fun g => Gen.tame) d.hist hst d.masses
    (fun c hc j hj => ⟨(hh c hc j hj).1, by rw [(hh c hc j hj).2.1, (hh c hc j hj).2.2, add_zero]⟩)
    (by simpa [World.Solvable, d.sle] using hi) (fun g _ => by
      rw [d.gens]
      intro b1 b2 e1 e2
      cases e1
      cases e2
      exact ha.ne')
  have q := C98_conserved (fun g => Gen.tame) d.hist hst d.sle
    (ne_empty_of_mem (d.mem0 rfl)) (by rw [d.bias]; norm_num) (by rw [d.bias]; norm_num) d.masses
    hT hY (fun c _ => by rw [d.kind]; trivial) (fun g _ => by rw [d.gens]; rfl)
  rw [d.regB] at q
  exact ⟨h, w, d.hist, T, hT, q⟩

/-- **C98.** The generic system with any of its ODE solvers conserves the angular momentum in the same
sense. -/
theorem C98_conserved_generic (hG : ∀ g, G g → g.OnlyForces) (hw : World.Hist G .gen h w)
    (hst : w.Standard h) (hs : w.sle = some .ge) (hode : w.ode = some o) (ho : o.sort ≠ 0)
    (hsync : o.sort = 3 → InSync h) (hne : regCons h ≠ ∅)
    (hm : ∀ b ∈ regBodies h, (w.bodies b).m ≠ 0 ∧ (w.bodies b).I ≠ 0) (hdt : 0 < dt)
    (hY : w.ExactMotion h dt Y lam)
    (hz : ∀ c ∈ regCons h, ∀ j, j < (w.cons c).rows → (w.rowsOf w.now c).C j = 0 ∧
      w.rowAt (w.rowsOf w.now c) c j w.now.vel = 0)
    (hk : ∀ c ∈ regCons h, (w.cons c).kind.Joint) (hg : ∀ g ∈ regGens h, (w.gens g).Central) :
    ∃ (N : Int) (E : ℝ), ∀ steps, N ≤ steps → ∀ env : Env ℝ,
      ∃ w', w.process .gen env dt steps = .ok w' ∧
        |w'.angular (regBodies h) - w.angular (regBodies h)| ≤ E / steps := by
  have p := (hw.readyG hG hst.wired).2
  have hH := hY.held hw.regs p (hst.proper hw.regs) hdt fun c hc j hj =>
    ⟨(hz c hc j hj).1, (hz c hc j hj).2, by
      have := hk c hc
      simp only [World.rowsOf]
      cases hK : (w.cons c).kind <;> rw [hK] at this <;> first | exact this.elim | rfl⟩
  exact hH.spun hw p (hst.proper hw.regs) (hst.driven hw.regs) hdt hk hg
    (C92_converges hG hw hst hs hode ho hsync hne hm hdt hY)

/-- The claim applied to two linked bodies with a spring between them. -/
example (f ks kd : ℝ) : ∃ (h : List (Op ℝ)) (w : World ℝ), World.Hist Gen.Shipped .gen h w ∧
    w.ode = some (.rk4 newRk4) ∧
    ∃ dt : ℝ, 0 < dt ∧ ∃ (N : Int) (E : ℝ), ∀ steps, N ≤ steps → ∀ env : Env ℝ,
      ∃ w', w.process .gen env dt steps = .ok w' ∧
        |w'.angular {0, 1} - w.angular {0, 1}| ≤ E / steps := by
  obtain ⟨h, w, d, hs⟩ := demo_ode (.link ⟨0, 0, -1, -2, f, ks, kd⟩)
    (g := .spring ⟨1, 7, 0, 0, 0, 0, 0, .obj 0, .obj 1⟩) trivial (cs := [0])
    (fg := [0]) (by decide) (by decide) .ge (o := .rk4 newRk4) (.inr (.inr rfl))
  have hst := d.standard (.inl (by simp [CKind.counts]))
    (.inr ⟨⟨0, by simp, rfl⟩, .inr ⟨1, by simp, rfl⟩⟩)
  have hi := d.solvable (d.rank_pins (pins_link _) w.now) trivial
    (by rw [d.full]; simp [CKind.counts]) (.inl (by simp))
  have hh := linked_start d.toDemoSys
  have ha := centres_apart d.toDemoSys
  obtain ⟨T, hT, Y, lam, hY⟩ := C92_exact_motion_exists (fun g => Gen.tame) d.hist hst d.sle d.masses
    (by simpa [World.Solvable, d.sle] using hi) (fun g _ => by
      rw [d.gens]
      intro b1 b2 e1 e2
      cases e1
      cases e2
      exact ha.ne')
  have q := C98_conserved_generic (fun g => Gen.tame) d.hist hst d.sle d.ode
    (by decide) (fun _ => hs) (ne_empty_of_mem (d.mem0 rfl)) d.masses hT hY
    (fun c hc j hj => ⟨(hh c hc j hj).1, (hh c hc j hj).2.1⟩)
    (fun c _ => by rw [d.kind]; trivial) (fun g _ => by rw [d.gens]; rfl)
  rw [d.regB] at q
  exact ⟨h, w, d.hist, d.ode, T, hT, q⟩

end

end Scs
