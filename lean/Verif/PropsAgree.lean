import Verif.PropsMech

/-!
# Agreement of the systems

C97: in the limit of small sub-steps the two systems, and the generic system with different ODE
solvers, compute the same motion.
-/

namespace Scs

open Finset

/-! ## C97 -/

/-- The histories `h` and `h2` end with the same scene, as a program can see it: the same bodies,
constraints and force generators are registered, and they have equal members (other than the index,
which the library manages, and what a constraint reports). -/
structure SameScene (h : List (Op ℝ)) (w : World ℝ) (h2 : List (Op ℝ)) (v : World ℝ) : Prop where
  rb : regBodies h = regBodies h2
  cs : regCons h = regCons h2
  fg : regGens h = regGens h2
  bodies : ∀ b ∈ regBodies h, (v.bodies b).pos = (w.bodies b).pos ∧
    (v.bodies b).vel = (w.bodies b).vel ∧ (v.bodies b).m = (w.bodies b).m ∧
    (v.bodies b).I = (w.bodies b).I
  kind : ∀ c ∈ regCons h, (v.cons c).kind = (w.cons c).kind
  rows : ∀ c ∈ regCons h, (v.cons c).rows = (w.cons c).rows
  count : ∀ c ∈ regCons h, (v.cons c).bodyCount = (w.cons c).bodyCount
  at_ : ∀ c ∈ regCons h, ∀ k, k < (w.cons c).bodyCount →
    (v.cons c).bodies k = (w.cons c).bodies k
  gens : ∀ g ∈ regGens h, v.gens g = w.gens g

section
variable {G : Gen ℝ → Prop} {h h2 : List (Op ℝ)} {w v : World ℝ} {dt : ℝ}
  {Y : ℝ → Motion} {lam : ℝ → Nat → Nat → ℝ} {o o2 : Ode ℝ} {cls cls2 : Cls}

theorem SameScene.alike (s : SameScene h w h2 v) (r : w.Regs cls h) (r2 : v.Regs cls2 h2) :
    w.Alike { v with bias := w.bias } where
  rb := by rw [r.rb_finset, s.rb]; exact r2.rb_finset.symm
  cs := by rw [r.cs_finset, s.cs]; exact r2.cs_finset.symm
  fg := by rw [r.fg_finset, s.fg]; exact r2.fg_finset.symm
  bodies := fun b hb => by
    obtain ⟨h1, h2, h3, h4⟩ := s.bodies b ((r.bodies.mem b).mp hb)
    have x1 := congrFun h1 .x; have x2 := congrFun h1 .y; have x3 := congrFun h1 .th
    have y1 := congrFun h2 .x; have y2 := congrFun h2 .y; have y3 := congrFun h2 .th
    simp only [Body.pos, Body.vel] at x1 x2 x3 y1 y2 y3
    simp only
    generalize w.bodies b = B at *
    generalize v.bodies b = B' at *
    cases B; cases B'
    simp_all
  kind := fun c hc => s.kind c ((r.cons.mem c).mp hc)
  rows := fun c hc => s.rows c ((r.cons.mem c).mp hc)
  count := fun c hc => s.count c ((r.cons.mem c).mp hc)
  at_ := fun c hc => s.at_ c ((r.cons.mem c).mp hc)
  gens := fun g hg => s.gens g ((r.gens.mem g).mp hg)
  bias := rfl

theorem SameScene.newton (s : SameScene h w h2 v) (r : w.Regs cls h) (r2 : v.Regs cls2 h2)
    {x : Motion} {mu : Nat → Nat → ℝ} {b : Nat} (hb : b ∈ regBodies h) {q : Coord}
    (e : (w.bodies b).mass q * x.acc b q = w.load x b q +
      w.conForce (fun c q j k => mu c j * (w.rowsOf x c).J j (k * 3 + q.d)) b q) :
    (v.bodies b).mass q * x.acc b q = v.load x b q +
      v.conForce (fun c q j k => mu c j * (v.rowsOf x c).J j (k * 3 + q.d)) b q := by
  have a := s.alike r r2
  have hb' := (r.bodies.mem b).mpr hb
  have e1 : (v.bodies b).mass q = (w.bodies b).mass q := a.mass hb' q
  have e2 : v.load x b q = w.load x b q := a.load x hb' q
  have e3 := a.conForce (fun c q j k => mu c j * (v.rowsOf x c).J j (k * 3 + q.d)) b q
  rw [e1, e, e2]
  refine congrArg _ (Eq.trans ?_ e3.symm)
  refine conForce_congr (fun c hc q j k _ _ => ?_) b q
  have e4 : v.rowsOf x c = w.rowsOf x c := a.rowsOf x hc
  rw [e4]

theorem SameScene.start (s : SameScene h w h2 v)
    (hs : ∀ b ∈ regBodies h, ∀ q : Coord,
      (Y 0).pos b q = (w.bodies b).pos q ∧ (Y 0).vel b q = (w.bodies b).vel q) :
    ∀ b ∈ regBodies h2, ∀ q : Coord,
      (Y 0).pos b q = (v.bodies b).pos q ∧ (Y 0).vel b q = (v.bodies b).vel q := fun b hb q => by
  rw [← s.rb] at hb
  rw [(s.bodies b hb).1, (s.bodies b hb).2.1]
  exact hs b hb q

/-- The scene determines which motions keep the constraints. -/
theorem SameScene.heldMotion (s : SameScene h w h2 v) (r : w.Regs cls h) (r2 : v.Regs cls2 h2)
    (hY : w.HeldMotion h dt Y lam) : v.HeldMotion h2 dt Y lam where
  start := s.start hY.start
  pos := fun t ht b hb => hY.pos t ht b (by rw [s.rb]; exact hb)
  vel := fun t ht b hb => hY.vel t ht b (by rw [s.rb]; exact hb)
  newton := fun t ht b hb q => by
    rw [← s.rb] at hb
    exact s.newton r r2 hb (hY.newton t ht b hb q)
  held := fun t ht c hc j hj => by
    rw [← s.cs] at hc
    rw [s.rows c hc] at hj
    have a := s.alike r r2
    have hc' := (r.cons.mem c).mpr hc
    have e1 : v.rowsOf (Y t) c = w.rowsOf (Y t) c := a.rowsOf _ hc'
    have e2 := a.rowAt (w.rowsOf (Y t) c) hc' j (Y t).vel
    have := hY.held t ht c hc j hj
    rw [e1]
    exact ⟨this.1, (congrArg (· + _) e2).trans this.2⟩
  indep := fun t ht => (s.alike r r2).indep (hY.indep t ht)
  regular := fun t ht g hg => by
    rw [← s.fg] at hg
    rw [s.gens g hg]
    exact hY.regular t ht g hg

/-- The scene determines the exact motions of the generic system. -/
theorem SameScene.exactMotion (s : SameScene h w h2 v) (r : w.Regs cls h) (r2 : v.Regs cls2 h2)
    (hY : w.ExactMotion h dt Y lam) : v.ExactMotion h2 dt Y lam where
  start := s.start hY.start
  pos := fun t ht b hb => hY.pos t ht b (by rw [s.rb]; exact hb)
  vel := fun t ht b hb => hY.vel t ht b (by rw [s.rb]; exact hb)
  newton := fun t ht b hb q => by
    rw [← s.rb] at hb
    exact s.newton r r2 hb (hY.newton t ht b hb q)
  rows := fun t ht c hc j hj => by
    rw [← s.cs] at hc
    rw [s.rows c hc] at hj
    have a := s.alike r r2
    have hc' := (r.cons.mem c).mpr hc
    have e1 : v.rowsOf (Y t) c = w.rowsOf (Y t) c := a.rowsOf _ hc'
    have e2 : ∀ u, v.rowAt (w.rowsOf (Y t) c) c j u = w.rowAt (w.rowsOf (Y t) c) c j u :=
      a.rowAt (w.rowsOf (Y t) c) hc' j
    have e3 : v.rowDot (w.rowsOf (Y t) c) c j (Y t).vel = w.rowDot (w.rowsOf (Y t) c) c j (Y t).vel :=
      a.rowDot (w.rowsOf (Y t) c) hc' j _
    rw [e1, e2, e2, e3]
    exact hY.rows t ht c hc j hj
  indep := fun t ht => (s.alike r r2).indep (hY.indep t ht)
  regular := fun t ht g hg => by
    rw [← s.fg] at hg
    rw [s.gens g hg]
    exact hY.regular t ht g hg

theorem meet {x y z e f : ℝ} (h1 : |x - z| ≤ e) (h2 : |y - z| ≤ f) : |y - x| ≤ e + f := by
  rw [abs_le] at *
  constructor <;> linarith

/-- **C97.** Given the same scene, whose constraints hold at the start and prescribe no speed, the
generic system with any of its ODE solvers and the optimized system compute the same motion up to a
constant divided by the numbers of sub-steps. -/
theorem C97_systems_agree (hG : ∀ g, G g → g.OnlyForces) (hw : World.Hist G .gen h w)
    (hv : World.Hist G .opt h2 v) (s : SameScene h w h2 v) (hst : w.Standard h)
    (hst2 : v.Standard h2) (hs : w.sle = some .ge) (hs2 : v.sle = some .ge)
    (hode : w.ode = some o) (ho : o.sort ≠ 0) (hsync : o.sort = 3 → InSync h) (hne : regCons h ≠ ∅)
    (hb0 : 0 < v.bias) (hb2 : v.bias < 2)
    (hm : ∀ b ∈ regBodies h, (w.bodies b).m ≠ 0 ∧ (w.bodies b).I ≠ 0) (hdt : 0 < dt)
    (hY : w.ExactMotion h dt Y lam)
    (hz : ∀ c ∈ regCons h, ∀ j, j < (w.cons c).rows → (w.rowsOf w.now c).C j = 0 ∧
      w.rowAt (w.rowsOf w.now c) c j w.now.vel = 0 ∧ (w.rowsOf w.now c).v_bias j = 0) :
    ∃ (N : Int) (E : ℝ), ∀ n k, N ≤ n → N ≤ k → ∀ env env2 : Env ℝ,
      ∃ w' v', w.process .gen env dt n = .ok w' ∧ v.process .opt env2 dt k = .ok v' ∧
        ∀ b ∈ regBodies h, ∀ q : Coord,
          |(v'.bodies b).pos q - (w'.bodies b).pos q| ≤ E / n + E / k ∧
          |(v'.bodies b).vel q - (w'.bodies b).vel q| ≤ E / n + E / k := by
  have p := (hw.readyG hG hst.wired).2
  have hH := s.heldMotion hw.regs hv.regs (hY.held hw.regs p (hst.proper hw.regs) hdt hz)
  obtain ⟨N, E, k1⟩ := C92_converges hG hw hst hs hode ho hsync hne hm hdt hY
  obtain ⟨N', E', k2⟩ := C95_converges hG hv hst2 hs2 (by rw [← s.cs]; exact hne) hb0 hb2
    (fun b hb => by
      rw [← s.rb] at hb
      rw [(s.bodies b hb).2.2.1, (s.bodies b hb).2.2.2]
      exact hm b hb) hdt hH
  refine ⟨max 1 (max N N'), max E E', fun n k hn hk env env2 => ?_⟩
  obtain ⟨w', e1, b1⟩ := k1 n (by omega) env
  obtain ⟨v', e2, b2, -⟩ := k2 k (by omega) env2
  refine ⟨w', v', e1, e2, fun b hb q => ?_⟩
  have pos : ∀ m : Int, max 1 (max N N') ≤ m → (0 : ℝ) < m := fun m h => by
    exact_mod_cast (show (0 : Int) < m by omega)
  have u1 : E / n ≤ max E E' / n := div_le_div_of_nonneg_right (le_max_left _ _) (pos n hn).le
  have u2 : E' / k ≤ max E E' / k := div_le_div_of_nonneg_right (le_max_right _ _) (pos k hk).le
  have c1 := b1 b hb q
  have c2 := b2 b (by rw [← s.rb]; exact hb) q
  exact ⟨meet (c1.1.trans u1) (c2.1.trans u2), meet (c1.2.trans u1) (c2.2.trans u2)⟩

/-- **C97.** The generic system computes the same motion with any two of its ODE solvers, up to a
constant divided by the numbers of sub-steps. -/
theorem C97_solvers_agree (hG : ∀ g, G g → g.OnlyForces) (hw : World.Hist G .gen h w)
    (hv : World.Hist G .gen h2 v) (s : SameScene h w h2 v) (hst : w.Standard h)
    (hst2 : v.Standard h2) (hs : w.sle = some .ge) (hs2 : v.sle = some .ge)
    (hode : w.ode = some o) (ho : o.sort ≠ 0) (hsync : o.sort = 3 → InSync h)
    (hode2 : v.ode = some o2) (ho2 : o2.sort ≠ 0) (hsync2 : o2.sort = 3 → InSync h2)
    (hne : regCons h ≠ ∅)
    (hm : ∀ b ∈ regBodies h, (w.bodies b).m ≠ 0 ∧ (w.bodies b).I ≠ 0) (hdt : 0 < dt)
    (hY : w.ExactMotion h dt Y lam) :
    ∃ (N : Int) (E : ℝ), ∀ n k, N ≤ n → N ≤ k → ∀ env env2 : Env ℝ,
      ∃ w' v', w.process .gen env dt n = .ok w' ∧ v.process .gen env2 dt k = .ok v' ∧
        ∀ b ∈ regBodies h, ∀ q : Coord,
          |(v'.bodies b).pos q - (w'.bodies b).pos q| ≤ E / n + E / k ∧
          |(v'.bodies b).vel q - (w'.bodies b).vel q| ≤ E / n + E / k := by
  have hH := s.exactMotion hw.regs hv.regs hY
  obtain ⟨N, E, k1⟩ := C92_converges hG hw hst hs hode ho hsync hne hm hdt hY
  obtain ⟨N', E', k2⟩ := C92_converges hG hv hst2 hs2 hode2 ho2 hsync2 (by rw [← s.cs]; exact hne)
    (fun b hb => by
      rw [← s.rb] at hb
      rw [(s.bodies b hb).2.2.1, (s.bodies b hb).2.2.2]
      exact hm b hb) hdt hH
  refine ⟨max 1 (max N N'), max E E', fun n k hn hk env env2 => ?_⟩
  obtain ⟨w', e1, b1⟩ := k1 n (by omega) env
  obtain ⟨v', e2, b2⟩ := k2 k (by omega) env2
  refine ⟨w', v', e1, e2, fun b hb q => ?_⟩
  have pos : ∀ m : Int, max 1 (max N N') ≤ m → (0 : ℝ) < m := fun m h => by
    exact_mod_cast (show (0 : Int) < m by omega)
  have u1 : E / n ≤ max E E' / n := div_le_div_of_nonneg_right (le_max_left _ _) (pos n hn).le
  have u2 : E' / k ≤ max E E' / k := div_le_div_of_nonneg_right (le_max_right _ _) (pos k hk).le
  have c1 := b1 b hb q
  have c2 := b2 b (by rw [← s.rb]; exact hb) q
  exact ⟨meet (c1.1.trans u1) (c2.1.trans u2), meet (c1.2.trans u1) (c2.2.trans u2)⟩

theorem DemoSys.scene {K : CKind ℝ} {g : Gen ℝ} {cs fg : List Nat} {sv sv' : Solver ℝ}
    (d : DemoSys K g cs fg sv h w) (d' : DemoSys K g cs fg sv' h2 v) : SameScene h w h2 v where
  rb := by rw [d.regB, d'.regB]
  cs := by rw [d.regC, d'.regC]
  fg := by rw [d.regG, d'.regG]
  bodies := fun b _ => ⟨by funext q; rw [d.pos, d'.pos], by funext q; rw [d.vel, d'.vel],
    by rw [d.m, d'.m], by rw [d.I, d'.I]⟩
  kind := fun c _ => by rw [d.kind, d'.kind]
  rows := fun c _ => by rw [d.rows, d'.rows]
  count := fun c _ => by rw [d.count, d'.count]
  at_ := fun c _ k _ => by rw [d.bodies, d'.bodies]
  gens := fun g _ => by rw [d.gens, d'.gens]

/-- The claim applied to two linked bodies with a damped spring between them: Runge-Kutta and the
optimized system. -/
example (f ks kd : ℝ) : ∃ (h h2 : List (Op ℝ)) (w v : World ℝ), World.Hist Gen.Shipped .gen h w ∧
    World.Hist Gen.Shipped .opt h2 v ∧ w.ode = some (.rk4 newRk4) ∧
    ∃ dt : ℝ, 0 < dt ∧ ∃ (N : Int) (E : ℝ), ∀ n k, N ≤ n → N ≤ k → ∀ env env2 : Env ℝ,
      ∃ w' v', w.process .gen env dt n = .ok w' ∧ v.process .opt env2 dt k = .ok v' ∧
        ∀ b ∈ regBodies h, ∀ q : Coord,
          |(v'.bodies b).pos q - (w'.bodies b).pos q| ≤ E / n + E / k ∧
          |(v'.bodies b).vel q - (w'.bodies b).vel q| ≤ E / n + E / k := by
  obtain ⟨h, w, d, hs⟩ := demo_ode (.link ⟨0, 0, -1, -2, f, ks, kd⟩)
    (g := .spring ⟨1, 7, 1, 0, 0, 0, 0, .obj 0, .obj 1⟩) trivial (cs := [0])
    (fg := [0]) (by decide) (by decide) .ge (o := .rk4 newRk4) (.inr (.inr rfl))
  obtain ⟨h2, v, d2⟩ := demo (.link ⟨0, 0, -1, -2, f, ks, kd⟩)
    (g := .spring ⟨1, 7, 1, 0, 0, 0, 0, .obj 0, .obj 1⟩) trivial (cs := [0]) (fg := [0]) (by decide)
    (by decide) .ge
  have hst := d.standard (.inl (by simp [CKind.counts]))
    (.inr ⟨⟨0, by simp, rfl⟩, .inr ⟨1, by simp, rfl⟩⟩)
  have hst2 := d2.standard (.inl (by simp [CKind.counts]))
    (.inr ⟨⟨0, by simp, rfl⟩, .inr ⟨1, by simp, rfl⟩⟩)
  have hi := d.solvable (d.rank_pins (pins_link _) w.now) trivial
    (by rw [d.full]; simp [CKind.counts]) (.inl (by simp))
  have hh := linked_start d.toDemoSys
  have ha := centres_apart d.toDemoSys
  obtain ⟨T, hT, Y, lam, hY⟩ := C92_exact_motion_exists (fun g => Gen.tame) d.hist hst d.sle d.masses
    (by simpa [World.Solvable, d.sle] using hi) (fun g _ => by
      rw [d.gens]
      intro b1 b2 e1 e2
      cases e1
      cases e2
      exact ha.ne')
  exact ⟨h, h2, w, v, d.hist, d2.hist, d.ode, T, hT, C97_systems_agree (fun g => Gen.tame) d.hist
    d2.hist (d.toDemoSys.scene d2.toDemoSys) hst hst2 d.sle d2.sle d.ode (by decide) (fun _ => hs)
    (ne_empty_of_mem (d.mem0 rfl)) (by rw [d2.bias]; norm_num) (by rw [d2.bias]; norm_num) d.masses
    hT hY hh⟩

/-- The claim applied to a link whose points are apart: the NSV solver and Runge-Kutta. -/
example : ∃ (h h2 : List (Op ℝ)) (w v : World ℝ), World.Hist Gen.Shipped .gen h w ∧
    World.Hist Gen.Shipped .gen h2 v ∧ w.ode = some .newNsv ∧ v.ode = some (.rk4 newRk4) ∧
    ∃ dt : ℝ, 0 < dt ∧ ∃ (N : Int) (E : ℝ), ∀ n k, N ≤ n → N ≤ k → ∀ env env2 : Env ℝ,
      ∃ w' v', w.process .gen env dt n = .ok w' ∧ v.process .gen env2 dt k = .ok v' ∧
        ∀ b ∈ regBodies h, ∀ q : Coord,
          |(v'.bodies b).pos q - (w'.bodies b).pos q| ≤ E / n + E / k ∧
          |(v'.bodies b).vel q - (w'.bodies b).vel q| ≤ E / n + E / k := by
  obtain ⟨h, w, d, hs⟩ := demo_ode (.link ⟨1, 3, 4, 7, 9, 10, 2⟩) (g := .gravity 9) trivial
    (cs := [0]) (fg := [0]) (by decide) (by decide) .ge (o := .newNsv) (.inr (.inl rfl))
  obtain ⟨h2, v, d2, hs2⟩ := demo_ode (.link ⟨1, 3, 4, 7, 9, 10, 2⟩) (g := .gravity 9) trivial
    (cs := [0]) (fg := [0]) (by decide) (by decide) .ge (o := .rk4 newRk4) (.inr (.inr rfl))
  have hst := d.standard (.inl (by simp [CKind.counts])) trivial
  have hst2 := d2.standard (.inl (by simp [CKind.counts])) trivial
  have hi := d.solvable (d.rank_pins (pins_link _) w.now) trivial
    (by rw [d.full]; simp [CKind.counts]) (.inl (by simp))
  obtain ⟨T, hT, Y, lam, hY⟩ := C92_exact_motion_exists (fun g => Gen.tame) d.hist hst d.sle d.masses
    (by simpa [World.Solvable, d.sle] using hi) (fun g _ => by rw [d.gens]; trivial)
  exact ⟨h, h2, w, v, d.hist, d2.hist, d.ode, d2.ode, T, hT, C97_solvers_agree (fun g => Gen.tame)
    d.hist d2.hist (d.toDemoSys.scene d2.toDemoSys) hst hst2 d.sle d2.sle d.ode (by decide)
    (fun _ => hs) d2.ode (by decide) (fun _ => hs2) (ne_empty_of_mem (d.mem0 rfl)) d.masses hT hY⟩

end

end Scs
