import Verif.WorldSeen

/-!
# The frame of reference does not matter

C74.  The notions used: `View` (a frame of reference: a rotation, a shift and a velocity), `View.pos`,
`View.vel`, `View.co` (positions, velocities and forces seen in it), `View.con`, `View.gen` (constraints
and force generators seen in it), all in `WorldView.lean`; see `PropsStep.lean` for the rest.
-/

namespace Scs

open Finset

section
variable {G : Gen ℝ → Prop} {h h2 : List (Op ℝ)} {w w' v v' : World ℝ} {env env2 : Env ℝ} {dt : ℝ}
  {steps : Int} {f : View}

/-- The history `h2` ends with the objects of the history `h` as they are seen in the frame `f`. -/
structure SeenObjects (f : View) (h : List (Op ℝ)) (w : World ℝ) (h2 : List (Op ℝ)) (v : World ℝ) :
    Prop where
  rb : regBodies h2 = regBodies h
  cs : regCons h2 = regCons h
  fg : regGens h2 = regGens h
  pos : ∀ b ∈ regBodies h, (v.bodies b).pos = f.pos (w.bodies b).pos
  vel : ∀ b ∈ regBodies h, (v.bodies b).vel = f.vel (w.bodies b).vel
  m : ∀ b ∈ regBodies h, (v.bodies b).m = (w.bodies b).m
  I : ∀ b ∈ regBodies h, (v.bodies b).I = (w.bodies b).I
  kind : ∀ c ∈ regCons h, (v.cons c).kind = f.con (w.cons c).kind
  rows : ∀ c ∈ regCons h, (v.cons c).rows = (w.cons c).rows
  count : ∀ c ∈ regCons h, (v.cons c).bodyCount = (w.cons c).bodyCount
  at_ : ∀ c ∈ regCons h, ∀ k, k < (w.cons c).bodyCount →
    (v.cons c).bodies k = (w.cons c).bodies k
  gens : ∀ g ∈ regGens h, v.gens g = f.gen (w.gens g)
  bias : v.bias = w.bias

/-- The constraints and force generators mean the same in the frame `f`. -/
structure Fits (f : View) (h : List (Op ℝ)) (w : World ℝ) : Prop where
  cons : ∀ c ∈ regCons h, f.FitsCon (w.cons c).kind
  gens : ∀ g ∈ regGens h, f.FitsGen (w.gens g)

theorem SeenObjects.seen (s : SeenObjects f h w h2 v) (hf : Fits f h w) (hw : World.Hist G .opt h w)
    (hv : World.Hist G .opt h2 v) : World.SeenFrom f w v where
  rb := by rw [hw.regs.rb_finset, hv.regs.rb_finset, s.rb]
  cs := by rw [hw.regs.cs_finset, hv.regs.cs_finset, s.cs]
  fg := by rw [hw.regs.fg_finset, hv.regs.fg_finset, s.fg]
  m := fun b hb => s.m b ((hw.regs.bodies.mem b).mp hb)
  I := fun b hb => s.I b ((hw.regs.bodies.mem b).mp hb)
  kind := fun c hc => s.kind c ((hw.regs.cons.mem c).mp hc)
  fits := fun c hc => hf.cons c ((hw.regs.cons.mem c).mp hc)
  rows := fun c hc => s.rows c ((hw.regs.cons.mem c).mp hc)
  count := fun c hc => s.count c ((hw.regs.cons.mem c).mp hc)
  at_ := fun c hc => s.at_ c ((hw.regs.cons.mem c).mp hc)
  gens := fun g hg => s.gens g ((hw.regs.gens.mem g).mp hg)
  drives := fun g hg => hf.gens g ((hw.regs.gens.mem g).mp hg)
  bias := s.bias

theorem within_gen (f : View) {g : Gen ℝ} {P : Nat → Prop} (hg : g.Within P) :
    (f.gen g).Within P := by
  cases g <;> exact hg

theorem SeenObjects.standard (s : SeenObjects f h w h2 v) (hst : w.Standard h) (hnr : v.Near h2) :
    v.Standard h2 where
  kind := fun c hc => by
    rw [s.cs] at hc
    rw [s.kind c hc, s.rows c hc, s.count c hc, View.counts_con]
    exact hst.kind c hc
  bodies := fun c hc k hk => by
    rw [s.cs] at hc
    rw [s.count c hc] at hk
    rw [s.at_ c hc k hk, s.rb]
    exact hst.bodies c hc k hk
  gens := fun g hg => by
    rw [s.fg] at hg
    rw [s.gens g hg, s.rb]
    exact within_gen f (hst.gens g hg)
  near := hnr

/-- The motion of the system seen in the frame follows the equations of motion there. -/
theorem SeenObjects.path (s : SeenObjects f h w h2 v) (hf : Fits f h w) (hw : World.Hist G .opt h w)
    (hv : World.Hist G .opt h2 v) (hst : w.Standard h) (hs : w.sle = some .ge)
    (hs' : v.sle = some .ge) {X : Nat → Motion} {μ : Nat → Nat → Nat → ℝ} (h0 : X 0 = w.now)
    (hX : ∀ n, n < steps.toNat → w.Move (dt / steps) (X n) (X (n + 1)) (μ n)) :
    v.Path dt steps (fun n => (X n).via (f.after (n * (dt / steps))))
      (fun n c j => ∑ i ∈ range (w.cons c).rows, f.mix (w.cons c).kind j i * μ n c i) where
  first := by
    have a := s.seen hf hw hv
    have e : f.after ((0 : ℕ) * (dt / steps)) = f := by
      rw [Nat.cast_zero, zero_mul, f.after_zero]
    simp only [e, h0]
    refine ⟨fun b hb q => ?_, fun b hb q => ?_, fun b hb q => ?_⟩
    · exact congrFun (s.pos b ((hw.regs.bodies.mem b).mp (a.memb.mp hb))) q
    · exact congrFun (s.vel b ((hw.regs.bodies.mem b).mp (a.memb.mp hb))) q
    · exact (f.co_zero q).symm
  step := fun n hn => by
    have a := (s.seen hf hw hv).after (n * (dt / steps))
    have := a.move (fun c hc => hst.kind c ((hw.regs.cons.mem c).mp hc)) hs hs' (hX n hn)
    rw [View.after_after] at this
    rw [show ((n + 1 : ℕ) : ℝ) * (dt / steps) = n * (dt / steps) + dt / steps by push_cast; ring]
    have hm : ∀ c j i, (f.after (n * (dt / steps))).mix (w.cons c).kind j i =
        f.mix (w.cons c).kind j i := fun c j i => by rw [View.mix_after]
    simp only [hm] at this
    exact this

/-- **C74**: with Gaussian elimination the frame of reference in which a program describes a system
does not matter: if all positions, velocities, anchors, directions and forces of a second system are
those of the first seen in a shifted, turned and moving frame, then after a successful call of
`process` for each of the two the positions and velocities of the bodies of the second are those of the
first seen in that frame (which has moved on by `dt` times its velocity).  The frame must not move if
there are constraints to fixed points or lines of the world, and must not be turned if there is gravity
or a rolling constraint (for the last see `C74_rolling_violates`). -/
theorem C74_same_motion_partial (hG : ∀ g, G g → g.OnlyForces) (hw : World.Hist G .opt h w)
    (hv : World.Hist G .opt h2 v) (hst : w.Standard h) (hnr : v.Near h2)
    (s : SeenObjects f h w h2 v) (hf : Fits f h w) (hs : w.sle = some .ge) (hs' : v.sle = some .ge)
    (hpos : 0 < steps) (e : w.process .opt env dt steps = .ok w')
    (e2 : v.process .opt env2 dt steps = .ok v') {b : Nat} (hb : b ∈ regBodies h) :
    (v'.bodies b).pos = (f.after dt).pos (w'.bodies b).pos ∧
      (v'.bodies b).vel = f.vel (w'.bodies b).vel := by
  have a := s.seen hf hw hv
  obtain ⟨X, μ, h0, hX⟩ := hw.moved hG hst e
  have hZ := s.path hf hw hv hst hs hs' h0 hX.step
  have key := (hv.follows hG (s.standard hst hnr) hs' hZ e2).1 b
    (a.memb.mpr ((hw.regs.bodies.mem b).mpr hb))
  have hl := hX.last b ((hw.regs.bodies.mem b).mpr hb)
  have e1 : f.after (steps.toNat * (dt / steps)) = f.after dt := by
    congr 1
    have h1 : (steps.toNat : ℝ) = (steps : ℝ) := by
      rw [← Int.cast_natCast, Int.toNat_of_nonneg (by omega)]
    have h2 : (steps : ℝ) ≠ 0 := by exact_mod_cast (by omega : steps ≠ 0)
    rw [h1]
    field_simp
  simp only [e1] at key
  have hp : (X steps.toNat).pos b = (w'.bodies b).pos := funext fun q => (hl q).1
  have hu : (X steps.toNat).vel b = (w'.bodies b).vel := funext fun q => (hl q).2
  refine ⟨funext fun q => ?_, funext fun q => ?_⟩
  · rw [(key q).1, ← hp]; rfl
  · rw [(key q).2, ← hu]; rfl

/-- **C74**: the force (and the torque) that the constraints report to exert on each of their bodies,
summed over the rows, is the same seen in the frame. -/
theorem C74_same_forces_partial (hG : ∀ g, G g → g.OnlyForces) (hw : World.Hist G .opt h w)
    (hv : World.Hist G .opt h2 v) (hst : w.Standard h) (hnr : v.Near h2)
    (s : SeenObjects f h w h2 v) (hf : Fits f h w) (hs : w.sle = some .ge) (hs' : v.sle = some .ge)
    (hpos : 0 < steps) (e : w.process .opt env dt steps = .ok w')
    (e2 : v.process .opt env2 dt steps = .ok v') {c : Nat} (hc : c ∈ regCons h) {k : Nat}
    (hk : k < (w.cons c).bodyCount) (q : Coord) :
    ∑ j ∈ range (w.cons c).rows, (v'.cons c).F q j k =
      f.co (fun q => ∑ j ∈ range (w.cons c).rows, (w'.cons c).F q j k) q := by
  have a := s.seen hf hw hv
  obtain ⟨X, μ, h0, hX⟩ := hw.moved hG hst e
  have hZ := s.path hf hw hv hst hs hs' h0 hX.step
  obtain ⟨n, hn⟩ : ∃ n, steps.toNat = n + 1 := ⟨steps.toNat - 1, by omega⟩
  have hc' := (hw.regs.cons.mem c).mpr hc
  have key := (hv.follows hG (s.standard hst hnr) hs' hZ e2).2 n hn c (a.memc.mpr hc')
  rw [a.count c hc', a.rows c hc'] at key
  have hp : w.Proper := fun c hc => hst.kind c ((hw.regs.cons.mem c).mp hc)
  have an := a.after (n * (dt / steps))
  have e1 : (fun q => ∑ j ∈ range (w.cons c).rows, (w'.cons c).F q j k) = fun q =>
      ∑ j ∈ range (w.cons c).rows, μ n c j * (w.rowsOf (X n) c).J j (k * 3 + q.d) := by
    funext q
    refine sum_congr rfl fun j hj => ?_
    rw [hX.forces n hn c hc' q j k (mem_range.mp hj) hk]
    rfl
  rw [e1, f.co_sum]
  simp only [f.co_mul]
  refine Eq.trans (sum_congr rfl fun j hj => ?_) (f.mix_cancel (hp c hc') _ _)
  rw [key q j k (mem_range.mp hj) hk, World.reaction, an.J hp (X n) hc' (mem_range.mp hj) hk q]
  simp only [f.co_after, View.mix_after]

/-- **C74**: when there is at least one constraint, the frame of reference does not decide whether
`process` succeeds either. -/
theorem C74_same_success_partial (hG : ∀ g, G g → g.OnlyForces) (hw : World.Hist G .opt h w)
    (hv : World.Hist G .opt h2 v) (hst : w.Standard h) (hnr : v.Near h2)
    (s : SeenObjects f h w h2 v) (hf : Fits f h w) (hs : w.sle = some .ge) (hs' : v.sle = some .ge)
    (hne : regCons h ≠ ∅) (hpos : 0 < steps) (e : w.process .opt env dt steps = .ok w')
    (env2 : Env ℝ) : ∃ v', v.process .opt env2 dt steps = .ok v' := by
  have a := s.seen hf hw hv
  obtain ⟨X, μ, h0, hX⟩ := hw.moved hG hst e
  have hdt : dt ≠ 0 := fun h0 => (hX.step 0 (by omega)).ne (by rw [h0, zero_div])
  refine hv.follows_ok hG (s.standard hst hnr) hs' (s.path hf hw hv hst hs hs' h0 hX.step)
    (fun b hb q => ?_) hdt (fun h0 => ?_) env2
  · rw [a.memb] at hb
    rw [a.mass hb]
    exact hX.mass b hb q
  · rw [hv.regs.cs_nil, s.cs] at h0
    exact absurd h0 hne

/-- Every system with at most 255 bodies and the initial bias factor can be described in every frame. -/
theorem seen_exists (f : View) (hw : World.Hist Gen.Shipped .opt h w) (hst : w.Standard h)
    (hg : ∀ g, (w.gens g).Shipped) (hb : w.bias = 1) (hc : (regBodies h).card ≤ 255) :
    ∃ (h2 : List (Op ℝ)) (v : World ℝ), World.Hist Gen.Shipped .opt h2 v ∧ v.Near h2 ∧
      SeenObjects f h w h2 v ∧ v.sle = some .ge := by
  obtain ⟨h2, v, q1, q2, q3, q4, q5, q6, q7, q8⟩ := build (G := Gen.Shipped)
    (fun b => { w.bodies b with
      p_x := f.pos (w.bodies b).pos .x, p_y := f.pos (w.bodies b).pos .y
      theta := f.pos (w.bodies b).pos .th, v_x := f.vel (w.bodies b).vel .x
      v_y := f.vel (w.bodies b).vel .y, v_theta := f.vel (w.bodies b).vel .th })
    (fun c => { w.cons c with kind := f.con (w.cons c).kind }) (gens := fun g => f.gen (w.gens g))
    (fun g => by have := hg g; revert this; cases w.gens g <;> exact id)
    hw.regs.bodies.nodup hw.regs.cons.nodup hw.regs.gens.nodup (some .ge) (fun _ _ => 0)
    (fun _ _ => 0)
  have r1 : regBodies h2 = regBodies h := by rw [q3, hw.regs.rb_finset]
  have r2 : regCons h2 = regCons h := by rw [q4, hw.regs.cs_finset]
  have r3 : regGens h2 = regGens h := by rw [q5, hw.regs.fg_finset]
  have hs : SeenObjects f h w h2 v :=
    { rb := r1
      cs := r2
      fg := r3
      pos := fun b _ => funext fun q => by
        have := congrArg (fun x : Body ℝ => x.pos q) (q2.bodies b)
        cases q <;> exact this
      vel := fun b _ => funext fun q => by
        have := congrArg (fun x : Body ℝ => x.vel q) (q2.bodies b)
        cases q <;> exact this
      m := fun b _ => by simpa using congrArg Body.m (q2.bodies b)
      I := fun b _ => by simpa using congrArg Body.I (q2.bodies b)
      kind := fun c _ => by simpa using congrArg Con.kind (q2.cons c)
      rows := fun c _ => by simpa using congrArg Con.rows (q2.cons c)
      count := fun c _ => by simpa using congrArg Con.bodyCount (q2.cons c)
      at_ := fun c _ k _ => by simpa using congrFun (congrArg Con.bodies (q2.cons c)) k
      gens := fun g _ => by rw [q2.gens]
      bias := by rw [q2.bias, hb, fp_lit]; norm_num }
  refine ⟨h2, v, q1, .of_card q1.regs (fun c hc k hk => ?_) (by rw [r1]; exact hc), hs, q7⟩
  rw [r2] at hc
  rw [hs.count c hc] at hk
  rw [hs.at_ c hc k hk, r1]
  exact hst.bodies c hc k hk

/-- The hypotheses of the three theorems are met, in every frame `f` that is turned and shifted but does
not move, by two bodies of which one is held at a point of the world, with a spring between them. -/
example (f : View) (hu : f.ux = 0 ∧ f.uy = 0) (env env2 : Env ℝ) :
    ∃ (h h2 : List (Op ℝ)) (w w' v v' : World ℝ), World.Hist Gen.Shipped .opt h w ∧
      World.Hist Gen.Shipped .opt h2 v ∧ w.Standard h ∧ v.Near h2 ∧ SeenObjects f h w h2 v ∧
      Fits f h w ∧ w.sle = some .ge ∧ v.sle = some .ge ∧ regCons h = {0} ∧ regBodies h = {0, 1} ∧
      w.process .opt env 2 4 = .ok w' ∧ v.process .opt env2 2 4 = .ok v' := by
  obtain ⟨h, w, w', d, hst, e⟩ := demo_pins (pins_fixed ⟨1, 2, 3, 4, 0, 0⟩)
    (g := .spring ⟨1, 5, 6, 7, 8, 9, 1, .obj 0, .obj 1⟩) trivial (by simp [Gen.Within]) (sv := .ge)
    trivial (by simp) (two_ne_zero (α := ℝ)) 4 env
  have hf : Fits f h w := ⟨fun c _ => by rw [d.kind]; exact hu, fun g _ => by rw [d.gens]; trivial⟩
  obtain ⟨h2, v, hv, hn, hs, hsle⟩ := seen_exists f d.hist hst (fun g => by rw [d.gens]; trivial)
    d.bias (by rw [d.regB]; decide)
  obtain ⟨v', e2⟩ := C74_same_success_partial (fun g => Gen.tame) d.hist hv hst hn hs hf d.sle hsle
    (ne_empty_of_mem (d.mem0 rfl)) (by decide) e env2
  exact ⟨h, h2, w, w', v, v', d.hist, hv, hst, hn, hs, hf, d.sle, hsle, by rw [d.regC]; rfl, d.regB,
    e, e2⟩

/-- And, in every frame that is not turned, by two linked bodies that fall. -/
example (f : View) (hφ : f.φ = 0) (env env2 : Env ℝ) :
    ∃ (h h2 : List (Op ℝ)) (w w' v v' : World ℝ), World.Hist Gen.Shipped .opt h w ∧
      World.Hist Gen.Shipped .opt h2 v ∧ w.Standard h ∧ v.Near h2 ∧ SeenObjects f h w h2 v ∧
      Fits f h w ∧ w.sle = some .ge ∧ v.sle = some .ge ∧ regCons h = {0} ∧ regBodies h = {0, 1} ∧
      w.process .opt env 2 4 = .ok w' ∧ v.process .opt env2 2 4 = .ok v' := by
  obtain ⟨h, w, w', d, hst, e⟩ := demo_pins (pins_link ⟨1, 2, 3, 4, 5, 0, 0⟩)
    (g := .gravity 9) trivial trivial (sv := .ge)
    trivial (by simp) (two_ne_zero (α := ℝ)) 4 env
  have hf : Fits f h w :=
    ⟨fun c _ => by rw [d.kind]; trivial, fun g _ => by rw [d.gens]; exact hφ⟩
  obtain ⟨h2, v, hv, hn, hs, hsle⟩ := seen_exists f d.hist hst (fun g => by rw [d.gens]; trivial)
    d.bias (by rw [d.regB]; decide)
  obtain ⟨v', e2⟩ := C74_same_success_partial (fun g => Gen.tame) d.hist hv hst hn hs hf d.sle hsle
    (ne_empty_of_mem (d.mem0 rfl)) (by decide) e env2
  exact ⟨h, h2, w, w', v, v', d.hist, hv, hst, hn, hs, hf, d.sle, hsle, by rw [d.regC]; rfl, d.regB,
    e, e2⟩

/-- The rows of a rolling constraint between the bodies of the demonstration system are independent. -/
theorem rolling_indep {p : Rolling ℝ} (hd : p.dx ^ 2 + p.dy ^ 2 = 1) (hr : p.radius ≠ 0)
    (hk : (w.cons 0).kind = .rolling p) (hcs : w.cs.toFinset = {0}) (h1 : (w.cons 0).rows = 2)
    (h2 : (w.cons 0).bodyCount = 2) (hb : ∀ k, k < 2 → (w.cons 0).bodies k = .obj k) (h0 : 0 ∈ w.rb)
    (hm : ∀ b ∈ w.rb, ∀ q : Coord, 0 < (w.bodies b).mass q) (x : Motion) :
    w.Indep (w.rowsOf x) := by
  refine indep_of_rank hm fun z hz => ?_
  have hof : ∀ k, k < 2 → w.bodyOf 0 k = k := fun k hk => by rw [World.bodyOf, hb k hk]
  have hc : ∀ j q, w.coef (w.rowsOf x) 0 j 0 q = (CKind.rolling p).jT (x.q w 0) j q.d := by
    intro j q
    simp only [World.coef, h2, sum_range_succ, range_zero, sum_empty, hof 0 (by omega),
      hof 1 (by omega), if_pos, World.rowsOf, hk, Nat.zero_mul, Nat.zero_add, zero_add, one_ne_zero,
      if_false, add_zero]
  have e0 := hz 0 h0 .x
  have e1 := hz 0 h0 .y
  rw [hcs] at e0 e1
  simp only [sum_singleton, h1, sum_range_succ, range_zero, sum_empty, zero_add, hc, Coord.d]
    at e0 e1
  rw [show (CKind.rolling p).jT (x.q w 0) 0 0 = p.radius * rx (x.q w 0 2) p.dx p.dy from rfl,
    show (CKind.rolling p).jT (x.q w 0) 1 0 = -ry (x.q w 0 2) p.dx p.dy from rfl] at e0
  rw [show (CKind.rolling p).jT (x.q w 0) 0 1 = p.radius * ry (x.q w 0 2) p.dx p.dy from rfl,
    show (CKind.rolling p).jT (x.q w 0) 1 1 = rx (x.q w 0 2) p.dx p.dy from rfl] at e1
  have hn : rx (x.q w 0 2) p.dx p.dy ^ 2 + ry (x.q w 0 2) p.dx p.dy ^ 2 = 1 := by
    rw [← hd]
    simp only [rx, ry]
    linear_combination (p.dx ^ 2 + p.dy ^ 2) * Real.sin_sq_add_cos_sq (x.q w 0 2)
  have f0 : p.radius * z 0 0 = 0 := by
    linear_combination rx (x.q w 0 2) p.dx p.dy * e0 + ry (x.q w 0 2) p.dx p.dy * e1 -
      p.radius * z 0 0 * hn
  have f1 : z 0 1 = 0 := by
    linear_combination rx (x.q w 0 2) p.dx p.dy * e1 - ry (x.q w 0 2) p.dx p.dy * e0 - z 0 1 * hn
  intro c hcm i hi
  rw [← List.mem_toFinset, hcs, mem_singleton] at hcm
  subst hcm
  have : i = 0 ∨ i = 1 := by omega
  rcases this with rfl | rfl
  · exact (mul_eq_zero.mp f0).resolve_left hr
  · exact f1

/-- **C74** is violated by rolling constraints in a turned frame: there are two bodies with a rolling
constraint, without forces, which after one sub-step do not have the turned velocities when they
are described in a frame turned by a half turn.  (The constraint compares the angle of the wheel,
measured from the axes of the world, with the way rolled on the base.) -/
theorem C74_rolling_violates (env env2 : Env ℝ) :
    ∃ (f : View) (h h2 : List (Op ℝ)) (w w' v v' : World ℝ) (p : Rolling ℝ),
      World.Hist Gen.Shipped .opt h w ∧ World.Hist Gen.Shipped .opt h2 v ∧ w.Standard h ∧
      v.Near h2 ∧ SeenObjects f h w h2 v ∧ f = ⟨Real.pi, 0, 0, 0, 0⟩ ∧ regBodies h = {0, 1} ∧
      regCons h = {0} ∧ regGens h = ∅ ∧ (w.cons 0).kind = .rolling p ∧ w.sle = some .ge ∧
      v.sle = some .ge ∧ w.process .opt env 1 1 = .ok w' ∧ v.process .opt env2 1 1 = .ok v' ∧
      ¬ ∀ b ∈ regBodies h, (v'.bodies b).vel = f.vel (w'.bodies b).vel := by
  obtain ⟨h, w, d⟩ := demo (.rolling ⟨0, 0, 1, 0, 1, 0, 0⟩) (g := .gravity 9) trivial (cs := [0])
    (fg := []) (by decide) (by decide) .ge
  have hst : w.Standard h := d.standard (.inl (by simp [CKind.counts])) trivial
  obtain ⟨h2, v, hv, hn, hs, hsle⟩ := seen_exists ⟨Real.pi, 0, 0, 0, 0⟩ d.hist hst
    (fun g => by rw [d.gens]; trivial) d.bias (by rw [d.regB]; decide)
  have hstv := hs.standard hst hn
  have hc0 : 0 ∈ regCons h := d.mem0 rfl
  have hc0' : 0 ∈ regCons h2 := by rw [hs.cs]; exact hc0
  have hr : (w.cons 0).rows = 2 := by rw [d.rows]; rfl
  have hbc : (w.cons 0).bodyCount = 2 := by rw [d.count]; rfl
  have hr' : (v.cons 0).rows = 2 := by rw [hs.rows 0 hc0]; exact hr
  have hbc' : (v.cons 0).bodyCount = 2 := by rw [hs.count 0 hc0]; exact hbc
  have hk : (w.cons 0).kind = .rolling ⟨0, 0, 1, 0, 1, 0, 0⟩ := d.kind 0
  have hk' : (v.cons 0).kind = .rolling ⟨0, 0, 1, 0, 1, 0, 0⟩ := by rw [hs.kind 0 hc0, hk]; rfl
  have hmem : ∀ b, b ∈ v.rb → b ∈ regBodies h := fun b hb => by
    rw [← hs.rb]; exact (hv.regs.bodies.mem b).mp hb
  have hb0 : 0 ∈ regBodies h := d.bodies_mem.1
  have hb1 : 1 ∈ regBodies h := d.bodies_mem.2
  have hob : ∀ k, k < 2 → (v.cons 0).bodies k = .obj k := fun k hk => by
    rw [hs.at_ 0 hc0 k (by rw [hbc]; exact hk), d.bodies]
  have hm : ∀ b ∈ v.rb, ∀ q : Coord, 0 < (v.bodies b).mass q := fun b hb q => by
    have h1 : (v.bodies b).m = 1 := by rw [hs.m b (hmem b hb), d.m]
    have h2 : (v.bodies b).I = 1 := by rw [hs.I b (hmem b hb), d.I]
    cases q <;> simp [Body.mass, h1, h2]
  obtain ⟨w', e⟩ := (C48_succeeds_iff (env := env) (dt := 1) (fun g => Gen.tame) d.hist hst d.sle
    (ne_empty_of_mem hc0)).mpr ⟨one_ne_zero, d.masses, rolling_indep (by norm_num) (by norm_num) hk
      (by rw [d.cs_eq]; rfl) hr hbc (fun k _ => d.bodies 0 k) ((d.hist.regs.bodies.mem 0).mpr hb0)
      (fun b _ q => by rw [d.mass]; exact one_pos) _⟩
  obtain ⟨v', e2⟩ := (C48_succeeds_iff (env := env2) (dt := 1) (fun g => Gen.tame) hv hstv hsle
    (ne_empty_of_mem hc0')).mpr ⟨one_ne_zero, fun b hb => by
      rw [hs.rb] at hb
      rw [hs.m b hb, hs.I b hb, d.m, d.I]
      exact ⟨one_ne_zero, one_ne_zero⟩, rolling_indep (by norm_num) (by norm_num) hk'
      (by rw [hv.regs.cs_finset, hs.cs, d.regC]; rfl) hr' hbc' hob ((hv.regs.bodies.mem 0).mpr (by
        rw [hs.rb]; exact hb0)) hm _⟩
  refine ⟨_, h, h2, w, w', v, v', _, d.hist, hv, hst, hn, hs, rfl, d.regB, by rw [d.regC]; rfl,
    by rw [d.regG]; rfl, hk, d.sle, hsle, e, e2, fun hall => ?_⟩
  have c1 := C48_velocity_condition (fun g => Gen.tame) d.hist hst d.sle e hc0 (j := 0)
    (by rw [hr]; omega)
  have c2 := C48_velocity_condition (fun g => Gen.tame) hv hstv hsle e2 hc0' (j := 0)
    (by rw [hr']; omega)
  rw [rowAt_two _ _ _ hbc (d.bodies 0 0) (d.bodies 0 1)] at c1
  rw [rowAt_two _ _ _ hbc' (hob 0 (by omega)) (hob 1 (by omega))] at c2
  have q1 := q_two (x := w.now) hbc (d.bodies 0 0) (d.bodies 0 1)
  have q2 := q_two (x := v.now) hbc' (hob 0 (by omega)) (hob 1 (by omega))
  simp only [World.rowsOf, hk] at c1
  simp only [World.rowsOf, hk'] at c2
  have J : ∀ q : Nat → ℝ, ∀ K, K = CKind.rolling ⟨0, 0, 1, 0, 1, 0, 0⟩ →
      K.jT q 0 0 = Real.cos (q 2) ∧ K.jT q 0 1 = Real.sin (q 2) ∧
      K.jT q 0 2 = (q 3 - q 0) * Real.sin (q 2) - (q 4 - q 1) * Real.cos (q 2) ∧
      K.jT q 0 3 = -Real.cos (q 2) ∧ K.jT q 0 4 = -Real.sin (q 2) ∧ K.jT q 0 5 = -1 ∧
      K.cT q 0 = -q 5 - ((q 3 - q 0) * Real.cos (q 2) + (q 4 - q 1) * Real.sin (q 2)) ∧
      K.biasT = 0 := by
    rintro q _ rfl
    refine ⟨?_, ?_, ?_, ?_, ?_, rfl, ?_, rfl⟩
    · show 1 * rx (q 2) 1 0 = _
      simp [rx]
    · show 1 * ry (q 2) 1 0 = _
      simp [ry]
    · show -1 * (ry (q 2) 0 0 * rx (q 2) 1 0 - rx (q 2) 0 0 * ry (q 2) 1 0 -
        (q 3 - q 0 - rx (q 2) 0 0) * ry (q 2) 1 0 + (q 4 - q 1 - ry (q 2) 0 0) * rx (q 2) 1 0) = _
      simp only [rx, ry]; ring
    · show -(1 * rx (q 2) 1 0) = _
      simp [rx]
    · show -(1 * ry (q 2) 1 0) = _
      simp [ry]
    · show -q 5 - 1 * ((q 3 - q 0 - rx (q 2) 0 0) * rx (q 2) 1 0 +
        (q 4 - q 1 - ry (q 2) 0 0) * ry (q 2) 1 0) = _
      simp only [rx, ry]; ring
  obtain ⟨j1, j2, j3, j4, j5, j6, j7, j8⟩ := J (w.now.q w 0) _ rfl
  obtain ⟨k1, k2, k3, k4, k5, k6, k7, k8⟩ := J (v.now.q v 0) _ rfl
  rw [j1, j2, j3, j4, j5, j6, j7, j8, q1.1, q1.2.1, q1.2.2.1, q1.2.2.2.1, q1.2.2.2.2.1,
    q1.2.2.2.2.2, d.bias] at c1
  rw [k1, k2, k3, k4, k5, k6, k7, k8, q2.1, q2.2.1, q2.2.2.1, q2.2.2.2.1, q2.2.2.2.2.1,
    q2.2.2.2.2.2, hs.bias, d.bias, hall 0 hb0, hall 1 hb1] at c2
  have p0 : ∀ q, w.now.pos 0 q = (demoBody 0).pos q := d.pos 0
  have p1 : ∀ q, w.now.pos 1 q = (demoBody 1).pos q := d.pos 1
  have r0 : ∀ q, v.now.pos 0 q = View.pos ⟨Real.pi, 0, 0, 0, 0⟩ (demoBody 0).pos q := fun q => by
    rw [← show (w.bodies 0).pos = _ from funext (d.pos 0), ← hs.pos 0 hb0]; rfl
  have r1 : ∀ q, v.now.pos 1 q = View.pos ⟨Real.pi, 0, 0, 0, 0⟩ (demoBody 1).pos q := fun q => by
    rw [← show (w.bodies 1).pos = _ from funext (d.pos 1), ← hs.pos 1 hb1]; rfl
  simp only [p0, p1, r0, r1, demoBody, Body.pos, View.pos, View.vel, rx, ry, Real.cos_pi, Real.sin_pi,
    Real.cos_zero, Real.sin_zero, zero_add, Nat.cast_zero, Nat.cast_one] at c1 c2
  have := Real.pi_pos
  linarith

end

end Scs
