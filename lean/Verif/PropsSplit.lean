import Verif.WorldPart

/-!
# Sub-steps and calls

C77: see `PropsStep.lean` for the notions used.
-/

namespace Scs

open Finset

section
variable {G : Gen ℝ → Prop} {h : List (Op ℝ)} {w w' w1 w2 : World ℝ}
  {env env1 env2 : Env ℝ} {s : ℝ} {n m : Int}

/-- No motor among the registered force generators has a damping coefficient. -/
def NoMotorDamping (h : List (Op ℝ)) (w : World ℝ) : Prop :=
  ∀ g ∈ regGens h, ∀ p, w.gens g = .motor p → p.kd = 0

theorem World.Moves.partOf (a : w.Moves w1) : w.PartOf w1 where
  rb := fun b hb => by rw [a.rb]; exact hb
  cs := fun c hc => by rw [a.cs]; exact hc
  fg := fun g hg => by rw [a.fg]; exact hg
  m := fun b _ => (a.mass b).symm
  I := fun b _ => (a.inertia b).symm
  kind := fun c _ => (a.kind c).symm
  rows := fun c _ => (a.rows c).symm
  count := fun c _ => (a.bodyCount c).symm
  at_ := fun c _ k _ => by rw [a.conBodies]
  gens := fun g _ => by rw [a.gens]
  bias := a.bias.symm
  apart := fun c hc hc' => by rw [a.cs] at hc; exact absurd hc hc'
  idle := fun g hg hg' => by rw [a.fg] at hg; exact absurd hg hg'

theorem World.Moves.partOf' (a : w.Moves w1) : w1.PartOf w where
  rb := fun b hb => by rw [a.rb] at hb; exact hb
  cs := fun c hc => by rw [a.cs] at hc; exact hc
  fg := fun g hg => by rw [a.fg] at hg; exact hg
  m := fun b _ => a.mass b
  I := fun b _ => a.inertia b
  kind := fun c _ => a.kind c
  rows := fun c _ => a.rows c
  count := fun c _ => a.bodyCount c
  at_ := fun c _ k _ => by rw [a.conBodies]
  gens := fun g _ => by rw [a.gens]
  bias := a.bias
  apart := fun c hc hc' => by rw [a.cs] at hc'; exact absurd hc hc'
  idle := fun g hg hg' => by rw [a.fg] at hg'; exact absurd hg hg'

theorem World.Moves.standard (a : w.Moves w1) (hst : w.Standard h) :
    w1.Standard (.process env s n :: h) where
  kind := fun c hc => by rw [a.kind, a.rows, a.bodyCount]; exact hst.kind c hc
  bodies := fun c hc k hk => by
    rw [a.bodyCount] at hk
    rw [a.conBodies]
    exact hst.bodies c hc k hk
  gens := fun g hg => by rw [a.gens]; exact hst.gens g hg
  near := fun c hc k hk b e => by
    rw [a.bodyCount] at hk
    rw [a.conBodies] at e
    rw [a.index]
    exact hst.near c hc k hk b e

theorem Gen.load_acc {g : Gen ℝ} (hg : ∀ p, g = .motor p → p.kd = 0) (m : ℝ) (x : Motion)
    (a : Nat → Coord → ℝ) (b : Nat) (q : Coord) : g.load m { x with acc := a } b q = g.load m x b q := by
  cases g with
  | gravity a => rfl
  | static t => rfl
  | spring t => rfl
  | custom f => rfl
  | motor t =>
    have hk := hg t rfl
    have e : ∀ b b', t.drive { x with acc := a } b b' = t.drive x b b' := fun b b' => by
      simp only [Motor.drive, motorTorque, hk, zero_mul]
    simp only [Gen.load, e]

/-- Without damped motors the accelerations at the beginning of a sub-step do not matter. -/
theorem World.Move.acc_congr (hg : ∀ g ∈ w.fg, ∀ p, w.gens g = .motor p → p.kd = 0) {x x' : Motion}
    {μ : Nat → Nat → ℝ} (st : w.Move s x x' μ) (a : Nat → Coord → ℝ) :
    w.Move s { x with acc := a } x' μ := by
  have hl : ∀ b q, w.load { x with acc := a } b q = w.load x b q := fun b q =>
    sum_congr rfl fun g hgm => Gen.load_acc (hg g (List.mem_toFinset.mp hgm)) _ x a b q
  exact ⟨st.ne, fun b hb q => by rw [hl]; exact st.acc b hb q, st.vel, st.pos, st.indep, st.ge,
    fun m e1 e2 hs c hc j hj => by
      simp only [hl]
      exact st.cg m e1 e2 hs c hc j hj, st.gs⟩

theorem NoMotorDamping.fg (hn : NoMotorDamping h w) (hw : World.Hist G .opt h w) :
    ∀ g ∈ w.fg, ∀ p, w.gens g = .motor p → p.kd = 0 :=
  fun g hg => hn g ((hw.regs.gens.mem g).mp hg)

theorem step_len {k : Int} (hk : 0 < k) : (k : ℝ) * s / k = s := by
  have : (k : ℝ) ≠ 0 := by exact_mod_cast hk.ne'
  field_simp

/-- The sub-steps of two calls are sub-steps of one call. -/
theorem split_path (hG : ∀ g, G g → g.OnlyForces) (hw : World.Hist G .opt h w)
    (hst : w.Standard h) (hs : w.sle = some .ge) (hd : NoMotorDamping h w) (hn : 0 < n) (hm : 0 < m)
    (e1 : w.process .opt env1 (n * s) n = .ok w1) (e2 : w1.process .opt env2 (m * s) m = .ok w2) :
    ∃ Z ζ, w.Path ((n + m : Int) * s) (n + m) Z ζ ∧
      (∀ b ∈ w.rb, ∀ q : Coord, (w2.bodies b).pos q = (Z (n + m).toNat).pos b q ∧
        (w2.bodies b).vel q = (Z (n + m).toNat).vel b q) ∧
      (∀ i, (n + m).toNat = i + 1 → ∀ c ∈ w.cs, ∀ (q : Coord) j k, j < (w.cons c).rows →
        k < (w.cons c).bodyCount → (w2.cons c).F q j k = w.reaction (Z i) (ζ i) c q j k) ∧
      s ≠ 0 ∧ ∀ b ∈ w.rb, ∀ q : Coord, (w.bodies b).mass q ≠ 0 := by
  have mv := C56_process_only_moves hw e1
  have hw1 := hw.step (.process env1 (n * s) n) trivial e1
  have p := (hw.ready hG hst.wired).2
  have dr := hst.driven hw.regs
  obtain ⟨X, μ, hX0, hX⟩ := hw.moved hG hst e1
  obtain ⟨Y, ν, hY0, hY⟩ := hw1.moved hG (mv.standard hst) e2
  have stX := hX.step
  have stY : ∀ j, j < m.toNat → w.Move s (Y j) (Y (j + 1)) (ν j) := fun j hj => by
    have := mv.partOf.move p (by rw [mv.sle]; exact hs) hs (hY.step j hj)
    rwa [step_len hm] at this
  rw [step_len hn] at stX
  obtain ⟨N, rfl⟩ : ∃ N : Nat, n = N := ⟨n.toNat, by omega⟩
  obtain ⟨M, rfl⟩ : ∃ M : Nat, m = M := ⟨m.toNat, by omega⟩
  simp only [Int.toNat_natCast] at stX stY
  have hsum : ((N : Int) + (M : Int)).toNat = N + M := by omega
  have hN : 0 < N := by omega
  have hM : 0 < M := by omega
  have mid : w.SameAs (Y 0) { X N with acc := fun _ _ => 0 } := by
    rw [hY0]
    have hl := hX.last
    simp only [Int.toNat_natCast] at hl
    exact ⟨fun b hb q => (hl b hb q).1.symm, fun b hb q => (hl b hb q).2.symm, fun _ _ _ => rfl⟩
  refine ⟨fun i => if i ≤ N then X i else Y (i - N), fun i => if i < N then μ i else ν (i - N),
    ⟨?_, fun i hi => ?_⟩, fun b hb q => ?_, fun i hi c hc q j k hj hk => ?_, (stX 0 hN).ne, hX.mass⟩
  · rw [if_pos (Nat.zero_le _), hX0]
    exact .refl _
  · rw [hsum] at hi
    rw [step_len (by omega)]
    rcases Nat.lt_trichotomy i N with h | h | h
    · rw [if_pos h.le, if_pos (show i + 1 ≤ N from h), if_pos h]
      exact stX i h
    · subst h
      rw [if_pos (Nat.le_refl _), if_neg (by omega), if_neg (by omega), Nat.sub_self,
        show i + 1 - i = 0 + 1 by omega]
      have := (stY 0 hM).congr p dr mid (.refl (Y (0 + 1)))
      exact this.acc_congr (hd.fg hw) (X i).acc
    · rw [if_neg (by omega), if_neg (by omega), if_neg (by omega),
        show i + 1 - N = i - N + 1 by omega]
      exact stY (i - N) (by omega)
  · rw [hsum]
    beta_reduce
    rw [if_neg (by omega), show N + M - N = M by omega]
    have := hY.last b (by rw [mv.rb]; exact hb) q
    rw [Int.toNat_natCast] at this
    exact ⟨this.1.symm, this.2.symm⟩
  · rw [hsum] at hi
    have a := mv.partOf'
    rw [hY.forces (M - 1) (by omega) c (by rw [mv.cs]; exact hc) q j k (by rw [mv.rows]; exact hj)
      (by rw [mv.bodyCount]; exact hk), World.reaction, World.reaction,
      a.rowsOf _ (by rw [mv.cs]; exact hc)]
    beta_reduce
    rw [if_neg (show ¬ i < N by omega), show i - N = M - 1 by omega]
    by_cases h : i ≤ N
    · obtain rfl : i = N := by omega
      have hM1 : M - 1 = 0 := by omega
      rw [if_pos h, hM1, rowsOf_congr p mid hc]
      rfl
    · rw [if_neg h]

/-- **C77**: with Gaussian elimination, and without damped motors, `n` sub-steps followed by `m`
sub-steps of the same length in a second call of `process` lead to the same positions, velocities and
reported forces as `n + m` sub-steps in one call. -/
theorem C77_split_partial (hG : ∀ g, G g → g.OnlyForces) (hw : World.Hist G .opt h w)
    (hst : w.Standard h) (hs : w.sle = some .ge) (hd : NoMotorDamping h w) (hn : 0 < n) (hm : 0 < m)
    (e1 : w.process .opt env1 (n * s) n = .ok w1) (e2 : w1.process .opt env2 (m * s) m = .ok w2)
    (e : w.process .opt env ((n + m : Int) * s) (n + m) = .ok w') :
    (∀ b ∈ regBodies h, (w'.bodies b).pos = (w2.bodies b).pos ∧
      (w'.bodies b).vel = (w2.bodies b).vel) ∧
    ∀ c ∈ regCons h, ∀ (q : Coord) j k, j < (w.cons c).rows → k < (w.cons c).bodyCount →
      (w'.cons c).F q j k = (w2.cons c).F q j k := by
  obtain ⟨Z, ζ, hZ, h1, h2, -⟩ := split_path hG hw hst hs hd hn hm e1 e2
  obtain ⟨k1, k2⟩ := hw.follows hG hst hs hZ e
  refine ⟨fun b hb => ?_, fun c hc q j k hj hk => ?_⟩
  · have hb' := (hw.regs.bodies.mem b).mpr hb
    exact ⟨funext fun q => by rw [(k1 b hb' q).1, (h1 b hb' q).1],
      funext fun q => by rw [(k1 b hb' q).2, (h1 b hb' q).2]⟩
  · have hc' := (hw.regs.cons.mem c).mpr hc
    obtain ⟨i, hi⟩ : ∃ i, (n + m).toNat = i + 1 := ⟨(n + m).toNat - 1, by omega⟩
    rw [k2 i hi c hc' q j k hj hk, h2 i hi c hc' q j k hj hk]

/-- **C77**: if the two calls succeed and there is a constraint, the one call succeeds. -/
theorem C77_join_succeeds_partial (hG : ∀ g, G g → g.OnlyForces) (hw : World.Hist G .opt h w)
    (hst : w.Standard h) (hs : w.sle = some .ge) (hd : NoMotorDamping h w) (hn : 0 < n) (hm : 0 < m)
    (hne : regCons h ≠ ∅) (e1 : w.process .opt env1 (n * s) n = .ok w1)
    (e2 : w1.process .opt env2 (m * s) m = .ok w2) (env : Env ℝ) :
    ∃ w', w.process .opt env ((n + m : Int) * s) (n + m) = .ok w' := by
  obtain ⟨Z, ζ, hZ, -, -, h3, h4⟩ := split_path hG hw hst hs hd hn hm e1 e2
  refine hw.follows_ok hG hst hs hZ h4 (mul_ne_zero (by exact_mod_cast (by omega : n + m ≠ 0)) h3)
    (fun h0 => ?_) env
  rw [hw.regs.cs_nil] at h0
  exact absurd h0 hne

/-- **C77**: if the one call succeeds and there is a constraint, the two calls succeed. -/
theorem C77_split_succeeds_partial (hG : ∀ g, G g → g.OnlyForces) (hw : World.Hist G .opt h w)
    (hst : w.Standard h) (hs : w.sle = some .ge) (hd : NoMotorDamping h w) (hn : 0 < n) (hm : 0 < m)
    (hne : regCons h ≠ ∅) (e : w.process .opt env ((n + m : Int) * s) (n + m) = .ok w')
    (env1 env2 : Env ℝ) : ∃ w1 w2, w.process .opt env1 (n * s) n = .ok w1 ∧
      w1.process .opt env2 (m * s) m = .ok w2 := by
  have p := (hw.ready hG hst.wired).2
  have dr := hst.driven hw.regs
  have h0 : w.cs ≠ [] := fun h0 => by
    rw [hw.regs.cs_nil] at h0
    exact hne h0
  obtain ⟨X, μ, hX0, hX⟩ := hw.moved hG hst e
  have stX := hX.step
  rw [step_len (by omega)] at stX
  have hs0 : s ≠ 0 := (stX 0 (by omega)).ne
  have hP : w.Path (n * s) n X μ := by
    refine ⟨by rw [hX0]; exact .refl _, fun i hi => ?_⟩
    rw [step_len hn]
    exact stX i (by omega)
  obtain ⟨w1, e1⟩ := hw.follows_ok hG hst hs hP hX.mass
    (mul_ne_zero (by exact_mod_cast hn.ne') hs0) (fun h => absurd h h0) env1
  have mv := C56_process_only_moves hw e1
  have hw1 := hw.step (.process env1 (n * s) n) trivial e1
  have hst1 := mv.standard (env := env1) (s := n * s) (n := n) hst
  have p1 := (hw1.ready hG hst1.wired).2
  have hs1 : w1.sle = some .ge := by rw [mv.sle]; exact hs
  have dr1 := hst1.driven hw1.regs
  obtain ⟨k1, -⟩ := hw.follows hG hst hs hP e1
  have hQ : w1.Path (m * s) m
      (fun i => if i = 0 then { X n.toNat with acc := fun _ _ => 0 } else X (n.toNat + i))
      (fun i => μ (n.toNat + i)) := by
    refine ⟨?_, fun i hi => ?_⟩
    · rw [if_pos rfl]
      refine ⟨fun b hb q => ?_, fun b hb q => ?_, fun _ _ _ => rfl⟩
      · exact (k1 b (by rw [← mv.rb]; exact hb) q).1
      · exact (k1 b (by rw [← mv.rb]; exact hb) q).2
    · rw [step_len hm, if_neg (Nat.succ_ne_zero i)]
      have := mv.partOf'.move p1 hs hs1 (stX (n.toNat + i) (by omega))
      by_cases hi0 : i = 0
      · subst hi0
        rw [if_pos rfl]
        refine this.acc_congr (fun g hg => ?_) _
        rw [mv.gens]
        exact hd.fg hw g (by rw [← mv.fg]; exact hg)
      · rw [if_neg hi0]
        exact this
  obtain ⟨w2, e2⟩ := hw1.follows_ok hG hst1 hs1 hQ (fun b hb q => by
      rw [mv.partOf'.mass hb]
      exact hX.mass b (by rw [← mv.rb]; exact hb) q)
    (mul_ne_zero (by exact_mod_cast hm.ne') hs0) (fun h => absurd (by rw [← mv.cs]; exact h) h0) env2
  exact ⟨w1, w2, e1, e2⟩

/-- **C77**: `N` calls of `process` with one sub-step each lead to the same positions, velocities and
reported forces as one call with `N` sub-steps, and if they succeed, so does the one call. -/
theorem C77_calls_partial (hG : ∀ g, G g → g.OnlyForces) (N : Nat) {W : Nat → World ℝ}
    {envs : Nat → Env ℝ} (hw : World.Hist G .opt h (W 0)) (hst : (W 0).Standard h)
    (hs : (W 0).sle = some .ge) (hd : NoMotorDamping h (W 0)) (hne : regCons h ≠ ∅)
    (e : ∀ i, i < N + 1 → (W i).process .opt (envs i) s 1 = .ok (W (i + 1))) :
    (∀ env, ∃ w', (W 0).process .opt env ((N + 1 : Nat) * s) (N + 1 : Nat) = .ok w') ∧
    ∀ env w', (W 0).process .opt env ((N + 1 : Nat) * s) (N + 1 : Nat) = .ok w' →
      (∀ b ∈ regBodies h, (w'.bodies b).pos = ((W (N + 1)).bodies b).pos ∧
        (w'.bodies b).vel = ((W (N + 1)).bodies b).vel) ∧
      ∀ c ∈ regCons h, ∀ (q : Coord) j k, j < ((W 0).cons c).rows → k < ((W 0).cons c).bodyCount →
        (w'.cons c).F q j k = ((W (N + 1)).cons c).F q j k := by
  induction N generalizing W envs h with
  | zero =>
    have e0 := e 0 (by omega)
    obtain ⟨X, μ, hX0, hX⟩ := hw.moved hG hst e0
    have hP : (W 0).Path s 1 X μ := ⟨by rw [hX0]; exact .refl _, hX.step⟩
    have c1 : ((0 + 1 : Nat) : ℝ) * s = s := by rw [zero_add, Nat.cast_one, one_mul]
    have c2 : ((0 + 1 : Nat) : Int) = 1 := rfl
    rw [c1, c2]
    refine ⟨fun env => hw.follows_ok hG hst hs hP hX.mass (fun h0 => ?_) (fun h0 => ?_) env,
      fun env w' ew => ?_⟩
    · exact (hX.step 0 (by decide)).ne (by rw [h0, zero_div])
    · rw [hw.regs.cs_nil] at h0
      exact absurd h0 hne
    · obtain ⟨k1, k2⟩ := hw.follows hG hst hs hP ew
      refine ⟨fun b hb => ?_, fun c hc q j k hj hk => ?_⟩
      · have hb' := (hw.regs.bodies.mem b).mpr hb
        have hl := hX.last b hb'
        exact ⟨funext fun q => by rw [(k1 b hb' q).1, ← (hl q).1],
          funext fun q => by rw [(k1 b hb' q).2, ← (hl q).2]⟩
      · have hc' := (hw.regs.cons.mem c).mpr hc
        rw [k2 0 rfl c hc' q j k hj hk, hX.forces 0 rfl c hc' q j k hj hk]
  | succ N ih =>
    have e0 := e 0 (by omega)
    have mv := C56_process_only_moves hw e0
    have hw1 := hw.step (.process (envs 0) s 1) trivial e0
    have hst1 := mv.standard (env := envs 0) (s := s) (n := 1) hst
    obtain ⟨i1, i2⟩ := ih (W := fun i => W (i + 1)) (envs := fun i => envs (i + 1)) hw1 hst1
      (by rw [mv.sle]; exact hs) (fun g hg p => by rw [mv.gens]; exact hd g hg p) hne
      (fun i hi => e (i + 1) (by omega))
    obtain ⟨u, eu⟩ := i1 (envs 0)
    have c1 : ((N + 1 + 1 : Nat) : Int) = (1 : Int) + (N + 1 : Nat) := by push_cast; ring
    have c2 : (((N + 1 + 1 : Nat) : ℝ)) = (((1 : Int) + (N + 1 : Nat) : Int) : ℝ) := by push_cast; ring
    have e1 : (W 0).process .opt (envs 0) (((1 : Int) : ℝ) * s) 1 = .ok (W 1) := by
      rw [Int.cast_one, one_mul]; exact e0
    have e2 : (W 1).process .opt (envs 0) ((((N + 1 : Nat) : Int) : ℝ) * s) (N + 1 : Nat) = .ok u := by
      rw [Int.cast_natCast]; exact eu
    refine ⟨fun env => ?_, fun env w' ew => ?_⟩
    · rw [c1, c2]
      exact C77_join_succeeds_partial hG hw hst hs hd (by omega) (by omega) hne e1 e2 env
    · rw [c1, c2] at ew
      obtain ⟨s1, s2⟩ := C77_split_partial hG hw hst hs hd (by omega) (by omega) e1 e2 ew
      obtain ⟨t1, t2⟩ := i2 _ _ eu
      refine ⟨fun b hb => ⟨?_, ?_⟩, fun c hc q j k hj hk => ?_⟩
      · rw [(s1 b hb).1, (t1 b hb).1]
      · rw [(s1 b hb).2, (t1 b hb).2]
      · rw [s2 c hc q j k hj hk]
        exact t2 c hc q j k (by rw [mv.rows]; exact hj) (by rw [mv.bodyCount]; exact hk)

end

section

/-- The hypotheses are met: two linked bodies under gravity, two and three sub-steps. -/
example (l : Link ℝ) (env env1 env2 : Env ℝ) : ∃ (h : List (Op ℝ)) (w w1 w2 w' : World ℝ),
    World.Hist Gen.Shipped .opt h w ∧ w.Standard h ∧ w.sle = some .ge ∧ NoMotorDamping h w ∧
      regBodies h = {0, 1} ∧ regCons h ≠ ∅ ∧
      w.process .opt env1 ((2 : Int) * (1 / 60 : ℝ)) 2 = .ok w1 ∧
      w1.process .opt env2 ((3 : Int) * (1 / 60 : ℝ)) 3 = .ok w2 ∧
      w.process .opt env ((2 + 3 : Int) * (1 / 60 : ℝ)) (2 + 3) = .ok w' := by
  obtain ⟨h, w, w', d, hst, e⟩ := demo_pins (pins_link l) (g := .gravity 9) trivial trivial
    (sv := .ge) trivial (by simp) (dt := (2 + 3 : Int) * (1 / 60 : ℝ)) (by norm_num) (2 + 3) env
  have hd : NoMotorDamping h w := fun g _ p hp => by rw [d.gens] at hp; cases hp
  have hne : regCons h ≠ ∅ := ne_empty_of_mem (d.mem0 rfl)
  obtain ⟨w1, w2, e1, e2⟩ := C77_split_succeeds_partial (fun g => Gen.tame) d.hist hst d.sle hd
    (by norm_num) (by norm_num) hne e env1 env2
  exact ⟨h, w, w1, w2, w', d.hist, hst, d.sle, hd, d.regB, hne, e1, e2, e⟩

/-- A motor with damping between two bodies. -/
noncomputable def dampedMotor : Motor ℝ := ⟨1, 1, 100, 0, .obj 0, .obj 1⟩

theorem dampedMotor_load {w : World ℝ} (x : Motion) (hw : w.fg = [0])
    (hg : w.gens 0 = .motor dampedMotor) :
    w.load x 0 .th = -min 100 (max (-100) (-(x.vel 1 .th - x.vel 0 .th) - (x.acc 1 .th - x.acc 0 .th))) ∧
    w.load x 1 .th = min 100 (max (-100) (-(x.vel 1 .th - x.vel 0 .th) - (x.acc 1 .th - x.acc 0 .th))) := by
  simp only [World.load, hw, hg, List.toFinset_cons, List.toFinset_nil, insert_empty_eq, sum_singleton,
    Gen.load, dampedMotor, Motor.drive, motorTorque, fp_fmin, fp_fmax, pureTorque, if_true,
    zero_ne_one, one_ne_zero, if_false, add_zero, zero_add, one_mul, zero_sub, and_self]

/-- **C77** is violated by damped motors: two bodies, joined at their centres and driven by a motor with
damping, rotate differently after two sub-steps in one call of `process` and two calls with one
sub-step.  (The motor damps by the accelerations of the previous sub-step, which are lost between
calls.) -/
theorem C77_damped_motor_violates (env env1 env2 : Env ℝ) :
    ∃ (h : List (Op ℝ)) (w w1 w2 w' : World ℝ), World.Hist Gen.Shipped .opt h w ∧ w.Standard h ∧
      w.sle = some .ge ∧ regBodies h = {0, 1} ∧ regCons h = {0} ∧ regGens h = {0} ∧
      w.gens 0 = .motor dampedMotor ∧ w.process .opt env1 1 1 = .ok w1 ∧
      w1.process .opt env2 1 1 = .ok w2 ∧ w.process .opt env 2 2 = .ok w' ∧
      (w2.bodies 1).v_theta = 0 ∧ (w'.bodies 1).v_theta = -10 := by
  let l : Link ℝ := ⟨0, 0, 0, 0, 0, 0, 0⟩
  have hg : (Gen.motor dampedMotor).Within (· ∈ ({0, 1} : Finset Nat)) :=
    ⟨⟨0, by simp, rfl⟩, 1, by simp, rfl⟩
  obtain ⟨h, w, w', d, hst, e⟩ := demo_pins (pins_link l) (g := .motor dampedMotor) trivial hg
    (sv := .ge) trivial (by simp) (dt := 2) (by norm_num) 2 env
  obtain ⟨w1, e1⟩ := d.runs_pins hg (pins_link l) trivial (.inl (by simp)) one_ne_zero 1 env1
  have mv := C56_process_only_moves d.hist e1
  have hw1 := d.hist.step (.process env1 1 1) trivial e1
  have hst1 := mv.standard (env := env1) (s := 1) (n := 1) hst
  have p1 := (hw1.ready (fun g => Gen.tame) hst1.wired).2
  have hs1 : w1.sle = some .ge := by rw [mv.sle]; exact d.sle
  obtain ⟨w2, e2⟩ : ∃ w2, w1.process .opt env2 1 1 = .ok w2 := by
    refine hw1.goes (fun g => Gen.tame) hst1 (fun b hb q => ?_) one_ne_zero (by rw [hs1]; simp)
      (fun _ _ => True) (fun _ _ _ => trivial) (fun _ _ _ _ _ _ _ => trivial) (fun _ _ x _ _ => ?_)
      (fun h0 => ?_) env2
    · rw [mv.partOf'.mass hb, d.mass]
      exact one_ne_zero
    · simp only [World.Solvable, hs1]
      exact mv.partOf'.indep p1 (indep_of_rank (fun b _ q => by rw [d.mass]; exact one_pos)
        (d.rank_pins (pins_link l) x))
    · rw [mv.cs, d.cs_eq] at h0
      cases h0
  have hk : ∀ c, (w.cons c).kind = .link l := d.kind
  have con : ∀ x μ b, w.conForce (w.reaction x μ) b .th = 0 := fun x μ b => by
    refine sum_eq_zero fun c _ => sum_eq_zero fun j hj => sum_eq_zero fun k hkk => ?_
    have hr : (w.cons c).rows = 2 := by rw [d.rows]; rfl
    have hc : (w.cons c).bodyCount = 2 := by rw [d.count]; rfl
    rw [hr, mem_range] at hj
    rw [hc, mem_range] at hkk
    rw [World.reaction, show (w.rowsOf x c).J j (k * 3 + Coord.th.d) = 0 from ?_, mul_zero, ite_self]
    simp only [World.rowsOf, hk]
    have cj : j = 0 ∨ j = 1 := by omega
    have ck : k = 0 ∨ k = 1 := by omega
    rcases cj with rfl | rfl <;> rcases ck with rfl | rfl
    · show -ry (x.q w c 2) 0 0 = 0
      simp [ry]
    · show ry (x.q w c 5) 0 0 = 0
      simp [ry]
    · show rx (x.q w c 2) 0 0 = 0
      simp [rx]
    · show -rx (x.q w c 5) 0 0 = 0
      simp [rx]
  have hb : ∀ b, b = 0 ∨ b = 1 → b ∈ w.rb := fun b => (d.rb b).mpr
  have turn : ∀ {s : ℝ} {x x' : Motion} {μ : Nat → Nat → ℝ}, w.Move s x x' μ → ∀ b, b = 0 ∨ b = 1 →
      x'.acc b .th = w.load x b .th ∧ x'.vel b .th = x.vel b .th + s * w.load x b .th := by
    intro s x x' μ st b h
    have := st.acc b (hb b h) .th
    rw [con, d.mass, add_zero, div_one] at this
    exact ⟨this, by rw [st.vel b (hb b h), this]⟩
  have hv : ∀ b, (w.bodies b).vel .th = (demoBody b).vel .th := fun b => d.vel b .th
  have hfg : w.gens 0 = .motor dampedMotor := d.gens 0
  obtain ⟨X, μ, hX0, hX⟩ := d.hist.moved (fun g => Gen.tame) hst e
  obtain ⟨Y, ν, hY0, hY⟩ := d.hist.moved (fun g => Gen.tame) hst e1
  obtain ⟨Z, ζ, hZ0, hZ⟩ := hw1.moved (fun g => Gen.tame) hst1 e2
  have one : ∀ {s : ℝ} {x' : Motion} {μ : Nat → Nat → ℝ}, s = 1 → w.Move s w.now x' μ →
      x'.vel 0 .th = 0 ∧ x'.vel 1 .th = 5 ∧ x'.acc 0 .th = -5 ∧ x'.acc 1 .th = 5 := by
    intro s x' μ hs st
    subst hs
    have l0 := dampedMotor_load w.now d.fg_eq hfg
    have v0 : w.now.vel 0 .th = 5 := (hv 0).trans (by simp [demoBody, Body.vel])
    have v1 : w.now.vel 1 .th = 0 := (hv 1).trans (by simp [demoBody, Body.vel])
    have a0 : ∀ b, w.now.acc b .th = 0 := fun _ => rfl
    rw [v0, v1, a0, a0] at l0
    norm_num at l0
    obtain ⟨t1, t2⟩ := turn st 0 (.inl rfl)
    obtain ⟨t3, t4⟩ := turn st 1 (.inr rfl)
    rw [t1, t2, t3, t4, v0, v1, l0.1, l0.2]
    norm_num
  obtain ⟨x1, x2, x3, x4⟩ := one (by norm_num) (hX0 ▸ hX.step 0 (by decide))
  obtain ⟨y1, y2, -, -⟩ := one (by norm_num) (hY0 ▸ hY.step 0 (by decide))
  have stZ := mv.partOf.move (d.hist.ready (fun g => Gen.tame) hst.wired).2 hs1 d.sle
    (hZ.step 0 (by decide))
  have hl := hY.last
  refine ⟨h, w, w1, w2, w', d.hist, hst, d.sle, d.regB, by rw [d.regC]; rfl, by rw [d.regG]; rfl, hfg,
    e1, e2, e, ?_, ?_⟩
  · have z0 : (Z 0).vel 0 .th = 0 := by rw [hZ0]; exact (hl 0 (hb 0 (.inl rfl)) .th).2.symm.trans y1
    have z1 : (Z 0).vel 1 .th = 5 := by rw [hZ0]; exact (hl 1 (hb 1 (.inr rfl)) .th).2.symm.trans y2
    have a0 : ∀ b, (Z 0).acc b .th = 0 := fun b => by rw [hZ0]; rfl
    have l0 := (dampedMotor_load (Z 0) d.fg_eq hfg).2
    rw [z0, z1, a0, a0] at l0
    norm_num at l0
    have := (turn stZ 1 (.inr rfl)).2
    rw [l0, z1] at this
    refine ((hZ.last 1 (by rw [mv.rb]; exact hb 1 (.inr rfl)) .th).2.symm.trans this).trans ?_
    norm_num
  · have l0 := (dampedMotor_load (X 1) d.fg_eq hfg).2
    rw [x1, x2, x3, x4] at l0
    norm_num at l0
    have := (turn (hX.step 1 (by decide)) 1 (.inr rfl)).2
    rw [l0, x2] at this
    refine ((hX.last 1 (hb 1 (.inr rfl)) .th).2.symm.trans this).trans ?_
    norm_num

end

end Scs
