import Verif.PropsHoldFast
import Verif.PropsSplit

/-!
# C129: any sequence of calls with the Gauss-Seidel solver
-/

namespace Scs

open Finset

section
variable {G : Gen ℝ → Prop} {h : List (Op ℝ)} {w : World ℝ} {W : Nat → World ℝ} {envs : Nat → Env ℝ}
  {dts : Nat → ℝ} {ks : Nat → Int} {N : Nat}

/-- What calls of `process` keep. -/
theorem sequence_keeps (hw : World.Hist G .opt h w) (hst : w.Standard h) (hs : w.Sensible h)
    (h0 : W 0 = w)
    (run : ∀ i, i < N → (W i).process .opt (envs i) (dts i) (ks i) = .ok (W (i + 1))) :
    ∀ n, n ≤ N → ∃ h', World.Hist G .opt h' (W n) ∧ regCons h' = regCons h ∧
      (W n).Standard h' ∧ (W n).Sensible h' ∧ w.Moves (W n) := by
  intro n
  induction n with
  | zero => exact fun _ => by rw [h0]; exact ⟨h, hw, rfl, hst, hs, World.Moves.refl w⟩
  | succ n ih =>
    intro hn
    obtain ⟨h', a, b, c, d, m⟩ := ih (by omega)
    have en := run n (by omega)
    have mv := C56_process_only_moves a en
    have s := mv.sensible d
    exact ⟨.process (envs n) (dts n) (ks n) :: h', a.step _ trivial en, b, mv.standard c,
      ⟨s.mass, s.ordered, s.directed, s.apart⟩, m.trans mv⟩

theorem World.Moves.load {w' : World ℝ} (m : w.Moves w') (x : Motion) (b : Nat) (q : Coord) :
    w'.load x b q = w.load x b q := by
  rw [World.load, World.load, m.fg, m.gens, m.mass]

theorem World.Moves.lone {w' : World ℝ} (m : w.Moves w') {S : Finset Nat} {c : Nat} (hl : w.Lone S c) :
    w'.Lone S c := by
  intro c' hc' hne k hk k' hk'
  rw [m.bodyCount] at hk hk'
  have := hl c' hc' hne k hk k' hk'
  simpa only [World.bodyOf, m.conBodies] using this

/-- **C129**, the calls succeed: for every finite sequence of calls of `process` there is a number of
iterations from which on all of them succeed. -/
theorem C129_calls_succeed (hG : ∀ g, G g → g.OnlyForces) (hw : World.Hist G .opt h w)
    (hst : w.Standard h) (hs : w.Sensible h) {e : ℝ} (he : 0 < e) (hdt : ∀ i, 0 < dts i) (N : Nat) :
    ∃ M, ∀ m, M ≤ m → ∃ W : Nat → World ℝ, W 0 = { w with sle := some (.gs m e) } ∧
      ∀ i, i < N → (W i).process .opt (envs i) (dts i) (ks i) = .ok (W (i + 1)) := by
  have key : ∃ M, ∃ V : Nat → World ℝ, V 0 = w ∧ ∀ m, M ≤ m → ∀ i, i < N →
      ({ V i with sle := some (.gs m e) } : World ℝ).process .opt (envs i) (dts i) (ks i) =
        .ok { V (i + 1) with sle := some (.gs m e) } := by
    induction N with
    | zero => exact ⟨0, fun _ => w, rfl, fun m _ i hi => absurd hi (by omega)⟩
    | succ N ih =>
      obtain ⟨M, V, v0, hV⟩ := ih
      have hi := hw.gs M e
      obtain ⟨h', a, -, c, d, -⟩ := sequence_keeps (N := N)
        (W := fun i => { V i with sle := some (.gs M e) }) hi
        ⟨hst.kind, hst.bodies, hst.gens, hst.near⟩ ⟨hs.mass, hs.ordered, hs.directed, hs.apart⟩
        (by simp only [v0]) (hV M le_rfl) N le_rfl
      obtain ⟨N', w', hw'⟩ := C85_enough_iterations hG a c d he (hdt N) (envs N) (ks N)
      refine ⟨max M N', fun i => if i ≤ N then V i else w', by simp [v0], fun m hm i hi => ?_⟩
      rcases Nat.lt_succ_iff_lt_or_eq.mp hi with h1 | h1
      · simp only [if_pos (show i ≤ N by omega), if_pos (show i + 1 ≤ N by omega)]
        exact hV m (by omega) i h1
      · subst h1
        simp only [if_pos le_rfl, if_neg (show ¬ i + 1 ≤ i by omega)]
        exact hw' m (by omega)
  obtain ⟨M, V, v0, hV⟩ := key
  exact ⟨M, fun m hm => ⟨fun i => { V i with sle := some (.gs m e) }, by simp only [v0], hV m hm⟩⟩

/-- The hypotheses can be met: two linked bodies under gravity and a hundred calls of growing length. -/
example (envs : Nat → Env ℝ) : ∃ (h : List (Op ℝ)) (w : World ℝ) (W : Nat → World ℝ) (m : Nat),
    World.Hist Gen.Shipped .opt h w ∧ w.sle = some (.gs m 1) ∧ regCons h = {0} ∧ W 0 = w ∧
    ∀ i, i < 100 → (W i).process .opt (envs i) (1 + i) 4 = .ok (W (i + 1)) := by
  obtain ⟨h, w, d⟩ := demo (.link ⟨1, 3, 4, 7, 9, 0, 0⟩) (g := .gravity 9) trivial (cs := [0])
    (fg := [0]) (by decide) (by decide) .ge
  obtain ⟨M, hM⟩ := C129_calls_succeed (envs := envs) (dts := fun i => 1 + i) (ks := fun _ => 4)
    (fun g => Gen.tame) d.hist (d.standard (Or.inl nofun) trivial)
    (d.sensible (by show (0 : ℝ) ≤ 9; norm_num) trivial) (e := 1) one_pos
    (fun i => by positivity) 100
  obtain ⟨W, w0, run⟩ := hM M le_rfl
  exact ⟨_, _, W, M, d.hist.gs M 1, rfl, by show regCons h = _; rw [d.regC]; rfl, w0, run⟩

/-- **C129**, friction: over any calls of any lengths and numbers of sub-steps a friction with the torque
limit `T` against other torques of at most `L ≤ T` takes at least the speed `(T - L) / I` times the total
time from the body, and a body once at rest never turns again. -/
theorem C129_friction (hG : ∀ g, G g → g.OnlyForces) (hw : World.Hist G .opt h w)
    (hst : w.Standard h) (hs : w.Sensible h) {m : Nat} {d : ℝ} (hsle : w.sle = some (.gs m d))
    (hdt : ∀ i, i < N → 0 < dts i ∧ 0 < ks i) (h0 : W 0 = w)
    (run : ∀ i, i < N → (W i).process .opt (envs i) (dts i) (ks i) = .ok (W (i + 1))) {c b : Nat}
    {r : RotationFriction ℝ} {T L : ℝ} (hc : c ∈ regCons h)
    (hk : (w.cons c).kind = .rotationFriction r) (hT : r.minTorque = -T ∧ r.maxTorque = T)
    (hb : (w.cons c).bodies 0 = .obj b) (hl : w.Lone (regCons h) c)
    (hf : ∀ x, |w.load x b .th| ≤ L) (hL : L ≤ T) :
    (∀ n, n ≤ N → |((W n).bodies b).v_theta| ≤
      max 0 (|(w.bodies b).v_theta| - (∑ i ∈ range n, dts i) * (T - L) / (w.bodies b).I)) ∧
    (∀ n k, n ≤ k → k ≤ N → ((W n).bodies b).v_theta = 0 →
      ((W k).bodies b).v_theta = 0 ∧ ((W k).bodies b).theta = ((W n).bodies b).theta) := by
  have one : ∀ n, n < N → |((W (n + 1)).bodies b).v_theta| ≤
        max 0 (|((W n).bodies b).v_theta| - dts n * (T - L) / (w.bodies b).I) ∧
      (((W n).bodies b).v_theta = 0 → ((W (n + 1)).bodies b).v_theta = 0 ∧
        ((W (n + 1)).bodies b).theta = ((W n).bodies b).theta) := by
    intro n hn
    obtain ⟨h', a, b1, st, ss, mv⟩ := sequence_keeps hw hst hs h0 run n hn.le
    have := C123_friction hG a st ss (mv.sle.trans hsle) (hdt n hn).1 (hdt n hn).2 (run n hn) (c := c)
      (b := b) (r := r) (T := T) (L := L) (b1 ▸ hc) (by rw [mv.kind]; exact hk) hT
      (by rw [mv.conBodies]; exact hb) (b1 ▸ mv.lone hl) (fun x => by rw [mv.load]; exact hf x) hL
    rwa [mv.inertia] at this
  have hI : 0 ≤ (w.bodies b).I := by
    have cn := hst.kind c hc
    simp only [hk, CKind.counts, Option.some.injEq, Prod.mk.injEq] at cn
    obtain ⟨b', hb', e⟩ := hst.bodies c hc 0 (by omega)
    rw [hb] at e
    injection e with e
    exact (hs.mass b (e ▸ hb')).2.le
  constructor
  · intro n
    induction n with
    | zero => intro _; rw [h0]; simp
    | succ n ih =>
      intro hn
      refine ((one n (by omega)).1).trans (max_le (le_max_left _ _) ?_)
      have i1 := ih (by omega)
      have q0 : 0 ≤ dts n * (T - L) / (w.bodies b).I :=
        div_nonneg (mul_nonneg (hdt n (by omega)).1.le (sub_nonneg.mpr hL)) hI
      rw [sum_range_succ, add_mul, add_div]
      rcases max_cases (0 : ℝ) (|(w.bodies b).v_theta| -
        (∑ i ∈ range n, dts i) * (T - L) / (w.bodies b).I) with ⟨h1, -⟩ | ⟨h1, -⟩
      · rw [h1] at i1
        exact le_max_of_le_left (by linarith)
      · rw [h1] at i1
        exact le_max_of_le_right (by linarith)
  · intro n k hnk
    induction k, hnk using Nat.le_induction with
    | base => exact fun _ hz => ⟨hz, rfl⟩
    | succ k hk' ih =>
      intro hN hz
      obtain ⟨i1, i2⟩ := ih (by omega) hz
      obtain ⟨o1, o2⟩ := (one k (by omega)).2 i1
      exact ⟨o1, o2.trans i2⟩

/-- The claim applied to a body turning with speed 5 that a motor turns with at most the torque 1: the
friction with the limit 2 stops it within twenty calls of half a second, and it stands still in the
eighty calls after that. -/
example (envs : Nat → Env ℝ) : ∃ (h : List (Op ℝ)) (w : World ℝ) (W : Nat → World ℝ),
    World.Hist Gen.Shipped .opt h w ∧ W 0 = w ∧ (w.bodies 0).v_theta = 5 ∧
    (∀ i, i < 100 → (W i).process .opt (envs i) (1 / 2) 4 = .ok (W (i + 1))) ∧
    ((W 20).bodies 0).v_theta = 0 ∧ ((W 100).bodies 0).theta = ((W 20).bodies 0).theta := by
  obtain ⟨h, w, d⟩ := demo (.rotationFriction ⟨-2, 2, 0, 0⟩)
    (g := .motor ⟨3, 0, 1, 7, .obj 1, .obj 0⟩) trivial (cs := [0])
    (fg := [0]) (by decide) (by decide) .ge
  have hst : w.Standard h := d.standard (Or.inl nofun) ⟨⟨1, by decide, rfl⟩, 0, by decide, rfl⟩
  have hs : w.Sensible h := d.sensible (by show (-2 : ℝ) ≤ 2; norm_num) trivial
  obtain ⟨M, hM⟩ := C129_calls_succeed (envs := envs) (dts := fun _ => 1 / 2) (ks := fun _ => 4)
    (fun g => Gen.tame) d.hist hst hs (e := 1) one_pos (fun i => by norm_num) 100
  obtain ⟨W, w0, run⟩ := hM M le_rfl
  have v0 : (w.bodies 0).v_theta = 5 := d.vel 0 .th
  obtain ⟨q1, q2⟩ := C129_friction (c := 0) (b := 0) (T := 2) (L := 1) (fun g => Gen.tame)
    (d.hist.gs M 1) ⟨hst.kind, hst.bodies, hst.gens, hst.near⟩
    ⟨hs.mass, hs.ordered, hs.directed, hs.apart⟩ rfl (fun i _ => by norm_num) w0 run
    (by show 0 ∈ regCons h; rw [d.regC]; simp) (d.kind 0) ⟨rfl, rfl⟩ (d.bodies 0 0)
    (fun c' hc' hne => absurd (by
      have hc' : c' ∈ regCons h := hc'
      rw [d.regC] at hc'; simpa using hc') hne)
    (fun x => demo_motored d (by norm_num) rfl rfl (by decide) x 0) (by norm_num)
  have q := q1 20 (by norm_num)
  have iI : (w.bodies 0).I = 1 := d.I 0
  simp only [v0, iI] at q
  norm_num at q
  exact ⟨_, _, W, d.hist.gs M 1, w0, v0, run, q, (q2 20 100 (by norm_num) le_rfl q).2⟩

/-- **C129**, drive: the same relative to the speed of the drive; a body once at that speed keeps it and
turns evenly over all later calls. -/
theorem C129_drive (hG : ∀ g, G g → g.OnlyForces) (hw : World.Hist G .opt h w)
    (hst : w.Standard h) (hs : w.Sensible h) {m : Nat} {d : ℝ} (hsle : w.sle = some (.gs m d))
    (hdt : ∀ i, i < N → 0 < dts i ∧ 0 < ks i) (h0 : W 0 = w)
    (run : ∀ i, i < N → (W i).process .opt (envs i) (dts i) (ks i) = .ok (W (i + 1))) {c b : Nat}
    {r : ConstantRotation ℝ} {T L : ℝ} (hc : c ∈ regCons h)
    (hk : (w.cons c).kind = .constantRotation r) (hT : r.minTorque = -T ∧ r.maxTorque = T)
    (hb : (w.cons c).bodies 0 = .obj b) (hl : w.Lone (regCons h) c)
    (hf : ∀ x, |w.load x b .th| ≤ L) (hL : L ≤ T) :
    (∀ n, n ≤ N → |((W n).bodies b).v_theta + r.rotationSpeed| ≤
      max 0 (|(w.bodies b).v_theta + r.rotationSpeed| -
        (∑ i ∈ range n, dts i) * (T - L) / (w.bodies b).I)) ∧
    (∀ n k, n ≤ k → k ≤ N → ((W n).bodies b).v_theta = -r.rotationSpeed →
      ((W k).bodies b).v_theta = -r.rotationSpeed ∧
      ((W k).bodies b).theta = ((W n).bodies b).theta - (∑ i ∈ Ico n k, dts i) * r.rotationSpeed) := by
  have one : ∀ n, n < N → |((W (n + 1)).bodies b).v_theta + r.rotationSpeed| ≤
        max 0 (|((W n).bodies b).v_theta + r.rotationSpeed| - dts n * (T - L) / (w.bodies b).I) ∧
      (((W n).bodies b).v_theta = -r.rotationSpeed →
        ((W (n + 1)).bodies b).v_theta = -r.rotationSpeed ∧
        ((W (n + 1)).bodies b).theta = ((W n).bodies b).theta - dts n * r.rotationSpeed) := by
    intro n hn
    obtain ⟨h', a, b1, st, ss, mv⟩ := sequence_keeps hw hst hs h0 run n hn.le
    have := C123_drive hG a st ss (mv.sle.trans hsle) (hdt n hn).1 (hdt n hn).2 (run n hn) (c := c)
      (b := b) (r := r) (T := T) (L := L) (b1 ▸ hc) (by rw [mv.kind]; exact hk) hT
      (by rw [mv.conBodies]; exact hb) (b1 ▸ mv.lone hl) (fun x => by rw [mv.load]; exact hf x) hL
    rwa [mv.inertia] at this
  have hI : 0 ≤ (w.bodies b).I := by
    have cn := hst.kind c hc
    simp only [hk, CKind.counts, Option.some.injEq, Prod.mk.injEq] at cn
    obtain ⟨b', hb', e⟩ := hst.bodies c hc 0 (by omega)
    rw [hb] at e
    injection e with e
    exact (hs.mass b (e ▸ hb')).2.le
  constructor
  · intro n
    induction n with
    | zero => intro _; rw [h0]; simp
    | succ n ih =>
      intro hn
      refine ((one n (by omega)).1).trans (max_le (le_max_left _ _) ?_)
      have i1 := ih (by omega)
      have q0 : 0 ≤ dts n * (T - L) / (w.bodies b).I :=
        div_nonneg (mul_nonneg (hdt n (by omega)).1.le (sub_nonneg.mpr hL)) hI
      rw [sum_range_succ, add_mul, add_div]
      rcases max_cases (0 : ℝ) (|(w.bodies b).v_theta + r.rotationSpeed| -
        (∑ i ∈ range n, dts i) * (T - L) / (w.bodies b).I) with ⟨h1, -⟩ | ⟨h1, -⟩
      · rw [h1] at i1
        exact le_max_of_le_left (by linarith)
      · rw [h1] at i1
        exact le_max_of_le_right (by linarith)
  · intro n k hnk
    induction k, hnk using Nat.le_induction with
    | base => exact fun _ hz => ⟨hz, by simp⟩
    | succ k hk' ih =>
      intro hN hz
      obtain ⟨i1, i2⟩ := ih (by omega) hz
      obtain ⟨o1, o2⟩ := (one k (by omega)).2 i1
      refine ⟨o1, ?_⟩
      rw [o2, i2, sum_Ico_succ_top hk']
      ring

/-- The claim applied to a drive for the speed -1 with the torque limit 2 on a body turning with speed 5
that a motor turns with at most the torque 1: after twenty calls of half a second the body has the speed
-1, and it turns by 40 in the eighty calls after that. -/
example (envs : Nat → Env ℝ) : ∃ (h : List (Op ℝ)) (w : World ℝ) (W : Nat → World ℝ),
    World.Hist Gen.Shipped .opt h w ∧ W 0 = w ∧ (w.bodies 0).v_theta = 5 ∧
    (∀ i, i < 100 → (W i).process .opt (envs i) (1 / 2) 4 = .ok (W (i + 1))) ∧
    ((W 20).bodies 0).v_theta = -1 ∧ ((W 100).bodies 0).theta = ((W 20).bodies 0).theta - 40 := by
  obtain ⟨h, w, d⟩ := demo (.constantRotation ⟨1, -2, 2, 0, 0⟩)
    (g := .motor ⟨3, 0, 1, 7, .obj 1, .obj 0⟩) trivial (cs := [0])
    (fg := [0]) (by decide) (by decide) .ge
  have hst : w.Standard h := d.standard (Or.inl nofun) ⟨⟨1, by decide, rfl⟩, 0, by decide, rfl⟩
  have hs : w.Sensible h := d.sensible (by show (-2 : ℝ) ≤ 2; norm_num) trivial
  obtain ⟨M, hM⟩ := C129_calls_succeed (envs := envs) (dts := fun _ => 1 / 2) (ks := fun _ => 4)
    (fun g => Gen.tame) d.hist hst hs (e := 1) one_pos (fun i => by norm_num) 100
  obtain ⟨W, w0, run⟩ := hM M le_rfl
  have v0 : (w.bodies 0).v_theta = 5 := d.vel 0 .th
  obtain ⟨q1, q2⟩ := C129_drive (c := 0) (b := 0) (T := 2) (L := 1) (fun g => Gen.tame)
    (d.hist.gs M 1) ⟨hst.kind, hst.bodies, hst.gens, hst.near⟩
    ⟨hs.mass, hs.ordered, hs.directed, hs.apart⟩ rfl (fun i _ => by norm_num) w0 run
    (by show 0 ∈ regCons h; rw [d.regC]; simp) (d.kind 0) ⟨rfl, rfl⟩ (d.bodies 0 0)
    (fun c' hc' hne => absurd (by
      have hc' : c' ∈ regCons h := hc'
      rw [d.regC] at hc'; simpa using hc') hne)
    (fun x => demo_motored d (by norm_num) rfl rfl (by decide) x 0) (by norm_num)
  have q := q1 20 (by norm_num)
  have iI : (w.bodies 0).I = 1 := d.I 0
  simp only [v0, iI] at q
  norm_num at q
  have q : ((W 20).bodies 0).v_theta = -1 := by linarith
  have q3 := (q2 20 100 (by norm_num) le_rfl q).2
  norm_num at q3
  exact ⟨_, _, W, d.hist.gs M 1, w0, v0, run, q, q3⟩

/-- **C129**, clutch: the same for the difference of the speeds of the two bodies of a clutch: it comes to
zero and the bodies then turn alike from then on. -/
theorem C129_clutch (hG : ∀ g, G g → g.OnlyForces) (hw : World.Hist G .opt h w)
    (hst : w.Standard h) (hs : w.Sensible h) {m : Nat} {d : ℝ} (hsle : w.sle = some (.gs m d))
    (hdt : ∀ i, i < N → 0 < dts i ∧ 0 < ks i) (h0 : W 0 = w)
    (run : ∀ i, i < N → (W i).process .opt (envs i) (dts i) (ks i) = .ok (W (i + 1)))
    {c b1 b2 : Nat} {r : Clutch ℝ} {T L : ℝ} (hc : c ∈ regCons h) (hk : (w.cons c).kind = .clutch r)
    (hT : r.minTorque = -T ∧ r.maxTorque = T) (h1 : (w.cons c).bodies 0 = .obj b1)
    (h2 : (w.cons c).bodies 1 = .obj b2) (hl : w.Lone (regCons h) c)
    (hf : ∀ x, |w.load x b1 .th / (w.bodies b1).I - w.load x b2 .th / (w.bodies b2).I| ≤ L)
    (hL : L ≤ T * (1 / (w.bodies b1).I + 1 / (w.bodies b2).I)) :
    (∀ n, n ≤ N → |((W n).bodies b1).v_theta - ((W n).bodies b2).v_theta| ≤
      max 0 (|(w.bodies b1).v_theta - (w.bodies b2).v_theta| -
        (∑ i ∈ range n, dts i) * (T * (1 / (w.bodies b1).I + 1 / (w.bodies b2).I) - L))) ∧
    (∀ n k, n ≤ k → k ≤ N → ((W n).bodies b1).v_theta = ((W n).bodies b2).v_theta →
      ((W k).bodies b1).v_theta = ((W k).bodies b2).v_theta) := by
  set Q := T * (1 / (w.bodies b1).I + 1 / (w.bodies b2).I) - L with hQ
  have one : ∀ n, n < N → |((W (n + 1)).bodies b1).v_theta - ((W (n + 1)).bodies b2).v_theta| ≤
        max 0 (|((W n).bodies b1).v_theta - ((W n).bodies b2).v_theta| - dts n * Q) ∧
      (((W n).bodies b1).v_theta = ((W n).bodies b2).v_theta →
        ((W (n + 1)).bodies b1).v_theta = ((W (n + 1)).bodies b2).v_theta) := by
    intro n hn
    obtain ⟨h', a, e1, st, ss, mv⟩ := sequence_keeps hw hst hs h0 run n hn.le
    have := C123_clutch hG a st ss (mv.sle.trans hsle) (hdt n hn).1 (hdt n hn).2 (run n hn) (c := c)
      (b1 := b1) (b2 := b2) (r := r) (T := T) (L := L) (e1 ▸ hc) (by rw [mv.kind]; exact hk) hT
      (by rw [mv.conBodies]; exact h1) (by rw [mv.conBodies]; exact h2) (e1 ▸ mv.lone hl)
      (fun x => by rw [mv.load, mv.load, mv.inertia, mv.inertia]; exact hf x)
      (by rw [mv.inertia, mv.inertia]; exact hL)
    rwa [mv.inertia, mv.inertia] at this
  constructor
  · intro n
    induction n with
    | zero => intro _; rw [h0]; simp
    | succ n ih =>
      intro hn
      refine ((one n (by omega)).1).trans (max_le (le_max_left _ _) ?_)
      have i1 := ih (by omega)
      have q0 : 0 ≤ dts n * Q := mul_nonneg (hdt n (by omega)).1.le (sub_nonneg.mpr hL)
      rw [sum_range_succ, add_mul]
      rcases max_cases (0 : ℝ) (|(w.bodies b1).v_theta - (w.bodies b2).v_theta| -
        (∑ i ∈ range n, dts i) * Q) with ⟨h1, -⟩ | ⟨h1, -⟩
      · rw [h1] at i1
        exact le_max_of_le_left (by linarith)
      · rw [h1] at i1
        exact le_max_of_le_right (by linarith)
  · intro n k hnk
    induction k, hnk using Nat.le_induction with
    | base => exact fun _ hz => hz
    | succ k hk' ih => exact fun hN hz => (one k (by omega)).2 (ih (by omega) hz)

/-- The claim applied to a body turning with speed 5 and one at rest, between which a motor with at most
the torque 1 works against a clutch for at most the torque 2: after twenty calls of half a second they
turn alike, and so after a hundred. -/
example (envs : Nat → Env ℝ) : ∃ (h : List (Op ℝ)) (w : World ℝ) (W : Nat → World ℝ),
    World.Hist Gen.Shipped .opt h w ∧ W 0 = w ∧ (w.bodies 0).v_theta = 5 ∧ (w.bodies 1).v_theta = 0 ∧
    (∀ i, i < 100 → (W i).process .opt (envs i) (1 / 2) 4 = .ok (W (i + 1))) ∧
    ∀ k, 20 ≤ k → k ≤ 100 → ((W k).bodies 0).v_theta = ((W k).bodies 1).v_theta := by
  obtain ⟨h, w, d⟩ := demo (.clutch ⟨-2, 2, 0, 0⟩)
    (g := .motor ⟨3, 0, 1, 7, .obj 1, .obj 0⟩) trivial (cs := [0])
    (fg := [0]) (by decide) (by decide) .ge
  have hst : w.Standard h := d.standard (Or.inl nofun) ⟨⟨1, by decide, rfl⟩, 0, by decide, rfl⟩
  have hs : w.Sensible h := d.sensible (by show (-2 : ℝ) ≤ 2; norm_num) trivial
  obtain ⟨M, hM⟩ := C129_calls_succeed (envs := envs) (dts := fun _ => 1 / 2) (ks := fun _ => 4)
    (fun g => Gen.tame) d.hist hst hs (e := 1) one_pos (fun i => by norm_num) 100
  obtain ⟨W, w0, run⟩ := hM M le_rfl
  have v0 : (w.bodies 0).v_theta = 5 := d.vel 0 .th
  have v1 : (w.bodies 1).v_theta = 0 := d.vel 1 .th
  have i0 : (w.bodies 0).I = 1 := d.I 0
  have i1 : (w.bodies 1).I = 1 := d.I 1
  obtain ⟨q1, q2⟩ := C129_clutch (c := 0) (b1 := 0) (b2 := 1) (T := 2) (L := 2) (fun g => Gen.tame)
    (d.hist.gs M 1) ⟨hst.kind, hst.bodies, hst.gens, hst.near⟩
    ⟨hs.mass, hs.ordered, hs.directed, hs.apart⟩ rfl (fun i _ => by norm_num) w0 run
    (by show 0 ∈ regCons h; rw [d.regC]; simp) (d.kind 0) ⟨rfl, rfl⟩ (d.bodies 0 0) (d.bodies 0 1)
    (fun c' hc' hne => absurd (by
      have hc' : c' ∈ regCons h := hc'
      rw [d.regC] at hc'; simpa using hc') hne)
    (fun x => by
      have a0 := abs_le.mp (demo_motored d (by norm_num) rfl rfl (by decide) x 0)
      have a1 := abs_le.mp (demo_motored d (by norm_num) rfl rfl (by decide) x 1)
      show |w.load x 0 .th / (w.bodies 0).I - w.load x 1 .th / (w.bodies 1).I| ≤ 2
      rw [i0, i1, abs_le]
      norm_num at a0 a1 ⊢
      constructor <;> linarith [a0.1, a0.2, a1.1, a1.2])
    (by show (2 : ℝ) ≤ 2 * (1 / (w.bodies 0).I + 1 / (w.bodies 1).I); rw [i0, i1]; norm_num)
  have q := q1 20 (by norm_num)
  simp only [v0, v1, i0, i1] at q
  norm_num at q
  exact ⟨_, _, W, d.hist.gs M 1, w0, v0, v1, run, fun k h1 h2 => q2 20 k h1 h2 (by linarith)⟩

end

end Scs
