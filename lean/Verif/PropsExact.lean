import Verif.WorldExact

/-!
# C87: the exact step with limited forces, and how Gauss-Seidel approaches it

`World.Nearly w dt E mult u` of `WorldExact.lean`: `u` are velocities after a step of length `dt` in
which the forces `mult` along the rows of the constraints are within their limits and each row is
satisfied up to `E`, or its force is at a limit and the bodies give way. The step is exact if `E` is 0.
-/

namespace Scs

open Finset

section
variable {G : Gen ℝ → Prop} {h h2 : List (Op ℝ)} {w w' v v' : World ℝ} {env env2 : Env ℝ} {dt : ℝ}

/-- **C87**: every state of a system with positive masses, force limits in order and no degenerate
constraint has an exact step, also if constraints are redundant or contradict each other. -/
theorem C87_exact_exists (hG : ∀ g, G g → g.OnlyForces) (hw : World.Hist G .opt h w)
    (hst : w.Standard h) (hs : w.Sensible h) (hdt : 0 < dt) :
    ∃ mult u, w.Nearly dt (fun _ _ => 0) mult u := by
  obtain ⟨hr, p⟩ := hw.ready hG hst.wired
  exact (hs.acts hst hw.regs w.now).exact p hr.fit hdt
    fun c hc => (hs.ordered c ((hw.regs.cons.mem c).mp hc)).le

/-- Two bodies linked twice at the same points away from their centres. -/
theorem demo_twice : ∃ (h : List (Op ℝ)) (w : World ℝ), World.Hist Gen.Shipped .opt h w ∧
    w.Standard h ∧ w.Sensible h ∧ regCons h = {0, 1} ∧ regBodies h = {0, 1} := by
  obtain ⟨h, w, d⟩ := demo (.link ⟨1, 3, 4, 7, 9, 0, 0⟩) (g := .gravity 9) trivial (cs := [0, 1])
    (fg := [0]) (by decide) (by decide) .ge
  exact ⟨h, w, d.hist, d.standard (Or.inl nofun) trivial,
    d.sensible (by show (0 : ℝ) ≤ 9; norm_num) trivial, d.regC, d.regB⟩

/-- The hypotheses can be met: two bodies linked twice. -/
example : ∃ (h : List (Op ℝ)) (w : World ℝ), World.Hist Gen.Shipped .opt h w ∧
    w.Standard h ∧ w.Sensible h ∧ regCons h = {0, 1} ∧ regBodies h = {0, 1} := demo_twice

/-- **C87**: the velocities after an exact step are determined. -/
theorem C87_exact_unique (hG : ∀ g, G g → g.OnlyForces) (hw : World.Hist G .opt h w)
    (hst : w.Standard h) (hs : w.Sensible h) (hdt : 0 < dt) {mult mult' : Nat → Nat → ℝ}
    {u u' : Nat → Coord → ℝ} (a : w.Nearly dt (fun _ _ => 0) mult u)
    (a' : w.Nearly dt (fun _ _ => 0) mult' u') : ∀ b ∈ regBodies h, ∀ q : Coord, u b q = u' b q := by
  have hm := hs.masses hw.regs
  have key := a.close (hw.ready hG hst.wired).2 hm hdt a'
  simp only [add_zero, zero_mul, sum_const_zero, mul_zero] at key
  have nn : ∀ b ∈ w.rb.toFinset, ∀ q : Coord, 0 ≤ (w.bodies b).mass q * (u b q - u' b q) ^ 2 :=
    fun b hb q => mul_nonneg (hm b (List.mem_toFinset.mp hb) q).le (sq_nonneg _)
  intro b hb q
  have hb' := (hw.regs.bodies.mem b).mpr hb
  have hbf := List.mem_toFinset.mpr hb'
  have h0 := le_trans (single_le_sum (f := fun b => Coord.sum fun q =>
    (w.bodies b).mass q * (u b q - u' b q) ^ 2) (fun b hb => by
      have n := nn b hb
      simp only [Coord.sum]
      exact add_nonneg (add_nonneg (n .x) (n .y)) (n .th)) hbf) key
  simp only [Coord.sum] at h0
  have n := nn b hbf
  have n1 := n .x; have n2 := n .y; have n3 := n .th
  have hq : (w.bodies b).mass q * (u b q - u' b q) ^ 2 = 0 := by
    cases q <;> linarith
  have := (mul_eq_zero.mp hq).resolve_left (hm b hb' q).ne'
  exact sub_eq_zero.mp (pow_eq_zero_iff two_ne_zero |>.mp this)

/-- The hypotheses can be met: the exact step of two bodies linked twice. -/
example : ∃ (h : List (Op ℝ)) (w : World ℝ) (mult : Nat → Nat → ℝ) (u : Nat → Coord → ℝ),
    World.Hist Gen.Shipped .opt h w ∧ w.Standard h ∧ w.Sensible h ∧ regCons h = {0, 1} ∧
      w.Nearly 2 (fun _ _ => 0) mult u := by
  obtain ⟨h, w, hw, hst, hs, hc, -⟩ := demo_twice
  obtain ⟨mult, u, a⟩ := C87_exact_exists (fun g => Gen.tame) hw hst hs (dt := 2) two_pos
  exact ⟨h, w, mult, u, hw, hst, hs, hc, a⟩

/-- A call of `process(dt, 1)` with Gauss-Seidel is a nearly exact step. -/
theorem gs_nearly (hG : ∀ g, G g → g.OnlyForces) (hw : World.Hist G .opt h w)
    (hst : w.Standard h) (hs : w.Sensible h) {m : Nat} {d : ℝ} (hsle : w.sle = some (.gs m d))
    (hd : 0 < d) (hd1 : d < 1) (hdt : 0 < dt) (e : w.process .opt env dt 1 = .ok w') :
    ∃ mult : Nat → Nat → ℝ, (∀ c ∈ regCons h, ∀ j, j < (w.cons c).rows →
      ∀ (q : Coord) k, k < (w.cons c).bodyCount →
        (w'.cons c).F q j k = mult c j * (w.rowsOf w.now c).J j (k * 3 + q.d)) ∧
      w.Nearly dt (w.gsSlack d dt w.now mult) mult (fun b => (w'.bodies b).vel) := by
  obtain ⟨mult, hmu⟩ := C86_accuracy hG hw hst hs hsle hd hd1 hdt e
  refine ⟨mult, fun c hc j hj => (hmu c hc j hj).1, fun b hb q => ?_, fun c hc j hj => ?_,
    fun c hc j hj r hr => ?_⟩
  · rw [(C49_one_step hG hw hst.wired hst.gens e ((hw.regs.bodies.mem b).mp hb) q).1]
    congr 4
    exact conForce_congr (fun c hc q j k hj hk =>
      (hmu c ((hw.regs.cons.mem c).mp hc) j hj).1 q k hk) b q
  · obtain ⟨_, l1, l2, _⟩ := hmu c ((hw.regs.cons.mem c).mp hc) j hj
    exact ⟨l1, l2⟩
  · exact (hmu c ((hw.regs.cons.mem c).mp hc) j hj).2.2.2 r hr

/-- **C87**, how close: the velocities after `process(dt, 1)` with Gauss-Seidel and those of the exact
step, in terms of the kinetic energy of the difference. -/
theorem C87_close (hG : ∀ g, G g → g.OnlyForces) (hw : World.Hist G .opt h w)
    (hst : w.Standard h) (hs : w.Sensible h) {m : Nat} {d : ℝ} (hsle : w.sle = some (.gs m d))
    (hd : 0 < d) (hd1 : d < 1) (hdt : 0 < dt) (e : w.process .opt env dt 1 = .ok w')
    {mult' : Nat → Nat → ℝ} {u : Nat → Coord → ℝ} (a : w.Nearly dt (fun _ _ => 0) mult' u) :
    ∃ mult : Nat → Nat → ℝ, (∀ c ∈ regCons h, ∀ j, j < (w.cons c).rows →
      ∀ (q : Coord) k, k < (w.cons c).bodyCount →
        (w'.cons c).F q j k = mult c j * (w.rowsOf w.now c).J j (k * 3 + q.d)) ∧
      ∑ b ∈ regBodies h, Coord.sum (fun q =>
          (w.bodies b).mass q * ((w'.bodies b).vel q - u b q) ^ 2) ≤
        dt * ∑ c ∈ regCons h, ∑ j ∈ range (w.cons c).rows,
          w.gsSlack d dt w.now mult c j * |mult c j - mult' c j| := by
  obtain ⟨mult, hF, hn⟩ := gs_nearly hG hw hst hs hsle hd hd1 hdt e
  have key := hn.close (hw.ready hG hst.wired).2 (hs.masses hw.regs) hdt a
  rw [hw.regs.rb_finset, hw.regs.cs_finset] at key
  simp only [add_zero] at key
  exact ⟨mult, hF, key⟩

/-- The hypotheses can be met: two bodies linked twice. -/
example (env : Env ℝ) : ∃ (h : List (Op ℝ)) (w w' : World ℝ) (m : Nat) (mult : Nat → Nat → ℝ)
    (u : Nat → Coord → ℝ), World.Hist Gen.Shipped .opt h w ∧ w.Standard h ∧ w.Sensible h ∧
      regCons h = {0, 1} ∧ w.sle = some (.gs m (1 / 10)) ∧ w.process .opt env 2 1 = .ok w' ∧
      w.Nearly 2 (fun _ _ => 0) mult u := by
  obtain ⟨h, w, w', m, hw, hst, hs, hc, -, hsle, e⟩ := demo_gs env 1
  obtain ⟨mult, u, a⟩ := C87_exact_exists (fun g => Gen.tame) hw hst hs (dt := 2) two_pos
  exact ⟨h, w, w', m, mult, u, hw, hst, hs, hc, hsle, e, a⟩

theorem SameObjects.sensible (s : SameObjects h w h2 v) (hs : w.Sensible h) (hst : w.Standard h) :
    v.Sensible h2 where
  mass := fun b hb => by
    rw [← s.rb] at hb
    obtain ⟨_, _, h3, h4⟩ := s.bodies b hb
    rw [h3, h4]
    exact hs.mass b hb
  ordered := fun c hc => by rw [← s.cs] at hc; rw [s.kind c hc]; exact hs.ordered c hc
  directed := fun c hc => by rw [← s.cs] at hc; rw [s.kind c hc]; exact hs.directed c hc
  apart := fun c hc h2 => by
    rw [← s.cs] at hc
    rw [s.count c hc] at h2
    rw [s.at_ c hc 0 (by omega), s.at_ c hc 1 (by omega)]
    exact hs.apart c hc h2

theorem World.Alike.coupling (a : w.Alike v) (p : w.Placed) {c c' : Nat} (hc : c ∈ w.cs)
    (hc' : c' ∈ w.cs) (j j' : Nat) :
    v.coupling (v.rowsOf v.now) c j c' j' = w.coupling (w.rowsOf w.now) c j c' j' := by
  have sm : w.SameAs w.now v.now := ⟨fun b hb q => (a.pos hb q).symm, fun b hb q => (a.vel hb q).symm,
    fun b hb q => rfl⟩
  have er : ∀ c ∈ w.cs, w.rowsOf v.now c = w.rowsOf w.now c := fun c hc => by
    rw [rowsOf_congr p sm hc]
  rw [World.coupling, World.coupling, a.rb]
  refine sum_congr rfl fun b hb => Coord.sum_congr fun q => ?_
  rw [← a.rb, List.mem_toFinset] at hb
  rw [a.coef_rows v.now hc, a.coef_rows v.now hc', a.mass hb, World.coef, World.coef, World.coef,
    World.coef, er c hc, er c' hc']

/-- The largest force along a row of a constraint. -/
noncomputable def CKind.most (K : CKind ℝ) : ℝ := max |K.loT| |K.hiT|

/-- **C87**, the limit: the smaller the tolerance, the closer `process(dt, 1)` with Gauss-Seidel comes
to the exact step. The bound on the tolerance depends only on the registered objects, not on the history
of the system, on the number of iterations, on the multipliers of earlier calls or on the order in which
the objects were registered. -/
theorem C87_limit (hG : ∀ g, G g → g.OnlyForces) (hw : World.Hist G .opt h w)
    (hst : w.Standard h) (hs : w.Sensible h) (hdt : 0 < dt) {mult : Nat → Nat → ℝ}
    {u : Nat → Coord → ℝ} (a : w.Nearly dt (fun _ _ => 0) mult u) {δ : ℝ} (hδ : 0 < δ) :
    ∃ e0 : ℝ, 0 < e0 ∧ ∀ (h2 : List (Op ℝ)) (v v' : World ℝ) (env : Env ℝ) (m : Nat) (d : ℝ),
      World.Hist G .opt h2 v → v.Near h2 → SameObjects h w h2 v → v.sle = some (.gs m d) → 0 < d →
      d ≤ e0 → v.process .opt env dt 1 = .ok v' →
      ∀ b ∈ regBodies h, ∀ q : Coord, |(v'.bodies b).vel q - u b q| ≤ δ ∧
        |(v'.bodies b).pos q - ((w.bodies b).pos q + dt * u b q)| ≤ dt * δ := by
  have p := (hw.ready hG hst.wired).2
  have hm := hs.masses hw.regs
  set B : Nat → ℝ := fun c => (w.cons c).kind.most with hB
  have B0 : ∀ c, 0 ≤ B c := fun c => le_max_of_le_left (abs_nonneg _)
  set K : Nat → Nat → ℝ := fun c j => ∑ c' ∈ w.cs.toFinset, ∑ j' ∈ range (w.cons c').rows,
    |w.coupling (w.rowsOf w.now) c j c' j'| * max (1 / 1000) (2 * (dt * B c')) with hK
  have K0 : ∀ c j, 0 ≤ K c j := fun c j => sum_nonneg fun c' _ => sum_nonneg fun j' _ =>
    mul_nonneg (abs_nonneg _) (le_max_of_le_left (by norm_num))
  set T : ℝ := dt * ∑ c ∈ w.cs.toFinset, ∑ j ∈ range (w.cons c).rows, K c j * (2 * B c) with hT
  have T0 : 0 ≤ T := mul_nonneg hdt.le (sum_nonneg fun c _ => sum_nonneg fun j _ =>
    mul_nonneg (K0 c j) (by have := B0 c; linarith))
  set S : ℝ := ∑ b ∈ w.rb.toFinset, Coord.sum (fun q => 1 / (w.bodies b).mass q) with hS
  have inv0 : ∀ b ∈ w.rb.toFinset, ∀ q : Coord, 0 ≤ 1 / (w.bodies b).mass q := fun b hb q =>
    (one_div_pos.mpr (hm b (List.mem_toFinset.mp hb) q)).le
  have inv1 : ∀ b ∈ w.rb.toFinset, 0 ≤ Coord.sum (fun q => 1 / (w.bodies b).mass q) := fun b hb =>
    add_nonneg (add_nonneg (inv0 b hb .x) (inv0 b hb .y)) (inv0 b hb .th)
  have S0 : 0 ≤ S := sum_nonneg inv1
  refine ⟨min (1 / 2) (δ ^ 2 / (T * S + 1)), lt_min (by norm_num) (by positivity),
    fun h2 v v' env m d hv hnr so hsle hd hde e b hb q => ?_⟩
  have al := so.alike hw hv
  have hstv := so.standard hst hnr
  have hsv := so.sensible hs hst
  have pv := (hv.ready hG hstv.wired).2
  have hd2 : d ≤ 1 / 2 := hde.trans (min_le_left _ _)
  have hdT : d * (T * S + 1) ≤ δ ^ 2 := by
    have := hde.trans (min_le_right _ _)
    exact (le_div_iff₀ (by positivity)).mp this
  obtain ⟨ν, -, hn⟩ := gs_nearly hG hv hstv hsv hsle hd (by linarith) hdt e
  have hn' := al.symm.nearly pv (hstv.driven hv.regs) hn
  have key := hn'.close p hm hdt a
  have hsl : ∀ c ∈ w.cs, ∀ j, v.gsSlack d dt v.now ν c j ≤ d * K c j := by
    intro c hc j
    rw [World.gsSlack, ← al.cs, hK, mul_sum]
    refine sum_le_sum fun c' hc' => ?_
    have hc' := List.mem_toFinset.mp hc'
    rw [mul_sum, al.rows c' hc']
    refine sum_le_sum fun j' hj' => ?_
    have t0 : 0 ≤ max (1 / 1000) (2 * (dt * B c')) := le_max_of_le_left (by norm_num)
    by_cases hh : c' = c ∧ j' = j
    · rw [if_pos hh]
      exact mul_nonneg hd.le (mul_nonneg (abs_nonneg _) t0)
    · rw [if_neg hh, al.coupling p hc hc', mul_left_comm]
      refine mul_le_mul_of_nonneg_left (mul_le_mul_of_nonneg_left (max_le_max le_rfl ?_)
        (abs_nonneg _)) hd.le
      have hl := hn'.limits c' hc' j' (mem_range.mp hj')
      have hb : |ν c' j'| ≤ B c' := abs_le_box hl.1 hl.2
      rw [abs_mul, abs_of_pos hdt, div_le_iff₀ (by linarith)]
      have := mul_le_mul_of_nonneg_left hb hdt.le
      have := mul_nonneg hdt.le (B0 c')
      nlinarith
  have hle : ∑ b ∈ w.rb.toFinset, Coord.sum (fun q =>
      (w.bodies b).mass q * ((v'.bodies b).vel q - u b q) ^ 2) ≤ d * T := by
    refine key.trans ?_
    rw [hT, mul_left_comm]
    refine mul_le_mul_of_nonneg_left ?_ hdt.le
    rw [mul_sum]
    refine sum_le_sum fun c hc => ?_
    have hc := List.mem_toFinset.mp hc
    rw [mul_sum]
    refine sum_le_sum fun j hj => ?_
    have hj := mem_range.mp hj
    have l1 := hn'.limits c hc j hj
    have l2 := a.limits c hc j hj
    have b1 : |ν c j - mult c j| ≤ 2 * B c := by
      have := abs_sub (ν c j) (mult c j)
      have h1 : |ν c j| ≤ B c := abs_le_box l1.1 l1.2
      have h2 : |mult c j| ≤ B c := abs_le_box l2.1 l2.2
      linarith
    rw [add_zero, ← mul_assoc]
    exact mul_le_mul (hsl c hc j) b1 (abs_nonneg _) (mul_nonneg hd.le (K0 c j))
  have hb' := (hw.regs.bodies.mem b).mpr hb
  have hbf := List.mem_toFinset.mpr hb'
  have nn : ∀ b ∈ w.rb.toFinset, ∀ q : Coord,
      0 ≤ (w.bodies b).mass q * ((v'.bodies b).vel q - u b q) ^ 2 :=
    fun b hb q => mul_nonneg (hm b (List.mem_toFinset.mp hb) q).le (sq_nonneg _)
  have one : ∀ f : Nat → Coord → ℝ, (∀ b ∈ w.rb.toFinset, ∀ q, 0 ≤ f b q) →
      f b q ≤ ∑ b ∈ w.rb.toFinset, Coord.sum (f b) := by
    intro f hf
    have h1 := single_le_sum (f := fun b => Coord.sum (f b)) (fun b hb =>
      add_nonneg (add_nonneg (hf b hb .x) (hf b hb .y)) (hf b hb .th)) hbf
    refine le_trans ?_ h1
    have n1 := hf b hbf .x; have n2 := hf b hbf .y; have n3 := hf b hbf .th
    simp only [Coord.sum]
    cases q <;> linarith
  have k1 := (one _ nn).trans hle
  have k2 := one _ inv0
  have hmq := hm b hb' q
  have hvel : |(v'.bodies b).vel q - u b q| ≤ δ := by
    refine abs_le_of_sq_le_sq ?_ hδ.le
    have h1 : ((v'.bodies b).vel q - u b q) ^ 2 ≤ d * T * (1 / (w.bodies b).mass q) := by
      rw [mul_one_div, le_div_iff₀ hmq, mul_comm]
      exact k1
    have h2 : d * T * (1 / (w.bodies b).mass q) ≤ d * T * S :=
      mul_le_mul_of_nonneg_left k2 (mul_nonneg hd.le T0)
    nlinarith
  refine ⟨hvel, ?_⟩
  have hpos := (C49_one_step hG hv hstv.wired hstv.gens e (by rw [← so.rb]; exact hb) q).2
  rw [hpos, al.pos hb']
  have : (w.bodies b).pos q + dt * (v'.bodies b).vel q - ((w.bodies b).pos q + dt * u b q) =
    dt * ((v'.bodies b).vel q - u b q) := by ring
  rw [this, abs_mul, abs_of_pos hdt]
  exact mul_le_mul_of_nonneg_left hvel hdt.le

/-- **C87**, reached: `initialize` with Gauss-Seidel of a small enough tolerance and of enough
iterations makes `process(dt, 1)` succeed and come as close as wanted to the exact step. -/
theorem C87_reached (hG : ∀ g, G g → g.OnlyForces) (hw : World.Hist G .opt h w)
    (hst : w.Standard h) (hs : w.Sensible h) (hdt : 0 < dt) {mult : Nat → Nat → ℝ}
    {u : Nat → Coord → ℝ} (a : w.Nearly dt (fun _ _ => 0) mult u) {δ : ℝ} (hδ : 0 < δ) (env : Env ℝ) :
    ∃ e0 : ℝ, 0 < e0 ∧ ∀ d, 0 < d → d ≤ e0 → ∃ N, ∀ m, N ≤ m → ∃ w' : World ℝ,
      ({ w with sle := some (.gs m d) } : World ℝ).process .opt env dt 1 = .ok w' ∧
      ∀ b ∈ regBodies h, ∀ q : Coord, |(w'.bodies b).vel q - u b q| ≤ δ ∧
        |(w'.bodies b).pos q - ((w.bodies b).pos q + dt * u b q)| ≤ dt * δ := by
  obtain ⟨e0, he0, H⟩ := C87_limit hG hw hst hs hdt a hδ
  refine ⟨e0, he0, fun d hd hde => ?_⟩
  obtain ⟨N, w', h1⟩ := C85_enough_iterations hG hw hst hs hd hdt env 1
  refine ⟨N, fun m hm => ⟨_, h1 m hm, ?_⟩⟩
  refine H _ _ _ env m d (hw.gs m d) hst.near ?_ rfl hd hde (h1 m hm)
  exact ⟨rfl, rfl, rfl, fun b _ => ⟨rfl, rfl, rfl, rfl⟩, fun c _ => rfl, fun c _ => rfl, fun c _ => rfl,
    fun c _ k _ => rfl, fun g _ => rfl, rfl⟩

/-- The claims applied to two bodies linked twice. -/
example (env : Env ℝ) : ∃ (h : List (Op ℝ)) (w : World ℝ) (u : Nat → Coord → ℝ),
    World.Hist Gen.Shipped .opt h w ∧ regCons h = {0, 1} ∧ ∀ δ, 0 < δ → ∃ e0 : ℝ, 0 < e0 ∧
      ∀ d, 0 < d → d ≤ e0 → ∃ N, ∀ m, N ≤ m → ∃ w' : World ℝ,
      ({ w with sle := some (.gs m d) } : World ℝ).process .opt env 2 1 = .ok w' ∧
      |(w'.bodies 0).v_theta - u 0 .th| ≤ δ := by
  obtain ⟨h, w, hw, hst, hs, hc, hb⟩ := demo_twice
  obtain ⟨mult, u, a⟩ := C87_exact_exists (fun g => Gen.tame) hw hst hs (dt := 2) two_pos
  refine ⟨h, w, u, hw, hc, fun δ hδ => ?_⟩
  obtain ⟨e0, he, H⟩ := C87_reached (fun g => Gen.tame) hw hst hs two_pos a hδ env
  refine ⟨e0, he, fun d hd hde => ?_⟩
  obtain ⟨N, hN⟩ := H d hd hde
  refine ⟨N, fun m hm => ?_⟩
  obtain ⟨w', e, hc⟩ := hN m hm
  exact ⟨w', e, (hc 0 (by rw [hb]; simp) .th).1⟩

/-- **C87**, Gaussian elimination: if the forces that it finds are within their limits, then its step is
the exact step. -/
theorem C87_ge (hG : ∀ g, G g → g.OnlyForces) (hw : World.Hist G .opt h w)
    (hst : w.Standard h) (hsle : w.sle = some .ge) (e : w.process .opt env dt 1 = .ok w') :
    ∃ mult : Nat → Nat → ℝ, (∀ c ∈ regCons h, ∀ j, j < (w.cons c).rows →
      ∀ (q : Coord) k, k < (w.cons c).bodyCount →
        (w'.cons c).F q j k = mult c j * (w.rowsOf w.now c).J j (k * 3 + q.d)) ∧
      ((∀ c ∈ regCons h, ∀ j, j < (w.cons c).rows →
        (w.cons c).kind.loT ≤ mult c j ∧ mult c j ≤ (w.cons c).kind.hiT) →
      w.Nearly dt (fun _ _ => 0) mult (fun b => (w'.bodies b).vel)) := by
  obtain ⟨X, mult, h0, hm⟩ := hw.moved hG hst e
  have hF : ∀ c ∈ regCons h, ∀ j, j < (w.cons c).rows → ∀ (q : Coord) k,
      k < (w.cons c).bodyCount →
      (w'.cons c).F q j k = mult 0 c j * (w.rowsOf w.now c).J j (k * 3 + q.d) := by
    intro c hc j hj q k hk
    have := hm.forces 0 rfl c ((hw.regs.cons.mem c).mpr hc) q j k hj hk
    rw [h0] at this
    exact this
  refine ⟨mult 0, hF, fun hl => ⟨fun b hb q => ?_, fun c hc => hl c ((hw.regs.cons.mem c).mp hc),
    fun c hc j hj r hr => Or.inl ?_⟩⟩
  · rw [(C49_one_step hG hw hst.wired hst.gens e ((hw.regs.bodies.mem b).mp hb) q).1]
    congr 4
    exact conForce_congr (fun c hc q j k hj hk => hF c ((hw.regs.cons.mem c).mp hc) j hj q k hk) b q
  · rw [hr, C48_velocity_condition hG hw hst hsle e ((hw.regs.cons.mem c).mp hc) hj, abs_zero]

/-- The claim applied: a turning body held at its angle; the force needed is within the limits. -/
example (env : Env ℝ) : ∃ (h : List (Op ℝ)) (w w' : World ℝ) (mult : Nat → Nat → ℝ),
    World.Hist Gen.Shipped .opt h w ∧ w.Standard h ∧ w.sle = some .ge ∧
      w.process .opt env 2 1 = .ok w' ∧ regCons h = {0} ∧ (w.bodies 0).v_theta = 5 ∧
      w.Nearly 2 (fun _ _ => 0) mult (fun b => (w'.bodies b).vel) := by
  obtain ⟨h, w, w', d, hst, e⟩ := demo_turns (turns_fixed ⟨0, 0, 0⟩) (g := .gravity 9)
    trivial trivial (sv := .ge) trivial (two_ne_zero) 1 env
  have hG : ∀ g : Gen ℝ, g.Shipped → g.OnlyForces := fun g => Gen.tame
  obtain ⟨mult, hF, hN⟩ := C87_ge hG d.hist hst d.sle e
  refine ⟨h, w, w', mult, d.hist, hst, d.sle, e, d.regC, d.vel 0 .th, hN fun c hc j hj => ?_⟩
  have hc0 : c = 0 := by rw [d.regC] at hc; simpa using hc
  subst hc0
  have h1 : (w.cons 0).rows = 1 := d.rows 0
  have h2 : (w.cons 0).bodyCount = 1 := d.count 0
  obtain rfl : j = 0 := by omega
  have r1 := C48_fixed_rotation hG d.hist hst d.sle e hc (d.kind 0) (d.bodies 0 0)
  have r2 := (C49_one_step hG d.hist hst.wired hst.gens e d.bodies_mem.1 .th).1
  have hf := hF 0 hc 0 hj .th 0 (by omega)
  have e1 : (w.rowsOf w.now 0).J 0 (0 * 3 + Coord.th.d) = 1 := by rw [World.rowsOf, d.kind]; rfl
  have e2 : (w.bodies 0).theta = 0 := d.pos 0 .th
  have e3 : (w.bodies 0).vel .th = 5 := d.vel 0 .th
  have e4 : (w'.bodies 0).vel .th = (w'.bodies 0).v_theta := rfl
  have e5 : w.load w.now 0 .th = 0 := sum_eq_zero fun g _ => by
    rw [d.gens]
    simp only [Gen.load]
    exact if_neg nofun
  have e6 : w.conForce (fun c => (w'.cons c).F) 0 .th = mult 0 0 := by
    rw [World.conForce, d.hist.regs.cs_finset, d.regC]
    show ∑ c ∈ {0}, _ = _
    rw [sum_singleton, h1, h2, sum_range_one, sum_range_one, d.bodyOf, if_pos rfl, hf, e1, mul_one]
  rw [e4, e3, e5, e6, d.mass, r1, e2] at r2
  have hm : mult 0 0 = -5 / 2 := by
    have hz : -(w.bias / 2) * ((0 : ℝ) - 0) = 0 := by ring
    have r3 : (0 : ℝ) = 5 + 2 * ((0 + mult 0 0) / 1) := hz.symm.trans r2
    linear_combination (-1 / 2 : ℝ) * r3
  rw [d.kind, hm]
  have hb : (5 / 2 : ℝ) ≤ Fp.dblMax := by
    show (5 / 2 : ℝ) ≤ (2 ^ 53 - 1) * 2 ^ 971
    have : (1 : ℝ) ≤ 2 ^ 971 := one_le_pow₀ (by norm_num)
    exact le_trans (by norm_num) (mul_le_mul_of_nonneg_left this (by norm_num))
  constructor
  · show -Fp.dblMax ≤ (-5 / 2 : ℝ)
    linarith
  · show (-5 / 2 : ℝ) ≤ Fp.dblMax
    linarith

end

end Scs
