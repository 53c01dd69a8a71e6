import Verif.WorldGenObj

/-!
# Evaluations and sub-steps of the generic system with shipped constraints and force generators
-/

namespace Scs

open Finset

section
variable {w : World ℝ}

/-- The accelerations `a` that an evaluation computes in the motion `x`; `mult` is the force along
each row of the constraints. -/
structure World.Accel (w : World ℝ) (x : Motion) (a : Nat → Coord → ℝ) (mult : Nat → Nat → ℝ) :
    Prop where
  newton : ∀ b ∈ w.rb, ∀ q : Coord, a b q =
    (w.load x b q + w.conForce (w.reaction x mult) b q) / (w.bodies b).mass q
  indep : w.sle = some .ge → w.Indep (w.rowsOf x)
  ge : w.sle = some .ge → ∀ c ∈ w.cs, ∀ j, j < (w.cons c).rows →
    w.rowAt (w.rowsOf x c) c j a = -w.rowDot (w.rowsOf x c) c j x.vel -
      (w.rowsOf x c).ks j * (w.rowsOf x c).C j -
      (w.rowsOf x c).kd j * w.rowAt (w.rowsOf x c) c j x.vel
  cg : ∀ m e1 e2, w.sle = some (.cg m e1 e2) → ∀ c ∈ w.cs, ∀ j, j < (w.cons c).rows →
    |w.rowAt (w.rowsOf x c) c j a + w.rowDot (w.rowsOf x c) c j x.vel +
      (w.rowsOf x c).ks j * (w.rowsOf x c).C j +
      (w.rowsOf x c).kd j * w.rowAt (w.rowsOf x c) c j x.vel| ≤
      max |e1 * (w.rowAt (w.rowsOf x c) c j (fun b q => w.load x b q / (w.bodies b).mass q) +
        w.rowDot (w.rowsOf x c) c j x.vel + (w.rowsOf x c).ks j * (w.rowsOf x c).C j +
        (w.rowsOf x c).kd j * w.rowAt (w.rowsOf x c) c j x.vel)| e2

theorem World.SubEval.accel (p : w.Placed) (hp : w.Proper) (hg : w.Driven) {s s' : SysState ℝ}
    {ext : Nat → Coord → ℝ} {out : Nat → Output ℝ} {mult : Nat → Nat → ℝ} (hs : s.Wf)
    (hn : w.bodyCount ≤ s.n) (hm : ∀ b ∈ w.rb, s.val .m (w.at b) = (w.bodies b).m)
    (st : w.SubEval s s' ext out mult) : w.Accel (w.seen s) (w.seen s').acc mult ∧
      ∀ c ∈ w.cs, ∀ (q : Coord) j k, j < (w.cons c).rows → k < (w.cons c).bodyCount →
        w.forceAt s'.rval c q j k = w.reaction (w.seen s) mult c q j k := by
  obtain ⟨s1, e1, x1, f1, n1, ext1, c1⟩ := st.state
  have hl : ∀ b ∈ w.rb, ∀ q : Coord, ext b q = w.load (w.seen s) b q := by
    obtain ⟨s1', e', _, _, v⟩ := forces_run p hg hs hn (x := w.seen s)
      ⟨fun b _ q => rfl, fun b _ q => rfl, fun b _ q => rfl, hm⟩
    rw [e1] at e'
    cases e'
    intro b hb q
    rw [ext1 b hb q, v b hb q]
  have hh : ∀ c ∈ w.cs, (out c).Has (w.cons c).kind (w.cons c).rows (w.cons c).bodyCount
      ((w.seen s).q w c) ((w.seen s).u w c) := by
    intro c hc
    obtain ⟨o, e⟩ := c1 c hc
    obtain ⟨out', e', h'⟩ := has_of p hp hc f1 (by rw [n1]; exact hn) x1 o
    rw [e] at e'
    cases e'
    exact h'
  have hr := same_of_has hh
  have hd : ∀ c ∈ w.cs, ∀ j, j < (w.cons c).rows → ∀ v,
      w.rowDot (out c) c j v = w.rowDot (w.rowsOf (w.seen s) c) c j v := by
    intro c hc j hj v
    refine sum_congr rfl fun k hk => Coord.sum_congr fun q => ?_
    rw [(hh c hc).Jd j _ hj (by have := mem_range.mp hk; cases q <;> simp only [Coord.d] <;> omega)]
    rfl
  have hks : ∀ c ∈ w.cs, ∀ j, j < (w.cons c).rows → (out c).ks j = (w.rowsOf (w.seen s) c).ks j ∧
      (out c).kd j = (w.rowsOf (w.seen s) c).kd j := fun c hc j hj =>
    ⟨(hh c hc).ks j hj, (hh c hc).kd j hj⟩
  have hre : ∀ c ∈ w.cs, ∀ (q : Coord) j k, j < (w.cons c).rows → k < (w.cons c).bodyCount →
      mult c j * (out c).J j (k * 3 + q.d) = w.reaction (w.seen s) mult c q j k :=
    fun c hc q j k hj hk => by rw [hr.J c hc j hj k hk q, World.reaction]
  refine ⟨⟨fun b hb q => ?_, fun h => hr.indep (st.indep h), fun h c hc j hj => ?_,
    fun m e1 e2 h c hc j hj => ?_⟩, fun c hc q j k hj hk => ?_⟩
  · rw [st.acc b hb q, hl b hb q, conForce_congr hre]
  · have := st.ge h c hc j hj
    rw [hr.rowAt hc hj, hr.rowAt hc hj, hd c hc j hj, (hks c hc j hj).1, (hks c hc j hj).2,
      hr.C c hc j hj] at this
    exact this
  · have := st.cg m e1 e2 h c hc j hj
    rw [hr.rowAt hc hj, hr.rowAt hc hj, hr.rowAt hc hj, hd c hc j hj, (hks c hc j hj).1,
      (hks c hc j hj).2, hr.C c hc j hj] at this
    have r2 : w.rowAt (w.rowsOf (w.seen s) c) c j (fun b q => ext b q / (w.bodies b).mass q) =
        w.rowAt (w.rowsOf (w.seen s) c) c j
          (fun b q => w.load (w.seen s) b q / (w.bodies b).mass q) :=
      sum_congr rfl fun k hk => Coord.sum_congr fun q => by
        simp only [hl _ (p.bodies c hc k (mem_range.mp hk)).2]
    rw [r2] at this
    exact this
  · rw [st.react c hc q j k hj hk, hre c hc q j k hj hk]

/-- Every evaluation of a successful call of `process` of a system of shipped constraints and force
generators, for any ODE solver. -/
theorem World.Hist.accel {G : Gen ℝ → Prop} {h : List (Op ℝ)} (hG : ∀ g, G g → g.OnlyForces)
    (hw : World.Hist G .gen h w) (hst : w.Standard h) {env : Env ℝ} {dt : ℝ} {steps : Int}
    {w' : World ℝ} (e : w.process .gen env dt steps = .ok w') :
    (∀ b ∈ w.rb, ∀ q : Coord, (w.bodies b).mass q ≠ 0) ∧
    ∃ L, w.evaluations env dt steps = .ok L ∧ L.length = evalCount steps w.ode ∧
      ∀ z ∈ L, w.Shows (w.seen z.2) (fun b => { w.bodies b with
          p_x := (w.seen z.1).pos b .x, p_y := (w.seen z.1).pos b .y,
          theta := (w.seen z.1).pos b .th, v_x := (w.seen z.1).vel b .x,
          v_y := (w.seen z.1).vel b .y, v_theta := (w.seen z.1).vel b .th }) ∧
        ∃ mult, w.Accel (w.seen z.1) (w.seen z.2).acc mult := by
  obtain ⟨_, p⟩ := hw.readyG hG hst.wired
  obtain ⟨hm, L, h1, h2, h3⟩ := hw.evaluated hG hst.wired (hst.slim hw.regs) (fun c hc => by
    have := counts_le (hst.kind c hc); omega) e
  refine ⟨hm, L, h1, h2, fun z hz => ?_⟩
  obtain ⟨z1, z2, z3, ext, out, mult, hz⟩ := h3 z hz
  refine ⟨fun b hb q => ?_, mult,
    (hz.accel p (hst.proper hw.regs) (hst.driven hw.regs) z1 z2 z3).1⟩
  rw [hz.pos b hb q, hz.vel b hb q]
  cases q <;> exact ⟨rfl, rfl⟩

/-! ### Sub-steps with the Euler and the semi-implicit solver -/

/-- One sub-step of length `h` from the motion `x` to the motion `x'`: the semi-implicit solver if
`sym`, otherwise the Euler solver. -/
structure World.GMove (w : World ℝ) (sym : Bool) (h : ℝ) (x x' : Motion) (mult : Nat → Nat → ℝ) :
    Prop where
  acc : w.Accel x x'.acc mult
  vel : ∀ b ∈ w.rb, ∀ q : Coord, x'.vel b q = x.vel b q + h * x'.acc b q
  pos : ∀ b ∈ w.rb, ∀ q : Coord, x'.pos b q = x.pos b q + h * (if sym then x'.vel b q else x.vel b q)

theorem seen_dt (s : SysState ℝ) (d : ℝ) : w.seen ({ s with dt := d } : SysState ℝ) = w.seen s := rfl

theorem World.GStep.gmove (p : w.Placed) (hfit : w.Fit (fun c k => w.at (w.bodyOf c k)))
    (hlow : w.Slim)
    (hp : w.Proper) (hg : w.Driven) {sym : Bool} {h : ℝ} {s s1 s2 s' : SysState ℝ}
    {out : Nat → Output ℝ} {lam : Nat → ℝ} (hs : s.Wf)
    (hn : w.bodyCount ≤ s.n) (hm : ∀ b ∈ w.rb, s.val .m (w.at b) = (w.bodies b).m)
    (st : w.GStep (fun c k => w.at (w.bodyOf c k)) sym h s s1 s2 s' out lam) :
    ∃ mult, w.GMove sym h (w.seen s) (w.seen s') mult ∧
      ∀ c ∈ w.cs, ∀ (q : Coord) j k, j < (w.cons c).rows → k < (w.cons c).bodyCount →
        w.forceAt s'.rval c q j k = w.reaction (w.seen s) mult c q j k := by
  obtain ⟨a1, a2⟩ := (st.ev.obj p hfit hlow (wf_setDt hs h) hm).accel p hp hg (wf_setDt hs h) hn hm
  rw [seen_dt] at a1
  have ha : (w.seen s').acc = (w.seen s2).acc := by
    funext b q
    exact st.acc q _
  refine ⟨_, ⟨by rw [ha]; exact a1, fun b hb q => ?_, fun b hb q => ?_⟩, ?_⟩
  · rw [ha]
    exact st.vel q _ (p.lt b hb)
  · exact st.pos q _ (p.lt b hb)
  · intro c hc q j k hj hk
    rw [← seen_dt s h, ← a2 c hc q j k hj hk, World.forceAt, World.forceAt, st.react]

/-- What a call of `process` does: the motions before and after the sub-steps, and the forces along
the rows. `r` are the stored forces; row `f` of the system writes those on its first and its second
body at `2 f` and `2 f + 1`, and reports what is found at `f` as the force on each of its bodies. -/
structure World.GMoved (w : World ℝ) (sym : Bool) (dt : ℝ) (steps : Int) (w' : World ℝ)
    (X : Nat → Motion) (mult : Nat → Nat → Nat → ℝ) (r : Coord → Nat → ℝ) : Prop where
  first : w.Shows (X 0) w.bodies
  still : ∀ b ∈ w.rb, ∀ q : Coord, (X 0).acc b q = 0
  last : w.Shows (X steps.toNat) w'.bodies
  step : ∀ j, j < steps.toNat → w.GMove sym (dt / steps) (X j) (X (j + 1)) (mult j)
  forces : ∀ n, steps.toNat = n + 1 → ∀ c ∈ w.cs, ∀ (q : Coord) j k, j < (w.cons c).rows →
    k < (w.cons c).bodyCount →
      r q ((w.off (w.conAt c) + j) * 2 + k) = w.reaction (X n) (mult n) c q j k
  shown : ∀ c ∈ w.cs, ∀ (q : Coord) j k, j < (w.cons c).rows → k < (w.cons c).bodyCount →
      (w'.cons c).F q j k = r q (w.off (w.conAt c) + j)
  mass : ∀ b ∈ w.rb, ∀ q : Coord, (w.bodies b).mass q ≠ 0

theorem World.GenDone.gmoved (p : w.Placed) (hfit : w.Fit (fun c k => w.at (w.bodyOf c k)))
    (hlow : w.Slim)
    (hp : w.Proper) (hg : w.Driven) {env : Env ℝ} {dt : ℝ} {steps : Int} {sym : Bool}
    {w' : World ℝ} {s : SysState ℝ}
    {q : (Ctx ℝ × List (SysState ℝ × SysState ℝ)) × Option (Ode ℝ) × SysState ℝ}
    (d : w.GenDone env dt steps w' s q) {S T : Nat → SysState ℝ} (h0 : S 0 = s)
    (hk : S steps.toNat = q.2.2)
    (t : w.GTrace (fun c k => w.at (w.bodyOf c k)) sym (dt / steps) steps.toNat S T) :
    ∃ mult, w.GMoved sym dt steps w' (fun j => w.seen (S j)) mult (fun q i => w'.st.rval q.r i) := by
  have hl := t.like (by rw [h0]; exact d.start.wf)
  have hmass : ∀ j, j ≤ steps.toNat → ∀ b ∈ w.rb, (S j).val .m (w.at b) = (w.bodies b).m :=
    fun j hj b hb => by
      rw [(hl j hj).mass, h0, d.start.mass _ (p.lt b hb), p.rbAt b hb]
  have hstep : ∀ j, ∃ mult, j < steps.toNat →
      w.GMove sym (dt / steps) (w.seen (S j)) (w.seen (S (j + 1))) mult ∧
      ∀ c ∈ w.cs, ∀ (q : Coord) i k, i < (w.cons c).rows → k < (w.cons c).bodyCount →
        w.forceAt (S (j + 1)).rval c q i k = w.reaction (w.seen (S j)) mult c q i k := by
    intro j
    by_cases hj : j < steps.toNat
    · obtain ⟨s1, out, lam, st⟩ := t j hj
      obtain ⟨mult, hm⟩ := st.gmove p hfit hlow hp hg (hl j hj.le).wf
        (by rw [(hl j hj.le).n, h0]; exact d.start.n) (hmass j hj.le)
      exact ⟨mult, fun _ => hm⟩
    · exact ⟨fun _ _ => 0, fun h => absurd h hj⟩
  choose mult hmult using hstep
  refine ⟨mult, fun b hb c => ?_, fun b hb c => ?_, fun b hb c => ?_, fun j hj => (hmult j hj).1,
    fun n hn c hc q j k hj hk' => ?_, fun c hc q j k hj hk' => ?_, fun b hb c => ?_⟩
  · have h1 := d.start.pos c _ (p.lt b hb)
    have h2 := d.start.vel c _ (p.lt b hb)
    rw [p.rbAt b hb] at h1 h2
    simp only [h0]
    exact ⟨h1, h2⟩
  · have h1 := d.start.acc c _ (p.lt b hb)
    rw [fp_lit] at h1
    simp only [h0]
    exact h1.trans (by simp)
  · have h1 := d.stored.body _ (p.lt b hb) c
    rw [p.rbAt b hb] at h1
    simp only [hk]
    exact ⟨h1.1.symm, h1.2.symm⟩
  · have := (hmult n (by omega)).2 c hc q j k hj hk'
    rw [← hn, hk] at this
    rw [← this, d.stored.st]
    rfl
  · obtain ⟨hi, hci⟩ := conAt_spec hc
    have := d.stored.con _ hi q j k (by rw [hci]; exact hj) (by rw [hci]; exact hk')
    rw [hci] at this
    rw [this, d.stored.st]
  · have := d.mass _ (p.lt b hb) c
    rw [World.massAt, p.rbAt b hb] at this
    exact this

theorem World.Accel.congr (p : w.Placed) (hg : w.Driven) {x y : Motion} {a : Nat → Coord → ℝ}
    {mult : Nat → Nat → ℝ} (st : w.Accel x a mult) (s : w.SameAs x y) : w.Accel y a mult := by
  have hv : ∀ c ∈ w.cs, ∀ (o : Output ℝ) j, w.rowAt o c j x.vel = w.rowAt o c j y.vel :=
    fun c hc o j => sum_congr rfl fun k hk => Coord.sum_congr fun q => by
      rw [s.vel _ (p.bodies c hc k (mem_range.mp hk)).2]
  have hd : ∀ c ∈ w.cs, ∀ (o : Output ℝ) j, w.rowDot o c j x.vel = w.rowDot o c j y.vel :=
    fun c hc o j => sum_congr rfl fun k hk => Coord.sum_congr fun q => by
      rw [s.vel _ (p.bodies c hc k (mem_range.mp hk)).2]
  refine ⟨fun b hb q => ?_, fun h => ?_, fun h c hc j hj => ?_, fun m e1 e2 h c hc j hj => ?_⟩
  · rw [st.newton b hb q, load_congr hg s hb, conForce_congr
      (fun c hc q j k _ _ => reaction_congr p s mult hc q j k)]
  · exact (sameRows_congr p s).indep (st.indep h)
  · have := st.ge h c hc j hj
    rw [rowsOf_congr p s hc, hv c hc, hd c hc] at this
    exact this
  · have := st.cg m e1 e2 h c hc j hj
    have r2 : w.rowAt (w.rowsOf y c) c j (fun b q => w.load x b q / (w.bodies b).mass q) =
        w.rowAt (w.rowsOf y c) c j (fun b q => w.load y b q / (w.bodies b).mass q) :=
      sum_congr rfl fun k hk => Coord.sum_congr fun q => by
        simp only [load_congr hg s (p.bodies c hc k (mem_range.mp hk)).2]
    rw [rowsOf_congr p s hc, hv c hc, hd c hc, r2] at this
    exact this

/-- The first motion may be taken to be what the bodies show. -/
theorem World.GMoved.start (p : w.Placed) (hg : w.Driven) {sym : Bool} {dt : ℝ} {steps : Int}
    {w' : World ℝ} {X : Nat → Motion} {mult : Nat → Nat → Nat → ℝ} {r : Coord → Nat → ℝ}
    (h : w.GMoved sym dt steps w' X mult r) :
    w.GMoved sym dt steps w' (fun j => if j = 0 then w.now else X j) mult r := by
  have s : ∀ j, w.SameAs (X j) (if j = 0 then w.now else X j) := by
    intro j
    by_cases hj : j = 0
    · subst hj
      rw [if_pos rfl]
      exact ⟨fun b hb q => (h.first b hb q).1, fun b hb q => (h.first b hb q).2,
        fun b hb q => h.still b hb q⟩
    · rw [if_neg hj]
      exact ⟨fun _ _ _ => rfl, fun _ _ _ => rfl, fun _ _ _ => rfl⟩
  have e : ∀ j, (if j + 1 = 0 then w.now else X (j + 1)) = X (j + 1) := fun j =>
    if_neg (Nat.succ_ne_zero j)
  refine ⟨fun b hb q => ⟨rfl, rfl⟩, fun b hb q => rfl, fun b hb q => ?_, fun j hj => ?_,
    fun n hn c hc q j k hj hk => ?_, h.shown, h.mass⟩
  · have := (s steps.toNat)
    rw [← this.pos b hb q, ← this.vel b hb q]
    exact h.last b hb q
  · have st := h.step j hj
    rw [e j]
    refine ⟨st.acc.congr p hg (s j), fun b hb q => ?_, fun b hb q => ?_⟩
    · rw [st.vel b hb q, (s j).vel b hb q]
    · rw [st.pos b hb q, (s j).pos b hb q, (s j).vel b hb q]
  · rw [h.forces n hn c hc q j k hj hk]
    exact reaction_congr p (s n) _ hc q j k

/-- Every successful call of `process` with the Euler or the semi-implicit solver is a sequence of
sub-steps that starts from what the bodies show. -/
theorem World.Hist.gmoved {G : Gen ℝ → Prop} {h : List (Op ℝ)} (hG : ∀ g, G g → g.OnlyForces)
    (hw : World.Hist G .gen h w) (hst : w.Standard h) {env : Env ℝ} {dt : ℝ} {steps : Int}
    {w' : World ℝ} {sym : Bool} {o : Ode ℝ} (hode : w.ode = some o) (ho : o.isSym sym)
    (e : w.process .gen env dt steps = .ok w') :
    ∃ X mult r, X 0 = w.now ∧ w.GMoved sym dt steps w' X mult r := by
  obtain ⟨hr, p⟩ := hw.readyG hG hst.wired
  have := genProcess_trace (P := fun _ _ => True) hr (fun c hc => by
    have := counts_le (hst.kind c ((hw.regs.cons.mem c).mp hc)); omega) hode ho (env := env)
    (dt := dt) (steps := steps) (E := anyErr) (.inl fun _ => trivial)
  rw [show w.genProcess env dt steps = .ok w' from e] at this
  obtain ⟨s, q, ⟨S, T, h0, hk, t, _⟩, d⟩ := this
  obtain ⟨mult, hm⟩ := d.gmoved p hr.fit (hst.slim hw.regs) (hst.proper hw.regs) (hst.driven hw.regs) h0 hk t
  exact ⟨_, _, _, if_pos rfl, hm.start p (hst.driven hw.regs)⟩

theorem Solver.EasyU_of {sv : Solver ℝ} (h : ∀ m e, sv ≠ .gs m e) {n : Nat} {M : Nat → Nat → ℝ}
    {b lo hi : Nat → ℝ} (he : sv.Easy n M b lo hi) : sv.EasyU n M := by
  cases sv with
  | gs m e => exact absurd rfl (h m e)
  | ge => exact he
  | cg m e1 e2 => exact he

/-- A call of `process` of the generic system with the Euler or the semi-implicit solver succeeds if
the constraints can be solved in every motion that can occur; `R j` is a property of the motion
before sub-step `j`. -/
theorem World.Hist.goesG {G : Gen ℝ → Prop} {h : List (Op ℝ)} (hG : ∀ g, G g → g.OnlyForces)
    (hw : World.Hist G .gen h w) (hst : w.Standard h) {dt : ℝ} {steps : Int} {sym : Bool}
    {o : Ode ℝ} (hode : w.ode = some o) (ho : o.isSym sym)
    (hm : ∀ b ∈ w.rb, ∀ q : Coord, (w.bodies b).mass q ≠ 0) (hsle : w.sle ≠ none)
    (hgs : ∀ m e, w.sle ≠ some (.gs m e)) (R : Nat → Motion → Prop)
    (h0 : ∀ x, w.Shows x w.bodies → (∀ b ∈ w.rb, ∀ q : Coord, x.acc b q = 0) → R 0 x)
    (hR : ∀ j, j < steps.toNat → ∀ x x' mult, R j x → w.GMove sym (dt / steps) x x' mult →
      R (j + 1) x')
    (hS : ∀ j, j < steps.toNat → ∀ x, R j x → w.cs ≠ [] → w.Solvable x)
    (hz : w.cs = [] → ∀ sv, w.sle = some sv → sv.Easy0 (w.mem.mat .ivLambda)) (env : Env ℝ) :
    ∃ w', w.process .gen env dt steps = .ok w' := by
  obtain ⟨hr, p⟩ := hw.readyG hG hst.wired
  have hp := hst.proper hw.regs
  have hg := hst.driven hw.regs
  have hfull : w.fullCount = 0 ↔ w.cs = [] := by
    constructor
    · intro h0
      have := hr.fit.con
      rw [h0, Nat.le_zero, World.conCount] at this
      exact List.length_eq_zero_iff.mp this
    · intro h0
      rw [World.fullCount, h0]
      rfl
  have seenDt : ∀ (s : SysState ℝ) (d : ℝ), (∀ b ∈ w.rb, s.val .m (w.at b) = (w.bodies b).m) →
      w.Seen ({ s with dt := d } : SysState ℝ) (w.seen s) := fun s d hs =>
    ⟨fun b _ q => rfl, fun b _ q => rfl, fun b _ q => rfl, hs⟩
  have hrun : w.GenCanRun (fun c k => w.at (w.bodyOf c k)) sym (dt / steps) steps.toNat
      (fun j s => s.Wf ∧ w.bodyCount ≤ s.n ∧
        (∀ b ∈ w.rb, s.val .m (w.at b) = (w.bodies b).m) ∧ R j (w.seen s)) := by
    refine ⟨?_, ⟨?_, ?_⟩, ?_⟩
    · intro i hi c
      have : w.rbAt i ∈ w.rb := by
        rw [World.rbAt, List.getD_eq_getElem _ _ hi]
        exact List.getElem_mem hi
      exact hm _ this c
    · intro j hj
      refine ⟨?_, ?_, ?_⟩
      · rintro s ⟨s, ⟨s1, s2, s3, s4⟩, rfl⟩
        obtain ⟨s', e, _⟩ := forces_run p hg (wf_setDt s1 (dt / steps)) s2 (seenDt s _ s3)
        exact ⟨s', e⟩
      · rintro s s1 ⟨s, ⟨q1, q2, q3, q4⟩, rfl⟩ e c hc o
        obtain ⟨s', e', f', g', _⟩ := forces_run p hg (wf_setDt q1 (dt / steps)) q2
            (seenDt s _ q3)
        rw [e] at e'
        cases e'
        obtain ⟨out, e, _⟩ := has_of p hp hc (f'.wf (wf_setDt q1 _)) (by rw [f'.n]; exact q2) g' o
        exact ⟨out, e⟩
      · cases hsv : w.sle with
        | none => exact absurd hsv hsle
        | some sv =>
          refine ⟨sv, rfl, fun hf => hz (hfull.mp hf) sv hsv, ?_⟩
          rintro s s1 out ⟨s, ⟨q1, q2, q3, q4⟩, rfl⟩ e hc hpos
          obtain ⟨s', e', f', g', _⟩ := forces_run p hg (wf_setDt q1 (dt / steps)) q2
            (seenDt s _ q3)
          rw [e] at e'
          cases e'
          refine Solver.EasyU_of (fun m e h => hgs m e (by rw [hsv, h])) (Easy_of p hr.fit (hst.slim hw.regs)
            (hS j hj _ q4 fun h0 => ?_) hsv (same_of_has fun c hc' => ?_) (fun _ => 0) (fun _ => 0)
            (fun _ => 0))
          · rw [← hfull] at h0
            omega
          · obtain ⟨hi, hci⟩ := conAt_spec hc'
            obtain ⟨o, eo⟩ := hc _ hi
            rw [hci] at eo
            obtain ⟨out', eo', h'⟩ := has_of p hp hc' (f'.wf (wf_setDt q1 _))
              (by rw [f'.n]; exact q2) g' o
            rw [eo] at eo'
            cases eo'
            exact h'
    · rintro j hj s s1 s2 s' out lam ⟨q1, q2, q3, q4⟩ st
      obtain ⟨mult, g1, _⟩ := st.gmove p hr.fit (hst.slim hw.regs) hp hg q1 q2 q3
      exact ⟨st.like.wf, by rw [st.like.n]; exact q2,
        fun b hb => by rw [st.like.mass]; exact q3 b hb, hR j hj _ _ _ q4 g1⟩
    · intro s hs
      refine ⟨hs.wf, hs.n, fun b hb => ?_, h0 _ (fun b hb q => ?_) (fun b hb q => ?_)⟩
      · rw [hs.mass _ (p.lt b hb), p.rbAt b hb]
      · have h1 := hs.pos q _ (p.lt b hb)
        have h2 := hs.vel q _ (p.lt b hb)
        rw [p.rbAt b hb] at h1 h2
        exact ⟨h1, h2⟩
      · have h1 := hs.acc q _ (p.lt b hb)
        rw [fp_lit] at h1
        exact h1.trans (by simp)
  have := genProcess_trace hr (fun c hc => by
    have := counts_le (hst.kind c ((hw.regs.cons.mem c).mp hc)); omega) hode ho (env := env)
    (dt := dt) (steps := steps) (E := fun _ => False) (.inr hrun)
  cases e : w.genProcess env dt steps with
  | error x =>
    rw [e] at this
    exact absurd this id
  | ok w' => exact ⟨w', e⟩

end

end Scs
