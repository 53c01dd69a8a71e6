import Verif.WorldGenStep
import Verif.WorldMove

/-!
# The generic system in terms of the objects of the user
-/

namespace Scs

open Finset

section
variable {α : Type} [Zero α] [Add α] [Mul α] [Sub α] [Neg α] [Fp α]

/-- The states before and after each evaluation of forces and constraints during a call of
`process` of the generic system: the call with a record of its evaluations
(src/generic_rigid_body_system.cpp:31-63). -/
def World.evaluations (w : World α) (env : Env α) (dt : α) (steps : Int) :
    Exec (List (SysState α × SysState α)) := do
  let s ← w.populateState
  let mem ← w.populateMass w.mem
  let q ← w.genLoopLog env dt steps s mem
  pure q.1.2

end

section
variable {w : World ℝ} {B : Nat → Nat → Nat}

/-- The result of a call: the loop started in `s` with the matrices `mem` and ended with `q`. -/
structure World.GenDone (w : World ℝ) (env : Env ℝ) (dt : ℝ) (steps : Int) (w' : World ℝ)
    (s : SysState ℝ)
    (q : (Ctx ℝ × List (SysState ℝ × SysState ℝ)) × Option (Ode ℝ) × SysState ℝ) : Prop where
  start : w.Populated s
  mass : ∀ i, i < w.bodyCount → ∀ c : Coord, w.massAt c i ≠ 0
  log : w.evaluations env dt steps = .ok q.1.2
  count : q.1.2.length = evalCount steps w.ode
  stored : w.Stored w' q.2.2 (fun f _ => f)
  moves : w.Moves w'

theorem genProcess_spec (hr : w.Ready B) {env : Env ℝ} {dt : ℝ} {steps : Int}
    {R : SysState ℝ → (Ctx ℝ × List (SysState ℝ × SysState ℝ)) × Option (Ode ℝ) × SysState ℝ → Prop}
    {E : Err → Prop}
    (hm0 : (∀ e, E e) ∨ ∀ i, i < w.bodyCount → ∀ c : Coord, w.massAt c i ≠ 0)
    (hloop : ∀ s mem, w.populateState = .ok s → w.Populated s → w.Mid mem → mem.mat .ivLambda = w.mem.mat .ivLambda →
      Wp (w.genLoopLog env dt steps s mem) (fun q => R s q ∧ s.Like q.2.2) E) :
    Wp (w.genProcess env dt steps) (fun w' => ∃ s q, R s q ∧ w.GenDone env dt steps w' s q) E := by
  obtain ⟨s, e, hp⟩ := populated_of hr.sound.st.wf hr.fit.con
  have hm : Wp (w.populateMass w.mem) (fun m => m.mat .ivLambda = w.mem.mat .ivLambda) anyErr :=
    (m_populateMass hr.sound.mem).mono (fun _ h => h.2) (fun _ h => h)
  have hpm := (populateMass_wp hr.sound.mem (E := E) (w := w) (by
    rintro ⟨i, hi, c, h0⟩
    rcases hm0 with hE | hE
    · exact hE _
    · exact absurd h0 (hE i hi c))).and hm
  rw [World.genProcess, e, ok_bind]
  cases em : w.populateMass w.mem with
  | error x =>
    rw [em] at hpm
    exact hpm.1
  | ok mem =>
    rw [em] at hpm
    obtain ⟨⟨i1, _, i3⟩, i4⟩ := hpm
    have hl := hloop s mem e hp ⟨i1, i3, by rw [LamOk, i4]; exact hr.sound.lam⟩ i4
    have hlen := genLoop_length (w := w) env dt steps s mem
    rw [ok_bind, genLoopLog_eq]
    cases el : w.genLoopLog env dt steps s mem with
    | error x =>
      rw [el] at hl
      exact hl
    | ok q =>
      rw [el] at hl hlen
      have hlen : q.1.2.length = evalCount steps w.ode := hlen
      obtain ⟨hR, hS⟩ := hl
      simp only [ok_bind]
      rw [show (pure (q.1.1, q.2) : Exec (Ctx ℝ × Option (Ode ℝ) × SysState ℝ)) = .ok (q.1.1, q.2)
        from rfl, ok_bind]
      simp only []
      obtain ⟨w1, z, f1, f2, f3, f4, f5⟩ := propagate_spec
        (w := { w with st := q.2.2, mem := q.1.1.mem, ode := q.2.1 })
        hr.fit.rows hr.fit.two hr.rb hr.cs hS.wf
        (by rw [hS.n]; exact hp.n) (pos := fun f _ => f) (by
          intro f k hf hk
          have h1 : f < w.fullCount := hf
          have h2 := hp.nc
          rw [hS.nc]
          show f < s.nc * 2
          omega)
      obtain ⟨w3, r1, r2⟩ := record_ok (w := z.1) (by
        rw [f3]; exact hr.ring) q.1.1.times
      have hst : w1.st = q.2.2 := by
        obtain ⟨w1', f1', g1, _⟩ := storeBodies_spec (w := { w with st := q.2.2, mem := q.1.1.mem, ode := q.2.1 })
          hr.rb hS.wf (by rw [hS.n]; exact hp.n)
        rw [f1] at f1'
        cases f1'
        rw [g1]
      rw [f1, ok_bind, hst, f2, ok_bind, r1]
      refine ⟨s, q, hR, hp, i3.ne, ?_, hlen, ?_, ?_⟩
      · rw [World.evaluations, e, ok_bind, em, ok_bind, el, ok_bind]
        rfl
      · refine ⟨fun i hi c => ?_, fun i hi c j k hj hk => ?_, ?_⟩
        · have := f5.body i hi c
          rw [r2]
          exact this
        · have := f5.con i hi c j k hj hk
          rw [r2]
          exact this
        · rw [r2, f3]
      · refine World.Moves.of_rest (w1 := z.1) ?_ ?_
        · exact (World.Moves.of_rest (World.Moves.refl w) rfl).trans f4
        · rw [r2]

/-- A call with any ODE solver. -/
theorem genProcess_all (hr : w.Ready B) (hid : w.NoIdle) {env : Env ℝ} {dt : ℝ} {steps : Int} :
    Wp (w.genProcess env dt steps) (fun w' => ∃ s q, w.AllEv B s q.1.2 ∧
      w.GenDone env dt steps w' s q) anyErr := by
  refine genProcess_spec hr (R := fun s q => w.AllEv B s q.1.2) (Or.inl fun _ => trivial) ?_
  intro s mem _ hp hm _
  exact (genLoop_all hr.fit hid (fun g _ => hr.sound.gens g) hm hp.wf hp.n hp.nc).imp
    fun q hq => hq.2

/-- A condition under which a call of `process` succeeds. -/
structure World.GenCanRun (w : World ℝ) (B : Nat → Nat → Nat) (sym : Bool) (h : ℝ) (n : Nat)
    (P : Nat → SysState ℝ → Prop) : Prop where
  mass : ∀ i, i < w.bodyCount → ∀ c : Coord, w.massAt c i ≠ 0
  good : w.GenGoodRun B sym h n P (w.mem.mat .ivLambda)
  start : ∀ s, w.Populated s → P 0 s

theorem World.GTrace.like {sym : Bool} {h : ℝ} {k : Nat} {S T : Nat → SysState ℝ}
    (t : w.GTrace B sym h k S T) (h0 : (S 0).Wf) : ∀ j, j ≤ k → (S 0).Like (S j)
  | 0, _ => ⟨h0, rfl, rfl, fun _ => rfl⟩
  | j + 1, hj => by
    obtain ⟨s1, out, lam, st⟩ := t j hj
    have ih := t.like h0 j (by omega)
    exact ⟨st.like.wf, st.like.n.trans ih.n, st.like.nc.trans ih.nc,
      fun i => (st.like.mass i).trans (ih.mass i)⟩

/-- A call with the Euler or the semi-implicit solver. -/
theorem genProcess_trace (hr : w.Ready B) (hid : w.NoIdle) {env : Env ℝ} {dt : ℝ} {steps : Int}
    {sym : Bool} {o : Ode ℝ} (hode : w.ode = some o) (ho : o.isSym sym)
    {P : Nat → SysState ℝ → Prop} {E : Err → Prop}
    (hE : (∀ e, E e) ∨ w.GenCanRun B sym (dt / steps) steps.toNat P) :
    Wp (w.genProcess env dt steps) (fun w' => ∃ s q, (∃ S T : Nat → SysState ℝ, S 0 = s ∧
      S steps.toNat = q.2.2 ∧ w.GTrace B sym (dt / steps) steps.toNat S T ∧
      q.1.2 = gEvals (dt / steps) steps.toNat S T) ∧ w.GenDone env dt steps w' s q) E := by
  refine genProcess_spec hr (hE.imp_right fun h => h.mass) ?_
  intro s mem _ hp hm hl
  refine (genLoop_trace (P := P) (E := E) hr.fit hid (fun g _ => hr.sound.gens g) hode ho hm hp.wf
    hp.n hp.nc ?_).mono ?_ (fun _ h => h)
  · rcases hE with hE | hE
    · exact Or.inl hE
    · rw [hl]
      exact Or.inr ⟨hE.good, hE.start s hp⟩
  · rintro q ⟨_, _, S, T, S0, Sk, St, SL⟩
    refine ⟨⟨S, T, S0, Sk, St, SL⟩, ?_⟩
    have := St.like (by rw [S0]; exact hp.wf) steps.toNat (Nat.le_refl _)
    rw [Sk, S0] at this
    exact this

/-! ### Evaluations for bodies and constraints -/

/-- Row `j` of the time derivative of the Jacobian of constraint `c` applied to the velocities
`v`. -/
noncomputable def World.rowDot (w : World ℝ) (o : Output ℝ) (c j : Nat) (v : Nat → Coord → ℝ) : ℝ :=
  ∑ k ∈ range (w.cons c).bodyCount,
    Coord.sum (fun q => o.J_dot j (k * 3 + q.d) * v (w.bodyOf c k) q)

/-- One evaluation of forces and constraints, from the state `s` to the state `s'`: `ext` are the
forces of the generators on each body, `out` the results of each constraint and `mult` the
multiplier of each row. -/
structure World.SubEval (w : World ℝ) (s s' : SysState ℝ) (ext : Nat → Coord → ℝ)
    (out : Nat → Output ℝ) (mult : Nat → Nat → ℝ) : Prop where
  state : ∃ s1 : SysState ℝ, w.processForces s = .ok s1 ∧ w.Seen s1 (w.seen s) ∧ s1.Wf ∧
    s1.n = s.n ∧ (∀ b ∈ w.rb, ∀ q : Coord, ext b q = s1.val q.f (w.at b)) ∧
    ∀ c ∈ w.cs, ∃ o, (w.cons c).kind.calculate ((w.cons c).idx w.bodies) o s1 = .ok (out c)
  pos : ∀ b ∈ w.rb, ∀ q : Coord, (w.seen s').pos b q = (w.seen s).pos b q
  vel : ∀ b ∈ w.rb, ∀ q : Coord, (w.seen s').vel b q = (w.seen s).vel b q
  react : ∀ c ∈ w.cs, ∀ (q : Coord) j k, j < (w.cons c).rows → k < (w.cons c).bodyCount →
    w.forceAt s'.rval c q j k = mult c j * (out c).J j (k * 3 + q.d)
  acc : ∀ b ∈ w.rb, ∀ q : Coord, (w.seen s').acc b q =
    (ext b q + w.conForce (fun c q j k => mult c j * (out c).J j (k * 3 + q.d)) b q) /
      (w.bodies b).mass q
  indep : w.sle = some .ge → w.Indep out
  ge : w.sle = some .ge → ∀ c ∈ w.cs, ∀ j, j < (w.cons c).rows →
    w.rowAt (out c) c j (w.seen s').acc = -w.rowDot (out c) c j (w.seen s).vel -
      (out c).ks j * (out c).C j - (out c).kd j * w.rowAt (out c) c j (w.seen s).vel
  cg : ∀ m e1 e2, w.sle = some (.cg m e1 e2) → ∀ c ∈ w.cs, ∀ j, j < (w.cons c).rows →
    |w.rowAt (out c) c j (w.seen s').acc + w.rowDot (out c) c j (w.seen s).vel +
      (out c).ks j * (out c).C j + (out c).kd j * w.rowAt (out c) c j (w.seen s).vel| ≤
      max |e1 * (w.rowAt (out c) c j (fun b q => ext b q / (w.bodies b).mass q) +
        w.rowDot (out c) c j (w.seen s).vel +
        (out c).ks j * (out c).C j + (out c).kd j * w.rowAt (out c) c j (w.seen s).vel)| e2

/-- The accelerations along the rows: those of the external forces and the effect of the
multipliers. -/
theorem World.GenEff.rows_key {s s' : SysState ℝ} {out : Nat → Output ℝ} {lam : Nat → ℝ}
    (st : w.GenEff B s s' out lam) (hlow : w.Low B) (f : Nat) : w.rowV B out f (fun q i => s'.val q.a i) =
      w.rowV B out f (fun q i => s.val q.f i / w.massAt q i) +
      mulV w.fullCount (w.sysM B out) lam f := by
  have hm : mulV w.fullCount (w.sysM B out) lam f = ∑ i ∈ range w.bodyCount, Coord.sum (fun q =>
      w.jb B out f q i * (∑ g ∈ range w.fullCount, lam g * w.jc B out g q i / w.massAt q i)) := by
    simp only [mulV, World.sysM, sum_mul]
    rw [sum_comm]
    refine sum_congr rfl fun i _ => ?_
    simp only [mul_sum]
    rw [Coord.sum_sum]
    refine sum_congr rfl fun g hg => ?_
    rw [mul_comm, ← Coord.sum_mul]
    refine Coord.sum_congr fun q => ?_
    rw [hlow.jb out (mem_range.mp hg)]
    ring
  rw [hm, World.rowV, World.rowV, ← sum_add_distrib]
  refine sum_congr rfl fun i hi => ?_
  rw [← Coord.sum_add]
  refine Coord.sum_congr fun q => ?_
  have hr : ∀ (q : Coord) f j, f < w.fullCount → j < w.rowN f → B (w.rowC f) j % 256 ≠ 255 →
      s'.rval q.r (f * 2 + j) = lam f / 1 * (out (w.rowI f)).J (w.rowK f) (j * 3 + q.d) :=
    fun q f j h1 h2 h3 => by rw [div_one]; exact st.react q f j h1 h2 h3
  rw [st.acc q i (mem_range.mp hi), reactSum_jc hlow hr, ← mul_add]
  congr 1
  simp only [div_one]
  rw [add_div, sum_div]

theorem rowD_eq (hfit : w.Fit B) (hlow : w.Low B) {out : Nat → Output ℝ} {f : Nat} (hf : f < w.fullCount)
    (u : Coord → Nat → ℝ) : w.rowD B out f u = ∑ k ∈ range (w.rowN f), Coord.sum (fun q =>
      (out (w.rowI f)).J_dot (w.rowK f) (k * 3 + q.d) * u q (B (w.rowC f) k)) := by
  rw [World.rowD]
  have : ∀ i ∈ range w.bodyCount, Coord.sum (fun q => w.jd B out f q i * u q i) =
      ∑ k ∈ range (w.rowN f), Coord.sum (fun q => if B (w.rowC f) k = i then
        (out (w.rowI f)).J_dot (w.rowK f) (k * 3 + q.d) * u q i else 0) := by
    intro i _
    rw [← Coord.sum_sum]
    refine Coord.sum_congr fun q => ?_
    rw [World.jd, sum_mul]
    refine sum_congr rfl fun k hk => ?_
    have hb := hlow.row hf (mem_range.mp hk)
    have e : (B (w.rowC f) k % 256 ≠ 255 ∧ i = B (w.rowC f) k % 256) ↔ B (w.rowC f) k = i := by
      constructor <;> intro <;> omega
    simp only [e]
    rw [ite_mul, zero_mul]
  rw [sum_congr rfl this, sum_comm]
  refine sum_congr rfl fun k hk => ?_
  rw [← Coord.sum_sum]
  refine Coord.sum_congr fun q => ?_
  rw [sum_ite_eq, if_pos (mem_range.mpr ((hfit.rowB hf).2 k (mem_range.mp hk)))]

theorem World.GenEv.obj (p : w.Placed) (hfit : w.Fit (fun c k => w.at (w.bodyOf c k)))
    (hlow : w.Slim)
    {s s1 s' : SysState ℝ} {out : Nat → Output ℝ} {lam : Nat → ℝ}
    (st : w.GenEv (fun c k => w.at (w.bodyOf c k)) s s1 s' out lam) (hs : s.Wf)
    (hm : ∀ b ∈ w.rb, s.val .m (w.at b) = (w.bodies b).m) :
    w.SubEval s s' (fun b q => s1.val q.f (w.at b)) (fun c => out (w.conAt c))
      (fun c j => lam (w.off (w.conAt c) + j)) := by
  have hrow : ∀ c ∈ w.cs, ∀ j, j < (w.cons c).rows → w.off (w.conAt c) + j < w.fullCount ∧
      w.rowI (w.off (w.conAt c) + j) = w.conAt c ∧ w.rowK (w.off (w.conAt c) + j) = j ∧
      w.rowC (w.off (w.conAt c) + j) = c := fun c hc j hj => row_of p hfit hc hj
  have hreact : ∀ c ∈ w.cs, ∀ (q : Coord) j k, j < (w.cons c).rows → k < (w.cons c).bodyCount →
      w.forceAt s'.rval c q j k = lam (w.off (w.conAt c) + j) *
        (out (w.conAt c)).J j (k * 3 + q.d) := by
    intro c hc q j k hj hk
    obtain ⟨r1, r2, r3, r4⟩ := hrow c hc j hj
    have hb : w.at (w.bodyOf c k) < 255 := hlow c hc k hk
    rw [World.forceAt, st.eff.react q _ k r1 (by rw [World.rowN, r4]; exact hk)
      (by rw [r4]; omega), r2, r3]
  have hvs : ∀ (q : Coord) i, s1.val q.v i = s.val q.v i := fun q i =>
    st.writes.keep (vel_not_force q) i
  refine ⟨⟨s1, st.forces, ⟨fun b hb q => ?_, fun b hb q => ?_, fun b hb q => ?_, fun b hb => ?_⟩,
    st.writes.wf hs, st.writes.n, fun b hb q => rfl, fun c hc => ?_⟩, ?_, ?_, hreact, ?_, ?_, ?_, ?_⟩
  · rw [st.writes.keep (pos_not_force q)]; rfl
  · rw [st.writes.keep (vel_not_force q)]; rfl
  · rw [st.writes.keep (acc_not_force q)]; rfl
  · rw [st.writes.keep mass_not_force]
    exact hm b hb
  · obtain ⟨hi, hci⟩ := conAt_spec hc
    have := st.eff.eval _ hi
    rw [hci] at this
    exact this
  · intro b _ q
    exact st.keep (pos_not_acc q) (pos_not_force q) _
  · intro b _ q
    exact st.keep (vel_not_acc q) (vel_not_force q) _
  · intro b hb q
    have := st.eff.acc q _ (p.lt b hb)
    rw [reactSum_obj p hfit _ hb, World.massAt, p.rbAt b hb,
      conForce_congr (fun c hc q j k hj hk => hreact c hc q j k hj hk)] at this
    exact this
  · intro hge
    obtain ⟨sv, e, hsol⟩ := st.eff.solved
    rw [hge] at e
    cases e
    rw [← regular_iff p hfit hlow]
    rcases Nat.eq_zero_or_pos w.fullCount with h0 | h0
    · rw [h0]
      exact fun u _ i hi => absurd hi (Nat.not_lt_zero i)
    · exact (hsol h0).1
  · intro hge c hc j hj
    obtain ⟨r1, r2, r3, r4⟩ := hrow c hc j hj
    obtain ⟨sv, e, hsol⟩ := st.eff.solved
    rw [hge] at e
    cases e
    have hsol : mulV w.fullCount (w.sysM (fun c k => w.at (w.bodyOf c k)) out) lam _ = _ :=
      (hsol (by omega)).2 _ r1
    have key := st.eff.rows_key hlow (w.off (w.conAt c) + j)
    rw [hsol, World.genRhs] at key
    simp only [hvs] at key
    rw [rowV_eq hfit hlow r1, rowV_eq hfit hlow r1, rowV_eq hfit hlow r1, rowD_eq hfit hlow r1, World.rowN, r2, r3, r4]
      at key
    rw [World.rowAt, World.rowAt, World.rowDot]
    refine key.trans ?_
    simp only [World.seen]
    ring
  · intro m e1 e2 hcg c hc j hj
    obtain ⟨r1, r2, r3, r4⟩ := hrow c hc j hj
    obtain ⟨sv, e, hsol⟩ := st.eff.solved
    rw [hcg] at e
    cases e
    have hsol := hsol (by omega) _ r1
    have key := st.eff.rows_key hlow (w.off (w.conAt c) + j)
    simp only [World.genRhs, hvs] at hsol
    rw [rowV_eq hfit hlow r1] at key
    rw [rowV_eq hfit hlow r1] at key
    rw [rowV_eq hfit hlow r1, rowV_eq hfit hlow r1, rowD_eq hfit hlow r1] at hsol
    rw [World.rowN, r2, r3, r4] at hsol key
    have hx : w.rowAt (out (w.conAt c)) c j (fun b q => s1.val q.f (w.at b) / (w.bodies b).mass q) =
        ∑ k ∈ range (w.cons c).bodyCount, Coord.sum (fun q =>
          (out (w.conAt c)).J j (k * 3 + q.d) * (s1.val q.f (w.at (w.bodyOf c k)) /
            w.massAt q (w.at (w.bodyOf c k)))) := by
      refine sum_congr rfl fun k hk => Coord.sum_congr fun q => ?_
      rw [World.massAt, p.rbAt _ (p.bodies c hc k (mem_range.mp hk)).2]
    rw [hx]
    simp only [World.rowAt, World.rowDot, World.seen]
    refine le_trans (le_of_eq ?_) (hsol.trans (le_of_eq ?_))
    · rw [key, ← abs_neg]
      congr 1
      ring
    · congr 1
      rw [← abs_neg]
      congr 1
      ring

/-- A system with a history is ready. -/
theorem World.Hist.readyG {G : Gen ℝ → Prop} {cls : Cls} {h : List (Op ℝ)}
    (hG : ∀ g, G g → g.OnlyForces) (hw : World.Hist G cls h w) (hwd : w.Wired h) :
    w.Ready (fun c k => w.at (w.bodyOf c k)) ∧ w.Placed where
  left :=
    { fit := (hw.regs.placed hwd).fit hw.regs hwd
      sound := hw.sound divOk_real hG
      rb := hw.regs.bodies.nodup
      cs := hw.regs.cons.nodup
      nsv := hw.regs.nsv
      ring := hw.prof.ringOk }
  right := hw.regs.placed hwd

/-- Every evaluation of a successful call of `process`, for any ODE solver. -/
theorem World.Hist.evaluated {G : Gen ℝ → Prop} {h : List (Op ℝ)} (hG : ∀ g, G g → g.OnlyForces)
    (hw : World.Hist G .gen h w) (hwd : w.Wired h) (hlow : w.Slim)
    (hid : ∀ c ∈ regCons h, 1 ≤ (w.cons c).bodyCount) {env : Env ℝ} {dt : ℝ} {steps : Int}
    {w' : World ℝ} (e : w.process .gen env dt steps = .ok w') :
    (∀ b ∈ w.rb, ∀ q : Coord, (w.bodies b).mass q ≠ 0) ∧
    ∃ L, w.evaluations env dt steps = .ok L ∧ L.length = evalCount steps w.ode ∧
      ∀ z ∈ L, z.1.Wf ∧ w.bodyCount ≤ z.1.n ∧
        (∀ b ∈ w.rb, z.1.val .m (w.at b) = (w.bodies b).m) ∧
        ∃ ext out mult, w.SubEval z.1 z.2 ext out mult := by
  obtain ⟨hr, p⟩ := hw.readyG hG hwd
  have := genProcess_all hr (fun c hc => hid c ((hw.regs.cons.mem c).mp hc)) (env := env) (dt := dt)
    (steps := steps)
  rw [show w.genProcess env dt steps = .ok w' from e] at this
  obtain ⟨s, q, hq, d⟩ := this
  refine ⟨fun b hb c => ?_, q.1.2, d.log, d.count, fun z hz => ?_⟩
  · have := d.mass _ (p.lt b hb) c
    rw [World.massAt, p.rbAt b hb] at this
    exact this
  · obtain ⟨hl, s1, out, lam, hev⟩ := hq z hz
    have hm : ∀ b ∈ w.rb, z.1.val .m (w.at b) = (w.bodies b).m := fun b hb => by
      rw [hl.mass, d.start.mass _ (p.lt b hb), p.rbAt b hb]
    exact ⟨hl.wf, by rw [hl.n]; exact d.start.n, hm, _, _, _, hev.obj p hr.fit hlow hl.wf hm⟩

end

end Scs
