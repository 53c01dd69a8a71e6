import Verif.WorldInv
import Verif.PropsOde

/-!
# Sub-steps of the optimized system

One sub-step of `OptimizedNsvRigidBodySystem::process` as a relation between states, and the
sequence of states of a whole call.
-/

namespace Scs

open Finset

section
variable {w : World ℝ} {B : Nat → Nat → Nat}

/-- One sub-step of length `h` from `s` to `s'`: `s1` is `s` with the external forces, `out` the
results of the constraints in `s1`, `lam` the multipliers. -/
structure World.Step (w : World ℝ) (B : Nat → Nat → Nat) (h : ℝ) (s s1 s' : SysState ℝ)
    (out : Nat → Output ℝ) (lam : Nat → ℝ) : Prop where
  ne : h ≠ 0
  forces : w.processForces { s with dt := h } = .ok s1
  writes : ForceWrites { s with dt := h } s1
  eval : w.Calc s1 out
  solved : ∃ sv, w.sle = some sv ∧ (0 < w.fullCount → sv.Solved w.fullCount (w.sysM B out)
    (w.optRhs B out h s1) (fun f => (out (w.rowI f)).limits (w.rowK f) 0 * h)
    (fun f => (out (w.rowI f)).limits (w.rowK f) 1 * h) lam)
  react : ∀ (q : Coord) f j, f < w.fullCount → j < w.rowN f → B (w.rowC f) j % 256 ≠ 255 →
    s'.rval q.r (f * 2 + j) = lam f / h * (out (w.rowI f)).J (w.rowK f) (j * 3 + q.d)
  force : ∀ (q : Coord) i, s'.val q.f i = s1.val q.f i
  vel : ∀ (q : Coord) i, i < w.bodyCount → s'.val q.v i = s.val q.v i +
    h * ((s1.val q.f i + w.reactSum B s'.rval w.fullCount q i) / w.massAt q i)
  pos : ∀ (q : Coord) i, i < w.bodyCount → s'.val q.p i = s.val q.p i + h * s'.val q.v i
  acc : ∀ (q : Coord) i, i < w.bodyCount → s'.val q.a i =
    (s1.val q.f i + w.reactSum B s'.rval w.fullCount q i) / w.massAt q i
  mass : ∀ i, s'.val .m i = s.val .m i
  wf : s'.Wf
  n : s'.n = s.n
  nc : s'.nc = s.nc

theorem force_not_acc (q : Coord) : ¬ q.f.IsAcc := by
  rintro ⟨c, h⟩; cases q <;> cases c <;> cases h

theorem vel_not_acc (q : Coord) : ¬ q.v.IsAcc := by
  rintro ⟨c, h⟩; cases q <;> cases c <;> cases h

theorem pos_not_acc (q : Coord) : ¬ q.p.IsAcc := by
  rintro ⟨c, h⟩; cases q <;> cases c <;> cases h

theorem vel_not_force (q : Coord) : ¬ q.v.IsForce := by
  rintro (h | h | h) <;> cases q <;> cases h

theorem pos_not_force (q : Coord) : ¬ q.p.IsForce := by
  rintro (h | h | h) <;> cases q <;> cases h

theorem acc_not_force (q : Coord) : ¬ q.a.IsForce := by
  rintro (h | h | h) <;> cases q <;> cases h

theorem wf_setDt {α : Type} {s : SysState α} (hs : s.Wf) (h : α) : ({ s with dt := h } : SysState α).Wf :=
  fun q => ⟨(hs q).fld, (hs q).rf, (hs q).im⟩

/-- Evaluation followed by integration. -/
theorem step_of {h : ℝ} (hh : h ≠ 0) {s s1 s2 : SysState ℝ} {out : Nat → Output ℝ} {lam : Nat → ℝ}
    (hn : w.bodyCount ≤ s.n) (hf : w.processForces { s with dt := h } = .ok s1)
    (hw : ForceWrites { s with dt := h } s1) (he : w.OptEff B h s1 s2 out lam) :
    ∃ s', (Ode.nsv h).solve s2 = .ok (.nsv h, s') ∧ w.Step B h s s1 s' out lam := by
  obtain ⟨s', e, he1, he2, he3⟩ := nsv_solve he.wf h
  have hn1 : s1.n = s.n := hw.n
  have hn2 : s2.n = s1.n := he.n
  have hr : ∀ f i, s'.rval f i = s2.rval f i := fun f i => by rw [he1]; rfl
  have v2 : ∀ (q : Coord) i, s2.val q.v i = s.val q.v i := fun q i => by
    rw [he.keep _ _ (vel_not_acc q), hw.keep (vel_not_force q)]; rfl
  have p2 : ∀ (q : Coord) i, s2.val q.p i = s.val q.p i := fun q i => by
    rw [he.keep _ _ (pos_not_acc q), hw.keep (pos_not_force q)]; rfl
  have vel : ∀ (q : Coord) i, i < w.bodyCount → s'.val q.v i = s.val q.v i + s2.val q.a i * h := by
    intro q i hi
    rw [he3 q.v i, if_pos (by beta_reduce; omega)]
    beta_reduce
    rw [motion_v]
    show s2.val q.v i + s2.val q.a i * h = _
    rw [v2]
  refine ⟨s', e, hh, hf, hw, he.eval, he.solved, ?_, ?_, ?_, ?_, ?_, ?_, he2, ?_, ?_⟩
  · intro q f j hf hj hne
    rw [hr, he.react q f j hf hj hne]
  · intro q i
    have : s2.val q.f i = s1.val q.f i := he.keep _ _ (force_not_acc q)
    rw [he3 q.f i]
    split
    · beta_reduce; rw [motion_f]; exact this
    · exact this
  · intro q i hi
    have hrs : w.reactSum B s'.rval w.fullCount q i = w.reactSum B s2.rval w.fullCount q i := by
      simp only [World.reactSum, hr]
    rw [vel q i hi, hrs, he.acc q i hi]
    ring
  · intro q i hi
    rw [vel q i hi, he3 q.p i, if_pos (by beta_reduce; omega)]
    beta_reduce
    rw [motion_p]
    show s2.val q.p i + (s2.val q.v i + s2.val q.a i * h) * h = _
    rw [v2, p2]
    ring
  · intro q i hi
    have hrs : w.reactSum B s'.rval w.fullCount q i = w.reactSum B s2.rval w.fullCount q i := by
      simp only [World.reactSum, hr]
    rw [hrs, ← he.acc q i hi, he3 q.a i]
    split
    · beta_reduce; rw [motion_a]; rfl
    · rfl
  · intro i
    have : s2.val .m i = s.val .m i := by
      rw [he.keep _ _ (by rintro ⟨c, h⟩; cases c <;> cases h),
        hw.keep (by rintro (h | h | h) <;> cases h)]
      rfl
    rw [he3 .m i]
    split
    · exact this
    · exact this
  · rw [he1]; exact hn2.trans hn1
  · rw [he1]; exact he.nc.trans hw.nc

/-- The matrices during a call of `process`. -/
structure World.Mid (w : World ℝ) (mem : Store ℝ) : Prop where
  inv : MemOk mem
  mass : w.Masses mem
  lam : LamOk mem

/-- Conditions under which a sub-step of length `h` from a state with property `P` succeeds. -/
structure World.Good (w : World ℝ) (B : Nat → Nat → Nat) (h : ℝ) (P : SysState ℝ → Prop)
    (lam : Mat ℝ) : Prop where
  ne : h ≠ 0
  forces : ∀ s, P s → ∃ s1, w.processForces { s with dt := h } = .ok s1
  calc_ : ∀ s s1, P s → w.processForces { s with dt := h } = .ok s1 → ∀ c ∈ w.cs, ∀ o, ∃ out,
    (w.cons c).kind.calculate ((w.cons c).idx w.bodies) o s1 = .ok out
  solver : ∃ sv, w.sle = some sv ∧ (w.fullCount = 0 → sv.Easy0 lam) ∧
    ∀ s s1 out, P s → w.processForces { s with dt := h } = .ok s1 → w.Calc s1 out →
      0 < w.fullCount → sv.Easy w.fullCount (w.sysM B out) (w.optRhs B out h s1)
        (fun f => (out (w.rowI f)).limits (w.rowK f) 0 * h)
        (fun f => (out (w.rowI f)).limits (w.rowK f) 1 * h)

theorem World.Good.next {h : ℝ} {P : SysState ℝ → Prop} {l l' : Mat ℝ} (g : w.Good B h P l)
    (k : ∀ sv, w.sle = some sv → w.fullCount = 0 → sv.Easy0 l → sv.Easy0 l') : w.Good B h P l' where
  ne := g.ne
  forces := g.forces
  calc_ := g.calc_
  solver := by
    obtain ⟨sv, e, e0, e1⟩ := g.solver
    exact ⟨sv, e, fun h0 => k sv e h0 (e0 h0), e1⟩

/-- Conditions under which `n` sub-steps succeed: the state before sub-step `j` has the property
`P j`. -/
structure World.GoodRun (w : World ℝ) (B : Nat → Nat → Nat) (h : ℝ) (n : Nat)
    (P : Nat → SysState ℝ → Prop) (lam : Mat ℝ) : Prop where
  good : ∀ j, j < n → w.Good B h (P j) lam
  keep : ∀ j, j < n → ∀ s s1 s' out lam, P j s → w.Step B h s s1 s' out lam → P (j + 1) s'

theorem World.GoodRun.next {h : ℝ} {n : Nat} {P : Nat → SysState ℝ → Prop} {l l' : Mat ℝ}
    (g : w.GoodRun B h n P l)
    (k : ∀ sv, w.sle = some sv → w.fullCount = 0 → sv.Easy0 l → sv.Easy0 l') :
    w.GoodRun B h n P l' := ⟨fun j hj => (g.good j hj).next k, g.keep⟩

/-- One sub-step. -/
theorem substep_wp (hfit : w.Fit B) (hg : ∀ g ∈ w.fg, (w.gens g).OnlyForces) {env : Env ℝ} {h : ℝ}
    {x : Ctx ℝ} {d : ℝ} {s : SysState ℝ} (hm : w.Mid x.mem) (hs : s.Wf) (hn : w.bodyCount ≤ s.n)
    (hc : w.fullCount ≤ s.nc) {P : SysState ℝ → Prop} {E : Err → Prop}
    (hE : (∀ e, E e) ∨ (w.Good B h P (x.mem.mat .ivLambda) ∧ P s)) :
    Wp (odeRun (w.optEval env h) x (.nsv d) s h) (fun z => w.Mid z.1.mem ∧ z.2.1 = .nsv h ∧
      (∀ sv, w.sle = some sv →
        sv.Kept w.fullCount (x.mem.mat .ivLambda) (z.1.mem.mat .ivLambda)) ∧
      ∃ s1 out lam, w.Step B h s s1 z.2.2 out lam) E := by
  rw [C33_nsv_run, wp_bind, World.optEval, wp_bind]
  have hfw := processForces_wp hg { s with dt := h }
  cases ef : w.processForces { s with dt := h } with
  | error e =>
    rcases hE with hE | ⟨hg, hP⟩
    · exact hE e
    · obtain ⟨s1, e1⟩ := hg.forces s hP
      rw [e1] at ef
      cases ef
  | ok s1 =>
    rw [ef] at hfw
    have hfw : ForceWrites { s with dt := h } s1 := hfw
    rw [wp_ok, wp_bind]
    refine (optConstraints_wp (B := B) hfit hm.inv hm.mass hm.lam (hfw.wf (wf_setDt hs h))
      (by rw [hfw.n]; exact hn) (by rw [hfw.nc]; exact hc) (E := E) ?_ ?_ ?_ ?_).mono ?_ (fun _ q => q)
    · intro h0
      rcases hE with hE | ⟨hg, _⟩
      · exact hE _
      · exact absurd h0 hg.ne
    · intro c hcm o
      rcases hE with hE | ⟨hg, hP⟩
      · exact (Wp.mono (wp_anyErr_iff.mpr fun _ _ => trivial) (fun _ q => q) (fun e _ => hE e))
      · obtain ⟨out, e⟩ := hg.calc_ s s1 hP ef c hcm o
        rw [e]; trivial
    · intro h0
      rcases hE with hE | ⟨hg, _⟩
      · exact hE _
      · obtain ⟨sv, e, _⟩ := hg.solver
        rw [e] at h0; cases h0
    · intro sv hsv out hout
      rcases hE with hE | ⟨hg, hP⟩
      · exact Or.inr hE
      · obtain ⟨sv', e, e0, e1⟩ := hg.solver
        rw [hsv] at e
        cases e
        exact Or.inl ⟨e1 s s1 out hP ef hout, e0⟩
    · rintro q ⟨hh, qi, qm, ql, qz, out, lam, qe⟩
      rw [wp_pure]
      obtain ⟨s', e, st⟩ := step_of hh hn ef hfw qe
      simp only []
      rw [e, ok_bind, wp_pure]
      exact ⟨⟨qi, qm, ql⟩, rfl, qz, s1, out, lam, st⟩

/-- A sequence of `k` sub-steps of length `h` starting in `s`. -/
def World.Trace (w : World ℝ) (B : Nat → Nat → Nat) (h : ℝ) (k : Nat) (S : Nat → SysState ℝ) : Prop :=
  ∀ j, j < k → ∃ s1 out lam, w.Step B h (S j) s1 (S (j + 1)) out lam

theorem World.Trace.snoc {h : ℝ} {k : Nat} {S : Nat → SysState ℝ} (t : w.Trace B h k S)
    {s1 s' : SysState ℝ} {out : Nat → Output ℝ} {lam : Nat → ℝ}
    (st : w.Step B h (S k) s1 s' out lam) :
    w.Trace B h (k + 1) (fun j => if j ≤ k then S j else s') := by
  intro j hj
  rcases Nat.lt_or_eq_of_le (Nat.lt_succ_iff.mp hj) with hj | rfl
  · obtain ⟨s1, out, lam, e⟩ := t j hj
    refine ⟨s1, out, lam, ?_⟩
    simp only [if_pos (Nat.le_of_lt hj), if_pos (Nat.succ_le_of_lt hj)]
    exact e
  · refine ⟨s1, out, lam, ?_⟩
    simp only [if_pos (Nat.le_refl _), if_neg (Nat.not_succ_le_self _)]
    exact st

/-- The sub-steps of one call. -/
theorem optLoop_trace (hfit : w.Fit B) (hg : ∀ g ∈ w.fg, (w.gens g).OnlyForces) {env : Env ℝ}
    {dt : ℝ} {steps : Int} {mem : Store ℝ} {s : SysState ℝ} (hnsv : w.nsv.sort = 2)
    (hm : w.Mid mem) (hs : s.Wf) (hn : w.bodyCount ≤ s.n) (hc : w.fullCount ≤ s.nc)
    {P : Nat → SysState ℝ → Prop} {E : Err → Prop}
    (hE : (∀ e, E e) ∨ (w.GoodRun B (dt / steps) steps.toNat P (mem.mat .ivLambda) ∧ P 0 s)) :
    Wp (w.optLoop env dt steps s mem) (fun q => w.Mid q.1.mem ∧ q.2.1.sort = 2 ∧
      (0 < steps.toNat → ∀ sv, w.sle = some sv →
        sv.Kept w.fullCount (mem.mat .ivLambda) (q.1.mem.mat .ivLambda)) ∧
      ∃ S : Nat → SysState ℝ, S 0 = s ∧ S steps.toNat = q.2.2 ∧
        w.Trace B (dt / steps) steps.toNat S) E := by
  rw [World.optLoop]
  refine wp_forN' (fun k (q : Ctx ℝ × Ode ℝ × SysState ℝ) => w.Mid q.1.mem ∧ q.2.1.sort = 2 ∧
      q.2.2.Wf ∧ q.2.2.n = s.n ∧ q.2.2.nc = s.nc ∧
      ((∀ e, E e) ∨ (w.GoodRun B (dt / steps) steps.toNat P (q.1.mem.mat .ivLambda) ∧ P k q.2.2)) ∧
      (k = 0 → q.1.mem.mat .ivLambda = mem.mat .ivLambda) ∧
      (0 < k → ∀ sv, w.sle = some sv →
        sv.Kept w.fullCount (mem.mat .ivLambda) (q.1.mem.mat .ivLambda)) ∧
      ∃ S : Nat → SysState ℝ, S 0 = s ∧ S k = q.2.2 ∧ w.Trace B (dt / steps) k S)
    ⟨hm, hnsv, hs, rfl, rfl, hE, fun _ => rfl, fun h => absurd h (Nat.lt_irrefl 0), fun _ => s, rfl, rfl, fun j hj => absurd hj (by omega)⟩ ?_ ?_
  · rintro k hk q ⟨qm, qn, qw, q1, q2, qE, q0, qk, S, S0, Sk, St⟩
    have h0 : ((steps : Int) : ℝ) ≠ 0 := by
      have : 0 < steps := by omega
      exact_mod_cast this.ne'
    have hl : (Fp.lit (steps : Rat) : ℝ) = (steps : ℝ) := by simp [fp_lit]
    rw [hl, fp_div h0, ok_bind]
    obtain ⟨d, hd⟩ := sort_nsv qn
    rw [hd]
    refine (substep_wp (env := env) hfit hg (x := q.1) (d := d) qm qw (by omega) (by omega)
      (qE.imp_right fun g => ⟨g.1.good k hk, g.2⟩)).mono ?_ (fun _ z => z)
    rintro z ⟨z1, z2, z3, s1, out, lam, zs⟩
    refine ⟨z1, by rw [z2]; rfl, zs.wf, by rw [zs.n, q1], by rw [zs.nc, q2], ?_, fun h => by omega, ?_, ?_⟩
    · rcases qE with qE | ⟨qg, qP⟩
      · exact Or.inl qE
      · exact Or.inr ⟨qg.next fun sv e => (z3 sv e).easy, qg.keep k hk _ _ _ _ _ qP zs⟩
    · intro _ sv e
      rcases Nat.eq_zero_or_pos k with h0 | h0
      · rw [← q0 h0]
        exact z3 sv e
      · exact (qk h0 sv e).trans (z3 sv e)
    · rw [← Sk] at zs
      exact ⟨_, by simp [S0], by simp, St.snoc zs⟩
  · rintro q ⟨qm, qn, _, _, _, _, _, qk, S, S0, Sk, St⟩
    exact ⟨qm, qn, qk, S, S0, Sk, St⟩

end

end Scs
