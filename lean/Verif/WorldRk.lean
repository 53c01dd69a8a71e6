import Verif.WorldGenMove
import Verif.WorldSync

/-!
# The generic system with the Runge-Kutta solver
-/

namespace Scs

open Finset SysState

/-! ### One step for any evaluation that may fail -/

/-- The result `s'` of a step of length `h` from `s` whose four evaluations ended in `e1`, …, `e4`. -/
structure RkFin (h : ℝ) (s e1 e2 e3 e4 s' : SysState ℝ) : Prop where
  fin : s' = { e4 with fld := s'.fld, rf := s'.rf }
  wf : s'.Wf
  vals : ∀ f j, s'.val f j = if j < s.n then
    motion
      (fun c => s.val c.p j + h / 6 * e1.val c.v j * 1 + h / 6 * e2.val c.v j * 2
        + h / 6 * e3.val c.v j * 2 + h / 6 * e4.val c.v j * 1)
      (fun c => s.val c.v j + h / 6 * e1.val c.a j * 1 + h / 6 * e2.val c.a j * 2
        + h / 6 * e3.val c.a j * 2 + h / 6 * e4.val c.a j * 1)
      (fun g => e4.val g j) f
    else e4.val f j

/-- The solver after a step in a system of the given size. -/
structure Rk4.Rests (r : Rk4 ℝ) (n nc : Nat) : Prop where
  init : r.init.Wf
  acc : r.acc.Wf
  initN : r.init.n = n
  initC : r.init.nc = nc
  accN : r.acc.n = n
  accC : r.acc.nc = nc

theorem rk4_run_wp {τ : Type} {ev : τ → SysState ℝ → Exec (τ × SysState ℝ)} {r : Rk4 ℝ}
    {s : SysState ℝ} (hs : s.Wf) (hi : r.init.Wf) (ha : r.acc.Wf) (fi : r.init.Fits s)
    (fa : r.acc.Fits s) {x : τ} {h : ℝ} {Post : τ × Ode ℝ × SysState ℝ → Prop} {E : Err → Prop}
    (hev : Wp (ev x { s with dt := 0 }) (fun z1 => EvOk { s with dt := 0 } z1.2 ∧
      ∀ s2, BodyTo { z1.2 with dt := h / 2 } s2 (· < s.n) (halfG h s) →
      Wp (ev z1.1 s2) (fun z2 => EvOk s2 z2.2 ∧
      ∀ s3, BodyTo { z2.2 with dt := h / 2 } s3 (· < s.n) (halfG h s) →
      Wp (ev z2.1 s3) (fun z3 => EvOk s3 z3.2 ∧
      ∀ s4, BodyTo { z3.2 with dt := h } s4 (· < s.n) (fullG h s) →
      Wp (ev z3.1 s4) (fun z4 => EvOk s4 z4.2 ∧
      ∀ r' s', r'.Rests s.n s.nc → RkFin h s z1.2 z2.2 z3.2 z4.2 s' →
        Post (z4.1, .rk4 r', s')) E) E) E) E) :
    Wp (odeRun ev x (.rk4 r) s h) Post E := by
  obtain ⟨i0, ei, wi, ni, ci, vi, _⟩ := copy_fits hi hs fi
  obtain ⟨a0, ea, wa, na, ca, va, _⟩ := copy_fits ha hs fa
  have est : r.start s h = .ok { r with dt := h, init := i0, acc := a0, stage := .stage1 } := by
    rw [Rk4.start, ei, ok_bind, ea]; rfl
  have g1 := rk4_step1 { r with dt := h, init := i0, acc := a0, stage := .stage1 } s rfl
  have run1 : odeRun ev x (.rk4 r) s h = (do
      let e ← ev x { s with dt := 0 }
      let z ← (Ode.rk4 ⟨h, .stage1, .stage2, i0, a0⟩).solve e.2
      let q ← odeLoop ev 4 e.1 z.1 z.2
      pure (q.1, q.2.1.fin, q.2.2)) := by
    rw [odeRun, Ode.start, est]
    simp only [ok_bind, pure_bind, odeLoop, Ode.step, g1, bind_assoc, Bool.false_eq_true, if_false]
  rw [run1, wp_bind]
  refine hev.mono ?_ fun _ h => h
  rintro ⟨x1, e1⟩ ⟨k1, hev⟩
  simp only [] at k1 hev ⊢
  have m1 : e1.n = s.n := k1.n
  have mc1 : e1.nc = s.nc := k1.nc
  obtain ⟨b1, z1, d1⟩ := rk4_solve_mid
    { r with dt := h, init := i0, acc := a0, stage := .stage1, nextStage := .stage2 }
    k1.wf wa (by rw [na, m1]) (by rw [ca, mc1]) (by simp)
  obtain ⟨s2, y2, t2⟩ := rk4_step23
    { r with dt := h, init := i0, acc := b1, stage := .stage2, nextStage := .stage2 }
    k1.wf wi (by rw [ni, m1]) (Or.inl rfl)
  have p2 : s2.n = s.n := by rw [t2.1]; exact m1
  have pc2 : s2.nc = s.nc := by rw [t2.1]; exact mc1
  rw [Ode.solve, z1]
  simp only [ok_bind, pure_bind, odeLoop, Ode.step, y2, bind_assoc]
  rw [wp_bind]
  refine (hev s2 (t2.congr (fun j => by rw [m1]) fun j hj st f => by
    simp only [halfG, vi _ j hj])).mono ?_ fun _ h => h
  rintro ⟨x2, e2⟩ ⟨k2, hev⟩
  simp only [] at k2 hev ⊢
  have m2 : e2.n = s.n := by rw [k2.n, p2]
  have mc2 : e2.nc = s.nc := by rw [k2.nc, pc2]
  have u1 : b1.n = a0.n := d1.n
  have uc1 : b1.nc = a0.nc := d1.nc
  obtain ⟨b2, z2, d2⟩ := rk4_solve_mid
    { r with dt := h, init := i0, acc := b1, stage := .stage2, nextStage := .stage3 }
    k2.wf d1.wf (by simp only []; omega) (by simp only []; omega) (by simp)
  obtain ⟨s3, y3, t3⟩ := rk4_step23
    { r with dt := h, init := i0, acc := b2, stage := .stage3, nextStage := .stage3 }
    k2.wf wi (by rw [ni, m2]) (Or.inr rfl)
  have p3 : s3.n = s.n := by rw [t3.1]; exact m2
  have pc3 : s3.nc = s.nc := by rw [t3.1]; exact mc2
  rw [show RkStage.stage2.next = .stage3 from rfl, Ode.solve, z2]
  simp only [ok_bind, pure_bind, odeLoop, Ode.step, y3, bind_assoc, Bool.false_eq_true, if_false]
  rw [wp_bind]
  refine (hev s3 (t3.congr (fun j => by rw [m2]) fun j hj st f => by
    simp only [halfG, vi _ j hj])).mono ?_ fun _ h => h
  rintro ⟨x3, e3⟩ ⟨k3, hev⟩
  simp only [] at k3 hev ⊢
  have m3 : e3.n = s.n := by rw [k3.n, p3]
  have mc3 : e3.nc = s.nc := by rw [k3.nc, pc3]
  have u2 : b2.n = b1.n := d2.n
  have uc2 : b2.nc = b1.nc := d2.nc
  obtain ⟨b3, z3, d3⟩ := rk4_solve_mid
    { r with dt := h, init := i0, acc := b2, stage := .stage3, nextStage := .stage4 }
    k3.wf d2.wf (by simp only []; omega) (by simp only []; omega) (by simp)
  have u3 : b3.n = b2.n := d3.n
  have uc3 : b3.nc = b2.nc := d3.nc
  obtain ⟨s4, y4, t4⟩ := rk4_step4
    { r with dt := h, init := i0, acc := b3, stage := .stage4, nextStage := .stage4 }
    k3.wf wi (by rw [ni, m3]) rfl
  have p4 : s4.n = s.n := by rw [t4.1]; exact m3
  have pc4 : s4.nc = s.nc := by rw [t4.1]; exact mc3
  rw [show RkStage.stage3.next = .stage4 from rfl, Ode.solve, z3]
  simp only [ok_bind, pure_bind, odeLoop, Ode.step, y4, bind_assoc, Bool.false_eq_true, if_false,
    if_true]
  rw [wp_bind]
  refine (hev s4 (t4.congr (fun j => by rw [m3]) fun j hj st f => by
    simp only [fullG, vi _ j hj])).mono ?_ fun _ h => h
  rintro ⟨x4, e4⟩ ⟨k4, hev⟩
  simp only [] at k4 hev ⊢
  have m4 : e4.n = s.n := by rw [k4.n, p4]
  have mc4 : e4.nc = s.nc := by rw [k4.nc, pc4]
  obtain ⟨b4, s', z4, d4, f4, w4, v4, _⟩ := rk4_solve_end
    { r with dt := h, init := i0, acc := b3, stage := .stage4, nextStage := .complete }
    k4.wf d3.wf (by simp only []; omega) (by simp only []; omega) rfl
  have u4 : b4.n = b3.n := d4.n
  have uc4 : b4.nc = b3.nc := d4.nc
  rw [Ode.solve, z4]
  simp only [ok_bind, pure_bind, Ode.fin, wp_pure]
  refine hev _ s' ⟨wi, d4.wf, ni, ci, ?_, ?_⟩ ⟨f4, w4, fun f j => ?_⟩
  · show b4.n = s.n
    omega
  · show b4.nc = s.nc
    omega
  · have hw1 : (RkStage.stage1.weight : ℝ) = 1 := by simp [RkStage.weight, fp_lit]
    have hw2 : (RkStage.stage2.weight : ℝ) = 2 := by simp [RkStage.weight, fp_lit]
    have hw3 : (RkStage.stage3.weight : ℝ) = 2 := by simp [RkStage.weight, fp_lit]
    have hw4 : (RkStage.stage4.weight : ℝ) = 1 := by simp [RkStage.weight, fp_lit]
    simp only [hw1] at d1
    simp only [hw2] at d2
    simp only [hw3] at d3
    simp only [hw4] at d4
    rw [v4, m4]
    by_cases hj : j < s.n
    · simp only [hj, if_true]
      congr 1
      · funext c
        rw [d4.pos c j (by omega), d3.pos c j (by omega), d2.pos c j (by omega),
          d1.pos c j (by omega), va _ j hj]
      · funext c
        rw [d4.vel c j (by omega), d3.vel c j (by omega), d2.vel c j (by omega),
          d1.vel c j (by omega), va _ j hj]
    · simp only [hj, if_false]

/-! ### One step of a system -/

section
variable {w : World ℝ} {B : Nat → Nat → Nat}

/-- An evaluation of the system from `s` to `e`. -/
def World.Ev (w : World ℝ) (B : Nat → Nat → Nat) (s e : SysState ℝ) : Prop :=
  ∃ t out lam, w.GenEv B s t e out lam

theorem World.Ev.ok {s e : SysState ℝ} (h : w.Ev B s e) (hs : s.Wf) : EvOk s e := by
  obtain ⟨t, out, lam, h⟩ := h
  have l := h.like (s0 := s) ⟨hs, rfl, rfl, fun _ => rfl⟩
  exact ⟨l.wf, l.n, l.nc, fun c i _ => h.keep (pos_not_acc c) (pos_not_force c) i,
    fun c i _ => h.keep (vel_not_acc c) (vel_not_force c) i⟩

theorem World.Ev.mass {s e : SysState ℝ} (h : w.Ev B s e) (i : Nat) : e.val .m i = s.val .m i := by
  obtain ⟨t, out, lam, h⟩ := h
  exact h.keep mass_not_acc mass_not_force i

/-- A step of length `h` with `Rk4OdeSolver` from `s` to `s'`. The evaluations are made in `s`, `s2`,
`s3` and `s4`, and end in `e1`, …, `e4`. -/
structure World.RkStep (w : World ℝ) (B : Nat → Nat → Nat) (h : ℝ)
    (s e1 s2 e2 s3 e3 s4 e4 s' : SysState ℝ) : Prop where
  ev1 : w.Ev B { s with dt := 0 } e1
  to2 : BodyTo { e1 with dt := h / 2 } s2 (· < s.n) (halfG h s)
  ev2 : w.Ev B s2 e2
  to3 : BodyTo { e2 with dt := h / 2 } s3 (· < s.n) (halfG h s)
  ev3 : w.Ev B s3 e3
  to4 : BodyTo { e3 with dt := h } s4 (· < s.n) (fullG h s)
  ev4 : w.Ev B s4 e4
  fin : RkFin h s e1 e2 e3 e4 s'

/-- Every evaluation of a step from `s` is made in a state with property `P`. -/
def World.RkGood (w : World ℝ) (B : Nat → Nat → Nat) (h : ℝ) (P : SysState ℝ → Prop)
    (s : SysState ℝ) : Prop :=
  P { s with dt := 0 } ∧ ∀ e1, w.Ev B { s with dt := 0 } e1 →
  ∀ s2, BodyTo { e1 with dt := h / 2 } s2 (· < s.n) (halfG h s) → P s2 ∧ ∀ e2, w.Ev B s2 e2 →
  ∀ s3, BodyTo { e2 with dt := h / 2 } s3 (· < s.n) (halfG h s) → P s3 ∧ ∀ e3, w.Ev B s3 e3 →
  ∀ s4, BodyTo { e3 with dt := h } s4 (· < s.n) (fullG h s) → P s4

theorem BodyTo.like {s s' : SysState ℝ} {P : Nat → Prop} [DecidablePred P]
    {g h : Nat → (Fld → ℝ) → Coord → ℝ} {s0 : SysState ℝ} (t : BodyTo s s' P fun j st =>
      motion (g j st) (h j st) st) (hs : s0.Like s) : s0.Like s' :=
  ⟨t.2.1, by rw [t.1]; exact hs.n, by rw [t.1]; exact hs.nc, fun i => by
    rw [t.2.2]
    split
    · exact hs.mass i
    · exact hs.mass i⟩

theorem World.Ev.like {s e : SysState ℝ} (h : w.Ev B s e) {s0 : SysState ℝ} (hs : s0.Like s) :
    s0.Like e := by
  obtain ⟨t, out, lam, h⟩ := h
  exact h.like hs

theorem like_setDt {s0 s : SysState ℝ} (h : s0.Like s) (d : ℝ) : s0.Like { s with dt := d } :=
  ⟨wf_setDt h.wf d, h.n, h.nc, h.mass⟩

theorem like_self {s : SysState ℝ} (h : s.Wf) : s.Like s := ⟨h, rfl, rfl, fun _ => rfl⟩

/-- The states of a step have the sizes and masses of the first one. -/
theorem World.RkStep.likes {h : ℝ} {s e1 s2 e2 s3 e3 s4 e4 s' : SysState ℝ}
    (t : w.RkStep B h s e1 s2 e2 s3 e3 s4 e4 s') (hs : s.Wf) :
    s.Like e1 ∧ s.Like s2 ∧ s.Like e2 ∧ s.Like s3 ∧ s.Like e3 ∧ s.Like s4 ∧ s.Like e4 ∧
      s.Like s' := by
  have l1 := t.ev1.like (like_setDt (like_self hs) 0)
  have l2 := BodyTo.like t.to2 (like_setDt l1 _)
  have l3 := t.ev2.like l2
  have l4 := BodyTo.like t.to3 (like_setDt l3 _)
  have l5 := t.ev3.like l4
  have l6 := BodyTo.like t.to4 (like_setDt l5 _)
  have l7 := t.ev4.like l6
  refine ⟨l1, l2, l3, l4, l5, l6, l7, t.fin.wf, by rw [t.fin.fin]; exact l7.n,
    by rw [t.fin.fin]; exact l7.nc, fun i => ?_⟩
  rw [t.fin.vals]
  split
  · exact l7.mass i
  · exact l7.mass i

theorem rksubstep_wp (hfit : w.Fit B) (hid : w.NoIdle) (hg : ∀ g ∈ w.fg, (w.gens g).OnlyForces)
    {env : Env ℝ} {h : ℝ} {x : Ctx ℝ × List (SysState ℝ × SysState ℝ)} {r : Rk4 ℝ}
    {s : SysState ℝ} (ht : (Ode.rk4 r).Takes s) (hm : w.Mid x.1.mem) (hs : s.Wf)
    (hn : w.bodyCount ≤ s.n)
    (hc : w.fullCount ≤ s.nc) {P : SysState ℝ → Prop} {E : Err → Prop}
    (hE : (∀ e, E e) ∨ (w.GenGood B P (x.1.mem.mat .ivLambda) ∧ w.RkGood B h P s)) :
    Wp (odeRun (logged (w.genEval env)) x (.rk4 r) s h) (fun z => w.Mid z.1.1.mem ∧
      (∃ r', z.2.1 = .rk4 r' ∧ r'.Rests s.n s.nc) ∧
      (∀ sv, w.sle = some sv →
        sv.Kept w.fullCount (x.1.mem.mat .ivLambda) (z.1.1.mem.mat .ivLambda)) ∧
      ∃ e1 s2 e2 s3 e3 s4 e4, w.RkStep B h s e1 s2 e2 s3 e3 s4 e4 z.2.2) E := by
  have one : ∀ (x : Ctx ℝ × List (SysState ℝ × SysState ℝ)) (s1 : SysState ℝ), w.Mid x.1.mem →
      s.Like s1 → ((∀ e, E e) ∨ (w.GenGood B P (x.1.mem.mat .ivLambda) ∧ P s1)) →
      Wp (logged (w.genEval env) x s1) (fun z => w.Mid z.1.1.mem ∧ (∀ sv, w.sle = some sv →
        sv.Kept w.fullCount (x.1.mem.mat .ivLambda) (z.1.1.mem.mat .ivLambda)) ∧
        w.Ev B s1 z.2) E := by
    intro x s1 hm hl hE
    rw [logged, wp_bind]
    refine (genEval_wp (B := B) hfit hid hg (env := env) hm hl.wf (by rw [hl.n]; exact hn)
      (by rw [hl.nc]; exact hc) hE).mono ?_ fun _ h => h
    rintro z ⟨z1, z2, z3⟩
    rw [wp_pure]
    exact ⟨z1, z2, z3⟩
  have l0 := like_setDt (like_self hs) 0
  refine rk4_run_wp hs ht.1.1 ht.2.1 ht.1.2 ht.2.2 ?_
  refine (one x _ hm l0 (hE.imp_right fun g => ⟨g.1, g.2.1⟩)).mono ?_ fun _ h => h
  rintro z1 ⟨m1, k1, v1⟩
  have hE := hE.imp_right fun g => And.intro (g.1.next fun sv e => (k1 sv e).easy) (g.2.2 _ v1)
  refine ⟨v1.ok l0.wf, fun s2 t2 => ?_⟩
  have l1 := BodyTo.like t2 (like_setDt (v1.like l0) _)
  refine (one _ _ m1 l1 (hE.imp_right fun g => ⟨g.1, (g.2 _ t2).1⟩)).mono ?_ fun _ h => h
  rintro z2 ⟨m2, k2, v2⟩
  have hE := hE.imp_right fun g =>
    And.intro (g.1.next fun sv e => (k2 sv e).easy) ((g.2 _ t2).2 _ v2)
  refine ⟨v2.ok l1.wf, fun s3 t3 => ?_⟩
  have l2 := BodyTo.like t3 (like_setDt (v2.like l1) _)
  refine (one _ _ m2 l2 (hE.imp_right fun g => ⟨g.1, (g.2 _ t3).1⟩)).mono ?_ fun _ h => h
  rintro z3 ⟨m3, k3, v3⟩
  have hE := hE.imp_right fun g =>
    And.intro (g.1.next fun sv e => (k3 sv e).easy) ((g.2 _ t3).2 _ v3)
  refine ⟨v3.ok l2.wf, fun s4 t4 => ?_⟩
  have l3 := BodyTo.like t4 (like_setDt (v3.like l2) _)
  refine (one _ _ m3 l3 (hE.imp_right fun g => ⟨g.1, g.2 _ t4⟩)).mono ?_ fun _ h => h
  rintro z4 ⟨m4, k4, v4⟩
  refine ⟨v4.ok l3.wf, fun r' s' hr hf => ⟨m4, ⟨r', rfl, hr⟩, fun sv e => ?_, _, s2, _, s3, _, s4, _,
    v1, t2, v2, t3, v3, t4, v4, hf⟩⟩
  exact (((k1 sv e).trans (k2 sv e)).trans (k3 sv e)).trans (k4 sv e)

/-! ### All steps of a call -/

/-- A sequence of `k` steps of length `h`. -/
def World.RkSteps (w : World ℝ) (B : Nat → Nat → Nat) (h : ℝ) (k : Nat) (S : Nat → SysState ℝ) :
    Prop :=
  ∀ j, j < k → ∃ e1 s2 e2 s3 e3 s4 e4, w.RkStep B h (S j) e1 s2 e2 s3 e3 s4 e4 (S (j + 1))

theorem World.RkSteps.like {h : ℝ} {k : Nat} {S : Nat → SysState ℝ} (t : w.RkSteps B h k S)
    (h0 : (S 0).Wf) : ∀ j, j ≤ k → (S 0).Like (S j)
  | 0, _ => like_self h0
  | j + 1, hj => by
    obtain ⟨_, _, _, _, _, _, _, st⟩ := t j hj
    have ih := t.like h0 j (by omega)
    have l := (st.likes ih.wf).2.2.2.2.2.2.2
    exact ⟨l.wf, l.n.trans ih.n, l.nc.trans ih.nc, fun i => (l.mass i).trans (ih.mass i)⟩

/-- Conditions under which `n` steps succeed: the state before step `j` has the property `P j` and
its evaluations are made in states with the property `Q`. -/
structure World.RkGoodRun (w : World ℝ) (B : Nat → Nat → Nat) (h : ℝ) (n : Nat)
    (P : Nat → SysState ℝ → Prop) (Q : SysState ℝ → Prop) (lam : Mat ℝ) : Prop where
  good : w.GenGood B Q lam
  evals : ∀ j, j < n → ∀ s, P j s → w.RkGood B h Q s
  keep : ∀ j, j < n → ∀ s e1 s2 e2 s3 e3 s4 e4 s', P j s →
    w.RkStep B h s e1 s2 e2 s3 e3 s4 e4 s' → P (j + 1) s'

theorem Rk4.Rests.takes {r : Rk4 ℝ} {s : SysState ℝ} (h : r.Rests s.n s.nc) : (Ode.rk4 r).Takes s :=
  ⟨⟨h.init, Or.inl ⟨h.initN, h.initC⟩⟩, h.acc, Or.inl ⟨h.accN, h.accC⟩⟩

theorem genLoop_rk (hfit : w.Fit B) (hid : w.NoIdle) (hg : ∀ g ∈ w.fg, (w.gens g).OnlyForces)
    {env : Env ℝ} {dt : ℝ} {steps : Int} {mem : Store ℝ} {s : SysState ℝ} {r : Rk4 ℝ}
    (hode : w.ode = some (.rk4 r)) (ht : (Ode.rk4 r).Takes s) (hm : w.Mid mem) (hs : s.Wf)
    (hn : w.bodyCount ≤ s.n) (hc : w.fullCount ≤ s.nc)
    {P : Nat → SysState ℝ → Prop} {Q : SysState ℝ → Prop} {E : Err → Prop}
    (hE : (∀ e, E e) ∨
      (w.RkGoodRun B (dt / steps) steps.toNat P Q (mem.mat .ivLambda) ∧ P 0 s)) :
    Wp (w.genLoopLog env dt steps s mem) (fun q => w.Mid q.1.1.mem ∧
      ∃ S : Nat → SysState ℝ, S 0 = s ∧ S steps.toNat = q.2.2 ∧
        w.RkSteps B (dt / steps) steps.toNat S) E := by
  rw [World.genLoopLog, hode]
  refine wp_forN' (fun k (q : (Ctx ℝ × List (SysState ℝ × SysState ℝ)) × Option (Ode ℝ) ×
      SysState ℝ) => w.Mid q.1.1.mem ∧
      (∃ r', q.2.1 = some (.rk4 r') ∧ (Ode.rk4 r').Takes q.2.2) ∧ s.Like q.2.2 ∧
      ((∀ e, E e) ∨ (w.RkGoodRun B (dt / steps) steps.toNat P Q (q.1.1.mem.mat .ivLambda) ∧
        P k q.2.2)) ∧
      ∃ S : Nat → SysState ℝ, S 0 = s ∧ S k = q.2.2 ∧ w.RkSteps B (dt / steps) k S)
    ⟨hm, ⟨r, rfl, ht⟩, like_self hs, hE, fun _ => s, rfl, rfl,
      fun j hj => absurd hj (by omega)⟩ ?_ ?_
  · rintro k hk q ⟨qm, ⟨r', qo, qt⟩, ql, qE, S, S0, Sk, St⟩
    have h0 : ((steps : Int) : ℝ) ≠ 0 := by
      have : 0 < steps := by omega
      exact_mod_cast this.ne'
    have hl : (Fp.lit (steps : Rat) : ℝ) = (steps : ℝ) := by simp [fp_lit]
    rw [qo, deref, ok_bind, hl, fp_div h0, ok_bind, wp_bind]
    refine (rksubstep_wp (env := env) hfit hid hg qt (x := q.1) qm ql.wf (by rw [ql.n]; exact hn)
      (by rw [ql.nc]; exact hc)
      (qE.imp_right fun g => ⟨g.1.good, g.1.evals k hk _ g.2⟩)).mono ?_ (fun _ z => z)
    rintro z ⟨z1, ⟨r1, z2, zr⟩, z3, e1, s2, e2, s3, e3, s4, e4, zs⟩
    have l := (zs.likes ql.wf).2.2.2.2.2.2.2
    rw [wp_pure]
    refine ⟨z1, ⟨r1, congrArg some z2, ?_⟩, ⟨l.wf, by rw [l.n, ql.n], by rw [l.nc, ql.nc],
      fun i => by rw [l.mass, ql.mass]⟩, ?_, fun j => if j ≤ k then S j else z.2.2, ?_, ?_, ?_⟩
    · rw [← l.n, ← l.nc] at zr
      exact zr.takes
    · rcases qE with qE | ⟨qg, qP⟩
      · exact Or.inl qE
      · exact Or.inr ⟨⟨qg.good.next fun sv e => (z3 sv e).easy, qg.evals, qg.keep⟩,
          qg.keep k hk _ _ _ _ _ _ _ _ _ qP zs⟩
    · simp [S0]
    · simp
    · intro j hj
      rcases Nat.lt_or_eq_of_le (Nat.lt_succ_iff.mp hj) with hj | rfl
      · simp only [if_pos (Nat.le_of_lt hj), if_pos (Nat.succ_le_of_lt hj)]
        exact St j hj
      · simp only [if_pos (Nat.le_refl _), if_neg (Nat.not_succ_le_self _)]
        rw [Sk]
        exact ⟨_, _, _, _, _, _, _, zs⟩
  · rintro q ⟨qm, _, _, _, S, S0, Sk, St⟩
    exact ⟨qm, S, S0, Sk, St⟩

/-- A condition under which a call of `process` succeeds. -/
structure World.RkCanRun (w : World ℝ) (B : Nat → Nat → Nat) (h : ℝ) (n : Nat)
    (P : Nat → SysState ℝ → Prop) (Q : SysState ℝ → Prop) : Prop where
  mass : ∀ i, i < w.bodyCount → ∀ c : Coord, w.massAt c i ≠ 0
  good : w.RkGoodRun B h n P Q (w.mem.mat .ivLambda)
  start : ∀ s, w.Populated s → P 0 s

theorem genProcess_rk (hr : w.Ready B) (hid : w.NoIdle) {env : Env ℝ} {dt : ℝ} {steps : Int}
    {r : Rk4 ℝ} (hode : w.ode = some (.rk4 r))
    (ht : ∀ s, s.n = (w.st.resize w.bodyCount w.fullCount).n →
      s.nc = (w.st.resize w.bodyCount w.fullCount).nc → (Ode.rk4 r).Takes s)
    {P : Nat → SysState ℝ → Prop} {Q : SysState ℝ → Prop} {E : Err → Prop}
    (hE : (∀ e, E e) ∨ w.RkCanRun B (dt / steps) steps.toNat P Q) :
    Wp (w.genProcess env dt steps) (fun w' => ∃ s q, (∃ S : Nat → SysState ℝ, S 0 = s ∧
      S steps.toNat = q.2.2 ∧ w.RkSteps B (dt / steps) steps.toNat S) ∧
      w.GenDone env dt steps w' s q) E := by
  refine genProcess_spec hr (hE.imp_right fun h => h.mass) ?_
  intro s mem es hp hm hl
  obtain ⟨s0, e0, _, n0, c0, _⟩ := populateState_spec hr.sound.st.wf hr.fit.con
  rw [es] at e0
  cases e0
  refine (genLoop_rk (P := P) (Q := Q) (E := E) hr.fit hid (fun g _ => hr.sound.gens g) hode
    (ht s n0 c0) hm hp.wf hp.n hp.nc ?_).mono ?_ (fun _ h => h)
  · rcases hE with hE | hE
    · exact Or.inl hE
    · rw [hl]
      exact Or.inr ⟨hE.good, hE.start s hp⟩
  · rintro q ⟨_, S, S0, Sk, St⟩
    refine ⟨⟨S, S0, Sk, St⟩, ?_⟩
    have := St.like (by rw [S0]; exact hp.wf) steps.toNat (Nat.le_refl _)
    rw [Sk, S0] at this
    exact this

/-! ### The motion of the bodies -/

/-- The motion a time `h` after `x` with the accelerations `a`: new velocities first, and positions
with the new velocities. -/
def Motion.ahead (x : Motion) (h : ℝ) (a : Nat → Coord → ℝ) : Motion where
  pos := fun b q => x.pos b q + h * (x.vel b q + h * a b q)
  vel := fun b q => x.vel b q + h * a b q
  acc := a

/-- One step of length `h` with `Rk4OdeSolver` from the motion `x` to the motion `x'`: `a i` are the
accelerations and `mult i` the forces along the rows of the constraints in evaluation `i`. -/
structure World.RkMove (w : World ℝ) (h : ℝ) (x x' : Motion) (a : Nat → Nat → Coord → ℝ)
    (mult : Nat → Nat → Nat → ℝ) : Prop where
  acc1 : w.Accel x (a 1) (mult 1)
  acc2 : w.Accel (x.ahead (h / 2) (a 1)) (a 2) (mult 2)
  acc3 : w.Accel (x.ahead (h / 2) (a 2)) (a 3) (mult 3)
  acc4 : w.Accel (x.ahead h (a 3)) (a 4) (mult 4)
  vel : ∀ b ∈ w.rb, ∀ q : Coord, x'.vel b q =
    x.vel b q + h / 6 * (a 1 b q + 2 * a 2 b q + 2 * a 3 b q + a 4 b q)
  pos : ∀ b ∈ w.rb, ∀ q : Coord, x'.pos b q =
    x.pos b q + h / 6 * (x.vel b q + 2 * (x.vel b q + h / 2 * a 1 b q) +
      2 * (x.vel b q + h / 2 * a 2 b q) + (x.vel b q + h * a 3 b q))
  acc : ∀ b ∈ w.rb, ∀ q : Coord, x'.acc b q = a 4 b q

section
variable (p : w.Placed) (hfit : w.Fit (fun c k => w.at (w.bodyOf c k))) (hlow : w.Slim)
  (hp : w.Proper) (hg : w.Driven)
include p hfit hlow hp hg

theorem World.Ev.accel {s e : SysState ℝ} (hs : s.Wf) (hn : w.bodyCount ≤ s.n)
    (hm : ∀ b ∈ w.rb, s.val .m (w.at b) = (w.bodies b).m)
    (v : w.Ev (fun c k => w.at (w.bodyOf c k)) s e) :
    ∃ mult, w.Accel (w.seen s) (w.seen e).acc mult := by
  obtain ⟨t, out, lam, v⟩ := v
  exact ⟨_, ((v.obj p hfit hlow hs hm).accel p hp hg hs hn hm).1⟩

omit hfit hlow hp hg in
theorem BodyTo.half {s e s2 : SysState ℝ} {h d : ℝ} (hn : w.bodyCount ≤ s.n)
    (t : BodyTo { e with dt := d } s2 (· < s.n) (halfG h s)) :
    w.SameAs (w.seen s2) ((w.seen s).ahead (h / 2) (w.seen e).acc) := by
  refine ⟨fun b hb q => ?_, fun b hb q => ?_, fun b hb q => ?_⟩
  · have := t.2.2 q.p (w.at b)
    rw [if_pos (show w.at b < s.n from lt_of_lt_of_le (p.lt b hb) hn), halfG, motion_p] at this
    show s2.val q.p (w.at b) = s.val q.p (w.at b) + h / 2 * (s.val q.v (w.at b) +
      h / 2 * e.val q.a (w.at b))
    rw [this]
    show s.val q.p (w.at b) + h * (s.val q.v (w.at b) + h * e.val q.a (w.at b) / 2) / 2 = _
    ring
  · have := t.2.2 q.v (w.at b)
    rw [if_pos (show w.at b < s.n from lt_of_lt_of_le (p.lt b hb) hn), halfG, motion_v] at this
    show s2.val q.v (w.at b) = s.val q.v (w.at b) + h / 2 * e.val q.a (w.at b)
    rw [this]
    show s.val q.v (w.at b) + h * e.val q.a (w.at b) / 2 = _
    ring
  · have := t.2.2 q.a (w.at b)
    rw [if_pos (show w.at b < s.n from lt_of_lt_of_le (p.lt b hb) hn), halfG, motion_a] at this
    exact this

omit hfit hlow hp hg in
theorem BodyTo.full {s e s2 : SysState ℝ} {h d : ℝ} (hn : w.bodyCount ≤ s.n)
    (t : BodyTo { e with dt := d } s2 (· < s.n) (fullG h s)) :
    w.SameAs (w.seen s2) ((w.seen s).ahead h (w.seen e).acc) := by
  refine ⟨fun b hb q => ?_, fun b hb q => ?_, fun b hb q => ?_⟩
  · have := t.2.2 q.p (w.at b)
    rw [if_pos (show w.at b < s.n from lt_of_lt_of_le (p.lt b hb) hn), fullG, motion_p] at this
    exact this
  · have := t.2.2 q.v (w.at b)
    rw [if_pos (show w.at b < s.n from lt_of_lt_of_le (p.lt b hb) hn), fullG, motion_v] at this
    exact this
  · have := t.2.2 q.a (w.at b)
    rw [if_pos (show w.at b < s.n from lt_of_lt_of_le (p.lt b hb) hn), fullG, motion_a] at this
    exact this

theorem World.RkStep.rkmove {h : ℝ} {s e1 s2 e2 s3 e3 s4 e4 s' : SysState ℝ} (hs : s.Wf)
    (hn : w.bodyCount ≤ s.n) (hm : ∀ b ∈ w.rb, s.val .m (w.at b) = (w.bodies b).m)
    (t : w.RkStep (fun c k => w.at (w.bodyOf c k)) h s e1 s2 e2 s3 e3 s4 e4 s') :
    ∃ a mult, w.RkMove h (w.seen s) (w.seen s') a mult := by
  obtain ⟨l1, l2, l3, l4, l5, l6, l7, l8⟩ := t.likes hs
  have ev : ∀ {s1 e : SysState ℝ}, s.Like s1 → w.Ev (fun c k => w.at (w.bodyOf c k)) s1 e →
      ∃ mult, w.Accel (w.seen s1) (w.seen e).acc mult := fun l v =>
    v.accel p hfit hlow hp hg l.wf (by rw [l.n]; exact hn) fun b hb => by rw [l.mass]; exact hm b hb
  obtain ⟨m1, k1⟩ := ev (like_setDt (like_self hs) 0) t.ev1
  obtain ⟨m2, k2⟩ := ev l2 t.ev2
  obtain ⟨m3, k3⟩ := ev l4 t.ev3
  obtain ⟨m4, k4⟩ := ev l6 t.ev4
  rw [seen_dt] at k1
  have h2 := BodyTo.half p hn t.to2
  have h3 := BodyTo.half p hn t.to3
  have h4 := BodyTo.full p hn t.to4
  have vk : ∀ {s1 e : SysState ℝ}, w.Ev (fun c k => w.at (w.bodyOf c k)) s1 e → ∀ b q,
      (w.seen e).vel b q = (w.seen s1).vel b q := by
    rintro s1 e ⟨_, _, _, v⟩ b q
    exact v.keep (vel_not_acc q) (vel_not_force q) _
  have u1 : ∀ b q, e1.val (Coord.v q) (w.at b) = s.val q.v (w.at b) := fun b q => vk t.ev1 b q
  have u2 : ∀ b ∈ w.rb, ∀ q : Coord, e2.val q.v (w.at b) =
      s.val q.v (w.at b) + h / 2 * e1.val q.a (w.at b) := fun b hb q =>
    (vk t.ev2 b q).trans (h2.vel b hb q)
  have u3 : ∀ b ∈ w.rb, ∀ q : Coord, e3.val q.v (w.at b) =
      s.val q.v (w.at b) + h / 2 * e2.val q.a (w.at b) := fun b hb q =>
    (vk t.ev3 b q).trans (h3.vel b hb q)
  have u4 : ∀ b ∈ w.rb, ∀ q : Coord, e4.val q.v (w.at b) =
      s.val q.v (w.at b) + h * e3.val q.a (w.at b) := fun b hb q =>
    (vk t.ev4 b q).trans (h4.vel b hb q)
  have lt : ∀ b ∈ w.rb, w.at b < s.n := fun b hb => lt_of_lt_of_le (p.lt b hb) hn
  refine ⟨fun i => if i = 1 then (w.seen e1).acc else if i = 2 then (w.seen e2).acc else
      if i = 3 then (w.seen e3).acc else (w.seen e4).acc,
    fun i => if i = 1 then m1 else if i = 2 then m2 else if i = 3 then m3 else m4,
    k1, k2.congr p hg h2, k3.congr p hg h3, k4.congr p hg h4, fun b hb q => ?_, fun b hb q => ?_,
    fun b hb q => ?_⟩
  · show s'.val q.v (w.at b) = s.val q.v (w.at b) + h / 6 * (e1.val q.a (w.at b) +
      2 * e2.val q.a (w.at b) + 2 * e3.val q.a (w.at b) + e4.val q.a (w.at b))
    rw [t.fin.vals, if_pos (lt b hb), motion_v]
    ring
  · show s'.val q.p (w.at b) = s.val q.p (w.at b) + h / 6 * (s.val q.v (w.at b) +
      2 * (s.val q.v (w.at b) + h / 2 * e1.val q.a (w.at b)) +
      2 * (s.val q.v (w.at b) + h / 2 * e2.val q.a (w.at b)) +
      (s.val q.v (w.at b) + h * e3.val q.a (w.at b)))
    rw [t.fin.vals, if_pos (lt b hb), motion_p, u1, u2 b hb, u3 b hb, u4 b hb]
    ring
  · show s'.val q.a (w.at b) = e4.val q.a (w.at b)
    rw [t.fin.vals, if_pos (lt b hb), motion_a]

theorem genGood_of (hr : w.Ready (fun c k => w.at (w.bodyOf c k))) (hsle : w.sle ≠ none)
    (hgs : ∀ m e, w.sle ≠ some (.gs m e))
    (hz : w.cs = [] → ∀ sv, w.sle = some sv → sv.Easy0 (w.mem.mat .ivLambda)) :
    w.GenGood (fun c k => w.at (w.bodyOf c k)) (fun s => s.Wf ∧ w.bodyCount ≤ s.n ∧
        (∀ b ∈ w.rb, s.val .m (w.at b) = (w.bodies b).m) ∧ (w.cs ≠ [] → w.Solvable (w.seen s)))
      (w.mem.mat .ivLambda) := by
  have hfull : w.fullCount = 0 ↔ w.cs = [] := by
    constructor
    · intro h0
      have := hr.fit.con
      rw [h0, Nat.le_zero, World.conCount] at this
      exact List.length_eq_zero_iff.mp this
    · intro h0
      rw [World.fullCount, h0]
      rfl
  have seenS : ∀ (s : SysState ℝ), (∀ b ∈ w.rb, s.val .m (w.at b) = (w.bodies b).m) →
      w.Seen s (w.seen s) := fun s hs =>
    ⟨fun b _ q => rfl, fun b _ q => rfl, fun b _ q => rfl, hs⟩
  refine ⟨?_, ?_, ?_⟩
  · rintro s ⟨s1, s2, s3, s4⟩
    obtain ⟨s', e, _⟩ := forces_run p hg s1 s2 (seenS s s3)
    exact ⟨s', e⟩
  · rintro s s1 ⟨q1, q2, q3, q4⟩ e c hc o
    obtain ⟨s', e', f', g', _⟩ := forces_run p hg q1 q2 (seenS s q3)
    rw [e] at e'
    cases e'
    obtain ⟨out, e, _⟩ := has_of p hp hc (f'.wf q1) (by rw [f'.n]; exact q2) g' o
    exact ⟨out, e⟩
  · cases hsv : w.sle with
    | none => exact absurd hsv hsle
    | some sv =>
      refine ⟨sv, rfl, fun hf => hz (hfull.mp hf) sv hsv, ?_⟩
      rintro s s1 out ⟨q1, q2, q3, q4⟩ e hc hpos
      obtain ⟨s', e', f', g', _⟩ := forces_run p hg q1 q2 (seenS s q3)
      rw [e] at e'
      cases e'
      refine Solver.EasyU_of (fun m e h => hgs m e (by rw [hsv, h])) (Easy_of p hr.fit hlow
        (q4 fun h0 => ?_) hsv (same_of_has fun c hc' => ?_) (fun _ => 0) (fun _ => 0)
        (fun _ => 0))
      · rw [← hfull] at h0
        omega
      · obtain ⟨hi, hci⟩ := conAt_spec hc'
        obtain ⟨o, eo⟩ := hc _ hi
        rw [hci] at eo
        obtain ⟨out', eo', h'⟩ := has_of p hp hc' (f'.wf q1)
          (by rw [f'.n]; exact q2) g' o
        rw [eo] at eo'
        cases eo'
        exact h'

end

theorem Solvable.congr (p : w.Placed) {x y : Motion} (s : w.SameAs x y) (h : w.Solvable x) :
    w.Solvable y := by
  have hi := (sameRows_congr p s)
  revert h
  rw [World.Solvable, World.Solvable]
  cases w.sle with
  | none => exact id
  | some sv =>
    cases sv with
    | ge => exact hi.indep
    | cg m e1 e2 =>
      rintro ⟨h1, h2, h3⟩
      refine ⟨h1, h2, fun z hz => h3 z fun b hb q => ?_⟩
      rw [← hz b hb q]
      refine sum_congr rfl fun c hc => sum_congr rfl fun j hj => ?_
      rw [hi.coef (List.mem_toFinset.mp hc) (mem_range.mp hj)]
    | gs m e =>
      rintro ⟨h1, h2, h3, h4⟩
      refine ⟨h1, h2, hi.indep h3, fun c hc i hi' c' hc' i' hi'' hne => ?_⟩
      rw [← h4 c hc i hi' c' hc' i' hi'' hne]
      refine sum_congr rfl fun b _ => Coord.sum_congr fun q => ?_
      rw [hi.coef hc hi', hi.coef hc' hi'']

/-- The constraints can be solved in all evaluations of a step from `x`. -/
def World.RkSolvable (w : World ℝ) (h : ℝ) (x : Motion) : Prop :=
  w.Solvable x ∧ ∀ a1 m1, w.Accel x a1 m1 →
    w.Solvable (x.ahead (h / 2) a1) ∧ ∀ a2 m2, w.Accel (x.ahead (h / 2) a1) a2 m2 →
      w.Solvable (x.ahead (h / 2) a2) ∧ ∀ a3 m3, w.Accel (x.ahead (h / 2) a2) a3 m3 →
        w.Solvable (x.ahead h a3)

/-! ### Every solver -/

/-- One sub-step of length `h` from the motion `x` to the motion `x'` with the solver `o`. -/
def World.OdeStep (w : World ℝ) (o : Ode ℝ) (h : ℝ) (x x' : Motion) : Prop :=
  match o with
  | .base _ => False
  | .euler _ => ∃ mult, w.GMove false h x x' mult
  | .nsv _ => ∃ mult, w.GMove true h x x' mult
  | .rk4 _ => ∃ a mult, w.RkMove h x x' a mult

/-- A call of `process`: the motions before and after the sub-steps. -/
structure World.OdeMoved (w : World ℝ) (o : Ode ℝ) (dt : ℝ) (steps : Int) (w' : World ℝ)
    (X : Nat → Motion) : Prop where
  first : X 0 = w.now
  last : w.Shows (X steps.toNat) w'.bodies
  step : ∀ j, j < steps.toNat → w.OdeStep o (dt / steps) (X j) (X (j + 1))
  mass : ∀ b ∈ w.rb, ∀ q : Coord, (w.bodies b).mass q ≠ 0

theorem World.SameAs.ahead {x y : Motion} (s : w.SameAs x y) (h : ℝ) (a : Nat → Coord → ℝ) :
    w.SameAs (x.ahead h a) (y.ahead h a) :=
  ⟨fun b hb q => by simp only [Motion.ahead, s.pos b hb q, s.vel b hb q],
    fun b hb q => by simp only [Motion.ahead, s.vel b hb q], fun _ _ _ => rfl⟩

theorem World.RkMove.congr (p : w.Placed) (hg : w.Driven) {x x' y : Motion} {h : ℝ}
    {a : Nat → Nat → Coord → ℝ} {mult : Nat → Nat → Nat → ℝ} (t : w.RkMove h x x' a mult)
    (s : w.SameAs x y) : w.RkMove h y x' a mult :=
  ⟨t.acc1.congr p hg s, t.acc2.congr p hg (s.ahead _ _), t.acc3.congr p hg (s.ahead _ _),
    t.acc4.congr p hg (s.ahead _ _), fun b hb q => by rw [t.vel b hb q, s.vel b hb q],
    fun b hb q => by rw [t.pos b hb q, s.pos b hb q, s.vel b hb q], t.acc⟩

/-- Every successful call of `process` with a shipped solver is a sequence of sub-steps that starts
from what the bodies show. -/
theorem World.Hist.ode_moved {G : Gen ℝ → Prop} {h : List (Op ℝ)} (hG : ∀ g, G g → g.OnlyForces)
    (hw : World.Hist G .gen h w) (hst : w.Standard h) {env : Env ℝ} {dt : ℝ} {steps : Int}
    {w' : World ℝ} {o : Ode ℝ} (hode : w.ode = some o) (ho : o.sort ≠ 0)
    (hsync : o.sort = 3 → InSync h) (e : w.process .gen env dt steps = .ok w') :
    ∃ X, w.OdeMoved o dt steps w' X := by
  cases o with
  | base d => exact absurd rfl ho
  | euler d =>
    obtain ⟨X, mult, r, h0, hm⟩ := hw.gmoved (sym := false) hG hst hode rfl e
    exact ⟨X, h0, hm.last, fun j hj => ⟨_, hm.step j hj⟩, hm.mass⟩
  | nsv d =>
    obtain ⟨X, mult, r, h0, hm⟩ := hw.gmoved (sym := true) hG hst hode rfl e
    exact ⟨X, h0, hm.last, fun j hj => ⟨_, hm.step j hj⟩, hm.mass⟩
  | rk4 r =>
    obtain ⟨hr, p⟩ := hw.readyG hG hst.wired
    have hg := hst.driven hw.regs
    have := genProcess_rk (P := fun _ _ => True) (Q := fun _ => True) hr (fun c hc => by
      have := counts_le (hst.kind c ((hw.regs.cons.mem c).mp hc)); omega) hode
      (fun s h1 h2 => (hw.matched divOk_real hG (hsync rfl)).takes hode
        ((hw.sound divOk_real hG).ode _ hode) ⟨h1, h2⟩) (env := env)
      (dt := dt) (steps := steps) (E := anyErr) (.inl fun _ => trivial)
    rw [show w.genProcess env dt steps = .ok w' from e] at this
    obtain ⟨s, q, ⟨S, h0, hk, t⟩, d⟩ := this
    have hl := t.like (by rw [h0]; exact d.start.wf)
    have s0 : w.SameAs (w.seen (S 0)) w.now := by
      rw [h0]
      refine ⟨fun b hb c => ?_, fun b hb c => ?_, fun b hb c => ?_⟩
      · have h1 := d.start.pos c _ (p.lt b hb)
        rw [p.rbAt b hb] at h1
        exact h1
      · have h1 := d.start.vel c _ (p.lt b hb)
        rw [p.rbAt b hb] at h1
        exact h1
      · have h1 := d.start.acc c _ (p.lt b hb)
        rw [fp_lit] at h1
        exact h1.trans (by norm_num [World.now])
    have s1 : ∀ j, w.SameAs (w.seen (S j)) (if j = 0 then w.now else w.seen (S j)) := by
      intro j
      by_cases hj : j = 0
      · subst hj
        exact s0
      · rw [if_neg hj]
        exact ⟨fun _ _ _ => rfl, fun _ _ _ => rfl, fun _ _ _ => rfl⟩
    refine ⟨fun j => if j = 0 then w.now else w.seen (S j), if_pos rfl, fun b hb c => ?_,
      fun j hj => ?_, fun b hb c => ?_⟩
    · rw [← (s1 steps.toNat).pos b hb, ← (s1 steps.toNat).vel b hb]
      have h1 := d.stored.body _ (p.lt b hb) c
      rw [p.rbAt b hb] at h1
      rw [hk]
      exact ⟨h1.1.symm, h1.2.symm⟩
    · obtain ⟨_, _, _, _, _, _, _, st⟩ := t j hj
      obtain ⟨a, mult, hm⟩ := st.rkmove p hr.fit (hst.slim hw.regs) (hst.proper hw.regs) hg
        (hl j hj.le).wf (by rw [(hl j hj.le).n, h0]; exact d.start.n) fun b hb => by
          rw [(hl j hj.le).mass, h0, d.start.mass _ (p.lt b hb), p.rbAt b hb]
      refine ⟨a, mult, ?_⟩
      rw [if_neg (Nat.succ_ne_zero j)]
      exact hm.congr p hg (s1 j)
    · have := d.mass _ (p.lt b hb) c
      rw [World.massAt, p.rbAt b hb] at this
      exact this

/-- A call of `process` of the generic system with `Rk4OdeSolver` succeeds if the constraints can be
solved in every motion that can occur; `R j` is a property of the motion before sub-step `j`. -/
theorem World.Hist.goesRk {G : Gen ℝ → Prop} {h : List (Op ℝ)} (hG : ∀ g, G g → g.OnlyForces)
    (hw : World.Hist G .gen h w) (hst : w.Standard h) {dt : ℝ} {steps : Int}
    {r : Rk4 ℝ} (hode : w.ode = some (.rk4 r)) (hsync : InSync h)
    (hm : ∀ b ∈ w.rb, ∀ q : Coord, (w.bodies b).mass q ≠ 0) (hsle : w.sle ≠ none)
    (hgs : ∀ m e, w.sle ≠ some (.gs m e)) (R : Nat → Motion → Prop)
    (h0 : ∀ x, w.Shows x w.bodies → (∀ b ∈ w.rb, ∀ q : Coord, x.acc b q = 0) → R 0 x)
    (hR : ∀ j, j < steps.toNat → ∀ x x' a mult, R j x → w.RkMove (dt / steps) x x' a mult →
      R (j + 1) x')
    (hS : ∀ j, j < steps.toNat → ∀ x, R j x → w.cs ≠ [] → w.RkSolvable (dt / steps) x)
    (hz : w.cs = [] → ∀ sv, w.sle = some sv → sv.Easy0 (w.mem.mat .ivLambda)) (env : Env ℝ) :
    ∃ w', w.process .gen env dt steps = .ok w' := by
  obtain ⟨hr, p⟩ := hw.readyG hG hst.wired
  have hp := hst.proper hw.regs
  have hg := hst.driven hw.regs
  have hlow := hst.slim hw.regs
  have hrun : w.RkCanRun (fun c k => w.at (w.bodyOf c k)) (dt / steps) steps.toNat
      (fun j s => s.Wf ∧ w.bodyCount ≤ s.n ∧
        (∀ b ∈ w.rb, s.val .m (w.at b) = (w.bodies b).m) ∧ R j (w.seen s))
      (fun s => s.Wf ∧ w.bodyCount ≤ s.n ∧
        (∀ b ∈ w.rb, s.val .m (w.at b) = (w.bodies b).m) ∧
        (w.cs ≠ [] → w.Solvable (w.seen s))) := by
    refine ⟨?_, ⟨genGood_of p hr.fit hlow hp hg hr hsle hgs hz, ?_, ?_⟩, ?_⟩
    · intro i hi c
      have : w.rbAt i ∈ w.rb := by
        rw [World.rbAt, List.getD_eq_getElem _ _ hi]
        exact List.getElem_mem hi
      exact hm _ this c
    · rintro j hj s ⟨q1, q2, q3, q4⟩
      have hS := hS j hj _ q4
      have like : ∀ {s1 : SysState ℝ}, s.Like s1 → s1.Wf ∧ w.bodyCount ≤ s1.n ∧
          (∀ b ∈ w.rb, s1.val .m (w.at b) = (w.bodies b).m) := fun l =>
        ⟨l.wf, by rw [l.n]; exact q2, fun b hb => by rw [l.mass]; exact q3 b hb⟩
      have acc : ∀ {s1 e : SysState ℝ}, s.Like s1 → w.Ev (fun c k => w.at (w.bodyOf c k)) s1 e →
          ∃ mult, w.Accel (w.seen s1) (w.seen e).acc mult := fun l v =>
        v.accel p hr.fit hlow hp hg (like l).1 (like l).2.1 (like l).2.2
      have l0 := like_setDt (like_self q1) 0
      refine ⟨⟨wf_setDt q1 0, q2, q3, fun hc => (hS hc).1⟩, fun e1 v1 s2 t2 => ?_⟩
      have l1 := BodyTo.like t2 (like_setDt (v1.like l0) _)
      have a2 := BodyTo.half p q2 t2
      obtain ⟨m1, k1⟩ := acc l0 v1
      rw [seen_dt] at k1
      refine ⟨⟨(like l1).1, (like l1).2.1, (like l1).2.2, fun hc =>
        Solvable.congr p a2.symm ((hS hc).2 _ _ k1).1⟩, fun e2 v2 s3 t3 => ?_⟩
      have l2 := BodyTo.like t3 (like_setDt (v2.like l1) _)
      have a3 := BodyTo.half p q2 t3
      obtain ⟨m2, k2⟩ := acc l1 v2
      have k2 := k2.congr p hg a2
      refine ⟨⟨(like l2).1, (like l2).2.1, (like l2).2.2, fun hc =>
        Solvable.congr p a3.symm (((hS hc).2 _ _ k1).2 _ _ k2).1⟩, fun e3 v3 s4 t4 => ?_⟩
      have l3 := BodyTo.like t4 (like_setDt (v3.like l2) _)
      have a4 := BodyTo.full p q2 t4
      obtain ⟨m3, k3⟩ := acc l2 v3
      have k3 := k3.congr p hg a3
      exact ⟨(like l3).1, (like l3).2.1, (like l3).2.2, fun hc =>
        Solvable.congr p a4.symm ((((hS hc).2 _ _ k1).2 _ _ k2).2 _ _ k3)⟩
    · rintro j hj s e1 s2 e2 s3 e3 s4 e4 s' ⟨q1, q2, q3, q4⟩ st
      obtain ⟨a, mult, g1⟩ := st.rkmove p hr.fit hlow hp hg q1 q2 q3
      have l := (st.likes q1).2.2.2.2.2.2.2
      exact ⟨l.wf, by rw [l.n]; exact q2,
        fun b hb => by rw [l.mass]; exact q3 b hb, hR j hj _ _ _ _ q4 g1⟩
    · intro s hs
      refine ⟨hs.wf, hs.n, fun b hb => ?_, h0 _ (fun b hb q => ?_) (fun b hb q => ?_)⟩
      · rw [hs.mass _ (p.lt b hb), p.rbAt b hb]
      · have h1 := hs.pos q _ (p.lt b hb)
        have h2 := hs.vel q _ (p.lt b hb)
        rw [p.rbAt b hb] at h1 h2
        exact ⟨h1, h2⟩
      · have h1 := hs.acc q _ (p.lt b hb)
        rw [fp_lit] at h1
        exact h1.trans (by simp)
  have := genProcess_rk hr (fun c hc => by
    have := counts_le (hst.kind c ((hw.regs.cons.mem c).mp hc)); omega) hode
    (fun s h1 h2 => (hw.matched divOk_real hG hsync).takes hode
      ((hw.sound divOk_real hG).ode _ hode) ⟨h1, h2⟩) (env := env)
    (dt := dt) (steps := steps) (E := fun _ => False) (.inr hrun)
  cases e : w.genProcess env dt steps with
  | error x =>
    rw [e] at this
    exact absurd this id
  | ok w' => exact ⟨w', e⟩

end

end Scs
