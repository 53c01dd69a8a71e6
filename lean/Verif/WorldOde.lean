import Verif.WorldRk
import Verif.PropsRepeat

/-!
# Sub-steps of the generic system with Gaussian elimination are determined by the motion
-/

namespace Scs

open Finset

section
variable {w v : World ℝ}

theorem World.Alike.rowDot (a : w.Alike v) (o : Output ℝ) {c : Nat} (hc : c ∈ w.cs) (j : Nat)
    (u : Nat → Coord → ℝ) : v.rowDot o c j u = w.rowDot o c j u := by
  rw [World.rowDot, World.rowDot, a.count c hc]
  refine sum_congr rfl fun k hk => Coord.sum_congr fun q => ?_
  rw [a.bodyOf hc (mem_range.mp hk)]

theorem World.Alike.accel (a : w.Alike v) (hs : w.sle = some .ge) (hs' : v.sle = some .ge)
    {x : Motion} {acc : Nat → Coord → ℝ} {mult : Nat → Nat → ℝ} (st : w.Accel x acc mult) :
    v.Accel x acc mult where
  newton := fun b hb q => by
    rw [a.memb] at hb
    rw [st.newton b hb q, a.load x hb, a.conForce, a.mass hb]
    congr 2
    exact conForce_congr (fun c hc q j k _ _ => (a.reaction x mult hc q j k).symm) b q
  indep := fun _ => a.indep (st.indep hs)
  ge := fun _ c hc j hj => by
    rw [a.memc] at hc
    rw [a.rows c hc] at hj
    rw [a.rowsOf x hc, a.rowAt _ hc, a.rowAt _ hc, a.rowDot _ hc]
    exact st.ge hs c hc j hj
  cg := fun m e1 e2 h => by rw [hs'] at h; cases h

/-- With Gaussian elimination the accelerations and the forces along the rows are determined by the
motion. -/
theorem World.Accel.unique (p : w.Placed) (hs : w.sle = some .ge) {x : Motion}
    {a a' : Nat → Coord → ℝ} {μ ν : Nat → Nat → ℝ} (st : w.Accel x a μ) (st' : w.Accel x a' ν) :
    (∀ c ∈ w.cs, ∀ j, j < (w.cons c).rows → μ c j = ν c j) ∧
      ∀ b ∈ w.rb, ∀ q : Coord, a b q = a' b q := by
  have hresp : ∀ b ∈ w.rb, ∀ q : Coord, a b q - a' b q =
      w.response (w.rowsOf x) (fun c j => μ c j - ν c j) b q := by
    intro b hb q
    rw [st.newton b hb q, st'.newton b hb q, World.response, conForce_coef, conForce_coef]
    have : ∑ c ∈ w.cs.toFinset, ∑ j ∈ range (w.cons c).rows,
        (μ c j - ν c j) * w.coef (w.rowsOf x) c j b q =
        (∑ c ∈ w.cs.toFinset, ∑ j ∈ range (w.cons c).rows, μ c j * w.coef (w.rowsOf x) c j b q) -
        ∑ c ∈ w.cs.toFinset, ∑ j ∈ range (w.cons c).rows, ν c j * w.coef (w.rowsOf x) c j b q := by
      rw [← sum_sub_distrib]
      refine sum_congr rfl fun c _ => ?_
      rw [← sum_sub_distrib]
      exact sum_congr rfl fun j _ => sub_mul _ _ _
    rw [this]
    ring
  have hμ : ∀ c ∈ w.cs, ∀ j, j < (w.cons c).rows → μ c j = ν c j := by
    intro c hc j hj
    have h0 := st.indep hs (fun c j => μ c j - ν c j) (fun c hc i hi => ?_) c hc j hj
    · exact sub_eq_zero.mp h0
    · have e1 := st.ge hs c hc i hi
      have e2 := st'.ge hs c hc i hi
      have e3 : w.rowAt (w.rowsOf x c) c i a - w.rowAt (w.rowsOf x c) c i a' = 0 := by
        linear_combination e1 - e2
      rw [rowAt_coef p hc (w.rowsOf x), rowAt_coef p hc (w.rowsOf x), ← sum_sub_distrib] at e3
      rw [← e3]
      refine sum_congr rfl fun b hb => ?_
      rw [List.mem_toFinset] at hb
      have q1 := hresp b hb .x
      have q2 := hresp b hb .y
      have q3 := hresp b hb .th
      simp only [Coord.sum]
      linear_combination -(w.coef (w.rowsOf x) c i b .x) * q1 -
        (w.coef (w.rowsOf x) c i b .y) * q2 - (w.coef (w.rowsOf x) c i b .th) * q3
  refine ⟨hμ, fun b hb q => ?_⟩
  rw [st.newton b hb q, st'.newton b hb q]
  congr 2
  refine conForce_congr (fun c hc q j k hj _ => ?_) b q
  rw [World.reaction, World.reaction, hμ c hc j hj]

theorem World.SameAs.ahead2 {x y : Motion} (s : w.SameAs x y) (h : ℝ) {a a' : Nat → Coord → ℝ}
    (e : ∀ b ∈ w.rb, ∀ q : Coord, a b q = a' b q) : w.SameAs (x.ahead h a) (y.ahead h a') :=
  ⟨fun b hb q => by simp only [Motion.ahead, s.pos b hb q, s.vel b hb q, e b hb q],
    fun b hb q => by simp only [Motion.ahead, s.vel b hb q, e b hb q], e⟩

theorem World.Accel.same (p : w.Placed) (hg : w.Driven) (hs : w.sle = some .ge) {x y : Motion}
    (s : w.SameAs x y) {a a' : Nat → Coord → ℝ} {μ ν : Nat → Nat → ℝ} (st : w.Accel x a μ)
    (st' : w.Accel y a' ν) : ∀ b ∈ w.rb, ∀ q : Coord, a b q = a' b q :=
  ((st.congr p hg s).unique p hs st').2

theorem World.GMove.same (p : w.Placed) (hg : w.Driven) (hs : w.sle = some .ge) {sym : Bool} {h : ℝ}
    {x y x' y' : Motion} (s : w.SameAs x y) {μ ν : Nat → Nat → ℝ} (t : w.GMove sym h x x' μ)
    (t' : w.GMove sym h y y' ν) : w.SameAs x' y' := by
  have ha := t.acc.same p hg hs s t'.acc
  have hv : ∀ b ∈ w.rb, ∀ q : Coord, x'.vel b q = y'.vel b q := fun b hb q => by
    rw [t.vel b hb q, t'.vel b hb q, s.vel b hb q, ha b hb q]
  exact ⟨fun b hb q => by rw [t.pos b hb q, t'.pos b hb q, s.pos b hb q, s.vel b hb q, hv b hb q],
    hv, ha⟩

theorem World.RkMove.same (p : w.Placed) (hg : w.Driven) (hs : w.sle = some .ge) {h : ℝ}
    {x y x' y' : Motion} (s : w.SameAs x y) {a a' : Nat → Nat → Coord → ℝ}
    {μ ν : Nat → Nat → Nat → ℝ} (t : w.RkMove h x x' a μ) (t' : w.RkMove h y y' a' ν) :
    w.SameAs x' y' := by
  have h1 := t.acc1.same p hg hs s t'.acc1
  have h2 := t.acc2.same p hg hs (s.ahead2 _ h1) t'.acc2
  have h3 := t.acc3.same p hg hs (s.ahead2 _ h2) t'.acc3
  have h4 := t.acc4.same p hg hs (s.ahead2 _ h3) t'.acc4
  exact ⟨fun b hb q => by
      rw [t.pos b hb q, t'.pos b hb q, s.pos b hb q, s.vel b hb q, h1 b hb q, h2 b hb q, h3 b hb q],
    fun b hb q => by
      rw [t.vel b hb q, t'.vel b hb q, s.vel b hb q, h1 b hb q, h2 b hb q, h3 b hb q, h4 b hb q],
    fun b hb q => by rw [t.acc b hb q, t'.acc b hb q, h4 b hb q]⟩

theorem World.OdeStep.same (p : w.Placed) (hg : w.Driven) (hs : w.sle = some .ge) {o o' : Ode ℝ}
    (ho : o.sort = o'.sort) {h : ℝ} {x y x' y' : Motion} (s : w.SameAs x y)
    (t : w.OdeStep o h x x') (t' : w.OdeStep o' h y y') : w.SameAs x' y' := by
  cases o with
  | base d => exact t.elim
  | euler d =>
    obtain ⟨d', rfl⟩ := sort_euler ho.symm
    obtain ⟨_, t⟩ := t
    obtain ⟨_, t'⟩ := t'
    exact t.same p hg hs s t'
  | nsv d =>
    obtain ⟨d', rfl⟩ := sort_nsv ho.symm
    obtain ⟨_, t⟩ := t
    obtain ⟨_, t'⟩ := t'
    exact t.same p hg hs s t'
  | rk4 r =>
    cases o' with
    | rk4 r' =>
      obtain ⟨_, _, t⟩ := t
      obtain ⟨_, _, t'⟩ := t'
      exact t.same p hg hs s t'
    | _ => simp [Ode.sort] at ho

theorem World.Alike.odeStep (a : w.Alike v) (hs : w.sle = some .ge) (hs' : v.sle = some .ge)
    {o : Ode ℝ} {h : ℝ} {x x' : Motion} (t : w.OdeStep o h x x') : v.OdeStep o h x x' := by
  cases o with
  | base d => exact t
  | euler d =>
    obtain ⟨μ, t⟩ := t
    exact ⟨μ, a.accel hs hs' t.acc, fun b hb q => t.vel b (a.memb.mp hb) q,
      fun b hb q => t.pos b (a.memb.mp hb) q⟩
  | nsv d =>
    obtain ⟨μ, t⟩ := t
    exact ⟨μ, a.accel hs hs' t.acc, fun b hb q => t.vel b (a.memb.mp hb) q,
      fun b hb q => t.pos b (a.memb.mp hb) q⟩
  | rk4 r =>
    obtain ⟨acc, μ, t⟩ := t
    exact ⟨acc, μ, a.accel hs hs' t.acc1, a.accel hs hs' t.acc2, a.accel hs hs' t.acc3,
      a.accel hs hs' t.acc4, fun b hb q => t.vel b (a.memb.mp hb) q,
      fun b hb q => t.pos b (a.memb.mp hb) q, fun b hb q => t.acc b (a.memb.mp hb) q⟩

/-- The constraints of an evaluation that has succeeded with Gaussian elimination. -/
theorem World.Accel.solvable (hs : w.sle = some .ge) {x : Motion} {a : Nat → Coord → ℝ}
    {μ : Nat → Nat → ℝ} (t : w.Accel x a μ) : w.Solvable x := by
  simp only [World.Solvable, hs]
  exact t.indep hs

theorem World.RkMove.solvable (p : w.Placed) (hg : w.Driven) (hs : w.sle = some .ge) {h : ℝ}
    {x y x' : Motion} (s : w.SameAs x y) {a : Nat → Nat → Coord → ℝ} {μ : Nat → Nat → Nat → ℝ}
    (t : w.RkMove h x x' a μ) : w.RkSolvable h y := by
  refine ⟨Solvable.congr p s (t.acc1.solvable hs), fun a1 m1 k1 => ?_⟩
  have h1 := s.ahead2 (h / 2) (t.acc1.same p hg hs s k1)
  refine ⟨Solvable.congr p h1 (t.acc2.solvable hs), fun a2 m2 k2 => ?_⟩
  have h2 := s.ahead2 (h / 2) (t.acc2.same p hg hs h1 k2)
  refine ⟨Solvable.congr p h2 (t.acc3.solvable hs), fun a3 m3 k3 => ?_⟩
  exact Solvable.congr p (s.ahead2 h (t.acc3.same p hg hs h2 k3)) (t.acc4.solvable hs)

/-- A call of `process` of the generic system succeeds if every sub-step does; `R j` is a property
of the motion before sub-step `j`. -/
theorem World.Hist.goesOde {G : Gen ℝ → Prop} {h : List (Op ℝ)} (hG : ∀ g, G g → g.OnlyForces)
    (hw : World.Hist G .gen h w) (hst : w.Standard h) {dt : ℝ} {steps : Int}
    {o : Ode ℝ} (hode : w.ode = some o) (ho : o.sort ≠ 0) (hsync : o.sort = 3 → InSync h)
    (hm : ∀ b ∈ w.rb, ∀ q : Coord, (w.bodies b).mass q ≠ 0) (hsle : w.sle ≠ none)
    (hgs : ∀ m e, w.sle ≠ some (.gs m e)) (R : Nat → Motion → Prop)
    (h0 : ∀ x, w.SameAs x w.now → R 0 x)
    (hR : ∀ j, j < steps.toNat → ∀ x x', R j x → w.OdeStep o (dt / steps) x x' → R (j + 1) x')
    (hS : ∀ j, j < steps.toNat → ∀ x, R j x → w.cs ≠ [] → w.Solvable x)
    (hS3 : o.sort = 3 → ∀ j, j < steps.toNat → ∀ x, R j x → w.cs ≠ [] →
      w.RkSolvable (dt / steps) x)
    (hz : w.cs = [] → ∀ sv, w.sle = some sv → sv.Easy0 (w.mem.mat .ivLambda)) (env : Env ℝ) :
    ∃ w', w.process .gen env dt steps = .ok w' := by
  have h0' : ∀ x, w.Shows x w.bodies → (∀ b ∈ w.rb, ∀ q : Coord, x.acc b q = 0) → R 0 x :=
    fun x hx ha => h0 x ⟨fun b hb q => (hx b hb q).1, fun b hb q => (hx b hb q).2, ha⟩
  cases o with
  | base d => exact absurd rfl ho
  | euler d =>
    exact hw.goesG (sym := false) hG hst hode rfl hm hsle hgs R h0'
      (fun j hj x x' mult hx t => hR j hj x x' hx ⟨mult, t⟩) hS hz env
  | nsv d =>
    exact hw.goesG (sym := true) hG hst hode rfl hm hsle hgs R h0'
      (fun j hj x x' mult hx t => hR j hj x x' hx ⟨mult, t⟩) hS hz env
  | rk4 r =>
    exact hw.goesRk hG hst hode (hsync rfl) hm hsle hgs R h0'
      (fun j hj x x' a mult hx t => hR j hj x x' hx ⟨a, mult, t⟩) (hS3 rfl) hz env

end

end Scs
