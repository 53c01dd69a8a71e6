import Verif.WorldMove
import Verif.WorldMore

/-!
# The optimized system with Gauss-Seidel

The accuracy of a sub-step, and success of a call of `process` with enough iterations.
-/

namespace Scs

open Finset

section
variable {w : World ℝ}

/-! ### Accuracy -/

/-- The forces `mult` along the rows in a sub-step of length `h` from the motion `x` to the motion
`x'` are those of a Gauss-Seidel iteration with the tolerance `e`: compared with the impulses `prev`
of the sweep before, the last sweep changed little, and the velocity along each row is what it should
be up to the effect of that change in the other rows, unless the force is at a limit. -/
def World.GsRows (w : World ℝ) (e h : ℝ) (x x' : Motion) (mult : Nat → Nat → ℝ) : Prop :=
  ∃ prev : Nat → Nat → ℝ,
    (∀ c ∈ w.cs, ∀ j, j < (w.cons c).rows →
      |h * mult c j - prev c j| < e * max (1 / 1000) |prev c j|) ∧
    ∀ c ∈ w.cs, ∀ j, j < (w.cons c).rows → 0 < w.coupling (w.rowsOf x) c j c j →
      (w.cons c).kind.loT ≤ (w.cons c).kind.hiT → ∀ r err,
      r = w.rowAt (w.rowsOf x c) c j x'.vel + (w.cons c).kind.biasT +
        w.bias / h * (w.rowsOf x c).C j →
      err = ∑ c' ∈ w.cs.toFinset, ∑ j' ∈ range (w.cons c').rows, (if c' = c ∧ j' = j then 0 else
        |w.coupling (w.rowsOf x) c j c' j'| * |h * mult c' j' - prev c' j'|) →
      |r| ≤ err ∨ (mult c j = (w.cons c).kind.loT ∧ -err ≤ r) ∨
        (mult c j = (w.cons c).kind.hiT ∧ r ≤ err)

theorem World.SameRows.coupling {o o' : Nat → Output ℝ} (s : w.SameRows o o') {c : Nat} (hc : c ∈ w.cs)
    {i : Nat} (hi : i < (w.cons c).rows) {c' : Nat} (hc' : c' ∈ w.cs) {i' : Nat}
    (hi' : i' < (w.cons c').rows) : w.coupling o c i c' i' = w.coupling o' c i c' i' := by
  refine sum_congr rfl fun b _ => Coord.sum_congr fun q => ?_
  rw [s.coef hc hi, s.coef hc' hi']

theorem World.SubStep.gsRows (p : w.Placed) (hlow : w.Slim) (hp : w.Proper) {h : ℝ} {x x' : Motion}
    {ext : Nat → Coord → ℝ} {out : Nat → Output ℝ} {mult : Nat → Nat → ℝ}
    {F : Nat → Coord → Nat → Nat → ℝ} (st : w.SubStep h x x' ext out mult F) {m : Nat} {e : ℝ}
    (hgs : w.sle = some (.gs m e)) (hh : 0 < h) : w.GsRows e h x x' mult := by
  have s : w.SameRows out (w.rowsOf x) := same_of_has fun c hc => st.has p hp hc
  obtain ⟨prev, h1, h2⟩ := st.gsRow hlow m e hgs hh
  refine ⟨prev, h1, fun c hc j hj hpos hl r err hr herr => ?_⟩
  have hlo : (out c).limits j 0 = (w.cons c).kind.loT := s.lo c hc j hj
  have hhi : (out c).limits j 1 = (w.cons c).kind.hiT := s.hi c hc j hj
  have := h2 c hc j hj (by rw [s.coupling hc hj hc hj]; exact hpos) (by rw [hlo, hhi]; exact hl) r err
    ?_ ?_
  · rw [hlo, hhi] at this
    exact this
  · rw [hr, s.rowAt hc hj, s.bias c hc j hj, s.C c hc j hj]
    rfl
  · rw [herr]
    refine sum_congr rfl fun c' hc' => sum_congr rfl fun j' hj' => ?_
    rw [s.coupling hc hj (List.mem_toFinset.mp hc') (mem_range.mp hj')]

theorem World.GsRows.congr (p : w.Placed) {e h : ℝ} {x x' y y' : Motion} {mult : Nat → Nat → ℝ}
    (st : w.GsRows e h x x' mult) (s : w.SameAs x y) (s' : w.SameAs x' y') :
    w.GsRows e h y y' mult := by
  obtain ⟨prev, h1, h2⟩ := st
  have sr := sameRows_congr p s
  refine ⟨prev, h1, fun c hc j hj hpos hl r err hr herr => ?_⟩
  refine h2 c hc j hj (by rw [sr.coupling hc hj hc hj]; exact hpos) hl r err ?_ ?_
  · rw [hr, rowsOf_congr p s hc]
    congr 2
    refine sum_congr rfl fun k hk => Coord.sum_congr fun q => ?_
    rw [s'.vel _ (p.bodies c hc k (mem_range.mp hk)).2]
  · rw [herr]
    refine sum_congr rfl fun c' hc' => sum_congr rfl fun j' hj' => ?_
    rw [sr.coupling hc hj (List.mem_toFinset.mp hc') (mem_range.mp hj')]

/-- `World.Hist.moved` with the accuracy of Gauss-Seidel. -/
theorem World.Hist.gs_moved {G : Gen ℝ → Prop} {h : List (Op ℝ)} (hG : ∀ g, G g → g.OnlyForces)
    (hw : World.Hist G .opt h w) (hst : w.Standard h) {m : Nat} {d : ℝ}
    (hgs : w.sle = some (.gs m d)) {env : Env ℝ} {dt : ℝ} {steps : Int} {w' : World ℝ} (hdt : 0 < dt)
    (e : w.process .opt env dt steps = .ok w') :
    ∃ X mult, X 0 = w.now ∧ w.Moved dt steps w' X mult ∧
      ∀ j, j < steps.toNat → w.GsRows d (dt / steps) (X j) (X (j + 1)) (mult j) := by
  obtain ⟨X, ext, out, mult, F, hP⟩ := hw.processed hG hst.wired e
  have p := (hw.ready hG hst.wired).2
  have hg := hst.driven hw.regs
  have hlow := hst.slim hw.regs
  have hp := hst.proper hw.regs
  refine ⟨_, mult, if_pos rfl, (hP.moved p hlow hp hg).start p hg, fun j hj => ?_⟩
  have hh : 0 < dt / steps := by
    have : 0 < steps := by omega
    exact div_pos hdt (by exact_mod_cast this)
  have s : ∀ j, w.SameAs (X j) (if j = 0 then w.now else X j) := by
    intro j
    by_cases hj : j = 0
    · subst hj
      rw [if_pos rfl]
      exact ⟨fun b hb q => (hP.first b hb q).1, fun b hb q => (hP.first b hb q).2,
        fun b hb q => hP.still b hb q⟩
    · rw [if_neg hj]
      exact ⟨fun _ _ _ => rfl, fun _ _ _ => rfl, fun _ _ _ => rfl⟩
  exact ((hP.step j hj).gsRows p hlow hp hgs hh).congr p (s j) (s (j + 1))

/-! ### Success -/

theorem exists_floor {n : Nat} {f : Nat → ℝ} (h : ∀ i, i < n → 0 < f i) :
    ∃ d, 0 < d ∧ ∀ i, i < n → d ≤ f i := by
  induction n with
  | zero => exact ⟨1, one_pos, fun i hi => absurd hi (Nat.not_lt_zero i)⟩
  | succ n ih =>
    obtain ⟨d, h1, h2⟩ := ih fun i hi => h i (by omega)
    refine ⟨min d (f n), lt_min h1 (h n (by omega)), fun i hi => ?_⟩
    rcases Nat.lt_or_eq_of_le (Nat.lt_succ_iff.mp hi) with hi | rfl
    · exact (min_le_left _ _).trans (h2 i hi)
    · exact min_le_right _ _

/-- With enough iterations Gauss-Seidel finds multipliers of a positive diagonal, from any start. -/
theorem Solver.Easy.enough {n : Nat} {M : Nat → Nat → ℝ} {b lo hi : Nat → ℝ} {e : ℝ} (he : 0 < e)
    (hs : ∀ i j, i < n → j < n → M i j = M j i) (hM : ∀ i, i < n → 0 < M i i)
    (hlim : ∀ i, i < n → lo i ≤ hi i) :
    ∃ N, 1 ≤ N ∧ ∀ m, N ≤ m → (Solver.gs m e).Easy n M b lo hi := by
  obtain ⟨d, hd, hf⟩ := exists_floor (f := fun i => M i i) hM
  have hpos : 0 < d * (e / 1000) ^ 2 / 2 := by positivity
  obtain ⟨N, hN⟩ := exists_nat_gt (2 * boxBound n M b lo hi / (d * (e / 1000) ^ 2 / 2))
  refine ⟨N + 1, by omega, fun m hm => ⟨he, fun i hi' => (hM i hi').ne', fun x0 => ?_⟩⟩
  obtain ⟨k, hk, hT⟩ := settles_any (x := x0) hs hd he hf hlim ((div_lt_iff₀ hpos).mp hN)
  exact ⟨k, by omega, hT⟩

/-- Every row of the constraints acts on the bodies, in the motion `x`, and its limits are in order. -/
def World.Acts (w : World ℝ) (x : Motion) : Prop :=
  ∀ c ∈ w.cs, ∀ j, j < (w.cons c).rows → 0 < w.coupling (w.rowsOf x) c j c j

theorem sysM_symm (out : Nat → Output ℝ) (B : Nat → Nat → Nat) (f g : Nat) :
    w.sysM B out f g = w.sysM B out g f :=
  sum_congr rfl fun i _ => Coord.sum_congr fun q => by ring

theorem optRhs_same (p : w.Placed) (hfit : w.Fit (fun c k => w.at (w.bodyOf c k))) (hlow : w.Slim)
    {out out' : Nat → Output ℝ}
    (s : w.SameRows (fun c => out (w.conAt c)) (fun c => out' (w.conAt c))) (h : ℝ) (s1 : SysState ℝ)
    {f : Nat} (hf : f < w.fullCount) :
    w.optRhs (fun c k => w.at (w.bodyOf c k)) out h s1 f =
      w.optRhs (fun c k => w.at (w.bodyOf c k)) out' h s1 f := by
  obtain ⟨c, hc, j, hj, rfl⟩ := row_get p hfit hf
  obtain ⟨r1, r2, r3, r4⟩ := row_of p hfit hc hj
  rw [World.optRhs, World.optRhs, rowV_eq hfit hlow r1, rowV_eq hfit hlow r1, World.rowN, r2, r3, r4]
  have e1 : (out (w.conAt c)).v_bias j = (out' (w.conAt c)).v_bias j := s.bias c hc j hj
  have e2 : (out (w.conAt c)).C j = (out' (w.conAt c)).C j := s.C c hc j hj
  rw [e1, e2]
  congr 3
  refine sum_congr rfl fun k hk => Coord.sum_congr fun q => ?_
  have e3 : (out (w.conAt c)).J j (k * 3 + q.d) = (out' (w.conAt c)).J j (k * 3 + q.d) :=
    s.J c hc j hj k (mem_range.mp hk) q
  rw [e3]

/-- A sub-step from a given state succeeds with enough iterations. -/
theorem gs_good (p : w.Placed) (hfit : w.Fit (fun c k => w.at (w.bodyOf c k))) (hlow : w.Slim)
    (hp : w.Proper) (hg : w.Driven) {e h : ℝ} (he : 0 < e) (hh : 0 < h) {s : SysState ℝ} (hs : s.Wf)
    (hn : w.bodyCount ≤ s.n) (hm : ∀ b ∈ w.rb, s.val .m (w.at b) = (w.bodies b).m)
    (ha : w.Acts (w.seen s))
    (hl : ∀ c ∈ w.cs, (w.cons c).kind.loT ≤ (w.cons c).kind.hiT) :
    ∃ N, ∀ m, N ≤ m → ∀ lam, (w.withSle (some (.gs m e))).Good
      (fun c k => w.at (w.bodyOf c k)) h (fun s' => s' = s) lam := by
  have seenDt : w.Seen ({ s with dt := h } : SysState ℝ) (w.seen s) :=
    ⟨fun b _ q => rfl, fun b _ q => rfl, fun b _ q => rfl, hm⟩
  obtain ⟨s1, e1, f1, g1, _⟩ := forces_run p hg (wf_setDt hs h) hn seenDt
  have hn1 : w.bodyCount ≤ s1.n := by rw [f1.n]; exact hn
  have hs1 := f1.wf (wf_setDt hs h)
  have same : ∀ out, w.Calc s1 out → w.SameRows (fun c => out (w.conAt c)) (w.rowsOf (w.seen s)) := by
    intro out hout
    refine same_of_has fun c hc' => ?_
    obtain ⟨hi, hci⟩ := conAt_spec hc'
    obtain ⟨o, eo⟩ := hout _ hi
    rw [hci] at eo
    obtain ⟨out', eo', h'⟩ := has_of p hp hc' hs1 hn1 g1 o
    rw [eo] at eo'
    cases eo'
    exact h'
  by_cases hex : ∃ out, w.Calc s1 out
  · obtain ⟨out, hout⟩ := hex
    have sm := same out hout
    obtain ⟨N, hN0, hN⟩ := Solver.Easy.enough (n := w.fullCount)
      (M := w.sysM (fun c k => w.at (w.bodyOf c k)) out)
      (b := w.optRhs (fun c k => w.at (w.bodyOf c k)) out h s1)
      (lo := fun f => (out (w.rowI f)).limits (w.rowK f) 0 * h)
      (hi := fun f => (out (w.rowI f)).limits (w.rowK f) 1 * h) he
      (fun i j _ _ => sysM_symm out _ i j) (fun f hf => by
        obtain ⟨c, hc, j, hj, rfl⟩ := row_get p hfit hf
        rw [sysM_coupling p hfit hlow out hc hj hc hj, sm.coupling hc hj hc hj]
        exact ha c hc j hj) (fun f hf => by
        obtain ⟨c, hc, j, hj, rfl⟩ := row_get p hfit hf
        obtain ⟨_, r2, r3, _⟩ := row_of p hfit hc hj
        have h1 : (out (w.conAt c)).limits j 0 = (w.cons c).kind.loT := sm.lo c hc j hj
        have h2 : (out (w.conAt c)).limits j 1 = (w.cons c).kind.hiT := sm.hi c hc j hj
        simp only [r2, r3, h1, h2]
        exact mul_le_mul_of_nonneg_right (hl c hc) hh.le)
    refine ⟨N, fun m hNm lam => ⟨hh.ne', ?_, ?_, _, rfl, fun _ => ⟨he, by omega⟩, ?_⟩⟩
    · rintro s' rfl
      exact ⟨s1, e1⟩
    · rintro s' s1' rfl e1' c hc o
      have : s1' = s1 := Except.ok.inj (e1'.symm.trans e1)
      subst this
      obtain ⟨out, eo, _⟩ := has_of p hp hc hs1 hn1 g1 o
      exact ⟨out, eo⟩
    · rintro s' s1' out' rfl e1' hout' _
      have : s1' = s1 := Except.ok.inj (e1'.symm.trans e1)
      subst this
      have sm' := same out' hout'
      have ss : w.SameRows (fun c => out (w.conAt c)) (fun c => out' (w.conAt c)) :=
        ⟨fun c hc j hj => (sm.C c hc j hj).trans (sm'.C c hc j hj).symm,
          fun c hc j hj k hk q => (sm.J c hc j hj k hk q).trans (sm'.J c hc j hj k hk q).symm,
          fun c hc j hj => (sm.bias c hc j hj).trans (sm'.bias c hc j hj).symm,
          fun c hc j hj => (sm.lo c hc j hj).trans (sm'.lo c hc j hj).symm,
          fun c hc j hj => (sm.hi c hc j hj).trans (sm'.hi c hc j hj).symm⟩
      refine (hN m hNm).congr (fun f g hf hg => ?_) (fun f hf => ?_) (fun f hf => ?_) (fun f hf => ?_)
      · obtain ⟨c, hc, j, hj, rfl⟩ := row_get p hfit hf
        obtain ⟨c', hc', j', hj', rfl⟩ := row_get p hfit hg
        refine (sysM_coupling p hfit hlow out hc hj hc' hj').trans ?_
        exact (ss.coupling hc hj hc' hj').trans (sysM_coupling p hfit hlow out' hc hj hc' hj').symm
      · exact optRhs_same p hfit hlow ss h _ hf
      · obtain ⟨c, hc, j, hj, rfl⟩ := row_get p hfit hf
        obtain ⟨_, r2, r3, _⟩ := row_of p hfit hc hj
        have h1 : (out (w.conAt c)).limits j 0 = (out' (w.conAt c)).limits j 0 := ss.lo c hc j hj
        show (out (w.rowI _)).limits (w.rowK _) 0 * h = (out' (w.rowI _)).limits (w.rowK _) 0 * h
        rw [r2, r3, h1]
      · obtain ⟨c, hc, j, hj, rfl⟩ := row_get p hfit hf
        obtain ⟨_, r2, r3, _⟩ := row_of p hfit hc hj
        have h1 : (out (w.conAt c)).limits j 1 = (out' (w.conAt c)).limits j 1 := ss.hi c hc j hj
        show (out (w.rowI _)).limits (w.rowK _) 1 * h = (out' (w.rowI _)).limits (w.rowK _) 1 * h
        rw [r2, r3, h1]
  · refine ⟨1, fun m hNm lam => ⟨hh.ne', ?_, ?_, _, rfl, fun _ => ⟨he, by omega⟩, ?_⟩⟩
    · rintro s' rfl
      exact ⟨s1, e1⟩
    · rintro s' s1' rfl e1' c hc o
      have : s1' = s1 := Except.ok.inj (e1'.symm.trans e1)
      subst this
      obtain ⟨out, eo, _⟩ := has_of p hp hc hs1 hn1 g1 o
      exact ⟨out, eo⟩
    · rintro s' s1' out' rfl e1' hout' _
      have : s1' = s1 := Except.ok.inj (e1'.symm.trans e1)
      subst this
      exact absurd ⟨out', hout'⟩ hex

/-- The same for the matrices of a system with another solver. -/
theorem World.Fit.withSle {B : Nat → Nat → Nat} (h : w.Fit B) (t : Option (Solver ℝ)) :
    (w.withSle t).Fit B := ⟨h.pos, h.rows, h.two, h.idx, h.lt⟩

theorem World.Mid.withSle {mem : Store ℝ} (h : w.Mid mem) (t : Option (Solver ℝ)) :
    (w.withSle t).Mid mem := ⟨h.inv, ⟨h.mass.1, h.mass.2, h.mass.3, h.mass.4⟩, h.lam⟩

theorem World.Mid.ofSle {mem : Store ℝ} {t : Option (Solver ℝ)} (h : (w.withSle t).Mid mem) :
    w.Mid mem := ⟨h.inv, ⟨h.mass.1, h.mass.2, h.mass.3, h.mass.4⟩, h.lam⟩

/-- The sub-steps of a call succeed with enough iterations; `R j` is a property of the state before
sub-step `j`. -/
theorem gs_loop (p : w.Placed) (hfit : w.Fit (fun c k => w.at (w.bodyOf c k))) (hlow : w.Slim)
    (hp : w.Proper) (hg : w.Driven) (hgo : ∀ g ∈ w.fg, (w.gens g).OnlyForces) {e dt : ℝ} {steps : Int}
    (he : 0 < e) (hdt : 0 < dt) (hl : ∀ c ∈ w.cs, (w.cons c).kind.loT ≤ (w.cons c).kind.hiT)
    {env : Env ℝ} {mem : Store ℝ} {s : SysState ℝ} (hnsv : w.nsv.sort = 2) (hmid : w.Mid mem)
    (hs : s.Wf) (hn : w.bodyCount ≤ s.n) (hc : w.fullCount ≤ s.nc)
    (hm : ∀ b ∈ w.rb, s.val .m (w.at b) = (w.bodies b).m) (R : Nat → Motion → Prop)
    (h0 : R 0 (w.seen s))
    (hR : ∀ j, j < steps.toNat → ∀ x x' mult m, R j x →
      (w.withSle (some (.gs m e))).Move (dt / steps) x x' mult → R (j + 1) x')
    (hA : ∀ j, j < steps.toNat → ∀ x, R j x → w.Acts x) :
    ∃ N q, ∀ m, N ≤ m → (w.withSle (some (.gs m e))).optLoop env dt steps s mem = .ok q := by
  suffices H : ∀ n, n ≤ steps.toNat → ∃ N, ∃ q : Ctx ℝ × Ode ℝ × SysState ℝ, w.Mid q.1.mem ∧
      q.2.1.sort = 2 ∧ q.2.2.Wf ∧ q.2.2.n = s.n ∧ q.2.2.nc = s.nc ∧
      (∀ b ∈ w.rb, q.2.2.val .m (w.at b) = (w.bodies b).m) ∧ R n (w.seen q.2.2) ∧
      ∀ m, N ≤ m → forN n (fun _ q => do
        let h ← Fp.div dt (Fp.lit steps)
        odeRun ((w.withSle (some (.gs m e))).optEval env h) q.1 q.2.1 q.2.2 h)
        ((⟨mem, 0, fun _ => 0⟩ : Ctx ℝ), w.nsv, s) = .ok q by
    obtain ⟨N, q, _, _, _, _, _, _, _, h⟩ := H _ (Nat.le_refl _)
    exact ⟨N, q, h⟩
  intro n
  induction n with
  | zero =>
    intro _
    exact ⟨0, _, hmid, hnsv, hs, rfl, rfl, hm, h0, fun m _ => rfl⟩
  | succ n ih =>
    intro hle
    obtain ⟨N, q, q1, q2, q3, q4, q5, q6, q7, hq⟩ := ih (by omega)
    have hsp : 0 < steps := by omega
    have hh : 0 < dt / steps := div_pos hdt (by exact_mod_cast hsp)
    obtain ⟨N', hN'⟩ := gs_good p hfit hlow hp hg he hh q3 (by omega) q6 (hA n (by omega) _ q7) hl
    have hl' : (Fp.lit (steps : Rat) : ℝ) = (steps : ℝ) := by simp [fp_lit]
    have hs0 : ((steps : Int) : ℝ) ≠ 0 := by exact_mod_cast hsp.ne'
    have hdiv : (Fp.div dt (Fp.lit (steps : Rat)) : Exec ℝ) = .ok (dt / steps) := by
      rw [hl', fp_div hs0]
    obtain ⟨d, hd⟩ := sort_nsv q2
    have key := substep_wp (env := env) (w := w.withSle (some (.gs (max N N') e))) (hfit.withSle _)
      hgo (x := q.1) (d := d) (h := dt / steps) (s := q.2.2) (q1.withSle _) q3 (by
        show w.bodyCount ≤ _
        omega) (by
        show w.fullCount ≤ _
        omega) (P := fun s' => s' = q.2.2) (E := noErr)
      (Or.inr ⟨hN' _ (le_max_right _ _) _, rfl⟩)
    obtain ⟨z, ez, z1, z2, _, s1, out, lam, st⟩ := wp_noErr_iff.mp key
    rw [← hd] at ez
    have p' : (w.withSle (some (.gs (max N N') e))).Placed :=
      ⟨p.rb, p.cs, p.lt, p.rbAt, p.index, p.place, p.bodies⟩
    have mv := ((st.obj p' (hfit.withSle _) q3 (by
      show w.bodyCount ≤ _
      omega) q6).move p' hlow hp hg).1
    refine ⟨max N N', z, z1.ofSle, by rw [z2]; rfl, st.wf, st.n.trans q4, st.nc.trans q5,
      fun b hb => (st.mass _).trans (q6 b hb), hR n (by omega) _ _ _ _ q7 mv, fun m hNm => ?_⟩
    have h1 := hq m (le_trans (le_max_left _ _) hNm)
    show (forN n _ _ >>= fun q => _) = _
    rw [h1, ok_bind]
    beta_reduce
    rw [hdiv, ok_bind]
    exact odeRun_kept (fun x s => World.optEval_more (w := w.withSle (some (.gs (max N N') e)))
      (sv := .gs (max N N') e) (tv := .gs m e) rfl (.gs hNm e) env _ x s) _ _ _ _ z ez

/-- A call of `process` of the optimized system with Gauss-Seidel succeeds with enough iterations, if
in every motion that can occur each row acts on the bodies. -/
theorem World.Hist.gs_enough {G : Gen ℝ → Prop} {h : List (Op ℝ)} (hG : ∀ g, G g → g.OnlyForces)
    (hw : World.Hist G .opt h w) (hst : w.Standard h) {e dt : ℝ} {steps : Int} (he : 0 < e)
    (hdt : 0 < dt) (hm : ∀ b ∈ w.rb, ∀ q : Coord, (w.bodies b).mass q ≠ 0)
    (hl : ∀ c ∈ w.cs, (w.cons c).kind.loT ≤ (w.cons c).kind.hiT) (R : Nat → Motion → Prop)
    (h0 : ∀ x, w.Shows x w.bodies → (∀ b ∈ w.rb, ∀ q : Coord, x.acc b q = 0) → R 0 x)
    (hR : ∀ j, j < steps.toNat → ∀ x x' mult m, R j x →
      (w.withSle (some (.gs m e))).Move (dt / steps) x x' mult → R (j + 1) x')
    (hA : ∀ j, j < steps.toNat → ∀ x, R j x → w.Acts x) (env : Env ℝ) :
    ∃ N, ∃ w' : World ℝ, ∀ m, N ≤ m → (w.withSle (some (.gs m e))).process .opt env dt steps =
      .ok (w'.withSle (some (.gs m e))) := by
  obtain ⟨hr, p⟩ := hw.ready hG hst.wired
  have hlow := hst.slim hw.regs
  have hp := hst.proper hw.regs
  have hg := hst.driven hw.regs
  suffices H : ∃ N w', (w.withSle (some (.gs N e))).process .opt env dt steps = .ok w' by
    obtain ⟨N, w', ew⟩ := H
    refine ⟨N, w', fun m hNm => ?_⟩
    exact World.process_more (w := w.withSle (some (.gs N e))) (sv := .gs N e) (tv := .gs m e) rfl
      (.gs hNm e) .opt env dt steps w' ew
  obtain ⟨s, es, hs⟩ := populated_of hr.sound.st.wf hr.fit.con
  have hmass : ¬ ∃ i, i < w.bodyCount ∧ ∃ c : Coord, w.massAt c i = 0 := by
    rintro ⟨i, hi, c, h0⟩
    have : w.rbAt i ∈ w.rb := by
      rw [World.rbAt, List.getD_eq_getElem _ _ hi]
      exact List.getElem_mem hi
    exact hm _ this c h0
  have hlm : Wp (w.populateMass w.mem) (fun m => m.mat .ivLambda = w.mem.mat .ivLambda) anyErr :=
    (m_populateMass hr.sound.mem).mono (fun _ h => h.2) (fun _ h => h)
  obtain ⟨mem, em, i1, _, i3⟩ := wp_noErr_iff.mp (populateMass_wp hr.sound.mem (E := noErr)
    (fun hx => absurd hx hmass))
  rw [em] at hlm
  have hlam : LamOk mem := by
    rw [LamOk, show mem.mat .ivLambda = w.mem.mat .ivLambda from hlm]
    exact hr.sound.lam
  obtain ⟨N, q, hq⟩ := gs_loop p hr.fit hlow hp hg (fun g _ => hr.sound.gens g) he hdt hl (env := env)
    (steps := steps) hr.nsv ⟨i1, i3, hlam⟩ hs.wf hs.n hs.nc (fun b hb => by
      rw [hs.mass _ (p.lt b hb), p.rbAt b hb]) R (h0 _ (fun b hb q => by
        have h1 := hs.pos q _ (p.lt b hb)
        have h2 := hs.vel q _ (p.lt b hb)
        rw [p.rbAt b hb] at h1 h2
        exact ⟨h1, h2⟩) (fun b hb q => by
        have h1 := hs.acc q _ (p.lt b hb)
        rw [fp_lit] at h1
        exact h1.trans (by simp))) hR hA
  have hr' : (w.withSle (some (.gs N e))).Ready (fun c k => w.at (w.bodyOf c k)) :=
    { fit := hr.fit.withSle _
      sound := hr.sound.same ⟨rfl, rfl, rfl, rfl, rfl⟩
      rb := hr.rb
      cs := hr.cs
      nsv := hr.nsv
      ring := hr.ring }
  have hN := hq N (Nat.le_refl N)
  have key := optProcess_of hr' (env := env) (dt := dt) (steps := steps) (E := noErr)
    (fun hx => absurd hx hmass) ?_
  · obtain ⟨w', ew, _⟩ := wp_noErr_iff.mp key
    exact ⟨N, w', ew⟩
  · intro s' mem' es' em' hs' hmid' hlam'
    obtain rfl : s = s' := Except.ok.inj (es.symm.trans es')
    obtain rfl : mem = mem' := Except.ok.inj (em.symm.trans em')
    have ht := optLoop_trace (w := w.withSle (some (.gs N e))) (env := env) (dt := dt) (steps := steps)
      (P := fun _ _ => True) (E := anyErr) hr'.fit (fun g _ => hr.sound.gens g) hr.nsv hmid' hs.wf
      hs.n hs.nc (Or.inl fun _ => trivial)
    rw [hN] at ht ⊢
    exact ht

end

end Scs
