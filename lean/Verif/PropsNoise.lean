import Verif.WorldGsNoise
import Verif.PropsAgree
import Verif.PropsMech
import Verif.PropsPassive

/-!
# The optimized system with iterative solvers approaches the exact motion

C99: with Gauss-Seidel, up to a constant times the tolerance. C100: with conjugate gradients, up to a
constant times the absolute tolerance.
-/

namespace Scs

open Finset

/-- A constraint without the limits of its forces. -/
def CKind.unlimited : CKind ℝ → CKind ℝ
  | .link p => .link { p with maxForce := 0 }
  | .constantRotation p => .constantRotation { p with minTorque := 0, maxTorque := 0 }
  | .clutch p => .clutch { p with minTorque := 0, maxTorque := 0 }
  | .rotationFriction p => .rotationFriction { p with minTorque := 0, maxTorque := 0 }
  | k => k

/-- The histories `h` and `h2` end with the same scene up to the limits of the forces of the constraints:
the same bodies, constraints and force generators are registered, and they have equal members (other than
these limits, the index, which the library manages, and what a constraint reports). -/
structure SameButLimits (h : List (Op ℝ)) (w : World ℝ) (h2 : List (Op ℝ)) (v : World ℝ) : Prop where
  rb : regBodies h = regBodies h2
  cs : regCons h = regCons h2
  fg : regGens h = regGens h2
  bodies : ∀ b ∈ regBodies h, (v.bodies b).pos = (w.bodies b).pos ∧
    (v.bodies b).vel = (w.bodies b).vel ∧ (v.bodies b).m = (w.bodies b).m ∧
    (v.bodies b).I = (w.bodies b).I
  kind : ∀ c ∈ regCons h, (v.cons c).kind.unlimited = (w.cons c).kind.unlimited
  rows : ∀ c ∈ regCons h, (v.cons c).rows = (w.cons c).rows
  count : ∀ c ∈ regCons h, (v.cons c).bodyCount = (w.cons c).bodyCount
  at_ : ∀ c ∈ regCons h, ∀ k, k < (w.cons c).bodyCount →
    (v.cons c).bodies k = (w.cons c).bodies k
  gens : ∀ g ∈ regGens h, v.gens g = w.gens g

section
variable {G : Gen ℝ → Prop} {h h2 : List (Op ℝ)} {w v v' : World ℝ} {dt : ℝ}
  {Y : ℝ → Motion} {lam : ℝ → Nat → Nat → ℝ} {cls cls2 : Cls}

theorem CKind.unlimited_jT (k : CKind ℝ) : k.unlimited.jT = k.jT := by
  funext q r c
  cases k <;> first
    | rfl
    | (rcases r with _ | _ | r <;> rcases c with _ | _ | _ | _ | _ | _ | c <;> rfl)

theorem CKind.unlimited_cT (k : CKind ℝ) : k.unlimited.cT = k.cT := by
  funext q r
  cases k <;> first
    | rfl
    | (rcases r with _ | _ | r <;> rfl)

theorem CKind.unlimited_biasT (k : CKind ℝ) : k.unlimited.biasT = k.biasT := by
  cases k <;> rfl

theorem CKind.unlimited_eq {k k' : CKind ℝ} (e : k.unlimited = k'.unlimited) :
    k.jT = k'.jT ∧ k.cT = k'.cT ∧ k.biasT = k'.biasT := by
  rw [← k.unlimited_jT, ← k.unlimited_cT, ← k.unlimited_biasT, e, k'.unlimited_jT, k'.unlimited_cT,
    k'.unlimited_biasT]
  exact ⟨rfl, rfl, rfl⟩

/-! ### The same scene with other limits -/

section
variable (s : SameButLimits h w h2 v) (r : w.Regs cls h) (r2 : v.Regs cls2 h2)
include s r r2

theorem SameButLimits.alike :
    w.Alike { v with cons := fun c => { v.cons c with kind := (w.cons c).kind }, bias := w.bias } :=
  SameScene.alike (h2 := h2) (cls2 := cls2)
    (v := { v with cons := fun c => { v.cons c with kind := (w.cons c).kind } })
    ⟨s.rb, s.cs, s.fg, s.bodies, fun _ _ => rfl, s.rows, s.count, s.at_, s.gens⟩ r
    ⟨r2.bodies, r2.cons, r2.gens, r2.nsv⟩

theorem SameButLimits.rowsOf (x : Motion) {c : Nat} (hc : c ∈ regCons h) :
    (v.rowsOf x c).J = (w.rowsOf x c).J ∧ (v.rowsOf x c).C = (w.rowsOf x c).C ∧
      (v.rowsOf x c).v_bias = (w.rowsOf x c).v_bias := by
  have e := (s.alike r r2).rowsOf x ((r.cons.mem c).mpr hc)
  obtain ⟨k1, k2, k3⟩ := CKind.unlimited_eq (s.kind c hc)
  rw [← e]
  refine ⟨?_, ?_, ?_⟩
  · show (v.cons c).kind.jT _ = (w.cons c).kind.jT _
    rw [k1]
    rfl
  · show (v.cons c).kind.cT _ = (w.cons c).kind.cT _
    rw [k2]
    rfl
  · show (fun _ => (v.cons c).kind.biasT) = fun _ => (w.cons c).kind.biasT
    rw [k3]

theorem SameButLimits.rowAt (x : Motion) {c : Nat} (hc : c ∈ regCons h) (j : Nat)
    (u : Nat → Coord → ℝ) : v.rowAt (v.rowsOf x c) c j u = w.rowAt (w.rowsOf x c) c j u := by
  have e := (s.alike r r2).rowAt (w.rowsOf x c) ((r.cons.mem c).mpr hc) j u
  rw [← e]
  refine sum_congr rfl fun k _ => Coord.sum_congr fun q => ?_
  rw [(s.rowsOf r r2 x hc).1]
  rfl

theorem SameButLimits.coef (x : Motion) {c : Nat} (hc : c ∈ regCons h) (j b : Nat) (q : Coord) :
    v.coef (v.rowsOf x) c j b q = w.coef (w.rowsOf x) c j b q := by
  have e := (s.alike r r2).coef (w.rowsOf x) ((r.cons.mem c).mpr hc) j b q
  rw [← e]
  refine sum_congr rfl fun k _ => ?_
  rw [(s.rowsOf r r2 x hc).1]
  rfl

theorem SameButLimits.coupling (x : Motion) {c c' : Nat} (hc : c ∈ regCons h) (hc' : c' ∈ regCons h)
    (j j' : Nat) : v.coupling (v.rowsOf x) c j c' j' = w.coupling (w.rowsOf x) c j c' j' := by
  have a := s.alike r r2
  have hrb : v.rb.toFinset = w.rb.toFinset := a.rb.symm
  rw [World.coupling, World.coupling, hrb]
  refine sum_congr rfl fun b hb => Coord.sum_congr fun q => ?_
  have hm : (v.bodies b).mass q = (w.bodies b).mass q := a.mass (List.mem_toFinset.mp hb) q
  rw [s.coef r r2 x hc, s.coef r r2 x hc', hm]

theorem SameButLimits.push {k : ℝ} {x x' : Motion} {mult : Nat → Nat → ℝ}
    (st : v.Push k x x' mult) : w.Push k x x' mult := by
  have a := s.alike r r2
  refine ⟨fun b hb q => ?_, fun b hb q => st.pos b (a.memb.mpr hb) q⟩
  have e1 : v.load x b q = w.load x b q := a.load x hb q
  have e2 : (v.bodies b).mass q = (w.bodies b).mass q := a.mass hb q
  have e3 : v.conForce (v.reaction x mult) b q = w.conForce (w.reaction x mult) b q := by
    have e4 : v.conForce (v.reaction x mult) b q = w.conForce (v.reaction x mult) b q :=
      a.conForce (v.reaction x mult) b q
    rw [e4]
    refine conForce_congr (fun c hc q j k _ _ => ?_) b q
    rw [World.reaction, World.reaction, (s.rowsOf r r2 x ((r.cons.mem c).mp hc)).1]
  rw [st.vel b (a.memb.mpr hb) q, e1, e2, e3]

theorem SameButLimits.shows {x : Motion} (hx : v.Shows x v.bodies) : w.Shows x w.bodies := by
  have a := s.alike r r2
  intro b hb q
  have e1 : (v.bodies b).pos q = (w.bodies b).pos q := a.pos hb q
  have e2 : (v.bodies b).vel q = (w.bodies b).vel q := a.vel hb q
  have := hx b (a.memb.mpr hb) q
  rw [e1, e2] at this
  exact this

theorem SameButLimits.miss (p : w.Placed) (hb : v.bias = w.bias) (k : ℝ) (x x' : Motion)
    (i : w.RowIdx) : w.miss k x x' i =
      v.rowAt (v.rowsOf x i.1) i.1 i.2 x'.vel + (v.rowsOf x i.1).v_bias i.2 +
      v.bias / k * (v.rowsOf x i.1).C i.2 := by
  have hc := (r.cons.mem _).mp (List.mem_toFinset.mp i.1.2)
  rw [miss_at p, s.rowAt r r2 x hc, (s.rowsOf r r2 x hc).2.1, (s.rowsOf r r2 x hc).2.2, hb]

/-- What a program sees of the final motion. -/
theorem SameButLimits.seen (p : w.Placed) (mv : v.Moves v') {x : Motion}
    (hx : v.Shows x v'.bodies) {D D' : ℝ} (h1 : ‖w.pack x - w.pack (Y dt)‖ ≤ D)
    (h2 : ‖w.offs + app (w.jac (w.pack x)) (w.pack x).2‖ ≤ D) (h3 : ‖w.errs (w.pack x)‖ ≤ D') :
    (∀ b ∈ regBodies h, ∀ q : Coord, |(v'.bodies b).pos q - (Y dt).pos b q| ≤ D ∧
      |(v'.bodies b).vel q - (Y dt).vel b q| ≤ D) ∧
    ∀ c ∈ regCons h, ∀ j, j < (w.cons c).rows → |(v'.rowsOf v'.now c).C j| ≤ D' ∧
      |v'.rowAt (v'.rowsOf v'.now c) c j v'.now.vel + (v'.rowsOf v'.now c).v_bias j| ≤ D := by
  have a := s.alike r r2
  have hpk : w.pack x = w.pack v'.now := by
    refine Prod.ext (funext fun i => ?_) (funext fun i => ?_)
    · exact (hx i.1 (a.memb.mpr (List.mem_toFinset.mp i.1.2)) i.2).1
    · exact (hx i.1 (a.memb.mpr (List.mem_toFinset.mp i.1.2)) i.2).2
  rw [hpk] at h1 h2 h3
  constructor
  · intro b hb q
    have hb' := (r.bodies.mem b).mpr hb
    have n1 := (norm_fst_le (w.pack v'.now - w.pack (Y dt))).trans h1
    have n2 := (norm_snd_le (w.pack v'.now - w.pack (Y dt))).trans h1
    let i : w.rb.toFinset × Coord := (⟨b, List.mem_toFinset.mpr hb'⟩, q)
    have m1 := norm_le_pi_norm (w.pack v'.now - w.pack (Y dt)).1 i
    have m2 := norm_le_pi_norm (w.pack v'.now - w.pack (Y dt)).2 i
    exact ⟨m1.trans n1, m2.trans n2⟩
  · intro c hc j hj
    have hc' := (r.cons.mem c).mpr hc
    obtain ⟨hrows, hat⟩ := mv.read v'.now c
    let i : w.RowIdx := ⟨⟨c, List.mem_toFinset.mpr hc'⟩, ⟨j, hj⟩⟩
    rw [hat, hrows, s.rowAt r r2 _ hc, (s.rowsOf r r2 _ hc).2.1, (s.rowsOf r r2 _ hc).2.2,
      rows_pack p _ hc']
    constructor
    · exact (norm_le_pi_norm (w.errs (w.pack v'.now)) i).trans h3
    · have := (norm_le_pi_norm (w.offs + app (w.jac (w.pack v'.now)) (w.pack v'.now).2) i).trans h2
      rw [rowAt_jac p (w.pack v'.now) i (v := (w.pack v'.now).2) (fun _ => rfl), add_comm]
      exact this

/-- By how much Gauss-Seidel misses the conditions of the constraints in one sub-step. -/
theorem SameButLimits.gsNoise (p : w.Placed) (hg : w.Driven) (hb : v.bias = w.bias)
    {A Kb μ K d0 d k : ℝ} {x x' : Motion} {mult : Nat → Nat → ℝ}
    (noise : ∀ (J : w.RowIdx → w.rb.toFinset × Coord → ℝ) (mass : w.rb.toFinset × Coord → ℝ)
      (V M : w.RowIdx → w.RowIdx → ℝ) (b z S : w.RowIdx → ℝ) (d : ℝ), (∀ i, μ ≤ mass i) →
      (∀ x, app M x = app J (fun i => (∑ r, J r i * x r) / mass i)) →
      (∀ x, app V (app M x) = x) → (∀ x, app M (app V x) = x) → ‖J‖ ≤ A → ‖V‖ ≤ A → ‖M‖ ≤ A →
      ‖b‖ ≤ Kb → 0 < d → d ≤ d0 →
      (∀ r, 0 ≤ S r ∧ S r ≤ ∑ r', |M r r'| * (d * max (1 / 1000) (|z r'| / (1 - d)))) →
      (∀ r, (app M z r + b r) * (z r - (-app V b) r) ≤ S r * |z r - (-app V b) r|) →
      ‖app M z + b‖ ≤ K * d)
    (hμ : ∀ i : w.rb.toFinset × Coord, μ ≤ (w.bodies i.1).mass i.2) (hf : w.Fair x)
    (hJ : ‖w.jac (w.pack x)‖ ≤ A) (hV : ‖w.inv (w.pack x)‖ ≤ A)
    (hM : ‖fun i j => w.matOf (w.pack x) i j‖ ≤ A) (hl : ‖w.lack k x‖ ≤ Kb)
    (hd : 0 < d) (hd0 : d ≤ d0) (hd1 : d < 1) (hk : 0 < k) (st : v.Push k x x' mult)
    (hlim : ∀ i : w.RowIdx, (v.cons i.1).kind.loT ≤ -app (w.inv (w.pack x)) (w.lack k x) i / k ∧
      -app (w.inv (w.pack x)) (w.lack k x) i / k ≤ (v.cons i.1).kind.hiT)
    (hrow : ∀ c ∈ regCons h, ∀ j, j < (v.cons c).rows → ∀ e,
      e = v.rowAt (v.rowsOf x c) c j x'.vel + (v.rowsOf x c).v_bias j +
        v.bias / k * (v.rowsOf x c).C j →
      |e| ≤ v.gsSlack d k x mult c j ∨ (mult c j = (v.cons c).kind.loT ∧ -v.gsSlack d k x mult c j ≤ e) ∨
        (mult c j = (v.cons c).kind.hiT ∧ e ≤ v.gsSlack d k x mult c j)) :
    ‖w.miss k x x'‖ ≤ K * d := by
  have stw := s.push r r2 st
  have hdet : (w.matOf (w.pack x)).det ≠ 0 := (det_iff p _).mpr ((fair_pack p hg).mpr hf).1
  have hreg : ∀ i : w.RowIdx, (i.1 : Nat) ∈ regCons h := fun i =>
    (r.cons.mem _).mp (List.mem_toFinset.mp i.1.2)
  rw [stw.miss_eq p hg hf]
  refine noise (w.jac (w.pack x)) (fun i => (w.bodies i.1).mass i.2) (w.inv (w.pack x)) _ _ _
    (fun i => v.gsSlack d k x mult i.1 i.2) d hμ ?_ ?_ ?_ hJ hV hM hl hd hd0 ?_ ?_
  · intro z
    have e : app (fun i j => w.matOf (w.pack x) i j) z =
        app (w.jac (w.pack x)) (app (w.push (w.pack x)) z) := by
      simp only [app, Matrix.mulVecLin_apply, Matrix.mulVec_mulVec, jac_push]
      rfl
    rw [e]
    congr 1
    funext i
    rw [app_at, sum_div]
    exact sum_congr rfl fun j _ => by rw [World.push]; ring
  · intro z
    have e : Matrix.of (w.inv (w.pack x)) * w.matOf (w.pack x) = 1 := mul_eq_one_comm.mp (mat_inv hdet)
    show (app (w.inv (w.pack x))) ((app fun i j => w.matOf (w.pack x) i j) z) = z
    simp only [app, Matrix.mulVecLin_apply, Matrix.mulVec_mulVec]
    exact (congrArg (fun A => Matrix.mulVec A z) e).trans (Matrix.one_mulVec z)
  · intro z
    simp only [app, Matrix.mulVecLin_apply, Matrix.mulVec_mulVec]
    exact (congrArg (fun A => Matrix.mulVec A z) (mat_inv hdet)).trans (Matrix.one_mulVec z)
  · intro i
    have hcs : v.cs.toFinset = w.cs.toFinset := (s.alike r r2).cs.symm
    have n0 : ∀ c' j', 0 ≤ |v.coupling (v.rowsOf x) i.1 i.2 c' j'| *
        (d * max (1 / 1000) (|k * mult c' j'| / (1 - d))) := fun c' j' =>
      mul_nonneg (abs_nonneg _) (mul_nonneg hd.le (le_max_of_le_left (by norm_num)))
    refine ⟨sum_nonneg fun c' _ => sum_nonneg fun j' _ => ?_, ?_⟩
    · split_ifs
      · exact le_rfl
      · exact n0 c' j'
    · have e := sum_rowIdx (w := w) (fun c' j' => |w.coupling (w.rowsOf x) i.1 i.2 c' j'| *
        (d * max (1 / 1000) (|k * mult c' j'| / (1 - d))))
      have e2 : ∑ r', |w.matOf (w.pack x) i r'| * (d * max (1 / 1000)
          (|(k • fun r : w.RowIdx => mult r.1 r.2) r'| / (1 - d))) =
          ∑ r' : w.RowIdx, |w.coupling (w.rowsOf x) i.1 i.2 r'.1 r'.2| *
            (d * max (1 / 1000) (|k * mult r'.1 r'.2| / (1 - d))) := by
        refine sum_congr rfl fun r' _ => ?_
        have : w.matOf (w.pack x) i r' = w.coupling (w.rowsOf x) i.1 i.2 r'.1 r'.2 :=
          ((sameRows_congr p (pack_same x)).coupling (List.mem_toFinset.mp i.1.2) i.2.2
            (List.mem_toFinset.mp r'.1.2) r'.2.2).symm
        rw [this]
        rfl
      show v.gsSlack d k x mult i.1 i.2 ≤ _
      rw [e2, e, World.gsSlack, hcs]
      refine sum_le_sum fun c' hc' => ?_
      have hc'' := (r.cons.mem _).mp (List.mem_toFinset.mp hc')
      rw [s.rows c' hc'']
      refine sum_le_sum fun j' _ => ?_
      rw [← s.coupling r r2 x (hreg i) hc'']
      split_ifs
      · exact n0 c' j'
      · exact le_rfl
  · intro i
    have e1 := congrFun (stw.miss_eq p hg hf) i
    rw [Pi.add_apply] at e1
    have hj : (i.2 : Nat) < (v.cons i.1).rows := by rw [s.rows _ (hreg i)]; exact i.2.2
    have h1 := nearly_cone (hlim i) (hrow i.1 (hreg i) i.2 hj _ (s.miss r r2 p hb k x x' i))
    rw [e1] at h1
    set a := app (fun i j => w.matOf (w.pack x) i j) (k • fun r => mult r.1 r.2) i + w.lack k x i
    set S := v.gsSlack d k x mult i.1 i.2
    have e2 : (k • fun r : w.RowIdx => mult r.1 r.2) i - (-app (w.inv (w.pack x)) (w.lack k x)) i =
        -(k * (-app (w.inv (w.pack x)) (w.lack k x) i / k - mult i.1 i.2)) := by
      simp only [Pi.smul_apply, smul_eq_mul, Pi.neg_apply]
      field_simp
      ring
    rw [e2, abs_neg, abs_mul, abs_of_pos hk]
    have h2 := mul_le_mul_of_nonneg_left h1 hk.le
    linarith

end

theorem exists_least_mass (hm : ∀ b ∈ w.rb, ∀ q : Coord, 0 < (w.bodies b).mass q) :
    ∃ μ : ℝ, 0 < μ ∧ ∀ i : w.rb.toFinset × Coord, μ ≤ (w.bodies i.1).mass i.2 := by
  have hp : ∀ i : w.rb.toFinset × Coord, 0 < (w.bodies i.1).mass i.2 := fun i =>
    hm _ (List.mem_toFinset.mp i.1.2) _
  have h0 : 0 ≤ ∑ i : w.rb.toFinset × Coord, 1 / (w.bodies i.1).mass i.2 :=
    sum_nonneg fun i _ => (one_div_pos.mpr (hp i)).le
  refine ⟨1 / (1 + ∑ i : w.rb.toFinset × Coord, 1 / (w.bodies i.1).mass i.2), by positivity,
    fun i => ?_⟩
  rw [div_le_iff₀ (by positivity)]
  have h1 := single_le_sum (f := fun i : w.rb.toFinset × Coord => 1 / (w.bodies i.1).mass i.2)
    (fun i _ => (one_div_pos.mpr (hp i)).le) (mem_univ i)
  have h2 := mul_le_mul_of_nonneg_left h1 (hp i).le
  have h3 : (w.bodies i.1).mass i.2 * (1 / (w.bodies i.1).mass i.2) = 1 :=
    mul_one_div_cancel (hp i).ne'
  have := hp i
  rw [h3] at h2
  linarith

/-! ## C99 -/

set_option maxHeartbeats 1000000 in
/-- **C99.** If the bodies have an exact motion over the time `dt` in which the constraints hold, then
the result of `process` of the optimized system with Gauss-Seidel differs from it by at most a constant
times the length of a sub-step plus the tolerance `d`. This holds for all sufficiently small tolerances
and sufficiently large numbers of sub-steps, provided that the force limits are beyond a constant times
`1 + d * steps`; the constants do not depend on the limits, nor on the number of iterations. -/
theorem C99_gauss_seidel (hG : ∀ g, G g → g.OnlyForces) (hw : World.Hist G .opt h w)
    (hst : w.Standard h) (hb0 : 0 < w.bias) (hb2 : w.bias < 2)
    (hm : ∀ b ∈ regBodies h, 0 < (w.bodies b).m ∧ 0 < (w.bodies b).I) (hdt : 0 < dt)
    (hY : w.HeldMotion h dt Y lam) :
    ∃ (N : Int) (d0 F E : ℝ), 0 < d0 ∧ ∀ (h2 : List (Op ℝ)) (v v' : World ℝ),
      World.Hist G .opt h2 v → v.Standard h2 → v.Sensible h2 → SameButLimits h w h2 v →
      v.bias = w.bias → ∀ (m : Nat) (d : ℝ), v.sle = some (.gs m d) → 0 < d → d ≤ d0 →
      ∀ steps : Int, N ≤ steps →
      (∀ c ∈ regCons h, (v.cons c).kind.loT ≤ -(F * (1 + d * steps)) ∧
        F * (1 + d * steps) ≤ (v.cons c).kind.hiT) →
      ∀ env : Env ℝ, v.process .opt env dt steps = .ok v' →
        (∀ b ∈ regBodies h, ∀ q : Coord,
          |(v'.bodies b).pos q - (Y dt).pos b q| ≤ E * (1 / steps + d) ∧
          |(v'.bodies b).vel q - (Y dt).vel b q| ≤ E * (1 / steps + d)) ∧
        ∀ c ∈ regCons h, ∀ j, j < (w.cons c).rows →
          |(v'.rowsOf v'.now c).C j| ≤ E / steps * (1 / steps + d) ∧
          |v'.rowAt (v'.rowsOf v'.now c) c j v'.now.vel + (v'.rowsOf v'.now c).v_bias j| ≤
            E * (1 / steps + d) := by
  have p := (hw.ready hG hst.wired).2
  have pr := hst.proper hw.regs
  have hg := hst.driven hw.regs
  obtain ⟨ρ, r, A, ρ0, r0, A0, bds, track⟩ := hY.tracks p pr hg hw.regs
    (fun b hb => ⟨(hm b hb).1.ne', (hm b hb).2.ne'⟩) hdt hb0 hb2
  obtain ⟨μ, hμ, hμ'⟩ := exists_least_mass (w := w) fun b hb q => by
    have := hm b ((hw.regs.bodies.mem b).mp hb)
    cases q
    · exact this.1
    · exact this.1
    · exact this.2
  set Q := A + |w.bias| * A + Fintype.card (w.rb.toFinset × Coord) * A * A with hQ
  have Q0 : 0 ≤ Q := by positivity
  obtain ⟨K, d1, K0, d10, d11, noise⟩ := gs_noise (ι := w.RowIdx) (κ := w.rb.toFinset × Coord) A0
    (by positivity : 0 ≤ Q * ρ) hμ
  set n1 : ℝ := ((Fintype.card w.RowIdx : Nat) : ℝ) with hn1
  set F := n1 * A * Q * (1 + K / dt) with hF
  set E := A * (dt + K) * (1 + dt) with hE
  have E0 : 0 ≤ E := by positivity
  obtain ⟨N, hN⟩ := exists_nat_gt (2 * dt / ρ)
  have hNpos : (0 : ℝ) < N := lt_of_le_of_lt (by positivity) hN
  refine ⟨N, min d1 (ρ / (2 * (K + 1))), F, E, lt_min d10 (by positivity), ?_⟩
  intro h2 v v' hv hst2 hsen same hbias m d hsle hd hdd steps hsteps hlim env ev
  have hsN : (N : ℝ) ≤ steps := by exact_mod_cast hsteps
  have hpos : (0 : ℝ) < steps := hNpos.trans_le hsN
  have hpos' : 0 < steps := by exact_mod_cast hpos
  have hdd1 := hdd.trans (min_le_left _ _)
  have hd1 : d < 1 := by linarith
  set s := dt / steps with hsd
  have s0 : 0 < s := div_pos hdt hpos
  have hss : steps * s = dt := by rw [hsd]; field_simp
  have s1 : s ≤ ρ / 2 := by
    have h1 : 2 * dt / ρ < steps := by linarith
    rw [div_lt_iff₀ ρ0] at h1
    rw [hsd, div_le_iff₀ hpos]
    linarith
  have τ1 : K * d ≤ ρ / 2 := by
    have h1 := hdd.trans (min_le_right _ _)
    rw [le_div_iff₀ (by positivity)] at h1
    nlinarith
  have τ0 : 0 ≤ K * d := by positivity
  have hθ : s + K * d ≤ ρ := by linarith
  have hnat : ((steps.toNat : Nat) : ℝ) = (steps : ℝ) := by
    exact_mod_cast Int.toNat_of_nonneg hpos'.le
  obtain ⟨X, mult, hX0, hX, hgs⟩ := hv.gs_moved hG hst2 hsle hdt ev
  have res := track s (K * d) s0 τ0 hθ steps.toNat (by rw [hnat, hss]) _ le_rfl X
    (same.shows hw.regs hv.regs hX.first) (fun i hi ht hnear hrow herr => by
      obtain ⟨f1, f2, f3, f4, f5⟩ := bds _ ht _ hnear
      have hf := (fair_pack p hg).mp f1
      have st := (hX.step i hi).push
      have stw := same.push hw.regs hv.regs st
      have hl := lack_le (h := s) (x := X i) A0 s0 (by linarith) hrow herr f2 f4
      refine ⟨w.miss s (X i) (X (i + 1)), ?_, stw.noisy p hg hf⟩
      refine same.gsNoise hw.regs hv.regs p hg hbias noise hμ' hf f4 f3 f5
        (hl.trans (mul_le_mul_of_nonneg_left hθ Q0)) hd hdd1 hd1 s0 st (fun j => ?_)
        (fun c hc j hj e he => ?_)
      · have b1 : |-app (w.inv (w.pack (X i))) (w.lack s (X i)) j / s| ≤ F * (1 + d * steps) := by
          rw [abs_div, abs_neg, abs_of_pos s0, div_le_iff₀ s0]
          have b2 : |app (w.inv (w.pack (X i))) (w.lack s (X i)) j| ≤ n1 * A * (Q * (s + K * d)) := by
            refine (norm_le_pi_norm (app (w.inv (w.pack (X i))) (w.lack s (X i))) j).trans
              ((app_le _ _).trans ?_)
            exact mul_le_mul (mul_le_mul_of_nonneg_left f3 (by positivity)) hl (norm_nonneg _)
              (by positivity)
          refine b2.trans ?_
          have b3 : s + K * d ≤ (1 + K / dt) * (1 + d * steps) * s := by
            have b4 : (1 + K / dt) * (1 + d * steps) * s =
                s + K * d + (K * s / dt + d * (steps * s)) := by
              have : K / dt * (d * steps) * s = K * d := by
                rw [hsd]; field_simp
              calc (1 + K / dt) * (1 + d * steps) * s =
                  s + K / dt * (d * steps) * s + (K * s / dt + d * (steps * s)) := by ring
                _ = _ := by rw [this]
            have b5 : 0 ≤ K * s / dt + d * (steps * s) := by positivity
            linarith
          have b6 := mul_le_mul_of_nonneg_left b3 (by positivity : 0 ≤ n1 * A * Q)
          rw [hF]
          linarith
        have hc := hlim j.1 ((hw.regs.cons.mem _).mp (List.mem_toFinset.mp j.1.2))
        rw [abs_le] at b1
        exact ⟨hc.1.trans b1.1, b1.2.trans hc.2⟩
      · have hc2 : c ∈ regCons h2 := by rw [← same.cs]; exact hc
        have hc' := (hv.regs.cons.mem c).mpr hc2
        exact (hgs i hi).slack hd hd1 hc' hj (hsen.acts hst2 hv.regs _ c hc' j hj)
          (hsen.ordered c hc2).le he)
  obtain ⟨-, e1, e2, e3⟩ := res _ le_rfl
  have hD : A * (s + K * d) ≤ E * (1 / steps + d) := by
    have t1 : s + K * d ≤ (dt + K) * (1 / steps + d) := by
      have t2 : (dt + K) * (1 / steps + d) = s + K * d + (K / steps + dt * d) := by
        rw [hsd]; field_simp; ring
      have : 0 ≤ K / steps + dt * d := by positivity
      linarith
    have t3 := mul_le_mul_of_nonneg_left t1 A0
    have t4 : 0 ≤ A * (dt + K) * dt * (1 / steps + d) := by positivity
    rw [hE]
    linarith
  have hD' : A * s * (s + K * d) ≤ E / steps * (1 / steps + d) := by
    have t1 : s + K * d ≤ (dt + K) * (1 / steps + d) := by
      have t2 : (dt + K) * (1 / steps + d) = s + K * d + (K / steps + dt * d) := by
        rw [hsd]; field_simp; ring
      have : 0 ≤ K / steps + dt * d := by positivity
      linarith
    have t3 := mul_le_mul_of_nonneg_left t1 (by positivity : 0 ≤ A * s)
    have t4 : E / steps * (1 / steps + d) = A * s * ((dt + K) * (1 / steps + d)) +
        A * (dt + K) / steps * (1 / steps + d) := by
      rw [hE, hsd]; ring
    have t5 : 0 ≤ A * (dt + K) / steps * (1 / steps + d) := by positivity
    linarith
  rw [hnat, hss] at e1
  exact same.seen hw.regs hv.regs p (C56_process_only_moves hv ev) hX.last (e1.trans hD) (e2.trans hD)
    (e3.trans hD')

/-- Two linked bodies with a damped spring between them and an exact motion of them. -/
theorem demo_pair : ∃ (h : List (Op ℝ)) (w : World ℝ) (T : ℝ) (Y : ℝ → Motion)
    (lam : ℝ → Nat → Nat → ℝ), Demo (.link ⟨0, 0, -1, -2, 1, 0, 0⟩)
      (.spring ⟨1, 7, 1, 0, 0, 0, 0, .obj 0, .obj 1⟩) [0] [0] .ge h w ∧ w.Standard h ∧ 0 < T ∧
      w.HeldMotion h T Y lam := by
  obtain ⟨h, w, d⟩ := demo (.link ⟨0, 0, -1, -2, 1, 0, 0⟩)
    (g := .spring ⟨1, 7, 1, 0, 0, 0, 0, .obj 0, .obj 1⟩) trivial (cs := [0]) (fg := [0]) (by decide)
    (by decide) .ge
  have hst := d.standard (.inl (by simp [CKind.counts]))
    (.inr ⟨⟨0, by simp, rfl⟩, .inr ⟨1, by simp, rfl⟩⟩)
  have hi := d.solvable (d.rank_pins (pins_link _) w.now) trivial
    (by rw [d.full]; simp [CKind.counts]) (.inl (by simp))
  have hh := linked_start d.toDemoSys
  have ha := centres_apart d.toDemoSys
  obtain ⟨T, hT, Y, lam, hY⟩ := C95_exact_motion_exists (fun g => Gen.tame) d.hist hst d.masses
    (fun c hc j hj => ⟨(hh c hc j hj).1, by rw [(hh c hc j hj).2.1, (hh c hc j hj).2.2, add_zero]⟩)
    (by simpa [World.Solvable, d.sle] using hi) (fun g _ => by
      rw [d.gens]
      intro b1 b2 e1 e2
      cases e1
      cases e2
      exact ha.ne')
  exact ⟨h, w, T, Y, lam, d, hst, hT, hY⟩

theorem DemoSys.butLimits {K K' : CKind ℝ} {g : Gen ℝ} {cs fg : List Nat} {sv sv' : Solver ℝ}
    (d : DemoSys K g cs fg sv h w) (d' : DemoSys K' g cs fg sv' h2 v)
    (e : K'.unlimited = K.unlimited) (ec : K'.counts = K.counts) : SameButLimits h w h2 v where
  rb := by rw [d.regB, d'.regB]
  cs := by rw [d.regC, d'.regC]
  fg := by rw [d.regG, d'.regG]
  bodies := fun b _ => ⟨by funext q; rw [d.pos, d'.pos], by funext q; rw [d.vel, d'.vel],
    by rw [d.m, d'.m], by rw [d.I, d'.I]⟩
  kind := fun c _ => by rw [d.kind, d'.kind, e]
  rows := fun c _ => by rw [d.rows, d'.rows, ec]
  count := fun c _ => by rw [d.count, d'.count, ec]
  at_ := fun c _ k _ => by rw [d.bodies, d'.bodies]
  gens := fun g _ => by rw [d.gens, d'.gens]

/-- The linked bodies with a sufficiently strong link meet the hypotheses of the claim: for all positive
tolerances up to some value, all sufficiently large numbers of sub-steps and all sufficiently large numbers
of iterations there is such a call. -/
example : ∃ (T : ℝ) (Y : ℝ → Motion) (N : Int) (d0 E : ℝ), 0 < T ∧ 0 < d0 ∧
    ∀ d : ℝ, 0 < d → d ≤ d0 → ∀ steps : Int, N ≤ steps → ∀ env : Env ℝ,
      ∃ (h : List (Op ℝ)) (w : World ℝ) (M : Nat), World.Hist Gen.Shipped .opt h w ∧
        regBodies h = {0, 1} ∧ regCons h = {0} ∧ ∀ m, M ≤ m → ∃ w',
        ({ w with sle := some (.gs m d) } : World ℝ).process .opt env T steps = .ok w' ∧
        ∀ b ∈ regBodies h, ∀ q : Coord,
          |(w'.bodies b).pos q - (Y T).pos b q| ≤ E * (1 / steps + d) ∧
          |(w'.bodies b).vel q - (Y T).vel b q| ≤ E * (1 / steps + d) := by
  obtain ⟨h, w, T, Y, lam, d, hst, hT, hY⟩ := demo_pair
  obtain ⟨N, d0, F, E, hd0, key⟩ := C99_gauss_seidel (fun g => Gen.tame) d.hist hst
    (by rw [d.bias]; norm_num) (by rw [d.bias]; norm_num)
    (fun b _ => by rw [d.m, d.I]; exact ⟨one_pos, one_pos⟩) hT hY
  refine ⟨T, Y, N, d0, E, hT, hd0, fun e he hed steps hs env => ?_⟩
  obtain ⟨h2, v, d2⟩ := demo (.link ⟨0, 0, -1, -2, |F * (1 + e * steps)|, 0, 0⟩)
    (g := .spring ⟨1, 7, 1, 0, 0, 0, 0, .obj 0, .obj 1⟩) trivial (cs := [0]) (fg := [0]) (by decide)
    (by decide) .ge
  have hst2 := d2.standard (.inl (by simp [CKind.counts]))
    (.inr ⟨⟨0, by simp, rfl⟩, .inr ⟨1, by simp, rfl⟩⟩)
  have hsen := d2.sensible (abs_nonneg (F * (1 + e * steps))) trivial
  have same := d.butLimits d2.toDemoSys rfl rfl
  obtain ⟨M, v', run⟩ := C85_enough_iterations (fun g => Gen.tame) d2.hist hst2 hsen he hT env steps
  refine ⟨h2, v, M, d2.hist, by rw [d2.regB], by rw [d2.regC]; rfl, fun m hm => ⟨_, run m hm, ?_⟩⟩
  have := (key (.init (some (.gs m e)) none :: h2) _ _ (d2.hist.gs m e)
    ⟨hst2.kind, hst2.bodies, hst2.gens, hst2.near⟩
    ⟨hsen.mass, hsen.ordered, hsen.directed, hsen.apart⟩
    ⟨same.rb, same.cs, same.fg, same.bodies, same.kind, same.rows, same.count, same.at_, same.gens⟩
    (by rw [d.bias]; exact d2.bias) m e rfl he hed steps hs (fun c _ => by
      show (v.cons c).kind.loT ≤ _ ∧ _ ≤ (v.cons c).kind.hiT
      rw [d2.kind]
      exact ⟨neg_le_neg (le_abs_self _), le_abs_self _⟩) env (run m hm)).1
  rw [same.rb] at this
  exact this

/-- **C99.** With enough iterations the calls succeed: whatever the state, the tolerance and the number of
sub-steps, there is a number of iterations from which on `process` succeeds, and then the motion is as
close to the exact one as stated. -/
theorem C99_enough_iterations (hG : ∀ g, G g → g.OnlyForces) (hw : World.Hist G .opt h w)
    (hst : w.Standard h) (hb0 : 0 < w.bias) (hb2 : w.bias < 2)
    (hm : ∀ b ∈ regBodies h, 0 < (w.bodies b).m ∧ 0 < (w.bodies b).I) (hdt : 0 < dt)
    (hY : w.HeldMotion h dt Y lam) :
    ∃ (N : Int) (d0 F E : ℝ), 0 < d0 ∧ ∀ (h2 : List (Op ℝ)) (v : World ℝ),
      World.Hist G .opt h2 v → v.Standard h2 → v.Sensible h2 → SameButLimits h w h2 v →
      v.bias = w.bias → ∀ d : ℝ, 0 < d → d ≤ d0 → ∀ steps : Int, N ≤ steps →
      (∀ c ∈ regCons h, (v.cons c).kind.loT ≤ -(F * (1 + d * steps)) ∧
        F * (1 + d * steps) ≤ (v.cons c).kind.hiT) →
      ∀ env : Env ℝ, ∃ M, ∀ m, M ≤ m → ∃ v',
        ({ v with sle := some (.gs m d) } : World ℝ).process .opt env dt steps = .ok v' ∧
        (∀ b ∈ regBodies h, ∀ q : Coord,
          |(v'.bodies b).pos q - (Y dt).pos b q| ≤ E * (1 / steps + d) ∧
          |(v'.bodies b).vel q - (Y dt).vel b q| ≤ E * (1 / steps + d)) ∧
        ∀ c ∈ regCons h, ∀ j, j < (w.cons c).rows →
          |(v'.rowsOf v'.now c).C j| ≤ E / steps * (1 / steps + d) ∧
          |v'.rowAt (v'.rowsOf v'.now c) c j v'.now.vel + (v'.rowsOf v'.now c).v_bias j| ≤
            E * (1 / steps + d) := by
  obtain ⟨N, d0, F, E, hd0, key⟩ := C99_gauss_seidel hG hw hst hb0 hb2 hm hdt hY
  refine ⟨N, d0, F, E, hd0, ?_⟩
  intro h2 v hv hst2 hsen same hbias d hd hdd steps hsteps hlim env
  obtain ⟨M, v', run⟩ := C85_enough_iterations hG hv hst2 hsen hd hdt env steps
  refine ⟨M, fun m hm => ⟨_, run m hm, ?_⟩⟩
  exact key (.init (some (.gs m d)) none :: h2) _ _ (hv.gs m d)
    ⟨hst2.kind, hst2.bodies, hst2.gens, hst2.near⟩
    ⟨hsen.mass, hsen.ordered, hsen.directed, hsen.apart⟩
    ⟨same.rb, same.cs, same.fg, same.bodies, same.kind, same.rows, same.count, same.at_, same.gens⟩
    hbias m d rfl hd hdd steps hsteps hlim env (run m hm)

/-- The claim applied to the linked bodies with a strong link. -/
example : ∃ (T : ℝ) (Y : ℝ → Motion) (N : Int) (d0 E : ℝ), 0 < T ∧ 0 < d0 ∧
    ∀ d : ℝ, 0 < d → d ≤ d0 → ∀ steps : Int, N ≤ steps → ∀ env : Env ℝ,
      ∃ (h : List (Op ℝ)) (w : World ℝ) (M : Nat), World.Hist Gen.Shipped .opt h w ∧
        regCons h = {0} ∧ (w.cons 0).rows = 2 ∧ ∀ m, M ≤ m → ∃ w',
        ({ w with sle := some (.gs m d) } : World ℝ).process .opt env T steps = .ok w' ∧
        ∀ j, j < 2 → |(w'.rowsOf w'.now 0).C j| ≤ E / steps * (1 / steps + d) := by
  obtain ⟨h, w, T, Y, lam, d, hst, hT, hY⟩ := demo_pair
  obtain ⟨N, d0, F, E, hd0, key⟩ := C99_enough_iterations (fun g => Gen.tame) d.hist hst
    (by rw [d.bias]; norm_num) (by rw [d.bias]; norm_num)
    (fun b _ => by rw [d.m, d.I]; exact ⟨one_pos, one_pos⟩) hT hY
  refine ⟨T, Y, N, d0, E, hT, hd0, fun e he hed steps hs env => ?_⟩
  obtain ⟨h2, v, d2⟩ := demo (.link ⟨0, 0, -1, -2, |F * (1 + e * steps)|, 0, 0⟩)
    (g := .spring ⟨1, 7, 1, 0, 0, 0, 0, .obj 0, .obj 1⟩) trivial (cs := [0]) (fg := [0]) (by decide)
    (by decide) .ge
  have hst2 := d2.standard (.inl (by simp [CKind.counts]))
    (.inr ⟨⟨0, by simp, rfl⟩, .inr ⟨1, by simp, rfl⟩⟩)
  obtain ⟨M, run⟩ := key h2 v d2.hist hst2 (d2.sensible (abs_nonneg (F * (1 + e * steps))) trivial)
    (d.butLimits d2.toDemoSys rfl rfl) (by rw [d.bias]; exact d2.bias) e he hed steps hs (fun c _ => by
      rw [d2.kind]
      exact ⟨neg_le_neg (le_abs_self _), le_abs_self _⟩) env
  refine ⟨h2, v, M, d2.hist, by rw [d2.regC]; rfl, by rw [d2.rows]; rfl, fun m hm => ?_⟩
  obtain ⟨v', ev, -, hc⟩ := run m hm
  exact ⟨v', ev, fun j hj => (hc 0 (by rw [d.regC]; simp) j (by rw [d.rows]; exact hj)).1⟩

/-! ## C100 -/

/-- By how much the free motion misses the conditions of the constraints. -/
theorem lack_at (p : w.Placed) (hg : w.Driven) {x : Motion} (hf : w.Fair x) (k : ℝ) (i : w.RowIdx) :
    w.lack k x i = w.rowAt (w.rowsOf x i.1) i.1 i.2
      (fun b q => x.vel b q + k * w.load x b q / (w.bodies b).mass q) +
      (w.rowsOf x i.1).v_bias i.2 + w.bias / k * (w.rowsOf x i.1).C i.2 := by
  let x' : Motion := ⟨fun b q => x.pos b q + k * (x.vel b q + k * w.load x b q / (w.bodies b).mass q),
    fun b q => x.vel b q + k * w.load x b q / (w.bodies b).mass q, x.acc⟩
  have st : w.Push k x x' (fun _ _ => 0) := by
    refine ⟨fun b _ q => ?_, fun _ _ _ => rfl⟩
    have : w.conForce (w.reaction x fun _ _ => 0) b q = 0 := by
      rw [World.conForce]
      refine sum_eq_zero fun c _ => sum_eq_zero fun j _ => sum_eq_zero fun k _ => ?_
      rw [World.reaction, zero_mul, ite_self]
    rw [this, add_zero, mul_div_assoc']
  have e := congrFun (st.miss_eq p hg hf) i
  have z : (k • fun _ : w.RowIdx => (0 : ℝ)) = 0 := by
    funext r
    simp
  rw [miss_at p, z, map_zero, zero_add] at e
  exact e.symm

theorem rank_of_indep {o : Nat → Output ℝ} (hi : w.Indep o) (z : Nat → Nat → ℝ)
    (hz : ∀ b ∈ w.rb, ∀ q : Coord, ∑ c ∈ w.cs.toFinset,
      ∑ j ∈ range (w.cons c).rows, z c j * w.coef o c j b q = 0) :
    ∀ c ∈ w.cs, ∀ i, i < (w.cons c).rows → z c i = 0 := by
  refine hi z fun c _ i _ => sum_eq_zero fun b hb => ?_
  have : ∀ q : Coord, w.coef o c i b q * w.response o z b q = 0 := fun q => by
    rw [World.response, hz b (List.mem_toFinset.mp hb) q, zero_div, mul_zero]
  simp [Coord.sum, this]

theorem count_rows (p : w.Placed) (hfit : w.Fit (fun c k => w.at (w.bodyOf c k))) (r : w.Regs cls h) :
    w.fullCount = ∑ c ∈ regCons h, (w.cons c).rows := by
  have h1 := sum_full p hfit (fun _ => (1 : ℝ))
  simp only [sum_const, card_range, nsmul_eq_mul, mul_one] at h1
  rw [r.cs_finset] at h1
  exact_mod_cast h1

set_option maxHeartbeats 1000000 in
/-- **C100.** If the bodies have an exact motion over the time `dt` in which the constraints hold, then
`process` of the optimized system with conjugate gradients succeeds for every sufficiently large number
of sub-steps, and its result differs from the exact motion by at most a constant times the length of a
sub-step plus the absolute tolerance `e2`. The relative tolerance `e1` has to be small, but it does not
add to the error. At least as many iterations must be allowed as the constraints have rows. -/
theorem C100_conjugate_gradient (hG : ∀ g, G g → g.OnlyForces) (hw : World.Hist G .opt h w)
    (hst : w.Standard h) (hne : regCons h ≠ ∅) (hb0 : 0 < w.bias) (hb2 : w.bias < 2)
    (hm : ∀ b ∈ regBodies h, 0 < (w.bodies b).m ∧ 0 < (w.bodies b).I) (hdt : 0 < dt)
    (hY : w.HeldMotion h dt Y lam) :
    ∃ (N : Int) (e0 E : ℝ), 0 < e0 ∧ ∀ (h2 : List (Op ℝ)) (v : World ℝ),
      World.Hist G .opt h2 v → v.Standard h2 → SameButLimits h w h2 v → v.bias = w.bias →
      ∀ (m : Nat) (e1 e2 : ℝ), v.sle = some (.cg m e1 e2) → ∑ c ∈ regCons h, (w.cons c).rows ≤ m →
      |e1| ≤ e0 → 0 ≤ e2 → e2 ≤ e0 → ∀ steps : Int, N ≤ steps → ∀ env : Env ℝ,
      ∃ v', v.process .opt env dt steps = .ok v' ∧
        (∀ b ∈ regBodies h, ∀ q : Coord,
          |(v'.bodies b).pos q - (Y dt).pos b q| ≤ E * (1 / steps + e2) ∧
          |(v'.bodies b).vel q - (Y dt).vel b q| ≤ E * (1 / steps + e2)) ∧
        ∀ c ∈ regCons h, ∀ j, j < (w.cons c).rows →
          |(v'.rowsOf v'.now c).C j| ≤ E / steps * (1 / steps + e2) ∧
          |v'.rowAt (v'.rowsOf v'.now c) c j v'.now.vel + (v'.rowsOf v'.now c).v_bias j| ≤
            E * (1 / steps + e2) := by
  have p := (hw.ready hG hst.wired).2
  have pr := hst.proper hw.regs
  have hg := hst.driven hw.regs
  obtain ⟨ρ, r, A, ρ0, r0, A0, bds, track⟩ := hY.tracks p pr hg hw.regs
    (fun b hb => ⟨(hm b hb).1.ne', (hm b hb).2.ne'⟩) hdt hb0 hb2
  have hmass : ∀ b ∈ w.rb, ∀ q : Coord, 0 < (w.bodies b).mass q := fun b hb q => by
    have := hm b ((hw.regs.bodies.mem b).mp hb)
    cases q
    · exact this.1
    · exact this.1
    · exact this.2
  set Q := A + |w.bias| * A + Fintype.card (w.rb.toFinset × Coord) * A * A with hQ
  have Q0 : 0 ≤ Q := by positivity
  set E := A * 2 * (dt + 1) * (1 + dt) with hE
  have E0 : 0 ≤ E := by positivity
  obtain ⟨N, hN⟩ := exists_nat_gt (4 * dt / ρ)
  have hNpos : (0 : ℝ) < N := lt_of_le_of_lt (by positivity) hN
  refine ⟨N, min (ρ / 4) (1 / (2 * (Q + 1))), E, by positivity, ?_⟩
  intro h2 v hv hst2 same hbias m e1 e2 hsle hrows he1 he2 he2' steps hsteps env
  have a := same.alike hw.regs hv.regs
  have hsN : (N : ℝ) ≤ steps := by exact_mod_cast hsteps
  have hpos : (0 : ℝ) < steps := hNpos.trans_le hsN
  have hpos' : 0 < steps := by exact_mod_cast hpos
  set s := dt / steps with hsd
  have s0 : 0 < s := div_pos hdt hpos
  have hss : steps * s = dt := by rw [hsd]; field_simp
  have s1 : s ≤ ρ / 4 := by
    have h1 : 4 * dt / ρ < steps := by linarith
    rw [div_lt_iff₀ ρ0] at h1
    rw [hsd, div_le_iff₀ hpos]
    linarith
  have hQe : |e1| * Q ≤ 1 / 2 := by
    have h1 := he1.trans (min_le_right _ _)
    rw [le_div_iff₀ (by positivity)] at h1
    nlinarith [abs_nonneg e1]
  have he2'' := he2'.trans (min_le_left _ _)
  set τ := 2 * (|e1| * Q * s + e2) with hτ
  have τ0 : 0 ≤ τ := by positivity
  have τ1 : τ ≤ s + 2 * e2 := by
    have := mul_le_mul_of_nonneg_right hQe s0.le
    rw [hτ]
    linarith
  have hθ : s + τ ≤ ρ := by linarith
  have hnat : ((steps.toNat : Nat) : ℝ) = (steps : ℝ) := by
    exact_mod_cast Int.toNat_of_nonneg hpos'.le
  have near : ∀ k, k ≤ steps.toNat → ∀ (X : Nat → Motion) (mult : Nat → Nat → Nat → ℝ),
      v.Shows (X 0) v.bodies → (∀ i, i < k → v.Move s (X i) (X (i + 1)) (mult i)) → _ :=
    fun k hk X mult hX0 hX => track s τ s0 τ0 hθ steps.toNat (by rw [hnat, hss]) k hk X
      (same.shows hw.regs hv.regs hX0) (fun i hi ht hnear hrow herr => by
        obtain ⟨f1, f2, f3, f4, f5⟩ := bds _ ht _ hnear
        have hf := (fair_pack p hg).mp f1
        have st := (hX i hi).push
        have stw := same.push hw.regs hv.regs st
        have hl := lack_le (h := s) (x := X i) A0 s0 (by linarith) hrow herr f2 f4
        refine ⟨w.miss s (X i) (X (i + 1)), ?_, stw.noisy p hg hf⟩
        refine (pi_norm_le_iff_of_nonneg τ0).mpr fun j => ?_
        have hc' := List.mem_toFinset.mp j.1.2
        have hc := (hw.regs.cons.mem _).mp hc'
        have b1 := (hX i hi).cg m e1 e2 hsle j.1 (a.memc.mpr hc') j.2 (by
          rw [same.rows _ hc]; exact j.2.2)
        rw [← same.miss hw.regs hv.regs p hbias] at b1
        have e : v.rowAt (v.rowsOf (X i) j.1) j.1 j.2 (fun b q => (X i).vel b q +
              s * v.load (X i) b q / (v.bodies b).mass q) + (v.rowsOf (X i) j.1).v_bias j.2 +
            v.bias / s * (v.rowsOf (X i) j.1).C j.2 = w.lack s (X i) j := by
          rw [lack_at p hg hf, same.rowAt hw.regs hv.regs _ hc, (same.rowsOf hw.regs hv.regs _ hc).2.1,
            (same.rowsOf hw.regs hv.regs _ hc).2.2, hbias]
          congr 2
          refine sum_congr rfl fun k hk => Coord.sum_congr fun q => ?_
          have hb := (p.bodies _ hc' k (mem_range.mp hk)).2
          have q1 : v.load (X i) (w.bodyOf j.1 k) q = w.load (X i) (w.bodyOf j.1 k) q := a.load _ hb q
          have q2 : (v.bodies (w.bodyOf j.1 k)).mass q = (w.bodies (w.bodyOf j.1 k)).mass q :=
            a.mass hb q
          beta_reduce
          rw [q1, q2]
        rw [e, abs_mul] at b1
        refine b1.trans ?_
        have b2 := (norm_le_pi_norm (w.lack s (X i)) j).trans hl
        have b3 : |e1| * |w.lack s (X i) j| ≤ |e1| * (Q * (s + τ)) :=
          mul_le_mul_of_nonneg_left b2 (abs_nonneg _)
        have b4 := mul_le_mul_of_nonneg_right hQe τ0
        have b5 : |e1| * (Q * (s + τ)) = (|e1| * Q * s + e2) - e2 + |e1| * Q * τ := by ring
        have b6 : |e1| * Q * s + e2 = τ / 2 := by rw [hτ]; ring
        rw [b6] at b5
        have b7 : e2 ≤ τ := by
          have : 0 ≤ |e1| * Q * s := by positivity
          linarith
        exact max_le (by linarith) b7)
  obtain ⟨v', ev⟩ : ∃ v', v.process .opt env dt steps = .ok v' := by
    refine hv.goes hG hst2 (fun b hb q => ?_) hdt.ne' (by rw [hsle]; simp)
      (fun j x => ∃ (X : Nat → Motion) (mult : Nat → Nat → Nat → ℝ), v.Shows (X 0) v.bodies ∧ X j = x ∧
        ∀ i, i < j → v.Move s (X i) (X (i + 1)) (mult i)) (fun x hx _ => ?_) ?_ ?_ (fun h0 => ?_) env
    · have hb' := a.memb.mp hb
      have : (v.bodies b).mass q = (w.bodies b).mass q := a.mass hb' q
      rw [this]
      exact (hmass b hb' q).ne'
    · exact ⟨fun _ => x, fun _ _ _ => 0, hx, rfl, fun i hi => absurd hi (Nat.not_lt_zero i)⟩
    · rintro j hj x x' mu ⟨X, mult, hX0, rfl, hX⟩ st
      refine ⟨fun i => if i ≤ j then X i else x', fun i => if i < j then mult i else mu, ?_, ?_, ?_⟩
      · simpa using hX0
      · simp
      · intro i hi
        rcases Nat.lt_succ_iff_lt_or_eq.mp hi with h1 | rfl
        · simp only [h1.le, Nat.succ_le_of_lt h1, if_true, h1]
          exact hX i h1
        · simp only [le_refl, if_true, Nat.not_succ_le_self, if_false, lt_irrefl]
          exact st
    · rintro j hj x ⟨X, mult, hX0, rfl, hX⟩ _
      obtain ⟨⟨ht, hnear⟩, -⟩ := near j hj.le X mult hX0 hX j le_rfl
      have hf := (fair_pack p hg).mp (bds _ ht _ hnear).1
      obtain ⟨rv, pv⟩ := hv.ready hG hst2.wired
      rw [World.Solvable, hsle]
      refine ⟨fun b hb q => ?_, ?_, fun z hz => ?_⟩
      · have hb' := a.memb.mp hb
        have : (v.bodies b).mass q = (w.bodies b).mass q := a.mass hb' q
        rw [this]
        exact hmass b hb' q
      · rw [count_rows pv rv.fit hv.regs, ← same.cs]
        rw [sum_congr rfl fun c hc => same.rows c hc]
        exact hrows
      · have hz' := rank_of_indep hf.1 z fun b hb q => by
          have := hz b (a.memb.mpr hb) q
          have hcs : v.cs.toFinset = w.cs.toFinset := a.cs.symm
          rw [hcs] at this
          rw [← this]
          refine sum_congr rfl fun c hc => ?_
          have hc' := (hw.regs.cons.mem _).mp (List.mem_toFinset.mp hc)
          rw [same.rows c hc']
          refine sum_congr rfl fun j _ => ?_
          rw [same.coef hw.regs hv.regs _ hc']
        intro c hc i hi
        have hc' := a.memc.mp hc
        rw [same.rows c ((hw.regs.cons.mem _).mp hc')] at hi
        exact hz' c hc' i hi
    · exfalso
      rw [hv.regs.cs_nil, ← same.cs] at h0
      exact hne h0
  refine ⟨v', ev, ?_⟩
  obtain ⟨X, mult, hX0, hX⟩ := hv.moved hG hst2 ev
  obtain ⟨-, g1, g2, g3⟩ := near _ le_rfl X mult hX.first (fun i hi => hX.step i hi) _ le_rfl
  have t1 : s + τ ≤ 2 * (dt + 1) * (1 / steps + e2) := by
    have t2 : 2 * (dt + 1) * (1 / steps + e2) = 2 * s + 2 * e2 + (2 / steps + 2 * dt * e2) := by
      rw [hsd]; field_simp; ring
    have : 0 ≤ 2 / steps + 2 * dt * e2 := by positivity
    linarith
  have hD : A * (s + τ) ≤ E * (1 / steps + e2) := by
    have t3 := mul_le_mul_of_nonneg_left t1 A0
    have t4 : 0 ≤ A * 2 * (dt + 1) * dt * (1 / steps + e2) := by positivity
    rw [hE]
    linarith
  have hD' : A * s * (s + τ) ≤ E / steps * (1 / steps + e2) := by
    have t3 := mul_le_mul_of_nonneg_left t1 (by positivity : 0 ≤ A * s)
    have t4 : E / steps * (1 / steps + e2) = A * s * (2 * (dt + 1) * (1 / steps + e2)) +
        A * 2 * (dt + 1) / steps * (1 / steps + e2) := by
      rw [hE, hsd]; ring
    have t5 : 0 ≤ A * 2 * (dt + 1) / steps * (1 / steps + e2) := by positivity
    linarith
  rw [hnat, hss] at g1
  exact same.seen hw.regs hv.regs p (C56_process_only_moves hv ev) hX.last (g1.trans hD) (g2.trans hD)
    (g3.trans hD')

/-- The claim applied to the linked bodies: conjugate gradients with two iterations. -/
example : ∃ (T : ℝ) (Y : ℝ → Motion) (N : Int) (e0 E : ℝ), 0 < T ∧ 0 < e0 ∧
    ∀ e : ℝ, 0 ≤ e → e ≤ e0 → ∀ steps : Int, N ≤ steps → ∀ env : Env ℝ,
      ∃ (h : List (Op ℝ)) (w w' : World ℝ), World.Hist Gen.Shipped .opt h w ∧
        w.sle = some (.cg 2 e e) ∧ regBodies h = {0, 1} ∧ regCons h = {0} ∧
        w.process .opt env T steps = .ok w' ∧ ∀ b ∈ regBodies h, ∀ q : Coord,
          |(w'.bodies b).pos q - (Y T).pos b q| ≤ E * (1 / steps + e) ∧
          |(w'.bodies b).vel q - (Y T).vel b q| ≤ E * (1 / steps + e) := by
  obtain ⟨h, w, T, Y, lam, d, hst, hT, hY⟩ := demo_pair
  obtain ⟨N, e0, E, he0, key⟩ := C100_conjugate_gradient (fun g => Gen.tame) d.hist hst
    (ne_empty_of_mem (d.mem0 rfl)) (by rw [d.bias]; norm_num) (by rw [d.bias]; norm_num)
    (fun b _ => by rw [d.m, d.I]; exact ⟨one_pos, one_pos⟩) hT hY
  refine ⟨T, Y, N, e0, E, hT, he0, fun e he hee steps hs env => ?_⟩
  obtain ⟨h2, v, d2⟩ := demo (.link ⟨0, 0, -1, -2, 1, 0, 0⟩)
    (g := .spring ⟨1, 7, 1, 0, 0, 0, 0, .obj 0, .obj 1⟩) trivial (cs := [0]) (fg := [0]) (by decide)
    (by decide) (.cg 2 e e)
  have same := d.butLimits d2.toDemoSys rfl rfl
  obtain ⟨v', ev, hb, -⟩ := key h2 v d2.hist (d2.standard (.inl (by simp [CKind.counts]))
    (.inr ⟨⟨0, by simp, rfl⟩, .inr ⟨1, by simp, rfl⟩⟩)) same (by rw [d.bias]; exact d2.bias) 2 e e d2.sle
    (by rw [d.regC, sum_congr rfl fun c _ => d.rows c]; simp [CKind.counts])
    (by rwa [abs_of_nonneg he]) he hee steps hs env
  rw [same.rb] at hb
  exact ⟨h2, v, v', d2.hist, d2.sle, by rw [d2.regB], by rw [d2.regC]; rfl, ev, hb⟩

end

end Scs
