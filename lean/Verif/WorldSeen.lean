import Verif.WorldView

/-!
# Systems seen in another frame of reference
-/

namespace Scs

open Finset

/-- A motion seen in a frame. -/
noncomputable def Motion.via (x : Motion) (f : View) : Motion where
  pos := fun b => f.pos (x.pos b)
  vel := fun b => f.vel (x.vel b)
  acc := fun b => f.co (x.acc b)

theorem point_via (x : Motion) (f : View) (b : Nat) (px py : ℝ) :
    (x.via f).point b px py = (rx f.φ (x.point b px py).1 (x.point b px py).2 + f.ax,
      ry f.φ (x.point b px py).1 (x.point b px py).2 + f.ay) := by
  simp only [Motion.point, Motion.via, View.pos, rx, ry, Real.cos_add, Real.sin_add, Prod.mk.injEq]
  constructor <;> ring

theorem pointVel_via (x : Motion) (f : View) (b : Nat) (px py : ℝ) :
    (x.via f).pointVel b px py = (rx f.φ (x.pointVel b px py).1 (x.pointVel b px py).2 + f.ux,
      ry f.φ (x.pointVel b px py).1 (x.pointVel b px py).2 + f.uy) := by
  simp only [Motion.pointVel, point_via]
  simp only [Motion.via, View.pos, View.vel, rx, ry, Prod.mk.injEq]
  constructor <;> ring

theorem wrench_via (x : Motion) (f : View) (b : Nat) (z g : ℝ × ℝ) (q : Coord) :
    (x.via f).wrench b (rx f.φ z.1 z.2 + f.ax, ry f.φ z.1 z.2 + f.ay)
      (rx f.φ g.1 g.2, ry f.φ g.1 g.2) q = f.co (x.wrench b z g) q := by
  cases q
  · rfl
  · rfl
  · simp only [Motion.wrench, Motion.via, View.pos, View.co, rx, ry]
    linear_combination ((z.1 - x.pos b .x) * g.2 - (z.2 - x.pos b .y) * g.1) *
      Real.sin_sq_add_cos_sq f.φ

theorem springForce_via (p : Spring ℝ) (f : View) (w1 w2 u1 u2 : ℝ × ℝ) :
    springForce p (rx f.φ w1.1 w1.2 + f.ax, ry f.φ w1.1 w1.2 + f.ay)
      (rx f.φ w2.1 w2.2 + f.ax, ry f.φ w2.1 w2.2 + f.ay)
      (rx f.φ u1.1 u1.2 + f.ux, ry f.φ u1.1 u1.2 + f.uy)
      (rx f.φ u2.1 u2.2 + f.ux, ry f.φ u2.1 u2.2 + f.uy) =
    (rx f.φ (springForce p w1 w2 u1 u2).1 (springForce p w1 w2 u1 u2).2,
      ry f.φ (springForce p w1 w2 u1 u2).1 (springForce p w1 w2 u1 u2).2) := by
  have d : (rx f.φ w2.1 w2.2 + f.ax - (rx f.φ w1.1 w1.2 + f.ax)) ^ 2 +
      (ry f.φ w2.1 w2.2 + f.ay - (ry f.φ w1.1 w1.2 + f.ay)) ^ 2 =
      (w2.1 - w1.1) ^ 2 + (w2.2 - w1.2) ^ 2 := by
    simp only [rx, ry]
    linear_combination ((w2.1 - w1.1) ^ 2 + (w2.2 - w1.2) ^ 2) * Real.sin_sq_add_cos_sq f.φ
  have dd : distOf (rx f.φ w1.1 w1.2 + f.ax, ry f.φ w1.1 w1.2 + f.ay)
      (rx f.φ w2.1 w2.2 + f.ax, ry f.φ w2.1 w2.2 + f.ay) = distOf w1 w2 := by
    simp only [distOf, d]
  by_cases h : 1 / 100 ≤ distOf w1 w2
  · have e1 : springForce p w1 w2 u1 u2 = hooke p.ks p.restLength p.kd w1 w2 u1 u2 := if_pos h
    rw [e1, springForce, if_pos (by rw [dd]; exact h)]
    simp only [hooke, d]
    generalize √((w2.1 - w1.1) ^ 2 + (w2.2 - w1.2) ^ 2) = l
    simp only [Prod.mk.injEq, rx, ry]
    constructor <;> ring
  · have e1 : springForce p w1 w2 u1 u2 = (p.kd * (u2.1 - u1.1), p.kd * (u2.2 - u1.2)) := if_neg h
    rw [e1, springForce, if_neg (by rw [dd]; exact h)]
    simp only [Prod.mk.injEq, rx, ry]
    constructor <;> ring

theorem pullOn_via (p : Spring ℝ) (x : Motion) (f : View) (b b' : Nat) :
    p.pullOn (x.via f) b b' = (rx f.φ (p.pullOn x b b').1 (p.pullOn x b b').2,
      ry f.φ (p.pullOn x b b').1 (p.pullOn x b b').2) := by
  simp only [Spring.pullOn, point_via, pointVel_via, springForce_via]

theorem load_via {g : Gen ℝ} {f : View} (hf : f.FitsGen g) (m : ℝ) (x : Motion) (b : Nat)
    (q : Coord) : (f.gen g).load m (x.via f) b q = f.co (g.load m x b) q := by
  cases g with
  | gravity a =>
    have h : f.φ = 0 := hf
    cases q <;> simp [View.gen, Gen.load, View.co, h, View.rx_zero, View.ry_zero]
  | static p =>
    by_cases h : p.body = .obj b
    · have e : ∀ q, (Gen.static p).load m x b q = x.wrench b (x.point b p.p_x p.p_y) (p.f_x, p.f_y) q :=
        fun q => if_pos h
      rw [show (Gen.static p).load m x b = x.wrench b (x.point b p.p_x p.p_y) (p.f_x, p.f_y) from
        funext e, ← wrench_via, ← point_via]
      exact if_pos h
    · have e : ∀ q, (Gen.static p).load m x b q = 0 := fun q => if_neg h
      rw [show (Gen.static p).load m x b = fun _ => 0 from funext e, f.co_zero]
      exact if_neg h
  | spring p =>
    cases h1 : p.body1 with
    | obj b1 =>
      cases h2 : p.body2 with
      | obj b2 =>
        have e : (Gen.spring p).load m x b = fun q =>
          (if b = b1 then x.wrench b (x.point b1 p.p1_x p.p1_y) (p.pullOn x b1 b2) q else 0) +
          (if b = b2 then x.wrench b (x.point b2 p.p2_x p.p2_y) (-(p.pullOn x b1 b2)) q else 0) := by
          funext q
          simp only [Gen.load, h1, h2]
        rw [e, f.co_add, f.co_ite, f.co_ite, ← wrench_via, ← wrench_via, ← point_via, ← point_via,
          ← pullOn_via]
        simp only [View.gen, Gen.load, h1, h2]
        have : -(p.pullOn (x.via f) b1 b2) =
            (rx f.φ (-(p.pullOn x b1 b2)).1 (-(p.pullOn x b1 b2)).2,
              ry f.φ (-(p.pullOn x b1 b2)).1 (-(p.pullOn x b1 b2)).2) := by
          rw [pullOn_via]
          simp only [Prod.neg_mk, Prod.fst_neg, Prod.snd_neg, Prod.mk.injEq, rx, ry]
          constructor <;> ring
        rw [this]
      | null => 
        have e : (Gen.spring p).load m x b = fun q => 0 := by
          funext q
          simp only [Gen.load, h1, h2]
        rw [e, f.co_zero]
        simp only [View.gen, Gen.load, h1, h2]
      | uninit =>
        have e : (Gen.spring p).load m x b = fun q => 0 := by
          funext q
          simp only [Gen.load, h1, h2]
        rw [e, f.co_zero]
        simp only [View.gen, Gen.load, h1, h2]
    | null =>
      have e : (Gen.spring p).load m x b = fun q => 0 := by
        funext q
        simp only [Gen.load, h1]
      rw [e, f.co_zero]
      simp only [View.gen, Gen.load, h1]
    | uninit =>
      have e : (Gen.spring p).load m x b = fun q => 0 := by
        funext q
        simp only [Gen.load, h1]
      rw [e, f.co_zero]
      simp only [View.gen, Gen.load, h1]
  | motor p =>
    have hd : ∀ b0 b1, p.drive (x.via f) b0 b1 = p.drive x b0 b1 := fun _ _ => rfl
    cases q
    · cases h0 : p.body0 <;> cases h1 : p.body1 <;>
        simp [View.gen, Gen.load, h0, h1, View.co, pureTorque, rx]
    · cases h0 : p.body0 <;> cases h1 : p.body1 <;>
        simp [View.gen, Gen.load, h0, h1, View.co, pureTorque, ry]
    · simp only [View.gen, Gen.load, View.co, hd]
  | custom c => cases q <;> simp [View.gen, Gen.load, View.co, rx, ry]


/-- The system `v` is the system `w` seen in the frame `f`. -/
structure World.SeenFrom (f : View) (w v : World ℝ) : Prop where
  rb : v.rb.toFinset = w.rb.toFinset
  cs : v.cs.toFinset = w.cs.toFinset
  fg : v.fg.toFinset = w.fg.toFinset
  m : ∀ b ∈ w.rb, (v.bodies b).m = (w.bodies b).m
  I : ∀ b ∈ w.rb, (v.bodies b).I = (w.bodies b).I
  kind : ∀ c ∈ w.cs, (v.cons c).kind = f.con (w.cons c).kind
  fits : ∀ c ∈ w.cs, f.FitsCon (w.cons c).kind
  rows : ∀ c ∈ w.cs, (v.cons c).rows = (w.cons c).rows
  count : ∀ c ∈ w.cs, (v.cons c).bodyCount = (w.cons c).bodyCount
  at_ : ∀ c ∈ w.cs, ∀ k, k < (w.cons c).bodyCount → (v.cons c).bodies k = (w.cons c).bodies k
  gens : ∀ g ∈ w.fg, v.gens g = f.gen (w.gens g)
  drives : ∀ g ∈ w.fg, f.FitsGen (w.gens g)
  bias : v.bias = w.bias

section
variable {f : View} {w v : World ℝ}

theorem World.SeenFrom.after (a : World.SeenFrom f w v) (t : ℝ) :
    World.SeenFrom (f.after t) w v :=
  { a with
    kind := fun c hc => by rw [View.con_after (a.fits c hc), a.kind c hc]
    fits := fun c hc => View.fitsCon_after (a.fits c hc) t
    gens := fun g hg => by rw [View.gen_after, a.gens g hg]
    drives := fun g hg => View.fitsGen_after (a.drives g hg) t }

namespace World.SeenFrom
variable (a : World.SeenFrom f w v)
include a

theorem memb {b : Nat} : b ∈ v.rb ↔ b ∈ w.rb := by
  rw [← List.mem_toFinset, ← List.mem_toFinset, a.rb]

theorem memc {c : Nat} : c ∈ v.cs ↔ c ∈ w.cs := by
  rw [← List.mem_toFinset, ← List.mem_toFinset, a.cs]

theorem mass {b : Nat} (hb : b ∈ w.rb) (q : Coord) : (v.bodies b).mass q = (w.bodies b).mass q := by
  cases q
  · exact a.m b hb
  · exact a.m b hb
  · exact a.I b hb

theorem bodyOf {c : Nat} (hc : c ∈ w.cs) {k : Nat} (hk : k < (w.cons c).bodyCount) :
    v.bodyOf c k = w.bodyOf c k := by
  rw [World.bodyOf, World.bodyOf, a.at_ c hc k hk]

theorem sees (x : Motion) {c : Nat} (hc : c ∈ w.cs) :
    f.Sees (w.cons c).bodyCount (x.q w c) ((x.via f).q v c) := by
  intro i hi
  have e : ∀ (y : Motion) (u : World ℝ) (q : Coord), i < (u.cons c).bodyCount →
      y.q u c (i * 3 + q.d) = y.pos (u.bodyOf c i) q := fun y u q h => by
    have h1 : (i * 3 + q.d) / 3 = i := by cases q <;> simp only [Coord.d] <;> omega
    have h2 : (i * 3 + q.d) % 3 = q.d := by cases q <;> simp only [Coord.d] <;> omega
    rw [Motion.q, h1, h2, if_pos h, coordOf_d]
  have hi' : i < (v.cons c).bodyCount := by rw [a.count c hc]; exact hi
  have e1 := fun q => e x w q hi
  have e2 := fun q => e (x.via f) v q hi'
  have f1 := e1 .x
  have f2 := e1 .y
  have f3 := e1 .th
  have g1 := e2 .x
  have g2 := e2 .y
  have g3 := e2 .th
  simp only [Coord.d, add_zero] at f1 f2 f3 g1 g2 g3
  rw [f1, f2, f3, g1, g2, g3, a.bodyOf hc hi]
  exact ⟨rfl, rfl, rfl⟩

theorem load (x : Motion) {b : Nat} (hb : b ∈ w.rb) (q : Coord) :
    v.load (x.via f) b q = f.co (w.load x b) q := by
  have e : w.load x b = fun q => ∑ g ∈ w.fg.toFinset, (w.gens g).load (w.bodies b).m x b q := rfl
  rw [World.load, a.fg, a.m b hb, e, f.co_sum]
  refine sum_congr rfl fun g hg => ?_
  rw [List.mem_toFinset] at hg
  rw [a.gens g hg, load_via (a.drives g hg)]

variable (hp : w.Proper)
include hp

theorem J (x : Motion) {c : Nat} (hc : c ∈ w.cs) {j k : Nat} (hj : j < (w.cons c).rows)
    (hk : k < (w.cons c).bodyCount) (q : Coord) :
    (v.rowsOf (x.via f) c).J j (k * 3 + q.d) = ∑ i ∈ range (w.cons c).rows,
      f.mix (w.cons c).kind j i * f.co (fun q => (w.rowsOf x c).J i (k * 3 + q.d)) q := by
  simp only [World.rowsOf, a.kind c hc]
  exact View.jT_con (hp c hc) (a.fits c hc) (a.sees x hc) hj hk q

theorem C (x : Motion) {c : Nat} (hc : c ∈ w.cs) {j : Nat} (hj : j < (w.cons c).rows) :
    (v.rowsOf (x.via f) c).C j = ∑ i ∈ range (w.cons c).rows,
      f.mix (w.cons c).kind j i * (w.rowsOf x c).C i := by
  simp only [World.rowsOf, a.kind c hc]
  exact View.cT_con (hp c hc) (a.fits c hc) (a.sees x hc) hj

theorem vBias (x : Motion) {c : Nat} (hc : c ∈ w.cs) {j : Nat} (hj : j < (w.cons c).rows) :
    (v.rowsOf (x.via f) c).v_bias j = ∑ i ∈ range (w.cons c).rows,
      f.mix (w.cons c).kind j i * (w.rowsOf x c).v_bias i := by
  simp only [World.rowsOf, a.kind c hc]
  exact f.biasT_con (hp c hc) hj

theorem coef (x : Motion) {c : Nat} (hc : c ∈ w.cs) {j : Nat} (hj : j < (w.cons c).rows) (b : Nat)
    (q : Coord) : v.coef (v.rowsOf (x.via f)) c j b q = ∑ i ∈ range (w.cons c).rows,
      f.mix (w.cons c).kind j i * f.co (w.coef (w.rowsOf x) c i b) q := by
  have e : ∀ i, f.co (w.coef (w.rowsOf x) c i b) q = ∑ k ∈ range (w.cons c).bodyCount,
      if w.bodyOf c k = b then f.co (fun q => (w.rowsOf x c).J i (k * 3 + q.d)) q else 0 := fun i => by
    rw [show w.coef (w.rowsOf x) c i b = fun q => ∑ k ∈ range (w.cons c).bodyCount,
      if w.bodyOf c k = b then (w.rowsOf x c).J i (k * 3 + q.d) else 0 from rfl, f.co_sum]
    exact sum_congr rfl fun k _ => f.co_ite _ _ _
  rw [World.coef, a.count c hc]
  simp only [e, mul_sum]
  rw [sum_comm]
  refine sum_congr rfl fun k hk => ?_
  rw [a.bodyOf hc (mem_range.mp hk), a.J hp x hc hj (mem_range.mp hk)]
  by_cases h : w.bodyOf c k = b
  · simp only [if_pos h]
  · simp only [if_neg h, mul_zero, sum_const_zero]

/-- Forces along the rows, as the frame shows them. -/
theorem forceSum (x : Motion) (μ : Nat → Nat → ℝ) (b : Nat) (q : Coord) :
    ∑ c ∈ w.cs.toFinset, ∑ j ∈ range (w.cons c).rows, (∑ i ∈ range (w.cons c).rows,
        f.mix (w.cons c).kind j i * μ c i) * v.coef (v.rowsOf (x.via f)) c j b q =
      f.co (fun q => ∑ c ∈ w.cs.toFinset, ∑ j ∈ range (w.cons c).rows,
        μ c j * w.coef (w.rowsOf x) c j b q) q := by
  rw [f.co_sum]
  refine sum_congr rfl fun c hc => ?_
  rw [List.mem_toFinset] at hc
  rw [f.co_sum]
  simp only [f.co_mul]
  refine Eq.trans (sum_congr rfl fun j hj => ?_) (f.mix_cancel (hp c hc) _ _)
  rw [a.coef hp x hc (mem_range.mp hj)]

theorem conForce (x : Motion) (μ : Nat → Nat → ℝ) (b : Nat) (q : Coord) :
    v.conForce (v.reaction (x.via f) (fun c j => ∑ i ∈ range (w.cons c).rows,
        f.mix (w.cons c).kind j i * μ c i)) b q = f.co (w.conForce (w.reaction x μ) b) q := by
  have e : w.conForce (w.reaction x μ) b = fun q => ∑ c ∈ w.cs.toFinset,
      ∑ j ∈ range (w.cons c).rows, μ c j * w.coef (w.rowsOf x) c j b q :=
    funext fun q => conForce_coef x μ b q
  rw [e, ← a.forceSum hp x μ b q, conForce_coef, a.cs]
  refine sum_congr rfl fun c hc => ?_
  rw [List.mem_toFinset] at hc
  rw [a.rows c hc]

theorem indep {x : Motion} (hI : w.Indep (w.rowsOf x)) : v.Indep (v.rowsOf (x.via f)) := by
  intro z hz
  have key : ∀ c ∈ w.cs, ∀ i, i < (w.cons c).rows →
      ∑ j ∈ range (w.cons c).rows, f.mix (w.cons c).kind j i * z c j = 0 := by
    refine hI (fun c i => ∑ j ∈ range (w.cons c).rows, f.mix (w.cons c).kind j i * z c j) ?_
    intro c hc i hi
    have hr : ∀ b ∈ w.rb, ∀ q, v.response (v.rowsOf (x.via f)) z b q =
        f.co (w.response (w.rowsOf x) (fun c i => ∑ j ∈ range (w.cons c).rows,
          f.mix (w.cons c).kind j i * z c j) b) q := by
      intro b hb q
      have e1 : ∑ c ∈ v.cs.toFinset, ∑ j ∈ range (v.cons c).rows,
          z c j * v.coef (v.rowsOf (x.via f)) c j b q =
          f.co (fun q => ∑ c ∈ w.cs.toFinset, ∑ j ∈ range (w.cons c).rows,
            (∑ j' ∈ range (w.cons c).rows, f.mix (w.cons c).kind j' j * z c j') *
              w.coef (w.rowsOf x) c j b q) q := by
        rw [← a.forceSum hp x _ b q, a.cs]
        refine sum_congr rfl fun c hc => ?_
        rw [List.mem_toFinset] at hc
        rw [a.rows c hc]
        refine sum_congr rfl fun j hj => ?_
        rw [f.mix_back (hp c hc) (z c) (mem_range.mp hj)]
      rw [World.response, e1, a.mass hb]
      have e2 : w.response (w.rowsOf x) (fun c i => ∑ j ∈ range (w.cons c).rows,
          f.mix (w.cons c).kind j i * z c j) b = fun q => (∑ c ∈ w.cs.toFinset,
            ∑ j ∈ range (w.cons c).rows, (∑ j' ∈ range (w.cons c).rows,
              f.mix (w.cons c).kind j' j * z c j') * w.coef (w.rowsOf x) c j b q) /
                (w.bodies b).mass q := rfl
      rw [e2]
      cases q
      · simp only [View.co, Body.mass, rx]; ring
      · simp only [View.co, Body.mass, ry]; ring
      · rfl
    refine f.mix_zero (hp c hc) (fun i => ∑ b ∈ w.rb.toFinset, Coord.sum (fun q =>
      w.coef (w.rowsOf x) c i b q * w.response (w.rowsOf x) (fun c i =>
        ∑ j ∈ range (w.cons c).rows, f.mix (w.cons c).kind j i * z c j) b q)) (fun j hj => ?_) hi
    have h0 := hz c (a.memc.mpr hc) j (by rw [a.rows c hc]; exact hj)
    rw [← h0, a.rb]
    simp only [mul_sum]
    rw [sum_comm]
    refine sum_congr rfl fun b hb => ?_
    rw [List.mem_toFinset] at hb
    have e3 : ∀ q, v.coef (v.rowsOf (x.via f)) c j b q * v.response (v.rowsOf (x.via f)) z b q =
        ∑ i ∈ range (w.cons c).rows, f.mix (w.cons c).kind j i *
          (f.co (w.coef (w.rowsOf x) c i b) q * f.co (w.response (w.rowsOf x) (fun c i =>
            ∑ j ∈ range (w.cons c).rows, f.mix (w.cons c).kind j i * z c j) b) q) := fun q => by
      rw [a.coef hp x hc hj, hr b hb, sum_mul]
      exact sum_congr rfl fun i _ => by ring
    simp only [e3]
    rw [Coord.sum_sum]
    refine sum_congr rfl fun i _ => ?_
    rw [Coord.sum_mul, f.sum_co]
  intro c hc j hj
  rw [a.memc] at hc
  rw [a.rows c hc] at hj
  rw [← f.mix_back (hp c hc) (z c) hj]
  exact sum_eq_zero fun i hi => by rw [key c hc i (mem_range.mp hi), mul_zero]

theorem rowAt (x : Motion) {c : Nat} (hc : c ∈ w.cs) {j : Nat} (hj : j < (w.cons c).rows)
    (u : Nat → Coord → ℝ) : v.rowAt (v.rowsOf (x.via f) c) c j (fun b => f.vel (u b)) =
      ∑ i ∈ range (w.cons c).rows, f.mix (w.cons c).kind j i * w.rowAt (w.rowsOf x c) c i u := by
  have hcom : ∑ m ∈ range (w.cons c).bodyCount, ((v.rowsOf (x.via f) c).J j (m * 3) * f.ux +
      (v.rowsOf (x.via f) c).J j (m * 3 + 1) * f.uy) = 0 := by
    simp only [World.rowsOf, a.kind c hc]
    refine View.jT_common (k := f.con (w.cons c).kind) (by rw [View.counts_con]; exact hp c hc) ?_ _ hj
    have := a.fits c hc
    generalize (w.cons c).kind = k at this
    cases k <;> exact this
  have e1 : v.rowAt (v.rowsOf (x.via f) c) c j (fun b => f.vel (u b)) =
      ∑ k ∈ range (w.cons c).bodyCount, Coord.sum (fun q =>
        (v.rowsOf (x.via f) c).J j (k * 3 + q.d) * f.co (u (w.bodyOf c k)) q) := by
    rw [World.rowAt, a.count c hc, ← add_zero (∑ k ∈ range (w.cons c).bodyCount, Coord.sum (fun q =>
        (v.rowsOf (x.via f) c).J j (k * 3 + q.d) * f.co (u (w.bodyOf c k)) q)), ← hcom,
      ← sum_add_distrib]
    refine sum_congr rfl fun k hk => ?_
    rw [a.bodyOf hc (mem_range.mp hk)]
    simp only [Coord.sum, View.vel, View.co, Coord.d, add_zero]
    ring
  rw [e1]
  simp only [World.rowAt, mul_sum]
  rw [sum_comm]
  refine sum_congr rfl fun k hk => ?_
  have e3 : ∀ q, (v.rowsOf (x.via f) c).J j (k * 3 + q.d) * f.co (u (w.bodyOf c k)) q =
      ∑ i ∈ range (w.cons c).rows, f.mix (w.cons c).kind j i *
        (f.co (fun q => (w.rowsOf x c).J i (k * 3 + q.d)) q * f.co (u (w.bodyOf c k)) q) :=
    fun q => by
      rw [a.J hp x hc hj (mem_range.mp hk), sum_mul]
      exact sum_congr rfl fun i _ => by ring
  simp only [e3]
  rw [Coord.sum_sum]
  refine sum_congr rfl fun i _ => ?_
  rw [Coord.sum_mul, f.sum_co]

/-- A sub-step seen in the frame. -/
theorem move (hs : w.sle = some .ge) (hs' : v.sle = some .ge) {s : ℝ} {x x' : Motion}
    {μ : Nat → Nat → ℝ} (st : w.Move s x x' μ) : v.Move s (x.via f) (x'.via (f.after s))
      (fun c j => ∑ i ∈ range (w.cons c).rows, f.mix (w.cons c).kind j i * μ c i) where
  ne := st.ne
  acc := fun b hb q => by
    rw [a.memb] at hb
    rw [a.load x hb, a.conForce hp, a.mass hb]
    have ha : x'.acc b = fun q => (w.load x b q + w.conForce (w.reaction x μ) b q) /
        (w.bodies b).mass q := funext fun q => st.acc b hb q
    show (f.after s).co (x'.acc b) q = _
    rw [f.co_after, ha]
    cases q
    · simp only [View.co, Body.mass, rx]; ring
    · simp only [View.co, Body.mass, ry]; ring
    · rfl
  vel := fun b hb q => by
    rw [a.memb] at hb
    cases q
    · simp only [Motion.via, View.vel, View.co, View.after, rx, st.vel b hb]; ring
    · simp only [Motion.via, View.vel, View.co, View.after, ry, st.vel b hb]; ring
    · simp only [Motion.via, View.vel, View.co, st.vel b hb]
  pos := fun b hb q => by
    rw [a.memb] at hb
    cases q
    · simp only [Motion.via, View.pos, View.vel, View.after, rx, st.pos b hb]; ring
    · simp only [Motion.via, View.pos, View.vel, View.after, ry, st.pos b hb]; ring
    · simp only [Motion.via, View.pos, View.vel, View.after, st.pos b hb]; ring
  indep := fun _ => a.indep hp (st.indep hs)
  ge := fun _ c hc j hj => by
    rw [a.memc] at hc
    rw [a.rows c hc] at hj
    have e : (x'.via (f.after s)).vel = fun b => f.vel (x'.vel b) := rfl
    rw [e, a.rowAt hp x hc hj, a.vBias hp x hc hj, a.C hp x hc hj, a.bias, mul_sum, ← sum_add_distrib,
      ← sum_add_distrib]
    refine sum_eq_zero fun i hi => ?_
    linear_combination f.mix (w.cons c).kind j i * st.ge hs c hc i (mem_range.mp hi)
  cg := fun m e1 e2 h => by rw [hs'] at h; cases h
  gs := fun m e h => by rw [hs'] at h; cases h

end World.SeenFrom

end

end Scs
