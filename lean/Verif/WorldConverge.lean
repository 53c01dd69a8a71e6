import Verif.WorldField

/-!
# Sub-steps near an exact motion

The steps of the generic system with Gaussian elimination in a neighbourhood of a motion that satisfies
the equations of motion.
-/

namespace Scs

open Finset Filter Topology

section
variable {w : World ℝ}

theorem pack_same (x : Motion) :
    w.SameAs { x with acc := fun _ _ => 0 } (w.motionOf (w.pack x)) :=
  ⟨fun b hb q => by rw [motionOf_pos _ hb]; rfl, fun b hb q => by rw [motionOf_vel _ hb]; rfl,
    fun _ _ _ => rfl⟩

theorem Gen.Regular.congr {g : Gen ℝ} (hg : g.Within (· ∈ w.rb)) {x y : Motion}
    (hp : ∀ b ∈ w.rb, ∀ q : Coord, x.pos b q = y.pos b q) (h : g.Regular x) : g.Regular y := by
  cases g with
  | spring s =>
    intro b1 b2 e1 e2
    have m : b1 ∈ w.rb ∧ b2 ∈ w.rb := by
      rcases hg with hn | ⟨⟨c1, m1, f1⟩, hn | ⟨c2, m2, f2⟩⟩
      · rw [hn] at e1; cases e1
      · rw [hn] at e2; cases e2
      · rw [f1] at e1
        rw [f2] at e2
        cases e1
        cases e2
        exact ⟨m1, m2⟩
    have := h b1 b2 e1 e2
    simp only [Motion.point, hp b1 m.1, hp b2 m.2] at this
    exact this
  | motor m => exact h
  | _ => trivial

/-- The constraint matrix is not singular and the force generators are regular. -/
def World.Fair (w : World ℝ) (x : Motion) : Prop :=
  w.Indep (w.rowsOf x) ∧ ∀ g ∈ w.fg, (w.gens g).Regular x

theorem fair_pack (p : w.Placed) (hg : w.Driven) {x : Motion} :
    w.Fair (w.motionOf (w.pack x)) ↔ w.Fair x := by
  have s := pack_same (w := w) x
  constructor
  · rintro ⟨h1, h2⟩
    exact ⟨(sameRows_congr p s.symm).indep h1, fun g h => (h2 g h).congr (hg.2 g h)
      fun b hb q => (s.pos b hb q).symm⟩
  · rintro ⟨h1, h2⟩
    exact ⟨(sameRows_congr p s).indep h1, fun g h => (h2 g h).congr (hg.2 g h)
      fun b hb q => s.pos b hb q⟩

/-- The accelerations of an evaluation are the field. -/
theorem accel_field (p : w.Placed) (hg : w.Driven) (hs : w.sle = some .ge) {x : Motion}
    (hf : w.Fair (w.motionOf (w.pack x))) {a : Nat → Coord → ℝ} {mult : Nat → Nat → ℝ}
    (st : w.Accel x a mult) (i : w.rb.toFinset × Coord) : a i.1 i.2 = w.field (w.pack x) i := by
  let a' : Nat → Coord → ℝ := fun b q => if hb : b ∈ w.rb.toFinset then
    w.field (w.pack x) (⟨b, hb⟩, q) else 0
  have ha' : ∀ i : w.rb.toFinset × Coord, a' i.1 i.2 = w.field (w.pack x) i := fun i =>
    dif_pos i.1.2
  have s := pack_same (w := w) x
  have := (field_accel p hs hf.1 ha').like p hg hf.2 (fun b hb q => (s.pos b hb q).symm)
    (fun b hb q => (s.vel b hb q).symm) (y := x)
  rw [← ha' i]
  exact (st.unique p hs this).2 i.1 (List.mem_toFinset.mp i.1.2) i.2

/-- Accelerations of all registered bodies. -/
def World.packA (w : World ℝ) (a : Nat → Coord → ℝ) : w.Pt := fun i => a i.1 i.2

theorem pack_ahead (x : Motion) (h : ℝ) (a : Nat → Coord → ℝ) :
    w.pack (x.ahead h a) = ahead (w.pack x) h (w.packA a) := rfl

theorem accel_packA (p : w.Placed) (hg : w.Driven) (hs : w.sle = some .ge) {x : Motion}
    (hf : w.Fair (w.motionOf (w.pack x))) {a : Nat → Coord → ℝ} {mult : Nat → Nat → ℝ}
    (st : w.Accel x a mult) : w.packA a = w.field (w.pack x) :=
  funext fun i => accel_field p hg hs hf st i

variable {Y : ℝ → w.Pt × w.Pt} {T r K B : ℝ}

/-- A sub-step near the exact motion. -/
theorem Tube.ode (p : w.Placed) (hg : w.Driven) (hs : w.sle = some .ge)
    (u : Tube w.field (fun y => w.Fair (w.motionOf y)) Y T r K B)
    (hY : ∀ t ∈ Set.Icc 0 T, HasDerivWithinAt Y (flow w.field (Y t)) (Set.Icc 0 T) t) {t h : ℝ}
    (h0 : 0 ≤ h) (h1 : h ≤ 1) (hr : B * h < r) (ht : t ∈ Set.Icc 0 T) (ht' : t + h ∈ Set.Icc 0 T)
    {x x' : Motion} (hx : ‖w.pack x - Y t‖ + h * (2 * B + r + K * r) < r) {o : Ode ℝ}
    (st : w.OdeStep o h x x') :
    ‖w.pack x' - Y (t + h)‖ ≤ (1 + (K + 1) * h) * ‖w.pack x - Y t‖ +
      (K * (2 * B + r + K * r) + (B + K * r) + (K + 1) * B) * h ^ 2 := by
  have hB := u.B0
  have hr0 := u.pos
  have hK := u.K0
  have c0 : 0 ≤ 2 * B + r + K * r := by positivity
  have hx' : ‖w.pack x - Y t‖ < r := by nlinarith [mul_nonneg h0 c0]
  have hk := mul_nonneg hK c0
  have hf := u.good t ht _ hx'
  cases o with
  | base d => exact st.elim
  | euler d =>
    obtain ⟨mult, st⟩ := st
    refine u.step hY h0 hr ht ht' ?_
    have e := accel_packA p hg hs hf st.acc
    have e' : w.pack x' = ((w.pack x).1 + h • (w.pack x).2,
        (w.pack x).2 + h • w.field (w.pack x)) := by
      rw [← e]
      refine Prod.ext (funext fun i => ?_) (funext fun i => ?_)
      · exact st.pos i.1 (List.mem_toFinset.mp i.1.2) i.2
      · exact st.vel i.1 (List.mem_toFinset.mp i.1.2) i.2
    rw [e']
    exact u.euler (by positivity) h0 ht hx'
  | nsv d =>
    obtain ⟨mult, st⟩ := st
    refine u.step hY h0 hr ht ht' ?_
    have e := accel_packA p hg hs hf st.acc
    have e' : w.pack x' = ahead (w.pack x) h (w.field (w.pack x)) := by
      rw [← e]
      refine Prod.ext (funext fun i => ?_) (funext fun i => ?_)
      · have hv := st.vel i.1 (List.mem_toFinset.mp i.1.2) i.2
        have := st.pos i.1 (List.mem_toFinset.mp i.1.2) i.2
        rw [if_pos rfl, hv] at this
        exact this
      · exact st.vel i.1 (List.mem_toFinset.mp i.1.2) i.2
    rw [e']
    exact u.nsv (by linarith) h0 ht hx'
  | rk4 k =>
    obtain ⟨a, mult, st⟩ := st
    refine u.step hY h0 hr ht ht' ?_
    have e1 := accel_packA p hg hs hf st.acc1
    have n1 : ‖w.packA (a 1)‖ ≤ B + K * r := by rw [e1]; exact u.acc_le ht hx'
    obtain ⟨g2, -, n2⟩ := u.stage (k := h / 2) (by linarith) (by linarith) h1 ht hx n1
    have e2 := accel_packA p hg hs (by rw [pack_ahead]; exact u.good t ht _ g2) st.acc2
    rw [pack_ahead] at e2
    rw [← e2] at n2
    obtain ⟨g3, -, n3⟩ := u.stage (k := h / 2) (by linarith) (by linarith) h1 ht hx n2
    have e3 := accel_packA p hg hs (by rw [pack_ahead]; exact u.good t ht _ g3) st.acc3
    rw [pack_ahead] at e3
    rw [← e3] at n3
    obtain ⟨g4, -, n4⟩ := u.stage (k := h) h0 le_rfl h1 ht hx n3
    have e4 := accel_packA p hg hs (by rw [pack_ahead]; exact u.good t ht _ g4) st.acc4
    rw [pack_ahead] at e4
    have e' : w.pack x' = ((w.pack x).1 + h • (w.pack x).2 + (h ^ 2 / 6) •
        (w.packA (a 1) + w.packA (a 2) + w.packA (a 3)),
        (w.pack x).2 + (h / 6) • (w.packA (a 1) + (2 : ℝ) • w.packA (a 2) +
          (2 : ℝ) • w.packA (a 3) + w.packA (a 4))) := by
      refine Prod.ext (funext fun i => ?_) (funext fun i => ?_)
      · refine (st.pos i.1 (List.mem_toFinset.mp i.1.2) i.2).trans ?_
        simp only [Pi.add_apply, Pi.smul_apply, smul_eq_mul, World.pack, World.packA]
        ring
      · exact st.vel i.1 (List.mem_toFinset.mp i.1.2) i.2
    rw [e']
    exact u.rk4 le_rfl h0 h1 ht e1 e2 e3 e4 hx

/-- The evaluations of a sub-step near the exact motion can be solved. -/
theorem Tube.solvable (p : w.Placed) (hg : w.Driven) (hs : w.sle = some .ge)
    (u : Tube w.field (fun y => w.Fair (w.motionOf y)) Y T r K B) {t h : ℝ}
    (h0 : 0 ≤ h) (h1 : h ≤ 1) (ht : t ∈ Set.Icc 0 T)
    {x : Motion} (hx : ‖w.pack x - Y t‖ + h * (2 * B + r + K * r) < r) :
    w.Solvable x ∧ w.RkSolvable h x := by
  have hB := u.B0
  have hr0 := u.pos
  have hK := u.K0
  have c0 : 0 ≤ 2 * B + r + K * r := by positivity
  have hx' : ‖w.pack x - Y t‖ < r := by nlinarith [mul_nonneg h0 c0]
  have sol : ∀ {x : Motion}, w.Fair (w.motionOf (w.pack x)) → w.Solvable x := fun hf => by
    have := ((fair_pack p hg).mp hf).1
    simpa only [World.Solvable, hs] using this
  have hf := u.good t ht _ hx'
  refine ⟨sol hf, sol hf, fun a1 m1 s1 => ?_⟩
  have e1 := accel_packA p hg hs hf s1
  have n1 : ‖w.packA a1‖ ≤ B + K * r := by rw [e1]; exact u.acc_le ht hx'
  obtain ⟨g2, -, n2⟩ := u.stage (k := h / 2) (by linarith) (by linarith) h1 ht hx n1
  have f2 := u.good t ht _ g2
  refine ⟨sol (by rw [pack_ahead]; exact f2), fun a2 m2 s2 => ?_⟩
  have e2 := accel_packA p hg hs (by rw [pack_ahead]; exact f2) s2
  rw [pack_ahead] at e2
  rw [← e2] at n2
  obtain ⟨g3, -, n3⟩ := u.stage (k := h / 2) (by linarith) (by linarith) h1 ht hx n2
  have f3 := u.good t ht _ g3
  refine ⟨sol (by rw [pack_ahead]; exact f3), fun a3 m3 s3 => ?_⟩
  have e3 := accel_packA p hg hs (by rw [pack_ahead]; exact f3) s3
  rw [pack_ahead] at e3
  rw [← e3] at n3
  obtain ⟨g4, -, n4⟩ := u.stage (k := h) h0 le_rfl h1 ht hx n3
  exact sol (by rw [pack_ahead]; exact u.good t ht _ g4)

end

end Scs
