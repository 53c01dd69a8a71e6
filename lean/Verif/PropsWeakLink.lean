import Verif.PropsTorqueBudget

/-!
# C125: links that give way
-/

namespace Scs

open Finset

/-- The constraint is a link, or one of the constraints that only turn bodies. -/
def CKind.Yields (K : CKind ℝ) : Prop := K.torqueLimits ≠ none ∨ ∃ l, K = .link l

/-- The largest force along an axis that such a constraint exerts on the centre of a body. -/
def CKind.grip : CKind ℝ → ℝ
  | .link l => l.maxForce
  | _ => 0

section
variable {G : Gen ℝ → Prop} {h : List (Op ℝ)} {w w' : World ℝ} {env : Env ℝ} {dt : ℝ} {steps : Int}

theorem CKind.torqueLimits.grip {K : CKind ℝ} (hK : K.torqueLimits ≠ none) : K.grip = 0 := by
  cases K <;> first | rfl | exact absurd rfl hK

/-- The force of one constraint on the centre of a body. -/
theorem grip_force (hG : ∀ g, G g → g.OnlyForces) (hw : World.Hist G .opt h w)
    (hst : w.Standard h) (hs : w.Sensible h) {m : Nat} {d : ℝ} (hsle : w.sle = some (.gs m d))
    {s : ℝ} (hspos : 0 < s) {x x' : Motion} {mult : Nat → Nat → ℝ} (st : w.Move s x x' mult) {b c : Nat}
    (hc : c ∈ regCons h) (hY : (w.cons c).kind.Yields) {q : Coord} (hq : q ≠ .th) :
    |∑ j ∈ range (w.cons c).rows, ∑ k ∈ range (w.cons c).bodyCount,
      if w.bodyOf c k = b then w.reaction x mult c q j k else 0| ≤ (w.cons c).kind.grip := by
  have p := (hw.ready hG hst.wired).2
  have hc' := (hw.regs.cons.mem c).mpr hc
  obtain ⟨s1, s2⟩ := slip_bodies hst hs hw p hc
  have cn := hst.proper hw.regs c hc'
  rcases hY with hK | ⟨l, hl⟩
  · rw [CKind.torqueLimits.grip hK]
    obtain ⟨⟨lo, hi⟩, hK⟩ := Option.ne_none_iff_exists'.mp hK
    obtain ⟨-, -, n, hn, hcn⟩ := CKind.torqueLimits.rows hK
    rw [hcn] at cn
    simp only [Option.some.injEq, Prod.mk.injEq] at cn
    rw [← cn.1, sum_range_one]
    refine sum_pick s1 s2 le_rfl fun k hk => ?_
    obtain ⟨e1, e2, -⟩ := CKind.torqueLimits.entries hK x (k := k) (by omega) (fun h1 => by
      rw [hcn] at h1
      simp only [Option.some.injEq, Prod.mk.injEq] at h1
      omega)
    simp only [World.reaction]
    cases q with
    | x => show |_ * (w.rowsOf x c).J 0 (k * 3 + 0)| ≤ 0; rw [add_zero, e1, mul_zero, abs_zero]
    | y => show |_ * (w.rowsOf x c).J 0 (k * 3 + 1)| ≤ 0; rw [e2, mul_zero, abs_zero]
    | th => exact absurd rfl hq
  · have hg : (w.cons c).kind.grip = l.maxForce := by rw [hl]; rfl
    rw [hg]
    simp only [hl, CKind.counts, Option.some.injEq, Prod.mk.injEq] at cn
    have hlim : ∀ j, j < 2 → |mult c j| ≤ l.maxForce := fun j hj => by
      have := st.gs m d hsle hspos c hc' j (by omega) (hs.ordered c hc).le
      rw [hl] at this
      exact abs_le.mpr this
    have hF : 0 ≤ l.maxForce := (abs_nonneg _).trans (hlim 0 (by omega))
    have jj : ∀ j i, (w.rowsOf x c).J j i = (CKind.link l).jT (x.q w c) j i := fun j i => by
      rw [← hl]; rfl
    rw [← cn.1, sum_range_succ, sum_range_one]
    have row : ∀ j, j < 2 → ∀ B, 0 ≤ B → (∀ k, k < 2 →
        |mult c j * (CKind.link l).jT (x.q w c) j (k * 3 + q.d)| ≤ B) →
        |∑ k ∈ range (w.cons c).bodyCount,
          if w.bodyOf c k = b then w.reaction x mult c q j k else 0| ≤ B := by
      intro j hj B hB hk
      refine sum_pick s1 s2 hB fun k hk' => ?_
      simp only [World.reaction, jj]
      exact hk k (by omega)
    have lim : ∀ j, j < 2 → ∀ a : ℝ, |a| = 1 → |mult c j * a| ≤ l.maxForce := fun j hj a ha => by
      rw [abs_mul, ha, mul_one]; exact hlim j hj
    refine (abs_add_le _ _).trans ?_
    cases q with
    | x =>
      have r0 := row 0 (by omega) _ hF (fun k hk => match k, hk with
        | 0, _ => lim 0 (by omega) 1 abs_one
        | 1, _ => lim 0 (by omega) (-1) ((abs_neg _).trans abs_one))
      have r1 := row 1 (by omega) 0 le_rfl (fun k hk => match k, hk with
        | 0, _ => by show |mult c 1 * 0| ≤ 0; rw [mul_zero, abs_zero]
        | 1, _ => by show |mult c 1 * 0| ≤ 0; rw [mul_zero, abs_zero])
      linarith
    | y =>
      have r0 := row 0 (by omega) 0 le_rfl (fun k hk => match k, hk with
        | 0, _ => by show |mult c 0 * 0| ≤ 0; rw [mul_zero, abs_zero]
        | 1, _ => by show |mult c 0 * 0| ≤ 0; rw [mul_zero, abs_zero])
      have r1 := row 1 (by omega) _ hF (fun k hk => match k, hk with
        | 0, _ => lim 1 (by omega) 1 abs_one
        | 1, _ => lim 1 (by omega) (-1) ((abs_neg _).trans abs_one))
      linarith
    | th => exact absurd rfl hq

/-- **C125**: if only links and constraints that turn are attached to a body, the velocity of its centre
along an axis follows the other forces up to the total force limit of the links; in particular a body
whose weight exceeds what its links can carry falls. -/
theorem C125_links_give_way (hG : ∀ g, G g → g.OnlyForces) (hw : World.Hist G .opt h w)
    (hst : w.Standard h) (hs : w.Sensible h) {m : Nat} {d : ℝ} (hsle : w.sle = some (.gs m d))
    (hdt : 0 < dt) (hn : 0 < steps) (e : w.process .opt env dt steps = .ok w') {b : Nat}
    (hb : b ∈ regBodies h) (hY : ∀ c ∈ w.attached h b, (w.cons c).kind.Yields) {q : Coord}
    (hq : q = .x ∨ q = .y) {f g : ℝ} (hL : ∀ x, f ≤ w.load x b q ∧ w.load x b q ≤ g) :
    (w.bodies b).vel q + dt * (f - ∑ c ∈ w.attached h b, (w.cons c).kind.grip) / (w.bodies b).m ≤
        (w'.bodies b).vel q ∧
      (w'.bodies b).vel q ≤
        (w.bodies b).vel q + dt * (g + ∑ c ∈ w.attached h b, (w.cons c).kind.grip) / (w.bodies b).m := by
  obtain ⟨X, mult, h0, hm, -⟩ := hw.gs_moved hG hst hsle hdt e
  have p := (hw.ready hG hst.wired).2
  have hb' := (hw.regs.bodies.mem b).mpr hb
  have hq' : q ≠ .th := by rcases hq with rfl | rfl <;> exact nofun
  have hM : 0 < (w.bodies b).m := (hs.mass b hb).1
  have eM : (w.bodies b).mass q = (w.bodies b).m := by rcases hq with rfl | rfl <;> rfl
  have ht := sub_time (dt := dt) hn
  set s := dt / (steps : ℝ) with hsd
  have hspos : 0 < s := div_pos hdt (by exact_mod_cast hn)
  set R := ∑ c ∈ w.attached h b, (w.cons c).kind.grip with hR
  have total : ∀ n, n < steps.toNat → |w.conForce (w.reaction (X n) (mult n)) b q| ≤ R := by
    intro n hn'
    have st := hm.step n hn'
    rw [World.conForce, hw.regs.cs_finset]
    have one : ∀ c ∈ regCons h, |∑ j ∈ range (w.cons c).rows, ∑ k ∈ range (w.cons c).bodyCount,
        if w.bodyOf c k = b then w.reaction (X n) (mult n) c q j k else 0| ≤
        if c ∈ w.attached h b then (w.cons c).kind.grip else 0 := by
      intro c hc
      have hc' := (hw.regs.cons.mem c).mpr hc
      by_cases ha : c ∈ w.attached h b
      · rw [if_pos ha]
        exact grip_force hG hw hst hs hsle hspos st hc (hY c ha) hq'
      · rw [if_neg ha]
        refine le_of_eq (abs_eq_zero.mpr (sum_eq_zero fun j _ => sum_eq_zero fun k hk =>
          if_neg fun e => ha ?_))
        rw [World.attached, mem_filter]
        exact ⟨hc, k, mem_range.mp hk, by rw [← e]; exact (p.bodies c hc' k (mem_range.mp hk)).1⟩
    refine (abs_sum_le_sum_abs _ _).trans ((sum_le_sum one).trans (le_of_eq ?_))
    rw [← sum_filter]
    congr 1
    ext c
    rw [mem_filter]
    exact ⟨fun h => h.2, fun h => ⟨(mem_filter.mp h).1, h⟩⟩
  have step : ∀ n, n ≤ steps.toNat →
      (w.bodies b).vel q + n * s * (f - R) / (w.bodies b).m ≤ (X n).vel b q ∧
      (X n).vel b q ≤ (w.bodies b).vel q + n * s * (g + R) / (w.bodies b).m := by
    intro n
    induction n with
    | zero => intro _; rw [h0]; show _ ≤ (w.bodies b).vel q ∧ (w.bodies b).vel q ≤ _; simp
    | succ n ih =>
      intro hn'
      have st := hm.step n (by omega)
      have t := abs_le.mp (total n (by omega))
      obtain ⟨i1, i2⟩ := ih (by omega)
      obtain ⟨l1, l2⟩ := hL (X n)
      rw [st.vel b hb' q, st.acc b hb' q, eM]
      set A := w.load (X n) b q + w.conForce (w.reaction (X n) (mult n)) b q with hA
      have a1 : s * ((f - R) / (w.bodies b).m) ≤ s * (A / (w.bodies b).m) := by
        refine mul_le_mul_of_nonneg_left (div_le_div_of_nonneg_right ?_ hM.le) hspos.le
        linarith
      have a2 : s * (A / (w.bodies b).m) ≤ s * ((g + R) / (w.bodies b).m) := by
        refine mul_le_mul_of_nonneg_left (div_le_div_of_nonneg_right ?_ hM.le) hspos.le
        linarith
      have e1 : ((n + 1 : Nat) : ℝ) * s * (f - R) / (w.bodies b).m =
          n * s * (f - R) / (w.bodies b).m + s * ((f - R) / (w.bodies b).m) := by push_cast; ring
      have e2 : ((n + 1 : Nat) : ℝ) * s * (g + R) / (w.bodies b).m =
          n * s * (g + R) / (w.bodies b).m + s * ((g + R) / (w.bodies b).m) := by push_cast; ring
      rw [e1, e2]
      exact ⟨by linarith, by linarith⟩
  have := step _ le_rfl
  rw [ht] at this
  have l : (X steps.toNat).vel b q = (w'.bodies b).vel q := (hm.last b hb' q).2
  rwa [l] at this

/-- The claim applied to a body with the weight 9 on a link that carries at most 3: it rises with the speed
4 and falls with at least the speed 2 a second later. -/
example (env : Env ℝ) : ∃ (h : List (Op ℝ)) (w w' : World ℝ), World.Hist Gen.Shipped .opt h w ∧
    (w.bodies 1).v_y = 4 ∧ w.process .opt env 1 100 = .ok w' ∧ (w'.bodies 1).v_y ≤ -2 := by
  obtain ⟨h, w, w', m, d, hst, hs, e⟩ := demo_gsOf (.link ⟨0, 0, 0, 0, 3, 0, 0⟩) nofun
    (g := .gravity 9) trivial (cs := [0]) (fg := [0]) (by decide) (by decide) trivial
    (by show (0 : ℝ) ≤ 3; norm_num) trivial (e := 1 / 10) (by norm_num)
    (dt := 1) (by norm_num) env 100
  have v1 : (w.bodies 1).v_y = 4 := d.vel 1 .y
  have q := (C125_links_give_way (b := 1) (q := .y) (f := -9) (g := -9) (fun g => Gen.tame) d.hist hst
    hs d.sle (by norm_num) (by norm_num) e (by rw [d.regB]; simp)
    (fun c _ => .inr ⟨_, d.kind c⟩) (.inr rfl) (fun x => by
      have : w.load x 1 .y = -9 := by
        rw [World.load, d.fg_eq]
        show ∑ g ∈ ([0] : List Nat).toFinset, _ = _
        rw [List.toFinset_cons, List.toFinset_nil, insert_empty_eq, sum_singleton, d.gens, d.m]
        simp only [Gen.load]
        rw [if_pos trivial]
        norm_num
      rw [this]
      exact ⟨le_rfl, le_rfl⟩)).2
  have hc : (w.attached h 1).card ≤ 1 := by
    rw [card_le_one_iff]
    exact fun ha hb => (demo_attached d ha).trans (demo_attached d hb).symm
  have hc' : ((w.attached h 1).card : ℝ) ≤ 1 := by exact_mod_cast hc
  have sm : ∑ c ∈ w.attached h 1, (w.cons c).kind.grip ≤ 3 := by
    rw [sum_congr rfl (fun c _ => by rw [d.kind c]), sum_const, nsmul_eq_mul]
    show _ * (3 : ℝ) ≤ 3
    linarith
  have e1 : (w'.bodies 1).v_y ≤ 4 + 1 * (-9 + ∑ c ∈ w.attached h 1, (w.cons c).kind.grip) / 1 := by
    have := q
    rw [d.m 1] at this
    rw [← v1]
    exact this
  refine ⟨h, w, w', d.hist, v1, e, ?_⟩
  rw [one_mul, div_one] at e1
  linarith

end

end Scs
