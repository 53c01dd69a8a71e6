import Verif.SleInv
import Verif.PropsSparse

/-!
# Reachable states with given contents

Programs that fill matrices with any given data. Used to show that the hypotheses of the property
theorems are met by concrete systems.
-/

namespace Scs

section
variable {α : Type} [Zero α] [Add α] [Mul α] [Sub α] [Neg α] [Fp α] {st en : Nat}

/-- Programs without row swaps outside the solver and without `destroy` of sparse matrices. -/
def setupP : Restr := ⟨fun m => m ≠ .geA, fun _ => True⟩

theorem ReachableNS.solver {s : Store α} (h : ReachableNS st en setupP s) :
    SReach st en solverRestr s :=
  (h.mono (Q := solverRestr) (by
    rintro i (h | h | h) <;> simp [setupP, h]) (fun _ _ => trivial)).sreach

/-- A dense matrix is filled with any given elements. -/
theorem put_dense {s : Store α} (hs : ReachableNS st en setupP s) {t : MId} (ht : t ≠ .geA)
    (w h : Nat) (g : Nat → Nat → α) :
    ∃ s', ReachableNS st en setupP s' ∧ Only t s s' ∧ s'.Shows t w h g := by
  obtain ⟨s1, e1, w1⟩ := Store.init0_spec s t w h (hs.inv.mat t)
  have r1 : ReachableNS st en setupP s1 := .call (.init0 t w h) hs trivial trivial e1
  obtain ⟨s2, e2, o2, _, sh2, en2⟩ := Store.setData_spec s1 t
    ⟨w * h, fun i => g (i / w) (i % w)⟩ w1.wf (by rw [w1.width, w1.height])
  have r2 : ReachableNS st en setupP s2 := .call (.setData t _) r1 trivial trivial e2
  refine ⟨s2, r2, w1.only.trans o2, Store.shows_of (r2.inv.mat t) (sh2.width.trans w1.width)
    (sh2.height.trans w1.height) ?_⟩
  intro r c hr hc
  rw [en2 (r1.inv.plain t ht) r c (by rw [w1.height]; exact hr) (by rw [w1.width]; exact hc),
    w1.width]
  have hw : 0 < w := by omega
  simp only []
  rw [Nat.add_comm, Nat.add_mul_div_right _ _ hw, Nat.add_mul_mod_self_right, Nat.div_eq_of_lt hc,
    Nat.mod_eq_of_lt hc, Nat.zero_add]

theorem flat_inj {n r j q : Nat} (hj : j < n) (h : r * n + j = q) : r = q / n ∧ j = q % n := by
  have hn : 0 < n := by omega
  subst h
  rw [Nat.add_comm, Nat.add_mul_div_right _ _ hn, Nat.add_mul_mod_self_right, Nat.div_eq_of_lt hj,
    Nat.mod_eq_of_lt hj, Nat.zero_add]
  exact ⟨rfl, rfl⟩

/-- A sparse matrix is filled with any given blocks and entries. -/
theorem put_sparse (hst : 0 < st) {s : Store α} (hs : ReachableNS st en setupP s) (a : SId)
    (k n : Nat) (B : Nat → Nat → Nat) (V : Nat → Nat → α)
    (hB : ∀ r j, r < n → j < en → B r j = 255 ∨ (B r j < 255 ∧ B r j < k)) :
    ∃ s', ReachableNS st en setupP s' ∧ OnlyS a s s' ∧ (s'.smat a).width = k * st ∧
      (s'.smat a).height = n ∧ (∀ r j, r < n → j < en → (s'.smat a).blk en r j = B r j) ∧
      (∀ r c, r < n → c < en * st → (s'.smat a).ent r c = V r c) := by
  obtain ⟨s0, e0, o0, wf0, f0, w0, h0, b0⟩ := Store.sinit_spec st en s a (k * st) n (hs.inv.smat a)
    (hs.inv.fresh a trivial)
  have r0 : ReachableNS st en setupP s0 := .call (.sinit a _ _) hs trivial trivial e0
  have stage1 : ∀ m, m ≤ n * en → ∃ s', ReachableNS st en setupP s' ∧ OnlyS a s s' ∧
      (s'.smat a).width = k * st ∧ (s'.smat a).height = n ∧
      (∀ r j, r < n → j < en → (s'.smat a).blk en r j =
        if r * en + j < m then B r j else 255) := by
    intro m
    induction m with
    | zero => exact fun _ => ⟨s0, r0, o0, w0, h0, fun r j hr hj => by
        rw [b0 r j hr hj, if_neg (by omega)]⟩
    | succ m ih =>
      intro hm
      obtain ⟨s1, r1, o1, w1, h1, b1⟩ := ih (by omega)
      have hen : 0 < en := Nat.pos_of_ne_zero (by rintro rfl; omega)
      have hr : m / en < n := Nat.div_lt_of_lt_mul (by rw [Nat.mul_comm]; omega)
      have hj : m % en < en := Nat.mod_lt _ hen
      have hflat : ∀ r j, j < en → r * en + j = m → r = m / en ∧ j = m % en :=
        fun r j hj h => flat_inj hj h
      have hback : m / en * en + m % en = m := by rw [Nat.mul_comm]; exact Nat.div_add_mod m en
      rcases hB _ _ hr hj with h255 | ⟨hlt, hk⟩
      · refine ⟨s1, r1, o1, w1, h1, fun r j hr' hj' => ?_⟩
        rw [b1 r j hr' hj']
        by_cases hq : r * en + j = m
        · obtain ⟨q1, q2⟩ := hflat r j hj' hq
          rw [if_neg (by omega), if_pos (by omega), q1, q2, h255]
        · by_cases hlt : r * en + j < m
          · rw [if_pos hlt, if_pos (by omega)]
          · rw [if_neg hlt, if_neg (by omega)]
      · have hmod : ((B (m / en) (m % en) : Int) % 256).toNat = B (m / en) (m % en) := by omega
        have hwid : B (m / en) (m % en) < k * st :=
          lt_of_lt_of_le hk (Nat.le_mul_of_pos_right k hst)
        obtain ⟨s2, e2, o2, _, sh2, _, b2⟩ := Store.setBlock_spec st en s1 a (r1.inv.smat a)
          (row := m / en) (entry := m % en) (index := (B (m / en) (m % en) : Int))
          (by rw [h1]; exact hr) hj (by rw [hmod, w1]; exact hwid)
        refine ⟨s2, .call (.setBlock a _ _ _) r1 trivial trivial e2, o1.trans o2,
          sh2.width.trans w1, sh2.height.trans h1, fun r j hr' hj' => ?_⟩
        rw [b2 r j (by rw [h1]; exact hr') hj', b1 r j hr' hj', hmod]
        by_cases hq : r * en + j = m
        · obtain ⟨q1, q2⟩ := hflat r j hj' hq
          rw [if_pos ⟨q1, q2⟩, if_pos (by omega), q1, q2]
        · rw [if_neg (by rintro ⟨rfl, rfl⟩; exact hq hback)]
          by_cases hlt : r * en + j < m
          · rw [if_pos hlt, if_pos (by omega)]
          · rw [if_neg hlt, if_neg (by omega)]
  obtain ⟨s1, r1, o1, w1, h1, b1⟩ := stage1 (n * en) (Nat.le_refl _)
  have b1' : ∀ r j, r < n → j < en → (s1.smat a).blk en r j = B r j := by
    intro r j hr hj
    rw [b1 r j hr hj, if_pos]
    calc r * en + j < r * en + en := by omega
      _ = (r + 1) * en := by rw [Nat.add_mul, Nat.one_mul]
      _ ≤ n * en := Nat.mul_le_mul_right en hr
  have stage2 : ∀ m, m ≤ n * (en * st) → ∃ s', ReachableNS st en setupP s' ∧ OnlyS a s s' ∧
      (s'.smat a).width = k * st ∧ (s'.smat a).height = n ∧
      (∀ r j, r < n → j < en → (s'.smat a).blk en r j = B r j) ∧
      (∀ r c, r < n → c < en * st → r * (en * st) + c < m → (s'.smat a).ent r c = V r c) := by
    intro m
    induction m with
    | zero => exact fun _ => ⟨s1, r1, o1, w1, h1, b1', fun r c _ _ h => by omega⟩
    | succ m ih =>
      intro hm
      obtain ⟨s2, r2, o2, w2, h2, b2, v2⟩ := ih (by omega)
      have hpos : 0 < en * st := Nat.pos_of_ne_zero (by intro h; rw [h] at hm; omega)
      have hr : m / (en * st) < n := Nat.div_lt_of_lt_mul (by rw [Nat.mul_comm]; omega)
      have hc : m % (en * st) < en * st := Nat.mod_lt _ hpos
      have hj : m % (en * st) / st < en := Nat.div_lt_of_lt_mul (lt_of_lt_of_eq hc (Nat.mul_comm en st))
      have hk : m % (en * st) % st < st := Nat.mod_lt _ hst
      have hcc : m % (en * st) / st * st + m % (en * st) % st = m % (en * st) := by
        rw [Nat.mul_comm]; exact Nat.div_add_mod _ st
      have hback : m / (en * st) * (en * st) + m % (en * st) = m := by
        rw [Nat.mul_comm]; exact Nat.div_add_mod m _
      obtain ⟨s3, e3, o3, _, sh3, bl3, v3⟩ := Store.sset_spec st en s2 a (r2.inv.smat a)
        (row := m / (en * st)) (entry := m % (en * st) / st) (slice := m % (en * st) % st)
        (by rw [h2]; exact hr) hj hk (V (m / (en * st)) (m % (en * st)))
      refine ⟨s3, .call (.sset a _ _ _ _) r2 trivial trivial e3, o2.trans o3, sh3.width.trans w2,
        sh3.height.trans h2, fun r j hr' hj' => ?_, fun r c hr' hc' hlt => ?_⟩
      · rw [SMat.blk_congr bl3 r j, b2 r j hr' hj']
      · rw [v3 r c (by rw [h2]; exact hr') hc', hcc]
        by_cases hq : r * (en * st) + c = m
        · obtain ⟨q1, q2⟩ := flat_inj hc' hq
          rw [if_pos ⟨q1, q2⟩, q1, q2]
        · rw [if_neg (by rintro ⟨rfl, rfl⟩; exact hq hback), v2 r c hr' hc' (by omega)]
  obtain ⟨s2, r2, o2, w2, h2, b2, v2⟩ := stage2 (n * (en * st)) (Nat.le_refl _)
  refine ⟨s2, r2, o2, w2, h2, b2, fun r c hr hc => v2 r c hr hc ?_⟩
  calc r * (en * st) + c < r * (en * st) + en * st := by omega
    _ = (r + 1) * (en * st) := by rw [Nat.add_mul, Nat.one_mul]
    _ ≤ n * (en * st) := Nat.mul_le_mul_right _ hr

end

end Scs
