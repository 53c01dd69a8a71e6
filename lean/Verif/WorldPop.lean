import Verif.WorldState

/-!
# Populating the state and the mass matrices
-/

namespace Scs

/-- Registered body `i`. -/
def World.rbAt {α : Type} (w : World α) (i : Nat) : Nat := w.rb.getD i 0

theorem vecAt_rb {α : Type} (w : World α) {i : Nat} (hi : i < w.bodyCount) :
    vecAt w.rb (i : Int) = .ok (w.rbAt i) := by
  have h : i < w.rb.length := hi
  rw [vecAt_ok h, World.rbAt, List.getD_eq_getElem _ _ h]

theorem rbAt_mem {α : Type} (w : World α) {i : Nat} (hi : i < w.bodyCount) : w.rbAt i ∈ w.rb := by
  have h : i < w.rb.length := hi
  rw [World.rbAt, List.getD_eq_getElem _ _ h]
  exact List.getElem_mem h

/-- Position of a body. -/
def Body.pos {α : Type} (b : Body α) : Coord → α
  | .x => b.p_x
  | .y => b.p_y
  | .th => b.theta

/-- Velocity of a body. -/
def Body.vel {α : Type} (b : Body α) : Coord → α
  | .x => b.v_x
  | .y => b.v_y
  | .th => b.v_theta

/-- Mass or moment of inertia of a body. -/
def Body.mass {α : Type} (b : Body α) : Coord → α
  | .x => b.m
  | .y => b.m
  | .th => b.I

/-- The entries of the state of a body after `populateSystemState`. -/
def popVals {α : Type} [Fp α] (b : Body α) (old : Fld → α) : Fld → α
  | .a_x => Fp.lit 0
  | .a_y => Fp.lit 0
  | .a_theta => Fp.lit 0
  | .v_x => b.v_x
  | .v_y => b.v_y
  | .v_theta => b.v_theta
  | .p_x => b.p_x
  | .p_y => b.p_y
  | .theta => b.theta
  | .m => b.m
  | f => old f

section
variable {α : Type} [Zero α] [Add α] [Mul α] [Sub α] [Neg α] [Fp α]

open SysState

theorem popBody_spec {w : World α} {i : Nat} (hi : i < w.bodyCount) {s : SysState α} (ok : s.Ok)
    (hn : i < s.n) : ∃ s2, w.popBody i s = .ok s2 ∧
      BodyTo s s2 (· = i) (fun i => popVals (w.bodies (w.rbAt i))) := by
  refine ⟨_, by
    rw [World.popBody, vecAt_rb w hi, ok_bind]
    simp (maxDischargeDepth := 30) [SysState.Ok.wr, SysState.Ok.put, ok, hn, ok_bind]
    rfl, rfl, ?_, ?_⟩
  · exact ((((((((((ok.put _ _ _).put _ _ _).put _ _ _).put _ _ _).put _ _ _).put _ _ _).put _ _ _
      ).put _ _ _).put _ _ _).put _ _ _).wf
  · intro f j
    simp (maxDischargeDepth := 30) only [SysState.Ok.val_put, SysState.Ok.put, ok]
    by_cases h : j = i
    · subst h
      cases f <;> simp [popVals]
    · simp [h]

theorem imSet_spec {s : SysState α} (ok : s.Ok) {i : Nat} (hi : i < s.nc) (v : Nat) :
    ∃ s', s.imSet (i : Nat) v = .ok s' ∧ s' = { s with indexMap := s'.indexMap } ∧ s'.Wf := by
  obtain ⟨b, e, hb⟩ := ok.im
  have : s.imSet (i : Nat) v = .ok { s with indexMap := some { b with
      val := fun j => if j = i then v else b.val j } } := by
    rw [SysState.imSet, e, pSet]
    have h1 : (i : Int).toNat < b.size := by rw [hb]; simpa using hi
    simp only [deref, ok_bind, Int.natCast_nonneg, if_true, Buf.wr, h1]
    simp [ok_bind, pure, Except.pure]
  exact ⟨_, this, rfl, SysState.imSet_ok_iff this ok.wf⟩

theorem populateState_spec {w : World α} (hs : w.st.Wf) (hc : w.conCount ≤ w.fullCount) :
    ∃ s', w.populateState = .ok s' ∧ s'.Wf ∧ s'.n = (w.st.resize w.bodyCount w.fullCount).n ∧
      s'.nc = (w.st.resize w.bodyCount w.fullCount).nc ∧ w.bodyCount ≤ s'.n ∧
      w.fullCount ≤ s'.nc ∧
      (∀ f i, i < w.bodyCount → f ≠ .f_x → f ≠ .f_y → f ≠ .t →
        s'.val f i = popVals (w.bodies (w.rbAt i)) (fun _ => 0) f) := by
  obtain ⟨hn, hc'⟩ := resize_le w.st w.bodyCount w.fullCount
  have hw := hs.resize w.bodyCount w.fullCount
  obtain ⟨s1, e1, q1, w1, v1⟩ := forN_bodies (body := w.popBody)
    (G := fun i => popVals (w.bodies (w.rbAt i))) hw w.bodyCount hn
    (fun i hi s1 ok hlt _ => popBody_spec hi ok hlt)
  have n1 : s1.n = (w.st.resize w.bodyCount w.fullCount).n := by rw [q1]
  have c1 : s1.nc = (w.st.resize w.bodyCount w.fullCount).nc := by rw [q1]
  have h2 : ∃ q, w.popIndex s1 = .ok q ∧ q.1 = { s1 with indexMap := q.1.indexMap } ∧ q.1.Wf := by
    apply wp_noErr_iff.1
    refine wp_forN' (fun i (q : SysState α × Nat) => q.1 = { s1 with indexMap := q.1.indexMap } ∧
      q.1.Wf) ⟨rfl, w1⟩ ?_ (fun q h => h)
    rintro i hi q ⟨hq, hqw⟩
    have hnc : q.1.nc = s1.nc := by rw [hq]
    have hlt : i < q.1.nc := by omega
    obtain ⟨s2, e2, q2, w2⟩ := imSet_spec (hqw (Or.inr (by omega))) hlt q.2
    rw [e2, ok_bind, vecAt_ok (l := w.cs) hi, ok_bind]
    refine (wp_ok _).2 ⟨?_, w2⟩
    show s2 = _
    rw [q2, hq]
  obtain ⟨q, e2, q2, w2⟩ := h2
  have n2 : q.1.n = s1.n := by rw [q2]
  have c2 : q.1.nc = s1.nc := by rw [q2]
  refine ⟨q.1, ?_, w2, by omega, by omega, by omega, by omega, ?_⟩
  · rw [World.populateState, e1, ok_bind, e2]; rfl
  · intro f i hi h1 h2 h3
    have : q.1.val f i = s1.val f i := by rw [q2]; rfl
    rw [this, v1, if_pos hi]
    cases f <;> first | rfl | contradiction

theorem zeroForce_spec {n : Nat} {s : SysState α} (hs : s.Wf) (hn : n ≤ s.n) :
    ∃ s', forN n zeroForce s = .ok s' ∧ s'.Wf ∧ s'.n = s.n ∧ s'.nc = s.nc ∧ ForceWrites s s' ∧
      ∀ (c : Coord) i, i < n → s'.val c.f i = Fp.lit 0 := by
  apply wp_noErr_iff.1
  refine wp_forN' (fun k (s1 : SysState α) => s1.Wf ∧ s1.n = s.n ∧ s1.nc = s.nc ∧
      ForceWrites s s1 ∧ ∀ (c : Coord) i, i < k → s1.val c.f i = Fp.lit 0)
    ⟨hs, rfl, rfl, .refl, fun c i hi => by omega⟩ ?_ (fun s1 h => h)
  rintro i hi s1 ⟨w1, n1, c1, f1, v1⟩
  have hlt : i < s1.n := by omega
  have ok := w1.ok hlt
  have ok1 := ok.put .f_x i (Fp.lit 0)
  have ok2 := ok1.put .f_y i (Fp.lit 0)
  have ok3 := ok2.put .t i (Fp.lit 0)
  have e1 := ok.wr .f_x hlt (Fp.lit 0)
  have e2 := ok1.wr .f_y hlt (Fp.lit 0)
  have e3 := ok2.wr .t hlt (Fp.lit 0)
  rw [zeroForce, e1, ok_bind, e2, ok_bind, e3]
  refine (wp_ok _).2 ⟨ok3.wf, n1, c1, ?_, fun c j hj => ?_⟩
  · exact ((f1.wr (Or.inl rfl) _ _ e1).wr (Or.inr (Or.inl rfl)) _ _ e2).wr (Or.inr (Or.inr rfl)) _ _ e3
  · rw [ok2.val_put, ok1.val_put, ok.val_put]
    by_cases h : j = i
    · subst h; cases c <;> simp [Coord.f]
    · simp only [h, and_false, if_false]
      exact v1 c j (by omega)

theorem processForces_wp {w : World α} (hg : ∀ g ∈ w.fg, (w.gens g).OnlyForces) (s : SysState α) :
    Wp (w.processForces s) (ForceWrites s) anyErr := by
  rw [World.processForces]
  refine fw_bind (fw_forN _ fun i s1 => ?_) fun s1 => ?_
  · exact fw_bind (fw_wr (Or.inl rfl) _ _) fun _ => fw_bind (fw_wr (Or.inr (Or.inl rfl)) _ _)
      fun _ => fw_wr (Or.inr (Or.inr rfl)) _ _
  · refine fw_forN _ fun i s1 => ?_
    cases h : vecAt w.fg i with
    | error e => exact trivial
    | ok g =>
      rw [ok_bind]
      exact wp_anyErr_iff.2 (fun s2 e => hg g (vecAt_mem h).2.2 _ _ _ e)

end

/-- Division by zero is the only abnormal outcome. -/
theorem inv_div (b : ℝ) {E : Err → Prop} (hE : E .divZero) :
    Wp (Fp.div (Fp.lit 1 : ℝ) b) (fun x => b ≠ 0 ∧ x = 1 / b) E := by
  by_cases h : b = 0
  · rw [h, fp_div_zero]; exact hE
  · rw [fp_div h]; exact ⟨h, by simp [fp_lit]⟩

/-- The mass matrices of the system. -/
structure World.Masses (w : World ℝ) (mem : Store ℝ) : Prop where
  ne : ∀ i, i < w.bodyCount → ∀ c : Coord, (w.bodies (w.rbAt i)).mass c ≠ 0
  width : (mem.mat .ivMinv).width = 1
  height : (mem.mat .ivMinv).height = w.bodyCount * 3
  ent : ∀ (c : Coord) i, i < w.bodyCount →
    (mem.mat .ivMinv).ent (c.row i) 0 = 1 / (w.bodies (w.rbAt i)).mass c

theorem World.Masses.frame {w : World ℝ} {mem mem' : Store ℝ} (h : w.Masses mem)
    (e : mem'.mat .ivMinv = mem.mat .ivMinv) : w.Masses mem' :=
  ⟨h.ne, by rw [e]; exact h.width, by rw [e]; exact h.height, by rw [e]; exact h.ent⟩

theorem populateMass_wp {w : World ℝ} {mem : Store ℝ} (hi : Inv 3 2 sysRestr mem) {E : Err → Prop}
    (hE : (∃ i, i < w.bodyCount ∧ ∃ c : Coord, (w.bodies (w.rbAt i)).mass c = 0) → E .divZero) :
    Wp (w.populateMass mem) (fun mem' => Inv 3 2 sysRestr mem' ∧
      Frame (fun a => a = .ivM ∨ a = .ivMinv) (fun _ => False) mem mem' ∧ w.Masses mem') E := by
  obtain ⟨m1, e1, i1, o1, w1, h1⟩ := hi.init0 .ivM 1 (3 * w.bodyCount)
  obtain ⟨m2, e2, i2, o2, w2, h2⟩ := i1.init0 .ivMinv 1 (3 * w.bodyCount)
  rw [World.populateMass, e1, ok_bind, e2, ok_bind]
  refine wp_forN' (fun i (m : Store ℝ) => Inv 3 2 sysRestr m ∧
    Frame (fun a => a = .ivM ∨ a = .ivMinv) (fun _ => False) mem m ∧
    (m.mat .ivM).width = 1 ∧ (m.mat .ivM).height = w.bodyCount * 3 ∧
    (m.mat .ivMinv).width = 1 ∧ (m.mat .ivMinv).height = w.bodyCount * 3 ∧
    (∀ k, k < i → ∀ c : Coord, (w.bodies (w.rbAt k)).mass c ≠ 0) ∧
    ∀ (c : Coord) k, k < i → (m.mat .ivMinv).ent (c.row k) 0 = 1 / (w.bodies (w.rbAt k)).mass c)
    ?_ ?_ ?_
  · refine ⟨i2, ⟨fun a ha => ?_, fun a _ => ?_⟩, ?_, ?_, w2, by omega, ?_, ?_⟩
    · rw [o2.mat _ (fun h => ha (Or.inr h)), o1.mat _ (fun h => ha (Or.inl h))]
    · rw [o2.smat, o1.smat]
    · rw [o2.mat _ (by decide), w1]
    · rw [o2.mat _ (by decide), h1]; omega
    · intro k hk; omega
    · intro c k hk; omega
  · rintro i hin m ⟨hinv, fr, a1, a2, b1, b2, ne, en⟩
    obtain ⟨x1, x2, x3, f1, f2, f3, oM, sM, _⟩ := set3_spec (hinv.mat .ivM) hin a1 a2
      (w.bodies (w.rbAt i)).m (w.bodies (w.rbAt i)).m (w.bodies (w.rbAt i)).I
    have inv3 := hinv.shaped oM sM
    have hMi : x3.mat .ivMinv = m.mat .ivMinv := oM.mat _ (by decide)
    rw [World.popMass, vecAt_rb w hin, ok_bind]
    simp only []
    rw [f1, ok_bind, f2, ok_bind, f3, ok_bind]
    by_cases hm : (w.bodies (w.rbAt i)).m = 0
    · rw [hm, fp_div_zero]; exact hE ⟨i, hin, .x, hm⟩
    by_cases hI : (w.bodies (w.rbAt i)).I = 0
    · obtain ⟨y1, y2, y3, g1, g2, g3, -⟩ := set3_spec (n := w.bodyCount) (inv3.mat .ivMinv) hin
        (by rw [hMi, b1]) (by rw [hMi, b2]) ((Fp.lit 1 : ℝ) / (w.bodies (w.rbAt i)).m)
        ((Fp.lit 1 : ℝ) / (w.bodies (w.rbAt i)).m) (0 : ℝ)
      rw [fp_div hm, ok_bind, g1, ok_bind, ok_bind, g2, ok_bind, hI, fp_div_zero]
      exact hE ⟨i, hin, .th, hI⟩
    obtain ⟨y1, y2, y3, g1, g2, g3, oI, sI, v⟩ := set3_spec (n := w.bodyCount) (inv3.mat .ivMinv)
      hin (by rw [hMi, b1]) (by rw [hMi, b2]) ((Fp.lit 1 : ℝ) / (w.bodies (w.rbAt i)).m)
      ((Fp.lit 1 : ℝ) / (w.bodies (w.rbAt i)).m) ((Fp.lit 1 : ℝ) / (w.bodies (w.rbAt i)).I)
    rw [fp_div hm, ok_bind, g1, ok_bind, ok_bind, g2, ok_bind, fp_div hI, ok_bind, g3]
    have hMy : y3.mat .ivM = x3.mat .ivM := oI.mat _ (by decide)
    refine (wp_ok _).2 ⟨inv3.shaped oI sI, ⟨fun a ha => ?_, fun a ha => ?_⟩, ?_, ?_, ?_, ?_, ?_, ?_⟩
    · rw [oI.mat _ (fun h => ha (Or.inr h)), oM.mat _ (fun h => ha (Or.inl h)), fr.mat a ha]
    · rw [oI.smat, oM.smat, fr.smat a ha]
    · rw [hMy, sM.width, a1]
    · rw [hMy, sM.height, a2]
    · rw [sI.width, hMi, b1]
    · rw [sI.height, hMi, b2]
    · intro k hk c
      by_cases h : k = i
      · subst h; cases c
        · exact hm
        · exact hm
        · exact hI
      · exact ne k (by omega) c
    · intro c k hk
      rw [v _ (c.row_lt (by omega)), c.row_div, c.row_mod]
      by_cases h : k = i
      · subst h
        rw [if_pos rfl]
        cases c <;> simp [pick3, Coord.d, Body.mass, fp_lit]
      · rw [if_neg h, hMi, en c k (by omega)]
  · rintro m ⟨hinv, fr, -, -, b1, b2, ne, en⟩
    exact ⟨hinv, fr, ne, b1, b2, en⟩

end Scs
