import Verif.WorldStep
import Verif.WorldProf

/-!
# A call of `process` of the optimized system

What `propagateResults` stores in the objects of the user, and the specification of the whole call.
-/

namespace Scs

open Finset

section
variable {α : Type}

/-- The force a constraint reports for row `j` and its body `k`. -/
def Con.F (c : Con α) : Coord → Nat → Nat → α
  | .x => c.F_x
  | .y => c.F_y
  | .th => c.F_t

theorem vecAt_cs {w : World α} {i : Nat} (hi : i < w.cs.length) :
    vecAt w.cs (i : Int) = .ok w.cs[i] := vecAt_ok hi

end

section
variable {α : Type} [Zero α] [Add α] [Mul α] [Sub α] [Neg α] [Fp α]

theorem rbAt_inj {w : World α} (h : w.rb.Nodup) {i j : Nat} (hi : i < w.bodyCount)
    (hj : j < w.bodyCount) (e : w.rbAt i = w.rbAt j) : i = j := by
  rw [World.rbAt, World.rbAt, List.getD_eq_getElem _ _ hi, List.getD_eq_getElem _ _ hj] at e
  exact (List.Nodup.getElem_inj_iff h).mp e

theorem storeBodies_spec {w : World α} (hnd : w.rb.Nodup) {s : SysState α} (hs : s.Wf)
    (hn : w.bodyCount ≤ s.n) :
    ∃ w', forN w.bodyCount (World.storeBody s) w = .ok w' ∧ w' = { w with bodies := w'.bodies } ∧
      w.Moves w' ∧ ∀ i, i < w.bodyCount → ∀ q : Coord,
        (w'.bodies (w.rbAt i)).pos q = s.val q.p i ∧ (w'.bodies (w.rbAt i)).vel q = s.val q.v i := by
  have key : Wp (forN w.bodyCount (World.storeBody s) w) (fun w' => w' = { w with bodies := w'.bodies } ∧
      ∀ i, i < w.bodyCount → ∀ q : Coord,
        (w'.bodies (w.rbAt i)).pos q = s.val q.p i ∧ (w'.bodies (w.rbAt i)).vel q = s.val q.v i)
      noErr := by
    refine wp_forN' (fun k (w' : World α) => w' = { w with bodies := w'.bodies } ∧
      ∀ i, i < k → ∀ q : Coord,
        (w'.bodies (w.rbAt i)).pos q = s.val q.p i ∧ (w'.bodies (w.rbAt i)).vel q = s.val q.v i)
      ⟨rfl, fun i hi => absurd hi (Nat.not_lt_zero i)⟩ ?_ (fun _ h => h)
    rintro k hk w1 ⟨e1, h1⟩
    have ok : s.Ok := hs.ok (Nat.lt_of_lt_of_le hk hn)
    have hk' : k < s.n := Nat.lt_of_lt_of_le hk hn
    have hrb : w1.rb = w.rb := by rw [e1]
    rw [World.storeBody, hrb, vecAt_rb w hk, ok_bind, ok.rd _ hk', ok_bind, ok.rd _ hk', ok_bind,
      ok.rd _ hk', ok_bind, ok.rd _ hk', ok_bind, ok.rd _ hk', ok_bind, ok.rd _ hk', ok_bind]
    refine ⟨by rw [e1], fun i hi q => ?_⟩
    simp only [upd]
    by_cases hik : w.rbAt i = w.rbAt k
    · have : i = k := rbAt_inj hnd (by omega) hk hik
      subst this
      rw [if_pos rfl]
      cases q <;> exact ⟨rfl, rfl⟩
    · rw [if_neg hik]
      refine h1 i ?_ q
      rcases Nat.lt_or_eq_of_le (Nat.lt_succ_iff.mp hi) with h | rfl
      · exact h
      · exact absurd rfl hik
  obtain ⟨w', e, h1, h2⟩ := wp_noErr_iff.mp key
  have hm := storeBodies_wp s w.bodyCount w
  rw [e] at hm
  exact ⟨w', e, h1, hm.2, h2⟩

theorem storeForce_spec {s : SysState α} (hs : s.Wf) {p j k : Nat} (hp : p < s.nc * 2) (hj : j < 3)
    (hk : k < 2) (c : Con α) :
    ∃ c', storeForce s p j k c = .ok c' ∧ c.SameBut c' ∧
      ∀ (q : Coord) j' k', c'.F q j' k' = if j' = j ∧ k' = k then s.rval q.r p else c.F q j' k' := by
  have ok : s.Ok := hs.okc hp
  have hw : ∀ (a : Nat → Nat → α) v, wr2 maxRows maxBodies a j k v = .ok (upd a j (upd (a j) k v)) :=
    fun a v => if_pos ⟨hj, hk⟩
  rw [storeForce]
  simp only [ok.rrd _ hp, ok_bind, hw]
  refine ⟨_, rfl, rfl, fun q j' k' => ?_⟩
  have hu : ∀ (a : Nat → Nat → α) v, upd a j (upd (a j) k v) j' k' =
      if j' = j ∧ k' = k then v else a j' k' := by
    intro a v
    by_cases h1 : j' = j
    · subst h1
      by_cases h2 : k' = k <;> simp [upd, h2]
    · simp [upd, h1]
  cases q <;> exact hu _ _

theorem storeCon_spec {s : SysState α} (hs : s.Wf) {pos : Nat → Nat → Nat} {c : Con α} {jf : Nat}
    (hr : c.rows ≤ 3) (hb : c.bodyCount ≤ 2)
    (hp : ∀ j k, j < c.rows → k < c.bodyCount → pos (jf + j) k < s.nc * 2) :
    ∃ c', storeCon s pos c jf = .ok (c', jf + c.rows) ∧ c.SameBut c' ∧
      ∀ (q : Coord) j k, j < c.rows → k < c.bodyCount →
        c'.F q j k = s.rval q.r (pos (jf + j) k) := by
  have key : Wp (storeCon s pos c jf) (fun z => z.2 = jf + c.rows ∧ c.SameBut z.1 ∧
      ∀ (q : Coord) j k, j < c.rows → k < c.bodyCount →
        z.1.F q j k = s.rval q.r (pos (jf + j) k)) noErr := by
    rw [storeCon]
    refine wp_forN' (fun n (z : Con α × Nat) => z.2 = jf + n ∧ c.SameBut z.1 ∧
      ∀ (q : Coord) j k, j < n → k < c.bodyCount → z.1.F q j k = s.rval q.r (pos (jf + j) k))
      ⟨rfl, rfl, fun _ j k hj => absurd hj (Nat.not_lt_zero j)⟩ ?_ (fun _ h => h)
    rintro n hn z ⟨z1, z2, z3⟩
    rw [wp_bind]
    refine wp_forN' (fun m (y : Con α) => c.SameBut y ∧
      (∀ (q : Coord) j k, j < n → k < c.bodyCount → y.F q j k = s.rval q.r (pos (jf + j) k)) ∧
      ∀ (q : Coord) k, k < m → y.F q n k = s.rval q.r (pos (jf + n) k))
      ⟨z2, z3, fun _ k hk => absurd hk (Nat.not_lt_zero k)⟩ ?_ ?_
    · rintro m hm y ⟨y1, y2, y3⟩
      obtain ⟨y', e, h1, h2⟩ := storeForce_spec hs (p := pos z.2 m) (j := n) (k := m)
        (by rw [z1]; exact hp n m hn hm) (by omega) (by omega) y
      rw [e]
      refine ⟨y1.trans h1, fun q j k hj hk => ?_, fun q k hk => ?_⟩
      · rw [h2, if_neg (by omega)]
        exact y2 q j k hj hk
      · rw [h2]
        split
        · rename_i hh
          rw [hh.2, z1]
        · exact y3 q k (by omega)
    · rintro y ⟨y1, y2, y3⟩
      refine ⟨by simp only [z1]; omega, y1, fun q j k hj hk => ?_⟩
      rcases Nat.lt_or_eq_of_le (Nat.lt_succ_iff.mp hj) with h | rfl
      · exact y2 q j k h hk
      · exact y3 q k hk
  obtain ⟨z, e, h1, h2, h3⟩ := wp_noErr_iff.mp key
  exact ⟨z.1, by rw [e, ← h1], h2, h3⟩

theorem storeForces_spec {w : World α} (hr3 : ∀ c ∈ w.cs, (w.cons c).rows ≤ 3)
    (hb2 : ∀ c ∈ w.cs, (w.cons c).bodyCount ≤ 2) (hnd : w.cs.Nodup)
    {s : SysState α} (hs : s.Wf) {pos : Nat → Nat → Nat}
    (hp : ∀ f k, f < w.fullCount → k < 2 → pos f k < s.nc * 2) :
    ∃ z, w.storeForces s pos = .ok z ∧ z.1 = { w with cons := z.1.cons } ∧ w.Moves z.1 ∧
      ∀ i (hi : i < w.cs.length) (q : Coord) j k, j < (w.cons w.cs[i]).rows →
        k < (w.cons w.cs[i]).bodyCount →
        (z.1.cons w.cs[i]).F q j k = s.rval q.r (pos (w.off i + j) k) := by
  have key : Wp (w.storeForces s pos) (fun z => z.1 = { w with cons := z.1.cons } ∧
      ∀ i (hi : i < w.cs.length) (q : Coord) j k, j < (w.cons w.cs[i]).rows →
        k < (w.cons w.cs[i]).bodyCount →
        (z.1.cons w.cs[i]).F q j k = s.rval q.r (pos (w.off i + j) k)) noErr := by
    rw [World.storeForces]
    refine wp_forN' (fun n (z : World α × Nat) => z.1 = { w with cons := z.1.cons } ∧
      z.2 = w.off n ∧ (∀ i (hi : i < w.cs.length), n ≤ i → z.1.cons w.cs[i] = w.cons w.cs[i]) ∧
      ∀ i (hi : i < w.cs.length), i < n → ∀ (q : Coord) j k, j < (w.cons w.cs[i]).rows →
        k < (w.cons w.cs[i]).bodyCount →
        (z.1.cons w.cs[i]).F q j k = s.rval q.r (pos (w.off i + j) k))
      ⟨rfl, (off_zero w).symm, fun _ _ _ => rfl, fun i _ hi => absurd hi (Nat.not_lt_zero i)⟩ ?_ ?_
    · rintro n hn z ⟨z1, z2, z3, z4⟩
      have hn' : n < w.cs.length := hn
      have hcs : z.1.cs = w.cs := by rw [z1]
      have hc : z.1.cons w.cs[n] = w.cons w.cs[n] := z3 n hn' (Nat.le_refl n)
      have hmem := List.getElem_mem hn'
      obtain ⟨c', e, h1, h2⟩ := storeCon_spec hs (pos := pos) (c := w.cons w.cs[n]) (jf := z.2)
        (hr3 _ hmem) (hb2 _ hmem) (fun j k hj hk => by
          refine hp _ _ ?_ (Nat.lt_of_lt_of_le hk (hb2 _ hmem))
          rw [z2]
          exact off_lt w hn' hj)
      rw [hcs, vecAt_cs hn', ok_bind, hc, e, ok_bind, wp_pure]
      refine ⟨by rw [z1], ?_, fun i hi hle => ?_, fun i hi hlt q j k hj hk => ?_⟩
      · simp only []
        rw [off_succ w hn', z2]
      · have hne : w.cs[i] ≠ w.cs[n] := fun h => by
          have := (List.Nodup.getElem_inj_iff hnd).mp h
          omega
        simp only [upd, if_neg hne]
        exact z3 i hi (by omega)
      · simp only [upd]
        by_cases hin : i = n
        · subst hin
          rw [if_pos rfl, h2 q j k hj hk, z2]
        · have hne : w.cs[i] ≠ w.cs[n] := fun h => hin ((List.Nodup.getElem_inj_iff hnd).mp h)
          rw [if_neg hne]
          exact z4 i hi (by omega) q j k hj hk
    · rintro z ⟨z1, _, _, z4⟩
      exact ⟨z1, fun i hi => z4 i hi hi⟩
  obtain ⟨z, e, h1, h2⟩ := wp_noErr_iff.mp key
  have hm := storeForces_wp s pos w
  rw [e] at hm
  exact ⟨z, e, h1, hm.2, h2⟩

/-- What `process` stores in the objects of the user when the last state is `s`; `pos` is the
position in the reaction arrays of the force of row `f` on body `k`. -/
structure World.Stored (w w' : World α) (s : SysState α) (pos : Nat → Nat → Nat) : Prop where
  body : ∀ i, i < w.bodyCount → ∀ q : Coord,
    (w'.bodies (w.rbAt i)).pos q = s.val q.p i ∧ (w'.bodies (w.rbAt i)).vel q = s.val q.v i
  con : ∀ i (hi : i < w.cs.length) (q : Coord) j k, j < (w.cons w.cs[i]).rows →
    k < (w.cons w.cs[i]).bodyCount →
    (w'.cons w.cs[i]).F q j k = s.rval q.r (pos (w.off i + j) k)
  st : w'.st = s

/-- The state `process` starts from shows the bodies of the user. -/
structure World.Populated (w : World α) (s : SysState α) : Prop where
  wf : s.Wf
  n : w.bodyCount ≤ s.n
  nc : w.fullCount ≤ s.nc
  pos : ∀ (q : Coord) i, i < w.bodyCount → s.val q.p i = (w.bodies (w.rbAt i)).pos q
  vel : ∀ (q : Coord) i, i < w.bodyCount → s.val q.v i = (w.bodies (w.rbAt i)).vel q
  acc : ∀ (q : Coord) i, i < w.bodyCount → s.val q.a i = Fp.lit 0
  mass : ∀ i, i < w.bodyCount → s.val .m i = (w.bodies (w.rbAt i)).m

theorem populated_of {w : World α} (hs : w.st.Wf) (hc : w.conCount ≤ w.fullCount) :
    ∃ s, w.populateState = .ok s ∧ w.Populated s := by
  obtain ⟨s, e, h1, _, _, h4, h5, h6⟩ := populateState_spec hs hc
  refine ⟨s, e, h1, h4, h5, fun q i hi => ?_, fun q i hi => ?_, fun q i hi => ?_, fun i hi => ?_⟩
  · cases q <;> exact h6 _ i hi (by decide) (by decide) (by decide)
  · cases q <;> exact h6 _ i hi (by decide) (by decide) (by decide)
  · cases q <;> exact h6 _ i hi (by decide) (by decide) (by decide)
  · exact h6 _ i hi (by decide) (by decide) (by decide)

/-- The profiling arrays have room for the current frame. -/
def World.RingOk (w : World α) : Prop := ∀ p, w.frame < (w.ring p).size

theorem record_ok {w : World α} (h : w.RingOk) (times : Prof → Int) :
    ∃ w', w.record times = .ok w' ∧ w' = { w with ring := w'.ring, frame := w'.frame } := by
  have key : ∃ w', w.record times = .ok w' := by
    have hw : ∀ (r : Buf Int) v, w.frame < r.size → r.wr w.frame v =
        .ok { r with val := upd r.val w.frame v } := fun r v hr => if_pos hr
    rw [World.record]
    simp only []
    rw [hw _ _ (h _), ok_bind, hw _ _ (by simpa [upd] using h _), ok_bind,
      hw _ _ (by simpa [upd] using h _), ok_bind, hw _ _ (by simpa [upd] using h _), ok_bind]
    exact ⟨_, rfl⟩
  obtain ⟨w', e⟩ := key
  have := record_wp w times
  rw [e] at this
  exact ⟨w', e, this.1⟩

theorem World.Prof.ringOk {cls : Cls} {h : List (Op α)} {w : World α} (p : w.Prof cls h) :
    w.RingOk := fun q => by
  rw [(p.ring q).size, (p.ring q).frame]
  omega

/-- `propagateResults` and the bookkeeping at the end of `process`. -/
theorem propagate_spec {w : World α} (hr3 : ∀ c ∈ w.cs, (w.cons c).rows ≤ 3)
    (hb2 : ∀ c ∈ w.cs, (w.cons c).bodyCount ≤ 2) (hrb : w.rb.Nodup)
    (hcs : w.cs.Nodup) {s : SysState α} (hs : s.Wf) (hn : w.bodyCount ≤ s.n)
    {pos : Nat → Nat → Nat} (hp : ∀ f k, f < w.fullCount → k < 2 → pos f k < s.nc * 2) :
    ∃ w1 z, forN w.bodyCount (World.storeBody s) w = .ok w1 ∧ w1.storeForces s pos = .ok z ∧
      z.1 = { w with bodies := z.1.bodies, cons := z.1.cons } ∧ w.Moves z.1 ∧
      w.Stored { z.1 with st := s } s pos := by
  obtain ⟨w1, e1, q1, m1, b1⟩ := storeBodies_spec hrb hs hn
  have c1 : w1.cons = w.cons := by rw [q1]
  have cs1 : w1.cs = w.cs := by rw [q1]
  have rb1 : w1.rb = w.rb := by rw [q1]
  have full1 : w1.fullCount = w.fullCount := by
    rw [World.fullCount, World.fullCount, cs1, c1]
  have off1 : ∀ i, w1.off i = w.off i := fun i => by
    rw [World.off, World.off, World.rowCounts, World.rowCounts, cs1, c1]
  obtain ⟨z, e2, q2, m2, f2⟩ := storeForces_spec (w := w1) (by rw [cs1, c1]; exact hr3)
    (by rw [cs1, c1]; exact hb2) (by rw [cs1]; exact hcs) hs (pos := pos)
    (by rw [full1]; exact hp)
  refine ⟨w1, z, e1, e2, by rw [q2, q1], m1.trans m2, ⟨fun i hi q => ?_, fun i hi q j k hj hk => ?_, rfl⟩⟩
  · have : z.1.bodies = w1.bodies := by rw [q2]
    show (z.1.bodies _).pos q = _ ∧ (z.1.bodies _).vel q = _
    rw [this]
    exact b1 i hi q
  · have := f2 i (by rw [cs1]; exact hi) q j k
    simp only [cs1, c1, off1] at this
    exact this hj hk

end

section
variable {w : World ℝ} {B : Nat → Nat → Nat}

/-- What is known of a system between calls; every history gives it. -/
structure World.Ready (w : World ℝ) (B : Nat → Nat → Nat) : Prop where
  fit : w.Fit B
  sound : w.Sound
  rb : w.rb.Nodup
  cs : w.cs.Nodup
  nsv : w.nsv.sort = 2
  ring : w.RingOk

/-- The effect of a call of `process` of the optimized system: the states `S 0`, … after each
sub-step, and what is stored in the objects of the user. -/
structure World.OptRun (w : World ℝ) (B : Nat → Nat → Nat) (dt : ℝ) (steps : Int) (w' : World ℝ)
    (S : Nat → SysState ℝ) : Prop where
  start : w.Populated (S 0)
  mass : ∀ i, i < w.bodyCount → ∀ c : Coord, w.massAt c i ≠ 0
  trace : w.Trace B (dt / steps) steps.toNat S
  stored : w.Stored w' (S steps.toNat) (fun f k => f * 2 + k)
  moves : w.Moves w'
  lam : 0 < steps.toNat → ∀ sv, w.sle = some sv →
    sv.Kept w.fullCount (w.mem.mat .ivLambda) (w'.mem.mat .ivLambda)

/-- A condition under which a call of `process` succeeds. -/
structure World.CanRun (w : World ℝ) (B : Nat → Nat → Nat) (h : ℝ) (n : Nat)
    (P : Nat → SysState ℝ → Prop) : Prop where
  mass : ∀ i, i < w.bodyCount → ∀ c : Coord, w.massAt c i ≠ 0
  good : w.GoodRun B h n P (w.mem.mat .ivLambda)
  start : ∀ s, w.Populated s → P 0 s

theorem World.Trace.wf {h : ℝ} {k : Nat} {S : Nat → SysState ℝ} (t : w.Trace B h k S)
    (h0 : (S 0).Wf) : ∀ j, j ≤ k → (S j).Wf ∧ (S j).n = (S 0).n ∧ (S j).nc = (S 0).nc
  | 0, _ => ⟨h0, rfl, rfl⟩
  | j + 1, hj => by
    obtain ⟨s1, out, lam, st⟩ := t j hj
    have ih := t.wf h0 j (by omega)
    exact ⟨st.wf, st.n.trans ih.2.1, st.nc.trans ih.2.2⟩

/-- The call, given what its loop over the sub-steps does. -/
theorem optProcess_of (hr : w.Ready B) {env : Env ℝ} {dt : ℝ} {steps : Int} {E : Err → Prop}
    (hmass : (∃ i, i < w.bodyCount ∧ ∃ c : Coord, w.massAt c i = 0) → E .divZero)
    (hloop : ∀ s mem, w.populateState = .ok s → w.populateMass w.mem = .ok mem → w.Populated s →
      w.Mid mem → mem.mat .ivLambda = w.mem.mat .ivLambda →
      Wp (w.optLoop env dt steps s mem) (fun q => w.Mid q.1.mem ∧ q.2.1.sort = 2 ∧
        (0 < steps.toNat → ∀ sv, w.sle = some sv →
          sv.Kept w.fullCount (mem.mat .ivLambda) (q.1.mem.mat .ivLambda)) ∧
        ∃ S : Nat → SysState ℝ, S 0 = s ∧ S steps.toNat = q.2.2 ∧
          w.Trace B (dt / steps) steps.toNat S) E) :
    Wp (w.optProcess env dt steps) (fun w' => ∃ S, w.OptRun B dt steps w' S) E := by
  rw [World.optProcess]
  obtain ⟨s, e, hp⟩ := populated_of hr.sound.st.wf hr.fit.con
  rw [e, ok_bind, wp_bind]
  have hm : Wp (w.populateMass w.mem) (fun m => m.mat .ivLambda = w.mem.mat .ivLambda) anyErr :=
    (m_populateMass hr.sound.mem).mono (fun _ h => h.2) (fun _ h => h)
  have hw := (populateMass_wp hr.sound.mem (E := E) hmass).and hm
  cases em : w.populateMass w.mem with
  | error er =>
    rw [em] at hw
    exact hw.1
  | ok mem =>
  rw [em] at hw
  obtain ⟨⟨i1, _, i3⟩, i4⟩ := hw
  rw [wp_ok, wp_bind]
  have hl : LamOk mem := by
    rw [LamOk, i4]
    exact hr.sound.lam
  refine (hloop s mem e em hp ⟨i1, i3, hl⟩ i4).mono ?_ (fun _ h => h)
  rintro q ⟨_, _, qk, S, S0, Sk, St⟩
  have hS := St.wf (by rw [S0]; exact hp.wf) steps.toNat (Nat.le_refl _)
  rw [Sk, S0] at hS
  obtain ⟨w1, z, f1, f2, f3, f4, f5⟩ := propagate_spec
    (w := { w with st := q.2.2, mem := q.1.mem, nsv := q.2.1 })
    hr.fit.rows hr.fit.two hr.rb hr.cs hS.1
    (by rw [hS.2.1]; exact hp.n) (pos := fun f k => f * 2 + k) (by
      intro f k hf hk
      have h1 : f < w.fullCount := hf
      have h2 := hp.nc
      rw [hS.2.2]
      show f * 2 + k < s.nc * 2
      omega)
  obtain ⟨w3, r1, r2⟩ := record_ok (w := z.1) (by
    rw [f3]; exact hr.ring) q.1.times
  have hpr : ({ w with st := q.2.2, mem := q.1.mem, nsv := q.2.1 } : World ℝ).propagateResults q.2.2
      = .ok z.1 := by
    rw [World.propagateResults, f1, ok_bind, f2, ok_bind]
    rfl
  simp only []
  rw [hpr, ok_bind, r1, ok_bind, wp_pure]
  refine ⟨S, by rw [S0]; exact hp, i3.ne, St, ?_, ?_, ?_⟩
  · rw [Sk]
    refine ⟨fun i hi c => ?_, fun i hi c j k hj hk => ?_, ?_⟩
    · have := f5.body i hi c
      rw [r2]
      exact this
    · have := f5.con i hi c j k hj hk
      rw [r2]
      exact this
    · simp only []
      rw [r2, f3]
  · refine World.Moves.of_rest (w1 := z.1) ?_ ?_
    · exact (World.Moves.of_rest (World.Moves.refl w) rfl).trans f4
    · rw [r2]
  · intro h0 sv hsv
    rw [r2, f3, ← i4]
    exact qk h0 sv hsv

theorem optProcess_spec (hr : w.Ready B) {env : Env ℝ} {dt : ℝ} {steps : Int}
    {P : Nat → SysState ℝ → Prop} {E : Err → Prop}
    (hE : (∀ e, E e) ∨ w.CanRun B (dt / steps) steps.toNat P) :
    Wp (w.optProcess env dt steps) (fun w' => ∃ S, w.OptRun B dt steps w' S) E := by
  refine optProcess_of hr ?_ fun s mem e em hp hmid i4 => ?_
  · rintro ⟨i, hi, c, h0⟩
    rcases hE with hE | hE
    · exact hE _
    · exact absurd h0 (hE.mass i hi c)
  · refine optLoop_trace (env := env) (dt := dt) (steps := steps) (P := P) (E := E) hr.fit
      (fun g _ => hr.sound.gens g) hr.nsv hmid hp.wf hp.n hp.nc ?_
    rcases hE with hE | hE
    · exact Or.inl hE
    · rw [i4]
      exact Or.inr ⟨hE.good, hE.start s hp⟩

end

end Scs
