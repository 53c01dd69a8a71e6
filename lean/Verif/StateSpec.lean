import Verif.OdeRun

/-!
# Vocabulary for statements about `SystemState` and the ODE solvers
-/

namespace Scs

open SysState

section
variable {α : Type}

/-- The states that can be obtained from a fresh one through the API of `SystemState` and by
assigning to its public arrays and `dt`. -/
inductive SysState.Reach [Zero α] : SysState α → Prop where
  | fresh (j : Nat → Nat → α) (k : Nat → Nat → Nat) : Reach (SysState.mk0 j k)
  | resize {s : SysState α} (h : Reach s) (n c : Nat) : Reach (s.resize n c)
  | destroy {s : SysState α} (h : Reach s) : Reach s.destroy
  | copy {s src s' : SysState α} (h : Reach s) (h' : Reach src) (e : s.copy src = .ok s') : Reach s'
  | wr {s s' : SysState α} (h : Reach s) (f : Fld) (i : Int) (v : α) (e : s.wr f i v = .ok s') :
      Reach s'
  | rwr {s s' : SysState α} (h : Reach s) (f : CFld) (i : Int) (v : α) (e : s.rwr f i v = .ok s') :
      Reach s'
  | imSet {s s' : SysState α} (h : Reach s) (i : Int) (v : Nat) (e : s.imSet i v = .ok s') : Reach s'
  | setDt {s : SysState α} (h : Reach s) (dt : α) : Reach { s with dt := dt }

/-- What can be read from a state: `n` bodies with the values `g`, `c` constraint rows with the
reactions `r` (two per row). -/
structure SysState.Shows (s : SysState α) (n c : Nat) (g : Fld → Nat → α) (r : CFld → Nat → α) :
    Prop where
  bodies : s.n = n
  rows : s.nc = c
  fld : ∀ f (i : Nat), i < n → s.rd f (i : Nat) = .ok (g f i)
  rf : ∀ f (i : Nat), i < 2 * c → s.rrd f (i : Nat) = .ok (r f i)

theorem pSet_ok {β : Type} {p q : Option (Buf β)} {i : Int} {v : β} (h : pSet p i v = .ok q) :
    ∃ b, p = some b ∧ 0 ≤ i ∧ i.toNat < b.size ∧
      q = some { b with val := fun j => if j = i.toNat then v else b.val j } := by
  cases p with
  | none => cases h
  | some b =>
    simp only [pSet, deref, ok_bind] at h
    by_cases h0 : 0 ≤ i
    · rw [if_pos h0] at h
      by_cases h1 : i.toNat < b.size
      · simp only [Buf.wr, h1, if_true, ok_bind] at h
        cases h
        exact ⟨b, rfl, h0, h1, rfl⟩
      · simp only [Buf.wr, h1, if_false] at h
        cases h
    · rw [if_neg h0] at h
      cases h

theorem SysState.wr_ok_iff {s s' : SysState α} {f : Fld} {i : Int} {v : α}
    (h : s.wr f i v = .ok s') (hw : s.Wf) : s'.Wf := by
  simp only [SysState.wr] at h
  cases hp : pSet (s.fld f) i v with
  | error e => rw [hp] at h; cases h
  | ok q =>
    rw [hp] at h
    cases h
    obtain ⟨b, hb, _, _, hq⟩ := pSet_ok hp
    intro hh
    have o := hw hh
    refine ⟨fun g => ?_, o.rf, o.im⟩
    by_cases hg : g = f
    · subst hg
      obtain ⟨b', hb', hz⟩ := o.fld g
      rw [hb] at hb'
      cases hb'
      subst hq
      exact ⟨{ b with val := fun j => if j = i.toNat then v else b.val j }, by simp only [upd_same], hz⟩
    · simpa only [upd_other _ _ hg] using o.fld g

theorem SysState.rwr_ok_iff {s s' : SysState α} {f : CFld} {i : Int} {v : α}
    (h : s.rwr f i v = .ok s') (hw : s.Wf) : s'.Wf := by
  simp only [SysState.rwr] at h
  cases hp : pSet (s.rf f) i v with
  | error e => rw [hp] at h; cases h
  | ok q =>
    rw [hp] at h
    cases h
    obtain ⟨b, hb, _, _, hq⟩ := pSet_ok hp
    intro hh
    have o := hw hh
    refine ⟨o.fld, fun g => ?_, o.im⟩
    by_cases hg : g = f
    · subst hg
      obtain ⟨b', hb', hz⟩ := o.rf g
      rw [hb] at hb'
      cases hb'
      subst hq
      exact ⟨{ b with val := fun j => if j = i.toNat then v else b.val j }, by simp only [upd_same], hz⟩
    · simpa only [upd_other _ _ hg] using o.rf g

theorem SysState.imSet_ok_iff {s s' : SysState α} {i : Int} {v : Nat}
    (h : s.imSet i v = .ok s') (hw : s.Wf) : s'.Wf := by
  simp only [SysState.imSet] at h
  cases hp : pSet s.indexMap i v with
  | error e => rw [hp] at h; cases h
  | ok q =>
    rw [hp] at h
    cases h
    obtain ⟨b, hb, _, _, hq⟩ := pSet_ok hp
    intro hh
    have o := hw hh
    refine ⟨o.fld, o.rf, ?_⟩
    obtain ⟨b', hb', hz⟩ := o.im
    rw [hb] at hb'
    cases hb'
    subst hq
    exact ⟨_, rfl, hz⟩

/-- `copy` into a state that is larger in one dimension and not smaller in the other reads beyond
the end of the source arrays. -/
theorem copy_larger {d s : SysState α} (hd : d.Wf) (hs : s.Wf) (h0 : 0 < s.n) (hf : ¬ d.Fits s) :
    d.copy s = .error .oob := by
  have hge : s.n ≤ d.n ∧ s.nc ≤ d.nc := by
    by_contra h; exact hf (Or.inr h)
  have hne : ¬ (d.n = s.n ∧ d.nc = s.nc) := fun h => hf (Or.inl h)
  have hdo : d.Ok := hd (Or.inl (by omega))
  have hso : s.Ok := hs (Or.inl h0)
  rw [SysState.copy, resize_of_ge d hge.1 hge.2]
  simp only [Nat.pos_iff_ne_zero.1 h0, if_false]
  obtain ⟨di, hdi, zdi⟩ := hdo.im
  obtain ⟨bi, hbi, zbi⟩ := hso.im
  rw [hdi, hbi]
  by_cases hc : s.nc < d.nc
  · rw [memcpy_oob (by omega), error_bind]
  · rw [memcpy_ok (by omega) (by omega), ok_bind]
    obtain ⟨dd, hdd, zdd⟩ := hdo.fld .a_theta
    obtain ⟨bb, hbb, zbb⟩ := hso.fld .a_theta
    have : ∀ q, SysState.cpF { d with indexMap := q } s .a_theta = .error .oob := by
      intro q
      rw [SysState.cpF]
      show (memcpy (d.fld .a_theta) (s.fld .a_theta) d.n >>= _) = _
      rw [hdd, hbb, memcpy_oob (by omega), error_bind]
    rw [this, error_bind]

/-- Whatever a successful `copy` does, the result is well formed. -/
theorem copy_wf {d s d' : SysState α} (hd : d.Wf) (hs : s.Wf) (e : d.copy s = .ok d') : d'.Wf := by
  by_cases h0 : s.n = 0
  · rw [SysState.copy] at e
    simp only [h0, if_true] at e
    cases e
    exact hd.resize _ _
  · by_cases hf : d.Fits s
    · obtain ⟨d'', e', hw, _⟩ := copy_fits hd hs hf
      rw [e'] at e
      cases e
      exact hw
    · rw [copy_larger hd hs (by omega) hf] at e
      cases e

theorem SysState.Reach.wf [Zero α] {s : SysState α} (h : s.Reach) : s.Wf := by
  induction h with
  | fresh j k => exact wf_mk0 j k
  | resize h n c ih => exact ih.resize n c
  | destroy h ih => exact wf_destroy _
  | copy h h' e ih ih' => exact copy_wf ih ih' e
  | wr h f i v e ih => exact wr_ok_iff e ih
  | rwr h f i v e ih => exact rwr_ok_iff e ih
  | imSet h i v e ih => exact imSet_ok_iff e ih
  | setDt h dt ih => exact fun hp => let o := ih hp; ⟨o.fld, o.rf, o.im⟩

/-- Every array that is allocated has exactly the length that belongs to the size of the state. -/
structure SysState.Tight (s : SysState α) : Prop where
  fld : ∀ f b, s.fld f = some b → b.size = s.n
  rf : ∀ f b, s.rf f = some b → b.size = s.nc * 2
  im : ∀ b, s.indexMap = some b → b.size = s.nc

theorem SysState.Ok.tight {s : SysState α} (h : s.Ok) : s.Tight := by
  refine ⟨fun f b hb => ?_, fun f b hb => ?_, fun b hb => ?_⟩
  · obtain ⟨b', hb', hz⟩ := h.fld f
    rw [hb] at hb'; cases hb'; exact hz
  · obtain ⟨b', hb', hz⟩ := h.rf f
    rw [hb] at hb'; cases hb'; exact hz
  · obtain ⟨b', hb', hz⟩ := h.im
    rw [hb] at hb'; cases hb'; exact hz

theorem SysState.Tight.destroy {s : SysState α} (h : s.Tight) : s.destroy.Tight := by
  have e1 : s.destroy.fld = if 0 < s.n then (fun _ => none) else s.fld := by
    unfold SysState.destroy
    by_cases hn : 0 < s.n <;> by_cases hc : 0 < s.nc <;> simp [hn, hc, freeBodies_fld]
  have e2 : s.destroy.rf = if 0 < s.nc then (fun _ => none) else s.rf := by
    unfold SysState.destroy
    by_cases hn : 0 < s.n <;> by_cases hc : 0 < s.nc <;> simp [hn, hc, freeRows_rf]
  have e3 : s.destroy.indexMap = if 0 < s.nc then none else s.indexMap := by
    unfold SysState.destroy
    by_cases hn : 0 < s.n <;> by_cases hc : 0 < s.nc <;> simp [hn, hc]
  refine ⟨fun f b hb => ?_, fun f b hb => ?_, fun b hb => ?_⟩
  · rw [e1] at hb
    by_cases hn : 0 < s.n
    · simp [hn] at hb
    · rw [if_neg hn] at hb
      have := h.fld f b hb
      simp only [destroy_n]; omega
  · rw [e2] at hb
    by_cases hn : 0 < s.nc
    · simp [hn] at hb
    · rw [if_neg hn] at hb
      have := h.rf f b hb
      simp only [destroy_nc]; omega
  · rw [e3] at hb
    by_cases hn : 0 < s.nc
    · simp [hn] at hb
    · rw [if_neg hn] at hb
      have := h.im b hb
      simp only [destroy_nc]; omega

theorem SysState.Tight.resize {s : SysState α} (h : s.Tight) (n c : Nat) : (s.resize n c).Tight := by
  by_cases hc : n ≤ s.n ∧ c ≤ s.nc
  · rw [resize_of_ge s hc.1 hc.2]; exact h
  · rw [resize_of_not s hc]; exact (newAll_ok _).tight

theorem pSet_size {β : Type} {p q : Option (Buf β)} {i : Int} {v : β} (h : pSet p i v = .ok q)
    {k : Nat} (hp : ∀ b, p = some b → b.size = k) : ∀ b, q = some b → b.size = k := by
  obtain ⟨b, hb, _, _, hq⟩ := pSet_ok h
  intro b' hb'
  rw [hq] at hb'
  cases hb'
  exact hp b hb

theorem SysState.Reach.tight [Zero α] {s : SysState α} (h : s.Reach) : s.Tight := by
  induction h with
  | fresh j k => exact ⟨fun _ _ h => (nomatch h), fun _ _ h => (nomatch h), fun _ h => (nomatch h)⟩
  | resize h n c ih => exact ih.resize n c
  | destroy h ih => exact ih.destroy
  | @copy s src s' h h' e ih ih' =>
    by_cases h0 : src.n = 0
    · rw [SysState.copy] at e
      simp only [h0, if_true] at e
      cases e
      exact ih.resize _ _
    · by_cases hf : s.Fits src
      · obtain ⟨d'', e', hw, hn, _⟩ := copy_fits h.wf h'.wf hf
        rw [e'] at e
        cases e
        exact (hw (Or.inl (by omega))).tight
      · rw [copy_larger h.wf h'.wf (by omega) hf] at e
        cases e
  | @wr s s' h f i v e ih =>
    simp only [SysState.wr] at e
    cases hp : pSet (s.fld f) i v with
    | error e' => rw [hp] at e; cases e
    | ok q =>
      rw [hp] at e
      cases e
      refine ⟨fun g => ?_, ih.rf, ih.im⟩
      by_cases hg : g = f
      · subst hg
        simp only [upd_same]
        exact pSet_size hp (ih.fld g)
      · simp only [upd_other _ _ hg]
        exact ih.fld g
  | @rwr s s' h f i v e ih =>
    simp only [SysState.rwr] at e
    cases hp : pSet (s.rf f) i v with
    | error e' => rw [hp] at e; cases e
    | ok q =>
      rw [hp] at e
      cases e
      refine ⟨ih.fld, fun g => ?_, ih.im⟩
      by_cases hg : g = f
      · subst hg
        simp only [upd_same]
        exact pSet_size hp (ih.rf g)
      · simp only [upd_other _ _ hg]
        exact ih.rf g
  | @imSet s s' h i v e ih =>
    simp only [SysState.imSet] at e
    cases hp : pSet s.indexMap i v with
    | error e' => rw [hp] at e; cases e
    | ok q =>
      rw [hp] at e
      cases e
      exact ⟨ih.fld, ih.rf, pSet_size hp ih.im⟩
  | setDt h dt ih => exact ⟨ih.fld, ih.rf, ih.im⟩

/-- Reading outside the arrays of a reachable state is undefined behaviour. -/
theorem SysState.Tight.rd_outside {s : SysState α} (h : s.Tight) (f : Fld) (i : Int)
    (hi : i < 0 ∨ (s.n : Int) ≤ i) : ∃ e : Err, e.IsUB ∧ s.rd f i = .error e := by
  rw [SysState.rd, pAt]
  cases hf : s.fld f with
  | none => exact ⟨.null, trivial, rfl⟩
  | some b =>
    refine ⟨.oob, trivial, ?_⟩
    by_cases h0 : 0 ≤ i
    · have := h.fld f b hf
      have : ¬ i.toNat < b.size := by omega
      simp only [deref, ok_bind, h0, Buf.rd, this, if_true, if_false]
    · simp [deref, ok_bind, h0]

theorem destroy_balanced {s : SysState α} (hw : s.Wf)
    (h : (s.n = 0 ∧ s.nc = 0 ∧ s.frees = s.allocs) ∨ (0 < s.n ∧ 0 < s.nc ∧ s.frees + 17 = s.allocs)) :
    s.destroy.frees = s.destroy.allocs := by
  rw [destroy_allocs]
  rcases h with ⟨h1, h2, h3⟩ | ⟨h1, h2, h3⟩
  · have : s.destroy.frees = s.frees := by simp [destroy, h1, h2]
    omega
  · rw [(hw (Or.inl h1)).destroy_frees]
    simp only [h1, h2, if_true]
    omega

theorem SysState.Wf.shows {s : SysState α} (h : s.Wf) : s.Shows s.n s.nc s.val s.rval :=
  ⟨rfl, rfl, fun f i hi => (h.ok hi).rd f hi, fun f i hi => (h.okc (i := i) (by omega)).rrd f (by omega)⟩

theorem SysState.Shows.val_eq {s : SysState α} {n c : Nat} {g : Fld → Nat → α} {r : CFld → Nat → α}
    (h : s.Shows n c g r) (hw : s.Wf) (f : Fld) {i : Nat} (hi : i < n) : s.val f i = g f i := by
  have h1 := h.fld f i hi
  have hn := h.bodies
  rw [(hw.ok (i := i) (by omega)).rd f (by omega)] at h1
  exact Except.ok.inj h1

theorem SysState.Shows.rval_eq {s : SysState α} {n c : Nat} {g : Fld → Nat → α} {r : CFld → Nat → α}
    (h : s.Shows n c g r) (hw : s.Wf) (f : CFld) {i : Nat} (hi : i < 2 * c) :
    s.rval f i = r f i := by
  have h1 := h.rf f i hi
  have hn := h.rows
  rw [(hw.okc (i := i) (by omega)).rrd f (by omega)] at h1
  exact Except.ok.inj h1

theorem SysState.Shows.congr {s : SysState α} {n c : Nat} {g g' : Fld → Nat → α}
    {r r' : CFld → Nat → α} (h : s.Shows n c g r) (hg : ∀ f i, i < n → g f i = g' f i)
    (hr : ∀ f i, i < 2 * c → r f i = r' f i) : s.Shows n c g' r' :=
  ⟨h.bodies, h.rows, fun f i hi => by rw [h.fld f i hi, hg f i hi], fun f i hi => by
    rw [h.rf f i hi, hr f i hi]⟩

/-! ## Construction of states with given contents -/

theorem put_wr {s : SysState α} (h : s.Ok) (f : Fld) {i : Nat} (hi : i < s.n) (v : α) :
    ∃ s', s.wr f (i : Nat) v = .ok s' ∧ s'.Ok ∧ s'.n = s.n ∧ s'.nc = s.nc ∧
      (∀ g j, s'.val g j = if g = f ∧ j = i then v else s.val g j) ∧
      (∀ g j, s'.rval g j = s.rval g j) :=
  ⟨_, h.wr f hi v, h.put f i v, rfl, rfl, h.val_put f i v, fun _ _ => rfl⟩

/-- Every assignment of values can be written into a state. -/
theorem fill_bodies [Zero α] {s : SysState α} (hr : s.Reach) (ho : s.Ok) (g : Fld → Nat → α) :
    ∃ s', SysState.Reach s' ∧ s'.Ok ∧ s'.n = s.n ∧ s'.nc = s.nc ∧
      (∀ f i, i < s.n → s'.val f i = g f i) ∧ (∀ f i, s'.rval f i = s.rval f i) := by
  have step : ∀ (L : List Fld) (s : SysState α), s.Reach → s.Ok → ∃ s', SysState.Reach s' ∧ s'.Ok ∧
      s'.n = s.n ∧ s'.nc = s.nc ∧
      (∀ f i, i < s.n → s'.val f i = if f ∈ L then g f i else s.val f i) ∧
      (∀ f i, s'.rval f i = s.rval f i) := by
    intro L
    induction L with
    | nil => exact fun s hr ho => ⟨s, hr, ho, rfl, rfl, fun f i _ => by simp, fun _ _ => rfl⟩
    | cons F L ih =>
      intro s hr ho
      obtain ⟨s1, r1, o1, n1, c1, v1, q1⟩ := ih s hr ho
      have inner : ∀ N, N ≤ s.n → ∃ s2, SysState.Reach s2 ∧ s2.Ok ∧ s2.n = s1.n ∧ s2.nc = s1.nc ∧
          (∀ f i, s2.val f i = if f = F ∧ i < N then g f i else s1.val f i) ∧
          (∀ f i, s2.rval f i = s1.rval f i) := by
        intro N
        induction N with
        | zero => exact fun _ => ⟨s1, r1, o1, rfl, rfl, fun f i => by simp, fun _ _ => rfl⟩
        | succ N ihN =>
          intro hN
          obtain ⟨s2, r2, o2, n2, c2, v2, q2⟩ := ihN (by omega)
          obtain ⟨s3, e3, o3, n3, c3, v3, q3⟩ := put_wr o2 F (i := N) (by omega) (g F N)
          refine ⟨s3, .wr r2 F _ _ e3, o3, by omega, by omega, fun f i => ?_, fun f i => ?_⟩
          · rw [v3, v2]
            by_cases hf : f = F
            · subst hf
              by_cases hi : i = N
              · subst hi; simp
              · have : i < N + 1 ↔ i < N := by omega
                simp [hi, this]
            · simp [hf]
          · rw [q3, q2]
      obtain ⟨s2, r2, o2, n2, c2, v2, q2⟩ := inner s.n (Nat.le_refl _)
      refine ⟨s2, r2, o2, by omega, by omega, fun f i hi => ?_, fun f i => by rw [q2, q1]⟩
      rw [v2, v1 f i hi]
      by_cases hf : f = F
      · subst hf; simp [hi]
      · simp [hf]
  obtain ⟨s', r', o', n', c', v', q'⟩ := step [.a_theta, .v_theta, .theta, .a_x, .a_y, .v_x, .v_y,
    .p_x, .p_y, .f_x, .f_y, .t, .m] s hr ho
  refine ⟨s', r', o', n', c', fun f i hi => ?_, q'⟩
  rw [v' f i hi]
  cases f <;> simp

theorem fill_rows [Zero α] {s : SysState α} (hr : s.Reach) (ho : s.Ok) (r : CFld → Nat → α) :
    ∃ s', SysState.Reach s' ∧ s'.Ok ∧ s'.n = s.n ∧ s'.nc = s.nc ∧
      (∀ f i, s'.val f i = s.val f i) ∧ (∀ f i, i < s.nc * 2 → s'.rval f i = r f i) := by
  have step : ∀ (L : List CFld) (s : SysState α), s.Reach → s.Ok → ∃ s', SysState.Reach s' ∧ s'.Ok ∧
      s'.n = s.n ∧ s'.nc = s.nc ∧ (∀ f i, s'.val f i = s.val f i) ∧
      (∀ f i, i < s.nc * 2 → s'.rval f i = if f ∈ L then r f i else s.rval f i) := by
    intro L
    induction L with
    | nil => exact fun s hr ho => ⟨s, hr, ho, rfl, rfl, fun _ _ => rfl, fun f i _ => by simp⟩
    | cons F L ih =>
      intro s hr ho
      obtain ⟨s1, r1, o1, n1, c1, q1, v1⟩ := ih s hr ho
      have inner : ∀ N, N ≤ s.nc * 2 → ∃ s2, SysState.Reach s2 ∧ s2.Ok ∧ s2.n = s1.n ∧
          s2.nc = s1.nc ∧ (∀ f i, s2.val f i = s1.val f i) ∧
          (∀ f i, s2.rval f i = if f = F ∧ i < N then r f i else s1.rval f i) := by
        intro N
        induction N with
        | zero => exact fun _ => ⟨s1, r1, o1, rfl, rfl, fun _ _ => rfl, fun f i => by simp⟩
        | succ N ihN =>
          intro hN
          obtain ⟨s2, r2, o2, n2, c2, q2, v2⟩ := ihN (by omega)
          have hlt : N < s2.nc * 2 := by omega
          refine ⟨s2.rput F N (r F N), .rwr r2 F N (r F N) (o2.rwr F hlt _), o2.rput F N _, n2, c2,
            fun f i => ?_, fun f i => ?_⟩
          · rw [val_rput, q2]
          · rw [o2.rval_rput, v2]
            by_cases hf : f = F
            · subst hf
              by_cases hi : i = N
              · subst hi; simp
              · have : i < N + 1 ↔ i < N := by omega
                simp [hi, this]
            · simp [hf]
      obtain ⟨s2, r2, o2, n2, c2, q2, v2⟩ := inner (s.nc * 2) (Nat.le_refl _)
      refine ⟨s2, r2, o2, by omega, by omega, fun f i => by rw [q2, q1], fun f i hi => ?_⟩
      rw [v2, v1 f i hi]
      by_cases hf : f = F
      · subst hf; simp [hi]
      · simp [hf]
  obtain ⟨s', r', o', n', c', q', v'⟩ := step [.r_x, .r_y, .r_t] s hr ho
  refine ⟨s', r', o', n', c', q', fun f i hi => ?_⟩
  rw [v' f i hi]
  cases f <;> simp

/-- Every contents is the contents of a reachable state. -/
theorem reach_shows [Zero α] (n c : Nat) (hn : 0 < n ∨ 0 < c) (g : Fld → Nat → α)
    (r : CFld → Nat → α) : ∃ s, SysState.Reach s ∧ s.Shows n c g r := by
  let s0 : SysState α := (SysState.mk0 (fun _ _ => 0) (fun _ _ => 0)).resize n c
  have r0 : s0.Reach := .resize (.fresh _ _) n c
  have e0 : s0 = ({ (SysState.mk0 (fun _ _ => 0) (fun _ _ => 0) : SysState α).destroy with
      n := n, nc := c } : SysState α).newAll :=
    resize_of_not _ (by simp only [SysState.mk0]; omega)
  have n0 : s0.n = n := by rw [e0]; rfl
  have c0 : s0.nc = c := by rw [e0]; rfl
  have o0 : s0.Ok := r0.wf (by rw [n0, c0]; exact hn)
  obtain ⟨s1, r1, o1, n1, c1, v1, q1⟩ := fill_bodies r0 o0 g
  obtain ⟨s2, r2, o2, n2, c2, v2, q2⟩ := fill_rows r1 o1 r
  have h : s2.Shows s2.n s2.nc g r := r2.wf.shows.congr
    (fun f i hi => by rw [v2, v1 f i (by omega)]) (fun f i hi => by rw [q2 f i (by omega)])
  exact ⟨s2, r2, by omega, by omega, fun f i hi => h.fld f i (by omega),
    fun f i hi => h.rf f i (by omega)⟩

end

end Scs
