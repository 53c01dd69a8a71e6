import Verif.Ode
import Mathlib.Tactic.Choose

/-!
# Lemmas about `SysState`
-/

namespace Scs

variable {α : Type}

/-- All arrays are allocated with the sizes the code intends. -/
structure SysState.Ok (s : SysState α) : Prop where
  fld : ∀ f, ∃ b, s.fld f = some b ∧ b.size = s.n
  rf : ∀ f, ∃ b, s.rf f = some b ∧ b.size = s.nc * 2
  im : ∃ b, s.indexMap = some b ∧ b.size = s.nc

/-- The invariant of every state the API can produce: the arrays are allocated unless both sizes
are zero. -/
def SysState.Wf (s : SysState α) : Prop := (0 < s.n ∨ 0 < s.nc) → s.Ok

/-- Value of a per-body array (arbitrary when it is not allocated). -/
def SysState.val (s : SysState α) (f : Fld) (i : Nat) : α :=
  match s.fld f with
  | some b => b.val i
  | none => s.junk 0 i

/-- Value of a reaction array (arbitrary when it is not allocated). -/
def SysState.rval (s : SysState α) (f : CFld) (i : Nat) : α :=
  match s.rf f with
  | some b => b.val i
  | none => s.junk 0 i

/-- The effect of `state->f[i] = v` on an allocated state. -/
def SysState.put (s : SysState α) (f : Fld) (i : Nat) (v : α) : SysState α :=
  { s with fld := upd s.fld f ((s.fld f).map fun b =>
      { b with val := fun j => if j = i then v else b.val j }) }

/-- The effect of `state->r[i] = v` on an allocated state. -/
def SysState.rput (s : SysState α) (f : CFld) (i : Nat) (v : α) : SysState α :=
  { s with rf := upd s.rf f ((s.rf f).map fun b =>
      { b with val := fun j => if j = i then v else b.val j }) }

namespace SysState

variable {s : SysState α}

theorem Ok.wf (h : s.Ok) : s.Wf := fun _ => h

theorem Wf.ok (h : s.Wf) {i : Nat} (hi : i < s.n) : s.Ok := h (Or.inl (Nat.lt_of_le_of_lt (Nat.zero_le _) hi))

theorem Wf.okc (h : s.Wf) {i : Nat} (hi : i < s.nc * 2) : s.Ok := h (Or.inr (by omega))

theorem Ok.rd (h : s.Ok) (f : Fld) {i : Nat} (hi : i < s.n) : s.rd f i = .ok (s.val f i) := by
  obtain ⟨b, hb, hs⟩ := h.fld f
  simp [SysState.rd, pAt, hb, deref, SysState.val, Buf.rd, hs, hi, ok_bind]

theorem Ok.wr (h : s.Ok) (f : Fld) {i : Nat} (hi : i < s.n) (v : α) :
    s.wr f i v = .ok (s.put f i v) := by
  obtain ⟨b, hb, hs⟩ := h.fld f
  simp [SysState.wr, pSet, hb, deref, SysState.put, Buf.wr, hs, hi, ok_bind]
  rfl

theorem Ok.rrd (h : s.Ok) (f : CFld) {i : Nat} (hi : i < s.nc * 2) :
    s.rrd f i = .ok (s.rval f i) := by
  obtain ⟨b, hb, hs⟩ := h.rf f
  simp [SysState.rrd, pAt, hb, deref, SysState.rval, Buf.rd, hs, hi, ok_bind]

theorem Ok.rwr (h : s.Ok) (f : CFld) {i : Nat} (hi : i < s.nc * 2) (v : α) :
    s.rwr f i v = .ok (s.rput f i v) := by
  obtain ⟨b, hb, hs⟩ := h.rf f
  simp [SysState.rwr, pSet, hb, deref, SysState.rput, Buf.wr, hs, hi, ok_bind]
  rfl

theorem Ok.put (h : s.Ok) (f : Fld) (i : Nat) (v : α) : (s.put f i v).Ok := by
  refine ⟨fun g => ?_, h.rf, h.im⟩
  obtain ⟨b, hb, hs⟩ := h.fld g
  by_cases hg : g = f
  · subst hg
    exact ⟨{ b with val := fun j => if j = i then v else b.val j },
      by simp only [SysState.put, upd_same, hb]; rfl, hs⟩
  · exact ⟨b, by simp only [SysState.put, upd_other _ _ hg, hb], hs⟩

theorem Ok.rput (h : s.Ok) (f : CFld) (i : Nat) (v : α) : (s.rput f i v).Ok := by
  refine ⟨h.fld, fun g => ?_, h.im⟩
  obtain ⟨b, hb, hs⟩ := h.rf g
  by_cases hg : g = f
  · subst hg
    exact ⟨{ b with val := fun j => if j = i then v else b.val j },
      by simp only [SysState.rput, upd_same, hb]; rfl, hs⟩
  · exact ⟨b, by simp only [SysState.rput, upd_other _ _ hg, hb], hs⟩

@[simp] theorem put_n (f : Fld) (i : Nat) (v : α) : (s.put f i v).n = s.n := (rfl)
@[simp] theorem put_nc (f : Fld) (i : Nat) (v : α) : (s.put f i v).nc = s.nc := (rfl)
@[simp] theorem rput_n (f : CFld) (i : Nat) (v : α) : (s.rput f i v).n = s.n := (rfl)
@[simp] theorem rput_nc (f : CFld) (i : Nat) (v : α) : (s.rput f i v).nc = s.nc := (rfl)
@[simp] theorem rval_put (f : Fld) (i : Nat) (v : α) (g : CFld) (j : Nat) :
    (s.put f i v).rval g j = s.rval g j := (rfl)
@[simp] theorem val_rput (f : CFld) (i : Nat) (v : α) (g : Fld) (j : Nat) :
    (s.rput f i v).val g j = s.val g j := (rfl)

theorem Ok.val_put (h : s.Ok) (f : Fld) (i : Nat) (v : α) (g : Fld) (j : Nat) :
    (s.put f i v).val g j = if g = f ∧ j = i then v else s.val g j := by
  obtain ⟨b, hb, hs⟩ := h.fld g
  by_cases hg : g = f
  · subst hg
    simp [SysState.put, SysState.val, upd_same, hb]
  · simp [SysState.put, SysState.val, upd_other _ _ hg, hg]

theorem Ok.rval_rput (h : s.Ok) (f : CFld) (i : Nat) (v : α) (g : CFld) (j : Nat) :
    (s.rput f i v).rval g j = if g = f ∧ j = i then v else s.rval g j := by
  obtain ⟨b, hb, hs⟩ := h.rf g
  by_cases hg : g = f
  · subst hg
    simp [SysState.rput, SysState.rval, upd_same, hb]
  · simp [SysState.rput, SysState.rval, upd_other _ _ hg, hg]

theorem Ok.addTo [Add α] (h : s.Ok) (f : Fld) {i : Nat} (hi : i < s.n) (v : α) :
    s.addTo f i v = .ok (s.put f i (s.val f i + v)) := by
  rw [SysState.addTo, h.rd f hi, ok_bind, h.wr f hi]

/-- `s'` differs from `s` in the per-body arrays only, where body `j` with `P j` has the values
`G j old`. -/
def BodyTo (s s' : SysState α) (P : Nat → Prop) [DecidablePred P]
    (G : Nat → (Fld → α) → Fld → α) : Prop :=
  s' = { s with fld := s'.fld } ∧ s'.Wf ∧
    ∀ f j, s'.val f j = if P j then G j (fun g => s.val g j) f else s.val f j

/-- The same for the reaction arrays. -/
def RowTo (s s' : SysState α) (P : Nat → Prop) [DecidablePred P]
    (G : Nat → (CFld → α) → CFld → α) : Prop :=
  s' = { s with rf := s'.rf } ∧ s'.Wf ∧
    ∀ f j, s'.rval f j = if P j then G j (fun g => s.rval g j) f else s.rval f j

theorem forN_bodies {body : Nat → SysState α → Exec (SysState α)}
    {G : Nat → (Fld → α) → Fld → α} (h : s.Wf) (N : Nat) (hN : N ≤ s.n)
    (hb : ∀ i, i < N → ∀ s1 : SysState α, s1.Ok → i < s1.n → s1 = { s with fld := s1.fld } →
      ∃ s2, body i s1 = .ok s2 ∧ BodyTo s1 s2 (· = i) G) :
    ∃ s', forN N body s = .ok s' ∧ BodyTo s s' (· < N) G := by
  induction N with
  | zero => exact ⟨s, rfl, rfl, h, fun f j => by simp⟩
  | succ N ih =>
    obtain ⟨s1, e1, f1, o1, v1⟩ := ih (Nat.le_of_succ_le hN) fun i hi =>
      hb i (Nat.lt_succ_of_lt hi)
    have hlt : N < s1.n := by rw [f1]; exact hN
    obtain ⟨s2, e2, f2, o2, v2⟩ :=
      hb N (Nat.lt_succ_self N) s1 (o1 (Or.inl (Nat.lt_of_le_of_lt (Nat.zero_le _) hlt))) hlt f1
    refine ⟨s2, by rw [forN_succ, e1, ok_bind, e2], ?_, o2, fun f j => ?_⟩
    · rw [f2, f1]
    · rw [v2 f j]
      by_cases hj : j = N
      · subst hj; simp [v1]
      · have : j < N + 1 ↔ j < N := by omega
        simp [hj, this, v1]

theorem forN_rows {body : Nat → SysState α → Exec (SysState α)}
    {G : Nat → (CFld → α) → CFld → α} (h : s.Wf) (N : Nat) (hN : N ≤ s.nc)
    (hb : ∀ i, i < N → ∀ s1 : SysState α, s1.Ok → i < s1.nc → s1 = { s with rf := s1.rf } →
      ∃ s2, body i s1 = .ok s2 ∧ RowTo s1 s2 (· = i) G) :
    ∃ s', forN N body s = .ok s' ∧ RowTo s s' (· < N) G := by
  induction N with
  | zero => exact ⟨s, rfl, rfl, h, fun f j => by simp⟩
  | succ N ih =>
    obtain ⟨s1, e1, f1, o1, v1⟩ := ih (Nat.le_of_succ_le hN) fun i hi =>
      hb i (Nat.lt_succ_of_lt hi)
    have hlt : N < s1.nc := by rw [f1]; exact hN
    obtain ⟨s2, e2, f2, o2, v2⟩ :=
      hb N (Nat.lt_succ_self N) s1 (o1 (Or.inr (Nat.lt_of_le_of_lt (Nat.zero_le _) hlt))) hlt f1
    refine ⟨s2, by rw [forN_succ, e1, ok_bind, e2], ?_, o2, fun f j => ?_⟩
    · rw [f2, f1]
    · rw [v2 f j]
      by_cases hj : j = N
      · subst hj; simp [v1]
      · have : j < N + 1 ↔ j < N := by omega
        simp [hj, this, v1]

end SysState

/-! ## Allocation -/

namespace SysState

theorem newAll_ok (s : SysState α) : s.newAll.Ok := by
  refine ⟨fun f => ?_, fun f => ?_, ⟨_, rfl, rfl⟩⟩ <;> cases f <;> exact ⟨_, rfl, rfl⟩

@[simp] theorem newAll_n (s : SysState α) : s.newAll.n = s.n := rfl
@[simp] theorem newAll_nc (s : SysState α) : s.newAll.nc = s.nc := rfl
theorem newAll_allocs (s : SysState α) : s.newAll.allocs = s.allocs + 17 := rfl
@[simp] theorem newAll_frees (s : SysState α) : s.newAll.frees = s.frees := rfl
@[simp] theorem newAll_dt (s : SysState α) : s.newAll.dt = s.dt := rfl

@[simp] theorem freeBodies_n (s : SysState α) : s.freeBodies.n = s.n := rfl
@[simp] theorem freeBodies_nc (s : SysState α) : s.freeBodies.nc = s.nc := rfl
@[simp] theorem freeBodies_dt (s : SysState α) : s.freeBodies.dt = s.dt := rfl
@[simp] theorem freeBodies_allocs (s : SysState α) : s.freeBodies.allocs = s.allocs := rfl
@[simp] theorem freeBodies_rf (s : SysState α) : s.freeBodies.rf = s.rf := rfl
@[simp] theorem freeBodies_im (s : SysState α) : s.freeBodies.indexMap = s.indexMap := rfl
theorem freeBodies_fld (s : SysState α) : s.freeBodies.fld = fun _ => none := by
  funext f; cases f <;> rfl
theorem freeBodies_frees (s : SysState α) (h : ∀ f, (s.fld f).isSome) :
    s.freeBodies.frees = s.frees + 13 := by
  have q : ∀ f, ∀ x : SysState α, (x.fld f).isSome → (x.freeF f).frees = x.frees + 1 := by
    intro f x hx
    simp [SysState.freeF, owned, hx]
  unfold freeBodies
  simp only []
  rw [q, q, q, q, q, q, q, q, q, q, q, q, q] <;>
    exact h _

@[simp] theorem freeRows_n (s : SysState α) : s.freeRows.n = s.n := rfl
@[simp] theorem freeRows_nc (s : SysState α) : s.freeRows.nc = s.nc := rfl
@[simp] theorem freeRows_dt (s : SysState α) : s.freeRows.dt = s.dt := rfl
@[simp] theorem freeRows_allocs (s : SysState α) : s.freeRows.allocs = s.allocs := rfl
@[simp] theorem freeRows_fld (s : SysState α) : s.freeRows.fld = s.fld := rfl
@[simp] theorem freeRows_im (s : SysState α) : s.freeRows.indexMap = none := rfl
theorem freeRows_rf (s : SysState α) : s.freeRows.rf = fun _ => none := by
  funext f; cases f <;> rfl
theorem freeRows_frees (s : SysState α) (h : ∀ f, (s.rf f).isSome) (hi : s.indexMap.isSome) :
    s.freeRows.frees = s.frees + 4 := by
  have hx := h .r_x
  have hy := h .r_y
  have ht := h .r_t
  simp [freeRows, freeR, freeI, owned, upd, hx, hy, ht, hi]

@[simp] theorem destroy_n (s : SysState α) : s.destroy.n = 0 := rfl
@[simp] theorem destroy_nc (s : SysState α) : s.destroy.nc = 0 := rfl

theorem destroy_allocs (s : SysState α) : s.destroy.allocs = s.allocs := by
  unfold destroy; simp only []
  split <;> split <;> simp

theorem destroy_dt (s : SysState α) : s.destroy.dt = s.dt := by
  unfold destroy; simp only []
  split <;> split <;> simp

/-- `destroy` frees 13 arrays if there are bodies and 4 if there are constraint rows. -/
theorem Ok.destroy_frees {s : SysState α} (h : s.Ok) :
    s.destroy.frees = s.frees + (if 0 < s.n then 13 else 0) + (if 0 < s.nc then 4 else 0) := by
  have hf : ∀ f, (s.fld f).isSome := fun f => by obtain ⟨b, hb, _⟩ := h.fld f; simp [hb]
  have hr : ∀ f, (s.rf f).isSome := fun f => by obtain ⟨b, hb, _⟩ := h.rf f; simp [hb]
  have hi : s.indexMap.isSome := by obtain ⟨b, hb, _⟩ := h.im; simp [hb]
  unfold destroy; simp only []
  by_cases h1 : 0 < s.n
  · by_cases h2 : 0 < s.nc
    · simp only [h1, h2, if_true, freeBodies_nc]
      rw [freeRows_frees _ (by simpa using hr) (by simpa using hi), freeBodies_frees _ hf]
    · simp only [h1, h2, if_true, if_false, freeBodies_nc]
      rw [freeBodies_frees _ hf]
  · by_cases h2 : 0 < s.nc
    · simp only [h1, h2, if_true, if_false]
      rw [freeRows_frees _ hr hi]
    · simp [h1, h2]

theorem resize_of_ge (s : SysState α) {n c : Nat} (h1 : n ≤ s.n) (h2 : c ≤ s.nc) :
    s.resize n c = s := if_pos ⟨h1, h2⟩

theorem resize_of_not (s : SysState α) {n c : Nat} (h : ¬ (n ≤ s.n ∧ c ≤ s.nc)) :
    s.resize n c = ({ s.destroy with n := n, nc := c } : SysState α).newAll := if_neg h

theorem Wf.resize {s : SysState α} (h : s.Wf) (n c : Nat) : (s.resize n c).Wf := by
  by_cases hc : n ≤ s.n ∧ c ≤ s.nc
  · rw [resize_of_ge s hc.1 hc.2]; exact h
  · rw [resize_of_not s hc]; exact fun _ => newAll_ok _

theorem resize_le (s : SysState α) (n c : Nat) : n ≤ (s.resize n c).n ∧ c ≤ (s.resize n c).nc := by
  by_cases hc : n ≤ s.n ∧ c ≤ s.nc
  · rw [resize_of_ge s hc.1 hc.2]; exact hc
  · rw [resize_of_not s hc]; exact ⟨Nat.le_refl _, Nat.le_refl _⟩

theorem wf_destroy (s : SysState α) : s.destroy.Wf := fun h => by simp at h

theorem wf_mk0 [Zero α] (j : Nat → Nat → α) (k : Nat → Nat → Nat) : (SysState.mk0 j k).Wf :=
  fun h => by simp [SysState.mk0] at h

end SysState

/-! ## Copy -/

namespace SysState

/-- The state after the `memcpy` calls of `copy` when they succeed. -/
def copied (s src : SysState α) : SysState α :=
  { s with
    indexMap := s.indexMap.map fun d =>
      { d with val := fun i => if i < s.nc then (src.indexMap.getD d).val i else d.val i }
    fld := fun f => (s.fld f).map fun d =>
      { d with val := fun i => if i < s.n then ((src.fld f).getD d).val i else d.val i }
    rf := fun f => (s.rf f).map fun d =>
      { d with val := fun i => if i < s.nc * 2 then ((src.rf f).getD d).val i else d.val i } }

theorem memcpy_ok {β : Type} {d s : Buf β} {k : Nat} (h1 : k ≤ s.size) (h2 : k ≤ d.size) :
    memcpy (some d) (some s) k =
      .ok (some { d with val := fun i => if i < k then s.val i else d.val i }) := by
  simp [memcpy, deref, ok_bind, h1, h2]
  rfl

theorem memcpy_oob {β : Type} {d s : Buf β} {k : Nat} (h1 : s.size < k) :
    memcpy (some d) (some s) k = .error .oob := by
  simp [memcpy, deref, ok_bind, Nat.not_le_of_lt h1]

/-- Effect of one `memcpy` of a per-body array. -/
def cF (s src : SysState α) (f : Fld) : SysState α :=
  { s with fld := upd s.fld f ((s.fld f).map fun d =>
      { d with val := fun i => if i < s.n then ((src.fld f).getD d).val i else d.val i }) }

/-- Effect of one `memcpy` of a reaction array. -/
def cR (s src : SysState α) (f : CFld) : SysState α :=
  { s with rf := upd s.rf f ((s.rf f).map fun d =>
      { d with val := fun i => if i < s.nc * 2 then ((src.rf f).getD d).val i else d.val i }) }

theorem Ok.cF {s : SysState α} (h : s.Ok) (src : SysState α) (f : Fld) : (s.cF src f).Ok := by
  refine ⟨fun g => ?_, h.rf, h.im⟩
  obtain ⟨b, hb, hs⟩ := h.fld g
  by_cases hg : g = f
  · subst hg
    exact ⟨{ b with val := fun i => if i < s.n then ((src.fld g).getD b).val i else b.val i },
      by simp only [SysState.cF, upd_same, hb]; rfl, hs⟩
  · exact ⟨b, by simp only [SysState.cF, upd_other _ _ hg, hb], hs⟩

theorem Ok.cR {s : SysState α} (h : s.Ok) (src : SysState α) (f : CFld) : (s.cR src f).Ok := by
  refine ⟨h.fld, fun g => ?_, h.im⟩
  obtain ⟨b, hb, hs⟩ := h.rf g
  by_cases hg : g = f
  · subst hg
    exact ⟨{ b with val := fun i => if i < s.nc * 2 then ((src.rf g).getD b).val i else b.val i },
      by simp only [SysState.cR, upd_same, hb]; rfl, hs⟩
  · exact ⟨b, by simp only [SysState.cR, upd_other _ _ hg, hb], hs⟩

@[simp] theorem cF_n (s src : SysState α) (f : Fld) : (s.cF src f).n = s.n := rfl
@[simp] theorem cF_nc (s src : SysState α) (f : Fld) : (s.cF src f).nc = s.nc := rfl
@[simp] theorem cR_n (s src : SysState α) (f : CFld) : (s.cR src f).n = s.n := rfl
@[simp] theorem cR_nc (s src : SysState α) (f : CFld) : (s.cR src f).nc = s.nc := rfl

theorem cpF_ok {s src : SysState α} (f : Fld) (h : s.Ok) (hs : src.Ok) (hn : s.n = src.n) :
    s.cpF src f = .ok (s.cF src f) := by
  obtain ⟨d, hd, zd⟩ := h.fld f
  obtain ⟨b, hb, zb⟩ := hs.fld f
  rw [cpF, hd, hb, memcpy_ok (by omega) (by omega), cF, hd, hb]; rfl

theorem cpR_ok {s src : SysState α} (f : CFld) (h : s.Ok) (hs : src.Ok) (hn : s.nc = src.nc) :
    s.cpR src f = .ok (s.cR src f) := by
  obtain ⟨d, hd, zd⟩ := h.rf f
  obtain ⟨b, hb, zb⟩ := hs.rf f
  rw [cpR, hd, hb, memcpy_ok (by omega) (by omega), cR, hd, hb]; rfl

theorem cpF_step {s src : SysState α} (f : Fld) (h : s.Ok) (hs : src.Ok) (hn : s.n = src.n)
    (hc : s.nc = src.nc) : ∃ s', s.cpF src f = .ok s' ∧ s' = s.cF src f ∧ s'.Ok ∧ s'.n = src.n ∧
      s'.nc = src.nc :=
  ⟨_, cpF_ok f h hs hn, rfl, h.cF src f, hn, hc⟩

theorem cpR_step {s src : SysState α} (f : CFld) (h : s.Ok) (hs : src.Ok) (hn : s.n = src.n)
    (hc : s.nc = src.nc) : ∃ s', s.cpR src f = .ok s' ∧ s' = s.cR src f ∧ s'.Ok ∧ s'.n = src.n ∧
      s'.nc = src.nc :=
  ⟨_, cpR_ok f h hs hc, rfl, h.cR src f, hn, hc⟩

/-- When source and destination have the same size after `resize`, `copy` copies. -/
theorem copy_ok {s src : SysState α} (ho : (s.resize src.n src.nc).Ok) (hs : src.Ok)
    (hn : (s.resize src.n src.nc).n = src.n) (hc : (s.resize src.n src.nc).nc = src.nc)
    (h0 : src.n ≠ 0) : s.copy src = .ok ((s.resize src.n src.nc).copied src) := by
  rw [copy]
  simp only [h0, if_false]
  generalize s.resize src.n src.nc = x at ho hn hc
  obtain ⟨di, hdi, zdi⟩ := ho.im
  obtain ⟨bi, hbi, zbi⟩ := hs.im
  rw [hdi, hbi, memcpy_ok (by omega) (by omega), ok_bind]
  obtain ⟨ib, hib⟩ : ∃ ib : Buf Nat, ib =
    { di with val := fun i => if i < x.nc then bi.val i else di.val i } := ⟨_, rfl⟩
  have zib : ib.size = x.nc := by rw [hib]; exact zdi
  have g1 : x.copied src = { x.copied src with indexMap := some ib } := by
    rw [hib]; unfold copied; rw [hdi, hbi]; rfl
  rw [g1, ← hib]
  obtain ⟨y, hy⟩ : ∃ y : SysState α, y = { x with indexMap := some ib } := ⟨_, rfl⟩
  have ho' : y.Ok := by rw [hy]; exact ⟨ho.fld, ho.rf, ⟨_, rfl, zib⟩⟩
  have hn' : y.n = src.n := by rw [hy]; exact hn
  have hc' : y.nc = src.nc := by rw [hy]; exact hc
  have g2 : ({ x.copied src with indexMap := some ib } : SysState α)
      = { y.copied src with indexMap := y.indexMap } := by rw [hy]; rfl
  rw [g2, ← hy]
  obtain ⟨s1, e1, q1, o1, n1, c1⟩ := cpF_step .a_theta ho' hs hn' hc'
  obtain ⟨s2, e2, q2, o2, n2, c2⟩ := cpF_step .v_theta o1 hs n1 c1
  obtain ⟨s3, e3, q3, o3, n3, c3⟩ := cpF_step .theta o2 hs n2 c2
  obtain ⟨s4, e4, q4, o4, n4, c4⟩ := cpF_step .a_x o3 hs n3 c3
  obtain ⟨s5, e5, q5, o5, n5, c5⟩ := cpF_step .a_y o4 hs n4 c4
  obtain ⟨s6, e6, q6, o6, n6, c6⟩ := cpF_step .v_x o5 hs n5 c5
  obtain ⟨s7, e7, q7, o7, n7, c7⟩ := cpF_step .v_y o6 hs n6 c6
  obtain ⟨s8, e8, q8, o8, n8, c8⟩ := cpF_step .p_x o7 hs n7 c7
  obtain ⟨s9, e9, q9, o9, n9, c9⟩ := cpF_step .p_y o8 hs n8 c8
  obtain ⟨s10, e10, q10, o10, n10, c10⟩ := cpF_step .f_x o9 hs n9 c9
  obtain ⟨s11, e11, q11, o11, n11, c11⟩ := cpF_step .f_y o10 hs n10 c10
  obtain ⟨s12, e12, q12, o12, n12, c12⟩ := cpF_step .t o11 hs n11 c11
  obtain ⟨s13, e13, q13, o13, n13, c13⟩ := cpF_step .m o12 hs n12 c12
  obtain ⟨s14, e14, q14, o14, n14, c14⟩ := cpR_step .r_x o13 hs n13 c13
  obtain ⟨s15, e15, q15, o15, n15, c15⟩ := cpR_step .r_y o14 hs n14 c14
  obtain ⟨s16, e16, q16, o16, n16, c16⟩ := cpR_step .r_t o15 hs n15 c15
  rw [e1, ok_bind, e2, ok_bind, e3, ok_bind, e4, ok_bind, e5, ok_bind, e6, ok_bind, e7, ok_bind, e8, ok_bind, e9, ok_bind, e10, ok_bind, e11, ok_bind, e12, ok_bind, e13, ok_bind, e14, ok_bind, e15, ok_bind, e16]
  congr 1
  subst q16 q15 q14 q13 q12 q11 q10 q9 q8 q7 q6 q5 q4 q3 q2 q1
  unfold copied cF cR
  simp only []
  congr 1
  · funext f
    cases f <;> rfl
  · funext f
    cases f <;> rfl

end SysState

end Scs
