import Verif.WorldRun

/-!
# Runs without undefined behaviour

For any arithmetic: a run of a system whose constraints and force generators are attached to bodies
of the system either succeeds, or stops at a failing assert or a division by zero. No access outside
an array, through a null pointer or to an indeterminate pointer.
-/

namespace Scs

/-- Loop rule. -/
theorem sfor {σ : Type} {n : Nat} {f : Nat → σ → Exec σ} {s : σ} {R : σ → Prop} (hs : R s)
    (h : ∀ i, i < n → ∀ a, R a → Wp (f i a) R SolveErr) : Wp (forN n f s) R SolveErr :=
  wp_forN' (fun _ a => R a) hs (fun i hi a ha => h i hi a ha) (fun _ ha => ha)

theorem sq {σ τ : Type} {x : Exec τ} {v : τ} {f : τ → Exec σ} {Q : σ → Prop} (e : x = .ok v)
    (h : Wp (f v) Q SolveErr) : Wp (x >>= f) Q SolveErr := by
  rw [e, ok_bind]; exact h

/-! ## The state -/

section
variable {α : Type}

/-- A well formed state for `n` bodies and `nc` rows. -/
structure SysState.Shape (s : SysState α) (n nc : Nat) : Prop where
  wf : s.Wf
  n : s.n = n
  nc : s.nc = nc

namespace SysState.Shape

variable {s : SysState α} {n nc : Nat} (h : s.Shape n nc)
include h

theorem rd (f : Fld) {i : Nat} (hi : i < n) :
    Wp (s.rd f (i : Nat)) (fun _ => True) SolveErr := by
  have hi : i < s.n := by rw [h.n]; exact hi
  rw [(h.wf.ok hi).rd f hi]; trivial

theorem wr (f : Fld) {i : Nat} (hi : i < n) (v : α) :
    Wp (s.wr f (i : Nat) v) (fun s' => s'.Shape n nc) SolveErr := by
  have hi : i < s.n := by rw [h.n]; exact hi
  rw [(h.wf.ok hi).wr f hi]
  exact ⟨((h.wf.ok hi).put f i v).wf, h.n, h.nc⟩

theorem rrd (f : CFld) {i : Nat} (hi : i < nc * 2) :
    Wp (s.rrd f (i : Nat)) (fun _ => True) SolveErr := by
  have hi : i < s.nc * 2 := by rw [h.nc]; exact hi
  rw [(h.wf.okc hi).rrd f hi]; trivial

theorem rwr (f : CFld) {i : Nat} (hi : i < nc * 2) (v : α) :
    Wp (s.rwr f (i : Nat) v) (fun s' => s'.Shape n nc) SolveErr := by
  have hi : i < s.nc * 2 := by rw [h.nc]; exact hi
  rw [(h.wf.okc hi).rwr f hi]
  exact ⟨((h.wf.okc hi).rput f i v).wf, h.n, h.nc⟩

theorem setDt (d : α) : ({ s with dt := d } : SysState α).Shape n nc :=
  ⟨wf_setDt h.wf d, h.n, h.nc⟩

theorem writes {s' : SysState α} (f : ForceWrites s s') : s'.Shape n nc :=
  ⟨f.wf h.wf, f.n.trans h.n, f.nc.trans h.nc⟩

end SysState.Shape

end

section
variable {α : Type} [Zero α] [Add α] [Mul α] [Sub α] [Neg α] [Fp α]

namespace SysState.Shape

variable {s : SysState α} {n nc : Nat}

theorem addTo (h : s.Shape n nc) (f : Fld) {i : Nat} (hi : i < n) (v : α) :
    Wp (s.addTo f (i : Nat) v) (fun s' => s'.Shape n nc) SolveErr :=
  sb' (h.rd f hi) fun _ _ => h.wr f hi _

theorem mulBy (h : s.Shape n nc) (f : Fld) {i : Nat} (hi : i < n) (v : α) :
    Wp (mulBy s f i v) (fun s' => s'.Shape n nc) SolveErr :=
  sb' (h.rd f hi) fun _ _ => h.wr f hi _

theorem localToWorld (h : s.Shape n nc) (x y : α) {i : Nat} (hi : i < n) :
    Wp (s.localToWorld x y (i : Nat)) (fun _ => True) SolveErr :=
  sb' (h.rd _ hi) fun _ _ => sb' (h.rd _ hi) fun _ _ => sb' (h.rd _ hi) fun _ _ => trivial

theorem velocityAtPoint (h : s.Shape n nc) (x y : α) {i : Nat} (hi : i < n) :
    Wp (s.velocityAtPoint x y (i : Nat)) (fun _ => True) SolveErr :=
  sb' (h.localToWorld x y hi) fun _ _ => sb' (h.rd _ hi) fun _ _ => sb' (h.rd _ hi) fun _ _ =>
    sb' (h.rd _ hi) fun _ _ => sb' (h.rd _ hi) fun _ _ => sb' (h.rd _ hi) fun _ _ => trivial

theorem applyForce (h : s.Shape n nc) (x y fx fy : α) {i : Nat} (hi : i < n) :
    Wp (s.applyForce x y fx fy (i : Nat)) (fun s' => s'.Shape n nc) SolveErr :=
  sb' (h.localToWorld x y hi) fun _ _ => sb' (h.addTo _ hi _) fun _ h => sb' (h.addTo _ hi _)
    fun _ h => sb' (h.rd _ hi) fun _ _ => sb' (h.rd _ hi) fun _ _ => h.addTo _ hi _

end SysState.Shape

/-! ## Constraints and force generators -/

/-- The constraint can be evaluated: in every well formed state, when each of its `n` bodies has a
place in the state, `calculate` succeeds, or stops at an assert or a division by zero. -/
def CKind.Careful (k : CKind α) (n : Nat) : Prop :=
  ∀ (idx : Nat → Exec Int) (o : Output α) (s : SysState α), s.Wf →
    (∀ j, j < n → ∃ i : Nat, i < s.n ∧ idx j = .ok (i : Int)) →
    Wp (k.calculate idx o s) (fun _ => True) SolveErr

/-- The force generator can be applied: in every well formed state, when each body in `S` has a
place in the state, `apply` succeeds, or stops at an assert or a division by zero. -/
def Gen.Careful (g : Gen α) (S : Nat → Prop) : Prop :=
  ∀ (bodies : Nat → Body α) (s : SysState α), s.Wf →
    (∀ b, S b → ∃ i : Nat, i < s.n ∧ (bodies b).index = (i : Int)) →
    Wp (g.apply bodies s) (fun _ => True) SolveErr

/-- The shipped constraints can be evaluated. -/
theorem CKind.careful {k : CKind α} {r n : Nat} (hk : k.counts = some (r, n)) : k.Careful n := by
  intro idx o s hs hidx
  have hh : s.Shape s.n s.nc := ⟨hs, rfl, rfl⟩
  cases k with
  | base => cases hk
  | custom f => cases hk
  | constantRotation p => trivial
  | clutch p => trivial
  | simpleGear p => trivial
  | fixedPosition p =>
    cases hk
    obtain ⟨i, hi, e⟩ := hidx 0 (by omega)
    exact sq e (sb' (hh.rd _ hi) fun _ _ => sb' (hh.rd _ hi) fun _ _ => sb' (hh.rd _ hi) fun _ _ =>
      sb' (hh.rd _ hi) fun _ _ => trivial)
  | fixedRotation p =>
    cases hk
    obtain ⟨i, hi, e⟩ := hidx 0 (by omega)
    exact sq e (sb' (hh.rd _ hi) fun _ _ => trivial)
  | line p =>
    cases hk
    obtain ⟨i, hi, e⟩ := hidx 0 (by omega)
    exact sq e (sb' (hh.rd _ hi) fun _ _ => sb' (hh.rd _ hi) fun _ _ => sb' (hh.rd _ hi) fun _ _ =>
      sb' (hh.rd _ hi) fun _ _ => trivial)
  | rotationFriction p =>
    cases hk
    obtain ⟨i, hi, e⟩ := hidx 0 (by omega)
    exact sq e trivial
  | link p =>
    cases hk
    obtain ⟨i, hi, e⟩ := hidx 0 (by omega)
    obtain ⟨j, hj, e'⟩ := hidx 1 (by omega)
    exact sq e (sq e' (sb' (hh.rd _ hi) fun _ _ => sb' (hh.rd _ hi) fun _ _ =>
      sb' (hh.rd _ hi) fun _ _ => sb' (hh.rd _ hj) fun _ _ => sb' (hh.rd _ hj) fun _ _ =>
      sb' (hh.rd _ hj) fun _ _ => sb' (hh.rd _ hi) fun _ _ => sb' (hh.rd _ hj) fun _ _ => trivial))
  | rolling p =>
    cases hk
    obtain ⟨i, hi, e⟩ := hidx 0 (by omega)
    obtain ⟨j, hj, e'⟩ := hidx 1 (by omega)
    exact sq e (sq e' (sb' (hh.rd _ hi) fun _ _ => sb' (hh.rd _ hi) fun _ _ =>
      sb' (hh.rd _ hi) fun _ _ => sb' (hh.rd _ hj) fun _ _ => sb' (hh.rd _ hj) fun _ _ =>
      sb' (hh.rd _ hj) fun _ _ => sb' (hh.rd _ hi) fun _ _ => sb' (hh.rd _ hi) fun _ _ =>
      sb' (hh.rd _ hi) fun _ _ => sb' (hh.rd _ hj) fun _ _ => sb' (hh.rd _ hj) fun _ _ => trivial))

theorem springEnd_safe {s : SysState α} {n nc : Nat} (h : s.Shape n nc) {bodies : Nat → Body α}
    {b i : Nat} (hi : i < n) (e : (bodies b).index = (i : Int)) (x y : α) :
    Wp (springEnd bodies b x y s) (fun _ => True) SolveErr := by
  rw [springEnd, e, if_pos (by omega)]
  exact sb' (h.localToWorld x y hi) fun _ _ => sb' (h.velocityAtPoint x y hi) fun _ _ => trivial

theorem springDir_safe (hd : DivOk α) (dx dy : α) :
    Wp (springDir dx dy) (fun _ => True) SolveErr := by
  rw [springDir]
  split
  · exact sb' (hd _ _).de fun _ _ => sb' (hd _ _).de fun _ _ => trivial
  · trivial

theorem pull_safe (hd : DivOk α) {s : SysState α} {n nc : Nat} (h : s.Shape n nc)
    {bodies : Nat → Body α} {p : Spring α} {b b' i i' : Nat} (hi : i < n)
    (e : (bodies b).index = (i : Int)) (hi' : i' < n) (e' : (bodies b').index = (i' : Int)) :
    Wp (p.pull bodies b b' s) (fun s' => s'.Shape n nc) SolveErr := by
  rw [Spring.pull]
  refine sb' (springEnd_safe h hi e _ _) fun _ _ => sb' (springEnd_safe h hi' e' _ _) fun _ _ =>
    sb' (springDir_safe hd _ _) fun _ _ => ?_
  rw [e, e']
  exact sb' (h.applyForce _ _ _ _ hi) fun _ h => h.applyForce _ _ _ _ hi'

/-- The shipped force generators can be applied. -/
theorem Gen.Within.careful (hd : DivOk α) {g : Gen α} {S : Nat → Prop} (hg : g.Within S) :
    g.Careful S := by
  intro bodies s hs hb
  have hh : s.Shape s.n s.nc := ⟨hs, rfl, rfl⟩
  cases g with
  | custom f => exact hg.elim
  | gravity a =>
    refine (sfor (R := fun s' => s'.Shape s.n s.nc) hh fun i hi s' h => ?_).imp fun _ _ => trivial
    exact sb' (h.rd _ hi) fun _ _ => h.addTo _ hi _
  | static p =>
    obtain ⟨b, hS, e⟩ := hg
    obtain ⟨i, hi, e'⟩ := hb b hS
    simp only [Gen.apply, e, Ptr.get, ok_bind, e']
    exact (hh.applyForce _ _ _ _ hi).imp fun _ _ => trivial
  | spring p =>
    simp only [Gen.apply, Spring.apply]
    rcases hg with e | ⟨⟨b, hS, e⟩, e' | ⟨b', hS', e'⟩⟩
    · simp [e, Ptr.isNull, ok_bind]
    · simp [e, e', Ptr.isNull, ok_bind]
    · obtain ⟨i, hi, q⟩ := hb b hS
      obtain ⟨i', hi', q'⟩ := hb b' hS'
      simp only [e, e', Ptr.isNull, Ptr.get, ok_bind, Bool.false_eq_true, if_false]
      exact (pull_safe hd hh hi q hi' q').imp fun _ _ => trivial
  | motor p =>
    obtain ⟨⟨b, hS, e⟩, b', hS', e'⟩ := hg
    obtain ⟨i, hi, q⟩ := hb b hS
    obtain ⟨i', hi', q'⟩ := hb b' hS'
    have hr : ∀ f, Wp (motorRead s f (i : Nat)) (fun _ => True) SolveErr := fun f => by
      rw [motorRead, if_neg (by omega)]; exact hh.rd _ hi
    have ht : ∀ v, Wp (motorReact s (i : Nat) v) (fun s' => s'.Shape s.n s.nc) SolveErr :=
      fun v => by
        rw [motorReact, if_pos (by omega)]
        exact sb' (hh.rd _ hi) fun _ _ => hh.wr _ hi _
    simp only [Gen.apply, Motor.apply, e, e', Ptr.get, ok_bind, q, q']
    exact sb' (hr _) fun _ _ => sb' (hr _) fun _ _ => sb' (hh.rd _ hi') fun _ _ =>
      sb' (hh.rd _ hi') fun _ _ => sb' (ht _) fun _ h => (h.addTo _ hi' _).imp fun _ _ => trivial

end

/-! ## The parts of `process` -/

section
variable {α : Type} [Zero α] [Add α] [Mul α] [Sub α] [Neg α] [Fp α]

/-- What the constraints and force generators of a system must satisfy, in terms of the arrays of
the system. -/
structure World.Guarded (w : World α) : Prop where
  pos : ∀ c ∈ w.cs, 1 ≤ (w.cons c).rows
  rows : ∀ c ∈ w.cs, (w.cons c).rows ≤ 3
  two : ∀ c ∈ w.cs, (w.cons c).bodyCount ≤ 2
  idx : ∀ c ∈ w.cs, ∀ k, k < (w.cons c).bodyCount →
    ∃ i : Nat, i < w.bodyCount ∧ (w.cons c).idx w.bodies k = .ok (i : Int)
  kind : ∀ c ∈ w.cs, (w.cons c).kind.Careful (w.cons c).bodyCount
  gens : ∀ g ∈ w.fg, (w.gens g).Careful (· ∈ w.rb) ∧ (w.gens g).OnlyForces
  place : ∀ b ∈ w.rb, ∃ i : Nat, i < w.bodyCount ∧ (w.bodies b).index = (i : Int)
  rb : w.rb.Nodup
  cs : w.cs.Nodup
  ring : w.RingOk

theorem World.Guarded.con {w : World α} (g : w.Guarded) : w.conCount ≤ w.fullCount := by
  rw [fullCount_eq, ← rowCounts_length]
  have : ∀ l : List Nat, (∀ r ∈ l, 1 ≤ r) → l.length ≤ l.sum := by
    intro l
    induction l with
    | nil => intro _; simp
    | cons a l ih =>
      intro h
      have h1 := h a (by simp)
      have h2 := ih fun r hr => h r (by simp [hr])
      simp
      omega
  refine this _ fun r hr => ?_
  obtain ⟨c, hc, e⟩ := List.mem_map.mp hr
  exact e ▸ g.pos c hc

/-- The state is large enough. -/
structure World.Fits (w : World α) (n nc : Nat) : Prop where
  n : w.bodyCount ≤ n
  nc : w.fullCount ≤ nc

theorem c_set {mem : Store α} (h : MemOk mem) (t : MId) (c r : Nat) (v : α) :
    Wp (mem.set t c r v) MemOk SolveErr := h.run_se (.set t c r v) trivial trivial

theorem c_get {mem : Store α} (h : MemOk mem) (t : MId) (c r : Nat) :
    Wp (mem.get t c r) (fun _ => True) SolveErr := (h.get_safe t c r).se

theorem c_sget {mem : Store α} (h : MemOk mem) (t : SId) (r e k : Nat) :
    Wp (mem.sget 3 2 t r e k) (fun _ => True) SolveErr := (h.sget_safe t r e k).se

theorem c_init0 {mem : Store α} (h : MemOk mem) (t : MId) (a b : Nat) :
    Wp (mem.init0 t a b) MemOk SolveErr := h.run_se (.init0 t a b) trivial trivial

theorem c_setBlock {mem : Store α} (h : MemOk mem) (t : SId) (r e : Nat) (i : Int) :
    Wp (mem.setBlock 2 t r e i) MemOk SolveErr := h.run_se (.setBlock t r e i) trivial trivial

theorem c_sset {mem : Store α} (h : MemOk mem) (t : SId) (r e k : Nat) (v : α) :
    Wp (mem.sset 3 2 t r e k v) MemOk SolveErr := h.run_se (.sset t r e k v) trivial trivial

theorem c_sinit {mem : Store α} (h : MemOk mem) (t : SId) (a b : Nat) :
    Wp (mem.sinit 3 2 t a b) MemOk SolveErr :=
  h.run_se (.sinit t a b) (Or.inl (h.sfresh t)) trivial

theorem c_sleftScale {mem : Store α} (h : MemOk mem) (a : SId) (sc : MId) (t : SId) :
    Wp (mem.sleftScale 3 2 a sc t) MemOk SolveErr :=
  h.run_se (.sleftScale a sc t) (Or.inl (h.sfresh t)) trivial

theorem c_rd1 {n : Nat} {a : Nat → α} {i : Nat} (hi : i < n) :
    Wp (rd1 n a i) (fun _ => True) SolveErr := by rw [rd1, if_pos hi]; trivial

theorem c_rd2 {n m : Nat} {a : Nat → Nat → α} {i j : Nat} (hi : i < n) (hj : j < m) :
    Wp (rd2 n m a i j) (fun _ => True) SolveErr := by rw [rd2, if_pos ⟨hi, hj⟩]; trivial

theorem safe_populateState {w : World α} (g : w.Guarded) (hs : w.st.Wf) :
    ∃ s, w.populateState = .ok s ∧
      s.Shape (w.st.resize w.bodyCount w.fullCount).n (w.st.resize w.bodyCount w.fullCount).nc ∧
      w.Fits s.n s.nc := by
  obtain ⟨s, e, h1, h2, h3, h4, h5, _⟩ := populateState_spec hs g.con
  exact ⟨s, e, ⟨h1, h2, h3⟩, h4, h5⟩

theorem safe_populateMass (hd : DivOk α) {w : World α} {mem : Store α} (h : MemOk mem) :
    Wp (w.populateMass mem) MemOk SolveErr := by
  rw [World.populateMass]
  refine sb' (c_init0 h _ _ _) fun m h => sb' (c_init0 h _ _ _) fun m h => sfor h fun i hi m h => ?_
  rw [World.popMass]
  exact sq (vecAt_rb w hi) (sb' (c_set h _ _ _ _) fun m h => sb' (c_set h _ _ _ _) fun m h =>
    sb' (c_set h _ _ _ _) fun m h => sb' (hd _ _).de fun _ _ => sb' (c_set h _ _ _ _) fun m h =>
    sb' (hd _ _).de fun _ _ => sb' (c_set h _ _ _ _) fun m h => sb' (hd _ _).de fun _ _ =>
    c_set h _ _ _ _)

theorem safe_processForces {w : World α} (g : w.Guarded) {s : SysState α} {n nc : Nat}
    (hs : s.Shape n nc) (hf : w.Fits n nc) :
    Wp (w.processForces s) (fun s' => s'.Shape n nc) SolveErr := by
  rw [World.processForces]
  refine sb' (sfor (R := fun s' : SysState α => s'.Shape n nc) hs fun i hi s h => ?_) fun s h => ?_
  · have hi : i < n := Nat.lt_of_lt_of_le hi hf.n
    exact sb' (h.wr _ hi _) fun _ h => sb' (h.wr _ hi _) fun _ h => h.wr _ hi _
  · refine sfor (R := fun s' : SysState α => s'.Shape n nc) h fun i hi s h => ?_
    have hi : i < w.fg.length := hi
    refine sq (vecAt_ok hi) ?_
    have hm := g.gens w.fg[i] (List.getElem_mem hi)
    have h1 := hm.1 w.bodies s h.wf fun b hb => by
      obtain ⟨k, hk, e⟩ := g.place b hb
      exact ⟨k, by rw [h.n]; exact Nat.lt_of_lt_of_le hk hf.n, e⟩
    cases e : (w.gens w.fg[i]).apply w.bodies s with
    | error _ => rw [e] at h1; exact h1
    | ok s' => exact h.writes (hm.2 _ _ _ e)

theorem safe_loadVec {t : MId} {fx fy ft : Fld} {k n nc : Nat} {s : SysState α} {mem : Store α}
    (hs : s.Shape n nc) (hk : k ≤ n) (h : MemOk mem) :
    Wp (loadVec t fx fy ft k s mem) MemOk SolveErr := by
  rw [loadVec]
  refine sfor h fun i hi m h => ?_
  have hi : i < n := Nat.lt_of_lt_of_le hi hk
  exact sb' (hs.rd _ hi) fun _ _ => sb' (c_set h _ _ _ _) fun m h => sb' (hs.rd _ hi) fun _ _ =>
    sb' (c_set h _ _ _ _) fun m h => sb' (hs.rd _ hi) fun _ _ => c_set h _ _ _ _

theorem safe_loadQdot {k n nc : Nat} {s : SysState α} {mem : Store α} (hs : s.Shape n nc)
    (hk : k ≤ n) (h : MemOk mem) : Wp (loadQdot k s mem) MemOk SolveErr := by
  rw [loadQdot]
  exact sb' (h.run_se (.resize .ivQdot 1 (k * 3)) trivial trivial) fun m h => safe_loadVec hs hk h

theorem safe_loadFext {k n nc : Nat} {s : SysState α} {mem : Store α} (hs : s.Shape n nc)
    (hk : k ≤ n) (h : MemOk mem) : Wp (loadFext k s mem) MemOk SolveErr := by
  rw [loadFext]
  exact sb' (h.run_se (.init .ivFExt 1 (3 * k) (Fp.lit 0)) trivial trivial) fun m h =>
    safe_loadVec hs hk h

theorem safe_calculate {w : World α} (g : w.Guarded) {c : Nat} (hc : c ∈ w.cs) {s : SysState α}
    {n nc : Nat} (hs : s.Shape n nc) (hf : w.Fits n nc) (o : Output α) :
    Wp ((w.cons c).kind.calculate ((w.cons c).idx w.bodies) o s) (fun _ => True) SolveErr :=
  g.kind c hc _ o s hs.wf fun j hj => by
    obtain ⟨i, hi, e⟩ := g.idx c hc j hj
    exact ⟨i, by rw [hs.n]; exact Nat.lt_of_lt_of_le hi hf.n, e⟩

theorem safe_optRow {w : World α} (g : w.Guarded) {c : Nat} (hc : c ∈ w.cs) {out : Output α}
    {dt : α} {k jf : Nat} (hk : k < (w.cons c).rows) {mem : Store α} (h : MemOk mem) :
    Wp (optRow (w.cons c) w.bodies out dt k jf mem) MemOk SolveErr := by
  have hk : k < maxRows := Nat.lt_of_lt_of_le hk (g.rows c hc)
  have h2 := g.two c hc
  rw [optRow]
  refine sb' (R := MemOk) ?_ fun m h => sb' (R := MemOk) ?_ fun m h => sb' (c_rd1 hk) fun _ _ =>
    sb' (c_set h _ _ _ _) fun m h => sb' (c_rd1 hk) fun _ _ => sb' (c_set h _ _ _ _) fun m h =>
    sb' (c_rd2 hk (by decide)) fun _ _ => sb' (c_set h _ _ _ _) fun m h =>
    sb' (c_rd2 hk (by decide)) fun _ _ => c_set h _ _ _ _
  · rw [optBlocks]
    refine sfor h fun i hi m h => ?_
    obtain ⟨b, hb, e⟩ := g.idx c hc i hi
    refine sq e ?_
    split
    · exact h
    · exact c_setBlock h _ _ _ _
  · rw [optEntries]
    refine sfor h fun i hi m h => ?_
    obtain ⟨b, hb, e⟩ := g.idx c hc (i / 3) (by omega)
    refine sq e ?_
    split
    · exact h
    · exact sb' (c_rd2 hk (by show i < 3 * 2; omega)) fun _ _ => c_sset h _ _ _ _ _

theorem safe_optAssemble {w : World α} (g : w.Guarded) {dt : α} {raw : Output α} {s : SysState α}
    {n nc : Nat} (hs : s.Shape n nc) (hf : w.Fits n nc) {mem : Store α} (h : MemOk mem) :
    Wp (w.optAssemble dt raw s mem) MemOk SolveErr := by
  rw [World.optAssemble]
  refine sb' (c_sinit h _ _ _) fun m h => sb' (c_init0 h _ _ _) fun m h => sb' (c_init0 h _ _ _)
    fun m h => sb' (c_init0 h _ _ _) fun m h => sb' (R := fun q => MemOk q.mem) ?_
    fun q (h : MemOk q.mem) => h
  refine sfor (R := fun (q : Asm α) => MemOk q.mem) h fun i hi q h => ?_
  have hi : i < w.cs.length := hi
  rw [World.optCon]
  refine sq (vecAt_ok hi) (sb' (safe_calculate g (List.getElem_mem hi) hs hf _) fun _ _ =>
    sfor (R := fun (q : Asm α) => MemOk q.mem) h fun k hk q h => ?_)
  exact sb' (safe_optRow g (List.getElem_mem hi) hk h) fun m h => h

theorem safe_optRight (hd : DivOk α) {bias dt : α} {mem : Store α} (h : MemOk mem) :
    Wp (optRight bias dt mem) MemOk SolveErr := by
  rw [optRight]
  refine sb' (h.run_se (.scale .ivFExt dt .ivReg0) trivial trivial) fun m h => ?_
  refine sb' (h.run_se (.leftScale .ivReg0 .ivMinv .ivReg1) trivial trivial) fun m h => ?_
  refine sb' (h.run_se (.addM .ivReg1 .ivQdot .ivQdotPrime) trivial trivial) fun m h => ?_
  refine sb' (hd _ _).de fun e _ => ?_
  refine sb' (h.run_se (.scale .ivC e .ivBErr) trivial trivial) fun m h => ?_
  refine sb' (h.run_se (.smultiply .ivJ .ivQdotPrime .ivReg0) trivial trivial) fun m h => ?_
  refine sb' (h.run_se (.addM .ivReg0 .ivVBias .ivReg1) trivial trivial) fun m h => ?_
  refine sb' (h.run_se (.addM .ivReg1 .ivBErr .ivReg0) trivial trivial) fun m h => ?_
  exact h.run_se (.negate .ivReg0 .ivRight) trivial trivial

theorem safe_optSolve (hd : DivOk α) {w : World α} (hsv : w.sle ≠ none) {dt : α} {mem : Store α}
    (h : MemOk mem) : Wp (w.optSolve dt mem) MemOk SolveErr := by
  obtain ⟨sv, e⟩ := Option.ne_none_iff_exists'.mp hsv
  rw [World.optSolve, e]
  refine sq rfl (sb' (R := fun q => MemOk q.1) ?_ fun q (h : MemOk q.1) => sc fun _ =>
    sb' (hd _ _).de fun r _ =>
    sb' (h.run_se (.scale .ivLambda r .ivReg0) trivial trivial) fun m h => c_sleftScale h _ _ _)
  rw [optCall]
  split
  · exact h.solve_safe hd sysRestr_ok sv .ivJ .ivMinv .ivRight (some .ivLambda) .ivLambda
  · exact h.solveL_safe hd sysRestr_ok sv .ivJ .ivMinv .ivRight .ivLimits .ivLambda (some .ivLambda)

theorem safe_writeReactions {mf n nc : Nat} {mem : Store α} (h : MemOk mem) {s : SysState α}
    (hs : s.Shape n nc) (hm : mf ≤ nc) :
    Wp (writeReactions mf mem s) (fun s' => s'.Shape n nc) SolveErr := by
  rw [writeReactions]
  refine sfor (R := fun s' : SysState α => s'.Shape n nc) hs fun i hi s hs => ?_
  refine sfor (R := fun s' : SysState α => s'.Shape n nc) hs fun j hj s hs => ?_
  have hp : i * 2 + j < nc * 2 := by omega
  exact sb' (c_sget h _ _ _ _) fun _ _ => sb' (hs.rwr _ hp _) fun _ hs =>
    sb' (c_sget h _ _ _ _) fun _ _ => sb' (hs.rwr _ hp _) fun _ hs =>
    sb' (c_sget h _ _ _ _) fun _ _ => hs.rwr _ hp _

theorem safe_startAccel {k n nc : Nat} {mem : Store α} (h : MemOk mem) {s : SysState α}
    (hs : s.Shape n nc) (hk : k ≤ n) :
    Wp (startAccel k mem s) (fun s' => s'.Shape n nc) SolveErr := by
  rw [startAccel]
  refine sfor (R := fun s' : SysState α => s'.Shape n nc) hs fun i hi s hs => ?_
  have hi : i < n := Nat.lt_of_lt_of_le hi hk
  exact sb' (c_get h _ _ _) fun _ _ => sb' (hs.wr _ hi _) fun _ hs =>
    sb' (c_get h _ _ _) fun _ _ => sb' (hs.wr _ hi _) fun _ hs =>
    sb' (c_get h _ _ _) fun _ _ => hs.wr _ hi _

theorem safe_scaleAccel {k n nc : Nat} {mem : Store α} (h : MemOk mem) {s : SysState α}
    (hs : s.Shape n nc) (hk : k ≤ n) :
    Wp (scaleAccel k mem s) (fun s' => s'.Shape n nc) SolveErr := by
  rw [scaleAccel]
  refine sfor (R := fun s' : SysState α => s'.Shape n nc) hs fun i hi s hs => ?_
  have hi : i < n := Nat.lt_of_lt_of_le hi hk
  exact sb' (c_get h _ _ _) fun _ _ => sb' (c_get h _ _ _) fun _ _ => sb' (hs.mulBy _ hi _)
    fun _ hs => sb' (hs.mulBy _ hi _) fun _ hs => hs.mulBy _ hi _

theorem safe_addReactions {w : World α} (g : w.Guarded) {n nc : Nat} {s : SysState α}
    (hs : s.Shape n nc) (hf : w.Fits n nc) :
    Wp (w.addReactions s) (fun q => q.1.Shape n nc) SolveErr := by
  rw [World.addReactions]
  refine wp_forN' (fun i (q : SysState α × Nat) => q.1.Shape n nc ∧ q.2 = w.off i)
    ⟨hs, (off_zero w).symm⟩ ?_ (fun q hq => hq.1)
  rintro i hi q ⟨hs, hq⟩
  have hi : i < w.cs.length := hi
  refine sq (vecAt_ok hi) ?_
  have hc := List.getElem_mem hi
  refine wp_forN' (fun j (q : SysState α × Nat) => q.1.Shape n nc ∧ q.2 = w.off i + j)
    ⟨hs, hq⟩ ?_ (fun q hq => ⟨hq.1, by rw [hq.2, off_succ w hi]⟩)
  rintro j hj q ⟨hs, hq⟩
  have hlt : q.2 < nc := by
    rw [hq]; exact Nat.lt_of_lt_of_le (off_lt w hi hj) hf.nc
  refine sb' (R := fun s' : SysState α => s'.Shape n nc) ?_ fun s hs => ⟨hs, by
    show q.2 + 1 = _
    omega⟩
  rw [addReaction]
  refine sfor (R := fun s' : SysState α => s'.Shape n nc) hs fun k hk s hs => ?_
  obtain ⟨b, hb, e⟩ := g.idx _ hc k hk
  have hb : b < n := Nat.lt_of_lt_of_le hb hf.n
  have h2 := g.two _ hc
  have hp : q.2 * 2 + k < nc * 2 := by omega
  exact sq e (sb' (hs.rrd _ hp) fun _ _ => sb' (hs.addTo _ hb _) fun _ hs =>
    sb' (hs.rrd _ hp) fun _ _ => sb' (hs.addTo _ hb _) fun _ hs =>
    sb' (hs.rrd _ hp) fun _ _ => hs.addTo _ hb _)

theorem safe_applyReactions {w : World α} (g : w.Guarded) {n nc : Nat} {s : SysState α}
    (hs : s.Shape n nc) (hf : w.Fits n nc) {mem : Store α} (h : MemOk mem) :
    Wp (w.applyReactions mem s) (fun s' => s'.Shape n nc) SolveErr := by
  rw [World.applyReactions]
  exact sb' (safe_writeReactions h hs hf.nc) fun _ hs => sb' (safe_startAccel h hs hf.n) fun _ hs =>
    sb' (safe_addReactions g hs hf) fun _ hs => safe_scaleAccel h hs hf.n

/-- What `process` keeps between evaluations. -/
theorem safe_optEval (hd : DivOk α) {w : World α} (g : w.Guarded) (hsv : w.sle ≠ none)
    {env : Env α} {dt : α} {x : Ctx α} {s : SysState α} {n nc : Nat} (hf : w.Fits n nc)
    (h : MemOk x.mem) (hs : s.Shape n nc) :
    Wp (w.optEval env dt x s) (fun q => MemOk q.1.mem ∧ q.2.Shape n nc) SolveErr := by
  rw [World.optEval]
  refine sb' (safe_processForces g hs hf) fun s hs => sb' (R := fun q : Store α × SysState α =>
    MemOk q.1 ∧ q.2.Shape n nc) ?_ fun q h => h
  rw [World.optConstraints]
  exact sb' (safe_optAssemble g hs hf h) fun m h => sb' (safe_loadQdot hs hf.n h) fun m h =>
    sb' (safe_loadFext hs hf.n h) fun m h => sb' (safe_optRight hd h) fun m h =>
    sb' (safe_optSolve hd hsv h) fun m h => sb' (safe_applyReactions g hs hf h) fun s hs => ⟨h, hs⟩

theorem safe_genRow {w : World α} (g : w.Guarded) {c : Nat} (hc : c ∈ w.cs) {out : Output α}
    {k jf : Nat} (hk : k < (w.cons c).rows) {mem : Store α} (h : MemOk mem) :
    Wp (genBlocks (w.cons c) w.bodies jf mem >>= genEntries (w.cons c) w.bodies out k jf) MemOk
      SolveErr := by
  have hk : k < maxRows := Nat.lt_of_lt_of_le hk (g.rows c hc)
  have h2 := g.two c hc
  refine sb' (R := MemOk) ?_ fun m h => ?_
  · rw [genBlocks]
    refine sfor h fun i hi m h => ?_
    obtain ⟨b, hb, e⟩ := g.idx c hc i hi
    refine sq e ?_
    split
    · exact h
    · exact sb' (c_setBlock h _ _ _ _) fun m h => c_setBlock h _ _ _ _
  · rw [genEntries]
    refine sfor h fun i hi m h => ?_
    obtain ⟨b, hb, e⟩ := g.idx c hc (i / 3) (by omega)
    have hi : i < 3 * maxBodies := by show i < 3 * 2; omega
    refine sq e ?_
    split
    · exact h
    · exact sb' (c_rd2 hk hi) fun _ _ => sb' (c_sset h _ _ _ _ _) fun m h => sb' (c_rd2 hk hi)
        fun _ _ => sb' (c_sset h _ _ _ _ _) fun m h => sb' (c_rd1 hk) fun _ _ =>
        sb' (c_set h _ _ _ _) fun m h => sb' (c_rd1 hk) fun _ _ => sb' (c_set h _ _ _ _) fun m h =>
        sb' (c_rd1 hk) fun _ _ => c_set h _ _ _ _

theorem safe_genAssemble {w : World α} (g : w.Guarded) {raw : Output α} {s : SysState α}
    {n nc : Nat} (hs : s.Shape n nc) (hf : w.Fits n nc) {mem : Store α} (h : MemOk mem) :
    Wp (w.genAssemble raw s mem) MemOk SolveErr := by
  rw [World.genAssemble]
  refine sb' (c_sinit h _ _ _) fun m h => sb' (c_sinit h _ _ _) fun m h => sb' (c_init0 h _ _ _)
    fun m h => sb' (c_init0 h _ _ _) fun m h => sb' (c_init0 h _ _ _) fun m h =>
    sb' (R := fun q => MemOk q.mem) ?_ fun q (h : MemOk q.mem) => h
  refine sfor (R := fun (q : Asm α) => MemOk q.mem) h fun i hi q h => ?_
  have hi : i < w.cs.length := hi
  rw [World.genCon]
  refine sq (vecAt_ok hi) (sb' (safe_calculate g (List.getElem_mem hi) hs hf _) fun out _ =>
    sfor (R := fun (q : Asm α) => MemOk q.mem) h fun k hk q h => ?_)
  have := safe_genRow g (List.getElem_mem hi) (out := out) (jf := q.jf) hk h
  rw [← bind_assoc]
  exact sb' this fun m h => h

theorem safe_genGains {mf : Nat} {mem : Store α} (h : MemOk mem) :
    Wp (genGains mf mem) MemOk SolveErr := by
  rw [genGains]
  refine sb' (h.run_se (.smultiply .ivJ .ivQdot .ivReg0) trivial trivial) fun m h => ?_
  exact sfor h fun i hi m h => sb' (c_get h _ _ _) fun _ _ => sb' (c_get h _ _ _) fun _ _ =>
    sb' (c_set h _ _ _ _) fun m h => sb' (c_get h _ _ _) fun _ _ => sb' (c_get h _ _ _) fun _ _ =>
    c_set h _ _ _ _

theorem safe_genRight {mem : Store α} (h : MemOk mem) : Wp (genRight mem) MemOk SolveErr := by
  rw [genRight]
  refine sb' (h.run_se (.leftScale .ivFExt .ivMinv .ivReg2) trivial trivial) fun m h => ?_
  refine sb' (h.run_se (.smultiply .ivJ .ivReg2 .ivReg0) trivial trivial) fun m h => ?_
  refine sb' (h.run_se (.smultiply .ivJdot .ivQdot .ivReg2) trivial trivial) fun m h => ?_
  refine sb' (h.run_se (.negate .ivReg2 .ivReg1) trivial trivial) fun m h => ?_
  refine sb' (h.run_se (.subtract .ivReg1 .ivReg0 .ivReg2) trivial trivial) fun m h => ?_
  refine sb' (h.run_se (.subtract .ivReg2 .ivKs .ivReg0) trivial trivial) fun m h => ?_
  exact h.run_se (.subtract .ivReg0 .ivKd .ivRight) trivial trivial

theorem safe_genSolve (hd : DivOk α) {w : World α} (hsv : w.sle ≠ none) {mem : Store α}
    (h : MemOk mem) : Wp (w.genSolve mem) MemOk SolveErr := by
  obtain ⟨sv, e⟩ := Option.ne_none_iff_exists'.mp hsv
  rw [World.genSolve, e]
  exact sq rfl (sb' (h.solve_safe hd sysRestr_ok sv .ivJ .ivMinv .ivRight (some .ivLambda)
    .ivLambda) fun q h => sc fun _ => c_sleftScale h _ _ _)

theorem safe_genEval (hd : DivOk α) {w : World α} (g : w.Guarded) (hsv : w.sle ≠ none)
    {env : Env α} {x : Ctx α} {s : SysState α} {n nc : Nat} (hf : w.Fits n nc)
    (h : MemOk x.mem) (hs : s.Shape n nc) :
    Wp (w.genEval env x s) (fun q => MemOk q.1.mem ∧ q.2.Shape n nc) SolveErr := by
  rw [World.genEval]
  refine sb' (safe_processForces g hs hf) fun s hs => sb' (R := fun q : Store α × SysState α =>
    MemOk q.1 ∧ q.2.Shape n nc) ?_ fun q h => h
  rw [World.genConstraints]
  exact sb' (safe_loadQdot hs hf.n h) fun m h => sb' (safe_genAssemble g hs hf h) fun m h =>
    sb' (safe_genGains h) fun m h => sb' (safe_loadFext hs hf.n h) fun m h =>
    sb' (safe_genRight h) fun m h => sb' (safe_genSolve hd hsv h) fun m h =>
    sb' (safe_applyReactions g hs hf h) fun s hs => ⟨h, hs⟩

end

/-! ## The ODE solvers -/

section
variable {α : Type} [Zero α] [Add α] [Mul α] [Sub α] [Neg α] [Fp α]

/-- The states inside an RK4 solver can take a copy of `s`. -/
def Ode.Takes (o : Ode α) (s : SysState α) : Prop :=
  match o with
  | .rk4 r => (r.init.Wf ∧ r.init.Fits s) ∧ r.acc.Wf ∧ r.acc.Fits s
  | _ => True

/-- The states inside an RK4 solver have the given size. -/
def Ode.Sized (o : Ode α) (n nc : Nat) : Prop :=
  match o with
  | .rk4 r => r.init.Shape n nc ∧ r.acc.Shape n nc
  | _ => True

/-- Evaluations left in a sub-step. -/
def RkStage.left : RkStage → Nat
  | .stage1 => 4
  | .stage2 => 3
  | .stage3 => 2
  | .stage4 => 1
  | _ => 0

/-- Evaluations left in a sub-step. -/
def Ode.left : Ode α → Nat
  | .rk4 r => r.stage.left
  | _ => 1

theorem safe_start {o : Ode α} {s : SysState α} {n nc : Nat} (hs : s.Shape n nc) (ht : o.Takes s)
    (dt : α) : Wp (o.start s dt) (fun o' => o'.Sized n nc ∧ 1 ≤ o'.left ∧ o'.left ≤ 4) SolveErr := by
  cases o with
  | base d => exact ⟨trivial, show 1 ≤ 1 by decide, show 1 ≤ 4 by decide⟩
  | euler d => exact ⟨trivial, show 1 ≤ 1 by decide, show 1 ≤ 4 by decide⟩
  | nsv d => exact ⟨trivial, show 1 ≤ 1 by decide, show 1 ≤ 4 by decide⟩
  | rk4 r =>
    obtain ⟨⟨hi, fi⟩, ha, fa⟩ := ht
    obtain ⟨i, e1, h1, h2, h3, _⟩ := copy_fits hi hs.wf fi
    obtain ⟨a, e2, h4, h5, h6, _⟩ := copy_fits ha hs.wf fa
    simp only [Ode.start, Rk4.start, e1, e2, ok_bind]
    exact ⟨⟨⟨h1, h2.trans hs.n, h3.trans hs.nc⟩, h4, h5.trans hs.n, h6.trans hs.nc⟩,
      show 1 ≤ 4 by decide, show 4 ≤ 4 by decide⟩

theorem safe_rkHalf (hd : DivOk α) {dt : α} {ini s : SysState α} {n nc : Nat} (hi : ini.Shape n nc)
    (hs : s.Shape n nc) (v a : Fld) {i : Nat} (h : i < n) :
    Wp (rkHalf dt ini v a i s) (fun s' => s'.Shape n nc) SolveErr :=
  sb' (hi.rd _ h) fun _ _ => sb' (hs.rd _ h) fun _ _ => sb' (hd _ _).de fun _ _ => hs.wr _ h _

theorem safe_rkFull {dt : α} {ini s : SysState α} {n nc : Nat} (hi : ini.Shape n nc)
    (hs : s.Shape n nc) (v a : Fld) {i : Nat} (h : i < n) :
    Wp (rkFull dt ini v a i s) (fun s' => s'.Shape n nc) SolveErr :=
  sb' (hi.rd _ h) fun _ _ => sb' (hs.rd _ h) fun _ _ => hs.wr _ h _

/-- A step of the solver; the flag says whether it was the last. -/
theorem safe_step (hd : DivOk α) {o : Ode α} {s : SysState α} {n nc : Nat} (hs : s.Shape n nc)
    (ho : o.Sized n nc) (h1 : 1 ≤ o.left) :
    Wp (o.step s) (fun q => q.1.Sized n nc ∧ q.2.1.Shape n nc ∧ ∃ k, o.left = k + 1 ∧
      (q.2.2 = false → 1 ≤ k) ∧ (match o with
        | .rk4 _ => ∃ r, q.1 = .rk4 r ∧ r.nextStage.left = k
        | _ => True)) SolveErr := by
  cases o with
  | base d => exact ⟨trivial, hs, 0, rfl, (fun h => by cases h), trivial⟩
  | euler d => exact ⟨trivial, hs.setDt _, 0, rfl, (fun h => by cases h), trivial⟩
  | nsv d => exact ⟨trivial, hs.setDt _, 0, rfl, (fun h => by cases h), trivial⟩
  | rk4 r =>
    obtain ⟨hi, ha⟩ := ho
    have h1 : 1 ≤ r.stage.left := h1
    have hn := hs.n
    have half : Wp (forN s.n (rkHalfBody r.dt r.init) s) (fun s' => s'.Shape n nc) SolveErr := by
      refine sfor (R := fun s' : SysState α => s'.Shape n nc) hs fun i h s hs => ?_
      have h : i < n := hn ▸ h
      exact sb' (safe_rkHalf hd hi hs _ _ h) fun _ hs => sb' (safe_rkHalf hd hi hs _ _ h) fun _ hs =>
        sb' (safe_rkHalf hd hi hs _ _ h) fun _ hs => sb' (safe_rkHalf hd hi hs _ _ h) fun _ hs =>
        sb' (safe_rkHalf hd hi hs _ _ h) fun _ hs => safe_rkHalf hd hi hs _ _ h
    have full : Wp (forN s.n (rkFullBody r.dt r.init) s) (fun s' => s'.Shape n nc) SolveErr := by
      refine sfor (R := fun s' : SysState α => s'.Shape n nc) hs fun i h s hs => ?_
      have h : i < n := hn ▸ h
      exact sb' (safe_rkFull hi hs _ _ h) fun _ hs => sb' (safe_rkFull hi hs _ _ h) fun _ hs =>
        sb' (safe_rkFull hi hs _ _ h) fun _ hs => sb' (safe_rkFull hi hs _ _ h) fun _ hs =>
        sb' (safe_rkFull hi hs _ _ h) fun _ hs => safe_rkFull hi hs _ _ h
    simp only [Ode.step, Rk4.step]
    cases hst : r.stage with
    | stage1 =>
      exact ⟨⟨hi, ha⟩, hs.setDt _, 3, by simp [Ode.left, hst, RkStage.left], fun _ => by decide,
        _, rfl, rfl⟩
    | stage2 =>
      simp only [bind_assoc]
      refine sb' half fun s hs => sb' (hd _ _).de fun _ _ => ?_
      exact ⟨⟨hi, ha⟩, hs.setDt _, 2, by simp [Ode.left, hst, RkStage.left], fun _ => by decide,
        _, rfl, rfl⟩
    | stage3 =>
      simp only [bind_assoc]
      refine sb' half fun s hs => sb' (hd _ _).de fun _ _ => ?_
      exact ⟨⟨hi, ha⟩, hs.setDt _, 1, by simp [Ode.left, hst, RkStage.left], fun _ => by decide,
        _, rfl, rfl⟩
    | stage4 =>
      simp only [bind_assoc]
      refine sb' full fun s hs => ?_
      exact ⟨⟨hi, ha⟩, hs.setDt _, 0, by simp [Ode.left, hst, RkStage.left], (fun h => by cases h),
        _, rfl, rfl⟩
    | complete => rw [hst] at h1; exact absurd h1 (by decide)
    | undefined => rw [hst] at h1; exact absurd h1 (by decide)

theorem safe_rkAcc (hd : DivOk α) {dt w : α} {sys acc : SysState α} {n nc : Nat}
    (hs : sys.Shape n nc) (ha : acc.Shape n nc) (v a : Fld) {i : Nat} (h : i < n) :
    Wp (rkAcc dt w sys v a i acc) (fun s' => s'.Shape n nc) SolveErr :=
  sb' (hd _ _).de fun _ _ => sb' (hs.rd _ h) fun _ _ => ha.addTo _ h _

theorem safe_rkAccR (hd : DivOk α) {dt w : α} {sys acc : SysState α} {n nc : Nat}
    (hs : sys.Shape n nc) (ha : acc.Shape n nc) (f : CFld) {i : Nat} (h : i < nc) :
    Wp (rkAccR dt w sys f i acc) (fun s' => s'.Shape n nc) SolveErr :=
  sb' (hd _ _).de fun _ _ => sb' (hs.rrd _ (by omega)) fun _ _ =>
    sb' (ha.rrd _ (by omega)) fun _ _ => ha.rwr _ (by omega) _

theorem safe_rkGet {acc s : SysState α} {n nc : Nat} (ha : acc.Shape n nc) (hs : s.Shape n nc)
    (f : Fld) {i : Nat} (h : i < n) :
    Wp (rkGet acc f i s) (fun s' => s'.Shape n nc) SolveErr :=
  sb' (ha.rd _ h) fun _ _ => hs.wr _ h _

theorem safe_rkGetR {acc s : SysState α} {n nc : Nat} (ha : acc.Shape n nc) (hs : s.Shape n nc)
    (f : CFld) {i : Nat} (h : i < nc) :
    Wp (rkGetR acc f i s) (fun s' => s'.Shape n nc) SolveErr :=
  sb' (ha.rrd _ (by omega)) fun _ _ => hs.rwr _ (by omega) _

theorem safe_odeSolve (hd : DivOk α) {o : Ode α} {s : SysState α} {n nc : Nat} (hs : s.Shape n nc)
    (ho : o.Sized n nc) : Wp (o.solve s) (fun q => q.1.Sized n nc ∧ q.2.Shape n nc ∧
      ∀ r, o = .rk4 r → q.1.left = r.nextStage.left) SolveErr := by
  cases o with
  | base d => exact ⟨trivial, hs, fun r e => by cases e⟩
  | euler d =>
    simp only [Ode.solve]
    refine sb' (R := fun s' : SysState α => s'.Shape n nc) ?_ fun s hs => ⟨trivial, hs, fun r e => by cases e⟩
    refine sfor (R := fun s' : SysState α => s'.Shape n nc) (hs.setDt d) fun i h' s' hs' => ?_
    have h : i < n := by rw [← hs.n]; exact h'
    clear hs; rename' hs' => hs
    exact sb' (hs.rd _ h) fun _ _ => sb' (hs.addTo _ h _) fun _ hs => sb' (hs.rd _ h) fun _ _ =>
      sb' (hs.addTo _ h _) fun _ hs => sb' (hs.rd _ h) fun _ _ => sb' (hs.addTo _ h _) fun _ hs =>
      sb' (hs.rd _ h) fun _ _ => sb' (hs.addTo _ h _) fun _ hs => sb' (hs.rd _ h) fun _ _ =>
      sb' (hs.addTo _ h _) fun _ hs => sb' (hs.rd _ h) fun _ _ => hs.addTo _ h _
  | nsv d =>
    simp only [Ode.solve]
    refine sb' (R := fun s' : SysState α => s'.Shape n nc) ?_ fun s hs => ⟨trivial, hs, fun r e => by cases e⟩
    refine sfor (R := fun s' : SysState α => s'.Shape n nc) (hs.setDt d) fun i h' s' hs' => ?_
    have h : i < n := by rw [← hs.n]; exact h'
    clear hs; rename' hs' => hs
    exact sb' (hs.rd _ h) fun _ _ => sb' (hs.addTo _ h _) fun _ hs => sb' (hs.rd _ h) fun _ _ =>
      sb' (hs.addTo _ h _) fun _ hs => sb' (hs.rd _ h) fun _ _ => sb' (hs.addTo _ h _) fun _ hs =>
      sb' (hs.rd _ h) fun _ _ => sb' (hs.addTo _ h _) fun _ hs => sb' (hs.rd _ h) fun _ _ =>
      sb' (hs.addTo _ h _) fun _ hs => sb' (hs.rd _ h) fun _ _ => hs.addTo _ h _
  | rk4 r =>
    obtain ⟨hi, ha⟩ := ho
    rw [Ode.solve]
    refine sb' (R := fun q : Rk4 α × SysState α => q.1.init.Shape n nc ∧ q.1.acc.Shape n nc ∧
      q.2.Shape n nc ∧ q.1.stage = r.nextStage) ?_ fun q hq => ⟨⟨hq.1, hq.2.1⟩, hq.2.2.1,
        fun r' e => by cases e; rw [Ode.left, hq.2.2.2]⟩
    simp only [Rk4.solve]
    rw [hs.n, hs.nc]
    refine sb' (sfor (R := fun s' : SysState α => s'.Shape n nc) ha fun i h acc ha => ?_)
      fun acc ha => sb' (sfor (R := fun s' : SysState α => s'.Shape n nc) ha fun i h acc ha => ?_)
      fun acc ha => ?_
    · exact sb' (safe_rkAcc hd hs ha _ _ h) fun _ ha => sb' (safe_rkAcc hd hs ha _ _ h) fun _ ha =>
        sb' (safe_rkAcc hd hs ha _ _ h) fun _ ha => sb' (safe_rkAcc hd hs ha _ _ h) fun _ ha =>
        sb' (safe_rkAcc hd hs ha _ _ h) fun _ ha => safe_rkAcc hd hs ha _ _ h
    · exact sb' (safe_rkAccR hd hs ha _ h) fun _ ha => sb' (safe_rkAccR hd hs ha _ h) fun _ ha =>
        safe_rkAccR hd hs ha _ h
    · split
      · refine sb' (sfor (R := fun s' : SysState α => s'.Shape n nc) hs fun i h s hs => ?_)
          fun s hs => sb' (R := fun s' : SysState α => s'.Shape n nc) ?_
          fun s hs => ⟨hi, ha, hs, rfl⟩
        · exact sb' (safe_rkGet ha hs _ h) fun _ hs => sb' (safe_rkGet ha hs _ h) fun _ hs =>
            sb' (safe_rkGet ha hs _ h) fun _ hs => sb' (safe_rkGet ha hs _ h) fun _ hs =>
            sb' (safe_rkGet ha hs _ h) fun _ hs => safe_rkGet ha hs _ h
        · rw [hs.nc]
          refine sfor (R := fun s' : SysState α => s'.Shape n nc) hs fun i h s hs => ?_
          exact sb' (safe_rkGetR ha hs _ h) fun _ hs => sb' (safe_rkGetR ha hs _ h) fun _ hs =>
            safe_rkGetR ha hs _ h
      · exact ⟨hi, ha, hs, rfl⟩

/-- The stage loop ends and keeps the sizes. -/
theorem safe_odeLoop (hd : DivOk α) {τ : Type} {ev : τ → SysState α → Exec (τ × SysState α)}
    {X : τ → Prop} {n nc : Nat} (hev : ∀ x s, X x → s.Shape n nc →
      Wp (ev x s) (fun q => X q.1 ∧ q.2.Shape n nc) SolveErr) :
    ∀ (k : Nat) (x : τ) (o : Ode α) (s : SysState α), X x → s.Shape n nc → o.Sized n nc →
      1 ≤ o.left → o.left ≤ k →
      Wp (odeLoop ev k x o s) (fun z => X z.1 ∧ z.2.1.Sized n nc ∧ z.2.2.Shape n nc) SolveErr
  | 0, _, _, _, _, _, _, h1, hk => absurd (Nat.le_trans h1 hk) (by decide)
  | k + 1, x, o, s, hx, hs, ho, h1, hk => by
    rw [odeLoop]
    refine sb' (safe_step hd hs ho h1) fun q hq => ?_
    obtain ⟨hq1, hq2, j, hj, hb, hr⟩ := hq
    refine sb' (hev x q.2.1 hx hq2) fun e he => sb' (safe_odeSolve hd he.2 hq1) fun z hz => ?_
    obtain ⟨z1, z2, z3⟩ := hz
    cases hf : q.2.2 with
    | true => exact ⟨he.1, z1, z2⟩
    | false =>
      have hj1 := hb hf
      simp only [Bool.false_eq_true, if_false]
      have hl : z.1.left = j := by
        cases o with
        | base d => have : 1 = j + 1 := hj; omega
        | euler d => have : 1 = j + 1 := hj; omega
        | nsv d => have : 1 = j + 1 := hj; omega
        | rk4 r =>
          obtain ⟨r', e1, e2⟩ := hr
          rw [← e2]
          exact z3 r' e1
      exact safe_odeLoop hd hev k e.1 z.1 z.2 he.1 z2 z1 (by omega) (by omega)

theorem safe_odeRun (hd : DivOk α) {τ : Type} {ev : τ → SysState α → Exec (τ × SysState α)}
    {X : τ → Prop} {n nc : Nat} (hev : ∀ x s, X x → s.Shape n nc →
      Wp (ev x s) (fun q => X q.1 ∧ q.2.Shape n nc) SolveErr) {x : τ} {o : Ode α} {s : SysState α}
    (hx : X x) (hs : s.Shape n nc) (ht : o.Takes s) (dt : α) :
    Wp (odeRun ev x o s dt) (fun z => X z.1 ∧ z.2.1.Sized n nc ∧ z.2.2.Shape n nc) SolveErr := by
  rw [odeRun]
  refine sb' (safe_start hs ht dt) fun o ho => ?_
  refine sb' (safe_odeLoop hd hev 5 x o s hx hs ho.1 ho.2.1 (by omega)) fun z hz => ?_
  refine ⟨hz.1, ?_, hz.2.2⟩
  have h := hz.2.1
  revert h
  cases z.2.1 <;> exact fun h => h

theorem Ode.Sized.takes {o : Ode α} {s : SysState α} {n nc : Nat} (h : o.Sized n nc)
    (hs : s.Shape n nc) : o.Takes s := by
  cases o with
  | rk4 r => exact ⟨⟨h.1.wf, .inl ⟨h.1.n.trans hs.n.symm, h.1.nc.trans hs.nc.symm⟩⟩, h.2.wf,
      .inl ⟨h.2.n.trans hs.n.symm, h.2.nc.trans hs.nc.symm⟩⟩
  | _ => trivial

/-! ## `process` -/

/-- `process` of the optimized system. -/
theorem safe_optProcess (hd : DivOk α) {w : World α} (g : w.Guarded) (h : MemOk w.mem)
    (hs : w.st.Wf) (hn : w.nsv.sort = 2) (hsv : w.sle ≠ none) (env : Env α) (dt : α) (steps : Int) :
    Wp (w.optProcess env dt steps) (fun _ => True) SolveErr := by
  obtain ⟨s, e, hsh, hf⟩ := safe_populateState g hs
  rw [World.optProcess]
  refine sq e (sb' (safe_populateMass hd h) fun mem h => ?_)
  refine sb' (R := fun q : Ctx α × Ode α × SysState α => MemOk q.1.mem ∧ q.2.1.Sized s.n s.nc ∧
    q.2.2.Shape s.n s.nc) ?_ fun q hq => ?_
  · rw [World.optLoop]
    have hself : s.Shape s.n s.nc := ⟨hsh.wf, rfl, rfl⟩
    have ho : w.nsv.Sized s.n s.nc := by
      cases ho : w.nsv with
      | rk4 r => rw [ho] at hn; cases hn
      | _ => trivial
    refine sfor (R := fun q : Ctx α × Ode α × SysState α => MemOk q.1.mem ∧ q.2.1.Sized s.n s.nc ∧
      q.2.2.Shape s.n s.nc) ⟨h, ho, hself⟩ fun i _ q hq => ?_
    refine sb' (hd _ _).de fun x _ => ?_
    exact safe_odeRun hd (X := fun x : Ctx α => MemOk x.mem)
      (fun x s hx hs => safe_optEval hd g hsv hf hx hs) hq.1 hq.2.2 (hq.2.1.takes hq.2.2) x
  · obtain ⟨w1, z, e1, e2, e3, _, _⟩ := propagate_spec
      (w := { w with st := q.2.2, mem := q.1.mem, nsv := q.2.1 }) g.rows g.two g.rb g.cs hq.2.2.wf
      (hf.n.trans hq.2.2.n.ge) (pos := fun jf k => jf * 2 + k) (fun f k h1 h2 => by
        have h1 : f < w.fullCount := h1
        have := hf.nc
        rw [hq.2.2.nc]; omega)
    have hpr : ({ w with st := q.2.2, mem := q.1.mem, nsv := q.2.1 } : World α).propagateResults
        q.2.2 = .ok z.1 := by
      rw [World.propagateResults, e1, ok_bind, e2, ok_bind]
      rfl
    refine sq hpr ?_
    obtain ⟨w', e4, _⟩ := record_ok (w := z.1) (by
      rw [e3]; exact g.ring) q.1.times
    exact sq e4 trivial

/-- `process` of the generic system. -/
theorem safe_genProcess (hd : DivOk α) {w : World α} (g : w.Guarded) (h : MemOk w.mem)
    (hs : w.st.Wf) (hsv : w.sle ≠ none) {o : Ode α} (ho : w.ode = some o)
    (ht : ∀ s : SysState α, s.n = (w.st.resize w.bodyCount w.fullCount).n →
      s.nc = (w.st.resize w.bodyCount w.fullCount).nc → o.Takes s)
    (env : Env α) (dt : α) (steps : Int) :
    Wp (w.genProcess env dt steps) (fun _ => True) SolveErr := by
  obtain ⟨s, e, hsh, hf⟩ := safe_populateState g hs
  rw [World.genProcess]
  refine sq e (sb' (safe_populateMass hd h) fun mem h => ?_)
  refine sb' (R := fun q : Ctx α × Option (Ode α) × SysState α => MemOk q.1.mem ∧
    q.2.2.Shape s.n s.nc) ?_ fun q hq => ?_
  · rw [World.genLoop]
    have hself : s.Shape s.n s.nc := ⟨hsh.wf, rfl, rfl⟩
    refine (sfor (R := fun q : Ctx α × Option (Ode α) × SysState α => MemOk q.1.mem ∧
      q.2.2.Shape s.n s.nc ∧ ∃ o, q.2.1 = some o ∧ o.Takes q.2.2) ⟨h, hself, o, ho,
        ht s hsh.n hsh.nc⟩ fun i _ q hq => ?_).mono (fun q hq => ⟨hq.1, hq.2.1⟩) fun _ h => h
    obtain ⟨h1, h2, o, h3, h4⟩ := hq
    rw [h3]
    refine sq rfl (sb' (hd _ _).de fun x _ => ?_)
    refine sb' (safe_odeRun hd (X := fun x : Ctx α => MemOk x.mem)
      (fun x s hx hs => safe_genEval hd g hsv hf hx hs) h1 h2 h4 x) fun z hz => ?_
    exact ⟨hz.1, hz.2.2, _, rfl, hz.2.1.takes hz.2.2⟩
  · obtain ⟨w1, z, e1, e2, e3, _, _⟩ := propagate_spec
      (w := { w with st := q.2.2, mem := q.1.mem, ode := q.2.1 }) g.rows g.two g.rb g.cs hq.2.wf
      (hf.n.trans hq.2.n.ge) (pos := fun jf _ => jf) (fun f k h1 h2 => by
        have h1 : f < w.fullCount := h1
        have := hf.nc
        rw [hq.2.nc]; omega)
    have hst : w1.st = q.2.2 := by
      obtain ⟨w1', f1, f2, _⟩ := storeBodies_spec
        (w := { w with st := q.2.2, mem := q.1.mem, ode := q.2.1 }) g.rb hq.2.wf
        (hf.n.trans hq.2.n.ge)
      rw [e1] at f1
      cases f1
      rw [f2]
    refine sq e1 ?_
    rw [hst]
    refine sq e2 ?_
    obtain ⟨w', e4, _⟩ := record_ok (w := z.1) (by
      rw [e3]; exact g.ring) q.1.times
    rw [e4]; trivial

end

end Scs
