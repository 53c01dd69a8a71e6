import Verif.TwinAsm
import Verif.WorldProc

/-!
# Two runs of the same program: calls of `process`
-/

namespace Scs

section
variable {α : Type} [Zero α] [Add α] [Mul α] [Sub α] [Neg α] [Fp α]
variable {w w' : World α} {B : Nat → Nat → Nat}

/-- `w` with other contents of the memory the program has not written. -/
def World.redo (w : World α) (fx fy ft : Nat → Nat → Nat → α) (st : SysState α) (mem : Store α)
    (ring : Scs.Prof → Buf Int) (ode : Option (Ode α)) (nsv : Ode α) : World α :=
  { w with cons := fun k => { w.cons k with F_x := fx k, F_y := fy k, F_t := ft k }, st := st,
           mem := mem, ring := ring, ode := ode, nsv := nsv }

/-- Two optional ODE solvers of the same class. -/
def OdeLike : Option (Ode α) → Option (Ode α) → Prop
  | none, none => True
  | some o, some o' => o.Alike o'
  | _, _ => False

/-- The profiling arrays are complete. -/
structure World.Rings (w : World α) : Prop where
  size : ∀ p, (w.ring p).size = profSamples
  frame : w.frame < profSamples

/-- The worlds of two runs of one program. -/
structure Mate (w w' : World α) : Prop where
  eq : ∃ fx fy ft st mem ring ode nsv, w' = w.redo fx fy ft st mem ring ode nsv
  wf : w.st.Wf
  wf' : w'.st.Wf
  n : w'.st.n = w.st.n
  nc : w'.st.nc = w.st.nc
  ring : w.Rings
  ring' : w'.Rings
  mem : Twin [.ivLambda] [] w.mem w'.mem
  ode : OdeLike w.ode w'.ode
  nsv : w.nsv.Alike w'.nsv

/-- The conditions of `World.Set` without the sizes. -/
structure World.Set0 (w : World α) (B : Nat → Nat → Nat) : Prop where
  fit : w.Fit B
  low : w.Low B
  kinds : w.Shipped
  gens : ∀ g ∈ w.fg, (w.gens g).Within (fun b => InPlace w.bodyCount (w.bodies b).index)
  rb : w.rb.Nodup
  cs : w.cs.Nodup

theorem Mate.populate (h : Mate w w') (hw : w.Set0 B) :
    ∃ n c, w.Set B n c ∧ Rel (Sim n c (Upto Fld.Kept w.bodyCount) noRow) w.populateState
      w'.populateState := by
  obtain ⟨fx, fy, ft, st, mem, ring, ode, nsv, rfl⟩ := h.eq
  obtain ⟨s, e, h1, h2, h3, h4, h5, h6⟩ := populateState_spec h.wf hw.fit.con
  obtain ⟨s', e', h1', h2', h3', h4', h5', h6'⟩ := populateState_spec h.wf' (w :=
    w.redo fx fy ft st mem ring ode nsv) hw.fit.con
  obtain ⟨z1, z2⟩ := resize_size w.st st h.n h.nc w.bodyCount w.fullCount
  refine ⟨s.n, s.nc, ⟨hw.fit, hw.low, hw.kinds, hw.gens, h4, h5⟩, rel_ok e e' ⟨h1, h1', rfl, ?_, rfl, ?_,
    fun f i k _ => ?_, fun f i k => k.elim⟩⟩
  · rw [h2', h2]; exact z1
  · rw [h3', h3]; exact z2
  · rw [h6' f i k.2 k.1.1 k.1.2.1 k.1.2.2, h6 f i k.2 k.1.1 k.1.2.1 k.1.2.2]; rfl

theorem wp_true {σ : Type} (x : Exec σ) : Wp x (fun _ => True) anyErr :=
  wp_anyErr_iff.2 fun _ _ => trivial

theorem optLoop_rel (h : Mate w w') {n c : Nat} (hw : w.Set B n c) (hn : w.nsv.sort = 2)
    {s s' : SysState α} (hs : Sim n c (Upto Fld.Kept w.bodyCount) noRow s s') {m m' : Store α}
    (hm : Twin [.ivMinv, .ivLambda] [] m m') (env env' : Env α) (dt : α) (steps : Int) :
    Rel (fun q q' => q.1.Like q'.1 ∧ (q.2.1.Alike q'.2.1) ∧
        Sim n c (Upto Fld.Kept w.bodyCount) (fun p => 0 < steps ∧ w.Used p) q.2.2 q'.2.2)
      (w.optLoop env dt steps s m) (w'.optLoop env' dt steps s' m') := by
  obtain ⟨fx, fy, ft, st, mem, ring, ode, nsv, rfl⟩ := h.eq
  unfold World.optLoop
  refine (rel_forN (fun i (q q' : Ctx α × Ode α × SysState α) => q.1.Like q'.1 ∧
    (q.2.1.sort = 2 ∧ q.2.1.Alike q'.2.1) ∧
    Sim n c (Upto Fld.Kept w.bodyCount) (fun p => 0 < i ∧ w.Used p) q.2.2 q'.2.2)
    ⟨⟨hm⟩, ⟨hn, h.nsv⟩, hs.mono (fun _ _ k => k) (fun i k => absurd k.1 (by omega))⟩ ?_).mono
    fun _ _ z => ⟨z.1, z.2.1.2, z.2.2.mono (fun _ _ k => k) fun i k => ⟨by omega, k.2⟩⟩
  rintro i - q q' ⟨hx, ⟨ho, ha⟩, hs⟩
  refine rel_same _ fun d _ => ?_
  obtain ⟨d0, e0⟩ := sort_nsv ho
  have key := odeRun_rel (D := w.Used) (X := Ctx.Like) (ev := w.optEval env d)
    (ev' := (w.redo fx fy ft st mem ring ode nsv).optEval env' d)
    (fun x x' t t' hx ht => optEval_rel hw ht hx d env env')
    hx ha (hs.mono (fun _ _ k => k) (fun _ k => k.elim)) hw.room
    (fun r er => by rw [e0] at er; cases er) d
  refine (key.wp (odeRun_wp (A := fun _ _ _ => True) (fun _ _ _ _ _ _ _ => trivial)
    (fun _ _ => wp_anyErr_iff.2 fun _ _ => trivial) _ _ _ _)
    (wp_true _)).mono ?_
  rintro z z' ⟨⟨h1, h2, h3⟩, h4, -⟩
  exact ⟨h1, ⟨h4.2.trans ho, h2⟩, h3.mono (fun _ _ k => k) fun i k => k.2⟩

theorem genLoop_rel (h : Mate w w') {n c : Nat} (hw : w.Set B n c)
    (hd : ∀ sv, w.sle = some sv → sv.Direct) (hr : ∀ r, w.ode = some (.rk4 r) → DivEven α)
    {s s' : SysState α} (hs : Sim n c (Upto Fld.Kept w.bodyCount) noRow s s') {m m' : Store α}
    (hm : Twin [.ivMinv, .ivLambda] [] m m') (env env' : Env α) (dt : α) (steps : Int) :
    Rel (fun q q' => q.1.Like q'.1 ∧ (OdeLike q.2.1 q'.2.1) ∧
        Sim n c (Upto Fld.Kept w.bodyCount) noRow q.2.2 q'.2.2)
      (w.genLoop env dt steps s m) (w'.genLoop env' dt steps s' m') := by
  obtain ⟨fx, fy, ft, st, mem, ring, ode, nsv, rfl⟩ := h.eq
  unfold World.genLoop
  refine (rel_forN (fun _ (q q' : Ctx α × Option (Ode α) × SysState α) => q.1.Like q'.1 ∧
    (q.2.1.map Ode.sort = w.ode.map Ode.sort ∧ OdeLike q.2.1 q'.2.1) ∧
    Sim n c (Upto Fld.Kept w.bodyCount) noRow q.2.2 q'.2.2)
    ⟨⟨hm⟩, ⟨rfl, h.ode⟩, hs⟩ ?_).mono fun _ _ z => ⟨z.1, z.2.1.2, z.2.2⟩
  rintro i - ⟨x, o, t⟩ ⟨x', o', t'⟩ ⟨hx, ⟨ho, ha⟩, hs⟩
  cases o with
  | none =>
    cases o' with
    | none => exact rel_err
    | some o' => exact ha.elim
  | some o =>
  cases o' with
  | none => exact ha.elim
  | some o' =>
  simp only [deref, ok_bind]
  refine rel_same _ fun d _ => ?_
  have key := odeRun_rel (D := noRow) (X := Ctx.Like) (ev := w.genEval env)
    (ev' := (w.redo fx fy ft st mem ring ode nsv).genEval env')
    (fun x x' t t' hx ht => (genEval_rel hw ht hx env env' hd).mono
      fun _ _ z => ⟨z.1, z.2.mono (fun _ _ k => k) fun _ k => k.elim⟩)
    hx ha hs hw.room
    (fun r er => ⟨by
      subst er
      cases e : w.ode with
      | none => rw [e] at ho; cases ho
      | some o2 =>
        rw [e] at ho
        cases o2 with
        | rk4 r2 => exact hr r2 e
        | _ => simp [Ode.sort] at ho, fun _ k => k⟩) d
  refine rel_bind (key.wp (odeRun_wp (A := fun _ _ _ => True) (fun _ _ _ _ _ _ _ => trivial)
    (fun _ _ => wp_anyErr_iff.2 fun _ _ => trivial) _ _ _ _)
    (wp_true _)) ?_
  rintro z z' ⟨⟨h1, h2, h3⟩, h4, -⟩
  exact ⟨h1, ⟨(congrArg some h4.2).trans ho, h2⟩, h3⟩

/-! ## Storing the results -/

theorem Body.ext_of {b b' : Body α} (h : ∀ q : Coord, b.pos q = b'.pos q ∧ b.vel q = b'.vel q)
    (hm : b.m = b'.m) (hi : b.I = b'.I) (hx : b.index = b'.index) : b = b' := by
  have a1 := h .x
  have a2 := h .y
  have a3 := h .th
  clear h
  cases b; cases b'
  simp only [Body.pos, Body.vel] at *
  simp [*]

theorem Con.ext_of {x y : Con α} (a1 : x.kind = y.kind) (a2 : x.index = y.index)
    (a3 : x.bodyCount = y.bodyCount) (a4 : x.bodies = y.bodies) (a5 : x.rows = y.rows) :
    x = { y with F_x := x.F_x, F_y := x.F_y, F_t := x.F_t } := by
  cases x; cases y
  simp only at a1 a2 a3 a4 a5
  subst a1 a2 a3 a4 a5
  rfl

theorem rbAt_get {v : World α} {i : Nat} (hi : i < v.rb.length) : v.rbAt i = v.rb[i] := by
  simp [World.rbAt, hi]

theorem store_rel {v v' : World α} (hv : ∃ fx fy ft, v' = v.redo fx fy ft v'.st v'.mem v'.ring v'.ode
    v'.nsv) (hr3 : ∀ k ∈ v.cs, (v.cons k).rows ≤ 3) (hb2 : ∀ k ∈ v.cs, (v.cons k).bodyCount ≤ 2)
    (hrb : v.rb.Nodup) (hcs : v.cs.Nodup) {n c : Nat} {D : Nat → Prop} {s s' : SysState α}
    (hs : Sim n c (Upto Fld.Kept v.bodyCount) D s s') (hn : v.bodyCount ≤ n)
    {pos : Nat → Nat → Nat} (hp : ∀ f k, f < v.fullCount → k < 2 → pos f k < c * 2) :
    ∃ w1 z w1' z', forN v.bodyCount (World.storeBody s) v = .ok w1 ∧ w1.storeForces s pos = .ok z ∧
      forN v'.bodyCount (World.storeBody s') v' = .ok w1' ∧ w1'.storeForces s' pos = .ok z' ∧
      z.1 = { v with bodies := z.1.bodies, cons := z.1.cons } ∧ v.Moves z.1 ∧
      (∃ fx fy ft, z'.1 = z.1.redo fx fy ft v'.st v'.mem v'.ring v'.ode v'.nsv) ∧
      ∀ i (hi : i < v.cs.length) (q : Coord) j k, j < (v.cons v.cs[i]).rows →
        k < (v.cons v.cs[i]).bodyCount → D (pos (v.off i + j) k) →
        (z.1.cons v.cs[i]).F q j k = (z'.1.cons v.cs[i]).F q j k := by
  obtain ⟨fx, fy, ft, e⟩ := hv
  generalize hs1 : v'.st = st at e
  generalize hs2 : v'.mem = mem at e
  generalize hs3 : v'.ring = ring at e
  generalize hs4 : v'.ode = ode at e
  generalize hs5 : v'.nsv = nsv at e
  subst e
  obtain ⟨w1, z, e1, e2, e3, m, r⟩ := propagate_spec hr3 hb2 hrb hcs hs.wf (by rw [hs.sn]; exact hn)
    (pos := pos) (by rw [hs.snc]; exact hp)
  obtain ⟨w1', z', e1', e2', e3', m', r'⟩ := propagate_spec (w := v.redo fx fy ft st mem ring ode nsv)
    hr3 hb2 hrb hcs hs.wf' (by rw [hs.sn']; exact hn) (pos := pos) (by rw [hs.snc']; exact hp)
  refine ⟨w1, z, w1', z', e1, e2, e1', e2', e3, m, ?_, fun i hi q j k hj hk hD => ?_⟩
  · have hb : z'.1.bodies = z.1.bodies := by
      funext b
      by_cases hb : b ∈ v.rb
      · obtain ⟨i, hi, ei⟩ := List.getElem_of_mem hb
        have hi' : i < v.bodyCount := hi
        obtain rfl : v.rbAt i = b := by rw [← ei]; exact rbAt_get hi
        refine Body.ext_of (fun q => ?_) ?_ ?_ ?_
        · have a := r.body i hi' q
          have a' := r'.body i hi' q
          refine ⟨a'.1.trans ((hs.val _ _ ⟨?_, hi'⟩ (by omega)).trans a.1.symm),
            a'.2.trans ((hs.val _ _ ⟨?_, hi'⟩ (by omega)).trans a.2.symm)⟩ <;> cases q <;>
            exact ⟨by decide, by decide, by decide⟩
        · rw [m'.mass, m.mass]; rfl
        · rw [m'.inertia, m.inertia]; rfl
        · rw [m'.index, m.index]; rfl
      · rw [m.other b hb, m'.other b hb]; rfl
    refine ⟨fun k => (z'.1.cons k).F_x, fun k => (z'.1.cons k).F_y, fun k => (z'.1.cons k).F_t, ?_⟩
    have hc : z'.1.cons = fun k => { z.1.cons k with
        F_x := (z'.1.cons k).F_x, F_y := (z'.1.cons k).F_y, F_t := (z'.1.cons k).F_t } := by
      funext k
      have a1 := (m'.kind k).trans (m.kind k).symm
      have a2 := (m'.conIndex k).trans (m.conIndex k).symm
      have a3 := (m'.bodyCount k).trans (m.bodyCount k).symm
      have a4 := (m'.conBodies k).trans (m.conBodies k).symm
      have a5 := (m'.rows k).trans (m.rows k).symm
      exact Con.ext_of a1 a2 a3 a4 a5
    obtain ⟨b, d, e⟩ : ∃ b d, z.1 = { v with bodies := b, cons := d } := ⟨_, _, e3⟩
    rw [e3', hb]
    refine (congrArg (fun x => { v.redo fx fy ft st mem ring ode nsv with
      bodies := z.1.bodies, cons := x }) hc).trans ?_
    rw [e]
    rfl
  · refine (r.con i hi q j k hj hk).trans ((hs.rval _ _ hD
      (hp _ _ ?_ ?_)).symm.trans (r'.con i hi q j k hj hk).symm)
    · exact off_lt v hi hj
    · have := hb2 _ (List.getElem_mem hi); omega

theorem record_rel {v v' : World α} {st : SysState α} {mem : Store α} {ode : Option (Ode α)}
    {nsv : Ode α} {fx fy ft : Nat → Nat → Nat → α}
    {ring : Scs.Prof → Buf Int} (hv : v' = v.redo fx fy ft st mem ring ode nsv) (h : v.Rings) (h' : v'.Rings)
    (t t' : Scs.Prof → Int) :
    ∃ u u', v.record t = .ok u ∧ v'.record t' = .ok u' ∧ u.Rings ∧ u'.Rings ∧
      u = { v with ring := u.ring, frame := u.frame } ∧
      u' = u.redo fx fy ft st mem u'.ring ode nsv := by
  obtain ⟨u, e, q⟩ := record_ok (w := v) (fun p => by rw [h.size]; exact h.frame) t
  obtain ⟨u', e', q'⟩ := record_ok (w := v') (fun p => by rw [h'.size]; exact h'.frame) t'
  have r := (record_wp v t).of_eq e
  have r' := (record_wp v' t').of_eq e'
  refine ⟨u, u', e, e', ⟨fun p => ?_, ?_⟩, ⟨fun p => ?_, ?_⟩, q, ?_⟩
  · rw [(r.2.at_ p).2]; exact h.size p
  · rw [r.2.frame]; exact Nat.mod_lt _ (by decide)
  · rw [(r'.2.at_ p).2]; exact h'.size p
  · rw [r'.2.frame]; exact Nat.mod_lt _ (by decide)
  · have hf : u'.frame = u.frame := by rw [r'.2.frame, r.2.frame, hv]; rfl
    rw [q', hf, hv]
    generalize u.frame = f at *
    rw [q]
    rfl

/-- The reported forces of the registered constraints agree. -/
def World.SameForces (v v' : World α) : Prop :=
  ∀ i (hi : i < v.cs.length) (q : Coord) j k, j < (v.cons v.cs[i]).rows →
    k < (v.cons v.cs[i]).bodyCount → (v.cons v.cs[i]).F q j k = (v'.cons v.cs[i]).F q j k

theorem Set0.rows (hw : w.Set0 B) : (∀ k ∈ w.cs, (w.cons k).rows ≤ 3) ∧
    ∀ k ∈ w.cs, (w.cons k).bodyCount ≤ 2 := by
  refine ⟨fun k hk => ?_, fun k hk => ?_⟩
  · have := counts_le (hw.kinds k hk); omega
  · have := counts_le (hw.kinds k hk); omega

theorem optProcess_rel (h : Mate w w') (hw : w.Set0 B) (hn : w.nsv.sort = 2) (env env' : Env α)
    (dt : α) (steps : Int) :
    Rel (fun v v' => Mate v v' ∧ (0 < steps → v.SameForces v')) (w.optProcess env dt steps)
      (w'.optProcess env' dt steps) := by
  obtain ⟨n, c, hset, hpop⟩ := h.populate hw
  obtain ⟨fx, fy, ft, st, mem, ring, ode, nsv, e⟩ := h.eq
  rw [World.optProcess, World.optProcess]
  refine rel_bind hpop fun s s' hs => ?_
  refine rel_bind (by rw [e]; rw [e] at h; exact h.mem.popMass w) fun m m' hm => ?_
  refine rel_bind (optLoop_rel h hset hn hs hm env env' dt steps) fun q q' ⟨hx, ho, hs⟩ => ?_
  obtain ⟨hr3, hb2⟩ := Set0.rows hw
  obtain ⟨w1, z, w1', z', a1, a2, a1', a2', a3, mv, ⟨gx, gy, gt, a4⟩, a5⟩ := store_rel
    (v := { w with st := q.2.2, mem := q.1.mem, nsv := q.2.1 })
    (v' := { w' with st := q'.2.2, mem := q'.1.mem, nsv := q'.2.1 })
    ⟨fx, fy, ft, by rw [e]; rfl⟩ hr3 hb2 hw.rb hw.cs hs hset.room (pos := fun f k => f * 2 + k)
    (fun f k hf hk => by have := hset.rows; show f * 2 + k < c * 2; have : f < w.fullCount := hf; omega)
  obtain ⟨u, u', b1, b2, b3, b4, b5, b6⟩ := record_rel a4
    (by rw [a3]; exact ⟨h.ring.size, h.ring.frame⟩)
    (by rw [a4]; exact ⟨h.ring'.size, by rw [a3]; exact h.ring.frame⟩) q.1.times q'.1.times
  have hp : ({ w with st := q.2.2, mem := q.1.mem, nsv := q.2.1 } : World α).propagateResults q.2.2
      = .ok z.1 := by
    rw [World.propagateResults, a1, ok_bind, a2, ok_bind]; rfl
  have hp' : ({ w' with st := q'.2.2, mem := q'.1.mem, nsv := q'.2.1 } : World α).propagateResults
      q'.2.2 = .ok z'.1 := by
    rw [World.propagateResults, a1', ok_bind, a2', ok_bind]; rfl
  simp only []
  rw [hp, hp', ok_bind, ok_bind, b1, b2, ok_bind, ok_bind]
  obtain ⟨b, d, e1⟩ : ∃ b d, z.1 = { w with
    st := q.2.2, mem := q.1.mem, nsv := q.2.1, bodies := b, cons := d } := ⟨_, _, a3⟩
  obtain ⟨r, f, e2⟩ : ∃ r f, u = { z.1 with ring := r, frame := f } := ⟨_, _, b5⟩
  obtain ⟨r', e3⟩ : ∃ r', u' = u.redo gx gy gt q'.2.2 q'.1.mem r' w'.ode q'.2.1 := ⟨_, b6⟩
  refine ⟨⟨⟨gx, gy, gt, _, _, r', _, _, by rw [e3]; rfl⟩, ?_, ?_, ?_, ?_, ⟨b3.size, b3.frame⟩,
    ⟨b4.size, b4.frame⟩, ?_, ?_, ?_⟩, fun hpos => ?_⟩
  · show u.st.Wf
    rw [e2, e1]; exact hs.wf
  · show u'.st.Wf
    rw [e3]; exact hs.wf'
  · show u'.st.n = u.st.n
    rw [e3, e2, e1]; exact hs.sn'.trans hs.sn.symm
  · show u'.st.nc = u.st.nc
    rw [e3, e2, e1]; exact hs.snc'.trans hs.snc.symm
  · show Twin _ _ u.mem u'.mem
    rw [e3, e2, e1]; exact hx.mem.subk (by simp)
  · show OdeLike u.ode u'.ode
    rw [e3, e2, e1]; exact h.ode
  · show u.nsv.Alike u'.nsv
    rw [e3, e2, e1]; exact ho
  · intro i hi p j k hj hk
    have ec : u.cons = z.1.cons := by rw [e2]
    have ec' : u'.cons = z'.1.cons := by rw [e3, a4, e2]; rfl
    have es : u.cs = w.cs := by rw [e2, e1]
    have hi' : i < w.cs.length := by rw [← es]; exact hi
    have hm : ∀ k, (z.1.cons k).rows = (w.cons k).rows ∧
        (z.1.cons k).bodyCount = (w.cons k).bodyCount := fun k =>
      ⟨mv.rows k, mv.bodyCount k⟩
    simp only [ec, ec', es] at hj hk ⊢
    refine a5 i hi' p j k (by rw [← (hm _).1]; exact hj) (by rw [← (hm _).2]; exact hk) ⟨hpos, ?_⟩
    have hj' : j < (w.cons w.cs[i]).rows := by rw [← (hm _).1]; exact hj
    have hk' : k < (w.cons w.cs[i]).bodyCount := by rw [← (hm _).2]; exact hk
    have := hb2 _ (List.getElem_mem hi')
    obtain ⟨r1, r2, r3⟩ := row_off w hi' hj'
    show ((w.off i + j) * 2 + k) / 2 < _ ∧ ((w.off i + j) * 2 + k) % 2 < w.rowN (((w.off i + j) * 2 + k) / 2)
    rw [show ((w.off i + j) * 2 + k) / 2 = w.off i + j by omega,
      show ((w.off i + j) * 2 + k) % 2 = k by omega, World.rowN, r3]
    exact ⟨off_lt w hi' hj', hk'⟩

theorem genProcess_rel (h : Mate w w') (hw : w.Set0 B)
    (hd : ∀ sv, w.sle = some sv → sv.Direct) (hr : ∀ r, w.ode = some (.rk4 r) → DivEven α)
    (env env' : Env α) (dt : α) (steps : Int) :
    Rel Mate (w.genProcess env dt steps) (w'.genProcess env' dt steps) := by
  obtain ⟨n, c, hset, hpop⟩ := h.populate hw
  obtain ⟨fx, fy, ft, st, mem, ring, ode, nsv, e⟩ := h.eq
  rw [World.genProcess, World.genProcess]
  refine rel_bind hpop fun s s' hs => ?_
  refine rel_bind (by rw [e]; rw [e] at h; exact h.mem.popMass w) fun m m' hm => ?_
  refine rel_bind (genLoop_rel h hset hd hr hs hm env env' dt steps) fun q q' ⟨hx, ho, hs⟩ => ?_
  obtain ⟨hr3, hb2⟩ := Set0.rows hw
  obtain ⟨w1, z, w1', z', a1, a2, a1', a2', a3, mv, ⟨gx, gy, gt, a4⟩, a5⟩ := store_rel
    (v := { w with st := q.2.2, mem := q.1.mem, ode := q.2.1 })
    (v' := { w' with st := q'.2.2, mem := q'.1.mem, ode := q'.2.1 })
    ⟨fx, fy, ft, by rw [e]; rfl⟩ hr3 hb2 hw.rb hw.cs hs hset.room (pos := fun f _ => f)
    (fun f k hf hk => by have := hset.rows; show f < c * 2; have : f < w.fullCount := hf; omega)
  obtain ⟨u, u', b1, b2, b3, b4, b5, b6⟩ := record_rel a4
    (by rw [a3]; exact ⟨h.ring.size, h.ring.frame⟩)
    (by rw [a4]; exact ⟨h.ring'.size, by rw [a3]; exact h.ring.frame⟩) q.1.times q'.1.times
  simp only []
  have s1 : w1.st = q.2.2 := by rw [((storeBodies_wp _ _ _).of_eq a1).1]
  have s1' : w1'.st = q'.2.2 := by rw [((storeBodies_wp _ _ _).of_eq a1').1]
  rw [a1, a1', ok_bind, ok_bind, s1, s1', a2, a2', ok_bind, ok_bind, b1, b2]
  obtain ⟨b, d, e1⟩ : ∃ b d, z.1 = { w with
    st := q.2.2, mem := q.1.mem, ode := q.2.1, bodies := b, cons := d } := ⟨_, _, a3⟩
  obtain ⟨r, f, e2⟩ : ∃ r f, u = { z.1 with ring := r, frame := f } := ⟨_, _, b5⟩
  obtain ⟨r', e3⟩ : ∃ r', u' = u.redo gx gy gt q'.2.2 q'.1.mem r' q'.2.1 w'.nsv := ⟨_, b6⟩
  refine ⟨⟨gx, gy, gt, _, _, r', _, _, by rw [e3]⟩, ?_, ?_, ?_, ?_, ⟨b3.size, b3.frame⟩,
    ⟨b4.size, b4.frame⟩, ?_, ?_, ?_⟩
  · rw [e2, e1]; exact hs.wf
  · rw [e3]; exact hs.wf'
  · rw [e3, e2, e1]; exact hs.sn'.trans hs.sn.symm
  · rw [e3, e2, e1]; exact hs.snc'.trans hs.snc.symm
  · rw [e3, e2, e1]; exact hx.mem.subk (by simp)
  · rw [e3, e2, e1]; exact ho
  · rw [e3, e2, e1]; exact h.nsv

end

end Scs
