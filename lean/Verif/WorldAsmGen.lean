import Verif.WorldEval

/-!
# Assembly of the constraint matrices (generic system)
-/

namespace Scs

section
variable {α : Type} [Zero α] [Add α] [Mul α] [Sub α] [Neg α] [Fp α]

/-- The blocks `0 .. i-1` of row `jf` have been written. -/
structure BlkTo (t : SId) (jf i : Nat) (B : Nat → Nat) (m0 m : Store α) : Prop where
  shape : (m0.smat t).SameShape (m.smat t)
  data : (m.smat t).data = (m0.smat t).data
  blk : ∀ r j, r < (m0.smat t).height → j < 2 → (m.smat t).blk 2 r j =
    if r = jf ∧ j < i then B j % 256 else (m0.smat t).blk 2 r j

/-- The entries `0 .. i-1` of row `jf` have been written. -/
structure EntTo (t : SId) (jf i : Nat) (v : Nat → α) (m0 m : Store α) : Prop where
  shape : (m0.smat t).SameShape (m.smat t)
  blocks : (m.smat t).blocks = (m0.smat t).blocks
  ent : ∀ r q, r < (m0.smat t).height → q < 6 → (m.smat t).ent r q =
    if r = jf ∧ q < i then v q else (m0.smat t).ent r q

/-- Row `jf` of a column has been written if `i` is positive. -/
structure CellTo (t : MId) (jf i : Nat) (v : α) (m0 m : Store α) : Prop where
  shape : (m0.mat t).SameShape (m.mat t)
  ent : ∀ r, r < (m0.mat t).height → (m.mat t).ent r 0 =
    if r = jf ∧ 0 < i then v else (m0.mat t).ent r 0

omit [Zero α] [Add α] [Mul α] [Sub α] [Neg α] [Fp α] in
theorem BlkTo.frame {t : SId} {jf i : Nat} {B : Nat → Nat} {m0 m m' : Store α}
    (h : BlkTo t jf i B m0 m) (e : m'.smat t = m.smat t) : BlkTo t jf i B m0 m' :=
  ⟨by rw [e]; exact h.shape, by rw [e]; exact h.data, by rw [e]; exact h.blk⟩

theorem EntTo.frame {t : SId} {jf i : Nat} {v : Nat → α} {m0 m m' : Store α}
    (h : EntTo t jf i v m0 m) (e : m'.smat t = m.smat t) : EntTo t jf i v m0 m' :=
  ⟨by rw [e]; exact h.shape, by rw [e]; exact h.blocks, by rw [e]; exact h.ent⟩

theorem CellTo.frame {t : MId} {jf i : Nat} {v : α} {m0 m m' : Store α}
    (h : CellTo t jf i v m0 m) (e : m'.mat t = m.mat t) : CellTo t jf i v m0 m' :=
  ⟨by rw [e]; exact h.shape, by rw [e]; exact h.ent⟩

theorem BlkTo.step {t : SId} {jf i : Nat} {B : Nat → Nat} {m0 m : Store α}
    (h : BlkTo t jf i B m0 m) (wf : (m.smat t).WF 3 2) (hr : jf < (m0.smat t).height)
    (hi : i < 2) (hw : B i < (m0.smat t).width) :
    ∃ m', m.setBlock 2 t jf i (B i : Int) = .ok m' ∧ OnlyS t m m' ∧
      (m.smat t).SameShape (m'.smat t) ∧ BlkTo t jf (i + 1) B m0 m' := by
  obtain ⟨m', e, o', sh', d', bl'⟩ := setBlock_nat wf (row := jf) (entry := i) (b := B i)
    (by rw [h.shape.height]; exact hr) hi (by rw [h.shape.width]; exact hw)
  refine ⟨m', e, o', sh', h.shape.trans sh', d'.trans h.data, fun r j hr' hj => ?_⟩
  rw [bl' r j (by rw [h.shape.height]; exact hr') hj, h.blk r j hr' hj]
  by_cases h1 : r = jf ∧ j = i
  · rw [if_pos h1, if_pos ⟨h1.1, by omega⟩, h1.2]
  · rw [if_neg h1]
    by_cases h2 : r = jf ∧ j < i
    · rw [if_pos h2, if_pos ⟨h2.1, by omega⟩]
    · rw [if_neg h2, if_neg (by omega)]

theorem EntTo.step {t : SId} {jf i : Nat} {v : Nat → α} {m0 m : Store α}
    (h : EntTo t jf i v m0 m) (wf : (m.smat t).WF 3 2) (hr : jf < (m0.smat t).height)
    (hi : i < 6) :
    ∃ m', m.sset 3 2 t jf (i / 3) (i % 3) (v i) = .ok m' ∧ OnlyS t m m' ∧
      (m.smat t).SameShape (m'.smat t) ∧ EntTo t jf (i + 1) v m0 m' := by
  obtain ⟨m', e, o', _, sh', d', bl'⟩ := Store.sset_spec 3 2 m t wf (row := jf)
    (entry := i / 3) (slice := i % 3) (by rw [h.shape.height]; exact hr) (by omega) (by omega)
    (v i)
  refine ⟨m', e, o', sh', h.shape.trans sh', d'.trans h.blocks, fun r q hr' hq => ?_⟩
  rw [bl' r q (by rw [h.shape.height]; exact hr') hq, h.ent r q hr' hq]
  by_cases h1 : r = jf ∧ q = i / 3 * 3 + i % 3
  · rw [if_pos h1, if_pos ⟨h1.1, by omega⟩]
    have : q = i := by omega
    rw [this]
  · rw [if_neg h1]
    by_cases h2 : r = jf ∧ q < i
    · rw [if_pos h2, if_pos ⟨h2.1, by omega⟩]
    · rw [if_neg h2, if_neg (by omega)]

theorem CellTo.step {t : MId} {jf i : Nat} {v : α} {m0 m : Store α}
    (h : CellTo t jf i v m0 m) (wf : (m.mat t).WF) (hw : (m0.mat t).width = 1)
    (hr : jf < (m0.mat t).height) :
    ∃ m', m.set t 0 jf v = .ok m' ∧ Only t m m' ∧ (m.mat t).SameShape (m'.mat t) ∧
      CellTo t jf (i + 1) v m0 m' := by
  obtain ⟨m', e, o', _, sh', bl'⟩ := Store.set_spec m t wf (c := 0) (r := jf)
    (by rw [h.shape.width, hw]; decide) (by rw [h.shape.height]; exact hr) v
  refine ⟨m', e, o', sh', h.shape.trans sh', fun r hr' => ?_⟩
  rw [bl' r 0 (by rw [h.shape.height]; exact hr') (by rw [h.shape.width, hw]; decide), h.ent r hr']
  by_cases h1 : r = jf
  · rw [if_pos ⟨h1, rfl⟩, if_pos ⟨h1, by omega⟩]
  · rw [if_neg (fun q => h1 q.1), if_neg (fun q => h1 q.1), if_neg (fun q => h1 q.1)]

theorem genBlocks_spec {c : Con α} {bodies : Nat → Body α} {B : Nat → Nat} {jf : Nat}
    {mem : Store α} (hinv : Inv 3 2 sysRestr mem) (hr : jf < (mem.smat .ivJ).height)
    (hr' : jf < (mem.smat .ivJdot).height)
    (hn : c.bodyCount ≤ 2) (hidx : ∀ k, k < c.bodyCount → c.idx bodies k = .ok (B k : Int))
    (hB : ∀ k, k < c.bodyCount → B k < (mem.smat .ivJ).width ∧
      B k < (mem.smat .ivJdot).width) :
    ∃ mem', genBlocks c bodies jf mem = .ok mem' ∧ Inv 3 2 sysRestr mem' ∧
      Frame (fun _ => False) (fun a => a = .ivJ ∨ a = .ivJdot) mem mem' ∧
      BlkTo .ivJ jf c.bodyCount B mem mem' ∧ BlkTo .ivJdot jf c.bodyCount B mem mem' := by
  apply wp_noErr_iff.1
  refine wp_forN' (fun i (m : Store α) => Inv 3 2 sysRestr m ∧
      Frame (fun _ => False) (fun a => a = .ivJ ∨ a = .ivJdot) mem m ∧
      BlkTo .ivJ jf i B mem m ∧ BlkTo .ivJdot jf i B mem m)
    ⟨hinv, Frame.refl _ _ _, ⟨SMat.SameShape.refl _, rfl, fun r j _ _ => by simp⟩,
      ⟨SMat.SameShape.refl _, rfl, fun r j _ _ => by simp⟩⟩ ?_ (fun m h => h)
  rintro i hi m ⟨inv, f, b1, b2⟩
  rw [hidx i hi, ok_bind, if_neg (by omega)]
  obtain ⟨m1, e1, o1, s1, k1⟩ := b1.step (inv.smat _) hr (by omega) (hB i hi).1
  have i1 := inv.sshaped o1 s1
  obtain ⟨m2, e2, o2, s2, k2⟩ := (b2.frame (o1.smat _ (by decide))).step (i1.smat _) hr' (by omega)
    (hB i hi).2
  have i2 := i1.sshaped o2 s2
  rw [e1, ok_bind]
  refine Wp.of_ok e2 ⟨i2, ⟨fun a ha => ?_, fun a ha => ?_⟩, k1.frame (o2.smat _ (by decide)), k2⟩
  · rw [o2.mat, o1.mat, f.mat a ha]
  · rw [o2.smat _ (fun q => ha (Or.inr q)), o1.smat _ (fun q => ha (Or.inl q)), f.smat a ha]

theorem genEntries_spec {c : Con α} {bodies : Nat → Body α} {B : Nat → Nat} {out : Output α}
    {k jf : Nat} {mem : Store α} (hinv : Inv 3 2 sysRestr mem)
    (hr : jf < (mem.smat .ivJ).height) (hr' : jf < (mem.smat .ivJdot).height)
    (hv : ∀ a, a = .ivKs ∨ a = .ivKd ∨ a = .ivC → (mem.mat a).width = 1 ∧ jf < (mem.mat a).height)
    (hk : k < 3) (hn : c.bodyCount ≤ 2)
    (hidx : ∀ k, k < c.bodyCount → c.idx bodies k = .ok (B k : Int)) :
    ∃ mem', genEntries c bodies out k jf mem = .ok mem' ∧ Inv 3 2 sysRestr mem' ∧
      Frame (fun a => a = .ivKs ∨ a = .ivKd ∨ a = .ivC) (fun a => a = .ivJ ∨ a = .ivJdot)
        mem mem' ∧
      EntTo .ivJ jf (c.bodyCount * 3) (out.J k) mem mem' ∧
      EntTo .ivJdot jf (c.bodyCount * 3) (out.J_dot k) mem mem' ∧
      CellTo .ivKs jf (c.bodyCount * 3) (out.ks k) mem mem' ∧
      CellTo .ivKd jf (c.bodyCount * 3) (out.kd k) mem mem' ∧
      CellTo .ivC jf (c.bodyCount * 3) (out.C k) mem mem' := by
  apply wp_noErr_iff.1
  refine wp_forN' (fun i (m : Store α) => Inv 3 2 sysRestr m ∧
      Frame (fun a => a = .ivKs ∨ a = .ivKd ∨ a = .ivC) (fun a => a = .ivJ ∨ a = .ivJdot)
        mem m ∧
      EntTo .ivJ jf i (out.J k) mem m ∧ EntTo .ivJdot jf i (out.J_dot k) mem m ∧
      CellTo .ivKs jf i (out.ks k) mem m ∧ CellTo .ivKd jf i (out.kd k) mem m ∧
      CellTo .ivC jf i (out.C k) mem m)
    ⟨hinv, Frame.refl _ _ _, ⟨SMat.SameShape.refl _, rfl, fun r j _ _ => by simp⟩,
      ⟨SMat.SameShape.refl _, rfl, fun r j _ _ => by simp⟩,
      ⟨Mat.SameShape.refl _, fun r _ => by simp⟩, ⟨Mat.SameShape.refl _, fun r _ => by simp⟩,
      ⟨Mat.SameShape.refl _, fun r _ => by simp⟩⟩ ?_ (fun m h => h)
  rintro i hi m ⟨inv, f, b1, b2, c1, c2, c3⟩
  have hi6 : i < 6 := by omega
  rw [hidx (i / 3) (by omega), ok_bind, if_neg (by omega)]
  have g1 : rd2 maxRows (3 * maxBodies) out.J k i = .ok (out.J k i) :=
    if_pos ⟨hk, by simp only [maxBodies]; omega⟩
  have g2 : rd2 maxRows (3 * maxBodies) out.J_dot k i = .ok (out.J_dot k i) :=
    if_pos ⟨hk, by simp only [maxBodies]; omega⟩
  have g3 : rd1 maxRows out.ks k = .ok (out.ks k) := if_pos hk
  have g4 : rd1 maxRows out.kd k = .ok (out.kd k) := if_pos hk
  have g5 : rd1 maxRows out.C k = .ok (out.C k) := if_pos hk
  obtain ⟨m1, e1, o1, s1, k1⟩ := b1.step (inv.smat _) hr hi6
  have i1 := inv.sshaped o1 s1
  obtain ⟨m2, e2, o2, s2, k2⟩ := (b2.frame (o1.smat _ (by decide))).step (i1.smat _) hr' hi6
  have i2 := i1.sshaped o2 s2
  have mat2 : m2.mat = m.mat := by rw [o2.mat, o1.mat]
  obtain ⟨m3, e3, o3, s3, k3⟩ := (c1.frame (by rw [mat2])).step (i2.mat _) (hv _ (by simp)).1
    (hv _ (by simp)).2
  have i3 := i2.shaped o3 s3
  obtain ⟨m4, e4, o4, s4, k4⟩ := (c2.frame (m' := m3) (by rw [o3.mat _ (by decide), mat2])).step
    (i3.mat _) (hv _ (by simp)).1 (hv _ (by simp)).2
  have i4 := i3.shaped o4 s4
  obtain ⟨m5, e5, o5, s5, k5⟩ := (c3.frame (m' := m4)
    (by rw [o4.mat _ (by decide), o3.mat _ (by decide), mat2])).step
    (i4.mat _) (hv _ (by simp)).1 (hv _ (by simp)).2
  have i5 := i4.shaped o5 s5
  rw [g1, ok_bind, e1, ok_bind, g2, ok_bind, e2, ok_bind, g3, ok_bind, e3, ok_bind, g4, ok_bind, e4,
    ok_bind, g5, ok_bind]
  have s52 : m5.smat = m2.smat := by rw [o5.smat, o4.smat, o3.smat]
  refine Wp.of_ok e5 ⟨i5, ⟨fun a ha => ?_, fun a ha => ?_⟩, k1.frame ?_, k2.frame ?_, k3.frame ?_,
    k4.frame ?_, k5⟩
  · have h1 : a ≠ .ivKs := fun q => ha (Or.inl q)
    have h2 : a ≠ .ivKd := fun q => ha (Or.inr (Or.inl q))
    have h3 : a ≠ .ivC := fun q => ha (Or.inr (Or.inr q))
    rw [o5.mat _ h3, o4.mat _ h2, o3.mat _ h1, mat2, f.mat a ha]
  · rw [s52, o2.smat _ (fun q => ha (Or.inr q)), o1.smat _ (fun q => ha (Or.inl q)), f.smat a ha]
  · rw [s52, o2.smat _ (by decide)]
  · rw [s52]
  · rw [o5.mat _ (by decide), o4.mat _ (by decide)]
  · rw [o5.mat _ (by decide)]

/-- The matrices of the generic system while the rows `0 .. jf-1` have been written. -/
structure AsmGen (mem0 : Store α) (W H : Nat) (nb : Nat → Nat) (bl : Nat → Nat → Nat)
    (J Jd : Nat → Nat → α) (ks kd e : Nat → α) (jf : Nat) (mem : Store α) : Prop where
  frame : Frame (fun a => a = .ivKs ∨ a = .ivKd ∨ a = .ivC) (fun a => a = .ivJ ∨ a = .ivJdot)
    mem0 mem
  inv : Inv 3 2 sysRestr mem
  dims : ∀ t, t = .ivJ ∨ t = .ivJdot → (mem.smat t).width = W ∧ (mem.smat t).height = H ∧
    ∀ f j, f < H → j < 2 → (mem.smat t).blk 2 f j = if f < jf ∧ j < nb f then
      bl f j % 256 else 255
  vec : ∀ a, a = .ivKs ∨ a = .ivKd ∨ a = .ivC → (mem.mat a).width = 1 ∧ (mem.mat a).height = H
  ent : ∀ f q, f < jf → q < nb f * 3 → (mem.smat .ivJ).ent f q = J f q
  dot : ∀ f q, f < jf → q < nb f * 3 → (mem.smat .ivJdot).ent f q = Jd f q
  gs : ∀ f, f < jf → (mem.mat .ivKs).ent f 0 = ks f
  gd : ∀ f, f < jf → (mem.mat .ivKd).ent f 0 = kd f
  err : ∀ f, f < jf → (mem.mat .ivC).ent f 0 = e f

theorem genRow_spec {mem0 : Store α} {W H : Nat} {nb : Nat → Nat} {bl : Nat → Nat → Nat}
    {J Jd : Nat → Nat → α} {ks kd e : Nat → α} {jf : Nat} {mem : Store α}
    (h : AsmGen mem0 W H nb bl J Jd ks kd e jf mem) (hjf : jf < H) {c : Con α}
    {bodies : Nat → Body α} {out : Output α} {k : Nat} (hk : k < 3)
    (hn : c.bodyCount = nb jf) (hn2 : ∀ f, f < H → 1 ≤ nb f ∧ nb f ≤ 2)
    (hidx : ∀ k, k < nb jf → c.idx bodies k = .ok (bl jf k : Int))
    (hB : ∀ k, k < nb jf → bl jf k < W)
    (hJ : ∀ q, q < nb jf * 3 → J jf q = out.J k q)
    (hJd : ∀ q, q < nb jf * 3 → Jd jf q = out.J_dot k q) (hks : ks jf = out.ks k)
    (hkd : kd jf = out.kd k) (he : e jf = out.C k) :
    ∃ mem', (do
      let mem ← genBlocks c bodies jf mem
      genEntries c bodies out k jf mem) = .ok mem' ∧
      AsmGen mem0 W H nb bl J Jd ks kd e (jf + 1) mem' := by
  have dJ := h.dims .ivJ (Or.inl rfl)
  have dD := h.dims .ivJdot (Or.inr rfl)
  obtain ⟨n1, n2⟩ := hn2 jf hjf
  obtain ⟨m1, e1, i1, f1, b1, b1'⟩ := genBlocks_spec (c := c) (bodies := bodies) (B := bl jf)
    (jf := jf) h.inv (by rw [dJ.2.1]; exact hjf) (by rw [dD.2.1]; exact hjf) (by omega)
    (fun k hk => hidx k (by omega))
    (fun k hk => by rw [dJ.1, dD.1]; have := hB k (by omega); exact ⟨this, this⟩)
  have v1 : ∀ a, a = .ivKs ∨ a = .ivKd ∨ a = .ivC → (m1.mat a).width = 1 ∧ (m1.mat a).height = H :=
    fun a ha => by rw [f1.mat a id]; exact h.vec a ha
  obtain ⟨m2, e2, i2, f2, k1, k2, k3, k4, k5⟩ := genEntries_spec (c := c) (bodies := bodies)
    (B := bl jf) (out := out) (k := k) (jf := jf) i1
    (by rw [b1.shape.height, dJ.2.1]; exact hjf) (by rw [b1'.shape.height, dD.2.1]; exact hjf)
    (fun a ha => ⟨(v1 a ha).1, by rw [(v1 a ha).2]; exact hjf⟩) hk (by omega)
    (fun k hk => hidx k (by omega))
  rw [e1, ok_bind]
  have hpos : 0 < c.bodyCount * 3 := by omega
  have dims : ∀ t, t = .ivJ ∨ t = .ivJdot →
      (m1.smat t).SameShape (m2.smat t) ∧ (m2.smat t).blocks = (m1.smat t).blocks ∧
      BlkTo t jf c.bodyCount (bl jf) mem m1 := by
    rintro t (rfl | rfl)
    · exact ⟨k1.shape, k1.blocks, b1⟩
    · exact ⟨k2.shape, k2.blocks, b1'⟩
  have cell : ∀ (a : MId) (v : α) (g : Nat → α), a = .ivKs ∨ a = .ivKd ∨ a = .ivC →
      CellTo a jf (c.bodyCount * 3) v m1 m2 → g jf = v →
      (∀ f, f < jf → (mem.mat a).ent f 0 = g f) → ∀ f, f < jf + 1 → (m2.mat a).ent f 0 = g f := by
    intro a v g ha hc hg ho f hf
    rw [hc.ent f (by rw [(v1 a ha).2]; omega)]
    by_cases h1 : f = jf
    · rw [if_pos ⟨h1, hpos⟩, h1, hg]
    · rw [if_neg (fun q => h1 q.1), f1.mat a id, ho f (by omega)]
  have entr : ∀ (t : SId) (v : Nat → α) (g : Nat → Nat → α), t = .ivJ ∨ t = .ivJdot →
      EntTo t jf (c.bodyCount * 3) v m1 m2 → (∀ q, q < nb jf * 3 → g jf q = v q) →
      (∀ f q, f < jf → q < nb f * 3 → (mem.smat t).ent f q = g f q) →
      ∀ f q, f < jf + 1 → q < nb f * 3 → (m2.smat t).ent f q = g f q := by
    intro t v g ht hc hg ho f q hf hq
    obtain ⟨-, -, hb⟩ := dims t ht
    obtain ⟨-, n2'⟩ := hn2 f (by omega)
    rw [hc.ent f q (by rw [hb.shape.height, (h.dims t ht).2.1]; omega) (by omega)]
    by_cases h1 : f = jf
    · subst h1; rw [if_pos ⟨rfl, by omega⟩, hg q hq]
    · rw [if_neg (fun q => h1 q.1), SMat.ent_congr hb.shape.rows hb.data, ho f q (by omega) hq]
  refine ⟨m2, e2, ⟨fun a ha => ?_, fun a ha => ?_⟩, i2, ?_, ?_,
    entr _ _ _ (Or.inl rfl) k1 hJ h.ent, entr _ _ _ (Or.inr rfl) k2 hJd h.dot,
    cell _ _ _ (by simp) k3 hks h.gs, cell _ _ _ (by simp) k4 hkd h.gd,
    cell _ _ _ (by simp) k5 he h.err⟩
  · rw [f2.mat a ha, f1.mat a id, h.frame.mat a ha]
  · rw [f2.smat a ha, f1.smat a ha, h.frame.smat a ha]
  · intro t ht
    obtain ⟨d1, d2, d3⟩ := dims t ht
    obtain ⟨d4, d5, d6⟩ := h.dims t ht
    refine ⟨by rw [d1.width, d3.shape.width, d4], by rw [d1.height, d3.shape.height, d5], ?_⟩
    intro f j hf hj
    rw [SMat.blk_congr d2, d3.blk f j (by rw [d5]; exact hf) hj, d6 f j hf hj, hn]
    by_cases h1 : f = jf
    · subst h1
      by_cases h2 : j < nb f
      · rw [if_pos ⟨rfl, h2⟩, if_pos ⟨by omega, h2⟩]
      · rw [if_neg (by omega), if_neg (by omega), if_neg (by omega)]
    · rw [if_neg (by tauto)]
      by_cases h2 : f < jf ∧ j < nb f
      · rw [if_pos h2, if_pos ⟨by omega, h2.2⟩]
      · rw [if_neg h2, if_neg (by omega)]
  · intro a ha
    have : (m1.mat a).SameShape (m2.mat a) := by
      rcases ha with rfl | rfl | rfl
      · exact k3.shape
      · exact k4.shape
      · exact k5.shape
    rw [this.width, this.height]
    exact v1 a ha

theorem AsmGen.congr {mem0 : Store α} {W H : Nat} {nb : Nat → Nat} {bl : Nat → Nat → Nat}
    {J J' Jd Jd' : Nat → Nat → α} {ks kd e ks' kd' e' : Nat → α} {jf : Nat} {mem : Store α}
    (h : AsmGen mem0 W H nb bl J Jd ks kd e jf mem) (hJ : ∀ f q, f < jf → J f q = J' f q)
    (hJd : ∀ f q, f < jf → Jd f q = Jd' f q)
    (hs : ∀ f, f < jf → ks f = ks' f) (hd : ∀ f, f < jf → kd f = kd' f)
    (he : ∀ f, f < jf → e f = e' f) :
    AsmGen mem0 W H nb bl J' Jd' ks' kd' e' jf mem :=
  { h with
    ent := fun f q hf hq => (h.ent f q hf hq).trans (hJ f q hf)
    dot := fun f q hf hq => (h.dot f q hf hq).trans (hJd f q hf)
    gs := fun f hf => (h.gs f hf).trans (hs f hf)
    gd := fun f hf => (h.gd f hf).trans (hd f hf)
    err := fun f hf => (h.err f hf).trans (he f hf) }

/-- The rows `0 .. jf-1` are those of the outputs `out i` of the constraints. -/
def World.GenRows (w : World α) (B : Nat → Nat → Nat) (out : Nat → Output α)
    (mem0 : Store α) (jf : Nat) (mem : Store α) : Prop :=
  AsmGen mem0 (3 * w.bodyCount) w.fullCount (fun f => w.rowN f) (fun f j => B (w.rowC f) j)
    (fun f q => (out (w.rowI f)).J (w.rowK f) q) (fun f q => (out (w.rowI f)).J_dot (w.rowK f) q)
    (fun f => (out (w.rowI f)).ks (w.rowK f)) (fun f => (out (w.rowI f)).kd (w.rowK f))
    (fun f => (out (w.rowI f)).C (w.rowK f)) jf mem

/-- Every registered constraint acts on a body. -/
def World.NoIdle (w : World α) : Prop := ∀ c ∈ w.cs, 1 ≤ (w.cons c).bodyCount

theorem GenRows.upd {w : World α} {B : Nat → Nat → Nat} {out : Nat → Output α}
    {mem0 mem : Store α} {i : Nat} (hi : i ≤ w.cs.length)
    (h : w.GenRows B out mem0 (w.off i) mem) (o : Output α) :
    w.GenRows B (upd out i o) mem0 (w.off i) mem := by
  have key : ∀ f, f < w.off i → Scs.upd out i o (w.rowI f) = out (w.rowI f) := by
    intro f hf
    have := rowI_lt w hi hf
    rw [Scs.upd, if_neg (by omega)]
  refine AsmGen.congr h ?_ ?_ ?_ ?_ ?_
  · intro f q hf; simp only [key f hf]
  · intro f q hf; simp only [key f hf]
  · intro f hf; simp only [key f hf]
  · intro f hf; simp only [key f hf]
  · intro f hf; simp only [key f hf]

theorem genCon_ok {w : World α} {B : Nat → Nat → Nat} (hfit : w.Fit B) (hid : w.NoIdle)
    {s : SysState α} {mem0 : Store α}
    {i : Nat} (hi : i < w.cs.length) {q : Asm α} (hq : q.jf = w.off i) {out : Nat → Output α}
    (h : w.GenRows B out mem0 (w.off i) q.mem) {o : Output α}
    (ho : (w.cons w.cs[i]).kind.calculate ((w.cons w.cs[i]).idx w.bodies) q.out s = .ok o) :
    ∃ q', w.genCon s i q = .ok q' ∧ q'.jf = w.off (i + 1) ∧ q'.out = o ∧
      w.GenRows B (upd out i o) mem0 (w.off (i + 1)) q'.mem := by
  have hmem : w.cs[i] ∈ w.cs := List.getElem_mem hi
  apply wp_noErr_iff.1
  rw [World.genCon, vecAt_ok hi, ok_bind]
  dsimp only
  rw [ho, ok_bind]
  refine wp_forN' (fun k (p : Asm α) => p.jf = w.off i + k ∧ p.out = o ∧
    w.GenRows B (upd out i o) mem0 (w.off i + k) p.mem)
    ⟨hq, rfl, GenRows.upd (Nat.le_of_lt hi) h o⟩ ?_ ?_
  · rintro k hk p ⟨hp, hpo, ha⟩
    obtain ⟨r1, r2, r3⟩ := row_off w hi hk
    have hrows := hfit.rows _ hmem
    have hlt := off_lt w hi hk
    have hnb : w.rowN (w.off i + k) = (w.cons w.cs[i]).bodyCount := by rw [World.rowN, r3]
    have hu : Scs.upd out i o i = o := by rw [Scs.upd, if_pos rfl]
    obtain ⟨m', e, hm'⟩ := genRow_spec (c := w.cons w.cs[i]) (bodies := w.bodies) (out := o)
      (k := k) ha hlt (by omega) hnb.symm
      (fun f hf => ⟨hid _ (row_spec w hf).2.2.2.2, hfit.two _ (row_spec w hf).2.2.2.2⟩)
      (fun j hj => by
        simp only [r3]
        exact hfit.idx _ hmem j (by omega))
      (fun j hj => by
        simp only [r3]
        have h1 := hfit.lt _ hmem j (by omega)
        omega)
      (fun q _ => by simp only [r1, r2, hu]) (fun q _ => by simp only [r1, r2, hu])
      (by simp only [r1, r2, hu]) (by simp only [r1, r2, hu]) (by simp only [r1, r2, hu])
    rw [hp]
    cases hg : genBlocks (w.cons w.cs[i]) w.bodies (w.off i + k) p.mem with
    | error er => rw [hg] at e; cases e
    | ok mg =>
      rw [hg, ok_bind] at e
      rw [ok_bind, e, ok_bind]
      exact (wp_ok _).2 ⟨rfl, hpo, hm'⟩
  · rintro p ⟨hp, hpo, ha⟩
    rw [off_succ w hi]
    exact ⟨hp, hpo, ha⟩

theorem genCon_wp {w : World α} {B : Nat → Nat → Nat} (hfit : w.Fit B) (hid : w.NoIdle)
    {s : SysState α} {mem0 : Store α} {E : Err → Prop}
    (hE : ∀ c ∈ w.cs, ∀ o, Wp ((w.cons c).kind.calculate ((w.cons c).idx w.bodies) o s)
      (fun _ => True) E)
    {i : Nat} (hi : i < w.cs.length) {q : Asm α} (hq : q.jf = w.off i) {out : Nat → Output α}
    (h : w.GenRows B out mem0 (w.off i) q.mem) :
    Wp (w.genCon s i q) (fun q' => q'.jf = w.off (i + 1) ∧ ∃ o,
      (w.cons w.cs[i]).kind.calculate ((w.cons w.cs[i]).idx w.bodies) q.out s = .ok o ∧
      q'.out = o ∧ w.GenRows B (upd out i o) mem0 (w.off (i + 1)) q'.mem) E := by
  have hmem : w.cs[i] ∈ w.cs := List.getElem_mem hi
  cases ho : (w.cons w.cs[i]).kind.calculate ((w.cons w.cs[i]).idx w.bodies) q.out s with
  | error er =>
    rw [World.genCon, vecAt_ok hi, ok_bind]
    dsimp only
    rw [ho]
    have := hE _ hmem q.out
    rw [ho] at this
    exact this
  | ok o =>
    obtain ⟨q', e, h1, h2, h3⟩ := genCon_ok hfit hid hi hq h ho
    exact Wp.of_ok e ⟨h1, o, rfl, h2, h3⟩

theorem genAssemble_start (w : World α) (B : Nat → Nat → Nat) (out : Nat → Output α)
    (s : SysState α) (raw : Output α) {mem : Store α} (hinv : Inv 3 2 sysRestr mem) :
    ∃ m, w.genAssemble raw s mem = (do
        let q ← forN w.conCount (w.genCon s) ⟨m, raw, 0⟩
        pure q.mem) ∧ w.GenRows B out mem 0 m := by
  obtain ⟨m0, e0, o0, wf0, fr0, w0, h0, b0⟩ := Store.sinit_spec 3 2 mem .ivJ (3 * w.bodyCount)
    w.fullCount (hinv.smat _) (hinv.sfresh _)
  have i0 := hinv.of_onlyS o0 wf0 (fun _ => fr0)
  obtain ⟨m1, e1, o1, wf1, fr1, w1, h1, b1⟩ := Store.sinit_spec 3 2 m0 .ivJdot (3 * w.bodyCount)
    w.fullCount (i0.smat _) (i0.sfresh _)
  have i1 := i0.of_onlyS o1 wf1 (fun _ => fr1)
  obtain ⟨m2, e2, i2, o2, w2, h2⟩ := i1.init0 .ivKs 1 w.fullCount
  obtain ⟨m3, e3, i3, o3, w3, h3⟩ := i2.init0 .ivKd 1 w.fullCount
  obtain ⟨m4, e4, i4, o4, w4, h4⟩ := i3.init0 .ivC 1 w.fullCount
  have s4 : m4.smat = m1.smat := by rw [o4.smat, o3.smat, o2.smat]
  refine ⟨_, by
    rw [World.genAssemble, e0, ok_bind, e1, ok_bind, e2, ok_bind, e3, ok_bind, e4, ok_bind], ?_⟩
  refine { frame := ⟨fun a ha => ?_, fun a ha => ?_⟩, inv := i4, dims := ?_, vec := ?_,
           ent := ?_, dot := ?_, gs := ?_, gd := ?_, err := ?_ }
  · have n1 : a ≠ .ivKs := fun q => ha (Or.inl q)
    have n2 : a ≠ .ivKd := fun q => ha (Or.inr (Or.inl q))
    have n3 : a ≠ .ivC := fun q => ha (Or.inr (Or.inr q))
    rw [o4.mat _ n3, o3.mat _ n2, o2.mat _ n1, o1.mat, o0.mat]
  · rw [s4, o1.smat _ (fun q => ha (Or.inr q)), o0.smat _ (fun q => ha (Or.inl q))]
  · rintro t (rfl | rfl)
    · rw [s4, o1.smat _ (by decide)]
      exact ⟨w0, h0, fun f j hf hj => by rw [b0 f j hf hj, if_neg (by omega)]⟩
    · rw [s4]
      exact ⟨w1, h1, fun f j hf hj => by rw [b1 f j hf hj, if_neg (by omega)]⟩
  · rintro a (rfl | rfl | rfl)
    · rw [o4.mat _ (by decide), o3.mat _ (by decide)]; exact ⟨w2, h2⟩
    · rw [o4.mat _ (by decide)]; exact ⟨w3, h3⟩
    · exact ⟨w4, h4⟩
  all_goals intro f; intros; omega

theorem genAssemble_wp {w : World α} {B : Nat → Nat → Nat} (hfit : w.Fit B) (hid : w.NoIdle)
    {s : SysState α} {raw : Output α} {mem : Store α} (hinv : Inv 3 2 sysRestr mem)
    {E : Err → Prop}
    (hE : ∀ c ∈ w.cs, ∀ o, Wp ((w.cons c).kind.calculate ((w.cons c).idx w.bodies) o s)
      (fun _ => True) E) :
    Wp (w.genAssemble raw s mem) (fun mem' => ∃ out : Nat → Output α,
      (∀ i (hi : i < w.cs.length), ∃ o, (w.cons w.cs[i]).kind.calculate
        ((w.cons w.cs[i]).idx w.bodies) o s = .ok (out i)) ∧
      w.GenRows B out mem w.fullCount mem') E := by
  obtain ⟨m, e, hm⟩ := genAssemble_start w B (fun _ => raw) s raw hinv
  rw [e, wp_bind]
  refine wp_forN' (fun i (q : Asm α) => q.jf = w.off i ∧ ∃ out : Nat → Output α,
    (∀ i' (hi : i' < w.cs.length), i' < i → ∃ o, (w.cons w.cs[i']).kind.calculate
        ((w.cons w.cs[i']).idx w.bodies) o s = .ok (out i')) ∧
      w.GenRows B out mem (w.off i) q.mem) ?_ ?_ ?_
  · refine ⟨(off_zero w).symm, fun _ => raw, fun i' _ hi => absurd hi (by omega), ?_⟩
    rw [off_zero]
    exact hm
  · rintro i hi q ⟨hq, out, hc, ha⟩
    have hi' : i < w.cs.length := hi
    refine (genCon_wp hfit hid hE hi' hq ha).imp ?_
    rintro q' ⟨hq', o, ho, -, ha'⟩
    refine ⟨hq', Scs.upd out i o, fun i' h1 h2 => ?_, ha'⟩
    by_cases he : i' = i
    · subst he
      exact ⟨q.out, by rw [Scs.upd, if_pos rfl]; exact ho⟩
    · obtain ⟨o', ho'⟩ := hc i' h1 (by omega)
      exact ⟨o', by rw [Scs.upd, if_neg he]; exact ho'⟩
  · rintro q ⟨-, out, hc, ha⟩
    rw [off_full] at ha
    exact ⟨out, fun i hi => hc i hi hi, ha⟩

end

end Scs
