import Verif.WorldRows

/-!
# Assembly of the constraint matrices (optimized system)
-/

namespace Scs

/-- No matrix except the augmented matrix of the elimination solver has its rows swapped, no sparse
matrix is destroyed. -/
def sysRestr : Restr := { plain := (· ≠ .geA), kept := fun _ => True }

section
variable {α : Type}

theorem Inv.sfresh [Zero α] {st en : Nat} {s : Store α} (h : Inv st en sysRestr s) (t : SId) :
    (s.smat t).Fresh := h.fresh t trivial

theorem Inv.mplain [Zero α] {st en : Nat} {s : Store α} (h : Inv st en sysRestr s) {t : MId}
    (ht : t ≠ .geA) : (s.mat t).Plain := h.plain t ht

theorem Inv.wrote [Zero α] {st en : Nat} {s s' : Store α} {t : MId} {w h : Nat} {g : Nat → Nat → α}
    {P : Restr} (hi : Inv st en P s) (hw : Wrote t s s' w h g) : Inv st en P s' :=
  hi.of_only hw.only hw.wf (fun p => hw.plain (hi.plain t p))

theorem Inv.swrote [Zero α] {st en : Nat} {s s' : Store α} {t : SId} {w h : Nat}
    {B : Nat → Nat → Nat} {X : Nat → Nat → Nat → α} {P : Restr} (hi : Inv st en P s)
    (hw : SWrote st en t s s' w h B X) : Inv st en P s' :=
  hi.of_onlyS hw.only hw.wf (fun _ => hw.fresh)

theorem Inv.shaped [Zero α] {st en : Nat} {s s' : Store α} {t : MId} {P : Restr}
    (hi : Inv st en P s) (ho : Only t s s') (hs : (s.mat t).SameShape (s'.mat t)) :
    Inv st en P s' :=
  hi.of_only ho (hs.wf (hi.mat t)) (fun p => hs.plain (hi.plain t p))

theorem Inv.sshaped [Zero α] {st en : Nat} {s s' : Store α} {t : SId} {P : Restr}
    (hi : Inv st en P s) (ho : OnlyS t s s') (hs : (s.smat t).SameShape (s'.smat t)) :
    Inv st en P s' :=
  hi.of_onlyS ho (hs.wf (hi.smat t)) (fun p => hs.fresh (hi.fresh t p))

end

section
variable {α : Type} [Zero α] [Add α] [Mul α] [Sub α] [Neg α] [Fp α]

theorem setBlock_nat {mem : Store α} {t : SId} (wf : (mem.smat t).WF 3 2) {row entry b : Nat}
    (hr : row < (mem.smat t).height) (he : entry < 2)
    (hw : b < (mem.smat t).width) :
    ∃ mem', mem.setBlock 2 t row entry (b : Int) = .ok mem' ∧ OnlyS t mem mem' ∧
      (mem.smat t).SameShape (mem'.smat t) ∧ (mem'.smat t).data = (mem.smat t).data ∧
      ∀ r j, r < (mem.smat t).height → j < 2 → (mem'.smat t).blk 2 r j =
        if r = row ∧ j = entry then b % 256 else (mem.smat t).blk 2 r j := by
  have e : ((b : Int) % 256).toNat = b % 256 := by omega
  obtain ⟨mem', e1, o, _, sh, d, bl⟩ := Store.setBlock_spec 3 2 mem t wf (index := (b : Int)) hr he
    (by rw [e]; exact Nat.lt_of_le_of_lt (Nat.mod_le _ _) hw)
  rw [e] at bl
  exact ⟨mem', e1, o, sh, d, bl⟩

theorem optBlocks_spec {c : Con α} {bodies : Nat → Body α} {B : Nat → Nat} {jf : Nat}
    {mem : Store α} (wf : (mem.smat .ivJ).WF 3 2) (hr : jf < (mem.smat .ivJ).height)
    (hn : c.bodyCount ≤ 2) (hidx : ∀ k, k < c.bodyCount → c.idx bodies k = .ok (B k : Int))
    (hB : ∀ k, k < c.bodyCount → B k < (mem.smat .ivJ).width) :
    ∃ mem', optBlocks c bodies jf mem = .ok mem' ∧ OnlyS .ivJ mem mem' ∧
      (mem.smat .ivJ).SameShape (mem'.smat .ivJ) ∧
      (mem'.smat .ivJ).data = (mem.smat .ivJ).data ∧
      ∀ r j, r < (mem.smat .ivJ).height → j < 2 → (mem'.smat .ivJ).blk 2 r j =
        if r = jf ∧ j < c.bodyCount then B j % 256 else (mem.smat .ivJ).blk 2 r j := by
  apply wp_noErr_iff.1
  refine wp_forN' (fun i (m : Store α) => OnlyS .ivJ mem m ∧
      (mem.smat .ivJ).SameShape (m.smat .ivJ) ∧ (m.smat .ivJ).data = (mem.smat .ivJ).data ∧
      ∀ r j, r < (mem.smat .ivJ).height → j < 2 → (m.smat .ivJ).blk 2 r j =
        if r = jf ∧ j < i then B j % 256 else (mem.smat .ivJ).blk 2 r j)
    ⟨OnlyS.refl _ _, SMat.SameShape.refl _, rfl, fun r j _ _ => by simp⟩ ?_ (fun m h => h)
  rintro i hi m ⟨o, sh, d, bl⟩
  rw [hidx i hi, ok_bind, if_neg (by omega)]
  obtain ⟨m', e, o', sh', d', bl'⟩ := setBlock_nat (sh.wf wf) (row := jf) (entry := i) (b := B i)
    (by rw [sh.height]; exact hr) (by omega) (by rw [sh.width]; exact hB i hi)
  refine Wp.of_ok e ⟨o.trans o', sh.trans sh', d'.trans d, fun r j hr' hj => ?_⟩
  rw [bl' r j (by rw [sh.height]; exact hr') hj, bl r j hr' hj]
  by_cases h1 : r = jf ∧ j = i
  · rw [if_pos h1, if_pos ⟨h1.1, by omega⟩, h1.2]
  · rw [if_neg h1]
    by_cases h2 : r = jf ∧ j < i
    · rw [if_pos h2, if_pos ⟨h2.1, by omega⟩]
    · rw [if_neg h2, if_neg (by omega)]

theorem optEntries_spec {c : Con α} {bodies : Nat → Body α} {B : Nat → Nat} {out : Output α}
    {k jf : Nat} {mem : Store α} (wf : (mem.smat .ivJ).WF 3 2)
    (hr : jf < (mem.smat .ivJ).height) (hk : k < 3)
    (hn : c.bodyCount ≤ 2) (hidx : ∀ k, k < c.bodyCount → c.idx bodies k = .ok (B k : Int)) :
    ∃ mem', optEntries c bodies out k jf mem = .ok mem' ∧ OnlyS .ivJ mem mem' ∧
      (mem.smat .ivJ).SameShape (mem'.smat .ivJ) ∧
      (mem'.smat .ivJ).blocks = (mem.smat .ivJ).blocks ∧
      ∀ r q, r < (mem.smat .ivJ).height → q < 6 → (mem'.smat .ivJ).ent r q =
        if r = jf ∧ q < c.bodyCount * 3 then out.J k q else (mem.smat .ivJ).ent r q := by
  apply wp_noErr_iff.1
  refine wp_forN' (fun i (m : Store α) => OnlyS .ivJ mem m ∧
      (mem.smat .ivJ).SameShape (m.smat .ivJ) ∧
      (m.smat .ivJ).blocks = (mem.smat .ivJ).blocks ∧
      ∀ r q, r < (mem.smat .ivJ).height → q < 6 → (m.smat .ivJ).ent r q =
        if r = jf ∧ q < i then out.J k q else (mem.smat .ivJ).ent r q)
    ⟨OnlyS.refl _ _, SMat.SameShape.refl _, rfl, fun r j _ _ => by simp⟩ ?_ (fun m h => h)
  rintro i hi m ⟨o, sh, d, bl⟩
  rw [hidx (i / 3) (by omega), ok_bind, if_neg (by omega)]
  have e0 : rd2 maxRows (3 * maxBodies) out.J k i = .ok (out.J k i) :=
    if_pos ⟨hk, by simp only [maxBodies]; omega⟩
  rw [e0, ok_bind]
  obtain ⟨m', e, o', _, sh', d', bl'⟩ := Store.sset_spec 3 2 m .ivJ (sh.wf wf) (row := jf)
    (entry := i / 3) (slice := i % 3) (by rw [sh.height]; exact hr) (by omega) (by omega)
    (out.J k i)
  refine Wp.of_ok e ⟨o.trans o', sh.trans sh', d'.trans d, fun r q hr' hq => ?_⟩
  rw [bl' r q (by rw [sh.height]; exact hr') hq, bl r q hr' hq]
  by_cases h1 : r = jf ∧ q = i / 3 * 3 + i % 3
  · rw [if_pos h1, if_pos ⟨h1.1, by omega⟩]
    have : q = i := by omega
    rw [this]
  · rw [if_neg h1]
    by_cases h2 : r = jf ∧ q < i
    · rw [if_pos h2, if_pos ⟨h2.1, by omega⟩]
    · rw [if_neg h2, if_neg (by omega)]

/-- The matrices while the rows `0 .. jf-1` have been written. `J`, `b`, `e`, `lo`, `hi`: the data
of each row; `nb f`, `bl f j`: number and indices of its bodies; the block index is an unsigned
char. -/
structure AsmOpt (mem0 : Store α) (W H : Nat) (nb : Nat → Nat) (bl : Nat → Nat → Nat)
    (J : Nat → Nat → α) (b e lo hi : Nat → α) (jf : Nat) (mem : Store α) : Prop where
  frame : Frame (fun a => a = .ivVBias ∨ a = .ivC ∨ a = .ivLimits) (· = .ivJ) mem0 mem
  inv : Inv 3 2 sysRestr mem
  wJ : (mem.smat .ivJ).width = W
  hJ : (mem.smat .ivJ).height = H
  wb : (mem.mat .ivVBias).width = 1
  hb : (mem.mat .ivVBias).height = H
  we : (mem.mat .ivC).width = 1
  he : (mem.mat .ivC).height = H
  wl : (mem.mat .ivLimits).width = 2
  hl : (mem.mat .ivLimits).height = H
  blk : ∀ f j, f < H → j < 2 → (mem.smat .ivJ).blk 2 f j = if f < jf ∧ j < nb f then
    bl f j % 256 else 255
  ent : ∀ f q, f < jf → q < nb f * 3 → (mem.smat .ivJ).ent f q = J f q
  bias : ∀ f, f < jf → (mem.mat .ivVBias).ent f 0 = b f
  err : ∀ f, f < jf → (mem.mat .ivC).ent f 0 = e f
  low : ∀ f, f < jf → (mem.mat .ivLimits).ent f 0 = lo f
  high : ∀ f, f < jf → (mem.mat .ivLimits).ent f 1 = hi f

theorem optRow_spec {mem0 : Store α} {W H : Nat} {nb : Nat → Nat} {bl : Nat → Nat → Nat}
    {J : Nat → Nat → α} {b e lo hi : Nat → α} {jf : Nat} {mem : Store α}
    (h : AsmOpt mem0 W H nb bl J b e lo hi jf mem) (hjf : jf < H) {c : Con α}
    {bodies : Nat → Body α} {out : Output α} {dt : α} {k : Nat} (hk : k < 3)
    (hn : c.bodyCount = nb jf) (hn2 : ∀ f, f < H → nb f ≤ 2)
    (hidx : ∀ k, k < nb jf → c.idx bodies k = .ok (bl jf k : Int))
    (hB : ∀ k, k < nb jf → bl jf k < W)
    (hJ : ∀ q, q < nb jf * 3 → J jf q = out.J k q) (hb : b jf = out.v_bias k)
    (he : e jf = out.C k) (hlo : lo jf = out.limits k 0 * dt) (hhi : hi jf = out.limits k 1 * dt) :
    ∃ mem', optRow c bodies out dt k jf mem = .ok mem' ∧
      AsmOpt mem0 W H nb bl J b e lo hi (jf + 1) mem' := by
  have inv0 := h.inv
  obtain ⟨m1, e1, o1, sh1, d1, bl1⟩ := optBlocks_spec (c := c) (bodies := bodies) (B := bl jf)
    (jf := jf) (inv0.smat .ivJ) (by rw [h.hJ]; exact hjf) (by have := hn2 jf hjf; omega)
    (fun k hk => hidx k (by omega)) (fun k hk => by rw [h.wJ]; exact hB k (by omega))
  have inv1 := inv0.sshaped o1 sh1
  obtain ⟨m2, e2, o2, sh2, d2, en2⟩ := optEntries_spec (c := c) (bodies := bodies) (B := bl jf)
    (out := out) (k := k) (jf := jf) (inv1.smat .ivJ) (by rw [sh1.height, h.hJ]; exact hjf) hk
    (by have := hn2 jf hjf; omega) (fun k hk => hidx k (by omega))
  have inv2 := inv1.sshaped o2 sh2
  have o12 := o1.trans o2
  have mat2 : m2.mat = mem.mat := o12.mat
  obtain ⟨m3, e3, o3, _, sh3, en3⟩ := Store.set_spec m2 .ivVBias (inv2.mat _) (c := 0) (r := jf)
    (by rw [mat2, h.wb]; decide) (by rw [mat2, h.hb]; exact hjf) (out.v_bias k)
  have inv3 := inv2.shaped o3 sh3
  obtain ⟨m4, e4, o4, _, sh4, en4⟩ := Store.set_spec m3 .ivC (inv3.mat _) (c := 0) (r := jf)
    (by rw [o3.mat _ (by decide), mat2, h.we]; decide)
    (by rw [o3.mat _ (by decide), mat2, h.he]; exact hjf) (out.C k)
  have inv4 := inv3.shaped o4 sh4
  have lim4 : m4.mat .ivLimits = mem.mat .ivLimits := by
    rw [o4.mat _ (by decide), o3.mat _ (by decide), mat2]
  obtain ⟨m5, e5, o5, _, sh5, en5⟩ := Store.set_spec m4 .ivLimits (inv4.mat _) (c := 0) (r := jf)
    (by rw [lim4, h.wl]; decide) (by rw [lim4, h.hl]; exact hjf) (out.limits k 0 * dt)
  have inv5 := inv4.shaped o5 sh5
  obtain ⟨m6, e6, o6, _, sh6, en6⟩ := Store.set_spec m5 .ivLimits (inv5.mat _) (c := 1) (r := jf)
    (by rw [sh5.width, lim4, h.wl]; decide) (by rw [sh5.height, lim4, h.hl]; exact hjf)
    (out.limits k 1 * dt)
  have inv6 := inv5.shaped o6 sh6
  have s6 : m6.smat = m2.smat := by rw [o6.smat, o5.smat, o4.smat, o3.smat]
  have v6 : m6.mat .ivVBias = m3.mat .ivVBias := by
    rw [o6.mat _ (by decide), o5.mat _ (by decide), o4.mat _ (by decide)]
  have c6 : m6.mat .ivC = m4.mat .ivC := by rw [o6.mat _ (by decide), o5.mat _ (by decide)]
  have c3 : m3.mat .ivC = mem.mat .ivC := by rw [o3.mat _ (by decide), mat2]
  rw [mat2] at sh3 en3
  rw [c3] at sh4 en4
  rw [lim4] at sh5 en5
  refine ⟨m6, ?_, ?_⟩
  · have r1 : rd1 maxRows out.v_bias k = .ok (out.v_bias k) := if_pos hk
    have r2 : rd1 maxRows out.C k = .ok (out.C k) := if_pos hk
    have r3 : rd2 maxRows 2 out.limits k 0 = .ok (out.limits k 0) := if_pos ⟨hk, by decide⟩
    have r4 : rd2 maxRows 2 out.limits k 1 = .ok (out.limits k 1) := if_pos ⟨hk, by decide⟩
    rw [optRow, e1, ok_bind, e2, ok_bind, r1, ok_bind, e3, ok_bind, r2, ok_bind, e4, ok_bind, r3,
      ok_bind, e5, ok_bind, r4, ok_bind, e6]
  · refine { frame := ⟨fun a ha => ?_, fun a ha => ?_⟩, inv := inv6, wJ := ?_, hJ := ?_, wb := ?_,
             hb := ?_, we := ?_, he := ?_, wl := ?_, hl := ?_, blk := ?_, ent := ?_, bias := ?_,
             err := ?_, low := ?_, high := ?_ }
    · have h1 : a ≠ .ivVBias := fun q => ha (Or.inl q)
      have h2 : a ≠ .ivC := fun q => ha (Or.inr (Or.inl q))
      have h3 : a ≠ .ivLimits := fun q => ha (Or.inr (Or.inr q))
      rw [o6.mat _ h3, o5.mat _ h3, o4.mat _ h2, o3.mat _ h1, mat2, h.frame.mat a ha]
    · rw [s6, o12.smat _ ha, h.frame.smat a ha]
    · rw [s6, sh2.width, sh1.width, h.wJ]
    · rw [s6, sh2.height, sh1.height, h.hJ]
    · rw [v6, sh3.width, h.wb]
    · rw [v6, sh3.height, h.hb]
    · rw [c6, sh4.width, h.we]
    · rw [c6, sh4.height, h.he]
    · rw [sh6.width, sh5.width, h.wl]
    · rw [sh6.height, sh5.height, h.hl]
    · intro f j hf hj
      rw [s6, SMat.blk_congr d2, bl1 f j (by rw [h.hJ]; exact hf) hj, h.blk f j hf hj, hn]
      by_cases h1 : f = jf
      · subst h1
        by_cases h2 : j < nb f
        · rw [if_pos ⟨rfl, h2⟩, if_pos ⟨by omega, h2⟩]
        · rw [if_neg (by omega), if_neg (by omega), if_neg (by omega)]
      · rw [if_neg (by tauto)]
        by_cases h2 : f < jf ∧ j < nb f
        · rw [if_pos h2, if_pos ⟨by omega, h2.2⟩]
        · rw [if_neg h2, if_neg (by omega)]
    · intro f q hf hq
      have h1f : f < H := by omega
      have hq6 : q < 6 := by have := hn2 f h1f; omega
      rw [s6, en2 f q (by rw [sh1.height, h.hJ]; exact h1f) hq6, hn]
      by_cases h1 : f = jf
      · subst h1
        rw [if_pos ⟨rfl, hq⟩, hJ q hq]
      · rw [if_neg (by tauto), SMat.ent_congr sh1.rows d1, h.ent f q (by omega) hq]
    · intro f hf
      have h1f : f < H := by omega
      rw [v6, en3 f 0 (by rw [h.hb]; exact h1f) (by rw [h.wb]; decide)]
      by_cases h1 : f = jf
      · subst h1; rw [if_pos ⟨rfl, rfl⟩, hb]
      · rw [if_neg (by tauto), h.bias f (by omega)]
    · intro f hf
      have h1f : f < H := by omega
      rw [c6, en4 f 0 (by rw [h.he]; exact h1f) (by rw [h.we]; decide)]
      by_cases h1 : f = jf
      · subst h1; rw [if_pos ⟨rfl, rfl⟩, he]
      · rw [if_neg (by tauto), h.err f (by omega)]
    · intro f hf
      have h1f : f < H := by omega
      rw [en6 f 0 (by rw [sh5.height, h.hl]; exact h1f) (by rw [sh5.width, h.wl]; decide),
        if_neg (by omega), en5 f 0 (by rw [h.hl]; exact h1f) (by rw [h.wl]; decide)]
      by_cases h1 : f = jf
      · subst h1; rw [if_pos ⟨rfl, rfl⟩, hlo]
      · rw [if_neg (by tauto), h.low f (by omega)]
    · intro f hf
      have h1f : f < H := by omega
      rw [en6 f 1 (by rw [sh5.height, h.hl]; exact h1f) (by rw [sh5.width, h.wl]; decide)]
      by_cases h1 : f = jf
      · subst h1; rw [if_pos ⟨rfl, rfl⟩, hhi]
      · rw [if_neg (by tauto), en5 f 1 (by rw [h.hl]; exact h1f) (by rw [h.wl]; decide),
          if_neg (by omega), h.high f (by omega)]

theorem AsmOpt.congr {mem0 : Store α} {W H : Nat} {nb : Nat → Nat} {bl : Nat → Nat → Nat}
    {J J' : Nat → Nat → α} {b e lo hi b' e' lo' hi' : Nat → α} {jf : Nat} {mem : Store α}
    (h : AsmOpt mem0 W H nb bl J b e lo hi jf mem) (hJ : ∀ f q, f < jf → J f q = J' f q)
    (hb : ∀ f, f < jf → b f = b' f) (he : ∀ f, f < jf → e f = e' f)
    (hlo : ∀ f, f < jf → lo f = lo' f) (hhi : ∀ f, f < jf → hi f = hi' f) :
    AsmOpt mem0 W H nb bl J' b' e' lo' hi' jf mem :=
  { h with
    ent := fun f q hf hq => (h.ent f q hf hq).trans (hJ f q hf)
    bias := fun f hf => (h.bias f hf).trans (hb f hf)
    err := fun f hf => (h.err f hf).trans (he f hf)
    low := fun f hf => (h.low f hf).trans (hlo f hf)
    high := fun f hf => (h.high f hf).trans (hhi f hf) }

/-- The rows `0 .. jf-1` are those of the outputs `out i` of the constraints. -/
def World.AsmRows (w : World α) (B : Nat → Nat → Nat) (dt : α) (out : Nat → Output α)
    (mem0 : Store α) (jf : Nat) (mem : Store α) : Prop :=
  AsmOpt mem0 (3 * w.bodyCount) w.fullCount (fun f => w.rowN f) (fun f j => B (w.rowC f) j)
    (fun f q => (out (w.rowI f)).J (w.rowK f) q) (fun f => (out (w.rowI f)).v_bias (w.rowK f))
    (fun f => (out (w.rowI f)).C (w.rowK f)) (fun f => (out (w.rowI f)).limits (w.rowK f) 0 * dt)
    (fun f => (out (w.rowI f)).limits (w.rowK f) 1 * dt) jf mem

theorem rowI_lt (w : World α) {f i : Nat} (hi : i ≤ w.cs.length) (hf : f < w.off i) :
    w.rowI f < i := by
  have hfull : f < w.fullCount := by
    have := off_mono w hi (Nat.le_refl _)
    have e := off_full w
    rw [World.conCount] at e
    omega
  obtain ⟨h1, _, _, h4, _⟩ := row_spec w hfull
  by_contra hc
  have := off_mono w (Nat.le_of_not_lt hc) (Nat.le_of_lt h1)
  omega

theorem AsmRows.upd {w : World α} {B : Nat → Nat → Nat} {dt : α} {out : Nat → Output α}
    {mem0 mem : Store α} {i : Nat} (hi : i ≤ w.cs.length)
    (h : w.AsmRows B dt out mem0 (w.off i) mem) (o : Output α) :
    w.AsmRows B dt (upd out i o) mem0 (w.off i) mem := by
  have key : ∀ f, f < w.off i → Scs.upd out i o (w.rowI f) = out (w.rowI f) := by
    intro f hf
    have := rowI_lt w hi hf
    rw [Scs.upd, if_neg (by omega)]
  refine AsmOpt.congr h ?_ ?_ ?_ ?_ ?_
  · intro f q hf; simp only [key f hf]
  · intro f hf; simp only [key f hf]
  · intro f hf; simp only [key f hf]
  · intro f hf; simp only [key f hf]
  · intro f hf; simp only [key f hf]

theorem optCon_ok {w : World α} {B : Nat → Nat → Nat} (hfit : w.Fit B) {dt : α} {s : SysState α}
    {mem0 : Store α}
    {i : Nat} (hi : i < w.cs.length) {q : Asm α} (hq : q.jf = w.off i) {out : Nat → Output α}
    (h : w.AsmRows B dt out mem0 (w.off i) q.mem) {o : Output α}
    (ho : (w.cons w.cs[i]).kind.calculate ((w.cons w.cs[i]).idx w.bodies) q.out s = .ok o) :
    ∃ q', w.optCon dt s i q = .ok q' ∧ q'.jf = w.off (i + 1) ∧ q'.out = o ∧
      w.AsmRows B dt (upd out i o) mem0 (w.off (i + 1)) q'.mem := by
  have hmem : w.cs[i] ∈ w.cs := List.getElem_mem hi
  apply wp_noErr_iff.1
  rw [World.optCon, vecAt_ok hi, ok_bind]
  dsimp only
  rw [ho, ok_bind]
  refine wp_forN' (fun k (p : Asm α) => p.jf = w.off i + k ∧ p.out = o ∧
    w.AsmRows B dt (upd out i o) mem0 (w.off i + k) p.mem)
    ⟨hq, rfl, AsmRows.upd (Nat.le_of_lt hi) h o⟩ ?_ ?_
  · rintro k hk p ⟨hp, hpo, ha⟩
    obtain ⟨r1, r2, r3⟩ := row_off w hi hk
    have hrows := hfit.rows _ hmem
    have hlt := off_lt w hi hk
    have hnb : w.rowN (w.off i + k) = (w.cons w.cs[i]).bodyCount := by rw [World.rowN, r3]
    have hu : Scs.upd out i o i = o := by rw [Scs.upd, if_pos rfl]
    obtain ⟨m', e, hm'⟩ := optRow_spec (c := w.cons w.cs[i]) (bodies := w.bodies) (out := o)
      (dt := dt) (k := k) ha hlt (by omega) hnb.symm
      (fun f hf => hfit.two _ (row_spec w hf).2.2.2.2)
      (fun j hj => by
        simp only [r3]
        exact hfit.idx _ hmem j (by omega))
      (fun j hj => by
        simp only [r3]
        have h1 := hfit.lt _ hmem j (by omega)
        omega)
      (fun q _ => by simp only [r1, r2, hu]) (by simp only [r1, r2, hu])
      (by simp only [r1, r2, hu]) (by simp only [r1, r2, hu]) (by simp only [r1, r2, hu])
    rw [hp, e, ok_bind]
    exact (wp_ok _).2 ⟨rfl, hpo, hm'⟩
  · rintro p ⟨hp, hpo, ha⟩
    rw [off_succ w hi]
    exact ⟨hp, hpo, ha⟩

theorem optCon_wp {w : World α} {B : Nat → Nat → Nat} (hfit : w.Fit B) {dt : α} {s : SysState α}
    {mem0 : Store α} {E : Err → Prop}
    (hE : ∀ c ∈ w.cs, ∀ o, Wp ((w.cons c).kind.calculate ((w.cons c).idx w.bodies) o s)
      (fun _ => True) E)
    {i : Nat} (hi : i < w.cs.length) {q : Asm α} (hq : q.jf = w.off i) {out : Nat → Output α}
    (h : w.AsmRows B dt out mem0 (w.off i) q.mem) :
    Wp (w.optCon dt s i q) (fun q' => q'.jf = w.off (i + 1) ∧ ∃ o,
      (w.cons w.cs[i]).kind.calculate ((w.cons w.cs[i]).idx w.bodies) q.out s = .ok o ∧
      q'.out = o ∧ w.AsmRows B dt (upd out i o) mem0 (w.off (i + 1)) q'.mem) E := by
  have hmem : w.cs[i] ∈ w.cs := List.getElem_mem hi
  cases ho : (w.cons w.cs[i]).kind.calculate ((w.cons w.cs[i]).idx w.bodies) q.out s with
  | error er =>
    rw [World.optCon, vecAt_ok hi, ok_bind]
    dsimp only
    rw [ho]
    have := hE _ hmem q.out
    rw [ho] at this
    exact this
  | ok o =>
    obtain ⟨q', e, h1, h2, h3⟩ := optCon_ok hfit hi hq h ho
    exact Wp.of_ok e ⟨h1, o, rfl, h2, h3⟩

theorem optAssemble_start (w : World α) (B : Nat → Nat → Nat) (dt : α) (out : Nat → Output α)
    (s : SysState α) (raw : Output α) {mem : Store α} (hinv : Inv 3 2 sysRestr mem) :
    ∃ m, w.optAssemble dt raw s mem = (do
        let q ← forN w.conCount (w.optCon dt s) ⟨m, raw, 0⟩
        pure q.mem) ∧ w.AsmRows B dt out mem 0 m := by
  obtain ⟨m1, e1, o1, wf1, fr1, w1, h1, b1⟩ := Store.sinit_spec 3 2 mem .ivJ (3 * w.bodyCount)
    w.fullCount (hinv.smat _) (hinv.sfresh _)
  have i1 := hinv.of_onlyS o1 wf1 (fun _ => fr1)
  obtain ⟨m2, e2, i2, o2, w2, h2⟩ := i1.init0 .ivVBias 1 w.fullCount
  obtain ⟨m3, e3, i3, o3, w3, h3⟩ := i2.init0 .ivC 1 w.fullCount
  obtain ⟨m4, e4, i4, o4, w4, h4⟩ := i3.init0 .ivLimits 2 w.fullCount
  have s4 : m4.smat = m1.smat := by rw [o4.smat, o3.smat, o2.smat]
  refine ⟨_, by
    rw [World.optAssemble, e1, ok_bind, e2, ok_bind, e3, ok_bind, e4, ok_bind], ?_⟩
  refine { frame := ⟨fun a ha => ?_, fun a ha => ?_⟩, inv := i4, wJ := ?_, hJ := ?_, wb := ?_,
           hb := ?_, we := ?_, he := ?_, wl := ?_, hl := ?_, blk := ?_, ent := ?_, bias := ?_,
           err := ?_, low := ?_, high := ?_ }
  · have n1 : a ≠ .ivVBias := fun q => ha (Or.inl q)
    have n2 : a ≠ .ivC := fun q => ha (Or.inr (Or.inl q))
    have n3 : a ≠ .ivLimits := fun q => ha (Or.inr (Or.inr q))
    rw [o4.mat _ n3, o3.mat _ n2, o2.mat _ n1, o1.mat]
  · rw [s4, o1.smat _ ha]
  · rw [s4, w1]
  · rw [s4, h1]
  · rw [o4.mat _ (by decide), o3.mat _ (by decide), w2]
  · rw [o4.mat _ (by decide), o3.mat _ (by decide), h2]
  · rw [o4.mat _ (by decide), w3]
  · rw [o4.mat _ (by decide), h3]
  · exact w4
  · exact h4
  · intro f j hf hj
    rw [s4, b1 f j hf hj, if_neg (by omega)]
  all_goals intro f; intros; omega

theorem optAssemble_wp {w : World α} {B : Nat → Nat → Nat} (hfit : w.Fit B) {dt : α}
    {s : SysState α} {raw : Output α} {mem : Store α} (hinv : Inv 3 2 sysRestr mem)
    {E : Err → Prop}
    (hE : ∀ c ∈ w.cs, ∀ o, Wp ((w.cons c).kind.calculate ((w.cons c).idx w.bodies) o s)
      (fun _ => True) E) :
    Wp (w.optAssemble dt raw s mem) (fun mem' => ∃ out : Nat → Output α,
      (∀ i (hi : i < w.cs.length), ∃ o, (w.cons w.cs[i]).kind.calculate
        ((w.cons w.cs[i]).idx w.bodies) o s = .ok (out i)) ∧
      w.AsmRows B dt out mem w.fullCount mem') E := by
  obtain ⟨m, e, hm⟩ := optAssemble_start w B dt (fun _ => raw) s raw hinv
  rw [e, wp_bind]
  refine wp_forN' (fun i (q : Asm α) => q.jf = w.off i ∧ ∃ out : Nat → Output α,
    (∀ i' (hi : i' < w.cs.length), i' < i → ∃ o, (w.cons w.cs[i']).kind.calculate
        ((w.cons w.cs[i']).idx w.bodies) o s = .ok (out i')) ∧
      w.AsmRows B dt out mem (w.off i) q.mem) ?_ ?_ ?_
  · refine ⟨(off_zero w).symm, fun _ => raw, fun i' _ hi => absurd hi (by omega), ?_⟩
    rw [off_zero]
    exact hm
  · rintro i hi q ⟨hq, out, hc, ha⟩
    have hi' : i < w.cs.length := hi
    refine (optCon_wp hfit hE hi' hq ha).imp ?_
    rintro q' ⟨hq', o, ho, -, ha'⟩
    refine ⟨hq', Scs.upd out i o, fun i' h1 h2 => ?_, ha'⟩
    by_cases he : i' = i
    · subst he
      exact ⟨q.out, by rw [Scs.upd, if_pos rfl]; exact ho⟩
    · obtain ⟨o', ho'⟩ := hc i' h1 (by omega)
      exact ⟨o', by rw [Scs.upd, if_neg he]; exact ho'⟩
  · rintro q ⟨-, out, hc, ha⟩
    rw [off_full] at ha
    exact ⟨out, fun i hi => hc i hi hi, ha⟩

end

end Scs
