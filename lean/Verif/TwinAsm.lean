import Verif.TwinOde
import Verif.WorldAsmGen
import Verif.Frames

/-!
# Two runs of the same code: one evaluation of forces and constraints
-/

namespace Scs

section
variable {α : Type} [Zero α] [Add α] [Mul α] [Sub α] [Neg α] [Fp α]
variable {ks : List MId} {ls : List SId} {u u' : Store α}
variable {n c N : Nat} {P : Fld → Prop} {D : Nat → Prop} {s s' : SysState α} {w : World α}
variable {B : Nat → Nat → Nat}

/-! ## The columns of body data -/

theorem Twin.popMass (h : Twin ks ls u u') (w : World α) :
    Rel (Twin (.ivMinv :: ks) ls) (w.populateMass u) (w.populateMass u') := by
  unfold World.populateMass
  refine rel_bind (h.init0 .ivM 1 _) fun a a' h => ?_
  refine rel_bind (h.init0 .ivMinv 1 _) fun a a' h => ?_
  refine (rel_for (R := fun (u u' : Store α) => Twin (.ivMinv :: .ivM :: ks) ls u u') h ?_).mono
    fun _ _ z => z.subk fun a m => ?_
  · intro i _ a a' h
    unfold World.popMass
    refine rel_same _ fun id _ => ?_
    refine rel_bind (h.set (t := .ivM) (by simp) _ _ _) fun a a' h => ?_
    refine rel_bind (h.set (t := .ivM) (by simp) _ _ _) fun a a' h => ?_
    refine rel_bind (h.set (t := .ivM) (by simp) _ _ _) fun a a' h => ?_
    refine rel_same _ fun x _ => ?_
    refine rel_bind (h.set (t := .ivMinv) (by simp) _ _ _) fun a a' h => ?_
    refine rel_same _ fun x _ => ?_
    refine rel_bind (h.set (t := .ivMinv) (by simp) _ _ _) fun a a' h => ?_
    exact rel_same _ fun x _ => h.set (t := .ivMinv) (by simp) _ _ _
  · rcases List.mem_cons.1 m with rfl | m
    · simp
    · simp [m]

theorem Twin.loadQdot (h : Twin ks ls u u') (hs : Sim n c (Upto allF N) D s s') (hN : N ≤ n) :
    Rel (fun a a' => Twin (.ivQdot :: ks) ls a a' ∧ a.smat = u.smat) (loadQdot N s u)
      (loadQdot N s' u') := by
  obtain ⟨a, e, i, o, w1, h1, v⟩ := loadQdot_spec (n := N) hs.wf (by rw [hs.sn]; exact hN) h.ok
  obtain ⟨a', e', i', o', w1', h1', v'⟩ := loadQdot_spec (n := N) hs.wf' (by rw [hs.sn']; exact hN) h.ok'
  refine rel_ok e e' ⟨h.upd i i' o o' (fun b m k => (List.mem_cons.1 m).resolve_left k)
    (fun _ => by rw [w1, w1']) (fun _ => by rw [h1, h1']) fun _ r q hr hq => ?_, o.smat⟩
  rw [h1] at hr
  rw [w1] at hq
  obtain ⟨x, j, hj, rfl⟩ := Coord.row_ex hr
  obtain rfl : q = 0 := by omega
  rw [v x j hj, v' x j hj, hs.val _ j ⟨trivial, hj⟩ (by omega)]

theorem Twin.loadFext (h : Twin ks ls u u') (hs : Sim n c (Upto allF N) D s s') (hN : N ≤ n) :
    Rel (fun a a' => Twin (.ivFExt :: ks) ls a a' ∧ a.smat = u.smat) (loadFext N s u)
      (loadFext N s' u') := by
  obtain ⟨a, e, i, o, w1, h1, v⟩ := loadFext_spec (n := N) hs.wf (by rw [hs.sn]; exact hN) h.ok
  obtain ⟨a', e', i', o', w1', h1', v'⟩ := loadFext_spec (n := N) hs.wf' (by rw [hs.sn']; exact hN) h.ok'
  refine rel_ok e e' ⟨h.upd i i' o o' (fun b m k => (List.mem_cons.1 m).resolve_left k)
    (fun _ => by rw [w1, w1']) (fun _ => by rw [h1, h1']) fun _ r q hr hq => ?_, o.smat⟩
  rw [h1] at hr
  rw [w1] at hq
  obtain ⟨x, j, hj, rfl⟩ := Coord.row_ex hr
  obtain rfl : q = 0 := by omega
  rw [v x j hj, v' x j hj, hs.val _ j ⟨trivial, hj⟩ (by omega)]

/-! ## Reactions -/

/-- Position `p` of the reaction arrays belongs to a row and a body it acts on. -/
def World.Used (w : World α) (p : Nat) : Prop := p / 2 < w.fullCount ∧ p % 2 < w.rowN (p / 2)

/-- A Jacobian that has the blocks of all bodies of its rows. -/
def World.Whole (w : World α) (m : SMat α) : Prop :=
  m.height = w.fullCount ∧ ∀ f j, f < w.fullCount → j < 2 → j < w.rowN f → m.blk 2 f j ≠ 255

theorem Sim.writeReactions (hs : Sim n c (Upto P N) D s s') (h : Twin ks ls u u')
    (hS : .ivSreg0 ∈ ls) (hc : w.Whole (u.smat .ivSreg0)) (hm : w.fullCount ≤ c) :
    Rel (Sim n c (Upto P N) w.Used) (writeReactions w.fullCount u s)
      (writeReactions w.fullCount u' s') := by
  obtain ⟨a, e, q, i, v⟩ := writeReactions_spec (mf := w.fullCount) (h.ok.smat .ivSreg0) hc.1
    hs.wf (by rw [hs.snc]; exact hm)
  obtain ⟨a', e', q', i', v'⟩ := writeReactions_spec (mf := w.fullCount) (h.ok'.smat .ivSreg0)
    (by rw [h.sheight _ hS, hc.1]) hs.wf' (by rw [hs.snc']; exact hm)
  refine rel_ok e e' ⟨i, i', by rw [q]; exact hs.sn, by rw [q']; exact hs.sn', by rw [q]; exact hs.snc,
    by rw [q']; exact hs.snc', fun f j k hj => ?_, fun f p k _ => ?_⟩
  · have e1 : a.val f j = s.val f j := by rw [q]; rfl
    have e2 : a'.val f j = s'.val f j := by rw [q']; rfl
    rw [e1, e2, hs.val f j k hj]
  · have hp : p = p / 2 * 2 + p % 2 := by omega
    have key : ∀ x : Coord, a'.rval x.r p = a.rval x.r p := by
      intro x
      rw [hp, v x _ _ k.1 (by omega), v' x _ _ k.1 (by omega)]
      exact h.sent _ hS _ _ _ (by rw [hc.1]; exact k.1) (by omega) x.d_lt
        (hc.2 _ _ k.1 (by omega) k.2)
    cases f
    · exact key .x
    · exact key .y
    · exact key .th

theorem Sim.startAccel (hs : Sim n c (Upto P N) D s s') (h : Twin ks ls u u')
    (hF : .ivFExt ∈ ks) (hN : N ≤ n) :
    Rel (Sim n c (Upto P N) D) (startAccel N u s) (startAccel N u' s') := by
  unfold Scs.startAccel
  refine rel_for hs fun i hi a a' hs => ?_
  refine rel_eq (h.get hF _ _) fun x _ => rel_bind (hs.put .a_x (by omega) fun _ => rfl) fun _ _ hs => ?_
  refine rel_eq (h.get hF _ _) fun x _ => rel_bind (hs.put .a_y (by omega) fun _ => rfl) fun _ _ hs => ?_
  exact rel_eq (h.get hF _ _) fun x _ => hs.put .a_theta (by omega) fun _ => rfl

theorem Sim.addReaction (hs : Sim n c (Upto P N) D s s') (hN : N ≤ n) {k : Con α}
    {bodies : Nat → Body α} {b : Nat → Nat} (hb : ∀ j, j < k.bodyCount → k.idx bodies j = .ok (b j : Int))
    (hl : ∀ j, j < k.bodyCount → b j < N) {jf : Nat}
    (hD : ∀ j, j < k.bodyCount → D (jf * 2 + j) ∧ jf * 2 + j < c * 2) :
    Rel (Sim n c (Upto P N) D) (addReaction k bodies jf s) (addReaction k bodies jf s') := by
  unfold Scs.addReaction
  refine rel_for hs fun j hj a a' hs => ?_
  have hbn : b j < n := Nat.lt_of_lt_of_le (hl j hj) hN
  rw [hb j hj, ok_bind, ok_bind]
  obtain ⟨d1, d2⟩ := hD j hj
  refine rel_eq (hs.rrd_eq d2 d1) fun x _ => rel_bind (hs.addTo .a_x hbn fun _ => rfl) fun _ _ hs => ?_
  refine rel_eq (hs.rrd_eq d2 d1) fun x _ => rel_bind (hs.addTo .a_y hbn fun _ => rfl) fun _ _ hs => ?_
  exact rel_eq (hs.rrd_eq d2 d1) fun x _ => hs.addTo .a_theta hbn fun _ => rfl

theorem Sim.addReactions (hfit : w.Fit B) (hs : Sim n c (Upto P w.bodyCount) w.Used s s')
    (hN : w.bodyCount ≤ n) (hm : w.fullCount ≤ c) :
    Rel (fun q q' => Sim n c (Upto P w.bodyCount) w.Used q.1 q'.1) (w.addReactions s)
      (w.addReactions s') := by
  unfold World.addReactions
  refine (rel_forN (fun i (q q' : SysState α × Nat) =>
    Sim n c (Upto P w.bodyCount) w.Used q.1 q'.1 ∧ q.2 = w.off i ∧ q'.2 = w.off i)
    ⟨hs, (off_zero w).symm, (off_zero w).symm⟩ ?_).mono fun _ _ z => z.1
  rintro i hi q q' ⟨hs, e, e'⟩
  have hi' : i < w.cs.length := hi
  have hmem : w.cs[i] ∈ w.cs := List.getElem_mem hi'
  rw [vecAt_ok hi', ok_bind, ok_bind, off_succ w hi']
  refine rel_forN (fun k (q q' : SysState α × Nat) =>
    Sim n c (Upto P w.bodyCount) w.Used q.1 q'.1 ∧ q.2 = w.off i + k ∧ q'.2 = w.off i + k)
    ⟨hs, e, e'⟩ ?_
  rintro k hk q q' ⟨hs, e, e'⟩
  have hlt := off_lt w hi' hk
  obtain ⟨-, -, r3⟩ := row_off w hi' hk
  rw [e, e']
  refine rel_bind (hs.addReaction hN (hfit.idx _ hmem) (hfit.lt _ hmem) fun j hj => ?_)
    fun _ _ hs => ⟨hs, by show _ + 1 = _; omega, by show _ + 1 = _; omega⟩
  have := hfit.two _ hmem
  have e1 : ((w.off i + k) * 2 + j) / 2 = w.off i + k := by omega
  have e2 : ((w.off i + k) * 2 + j) % 2 = j := by omega
  refine ⟨⟨by rw [e1]; exact hlt, ?_⟩, by omega⟩
  rw [e1, e2, World.rowN, r3]
  exact hj

theorem Sim.scaleAccel (hs : Sim n c (Upto allF N) D s s') (h : Twin ks ls u u')
    (hF : .ivMinv ∈ ks) (hN : N ≤ n) :
    Rel (Sim n c (Upto allF N) D) (scaleAccel N u s) (scaleAccel N u' s') := by
  unfold Scs.scaleAccel
  refine rel_for hs fun i hi a a' hs => ?_
  have mb : ∀ (a a' : SysState α) (f : Fld) (v : α), Sim n c (Upto allF N) D a a' →
      Rel (Sim n c (Upto allF N) D) (mulBy a f i v) (mulBy a' f i v) := by
    intro a a' f v hs
    unfold mulBy
    exact rel_eq (hs.rd_eq (by omega) ⟨trivial, hi⟩) fun x _ => hs.put f (by omega) fun _ => rfl
  refine rel_eq (h.get hF _ _) fun x _ => rel_eq (h.get hF _ _) fun y _ => ?_
  exact rel_bind (mb _ _ _ _ hs) fun _ _ hs => rel_bind (mb _ _ _ _ hs) fun _ _ hs => mb _ _ _ _ hs

theorem Sim.applyReactions (hfit : w.Fit B) (hs : Sim n c (Upto allF w.bodyCount) D s s')
    (hN : w.bodyCount ≤ n) (hm : w.fullCount ≤ c) (h : Twin ks ls u u') (hS : .ivSreg0 ∈ ls)
    (hF : .ivFExt ∈ ks) (hW : .ivMinv ∈ ks) (hc : w.Whole (u.smat .ivSreg0)) :
    Rel (Sim n c (Upto allF w.bodyCount) w.Used) (w.applyReactions u s)
      (w.applyReactions u' s') := by
  unfold World.applyReactions
  refine rel_bind (hs.writeReactions h hS hc hm) fun _ _ hs => ?_
  refine rel_bind (hs.startAccel h hF hN) fun _ _ hs => ?_
  exact rel_bind (hs.addReactions hfit hN hm) fun _ _ hs => hs.scaleAccel h hW hN

/-! ## Calculation of the constraints -/

/-- The registered constraints are shipped ones. -/
def World.Shipped (w : World α) : Prop :=
  ∀ k ∈ w.cs, (w.cons k).kind.counts = some ((w.cons k).rows, (w.cons k).bodyCount)

theorem calculate_same {k : CKind α} {rows nb : Nat} (hk : k.counts = some (rows, nb))
    (idx : Nat → Exec Int) (s : SysState α) (o o' : Output α) :
    SameOutcome rows nb (k.calculate idx o s) (k.calculate idx o' s) := by
  cases k with
  | base => cases hk
  | custom f => cases hk
  | fixedPosition p => cases hk; exact p.calculate_agree idx s o o'
  | fixedRotation p => cases hk; exact p.calculate_agree idx s o o'
  | line p => cases hk; exact p.calculate_agree idx s o o'
  | link p => cases hk; exact p.calculate_agree idx s o o'
  | rolling p => cases hk; exact p.calculate_agree idx s o o'
  | constantRotation p => cases hk; exact p.calculate_agree idx s o o'
  | clutch p => cases hk; exact p.calculate_agree idx s o o'
  | rotationFriction p => cases hk; exact p.calculate_agree idx s o o'
  | simpleGear p => cases hk; exact p.calculate_agree idx s o o'

theorem Sim.calculate (hfit : w.Fit B) (hk : w.Shipped)
    (hs : Sim n c (Upto P w.bodyCount) D s s') (hP : ∀ f : Fld, f.Kept → P f) (hN : w.bodyCount ≤ n)
    {k : Nat} (hm : k ∈ w.cs) (o o' : Output α) :
    Rel (fun x x' => x.Agree (w.cons k).rows (w.cons k).bodyCount x')
      ((w.cons k).kind.calculate ((w.cons k).idx w.bodies) o s)
      ((w.cons k).kind.calculate ((w.cons k).idx w.bodies) o' s') := by
  have e : (w.cons k).kind.calculate ((w.cons k).idx w.bodies) o' s' =
      (w.cons k).kind.calculate ((w.cons k).idx w.bodies) o' s := by
    refine calculate_reads (hk k hm) (fun j hj i hi f hf => ?_) o'
    rw [hfit.idx k hm j hj] at hi
    cases hi
    exact hs.rdp hN (hP f hf) ⟨_, hfit.lt k hm j hj, rfl⟩
  rw [e]
  have same := calculate_same (hk k hm) ((w.cons k).idx w.bodies) s o o'
  rcases same with ⟨er, e1, e2⟩ | ⟨x, x', e1, e2, a⟩
  · rw [e1, e2]; exact rel_err
  · exact rel_ok e1 e2 a

/-! ## Assembly -/

theorem World.Fit.inRange (hfit : w.Fit B) {m : SMat α} (wJ : m.width = 3 * w.bodyCount)
    (hJ : m.height = w.fullCount)
    (hb : ∀ f j, f < w.fullCount → j < 2 →
      m.blk 2 f j = if f < w.fullCount ∧ j < w.rowN f then B (w.rowC f) j % 256 else 255) :
    m.InRange 3 2 := by
  intro f j hf hj
  rw [hJ] at hf
  rw [hb f j hf hj, wJ]
  by_cases hjn : j < w.rowN f
  · have hm := (row_spec w hf).2.2.2.2
    have := hfit.lt _ hm j hjn
    rw [if_pos ⟨hf, hjn⟩]
    by_cases h255 : B (w.rowC f) j % 256 = 255
    · exact .inl h255
    · exact .inr ⟨by omega, by omega⟩
  · rw [if_neg (fun q => hjn q.2)]; left; rfl

/-- The outputs of the first `i` constraints agree. -/
def World.Outs (w : World α) (i : Nat) (out out' : Nat → Output α) : Prop :=
  ∀ j (hj : j < w.cs.length), j < i →
    (out j).Agree (w.cons w.cs[j]).rows (w.cons w.cs[j]).bodyCount (out' j)

theorem World.Outs.upd {i : Nat} {out out' : Nat → Output α} (h : w.Outs i out out')
    (hi : i < w.cs.length) {o o' : Output α}
    (ho : o.Agree (w.cons w.cs[i]).rows (w.cons w.cs[i]).bodyCount o') :
    w.Outs (i + 1) (upd out i o) (upd out' i o') := by
  intro j hj hl
  by_cases e : j = i
  · subst e
    simp only [Scs.upd, if_pos]
    exact ho
  · simp only [Scs.upd, if_neg e]
    exact h j hj (by omega)

theorem World.Outs.row {out out' : Nat → Output α} (h : w.Outs w.conCount out out') {f : Nat}
    (hf : f < w.fullCount) :
    w.rowK f < (w.cons (w.rowC f)).rows ∧
      (out (w.rowI f)).Agree (w.cons (w.rowC f)).rows (w.rowN f) (out' (w.rowI f)) := by
  obtain ⟨h1, h2, h3, h4, h5⟩ := row_spec w hf
  have := h (w.rowI f) h1 h1
  rw [← h2] at this
  exact ⟨h3, this⟩

/-- The assembly of the optimized system. -/
theorem Twin.optAssemble (hfit : w.Fit B) (hlow : w.Low B) (hk : w.Shipped) (h : Twin ks ls u u')
    (hs : Sim n c (Upto P w.bodyCount) D s s') (hP : ∀ f : Fld, f.Kept → P f) (hN : w.bodyCount ≤ n)
    (dt : α) (raw raw' : Output α) :
    Rel (fun m m' => Twin (.ivVBias :: .ivC :: .ivLimits :: ks) (.ivJ :: ls) m m' ∧
        w.Whole (m.smat .ivJ))
      (w.optAssemble dt raw s u) (w.optAssemble dt raw' s' u') := by
  obtain ⟨m, e, hm⟩ := optAssemble_start w B dt (fun _ => raw) s raw h.ok
  obtain ⟨m', e', hm'⟩ := optAssemble_start w B dt (fun _ => raw') s' raw' h.ok'
  rw [e, e']
  refine rel_bind (R := fun (q q' : Asm α) => ∃ out out' : Nat → Output α,
    w.Outs w.conCount out out' ∧ w.AsmRows B dt out u w.fullCount q.mem ∧
      w.AsmRows B dt out' u' w.fullCount q'.mem) ?_ ?_
  · rw [← off_full w]
    refine (rel_forN (fun i (q q' : Asm α) => q.jf = w.off i ∧ q'.jf = w.off i ∧
      ∃ out out' : Nat → Output α, w.Outs i out out' ∧ w.AsmRows B dt out u (w.off i) q.mem ∧
        w.AsmRows B dt out' u' (w.off i) q'.mem) ?_ ?_).mono fun _ _ z => z.2.2
    · refine ⟨(off_zero w).symm, (off_zero w).symm, fun _ => raw, fun _ => raw',
        fun j _ hj => absurd hj (by omega), ?_, ?_⟩
      · rw [off_zero]; exact hm
      · rw [off_zero]; exact hm'
    · rintro i hi q q' ⟨hq, hq', out, out', ho, ha, ha'⟩
      have hi' : i < w.cs.length := hi
      have hc := hs.calculate hfit hk hP hN (List.getElem_mem hi') q.out q'.out
      cases ho1 : (w.cons w.cs[i]).kind.calculate ((w.cons w.cs[i]).idx w.bodies) q.out s with
      | error er =>
        cases ho2 : (w.cons w.cs[i]).kind.calculate ((w.cons w.cs[i]).idx w.bodies) q'.out s' with
        | error er' =>
          rw [ho1, ho2] at hc
          cases hc
          have e1 : w.optCon dt s i q = .error er := by
            rw [World.optCon, vecAt_ok hi', ok_bind]
            dsimp only
            rw [ho1]; rfl
          have e2 : w.optCon dt s' i q' = .error er := by
            rw [World.optCon, vecAt_ok hi', ok_bind]
            dsimp only
            rw [ho2]; rfl
          rw [e1, e2]
          exact rel_err
        | ok o' => rw [ho1, ho2] at hc; exact hc.elim
      | ok o =>
        cases ho2 : (w.cons w.cs[i]).kind.calculate ((w.cons w.cs[i]).idx w.bodies) q'.out s' with
        | error er' => rw [ho1, ho2] at hc; exact hc.elim
        | ok o' =>
          rw [ho1, ho2] at hc
          obtain ⟨p, e1, j1, -, a1⟩ := optCon_ok hfit hi' hq ha ho1
          obtain ⟨p', e2, j2, -, a2⟩ := optCon_ok hfit hi' hq' ha' ho2
          exact rel_ok e1 e2 ⟨j1, j2, _, _, ho.upd hi' hc, a1, a2⟩
  · rintro q q' ⟨out, out', ho, ha, ha'⟩
    refine ⟨?_, ha.hJ, fun f j hf hj hn => ?_⟩
    · have keep : ∀ a, a ∈ (.ivVBias :: .ivC :: .ivLimits :: ks : List MId) →
          a = .ivVBias ∨ a = .ivC ∨ a = .ivLimits ∨
          (a ∈ ks ∧ q.mem.mat a = u.mat a ∧ q'.mem.mat a = u'.mat a) := by
        intro a m
        by_cases x1 : a = .ivVBias
        · exact Or.inl x1
        by_cases x2 : a = .ivC
        · exact Or.inr (Or.inl x2)
        by_cases x3 : a = .ivLimits
        · exact Or.inr (Or.inr (Or.inl x3))
        have hn : ¬(a = .ivVBias ∨ a = .ivC ∨ a = .ivLimits) := by tauto
        refine Or.inr (Or.inr (Or.inr ⟨?_, ha.frame.mat a hn, ha'.frame.mat a hn⟩))
        simpa [x1, x2, x3] using m
      have skeep : ∀ a, a ∈ (.ivJ :: ls : List SId) → a = .ivJ ∨
          (a ∈ ls ∧ q.mem.smat a = u.smat a ∧ q'.mem.smat a = u'.smat a) := by
        intro a m
        by_cases x1 : a = .ivJ
        · exact Or.inl x1
        exact Or.inr ⟨by simpa [x1] using m, ha.frame.smat a x1, ha'.frame.smat a x1⟩
      refine ⟨ha.inv, ha'.inv, fun a m => ?_, fun a m => ?_, fun a m r c hr hc => ?_, fun a m => ?_,
        fun a m => ?_, fun a m r j hr hj => ?_, fun a m r j k hr hj hk hB => ?_, fun a m => ?_⟩
      · rcases keep a m with rfl | rfl | rfl | ⟨x, e1, e2⟩
        · rw [ha.wb, ha'.wb]
        · rw [ha.we, ha'.we]
        · rw [ha.wl, ha'.wl]
        · rw [e1, e2, h.width a x]
      · rcases keep a m with rfl | rfl | rfl | ⟨x, e1, e2⟩
        · rw [ha.hb, ha'.hb]
        · rw [ha.he, ha'.he]
        · rw [ha.hl, ha'.hl]
        · rw [e1, e2, h.height a x]
      · rcases keep a m with rfl | rfl | rfl | ⟨x, e1, e2⟩
        · rw [ha.hb] at hr
          rw [ha.wb] at hc
          obtain rfl : c = 0 := by omega
          obtain ⟨x, y⟩ := ho.row hr
          rw [ha.bias r hr, ha'.bias r hr]
          exact (y.v_bias _ x).symm
        · rw [ha.he] at hr
          rw [ha.we] at hc
          obtain rfl : c = 0 := by omega
          obtain ⟨x, y⟩ := ho.row hr
          rw [ha.err r hr, ha'.err r hr]
          exact (y.C _ x).symm
        · rw [ha.hl] at hr
          rw [ha.wl] at hc
          obtain ⟨x, y⟩ := ho.row hr
          rcases (show c = 0 ∨ c = 1 by omega) with rfl | rfl
          · rw [ha.low r hr, ha'.low r hr]
            simp only [y.limits _ 0 x (by decide)]
          · rw [ha.high r hr, ha'.high r hr]
            simp only [y.limits _ 1 x (by decide)]
        · rw [e1] at hr hc
          rw [e1, e2, h.ent a x r c hr hc]
      · rcases skeep a m with rfl | ⟨x, e1, e2⟩
        · rw [ha.wJ, ha'.wJ]
        · rw [e1, e2, h.swidth a x]
      · rcases skeep a m with rfl | ⟨x, e1, e2⟩
        · rw [ha.hJ, ha'.hJ]
        · rw [e1, e2, h.sheight a x]
      · rcases skeep a m with rfl | ⟨x, e1, e2⟩
        · rw [ha.hJ] at hr
          rw [ha.blk r j hr hj, ha'.blk r j hr hj]
        · rw [e1] at hr
          rw [e1, e2, h.blk a x r j hr hj]
      · rcases skeep a m with rfl | ⟨x, e1, e2⟩
        · rw [ha.hJ] at hr
          rw [ha.blk r j hr hj] at hB
          by_cases hn : j < w.rowN r
          · obtain ⟨x, y⟩ := ho.row hr
            rw [ha.ent r _ hr (by omega), ha'.ent r _ hr (by omega)]
            exact (y.J _ _ x (by omega)).symm
          · exact absurd (if_neg fun z => hn z.2) hB
        · rw [e1] at hr hB
          rw [e1, e2, h.sent a x r j k hr hj hk hB]
      · rcases skeep a m with rfl | ⟨x, e1, e2⟩
        · exact hfit.inRange ha.wJ ha.hJ ha.blk
        · rw [e1]; exact h.rng a x
    · have hm := (row_spec w hf).2.2.2.2
      have h1 := hlow _ hm j hn
      rw [ha.blk f j hf hj, if_pos ⟨hf, hn⟩]
      omega

/-- The assembly of the generic system. -/
theorem Twin.genAssemble (hfit : w.Fit B) (hlow : w.Low B) (hk : w.Shipped) (h : Twin ks ls u u')
    (hs : Sim n c (Upto P w.bodyCount) D s s') (hP : ∀ f : Fld, f.Kept → P f) (hN : w.bodyCount ≤ n)
    (raw raw' : Output α) :
    Rel (fun m m' => Twin (.ivKs :: .ivKd :: .ivC :: ks) (.ivJ :: .ivJdot :: ls) m m' ∧
        w.Whole (m.smat .ivJ))
      (w.genAssemble raw s u) (w.genAssemble raw' s' u') := by
  have hid : w.NoIdle := fun k hm => (counts_le (hk k hm)).2.2.1
  obtain ⟨m, e, hm⟩ := genAssemble_start w B (fun _ => raw) s raw h.ok
  obtain ⟨m', e', hm'⟩ := genAssemble_start w B (fun _ => raw') s' raw' h.ok'
  rw [e, e']
  refine rel_bind (R := fun (q q' : Asm α) => ∃ out out' : Nat → Output α,
    w.Outs w.conCount out out' ∧ w.GenRows B out u w.fullCount q.mem ∧
      w.GenRows B out' u' w.fullCount q'.mem) ?_ ?_
  · rw [← off_full w]
    refine (rel_forN (fun i (q q' : Asm α) => q.jf = w.off i ∧ q'.jf = w.off i ∧
      ∃ out out' : Nat → Output α, w.Outs i out out' ∧ w.GenRows B out u (w.off i) q.mem ∧
        w.GenRows B out' u' (w.off i) q'.mem) ?_ ?_).mono fun _ _ z => z.2.2
    · refine ⟨(off_zero w).symm, (off_zero w).symm, fun _ => raw, fun _ => raw',
        fun j _ hj => absurd hj (by omega), ?_, ?_⟩
      · rw [off_zero]; exact hm
      · rw [off_zero]; exact hm'
    · rintro i hi q q' ⟨hq, hq', out, out', ho, ha, ha'⟩
      have hi' : i < w.cs.length := hi
      have hc := hs.calculate hfit hk hP hN (List.getElem_mem hi') q.out q'.out
      cases ho1 : (w.cons w.cs[i]).kind.calculate ((w.cons w.cs[i]).idx w.bodies) q.out s with
      | error er =>
        cases ho2 : (w.cons w.cs[i]).kind.calculate ((w.cons w.cs[i]).idx w.bodies) q'.out s' with
        | error er' =>
          rw [ho1, ho2] at hc
          cases hc
          have e1 : w.genCon s i q = .error er := by
            rw [World.genCon, vecAt_ok hi', ok_bind]
            dsimp only
            rw [ho1]; rfl
          have e2 : w.genCon s' i q' = .error er := by
            rw [World.genCon, vecAt_ok hi', ok_bind]
            dsimp only
            rw [ho2]; rfl
          rw [e1, e2]
          exact rel_err
        | ok o' => rw [ho1, ho2] at hc; exact hc.elim
      | ok o =>
        cases ho2 : (w.cons w.cs[i]).kind.calculate ((w.cons w.cs[i]).idx w.bodies) q'.out s' with
        | error er' => rw [ho1, ho2] at hc; exact hc.elim
        | ok o' =>
          rw [ho1, ho2] at hc
          obtain ⟨p, e1, j1, -, a1⟩ := genCon_ok hfit hid hi' hq ha ho1
          obtain ⟨p', e2, j2, -, a2⟩ := genCon_ok hfit hid hi' hq' ha' ho2
          exact rel_ok e1 e2 ⟨j1, j2, _, _, ho.upd hi' hc, a1, a2⟩
  · rintro q q' ⟨out, out', ho, ha, ha'⟩
    obtain ⟨wJ, hJ, bJ⟩ := ha.dims .ivJ (Or.inl rfl)
    refine ⟨?_, hJ, fun f j hf hj hn => ?_⟩
    · have keep : ∀ a, a ∈ (.ivKs :: .ivKd :: .ivC :: ks : List MId) →
          (a = .ivKs ∨ a = .ivKd ∨ a = .ivC) ∨
          (a ∈ ks ∧ q.mem.mat a = u.mat a ∧ q'.mem.mat a = u'.mat a) := by
        intro a m
        by_cases hn : a = .ivKs ∨ a = .ivKd ∨ a = .ivC
        · exact Or.inl hn
        refine Or.inr ⟨?_, ha.frame.mat a hn, ha'.frame.mat a hn⟩
        simp only [List.mem_cons] at m
        tauto
      have skeep : ∀ a, a ∈ (.ivJ :: .ivJdot :: ls : List SId) → (a = .ivJ ∨ a = .ivJdot) ∨
          (a ∈ ls ∧ q.mem.smat a = u.smat a ∧ q'.mem.smat a = u'.smat a) := by
        intro a m
        by_cases hn : a = .ivJ ∨ a = .ivJdot
        · exact Or.inl hn
        refine Or.inr ⟨?_, ha.frame.smat a hn, ha'.frame.smat a hn⟩
        simp only [List.mem_cons] at m
        tauto
      refine ⟨ha.inv, ha'.inv, fun a m => ?_, fun a m => ?_, fun a m r c hr hc => ?_, fun a m => ?_,
        fun a m => ?_, fun a m r j hr hj => ?_, fun a m r j k hr hj hk hB => ?_, fun a m => ?_⟩
      · rcases keep a m with x | ⟨x, e1, e2⟩
        · rw [(ha.vec a x).1, (ha'.vec a x).1]
        · rw [e1, e2, h.width a x]
      · rcases keep a m with x | ⟨x, e1, e2⟩
        · rw [(ha.vec a x).2, (ha'.vec a x).2]
        · rw [e1, e2, h.height a x]
      · rcases keep a m with x | ⟨x, e1, e2⟩
        · rw [(ha.vec a x).2] at hr
          rw [(ha.vec a x).1] at hc
          obtain rfl : c = 0 := by omega
          obtain ⟨y, z⟩ := ho.row hr
          rcases x with rfl | rfl | rfl
          · rw [ha.gs r hr, ha'.gs r hr]
            exact (z.ks _ y).symm
          · rw [ha.gd r hr, ha'.gd r hr]
            exact (z.kd _ y).symm
          · rw [ha.err r hr, ha'.err r hr]
            exact (z.C _ y).symm
        · rw [e1] at hr hc
          rw [e1, e2, h.ent a x r c hr hc]
      · rcases skeep a m with x | ⟨x, e1, e2⟩
        · rw [(ha.dims a x).1, (ha'.dims a x).1]
        · rw [e1, e2, h.swidth a x]
      · rcases skeep a m with x | ⟨x, e1, e2⟩
        · rw [(ha.dims a x).2.1, (ha'.dims a x).2.1]
        · rw [e1, e2, h.sheight a x]
      · rcases skeep a m with x | ⟨x, e1, e2⟩
        · rw [(ha.dims a x).2.1] at hr
          rw [(ha.dims a x).2.2 r j hr hj, (ha'.dims a x).2.2 r j hr hj]
        · rw [e1] at hr
          rw [e1, e2, h.blk a x r j hr hj]
      · rcases skeep a m with x | ⟨x, e1, e2⟩
        · rw [(ha.dims a x).2.1] at hr
          rw [(ha.dims a x).2.2 r j hr hj] at hB
          by_cases hn : j < w.rowN r
          · obtain ⟨y, z⟩ := ho.row hr
            rcases x with rfl | rfl
            · rw [ha.ent r _ hr (by omega), ha'.ent r _ hr (by omega)]
              exact (z.J _ _ y (by omega)).symm
            · rw [ha.dot r _ hr (by omega), ha'.dot r _ hr (by omega)]
              exact (z.J_dot _ _ y (by omega)).symm
          · exact absurd (if_neg fun z => hn z.2) hB
        · rw [e1] at hr hB
          rw [e1, e2, h.sent a x r j k hr hj hk hB]
      · rcases skeep a m with x | ⟨x, e1, e2⟩
        · obtain ⟨x1, x2, x3⟩ := ha.dims a x
          exact hfit.inRange x1 x2 x3
        · rw [e1]; exact h.rng a x
    · have hm := (row_spec w hf).2.2.2.2
      have h1 := hlow _ hm j hn
      rw [bJ f j hf hj, if_pos ⟨hf, hn⟩]
      omega

/-! ## Solving -/

/-- `t` has the blocks of `a`. -/
theorem sleftScale_cast {a t : SId} (hat : a ≠ t) (hu : MemOk u) (hr : (u.smat a).InRange 3 2)
    (sc : MId) : Wp (u.sleftScale 3 2 a sc t) (fun v => (v.smat t).height = (u.smat a).height ∧
      ∀ r j, r < (u.smat a).height → j < 2 → (v.smat t).blk 2 r j = (u.smat a).blk 2 r j) anyErr := by
  by_cases hw : (u.mat sc).width = 1 ∨ (u.smat a).height = 0
  · by_cases hh : (u.mat sc).height = (u.smat a).height
    · obtain ⟨v, e, o⟩ := u.sleftScale_spec 3 2 (by decide) a t sc hat (hu.smat a) hr
        (hu.smat t) (hu.sfresh t) (hu.mat sc) hw hh
      exact Wp.of_ok e ⟨o.height, o.blk⟩
    · unfold Store.sleftScale
      refine fr_any fun _ => (wp_bind _ _).2 ((wp_chk _ _ _).2 ⟨fun q => (hh q).elim, fun _ => trivial⟩)
  · unfold Store.sleftScale
    exact (wp_bind _ _).2 ((wp_chk _ _ _).2 ⟨fun q => (hw q).elim, fun _ => trivial⟩)

theorem optCall_smat {sv : Solver α} :
    Wp (optCall sv u) (fun q => q.1.smat .ivJ = u.smat .ivJ) anyErr := by
  have hn : ¬ sv.OwnS .ivJ := by cases sv <;> simp [Solver.OwnS]
  unfold optCall
  exact (wp_ite _ _ _).2 ⟨fun _ => (Solver.fr_solve _ _ _ _ _ _ _ _).imp fun q h => h.smat _ hn,
    fun _ => (Solver.fr_solveL _ _ _ _ _ _ _ _ _).imp fun q h => h.smat _ hn⟩

theorem solve_smat {sv : Solver α} {W right : MId} {p r : Option MId} :
    Wp (sv.solve 3 2 u .ivJ W right p r) (fun q => q.1.smat .ivJ = u.smat .ivJ) anyErr := by
  have hn : ¬ sv.OwnS .ivJ := by cases sv <;> simp [Solver.OwnS]
  exact (Solver.fr_solve _ _ _ _ _ _ _ _).imp fun q h => h.smat _ hn

theorem optRight_smat (bias dt : α) :
    Wp (Scs.optRight bias dt u) (Frame (fun _ => True) (fun _ => False) u) anyErr := by
  unfold Scs.optRight
  refine fr_bind (fr_scale (Frame.refl _ _ u) trivial _ _) fun _ h => ?_
  refine fr_bind (fr_leftScale h trivial _ _) fun _ h => ?_
  refine fr_bind (fr_addM h trivial _ _) fun _ h => fr_any fun _ => ?_
  refine fr_bind (fr_scale h trivial _ _) fun _ h => ?_
  refine fr_bind (fr_smultiply _ _ h trivial _ _) fun _ h => ?_
  refine fr_bind (fr_addM h trivial _ _) fun _ h => ?_
  refine fr_bind (fr_addM h trivial _ _) fun _ h => ?_
  exact fr_negate h trivial _

theorem Twin.optSolve' (dt : α) (h : Twin ks ls u u') (hJ : .ivJ ∈ ls)
    (hW : .ivMinv ∈ ks) (h2 : .ivRight ∈ ks) (h3 : .ivLimits ∈ ks) (h4 : .ivLambda ∈ ks)
    (n0 : .geA ∉ ks) (n1 : .cgR ∉ ks) (n2 : .cgP ∉ ks) (n3 : .cgAp ∉ ks)
    (hw : w.Whole (u.smat .ivJ)) :
    Rel (fun m m' => Twin ks (.ivSreg0 :: ls) m m' ∧ w.Whole (m.smat .ivSreg0))
      (w.optSolve dt u) (w.optSolve dt u') := by
  unfold World.optSolve
  refine rel_same _ fun sv _ => rel_bind' (h.optCall hJ hW h2 h3 h4 n0 n1 n2 n3 sv)
    fun q q' eq _ Q => rel_chk (by rw [Q.2]) fun hq => rel_same _ fun r _ => ?_
  refine rel_bind' ((Q.1 hq).scale h4 r .ivReg0) fun a a' ea _ A => ?_
  have e1 := wp_anyErr_iff.1 optCall_smat _ eq
  have e2 := (wp_anyErr_iff.1 (fr_scale (T := fun _ => True) (S := fun _ => False)
    (Frame.refl _ _ q.1) trivial .ivLambda r) _ ea).smat .ivJ id
  have e : a.smat .ivJ = u.smat .ivJ := e2.trans e1
  refine ((A.sleftScale hJ (List.mem_cons_self ..) (by decide)).wp
    (sleftScale_cast (by decide) A.ok (A.rng _ hJ) _) (wp_any _)).mono ?_
  rintro m m' ⟨Z, ⟨z1, z2⟩, -⟩
  rw [e] at z1 z2
  refine ⟨Z.subk fun a m => List.mem_cons_of_mem _ m, z1.trans hw.1, fun f j hf hj hn => ?_⟩
  rw [z2 f j (by rw [hw.1]; exact hf) hj]
  exact hw.2 f j hf hj hn

theorem Twin.genSolve' (h : Twin ks ls u u') (hJ : .ivJ ∈ ls)
    (hW : .ivMinv ∈ ks) (h2 : .ivRight ∈ ks) (h4 : .ivLambda ∈ ks)
    (n0 : .geA ∉ ks) (n1 : .cgR ∉ ks) (n2 : .cgP ∉ ks) (n3 : .cgAp ∉ ks)
    (hd : ∀ sv, w.sle = some sv → sv.Direct) (hw : w.Whole (u.smat .ivJ)) :
    Rel (fun m m' => Twin ks (.ivSreg0 :: ls) m m' ∧ w.Whole (m.smat .ivSreg0))
      (w.genSolve u) (w.genSolve u') := by
  unfold World.genSolve
  refine rel_same _ fun sv es => rel_bind' (h.solve hJ hW h2 h4 (by decide) (by decide) (by decide)
    n0 n1 n2 n3 (by decide) (by decide) (hd sv ?_))
    fun q q' eq _ Q => rel_chk (by rw [Q.2]) fun hq => ?_
  · cases hs : w.sle with
    | none => rw [hs] at es; cases es
    | some x => rw [hs] at es; cases es; rfl
  have e : q.1.smat .ivJ = u.smat .ivJ := wp_anyErr_iff.1 solve_smat _ eq
  have A := Q.1 hq
  refine ((A.sleftScale hJ h4 (by decide)).wp
    (sleftScale_cast (by decide) A.ok (A.rng _ hJ) _) (wp_any _)).mono ?_
  rintro m m' ⟨Z, ⟨z1, z2⟩, -⟩
  rw [e] at z1 z2
  refine ⟨Z, z1.trans hw.1, fun f j hf hj hn => ?_⟩
  rw [z2 f j (by rw [hw.1]; exact hf) hj]
  exact hw.2 f j hf hj hn

theorem genGains_smat (mf : Nat) :
    Wp (Scs.genGains mf u) (Frame (fun _ => True) (fun _ => False) u) anyErr := by
  unfold Scs.genGains
  refine fr_bind (fr_smultiply _ _ (Frame.refl _ _ u) trivial _ _) fun _ h => ?_
  exact fr_forN h fun _ _ h => fr_any fun _ => fr_any fun _ => fr_bind (fr_set h trivial _ _ _)
    fun _ h => fr_any fun _ => fr_any fun _ => fr_set h trivial _ _ _

theorem genRight_smat :
    Wp (Scs.genRight u) (Frame (fun _ => True) (fun _ => False) u) anyErr := by
  unfold Scs.genRight
  refine fr_bind (fr_leftScale (Frame.refl _ _ u) trivial _ _) fun _ h => ?_
  refine fr_bind (fr_smultiply _ _ h trivial _ _) fun _ h => ?_
  refine fr_bind (fr_smultiply _ _ h trivial _ _) fun _ h => ?_
  refine fr_bind (fr_negate h trivial _) fun _ h => ?_
  refine fr_bind (fr_subtract h trivial _ _) fun _ h => ?_
  refine fr_bind (fr_subtract h trivial _ _) fun _ h => ?_
  exact fr_subtract h trivial _ _

/-! ## One evaluation -/

/-- Everything an evaluation needs about the first system, the state having room for `n` bodies and
`c` rows. -/
structure World.Set (w : World α) (B : Nat → Nat → Nat) (n c : Nat) : Prop where
  fit : w.Fit B
  low : w.Low B
  kinds : w.Shipped
  gens : ∀ g ∈ w.fg, (w.gens g).Within (fun b => InPlace w.bodyCount (w.bodies b).index)
  room : w.bodyCount ≤ n
  rows : w.fullCount ≤ c

theorem optConstraints_rel (hw : w.Set B n c) (hs : Sim n c (Upto allF w.bodyCount) D s s')
    (h : Twin [.ivMinv, .ivLambda] [] u u') (dt : α) (raw raw' : Output α) :
    Rel (fun q q' => Twin [.ivMinv, .ivLambda] [] q.1 q'.1 ∧
        Sim n c (Upto allF w.bodyCount) w.Used q.2 q'.2)
      (w.optConstraints dt raw u s) (w.optConstraints dt raw' u' s') := by
  unfold World.optConstraints
  refine rel_bind (h.optAssemble hw.fit hw.low hw.kinds hs (fun _ _ => trivial) hw.room dt raw raw') ?_
  rintro a a' ⟨h, hJ⟩
  refine rel_bind (h.loadQdot hs hw.room) ?_
  rintro b b' ⟨h, eb⟩
  rw [← eb] at hJ
  refine rel_bind (h.loadFext hs hw.room) ?_
  rintro c c' ⟨h, ec⟩
  rw [← ec] at hJ
  refine rel_bind' (h.optRight (by simp) (by simp) (by simp) (by simp) (by simp) (by simp) w.bias dt)
    fun d d' ed _ h => ?_
  rw [← (wp_anyErr_iff.1 (optRight_smat _ _) _ ed).smat .ivJ id] at hJ
  refine rel_bind (h.optSolve' dt (by simp) (by simp) (by simp) (by simp) (by simp) (by simp)
    (by simp) (by simp) (by simp) hJ) ?_
  rintro e e' ⟨h, hS⟩
  refine rel_bind (hs.applyReactions hw.fit hw.room hw.rows h (by simp) (by simp) (by simp) hS)
    fun t t' hs => ⟨h.sub (by simp) (by simp), hs⟩

theorem genConstraints_rel (hw : w.Set B n c) (hs : Sim n c (Upto allF w.bodyCount) D s s')
    (h : Twin [.ivMinv, .ivLambda] [] u u') (raw raw' : Output α)
    (hd : ∀ sv, w.sle = some sv → sv.Direct) :
    Rel (fun q q' => Twin [.ivMinv, .ivLambda] [] q.1 q'.1 ∧
        Sim n c (Upto allF w.bodyCount) w.Used q.2 q'.2)
      (w.genConstraints raw u s) (w.genConstraints raw' u' s') := by
  unfold World.genConstraints
  refine rel_bind (h.loadQdot hs hw.room) ?_
  rintro b b' ⟨h, -⟩
  refine rel_bind (h.genAssemble hw.fit hw.low hw.kinds hs (fun _ _ => trivial) hw.room raw raw') ?_
  rintro a a' ⟨h, hJ⟩
  refine rel_bind' (h.genGains (by simp) (by simp) (by simp) (by simp) (by simp) _) fun g g' eg _ h => ?_
  rw [← (wp_anyErr_iff.1 (genGains_smat _) _ eg).smat .ivJ id] at hJ
  refine rel_bind (h.loadFext hs hw.room) ?_
  rintro c c' ⟨h, ec⟩
  rw [← ec] at hJ
  refine rel_bind' (h.genRight (by simp) (by simp) (by simp) (by simp) (by simp) (by simp) (by simp))
    fun d d' ed _ h => ?_
  rw [← (wp_anyErr_iff.1 genRight_smat _ ed).smat .ivJ id] at hJ
  refine rel_bind (h.genSolve' (by simp) (by simp) (by simp) (by simp) (by simp)
    (by simp) (by simp) (by simp) hd hJ) ?_
  rintro e e' ⟨h, hS⟩
  refine rel_bind (hs.applyReactions hw.fit hw.room hw.rows h (by simp) (by simp) (by simp) hS)
    fun t t' hs => ⟨h.sub (by simp) (by simp), hs⟩

/-- The contexts of two runs. -/
structure Ctx.Like (x x' : Ctx α) : Prop where
  mem : Twin [.ivMinv, .ivLambda] [] x.mem x'.mem

theorem optEval_rel (hw : w.Set B n c) (hs : Sim n c (Upto Fld.Kept w.bodyCount) D s s')
    {x x' : Ctx α} (h : x.Like x') (dt : α) (env env' : Env α) :
    Rel (fun q q' => q.1.Like q'.1 ∧ Sim n c (Upto allF w.bodyCount) w.Used q.2 q'.2)
      (w.optEval env dt x s) (w.optEval env' dt x' s') := by
  unfold World.optEval
  refine rel_bind (hs.forces hw.room hw.gens) fun s s' hs => ?_
  exact rel_bind (optConstraints_rel hw hs h.mem dt _ _) fun q q' hq => ⟨⟨hq.1⟩, hq.2⟩

theorem genEval_rel (hw : w.Set B n c) (hs : Sim n c (Upto Fld.Kept w.bodyCount) D s s')
    {x x' : Ctx α} (h : x.Like x') (env env' : Env α)
    (hd : ∀ sv, w.sle = some sv → sv.Direct) :
    Rel (fun q q' => q.1.Like q'.1 ∧ Sim n c (Upto allF w.bodyCount) w.Used q.2 q'.2)
      (w.genEval env x s) (w.genEval env' x' s') := by
  unfold World.genEval
  refine rel_bind (hs.forces hw.room hw.gens) fun s s' hs => ?_
  exact rel_bind (genConstraints_rel hw hs h.mem _ _ hd) fun q q' hq => ⟨⟨hq.1⟩, hq.2⟩

end

end Scs
