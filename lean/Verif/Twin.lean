import Verif.WorldAsm
import Verif.WorldInv

/-!
# Two runs of the same code on different memory

`Rel` compares two executions, `Twin` two stores whose listed matrices have the same size and the
same contents while everything else may differ. The lemmas say that an operation whose operands are
listed behaves the same in both runs and adds its target to the list.
-/

namespace Scs

/-! ## Comparing executions -/

section
variable {σ τ σ' τ' : Type}

/-- Both executions return, with related results, or both stop with the same error. -/
def Rel (R : σ → τ → Prop) : Exec σ → Exec τ → Prop
  | .ok a, .ok b => R a b
  | .error e, .error e' => e = e'
  | _, _ => False

variable {R R' : σ → τ → Prop} {S : σ' → τ' → Prop}

theorem Rel.mono {x : Exec σ} {y : Exec τ} (h : Rel R x y) (hm : ∀ a b, R a b → R' a b) :
    Rel R' x y := by
  cases x <;> cases y <;> first | exact h | exact h.elim | exact hm _ _ h

theorem rel_ok {x : Exec σ} {y : Exec τ} {a : σ} {b : τ} (hx : x = .ok a) (hy : y = .ok b)
    (h : R a b) : Rel R x y := by rw [hx, hy]; exact h

theorem rel_err {e : Err} : Rel R (.error e : Exec σ) (.error e : Exec τ) := rfl

theorem rel_bind {x : Exec σ} {y : Exec τ} {f : σ → Exec σ'} {g : τ → Exec τ'} (h : Rel R x y)
    (hf : ∀ a b, R a b → Rel S (f a) (g b)) : Rel S (x >>= f) (y >>= g) := by
  cases x <;> cases y <;> first | exact h | exact h.elim | exact hf _ _ h

theorem rel_bind' {x : Exec σ} {y : Exec τ} {f : σ → Exec σ'} {g : τ → Exec τ'} (h : Rel R x y)
    (hf : ∀ a b, x = .ok a → y = .ok b → R a b → Rel S (f a) (g b)) :
    Rel S (x >>= f) (y >>= g) := by
  cases x <;> cases y <;> first | exact h | exact h.elim | exact hf _ _ rfl rfl h

theorem rel_same (x : Exec σ) {f : σ → Exec σ'} {g : σ → Exec τ'}
    (hf : ∀ a, x = .ok a → Rel S (f a) (g a)) : Rel S (x >>= f) (x >>= g) := by
  cases x with
  | ok a => exact hf a rfl
  | error e => exact rel_err

theorem rel_eq {x y : Exec σ} (e : y = x) {f : σ → Exec σ'} {g : σ → Exec τ'}
    (hf : ∀ a, x = .ok a → Rel S (f a) (g a)) : Rel S (x >>= f) (y >>= g) := by
  subst e; exact rel_same _ hf

theorem rel_refl (x : Exec σ) : Rel (· = ·) x x := by cases x <;> rfl

theorem rel_of_eq {x y : Exec σ} (h : y = x) : Rel (· = ·) x y := by subst h; exact rel_refl _

theorem eq_of_rel {x y : Exec σ} (h : Rel (· = ·) x y) : y = x := by
  cases x <;> cases y <;> first | exact congrArg _ h.symm | exact h.elim

theorem rel_chk {p p' : Prop} [Decidable p] [Decidable p'] {loc : String} (hp : p' ↔ p)
    {f : PUnit → Exec σ'} {g : PUnit → Exec τ'} (hf : p → Rel S (f ⟨⟩) (g ⟨⟩)) :
    Rel S (chk p loc >>= f) (chk p' loc >>= g) := by
  by_cases h : p
  · rw [chk_true loc h, chk_true loc (hp.2 h)]; exact hf h
  · rw [chk_false loc h, chk_false loc (fun h' => h (hp.1 h'))]; exact rel_err

theorem rel_ite {p p' : Prop} [Decidable p] [Decidable p'] (hp : p' ↔ p) {x x' : Exec σ}
    {y y' : Exec τ} (h1 : p → Rel R x y) (h2 : ¬p → Rel R x' y') :
    Rel R (if p then x else x') (if p' then y else y') := by
  by_cases h : p
  · rw [if_pos h, if_pos (hp.2 h)]; exact h1 h
  · rw [if_neg h, if_neg (fun h' => h (hp.1 h'))]; exact h2 h

theorem rel_forN {n : Nat} {f : Nat → σ → Exec σ} {g : Nat → τ → Exec τ} {a : σ} {b : τ}
    (I : Nat → σ → τ → Prop) (h0 : I 0 a b)
    (hs : ∀ i, i < n → ∀ a b, I i a b → Rel (I (i + 1)) (f i a) (g i b)) :
    Rel (I n) (forN n f a) (forN n g b) := by
  induction n with
  | zero => exact h0
  | succ n ih =>
    exact rel_bind (ih (fun i hi => hs i (Nat.lt_succ_of_lt hi)))
      (fun a b h => hs n (Nat.lt_succ_self n) a b h)

theorem rel_for {n : Nat} {f : Nat → σ → Exec σ} {g : Nat → τ → Exec τ} {a : σ} {b : τ}
    (h0 : R a b) (hs : ∀ i, i < n → ∀ a b, R a b → Rel R (f i a) (g i b)) :
    Rel R (forN n f a) (forN n g b) := rel_forN (fun _ => R) h0 hs

theorem forN_congr {n : Nat} {f g : Nat → σ → Exec σ}
    (h : ∀ i, i < n → ∀ a, g i a = f i a) (a : σ) : forN n g a = forN n f a :=
  eq_of_rel (rel_for rfl (fun i hi a b e => by
    subst e; exact rel_of_eq (h i hi a)))

theorem Rel.wp {x : Exec σ} {y : Exec τ} (h : Rel R x y) {P : σ → Prop} {Q : τ → Prop}
    (hx : Wp x P anyErr) (hy : Wp y Q anyErr) : Rel (fun a b => R a b ∧ P a ∧ Q b) x y := by
  cases x <;> cases y <;> first | exact h | exact h.elim | exact ⟨h, hx, hy⟩

end

/-! ## Comparing stores -/

section
variable {α : Type} [Zero α]

/-- Two stores, both in a consistent state, whose dense matrices `ks` have equal sizes and entries
and whose sparse matrices `ls` have equal sizes, block indices and entries of the used blocks. -/
structure Twin (ks : List MId) (ls : List SId) (s s' : Store α) : Prop where
  ok : MemOk s
  ok' : MemOk s'
  width : ∀ a ∈ ks, (s'.mat a).width = (s.mat a).width
  height : ∀ a ∈ ks, (s'.mat a).height = (s.mat a).height
  ent : ∀ a ∈ ks, ∀ r c, r < (s.mat a).height → c < (s.mat a).width →
    (s'.mat a).ent r c = (s.mat a).ent r c
  swidth : ∀ a ∈ ls, (s'.smat a).width = (s.smat a).width
  sheight : ∀ a ∈ ls, (s'.smat a).height = (s.smat a).height
  blk : ∀ a ∈ ls, ∀ r j, r < (s.smat a).height → j < 2 →
    (s'.smat a).blk 2 r j = (s.smat a).blk 2 r j
  sent : ∀ a ∈ ls, ∀ r j k, r < (s.smat a).height → j < 2 → k < 3 →
    (s.smat a).blk 2 r j ≠ 255 → (s'.smat a).ent r (j * 3 + k) = (s.smat a).ent r (j * 3 + k)
  rng : ∀ a ∈ ls, (s.smat a).InRange 3 2

variable {ks ks' : List MId} {ls ls' : List SId} {s s' u u' : Store α} {t : MId}

theorem Twin.sub (h : Twin ks ls s s') (hk : ∀ a ∈ ks', a ∈ ks) (hl : ∀ a ∈ ls', a ∈ ls) :
    Twin ks' ls' s s' :=
  ⟨h.ok, h.ok', fun a m => h.width a (hk a m), fun a m => h.height a (hk a m),
    fun a m => h.ent a (hk a m), fun a m => h.swidth a (hl a m), fun a m => h.sheight a (hl a m),
    fun a m => h.blk a (hl a m), fun a m => h.sent a (hl a m), fun a m => h.rng a (hl a m)⟩

theorem Twin.subk (h : Twin ks ls s s') (hk : ∀ a ∈ ks', a ∈ ks) : Twin ks' ls s s' :=
  h.sub hk (fun _ m => m)

theorem Twin.rng' (h : Twin ks ls s s') {a : SId} (ha : a ∈ ls) : (s'.smat a).InRange 3 2 := by
  intro r j hr hj
  rw [h.sheight a ha] at hr
  rw [h.blk a ha r j hr hj, h.swidth a ha]
  exact h.rng a ha r j hr hj

/-- Both stores change in the matrix `t` only, to the same contents. -/
theorem Twin.upd (h : Twin ks ls s s') (i : MemOk u) (i' : MemOk u') (o : Only t s u)
    (o' : Only t s' u') (hk : ∀ a ∈ ks', a ≠ t → a ∈ ks)
    (hw : t ∈ ks' → (u'.mat t).width = (u.mat t).width)
    (hh : t ∈ ks' → (u'.mat t).height = (u.mat t).height)
    (he : t ∈ ks' → ∀ r c, r < (u.mat t).height → c < (u.mat t).width →
      (u'.mat t).ent r c = (u.mat t).ent r c) : Twin ks' ls u u' := by
  refine ⟨i, i', ?_, ?_, ?_, ?_, ?_, ?_, ?_, ?_⟩
  · intro a m
    by_cases e : a = t
    · subst e; exact hw m
    · rw [o.mat a e, o'.mat a e]; exact h.width a (hk a m e)
  · intro a m
    by_cases e : a = t
    · subst e; exact hh m
    · rw [o.mat a e, o'.mat a e]; exact h.height a (hk a m e)
  · intro a m
    by_cases e : a = t
    · subst e; exact he m
    · rw [o.mat a e, o'.mat a e]; exact h.ent a (hk a m e)
  all_goals rw [o.smat]
  · rw [o'.smat]; exact h.swidth
  · rw [o'.smat]; exact h.sheight
  · rw [o'.smat]; exact h.blk
  · rw [o'.smat]; exact h.sent
  · exact h.rng

theorem Twin.wrote (h : Twin ks ls s s') {w w' n n' : Nat} {g g' : Nat → Nat → α}
    (o : Wrote t s u w n g) (o' : Wrote t s' u' w' n' g') (hw : w' = w) (hn : n' = n)
    (hg : ∀ r c, r < n → c < w → g' r c = g r c) : Twin (t :: ks) ls u u' := by
  subst hw hn
  refine h.upd (h.ok.wrote o) (h.ok'.wrote o') o.only o'.only ?_ ?_ ?_ ?_
  · intro a m e
    rcases List.mem_cons.1 m with rfl | m
    · exact (e rfl).elim
    · exact m
  · intro _; rw [o.width, o'.width]
  · intro _; rw [o.height, o'.height]
  · intro _ r c hr hc
    rw [o.height] at hr
    rw [o.width] at hc
    rw [o.ent r c hr hc, o'.ent r c hr hc, hg r c hr hc]

/-- Both stores change in the sparse matrix `t` only, to the same contents. -/
theorem Twin.supd {t : SId} (h : Twin ks ls s s') (i : MemOk u) (i' : MemOk u') (o : OnlyS t s u)
    (o' : OnlyS t s' u') (hl : ∀ a ∈ ls', a ≠ t → a ∈ ls)
    (hw : t ∈ ls' → (u'.smat t).width = (u.smat t).width)
    (hh : t ∈ ls' → (u'.smat t).height = (u.smat t).height)
    (hb : t ∈ ls' → ∀ r j, r < (u.smat t).height → j < 2 →
      (u'.smat t).blk 2 r j = (u.smat t).blk 2 r j)
    (he : t ∈ ls' → ∀ r j k, r < (u.smat t).height → j < 2 → k < 3 →
      (u.smat t).blk 2 r j ≠ 255 → (u'.smat t).ent r (j * 3 + k) = (u.smat t).ent r (j * 3 + k))
    (hr : t ∈ ls' → (u.smat t).InRange 3 2) : Twin ks ls' u u' := by
  refine ⟨i, i', ?_, ?_, ?_, ?_, ?_, ?_, ?_, ?_⟩
  · rw [o.mat, o'.mat]; exact h.width
  · rw [o.mat, o'.mat]; exact h.height
  · rw [o.mat, o'.mat]; exact h.ent
  all_goals
    intro a m
    by_cases e : a = t
  · subst e; exact hw m
  · rw [o.smat a e, o'.smat a e]; exact h.swidth a (hl a m e)
  · subst e; exact hh m
  · rw [o.smat a e, o'.smat a e]; exact h.sheight a (hl a m e)
  · subst e; exact hb m
  · rw [o.smat a e, o'.smat a e]; exact h.blk a (hl a m e)
  · subst e; exact he m
  · rw [o.smat a e, o'.smat a e]; exact h.sent a (hl a m e)
  · subst e; exact hr m
  · rw [o.smat a e]; exact h.rng a (hl a m e)

theorem Twin.swrote {t : SId} (h : Twin ks ls s s') {w w' n n' : Nat} {B B' : Nat → Nat → Nat}
    {X X' : Nat → Nat → Nat → α} (o : SWrote 3 2 t s u w n B X) (o' : SWrote 3 2 t s' u' w' n' B' X')
    (hw : w' = w) (hn : n' = n) (hb : ∀ r j, r < n → j < 2 → B' r j = B r j)
    (hx : ∀ r j k, r < n → j < 2 → k < 3 → B r j ≠ 255 → X' r j k = X r j k)
    (hr : ∀ r j, r < n → j < 2 → B r j = 255 ∨ (B r j < 255 ∧ B r j * 3 + 3 ≤ w)) :
    Twin ks (t :: ls) u u' := by
  subst hw hn
  refine h.supd (h.ok.swrote o) (h.ok'.swrote o') o.only o'.only ?_ ?_ ?_ ?_ ?_ ?_
  · intro a m e
    rcases List.mem_cons.1 m with rfl | m
    · exact (e rfl).elim
    · exact m
  · intro _; rw [o.width, o'.width]
  · intro _; rw [o.height, o'.height]
  · intro _ r j hr hj
    rw [o.height] at hr
    rw [o.blk r j hr hj, o'.blk r j hr hj, hb r j hr hj]
  · intro _ r j k hr hj hk hB
    rw [o.height] at hr
    rw [o.blk r j hr hj] at hB
    rw [o.ent r j k hr hj hk hB, o'.ent r j k hr hj hk (by rw [hb r j hr hj]; exact hB),
      hx r j k hr hj hk hB]
  · intro _ r j h1 h2
    rw [o.height] at h1
    rw [o.blk r j h1 h2, o.width]
    exact hr r j h1 h2

/-! ## Reading and writing -/

theorem Twin.get (h : Twin ks ls s s') {a : MId} (ha : a ∈ ks) (c r : Nat) :
    s'.get a c r = s.get a c r := by
  by_cases hc : c < (s.mat a).width
  · by_cases hr : r < (s.mat a).height
    · rw [s.get_ok a (h.ok.mat a) hc hr,
        s'.get_ok a (h.ok'.mat a) (by rw [h.width a ha]; exact hc) (by rw [h.height a ha]; exact hr),
        h.ent a ha r c hr hc]
    · unfold Store.get
      refine eq_of_rel ?_
      refine rel_chk (by simp only [h.width a ha, h.height a ha]) (fun _ => ?_)
      exact rel_chk (by simp only [h.width a ha, h.height a ha]) (fun h' => (hr h').elim)
  · unfold Store.get
    refine eq_of_rel ?_
    exact rel_chk (by simp only [h.width a ha, h.height a ha]) (fun h' => (hc h').elim)

theorem Twin.block (h : Twin ks ls s s') {a : SId} (ha : a ∈ ls) {r j : Nat}
    (hr : r < (s.smat a).height) (hj : j < 2) :
    (s'.smat a).block (r * 2 + j) = (s.smat a).block (r * 2 + j) := by
  rw [(h.ok.smat a).block_eq hr hj,
    (h.ok'.smat a).block_eq (by rw [h.sheight a ha]; exact hr) hj, h.blk a ha r j hr hj]

theorem Twin.sload (h : Twin ks ls s s') {a : SId} (ha : a ∈ ls) {r j k : Nat}
    (hr : r < (s.smat a).height) (hj : j < 2) (hk : k < 3) (hb : (s.smat a).blk 2 r j ≠ 255) :
    (s'.smat a).load r (j * 3 + k) = (s.smat a).load r (j * 3 + k) := by
  rw [(h.ok.smat a).load_eq hr (by omega),
    (h.ok'.smat a).load_eq (by rw [h.sheight a ha]; exact hr) (by omega),
    h.sent a ha r j k hr hj hk hb]

/-- A listed matrix element is overwritten. -/
theorem Twin.set (h : Twin ks ls s s') (ht : t ∈ ks) (c r : Nat) (v : α) :
    Rel (Twin ks ls) (s.set t c r v) (s'.set t c r v) := by
  by_cases hc : c < (s.mat t).width
  · by_cases hr : r < (s.mat t).height
    · obtain ⟨u, e, o, -, sh, en⟩ := s.set_spec t (h.ok.mat t) hc hr v
      obtain ⟨u', e', o', -, sh', en'⟩ := s'.set_spec t (h.ok'.mat t)
        (by rw [h.width t ht]; exact hc) (by rw [h.height t ht]; exact hr) v
      refine rel_ok e e' (h.upd (h.ok.shaped o sh) (h.ok'.shaped o' sh') o o' (fun a m _ => m)
        (fun _ => by rw [sh.width, sh'.width, h.width t ht])
        (fun _ => by rw [sh.height, sh'.height, h.height t ht]) (fun _ p q hp hq => ?_))
      rw [sh.height] at hp
      rw [sh.width] at hq
      rw [en p q hp hq, en' p q (by rw [h.height t ht]; exact hp) (by rw [h.width t ht]; exact hq),
        h.ent t ht p q hp hq]
    · unfold Store.set
      refine rel_chk (by simp only [h.width t ht, h.height t ht]) (fun _ => ?_)
      exact rel_chk (by simp only [h.width t ht, h.height t ht]) (fun h' => (hr h').elim)
  · unfold Store.set
    exact rel_chk (by simp only [h.width t ht, h.height t ht]) (fun h' => (hc h').elim)

theorem Store.addAt_get [Add α] {s : Store α} (hs : MemOk s) (t : MId) {c r : Nat} (v : α)
    (hc : c < (s.mat t).width) (hr : r < (s.mat t).height) :
    s.addAt t c r v = s.set t c r ((s.mat t).ent r c + v) := by
  unfold Store.addAt Store.set Store.load
  rw [chk_true _ hc, chk_true _ hr, chk_true _ hc, chk_true _ hr, (hs.mat t).load_eq hr hc]
  rfl

theorem Twin.addAt [Add α] (h : Twin ks ls s s') (ht : t ∈ ks) (c r : Nat) (v : α) :
    Rel (Twin ks ls) (s.addAt t c r v) (s'.addAt t c r v) := by
  by_cases hc : c < (s.mat t).width
  · by_cases hr : r < (s.mat t).height
    · rw [Store.addAt_get h.ok t v hc hr, Store.addAt_get h.ok' t v (by rw [h.width t ht]; exact hc)
        (by rw [h.height t ht]; exact hr), h.ent t ht r c hr hc]
      exact h.set ht c r _
    · unfold Store.addAt
      refine rel_chk (by simp only [h.width t ht, h.height t ht]) (fun _ => ?_)
      exact rel_chk (by simp only [h.width t ht, h.height t ht]) (fun h' => (hr h').elim)
  · unfold Store.addAt
    exact rel_chk (by simp only [h.width t ht, h.height t ht]) (fun h' => (hc h').elim)

theorem Twin.rowSwap (h : Twin ks ls s s') (ht : t ∈ ks) (htp : t = .geA) {a b : Nat}
    (ha : a < (s.mat t).height) (hb : b < (s.mat t).height) :
    Rel (Twin ks ls) (s.rowSwap t a b) (s'.rowSwap t a b) := by
  obtain ⟨u, e, o, -, wf, hw, hh, en⟩ := s.rowSwap_spec t (h.ok.mat t) ha hb
  obtain ⟨u', e', o', -, wf', hw', hh', en'⟩ := s'.rowSwap_spec t (h.ok'.mat t)
    (by rw [h.height t ht]; exact ha) (by rw [h.height t ht]; exact hb)
  refine rel_ok e e' (h.upd (h.ok.of_only o wf ?_) (h.ok'.of_only o' wf' ?_) o o' (fun a m _ => m)
    (fun _ => by rw [hw, hw', h.width t ht]) (fun _ => by rw [hh, hh', h.height t ht])
    (fun _ p q hp hq => ?_))
  · intro p; exact (p htp).elim
  · intro p; exact (p htp).elim
  · rw [hh] at hp
    rw [hw] at hq
    rw [en p q hp hq, en' p q (by rw [h.height t ht]; exact hp) (by rw [h.width t ht]; exact hq)]
    refine h.ent t ht _ q ?_ hq
    split
    · exact hb
    · split
      · exact ha
      · exact hp

/-! ## Whole-matrix operations -/

theorem Twin.init0 (h : Twin ks ls s s') (t : MId) (w n : Nat) :
    Rel (Twin (t :: ks) ls) (s.init0 t w n) (s'.init0 t w n) := by
  obtain ⟨u, e, o⟩ := s.init0_spec t w n (h.ok.mat t)
  obtain ⟨u', e', o'⟩ := s'.init0_spec t w n (h.ok'.mat t)
  exact rel_ok e e' (h.wrote o o' rfl rfl (fun _ _ _ _ => rfl))

theorem Twin.init (h : Twin ks ls s s') (t : MId) (w n : Nat) (v : α) :
    Rel (Twin (t :: ks) ls) (s.init t w n v) (s'.init t w n v) := by
  obtain ⟨u, e, o⟩ := s.init_spec t w n v (h.ok.mat t)
  obtain ⟨u', e', o'⟩ := s'.init_spec t w n v (h.ok'.mat t)
  exact rel_ok e e' (h.wrote o o' rfl rfl (fun _ _ _ _ => rfl))

theorem Twin.setMatFrom (h : Twin ks ls s s') {a : MId} (ha : a ∈ ks) (t : MId) :
    Rel (Twin (t :: ks) ls) (s.setMatFrom t a) (s'.setMatFrom t a) := by
  obtain ⟨u, e, o⟩ := s.setMatFrom_spec t a (h.ok.mat a) (h.ok.mat t)
  obtain ⟨u', e', o'⟩ := s'.setMatFrom_spec t a (h.ok'.mat a) (h.ok'.mat t)
  exact rel_ok e e' (h.wrote o o' (h.width a ha) (h.height a ha)
    (fun r c hr hc => h.ent a ha r c hr hc))

theorem Twin.scale [Mul α] (h : Twin ks ls s s') {a : MId} (ha : a ∈ ks) (c : α) (t : MId) :
    Rel (Twin (t :: ks) ls) (s.scale a c t) (s'.scale a c t) := by
  obtain ⟨u, e, o⟩ := s.scale_spec a c t (h.ok.mat a) (h.ok.mat t)
  obtain ⟨u', e', o'⟩ := s'.scale_spec a c t (h.ok'.mat a) (h.ok'.mat t)
  exact rel_ok e e' (h.wrote o o' (h.width a ha) (h.height a ha)
    (fun r c hr hc => by rw [h.ent a ha r c hr hc]))

theorem Twin.negate [Neg α] (h : Twin ks ls s s') {a : MId} (ha : a ∈ ks) (t : MId) :
    Rel (Twin (t :: ks) ls) (s.negate a t) (s'.negate a t) := by
  obtain ⟨u, e, o⟩ := s.negate_spec a t (h.ok.mat a) (h.ok.mat t)
  obtain ⟨u', e', o'⟩ := s'.negate_spec a t (h.ok'.mat a) (h.ok'.mat t)
  exact rel_ok e e' (h.wrote o o' (h.width a ha) (h.height a ha)
    (fun r c hr hc => by rw [h.ent a ha r c hr hc]))


theorem Twin.addM [Add α] (h : Twin ks ls s s') {a b : MId} (ha : a ∈ ks) (hb : b ∈ ks) (t : MId) :
    Rel (Twin (t :: ks) ls) (s.addM a b t) (s'.addM a b t) := by
  by_cases hw : (s.mat b).width = (s.mat a).width
  · by_cases hh : (s.mat b).height = (s.mat a).height
    · obtain ⟨u, e, o⟩ := s.addM_spec a b t (h.ok.mat a) (h.ok.mat b) (h.ok.mat t) hw hh
      obtain ⟨u', e', o'⟩ := s'.addM_spec a b t (h.ok'.mat a) (h.ok'.mat b) (h.ok'.mat t)
        (by rw [h.width a ha, h.width b hb, hw]) (by rw [h.height a ha, h.height b hb, hh])
      exact rel_ok e e' (h.wrote o o' (h.width a ha) (h.height a ha) (fun r c hr hc => by
        rw [h.ent a ha r c hr hc, h.ent b hb r c (by rw [hh]; exact hr) (by rw [hw]; exact hc)]))
    · unfold Store.addM
      refine rel_chk (by simp only [h.width a ha, h.width b hb, h.height a ha, h.height b hb]) (fun _ => ?_)
      exact rel_chk (by simp only [h.width a ha, h.width b hb, h.height a ha, h.height b hb]) (fun h' => (hh h').elim)
  · unfold Store.addM
    exact rel_chk (by simp only [h.width a ha, h.width b hb, h.height a ha, h.height b hb]) (fun h' => (hw h').elim)

theorem Twin.subtract [Sub α] (h : Twin ks ls s s') {a b : MId} (ha : a ∈ ks) (hb : b ∈ ks)
    (t : MId) : Rel (Twin (t :: ks) ls) (s.subtract a b t) (s'.subtract a b t) := by
  by_cases hw : (s.mat b).width = (s.mat a).width
  · by_cases hh : (s.mat b).height = (s.mat a).height
    · obtain ⟨u, e, o⟩ := s.subtract_spec a b t (h.ok.mat a) (h.ok.mat b) (h.ok.mat t) hw hh
      obtain ⟨u', e', o'⟩ := s'.subtract_spec a b t (h.ok'.mat a) (h.ok'.mat b) (h.ok'.mat t)
        (by rw [h.width a ha, h.width b hb, hw]) (by rw [h.height a ha, h.height b hb, hh])
      exact rel_ok e e' (h.wrote o o' (h.width a ha) (h.height a ha) (fun r c hr hc => by
        rw [h.ent a ha r c hr hc, h.ent b hb r c (by rw [hh]; exact hr) (by rw [hw]; exact hc)]))
    · unfold Store.subtract
      refine rel_chk (by simp only [h.width a ha, h.width b hb, h.height a ha, h.height b hb]) (fun _ => ?_)
      exact rel_chk (by simp only [h.width a ha, h.width b hb, h.height a ha, h.height b hb]) (fun h' => (hh h').elim)
  · unfold Store.subtract
    exact rel_chk (by simp only [h.width a ha, h.width b hb, h.height a ha, h.height b hb]) (fun h' => (hw h').elim)

theorem Twin.componentMultiply [Mul α] (h : Twin ks ls s s') {a b : MId} (ha : a ∈ ks)
    (hb : b ∈ ks) (t : MId) :
    Rel (Twin (t :: ks) ls) (s.componentMultiply a b t) (s'.componentMultiply a b t) := by
  by_cases hh : (s.mat a).height = (s.mat b).height
  · by_cases hw : (s.mat a).width = (s.mat b).width
    · obtain ⟨u, e, o⟩ :=
        s.componentMultiply_spec a b t (h.ok.mat a) (h.ok.mat b) (h.ok.mat t) hw.symm hh.symm
      obtain ⟨u', e', o'⟩ := s'.componentMultiply_spec a b t (h.ok'.mat a) (h.ok'.mat b)
        (h.ok'.mat t) (by rw [h.width a ha, h.width b hb, hw])
        (by rw [h.height a ha, h.height b hb, hh])
      exact rel_ok e e' (h.wrote o o' (h.width a ha) (h.height a ha) (fun r c hr hc => by
        rw [h.ent a ha r c hr hc, h.ent b hb r c (by rw [← hh]; exact hr) (by rw [← hw]; exact hc)]))
    · unfold Store.componentMultiply
      refine rel_chk (by simp only [h.height a ha, h.height b hb, h.width a ha, h.width b hb]) (fun _ => ?_)
      exact rel_chk (by simp only [h.height a ha, h.height b hb, h.width a ha, h.width b hb]) (fun h' => (hw h').elim)
  · unfold Store.componentMultiply
    exact rel_chk (by simp only [h.height a ha, h.height b hb, h.width a ha, h.width b hb]) (fun h' => (hh h').elim)

theorem Twin.leftScale [Mul α] (h : Twin ks ls s s') {a sc : MId} (ha : a ∈ ks)
    (hb : sc ∈ ks) {t : MId} (hts : sc ≠ t) :
    Rel (Twin (t :: ks) ls) (s.leftScale a sc t) (s'.leftScale a sc t) := by
  by_cases hw : (s.mat sc).width = 1
  · by_cases hh : (s.mat sc).height = (s.mat a).height
    · obtain ⟨u, e, o⟩ :=
        s.leftScale_spec a sc t hts (h.ok.mat a) (h.ok.mat sc) (h.ok.mat t) hw hh
      obtain ⟨u', e', o'⟩ := s'.leftScale_spec a sc t hts (h.ok'.mat a) (h.ok'.mat sc)
        (h.ok'.mat t) (by rw [h.width sc hb, hw]) (by rw [h.height a ha, h.height sc hb, hh])
      exact rel_ok e e' (h.wrote o o' (h.width a ha) (h.height a ha) (fun r c hr hc => by
        rw [h.ent a ha r c hr hc, h.ent sc hb r 0 (by rw [hh]; exact hr)
          (by rw [hw]; exact Nat.one_pos)]))
    · unfold Store.leftScale
      refine rel_chk (by simp only [h.width sc hb, h.height a ha, h.height sc hb, h.width a ha]) (fun _ => ?_)
      exact rel_chk (by simp only [h.width sc hb, h.height a ha, h.height sc hb, h.width a ha]) (fun h' => (hh h').elim)
  · unfold Store.leftScale
    exact rel_chk (by simp only [h.width sc hb, h.height a ha, h.height sc hb, h.width a ha]) (fun h' => (hw h').elim)

theorem Twin.madd [Add α] [Mul α] (h : Twin ks ls s s') {a b : MId} (ha : a ∈ ks) (hb : b ∈ ks)
    (c : α) : Rel (Twin (a :: ks) ls) (s.madd a b c) (s'.madd a b c) := by
  by_cases hw : (s.mat a).width = (s.mat b).width
  · by_cases hh : (s.mat a).height = (s.mat b).height
    · obtain ⟨u, e, o⟩ := s.madd_spec a b c (h.ok.mat a) (h.ok.mat b) hw hh
      obtain ⟨u', e', o'⟩ := s'.madd_spec a b c (h.ok'.mat a) (h.ok'.mat b)
        (by rw [h.width a ha, h.width b hb, hw]) (by rw [h.height a ha, h.height b hb, hh])
      exact rel_ok e e' (h.wrote o o' (h.width a ha) (h.height a ha) (fun r c hr hc => by
        rw [h.ent a ha r c hr hc, h.ent b hb r c (by rw [← hh]; exact hr) (by rw [← hw]; exact hc)]))
    · unfold Store.madd
      refine rel_chk (by simp only [h.width a ha, h.width b hb, h.height a ha, h.height b hb]) (fun _ => ?_)
      exact rel_chk (by simp only [h.width a ha, h.width b hb, h.height a ha, h.height b hb]) (fun h' => (hh h').elim)
  · unfold Store.madd
    exact rel_chk (by simp only [h.width a ha, h.width b hb, h.height a ha, h.height b hb]) (fun h' => (hw h').elim)

theorem Twin.pmadd [Add α] [Mul α] (h : Twin ks ls s s') {a b : MId} (ha : a ∈ ks) (hb : b ∈ ks)
    (c : α) : Rel (Twin (a :: ks) ls) (s.pmadd a b c) (s'.pmadd a b c) := by
  by_cases hw : (s.mat a).width = (s.mat b).width
  · by_cases hh : (s.mat a).height = (s.mat b).height
    · obtain ⟨u, e, o⟩ := s.pmadd_spec a b c (h.ok.mat a) (h.ok.mat b) hw hh
      obtain ⟨u', e', o'⟩ := s'.pmadd_spec a b c (h.ok'.mat a) (h.ok'.mat b)
        (by rw [h.width a ha, h.width b hb, hw]) (by rw [h.height a ha, h.height b hb, hh])
      exact rel_ok e e' (h.wrote o o' (h.width a ha) (h.height a ha) (fun r c hr hc => by
        rw [h.ent a ha r c hr hc, h.ent b hb r c (by rw [← hh]; exact hr) (by rw [← hw]; exact hc)]))
    · unfold Store.pmadd
      refine rel_chk (by simp only [h.width a ha, h.width b hb, h.height a ha, h.height b hb]) (fun _ => ?_)
      exact rel_chk (by simp only [h.width a ha, h.width b hb, h.height a ha, h.height b hb]) (fun h' => (hh h').elim)
  · unfold Store.pmadd
    exact rel_chk (by simp only [h.width a ha, h.width b hb, h.height a ha, h.height b hb]) (fun h' => (hw h').elim)

theorem Twin.dot [Add α] [Mul α] (h : Twin ks ls s s') {a b : MId} (ha : a ∈ ks) (hb : b ∈ ks)
    (pa : a ≠ .geA) (pb : b ≠ .geA) : s'.dot a b = s.dot a b := by
  by_cases h1 : (s.mat a).width = 1
  · by_cases h2 : (s.mat b).width = 1
    · by_cases h3 : (s.mat b).height = (s.mat a).height
      · rw [s.dot_spec a b (h.ok.mat a) (h.ok.mat b) (h.ok.mplain pa) (h.ok.mplain pb) h1 h2 h3,
          s'.dot_spec a b (h.ok'.mat a) (h.ok'.mat b) (h.ok'.mplain pa) (h.ok'.mplain pb)
            (by rw [h.width a ha, h1]) (by rw [h.width b hb, h2])
            (by rw [h.height a ha, h.height b hb, h3]), h.height a ha]
        refine congrArg _ (sumTo_congr (fun i hi => ?_))
        rw [h.ent a ha i 0 hi (by omega), h.ent b hb i 0 (by omega) (by omega)]
      · unfold Store.dot
        refine eq_of_rel ?_
        refine rel_chk (by simp only [h.width a ha, h.width b hb, h.height a ha, h.height b hb]) (fun _ => ?_)
        refine rel_chk (by simp only [h.width a ha, h.width b hb, h.height a ha, h.height b hb]) (fun _ => ?_)
        exact rel_chk (by simp only [h.width a ha, h.width b hb, h.height a ha, h.height b hb]) (fun h' => (h3 h').elim)
    · unfold Store.dot
      refine eq_of_rel ?_
      refine rel_chk (by simp only [h.width a ha, h.width b hb, h.height a ha, h.height b hb]) (fun _ => ?_)
      exact rel_chk (by simp only [h.width a ha, h.width b hb, h.height a ha, h.height b hb]) (fun h' => (h2 h').elim)
  · unfold Store.dot
    refine eq_of_rel ?_
    exact rel_chk (by simp only [h.width a ha, h.width b hb, h.height a ha, h.height b hb]) (fun h' => (h1 h').elim)

theorem Twin.vms [Add α] [Mul α] (h : Twin ks ls s s') {a : MId} (ha : a ∈ ks)
    (pa : a ≠ .geA) : s'.vectorMagnitudeSquared a = s.vectorMagnitudeSquared a := by
  by_cases h1 : (s.mat a).width = 1
  · rw [s.vms_spec a (h.ok.mat a) (h.ok.mplain pa) h1,
      s'.vms_spec a (h.ok'.mat a) (h.ok'.mplain pa) (by rw [h.width a ha, h1]), h.height a ha]
    refine congrArg _ (sumTo_congr (fun i hi => ?_))
    rw [h.ent a ha i 0 hi (by omega)]
  · unfold Store.vectorMagnitudeSquared
    refine eq_of_rel ?_
    exact rel_chk (by simp only [h.width a ha, h.height a ha]) (fun h' => (h1 h').elim)

/-! ## A matrix that is being filled -/

/-- The matrix `t` has the same size in both stores and the same contents at the positions `P`. -/
structure Part (t : MId) (w n : Nat) (P : Nat → Nat → Prop) (s s' : Store α) : Prop where
  width : (s.mat t).width = w
  height : (s.mat t).height = n
  width' : (s'.mat t).width = w
  height' : (s'.mat t).height = n
  ent : ∀ r c, r < n → c < w → P r c → (s'.mat t).ent r c = (s.mat t).ent r c

variable {w n : Nat} {P Q : Nat → Nat → Prop}

theorem Part.full (h : Part t w n P s s') (H : Twin ks ls s s')
    (hp : ∀ r c, r < n → c < w → P r c) : Twin (t :: ks) ls s s' := by
  refine ⟨H.ok, H.ok', ?_, ?_, ?_, H.swidth, H.sheight, H.blk, H.sent, H.rng⟩
  · intro a m
    rcases List.mem_cons.1 m with rfl | m
    · rw [h.width, h.width']
    · exact H.width a m
  · intro a m
    rcases List.mem_cons.1 m with rfl | m
    · rw [h.height, h.height']
    · exact H.height a m
  · intro a m
    rcases List.mem_cons.1 m with rfl | m
    · intro r c hr hc
      rw [h.height] at hr
      rw [h.width] at hc
      exact h.ent r c hr hc (hp r c hr hc)
    · exact H.ent a m

theorem Part.mono (h : Part t w n P s s') (hq : ∀ r c, r < n → c < w → Q r c → P r c) :
    Part t w n Q s s' :=
  ⟨h.width, h.height, h.width', h.height', fun r c hr hc q => h.ent r c hr hc (hq r c hr hc q)⟩

theorem Twin.resize (h : Twin ks ls s s') (ht : t ∉ ks) (w n : Nat) :
    Rel (fun u u' => Twin ks ls u u' ∧ Part t w n (fun _ _ => False) u u')
      (s.resize t w n) (s'.resize t w n) := by
  obtain ⟨u, e, i, o, hw, hh, -⟩ := h.ok.resize t w n
  obtain ⟨u', e', i', o', hw', hh', -⟩ := h.ok'.resize t w n
  refine rel_ok e e' ⟨h.upd i i' o o' (fun a m _ => m) ?_ ?_ ?_, hw, hh, hw', hh',
    fun _ _ _ _ h => h.elim⟩
  all_goals exact fun m => (ht m).elim

theorem Part.get (h : Part t w n P s s') (H : Twin ks ls s s') {c r : Nat} (hp : P r c) :
    s'.get t c r = s.get t c r := by
  by_cases hc : c < w
  · by_cases hr : r < n
    · rw [s.get_ok t (H.ok.mat t) (by rw [h.width]; exact hc) (by rw [h.height]; exact hr),
        s'.get_ok t (H.ok'.mat t) (by rw [h.width']; exact hc) (by rw [h.height']; exact hr),
        h.ent r c hr hc hp]
    · unfold Store.get
      refine eq_of_rel ?_
      refine rel_chk (by simp only [h.width, h.height, h.width', h.height']) (fun _ => ?_)
      exact rel_chk (by simp only [h.width, h.height, h.width', h.height']) (fun h' => (hr (by simpa only [h.width, h.height, h.width', h.height'] using h')).elim)
  · unfold Store.get
    refine eq_of_rel ?_
    exact rel_chk (by simp only [h.width, h.height, h.width', h.height']) (fun h' => (hc (by simpa only [h.width, h.height, h.width', h.height'] using h')).elim)

theorem Part.set (h : Part t w n P s s') (H : Twin ks ls s s') (ht : t ∉ ks) (c r : Nat) (v : α) :
    Rel (fun u u' => Twin ks ls u u' ∧ Part t w n (fun p q => P p q ∨ (p = r ∧ q = c)) u u')
      (s.set t c r v) (s'.set t c r v) := by
  by_cases hc : c < w
  · by_cases hr : r < n
    · obtain ⟨u, e, o, -, sh, en⟩ := s.set_spec t (H.ok.mat t) (by rw [h.width]; exact hc)
        (by rw [h.height]; exact hr) v
      obtain ⟨u', e', o', -, sh', en'⟩ := s'.set_spec t (H.ok'.mat t)
        (by rw [h.width']; exact hc) (by rw [h.height']; exact hr) v
      refine rel_ok e e' ⟨H.upd (H.ok.shaped o sh) (H.ok'.shaped o' sh') o o' (fun a m _ => m)
        (fun m => (ht m).elim) (fun m => (ht m).elim) (fun m => (ht m).elim), ?_⟩
      refine ⟨by rw [sh.width, h.width], by rw [sh.height, h.height], by rw [sh'.width, h.width'],
        by rw [sh'.height, h.height'], fun p q hp hq hpq => ?_⟩
      rw [en p q (by rw [h.height]; exact hp) (by rw [h.width]; exact hq),
        en' p q (by rw [h.height']; exact hp) (by rw [h.width']; exact hq)]
      by_cases hb : p = r ∧ q = c
      · rw [if_pos hb, if_pos hb]
      · rw [if_neg hb, if_neg hb]
        exact h.ent p q hp hq (hpq.resolve_right hb)
    · unfold Store.set
      refine rel_chk (by simp only [h.width, h.height, h.width', h.height']) (fun _ => ?_)
      exact rel_chk (by simp only [h.width, h.height, h.width', h.height']) (fun h' => (hr (by simpa only [h.width, h.height, h.width', h.height'] using h')).elim)
  · unfold Store.set
    exact rel_chk (by simp only [h.width, h.height, h.width', h.height']) (fun h' => (hc (by simpa only [h.width, h.height, h.width', h.height'] using h')).elim)

/-! ## Sparse operations -/

theorem Twin.rowDot [Add α] [Mul α] (h : Twin ks ls s s') {a b : SId} (ha : a ∈ ls) (hb : b ∈ ls)
    {i j : Nat} (hi : i < (s.smat a).height) (hj : j < (s.smat b).height) :
    SMat.rowDot 3 2 (s'.smat a) (s'.smat b) i j = SMat.rowDot 3 2 (s.smat a) (s.smat b) i j := by
  unfold SMat.rowDot
  refine forN_congr (fun k hk dot => ?_) 0
  rw [h.block ha hi hk, (h.ok.smat a).block_eq hi hk, ok_bind, ok_bind]
  by_cases hB : (s.smat a).blk 2 i k = 255
  · rw [if_pos hB, if_pos hB]
  · rw [if_neg hB, if_neg hB]
    refine forN_congr (fun l hl dot => ?_) dot
    rw [h.block hb hj hl, (h.ok.smat b).block_eq hj hl, ok_bind, ok_bind]
    by_cases hE : (s.smat a).blk 2 i k = (s.smat b).blk 2 j l
    · rw [if_pos hE, if_pos hE]
      refine forN_congr (fun m hm dot => ?_) dot
      rw [h.sload ha hi hk hm hB, h.sload hb hj hl hm (by rw [← hE]; exact hB)]
    · rw [if_neg hE, if_neg hE]

theorem Twin.multiplyTranspose [Add α] [Mul α] (h : Twin ks ls s s') {a b : SId} (ha : a ∈ ls)
    (hb : b ∈ ls) (t : MId) : Rel (Twin (t :: ks) ls)
      (s.multiplyTranspose 3 2 a b t) (s'.multiplyTranspose 3 2 a b t) := by
  unfold Store.multiplyTranspose
  refine rel_chk (by rw [h.swidth a ha, h.swidth b hb]) (fun _ => ?_)
  rw [h.sheight a ha, h.sheight b hb]
  refine rel_bind (h.init0 t _ _) (fun u u' H => ?_)
  simp only []
  rw [H.sheight a ha, H.sheight b hb]
  refine rel_for (R := fun v v' => Twin (t :: ks) ls v v') H (fun i hi v v' V => ?_)
  refine rel_for V (fun j hj v v' V => ?_)
  refine rel_eq (H.rowDot ha hb hi hj) (fun x _ => ?_)
  exact V.set (List.mem_cons_self ..) j i x

theorem Twin.transposeMultiplyVector [Add α] [Mul α] (h : Twin ks ls s s') {a : SId} (ha : a ∈ ls)
    {b : MId} (hb : b ∈ ks) (t : MId) : Rel (Twin (t :: ks) ls)
      (s.transposeMultiplyVector 3 2 a b t) (s'.transposeMultiplyVector 3 2 a b t) := by
  unfold Store.transposeMultiplyVector
  refine rel_chk (by rw [h.width b hb]) (fun _ => ?_)
  refine rel_chk (by rw [h.sheight a ha, h.height b hb]) (fun _ => ?_)
  rw [h.swidth a ha]
  refine rel_bind (h.init0 t _ _) (fun u u' H => ?_)
  simp only []
  rw [H.sheight a ha]
  refine rel_for (R := fun v v' => Twin (t :: ks) ls v v') H (fun i hi v v' V => ?_)
  refine rel_for V (fun k hk v v' V => ?_)
  rw [H.block ha hi hk, (H.ok.smat a).block_eq hi hk, ok_bind, ok_bind]
  refine rel_ite Iff.rfl (fun _ => V) (fun hB => ?_)
  refine rel_for V (fun l hl v v' V => ?_)
  refine rel_eq (H.sload ha hi hk hl hB) (fun x _ => ?_)
  refine rel_eq (V.get (List.mem_cons_of_mem _ hb) 0 i) (fun y _ => ?_)
  exact V.addAt (List.mem_cons_self ..) _ _ _

theorem Twin.smultiply [Add α] [Mul α] (h : Twin ks ls s s') {a : SId} (ha : a ∈ ls)
    {b : MId} (hb : b ∈ ks) (t : MId) : Rel (Twin (t :: ks) ls)
      (s.smultiply 3 2 a b t) (s'.smultiply 3 2 a b t) := by
  unfold Store.smultiply
  simp only []
  refine rel_chk (by rw [h.swidth a ha, h.height b hb]) (fun _ => ?_)
  rw [h.sheight a ha, h.width b hb]
  refine rel_bind (h.init0 t _ _) (fun u u' H => ?_)
  rw [H.sheight a ha]
  refine rel_for (R := fun v v' => Twin (t :: ks) ls v v') H (fun i hi v v' V => ?_)
  refine rel_for V (fun j hj v v' V => ?_)
  refine rel_eq ?_ (fun x _ => V.set (List.mem_cons_self ..) j i x)
  refine forN_congr (fun k hk x => ?_) 0
  rw [H.block ha hi hk, (H.ok.smat a).block_eq hi hk, ok_bind, ok_bind]
  by_cases hB : (u.smat a).blk 2 i k = 255
  · rw [if_pos hB, if_pos hB]
  · rw [if_neg hB, if_neg hB]
    refine forN_congr (fun l hl x => ?_) x
    rw [H.sload ha hi hk hl hB, V.get (List.mem_cons_of_mem _ hb)]

theorem Twin.srightScale [Mul α] (h : Twin ks ls s s') {a : SId} (ha : a ∈ ls) {sc : MId}
    (hs : sc ∈ ks) {t : SId} (hat : a ≠ t) : Rel (Twin ks (t :: ls))
      (s.srightScale 3 2 a sc t) (s'.srightScale 3 2 a sc t) := by
  by_cases hw : (s.mat sc).width = 1
  · by_cases hh : (s.mat sc).height = (s.smat a).width
    · obtain ⟨u, e, o⟩ := s.srightScale_spec 3 2 (by decide) a t sc hat (h.ok.smat a) (h.rng a ha)
        (h.ok.smat t) (h.ok.sfresh t) (h.ok.mat sc) hw hh
      obtain ⟨u', e', o'⟩ := s'.srightScale_spec 3 2 (by decide) a t sc hat (h.ok'.smat a)
        (h.rng' ha) (h.ok'.smat t) (h.ok'.sfresh t) (h.ok'.mat sc) (by rw [h.width sc hs, hw])
        (by rw [h.height sc hs, h.swidth a ha, hh])
      refine rel_ok e e' (h.swrote o o' (h.swidth a ha) (h.sheight a ha)
        (fun r j hr hj => h.blk a ha r j hr hj) (fun r j k hr hj hk hB => ?_)
        (fun r j hr hj => h.rng a ha r j hr hj))
      have := (h.rng a ha r j hr hj).resolve_left hB
      rw [h.blk a ha r j hr hj, h.sent a ha r j k hr hj hk hB, h.ent sc hs _ 0 (by omega) (by omega)]
    · unfold Store.srightScale
      refine rel_chk (by simp only [h.width sc hs, h.height sc hs, h.swidth a ha, h.sheight a ha]) (fun _ => ?_)
      exact rel_chk (by simp only [h.width sc hs, h.height sc hs, h.swidth a ha, h.sheight a ha]) (fun h' => (hh h').elim)
  · unfold Store.srightScale
    exact rel_chk (by simp only [h.width sc hs, h.height sc hs, h.swidth a ha, h.sheight a ha]) (fun h' => (hw h').elim)

theorem Twin.sleftScale [Mul α] (h : Twin ks ls s s') {a : SId} (ha : a ∈ ls) {sc : MId}
    (hs : sc ∈ ks) {t : SId} (hat : a ≠ t) : Rel (Twin ks (t :: ls))
      (s.sleftScale 3 2 a sc t) (s'.sleftScale 3 2 a sc t) := by
  by_cases hw : (s.mat sc).width = 1 ∨ (s.smat a).height = 0
  · by_cases hh : (s.mat sc).height = (s.smat a).height
    · obtain ⟨u, e, o⟩ := s.sleftScale_spec 3 2 (by decide) a t sc hat (h.ok.smat a) (h.rng a ha)
        (h.ok.smat t) (h.ok.sfresh t) (h.ok.mat sc) hw hh
      obtain ⟨u', e', o'⟩ := s'.sleftScale_spec 3 2 (by decide) a t sc hat (h.ok'.smat a)
        (h.rng' ha) (h.ok'.smat t) (h.ok'.sfresh t) (h.ok'.mat sc)
        (by rw [h.width sc hs, h.sheight a ha]; exact hw)
        (by rw [h.height sc hs, h.sheight a ha, hh])
      refine rel_ok e e' (h.swrote o o' (h.swidth a ha) (h.sheight a ha)
        (fun r j hr hj => h.blk a ha r j hr hj) (fun r j k hr hj hk hB => ?_)
        (fun r j hr hj => h.rng a ha r j hr hj))
      have hw1 : (s.mat sc).width = 1 := hw.resolve_right (by omega)
      rw [h.sent a ha r j k hr hj hk hB, h.ent sc hs r 0 (by omega) (by omega)]
    · unfold Store.sleftScale
      refine rel_chk (by simp only [h.width sc hs, h.sheight a ha, h.height sc hs, h.swidth a ha]) (fun _ => ?_)
      exact rel_chk (by simp only [h.width sc hs, h.sheight a ha, h.height sc hs, h.swidth a ha]) (fun h' => (hh h').elim)
  · unfold Store.sleftScale
    exact rel_chk (by simp only [h.width sc hs, h.sheight a ha, h.height sc hs, h.swidth a ha]) (fun h' => (hw h').elim)

end

end Scs
