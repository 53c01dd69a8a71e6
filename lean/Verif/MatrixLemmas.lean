import Verif.Matrix

/-!
# Lemmas about the `Matrix` model
-/

namespace Scs

section
variable {α : Type}

/-- Representation invariant of `Matrix`. -/
def Mat.WF (m : Mat α) : Prop :=
  (m.rows = none ∧ m.data = none ∧ m.width = 0 ∧ m.height = 0 ∧ m.capW = 0 ∧ m.capH = 0) ∨
  (∃ rb db, m.rows = some rb ∧ m.data = some db ∧ rb.size = m.capH ∧ db.size = m.capW * m.capH ∧
    m.width ≤ m.capW ∧ m.height ≤ m.capH ∧
    ∃ σ : Nat → Nat, (∀ r, r < m.height → σ r < m.height ∧ rb.val r = some (σ r * m.width)) ∧
      ∀ r r', r < m.height → r' < m.height → σ r = σ r' → r = r')

/-- Rows are laid out in order (no row swap since the last relayout). -/
def Mat.Plain (m : Mat α) : Prop :=
  ∀ rb, m.rows = some rb → ∀ r, r < m.height → rb.val r = some (r * m.width)

/-- Element at row `r`, column `c` (0 if there is none). -/
def Mat.ent [Zero α] (m : Mat α) (r c : Nat) : α :=
  match m.load r c with
  | .ok v => v
  | .error _ => 0

/-- Equal up to the contents of `m_data`. -/
structure Mat.SameShape (m m' : Mat α) : Prop where
  rows : m'.rows = m.rows
  width : m'.width = m.width
  height : m'.height = m.height
  capW : m'.capW = m.capW
  capH : m'.capH = m.capH
  data : m'.data.map Buf.size = m.data.map Buf.size

theorem Mat.SameShape.refl (m : Mat α) : m.SameShape m := ⟨rfl, rfl, rfl, rfl, rfl, rfl⟩

theorem Mat.SameShape.trans {a b c : Mat α} (h : a.SameShape b) (h' : b.SameShape c) :
    a.SameShape c :=
  ⟨h'.rows.trans h.rows, h'.width.trans h.width, h'.height.trans h.height,
    h'.capW.trans h.capW, h'.capH.trans h.capH, h'.data.trans h.data⟩

theorem Mat.SameShape.wf {m m' : Mat α} (h : m.SameShape m') (wf : m.WF) : m'.WF := by
  obtain ⟨h1, h2, h3, h4, h5, h6⟩ := h
  rcases wf with ⟨a, b, c, d, e, f⟩ | ⟨rb, db, a, b, c, d, e, f, σ, g⟩
  · left
    rw [b] at h6
    simp at h6
    exact ⟨h1.trans a, h6, by omega, by omega, by omega, by omega⟩
  · right
    rw [b] at h6
    simp only [Option.map_some, Option.map_eq_some_iff] at h6
    obtain ⟨db', hd, hs⟩ := h6
    refine ⟨rb, db', h1.trans a, hd, by omega, ?_, by omega, by omega, σ, ?_⟩
    · rw [hs, d, h4, h5]
    · rw [h3, h2]; exact g

theorem Mat.SameShape.plain {m m' : Mat α} (h : m.SameShape m') (p : m.Plain) : m'.Plain := by
  intro rb hrb r hr
  rw [h.rows] at hrb
  rw [h.height] at hr
  rw [h.width]
  exact p rb hrb r hr

theorem Mat.empty_wf : (Mat.empty : Mat α).WF := Or.inl ⟨rfl, rfl, rfl, rfl, rfl, rfl⟩
theorem Mat.empty_plain : (Mat.empty : Mat α).Plain := by intro rb h; simp [Mat.empty] at h

/-- Index arithmetic: row `q < h`, column `c < w` is inside `cw * ch`. -/
theorem idx_lt {q h c w cw ch : Nat} (hq : q < h) (hc : c < w) (hw : w ≤ cw) (hh : h ≤ ch) :
    q * w + c < cw * ch := by
  calc q * w + c < q * w + w := by omega
    _ = (q + 1) * w := by rw [Nat.succ_mul]
    _ ≤ ch * cw := Nat.mul_le_mul (by omega) hw
    _ = cw * ch := Nat.mul_comm _ _

theorem idx_inj {q q' c c' w : Nat} (hc : c < w) (hc' : c' < w) (h : q * w + c = q' * w + c') :
    q = q' ∧ c = c' := by
  have hw : 0 < w := by omega
  have e1 : (c + w * q) / w = q := by rw [Nat.add_mul_div_left _ _ hw, Nat.div_eq_of_lt hc]; omega
  have e2 : (c' + w * q') / w = q' := by rw [Nat.add_mul_div_left _ _ hw, Nat.div_eq_of_lt hc']; omega
  have : c + w * q = c' + w * q' := by rw [Nat.mul_comm w q, Nat.mul_comm w q']; omega
  have hq : q = q' := by rw [← e1, ← e2, this]
  subst hq
  exact ⟨rfl, by omega⟩

theorem Mat.WF.load_eq [Zero α] {m : Mat α} (wf : m.WF) {r c : Nat} (hr : r < m.height)
    (hc : c < m.width) : m.load r c = .ok (m.ent r c) := by
  rcases wf with ⟨_, _, h, _⟩ | ⟨rb, db, hrows, hdata, hrs, hds, hw, hh, σ, hσ, _⟩
  · omega
  · obtain ⟨h1, h2⟩ := hσ r hr
    have : m.load r c = .ok (db.val (σ r * m.width + c)) := by
      simp only [Mat.load, hrows, deref, ok_bind, Buf.rd_ok rb (show r < rb.size by omega), h2,
        initd, hdata]
      rw [Buf.rd_ok]
      rw [hds]
      exact idx_lt h1 hc hw hh
    rw [this, Mat.ent, this]

theorem Mat.ent_of_load [Zero α] {m : Mat α} {r c : Nat} {v : α} (h : m.load r c = .ok v) :
    m.ent r c = v := by simp [Mat.ent, h]

/-- Storing an element succeeds in range, keeps the shape and changes one element. -/
theorem Mat.WF.store_spec [Zero α] {m : Mat α} (wf : m.WF) {r c : Nat} (hr : r < m.height)
    (hc : c < m.width) (v : α) :
    ∃ m', m.store r c v = .ok m' ∧ m.SameShape m' ∧
      ∀ r' c', r' < m.height → c' < m.width →
        m'.ent r' c' = if r' = r ∧ c' = c then v else m.ent r' c' := by
  have wf0 := wf
  rcases wf with ⟨_, _, h, _⟩ | ⟨rb, db, hrows, hdata, hrs, hds, hw, hh, σ, hσ, hinj⟩
  · omega
  · obtain ⟨h1, h2⟩ := hσ r hr
    have hlt : σ r * m.width + c < db.size := by rw [hds]; exact idx_lt h1 hc hw hh
    let db' : Buf α := { db with val := fun j => if j = σ r * m.width + c then v else db.val j }
    have hst : m.store r c v = .ok { m with data := some db' } := by
      simp only [Mat.store, hrows, deref, ok_bind, Buf.rd_ok rb (show r < rb.size by omega), h2,
        initd, hdata, Buf.wr, if_pos hlt]
      rfl
    have hss : m.SameShape { m with data := some db' } :=
      ⟨rfl, rfl, rfl, rfl, rfl, by simp [hdata, db']⟩
    refine ⟨_, hst, hss, ?_⟩
    intro r' c' hr' hc'
    obtain ⟨h1', h2'⟩ := hσ r' hr'
    have hlt' : σ r' * m.width + c' < db.size := by rw [hds]; exact idx_lt h1' hc' hw hh
    have e1 : ({ m with data := some db' } : Mat α).load r' c' =
        .ok (db'.val (σ r' * m.width + c')) := by
      simp only [Mat.load, hrows, deref, ok_bind, Buf.rd_ok rb (show r' < rb.size by omega), h2',
        initd]
      exact Buf.rd_ok db' hlt'
    have e2 : m.load r' c' = .ok (db.val (σ r' * m.width + c')) := by
      simp only [Mat.load, hrows, deref, ok_bind, Buf.rd_ok rb (show r' < rb.size by omega), h2',
        initd, hdata]
      exact Buf.rd_ok db hlt'
    rw [Mat.ent_of_load e1, Mat.ent_of_load e2]
    simp only [db']
    by_cases hcase : r' = r ∧ c' = c
    · obtain ⟨rfl, rfl⟩ := hcase
      simp
    · rw [if_neg hcase, if_neg]
      intro heq
      obtain ⟨hq, hc0⟩ := idx_inj hc' hc heq
      exact hcase ⟨hinj r' r hr' hr hq, hc0⟩

/-- Any successful store keeps the shape. -/
theorem Mat.store_shape {m m' : Mat α} {r c : Nat} {v : α} (h : m.store r c v = .ok m') :
    m.SameShape m' := by
  unfold Mat.store at h
  cases hr : m.rows with
  | none => simp [hr, deref, error_bind] at h
  | some rb =>
    simp only [hr, deref, ok_bind] at h
    cases hp : rb.rd r with
    | error e => simp [hp, error_bind] at h
    | ok p =>
      simp only [hp, ok_bind] at h
      cases p with
      | none => simp [initd, error_bind] at h
      | some off =>
        simp only [initd, ok_bind] at h
        cases hd : m.data with
        | none => simp [hd, error_bind] at h
        | some db =>
          simp only [hd, ok_bind, Buf.wr] at h
          split at h
          · simp only [ok_bind, pure, Except.pure, Except.ok.injEq] at h
            subst h
            exact ⟨hr.symm, rfl, rfl, rfl, rfl, by simp [hd]⟩
          · cases h

/-! ## resize -/

theorem Mat.layout_spec {m : Mat α} {h w : Nat} {rb : Buf (Option Nat)} {db : Buf α}
    (hr : m.rows = some rb) (hd : m.data = some db) (hs : h ≤ rb.size) :
    ∃ rb', m.layout h w = .ok { m with rows := some rb' } ∧ rb'.size = rb.size ∧
      (∀ r, r < h → rb'.val r = some (r * w)) := by
  have key : Wp (m.layout h w) (fun m' => ∃ rb', m' = { m with rows := some rb' } ∧
      rb'.size = rb.size ∧ ∀ r, r < h → rb'.val r = some (r * w)) noErr := by
    unfold Mat.layout
    refine wp_forN (I := fun i m' => ∃ rb', m' = { m with rows := some rb' } ∧
      rb'.size = rb.size ∧ ∀ r, r < i → rb'.val r = some (r * w)) ?_ ?_
    · exact ⟨rb, by rw [← hr], rfl, by intro r h; omega⟩
    · rintro i hi _ ⟨rb', rfl, hs', hv⟩
      have : i < rb'.size := by omega
      simp only [deref, ok_bind, hd, Buf.wr, if_pos this, wp_pure]
      refine ⟨_, rfl, hs', ?_⟩
      intro r hr
      by_cases h : r = i
      · simp [h]
      · simp only [h, if_false]; exact hv r (by omega)
  obtain ⟨m', he, rb', rfl, h1, h2⟩ := wp_noErr_iff.mp key
  exact ⟨rb', he, h1, h2⟩

/-- `a` is the only dense matrix that may differ; sparse matrices and memory oracle agree. -/
structure Only (t : MId) (s s' : Store α) : Prop where
  mat : ∀ a, a ≠ t → s'.mat a = s.mat a
  smat : s'.smat = s.smat
  junk : s'.junk = s.junk
  junkB : s'.junkB = s.junkB

theorem Only.refl (t : MId) (s : Store α) : Only t s s := ⟨fun _ _ => rfl, rfl, rfl, rfl⟩

theorem Only.trans {t : MId} {a b c : Store α} (h : Only t a b) (h' : Only t b c) : Only t a c :=
  ⟨fun x hx => (h'.mat x hx).trans (h.mat x hx), h'.smat.trans h.smat, h'.junk.trans h.junk,
    h'.junkB.trans h.junkB⟩

theorem Only.setMat (t : MId) (s : Store α) (m : Mat α) : Only t s (s.setMat t m) :=
  ⟨fun _ ha => upd_other _ _ ha, rfl, rfl, rfl⟩

@[simp] theorem Store.setMat_same (s : Store α) (t : MId) (m : Mat α) :
    (s.setMat t m).mat t = m := upd_same _ _ _

/-- `resize` always succeeds on a well-formed matrix and yields a well-formed matrix of the asked
size; the elements are kept if the size does not change; otherwise rows are laid out in order. -/
theorem Store.resize_spec (s : Store α) (t : MId) (w h : Nat) (wf : (s.mat t).WF) :
    ∃ s', s.resize t w h = .ok s' ∧ Only t s s' ∧ (s'.mat t).WF ∧ (s'.mat t).width = w ∧
      (s'.mat t).height = h ∧ ((s.mat t).Plain → (s'.mat t).Plain) ∧
      ((w = (s.mat t).width ∧ h = (s.mat t).height) → s' = s) ∧
      (¬(w = (s.mat t).width ∧ h = (s.mat t).height) → (s'.mat t).Plain) := by
  unfold Store.resize
  by_cases hsame : w = (s.mat t).width ∧ h = (s.mat t).height
  · simp only [hsame, and_self, if_true]
    exact ⟨s, rfl, Only.refl _ _, wf, rfl, rfl, id, fun _ => rfl, fun h => absurd trivial h⟩
  · simp only [if_neg hsame]
    have hmain : ∀ (m : Mat α) (tick : Nat) (rb : Buf (Option Nat)) (db : Buf α),
        m.rows = some rb → m.data = some db → rb.size = m.capH → db.size = m.capW * m.capH →
        w ≤ m.capW → h ≤ m.capH →
        ∃ s', (do
          let m ← Mat.layout { m with width := w, height := h } h w
          pure { s.setMat t m with tick := tick } : Exec (Store α)) = .ok s' ∧ Only t s s' ∧
            (s'.mat t).WF ∧ (s'.mat t).width = w ∧ (s'.mat t).height = h ∧ (s'.mat t).Plain := by
      intro m tick rb db hr hd hrs hds hw hh
      obtain ⟨rb', he, hs', hv⟩ := Mat.layout_spec (m := { m with width := w, height := h })
        (h := h) (w := w) hr hd (by omega)
      rw [he]
      refine ⟨_, rfl, ⟨fun a ha => upd_other _ _ ha, rfl, rfl, rfl⟩, ?_, ?_, ?_, ?_⟩
      · right
        simp only [Store.setMat, upd_same]
        exact ⟨rb', db, rfl, hd, by omega, hds, hw, hh, id, fun r hr => ⟨hr, hv r hr⟩,
          fun r r' _ _ h => h⟩
      · simp [Store.setMat, upd_same]
      · simp [Store.setMat, upd_same]
      · simp only [Store.setMat, upd_same]
        intro rb'' hrb'' r hr
        simp only [Option.some.injEq] at hrb''
        subst hrb''
        exact hv r hr
    by_cases hcap : (s.mat t).capW < w ∨ (s.mat t).capH < h
    · simp only [if_pos hcap]
      have hd0 : (s.mat t).destroy.capW = 0 ∧ (s.mat t).destroy.capH = 0 := by
        rcases wf with ⟨hr, _, _, _, h1, h2⟩ | ⟨rb, db, hr, _⟩
        · simp [Mat.destroy, hr, h1, h2]
        · simp [Mat.destroy, hr]
      obtain ⟨s', e, a, b, c, d, f⟩ := hmain
        { (s.mat t).destroy with
          capW := if (s.mat t).destroy.capW < w then w else (s.mat t).destroy.capW
          capH := if (s.mat t).destroy.capH < h then h else (s.mat t).destroy.capH
          data := some ⟨(if (s.mat t).destroy.capW < w then w else (s.mat t).destroy.capW) *
            (if (s.mat t).destroy.capH < h then h else (s.mat t).destroy.capH), s.junk s.tick⟩
          rows := some ⟨if (s.mat t).destroy.capH < h then h else (s.mat t).destroy.capH,
            fun _ => none⟩ } (s.tick + 1) _ _ rfl rfl rfl rfl
        (by simp only [hd0.1]; split <;> omega) (by simp only [hd0.2]; split <;> omega)
      exact ⟨s', e, a, b, c, d, fun _ => f, fun h => absurd h hsame, fun _ => f⟩
    · simp only [if_neg hcap]
      rcases wf with ⟨_, _, h1, h2, h3, h4⟩ | ⟨rb, db, hr, hd, hrs, hds, hw, hh, _⟩
      · omega
      · obtain ⟨s', e, a, b, c, d, f⟩ := hmain (s.mat t) s.tick rb db hr hd hrs hds (by omega)
          (by omega)
        exact ⟨s', e, a, b, c, d, fun _ => f, fun h => absurd h hsame, fun _ => f⟩

/-! ## The fill loop -/

/-- State of a fill loop about to write row `i`, column `j`. -/
structure FillInv [Zero α] (s0 : Store α) (t : MId) (g : Nat → Nat → α) (i j : Nat)
    (s : Store α) : Prop where
  only : Only t s0 s
  tick : s.tick = s0.tick
  shape : (s0.mat t).SameShape (s.mat t)
  ent : ∀ r c, r < (s0.mat t).height → c < (s0.mat t).width →
    (s.mat t).ent r c = if r < i ∨ (r = i ∧ c < j) then g r c else (s0.mat t).ent r c

theorem Store.store_spec [Zero α] (s : Store α) (t : MId) (wf : (s.mat t).WF) {r c : Nat}
    (hr : r < (s.mat t).height) (hc : c < (s.mat t).width) (v : α) :
    ∃ s', s.store t r c v = .ok s' ∧ Only t s s' ∧ s'.tick = s.tick ∧
      (s.mat t).SameShape (s'.mat t) ∧
      ∀ r' c', r' < (s.mat t).height → c' < (s.mat t).width →
        (s'.mat t).ent r' c' = if r' = r ∧ c' = c then v else (s.mat t).ent r' c' := by
  obtain ⟨m', h1, h2, h3⟩ := wf.store_spec hr hc v
  refine ⟨s.setMat t m', by rw [Store.store, h1]; rfl, Only.setMat _ _ _, rfl, ?_, ?_⟩
  · simpa using h2
  · simpa using h3

theorem Store.fill_spec' [Zero α] {s0 : Store α} {t : MId} (wf : (s0.mat t).WF)
    {h w : Nat} (hh : h = (s0.mat t).height) (hw : w = (s0.mat t).width)
    {body : Nat → Nat → Store α → Exec (Store α)} {g : Nat → Nat → α}
    (hf : ∀ i, i < h → ∀ j, j < w → ∀ s, FillInv s0 t g i j s →
      body i j s = s.store t i j (g i j)) :
    ∃ s', forN h (fun i s => forN w (fun j s => body i j s) s) s0 = .ok s' ∧ Only t s0 s' ∧
      s'.tick = s0.tick ∧ (s0.mat t).SameShape (s'.mat t) ∧
      ∀ r c, r < h → c < w → (s'.mat t).ent r c = g r c := by
  subst hh hw
  have key : Wp (forN (s0.mat t).height (fun i s => forN (s0.mat t).width
      (fun j s => body i j s) s) s0)
      (fun s' => FillInv s0 t g (s0.mat t).height 0 s') noErr := by
    refine wp_forN (I := fun i s => FillInv s0 t g i 0 s) ?_ ?_
    · exact ⟨Only.refl _ _, rfl, Mat.SameShape.refl _, by intro r c hr hc; simp⟩
    · intro i hi s hs
      refine wp_forN' (I := fun j s => FillInv s0 t g i j s) hs ?_ ?_
      · intro j hj s hs
        rw [hf i hi j hj s hs]
        obtain ⟨s', e, h1, h1', h2, h3⟩ := Store.store_spec s t (hs.shape.wf wf)
          (r := i) (c := j) (by rw [hs.shape.height]; exact hi) (by rw [hs.shape.width]; exact hj)
          (g i j)
        rw [e]
        refine ⟨hs.only.trans h1, h1'.trans hs.tick, hs.shape.trans h2, ?_⟩
        intro r c hr hc
        rw [h3 r c (by rw [hs.shape.height]; exact hr) (by rw [hs.shape.width]; exact hc),
          hs.ent r c hr hc]
        by_cases hA : r = i ∧ c = j
        · rw [if_pos hA, if_pos (by omega), hA.1, hA.2]
        · rw [if_neg hA]
          by_cases hB : r < i ∨ (r = i ∧ c < j)
          · rw [if_pos hB, if_pos (by omega)]
          · rw [if_neg hB, if_neg (by omega)]
      · intro s hs
        refine ⟨hs.only, hs.tick, hs.shape, ?_⟩
        intro r c hr hc
        rw [hs.ent r c hr hc]
        by_cases hB : r < i ∨ (r = i ∧ c < (s0.mat t).width)
        · rw [if_pos hB, if_pos (by omega)]
        · rw [if_neg hB, if_neg (by omega)]
  obtain ⟨s', e, hI⟩ := wp_noErr_iff.mp key
  refine ⟨s', e, hI.only, hI.tick, hI.shape, ?_⟩
  intro r c hr hc
  rw [hI.ent r c hr hc, if_pos (by omega)]

theorem Store.fill_spec [Zero α] {s0 : Store α} {t : MId} (wf : (s0.mat t).WF)
    {h w : Nat} (hh : h = (s0.mat t).height) (hw : w = (s0.mat t).width)
    {f : Store α → Nat → Nat → Exec α} {g : Nat → Nat → α}
    (hf : ∀ i, i < h → ∀ j, j < w → ∀ s, FillInv s0 t g i j s → f s i j = .ok (g i j)) :
    ∃ s', s0.fill t h w f = .ok s' ∧ Only t s0 s' ∧ s'.tick = s0.tick ∧
      (s0.mat t).SameShape (s'.mat t) ∧
      ∀ r c, r < h → c < w → (s'.mat t).ent r c = g r c := by
  refine Store.fill_spec' wf hh hw (body := fun i j s => f s i j >>= fun v => s.store t i j v) ?_
  intro i hi j hj s hs
  simp only [hf i hi j hj s hs, ok_bind]

end

end Scs
