import Verif.Release
import Verif.MatrixSpec

/-!
# `Matrix` in release builds

The functions of include/matrix.h and src/matrix.cpp that contain asserts, without them (`NDEBUG`). The
other functions of the class are the same in both builds.
-/

namespace Scs

section
variable {α : Type}

/-! ## The model -/

/-- `Matrix::get(column, row)`, include/matrix.h:35-40, in a release build. -/
def Store.getR (s : Store α) (a : MId) (c r : Nat) : Exec α := s.load a r c

/-- `Matrix::set(column, row, value)`, include/matrix.h:21-26, in a release build. -/
def Store.setR (s : Store α) (t : MId) (c r : Nat) (v : α) : Exec (Store α) := s.store t r c v

/-- `Matrix::add(column, row, value)`, include/matrix.h:28-33, in a release build. -/
def Store.addAtR [Add α] (s : Store α) (t : MId) (c r : Nat) (v : α) : Exec (Store α) := do
  let x ← s.load t r c
  s.store t r c (x + v)

/-- `Matrix::~Matrix`, src/matrix.cpp:22-24, in a release build: nothing is freed or checked. -/
def Store.dtorR (_ : Store α) (_ : MId) : Exec PUnit := .ok ⟨⟩

/-- `Matrix::multiply`, src/matrix.cpp:95-110, in a release build. -/
def Store.multiplyR [Zero α] [Add α] [Mul α] (s : Store α) (a b t : MId) : Exec (Store α) := do
  let s ← s.resize t (s.mat b).width (s.mat a).height
  let n := (s.mat a).width
  s.fill t (s.mat a).height (s.mat b).width (fun s i j =>
    forN n (fun ii v => do
      let x ← (do
        let x ← s.load a i ii
        let y ← s.load b ii j
        pure (x * y))
      pure (v + x)) 0)

/-- `Matrix::componentMultiply`, src/matrix.cpp:112-123, in a release build. -/
def Store.componentMultiplyR [Mul α] (s : Store α) (a b t : MId) : Exec (Store α) := do
  let s ← s.resize t (s.mat a).width (s.mat a).height
  let n := (s.mat a).width
  forN (s.mat a).height (fun i s => forN n (fun j s => do
    let x ← s.getR a j i
    let y ← s.getR b j i
    s.setR t j i (x * y)) s) s

/-- `Matrix::transposeMultiply`, src/matrix.cpp:125-140, in a release build. -/
def Store.transposeMultiplyR [Zero α] [Add α] [Mul α] (s : Store α) (a b t : MId) :
    Exec (Store α) := do
  let s ← s.resize t (s.mat b).width (s.mat a).width
  let n := (s.mat a).height
  s.fill t (s.mat a).width (s.mat b).width (fun s i j =>
    forN n (fun ii v => do
      let x ← (do
        let x ← s.load a ii i
        let y ← s.load b ii j
        pure (x * y))
      pure (v + x)) 0)

/-- `Matrix::leftScale`, src/matrix.cpp:142-153, in a release build. -/
def Store.leftScaleR [Mul α] (s : Store α) (a sc t : MId) : Exec (Store α) := do
  let s ← s.resize t (s.mat a).width (s.mat a).height
  s.fill t (s.mat a).height (s.mat a).width (fun s i j => do
    let x ← s.load sc i 0
    let y ← s.load a i j
    pure (x * y))

/-- `Matrix::rightScale`, src/matrix.cpp:155-166, in a release build. -/
def Store.rightScaleR [Mul α] (s : Store α) (a sc t : MId) : Exec (Store α) := do
  let s ← s.resize t (s.mat a).width (s.mat a).height
  s.fill t (s.mat a).height (s.mat a).width (fun s i j => do
    let x ← s.load sc j 0
    let y ← s.load a i j
    pure (x * y))

/-- `Matrix::subtract`, src/matrix.cpp:178-189, in a release build. -/
def Store.subtractR [Sub α] (s : Store α) (a b t : MId) : Exec (Store α) := do
  let s ← s.resize t (s.mat a).width (s.mat a).height
  s.fill t (s.mat a).height (s.mat a).width (fun s i j => do
    let x ← s.load a i j
    let y ← s.load b i j
    pure (x - y))

/-- `Matrix::add(Matrix &, Matrix *)`, src/matrix.cpp:191-202, in a release build. -/
def Store.addMR [Add α] (s : Store α) (a b t : MId) : Exec (Store α) := do
  let s ← s.resize t (s.mat a).width (s.mat a).height
  s.fill t (s.mat a).height (s.mat a).width (fun s i j => do
    let x ← s.load a i j
    let y ← s.load b i j
    pure (x + y))

/-- `Matrix::equals`, src/matrix.cpp:214-227, in a release build. -/
def Store.equalsR [Sub α] [Fp α] (s : Store α) (a b : MId) (err : α) : Exec Bool :=
  if (s.mat a).width ≠ (s.mat b).width then .ok false
  else if (s.mat a).height ≠ (s.mat b).height then .ok false
  else
    forN (s.mat a).height (fun i acc => forN (s.mat a).width (fun j acc =>
      if acc then do
        let x ← s.getR a j i
        let y ← s.getR b j i
        pure (!(Fp.gt (Fp.abs (x - y)) err))
      else .ok false) acc) true

/-- `Matrix::vectorMagnitudeSquared`, src/matrix.cpp:229-238, in a release build. -/
def Store.vectorMagnitudeSquaredR [Zero α] [Add α] [Mul α] (s : Store α) (a : MId) : Exec α :=
  forN (s.mat a).height (fun i v => do
    let x ← (do
      let x ← s.load a 0 i
      let y ← s.load a 0 i
      pure (x * y))
    pure (v + x)) 0

/-- `Matrix::dot`, src/matrix.cpp:240-251, in a release build. -/
def Store.dotR [Zero α] [Add α] [Mul α] (s : Store α) (a b : MId) : Exec α :=
  forN (s.mat a).height (fun i v => do
    let x ← (do
      let x ← s.load a 0 i
      let y ← s.load b 0 i
      pure (x * y))
    pure (v + x)) 0

/-- `Matrix::madd`, src/matrix.cpp:253-262, in a release build. -/
def Store.maddR [Add α] [Mul α] (s : Store α) (a b : MId) (c : α) : Exec (Store α) :=
  s.fill a (s.mat a).height (s.mat a).width (fun s i j => do
    let x ← s.load a i j
    let y ← s.load b i j
    pure (x + y * c))

/-- `Matrix::pmadd`, src/matrix.cpp:264-273, in a release build. -/
def Store.pmaddR [Add α] [Mul α] (s : Store α) (a b : MId) (c : α) : Exec (Store α) :=
  s.fill a (s.mat a).height (s.mat a).width (fun s i j => do
    let x ← s.load a i j
    let y ← s.load b i j
    pure (c * x + y))

/-! ## Operands that are larger than needed -/

section
variable [Zero α] (s : Store α) (a b t : MId)

theorem Store.map2R_spec (op : α → α → α) (hbt : b ≠ t)
    (wfa : (s.mat a).WF) (wfb : (s.mat b).WF) (wft : (s.mat t).WF)
    (hw0 : (s.mat a).width ≤ (s.mat b).width) (hh0 : (s.mat a).height ≤ (s.mat b).height) :
    ∃ s', (do
      let s ← s.resize t (s.mat a).width (s.mat a).height
      s.fill t (s.mat a).height (s.mat a).width (fun s i j => do
        let x ← s.load a i j
        let y ← s.load b i j
        pure (op x y)) : Exec (Store α)) = .ok s' ∧
      Wrote t s s' (s.mat a).width (s.mat a).height
        (fun i j => op ((s.mat a).ent i j) ((s.mat b).ent i j)) := by
  obtain ⟨s1, e1, h1, wf1, hw, hh, hp, hk⟩ :=
    Store.resize_spec2 s t (s.mat a).width (s.mat a).height wft
  have ha := hk a rfl rfl
  have hb := h1.mat b hbt
  obtain ⟨s2, e2, h2, _, hs, he⟩ := Store.fill_spec (h := (s1.mat a).height)
    (w := (s1.mat a).width) wf1 (by rw [ha]; exact hh.symm)
    (by rw [ha]; exact hw.symm)
    (f := fun s i j => do let x ← s.load a i j; let y ← s.load b i j; pure (op x y))
    (g := fun i j => op ((s.mat a).ent i j) ((s.mat b).ent i j)) (by
      intro i hi j hj s' hs'
      rw [hs'.load (x := a) (r := i) (c := j) (by rw [ha]; exact wfa) hi hj (by intros; omega),
        ok_bind, hs'.load_other hbt, Store.load, hb]
      rw [ha] at hi hj
      rw [wfb.load_eq (by omega) (by omega), ok_bind, ha]; rfl)
  refine ⟨s2, by rw [e1, ok_bind, e2], wrote_of_fill h1 wf1 hw hh hp h2 hs ?_⟩
  rw [ha] at he; exact he

theorem Store.componentMultiplyR_eq [Mul α] : s.componentMultiplyR a b t = (do
      let s ← s.resize t (s.mat a).width (s.mat a).height
      s.fill t (s.mat a).height (s.mat a).width (fun s i j => do
        let x ← s.load a i j
        let y ← s.load b i j
        pure (x * y)) : Exec (Store α)) := by
  rw [Store.componentMultiplyR]
  refine congrArg (Bind.bind _) (funext fun s => ?_)
  simp only [Store.fill]
  congr 1
  funext i s
  congr 1
  funext j s
  simp only [Store.getR, Store.setR]
  cases s.load a i j with
  | error e => rfl
  | ok x =>
    simp only [ok_bind]
    cases s.load b i j with
    | error e => rfl
    | ok y => rfl

theorem Store.componentMultiplyR_spec [Mul α] (hbt : b ≠ t)
    (wfa : (s.mat a).WF) (wfb : (s.mat b).WF) (wft : (s.mat t).WF)
    (hw0 : (s.mat a).width ≤ (s.mat b).width) (hh0 : (s.mat a).height ≤ (s.mat b).height) :
    ∃ s', s.componentMultiplyR a b t = .ok s' ∧
      Wrote t s s' (s.mat a).width (s.mat a).height
        (fun i j => (s.mat a).ent i j * (s.mat b).ent i j) := by
  obtain ⟨s', e, h⟩ := s.map2R_spec a b t (fun x y => x * y) hbt wfa wfb wft hw0 hh0
  refine ⟨s', ?_, h⟩
  rw [← e]; exact s.componentMultiplyR_eq a b t

theorem Store.multiplyR_spec [Add α] [Mul α] (hta : a ≠ t) (htb : b ≠ t)
    (wfa : (s.mat a).WF) (wfb : (s.mat b).WF) (wft : (s.mat t).WF)
    (hd : (s.mat a).width ≤ (s.mat b).height) :
    ∃ s', s.multiplyR a b t = .ok s' ∧
      Wrote t s s' (s.mat b).width (s.mat a).height
        (fun i j => sumTo (s.mat a).width (fun k => (s.mat a).ent i k * (s.mat b).ent k j)) := by
  obtain ⟨s1, e1, h1, wf1, hw, hh, hp, _⟩ :=
    Store.resize_spec2 s t (s.mat b).width (s.mat a).height wft
  have ha := h1.mat a hta
  have hb := h1.mat b htb
  obtain ⟨s2, e2, h2, _, hs, he⟩ := Store.fill_spec (h := (s1.mat a).height)
    (w := (s1.mat b).width) wf1 (by rw [ha]; exact hh.symm) (by rw [hb]; exact hw.symm)
    (f := fun s i j => forN (s1.mat a).width (fun ii v => do
      let x ← (do
        let x ← s.load a i ii
        let y ← s.load b ii j
        pure (x * y))
      pure (v + x)) 0)
    (g := fun i j => sumTo (s.mat a).width (fun k => (s.mat a).ent i k * (s.mat b).ent k j)) (by
      intro i hi j hj s' hs'
      rw [ha]
      rw [ha] at hi
      rw [hb] at hj
      refine forN_sum ?_
      intro k hk
      rw [hs'.load_other hta, hs'.load_other htb, Store.load, Store.load, ha, hb,
        wfa.load_eq hi hk, ok_bind, wfb.load_eq (by omega) hj, ok_bind]
      rfl)
  refine ⟨s2, by rw [Store.multiplyR, e1, ok_bind, e2], wrote_of_fill h1 wf1 hw hh hp h2 hs ?_⟩
  rw [ha, hb] at he; exact he

theorem Store.transposeMultiplyR_spec [Add α] [Mul α] (hta : a ≠ t) (htb : b ≠ t)
    (wfa : (s.mat a).WF) (wfb : (s.mat b).WF) (wft : (s.mat t).WF)
    (hd : (s.mat a).height ≤ (s.mat b).height) :
    ∃ s', s.transposeMultiplyR a b t = .ok s' ∧
      Wrote t s s' (s.mat b).width (s.mat a).width
        (fun i j => sumTo (s.mat a).height (fun k => (s.mat a).ent k i * (s.mat b).ent k j)) := by
  obtain ⟨s1, e1, h1, wf1, hw, hh, hp, _⟩ :=
    Store.resize_spec2 s t (s.mat b).width (s.mat a).width wft
  have ha := h1.mat a hta
  have hb := h1.mat b htb
  obtain ⟨s2, e2, h2, _, hs, he⟩ := Store.fill_spec (h := (s1.mat a).width)
    (w := (s1.mat b).width) wf1 (by rw [ha]; exact hh.symm) (by rw [hb]; exact hw.symm)
    (f := fun s i j => forN (s1.mat a).height (fun ii v => do
      let x ← (do
        let x ← s.load a ii i
        let y ← s.load b ii j
        pure (x * y))
      pure (v + x)) 0)
    (g := fun i j => sumTo (s.mat a).height (fun k => (s.mat a).ent k i * (s.mat b).ent k j)) (by
      intro i hi j hj s' hs'
      rw [ha]
      rw [ha] at hi
      rw [hb] at hj
      refine forN_sum ?_
      intro k hk
      rw [hs'.load_other hta, hs'.load_other htb, Store.load, Store.load, ha, hb,
        wfa.load_eq hk hi, ok_bind, wfb.load_eq (by omega) hj, ok_bind]
      rfl)
  refine ⟨s2, by rw [Store.transposeMultiplyR, e1, ok_bind, e2],
    wrote_of_fill h1 wf1 hw hh hp h2 hs ?_⟩
  rw [ha, hb] at he; exact he

/-- The scalings: element `(i, j)` is multiplied with an element of the first column of the scale
matrix. -/
theorem Store.scaleR_spec [Mul α] (sc : MId) (idx : Nat → Nat → Nat) (hts : sc ≠ t)
    (wfa : (s.mat a).WF) (wfs : (s.mat sc).WF) (wft : (s.mat t).WF) (hw0 : 1 ≤ (s.mat sc).width)
    (hh0 : ∀ i j, i < (s.mat a).height → j < (s.mat a).width → idx i j < (s.mat sc).height) :
    ∃ s', (do
      let s ← s.resize t (s.mat a).width (s.mat a).height
      s.fill t (s.mat a).height (s.mat a).width (fun s i j => do
        let x ← s.load sc (idx i j) 0
        let y ← s.load a i j
        pure (x * y)) : Exec (Store α)) = .ok s' ∧
      Wrote t s s' (s.mat a).width (s.mat a).height
        (fun i j => (s.mat sc).ent (idx i j) 0 * (s.mat a).ent i j) := by
  obtain ⟨s1, e1, h1, wf1, hw, hh, hp, hk⟩ :=
    Store.resize_spec2 s t (s.mat a).width (s.mat a).height wft
  have ha := hk a rfl rfl
  have hb := h1.mat sc hts
  obtain ⟨s2, e2, h2, _, hs, he⟩ := Store.fill_spec (h := (s1.mat a).height)
    (w := (s1.mat a).width) wf1 (by rw [ha]; exact hh.symm) (by rw [ha]; exact hw.symm)
    (f := fun s i j => do let x ← s.load sc (idx i j) 0; let y ← s.load a i j; pure (x * y))
    (g := fun i j => (s.mat sc).ent (idx i j) 0 * (s.mat a).ent i j) (by
      intro i hi j hj s' hs'
      rw [hs'.load_other hts, Store.load, hb, wfs.load_eq (hh0 i j (by rw [← ha]; exact hi)
          (by rw [← ha]; exact hj)) (by omega),
        ok_bind, hs'.load (x := a) (r := i) (c := j) (by rw [ha]; exact wfa) hi hj
        (by intros; omega), ok_bind, ha]
      rfl)
  refine ⟨s2, by rw [e1, ok_bind, e2], wrote_of_fill h1 wf1 hw hh hp h2 hs ?_⟩
  rw [ha] at he; exact he

theorem Store.upd2R_spec (op : α → α → α) (hba : b ≠ a) (wfa : (s.mat a).WF) (wfb : (s.mat b).WF)
    (hw0 : (s.mat a).width ≤ (s.mat b).width) (hh0 : (s.mat a).height ≤ (s.mat b).height) :
    ∃ s', s.fill a (s.mat a).height (s.mat a).width (fun s i j => do
        let x ← s.load a i j
        let y ← s.load b i j
        pure (op x y)) = .ok s' ∧
      Wrote a s s' (s.mat a).width (s.mat a).height
        (fun i j => op ((s.mat a).ent i j) ((s.mat b).ent i j)) := by
  obtain ⟨s2, e2, h2, _, hs, he⟩ := Store.fill_spec (h := (s.mat a).height)
    (w := (s.mat a).width) wfa rfl rfl
    (f := fun s i j => do let x ← s.load a i j; let y ← s.load b i j; pure (op x y))
    (g := fun i j => op ((s.mat a).ent i j) ((s.mat b).ent i j)) (by
      intro i hi j hj s' hs'
      rw [hs'.load (x := a) (r := i) (c := j) wfa hi hj (by intros; omega),
        ok_bind, hs'.load_other hba, Store.load, wfb.load_eq (by omega) (by omega), ok_bind]; rfl)
  exact ⟨s2, e2, wrote_of_fill (Only.refl _ _) wfa rfl rfl id h2 hs he⟩

end

/-! ## Positions beyond the right edge -/

/-- In a matrix whose rows are in order, `m_matrix[r][c]` and `m_matrix[r'][c']` are the same memory if
the row-major positions agree. -/
theorem Mat.Plain.wrap {m : Mat α} (p : m.Plain) (wf : m.WF) {r c r' c' : Nat} (hr : r < m.height)
    (hr' : r' < m.height) (e : r * m.width + c = r' * m.width + c') :
    m.load r c = m.load r' c' ∧ ∀ v, m.store r c v = m.store r' c' v := by
  rcases wf with ⟨_, _, _, h, _⟩ | ⟨rb, db, hb, hd, hrs, hds, hwc, hhc, -⟩
  · omega
  · constructor
    · simp only [Mat.load, hb, hd, deref, ok_bind, Buf.rd_ok rb (show r < rb.size by omega),
        Buf.rd_ok rb (show r' < rb.size by omega), p rb hb r hr, p rb hb r' hr', initd, e]
    · intro v
      simp only [Mat.store, hb, hd, deref, ok_bind, Buf.rd_ok rb (show r < rb.size by omega),
        Buf.rd_ok rb (show r' < rb.size by omega), p rb hb r hr, p rb hb r' hr', initd, e]

/-! ## Operands that are smaller than needed -/

/-- Reading an element is undefined or the row is one the matrix has memory for. -/
theorem Mat.load_wp (m : Mat α) (wf : m.WF) (r c : Nat) :
    Wp (m.load r c) (fun _ => r < m.capH ∧ c < m.capW * m.capH) Err.IsUB := by
  rcases wf with ⟨h, _⟩ | ⟨rb, db, hb, hd, hrs, hds, -⟩
  · simp only [Mat.load, h, deref]; trivial
  · simp only [Mat.load, hb, hd, deref, ok_bind, Buf.rd]
    split
    · rename_i hr
      rw [ok_bind]
      cases rb.val r with
      | none => trivial
      | some o =>
        simp only [initd, ok_bind]
        split
        · exact ⟨by omega, by omega⟩
        · trivial
    · trivial

theorem Mat.load_any (m : Mat α) (r c : Nat) : Wp (m.load r c) (fun _ => True) Err.IsUB := by
  simp only [Mat.load]
  cases m.rows with
  | none => trivial
  | some rb =>
    simp only [deref, ok_bind, Buf.rd]
    split
    · rw [ok_bind]
      cases rb.val r with
      | none => trivial
      | some o =>
        simp only [initd, ok_bind]
        cases m.data with
        | none => trivial
        | some db =>
          simp only [ok_bind]
          split <;> trivial
    · trivial

theorem Mat.store_wp (m : Mat α) (r c : Nat) (v : α) :
    Wp (m.store r c v) (fun _ => True) Err.IsUB := by
  simp only [Mat.store]
  cases m.rows with
  | none => trivial
  | some rb =>
    simp only [deref, ok_bind, Buf.rd]
    split
    · rw [ok_bind]
      cases rb.val r with
      | none => trivial
      | some o =>
        simp only [initd, ok_bind]
        cases m.data with
        | none => trivial
        | some db =>
          simp only [ok_bind, Buf.wr]
          split <;> trivial
    · trivial

theorem Store.store_wp (s : Store α) (t : MId) (r c : Nat) (v : α) :
    Wp (s.store t r c v) (fun s' => ∀ x, x ≠ t → s'.mat x = s.mat x) Err.IsUB := by
  rw [Store.store, wp_bind]
  exact ((s.mat t).store_wp r c v).imp fun m _ x hx => upd_other _ _ hx

/-- If a loop nest over the elements of `t` returns, the expression could be evaluated everywhere. -/
theorem Store.fill_wp {s : Store α} {t : MId} {h w : Nat} {f : Store α → Nat → Nat → Exec α}
    {P : Nat → Nat → Prop}
    (hf : ∀ s', (∀ x, x ≠ t → s'.mat x = s.mat x) → ∀ i, i < h → ∀ j, j < w →
      Wp (f s' i j) (fun _ => P i j) Err.IsUB) :
    Wp (s.fill t h w f) (fun _ => ∀ i, i < h → ∀ j, j < w → P i j) Err.IsUB := by
  refine wp_forN' (I := fun k s' => (∀ x, x ≠ t → s'.mat x = s.mat x) ∧
    ∀ i, i < k → ∀ j, j < w → P i j) ⟨fun _ _ => rfl, fun _ hi => by omega⟩ ?_ (fun _ hI => hI.2)
  intro i hi s1 ⟨h1, p1⟩
  refine wp_forN' (I := fun k s' => (∀ x, x ≠ t → s'.mat x = s.mat x) ∧ ∀ j, j < k → P i j)
    ⟨h1, fun _ hj => by omega⟩ ?_ ?_
  · intro j hj s2 ⟨h2, p2⟩
    rw [wp_bind]
    refine (hf s2 h2 i hi j hj).imp fun v hv => (s2.store_wp t i j v).imp fun s3 h3 =>
      ⟨fun x hx => (h3 x hx).trans (h2 x hx), fun j' hj' => ?_⟩
    rcases Nat.lt_succ_iff_lt_or_eq.mp hj' with h | rfl
    · exact p2 j' h
    · exact hv
  · intro s2 ⟨h2, p2⟩
    refine ⟨h2, fun i' hi' j hj => ?_⟩
    rcases Nat.lt_succ_iff_lt_or_eq.mp hi' with h | rfl
    · exact p1 i' h j hj
    · exact p2 j hj

/-- A call that cannot return and meets no assert. -/
theorem undefined_of_wp {σ : Type} {x : Exec σ} (h : Wp x (fun _ => False) Err.IsUB) :
    ∃ e, x = .error e ∧ e.IsUB := by
  cases x with
  | ok a => exact h.elim
  | error e => exact ⟨e, rfl, h⟩

section
variable (s : Store α) (a b t : MId)

theorem Store.map2R_short (op : α → α → α) (hbt : b ≠ t) (wfb : (s.mat b).WF)
    (wft : (s.mat t).WF) (hw0 : 0 < (s.mat a).width) (hh0 : (s.mat b).capH < (s.mat a).height) :
    ∃ e, (do
      let s ← s.resize t (s.mat a).width (s.mat a).height
      s.fill t (s.mat a).height (s.mat a).width (fun s i j => do
        let x ← s.load a i j
        let y ← s.load b i j
        pure (op x y)) : Exec (Store α)) = .error e ∧ e.IsUB := by
  obtain ⟨s1, e1, h1, wf1, hw, hh, -, hk⟩ :=
    Store.resize_spec2 s t (s.mat a).width (s.mat a).height wft
  have ha := hk a rfl rfl
  rw [e1, ok_bind]
  refine undefined_of_wp ((Store.fill_wp (P := fun i _ => i < (s.mat b).capH) ?_).imp fun _ hP => ?_)
  · intro s' hs' i hi j hj
    rw [wp_bind]
    refine ((s'.mat a).load_any i j).imp fun x _ => ?_
    rw [wp_bind, Store.load, hs' b hbt, h1.mat b hbt]
    exact ((s.mat b).load_wp wfb i j).imp fun y hy => hy.1
  · have := hP (s.mat b).capH (by rw [ha]; exact hh0) 0 (by rw [ha]; exact hw0)
    omega

theorem Store.upd2R_short (op : α → α → α) (hba : b ≠ a) (wfb : (s.mat b).WF)
    (hw0 : 0 < (s.mat a).width) (hh0 : (s.mat b).capH < (s.mat a).height) :
    ∃ e, s.fill a (s.mat a).height (s.mat a).width (fun s i j => do
        let x ← s.load a i j
        let y ← s.load b i j
        pure (op x y)) = .error e ∧ e.IsUB := by
  refine undefined_of_wp ((Store.fill_wp (P := fun i _ => i < (s.mat b).capH) ?_).imp fun _ hP => ?_)
  · intro s' hs' i hi j hj
    rw [wp_bind]
    refine ((s'.mat a).load_any i j).imp fun x _ => ?_
    rw [wp_bind, Store.load, hs' b hba]
    exact ((s.mat b).load_wp wfb i j).imp fun y hy => hy.1
  · have := hP (s.mat b).capH hh0 0 hw0
    omega

theorem Store.scaleR_short [Mul α] (sc : MId) (idx : Nat → Nat → Nat) (hts : sc ≠ t)
    (wfs : (s.mat sc).WF) (wft : (s.mat t).WF) {i j : Nat} (hi : i < (s.mat a).height)
    (hj : j < (s.mat a).width) (hh0 : (s.mat sc).capH ≤ idx i j) :
    ∃ e, (do
      let s ← s.resize t (s.mat a).width (s.mat a).height
      s.fill t (s.mat a).height (s.mat a).width (fun s i j => do
        let x ← s.load sc (idx i j) 0
        let y ← s.load a i j
        pure (x * y)) : Exec (Store α)) = .error e ∧ e.IsUB := by
  obtain ⟨s1, e1, h1, wf1, hw, hh, -, hk⟩ :=
    Store.resize_spec2 s t (s.mat a).width (s.mat a).height wft
  have ha := hk a rfl rfl
  rw [e1, ok_bind]
  refine undefined_of_wp ((Store.fill_wp (P := fun i j => idx i j < (s.mat sc).capH) ?_).imp
    fun _ hP => ?_)
  · intro s' hs' i hi j hj
    rw [wp_bind, Store.load, hs' sc hts, h1.mat sc hts]
    refine ((s.mat sc).load_wp wfs _ _).imp fun x hx => ?_
    rw [wp_bind]
    exact ((s'.mat a).load_any i j).imp fun y _ => hx.1
  · have := hP i (by rw [ha]; exact hi) j (by rw [ha]; exact hj)
    omega

/-- The products: an element of `b` in a row it has no memory for is needed. -/
theorem Store.productR_short [Zero α] [Add α] [Mul α] (hbt : b ≠ t) (wfb : (s.mat b).WF)
    (h w n : Nat) (pr pc : Nat → Nat → Nat) (hh : 0 < h) (hw : 0 < w) (hn : (s.mat b).capH < n) :
    ∃ e, s.fill t h w (fun s i j => forN n (fun ii v => do
        let x ← (do
          let x ← s.load a (pr i ii) (pc i ii)
          let y ← s.load b ii j
          pure (x * y))
        pure (v + x)) 0) = .error e ∧ e.IsUB := by
  refine undefined_of_wp ((Store.fill_wp (P := fun _ _ => False) ?_).imp fun _ hP => hP 0 hh 0 hw)
  intro s' hs' i hi j hj
  refine wp_forN' (I := fun k _ => k ≤ (s.mat b).capH) (Nat.zero_le _) ?_ (fun _ hI => by omega)
  intro k hk v hI
  rw [wp_bind, wp_bind]
  refine ((s'.mat a).load_any _ _).imp fun x _ => ?_
  rw [wp_bind, Store.load, hs' b hbt]
  exact ((s.mat b).load_wp wfb k j).imp fun y hy => hy.1

theorem Store.dotR_short [Zero α] [Add α] [Mul α] (wfb : (s.mat b).WF)
    (hn : (s.mat b).capW * (s.mat b).capH < (s.mat a).height) :
    ∃ e, s.dotR a b = .error e ∧ e.IsUB := by
  refine undefined_of_wp (wp_forN' (I := fun k _ => k ≤ (s.mat b).capW * (s.mat b).capH)
    (Nat.zero_le _) ?_ (fun _ hI => by omega))
  intro k hk v hI
  rw [wp_bind, wp_bind]
  refine ((s.mat a).load_any _ _).imp fun x _ => ?_
  rw [wp_bind]
  exact ((s.mat b).load_wp wfb 0 k).imp fun y hy => hy.2

end

end

end Scs
