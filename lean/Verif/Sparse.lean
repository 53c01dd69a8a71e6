import Verif.Matrix

/-!
# Model of `include/sparse_matrix.h`

`st` is `T_Stride` and `en` is `T_Entries`. The library uses `SparseMatrix<3>`, that is `st = 3`,
`en = 2`. (`leftScale` and `rightScale` take a `SparseMatrix<T_Stride>` target, i.e. one with two
entries; the model uses the same `en` for the target, which agrees with the code for `en = 2`.)
-/

namespace Scs

section
variable {α : Type}

/-- `SparseMatrix::SparseMatrix()`, include/sparse_matrix.h:17-23. -/
def SMat.empty : SMat α := ⟨none, none, none, 0, 0, 0⟩

/-- Replace the sparse matrix object `t`. -/
def Store.setSMat (s : Store α) (t : SId) (m : SMat α) : Store α :=
  { s with smat := upd s.smat t m }

/-- Reading `m_matrix[r][c]`. -/
def SMat.load (m : SMat α) (r c : Nat) : Exec α := do
  let rb ← deref m.rows
  let p ← rb.rd r
  let off ← initd p
  let db ← deref m.data
  db.rd (off + c)

/-- Writing `m_matrix[r][c] = v`. -/
def SMat.store (m : SMat α) (r c : Nat) (v : α) : Exec (SMat α) := do
  let rb ← deref m.rows
  let p ← rb.rd r
  let off ← initd p
  let db ← deref m.data
  let db ← db.wr (off + c) v
  pure { m with data := some db }

/-- Reading `m_blockData[i]`. -/
def SMat.block (m : SMat α) (i : Nat) : Exec Nat := do
  let bb ← deref m.blocks
  bb.rd i

/-- Writing `m_blockData[i] = b`. -/
def SMat.putBlock (m : SMat α) (i : Nat) (b : Nat) : Exec (SMat α) := do
  let bb ← deref m.blocks
  let bb ← bb.wr i b
  pure { m with blocks := some bb }

/-- `SparseMatrix::destroy`, include/sparse_matrix.h:58-72. `m_capacityHeight` is not reset. -/
def SMat.destroy (m : SMat α) : SMat α :=
  match m.rows with
  | none => m
  | some _ => { m with rows := none, data := none, blocks := none, width := 0, height := 0 }

/-- `SparseMatrix::destroy` on the object `t`. -/
def Store.sdestroy (s : Store α) (t : SId) : Exec (Store α) :=
  .ok (s.setSMat t (s.smat t).destroy)

/-- `SparseMatrix::~SparseMatrix`, include/sparse_matrix.h:25-29. -/
def Store.sdtor (s : Store α) (t : SId) : Exec PUnit := do
  chk ((s.smat t).rows.isNone = true) "sparse_matrix.h:26"
  chk ((s.smat t).data.isNone = true) "sparse_matrix.h:27"
  chk ((s.smat t).blocks.isNone = true) "sparse_matrix.h:28"

/-- The row table loop of `resize`, include/sparse_matrix.h:53-55. -/
def SMat.layout (st en : Nat) (m : SMat α) (h : Nat) : Exec (SMat α) :=
  forN h (fun i m => do
    let rb ← deref m.rows
    let _ ← deref m.data
    let rb ← rb.wr i (some (i * en * st))
    pure { m with rows := some rb }) m

/-- `SparseMatrix::resize`, include/sparse_matrix.h:36-56. -/
def Store.sresize (st en : Nat) (s : Store α) (t : SId) (w h : Nat) : Exec (Store α) :=
  let m := s.smat t
  if w = m.width ∧ h = m.height then .ok s
  else do
    let (m, tick) :=
      if m.capH < h then
        let m := m.destroy
        let ch := if m.capH < h then h else m.capH
        ({ m with capH := ch, data := some ⟨st * en * ch, s.junk s.tick⟩,
                  rows := some ⟨ch, fun _ => none⟩,
                  blocks := some ⟨ch * en, s.junkB s.tick⟩ }, s.tick + 1)
      else (m, s.tick)
    let m ← SMat.layout st en { m with width := w, height := h } h
    pure { s.setSMat t m with tick := tick }

/-- `SparseMatrix::initialize`, include/sparse_matrix.h:31-34: `memset` of all block indices to
`0xFF`; `m_data` keeps whatever it contained. -/
def Store.sinit (st en : Nat) (s : Store α) (t : SId) (w h : Nat) : Exec (Store α) := do
  let s ← s.sresize st en t w h
  let m ← forN (en * (s.smat t).height) (fun i m => m.putBlock i 255) (s.smat t)
  pure (s.setSMat t m)

/-- `SparseMatrix::setBlock`, include/sparse_matrix.h:106-112. The parameter is a `uint8_t`: an
`int` argument is reduced modulo 256. -/
def Store.setBlock (en : Nat) (s : Store α) (t : SId) (row entry : Nat) (index : Int) :
    Exec (Store α) := do
  let index := (index % 256).toNat
  chk (row < (s.smat t).height) "sparse_matrix.h:107"
  chk (entry < en) "sparse_matrix.h:108"
  chk (index < (s.smat t).width) "sparse_matrix.h:109"
  let m ← (s.smat t).putBlock (row * en + entry) index
  pure (s.setSMat t m)

/-- `SparseMatrix::set`, include/sparse_matrix.h:114-120. -/
def Store.sset (st en : Nat) (s : Store α) (t : SId) (row entry slice : Nat) (v : α) :
    Exec (Store α) := do
  chk (row < (s.smat t).height) "sparse_matrix.h:115"
  chk (entry < en) "sparse_matrix.h:116"
  chk (slice < st) "sparse_matrix.h:117"
  let m ← (s.smat t).store row (entry * st + slice) v
  pure (s.setSMat t m)

/-- `SparseMatrix::get`, include/sparse_matrix.h:122-128. -/
def Store.sget (st en : Nat) (s : Store α) (t : SId) (row entry slice : Nat) : Exec α := do
  chk (row < (s.smat t).height) "sparse_matrix.h:123"
  chk (entry < en) "sparse_matrix.h:124"
  chk (slice < st) "sparse_matrix.h:125"
  (s.smat t).load row (entry * st + slice)

/-- `SparseMatrix::setEmpty`, include/sparse_matrix.h:130-138. -/
def Store.setEmpty [Zero α] (st en : Nat) (s : Store α) (t : SId) (row col : Nat) :
    Exec (Store α) := do
  chk (row < (s.smat t).height) "sparse_matrix.h:131"
  chk (col < en) "sparse_matrix.h:132"
  let m ← (s.smat t).putBlock (row * en + col) 255
  let m ← forN st (fun i m => m.store row (col * st + i) 0) m
  pure (s.setSMat t m)

/-- `SparseMatrix::expand`, include/sparse_matrix.h:74-88. -/
def Store.expand [Zero α] (st en : Nat) (s : Store α) (a : SId) (t : MId) : Exec (Store α) := do
  let s ← s.init0 t (s.smat a).width (s.smat a).height
  let m := s.smat a
  forN m.height (fun i s => forN en (fun j s => do
    let block ← m.block (i * en + j)
    if block = 255 then .ok s
    else forN st (fun k s => do
      let v ← m.load i (j * st + k)
      s.set t (block * st + k) i v) s) s) s

/-- `SparseMatrix::expandTransposed`, include/sparse_matrix.h:90-104. -/
def Store.expandTransposed [Zero α] (st en : Nat) (s : Store α) (a : SId) (t : MId) :
    Exec (Store α) := do
  let s ← s.init0 t (s.smat a).height (s.smat a).width
  let m := s.smat a
  forN m.height (fun i s => forN en (fun j s => do
    let block ← m.block (i * en + j)
    if block = 255 then .ok s
    else forN st (fun k s => do
      let v ← m.load i (j * st + k)
      s.set t i (block * st + k) v) s) s) s

/-- The inner product of a row of `a` with a row of `b`, include/sparse_matrix.h:147-162. -/
def SMat.rowDot [Zero α] [Add α] [Mul α] (st en : Nat) (a b : SMat α) (i j : Nat) : Exec α :=
  forN en (fun k dot => do
    let block0 ← a.block (i * en + k)
    if block0 = 255 then .ok dot
    else forN en (fun l dot => do
      let block1 ← b.block (j * en + l)
      if block0 = block1 then
        forN st (fun m dot => do
          let x ← a.load i (k * st + m)
          let y ← b.load j (l * st + m)
          pure (dot + x * y)) dot
      else .ok dot) dot) 0

/-- `SparseMatrix::multiplyTranspose`, include/sparse_matrix.h:140-167. -/
def Store.multiplyTranspose [Zero α] [Add α] [Mul α] (st en : Nat) (s : Store α) (a b : SId)
    (t : MId) : Exec (Store α) := do
  chk ((s.smat a).width = (s.smat b).width) "sparse_matrix.h:141"
  let s ← s.init0 t (s.smat b).height (s.smat a).height
  let ma := s.smat a
  let mb := s.smat b
  forN ma.height (fun i s => forN mb.height (fun j s => do
    let v ← SMat.rowDot st en ma mb i j
    s.set t j i v) s) s

/-- `SparseMatrix::transposeMultiplyVector`, include/sparse_matrix.h:169-191. -/
def Store.transposeMultiplyVector [Zero α] [Add α] [Mul α] (st en : Nat) (s : Store α) (a : SId)
    (b t : MId) : Exec (Store α) := do
  chk ((s.mat b).width = 1) "sparse_matrix.h:173"
  chk ((s.smat a).height = (s.mat b).height) "sparse_matrix.h:174"
  let s ← s.init0 t 1 (s.smat a).width
  let m := s.smat a
  forN m.height (fun i s => forN en (fun k s => do
    let block ← m.block (i * en + k)
    if block = 255 then .ok s
    else forN st (fun l s => do
      let x ← m.load i (k * st + l)
      let y ← s.get b 0 i
      s.addAt t 0 (block * st + l) (x * y)) s) s) s

/-- `SparseMatrix::multiply`, include/sparse_matrix.h:193-217. -/
def Store.smultiply [Zero α] [Add α] [Mul α] (st en : Nat) (s : Store α) (a : SId) (b t : MId) :
    Exec (Store α) := do
  let bw := (s.mat b).width
  chk ((s.smat a).width = (s.mat b).height) "sparse_matrix.h:197"
  let s ← s.init0 t (s.mat b).width (s.smat a).height
  let m := s.smat a
  forN m.height (fun i s => forN bw (fun j s => do
    let v ← forN en (fun k v => do
      let block ← m.block (i * en + k)
      if block = 255 then .ok v
      else forN st (fun l v => do
        let x ← m.load i (k * st + l)
        let y ← s.get b j (block * st + l)
        pure (v + x * y)) v) 0
    s.set t j i v) s) s

/-- `SparseMatrix::rightScale`, include/sparse_matrix.h:219-241. The source is read from the
current store: it may be the target. -/
def Store.srightScale [Mul α] (st en : Nat) (s : Store α) (a : SId) (sc : MId) (t : SId) :
    Exec (Store α) := do
  chk ((s.mat sc).width = 1) "sparse_matrix.h:220"
  chk ((s.mat sc).height = (s.smat a).width) "sparse_matrix.h:221"
  let s ← s.sinit st en t (s.smat a).width (s.smat a).height
  forN (s.smat a).height (fun i s => forN en (fun j s => do
    let index ← (s.smat a).block (i * en + j)
    if index = 255 then .ok s
    else do
      let s ← s.setBlock en t i j index
      forN st (fun k s => do
        let x ← s.get sc 0 (index * st + k)
        let y ← (s.smat a).load i (j * st + k)
        s.sset st en t i j k (x * y)) s) s) s

/-- `SparseMatrix::leftScale`, include/sparse_matrix.h:243-265. -/
def Store.sleftScale [Mul α] (st en : Nat) (s : Store α) (a : SId) (sc : MId) (t : SId) :
    Exec (Store α) := do
  chk ((s.mat sc).width = 1 ∨ (s.smat a).height = 0) "sparse_matrix.h:244"
  chk ((s.mat sc).height = (s.smat a).height) "sparse_matrix.h:245"
  let s ← s.sinit st en t (s.smat a).width (s.smat a).height
  forN (s.smat a).height (fun i s => forN en (fun j s => do
    let index ← (s.smat a).block (i * en + j)
    if index = 255 then .ok s
    else do
      let s ← s.setBlock en t i j index
      forN st (fun k s => do
        let x ← s.get sc 0 i
        let y ← (s.smat a).load i (j * st + k)
        s.sset st en t i j k (x * y)) s) s) s

end

end Scs
