import Verif.Scalar

/-!
# Model of `include/matrix.h` and `src/matrix.cpp`
-/

namespace Scs

/-- `class Matrix`, include/matrix.h:70-77. `m_matrix` (`rows`) is an array of pointers into
`m_data` (`data`); a pointer is an offset, `none` when uninitialised. Dimensions are natural
numbers: negative `int` arguments and `int` overflow are not modelled. -/
structure Mat (α : Type) where
  rows : Option (Buf (Option Nat))
  data : Option (Buf α)
  width : Nat
  height : Nat
  capW : Nat
  capH : Nat

/-- `Matrix::Matrix()`, src/matrix.cpp:6-11. -/
def Mat.empty {α : Type} : Mat α := ⟨none, none, 0, 0, 0, 0⟩

/-- Reading `m_matrix[r][c]`. -/
def Mat.load {α : Type} (m : Mat α) (r c : Nat) : Exec α := do
  let rb ← deref m.rows
  let p ← rb.rd r
  let off ← initd p
  let db ← deref m.data
  db.rd (off + c)

/-- Writing `m_matrix[r][c] = v`. -/
def Mat.store {α : Type} (m : Mat α) (r c : Nat) (v : α) : Exec (Mat α) := do
  let rb ← deref m.rows
  let p ← rb.rd r
  let off ← initd p
  let db ← deref m.data
  let db ← db.wr (off + c) v
  pure { m with data := some db }

/-- Identities of the `Matrix` objects: any number of user matrices, the scratch members of the
solvers (include/gauss_seidel_sle_solver.h, include/gaussian_elimination_sle_solver.h,
include/conjugate_gradient_sle_solver.h) and the members of the rigid body systems
(include/generic_rigid_body_system.h, include/optimized_nsv_rigid_body_system.h). -/
inductive MId where
  | user (n : Nat)
  | gsM
  | geA
  | geM
  | cgReg0
  | cgReg1
  | cgAp
  | cgX
  | cgR
  | cgP
  | cgA
  | ivM
  | ivMinv
  | ivC
  | ivKs
  | ivKd
  | ivBErr
  | ivVBias
  | ivLimits
  | ivQdot
  | ivQdotPrime
  | ivReg0
  | ivReg1
  | ivReg2
  | ivRight
  | ivFExt
  | ivFC
  | ivR
  | ivLambda
  | ivJT
  deriving DecidableEq, Repr

/-- Identities of the `SparseMatrix` objects. -/
inductive SId where
  | user (n : Nat)
  | gsReg
  | geReg
  | ivJ
  | ivJdot
  | ivSreg0
  deriving DecidableEq, Repr

/-- `class SparseMatrix`, include/sparse_matrix.h:270-277. Block indices are natural numbers; the
8-bit truncation is applied where they are stored. -/
structure SMat (α : Type) where
  rows : Option (Buf (Option Nat))
  data : Option (Buf α)
  blocks : Option (Buf Nat)
  width : Nat
  height : Nat
  capH : Nat

/-- All matrix objects. `junk k` is what the `k`-th fresh `new double[]` happens to contain,
`junkB k` what the `k`-th fresh `new uint8_t[]` contains; `tick` counts allocations. -/
structure Store (α : Type) where
  mat : MId → Mat α
  smat : SId → SMat α
  junk : Nat → Nat → α
  junkB : Nat → Nat → Nat
  tick : Nat

section
variable {α : Type}

/-- Replace the matrix object `t`. -/
def Store.setMat (s : Store α) (t : MId) (m : Mat α) : Store α := { s with mat := upd s.mat t m }

/-- `a.m_matrix[r][c]` (unchecked C++ access: only memory validity is checked). -/
def Store.load (s : Store α) (a : MId) (r c : Nat) : Exec α := (s.mat a).load r c

/-- `t.m_matrix[r][c] = v`. -/
def Store.store (s : Store α) (t : MId) (r c : Nat) (v : α) : Exec (Store α) := do
  let m ← (s.mat t).store r c v
  pure (s.setMat t m)

/-- `Matrix::get(column, row)`, include/matrix.h:35-40. -/
def Store.get (s : Store α) (a : MId) (c r : Nat) : Exec α := do
  chk (c < (s.mat a).width) "matrix.h:36"
  chk (r < (s.mat a).height) "matrix.h:37"
  s.load a r c

/-- `Matrix::set(column, row, value)`, include/matrix.h:21-26. -/
def Store.set (s : Store α) (t : MId) (c r : Nat) (v : α) : Exec (Store α) := do
  chk (c < (s.mat t).width) "matrix.h:22"
  chk (r < (s.mat t).height) "matrix.h:23"
  s.store t r c v

/-- `Matrix::add(column, row, value)`, include/matrix.h:28-33. -/
def Store.addAt [Add α] (s : Store α) (t : MId) (c r : Nat) (v : α) : Exec (Store α) := do
  chk (c < (s.mat t).width) "matrix.h:29"
  chk (r < (s.mat t).height) "matrix.h:30"
  let x ← s.load t r c
  s.store t r c (x + v)

/-- `Matrix::fastRowSwap`, include/matrix.h:64-68. There is no assert in the code. -/
def Store.rowSwap (s : Store α) (t : MId) (a b : Nat) : Exec (Store α) := do
  let rb ← deref (s.mat t).rows
  let pa ← rb.rd a
  let pb ← rb.rd b
  let rb ← rb.wr a pb
  let rb ← rb.wr b pa
  pure (s.setMat t { s.mat t with rows := some rb })

/-- `Matrix::destroy`, src/matrix.cpp:66-79. -/
def Mat.destroy (m : Mat α) : Mat α :=
  match m.rows with
  | none => m
  | some _ => { rows := none, data := none, width := 0, height := 0, capW := 0, capH := 0 }

/-- `Matrix::destroy` on the object `t`. -/
def Store.destroy (s : Store α) (t : MId) : Exec (Store α) := .ok (s.setMat t (s.mat t).destroy)

/-- `Matrix::~Matrix`, src/matrix.cpp:22-24. -/
def Store.dtor (s : Store α) (t : MId) : Exec PUnit :=
  chk ((s.mat t).rows.isNone = true) "matrix.cpp:23"

/-- The row table loop of `resize`, src/matrix.cpp:61-63: `m_matrix[i] = &m_data[i * width]`. -/
def Mat.layout (m : Mat α) (h w : Nat) : Exec (Mat α) :=
  forN h (fun i m => do
    let rb ← deref m.rows
    let _ ← deref m.data
    let rb ← rb.wr i (some (i * w))
    pure { m with rows := some rb }) m

/-- `Matrix::resize`, src/matrix.cpp:41-64. The fresh row table is uninitialised, the fresh
`m_data` holds `junk`. -/
def Store.resize (s : Store α) (t : MId) (w h : Nat) : Exec (Store α) :=
  let m := s.mat t
  if w = m.width ∧ h = m.height then .ok s
  else do
    let (m, tick) :=
      if m.capW < w ∨ m.capH < h then
        let m := m.destroy
        let cw := if m.capW < w then w else m.capW
        let ch := if m.capH < h then h else m.capH
        ({ m with capW := cw, capH := ch, data := some ⟨cw * ch, s.junk s.tick⟩,
                  rows := some ⟨ch, fun _ => none⟩ }, s.tick + 1)
      else (m, s.tick)
    let m ← Mat.layout { m with width := w, height := h } h w
    pure { s.setMat t m with tick := tick }

/-- `for (i < h) for (j < w) target->m_matrix[i][j] = f(i, j)`: the loop nest shared by the
elementwise functions of src/matrix.cpp. `f` reads the current store, so aliasing of operands with
the target is represented. -/
def Store.fill (s : Store α) (t : MId) (h w : Nat) (f : Store α → Nat → Nat → Exec α) :
    Exec (Store α) :=
  forN h (fun i s => forN w (fun j s => do
    let v ← f s i j
    s.store t i j v) s) s

/-- `Matrix::initialize(width, height, value)`, src/matrix.cpp:26-34. -/
def Store.init (s : Store α) (t : MId) (w h : Nat) (v : α) : Exec (Store α) := do
  let s ← s.resize t w h
  s.fill t h w (fun _ _ _ => .ok v)

/-- `memset(m_data, 0, sizeof(double) * n)`. `memset(nullptr, 0, 0)` is treated as a no-op. -/
def Mat.zeroData [Zero α] (m : Mat α) (n : Nat) : Exec (Mat α) :=
  forN n (fun i m => do
    let db ← deref m.data
    let db ← db.wr i 0
    pure { m with data := some db }) m

/-- `Matrix::initialize(width, height)`, src/matrix.cpp:36-39. -/
def Store.init0 [Zero α] (s : Store α) (t : MId) (w h : Nat) : Exec (Store α) := do
  let s ← s.resize t w h
  let m ← (s.mat t).zeroData (w * h)
  pure (s.setMat t m)

/-- `Matrix::set(const double *data)`, src/matrix.cpp:81-83: `memcpy` of `m_width * m_height`
doubles from a caller's array. -/
def Store.setData (s : Store α) (t : MId) (src : Buf α) : Exec (Store α) := do
  let m := s.mat t
  let m ← forN (m.width * m.height) (fun i m => do
    let v ← src.rd i
    let db ← deref m.data
    let db ← db.wr i v
    pure { m with data := some db }) m
  pure (s.setMat t m)

/-- `Matrix::set(Matrix *reference)`, src/matrix.cpp:85-93. -/
def Store.setMatFrom (s : Store α) (t ref : MId) : Exec (Store α) := do
  let s ← s.resize t (s.mat ref).width (s.mat ref).height
  s.fill t (s.mat ref).height (s.mat ref).width (fun s i j => s.load ref i j)

/-- `Matrix::multiply`, src/matrix.cpp:95-110. The loop bounds `m_height`, `b.m_width`, `m_width`
are read after the target has been resized (they differ from the initial ones when the target is
an operand); the loops do not change them. -/
def Store.multiply [Zero α] [Add α] [Mul α] (s : Store α) (a b t : MId) : Exec (Store α) := do
  chk ((s.mat a).width = (s.mat b).height) "matrix.cpp:96"
  let s ← s.resize t (s.mat b).width (s.mat a).height
  let n := (s.mat a).width
  s.fill t (s.mat a).height (s.mat b).width (fun s i j =>
    forN n (fun ii v => do
      let x ← (do
        let x ← s.load a i ii
        let y ← s.load b ii j
        pure (x * y))
      pure (v + x)) 0)

/-- `Matrix::componentMultiply`, src/matrix.cpp:112-123. -/
def Store.componentMultiply [Mul α] (s : Store α) (a b t : MId) : Exec (Store α) := do
  chk ((s.mat a).height = (s.mat b).height) "matrix.cpp:113"
  chk ((s.mat a).width = (s.mat b).width) "matrix.cpp:114"
  let s ← s.resize t (s.mat a).width (s.mat a).height
  let n := (s.mat a).width
  forN (s.mat a).height (fun i s => forN n (fun j s => do
    let x ← s.get a j i
    let y ← s.get b j i
    s.set t j i (x * y)) s) s

/-- `Matrix::transposeMultiply`, src/matrix.cpp:125-140. -/
def Store.transposeMultiply [Zero α] [Add α] [Mul α] (s : Store α) (a b t : MId) :
    Exec (Store α) := do
  chk ((s.mat a).height = (s.mat b).height) "matrix.cpp:126"
  let s ← s.resize t (s.mat b).width (s.mat a).width
  let n := (s.mat a).height
  s.fill t (s.mat a).width (s.mat b).width (fun s i j =>
    forN n (fun ii v => do
      let x ← (do
        let x ← s.load a ii i
        let y ← s.load b ii j
        pure (x * y))
      pure (v + x)) 0)

/-- `Matrix::leftScale`, src/matrix.cpp:142-153. -/
def Store.leftScale [Mul α] (s : Store α) (a sc t : MId) : Exec (Store α) := do
  chk ((s.mat sc).width = 1) "matrix.cpp:143"
  chk ((s.mat sc).height = (s.mat a).height) "matrix.cpp:144"
  let s ← s.resize t (s.mat a).width (s.mat a).height
  s.fill t (s.mat a).height (s.mat a).width (fun s i j => do
    let x ← s.load sc i 0
    let y ← s.load a i j
    pure (x * y))

/-- `Matrix::rightScale`, src/matrix.cpp:155-166. -/
def Store.rightScale [Mul α] (s : Store α) (a sc t : MId) : Exec (Store α) := do
  chk ((s.mat sc).width = 1) "matrix.cpp:156"
  chk ((s.mat sc).height = (s.mat a).width) "matrix.cpp:157"
  let s ← s.resize t (s.mat a).width (s.mat a).height
  s.fill t (s.mat a).height (s.mat a).width (fun s i j => do
    let x ← s.load sc j 0
    let y ← s.load a i j
    pure (x * y))

/-- `Matrix::scale`, src/matrix.cpp:168-176. -/
def Store.scale [Mul α] (s : Store α) (a : MId) (c : α) (t : MId) : Exec (Store α) := do
  let s ← s.resize t (s.mat a).width (s.mat a).height
  s.fill t (s.mat a).height (s.mat a).width (fun s i j => do
    let y ← s.load a i j
    pure (c * y))

/-- `Matrix::subtract`, src/matrix.cpp:178-189. -/
def Store.subtract [Sub α] (s : Store α) (a b t : MId) : Exec (Store α) := do
  chk ((s.mat b).width = (s.mat a).width) "matrix.cpp:179"
  chk ((s.mat b).height = (s.mat a).height) "matrix.cpp:180"
  let s ← s.resize t (s.mat a).width (s.mat a).height
  s.fill t (s.mat a).height (s.mat a).width (fun s i j => do
    let x ← s.load a i j
    let y ← s.load b i j
    pure (x - y))

/-- `Matrix::add(Matrix &, Matrix *)`, src/matrix.cpp:191-202. -/
def Store.addM [Add α] (s : Store α) (a b t : MId) : Exec (Store α) := do
  chk ((s.mat b).width = (s.mat a).width) "matrix.cpp:192"
  chk ((s.mat b).height = (s.mat a).height) "matrix.cpp:193"
  let s ← s.resize t (s.mat a).width (s.mat a).height
  s.fill t (s.mat a).height (s.mat a).width (fun s i j => do
    let x ← s.load a i j
    let y ← s.load b i j
    pure (x + y))

/-- `Matrix::negate`, src/matrix.cpp:204-212. -/
def Store.negate [Neg α] (s : Store α) (a t : MId) : Exec (Store α) := do
  let s ← s.resize t (s.mat a).width (s.mat a).height
  s.fill t (s.mat a).height (s.mat a).width (fun s i j => do
    let x ← s.load a i j
    pure (-x))

/-- `Matrix::equals`, src/matrix.cpp:214-227. The loop state is "no `return false` yet". -/
def Store.equals [Sub α] [Fp α] (s : Store α) (a b : MId) (err : α) : Exec Bool :=
  if (s.mat a).width ≠ (s.mat b).width then .ok false
  else if (s.mat a).height ≠ (s.mat b).height then .ok false
  else
    forN (s.mat a).height (fun i acc => forN (s.mat a).width (fun j acc =>
      if acc then do
        let x ← s.get a j i
        let y ← s.get b j i
        pure (!(Fp.gt (Fp.abs (x - y)) err))
      else .ok false) acc) true

/-- `Matrix::vectorMagnitudeSquared`, src/matrix.cpp:229-238. Reads `m_matrix[0][i]`. -/
def Store.vectorMagnitudeSquared [Zero α] [Add α] [Mul α] (s : Store α) (a : MId) : Exec α := do
  chk ((s.mat a).width = 1) "matrix.cpp:230"
  forN (s.mat a).height (fun i v => do
    let x ← (do
      let x ← s.load a 0 i
      let y ← s.load a 0 i
      pure (x * y))
    pure (v + x)) 0

/-- `Matrix::dot`, src/matrix.cpp:240-251. Reads `m_matrix[0][i]`. -/
def Store.dot [Zero α] [Add α] [Mul α] (s : Store α) (a b : MId) : Exec α := do
  chk ((s.mat a).width = 1) "matrix.cpp:241"
  chk ((s.mat b).width = 1) "matrix.cpp:242"
  chk ((s.mat b).height = (s.mat a).height) "matrix.cpp:243"
  forN (s.mat a).height (fun i v => do
    let x ← (do
      let x ← s.load a 0 i
      let y ← s.load b 0 i
      pure (x * y))
    pure (v + x)) 0

/-- `Matrix::madd`, src/matrix.cpp:253-262. -/
def Store.madd [Add α] [Mul α] (s : Store α) (a b : MId) (c : α) : Exec (Store α) := do
  chk ((s.mat a).width = (s.mat b).width) "matrix.cpp:254"
  chk ((s.mat a).height = (s.mat b).height) "matrix.cpp:255"
  s.fill a (s.mat a).height (s.mat a).width (fun s i j => do
    let x ← s.load a i j
    let y ← s.load b i j
    pure (x + y * c))

/-- `Matrix::pmadd`, src/matrix.cpp:264-273. -/
def Store.pmadd [Add α] [Mul α] (s : Store α) (a b : MId) (c : α) : Exec (Store α) := do
  chk ((s.mat a).width = (s.mat b).width) "matrix.cpp:265"
  chk ((s.mat a).height = (s.mat b).height) "matrix.cpp:266"
  s.fill a (s.mat a).height (s.mat a).width (fun s i j => do
    let x ← s.load a i j
    let y ← s.load b i j
    pure (c * x + y))

/-- `Matrix::transpose`, src/matrix.cpp:275-283. -/
def Store.transpose (s : Store α) (a t : MId) : Exec (Store α) := do
  let s ← s.resize t (s.mat a).height (s.mat a).width
  s.fill t (s.mat a).width (s.mat a).height (fun s i j => s.load a j i)

end

end Scs
