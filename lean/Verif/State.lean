import Verif.Scalar

/-!
# Model of `rigid_body` and `system_state`

`include/rigid_body.h`, `src/rigid_body.cpp`, `include/system_state.h`, `src/system_state.cpp`,
`src/utilities.cpp`. Body indices are `int` (negative indices are representable); array sizes are
natural numbers.
-/

namespace Scs

/-- `struct RigidBody`, include/rigid_body.h:5-29. -/
structure Body (α : Type) where
  p_x : α
  p_y : α
  v_x : α
  v_y : α
  theta : α
  v_theta : α
  m : α
  I : α
  index : Int

/-- The per-body arrays of `SystemState`, include/system_state.h:20-39. -/
inductive Fld where
  | a_theta | v_theta | theta | a_x | a_y | v_x | v_y | p_x | p_y | f_x | f_y | t | m
  deriving DecidableEq, Repr

/-- The reaction arrays of `SystemState`, include/system_state.h:35-37. -/
inductive CFld where
  | r_x | r_y | r_t
  deriving DecidableEq, Repr

/-- `class SystemState`, include/system_state.h:18-43. `junk`, `junkI` (contents of fresh memory, by
number of the allocation), `allocs` and `frees` (numbers of `new[]` and of effective `delete[]`) do
not exist in the code; they account for memory. -/
structure SysState (α : Type) where
  indexMap : Option (Buf Nat)
  fld : Fld → Option (Buf α)
  rf : CFld → Option (Buf α)
  n : Nat
  nc : Nat
  dt : α
  junk : Nat → Nat → α
  junkI : Nat → Nat → Nat
  allocs : Nat
  frees : Nat

/-- `p[i]` for a pointer to an array and an `int` index. -/
def pAt {β : Type} (p : Option (Buf β)) (i : Int) : Exec β := do
  let b ← deref p
  if 0 ≤ i then b.rd i.toNat else .error .oob

/-- `p[i] = v`. -/
def pSet {β : Type} (p : Option (Buf β)) (i : Int) (v : β) : Exec (Option (Buf β)) := do
  let b ← deref p
  if 0 ≤ i then
    let b ← b.wr i.toNat v
    pure (some b)
  else .error .oob

/-- `std::memcpy(dst, src, k * sizeof(...))`. A null pointer is an error even for `k = 0`. -/
def memcpy {β : Type} (dst src : Option (Buf β)) (k : Nat) : Exec (Option (Buf β)) := do
  let d ← deref dst
  let s ← deref src
  if k ≤ s.size ∧ k ≤ d.size then
    pure (some { d with val := fun i => if i < k then s.val i else d.val i })
  else .error .oob

section
variable {α : Type}

/-- `SystemState::SystemState()`, src/system_state.cpp:9-36. -/
def SysState.mk0 [Zero α] (junk : Nat → Nat → α) (junkI : Nat → Nat → Nat) : SysState α :=
  { indexMap := none, fld := fun _ => none, rf := fun _ => none, n := 0, nc := 0, dt := 0,
    junk := junk, junkI := junkI, allocs := 0, frees := 0 }

/-- `SystemState::~SystemState()`, src/system_state.cpp:38-41. -/
def SysState.dtor (s : SysState α) : Exec Unit := do
  chk (s.n = 0) "system_state.cpp:39"
  chk (s.nc = 0) "system_state.cpp:40"

/-- `state->f[i]` for a per-body array `f`. -/
def SysState.rd (s : SysState α) (f : Fld) (i : Int) : Exec α := pAt (s.fld f) i

/-- `state->f[i] = v`. -/
def SysState.wr (s : SysState α) (f : Fld) (i : Int) (v : α) : Exec (SysState α) := do
  let p ← pSet (s.fld f) i v
  pure { s with fld := upd s.fld f p }

/-- `state->r[i]` for a reaction array `r`. -/
def SysState.rrd (s : SysState α) (f : CFld) (i : Int) : Exec α := pAt (s.rf f) i

/-- `state->r[i] = v`. -/
def SysState.rwr (s : SysState α) (f : CFld) (i : Int) (v : α) : Exec (SysState α) := do
  let p ← pSet (s.rf f) i v
  pure { s with rf := upd s.rf f p }

/-- `state->f[i] += v`. -/
def SysState.addTo [Add α] (s : SysState α) (f : Fld) (i : Int) (v : α) : Exec (SysState α) := do
  let x ← s.rd f i
  s.wr f i (x + v)

/-- `state->indexMap[i]`. -/
def SysState.imRd (s : SysState α) (i : Int) : Exec Nat := pAt s.indexMap i

/-- `state->indexMap[i] = v`. -/
def SysState.imSet (s : SysState α) (i : Int) (v : Nat) : Exec (SysState α) := do
  let p ← pSet s.indexMap i v
  pure { s with indexMap := p }

/-- 1 if there is something to free. -/
def owned {β : Type} (p : Option β) : Nat := if p.isSome then 1 else 0

/-- `freeArray(f)`, src/utilities.cpp:3-6. -/
def SysState.freeF (s : SysState α) (f : Fld) : SysState α :=
  { s with fld := upd s.fld f none, frees := s.frees + owned (s.fld f) }

/-- `freeArray(r)`, src/utilities.cpp:3-6. -/
def SysState.freeR (s : SysState α) (f : CFld) : SysState α :=
  { s with rf := upd s.rf f none, frees := s.frees + owned (s.rf f) }

/-- `freeArray(indexMap)`, src/utilities.cpp:8-11. -/
def SysState.freeI (s : SysState α) : SysState α :=
  { s with indexMap := none, frees := s.frees + owned s.indexMap }

/-- `f = new double[k]`. -/
def SysState.newF (s : SysState α) (f : Fld) (k : Nat) : SysState α :=
  { s with fld := upd s.fld f (some ⟨k, s.junk s.allocs⟩), allocs := s.allocs + 1 }

/-- `r = new double[k]`. -/
def SysState.newR (s : SysState α) (f : CFld) (k : Nat) : SysState α :=
  { s with rf := upd s.rf f (some ⟨k, s.junk s.allocs⟩), allocs := s.allocs + 1 }

/-- `indexMap = new int[k]`. -/
def SysState.newI (s : SysState α) (k : Nat) : SysState α :=
  { s with indexMap := some ⟨k, s.junkI s.allocs⟩, allocs := s.allocs + 1 }

/-- Freeing the per-body arrays, src/system_state.cpp:110-125. -/
def SysState.freeBodies (s : SysState α) : SysState α :=
  let s := s.freeF .a_theta
  let s := s.freeF .v_theta
  let s := s.freeF .theta
  let s := s.freeF .a_x
  let s := s.freeF .a_y
  let s := s.freeF .v_x
  let s := s.freeF .v_y
  let s := s.freeF .p_x
  let s := s.freeF .p_y
  let s := s.freeF .f_x
  let s := s.freeF .f_y
  let s := s.freeF .t
  s.freeF .m

/-- Freeing the per-constraint arrays, src/system_state.cpp:128-134. -/
def SysState.freeRows (s : SysState α) : SysState α :=
  let s := s.freeI
  let s := s.freeR .r_x
  let s := s.freeR .r_y
  s.freeR .r_t

/-- `SystemState::destroy`, src/system_state.cpp:108-138. -/
def SysState.destroy (s : SysState α) : SysState α :=
  let s := if 0 < s.n then s.freeBodies else s
  let s := if 0 < s.nc then s.freeRows else s
  { s with n := 0, nc := 0 }

/-- The allocations of `SystemState::resize`, src/system_state.cpp:84-105. -/
def SysState.newAll (s : SysState α) : SysState α :=
  let s := s.newI s.nc
  let s := s.newF .a_theta s.n
  let s := s.newF .v_theta s.n
  let s := s.newF .theta s.n
  let s := s.newF .a_x s.n
  let s := s.newF .a_y s.n
  let s := s.newF .v_x s.n
  let s := s.newF .v_y s.n
  let s := s.newF .p_x s.n
  let s := s.newF .p_y s.n
  let s := s.newF .f_x s.n
  let s := s.newF .f_y s.n
  let s := s.newF .t s.n
  let s := s.newF .m s.n
  let s := s.newR .r_x (s.nc * 2)
  let s := s.newR .r_y (s.nc * 2)
  s.newR .r_t (s.nc * 2)

/-- `SystemState::resize`, src/system_state.cpp:74-106. -/
def SysState.resize (s : SysState α) (bodyCount constraintCount : Nat) : SysState α :=
  if s.n ≥ bodyCount ∧ s.nc ≥ constraintCount then s
  else
    let s := s.destroy
    let s := { s with n := bodyCount, nc := constraintCount }
    s.newAll

/-- `memcpy` of one per-body array, `this->n` elements. -/
def SysState.cpF (s src : SysState α) (f : Fld) : Exec (SysState α) := do
  let p ← memcpy (s.fld f) (src.fld f) s.n
  pure { s with fld := upd s.fld f p }

/-- `memcpy` of one reaction array, `this->n_c * 2` elements. -/
def SysState.cpR (s src : SysState α) (f : CFld) : Exec (SysState α) := do
  let p ← memcpy (s.rf f) (src.rf f) (s.nc * 2)
  pure { s with rf := upd s.rf f p }

/-- `SystemState::copy`, src/system_state.cpp:43-72. `src` is a different object. -/
def SysState.copy (s src : SysState α) : Exec (SysState α) := do
  let s := s.resize src.n src.nc
  if src.n = 0 then pure s
  else
    let p ← memcpy s.indexMap src.indexMap s.nc
    let s := { s with indexMap := p }
    let s ← s.cpF src .a_theta
    let s ← s.cpF src .v_theta
    let s ← s.cpF src .theta
    let s ← s.cpF src .a_x
    let s ← s.cpF src .a_y
    let s ← s.cpF src .v_x
    let s ← s.cpF src .v_y
    let s ← s.cpF src .p_x
    let s ← s.cpF src .p_y
    let s ← s.cpF src .f_x
    let s ← s.cpF src .f_y
    let s ← s.cpF src .t
    let s ← s.cpF src .m
    let s ← s.cpR src .r_x
    let s ← s.cpR src .r_y
    s.cpR src .r_t

end

section
variable {α : Type} [Zero α] [Add α] [Mul α] [Sub α] [Neg α] [Fp α]

/-- `RigidBody::reset`, src/rigid_body.cpp:48-57. -/
def Body.reset (b : Body α) : Body α :=
  { b with p_x := 0, p_y := 0, v_x := 0, v_y := 0, theta := 0, v_theta := 0, m := 0, I := 0 }

/-- `RigidBody::RigidBody`, src/rigid_body.cpp:5-8. `raw` is the memory of the object. -/
def Body.construct (raw : Body α) : Body α := ({ raw with index := -1 } : Body α).reset

/-- `RigidBody::energy`, src/rigid_body.cpp:14-20. -/
def Body.energy (b : Body α) : α :=
  let speed_2 := b.v_x * b.v_x + b.v_y * b.v_y
  let E_k := Fp.lit (1 / 2) * b.m * speed_2
  let E_r := Fp.lit (1 / 2) * b.I * b.v_theta * b.v_theta
  E_k + E_r

/-- `RigidBody::localToWorld`, src/rigid_body.cpp:22-33; returns `(*w_x, *w_y)`. -/
def Body.localToWorld (b : Body α) (x y : α) : α × α :=
  let cos_theta := Fp.cos b.theta
  let sin_theta := Fp.sin b.theta
  (cos_theta * x - sin_theta * y + b.p_x, sin_theta * x + cos_theta * y + b.p_y)

/-- `RigidBody::worldToLocal`, src/rigid_body.cpp:35-46; returns `(*l_x, *l_y)`. -/
def Body.worldToLocal (b : Body α) (x y : α) : α × α :=
  let cos_theta := Fp.cos b.theta
  let sin_theta := Fp.sin b.theta
  (cos_theta * (x - b.p_x) + sin_theta * (y - b.p_y),
    -sin_theta * (x - b.p_x) + cos_theta * (y - b.p_y))

/-- `SystemState::localToWorld`, src/system_state.cpp:140-156; returns `(*x_t, *y_t)`. -/
def SysState.localToWorld (s : SysState α) (x y : α) (body : Int) : Exec (α × α) := do
  let x0 ← s.rd .p_x body
  let y0 ← s.rd .p_y body
  let theta ← s.rd .theta body
  let cos_theta := Fp.cos theta
  let sin_theta := Fp.sin theta
  pure (cos_theta * x - sin_theta * y + x0, sin_theta * x + cos_theta * y + y0)

/-- `SystemState::velocityAtPoint`, src/system_state.cpp:158-174; returns `(*v_x, *v_y)`. -/
def SysState.velocityAtPoint (s : SysState α) (x y : α) (body : Int) : Exec (α × α) := do
  let w ← s.localToWorld x y body
  let v_theta ← s.rd .v_theta body
  let py ← s.rd .p_y body
  let angularToLinear_x := -v_theta * (w.2 - py)
  let px ← s.rd .p_x body
  let angularToLinear_y := v_theta * (w.1 - px)
  let vx ← s.rd .v_x body
  let vy ← s.rd .v_y body
  pure (vx + angularToLinear_x, vy + angularToLinear_y)

/-- `SystemState::applyForce`, src/system_state.cpp:176-192. -/
def SysState.applyForce (s : SysState α) (x_l y_l f_x f_y : α) (body : Int) :
    Exec (SysState α) := do
  let w ← s.localToWorld x_l y_l body
  let s ← s.addTo .f_x body f_x
  let s ← s.addTo .f_y body f_y
  let py ← s.rd .p_y body
  let px ← s.rd .p_x body
  s.addTo .t body ((w.2 - py) * -f_x + (w.1 - px) * f_y)

end

end Scs
