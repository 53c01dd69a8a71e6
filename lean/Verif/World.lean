import Verif.Sle
import Verif.Ode
import Verif.Force

/-!
# Model of the rigid body systems

`src/rigid_body_system.cpp`, `src/optimized_nsv_rigid_body_system.cpp`,
`src/generic_rigid_body_system.cpp`. A world is one system together with the heaps of the objects
of the user it refers to. The members of both subclasses are kept in one structure; each class uses
its own.
-/

namespace Scs

/-- `RigidBodySystem::ProfilingSamples`, include/rigid_body_system.h:16. -/
def profSamples : Nat := 600

/-- The four profiling arrays, include/rigid_body_system.h:62-65. -/
inductive Prof where
  | odeSolve | constraintSolve | forceEval | constraintEval
  deriving DecidableEq, Repr

/-- One rigid body system and the objects of the user. Bodies, constraints and force generators
live in heaps and are referred to by number. `genIndex` is `ForceGenerator::m_index`, which the
constructor does not initialise. `sle`, `ode`: the pointers `m_sleSolver` and (generic system)
`m_odeSolver` with the object pointed to; `nsv`, `bias`, `t`: `m_odeSolver`, `m_biasFactor`, `m_t`
of the optimized system; `mem` holds the members of `m_iv` and of the solver objects.
include/rigid_body_system.h:55-66, include/optimized_nsv_rigid_body_system.h:20-52,
include/generic_rigid_body_system.h:23-43. -/
structure World (α : Type) where
  bodies : Nat → Body α
  cons : Nat → Con α
  gens : Nat → Gen α
  genIndex : Nat → Option Int
  rb : List Nat
  cs : List Nat
  fg : List Nat
  st : SysState α
  mem : Store α
  ring : Prof → Buf Int
  frame : Nat
  sle : Option (Solver α)
  ode : Option (Ode α)
  nsv : Ode α
  bias : α
  t : α

/-- What a call of `process` takes from outside the program: the clock (`now e k` is the `k`-th of
the eight readings, in nanoseconds, of the `e`-th evaluation) and the contents of the uninitialised
variable `constraintOutput` of each evaluation. -/
structure Env (α : Type) where
  now : Nat → Nat → Int
  raw : Nat → Output α

/-- `v[i]` for a `std::vector` of pointers and an `int` index. -/
def vecAt (l : List Nat) (i : Int) : Exec Nat :=
  if 0 ≤ i then
    match l[i.toNat]? with
    | some x => .ok x
    | none => .error .oob
  else .error .oob

/-- `v[i] = x`. -/
def vecSet (l : List Nat) (i : Int) (x : Nat) : Exec (List Nat) :=
  if 0 ≤ i ∧ i.toNat < l.length then .ok (l.set i.toNat x) else .error .oob

/-- `v.back()`. -/
def vecBack (l : List Nat) : Exec Nat :=
  match l.getLast? with
  | some x => .ok x
  | none => .error .emptyVec

/-- The three statements of the `remove` functions (src/rigid_body_system.cpp:46-50, 62-66, 73-77)
for an object with index `i`: the new vector and the object whose index is set to `i`. -/
def unregister (l : List Nat) (i : Int) : Exec (List Nat × Nat) := do
  let last ← vecBack l
  let l ← vecSet l i last
  let x ← vecAt l i
  pure (l.dropLast, x)

section
variable {α : Type} [Zero α] [Add α] [Mul α] [Sub α] [Neg α] [Fp α]

/-! ## Construction and registries -/

/-- `RigidBodySystem::RigidBodySystem`, src/rigid_body_system.cpp:7-20, with the constructors of
the subclasses (src/optimized_nsv_rigid_body_system.cpp:6-10,
src/generic_rigid_body_system.cpp:5-8). The arguments are the objects of the user and what fresh
memory will contain. -/
def World.construct (bodies : Nat → Body α) (cons : Nat → Con α) (gens : Nat → Gen α)
    (genIndex : Nat → Option Int) (mem : Store α) (j : Nat → Nat → α) (k : Nat → Nat → Nat) :
    World α :=
  { bodies := bodies, cons := cons, gens := gens, genIndex := genIndex, rb := [], cs := [],
    fg := [], st := SysState.mk0 j k, mem := mem, ring := fun _ => ⟨profSamples, fun _ => -1⟩,
    frame := 0, sle := none, ode := none, nsv := Ode.newNsv, bias := Fp.lit 1, t := Fp.lit 0 }

/-- `RigidBodySystem::reset`, src/rigid_body_system.cpp:31-35. -/
def World.reset (w : World α) : World α := { w with rb := [], cs := [], fg := [] }

/-- `body->index = i`. -/
def World.setBodyIndex (w : World α) (b : Nat) (i : Int) : World α :=
  { w with bodies := upd w.bodies b { w.bodies b with index := i } }

/-- `constraint->m_index = i`. -/
def World.setConIndex (w : World α) (c : Nat) (i : Int) : World α :=
  { w with cons := upd w.cons c { w.cons c with index := i } }

/-- `forceGenerator->m_index = i`. -/
def World.setGenIndex (w : World α) (g : Nat) (i : Int) : World α :=
  { w with genIndex := upd w.genIndex g (some i) }

/-- `RigidBodySystem::addRigidBody`, src/rigid_body_system.cpp:41-44. -/
def World.addBody (w : World α) (b : Nat) : World α :=
  let w := { w with rb := w.rb ++ [b] }
  w.setBodyIndex b ((w.rb.length : Int) - 1)

/-- `RigidBodySystem::removeRigidBody`, src/rigid_body_system.cpp:46-50. -/
def World.removeBody (w : World α) (b : Nat) : Exec (World α) := do
  let i := (w.bodies b).index
  let q ← unregister w.rb i
  pure ({ w with rb := q.1 }.setBodyIndex q.2 i)

/-- `RigidBodySystem::getRigidBody`, src/rigid_body_system.cpp:52-55. The comparison is unsigned: a
negative `int` is a huge number. -/
def World.getBody (w : World α) (i : Int) : Exec Nat := do
  chk (0 ≤ i ∧ i < w.rb.length) "rigid_body_system.cpp:53"
  vecAt w.rb i

/-- `RigidBodySystem::addConstraint`, src/rigid_body_system.cpp:57-60. -/
def World.addCon (w : World α) (c : Nat) : World α :=
  let w := { w with cs := w.cs ++ [c] }
  w.setConIndex c ((w.cs.length : Int) - 1)

/-- `RigidBodySystem::removeConstraint`, src/rigid_body_system.cpp:62-66. -/
def World.removeCon (w : World α) (c : Nat) : Exec (World α) := do
  let i := (w.cons c).index
  let q ← unregister w.cs i
  pure ({ w with cs := q.1 }.setConIndex q.2 i)

/-- `RigidBodySystem::addForceGenerator`, src/rigid_body_system.cpp:68-71. -/
def World.addGen (w : World α) (g : Nat) : World α :=
  let w := { w with fg := w.fg ++ [g] }
  w.setGenIndex g ((w.fg.length : Int) - 1)

/-- `RigidBodySystem::removeForceGenerator`, src/rigid_body_system.cpp:73-77. -/
def World.removeGen (w : World α) (g : Nat) : Exec (World α) := do
  let i ← initd (w.genIndex g)
  let q ← unregister w.fg i
  pure ({ w with fg := q.1 }.setGenIndex q.2 i)

/-- `RigidBodySystem::getRigidBodyCount`, include/rigid_body_system.h:35. -/
def World.bodyCount (w : World α) : Nat := w.rb.length

/-- `RigidBodySystem::getConstraintCount`, include/rigid_body_system.h:36. -/
def World.conCount (w : World α) : Nat := w.cs.length

/-- `RigidBodySystem::getForceGeneratorCount`, include/rigid_body_system.h:37. -/
def World.genCount (w : World α) : Nat := w.fg.length

/-- `RigidBodySystem::getFullConstraintCount`, src/rigid_body_system.cpp:79-86. -/
def World.fullCount (w : World α) : Nat :=
  w.cs.foldl (fun count c => count + (w.cons c).rows) 0

/-! ## Profiling -/

/-- The loop of `findAverage`, src/rigid_body_system.cpp:89-96; the state is `(accum, count)`. -/
def profSum (samples : Buf Int) : Exec (Int × Nat) :=
  forN profSamples (fun i q => do
    let x ← samples.rd i
    pure (if x ≠ -1 then (q.1 + x, q.2 + 1) else q)) (0, 0)

/-- `RigidBodySystem::findAverage`, src/rigid_body_system.cpp:88-100. The result is a `float` in
the code; the rounding of the conversion is not modelled. -/
def findAverage (samples : Buf Int) : Exec α := do
  let q ← profSum samples
  if q.2 = 0 then pure (Fp.lit 0) else Fp.div (Fp.lit (q.1 : Rat)) (Fp.lit (q.2 : Rat))

/-- `getOdeSolveMicroseconds`, `getConstraintSolveMicroseconds`, `getConstraintEvalMicroseconds`,
`getForceEvalMicroseconds`, src/rigid_body_system.cpp:102-116. -/
def World.getMicroseconds (w : World α) (p : Prof) : Exec α := findAverage (w.ring p)

/-- `duration_cast<microseconds>` of a duration in nanoseconds: truncation. -/
def micros (d : Int) : Int := Int.tdiv d 1000

/-- The time differences of one evaluation, `process` lines 55-70 and `processConstraints` lines
124, 196, 221, 269-274 of src/optimized_nsv_rigid_body_system.cpp (the same in
src/generic_rigid_body_system.cpp). -/
def evalTimes (now : Nat → Int) : Prof → Int
  | .forceEval => micros (now 1 - now 0)
  | .constraintEval => micros (now 3 - now 2 + now 5 - now 4)
  | .constraintSolve => micros (now 4 - now 3)
  | .odeSolve => micros (now 7 - now 6)

/-- Writing the four sums into the profiling arrays and advancing the frame index,
src/optimized_nsv_rigid_body_system.cpp:80-84, src/generic_rigid_body_system.cpp:90-94. -/
def World.record (w : World α) (times : Prof → Int) : Exec (World α) := do
  let r1 ← (w.ring .odeSolve).wr w.frame (times .odeSolve)
  let w := { w with ring := upd w.ring .odeSolve r1 }
  let r2 ← (w.ring .constraintSolve).wr w.frame (times .constraintSolve)
  let w := { w with ring := upd w.ring .constraintSolve r2 }
  let r3 ← (w.ring .forceEval).wr w.frame (times .forceEval)
  let w := { w with ring := upd w.ring .forceEval r3 }
  let r4 ← (w.ring .constraintEval).wr w.frame (times .constraintEval)
  let w := { w with ring := upd w.ring .constraintEval r4 }
  pure { w with frame := (w.frame + 1) % profSamples }

/-! ## Populating the state -/

/-- Body of the first loop of `populateSystemState`, src/rigid_body_system.cpp:125-140. -/
def World.popBody (w : World α) (i : Nat) (s : SysState α) : Exec (SysState α) := do
  let id ← vecAt w.rb i
  let b := w.bodies id
  let s ← s.wr .a_x i (Fp.lit 0)
  let s ← s.wr .a_y i (Fp.lit 0)
  let s ← s.wr .v_x i b.v_x
  let s ← s.wr .v_y i b.v_y
  let s ← s.wr .p_x i b.p_x
  let s ← s.wr .p_y i b.p_y
  let s ← s.wr .a_theta i (Fp.lit 0)
  let s ← s.wr .v_theta i b.v_theta
  let s ← s.wr .theta i b.theta
  s.wr .m i b.m

/-- The second loop of `populateSystemState`, src/rigid_body_system.cpp:142-145; the state is
`(m_state, j_f)`. -/
def World.popIndex (w : World α) (s : SysState α) : Exec (SysState α × Nat) :=
  forN w.conCount (fun i q => do
    let s ← q.1.imSet i q.2
    let c ← vecAt w.cs i
    pure (s, q.2 + (w.cons c).rows)) (s, 0)

/-- `RigidBodySystem::populateSystemState`, src/rigid_body_system.cpp:118-146. -/
def World.populateState (w : World α) : Exec (SysState α) := do
  let s := w.st.resize w.bodyCount w.fullCount
  let s ← forN w.bodyCount w.popBody s
  let q ← w.popIndex s
  pure q.1

/-- Body of the loop of `populateMassMatrices`, src/rigid_body_system.cpp:154-162. -/
def World.popMass (w : World α) (i : Nat) (mem : Store α) : Exec (Store α) := do
  let id ← vecAt w.rb i
  let b := w.bodies id
  let mem ← mem.set .ivM 0 (i * 3 + 0) b.m
  let mem ← mem.set .ivM 0 (i * 3 + 1) b.m
  let mem ← mem.set .ivM 0 (i * 3 + 2) b.I
  let x ← Fp.div (Fp.lit 1) b.m
  let mem ← mem.set .ivMinv 0 (i * 3 + 0) x
  let y ← Fp.div (Fp.lit 1) b.m
  let mem ← mem.set .ivMinv 0 (i * 3 + 1) y
  let z ← Fp.div (Fp.lit 1) b.I
  mem.set .ivMinv 0 (i * 3 + 2) z

/-- `RigidBodySystem::populateMassMatrices(&m_iv.M, &m_iv.M_inv)`,
src/rigid_body_system.cpp:148-163. -/
def World.populateMass (w : World α) (mem : Store α) : Exec (Store α) := do
  let mem ← mem.init0 .ivM 1 (3 * w.bodyCount)
  let mem ← mem.init0 .ivMinv 1 (3 * w.bodyCount)
  forN w.bodyCount w.popMass mem

/-- Body of the first loop of `processForces`, src/rigid_body_system.cpp:169-173. -/
def zeroForce (i : Nat) (s : SysState α) : Exec (SysState α) := do
  let s ← s.wr .f_x i (Fp.lit 0)
  let s ← s.wr .f_y i (Fp.lit 0)
  s.wr .t i (Fp.lit 0)

/-- `RigidBodySystem::processForces`, src/rigid_body_system.cpp:165-178. -/
def World.processForces (w : World α) (s : SysState α) : Exec (SysState α) := do
  let s ← forN w.bodyCount zeroForce s
  forN w.genCount (fun i s => do
    let g ← vecAt w.fg i
    (w.gens g).apply w.bodies s) s

/-! ## Parts of `processConstraints` common to both systems -/

/-- The loops copying three per-body arrays into a column, e.g.
src/optimized_nsv_rigid_body_system.cpp:166-170 and 173-177, src/generic_rigid_body_system.cpp:
111-115 and 163-167. -/
def loadVec (t : MId) (fx fy ft : Fld) (n : Nat) (s : SysState α) (mem : Store α) :
    Exec (Store α) :=
  forN n (fun i mem => do
    let x ← s.rd fx i
    let mem ← mem.set t 0 (i * 3 + 0) x
    let y ← s.rd fy i
    let mem ← mem.set t 0 (i * 3 + 1) y
    let z ← s.rd ft i
    mem.set t 0 (i * 3 + 2) z) mem

/-- `m_iv.q_dot`: src/optimized_nsv_rigid_body_system.cpp:165-170,
src/generic_rigid_body_system.cpp:110-115. -/
def loadQdot (n : Nat) (s : SysState α) (mem : Store α) : Exec (Store α) := do
  let mem ← mem.resize .ivQdot 1 (n * 3)
  loadVec .ivQdot .v_x .v_y .v_theta n s mem

/-- `m_iv.F_ext`: src/optimized_nsv_rigid_body_system.cpp:172-177,
src/generic_rigid_body_system.cpp:162-167. -/
def loadFext (n : Nat) (s : SysState α) (mem : Store α) : Exec (Store α) := do
  let mem ← mem.init .ivFExt 1 (3 * n) (Fp.lit 0)
  loadVec .ivFExt .f_x .f_y .t n s mem

/-- src/optimized_nsv_rigid_body_system.cpp:232-238, src/generic_rigid_body_system.cpp:200-206. -/
def writeReactions (mf : Nat) (mem : Store α) (s : SysState α) : Exec (SysState α) :=
  forN mf (fun i s => forN 2 (fun j s => do
    let x ← mem.sget 3 2 .ivSreg0 i j 0
    let s ← s.rwr .r_x (i * 2 + j : Nat) x
    let y ← mem.sget 3 2 .ivSreg0 i j 1
    let s ← s.rwr .r_y (i * 2 + j : Nat) y
    let z ← mem.sget 3 2 .ivSreg0 i j 2
    s.rwr .r_t (i * 2 + j : Nat) z) s) s

/-- src/optimized_nsv_rigid_body_system.cpp:240-244, src/generic_rigid_body_system.cpp:208-212. -/
def startAccel (n : Nat) (mem : Store α) (s : SysState α) : Exec (SysState α) :=
  forN n (fun i s => do
    let x ← mem.get .ivFExt 0 (i * 3 + 0)
    let s ← s.wr .a_x i x
    let y ← mem.get .ivFExt 0 (i * 3 + 1)
    let s ← s.wr .a_y i y
    let z ← mem.get .ivFExt 0 (i * 3 + 2)
    s.wr .a_theta i z) s

/-- src/optimized_nsv_rigid_body_system.cpp:251-256, src/generic_rigid_body_system.cpp:219-224: the
reactions of row `jf` on the bodies of `c`. -/
def addReaction (c : Con α) (bodies : Nat → Body α) (jf : Nat) (s : SysState α) :
    Exec (SysState α) :=
  forN c.bodyCount (fun k s => do
    let body ← c.idx bodies k
    let x ← s.rrd .r_x (jf * 2 + k : Nat)
    let s ← s.addTo .a_x body x
    let y ← s.rrd .r_y (jf * 2 + k : Nat)
    let s ← s.addTo .a_y body y
    let z ← s.rrd .r_t (jf * 2 + k : Nat)
    s.addTo .a_theta body z) s

/-- src/optimized_nsv_rigid_body_system.cpp:246-258, src/generic_rigid_body_system.cpp:214-226; the
state is `(m_state, j_f)`. -/
def World.addReactions (w : World α) (s : SysState α) : Exec (SysState α × Nat) :=
  forN w.conCount (fun i q => do
    let c ← vecAt w.cs i
    forN (w.cons c).rows (fun _ q => do
      let s ← addReaction (w.cons c) w.bodies q.2 q.1
      pure (s, q.2 + 1)) q) (s, 0)

/-- `m_state.f[i] *= v`, as in src/optimized_nsv_rigid_body_system.cpp:264-266. -/
def mulBy (s : SysState α) (f : Fld) (i : Nat) (v : α) : Exec (SysState α) := do
  let x ← s.rd f i
  s.wr f i (x * v)

/-- src/optimized_nsv_rigid_body_system.cpp:260-267, src/generic_rigid_body_system.cpp:228-235. -/
def scaleAccel (n : Nat) (mem : Store α) (s : SysState α) : Exec (SysState α) :=
  forN n (fun i s => do
    let invMass ← mem.get .ivMinv 0 (i * 3 + 0)
    let invInertia ← mem.get .ivMinv 0 (i * 3 + 2)
    let s ← mulBy s .a_x i invMass
    let s ← mulBy s .a_y i invMass
    mulBy s .a_theta i invInertia) s

/-- src/optimized_nsv_rigid_body_system.cpp:232-267, src/generic_rigid_body_system.cpp:200-235:
from the scaled Jacobian to reactions and accelerations. -/
def World.applyReactions (w : World α) (mem : Store α) (s : SysState α) : Exec (SysState α) := do
  let s ← writeReactions w.fullCount mem s
  let s ← startAccel w.bodyCount mem s
  let q ← w.addReactions s
  scaleAccel w.bodyCount mem q.1

/-! ## The optimized system -/

/-- src/optimized_nsv_rigid_body_system.cpp:141-147: block indices of one row. -/
def optBlocks (c : Con α) (bodies : Nat → Body α) (jf : Nat) (mem : Store α) : Exec (Store α) :=
  forN c.bodyCount (fun i mem => do
    let index ← c.idx bodies i
    if index = -1 then pure mem else mem.setBlock 2 .ivJ jf i index) mem

/-- src/optimized_nsv_rigid_body_system.cpp:149-156: Jacobian entries of one row. -/
def optEntries (c : Con α) (bodies : Nat → Body α) (out : Output α) (k jf : Nat) (mem : Store α) :
    Exec (Store α) :=
  forN (c.bodyCount * 3) (fun i mem => do
    let index ← c.idx bodies (i / 3)
    if index = -1 then pure mem else do
      let v ← rd2 maxRows (3 * maxBodies) out.J k i
      mem.sset 3 2 .ivJ jf (i / 3) (i % 3) v) mem

/-- src/optimized_nsv_rigid_body_system.cpp:140-162: row `k` of constraint `c` is row `jf` of the
system. -/
def optRow (c : Con α) (bodies : Nat → Body α) (out : Output α) (dt : α) (k jf : Nat)
    (mem : Store α) : Exec (Store α) := do
  let mem ← optBlocks c bodies jf mem
  let mem ← optEntries c bodies out k jf mem
  let b ← rd1 maxRows out.v_bias k
  let mem ← mem.set .ivVBias 0 jf b
  let e ← rd1 maxRows out.C k
  let mem ← mem.set .ivC 0 jf e
  let lo ← rd2 maxRows 2 out.limits k 0
  let mem ← mem.set .ivLimits 0 jf (lo * dt)
  let hi ← rd2 maxRows 2 out.limits k 1
  mem.set .ivLimits 1 jf (hi * dt)

/-- The variables of the assembly loop: the matrices, `constraintOutput` and `j_f`,
src/optimized_nsv_rigid_body_system.cpp:135-136, src/generic_rigid_body_system.cpp:123-124. -/
structure Asm (α : Type) where
  mem : Store α
  out : Output α
  jf : Nat

/-- src/optimized_nsv_rigid_body_system.cpp:137-162: one constraint. -/
def World.optCon (w : World α) (dt : α) (s : SysState α) (j : Nat) (q : Asm α) : Exec (Asm α) := do
  let id ← vecAt w.cs j
  let c := w.cons id
  let out ← c.kind.calculate (c.idx w.bodies) q.out s
  forN c.rows (fun k q => do
    let mem ← optRow c w.bodies out dt k q.jf q.mem
    pure { q with mem := mem, jf := q.jf + 1 }) { q with out := out }

/-- src/optimized_nsv_rigid_body_system.cpp:126-163. -/
def World.optAssemble (w : World α) (dt : α) (raw : Output α) (s : SysState α) (mem : Store α) :
    Exec (Store α) := do
  let mem ← mem.sinit 3 2 .ivJ (3 * w.bodyCount) w.fullCount
  let mem ← mem.init0 .ivVBias 1 w.fullCount
  let mem ← mem.init0 .ivC 1 w.fullCount
  let mem ← mem.init0 .ivLimits 2 w.fullCount
  let q ← forN w.conCount (w.optCon dt s) ⟨mem, raw, 0⟩
  pure q.mem

/-- src/optimized_nsv_rigid_body_system.cpp:179-194: the right hand side. -/
def optRight (bias dt : α) (mem : Store α) : Exec (Store α) := do
  let mem ← mem.scale .ivFExt dt .ivReg0
  let mem ← mem.leftScale .ivReg0 .ivMinv .ivReg1
  let mem ← mem.addM .ivReg1 .ivQdot .ivQdotPrime
  let e ← Fp.div bias dt
  let mem ← mem.scale .ivC e .ivBErr
  let mem ← mem.smultiply 3 2 .ivJ .ivQdotPrime .ivReg0
  let mem ← mem.addM .ivReg0 .ivVBias .ivReg1
  let mem ← mem.addM .ivReg1 .ivBErr .ivReg0
  mem.negate .ivReg0 .ivRight

/-- src/optimized_nsv_rigid_body_system.cpp:199-217. -/
def optCall (sv : Solver α) (mem : Store α) : Exec (Store α × Bool) :=
  if sv.supportsLimits = false then
    sv.solve 3 2 mem .ivJ .ivMinv .ivRight (some .ivLambda) (some .ivLambda)
  else
    sv.solveL 3 2 mem .ivJ .ivMinv .ivRight .ivLimits (some .ivLambda) (some .ivLambda)

/-- src/optimized_nsv_rigid_body_system.cpp:198-230: solve and scale the Jacobian. -/
def World.optSolve (w : World α) (dt : α) (mem : Store α) : Exec (Store α) := do
  let sv ← deref w.sle
  let q ← optCall sv mem
  chk (q.2 = true) "optimized_nsv_rigid_body_system.cpp:219"
  let r ← Fp.div (Fp.lit 1) dt
  let mem ← q.1.scale .ivLambda r .ivReg0
  mem.sleftScale 3 2 .ivJ .ivReg0 .ivSreg0

/-- `OptimizedNsvRigidBodySystem::processConstraints`,
src/optimized_nsv_rigid_body_system.cpp:116-275, without the clock. -/
def World.optConstraints (w : World α) (dt : α) (raw : Output α) (mem : Store α) (s : SysState α) :
    Exec (Store α × SysState α) := do
  let mem ← w.optAssemble dt raw s mem
  let mem ← loadQdot w.bodyCount s mem
  let mem ← loadFext w.bodyCount s mem
  let mem ← optRight w.bias dt mem
  let mem ← w.optSolve dt mem
  let s ← w.applyReactions mem s
  pure (mem, s)

/-- The data `process` changes besides the state and the ODE solver: the matrices, the number of
evaluations made and the four times. -/
structure Ctx (α : Type) where
  mem : Store α
  evals : Nat
  times : Prof → Int

/-- One pass of the evaluation loop without `step` and `solve`,
src/optimized_nsv_rigid_body_system.cpp:53-70. -/
def World.optEval (w : World α) (env : Env α) (dt : α) (x : Ctx α) (s : SysState α) :
    Exec (Ctx α × SysState α) := do
  let s ← w.processForces s
  let q ← w.optConstraints dt (env.raw x.evals) x.mem s
  pure (⟨q.1, x.evals + 1, fun p => x.times p + evalTimes (env.now x.evals) p⟩, q.2)

/-- Body of the first loop of `propagateResults`, src/optimized_nsv_rigid_body_system.cpp:91-100,
and of the same loop src/generic_rigid_body_system.cpp:66-75. -/
def World.storeBody (s : SysState α) (i : Nat) (w : World α) : Exec (World α) := do
  let id ← vecAt w.rb i
  let vx ← s.rd .v_x i
  let vy ← s.rd .v_y i
  let px ← s.rd .p_x i
  let py ← s.rd .p_y i
  let vt ← s.rd .v_theta i
  let th ← s.rd .theta i
  let b := { w.bodies id with
    v_x := vx, v_y := vy, p_x := px, p_y := py, v_theta := vt, theta := th }
  pure { w with bodies := upd w.bodies id b }

/-- `a[i][j] = v` for an array of `n` times `m` elements inside an object. -/
def wr2 (n m : Nat) (a : Nat → Nat → α) (i j : Nat) (v : α) : Exec (Nat → Nat → α) :=
  if i < n ∧ j < m then .ok (upd a i (upd (a i) j v)) else .error .oob

/-- The reaction of one row on one body is stored in the constraint,
src/optimized_nsv_rigid_body_system.cpp:108-110, src/generic_rigid_body_system.cpp:83-85; `pos` is
the position in the reaction arrays. -/
def storeForce (s : SysState α) (pos : Nat) (j k : Nat) (c : Con α) : Exec (Con α) := do
  let x ← s.rrd .r_x pos
  let fx ← wr2 maxRows maxBodies c.F_x j k x
  let c := { c with F_x := fx }
  let y ← s.rrd .r_y pos
  let fy ← wr2 maxRows maxBodies c.F_y j k y
  let c := { c with F_y := fy }
  let z ← s.rrd .r_t pos
  let ft ← wr2 maxRows maxBodies c.F_t j k z
  pure { c with F_t := ft }

/-- src/optimized_nsv_rigid_body_system.cpp:106-112, src/generic_rigid_body_system.cpp:81-87, one
constraint: rows `j`, bodies `k`; `pos i_f k` is the position in the reaction arrays. -/
def storeCon (s : SysState α) (pos : Nat → Nat → Nat) (c : Con α) (jf : Nat) :
    Exec (Con α × Nat) :=
  forN c.rows (fun j q => do
    let c ← forN c.bodyCount (fun k c => storeForce s (pos q.2 k) j k c) q.1
    pure (c, q.2 + 1)) (c, jf)

/-- The second loop of `propagateResults`, src/optimized_nsv_rigid_body_system.cpp:102-113, and
src/generic_rigid_body_system.cpp:77-88; the state is `(world, i_f)`. -/
def World.storeForces (s : SysState α) (pos : Nat → Nat → Nat) (w : World α) :
    Exec (World α × Nat) :=
  forN w.conCount (fun i q => do
    let id ← vecAt q.1.cs i
    let z ← storeCon s pos (q.1.cons id) q.2
    pure ({ q.1 with cons := upd q.1.cons id z.1 }, z.2)) (w, 0)

/-- `OptimizedNsvRigidBodySystem::propagateResults`,
src/optimized_nsv_rigid_body_system.cpp:89-114. -/
def World.propagateResults (w : World α) (s : SysState α) : Exec (World α) := do
  let w ← forN w.bodyCount (World.storeBody s) w
  let q ← w.storeForces s (fun jf k => jf * 2 + k)
  pure q.1

/-- The sub-steps of `process`, src/optimized_nsv_rigid_body_system.cpp:47-76. -/
def World.optLoop (w : World α) (env : Env α) (dt : α) (steps : Int) (s : SysState α)
    (mem : Store α) : Exec (Ctx α × Ode α × SysState α) :=
  forN steps.toNat (fun _ q => do
    let h ← Fp.div dt (Fp.lit steps)
    odeRun (w.optEval env h) q.1 q.2.1 q.2.2 h) (⟨mem, 0, fun _ => 0⟩, w.nsv, s)

/-- `OptimizedNsvRigidBodySystem::process`, src/optimized_nsv_rigid_body_system.cpp:37-87. -/
def World.optProcess (w : World α) (env : Env α) (dt : α) (steps : Int) : Exec (World α) := do
  let s ← w.populateState
  let mem ← w.populateMass w.mem
  let q ← w.optLoop env dt steps s mem
  let w := { w with st := q.2.2, mem := q.1.mem, nsv := q.2.1 }
  let w ← w.propagateResults w.st
  let w ← w.record q.1.times
  pure { w with t := w.t + dt }

/-- `OptimizedNsvRigidBodySystem::initialize`, src/optimized_nsv_rigid_body_system.cpp:33-35. -/
def World.optInit (w : World α) (sle : Option (Solver α)) : World α := { w with sle := sle }

/-! ## The generic system -/

/-- src/generic_rigid_body_system.cpp:129-136. -/
def genBlocks (c : Con α) (bodies : Nat → Body α) (jf : Nat) (mem : Store α) : Exec (Store α) :=
  forN c.bodyCount (fun i mem => do
    let index ← c.idx bodies i
    if index = -1 then pure mem else do
      let mem ← mem.setBlock 2 .ivJ jf i index
      mem.setBlock 2 .ivJdot jf i index) mem

/-- src/generic_rigid_body_system.cpp:138-152. `ks`, `kd` and `C` are written once per column. -/
def genEntries (c : Con α) (bodies : Nat → Body α) (out : Output α) (k jf : Nat) (mem : Store α) :
    Exec (Store α) :=
  forN (c.bodyCount * 3) (fun i mem => do
    let index ← c.idx bodies (i / 3)
    if index = -1 then pure mem else do
      let v ← rd2 maxRows (3 * maxBodies) out.J k i
      let mem ← mem.sset 3 2 .ivJ jf (i / 3) (i % 3) v
      let d ← rd2 maxRows (3 * maxBodies) out.J_dot k i
      let mem ← mem.sset 3 2 .ivJdot jf (i / 3) (i % 3) d
      let ks ← rd1 maxRows out.ks k
      let mem ← mem.set .ivKs 0 jf ks
      let kd ← rd1 maxRows out.kd k
      let mem ← mem.set .ivKd 0 jf kd
      let e ← rd1 maxRows out.C k
      mem.set .ivC 0 jf e) mem

/-- src/generic_rigid_body_system.cpp:125-153: one constraint. -/
def World.genCon (w : World α) (s : SysState α) (j : Nat) (q : Asm α) : Exec (Asm α) := do
  let id ← vecAt w.cs j
  let c := w.cons id
  let out ← c.kind.calculate (c.idx w.bodies) q.out s
  forN c.rows (fun k q => do
    let mem ← genBlocks c w.bodies q.jf q.mem
    let mem ← genEntries c w.bodies out k q.jf mem
    pure { q with mem := mem, jf := q.jf + 1 }) { q with out := out }

/-- src/generic_rigid_body_system.cpp:117-154. -/
def World.genAssemble (w : World α) (raw : Output α) (s : SysState α) (mem : Store α) :
    Exec (Store α) := do
  let mem ← mem.sinit 3 2 .ivJ (3 * w.bodyCount) w.fullCount
  let mem ← mem.sinit 3 2 .ivJdot (3 * w.bodyCount) w.fullCount
  let mem ← mem.init0 .ivKs 1 w.fullCount
  let mem ← mem.init0 .ivKd 1 w.fullCount
  let mem ← mem.init0 .ivC 1 w.fullCount
  let q ← forN w.conCount (w.genCon s) ⟨mem, raw, 0⟩
  pure q.mem

/-- src/generic_rigid_body_system.cpp:156-160: `kd` and `ks` times velocity and position error. -/
def genGains (mf : Nat) (mem : Store α) : Exec (Store α) := do
  let mem ← mem.smultiply 3 2 .ivJ .ivQdot .ivReg0
  forN mf (fun i mem => do
    let a ← mem.get .ivKd 0 i
    let b ← mem.get .ivReg0 0 i
    let mem ← mem.set .ivKd 0 i (a * b)
    let c ← mem.get .ivKs 0 i
    let d ← mem.get .ivC 0 i
    mem.set .ivKs 0 i (c * d)) mem

/-- src/generic_rigid_body_system.cpp:169-177: the right hand side. -/
def genRight (mem : Store α) : Exec (Store α) := do
  let mem ← mem.leftScale .ivFExt .ivMinv .ivReg2
  let mem ← mem.smultiply 3 2 .ivJ .ivReg2 .ivReg0
  let mem ← mem.smultiply 3 2 .ivJdot .ivQdot .ivReg2
  let mem ← mem.negate .ivReg2 .ivReg1
  let mem ← mem.subtract .ivReg1 .ivReg0 .ivReg2
  let mem ← mem.subtract .ivReg2 .ivKs .ivReg0
  mem.subtract .ivReg0 .ivKd .ivRight

/-- src/generic_rigid_body_system.cpp:181-198. -/
def World.genSolve (w : World α) (mem : Store α) : Exec (Store α) := do
  let sv ← deref w.sle
  let q ← sv.solve 3 2 mem .ivJ .ivMinv .ivRight (some .ivLambda) (some .ivLambda)
  chk (q.2 = true) "generic_rigid_body_system.cpp:188"
  q.1.sleftScale 3 2 .ivJ .ivLambda .ivSreg0

/-- `GenericRigidBodySystem::processConstraints`, src/generic_rigid_body_system.cpp:97-243, without
the clock. -/
def World.genConstraints (w : World α) (raw : Output α) (mem : Store α) (s : SysState α) :
    Exec (Store α × SysState α) := do
  let mem ← loadQdot w.bodyCount s mem
  let mem ← w.genAssemble raw s mem
  let mem ← genGains w.fullCount mem
  let mem ← loadFext w.bodyCount s mem
  let mem ← genRight mem
  let mem ← w.genSolve mem
  let s ← w.applyReactions mem s
  pure (mem, s)

/-- One pass of the evaluation loop without `step` and `solve`,
src/generic_rigid_body_system.cpp:40-57. -/
def World.genEval (w : World α) (env : Env α) (x : Ctx α) (s : SysState α) :
    Exec (Ctx α × SysState α) := do
  let s ← w.processForces s
  let q ← w.genConstraints (env.raw x.evals) x.mem s
  pure (⟨q.1, x.evals + 1, fun p => x.times p + evalTimes (env.now x.evals) p⟩, q.2)

/-- The sub-steps of `process`, src/generic_rigid_body_system.cpp:34-63; a null `m_odeSolver` is
dereferenced in the first. -/
def World.genLoop (w : World α) (env : Env α) (dt : α) (steps : Int) (s : SysState α)
    (mem : Store α) : Exec (Ctx α × Option (Ode α) × SysState α) :=
  forN steps.toNat (fun _ q => do
    let o ← deref q.2.1
    let h ← Fp.div dt (Fp.lit steps)
    let z ← odeRun (w.genEval env) q.1 o q.2.2 h
    pure (z.1, some z.2.1, z.2.2)) (⟨mem, 0, fun _ => 0⟩, w.ode, s)

/-- `GenericRigidBodySystem::process`, src/generic_rigid_body_system.cpp:24-95. The reported force
of row `i_f` is `r[i_f]`. -/
def World.genProcess (w : World α) (env : Env α) (dt : α) (steps : Int) : Exec (World α) := do
  let s ← w.populateState
  let mem ← w.populateMass w.mem
  let q ← w.genLoop env dt steps s mem
  let w := { w with st := q.2.2, mem := q.1.mem, ode := q.2.1 }
  let w ← forN w.bodyCount (World.storeBody w.st) w
  let z ← w.storeForces w.st (fun jf _ => jf)
  z.1.record q.1.times

/-- `GenericRigidBodySystem::initialize`, src/generic_rigid_body_system.cpp:14-22. -/
def World.genInit (w : World α) (sle : Option (Solver α)) (ode : Option (Ode α)) :
    Exec (World α) := do
  let mem ← w.mem.init0 .ivLambda 0 0
  pure { w with sle := sle, ode := ode, mem := mem }

/-! ## Destruction -/

/-- `destroy()` of several matrices. -/
def destroyAll : List MId → Store α → Exec (Store α)
  | [], mem => .ok mem
  | t :: ts, mem => do
    let mem ← mem.destroy t
    destroyAll ts mem

/-- Destructors of several matrices. -/
def dtorAll : List MId → Store α → Exec Unit
  | [], _ => .ok ()
  | t :: ts, mem => do
    mem.dtor t
    dtorAll ts mem

/-- Destructors of several sparse matrices. -/
def sdtorAll : List SId → Store α → Exec Unit
  | [], _ => .ok ()
  | t :: ts, mem => do
    mem.sdtor t
    sdtorAll ts mem

/-- `RigidBodySystem::~RigidBodySystem`, src/rigid_body_system.cpp:22-29, and the destructor of
`m_state`; the profiling arrays are freed. -/
def World.baseDtor (w : World α) : Exec Unit := w.st.destroy.dtor

/-- `OptimizedNsvRigidBodySystem::~OptimizedNsvRigidBodySystem`,
src/optimized_nsv_rigid_body_system.cpp:12-31, followed by the destructors of the members (in
reverse order of declaration, include/optimized_nsv_rigid_body_system.h:36-52) and of the base
class. -/
def World.optDtor (w : World α) : Exec Unit := do
  let mem ← w.mem.sdestroy .ivJ
  let mem ← mem.sdestroy .ivSreg0
  let mem ← destroyAll [.ivC, .ivM, .ivMinv, .ivBErr, .ivVBias, .ivLimits, .ivQdot, .ivQdotPrime,
    .ivReg0, .ivReg1, .ivReg2, .ivRight, .ivFExt, .ivFC, .ivR, .ivLambda] mem
  dtorAll [.ivLambda, .ivR, .ivFC, .ivFExt, .ivRight, .ivReg2, .ivReg1, .ivReg0, .ivQdotPrime,
    .ivQdot, .ivLimits, .ivVBias, .ivBErr, .ivMinv, .ivM, .ivC] mem
  sdtorAll [.ivSreg0, .ivJ] mem
  w.baseDtor

/-- `GenericRigidBodySystem::~GenericRigidBodySystem`, src/generic_rigid_body_system.cpp:10-12 (it
destroys nothing), followed by the destructors of the members
(include/generic_rigid_body_system.h:28-43) and of the base class. -/
def World.genDtor (w : World α) : Exec Unit := do
  dtorAll [.ivLambda, .ivR, .ivFC, .ivFExt, .ivRight, .ivReg2, .ivReg1, .ivReg0, .ivQdot, .ivKd,
    .ivKs, .ivC, .ivMinv, .ivM, .ivJT] w.mem
  sdtorAll [.ivSreg0, .ivJdot, .ivJ] w.mem
  w.baseDtor

end

end Scs
