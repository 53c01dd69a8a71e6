import Mathlib.Data.Finset.Insert
import Mathlib.Data.Finset.Card
import Verif.World
import Verif.Api
import Verif.StateSpec

/-!
# Histories of a rigid body system

What a program can do with one rigid body system and its objects, and the specification of the
sets of registered objects, the time and the number of frames as functions of the history alone.
-/

namespace Scs

/-- The two rigid body system classes. -/
inductive Cls where
  | opt | gen
  deriving DecidableEq, Repr

/-- One action of the program that uses the system. `new…` constructs an object at an address that
is not registered, `set…` assigns public members of an object (all but the index and the number of
rows, which belong to the library). -/
inductive Op (α : Type) where
  | addBody (b : Nat)
  | removeBody (b : Nat)
  | addCon (c : Nat)
  | removeCon (c : Nat)
  | addGen (g : Nat)
  | removeGen (g : Nat)
  | reset
  | newBody (b : Nat) (x : Body α)
  | newCon (c : Nat) (x : Con α)
  | newGen (g : Nat) (x : Gen α)
  | setBody (b : Nat) (x : Body α)
  | setCon (c : Nat) (x : Con α)
  | setGen (g : Nat) (x : Gen α)
  | init (sle : Option (Solver α)) (ode : Option (Ode α))
  | setBias (x : α)
  | process (env : Env α) (dt : α) (steps : Int)

section
variable {α : Type}

/-- An ODE solver that is not in the middle of a step. -/
def Ode.Idle [Zero α] : Ode α → Prop
  | .rk4 r => r.stage = .undefined ∧ r.nextStage = .undefined ∧ r.init.Reach ∧ r.acc.Reach
  | _ => True

/-! ## Specification -/

/-- The bodies added and not removed since, newest action first. -/
def regBodies : List (Op α) → Finset Nat
  | [] => ∅
  | .addBody b :: h => insert b (regBodies h)
  | .removeBody b :: h => (regBodies h).erase b
  | .reset :: _ => ∅
  | _ :: h => regBodies h

/-- The constraints added and not removed since. -/
def regCons : List (Op α) → Finset Nat
  | [] => ∅
  | .addCon b :: h => insert b (regCons h)
  | .removeCon b :: h => (regCons h).erase b
  | .reset :: _ => ∅
  | _ :: h => regCons h

/-- The force generators added and not removed since. -/
def regGens : List (Op α) → Finset Nat
  | [] => ∅
  | .addGen b :: h => insert b (regGens h)
  | .removeGen b :: h => (regGens h).erase b
  | .reset :: _ => ∅
  | _ :: h => regGens h

/-- The `dt` arguments of the `process` calls, newest first. -/
def processedDts : List (Op α) → List α
  | [] => []
  | .process _ dt _ :: h => dt :: processedDts h
  | _ :: h => processedDts h

/-- A valid action: objects are added once, only registered objects are removed, a registered
object is not overwritten by a new one, and an ODE solver is handed over between two steps. `G` is a
condition on the force generators. -/
def Op.Valid [Zero α] (G : Gen α → Prop) (h : List (Op α)) : Op α → Prop
  | .addBody b => b ∉ regBodies h
  | .removeBody b => b ∈ regBodies h
  | .addCon c => c ∉ regCons h
  | .removeCon c => c ∈ regCons h
  | .addGen g => g ∉ regGens h
  | .removeGen g => g ∈ regGens h
  | .newBody b _ => b ∉ regBodies h
  | .newCon c _ => c ∉ regCons h
  | .newGen g x => g ∉ regGens h ∧ G x
  | .setGen _ x => G x
  | .init _ ode => ∀ o, ode = some o → o.Idle
  | _ => True

variable [Zero α] [Add α] [Mul α] [Sub α] [Neg α] [Fp α]

/-- `process` of the class. -/
def World.process (cls : Cls) (w : World α) (env : Env α) (dt : α) (steps : Int) : Exec (World α) :=
  match cls with
  | .opt => w.optProcess env dt steps
  | .gen => w.genProcess env dt steps

/-- `initialize` of the class; the optimized system has its own ODE solver. -/
def World.initialize (cls : Cls) (w : World α) (sle : Option (Solver α)) (ode : Option (Ode α)) :
    Exec (World α) :=
  match cls with
  | .opt => .ok (w.optInit sle)
  | .gen => w.genInit sle ode

/-- The effect of an action. The constructors `RigidBody()`, `Constraint()`, `ForceGenerator()` set
the index to -1 (src/rigid_body.cpp:5-8, src/constraint.cpp:6-22) or leave it uninitialised
(src/force_generator.cpp:3-5). -/
def Op.run (cls : Cls) (op : Op α) (w : World α) : Exec (World α) :=
  match op with
  | .addBody b => .ok (w.addBody b)
  | .removeBody b => w.removeBody b
  | .addCon c => .ok (w.addCon c)
  | .removeCon c => w.removeCon c
  | .addGen g => .ok (w.addGen g)
  | .removeGen g => w.removeGen g
  | .reset => .ok w.reset
  | .newBody b x => .ok { w with bodies := upd w.bodies b { x with index := -1 } }
  | .newCon c x => .ok { w with cons := upd w.cons c { x with index := -1 } }
  | .newGen g x => .ok { w with gens := upd w.gens g x, genIndex := upd w.genIndex g none }
  | .setBody b x => .ok { w with bodies := upd w.bodies b { x with index := (w.bodies b).index } }
  | .setCon c x =>
    let x := { x with index := (w.cons c).index, rows := (w.cons c).rows }
    .ok { w with cons := upd w.cons c x }
  | .setGen g x => .ok { w with gens := upd w.gens g x }
  | .init sle ode => w.initialize cls sle ode
  | .setBias x => .ok { w with bias := x }
  | .process env dt steps => w.process cls env dt steps

/-- `World.Hist G cls h w`: after the history `h` (newest action first) of valid actions, each of
which returned, the world is `w`. All force generators that ever exist satisfy `G`. -/
inductive World.Hist (G : Gen α → Prop) (cls : Cls) : List (Op α) → World α → Prop where
  | start (bodies : Nat → Body α) (cons : Nat → Con α) (gens : Nat → Gen α)
      (genIndex : Nat → Option Int) (hg : ∀ g, G (gens g)) (j j' : Nat → Nat → α)
      (k k' : Nat → Nat → Nat) :
      Hist G cls [] (World.construct bodies cons gens genIndex (Store.fresh j k) j' k')
  | step {h : List (Op α)} {w w' : World α} (op : Op α) (hw : Hist G cls h w) (hv : op.Valid G h)
      (e : op.run cls w = .ok w') : Hist G cls (op :: h) w'

end

end Scs
