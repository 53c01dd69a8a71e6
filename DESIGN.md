# Formal model of simple-2d-constraint-solver: design

Source: `/repo` (C++). Model and proofs: Lean 4.33 with Mathlib, in `lean/Verif`.

## 1. Modelling decisions

* **Outcomes.** Every modelled function returns `Exec σ = Except Err σ`. `Err` separates
  `assert` (a failing `assert`, debug-build semantics), `oob`/`null`/`uninit`/`emptyVec`
  (undefined behaviour in C++), `divZero` (division by exactly zero, only raised by the
  exact-real arithmetic) and `nonterm` (a `while` loop ran out of the fuel the model gives it).
  Nothing is assumed away: "does not go wrong" is always a theorem.
* **Asserts first.** An `assert` in the code is a check in the model in the same place; memory
  accesses are checked independently, so "asserts pass, hence the access is in bounds" is proved.
* **Memory.** Arrays are sized buffers behind nullable pointers. Fresh `new double[n]` memory holds
  arbitrary contents given by an oracle (`junk`); theorems quantify over it. Pointers into
  `m_data` (the row table of `Matrix`) are offsets, `none` when uninitialised.
* **Aliasing.** Matrices live in a store indexed by identity; operations take identities, so
  `a.add(b, &a)` is expressible and the effect of aliasing is the one of the code.
* **Scalars.** The code is modelled over an arbitrary type with the C++ operations (`Fp`), so
  theorems that need no algebraic law hold for IEEE doubles (NaN, rounding) too. Theorems that
  need algebra or analysis are over `ℝ`: exact arithmetic, no rounding (stated in each theorem by
  its type). C104 connects the two: with each of the linear solvers, a program in floating point
  arithmetic (`Rounded`, instances in RoundFormat.lean) follows the program in exact arithmetic up
  to an error that vanishes with the precision.
* **Loops.** `for` loops are `forN`; `while` loops carry fuel and end in `Err.nonterm` when it runs
  out; theorems show that does not happen.
* **Virtual dispatch.** Constraints and force generators carry the function they execute, so users'
  subclasses are covered; the nine shipped constraints and four force generators are modelled too.

## 2. Modelled / not modelled

Modelled: `matrix`, `sparse_matrix`, the three SLE solvers, `system_state`, `rigid_body`, the three
ODE solvers, `rigid_body_system`, `generic_rigid_body_system`, `optimized_nsv_rigid_body_system`,
`constraint` and the shipped constraints, the shipped force generators.

Not modelled: rounding and overflow of `double` in the `ℝ` theorems (C104 relates them to rounded
arithmetic in the limit of high precision, without an explicit bound; C108 bounds the errors of
matrix products explicitly); `int` overflow of index
arithmetic (dimensions are natural numbers); the values `std::chrono` returns (an arbitrary input);
allocation failure; the rounding of the `float` result of `findAverage`; pointer validity of user objects handed to the systems (a registered body must
outlive the system; programs with several systems on one heap of bodies, constraints and force generators
are modelled in Systems.lean, C106, with shared SLE and ODE solver objects in Shared.lean, C107; changing the
parameters of a shared solver counts for a system when it is next initialized); users writing
`RigidBody::index`, the indices of constraints and generators, or the row count of a registered
constraint; user constraints that change bodies inside `calculate`; `demos/` and build files; targets whose
pointers are not 8 bytes wide (the constructor of `Constraint` clears `m_bodies` with a constant size);
what a release build (`NDEBUG`) does after a violated assert in `getRigidBody` or in the constructor of
`Constraint` (after one about the success of a solver it is modelled in Release.lean, C110; after one about
sizes and positions in matrices in MatrixRelease.lean and SparseRelease.lean, C112).

## 3. Plan per property

| id | what is modelled | how it is proved |
|----|------------------|------------------|
| C01 | row table + storage of `Matrix` | invariant (row table injective on live rows) over all API programs, then read-after-write |
| C02 | all `Matrix` functions on a store with aliasing | invariant by induction over API programs; known violation (dot/vectorMagnitudeSquared after a row swap) shown by a witness |
| C03 | initialize/resize/destroy | spec lemma per function under the invariant |
| C04 | arithmetic loops | loop invariants; result stated with sums |
| C05 | same functions, aliased target | loop invariants for entrywise functions; witnesses for multiply, transposeMultiply, transpose, rightScale |
| C06 | equals | loop invariant, early return |
| C07 | dot, vectorMagnitudeSquared | proof for unpermuted columns; witness of violation after a swap |
| C08 | set(const double*) | proof for unpermuted rows; witness of violation after a swap |
| C09 | sparse functions | each equals the dense function of the denoted matrix |
| C10 | set/get/setBlock/setEmpty | read-after-write under the invariant |
| C11 | destroy/initialize | violated: UB theorem for all sizes; partial: larger height works |
| C12 | sparse API programs | invariant by induction, excluding re-use after destroy |
| C13 | 8-bit block index | proof below 255, refutation for 255 and 256 |
| C14 | initialize | proof for all junk |
| C15 | Gaussian elimination | elimination invariant (solution set and determinant class), back substitution |
| C16 | same | result is a function of J, W, right |
| C17 | solve of Gauss-Seidel | refuted by witnesses in both directions; partial: what true implies |
| C18 | sweep | algebra, induction on rows |
| C19 | solveWithLimits | induction on sweeps |
| C20 | solveWithLimits | induction on sweeps; fixed point iff complementarity |
| C21 | sweep as coordinate descent | energy inequality per coordinate, induction |
| C22 | conjugate gradient | residual invariant |
| C23 | conjugate gradient | conjugacy/orthogonality invariant, dimension argument |
| C24 | all solvers | refuted: general theorem that the 5th argument is written |
| C25 | all solvers | frame lemmas |
| C26 | localToWorld/worldToLocal | trigonometric identity |
| C27 | velocityAtPoint | `HasDerivAt` |
| C28 | applyForce | direct, with UB case |
| C29 | resize/destroy with allocation accounting | invariant; leak refutation witness |
| C30 | copy | proof when destination is not larger; UB theorem otherwise |
| C31 | energy | algebra |
| C32, C33 | Euler, NSV loops | loop invariant |
| C34 | RK4 stages | induction over consecutive steps with an arbitrary force evaluation |
| C35 | RK4 arithmetic | refutation witness; partial: equality for accelerations depending on velocity only |
| C36 | RK4 reaction accumulation | refutation, partial formula |
| C37, C38 | calculate of each constraint | `HasDerivAt` |
| C39 | velocity constraints | algebra; constant rotation refuted (opposite sign) |
| C40 | rolling | refuted for radius other than 1; partial |
| C41 | calculate | independence of previous output; base class refuted |
| C42 | spring | action/reaction; torque refuted when damping is non-zero, proved for zero damping |
| C43 | spring/motor with index -1 | UB theorem |
| C44, C45 | motor, gravity, static force | algebra, loop invariant |
| C46 | registries | invariant over valid histories, refinement to sets |
| C47 | removed bodies | refuted |
| C48, C49 | optimized system | composition of the pieces |
| C50 | optimized system + Gauss-Seidel | composition with C19 |
| C51 | propagateResults / generic reporting | proof for optimized, refutation for generic |
| C52 | generic system | composition |
| C53 | optimized system | sum over bodies of applied reactions is zero |
| C54, C55 | clock and profiling ring | induction over calls |
| C56 | process | frame lemmas |
| C57 | removal of all constraints | refuted for Gaussian elimination, proved for the others |
| C58 | destructors | refuted for generic, proved for optimized |
| C59 | free motion | induction over sub-steps |
| C60 | optimized system | function of the registered objects |
| C62 | all solvers | invariant through every loop, any arithmetic |
| C63 | C of the position constraints | equivalence with the geometric condition, stated with localToWorld |
| C64 | spring energy | `HasDerivAt` of the energy along any motion |
| C65 | destructors of the solvers | the destructors release every member; the unused member is never allocated (frame over all histories) |
| C66 | a step as projection onto the constraint velocities | power of the reactions row by row; identity for the energies |
| C67 | moments about the origin | sum over bodies of the moments of reactions and loads; refuted for damped springs |
| C68 | outcomes of `process` in any arithmetic | weakest preconditions with the errors restricted to asserts and zero divisors, through populate, forces, assembly, solver, reactions and every ODE solver; sizes of the RK4 copies as an invariant of histories |
| C69 | sub-steps of the optimized system with Gaussian elimination | row equations of each sub-step, the nonlinear part of the motion of a point bounded by half the squared angle |
| C70 | `process` of both classes with `steps <= 0` | decomposition of `process` into populate, loop, propagate; frames of the reaction arrays; sizes as invariants |
| C71 | two runs of a program from worlds with different uninitialised memory, clocks and stale forces | relational (two-run) proof: a relation on stores, states and worlds preserved by every function of the model, for any arithmetic |
| C72 | members `m_biasFactor`, `m_sleSolver`, `m_odeSolver` | induction over histories, what `process` leaves alone |
| C73 | `setBlock`, `getBlock` with eight-bit block indices, in the assembly of the optimized system | the velocity condition of C48 in terms of the places of the constrained bodies; systems of 256 and 257 bodies as counterexamples |
| C74 | the equations of motion of a call of `process` in two frames | every constraint kind: Jacobian, error and bias of the turned constraint are the turned rows; a solution of the equations of motion seen in the frame is a solution there; solutions are unique (`World.Path.unique`) |
| C75 | the equations of motion of a call of `process` for the whole system and for a part | the rows of the part touch only its own bodies, so a solution for the whole restricts to the part and solutions for the parts join; solutions are unique (`World.Path.unique`) |
| C76 | the equations of motion of a call of `process` | the constant path with the balancing multipliers solves the equations of motion, which have only one solution; converse from Newton's law (C49) |
| C77 | the equations of motion of calls of `process` | the sub-steps of the two calls, one after the other, solve the equations of motion of the one call: forces other than those of damped motors do not depend on the accelerations, the only thing lost between calls; solutions are unique (`World.Path.unique`) |
| C78 | one sub-step of `process`, any competing velocities | virtual work: the reactions do no work on the difference of two velocities that the constraints demand, hence the deviations add up (`least_identity`) |
| C79 | two systems with the same bodies and force generators | the motion of the smaller system with zero reactions of the additional constraints solves the equations of motion of the larger one; solutions are unique (`World.Hist.follows`) |
| C80 | four systems with the same bodies and constraints | the equations of motion of one sub-step are linear in the loads; solutions are unique (`World.Move.unique`) |
| C81 | two histories whose objects are related by a conversion of units | the converted motion solves the equations of motion of the converted system (`World.Scaled.move`), row by row with a factor for each constraint row; solutions are unique (`World.Hist.follows`) |
| C82 | `Solver.solveL` of `.gs` | each row step lowers the energy by half the diagonal entry times its squared change, and the energy is bounded inside the limits, so only finitely many sweeps can fail the stopping test |
| C83 | `Solver.solveL` of `.gs` | existence by compactness of the box; the error by comparing the variational inequalities of the sweep and of the exact solution |
| C84 | `gsLoop`, `cgLoop` up to `World.process` and `World.Hist` | a relation `Kept` between executions, carried through every layer; induction over the history |
| C85 | `World.process .opt` with `Solver.gs` | C82 in every sub-step: the rows of the shipped constraints have a positive diagonal; the number of iterations found step by step, `World.process_more` keeps the earlier steps |
| C86 | `World.process .opt` with `Solver.gs` | the residual of a row after a sweep is the change of the rows swept after it; the stopping test bounds that change |
| C87 | `World.process .opt` with `Solver.gs` and `Solver.ge` | existence from C83; the kinetic energy of the difference of two steps is the work of the difference of the forces, which is bounded by the errors of the rows (C86) |
| C88 | `World.process .opt` with `Solver.gs` | energy balance of a step: the work of each row is its force times the velocity along it, which is bounded by the accuracy of C86; the limit from C87 |
| C89 | `World.process .opt` with `Solver.gs` | the matrix row of such a constraint has only its diagonal entry, so a settled sweep leaves the clamped quotient; induction over the sub-steps for braking |
| C90 | `World.process` of both systems with all ODE solvers | each sub-step (four evaluations with Runge-Kutta) adds accelerations whose mass-weighted sum is the external force because internal forces cancel; induction over the sub-steps |
| C91 | `World.process .gen` with `Solver.ge`, `Ode.rk4/euler/nsv` | each evaluation is the only solution of the constraint equations, so two systems with equal objects take equal sub-steps; induction over the sub-steps |
| C92 | `World.process .gen` with `Solver.ge`, `Ode.rk4/euler/nsv`, `World.ExactMotion` | the accelerations are a locally Lipschitz function of positions and velocities (Cramer's rule, smooth constraint functions and forces); a tube of constant radius around the exact motion; one-step error of second order for each ODE solver; discrete Gronwall inequality by induction over the sub-steps |
| C93 | `World.process .gen` with `Solver.ge`, the constraint functions of the five position constraints | chain rule along the exact motion from C37 and C38; uniqueness of the linear oscillator; C92 and smoothness of the constraint functions carry it over to `process` |
| C94 | `Body.construct`, `Body.reset`, `World.process` of both systems | the accessors of a body computed; a successful `process` has divided by every mass (C48, C91 step lemmas) |
| C95 | `World.process .opt` with `Solver.ge` | a sub-step makes `J v + v_bias = -bias/h C` for the Jacobian before the step; the position errors then contract by `1 - bias` up to a term of second order; the velocities, corrected by the difference between the constraint velocity before and after the step, follow the exact flow up to a term of second order; induction over the sub-steps; existence by Picard-Lindelöf |
| C96 | `Body.energy`, `Spring.energy`, `Gen.load`, both systems with `Solver.ge` | along an exact motion the energy has derivative `-Σ kd |relative velocity|²`, since the reactions do no work where `J v = 0`; the energy is Lipschitz near the motion, and C92 and C95 bound the distance of the simulated bodies from it |
| C97 | both systems with `Solver.ge` | an exact motion of the generic system that starts consistently keeps the constraints (its errors solve a linear homogeneous equation, C93), so it is an exact motion in the sense of C95; the scene determines both notions; C92, C95 and the triangle inequality |
| C98 | both systems with `Solver.ge` | the derivative of the angular momentum along an exact motion is the sum of the moments of the loads and reactions; undamped springs, motors and clutches have none, a link has the moment of its gap, which is zero; C92, C95 and Lipschitz continuity |
| C99 | optimized system with `Solver.gs` | an iteration that stops leaves each row with an error of at most the tolerance times a bound on the multipliers (C86), so a sub-step is a sub-step of the exact projection with a perturbation of size K d; a perturbed form of the tracking argument of C95 shows that these perturbations do not accumulate; C85 gives the number of iterations |
| C100 | optimized system with `Solver.cg` | the residual bound of C22 makes a sub-step a perturbed sub-step of the exact projection; near the exact motion the right side is of the size of the sub-step, so the relative tolerance contributes only that much; the tracking argument keeps the motion where the system is positive definite, so that C23 applies to every sub-step |
| C101 | `World.process`, both classes, any arithmetic | every access `system->p_x[b->index]` of a successful call is in range and every dereferenced pointer is set; induction over the history shows that a body that was never added has index -1 |
| C102 | `*.default`, `Con.construct`, setters | unfolding the constructors and composing with the specifications of calculate and apply of C26-C36 |
| C103 | `World.process` with `Solver.ge` | the system matrix J W Jᵀ is nonsingular exactly if no combination of rows of J vanishes; C20 and the characterisation of a sub-step give both directions; rank-nullity for the number of rows |
| C104 | `runAll` over any `Rounded` scalar | every function of the model with rounding is followed along a sequence of precisions with limit 0 through an ultrafilter: a relation `Near` of numbers, lifted to matrices, states, worlds and programs, is kept by each step; comparisons are decided alike because Gaussian elimination compares only where both outcomes give nearby results or the exact run has a strict inequality, and Gauss-Seidel and conjugate gradients compare with their tolerances, which is a strict inequality in the exact run for all but countably many tolerances (the number of iterations is bounded, so the run takes countably many values as the tolerance varies); C71 transfers the result to any memory contents |
| C105 | `runAll` of two worlds that agree on the listed objects | every function of the model reads the heaps only through registered objects and their attachments, so the two runs compute equal states and stores; each write goes to a listed object; induction over the program |
| C106 | `Systems`: one heap, any number of systems, each action acts on the view of one | induction over the program: an action of one system leaves the view of every other system in agreement on its objects (C105) |
| C107 | `Shared`: one heap, any number of systems, of solver objects and of ODE solver objects; an action works on the system's members, the matrices of the solver and the ODE solver it points to | simulation by induction over the program: the view of each system stays mated (C71) with a world that agrees with the run of its own calls, because the two-run relation asks nothing of the solver matrices, only the class of an ODE solver other than RK4, and C105 frames the rest |
| C108 | the matrix operations over any `Rounded` arithmetic | C04's formulas in any arithmetic, then induction over the number of products |
| C109 | `Store.gsSolve` as in C17 | each row update lowers the energy by a known amount, so the changes vanish; the residual of a sweep is a combination of the changes; then the termination test is evaluated in the limit |
| C110 | `World.processR`, `Op.runR`, `World.HistR` (Release.lean): the model without the asserts about solver success | `Unless` compares the two builds call by call; the invariants of C46 are proved again for release histories; the result of the iteration is a sweep from some previous multipliers, hence that of a successful one-sweep solver with some tolerance, and the theory of sub-steps applies to that world |
| C111 | mechanical energy (C96) and angular momentum (C98) of the worlds of C99 and C100 | both are locally Lipschitz functions of positions and velocities, exact along the exact motion; compose with the error bounds of C99 and C100 |
| C112 | release versions of all functions of `Matrix` and `SparseMatrix` with asserts (MatrixRelease.lean, SparseRelease.lean) | `Unless` rules for agreement; representation invariants for positions; loop invariants for sizes; a loop rule for undefined reads |
| C113 | nothing new: `World.process` of the optimized system | trapezoid rule for quadratic potentials (WorldSpring.lean), induction over the calls; Young's inequality for the bound; the area rate keeps the spring long |
| C114 | nothing new: `World.process` of the generic system | relation between two runs (`Rel`) through assembly, evaluation, ODE loop and storing of the results (WorldIgnore.lean), induction over the program; geometric decay by induction over the sub-steps |
| C115 | nothing new: `World.process` of the generic system with the Euler and semi-implicit solvers | the potential energy is quadratic in the positions (`Gen.taylor`), Newton's law per sub-step from `World.GMove`; growth of energy and area rate by induction over the sub-steps; the area rate keeps the ends apart |
| C116 | nothing new: `World.process .gen` with `Ode.rk4` | the relative acceleration at every stage is linear in the relative position (`pair_accel`); the stages are polynomials in `z`, and keep the ends of the spring apart; bounds for sine and cosine |
| C117 | nothing new: `World.process .opt` | the relative motion stays on one line; a two-term recurrence whose amplitude grows by at least z - 3, induction over the calls |
| C118 | nothing new: `World.process` of both classes | one sub-step multiplies the relative velocity by 1 - z, gravity cancels; induction over sub-steps and calls; geometric limits |
| C119 | nothing new: `World.process` of both classes | one call from zero accelerations; the clamped torque is a factor between min(ks, T/D) and ks times the missing speed, hence a contraction; beyond the threshold growth contradicts a limit |
| C120 | nothing new: `World.process` of the generic class | rows with a constant Jacobian: error and rate go through a linear map in each sub-step; its eigenvalues are inside or outside the unit circle as the coefficients of its characteristic polynomial say |
| C121 | nothing new: `World.process` of both classes | the sums over constraints and generators vanish for that body; closed form by induction over the sub-steps |
| C122 | nothing new: `World.process .opt` with `Solver.gs` | as C89: the clamped quotient in each sub-step, then induction over the sub-steps |
| C123 | nothing new: `World.process .opt` with `Solver.gs` | as C122 with the loads kept: each sub-step brakes by at least the surplus, then induction over the sub-steps |
| C124 | nothing new: `World.process .opt` with `Solver.gs` | the clamp of the solver bounds each row (C50), the Jacobian entries are 0 and ±1; sum over the attached constraints, then over the sub-steps |
| C125 | nothing new: `World.process .opt` with `Solver.gs` | as C124 with the two rows of a link, each of which pulls along one axis |
| C126 | nothing new: `World.process .opt` | below the length 0.01 only the damping acts, which is zero here; the common motion is an invariant of the sub-steps |
| C127 | nothing new: `World.process .opt` with `Solver.gs` | a single row without couplings is solved exactly by the sweep (C89); the limit DBL_MAX does not bind; induction over the sub-steps |
| C128 | nothing new: `World.process .opt` with `Solver.ge` | the velocity condition (C48) and Newton's law (C49) determine the torque |
| C129 | nothing new: sequences of `World.process .opt` with `Solver.gs` | induction over the calls with C56 (what process keeps), C85 and C123 |
| C130 | nothing new: `Solver.gs` without limits | the iterates are constant; the test of the loop evaluated on them |
| C61 | neutral gear | proved for optimized + Gauss-Seidel, refuted for the rest |

## 4. Where the code violates a property

Each violation is a theorem (a witness, or a statement for all states); the property keeps a
`_partial` theorem with the part that holds.

| id | violation |
|----|-----------|
| C02, C07, C08 | after a row swap `dot`, `vectorMagnitudeSquared` and `set(const double*)` use storage order, not row order |
| C05 | `multiply`, `transposeMultiply`, `transpose`, `rightScale` with an aliased target |
| C09, C11, C12 | `SparseMatrix` keeps its capacity after `destroy`, so re-use writes through a null pointer |
| C13 | a block index of 255 or more is lost or wraps around |
| C14 | entries of unset blocks are not zeroed |
| C17 | Gauss-Seidel reports success without convergence and failure at the exact solution (missing absolute value) |
| C24 | `solve` writes its fifth argument, which the header calls `previous` |
| C29 | `destroy` leaks when one of the two sizes is zero |
| C30 | `copy` into a larger state reads out of bounds; with zero bodies it copies nothing |
| C35, C36 | the Runge-Kutta stages use the updated velocity for positions; reactions are accumulated onto the old ones |
| C39 | the constant rotation constraint enforces the opposite speed |
| C40 | the rolling constraint is only right for radius 1 |
| C41 | the base class `calculate` leaves the output untouched |
| C42 | springs shorter than 1e-2 lose their elastic force; damping changes the total torque |
| C47 | a removed body, and every body after `reset`, keeps its index; a second removal drops another body; a static force on it acts on another body |
| C51 | the generic system reports, for every body of the first row, the force on the row's first body (it reads `r[i_f]` instead of `r[i_f * 2 + k]`) |
| C57 | with Gaussian elimination `process` cannot return once all constraints have been removed: the solver leaves the old multiplier vector, whose height then fails the assert of `leftScale` (sparse_matrix.h:245) |
| C58 | the generic system destroys none of its matrices: after a call of `process` its destructor fails the assert in matrix.cpp:23 |
| C59 | with the conjugate gradient solver a fresh system without constraints cannot be processed (assert in sparse_matrix.h:173 on the 0x0 multiplier vector) |
| C60 | without constraints, whether `process` returns depends on earlier frames (same cause as C57) |
| C61 | Gaussian elimination, conjugate gradient and the generic system ignore the limits: a gear in neutral transmits torque |
| C67 | the damping force of a spring acts along the relative velocity, not along the spring: it changes the total angular momentum |
| C68 | an RK4 solver that has served a larger system, or whose system shrank in calls without sub-steps, copies more than `m_state` holds |
| C70 | the first call with `steps <= 0` after the state grew reports uninitialised memory as constraint forces |
| C71 | Gauss-Seidel called by the generic system starts from the uninitialised vector it just allocated: success or failure depends on it |
| C73 | the sparse matrices keep block indices in eight bits with 0xFF for "empty": a constraint on the body with index 256 acts on the one with index 0 and `process` reports success, one on the body with index 255 has a zero row and Gaussian elimination fails |
| C74 | a rolling constraint in a turned frame: `C0 = -q6 - s * m_radius` uses the absolute angle of the wheel: turning the whole scene by a half turn creates a position error of pi and hence other velocities. Theorem `C74_rolling_violates`. |
| C77 | a motor with a damping coefficient: `ConstantSpeedMotor::apply` damps by `a_theta`, which `populateSystemState` sets to zero at the beginning of every call: two sub-steps in one call and two calls with one sub-step give different velocities. Theorem `C77_damped_motor_violates`. |
| C81 | Springs: no force below the absolute length 0.01, so the unit of length matters (`C81_spring_violates`). Rolling constraint: `C[0]` subtracts a product of two lengths from an angle, so its meaning depends on the unit of length (`C81_rolling_violates`). |
| C43 | springs, static forces and second motor bodies with index -1 index the state arrays with -1 |

## 5. Trusted base

Lean's kernel; the axioms `propext`, `Classical.choice`, `Quot.sound` and no others; that the
definitions in `lean/Verif` transcribe the C++ (each carries file and line references).
