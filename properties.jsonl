{"id": "C01", "title": "Matrix element read-after-write", "statement": "After set(c,r,v) with c,r in range, get(c,r) returns v and every other in-range get returns exactly what it returned before the call; add(c,r,v) changes only that element, by v. set/get/add with an out-of-range index never reach memory: they stop at an assert.", "quantifier": "every matrix state reachable by any sequence of constructor/initialize/resize/destroy/set/add/fastRowSwap/arithmetic calls, every in-range and out-of-range index, every value", "why_tests_cant": "row pointers are permuted by fastRowSwap and relaid by resize; aliasing of two elements would only show for particular histories and shapes", "anchors": ["include/matrix.h: Matrix::set, Matrix::add, Matrix::get, Matrix::fastRowSwap", "src/matrix.cpp: Matrix::resize"]}
{"id": "C02", "title": "Matrix memory safety", "statement": "No sequence of Matrix API calls reads or writes outside an allocation, through a null pointer or through an uninitialised row pointer; the only abnormal outcome is an assert about index or dimension mismatch.", "quantifier": "all finite sequences of Matrix API calls on any number of matrices, with arbitrary aliasing between operands and target and arbitrary non-negative dimensions", "why_tests_cant": "capacity reuse in resize depends on the whole history of sizes; sanitizer runs only see the histories executed", "anchors": ["src/matrix.cpp: Matrix::resize, Matrix::destroy, Matrix::initialize, Matrix::set, Matrix::multiply, Matrix::dot, Matrix::vectorMagnitudeSquared"]}
{"id": "C03", "title": "Matrix initialize / resize / destroy lifecycle", "statement": "After initialize(w,h,v) or initialize(w,h) the matrix reports width w and height h and every element is v (resp. 0), whatever was done to it before; resize(w,h) always yields a w x h matrix, keeps all elements when the dimensions are unchanged; a destroyed matrix can be initialised again.", "quantifier": "every reachable matrix state (any history, any garbage in fresh memory), every w, h and v", "why_tests_cant": "depends on capacity bookkeeping across arbitrary histories, and on the contents of freshly allocated memory", "anchors": ["src/matrix.cpp: Matrix::initialize, Matrix::resize, Matrix::destroy"]}
{"id": "C04", "title": "Matrix arithmetic is matrix arithmetic", "statement": "With a target distinct from the operands, multiply, transposeMultiply, transpose, leftScale, rightScale, componentMultiply, add, subtract, negate, scale, madd and pmadd leave in the target the mathematical result (A*B, A^T*B, A^T, diag(s)A, A diag(s), entrywise product, A+B, A-B, -A, sA, A+sB, sA+B) with the right dimensions, and do not change the operands; mismatched dimensions stop at an assert.", "quantifier": "all dimensions (including 0), all element values, all reachable operand and target states", "why_tests_cant": "tests multiply a handful of 2x2 and 3x3 matrices; index slips show only for non-square shapes or larger sizes", "anchors": ["src/matrix.cpp: Matrix::multiply, transposeMultiply, transpose, leftScale, rightScale, componentMultiply, add, subtract, negate, scale, madd, pmadd"]}
{"id": "C05", "title": "Matrix operations may be done in place", "statement": "Passing an operand as the target gives the same result as passing a separate target.", "quantifier": "every operation with a target parameter, every choice of operand as target, all dimensions and values", "why_tests_cant": "aliasing correctness depends on the order of reads and writes for every element", "anchors": ["src/matrix.cpp: Matrix::scale, add, subtract, negate, leftScale, rightScale, componentMultiply, multiply, transposeMultiply, transpose"]}
{"id": "C06", "title": "Matrix equals is a tolerance comparison", "statement": "a.equals(b, err) is true exactly when the dimensions agree and every pair of corresponding elements differs by at most err; it is symmetric, and reflexive for err >= 0.", "quantifier": "all matrices, all err", "why_tests_cant": "universal over dimensions and values", "anchors": ["src/matrix.cpp: Matrix::equals"]}
{"id": "C07", "title": "dot and vectorMagnitudeSquared are the Euclidean products", "statement": "For column vectors u.dot(v) is the sum of products of corresponding elements as seen through get, and u.vectorMagnitudeSquared() is u.dot(u).", "quantifier": "every reachable column vector of every height", "why_tests_cant": "the code walks raw storage from row 0 instead of going through the row table, so correctness depends on the history of row swaps", "anchors": ["src/matrix.cpp: Matrix::dot, Matrix::vectorMagnitudeSquared", "include/matrix.h: Matrix::fastRowSwap"]}
{"id": "C08", "title": "Bulk load is row-major", "statement": "After m.set(data), get(c,r) returns data[r*width+c].", "quantifier": "every reachable matrix, every data array of width*height doubles", "why_tests_cant": "bulk load copies into raw storage; the answer depends on whether rows were ever swapped", "anchors": ["src/matrix.cpp: Matrix::set(const double*)", "include/matrix.h: Matrix::fastRowSwap"]}
{"id": "C09", "title": "Sparse operations agree with the dense matrix they denote", "statement": "multiply, multiplyTranspose, transposeMultiplyVector, leftScale, rightScale and expandTransposed give the same result as the corresponding dense operation on expand().", "quantifier": "all sizes, block layouts with distinct blocks per row, all values, all contents of unused entries", "why_tests_cant": "block matching loops skip empty entries; tests cover 3-row matrices with fixed layouts", "anchors": ["include/sparse_matrix.h: SparseMatrix::multiply, multiplyTranspose, transposeMultiplyVector, leftScale, rightScale, expand, expandTransposed"]}
{"id": "C10", "title": "Sparse entry read-after-write", "statement": "set(row,entry,slice,v) followed by get(row,entry,slice) gives v, leaves every other entry and every block index unchanged; setBlock changes one block index only; setEmpty removes exactly one block.", "quantifier": "all reachable sparse matrices, all in-range indices, all values", "why_tests_cant": "packed storage offsets could collide only for particular strides/heights", "anchors": ["include/sparse_matrix.h: SparseMatrix::set, get, setBlock, setEmpty"]}
{"id": "C11", "title": "A destroyed sparse matrix can be initialised again", "statement": "destroy() returns a SparseMatrix to the state of a new one: initialize(w,h) afterwards yields a usable empty w x h matrix.", "quantifier": "all previous sizes and all new sizes", "why_tests_cant": "history-dependent: capacity is kept by destroy", "anchors": ["include/sparse_matrix.h: SparseMatrix::destroy, SparseMatrix::resize"]}
{"id": "C12", "title": "Sparse memory safety", "statement": "No sequence of SparseMatrix API calls accesses memory outside its allocations or through null.", "quantifier": "all finite sequences of SparseMatrix and Matrix API calls, all sizes", "why_tests_cant": "depends on the history of heights", "anchors": ["include/sparse_matrix.h: SparseMatrix::resize, initialize, destroy, expand"]}
{"id": "C13", "title": "Sparse block indices address the body they name", "statement": "setBlock(row, entry, i) makes the entry denote columns stride*i .. stride*i+stride-1, for every block index i below width/stride.", "quantifier": "all block indices", "why_tests_cant": "block indices are stored in 8 bits with 255 reserved; tests use fewer than ten bodies", "anchors": ["include/sparse_matrix.h: SparseMatrix::setBlock, expand", "src/optimized_nsv_rigid_body_system.cpp: processConstraints", "src/generic_rigid_body_system.cpp: processConstraints"]}
{"id": "C14", "title": "A freshly initialised sparse matrix is zero", "statement": "After initialize(w,h), expand gives the zero w x h matrix and multiply gives zero vectors, whatever the matrix contained before and whatever is in fresh memory.", "quantifier": "all histories, all memory contents, all sizes", "why_tests_cant": "quantifies over uninitialised memory", "anchors": ["include/sparse_matrix.h: SparseMatrix::initialize, expand, multiply"]}
{"id": "C15", "title": "Gaussian elimination solves the system or stops", "statement": "GaussianEliminationSleSolver::solve(J,W,right,..): if J W J^T is non-singular it returns true and the written vector is the unique x with (J W J^T) x = right; if it is singular the call stops at an assert, it never returns true with a wrong answer. With zero rows it returns true.", "quantifier": "all J (any number of rows, distinct blocks per row), all W, all right hand sides, exact arithmetic", "why_tests_cant": "pivot order, row swaps and column skipping depend on the matrix; only a proof covers all of them", "anchors": ["src/gaussian_elimination_sle_solver.cpp: GaussianEliminationSleSolver::solve"]}
{"id": "C16", "title": "Gaussian elimination is history independent", "statement": "The result of solve depends only on J, W and right: not on the warm-start vector, on earlier solves with the same solver object, on permuted rows left in its scratch matrix or on uninitialised memory.", "quantifier": "all pairs of solver/result states, all warm starts, all memory contents", "why_tests_cant": "quantifies over pairs of histories", "anchors": ["src/gaussian_elimination_sle_solver.cpp: GaussianEliminationSleSolver::solve", "include/matrix.h: fastRowSwap"]}
{"id": "C17", "title": "Gauss-Seidel without limits: success means converged", "statement": "GaussSeidelSleSolver::solve returns true only if the last sweep changed every component by a relative amount below m_minDelta, and it returns true when started from the exact solution.", "quantifier": "all systems, all warm starts, all iteration limits", "why_tests_cant": "convergence reporting depends on sign and magnitude of every component", "anchors": ["src/gauss_seidel_sle_solver.cpp: GaussSeidelSleSolver::solve, solveIteration(left,right,k_next,k)"]}
{"id": "C18", "title": "Gauss-Seidel fixed points are the solutions", "statement": "Started from x, one sweep leaves x unchanged exactly when (J W J^T) x = right, provided no diagonal entry is zero.", "quantifier": "all systems and vectors", "why_tests_cant": "universal over sizes and values", "anchors": ["src/gauss_seidel_sle_solver.cpp: solveIteration(left,right,k_next,k)"]}
{"id": "C19", "title": "Limited Gauss-Seidel respects the limits", "statement": "After solveWithLimits (true or false, at least one iteration) every component lies within its [min,max], for every warm start. No shipped solver returns true with a component outside.", "quantifier": "all systems, limits with min <= max, warm starts, iteration counts", "why_tests_cant": "universal over systems and iteration counts", "anchors": ["src/gauss_seidel_sle_solver.cpp: solveWithLimits, solveIteration(left,right,limits,k_next,k)"]}
{"id": "C20", "title": "Limited Gauss-Seidel: success means a settled sweep, and settled means optimal", "statement": "solveWithLimits returns true exactly when some sweep within m_maxIterations changed no component by a relative amount of m_minDelta or more, and returns the vector after the first such sweep; a vector is unchanged by a sweep exactly when it satisfies the limits and each row is either satisfied or pushed against the limit on the right side (complementarity). The solvers without support for limits return false and change nothing.", "quantifier": "all systems with positive diagonal, all limits with min <= max, all warm starts", "why_tests_cant": "needs all iteration histories", "anchors": ["src/gauss_seidel_sle_solver.cpp: solveWithLimits, solveIteration(left,right,limits,k_next,k)"]}
{"id": "C21", "title": "Limited Gauss-Seidel never moves away from the optimum", "statement": "For W with non-negative entries and rows with positive diagonal, each sweep started inside the limits does not increase the energy x^T A x / 2 - right^T x.", "quantifier": "all systems A = J W J^T, all limits, all starting vectors inside the limits, any number of sweeps", "why_tests_cant": "an inequality over all real vectors", "anchors": ["src/gauss_seidel_sle_solver.cpp: solveIteration(left,right,limits,k_next,k)"]}
{"id": "C22", "title": "Conjugate gradient: success means small residual", "statement": "When ConjugateGradientSleSolver::solve returns true, the written vector x satisfies |right_i - ((J W J^T) x)_i| <= max(|maxError * right_i|, minError) for every row i.", "quantifier": "all J, W, right, warm starts, iteration limits, error settings; exact arithmetic", "why_tests_cant": "the code updates the residual recursively and never recomputes it; only an invariant shows it is the true residual", "anchors": ["src/conjugate_gradient_sle_solver.cpp: ConjugateGradientSleSolver::solve, sufficientlySmall"]}
{"id": "C23", "title": "Conjugate gradient succeeds within n iterations", "statement": "If J W J^T is positive definite with n rows, minError >= 0 and the iteration limit is at least n, solve returns true (exact arithmetic).", "quantifier": "all positive definite systems of all sizes, all warm starts", "why_tests_cant": "finite termination of CG is a theorem about conjugacy over all steps", "anchors": ["src/conjugate_gradient_sle_solver.cpp: ConjugateGradientSleSolver::solve"]}
{"id": "C24", "title": "solve writes the argument declared as result", "statement": "The vector passed where the public header declares `result` (4th parameter of SleSolver::solve) receives the solution and the one declared `previous` (5th) is only read.", "quantifier": "all solvers, all systems, distinct result and previous objects", "why_tests_cant": "the rigid body systems pass the same object twice, so their tests cannot see the difference", "anchors": ["include/sle_solver.h: SleSolver::solve", "src/gauss_seidel_sle_solver.cpp", "src/gaussian_elimination_sle_solver.cpp", "src/conjugate_gradient_sle_solver.cpp"]}
{"id": "C25", "title": "Solvers do not modify their inputs", "statement": "solve and solveWithLimits leave J, W, right and limits unchanged.", "quantifier": "all solvers, all systems, every outcome that returns", "why_tests_cant": "frame condition over all executions", "anchors": ["src/gauss_seidel_sle_solver.cpp", "src/gaussian_elimination_sle_solver.cpp", "src/conjugate_gradient_sle_solver.cpp"]}
{"id": "C26", "title": "Body frame conversion is an exact inverse and an isometry", "statement": "worldToLocal(localToWorld(p)) = p and localToWorld(worldToLocal(p)) = p; localToWorld preserves distances; SystemState::localToWorld agrees with RigidBody::localToWorld.", "quantifier": "all poses and points", "why_tests_cant": "trigonometric identity over all reals", "anchors": ["src/rigid_body.cpp: RigidBody::localToWorld, worldToLocal", "src/system_state.cpp: SystemState::localToWorld"]}
{"id": "C27", "title": "velocityAtPoint is the velocity of the material point", "statement": "If body position and angle move with the stored velocities, the time derivative of localToWorld(x,y) is velocityAtPoint(x,y).", "quantifier": "all poses, velocities and local points", "why_tests_cant": "a statement about derivatives", "anchors": ["src/system_state.cpp: SystemState::velocityAtPoint"]}
{"id": "C28", "title": "applyForce adds the force and its moment", "statement": "applyForce(x,y,fx,fy,body) adds (fx,fy) to that body's force and r x f to its torque, where r is the offset of the world point from the centre of mass; it changes nothing else; a body index outside the state is undefined behaviour.", "quantifier": "all states, points, forces, body indices", "why_tests_cant": "universal over states, plus frame condition", "anchors": ["src/system_state.cpp: SystemState::applyForce"]}
{"id": "C29", "title": "SystemState storage", "statement": "After resize(n,c) the state holds at least n bodies and c constraint rows and all accesses to them are in bounds; contents survive when the state is already large enough; destroy releases every allocation the state ever made.", "quantifier": "all sequences of resize/destroy calls", "why_tests_cant": "history-dependent sizes; leaks need allocation accounting over all histories", "anchors": ["src/system_state.cpp: SystemState::resize, SystemState::destroy"]}
{"id": "C30", "title": "SystemState::copy copies", "statement": "copy(src) makes every per-body and per-constraint array of the destination equal to that of src, without touching memory out of bounds.", "quantifier": "all source and destination sizes and histories", "why_tests_cant": "depends on the destination's earlier size", "anchors": ["src/system_state.cpp: SystemState::copy"]}
{"id": "C31", "title": "Kinetic energy", "statement": "RigidBody::energy is non-negative for non-negative mass and inertia, is zero exactly at rest for positive mass and inertia, and does not depend on pose.", "quantifier": "all bodies", "why_tests_cant": "universal over reals", "anchors": ["src/rigid_body.cpp: RigidBody::energy"]}
{"id": "C32", "title": "Euler step", "statement": "EulerOdeSolver advances every body by p += v*dt with the old velocity and then v += a*dt, for x, y and angle, and changes nothing else.", "quantifier": "all states of all sizes, all dt", "why_tests_cant": "universal over sizes; order of the two updates is invisible to loose tolerances", "anchors": ["src/euler_ode_solver.cpp: EulerOdeSolver::solve"]}
{"id": "C33", "title": "NSV (semi-implicit Euler) step", "statement": "NsvOdeSolver advances every body by v += a*dt and then p += v*dt with the new velocity, for x, y and angle, and changes nothing else.", "quantifier": "all states of all sizes, all dt", "why_tests_cant": "universal over sizes", "anchors": ["src/nsv_ode_solver.cpp: NsvOdeSolver::solve"]}
{"id": "C34", "title": "RK4 schedule", "statement": "After start, step reports completion on exactly the fourth call, so the step/solve loop runs four force evaluations per step and terminates; after end the solver is back in its initial stage.", "quantifier": "every force evaluation between the stages, every state, every dt, any number of consecutive steps", "why_tests_cant": "termination of a while(true) loop", "anchors": ["src/rk4_ode_solver.cpp: Rk4OdeSolver::start, step, solve, end, getNextStage", "src/generic_rigid_body_system.cpp: process"]}
{"id": "C35", "title": "RK4 is the classical fourth-order Runge-Kutta method", "statement": "One RK4 step on x'' = a(x, x') yields the classical RK4 update of the first-order system (x, v).", "quantifier": "all acceleration fields, initial states and step sizes", "why_tests_cant": "tests use constant acceleration, for which many schemes coincide", "anchors": ["src/rk4_ode_solver.cpp: Rk4OdeSolver::step, Rk4OdeSolver::solve"]}
{"id": "C36", "title": "RK4 reports stage-averaged reactions", "statement": "After a complete RK4 step the reaction arrays of the state hold the (1,2,2,1)/6 weighted average of the reactions of the four stages.", "quantifier": "all reaction histories, all states", "why_tests_cant": "reactions are never asserted in tests", "anchors": ["src/rk4_ode_solver.cpp: Rk4OdeSolver::solve"]}
{"id": "C37", "title": "Constraint Jacobians are the derivatives of the constraint functions", "statement": "For fixed position, fixed rotation, line, link and rolling constraints the reported J is the partial derivative of the reported C with respect to the positions and angles of the attached bodies.", "quantifier": "all poses and constraint parameters", "why_tests_cant": "a statement about derivatives over all reals; the test samples ten poses of one constraint with tolerance 1e-4", "anchors": ["src/fixed_position_constraint.cpp", "src/fixed_rotation_constraint.cpp", "src/line_constraint.cpp", "src/link_constraint.cpp", "src/rolling_constraint.cpp"]}
{"id": "C38", "title": "Constraint J_dot is the time derivative of J", "statement": "For the same constraints and the velocity constraints, J_dot is the time derivative of J along any motion whose instantaneous velocities are those in the state.", "quantifier": "all motions, poses, velocities and parameters", "why_tests_cant": "a statement about derivatives over all motions", "anchors": ["src/fixed_position_constraint.cpp", "src/line_constraint.cpp", "src/link_constraint.cpp", "src/rolling_constraint.cpp", "src/clutch_constraint.cpp", "src/simple_gear_constraint.cpp"]}
{"id": "C39", "title": "Velocity constraints state the intended relation", "statement": "The condition J q' + v_bias = 0 that the solver enforces says: equal angular velocities for a clutch, omega1 = ratio*omega2 for a gear, zero angular velocity for rotation friction, angular velocity m_rotationSpeed for a constant rotation constraint.", "quantifier": "all velocities and parameters", "why_tests_cant": "a sign or index error gives a wrong relation for all but special values", "anchors": ["src/clutch_constraint.cpp", "src/simple_gear_constraint.cpp", "src/rotation_friction_constraint.cpp", "src/constant_rotation_constraint.cpp"]}
{"id": "C40", "title": "Rolling constraint means rolling without slipping", "statement": "When the velocity condition of the rolling constraint holds with the base body at rest, the contact point of the rolling body (radius r, at distance r from the line) has zero velocity.", "quantifier": "all radii, directions, poses and velocities", "why_tests_cant": "the repository test uses radius 1 only", "anchors": ["src/rolling_constraint.cpp: RollingConstraint::calculate"]}
{"id": "C41", "title": "Constraints fill every output the solvers read", "statement": "After calculate, every C, J, J_dot, v_bias, limits, ks, kd entry for the constraint's own rows and bodies has been written: the result does not depend on what the output structure held before (the systems reuse one structure for all constraints).", "quantifier": "all constraint kinds, all states, all previous contents", "why_tests_cant": "stale data from the previous constraint is only visible for particular orders of constraints", "anchors": ["src/*_constraint.cpp: calculate", "src/constraint.cpp: Constraint::calculate", "src/optimized_nsv_rigid_body_system.cpp: processConstraints"]}
{"id": "C42", "title": "Springs obey action and reaction", "statement": "Spring::apply adds opposite forces to its two bodies, following Hooke's law along the line between the attachment points plus damping, adds no net force and no net torque about the origin.", "quantifier": "all states, attachment points, stiffness, damping and rest lengths", "why_tests_cant": "identity over all reals", "anchors": ["src/spring.cpp: Spring::apply"]}
{"id": "C43", "title": "Springs and motors may be attached to the fixed world", "statement": "A force generator attached to a body that is not part of the system (index -1) treats it as fixed and applies the force only to the other body.", "quantifier": "all states and poses of the fixed body", "why_tests_cant": "memory-unsafe writes to index -1 usually go unnoticed", "anchors": ["src/spring.cpp: Spring::apply", "src/constant_speed_motor.cpp: ConstantSpeedMotor::apply"]}
{"id": "C44", "title": "Motor torque is limited and balanced", "statement": "ConstantSpeedMotor::apply adds torques of equal size and opposite sign to its two bodies; the size never exceeds m_maxTorque; inside the limit it is ks*(speed - relative speed) - kd*relative acceleration.", "quantifier": "all states and parameters with m_maxTorque >= 0", "why_tests_cant": "universal over reals", "anchors": ["src/constant_speed_motor.cpp: ConstantSpeedMotor::apply"]}
{"id": "C45", "title": "Gravity and static force generators", "statement": "Gravity adds -m*g to the vertical force of every body and changes nothing else; a static force generator adds its force and moment to its body only.", "quantifier": "all states of all sizes", "why_tests_cant": "universal over sizes", "anchors": ["src/gravity_force_generator.cpp", "src/static_force_generator.cpp"]}
{"id": "C46", "title": "Registries behave as sets", "statement": "After any sequence of adding objects that are not registered and removing objects that are, the bodies (constraints, force generators) in the system are exactly those added and not removed, each once, getRigidBody(b.index) is b, and the count is right.", "quantifier": "all valid add/remove/reset histories, all three registries", "why_tests_cant": "swap-with-last removal needs an invariant over all histories", "anchors": ["src/rigid_body_system.cpp: addRigidBody, removeRigidBody, addConstraint, removeConstraint, addForceGenerator, removeForceGenerator, reset, getRigidBody"]}
{"id": "C47", "title": "A removed body is detached", "statement": "A body removed from a system (or dropped by reset) is marked as not belonging to it (index -1), so that constraints and generators still naming it do not act on other bodies and removing it twice does no harm.", "quantifier": "all histories that remove a registered body", "why_tests_cant": "stale indices act on another body only for particular removal orders", "anchors": ["src/rigid_body_system.cpp: removeRigidBody, reset"]}
{"id": "C48", "title": "A step enforces the velocity constraints", "statement": "After OptimizedNsvRigidBodySystem::process(dt,1) with the Gaussian elimination solver, the new velocities satisfy J v' + v_bias + (biasFactor/dt) C = 0 with J, C, v_bias evaluated at the start of the step.", "quantifier": "all systems with non-zero masses whose constraint matrix is non-singular, all forces, all dt != 0, any history; constraints attached to the first 255 bodies of the system (for later bodies see C73)", "why_tests_cant": "end-to-end over all systems", "anchors": ["src/optimized_nsv_rigid_body_system.cpp: process, processConstraints", "src/gaussian_elimination_sle_solver.cpp", "src/nsv_ode_solver.cpp"]}
{"id": "C49", "title": "A step obeys Newton's second law", "statement": "In each sub-step of OptimizedNsvRigidBodySystem::process every body changes velocity by dt*(external force + reported constraint forces)/mass and position by dt times its new velocity; a body in no constraint moves under the external force alone.", "quantifier": "all systems of any number of bodies and constraints of any class, all solvers, all dt and step counts, any history", "why_tests_cant": "end-to-end over all systems", "anchors": ["src/optimized_nsv_rigid_body_system.cpp: process, processConstraints, propagateResults", "src/nsv_ode_solver.cpp"]}
{"id": "C50", "title": "Reported reaction forces respect the configured limits", "statement": "With the Gauss-Seidel solver, after OptimizedNsvRigidBodySystem::process the multiplier of every constraint row divided by dt lies within the row's limits; e.g. the torque a clutch reports lies in [m_minTorque, m_maxTorque] and is equal and opposite on its two bodies.", "quantifier": "all systems, dt > 0, limits with min <= max, any history and warm start; constraints attached to the first 255 bodies of the system (for later bodies see C73)", "why_tests_cant": "end-to-end over all systems and histories", "anchors": ["src/optimized_nsv_rigid_body_system.cpp: processConstraints, propagateResults", "src/gauss_seidel_sle_solver.cpp: solveWithLimits"]}
{"id": "C51", "title": "Reported constraint forces are the applied ones", "statement": "After process, F_x[j][k], F_y[j][k], F_t[j][k] of a constraint are the force and torque that row j of the constraint applied to its k-th body in the last evaluation.", "quantifier": "all systems, both rigid body system classes; constraints attached to the first 255 bodies of the system (for later bodies see C73)", "why_tests_cant": "off-by-stride reads return plausible numbers", "anchors": ["src/optimized_nsv_rigid_body_system.cpp: propagateResults", "src/generic_rigid_body_system.cpp: process"]}
{"id": "C52", "title": "The generic system enforces the acceleration constraints", "statement": "In each evaluation of GenericRigidBodySystem with the Gaussian elimination solver the computed accelerations satisfy J a = -J_dot q' - ks C - kd J q', and M a = external force + J^T lambda.", "quantifier": "all systems with non-zero masses whose constraint matrix is non-singular, any history; constraints attached to the first 255 bodies of the system (for later bodies see C73)", "why_tests_cant": "end-to-end over all systems", "anchors": ["src/generic_rigid_body_system.cpp: processConstraints"]}
{"id": "C53", "title": "Internal constraints conserve momentum", "statement": "In a system whose only constraints are links (and clutches or gears) and whose force generators are springs and motors between system bodies, OptimizedNsvRigidBodySystem::process leaves the total linear momentum unchanged.", "quantifier": "all such systems, all solvers that report success, all dt and step counts; constraints attached to the first 255 bodies of the system (for later bodies see C73)", "why_tests_cant": "conservation law over all systems", "anchors": ["src/optimized_nsv_rigid_body_system.cpp", "src/link_constraint.cpp", "src/spring.cpp"]}
{"id": "C54", "title": "timeElapsed is the sum of processed time", "statement": "OptimizedNsvRigidBodySystem::timeElapsed() equals the sum of the dt arguments of the process calls so far.", "quantifier": "all sequences of process/add/remove/reset calls", "why_tests_cant": "induction over histories", "anchors": ["include/optimized_nsv_rigid_body_system.h: timeElapsed", "src/optimized_nsv_rigid_body_system.cpp: process"]}
{"id": "C55", "title": "Profiling averages the last 600 frames", "statement": "Each profiling getter returns 0 before the first frame and afterwards the mean of the samples of the last min(frames,600) process calls; the frame index stays in range.", "quantifier": "all numbers of frames and all sample values", "why_tests_cant": "ring buffer over unbounded histories", "anchors": ["src/rigid_body_system.cpp: findAverage, getOdeSolveMicroseconds", "src/optimized_nsv_rigid_body_system.cpp: process"]}
{"id": "C56", "title": "process only moves bodies", "statement": "process changes only position, angle and velocities of registered bodies and the reported forces of registered constraints; masses, indices, registries, other bodies and constraint parameters are unchanged.", "quantifier": "all systems and histories", "why_tests_cant": "frame condition", "anchors": ["src/optimized_nsv_rigid_body_system.cpp: process, propagateResults", "src/generic_rigid_body_system.cpp: process"]}
{"id": "C57", "title": "Constraints may be removed at any time", "statement": "A system whose constraints have all been removed can still be processed: process completes and moves the bodies under external forces.", "quantifier": "all solvers, all earlier histories", "why_tests_cant": "needs the history 'solve with constraints, then without'", "anchors": ["src/optimized_nsv_rigid_body_system.cpp: processConstraints", "src/gaussian_elimination_sle_solver.cpp: solve", "include/sparse_matrix.h: leftScale"]}
{"id": "C58", "title": "Systems can be destroyed after use", "statement": "Destroying a rigid body system after any number of process calls releases its matrices and passes the matrix destructors' assertions.", "quantifier": "both system classes, all histories", "why_tests_cant": "needs all histories; no test destroys a used system", "anchors": ["src/generic_rigid_body_system.cpp: ~GenericRigidBodySystem", "src/optimized_nsv_rigid_body_system.cpp: ~OptimizedNsvRigidBodySystem", "src/matrix.cpp: ~Matrix"]}
{"id": "C59", "title": "Free motion", "statement": "Without constraints and force generators, process(dt, steps) leaves velocities unchanged and moves every body by dt times its velocity, for every step count >= 1.", "quantifier": "all bodies, dt, step counts", "why_tests_cant": "induction over sub-steps", "anchors": ["src/optimized_nsv_rigid_body_system.cpp: process", "src/nsv_ode_solver.cpp"]}
{"id": "C60", "title": "Simulation is history independent with Gaussian elimination", "statement": "The motion computed by process depends only on the registered bodies, constraints, force generators and arguments, not on previous frames, scratch contents or uninitialised memory.", "quantifier": "all pairs of system histories with equal registered objects; constraints attached to the first 255 bodies of the system (for later bodies see C73)", "why_tests_cant": "quantifies over pairs of histories and over uninitialised memory", "anchors": ["src/optimized_nsv_rigid_body_system.cpp: process", "src/rigid_body_system.cpp: populateSystemState, populateMassMatrices"]}
{"id": "C61", "title": "A gear in neutral transmits no torque", "statement": "A SimpleGearConstraint with m_neutral set exerts no torque on its bodies.", "quantifier": "all systems containing the gear, all solvers; constraints attached to the first 255 bodies of the system (for later bodies see C73)", "why_tests_cant": "limits are honoured only by some solver/system combinations", "anchors": ["src/simple_gear_constraint.cpp: calculate", "src/optimized_nsv_rigid_body_system.cpp: processConstraints", "src/generic_rigid_body_system.cpp: processConstraints"]}
{"id": "C62", "title": "Solver calls are memory safe and terminate", "statement": "Every call of solve or solveWithLimits with a result vector returns or stops at an assert: no access outside an allocated array, no null or uninitialised pointer, no endless loop.", "quantifier": "all solvers and settings, all matrices reachable by any sequence of matrix and solver calls, every argument (also the same matrix passed twice, also wrong sizes), every arithmetic", "why_tests_cant": "quantifies over call histories and aliasing", "anchors": ["src/gauss_seidel_sle_solver.cpp", "src/gaussian_elimination_sle_solver.cpp", "src/conjugate_gradient_sle_solver.cpp"]}
{"id": "C63", "title": "C is zero exactly when the constraint is satisfied", "statement": "A position constraint reports C = 0 exactly if its geometric condition holds: fixed position: the attached point of the body is at the world point; fixed rotation: the body has the requested angle; line: the attached point lies on the line; link: the two attached points coincide; rolling (second row): the centre is at the distance of the radius from the line.", "quantifier": "all parameters (lines with a non-zero, for rolling a unit direction), all poses and velocities", "why_tests_cant": "an equivalence over all poses; a test sees single poses", "anchors": ["src/fixed_position_constraint.cpp: calculate", "src/fixed_rotation_constraint.cpp: calculate", "src/line_constraint.cpp: calculate", "src/link_constraint.cpp: calculate", "src/rolling_constraint.cpp: calculate"]}
{"id": "C64", "title": "Spring energy is the potential of the spring force", "statement": "Spring::energy() is a potential energy for the elastic force that Spring::apply exerts: however the two bodies move, its rate of change is minus the power of the elastic forces on the two attachment points; it is non-negative for non-negative stiffness, and getEnds reports the world positions of the attachment points.", "quantifier": "all motions of the two bodies, all attachment points, stiffnesses and rest lengths, springs of non-zero length", "why_tests_cant": "a test compares energies at sampled poses; the relation between the energy function and the force function is a statement about derivatives along every motion", "anchors": ["src/spring.cpp:20-104"]}
{"id": "C65", "title": "Solvers can be destroyed after use", "statement": "Destroying a GaussSeidelSleSolver, GaussianEliminationSleSolver, ConjugateGradientSleSolver or Rk4OdeSolver after any use passes the destructors' assertions of its members.", "quantifier": "all solvers, all histories of solver calls and process calls", "why_tests_cant": "needs all histories", "anchors": ["src/gauss_seidel_sle_solver.cpp: ~GaussSeidelSleSolver", "src/gaussian_elimination_sle_solver.cpp: ~GaussianEliminationSleSolver", "src/conjugate_gradient_sle_solver.cpp: ~ConjugateGradientSleSolver", "src/rk4_ode_solver.cpp: ~Rk4OdeSolver"]}
{"id": "C66", "title": "Constraint forces do no work", "statement": "When the constraints of the system are satisfied at the start of OptimizedNsvRigidBodySystem::process(dt,1) with the Gaussian elimination solver, the reported constraint forces have zero total power at the new velocities; without force generators the kinetic energy drops by exactly the kinetic energy of the velocity change, so that with positive masses it never rises. Clutches, gears and rotation friction never raise it in any number of sub-steps.", "quantifier": "all systems of shipped constraints with any number of bodies, all velocities, parameters, dt and histories; constraints attached to the first 255 bodies of the system (for later bodies see C73)", "why_tests_cant": "an identity about sums over all bodies and rows of arbitrary systems; a test samples a few systems and must use tolerances", "anchors": ["src/optimized_nsv_rigid_body_system.cpp:116-275", "src/nsv_ode_solver.cpp"]}
{"id": "C67", "title": "Internal forces conserve angular momentum", "statement": "In a system whose only constraints are links (with coinciding points) and clutches and whose force generators are springs and motors between its bodies, OptimizedNsvRigidBodySystem::process leaves the total angular momentum about the origin unchanged; a link whose points have moved apart changes it by dt times the moment of the distance of the points and the link force.", "quantifier": "all such systems, all solvers, all dt and histories; constraints attached to the first 255 bodies of the system (for later bodies see C73)", "why_tests_cant": "conservation over arbitrary systems and states; a test samples a few and the violation by damped springs depends on the direction of motion", "anchors": ["src/optimized_nsv_rigid_body_system.cpp:37-114", "src/spring.cpp:20-80", "src/link_constraint.cpp", "src/clutch_constraint.cpp"]}
{"id": "C68", "title": "process never touches foreign memory", "statement": "In a system built by any sequence of API calls, with a linear solver (and, for GenericRigidBodySystem, an ODE solver) set, whose constraints have one to three rows and are attached to registered bodies and whose force generators act on registered bodies, a call of process returns, fails one of the library's assertions or divides by zero. It never accesses an array out of bounds, dereferences a null or uninitialised pointer or frees memory twice.", "quantifier": "all histories of both system classes, all solvers, all dt and steps (zero and negative included), all contents of uninitialised storage, any number of bodies, any arithmetic", "why_tests_cant": "absence of undefined behaviour over all histories; out-of-bounds reads may go unnoticed in a test", "anchors": ["src/optimized_nsv_rigid_body_system.cpp:37-275", "src/generic_rigid_body_system.cpp:24-243", "src/rk4_ode_solver.cpp:14-160", "src/system_state.cpp:38-72"]}
{"id": "C69", "title": "Position errors are corrected", "statement": "With Gaussian elimination the optimized system removes position errors. Per sub-step the error of a fixed position, fixed rotation, link or line constraint is multiplied by 1 - biasFactor, exactly if the constraint acts on angles or at centres of mass, otherwise up to half the squared angle of the turn times the lever arm. With the default biasFactor 1 the error after a call of process is, whatever it was before, at most of that second order.", "quantifier": "all reachable systems with shipped constraints and generators, all positions, velocities and forces, all dt and numbers of sub-steps, all biasFactors; constraints attached to the first 255 bodies of the system (for later bodies see C73)", "why_tests_cant": "exact factor and remainder bound for all configurations and step sizes", "anchors": ["src/optimized_nsv_rigid_body_system.cpp:130-235", "src/nsv_ode_solver.cpp:17-40", "src/link_constraint.cpp:20-95", "src/fixed_position_constraint.cpp:20-75", "src/line_constraint.cpp:20-75"]}
{"id": "C70", "title": "process without sub-steps changes nothing", "statement": "A call of process with steps <= 0 changes neither the bodies nor the forces the constraints report.", "quantifier": "both system classes, all histories, all dt, all contents of uninitialised storage", "why_tests_cant": "holds for all histories or fails depending on what the allocator returns", "anchors": ["src/optimized_nsv_rigid_body_system.cpp:37-115", "src/generic_rigid_body_system.cpp:24-95", "src/rigid_body_system.cpp:118-146"]}
{"id": "C71", "title": "The same program gives the same results", "statement": "Two runs of the same sequence of API calls end in the same way and leave the same bodies, registrations and times, bit for bit, whatever the contents of uninitialised memory and whatever the profiling clock shows. The forces reported after a process call with at least one step are the same as well.", "quantifier": "all programs, both system classes, all solvers, any arithmetic (so floating point with its rounding), all contents of uninitialised memory, all clocks; shipped constraints attached to the first 255 bodies of the system (for later bodies see C73)", "why_tests_cant": "a relation between two executions, over all contents of uninitialised memory; a test process sees one allocator", "anchors": ["src/matrix.cpp:41-64", "src/system_state.cpp:40-110", "src/optimized_nsv_rigid_body_system.cpp:37-115", "src/generic_rigid_body_system.cpp:24-215", "src/gauss_seidel_sle_solver.cpp:22-51", "src/rk4_ode_solver.cpp:13-140"]}
{"id": "C72", "title": "Configuration in use", "statement": "After any sequence of API calls a system uses the bias factor assigned last (1 if none was), the constraint solver handed to the last initialize, and, in the generic class, an ODE solver of the class handed to it; process, reset and (de)registration change none of them.", "quantifier": "all histories of both classes", "why_tests_cant": "an invariant over all histories", "anchors": ["src/rigid_body_system.cpp:1-30", "src/optimized_nsv_rigid_body_system.cpp:1-36", "src/generic_rigid_body_system.cpp:1-23"]}
{"id": "C73", "title": "Constraints act whatever the number of bodies", "statement": "A constraint of an OptimizedNsvRigidBodySystem acts on the bodies it is attached to, however many bodies were added to the system before them: after process(dt, 1) with Gaussian elimination its velocity conditions hold.", "quantifier": "all numbers of bodies and all shipped constraints, any history", "why_tests_cant": "the block index of the sparse matrices has eight bits; tests use few bodies", "anchors": ["include/sparse_matrix.h:72-120", "src/optimized_nsv_rigid_body_system.cpp: processConstraints"]}
{"id": "C74", "title": "The frame of reference does not matter", "statement": "If a program describes the same scene in a frame of reference that is shifted, turned or moving with constant velocity (positions, velocities, angles, anchor points, directions and constant forces changed accordingly), process gives the same motion and the same constraint forces, seen in that frame, and succeeds if and only if it succeeds for the original description.", "quantifier": "all frames, all systems of shipped constraints and force generators for which the frame makes sense (no moving frame when there are constraints to fixed world points, no turned frame under gravity), all dt and step counts, any history, optimized system with Gaussian elimination", "why_tests_cant": "relates two runs for every pair of a scene and a frame; a single wrong sign in one Jacobian entry shows only in certain frames", "anchors": ["src/optimized_nsv_rigid_body_system.cpp: process", "src/*_constraint.cpp: calculate", "src/spring.cpp", "src/static_force_generator.cpp"]}
{"id": "C75", "title": "Separate mechanisms do not influence each other", "statement": "If the bodies, constraints and force generators of a system fall into groups that share no constraint and no force-transmitting generator, process moves the bodies of a group, and reports forces for its constraints, exactly as it would if the group were simulated alone; the whole is processed successfully if and only if the groups are.", "quantifier": "all systems of shipped constraints and force generators, all partitions into groups, all dt and step counts, any two histories that build the whole and the part (indices and registration order may differ), optimized system with Gaussian elimination; the claims on success are for groups with at least one constraint (see C57 for none)", "why_tests_cant": "all constraints are solved in one linear system; independence of the groups is a property of every matrix that can arise and every order of registration", "anchors": ["src/optimized_nsv_rigid_body_system.cpp: process", "src/gaussian_elimination_sle_solver.cpp: solve"]}
{"id": "C76", "title": "A system in equilibrium stays in place", "statement": "If all bodies are at rest, all constraints are met and forces along the constraints balance the forces of the generators, process leaves every body exactly where it is, whatever the time step, and the constraints report the balancing forces. Conversely, if bodies at rest do not start moving in a sub-step, the reported forces balance those of the generators.", "quantifier": "all systems of shipped constraints with independent rows, all dt and step counts, any history, optimized system with Gaussian elimination; the converse for every solver", "why_tests_cant": "quantifies over all static structures and time steps; a drift or a wrong reported force appears only in structures where the missed term is not zero", "anchors": ["src/optimized_nsv_rigid_body_system.cpp: process", "include/constraint.h: F_x, F_y, F_t"]}
{"id": "C77", "title": "Only the length of the sub-steps matters, not how they are grouped into calls", "statement": "Processing n sub-steps and then m sub-steps of the same length in a second call of process gives the same positions, velocities and reported constraint forces as n + m sub-steps in one call, and succeeds if and only if the one call does; in particular N calls with one sub-step each equal one call with N sub-steps.", "quantifier": "all systems of shipped constraints and force generators without damped motors, all n, m > 0, all sub-step lengths, any history, optimized system with Gaussian elimination; the claims on success are for systems with at least one constraint (see C57 for none)", "why_tests_cant": "relates runs of different lengths for every system; state that is carried over or dropped between calls shows only for the generators and constraints that read it", "anchors": ["src/optimized_nsv_rigid_body_system.cpp: process", "src/rigid_body_system.cpp: populateSystemState", "src/constant_speed_motor.cpp: apply"]}
{"id": "C78", "title": "Constraints change the velocities as little as possible", "statement": "After one sub-step with Gaussian elimination the velocities fulfil what the registered constraints demand, and among all velocities that do, they deviate least from those the bodies would have without constraints, where deviation is the sum of the squared differences weighted by mass and moment of inertia (Gauss's principle of least constraint); they are the only velocities with that property.", "quantifier": "all systems of shipped constraints and force generators, bodies of positive mass and moment of inertia, all sub-step lengths, any history; all competing velocities", "why_tests_cant": "compares the result with every other admissible assignment of velocities", "anchors": ["src/optimized_nsv_rigid_body_system.cpp: processConstraints", "src/gaussian_elimination_sle_solver.cpp: solve"]}
{"id": "C79", "title": "Constraints that are fulfilled anyway do nothing", "statement": "If constraints are added to a system that demand nothing but what the motion without them fulfils anyway, then the motion and the reported forces of the other constraints stay the same and the added constraints report zero forces; the sub-step succeeds if the constraints are independent.", "quantifier": "all systems of shipped constraints and force generators, all sets of additional constraints, all sub-step lengths, any histories of the two systems, optimized system with Gaussian elimination, one sub-step", "why_tests_cant": "relates two systems for every choice of the additional constraints", "anchors": ["src/optimized_nsv_rigid_body_system.cpp: processConstraints", "src/gaussian_elimination_sle_solver.cpp: solve"]}
{"id": "C80", "title": "Forces superpose", "statement": "In one sub-step the changes of velocities, positions and reported constraint forces that two groups of force generators cause together are the sums of the changes that each group causes alone, with the constraints in place.", "quantifier": "all systems of shipped constraints, all divisions of the force generators into two groups, all sub-step lengths, any histories, optimized system with Gaussian elimination", "why_tests_cant": "relates four systems for every choice of forces; solver state, clamping or forces carried over would break it only in some", "anchors": ["src/optimized_nsv_rigid_body_system.cpp: processConstraints, propagateResults", "src/rigid_body_system.cpp: processForces"]}
{"id": "C81", "title": "Units and mirror image do not matter", "statement": "If the same system is described in other units of length, time and mass, and possibly mirrored at the x axis (positions, velocities, masses, moments of inertia, all parameters of constraints and force generators and the time step converted), then process gives the same motion and the same constraint forces in the new units, and succeeds for both or for none.", "quantifier": "all units, all systems of shipped constraints and force generators, all time steps and step counts, any histories of the two systems, optimized system with Gaussian elimination", "why_tests_cant": "relates two programs for every choice of units; an absolute threshold or a wrong power of a parameter shows up only in some", "anchors": ["src/optimized_nsv_rigid_body_system.cpp: processConstraints", "src/spring.cpp: apply", "src/rolling_constraint.cpp: calculate"]}
{"id": "C82", "title": "The limited Gauss-Seidel solver succeeds if it is allowed enough iterations", "statement": "For every linear system of constraint rows, each with a positive diagonal entry of J W J^T and with limits, and for every positive tolerance there is a number of iterations from which on solveWithLimits succeeds, whatever the solver did before and whatever the warm start; an explicit number is given.", "quantifier": "all sizes, all systems including redundant and contradictory rows, all limits, tolerances and warm starts, all reachable states of the solver", "why_tests_cant": "a test only shows convergence of the systems tried; that the loop cannot run forever needs an argument about all of them", "anchors": ["src/gauss_seidel_sle_solver.cpp: solveWithLimits, solveIteration"]}
{"id": "C83", "title": "The result of the limited Gauss-Seidel solver is as accurate as its tolerance", "statement": "There is an exact solution of the limited problem (each row satisfied, or too large with its multiplier at the minimum, or too small with it at the maximum), and when solveWithLimits reports success, the result differs from it, measured by J W J^T, by at most a constant of the system times the tolerance.", "quantifier": "all sizes, systems, limits, tolerances up to 1/2, warm starts and reachable states", "why_tests_cant": "the stopping test looks only at the change of the last sweep; that a small change means a small error holds for no sample but for a whole class of systems", "anchors": ["src/gauss_seidel_sle_solver.cpp: solveWithLimits, solveIteration"]}
{"id": "C84", "title": "Allowing more iterations never changes a result", "statement": "If a program runs with an iterative solver that may take some number of iterations, then the same program with a solver of the same kind and tolerances that may take more iterations also runs, and leaves every body, every reported constraint force and all statistics the same.", "quantifier": "every arithmetic (in particular rounded), both systems, both iterative solvers, all histories of API calls, all environments", "why_tests_cant": "relates two programs over all histories", "anchors": ["src/gauss_seidel_sle_solver.cpp: solve, solveWithLimits", "src/conjugate_gradient_sle_solver.cpp: solve", "src/optimized_nsv_rigid_body_system.cpp: process", "src/generic_rigid_body_system.cpp: process"]}
{"id": "C85", "title": "With Gauss-Seidel every scene runs if enough iterations are allowed", "statement": "If all masses and moments of inertia are positive, the force limits are in order, lines have a direction and no constraint connects a body with itself, then for every tolerance, every dt > 0 and every number of sub-steps there is a number of iterations from which on process of the optimized system with Gauss-Seidel succeeds, always with the same result. The same holds for any finite sequence of calls. Redundant and contradictory constraints are allowed.", "quantifier": "all reachable systems of shipped constraints and generators, all tolerances, all sequences of frames", "why_tests_cant": "a test shows that some scenes do not fail; that no scene can fail for ever is a statement about all of them", "anchors": ["src/optimized_nsv_rigid_body_system.cpp: process", "src/gauss_seidel_sle_solver.cpp: solveWithLimits"]}
{"id": "C86", "title": "How well Gauss-Seidel satisfies the constraints", "statement": "After process(dt, 1) of the optimized system with Gauss-Seidel the forces along the rows of the constraints are within their limits, and each row of each constraint is satisfied by the new velocities up to the tolerance times the impulses along the other rows (at least a thousandth each) weighted with their effect on the row, or its force is at a limit and the bodies give way in the direction in which it holds them back. With several sub-steps this holds in each; if the only constraint has one row, the condition is met exactly.", "quantifier": "all reachable systems of shipped constraints and generators, all tolerances below 1, all dt > 0, all numbers of sub-steps and iterations", "why_tests_cant": "the stopping test looks at the change of the multipliers, not at the constraints; that the constraints are nearly satisfied in every scene needs a proof", "anchors": ["src/optimized_nsv_rigid_body_system.cpp: process, processConstraints", "src/gauss_seidel_sle_solver.cpp: solveWithLimits, solveIteration"]}
{"id": "C87", "title": "Gauss-Seidel approaches the one exact step with limited forces", "statement": "For every state there is an exact step: forces within their limits such that each constraint row is satisfied or its force is at a limit and the bodies give way; the velocities after it are determined even if the forces are not. The velocities and positions after process(dt, 1) of the optimized system with Gauss-Seidel come as close to it as wanted when the tolerance is small and enough iterations are allowed; the tolerance needed depends only on the registered objects, not on earlier calls, the order of registration or the number of iterations. Gaussian elimination gives the exact step whenever the forces it finds are within their limits.", "quantifier": "all reachable systems of shipped constraints and generators with positive masses, all dt > 0, all accuracies; all histories that end in the same objects", "why_tests_cant": "existence, uniqueness and a limit over all scenes, tolerances and warm starts", "anchors": ["src/optimized_nsv_rigid_body_system.cpp: process", "src/gauss_seidel_sle_solver.cpp: solveWithLimits", "src/gaussian_elimination_sle_solver.cpp: solve", "src/sle_solver.cpp: solveWithLimits"]}
{"id": "C88", "title": "With Gauss-Seidel, constraints add no energy beyond the tolerance", "statement": "When the registered constraints are satisfied and their torque limits allow both directions, the kinetic energy after process(dt, 1) of the optimized system with Gauss-Seidel, together with that of the velocity changes the constraints cause, is at most the kinetic energy the bodies would have without constraints plus an explicit amount proportional to the tolerance; with a small enough tolerance the excess is below any given amount. The exact step adds none. Clutches, gears and rotation friction never raise the energy by more than that in any number of sub-steps, and not at all if there is only one of them.", "quantifier": "all reachable systems of shipped constraints and generators with positive masses, all tolerances below 1, all dt > 0, all warm starts and histories", "why_tests_cant": "an inequality over all scenes, velocities, limits and warm starts", "anchors": ["src/optimized_nsv_rigid_body_system.cpp: process", "src/gauss_seidel_sle_solver.cpp: solveWithLimits", "src/clutch_constraint.cpp", "src/rotation_friction_constraint.cpp"]}
{"id": "C89", "title": "Limited friction, clutches and drives act with the torque they need, cut off at their limits", "statement": "With Gauss-Seidel, a registered constraint with one row that shares its bodies with no other constraint exerts exactly the force that satisfies it, cut off at its limits. So rotation friction brakes a body with the torque that would stop it but at most the configured one, a clutch transmits the torque that would make its bodies turn alike but at most the configured one and slips otherwise, and a constant-rotation drive likewise. Rotation friction with limit T on an otherwise torque-free body slows it at exactly T / I until it stands, for any number of sub-steps, and never reverses its rotation.", "quantifier": "all reachable scenes with such a constraint, all limits, speeds, inertias, dt > 0, numbers of sub-steps, tolerances, warm starts and histories", "why_tests_cant": "an equation over all limits, speeds, sub-steps and warm starts; the choice between holding and slipping depends on all of them", "anchors": ["src/gauss_seidel_sle_solver.cpp: solveWithLimits", "src/rotation_friction_constraint.cpp: calculate", "src/clutch_constraint.cpp: calculate", "src/constant_rotation_constraint.cpp: calculate", "src/optimized_nsv_rigid_body_system.cpp: process"]}
{"id": "C90", "title": "The centre of mass moves like a free particle", "statement": "When all registered constraints act between two bodies (links, clutches, gears, rolling contacts), a successful call of process changes the total momentum by dt times the total weight and static force. The centre of mass moves as a particle does under that force: exactly with Rk4OdeSolver; with EulerOdeSolver it lags by the fraction 1/steps of the acceleration term; with NsvOdeSolver and in the optimized system it leads by the same fraction. Springs, motors, constraints and the choice of linear solver have no influence.", "quantifier": "all reachable scenes of either system with such constraints, all linear solvers, all three shipped ODE solvers, all dt and positive numbers of sub-steps", "why_tests_cant": "an equation over all scenes, forces and numbers of sub-steps", "anchors": ["src/rk4_ode_solver.cpp", "src/euler_ode_solver.cpp", "src/nsv_ode_solver.cpp", "src/generic_rigid_body_system.cpp: process", "src/optimized_nsv_rigid_body_system.cpp: process"]}
{"id": "C91", "title": "The generic system with Gaussian elimination depends only on the registered objects", "statement": "With Gaussian elimination, two generic systems with equal registered objects and the same kind of ODE solver (Euler, semi-implicit or Runge-Kutta) move all bodies alike, whatever their histories, the order of registration and the contents of uninitialised memory; with at least one constraint they also succeed or fail alike. With Runge-Kutta, initialize must have been given a new solver and every call of process since then at least one sub-step (C68).", "quantifier": "all pairs of reachable scenes with equal registered objects, all dt and numbers of sub-steps, all three shipped ODE solvers", "why_tests_cant": "a statement about pairs of histories of any length and about uninitialised memory", "anchors": ["src/generic_rigid_body_system.cpp: process", "src/rk4_ode_solver.cpp", "src/gaussian_elimination_sle_solver.cpp: solve", "src/rigid_body_system.cpp: initialize"]}
{"id": "C92", "title": "The generic system converges to the exact motion", "statement": "If the constrained bodies have an exact motion over the time dt from their present positions and velocities (Newton's law with the registered forces and forces along the constraint rows, and J a = -J_dot v - ks C - kd J v in every row), then process of the generic system with Gaussian elimination and any of the three ODE solvers succeeds with every sufficiently large number of sub-steps, and the positions and velocities differ from the exact ones by at most a constant divided by the number of sub-steps.", "quantifier": "all reachable scenes with at least one constraint and nonzero masses whose exact motion meets no singular constraint matrix, no spring end distance of exactly 0.01 and no damped motor; all dt > 0; all sufficiently large numbers of sub-steps; all three ODE solvers", "why_tests_cant": "a limit statement over all numbers of sub-steps and all scenes", "anchors": ["src/generic_rigid_body_system.cpp: process", "src/rk4_ode_solver.cpp", "src/euler_ode_solver.cpp", "src/nsv_ode_solver.cpp", "src/gaussian_elimination_sle_solver.cpp: solve"]}
{"id": "C93", "title": "Constraint errors follow a damped oscillation with the configured ks and kd", "statement": "In the generic system with Gaussian elimination the error C of each row of a fixed position, fixed rotation, line, link or rolling constraint follows z'' = -ks z - kd z' from its present value and rate, whatever else is in the scene: after process the value and its rate differ from that oscillation by at most a constant divided by the number of sub-steps. In particular linked points that coincide and move together still do up to that error, and with ks = omega^2, kd = 2 omega the error decays without oscillating.", "quantifier": "the scenes of C92: all reachable scenes with an exact motion over dt, all dt > 0, all three ODE solvers, all sufficiently large numbers of sub-steps", "why_tests_cant": "a limit statement about all scenes, parameters and numbers of sub-steps", "anchors": ["src/generic_rigid_body_system.cpp: processConstraints", "src/link_constraint.cpp: calculate", "src/fixed_position_constraint.cpp: calculate", "src/fixed_rotation_constraint.cpp: calculate", "src/line_constraint.cpp: calculate", "src/rolling_constraint.cpp: calculate"]}
{"id": "C94", "title": "New and reset bodies are blank and need a mass", "statement": "A new RigidBody is at rest at the origin, not turned, has no mass and no energy and the index of a body in no system, whatever its memory held before. reset brings a body into the same state but keeps its index, so a registered body stays registered. A registered body left in this state makes process of either system divide by zero: the caller must set m and I.", "quantifier": "all bodies and memory contents; all reachable scenes of both systems, all time steps and numbers of sub-steps", "why_tests_cant": "all previous memory contents and all scenes in which such a body may be registered", "anchors": ["src/rigid_body.cpp: RigidBody::RigidBody", "src/rigid_body.cpp: reset", "src/rigid_body_system.cpp: populateMassMatrices"]}
{"id": "C95", "title": "The optimized system converges to the exact constrained motion", "statement": "If the bodies have an exact motion over the time dt from their present positions and velocities in which the constraints hold (Newton's law with the registered forces and forces along the constraint rows, C = 0 and J v + v_bias = 0 in every row), then process of the optimized system with Gaussian elimination and a bias factor between 0 and 2 succeeds with every sufficiently large number of sub-steps. Positions and velocities differ from the exact ones by at most a constant divided by the number of sub-steps, the constraint errors C by at most a constant divided by its square. Such a motion exists for some time wherever the constraints hold and are independent.", "quantifier": "all reachable scenes with at least one constraint and nonzero masses whose exact motion meets no singular constraint matrix, no spring end distance of exactly 0.01 and no damped motor; all bias factors in (0, 2); all dt > 0; all sufficiently large numbers of sub-steps", "why_tests_cant": "a limit statement over all numbers of sub-steps and all scenes", "anchors": ["src/optimized_nsv_rigid_body_system.cpp: process", "src/optimized_nsv_rigid_body_system.cpp: processConstraints", "src/optimized_nsv_rigid_body_system.cpp: propagateResults", "src/nsv_ode_solver.cpp: solve", "src/gaussian_elimination_sle_solver.cpp: solve"]}
{"id": "C96", "title": "Mechanical energy is conserved in the limit of small sub-steps", "statement": "Take gravity, constant forces and undamped springs whose ends are more than 0.01 apart, and constraints that hold at the start and prescribe no speed. The mechanical energy is the sum of RigidBody::energy over the bodies, Spring::energy over the springs and the potentials of gravity and the constant forces. Over every time dt in which the exact motion exists (C92 and C95 show that it exists for some time), process changes the mechanical energy by at most a constant divided by the number of sub-steps, in the optimized system with Gaussian elimination and in the generic system with every ODE solver. With damped springs the energy gained is at most a constant divided by the number of sub-steps.", "quantifier": "all reachable scenes of this kind with nonzero masses and independent constraints; all dt > 0 over which the exact motion exists and stays regular; all sufficiently large numbers of sub-steps", "why_tests_cant": "a limit statement over all numbers of sub-steps and all scenes", "anchors": ["src/rigid_body.cpp: energy", "src/spring.cpp: apply", "src/spring.cpp: energy", "src/gravity_force_generator.cpp: apply", "src/static_force_generator.cpp: apply", "src/optimized_nsv_rigid_body_system.cpp: process", "src/generic_rigid_body_system.cpp: process"]}
{"id": "C97", "title": "Both systems and all ODE solvers compute the same motion in the limit", "statement": "Register the same scene with a generic system (Euler, NSV or Runge-Kutta) and with an optimized system, both with Gaussian elimination. If the constraints hold at the start and prescribe no speed, then after process(dt, n) of the one and process(dt, k) of the other positions and velocities differ by at most E/n + E/k, where E does not depend on n and k. Two generic systems with different ODE solvers agree in this sense even if the constraints do not hold at the start.", "quantifier": "all reachable scenes with at least one constraint and nonzero masses; all dt > 0 over which the exact motion exists and stays regular; all bias factors in (0, 2); all sufficiently large numbers of sub-steps n, k", "why_tests_cant": "a limit statement over all scenes and all numbers of sub-steps, relating two implementations", "anchors": ["src/generic_rigid_body_system.cpp: process", "src/optimized_nsv_rigid_body_system.cpp: process", "src/euler_ode_solver.cpp: solve", "src/nsv_ode_solver.cpp: solve", "src/rk4_ode_solver.cpp: solve", "src/gaussian_elimination_sle_solver.cpp: solve"]}
{"id": "C98", "title": "Angular momentum is conserved in the limit of small sub-steps", "statement": "If a scene consists of links, clutches, undamped springs and motors between bodies of the system and the constraints hold at the start, then process changes the total angular momentum by at most a constant divided by the number of sub-steps, in the optimized system with Gaussian elimination and in the generic system with every ODE solver.", "quantifier": "all reachable scenes of this kind with at least one constraint and nonzero masses; all dt > 0 over which the exact motion exists and stays regular; all sufficiently large numbers of sub-steps", "why_tests_cant": "a limit statement over all numbers of sub-steps and all scenes", "anchors": ["src/optimized_nsv_rigid_body_system.cpp: process", "src/generic_rigid_body_system.cpp: process", "src/link_constraint.cpp: calculate", "src/clutch_constraint.cpp: calculate", "src/spring.cpp: apply", "src/constant_speed_motor.cpp: apply"]}
{"id": "C99", "title": "With Gauss-Seidel the optimized system follows the exact motion up to the tolerance", "statement": "If the bodies have an exact motion over the time dt in which all constraints hold, then a successful process(dt, n) of the optimized system with Gauss-Seidel and tolerance d ends within E (1/n + d) of its positions and velocities. The position error of every constraint is at most E/n (1/n + d) and the velocity along its rows misses the prescribed one by at most E (1/n + d). For each such call there is a number of iterations from which on it succeeds.", "quantifier": "all reachable scenes with positive masses; all dt > 0 over which the exact motion exists and stays regular; all bias factors in (0, 2); all sufficiently small tolerances d > 0, all sufficiently large n; all force limits beyond F (1 + d n); E, F and the thresholds depend on the scene but not on d, n, the limits, the number of iterations or the state of the solver", "why_tests_cant": "a limit statement over all scenes, tolerances and numbers of sub-steps; the error of a solver that stops early could accumulate over the sub-steps", "anchors": ["src/optimized_nsv_rigid_body_system.cpp: process", "src/gauss_seidel_sle_solver.cpp: solveWithLimits, solveIteration", "include/gauss_seidel_sle_solver.h: maxIterations, minDelta"]}
{"id": "C100", "title": "With conjugate gradients the optimized system follows the exact motion up to the absolute tolerance", "statement": "If the bodies have an exact motion over the time dt in which all constraints hold, then process(dt, n) of the optimized system with conjugate gradients succeeds and ends within E (1/n + minError) of its positions and velocities. The position error of every constraint is at most E/n (1/n + minError). The relative tolerance maxError has to be small but adds nothing to the error.", "quantifier": "all reachable scenes with at least one constraint and positive masses; all dt > 0 over which the exact motion exists and stays regular; all bias factors in (0, 2); all sufficiently small maxError and minError >= 0, all sufficiently large n, all iteration limits that are at least the number of rows", "why_tests_cant": "a limit statement over all scenes, tolerances and numbers of sub-steps; the error of a solver that stops early could accumulate over the sub-steps", "anchors": ["src/optimized_nsv_rigid_body_system.cpp: process", "src/conjugate_gradient_sle_solver.cpp: solve", "src/sle_solver.cpp: solveWithLimits", "include/conjugate_gradient_sle_solver.h: setMaxIterations, setMaxError, setMinError"]}
{"id": "C101", "title": "process accepts only objects that are attached to bodies of a system", "statement": "If process(dt, n) with n >= 1 returns normally, then every registered constraint with at least one row is attached: each of its bodies is set and has been added to a system. The same holds for the body of a static force generator, for the body a motor turns, and for the bodies of a spring that has two. A constraint that is added as it was constructed makes process fail.", "quantifier": "all histories of API calls, all scenes, any number of constraints and force generators, both systems, all linear and ODE solvers, any arithmetic (rounding included)", "why_tests_cant": "quantifies over all histories and all ways of wiring objects; a missing body is a null or an out-of-range access that need not crash when it is tested", "anchors": ["src/rigid_body_system.cpp: processForces", "src/optimized_nsv_rigid_body_system.cpp: processConstraints", "src/constraint.cpp: Constraint", "include/constraint.h: m_bodies", "src/static_force_generator.cpp: apply", "src/constant_speed_motor.cpp: apply", "src/spring.cpp: apply", "src/system_state.cpp: applyForce"]}
{"id": "C102", "title": "Objects behave as documented by their constructors and setters", "statement": "A constraint as constructed is in no system, reports no reaction, has no force limit and prescribes no speed; the constructor refuses more rows or bodies than there is room for. A fixed position constraint holds the centre of its body at the origin, a fixed rotation constraint holds angle 0, a link holds two centres together, rotation constraints and clutches stop the (relative) rotation. setLocalPosition, setWorldPosition, setLocalPosition1 and setLocalPosition2 act on exactly the point they name, in any order. Lines and rolling constraints have no direction until it is set and then do nothing. A new spring and a new static force exert nothing, new gravity is 9.81, a new motor drives at speed 1 with a torque of at most 500.", "quantifier": "all states of the bodies, all indices, all parameter values, all previous contents of the memory of the object", "why_tests_cant": "quantifies over all states; an initial value that is forgotten leaves whatever was in memory", "anchors": ["src/constraint.cpp: Constraint", "src/fixed_position_constraint.cpp", "src/fixed_rotation_constraint.cpp", "src/line_constraint.cpp", "src/link_constraint.cpp", "include/link_constraint.h: setLocalPosition1, setLocalPosition2", "src/rolling_constraint.cpp", "src/constant_rotation_constraint.cpp", "src/clutch_constraint.cpp", "src/rotation_friction_constraint.cpp", "src/simple_gear_constraint.cpp", "src/spring.cpp: Spring", "src/static_force_generator.cpp", "src/gravity_force_generator.cpp", "src/constant_speed_motor.cpp"]}
{"id": "C103", "title": "Gaussian elimination accepts a scene exactly if its constraints are not redundant", "statement": "With Gaussian elimination a sub-step of process succeeds exactly if the constraints are not redundant, that is if no forces along their rows, not all zero, cancel on every body. A call with redundant constraints fails with an assertion or a division by zero whatever the number of sub-steps. Constraints are redundant if the same constraint is added as two objects, if they have more rows than three times the number of bodies, or if one of them is a line or a rolling constraint without a direction.", "quantifier": "all reachable scenes with shipped constraints, all motions, all dt, all numbers of sub-steps; the exact criterion for positive masses and the optimized system or the generic one with Euler or NSV, the refusal for all ODE solvers and masses", "why_tests_cant": "the criterion is linear dependence of an arbitrary number of rows; pivoting could miss a pivot or accept a singular system in some scenes", "anchors": ["src/gaussian_elimination_sle_solver.cpp: solve", "src/optimized_nsv_rigid_body_system.cpp: process, processConstraints", "src/generic_rigid_body_system.cpp: process, processConstraints"]}
{"id": "C104", "title": "Rounding errors vanish with the precision of the arithmetic", "statement": "Take a program of API calls that runs through without error in exact arithmetic. For every tolerance eps there is a delta such that the same program, executed in any floating point arithmetic whose operations are accurate to delta and with all parameters given up to delta, runs through as well, whatever uninitialised memory and the clock contain: no assertion, no access out of range, no failed division. It ends with the same registrations, and every position, angle and velocity and the time are within eps of the exact ones. If the program ends with process(dt, n), n >= 1, of the optimized system, so are the forces reported by the constraints.", "quantifier": "all programs of API calls (adding, removing, changing objects, any number of calls of process) of both systems with Gaussian elimination and each ODE solver, of both systems with conjugate gradients unless an entry of a residual is exactly as large as the solver allows, and of the optimized system with Gauss-Seidel and any limits unless the largest change of a sweep is exactly the tolerance (both exclude, for a given program of the optimized system, at most countably many tolerances), all scenes of shipped constraints and force generators in which no spring is exactly 0.01 long when its force is computed, all arithmetics that meet the accuracy requirement, overflow and NaN included", "why_tests_cant": "tests run with one precision and compare with tolerances chosen for the test; the claim is about all precisions and all programs, and that no comparison or pivot choice in the code lets a tiny error decide the result", "anchors": ["src/optimized_nsv_rigid_body_system.cpp: process", "src/generic_rigid_body_system.cpp: process", "src/gaussian_elimination_sle_solver.cpp: solve", "src/gauss_seidel_sle_solver.cpp: solveWithLimits", "src/conjugate_gradient_sle_solver.cpp: solve", "src/rk4_ode_solver.cpp: solve", "src/euler_ode_solver.cpp: solve", "src/nsv_ode_solver.cpp: solve", "src/spring.cpp: apply"]}
{"id": "C105", "title": "A system depends on and changes only the objects used with it", "statement": "Take any sequence of API calls for one system that names only certain bodies, constraints and force generators, attached to no other bodies. Its outcome (the system, these objects, or the error it stops with) is the same whatever other objects the program contains, and it leaves all other objects untouched.", "quantifier": "all programs of API calls of both systems, all arithmetics, all solvers, constraints and force generators (user-defined ones provided they look only at the named bodies), all contents of the other objects", "why_tests_cant": "a test runs with one set of unrelated objects; the claim is about every possible content of everything the system was not given", "anchors": ["src/rigid_body_system.cpp: addRigidBody", "src/rigid_body_system.cpp: removeRigidBody", "src/optimized_nsv_rigid_body_system.cpp: process", "src/generic_rigid_body_system.cpp: process"]}
{"id": "C106", "title": "Systems that share no objects do not influence each other", "statement": "A program may use any number of systems, of either class, with calls in any order. If no object is used for two of them, each system and its objects end up exactly as if the calls for this system had been the whole program, and the program stops with an error only if the calls for one system alone would. (Sharing is not safe: a body added to two systems loses its index in the first, so that removing it there removes another body.)", "quantifier": "all interleavings of all programs for any number of systems, all arithmetics", "why_tests_cant": "the number of interleavings and systems is unbounded", "anchors": ["src/rigid_body_system.cpp: addRigidBody", "src/rigid_body_system.cpp: removeRigidBody", "src/optimized_nsv_rigid_body_system.cpp: process", "src/generic_rigid_body_system.cpp: process", "include/rigid_body_system.h: m_rigidBodies"]}
{"id": "C107", "title": "Systems may share solver objects", "statement": "Several systems that have no bodies, constraints or force generators in common may be initialized with the same solver object and with the same Euler, semi-implicit or base-class ODE solver object, used before or not. With their calls in any order, each system and its objects end up (reported forces and times apart) exactly as if it had new solvers of its own and its calls had been the whole program, and the program stops with an error only if the calls for one system alone would.", "quantifier": "all interleavings of all programs for any number of systems of both classes and any number of solver and ODE solver objects (an RK4 object not shared: see C68), handed over in any way and with any previous contents, any arithmetic; shipped constraints attached to the first 255 bodies of a system; in the generic system not Gauss-Seidel", "why_tests_cant": "what one system leaves behind in the solver's matrices ranges over all sizes and contents, and the number of interleavings is unbounded", "anchors": ["src/generic_rigid_body_system.cpp: initialize", "src/optimized_nsv_rigid_body_system.cpp: initialize", "src/gaussian_elimination_sle_solver.cpp: solve", "src/gauss_seidel_sle_solver.cpp: solve", "src/conjugate_gradient_sle_solver.cpp: solve"]}
{"id": "C108", "title": "Matrix products are accurate to rounding", "statement": "In floating-point arithmetic each entry computed by `multiply` and `transposeMultiply`, and the results of `dot` and `vectorMagnitudeSquared`, differ from the exact value for the given (finite) entries by at most ((1+u)^(2n) - 1) times (1 + n + the sum of the absolute products), where n is the number of products and u the rounding error, as long as u times (1+u)^(2n) times that sum does not exceed 1; the results are finite.", "quantifier": "all matrices of all sizes with finite entries in range, all earlier calls; any arithmetic whose operations round with a relative-or-absolute error u (such as `double`)", "why_tests_cant": "sizes and entries are unbounded, and the sizes of the exact results are not available to a test that computes in the same arithmetic", "anchors": ["src/matrix.cpp: multiply", "src/matrix.cpp: transposeMultiply", "src/matrix.cpp: dot", "src/matrix.cpp: vectorMagnitudeSquared"]}
{"id": "C109", "title": "Gauss-Seidel without limits approaches the solution", "statement": "For constraint rows with a positive definite J W J^T, the sweeps of `solve` without limits approach the solution from every start: with enough iterations allowed, a call that reports failure has nevertheless written the solution up to any given error. If every component of the solution is above -(1+tolerance)/1000, calls succeed from some number of iterations on, all with the same result. If some component is below, there is a number of iterations after which more iterations never turn a failure into a success.", "quantifier": "all systems of all sizes with positive definite J W J^T, all starting vectors, all positive tolerances and numbers of iterations, all histories of the solver object", "why_tests_cant": "convergence is a statement about the limit of unboundedly many iterations, for all systems and starts", "anchors": ["src/gauss_seidel_sle_solver.cpp: solve", "src/gauss_seidel_sle_solver.cpp: solveIteration"]}
{"id": "C110", "title": "Release builds", "statement": "With NDEBUG, where the asserts about the success of the solver are not compiled, `process` does exactly what it does in a debug build whenever that returns; unless the solver is Gaussian elimination the outcome differs only where the debug build stops in an assert, and every history of a debug build is one of a release build. With Gauss-Seidel and sensible objects every call in the optimized system returns, for any tolerance and any number of iterations but 0: each sub-step follows Newton's law for the external forces and reactions within their limits, the reported forces are these reactions, each row is met up to the effect of the last change of the other impulses, and a single row is met exactly or is at its limit. With a tolerance of 0 the debug build always stops. Conjugate gradients that do not reach their tolerance leave the previous multipliers in place.", "quantifier": "all histories of calls in release builds, all registered standard objects, all force generators that only apply forces, all time steps and numbers of sub-steps, all tolerances and iteration limits", "why_tests_cant": "the behaviour after a solver that did not converge depends on the state of the iteration when it stopped, for every scene and every history", "anchors": ["src/optimized_nsv_rigid_body_system.cpp: processConstraints", "src/generic_rigid_body_system.cpp: processConstraints", "src/gaussian_elimination_sle_solver.cpp: solve", "src/gauss_seidel_sle_solver.cpp: solveWithLimits", "src/conjugate_gradient_sle_solver.cpp: solve"]}
{"id": "C111", "title": "Iterative solvers keep energy and angular momentum up to their tolerance", "statement": "If the constraints hold at the start and the bodies have an exact constrained motion over the time dt, the optimized system with Gauss-Seidel or with conjugate gradients keeps the mechanical energy of scenes with gravity, constant forces and undamped springs, and the angular momentum of bodies joined by links, clutches, undamped springs and motors, up to a constant times the length of a sub-step plus the tolerance of the solver; damped springs do not make the energy grow by more than that. The constant depends neither on the number of sub-steps nor on the tolerance, the number of iterations or the force limits.", "quantifier": "all histories of the optimized system, all registered standard objects, all durations, all sufficiently small tolerances, all sufficiently large numbers of sub-steps, all iteration limits, all sufficiently large force limits", "why_tests_cant": "an error bound with one constant for all tolerances and all numbers of sub-steps", "anchors": ["src/optimized_nsv_rigid_body_system.cpp: process", "src/gauss_seidel_sle_solver.cpp: solveWithLimits", "src/conjugate_gradient_sle_solver.cpp: solve", "src/rigid_body.cpp: energy", "src/spring.cpp: energy"]}
{"id": "C112", "title": "Matrix functions in release builds", "statement": "With asserts compiled out, every function of Matrix and SparseMatrix does exactly what it does in a debug build unless the debug build stops at an assert. Where it does stop: element access beyond the right edge reads or writes the element with the same row-major position; elementwise functions, products and scalings silently cut a larger second operand to the part that is needed; an operand without memory for a row that is needed gives undefined behaviour; expand of a matrix with a block beyond its width overwrites other rows.", "quantifier": "all reachable states of all matrix objects, all sizes, all contents, all targets other than the second operand", "why_tests_cant": "agreement for all states and operands; which element a wrong index reaches depends on the size and has to be shown for every size", "anchors": ["include/matrix.h: set, get, add", "src/matrix.cpp: multiply, transposeMultiply, componentMultiply, leftScale, rightScale, add, subtract, madd, pmadd, dot", "include/sparse_matrix.h: set, get, expand, multiply, multiplyTranspose, transposeMultiplyVector"]}
{"id": "C113", "title": "Undamped springs neither gain nor lose energy over long times", "statement": "Without constraints, repeated process(dt, 1) of the optimized system with gravity, constant forces at centres and undamped springs of rest length zero between centres keeps the mechanical energy plus half of dt times the power of the forces exactly, as long as no spring gets shorter than 0.01. With springs only and steps short for the stiffness at every body the energy therefore stays between fixed multiples of its first value for any number of calls. Two bodies that circle each other fast enough on such a spring do so forever: every call succeeds, they never get closer than 0.01, and the line between them sweeps out area at a constant rate.", "quantifier": "all reachable systems without constraints, all masses, stiffnesses and time steps within the stated condition, all numbers of calls", "why_tests_cant": "a statement about infinitely many calls; a test runs finitely many and cannot tell a slow drift of the energy from a bounded oscillation", "anchors": ["src/nsv_ode_solver.cpp: solve", "src/spring.cpp: apply, energy", "src/optimized_nsv_rigid_body_system.cpp: process", "src/rigid_body.cpp: energy"]}
{"id": "C114", "title": "The generic system ignores drive speeds, torque and force limits, neutral gears and the bias factor", "statement": "Two programs for the generic system that differ only in the configured speed and torque limits of constant-rotation drives, the torque limits of clutches and frictions, the maximal force of links, whether gears are in neutral, and the bias factor behave identically: same errors, same bodies, same reported forces, same times. With Gaussian elimination and the Euler or the semi-implicit solver a drive and a friction each take the part kd*h of the angular velocity of their body in every sub-step, and clutches and gears, in neutral or not, the same part of the speed difference, whatever else acts; a driven body therefore slows down to rest instead of reaching the configured speed.", "quantifier": "all programs, all initial systems, all arithmetics, linear solvers and ODE solvers for the first part; all reachable standard systems, numbers of steps and time steps for the second", "why_tests_cant": "it compares all pairs of programs, over unboundedly many actions and arbitrary parameters; a test compares a few pairs", "anchors": ["src/generic_rigid_body_system.cpp: processConstraints", "src/constant_rotation_constraint.cpp: calculate", "src/clutch_constraint.cpp: calculate", "src/rotation_friction_constraint.cpp: calculate", "src/simple_gear_constraint.cpp: calculate", "src/link_constraint.cpp: calculate"]}
{"id": "C115", "title": "The explicit Euler solver adds energy to undamped springs, without bound", "statement": "In a generic system without constraints, with gravity, constant forces at centres and undamped springs of rest length zero between centres (at least 0.01 long), one call process(dt, 1) with the explicit Euler solver changes the mechanical energy by exactly the kinetic energy of the changes of the velocities plus dt^2/2 times stiffness times squared relative velocity of the ends of every spring; so it never falls, and it stays the same only if no velocity changes and no spring has ends in relative motion. Two bodies circling each other on such a spring gain the factor 1 + s^2*ks*(1/m1 + 1/m2) of relative energy in every sub-step of length s, and their energy exceeds every bound after enough sub-steps however short they are. With the semi-implicit solver the generic system keeps the quantity of C113.", "quantifier": "all reachable generic systems without constraints, all networks of such springs, all time steps, all numbers of sub-steps, all bounds", "why_tests_cant": "the exact balance is for all configurations and the growth for all numbers of sub-steps; a test follows a few trajectories of bounded length and cannot tell growth below its tolerance from rounding", "anchors": ["src/euler_ode_solver.cpp: solve", "src/nsv_ode_solver.cpp: solve", "src/generic_rigid_body_system.cpp: process", "src/spring.cpp: apply"]}
{"id": "C116", "title": "The Runge-Kutta solver is not of fourth order and brakes rotations", "statement": "In a generic system whose only force is an undamped spring of rest length zero between the centres of two bodies that would stay 1/50 apart on straight lines, with z = dt^2*ks*(1/m1 + 1/m2) <= 1/2, a call process(dt, 1) with the Runge-Kutta solver changes the relative position and velocity by explicit polynomials in z. The relative velocity differs from the exact motion at time dt by ks^2*(1/m1 + 1/m2)^2*d*dt^3/6 up to order dt^4 (a method of fourth order errs by dt^5), and the angular momentum of the bodies about each other, which the exact motion keeps, is multiplied by 1 - z^2/24 + z^3/288 - z^4/576 < 1.", "quantifier": "all reachable generic systems of this kind, all masses, stiffnesses, positions, velocities and time steps", "why_tests_cant": "the order of a method is a statement about all small time steps; a test measures the error at a few of them and accepts a tolerance", "anchors": ["src/rk4_ode_solver.cpp: step", "src/rk4_ode_solver.cpp: solve", "src/generic_rigid_body_system.cpp: process", "src/spring.cpp: apply"]}
{"id": "C117", "title": "Springs that are too stiff for the time step fly apart", "statement": "In an optimized system without constraints whose only force is an undamped spring of rest length zero between the centres of two bodies that rest relative to each other at least 0.01 apart, with z = dt^2*ks*(1/m1 + 1/m2) > 4, every call process(dt, 1) succeeds and multiplies the distance of the bodies by at least z - 3 > 1, so that it exceeds every bound for good. For equal masses this is exactly the bound below which C113 keeps the energy bounded.", "quantifier": "all reachable optimized systems of this kind, all masses, stiffnesses, positions and time steps with z > 4, all numbers of calls", "why_tests_cant": "divergence is a statement about unboundedly many calls and the threshold a statement about all parameters; a test runs a few parameters for a bounded time", "anchors": ["src/optimized_nsv_rigid_body_system.cpp: process", "src/nsv_ode_solver.cpp: solve", "src/spring.cpp: apply"]}
{"id": "C118", "title": "Dampers slow the bodies down only below a critical damping", "statement": "Two bodies without constraints, joined by a damper (a spring with ks = 0 between the centres), with no other forces than gravity. In the optimized system, and in the generic one with the explicit or the semi-implicit solver, every sub-step multiplies both components of their relative velocity by 1 - z, where z is the length of the sub-step times kd*(1/m1 + 1/m2): for z > 1 the velocity is reversed. With the Runge-Kutta solver the factor is 1 - z + z^2/2 - z^3/6 + z^4/24, which is positive, less than one for 0 < z <= 2.7 and greater than one for z >= 2.8. If 0 < z < 2, the relative speed tends to zero under repeated calls process(dt, 1) of the optimized system; if z > 2 and they are not at relative rest, it grows beyond every bound.", "quantifier": "all reachable systems of this kind, all masses, dampings, gravities, velocities, time steps and numbers of sub-steps, all numbers of calls", "why_tests_cant": "a closed form for every number of sub-steps and a limit over infinitely many calls, with an exact threshold on the parameters", "anchors": ["src/optimized_nsv_rigid_body_system.cpp: process", "src/generic_rigid_body_system.cpp: process", "src/euler_ode_solver.cpp: solve", "src/nsv_ode_solver.cpp: solve", "src/spring.cpp: apply"]}
{"id": "C119", "title": "Constant-speed motors: damping without effect, convergence and hunting", "statement": "Two bodies without constraints, driven by a ConstantSpeedMotor, with no other forces than gravity. A call process(dt, 1) of the optimized system, or of the generic one with the explicit or the semi-implicit solver, changes their relative angular speed by dt*(1/I0 + 1/I1) times the clamped torque ks*(speed - relative speed): the damping kd has no effect, because the accelerations it acts on are reset by every call. If 0 < dt*ks*(1/I0 + 1/I1) < 2, the relative speed never gets further from that of the motor and tends to it under repeated calls, whatever the positive limit on the torque; if the number exceeds two, a relative speed close to that of the motor is thrown further away by the next call, and the relative speed does not tend to that of the motor unless it hits it exactly.", "quantifier": "all reachable systems of this kind, all inertias, motor parameters, speeds and time steps, all numbers of calls", "why_tests_cant": "limits over infinitely many calls and independence of a parameter for all values", "anchors": ["src/constant_speed_motor.cpp: apply", "src/optimized_nsv_rigid_body_system.cpp: process", "src/generic_rigid_body_system.cpp: process"]}
{"id": "C120", "title": "Constraint errors in the generic system die out or grow without bound, depending on the sub-step", "statement": "In the generic system with Gaussian elimination each sub-step of length s takes the error x of a fixed rotation, of a pinned centre, of a centre on a line or of two linked centres and its rate v through v' = v - s*(ks*x + kd*v), x' = x + s*v (Euler solver) or x' = x + s*v' (semi-implicit solver), exactly, whatever else is in the scene. So with ks > 0 error and rate tend to zero with the number of sub-steps if s*ks < kd and 2*s*kd < 4 + s^2*ks (Euler), or kd > 0 and 2*s*kd + s^2*ks < 4 (semi-implicit), and an error with zero rate grows beyond every bound if kd < s*ks or 2*s*kd > 4 + s^2*ks (Euler), or kd < 0 or 2*s*kd + s^2*ks > 4 (semi-implicit). With the values of a new constraint, ks = 10 and kd = 1, the explicit solver needs sub-steps below 0.1; undamped constraints always fly off with it, while the semi-implicit solver keeps a quadratic form of error and rate constant. With the Runge-Kutta solver each sub-step is an explicit linear map of the same kind, under which the error of an undamped constraint, which should oscillate for ever, dies out if s^2*ks <= 4.28 and, with zero rate at the start, grows beyond every bound if s^2*ks >= 4.29; with damping kd >= 0 it dies out if s*kd <= 1 and s^2*ks <= 3.", "quantifier": "all reachable generic systems with such a constraint for which the calls succeed, all other constraints and forces, all parameters, all lengths and numbers of sub-steps", "why_tests_cant": "a limit over infinitely many sub-steps with an exact threshold on the parameters", "anchors": ["src/generic_rigid_body_system.cpp: process", "src/generic_rigid_body_system.cpp: processConstraints", "src/euler_ode_solver.cpp: solve", "src/nsv_ode_solver.cpp: solve", "src/rk4_ode_solver.cpp: step", "src/fixed_rotation_constraint.cpp: calculate", "src/fixed_position_constraint.cpp: calculate", "src/line_constraint.cpp: calculate", "src/link_constraint.cpp: calculate"]}
{"id": "C121", "title": "A body to which nothing is attached moves as a free particle", "statement": "If no registered constraint, spring or motor refers to a body, a successful call process(dt, steps) changes its velocity by dt*a, where a is its acceleration under gravity and the static forces on it, and moves it by dt*v + dt^2/2*a: exactly with Rk4OdeSolver, with a factor 1 - 1/steps of the last term with EulerOdeSolver, and 1 + 1/steps with NsvOdeSolver and in the optimized system. If the static forces on it act at its centre, it keeps its angular velocity and turns by dt times it. What happens to the other bodies has no influence.", "quantifier": "all reachable scenes of either system, all linear solvers, all three shipped ODE solvers, all other constraints and forces, all dt and positive numbers of sub-steps", "why_tests_cant": "independence from everything else in the scene and a closed form for every number of sub-steps", "anchors": ["src/optimized_nsv_rigid_body_system.cpp: process", "src/generic_rigid_body_system.cpp: process", "src/gravity_force_generator.cpp: apply", "src/static_force_generator.cpp: apply", "src/rk4_ode_solver.cpp", "src/euler_ode_solver.cpp", "src/nsv_ode_solver.cpp"]}
{"id": "C122", "title": "A torque-limited drive or clutch brings the speeds together at a constant rate and then holds", "statement": "In the optimized system with GaussSeidelSleSolver, if no other constraint shares the bodies and no other torques act: a ConstantRotationConstraint with limits -T and T changes the angular velocity during a call process(dt, steps) so that its distance from -m_rotationSpeed becomes max(0, distance - dt*T/I), without passing it; a ClutchConstraint with limits -T and T reduces the difference of the two angular velocities to max(0, difference - dt*T*(1/I1 + 1/I2)) without changing its sign and keeps I1*w1 + I2*w2.", "quantifier": "all reachable scenes, all torque limits, moments of inertia, starting speeds, dt > 0 and positive numbers of sub-steps", "why_tests_cant": "a closed form over any number of sub-steps, through the moment at which the limit ceases to bind, for all parameters", "anchors": ["src/optimized_nsv_rigid_body_system.cpp: process", "src/gauss_seidel_sle_solver.cpp: solveWithLimits", "src/constant_rotation_constraint.cpp: calculate", "src/clutch_constraint.cpp: calculate"]}
{"id": "C123", "title": "Limited friction, drives and clutches hold against torques within their limit", "statement": "In the optimized system with GaussSeidelSleSolver, if no other constraint shares the bodies and the torque of the force generators on the body is at most L in every state: a RotationFrictionConstraint with limits -T and T, T >= L, leaves at most max(0, |v_theta| - dt*(T-L)/I) of the angular velocity after process(dt, steps), and a body at rest has the same angle and v_theta = 0 afterwards; a ConstantRotationConstraint does the same for v_theta + m_rotationSpeed, and a body at the speed -m_rotationSpeed keeps it; a ClutchConstraint whose bodies the force generators speed up differently by at most L <= T*(1/I1 + 1/I2) leaves at most max(0, difference - dt*(T*(1/I1 + 1/I2) - L)) of the difference of the angular velocities, and equal angular velocities stay equal.", "quantifier": "all reachable scenes, all force generators within the bound, all torque limits, moments of inertia, starting speeds, dt > 0 and positive numbers of sub-steps", "why_tests_cant": "holds for every time-varying torque within the bound and any number of sub-steps; tests see single load cases", "anchors": ["src/optimized_nsv_rigid_body_system.cpp: process", "src/gauss_seidel_sle_solver.cpp: solveWithLimits", "src/rotation_friction_constraint.cpp: calculate", "src/constant_rotation_constraint.cpp: calculate", "src/clutch_constraint.cpp: calculate"]}
{"id": "C124", "title": "Frictions, drives and clutches change the speed of a body at most by what their torque limits allow", "statement": "In the optimized system with GaussSeidelSleSolver, if only RotationFriction, ConstantRotation and Clutch constraints are attached to a registered body, a call process(dt, steps) changes its angular velocity by at most dt*(L + sum of the torque limits of the attached constraints)/I, where L bounds the torque of the force generators on it; the velocity of its centre changes by at most dt*L/m along x and along y, where L bounds the force of the force generators, so that it does not change where no force acts.", "quantifier": "all reachable scenes with any number of constraints and any other mechanisms, all limits, masses, dt > 0 and positive numbers of sub-steps", "why_tests_cant": "a bound over every mechanism, every state of the other bodies and every number of sub-steps", "anchors": ["src/optimized_nsv_rigid_body_system.cpp: process", "src/gauss_seidel_sle_solver.cpp: solveWithLimits", "src/rotation_friction_constraint.cpp: calculate", "src/constant_rotation_constraint.cpp: calculate", "src/clutch_constraint.cpp: calculate"]}
{"id": "C125", "title": "Links give way beyond their force limit", "statement": "In the optimized system with GaussSeidelSleSolver, if only LinkConstraints and constraints that turn bodies (friction, drive, clutch) are attached to a registered body, then along x and along y its velocity after process(dt, steps) differs from the one that the forces of the force generators alone would give by at most dt*F/m, where F is the sum of m_maxForce over the attached links: if the force of the generators lies between f and g in every state, the velocity lies between v + dt*(f - F)/m and v + dt*(g + F)/m. In particular a body whose weight exceeds what its links can carry falls.", "quantifier": "all reachable scenes with any number of links and any other mechanisms, all limits, masses, dt > 0 and positive numbers of sub-steps", "why_tests_cant": "a two-sided bound over every mechanism, every state of the other bodies and every number of sub-steps", "anchors": ["src/optimized_nsv_rigid_body_system.cpp: process", "src/gauss_seidel_sle_solver.cpp: solveWithLimits", "src/link_constraint.cpp: calculate"]}
{"id": "C126", "title": "Springs shorter than 0.01 have no stiffness", "statement": "In the optimized system with any solver, take two registered bodies to which no constraint is attached, and as force generators only gravity and Springs from the centre of the first to a point of the second whose ends are less than 0.01 apart. If the two bodies have the same velocity and the second does not turn, then after every successful process(dt, steps) they still have the same velocity and the same distance along x and y, and the second still does not turn: whatever m_restLength, m_ks and m_kd, the compressed spring never pushes them apart.", "quantifier": "all reachable scenes of this kind, any number of springs, all rest lengths, stiffnesses and dampings, all masses, dt and numbers of sub-steps", "why_tests_cant": "the effect is the absence of motion over any number of sub-steps for all parameters", "anchors": ["src/spring.cpp: apply", "src/optimized_nsv_rigid_body_system.cpp: process"]}
{"id": "C127", "title": "Fixed rotations and gears are exact with the Gauss-Seidel solver as well", "statement": "In the optimized system with GaussSeidelSleSolver, if no other constraint shares the bodies and the torque that is needed stays below DBL_MAX: process(dt, steps) multiplies the deviation of the angle of a body with a FixedRotationConstraint by (1 - biasFactor)^steps for bias factors from 0 to 2; after every call the angular velocities of the two bodies of a SimpleGearConstraint that is not in neutral follow v1 = m_ratio * v2 exactly. Neither depends on m_minDelta, m_maxIterations or the torques of the force generators.", "quantifier": "all reachable scenes, all ratios, angles, moments of inertia, starting speeds, bounded torques, dt > 0 and positive numbers of sub-steps", "why_tests_cant": "an exact law for all tolerances of an iterative solver, all loads and all numbers of sub-steps", "anchors": ["src/optimized_nsv_rigid_body_system.cpp: process", "src/gauss_seidel_sle_solver.cpp: solveWithLimits", "src/fixed_rotation_constraint.cpp: calculate", "src/simple_gear_constraint.cpp: calculate"]}
{"id": "C128", "title": "With Gaussian elimination torque limits have no effect", "statement": "In the optimized system with GaussianEliminationSleSolver, a successful process(dt, 1) brings a body with a ConstantRotationConstraint as its only constraint to the angular velocity -m_rotationSpeed, and one with a RotationFrictionConstraint as its only constraint to rest; the reported torque F_t[0][0] is the torque needed for this, -(v_theta + speed)*I/dt minus the torque of the force generators, whatever m_minTorque and m_maxTorque are. Two bodies with a ClutchConstraint as their only constraint have the same angular velocity after it; the torques are opposite, with F_t[0][1] the difference of the angular velocities they would have without the clutch divided by dt*(1/I1 + 1/I2). In particular the torques exceed the limits when these are small.", "quantifier": "all reachable scenes, all limits, speeds, moments of inertia, force generators and dt > 0", "why_tests_cant": "an exact formula for all scenes and limits; a test shows single torques", "anchors": ["src/optimized_nsv_rigid_body_system.cpp: processConstraints", "src/gaussian_elimination_sle_solver.cpp: solve", "src/sle_solver.cpp: supportsLimits", "src/constant_rotation_constraint.cpp: calculate", "src/rotation_friction_constraint.cpp: calculate"]}
{"id": "C129", "title": "Over any sequence of process calls a braked body stops and then never turns again", "statement": "In the optimized system with GaussSeidelSleSolver: for every finite sequence of process calls with dt > 0 there is an iteration limit from which on all of them succeed. If a body has a RotationFrictionConstraint with limits -T, T as its only constraint and all force generators together turn it with at most L <= T, then after any calls process(dt_i, steps_i) its angular speed is at most max(0, |v_theta| - (sum of dt_i)*(T-L)/I), and once it is zero it stays zero and theta never changes. The same holds for a ConstantRotationConstraint relative to its speed, which the body then keeps, turning evenly. Likewise for the difference of the angular velocities of two bodies with a ClutchConstraint: it shrinks with the total time and the bodies turn alike from then on.", "quantifier": "all reachable scenes, all sequences of dt_i > 0 and steps_i > 0, all bounded other torques", "why_tests_cant": "a test runs one sequence of calls; this is an induction over all sequences", "anchors": ["src/optimized_nsv_rigid_body_system.cpp: process", "src/gauss_seidel_sle_solver.cpp: solveWithLimits", "src/rotation_friction_constraint.cpp: calculate", "src/clutch_constraint.cpp: calculate"]}
{"id": "C130", "title": "Gauss-Seidel without limits reports failure for negative solutions", "statement": "Started from an exact solution X, GaussSeidelSleSolver::solve leaves it unchanged and returns true exactly when every component of X is greater than -(1 + m_minDelta)/1000, whatever m_maxIterations is, if at least 1. For a single equation and m_maxIterations at least 1 it returns the exact solution y from every start x, and it returns true exactly when |y| < (1 + m_minDelta)*max(0.001, x), or m_maxIterations is at least 2 and y > -(1 + m_minDelta)/1000. So a solved system with a negative multiplier is reported as unsolved.", "quantifier": "all systems with nonzero diagonal, all starts, iteration limits and tolerances", "why_tests_cant": "an equivalence over all systems and starts; the tests of the project do not look at the sign", "anchors": ["src/gauss_seidel_sle_solver.cpp: solve, solveIteration(left,right,k_next,k)"]}
