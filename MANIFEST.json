{
 "claims": [
  {
   "property": "C01",
   "status": "proved",
   "theorems": [
    "Scs.C01_set_get",
    "Scs.C01_add_get",
    "Scs.C01_out_of_range",
    "Scs.C01_rowSwap"
   ],
   "note": "Every reachable state of every object, any scalars, including after row swaps."
  },
  {
   "property": "C02",
   "status": "partial",
   "theorems": [
    "Scs.C02_call_safe_partial",
    "Scs.C02_program_safe_partial",
    "Scs.C02_dot_safe_without_swaps",
    "Scs.C02_unsafe_vms",
    "Scs.C02_unsafe_dot",
    "Scs.C02_unsafe_multiply",
    "Scs.C02_unsafe_transposeMultiply",
    "Scs.C02_unsafe_transpose",
    "Scs.C02_unsafe_rightScale",
    "Scs.C02_unsafe_rowSwap"
   ],
   "note": "Proved for every call meeting SafeCall (a precondition on the few unsafe functions); each excluded case is shown to be undefined behaviour by a C02_unsafe_* theorem."
  },
  {
   "property": "C03",
   "status": "proved",
   "theorems": [
    "Scs.C03_init",
    "Scs.C03_init_zero",
    "Scs.C03_resize",
    "Scs.C03_resize_same",
    "Scs.C03_destroy",
    "Scs.C03_dtor"
   ],
   "note": "Any reachable state, any memory contents."
  },
  {
   "property": "C04",
   "status": "proved",
   "theorems": [
    "Scs.C04_copy",
    "Scs.C04_scale",
    "Scs.C04_negate",
    "Scs.C04_add",
    "Scs.C04_subtract",
    "Scs.C04_componentMultiply",
    "Scs.C04_madd",
    "Scs.C04_pmadd",
    "Scs.C04_leftScale",
    "Scs.C04_rightScale",
    "Scs.C04_transpose",
    "Scs.C04_multiply_any",
    "Scs.C04_transposeMultiply_any",
    "Scs.C04_mismatch",
    "Scs.C04_multiply",
    "Scs.C04_transposeMultiply"
   ],
   "note": "Elementwise functions, products, transposes and scalings; products as finite sums over the reals."
  },
  {
   "property": "C05",
   "status": "partial",
   "theorems": [
    "Scs.C05_in_place_partial",
    "Scs.C05_multiply_in_place",
    "Scs.C05_transposeMultiply_in_place",
    "Scs.C05_transpose_in_place",
    "Scs.C05_scale_in_place",
    "Scs.C05_multiply_in_place_wrong"
   ],
   "note": "Proved for elementwise functions and for scalings with the scaled matrix as target; multiply, transposeMultiply, transpose and scalings into the scale vector are shown to be wrong in place."
  },
  {
   "property": "C06",
   "status": "proved",
   "theorems": [
    "Scs.C06_equals_any",
    "Scs.C06_equals",
    "Scs.C06_symm",
    "Scs.C06_refl"
   ],
   "note": "The comparison for arbitrary scalars, the tolerance reading over the reals, symmetry and reflexivity."
  },
  {
   "property": "C07",
   "status": "partial",
   "theorems": [
    "Scs.C07_dot_partial",
    "Scs.C07_vms_after_swap_wrong"
   ],
   "note": "Proved without row swaps on the operands; wrong value and out-of-bounds read after a swap are shown."
  },
  {
   "property": "C08",
   "status": "partial",
   "theorems": [
    "Scs.C08_load_partial",
    "Scs.C08_load_after_swap_wrong"
   ],
   "note": "Proved without row swaps on the matrix; wrong order after a swap is shown."
  },
  {
   "property": "C09",
   "status": "partial",
   "theorems": [
    "Scs.C09_expand",
    "Scs.C09_expandTransposed",
    "Scs.C09_multiply",
    "Scs.C09_multiplyTranspose",
    "Scs.C09_transposeMultiplyVector",
    "Scs.C09_leftScale_partial",
    "Scs.C09_rightScale_partial",
    "Scs.C09_scale_in_place_erases"
   ],
   "note": "expand, expandTransposed, multiply, multiplyTranspose and transposeMultiplyVector are proved for every reachable state and every block layout with distinct blocks in a row. The scalings are proved into another matrix that was never destroyed; scaling in place erases the matrix (C09_scale_in_place_erases), so the full claim is false of the code."
  },
  {
   "property": "C10",
   "status": "proved",
   "theorems": [
    "Scs.C10_set_get",
    "Scs.C10_setBlock",
    "Scs.C10_setEmpty",
    "Scs.C10_out_of_range"
   ],
   "note": "Every reachable state, every position."
  },
  {
   "property": "C11",
   "status": "partial",
   "theorems": [
    "Scs.C11_reinit_null",
    "Scs.C11_reinit_partial"
   ],
   "note": "The code violates the claim: C11_reinit_null proves that every re-initialisation with at least one row and at most as many rows as before writes through a null pointer. The partial theorem covers the remaining heights."
  },
  {
   "property": "C12",
   "status": "partial",
   "theorems": [
    "Scs.C12_call_safe_partial",
    "Scs.C12_resize_safe_iff",
    "Scs.C12_reinit_unsafe"
   ],
   "note": "Proved for programs that never destroy a sparse matrix, with arbitrary arguments and aliasing; C12_resize_safe_iff gives the exact condition in general, and C12_reinit_unsafe is a program that violates the claim."
  },
  {
   "property": "C13",
   "status": "partial",
   "theorems": [
    "Scs.C13_setBlock_partial",
    "Scs.C13_block_255",
    "Scs.C13_block_256"
   ],
   "note": "Proved for block indices below 255. Block 255 is taken for an unused entry (C13_block_255) and indices wrap modulo 256 (C13_block_256), so the full claim is false of the code."
  },
  {
   "property": "C14",
   "status": "partial",
   "theorems": [
    "Scs.C14_zero_partial"
   ],
   "note": "Proved for every history in which this matrix was not destroyed before (C11 explains why that is needed) and for any memory content."
  },
  {
   "property": "C15",
   "status": "proved",
   "theorems": [
    "Scs.C15_solves",
    "Scs.C15_singular_stops",
    "Scs.C15_no_rows"
   ],
   "note": "Non-singularity is stated with Mathlib's determinant of J*diag(W)*J^T. C15_no_rows also shows that the result keeps its old size."
  },
  {
   "property": "C16",
   "status": "proved",
   "theorems": [
    "Scs.C16_history_independent"
   ],
   "note": "Exact arithmetic. Two arbitrary reachable states, including arbitrary uninitialised memory and permuted scratch rows."
  },
  {
   "property": "C17",
   "status": "partial",
   "theorems": [
    "Scs.C17_success_partial",
    "Scs.C17_exact_start_partial",
    "Scs.C17_success_not_converged",
    "Scs.C17_exact_start_fails"
   ],
   "note": "Refuted in both directions (C17_success_not_converged, C17_exact_start_fails). The partial theorems state the test the code really performs and the exact-start claim for non-negative solutions."
  },
  {
   "property": "C18",
   "status": "proved",
   "theorems": [
    "Scs.C18_fixed_iff_solution"
   ],
   "note": "Observed through a call with iteration limit 1."
  },
  {
   "property": "C19",
   "status": "proved",
   "theorems": [
    "Scs.C19_true_within_limits",
    "Scs.C19_within_limits"
   ],
   "note": "All warm starts, true or false outcome."
  },
  {
   "property": "C20",
   "status": "proved",
   "theorems": [
    "Scs.C20_others_refuse",
    "Scs.C20_settled",
    "Scs.C20_fixed_iff_complementary"
   ],
   "note": "Iterates are described by sweepTo/rowSolveL; the complementarity condition is spelled out in Complementary."
  },
  {
   "property": "C21",
   "status": "proved",
   "theorems": [
    "Scs.C21_energy"
   ],
   "note": "Symmetry of J W J^T is proved, positive diagonal assumed; W >= 0 is not needed."
  },
  {
   "property": "C22",
   "status": "proved",
   "theorems": [
    "Scs.C22_small_residual"
   ],
   "note": "Also says nothing more is required of the warm start than that it is a column if it has n rows."
  },
  {
   "property": "C23",
   "status": "proved",
   "theorems": [
    "Scs.C23_succeeds",
    "Scs.C23_independent_rows"
   ],
   "note": "C23_independent_rows gives the condition in terms of positive inverse masses and independent Jacobian rows."
  },
  {
   "property": "C24",
   "status": "partial",
   "theorems": [
    "Scs.C24_written_argument_partial",
    "Scs.C24_header_result_not_written"
   ],
   "note": "Refuted (C24_header_result_not_written). The partial theorem shows for every solver and arithmetic that only the 5th argument can be written."
  },
  {
   "property": "C25",
   "status": "proved",
   "theorems": [
    "Scs.C25_solve_inputs",
    "Scs.C25_solveWithLimits_inputs"
   ],
   "note": "Any arithmetic, any matrices, any outcome that returns."
  },
  {
   "property": "C26",
   "status": "proved",
   "theorems": [
    "Scs.C26_conversions_inverse",
    "Scs.C26_localToWorld_isometry",
    "Scs.C26_localToWorld_frame",
    "Scs.C26_state_agrees"
   ],
   "note": "Inverse, isometry and frame over the reals; agreement of SystemState::localToWorld for any arithmetic."
  },
  {
   "property": "C27",
   "status": "proved",
   "theorems": [
    "Scs.C27_velocityAtPoint"
   ],
   "note": "Derivative in the sense of HasDerivAt along every differentiable motion whose velocities the state holds."
  },
  {
   "property": "C28",
   "status": "proved",
   "theorems": [
    "Scs.C28_applyForce",
    "Scs.C28_applyForce_outside"
   ],
   "note": "For every reachable state; outside indices (including negative ones) end in undefined behaviour."
  },
  {
   "property": "C29",
   "status": "partial",
   "theorems": [
    "Scs.C29_resize",
    "Scs.C29_contents_survive",
    "Scs.C29_bounds",
    "Scs.C29_destroy_releases_partial",
    "Scs.C29_no_rows_leaks",
    "Scs.C29_no_bodies_leaks"
   ],
   "note": "Sizes, bounds and survival of contents are proved in full for every reachable state. The last part (destroy releases everything) is false in the code when one of the two sizes is zero: C29_no_rows_leaks and C29_no_bodies_leaks; proved when both are positive."
  },
  {
   "property": "C30",
   "status": "partial",
   "theorems": [
    "Scs.C30_copy_partial",
    "Scs.C30_larger_destination",
    "Scs.C30_no_bodies",
    "Scs.C30_no_bodies_case"
   ],
   "note": "False in the code: copying into a larger destination reads out of bounds (C30_larger_destination), copying from a state without bodies copies nothing (C30_no_bodies, C30_no_bodies_case). Proved otherwise."
  },
  {
   "property": "C31",
   "status": "proved",
   "theorems": [
    "Scs.C31_energy_nonneg",
    "Scs.C31_energy_zero_iff",
    "Scs.C31_energy_formula",
    "Scs.C31_energy_pose"
   ],
   "note": "Reals; pose independence for any arithmetic."
  },
  {
   "property": "C32",
   "status": "proved",
   "theorems": [
    "Scs.C32_euler",
    "Scs.C32_euler_run"
   ],
   "note": "Any arithmetic, any number of bodies, every reachable state."
  },
  {
   "property": "C33",
   "status": "proved",
   "theorems": [
    "Scs.C33_nsv",
    "Scs.C33_nsv_run"
   ],
   "note": "Any arithmetic, any number of bodies, every reachable state."
  },
  {
   "property": "C34",
   "status": "proved",
   "theorems": [
    "Scs.C34_done_on_fourth",
    "Scs.C34_four_evaluations",
    "Scs.C34_terminates"
   ],
   "note": "Any arithmetic and any evaluation of forces, including failing ones; any number of consecutive steps with the same object."
  },
  {
   "property": "C35",
   "status": "partial",
   "theorems": [
    "Scs.C35_update_partial",
    "Scs.C35_classical_for_velocity_fields_partial",
    "Scs.C35_not_classical"
   ],
   "note": "False in the code: the stage positions use the velocity of the same stage (C35_not_classical, x''=-x). C35_update_partial gives the exact map computed for every field; it is the classical one for fields that depend on velocities only."
  },
  {
   "property": "C36",
   "status": "partial",
   "theorems": [
    "Scs.C36_reactions_partial",
    "Scs.C36_not_average"
   ],
   "note": "False in the code (C36_not_average): the accumulator starts at the previous reactions, is scaled by dt and covers only half of each array. C36_reactions_partial gives the exact contents for every history."
  },
  {
   "property": "C37",
   "status": "proved",
   "theorems": [
    "Scs.C37_jacobian",
    "Scs.C37_jacobian_column"
   ],
   "note": "All five position constraints, along every differentiable motion and per coordinate."
  },
  {
   "property": "C38",
   "status": "proved",
   "theorems": [
    "Scs.C38_jacobian_derivative"
   ],
   "note": "All nine shipped constraints, along every differentiable motion."
  },
  {
   "property": "C39",
   "status": "partial",
   "theorems": [
    "Scs.C39_velocity_conditions_partial",
    "Scs.C39_constant_rotation",
    "Scs.C39_constant_rotation_refuted"
   ],
   "note": "False for the constant rotation constraint, which asks for -m_rotationSpeed (C39_constant_rotation, C39_constant_rotation_refuted). The other three are proved."
  },
  {
   "property": "C40",
   "status": "partial",
   "theorems": [
    "Scs.C40_contact_velocity",
    "Scs.C40_rolling_partial",
    "Scs.C40_refuted"
   ],
   "note": "False unless the radius is 1: C40_contact_velocity gives the slip omega*(r-1/r) for every radius, C40_refuted a state that slips for every other radius."
  },
  {
   "property": "C41",
   "status": "partial",
   "theorems": [
    "Scs.C41_all_entries_written_partial",
    "Scs.C41_base_refuted"
   ],
   "note": "All nine shipped constraints, any arithmetic, including runs that stop with an error. False for the base class, which is not abstract and writes nothing (C41_base_refuted)."
  },
  {
   "property": "C42",
   "status": "partial",
   "theorems": [
    "Scs.C42_hooke_partial",
    "Scs.C42_short_spring",
    "Scs.C42_short_spring_wrong",
    "Scs.C42_action_reaction",
    "Scs.C42_net_torque",
    "Scs.C42_no_net_torque_partial",
    "Scs.C42_damping_torque",
    "Scs.C42_detached"
   ],
   "note": "Hooke plus damping, opposite forces and frame for springs of length at least 1e-2; opposite forces and unchanged total force for every length; exact change of total torque. Violations proved: below length 1e-2 the elastic force vanishes (C42_short_spring, C42_short_spring_wrong); with damping the total torque changes (C42_damping_torque)."
  },
  {
   "property": "C43",
   "status": "partial",
   "theorems": [
    "Scs.C43_spring_undefined",
    "Scs.C43_static_undefined",
    "Scs.C43_motor_partial",
    "Scs.C43_motor_undefined"
   ],
   "note": "Holds for the first body of a motor. Violations proved: springs and static forces on a body with index -1, and motors whose second body has index -1, are undefined behaviour in every reachable state."
  },
  {
   "property": "C44",
   "status": "proved",
   "theorems": [
    "Scs.C44_motor"
   ],
   "note": "All states and parameters with m_maxTorque >= 0."
  },
  {
   "property": "C45",
   "status": "proved",
   "theorems": [
    "Scs.C45_gravity",
    "Scs.C45_static"
   ],
   "note": "All states."
  },
  {
   "property": "C46",
   "status": "proved",
   "theorems": [
    "Scs.C46_bodies",
    "Scs.C46_constraints",
    "Scs.C46_generators",
    "Scs.C46_full_count",
    "Scs.C46_actions_succeed"
   ],
   "note": "All histories of valid calls, both classes; refinement of the three registries to sets."
  },
  {
   "property": "C47",
   "status": "partial",
   "theorems": [
    "Scs.C47_removed_keeps_index",
    "Scs.C47_reset_keeps_index",
    "Scs.C47_second_removal",
    "Scs.C47_removed_unregistered_partial",
    "Scs.C47_force_hits_other_body"
   ],
   "note": "Removed objects are no longer registered. Violations proved: a removed body (or one left by reset) keeps its old index, a second removal drops another body, and a static force on it acts on another body."
  },
  {
   "property": "C48",
   "status": "proved",
   "theorems": [
    "Scs.C48_velocity_condition",
    "Scs.C48_every_sub_step",
    "Scs.C48_succeeds_iff",
    "Scs.C48_link",
    "Scs.C48_fixed_position",
    "Scs.C48_line",
    "Scs.C48_gear",
    "Scs.C48_clutch",
    "Scs.C48_constant_rotation",
    "Scs.C48_fixed_rotation"
   ],
   "note": "For every history, all shipped constraints, any forces: whenever process(dt,1) with Gaussian elimination returns, J v' + v_bias + (bias/dt) C = 0 for every row (and in every sub-step of process(dt,steps)). It returns exactly if dt != 0, masses are non-zero and the rows are independent. Corollaries spell out link, fixed position, gear, clutch, constant rotation and fixed rotation without the Jacobian. Real arithmetic."
  },
  {
   "property": "C49",
   "status": "proved",
   "theorems": [
    "Scs.C49_newton",
    "Scs.C49_one_step",
    "Scs.C49_free_body"
   ],
   "note": "All solvers, all step counts, every history: every sub-step of every returning process call is semi-implicit Euler with the generators' loads plus the constraint forces; for one step the constraint forces are the reported F arrays. Real arithmetic."
  },
  {
   "property": "C50",
   "status": "proved",
   "theorems": [
    "Scs.C50_limits",
    "Scs.C50_clutch",
    "Scs.C50_link",
    "Scs.C50_rotation"
   ],
   "note": "Gauss-Seidel, dt > 0, any history and warm start: every row's multiplier lies within the limits; corollaries for clutch, link, constant rotation and rotation friction in terms of the reported forces."
  },
  {
   "property": "C51",
   "status": "partial",
   "theorems": [
    "Scs.C51_generic_first_row",
    "Scs.C51_generic_misreports",
    "Scs.C51_reported_forces_partial"
   ],
   "note": "Optimized system: the reported forces are the multipliers times the Jacobian rows and are exactly the forces that changed the velocities in the last sub-step. Generic system: proved what is reported for the first row (the force on the first body, for all bodies) and, with a gear as witness, that this is not the force applied to the second body. Missing: the claim for the generic system, which violates it."
  },
  {
   "property": "C52",
   "status": "proved",
   "theorems": [
    "Scs.C52_acceleration_conditions",
    "Scs.C52_shipped",
    "Scs.C52_one_step",
    "Scs.C52_succeeds"
   ],
   "note": "Every evaluation of every process call with Gaussian elimination, any history, any ODE solver, user-defined constraints allowed (C52_acceleration_conditions); explicit formulas for the shipped constraints (C52_shipped); what the user sees after one Euler or semi-implicit step (C52_one_step); success if no mass is zero and the constraint rows are independent (C52_succeeds). Real arithmetic."
  },
  {
   "property": "C53",
   "status": "proved",
   "theorems": [
    "Scs.C53_momentum"
   ],
   "note": "All solvers, all dt and step counts, any history."
  },
  {
   "property": "C54",
   "status": "proved",
   "theorems": [
    "Scs.C54_time_in_order",
    "Scs.C54_time_elapsed"
   ],
   "note": "All histories of the optimized system, any arithmetic (sum in call order); over the reals the sum of all dt."
  },
  {
   "property": "C55",
   "status": "proved",
   "theorems": [
    "Scs.C55_average",
    "Scs.C55_frame_index"
   ],
   "note": "All histories, both classes; rounding of the float result is not modelled."
  },
  {
   "property": "C56",
   "status": "proved",
   "theorems": [
    "Scs.C56_process_only_moves"
   ],
   "note": "All histories and arguments for which process returns, both classes, any arithmetic."
  },
  {
   "property": "C57",
   "status": "partial",
   "theorems": [
    "Scs.C57_gauss_seidel_partial",
    "Scs.C57_conjugate_gradient_partial",
    "Scs.C57_gaussian_fails"
   ],
   "note": "Gauss-Seidel always succeeds; conjugate gradient succeeds after a frame with constraints. Violation proved: with Gaussian elimination process cannot return after the constraints have been removed (stale multiplier vector)."
  },
  {
   "property": "C58",
   "status": "partial",
   "theorems": [
    "Scs.C58_optimized_partial",
    "Scs.C58_generic"
   ],
   "note": "Optimized system: after every history the destructor passes all assertions. Generic system: exact characterisation, it can be destroyed only if process was never called (the void destructor leaves the matrices allocated, matrix.cpp:23 fails). Missing: the claim for used generic systems, which violate it."
  },
  {
   "property": "C59",
   "status": "partial",
   "theorems": [
    "Scs.C59_free_motion_partial",
    "Scs.C59_ge_succeeds",
    "Scs.C59_ge_again",
    "Scs.C59_cg_fails"
   ],
   "note": "Whenever process returns the motion is free motion; it returns with Gaussian elimination. Violation proved: with conjugate gradient a fresh system without constraints cannot be processed."
  },
  {
   "property": "C60",
   "status": "partial",
   "theorems": [
    "Scs.C60_same_motion",
    "Scs.C60_same_success_partial",
    "Scs.C60_stale_failure"
   ],
   "note": "The motion and the reported forces agree for all pairs of histories with equal registered objects; success agrees if there is a constraint. Violation proved: without constraints success depends on earlier frames."
  },
  {
   "property": "C61",
   "status": "partial",
   "theorems": [
    "Scs.C61_generic_transmits",
    "Scs.C61_gauss_seidel_partial",
    "Scs.C61_gaussian_transmits",
    "Scs.C61_gradient_transmits"
   ],
   "note": "Gauss-Seidel on the optimized system: reported forces of a gear in neutral are zero. Violations proved: Gaussian elimination and conjugate gradient on the optimized system, and the generic system, transmit torque."
  },
  {
   "property": "C62",
   "status": "proved",
   "theorems": [
    "Scs.C62_solve_safe",
    "Scs.C62_solveWithLimits_safe"
   ],
   "note": "Any arithmetic whose division returns or stops, any aliasing of the arguments, any sizes."
  },
  {
   "property": "C63",
   "status": "proved",
   "theorems": [
    "Scs.C63_fixed_position",
    "Scs.C63_fixed_rotation",
    "Scs.C63_line",
    "Scs.C63_link",
    "Scs.C63_rolling"
   ],
   "note": "All five position constraints."
  },
  {
   "property": "C64",
   "status": "proved",
   "theorems": [
    "Scs.C64_energy_is_potential",
    "Scs.C64_getEnds"
   ],
   "note": "All motions, for springs of non-zero length."
  },
  {
   "property": "C65",
   "status": "proved",
   "theorems": [
    "Scs.C65_sle_solvers",
    "Scs.C65_after_process",
    "Scs.C65_rk4"
   ],
   "note": "All three solvers of linear equations in every reachable state (any matrix and solver calls) and after every history of either system class; Runge-Kutta solver."
  },
  {
   "property": "C66",
   "status": "proved",
   "theorems": [
    "Scs.C66_no_work",
    "Scs.C66_energy_balance",
    "Scs.C66_energy_not_increased",
    "Scs.C66_couplings"
   ],
   "note": "Optimized system with Gaussian elimination: power balance, exact energy balance of a step, and monotone energy for couplings over any number of sub-steps."
  },
  {
   "property": "C67",
   "status": "partial",
   "theorems": [
    "Scs.C67_angular_momentum_partial",
    "Scs.C67_conserved_partial",
    "Scs.C67_clutches_partial",
    "Scs.C67_damper_violates"
   ],
   "note": "Every solver: exact change of the angular momentum in a step with links, clutches, undamped springs and motors; conserved when the points of the links coincide, and for clutches over any number of sub-steps. Missing because it is false: springs with damping; the violation is proved by a witness."
  },
  {
   "property": "C68",
   "status": "partial",
   "theorems": [
    "Scs.C68_shipped_usable",
    "Scs.C68_optimized",
    "Scs.C68_generic",
    "Scs.C68_generic_rk4_partial",
    "Scs.C68_rk4_larger",
    "Scs.C68_rk4_violates"
   ],
   "note": "Both classes, any arithmetic, every solver and every ODE solver; user-defined constraints and generators may take part if they read only the places of their bodies. Missing because it is false: with RK4 the generic system needs a solver that was new at the last initialize and at least one sub-step in every call since; otherwise the copy inside the solver can be larger than m_state and process reads out of bounds (proved for all such systems, with a reachable witness)."
  },
  {
   "property": "C69",
   "status": "proved",
   "theorems": [
    "Scs.C69_fixed_rotation",
    "Scs.C69_fixed_centre",
    "Scs.C69_fixed_position",
    "Scs.C69_fixed_position_default",
    "Scs.C69_link_centres",
    "Scs.C69_link",
    "Scs.C69_link_default",
    "Scs.C69_line_centre",
    "Scs.C69_line",
    "Scs.C69_line_default"
   ],
   "note": "Fixed rotation, fixed position, link and line; exact factors and second-order bounds."
  },
  {
   "property": "C70",
   "status": "partial",
   "theorems": [
    "Scs.C70_bodies",
    "Scs.C70_forces_partial",
    "Scs.C70_fresh_violates"
   ],
   "note": "Bodies: both classes, any arithmetic. Forces: kept if nothing happened since the last successful call. Missing because it is false: after constraints or bodies were added the arrays are new and the call reports uninitialised memory (proved for both classes, any value)."
  },
  {
   "property": "C71",
   "status": "partial",
   "theorems": [
    "Scs.C71_same_results_partial",
    "Scs.C71_same_forces",
    "Scs.C71_gauss_seidel_violates"
   ],
   "note": "Bodies, registrations, time, outcome: all programs, both classes, any arithmetic; forces: the optimized system. Missing: the generic system with Gauss-Seidel, for which it is false (the solver starts from uninitialised memory), the forces reported by the generic system, and forces after steps <= 0 (false, see C70). Systems with custom constraints or more than 255 bodies are left out."
  },
  {
   "property": "C72",
   "status": "proved",
   "theorems": [
    "Scs.C72_configuration"
   ],
   "note": "All histories, both classes, any arithmetic."
  },
  {
   "property": "C73",
   "status": "partial",
   "theorems": [
    "Scs.C73_lost_body_violates",
    "Scs.C73_index_wraps",
    "Scs.C73_wrong_body_violates",
    "Scs.C73_many_bodies_partial"
   ],
   "note": "Proved for any number of bodies as long as the constrained ones are among the first 255. False beyond: a constraint attached to the body with index 256 acts as if it were attached to the one with index 0 (C73_index_wraps, C73_wrong_body_violates), and one attached only to bodies with index 255 makes Gaussian elimination fail (C73_lost_body_violates). Newton's law C49 holds for all indices."
  },
  {
   "property": "C74",
   "status": "partial",
   "theorems": [
    "Scs.C74_same_motion_partial",
    "Scs.C74_same_forces_partial",
    "Scs.C74_same_success_partial",
    "Scs.C74_rolling_violates"
   ],
   "note": "Proved for the motion, the reported forces summed over the rows of a constraint, and success (with at least one constraint). False for rolling constraints in a turned frame (C74_rolling_violates): the constraint compares the angle of the wheel measured from the axes of the world with the distance rolled on the base."
  },
  {
   "property": "C75",
   "status": "proved",
   "theorems": [
    "Scs.C75_moves_as_alone",
    "Scs.C75_part_succeeds",
    "Scs.C75_whole_succeeds"
   ],
   "note": "Proved for the motion, the reported forces and success in both directions."
  },
  {
   "property": "C76",
   "status": "proved",
   "theorems": [
    "Scs.C76_stays",
    "Scs.C76_succeeds",
    "Scs.C76_balance"
   ],
   "note": "Proved; the balancing forces are unique because the rows are independent."
  },
  {
   "property": "C77",
   "status": "partial",
   "theorems": [
    "Scs.C77_split_partial",
    "Scs.C77_join_succeeds_partial",
    "Scs.C77_split_succeeds_partial",
    "Scs.C77_calls_partial",
    "Scs.C77_damped_motor_violates"
   ],
   "note": "Proved for systems without damped motors. False with them (C77_damped_motor_violates): the motor damps by the angular accelerations of the previous sub-step, which every call of process resets to zero."
  },
  {
   "property": "C78",
   "status": "proved",
   "theorems": [
    "Scs.C78_least",
    "Scs.C78_unique"
   ],
   "note": "Proved for Gaussian elimination (Gauss-Seidel and conjugate gradient bound the reactions or stop early)."
  },
  {
   "property": "C79",
   "status": "proved",
   "theorems": [
    "Scs.C79_idle",
    "Scs.C79_succeeds"
   ],
   "note": "Proved for one sub-step with Gaussian elimination."
  },
  {
   "property": "C80",
   "status": "proved",
   "theorems": [
    "Scs.C80_superposition",
    "Scs.C80_two_forces"
   ],
   "note": "Proved for one sub-step with Gaussian elimination; C80_superposition is the form for four systems whose loads add up."
  },
  {
   "property": "C81",
   "status": "partial",
   "theorems": [
    "Scs.C81_same_partial",
    "Scs.C81_one_sub_step_partial",
    "Scs.C81_spring_violates",
    "Scs.C81_rolling_violates"
   ],
   "note": "Proved for all shipped constraints and force generators but rolling constraints in another unit of length and springs whose ends come closer than 1/100 in one of the units; both are refuted by concrete systems."
  },
  {
   "property": "C82",
   "status": "proved",
   "theorems": [
    "Scs.C82_enough",
    "Scs.C82_succeeds"
   ],
   "note": "Proved for solveWithLimits over the reals, with an explicit bound of the number of iterations."
  },
  {
   "property": "C83",
   "status": "proved",
   "theorems": [
    "Scs.C83_solution_exists",
    "Scs.C83_accurate"
   ],
   "note": "Proved over the reals; the constant is explicit in the limits and the entries of J W J^T."
  },
  {
   "property": "C84",
   "status": "proved",
   "theorems": [
    "Scs.C84_process",
    "Scs.C84_history"
   ],
   "note": "Proved for every arithmetic, for one call and for whole histories."
  },
  {
   "property": "C85",
   "status": "proved",
   "theorems": [
    "Scs.C85_enough_iterations",
    "Scs.C85_frames"
   ],
   "note": "Proved over the reals for the optimized system, for one call and for finite sequences of calls."
  },
  {
   "property": "C86",
   "status": "proved",
   "theorems": [
    "Scs.C86_accuracy",
    "Scs.C86_every_sub_step",
    "Scs.C86_single_row"
   ],
   "note": "Proved over the reals for the optimized system, with the error written out."
  },
  {
   "property": "C87",
   "status": "proved",
   "theorems": [
    "Scs.C87_exact_exists",
    "Scs.C87_exact_unique",
    "Scs.C87_close",
    "Scs.C87_limit",
    "Scs.C87_reached",
    "Scs.C87_ge"
   ],
   "note": "Proved over the reals for one sub-step of the optimized system."
  },
  {
   "property": "C88",
   "status": "proved",
   "theorems": [
    "Scs.C88_energy",
    "Scs.C88_exact",
    "Scs.C88_limit",
    "Scs.C88_couplings",
    "Scs.C88_alone"
   ],
   "note": "Proved over the reals for the optimized system with Gauss-Seidel; C66 is the version for Gaussian elimination."
  },
  {
   "property": "C89",
   "status": "proved",
   "theorems": [
    "Scs.C89_one_row",
    "Scs.C89_friction",
    "Scs.C89_constant_rotation",
    "Scs.C89_clutch",
    "Scs.C89_brake"
   ],
   "note": "Proved over the reals for the optimized system with Gauss-Seidel. A constant-rotation drive holds the opposite of its configured speed (C39)."
  },
  {
   "property": "C90",
   "status": "proved",
   "theorems": [
    "Scs.C90_centre_generic",
    "Scs.C90_centre_optimized"
   ],
   "note": "Proved over the reals for both systems. Generators: the shipped ones (gravity, static forces, springs, motors)."
  },
  {
   "property": "C91",
   "status": "proved",
   "theorems": [
    "Scs.C91_same_motion",
    "Scs.C91_same_success"
   ],
   "note": "Proved over the reals for the generic system; C60 is the counterpart for the optimized system."
  },
  {
   "property": "C92",
   "status": "proved",
   "theorems": [
    "Scs.C92_converges",
    "Scs.C92_exact_motion_exists"
   ],
   "note": "Proved over the reals for the generic system with at least one constraint. The excluded scenes are those in which the force itself jumps (C42 springs at 0.01, C77 damped motors). The order proved is first order for all three solvers; Runge-Kutta is not of fourth order here (C35)."
  },
  {
   "property": "C93",
   "status": "proved",
   "theorems": [
    "Scs.C93_exact_motion",
    "Scs.C93_damped",
    "Scs.C93_critically_damped",
    "Scs.C93_stays_satisfied",
    "Scs.C93_link"
   ],
   "note": "Proved over the reals for the generic system, with C92. The first row of a rolling constraint has ks = kd = 0 in the code, so its error grows linearly at its initial rate."
  },
  {
   "property": "C94",
   "status": "proved",
   "theorems": [
    "Scs.C94_new_body",
    "Scs.C94_reset_body",
    "Scs.C94_needs_mass",
    "Scs.C94_needs_mass_generic"
   ],
   "note": "Proved over the reals. Division by zero is a separate outcome of the model; the C++ program computes infinities and not-a-number values instead of reporting an error."
  },
  {
   "property": "C95",
   "status": "proved",
   "theorems": [
    "Scs.C95_converges",
    "Scs.C95_exact_motion_exists"
   ],
   "note": "Proved over the reals for Gaussian elimination, which ignores limits (C61)."
  },
  {
   "property": "C96",
   "status": "proved",
   "theorems": [
    "Scs.C96_conserved",
    "Scs.C96_damped",
    "Scs.C96_conserved_generic",
    "Scs.C96_damped_generic"
   ],
   "note": "Proved over the reals for Gaussian elimination. A spring with ends closer than 0.01 applies no force while Spring::energy still varies, hence the condition on the ends."
  },
  {
   "property": "C97",
   "status": "proved",
   "theorems": [
    "Scs.C97_systems_agree",
    "Scs.C97_solvers_agree"
   ],
   "note": "Proved over the reals for Gaussian elimination."
  },
  {
   "property": "C98",
   "status": "proved",
   "theorems": [
    "Scs.C98_conserved",
    "Scs.C98_conserved_generic"
   ],
   "note": "Proved over the reals for Gaussian elimination. Over a finite number of sub-steps it does not hold exactly (C67)."
  },
  {
   "property": "C99",
   "status": "proved",
   "theorems": [
    "Scs.C99_gauss_seidel",
    "Scs.C99_enough_iterations"
   ],
   "note": "Proved over the reals. Constraints without limits have the limits ±DBL_MAX in the code, so the condition on the limits applies to them as well."
  },
  {
   "property": "C100",
   "status": "proved",
   "theorems": [
    "Scs.C100_conjugate_gradient"
   ],
   "note": "Proved over the reals. Conjugate gradients ignore the limits."
  },
  {
   "property": "C101",
   "status": "proved",
   "theorems": [
    "Scs.C101_constraints",
    "Scs.C101_static",
    "Scs.C101_motor",
    "Scs.C101_spring",
    "Scs.C101_new_constraint_fails"
   ],
   "note": "A body that was added and later removed keeps its stale index (violation of C47), so the theorems say that the body was added at some time, not that it still is registered."
  },
  {
   "property": "C102",
   "status": "proved",
   "theorems": [
    "Scs.C102_construct",
    "Scs.C102_parameters",
    "Scs.C102_fixed_position",
    "Scs.C102_fixed_position_new",
    "Scs.C102_fixed_rotation_new",
    "Scs.C102_link",
    "Scs.C102_link_new",
    "Scs.C102_rotation_new",
    "Scs.C102_no_direction",
    "Scs.C102_spring_new",
    "Scs.C102_static",
    "Scs.C102_gravity_new",
    "Scs.C102_motor_new"
   ],
   "note": "Proved over the reals for the forces; the constructor of Constraint for any type of numbers. The second body pointer of a one-body constraint is not initialised by the code."
  },
  {
   "property": "C103",
   "status": "proved",
   "theorems": [
    "Scs.C103_accepts",
    "Scs.C103_refuses",
    "Scs.C103_refuses_generic",
    "Scs.C103_accepts_generic",
    "Scs.C103_same_twice",
    "Scs.C103_too_many_rows",
    "Scs.C103_no_direction"
   ],
   "note": "Proved over the reals. With RK4 only the refusal is shown: its later stages look at other states than the one at the start."
  },
  {
   "property": "C104",
   "status": "proved",
   "theorems": [
    "Scs.C104_rounding_vanishes",
    "Scs.C104_reported_forces",
    "Scs.C104_gauss_seidel",
    "Scs.C104_conjugate_gradient"
   ],
   "note": "The arithmetic is described by the class Rounded (Round.lean): a finite result up to an error prec * (1 + |exact result|) unless the exact result exceeds 1 / prec. The format `double` (RoundFormat.lean, 53 bits, overflow to a value that stands for infinity and NaN) is an instance. Bodies, constraints and generators that the program never touches are also required to be close. Programs construct their RK4 solver anew (stage undefined). Not covered: Gauss-Seidel with the generic system (whose convergence test is a relative error)."
  },
  {
   "property": "C105",
   "status": "proved",
   "theorems": [
    "Scs.C105_only_its_objects",
    "Scs.C105_from_the_start"
   ],
   "note": "Objects are told apart by address; `Own` lists the addresses used."
  },
  {
   "property": "C106",
   "status": "proved",
   "theorems": [
    "Scs.C106_independent",
    "Scs.C106_no_new_errors",
    "Scs.C106_sharing_matters"
   ],
   "note": "Each system has its own solver objects. The counterexample for a shared body is C106_sharing_matters."
  },
  {
   "property": "C107",
   "status": "proved",
   "theorems": [
    "Scs.C107_shared_solvers",
    "Scs.C107_no_new_errors"
   ],
   "note": "The solver object is the set of its matrices, arbitrary but well-formed at the start; shared ODE solvers may be in any state but are not RK4 objects, which keep copies of the state (sharing one between systems of different sizes reads out of bounds, C68_rk4_larger); a program counts if its calls are legal for each system alone (C71)."
  },
  {
   "property": "C108",
   "status": "proved",
   "theorems": [
    "Scs.C108_multiply",
    "Scs.C108_transposeMultiply",
    "Scs.C108_dot"
   ],
   "note": "The arithmetic is any instance of `Rounded` (`Round.lean`); the format `double` is one. `dot` and `vectorMagnitudeSquared` for vectors whose rows have not been swapped (C05)."
  },
  {
   "property": "C109",
   "status": "proved",
   "theorems": [
    "Scs.C109_approaches",
    "Scs.C109_succeeds",
    "Scs.C109_gives_up"
   ],
   "note": "Over the reals. What success means is C17; the last part is the effect of the missing absolute value in the termination test (`C17_exact_start_fails`)."
  },
  {
   "property": "C110",
   "status": "proved",
   "theorems": [
    "Scs.C110_agrees",
    "Scs.C110_same_outcome",
    "Scs.C110_histories",
    "Scs.C110_conjugate_gradients_stale",
    "Scs.C110_returns",
    "Scs.C110_frames",
    "Scs.C110_sub_steps",
    "Scs.C110_accuracy",
    "Scs.C110_single_row",
    "Scs.C110_zero_tolerance"
   ],
   "note": "The dropped asserts are those about the success of a solver (optimized:219, generic:188, Gaussian elimination:82 and :104). Asserts about matrix sizes are kept in the model; `C110_returns` shows that the optimized system with Gauss-Seidel never reaches one of them. Motion and accuracy are over the reals."
  },
  {
   "property": "C111",
   "status": "proved",
   "theorems": [
    "Scs.C111_gauss_seidel_energy",
    "Scs.C111_gauss_seidel_angular",
    "Scs.C111_conjugate_gradient_energy",
    "Scs.C111_conjugate_gradient_angular"
   ],
   "note": "Over the reals. With Gauss-Seidel for every call that succeeds (C85, C99: with enough iterations it does); with conjugate gradients the calls succeed."
  },
  {
   "property": "C112",
   "status": "proved",
   "theorems": [
    "Scs.C112_agrees",
    "Scs.C112_access_wraps",
    "Scs.C112_larger_operand",
    "Scs.C112_larger_factor",
    "Scs.C112_smaller_operand",
    "Scs.C112_sparse_agrees",
    "Scs.C112_sparse_wraps",
    "Scs.C112_expand_overwrites",
    "Scs.C112_sparse_products"
   ],
   "note": "The release functions are the ones of Matrix.lean and Sparse.lean without the asserts. Wrapping of dense element access is for matrices whose rows were never swapped. The products of sparse matrices are over the reals, the rest over any scalars."
  },
  {
   "property": "C113",
   "status": "proved",
   "theorems": [
    "Scs.C113_call",
    "Scs.C113_invariant",
    "Scs.C113_bounded",
    "Scs.C113_orbit"
   ],
   "note": "Real arithmetic. The bounds need springs of rest length zero attached at centres, for which the forces are linear; the orbit is for Gaussian elimination in a system that has not been processed before."
  },
  {
   "property": "C114",
   "status": "proved",
   "theorems": [
    "Scs.C114_ignored",
    "Scs.C114_one_body",
    "Scs.C114_slows",
    "Scs.C114_two_bodies"
   ],
   "note": "Classes derived outside the library count as differing in drives only if both compute the same C, J, J_dot, ks and kd whatever bias and limits they find in their output. Missing a velocity target and limits is what the generic system does; the theorems state it as it is."
  },
  {
   "property": "C115",
   "status": "proved",
   "theorems": [
    "Scs.C115_gain",
    "Scs.C115_grows",
    "Scs.C115_semi_implicit",
    "Scs.C115_spiral",
    "Scs.C115_diverges"
   ],
   "note": "Exact arithmetic (reals). Succeeds for elimination; the balance of a single call holds for every linear solver that lets the call succeed."
  },
  {
   "property": "C116",
   "status": "proved",
   "theorems": [
    "Scs.C116_step",
    "Scs.C116_brakes",
    "Scs.C116_order"
   ],
   "note": "Exact arithmetic (reals). `exact_pair` shows that the formula in `C116_order` is the motion on the spring. The cause is the use of updated velocities in the stages, see C35; the theorems state what follows from it."
  },
  {
   "property": "C117",
   "status": "proved",
   "theorems": [
    "Scs.C117_apart",
    "Scs.C117_unbounded"
   ],
   "note": "Exact arithmetic (reals). That the threshold is sharp for equal masses follows with C113_bounded, whose hypothesis then reads z <= 4*theta^2 with theta < 1."
  },
  {
   "property": "C118",
   "status": "proved",
   "theorems": [
    "Scs.C118_decay",
    "Scs.C118_decay_generic",
    "Scs.C118_runge_kutta",
    "Scs.C118_comes_to_rest",
    "Scs.C118_runs_away"
   ],
   "note": "Exact arithmetic (reals)."
  },
  {
   "property": "C119",
   "status": "proved",
   "theorems": [
    "Scs.C119_call",
    "Scs.C119_call_generic",
    "Scs.C119_reaches_speed",
    "Scs.C119_hunts"
   ],
   "note": "Exact arithmetic (reals). With several sub-steps per call the damping acts from the second sub-step on (C77_damped_motor_violates)."
  },
  {
   "property": "C120",
   "status": "proved",
   "theorems": [
    "Scs.C120_oscillates",
    "Scs.C120_settles",
    "Scs.C120_flies_off",
    "Scs.C120_undamped",
    "Scs.C120_runge_kutta",
    "Scs.C120_runge_kutta_settles",
    "Scs.C120_runge_kutta_damped",
    "Scs.C120_runge_kutta_flies_off"
   ],
   "note": "Exact arithmetic (reals)."
  },
  {
   "property": "C121",
   "status": "proved",
   "theorems": [
    "Scs.C121_particle_generic",
    "Scs.C121_particle_optimized"
   ],
   "note": "Exact arithmetic (reals)."
  },
  {
   "property": "C122",
   "status": "proved",
   "theorems": [
    "Scs.C122_drive",
    "Scs.C122_clutch"
   ],
   "note": "Exact arithmetic (reals)."
  },
  {
   "property": "C123",
   "status": "proved",
   "theorems": [
    "Scs.C123_friction",
    "Scs.C123_drive",
    "Scs.C123_clutch"
   ],
   "note": "Exact arithmetic (reals)."
  },
  {
   "property": "C124",
   "status": "proved",
   "theorems": [
    "Scs.C124_turning",
    "Scs.C124_straight"
   ],
   "note": "Exact arithmetic (reals)."
  },
  {
   "property": "C125",
   "status": "proved",
   "theorems": [
    "Scs.C125_links_give_way"
   ],
   "note": "Exact arithmetic (reals)."
  },
  {
   "property": "C126",
   "status": "proved",
   "theorems": [
    "Scs.C126_stays_compressed"
   ],
   "note": "Exact arithmetic (reals). Records a property of the code that a user of stiff springs has to know, not a wish."
  },
  {
   "property": "C127",
   "status": "proved",
   "theorems": [
    "Scs.C127_fixed_rotation",
    "Scs.C127_gear"
   ],
   "note": "Exact arithmetic (reals)."
  },
  {
   "property": "C128",
   "status": "proved",
   "theorems": [
    "Scs.C128_drive",
    "Scs.C128_friction",
    "Scs.C128_clutch"
   ],
   "note": "Exact arithmetic (reals). Records a property of the code that a user of limits has to know, not a wish; the counterpart of C50 and C89."
  },
  {
   "property": "C129",
   "status": "proved",
   "theorems": [
    "Scs.C129_calls_succeed",
    "Scs.C129_friction",
    "Scs.C129_drive",
    "Scs.C129_clutch"
   ],
   "note": "Exact arithmetic (reals). The body has no other constraint; extends C85 and C123 from one call to any sequence of calls."
  },
  {
   "property": "C130",
   "status": "proved",
   "theorems": [
    "Scs.C130_from_solution",
    "Scs.C130_one_equation"
   ],
   "note": "Exact arithmetic (reals). Says exactly when the second half of C17 fails; the generic system asserts this outcome."
  }
 ]
}