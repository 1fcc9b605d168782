{
 "claims": [
  {
   "property": "C01",
   "status": "proved",
   "theorems": [
    "Verif.Fem.C01_vector_mult",
    "Verif.Fem.C01_vector_mult_transpose"
   ],
   "note": ""
  },
  {
   "property": "C02",
   "status": "proved",
   "theorems": [
    "Verif.Fem.C02_right_multiply",
    "Verif.Fem.C02_right_multiply_transpose",
    "Verif.Fem.C02_left_multiply",
    "Verif.Fem.C02_left_multiply_transpose"
   ],
   "note": ""
  },
  {
   "property": "C03",
   "status": "proved",
   "theorems": [
    "Verif.Fem.C03_right_multiply_transpose_operator"
   ],
   "note": ""
  },
  {
   "property": "C04",
   "status": "proved",
   "theorems": [
    "Verif.Fem.C04_history_shape",
    "Verif.Fem.C04_set_updates_one_block",
    "Verif.Fem.C04_reinit_forgets"
   ],
   "note": "setShape_wrong_size_ub shows the precondition on set_shape_function is needed."
  },
  {
   "property": "C05",
   "status": "proved",
   "theorems": [
    "Verif.CR.C05_add_vector",
    "Verif.CR.C05_vector_roundtrip"
   ],
   "note": ""
  },
  {
   "property": "C06",
   "status": "proved",
   "theorems": [
    "Verif.CR.C06_add_matrix",
    "Verif.CR.C06_matrix_roundtrip",
    "Verif.CR.C06_matvec",
    "Verif.CR.C06_matmul"
   ],
   "note": ""
  },
  {
   "property": "C07",
   "status": "proved",
   "theorems": [
    "Verif.CR.C07_parallel_sum"
   ],
   "note": ""
  },
  {
   "property": "C08",
   "status": "proved",
   "theorems": [
    "Verif.Basis.C08_vector_mult",
    "Verif.Basis.C08_vector_mult_transpose",
    "Verif.Basis.C08_adjoint",
    "Verif.Basis.C08_empty_rejected"
   ],
   "note": ""
  },
  {
   "property": "C09",
   "status": "proved",
   "theorems": [
    "Verif.Lapack.C09_decode_eigenpairs",
    "Verif.Lapack.C09_decode_conjugate_pairs",
    "Verif.Lapack.C09_unpaired_last_is_ub"
   ],
   "note": "On a malformed alternation the code reads out of bounds (C09_unpaired_last_is_ub)."
  },
  {
   "property": "C10",
   "status": "proved",
   "theorems": [
    "Verif.Lapack.C10_scaled_inner_product"
   ],
   "note": ""
  },
  {
   "property": "C11",
   "status": "proved",
   "theorems": [
    "Verif.Fn.C11_depends_on_iff_reachable",
    "Verif.Fn.C11_parameter_depends_on_itself",
    "Verif.Fn.C11_cycle_diverges"
   ],
   "note": "Termination requires an acyclic graph; C11_cycle_diverges shows it is needed."
  },
  {
   "property": "C12",
   "status": "proved",
   "theorems": [
    "Verif.Fn.C12_contains",
    "Verif.Fn.C12_get",
    "Verif.Fn.C12_depends_on",
    "Verif.Fn.C12_debug_add"
   ],
   "note": ""
  },
  {
   "property": "C13",
   "status": "partial",
   "theorems": [
    "Verif.Fn.C13_copy_loses_dependency_fails",
    "Verif.Fn.C13_copy_never_depends",
    "Verif.Fn.C13_copy_of_leaf_partial",
    "Verif.Fn.C13_parameter_copy_double_free_fails",
    "Verif.Fn.C13_no_copy_memory_safe_partial"
   ],
   "note": "The code violates the full property: copies lose dependency information and the Parameter copy double-frees; negations proved with witnesses, the part that holds is proved as _partial."
  },
  {
   "property": "C14",
   "status": "proved",
   "theorems": [
    "Verif.Fn.C14_constant_derivative",
    "Verif.Fn.C14_constant_value"
   ],
   "note": ""
  },
  {
   "property": "C15",
   "status": "proved",
   "theorems": [
    "Verif.Disc.C15_side_loads",
    "Verif.Disc.C15_volume_loads",
    "Verif.Disc.C15_release_total",
    "Verif.Disc.C15_debug_no_duplicates",
    "Verif.Disc.C15_duplicate_registration",
    "Verif.Disc.C15_remove_absent"
   ],
   "note": ""
  },
  {
   "property": "C16",
   "status": "proved",
   "theorems": [
    "Verif.Disc.C16_dirichlet_first_wins",
    "Verif.Disc.C16_property_last_wins",
    "Verif.Disc.C16_debug_write_once",
    "Verif.Disc.C16_lookup"
   ],
   "note": ""
  },
  {
   "property": "C17",
   "status": "partial",
   "theorems": [
    "Verif.Disc.C17_condensed_dofs_exact",
    "Verif.Disc.C17_dirichlet_dofs_exact",
    "Verif.Disc.C17_serial",
    "Verif.Disc.C17_parallel_partial",
    "Verif.Disc.C17_parallel_fails",
    "Verif.Disc.C17_mixed_types_fails"
   ],
   "note": "Exact on one process with one element type; in parallel the code scans local elements only and does not communicate, so an owner can retain a Dirichlet dof (C17_parallel_fails); C17_parallel_partial gives the partition under the hypothesis that owners see their Dirichlet dofs; variables of different element types are read with the type of variable 0 (C17_mixed_types_fails)."
  },
  {
   "property": "C18",
   "status": "proved",
   "theorems": [
    "Verif.Eig.C18_generalised",
    "Verif.Eig.C18_standard",
    "Verif.Eig.C18_rejections",
    "Verif.Eig.C18_standard_solve_unusable",
    "Verif.Eig.C18_nonhermitian_fails",
    "Verif.Eig.C18_real_call"
   ],
   "note": "C18_standard_solve_unusable: standard (HEP) problems never get through eigenproblem_solve in debug builds. C18_nonhermitian_fails: a call that asks for the imaginary part, or a problem that is not Hermitian, never delivers a pair (null v_im in the SLEPc wrapper, libmesh_error in the normalisation); the property is about HEP/GHEP."
  },
  {
   "property": "C19",
   "status": "partial",
   "theorems": [
    "Verif.Eig.C19_generalised",
    "Verif.Eig.C19_standard_off_by_lambda",
    "Verif.Eig.C19_standard_fails",
    "Verif.Eig.C19_second_parameter_fails",
    "Verif.Eig.C19_get_eigenpair_after_sensitivity_fails"
   ],
   "note": "Generalised problems proved for one call; standard problems off by -lambda (C19_standard_off_by_lambda / _fails); a second call after matrix_B was overwritten is wrong (C19_second_parameter_fails, C19_get_eigenpair_after_sensitivity_fails)."
  },
  {
   "property": "C20",
   "status": "partial",
   "theorems": [
    "Verif.Sens.C20_adjoint_equals_direct",
    "Verif.Sens.C20_direct_is_total_derivative",
    "Verif.Sens.C20_adjoint_is_total_derivative_partial",
    "Verif.Sens.C20_multiple_parameters",
    "Verif.Sens.C20_adjoint_point_fails"
   ],
   "note": "Proved when the passed state is the stored solution; adjoint_solve linearises at *solution otherwise (C20_adjoint_point_fails)."
  },
  {
   "property": "C21",
   "status": "partial",
   "theorems": [
    "Verif.Life.C21_marker",
    "Verif.Life.C21_flat_completes",
    "Verif.Life.C21_nested_rejected",
    "Verif.Life.C21_release_nested_fails",
    "Verif.Life.C21_exception_sticks_fails"
   ],
   "note": "Holds for debug builds without exceptions (proved for all call trees); violated in release builds for nested calls and after exceptions (no clean-up): C21_release_nested_fails, C21_exception_sticks_fails."
  },
  {
   "property": "C22",
   "status": "proved",
   "theorems": [
    "Verif.Asm.C22_residual",
    "Verif.Asm.C22_residual_independent",
    "Verif.Asm.C22_jacobian",
    "Verif.Asm.C22_jacobian_independent",
    "Verif.Asm.C22_jacobian_product"
   ],
   "note": "residual/Jacobian assembly = sums over elements, independence of order and distribution, Jacobian-vector product = matrix product"
  },
  {
   "property": "C23",
   "status": "partial",
   "theorems": [
    "Verif.Life.C23_evaluates_code",
    "Verif.Life.C23_evaluates_partial",
    "Verif.Life.C23_refined_element_fails",
    "Verif.Life.C23_exclusive",
    "Verif.Life.C23_boundary",
    "Verif.Life.C23_sensitivity_skip"
   ],
   "note": "Exact for elements without parent; refined (child) elements are looked up under their parent (C23_refined_element_fails)."
  },
  {
   "property": "C24",
   "status": "proved",
   "theorems": [
    "Verif.Life.C24_attached",
    "Verif.Life.C24_debug_legal",
    "Verif.Life.C24_set_clear_restores",
    "Verif.Life.C24_assembly_needs_attachments"
   ],
   "note": ""
  },
  {
   "property": "C25",
   "status": "partial",
   "theorems": [
    "Verif.Life.C25_value",
    "Verif.Life.C25_derivative_partial",
    "Verif.Life.C25_derivative_returns_value_fails",
    "Verif.Life.C25_perturbation_never_available_fails"
   ],
   "note": "operator() proved for all histories; derivative/perturbation return the value while a quadrature-point solution is set, and no perturbation can ever be stored (…_fails)."
  },
  {
   "property": "C26",
   "status": "proved",
   "theorems": [
    "Verif.Transient.C26_integration_rule",
    "Verif.Transient.C26_velocity_unique",
    "Verif.Transient.C26_increment"
   ],
   "note": "rule, uniqueness, increments"
  },
  {
   "property": "C27",
   "status": "proved",
   "theorems": [
    "Verif.Transient.C27_stable",
    "Verif.Transient.C27_scalar_step"
   ],
   "note": "vector form, any M sym PSD, K PSD, any number and size of steps; plus scalar form"
  },
  {
   "property": "C28",
   "status": "proved",
   "theorems": [
    "Verif.Transient.C28_newmark_relations",
    "Verif.Transient.C28_increment",
    "Verif.Transient.C28_exact_quadratic"
   ],
   "note": "relations, increments, exact for constant acceleration for any step sequence"
  },
  {
   "property": "C29",
   "status": "proved",
   "theorems": [
    "Verif.Transient.C29_energy_conserved"
   ],
   "note": "energy conserved over any step sequence"
  },
  {
   "property": "C30",
   "status": "proved",
   "theorems": [
    "Verif.Transient.C30_second_order_jacobian",
    "Verif.Transient.C30_generalized_alpha_jacobian",
    "Verif.Transient.C30_first_order_jacobian"
   ],
   "note": "all three solvers, general differentiable elements (contract IsElement)"
  },
  {
   "property": "C31",
   "status": "proved",
   "theorems": [
    "Verif.Transient.C31_accuracy_and_stability",
    "Verif.Transient.C31_spectral_radius"
   ],
   "note": "accuracy and stability conditions; characteristic polynomial at infinite frequency is (X+rho)^3"
  },
  {
   "property": "C32",
   "status": "partial",
   "theorems": [
    "Verif.Transient.C32_newmark_product",
    "Verif.Transient.C32_first_order_product",
    "Verif.Transient.C32_generalized_alpha_fails",
    "Verif.Transient.C32_generalized_alpha_unweighted_partial"
   ],
   "note": "Newmark solvers proved; generalized-alpha refuted (C32_generalized_alpha_fails): perturbed data not weighted; holds only for alpha=0"
  },
  {
   "property": "C33",
   "status": "proved",
   "theorems": [
    "Verif.Transient.C33_solution_history",
    "Verif.Transient.C33_velocity_history",
    "Verif.Transient.C33_acceleration_history",
    "Verif.Transient.C33_time"
   ],
   "note": "any stored length, any step count"
  },
  {
   "property": "C34",
   "status": "partial",
   "theorems": [
    "Verif.Cont.C34_retry_restores",
    "Verif.Cont.C34_retry_restores_direction",
    "Verif.Cont.C34_arc_bounds",
    "Verif.Cont.C34_terminates",
    "Verif.Cont.C34_outcome",
    "Verif.Cont.C34_adapt_bounds",
    "Verif.Cont.C34_unconverged_state_kept_fails",
    "Verif.Cont.C34_initial_step_below_minimum_fails"
   ],
   "note": "restoration, halving, bounds, termination, outcome proved; refuted: unconverged iterate is kept and returned at minimum step; default parameters start below min_step"
  },
  {
   "property": "C35",
   "status": "partial",
   "theorems": [
    "Verif.Cont.C35_early_convergence_accepted_partial",
    "Verif.Cont.C35_fails"
   ],
   "note": "accepted before the last permitted iteration; refuted at the last one (C35_fails)"
  },
  {
   "property": "C36",
   "status": "partial",
   "theorems": [
    "Verif.Cont.C36_bordered_is_newton",
    "Verif.Cont.C36_schur_solves_newton",
    "Verif.Cont.C36_same_increment",
    "Verif.Cont.C36_arclength_partial",
    "Verif.Cont.C36_arclength_stale_matrix_fails"
   ],
   "note": "Schur = bordered proved when dXdp belongs to the same Jacobian (pseudo-arclength); refuted for arclength (stale matrix)"
  },
  {
   "property": "C37",
   "status": "proved",
   "theorems": [
    "Verif.Cont.C37_search_direction",
    "Verif.Cont.C37_constraint_linearisation",
    "Verif.Cont.C37_newton_step",
    "Verif.Cont.C37_arclength_constraint"
   ],
   "note": "unit tangent direction, orientation, exact linearisation of the constraint, Newton step"
  },
  {
   "property": "C38",
   "status": "proved",
   "theorems": [
    "Verif.CR.C38_interleave_roundtrip",
    "Verif.CR.C38_blocked_assembly",
    "Verif.CR.C38_block_solution_is_complex_solution",
    "Verif.CR.C38_constrained_dof_block_singular",
    "Verif.CR.C38_constrained_free_rows"
   ],
   "note": "Includes a finding: constraining Re, -Im, Im blocks separately makes the block of a constrained dof singular (C38_constrained_dof_block_singular)."
  },
  {
   "property": "C39",
   "status": "proved",
   "theorems": [
    "Verif.Coupled.C39_nested_product",
    "Verif.Coupled.C39_uncoupled",
    "Verif.Coupled.C39_norm"
   ],
   "note": "Nested operator equals the full coupled Jacobian for any number of disciplines, block Jacobi without the update object, norm of the stacked residual."
  },
  {
   "property": "C40",
   "status": "partial",
   "theorems": [
    "Verif.Coupled.C40_averages",
    "Verif.Coupled.C40_accepted_step",
    "Verif.Coupled.C40_rejected_step_zeroes_fails",
    "Verif.Coupled.C40_theta_scheme_fails",
    "Verif.Coupled.C40_reads_past_max_index_fails",
    "Verif.Coupled.C40_q_sensitivity_points_fails",
    "Verif.Coupled.C40_q_interpolation",
    "Verif.Transient.C40_norm_factor",
    "Verif.Transient.C40_norm_factor_conv",
    "Verif.Transient.C40_norm_zero_fails"
   ],
   "note": "Averages, index/clock and the accepted step proved for all inputs; norm growth factor bounds every nonzero variable (C40_norm_factor); refuted: rejected step zeroes the current sensitivity, beta<1 right-hand side, reads max_index+1, output sensitivity linearised only at the interval end, variables that were zero are left out of the growth factor (C40_norm_zero_fails)."
  },
  {
   "property": "C41",
   "status": "proved",
   "theorems": [
    "Verif.Optim.C41_roundtrip",
    "Verif.Optim.C41_missing_iteration_detected",
    "Verif.Optim.C41_late_file_unreadable_fails"
   ],
   "note": "Character-level round trip for all sizes and iterations; missing iterations always detected; a file begun after earlier evaluations has no header (refuted case, C41_late_file_unreadable_fails). Number formatting abstract (Printer.Good)."
  },
  {
   "property": "C42",
   "status": "partial",
   "theorems": [
    "Verif.Optim.C42_verdict",
    "Verif.Optim.C42_quadratic_exact",
    "Verif.Optim.C42_correct_accepted",
    "Verif.Optim.C42_wrong_detected",
    "Verif.Optim.C42_left_perturbed_fails"
   ],
   "note": "Verdict and exactness for quadratics proved; restoration refuted (last evaluation is at a perturbed point)."
  },
  {
   "property": "C43",
   "status": "proved",
   "theorems": [
    "Verif.Optim.C43_counts",
    "Verif.Optim.C43_max",
    "Verif.Optim.C43_max_floor"
   ],
   "note": "Counts and maximum for all vectors; values at or below -1e20 reported as -1e20."
  },
  {
   "property": "C44",
   "status": "partial",
   "theorems": [
    "Verif.Optim.C44_converged_window",
    "Verif.Optim.C44_early_stop",
    "Verif.Optim.C44_max_iterations",
    "Verif.Optim.C44_premature_stop_fails",
    "Verif.Optim.C44_window_one_fails",
    "Verif.Optim.C44_default_limit_unbounded_fails",
    "Verif.Optim.C44_inner_bound"
   ],
   "note": "Window, early stop and iteration bounds proved; refuted: premature stop against zero buffer, window of one, default limit 0 never stops."
  },
  {
   "property": "C45",
   "status": "partial",
   "theorems": [
    "Verif.Optim.C45_gradient_layout",
    "Verif.Optim.C45_values_not_written_fails",
    "Verif.Optim.C45_history_zero_fails",
    "Verif.Optim.C45_tolerance_array_fails"
   ],
   "note": "Gradient layout proved; refuted: constraint values never written, history row zero, tolerance array too short."
  },
  {
   "property": "C46",
   "status": "partial",
   "theorems": [
    "Verif.Optim.C46_dot_gradients",
    "Verif.Optim.C46_npsol_exit_fails",
    "Verif.Optim.C46_npsol_success_reported_infeasible_fails",
    "Verif.Optim.C46_npsol_bounds_partial",
    "Verif.Optim.C46_npsol_equality_fails",
    "Verif.Optim.C46_dot_records"
   ],
   "note": "DOT hand-over and records, NPSOL bounds without equality constraints proved; NPSOL exit family and equality constraints refuted"
  },
  {
   "property": "C47",
   "status": "proved",
   "theorems": [
    "Verif.Coord.C47_transform",
    "Verif.Coord.C47_compose",
    "Verif.Coord.C47_inverse",
    "Verif.Coord.C47_trace",
    "Verif.Coord.C47_sensitivity"
   ],
   "note": "Polynomial identity for every T and symmetric tensor, composition, inverse, trace, derivative."
  },
  {
   "property": "C48",
   "status": "proved",
   "theorems": [
    "Verif.Coord.C48_orthonormal",
    "Verif.Coord.C48_right_handed",
    "Verif.Coord.C48_axes",
    "Verif.Coord.C48_derivative"
   ],
   "note": ""
  },
  {
   "property": "C49",
   "status": "proved",
   "theorems": [
    "Verif.Coupling.C49_partition_of_unity",
    "Verif.Coupling.C49_nearer_is_heavier",
    "Verif.Coupling.C49_rows_defined",
    "Verif.Coupling.C49_translation_only_nodes_fails",
    "Verif.Coupling.C49_translation"
   ],
   "note": "Weights, translation and monotonicity; on nodes with 3 dofs the rows are undefined behaviour (C49_translation_only_nodes_fails)."
  },
  {
   "property": "C50",
   "status": "partial",
   "theorems": [
    "Verif.Coupling.C50_rotation_dofs",
    "Verif.Coupling.C50_translation_rows_partial",
    "Verif.Coupling.C50_rigid_rotation_fails"
   ],
   "note": "Rotation dofs and second translation row proved; first and third translation rows have the wrong sign: refuted for both sign conventions."
  },
  {
   "property": "C51",
   "status": "proved",
   "theorems": [
    "Verif.Stress.C51_deviator",
    "Verif.Stress.C51_nonneg",
    "Verif.Stress.C51_homogeneous",
    "Verif.Stress.C51_hydrostatic_invariant",
    "Verif.Stress.C51_zero_iff",
    "Verif.Stress.C51_frame_invariant",
    "Verif.Stress.C51_triangle"
   ],
   "note": "tensor/deviator form, invariance under every orthonormal frame change, seminorm, zero iff hydrostatic"
  },
  {
   "property": "C52",
   "status": "proved",
   "theorems": [
    "Verif.Stress.C52_dp",
    "Verif.Stress.C52_dX",
    "Verif.Stress.C52_degenerate"
   ],
   "note": "dp and dX along arbitrary differentiable histories; zero cases"
  },
  {
   "property": "C53",
   "status": "partial",
   "theorems": [
    "Verif.Stress.C53_maximum",
    "Verif.Stress.C53_partition_independent",
    "Verif.Stress.C53_bounds",
    "Verif.Stress.C53_between_zero_and_max",
    "Verif.Stress.C53_uniform",
    "Verif.Stress.C53_sensitivity_partial",
    "Verif.Stress.C53_sensitivity_defined",
    "Verif.Stress.C53_zero_stress_fails",
    "Verif.Stress.C53_boundary_sensitivity_partial",
    "Verif.Stress.C53_state_derivative_partial"
   ],
   "note": "bounds, uniform exactness, partition independence, and all three derivatives proved away from the cap of the weight; C53_zero_stress_fails: NaN sensitivity for an unstressed structure although the derivative is 0"
  },
  {
   "property": "C54",
   "status": "proved",
   "theorems": [
    "Verif.Stress.C54_bounds",
    "Verif.Stress.C54_uniform",
    "Verif.Stress.C54_above_mean",
    "Verif.Stress.C54_sensitivity",
    "Verif.Stress.C54_boundary_sensitivity",
    "Verif.Stress.C54_state_derivative"
   ],
   "note": "bounds, Jensen, uniform, parameter/boundary/state derivatives"
  },
  {
   "property": "C55",
   "status": "proved",
   "theorems": [
    "Verif.Stress.C55_bounds",
    "Verif.Stress.C55_zero",
    "Verif.Stress.C55_monotone",
    "Verif.Stress.C55_sensitivity",
    "Verif.Stress.C55_boundary_sensitivity",
    "Verif.Stress.C55_state_derivative"
   ],
   "note": "bounds, zero, monotone, parameter/boundary/state derivatives"
  },
  {
   "property": "C56",
   "status": "proved",
   "theorems": [
    "Verif.Material.C56_3d_inverse",
    "Verif.Material.C56_plane_stress_inverse",
    "Verif.Material.C56_plane_strain_restriction",
    "Verif.Material.C56_moduli",
    "Verif.Material.C56_posdef"
   ],
   "note": "isotropic 1D/2D/3D matrices"
  },
  {
   "property": "C57",
   "status": "partial",
   "theorems": [
    "Verif.Material.C57_derivative_partial",
    "Verif.Material.C57_thermal_inertia",
    "Verif.Material.C57_thermal_expansion_shape",
    "Verif.Material.C57_transverse_shear_fails"
   ],
   "note": "transverse shear derivative proved wrong (C57_transverse_shear_fails): only the zero matrix is returned"
  },
  {
   "property": "C58",
   "status": "partial",
   "theorems": [
    "Verif.Material.C58_answer",
    "Verif.Material.C58_uniform_flag_partial",
    "Verif.Material.C58_flag_ignored_fails",
    "Verif.Material.C58_difference_observable"
   ],
   "note": "holds while one plane-stress flag is used throughout; C58_flag_ignored_fails shows the cached 2D matrix ignores later flags"
  },
  {
   "property": "C59",
   "status": "proved",
   "theorems": [
    "Verif.Material.C59_3d_inverse",
    "Verif.Material.C59_3d_symmetric",
    "Verif.Material.C59_plane_strain_restriction",
    "Verif.Material.C59_plane_stress_inverse",
    "Verif.Material.C59_2d_symmetric",
    "Verif.Material.C59_isotropic",
    "Verif.Material.C59_posdef"
   ],
   "note": "all nine orthotropic constants"
  },
  {
   "property": "C60",
   "status": "partial",
   "theorems": [
    "Verif.Material.C60_3d",
    "Verif.Material.C60_1d_shear",
    "Verif.Material.C60_plane_stress_partial",
    "Verif.Material.C60_plane_stress_fails",
    "Verif.Material.C60_plane_strain_formula",
    "Verif.Material.C60_plane_strain_ub",
    "Verif.Material.C60_depends_on_fails",
    "Verif.Material.C60_depends_on_partial"
   ],
   "note": "3D, 1D, shear proved; 2D derivative reads nu31 into nu12 (C60_plane_stress_fails) and uninitialised locals in plane strain (C60_plane_strain_ub); depends_on misses E33 (C60_depends_on_fails)"
  },
  {
   "property": "C61",
   "status": "proved",
   "theorems": [
    "Verif.Section2D.C61_extension",
    "Verif.Section2D.C61_coupling",
    "Verif.Section2D.C61_bending",
    "Verif.Section2D.C61_thermal",
    "Verif.Section2D.C61_energy",
    "Verif.Section2D.C61_deriv_extension",
    "Verif.Section2D.C61_deriv_coupling",
    "Verif.Section2D.C61_deriv_bending",
    "Verif.Section2D.C61_deriv_shear",
    "Verif.Section2D.C61_deriv_thermal"
   ],
   "note": "A, B, D, transverse shear, thermal, conductance, capacitance of the plate section"
  },
  {
   "property": "C62",
   "status": "partial",
   "theorems": [
    "Verif.Section2D.C62_integral",
    "Verif.Section2D.C62_symmetric",
    "Verif.Section2D.C62_posdef",
    "Verif.Section2D.C62_derivative_iff_partial",
    "Verif.Section2D.C62_derivative_partial",
    "Verif.Section2D.C62_derivative_fails"
   ],
   "note": "integral, symmetry, positivity proved; derivative proved wrong for offset plates (C62_derivative_fails), exact characterisation in C62_derivative_iff_partial"
  },
  {
   "property": "C63",
   "status": "partial",
   "theorems": [
    "Verif.Section1D.C63_beam_stack_fails",
    "Verif.Section1D.C63_beam_overlap_fails",
    "Verif.Section2D.C63_face_to_face",
    "Verif.Section2D.C63_extent",
    "Verif.Section2D.C63_base",
    "Verif.Section2D.C63_laminate_integrals",
    "Verif.Section2D.C63_equivalent_plate",
    "Verif.Section2D.C63_offset_derivative",
    "Verif.Section2D.C63_laminate_derivative",
    "Verif.Section2D.C63_destroy_fails"
   ],
   "note": "plate stacks: tiling, equivalent plate, integrals and derivatives proved for any number of layers; destruction deletes the layer thickness functions repeatedly (C63_destroy_fails); beam stacks store the offset under a name init does not read (C63_beam_stack_fails)"
  },
  {
   "property": "C64",
   "status": "partial",
   "theorems": [
    "Verif.Section1D.C64_integrals",
    "Verif.Section1D.C64_energy",
    "Verif.Section1D.C64_stiffness_posdef",
    "Verif.Section1D.C64_inertia",
    "Verif.Section1D.C64_inertia_posdef",
    "Verif.Section1D.C64_deriv_properties",
    "Verif.Section1D.C64_deriv_stiffness",
    "Verif.Section1D.C64_deriv_inertia",
    "Verif.Section1D.C64_thermal",
    "Verif.Section1D.C64_deriv_thermal",
    "Verif.Section1D.C64_deriv_shear_partial",
    "Verif.Section1D.C64_deriv_shear_fails"
   ],
   "note": "section properties, stiffness, inertia, thermal proved; transverse shear derivative writes to an unsized matrix (C64_deriv_shear_fails)"
  },
  {
   "property": "C65",
   "status": "proved",
   "theorems": [
    "Verif.Section1D.C65_symmetric",
    "Verif.Section1D.C65_formula",
    "Verif.Section1D.C65_pos",
    "Verif.Section1D.C65_le_polar",
    "Verif.Section1D.C65_homogeneous",
    "Verif.Section1D.C65_derivative",
    "Verif.Section1D.C65_square_kink"
   ],
   "note": "hy != hz; C65_square_kink shows the exclusion is necessary"
  },
  {
   "property": "C66",
   "status": "partial",
   "theorems": [
    "Verif.Coord.C66_stress",
    "Verif.Coord.C66_energy",
    "Verif.Coord.C66_symmetric",
    "Verif.Coord.C66_identity_frame",
    "Verif.Coord.C66_expansion",
    "Verif.Coord.C66_conductance_partial",
    "Verif.Coord.C66_conductance_frame_fails",
    "Verif.Coord.C66_stiffness_derivative",
    "Verif.Coord.C66_expansion_derivative",
    "Verif.Coord.C66_conductance_derivative"
   ],
   "note": "Stiffness, expansion, energy and all derivatives proved; conductance is rotated with the inverse frame (refuted)."
  },
  {
   "property": "C67",
   "status": "proved",
   "theorems": [
    "Verif.Filter.C67_weights",
    "Verif.Filter.C67_average",
    "Verif.Filter.C67_bounds",
    "Verif.Filter.C67_constant",
    "Verif.Filter.C67_linear"
   ],
   "note": "partition of unity, max principle, constants and linearity for the distributed-vector overload"
  },
  {
   "property": "C68",
   "status": "partial",
   "theorems": [
    "Verif.Filter.C68_sparse",
    "Verif.Filter.C68_vector_partial",
    "Verif.Filter.C68_vector_fails"
   ],
   "note": "The sparse overload is proved equal to the dense one; the std::vector overload agrees on design variables but multiplies the value of every other dof by the number of its filter neighbours (C68_vector_fails)."
  },
  {
   "property": "C69",
   "status": "partial",
   "theorems": [
    "Verif.Filter.C69_sound_nodes",
    "Verif.Filter.C69_sound_partial",
    "Verif.Filter.C69_coarse_elem_fails"
   ],
   "note": "Node query proved sound; the element query tests only the nodes of the element (C69_coarse_elem_fails)."
  },
  {
   "property": "C70",
   "status": "partial",
   "theorems": [
    "Verif.CutCell.C70_area",
    "Verif.CutCell.C70_volume",
    "Verif.CutCell.C70_fraction",
    "Verif.CutCell.C70_sign_partial",
    "Verif.CutCell.C70_sign_affine_partial",
    "Verif.CutCell.C70_opposite_nodes_fails",
    "Verif.CutCell.C70_saddle",
    "Verif.CutCell.C70_hanging_node_fails"
   ],
   "note": "Areas/volumes always add up (C70_area, C70_volume, C70_fraction). Signs proved for level sets affine along edges (or between their end values there, searches converged) when no corner value equals the tolerance; refuted when two opposite corners are zero and the others have the same sign, and for the hanging node of the adjacent-edge mode."
  },
  {
   "property": "C71",
   "status": "partial",
   "theorems": [
    "Verif.CutCell.C71_total",
    "Verif.CutCell.C71_negative_corners",
    "Verif.CutCell.C71_entirely",
    "Verif.CutCell.C71_corner_sign_partial",
    "Verif.CutCell.C71_colinear_fails",
    "Verif.CutCell.C71_tolerance_fails",
    "Verif.CutCell.C71_quad9_fails",
    "Verif.CutCell.C71_material_sides"
   ],
   "note": "Total and correctly classified except: colinear edge with the other corners on opposite sides, value equal to the tolerance (abort), QUAD9 with positive corners and a negative inner node (abort), touching diagonal (see C70)."
  },
  {
   "property": "C72",
   "status": "proved",
   "theorems": [
    "Verif.CutCell.C72_bracket",
    "Verif.CutCell.C72_sign_kept",
    "Verif.CutCell.C72_linear"
   ],
   "note": ""
  },
  {
   "property": "C73",
   "status": "partial",
   "theorems": [
    "Verif.CutCell.C73_elem_ids",
    "Verif.CutCell.C73_elem_count",
    "Verif.CutCell.C73_node_ids_partial",
    "Verif.CutCell.C73_node_ids_fails"
   ],
   "note": "Element ids proved collision free; ids of new nodes repeat from one cut element to the next (C73_node_ids_fails)."
  },
  {
   "property": "C74",
   "status": "partial",
   "theorems": [
    "Verif.InterfaceDofs.C74_changes_even",
    "Verif.InterfaceDofs.C74_factored_iff_structured",
    "Verif.InterfaceDofs.C74_elems_to_factor",
    "Verif.InterfaceDofs.C74_irregular_node_fails",
    "Verif.InterfaceDofs.C74_three_elements_never_factored",
    "Verif.InterfaceDofs.C74_rotated_numbering_fails"
   ],
   "note": "even count on every ring proved; factored iff >1 pocket proved for structured patches in any element order; irregular nodes (>4 elements) overrun a 4-slot vector and rotated local numbering misses a pocket (_fails theorems)"
  },
  {
   "property": "C75",
   "status": "proved",
   "theorems": [
    "Verif.InterfaceDofs.C75_void_rows",
    "Verif.InterfaceDofs.C75_material_rows",
    "Verif.InterfaceDofs.C75_newton_update",
    "Verif.InterfaceDofs.C75_updated_sol",
    "Verif.InterfaceDofs.C75_factored_solution",
    "Verif.InterfaceDofs.C75_step"
   ],
   "note": "void rows/material rows/Newton equivalence for every element system with a regular void block; Eigen's solver is external and assumed to solve regular systems"
  },
  {
   "property": "C76",
   "status": "proved",
   "theorems": [
    "Verif.InterfaceDofs.C76_partition_local",
    "Verif.InterfaceDofs.C76_partition_complete",
    "Verif.InterfaceDofs.C76_partition_global",
    "Verif.InterfaceDofs.C76_not_cleared_fails",
    "Verif.InterfaceDofs.C76_global_unsorted_fails"
   ],
   "note": "local partition sorted, disjoint, complete; global ids complete and disjoint but not sorted, outputs not cleared by the partition itself (_fails theorems document both)"
  },
  {
   "property": "C77",
   "status": "partial",
   "theorems": [
    "Verif.ConstrainDofs.C77_constrained_iff",
    "Verif.ConstrainDofs.C77_indicator_iff",
    "Verif.ConstrainDofs.C77_quad4_iff",
    "Verif.ConstrainDofs.C77_quad4_negative_iff",
    "Verif.ConstrainDofs.C77_touching_element_fails",
    "Verif.ConstrainDofs.C77_processor_local_fails"
   ],
   "note": "exact characterisation proved for the elements of one processor (incl. indicator variant and QUAD4 meshes through the cut-cell model); findings: elements touching the interface from the void side count as material; on several processors the sets are rank-local (_fails theorems)"
  },
  {
   "property": "C78",
   "status": "partial",
   "theorems": [
    "Verif.Transient.C78_first_order_total_derivative",
    "Verif.Transient.C78_transient_sensitivity_unreachable_fails"
   ],
   "note": "total-derivative identity proved for constant mass matrix; the driver cannot reach the assembly (C78_transient_sensitivity_unreachable_fails); second-order contribution: see C168_second_order_fails"
  },
  {
   "property": "C79",
   "status": "partial",
   "theorems": [
    "Verif.Transient.C79_newmark_initial_acceleration",
    "Verif.Transient.C79_generalized_alpha_fails"
   ],
   "note": "proved for Newmark; refuted for generalized-alpha (C79_generalized_alpha_fails)"
  },
  {
   "property": "C80",
   "status": "partial",
   "theorems": [
    "Verif.Optim.C80_backtracking_stays_in_bounds",
    "Verif.Optim.C80_first_iteration_leaves_bounds_fails",
    "Verif.Optim.C80_backtracking_may_not_terminate_fails"
   ],
   "note": "Holds when the previous iterate is inside the bounds; fails in the first outer iteration (zero vector); backtracking may not terminate."
  },
  {
   "property": "C81",
   "status": "partial",
   "theorems": [
    "Verif.Optim.C81_line_study",
    "Verif.Optim.C81_values_fails"
   ],
   "note": "spacing proved; the objective and constraint values recorded are never evaluated (C81_values_fails)"
  },
  {
   "property": "C82",
   "status": "proved",
   "theorems": [
    "Verif.CutCell.C82_interface_side",
    "Verif.CutCell.C82_interface_matched",
    "Verif.CutCell.C82_colinear_side"
   ],
   "note": "searches converged, no corner value equal to the tolerance"
  },
  {
   "property": "C83",
   "status": "proved",
   "theorems": [
    "Verif.CutCell.C83_local_coordinates",
    "Verif.CutCell.C83_corner_coordinates",
    "Verif.CutCell.C83_inside"
   ],
   "note": ""
  },
  {
   "property": "C84",
   "status": "partial",
   "theorems": [
    "Verif.SubElemMesh.C84_nodes_shared",
    "Verif.SubElemMesh.C84_node_positions",
    "Verif.SubElemMesh.C84_old_nodes",
    "Verif.SubElemMesh.C84_all_recorded",
    "Verif.SubElemMesh.C84_conforming",
    "Verif.SubElemMesh.C84_common_edge_partial",
    "Verif.SubElemMesh.C84_hanging_position_fails"
   ],
   "note": "One node per edge and side, shared by all elements, at its point when the points are a function of the edge. Finding: hanging nodes on a common edge from two neighbours at different places are identified (C84_hanging_position_fails)."
  },
  {
   "property": "C85",
   "status": "partial",
   "theorems": [
    "Verif.SubElemMesh.C85_children",
    "Verif.SubElemMesh.C85_boundary_sides",
    "Verif.SubElemMesh.C85_parents",
    "Verif.SubElemMesh.C85_separated_partial",
    "Verif.SubElemMesh.C85_interface_corner_fails",
    "Verif.SubElemMesh.C85_changed_flag_fails"
   ],
   "note": "Children, boundary sides, parents proved; new nodes are separated. Findings: corners on the interface are shared by both sides (C85_interface_corner_fails); an element touching the interface is replaced without the mesh reported as changed (C85_changed_flag_fails)."
  },
  {
   "property": "C86",
   "status": "proved",
   "theorems": [
    "Verif.SubElemMesh.C86_round_trip"
   ],
   "note": "Up to the renumbering libMesh's prepare_for_use may do (not modelled)."
  },
  {
   "property": "C87",
   "status": "partial",
   "theorems": [
    "Verif.SubElemMesh.C87_constrain",
    "Verif.SubElemMesh.C87_void_zero",
    "Verif.SubElemMesh.C87_hanging_affine",
    "Verif.SubElemMesh.C87_owner_test_fails",
    "Verif.SubElemMesh.C87_weak_hanging_fails",
    "Verif.SubElemMesh.C87_negative_element_fails"
   ],
   "note": "Rows of the constraints proved. Findings: the owner test is vacuous (first <= d || d < last), hanging nodes are not constrained with weak discontinuity, the subdomain of elements wholly on the negative side is not constrained unless a cut made a QUAD4 child in it."
  },
  {
   "property": "C88",
   "status": "proved",
   "theorems": [
    "Verif.Flutter.C88_state_space",
    "Verif.Flutter.C88_spectrum"
   ],
   "note": "Real M, C, K over ℂ; matrix assembly from the reduced quantities is modelled."
  },
  {
   "property": "C89",
   "status": "partial",
   "theorems": [
    "Verif.Flutter.C89_eigenvalue_derivative",
    "Verif.Flutter.C89_flutter_velocity",
    "Verif.Flutter.C89_defined_partial",
    "Verif.Flutter.C89_null_velocity_sensitivity_fails"
   ],
   "note": "Derivatives proved for any differentiable eigenpair family; finding: with a null dXdV but a given dXdp the function dereferences/uses an unset vector (see _fails), so it is defined only for the cases of C89_defined_partial."
  },
  {
   "property": "C90",
   "status": "partial",
   "theorems": [
    "Verif.FlutterSearch.C90_inside",
    "Verif.FlutterSearch.C90_result",
    "Verif.FlutterSearch.C90_converges",
    "Verif.FlutterSearch.C90_affine",
    "Verif.FlutterSearch.C90_reported_fails",
    "Verif.FlutterSearch.C90_reported_partial",
    "Verif.FlutterSearch.C90_no_iterations_fails",
    "Verif.FlutterSearch.C90_unstable_first_fails"
   ],
   "note": "Bracket, success test and convergence proved. Findings: callers ignore the success flag, so an unconverged root is reported as found; with zero iterations a null pointer is handed out; a mode unstable at the first point makes a zero-width bracket (NaN)."
  },
  {
   "property": "C91",
   "status": "proved",
   "theorems": [
    "Verif.FlutterSearch.C91_critical_identified",
    "Verif.FlutterSearch.C91_critical",
    "Verif.FlutterSearch.C91_enumerate",
    "Verif.FlutterSearch.C91_next",
    "Verif.FlutterSearch.C91_next_finds_all"
   ],
   "note": "C91_critical_identified links the crossovers to the scanned table for modes stable at the first velocity; C91_critical is for any sorted map."
  },
  {
   "property": "C92",
   "status": "partial",
   "theorems": [
    "Verif.FlutterSearch.C92_grid",
    "Verif.FlutterSearch.C92_grid_ends",
    "Verif.FlutterSearch.C92_ug_grid",
    "Verif.FlutterSearch.C92_rescan",
    "Verif.FlutterSearch.C92_crossovers",
    "Verif.FlutterSearch.C92_single_solution_fails",
    "Verif.FlutterSearch.C92_slow_crossing_fails"
   ],
   "note": "Grid, rescan and the exact set of crossovers proved for tables with at least two solutions. Findings: one solution at rest dereferences the end iterator; sign changes between two points both with |V| <= 1e-5 are ignored."
  },
  {
   "property": "C93",
   "status": "partial",
   "theorems": [
    "Verif.FlutterSearch.C93_permutation",
    "Verif.FlutterSearch.C93_empty_fails",
    "Verif.FlutterSearch.C93_tracking",
    "Verif.FlutterSearch.C93_unchanged"
   ],
   "note": "Permutation and tracking proved for nonempty solutions; finding: with no roots the unsigned loop bound wraps around."
  },
  {
   "property": "C94",
   "status": "partial",
   "theorems": [
    "Verif.FlutterSearch.C94_count",
    "Verif.FlutterSearch.C94_critical_root",
    "Verif.FlutterSearch.C94_fastest_fails",
    "Verif.FlutterSearch.C94_below_tolerance",
    "Verif.FlutterSearch.C94_march",
    "Verif.FlutterSearch.C94_refine",
    "Verif.FlutterSearch.C94_converges_partial",
    "Verif.FlutterSearch.C94_undamped_fails",
    "Verif.FlutterSearch.C94_tight_tolerance_fails"
   ],
   "note": "Proved under the hypothesis that no velocity tried has growth exactly zero. Findings: neutrally stable systems divide by zero in the second iteration; tolerances <= 1e-4 never converge even for affine growth; the unstable root returned is the last, not the fastest growing."
  },
  {
   "property": "C95",
   "status": "partial",
   "theorems": [
    "Verif.Flutter.C95_root",
    "Verif.Flutter.C95_nonphysical",
    "Verif.Flutter.C95_infinite_root_fails",
    "Verif.Flutter.C95_equation",
    "Verif.Flutter.C95_kr_derivative",
    "Verif.Flutter.C95_param_derivative_partial",
    "Verif.Flutter.C95_aero_param_fails",
    "Verif.Flutter.C95_sensitivity"
   ],
   "note": "Findings: a zero beta (infinite eigenvalue) is used without test; the parameter sensitivity ignores the dependence of the aerodynamic matrix on the parameter."
  },
  {
   "property": "C96",
   "status": "proved",
   "theorems": [
    "Verif.Flutter.C96_participation",
    "Verif.Flutter.C96_time_domain",
    "Verif.Flutter.C96_root"
   ],
   "note": "Hypothesis of C96_participation: some mode has a nonzero contribution; C96_time_domain discharges it for eigenvectors."
  },
  {
   "property": "C97",
   "status": "partial",
   "theorems": [
    "Verif.PKFlutter.C97_equation_partial",
    "Verif.PKFlutter.C97_matrices_fails",
    "Verif.PKFlutter.C97_root",
    "Verif.PKFlutter.C97_velocities",
    "Verif.PKFlutter.C97_only_highest_kr_fails",
    "Verif.PKFlutter.C97_matched_fails",
    "Verif.PKFlutter.C97_zero_velocity_fails",
    "Verif.PKFlutter.C97_crossovers"
   ],
   "note": "Equation proved for matrices of the right size; findings: _analyze passes empty matrices (undefined for every nonempty basis), all reduced frequencies but the highest are ignored, undamped modes are reported as flutter at V = 0."
  },
  {
   "property": "C98",
   "status": "partial",
   "theorems": [
    "Verif.Fluid.C98_primitive",
    "Verif.Fluid.C98_perturbation",
    "Verif.Fluid.C98_at_rest_fails",
    "Verif.Fluid.C98_free_stream",
    "Verif.Fluid.C98_sens_rho",
    "Verif.Fluid.C98_sens_mach"
   ],
   "note": "at rest the Mach perturbation divides by k=0 (C98_at_rest_fails); proved everywhere else"
  },
  {
   "property": "C99",
   "status": "proved",
   "theorems": [
    "Verif.Fluid.C99_inverse",
    "Verif.Fluid.C99_derivative"
   ],
   "note": "full statement"
  },
  {
   "property": "C100",
   "status": "proved",
   "theorems": [
    "Verif.Fluid.C100_flux",
    "Verif.Fluid.C100_flux_jacobian",
    "Verif.Fluid.C100_pressure_derivative",
    "Verif.Fluid.C100_wall_jacobian"
   ],
   "note": "full statement"
  },
  {
   "property": "C101",
   "status": "proved",
   "theorems": [
    "Verif.Fluid.C101_primitive",
    "Verif.Fluid.C101_conservative"
   ],
   "note": "full statement"
  },
  {
   "property": "C102",
   "status": "proved",
   "theorems": [
    "Verif.Fluid.C102_inverse",
    "Verif.Fluid.C102_decomposition",
    "Verif.Fluid.C102_eigenvalues",
    "Verif.Fluid.C102_left_eigenvector"
   ],
   "note": "full statement"
  },
  {
   "property": "C103",
   "status": "proved",
   "theorems": [
    "Verif.Fluid.C103_inverse",
    "Verif.Fluid.C103_symmetric",
    "Verif.Fluid.C103_positive_definite",
    "Verif.Fluid.C103_derivative"
   ],
   "note": "full statement"
  },
  {
   "property": "C104",
   "status": "partial",
   "theorems": [
    "Verif.Fluid.C104_stress",
    "Verif.Fluid.C104_flux",
    "Verif.Fluid.C104_primitive",
    "Verif.Fluid.C104_chain",
    "Verif.Fluid.C104_conservative",
    "Verif.Fluid.C104_tensor_sensitivity_fails",
    "Verif.Fluid.C104_tensor_sensitivity_partial"
   ],
   "note": "Flux and K_ij identities proved for all states; the stress sensitivity is the derivative of the stress given the primitive gradient sensitivity (partial), but the code computes that gradient sensitivity with the transformation frozen (C104_tensor_sensitivity_fails)"
  },
  {
   "property": "C105",
   "status": "partial",
   "theorems": [
    "Verif.Fluid.C105_absolute_value",
    "Verif.Fluid.C105_symmetrizer",
    "Verif.Fluid.C105_absolute_value_psd",
    "Verif.Fluid.C105_matrix_psd",
    "Verif.Fluid.C105_matrix_regular",
    "Verif.Fluid.C105_rest_fails",
    "Verif.Fluid.C105_viscous_node",
    "Verif.Fluid.C105_dissipation",
    "Verif.Fluid.C105_viscous_psd",
    "Verif.Fluid.C105_viscous_regular"
   ],
   "note": "semidefinite for all states, inviscid and viscous (the viscous form adds exactly the dissipation of a wave); viscous: nonsingular at every state with positive density and temperature (C105_viscous_regular); inviscid: nonsingular where some nodal direction is neither stagnant nor sonic (C105_matrix_regular), and the code's matrix IS singular for gas at rest (C105_rest_fails), so the claim is false there"
  },
  {
   "property": "C106",
   "status": "partial",
   "theorems": [
    "Verif.Heat.C106_internal",
    "Verif.Heat.C106_element",
    "Verif.Heat.C106_rate",
    "Verif.Heat.C106_velocity_partial",
    "Verif.Heat.C106_lumped_fails",
    "Verif.Heat.C106_unsupported"
   ],
   "note": "conduction, all loads and rate Jacobian in the rates proved for all elements; the temperature Jacobian of the capacitance is proved for unlumped capacitance (C106_velocity_partial) and is not the derivative with row-sum lumping (C106_lumped_fails)"
  },
  {
   "property": "C107",
   "status": "partial",
   "theorems": [
    "Verif.Heat.C107_conduction_balance",
    "Verif.Heat.C107_uniform",
    "Verif.Heat.C107_dissipation",
    "Verif.Heat.C107_balance",
    "Verif.Heat.C107_equilibrium",
    "Verif.Heat.C107_jacobian_psd",
    "Verif.Heat.C107_lumping",
    "Verif.Heat.C107_mass_psd",
    "Verif.Heat.C107_lumped_psd_fails"
   ],
   "note": "everything proved for all elements except that the lumped capacitance need not be positive semidefinite (C107_lumped_psd_fails)"
  },
  {
   "property": "C108",
   "status": "partial",
   "theorems": [
    "Verif.Heat.C108_element_partial",
    "Verif.Heat.C108_velocity",
    "Verif.Heat.C108_radiation_fails"
   ],
   "note": "proved for every load whose constants other than flux/film/emissivity/ambient fields are parameter independent; the code asks for no derivative of the Stefan-Boltzmann constant and absolute zero parameters (C108_radiation_fails)"
  },
  {
   "property": "C109",
   "status": "proved",
   "theorems": [
    "Verif.Heat.C109_normal_linear",
    "Verif.Heat.C109_moving_end"
   ],
   "note": "full statement; Leibniz rule proved for a one dimensional element"
  },
  {
   "property": "C110",
   "status": "partial",
   "theorems": [
    "Verif.GeomElem.C110_frame",
    "Verif.GeomElem.C110_inverse",
    "Verif.GeomElem.C110_nodes",
    "Verif.GeomElem.C110_beam",
    "Verif.GeomElem.C110_shell",
    "Verif.GeomElem.C110_exists",
    "Verif.GeomElem.C110_default_partial",
    "Verif.GeomElem.C110_default_fails",
    "Verif.GeomElem.C110_axis_fails"
   ],
   "note": "frame, inverse, node, beam, shell and existence statements proved for all elements; the default orientation vector fails for elements parallel to (1,-5/8,11/40) (C110_default_fails), and beams along x discard a given y vector (C110_axis_fails)"
  },
  {
   "property": "C111",
   "status": "partial",
   "theorems": [
    "Verif.GeomElem.C111_nodal",
    "Verif.GeomElem.C111_round_trip",
    "Verif.GeomElem.C111_frame",
    "Verif.GeomElem.C111_work",
    "Verif.GeomElem.C111_jacobian",
    "Verif.GeomElem.C111_quadratic",
    "Verif.GeomElem.C111_rows",
    "Verif.GeomElem.C111_linearized_partial",
    "Verif.GeomElem.C111_linearized_fails"
   ],
   "note": "all transformations proved; linearised residual is right only when the frame is the identity (C111_linearized_partial), otherwise it multiplies the global matrix with the local perturbation (C111_linearized_fails)"
  },
  {
   "property": "C112",
   "status": "partial",
   "theorems": [
    "Verif.Piston.C112_sensitivity",
    "Verif.Piston.C112_derivatives",
    "Verif.Piston.C112_second_partial",
    "Verif.Piston.C112_second_fails",
    "Verif.Piston.C112_series",
    "Verif.Piston.C112_dcp",
    "Verif.Piston.C112_monotone",
    "Verif.Piston.C112_order_fails"
   ],
   "note": "pressure and first derivatives proved; sensitivities of the derivatives need a parameter independent motion (C112_second_partial, C112_second_fails); other orders silently become first order (C112_order_fails)"
  },
  {
   "property": "C113",
   "status": "partial",
   "theorems": [
    "Verif.StructLoads.C113_side",
    "Verif.StructLoads.C113_volume",
    "Verif.StructLoads.C113_sensitivity",
    "Verif.StructLoads.C113_volume_sensitivity",
    "Verif.StructLoads.C113_accepted",
    "Verif.StructLoads.C113_linearized_fails"
   ],
   "note": "residual and sensitivity loops proved for every multimap; linearised, frequency domain and boundary velocity loops refuse loads the residual accepts (C113_linearized_fails)"
  },
  {
   "property": "C114",
   "status": "proved",
   "theorems": [
    "Verif.StructLoads.C114_pressure",
    "Verif.StructLoads.C114_side_pressure",
    "Verif.StructLoads.C114_traction",
    "Verif.StructLoads.C114_sensitivity",
    "Verif.StructLoads.C114_linearized",
    "Verif.StructLoads.C114_boundary_velocity",
    "Verif.StructLoads.C114_resultant"
   ],
   "note": "full statement for the pressure and traction routines of line, surface and solid elements (six variables per node)"
  },
  {
   "property": "C115",
   "status": "partial",
   "theorems": [
    "Verif.StructLoads.C115_jacobian",
    "Verif.StructLoads.C115_work",
    "Verif.StructLoads.C115_psd",
    "Verif.StructLoads.C115_sensitivity",
    "Verif.StructLoads.C115_translation",
    "Verif.StructLoads.C115_boundary_velocity",
    "Verif.StructLoads.C115_solid_partial",
    "Verif.StructLoads.C115_varying_fails",
    "Verif.StructLoads.C115_solid_overwrite_fails",
    "Verif.StructLoads.C115_solid_sensitivity_fails"
   ],
   "note": "everything proved for consistent line and surface elements and, except the total mass, for lumped ones; lumped elements and solids use the density of the first quadrature point (C115_varying_fails), the lumped solid overwrites f, the sensitivity of solids reads outside a 3x3 matrix (C115_solid_sensitivity_fails)"
  },
  {
   "property": "C116",
   "status": "partial",
   "theorems": [
    "Verif.Shell.C116_strain",
    "Verif.Shell.C116_objective",
    "Verif.Shell.C116_objective_energy",
    "Verif.Shell.C116_rigid",
    "Verif.Shell.C116_psd",
    "Verif.Shell.C116_derivative",
    "Verif.Shell.C116_jacobian_partial",
    "Verif.Shell.C116_global_jacobian_partial",
    "Verif.Shell.C116_energy",
    "Verif.Shell.C116_symmetric",
    "Verif.Shell.C116_sensitivity",
    "Verif.Shell.C116_jacobian_fails",
    "Verif.Shell.C116_drilling_fails"
   ],
   "note": "energy, symmetry, rigid motions, objectivity, positivity and sensitivity hold in full; the Jacobian is the derivative for linear strain, without bending, or without in-plane gradients, up to the 1e-8 drilling entries; with nonlinear strain and bending it omits the in-plane/out-of-plane products (C116_jacobian_fails, exact defect in C116_derivative); drilling entries are not in the residual (C116_drilling_fails)"
  },
  {
   "property": "C117",
   "status": "partial",
   "theorems": [
    "Verif.Shell.C117_thermal_jacobian",
    "Verif.Shell.C117_scaling",
    "Verif.Shell.C117_thermal_energy",
    "Verif.Shell.C117_thermal_sensitivity",
    "Verif.Shell.C117_prestress_jacobian",
    "Verif.Shell.C117_prestress_energy_partial",
    "Verif.Shell.C117_prestress_energy_fails",
    "Verif.Shell.C117_prestress_sensitivity"
   ],
   "note": "thermal load in full (Jacobian for scaling 1, C117_scaling otherwise); prestress Jacobian and sensitivity in full; prestress residual omits the in-plane nonlinear strain (C117_prestress_energy_partial, C117_prestress_energy_fails)"
  },
  {
   "property": "C118",
   "status": "partial",
   "theorems": [
    "Verif.Beam.C118_jacobian",
    "Verif.Beam.C118_global_jacobian",
    "Verif.Beam.C118_truss_partial",
    "Verif.Beam.C118_energy_partial",
    "Verif.Beam.C118_energy_fails",
    "Verif.Beam.C118_symmetric",
    "Verif.Beam.C118_psd",
    "Verif.Beam.C118_rigid",
    "Verif.Beam.C118_bernoulli",
    "Verif.Beam.C118_timoshenko",
    "Verif.Beam.C118_sensitivity"
   ],
   "note": "Jacobian (with bending), symmetry, positivity, rigid motions, cubic exactness and sensitivity hold in full; energy needs equal transverse shear stiffness in the two planes (C118_energy_fails); a truss's Jacobian is regularised on zero diagonals (C118_truss_partial)"
  },
  {
   "property": "C119",
   "status": "partial",
   "theorems": [
    "Verif.Beam.C119_jac_dot_partial",
    "Verif.Beam.C119_jac_dot_fails"
   ],
   "note": "holds when the extension-bending stiffnesses of the two planes agree; otherwise one term takes the wrong entry (C119_jac_dot_fails)"
  },
  {
   "property": "C120",
   "status": "partial",
   "theorems": [
    "Verif.Beam.C120_thermal_jacobian",
    "Verif.Beam.C120_thermal_energy_partial",
    "Verif.Beam.C120_thermal_energy_fails",
    "Verif.Beam.C120_thermal_sensitivity",
    "Verif.Beam.C120_prestress_jacobian",
    "Verif.Beam.C120_prestress_energy_partial",
    "Verif.Beam.C120_prestress_energy_fails",
    "Verif.Beam.C120_prestress_sensitivity"
   ],
   "note": "Jacobians and sensitivities in full; the work identity needs equal moment entries for the two planes (C120_thermal_energy_fails, C120_prestress_energy_fails)"
  },
  {
   "property": "C121",
   "status": "partial",
   "theorems": [
    "Verif.Solid.C121_strain",
    "Verif.Solid.C121_jacobian",
    "Verif.Solid.C121_energy",
    "Verif.Solid.C121_symmetric",
    "Verif.Solid.C121_psd",
    "Verif.Solid.C121_objective",
    "Verif.Solid.C121_rigid",
    "Verif.Solid.C121_equilibrium",
    "Verif.Solid.C121_sensitivity",
    "Verif.Solid.C121_returned_partial",
    "Verif.Solid.C121_regularization",
    "Verif.Solid.C121_rotations_fails"
   ],
   "note": "everything holds for the translational unknowns; the matrix handed back has an artificial diagonal on the rotations that the residual does not have (C121_rotations_fails, C121_returned_partial)"
  },
  {
   "property": "C122",
   "status": "proved",
   "theorems": [
    "Verif.Solid.C122_virtual_work",
    "Verif.Solid.C122_recovered",
    "Verif.Solid.C122_thermal_energy",
    "Verif.Solid.C122_thermal_jacobian",
    "Verif.Solid.C122_free_expansion"
   ],
   "note": "the solid element has no thermal sensitivity and ignores prestress: those routines raise an error or add nothing and are modelled as such"
  },
  {
   "property": "C123",
   "status": "proved",
   "theorems": [
    "Verif.Solid.C123_transform",
    "Verif.Solid.C123_inverse",
    "Verif.Solid.C123_patch",
    "Verif.Solid.C123_modes"
   ],
   "note": "the modes are computed by the code but enter no residual: the loop that uses them is commented out"
  },
  {
   "property": "C124",
   "status": "partial",
   "theorems": [
    "Verif.StressRec.C124_strain",
    "Verif.StressRec.C124_weights",
    "Verif.StressRec.C124_state_derivative",
    "Verif.StressRec.C124_sensitivity",
    "Verif.StressRec.C124_average",
    "Verif.StressRec.C124_energy",
    "Verif.StressRec.C124_free_expansion",
    "Verif.StressRec.C124_boundary_velocity",
    "Verif.StressRec.C124_temperature_stress",
    "Verif.StressRec.C124_temperature_strain_fails",
    "Verif.StressRec.C124_energy_fails"
   ],
   "note": "everything holds except: the temperature derivative of the recorded strain is set to zero (C124_temperature_strain_fails), and the work of the recorded values counts bending three times (C124_energy gives the exact value, C124_energy_fails a strict excess)"
  },
  {
   "property": "C125",
   "status": "partial",
   "theorems": [
    "Verif.StressRec.C125_strain",
    "Verif.StressRec.C125_weights_partial",
    "Verif.StressRec.C125_sensitivity",
    "Verif.StressRec.C125_state_derivative",
    "Verif.StressRec.C125_average",
    "Verif.StressRec.C125_weights_fails",
    "Verif.StressRec.C125_twist"
   ],
   "note": "values, derivatives and sensitivities hold; weights add up to four times the length (C125_weights_partial, C125_weights_fails); twist is never recorded (C125_twist)"
  },
  {
   "property": "C126",
   "status": "partial",
   "theorems": [
    "Verif.StressRec.C126_stored",
    "Verif.StressRec.C126_derivative_refused",
    "Verif.StressRec.C126_sensitivity_fails",
    "Verif.StressRec.C126_thermal",
    "Verif.StressRec.C126_thermal_fails"
   ],
   "note": "without thermal load the recorded values are right (C126_stored); the thermal expansion is not subtracted (C126_thermal, C126_thermal_fails); state derivatives raise an error (C126_derivative_refused), parameter sensitivities are silently not computed (C126_sensitivity_fails)"
  },
  {
   "property": "C127",
   "status": "partial",
   "theorems": [
    "Verif.Dkt.C127_interpolation",
    "Verif.Dkt.C127_patch",
    "Verif.Dkt.C127_rigid",
    "Verif.Dkt.C127_scaled",
    "Verif.Dkt.C127_unknowns",
    "Verif.Dkt.C127_clockwise_fails",
    "Verif.Dkt.C127_plane_fails"
   ],
   "note": "holds for counter-clockwise triangles in a plane z = const; a rigid tilt of a clockwise triangle produces bending strain (C127_clockwise_fails), and for elements in a plane y = const the second bending strain is identically zero because the operator works with the reference element instead of the local one (C127_plane_fails)"
  },
  {
   "property": "C128",
   "status": "partial",
   "theorems": [
    "Verif.LevelSetElem.C128_propagation",
    "Verif.LevelSetElem.C128_conservation",
    "Verif.LevelSetElem.C128_rest",
    "Verif.LevelSetElem.C128_shift",
    "Verif.LevelSetElem.C128_dissipation",
    "Verif.LevelSetElem.C128_tau_defined",
    "Verif.LevelSetElem.C128_upwind_bounded",
    "Verif.LevelSetElem.C128_reinitialization",
    "Verif.LevelSetElem.C128_sign",
    "Verif.LevelSetElem.C128_distance_partial",
    "Verif.LevelSetElem.C128_distance_fails",
    "Verif.LevelSetElem.C128_flat_fails",
    "Verif.LevelSetElem.C128_jacobian_partial",
    "Verif.LevelSetElem.C128_velocity",
    "Verif.LevelSetElem.C128_jacobian_fails"
   ],
   "note": "weak form, conservation, dissipation, shift, rest, upwind parameter and velocity residual hold; a signed distance function is stationary only up to artificial diffusion (C128_distance_partial, C128_distance_fails); the tangent is exact for the Galerkin part and in total, not for the stabilization (C128_jacobian_partial, C128_jacobian_fails); zero gradient at a point gives NaN (C128_flat_fails)"
  },
  {
   "property": "C129",
   "status": "partial",
   "theorems": [
    "Verif.LevelSetElem.C129_volume",
    "Verif.LevelSetElem.C129_fraction",
    "Verif.LevelSetElem.C129_fraction_sensitivity",
    "Verif.LevelSetElem.C129_perimeter_sensitivity",
    "Verif.LevelSetElem.C129_perimeter",
    "Verif.LevelSetElem.C129_fraction_limit",
    "Verif.LevelSetElem.C129_perimeter_total",
    "Verif.LevelSetElem.C129_totals",
    "Verif.LevelSetElem.C129_perimeter_elem_fails",
    "Verif.LevelSetElem.C129_perimeter_scale_fails",
    "Verif.LevelSetElem.C129_volume_sensitivity",
    "Verif.LevelSetElem.C129_volume_sensitivity_two"
   ],
   "note": "volume, fraction, perimeter and their sensitivities hold, the volume sensitivity for linear level sets on triangles; the perimeter sensitivity of single elements does not add up to the total (C129_perimeter_elem_fails), and the perimeter depends on the scale of the level set (C129_perimeter_scale_fails)"
  },
  {
   "property": "C130",
   "status": "proved",
   "theorems": [
    "Verif.LevelSetElem.C130_velocity",
    "Verif.LevelSetElem.C130_normal",
    "Verif.LevelSetElem.C130_normal_derivative"
   ],
   "note": "for points with nonzero gradient; the search for the nearest interface point is not modelled"
  },
  {
   "property": "C131",
   "status": "partial",
   "theorems": [
    "Verif.LevelSetElem.C131_value",
    "Verif.LevelSetElem.C131_derivative",
    "Verif.LevelSetElem.C131_remote",
    "Verif.LevelSetElem.C131_intersected_fails"
   ],
   "note": "holds for the Heaviside based density; the density based on cut elements never stores a value (C131_intersected_fails); elements of other processes have no value (C131_remote)"
  },
  {
   "property": "C132",
   "status": "partial",
   "theorems": [
    "Verif.Compliance.C132_value",
    "Verif.Compliance.C132_fresh",
    "Verif.Compliance.C132_equilibrium",
    "Verif.Compliance.C132_point_load_fails",
    "Verif.Compliance.C132_derivative_partial",
    "Verif.Compliance.C132_derivative_fails",
    "Verif.Compliance.C132_sensitivity_general",
    "Verif.Compliance.C132_sensitivity_partial",
    "Verif.Compliance.C132_sensitivity_fails",
    "Verif.Compliance.C132_self_adjoint",
    "Verif.Compliance.C132_partial_sensitivity",
    "Verif.Compliance.C132_value_lost_fails",
    "Verif.Compliance.C132_topology"
   ],
   "note": "value, equilibrium, self-adjoint identity, partial and topology sensitivity hold; derivative vector and sensitivity are exact for loads that do not depend on the displacement (C132_derivative_partial, C132_sensitivity_partial; otherwise C132_derivative_fails, C132_sensitivity_fails); point loads are not counted (C132_point_load_fails); a sensitivity analysis resets the value (C132_value_lost_fails)"
  },
  {
   "property": "C133",
   "status": "partial",
   "theorems": [
    "Verif.Buckling.C133_matrices",
    "Verif.Buckling.C133_critical",
    "Verif.Buckling.C133_exact",
    "Verif.Buckling.C133_second_element_fails",
    "Verif.Buckling.C133_release_fails",
    "Verif.Buckling.C133_sensitivity_fails"
   ],
   "note": "matrices and critical load estimate hold (C133_matrices, C133_critical, C133_exact); the element operations are not cleared between elements, so debug builds abort at the second element (C133_second_element_fails) and release builds leak and leave the load parameter changed (C133_release_fails); the sensitivity of the second matrix is always zero (C133_sensitivity_fails)"
  },
  {
   "property": "C134",
   "status": "partial",
   "theorems": [
    "Verif.ReducedOrder.C134_general",
    "Verif.ReducedOrder.C134_reduced",
    "Verif.ReducedOrder.C134_sensitivity",
    "Verif.ReducedOrder.C134_sensitivity_unloaded",
    "Verif.ReducedOrder.C134_symmetry",
    "Verif.ReducedOrder.C134_support_motion_fails",
    "Verif.ReducedOrder.C134_prestress_fails",
    "Verif.ReducedOrder.C134_history_fails",
    "Verif.ReducedOrder.C134_other",
    "Verif.ReducedOrder.C134_aero"
   ],
   "note": "holds for basis vectors that vanish at supports (C134_reduced, C134_sensitivity, C134_symmetry, C134_aero); otherwise supports add a mesh dependent term (C134_general, C134_support_motion_fails); prestress is left out of the stiffness (C134_prestress_fails)"
  },
  {
   "property": "C135",
   "status": "partial",
   "theorems": [
    "Verif.NearNull.C135_space",
    "Verif.NearNull.C135_rigid",
    "Verif.NearNull.C135_translation",
    "Verif.NearNull.C135_rotation",
    "Verif.NearNull.C135_linear_strain_fails",
    "Verif.NearNull.C135_independent",
    "Verif.NearNull.C135_refused"
   ],
   "note": "all modes are exact rigid motions and independent; the rotations are finite, so they are null vectors of a linear stiffness only up to th^2 (C135_rotation, C135_linear_strain_fails)"
  },
  {
   "property": "C136",
   "status": "partial",
   "theorems": [
    "Verif.StressAsm.C136_maxima",
    "Verif.StressAsm.C136_cut_maxima",
    "Verif.StressAsm.C136_update",
    "Verif.StressAsm.C136_sensitivity_partial",
    "Verif.StressAsm.C136_sensitivity_fails"
   ],
   "note": "extremes and storage hold; sensitivity data are right only for elements with exactly one point (C136_sensitivity_partial), otherwise the values themselves are stored as sensitivities (C136_sensitivity_fails)"
  },
  {
   "property": "C137",
   "status": "partial",
   "theorems": [
    "Verif.StressAsm.C137_fresh",
    "Verif.StressAsm.C137_no_clear_fails",
    "Verif.StressAsm.C137_plot_fails"
   ],
   "note": "holds after clear (C137_fresh); a second evaluation without clear reports zero in release and aborts in debug builds (C137_no_clear_fails); a plot update replaces the data by those of the last element (C137_plot_fails)"
  },
  {
   "property": "C138",
   "status": "partial",
   "theorems": [
    "Verif.CutAsm.C138_residual",
    "Verif.CutAsm.C138_jacobian",
    "Verif.CutAsm.C138_tangent",
    "Verif.CutAsm.C138_void_partial",
    "Verif.CutAsm.C138_void_fails",
    "Verif.CutAsm.C138_sensitivity_partial",
    "Verif.CutAsm.C138_material",
    "Verif.CutAsm.C138_stale_fails",
    "Verif.CutAsm.C138_topology",
    "Verif.CutAsm.C138_sensitivity_fails"
   ],
   "note": "residual, Jacobian, tangent and topology terms hold; an element touching the interface from the void side leaves a zero row (C138_void_fails); the sensitivity is right without condensed elements (C138_sensitivity_partial), not with them (C138_sensitivity_fails)"
  },
  {
   "property": "C139",
   "status": "partial",
   "theorems": [
    "Verif.CutAsm.C139_value",
    "Verif.CutAsm.C139_gradient_partial",
    "Verif.CutAsm.C139_direct_partial",
    "Verif.CutAsm.C139_direct_fails",
    "Verif.CutAsm.C139_low_fails"
   ],
   "note": "value holds; gradient holds unless void sub-elements of condensed elements are included (C139_low_fails); direct sensitivity only without condensed elements (C139_direct_fails)"
  },
  {
   "property": "C140",
   "status": "partial",
   "theorems": [
    "Verif.CutAsm.C140_matrices",
    "Verif.CutAsm.C140_sensitivity",
    "Verif.CutAsm.C140_history_fails",
    "Verif.CutAsm.C140_eigenvalue_fails",
    "Verif.CutAsm.C140_cut_fails"
   ],
   "note": "matrices are those of the whole elements (C140_matrices, C140_cut_fails); the sensitivity of the first matrix is right, the second is added to the matrix itself, so every eigenvalue sensitivity is off by minus the eigenvalue (C140_eigenvalue_fails, C140_history_fails)"
  },
  {
   "property": "C141",
   "status": "proved",
   "theorems": [
    "Verif.Fluid.C141_conservation",
    "Verif.Fluid.C141_storage",
    "Verif.Fluid.C141_velocity_jacobian"
   ],
   "note": "conservation, storage and velocity Jacobian; the state derivative of the transient stabilisation term is not part of the Jacobian"
  },
  {
   "property": "C142",
   "status": "partial",
   "theorems": [
    "Verif.Fluid.C142_jacobian_partial",
    "Verif.Fluid.C142_uniform",
    "Verif.Fluid.C142_supersonic",
    "Verif.Fluid.C142_supersonic_fails",
    "Verif.Fluid.C142_viscous_partial",
    "Verif.Fluid.C142_diffusivity",
    "Verif.Fluid.C142_viscous_uniform",
    "Verif.Fluid.C142_viscous_fails"
   ],
   "note": "exact up to the derivatives of tau, of the shock capturing coefficient and, in viscous flow, of the diffusivity matrices, which the code freezes (C142_jacobian_partial, C142_viscous_partial: the omitted terms are written out); exact at uniform flow, inviscid (C142_uniform) and viscous (C142_viscous_uniform); false in general: C142_supersonic_fails (Barth's tau), C142_viscous_fails (diffusivity)"
  },
  {
   "property": "C143",
   "status": "partial",
   "theorems": [
    "Verif.Fluid.C143_consistent",
    "Verif.Fluid.C143_outflow",
    "Verif.Fluid.C143_inflow",
    "Verif.Fluid.C143_flux_jacobian",
    "Verif.Fluid.C143_jacobian_partial",
    "Verif.Fluid.C143_inflow_fails"
   ],
   "note": "fluxes hold; the Jacobian is exact at the free stream and at supersonic outflow (C143_jacobian_partial), wrong at an inflow away from the free stream (C143_inflow_fails)"
  },
  {
   "property": "C144",
   "status": "proved",
   "theorems": [
    "Verif.Fluid.C144_free_stream"
   ],
   "note": "one element with all its sides on the far field; Gauss's theorem for the quadrature rules is a hypothesis"
  },
  {
   "property": "C145",
   "status": "partial",
   "theorems": [
    "Verif.Fluid.C145_slip_flux",
    "Verif.Fluid.C145_slip_jacobian",
    "Verif.Fluid.C145_impermeable",
    "Verif.Fluid.C145_moving",
    "Verif.Fluid.C145_symmetry",
    "Verif.Fluid.C145_linearized",
    "Verif.Fluid.C145_noslip",
    "Verif.Fluid.C145_noslip_jacobian_partial",
    "Verif.Fluid.C145_noslip_jacobian_fails"
   ],
   "note": "slip, symmetry and linearized walls hold; no slip Jacobian exact only for disturbances vanishing on the wall (C145_noslip_jacobian_fails)"
  },
  {
   "property": "C146",
   "status": "partial",
   "theorems": [
    "Verif.Fluid.C146_force",
    "Verif.Fluid.C146_reaction",
    "Verif.Fluid.C146_derivative_partial",
    "Verif.Fluid.C146_sensitivity",
    "Verif.Fluid.C146_output_partial",
    "Verif.Fluid.C146_output_fails"
   ],
   "note": "force, reaction, inviscid derivative and sensitivity hold; viscous derivative only for disturbances vanishing on the surface; the output counts the first side twice when an element has two (C146_output_fails)"
  },
  {
   "property": "C147",
   "status": "partial",
   "theorems": [
    "Verif.Fluid.C147_density_partial",
    "Verif.Fluid.C147_one_dimension_fails",
    "Verif.Fluid.C147_three_dimensions_fails",
    "Verif.Fluid.C147_mach_fails"
   ],
   "note": "right for the density in two dimensions; writes out of bounds in one, misplaces the energy in three, ignores the parameter (C147_*_fails)"
  },
  {
   "property": "C148",
   "status": "partial",
   "theorems": [
    "Verif.Fluid.C148_harmonic",
    "Verif.Fluid.C148_sides",
    "Verif.Fluid.C148_sensitivity_partial",
    "Verif.Fluid.C148_reference_fails"
   ],
   "note": "residual proved for interior, symmetry and far field; sensitivity right when the factor b/V does not depend on the parameter, wrong for the reference velocity (C148_reference_fails)"
  },
  {
   "property": "C149",
   "status": "partial",
   "theorems": [
    "Verif.Fluid.C149_flux_partial",
    "Verif.Fluid.C149_residual_partial",
    "Verif.Fluid.C149_complex_displacement_fails",
    "Verif.Fluid.C149_jacobian_partial",
    "Verif.Fluid.C149_jacobian_fails",
    "Verif.Fluid.C149_sensitivity_partial",
    "Verif.Fluid.C149_sensitivity_fails"
   ],
   "note": "right when the normal component of the displacement is real and the steady rotation sees no complex velocity; complex displacements are conjugated (C149_complex_displacement_fails), Jacobian exact without steady rotation (C149_jacobian_fails otherwise), sensitivity drops a rotation given without displacement (C149_sensitivity_fails)"
  },
  {
   "property": "C150",
   "status": "proved",
   "theorems": [
    "Verif.Fluid.C150_perturbation",
    "Verif.Fluid.C150_frequency",
    "Verif.Fluid.C150_difference"
   ],
   "note": "values at a point; the interpolation by libMesh's MeshFunction is outside the model"
  },
  {
   "property": "C151",
   "status": "proved",
   "theorems": [
    "Verif.Fluid.C151_sensitivity",
    "Verif.Fluid.C151_value",
    "Verif.Fluid.C151_zero_load_fails"
   ],
   "note": "C151_zero_load_fails shows the norm has no derivative at a zero load, where the code divides by zero"
  },
  {
   "property": "C152",
   "status": "partial",
   "theorems": [
    "Verif.PistonElem.C152_work",
    "Verif.PistonElem.C152_velocity_jacobian",
    "Verif.PistonElem.C152_jacobian_partial",
    "Verif.PistonElem.C152_jacobian_fails",
    "Verif.PistonElem.C152_flat_fails",
    "Verif.PistonElem.C152_damping",
    "Verif.PistonElem.C152_sensitivity",
    "Verif.PistonElem.C152_jacobian_sensitivity"
   ],
   "note": "work, velocity Jacobian, sensitivities, damping proved; the displacement Jacobian drops the slope across local x (C152_jacobian_fails) and plates parallel to the xy plane read an empty matrix (C152_flat_fails)"
  },
  {
   "property": "C153",
   "status": "partial",
   "theorems": [
    "Verif.PistonElem.C153_work",
    "Verif.PistonElem.C153_jacobians",
    "Verif.PistonElem.C153_sensitivity",
    "Verif.PistonElem.C153_direction_partial",
    "Verif.PistonElem.C153_direction_fails"
   ],
   "note": "work of the pressure for motion in local y, Jacobians and sensitivity proved; the stream direction is ignored (C153_direction_fails)"
  },
  {
   "property": "C154",
   "status": "partial",
   "theorems": [
    "Verif.ElemOps.C154_steady",
    "Verif.ElemOps.C154_transient",
    "Verif.ElemOps.C154_static",
    "Verif.ElemOps.C154_modes",
    "Verif.ElemOps.C154_split_fails",
    "Verif.ElemOps.C154_first_order_fails",
    "Verif.ElemOps.C154_prestress_fails",
    "Verif.ElemOps.C154_sensitivity",
    "Verif.ElemOps.C154_modal_sensitivity_partial",
    "Verif.ElemOps.C154_modal_sensitivity_fails",
    "Verif.ElemOps.C154_heat_steady"
   ],
   "note": "C154_steady, _transient, _static, _modes, _heat_steady, _modal_sensitivity_partial hold; code violations: C154_split_fails, C154_first_order_fails, C154_prestress_fails, C154_modal_sensitivity_fails"
  },
  {
   "property": "C155",
   "status": "partial",
   "theorems": [
    "Verif.ElemOps.C155_boundary_partial",
    "Verif.ElemOps.C155_corner_fails"
   ],
   "note": "holds with at most one moving side (C155_boundary_partial); with several only the last counts (C155_corner_fails)"
  },
  {
   "property": "C156",
   "status": "proved",
   "theorems": [
    "Verif.ElemOps.C156_compare",
    "Verif.ElemOps.C156_matrix",
    "Verif.ElemOps.C156_check"
   ],
   "note": "comparison, matrix and full check"
  },
  {
   "property": "C157",
   "status": "partial",
   "theorems": [
    "Verif.VoidSol.C157_old_solution",
    "Verif.VoidSol.C157_newton_partial",
    "Verif.VoidSol.C157_linear",
    "Verif.VoidSol.C157_line_search_fails"
   ],
   "note": "holds for full Newton steps (C157_newton_partial, C157_linear); a damped line search step breaks it (C157_line_search_fails)"
  },
  {
   "property": "C158",
   "status": "proved",
   "theorems": [
    "Verif.MeshCoupling.C158_boundary_masters",
    "Verif.MeshCoupling.C158_subdomain_masters",
    "Verif.MeshCoupling.C158_boundary",
    "Verif.MeshCoupling.C158_subdomain",
    "Verif.MeshCoupling.C158_self_fails",
    "Verif.MeshCoupling.C158_repeat_fails"
   ],
   "note": "full characterisation of both searches; C158_self_fails and C158_repeat_fails record limits outside the statement (a node on both boundaries is its own master; two calls sharing a slave couple it twice)"
  },
  {
   "property": "C159",
   "status": "partial",
   "theorems": [
    "Verif.MeshCoupling.C159_rows",
    "Verif.MeshCoupling.C159_translation_partial",
    "Verif.MeshCoupling.C159_no_master_fails",
    "Verif.MeshCoupling.C159_last_wins_fails"
   ],
   "note": "rows and refusal proved in full (C159_rows); translation holds for slaves with a master (C159_translation_partial); a slave for which no master is found is clamped to zero (C159_no_master_fails); C159_last_wins_fails"
  },
  {
   "property": "C160",
   "status": "partial",
   "theorems": [
    "Verif.NormalRot.C160_surface_partial",
    "Verif.NormalRot.C160_orthogonal",
    "Verif.NormalRot.C160_perturbation",
    "Verif.NormalRot.C160_complex",
    "Verif.NormalRot.C160_rigid_fails",
    "Verif.NormalRot.C160_field"
   ],
   "note": "exact for displacement fields on surfaces and beams (C160_surface_partial), orthogonality, perturbation and complex amplitude in full; for displacement fields of solids a rigid rotation is counted twice (C160_rigid_fails)"
  },
  {
   "property": "C161",
   "status": "partial",
   "theorems": [
    "Verif.Prestress.C161_plate_value",
    "Verif.Prestress.C161_beam_value",
    "Verif.Prestress.C161_derivative_partial",
    "Verif.Prestress.C161_plate_moment_fails",
    "Verif.Prestress.C161_plate_orientation_fails",
    "Verif.Prestress.C161_beam_force_fails",
    "Verif.Prestress.C161_cards_fail"
   ],
   "note": "values in full; derivatives for a fixed orientation, except the plate moment (C161_derivative_partial); C161_plate_moment_fails, C161_plate_orientation_fails, C161_beam_force_fails, C161_cards_fail record code defects"
  },
  {
   "property": "C162",
   "status": "partial",
   "theorems": [
    "Verif.Prestress.C162_solid_card_partial",
    "Verif.Prestress.C162_thermal_sensitivity_fails"
   ],
   "note": "values and derivatives of the material matrices (C162_solid_card_partial); the derivative of the thermal stress matrix is an error (C162_thermal_sensitivity_fails)"
  },
  {
   "property": "C163",
   "status": "partial",
   "theorems": [
    "Verif.Shell.C163_derivative",
    "Verif.Shell.C163_jac_dot_partial",
    "Verif.Shell.C163_jac_dot_fails"
   ],
   "note": "C163_derivative gives the exact derivative as the matrix of the code plus the omitted in-plane part; exact for linear strain and for transverse entries without in-plane gradients (C163_jac_dot_partial); C163_jac_dot_fails records the code defect"
  },
  {
   "property": "C164",
   "status": "partial",
   "theorems": [
    "Verif.Shell.C164_normal_linear",
    "Verif.Shell.C164_moving_side",
    "Verif.Shell.C164_frame_partial",
    "Verif.Shell.C164_frame_fails",
    "Verif.Shell.C164_jacobian_partial"
   ],
   "note": "rate of the moving side (C164_moving_side) and linearity in full; Jacobian up to the terms C116 lacks; the velocity is not rotated into the element frame: C164_frame_partial, C164_frame_fails"
  },
  {
   "property": "C165",
   "status": "partial",
   "theorems": [
    "Verif.CSolve.C165_evaluation",
    "Verif.CSolve.C165_field_split",
    "Verif.CSolve.C165_result_fails",
    "Verif.CSolve.C165_residual_norm"
   ],
   "note": "system and norm in full (C165_field_split, C165_residual_norm); the code discards the solution: C165_result_fails"
  },
  {
   "property": "C166",
   "status": "proved",
   "theorems": [
    "Verif.CSolve.C166_solution",
    "Verif.CSolve.C166_sensitivity",
    "Verif.CSolve.C166_clear"
   ],
   "note": "exact arithmetic; the Krylov solver is a parameter assumed to solve the system; no constrained degrees of freedom (see C38 for those)"
  },
  {
   "property": "C167",
   "status": "partial",
   "theorems": [
    "Verif.TrAsm.C167_residual",
    "Verif.TrAsm.C167_jacobian",
    "Verif.TrAsm.C167_highest",
    "Verif.TrAsm.C167_product",
    "Verif.TrAsm.C167_product_constrained_fails",
    "Verif.TrAsm.C167_reinitialization"
   ],
   "note": "residual, Jacobian, product and reinitialization hold in full for vectors that vanish at constrained degrees of freedom; for others the product and the matrix differ: C167_product_constrained_fails"
  },
  {
   "property": "C168",
   "status": "partial",
   "theorems": [
    "Verif.TrAsm.C168_first_order",
    "Verif.TrAsm.C168_second_order_fails"
   ],
   "note": "holds for first order systems (C168_first_order); second order solvers stop in debug builds and lose the history in release builds: C168_second_order_fails"
  },
  {
   "property": "C169",
   "status": "proved",
   "theorems": [
    "Verif.ShiftTrac.C169_normal",
    "Verif.ShiftTrac.C169_gradient",
    "Verif.ShiftTrac.C169_force",
    "Verif.ShiftTrac.C169_equilibrium",
    "Verif.ShiftTrac.C169_exact"
   ],
   "note": "linear strain for the meaning of the force; either strain for the coincident side (in-plane traction: the out-of-plane component is dropped by the code)"
  },
  {
   "property": "C170",
   "status": "partial",
   "theorems": [
    "Verif.ShiftTrac.C170_jacobian",
    "Verif.ShiftTrac.C170_nonlinear_fails",
    "Verif.ShiftTrac.C170_sensitivity_partial",
    "Verif.ShiftTrac.C170_uniform",
    "Verif.ShiftTrac.C170_moving_point_fails",
    "Verif.ShiftTrac.C170_sensitivity_jacobian_fails"
   ],
   "note": "Jacobian proved for linear strain, fails for nonlinear strain (C170_nonlinear_fails); sensitivity exact for uniform traction and straight interface, lacks the variation of traction and normal along the motion of the interface point (C170_moving_point_fails); no Jacobian sensitivity (C170_sensitivity_jacobian_fails)"
  },
  {
   "property": "C171",
   "status": "partial",
   "theorems": [
    "Verif.UGScan.C171_crossovers",
    "Verif.UGScan.C171_found",
    "Verif.UGScan.C171_encloses",
    "Verif.UGScan.C171_critical_partial",
    "Verif.UGScan.C171_critical_fails",
    "Verif.UGScan.C171_unstable_throughout_fails",
    "Verif.UGScan.C171_large_damping_fails",
    "Verif.UGScan.C171_single_fails"
   ],
   "note": "exact set of crossovers, enclosure and convergence proved; smallest velocity proved for velocity curves not increasing with the reduced frequency and modes stable at its highest value; findings: the root returned need not have the smallest velocity (C171_critical_fails), a mode unstable throughout is not reported, damping of 3/4 or more hides a crossing, one solution dereferences the end iterator"
  },
  {
   "property": "C172",
   "status": "partial",
   "theorems": [
    "Verif.EigScale.C172_unit_right",
    "Verif.EigScale.C172_still_eigenvectors",
    "Verif.EigScale.C172_modulus_partial",
    "Verif.EigScale.C172_identity_partial",
    "Verif.EigScale.C172_identity_fails"
   ],
   "note": "unit length, eigenvector property, biorthogonality and modulus one proved; violated: the factor on the left vectors is not conjugated, so the product is the squared phase of the original one, not one (C172_identity_fails)"
  },
  {
   "property": "C173",
   "status": "partial",
   "theorems": [
    "Verif.FluidOps.C173_residual",
    "Verif.FluidOps.C173_order",
    "Verif.FluidOps.C173_jacobian_partial",
    "Verif.FluidOps.C173_product_partial",
    "Verif.FluidOps.C173_noslip_product_fails",
    "Verif.FluidOps.C173_density_partial",
    "Verif.FluidOps.C173_gas_fails",
    "Verif.FluidOps.C173_line_fails"
   ],
   "note": "residual and Jacobian of all conditions, order, exact side Jacobian and product without no slip walls, density sensitivity in the plane proved; violated: no linearised product with a no slip wall (C173_noslip_product_fails), zero sensitivity to gas parameters (C173_gas_fails), undefined behaviour on a line (C173_line_fails)"
  },
  {
   "property": "C174",
   "status": "partial",
   "theorems": [
    "Verif.Fluid.C174_nonneg",
    "Verif.Fluid.C174_value",
    "Verif.Fluid.C174_solution",
    "Verif.Fluid.C174_uniform",
    "Verif.Fluid.C174_dissipative",
    "Verif.Fluid.C174_conservative",
    "Verif.Fluid.C174_tangent",
    "Verif.Fluid.C174_pressure_gradient",
    "Verif.Fluid.C174_scaling_fails"
   ],
   "note": "sign, value, zero on solutions and uniform flow, dissipation, conservation, exact Jacobian at uniform flow, pressure gradient proved; violated: with the pressure switch the scaling enters twice (C174_scaling_fails)"
  },
  {
   "property": "C175",
   "status": "partial",
   "theorems": [
    "Verif.Nastran.C175_import",
    "Verif.Nastran.C175_subdomains_partial",
    "Verif.Nastran.C175_pid_fails",
    "Verif.Nastran.C175_rejected",
    "Verif.Nastran.C175_reread_fails",
    "Verif.Nastran.C175_stale_fails",
    "Verif.Nastran.C175_model_fails",
    "Verif.Nastran.C175_table_fails",
    "Verif.Nastran.C175_bushing_partial",
    "Verif.Nastran.C175_bushing_fails"
   ],
   "note": "nodes, elements, connectivity, constraints and rejection proved, subdomains up to 16 bit property ids; violated: property ids collide (C175_pid_fails), a second read keeps stale maps (C175_reread_fails, C175_stale_fails), the overload for a model omits constraints (C175_model_fails), printed table (C175_table_fails), bushing axes with a zero component (C175_bushing_fails)"
  },
  {
   "property": "C176",
   "status": "partial",
   "theorems": [
    "Verif.SubCell.C176_affine",
    "Verif.SubCell.C176_weights_tri",
    "Verif.SubCell.C176_weights_quad",
    "Verif.SubCell.C176_total",
    "Verif.SubCell.C176_consistent",
    "Verif.SubCell.C176_whole",
    "Verif.SubCell.C176_linear_field",
    "Verif.SubCell.C176_side",
    "Verif.SubCell.C176_outward",
    "Verif.SubCell.C176_closed",
    "Verif.SubCell.C176_flat_side",
    "Verif.SubCell.C176_side_points",
    "Verif.SubCell.C176_bilinear_fails",
    "Verif.SubCell.C176_rule_fails",
    "Verif.SubCell.C176_side_qpoints_fails"
   ],
   "note": "weights, totals, linear fields, sides and the uncut limit proved for all elements; points proved for parallelograms and for sides on the boundary; violated: points and weights do not belong together on other quadrilaterals (C176_bilinear_fails), get_qrule dereferences a null pointer after a sub-cell initialization (C176_rule_fails), get_qpoints of sides changes its meaning with the cut (C176_side_qpoints_fails)"
  },
  {
   "property": "C177",
   "status": "partial",
   "theorems": [
    "Verif.CoupledSolve.C177_residual",
    "Verif.CoupledSolve.C177_jacobian",
    "Verif.CoupledSolve.C177_converged",
    "Verif.CoupledSolve.C177_input_fails",
    "Verif.CoupledSolve.C177_vector_fails",
    "Verif.CoupledSolve.C177_product",
    "Verif.CoupledSolve.C177_constrained_row_fails",
    "Verif.CoupledSolve.C177_places",
    "Verif.CoupledSolve.C177_transfer",
    "Verif.CoupledSolve.C177_identity",
    "Verif.CoupledSolve.C177_current_fails"
   ],
   "note": "residual, Jacobian, products on admissible directions, numbering and transfer proved; violated: the vectors given to the callbacks are changed (C177_input_fails, C177_vector_fails), rows of constrained degrees of freedom of later disciplines vanish (C177_constrained_row_fails), current_local_solution is not updated (C177_current_fails)"
  },
  {
   "property": "C178",
   "status": "partial",
   "theorems": [
    "Verif.Transient.C178_time",
    "Verif.Transient.C178_analysis_unaffected",
    "Verif.Transient.C178_same_driver",
    "Verif.Transient.C178_double_time_fails",
    "Verif.Transient.C178_analysis_restarts",
    "Verif.Transient.C178_second_run_fails",
    "Verif.Transient.C178_formulas",
    "Verif.Transient.C178_histories",
    "Verif.Transient.C178_first_order_runs",
    "Verif.Transient.C178_initial_iff",
    "Verif.Transient.C178_initial_partial",
    "Verif.Transient.C178_initial_state_fails"
   ],
   "note": "proved for all step sequences of the Newmark solvers and for whole runs of the first order solver; violated: default arguments advance the clock twice (C178_double_time_fails), dependence of the initial state on the parameter is lost in the initial derivative (C178_initial_state_fails, exact condition C178_initial_iff), a second run aborts in debug builds (C178_second_run_fails)"
  },
  {
   "property": "C179",
   "status": "partial",
   "theorems": [
    "Verif.ThermAdj.C179_residual_partial",
    "Verif.ThermAdj.C179_exact",
    "Verif.ThermAdj.C179_total_partial",
    "Verif.ThermAdj.C179_unmonitored_fails",
    "Verif.ThermAdj.C179_cold_fails",
    "Verif.ThermAdj.C179_not_implemented_fails",
    "Verif.ThermAdj.C179_extra_order_fails",
    "Verif.ThermAdj.C179_mixed_points_fails"
   ],
   "note": "exact identity C179_exact for all meshes of heated surface elements; gradient is right if every heated element is evaluated (C179_total_partial); violated: heated elements outside the monitored set are lost (C179_unmonitored_fails), evaluated elements without thermal load read foreign data (C179_cold_fails), line and solid elements stop (C179_not_implemented_fails), elements with extra quadrature order mix two rules (C179_extra_order_fails, C179_mixed_points_fails)"
  },
  {
   "property": "C180",
   "status": "partial",
   "theorems": [
    "Verif.DirBc.C180_rows",
    "Verif.DirBc.C180_registered",
    "Verif.DirBc.C180_static",
    "Verif.DirBc.C180_clear_partial",
    "Verif.DirBc.C180_query_fails",
    "Verif.DirBc.C180_consistent_partial",
    "Verif.DirBc.C180_subdomain_fails",
    "Verif.DirBc.C180_key_fails",
    "Verif.DirBc.C180_sizes",
    "Verif.DirBc.C180_init"
   ],
   "note": "values and clearing proved for all histories without queries; violated: a query adds all conditions again so clearing does not free the unknowns (C180_query_fails), subdomain constraints act in the eigenproblem only (C180_subdomain_fails), registration under another boundary id goes unnoticed (C180_key_fails); C180_consistent_partial gives the condition under which static and eigenproblem agree"
  },
  {
   "property": "C181",
   "status": "partial",
   "theorems": [
    "Verif.Asm.C181_free",
    "Verif.Asm.C181_constrained_partial",
    "Verif.Asm.C181_constrained_fails",
    "Verif.Asm.C181_structural_partial",
    "Verif.Asm.C181_structural_loads_fails"
   ],
   "note": "exact between unconstrained unknowns (C181_free); violated: diagonal entries of constrained unknowns are the number of incident elements instead of zero (C181_constrained_fails), structural elements leave out the change of the tangent of loads (C181_structural_loads_fails)"
  },
  {
   "property": "C182",
   "status": "partial",
   "theorems": [
    "Verif.FeData.C182_local",
    "Verif.FeData.C182_points",
    "Verif.FeData.C182_gradient",
    "Verif.FeData.C182_area",
    "Verif.FeData.C182_line",
    "Verif.FeData.C182_side",
    "Verif.FeData.C182_outward",
    "Verif.FeData.C182_warped_fails"
   ],
   "note": "proved for planar elements (C182_local, C182_points, C182_gradient, C182_area, C182_line, C182_side, C182_outward); violated by quadrilaterals with a node out of plane: the in-plane derivatives of a linear field are wrong (C182_warped_fails)"
  },
  {
   "property": "C183",
   "status": "partial",
   "theorems": [
    "Verif.SecDep.C183_query",
    "Verif.SecDep.C183_plate_unaffected",
    "Verif.SecDep.C183_beam_unaffected",
    "Verif.SecDep.C183_plate_partial",
    "Verif.SecDep.C183_beam",
    "Verif.SecDep.C183_shear_fails",
    "Verif.SecDep.C183_copied_fails"
   ],
   "note": "proved for isotropic shells without transverse shear and beams without it, and with transverse shear for parameters the elastic constants do not depend on (C183_plate_partial, C183_beam, C183_query, C183_*_unaffected); violated for the elastic constants with transverse shear (C183_shear_fails) and for copies of functions, which lose their dependencies (C183_copied_fails)"
  },
  {
   "property": "C184",
   "status": "partial",
   "theorems": [
    "Verif.HeatCard.C184_tangent",
    "Verif.HeatCard.C184_sensitivity_partial",
    "Verif.HeatCard.C184_rate",
    "Verif.HeatCard.C184_bar",
    "Verif.HeatCard.C184_plate",
    "Verif.HeatCard.C184_solid",
    "Verif.HeatCard.C184_storage",
    "Verif.HeatCard.C184_dissipation",
    "Verif.HeatCard.C184_radiation_fails"
   ],
   "note": "proved for every parameter except the three constants of a radiation load (C184_tangent, C184_sensitivity_partial, C184_rate, C184_bar, C184_plate, C184_solid, C184_storage, C184_dissipation); the sensitivity for those constants is reported as zero (C184_radiation_fails)"
  },
  {
   "property": "C185",
   "status": "partial",
   "theorems": [
    "Verif.Steady.C185_along",
    "Verif.Steady.C185_solution",
    "Verif.Steady.C185_output",
    "Verif.Steady.C185_heat_partial",
    "Verif.Steady.C185_radiation_fails"
   ],
   "note": "proved for every element consistent along the solution (C185_along), for consistent elements (C185_solution, C185_output) and for heat conduction from the property cards for every parameter except the constants of a radiation load (C185_heat_partial); for the temperature of the surroundings of a radiating bar the returned sensitivity is zero although the temperatures follow it (C185_radiation_fails)"
  },
  {
   "property": "C186",
   "status": "partial",
   "theorems": [
    "Verif.Steady.C186_beam",
    "Verif.Steady.C186_shell_partial",
    "Verif.Steady.C186_shell_rate",
    "Verif.Steady.C186_drilling_fails",
    "Verif.Steady.C186_structure_partial"
   ],
   "note": "beams with bending: proved for every motion (C186_beam); shells: exact up to 1e-8 times the drilling part of the motion (C186_shell_partial), which is a defect of the Jacobian (C186_drilling_fails); structures of both: C186_structure_partial, excluding drilling motions, von Karman shells with in-plane gradients (C116) and the shear modulus of shells with transverse shear (C183_shear_fails)"
  },
  {
   "property": "C187",
   "status": "partial",
   "theorems": [
    "Verif.Modal.C187_modal",
    "Verif.Modal.C187_beam",
    "Verif.Modal.C187_shell_partial",
    "Verif.Modal.C187_structure_partial",
    "Verif.Modal.C187_offset_fails"
   ],
   "note": "C187_modal: any elements with right sensitivities and symmetric matrices; C187_beam: beams with bending have them for every card and parameter; shells have them without offset (C187_shell_partial); structures of both: C187_structure_partial. With an offset the reported sensitivity is wrong: C187_offset_fails. No base solution; trusses (whose regularised stiffness has no sensitivity) are not covered."
  },
  {
   "property": "C188",
   "status": "partial",
   "theorems": [
    "Verif.Steady.C188_refused",
    "Verif.Steady.C188_loaded",
    "Verif.Steady.C188_pressure",
    "Verif.Steady.C188_side_pressure",
    "Verif.Steady.C188_traction",
    "Verif.Steady.C188_thermal_shell_partial",
    "Verif.Steady.C188_thermal_beam_partial",
    "Verif.Steady.C188_scaling_fails",
    "Verif.Steady.C188_beam_scaling_fails",
    "Verif.Steady.C188_beam",
    "Verif.Steady.C188_shell_partial",
    "Verif.Steady.C188_structure_partial"
   ],
   "note": "C188_loaded: loads are added to any consistent element; pressure, side pressure and traction in full; temperature without Jacobian scaling (C188_thermal_*_partial); structure: C188_structure_partial, with the exclusions of C186. A thermal load with thermal_jacobian_scaling other than one makes the sensitivity wrong: C188_scaling_fails, C188_beam_scaling_fails. Piston theory and shifted traction loads are not instantiated here."
  },
  {
   "property": "C189",
   "status": "partial",
   "theorems": [
    "Verif.Modal.C189_beam_partial",
    "Verif.Modal.C189_shell_partial",
    "Verif.Modal.C189_loaded_partial",
    "Verif.Modal.C189_workflow_partial",
    "Verif.Modal.C189_membrane_fails",
    "Verif.Modal.C189_offset_fails"
   ],
   "note": "Beams with equal offsets in both planes or linear strain (C189_beam_partial), shells with linear strain (C189_shell_partial), structures (C189_loaded_partial) and the workflow static solve - sensitivity_solve - modal sensitivity (C189_workflow_partial). False for shells with nonlinear strain (C189_membrane_fails) and beams with different offsets (C189_offset_fails). No loads on elements in the modal analysis, no trusses."
  },
  {
   "property": "C190",
   "status": "partial",
   "theorems": [
    "Verif.Modal.C190_element",
    "Verif.Modal.C190_thermal_beam_partial",
    "Verif.Modal.C190_thermal_shell_partial",
    "Verif.Modal.C190_dead",
    "Verif.Modal.C190_member",
    "Verif.Modal.C190_structure_partial",
    "Verif.Modal.C190_workflow_partial",
    "Verif.Modal.C190_scaling_fails"
   ],
   "note": "Elements with loads (C190_element, C190_member), the thermal stiffness and its sensitivity (C190_thermal_beam_partial, C190_thermal_shell_partial), structures (C190_structure_partial) and the workflow with the steady analysis (C190_workflow_partial). False with thermal_jacobian_scaling other than 1 (C190_scaling_fails) and in the cases of C187 and C189. Piston theory loads only through the hypothesis that their Jacobian follows."
  },
  {
   "property": "C191",
   "status": "partial",
   "theorems": [
    "Verif.Nearest.C191_nearest_partial",
    "Verif.Nearest.C191_sound_partial",
    "Verif.Nearest.C191_uncut_fails",
    "Verif.Nearest.C191_closest_fails",
    "Verif.Nearest.C191_time_fails",
    "Verif.Nearest.C191_rate_partial",
    "Verif.Nearest.C191_rate_fails"
   ],
   "note": "Nearest of the points where the level set of time 0 meets the boundary of the element (C191_nearest_partial), always on the level set or the origin (C191_sound_partial), right rate along the gradient (C191_rate_partial). False for the nearest point of the interface itself (C191_closest_fails), for times other than 0 (C191_time_fails), for a neighbour that is not cut (C191_uncut_fails) and for the rate (C191_rate_fails). QUAD4 neighbours."
  },
  {
   "property": "C192",
   "status": "partial",
   "theorems": [
    "Verif.Steady.C192_dead_stiffness",
    "Verif.Steady.C192_value",
    "Verif.Steady.C192_sens_value",
    "Verif.Steady.C192_rate",
    "Verif.Steady.C192_follower_fails",
    "Verif.Steady.C192_dead_loads",
    "Verif.Steady.C192_direct_partial",
    "Verif.Steady.C192_adjoint_partial",
    "Verif.Steady.C192_override_fails"
   ],
   "note": "Value (C192_value), direct (C192_direct_partial) and adjoint (C192_adjoint_partial) sensitivity for loads that do not depend on the displacement (C192_dead_loads); C192_rate gives the exact gap otherwise. False for loads that follow the displacement, e.g. temperature with nonlinear strain (C192_follower_fails), and with override_flag for elements said not to depend on the parameter (C192_override_fails). Exclusions of C188; topology parameters not modelled."
  },
  {
   "property": "C193",
   "status": "partial",
   "theorems": [
    "Verif.Steady.C193_shell_data",
    "Verif.Steady.C193_beam_data",
    "Verif.Steady.C193_shell_point",
    "Verif.Steady.C193_beam_point",
    "Verif.Steady.C193_rate",
    "Verif.Steady.C193_direct_partial",
    "Verif.Steady.C193_override_fails"
   ],
   "note": "Direct sensitivity for KS, ramp and p-norm (C193_direct_partial), from the rate of the stored stresses (C193_shell_point, C193_beam_point, C193_rate). False with override_flag for elements said not to depend on the parameter (C193_override_fails); no von Mises stress passing zero, for the p-norm no stress at the exponent cap; exclusions of C188. Stress through shells with curved mid-surface and topology parameters not modelled."
  },
  {
   "property": "C194",
   "status": "partial",
   "theorems": [
    "Verif.Steady.C194_ks_parts",
    "Verif.Steady.C194_ramp_parts",
    "Verif.Steady.C194_pnorm_parts",
    "Verif.Steady.C194_adjoint_partial",
    "Verif.Steady.C194_stale_fails"
   ],
   "note": "Adjoint sensitivity for KS, ramp and p-norm (C194_adjoint_partial), from the splitting of the direct sensitivity into dq/dX times the displacement rate and the explicit part (C194_ks_parts, C194_ramp_parts, C194_pnorm_parts). False when the output object was used for a direct sensitivity before: zero_for_sensitivity does nothing and stored sensitivities of skipped elements are counted as explicit part (C194_stale_fails). Exclusions of C193."
  },
  {
   "property": "C195",
   "status": "partial",
   "theorems": [
    "Verif.Steady.C195_solid_rate",
    "Verif.Steady.C195_solid_partial",
    "Verif.Steady.C195_rotation_fails",
    "Verif.Steady.C195_heated_fails",
    "Verif.Steady.C195_pressure",
    "Verif.Steady.C195_structure_partial"
   ],
   "note": "sensitivity_solve is the derivative when rotations at nodes of solids do not change (C195_structure_partial, from C195_solid_rate, C195_solid_partial, C195_pressure). False where they change, e.g. at nodes shared with shells: the Jacobian carries 1e-20 times its largest diagonal entry there and the residual does not (C195_rotation_fails); for a heated solid every sensitivity ends the program (C195_heated_fails). Isotropic material."
  },
  {
   "property": "C196",
   "status": "partial",
   "theorems": [
    "Verif.StoredSol.C196_paths",
    "Verif.StoredSol.C196_paths_fails",
    "Verif.StoredSol.C196_steps",
    "Verif.StoredSol.C196_steps_fails",
    "Verif.StoredSol.C196_stored",
    "Verif.StoredSol.C196_names",
    "Verif.StoredSol.C196_same",
    "Verif.StoredSol.C196_history",
    "Verif.StoredSol.C196_missing",
    "Verif.StoredSol.C196_schedule_partial",
    "Verif.StoredSol.C196_progress",
    "Verif.StoredSol.C196_crash_fails",
    "Verif.StoredSol.C196_schedule_fails"
   ],
   "note": "Round trip in any run and partition after any later writes under other names (C196_stored, C196_names, C196_same), all steps of an analysis (C196_history), error for what was not written (C196_missing), own files for own names (C196_paths, C196_steps), no deadlock (C196_progress), and the file is complete in every order of the processes when there is one process or version and header fit into the buffer (C196_schedule_partial). False: a header longer than the buffer, since every process opens and so empties the file (C196_schedule_fails); a crash after the file was opened loses the earlier vector (C196_crash_fails); names with slashes and roots ending in digits can share files (C196_paths_fails, C196_steps_fails). Format of libMesh::Xdr and reading of values as libMesh documents them."
  },
  {
   "property": "C197",
   "status": "partial",
   "theorems": [
    "Verif.TrHeat.C197_step",
    "Verif.TrHeat.C197_runs",
    "Verif.TrHeat.C197_heat_partial",
    "Verif.TrHeat.C197_heat_runs_partial",
    "Verif.TrHeat.C197_lumped_fails"
   ],
   "note": "One step (C197_step) and runs of any length (C197_runs) for every first order system whose elements are consistent; heat conduction elements are consistent (C197_heat_partial), hence C197_heat_runs_partial. False for a lumped heat capacity that depends on the temperature: the solver computes 8/5 where the derivative is 1 (C197_lumped_fails); radiation constants are ignored (C184_radiation_fails). The driver as shipped cannot reach this assembly (C78_transient_sensitivity_unreachable_fails); the theorems are about the assembly and the solver, with the linear solves taken as solved."
  },
  {
   "property": "C198",
   "status": "partial",
   "theorems": [
    "Verif.CoupledSolve.C198_report",
    "Verif.CoupledSolve.C198_silent_partial",
    "Verif.CoupledSolve.C198_diagonal_fails",
    "Verif.CoupledSolve.C198_nonlinear_fails",
    "Verif.CoupledSolve.C198_hanging_fails"
   ],
   "note": "C198_report: with constraints that prescribe values the solution is put back and exactly the entries in which product and change of the residual differ are printed, one group per pair and degree of freedom. C198_silent_partial: for coupling affine in the other disciplines nothing is printed iff all products are exact. Violated: an exact product of a nonlinear coupling is always printed, since the change over a finite step is compared with `!=` (C198_nonlinear_fails); the diagonal blocks are not checked (C198_diagonal_fails); with hanging degrees of freedom the solution is not put back (C198_hanging_fails)."
  },
  {
   "property": "C199",
   "status": "partial",
   "theorems": [
    "Verif.FreqOps.C199_amplitude_partial",
    "Verif.FreqOps.C199_unknown",
    "Verif.FreqOps.C199_order",
    "Verif.FreqOps.C199_jacobian_partial",
    "Verif.FreqOps.C199_one_step_partial",
    "Verif.FreqOps.C199_sensitivity_partial",
    "Verif.FreqOps.C199_total_partial",
    "Verif.FreqOps.C199_noslip_fails",
    "Verif.FreqOps.C199_total_fails"
   ],
   "note": "C199_amplitude_partial: at every time the rotated real part of the complex residual is the factor b/V times the linearized product of the time domain element (C173) for the motion, its time derivative and the motion of the walls, under the conjugation hypotheses of C149. C199_jacobian_partial, C199_one_step_partial: without steady rotation of the normals of slip walls the Jacobian is exact for complex increments and one Newton step solves. C199_sensitivity_partial: the vector the assembly adds is the derivative at a fixed amplitude; C199_total_partial: with the derivative of the amplitude, without slip walls. C199_order, C199_unknown. Violated: with the derivative of the amplitude, slip walls leave it out (C199_total_fails); no slip walls, accepted by the unsteady element, end in an error (C199_noslip_fails); the conjugations and reference lengths of C148 and C149."
  },
  {
   "property": "C200",
   "status": "partial",
   "theorems": [
    "Verif.FreqFlow.C200_response_partial",
    "Verif.FreqFlow.C200_sensitivity_partial"
   ],
   "note": "C200_response_partial: for the stored amplitude the linearized product of the time domain elements (C173), summed over the mesh, vanishes at every degree of freedom and every time for the harmonic motion and its time derivative, under the conjugation hypotheses of C149 and without steady rotation of the normals of slip walls. C200_sensitivity_partial: with the frequency as parameter and a unique response the stored sensitivity is the derivative of the amplitude and the amplitude is kept. Both are shown not vacuous by a layer of gas in front of a piston, solved exactly. Violated by the elements: complex displacements and steady rotation (C149), no slip walls (C199_noslip_fails). Element matrices are those of degrees of freedom without constraints."
  },
  {
   "property": "C201",
   "status": "partial",
   "theorems": [
    "Verif.SysInit.C201_variables",
    "Verif.SysInit.C201_numbers",
    "Verif.SysInit.C201_flow",
    "Verif.SysInit.C201_again",
    "Verif.SysInit.C201_type",
    "Verif.SysInit.C201_shared",
    "Verif.SysInit.C201_two",
    "Verif.SysInit.C201_constant_partial",
    "Verif.SysInit.C201_field_partial",
    "Verif.SysInit.C201_size",
    "Verif.SysInit.C201_initial_fails"
   ],
   "note": "C201_variables, C201_numbers, C201_flow (numbers agree with the element vectors of C200), C201_again, C201_type, C201_shared and C201_two (no clash between prefixes or disciplines) hold for every system. C201_constant_partial, C201_field_partial: the initial solution for a system with the variables of one discipline; C201_size. Violated: in a system that already has a variable, the initial value goes to that variable and those of the discipline read outside of the vector (C201_initial_fails). libMesh's add_variable and project_solution at nodes are contracts."
  },
  {
   "property": "C202",
   "status": "partial",
   "theorems": [
    "Verif.March.C202_kept",
    "Verif.March.C202_start_partial",
    "Verif.March.C202_stored",
    "Verif.March.C202_flow",
    "Verif.March.C202_alpha_fails"
   ],
   "note": "C202_kept: from a steady state at rest in the stored step every run of steps of every solver keeps it (induction over the steps), time included. C202_stored: a step stores the solution, velocity and acceleration its residual was assembled for. C202_start_partial: the initial highest derivative is zero and the stored step is the steady state, for both Newmark solvers, and for generalized-alpha if the state is already stored as the previous step. C202_flow: solutions of the steady flow equations are kept from the start on. Violated: generalized-alpha mixes the (zero) previous step into the initial state: nonzero acceleration, and the steady state is not a solution of the first step (C202_alpha_fails). Contracts: a nonlinear solver keeps an initial solution with zero residual, a linear solver maps zero to zero."
  }
 ]
}