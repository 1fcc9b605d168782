{
"C01": ["proved", ""],
"C02": ["proved", ""],
"C03": ["proved", ""],
"C04": ["proved", "setShape_wrong_size_ub shows the precondition on set_shape_function is needed."],
"C05": ["proved", ""],
"C06": ["proved", ""],
"C07": ["proved", ""],
"C08": ["proved", ""],
"C09": ["proved", "On a malformed alternation the code reads out of bounds (C09_unpaired_last_is_ub)."],
"C10": ["proved", ""],
"C11": ["proved", "Termination requires an acyclic graph; C11_cycle_diverges shows it is needed."],
"C12": ["proved", ""],
"C13": ["partial", "The code violates the full property: copies lose dependency information and the Parameter copy double-frees; negations proved with witnesses, the part that holds is proved as _partial."],
"C14": ["proved", ""],
"C15": ["proved", ""],
"C16": ["proved", ""],
"C17": ["partial", "Exact on one process with one element type; in parallel the code scans local elements only and does not communicate, so an owner can retain a Dirichlet dof (C17_parallel_fails); C17_parallel_partial gives the partition under the hypothesis that owners see their Dirichlet dofs; variables of different element types are read with the type of variable 0 (C17_mixed_types_fails)."],
"C18": ["proved", "C18_standard_solve_unusable: standard (HEP) problems never get through eigenproblem_solve in debug builds. C18_nonhermitian_fails: a call that asks for the imaginary part, or a problem that is not Hermitian, never delivers a pair (null v_im in the SLEPc wrapper, libmesh_error in the normalisation); the property is about HEP/GHEP."],
"C19": ["partial", "Generalised problems proved for one call; standard problems off by -lambda (C19_standard_off_by_lambda / _fails); a second call after matrix_B was overwritten is wrong (C19_second_parameter_fails, C19_get_eigenpair_after_sensitivity_fails)."],
"C20": ["partial", "Proved when the passed state is the stored solution; adjoint_solve linearises at *solution otherwise (C20_adjoint_point_fails)."],
"C21": ["partial", "Holds for debug builds without exceptions (proved for all call trees); violated in release builds for nested calls and after exceptions (no clean-up): C21_release_nested_fails, C21_exception_sticks_fails."],
"C22": ["proved", "residual/Jacobian assembly = sums over elements, independence of order and distribution, Jacobian-vector product = matrix product"],
"C23": ["partial", "Exact for elements without parent; refined (child) elements are looked up under their parent (C23_refined_element_fails)."],
"C24": ["proved", ""],
"C25": ["partial", "operator() proved for all histories; derivative/perturbation return the value while a quadrature-point solution is set, and no perturbation can ever be stored (…_fails)."],
"C26": ["proved", "rule, uniqueness, increments"],
"C27": ["proved", "vector form, any M sym PSD, K PSD, any number and size of steps; plus scalar form"],
"C28": ["proved", "relations, increments, exact for constant acceleration for any step sequence"],
"C29": ["proved", "energy conserved over any step sequence"],
"C30": ["proved", "all three solvers, general differentiable elements (contract IsElement)"],
"C31": ["proved", "accuracy and stability conditions; characteristic polynomial at infinite frequency is (X+rho)^3"],
"C32": ["partial", "Newmark solvers proved; generalized-alpha refuted (C32_generalized_alpha_fails): perturbed data not weighted; holds only for alpha=0"],
"C33": ["proved", "any stored length, any step count"],
"C34": ["partial", "restoration, halving, bounds, termination, outcome proved; refuted: unconverged iterate is kept and returned at minimum step; default parameters start below min_step"],
"C35": ["partial", "accepted before the last permitted iteration; refuted at the last one (C35_fails)"],
"C36": ["partial", "Schur = bordered proved when dXdp belongs to the same Jacobian (pseudo-arclength); refuted for arclength (stale matrix)"],
"C37": ["proved", "unit tangent direction, orientation, exact linearisation of the constraint, Newton step"],
"C38": ["proved", "Includes a finding: constraining Re, -Im, Im blocks separately makes the block of a constrained dof singular (C38_constrained_dof_block_singular)."],
"C39": ["proved", "Nested operator equals the full coupled Jacobian for any number of disciplines, block Jacobi without the update object, norm of the stacked residual."],
"C40": ["partial", "Averages, index/clock and the accepted step proved for all inputs; norm growth factor bounds every nonzero variable (C40_norm_factor); refuted: rejected step zeroes the current sensitivity, beta<1 right-hand side, reads max_index+1, output sensitivity linearised only at the interval end, variables that were zero are left out of the growth factor (C40_norm_zero_fails)."],
"C41": ["proved", "Character-level round trip for all sizes and iterations; missing iterations always detected; a file begun after earlier evaluations has no header (refuted case, C41_late_file_unreadable_fails). Number formatting abstract (Printer.Good)."],
"C42": ["partial", "Verdict and exactness for quadratics proved; restoration refuted (last evaluation is at a perturbed point)."],
"C43": ["proved", "Counts and maximum for all vectors; values at or below -1e20 reported as -1e20."],
"C44": ["partial", "Window, early stop and iteration bounds proved; refuted: premature stop against zero buffer, window of one, default limit 0 never stops."],
"C45": ["partial", "Gradient layout proved; refuted: constraint values never written, history row zero, tolerance array too short."],
"C46": ["partial", "DOT hand-over and records, NPSOL bounds without equality constraints proved; NPSOL exit family and equality constraints refuted"],
"C47": ["proved", "Polynomial identity for every T and symmetric tensor, composition, inverse, trace, derivative."],
"C48": ["proved", ""],
"C49": ["proved", "Weights, translation and monotonicity; on nodes with 3 dofs the rows are undefined behaviour (C49_translation_only_nodes_fails)."],
"C50": ["partial", "Rotation dofs and second translation row proved; first and third translation rows have the wrong sign: refuted for both sign conventions."],
"C51": ["proved", "tensor/deviator form, invariance under every orthonormal frame change, seminorm, zero iff hydrostatic"],
"C52": ["proved", "dp and dX along arbitrary differentiable histories; zero cases"],
"C53": ["partial", "bounds, uniform exactness, partition independence, and all three derivatives proved away from the cap of the weight; C53_zero_stress_fails: NaN sensitivity for an unstressed structure although the derivative is 0"],
"C54": ["proved", "bounds, Jensen, uniform, parameter/boundary/state derivatives"],
"C55": ["proved", "bounds, zero, monotone, parameter/boundary/state derivatives"],
"C56": ["proved", "isotropic 1D/2D/3D matrices"],
"C57": ["partial", "transverse shear derivative proved wrong (C57_transverse_shear_fails): only the zero matrix is returned"],
"C58": ["partial", "holds while one plane-stress flag is used throughout; C58_flag_ignored_fails shows the cached 2D matrix ignores later flags"],
"C59": ["proved", "all nine orthotropic constants"],
"C60": ["partial", "3D, 1D, shear proved; 2D derivative reads nu31 into nu12 (C60_plane_stress_fails) and uninitialised locals in plane strain (C60_plane_strain_ub); depends_on misses E33 (C60_depends_on_fails)"],
"C61": ["proved", "A, B, D, transverse shear, thermal, conductance, capacitance of the plate section"],
"C62": ["partial", "integral, symmetry, positivity proved; derivative proved wrong for offset plates (C62_derivative_fails), exact characterisation in C62_derivative_iff_partial"],
"C63": ["partial", "plate stacks: tiling, equivalent plate, integrals and derivatives proved for any number of layers; destruction deletes the layer thickness functions repeatedly (C63_destroy_fails); beam stacks store the offset under a name init does not read (C63_beam_stack_fails)"],
"C64": ["partial", "section properties, stiffness, inertia, thermal proved; transverse shear derivative writes to an unsized matrix (C64_deriv_shear_fails)"],
"C65": ["proved", "hy != hz; C65_square_kink shows the exclusion is necessary"],
"C66": ["partial", "Stiffness, expansion, energy and all derivatives proved; conductance is rotated with the inverse frame (refuted)."],
"C67": ["proved", "partition of unity, max principle, constants and linearity for the distributed-vector overload"],
"C68": ["partial", "The sparse overload is proved equal to the dense one; the std::vector overload agrees on design variables but multiplies the value of every other dof by the number of its filter neighbours (C68_vector_fails)."],
"C69": ["partial", "Node query proved sound; the element query tests only the nodes of the element (C69_coarse_elem_fails)."],
"C70": ["partial", "Areas/volumes always add up (C70_area, C70_volume, C70_fraction). Signs proved for level sets affine along edges (or between their end values there, searches converged) when no corner value equals the tolerance; refuted when two opposite corners are zero and the others have the same sign, and for the hanging node of the adjacent-edge mode."],
"C71": ["partial", "Total and correctly classified except: colinear edge with the other corners on opposite sides, value equal to the tolerance (abort), QUAD9 with positive corners and a negative inner node (abort), touching diagonal (see C70)."],
"C72": ["proved", ""],
"C73": ["partial", "Element ids proved collision free; ids of new nodes repeat from one cut element to the next (C73_node_ids_fails)."],
"C74": ["partial", "even count on every ring proved; factored iff >1 pocket proved for structured patches in any element order; irregular nodes (>4 elements) overrun a 4-slot vector and rotated local numbering misses a pocket (_fails theorems)"],
"C75": ["proved", "void rows/material rows/Newton equivalence for every element system with a regular void block; Eigen's solver is external and assumed to solve regular systems"],
"C76": ["proved", "local partition sorted, disjoint, complete; global ids complete and disjoint but not sorted, outputs not cleared by the partition itself (_fails theorems document both)"],
"C77": ["partial", "exact characterisation proved for the elements of one processor (incl. indicator variant and QUAD4 meshes through the cut-cell model); findings: elements touching the interface from the void side count as material; on several processors the sets are rank-local (_fails theorems)"],
"C78": ["partial", "total-derivative identity proved for constant mass matrix; the driver cannot reach the assembly (C78_transient_sensitivity_unreachable_fails); second-order contribution: see C168_second_order_fails"],
"C79": ["partial", "proved for Newmark; refuted for generalized-alpha (C79_generalized_alpha_fails)"],
"C80": ["partial", "Holds when the previous iterate is inside the bounds; fails in the first outer iteration (zero vector); backtracking may not terminate."],
"C81": ["partial", "spacing proved; the objective and constraint values recorded are never evaluated (C81_values_fails)"],
"C82": ["proved", "searches converged, no corner value equal to the tolerance"],
"C83": ["proved", ""],
"C84": ["partial", "One node per edge and side, shared by all elements, at its point when the points are a function of the edge. Finding: hanging nodes on a common edge from two neighbours at different places are identified (C84_hanging_position_fails)."],
"C85": ["partial", "Children, boundary sides, parents proved; new nodes are separated. Findings: corners on the interface are shared by both sides (C85_interface_corner_fails); an element touching the interface is replaced without the mesh reported as changed (C85_changed_flag_fails)."],
"C86": ["proved", "Up to the renumbering libMesh's prepare_for_use may do (not modelled)."],
"C87": ["partial", "Rows of the constraints proved. Findings: the owner test is vacuous (first <= d || d < last), hanging nodes are not constrained with weak discontinuity, the subdomain of elements wholly on the negative side is not constrained unless a cut made a QUAD4 child in it."],
"C88": ["proved", "Real M, C, K over ℂ; matrix assembly from the reduced quantities is modelled."],
"C89": ["partial", "Derivatives proved for any differentiable eigenpair family; finding: with a null dXdV but a given dXdp the function dereferences/uses an unset vector (see _fails), so it is defined only for the cases of C89_defined_partial."],
"C90": ["partial", "Bracket, success test and convergence proved. Findings: callers ignore the success flag, so an unconverged root is reported as found; with zero iterations a null pointer is handed out; a mode unstable at the first point makes a zero-width bracket (NaN)."],
"C91": ["proved", "C91_critical_identified links the crossovers to the scanned table for modes stable at the first velocity; C91_critical is for any sorted map."],
"C92": ["partial", "Grid, rescan and the exact set of crossovers proved for tables with at least two solutions. Findings: one solution at rest dereferences the end iterator; sign changes between two points both with |V| <= 1e-5 are ignored."],
"C93": ["partial", "Permutation and tracking proved for nonempty solutions; finding: with no roots the unsigned loop bound wraps around."],
"C94": ["partial", "Proved under the hypothesis that no velocity tried has growth exactly zero. Findings: neutrally stable systems divide by zero in the second iteration; tolerances <= 1e-4 never converge even for affine growth; the unstable root returned is the last, not the fastest growing."],
"C95": ["partial", "Findings: a zero beta (infinite eigenvalue) is used without test; the parameter sensitivity ignores the dependence of the aerodynamic matrix on the parameter."],
"C96": ["proved", "Hypothesis of C96_participation: some mode has a nonzero contribution; C96_time_domain discharges it for eigenvectors."],
"C97": ["partial", "Equation proved for matrices of the right size; findings: _analyze passes empty matrices (undefined for every nonempty basis), all reduced frequencies but the highest are ignored, undamped modes are reported as flutter at V = 0."],
"C98": ["partial", "at rest the Mach perturbation divides by k=0 (C98_at_rest_fails); proved everywhere else"],
"C99": ["proved", "full statement"],
"C100": ["proved", "full statement"],
"C101": ["proved", "full statement"],
"C102": ["proved", "full statement"],
"C103": ["proved", "full statement"],
"C104": ["partial", "Flux and K_ij identities proved for all states; the stress sensitivity is the derivative of the stress given the primitive gradient sensitivity (partial), but the code computes that gradient sensitivity with the transformation frozen (C104_tensor_sensitivity_fails)"],
"C105": ["partial", "semidefinite for all states, inviscid and viscous (the viscous form adds exactly the dissipation of a wave); viscous: nonsingular at every state with positive density and temperature (C105_viscous_regular); inviscid: nonsingular where some nodal direction is neither stagnant nor sonic (C105_matrix_regular), and the code's matrix IS singular for gas at rest (C105_rest_fails), so the claim is false there"],
"C106": ["partial", "conduction, all loads and rate Jacobian in the rates proved for all elements; the temperature Jacobian of the capacitance is proved for unlumped capacitance (C106_velocity_partial) and is not the derivative with row-sum lumping (C106_lumped_fails)"],
"C107": ["partial", "everything proved for all elements except that the lumped capacitance need not be positive semidefinite (C107_lumped_psd_fails)"],
"C108": ["partial", "proved for every load whose constants other than flux/film/emissivity/ambient fields are parameter independent; the code asks for no derivative of the Stefan-Boltzmann constant and absolute zero parameters (C108_radiation_fails)"],
"C109": ["proved", "full statement; Leibniz rule proved for a one dimensional element"],
"C110": ["partial", "frame, inverse, node, beam, shell and existence statements proved for all elements; the default orientation vector fails for elements parallel to (1,-5/8,11/40) (C110_default_fails), and beams along x discard a given y vector (C110_axis_fails)"],
"C111": ["partial", "all transformations proved; linearised residual is right only when the frame is the identity (C111_linearized_partial), otherwise it multiplies the global matrix with the local perturbation (C111_linearized_fails)"],
"C112": ["partial", "pressure and first derivatives proved; sensitivities of the derivatives need a parameter independent motion (C112_second_partial, C112_second_fails); other orders silently become first order (C112_order_fails)"],
"C113": ["partial", "residual and sensitivity loops proved for every multimap; linearised, frequency domain and boundary velocity loops refuse loads the residual accepts (C113_linearized_fails)"],
"C114": ["proved", "full statement for the pressure and traction routines of line, surface and solid elements (six variables per node)"],
"C115": ["partial", "everything proved for consistent line and surface elements and, except the total mass, for lumped ones; lumped elements and solids use the density of the first quadrature point (C115_varying_fails), the lumped solid overwrites f, the sensitivity of solids reads outside a 3x3 matrix (C115_solid_sensitivity_fails)"],
"C116": ["partial", "energy, symmetry, rigid motions, objectivity, positivity and sensitivity hold in full; the Jacobian is the derivative for linear strain, without bending, or without in-plane gradients, up to the 1e-8 drilling entries; with nonlinear strain and bending it omits the in-plane/out-of-plane products (C116_jacobian_fails, exact defect in C116_derivative); drilling entries are not in the residual (C116_drilling_fails)"],
"C117": ["partial", "thermal load in full (Jacobian for scaling 1, C117_scaling otherwise); prestress Jacobian and sensitivity in full; prestress residual omits the in-plane nonlinear strain (C117_prestress_energy_partial, C117_prestress_energy_fails)"],
"C118": ["partial", "Jacobian (with bending), symmetry, positivity, rigid motions, cubic exactness and sensitivity hold in full; energy needs equal transverse shear stiffness in the two planes (C118_energy_fails); a truss's Jacobian is regularised on zero diagonals (C118_truss_partial)"],
"C119": ["partial", "holds when the extension-bending stiffnesses of the two planes agree; otherwise one term takes the wrong entry (C119_jac_dot_fails)"],
"C120": ["partial", "Jacobians and sensitivities in full; the work identity needs equal moment entries for the two planes (C120_thermal_energy_fails, C120_prestress_energy_fails)"],
"C121": ["partial", "everything holds for the translational unknowns; the matrix handed back has an artificial diagonal on the rotations that the residual does not have (C121_rotations_fails, C121_returned_partial)"],
"C122": ["proved", "the solid element has no thermal sensitivity and ignores prestress: those routines raise an error or add nothing and are modelled as such"],
"C123": ["proved", "the modes are computed by the code but enter no residual: the loop that uses them is commented out"],
"C124": ["partial", "everything holds except: the temperature derivative of the recorded strain is set to zero (C124_temperature_strain_fails), and the work of the recorded values counts bending three times (C124_energy gives the exact value, C124_energy_fails a strict excess)"],
"C125": ["partial", "values, derivatives and sensitivities hold; weights add up to four times the length (C125_weights_partial, C125_weights_fails); twist is never recorded (C125_twist)"],
"C126": ["partial", "without thermal load the recorded values are right (C126_stored); the thermal expansion is not subtracted (C126_thermal, C126_thermal_fails); state derivatives raise an error (C126_derivative_refused), parameter sensitivities are silently not computed (C126_sensitivity_fails)"],
"C127": ["partial", "holds for counter-clockwise triangles in a plane z = const; a rigid tilt of a clockwise triangle produces bending strain (C127_clockwise_fails), and for elements in a plane y = const the second bending strain is identically zero because the operator works with the reference element instead of the local one (C127_plane_fails)"],
"C128": ["partial", "weak form, conservation, dissipation, shift, rest, upwind parameter and velocity residual hold; a signed distance function is stationary only up to artificial diffusion (C128_distance_partial, C128_distance_fails); the tangent is exact for the Galerkin part and in total, not for the stabilization (C128_jacobian_partial, C128_jacobian_fails); zero gradient at a point gives NaN (C128_flat_fails)"],
"C129": ["partial", "volume, fraction, perimeter and their sensitivities hold, the volume sensitivity for linear level sets on triangles; the perimeter sensitivity of single elements does not add up to the total (C129_perimeter_elem_fails), and the perimeter depends on the scale of the level set (C129_perimeter_scale_fails)"],
"C130": ["proved", "for points with nonzero gradient; the search for the nearest interface point is not modelled"],
"C131": ["partial", "holds for the Heaviside based density; the density based on cut elements never stores a value (C131_intersected_fails); elements of other processes have no value (C131_remote)"],
"C132": ["partial", "value, equilibrium, self-adjoint identity, partial and topology sensitivity hold; derivative vector and sensitivity are exact for loads that do not depend on the displacement (C132_derivative_partial, C132_sensitivity_partial; otherwise C132_derivative_fails, C132_sensitivity_fails); point loads are not counted (C132_point_load_fails); a sensitivity analysis resets the value (C132_value_lost_fails)"],
"C133": ["partial", "matrices and critical load estimate hold (C133_matrices, C133_critical, C133_exact); the element operations are not cleared between elements, so debug builds abort at the second element (C133_second_element_fails) and release builds leak and leave the load parameter changed (C133_release_fails); the sensitivity of the second matrix is always zero (C133_sensitivity_fails)"],
"C134": ["partial", "holds for basis vectors that vanish at supports (C134_reduced, C134_sensitivity, C134_symmetry, C134_aero); otherwise supports add a mesh dependent term (C134_general, C134_support_motion_fails); prestress is left out of the stiffness (C134_prestress_fails)"],
"C135": ["partial", "all modes are exact rigid motions and independent; the rotations are finite, so they are null vectors of a linear stiffness only up to th^2 (C135_rotation, C135_linear_strain_fails)"],
"C136": ["partial", "extremes and storage hold; sensitivity data are right only for elements with exactly one point (C136_sensitivity_partial), otherwise the values themselves are stored as sensitivities (C136_sensitivity_fails)"],
"C137": ["partial", "holds after clear (C137_fresh); a second evaluation without clear reports zero in release and aborts in debug builds (C137_no_clear_fails); a plot update replaces the data by those of the last element (C137_plot_fails)"],
"C138": ["partial", "residual, Jacobian, tangent and topology terms hold; an element touching the interface from the void side leaves a zero row (C138_void_fails); the sensitivity is right without condensed elements (C138_sensitivity_partial), not with them (C138_sensitivity_fails)"],
"C139": ["partial", "value holds; gradient holds unless void sub-elements of condensed elements are included (C139_low_fails); direct sensitivity only without condensed elements (C139_direct_fails)"],
"C140": ["partial", "matrices are those of the whole elements (C140_matrices, C140_cut_fails); the sensitivity of the first matrix is right, the second is added to the matrix itself, so every eigenvalue sensitivity is off by minus the eigenvalue (C140_eigenvalue_fails, C140_history_fails)"],
"C141": ["proved", "conservation, storage and velocity Jacobian; the state derivative of the transient stabilisation term is not part of the Jacobian"],
"C142": ["partial", "exact up to the derivatives of tau, of the shock capturing coefficient and, in viscous flow, of the diffusivity matrices, which the code freezes (C142_jacobian_partial, C142_viscous_partial: the omitted terms are written out); exact at uniform flow, inviscid (C142_uniform) and viscous (C142_viscous_uniform); false in general: C142_supersonic_fails (Barth's tau), C142_viscous_fails (diffusivity)"],
"C143": ["partial", "fluxes hold; the Jacobian is exact at the free stream and at supersonic outflow (C143_jacobian_partial), wrong at an inflow away from the free stream (C143_inflow_fails)"],
"C144": ["proved", "one element with all its sides on the far field; Gauss's theorem for the quadrature rules is a hypothesis"],
"C145": ["partial", "slip, symmetry and linearized walls hold; no slip Jacobian exact only for disturbances vanishing on the wall (C145_noslip_jacobian_fails)"],
"C146": ["partial", "force, reaction, inviscid derivative and sensitivity hold; viscous derivative only for disturbances vanishing on the surface; the output counts the first side twice when an element has two (C146_output_fails)"],
"C147": ["partial", "right for the density in two dimensions; writes out of bounds in one, misplaces the energy in three, ignores the parameter (C147_*_fails)"],
"C148": ["partial", "residual proved for interior, symmetry and far field; sensitivity right when the factor b/V does not depend on the parameter, wrong for the reference velocity (C148_reference_fails)"],
"C149": ["partial", "right when the normal component of the displacement is real and the steady rotation sees no complex velocity; complex displacements are conjugated (C149_complex_displacement_fails), Jacobian exact without steady rotation (C149_jacobian_fails otherwise), sensitivity drops a rotation given without displacement (C149_sensitivity_fails)"],
"C150": ["proved", "values at a point; the interpolation by libMesh's MeshFunction is outside the model"],
"C151": ["proved", "C151_zero_load_fails shows the norm has no derivative at a zero load, where the code divides by zero"],
"C152": ["partial", "work, velocity Jacobian, sensitivities, damping proved; the displacement Jacobian drops the slope across local x (C152_jacobian_fails) and plates parallel to the xy plane read an empty matrix (C152_flat_fails)"],
"C153": ["partial", "work of the pressure for motion in local y, Jacobians and sensitivity proved; the stream direction is ignored (C153_direction_fails)"],
"C154": ["partial", "C154_steady, _transient, _static, _modes, _heat_steady, _modal_sensitivity_partial hold; code violations: C154_split_fails, C154_first_order_fails, C154_prestress_fails, C154_modal_sensitivity_fails"],
"C155": ["partial", "holds with at most one moving side (C155_boundary_partial); with several only the last counts (C155_corner_fails)"],
"C156": ["proved", "comparison, matrix and full check"],
"C157": ["partial", "holds for full Newton steps (C157_newton_partial, C157_linear); a damped line search step breaks it (C157_line_search_fails)"],
"C158": ["proved", "full characterisation of both searches; C158_self_fails and C158_repeat_fails record limits outside the statement (a node on both boundaries is its own master; two calls sharing a slave couple it twice)"],
"C159": ["partial", "rows and refusal proved in full (C159_rows); translation holds for slaves with a master (C159_translation_partial); a slave for which no master is found is clamped to zero (C159_no_master_fails); C159_last_wins_fails"],
"C160": ["partial", "exact for displacement fields on surfaces and beams (C160_surface_partial), orthogonality, perturbation and complex amplitude in full; for displacement fields of solids a rigid rotation is counted twice (C160_rigid_fails)"],
"C161": ["partial", "values in full; derivatives for a fixed orientation, except the plate moment (C161_derivative_partial); C161_plate_moment_fails, C161_plate_orientation_fails, C161_beam_force_fails, C161_cards_fail record code defects"],
"C162": ["partial", "values and derivatives of the material matrices (C162_solid_card_partial); the derivative of the thermal stress matrix is an error (C162_thermal_sensitivity_fails)"],
"C163": ["partial", "C163_derivative gives the exact derivative as the matrix of the code plus the omitted in-plane part; exact for linear strain and for transverse entries without in-plane gradients (C163_jac_dot_partial); C163_jac_dot_fails records the code defect"],
"C164": ["partial", "rate of the moving side (C164_moving_side) and linearity in full; Jacobian up to the terms C116 lacks; the velocity is not rotated into the element frame: C164_frame_partial, C164_frame_fails"],
"C165": ["partial", "system and norm in full (C165_field_split, C165_residual_norm); the code discards the solution: C165_result_fails"],
"C166": ["proved", "exact arithmetic; the Krylov solver is a parameter assumed to solve the system; no constrained degrees of freedom (see C38 for those)"],
"C167": ["partial", "residual, Jacobian, product and reinitialization hold in full for vectors that vanish at constrained degrees of freedom; for others the product and the matrix differ: C167_product_constrained_fails"],
"C168": ["partial", "holds for first order systems (C168_first_order); second order solvers stop in debug builds and lose the history in release builds: C168_second_order_fails"],
"C169": ["proved", "linear strain for the meaning of the force; either strain for the coincident side (in-plane traction: the out-of-plane component is dropped by the code)"],
"C170": ["partial", "Jacobian proved for linear strain, fails for nonlinear strain (C170_nonlinear_fails); sensitivity exact for uniform traction and straight interface, lacks the variation of traction and normal along the motion of the interface point (C170_moving_point_fails); no Jacobian sensitivity (C170_sensitivity_jacobian_fails)"],
"C171": ["partial", "exact set of crossovers, enclosure and convergence proved; smallest velocity proved for velocity curves not increasing with the reduced frequency and modes stable at its highest value; findings: the root returned need not have the smallest velocity (C171_critical_fails), a mode unstable throughout is not reported, damping of 3/4 or more hides a crossing, one solution dereferences the end iterator"],
"C172": ["partial", "unit length, eigenvector property, biorthogonality and modulus one proved; violated: the factor on the left vectors is not conjugated, so the product is the squared phase of the original one, not one (C172_identity_fails)"],
"C173": ["partial", "residual and Jacobian of all conditions, order, exact side Jacobian and product without no slip walls, density sensitivity in the plane proved; violated: no linearised product with a no slip wall (C173_noslip_product_fails), zero sensitivity to gas parameters (C173_gas_fails), undefined behaviour on a line (C173_line_fails)"],
"C174": ["partial", "sign, value, zero on solutions and uniform flow, dissipation, conservation, exact Jacobian at uniform flow, pressure gradient proved; violated: with the pressure switch the scaling enters twice (C174_scaling_fails)"],
"C175": ["partial", "nodes, elements, connectivity, constraints and rejection proved, subdomains up to 16 bit property ids; violated: property ids collide (C175_pid_fails), a second read keeps stale maps (C175_reread_fails, C175_stale_fails), the overload for a model omits constraints (C175_model_fails), printed table (C175_table_fails), bushing axes with a zero component (C175_bushing_fails)"],
"C176": ["partial", "weights, totals, linear fields, sides and the uncut limit proved for all elements; points proved for parallelograms and for sides on the boundary; violated: points and weights do not belong together on other quadrilaterals (C176_bilinear_fails), get_qrule dereferences a null pointer after a sub-cell initialization (C176_rule_fails), get_qpoints of sides changes its meaning with the cut (C176_side_qpoints_fails)"],
"C177": ["partial", "residual, Jacobian, products on admissible directions, numbering and transfer proved; violated: the vectors given to the callbacks are changed (C177_input_fails, C177_vector_fails), rows of constrained degrees of freedom of later disciplines vanish (C177_constrained_row_fails), current_local_solution is not updated (C177_current_fails)"],
"C178": ["partial", "proved for all step sequences of the Newmark solvers and for whole runs of the first order solver; violated: default arguments advance the clock twice (C178_double_time_fails), dependence of the initial state on the parameter is lost in the initial derivative (C178_initial_state_fails, exact condition C178_initial_iff), a second run aborts in debug builds (C178_second_run_fails)"],
"C179": ["partial", "exact identity C179_exact for all meshes of heated surface elements; gradient is right if every heated element is evaluated (C179_total_partial); violated: heated elements outside the monitored set are lost (C179_unmonitored_fails), evaluated elements without thermal load read foreign data (C179_cold_fails), line and solid elements stop (C179_not_implemented_fails), elements with extra quadrature order mix two rules (C179_extra_order_fails, C179_mixed_points_fails)"],
"C180": ["partial", "values and clearing proved for all histories without queries; violated: a query adds all conditions again so clearing does not free the unknowns (C180_query_fails), subdomain constraints act in the eigenproblem only (C180_subdomain_fails), registration under another boundary id goes unnoticed (C180_key_fails); C180_consistent_partial gives the condition under which static and eigenproblem agree"],
"C181": ["partial", "exact between unconstrained unknowns (C181_free); violated: diagonal entries of constrained unknowns are the number of incident elements instead of zero (C181_constrained_fails), structural elements leave out the change of the tangent of loads (C181_structural_loads_fails)"],
"C182": ["partial", "proved for planar elements (C182_local, C182_points, C182_gradient, C182_area, C182_line, C182_side, C182_outward); violated by quadrilaterals with a node out of plane: the in-plane derivatives of a linear field are wrong (C182_warped_fails)"],
"C183": ["partial", "proved for isotropic shells without transverse shear and beams without it, and with transverse shear for parameters the elastic constants do not depend on (C183_plate_partial, C183_beam, C183_query, C183_*_unaffected); violated for the elastic constants with transverse shear (C183_shear_fails) and for copies of functions, which lose their dependencies (C183_copied_fails)"],
"C184": ["partial", "proved for every parameter except the three constants of a radiation load (C184_tangent, C184_sensitivity_partial, C184_rate, C184_bar, C184_plate, C184_solid, C184_storage, C184_dissipation); the sensitivity for those constants is reported as zero (C184_radiation_fails)"],
"C185": ["partial", "proved for every element consistent along the solution (C185_along), for consistent elements (C185_solution, C185_output) and for heat conduction from the property cards for every parameter except the constants of a radiation load (C185_heat_partial); for the temperature of the surroundings of a radiating bar the returned sensitivity is zero although the temperatures follow it (C185_radiation_fails)"],
"C186": ["partial", "beams with bending: proved for every motion (C186_beam); shells: exact up to 1e-8 times the drilling part of the motion (C186_shell_partial), which is a defect of the Jacobian (C186_drilling_fails); structures of both: C186_structure_partial, excluding drilling motions, von Karman shells with in-plane gradients (C116) and the shear modulus of shells with transverse shear (C183_shear_fails)"],
"C187": ["partial", "C187_modal: any elements with right sensitivities and symmetric matrices; C187_beam: beams with bending have them for every card and parameter; shells have them without offset (C187_shell_partial); structures of both: C187_structure_partial. With an offset the reported sensitivity is wrong: C187_offset_fails. No base solution; trusses (whose regularised stiffness has no sensitivity) are not covered."],
"C188": ["partial", "C188_loaded: loads are added to any consistent element; pressure, side pressure and traction in full; temperature without Jacobian scaling (C188_thermal_*_partial); structure: C188_structure_partial, with the exclusions of C186. A thermal load with thermal_jacobian_scaling other than one makes the sensitivity wrong: C188_scaling_fails, C188_beam_scaling_fails. Piston theory and shifted traction loads are not instantiated here."],
"C189": ["partial", "Beams with equal offsets in both planes or linear strain (C189_beam_partial), shells with linear strain (C189_shell_partial), structures (C189_loaded_partial) and the workflow static solve - sensitivity_solve - modal sensitivity (C189_workflow_partial). False for shells with nonlinear strain (C189_membrane_fails) and beams with different offsets (C189_offset_fails). No loads on elements in the modal analysis, no trusses."],
"C190": ["partial", "Elements with loads (C190_element, C190_member), the thermal stiffness and its sensitivity (C190_thermal_beam_partial, C190_thermal_shell_partial), structures (C190_structure_partial) and the workflow with the steady analysis (C190_workflow_partial). False with thermal_jacobian_scaling other than 1 (C190_scaling_fails) and in the cases of C187 and C189. Piston theory loads only through the hypothesis that their Jacobian follows."],
"C191": ["partial", "Nearest of the points where the level set of time 0 meets the boundary of the element (C191_nearest_partial), always on the level set or the origin (C191_sound_partial), right rate along the gradient (C191_rate_partial). False for the nearest point of the interface itself (C191_closest_fails), for times other than 0 (C191_time_fails), for a neighbour that is not cut (C191_uncut_fails) and for the rate (C191_rate_fails). QUAD4 neighbours."],
"C192": ["partial", "Value (C192_value), direct (C192_direct_partial) and adjoint (C192_adjoint_partial) sensitivity for loads that do not depend on the displacement (C192_dead_loads); C192_rate gives the exact gap otherwise. False for loads that follow the displacement, e.g. temperature with nonlinear strain (C192_follower_fails), and with override_flag for elements said not to depend on the parameter (C192_override_fails). Exclusions of C188; topology parameters not modelled."],
"C193": ["partial", "Direct sensitivity for KS, ramp and p-norm (C193_direct_partial), from the rate of the stored stresses (C193_shell_point, C193_beam_point, C193_rate). False with override_flag for elements said not to depend on the parameter (C193_override_fails); no von Mises stress passing zero, for the p-norm no stress at the exponent cap; exclusions of C188. Stress through shells with curved mid-surface and topology parameters not modelled."],
"C194": ["partial", "Adjoint sensitivity for KS, ramp and p-norm (C194_adjoint_partial), from the splitting of the direct sensitivity into dq/dX times the displacement rate and the explicit part (C194_ks_parts, C194_ramp_parts, C194_pnorm_parts). False when the output object was used for a direct sensitivity before: zero_for_sensitivity does nothing and stored sensitivities of skipped elements are counted as explicit part (C194_stale_fails). Exclusions of C193."],
"C195": ["partial", "sensitivity_solve is the derivative when rotations at nodes of solids do not change (C195_structure_partial, from C195_solid_rate, C195_solid_partial, C195_pressure). False where they change, e.g. at nodes shared with shells: the Jacobian carries 1e-20 times its largest diagonal entry there and the residual does not (C195_rotation_fails); for a heated solid every sensitivity ends the program (C195_heated_fails). Isotropic material."],
"C196": ["partial", "Round trip in any run and partition after any later writes under other names (C196_stored, C196_names, C196_same), all steps of an analysis (C196_history), error for what was not written (C196_missing), own files for own names (C196_paths, C196_steps), no deadlock (C196_progress), and the file is complete in every order of the processes when there is one process or version and header fit into the buffer (C196_schedule_partial). False: a header longer than the buffer, since every process opens and so empties the file (C196_schedule_fails); a crash after the file was opened loses the earlier vector (C196_crash_fails); names with slashes and roots ending in digits can share files (C196_paths_fails, C196_steps_fails). Format of libMesh::Xdr and reading of values as libMesh documents them."],
"C197": ["partial", "One step (C197_step) and runs of any length (C197_runs) for every first order system whose elements are consistent; heat conduction elements are consistent (C197_heat_partial), hence C197_heat_runs_partial. False for a lumped heat capacity that depends on the temperature: the solver computes 8/5 where the derivative is 1 (C197_lumped_fails); radiation constants are ignored (C184_radiation_fails). The driver as shipped cannot reach this assembly (C78_transient_sensitivity_unreachable_fails); the theorems are about the assembly and the solver, with the linear solves taken as solved."],
"C198": ["partial", "C198_report: with constraints that prescribe values the solution is put back and exactly the entries in which product and change of the residual differ are printed, one group per pair and degree of freedom. C198_silent_partial: for coupling affine in the other disciplines nothing is printed iff all products are exact. Violated: an exact product of a nonlinear coupling is always printed, since the change over a finite step is compared with `!=` (C198_nonlinear_fails); the diagonal blocks are not checked (C198_diagonal_fails); with hanging degrees of freedom the solution is not put back (C198_hanging_fails)."],
"C199": ["partial", "C199_amplitude_partial: at every time the rotated real part of the complex residual is the factor b/V times the linearized product of the time domain element (C173) for the motion, its time derivative and the motion of the walls, under the conjugation hypotheses of C149. C199_jacobian_partial, C199_one_step_partial: without steady rotation of the normals of slip walls the Jacobian is exact for complex increments and one Newton step solves. C199_sensitivity_partial: the vector the assembly adds is the derivative at a fixed amplitude; C199_total_partial: with the derivative of the amplitude, without slip walls. C199_order, C199_unknown. Violated: with the derivative of the amplitude, slip walls leave it out (C199_total_fails); no slip walls, accepted by the unsteady element, end in an error (C199_noslip_fails); the conjugations and reference lengths of C148 and C149."],
"C200": ["partial", "C200_response_partial: for the stored amplitude the linearized product of the time domain elements (C173), summed over the mesh, vanishes at every degree of freedom and every time for the harmonic motion and its time derivative, under the conjugation hypotheses of C149 and without steady rotation of the normals of slip walls. C200_sensitivity_partial: with the frequency as parameter and a unique response the stored sensitivity is the derivative of the amplitude and the amplitude is kept. Both are shown not vacuous by a layer of gas in front of a piston, solved exactly. Violated by the elements: complex displacements and steady rotation (C149), no slip walls (C199_noslip_fails). Element matrices are those of degrees of freedom without constraints."],
"C201": ["partial", "C201_variables, C201_numbers, C201_flow (numbers agree with the element vectors of C200), C201_again, C201_type, C201_shared and C201_two (no clash between prefixes or disciplines) hold for every system. C201_constant_partial, C201_field_partial: the initial solution for a system with the variables of one discipline; C201_size. Violated: in a system that already has a variable, the initial value goes to that variable and those of the discipline read outside of the vector (C201_initial_fails). libMesh's add_variable and project_solution at nodes are contracts."],
"C202": ["partial", "C202_kept: from a steady state at rest in the stored step every run of steps of every solver keeps it (induction over the steps), time included. C202_stored: a step stores the solution, velocity and acceleration its residual was assembled for. C202_start_partial: the initial highest derivative is zero and the stored step is the steady state, for both Newmark solvers, and for generalized-alpha if the state is already stored as the previous step. C202_flow: solutions of the steady flow equations are kept from the start on. Violated: generalized-alpha mixes the (zero) previous step into the initial state: nonzero acceleration, and the steady state is not a solution of the first step (C202_alpha_fails). Contracts: a nonlinear solver keeps an initial solution with zero residual, a linear solver maps zero to zero."]
}
