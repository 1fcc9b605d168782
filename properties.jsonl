{"id": "C01", "title": "FEM operator: products with vectors equal the dense matrix product", "statement": "After any sequence of reinit / set_shape_function calls on a FEMOperatorMatrix, vector_mult(res, v) stores in res exactly B*v and vector_mult_transpose(res, w) stores exactly B^T*w, where B is the dense n_interpolated x (n_discrete*n_dofs) matrix whose entry (i, j*n_dofs+k) is the k-th value of the shape function vector last set for (i,j) and 0 for unset blocks; any previous content of res is overwritten.", "quantifier": "all operator sizes, all histories of set_shape_function, all vectors and prior contents of the result", "why_tests_cant": "a unit test fixes one block pattern and one vector; correctness is a statement about every sparsity pattern and every overwrite history", "anchors": ["src/numerics/fem_operator_matrix.h: FEMOperatorMatrix::reinit, set_shape_function, vector_mult, vector_mult_transpose"]}
{"id": "C02", "title": "FEM operator: matrix products equal the dense matrix product", "statement": "right_multiply(R,M) stores B*M, right_multiply_transpose(R,M) stores B^T*M, left_multiply(R,M) stores M*B and left_multiply_transpose(R,M) stores M*B^T, for every conforming dense M and any prior content of R, with B the dense meaning of the operator.", "quantifier": "all sizes, block patterns and dense factors", "why_tests_cant": "infinitely many shapes/patterns; index arithmetic errors show only on some", "anchors": ["src/numerics/fem_operator_matrix.h: right_multiply, right_multiply_transpose, left_multiply, left_multiply_transpose"]}
{"id": "C03", "title": "FEM operator: operator-operator product equals dense product", "statement": "B1.right_multiply_transpose(R, B2) computes the dense product B1^T*B2 for two operators over the same interpolated variables, including when the two operators have different numbers of dofs per variable.", "quantifier": "all pairs of operators of compatible interpolated dimension", "why_tests_cant": "the block loops use sizes of both operators; only a proof covers every pair of block patterns", "anchors": ["src/numerics/fem_operator_matrix.h: right_multiply_transpose(T& r, const FEMOperatorMatrix& m)"]}
{"id": "C04", "title": "FEM operator: reinit discards history, last set wins, n() consistent", "statement": "After reinit the operator denotes the zero matrix regardless of history; after set_shape_function(i,j,N) only block (i,j) changes and equals N; m() is the number of interpolated variables and n() equals n_discrete*n_dofs; reinit(n,N) denotes the block diagonal matrix of N.", "quantifier": "all histories of calls", "why_tests_cant": "history dependent; tests only sample a few call orders", "anchors": ["src/numerics/fem_operator_matrix.h: reinit, set_shape_function, m, n"]}
{"id": "C05", "title": "Complex/real embedding of vectors round-trips", "statement": "A complex vector added to an assembled zero real vector of twice the size (add_to_assembled_vector) and read back with transform_to_elem_vector returns the same complex vector; the addition is additive in both arguments.", "quantifier": "all sizes and all complex vectors", "why_tests_cant": "needs all sizes and values; an index or sign slip affects only off-diagonal/imaginary parts", "anchors": ["src/numerics/utility.h: transform_to_elem_vector, add_to_assembled_vector"]}
{"id": "C06", "title": "Complex/real embedding of matrices round-trips and preserves matrix-vector products", "statement": "A complex n x n matrix embedded with add_to_assembled_matrix into a zero 2n x 2n real matrix is read back unchanged by transform_to_elem_matrix, and the real matrix applied to the embedded vector is the embedding of the complex matrix-vector product (so a Newton solve on the real system is a Newton solve on the complex one); composition of embeddings is the embedding of the product.", "quantifier": "all sizes, matrices and vectors", "why_tests_cant": "algebraic identity over all inputs", "anchors": ["src/numerics/utility.h: transform_to_elem_matrix, add_to_assembled_matrix"]}
{"id": "C07", "title": "Dense matrix parallel sum packs and unpacks column-major without loss", "statement": "parallel_sum of dense matrices of common shape over any number of processes returns in every process the entrywise sum of the matrices.", "quantifier": "all shapes, number of ranks and entries", "why_tests_cant": "packing index vals[m*j+i] must be a bijection for every non-square shape", "anchors": ["src/numerics/utility.h: parallel_sum"]}
{"id": "C08", "title": "Basis matrix products are modal expansion and its adjoint", "statement": "BasisMatrix::vector_mult(dest,arg) gives sum_i arg(i)*mode_i, vector_mult_transpose gives dest(i)=<mode_i,arg>, and the two are adjoint: <B a, x> = <a, B^T x>.", "quantifier": "all numbers of modes, dimensions, vectors", "why_tests_cant": "adjointness is a universally quantified identity", "anchors": ["src/numerics/basis_matrix.h: vector_mult, vector_mult_transpose, get_vector_for_transpose"]}
{"id": "C09", "title": "LAPACK eigenvector unpacking yields conjugate pairs", "statement": "Given LAPACK xGEEV/xGGEV real output in which nonreal eigenvalues come in consecutive pairs, the interface's complex eigenvector matrices contain column vectors v for real eigenvalues and v, conj(v) (re+i im, re-i im) for each pair; hence if the packed vectors are eigenvectors of the real matrix so are all unpacked columns, and no column outside the matrix is ever written.", "quantifier": "all dimensions and all patterns of real/complex pairs", "why_tests_cant": "the loop advances by 1 or 2 depending on data; every pattern of pairs must be covered, and malformed data leads to out of bounds access", "anchors": ["src/numerics/lapack_dgeev_interface.cpp: compute", "src/numerics/lapack_dggev_interface.cpp: compute"]}
{"id": "C10", "title": "Left eigenvector scaling gives unit inner products", "statement": "scale_eigenvectors_to_identity_innerproduct makes conj(VL_i)^T A_or_B VR_i equal to 1 for each column i and only changes columns by a scalar, whenever the original inner product is nonzero.", "quantifier": "all matrices of eigenvectors with nonzero diagonal products", "why_tests_cant": "conjugation placement error only visible with complex data", "anchors": ["src/numerics/lapack_dgeev_interface.h: scale_eigenvectors_to_identity_innerproduct", "src/numerics/lapack_dggev_interface.h: scale_eigenvectors_to_identity_innerproduct"]}
{"id": "C11", "title": "depends_on is exact reachability", "statement": "For a function object built out of other functions, depends_on(f) is true exactly when f is reachable through one or more sub-function links; a Parameter depends only on itself; sensitivities are computed iff this query says so.", "quantifier": "all acyclic graphs of field functions", "why_tests_cant": "graph shapes are unbounded", "anchors": ["src/base/function_base.h: depends_on", "src/base/function_base.cpp", "src/base/parameter.h"]}
{"id": "C12", "title": "Function sets behave as insert-only maps", "statement": "After any sequence of add() calls on a FunctionSetBase, contains(n) iff some added function has name n, get(n) returns the first one added with that name (and errors for names never added), and depends_on(f) holds iff some member depends on f.", "quantifier": "all histories of add", "why_tests_cant": "history dependent, duplicates resolved by first insertion", "anchors": ["src/base/function_set_base.cpp: add, get, contains, depends_on"]}
{"id": "C13", "title": "Copies of function objects are as good as originals", "statement": "A copy of a FunctionBase answers depends_on like the original, and copying a Parameter and destroying both objects releases each allocation exactly once.", "quantifier": "all function graphs, all create/copy/destroy histories", "why_tests_cant": "double free and lost dependency need histories with copies", "anchors": ["src/base/function_base.cpp: FunctionBase(const FunctionBase&)", "src/base/parameter.h: Parameter copy constructor and destructor"]}
{"id": "C14", "title": "Constant field function: value and derivative", "statement": "ConstantFieldFunction returns the current value of its parameter at every point and time and its derivative is 1 w.r.t. that very parameter and 0 w.r.t. any other, equal to the true derivative of the value map.", "quantifier": "all parameters and parameter values", "why_tests_cant": "identity must hold for all parameter pairs", "anchors": ["src/base/constant_field_function.cpp"]}
{"id": "C15", "title": "Load registry is a multiset keyed by boundary / subdomain", "statement": "add_side_load/remove_side_load (and volume loads): after any history the loads reported for a boundary id are those added and not yet removed in insertion order; remove deletes exactly one registration of exactly that load for that id and touches no other id. Registering the same load twice for an id is detected in debug builds; remove of an absent load changes nothing, clear_volume_load of an absent load is an assertion failure.", "quantifier": "all histories of add/remove/clear", "why_tests_cant": "unbounded histories with duplicates", "anchors": ["src/base/physics_discipline_base.cpp: add_side_load, remove_side_load, add_volume_load, remove_volume_load"]}
{"id": "C16", "title": "Dirichlet conditions and subdomain property cards are write-once maps", "statement": "In debug builds at most one Dirichlet condition per boundary id and one property card per subdomain are accepted (a second is an assertion failure); in any build the first Dirichlet condition and the last property card win; look-up returns what was stored and is an assertion failure (debug) or undefined (release) for missing ids.", "quantifier": "all histories", "why_tests_cant": "unbounded histories", "anchors": ["src/base/physics_discipline_base.cpp: add_dirichlet_bc, set_property_for_subdomain, get_property_card"]}
{"id": "C17", "title": "Condensed dofs are exactly local dofs that are neither Dirichlet nor constrained", "statement": "After initialize_condensed_dofs the retained dof list contains, without repetition, exactly the dofs owned by this process that are not global Dirichlet dofs; over all processes the retained sets partition the complement of the Dirichlet set.", "quantifier": "all dof sets, all partitions among processes", "why_tests_cant": "set algebra over arbitrary partitions", "anchors": ["src/base/nonlinear_system.cpp:690-735 initialize_condensed_dofs", "src/base/physics_discipline_base.cpp: get_system_dirichlet_bc_dofs"]}
{"id": "C18", "title": "Eigenpairs scattered from the condensed problem satisfy boundary values and normalisation", "statement": "get_eigenpair returns a full-size vector equal to the condensed eigenvector at retained dofs and zero at all Dirichlet dofs, scaled so that x^T x = 1 (HEP) or x^T B x = 1 (GHEP with positive definite B), and still an eigenvector; with exchanged A and B the reported eigenvalue is the reciprocal.", "quantifier": "all systems and condensed eigenvectors", "why_tests_cant": "universally quantified over vectors/matrices", "anchors": ["src/base/nonlinear_system.cpp:407-548 get_eigenpair", "src/solver/slepc_eigen_solver.cpp:53-103 get_eigenpair"]}
{"id": "C19", "title": "Eigenvalue sensitivity equals the derivative of the eigenvalue", "statement": "eigenproblem_sensitivity_solve returns dlambda/dp of each (simple, symmetric) eigenvalue for any smooth A(p), B(p): x^T(A' - lambda B')x / x^T B x for generalised problems and x^T A' x / x^T x for standard ones.", "quantifier": "all smooth symmetric matrix families with differentiable eigenpair", "why_tests_cant": "calculus statement over all families", "anchors": ["src/base/nonlinear_system.cpp:554-685 eigenproblem_sensitivity_solve"]}
{"id": "C20", "title": "Adjoint and direct sensitivities agree", "statement": "For a scalar output q(X,p) of a solved system R(X,p)=0 with regular Jacobian, the adjoint path (adjoint_solve, then calculate_output_adjoint_sensitivity) and the direct path (sensitivity_solve, then calculate_output_direct_sensitivity) return the same number, the total derivative q_p + q_X X_p.", "quantifier": "all Jacobians, residual sensitivities, outputs", "why_tests_cant": "linear-algebra identity over all systems", "anchors": ["src/base/nonlinear_system.cpp:741-847 sensitivity_solve, adjoint_solve", "src/base/assembly_base.cpp:253-590"]}
{"id": "C21", "title": "Nonlinear system operation state returns to NONE", "statement": "After solve, sensitivity_solve, adjoint_solve or eigen solves the system's operation marker is NONE again and no element operations stay attached; during assembly callbacks they are those of the running call; nested calls are rejected; the same holds after a call that fails with an exception.", "quantifier": "all sequences of API calls", "why_tests_cant": "history property", "anchors": ["src/base/nonlinear_system.cpp:209-235, 741-847", "src/base/nonlinear_system.h: operation"]}
{"id": "C22", "title": "Assembled residual and Jacobian are the sum of element contributions, independent of order", "statement": "The residual/Jacobian assembled by NonlinearImplicitAssembly is the sum over active elements of scattered element quantities plus point loads (with minus sign), independent of element traversal order and of the partition of elements among processes.", "quantifier": "all meshes (element lists with dof maps), all element contributions, all partitions", "why_tests_cant": "order and partition independence quantifies over permutations", "anchors": ["src/base/nonlinear_implicit_assembly.cpp:64-266"]}
{"id": "C23", "title": "Outputs are evaluated on exactly the participating elements", "statement": "An output object evaluates an element iff the last element-selection call selects it (all elements, its subdomain, or the element itself); boundary evaluation iff one of the side's boundary ids was selected; a non-empty selection is final (debug). In sensitivity runs elements independent of the parameter are skipped only if there is no solution sensitivity or the override flag is set.", "quantifier": "all histories of selection calls and all elements", "why_tests_cant": "history x elements", "anchors": ["src/base/output_assembly_elem_operations.cpp:45-172"]}
{"id": "C24", "title": "Assembly object lifecycle", "statement": "set_elem_operation_object followed by clear_elem_operation_object restores the initial state; attaching twice without clearing and assembling without attachment are rejected; the same for discipline-and-system attachment.", "quantifier": "all call sequences", "why_tests_cant": "history property", "anchors": ["src/base/assembly_base.cpp:118-205"]}
{"id": "C25", "title": "Mesh field function derivative queries return derivatives", "statement": "While a quadrature-point solution is set on a MeshFieldFunction, operator() returns that solution, and derivative(), perturbation() and gradient() return the sensitivity, perturbation and gradient of the field, not its value.", "quantifier": "all stored fields and query histories", "why_tests_cant": "state-dependent queries", "anchors": ["src/base/mesh_field_function.cpp"]}
{"id": "C26", "title": "First-order Newmark: velocity update satisfies the integration rule", "statement": "After each step FirstOrderNewmarkTransientSolver's state obeys x1 = x0 + dt((1-beta) v0 + beta v1); the reported velocity increment is the linearisation; the assembled Jacobian is d/dx1 of the residual as seen through velocity.", "quantifier": "all dt, beta != 0, states, residual operators", "why_tests_cant": "identity over reals", "anchors": ["src/solver/first_order_newmark_transient_solver.cpp:149-196, 276-277"]}
{"id": "C27", "title": "First-order Newmark is A-stable for beta >= 1/2", "statement": "For the scalar decay equation v = -lambda x with lambda >= 0 the computed sequence satisfies |x_{n+1}| <= |x_n| for every dt>0 whenever 1/2 <= beta <= 1.", "quantifier": "all lambda, dt, beta, number of steps", "why_tests_cant": "unbounded number of steps and parameters", "anchors": ["src/solver/first_order_newmark_transient_solver.cpp:149-164"]}
{"id": "C28", "title": "Second-order Newmark: kinematic relations", "statement": "Velocity and acceleration computed by SecondOrderNewmarkTransientSolver satisfy the Newmark relations x1 = x0 + dt v0 + dt^2((1/2-beta)a0+beta a1) and v1=v0+dt((1-gamma)a0+gamma a1); constant-acceleration motion is reproduced exactly.", "quantifier": "all dt>0, beta != 0, gamma, states", "why_tests_cant": "identity over reals, all histories", "anchors": ["src/solver/second_order_newmark_transient_solver.cpp:160-269"]}
{"id": "C29", "title": "Second-order Newmark average acceleration conserves energy", "statement": "For an undamped linear system with symmetric mass and stiffness and beta=1/4, gamma=1/2, the discrete energy 1/2 v.Mv + 1/2 x.Kx is the same after any number of steps of any sizes.", "quantifier": "all symmetric M,K, step sizes, numbers of steps", "why_tests_cant": "unbounded histories", "anchors": ["src/solver/second_order_newmark_transient_solver.cpp:160-199"]}
{"id": "C30", "title": "Transient element Jacobians are total derivatives", "statement": "The element matrix delivered by the first/second-order Newmark and generalized-alpha solvers is the derivative w.r.t. the new solution of the element residual evaluated with the solver's own velocity/acceleration update.", "quantifier": "all linear element operators, parameters, states", "why_tests_cant": "calculus identity for all inputs", "anchors": ["src/solver/first_order_newmark_transient_solver.cpp:240-300", "src/solver/second_order_newmark_transient_solver.cpp:330-380", "src/solver/generalized_alpha_transient_solver.cpp:250-300"]}
{"id": "C31", "title": "Generalized-alpha parameter choice", "statement": "The spectral-radius based constructor/parameters of the generalized-alpha solver satisfy the second-order accuracy relation gamma = 1/2 - alpha_m + alpha_f in the solver's own weighting convention and the unconditional-stability inequalities for every spectral radius in [0,1].", "quantifier": "all spectral radii in [0,1]", "why_tests_cant": "continuum of parameters", "anchors": ["src/solver/generalized_alpha_transient_solver.cpp:47-61"]}
{"id": "C32", "title": "Generalized-alpha linearised products are consistent with the Jacobian", "statement": "The Jacobian-vector product computed through set_element_perturbed_data equals the assembled Jacobian times the perturbation.", "quantifier": "all alpha_f, alpha_m, perturbations", "why_tests_cant": "identity for all parameters", "anchors": ["src/solver/generalized_alpha_transient_solver.cpp:155-188, 294-296"]}
{"id": "C33", "title": "Time history shifting keeps the most recent states in order", "statement": "After n calls to advance_time_step the i-th previous solution/velocity/acceleration vector is the state i steps ago (for i up to the solver's history length), and time has advanced by the sum of step sizes.", "quantifier": "all step counts and states", "why_tests_cant": "history property", "anchors": ["src/solver/transient_solver_base.cpp:86-191, 412-418, 498-505, 755-790"]}
{"id": "C34", "title": "Continuation: failed steps leave no trace and step size stays in bounds", "statement": "ContinuationSolverBase::solve either accepts a converged state or restores solution and load parameter to the values at entry before each retry; the arc length is halved per retry, never drops below min_step, and after success stays within [min_step,max_step]; the loop terminates.", "quantifier": "all convergence behaviours, step-size parameters", "why_tests_cant": "depends on arbitrary convergence histories", "anchors": ["src/solver/continuation_solver_base.cpp:92-181"]}
{"id": "C35", "title": "Continuation: a converged step is accepted", "statement": "If the Newton iterations of a continuation step converge within the permitted number of iterations the step is kept.", "quantifier": "all iteration histories", "why_tests_cant": "boundary: convergence exactly at the last iteration", "anchors": ["src/solver/continuation_solver_base.cpp:92-181"]}
{"id": "C36", "title": "Continuation: Schur factorisation equals the bordered solve", "statement": "The increment (dX,dp) from the Schur complement path solves the same bordered system [J f_p; g_X g_p](dX,dp) = -(f,g) as the fully coupled path.", "quantifier": "all regular systems", "why_tests_cant": "linear algebra for all inputs", "anchors": ["src/solver/continuation_solver_base.cpp:184-566"]}
{"id": "C37", "title": "Pseudo-arclength: unit tangent and consistent constraint", "statement": "The pseudo-arclength solver's stored search direction is of unit (scaled) norm and tangent to the solution path, and g and its derivatives returned for the corrector are consistent (dg is derivative of g).", "quantifier": "all paths and scalings", "why_tests_cant": "real identity", "anchors": ["src/solver/pseudo_arclength_continuation_solver.cpp:188-267", "src/solver/arclength_continuation_solver.cpp:43-230"]}
{"id": "C38", "title": "Complex solver interleaving round-trips", "statement": "The complex solver's block copy of a complex vector into interleaved real storage and back is the identity, and the 2x2 block real matrix acts as the complex matrix.", "quantifier": "all sizes and vectors", "why_tests_cant": "index bijection for all sizes", "anchors": ["src/solver/complex_solver_base.cpp:333-507"]}
{"id": "C39", "title": "Multiphysics: block operator acts as the full coupled Jacobian", "statement": "The nested matrix product used by MultiphysicsNonlinearSolverBase equals the product with the coupled Jacobian for any number of disciplines, including absent off-diagonal blocks treated through the coupling callback, and the reported residual norm is the norm of the stacked residual.", "quantifier": "all numbers and sizes of disciplines", "why_tests_cant": "unbounded block counts", "anchors": ["src/solver/multiphysics_nonlinear_solver.cpp"]}
{"id": "C40", "title": "Stabilised sensitivity solver: averaging and time-slab bookkeeping", "statement": "The stabilised first-order transient sensitivity solver's mass average and integrated Jacobian equal the time-weighted mean of M and the integral of J over the slab; accepted steps advance to the end of the slab; q sensitivity at step i reads the solution of step i.", "quantifier": "all histories of step sizes and matrices", "why_tests_cant": "history property", "anchors": ["src/solver/stabilized_first_order_transient_sensitivity_solver.cpp:80-290"]}
{"id": "C41", "title": "Design variable history file round-trips", "statement": "initialize_dv_from_output_file applied to a file written by output() for iteration k recovers exactly the design variables of iteration k, for all numbers of design variables and constraints.", "quantifier": "all problem sizes, iteration counts, values (up to printed token equality)", "why_tests_cant": "token skipping logic depends on sizes and line number", "anchors": ["src/optimization/function_evaluation.cpp:111-239"]}
{"id": "C42", "title": "Gradient verification is sound and exact for quadratics", "statement": "verify_gradients accepts exactly when each analytical derivative is within 0.1% of a central difference; central differences equal the exact gradient when objective and constraints are quadratic, in every component, with constraint gradients read at i*(n_eq+n_ineq)+j; the evaluator is left at the design it was given.", "quantifier": "all quadratic functions, dimensions, step sizes", "why_tests_cant": "all functions in class", "anchors": ["src/optimization/function_evaluation.cpp:242-405"]}
{"id": "C43", "title": "Constraint statistics are correct", "statement": "The iteration report's active, violated counts and the maximum constraint value and its index are those of the constraint vector.", "quantifier": "all vectors and tolerances", "why_tests_cant": "all inputs", "anchors": ["src/optimization/function_evaluation.cpp:70-110"]}
{"id": "C44", "title": "GCMMA stops only when converged or iteration limit hit", "statement": "The GCMMA driver terminates by relative objective change only when the last n_rel_change_iters objective values all lie within the tolerance, and always performs at most max_iters outer and max inner iterations.", "quantifier": "all objective histories", "why_tests_cant": "history property", "anchors": ["src/optimization/gcmma_optimization_interface.cpp:89-371"]}
{"id": "C45", "title": "NLopt callbacks deliver constraint values and gradients", "statement": "The inequality callback passed to NLopt writes every constraint value to the result array and, if asked, the gradient in row-major (constraint-major) order.", "quantifier": "all constraints and sizes", "why_tests_cant": "all inputs", "anchors": ["src/optimization/nlopt_optimization_interface.cpp:142-229"]}
{"id": "C46", "title": "NPSOL / DOT driver exit codes and loops", "statement": "The NPSOL callback reports gradients in the leading-dimension layout asked for, the bounds handed to NPSOL describe the feasible designs of the problem, and the DOT driver records every design it evaluates, in order, with the values at that design.", "quantifier": "all sizes", "why_tests_cant": "all inputs", "anchors": ["src/optimization/npsol_optimization_interface.cpp:322-336", "src/optimization/dot_optimization_interface.cpp:98-162"]}
{"id": "C47", "title": "Stress rotation matrix agrees with tensor rotation", "statement": "CoordinateBase::stress_strain_transformation_matrix(T) applied to the Voigt vector of a symmetric stress sigma gives the Voigt vector of the rotated tensor; for orthonormal T it preserves trace and is inverted by the matrix of T^T; its sensitivity is the derivative.", "quantifier": "all T and all symmetric tensors", "why_tests_cant": "polynomial identity over all inputs", "anchors": ["src/coordinates/coordinate_base.cpp:31-102"]}
{"id": "C48", "title": "Polar coordinate frame is orthonormal and right handed", "statement": "PolarCoordinate returns for every angle supplied by the user's function a rotation matrix (orthonormal columns, determinant 1); when the angle is that of the point, its columns are the radial, circumferential and axial directions; its derivative is the derivative of the matrix.", "quantifier": "all points with r != 0", "why_tests_cant": "continuum of points", "anchors": ["src/coordinates/polar_coordinate.cpp:37-70"]}
{"id": "C49", "title": "Kinematic coupling weights form a partition of unity", "statement": "Constraint rows from KinematicCouplingConstraint make the slave translation equal to the common master translation for every rigid translation of the masters; weights are positive and sum to 1.", "quantifier": "all master sets and positions", "why_tests_cant": "all geometries", "anchors": ["src/elasticity/kinematic_coupling_constraint.cpp:44-179"]}
{"id": "C50", "title": "Kinematic coupling reproduces rigid rotations", "statement": "When all masters move as one rigid body (translation plus small rotation), the constraint rows make the slave node follow the same rigid motion.", "quantifier": "all rigid motions and geometries", "why_tests_cant": "sign errors are visible only for particular rotation axes/offsets", "anchors": ["src/elasticity/kinematic_coupling_constraint.cpp:133-176"]}
{"id": "C51", "title": "von Mises stress is the standard invariant", "statement": "Data::von_Mises_stress() is nonnegative, absolutely homogeneous of degree one, unchanged by adding hydrostatic pressure, invariant under permutation of axes, zero only for hydrostatic states, and equals sqrt(3/2 s:s) of the deviator.", "quantifier": "all stress vectors", "why_tests_cant": "real identities", "anchors": ["src/elasticity/stress_output_base.cpp:183-195"]}
{"id": "C52", "title": "von Mises sensitivities are derivatives", "statement": "dvon_Mises_stress_dp and dvon_Mises_stress_dX return the derivative of the von Mises stress along the supplied stress sensitivity wherever the stress is not hydrostatic, and 0 at zero von Mises stress or when no sensitivity was registered.", "quantifier": "all stresses and sensitivities", "why_tests_cant": "calculus over all inputs", "anchors": ["src/elasticity/stress_output_base.cpp:200-271"]}
{"id": "C53", "title": "p-norm stress functional: value bounds and sensitivities", "statement": "The weighted p-norm aggregate of von Mises stresses lies between 0 and the maximum stress, is exact for uniform stress, and its sensitivity is the derivative of the value w.r.t. p.", "quantifier": "all sets of stress points, weights, exponents", "why_tests_cant": "aggregates over arbitrarily many points", "anchors": ["src/elasticity/stress_output_base.cpp:716-742, 852-1043"]}
{"id": "C54", "title": "KS aggregate: bounds and derivative", "statement": "The KS aggregate lies between min and max of (sigma/sigma0-1) over the stress points with positive weights, tends from above the weighted mean (Jensen), is exact for uniform stress, and functional_sensitivity is its derivative.", "quantifier": "all numbers of points, weights, p>0", "why_tests_cant": "aggregates over arbitrarily many points", "anchors": ["src/elasticity/ks_stress_output.cpp:53-242"]}
{"id": "C55", "title": "Smooth-ramp aggregate: sign and derivative", "statement": "The smooth ramp functional is nonnegative, zero for zero stress, monotone in each stress, and its sensitivity is the derivative.", "quantifier": "all sets of points", "why_tests_cant": "aggregates over arbitrarily many points", "anchors": ["src/elasticity/smooth_ramp_stress_output.cpp:55-191"]}
{"id": "C56", "title": "Isotropic material stiffness: inverse of compliance, positive definite, symmetric", "statement": "Isotropic material matrices (1D, 2D plane stress, plane strain, 3D) are symmetric, invert the Hooke compliance, are positive definite for E>0 and -1<nu<1/2, and the plane strain matrix is the in-plane restriction of the 3D matrix.", "quantifier": "all E, nu in the admissible range", "why_tests_cant": "continuum of materials", "anchors": ["src/property_cards/isotropic_material_property_card.cpp:280-567"]}
{"id": "C57", "title": "Isotropic material sensitivities are derivatives", "statement": "derivative() of each isotropic material matrix equals the derivative of operator() w.r.t. any parameter on which E, nu, G etc. depend.", "quantifier": "all smooth parameterisations", "why_tests_cant": "calculus identity", "anchors": ["src/property_cards/isotropic_material_property_card.cpp:280-747"]}
{"id": "C58", "title": "Material matrices reflect the request", "statement": "stiffness_matrix(dim, plane_stress) returns the material matrix for the requested dimension and plane stress/strain assumption whatever was requested before.", "quantifier": "all sequences of requests", "why_tests_cant": "cache/history dependent", "anchors": ["src/property_cards/isotropic_material_property_card.cpp:797-841", "src/property_cards/orthotropic_material_property_card.cpp:1056-1112"]}
{"id": "C59", "title": "Orthotropic stiffness is symmetric inverse of compliance", "statement": "Orthotropic 3D, plane strain and plane stress matrices are symmetric and invert the orthotropic compliance; with isotropic data they reduce to the isotropic ones.", "quantifier": "all admissible material constants", "why_tests_cant": "rational identities", "anchors": ["src/property_cards/orthotropic_material_property_card.cpp:484-824"]}
{"id": "C60", "title": "Orthotropic sensitivities are derivatives", "statement": "derivative() of the orthotropic matrices equals the derivative of operator() and depends_on reports every parameter the matrix depends on.", "quantifier": "all smooth parameterisations", "why_tests_cant": "calculus identity", "anchors": ["src/property_cards/orthotropic_material_property_card.cpp:355-824"]}
{"id": "C61", "title": "Plate section stiffness: offset consistency", "statement": "Extension, coupling and bending stiffness of a Solid2DSection (h, offset) equal the through-thickness integrals of C, z C, z^2 C over [off-h/2, off+h/2]; derivatives are exact.", "quantifier": "all h, offsets, material matrices and parameterisations", "why_tests_cant": "continuum", "anchors": ["src/property_cards/solid_2d_section_element_property_card.cpp:394-531"]}
{"id": "C62", "title": "Plate section inertia and its derivative", "statement": "The inertia matrix of a Solid2DSection is symmetric positive (through-thickness integral of rho) and derivative() returns its derivative.", "quantifier": "all h, offsets, rho and parameterisations", "why_tests_cant": "calculus identity", "anchors": ["src/property_cards/solid_2d_section_element_property_card.cpp:554-601"]}
{"id": "C63", "title": "Multilayer laminate: layers tile the thickness", "statement": "Layer offsets place adjacent layers face to face, the stack occupies an interval of total thickness located by the base value, and a stack of same-material layers has the A, B, D matrices of the equivalent single plate.", "quantifier": "all numbers of layers, thicknesses, base values", "why_tests_cant": "unbounded number of layers", "anchors": ["src/property_cards/multilayer_2d_section_element_property_card.cpp:31-157", "src/property_cards/multilayer_1d_section_element_property_card.cpp:30-156"]}
{"id": "C64", "title": "Beam section properties", "statement": "Solid1DSection area, first moments, area inertia and polar inertia equal the integrals over the offset rectangle (parallel-axis theorem); derivatives are exact; the bending inertia matrix is positive definite.", "quantifier": "all dimensions, offsets", "why_tests_cant": "continuum", "anchors": ["src/property_cards/solid_1d_section_element_property_card.cpp:31-371, 824-1091"]}
{"id": "C65", "title": "Torsion constant", "statement": "Torsion constant of a rectangle is symmetric in its sides, positive, bounded by the polar moment, homogeneous of degree 4, and derivative() is its derivative for hy != hz.", "quantifier": "all side lengths", "why_tests_cant": "continuum; max/min branch", "anchors": ["src/property_cards/solid_1d_section_element_property_card.cpp:72-138"]}
{"id": "C66", "title": "3D orthotropic property rotation is energy consistent", "statement": "The rotated 3D stiffness gives the same strain energy as the material frame stiffness for the rotated strain; thermal conductance and expansion rotate with the same frame.", "quantifier": "all orthonormal frames, strains", "why_tests_cant": "frame convention identity", "anchors": ["src/property_cards/orthotropic_element_property_card_3D.cpp:217-490"]}
{"id": "C67", "title": "Density filter is a convex average", "statement": "FilterBase weights are nonnegative and sum to one for each filtered dof, so filtering preserves constants and bounds (max principle) and is linear.", "quantifier": "all meshes and radii", "why_tests_cant": "arbitrary point clouds", "anchors": ["src/level_set/filter_base.cpp:58-136, 377-451"]}
{"id": "C68", "title": "All filter overloads agree", "statement": "The three compute_filtered_values overloads (distributed vector, sparse map, std::vector) give the same values for the same data, including dofs that are not design variables.", "quantifier": "all data and dv subsets", "why_tests_cant": "overload equivalence over all inputs", "anchors": ["src/level_set/filter_base.cpp:58-167"]}
{"id": "C69", "title": "Filter influence query is sound", "statement": "svec_dof/elem domain of influence queries report true for every element/dof on which a filtered value depends.", "quantifier": "all meshes", "why_tests_cant": "arbitrary point clouds", "anchors": ["src/level_set/filter_base.cpp:170-196"]}
{"id": "C70", "title": "Level-set cut of a quad preserves area and splits by sign", "statement": "For every QUAD4 and every nodal level-set sign pattern handled, the sub-elements of both sides tile the element (areas add up) and each positive sub-element has no vertex with negative level-set value, each negative none with positive.", "quantifier": "all quads, all nodal values", "why_tests_cant": "16+ sign patterns x continuum of positions", "anchors": ["src/level_set/level_set_intersection.cpp:657-1581"]}
{"id": "C71", "title": "Level-set degenerate configurations are classified by sign", "statement": "Elements whose zero level set passes only through nodes are classified so that regions with positive level-set are on the positive side and no element crossing the zero level set is reported as entirely positive.", "quantifier": "all nodal values with zeros", "why_tests_cant": "measure-zero data that random tests never hit", "anchors": ["src/level_set/level_set_intersection.cpp:311-521, 1282-1335"]}
{"id": "C72", "title": "Edge intersection search brackets the root", "statement": "The regula-falsi intersection returns a point within the edge at which |phi| <= tolerance unless the iteration limit is hit, maintains the sign bracket, and needs one iteration for linear phi.", "quantifier": "all level-set functions with sign change, tolerances, iteration limits", "why_tests_cant": "all functions", "anchors": ["src/level_set/level_set_intersection.cpp:1586-1645"]}
{"id": "C73", "title": "Sub-element numbering is collision free", "statement": "Ids assigned to sub-elements/nodes created for different cut elements never collide with each other or with mesh ids.", "quantifier": "all meshes and cut sets", "why_tests_cant": "unbounded meshes", "anchors": ["src/level_set/level_set_intersection.cpp", "src/level_set/sub_elem_node_map.cpp", "src/level_set/sub_elem_mesh_refinement.cpp"]}
{"id": "C74", "title": "Material patch: interface crossings around a node come in pairs", "statement": "The number of sign changes met walking the closed periphery of a node's patch is even and a node is factored iff more than one material pocket touches it.", "quantifier": "all patches", "why_tests_cant": "any cyclic list", "anchors": ["src/level_set/material_patch.cpp:36-262"]}
{"id": "C75", "title": "Static condensation of void dofs is exact", "statement": "The condensed residual/Jacobian of InterfaceDofHandler and its recovery update reproduce the Newton update of the full element system: solving the Schur complement for the retained dofs and recovering the factored ones solves J dx = -r.", "quantifier": "all element systems with regular factored block", "why_tests_cant": "linear algebra over all inputs", "anchors": ["src/level_set/interface_dof_handler.cpp:141-457"]}
{"id": "C76", "title": "Dof partition of cut elements is a partition", "statement": "Handed empty lists, partition_local_elem_rows returns strictly increasing lists which together contain every element dof exactly once, void dofs being exactly those of nodes with negative level set; partition_global_elem_rows returns their global ids (each once, not sorted).", "quantifier": "all elements, node subsets, variable counts", "why_tests_cant": "combinatorial, all sizes", "anchors": ["src/level_set/interface_dof_handler.cpp:141-213"]}
{"id": "C77", "title": "Level-set constrained dofs", "statement": "After LevelSetConstrainDofs::constrain a dof is constrained iff it already was (its row is kept), or some local element holds it and none that holds it reports a positive region, or (if asked) it belongs to a node with non-positive level set of an element with a boundary; new rows are u=0. The indicator variant adds the dofs of cold elements except those of hot elements with a boundary. For QUAD4 meshes 'no positive region' means all corner values below -tol.", "quantifier": "all meshes, level sets", "why_tests_cant": "set algebra over arbitrary meshes", "anchors": ["src/level_set/level_set_constrain_dofs.cpp:61-177", "src/level_set/indicator_function_constrain_dofs.cpp:51-157"]}
{"id": "C78", "title": "Transient sensitivity right-hand side is the total derivative", "statement": "For the first-order Newmark solver, the sensitivity system assembled for a time step (element partial derivative plus the contribution of the previous step) together with Jacobian times dx/dp is the total derivative of the step residual w.r.t. the parameter, and the sensitivity driver of the transient solver reaches that assembly.", "quantifier": "all parameters, step sizes, beta, states and previous-step sensitivities", "why_tests_cant": "calculus identity for all inputs; static dispatch", "anchors": ["src/solver/first_order_newmark_transient_solver.cpp:297-354", "src/base/transient_assembly.cpp:287-385", "src/base/assembly_base.h:245-252"]}
{"id": "C79", "title": "Initial highest derivative satisfies the equation of motion", "statement": "solve_highest_derivative_and_advance_time_step sets the initial velocity (first order) or acceleration (second order) so that the equation of motion holds at the initial state, for every time integrator.", "quantifier": "all mass operators, forces, initial states, integrators", "why_tests_cant": "must hold for all inputs", "anchors": ["src/solver/transient_solver_base.cpp:343-423", "src/solver/generalized_alpha_transient_solver.cpp:65-105"]}
{"id": "C80", "title": "GCMMA candidates respect the design variable bounds", "statement": "If the subproblem solution and the previous iterate lie within the design variable bounds, the candidate accepted after any number of backtracking steps lies within the bounds.", "quantifier": "all bounds, iterates, constraint functions and numbers of backtracks", "why_tests_cant": "all histories of backtracking", "anchors": ["src/optimization/gcmma_optimization_interface.cpp:275-291"]}
{"id": "C81", "title": "Parametric line study covers the segment between two designs", "statement": "parametric_line_study writes divs+1 designs, starting at the first and ending at the second stored design, equally spaced, each with the objective and constraint values of that design.", "quantifier": "all designs and divs>0", "why_tests_cant": "all divisions", "anchors": ["src/optimization/function_evaluation.cpp:408-436"]}
{"id": "C82", "title": "Interface side of a sub-element lies on the level set", "statement": "For every sub-element of a cut QUAD4 the side returned by get_side_on_interface joins two vertices at which |phi| <= tolerance, if the edge searches converged.", "quantifier": "all quads, all level-set functions", "why_tests_cant": "every cut pattern, orientation and function", "anchors": ["src/level_set/level_set_intersection.cpp:582-607, 969-1575"]}
{"id": "C83", "title": "Nondimensional coordinates of cut nodes are consistent", "statement": "The element map applied to get_nondimensional_coordinate_for_node(n) gives the position of n for every corner and every node created on an edge, and the coordinates lie in the reference square.", "quantifier": "all quads, cut patterns and edge fractions", "why_tests_cant": "continuum of element shapes and fractions", "anchors": ["src/level_set/level_set_intersection.cpp:610-653, 924-985, 1050-1076, 1341-1352, 1456-1470"]}
{"id": "C84", "title": "One node per cut edge in the cut mesh", "statement": "SubElemMeshRefinement::process_mesh creates exactly one node per cut edge of the mesh (per side of the interface with strong discontinuity), shared by all elements on that edge, leaves the nodes of the mesh in place, and puts each new node at the point its intersection found.", "quantifier": "all meshes, lists of elements processed, cut patterns and points", "why_tests_cant": "depends on the order in which elements are met and on every combination of neighbouring cuts", "anchors": ["src/level_set/sub_elem_mesh_refinement.cpp:367-512", "src/level_set/sub_elem_node_map.cpp:36-58"]}
{"id": "C85", "title": "Children of cut elements", "statement": "process_mesh adds exactly the sub-elements of the cut elements as new elements with subdomains by side and type, marks their interface sides with the boundary id, moves the parents to inactive subdomains, separates the two sides for strong discontinuity, and reports whether the mesh changed.", "quantifier": "all meshes and lists of elements processed", "why_tests_cant": "quantifies over every mesh and every combination of cuts", "anchors": ["src/level_set/sub_elem_mesh_refinement.cpp:58-330, 419-640"]}
{"id": "C86", "title": "clear_mesh undoes process_mesh", "statement": "clear_mesh after process_mesh restores the elements, subdomains, nodes and boundary sides the mesh had.", "quantifier": "all meshes and lists of elements processed", "why_tests_cant": "quantifies over every mesh and every history of cuts", "anchors": ["src/level_set/sub_elem_mesh_refinement.cpp:332-365"]}
{"id": "C87", "title": "Constraints on void and hanging degrees of freedom", "statement": "SubElemMeshRefinement::constrain sets to zero every degree of freedom that belongs only to elements in the negative subdomain, ties each hanging node to the ends of its edge by linear interpolation (exact for affine fields), constrains only dofs of this processor, and constrains nothing else.", "quantifier": "all meshes, dof numberings, owner ranges and hanging node positions", "why_tests_cant": "quantifies over all meshes and partitionings", "anchors": ["src/level_set/sub_elem_mesh_refinement.cpp:642-726"]}
{"id": "C88", "title": "Time-domain flutter state space", "statement": "The generalized eigenproblem A x = λ B x built from reduced mass, damping and stiffness matrices has exactly the solutions x = (q, λ q) with (λ² M + λ C + K) q = 0.", "quantifier": "all sizes, all real M, C, K, all complex λ and vectors", "why_tests_cant": "quantifies over all matrices of every size", "anchors": ["src/aeroelasticity/time_domain_flutter_solver.cpp:675-745 _initialize_matrices"]}
{"id": "C89", "title": "Flutter speed sensitivity", "statement": "calculate_sensitivity returns the derivative of the eigenvalue with respect to the parameter and to velocity, V_sens = dV/dp along the stability boundary Re λ = 0, and a total root sensitivity with zero real part.", "quantifier": "all differentiable reduced matrices, eigenpairs with u^H B v nonzero, all parameters", "why_tests_cant": "derivative statement over all smooth families", "anchors": ["src/aeroelasticity/time_domain_flutter_solver.cpp:752-815", "src/aeroelasticity/time_domain_flutter_solver.cpp:990-1093 calculate_sensitivity"]}
{"id": "C90", "title": "Refinement of a flutter crossover", "statement": "The search started from a bracket with g ≤ 0 at one end and g > 0 at the other analyses only velocities (reduced frequencies) inside the bracket, reports success only with |g| ≤ g_tol, and for continuous g and positive g_tol succeeds after finitely many iterations; a root is handed to the user as found only if it meets g_tol.", "quantifier": "all continuous damping curves, brackets, tolerances and iteration limits", "why_tests_cant": "convergence over all continuous functions", "anchors": ["src/aeroelasticity/time_domain_flutter_solver.cpp:566-634 _bisection_search", "src/aeroelasticity/ug_flutter_solver.cpp:405-480", "src/aeroelasticity/pk_flutter_solver.cpp:310-382", "src/aeroelasticity/time_domain_flutter_solver.cpp:152-248"]}
{"id": "C91", "title": "Critical flutter root and root enumeration", "statement": "find_critical_root terminates and returns a root of smallest velocity among the roots of all identified crossovers; find_next_root refines each crossover once and then reports none; n_roots_found and get_root enumerate the refined roots in order of velocity.", "quantifier": "all tables of tracked damping values over an ascending velocity grid, all call histories", "why_tests_cant": "quantifies over all damping tables and call sequences", "anchors": ["src/aeroelasticity/time_domain_flutter_solver.cpp:107-248", "src/aeroelasticity/time_domain_flutter_solver.cpp:821-985 _identify_crossover_points"]}
{"id": "C92", "title": "Flutter scan grid and crossover identification", "statement": "scan_for_roots analyses n+1 equally spaced points including both ends of the range, in order, and a second call changes nothing; a crossover is recorded exactly for each pair of neighbouring points between which a retained mode changes sign of g.", "quantifier": "all ranges, division counts and damping tables", "why_tests_cant": "quantifies over all tables", "anchors": ["src/aeroelasticity/time_domain_flutter_solver.cpp:424-461 scan_for_roots", "src/aeroelasticity/time_domain_flutter_solver.cpp:821-985", "src/aeroelasticity/ug_flutter_solver.cpp:262-300"]}
{"id": "C93", "title": "Mode tracking by sort", "statement": "sort reorders the roots of a solution without loss or duplication, and when each previous root has a partner whose correlation exceeds that of every other current root, root i of the sorted solution is the partner of previous root i, for any initial order.", "quantifier": "all numbers of roots, orders and correlation values", "why_tests_cant": "quantifies over all permutations and correlations", "anchors": ["src/aeroelasticity/time_domain_flutter_solution.cpp:166-202 sort", "src/aeroelasticity/ug_flutter_solution.cpp:93-125"]}
{"id": "C94", "title": "Critical root without tracking", "statement": "analyze_and_find_critical_root_without_tracking marches to the first grid point with an unstable root, then refines so that success means a root with 0 < Re ≤ g_tol inside the bracket; for a continuous growth rate and g_tol > 1e-4 it succeeds in finitely many iterations unless an iterate has growth rate exactly zero.", "quantifier": "all continuous growth rate curves, ranges, divisions and tolerances", "why_tests_cant": "convergence over all continuous functions", "anchors": ["src/aeroelasticity/time_domain_flutter_solver.cpp:254-419", "src/aeroelasticity/time_domain_flutter_solution.cpp:84-158 get_critical_root"]}
{"id": "C95", "title": "U-g flutter method", "statement": "In the U-g method every root (V, g, ω) computed from an eigenvalue of the assembled pencil at reduced frequency kr solves (−ω² M + (1+ig) K + q A(kr)) x = 0 with q = ½ρV², ω = kr·V/b and A the assembled (left-hand-side) aerodynamic matrix; its reported sensitivities are the derivatives of V and g along the eigenpair.", "quantifier": "all matrices, eigenvalues with positive real part, smooth families", "why_tests_cant": "derivative statement over all smooth families", "anchors": ["src/aeroelasticity/ug_flutter_root.cpp:39-81 init", "src/aeroelasticity/ug_flutter_solver.cpp:521-685", "src/aeroelasticity/ug_flutter_solver.cpp:869-988"]}
{"id": "C96", "title": "Flutter root data", "statement": "The modal participation factors of a root are nonnegative and sum to one, and a root with zero denominator leaves the default values.", "quantifier": "all eigenvectors and matrices", "why_tests_cant": "quantifies over all inputs", "anchors": ["src/aeroelasticity/time_domain_flutter_root.cpp:38-65", "src/aeroelasticity/ug_flutter_root.cpp:39-81"]}
{"id": "C97", "title": "P-k flutter solver", "statement": "The p-k eigenproblem at (kr, V) has exactly the solutions of (p² M + K + ½ρV² A(kr)) q = 0; a scan stores one solution per grid velocity whose roots were computed with the scanned reduced frequency nearest to their own, and records a crossover for each change of sign of damping of a retained mode between neighbouring usable velocities.", "quantifier": "all sizes, matrices, ranges, division counts and eigensolutions", "why_tests_cant": "quantifies over all matrices, grids and root tables", "anchors": ["src/aeroelasticity/pk_flutter_solver.cpp:143-211 scan_for_roots", "src/aeroelasticity/pk_flutter_solver.cpp:661-704 _insert_new_solution", "src/aeroelasticity/pk_flutter_solver.cpp:709-836", "src/aeroelasticity/pk_flutter_solver.cpp:839-1024", "src/aeroelasticity/pk_flutter_root.cpp:31-66"]}
{"id": "C98", "title": "Primitive variables of the flow element", "statement": "The primitive state computed from conservative variables satisfies the ideal gas relations (velocities, pressure, temperature, sound speed, Mach, entropy), its perturbation is the derivative of the state, and the free stream vector and its density and Mach sensitivities agree with those relations.", "quantifier": "all dimensions 1-3, conservative states, gas constants and perturbations", "why_tests_cant": "quantifies over all real states; derivative statements", "anchors": ["src/fluid/primitive_fluid_solution.cpp init", "src/fluid/small_disturbance_primitive_fluid_solution.h init", "src/fluid/flight_condition.cpp"]}
{"id": "C99", "title": "Conservative/primitive Jacobians", "statement": "The two Jacobians between conservative and primitive variables are inverse to each other and are the derivatives of the change of variables.", "quantifier": "all dimensions and states with nonzero density", "why_tests_cant": "identities over all real states", "anchors": ["src/fluid/fluid_elem_base.cpp calculate_conservative_variable_jacobian", "src/fluid/fluid_elem_base.cpp calculate_pressure_derivative_wrt_conservative_variables"]}
{"id": "C100", "title": "Advection flux and its Jacobian", "statement": "The flux in every direction is the Euler flux, its Jacobian is the derivative of the flux with respect to the conservative variables, and the pressure derivative and the slip-wall Jacobian are the derivatives of pressure and wall flux.", "quantifier": "all dimensions, directions, states and wall velocities", "why_tests_cant": "derivative statements over all real states", "anchors": ["src/fluid/fluid_elem_base.cpp calculate_advection_flux", "src/fluid/fluid_elem_base.cpp calculate_advection_flux_jacobian", "src/fluid/fluid_elem_base.cpp calculate_advection_flux_jacobian_for_moving_solid_wall_boundary"]}
{"id": "C101", "title": "Sensitivity of the flux Jacobian", "statement": "The derivative of the flux Jacobian with respect to each primitive variable, and its transformation to conservative variables, are the derivatives of the flux Jacobian.", "quantifier": "all dimensions, directions, states and variables", "why_tests_cant": "second derivatives over all real states", "anchors": ["src/fluid/fluid_elem_base.cpp calculate_advection_flux_jacobian_sensitivity_for_primitive_variable", "src/fluid/fluid_elem_base.cpp calculate_advection_flux_jacobian_sensitivity_for_conservative_variable"]}
{"id": "C102", "title": "Eigendecomposition of the normal Jacobian", "statement": "For every unit normal the left eigenvectors, their inverse transpose and the eigenvalues returned by the flow element reconstruct the normal flux Jacobian, with eigenvalues u.n, u.n+a, u.n-a.", "quantifier": "all dimensions, states with positive temperature and unit normals", "why_tests_cant": "algebraic identities over all real states and normals, with a case switch on the largest normal component", "anchors": ["src/fluid/fluid_elem_base.cpp:1314-1540 calculate_advection_left_eigenvector_and_inverse_for_normal"]}
{"id": "C103", "title": "Entropy variable Jacobian", "statement": "The Jacobians between conservative and entropy variables are inverse, symmetric, positive definite at every physical state, and dV/dU is the derivative of the entropy variables.", "quantifier": "all dimensions and states with positive density and temperature", "why_tests_cant": "definiteness and derivatives over all real states", "anchors": ["src/fluid/fluid_elem_base.cpp calculate_entropy_variable_jacobian"]}
{"id": "C104", "title": "Diffusion flux and its Jacobian", "statement": "The diffusion flux is the Navier-Stokes stress and heat flux, the tensors K_ij applied to conservative gradients give it, and the stress sensitivity is its derivative.", "quantifier": "all dimensions, states, gradients and directions", "why_tests_cant": "identities over all real states and gradients", "anchors": ["src/fluid/fluid_elem_base.cpp calculate_diffusion_flux", "src/fluid/fluid_elem_base.cpp calculate_diffusion_tensors", "src/fluid/fluid_elem_base.cpp calculate_diffusion_flux_jacobian"]}
{"id": "C105", "title": "Stabilisation matrix of the flow element", "statement": "The matrix inverted to get tau is a sum of absolute values of normal Jacobians, symmetric positive semidefinite in entropy variables, and nonsingular so that tau exists.", "quantifier": "all dimensions, states, shape function gradients", "why_tests_cant": "definiteness over all real states and gradient lists", "anchors": ["src/fluid/fluid_elem_base.cpp:1875-1948 calculate_barth_tau_matrix"]}
{"id": "C106", "title": "Heat conduction Jacobians", "statement": "The Jacobians of the heat conduction element (conduction, side and volume fluxes, convection, radiation, sources) are the derivatives of its residual with respect to the nodal temperatures, and the capacitance Jacobians those of the rate residual with respect to rates and temperatures. Assembly raises an error exactly when a load of the element has no heat residual.", "quantifier": "all elements, shape functions, temperature-dependent materials, boundary ids and load sets", "why_tests_cant": "derivative statements over all elements and temperatures", "anchors": ["src/heat_conduction/heat_conduction_elem_base.cpp internal_residual", "src/heat_conduction/heat_conduction_elem_base.cpp velocity_residual", "src/heat_conduction/heat_conduction_elem_base.cpp side_external_residual", "src/heat_conduction/heat_conduction_elem_base.cpp volume_external_residual"]}
{"id": "C107", "title": "Heat conduction balance laws", "statement": "Summed over the nodes the element residual is the net heat leaving the element, conduction produces no net heat and dissipates, a body at the ambient temperature without sources is in equilibrium, and the Jacobian and the capacitance matrix are positive semidefinite for physical data.", "quantifier": "all elements with a partition of unity, all materials and loads", "why_tests_cant": "inequalities and conservation over all elements and temperatures", "anchors": ["src/heat_conduction/heat_conduction_elem_base.cpp", "src/heat_conduction/heat_conduction_nonlinear_assembly.cpp"]}
{"id": "C108", "title": "Heat conduction parameter sensitivity", "statement": "The explicit sensitivity residual of the heat conduction element is the derivative of the residual with respect to the parameter at fixed temperatures, for every load and section property.", "quantifier": "all elements, loads and differentiable parameterisations", "why_tests_cant": "derivative statements over all parameterisations", "anchors": ["src/heat_conduction/heat_conduction_elem_base.cpp internal_residual_sensitivity", "src/heat_conduction/heat_conduction_elem_base.cpp *_sensitivity", "src/heat_conduction/heat_conduction_elem_base.cpp velocity_residual_sensitivity"]}
{"id": "C109", "title": "Heat conduction boundary velocity terms", "statement": "The boundary velocity terms of a moving boundary are linear in the normal velocity, insensitive to the tangential velocity, and equal the derivative of the integral of the residual density over the moving domain.", "quantifier": "all velocities, materials and volume loads", "why_tests_cant": "Leibniz rule over all densities and motions", "anchors": ["src/heat_conduction/heat_conduction_elem_base.cpp internal_residual_boundary_velocity", "src/heat_conduction/heat_conduction_nonlinear_assembly.cpp elem_topology_sensitivity_calculations"]}
{"id": "C110", "title": "Local frame of a geometric element", "statement": "The local coordinate frame built for line and surface elements is orthonormal and right handed, its first axis lies along the element (line) or in its plane (surface), local nodes reproduce all lengths and angles and lie on the local axis or plane, and a frame exists for every nondegenerate element.", "quantifier": "all element node positions and orientation vectors", "why_tests_cant": "metric identities over all positions", "anchors": ["src/mesh/geom_elem.cpp _init_local_elem", "src/mesh/geom_elem.cpp _init_local_elem_1d", "src/mesh/geom_elem.cpp _init_local_elem_2d"]}
{"id": "C111", "title": "Transformation of element quantities to the global frame", "statement": "Element vectors and matrices transformed between local and global frames node by node invert one another, preserve virtual work and quadratic forms, and the transformed Jacobian is the derivative of the transformed residual, including the linearised residual.", "quantifier": "all elements, node counts, frames and element vectors", "why_tests_cant": "linear algebra over all sizes and frames", "anchors": ["src/elasticity/structural_element_base.cpp transform_vector_to_global_system", "src/elasticity/structural_element_base.cpp transform_vector_to_local_system", "src/elasticity/structural_element_base.cpp transform_matrix_to_global_system", "src/elasticity/structural_element_base.cpp linearized_internal_residual"]}
{"id": "C112", "title": "Piston theory pressure", "statement": "The sensitivity of the piston theory pressure coefficient and of its derivatives with respect to the surface motion are the exact derivatives, the pressure vanishes without motion and is monotone in the downwash for first order, and only orders one to three are accepted.", "quantifier": "all orders, Mach numbers, gas constants, motions and parameterisations", "why_tests_cant": "derivative statements over all parameterisations", "anchors": ["src/elasticity/piston_theory_boundary_condition.cpp"]}
{"id": "C113", "title": "Loads of structural elements are applied once", "statement": "Each load attached to a side (through any boundary id of the side) or to the subdomain of a structural element contributes to the residual exactly once per attachment; unsupported loads raise an error; sensitivity, linearised, frequency domain and boundary velocity evaluations treat the same loads.", "quantifier": "all sides, boundary ids, multimaps of loads and routines", "why_tests_cant": "loops over arbitrary multimaps and enumerations", "anchors": ["src/elasticity/structural_element_base.cpp side_external_residual", "src/elasticity/structural_element_base.cpp volume_external_residual", "src/elasticity/structural_element_base.cpp *_sensitivity, linearized_*, *_boundary_velocity", "src/mesh/geom_elem.cpp external_side_loads_for_quadrature_elem"]}
{"id": "C114", "title": "Pressure and traction loads", "statement": "Pressure and traction loads do the virtual work of the corresponding force density in the element frame, have the right resultant, and their sensitivities, linearisations and boundary velocity terms are the derivatives of the load.", "quantifier": "all elements, shape functions, frames, fields and parameterisations", "why_tests_cant": "identities over all elements and displacements", "anchors": ["src/elasticity/structural_element_base.cpp surface_pressure_residual", "src/elasticity/structural_element_2d.cpp surface_pressure_residual, surface_traction_residual", "src/elasticity/structural_element_1d.cpp surface_pressure_residual", "src/elasticity/solid_element_3d.cpp surface_pressure_residual"]}
{"id": "C115", "title": "Inertia of structural elements", "statement": "The inertial residual works as the integral of the inertia matrix between accelerations and virtual motion; the mass matrix is its Jacobian, symmetric and positive semidefinite; a rigid translation feels the mass of the element; the sensitivity is the derivative with respect to the parameter; for line, surface and solid elements, consistent and lumped.", "quantifier": "all elements, inertia fields, frames and accelerations", "why_tests_cant": "identities and inequalities over all elements and fields", "anchors": ["src/elasticity/structural_element_base.cpp inertial_residual", "src/elasticity/structural_element_base.cpp inertial_residual_sensitivity", "src/elasticity/solid_element_3d.cpp inertial_residual"]}
{"id": "C116", "title": "Internal force of plates, shells and membranes", "statement": "The internal residual of a surface element is the gradient of its strain energy (Green-Lagrange in-plane strain, von Karman strain, curvature, transverse shear), its Jacobian is the derivative of the residual and symmetric, positive semidefinite for linear strain; rigid motions give no force; the sensitivity is the derivative with respect to the parameter.", "quantifier": "all elements, quadrature points, shape functions, section stiffnesses, frames, states and directions", "why_tests_cant": "identities over all states and elements", "anchors": ["src/elasticity/structural_element_2d.cpp internal_residual, _internal_residual_operation, internal_residual_sensitivity, initialize_green_lagrange_strain_operator, initialize_von_karman_strain_operator", "src/elasticity/mindlin_bending_operator.cpp"]}
{"id": "C117", "title": "Thermal load and prestress of surface elements", "statement": "The thermal and prestress residuals are the gradients of the work of the thermal and prestress resultants on the strains of the element; their Jacobians are the derivatives of the residuals; their sensitivities are the derivatives with respect to the parameter.", "quantifier": "all elements, temperatures, expansion and prestress matrices, frames, states", "why_tests_cant": "identities over all states and elements", "anchors": ["src/elasticity/structural_element_2d.cpp thermal_residual, thermal_residual_sensitivity, prestress_residual, prestress_residual_sensitivity"]}
{"id": "C118", "title": "Internal force of beams and trusses", "statement": "The internal residual of a line element is the gradient of its strain energy (stretch with von Karman terms, twist, bending in two planes, transverse shear in two planes), its Jacobian is the derivative of the residual and symmetric, positive semidefinite for linear strain; rigid motions give no force; the Bernoulli operator is exact for cubic deflections; the sensitivity is the derivative with respect to the parameter.", "quantifier": "all elements, quadrature points, shape functions, sections, frames, states and directions", "why_tests_cant": "identities over all states and elements", "anchors": ["src/elasticity/structural_element_1d.cpp internal_residual, _internal_residual_operation, internal_residual_sensitivity", "src/elasticity/bernoulli_bending_operator.h", "src/elasticity/timoshenko_bending_operator.cpp"]}
{"id": "C119", "title": "Derivative of the beam tangent along the solution sensitivity", "statement": "The matrix a line element reports for the state dependence of its tangent is the derivative of the tangent in the direction of the solution sensitivity (used in eigenvalue sensitivities about a deformed state).", "quantifier": "all elements, sections, states and directions", "why_tests_cant": "identity over all states and directions", "anchors": ["src/elasticity/structural_element_1d.cpp internal_residual_jac_dot_state_sensitivity", "src/elasticity/structural_modal_eigenproblem_assembly.cpp:149"]}
{"id": "C120", "title": "Thermal load and prestress of beams", "statement": "The thermal and prestress residuals of a line element are the gradients of the work of the thermal and prestress resultants on its stretch, twist and bending strains in two planes; their Jacobians are the derivatives of the residuals; their sensitivities are the derivatives with respect to the parameter.", "quantifier": "all elements, temperatures, expansion and prestress data, frames, states", "why_tests_cant": "identities over all states and elements", "anchors": ["src/elasticity/structural_element_1d.cpp thermal_residual, thermal_residual_sensitivity, prestress_residual, prestress_residual_sensitivity"]}
{"id": "C121", "title": "Internal force of solid elements", "statement": "The internal residual of a three-dimensional element is the gradient of its strain energy (Green-Lagrange or linear strain), its Jacobian is the derivative of the residual and symmetric, positive semidefinite for linear strain; superposing any finite rotation and translation changes neither strain nor energy, rigid motions give no force, the nodal forces are in equilibrium; the sensitivity is the derivative with respect to the parameter.", "quantifier": "all elements, quadrature points, shape functions, symmetric materials, states, rotations and directions", "why_tests_cant": "identities over all states, elements and rotations", "anchors": ["src/elasticity/solid_element_3d.cpp internal_residual, internal_residual_sensitivity, initialize_green_lagrange_strain_operator"]}
{"id": "C122", "title": "Stress recovery and thermal load of solid elements", "statement": "Stress and strain recovered at the quadrature points do on every motion the work of the internal forces; the thermal residual is the gradient of its potential with an exact Jacobian, and a body that expands freely carries no force.", "quantifier": "all elements, materials, temperatures, states and motions", "why_tests_cant": "identities over all states and elements", "anchors": ["src/elasticity/solid_element_3d.cpp calculate_stress, thermal_residual"]}
{"id": "C123", "title": "Incompatible strain modes of solid elements", "statement": "The mapping of the added strain modes transforms stress components between reference and global axes, is invertible with the element map, and the modes integrate to zero over every element (patch test).", "quantifier": "all element maps with nonzero determinant, all centred quadrature rules, all constant stresses", "why_tests_cant": "identities over all geometries", "anchors": ["src/elasticity/solid_element_3d.cpp _init_incompatible_fe_mapping, initialize_incompatible_strain_operator"]}
{"id": "C124", "title": "Stress recovery of shell elements", "statement": "At the top and bottom of the section the recorded strain is the nonlinear membrane strain plus curvature times height minus thermal expansion and the recorded stress the plane stress stiffness applied to it; weights add up to the element area; the recorded derivatives are the derivatives with respect to the global displacements, the recorded sensitivities the total derivatives with respect to a parameter, the temperature derivative the derivative with respect to nodal temperatures; free expansion records zero stress; the work of the recorded values is the strain energy.", "quantifier": "all elements, frames, bending operators linear in the offset, section data, thermal loads, states, directions, parameters", "why_tests_cant": "derivative and integral identities over all states and elements", "anchors": ["src/elasticity/structural_element_2d.cpp calculate_stress, calculate_stress_boundary_velocity, calculate_stress_temperature_derivative"]}
{"id": "C125", "title": "Stress recovery of beam elements", "statement": "At the four corners of the section the recorded strain is the axial strain plus the bending strains of the corner minus thermal expansion; recorded derivatives and sensitivities are the derivatives; the mean over the corners is the stress of the axis; the weights add up to the length of the element.", "quantifier": "all elements, frames, bending operators linear in the offsets, section data, thermal loads, states, directions, parameters", "why_tests_cant": "derivative identities over all states and elements", "anchors": ["src/elasticity/structural_element_1d.cpp calculate_stress"]}
{"id": "C126", "title": "Stress recovery of solid elements", "statement": "The recorded strain is the strain of the motion and the recorded stress the mechanical stress (stiffness applied to strain less thermal expansion); state derivatives and parameter sensitivities of the recorded values can be requested.", "quantifier": "all elements, materials, thermal loads, states", "why_tests_cant": "statements over all states and requests", "anchors": ["src/elasticity/solid_element_3d.cpp calculate_stress"]}
{"id": "C127", "title": "Discrete Kirchhoff triangle", "statement": "The bending strain of the triangle is z times the derivative of the quadratic field whose corner values are the nodal rotations and whose midside values satisfy the Kirchhoff condition along the edge and the linear condition across it; rigid motions give no bending strain and a quadratic deflection gives its exact constant curvature; in-plane displacements and the drilling rotation do not enter.", "quantifier": "all triangles in the x-y plane (either orientation), points, offsets, nodal unknowns", "why_tests_cant": "identities over all triangles and nodal values", "anchors": ["src/elasticity/dkt_bending_operator.h DKTBendingOperator"]}
{"id": "C128", "title": "Level set propagation and reinitialization element", "statement": "The residual is the weak form of phi_t - Vn |grad phi| = 0 (propagation) or of s (|grad phi| - 1) (reinitialization, s the smoothed sign of the reference) with a streamline-upwind test function and artificial diffusion; stabilization adds nothing to the total and only dissipates; constants do not matter, zero speed means rest; a signed distance function is stationary under reinitialization; the tangent is the derivative; the velocity residual is linear with the returned matrix.", "quantifier": "all elements, dimensions, level sets with nonzero gradient, normal velocities, reference level sets, test functions, directions", "why_tests_cant": "identities and inequalities over all elements and fields", "anchors": ["src/level_set/level_set_elem_base.cpp internal_residual, velocity_residual, _velocity_and_source, _tau, _dc_operator"]}
{"id": "C129", "title": "Volume and perimeter of the level set", "statement": "The volume lies between 0 and the element volume and grows with the level set; its sensitivity is the derivative of the area in which a linear level set is positive; the smoothed fraction lies in (0,1), is monotone, tends to the volume for zero width, and its sensitivity is its derivative; the smoothed perimeter is the rate of growth of the smoothed volume and its sensitivity is its derivative; element values add up to totals.", "quantifier": "all elements, quadrature rules, level sets, widths, paths of level sets", "why_tests_cant": "limits and derivatives over all level sets", "anchors": ["src/level_set/level_set_elem_base.cpp volume, homogenized_volume_fraction, perimeter, volume_boundary_velocity_on_side", "src/level_set/level_set_volume_output.cpp", "src/level_set/level_set_perimeter_output.cpp"]}
{"id": "C130", "title": "Velocity and normal of the level set boundary", "statement": "The boundary velocity is the smallest velocity that keeps a point on the moving level set; the normal has unit length and points out of the positive region; its derivative is the derivative of the normal.", "quantifier": "all gradients that are not zero, all rates of change, all paths of gradients", "why_tests_cant": "minimality and derivatives over all fields", "anchors": ["src/level_set/level_set_boundary_velocity.cpp velocity, normal_at_point, normal_derivative_at_point"]}
{"id": "C131", "title": "Homogenized density", "statement": "After initialization the density at a point is the volume fraction of the element containing it, between zero and one; its derivative with respect to a level set parameter is the derivative of that value.", "quantifier": "all meshes, level sets, widths, parameters, points of local elements", "why_tests_cant": "all meshes and level sets", "anchors": ["src/level_set/heaviside_elem_homogenization_function.cpp", "src/level_set/homogenized_density_function_base.cpp", "src/level_set/intersected_elem_homogenization_function.cpp"]}
{"id": "C132", "title": "Compliance output", "statement": "The compliance is the work of the element loads of the participating elements through the displacement; in equilibrium it equals the work of the internal forces and is nonnegative for a stable structure; its derivative vector is the gradient with respect to the displacement; its sensitivity is its derivative along any path of parameter and displacement; for a linear structure it equals 2 f'.u - u.K'u; topology sensitivities add the boundary term; a sensitivity analysis does not disturb the value.", "quantifier": "all meshes, distributions to processes, loads, displacements, parameter paths, previous states of the output", "why_tests_cant": "derivatives and work identities over all structures", "anchors": ["src/elasticity/compliance_output.cpp", "src/base/assembly_base.cpp calculate_output, calculate_output_derivative, calculate_output_direct_sensitivity"]}
{"id": "C133", "title": "Buckling eigenproblem", "statement": "The two matrices are the tangent stiffness at the first state and the (negative) stiffness change; an eigenvalue is translated to exactly the load at which the linearly interpolated stiffness is singular, in both forms; exact when the stiffness is affine in the load; the load parameter and the element operations are left as found; sensitivities are derivatives.", "quantifier": "all structures, load levels, states, eigenpairs, process distributions", "why_tests_cant": "equivalence for all eigenpairs and structures", "anchors": ["src/elasticity/structural_buckling_eigenproblem_assembly.cpp", "src/elasticity/structural_buckling_eigenproblem_elem_operations.cpp", "src/base/eigenproblem_assembly.cpp eigenproblem_sensitivity_assemble"]}
{"id": "C134", "title": "Reduced order matrices and generalized aerodynamic forces", "statement": "The reduced mass, damping and stiffness matrices are the congruence transformation of the structural matrices with the basis, for every distribution of elements; symmetry and semidefiniteness are inherited; sensitivities likewise; entry (r,i) of the generalized aerodynamic force matrix is the work of the force caused by mode i through mode r.", "quantifier": "all meshes, bases, base solutions, process distributions", "why_tests_cant": "linear algebra over all bases and meshes", "anchors": ["src/elasticity/structural_fluid_interaction_assembly.cpp", "src/elasticity/fluid_structure_assembly_elem_operations.cpp", "src/elasticity/fsi_generalized_aero_force_assembly.cpp"]}
{"id": "C135", "title": "Near-null space of structural systems", "statement": "The six vectors offered to the solver are rigid motions: unit translations and right-handed rotations about the axes with matching rotation components, linearly independent.", "quantifier": "all points, all six modes, all mode numbers", "why_tests_cant": "distance preservation for all pairs of points", "anchors": ["src/elasticity/structural_near_null_vector_space.cpp"]}
{"id": "C136", "title": "Stress data for plotting", "statement": "For every element the stored strain and stress components are, over the evaluation points of that element, the values of largest magnitude with their sign, and the von Mises stress the largest; elements left out of the evaluation store zero; for cut elements the extremes are over all sub-elements with material; the sensitivity data are the sensitivities of the stored quantities.", "quantifier": "all meshes, element data, numbers of points per element", "why_tests_cant": "maxima over arbitrary point sets and meshes", "anchors": ["src/elasticity/stress_assembly.cpp", "src/level_set/level_set_stress_assembly.cpp"]}
{"id": "C137", "title": "Life of the data of a stress output", "statement": "After clear, an evaluation followed by a request for the value gives the functional of exactly the points of the participating elements, however often it is requested and whatever happened before; evaluating again gives the functional of the new state; updating plot data does not change the value.", "quantifier": "all histories of clear, evaluate, value requests and plot updates", "why_tests_cant": "quantifies over histories of calls", "anchors": ["src/elasticity/stress_output_base.cpp evaluate, output_total, clear, functional_for_all_elems, add_stress_strain_at_qp_location", "src/elasticity/stress_assembly.cpp update_stress_strain_data"]}
{"id": "C138", "title": "Residual, Jacobian and sensitivity on a cut mesh", "statement": "On a mesh cut by a level set only elements with material contribute, each with the sum over its material sub-elements or, when it is condensed, with the condensed residual and the Schur complement of the scaled element; the Jacobian is the derivative of the residual up to the regularisation of dofs without material, those dofs are decoupled with a nonzero diagonal, and the sensitivity right hand side is the derivative of the residual, with every interface term counted once.", "quantifier": "all meshes, cuts, condensed dof sets, solutions, distributions to processes", "why_tests_cant": "quantifies over every cut and every condensation", "anchors": ["src/level_set/level_set_nonlinear_implicit_assembly.cpp residual_and_jacobian, sensitivity_assemble", "src/level_set/interface_dof_handler.cpp"]}
{"id": "C139", "title": "Outputs on a cut mesh", "statement": "An output on a cut mesh is the sum over the material sub-elements (and, on request, the void ones); the gradient assembled for the adjoint equation is the derivative of the output with the condensed dofs following in equilibrium, and the direct sensitivity is the total derivative.", "quantifier": "all meshes, cuts, condensed dof sets, motions, distributions", "why_tests_cant": "quantifies over all motions and condensations", "anchors": ["src/level_set/level_set_nonlinear_implicit_assembly.cpp calculate_output, calculate_output_derivative, calculate_output_direct_sensitivity"]}
{"id": "C140", "title": "Eigenproblem on a cut mesh", "statement": "Both matrices of an eigenproblem on a cut mesh are those of the material; the sensitivity of an eigenvalue is x^T(dA - lam dB)x / x^T B x, for one parameter after the other.", "quantifier": "all meshes, cuts, eigenpairs, sequences of parameters", "why_tests_cant": "quantifies over cuts, eigenpairs and histories", "anchors": ["src/level_set/level_set_eigenproblem_assembly.cpp", "src/base/nonlinear_system.cpp eigenproblem_sensitivity_solve"]}
{"id": "C141", "title": "Conservation by the flow element", "statement": "The interior residual of a flow element adds up to zero over its nodes in every equation, whatever the state, the stabilisation and the shock capturing; the transient term adds up to the rate of the stored quantity; and the Jacobian of the transient term with respect to the velocity is exact.", "quantifier": "all states, elements, quadrature rules, stabilisation matrices, dimensions 1-3", "why_tests_cant": "quantifies over every state and every stabilisation matrix", "anchors": ["src/fluid/conservative_fluid_element_base.cpp internal_residual, velocity_residual"]}
{"id": "C142", "title": "Tangent of the interior flow residual", "statement": "The Jacobian of the interior residual (also used for the linearized residual) is the derivative of the residual with respect to the solution.", "quantifier": "all states, disturbances, stabilisation matrices", "why_tests_cant": "derivative at every state along every direction", "anchors": ["src/fluid/conservative_fluid_element_base.cpp internal_residual, linearized_internal_residual", "src/fluid/fluid_elem_base.cpp calculate_differential_operator_matrix, calculate_barth_tau_matrix"]}
{"id": "C143", "title": "Far field boundary", "statement": "The far field flux is the Euler flux through the boundary when the state is the free stream, the interior flux at a supersonic outflow and A(U)U_inf at a supersonic inflow; the Jacobian is the derivative of the residual.", "quantifier": "all states, free streams, unit normals, dimensions 1-3", "why_tests_cant": "quantifies over all states and normals", "anchors": ["src/fluid/conservative_fluid_element_base.cpp far_field_surface_residual"]}
{"id": "C144", "title": "Free stream preservation", "statement": "A uniform flow equal to the free stream gives zero residual: interior and far field contributions cancel at every node and in every equation.", "quantifier": "all uniform states, meshes whose quadrature satisfies Gauss's theorem, stabilisation, viscous or not", "why_tests_cant": "quantifies over all free streams and elements", "anchors": ["src/fluid/conservative_fluid_element_base.cpp internal_residual, far_field_surface_residual"]}
{"id": "C145", "title": "Walls of the flow element", "statement": "A slip wall lets through mass, momentum and energy with its own normal velocity only; symmetry is a slip wall at rest; a no slip wall takes the traction and no mass or energy; Jacobians are exact and the linearized slip wall is the derivative with respect to solution and wall motion.", "quantifier": "all states, wall motions, normals, disturbances, dimensions 1-3", "why_tests_cant": "quantifies over all states and motions", "anchors": ["src/fluid/conservative_fluid_element_base.cpp slip_wall_surface_residual, linearized_slip_wall_surface_residual, symmetry_surface_residual, noslip_wall_surface_residual"]}
{"id": "C146", "title": "Integrated force on a boundary", "statement": "The integrated force is the integral of p n - tau n over the selected boundary in the chosen direction and equals the momentum the wall takes from the fluid; its derivative and sensitivity are exact.", "quantifier": "all states, boundaries, directions, numbers of sides per element", "why_tests_cant": "quantifies over all states and all sets of boundary sides", "anchors": ["src/fluid/conservative_fluid_element_base.cpp side_integrated_force, side_integrated_force_sensitivity", "src/fluid/integrated_force_output.cpp evaluate, evaluate_sensitivity, output_derivative_for_elem"]}
{"id": "C147", "title": "Sensitivity of the far field", "statement": "The sensitivity of the far field residual with respect to a flight parameter is the derivative of the residual with the solution held fixed.", "quantifier": "all flight conditions, parameters, states, dimensions 1-3", "why_tests_cant": "quantifies over parameters and dimensions", "anchors": ["src/fluid/conservative_fluid_element_base.cpp far_field_surface_residual_sensitivity"]}
{"id": "C148", "title": "Frequency domain flow residual", "statement": "With the complex amplitude of a harmonic motion as solution, the complex element residual is the amplitude of the linearized unsteady residual at that (reduced) frequency, and its sensitivity is the derivative with respect to the parameter.", "quantifier": "all amplitudes, frequencies, times, states, stabilisation matrices, reduced or dimensional frequencies", "why_tests_cant": "quantifies over all amplitudes, frequencies and phases", "anchors": ["src/fluid/frequency_domain_linearized_conservative_fluid_elem.cpp internal_residual, internal_residual_sensitivity, symmetry_surface_residual, far_field_surface_residual", "src/aeroelasticity/frequency_function.cpp"]}
{"id": "C149", "title": "Frequency domain slip wall", "statement": "The complex residual of a moving slip wall is the amplitude of the linearized wall condition for the harmonic motion of the wall; its Jacobian is exact and its sensitivity to the frequency is the derivative.", "quantifier": "all complex wall motions, solutions, frequencies, phases, steady wall motions", "why_tests_cant": "quantifies over all complex motions and phases", "anchors": ["src/fluid/frequency_domain_linearized_conservative_fluid_elem.cpp slip_wall_surface_residual, slip_wall_surface_residual_sensitivity"]}
{"id": "C150", "title": "Surface pressure from the flow", "statement": "The pressure perturbation handed to the structure is the derivative of the pressure (or pressure coefficient) along the perturbation of the flow, and in the frequency domain its complex amplitude.", "quantifier": "all states, perturbations, flight conditions, modes", "why_tests_cant": "quantifies over all states and perturbations", "anchors": ["src/fluid/pressure_function.cpp operator(), perturbation", "src/fluid/frequency_domain_pressure_function.cpp operator()"]}
{"id": "C151", "title": "Integrated pressure output", "statement": "The integrated pressure output is the norm of the load or its component in the unit direction, and its sensitivity and derivative are those of that value.", "quantifier": "all loads, directions, load derivatives", "why_tests_cant": "derivative for all loads, including zero", "anchors": ["src/fluid/surface_integrated_pressure_output.cpp value, sensitivity, derivative, set_output_mode"]}
{"id": "C152", "title": "Piston theory load on a shell", "statement": "The load a supersonic stream puts on a vibrating shell does the work of the piston theory pressure (slope along the stream, velocity of the surface) against the normal motion; its Jacobians with respect to displacement and velocity are exact, its sensitivities are the derivatives, and at first order it damps the motion for Mach numbers above the square root of two.", "quantifier": "all meshes of the element, shape functions, orders, displacements, velocities, stream directions and element orientations", "why_tests_cant": "quantifies over all states and orientations; tests use one direction", "anchors": ["src/elasticity/structural_element_2d.cpp StructuralElement2D::piston_theory_residual", "src/elasticity/structural_element_2d.cpp StructuralElement2D::piston_theory_residual_sensitivity"]}
{"id": "C153", "title": "Piston theory load on a beam", "statement": "The load a supersonic stream puts on a vibrating beam does the work of the piston theory pressure for the slope along the stream; its Jacobians are exact and its sensitivity is the derivative.", "quantifier": "all beams, shape functions, orders, displacements, velocities, stream directions, orientations", "why_tests_cant": "quantifies over all states and orientations", "anchors": ["src/elasticity/structural_element_1d.cpp StructuralElement1D::piston_theory_residual", "src/elasticity/structural_element_1d.cpp StructuralElement1D::piston_theory_residual_sensitivity"]}
{"id": "C154", "title": "Static, modal and transient structural equations agree", "statement": "The static, transient and modal operations on one structural element describe the same equations of motion: a steady transient state has the static residual, the transient Jacobian is the derivative of the transient residual for every time integrator weight, the static Jacobian is the derivative of the static residual, the modal matrices are the coefficients of harmonic perturbations about the static state, and the modal sensitivities are the derivatives of the modal matrices.", "quantifier": "all elements (any residual contributions with exact Jacobians), states, velocities, accelerations, integrator weights and parameters", "why_tests_cant": "must hold for every element, load and state; tests look at single examples of single analyses", "anchors": ["src/elasticity/structural_nonlinear_assembly.cpp StructuralNonlinearAssemblyElemOperations::elem_calculations", "src/elasticity/structural_transient_assembly.cpp StructuralTransientAssemblyElemOperations::elem_calculations", "src/elasticity/structural_modal_eigenproblem_assembly.cpp StructuralModalEigenproblemAssemblyElemOperations::elem_calculations", "src/heat_conduction/heat_conduction_transient_assembly.cpp HeatConductionTransientAssemblyElemOperations::elem_calculations"]}
{"id": "C155", "title": "All moving sides of an element count in a topology sensitivity", "statement": "The sensitivity of an element residual to motion of its boundary is the sum over all its moving sides.", "quantifier": "all elements and all sets of sides with a boundary velocity", "why_tests_cant": "corner elements with several moving sides occur for arbitrary meshes", "anchors": ["src/base/assembly_elem_operation.cpp get_elem_boundary_velocity_data", "src/elasticity/structural_nonlinear_assembly.cpp elem_topology_sensitivity_calculations"]}
{"id": "C156", "title": "Numerical check of an element Jacobian", "statement": "The built-in check of an element Jacobian accepts the analytical Jacobian exactly when every entry agrees with the finite difference of the residual within the stated tolerance, and it compares every entry of every column.", "quantifier": "all element residuals, Jacobians, solutions, step sizes and tolerances", "why_tests_cant": "quantifies over all residual functions", "anchors": ["src/base/nonlinear_implicit_assembly_elem_operations.cpp check_element_numerical_jacobian", "src/base/nonlinear_implicit_assembly_elem_operations.cpp compare_matrix"]}
{"id": "C157", "title": "Condensed void unknowns follow the Newton iteration", "statement": "During a nonlinear solve the unknowns condensed out of cut elements are advanced with the Newton step of the uncondensed equations, so that for linear elements they satisfy their equations after every iteration.", "quantifier": "all cut elements, factorizations, iteration histories and step lengths", "why_tests_cant": "quantifies over iteration histories and line search step lengths", "anchors": ["src/level_set/level_set_void_solution.cpp LevelSetVoidSolution::update_void_solution", "src/level_set/level_set_void_solution.cpp monitor"]}
{"id": "C158", "title": "Mesh coupling finds slaves and masters", "statement": "Coupling a slave boundary to a master boundary or subdomain records every node of the slave boundary exactly once, with exactly the master nodes near it (within the tolerance for a subdomain), and leaves earlier couplings untouched.", "quantifier": "all meshes, boundary ids, subdomains, tolerances and earlier couplings", "why_tests_cant": "quantifies over all meshes and numberings", "anchors": ["src/mesh/mesh_coupling_base.cpp add_master_and_slave_boundary_coupling", "src/mesh/mesh_coupling_base.cpp add_slave_boundary_and_master_subdomain_coupling"]}
{"id": "C159", "title": "Kinematic coupling rows in the degree of freedom map", "statement": "Adding the found couplings to the degree of freedom map constrains the translations (and optionally the rotations) of every slave, and nothing else, to the weighted motion of its masters; it is refused when a slave degree of freedom is already constrained; slaves follow a common translation of the masters.", "quantifier": "all couplings, node positions, existing constraints", "why_tests_cant": "quantifies over all sets of couplings and existing constraints", "anchors": ["src/elasticity/kinematic_coupling.cpp add_dof_constraints_to_dof_map", "src/elasticity/kinematic_coupling.cpp get_constraint_rows", "src/elasticity/kinematic_coupling.cpp add_master_and_slave"]}
{"id": "C160", "title": "Rotation of a surface normal", "statement": "The normal rotation functions return the first-order change of the unit surface normal caused by the displacement field of the structural mesh; their perturbation is the derivative, the frequency domain version returns the complex amplitude, and the change is orthogonal to the normal.", "quantifier": "all displacement gradients, normals and phases", "why_tests_cant": "quantifies over all displacement fields and orientations", "anchors": ["src/elasticity/normal_rotation_mesh_function.cpp operator()", "src/elasticity/complex_normal_rotation_mesh_function.cpp operator()", "src/base/complex_mesh_field_function.cpp operator()"]}
{"id": "C161", "title": "Prestress resultants of sections", "statement": "The prestress functions of plate and beam sections are the integrals of the prestress, in element axes, and of its moment over the section, their derivatives are the derivatives with respect to a parameter, and the section cards hand them out.", "quantifier": "all stresses, orientations, thicknesses, offsets and parameters", "why_tests_cant": "quantifies over all orientations and parameters", "anchors": ["src/property_cards/solid_2d_section_element_property_card.cpp PrestressAMatrix", "src/property_cards/solid_2d_section_element_property_card.cpp PrestressBMatrix", "src/property_cards/solid_1d_section_element_property_card.cpp PrestressAMatrix", "src/property_cards/solid_1d_section_element_property_card.cpp PrestressBMatrix"]}
{"id": "C162", "title": "Solid card of isotropic materials", "statement": "The solid card of isotropic materials hands out the matrices of the material with their derivatives, and the thermal stress matrix (stiffness times expansion) with its derivative.", "quantifier": "all materials and parameters", "why_tests_cant": "quantifies over all materials and parameters", "anchors": ["src/property_cards/isotropic_element_property_card_3D.cpp"]}
{"id": "C163", "title": "Derivative of the shell tangent along the solution sensitivity", "statement": "The matrix that the shell element reports as derivative of its tangent stiffness along the solution sensitivity (used by eigenvalue sensitivities about a nonlinear state) is the directional derivative of the reported tangent.", "quantifier": "all elements, frames, states and solution sensitivities", "why_tests_cant": "quantifies over all states and directions; a test only sees a few", "anchors": ["src/elasticity/structural_element_2d.cpp internal_residual_jac_dot_state_sensitivity"]}
{"id": "C164", "title": "Moving side of a shell element", "statement": "The boundary velocity contributions of a shell side (internal force, transverse shear, thermal force) are the rates of the element forces when the side moves, depend linearly on the normal velocity only, are consistent with their Jacobians and do not depend on the orientation of the element in space.", "quantifier": "all elements, sides, velocities, states and frames", "why_tests_cant": "quantifies over all velocity fields and frames", "anchors": ["src/elasticity/structural_element_2d.cpp internal_residual_boundary_velocity", "src/elasticity/structural_element_2d.cpp thermal_residual_boundary_velocity", "src/elasticity/mindlin_bending_operator.cpp calculate_transverse_shear_residual_boundary_velocity"]}
{"id": "C165", "title": "Field split complex solver", "statement": "The field split form of the complex equations has exactly the complex solution, with zero at the constrained degrees of freedom; the reported residual norm vanishes only at solutions; after the solve the solver object reports the solution.", "quantifier": "all meshes, constraint sets, element equations, base solutions and linear solvers", "why_tests_cant": "quantifies over every mesh, constraint set and equation", "anchors": ["src/base/complex_assembly_base.cpp residual_and_jacobian_field_split", "src/base/complex_assembly_base.cpp residual_l2_norm", "src/solver/complex_solver_base.cpp solve_pc_fieldsplit"]}
{"id": "C166", "title": "Block complex solver: stored solution and sensitivity", "statement": "The block solve stores the complex solution; a solve with a parameter stores the derivative of that solution with respect to the parameter and leaves the solution unchanged; releasing the assembly removes the stored vectors and no others.", "quantifier": "all meshes, element equations, parameters, names and linear solvers", "why_tests_cant": "quantifies over every equation and every differentiable path of solutions", "anchors": ["src/solver/complex_solver_base.cpp solve_block_matrix", "src/solver/complex_solver_base.cpp real_solution", "src/solver/complex_solver_base.cpp clear_assembly", "src/base/complex_assembly_base.cpp residual_and_jacobian_blocked"]}
{"id": "C167", "title": "Assembly of a time step", "statement": "The residual of a time step is the sum of the element forces at the state of the step, independent of the distribution of elements; the assembled matrix is its derivative for every change that respects the constraints, and equals the matrix-free product; the reinitialization assembly does the same with the reference solution.", "quantifier": "all meshes, distributions, constraint sets, histories, step sizes and the three integrators", "why_tests_cant": "quantifies over every mesh, history and direction", "anchors": ["src/base/transient_assembly.cpp residual_and_jacobian", "src/base/transient_assembly.cpp linearized_jacobian_solution_product", "src/level_set/level_set_reinitialization_transient_assembly.cpp", "src/solver/transient_solver_base.cpp build_local_quantities"]}
{"id": "C168", "title": "Sensitivity system of a time step", "statement": "The assembled sensitivity of a time step is the total derivative of the step equations with respect to the parameter through the element forces and the stored history, so that the linear system gives the derivative of the solution of the step.", "quantifier": "all meshes, parameters, histories and paths of solutions", "why_tests_cant": "quantifies over every differentiable path of time steps", "anchors": ["src/base/transient_assembly.cpp sensitivity_assemble", "src/solver/first_order_newmark_transient_solver.cpp elem_sensitivity_contribution_previous_timestep", "src/solver/second_order_newmark_transient_solver.cpp elem_sensitivity_contribution_previous_timestep"]}
{"id": "C169", "title": "Traction shifted from an immersed interface", "statement": "On a side standing for an immersed interface the two-dimensional element applies the traction given at the nearest interface point, plus the traction of its own stress on the side, minus the traction on the interface of the stress extrapolated to first order to the interface point; if that stress meets the traction condition the side imposes nothing more than its own stress, and if the side lies on the interface the ordinary traction load results.", "quantifier": "all elements, second derivatives, stiffnesses, interfaces, tractions and solutions", "why_tests_cant": "quantifies over every geometry of side and interface", "anchors": ["src/elasticity/structural_element_2d.cpp surface_traction_residual_shifted_boundary", "src/elasticity/structural_element_2d.cpp _compute_stress_gradient", "src/elasticity/structural_element_2d.cpp initialize_strain_operator_gradient", "src/elasticity/structural_element_2d.cpp _surface_normal_voigt_notation"]}
{"id": "C170", "title": "Jacobian and sensitivity of the shifted traction", "statement": "The Jacobian of the shifted traction is the derivative of its residual, and its sensitivity is the parameter derivative of the residual, including thickness, stiffness, motion of the interface point, normal and traction.", "quantifier": "all elements, interfaces, strains, parameters and paths of data", "why_tests_cant": "quantifies over every state and every differentiable path of data", "anchors": ["src/elasticity/structural_element_2d.cpp surface_traction_residual_shifted_boundary", "src/elasticity/structural_element_2d.cpp surface_traction_residual_shifted_boundary_sensitivity", "src/elasticity/structural_element_2d.cpp _compute_stress", "src/elasticity/structural_element_2d.cpp _compute_stress_gradient_sensitivity"]}
{"id": "C171", "title": "Crossovers of the U-g method", "statement": "After a scan over reduced frequencies the recorded crossovers are the changes of sign of the damping of each mode between neighbouring solutions; each encloses a reduced frequency of zero damping of a continuous damping curve and can be refined to any tolerance, and find_critical_root returns the root of smallest velocity.", "quantifier": "all tables of tracked roots, damping and velocity curves, tolerances and iteration limits", "why_tests_cant": "quantifies over every table of roots and every damping curve", "anchors": ["src/aeroelasticity/ug_flutter_solver.cpp _identify_crossover_points", "src/aeroelasticity/ug_flutter_solver.cpp find_critical_root", "src/aeroelasticity/ug_flutter_solver.cpp _bisection_search"]}
{"id": "C172", "title": "Scaling of the eigenvectors of the complex eigenproblem", "statement": "scale_eigenvectors_to_identity_innerproduct leaves eigenvectors of the same eigenvalues, gives the right ones unit length and makes the inner product of the left and right eigenvectors with B the identity (for distinct eigenvalues).", "quantifier": "all pencils, eigenvalues and eigenvectors of any size", "why_tests_cant": "quantifies over all complex matrices and eigenvectors", "anchors": ["src/numerics/lapack_zggev_base.h scale_eigenvectors_to_identity_innerproduct"]}
{"id": "C173", "title": "Boundary conditions and sensitivities of the flow element", "statement": "The element vectors and matrices of the flow analysis contain the interior terms once and every boundary condition of every side once, independently of their order; the Jacobian is the derivative of the side residual, the linearised product includes the motion of the walls, and the parameter sensitivity is the derivative of the residual.", "quantifier": "all elements, quadrature points, lists of boundary conditions, solutions, disturbances, gas and flight parameters", "why_tests_cant": "quantifies over all combinations of boundary conditions and all flow states", "anchors": ["src/fluid/conservative_fluid_transient_assembly.cpp elem_calculations", "src/fluid/conservative_fluid_element_base.cpp side_external_residual", "src/fluid/conservative_fluid_element_base.cpp side_external_residual_sensitivity"]}
{"id": "C174", "title": "Shock capturing of the flow element", "statement": "The artificial dissipation of the shock capturing operator is never negative, vanishes on solutions of the Euler equations and in uniform flow, dissipates energy of gradients, conserves mass, momentum and energy, leaves the Jacobian exact at uniform flow and is proportional to the dissipation scaling.", "quantifier": "all flow states of positive density and temperature, elements, quadrature points and scalings", "why_tests_cant": "quantifies over all flow states and elements", "anchors": ["src/fluid/fluid_elem_base.cpp calculate_aliabadi_discontinuity_operator", "src/fluid/fluid_elem_base.cpp calculate_dxidX"]}
{"id": "C175", "title": "Import of Nastran decks", "statement": "Reading a deck gives a mesh with exactly one node per grid and one element per supported element of the deck, each with the grids of its connectivity, one subdomain per property id and element type and one boundary id per single point constraint set; decks with unsupported elements are rejected and a second read replaces the first.", "quantifier": "all decks: grids, elements, property ids, constraint sets, and all sequences of reads", "why_tests_cant": "quantifies over all decks and sequences of reads", "anchors": ["src/mesh/nastran_io.cpp NastranIO::read", "src/mesh/nastran_io.h NastranIO", "src/mesh/pynastran_io.pyx"]}
{"id": "C176", "title": "Finite element data on cut elements", "statement": "On an element cut by a level set the quadrature data of every sub-element integrate over exactly that piece: weights add up to its volume and over all pieces to the volume of the element, points lie where the rule puts them on the piece, shape functions and gradients represent linear fields exactly, side normals are unit outward normals that close, and an element treated as one piece gives the data of an element that is not cut.", "quantifier": "all convex quadrilaterals, level sets, cuts, quadrature rules, functions and sides", "why_tests_cant": "The identities must hold for every geometry, cut and rule; tests sample a few rectangles.", "anchors": ["src/level_set/sub_cell_fe.cpp: init, init_for_side, get_qpoints, get_JxW", "src/mesh/fe_base.cpp: init, init_for_side, get_qrule, get_qpoints", "src/level_set/level_set_intersected_elem.cpp: init_fe, init_side_fe"]}
{"id": "C177", "title": "Coupled solve of several disciplines", "statement": "The coupled solve starts from the solutions of all systems, hands the nonlinear solver the residuals and block products of all disciplines at one admissible state, changes none of the vectors it is only given to read, and leaves every system with its own part of the result, current for later reads.", "quantifier": "all numbers of disciplines and processors, distributions of degrees of freedom, constraints, iterates and directions", "why_tests_cant": "quantifies over all distributions, constraint sets and vectors", "anchors": ["src/solver/multiphysics_nonlinear_solver.cpp MultiphysicsNonlinearSolverBase::solve", "src/solver/multiphysics_nonlinear_solver.cpp __mast_multiphysics_petsc_snes_residual, __mast_multiphysics_petsc_snes_jacobian, __mast_multiphysics_petsc_mat_mult"]}
{"id": "C178", "title": "Transient sensitivity histories", "statement": "When a parameter sensitivity is computed along with a transient analysis, after any number of steps every stored sensitivity vector (solution, velocity, acceleration, of the current and earlier steps) is the derivative with respect to the parameter of the corresponding vector of the analysis; the analysis is not disturbed, the clock advances once per step, and a new run can be started on the same solver.", "quantifier": "all integrators, initial states, step counts, step sizes and parameter-dependent problems", "why_tests_cant": "history property: must hold for every sequence of steps and every differentiable family of problems", "anchors": ["src/solver/transient_solver_base.cpp advance_time_step_with_sensitivity", "src/solver/transient_solver_base.cpp solve_highest_derivative_and_advance_time_step_with_sensitivity", "src/solver/transient_solver_base.cpp set_elem_operation_object", "src/solver/stabilized_first_order_transient_sensitivity_solver.cpp _compute_norm_amplification_factor"]}
{"id": "C179", "title": "Temperature gradient of a stress functional (thermo-elastic adjoint)", "statement": "The vector assembled over the heat conduction system with the stress-temperature adjoint output is the gradient of the stress functional with respect to the nodal temperatures, including the change of the structural solution caused by the thermal load, whatever part of the structure is heated or monitored.", "quantifier": "all meshes, element mixes, temperature fields, displacements, adjoint solutions, constraint sets and numbers of processes", "why_tests_cant": "a total derivative through an equilibrium solution, for every model, temperature path and partition", "anchors": ["src/elasticity/stress_temperature_adjoint.cpp output_derivative_for_elem", "src/elasticity/structural_element_2d.cpp thermal_residual_temperature_derivative", "src/elasticity/structural_element_2d.cpp calculate_stress_temperature_derivative", "src/base/assembly_base.cpp calculate_output_derivative"]}
{"id": "C180", "title": "Dirichlet conditions reach the system with their values", "statement": "After the Dirichlet conditions of a discipline are handed to the system and the system is initialised, every degree of freedom spoken about by a condition has exactly the prescribed value (by system or local variable order), all others are free; the same degrees of freedom are left out of the eigenproblem; clearing the conditions frees them again.", "quantifier": "all histories of registrations, queries and clearings, all meshes, variable lists and prescribed fields", "why_tests_cant": "depends on the history of registrations and queries and on every mesh and field", "anchors": ["src/boundary_condition/dirichlet_boundary_condition.cpp init", "src/base/physics_discipline_base.cpp init_system_dirichlet_bc", "src/base/physics_discipline_base.cpp clear_system_dirichlet_bc", "src/base/physics_discipline_base.cpp get_system_dirichlet_bc_dofs", "src/base/physics_discipline_base.cpp add_dirichlet_bc"]}
{"id": "C181", "title": "Change of the assembled tangent along a solution change", "statement": "The matrix assembled by second_derivative_dot_solution_assembly is the derivative of the assembled Jacobian in the direction of the given solution change, for every distribution of the elements over processes.", "quantifier": "all meshes, distributions, constraints, solutions and directions", "why_tests_cant": "ranges over all meshes, constraint sets and nonlinear element tangents", "anchors": ["src/base/nonlinear_implicit_assembly.cpp second_derivative_dot_solution_assembly", "src/elasticity/structural_nonlinear_assembly.cpp elem_second_derivative_dot_solution_assembly"]}
{"id": "C182", "title": "Finite element data of elements placed in space", "statement": "For every line or surface element placed anywhere in space, the finite element data give: quadrature points at the positions interpolated from the global nodes, weights that add to the element's length or area, derivatives of the shape functions along the local axes that reproduce the gradient of every linear field with no component out of the plane, and on the sides points on the edge, weights adding to its length and unit normals in the plane of the element pointing away from it.", "quantifier": "all node positions, orientations, quadrature rules and linear fields", "why_tests_cant": "ranges over all placements of an element in space and all rules", "anchors": ["src/mesh/fe_base.cpp init/init_for_side/get_xyz/get_dphi/get_normals_for_reference_coordinate", "src/mesh/geom_elem.cpp init_fe/init_side_fe/transform_point_to_global_coordinate/transform_vector_to_global_coordinate"]}
{"id": "C183", "title": "Sensitivity of the internal force with respect to any parameter of the program", "statement": "For every parameter of a program, whether the section and material cards use it directly, through other functions, or not at all, the internal force sensitivity of a shell or beam element is the derivative of its internal force with respect to that parameter; in particular a parameter for which the dependency query answers no has no influence on the force.", "quantifier": "all programs (sequences of constructions of parameters and functions), cards, parameters, elements and solutions", "why_tests_cant": "ranges over all dependency graphs and all parameters of a program", "anchors": ["src/base/function_base.h depends_on", "src/property_cards/solid_2d_section_element_property_card.cpp depends_on/stiffness_A_matrix/stiffness_B_matrix/stiffness_D_matrix", "src/property_cards/solid_1d_section_element_property_card.cpp depends_on", "src/elasticity/structural_element_2d.cpp internal_residual_sensitivity", "src/elasticity/structural_element_1d.cpp internal_residual_sensitivity"]}
{"id": "C184", "title": "Heat conduction elements from their property cards", "statement": "For a heat conduction element built from its cards (bar, plate or solid; isotropic or orthotropic conductivity; conductivity, heat capacity and section sizes that may depend on the temperature): it conducts section size times conductivity along each axis times temperature gradient and stores size times density times heat capacity times temperature rate, dissipates when conductivities and sizes are non-negative, its Jacobian is the derivative of its residual, and its sensitivities are the derivatives with respect to any parameter of the program, whichever function of the cards or loads depends on it.", "quantifier": "all card contents, dependency graphs, parameters, temperatures, meshes, quadrature rules and loads", "why_tests_cant": "ranges over all functions on the cards, all parameters and all solutions", "anchors": ["src/property_cards/solid_1d_section_element_property_card.cpp thermal_conductance_matrix/thermal_capacitance_matrix/section", "src/property_cards/solid_2d_section_element_property_card.cpp thermal_conductance_matrix/thermal_capacitance_matrix/section", "src/property_cards/isotropic_element_property_card_3D.cpp thermal_conductance_matrix/thermal_capacitance_matrix", "src/heat_conduction/heat_conduction_elem_base.cpp internal_residual/velocity_residual"]}
{"id": "C185", "title": "Sensitivity of a steady analysis is the derivative of its solution", "statement": "For a steady analysis of any mesh distributed over any number of processes, with point loads and prescribed unknowns, whose elements report consistent residuals, Jacobians and sensitivities: `sensitivity_solve` returns the derivative with respect to the parameter of the solution of the equations the elements assemble, also when elements that do not depend on the parameter are skipped, and the direct and adjoint calculations both return the derivative of any output along the solution. Steady heat conduction with temperature dependent conductivity, flux, convection, radiation and sources is such an analysis for every parameter of the program.", "quantifier": "all meshes, partitions, element types, dof numberings, loads, constraints, outputs, parameters and differentiable solution branches with regular Jacobian", "why_tests_cant": "ranges over all meshes, cards, loads and parameters; a finite difference check tests one of them approximately", "anchors": ["src/base/nonlinear_system.cpp sensitivity_solve/adjoint_solve", "src/base/nonlinear_implicit_assembly.cpp residual_and_jacobian/sensitivity_assemble", "src/base/assembly_base.cpp calculate_output_direct_sensitivity/calculate_output_adjoint_sensitivity", "src/heat_conduction/heat_conduction_nonlinear_assembly.cpp elem_calculations/elem_sensitivity_calculations"]}
{"id": "C186", "title": "Sensitivity of a steady structural analysis is the derivative of its solution", "statement": "For a steady analysis of a structure of shells and beams in arbitrary frames, linear or with large deflections, under point loads and with prescribed unknowns: residual, Jacobian and parameter sensitivity of every element together give the rate of its residual along every motion of its unknowns with the parameter, and `sensitivity_solve` returns the derivative of the displacements and rotations with respect to any parameter of the section and material cards.", "quantifier": "all meshes, partitions, frames, quadrature points, cards, function graphs, parameters, loads, constraints and differentiable solution branches with regular Jacobian", "why_tests_cant": "ranges over all structures, cards and parameters; a finite difference check tests one of them approximately", "anchors": ["src/base/nonlinear_system.cpp sensitivity_solve", "src/base/nonlinear_implicit_assembly.cpp residual_and_jacobian/sensitivity_assemble", "src/elasticity/structural_nonlinear_assembly.cpp elem_calculations/elem_sensitivity_calculations", "src/elasticity/structural_element_1d.cpp internal_residual/internal_residual_sensitivity", "src/elasticity/structural_element_2d.cpp internal_residual/internal_residual_sensitivity"]}
{"id": "C187", "title": "Sensitivity of a natural frequency is its derivative", "statement": "For a modal analysis of a structure of beams and shells in arbitrary frames, with consistent or lumped mass, held unknowns and the elements distributed over any number of processes, `eigenproblem_sensitivity_solve` returns, from any multiple of the eigenvector and with `A` and `B` exchanged or not, the derivative of the eigenvalue along a mode that follows the parameter, for any parameter of the section and material cards.", "quantifier": "all meshes, partitions, frames, quadrature points, cards, function graphs, parameters, supports and differentiable modes of positive modal mass", "why_tests_cant": "ranges over all structures, cards, parameters and modes; a finite difference check tests one of them approximately", "anchors": ["src/base/nonlinear_system.cpp eigenproblem_sensitivity_solve", "src/base/eigenproblem_assembly.cpp eigenproblem_assemble/eigenproblem_sensitivity_assemble", "src/elasticity/structural_modal_eigenproblem_assembly.cpp elem_calculations/elem_sensitivity_calculations", "src/elasticity/structural_element_base.cpp inertial_residual/inertial_residual_sensitivity", "src/property_cards/solid_1d_section_element_property_card.cpp InertiaMatrix", "src/property_cards/solid_2d_section_element_property_card.cpp InertiaMatrix"]}
{"id": "C188", "title": "Sensitivity of a steady analysis with loads on elements", "statement": "For a steady analysis of beams and shells that carry pressure on their domain, pressure or traction on their sides and temperature loads besides point loads, `sensitivity_solve` returns the derivative of the displacements with respect to any parameter of sections, materials or loads; a load of a type the element does not support stops residual, Jacobian and sensitivity alike.", "quantifier": "all meshes, partitions, frames, quadrature points, cards, function graphs, parameters, supports, lists of loads by boundary and subdomain id, and differentiable solution branches", "why_tests_cant": "ranges over all structures, loads, parameters and solutions; a finite difference check tests one of them approximately", "anchors": ["src/elasticity/structural_nonlinear_assembly.cpp elem_calculations/elem_sensitivity_calculations", "src/elasticity/structural_element_base.cpp side_external_residual/volume_external_residual(_sensitivity)", "src/elasticity/structural_element_2d.cpp thermal_residual/surface_traction_residual", "src/elasticity/structural_element_1d.cpp thermal_residual"]}
{"id": "C189", "title": "Natural frequencies of a loaded structure and their sensitivity", "statement": "For a modal analysis about a base solution (`set_base_solution`), with the result of `sensitivity_solve` given as sensitivity of the base solution, `eigenproblem_sensitivity_solve` returns the derivative of the eigenvalue along the loaded states of the structure with respect to any parameter of sections, materials or loads.", "quantifier": "all meshes, partitions, frames, quadrature points, cards, function graphs, parameters, supports, point loads, differentiable branches of base solutions and modes, multiples of the eigenvector, exchanged matrices or not", "why_tests_cant": "ranges over all structures, loads, base solutions, parameters and modes; a finite difference check tests one of them approximately", "anchors": ["src/elasticity/structural_modal_eigenproblem_assembly.cpp elem_calculations/elem_sensitivity_calculations", "src/base/eigenproblem_assembly.cpp set_base_solution/eigenproblem_assemble/eigenproblem_sensitivity_assemble", "src/elasticity/structural_element_1d.cpp internal_residual_jac_dot_state_sensitivity", "src/elasticity/structural_element_2d.cpp internal_residual_jac_dot_state_sensitivity", "src/base/nonlinear_system.cpp eigenproblem_sensitivity_solve"]}
{"id": "C190", "title": "Natural frequencies of heated and otherwise loaded structures and their sensitivity", "statement": "In a modal analysis of a structure with pressure, traction or temperature on its elements, with or without a base solution, `eigenproblem_sensitivity_solve` returns the derivative of the eigenvalue with respect to any parameter of sections, materials, temperatures or loads; with the base solution and its sensitivity taken from the steady analysis under the same loads.", "quantifier": "all meshes, partitions, frames, quadrature points, cards, function graphs, expansion and temperature fields, parameters, supports, point loads, differentiable branches of base solutions and modes", "why_tests_cant": "ranges over all structures, temperature fields, base solutions, parameters and modes; a finite difference check tests one of them approximately", "anchors": ["src/elasticity/structural_modal_eigenproblem_assembly.cpp elem_calculations/elem_sensitivity_calculations", "src/elasticity/structural_element_1d.cpp thermal_residual/thermal_residual_sensitivity", "src/elasticity/structural_element_2d.cpp thermal_residual/thermal_residual_sensitivity", "src/elasticity/structural_element_base.cpp side_external_residual/volume_external_residual/side_external_residual_sensitivity/volume_external_residual_sensitivity", "src/base/nonlinear_system.cpp eigenproblem_sensitivity_solve"]}
{"id": "C191", "title": "Interface point next to a cut element", "statement": "For a point on a side shared with an element cut by the level set, `search_nearest_interface_point` returns the point of the interface nearest to it, at the given time, and `search_nearest_interface_point_derivative` the rate of that point with respect to a parameter.", "quantifier": "all quads, level sets, points, times, orders of the nodes in memory and parameters", "why_tests_cant": "quantifies over all level sets, quads and points", "anchors": ["src/level_set/level_set_intersection.cpp get_nearest_intersection_point", "src/level_set/level_set_boundary_velocity.cpp search_nearest_interface_point/search_nearest_interface_point_derivative"]}
{"id": "C192", "title": "Compliance of a steady structure", "statement": "For a steady structure of beams and shells with pressure, traction, temperature and point loads, the compliance output is the work of the element loads through the displacement, and `calculate_output_direct_sensitivity` with the result of `sensitivity_solve`, as well as `calculate_output_adjoint_sensitivity`, give its derivative with respect to any parameter of section, material or load, whatever the distribution of elements and the choice of included elements.", "quantifier": "all structures, loads, parameters, distributions over processes, included elements and histories of the output object", "why_tests_cant": "quantifies over all structures, loads and parameters along solution branches", "anchors": ["src/elasticity/compliance_output.cpp evaluate/evaluate_sensitivity/output_derivative_for_elem", "src/base/assembly_base.cpp calculate_output/calculate_output_direct_sensitivity/calculate_output_adjoint_sensitivity", "src/elasticity/structural_nonlinear_assembly.cpp elem_calculations/elem_sensitivity_calculations"]}
{"id": "C193", "title": "Sensitivity of an aggregated stress of a steady structure", "statement": "For a steady structure of beams and shells with pressure, traction, temperature and point loads, the KS, smooth ramp and p-norm stress outputs aggregate the recovered stresses of the included elements, and `calculate_output_direct_sensitivity` with the result of `sensitivity_solve` gives their derivative with respect to any parameter of section, material, load or temperature.", "quantifier": "all structures, loads, parameters, distributions over processes, included elements and aggregation parameters", "why_tests_cant": "quantifies over all structures, loads and parameters along solution branches", "anchors": ["src/elasticity/stress_output_base.cpp evaluate/evaluate_sensitivity/output_sensitivity_total", "src/elasticity/ks_stress_output.cpp", "src/elasticity/smooth_ramp_stress_output.cpp", "src/elasticity/structural_element_1d.cpp calculate_stress", "src/elasticity/structural_element_2d.cpp calculate_stress", "src/base/assembly_base.cpp calculate_output_direct_sensitivity"]}
{"id": "C194", "title": "Adjoint sensitivity of an aggregated stress of a steady structure", "statement": "For the structures of C193, `calculate_output_derivative` of the KS, smooth ramp and p-norm stress outputs as right hand side of `adjoint_solve`, and `calculate_output_adjoint_sensitivity` with the resulting adjoint, give the derivative of the aggregated stress with respect to any parameter, the same as the direct method.", "quantifier": "all structures, loads, parameters, distributions over processes, included elements and aggregation parameters", "why_tests_cant": "quantifies over all structures, loads and parameters along solution branches", "anchors": ["src/base/assembly_base.cpp calculate_output_derivative/calculate_output_adjoint_sensitivity", "src/elasticity/stress_output_base.cpp output_derivative_for_elem/zero_for_sensitivity", "src/elasticity/ks_stress_output.cpp", "src/elasticity/smooth_ramp_stress_output.cpp", "src/base/nonlinear_system.cpp adjoint_solve"]}
{"id": "C195", "title": "Sensitivity of a steady analysis with solid elements", "statement": "For a steady structure of solids, shells and beams with pressure, point and other element loads, `sensitivity_solve` returns the derivative of the solution with respect to any parameter of material or load; rotations at nodes of solids, which carry no stiffness, get the value zero.", "quantifier": "all structures, strain types (linear or Green-Lagrange), materials, loads, parameters and distributions over processes", "why_tests_cant": "quantifies over all structures and parameters along solution branches", "anchors": ["src/elasticity/solid_element_3d.cpp internal_residual/internal_residual_sensitivity/surface_pressure_residual/thermal_residual_sensitivity", "src/property_cards/isotropic_element_property_card_3D.cpp", "src/elasticity/structural_nonlinear_assembly.cpp", "src/base/nonlinear_system.cpp sensitivity_solve"]}
{"id": "C196", "title": "Vectors stored in files", "statement": "A vector written with `write_out_vector` is what `read_in_vector` returns for the same directory, name and format, whatever has been written under other names, directories or formats since, in whatever order the processes get to run, and also in a later run with another partition of the mesh; the steps of a transient analysis stored under a common root are all there; reading what was never written is an error; an interrupted write leaves the earlier vector of that name readable.", "quantifier": "all vectors, names, directories, formats, histories of writes, numbers of processes, orders of execution, partitions and moments of a crash", "why_tests_cant": "quantifies over all histories, schedules of processes and crash points", "anchors": ["src/base/nonlinear_system.cpp write_out_vector/read_in_vector", "src/solver/stabilized_first_order_transient_sensitivity_solver.cpp sensitivity_solve/evaluate_q_sens_for_previous_interval"]}
{"id": "C197", "title": "Sensitivity of a transient analysis", "statement": "In a transient analysis of a first order system, in particular heat conduction, on any mesh, the sensitivities obtained step by step from the linear system of `sensitivity_assemble` are the derivatives of the solutions with respect to the parameter, and every stored sensitivity vector is the derivative of the corresponding vector of the analysis, after any number of steps of any sizes.", "quantifier": "all meshes, distributions of elements, cards, loads, parameters, histories, step sizes and numbers of steps", "why_tests_cant": "quantifies over all meshes, parameters and histories of steps; derivatives are limits", "anchors": ["src/base/transient_assembly.cpp residual_and_jacobian/sensitivity_assemble", "src/heat_conduction/heat_conduction_transient_assembly.cpp elem_calculations/elem_sensitivity_calculations", "src/heat_conduction/heat_conduction_elem_base.cpp velocity_residual/velocity_residual_sensitivity", "src/solver/first_order_newmark_transient_solver.cpp elem_sensitivity_contribution_previous_timestep"]}
{"id": "C198", "title": "Checking the coupling products", "statement": "When the coupling products of a multiphysics problem are checked by `verify_gateaux_derivatives`, the solution is the same after the check as before, and what is printed are exactly the entries in which a product differs from the derivative of the coupled residual, for every pair of different disciplines and every degree of freedom.", "quantifier": "all numbers of disciplines and degrees of freedom, residuals, products, constraints and states", "why_tests_cant": "quantifies over all couplings and states; whether something is printed for a correct product depends on how the residual depends on the other disciplines", "anchors": ["src/solver/multiphysics_nonlinear_solver.cpp:749-880 verify_gateaux_derivatives", "src/solver/multiphysics_nonlinear_solver.cpp:45-281 mat_mult and residual"]}
{"id": "C199", "title": "Frequency domain flow elements as a whole", "statement": "For a flow element with its boundary conditions, the complex residual is the amplitude of the linearized unsteady residual for a harmonic motion of the flow and the walls, the complex Jacobian is its exact derivative, the sensitivity is the derivative with respect to the parameter, and every condition that the unsteady element accepts is accepted in the frequency domain.", "quantifier": "all elements, lists of boundary conditions in any order, steady flows, complex amplitudes, frequencies and times", "why_tests_cant": "quantifies over all combinations of conditions and complex amplitudes; single runs cannot separate the amplitude from the phase", "anchors": ["src/fluid/frequency_domain_linearized_conservative_fluid_elem.cpp:225-467 side_external_residual and its sensitivity", "src/fluid/frequency_domain_linearized_complex_assembly.cpp:69-107 elem_calculations, elem_sensitivity_calculations", "src/base/complex_assembly_base.cpp:540-547"]}
{"id": "C200", "title": "Frequency domain analysis of a flow as a whole", "statement": "Solving the frequency domain problem of a mesh of flow elements stores the amplitude of a harmonic solution of the linearized unsteady flow with its moving walls, and the sensitivity solve stores the derivative of that amplitude with respect to the parameter that the frequency depends on, without changing the amplitude.", "quantifier": "all meshes, numberings, boundary conditions, steady flows, frequencies, times and linear solvers that solve", "why_tests_cant": "quantifies over all meshes, amplitudes and times of the motion; a run yields one amplitude and does not compare it with an unsteady solution", "anchors": ["src/base/complex_assembly_base.cpp:409-606 residual_and_jacobian_blocked", "src/solver/complex_solver_base.cpp:333-507 solve_block_matrix", "src/fluid/frequency_domain_linearized_complex_assembly.cpp:69-107 elem_calculations, elem_sensitivity_calculations", "src/fluid/frequency_domain_linearized_conservative_fluid_elem.cpp:225-467"]}
{"id": "C201", "title": "Variables of a discipline and the initial solution", "statement": "Setting up a discipline on a system gives it variables of its own whose numbers are those the element routines use, repeating the set up changes nothing, and the initial solution gives every degree of freedom of a variable the value given for that variable.", "quantifier": "all disciplines, prefixes, systems that already have variables, types of shape functions, initial values and points", "why_tests_cant": "quantifies over all contents of the system and all prefixes; a test sets up one system", "anchors": ["src/base/system_initialization.cpp:65-153 initialize_solution", "src/elasticity/structural_system_initialization.cpp:30-55", "src/fluid/conservative_fluid_system_initialization.cpp:26-55", "src/heat_conduction/heat_conduction_system_initialization.cpp:25-37", "src/level_set/level_set_system_initialization.cpp:25-37"]}
{"id": "C202", "title": "Steady states are kept by time marching", "statement": "A state in which the forces balance is kept when the analysis is marched in time from rest: the initial velocity or acceleration that the solver computes is zero, and every step of every solver, with every step size, ends in the same state, at the time the steps add up to; in particular a solution of the steady flow equations is a fixed point of the transient flow analysis.", "quantifier": "all solvers and coefficients, all step sizes, any number of steps, all elements, constraints and distributions; all flow elements with known boundary conditions", "why_tests_cant": "holds for every number and size of steps; a test marches a few steps of one problem", "anchors": ["src/solver/transient_solver_base.cpp:316-324, 343-423, 514-592, 738-766", "src/base/transient_assembly.cpp:62-176 residual_and_jacobian", "src/fluid/conservative_fluid_transient_assembly.cpp:45-71 elem_calculations", "src/solver/generalized_alpha_transient_solver.cpp:65-105 set_element_data"]}
