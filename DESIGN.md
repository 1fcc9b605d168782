# Formal model of MAST (mast-multiphysics) in Lean 4 — design

## 1. Approach

MAST is a C++ library for multi-disciplinary FE analysis and sensitivity analysis. Its truth lives in three
kinds of code, and each gets its own modelling style:

* **Index/loop code** (operators, complex/real packing, laminate sums, dof partitions, time-history
  tables, block vectors).  Modelled loop by loop with the combinators of `Verif/Model/Exec.lean`
  (`Exec` = a value, or one of `ub` (out-of-bounds / uninitialised access), `assertFail`
  (`libmesh_assert*` including `libmesh_assert_msg`, active in debug builds only) and `error`
  (`libmesh_error*`, exceptions)).  Properties are refinements to dense sums `∑`.
* **Stateful API code** (registries, lifecycle flags, caches, continuation step control, file
  output/input, GCMMA driver).  Modelled as `State → Op → Exec State`; properties are invariants
  by induction over arbitrary histories, or refinements to an abstract map/log.
* **Numerical formulas** (material matrices, section properties, stress measures, time integrators,
  continuation constraints, filters, cut-cell geometry).  Modelled as functions over `ℝ` (or an arbitrary
  field), transcribing the C++ expression term by term.  Properties are identities, inequalities
  and `HasDerivAt` statements.

Every model definition carries a comment citing file and lines in `/repo`.  Simplifications are named
there.  Property theorems are in `Verif/Props/*.lean` (one file per model file); the models in `Verif/Model/*.lean`
contain no theorems about properties; small specifications that are not part of the program are in the `Spec`
sections at the head of the `Props` files (namespace `…Spec`).

When the code violates a property, the negation is proved with a concrete witness
(theorem name ends in `_fails` / `_violated`) and the part that does hold is proved as `…_partial`.

## 2. Trusted base

* Lean 4.33.0 kernel. No axioms are added; every theorem depends at most on `propext`,
  `Classical.choice`, `Quot.sound` (the standard three; real numbers in Mathlib need them).
* Mathlib definitions used in statements: `ℝ`, `ℂ`, `Matrix`, `Finset.sum`, `HasDerivAt`, `Real.exp/log/sqrt/rpow`.
* The transcription of C++ into the model definitions: made by reading; the cited lines are the link.
* **Floating point is idealised as exact real (or field) arithmetic.** Nothing is claimed about rounding,
  overflow, NaN. `x/0` in the model is Lean's total `0`; every theorem whose code divides has an
  explicit nonzero hypothesis, or says what happens.
* `unsigned int` counters are `ℕ` (no wrap-around); sizes are assumed to fit.
* External libraries (libMesh, PETSc, SLEPc, LAPACK, NLopt, GCMMA Fortran, …) are parameters of the model with
  their contract stated as a hypothesis (for example: "the linear solver returns x with A x = b").
* Parallelism: MPI reductions are modelled as the exact sum over ranks; thread interleavings are not modelled
  (MAST itself starts no threads).

## 3. What is modelled / not modelled

Modelled: the functions listed under each property below (the citation in each Lean definition is authoritative).
Not modelled: libMesh mesh/FE internals (shape functions and quadrature points enter as data), the body of the generated
`mesh/pynastran_io.cpp` (the import of decks is modelled, C175), plotting, the example programs, routines that no path of the
library calls (Hartmann operator, update of incompatible modes through the solver monitor), and thin wrappers without a branch
(root crossover classes, factories of bending operators, LAPACK interface headers). Files of vectors (C196) assume that
`libMesh::Xdr` truncates on opening and stores numbers exactly; `add_variable` and `project_solution` (C201) are contracts.

## 4. Properties and plan

| id | property | modelled in | proof plan |
|---|---|---|---|
| C01 | FEM operator: products with vectors equal the dense matrix product | `Model/FemOperator` | loops over Exec; refinement to ∑ of the dense meaning |
| C02 | FEM operator: matrix products equal the dense matrix product | `Model/FemOperator` | same, four matrix products |
| C03 | FEM operator: operator-operator product equals dense product | `Model/FemOperator` | same, operator–operator product; needs well-formedness invariant (shape sizes = n_dofs) |
| C04 | FEM operator: reinit discards history, last set wins, n() consistent | `Model/FemOperator` | abs : State → dense matrix, step lemmas + induction over op lists |
| C05 | Complex/real embedding of vectors round-trips | `Model/ComplexReal` | round trip by loop lemma |
| C06 | Complex/real embedding of matrices round-trips and preserves matrix-vector products | `Model/ComplexReal` | round trip + mat-vec homomorphism by splitting sums over 2n |
| C07 | Dense matrix parallel sum packs and unpacks column-major without loss | `Model/ComplexReal` | pack/unpack bijection m*j+i; sum over rank list |
| C08 | Basis matrix products are modal expansion and its adjoint | `Model/BasisMatrix` | sum exchange |
| C09 | LAPACK eigenvector unpacking yields conjugate pairs | `Model/LapackDecode` | well-founded loop over n_located; spec: inductive pair pattern; OOB outcome for malformed pattern |
| C10 | Left eigenvector scaling gives unit inner products | `Model/LapackDecode` | algebra over ℂ |
| C11 | depends_on is exact reachability | `Model/FunctionGraph` | graph as finite tree/DAG with rank; reachability via transitive closure |
| C12 | Function sets behave as insert-only maps | `Model/FunctionGraph` | refinement to first-wins map, induction over adds |
| C13 | Copies of function objects are as good as originals | `Model/FunctionGraph` | violated: negation witnesses; partial for Parameter-free copies |
| C14 | Constant field function: value and derivative | `Model/FunctionGraph` | derivative of value map |
| C15 | Load registry is a multiset keyed by boundary / subdomain | `Model/Discipline` | refinement of multimap to Multiset/list per key |
| C16 | Dirichlet conditions and subdomain property cards are write-once maps | `Model/Discipline` | invariant over histories |
| C17 | Condensed dofs are exactly local dofs that are neither Dirichlet nor constrained | `Model/Discipline` | set algebra, partition of ranks |
| C18 | Eigenpairs scattered from the condensed problem satisfy boundary values and normalisation | `Model/Eigen` | scatter + normalisation algebra |
| C19 | Eigenvalue sensitivity equals the derivative of the eigenvalue | `Model/Eigen` | HasDerivAt of A(p)x(p)=λ(p)B(p)x(p); HEP branch violated |
| C20 | Adjoint and direct sensitivities agree | `Model/Sensitivity` | matrix algebra; adjoint_solve uses its own linearisation point – counterexample otherwise |
| C21 | Nonlinear system operation state returns to NONE | `Model/Lifecycle` | state machine invariants |
| C22 | Assembled residual and Jacobian are the sum of element contributions, independent of order | `Model/Assembly` | sum over list, permutation invariance, partition |
| C23 | Outputs are evaluated on exactly the participating elements | `Model/Lifecycle` | history → predicate |
| C24 | Assembly object lifecycle | `Model/Lifecycle` | state machine |
| C25 | Mesh field function derivative queries return derivatives | `Model/Lifecycle` | violated: witness + partial |
| C26 | First-order Newmark: velocity update satisfies the integration rule | `Model/Transient` | field algebra |
| C27 | First-order Newmark is A-stable for beta >= 1/2 | `Model/Transient` | inequality over steps, induction |
| C28 | Second-order Newmark: kinematic relations | `Model/Transient` | field algebra + induction for constant acceleration |
| C29 | Second-order Newmark average acceleration conserves energy | `Model/Transient` | bilinear-form algebra + induction |
| C30 | Transient element Jacobians are total derivatives | `Model/Transient` | HasDerivAt for nonlinear scalar residuals / linear maps for systems |
| C31 | Generalized-alpha parameter choice | `Model/Transient` | real inequalities |
| C32 | Generalized-alpha linearised products are consistent with the Jacobian | `Model/Transient` | violated: witness + partial (α=…) |
| C33 | Time history shifting keeps the most recent states in order | `Model/Transient` | induction over steps |
| C34 | Continuation: failed steps leave no trace and step size stays in bounds | `Model/Continuation` | loop with oracle for corrector outcomes |
| C35 | Continuation: a converged step is accepted | `Model/Continuation` | violated at iter==max_it: witness + partial |
| C36 | Continuation: Schur factorisation equals the bordered solve | `Model/Continuation` | matrix algebra |
| C37 | Pseudo-arclength: unit tangent and consistent constraint | `Model/Continuation` | algebra + HasDerivAt |
| C38 | Complex solver interleaving round-trips | `Model/ComplexReal` | interleave bijection |
| C39 | Multiphysics: block operator acts as the full coupled Jacobian | `Model/Coupled` | block sums |
| C40 | Stabilised sensitivity solver: averaging and time-slab bookkeeping | `Model/Coupled` | induction; violations: witness |
| C41 | Design variable history file round-trips | `Model/Optim` | token-stream model of the file, round trip by induction |
| C42 | Gradient verification is sound and exact for quadratics | `Model/Optim` | algebra on quadratics |
| C43 | Constraint statistics are correct | `Model/Optim` | fold spec |
| C44 | GCMMA stops only when converged or iteration limit hit | `Model/Optim` | driver state machine with objective oracle; violation: witness |
| C45 | NLopt callbacks deliver constraint values and gradients | `Model/Optim` | violated: result never written; gradient layout proved |
| C46 | NPSOL / DOT driver exit codes and loops | `Model/Optim` | layout proofs |
| C47 | Stress rotation matrix agrees with tensor rotation | `Model/Coordinates` | polynomial identities |
| C48 | Polar coordinate frame is orthonormal and right handed | `Model/Coordinates` | orthonormality |
| C49 | Kinematic coupling weights form a partition of unity | `Model/KinematicCoupling` | sum of weights |
| C50 | Kinematic coupling reproduces rigid rotations | `Model/KinematicCoupling` | violated: witness; partial for translations / rotation axis |
| C51 | von Mises stress is the standard invariant | `Model/Stress` | identities |
| C52 | von Mises sensitivities are derivatives | `Model/Stress` | HasDerivAt |
| C53 | p-norm stress functional: value bounds and sensitivities | `Model/Stress` | rpow inequalities over finite sums; HasDerivAt |
| C54 | KS aggregate: bounds and derivative | `Model/Stress` | exp/log inequalities; HasDerivAt |
| C55 | Smooth-ramp aggregate: sign and derivative | `Model/Stress` | rpow monotonicity; HasDerivAt |
| C56 | Isotropic material stiffness: inverse of compliance, positive definite, symmetric | `Model/Material` | field_simp identities, quadratic form positivity |
| C57 | Isotropic material sensitivities are derivatives | `Model/Material` | HasDerivAt; transverse shear derivative violated |
| C58 | Material matrices reflect the request | `Model/Material` | cache state machine; violated + partial |
| C59 | Orthotropic stiffness is symmetric inverse of compliance | `Model/Material` | field_simp identities |
| C60 | Orthotropic sensitivities are derivatives | `Model/Material` | HasDerivAt for 3D, 1D, transverse; 2D violated (uninitialised reads) |
| C61 | Plate section stiffness: offset consistency | `Model/Section2D` | interval integrals and HasDerivAt |
| C62 | Plate section inertia and its derivative | `Model/Section2D` | violated derivative; positive semidefinite value |
| C63 | Multilayer laminate: layers tile the thickness | `Model/Section2D` | induction on layers |
| C64 | Beam section properties | `Model/Section1D` | double integrals / parallel axis; HasDerivAt |
| C65 | Torsion constant | `Model/Section1D` | inequalities; HasDerivAt |
| C66 | 3D orthotropic property rotation is energy consistent | `Model/Coordinates`, `Model/Material` | matrix identities; conductance violated |
| C67 | Density filter is a convex average | `Model/Filter` | sum of weights; convexity |
| C68 | All filter overloads agree | `Model/Filter` | overload equality; std::vector overload violated for non-dv |
| C69 | Filter influence query is sound | `Model/Filter` | soundness |
| C70 | Level-set cut of a quad preserves area and splits by sign | `Model/CutCell` | case analysis on nodal signs; shoelace identities |
| C71 | Level-set degenerate configurations are classified by sign | `Model/CutCell` | violated: witnesses |
| C72 | Edge intersection search brackets the root | `Model/CutCell` | loop invariant |
| C73 | Sub-element numbering is collision free | `Model/CutCell` | injectivity of numbering |
| C74 | Material patch: interface crossings around a node come in pairs | `Model/InterfaceDofs` | cyclic list induction |
| C75 | Static condensation of void dofs is exact | `Model/InterfaceDofs` | block matrix algebra |
| C76 | Dof partition of cut elements is a partition | `Model/InterfaceDofs` | list partition |
| C77 | Level-set constrained dofs | `Model/ConstrainDofs` | set algebra |
| C78 | Transient sensitivity right-hand side is the total derivative | `Model/Transient` | HasDerivAt along a parameter; driver reachability violated |
| C79 | Initial highest derivative satisfies the equation of motion | `Model/Transient` | linear algebra; generalized-alpha violated |
| C80 | GCMMA candidates respect the bounds | `Model/Optim` | loop over asymptotes; first iteration violated |
| C81 | Parametric line study covers the segment | `Model/Optim` | closed form of the loop |
| C82 | Interface side of a sub-element lies on the level set | `Model/CutCell` | pattern check + search result |
| C83 | Nondimensional coordinates of cut nodes | `Model/CutCell` | bilinear map identity |
| C84 | One node per cut edge in the cut mesh | `Model/SubElemMesh` | invariant over the element loop |
| C85 | Children of cut elements | `Model/SubElemMesh` | invariant over the element loop; corner sharing and changed flag violated |
| C86 | clear_mesh undoes process_mesh | `Model/SubElemMesh` | fold over the recorded lists |
| C87 | Constraints on void and hanging dofs | `Model/SubElemMesh` | fold lemmas; owner test vacuous |
| C88 | Time-domain flutter state space | `Model/Flutter` | block matrix algebra over ℂ |
| C89 | Flutter speed sensitivity | `Model/Flutter` | derivative of the eigenpair relation paired with the left vector; identity blocks cancel by C88 |
| C90 | Refinement of a flutter crossover | `Model/FlutterSearch` | bracket invariant; convergence of regula falsi for continuous g; violated: unconverged roots are reported as found |
| C91 | Critical flutter root and enumeration | `Model/FlutterSearch` | termination measure, sorted multimap invariant |
| C92 | Flutter scan grid and crossovers | `Model/FlutterSearch` | induction over the grid and the pairs |
| C93 | Mode tracking by sort | `Model/FlutterSearch` | selection-sort style invariant |
| C94 | Critical root without tracking | `Model/FlutterSearch` | bracket contraction and uniform continuity |
| C95 | U-g flutter method | `Model/Flutter` | algebra and chain rule |
| C96 | Flutter root data | `Model/Flutter` | sums of nonnegative numbers |
| C97 | P-k flutter solver | `Model/PKFlutter` | block algebra; database invariant over the nested loops; violated in several ways (unsized matrices, only the highest kr kept) |
| C98 | Primitive variables of the flow element | `Model/Fluid` | algebra; `HasDerivAt` along lines; violated at rest (division by the kinetic energy) |
| C99 | Conservative/primitive Jacobians | `Model/Fluid` | field identities in each dimension, derivative along lines |
| C100 | Advection flux and Jacobian | `Model/Fluid` | derivative along lines, all directions |
| C101 | Sensitivity of the flux Jacobian | `Model/Fluid` | cubic polynomial derivative in primitive variables, chain rule |
| C102 | Eigendecomposition of the normal Jacobian | `Model/Fluid` | identities modulo n.n = 1 and a^2 = gamma R T, case split on the chosen direction |
| C103 | Entropy variable Jacobian | `Model/Fluid` | inverse, symmetric, sum of squares, derivative of the entropy variables |
| C104 | Diffusion flux | `Model/FluidDiff` | identities; frozen transformation in the sensitivity is a finding |
| C105 | Stabilisation matrix | `Model/FluidDiff` | symmetriser, Bessel inequality in the entropy inner product, induction over nodes; singular at rest |
| C106 | Heat conduction Jacobians | `Model/Heat` | derivative of finite sums; lumped mass refuted |
| C107 | Heat conduction balance laws | `Model/Heat` | partition of unity, sums of squares; lumped definiteness refuted |
| C108 | Heat conduction parameter sensitivity | `Model/Heat` | derivative of finite sums; radiation constants refuted |
| C109 | Heat conduction boundary velocity terms | `Model/Heat` | linearity, Leibniz rule on a moving interval |
| C110 | Local frame of a geometric element | `Model/GeomElem` | cross product identities; degenerate default vector refuted |
| C111 | Transformation to the global frame | `Model/GeomElem` | block orthogonality, derivative of a linear map; linearised residual refuted |
| C112 | Piston theory pressure | `Model/Piston` | chain rule; second derivative with moving argument refuted |
| C113 | Loads of structural elements are applied once | `Model/StructLoads` | fold lemmas; linearised loops refuted |
| C114 | Pressure and traction loads | `Model/StructLoads` | virtual work identity, derivative of finite sums |
| C115 | Inertia of structural elements | `Model/StructLoads` | virtual work identity, quadratic forms; first-point density and solid sensitivity refuted |
| C116 | Internal force of plates, shells and membranes | `Model/Shell` | residual rewritten as stress times strain variation; derivative of polynomials; missing Jacobian products exhibited |
| C117 | Thermal load and prestress of surface elements | `Model/Shell` | same rewriting; prestress energy refuted |
| C118 | Internal force of beams and trusses | `Model/Beam` | residual rewritten as forces times strain variations; quadratic forms; unequal shear stiffness refuted |
| C119 | Derivative of the beam tangent along the solution sensitivity | `Model/Beam` | term-wise derivative; one term uses the other plane's stiffness: refuted with a witness |
| C120 | Thermal load and prestress of beams | `Model/Beam` | same rewriting; moments of the second plane refuted |
| C121 | Internal force of solid elements | `Model/Solid` | residual rewritten as stress times strain variation; deformation gradient of a superposed rigid motion; artificial rotational diagonal refuted |
| C122 | Stress recovery and thermal load of solid elements | `Model/Solid` | virtual work over the recovered data; potential of the thermal load |
| C123 | Incompatible strain modes of solid elements | `Model/Solid` | `T0` as a congruence of symmetric tensors; means of trilinear monomials |
| C124 | Stress recovery of shell elements | `Model/StressRec` | strain rewritten as layer strain; derivatives along arbitrary paths of state and section data; energy of the two section points computed exactly |
| C125 | Stress recovery of beam elements | `Model/StressRec` | same for the fibre strain at the four corners; sum of weights computed |
| C126 | Stress recovery of solid elements | `Model/StressRec` | outcome of every request; free expansion as counterexample |
| C127 | Discrete Kirchhoff triangle | `Model/Dkt` | interpolated field characterised by corner values and edge conditions, unique; patch test from exact differentiation of linear fields; clockwise triangle and rotated plane as counterexamples |
| C128 | Level set propagation and reinitialization element | `Model/LevelSetElem` | tested residual rewritten as weak form; derivative of the gradient length; line element as counterexample for tangent and signed distance |
| C129 | Volume and perimeter of the level set | `Model/LevelSetElem` | arctan bounds, monotonicity, derivative, limit; area of the cut triangle differentiated and compared with the boundary integral |
| C130 | Velocity and normal of the level set boundary | `Model/LevelSetElem` | Pythagoras for minimality; quotient rule |
| C131 | Homogenized density | `Model/LevelSetElem` | map lookups over the element list plus C129 |
| C132 | Compliance output | `Model/Compliance` | folds rewritten as sums; gather identity between element and global vectors; follower and point loads as counterexamples |
| C133 | Buckling eigenproblem | `Model/Buckling` | folds rewritten as gathered matrices, linear algebra; execution model for the element operations |
| C134 | Reduced order matrices and generalized aerodynamic forces | `Model/ReducedOrder` | double gather identity; support motion as counterexample |
| C135 | Near-null space of structural systems | `Model/NearNull` | trigonometric identities and bounds |
| C136 | Stress data for plotting | `Model/StressAsm` | fold invariants: extreme of a list, writes to distinct elements |
| C137 | Life of the data of a stress output | `Model/StressAsm` | execution model of the output object, induction over elements and points |
| C138 | Residual, Jacobian and sensitivity on a cut mesh | `Model/CutAsm` | fold to gather sums, Schur complement algebra, derivatives of affine condensations |
| C139 | Outputs on a cut mesh | `Model/CutAsm` | adjoint condensation identity, derivatives of list sums |
| C140 | Eigenproblem on a cut mesh | `Model/CutAsm` | fold to gather sums, quadratic forms |
| C141 | Conservation by the flow element | `Model/FluidElem` | exchange of sums, partition of unity |
| C142 | Tangent of the interior flow residual | `Model/FluidElem` | derivatives of sums of products from C100, C101; viscous: smoothness of the diffusivity (`Props/FluidVisc`); counterexamples with Barth's matrix and with expanding viscous gas |
| C143 | Far field boundary | `Model/FluidElem` | homogeneity of the Euler flux, eigen decomposition C102, continuity |
| C144 | Free stream preservation | `Model/FluidElem` | C143 and Gauss's theorem for the quadrature |
| C145 | Walls of the flow element | `Model/FluidElem` | C100 wall Jacobian, derivatives of products |
| C146 | Integrated force on a boundary | `Model/FluidElem` | C100, C104; induction over the elements |
| C147 | Sensitivity of the far field | `Model/FluidElem` | C98 sensitivities, counterexamples |
| C148 | Frequency domain flow residual | `Model/FreqFluid` | real part of the rotated residual, C141 velocity Jacobian, derivative of exp |
| C149 | Frequency domain slip wall | `Model/FreqFluid` | real-linear maps, C145 by uniqueness of derivatives; counterexamples |
| C150 | Surface pressure from the flow | `Model/FreqFluid` | C98 derivative of the pressure |
| C151 | Integrated pressure output | `Model/FreqFluid` | derivative of the root, Cauchy-Schwarz |
| C152 | Piston theory load on a shell | `Model/PistonElem` | C112 derivatives, frame transformations of C111; counterexamples |
| C153 | Piston theory load on a beam | `Model/PistonElem` | C112 derivatives, frame transformations of C111; counterexample |
| C154 | Static, modal and transient structural equations agree | `Model/ElemOps` | derivatives of sums of terms; counterexamples |
| C155 | All moving sides count | `Model/ElemOps` | induction over the sides; counterexample |
| C156 | Numerical check of an element Jacobian | `Model/ElemOps` | real inequalities, induction over entries |
| C157 | Condensed void unknowns | `Model/VoidSol` | induction over iterations, block elimination of C75; counterexample |
| C158 | Mesh coupling finds slaves and masters | `Model/MeshCoupling` | loop invariants over elements, sides, nodes |
| C159 | Kinematic coupling rows | `Model/MeshCoupling` | induction over the rows, C49; counterexamples |
| C160 | Rotation of a surface normal | `Model/NormalRot` | derivative of the normalised cross product; counterexample |
| C161 | Prestress resultants of sections | `Model/Prestress` | integrals over the section, derivative of the rotated stress; counterexamples |
| C162 | Solid card of isotropic materials | `Model/Prestress` | unfolding; counterexample |
| C163 | Derivative of the shell tangent along the solution sensitivity | `Model/ShellDot` | HasDerivAt of the tangent in closed form; counterexample |
| C164 | Moving side of a shell element | `Model/ShellDot` | Leibniz rule on a rectangle with exact side quadrature; counterexample for a rotated frame |
| C165 | Field split complex solver | `Model/ComplexSolve` | fold over elements with constraints; real and imaginary parts of the assembled sums; counterexample for the discarded result |
| C166 | Block complex solver: stored solution and sensitivity | `Model/ComplexSolve` | C38 for the block form; derivative of the assembled residual along a path of solutions; regular Jacobian |
| C167 | Assembly of a time step | `Model/TransientAsm` | fold over elements; affine dependence of the state of the step on the solution; derivative of finite sums |
| C168 | Sensitivity system of a time step | `Model/TransientAsm` | derivative of the assembled equations along a path of solved steps; counterexample: free mass |
| C169 | Traction shifted from an immersed interface | `Model/ShiftTrac` | first order expansion of the stress, linear algebra of tractions |
| C170 | Jacobian and sensitivity of the shifted traction | `Model/ShiftTrac` | derivative of finite sums; counterexamples on one bilinear square |
| C171 | Crossovers of the U-g method | `Model/UGScan` | exact membership; discrete and continuous intermediate values; invariant of the sorted map (C91); counterexamples |
| C172 | Scaling of the eigenvectors of the complex eigenproblem | `Model/EigScale` | linear algebra over the complex numbers; counterexample of size one |
| C173 | Boundary conditions and sensitivities of the flow element | `Model/FluidOps` | induction over the list of conditions on top of C143, C145, C147; counterexamples |
| C174 | Shock capturing of the flow element | `Model/FluidShock` | positive definite entropy Hessian (C103); sums by induction; derivative of a product with a coefficient vanishing continuously |
| C175 | Import of Nastran decks | `Model/Nastran` | induction over the deck sections with relational map lemmas; counterexample decks |
| C176 | Finite element data on cut elements | `Model/SubCell` | affine map of parallelograms; Jacobian as convex combination of corner areas; exhaustive check of convexity of the pieces; counterexample on a trapezoid |
| C177 | Coupled solve of several disciplines | `Model/CoupledSolve` | fold invariants for the block multiplication; injective numbering by lexicographic order; counterexample with two disciplines |
| C178 | Transient sensitivity histories | `Model/TransientSens` | the sensitivity driver refines the analysis driver; shift loop and update formulas commute with differentiation (induction over steps); implicit differentiation of each step with C78 |
| C179 | Temperature gradient of a stress functional | `Model/ThermAdjoint` | thermal residual affine in the temperatures; total derivative along solved states split into explicit part (p-norm chain rule) and adjoint part; fold over elements of all processes; counterexamples |
| C180 | Dirichlet conditions reach the system | `Model/DirichletCond` | first-wins fold over boundaries, variables and degrees of freedom gives the prescribed value of the smallest registered id; removal fold undoes additions; repeated queries leave copies |
| C181 | Change of the assembled tangent | `Model/TangentDot` | sum over elements of the constrained matrices; entrywise derivative of the assembled Jacobian of C22 |
| C182 | Element data in space | `Model/FeData` | local element of C110 and the libMesh map of its nodes; invariance of metric and gradients under the local frame |
| C183 | Sensitivity from parameters | `Model/SectionDeps` | dependency graph of C11, cards of C12, section matrices of C61/C64, elements of C116/C118: the derivative along one parameter through all layers |
| C184 | Heat conduction from cards | `Model/HeatCard` | dependency graph of C11, cards of C12, section matrices, element of C106-C109: tangent, sensitivities and physical form through all layers |
| C185 | Steady sensitivities end to end | `Model/SteadySens` | assembly of C22, solve of C20, elements of C184: joint differentiability of the element residual in unknowns and parameter, rate of the assembled equations along the branch, uniqueness |
| C186 | Steady structural sensitivities end to end | `Model/SteadyStruct` | elements of C116, C118 and C183 with joint differentiability in unknowns and parameter, then C185_along |
| C187 | Sensitivity of natural frequencies end to end | `Model/ModalSens` | derivatives of element matrices from C61, C62, C64, C183, assembly C22, eigenvalue derivative C19 |
| C188 | Steady sensitivity with loads on elements | `Model/SteadyLoads` | rates of the load routines from C114, C117, C120, dispatch loops C113, assembly and solve C185, C186 |
| C189 | Frequencies of loaded structures | `Model/ModalBase` | joint derivative of the tangent in section stiffness and state (C119, C163), then C187; base sensitivity from C186 |
| C190 | Frequencies of heated structures | `Model/ModalLoads` | derivative of the thermal Jacobian (product rule), loads added to the elements of C187 and C189; base solution from C188 |
| C191 | Interface point next to a cut element | `Model/Nearest` | specification of the two loops as a minimum; exhaustive check that cut sides carry nodes (C70); concrete violations |
| C192 | Compliance of a steady structure | `Model/SteadyCompliance` | C188 and C132 joined: rate of the load work along a solution branch; adjoint by C185_output |
| C193 | Sensitivity of an aggregated stress of a steady structure | `Model/SteadyStress` | C124/C125 rates of the recovered stresses, C183 look-ups, C53–C55 aggregates, C188 displacement sensitivity |
| C194 | Adjoint sensitivity of an aggregated stress of a steady structure | `Model/SteadyStressAdj` | splits the C193 rate by C54/C55 state derivatives, adjoint identity of C185 |
| C195 | Sensitivity of a steady analysis with solid elements | `Model/SteadySolid` | C121 tangent, C57 material derivatives, C188 loads, C185 along the branch |
| C196 | Vectors stored in files | `Model/StoredSol` | names injective; file system as a map; processes as a transition system with an invariant over all schedules |
| C197 | Sensitivity of a transient analysis | `Model/TransientHeat`, `Model/TransientAsm`, `Model/TransientSens`, `Model/HeatCard` | derivative of the solved step by the chain rule over the elements; induction over the steps |
| C198 | Checking the coupling products | `Model/CoupledCheck`, `Model/CoupledSolve` | induction over the perturbed degrees of freedom with the restored solution as invariant; affine coupling turns differences into derivatives |
| C199 | Frequency domain flow elements as a whole | `Model/FreqOps`, `Model/FreqFluid`, `Model/FluidOps` | fold over the conditions; each part by C148 and C149, compared with the time domain product of C173; linearity in the amplitude for the Jacobian |
| C200 | Frequency domain analysis of a flow as a whole | `Model/FreqFlow`, `Model/FreqOps`, `Model/ComplexSolve` | C199 for each element, sums over the mesh, C166 for the block system; product rule along the path of amplitudes |
| C201 | Variables of a discipline and the initial solution | `Model/SysInit` | induction over the statements of the constructors; suffix argument for the names; witness with a variable in front |
| C202 | Steady states are kept by time marching | `Model/March` | invariant of the stored step over all runs; element vectors of C173 for the flow; witness for generalized-alpha |
