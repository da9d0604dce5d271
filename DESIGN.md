# Formal model of platoanalyze: design

## Scope and trusted base

* Proof checker: Lean 4.33.0 kernel with Mathlib. Theorems depend on at most the axioms
  `propext`, `Classical.choice` and `Quot.sound`. No own axioms, no `sorry`, no
  `native_decide`, no `bv_decide`.
* The C++ is read as text. The link from C++ to Lean is by hand: each definition
  cites the file and lines it models. That link is part of the trusted base.
* Scalars (`Plato::Scalar`, a double) are modelled by an arbitrary field, ordered
  field, or the reals. Rounding, overflow, NaN and infinity are not modelled, except
  where a definition says so (the Newton-Raphson driver models non-finite norms).
* `Plato::OrdinalType` (a 32 bit int) is modelled by `Nat` or `Int`; overflow is not
  modelled.
* Kokkos `parallel_for` bodies with atomic adds are modelled as a list of updates that
  can be executed in any order (any permutation, i.e. any interleaving of atomic steps).
* Reads or writes outside an allocation, dereferencing an end iterator and division by
  an integer zero are a distinct outcome `ub` of the modelled functions.
* Outside the model: Omega_h (mesh data base), Trilinos/Teuchos/Kokkos internals,
  AmgX/Tpetra/Epetra solvers (a linear solver is an arbitrary function assumed to return
  a solution of the system where a theorem says so), MPI, HDF5 output.
* Sacado automatic differentiation is modelled as forward mode arithmetic on a value with
  its partial derivatives (`Verif.Mech.Fad`): `+ - * /`, `abs`, `pow`, `sqrt` by the
  differentiation rules. That the C++ operators follow these rules is trusted. One
  scalar type replaces the several types of a template (state, control, configuration).
  The theorems on time loops, adjoints and composite criteria (C26-C31, C35) take the
  derivatives of residual and criterion as given where they say so.
* `SerialLU` and `SerialTrsm` of KokkosBatched are modelled by the unblocked algorithms without
  exchange of rows (`Verif.Blas.Inverse`); a division by zero there is the outcome `ub`.
* Library functions of the standard are modelled by their mathematical meaning over the
  reals (`exp`, `log`, `tanh`, `pow`, `sin`).

## Layout

`lean/Verif/<Area>/Model.lean` the model, `Spec.lean` the independent specification,
`Lemmas.lean` helper lemmas, `Props.lean` the property theorems and the concrete
witnesses that the hypotheses are satisfiable. Small areas merge Model and Spec into one file.

| area | sources in `/repo/src` | properties |
|------|------------------------|------------|
| Common | outcome type `Res` (value, error, undefined behaviour), loops, parallel loops | |
| Crs | CrsMatrix, CrsMatrixUtils, PlatoMathHelpers, CrsLinearProblem | C01-C04 |
| Fem | SimplexFadTypes, ImplicitFunctors (graph, look-up, assembly), WorksetBase | C05-C08 |
| Bc | ApplyConstraints, EssentialBCs | C09-C11 |
| Expr | PlatoMathExpr parser and evaluator | C12-C15 |
| MeshMap | MeshMap, filters, symmetry plane, SpatialModel helpers | C16-C19 |
| Simplex | Simplex, basis, cubature, gradients, volumes | C20-C22 |
| Alg | penalty functions, projections | C23-C25 |
| Crit | scalar functions and their composites, elastic criteria, augmented Lagrangian | C26, C38, C51-C55, C103, C113, C114, C116 |
| Time | elliptic, parabolic and hyperbolic problems: solve and adjoint loops | C27-C31 |
| Plastic | path dependent problem: Newton, pseudo time, load increments, adjoint | C32-C35, C44 |
| Tensor | eigenvalues, `TensileEnergyDensityLocalMeasure.hpp`, `TensileEnergyDensity.hpp` | C36, C112 |
| App | report of unused parameters | C37 |
| Rocket | rocket model and application | C39, C56 |
| Material | linear and temperature dependent materials | C40, C50 |
| Blas | vector and matrix helpers | C41, C42 |
| Mech | elastostatics, vector function, body loads, `Fad` | C43, C45, C47, C49 |
| Bnd | natural boundary conditions | C48, C80 |
| HeatBnd | boundary terms of heat conduction and thermomechanics | C81 |
| Thermal | interpolation, projection, steady and transient heat conduction | C46, C57, C58 |
| Dyn | structural dynamics and its output | C59, C60 |
| Tm | thermomechanics | C61, C62, C117 |
| Em | electromechanics, its energy and stress norm | C67, C68, C115 |
| Plast | global residual of plasticity with loads and penalty continuation, projection of the pressure gradient | C71 – C75, C79, C82 |
| PWork | elastic and plastic work criteria, local scalar functions and their weighted sum, sum over the steps | C76 – C78 |
| Cond | elimination of the local unknowns, Newton system, adjoint steps and backward sweep of plasticity on views and sparse matrices | C83 – C86 |
| Mass | moments of mass, mass properties criterion | C69, C70 |
| HeatCrit | internal thermal energy and flux norm | C87 |
| Homog | effective energy of a cell problem | C88 |
| Trans | criteria of parabolic and hyperbolic problems | C89 |
| TmCrit | energy and material of thermomechanics | C90, C91 |
| Mpmd | the application: problem definitions, operations, import and export of data | C92 to C100 |
| Vms | the stabilised problem with a projected pressure gradient: solve and gradients | C101 |
| Solver | interfaces to the linear solver libraries: matrices, vectors, options, stacks | C102 |
| Field | computed fields and initial states of the transient problems | C104 |
| Output | `DataMap` in `PlatoStaticsTypes.hpp`, `ToMap.hpp`, `AnalyzeOutput.hpp`, tags in `OmegaHUtilities.hpp` | C105, C106 |
| LevelSet | `HamiltonJacobi.hpp`, history of `Plato_LevelSetCylinderInBox.hpp` | C107, C108 |
| Stab | `StabilizedElastostaticResidual.hpp`, `StabilizedElastostaticEnergy.hpp`, `Kinetics.hpp`, `Kinematics.hpp` | C109, C110 |
| Bingo | `CustomMaterial.cpp` | C111 |
| J2 | J2 plasticity at a cell, function of local unknowns, inverse of local Jacobians | C63 to C66 |

## Plan per property

| id | model | proof |
|----|-------|-------|
| C01 | CRS matvec row loop over entries, block loop | induction over the entries of a row; row updates commute |
| C02 | getDataAsNonBlock / setDataFromNonBlock index arithmetic on arrays | div/mod arithmetic, pointwise equality of dense denotations |
| C03 | exchange sort double loop on arrays of (col,value) | loop invariant, `List.Perm` and `Pairwise` |
| C04 | row sum, inverse weights, condense | algebra over a field |
| C05 | row construction with diagonal splice, prefix sums | list induction, `Nodup`, sortedness |
| C06 | linear scan look-up on the graph | list induction, injectivity of position arithmetic |
| C07 | scatter list of atomic adds | commutative-monoid fold over a permutation |
| C08 | as C07 with vectors, gather | finite sums re-indexing |
| C09 | two parallel loops of ApplyConstraints on CRS arrays, denoted as dense matrices | matrix algebra; negation witness for nonsymmetric matrices |
| C10 | same | permutation invariance |
| C11 | concatenation with running offsets | list induction |
| C12 | token level model of parser tree insertion | refinement to a precedence-climbing specification; round trip by induction on expression trees |
| C13 | same model | refuted by witness; partial theorem for atomic arguments |
| C14 | bracket counters of the lexer loop | invariant over token lists |
| C15 | same formula over the reals | refuted by witness; partial theorem |
| C16 | count/scan/slot assignment with arbitrary thread order | invariant over the schedule; sum re-indexing |
| C17 | weight formula | order/field algebra over finite sums |
| C18 | candidate scan loop | list induction; witness for the wrong comparison |
| C19 | reflection formula | field algebra |
| C20 | adjugate formula in 1/2/3 D | `ring`/`field_simp` |
| C21 | tables of points and weights | linear combination of monomials, for all coefficients |
| C22 | barycentric formulas | algebra |
| C23 | penalty formulas over the reals, update iteration | `Real.rpow` monotonicity, induction on updates |
| C24 | parameter map handling with `ub` for missing keys | case analysis; refutation |
| C25 | tanh formula, setters as state machine | monotonicity of tanh, invariant over setter histories |
| C26 | formulas over lists of criteria | `HasDerivAt` calculus |
| C27 | adjoint solve over finite-dimensional linear algebra | derivative of the implicit state, transpose identity |
| C28, C29 | time loops as recursion over steps | induction over steps |
| C30 | backward recursion | induction over steps (discrete adjoint identity) |
| C31 | solution() as state machine over calls | refutation for parabolic, proof for elliptic |
| C32 | loop with residual oracle | fuel-free recursion on remaining iterations |
| C33 | retry loop with convergence oracle | measure; refutation for non-growing multipliers |
| C34 | telescoping sum | induction |
| C35 | backward recursion of local, global and projection adjoints | discrete adjoint identity step by step, total derivative over the reals; refutations |
| C36 | 2D formula, 3D Jacobi rotation | algebra; refutation for negative shear |
| C37 | parameter tree recursion | structural induction |
| C38 | state machine over updates | invariant |
| C39 | solve loop, Newton loop, residual and Jacobian | Archimedean termination, `HasDerivAt`, concavity |
| C40 | stiffness formulas | algebra, positive definiteness by sums of squares |
| C44 | reaction force array over solves and retries | invariant; refutation |
| C41, C42 | loops over extents | finite sums; refutation for fill |
| C43 | worksets, cell evaluators in forward mode, assembly | the forward mode value tracks value and derivative through every operation; sums over cells; refutation for body loads |
| C45 | stress divergence functor | closed form of the loops, re-indexing of sums |
| C46 | interpolation and projection functors | the same |
| C47 | elastostatic residual | energy form of the mesh; affine maps and quadratic forms |
| C48 | natural boundary conditions over face lists | closed form per face, surface integrals, interleavings of load and store; refutations |
| C49 | body loads | Lebesgue integral over simplices |
| C50 | constructors of materials | case analysis and algebra; refutations |
| C51-C55 | scalar functions and criteria on worksets | forward mode as in C43; algebra of norms; refutations |
| C56 | gradient of the rocket application | limits of difference quotients; refutation |
| C57, C58 | heat conduction | forms of the mesh as in C47; refutation for temperature dependent conduction |
| C59, C60 | structural dynamics | forms of the mesh, derivative of the energy along a motion; refutation for the output |
| C61, C62 | thermomechanics | forms of the mesh, affine fields; refutations for shear expansion, one dimension, scaling, body loads, output |
| C63 | functors of return mapping, evaluator, update | closed form of the loops; equality with a radial return of tensors; conditions of plasticity determine the state; induction over histories |
| C64 | worksets, storing kernels, loop over domains | invariant of the loop over domains; refutations |
| C65 | evaluator with automatic differentiation values | numbers with derivatives track functions; jump of the branch refutes the derivative at zero multiplier |
| C66 | `blas3::inverse`, `updateInverseLocalJacobian` | loop invariants of factors and substitution; leading blocks have no kernel by an energy argument; zero pivot refutes the case without isotropic hardening |
| C67, C68 | electromechanics, material, energy | forms of the mesh as in C61; derivative of a quadratic form; refutations for the sign of charges, scaling, output, sign of the energy |
| C69, C70 | moments of mass, functions made of them, reading of the list | integrals of products of affine functions over a simplex; parallel axis theorem; sums, quotients and least squares as in C26; `decompose_eigen_jacobi` (Omega_h) is a parameter assumed exact; refutations by general error formulas |
| C71 | functors of the plasticity residuals, loop over cells, worksets, assembly over domains and boundary | closed form of the row of a cell; pairing with virtual fields; affine fields; stress of the residual against the yield function of C63 |
| C72 | gradients of the global equation with dual numbers, assembly by columns and transposed | dual numbers track derivatives through the closed form of a cell; sums over cells |
| C73, C74 | as C71, C63 and the projection residual | work of a cell under a change of unknowns or of the unit; virtual fields at one unknown |
| C75 | `updateProjectedPressureGradient`, `value` and `gradient_u` of `VectorFunctionVMS`, `RowSummed` | rows of the residual paired with test functions; matrix as the linear part of the residual; row sums |
| C76, C77 | `ElasticWorkCriterion`, `PlasticWorkCriterion`, `BasicLocalScalarFunction`, `evaluateCriterion` of `PlasticityProblem` | element formulas as contractions of tensors; telescoping over the steps; facts of the return map (C63) for the dissipation |
| C78 | the same with derivatives, `WeightedLocalScalarFunction`, explicit derivative of the history | tracking of derivatives through the element formulas |
| C79 | `updateProblem` of `PlasticityProblem` and of its functions, input of the penalty functions | counting the visits of each object; iterates of the step |
| C80 | constructors of `NaturalBCs` and `NaturalBC`, time passed by the residuals | separate relation of what a block asks for; both directions, exact description of the undefined cases |
| C81 | `evaluate_boundary` of the residuals of heat conduction and thermomechanics with their scales and layouts | the assembled members added to the residuals of C57, C58, C61, C62; work and totals by C48 |
| C82 | `outputData` with the list of names, `computePrincipalStresses` with its own loop | views of the loop of C71 read as tensors; loop of principal stresses by an invariant over the cells done; eigenvalues by C36 |
| C83 | `NewtonRaphsonSolver` assembly: inverse of local Jacobians, Schur complement per cell, condensed residual, assembled matrix; equations given by their values and Jacobians (interface `Eqs`) | product with the assembled matrix is the scattered product per cell; elimination per cell; equivalence with the spec `Linearised` |
| C84 | right-hand sides, transposed tangent, local and projection adjoints of `PathDependentAdjointSolver`, contributions to the gradient | transposition of scattered matrices; equivalence with the specs `stationU`, `stationC` |
| C85 | `backwardTimeIntegration` with constraints, copies of adjoints and sums | invariant over the steps from the last to the first: gradient so far plus terms carried to the step before equal the change of the criterion in the steps done (specs `Tangent`, `criterionAlong`) |
| C86 | the interface `Eqs` filled with the modelled functions of plasticity (`plastEqs`) | C83 with the derivatives of C65 and C72; hypotheses on cells in flow from C63 and C66 after the update |
| C87 | `InternalThermalEnergy`, `FluxPNorm` with `VectorPNorm` as evaluators of the criterion framework of C51 | closed form per cell, compared with the conduction form of C57; derivatives by C51 |
| C88 | `EffectiveEnergy`, `HomogenizedStress`, `ScalarProduct` with a vector, constructor reading its input | bilinear form of two strain fields as specification (`stored`); residual by C47, value by C51; symmetry and minimum from orthogonality |
| C89 | `Parabolic::PhysicsScalarFunction`, `Hyperbolic::PhysicsScalarFunction` (`value`, `gradient_x/z/u/v/a`), `TemperatureAverage`, `StateValues`, `ApplyWeighting` | loops over domains and steps with worksets overwritten in place, by invariants; specification: sum over steps of a function of the cells; derivatives from those of the cells |
| C90 | `InternalThermoelasticEnergy` (steady, transient; constructor and `evaluate`) | loop invariant to a function of the cells; specification: work of stress and flux (C61); derivatives of the function of the cells |
| C91 | `ThermoelasticMaterial`, `ThermoelasticModelFactory`, constructor of `TMKinetics`, on parameter lists with sublists | case analysis over the input; specification: law of Hooke at every temperature |
| C92 | `MPMD_App`: `initialize`, constructors and `operator()` of the operations, `compute`, `exportDataT`, `exportScalarValue`, as a state machine with exceptions, over any problem (`Sim`) | relation between members that every command keeps, induction over the history |
| C93 | `importScalarField`, `exportScalarField`, `getScalarFieldHostMirror` with `MeshMap` (C16) | adjoint maps and the chain rule; specification: `HasDerivAt` along every direction |
| C94 | `createProblem`, `resetProblemMetaData`, `compute`, `importScalarParameter`, `updateParameters`, `parseInline` | invariant: the problem is that of the present definition unless it is marked as modified; specification: the laws `Physics` and the fold `updated` over the history |
| C95 | `parseInline`, `getInnerList`, `setParameterValue`, `importScalarParameter` | induction over the lists of the target; specification: `Assigned`, one entry changed |
| C96 | `Reinitialize`, `hasChanged`, histories with changes of files | induction over rounds; specification: the files `F v` of the parameters `v` and the problem for them |
| C97 | `OutputToHDF5`, `getScalarFieldHostMirror`, `exportScalarField` | comparison of two functions, for every state |
| C98 | `MapCriterionGradientX`, `ComputeFiniteDifference` | loop invariants; specification: `HasFDerivAt`, `HasDerivAt` of the composition, bound of the remainder |
| C99 | `createProblem`, `resetProblemMetaData`, `ReloadMesh`, `importScalarField`, `exportScalarField` over histories | relation `Kept` that all commands keep, invariant `Fit` |
| C100 | look-ups in the maps of names, `addUnique`, `initialize` | for every state; induction over the input |
| C101 | `EllipticVMSProblem::solution`, `criterionGradient`, `criterionGradientX` with residuals and solver as parameters | induction over steps and iterations; linearised coupled system and adjoint identity; `HasDerivAt` along families of solutions |
| C102 | `EpetraSystem`, `TpetraSystem`, constructors and `solve` of both solvers, `SolverFactory` with libraries as parameters | loop invariants over rows, blocks and entries of a block against the dense matrix; case analysis of the input |
| C103 | constructor, `evaluate`, `updateProblem` of `AugLagStressCriterionGeneral` with `PhysicsScalarFunction::updateProblem` | loop invariant over the cells of a schedule; induction over the history; tracking of derivatives through the constraint, written with that of C38 |
| C104 | `ComputedField`, `ComputedFields`, the blocks "Computed Fields" and "Initial State" of the parabolic and hyperbolic problems, names of the residuals | invariants over the nodes of a schedule; induction over the entries of the input |
| C105 | `DataMap`, `toMap` with shared storage | refinement of a map of values by a heap of views, induction over the operations |
| C106 | `write`, `output`, the output functions, `copy`, `add_element_state_tags` | invariants over nodes, tags and steps; the layout of each physics as specification |
| C107 | `evolve_level_set`, `assemble_and_update_Eikonal`, `reinitialize_level_set`, `level_set_area`, `level_set_volume_rate_of_change` | bounds of the quotient at one node as invariant of the assembly; sums of the weights; induction over the passes |
| C108 | `initialize`, `updateImmersedGeometry`, `cacheData`, `outputLevelSetField` | induction over the steps; the level set after `k` movements as specification |
| C109 | `StabilizedElastostaticResidual::evaluate`, `StabilizedKinematics`, `StabilizedKinetics` | closed form of `evaluate` for every schedule; algebra of Hooke's law against the forces of plain elastostatics |
| C110 | `StabilizedElastostaticEnergy::evaluate` | closed form for every schedule; virtual work (C45) against the residual of C109 |
| C111 | `GetCustomExpressionValue`, `std::getline` with flags of the stream | induction over the lines of the file; the loop ends before its fuel (`scan_fuel`) |
| C112 | `TensileEnergyDensityLocalMeasure`, `TensileEnergyDensity` with `Eigenvalues` | closed form of the density; trace, norm and signs of the computed principal strains from the rotation of C36; induction over the schedule |
| C113 | `IntermediateDensityPenalty`: amplitude, `evaluate` | closed form for every schedule; zeros of the cosine; sums of densities of constant sign |
| C114 | `createScalarFunction` of nine factories, constructors of the penalty functions | case distinction over a table of criteria and penalties that is stated apart from the factories; weights compared with the formulas of the penalties |
| C115 | `EMStressPNorm` with the plain and the weighted norm | closed form by the loop invariants of C52 over the cell of C67; linearity of the stress; vanishing strain and field of constants; derivatives by C51 |
| C116 | `BarlatNormFunctor` (constructor and value of a cell) | characteristic polynomial of a symmetric matrix; real eigenvalues bound the argument of the arc cosine; sums of powers for independence of the order |
| C117 | `ThermalVonMisesLocalMeasure::operator()` over the kernels of thermomechanics | loop invariant over any schedule; strain of an affine field |

## Disagreements

Where the code does not do what the property says, a theorem shows it; the property is then
proved under the hypotheses that make it true.

| property | what the code does | theorem |
|----------|--------------------|---------|
| C02 | conversion to scalar storage reads a word behind the row map | `C02_getDataAsNonBlock_reads_out_of_bounds` |
| C09, C10 | constraints need symmetric values and distinct dofs | `C09_nonsymmetric_false`, `C10_duplicate_dof_false` |
| C12-C15 | names, `pow` arguments, brackets and the conditional of the expression parser | `C12_false_fn`, `C12_false_name`, `C13_false`, `C14_false`, `C15_false` |
| C18 | the last candidate above a sentinel is taken; nodes without parent | `C18_false`, `C18_not_found_ub` |
| C24 | a missing key is dereferenced | `C24_false`, `C24_heaviside_false` |
| C25 | the Heaviside projection is not the documented one | `C25_heaviside_false` |
| C26 | `gradient_u` of composites drops the step | `C26_*_false` |
| C27 | shape gradient with prescribed values | `C27_criterionGradientX_false` |
| C28, C30, C31 | several Newton iterations, nonsymmetric matrices, repeated parabolic solves | `C28_newton_false`, `C30_*_false`, `C31_parabolic_false` |
| C33, C34, C35, C44 | pseudo time, skipped increments, adjoint with loads, reaction force | `C33_false_*`, `C34_false`, `C35_false_load`, `C35_false_projection`, `C44_false` |
| C36 | 2D eigenvalues for negative shear | `C36_*_false` |
| C38 | multipliers before the first update | `C38_*_false` |
| C41, C42 | extents that are not compared, fill | `C41_*_false`, `C42_false` |
| C43 | shape derivative of body loads | `C43_elastostatic_x_false` |
| C48 | concurrent faces, interior faces, shape derivative of pressures | `C48_*_false` |
| C50 | cubic density, temperature dependent stiffness on the line, plane constants | `C40_cubic_density_false`, `C40_isotropic_functor_line_false`, `C40_plane_false` |
| C51-C55 | steps under a root, truncated exponents, reference strains, signed 1D stress, domains | `C51_gradient_u_false`, `C52_*_false`, `C53_energy_negative`, `C54_*_false`, `C55_*_false` |
| C56 | the difference is divided by the relative step | `C56_*_false` |
| C58 | temperature dependent conduction is absent | `C58_conduction_false`, `C58_rod_false` |
| C60 | the stress is stored under the names of the strains | `C60_output_false` |
| C61 | shear expansion is ignored; one dimension is undefined behaviour | `C61_shear_expansion_false`, `C61_one_dimension_false` |
| C62 | body loads, scaling of the heat content, output of several domains | `C62_body_loads_false`, `C62_scaling_false`, `C62_output_false` |
| C64 | results of several domains: list at wrong cells, accesses beyond the extents | `C64_value_false`, `C64_gradient_x_false`, `C64_gradient_z_false` |
| C65 | derivative by the local state where the multiplier is zero: the residual jumps | `C65_gradient_c_false`, `C65_square_false` |
| C66 | inverse of the local Jacobian without isotropic hardening: division by a zero pivot | `C66_inverse_false`, `C66_square_false` |
| C67 | sign of charges; "Alpha" in one and two dimensions; output of electric field and displacement | `C67_charge_sign_false`, `C67_alpha_false`, `C67_output_false` |
| C68 | the energy is not negative; output of electric displacement | `C68_nonneg_false`, `C68_output_false` |
| C69 | first moments for varying density; second moments | `C69_first_false`, `C69_second_false` |
| C70 | inertia about the centre of gravity; one and two dimensions; missing material; elliptic density and list | `C70_about_cg_false`, `C70_extent_false`, `C70_density_false`, `C70_elliptic_density_false`, `C70_elliptic_list_false` |
| C71 | default penalties: stress of the balance is off the yield surface | `C71_default_penalties_false` |
| C72 | load on a boundary: derivative by coordinates leaves it out | `C72_gradient_x_false` |
| C74 | two dimensions: stabilisation depends on the unit of length | `C74_plane_false` |
| C75 | first step: stabilisation of a linear pressure is not zero | `C75_first_step_false` |
| C76 | three dimensions: a closed cycle has work; temperature: a body at rest has negative work | `C76_cycle_false`, `C76_cycle_tetra`, `C76_thermal_false`, `C76_rest_negative` |
| C78 | derivative by coordinates: error in every run | `C78_gradient_x_false`, `C78_partial_x_false` |
| C79 | projection in the first domain makes two steps; default step of the elastic work criterion | `C79_first_domain_false`, `C79_domains_false`, `C79_defaults_false` |
| C80 | functions of time outside hyperbolic problems; arrays of the wrong length; components in the plane and of heat fluxes | `C80_time_false`, `C80_longer_false`, `C80_plasticity_values_false`, `C80_plane_z_false`, `C80_thermo_z_false`, `C80_heat_y_false` |
| C81 | the same flux has opposite signs in heat conduction and in thermomechanics | `C81_sign_false` |
| C82 | the Cauchy stress in three dimensions; principal stresses with thermal strain; principal stresses in the plane with negative shear | `C82_cauchy_space_false`, `C82_principal_thermal_false`, `C82_principal_expansion_false`, `C82_principal_shear_false` |
| C85 | the gradient by the coordinates on any mesh with more nodes than a cell | `C85_configuration_false`, instance `C85_configuration_bar` |
| C87 | energy and flux norm with a conductivity declared as temperature dependent; exponents that are not integers | `C87_nonlinear_false`, `C87_rod_false`, `C87_exponent_false` |
| C88 | missing forcing or too short assumed strain give a message | `C88_input_false` |
| C89 | the gradient at the first step; rates in the parabolic gradient by controls; mean temperature; energy of the steady problem; empty histories | `C89_first_step_false`, `C89_late_rate_false`, `C89_average_false`, `C89_elastic_double`, `C89_empty_false` |
| C90 | not negative; zero only without stress; the option "Include Thermal Strain" | `C90_sign_false`, `C90_clamped_false`, `C90_option_false` |
| C91 | number for the modulus of a temperature dependent material; list for that of a constant one; components | `C91_number_false`, `C91_list_false`, `C91_components_false` |
| C92 | two targets for one criterion; one criterion in two definitions; `@` in names | `C92_target_false`, `C92_definition_false`, `C92_name_false` |
| C93 | two exports; import of an exported topology; gradient in the file | `C93_twice_false`, `C93_roundtrip_false`, `C93_file_false` |
| C94 | `ReloadMesh` after an import; call after a failed creation; other dimensions; gradient after an import, after another definition, after `Reinitialize` | `C94_reload_false`, `C94_failed_false`, `C94_dimension_false`, `C94_stale_false`, `C94_switch_false`, `C94_reinitialize_false` |
| C95 | index past the end; unknown names; other types; a target that is a list | `C95_index_false`, `C95_unknown_false`, `C95_type_false`, `C95_list_false` |
| C96 | second call after a failed creation | `C96_failed_false` |
| C97 | gradients by coordinates; steps; components; missing components | `C97_coordinates_false`, `C97_steps_false`, `C97_components_false`, `C97_bounds_false` |
| C98 | two mapping operations; long inputs; no perturbed index; index past the end; no length | `C98_two_false`, `C98_length_false`, `C98_index_false`, `C98_bounds_false`, `C98_vector_false` |
| C99 | definitions of other meshes; gradients after `ReloadMesh`; changed files; failed creations | `C99_switch_false`, `C99_gradient_false`, `C99_files_false`, `C99_thrown_false` |
| C100 | unknown fields; unknown functions; names used twice | `C100_import_false`, `C100_export_false`, `C100_function_false`, `C100_operation_false`, `C100_gradient_false` |
| C101 | one step; projected gradient of other pressures; adjoint of the projection | `C101_default_false`, `C101_limit_false`, `C101_coupled_false`, `C101_derivative_false`, `C101_sign_false`, `C101_argument_false` |
| C102 | surplus rows, failed iterations, the tolerance of Tpetra, options next to a list | `C102_epetra_rows_false`, `C102_converged_false`, `C102_tolerance_false`, `C102_ignored_false` |
| C103 | normalisation of the input; meshes with several blocks | `C103_normalisation_false`, `C103_blocks_false` |
| C104 | unknown names in the parabolic problem; planar meshes of the solid residuals; entries that are no lists | `C104_unknown_name_false`, `C104_planar_false`, `C104_ignored_false` |
| C105 | saved states of entries stored by domain; stress of the hyperbolic problem | `C105_saved_false`, `C105_hyperbolic_false` |
| C106 | stabilised thermomechanics; element data of thermoplastic, electromechanical and stabilised mechanical problems | `C106_frames_false`, `C106_cells_false` |
| C108 | times of the frames; last step of a run; second run | `C108_frames_false`, `C108_frames_late`, `C108_last_step_false`, `C108_second_run_false` |
| C109 | forces in the plane; reference strain | `C109_plane_false`, `C109_reference_false` |
| C110 | energy of shear | `C110_shear_false` |
| C111 | end of the file without newline; second header; equation not valid | `C111_end_false`, `C111_headers_false`, `C111_invalid_false` |
| C112 | simple shear of negative sign in the plane has no tensile energy | `C112_plane_false` |
| C113 | cells at interfaces of solid and void nodes; list of the function outside of "Criteria" | `C113_interface_false`, `C113_list_false` |
| C114 | penalties of stabilised mechanics; unknown penalties in mechanics | `C114_stabilised_false`, `C114_unknown_false` |
| C115 | exponents that are not integers | `C115_homogeneous_false` |
| C116 | cells without stress or under pressure only; the exponent of the input | `C116_unstressed_false`, `C116_exponent_false` |
| C117 | one dimension; expansion in shear | `C117_one_dimension_false`, `C117_shear_expansion_false` |
| C71 | pressures on the boundary without temperature | `C71_pressure_false` |
| C79 | default exponent | `C79_exponent_false` |

## Not modelled

Within the modelled files each model file names at its head what it leaves out. In addition:

* Output: Omega_h's writer is a list of frames.
* Level sets: arrival times (`mComputeArrivalTime` is never set), initial conditions, `mesh_minimum_length_scale`;
  volumes and gradients are parameters.
* Stabilised elastostatics: `evaluate_boundary`, outputs, the line; the power 2/3 and the absolute value are parameters.
* Tensor norms: derivatives of the Barlat norm, `TensorNormFactory`.
* Custom materials: parsing and evaluation of the expression (area Expr) are a parameter.

No part of these files of `/repo/src` is modelled:

* Complex valued structural dynamics, which the problem factory does not construct (PlatoProblemFactory.hpp:165-167 is
  commented out):
  `StructuralDynamics*.hpp`, `AdjointStructuralDynamicsResidual.hpp`, `Complex*.hpp`, `*RayleighDamping.hpp`,
  `InertialForces.hpp`, `DynamicCompliance.hpp`, `FrequencyResponseMisfit.hpp`, `ComputeFrequencyResponseMisfit.hpp`,
  `ApplyPenalty.hpp`.
* Stabilised thermoelastostatics: `StabilizedThermoelastostaticResidual.hpp`, `StabilizedThermomechanics.hpp`.
* Local criteria nothing constructs: `ExpVolume.hpp` (only complex valued dynamics), `SurfaceArea.hpp` (its factory
  function is never called), `ThermalFluxRate.hpp` (its include is commented out).
* Libraries and devices: `alg/AmgX*`, `solverInterfaces/AmgX/*`, `alg/ParallelComm.*`, `HDF5IO.hpp`, `PlatoPythonModule.cpp`.
* Drivers: `PlatoDriver.hpp`, `Analyze_MPMD.cpp`, `alg/Analyze.cpp`, `Plato_BuildMesh.hpp`.
* Test support: `Plato_Diagnostics.hpp` and the unit tests.
* Factories that only choose a class by name: `ElasticModelFactory.*`, `LocalMeasureFactory.hpp`,
  `ScalarFunctionBaseFactory*`, `PathDependentScalarFunctionFactory*`, the physics headers but for the choice of
  penalties of criteria in C114 (`createVectorFunction`; `Plasticity.hpp`, ...); type declarations (`*SimplexFadTypes.hpp`, `ExpInstMacros.hpp`) and
  abstract interfaces; explicit instantiations (`*.cpp` of a few lines).
