{
 "claims": [
  {
   "property": "C01",
   "status": "proved",
   "theorems": [
    "Plato.C01_matvec",
    "Plato.C01_matvec_rejects"
   ],
   "note": "matrix-vector product, every schedule of the row loop"
  },
  {
   "property": "C02",
   "status": "partial",
   "theorems": [
    "Plato.C02_getDataAsNonBlock_partial",
    "Plato.C02_getDataAsNonBlock_stride_partial",
    "Plato.C02_getDataAsNonBlock_reads_out_of_bounds",
    "Plato.C02_setDataFromNonBlock",
    "Plato.C02_round_trip_partial",
    "Plato.C02_round_trip_exact_partial"
   ],
   "note": "conversion to scalar storage reads one word behind the row map (proved to be undefined behaviour under bounds checking); all content claims hold for every value of that word"
  },
  {
   "property": "C03",
   "status": "proved",
   "theorems": [
    "Plato.C03_sort",
    "Plato.C03_sort_dense"
   ],
   "note": ""
  },
  {
   "property": "C04",
   "status": "partial",
   "theorems": [
    "Plato.C04_rowSummedInverseMultiply",
    "Plato.C04_inverseWeight",
    "Plato.C04_matrixMatrixMultiply_partial",
    "Plato.C04_matrixMinusMatrix_partial",
    "Plato.C04_condense_partial"
   ],
   "note": "the external sparse product and difference (KokkosKernels) are parameters with a stated, satisfiable contract; the out-of-bounds word of C02 is assumed readable"
  },
  {
   "property": "C05",
   "status": "proved",
   "theorems": [
    "Plato.C05_createBlockMatrix",
    "Plato.C05_createMatrix",
    "Plato.C05_createMatrix_sizes_unset"
   ],
   "note": "the node-node graph arrays are the input"
  },
  {
   "property": "C06",
   "status": "proved",
   "theorems": [
    "Plato.C06_blockEntryOrdinal",
    "Plato.C06_blockTransposeEntryOrdinal",
    "Plato.C06_matrixEntryOrdinal",
    "Plato.C06_no_alias",
    "Plato.C06_no_alias_scalar"
   ],
   "note": "Look-up of element couplings in block, transposed block and scalar storage for every mesh and every matrix; the C++ result -1 is modelled as none."
  },
  {
   "property": "C07",
   "status": "proved",
   "theorems": [
    "Plato.C07_assembleJacobian",
    "Plato.C07_assembleTransposeJacobian",
    "Plato.C07_assembleJacobian_transposeLookup",
    "Plato.C07_assembleJacobian_scalar",
    "Plato.C07_create_then_assemble",
    "Plato.C07_domains",
    "Plato.C07_uncoupled_is_ub"
   ],
   "note": "Atomic adds are executed in an arbitrary order; scalars are any commutative additive monoid (no rounding)."
  },
  {
   "property": "C08",
   "status": "proved",
   "theorems": [
    "Plato.C08_assembleResidual",
    "Plato.C08_gatherState",
    "Plato.C08_adjoint",
    "Plato.C08_domains"
   ],
   "note": "Exact arithmetic; every order of the atomic adds."
  },
  {
   "property": "C09",
   "status": "proved",
   "theorems": [
    "Plato.C09_applyBlockConstraints",
    "Plato.C09_applyConstraints",
    "Plato.C09_solution",
    "Plato.C09_created",
    "Plato.C09_nonsymmetric_false"
   ],
   "note": "Every interleaving of the single loads, atomic adds and stores of the threads. C09_nonsymmetric_false shows that symmetry of the values is needed."
  },
  {
   "property": "C10",
   "status": "proved",
   "theorems": [
    "Plato.C10_symmetric",
    "Plato.C10_order_independent",
    "Plato.C10_storage_independent",
    "Plato.C10_duplicate_dof_false"
   ],
   "note": "C10_duplicate_dof_false shows that distinct dofs are needed."
  },
  {
   "property": "C100",
   "status": "partial",
   "theorems": [
    "Plato.Mpmd.C100_unknown_partial",
    "Plato.Mpmd.C100_unique",
    "Plato.Mpmd.C100_import_false",
    "Plato.Mpmd.C100_export_false",
    "Plato.Mpmd.C100_function_false",
    "Plato.Mpmd.C100_operation_false",
    "Plato.Mpmd.C100_gradient_false"
   ],
   "note": "In every state: operations, parameters and values that do not exist throw and change nothing; in an accepted input one name of a value belongs to one criterion. False: imports and exports of unknown fields return and do nothing, for every state (C100_import_false, C100_export_false); unknown functions are skipped (C100_function_false); a second operation of the same name replaces the first (C100_operation_false); one name for gradients of two criteria is accepted (C100_gradient_false)."
  },
  {
   "property": "C101",
   "status": "partial",
   "theorems": [
    "Plato.Vms.C101_steps",
    "Plato.Vms.C101_equilibrium_partial",
    "Plato.Vms.C101_gradient_partial",
    "Plato.Vms.C101_total_derivative_partial",
    "Plato.Vms.C101_default_false",
    "Plato.Vms.C101_limit_false",
    "Plato.Vms.C101_coupled_false",
    "Plato.Vms.C101_derivative_false",
    "Plato.Vms.C101_sign_false",
    "Plato.Vms.C101_argument_false"
   ],
   "note": "All steps hold the same state; with at least two iterations every computed step takes the prescribed values and is in equilibrium with some projected gradient, the stored one in the last step, without symmetry. For projections that do not depend on the design the reported gradient is the total derivative along solutions of the coupled system. False: nothing is solved with the default of one step (C101_default_false); the projected gradient does not belong to the pressures: at rest the projection residual is minus the lumped gradient (C101_limit_false), and no number of iterations solves the coupled system of an instance (C101_coupled_false); the gradient is not the derivative of the computed criterion (C101_derivative_false); the adjoint of the projection has the wrong sign and is divided by the lumped matrix twice (C101_sign_false); the projection is differentiated with the whole state in place of the pressures (C101_argument_false)."
  },
  {
   "property": "C102",
   "status": "partial",
   "theorems": [
    "Plato.Solver.C102_tpetra_matrix",
    "Plato.Solver.C102_tpetra_rejects",
    "Plato.Solver.C102_epetra_matrix_partial",
    "Plato.Solver.C102_epetra_solves_partial",
    "Plato.Solver.C102_tpetra_solves_partial",
    "Plato.Solver.C102_vectors",
    "Plato.Solver.C102_epetra_options",
    "Plato.Solver.C102_tpetra_options_partial",
    "Plato.Solver.C102_stack",
    "Plato.Solver.C102_epetra_rows_false",
    "Plato.Solver.C102_converged_false",
    "Plato.Solver.C102_tolerance_false",
    "Plato.Solver.C102_ignored_false"
   ],
   "note": "Both libraries receive exactly the entries of the assembled matrix and the vectors; with a library that converges the returned vector solves the assembled system; vectors of another size, and for Tpetra matrices of another size, are refused; the created stack is the requested one. False: Epetra accepts matrices with more rows and drops them (C102_epetra_rows_false); a solve that did not converge is returned like a solution (C102_converged_false); no value of the tolerance in the input is ever used by Tpetra (C102_tolerance_false); options next to a list of options are ignored (C102_ignored_false). The iterations of the libraries, preconditioners and AmgX are not modelled."
  },
  {
   "property": "C103",
   "status": "partial",
   "theorems": [
    "Plato.Crit.C103_new",
    "Plato.Crit.C103_update",
    "Plato.Crit.C103_history",
    "Plato.Crit.C103_value",
    "Plato.Crit.C103_within",
    "Plato.Crit.C103_gradients",
    "Plato.Crit.C103_full_partial",
    "Plato.Crit.C103_normalisation_false",
    "Plato.Crit.C103_blocks_false"
   ],
   "note": "Constructor, evaluation and updates at the level of storage, any schedules: closed form of the value (weighted normalised mass plus weighted augmented Lagrangian of the excess stress), exact growth of every multiplier, invariants over all histories of updates, agreement of the four evaluators, and gradients that are the derivatives of the value after any history, also at zero stress and at the limit. With one block a full design within the stress limit has the weight of the mass as value. False: the mass normalisation of the input is overwritten (C103_normalisation_false); the value depends on how the mesh is split into blocks (C103_blocks_false)."
  },
  {
   "property": "C104",
   "status": "partial",
   "theorems": [
    "Plato.Field.C104_values",
    "Plato.Field.C104_parabolic_partial",
    "Plato.Field.C104_hyperbolic_partial",
    "Plato.Field.C104_heat_partial",
    "Plato.Field.C104_solid_partial",
    "Plato.Field.C104_refused",
    "Plato.Field.C104_unknown_name_false",
    "Plato.Field.C104_planar_false",
    "Plato.Field.C104_ignored_false"
   ],
   "note": "Computed fields, their transfer into states and the parsing of the initial states, at the level of storage, for all meshes, inputs, orders of entries and schedules: a computed field has the value of its expression at the coordinates of every node; the initial state has, for every degree of freedom named in the input, the values of its field and zero elsewhere; the hyperbolic problem refuses unknown names and fields. The reader of expressions is a parameter. False: an unknown name in the parabolic problem is written in front of the array (C104_unknown_name_false); the solid residuals give the names for three dimensions on every mesh, so initial states on planar meshes are refused (C104_planar_false); entries that are no lists are passed over without a message (C104_ignored_false)."
  },
  {
   "property": "C105",
   "status": "partial",
   "theorems": [
    "Plato.Output.C105_current",
    "Plato.Output.C105_saved_partial",
    "Plato.Output.C105_refused",
    "Plato.Output.C105_saved_false",
    "Plato.Output.C105_hyperbolic_false"
   ],
   "note": "The data map (DataMap with putting, saving, clearing and asking for states) and toMap with and without a domain, with the sharing of storage by shallow copies, for all sequences of operations: the current content is the last one put, cell by cell; entries put as whole views keep in every saved state the content they had when it was saved; a state that was not saved is refused. False: entries put by domain are shared by all saved states, which read the content put last (C105_saved_false), so in the transient hyperbolic problem every saved state has the stress of the last step (C105_hyperbolic_false)."
  },
  {
   "property": "C106",
   "status": "partial",
   "theorems": [
    "Plato.Output.C106_frames_partial",
    "Plato.Output.C106_rates",
    "Plato.Output.C106_frames_false",
    "Plato.Output.C106_cells_false"
   ],
   "note": "write, output and the output functions for all kinds of physics of AnalyzeOutput.hpp with copying of components and tags of element data, at the level of storage, for all meshes, numbers of steps and schedules: one frame is appended per step, with each field of each node of the step under its name, controls, rates of mechanical problems and the element data saved at the step. The library that writes the files is abstracted to tags and frames. False: nothing is written for stabilised thermomechanics, for which the factory creates a problem (C106_frames_false); the element data of thermoplastic, electromechanical and stabilised mechanical problems never appear (C106_cells_false)."
  },
  {
   "property": "C107",
   "status": "proved",
   "theorems": [
    "Plato.LevelSet.C107_step",
    "Plato.LevelSet.C107_speed",
    "Plato.LevelSet.C107_outward",
    "Plato.LevelSet.C107_planar",
    "Plato.LevelSet.C107_extremum",
    "Plato.LevelSet.C107_moves",
    "Plato.LevelSet.C107_reinit",
    "Plato.LevelSet.C107_sign",
    "Plato.LevelSet.C107_sign_loop",
    "Plato.LevelSet.C107_sign_all",
    "Plato.LevelSet.C107_no_interface",
    "Plato.LevelSet.C107_burned",
    "Plato.LevelSet.C107_area",
    "Plato.LevelSet.C107_rate",
    "Plato.LevelSet.C107_area_rate"
   ],
   "note": "evolve_level_set, assemble_and_update_Eikonal, reinitialize_level_set, level_set_area and level_set_volume_rate_of_change of HamiltonJacobi.hpp at the level of storage, in any dimension, for all meshes with positive volumes, fields, speeds, time steps and schedules of all parallel loops. The gradients of the basis functions and volumes of an element are parameters. Signs are kept if the steepness b of the level set satisfies dtau (b - 1) < eps in every pass, which is b < 17/2 with the constants of the classes. The rate of change is modelled with speeds of elements only, as the classes use it."
  },
  {
   "property": "C108",
   "status": "partial",
   "theorems": [
    "Plato.LevelSet.C108_kept_partial",
    "Plato.LevelSet.C108_frames_false",
    "Plato.LevelSet.C108_frames_late",
    "Plato.LevelSet.C108_last_step_false",
    "Plato.LevelSet.C108_second_run_false"
   ],
   "note": "The history kept by LevelSetCylinderInBox and written by output, for all runs, movements and numbers of steps: fewer steps than declared after the first initialisation keep the level set after each step (C108_kept_partial; missing: runs of the declared length and later runs). False: frames are one step late and the first one is zero (C108_frames_false, C108_frames_late); every run of the rocket model with a tolerance below the time step writes outside the history in its last step (C108_last_step_false); initialising again does not reset the number of the step, so that a second run writes outside the history (C108_second_run_false)."
  },
  {
   "property": "C109",
   "status": "partial",
   "theorems": [
    "Plato.Stab.C109_moduli",
    "Plato.Stab.C109_space",
    "Plato.Stab.C109_pressure",
    "Plato.Stab.C109_rigid",
    "Plato.Stab.C109_equilibrium",
    "Plato.Stab.C109_volume",
    "Plato.Stab.C109_patch",
    "Plato.Stab.C109_stable",
    "Plato.Stab.C109_plane_partial",
    "Plato.Stab.C109_plane_false",
    "Plato.Stab.C109_reference_false"
   ],
   "note": "StabilizedElastostaticResidual::evaluate with its kinematics, stabilised kinetics, projections and divergences at the level of storage, in the plane and in space, for all meshes, states, projected gradients, controls and schedules of all parallel loops. In space the forces are those of Hooke's law when the volume equation holds (C109_space, C109_patch). False in the plane: the deviatoric stress is formed with a third of the trace while the bulk modulus is the plane one, so that forces contain an additional pressure (C109_plane_partial states which, C109_plane_false). False with a reference strain, which the stabilised kinetics never reads (C109_reference_false). The residual on the line divides by the number of shear terms, which is zero there; it is excluded by d = 2 or d = 3."
  },
  {
   "property": "C11",
   "status": "proved",
   "theorems": [
    "Plato.C11_get",
    "Plato.C11_missing_set",
    "Plato.C11_construct",
    "Plato.C11_construct_all",
    "Plato.C11_dofs",
    "Plato.C11_prescribed"
   ],
   "note": "Construction from parameters and get() for every list of conditions and every schedule of the node loops; C11_prescribed composes it with C09."
  },
  {
   "property": "C110",
   "status": "partial",
   "theorems": [
    "Plato.Stab.C110_work_partial",
    "Plato.Stab.C110_normal_partial",
    "Plato.Stab.C110_shear_false"
   ],
   "note": "StabilizedElastostaticEnergy::evaluate at the level of storage for all meshes, materials, states and schedules, in the plane and in space: the criterion is the work of the forces of the residual less the work of the shear stresses (C110_work_partial), and without shear twice the internal elastic energy of plain elastostatics (C110_normal_partial). False with shear: only the normal components of the total stress are written, so that a sheared cell has no energy (C110_shear_false)."
  },
  {
   "property": "C111",
   "status": "partial",
   "theorems": [
    "Plato.Bingo.C111_table_partial",
    "Plato.Bingo.C111_value_partial",
    "Plato.Bingo.C111_beyond",
    "Plato.Bingo.C111_no_header",
    "Plato.Bingo.C111_inline",
    "Plato.Bingo.C111_end_false",
    "Plato.Bingo.C111_headers_false",
    "Plato.Bingo.C111_invalid_false"
   ],
   "note": "CustomMaterial::GetCustomExpressionValue for all parameter lists and all texts of files, with the flags of the stream that std::getline reads. In files with one header whose lines end with a newline, the equation requested is used (C111_table_partial, C111_value_partial) and a number behind the last throws (C111_beyond). False: without newline at the end the number behind the last is answered with the last equation (C111_end_false); with a second header the first equation behind it is used, whatever number was requested (C111_headers_false); an equation that is not valid has the value zero, without error (C111_invalid_false). Evaluation of expressions is a parameter here; it is the subject of the properties on the expression evaluator."
  },
  {
   "property": "C112",
   "status": "partial",
   "theorems": [
    "Plato.Tensor.C112_density",
    "Plato.Tensor.C112_constants",
    "Plato.Tensor.C112_bounds",
    "Plato.Tensor.C112_compression",
    "Plato.Tensor.C112_tension",
    "Plato.Tensor.C112_plane_partial",
    "Plato.Tensor.C112_plane_false"
   ],
   "note": "TensileEnergyDensityLocalMeasure: constructor, gradient, strain, principal strains and density of all cells, for every schedule, in one to three dimensions. The value is between zero and the elastic energy density for every positive shear and bulk modulus (C112_bounds), zero for cells that are not stretched in any direction (C112_compression), and in space the elastic energy density for cells not compressed in any direction, up to the off-diagonal part that six iterations of the eigenvalues leave (C112_tension). In the plane with shear that is not negative the value is that of the exact principal strains (C112_plane_partial). False in the plane: simple shear has the value zero if its sign is negative and a positive value otherwise (C112_plane_false), a consequence of C36_eigenvalues2_false."
  },
  {
   "property": "C113",
   "status": "partial",
   "theorems": [
    "Plato.Crit.C113_value",
    "Plato.Crit.C113_bounds",
    "Plato.Crit.C113_symmetric",
    "Plato.Crit.C113_zero",
    "Plato.Crit.C113_amplitude",
    "Plato.Crit.C113_interface_false",
    "Plato.Crit.C113_list_false"
   ],
   "note": "IntermediateDensityPenalty::evaluate for all controls, numbers of dimensions and schedules, and the part of its constructor that reads the amplitude. False: a design whose nodes are all solid or void is penalised in every cell at an interface (C113_interface_false); the list of the function is read beside \"Criteria\" and not in it, so the constructor throws for every input that has the list where the factory of the criteria reads it (C113_list_false)."
  },
  {
   "property": "C114",
   "status": "partial",
   "theorems": [
    "Plato.Crit.Choice.C114_chosen_partial",
    "Plato.Crit.Choice.C114_default",
    "Plato.Crit.Choice.C114_missing",
    "Plato.Crit.Choice.C114_unknown_partial",
    "Plato.Crit.Choice.C114_unknown_false",
    "Plato.Crit.Choice.C114_stabilised_false"
   ],
   "note": "createScalarFunction of nine factories and the constructors of the penalty functions from a list, for all inputs, names of criteria and penalties. False: stabilised mechanics looks for the list beside \"Criteria\", so a penalty given in the list of the criterion is ignored and SIMP with default numbers is used (C114_stabilised_false); in mechanics an unknown type of penalty is accepted, and the evaluation dereferences a null pointer (C114_unknown_false)."
  },
  {
   "property": "C115",
   "status": "partial",
   "theorems": [
    "Plato.Em.C115_value",
    "Plato.Em.C115_scaling",
    "Plato.Em.C115_homogeneous_partial",
    "Plato.Em.C115_homogeneous_false",
    "Plato.Em.C115_ground",
    "Plato.Em.C115_differentiates",
    "Plato.Em.C115_weighted_value",
    "Plato.Em.C115_weighted_differentiates"
   ],
   "note": "EMStressPNorm with the plain norm (the default of TensorNormFactory) and, for values and derivatives, the weighted norm, for all meshes, materials, couplings, exponents and schedules; derivatives for one state. False: for exponents that are not integers the exponent in the sum is truncated, so the criterion is not homogeneous (C115_homogeneous_false). Not shown: the Barlat norm of this criterion; derivatives for several states, where the root is taken over one step only (refuted for mechanics in C51)."
  },
  {
   "property": "C116",
   "status": "partial",
   "theorems": [
    "Plato.Crit.Barlat.C116_principal_partial",
    "Plato.Crit.Barlat.C116_value_partial",
    "Plato.Crit.Barlat.C116_homogeneous_partial",
    "Plato.Crit.Barlat.C116_pressure",
    "Plato.Crit.Barlat.C116_unstressed_false",
    "Plato.Crit.Barlat.C116_exponent_false"
   ],
   "note": "BarlatNormFunctor: value of a cell in real arithmetic, for all stresses and coefficients. False: the value of a cell without stress, or under pressure only, is not a number (C116_unstressed_false, quotient of zeros under the arc cosine); the exponent of the input is never used, an integer is an error and a real number is ignored (C116_exponent_false). Not shown: derivatives, rounding, reading of the coefficient arrays."
  },
  {
   "property": "C117",
   "status": "partial",
   "theorems": [
    "Plato.Tm.C117_value_partial",
    "Plato.Tm.C117_nonneg_partial",
    "Plato.Tm.C117_free_expansion_partial", "Plato.Tm.C117_rigid_partial",
    "Plato.Tm.C117_one_dimension_false", "Plato.Tm.C117_shear_expansion_false"
   ],
   "note": "ThermalVonMisesLocalMeasure::operator(), in real arithmetic, in the plane and in space, for all meshes, states, schedules and thermoelastic materials. False in one dimension: the evaluation reads outside the expansion tensor (C117_one_dimension_false). False for expansion in shear, which the code ignores: free expansion then leaves a stress (C117_shear_expansion_false). Not shown: rounding, factory of the material."
  },
  {
   "property": "C12",
   "status": "partial",
   "theorems": [
    "Plato.Ee.C12_partial",
    "Plato.Ee.C12_false_name",
    "Plato.Ee.C12_false_fn",
    "Plato.Ee.C12_sign_power"
   ],
   "note": "Every well formed expression of the grammar, in every layout with blanks, from every consistent evaluator state, parses, validates and evaluates to its value. Excluded: function names not followed by a bracket, bar or sign (false, C12_false_fn), variable names starting with a reserved word (false, C12_false_name), unbracketed operators in pow arguments (false, C13_false), words over 126 characters. Arithmetic is an arbitrary set of operations."
  },
  {
   "property": "C13",
   "status": "partial",
   "theorems": [
    "Plato.Ee.C13_partial",
    "Plato.Ee.C13_bracketed",
    "Plato.Ee.C13_false"
   ],
   "note": "True for every argument whose operators are bracketed (or of the level of a sign or above); the unrestricted statement is refuted in every layout by C13_false."
  },
  {
   "property": "C14",
   "status": "partial",
   "theorems": [
    "Plato.Ee.C14_partial",
    "Plato.Ee.C14_rejected_zero",
    "Plato.Ee.C14_false",
    "Plato.Ee.C14_sqr_ub",
    "Plato.Ee.C14_long_ub"
   ],
   "note": "False as stated: \"sqr((4)\" is accepted although unbalanced (C14_false), \"sqr\" without a following character and words of 127 characters read outside the text (C14_sqr_ub, C14_long_ub). Holds for every other text of any length."
  },
  {
   "property": "C15",
   "status": "partial",
   "theorems": [
    "Plato.C15_partial",
    "Plato.C15_integers",
    "Plato.C15_false"
   ],
   "note": "The documented claim fails: C15_false gives a pair with x > y for which the first value is returned; C15_partial and C15_integers say for which inputs it holds."
  },
  {
   "property": "C16",
   "status": "proved",
   "theorems": [
    "Plato.C16_transpose",
    "Plato.C16_adjoint",
    "Plato.mul_adjoint"
   ],
   "note": "Every matrix with consistent extents, every order of atomic increments, every interleaving of the memory operations of the threads, every schedule of the products; with and without filter, both filter orders."
  },
  {
   "property": "C17",
   "status": "proved",
   "theorems": [
    "Plato.C17_partition_of_unity",
    "Plato.C17_radius_rejected"
   ],
   "note": "Over the reals, given the answers of the external sphere query (nodes within the radius, including the node itself)."
  },
  {
   "property": "C18",
   "status": "partial",
   "theorems": [
    "Plato.C18_map_partial",
    "Plato.C18_selected",
    "Plato.C18_matrix",
    "Plato.C18_box_contains",
    "Plato.C18_false",
    "Plato.C18_not_found_ub"
   ],
   "note": "False as stated: the last candidate above the sentinel is taken, not the one with the largest smallest weight (C18_false), and a node without parent leads to an access outside the connectivity (C18_not_found_ub). Holds when no candidate after a containing one passes the sentinel."
  },
  {
   "property": "C19",
   "status": "proved",
   "theorems": [
    "Plato.C19_plane",
    "Plato.C19_zero_normal",
    "Plato.IsMirror.unique"
   ],
   "note": "Over the reals, every origin, non-zero normal and point."
  },
  {
   "property": "C20",
   "status": "proved",
   "theorems": [
    "Plato.C20",
    "Plato.C20_volume",
    "Plato.C20_degenerate",
    "Plato.C20_cellVolume",
    "Plato.C20_computeVolume",
    "Plato.C20_computeVolume_segment_false"
   ],
   "note": "Gradient workset functor in 1, 2 and 3 dimensions called from a parallel loop in any order; exact arithmetic. ComputeVolume (level set code) gives a sixth of the length in one dimension."
  },
  {
   "property": "C21",
   "status": "proved",
   "theorems": [
    "Plato.C21_exact",
    "Plato.C21_near",
    "Plato.sourceLits_near",
    "Plato.exactLits_near",
    "Plato.C21_rejected",
    "Plato.C21_weights",
    "Plato.C21_degree_one"
   ],
   "note": "The rules contain decimal literals of irrational points: the error on each monomial is bounded by the distance of the literals from the exact rule, zero for the rational rules."
  },
  {
   "property": "C22",
   "status": "proved",
   "theorems": [
    "Plato.C22_partition",
    "Plato.C22_kronecker",
    "Plato.C22_gradient"
   ],
   "note": "Degree one basis in dimension 1 to 3; gradients are the derivatives of the values at every point."
  },
  {
   "property": "C23",
   "status": "proved",
   "theorems": [
    "Plato.C23_simp",
    "Plato.C23_ramp",
    "Plato.C23_heaviside",
    "Plato.C23_continuation",
    "Plato.C23_continuation_bounds",
    "Plato.C23_continuation_lowers"
   ],
   "note": "Real scalars. C23_continuation_lowers shows what happens when the start exponent already exceeds the bound."
  },
  {
   "property": "C24",
   "status": "partial",
   "theorems": [
    "Plato.C24_simp_partial",
    "Plato.C24_false",
    "Plato.C24_heaviside_false",
    "Plato.C24_heaviside_consequence"
   ],
   "note": "The claim is false for a proper subset of the keys (look-up of a missing key is dereferenced); proved when every key is present."
  },
  {
   "property": "C25",
   "status": "partial",
   "theorems": [
    "Plato.C25_history",
    "Plato.C25_tanh",
    "Plato.C25_tanh_onto",
    "Plato.C25_applyProjection",
    "Plato.C25_applyProjection_tanh",
    "Plato.C25_heaviside_false"
   ],
   "note": "Everything about the tanh projection is proved; the Heaviside projection does not evaluate the documented formula (C25_heaviside_false)."
  },
  {
   "property": "C26",
   "status": "partial",
   "theorems": [
    "Plato.Crit.C26_weighted_xz",
    "Plato.Crit.C26_weighted_u",
    "Plato.Crit.C26_geo_weighted",
    "Plato.Crit.C26_division_xz",
    "Plato.Crit.C26_division_u",
    "Plato.Crit.C26_geo_division",
    "Plato.Crit.C26_division_rejects",
    "Plato.Crit.C26_geo_division_rejects",
    "Plato.Crit.C26_least_xz",
    "Plato.Crit.C26_least_u",
    "Plato.Crit.C26_geo_least",
    "Plato.Crit.C26_solution",
    "Plato.Crit.C26_weighted_init",
    "Plato.Crit.C26_weighted_init_rejects",
    "Plato.Crit.C26_least_init",
    "Plato.Crit.C26_weighted_u_false",
    "Plato.Crit.C26_division_u_false",
    "Plato.Crit.C26_least_u_false",
    "Plato.Crit.C26_solution_u_false",
    "Plato.Crit.C26_division_gradient_false",
    "Plato.Crit.C26_least_input_false"
   ],
   "note": "Proved for weighted sums, quotients and least squares of any components, for configuration and control at every time step, and for the state of the first step at time step zero (the way Elliptic::Problem asks). The claim is false in general: gradient_u of the three composites drops the step index (refuted with a component that differentiates at that step), gradient_u of the solution average uses the asked step while the value uses the last, gradients of quotients are reported for a zero denominator, and the elliptic least squares block cannot be read from the Criteria section (it looks in a section called Criterial)."
  },
  {
   "property": "C27",
   "status": "partial",
   "theorems": [
    "Plato.C27_criterionGradient",
    "Plato.C27_total_derivative",
    "Plato.C27_linear_problem",
    "Plato.C27_criterionGradientX_partial",
    "Plato.C27_criterionGradientX_false",
    "Plato.C27_selfAdjoint_partial"
   ],
   "note": "Control gradient: proved for every prescribed data, no symmetry; total derivative over the reals, end to end for linear problems. Configuration gradient: true for zero prescribed values, false otherwise (C27_criterionGradientX_false). The self-adjoint option is right for strain energy (C27_selfAdjoint_partial)."
  },
  {
   "property": "C28",
   "status": "partial",
   "theorems": [
    "Plato.ParProblem.C28_trapezoid",
    "Plato.ParProblem.C28_newton_partial",
    "Plato.C28_newton_false",
    "Plato.C28_derivatives"
   ],
   "note": "Proved for one Newton iteration per step; with more the rate is not updated when the residual is met on entry (C28_newton_false), C28_newton_partial says what holds instead."
  },
  {
   "property": "C29",
   "status": "proved",
   "theorems": [
    "Plato.HypProblem.C29_newmark",
    "Plato.HypProblem.C29_equation_of_motion",
    "Plato.C29_vValue_derivatives",
    "Plato.C29_aValue_derivatives"
   ],
   "note": "All numbers of steps, any residual and solver for the Newmark formulas; exact linear solves and affine residual for the equation of motion."
  },
  {
   "property": "C30",
   "status": "partial",
   "theorems": [
    "Plato.C30_hyperbolic_partial",
    "Plato.C30_parabolic_partial",
    "Plato.C30_hyperbolic_total_derivative_partial",
    "Plato.C30_hyperbolic_linear_problem_partial",
    "Plato.C30_parabolic_total_derivative_partial",
    "Plato.C30_parabolic_linear_problem_partial",
    "Plato.C30_parabolic_false",
    "Plato.C30_hyperbolic_false",
    "Plato.C30_hyperbolic_time_false"
   ],
   "note": "Proved for zero prescribed values and symmetric (hyperbolic: time independent) derivative matrices; the code is wrong otherwise, see the three _false theorems."
  },
  {
   "property": "C31",
   "status": "partial",
   "theorems": [
    "Plato.HypProblem.C31_hyperbolic",
    "Plato.ParProblem.C31_parabolic_adds",
    "Plato.ParProblem.C31_parabolic_first_partial",
    "Plato.ParProblem.C31_parabolic_false",
    "Plato.EllProblem.C31_elliptic_partial",
    "Plato.EllProblem.C31_elliptic_newton_false"
   ],
   "note": "Hyperbolic: proved. Parabolic: repeated solves add the prescribed value again (C31_parabolic_false). Elliptic: proved, except when the Newton loop leaves before the first increment."
  },
  {
   "property": "C32",
   "status": "proved",
   "theorems": [
    "Plato.C32_terminates",
    "Plato.C32_verdict",
    "Plato.nrLoop_fuel"
   ],
   "note": "All residual sequences over a law-free floating point interface. The residual change measure is pinned down by C32_stagnation: it compares with the residual at the last evaluation."
  },
  {
   "property": "C33",
   "status": "partial",
   "theorems": [
    "Plato.PlasProblem.C33_partial",
    "Plato.PlasProblem.C33_created_partial",
    "Plato.C33_false_multiplier",
    "Plato.C33_false_grid"
   ],
   "note": "False as stated: a multiplier whose truncated product does not grow the step count never ends (C33_false_multiplier); an initial step count at or above the maximum leaves a grid that does not end at the end time (C33_false_grid). Holds with a growing product and an initial count below the maximum."
  },
  {
   "property": "C34",
   "status": "partial",
   "theorems": [
    "Plato.PlasProblem.C34_multipliers",
    "Plato.PlasProblem.C34_applied_partial",
    "Plato.C34_false"
   ],
   "note": "The multipliers telescope for every step count and load function. The applied displacement can miss increments: a Newton-Raphson solve that stops at its first evaluation skips its increment (C34_false)."
  },
  {
   "property": "C35",
   "status": "partial",
   "theorems": [
    "Plato.PlasProblem.C35_partial",
    "Plato.PlasProblem.C35_total_partial",
    "Plato.C35_false_load",
    "Plato.C35_false_projection"
   ],
   "note": "Holds (algebraically over any field, and as a total derivative over the reals) when loads depend neither on states nor on the design and the derivative of the projection equation in the design is what the code evaluates; false otherwise."
  },
  {
   "property": "C36",
   "status": "partial",
   "theorems": [
    "Plato.Tensor.C36_similar",
    "Plato.Tensor.C36_eigenvalues3",
    "Plato.Tensor.C36_eigenvalues2_partial",
    "Plato.Tensor.C36_eigenvalues2_false",
    "Plato.Tensor.C36_eigenvalues1"
   ],
   "note": "Three dimensions: after n iterations the values are the diagonal of a tensor similar to the given one, with the trace kept and the distance to the eigenvalues bounded by (2/3)^n of the off-diagonal part. Two dimensions: exact for shear components that are not negative; refuted for every tensor with a negative shear component, for which neither value is an eigenvalue (the shear is compared with a threshold without its absolute value)."
  },
  {
   "property": "C37",
   "status": "proved",
   "theorems": [
    "Plato.App.C37_report",
    "Plato.App.C37_sound",
    "Plato.App.C37_echo",
    "Plato.App.C37_all_unused"
   ],
   "note": "Proved for the report written at the end of a run. C37_all_unused records the edge: a bare report on a tree of which nothing was used is empty."
  },
  {
   "property": "C38",
   "status": "partial",
   "theorems": [
    "Plato.Crit.C38_update",
    "Plato.Crit.C38_history",
    "Plato.Crit.C38_value",
    "Plato.Crit.C38_value_nonneg",
    "Plato.Crit.C38_value_zero",
    "Plato.Crit.C38_gradients",
    "Plato.Crit.C38_start_false",
    "Plato.Crit.C38_stress_multiplier",
    "Plato.Crit.C38_mass_range",
    "Plato.Crit.C38_mass_upper_false",
    "Plato.Crit.C38_mass_lower_false"
   ],
   "note": "All four evaluators agree, multipliers never decrease and are nonnegative after the first update, penalty within bound after the first update, value nonnegative and zero within the limit, gradients are derivatives after any history. Refuted before the first update (inputs are not clamped) and for the bounds of the mass multipliers of the older criterion."
  },
  {
   "property": "C39",
   "status": "proved",
   "theorems": [
    "Plato.Rocket.C39_history",
    "Plato.Rocket.C39_profiles",
    "Plato.Rocket.C39_times",
    "Plato.Rocket.C39_no_return",
    "Plato.Rocket.C39_no_return_hyp",
    "Plato.Rocket.C39_samples",
    "Plato.Rocket.C39_newton_count",
    "Plato.Rocket.C39_jacobian",
    "Plato.Rocket.C39_newton_monotone",
    "Plato.Rocket.C39_newton_rate",
    "Plato.Rocket.C39_newton_converges",
    "Plato.Rocket.C39_newton_accuracy",
    "Plato.Rocket.C39_newton_tolerance",
    "Plato.Rocket.C39_below_critical",
    "Plato.Rocket.C39_below_critical_nan",
    "Plato.Rocket.C39_cylinder_gradient",
    "Plato.Rocket.C39_initialize",
    "Plato.Rocket.C39_run",
    "Plato.Rocket.C39_thrust"
   ],
   "note": "For every geometry model; Newton results for pressure exponents between zero and one. Also proved: the number of samples, when solve never returns, the accuracy of the pressure, and that a guess below the critical pressure always gives a negative first iterate and then a value that is not a number."
  },
  {
   "property": "C40",
   "status": "proved",
   "theorems": [
    "Plato.Material.C40_isotropic",
    "Plato.Material.C40_isotropic_numbers",
    "Plato.Material.C40_isotropic_constant",
    "Plato.Material.C40_custom",
    "Plato.Material.C40_isotropic_compliance",
    "Plato.Material.C40_isotropic_definite",
    "Plato.Material.C40_isotropic_definite_low",
    "Plato.Material.C40_plane_strain",
    "Plato.Material.C40_cubic3",
    "Plato.Material.C40_cubic2",
    "Plato.Material.C40_cubic1",
    "Plato.Material.C40_orthotropic_accepts",
    "Plato.Material.C40_orthotropic3",
    "Plato.Material.C40_orthotropic2",
    "Plato.Material.C40_orthotropic1",
    "Plato.Material.C40_orthotropic_isotropic",
    "Plato.Material.C40_rank4_symmetric",
    "Plato.Material.C40_zero_shear_false",
    "Plato.Material.C47_material",
    "Plato.Material.C40_reference_strain",
    "Plato.Material.C40_reference_strain_kept"
   ],
   "note": "Constructors modelled over real numbers as writes into a checked matrix. Isotropic (1D/2D/3D): Hooke's law with the Lame constants, inverse of the compliance, definite iff 0<E, -1<v<1/2. Cubic: definite iff the Born conditions. Orthotropic 3D and 2D: acceptance equals the stability conditions, accepted constants with strict inequalities give a definite matrix inverting the compliance. C40_zero_shear_false: the code also accepts boundary constants (zero shear modulus), whose stiffness is singular."
  },
  {
   "property": "C41",
   "status": "partial",
   "theorems": [
    "Plato.blas1.C41_dot",
    "Plato.blas1.C41_norm",
    "Plato.blas1.C41_fill",
    "Plato.blas1.C41_copy",
    "Plato.blas1.C41_scale",
    "Plato.blas1.C41_axpy",
    "Plato.blas1.C41_update",
    "Plato.blas1.C41_rejected",
    "Plato.blas1.C41_localSum",
    "Plato.blas1.C41_max",
    "Plato.blas1.C41_min",
    "Plato.blas1.C41_extract",
    "Plato.blas2.C41_fill2",
    "Plato.blas2.C41_scale2",
    "Plato.blas2.C41_update2",
    "Plato.blas2.C41_mtv_partial",
    "Plato.blas2.C41_mtvT_partial",
    "Plato.blas2.C41_mtv_rejected",
    "Plato.blas2.C41_mtv_extents_false",
    "Plato.blas2.C41_axpy2",
    "Plato.blas3.C41_identity",
    "Plato.blas3.C41_fill3",
    "Plato.blas3.C41_update3_partial",
    "Plato.blas3.C41_update3_extents_false",
    "Plato.blas3.C41_multiply",
    "Plato.blas3.C41_multiply_rejected",
    "Plato.blas2.C41_extract2",
    "Plato.blas2.C41_extractDims"
   ],
   "note": "The formulas hold for every size, schedule and reduction tree. Rejection of malformed extents is complete for multiply and update (2D); it is false for matrix_times_vector (vector lengths are not compared with the matrix) and for update (3D, cell count), see the _false theorems."
  },
  {
   "property": "C42",
   "status": "partial",
   "theorems": [
    "Plato.blas1.C42_fill_partial",
    "Plato.blas1.C42_false"
   ],
   "note": "False as stated: the loop bound is the output length, so fewer ordinals than entries read outside the inputs (C42_false, for all such inputs). Holds when the lengths agree and ordinals are distinct."
  },
  {
   "property": "C43",
   "status": "partial",
   "theorems": [
    "Plato.Mech.C43_gradient_u",
    "Plato.Mech.C43_gradient_u_T",
    "Plato.Mech.C43_gradient_u_T_transposed",
    "Plato.Mech.C43_gradient_z",
    "Plato.Mech.C43_gradient_x",
    "Plato.Mech.C43_elastostatic_u",
    "Plato.Mech.C43_elastostatic_z",
    "Plato.Mech.elastostatic_x",
    "Plato.Mech.elastostatic_tracks",
    "Plato.Mech.simp_penOk",
    "Plato.Mech.ramp_penOk",
    "Plato.Mech.C43_elastostatic_x_partial",
    "Plato.Mech.C43_elastostatic_x_unloaded",
    "Plato.Mech.C43_elastostatic_x_false",
    "Plato.Bnd.C43_loaded_u",
    "Plato.Bnd.C43_loaded_z",
    "Plato.Bnd.C43_loaded_x_partial",
    "Plato.Bnd.C48_pressure_x_false"
   ],
   "note": "Generic over evaluators that compute cell by cell; instantiated for the elastostatic residual for state and control. gradient_x with body loads holds only with the load data held fixed. Natural boundary conditions and other physics not modelled. With body loads on the mesh (load functions evaluated at the cubature points of the mesh coordinates) gradient_x is proved to be the derivative of value minus the body forces (C43_elastostatic_x_partial), hence exact without loads; with loads the claim is FALSE of the code (C43_elastostatic_x_false, a two-cell rod), because BodyLoads takes points and Jacobian as plain numbers. With surface loads and pressures (C43_loaded_*): derivatives with respect to state and control exact; with respect to coordinates exact for loads and refuted for pressures."
  },
  {
   "property": "C44",
   "status": "partial",
   "theorems": [
    "Plato.PlasProblem.C44_reaction",
    "Plato.PlasProblem.C44_first_partial",
    "Plato.C44_false"
   ],
   "note": "False as stated: the forward solve adds to the array, so a retry or a second solve doubles it."
  },
  {
   "property": "C45",
   "status": "proved",
   "theorems": [
    "Plato.Mech.C45_virtual_work"
   ],
   "note": ""
  },
  {
   "property": "C46",
   "status": "proved",
   "theorems": [
    "Plato.Thermal.C46_adjoint_scalar",
    "Plato.Thermal.C46_adjoint",
    "Plato.Thermal.C46_divergence"
   ],
   "note": "For every number of nodes, layout of unknowns, scale and field; any commutative ring of scalars. A cell touches only its own row."
  },
  {
   "property": "C47",
   "status": "proved",
   "theorems": [
    "Plato.Mech.C47_value",
    "Plato.Mech.C47_value_mesh",
    "Plato.Mech.C47_work",
    "Plato.Mech.C47_stiffness",
    "Plato.Mech.C47_entry",
    "Plato.Mech.C47_symmetric",
    "Plato.Mech.C47_semidefinite",
    "Plato.Mech.C47_minimum",
    "Plato.Mech.C47_affine",
    "Plato.Mech.C47_constant",
    "Plato.Mech.C47_rigid",
    "Plato.Mech.C47_balance",
    "Plato.Mech.C47_definite",
    "Plato.Material.C47_material"
   ],
   "note": "The bilinear form of gradient_u is the energy form of the mesh; symmetry, semidefiniteness, rigid motions in the kernel (and nothing else per cell when the stiffness is definite), value affine in the state, equilibrium minimises the potential energy. Over the reals."
  },
  {
   "property": "C48",
   "status": "partial",
   "theorems": [
    "Plato.Bnd.C48_weight",
    "Plato.Bnd.C48_weight_area",
    "Plato.Bnd.C48_value",
    "Plato.Bnd.C48_work",
    "Plato.Bnd.C48_resultant",
    "Plato.Bnd.C48_resultant_set",
    "Plato.Bnd.C48_interleaving",
    "Plato.Bnd.C48_race_false",
    "Plato.Bnd.C48_interior_false",
    "Plato.Bnd.C48_pressure_x_false"
   ],
   "note": "Proved for the faces handled one after the other (any order): every residual gets scale times the exact surface integral of traction times shape function, hence the exact virtual work and resultant. Concurrent faces: proved for side sets no two faces of which share a cell, refuted otherwise (plain load and store instead of an atomic addition). Refuted for faces between two cells, which are counted twice. The derivative of a pressure with respect to the coordinates is refuted: the normal is a plain number. Not modelled: parsing of the boundary condition lists."
  },
  {
   "property": "C49",
   "status": "proved",
   "theorems": [
    "Plato.Mech.C49_work",
    "Plato.Mech.C47_value_mesh",
    "Plato.Mech.integral_cell_affine"
   ],
   "note": "C49_work: the work of the nodal body forces is the Lebesgue integral over the convex hulls of the cells whenever the integrand is affine; C47_value_mesh identifies these forces as a summand of value. integral_cell_affine is the cell statement."
  },
  {
   "property": "C50",
   "status": "partial",
   "theorems": [
    "Plato.Material.C40_isotropic_density",
    "Plato.Material.C40_isotropic_functor",
    "Plato.Material.C40_orthotropic_isotropic",
    "Plato.Material.C40_orthotropic1",
    "Plato.Material.C40_orthotropic_accepts",
    "Plato.Material.C40_cubic_density_false",
    "Plato.Material.C40_isotropic_functor_line_false",
    "Plato.Material.C40_plane_false"
   ],
   "note": "Proved: density of isotropic materials, temperature dependent isotropic stiffness in 2D and 3D, agreement of orthotropic and isotropic types in 1D and 3D, the acceptance conditions. FALSE in the code and refuted: the cubic material ignores the mass density (always 1); the temperature dependent isotropic stiffness on the line multiplies by (1+v)(1-2v) instead of dividing; isotropic constants given to the 2D orthotropic type are read as plane stress while the isotropic type is plane strain."
  },
  {
   "property": "C51",
   "status": "partial",
   "theorems": [
    "Plato.Crit.C51_gradient_x",
    "Plato.Crit.C51_gradient_z",
    "Plato.Crit.C51_gradient_u_partial",
    "Plato.Crit.C51_differentiates",
    "Plato.Crit.C51_geo_differentiates",
    "Plato.Crit.C51_energy",
    "Plato.Crit.C51_volume",
    "Plato.Crit.C51_volume_geo",
    "Plato.Crit.C51_stressPNorm",
    "Plato.Crit.C51_weightedNorm",
    "Plato.Crit.C51_gradient_u_false"
   ],
   "note": "Full for gradient_x and gradient_z of every criterion whose cell evaluator tracks its derivatives, and for the elastic energy and the volume with any number of steps. For gradient_u with several steps the claim is false for criteria with a root over the sum (C51_gradient_u_false: the root is taken over one step only). The norms are proved for one state wherever the sum is not zero. Derivatives of the Barlat norm are not modelled (its value is C116)."
  },
  {
   "property": "C52",
   "status": "partial",
   "theorems": [
    "Plato.Crit.C52_value",
    "Plato.Crit.C52_scaling",
    "Plato.Crit.C52_homogeneous_partial",
    "Plato.Crit.C52_homogeneous_false",
    "Plato.Crit.C52_reference_false"
   ],
   "note": "The value is proved in closed form for every exponent. Homogeneity holds for integer exponents and is false for every other positive exponent on every mesh (the exponent inside the sum is truncated to an integer). With a reference strain the criterion reports a norm of one for a body without stress (the reference strain is ignored)."
  },
  {
   "property": "C53",
   "status": "partial",
   "theorems": [
    "Plato.Crit.C53_energy_value",
    "Plato.Crit.C53_energy_nonneg",
    "Plato.Crit.C53_energy_gradient",
    "Plato.Crit.C53_weight",
    "Plato.Crit.C53_volume",
    "Plato.Crit.C53_energy_negative"
   ],
   "note": "Energy claims proved without reference strain; with one the reported energy can be negative (C53_energy_negative). The volume counts every step of the solution."
  },
  {
   "property": "C54",
   "status": "partial",
   "theorems": [
    "Plato.Crit.C54_invariants3",
    "Plato.Crit.C54_invariants2",
    "Plato.Crit.C54_frame3",
    "Plato.Crit.C54_frame2",
    "Plato.Crit.C54_nonneg",
    "Plato.Crit.C54_zero3",
    "Plato.Crit.C54_zero2",
    "Plato.Crit.C54_scale",
    "Plato.Crit.C54_uniaxial",
    "Plato.Crit.C54_uniaxial1_false",
    "Plato.Crit.C54_compressed_rod",
    "Plato.Crit.vonMises_ok"
   ],
   "note": "Holds in two and three dimensions; refuted in one dimension, where the signed stress is returned, so that a compressed rod never violates a stress limit."
  },
  {
   "property": "C55",
   "status": "partial",
   "theorems": [
    "Plato.Crit.C55_structuralMass",
    "Plato.Crit.C55_partial",
    "Plato.Crit.C55_false"
   ],
   "note": "Holds for a domain made of the first cells of the mesh; refuted for any other: the configuration is gathered without the domain's cell list."
  },
  {
   "property": "C56",
   "status": "partial",
   "theorems": [
    "Plato.Rocket.C56_gradient_scaled",
    "Plato.Rocket.C56_gradient_false",
    "Plato.Rocket.C56_misfit"
   ],
   "note": "FALSE as stated: every reported entry is the derivative times the value of the control, because the difference is divided by the relative step. The misfit part of the statement is proved."
  },
  {
   "property": "C57",
   "status": "partial",
   "theorems": [
    "Plato.Thermal.C57_work",
    "Plato.Thermal.C57_balance",
    "Plato.Thermal.C57_uniform",
    "Plato.Thermal.C57_gradT_affine",
    "Plato.Thermal.C57_gradient_u",
    "Plato.Thermal.C57_gradient_z",
    "Plato.Thermal.C57_gradient_x_partial",
    "Plato.Thermal.C57_matrix",
    "Plato.Thermal.C57_entry",
    "Plato.Thermal.C57_symmetric",
    "Plato.Thermal.C57_semidefinite",
    "Plato.Thermal.C57_rows_columns",
    "Plato.Thermal.C57_input_symmetric",
    "Plato.Thermal.C57_input_number"
   ],
   "note": "Work, balance and derivatives also for temperature dependent conductivities; matrix, symmetry and definiteness for linear ones. gradient_x is exact but for body loads, whose weights the code computes from the mesh and not from the coordinates it differentiates (refuted for elastostatics in C43)."
  },
  {
   "property": "C58",
   "status": "partial",
   "theorems": [
    "Plato.Thermal.C58_gradient_u",
    "Plato.Thermal.C58_gradient_v",
    "Plato.Thermal.C58_gradient_z",
    "Plato.Thermal.C58_gradient_x",
    "Plato.Thermal.C58_work_partial",
    "Plato.Thermal.C58_steady_partial",
    "Plato.Thermal.C58_balance",
    "Plato.Thermal.C58_capacity",
    "Plato.Thermal.C58_capacity_symmetric",
    "Plato.Thermal.C58_capacity_semidefinite",
    "Plato.Thermal.C58_conduction_false",
    "Plato.Thermal.C58_rod_false"
   ],
   "note": "Derivatives, capacity matrix and balance proved in full. Work of conduction and agreement with the steady problem proved for conductivities that do not depend on temperature and refuted otherwise: the transient residual evaluates the flux without the temperature and then uses a constant that the input never sets, so conduction is absent."
  },
  {
   "property": "C59",
   "status": "proved",
   "theorems": [
    "Plato.Dyn.C59_gradient_u",
    "Plato.Dyn.C59_gradient_v",
    "Plato.Dyn.C59_gradient_a",
    "Plato.Dyn.C59_gradient_z",
    "Plato.Dyn.C59_gradient_x",
    "Plato.Dyn.C59_work",
    "Plato.Dyn.C59_stiffness",
    "Plato.Dyn.C59_damping",
    "Plato.Dyn.C59_mass",
    "Plato.Dyn.C59_mass_symmetric",
    "Plato.Dyn.C59_mass_semidefinite",
    "Plato.Dyn.C59_total_mass",
    "Plato.Dyn.C59_rayleigh",
    "Plato.Dyn.C59_static",
    "Plato.Dyn.C59_energy",
    "Plato.Dyn.C59_energy_antitone",
    "Plato.Dyn.C59_energy_conserved"
   ],
   "note": "With and without damping, any number of domains with their own material and Rayleigh coefficients. Natural boundary conditions are in C48. For the derivative with respect to coordinates the weights of the body loads are held fixed, as the code does (C43)."
  },
  {
   "property": "C60",
   "status": "partial",
   "theorems": [
    "Plato.Dyn.toMap_ok",
    "Plato.Dyn.C60_output_partial",
    "Plato.Dyn.C60_output_false"
   ],
   "note": "Proved for the stress; refuted for strain and velocity gradient: the residual stores the stress under all three names."
  },
  {
   "property": "C61",
   "status": "partial",
   "theorems": [
    "Plato.Tm.C61_gradient_u",
    "Plato.Tm.C61_gradient_z",
    "Plato.Tm.C61_gradient_x_partial",
    "Plato.Tm.C61_work_partial",
    "Plato.Tm.C61_balance",
    "Plato.Tm.C61_free_expansion_partial",
    "Plato.Tm.C61_one_way",
    "Plato.Tm.C61_scaling_partial",
    "Plato.Tm.C61_output",
    "Plato.Tm.C61_shear_expansion_false",
    "Plato.Tm.C61_one_dimension_false"
   ],
   "note": "Proved in two and three dimensions. Work and free expansion need an expansivity without shear components: those are ignored (refuted by C61_shear_expansion_false). In one dimension every evaluation is undefined behaviour (C61_one_dimension_false). The scaling is proved for tensors that do not depend on temperature. Body load weights are held fixed in the shape derivative (C43)."
  },
  {
   "property": "C62",
   "status": "partial",
   "theorems": [
    "Plato.Tm.C62_gradient_u",
    "Plato.Tm.C62_gradient_v",
    "Plato.Tm.C62_gradient_z",
    "Plato.Tm.C62_gradient_x",
    "Plato.Tm.C62_work_partial",
    "Plato.Tm.C62_balance",
    "Plato.Tm.C62_steady_partial",
    "Plato.Tm.C62_capacity",
    "Plato.Tm.C62_capacity_symmetric",
    "Plato.Tm.C62_output_partial",
    "Plato.Tm.C62_body_loads_false",
    "Plato.Tm.C62_scaling_false",
    "Plato.Tm.C62_output_false"
   ],
   "note": "Proved in two and three dimensions for an expansivity without shear components. Refuted: body loads are ignored, the rate of the heat content is not scaled as the conduction is, and the output of all domains but the last is lost."
  },
  {
   "property": "C63",
   "status": "proved",
   "theorems": [
    "Plato.J2.C63_update",
    "Plato.J2.C63_unique",
    "Plato.J2.C63_elastic",
    "Plato.J2.C63_solves",
    "Plato.J2.C63_residual",
    "Plato.J2.C63_history",
    "Plato.J2.radial_returned",
    "Plato.J2.returned_unique",
    "Plato.J2.returned_facts"
   ],
   "note": "For two and three dimensions, with and without temperature, over the reals. The yield function may exceed zero by the tolerance 1e-10 of the code; uniqueness excepts trial values between zero and the tolerance. In an elastic step the residual does not look at the yield function, as C63_residual states."
  },
  {
   "property": "C64",
   "status": "partial",
   "theorems": [
    "Plato.J2.C64_update",
    "Plato.J2.C64_residual",
    "Plato.J2.C64_gradient",
    "Plato.J2.C64_value_one",
    "Plato.J2.C64_gradient_x_one",
    "Plato.J2.C64_gradient_z_one",
    "Plato.J2.localValue_ok",
    "Plato.J2.C64_value_false",
    "Plato.J2.C64_gradient_x_false",
    "Plato.J2.C64_gradient_z_false"
   ],
   "note": "Proved for the update, the residual by cell and the derivatives by global and local states, for any division into domains. Refuted for several domains: the list of residuals is stored at the wrong cells, the derivatives by coordinates and control are undefined behaviour. These three are proved for one domain with all cells."
  },
  {
   "property": "C65",
   "status": "partial",
   "theorems": [
    "Plato.J2.C65_gradient_u",
    "Plato.J2.C65_gradient_up",
    "Plato.J2.C65_gradient_c_partial",
    "Plato.J2.C65_gradient_c_elastic",
    "Plato.J2.C65_gradient_cp",
    "Plato.J2.C65_gradient_z_one",
    "Plato.J2.C65_gradient_x_one",
    "Plato.J2.C65_gradient_c_false",
    "Plato.J2.C65_square_false",
    "Plato.J2.C65_gradient_c_active"
   ],
   "note": "By the local state: proved where the multiplier is not zero, and there the residual of an elastic cell has the identity as derivative; refuted where the multiplier is zero and the yield function is not (C65_gradient_c_false, C65_square_false): the residual jumps. By control and coordinates: one domain, because of C64. In every cell the matrix is the derivative among the local states with the same cells in flow (C65_gradient_c_active)."
  },
  {
   "property": "C66",
   "status": "partial",
   "theorems": [
    "Plato.blas3.C66_inverse",
    "Plato.J2.C66_local_jacobian_partial",
    "Plato.J2.C66_update_partial",
    "Plato.J2.C66_inverse_false",
    "Plato.J2.C66_square_false"
   ],
   "note": "Proved for positive isotropic hardening, at all smooth states with traceless backstress and at all states returned by the update. Refuted without isotropic hardening: the matrix of a cell with plastic flow is regular but its second pivot is zero, factors without exchange of rows divide by it. KokkosBatched is modelled by the unblocked algorithms."
  },
  {
   "property": "C67",
   "status": "partial",
   "theorems": [
    "Plato.Em.C67_gradient_u",
    "Plato.Em.C67_gradient_z",
    "Plato.Em.C67_gradient_x_partial",
    "Plato.Em.C67_work",
    "Plato.Em.C67_balance",
    "Plato.Em.C67_ground",
    "Plato.Em.C67_matrix",
    "Plato.Em.C67_symmetric",
    "Plato.Em.C67_scaling",
    "Plato.Em.C67_charge_work",
    "Plato.Em.C67_material",
    "Plato.Em.C67_material_alpha_partial",
    "Plato.Em.C67_output_partial",
    "Plato.Em.C67_output_false",
    "Plato.Em.C67_alpha_false",
    "Plato.Em.C67_charge_sign_false"
   ],
   "note": "Work, balance, ground potential, matrix, symmetry and scaling are proved for all materials in one, two and three dimensions. Refuted: a positive charge lowers the potential (C67_charge_sign_false), \"Alpha\" is ignored in one and two dimensions (C67_alpha_false), the outputs of electric field and displacement hold strain and stress (C67_output_false). Body load weights are held fixed in the shape derivative (C43)."
  },
  {
   "property": "C68",
   "status": "partial",
   "theorems": [
    "Plato.Em.C68_differentiates",
    "Plato.Em.C68_value",
    "Plato.Em.C68_residual",
    "Plato.Em.C68_gradient",
    "Plato.Em.C68_nonneg_false",
    "Plato.Em.C68_output_false"
   ],
   "note": "Value, derivatives and self-adjointness are proved. Refuted: the value of a stable material is negative for states with a field (it is the electric enthalpy), and the output of the electric displacement holds the stress."
  },
  {
   "property": "C69",
   "status": "partial",
   "theorems": [
    "Plato.Mass.C69_value",
    "Plato.Mass.C69_gradient",
    "Plato.Mass.C69_mass",
    "Plato.Mass.C69_first",
    "Plato.Mass.C69_first_partial",
    "Plato.Mass.C69_second",
    "Plato.Mass.C69_axis",
    "Plato.Mass.C69_rejects",
    "Plato.Mass.C69_first_false",
    "Plato.Mass.C69_second_false"
   ],
   "note": "The mass is exact for every linear field of densities; the value of every moment is that of the masses of the cells at their centres, and its gradients are its derivatives. What is missing to the moments of the body is given exactly (C69_first, C69_second): first moments are exact for densities constant in each cell; refuted for varying densities (C69_first_false), and second moments are too small for every body (C69_second_false). A moment about an axis that the space does not have reads out of bounds (C69_axis)."
  },
  {
   "property": "C70",
   "status": "partial",
   "theorems": [
    "Plato.Mass.C70_items",
    "Plato.Mass.C70_all",
    "Plato.Mass.C70_all_iff",
    "Plato.Mass.C70_zero",
    "Plato.Mass.C70_matches",
    "Plato.Mass.C70_rejects",
    "Plato.Mass.C70_duplicates",
    "Plato.Mass.C70_unknown",
    "Plato.Mass.C70_extent",
    "Plato.Mass.C70_no_mass",
    "Plato.Mass.C70_about_cg_partial",
    "Plato.Mass.C70_density_partial",
    "Plato.Mass.C70_about_cg_false",
    "Plato.Mass.C70_extent_false",
    "Plato.Mass.C70_density_false",
    "Plato.Mass.C70_elliptic_density_false",
    "Plato.Mass.C70_elliptic_list_false"
   ],
   "note": "For every accepted list with positive weights the value is never negative, is zero exactly when all listed properties have their gold values, and has its derivatives as gradients; mass, centre and inertia are those of the masses of the cells at their centres (C69). The rotated form uses an exact eigenvalue decomposition as a hypothesis. Refuted: inertia about the centre of gravity while the centre is not the gold one; meshes of one and two dimensions; a material missing from the list; densities and list of the elliptic criterion."
  },
  {
   "property": "C71",
   "status": "partial",
   "theorems": [
    "Plato.Plast.C71_work",
    "Plato.Plast.C71_schedule",
    "Plato.Plast.C71_rigid",
    "Plato.Plast.C71_forces",
    "Plato.Plast.C71_heat",
    "Plato.Plast.C71_volume",
    "Plato.Plast.C71_admissible",
    "Plato.Plast.C71_ratio",
    "Plato.Plast.C71_default_penalties_false",
    "Plato.Plast.C71_pressure_false"
   ],
   "note": "Work, balance of forces, moments, heat and volume hold for every mesh, order of loops and load. That the stress in the balance is one the material can carry holds when the residual and the local equations use the same penalty (C71_admissible); with their own defaults they do not, and the stress is off the yield surface (C71_ratio, C71_default_penalties_false). Without temperature a pressure on the boundary reads outside of the normal (C71_pressure_false)."
  },
  {
   "property": "C72",
   "status": "partial",
   "theorems": [
    "Plato.Plast.C72_gradient_u",
    "Plato.Plast.C72_gradient_up",
    "Plato.Plast.C72_gradient_c",
    "Plato.Plast.C72_gradient_cp",
    "Plato.Plast.C72_gradient_z",
    "Plato.Plast.C72_gradient_n",
    "Plato.Plast.C72_gradient_x_partial",
    "Plato.Plast.C72_gradient_x_false"
   ],
   "note": "The derivatives by the state, the previous state, the local state, the previous local state, the densities and the projected gradient are those of the assembled residual. The derivative by the coordinates is that of the residual without the boundary loads (C72_gradient_x_partial); with a load on the boundary it is not the derivative of the residual (C72_gradient_x_false)."
  },
  {
   "property": "C73",
   "status": "proved",
   "theorems": [
    "Plato.Plast.C73_residual",
    "Plato.Plast.C73_solutions",
    "Plato.Plast.C73_local",
    "Plato.Plast.C73_projection"
   ],
   "note": "For every mesh, scaling and order of the loops, provided no load acts on the equation of the pressure. Residual, local state and projection are those of the problem without scaling at the pressure and temperature that the unknowns stand for, the pressure equation times the scaling."
  },
  {
   "property": "C74",
   "status": "partial",
   "theorems": [
    "Plato.Plast.C74_space",
    "Plato.Plast.C74_plane_partial",
    "Plato.Plast.C74_plane_false"
   ],
   "note": "Three dimensions: the residual of an unloaded problem in another unit of length is the same up to the factors of force and volume. Two dimensions: the stabilisation takes the volume to the power 2/3 there too, so the residual depends on the unit; C74_plane_partial states by how much, C74_plane_false gives an instance."
  },
  {
   "property": "C75",
   "status": "proved",
   "theorems": [
    "Plato.Plast.C75_average",
    "Plato.Plast.C75_linear",
    "Plato.Plast.C75_bounds",
    "Plato.Plast.C75_stabilisation",
    "Plato.Plast.C75_first_step_false"
   ],
   "note": "For every mesh, state and order of the loops, at the nodes whose weight is not zero (elsewhere the code divides by zero). The projected gradient belongs to the next step; the one of the first step is zero, so a linear pressure is stabilised there (C75_first_step_false)."
  },
  {
   "property": "C76",
   "status": "partial",
   "theorems": [
    "Plato.PWork.C76_step",
    "Plato.PWork.C76_history",
    "Plato.PWork.C76_energy",
    "Plato.PWork.C76_path",
    "Plato.PWork.C76_nonneg",
    "Plato.PWork.C76_thermal_false",
    "Plato.PWork.C76_rest_negative",
    "Plato.PWork.C76_step_3d",
    "Plato.PWork.C76_history_3d",
    "Plato.PWork.C76_cycle_false",
    "Plato.PWork.C76_cycle_tetra"
   ],
   "note": "Holds in two dimensions without temperature, for every mesh, history and order of the loops. It fails in three dimensions: the trace is taken of components 0, 1, 3 (yy, xx and a shear), so a closed cycle has work (C76_cycle_false, exact value); and with temperature: the first step starts from temperature zero instead of the reference (C76_thermal_false)."
  },
  {
   "property": "C77",
   "status": "proved",
   "theorems": [
    "Plato.PWork.C77_value",
    "Plato.PWork.C77_elastic",
    "Plato.PWork.C77_total",
    "Plato.PWork.C77_dissipation"
   ],
   "note": "For every mesh, history and order of the loops. C77_total only in two dimensions; C77_dissipation without kinematic hardening and up to the tolerance of the yield condition, as stated."
  },
  {
   "property": "C78",
   "status": "partial",
   "theorems": [
    "Plato.PWork.C78_gradient_u",
    "Plato.PWork.C78_gradient_up",
    "Plato.PWork.C78_gradient_c",
    "Plato.PWork.C78_gradient_cp",
    "Plato.PWork.C78_gradient_z",
    "Plato.PWork.C78_weighted",
    "Plato.PWork.C78_weighted_error",
    "Plato.PWork.C78_weighted_gradient",
    "Plato.PWork.C78_partial_z",
    "Plato.PWork.C78_gradient_x_false",
    "Plato.PWork.C78_partial_x_false"
   ],
   "note": "All derivatives except the one by the coordinates, which stops with an error in every run (C78_gradient_x_false, C78_partial_x_false). The total derivative with the adjoint is not modelled."
  },
  {
   "property": "C79",
   "status": "partial",
   "theorems": [
    "Plato.Plast.C79_agree",
    "Plato.Plast.C79_exponents",
    "Plato.Plast.C79_criteria",
    "Plato.Plast.C79_empty",
    "Plato.Plast.C79_plastic_defaults",
    "Plato.Plast.C79_no_list",
    "Plato.Plast.C79_first_domain_false",
    "Plato.Plast.C79_domains_false",
    "Plato.Plast.C79_defaults_false",
    "Plato.Plast.C79_exponent_false"
   ],
   "note": "Holds for the equations for local and global unknowns, for the criteria and for the projection in all domains but the first, for any number of updates. It fails for the projection in the first domain, which is updated twice (C79_first_domain_false, C79_domains_false), for the elastic work criterion when the step is left to its default, which is 1.1 instead of 0.1 (C79_defaults_false), and for both criteria when the exponent is left to its default (C79_exponent_false)."
  },
  {
   "property": "C80",
   "status": "partial",
   "theorems": [
    "Plato.Bnd.C80_traction",
    "Plato.Bnd.C80_pressure",
    "Plato.Bnd.C80_sound",
    "Plato.Bnd.C80_undefined",
    "Plato.Bnd.C80_list",
    "Plato.Bnd.C80_time",
    "Plato.Bnd.C80_time_false",
    "Plato.Bnd.C80_longer_false",
    "Plato.Bnd.C80_plane_z_false",
    "Plato.Bnd.C80_plasticity_values_false",
    "Plato.Bnd.C80_thermo_z_false",
    "Plato.Bnd.C80_heat_y_false"
   ],
   "note": "Every well formed block is accepted and applied as asked, for all layouts of unknowns; accepted blocks are applied as asked unless an entry was dropped; the undefined cases are characterised exactly. It fails for functions of time except in hyperbolic problems, for arrays that are too long or too short, and for components that do not exist in the plane or in a heat flux. Of the texts of expressions only the functions they stand for are modelled."
  },
  {
   "property": "C81",
   "status": "partial",
   "theorems": [
    "Plato.HeatBnd.C81_steady_work",
    "Plato.HeatBnd.C81_steady_balance",
    "Plato.HeatBnd.C81_transient_work_partial",
    "Plato.HeatBnd.C81_transient_balance",
    "Plato.HeatBnd.C81_thermo_work_partial",
    "Plato.HeatBnd.C81_thermo_balance",
    "Plato.HeatBnd.C81_thermo_transient_work_partial",
    "Plato.HeatBnd.C81_thermo_transient_balance",
    "Plato.HeatBnd.C81_sign_false"
   ],
   "note": "Work and balances hold for all meshes, states, materials, side sets and fluxes; the work theorems of transient conduction and thermomechanics carry the restrictions of C58, C61 and C62. The common sign fails: a flux leaves the body in heat conduction and enters it in thermomechanics (C81_sign_false)."
  },
  {
   "property": "C82",
   "status": "partial",
   "theorems": [
    "Plato.Plast.C82_names",
    "Plato.Plast.C82_output_partial",
    "Plato.Plast.C82_cauchy_plane",
    "Plato.Plast.C82_cauchy_space_false",
    "Plato.Plast.C82_principal_plane_partial",
    "Plato.Plast.C82_principal_thermal_false",
    "Plato.Plast.C82_principal_shear_false",
    "Plato.Plast.C82_principal_space_partial",
    "Plato.Plast.C82_principal_expansion_false"
   ],
   "note": "Proved for all states, materials, cells and schedules: exactly the requested names are stored, and multiplier, accumulated plastic strain, deviatoric stress, elastic strain, plastic strain, backstress, heat flux, in the plane also the Cauchy stress, show what their names say. False: in three dimensions the Cauchy stress takes a shear component for a normal one (C82_cauchy_space_false, an equivalence); the principal stresses ignore the thermal strain (C82_principal_thermal_false, C82_principal_expansion_false) and negative shear in the plane (C82_principal_shear_false)."
  },
  {
   "property": "C83",
   "status": "proved",
   "theorems": [
    "Plato.Cond.C83_newton_system"
   ],
   "note": "For all meshes, numbers of local unknowns, states, linearisations and schedules. Hypotheses: every leading block of each local Jacobian is regular (elimination without pivoting, C66). An example on a bar of two elements meets them."
  },
  {
   "property": "C84",
   "status": "proved",
   "theorems": [
    "Plato.Cond.C84_adjoint_step",
    "Plato.Cond.C84_configuration"
   ],
   "note": "For all meshes, states, linearisations, criteria, adjoint values of the following step and schedules. C84_adjoint_step: the condensed adjoint system is equivalent to the adjoint equations of global and local unknowns. C84_configuration: contribution of a step by the coordinates, into a vector of the right length."
  },
  {
   "property": "C85",
   "status": "partial",
   "theorems": [
    "Plato.Cond.C85_gradient_partial",
    "Plato.Cond.C85_configuration_false",
    "Plato.Cond.C85_configuration_bar"
   ],
   "note": "C85_gradient_partial: whenever the routine returns, its result times any change of the controls is the change of the criterion along the linearised steps, over any number of steps. Missing from the full statement: the pressure with which the projection is differentiated by the controls is that of the same step in the routine while the projection itself reads that of the step before (see C35_false_projection), so PZ stands for the derivative that the routine computes; partial correctness only, since the linear solver may fail. C85_configuration_false: the gradient by the coordinates is never returned if some node of the mesh has a number of at least the number of nodes of a cell, because the result has as many entries as a single cell has coordinates."
  },
  {
   "property": "C86",
   "status": "proved",
   "theorems": [
    "Plato.Cond.C86_newton_plasticity",
    "Plato.Cond.C86_newton_iteration"
   ],
   "note": "Composition of C63, C65, C66, C72 and C83 for the equations of J2 plasticity and thermoplasticity: any mesh, domains, loads, states and schedules. The derivative of the local residual by the local state is that among the states with the same cells in flow (the residual jumps where flow begins, C65_gradient_c_false). Without isotropic hardening the system is not computed at all (C66_inverse_false), hence the hypothesis. An example in which both cells flow meets the hypotheses."
  },
  {
   "property": "C87",
   "status": "partial",
   "theorems": [
    "Plato.HeatCrit.C87_energy_partial",
    "Plato.HeatCrit.C87_nonneg_partial",
    "Plato.HeatCrit.C87_work_partial",
    "Plato.HeatCrit.C87_energy_gradient",
    "Plato.HeatCrit.C87_norm",
    "Plato.HeatCrit.C87_norm_homogeneous",
    "Plato.HeatCrit.C87_norm_gradient",
    "Plato.HeatCrit.C87_nonlinear_false",
    "Plato.HeatCrit.C87_rod_false",
    "Plato.HeatCrit.C87_exponent_false"
   ],
   "note": "For constant conductivity the energy is the conduction form of the residual on the temperature itself, is not negative, and equals the work of the residual plus the heat supplied; the norm of the flux is proved in closed form, homogeneous, and both criteria return their derivatives by coordinates, temperatures and controls. False: with a conductivity declared as temperature dependent energy and norm are zero on every mesh although the residual conducts (C87_nonlinear_false, C87_rod_false); an exponent that is not an integer is truncated (C87_exponent_false)."
  },
  {
   "property": "C88",
   "status": "partial",
   "theorems": [
    "Plato.Homog.C88_residual",
    "Plato.Homog.C88_value",
    "Plato.Homog.C88_energy",
    "Plato.Homog.C88_minimum",
    "Plato.Homog.C88_symmetric",
    "Plato.Homog.C88_gradient",
    "Plato.Homog.C88_input",
    "Plato.Homog.C88_input_false",
    "Plato.Homog.C88_rod"
   ],
   "note": "Proved for all meshes, domains, densities, symmetric stiffnesses and schedules, for the residual of elastostatics with cell forcing and the criterion on storage. The bounds ask for stiffnesses, weights and penalties that are not negative. False: without the list Cell Problem Forcing or with too few entries of Assumed Strain the constructor reads memory it does not own instead of giving a message (C88_input_false). C88_rod: two elements of stiffness 1 and 2 give the harmonic mean."
  },
  {
   "property": "C89",
   "status": "partial",
   "theorems": [
    "Plato.Trans.C89_value",
    "Plato.Trans.C89_state_value",
    "Plato.Trans.C89_first_ignored",
    "Plato.Trans.C89_empty_false",
    "Plato.Trans.C89_gradient_x",
    "Plato.Trans.C89_gradient_z",
    "Plato.Trans.C89_gradient_z_partial",
    "Plato.Trans.C89_gradient_field_partial",
    "Plato.Trans.C89_state_gradients",
    "Plato.Trans.C89_thermal_gradients",
    "Plato.Trans.C89_elastic_gradients",
    "Plato.Trans.C89_elastic_double",
    "Plato.Trans.C89_average_value",
    "Plato.Trans.C89_first_gradient",
    "Plato.Trans.C89_late_rate_false",
    "Plato.Trans.C89_average_false",
    "Plato.Trans.C89_first_step_false"
   ],
   "note": "Proved for any criterion given as a function of the cells, any number of fields, domains and steps, all meshes and schedules, for both transient classes; instantiated with the thermal energy, the temperature average, elastic energy and stress norm. Gradients by states and rates hold for steps after the first; a criterion with a norm needs two steps (C89_gradient_field_partial). False: the value leaves out the first step but the gradient at that step is that of its cells (C89_first_step_false); the parabolic gradient by controls reads the rates one step late (C89_late_rate_false; exact for the criteria that do not read the rate); the temperature average is not divided by the volume (C89_average_false, C89_average_value); the transient elastic energy is twice the steady one (C89_elastic_double); an empty history is undefined (C89_empty_false)."
  },
  {
   "property": "C90",
   "status": "partial",
   "theorems": [
    "Plato.TmCrit.C90_value_partial",
    "Plato.TmCrit.C90_work",
    "Plato.TmCrit.C90_nonneg_partial",
    "Plato.TmCrit.C90_gradient",
    "Plato.TmCrit.C90_transient_value",
    "Plato.TmCrit.C90_transient_gradients",
    "Plato.TmCrit.C90_sign_false",
    "Plato.TmCrit.C90_clamped_false",
    "Plato.TmCrit.C90_option_false",
    "Plato.TmCrit.C90_slab_negative",
    "Plato.TmCrit.C90_option_steel"
   ],
   "note": "Value, relation to the residual and all gradients hold for every mesh, material (also temperature dependent), history and order of loops, in steady and transient problems; the value is the work of the stress on the strain without shear expansion (C61). Not negative without thermal expansion (C90_nonneg_partial). False: with thermal expansion the stress, which belongs to the elastic strain, is paired with the whole strain, so heated bodies at half of their free expansion have negative energy (C90_sign_false) and clamped heated bodies have none (C90_clamped_false); the option \"Include Thermal Strain\" has no effect (C90_option_false)."
  },
  {
   "property": "C91",
   "status": "partial",
   "theorems": [
    "Plato.TmCrit.C91_constant",
    "Plato.TmCrit.C91_temperature",
    "Plato.TmCrit.C91_components_partial",
    "Plato.TmCrit.C91_number_false",
    "Plato.TmCrit.C91_list_false",
    "Plato.TmCrit.C91_components_false"
   ],
   "note": "With numbers for the constants, or with a list for the modulus of a temperature dependent material, the material is isotropic with the given constants at every temperature, with the documented defaults. False: a number for the modulus of a temperature dependent material and a list for that of a constant one are accepted and give zero stiffness (C91_number_false, C91_list_false); stiffness components are rejected unless written in a second list of the same name (C91_components_false, C91_components_partial)."
  },
  {
   "property": "C92",
   "status": "partial",
   "theorems": [
    "Plato.Mpmd.C92_value_partial",
    "Plato.Mpmd.C92_history_partial",
    "Plato.Mpmd.C92_target_false",
    "Plato.Mpmd.C92_definition_false",
    "Plato.Mpmd.C92_name_false"
   ],
   "note": "For every input, history of commands (also with exceptions) and problem: the value exported under the name of an operation is the value computed by the last call of this operation less its target, if no other called operation writes the same criterion and the name has no \"@\". False without: two operations of one criterion with different targets (C92_target_false), one criterion in two problem definitions (C92_definition_false), a name with \"@\" (C92_name_false)."
  },
  {
   "property": "C93",
   "status": "partial",
   "theorems": [
    "Plato.Mpmd.C93_map",
    "Plato.Mpmd.C93_import",
    "Plato.Mpmd.C93_import_plain",
    "Plato.Mpmd.C93_gradient_partial",
    "Plato.Mpmd.C93_repeat",
    "Plato.Mpmd.C93_twice_false",
    "Plato.Mpmd.C93_roundtrip_false",
    "Plato.Mpmd.C93_file_false"
   ],
   "note": "With a mesh map (symmetry, filter) an import of the topology stores the mapped topology, and the first export of a gradient after it is computed is the derivative by the topology of the optimizer, for every map (the two directions are adjoint, C93_map, from C16) and differentiable value. Without a map exports are the same each time (C93_repeat). False: the gradient is mapped in place, so a second export maps it again (C93_twice_false); an exported topology is the mapped one, so it can not be imported again (C93_roundtrip_false); the file of OutputToHDF5 has the gradient before or after the mapping, depending on the order of calls (C93_file_false)."
  },
  {
   "property": "C94",
   "status": "partial",
   "theorems": [
    "Plato.Mpmd.C94_value_partial",
    "Plato.Mpmd.C94_gradient_partial",
    "Plato.Mpmd.C94_reload_false",
    "Plato.Mpmd.C94_failed_false",
    "Plato.Mpmd.C94_dimension_false",
    "Plato.Mpmd.C94_stale_false",
    "Plato.Mpmd.C94_switch_false",
    "Plato.Mpmd.C94_reinitialize_false"
   ],
   "note": "For every input and history of commands that return (without ReloadMesh and UpdateProblem, dimensions 1 to 3): values and their gradients are those for the parameters loaded for the definition of the operation with the imports of parameters so far, the mesh, the topology and the solution for them. Operations that compute a gradient only are right if an operation of the same definition solved since the last change. False: ReloadMesh drops imported parameters (C94_reload_false); a failed creation leaves the application without a problem, and the same call again is undefined (C94_failed_false); another dimension silently keeps the old problem (C94_dimension_false); gradients alone after an import of a parameter, an operation of another definition or Reinitialize use a stale or zero solution (C94_stale_false, C94_switch_false, C94_reinitialize_false)."
  },
  {
   "property": "C95",
   "status": "partial",
   "theorems": [
    "Plato.Mpmd.C95_scalar",
    "Plato.Mpmd.C95_component_partial",
    "Plato.Mpmd.C95_missing",
    "Plato.Mpmd.C95_import",
    "Plato.Mpmd.C95_index_false",
    "Plato.Mpmd.C95_unknown_false",
    "Plato.Mpmd.C95_type_false",
    "Plato.Mpmd.C95_list_false"
   ],
   "note": "For targets of any depth: an imported parameter sets exactly the entry, or the component of an array, that its target names; a list that does not exist is reported. False: an index past the end of the array is an access out of bounds (C95_index_false), an unknown name creates an entry that nobody reads (C95_unknown_false), entries of other types and whole lists are replaced (C95_type_false), a target that is a list is read past the end (C95_list_false)."
  },
  {
   "property": "C96",
   "status": "partial",
   "theorems": [
    "Plato.Mpmd.C96_rounds_partial",
    "Plato.Mpmd.C96_unchanged",
    "Plato.Mpmd.C96_failed_false"
   ],
   "note": "For any number of rounds with other commands between that return: after Reinitialize the problem is that of the present files and imported parameters, with OnChange true or false; with OnChange and the same parameters nothing is created. False after a failed creation: the parameters are stored before the problem is created, so that a repeated call does nothing (C96_failed_false)."
  },
  {
   "property": "C97",
   "status": "partial",
   "theorems": [
    "Plato.Mpmd.C97_gradient_partial",
    "Plato.Mpmd.C97_solution_partial",
    "Plato.Mpmd.C97_coordinates_false",
    "Plato.Mpmd.C97_coordinates_run",
    "Plato.Mpmd.C97_steps_false",
    "Plato.Mpmd.C97_components_false",
    "Plato.Mpmd.C97_bounds_false"
   ],
   "note": "Gradients by the topology (without mesh map) and components of the solution with one step and as many unknowns as dimensions: file and export are the same. False: for gradients by the coordinates the file gets nothing, and every later export of this gradient throws, for every state (C97_coordinates_false, by initialization and operation in C97_coordinates_run); the file has the first step, the export the last (C97_steps_false); with other numbers of unknowns the file mixes components (C97_components_false) and a component that the problem does not have is read out of bounds (C97_bounds_false)."
  },
  {
   "property": "C98",
   "status": "partial",
   "theorems": [
    "Plato.Mpmd.C98_chain_partial",
    "Plato.Mpmd.C98_difference_partial",
    "Plato.Mpmd.C98_two_false",
    "Plato.Mpmd.C98_length_false",
    "Plato.Mpmd.C98_index_false",
    "Plato.Mpmd.C98_bounds_false",
    "Plato.Mpmd.C98_vector_false"
   ],
   "note": "For any numbers of coordinates and design parameters: the mapped gradient is the derivative of the criterion by the design parameters (chain rule, HasDerivAt); the difference quotient is written to the entry of the perturbed parameter, differs from the slope by at most C|delta|, and other entries stay. False: two mapping operations with different numbers of inputs write out of bounds (C98_two_false); an input longer than the gradient is read out of bounds (C98_length_false); without \"Perturbed Index\" the increment is zero (C98_index_false); the index is not checked (C98_bounds_false); without \"Vector Length\" the constructor dereferences a null pointer (C98_vector_false)."
  },
  {
   "property": "C99",
   "status": "partial",
   "theorems": [
    "Plato.Mpmd.C99_topology_partial",
    "Plato.Mpmd.C99_size_partial",
    "Plato.Mpmd.C99_switch_false",
    "Plato.Mpmd.C99_gradient_false",
    "Plato.Mpmd.C99_files_false",
    "Plato.Mpmd.C99_thrown_false"
   ],
   "note": "If all meshes have the same number of nodes: the topology that was imported last is exported, after any history with exceptions, changes of files and creations of problems. With meshes of different sizes: after any history of commands that return and files that do not change, the topology has the size of the present mesh. False: another mesh resets the topology to ones without an error (C99_switch_false); gradients are resized as copies, so exports for the new mesh throw (C99_gradient_false); after a change of the files and an import of a parameter, or after a failed creation, mesh and topology have different sizes (C99_files_false, C99_thrown_false)."
  }
 ]
}