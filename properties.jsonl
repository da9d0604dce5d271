{"id": "C01", "title": "Sparse product adds exactly A*x", "statement": "Plato::MatrixTimesVectorPlusVector(A, x, b) leaves b(i) + sum_j A(i,j) x(j) in b(i), where A(i,j) is the sum of all stored entries of row i whose column is j, for block matrices (r x c blocks) and scalar matrices alike, and in whatever order rows are processed.", "quantifier": "every CRS matrix (row map, columns, entries), every block shape, every x, every b, every row schedule", "why_tests_cant": "tests multiply a handful of fixed matrices; the claim ranges over every sparsity pattern, block shape and thread order", "anchors": ["src/PlatoMathHelpers.hpp: MatrixTimesVectorPlusVector", "src/alg/CrsMatrix.hpp"]}
{"id": "C02", "title": "Block to scalar conversion keeps the matrix", "statement": "Reading a block matrix as a scalar one (getDataAsNonBlock) yields row map, columns and values that denote the same dense matrix, and writing that scalar data back into the block pattern (setDataFromNonBlock) restores every block entry.", "quantifier": "every block matrix, every block size", "why_tests_cant": "tests round-trip one small matrix; an index slip for another block shape or an empty row goes unseen", "anchors": ["src/PlatoMathHelpers.hpp: getDataAsNonBlock, setDataFromNonBlock"]}
{"id": "C03", "title": "Sorting the columns of a row is a stable-content sort", "statement": "sortColumnEntries returns, for every row, the same (column,value) pairs in nondecreasing column order; no entry is lost, duplicated, or moved to another row, so the dense matrix is unchanged.", "quantifier": "every row map, columns and values", "why_tests_cant": "loop-boundary mistakes in a hand-written exchange sort show up only for particular lengths and orders", "anchors": ["src/PlatoMathHelpers.hpp: sortColumnEntries"]}
{"id": "C04", "title": "Lumped and diagonal inverse products", "statement": "RowSummedInverseMultiply(A,B) replaces every stored entry B(i,j) by B(i,j)/rowsum_i(A), and Condense(A,B,C,D) yields A - B*diag(1/rowsum(C))*D on the stored pattern; the row sum itself is the sum over all stored entries of the row.", "quantifier": "every sparse A, B with nonzero row sums", "why_tests_cant": "finite tests cannot cover all patterns", "anchors": ["src/PlatoMathHelpers.hpp: RowSummedInverseMultiply, Condense, MatrixMinusMatrix", "src/PlatoMathFunctors.hpp: RowSum, InverseWeight, DiagonalInverseMultiply"]}
{"id": "C05", "title": "The matrix graph has one entry per coupled node pair and one diagonal entry", "statement": "CreateBlockMatrix/CreateMatrix produce for every node row a column list that contains the node itself exactly once and each neighbouring node exactly once, in ascending order when the mesh adjacency is ascending, and nothing else; row map entries are the running sums of the row lengths.", "quantifier": "every node adjacency without self loops", "why_tests_cant": "the diagonal is spliced into the row at a position that depends on the neighbours; tests see a few rows only", "anchors": ["src/ImplicitFunctors.hpp: CreateBlockMatrix, CreateMatrix"]}
{"id": "C06", "title": "Entry look-up finds the entry, or reports absence", "statement": "The element matrix look-ups (block, transposed block, scalar) return the storage position of the block for (row node, column node) and local dofs (i,j) whenever the two nodes are coupled, return a negative value when they are not, and never map two different (node,dof,node,dof) tuples to one position.", "quantifier": "every graph, every element, every pair of local dofs", "why_tests_cant": "an aliasing position corrupts another entry silently; tests sample a few elements", "anchors": ["src/ImplicitFunctors.hpp: BlockMatrixEntryOrdinal, BlockMatrixTransposeEntryOrdinal, MatrixEntryOrdinal"]}
{"id": "C07", "title": "Assembled Jacobian is the sum of scattered element Jacobians under every thread schedule", "statement": "After assembling element matrices into a created matrix with atomic adds, the dense matrix equals the sum over elements and local dof pairs of the element entry at the global pair, independently of the order in which threads perform the adds; the transposed assembly gives the transposed sum.", "quantifier": "every mesh connectivity, every workset, every interleaving of the atomic adds", "why_tests_cant": "a test observes a single schedule on a tiny mesh", "anchors": ["src/Assembly.hpp: assemble_jacobian_fad, assemble_transpose_jacobian, assemble_jacobian_transpose_pod", "src/WorksetBase.hpp"]}
{"id": "C08", "title": "Residual assembly is adjoint to workset gathering", "statement": "assemble_residual sums every element contribution into its global dof exactly once, under every schedule, and for any global vector u and element workset w: <assemble(w),u> = <w, gather(u)>; domain-wise assembly over a partition of the elements equals assembly over all elements.", "quantifier": "every connectivity, number of dofs per node, workset, partition into domains, schedule", "why_tests_cant": "off-by-one dof numbering that cancels on symmetric tests is not seen", "anchors": ["src/Assembly.hpp: assemble_residual, workset_state_scalar_scalar", "src/ImplicitFunctors.hpp: VectorEntryOrdinal"]}
{"id": "C09", "title": "Constrained system returns the prescribed values and keeps the free equations", "statement": "For a symmetric system matrix with symmetric sparsity pattern, after applyConstraints/applyBlockConstraints any solution of the modified system takes the prescribed value (times the scale) at each constrained dof and satisfies the original equations at every unconstrained dof.", "quantifier": "every symmetric CRS matrix, every set of distinct constrained dofs and values, every scale, every right hand side", "why_tests_cant": "requires quantification over matrices and dof sets", "anchors": ["src/ApplyConstraints.hpp: applyConstraints, applyBlockConstraints"]}
{"id": "C10", "title": "Constraint application keeps symmetry and is order independent", "statement": "applyConstraints leaves a symmetric matrix symmetric with unit rows and columns at constrained dofs, and the resulting matrix and right hand side do not depend on the order in which the (distinct) constrained dofs are processed nor on the block or scalar storage of the matrix.", "quantifier": "every symmetric matrix, every ordering of the dof list", "why_tests_cant": "a test runs one order", "anchors": ["src/ApplyConstraints.hpp"]}
{"id": "C100", "title": "Names that do not exist or are used twice are reported, and nothing is changed", "statement": "A request for an operation, a parameter, a value or a field that the input does not define throws and leaves the application as it is; an input that uses a name for two different things, or an unknown function, is rejected.", "quantifier": "all states, names and inputs", "why_tests_cant": "names are unbounded, and a request that silently does nothing passes tests that use right names", "anchors": ["src/Analyze_App.cpp", "src/Analyze_App.hpp"]}
{"id": "C101", "title": "The stabilised problem solves the coupled equations and reports total derivatives", "statement": "After a solve every step takes the prescribed values, is in equilibrium, and its projected pressure gradient belongs to its own pressures; the reported gradient of a criterion with respect to controls or coordinates is the derivative of the criterion along these solutions.", "quantifier": "all meshes, physics with a projected pressure gradient, numbers of steps and iterations, boundary values, criteria, designs and stored data", "why_tests_cant": "the number of iterations and the dependence of the projection on the design are unbounded choices; with one iteration count and a uniform design a wrong adjoint can pass", "anchors": ["src/EllipticVMSProblem.hpp", "src/Plato_Solve.hpp", "src/PlatoMathHelpers.hpp"]}
{"id": "C102", "title": "A linear solve hands over the assembled system and returns its solution", "statement": "The library selected by the input receives the entries of the assembled matrix, the right hand side and the iteration limit and tolerance of the input; after a solve that returns, the vector solves the assembled system; systems of another size than the mesh and stacks that do not exist are refused.", "quantifier": "all block matrices, vectors, libraries, options and builds", "why_tests_cant": "tests solve small systems with one build and default options; sizes, sparsity, options and failures of the iteration are unbounded", "anchors": ["src/alg/EpetraLinearSolver.cpp", "src/alg/TpetraLinearSolver.cpp", "src/alg/PlatoSolverFactory.cpp"]}
{"id": "C103", "title": "The general stress criterion adds normalised mass and augmented Lagrangian of the excess stress", "statement": "The criterion is the weight of the mass times the mass relative to the full design (or the normalisation of the input) plus the weight of the stress times the mean augmented Lagrangian of the von Mises stress over its limit, whatever the blocks of the mesh; updates never decrease a multiplier, keep the penalty below its bound and reach value and gradients alike; gradients are the derivatives of the value after every history of updates.", "quantifier": "all meshes, blocks, materials, inputs, states, controls, configurations, schedules and histories of updates", "why_tests_cant": "tests evaluate a cube with one block and one update; histories, block structures and states at the kink of the constraint are unbounded", "anchors": ["src/Plato_AugLagStressCriterionGeneral.hpp", "src/elliptic/PhysicsScalarFunction.hpp", "src/VonMisesYieldFunction.hpp", "src/Plato_TopOptFunctors.hpp"]}
{"id": "C104", "title": "The initial state is the one asked for in the input", "statement": "A computed field has at every node the value of its expression at the coordinates of the node. An initial state given for a degree of freedom by a computed field is the state of the problem at the first step, every degree of freedom that is not named starts from zero, the order of the entries does not matter, and an input that names an unknown degree of freedom or field, or gives no list, is refused.", "quantifier": "all meshes of one to three dimensions, numbers of degrees of freedom, expressions, inputs and schedules", "why_tests_cant": "tests initialise one field on a cube; names, orders of entries, dimensions and meshes are unbounded", "anchors": ["src/ComputedField.hpp", "src/parabolic/Problem.hpp", "src/hyperbolic/HyperbolicProblem.hpp", "src/parabolic/TransientThermomechResidual.hpp", "src/hyperbolic/ElastomechanicsResidual.hpp"]}
{"id": "C105", "title": "Data saved for a step are the data of that step", "statement": "After any sequence of storing fields by domain or as a whole, saving states and clearing, each saved state has for every field the values that the field had when the state was saved, the current values are the ones stored last, and a state that was not saved is refused.", "quantifier": "all sequences of operations, names, sizes, domains and schedules", "why_tests_cant": "tests look at the last state of a run; histories of storing and saving are unbounded, and shared storage shows only over several steps", "anchors": ["src/PlatoStaticsTypes.hpp", "src/ToMap.hpp", "src/hyperbolic/HyperbolicProblem.hpp", "src/hyperbolic/ElastomechanicsResidual.hpp", "src/parabolic/TransientThermomechResidual.hpp"]}
{"id": "C106", "title": "Output files show the computed fields of every step", "statement": "For every problem that can be created, writing the output adds one frame per step of the solution. The frame of a step has under its name each field of the physics at every node, with the values in the solution at this step, the controls, and the element data saved at this step.", "quantifier": "all kinds of physics and equations, dimensions, meshes, numbers of steps, saved data and schedules", "why_tests_cant": "tests run single examples and compare few files; kinds of physics, steps, meshes and saved names are unbounded", "anchors": ["src/AnalyzeOutput.hpp", "src/OmegaHUtilities.hpp", "src/PlatoUtilities.hpp", "src/PlatoProblemFactory.hpp", "src/Analyze_App.cpp"]}
{"id": "C107", "title": "A front moves with its speed and reinitialisation keeps its position", "statement": "A step of the level set changes the value at every node by the time step times a rate between the smallest and largest speed times gradient length of the elements around it, or not at all. With speeds that are not negative no value grows, minima stay, and every element in which the level set is not flat has a node that moves. Reinitialisation changes a value by the pseudo time step times its sign times one minus a gradient length around the node, and keeps the sign of every node unless the level set is too steep. Area and volume rate are the integrals of the smeared delta function and of its product with the speed.", "quantifier": "all dimensions, meshes, level sets, speeds, time steps, numbers of passes and schedules", "why_tests_cant": "tests compare areas of a few cylinders with a tolerance; level sets, meshes and orders of atomic additions are unbounded", "anchors": ["src/HamiltonJacobi.hpp", "src/Plato_LevelSetCylinderInBox.hpp", "src/Plato_LevelSetOnExternalMesh.hpp", "src/ImplicitFunctors.hpp"]}
{"id": "C108", "title": "The history of the level set shows each step at its time", "statement": "After any number of initialisations and runs, the history written has for every step of the last run one frame with the time of the step and the level set at this time, and no run writes outside the storage of the history.", "quantifier": "all burn times, time steps, movements, numbers of steps and sequences of runs", "why_tests_cant": "tests do not look at frames, and an access outside a view is not reported; numbers of steps and runs are unbounded", "anchors": ["src/Plato_LevelSetCylinderInBox.hpp", "src/Plato_LevelSetOnExternalMesh.hpp", "src/Plato_AlgebraicRocketModel.hpp", "src/PlatoRocketApp.cpp", "src/HamiltonJacobi.hpp"]}
{"id": "C109", "title": "Elastostatics with pressure has the forces of elastostatics", "statement": "In the formulation with displacements and pressure, rigid motions cause no forces, forces on each cell add up to the loads, the stabilisation changes no volume and only damps gradients of the pressure, and a cell whose pressure is the bulk modulus times its change of volume and whose projected pressure gradient is its own has no residual in the pressure and, in the displacements, the forces of the same material in plain elastostatics, in the plane and in space, with or without reference strain.", "quantifier": "all meshes, states, projected gradients, controls, isotropic materials and schedules", "why_tests_cant": "tests compare the residual of one mesh with recorded numbers; meshes, states, moduli and orders of loops are unbounded, and numbers recorded from the code cannot show a wrong trace or an ignored reference strain", "anchors": ["src/StabilizedElastostaticResidual.hpp", "src/Kinetics.hpp", "src/Kinematics.hpp"]}
{"id": "C11", "title": "Essential boundary conditions enumerate every node of every set once per condition", "statement": "EssentialBCs::get returns for each condition, in input order, one (dof,value) pair per node of its node set with dof = dofsPerNode*node+component, offsets are the running sums so no pair is overwritten, and a condition that gives both or neither of Value and Function is rejected.", "quantifier": "every list of conditions and node sets", "why_tests_cant": "offset mistakes show only for particular combinations of set sizes", "anchors": ["src/EssentialBCs.hpp"]}
{"id": "C110", "title": "Internal elastic energy with pressure is the energy of the displacements", "statement": "The criterion \"Internal Elastic Energy\" of stabilised mechanics is the internal elastic energy of plain elastostatics for the same material and displacements when the pressure fits the change of volume, and proportional to the work of the forces of the residual on the displacements.", "quantifier": "all meshes, materials, states, controls and schedules", "why_tests_cant": "tests compare one value with a recorded number, which cannot show missing shear; meshes, states and orders of loops are unbounded", "anchors": ["src/StabilizedElastostaticEnergy.hpp", "src/StabilizedMechanics.hpp", "src/Kinetics.hpp", "src/ScalarProduct.hpp"]}
{"id": "C111", "title": "A custom material uses the equation requested", "statement": "The coefficient of a custom material is the value of the equation of the parameter list if there is one, else of the equation of the file whose number was requested (zero by default); a request for an equation that does not exist, and an equation that is not valid, are errors.", "quantifier": "all parameter lists, texts of files and numbers of equations", "why_tests_cant": "tests read no files; texts before and behind the table, numbers of equations and endings of files are unbounded", "anchors": ["src/CustomMaterial.cpp", "src/CustomMaterial.hpp", "src/CustomLinearElasticMaterial.cpp"]}
{"id": "C112", "title": "The tensile energy density is the tensile part of the elastic energy", "statement": "The tensile energy density of a cell is the part of the isotropic elastic energy density due to positive principal strains and positive volume change: between zero and the elastic energy density, zero if the cell is stretched in no direction, all of it if the cell is compressed in no direction, the same for mirror images; materials that are not isotropic are refused.", "quantifier": "all displacements, cells, positive shear and bulk moduli, numbers of dimensions and schedules", "why_tests_cant": "tests use one displacement field; the signs of strains and the orientations of principal axes are unbounded", "anchors": ["src/TensileEnergyDensityLocalMeasure.hpp", "src/TensileEnergyDensity.hpp", "src/Eigenvalues.hpp"]}
{"id": "C113", "title": "The density penalty penalises intermediate densities and nothing else", "statement": "The density penalty of a cell is between zero and the amplitude given in the list of the criterion (one by default), largest at mean density one half, unchanged when material and void are exchanged, and zero exactly if no node of the cell has an intermediate density.", "quantifier": "all densities, numbers of cells and dimensions, amplitudes, schedules and inputs", "why_tests_cant": "there are no tests of it; the values are real numbers and the lists of the input are unbounded", "anchors": ["src/IntermediateDensityPenalty.hpp", "src/Plato_TopOptFunctors.hpp", "src/Mechanics.hpp", "src/elliptic/ScalarFunctionBaseFactory_def.hpp"]}
{"id": "C114", "title": "A criterion is weighted by the penalty function its input asks for", "statement": "A criterion weights densities by the penalty function named in the list \"Penalty Function\" of its entry in \"Criteria\", with the numbers of this list; without a name it is SIMP or an error, depending on the physics; and a name that is not offered is an error when the criterion is constructed.", "quantifier": "all inputs, physics, criteria, names, numbers and densities", "why_tests_cant": "tests give the penalty in a few inputs, and mostly construct criteria without the factories; the names and numbers of the input are unbounded", "anchors": ["src/Mechanics.hpp", "src/Thermal.hpp", "src/Electromechanics.hpp", "src/Thermomechanics.hpp", "src/Geometrical.hpp", "src/StabilizedMechanics.hpp", "src/hyperbolic/HyperbolicMechanics.hpp", "src/elliptic/PhysicsScalarFunction.hpp", "src/Simp.hpp", "src/Ramp.hpp", "src/Heaviside.hpp", "src/NoPenalty.hpp"]}
{"id": "C115", "title": "The stress norm of a piezoelectric body is a norm of its stress", "statement": "The stress norm of electromechanics is the p-norm over the body of the length of the penalised stress, including the part of the stress that the electric field causes; multiplying displacements and potentials by a number multiplies it by the absolute value of the number; translations and a change of the ground do not change it; and the derivatives it reports with respect to state, control and coordinates are its derivatives.", "quantifier": "all meshes, partitions into blocks, materials, couplings, penalties, exponents, states, controls, coordinates and schedules", "why_tests_cant": "tests compare numbers on one small mesh with one exponent; homogeneity, invariance and derivatives are statements about all states", "anchors": ["src/elliptic/EMStressPNorm.hpp", "src/TensorPNorm.hpp", "src/EMKinematics.hpp", "src/EMKinetics.hpp", "src/elliptic/PhysicsScalarFunction.hpp"]}
{"id": "C116", "title": "The Barlat norm is the Barlat function of the principal stresses", "statement": "The Barlat norm of a cell is the Barlat function, with the exponent and the coefficients of the input, of the eigenvalues of the two transformed stress deviators; it is zero for a cell without stress, does not change when a pressure is added, and is multiplied by the absolute value of a number by which the stress is multiplied.", "quantifier": "all stresses, coefficients, reference weights, exponents, dimensions and pressures", "why_tests_cant": "tests compare a few stresses with stored numbers; that the trigonometric formulas give the eigenvalues, and for which stresses they are defined, concerns all stresses", "anchors": ["src/TensorPNorm.hpp"]}
{"id": "C117", "title": "The von Mises stress of thermomechanics is that of the stress without thermal strain", "statement": "The thermal von Mises measure of a cell is the von Mises stress of the stiffness times the strain without thermal strain; it does not depend on what the result held before nor on the order of the cells, is never negative, does not change when the cell is moved or rotated by a small angle, and is zero for a cell that moves, rotates by a small angle and expands freely at a uniform temperature.", "quantifier": "all meshes, dimensions, states, temperatures, thermoelastic materials and orders of the parallel loop", "why_tests_cant": "tests evaluate one mesh with one material in one dimension; that thermal strain leaves no stress and that scratch views do not leak between cells concerns all states and schedules", "anchors": ["src/ThermalVonMisesLocalMeasure.hpp", "src/TMKinetics.hpp", "src/VonMisesYieldFunction.hpp"]}
{"id": "C12", "title": "Natural expression grammar: parse and evaluate agree with arithmetic", "statement": "ExpressionEvaluator::parse_expression followed by evaluate_expression returns the value of the expression under the documented precedences (parentheses, absolute bars, unary sign, + - * / ^ ! and functions), for every well formed expression text.", "quantifier": "every expression tree printed with full or minimal brackets", "why_tests_cant": "tests evaluate a list of literal strings", "anchors": ["src/ExpressionEvaluator.cpp: parse_expression, insert_node_item, evaluateNode"]}
{"id": "C13", "title": "Two-parameter function arguments are grouped", "statement": "pow(a,b) evaluates to a raised to b for all argument expressions a and b.", "quantifier": "all argument expressions", "why_tests_cant": "existing tests use literal arguments only", "anchors": ["src/ExpressionEvaluator.cpp: parse_expression (',' handling)"]}
{"id": "C14", "title": "Bracket errors are always detected", "statement": "parse_expression rejects (throws, and afterwards evaluates to 0) any text whose parentheses or absolute bars are unbalanced, and the climb-up over the tree never leaves the tree.", "quantifier": "every token sequence", "why_tests_cant": "infinite set of malformed inputs", "anchors": ["src/ExpressionEvaluator.cpp: parse_expression, insert_node_item"]}
{"id": "C15", "title": "Conditional expression picks by comparison", "statement": "conditional_expression(x,y,a,b) returns a exactly when x <= y and b exactly when x > y, as documented.", "quantifier": "all scalars x,y,a,b", "why_tests_cant": "tests use values that differ by more than one", "anchors": ["src/PlatoMathHelpers.hpp: conditional_expression"]}
{"id": "C16", "title": "Mesh map and its transpose are adjoint, for every transpose schedule", "statement": "MeshMap::apply and MeshMap::applyT are adjoint: <apply(x),y> = <x,applyT(y)> for all x,y, the transposed matrix holds every entry of the matrix exactly once, whatever order threads obtain their slots in.", "quantifier": "every map matrix, filter matrix and thread schedule", "why_tests_cant": "the slot order is nondeterministic; a test sees one", "anchors": ["src/Plato_MeshMap.hpp: createTranspose, apply, applyT, matvec"]}
{"id": "C17", "title": "Linear filter is a partition of unity", "statement": "Every row of the linear filter matrix has nonnegative entries that sum to one, so filtering maps a constant field to itself and never leaves the [min,max] range of the field.", "quantifier": "every set of node coordinates and radius > 0, every field", "why_tests_cant": "needs all point clouds", "anchors": ["src/Plato_MeshMap.hpp: setLinearFilterMatrixValues, createFilter"]}
{"id": "C18", "title": "Mapped nodes read the element that contains their image", "statement": "For every node whose image lies in some mesh element, the map row holds the barycentric weights of the image in a containing element; if several candidates exist the one with the largest minimum weight is selected; if none contains it, the node is reported.", "quantifier": "every mesh, every symmetric or identity map", "why_tests_cant": "tests use one structured mesh where all candidates coincide", "anchors": ["src/Plato_MeshMap.hpp: findParentElements, setMatrixValues, GetBasis"]}
{"id": "C19", "title": "Symmetry plane map is an idempotent projection onto the kept side", "statement": "SymmetryPlane maps points on the kept side to themselves, other points to their mirror image across the plane, so the image always lies on the kept side, mapping twice equals mapping once, and distance to the plane is preserved.", "quantifier": "every plane and point", "why_tests_cant": "needs all planes", "anchors": ["src/Plato_MeshMap.hpp: SymmetryPlane"]}
{"id": "C20", "title": "Simplex gradients reproduce affine fields", "statement": "ComputeGradientWorkset returns, for every non-degenerate simplex, gradients whose interpolation of an affine nodal field is the exact field gradient, that sum to zero over the nodes, together with a volume factor whose product with the reference volume is the measure of the cell; on a degenerate simplex no gradients with that property exist.", "quantifier": "every simplex in 1, 2 and 3 dimensions, every affine field", "why_tests_cant": "tests use one reference element", "anchors": ["src/ImplicitFunctors.hpp: ComputeGradientWorkset, ComputeGradientMatrix"]}
{"id": "C21", "title": "Cubature rules integrate polynomials of their degree exactly", "statement": "For every polynomial of total degree at most the rule degree the weighted point sum equals the integral over the reference simplex (rules stored with exact rational points), unsupported requests are rejected, and weights sum to the reference volume.", "quantifier": "every polynomial up to the degree, every supported dimension/degree", "why_tests_cant": "polynomials form an infinite family", "anchors": ["src/alg/Cubature.cpp: getCubature", "src/LinearTetCubRuleDegreeOne.hpp", "src/alg/Basis.cpp"]}
{"id": "C22", "title": "Nodal basis is a partition of unity with the Kronecker property", "statement": "Basis values sum to one at every point, are one at their own node and zero at the others, the gradients are the derivatives and sum to zero.", "quantifier": "every point of space", "why_tests_cant": "all points", "anchors": ["src/alg/Basis.cpp"]}
{"id": "C23", "title": "Penalty models are monotone and stay between minimum value and one", "statement": "MSIMP, RAMP and Heaviside penalties map densities in [0,1] (resp. all reals) to [min,1], are nondecreasing, hit min at 0 and 1 at 1; continuation never raises the exponent above its upper bound nor lowers it.", "quantifier": "all densities, exponents, minimum values and numbers of continuation updates", "why_tests_cant": "continuum of inputs, unbounded number of updates", "anchors": ["src/Simp.hpp: MSIMP", "src/Ramp.hpp: RAMP", "src/Heaviside.hpp: Heaviside"]}
{"id": "C24", "title": "Penalty settings change exactly the named parameter", "statement": "setParameters with a subset of the known keys changes those parameters only.", "quantifier": "all parameter maps", "why_tests_cant": "tests pass all keys at once", "anchors": ["src/Simp.hpp: setParameters", "src/Ramp.hpp: setParameters", "src/Heaviside.hpp: setParameters"]}
{"id": "C25", "title": "Density projections map [0,1] onto [0,1] monotonically", "statement": "Tanh projection maps 0 to 0, 1 to 1, is strictly increasing, and its cached constants always agree with the current slope and threshold after any sequence of setter calls; the Heaviside projection evaluates the documented formula.", "quantifier": "all slopes, thresholds, densities and setter histories", "why_tests_cant": "histories and continuum", "anchors": ["src/HyperbolicTangentProjection.hpp", "src/HeavisideProjection.hpp"]}
{"id": "C26", "title": "Composite criteria report the gradient of the value they report", "statement": "The gradient reported by weighted-sum, division and least-squares criteria is the derivative of the reported value for any component criteria whose gradients are their derivatives; division by a zero denominator is rejected.", "quantifier": "all component functions, weights, gold values", "why_tests_cant": "finite differences at a few points only", "anchors": ["src/geometric/WeightedSumFunction.hpp", "src/geometric/DivisionFunction.hpp", "src/geometric/LeastSquaresFunction.hpp", "src/elliptic/WeightedSumFunction.hpp"]}
{"id": "C27", "title": "Steady adjoint gradient is the total derivative", "statement": "Elliptic problem criterionGradient equals the derivative of control -> criterion(solution(control), control), for every Dirichlet data.", "quantifier": "all residuals, criteria, controls, Dirichlet values", "why_tests_cant": "finite-difference tests use zero Dirichlet values", "anchors": ["src/elliptic/Problem.hpp: solution, criterionGradient, criterionGradientX"]}
{"id": "C28", "title": "Trapezoid relations hold at every time step", "statement": "After parabolic solution() every stored step satisfies the trapezoid relation between state and rate, for every number of Newton iterations; the reported integrator derivatives are the partial derivatives of the relation.", "quantifier": "all step counts, time steps, alpha, residuals", "why_tests_cant": "unbounded number of steps", "anchors": ["src/parabolic/Problem.hpp: solution", "src/parabolic/TrapezoidIntegrator.hpp"]}
{"id": "C29", "title": "Newmark relations hold at every time step", "statement": "After hyperbolic solution() every stored step satisfies the Newmark displacement and velocity update formulas, and for a linear equation of motion with exact linear solves the equation holds at every unconstrained dof of every step.", "quantifier": "all step counts, time steps, beta, gamma, linear systems", "why_tests_cant": "unbounded number of steps", "anchors": ["src/hyperbolic/HyperbolicProblem.hpp: solution", "src/hyperbolic/Newmark.hpp"]}
{"id": "C30", "title": "Transient adjoint gradient is the total derivative over the whole history", "statement": "Parabolic and hyperbolic criterionGradient equal the derivative of the criterion along the discrete trajectory, for any number of steps.", "quantifier": "all step counts, linear state equations, criteria, controls", "why_tests_cant": "unbounded horizon", "anchors": ["src/parabolic/Problem.hpp: criterionGradient", "src/hyperbolic/HyperbolicProblem.hpp: criterionGradient"]}
{"id": "C31", "title": "Prescribed values hold after every solve, including repeated solves", "statement": "After any number of calls to solution() on the same problem object the state has the prescribed value at each constrained dof.", "quantifier": "all call histories, Newton settings and residuals", "why_tests_cant": "tests call solution once with a single Newton step", "anchors": ["src/elliptic/Problem.hpp: solution", "src/parabolic/Problem.hpp: solution"]}
{"id": "C32", "title": "Newton-Raphson driver terminates and its verdict is meaningful", "statement": "The Newton-Raphson loop performs at most max+1 residual evaluations, and it reports success only if the residual or the residual change measure is below tolerance at the last evaluation.", "quantifier": "all residual sequences, tolerances, iteration limits", "why_tests_cant": "all sequences", "anchors": ["src/NewtonRaphsonSolver.hpp: solve, checkStoppingCriterion, didConverge", "src/NewtonRaphsonUtilities.hpp"]}
{"id": "C33", "title": "Pseudo-time retry loop terminates and integrates to the end time", "statement": "PlasticityProblem::solution either converges on a uniform pseudo-time grid that ends at the end time or reports failure with the maximum number of steps, after finitely many attempts.", "quantifier": "all initial/maximum step counts, multipliers >= 1, convergence outcomes", "why_tests_cant": "loop over an unbounded number of retries", "anchors": ["src/PlasticityProblem.hpp: initialize, solution, resizeTimeDependentStates, solveForwardProblem"]}
{"id": "C34", "title": "Load increments telescope", "statement": "The Dirichlet and load multipliers of the pseudo-time steps add up to the value of the load function at the end time, so the total applied displacement equals the prescribed one whatever the number of steps.", "quantifier": "all load functions and step counts", "why_tests_cant": "unbounded step counts", "anchors": ["src/PlasticityProblem.hpp: updateDispAndLoadControlMultipliers"]}
{"id": "C35", "title": "Path-dependent adjoint gradient is the total derivative", "statement": "The backward sweep of the plasticity problem yields the derivative of the summed criterion along the coupled local/global/projection history.", "quantifier": "all step counts, all linearised systems with invertible tangents", "why_tests_cant": "unbounded history", "anchors": ["src/PathDependentAdjointSolver.hpp", "src/PlasticityProblem.hpp: backwardTimeIntegration"]}
{"id": "C36", "title": "Principal values are the eigenvalues", "statement": "Eigenvalues<D> returns values with the same symmetric functions (trace, determinant) as the tensor, for every tensor (2D) and after every sweep (3D).", "quantifier": "all symmetric tensors", "why_tests_cant": "tests use few tensors with positive shear", "anchors": ["src/Eigenvalues.hpp"]}
{"id": "C37", "title": "Unused-parameter report is complete", "statement": "Every unused input parameter is reported, either itself or through an enclosing unused block; no used parameter is reported.", "quantifier": "all parameter trees and used flags", "why_tests_cant": "infinite family of trees", "anchors": ["src/alg/ParseInput.cpp: unused"]}
{"id": "C38", "title": "Augmented Lagrangian state invariants", "statement": "After any sequence of updateProblem calls all Lagrange multipliers are nonnegative and never decrease, the penalty never exceeds its bound, and the criterion is nonnegative and vanishes when all local measures are within the limit.", "quantifier": "all update histories, measures and densities", "why_tests_cant": "unbounded histories", "anchors": ["src/Plato_AugLagStressCriterionQuadratic.hpp"]}
{"id": "C39", "title": "Rocket model time history", "statement": "AlgebraicRocketModel::solve records equally long time, thrust and pressure profiles at times 0, dt, 2dt, ... covering the burn time, terminates for every positive time step, every Newton call stops within max+1 iterations, its Jacobian is the derivative of its residual, and iterates started above the critical pressure converge monotonically to the equilibrium pressure.", "quantifier": "all inputs with positive time step", "why_tests_cant": "loops of unbounded length, continuum of parameters", "anchors": ["src/Plato_AlgebraicRocketModel.hpp: solve, newton, jacobian, residual", "src/Plato_Cylinder.hpp"]}
{"id": "C40", "title": "Material stiffness matrices are symmetric positive definite for admissible inputs", "statement": "Isotropic, cubic and orthotropic stiffness matrices are symmetric, positive definite for admissible constants, and invert the corresponding compliance.", "quantifier": "all admissible material constants", "why_tests_cant": "continuum of constants", "anchors": ["src/IsotropicLinearElasticMaterial.cpp", "src/CubicLinearElasticMaterial.cpp", "src/OrthotropicLinearElasticMaterial.cpp", "src/Rank4Voigt.cpp"]}
{"id": "C41", "title": "Batched dense kernels compute the stated products", "statement": "blas2::matrix_times_vector returns beta*y + alpha*op(A)*x, blas3::multiply returns beta*C + alpha*A*B, blas2::update and blas1::update return alpha*X + beta*Y per cell, and malformed extents are rejected.", "quantifier": "all extents, coefficients, data", "why_tests_cant": "all sizes", "anchors": ["src/BLAS1.hpp", "src/BLAS2.hpp", "src/BLAS3.hpp"]}
{"id": "C42", "title": "Indexed fill touches exactly the listed entries", "statement": "blas1::fill(multiplier, ordinals, values, out) sets out(ordinals(i)) = multiplier*values(i) for every listed i and leaves other entries alone, without reading outside its inputs.", "quantifier": "all ordinal lists and output lengths", "why_tests_cant": "out-of-bounds reads often go unnoticed in tests", "anchors": ["src/BLAS1.hpp: fill (ordinals)"]}
{"id": "C43", "title": "Gradient matrices of the residual are its derivatives", "statement": "For a vector function (assembled residual) the matrix returned by gradient_u holds in row q the derivative of entry q of value with respect to every state entry; gradient_u_T returns its transpose; gradient_z and gradient_x hold in column q the derivatives of entry q of value with respect to the controls and to the node coordinates. This holds for the elastostatic residual with any stiffness, reference strain, penalty model, cell problem forcing and body load.", "quantifier": "every simplex mesh in one, two and three dimensions without degenerate cells, every division into domains (overlapping, empty, any order), every state and control, every schedule of every parallel loop and every order of the atomic adds", "why_tests_cant": "A finite difference check samples one mesh, one direction and one step length and cannot separate a wrong small term from truncation error; the claim is about the exact derivative for all meshes and schedules.", "anchors": ["src/elliptic/VectorFunction.hpp", "src/Assembly.hpp", "src/elliptic/ElastostaticResidual.hpp", "src/ImplicitFunctors.hpp", "src/BodyLoads.hpp"]}
{"id": "C44", "title": "Reaction force is the internal force of the stored step", "statement": "After PlasticityProblem::solution the reaction force stored for a pseudo-time step equals the sum of the internal force over the degrees of freedom of the node at that step, whatever was solved before and however many retries were needed.", "quantifier": "all problems, step counts, retry histories, repeated solves", "why_tests_cant": "needs all histories of retries and repeated solves; unit tests use one forward solve on a fresh problem", "anchors": ["src/PlasticityProblem.hpp: computeReactionForce, solveForwardProblem, resizeTimeDependentStates"]}
{"id": "C45", "title": "Internal forces do the virtual work of the stress", "statement": "For every stress state and every virtual displacement of a cell, the scalar product of the internal nodal forces with the displacement equals the volume times the scalar product of the stress with the strain that the strain functor assigns to that displacement: the force functor is the exact adjoint of the strain functor, including the engineering factor of the shear terms.", "quantifier": "every stress, every displacement, every gradient matrix, in one, two and three dimensions, over any commutative ring (numbers and automatic differentiation values)", "why_tests_cant": "Tests compare a handful of force entries with gold numbers; a wrong shear index or factor cancels for special displacements.", "anchors": ["src/Strain.hpp", "src/StressDivergence.hpp", "src/ScalarProduct.hpp"]}
{"id": "C46", "title": "Interpolation and projection, gradient and divergence are adjoint", "statement": "On every cell, projecting a value at the integration point to the nodes and interpolating a nodal field to the point are adjoint: the work of the projected value on a nodal field is scale times volume times the value times the interpolated field. The divergence of a flux and the gradient of a nodal field are adjoint in the same sense. Both add to the entries of their own cell only.", "quantifier": "all nodal fields, values, fluxes, scales, numbers of nodes, layouts and offsets of unknowns", "why_tests_cant": "adjointness is a statement about all pairs of fields and all layouts", "anchors": ["src/InterpolateFromNodal.hpp", "src/ProjectToNode.hpp", "src/ScalarGrad.hpp", "src/FluxDivergence.hpp"]}
{"id": "C47", "title": "The elastostatic stiffness matrix is the energy form of the mesh", "statement": "For the elastostatic problem, the matrix returned by gradient_u does not depend on the state; its bilinear form is the sum over the cells of volume times penalty times strain : stiffness : strain. Hence it is symmetric when the material stiffness is, positive semidefinite when the material stiffness is and the penalty is not negative, annihilates every rigid motion (translation plus infinitesimal rotation), and the residual is value(u) = value(0) + K u.", "quantifier": "every mesh without degenerate cells, every division into domains, every material, penalty and control, every state and schedule", "why_tests_cant": "Symmetry and definiteness are statements about all vectors; a test evaluates the matrix for one mesh and material.", "anchors": ["src/elliptic/ElastostaticResidual.hpp", "src/elliptic/VectorFunction.hpp", "src/Strain.hpp", "src/LinearStress.hpp", "src/StressDivergence.hpp"]}
{"id": "C48", "title": "Natural boundary conditions add the work of their tractions", "statement": "A residual with natural boundary conditions equals the residual without them plus the scale times, for every node and direction, the integral over the faces of the side set of the prescribed traction (for a pressure, its value times the outward normal) times the shape function of the node: tested with any nodal field it gives the virtual work of the tractions, the sum over all nodes is the traction times the area of the side set, the faces may be handled in any order or concurrently, and reported gradients are the derivatives of the result.", "quantifier": "all meshes in one, two and three dimensions, side sets, tractions, degree of freedom layouts, coordinates, schedules and interleavings", "why_tests_cant": "continuum of coordinates and tractions, all meshes and interleavings", "anchors": ["src/SurfaceLoadIntegral.hpp", "src/SurfacePressureIntegral.hpp", "src/NaturalBC.hpp", "src/NaturalBCs.hpp", "src/NaturalBCUtilities.hpp", "src/OmegaHUtilities.hpp", "src/elliptic/VectorFunction.hpp"]}
{"id": "C49", "title": "Body loads have the exact resultant and moment", "statement": "The nodal forces that a body load adds to the residual do, on every translation, exactly the work of the load over the body, for a load that is an affine function of the point; and, for a constant load, exactly the work of the load on every affine displacement, in particular every infinitesimal rotation. The body is the union of its cells, each weighted with the mean of its nodal densities.", "quantifier": "every simplex mesh in one, two and three dimensions without degenerate cells, every division into domains, every control, every list of loads, every schedule", "why_tests_cant": "A test compares the forces of one load on one mesh with stored numbers; the resultant is an integral over arbitrary cells.", "anchors": ["src/BodyLoads.hpp", "src/ImplicitFunctors.hpp", "src/LinearTetCubRuleDegreeOne.hpp"]}
{"id": "C50", "title": "The constants of the input file are the constants of the material", "statement": "The mass density, the shear and Young's moduli and the temperature dependence given in the input are those of the material built from it: the density is the one given, a temperature dependent isotropic stiffness at temperature T is the isotropic stiffness of the modulus at T, a set of constants refused by the stability conditions is rejected, and the same physical constants give the same stiffness whichever material type is chosen.", "quantifier": "all parameter lists, temperatures, dimensions", "why_tests_cant": "continuum of constants; every combination of dimension and material type", "anchors": ["src/IsotropicStiffness.cpp", "src/CubicLinearElasticMaterial.cpp", "src/OrthotropicLinearElasticMaterial.cpp", "src/IsotropicLinearElasticMaterial.cpp", "src/MaterialModel.hpp"]}
{"id": "C51", "title": "Criteria summed over cells report their derivatives", "statement": "For a criterion that is a sum over cells (elastic energy, volume, stress norm with the plain and the weighted tensor norm), gradient_z, gradient_x and gradient_u at a step return, at every control, configuration and solution without degenerate cells, the derivative of value with respect to the control, the coordinates and the state of that step; the same for geometric criteria.", "quantifier": "every simplex mesh in one to three dimensions, every division into domains, every number of steps, every control, configuration, state, stiffness, penalty function, exponent, schedule", "why_tests_cant": "A test compares one gradient with a finite difference at one point and within a tolerance; the derivative is a limit and the claim is about all points.", "anchors": ["src/elliptic/PhysicsScalarFunction.hpp", "src/geometric/GeometryScalarFunction.hpp", "src/elliptic/InternalElasticEnergy.hpp", "src/elliptic/StressPNorm.hpp", "src/elliptic/Volume.hpp", "src/geometric/Volume.hpp", "src/TensorPNorm.hpp"]}
{"id": "C52", "title": "The stress norm is a p-norm of the stress", "statement": "The Stress P-Norm criterion with exponent p returns the p-th root of the sum over steps and cells of the p-th power of the length of the cell's stress times the cell's volume: it is homogeneous of degree one in the displacement when the material has no reference strain, and zero exactly when the body is free of stress.", "quantifier": "all meshes, materials, displacements, exponents, schedules", "why_tests_cant": "continuum of exponents and states; unit tests use one integer exponent without reference strain", "anchors": ["src/elliptic/StressPNorm.hpp", "src/TensorPNorm.hpp", "src/elliptic/PhysicsScalarFunction.hpp"]}
{"id": "C53", "title": "Elastic energy and volume are what their names say", "statement": "The Internal Elastic Energy criterion is the quadratic form of the stiffness of the body taken half, is never negative for a positive semidefinite material and its gradient in the state is the internal force of the residual, so that compliance is self-adjoint; the Volume criterion is the sum over the cells of the volume of the cell times its penalised density.", "quantifier": "all meshes in one to three dimensions, divisions into domains, materials, controls, states, schedules", "why_tests_cant": "continuum of states and materials; identity between two independently written programs", "anchors": ["src/elliptic/InternalElasticEnergy.hpp", "src/elliptic/Volume.hpp", "src/elliptic/ElastostaticResidual.hpp", "src/geometric/Volume.hpp", "src/ScalarProduct.hpp", "src/LinearStress.hpp"]}
{"id": "C54", "title": "The von Mises measure", "statement": "The von Mises measure of a stress tensor depends on the tensor only, not on the frame in which its components are given, is never negative, is zero exactly for hydrostatic stress (for no stress in the plane), scales with the size of the stress, and is the size of the stress for a uniaxial pull or push in every dimension.", "quantifier": "all stress tensors, rotations and factors, one to three dimensions", "why_tests_cant": "continuum of tensors and rotations; unit tests use a few tensile states", "anchors": ["src/VonMisesYieldFunction.hpp", "src/VonMisesLocalMeasure.hpp"]}
{"id": "C55", "title": "The mass term is normalised by the mass of its domain", "statement": "The augmented Lagrangian stress criterion of a domain normalises its mass term by the mass that domain has at density one.", "quantifier": "all meshes, divisions into domains, coordinates, schedules", "why_tests_cant": "all divisions into domains; unit tests use one domain", "anchors": ["src/Plato_AugLagStressCriterion.hpp", "src/Plato_TopOptFunctors.hpp", "src/Assembly.hpp"]}
{"id": "C56", "title": "The rocket application reports the gradient of its objective", "statement": "The objective of the rocket application is never negative and zero exactly when the thrust profile is the target profile, and the operation that computes its gradient reports, for every control, a central difference approximation of the derivative of the objective with respect to that control: exact for objectives that are linear in it.", "quantifier": "all objectives, numbers of controls, control values", "why_tests_cant": "continuum of control values; a test at control value one cannot see the scaling", "anchors": ["src/PlatoRocketApp.cpp: computeObjFuncValue, computeObjFuncGrad"]}
{"id": "C57", "title": "Steady heat conduction: work, balance of heat and conduction matrix", "statement": "The residual of steady heat conduction does on every virtual temperature the work of conduction (sum over cells of volume, penalty, gradient, conductivity at the temperature of the cell, gradient) less the heat supplied by the body loads. Its entries add up to minus the supplied heat; a uniform temperature conducts nothing. Reported gradients are the derivatives with respect to temperature, control and coordinates. For a conductivity that does not depend on temperature the matrix is that of the conduction form: symmetric, positive semidefinite, rows and columns adding up to zero; conductivities read from the input are symmetric.", "quantifier": "all meshes without degenerate cells, divisions into domains, conductivities, penalties, controls, temperatures, schedules", "why_tests_cant": "the statements range over all virtual temperatures, meshes and materials", "anchors": ["src/elliptic/ThermostaticResidual.hpp", "src/ThermalFlux.hpp", "src/ScalarGrad.hpp", "src/FluxDivergence.hpp", "src/ThermalConductivityMaterial.hpp", "src/MaterialModel.hpp", "src/elliptic/VectorFunction.hpp"]}
{"id": "C58", "title": "Transient heat conduction: work, balance of heat and capacity matrix", "statement": "The residual of the heat equation does on every virtual temperature the work of conduction plus the rate of the heat content; with a rate of zero and no body loads it is the residual of the steady problem with the same material. Its entries add up to the rate of the heat content. Reported gradients are the derivatives with respect to temperature, rate, control and coordinates. The gradient with respect to the rate is the capacity matrix: symmetric, positive semidefinite where the heat content grows with temperature, independent of the rate.", "quantifier": "all meshes without degenerate cells, divisions into domains, conductivities, densities, heat capacities, penalties, controls, temperatures, rates, schedules", "why_tests_cant": "the statements range over all virtual temperatures, meshes and materials, including temperature dependent ones", "anchors": ["src/parabolic/HeatEquationResidual.hpp", "src/parabolic/VectorFunction.hpp", "src/ThermalFlux.hpp", "src/ThermalContent.hpp", "src/ThermalMassMaterial.hpp", "src/MaterialModel.hpp"]}
{"id": "C59", "title": "Structural dynamics: work, mass, damping and stiffness matrices, balance of energy", "statement": "The residual of structural dynamics does on every virtual displacement the work of the elastic stress, of Rayleigh damping and of inertia, less the work of reference strains and body loads. Reported gradients are the derivatives with respect to displacement, velocity, acceleration, control and coordinates (weights of body loads held fixed). The gradient with respect to displacement is the stiffness matrix of elastostatics; that with respect to acceleration is a symmetric positive semidefinite mass matrix that carries the mass of the body; that with respect to velocity is the Rayleigh combination of both. Along every motion whose residual vanishes where the body moves, the rate of strain and kinetic energy is the power of the loads less that of the damping; without loads the energy never grows, and without damping it is conserved.", "quantifier": "all meshes without degenerate cells, divisions into domains, materials, penalties, controls, motions, virtual displacements and schedules", "why_tests_cant": "the statements range over all virtual displacements and all differentiable motions", "anchors": ["src/hyperbolic/ElastomechanicsResidual.hpp", "src/hyperbolic/InertialContent.hpp", "src/LinearStress.hpp", "src/hyperbolic/HyperbolicVectorFunction.hpp"]}
{"id": "C60", "title": "Output of structural dynamics holds the quantity it is named after", "statement": "What a structural dynamics analysis stores as output under stress, strain and velocity gradient is, on every cell of every domain, the stress, the strain and the strain rate of the solution; cells of other domains are not touched.", "quantifier": "all states, velocities, materials, domains and schedules", "why_tests_cant": "a test on one state cannot tell stress from strain where the stiffness is one", "anchors": ["src/hyperbolic/ElastomechanicsResidual.hpp", "src/ToMap.hpp"]}
{"id": "C61", "title": "Steady thermomechanics: work of stress and flux, free expansion, one way coupling, scaling, output", "statement": "The residual of steady thermomechanics does on every virtual displacement and temperature the work of the stress of the strain less the thermal strain, and of the heat flux, less the work of the body loads; material tensors may depend on temperature. Reported gradients are the derivatives. Nodal forces and heats add up to the resultants of the loads. A body free to expand at a uniform temperature is free of stress. Nodal heats depend on the temperatures only. The temperature scaling is a change of unknowns. The output holds the strain, temperature gradient, stress and flux of every cell.", "quantifier": "all meshes of one, two and three dimensions without degenerate cells, divisions into domains, materials, penalties, controls, states, virtual fields and schedules", "why_tests_cant": "the statements range over all virtual fields, temperatures and materials; tests use isotropic materials and a scaling of one", "anchors": ["src/elliptic/ThermoelastostaticResidual.hpp", "src/TMKinematics.hpp", "src/TMKinetics.hpp", "src/VoigtMap.hpp", "src/MaterialModel.hpp"]}
{"id": "C62", "title": "Transient thermomechanics: work, steady limit, capacity matrix, scaling, output", "statement": "The residual of transient thermomechanics is that of steady thermomechanics plus the rate of the heat content, for every load, scaling and division into domains. Reported gradients are the derivatives with respect to state, rate, control and coordinates; the gradient with respect to the rate is a symmetric capacity matrix. Nodal forces add up to zero, nodal heats to the rate of the heat content. The temperature scaling is a change of unknowns. The output holds the strain and stress of every cell of the mesh.", "quantifier": "all meshes without degenerate cells, divisions into domains, materials, penalties, controls, states, rates, virtual fields and schedules", "why_tests_cant": "the statements range over all virtual fields, rates and materials; tests use one domain and a scaling of one", "anchors": ["src/parabolic/TransientThermomechResidual.hpp", "src/TMKinetics.hpp", "src/ThermalContent.hpp", "src/ToMap.hpp"]}
{"id": "C63", "title": "J2 plasticity: return mapping, local equations, histories", "statement": "After the update of the local state every cell satisfies the conditions of plasticity at its strain: the multiplier is nonnegative, accumulates, plastic strain and backstress flow along the deviatoric stress less the backstress, the yield function is at most the tolerance and zero if there is flow. No other state does. Cells within the yield surface keep their state. The local residual vanishes at the updated state and, generally, exactly at the states that satisfy the conditions. Along every history the accumulated plastic strain never decreases and no step dissipates a negative amount.", "quantifier": "all meshes of two and three dimensions, divisions into domains, materials, penalties, controls, temperatures, displacements, former local states, numbers of steps and schedules", "why_tests_cant": "the statements range over all strains, states and histories; tests compare single states with stored numbers", "anchors": ["src/J2PlasticityLocalResidual.hpp", "src/J2PlasticityUtilities.hpp", "src/ThermoPlasticityUtilities.hpp", "src/ComputeDeviatoricStress.hpp", "src/LocalVectorFunctionInc.hpp"]}
{"id": "C64", "title": "Function of local unknowns: every result belongs to its cell", "statement": "For meshes divided into domains, the updated local state, the local residual as list and by cell, and its derivatives with respect to global states, local states, control and coordinates hold for every cell what the evaluator of the domain of that cell computes from the numbers of that cell; cells of no domain keep their state and have zero residual and derivatives.", "quantifier": "all meshes, divisions into disjoint domains, evaluators that work cell by cell, arguments and schedules", "why_tests_cant": "tests use one domain, for which positions in a domain and in the mesh coincide", "anchors": ["src/LocalVectorFunctionInc.hpp", "src/Assembly.hpp", "src/WorksetBase.hpp"]}
{"id": "C65", "title": "Local residual of J2 plasticity: reported derivatives are the derivatives", "statement": "The arrays returned by the function of local unknowns for J2 plasticity hold for every cell the partial derivatives of the local residuals of that cell with respect to current and previous global state, current and previous local state, control and coordinates.", "quantifier": "all meshes of two and three dimensions without degenerate cells, domains, materials, penalties, states and schedules, at which the residual is differentiable", "why_tests_cant": "finite differences sample a few states, and none where the branch of the residual changes", "anchors": ["src/J2PlasticityLocalResidual.hpp", "src/J2PlasticityUtilities.hpp", "src/LocalVectorFunctionInc.hpp"]}
{"id": "C66", "title": "Condensation of local unknowns: inverse of the local Jacobian", "statement": "In every Newton iteration and every adjoint step the array of inverse local Jacobians holds for every cell the inverse of the derivative of the local residuals with respect to the local state, for every material accepted by the input.", "quantifier": "all sizes of matrices, all meshes, materials, states of plastic and elastic cells, histories and schedules", "why_tests_cant": "a vanishing pivot depends on the material and the state; tests use positive isotropic hardening and matrices that need no exchange of rows", "anchors": ["src/BLAS3.hpp", "src/NewtonRaphsonSolver.hpp", "src/PathDependentAdjointSolver.hpp", "src/J2PlasticityLocalResidual.hpp"]}
{"id": "C67", "title": "Electromechanics: work, Gauss law, derivatives, scaling and output", "statement": "The residual of electromechanics does on every virtual displacement and potential the work of the stress C e - e^T E on the virtual strain less that of the electric displacement e e + p E on the virtual field, less the work of the body loads; forces and charges balance; only differences of the potential matter; a positive charge raises the potential; reported derivatives are the derivatives and symmetric for symmetric materials; \"Alpha\" is only a change of units of the potential; output holds strain, electric field, stress and electric displacement.", "quantifier": "all meshes of one, two and three dimensions without degenerate cells, domains, materials, penalties, states, body loads and schedules", "why_tests_cant": "tests compare with stored numbers for one material and mesh; signs, units and output of every state are not covered", "anchors": ["src/EMKinematics.hpp", "src/EMKinetics.hpp", "src/LinearElectroelasticMaterial.cpp", "src/elliptic/ElectroelastostaticResidual.hpp"]}
{"id": "C68", "title": "Internal electroelastic energy: value, derivatives, sign", "statement": "The internal electroelastic energy is the sum over the steps of the work of the stress on the strain less that of the electric displacement on the field; without body loads it is the product of state and residual; its reported gradients are its derivatives, and for symmetric materials the gradient by the state is twice the internal force; it is not negative for stable materials; its output holds stress, strain and electric displacement.", "quantifier": "all meshes, domains, materials, penalties, histories of states and schedules", "why_tests_cant": "tests check single values and finite differences at sampled points", "anchors": ["src/elliptic/InternalElectroelasticEnergy.hpp", "src/elliptic/PhysicsScalarFunction.hpp"]}
{"id": "C69", "title": "Moments of mass: values and derivatives", "statement": "The moments of mass (mass, first and second moments about the axes) are the integrals of density, interpolated from the nodes, times coordinates over the body; reported gradients by design and configuration are the derivatives; unknown moments are rejected.", "quantifier": "all meshes of one, two and three dimensions without degenerate cells, domains, densities, designs and schedules", "why_tests_cant": "tests compare single boxes with stored numbers; the error of the one point rule for every mesh and density is not covered", "anchors": ["src/geometric/MassMoment.hpp", "src/geometric/MassPropertiesFunction.hpp"]}
{"id": "C70", "title": "Mass properties criterion: what its value measures", "statement": "The mass properties criterion accepts every list of known properties, each once, with a weight and a gold value; its value is not negative and zero exactly when all listed properties have their gold values; inertia is measured about the centre of gravity in principal axes when all are listed; its gradients are its derivatives; it uses the densities of the materials; wrong lists are rejected.", "quantifier": "all meshes, materials, lists of properties in any order, weights, gold values, designs and schedules", "why_tests_cant": "tests check some lists on one mesh by finite differences", "anchors": ["src/geometric/MassPropertiesFunction.hpp", "src/elliptic/MassPropertiesFunction.hpp", "src/geometric/LeastSquaresFunction.hpp", "src/geometric/DivisionFunction.hpp"]}
{"id": "C71", "title": "Plasticity: work of the global residual and balance", "statement": "The residual of (thermo)plasticity does on every virtual displacement, temperature and pressure the work of deviatoric stress, pressure, stabilisation and heat flux less that of the loads times the load factor. A rigid motion does only the work of the loads; forces, heat and volume balance. The result does not depend on the order of loops. The stress in the balance is one that the local equations admit.", "quantifier": "all meshes of two and three dimensions, domains, materials, penalties, densities, states, loads in cells and on the boundary, virtual fields and schedules", "why_tests_cant": "tests compare single meshes with stored numbers; work and balance range over all virtual fields, admissibility over all densities and states", "anchors": ["src/InfinitesimalStrainPlasticityResidual.hpp", "src/InfinitesimalStrainThermoPlasticityResidual.hpp", "src/GlobalVectorFunctionInc.hpp", "src/ComputeDeviatoricStress.hpp", "src/ComputeStabilization.hpp", "src/PressureDivergence.hpp", "src/NaturalBCs.hpp"]}
{"id": "C72", "title": "Plasticity: derivatives of the global residual", "statement": "What the global equation of plasticity returns as derivative of its residual by the current and previous global state, the current and previous local state, the densities, the projected pressure gradient and the coordinates is the derivative of what it returns as residual.", "quantifier": "all meshes of two and three dimensions, domains, materials, differentiable penalties, densities, states, loads, and orders of the loops", "why_tests_cant": "tests compare with finite differences at single points to a tolerance; the claim is exact at every point and for every mesh", "anchors": ["src/GlobalVectorFunctionInc.hpp", "src/InfinitesimalStrainPlasticityResidual.hpp", "src/InfinitesimalStrainThermoPlasticityResidual.hpp", "src/NaturalBCs.hpp"]}
{"id": "C73", "title": "Plasticity: scaling of pressure and temperature", "statement": "\"Pressure Scaling\" and \"Temperature Scaling\" change the unknowns and not the problem: unknowns solve the scaled problem if and only if scaling times unknown solves the problem without scaling, with the same plastic state and the same projected gradient.", "quantifier": "all meshes, materials, states, loads that do not act on the pressure equation, nonzero scalings and orders of the loops", "why_tests_cant": "tests use one scaling; the claim relates the problems for all scalings", "anchors": ["src/InfinitesimalStrainPlasticityResidual.hpp", "src/InfinitesimalStrainThermoPlasticityResidual.hpp", "src/PressureGradientProjectionResidual.hpp", "src/PlasticityProblem.hpp", "src/ThermoPlasticityUtilities.hpp"]}
{"id": "C74", "title": "Plasticity: results do not depend on the unit of length", "statement": "With coordinates and displacements multiplied by a factor and the projected pressure gradient divided by it, the residual of plasticity is the same up to the factors of force and volume.", "quantifier": "all meshes, materials, states, factors other than zero and orders of the loops", "why_tests_cant": "tests use one unit; the claim ranges over all factors", "anchors": ["src/ComputeStabilization.hpp", "src/InfinitesimalStrainPlasticityResidual.hpp"]}
{"id": "C75", "title": "Plasticity: projection of the pressure gradient", "statement": "After a step the projected gradient of each node is the mean of the scaled pressure gradients of the cells around it, weighted with volume, penalty and shape function: it lies between their bounds, equals the gradient if the pressure is linear in space, and the stabilisation of the next step then does no work.", "quantifier": "all meshes of lines, triangles or tetrahedra, states, controls, coordinates without flat cells and orders of the loops", "why_tests_cant": "tests project one field on one mesh; the mean must come out of residual, matrix and row sums on every mesh", "anchors": ["src/PlasticityProblem.hpp", "src/VectorFunctionVMS.hpp", "src/PressureGradientProjectionResidual.hpp", "src/Plato_Solve.hpp"]}
{"id": "C76", "title": "Plasticity: elastic work", "statement": "The elastic work criterion of a history of load steps is the elastic energy stored in the body at its end: it does not depend on the path or on the number of steps, is not negative, and is zero only if no cell is strained elastically at the end.", "quantifier": "all meshes of triangles or tetrahedra, materials, histories of any number of steps and orders of the loops", "why_tests_cant": "tests compare one number for a few steps of one path; independence of the path concerns all pairs of histories", "anchors": ["src/ElasticWorkCriterion.hpp", "src/PlasticityProblem.hpp", "src/BasicLocalScalarFunction.hpp", "src/ComputeCauchyStress.hpp"]}
{"id": "C77", "title": "Plasticity: plastic work", "statement": "The plastic work criterion of a step is the work of the mean stress on the change of the plastic strain; it is zero for a step without plastic flow; in two dimensions it adds up with the elastic work to the work on the change of strain; along a history of updated local states without kinematic hardening it is not negative up to the tolerance of the yield condition.", "quantifier": "all meshes, materials, penalties, histories of any number of steps and orders of the loops", "why_tests_cant": "dissipation must not be negative for every history; tests follow one", "anchors": ["src/PlasticWorkCriterion.hpp", "src/PlasticityProblem.hpp", "src/BasicLocalScalarFunction.hpp", "src/J2PlasticityLocalResidual.hpp"]}
{"id": "C78", "title": "Plasticity: derivatives of criteria and weighted sums", "statement": "The criteria of plasticity return the derivatives of their value by current and previous states, controls and coordinates; a weighted sum has the weighted sum of values and derivatives and rejects missing functions or weights; summed over the steps, the explicit derivative by the controls is that of the criterion of the history.", "quantifier": "all meshes, states, controls, coordinates without flat cells, numbers of steps and orders of the loops", "why_tests_cant": "tests compare derivatives with finite differences at one state", "anchors": ["src/ElasticWorkCriterion.hpp", "src/PlasticWorkCriterion.hpp", "src/BasicLocalScalarFunction.hpp", "src/WeightedLocalScalarFunction.hpp", "src/PlasticityProblem.hpp"]}
{"id": "C79", "title": "Plasticity: continuation of penalty exponents", "statement": "At each update of the problem every penalty exponent makes one step of the size given in the input, up to the given bound: value and derivatives of each function keep the same exponent, and domains and criteria with the same penalty function keep the same exponent as the equations, after any number of updates.", "quantifier": "all numbers of updates, domains, criteria, steps, bounds and starting exponents", "why_tests_cant": "tests look at one function after one update; the exponents drift apart over several functions, domains and updates", "anchors": ["src/PlasticityProblem.hpp", "src/VectorFunctionVMS.hpp", "src/GlobalVectorFunctionInc.hpp", "src/LocalVectorFunctionInc.hpp", "src/BasicLocalScalarFunction.hpp", "src/ElasticWorkCriterion.hpp"]}
{"id": "C80", "title": "Input of natural boundary conditions", "statement": "A block of the natural boundary conditions that asks for a traction (by values, by a value and an index, by a component, as numbers or functions of time) or for a pressure gives a condition that applies exactly this traction or pressure on the named side set at the time of the step; conditions keep their order; a block that does not fit the problem is rejected with an error.", "quantifier": "all blocks, lists of blocks, layouts of unknowns, times and functions of time", "why_tests_cant": "tests read a few blocks that fit; what happens to all others, in all physics, is not covered", "anchors": ["src/NaturalBCs.hpp", "src/NaturalBC.hpp", "src/InfinitesimalStrainPlasticityResidual.hpp", "src/InfinitesimalStrainThermoPlasticityResidual.hpp", "src/hyperbolic/ElastomechanicsResidual.hpp"]}
{"id": "C81", "title": "Heat that crosses the boundary", "statement": "In steady and transient heat conduction and thermomechanics the flux given on a side set acts as heat through this surface: on every virtual temperature the residual contains the surface integral of flux times temperature, the nodal heats balance supply, storage and flux times area, tractions act on the displacements only, and the same input means the same direction of the heat in each physics.", "quantifier": "all meshes, states, rates, densities, materials, side sets, fluxes, tractions and orders of the parallel loops", "why_tests_cant": "tests compare single vectors within one physics; the balance over all meshes and the agreement of the physics are not covered", "anchors": ["src/elliptic/ThermostaticResidual.hpp", "src/parabolic/HeatEquationResidual.hpp", "src/elliptic/ThermoelastostaticResidual.hpp", "src/parabolic/TransientThermomechResidual.hpp", "src/SurfaceLoadIntegral.hpp"]}
{"id": "C82", "title": "Output of plasticity shows what its names say", "statement": "For each name that the user lists as plottable and for no other, the output of the plasticity and thermoplasticity residuals contains on every cell of the domain the quantity of that name: plastic multiplier increment, accumulated plastic strain, elastic strain (total less plastic less thermal), plastic strain, backstress, Cauchy stress by Hooke's law with penalised moduli, its deviator, the heat flux, and the principal stresses, which are the eigenvalues of the Cauchy stress.", "quantifier": "all states, local states, densities, geometries, materials, lists of names, previous output and orders of the parallel loops, in two and three dimensions", "why_tests_cant": "tests compare single components on one or two meshes, in which the wrong component of the trace and the missing thermal strain do not appear", "anchors": ["src/InfinitesimalStrainPlasticityResidual.hpp", "src/InfinitesimalStrainThermoPlasticityResidual.hpp", "src/ComputePrincipalStresses.hpp", "src/ComputeCauchyStress.hpp", "src/Eigenvalues.hpp", "src/ToMap.hpp"]}
{"id": "C83", "title": "The condensed Newton system solves the coupled linearisation", "statement": "In each Newton step of a plasticity problem the assembled tangent matrix and right-hand side, from which the local unknowns were eliminated cell by cell, have as solutions exactly the increments of the global state for which increments of the local state exist such that global and local residuals vanish to first order.", "quantifier": "all meshes, numbers of local unknowns, global and local states, residuals and Jacobians with regular local Jacobians, and orders of the parallel loops and atomic additions", "why_tests_cant": "tests compare the assembled matrix with stored numbers on one mesh; the equivalence concerns all meshes and states", "anchors": ["src/NewtonRaphsonSolver.hpp", "src/WorksetBase.hpp", "src/PlatoMathHelpers.hpp"]}
{"id": "C84", "title": "Each backward step solves the adjoint equations of that step", "statement": "In each step of the backward integration of a plasticity problem the assembled matrix and right-hand side have as solutions exactly the global adjoints which, with the local adjoints computed from them, make the criterion plus the products of adjoints and residuals stationary by global and local state, with the terms of the following step through previous states and the projected pressure gradient; the contribution of the step to the gradient is the product of the adjoints with the partial derivatives of all residuals.", "quantifier": "all meshes, states, criteria, adjoints of the following step, residuals with regular local Jacobians, and orders of the parallel loops", "why_tests_cant": "a missing or wrongly transposed term vanishes for symmetric or diagonal Jacobians and in the last step, the ones tested", "anchors": ["src/PathDependentAdjointSolver.hpp", "src/PlasticityProblem.hpp"]}
{"id": "C85", "title": "The gradient of a plasticity criterion is its derivative along the linearised time steps", "statement": "For a plasticity problem with fixed displacements the gradient by the controls (by the coordinates) that is returned for a criterion, multiplied with any change of the controls (coordinates), is the sum over all steps of the change of the criterion when global state, local state and projected pressure gradient of all steps change according to the linearised equations.", "quantifier": "all meshes, numbers of pseudo time steps, states, criteria, changes of controls, supports and orders of the parallel loops", "why_tests_cant": "finite difference tests sample one direction on one mesh with few steps and compare up to a tolerance", "anchors": ["src/PlasticityProblem.hpp", "src/PathDependentAdjointSolver.hpp", "src/ApplyConstraints.hpp"]}
{"id": "C86", "title": "Newton steps of J2 plasticity are those of equilibrium and material equations together", "statement": "In every iteration of a plasticity or thermoplasticity problem with positive isotropic hardening, at the local state returned by the update, the system that is assembled has as solutions exactly the increments of the global state for which an increment of the local state exists such that the first order expansions of the residual of equilibrium and of the residual of the material equations vanish; the derivatives are the true derivatives of the residuals that the equations return.", "quantifier": "all meshes and divisions into domains, materials, loads, global states, reachable previous local states, controls, and orders of the parallel loops and atomic additions", "why_tests_cant": "tests compare a tangent matrix with stored numbers for one state of one mesh", "anchors": ["src/NewtonRaphsonSolver.hpp", "src/GlobalVectorFunctionInc.hpp", "src/LocalVectorFunctionInc.hpp", "src/J2PlasticityLocalResidual.hpp", "src/InfinitesimalStrainPlasticityResidual.hpp"]}
{"id": "C87", "title": "Thermal energy and flux norm of heat conduction belong to the heat equation that is solved", "statement": "The internal thermal energy of a steady heat conduction problem is the conduction form of the solved equation applied to the temperature, so that it is not negative and in equilibrium equals the heat supplied times the temperature; the flux p-norm is the p-norm of the penalised flux over the body, with the given exponent, and is homogeneous in the temperature; both return the exact derivatives by coordinates, temperatures and controls.", "quantifier": "all meshes and divisions into domains, conductivities, penalties, temperatures, controls, numbers of states, exponents and orders of the parallel loops", "why_tests_cant": "tests compare one number on one mesh with a constant isotropic conductivity and an integer exponent", "anchors": ["src/elliptic/InternalThermalEnergy.hpp", "src/elliptic/FluxPNorm.hpp", "src/VectorPNorm.hpp", "src/ThermalFlux.hpp"]}
{"id": "C88", "title": "The effective energy of a cell problem is the homogenised stiffness", "statement": "When the displacements solve the elastostatic problems with cell forcing, the effective energy criterion with a unit assumed strain is the entry of the homogenised stiffness: the energy of the two unit strains less the strains of the two solutions. Entries (i,j) and (j,i) are equal, diagonal entries are not negative and the least energy among all admissible displacements (in particular at most that of the mean stiffness). The criterion returns its exact derivatives, and wrong input is reported.", "quantifier": "all meshes and divisions into domains, stiffnesses, densities, displacements, spaces of admissible displacements, columns and orders of the parallel loops", "why_tests_cant": "tests compare a number for one cell; symmetry and the bounds are statements about all fields", "anchors": ["src/elliptic/EffectiveEnergy.hpp", "src/HomogenizedStress.hpp", "src/ScalarProduct.hpp", "src/CellForcing.hpp", "src/elliptic/ElastostaticResidual.hpp"]}
{"id": "C89", "title": "Criteria of transient problems sum over the steps, and their gradients are the derivatives of that sum", "statement": "The value of a criterion of a parabolic or hyperbolic problem is the sum of its steady value over the computed steps, whatever the order of the parallel loops; the gradients by coordinates, by controls and by state and rates at any step are the derivatives of that value; the temperature average of a body at uniform temperature is that temperature; the elastic energy is that of the steady problem.", "quantifier": "all meshes and divisions into domains, histories of any number of steps and fields, controls, materials, penalties and orders of the parallel loops", "why_tests_cant": "tests compare few numbers for one history, often with equal rates in all steps, and do not differentiate the value at the first step", "anchors": ["src/parabolic/PhysicsScalarFunction.hpp", "src/hyperbolic/HyperbolicPhysicsScalarFunction.hpp", "src/parabolic/TemperatureAverage.hpp", "src/parabolic/InternalThermalEnergy.hpp", "src/hyperbolic/HyperbolicInternalElasticEnergy.hpp", "src/StateValues.hpp", "src/ApplyWeighting.hpp"]}
{"id": "C90", "title": "The internal thermoelastic energy is the energy stored in the body and its gradients are its derivatives", "statement": "The criterion \"Internal Thermoelastic Energy\" is the sum over the steps of the work of stress and heat flux on strain and temperature gradient, it equals the work of the residual and the body loads on the state, it is not negative for materials with positive stiffness and conductivity, and vanishes only without stress; its gradients by state, control and coordinates are its derivatives; with \"Include Thermal Strain\" false the thermal strain is left out of it.", "quantifier": "all meshes and divisions into domains, states and histories, controls, materials with constant or temperature dependent tensors, penalties, inputs and orders of the parallel loops", "why_tests_cant": "tests compare one number for one mesh and one state with values recorded from the code; sign and options need all states and all inputs", "anchors": ["src/elliptic/InternalThermoelasticEnergy.hpp", "src/parabolic/InternalThermoelasticEnergy.hpp", "src/TMKinetics.hpp", "src/ScalarProduct.hpp", "src/ApplyWeighting.hpp"]}
{"id": "C91", "title": "The thermoelastic material has the properties written in the input, or the input is rejected", "statement": "A thermoelastic material created from the input has at every temperature the stiffness, expansivity, conductivity, reference temperature and scaling that the input gives, as numbers, as lists of components or as polynomials in the temperature; input that does not fit the kind of material is reported as an error.", "quantifier": "all parameter lists, constants and temperatures, two and three dimensions", "why_tests_cant": "tests read two or three input decks; combinations of options that are accepted and silently give a different material need all inputs", "anchors": ["src/ThermoelasticMaterial.hpp", "src/MaterialModel.hpp", "src/MaterialModel.cpp", "src/IsotropicStiffness.cpp", "src/Rank4Voigt.cpp", "src/TMKinetics.hpp"]}
{"id": "C92", "title": "The value exported for an operation is the one this operation computed", "statement": "After the optimizer called an operation that computes a value of a criterion, an export under the name that the input gives to the value of this operation returns the value that the last call of this operation computed, less the target of this operation, whatever other operations were called, data imported or exported, or calls failed since.", "quantifier": "all inputs (operations, problem definitions, names, targets), all histories of commands including ones that throw, all problems", "why_tests_cant": "tests run one input with a fixed order of calls; the stored values are shared by all operations, and only certain inputs and orders overwrite them", "anchors": ["src/Analyze_App.cpp", "src/Analyze_App.hpp"]}
{"id": "C93", "title": "With a mesh map, exported gradients are derivatives by the imported topology", "statement": "With a mesh map in the input, the gradient that the optimizer receives for a criterion is the derivative of the value by the topology that the optimizer sent, however often it asks for it; an exported topology is the one that was imported; the file written for inspection has the same gradient.", "quantifier": "all mesh maps, topologies, criteria, numbers and orders of exports", "why_tests_cant": "unit tests of the map check the map alone on one mesh; the effect of repeated exports needs all orders of calls", "anchors": ["src/Analyze_App.hpp", "src/Analyze_App.cpp", "src/Plato_MeshMap.hpp"]}
{"id": "C94", "title": "Operations compute with the present parameters of their problem definition", "statement": "An operation computes values and gradients for the problem definition that the input names for it, with the parameters of this definition as loaded and changed by the imports so far, for the present topology and the solution for these; other definitions, their parameters, and solutions from before have no influence.", "quantifier": "all inputs with any number of problem definitions and operations, all histories of imports, exports and calls, all problems with deterministic results", "why_tests_cant": "tests use one or two definitions and one order of calls; stale problems and solutions show up for particular orders only", "anchors": ["src/Analyze_App.cpp", "src/Analyze_App.hpp", "src/PlatoAbstractProblem.hpp"]}
{"id": "C95", "title": "An imported parameter changes the entry that its target names and nothing else", "statement": "For a parameter of an operation whose target names an entry of a problem definition, through any number of nested lists, or a component of an array, an import sets this entry to the imported value and leaves all others; a target that names nothing is reported as an error.", "quantifier": "all problem definitions, targets of any depth, values, indices", "why_tests_cant": "the tests parse a few targets of one input; depth, names, indices and the other entries are unbounded", "anchors": ["src/Analyze_App.cpp", "src/Analyze_App.hpp"]}
{"id": "C96", "title": "Reinitialize follows the files that belong to the design parameters", "statement": "Other programs write mesh and input files from design parameters. After the optimizer imported the design parameters, the files are written and Reinitialize is called, the problem is the one for these files, whether the operation compares the parameters with those of the last call or not, and also after calls that failed.", "quantifier": "all sequences of design parameters, all operations, imports and exports between, all problems", "why_tests_cant": "the comparison with the last parameters fails for particular histories only, e.g. after an exception", "anchors": ["src/Analyze_App.cpp", "src/Analyze_App.hpp"]}
{"id": "C97", "title": "OutputToHDF5 writes the fields that an export gives, and changes nothing", "statement": "A field in the file written by OutputToHDF5 has the data that an export of the field of this name gives, and writing the file has no influence on later exports.", "quantifier": "all fields, states of the application, numbers of steps, unknowns and nodes", "why_tests_cant": "file output and export are separate code for the same names; they agree in the cases that tests use", "anchors": ["src/Analyze_App.cpp", "src/Analyze_App.hpp"]}
{"id": "C98", "title": "Sensitivities by design parameters follow the chain rule; difference quotients go to the perturbed entry", "statement": "MapCriterionGradientX gives, for each input, the derivative of the criterion by the design parameter of this input, if the inputs are the derivatives of the coordinates; ComputeFiniteDifference sets the entry of the perturbed parameter to the difference quotient, which is close to the derivative for small increments, and leaves the others; inputs of wrong size are reported.", "quantifier": "all numbers of design parameters and coordinates, all criteria, increments and indices", "why_tests_cant": "sizes and combinations of operations in the input are unbounded; errors are accesses out of bounds that a test may not see", "anchors": ["src/Analyze_App.cpp"]}
{"id": "C99", "title": "The topology survives the creation of problems and has the size of the present mesh", "statement": "An exported topology is the one that the optimizer imported last, whatever problems were created, meshes read again and calls failed since; topology and gradients have the size of the present mesh, so that the exchange of fields for this mesh works.", "quantifier": "all histories of commands, all numbers of nodes and problem definitions", "why_tests_cant": "sizes change for particular orders of changes of files, imports and operations only", "anchors": ["src/Analyze_App.cpp", "src/Analyze_App.hpp"]}
