{"id": "C01", "title": "Sparsity pattern is exactly the set of requested links", "statement": "After any sequence of add_link(i,j) calls on a BCRSPattern with any entries-per-row estimate, iterating over row i yields exactly the columns j for which add_link(i,j) was called, each column exactly once; the estimate only influences where entries are stored, never which entries exist.", "quantifier": "all row counts, all estimates (including 0), all finite histories of add_link calls, all rows", "why_tests_cant": "The number of histories is infinite and the interesting case (rows that overflow the fixed part while others do not, duplicates arriving before and after the overflow) depends on history length versus estimate.", "anchors": ["dune/pdelab/backend/istl/bcrspattern.hh: BCRSPattern::add_link, BCRSPattern::iterator, begin, end"]}
{"id": "C02", "title": "Pattern row sizes are the number of distinct columns", "statement": "sizes() reports for every row the number of distinct columns linked in that row, so a matrix allocated with these sizes has room for every entry and no spare room; overflowCount() is the number of distinct links that did not fit the estimate.", "quantifier": "all estimates, all histories of add_link calls, all rows", "why_tests_cant": "Wrong counts only show up as a later out-of-bounds write for particular histories; a test samples a few patterns.", "anchors": ["dune/pdelab/backend/istl/bcrspattern.hh: sizes, overflowCount, clear"]}
{"id": "C03", "title": "CSR matrix: every pattern entry has its own storage cell", "statement": "A SparseMatrixContainer allocated from a pattern gives every (row, column) pair of the pattern its own storage location inside the data array: writing one entry never changes another one, and a subsequent read returns the value last written.", "quantifier": "all patterns (any number of rows, any sets of columns), all pairs of pattern entries, all values", "why_tests_cant": "Aliasing depends on the interplay of row offsets and sorted columns; only a proof covers every pattern.", "anchors": ["dune/pdelab/backend/simple/sparse.hh: SparseMatrixContainer::allocate_matrix, operator()"]}
{"id": "C04", "title": "CSR matrix: access to an entry outside the pattern is detected", "statement": "Accessing an entry that is not part of the pattern is detected (assertion) instead of silently using the storage of a different entry.", "quantifier": "all patterns, all (row, column) pairs not in the pattern", "why_tests_cant": "The failing inputs are exactly those nobody writes a test for; whether the assertion fires depends on the columns to the right.", "anchors": ["dune/pdelab/backend/simple/sparse.hh: SparseMatrixContainer::operator()"]}
{"id": "C05", "title": "Sparse and dense backends compute the same matrix-vector products and row operations", "statement": "For the simple backends mv/usmv compute y_i (+)= alpha*sum_j A_ij x_j over the stored entries, and clear_row(i,d) leaves a row that is zero except for d on the diagonal while all other rows are unchanged; the CSR result agrees with the dense result for the matrix that has zeros outside the pattern.", "quantifier": "all sizes, all patterns, all values, all vectors", "why_tests_cant": "Index arithmetic for every size/shape cannot be sampled exhaustively; off-by-one at row boundaries only shows up for particular empty rows.", "anchors": ["dune/pdelab/backend/simple/sparse.hh: mv, usmv, clear_row, sparse_inner_product", "dune/pdelab/backend/simple/matrix.hh: mv, usmv, clear_row"]}
{"id": "C06", "title": "Degree-of-freedom orderings never map two DOFs to one container index", "statement": "For every composition of lexicographic, interleaved, chunked and permuted orderings, blocked or not, over leaf orderings, mapIndex maps different DOF indices of the space to different container indices.", "quantifier": "all finite trees of orderings, all block sizes and merge offsets, all leaf sizes, all pairs of DOFs", "why_tests_cant": "Trees of spaces are unbounded in depth and width; a collision corrupts one coefficient of one configuration and is invisible otherwise.", "anchors": ["dune/pdelab/ordering/orderingbase.hh: OrderingBase::_mapIndex/update", "dune/pdelab/ordering/lexicographicordering.hh: LexicographicOrdering::mapIndex", "dune/pdelab/ordering/interleavedordering.hh: InterleavedOrdering::mapIndex", "dune/pdelab/ordering/chunkedblockordering.hh", "dune/pdelab/ordering/permutedordering.hh"]}
{"id": "C07", "title": "Unblocked orderings are a bijection onto 0..size-1", "statement": "For every tree of unblocked lexicographic/interleaved orderings the container index of every DOF is a single number smaller than ordering.size(), and every number below size() is the index of exactly one DOF, so the flat coefficient vector has neither holes nor overruns.", "quantifier": "all finite trees of unblocked orderings, all leaf sizes satisfying the interleaving divisibility condition", "why_tests_cant": "Surjectivity and the upper bound are statements about all DOFs of all trees.", "anchors": ["dune/pdelab/ordering/orderingbase.hh: update, blockOffset, size", "dune/pdelab/ordering/lexicographicordering.hh", "dune/pdelab/ordering/interleavedordering.hh"]}
{"id": "C08", "title": "Interleaved blocking is rejected exactly when it does not divide", "statement": "Updating a container-blocked interleaved ordering throws OrderingStructureError exactly when the number of child blocks is not a multiple of the interleaving block size, or a child does not divide by its own merge block; otherwise all blocks are complete.", "quantifier": "all child sizes, all merge offsets", "why_tests_cant": "Which combinations get through the sanity check is a number-theoretic statement over all sizes.", "anchors": ["dune/pdelab/ordering/orderingbase.hh: OrderingBase::update", "dune/pdelab/ordering/interleavedordering.hh: constructor"]}
{"id": "C09", "title": "A user-supplied permutation is applied", "statement": "An ordering wrapped with a permutation tag maps the block with original number k to the position given by the user-supplied permutation, remains a bijection, and update() never silently replaces a permutation of matching size.", "quantifier": "all permutations of all sizes, all histories of update() calls", "why_tests_cant": "Permutations of all sizes and repeated updates are unbounded.", "anchors": ["dune/pdelab/ordering/permutedordering.hh: PermutedOrdering::update, mapIndex"]}
{"id": "C10", "title": "Chunked ordering groups consecutive blocks and rejects incomplete chunks", "statement": "ChunkedBlockOrdering(bs) maps the block number k to (k/bs, k mod bs), is injective and onto, and its update throws unless the number of blocks is divisible by bs.", "quantifier": "all chunk sizes > 0, all block counts, all DOFs", "why_tests_cant": "arithmetic over all sizes", "anchors": ["dune/pdelab/ordering/chunkedblockordering.hh: ChunkedBlockOrdering"]}
{"id": "C11", "title": "Sizes reported for container blocks match the indices that occur", "statement": "size(suffix) of an ordering reports, for a container-index prefix, how many different next positions exist: vectors allocated from it have room for exactly the indices produced by mapIndex.", "quantifier": "all orderings, all valid suffixes", "why_tests_cant": "a mismatch shows up only in nested block configurations with unequal children", "anchors": ["dune/pdelab/ordering/lexicographicordering.hh: size", "dune/pdelab/ordering/interleavedordering.hh: size", "dune/pdelab/ordering/permutedordering.hh: size", "dune/pdelab/ordering/chunkedblockordering.hh: size", "dune/pdelab/ordering/localorderingbase.hh: size"]}
{"id": "C12", "title": "Leaf ordering gives every grid entity its own contiguous index range", "statement": "A leaf grid-view ordering assigns every (geometry type, entity) pair a contiguous range of flat indices whose length is the number of DOFs attached to it; ranges of different entities are disjoint and together cover 0..size-1, for fixed and for entity-dependent sizes.", "quantifier": "all grids (any number of geometry types and entities), all per-entity DOF counts, both the fixed-size and the variable-size code path", "why_tests_cant": "Mixed grids with used and unused geometry types and hp-variable DOF counts are an unbounded family.", "anchors": ["dune/pdelab/ordering/leafgridviewordering.hh: update", "dune/pdelab/ordering/leaforderingbase.hh", "dune/pdelab/ordering/gridviewordering.hh: update"]}
{"id": "C13", "title": "Local function space trees number their DOFs contiguously and disjointly", "statement": "After bind(), the local indices of the leaves of a local function space tree are contiguous, pairwise disjoint and cover 0..size()-1; the size of every inner node is the sum of the sizes of its children, and the DOF indices stored for a leaf carry exactly the tree path of that leaf.", "quantifier": "all finite trees of function spaces, all per-leaf local sizes", "why_tests_cant": "trees are unbounded; an off-by-one offset in a nested space corrupts only that configuration", "anchors": ["dune/pdelab/gridfunctionspace/localfunctionspace.hh: ComputeSizeVisitor, FillIndicesVisitor, localIndex"]}
{"id": "C14", "title": "Multi-index operations are consistent with the list view", "statement": "push_back/pop_back, push_front/pop_front, back_popped, join, reverse and equality of MultiIndex and its views behave as the corresponding list operations, as long as the capacity is not exceeded, and exceeding the capacity is detected.", "quantifier": "all multi-indices of all capacities and lengths", "why_tests_cant": "all lengths up to all capacities", "anchors": ["dune/pdelab/common/multiindex.hh: MultiIndex, MultiIndex::View"]}
{"id": "C15", "title": "Dirichlet constraints win independently of cell order", "statement": "When cells contribute constraints to the same DOF, the DOF ends up Dirichlet-constrained iff at least one contribution was a Dirichlet contribution, regardless of the order in which cells are visited; later linear constraints never turn a Dirichlet DOF into a linear-combination DOF, and containsNonDirichletConstraints() is true whenever a non-Dirichlet row is stored.", "quantifier": "all sequences of local contributions in all orders", "why_tests_cant": "the number of visiting orders is factorial in the number of cells", "anchors": ["dune/pdelab/constraints/common/constraintstransformation.hh: ConstraintsTransformation::import_local_transformation"]}
{"id": "C16", "title": "set/copy/shift operations touch exactly the intended DOFs", "statement": "set_constrained_dofs(c,v,x) sets exactly the constrained DOFs to v; set_nonconstrained_dofs sets exactly the others; copy_constrained_dofs and copy_nonconstrained_dofs copy complementary sets, so applying both copies the whole vector; check_constrained_dofs accepts exactly the vectors whose constrained entries equal the value up to the tolerance.", "quantifier": "all constraints containers, all vectors, all values", "why_tests_cant": "all subsets of DOFs", "anchors": ["dune/pdelab/constraints/common/constraints.hh: set_constrained_dofs, set_nonconstrained_dofs, copy_constrained_dofs, copy_nonconstrained_dofs, set_shifted_dofs, check_constrained_dofs"]}
{"id": "C17", "title": "constrain_residual distributes and clears constrained residual entries", "statement": "constrain_residual adds to every DOF the residuals of the DOFs it constrains, weighted by the constraint coefficient, and afterwards every constrained residual entry is zero; if no contribution targets a constrained DOF, the result does not depend on the iteration order of the constraints container.", "quantifier": "all constraints containers, all residual vectors, all iteration orders of the (unordered) container", "why_tests_cant": "hash-map iteration order is not controlled by tests", "anchors": ["dune/pdelab/constraints/common/constraints.hh: constrain_residual"]}
{"id": "C18", "title": "Every matrix entry written during assembly is in the sparsity pattern", "statement": "For every pair of local DOFs that the local pattern links, every global matrix entry that the Jacobian scatter adds to (including entries created by eliminating linear constraints and by Dirichlet rows) has been inserted in the global sparsity pattern.", "quantifier": "all local patterns, all combinations of unconstrained, Dirichlet and linearly constrained test and trial DOFs, both symmetric and standard modes", "why_tests_cant": "Missing pattern entries only crash for specific combinations of constraints on row and column", "anchors": ["dune/pdelab/gridoperator/common/assemblerutilities.hh: add_entry, etadd, etadd_symmetric, scatter_jacobian, add_diagonal_entry"]}
{"id": "C19", "title": "Constrained rows become identity rows", "statement": "After assembly with post-processing, the row of every constrained test DOF is zero except for a one on the diagonal, and rows of unconstrained DOFs are untouched by the post-processing.", "quantifier": "all constraints containers, all matrices", "why_tests_cant": "all constraint sets and orders of row clearing", "anchors": ["dune/pdelab/gridoperator/common/assemblerutilities.hh: handle_dirichlet_constraints, set_trivial_rows"]}
{"id": "C20", "title": "Each interior face is assembled exactly once (or twice if two-sided)", "statement": "In one traversal of the grid, the default assembler calls the volume methods once per cell, and the skeleton methods exactly once per face between two different cells of the process in one-sided mode (from the side with the larger index) and exactly twice in two-sided mode; boundary methods are called once per boundary face.", "quantifier": "all grids (all finite neighbour relations with unique cell indices), both modes", "why_tests_cant": "every topology and every numbering of the cells", "anchors": ["dune/pdelab/gridoperator/default/assembler.hh: DefaultAssembler::assemble", "dune/pdelab/common/intersectiontype.hh"]}
{"id": "C21", "title": "Intersection indices passed to the local operator are the positions of the intersections", "statement": "The intersection index handed to the local operator is the position of the intersection in the iteration over the intersections of the cell.", "quantifier": "all cells, all selections of skipped intersections", "why_tests_cant": "needs operators that skip some intersections", "anchors": ["dune/pdelab/gridoperator/default/assembler.hh: intersection_index"]}
{"id": "C22", "title": "Time-stepping schemes are consistent and have the advertised order", "statement": "Every built-in one-step scheme has as many coefficients as stages, satisfies sum_i a_ri = 0, sum_i a_ri d_i = sum_i b_ri with a_rr = 1 and d_s = 1, explicit schemes have no implicit coefficient, and applied to u' = lambda*u each stage solution is the stability function of the documented order.", "quantifier": "all schemes, all stages, all lambda and dt", "why_tests_cant": "order conditions are algebraic identities in lambda*dt; a test sees rounding and a few step sizes", "anchors": ["dune/pdelab/instationary/onestepparameter.hh: OneStepThetaParameter, ExplicitEulerParameter, ImplicitEulerParameter, HeunParameter, Shu3Parameter, RK4Parameter, Alexander2Parameter, FractionalStepParameter, Alexander3Parameter"]}
{"id": "C23", "title": "The instationary residual is the one-step scheme formula", "statement": "The residual assembled for stage r by the instationary grid operator equals sum_{s<=r} (a_rs * f1 * R1(x_s, t+d_s dt) + b_rs * f0 * R0(x_s, t+d_s dt)), with (f0,f1) = (1,1/dt), (dt,1) or (1,1) according to the chosen dt mode.", "quantifier": "all schemes, all stages, all local operators, all stage vectors, all dt modes", "why_tests_cant": "a formula over arbitrary operators and coefficients", "anchors": ["dune/pdelab/gridoperator/onestep/prestageengine.hh", "dune/pdelab/gridoperator/onestep/residualengine.hh", "dune/pdelab/gridoperator/onestep/localassembler.hh"]}
{"id": "C24", "title": "All local operator contributions of both operators are assembled", "statement": "For every kind of contribution (volume, skeleton, boundary, volume post-skeleton) that either the spatial or the temporal operator defines, the instationary residual contains it from both operators.", "quantifier": "all combinations of operator flags", "why_tests_cant": "needs operators with unusual combinations of terms", "anchors": ["dune/pdelab/gridoperator/onestep/enginebase.hh: OneStepLocalAssemblerEngineBase"]}
{"id": "C25", "title": "Time-step statistics of the one-step method count every attempt", "statement": "After any sequence of successful and failing time steps, the total statistics count all attempts (steps, solver iterations), the successful statistics count exactly the steps that completed, and the reported step number increases only on success. A method that is given the result of another one continues with the same step number and statistics.", "quantifier": "all histories of successes and failures at any stage", "why_tests_cant": "failures at every possible stage of every step", "anchors": ["dune/pdelab/instationary/implicitonestep.hh: OneStepMethod::apply, result, setResult"]}
{"id": "C26", "title": "The CFL controller never steps past the target time and never enlarges the step", "statement": "With a final time set, time + suggested step never exceeds the target, the sequence of steps reaches the target exactly, and the suggested step is never larger than the CFL bound.", "quantifier": "all target times, all CFL suggestions, all histories", "why_tests_cant": "all real step sequences", "anchors": ["dune/pdelab/instationary/explicitonestep.hh: CFLTimeController, SimpleTimeController"]}
{"id": "C27", "title": "Line search accepts only admissible steps and leaves a consistent state", "statement": "The Hackbusch-Reusken line search either terminates with a step whose defect satisfies the sufficient decrease condition (or is below the absolute limit), or reports failure having restored the previous solution, or (if told to accept the best) leaves the best trial; the stored defect always belongs to the stored solution.", "quantifier": "all defect functions, all parameters", "why_tests_cant": "all real-valued defect landscapes, including non-monotone ones", "anchors": ["dune/pdelab/solver/linesearch.hh: LineSearchHackbuschReusken::lineSearch"]}
{"id": "C28", "title": "Newton either reports convergence or throws, and reports faithful statistics", "statement": "NewtonMethod::apply returns only if the termination criterion holds; then result().converged is true, iterations counts the number of linear solves, and the reported reduction is defect/first_defect; the Jacobian is assembled in the first iteration unless a fixed Jacobian was requested.", "quantifier": "all nonlinear problems (as arbitrary defect sequences), all parameters", "why_tests_cant": "arbitrary defect sequences and thresholds", "anchors": ["dune/pdelab/solver/newton.hh: NewtonMethod::apply, prepareStep, linearReduction", "dune/pdelab/solver/terminate.hh: DefaultTerminate::terminate"]}
{"id": "C29", "title": "Time stamps stay normalised and subtraction inverts addition", "statement": "TimeSpec += and -= keep the nanosecond part below 10^9 and represent exact addition and subtraction of durations.", "quantifier": "all normalised time stamps", "why_tests_cant": "carry and borrow boundaries over all values", "anchors": ["dune/pdelab/common/clock.hh: TimeSpec"]}
{"id": "C30", "title": "Local matrix storage has one cell per entry and iterates over all of them", "statement": "LocalMatrix(i,j) addresses different cells for different index pairs; its iterator visits each entry exactly once with the right row and column, also for matrices with zero rows or columns; umv/usmv compute the matrix-vector product.", "quantifier": "all shapes including empty ones", "why_tests_cant": "all shapes", "anchors": ["dune/pdelab/gridoperator/common/localmatrix.hh: LocalMatrix, iterator", "dune/pdelab/gridoperator/common/diagonallocalmatrix.hh"]}
{"id": "C31", "title": "Weighted accumulation views scale exactly once per level", "statement": "accumulate through nested weighted views adds the value times the product of the weights to exactly one entry of the underlying container and leaves all others unchanged; the modified flag is set.", "quantifier": "all nestings of weights, all sequences of accumulations", "why_tests_cant": "all histories of accumulations", "anchors": ["dune/pdelab/gridfunctionspace/localvector.hh: WeightedVectorAccumulationView", "dune/pdelab/gridoperator/common/localmatrix.hh: WeightedMatrixAccumulationView"]}
{"id": "C32", "title": "Communication buffers are consumed exactly as they are produced", "statement": "For every entity, the number of items announced by size() equals the number written by gather(), and scatter() reads exactly the items sent, so that the data of the following entity is read from the right place; with leaf sizes transmitted, data of each leaf block is combined with the same leaf block on the receiver.", "quantifier": "all entities, all leaf DOF counts on sender and receiver, all matching and non-matching layouts", "why_tests_cant": "mismatches occur only for particular parallel partitions", "anchors": ["dune/pdelab/gridfunctionspace/genericdatahandle.hh: DataGatherScatter, DOFDataCommunicationDescriptor, GFSDataHandle"]}
{"id": "C33", "title": "The even split assigns each element to exactly one patch with balanced sizes", "statement": "IteratorSplit divides the elements into the requested number of consecutive patches; each element is in exactly one patch, sizes differ by at most one, and 0 patches means an automatic choice of at least one.", "quantifier": "all element counts, all patch counts (including more patches than elements)", "why_tests_cant": "all pairs of numbers", "anchors": ["dune/pdelab/common/partition/iteratorsplit.hh: IteratorSplitMixin::update"]}
{"id": "C34", "title": "Colored partitions never put two connected patches into one label", "statement": "The coloring assigns to every patch a color below the reported number of colors, connected patches get different colors, the post-condition check never throws for symmetric connectivity graphs, and at most (maximal degree + 1) colors are used.", "quantifier": "all symmetric graphs (any number of patches, any connectivity, degrees below the supported limit)", "why_tests_cant": "all graphs", "anchors": ["dune/pdelab/common/partition/halo/colored.hh: makeColors"]}
{"id": "C35", "title": "Patches with overlapping halos are connected", "statement": "Two patches are linked in the connectivity graph iff some sub-entity lies in both of their halos (elements reachable within the halo distance); hence patches of one color can be processed concurrently without sharing any sub-entity of their halos.", "quantifier": "all grids, all patch assignments, all halo distances", "why_tests_cant": "all topologies and distances", "anchors": ["dune/pdelab/common/partition/halo/colored.hh: makeGraph, update"]}
{"id": "C36", "title": "Concurrent halo marking is independent of thread interleaving", "statement": "The halo region computed for every element (interior or overlap) is the same for every interleaving of the concurrent marking threads, and elements marked interior share no sub-entity with the halo of a different patch.", "quantifier": "all grids, all patches, all interleavings of the parallel phases", "why_tests_cant": "thread schedules cannot be enumerated by tests", "anchors": ["dune/pdelab/common/partition/halo/uncolored.hh: UncoloredHaloMixin::updateHalo"]}
{"id": "C37", "title": "Flat iteration over nested vectors visits every entry exactly once", "statement": "The flat iterator over arbitrarily nested block vectors, including empty inner blocks at any position, visits every scalar entry exactly once in lexicographic order and then compares equal to end().", "quantifier": "all nesting depths, all block sizes including empty ones", "why_tests_cant": "all shapes", "anchors": ["dune/pdelab/backend/istl/vectoriterator.hh: vector_iterator"]}
{"id": "C38", "title": "A sum of local operators contributes the sum of all contributions", "statement": "Every method of a combined local operator calls the same method of every summand, with the weight of the summand (zero-weight summands are skipped), and restores the weights of the accumulation views afterwards; skip flags are consistent: skip_entity reports an error exactly if the summands disagree.", "quantifier": "all tuples of summands and weights, all methods", "why_tests_cant": "all combinations of operators", "anchors": ["dune/pdelab/localoperator/combinedoperator.hh: CombinedOperator", "dune/pdelab/localoperator/weightedsum.hh: WeightedSumLocalOperator", "dune/pdelab/localoperator/sum.hh", "dune/pdelab/localoperator/callswitch.hh"]}
{"id": "C39", "title": "Mixing one-sided and two-sided summands is rejected", "statement": "Combining local operators of which some need one-sided and others two-sided skeleton visits is rejected at compile time, since otherwise one-sided terms would be counted twice.", "quantifier": "all tuples of operator flags", "why_tests_cant": "compile-time property over all flag combinations", "anchors": ["dune/pdelab/localoperator/combinedoperator.hh: static_assert", "dune/pdelab/gridoperator/onestep/enginebase.hh: requireSkeletonTwoSided"]}
{"id": "C40", "title": "Error-fraction marking thresholds are bracketed", "statement": "error_fraction/element_fraction return thresholds between 0 and the maximal error; whenever the bisection stops early, the requested fractions are met up to the tolerance; the bracketing interval always contains the returned threshold and halves in every step.", "quantifier": "all error vectors, all fractions", "why_tests_cant": "all real vectors", "anchors": ["dune/pdelab/adaptivity/adaptivity.hh: error_fraction, element_fraction"]}
{"id": "C41", "title": "Grid marking respects thresholds and level limits", "statement": "mark_grid marks for refinement only cells with error >= refine threshold and level < max_level, for coarsening only cells with error <= coarsen threshold and level > min_level; mark_grid_for_coarsening marks only cells with small error.", "quantifier": "all error vectors, thresholds and levels", "why_tests_cant": "all inputs including coinciding thresholds", "anchors": ["dune/pdelab/adaptivity/adaptivity.hh: mark_grid, mark_grid_for_coarsening"]}
{"id": "C42", "title": "The time adaptation strategy accepts exactly the steps within tolerance and never increases after a decrease", "statement": "evaluate_estimators accepts a step iff the estimated error is within the allowed error (or adaptation is off); the accumulated error is the sum over accepted steps; after having decreased the time step within a step it does not increase it again until the next step is started unless the step is accepted.", "quantifier": "all sequences of estimates", "why_tests_cant": "all histories of error estimates", "anchors": ["dune/pdelab/adaptivity/adaptivity.hh: TimeAdaptationStrategy"]}
{"id": "C43", "title": "Grid transfer restores unrefined cells exactly and averages shared DOFs", "statement": "After adapt_grid, a DOF whose cells are all unchanged keeps its value exactly; a DOF receiving contributions from several cells gets the arithmetic mean of them; a cell whose ancestor chain has no stored data leads to an exception.", "quantifier": "all refinement histories of all grids", "why_tests_cant": "all refinement trees", "anchors": ["dune/pdelab/adaptivity/adaptivity.hh: GridAdaptor::replayData, backup_visitor, replay_visitor"]}
{"id": "C44", "title": "Hanging node weights form a partition of unity", "statement": "In the Q1/P1 hanging node constraints, the constraint of a hanging node collected over the faces it lies on has coefficients that sum up to one for mid-edge nodes with two non-hanging neighbours and for face-centre nodes with four.", "quantifier": "all configurations of hanging flags on a face", "why_tests_cant": "configurations on several cells interact", "anchors": ["dune/pdelab/constraints/hangingnode.hh: CubeGridQ1Assembler, SimplexGridP1Assembler", "dune/pdelab/constraints/hangingnodemanager.hh"]}
{"id": "C45", "title": "Element indices are unique, consecutive and zero-based", "statement": "ElementMapper::map yields for the cells of a grid view with any mixture of geometry types a bijection onto 0..N-1.", "quantifier": "all grids with all distributions of geometry types", "why_tests_cant": "all type distributions", "anchors": ["dune/pdelab/common/elementmapper.hh: ElementMapper::map, update"]}
{"id": "C46", "title": "Border entity lookup tables are mutually inverse after every update", "statement": "After update() the maps index -> id and id -> index of the border cache are inverse to each other and contain exactly the current border entities.", "quantifier": "all grids and all histories of grid changes and updates", "why_tests_cant": "all histories of adaptation", "anchors": ["dune/pdelab/common/borderindexidcache.hh: BorderIndexIdCache::update"]}
{"id": "C47", "title": "Entity set indices are a bijection per geometry type and consistent after updates", "statement": "The index set of a partition-view entity set numbers the entities of every active geometry type consecutively from zero; unique indices are injective across geometry types; after any sequence of addCodim/removeCodim/reset/update, needsUpdate() is false only if the active codims are the wanted ones.", "quantifier": "all grids, all partition sets, all histories of codim changes", "why_tests_cant": "all histories", "anchors": ["dune/pdelab/common/partitionviewentityset.hh: PartitionViewEntitySet, PartitionViewEntitySetIndexSet"]}
{"id": "C48", "title": "Parallel scalar products count every DOF once", "statement": "With the disjoint DOF partition each DOF shared by several processes is owned by exactly one of them, and the sum over processes of the local disjoint scalar products equals the global scalar product of consistent vectors.", "quantifier": "all numbers of processes and all sharing relations", "why_tests_cant": "all process counts and overlaps", "anchors": ["dune/pdelab/backend/istl/parallelhelper.hh: ParallelHelper, disjointDot, maskForeignDOFs", "dune/pdelab/gridfunctionspace/genericdatahandle.hh: DisjointPartitioningDataHandle"]}
{"id": "C49", "title": "Numerical Jacobians are exact for affine residuals", "statement": "For a local residual that is affine in the coefficients, the finite-difference Jacobian equals the matrix of the linear part exactly (in exact arithmetic) for every epsilon > 0 and leaves the coefficient vector unchanged; jacobian_apply equals this matrix times the vector; each weight is applied exactly once.", "quantifier": "all sizes, all affine residuals, all points, all weights", "why_tests_cant": "all matrices", "anchors": ["dune/pdelab/localoperator/numericaljacobian.hh", "dune/pdelab/localoperator/numericaljacobianapply.hh"]}
{"id": "C50", "title": "Residuals generated from Jacobians are the matrix-vector product", "statement": "JacobianBasedAlphaVolume/Skeleton/Boundary add weight * J * x to the residual, for rectangular local matrices (different trial and test spaces) as well.", "quantifier": "all shapes, all matrices", "why_tests_cant": "all rectangular shapes", "anchors": ["dune/pdelab/localoperator/numericalresidual.hh", "dune/pdelab/gridoperator/common/localmatrix.hh: usmv"]}
{"id": "C51", "title": "Pattern iterators compare equal only at the same position", "statement": "Two iterators over the same pattern row that compare equal refer to the same column, and the comparison is symmetric.", "quantifier": "all patterns, all pairs of iterators of a row", "why_tests_cant": "all fill states and all positions", "anchors": ["dune/pdelab/backend/istl/bcrspattern.hh: BCRSPattern::iterator::equals"]}
{"id": "C52", "title": "Assigning a dense matrix makes the target equal to the source", "statement": "After A = B for dense simple-backend matrices, A has the shape and the entries of B.", "quantifier": "all pairs of matrices of all shapes", "why_tests_cant": "all pairs of shapes", "anchors": ["dune/pdelab/backend/simple/matrix.hh: MatrixContainer::operator="]}
{"id": "C53", "title": "Container-blocked leaf spaces have one block per entity, numbered below the block count", "statement": "In a container-blocked leaf space every grid entity with DOFs forms one block; different entities have different block numbers and the block numbers are exactly 0..blockCount()-1.", "quantifier": "all grids, all per-entity DOF counts, fixed and entity-dependent sizes", "why_tests_cant": "the wrong block count only shows up for particular distributions of DOFs over entities", "anchors": ["dune/pdelab/ordering/leafgridviewordering.hh: update", "dune/pdelab/ordering/leaforderingbase.hh: mapIndex"]}
{"id": "C54", "title": "The indices extracted for an entity are those of its DOFs", "statement": "extract_entity_indices of a leaf ordering lists for every entity exactly the container indices that mapIndex assigns to the DOFs of the entity, in order, and their number is size(entity).", "quantifier": "all grids, all entities, blocked and unblocked, fixed and entity-dependent sizes", "why_tests_cant": "two code paths with four branches each must agree for every grid", "anchors": ["dune/pdelab/ordering/leaforderingbase.hh: extract_entity_indices, mapIndex", "dune/pdelab/ordering/directleaflocalordering.hh: size"]}
{"id": "C55", "title": "localVectorSize() is the size of the root local function space", "statement": "localVectorSize() returns the number of DOFs of the complete local function space tree on the bound element (the size() of the root), and localIndex() maps into the range [0,localVectorSize()).", "quantifier": "all function space trees, all elements", "why_tests_cant": "sizes differ from the maximum only for particular elements", "anchors": ["dune/pdelab/gridfunctionspace/localfunctionspace.hh: LocalFunctionSpaceBaseNode::localVectorSize, localIndex, setup"]}
{"id": "C56", "title": "Converting a multi-index to another capacity keeps its entries", "statement": "Constructing a MultiIndex from one of a different maximal length yields the same entries whenever they fit, and is rejected if they do not.", "quantifier": "all multi-indices of all capacities and lengths", "why_tests_cant": "all pairs of capacities and lengths", "anchors": ["dune/pdelab/common/multiindex.hh: MultiIndex(const MultiIndex<T,_n>&)"]}
{"id": "C57", "title": "set_shifted_dofs sets exactly the DOFs that are not Dirichlet-constrained", "statement": "set_shifted_dofs(cg,v,x) sets every DOF that is not Dirichlet-constrained to v and keeps the Dirichlet DOFs; for an unconstrained space it sets all DOFs.", "quantifier": "all constraints containers (including unconstrained spaces), all vectors, all values", "why_tests_cant": "two overloads must agree for all inputs", "anchors": ["dune/pdelab/constraints/common/constraints.hh: set_shifted_dofs"]}
{"id": "C58", "title": "Reassembling constraints forgets the previous ones", "statement": "After constraints(...) the container holds exactly the constraints of the current assembly, whatever it held before.", "quantifier": "all histories of assemblies into the same container", "why_tests_cant": "needs all histories", "anchors": ["dune/pdelab/constraints/common/constraints.hh: constraints"]}
{"id": "C59", "title": "Index caches reflect the constraints of the element they are bound to", "statement": "After binding, an index cache reports for every local DOF exactly the constraint (none, Dirichlet, or the list of coefficients) that the constraints container holds for it, independently of the elements it was bound to before; without constraints caching it reports none.", "quantifier": "all constraints containers, all sequences of elements", "why_tests_cant": "stale flags only show up for particular sequences of elements", "anchors": ["dune/pdelab/gridfunctionspace/lfsindexcache.hh: LFSIndexCacheBase::update, isConstrained, constraintsBegin"]}
{"id": "C60", "title": "The assembled Jacobian is the constraint-transformed sum of the local matrices", "statement": "In the rows of unconstrained test DOFs the assembled Jacobian equals the sum of the local matrices with linearly constrained test and trial DOFs eliminated by their coefficients (and in symmetric mode without Dirichlet columns); the code paths with and without constraints caching agree.", "quantifier": "all constraints containers, all sequences of local matrices, symmetric and standard mode", "why_tests_cant": "sums over all combinations of constraints", "anchors": ["dune/pdelab/gridoperator/common/assemblerutilities.hh: scatter_jacobian, etadd, etadd_symmetric"]}
{"id": "C61", "title": "backtransform is the transpose of forwardtransform", "statement": "For constraints without chains, the scalar product of forwardtransform(x) with y equals the one of x with backtransform(y), both with and without the restriction flag.", "quantifier": "all constraints without chains, all vectors", "why_tests_cant": "identity over all vectors and containers", "anchors": ["dune/pdelab/gridoperator/common/assemblerutilities.hh: forwardtransform, backtransform"]}
{"id": "C62", "title": "Engines are called in a fixed protocol", "statement": "During any assembly, preAssembly is the first and postAssembly the last call; every assembly method is called only while the local function spaces of exactly the cell (and neighbour) it is called for are bound and, if it uses the trial space, after the coefficients were loaded; binds and unbinds are properly nested.", "quantifier": "all grids, all engines with all combinations of required terms and skipped entities and intersections", "why_tests_cant": "all combinations of flags, grids and skip patterns", "anchors": ["dune/pdelab/gridoperator/default/assembler.hh: DefaultAssembler::assemble", "dune/pdelab/gridoperator/fastdg/assembler.hh"]}
{"id": "C63", "title": "Fast DG assembly visits process boundaries once from the interior side", "statement": "When the fast DG assembler traverses only interior cells, the skeleton methods are called exactly once for every face to a cell owned by another process, independently of the numbering of the cells.", "quantifier": "all grids, partitions and numberings, one-sided and two-sided mode", "why_tests_cant": "depends on the numbering of the cells", "anchors": ["dune/pdelab/gridoperator/fastdg/assembler.hh: DefaultAssembler::assemble, visit_face"]}
{"id": "C64", "title": "Outside spaces are bound only to cells of the entity set", "statement": "The assembler binds local function spaces to a neighbouring cell, and calls skeleton methods, only across intersections whose outside cell belongs to the partitions of the entity set; all other intersections that are not on the domain boundary are handed to the processor methods.", "quantifier": "all grids, partitions and engines", "why_tests_cant": "depends on the parallel distribution of the grid", "anchors": ["dune/pdelab/common/intersectiontype.hh: classifyIntersection", "dune/pdelab/gridoperator/default/assembler.hh: DefaultAssembler::assemble"]}
{"id": "C65", "title": "The instationary Jacobian belongs to the instationary residual", "statement": "For affine local operators the Jacobian assembled for a stage maps the difference of two solutions to the difference of the residuals of the stage, for every scheme, stage and dt mode.", "quantifier": "all affine operators, traversals, schemes, stages, modes, solutions", "why_tests_cant": "identity over all operators and vectors", "anchors": ["dune/pdelab/gridoperator/onestep/jacobianengine.hh", "dune/pdelab/gridoperator/onestep/residualengine.hh", "dune/pdelab/gridoperator/onestep/enginebase.hh"]}
{"id": "C66", "title": "Explicit assembly yields the parts of the scheme formula", "statement": "explicit_jacobian_residual yields the sums over the old stages of the spatial and the temporal residuals in two separate vectors, and minus the Jacobian of the temporal operator at the time of the new stage.", "quantifier": "all operators, traversals, schemes, stages, solutions", "why_tests_cant": "sums over all stages and operators", "anchors": ["dune/pdelab/gridoperator/onestep/jacobianresidualengine.hh", "dune/pdelab/gridoperator/onestep/prestageengine.hh"]}
{"id": "C67", "title": "Time steps release the stage vectors they allocate", "statement": "Every call of apply() of the one-step method frees all vectors it has allocated for intermediate stages exactly once, whether it returns or throws.", "quantifier": "all schemes, all solver and assembler outcomes in every stage", "why_tests_cant": "needs every possible failing stage and call", "anchors": ["dune/pdelab/instationary/implicitonestep.hh: OneStepMethod::apply"]}
{"id": "C68", "title": "Stages are assembled from and started with the right vectors", "statement": "In a successful step the constant part of stage r is assembled from exactly the previous stages, the solver of stage r starts from the previous stage (from the user's initial guess in the first stage) with constrained DOFs taken from the boundary function at the time of the stage, xold is unchanged and xnew is the last stage.", "quantifier": "all numbers of stages (including one, where vectors alias), all solvers, all vectors and constraints", "why_tests_cant": "aliasing of vectors depends on the number of stages", "anchors": ["dune/pdelab/instationary/implicitonestep.hh: OneStepMethod::apply", "dune/pdelab/gridoperator/onestep.hh: interpolate", "dune/pdelab/gridoperator/gridoperator.hh: interpolate"]}
{"id": "C69", "title": "A successful implicit step satisfies all stage equations of the scheme", "statement": "If the solver reports success only for vectors with vanishing stage residual, then after a successful step the stage vectors satisfy the defining equations of the scheme in all stages.", "quantifier": "all schemes without tiny coefficients, all operators, all solvers", "why_tests_cant": "composition of assembly and stepping over all stages", "anchors": ["dune/pdelab/instationary/implicitonestep.hh: OneStepMethod::apply", "dune/pdelab/gridoperator/onestep.hh"]}
{"id": "C70", "title": "An explicit step satisfies all stage equations with the selected time step", "statement": "For linear temporal operators and an exact linear solver, the stages computed by the explicit one-step method satisfy the equations of the scheme for the time step returned by apply(), also if the time controller shortens the step.", "quantifier": "all explicit schemes, all operators, all controllers", "why_tests_cant": "composition of assembly and stepping over all stages", "anchors": ["dune/pdelab/instationary/explicitonestep.hh: ExplicitOneStepMethod::apply"]}
{"id": "C71", "title": "Newton terminates", "statement": "NewtonMethod::apply comes to an end after at most MaxIterations linear solves (one, if none is allowed but one is forced), whatever the defects and the linear solver do.", "quantifier": "all nonlinear problems, all parameters, all linear solvers and line searches", "why_tests_cant": "arbitrary defect sequences", "anchors": ["dune/pdelab/solver/newton.hh: NewtonMethod::apply", "dune/pdelab/solver/terminate.hh: DefaultTerminate::terminate"]}
{"id": "C72", "title": "Linear systems of Newton use a current Jacobian", "statement": "With the default reassemble threshold every linear system is solved with the Jacobian at the current iterate; with any threshold below one the Jacobian is assembled at the initial guess first, so a matrix that was never assembled or belongs to an earlier call is not used.", "quantifier": "all nonlinear problems, all parameters, all matrices kept from before", "why_tests_cant": "arbitrary defect sequences, including zero and NaN", "anchors": ["dune/pdelab/solver/newton.hh: NewtonMethod::prepareStep, linearSolve, apply"]}
{"id": "C73", "title": "Requested linear reduction is the documented one", "statement": "The reduction requested of the linear solver is MinLinearReduction if fixed, and otherwise at most MinLinearReduction.", "quantifier": "all nonlinear problems, all parameters", "why_tests_cant": "arbitrary defect sequences", "anchors": ["dune/pdelab/solver/newton.hh: NewtonMethod::prepareStep, setMinLinearReduction, setFixedLinearReduction"]}
{"id": "C74", "title": "setParameters changes exactly the given parameters", "statement": "NewtonMethod::setParameters sets the parameters that are in the parameter tree to the given values and leaves the others unchanged.", "quantifier": "all parameter trees and previous settings", "why_tests_cant": "all subsets of parameters", "anchors": ["dune/pdelab/solver/newton.hh: NewtonMethod::setParameters", "dune/pdelab/solver/linesearch.hh: setParameters, createLineSearch", "dune/pdelab/solver/terminate.hh: setParameters"]}
{"id": "C75", "title": "The linear problem solver solves the linear problem", "statement": "After every apply of the solver for linear stationary problems in any history of calls (with or without reuse of the matrix, discarding, not keeping it), the norm of the residual of the returned solution is at most the larger of the requested reduction times the initial one and the minimal defect, and the reported defects are those of the initial and the returned solution.", "quantifier": "all linear problems, all linear solvers, all histories", "why_tests_cant": "histories of calls with and without matrix reuse", "anchors": ["dune/pdelab/stationary/linearproblem.hh: StationaryLinearProblemSolver::apply, discardMatrix, setKeepMatrix"]}
{"id": "C76", "title": "Printed time stamps denote their value", "statement": "A time stamp printed with precision p shows min(p,9) decimals and denotes its value, rounded down to that many decimals.", "quantifier": "all normalised time stamps, all precisions", "why_tests_cant": "negative values and all carries of digits", "anchors": ["dune/pdelab/common/clock.cc: operator<<", "dune/pdelab/common/clock.hh: TimeSpec"]}
{"id": "C77", "title": "Verbosity does not influence the time adaptation strategy", "statement": "The decisions of evaluate_estimators (acceptance, new time step, cells marked for refinement or coarsening) do not depend on the verbosity level.", "quantifier": "all estimates, parameters and verbosity levels", "why_tests_cant": "all inputs; tests run with one verbosity", "anchors": ["dune/pdelab/adaptivity/adaptivity.hh: TimeAdaptationStrategy::evaluate_estimators, mark_grid"]}
{"id": "C78", "title": "Grid transfer preserves functions of both discrete spaces", "statement": "If a function belongs to the discrete space before and after the adaptation (and to the spaces on the vanishing elements' ancestors) and int_order is large enough to integrate the mass matrix, adapt_grid yields its coefficients on the new grid.", "quantifier": "all grids, refinements and coarsenings, all finite elements, all function space trees", "why_tests_cant": "all hierarchies; exactness for a whole space of functions", "anchors": ["dune/pdelab/adaptivity/adaptivity.hh: adapt_grid, backup_visitor, replay_visitor, L2Projection, GridAdaptor"]}
{"id": "C79", "title": "Leaf offsets belong to the element they are used for", "statement": "The offsets of the leaf spaces in the local vector of an element are the sums of the numbers of DOFs of the leaves before, whatever elements have been visited before.", "quantifier": "all histories of visited elements, all function space trees", "why_tests_cant": "histories with elements of the same geometry type and different sizes", "anchors": ["dune/pdelab/adaptivity/adaptivity.hh: LeafOffsetCache"]}
{"id": "C80", "title": "Adapting several spaces and vectors keeps the order save - adapt - update - restore", "statement": "adaptGrid adapts the grid exactly once, saves every vector exactly once before that, updates every space exactly once after that, and restores every vector exactly once after its space was updated.", "quantifier": "all numbers of spaces and vectors", "why_tests_cant": "recursion over arbitrary parameter packs", "anchors": ["dune/pdelab/adaptivity/adaptivity.hh: adaptGrid, impl::iteratePacks, impl::iterateTuple"]}
{"id": "C81", "title": "Isolation of hanging nodes is established", "statement": "When adaptToIsolatedHangingNodes returns, the levels of any two leaf cells sharing a vertex differ by at most one; each round on cubes refines exactly the cells sharing a vertex with a cell two or more levels finer, and the node information belongs to the returned grid.", "quantifier": "all grids, all refinement operations, any number of rounds", "why_tests_cant": "arbitrary hierarchies; chains of refinements", "anchors": ["dune/pdelab/constraints/hangingnodemanager.hh: HangingNodeManager::adaptToIsolatedHangingNodes, analyzeView"]}
{"id": "C82", "title": "Hanging nodes are recognised", "statement": "A node is reported as hanging exactly if it lies on a face of a neighbouring cell coarser than all cells it is a corner of; it is reported as boundary node exactly if a boundary face marks it as Dirichlet, independently of the numbering.", "quantifier": "all nonconforming grids, all numberings", "why_tests_cant": "all grids and traversal orders", "anchors": ["dune/pdelab/constraints/hangingnodemanager.hh: HangingNodeManager::analyzeView, hangingNodes"]}
{"id": "C83", "title": "contains() tells whether an entity belongs to the entity set", "statement": "contains(e) is true exactly if the entity belongs to the partitions of the entity set and its codimension is active, so that an entity reported as contained has an index.", "quantifier": "all grids, partitions, histories of addCodim/removeCodim/update, all entities", "why_tests_cant": "all histories of codimension changes", "anchors": ["dune/pdelab/common/partitionviewentityset.hh: PartitionViewEntitySetIndexSetBase::contains"]}
{"id": "C84", "title": "Applying a numerical Jacobian is multiplying by the numerical Jacobian matrix", "statement": "The numerical jacobian_apply methods add weight * J(x) * z to the result, where J(x) is the matrix the numerical jacobian methods produce at x and z the direction (z = x in the linear versions), on volumes, skeleton (both sides) and boundary.", "quantifier": "all local operators, spaces, points x, directions z, weights, epsilon", "why_tests_cant": "all residual functions and directions; tests of linear problems use z = x and weight 1", "anchors": ["dune/pdelab/localoperator/numericaljacobianapply.hh", "dune/pdelab/localoperator/numericalnonlinearjacobianapply.hh"]}
{"id": "C85", "title": "Neighbouring ranks are complete", "statement": "getNeighborRanks() of the parallel helper returns the sorted list of the ranks of all neighbouring processes, i.e. all other processes sharing DOFs with this one; being a neighbour is symmetric.", "quantifier": "all distributions of grids and DOFs, all orders of messages", "why_tests_cant": "all numbers of processes and overlaps", "anchors": ["dune/pdelab/backend/istl/parallelhelper.hh: ParallelHelper::getNeighborRanks"]}
{"id": "C86", "title": "Shared DOFs and the processes sharing entities are recognised", "statement": "The data handle for shared DOFs marks exactly the DOFs that exist on several processes; the data handle for neighbours collects exactly the ranks of the other processes with a copy of an entity of the codimensions used by the function space.", "quantifier": "all distributions, all orders of messages", "why_tests_cant": "all numbers of processes and orders of delivery", "anchors": ["dune/pdelab/gridfunctionspace/genericdatahandle.hh: SharedDOFDataHandle, GFSNeighborDataHandle"]}
{"id": "C87", "title": "Entity-wise orderings never give two DOFs one index", "statement": "The ordering of a tree of spaces that is ordered entity by entity maps different DOFs to different container indices. Unblocked, the indices are exactly 0..size()-1 and each entity has a contiguous range; blocked, every entity with DOFs has its own block and all entries of the blocks are used.", "quantifier": "all grids, all trees of leaf and product spaces (fixed or entity dependent sizes), all entities and DOFs", "why_tests_cant": "the space of trees, grids and size patterns is unbounded; a collision merges two unknowns silently", "anchors": ["dune/pdelab/ordering/gridviewordering.hh: GridViewOrdering::update, mapIndex", "dune/pdelab/ordering/localorderingbase.hh: LocalOrderingBase::map_local_index, size, offset", "dune/pdelab/ordering/leaflocalordering.hh", "dune/pdelab/ordering/entityblockedlocalordering.hh"]}
{"id": "C88", "title": "Sizes reported by entity-wise orderings cover all indices", "statement": "Every entry of a container index lies below the size reported for the entries outside of it (size(suffix), blockCount), so that containers allocated with these sizes have room for every DOF; the sizes and offsets per entity and child are those of the spaces.", "quantifier": "all grids, trees, blockings, DOFs and suffixes", "why_tests_cant": "all trees and grids; a too small size is an out-of-bounds access in the vector", "anchors": ["dune/pdelab/ordering/gridviewordering.hh: GridViewOrdering::size, update", "dune/pdelab/ordering/localorderingbase.hh: node_size, size, offset"]}
{"id": "C89", "title": "Index caches of local function spaces agree with the ordering", "statement": "After binding a local function space of a space or of any subspace and updating its index cache, containerIndex(i) is the container index the ordering of the whole space gives for dofIndex(i), for every tree of orderings (lexicographic, interleaved, entity-wise, chunked, permuted).", "quantifier": "all trees of orderings and decorators, all subspaces, all cells and numbers of DOFs per leaf", "why_tests_cant": "unbounded depth and shape of the tree; a wrong offset couples unknowns of different components", "anchors": ["dune/pdelab/gridfunctionspace/lfsindexcache.hh: map_dof_indices_to_container_indices, LFSIndexCacheBase::update", "dune/pdelab/gridfunctionspace/subspace.hh", "dune/pdelab/ordering/subordering.hh: SubOrdering::map_lfs_indices", "dune/pdelab/ordering/*.hh: map_lfs_indices"]}
{"id": "C90", "title": "Index caches of entities agree with the ordering", "statement": "After update(e) of an entity index cache, the cache lists for the entity exactly the container indices the ordering gives for its DOFs, leaf by leaf and in order, the DOF indices belong to them, and the leaf offsets are the sums of the sizes before.", "quantifier": "all trees of orderings, all entities", "why_tests_cant": "unbounded trees; used for communication, where an error shows only in parallel runs", "anchors": ["dune/pdelab/gridfunctionspace/datahandleprovider.hh: get_leaf_offsets_for_entity, indices_for_entity", "dune/pdelab/gridfunctionspace/entityindexcache.hh", "dune/pdelab/ordering/*.hh: extract_entity_indices"]}
{"id": "C91", "title": "Fast DG index cache", "statement": "In the fast mode of the index cache (fast DG assembly) the container index of a cell is the one the blocked ordering gives for the first DOF of the cell.", "quantifier": "all grids, all cell types, leaf spaces and systems", "why_tests_cant": "grids with several cell types", "anchors": ["dune/pdelab/gridfunctionspace/lfsindexcache.hh: LFSIndexCacheBase::update", "dune/pdelab/gridfunctionspace/localfunctionspace.hh: dofIndices"]}
{"id": "C92", "title": "Jacobians of the finite volume operator are exact", "statement": "The matrices assembled by the cell-centred finite volume operator and its temporal operator (volume, inner faces, boundary) are the derivatives of the residuals they assemble, and their matrix-free applications multiply by these matrices.", "quantifier": "all cells, faces, coefficients, boundary condition types and iterates", "why_tests_cant": "a missing term in a hand-written Jacobian only slows Newton down or yields a slightly wrong linear solution", "anchors": ["dune/pdelab/localoperator/convectiondiffusionccfv.hh: ConvectionDiffusionCCFV, ConvectionDiffusionCCFVTemporalOperator"]}
{"id": "C93", "title": "Jacobians of the conforming finite element operator are exact", "statement": "The matrices assembled by the finite element operator for the convection-diffusion equation are the derivatives of its residuals, for every type of boundary condition.", "quantifier": "all cells and boundary faces, quadrature rules, bases, coefficients, boundary condition types and iterates", "why_tests_cant": "the Jacobian is written by hand; an error shows up only for certain coefficients or boundary conditions", "anchors": ["dune/pdelab/localoperator/convectiondiffusionfem.hh: ConvectionDiffusionFEM"]}
{"id": "C94", "title": "Jacobians of the discontinuous Galerkin operator are exact", "statement": "The matrices assembled by the DG operator (volume, all four blocks on inner faces, boundary) are the derivatives of its residuals and jacobian_apply multiplies by them; prescribing outflow on the inflow boundary is rejected by all of them.", "quantifier": "all variants (SIPG, NIPG, IIPG, weights on or off), all pairs of polynomial degrees, geometries, coefficients and iterates", "why_tests_cant": "four hand-written blocks; tests use few coefficients and degrees", "anchors": ["dune/pdelab/localoperator/convectiondiffusiondg.hh: ConvectionDiffusionDG"]}
{"id": "C95", "title": "Finite volume assembly is conservative", "statement": "Assembling the residual of the finite volume operator on a grid yields for every cell reaction minus source plus the fluxes through all its faces, although each face is visited once; summed over all cells only production and boundary fluxes remain.", "quantifier": "all grids, numberings, coefficients, boundary conditions and iterates", "why_tests_cant": "conservation must hold on every grid and for every numbering of the cells", "anchors": ["dune/pdelab/localoperator/convectiondiffusionccfv.hh: ConvectionDiffusionCCFV", "dune/pdelab/gridoperator/default/assembler.hh", "dune/pdelab/gridoperator/default/residualengine.hh"]}
{"id": "C96", "title": "Implicit Euler with finite volumes preserves nonnegativity and is uniquely solvable", "statement": "If initial values, sources and boundary data are nonnegative (Dirichlet conditions on inflow, outflow conditions on outflow boundaries), any solution of an implicit Euler step with the finite volume operator is nonnegative, for every time step size; there is at most one solution whatever the data are.", "quantifier": "all grids, coefficients, time step sizes, initial values", "why_tests_cant": "a discrete maximum principle; must hold for every grid and every time step", "anchors": ["dune/pdelab/localoperator/convectiondiffusionccfv.hh: ConvectionDiffusionCCFV, ConvectionDiffusionCCFVTemporalOperator"]}
{"id": "C97", "title": "The DG operator assembles the weighted interior penalty method", "statement": "Tested with any finite element function, the residual contributions of the DG operator are the documented volume, face and boundary terms of the weighted interior penalty method with upwinding.", "quantifier": "all geometries, bases, coefficients, variants, trial and test functions", "why_tests_cant": "identity of bilinear forms for all functions", "anchors": ["dune/pdelab/localoperator/convectiondiffusiondg.hh: ConvectionDiffusionDG"]}
{"id": "C98", "title": "The DG operator is locally conservative", "statement": "If constants are in the local spaces, an inner face contributes the numerical flux to the balance of one cell and its negative to the balance of the other one.", "quantifier": "all faces, geometries, pairs of spaces, coefficients and iterates", "why_tests_cant": "conservation must hold for all bases and coefficients", "anchors": ["dune/pdelab/localoperator/convectiondiffusiondg.hh: alpha_skeleton"]}
{"id": "C99", "title": "Symmetric methods yield symmetric matrices", "statement": "Without convection and with a symmetric diffusion tensor the element matrices of the finite element operator and all matrices of the symmetric interior penalty method are symmetric, so that conjugate gradients may be used.", "quantifier": "all geometries, bases, coefficients, penalties", "why_tests_cant": "symmetry of all entries for all coefficients", "anchors": ["dune/pdelab/localoperator/convectiondiffusionfem.hh: jacobian_volume", "dune/pdelab/localoperator/convectiondiffusiondg.hh: jacobian_volume, jacobian_skeleton, jacobian_boundary"]}
{"id": "C100", "title": "The nonsymmetric interior penalty method is stable for every penalty", "statement": "Without convection through inner faces, with positive semidefinite diffusion tensors, the matrices of the NIPG variant (volume, faces, boundary) are positive semidefinite for every nonnegative penalty parameter.", "quantifier": "all geometries, bases, coefficients, penalties", "why_tests_cant": "inequality for all vectors", "anchors": ["dune/pdelab/localoperator/convectiondiffusiondg.hh: jacobian_volume, jacobian_skeleton, jacobian_boundary"]}
{"id": "C101", "title": "The block diagonal wrapper selects the diagonal blocks", "statement": "Assembling the operator wrapped by BlockDiagonalLocalOperatorWrapper gives the diagonal blocks of the matrix of the operator, and nothing outside of them.", "quantifier": "all grids, local operators, linearisation points, one-sided and two-sided operators", "why_tests_cant": "all operators and grids; an error only degrades a preconditioner", "anchors": ["dune/pdelab/localoperator/blockdiagonalwrapper.hh: BlockDiagonalLocalOperatorWrapper"]}
{"id": "C102", "title": "The block off-diagonal wrapper selects the off-diagonal blocks", "statement": "Assembling the operator wrapped by BlockOffDiagonalLocalOperatorWrapper gives the matrix of the operator without its diagonal blocks, so that the matrices of the two wrapped operators add up to that of the operator.", "quantifier": "all grids, local operators, linearisation points", "why_tests_cant": "all operators and grids", "anchors": ["dune/pdelab/localoperator/blockoffdiagonalwrapper.hh: BlockOffDiagonalLocalOperatorWrapper"]}
{"id": "C103", "title": "Matrix-free application is multiplication by the matrix", "statement": "If the application methods of a local operator multiply by its Jacobians, jacobian_apply of the grid operator multiplies by the matrix that jacobian assembles, for the operator itself, its block diagonal and its off-diagonal blocks.", "quantifier": "all grids, local operators, linearisation points and vectors", "why_tests_cant": "identity for all vectors and all grids", "anchors": ["dune/pdelab/gridoperator/default/jacobianapplyengine.hh", "dune/pdelab/gridoperator/fastdg/jacobianapplyengine.hh", "dune/pdelab/localoperator/blockdiagonalwrapper.hh", "dune/pdelab/localoperator/blockoffdiagonalwrapper.hh"]}
{"id": "C104", "title": "The point diagonal wrapper yields the diagonal of the matrix", "statement": "The residual of the operator wrapped by PointDiagonalLocalOperatorWrapper is the diagonal of the matrix of the operator.", "quantifier": "all grids, local operators, linearisation points", "why_tests_cant": "all operators and systems of any number of components", "anchors": ["dune/pdelab/localoperator/pointdiagonalwrapper.hh: PointDiagonalLocalOperatorWrapper"]}
{"id": "C105", "title": "The functions for one cell yield the cell's diagonal block", "statement": "assembleLocalDiagonalBlock, applyLocalDiagonalBlock and assembleLocalPointDiagonal give the block of the assembled matrix that belongs to the cell, its product with a vector, and its diagonal.", "quantifier": "all grids, cells, local operators, linearisation points", "why_tests_cant": "all operators, also nonlinear ones, all grids, also periodic ones", "anchors": ["dune/pdelab/localoperator/blockdiagonalwrapper.hh: assembleLocalDiagonalBlock, applyLocalDiagonalBlock", "dune/pdelab/localoperator/pointdiagonalwrapper.hh: assembleLocalPointDiagonal"]}
{"id": "C106", "title": "Block Jacobi inverts the diagonal blocks", "statement": "Applying the block Jacobi preconditioner with assembled blocks solves in each cell the system with the cell's diagonal block of the matrix.", "quantifier": "all grids, local operators, vectors", "why_tests_cant": "all matrices; triangular solves with permutations of any size", "anchors": ["dune/pdelab/backend/istl/matrixfree/assembledblockjacobipreconditioner.hh: AssembledBlockJacobiPreconditionerLocalOperator"]}
{"id": "C107", "title": "Block SOR performs a block SOR sweep", "statement": "One application of the matrix-free block SOR preconditioner is a sweep in the order of the cells: each cell is updated with the new values of the cells before it and the old values of those after it.", "quantifier": "all grids, local operators, relaxation factors, vectors", "why_tests_cant": "the order of updates must be right for every grid and every numbering", "anchors": ["dune/pdelab/backend/istl/matrixfree/blocksorpreconditioner.hh: BlockSORPreconditionerLocalOperator"]}
{"id": "C108", "title": "Block SOR stays within its vectors", "statement": "The block SOR preconditioner accesses no memory outside of the vectors it is applied to.", "quantifier": "all numbers of degrees of freedom of the cells", "why_tests_cant": "hp-adaptive spaces; reading past the end need not be noticed by a test", "anchors": ["dune/pdelab/backend/istl/matrixfree/blocksorpreconditioner.hh: jacobian_apply_volume_post_skeleton", "dune/pdelab/backend/istl/matrixfree/iterativeblockjacobipreconditioner.hh"]}
{"id": "C109", "title": "Matrix-free preconditioners use the current linearisation point", "statement": "apply inverts blocks that were set up at the linearisation point set last before pre(); it never uses blocks that were not set up, and pre() throws without a linearisation point.", "quantifier": "all histories of calls", "why_tests_cant": "histories of calls of any length", "anchors": ["dune/pdelab/backend/istl/matrixfree/gridoperatorpreconditioner.hh: GridOperatorPreconditioner"]}
{"id": "C110", "title": "The iterative block solver is preconditioned with the inverse diagonal", "statement": "Setting up the block Jacobi preconditioner with iterative block solver stores the inverses of the diagonal entries of each block, however often it is done.", "quantifier": "all blocks, all numbers of setups", "why_tests_cant": "repeated setups; an error only slows convergence down", "anchors": ["dune/pdelab/backend/istl/matrixfree/iterativeblockjacobipreconditioner.hh: IterativeBlockJacobiPreconditionerLocalOperator::alpha_volume"]}
{"id": "C111", "title": "Statistics of the block solvers are those of all invocations on all processes", "statement": "size, avg, stddev, min and max of SolverStatistics are number, mean, standard deviation, minimum and maximum of the values appended on all processes.", "quantifier": "all data, all distributions over processes", "why_tests_cant": "all distributions, also processes without data", "anchors": ["dune/pdelab/backend/istl/matrixfree/solverstatistics.hh: SolverStatistics"]}
{"id": "C112", "title": "Exactly the degrees of freedom marked by their constraints class are constrained", "statement": "After constraints(p,gfs,cg) a degree of freedom is constrained exactly if on some element a leaf of the space has it and the constraints class of that leaf, with the parameters that belong to the leaf, marks it; all of them are Dirichlet constraints. What was in the container before is gone.", "quantifier": "all trees of spaces, all mixtures of the constraints classes without hanging nodes, all grids, parameters and partitions", "why_tests_cant": "all trees and grids; a missed or a surplus constraint changes the solution near a corner only", "anchors": ["dune/pdelab/constraints/common/constraints.hh: constraints, ConstraintsAssemblerHelper, ConstraintsCallBoundary, ConstraintsCallProcessor, ConstraintsCallVolume", "dune/pdelab/constraints/conforming.hh", "dune/pdelab/constraints/p0.hh", "dune/pdelab/constraints/p0ghost.hh", "dune/pdelab/constraints/raviartthomas0.hh", "dune/pdelab/constraints/interiornode.hh", "dune/pdelab/constraints/noconstraints.hh"]}
{"id": "C113", "title": "Dirichlet constraints reach all parts of Dirichlet faces", "statement": "With ConformingDirichletConstraints a degree of freedom is constrained exactly if it is attached to a face, edge or vertex that is part of a boundary face on which the Dirichlet condition holds, also if the element at hand does not have that face; with OverlappingConformingDirichletConstraints also the parts of processor boundaries are.", "quantifier": "all conforming grids, finite elements and parameters", "why_tests_cant": "all grids and finite elements; vertices that touch the boundary with elements that do not have a boundary face", "anchors": ["dune/pdelab/constraints/conforming.hh: ConformingDirichletConstraints, OverlappingConformingDirichletConstraints"]}
{"id": "C114", "title": "Nonoverlapping constraints constrain what no interior element has", "statement": "With NonoverlappingConformingDirichletConstraints, after compute_ghosts, a degree of freedom is constrained exactly if it is attached to a part of a Dirichlet face or to an entity that no interior element of the process has; the flags of all entities of all geometry types are kept apart and in range.", "quantifier": "all grids with ghosts, all geometry types, all finite elements", "why_tests_cant": "all numbers of entities per geometry type; a wrong offset mixes up entities", "anchors": ["dune/pdelab/constraints/conforming.hh: NonoverlappingConformingDirichletConstraints, compute_ghosts"]}
{"id": "C115", "title": "Flux constraints and constraints of interior nodes", "statement": "With RT0Constraints exactly the degrees of freedom of the boundary faces with a Neumann condition are constrained; with InteriorNodeConstraints, after updateInteriorNodes, exactly the vertices that lie on no boundary face.", "quantifier": "all grids and parameters", "why_tests_cant": "all grids; vertices on several boundary faces of several elements", "anchors": ["dune/pdelab/constraints/raviartthomas0.hh: RT0Constraints", "dune/pdelab/constraints/interiornode.hh: InteriorNodeConstraints::updateInteriorNodes"]}
{"id": "C116", "title": "Each leaf space is constrained with its own parameters", "statement": "The constraints of a leaf space are computed with the parameters on the same path of the parameter tree, where a leaf of the parameter tree serves the whole subspace; a grid function given instead of parameters passes its component i to the i-th subspace and means Dirichlet where it is positive; the adapters complement the predicate they adapt.", "quantifier": "all trees of spaces and of parameters or functions", "why_tests_cant": "trees of any shape and depth", "anchors": ["dune/pdelab/constraints/common/constraints.hh: applyToTreePair, gf_to_constraints, OldStyleConstraintsWrapper", "dune/pdelab/constraints/common/constraintsparameters.hh"]}
{"id": "C117", "title": "Lagrange elements on cubes reproduce Q_k", "statement": "The basis of QkDGLagrange and QkDGGL elements has (k+1)^d functions of the space Q_k; interpolating a finite element function gives its coefficients, and a function of Q_k equals the finite element function of its interpolation. The one-dimensional polynomials have value 1 at their own point and 0 at the others.", "quantifier": "all degrees, dimensions, sets of distinct points, functions of Q_k and coefficient vectors", "why_tests_cant": "all degrees, dimensions and functions", "anchors": ["dune/pdelab/finiteelement/qkdglagrange.hh: QkLocalBasis, QkLocalInterpolation, EquidistantLagrangePolynomials", "dune/pdelab/finiteelement/qkdglobatto.hh: QkGLLocalBasis, QkGLLocalInterpolation"]}
{"id": "C118", "title": "evaluateJacobian returns the derivatives of evaluateFunction", "statement": "For the Lagrange, Gauss-Lobatto and Legendre elements on cubes every entry of the Jacobians is the partial derivative of the corresponding basis function.", "quantifier": "all degrees, dimensions, basis functions and points", "why_tests_cant": "derivatives at all points", "anchors": ["dune/pdelab/finiteelement/qkdglagrange.hh: evaluateJacobian", "dune/pdelab/finiteelement/qkdglobatto.hh: evaluateJacobian", "dune/pdelab/finiteelement/qkdglegendre.hh: evaluateJacobian"]}
{"id": "C119", "title": "The Legendre element has an orthogonal basis of Q_k", "statement": "The basis functions of the QkDGLegendre element are orthogonal on the reference cube, with the known norms, and span Q_k; interpolation is the L2 projection: it reproduces Q_k and returns the coefficients of finite element functions.", "quantifier": "all degrees, dimensions, functions", "why_tests_cant": "integrals of products of all pairs of basis functions for all degrees", "anchors": ["dune/pdelab/finiteelement/qkdglegendre.hh: LegendrePolynomials1d, DGLegendreLocalBasis, DGLegendreLocalInterpolation"]}
{"id": "C120", "title": "Gauss-Lobatto points are ordered without losing any", "statement": "GaussLobattoLagrangePolynomials uses the points of the first quadrature rule with k+1 points, each with its weight; mirror images get the numbers j and k-j, points of the left half first; without such a rule the constructor throws.", "quantifier": "all degrees, all families of quadrature rules", "why_tests_cant": "all degrees and rules", "anchors": ["dune/pdelab/finiteelement/qkdglobatto.hh: GaussLobattoLagrangePolynomials"]}
{"id": "C121", "title": "The cache of basis functions returns what the basis would return", "statement": "evaluateFunction and evaluateJacobian of LocalBasisCache return the values of the local basis at the position asked for, whatever was asked for before.", "quantifier": "all sequences of positions and local bases", "why_tests_cant": "all histories", "anchors": ["dune/pdelab/finiteelement/localbasiscache.hh: LocalBasisCache"]}
{"id": "C122", "title": "The multiindices of P_k are enumerated completely and by degree", "statement": "pk_multiindex(i) for i below pk_size(k,d) gives each multiindex of degree at most k exactly once, for every k up to 24; pk_size and pk_size_exact count them; numbers beyond the last one throw.", "quantifier": "all dimensions, degrees and numbers", "why_tests_cant": "a recursion over dimensions and degrees; all dimensions and degrees", "anchors": ["dune/pdelab/finiteelement/l2orthonormal.hh: pk_size, pk_size_exact, pk_enumerate, pk_multiindex"]}
{"id": "C123", "title": "Integrals of monomials are exact", "statement": "MonomialIntegrator::integrate returns the integral of the monomial over the reference cube of any dimension and over the reference simplices of dimension 1 to 3, and throws for other reference elements.", "quantifier": "all exponents, dimensions, reference elements", "why_tests_cant": "alternating sums of binomials for all exponents", "anchors": ["dune/pdelab/finiteelement/l2orthonormal.hh: MonomialIntegrator, Binomial"]}
{"id": "C124", "title": "The orthonormal polynomial basis is an orthonormal basis", "statement": "The functions of OrthonormalPolynomialBasis are orthonormal with respect to the L2 inner product on the reference element, and they span P_k or Q_k; what cannot be constructed throws.", "quantifier": "all degrees, dimensions, reference elements", "why_tests_cant": "Gram-Schmidt for all degrees; inner products of all pairs", "anchors": ["dune/pdelab/finiteelement/l2orthonormal.hh: OrthonormalPolynomialBasis"]}
{"id": "C125", "title": "Gradients of the orthonormal polynomial basis", "statement": "Each entry of evaluateJacobian is the partial derivative of the corresponding function of evaluateFunction, whatever was in the memory before.", "quantifier": "all degrees, dimensions, points, functions", "why_tests_cant": "derivatives at all points", "anchors": ["dune/pdelab/finiteelement/l2orthonormal.hh: OrthonormalPolynomialBasis::evaluateJacobian, invert_index"]}
{"id": "C126", "title": "Evaluation with a lower order gives the basis of the smaller space", "statement": "evaluateFunction(l,...) and evaluateJacobian(l,...) evaluate those functions of the basis that form the orthonormal basis of the space of order l, and throw if l is larger than the order of the basis.", "quantifier": "all orders, degrees, dimensions, both kinds of spaces", "why_tests_cant": "hierarchy of all degrees", "anchors": ["dune/pdelab/finiteelement/l2orthonormal.hh: OrthonormalPolynomialBasis::evaluateFunction, evaluateJacobian"]}
{"id": "C127", "title": "Interpolation of the orthonormal basis is the L2 projection", "statement": "OPBLocalInterpolation::interpolate reproduces the functions of the space and returns the coefficients of a finite element function.", "quantifier": "all degrees, dimensions, functions, coefficient vectors, exact quadrature rules", "why_tests_cant": "all functions", "anchors": ["dune/pdelab/finiteelement/l2orthonormal.hh: OPBLocalInterpolation"]}
{"id": "C128", "title": "Shape functions of neighbouring simplices fit", "statement": "PkLocalFiniteElementMap::find returns in 2d and 3d the variant of the element that orders the vertices like their indices in the grid, so that two elements order the vertices they have in common alike and the degrees of freedom on shared edges and faces coincide; for geometry types other than simplices it throws.", "quantifier": "all numberings of the vertices", "why_tests_cant": "all permutations of the indices of all elements; a wrong variant shows up for order 3 and more and certain numberings only", "anchors": ["dune/pdelab/finiteelementmap/pkfem.hh: PkLocalFiniteElementMapBase, find, compressPerm"]}
{"id": "C129", "title": "Normal components of neighbouring cells have the same orientation", "statement": "With the Raviart-Thomas and Brezzi-Douglas-Marini maps exactly one of the two cells at an inner face uses the inverted shape function for this face, so that both mean the same flux.", "quantifier": "all grids, numberings and cells", "why_tests_cant": "all grids and numberings", "anchors": ["dune/pdelab/finiteelementmap/raviartthomasfem.hh: RaviartThomasLocalFiniteElementMap", "dune/pdelab/finiteelementmap/rt0simplex2dfem.hh", "dune/pdelab/finiteelementmap/rt0simplex3dfem.hh", "dune/pdelab/finiteelementmap/rt0cube2dfem.hh", "dune/pdelab/finiteelementmap/rt0cube3dfem.hh", "dune/pdelab/finiteelementmap/rt1simplex2dfem.hh", "dune/pdelab/finiteelementmap/rt1cube2dfem.hh", "dune/pdelab/finiteelementmap/rt1cube3dfem.hh", "dune/pdelab/finiteelementmap/rt2cube2dfem.hh", "dune/pdelab/finiteelementmap/bdm1simplex2dfem.hh", "dune/pdelab/finiteelementmap/bdm1cube2dfem.hh"]}
{"id": "C130", "title": "Tangential components of neighbouring cells have the same orientation", "statement": "With EdgeS0LocalFiniteElementMap the shape function of each edge points from the vertex with the smaller to the vertex with the larger global id, hence in the same direction in all elements with this edge.", "quantifier": "all grids, ids and elements", "why_tests_cant": "all grids and numberings", "anchors": ["dune/pdelab/finiteelementmap/finiteelementmap.hh: EdgeS0LocalFiniteElementMap"]}
{"id": "C131", "title": "Finite element maps tell the numbers of degrees of freedom of their elements", "statement": "For each map the sizes for the geometry types of all subentities of the reference element add up to the number of shape functions (the dimension of the space), hasDOFs is true exactly for the codimensions with degrees of freedom, and maxLocalSize is not exceeded.", "quantifier": "all orders, dimensions and numbers of components", "why_tests_cant": "sums over subentities for all orders and dimensions; indices would overlap", "anchors": ["dune/pdelab/finiteelementmap/pkfem.hh", "dune/pdelab/finiteelementmap/qkfem.hh", "dune/pdelab/finiteelementmap/p0fem.hh", "dune/pdelab/finiteelementmap/monomfem.hh", "dune/pdelab/finiteelementmap/opbfem.hh", "dune/pdelab/finiteelementmap/qkdg.hh", "dune/pdelab/finiteelementmap/rannacherturekfem.hh", "dune/pdelab/finiteelementmap/powerfem.hh", "dune/pdelab/finiteelementmap/pkqkfem.hh", "dune/pdelab/finiteelementmap/pk1d.hh", "dune/pdelab/finiteelementmap/edges0.5fem.hh"]}
{"id": "C132", "title": "The block size of a finite element map is its only positive size", "statement": "finiteElementMapBlockSize returns s > 0 exactly if s is the only positive number of degrees of freedom per entity, and 0 otherwise.", "quantifier": "all maps and dimensions", "why_tests_cant": "all maps", "anchors": ["dune/pdelab/finiteelementmap/utility.hh: finiteElementMapBlockSize"]}
{"id": "C133", "title": "Variable order maps return the order set last", "statement": "After any sequence of setOrder calls getOrder and find of an entity give the order set last for it, or the default order; orders above the maximal one are rejected, and maxLocalSize bounds all elements.", "quantifier": "all sequences of calls, orders and entities", "why_tests_cant": "histories of any length", "anchors": ["dune/pdelab/finiteelementmap/variableopbfem.hh", "dune/pdelab/finiteelementmap/variableqkdgfem.hh", "dune/pdelab/finiteelementmap/variablemonomfem.hh"]}
{"id": "C134", "title": "The mimetic map returns elements with the right number of faces", "statement": "find returns the element for the number of intersections of the cell; elements returned before stay valid.", "quantifier": "all sequences of cells", "why_tests_cant": "histories; dangling references are not noticed by a test", "anchors": ["dune/pdelab/finiteelementmap/mimeticfem.hh: MimeticLocalFiniteElementMap"]}
{"id": "C135", "title": "Geometry types and basic types are converted into each other", "statement": "geometryTypeFromBasicType returns a type of the kind and dimension asked for, or throws; BasicTypeFromDimensionAndTopologyId tells simplices and cubes, and leads back to the same type.", "quantifier": "all dimensions, topology ids and basic types", "why_tests_cant": "bit operations for all dimensions", "anchors": ["dune/pdelab/common/topologyutility.hh: BasicTypeFromDimensionAndTopologyId, geometryTypeFromBasicType"]}
{"id": "C136", "title": "The nonoverlapping operator is the global operator", "statement": "NonoverlappingOperator::apply, applied to a vector that is consistent on interior and border, gives on all interior and border copies the product of the sum of the local matrices with the global vector; applyscaleadd adds the scaled product to the second vector.", "quantifier": "all distributions, matrices, vectors and orders of delivery", "why_tests_cant": "all distributions and message orders", "anchors": ["dune/pdelab/backend/istl/novlpistlsolverbackend.hh: NonoverlappingOperator"]}
{"id": "C137", "title": "The overlapping operator is the global operator", "statement": "OverlappingOperator::apply, applied to a consistent vector, is on each process zero at constrained degrees of freedom and the global product at all others; applyscaleadd adds the scaled product.", "quantifier": "all overlapping decompositions, element matrices and vectors", "why_tests_cant": "all decompositions", "anchors": ["dune/pdelab/backend/istl/ovlpistlsolverbackend.hh: OverlappingOperator"]}
{"id": "C138", "title": "Additive Schwarz preconditioners are symmetric and consistent", "statement": "OverlappingWrappedPreconditioner and the exact subdomain solver give the same values on all copies, the sum of the local corrections; with symmetric (positive semidefinite) local preconditioners they are symmetric (positive semidefinite) for the parallel scalar product, as conjugate gradients requires.", "quantifier": "all decompositions, local preconditioners, vectors and orders of delivery", "why_tests_cant": "all decompositions and vectors; an unsymmetric preconditioner may still converge", "anchors": ["dune/pdelab/backend/istl/ovlpistlsolverbackend.hh: OverlappingWrappedPreconditioner, UMFPackSubdomainSolver, SuperLUSubdomainSolver"]}
{"id": "C139", "title": "Restricted additive Schwarz takes the owner's values", "statement": "The restricted preconditioner gives on every copy the correction computed by the owner from a defect that is set to zero at foreign degrees of freedom.", "quantifier": "all decompositions, subdomain solvers and orders of delivery", "why_tests_cant": "all decompositions and message orders", "anchors": ["dune/pdelab/backend/istl/ovlpistlsolverbackend.hh: RestrictedSuperLUSubdomainSolver"]}
{"id": "C140", "title": "The nonoverlapping Jacobi preconditioner uses the global diagonal", "statement": "NonoverlappingJacobi stores on interior and border copies the inverse of the sum of the local diagonal blocks; it maps consistent vectors to consistent vectors and summands to summands.", "quantifier": "all distributions, block matrices and orders of delivery", "why_tests_cant": "all distributions and message orders", "anchors": ["dune/pdelab/backend/istl/novlpistlsolverbackend.hh: NonoverlappingJacobi"]}
{"id": "C141", "title": "Parallel scalar products and norms are those of the global vectors", "statement": "For consistent vectors dot is the scalar product of the global vectors; norm of the nonoverlapping backends is the norm of the global vector given by its summands.", "quantifier": "all distributions and vectors", "why_tests_cant": "all distributions; vectors with several copies of border values", "anchors": ["dune/pdelab/backend/istl/ovlpistlsolverbackend.hh: OverlappingScalarProduct", "dune/pdelab/backend/istl/novlpistlsolverbackend.hh: NonoverlappingScalarProduct, ISTLBackend_NOVLP_BASE_PREC::norm"]}
{"id": "C142", "title": "Explicit diagonal solvers solve the global diagonal system", "statement": "The explicit diagonal backends return on all copies the quotient of the global right hand side and the global diagonal.", "quantifier": "all distributions, diagonal matrices and right hand sides", "why_tests_cant": "all distributions", "anchors": ["dune/pdelab/backend/istl/novlpistlsolverbackend.hh: ISTLBackend_NOVLP_ExplicitDiagonal", "dune/pdelab/backend/istl/ovlpistlsolverbackend.hh: ISTLBackend_OVLP_ExplicitDiagonal"]}
{"id": "C143", "title": "Partitions of unity add up to one", "statement": "standardPartitionOfUnity and sarkisPartitionOfUnity are zero at constrained degrees of freedom, and their values on all processes add up to one at all degrees of freedom that are not constrained on all processes; the distance of Sarkis is positive on each subdomain.", "quantifier": "all decompositions and orders of delivery; all partitions of the unit square", "why_tests_cant": "sums over processes for all decompositions", "anchors": ["dune/pdelab/backend/istl/geneo/partitionofunity.hh: standardPartitionOfUnity, sarkisPartitionOfUnity"]}
{"id": "C144", "title": "The cache of border entities translates indices and ids", "statement": "BorderIndexIdCache tells for every entity with degrees of freedom that is not a cell whether it is a border entity, and translates local indices of border entities into global ids and back; entities that are not border entities have no index.", "quantifier": "all grids, spaces and numbers of updates", "why_tests_cant": "all grids and histories of updates", "anchors": ["dune/pdelab/common/borderindexidcache.hh: BorderIndexIdCache"]}
{"id": "C145", "title": "Matrix patterns are complete on the border of nonoverlapping processes", "statement": "After fill_pattern the pattern of every process has its local links and all links between unconstrained border degrees of freedom known to it that another process has, for every order of the messages; the announced message sizes are the sizes of the messages.", "quantifier": "all nonoverlapping distributions, spaces, local patterns and orders of delivery", "why_tests_cant": "all distributions and schedules of messages", "anchors": ["dune/pdelab/gridoperator/common/borderdofexchanger.hh: NonOverlappingBorderDOFExchanger, CommunicationCache, PatternExtender", "dune/pdelab/gridoperator/default/patternengine.hh: post_border_pattern_assembly"]}
{"id": "C146", "title": "make_consistent sums up the matrix entries of all processes on the border", "statement": "After make_consistent the entries for two border degrees of freedom are on every process the sum of the entries of all processes, other entries are unchanged, and no entry is missing; for grid operators and one step grid operators.", "quantifier": "all nonoverlapping distributions, matrices, orders of delivery and numbers of calls", "why_tests_cant": "all distributions, matrices and schedules of messages", "anchors": ["dune/pdelab/gridoperator/common/borderdofexchanger.hh: EntryAccumulator, accumulateBorderEntries", "dune/pdelab/gridoperator/gridoperator.hh: make_consistent, setupGridOperators", "dune/pdelab/gridoperator/onestep.hh: make_consistent"]}
{"id": "C147", "title": "The parallel index set for AMG is globally consistent", "statement": "createIndexSetAndProjectForAMG puts exactly the blocks shared with other processes into the index set; all copies of a block have the same global index, different blocks have different ones, global indices are consecutive, and exactly one process has the attribute owner.", "quantifier": "all distributions, spaces and orders of delivery", "why_tests_cant": "all distributions and schedules of messages", "anchors": ["dune/pdelab/backend/istl/parallelhelper.hh: ParallelHelper::createIndexSetAndProjectForAMG", "dune/pdelab/gridfunctionspace/genericdatahandle.hh: MinDataHandle, SharedDOFDataHandle"]}
{"id": "C148", "title": "The coarse matrix of the two-level Schwarz method is the Galerkin product", "statement": "SubdomainProjectedCoarseSpace sets up, on all processes, a matrix with one row for each local basis vector in the order of the ranks; each entry is the product of the two basis vectors, extended by zero, with the global matrix.", "quantifier": "all overlapping distributions, orders of delivery, numbers of local basis vectors", "why_tests_cant": "all distributions and schedules of messages", "anchors": ["dune/pdelab/backend/istl/geneo/subdomainprojectedcoarsespace.hh: SubdomainProjectedCoarseSpace::setup_coarse_system, basis_array_offset", "dune/pdelab/backend/istl/geneo/multicommdatahandle.hh: MultiCommGatherScatter::scatter", "dune/pdelab/backend/istl/parallelhelper.hh: ParallelHelper::getNeighborRanks"]}
{"id": "C149", "title": "The two-level Schwarz preconditioner adds the subdomain corrections and the coarse correction", "statement": "restrict gives on all processes the scalar products of a consistent vector with the basis vectors; apply succeeds and gives a consistent vector, the sum of the subdomain solutions and of the prolongated coarse solution; it is symmetric and positive if the solvers are, and the coarse correction is exact for errors in the coarse space.", "quantifier": "all overlapping distributions, orders of delivery, local bases, solvers and defects", "why_tests_cant": "all distributions, vectors and schedules of messages", "anchors": ["dune/pdelab/backend/istl/geneo/subdomainprojectedcoarsespace.hh: restrict, prolongate", "dune/pdelab/backend/istl/geneo/two_level_schwarz.hh: TwoLevelOverlappingAdditiveSchwarz::apply"]}
{"id": "C150", "title": "The GenEO and Lipton-Babuska bases are the chosen eigenvectors times the partition of unity", "statement": "The number of eigenvectors is that up to the threshold (or the given one), the basis vectors are normalised products of the partition of unity with the eigenvectors and vanish where it does, and the partition of unity is in the basis if it is to be added; missing eigenvalues are an exception.", "quantifier": "all eigenpairs, partitions of unity, thresholds and numbers", "why_tests_cant": "all inputs", "anchors": ["dune/pdelab/backend/istl/geneo/geneobasis.hh: GenEOBasis", "dune/pdelab/backend/istl/geneo/liptonbabuskabasis.hh: LiptonBabuskaBasis"]}
{"id": "C151", "title": "The local operator on the overlap is evaluated exactly on elements covered by several subdomains", "statement": "LocalOperatorOvlpRegion calls the methods of the base operator for elements covered by several subdomains and ignores all others.", "quantifier": "all distributions, spaces, orders of delivery, elements and base operators", "why_tests_cant": "all distributions and schedules of messages", "anchors": ["dune/pdelab/backend/istl/geneo/localoperator_ovlp_region.hh: LocalOperatorOvlpRegion"]}
{"id": "C152", "title": "Discrete functions have the values and the derivatives of the finite element function", "statement": "The functions of a space and a vector of coefficients (DiscreteGridFunction, VectorDiscreteGridFunction, DiscreteGridViewFunction) return on each element the linear combination of the shape functions with the current coefficients, whatever was evaluated before; the gradients are the derivatives in global coordinates of the function on the element, for nonlinear geometries, too.", "quantifier": "all spaces, vectors, elements, points, geometries and sequences of evaluations", "why_tests_cant": "all inputs and histories of the buffers", "anchors": ["dune/pdelab/gridfunctionspace/gridfunctionspaceutilities.hh: DiscreteGridFunction, DiscreteGridFunctionGradient, VectorDiscreteGridFunction, VectorDiscreteGridFunctionGradient", "dune/pdelab/function/discretegridviewfunction.hh: DiscreteGridViewFunction, LocalFunction"]}
{"id": "C153", "title": "Divergences and curls are those of the vector field", "statement": "The divergence and the curl of a vector-valued discrete function are those of the field in global coordinates, in two and in three dimensions, for diagonal and full geometry matrices and for vector-valued shape functions; the functors for curls and cross products agree with the curl and the cross product in space.", "quantifier": "all fields, geometries and points", "why_tests_cant": "signs and indices for all fields", "anchors": ["dune/pdelab/gridfunctionspace/gridfunctionspaceutilities.hh: VectorDiscreteGridFunctionDiv, VectorDiscreteGridFunctionCurl, DiscreteGridFunctionGlobalCurl", "dune/pdelab/common/jacobiantocurl.hh: JacobianToCurl", "dune/pdelab/common/crossproduct.hh: CrossProduct"]}
{"id": "C154", "title": "Second derivatives of discrete functions are those of the finite element function", "statement": "The second derivative of a DiscreteGridViewFunction has the second derivatives of the function in global coordinates, or an exception is thrown.", "quantifier": "all bases, coefficients, dimensions and geometries", "why_tests_cant": "all inputs", "anchors": ["dune/pdelab/function/discretegridviewfunction.hh: LocalFunction::evaluate<2>"]}
{"id": "C155", "title": "Piola transformed fields keep their fluxes and divergences", "statement": "DiscreteGridFunctionPiola returns A y / det A for the Jacobian A of the geometry, which preserves fluxes through faces and, divided by det A, the divergence; PiolaBackwardAdapter is the inverse, and NormalFluxGridFunctionAdapter returns the flux for the unit outer normal of the triangle.", "quantifier": "all geometries, fields and points", "why_tests_cant": "all orientations of the elements", "anchors": ["dune/pdelab/gridfunctionspace/gridfunctionspaceutilities.hh: DiscreteGridFunctionPiola", "dune/pdelab/common/function.hh: PiolaBackwardAdapter, NormalFluxGridFunctionAdapter"]}
{"id": "C156", "title": "Interpolation sets exactly the coefficients of the function", "statement": "After interpolate, every degree of freedom of the visited elements has the coefficient its finite element computes for the function (scalar functions go to all leaves, components of vector-valued functions to the leaves in order, trees of functions to trees of spaces), all others are unchanged; elements on which a part of the space has no degrees of freedom are skipped for this part; interpolating a function of the space returns its coefficients.", "quantifier": "all trees of functions and spaces, grids, finite elements and initial vectors", "why_tests_cant": "all trees and grids", "anchors": ["dune/pdelab/gridfunctionspace/interpolate.hh: interpolate, InterpolateVisitor, InterpolateLeafFromScalarVisitor, InterpolateLeafFromVectorVisitor"]}
{"id": "C157", "title": "Views transfer exactly the entries of the element", "statement": "Reading, writing and adding through a view of a vector or a matrix, for a whole space, a child or a sub-container, transfers the entries of the element and touches no others; adding loses nothing if entries coincide. Aliased views access the same entries; accumulate applies the weight once and rawAccumulate does not apply it.", "quantifier": "all caches, children, containers and values", "why_tests_cant": "all index patterns", "anchors": ["dune/pdelab/backend/common/uncachedvectorview.hh: UncachedVectorView", "dune/pdelab/backend/common/uncachedmatrixview.hh: UncachedMatrixView", "dune/pdelab/backend/common/aliasedvectorview.hh: AliasedVectorView", "dune/pdelab/backend/common/aliasedmatrixview.hh: AliasedMatrixView"]}
{"id": "C158", "title": "Arithmetic with grid functions is pointwise", "statement": "Differences, products, quotients, inverses, squares, roots, multiples and selected components of grid functions have at every point and time the value of the expression; setting the time of an expression sets the time of all its operands and of no other function; combinations of sizes and components that make no sense are rejected.", "quantifier": "all expressions, functions, points and times", "why_tests_cant": "all expressions", "anchors": ["dune/pdelab/function/product.hh: ProductGridFunctionAdapter", "dune/pdelab/function/minus.hh: MinusGridFunctionAdapter", "dune/pdelab/function/division.hh: DivisionGridFunctionAdapter", "dune/pdelab/function/inverse.hh: InverseGridFunctionAdapter", "dune/pdelab/function/sqr.hh: SqrGridFunctionAdapter", "dune/pdelab/function/sqrt.hh: SqrtGridFunctionAdapter", "dune/pdelab/function/scalarscaled.hh: ScalarScaledGridFunctionAdapter", "dune/pdelab/function/selectcomponent.hh: SelectComponentGridFunctionAdapter", "dune/pdelab/function/const.hh: ConstGridFunction"]}
{"id": "C159", "title": "The sum of the integrals on all processes is the integral", "statement": "The sum over all processes of integrateGridFunction is the sum of the quadratures on all elements of the grid, for every distribution and overlap, and the integral if the rule is exact; the previous contents of the variable for the result do not matter.", "quantifier": "all functions, grids, distributions and quadrature rules", "why_tests_cant": "all distributions", "anchors": ["dune/pdelab/common/functionutilities.hh: integrateGridFunction"]}
{"id": "C160", "title": "Probes give the same value on all processes", "statement": "GridFunctionProbe evaluates the function at the point on the process with an interior element containing it and every process gets this value; all processes take part in the same communication; if the point is outside the grid, every process gets NaN.", "quantifier": "all numbers of processes, distributions, overlaps and points", "why_tests_cant": "collective communication on all distributions", "anchors": ["dune/pdelab/common/functionutilities.hh: GridFunctionProbe"]}
{"id": "C161", "title": "The numerical fluxes for acoustics and Maxwell's equations are upwind fluxes", "statement": "The numerical flux consists of the waves that leave the two sides towards the face: the part of the inner state transported along the normal and the part of the outer state transported against it; with the same material on both sides the scheme never gains energy at a face.", "quantifier": "all unit normals, materials and states, dimensions 1, 2, 3", "why_tests_cant": "all real states and normals", "anchors": ["dune/pdelab/localoperator/linearacousticsdg.hh: LinearAcousticsEigenvectors, DGLinearAcousticsSpatialOperator::alpha_skeleton", "dune/pdelab/localoperator/maxwelldg.hh: MaxwellEigenvectors, DGMaxwellSpatialOperator::alpha_skeleton"]}
{"id": "C162", "title": "The numerical fluxes are exact at interfaces between materials", "statement": "If the physical fluxes on both sides of a face agree, the numerical flux is this common flux; in particular it is consistent.", "quantifier": "all normals, pairs of materials and states", "why_tests_cant": "all real states", "anchors": ["dune/pdelab/localoperator/linearacousticsdg.hh: alpha_skeleton", "dune/pdelab/localoperator/maxwelldg.hh: alpha_skeleton"]}
{"id": "C163", "title": "The residuals of acoustics and Maxwell's equations are those of the weak form", "statement": "The residuals of the operators are the quadratures of the weak form of the conservation law, conserve each component across inner faces, and exist for bases of order less than 20.", "quantifier": "all geometries, bases, quadrature rules, coefficients, boundary conditions and functions", "why_tests_cant": "all inputs", "anchors": ["dune/pdelab/localoperator/linearacousticsdg.hh: alpha_volume, alpha_skeleton, alpha_boundary, lambda_volume", "dune/pdelab/localoperator/maxwelldg.hh: alpha_volume, alpha_skeleton, alpha_boundary, lambda_volume"]}
{"id": "C164", "title": "The temporal operators of acoustics and Maxwell's equations assemble the mass matrix", "statement": "The residual is the L2 product with the test functions for each component, the Jacobian is its derivative, and all its entries are in the announced pattern.", "quantifier": "all geometries, bases, quadrature rules, numbers of components and functions", "why_tests_cant": "all inputs", "anchors": ["dune/pdelab/localoperator/linearacousticsdg.hh: DGLinearAcousticsTemporalOperator", "dune/pdelab/localoperator/maxwelldg.hh: DGMaxwellTemporalOperator"]}
{"id": "C165", "title": "setTime determines the time of the coefficients", "statement": "After any calls of setTime a local operator evaluates its parameters at the time set last, and getTime returns this time.", "quantifier": "all local operators with parameters and sequences of calls", "why_tests_cant": "histories of calls", "anchors": ["dune/pdelab/localoperator/linearacousticsdg.hh: setTime", "dune/pdelab/localoperator/maxwelldg.hh: setTime", "dune/pdelab/localoperator/convectiondiffusiondg.hh: setTime", "dune/pdelab/localoperator/convectiondiffusionfem.hh: setTime", "dune/pdelab/localoperator/convectiondiffusionccfv.hh: setTime", "dune/pdelab/localoperator/idefault.hh: InstationaryLocalOperatorDefaultMethods::setTime, getTime"]}
{"id": "C166", "title": "The elasticity operator is the weak form of linear elasticity", "statement": "The residual is the quadrature of 2\u03bc \u03b5(u):\u03b5(v) + \u03bb div u div v minus that of f\u00b7v; surface forces vanish; the matrix is its derivative and symmetric, the elastic energy is not negative, and rigid body motions produce no force.", "quantifier": "all geometries, bases, quadrature rules, coefficients and displacements", "why_tests_cant": "all inputs", "anchors": ["dune/pdelab/localoperator/linearelasticity.hh: LinearElasticity"]}
{"id": "C167", "title": "The Taylor-Hood operator is the weak form of the Navier-Stokes equations", "statement": "The residual is the quadrature of the weak form with stress or Laplace tensor, with or without convection, sources and tractions; the matrix is its derivative; without convection it is linear, with a symmetric matrix, and the velocity dissipates energy; the quadrature orders are those needed for the degrees of the bases.", "quantifier": "all geometries, pairs of bases, coefficients, flags and functions", "why_tests_cant": "all inputs", "anchors": ["dune/pdelab/localoperator/taylorhoodnavierstokes.hh: TaylorHoodNavierStokes"]}
{"id": "C168", "title": "The mixed diffusion operator is the mixed weak form with the Piola transformation", "statement": "On affine cells the residual is the quadrature of A\u207b\u00b9u\u00b7v - p div v - q div u + c p q for the transformed velocity, with the sources f and the Dirichlet values; it is symmetric for symmetric A.", "quantifier": "all affine cells, bases, coefficients and functions", "why_tests_cant": "all inputs", "anchors": ["dune/pdelab/localoperator/diffusionmixed.hh: DiffusionMixed"]}
{"id": "C169", "title": "The mass operators assemble the scaled inner products", "statement": "The L2 operator, the mass operators of the flow equations, the L2 functional and the matrices of electrodynamics are the quadratures of the inner products, for all leaves of the space; the matrices are the derivatives, symmetric and positive semidefinite.", "quantifier": "all trees of spaces, geometries, bases, coefficients and functions", "why_tests_cant": "all inputs", "anchors": ["dune/pdelab/localoperator/l2.hh: L2, ScalarL2, PowerL2", "dune/pdelab/localoperator/navierstokesmass.hh: NavierStokesMass, NavierStokesVelVecFEMMass", "dune/pdelab/localoperator/l2volumefunctional.hh: L2VolumeFunctional", "dune/pdelab/localoperator/electrodynamic.hh: Electrodynamic_T, Electrodynamic_S"]}
{"id": "C170", "title": "The velocity reconstructed from a pressure has the fluxes of the scheme", "statement": "On affine cubes the normal component of the reconstructed velocity on each face is the normal velocity of the finite volume scheme, whatever was evaluated before; it is continuous across faces and, times the area, the flux the finite volume operator accounts for; after the communication all processes have the same velocity. The finite element variant is -A\u2207u.", "quantifier": "all affine cells, permeabilities, pressures, boundary conditions, histories of evaluations and distributions", "why_tests_cant": "all inputs and histories", "anchors": ["dune/pdelab/localoperator/darcyccfv.hh: DarcyVelocityFromHeadCCFV, VectorExchange", "dune/pdelab/localoperator/darcyfem.hh: DarcyVelocityFromHeadFEM", "dune/pdelab/localoperator/eval.hh: evalFunction, evalGradient"]}
{"id": "C171", "title": "The nonlinear convection-diffusion operator is the weak form of the documented equation", "statement": "The residual is the quadrature of the weak form of \u2207\u00b7(q(x,u) - D v(u)\u2207w(u)) = f(u) with (q - D v\u2207w)\u00b7n = j(u) on Neumann boundaries, with w(u) interpolated.", "quantifier": "all geometries, bases, coefficients and functions", "why_tests_cant": "all inputs", "anchors": ["dune/pdelab/localoperator/nonlinearconvectiondiffusionfem.hh: NonLinearConvectionDiffusionFEM"]}
{"id": "C172", "title": "Two-phase flow conserves both phases and upwinds each of them", "statement": "On each interior face the residual of each phase is plus/minus the scaled flux given by pressure drop and gravity, with the saturation of the cell this phase comes from; it does not depend on the orientation of the face, has the direction of the driving force, and vanishes in equilibrium; on boundaries it is the flux of the boundary condition; the storage term is the amount of the phases; on the whole grid both phases are conserved; the parameter interface forwards all parameters.", "quantifier": "all cells, fluids, pressures, scaling factors, boundary conditions and grids", "why_tests_cant": "all inputs", "anchors": ["dune/pdelab/localoperator/twophaseccfv.hh: TwoPhaseTwoPointFluxOperator, TwoPhaseOnePointTemporalOperator, TwoPhaseParameterInterface"]}
{"id": "C173", "title": "The phase velocities have the fluxes of the two-phase scheme", "statement": "On affine cubes the normal component of V_l and V_g on each face is the molar flux per area of the two-phase scheme.", "quantifier": "all affine cells, fluids, pressures and boundary conditions", "why_tests_cant": "all inputs", "anchors": ["dune/pdelab/localoperator/twophaseccfv.hh: V_l, V_g"]}
{"id": "C174", "title": "The error indicators are the squared norms of the residuals", "statement": "The squared indicator of a cell for conforming elements is h\u00b2\u2016f-cu\u2016\u00b2 plus a quarter of h\u2016[A\u2207u\u00b7n]\u2016\u00b2 for each inner face plus h\u2016j+A\u2207u\u00b7n\u2016\u00b2 on Neumann boundaries; for the discontinuous Galerkin method it is h\u00b2/(p\u00b2\u03b5)\u2016f-b\u00b7\u2207u-cu\u2016\u00b2 plus half of h\u2016[A\u2207u\u00b7n]\u2016\u00b2 + (\u03b3/h+h/\u03b5)\u2016[u]\u2016\u00b2 for each inner face plus (\u03b3/h+h/\u03b5)\u2016u-g\u2016\u00b2 on Dirichlet boundaries; h is the diameter. It is not negative, zero exactly if these residuals vanish, and does not depend on the orientation of the faces.", "quantifier": "all geometries, bases, quadrature rules, coefficients and functions", "why_tests_cant": "all inputs", "anchors": ["dune/pdelab/localoperator/convectiondiffusionfem.hh: ConvectionDiffusionFEMResidualEstimator", "dune/pdelab/localoperator/errorindicatordg.hh: ConvectionDiffusionDG_ErrorIndicator"]}
{"id": "C175", "title": "The temporal error indicators measure the change of the solution and of the data in a time step", "statement": "The squared indicators are h\u00b2/\u0394t\u2016u\u2016\u00b2 + h\u00b2\u2016f-f\u0304\u2016\u00b2, \u0394t\u2016\u2207u\u2016\u00b2 + \u0394t\u00b2\u2016\u2207(f-f\u0304)\u2016\u00b2 and (h+\u0394t\u00b2/h)\u2016j-j_mid\u2016\u00b2 with the means and integrals in time by Simpson's and the trapezoidal rule; they are not negative, exact for sources linear in time, zero for stationary data and solutions; they do not depend on the time the parameters had before, and leave the parameters as they were.", "quantifier": "all time steps, geometries, bases, coefficients and functions", "why_tests_cant": "all inputs", "anchors": ["dune/pdelab/localoperator/convectiondiffusionfem.hh: ConvectionDiffusionTemporalResidualEstimator1, ConvectionDiffusionTemporalResidualEstimator"]}
{"id": "C176", "title": "The discontinuous Galerkin operator for flow is the interior penalty method for the Navier-Stokes equations", "statement": "The residuals in cells, on faces and on the boundary are the quadratures of the interior penalty weak form with Nitsche's boundary terms, prescribed tractions and slip; the matrices are the derivatives; the method is consistent, conserves momentum, does not depend on the orientation of faces, is symmetric for \u03b5 = -1 and dissipates energy for \u03b5 = 1; the continuity equation is div u = g\u2082.", "quantifier": "all geometries, bases, quadrature rules, parameters, boundary conditions and functions", "why_tests_cant": "all inputs", "anchors": ["dune/pdelab/localoperator/dgnavierstokes.hh: DGNavierStokes"]}
{"id": "C177", "title": "The operator for vector valued shape functions is the same method", "statement": "For the same spaces the operator for vector valued velocity bases assembles the same residual as the operator for components; its matrices are the derivatives and symmetric for \u03b5 = -1.", "quantifier": "all geometries, bases, parameters and functions", "why_tests_cant": "all inputs", "anchors": ["dune/pdelab/localoperator/dgnavierstokesvelvecfem.hh: DGNavierStokesVelVecFEM"]}
{"id": "C178", "title": "Penalties and scaling of the flow operators", "statement": "The penalty of a face is positive, independent of the order of its cells and the larger one of those of both cells; over-penalisation with exponent one is the default. After any history of calls the incompressibility condition is scaled by the inverse of the step announced last, and operator and parameters have the time set last.", "quantifier": "all volumes, exponents and histories of calls", "why_tests_cant": "all inputs and histories", "anchors": ["dune/pdelab/localoperator/dginteriorpenaltyparameter.hh: DefaultInteriorPenalty, OverPenalizedInteriorPenalty", "dune/pdelab/localoperator/dgnavierstokesparameter.hh: incompressibilityScaling", "dune/pdelab/localoperator/dgnavierstokes.hh: preStep, setTime"]}
{"id": "C179", "title": "The hybrid preconditioner for discontinuous spaces is a two-level method", "statement": "An application adds to the vector the result of the pre-smoothing corrections, one correction in the conforming subspace and the post-smoothing corrections for the residual equation, started with zero; its error propagation is the product of those of the parts; with equal numbers of steps and symmetric parts it is symmetric, with convergent parts positive definite; exact solution in the subspace finds solutions in the subspace.", "quantifier": "all matrices, smoothers, coarse solvers, embeddings, numbers of steps and vectors", "why_tests_cant": "all inputs", "anchors": ["dune/pdelab/backend/istl/seq_amg_dg_backend.hh: SeqDGAMGPrec::apply"]}
{"id": "C180", "title": "The prolongation matrix embeds the conforming space into the discontinuous one", "statement": "The product of the assembled matrix with the coefficients of a conforming function is the coefficient vector of the same function in the discontinuous space, on every cell and for every component; the triple product is the Galerkin matrix of the subspace.", "quantifier": "all trees of spaces, finite elements with an interpolation that reproduces the conforming shape functions, and meshes", "why_tests_cant": "all inputs", "anchors": ["dune/pdelab/backend/istl/cg_to_dg_prolongation.hh: CG2DGProlongation"]}
{"id": "C181", "title": "Solver backends with multigrid solve the system they are given", "statement": "After any history of calls, changes of settings and changes of matrices, a call of apply solves the system with the matrix passed, with the relaxation and numbers of steps set last, and with a hierarchy built for this matrix or, with reuse, the one of the last set-up; it does not change the matrix; the matrix-free operator applies the Jacobian at the linearization point.", "quantifier": "all histories of calls, matrices and settings", "why_tests_cant": "all histories", "anchors": ["dune/pdelab/backend/istl/seqistlsolverbackend.hh: ISTLBackend_SEQ_AMG, OnTheFlyOperator", "dune/pdelab/backend/istl/ovlpistlsolverbackend.hh: ISTLBackend_AMG", "dune/pdelab/backend/istl/novlpistlsolverbackend.hh: ISTLBackend_AMG_NOVLP", "dune/pdelab/backend/istl/seq_amg_dg_backend.hh: ISTLBackend_SEQ_AMG_4_DG", "dune/pdelab/backend/istl/ovlp_amg_dg_backend.hh: ISTLBackend_OVLP_AMG_4_DG"]}
{"id": "C182", "title": "The parallel hybrid preconditioner is a global two-level method and leaves consistent vectors", "statement": "On overlapping decompositions all processes obtain the same result, which is that of the two-level method with the global matrix, the sum of the local smoothers and the global embedding.", "quantifier": "all distributions, messages in any order, matrices, smoothers and numbers of steps", "why_tests_cant": "all inputs, distributions and schedules", "anchors": ["dune/pdelab/backend/istl/ovlp_amg_dg_backend.hh: OvlpDGAMGPrec::apply"]}
{"id": "C183", "title": "Load balancing moves the values of functions with the entities", "statement": "After loadBalanceGrid every vector has, on the interior and border entities of the new partition, the values its function had on the entities with the same ids before, in the numbering of the updated spaces; the sizes announced to the grid are those of the messages, no message is read beyond its end, and the result does not depend on the order in which the grid sends the entities.", "quantifier": "all grids, partitions before and after, numbers of spaces and vectors, numberings and orders of messages", "why_tests_cant": "all schedules and partitions", "anchors": ["dune/pdelab/gridfunctionspace/loadbalance.hh: loadBalanceGrid, LoadBalanceDataHandle, map_filler, map_reader", "dune/pdelab/common/polymorphicbufferwrapper.hh: PolymorphicBufferWrapper"]}
{"id": "C184", "title": "Multi-indices address the elements of nested containers one to one", "statement": "operator[] of a vector and operator() of a matrix refer to exactly the number at the position given by the multi-indices, for any nesting of blocks: assigning through the reference changes this number and no other one; every number is reached; indices of a wrong length are rejected. What is allowed for vectors of a space is allowed for its matrices.", "quantifier": "all nestings, block sizes, contents and multi-indices", "why_tests_cant": "unbounded nesting and sizes", "anchors": ["dune/pdelab/backend/istl/vectorhelpers.hh: access_vector_element", "dune/pdelab/backend/istl/matrixhelpers.hh: access_matrix_element", "dune/pdelab/backend/istl/vector.hh: operator[]", "dune/pdelab/backend/istl/bcrsmatrix.hh: operator()"]}
{"id": "C185", "title": "Clearing rows of matrices changes these rows and nothing else", "statement": "clear_row sets all entries of a row to zero except the diagonal entry, which gets the given value if it is in the pattern; clear_row_block does so for all rows of a block; all other entries and the pattern are unchanged.", "quantifier": "all nestings, square blocks, patterns, contents and rows", "why_tests_cant": "unbounded nesting and sizes", "anchors": ["dune/pdelab/backend/istl/matrixhelpers.hh: clear_matrix_row, clear_matrix_row_block, write_matrix_element_if_exists, write_matrix_element_if_exists_to_block", "dune/pdelab/backend/istl/bcrsmatrix.hh: clear_row, clear_row_block"]}
{"id": "C186", "title": "A matrix has exactly the entries requested by the pattern", "statement": "After buildPattern the matrix has an entry at a position iff a link between its blocks was added, whatever the estimate; the statistics of each block are those of the links.", "quantifier": "all nestings, sizes, estimates and histories of links", "why_tests_cant": "all histories", "anchors": ["dune/pdelab/backend/istl/bcrsmatrixbackend.hh: allocate_bcrs_matrix, buildPattern", "dune/pdelab/backend/istl/bcrspattern.hh: NestedPattern, BCRSPattern", "dune/pdelab/backend/istl/patternstatistics.hh: PatternStatistics"]}
{"id": "C187", "title": "Output files show the current values of the functions", "statement": "Each value a VTK writer obtains from a function added by addSolutionToVTKWriter is the value of the finite element function for the vector at the time the file is written, for each component, whatever cells were evaluated before and however often vector, space and grid changed; by default component c of the output is component c of the function.", "quantifier": "all spaces, shape functions, vectors, orders of evaluation and histories of changes", "why_tests_cant": "histories of evaluations and changes", "anchors": ["dune/pdelab/gridfunctionspace/vtk.hh: DGFTreeCommonData, DGFTreeLeafFunction, DGFTreeVectorFunction", "dune/pdelab/common/vtkexport.hh: VTKGridFunctionAdapter", "dune/pdelab/common/range.hh: rangeVector"]}
{"id": "C188", "title": "addSolutionToVTKWriter adds each component once", "statement": "One function is added for each leaf space and each vector space outside of vector spaces which is accepted by the predicate, in the order of the tree, as vertex or cell data as requested, under the generated name; if a name is missing the call throws, after adding what comes before.", "quantifier": "all trees of spaces, predicates and name generators", "why_tests_cant": "unbounded trees", "anchors": ["dune/pdelab/gridfunctionspace/vtk.hh: addSolutionToVTKWriter, add_solution_to_vtk_writer_visitor, OutputCollector"]}
{"id": "C189", "title": "Generated names of output functions are unique", "statement": "The default name generator refuses exactly the unnamed components without prefix and suffix; named ones get prefix, name and suffix; unnamed ones get names which differ from each other; naming a vector space gives distinct names to its components.", "quantifier": "all prefixes, suffixes, separators which do not start with a digit, names and paths", "why_tests_cant": "unbounded trees and texts", "anchors": ["dune/pdelab/gridfunctionspace/vtk.hh: DefaultFunctionNameGenerator", "dune/pdelab/gridfunctionspace/vectorgridfunctionspace.hh: name"]}
{"id": "C190", "title": "Sizes reported by grid function spaces are those of the present grid", "statement": "After a successful update(true) of a grid function space every space of its tree reports as size() its dimension on the present grid (or refuses below an entity blocked node), as globalSize() that of the root and as maxLocalSize() the one of the root, whatever happened before; nothing else than update() or ordering() of a tree containing a space changes what it reports.", "quantifier": "all trees of spaces, shared entity sets and histories of construction, copies, grid changes, updates and exceptions", "why_tests_cant": "unbounded trees and histories", "anchors": ["dune/pdelab/gridfunctionspace/gridfunctionspacebase.hh: GridFunctionSpaceBase::update, size, globalSize, maxLocalSize", "dune/pdelab/common/partitionviewentityset.hh: update, addCodim", "dune/pdelab/ordering/gridviewordering.hh: update"]}
{"id": "C191", "title": "Rules for building and using trees of grid function spaces", "statement": "update() and ordering() succeed exactly for spaces which are not part of a larger space and whose entity blocked parts have one entity set; a space can become part of a larger one exactly as long as it has not been initialised as root; an operation which throws has no effect.", "quantifier": "all histories", "why_tests_cant": "unbounded trees and histories", "anchors": ["dune/pdelab/gridfunctionspace/gridfunctionspacebase.hh: reset_root_space_flag, update, isRootSpace", "dune/pdelab/gridfunctionspace/gridfunctionspace.hh: ordering"]}
{"id": "C192", "title": "Coefficient vectors behave as values, and share storage exactly when attached", "statement": "Vectors of the ISTL, simple and Eigen backends which are constructed, copied, moved, assigned, detached and combined behave like variables holding lists of numbers: copies are independent, operands are not changed, and operations with a vector itself give the expected result. attach() makes two vectors share their content until one of them gets another container; nothing else is affected.", "quantifier": "all histories of operations on any number of vectors", "why_tests_cant": "unbounded histories with aliasing", "anchors": ["dune/pdelab/backend/istl/vector.hh: BlockVector", "dune/pdelab/backend/simple/vector.hh: VectorContainer", "dune/pdelab/backend/eigen/vector.hh: VectorContainer"]}
{"id": "C193", "title": "Matrix wrappers describe the matrix they hold", "statement": "A matrix which is copied or assigned equals the original: sizes, entries, and pattern statistics are those of the stored matrix, also after attach() and detach().", "quantifier": "all matrices and histories of operations", "why_tests_cant": "unbounded sizes and histories", "anchors": ["dune/pdelab/backend/simple/matrix.hh: MatrixContainer", "dune/pdelab/backend/istl/bcrsmatrix.hh: BCRSMatrix"]}
{"id": "C194", "title": "Partitions of the overlap computed with METIS", "statement": "The mesh passed to METIS lists the elements with their corners, numbered contiguously; the patches made from the answer of METIS contain every element exactly once, namely in the patch it was assigned to; one requested patch contains everything; a failure of METIS is reported as an exception; updating again after the grid changed gives the same as a new partition; elements sharing a facet are neighbours for METIS.", "quantifier": "all grids, dimensions, numbers of patches, answers of METIS and histories of updates", "why_tests_cant": "unbounded meshes and histories; METIS is a parameter", "anchors": ["dune/pdelab/common/partition/metis.hh: Impl::Metis::updatePartitions, Metis, MetisColored"]}
{"id": "C195", "title": "Scaled local operators scale every contribution", "statement": "A scaled local operator adds to its arguments the factor times the contribution of its backend, for every method, also when scaled repeatedly; nothing is computed for a zero factor; entries of its Jacobian are within the pattern it announced; time and stage calls reach the backend unchanged; it can be used wherever its backend can.", "quantifier": "all operators, nestings, factors, methods, arguments and histories of changing factor and backend", "why_tests_cant": "unbounded nesting and histories, all values", "anchors": ["dune/pdelab/localoperator/scaled.hh: ScaledLocalOperator"]}
{"id": "C196", "title": "Time of functions in function trees", "statement": "In every program a leaf function is evaluated at the time set last through any tree containing it, or through the parameter object it refers to; setTime() reaches every leaf below the node it is called for and nothing else; trees constructed from references refer to the given functions, and clones made by PowerGridFunction(t) are independent of t and of each other.", "quantifier": "all trees, sharing patterns and histories of constructions and setTime calls", "why_tests_cant": "unbounded trees and histories with aliasing", "anchors": ["dune/pdelab/common/function.hh: PowerGridFunction, CompositeGridFunction, PowerCompositeSetTimeVisitor", "dune/pdelab/function/callableadapter.hh: GlobalCallableToInstationaryGridFunctionAdapter, LocalCallableToInstationaryGridFunctionAdapter"]}
{"id": "C197", "title": "Local function trees evaluate the function on the bound element", "statement": "A leaf of a local function tree made by makeLocalFunctionTree() gives the values of the corresponding leaf of the function tree, at its present time, on the element bound last; local trees are bound independently.", "quantifier": "all function trees and histories of bind, unbind and setTime", "why_tests_cant": "unbounded trees and histories", "anchors": ["dune/pdelab/function/localfunction.hh: makeLocalFunctionTree, PowerLocalFunction, CompositeLocalFunction", "dune/pdelab/function/oldinterfaceadapter.hh: LocalGridViewFunctionAdapter"]}
{"id": "C198", "title": "Function adapters preserve values", "statement": "Adapters between functions, grid functions, local functions, callables and boundary conditions evaluate the wrapped function at the same point; pointwise sums and multiples are correct; a bound time is passed in the right place; names of the leaves of a function tree in VTK files are distinct.", "quantifier": "all functions, geometries, points, trees", "why_tests_cant": "unbounded domains, trees and number of functions", "anchors": ["dune/pdelab/common/function.hh: FunctionToGridFunctionAdapter, GridFunctionToFunctionAdapter, SelectComponentAdapter, vtkwriter_tree_addvertexdata", "dune/pdelab/common/functionwrappers.hh: PointwiseGridFunctionAdapter", "dune/pdelab/function/callableadapter.hh", "dune/pdelab/function/bindtime.hh: bindTime"]}
{"id": "C199", "title": "Constrained DOFs of the convenience spaces are set consistently", "statement": "Called on all processes, setConstrainedDOFS, setNonConstrainedDOFS, copyConstrainedDOFS and copyNonConstrainedDOFS of the convenience spaces turn consistent vectors into consistent vectors that agree on all copies of a DOF; a DOF counts as constrained if its owner constrains it.", "quantifier": "all distributions, orders of message delivery, constraints, vectors and values", "why_tests_cant": "unbounded processes and orders of delivery", "anchors": ["dune/pdelab/boilerplate/pdelab.hh: CGSpace, DGPkSpace, CGCONBase, DGCONBase"]}
{"id": "C200", "title": "The convenience classes create the requested grid", "statement": "StructuredGrid creates a grid with the corners, cells, periodic directions and overlap given, or throws; for YaspGrid exactly if the lower left corner is not the origin up to the tolerance.", "quantifier": "all corners, numbers of cells, types of elements and dimensions", "why_tests_cant": "all values", "anchors": ["dune/pdelab/boilerplate/pdelab.hh: StructuredGrid"]}
{"id": "C201", "title": "Spaces made from dune-functions bases use the indices of the basis", "statement": "After an update of the space every DOF index of a local function space is mapped to the container index the basis gives to that local DOF, and the indices reported for an entity are those of its basis functions, each once.", "quantifier": "all bases, grids and orders of elements", "why_tests_cant": "unbounded grids and all numberings", "anchors": ["dune/pdelab/gridfunctionspace/dunefunctionsgridfunctionspace.hh: GridFunctionSpace::LeafOrdering", "dune/pdelab/gridfunctionspace/dunefunctionslocalfunctionspace.hh: LocalFunctionSpace"]}
{"id": "C202", "title": "Spaces made from dune-functions bases describe their communication correctly", "statement": "contains(codim) holds iff an entity of that codimension has a DOF, fixedSize(codim) holds iff all entities of that codimension have the same number of DOFs.", "quantifier": "all bases and grids, also with several geometry types", "why_tests_cant": "unbounded grids", "anchors": ["dune/pdelab/gridfunctionspace/dunefunctionsgridfunctionspace.hh: LeafOrdering::contains, LeafOrdering::fixedSize"]}
{"id": "C203", "title": "The finite element map of a dune-functions basis is current", "statement": "In any history of queries and updates of the space, the finite element returned for an element is that of the basis at the time of the query.", "quantifier": "all bases and histories", "why_tests_cant": "unbounded histories", "anchors": ["dune/pdelab/gridfunctionspace/dunefunctionsgridfunctionspace.hh: FEM::find, FEM::update, GridFunctionSpace::update"]}
{"id": "C204", "title": "The index cache of a dune-functions space reports constrained DOFs", "statement": "After update() the index cache says that a local DOF is constrained iff the constraints container constrains it.", "quantifier": "all elements and constraints containers", "why_tests_cant": "all sets of constraints", "anchors": ["dune/pdelab/gridfunctionspace/dunefunctionslfsindexcache.hh: LFSIndexCacheBase"]}
{"id": "C205", "title": "The FastDG grid operator computes the same residuals", "statement": "residual() and the Jacobian application of the FastDG grid operator give, for every local operator, grid and weight, the same vector as the default grid operator: the vector passed in plus everything the local operator accumulates for the coefficients passed in; other vectors are unchanged.", "quantifier": "all grids, engines, local operators, weights and vectors", "why_tests_cant": "unbounded grids and arbitrary local operators", "anchors": ["dune/pdelab/gridoperator/fastdg/residualengine.hh", "dune/pdelab/gridoperator/fastdg/jacobianapplyengine.hh", "dune/pdelab/gridoperator/default/residualengine.hh", "dune/pdelab/gridoperator/default/jacobianapplyengine.hh", "dune/pdelab/backend/common/aliasedvectorview.hh: WeightedAccumulationView"]}
{"id": "C206", "title": "The FastDG grid operator assembles the same Jacobian", "statement": "jacobian() of the FastDG grid operator gives the same matrix as the default grid operator: the matrix passed in plus everything accumulated, with rows of constrained DOFs replaced by rows of the identity.", "quantifier": "all grids, engines, local operators, weights, constraints and coefficients", "why_tests_cant": "unbounded grids and arbitrary local operators", "anchors": ["dune/pdelab/gridoperator/fastdg/jacobianengine.hh", "dune/pdelab/gridoperator/fastdg/localassembler.hh: handle_dirichlet_constraints", "dune/pdelab/gridoperator/default/jacobianengine.hh", "dune/pdelab/backend/common/aliasedmatrixview.hh"]}
{"id": "C207", "title": "The FastDG grid operator fills a sufficient pattern", "statement": "fill_pattern() of the FastDG grid operator gives the same block pattern as the default grid operator, and it has every block jacobian() writes to, also if the Jacobian is assembled on a part of the grid only.", "quantifier": "all grids, engines and local operators", "why_tests_cant": "unbounded grids and arbitrary local patterns", "anchors": ["dune/pdelab/gridoperator/fastdg/patternengine.hh", "dune/pdelab/gridoperator/default/patternengine.hh", "dune/pdelab/gridfunctionspace/lfsindexcache.hh: LFSIndexCache"]}
{"id": "C208", "title": "interpolate() keeps unconstrained values", "statement": "interpolate(xold,f,x) gives x the values of f on constrained DOFs and those of xold on the others, also if xold and x are the same vector.", "quantifier": "all constraints, functions and vectors, aliased or not", "why_tests_cant": "all vectors and aliasing", "anchors": ["dune/pdelab/gridoperator/fastdg.hh: interpolate", "dune/pdelab/gridoperator/gridoperator.hh: interpolate"]}
{"id": "C209", "title": "The deprecated Newton solver reports what it did", "statement": "After apply() of the Newton class, with or without an exception, the reported defect is that of the solution vector, the first defect that of the initial guess, the linear iterations are those of all linear solves; it returns only if the termination criterion holds, then converged is set and the reduction is the quotient of the defects; otherwise it throws for the reason stated.", "quantifier": "all problems (residuals, Jacobians, linear solvers), parameters, initial guesses and previous calls", "why_tests_cant": "unbounded numbers of iterations and arbitrary nonlinear problems", "anchors": ["dune/pdelab/newton/newton.hh:NewtonSolver::apply", "dune/pdelab/newton/newton.hh:NewtonTerminate::terminate"]}
{"id": "C210", "title": "The deprecated Newton solver comes to an end", "statement": "apply() of the Newton class makes at most twice the maximum number of Newton iterations of linear solves, also if line searches fail and are repeated with a reassembled matrix.", "quantifier": "all problems, parameters and initial guesses", "why_tests_cant": "termination for all problems", "anchors": ["dune/pdelab/newton/newton.hh:NewtonSolver::apply", "dune/pdelab/newton/newton.hh:NewtonLineSearch::line_search"]}
{"id": "C211", "title": "The deprecated Newton solver's line search improves the defect", "statement": "A line search ends with a full step (if none is wanted or the defect is below the absolute limit), the first trial of sufficient decrease, or, if so told, the best trial, and otherwise throws and restores the solution; residuals that are not numbers are skipped; with a line search the defect is smaller after every iteration.", "quantifier": "all problems, step directions, damping factors, strategies and numbers of trials", "why_tests_cant": "arbitrary residuals, NaN included, and numbers of trials", "anchors": ["dune/pdelab/newton/newton.hh:NewtonLineSearch::line_search"]}
{"id": "C212", "title": "The deprecated Newton solver uses the matrix it says it uses", "statement": "Every linear system is solved with the Jacobian assembled last, the backend is told to reuse its set-up exactly if the matrix was not assembled since the last solve; a failed line search is reported only for the Jacobian at the current solution; with the default threshold the Jacobian is always current.", "quantifier": "all problems, thresholds, and matrices kept from previous calls", "why_tests_cant": "unbounded histories", "anchors": ["dune/pdelab/newton/newton.hh:NewtonPrepareStep::prepare_step", "dune/pdelab/newton/newton.hh:NewtonSolver::linearSolve"]}
{"id": "C213", "title": "Parameters of the deprecated Newton solver are read from their keys", "statement": "setParameters() sets every parameter whose documented key is in the parameter tree to its value and leaves the others; values of the wrong kind and unknown names of line searches make it throw, without an effect.", "quantifier": "all parameter trees and previous parameters", "why_tests_cant": "all combinations of keys and values", "anchors": ["dune/pdelab/newton/newton.hh:Newton::setParameters", "dune/pdelab/newton/newton.hh:NewtonLineSearch::strategyFromName"]}
{"id": "C214", "title": "Explicit time steps with boundary values", "statement": "A step of the explicit one step method with a boundary function gives every stage, and so the new solution, the values of the function at the time of the stage on constrained DOFs, and satisfies the stage equations of the scheme with the returned step on the others; the old solution is unchanged.", "quantifier": "all schemes, operators, constraints, boundary functions, step sizes and controllers", "why_tests_cant": "arbitrary operators and numbers of stages", "anchors": ["dune/pdelab/instationary/explicitonestep.hh:ExplicitOneStepMethod::apply", "dune/pdelab/gridoperator/onestep.hh:interpolate"]}
{"id": "C215", "title": "Limiters in explicit time steps", "statement": "With a limiter every stage value is the limited solution of the stage system, which is assembled from the limited earlier stages; the step returned is the smaller one of the given and the suggested step; the old solution, an input, is unchanged.", "quantifier": "all limiters, schemes, operators and controllers", "why_tests_cant": "arbitrary limiters and numbers of stages", "anchors": ["dune/pdelab/instationary/explicitonestep.hh:ExplicitOneStepMethod::apply"]}
{"id": "C216", "title": "Explicit time stepping uses explicit schemes only", "statement": "An explicit one step method object never makes a step with an implicit scheme: the constructor and setMethod() reject these, and a rejected call leaves the method in use.", "quantifier": "all histories of setMethod", "why_tests_cant": "unbounded histories", "anchors": ["dune/pdelab/instationary/explicitonestep.hh:ExplicitOneStepMethod::setMethod"]}
{"id": "C217", "title": "The error distribution report is correct", "statement": "The report of an element-wise error lists, for each bin, a threshold, the number of elements not above it and the fraction of the error they have; the thresholds are found up to the stated accuracy, increase with the bins, and the last one covers all elements.", "quantifier": "all error vectors and numbers of bins", "why_tests_cant": "arbitrary vectors, bisection with 30 steps for any number of bins", "anchors": ["dune/pdelab/adaptivity/adaptivity.hh:error_distribution"]}
{"id": "C218", "title": "Coefficient vectors fit their function spaces", "statement": "For every tree of function spaces for which a coefficient vector can be declared (the program compiles), the nesting and the block sizes of the vector fit the container indices of the space: every DOF has a place of its own, and container indices fit into their class.", "quantifier": "all trees of function spaces, backends, block sizes and orderings", "why_tests_cant": "all trees of any depth and width; a test instantiates a few", "anchors": ["dune/pdelab/backend/istl/vectorhelpers.hh: leaf_vector_descriptor, cascading_vector_descriptor, parent_child_vector_descriptor", "dune/pdelab/backend/istl/descriptors.hh: VectorBackend::blocked", "dune/pdelab/ordering/transformations.hh: gfs_to_ordering"]}
{"id": "C219", "title": "The benchmark helper reports the times that were measured", "statement": "A benchmark object made for n runs accepts exactly the histories in which nothing is measured after n runs; its report lists every task once with the time from the last start to the last end in each run, and the minimum, maximum, mean and standard deviation shown are those of the completed runs, whenever it is printed.", "quantifier": "all histories of starting and ending runs and tasks and of printing reports", "why_tests_cant": "arbitrary histories, any number of runs and tasks", "anchors": ["dune/pdelab/common/benchmarkhelper.hh: BenchmarkHelper::start_run, end_run, start, end, update_statistics, print"]}
{"id": "C220", "title": "The block diagonal of a matrix is extracted, exchanged and applied correctly", "statement": "The diagonal blocks taken from a nested matrix have the entries of the matrix; for every DOF the row of its innermost block is what is sent to a neighbour, the announced amount of data is the amount sent, received rows are added to the rows of the same DOFs and to nothing else, and multiplication with the inverted blocks solves the block diagonal system.", "quantifier": "all nested matrices with blocks of fixed size, vectors, and lists of DOFs of an entity", "why_tests_cant": "any nesting depth, any number of blocks, any block sizes", "anchors": ["dune/pdelab/backend/istl/blockmatrixdiagonal.hh: BlockMatrixDiagonal::MatrixElementVector, AddMatrixElementVectorDataHandle"]}
{"id": "C221", "title": "User-defined constraints classes are asked exactly where they should be", "statement": "Whatever constraints classes the spaces of a system use, constraints() constrains exactly the DOFs that they report when each class with doVolume is asked about every element, each class with doBoundary about every boundary face, each class with doProcessor about every processor face and each class with doSkeleton once about every face between two elements, where reports for the outside element count as well; a space without DOFs is not asked.", "quantifier": "all grids, trees of spaces, parameters and constraints classes that report Dirichlet constraints", "why_tests_cant": "arbitrary user classes, grids and systems", "anchors": ["dune/pdelab/constraints/common/constraints.hh: ConstraintsAssemblerHelper::assemble, BoundaryConstraints, ProcessorConstraints, SkeletonConstraints, VolumeConstraints"]}
{"id": "C222", "title": "The fully matrix-free block Jacobi preconditioner solves with the diagonal blocks", "statement": "In each cell the block Jacobi preconditioner with iteratively inverted blocks gives to its solver the operator that multiplies by the cell's diagonal block of the matrix that would be assembled (scaled by the weight), a point Jacobi preconditioner with the diagonal of that block, initial value zero and the cell's part of the vector; it adds the solution to the result and records the number of iterations. With an exact solver it inverts the blocks.", "quantifier": "all grids, local operators with a consistent matrix-free application, linearisation points, vectors, weights and iterative solvers", "why_tests_cant": "any solver, grid and operator", "anchors": ["dune/pdelab/backend/istl/matrixfree/iterativeblockjacobipreconditioner.hh: IterativeBlockJacobiPreconditionerLocalOperator, BlockDiagonalOperator, LocalPointJacobiPreconditioner, WeightedPointDiagonalAccumulationView"]}
{"id": "C223", "title": "The Newton solver with line search never leaves a worse iterate", "statement": "Started at an iterate whose defect is a number, the Newton solver with the line search of Hackbusch and Reusken (positive damping factor other than one), a positive absolute limit and no forced iteration leaves, whether apply() returns or throws, either the initial iterate after no iteration or an iterate with a strictly smaller defect; the reported defect is that of the iterate left.", "quantifier": "all nonlinear operators, linear solvers (including failing and inexact ones), parameters, initial guesses and kept matrices", "why_tests_cant": "any operator and linear solver; all numbers of iterations", "anchors": ["dune/pdelab/solver/newton.hh: NewtonMethod::apply", "dune/pdelab/solver/linesearch.hh: LineSearchHackbuschReusken::lineSearch"]}
{"id": "C224", "title": "Local vectors behave like vectors", "statement": "For local vectors of the same size axpy, +=, *= and assignment act on every entry and keep the size, dot is the Euclidean product (symmetric, linear), two_norm is a norm that belongs to it (zero for the zero vector only, Cauchy-Schwarz, triangle inequality), resize keeps what fits and appends zeros. A shorter second operand is read outside of its container.", "quantifier": "all sizes, entries and factors, over any ordered field with square roots", "why_tests_cant": "infinitely many sizes and entries", "anchors": ["dune/pdelab/gridfunctionspace/localvector.hh: LocalVector::axpy, operator+=, operator*=, dot, two_norm, resize, assign"]}
{"id": "C225", "title": "The Newton solver converges if full steps reduce the defect", "statement": "If the Jacobian can be assembled and each correction computed with an assembled Jacobian reduces the defect by a factor rho of at most 3/4 when subtracted in full, then apply() - without forced iterations, with positive absolute limit, reassembly threshold below one and a line search with at least one trial - returns without exception after at most k iterations as soon as k reductions by rho satisfy one of the criteria and k iterations are allowed. For a linear problem and an exact linear solver it needs at most one iteration and finds the solution.", "quantifier": "all operators, linear solvers, line searches, parameters, initial guesses and kept matrices meeting the hypotheses", "why_tests_cant": "convergence for all problems and iteration counts", "anchors": ["dune/pdelab/solver/newton.hh: NewtonMethod::apply", "dune/pdelab/solver/linesearch.hh: lineSearch", "dune/pdelab/solver/terminate.hh: DefaultTerminate::terminate"]}
{"id": "C226", "title": "The eigensolver of GenEO returns generalised eigenpairs nearest to the shift", "statement": "For matrices A and B (pattern of B contained in that of A) and a shift sigma that is no eigenvalue, computeGenNonSymMinMagnitude returns as many pairs as vectors were passed, each satisfying A x = lambda B x, in ascending order of lambda, provided that ARPACK finds so many nonzero eigenvalues of the operator it is given; if these are those of largest magnitude, the returned eigenvalues are those nearest to the shift. Block vectors are converted to arrays and back without loss.", "quantifier": "all matrices, block sizes, shifts, numbers of eigenvalues, and all results of ARPACK, the direct solver and std::sort that meet their contracts", "why_tests_cant": "any matrices and any behaviour of the libraries within their contracts", "anchors": ["dune/pdelab/backend/istl/geneo/arpackpp_geneo.hh: ArPackPlusPlus_Algorithms::computeGenNonSymMinMagnitude, ArPackPlusPlus_BCRSMatrixWrapperGen"]}
{"id": "C227", "title": "Adaptive time stepping keeps to its tolerance and does not oscillate", "statement": "With a fixed tolerance, the accumulated estimated error of TimeAdaptationStrategy never decreases and is at most the squared tolerance times (energy + minimal energy rate times length) of the accepted steps, however often steps are rejected. If a rejected step is redone with the size given by newDT(), the sizes of the attempts stay positive, and first grow and then shrink.", "quantifier": "all histories of calls, all estimates, energies, parameters with increase factor at least one and decrease factor between zero and one", "why_tests_cant": "arbitrary histories of accepted and rejected steps", "anchors": ["dune/pdelab/adaptivity/adaptivity.hh: TimeAdaptationStrategy::evaluate_estimators, TimeAdaptationStrategy::startTimeStep"]}
{"id": "C228", "title": "Implicit time stepping is stable for every step size", "statement": "Implicit Euler, theta schemes with theta at least 1/2, Alexander's schemes and the fractional step scheme are A-stable; implicit Euler and Alexander's schemes damp stiff components. A successful step of OneStepMethod with a theta scheme (theta at least 1/2) does not increase the energy of a linear problem with symmetric positive semidefinite temporal and positive semidefinite spatial form, and two steps of implicit Euler for a monotone problem do not move states apart - for any step size.", "quantifier": "all test equations in the left half plane, all problems with such forms, all step sizes, states and solvers that only report success for solutions", "why_tests_cant": "stability for all step sizes and problems", "anchors": ["dune/pdelab/instationary/onestepparameter.hh: OneStepThetaParameter, ImplicitEulerParameter, Alexander2Parameter, FractionalStepParameter, Alexander3Parameter", "dune/pdelab/instationary/implicitonestep.hh: OneStepMethod::apply"]}
{"id": "C229", "title": "Explicit time stepping with Heun's and Shu's schemes preserves what explicit Euler preserves", "statement": "If steps of explicit Euler of the selected size do not leave a convex set of states (such as those satisfying a maximum principle, or with bounded variation), then neither do steps of ExplicitOneStepMethod with ExplicitEulerParameter, HeunParameter and Shu3Parameter, in no stage.", "quantifier": "all problems with linear injective temporal form with volume terms only, all convex sets, step sizes and states", "why_tests_cant": "invariance for all convex sets and problems", "anchors": ["dune/pdelab/instationary/onestepparameter.hh: HeunParameter, Shu3Parameter, ExplicitEulerParameter", "dune/pdelab/instationary/explicitonestep.hh: ExplicitOneStepMethod::apply"]}
{"id": "C230", "title": "Explicit finite volume steps keep values nonnegative, and the suggested step size ensures it", "statement": "With the cell-centred finite volume operators and the explicit Euler, Heun or Shu methods, nonnegative values stay nonnegative in all stages, provided that sources are nonnegative and in a step no more leaves a cell than it contains. The time step the operator suggests to the controller should be such a step, and is the same on all processes. (In the code the bound is computed by a term that the assembler never calls, so the suggestion is always 1e100 and does not restrict the step.)", "quantifier": "all grids, coefficients, boundary conditions, schemes, step sizes, states, and all previous values of the operator's members", "why_tests_cant": "Tests use step sizes known to work; positivity has to hold for every state and grid.", "anchors": ["dune/pdelab/localoperator/convectiondiffusionccfv.hh: ConvectionDiffusionCCFV::preStage, alpha_volume_post_skeleton, suggestTimestep", "dune/pdelab/instationary/explicitonestep.hh: CFLTimeController", "dune/pdelab/gridoperator/onestep.hh: OneStepGridOperator::suggestTimestep"]}
{"id": "C231", "title": "Iterative solvers on several processes perform the sequential iteration", "statement": "Solving with one of the parallel backends (overlapping with wrapped or direct subdomain preconditioners, nonoverlapping without preconditioner or with Jacobi) performs, for every Krylov method, exactly the iteration that the sequential method performs for the global matrix and right-hand side, with the additive Schwarz respectively the global Jacobi preconditioner: all scalar products and so all decisions are the same, no communication fails, and the result is the same vector on all processes.", "quantifier": "all distributed grids, orders of messages, matrices, right-hand sides, local preconditioners, and all iterative solvers (any sequence of operations depending on the scalar products)", "why_tests_cant": "Tests compare results up to the tolerance of the solver for a few distributions; an inconsistency at a shared degree of freedom only slows down convergence or is hidden by the tolerance.", "anchors": ["dune/pdelab/backend/istl/ovlpistlsolverbackend.hh: ISTLBackend_OVLP_Base, ISTLBackend_OVLP_ILU0_Base, ISTLBackend_OVLP_SuperLU_Base, OverlappingOperator, OverlappingWrappedPreconditioner", "dune/pdelab/backend/istl/novlpistlsolverbackend.hh: ISTLBackend_NOVLP_CG_NOPREC, ISTLBackend_NOVLP_CG_Jacobi, ISTLBackend_NOVLP_BCGS_NOPREC, NonoverlappingRichardson"]}
{"id": "C232", "title": "Stationary solvers solve the constrained discrete problem", "statement": "With the modifications for hanging nodes, the solver for linear problems returns for any initial guess the one function that satisfies the linear constraints, has the Dirichlet values of the initial guess and makes the residual form vanish for all test functions satisfying the constraints; so does one undamped Newton step, and without the modifications if all constraints are Dirichlet constraints. For symmetric problems this function has the smallest energy. During any run of Newton's method the solution satisfies the linear constraints and keeps its Dirichlet values.", "quantifier": "all constraints (rows with coefficients of unconstrained or Dirichlet degrees of freedom), all affine local operators with a nondegenerate form, sparsity patterns, initial guesses, exact linear solvers; all sequences of corrections and damping factors", "why_tests_cant": "The interplay of constrained residual, constrained Jacobian and interpolation must hold for every constraints container and every operator; tests check a few meshes up to the tolerance of the solver.", "anchors": ["dune/pdelab/stationary/linearproblem.hh: StationaryLinearProblemSolver::apply", "dune/pdelab/solver/newton.hh: NewtonMethod::prepareStep, NewtonMethod::updateDefect", "dune/pdelab/gridoperator/default/residualengine.hh: postAssembly", "dune/pdelab/gridoperator/common/assemblerutilities.hh: etadd, backtransform, set_trivial_rows", "dune/pdelab/constraints/common/constraints.hh: constrain_residual, set_shifted_dofs"]}
{"id": "C233", "title": "The wave operators create no energy", "statement": "For linear acoustics with one speed of sound, and for Maxwell's equations with one permittivity and permeability and conductivities that are not negative, the discontinuous Galerkin operators without sources never feed energy into the discrete field, provided the boundary values do not: the residual tested with the energy function is not negative. So with the implicit Euler method the energy of the computed fields never grows, for any step sizes. Boundary values 0, reflecting walls and perfect conductors feed in no energy.", "quantifier": "all meshes (cells, inner and boundary faces, with nonnegative quadrature weights and valid divergence theorem), all bases of order below 20, all states, all sequences of step sizes", "why_tests_cant": "Stability must hold for every mesh, basis, state and number of steps; tests run a few steps on one mesh, where an instability of a rarely excited mode is invisible.", "anchors": ["dune/pdelab/localoperator/linearacousticsdg.hh: DGLinearAcousticsSpatialOperator, DGLinearAcousticsTemporalOperator", "dune/pdelab/localoperator/maxwelldg.hh: DGMaxwellSpatialOperator, DGMaxwellTemporalOperator", "dune/pdelab/localoperator/linearacousticsparameter.hh: g", "dune/pdelab/localoperator/maxwellparameter.hh: g"]}
{"id": "C234", "title": "The finite volume scheme satisfies the maximum principle", "statement": "The solutions of the cell-centred finite volume scheme stay within the bounds of the data: if nothing accumulates in the cells (the flow out of a cell plus the reaction is not negative), the sources fit to the bound and nothing flows in through Neumann and outflow boundaries, then the values of a stationary solution lie between the smallest and the largest Dirichlet value, and those of an implicit Euler step of any size between these and the old ones. If every cell is connected to the Dirichlet boundary, the stationary problem has at most one solution.", "quantifier": "all grids with consistent faces, all coefficients that are stable in the sense of C96, all bounds, all solutions and all step sizes", "why_tests_cant": "Overshoots appear only for particular grids, jumps of the coefficients and velocities; tests compare one solution with a reference up to the discretisation error.", "anchors": ["dune/pdelab/localoperator/convectiondiffusionccfv.hh: alpha_volume, alpha_skeleton, alpha_boundary, lambda_volume, ConvectionDiffusionCCFVTemporalOperator"]}
{"id": "C235", "title": "Interior penalty methods are stable for penalties above an explicit bound", "statement": "The discontinuous Galerkin operator for convection, diffusion and reaction (with diffusion-dependent weights) is monotone in the energy norm if the penalty parameter exceeds the number of faces of a cell times the constant of the trace inequality (a quarter of that for the incomplete method, any positive parameter for the nonsymmetric one). The bound depends neither on the mesh width nor on the polynomial degree nor on the jumps of the diffusion coefficient, because the operator scales the penalty accordingly. So the discrete problem has at most one solution. Below the bound the symmetric method is not stable.", "quantifier": "all meshes with positive volumes and nonnegative quadrature weights, all degrees (different ones in different cells), all symmetric positive semidefinite diffusion tensors, all incompressible flows, nonnegative reactions, all boundary conditions, all pairs of functions", "why_tests_cant": "Instability shows only for particular combinations of mesh, degree, jumps of the coefficient and functions; a test with a generous penalty passes with a wrong scaling.", "anchors": ["dune/pdelab/localoperator/convectiondiffusiondg.hh: alpha_volume, alpha_skeleton, alpha_boundary, lambda_volume"]}
{"id": "C236", "title": "Log tags are scoped, aligned and leave the stream as it was", "statement": "Output of logtag writes host name, process id or rank and the times in columns with decimal numbers, whatever the formatting state of the stream is, and leaves flags, precision, fill character and width as they were. A WithLogtag object changes the formatter for its block only, also if the block sets other formatters or is left by an exception; setting a null pointer restores the formatter in use at startup. After logtagSetupMPI() the tags of all processes have the same length. A local tag writes the tag in force followed by all that was inserted. getHostName() returns the name up to the first dot for names of any length.", "quantifier": "all stream states, all programs of nested blocks, assignments, output and exceptions, all numbers of processes, host names, process ids and times that fit into the columns", "why_tests_cant": "Formatting depends on every flag a user may have set before, and scoping on all nestings of blocks and exceptions.", "anchors": ["dune/pdelab/common/logtag.cc: logtag, setLogtagFormatter, logtagSetupMPI, hostRankWallUserLogtagFormatFunc, hostPidWallUserLogtagFormatFunc", "dune/pdelab/common/logtag.hh: WithLogtag, LocalTag", "dune/pdelab/common/hostname.cc: getHostName"]}
{"id": "C237", "title": "The finite element solution of the convection-diffusion problem is computed, and it is the only one", "statement": "With the conforming finite element operator for convection, diffusion and reaction, what the grid operator assembles is the weak form of the equation: integral of A grad u . grad v - u b . grad v + c u v - f v, plus the prescribed flux on Neumann boundaries and b.n u + o on outflow boundaries. For an elliptic problem with incompressible flow, which enters only through Dirichlet and Neumann boundaries and leaves only through Dirichlet and outflow boundaries, the linear solver returns from any initial guess the only finite element function that satisfies the constraints (hanging nodes, periodicity), has the Dirichlet values of the guess, and makes the weak form vanish for all test functions; one step of Newton's method returns the same function. Without convection and with a symmetric tensor it minimises the energy.", "quantifier": "all meshes, finite element spaces (different degrees in different cells), quadrature rules with nonnegative weights, coefficients, boundary conditions, admissible constraints, initial guesses", "why_tests_cant": "A test solves a few problems; that the assembled operator is the weak form and that its solution is found and unique is a statement about all of them.", "anchors": ["dune/pdelab/localoperator/convectiondiffusionfem.hh: alpha_volume, jacobian_volume, alpha_boundary, jacobian_boundary", "dune/pdelab/gridoperator/default/residualengine.hh", "dune/pdelab/gridoperator/default/jacobianengine.hh", "dune/pdelab/localoperator/pattern.hh: FullVolumePattern", "dune/pdelab/stationary/linearproblem.hh: apply"]}
{"id": "C238", "title": "The displacement of an elastic body is computed, and it has minimal energy", "statement": "What the grid operator assembles for linear elasticity, tested with a virtual displacement, is the work of the stresses (2 mu strain + lambda div u) minus that of the volume force. If the body is held (no admissible displacement without strain), the linear solver returns from any initial guess the only displacement in equilibrium with the Dirichlet values of the guess, on meshes with hanging nodes as well. It minimises the potential energy, and Betti's theorem of reciprocity holds: of two loads, each does the same work on the displacement caused by the other.", "quantifier": "all meshes, dimensions, finite element spaces, quadrature rules with nonnegative weights, Lame coefficients, loads, admissible constraints, initial guesses", "why_tests_cant": "A test solves a few problems; equilibrium, uniqueness and minimal energy are statements about all virtual displacements of all meshes.", "anchors": ["dune/pdelab/localoperator/linearelasticity.hh: alpha_volume, jacobian_volume, lambda_volume, lambda_boundary", "dune/pdelab/gridoperator/default/residualengine.hh", "dune/pdelab/gridoperator/default/jacobianengine.hh", "dune/pdelab/stationary/linearproblem.hh: apply"]}
{"id": "C239", "title": "The Taylor-Hood solution of the Stokes equations is computed, and it conserves mass", "statement": "What the grid operator assembles with the Taylor-Hood operator is the weak form of the Stokes or Navier-Stokes equations: viscous stress, pressure, convection, mass balance, sources and prescribed tractions on Neumann boundaries. The residual vanishes exactly if the weak form does for all test functions. For a Stokes problem on an inf-sup stable pair of spaces with a velocity that is held, the linear solver returns from any initial guess the only velocity and pressure that solve the problem with the Dirichlet values of the guess. Every solution, of the Navier-Stokes equations too, conserves mass against all test pressures. Without mass sources and with velocity 0 at Dirichlet boundaries the dissipated power of a Stokes flow is that of the forces.", "quantifier": "all meshes, dimensions, pairs of finite element spaces, quadrature rules, viscosities, densities, sources, boundary conditions, admissible constraints, initial guesses", "why_tests_cant": "A test solves a few problems with known solutions up to the discretisation error, which hides errors in the balance of mass and power.", "anchors": ["dune/pdelab/localoperator/taylorhoodnavierstokes.hh: alpha_volume, jacobian_volume, lambda_volume, lambda_boundary", "dune/pdelab/gridoperator/default/residualengine.hh", "dune/pdelab/gridoperator/default/jacobianengine.hh", "dune/pdelab/stationary/linearproblem.hh: apply"]}
{"id": "C240", "title": "The mixed method for diffusion conserves mass cell by cell and loses the least energy", "statement": "What the grid operator assembles with the mixed operator on affine cells without reaction is the mixed weak form: integral of A^-1 sigma . tau - u div tau - q div sigma + f q, plus g tau . n on Dirichlet boundaries. On a stable pair of spaces the linear solver returns from any initial guess the only flux and pressure that solve the problem with the fluxes of the guess on Neumann boundaries, whatever the step of the numerical Jacobian. In each cell whose indicator function is a test pressure the divergence of the computed flux integrates to the source. With a symmetric positive semidefinite tensor the computed flux loses the least energy among all fluxes that balance the sources.", "quantifier": "all meshes of affine cells, dimensions, pairs of finite element spaces, quadrature rules, regular tensors, sources, boundary conditions, admissible constraints, initial guesses, steps of the numerical Jacobian", "why_tests_cant": "A test solves a few problems up to the discretisation error; conservation in each cell and optimality are statements about all test functions of all meshes.", "anchors": ["dune/pdelab/localoperator/diffusionmixed.hh: alpha_volume, lambda_volume, lambda_boundary", "dune/pdelab/localoperator/numericaljacobian.hh: jacobian_volume", "dune/pdelab/gridoperator/default/residualengine.hh", "dune/pdelab/gridoperator/default/jacobianengine.hh", "dune/pdelab/stationary/linearproblem.hh: apply"]}
{"id": "C241", "title": "A step of the instationary finite element method is computed, contracts errors and balances the substance", "statement": "With the finite element operator for convection, diffusion and reaction as spatial and the L2 operator as temporal operator, the residual of the instationary grid operator after preStage vanishes exactly if the equation of the scheme, sum over stages s of a_rs integral u_s w + dt b_rs (weak form at the time of the stage)(u_s, w), holds for all test functions, with hanging nodes and Dirichlet constraints. For a parabolic problem every stage with a_rr = 1 and b_rr >= 0 has one solution with the boundary values of its time, and the solver for linear problems finds it; so apply() of the one-step method with a boundary function succeeds for every built-in scheme and its stage vectors are the only ones that solve the equations of the scheme. Implicit Euler steps of any size, and theta >= 1/2 with coefficients constant in time, do not increase the L2 distance of two solutions, also over many steps. Without Dirichlet boundaries each stage balances the amount of substance with sources, reaction and boundary flow.", "quantifier": "all meshes, finite element spaces, quadrature rules with nonnegative weights, time-dependent coefficients and boundary conditions, admissible constraints, schemes with solvable stages, step sizes, initial values, both ways of scaling with the step size", "why_tests_cant": "A test integrates a few problems with a few schemes and step sizes; stability for all step sizes and exact balances are statements about all of them.", "anchors": ["dune/pdelab/gridoperator/onestep.hh: preStage, residual, jacobian", "dune/pdelab/gridoperator/onestep/prestageengine.hh", "dune/pdelab/gridoperator/onestep/residualengine.hh", "dune/pdelab/gridoperator/onestep/jacobianengine.hh", "dune/pdelab/instationary/implicitonestep.hh: apply", "dune/pdelab/stationary/linearproblem.hh: apply", "dune/pdelab/localoperator/convectiondiffusionfem.hh: alpha_volume, alpha_boundary, setTime", "dune/pdelab/localoperator/l2.hh"]}
{"id": "C242", "title": "The discontinuous Galerkin solution is computed, conserves mass cell by cell, and its time steps contract", "statement": "What the grid operator assembles with the interior penalty operator for convection, diffusion and reaction, on cells, inner faces and boundary faces, is the form of the method; assembling throws exactly if an outflow condition is prescribed where the flow enters. The residual vanishes exactly if the form does for all test functions. With a penalty above the threshold of the trace inequality and incompressible flow the linear solver returns from any guess the only solution, which in each cell balances reaction and sources with the flow through the faces; what leaves a cell through an inner face enters its neighbour. With the L2 operator in time, apply() of the one-step method succeeds for every scheme with solvable stages, and its stage vectors are the only ones that solve the equations of the scheme; each stage balances the amount of substance in each cell; implicit Euler steps of any size, and theta >= 1/2 with coefficients constant in time, do not increase the L2 distance of two solutions.", "quantifier": "all meshes (any number of cells and faces, any numbering), local spaces of different degree, quadrature rules with nonnegative weights, time-dependent coefficients and boundary conditions, the symmetric, nonsymmetric and incomplete method, schemes with solvable stages, step sizes, initial values and guesses", "why_tests_cant": "A test solves a few problems up to the discretisation error, which hides a lost flux between two cells; conservation in each cell and stability for all steps are statements about all of them.", "anchors": ["dune/pdelab/localoperator/convectiondiffusiondg.hh: alpha_volume, alpha_skeleton, alpha_boundary, lambda_volume, jacobian_volume, jacobian_skeleton, jacobian_boundary, setTime", "dune/pdelab/localoperator/pattern.hh: FullVolumePattern, FullSkeletonPattern", "dune/pdelab/gridoperator/default/assembler.hh: assemble", "dune/pdelab/gridoperator/onestep.hh", "dune/pdelab/instationary/implicitonestep.hh: apply", "dune/pdelab/stationary/linearproblem.hh: apply", "dune/pdelab/localoperator/l2.hh"]}
{"id": "C243", "title": "The finite volume solution is computed, balances every cell and never leaves the bounds of the data, for any number of time steps", "statement": "The residual of the grid operator with the cell-centred finite volume operator for convection, diffusion and reaction has as its entry for a cell reaction minus sources plus the fluxes through the faces of the cell. If the data satisfy the sign conditions of the maximum principle and every cell is connected to the Dirichlet boundary, the linear solver returns from any guess the only solution that balances all cells, its values lie between the bounds of the data, and the whole domain is in balance with its boundary. In the instationary case apply() of the one-step method succeeds for every scheme with solvable stages, also without a Dirichlet boundary; the stages satisfy the equations of the scheme, with the coefficients of the times of the stages, in every cell and are unique. The content of the domain changes only by production and by flow through the boundary. Runs of the implicit Euler method with any number of steps of any sizes stay between bounds of the initial values and of the data.", "quantifier": "all conforming grids with any numbers of cells and faces and any numbering, data with the sign conditions of the maximum principle, time-dependent coefficients and boundary conditions, schemes with solvable stages, step sizes, initial values, guesses and numbers of steps", "why_tests_cant": "A test runs a few problems for a few steps and compares up to the discretisation error; bounds for all histories and step sizes and exact balances are statements about all of them.", "anchors": ["dune/pdelab/localoperator/convectiondiffusionccfv.hh: alpha_volume, alpha_skeleton, alpha_boundary, lambda_volume, jacobian_volume, jacobian_skeleton, jacobian_boundary, setTime, ConvectionDiffusionCCFVTemporalOperator", "dune/pdelab/localoperator/pattern.hh: FullVolumePattern, FullSkeletonPattern", "dune/pdelab/gridoperator/default/assembler.hh: assemble", "dune/pdelab/gridoperator/default/patternengine.hh", "dune/pdelab/gridoperator/onestep.hh", "dune/pdelab/instationary/implicitonestep.hh: apply", "dune/pdelab/stationary/linearproblem.hh: apply"]}
{"id": "C244", "title": "Runs of the explicit method with finite volumes are computed, balanced and bounded", "statement": "For the cell-centred finite volume operator the matrix that the explicit one-step method assembles with the temporal operator is diagonal with the capacities of the cells. apply() keeps the old value, uses the smaller of the given and the suggested step, and its stage vectors are the only ones that satisfy the equations of the scheme in every cell, for explicit Euler, Heun, Shu and the classical Runge-Kutta method, provided the controller keeps the given step or the data do not depend on time. With explicit Euler the content of a cell changes by what the cell loses at the old time, and the content of the domain by production and the flow through the boundary. If in a step no more leaves a cell than it contains, then all stages of explicit Euler, Heun's and Shu's method stay between bounds of the old values and of the data, and so do runs of any number of steps in which schemes and step sizes change.", "quantifier": "all conforming grids with any numbers of cells and faces and any numbering, data with the sign conditions of the maximum principle, time-dependent coefficients and boundary conditions, the explicit schemes, step sizes below the restriction, suggested steps, initial values, contents of the stage vectors before, numbers of steps", "why_tests_cant": "A test runs a few problems for a few steps; bounds for all histories and exact balances are statements about all of them.", "anchors": ["dune/pdelab/instationary/explicitonestep.hh: apply", "dune/pdelab/gridoperator/onestep.hh: explicit_jacobian_residual", "dune/pdelab/gridoperator/onestep/jacobianresidualengine.hh", "dune/pdelab/gridoperator/default/jacobianengine.hh", "dune/pdelab/localoperator/convectiondiffusionccfv.hh: alpha_volume, alpha_skeleton, alpha_boundary, lambda_volume, setTime, ConvectionDiffusionCCFVTemporalOperator", "dune/pdelab/instationary/onestepparameter.hh"]}
{"id": "C245", "title": "Steps of the explicit method with continuous and discontinuous Galerkin methods are computed", "statement": "With the L2 operator as temporal operator the matrix that the explicit one-step method assembles is the mass matrix: between two functions it is the integral of scaling u w, and for discontinuous Galerkin spaces it is block diagonal with the integrals of products of the basis functions of a cell. If the mass is positive definite, apply() with the finite element operator, or the interior penalty operator, for convection, diffusion and reaction keeps the old value, uses the smaller of the given and the suggested step, and its stage vectors are the only ones that satisfy the equations of the scheme for all test functions, with the coefficients of the times of the stages. This holds for any explicit scheme; ellipticity, a large penalty or incompressible flow are not needed. Each stage of the discontinuous Galerkin method balances the amount of substance in each cell.", "quantifier": "all meshes without constraints, local spaces, quadrature rules, time-dependent coefficients and boundary conditions, penalty parameters, explicit schemes with any number of stages, step sizes, suggested steps (shorter ones if the data do not depend on time), initial values, contents of the stage vectors before", "why_tests_cant": "A test integrates a few problems with known solutions up to the discretisation error; that the computed vectors are exactly those of the scheme is a statement about all test functions, meshes and schemes.", "anchors": ["dune/pdelab/instationary/explicitonestep.hh: apply", "dune/pdelab/gridoperator/onestep.hh: explicit_jacobian_residual", "dune/pdelab/gridoperator/onestep/jacobianresidualengine.hh", "dune/pdelab/localoperator/l2.hh", "dune/pdelab/localoperator/convectiondiffusionfem.hh", "dune/pdelab/localoperator/convectiondiffusiondg.hh", "dune/pdelab/instationary/onestepparameter.hh"]}
{"id": "C246", "title": "Newton's method with a grid operator returns an approximation of the discrete solution with a known distance", "statement": "NewtonMethod::apply with the residual and the Jacobian that a grid operator with Dirichlet constraints assembles: whatever the local operator, and whether apply() returns or throws, the solution has the Dirichlet values of the initial guess. If the problem is strongly monotone with constant alpha, it has at most one discrete solution with given Dirichlet values, and if apply() returns, alpha times the Euclidean distance of the result to it is at most the reported defect, which is below AbsoluteLimit or below Reduction times the first defect; the linear solver need not be exact. If the problem is linear with one solution, apply() returns without exception after at most one iteration, from any initial guess, with any kept matrix and any line search that is allowed a trial, and after one iteration the result is the discrete solution, the same as that of StationaryLinearProblemSolver. This applies to conforming finite elements, the interior penalty method and cell-centred finite volumes for convection, diffusion and reaction.", "quantifier": "all local operators, grids, Dirichlet constraints, sparsity patterns that contain the local couplings, initial guesses, kept matrices, linear solvers that keep trivial rows, parameters without forced iterations, with a positive absolute limit and a reassembly threshold below one", "why_tests_cant": "A test compares a few computed solutions with known ones; a bound of the distance to a solution that is not known, for all nonlinear problems, cannot be tested.", "anchors": ["dune/pdelab/solver/newton.hh: NewtonMethod::apply, prepareStep, linearSolve, updateDefect", "dune/pdelab/solver/linesearch.hh", "dune/pdelab/solver/terminate.hh", "dune/pdelab/gridoperator/default/residualengine.hh", "dune/pdelab/gridoperator/default/jacobianengine.hh", "dune/pdelab/stationary/linearproblem.hh: apply"]}
{"id": "C247", "title": "Newton's method with the modifications for hanging nodes returns a conforming approximation with a known distance", "statement": "With the modifications for hanging nodes NewtonMethod::apply makes the solution satisfy the linear constraints whenever it computes the defect and before it assembles the Jacobian. Whatever the operator, the linear solver and the parameters, and whether apply() returns or throws, the solution satisfies the linear constraints, also if the initial guess does not, and it has the Dirichlet values of the guess. For any linear modification that does nothing when repeated the solver behaves as the one without modifications from the modified guess with modified corrections: same statistics, calls and exceptions. For a strongly monotone problem the reported defect of a returned solution is the norm of its residual, fulfils the termination criterion and bounds the distance to the discrete solution. For a linear problem apply() returns after at most one iteration, and after one iteration the result is the discrete solution, the same as that of StationaryLinearProblemSolver; this applies to conforming finite elements with hanging nodes.", "quantifier": "all local operators, grids, admissible constraints (Dirichlet and linear), initial guesses, kept matrices, linear solvers, line searches and parameters", "why_tests_cant": "A test checks hanging nodes on a few adaptively refined grids; the order of modifications, trials and restored solutions in the line search matters for all of them.", "anchors": ["dune/pdelab/solver/newton.hh: NewtonMethod::apply, prepareStep, updateDefect, setHangingNodeModifications", "dune/pdelab/solver/linesearch.hh", "dune/pdelab/constraints/common/constraints.hh: set_shifted_dofs, set_constrained_dofs, copy_constrained_dofs", "dune/pdelab/gridoperator/common/assemblerutilities.hh: backtransform"]}
{"id": "C248", "title": "Newton's method converges quadratically, and the linear reductions it requests suffice", "statement": "With the default reassembly threshold NewtonMethod::apply uses the Jacobian of the current solution in each step. If a full step from any solution whose defect d is at most the first defect f leaves at most C d^2, and C f is at most 3/4, then apply() takes full steps, the defect after i iterations is at most (C f)^(2^i)/C, and it returns without exception as soon as this bound fulfils a criterion, if that many iterations are allowed. If the linear solver only reduces the linear residual to the requested fraction r, so that a step leaves at most r d + C d^2, then the fractions that apply() requests suffice: the defect shrinks in each iteration at least by rho = max(MinLinearReduction, 1/10) + C f, if rho is at most 3/4. In the last step the fraction requested is enough to fulfil the criterion.", "quantifier": "all problems, initial guesses with a defect in the region of convergence, kept matrices, linear solvers that fulfil the requested reduction, both line searches, fixed and adaptive linear reductions, limits on the iterations", "why_tests_cant": "A test observes the rate of convergence for a few problems; the rate must hold for all problems with a Lipschitz continuous Jacobian.", "anchors": ["dune/pdelab/solver/newton.hh: NewtonMethod::apply, prepareStep, linearSolve", "dune/pdelab/solver/linesearch.hh: LineSearchHackbuschReusken::lineSearch", "dune/pdelab/solver/terminate.hh"]}
{"id": "C249", "title": "Implicit time steps of nonlinear problems with Newton's method stay close to the discrete solution", "statement": "OneStepMethod::apply with Newton's method as solver for the stages, for a spatial operator that is monotone and a temporal operator that is strongly monotone: if it succeeds, the old value is kept, the vectors of all stages have the Dirichlet values of the time of their stage, and satisfy the equations of the scheme for all test functions up to the reported defect of their stage. The defect is below AbsoluteLimit or below Reduction times the defect of the guess, which has the new boundary values and elsewhere the values of the previous stage, in the first stage those found in the new vector. It bounds the distance to a vector that satisfies the equation exactly. With implicit Euler the errors of the Newton solver add up, but are not amplified: after any number of steps of any sizes the distance to the exact discrete solution is at most the initial one plus the sum of the tolerances of the steps.", "quantifier": "all local operators with these properties, linear or not, grids, Dirichlet constraints, schemes with any number of stages, step sizes, boundary values that depend on time, guesses, kept matrices, linear solvers that keep trivial rows, parameters of the Newton solver, numbers of steps", "why_tests_cant": "A test compares a few nonlinear problems with reference solutions; a bound for the accumulated error of all runs is a statement about all of them.", "anchors": ["dune/pdelab/instationary/implicitonestep.hh: apply", "dune/pdelab/gridoperator/onestep.hh: preStage, residual, jacobian, interpolate", "dune/pdelab/solver/newton.hh: NewtonMethod::apply", "dune/pdelab/instationary/onestepparameter.hh: ImplicitEulerParameter"]}
{"id": "C250", "title": "Semilinear finite element problems solved with Newton's method and numerical Jacobians are close to the discrete solution, stationary and in time", "statement": "NonLinearConvectionDiffusionFEM with numerical Jacobians on a mesh, with w(u) = u: what the grid operator collects from cells and boundary faces, tested with a finite element function, is the weak form of the equation. The numerical Jacobian consists of the difference quotients in all coordinate directions with the step epsilon (1 + |u_j|), and is exact for affine residuals. If diffusion and convective flux do not depend on the solution, the source does not increase and the outflow does not decrease with it, and the energy is coercive: when Newton's method returns, the result has the Dirichlet values of the guess, its weak residual is at most the reported defect for all test functions, the defect is below the tolerance, and the distance to the solution of the weak form is at most the defect divided by the constant of coercivity, however inexact the Jacobian and the linear solver are. If source and outflow are affine and the linear solver is exact, Newton's method returns after at most one iteration. The bound for the distance holds also for every stage of an implicit time step with the L2 operator as mass operator; over all steps of the implicit Euler method the distance to the exact discrete solution is at most the initial one plus the scaled sum of the tolerances.", "quantifier": "all meshes, finite elements, quadrature rules with nonnegative weights, coefficients, sources and boundary fluxes with these properties, Dirichlet constraints, guesses, disturbances epsilon, linear solvers that keep trivial rows, parameters of the Newton solver, schemes, step sizes, numbers of steps", "why_tests_cant": "A test compares the solutions of a few problems with references; that a returned result has a known distance to the discrete solution is a statement about all problems and runs.", "anchors": ["dune/pdelab/localoperator/nonlinearconvectiondiffusionfem.hh: alpha_volume, alpha_boundary", "dune/pdelab/localoperator/numericaljacobian.hh: NumericalJacobianVolume, NumericalJacobianBoundary", "dune/pdelab/localoperator/l2.hh", "dune/pdelab/solver/newton.hh: NewtonMethod::apply", "dune/pdelab/instationary/implicitonestep.hh: apply"]}
{"id": "C251", "title": "Newton's method for flow, elasticity and the mixed method", "statement": "Whatever the local operator: when Newton's method returns, the result has the Dirichlet values of the guess, and for every test function the assembled residual form is at most the reported defect times the dual norm of the test function; the defect is below AbsoluteLimit or below Reduction times the first one. With the Taylor-Hood operator, with or without convection: the weak form of the (Navier-)Stokes equations is at most the reported defect for every test function of dual norm one, and mass is conserved up to it: for every test pressure q the integral of q div u differs from that of q g_2 by at most the defect times the dual norm of q. For the Stokes equations with a stable pair of spaces, for linear elasticity with a held body, and for the mixed method with a stable pair (with its numerical Jacobian), with an exact linear solver: Newton's method returns from any guess after at most one iteration, and after an iteration the result is the solution of the weak form.", "quantifier": "all meshes, bases, quadrature rules, parameters, constraints, guesses, kept matrices, norms with a dual norm, parameters of the Newton solver without forced iterations, line searches, linear solvers that keep trivial rows or are exact", "why_tests_cant": "A test compares a few flows with references; that the defect a run reports bounds its weak residual and its loss of mass is a statement about all problems and runs.", "anchors": ["dune/pdelab/solver/newton.hh: NewtonMethod::apply", "dune/pdelab/localoperator/taylorhoodnavierstokes.hh", "dune/pdelab/localoperator/linearelasticity.hh", "dune/pdelab/localoperator/diffusionmixed.hh", "dune/pdelab/gridoperator/gridoperator.hh: residual, jacobian"]}
{"id": "C252", "title": "The instationary Stokes and Navier-Stokes equations with Taylor-Hood elements", "statement": "TaylorHoodNavierStokes as the spatial and NavierStokesMass as the temporal operator of an instationary grid operator: what is assembled at a time is the weak form of the stationary equations with the parameters and boundary conditions of that time, and the integral of rho u.v. For the Stokes equations with a stable pair of spaces and a scheme with implicit stages, OneStepMethod::apply succeeds from any old value although the mass operator has no pressure rows; velocities and pressures of all stages are the only solution of the equations of the scheme with the Dirichlet values of the times of the stages. With or without convection, a solution of an implicit scheme conserves mass at the time of each stage, for every test pressure, if the old value does or the scheme does not evaluate the spatial operator at it; over all steps mass stays conserved. For the Stokes equations the kinetic energy of the difference of two runs of the implicit Euler method with the same data does not grow, for steps of any sizes and numbers. An explicit stage does not determine the pressure: any can be added without changing the equation of the stage. Which of the built-in schemes have implicit stages is stated.", "quantifier": "all meshes, bases, quadrature rules with nonnegative weights, time-dependent parameters, forces and boundary conditions, densities, constraints, schemes, step sizes, numbers of steps, old values, exact linear solvers", "why_tests_cant": "A test runs a few flows for a few steps; solvability of a stage with a singular mass operator, conservation and stability are statements about all meshes, data, and histories.", "anchors": ["dune/pdelab/localoperator/taylorhoodnavierstokes.hh", "dune/pdelab/localoperator/navierstokesmass.hh: NavierStokesMass", "dune/pdelab/instationary/implicitonestep.hh: OneStepMethod::apply", "dune/pdelab/gridoperator/onestep.hh", "dune/pdelab/instationary/onestepparameter.hh"]}
{"id": "C253", "title": "Time steps with Newton's method for any operators, and for the instationary Navier-Stokes equations", "statement": "Whatever the local operators and constraints: if a step of a one-step method with Newton's method as solver succeeds, the old value is kept, every stage has the Dirichlet values of the time of the stage, and the equation of the scheme holds for every test function up to a defect times the dual norm of the test function; the defect is at most AbsoluteLimit or Reduction times the defect of the guess, which has the boundary values of the time of the stage and elsewhere the values of the previous stage. For affine operators with solvable stages and an exact linear solver the step succeeds from any old value and any kept matrix; in particular for the instationary Stokes equations with a stable pair of spaces and implicit stages. For the instationary Navier-Stokes equations with Taylor-Hood elements the loss of mass, averaged as the scheme averages the spatial operator, is for every test pressure at most the defect; with the implicit Euler method the loss after a step is bounded by the tolerance of this step alone, so that it does not accumulate.", "quantifier": "all local operators, meshes, bases, quadrature rules, time-dependent parameters, constraints, schemes without tiny coefficients, step sizes, old values, kept matrices, norms with a dual norm, parameters of the Newton solver without forced iterations, line searches, linear solvers that keep trivial rows or are exact", "why_tests_cant": "A test runs a few flows and looks at the residual; that errors of the nonlinear solver stay within the tolerance in every stage and do not accumulate as lost mass is a statement about all runs.", "anchors": ["dune/pdelab/instationary/implicitonestep.hh: OneStepMethod::apply", "dune/pdelab/solver/newton.hh: NewtonMethod::apply", "dune/pdelab/gridoperator/onestep.hh", "dune/pdelab/localoperator/taylorhoodnavierstokes.hh", "dune/pdelab/localoperator/navierstokesmass.hh"]}
