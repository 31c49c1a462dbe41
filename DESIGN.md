# A machine-checked model of dune-pdelab

## Trusted base

* Lean 4.33.0's kernel (and Mathlib's definitions where a module is imported).
* Axioms: at most `propext`, `Classical.choice`, `Quot.sound` (Lean's standard ones). No axiom
  is added, no `sorry`, no `native_decide`, no `bv_decide`.
* The reading of the C++ sources. Nothing ties the model to the code except the citations: every
  definition of the model names the file and lines of `/repo` it models and says what is simplified.

## Conventions

* `Verif/Model/*.lean`   definitions that follow the code (each with a citation),
* `Verif/Spec/*.lean`    small independent specifications used in theorem statements,
* `Verif/Proofs/*.lean`  helper lemmas,
* `Verif/Props/*.lean`   the property theorems, with non-vacuity examples next to them.
* Numbers: `std::size_t`/`int` become `Nat`/`Int` (no wrap-around) unless the property is about
  the bounded type; `double` becomes an arbitrary (ordered) field, ℚ or ℝ. Rounding is not modelled.
* Undefined behaviour and failed `assert`s are explicit outcomes (`none` / `Except.error`), not
  assumed away; exceptions are `Except.error`.
* If a property is false of the code, the negation is proved with a concrete witness
  (`..._false` / `not_...`) and the guarded version is proved with the suffix `_partial`.

## Plan per property

| id | what is modelled | how it is proved |
|----|------------------|------------------|
| C01 | `BCRSPattern` state (fixed slots per row + overflow set), `add_link`, row iterator | invariant over op lists, refinement to a set of pairs |
| C02 | `sizes`, `overflowCount`, `clear` | same invariant, counting |
| C03 | CSR allocation (row offsets, sorted columns), lookup by lower bound | sortedness + prefix sums; injectivity of the cell position |
| C04 | same lookup on absent columns | false: witness; partial for columns beyond the last one |
| C05 | `mv/usmv/clear_row` for CSR and dense | fold lemmas, refinement to a function matrix |
| C06, C07, C08, C10 | tree of orderings with `update` and `mapIndex` as in `OrderingBase` | structural induction on the tree |
| C09 | `PermutedOrdering` state machine | false for the first update: witness; partial otherwise |
| C11 | `size(suffix)` of every ordering | false for three of them: witnesses; partial for the guarded cases |
| C12 | prefix-sum based leaf orderings, both paths | prefix-sum bijection lemma |
| C13 | LFS tree visitors | structural induction |
| C14 | `MultiIndex` as bounded list | list lemmas |
| C15 | `import_local_transformation` as a fold over contributions | permutation invariance of the Dirichlet set |
| C16, C17 | vector operations over a constraints map | function-update folds |
| C18 | local pattern -> `add_entry`, scatter -> `etadd` | membership lemma for every combination |
| C19 | `set_trivial_rows` | fold over the constraint list |
| C20, C21 | assembler loop producing a trace of calls | counting over the trace |
| C22 | coefficient tables over ℚ/ℝ | exact algebra, `norm_num`/`ring` per scheme; generic stability-function recursion |
| C23, C24 | one-step engines as sums over arbitrary operators | induction over stages |
| C25, C26 | state machines | induction over histories |
| C27, C28 | loops over arbitrary oracles for defects | induction over iterations |
| C29 | `TimeSpec` arithmetic | `omega` |
| C30, C31 | local matrix layout, iterator, weighted views | index arithmetic |
| C32 | gather/scatter over a byte/item buffer | induction over blocks; one overload is false |
| C33 | chunk sizes | arithmetic |
| C34, C35 | DSatur loop with the priority queue, patch graph construction | loop invariant |
| C36 | three phases as interleavings of atomic stores | order independence of the final state |
| C37 | iterator as explicit stack machine over nested lists | induction on nesting |
| C38, C39 | dispatch table of the combined operator | finite table + lists of summands |
| C40-C43 | marking, strategy, transfer | state machines/folds |
| C44 | face configurations | finite table lifted |
| C45-C47 | index sets | prefix sums, state machine |
| C48 | ownership by minimum rank | sums over finite sets |
| C49, C50 | finite differences over a field | algebra |
| C51 | pattern iterator with slot and overflow position, `equals` | invariant of iteration; false for iterators straddling the two parts |
| C52 | assignment of dense matrices | false for different shapes: witness; partial otherwise |
| C53, C54 | block numbers and entity index extraction of leaf orderings | prefix sums; agreement of two functions |
| C55 | `localVectorSize`, `setup`, `bind` of LFS trees | structural induction; false: it is the maximal size |
| C56 | converting constructor of `MultiIndex` | list lemmas; false with bounds checks |
| C57, C58 | shifted DOFs, reassembly | folds; one overload each is false |
| C59 | index cache update with and without caching | refinement to a function of the constraints |
| C60, C61 | `scatter_jacobian`, `etadd`, forward and backward transformation | bilinear algebra over association lists |
| C62, C63, C64 | assembler loops of the default and fast DG assemblers producing traces | induction over elements and intersections |
| C65, C66 | one-step engines | sums over stages; Jacobian = sum of derivatives |
| C67-C70 | implicit and explicit one-step methods with a heap of stage vectors | induction over stages, invariants over the heap |
| C71-C74 | Newton's method with its terminate and line search components over oracles | induction over iterations; parameter trees as association lists |
| C75 | linear problem solver as a state machine | induction over histories |
| C76 | printing of time stamps as strings of digits | decimal expansions; false for negative values |
| C77 | `evaluate_estimators` with verbosity | comparison of runs; false: verbosity is used as level |
| C78-C80 | backup/replay of grid transfer, leaf offset cache, packs | linear algebra over quadrature rules; invariants of histories |
| C81, C82 | hanging node manager on an abstract grid hierarchy | invariants of the refinement loop |
| C83 | `contains` of entity sets | false for inactive codimensions; partial otherwise |
| C84 | numerical `jacobian_apply` methods | folds over columns; skeleton and boundary versions are false |
| C85, C86 | neighbour ranks, shared DOFs | order independence of the delivery of messages |
| C87, C88 | grid view ordering and the tree of local orderings: arrays of offsets, `mapIndex`, `size(suffix)` | induction on the tree for the local index; packing lemma for consecutive ranges |
| C89 | visitor of the index cache of local function spaces over any tree of orderings, sub orderings | induction on the tree with an invariant about the ranges of DOFs; for subspaces induction along the ancestors |
| C90 | visitor of the index cache of entities | induction on the tree |
| C91 | fast mode of the index cache | offsets of earlier geometry types vanish; false for several cell types |
| C92 - C94 | local operators for the convection-diffusion equation (finite volumes, finite elements, discontinuous Galerkin) as sequences of `accumulate` calls | sums of linear forms; false for one boundary condition type of the finite element operator |
| C95, C96 | the finite volume operator driven by the model of the grid traversal | pairing of the two sides of each face; summation over the cells with negative values |
| C97 - C100 | the discontinuous Galerkin operator | the residual tested with a function is the bilinear form; the rest follows from the form |
| C101 - C105 | the wrappers for diagonal blocks, off-diagonal blocks and the point diagonal as functions from local operators to local operators, driven by the model of the grid traversal | entry by entry: sum over the faces of a cell, pairing of the two sides of each face; several negations |
| C106 | triangular solves of the assembled block Jacobi preconditioner | induction over rows; Eigen's decomposition is a parameter that has to be one |
| C107, C108 | the block SOR sweep as a fold over the calls of the assembler, with the result vector as state | invariant over the cells treated; sizes of the blocks |
| C109 | life cycle of the preconditioner as a state machine | induction over the history |
| C110, C111 | setup of the iterative block Jacobi preconditioner, solver statistics | folds |
| C112 | the loop over elements and intersections of `constraints()`, the calls for leaves, the constraints classes as methods that change the local constraints | invariant: the local constraints are the empty rows of the marked DOFs; with C15 for the import |
| C113 - C115 | DOFs named by entities; `compute_ghosts`, `updateInteriorNodes` as loops over flags | from C112 by matching names; injectivity of the offsets; loops that only reset flags |
| C116 | trees, the pairing of trees, the transformation of functions | mutual induction over trees |
| C117 - C119 | indices, one-dimensional polynomials and tensor products as in the code, over any field | interpolation theory of polynomials (Mathlib); the recurrence gives Legendre's differential equation and with it orthogonality; Fubini for the cube |
| C120 | the two loops of the constructor on arrays | the places are a permutation |
| C121 | the cache as a state machine, the map as a list | induction over the calls; equivalence under the comparison is closeness |
| C122 - C123 | the enumeration and the sums of binomials as in the code | induction over dimension and degree; beta integrals and Fubini on the simplex |
| C124 - C127 | Gram-Schmidt on coefficient vectors, gradients by inverting indices, over any field with a square root | the moment matrix is positive definite on polynomials (integrals of squares over a set with inner points); triangular systems |
| C128 | search for the variant among the permutations, numbers of the permutations, as in the code | case distinction over the order of the indices (six, or through ranks below 4) |
| C129, C130 | the constructors' loops over cells and intersections or edges, orientations in unsigned char | invariant for the bits |
| C131, C132 | the size methods as functions of geometry types | sums over the subentities of simplex and cube (binomial theorem) |
| C133, C134 | vectors of orders, the growing vector of variants with addresses | induction over the history |
| C135 | bit operations on topology ids | case distinction |
| C136, C137 | local products, zeroing of constrained entries, addition over messages, on vectors of all processes | sums over positions of all copies, invariant of the delivery of messages |
| C138, C139 | defect, local preconditioner (parameter), masks, addition or copying over messages | the same; the parallel scalar product as a sum of local forms |
| C140, C141, C142 | diagonal blocks, owner masks and sums over messages | the same |
| C143 | counting, masking and dividing over messages; the distance of Sarkis | the same; minimum of linear functions |
| C144 | vectors of flags and maps with resizing, clearing and filling as in the code | invariant of the loops over entities |
| C145, C146 | border patterns as maps to lists, messages with announced sizes, pattern and entries as functions | membership in the gathered lists; sums over messages in any order |
| C147 | rank vectors and shared flags of the parallel helper, counting, prefix sums, minimum over messages, list of index triples | only the owner numbers a block, so minima have one candidate; prefix sums are injective and consecutive |
| C148, C149 | the messages and layouts of C136–C143; rounds of communication as a fold with target vectors per neighbour, rows as lists of pairs; all-gather with displacements | invariant over the rounds (sections are the products so far); numbers of coarse functions as prefix sums; local products are global ones as in C137 |
| C150 | lists of eigenvalues and vectors, search for the threshold | first element of a range with a property |
| C151 | number of processes per DOF by adding ones | totals of C136; concrete gap between two subdomains |
| C152, C153 | leaves as lists of values and Jacobians of shape functions, buffers as lists with undefined access outside, loops as folds | loops as sums; chain rule with the local inverse of the geometry (inverse function theorem of Mathlib); Fréchet derivatives |
| C154 | the loops over the directions with the uninitialised array as parameter | the first inner step is undefined |
| C155 | matrices over a field, normals of triangles over the reals | matrix algebra, trace invariance for the divergence, orientation of triangles |
| C156 | trees of functions and spaces, the elements as a list, interpolations of the finite elements as parameters | interpolation equals a list of assignments; its members are characterised by induction over both trees |
| C157 | containers as functions of the index, local containers as lists, memory as a function of the address | induction over the loops |
| C158 | expressions as trees over identities of functions, times as a function of the identity | induction over the expression |
| C159 | elements of the processes as lists | loops as sums, permutation |
| C160 | the search on all processes with a minimum over all ranks, `eval_all` as an action of each process; a broadcast completes only if all call it with one root | properties of the minimum |
| C161 | eigenvectors and numerical fluxes of both operators as matrices over an ordered field; solving, inverting and roots as parameters | projections to the eigenspaces are polynomials in the flux matrix; energy estimate from symmetry in the energy product |
| C162 | as C161 | equal materials: consistency; different materials: a state in equilibrium as counterexample |
| C163 | methods of the operators as lists of accumulate calls | totals of the calls as quadratures of the weak form |
| C164 | the temporal operators as lists of calls | as C163, linearity |
| C165 | two clocks, the member of the base class and the parameters; `setTime` of nine operators | induction over the calls |
| C166 | `LinearElasticity` as lists of accumulate calls | pairing with a test function, algebra of symmetric gradients |
| C167 | `TaylorHoodNavierStokes` as lists of accumulate calls | as C166, derivative of the quadratic convective term |
| C168 | `DiffusionMixed` as lists of accumulate calls | Piola transformation of the divergence; witness for the reaction term |
| C169 | `l2.hh`, `navierstokesmass.hh`, `l2volumefunctional.hh`, `electrodynamic.hh` | as C166; curl specified by the alternating tensor |
| C170 | constructor and `evaluate` of the velocity with its cache; the exchange as messages | induction over evaluations and messages, cancellation of the two Piola transformations |
| C171 | `NonLinearConvectionDiffusionFEM` as lists of accumulate calls | as C166; witness with w(u) = u² |
| C172 | `TwoPhaseTwoPointFluxOperator`, the temporal operator and the parameter interface | flux of one phase as specification; case distinction on the signs of the driving forces; induction over the faces of a grid |
| C173 | the normal velocities and the reconstruction of `V_l` and `V_g` | as C170; witnesses for the evaluation of the densities |
| C174 | the spatial error estimators and the diameter; a division by zero has the outcome `none` | invariants of the two loops over corners; rewriting to quadratures; a sum of nonnegative terms is zero iff all are; witnesses |
| C175 | the temporal error estimators, with the time of the shared parameters as state | rewriting to Simpson's rule; induction over the boundary faces; witness for the changed time |
| C176 | all methods of `DGNavierStokes` as lists of calls of `accumulate` | rewriting to quadratures of the weak form; the properties of the method from those of the form at a point; witness for g₂ |
| C177 | all methods of `DGNavierStokesVelVecFEM` | as C176; agreement because the traces of both spaces are equal; witnesses |
| C178 | the penalty classes, `incompressibilityScaling`, `preStep`, `setTime` | monotonicity of division; induction over the history |
| C179 | `SeqDGAMGPrec::apply` with smoother and coarse solver as parameters | loop invariant between correction and defect; algebra of composed corrections; decrease of the energy |
| C180 | the visitor that computes the local embedding, assembly without constraints | fold of assignments; each degree of freedom belongs to one cell |
| C181 | `apply` and the setters of the backends with multigrid as state machines; objects in memory by address | induction over the history; witnesses for reuse, relaxation and changed matrices |
| C182 | `OvlpDGAMGPrec::apply` on all processes with the communication of C136–C143 | invariant: consistent vector and restricted global defect |
| C183 | `loadBalanceGrid` with the data handle: saving, sending in the order chosen by the grid, updating and restoring, as a sequence of operations on the maps of all processes | invariant: every entry of a map is the value of the function; witnesses for shared ids and overlap |
| C184 | vectors and matrices with any number of levels of blocks; references as value and assignment; the recursive accessors with their assertions | induction over the levels; a witness for blocks of size 1 |
| C185 | the recursions for clearing rows and writing diagonal entries | induction over the levels: effect of each operation on all entries of the pattern |
| C186 | `allocate_bcrs_matrix` for nested patterns (model of C01) | induction over the levels with the invariant of the pattern of each block |
| C187 | histories of evaluations by the writer and of changes by the user; the object with the data of the last cell, which is shared by all functions | induction over the history (last event first) with the invariant that the data are those of the last cell evaluated; a witness with one cell |
| C188 | the traversal of a tree of spaces with leaf, vector and other nodes, and exceptions of the name generator | induction over trees: list of components in lexicographic order of their paths |
| C189 | texts as lists of characters, numbers in decimal digits | digits can be separated from what follows if the separator does not start with a digit; induction over paths |
| C190 | spaces as objects with identity, their ordering data, entity sets with wanted and active codimensions, the grid; histories of construction, copy, grid change, update and ordering | invariants of histories (identities, own ordering); induction over trees: after the forced update all entity sets know the present grid; witnesses for copies and for unforced updates |
| C191 | the flags for root and initialised spaces in the same model | invariants of histories; induction over the list of children; witness of a rejected construction |
| C192 | a heap of containers and vectors with pointers to them; histories of all operations, with in-place loops | refinement: without explicit handling of containers the heap simulates variables (invariants: pointers valid and distinct); in-place loops are entrywise operations even with shared containers; frame theorem by cases over operations |
| C193 | sizes and container of a dense matrix; container and statistics of an ISTL matrix | calculation of the position of an entry; induction over operations; witnesses |
| C194 | the mesh arrays passed to METIS, METIS as a parameter, the patches built from its answer; histories of updates of both partition classes | loop invariants of the arrays (prefix sums); counting of elements per patch; induction over histories; witnesses for the sticky automatic number and for one dimension |
| C195 | objects with factor and backend pointer by level; calls logged with the weights of their arguments | induction over the nesting of operators; witnesses for a changed zero factor and for missing flags |
| C196 | programs constructing leaf functions, parameter objects and trees, with shared places for times; setTime as a visitor | invariants of programs (objects only grow, places exist); mutual induction over trees for the visitor; frame theorem per operation; witness for clones |
| C197 | local trees with an element per leaf in the same programs | induction over paths and programs |
| C198 | each adapter as a function; loops of the pointwise adapter and its engines; names of leaves | calculation; loop invariants; injectivity of decimal paths |
| C199 | masking and addition on the interface, the four functions over the constraints of all processes | from the theorem on restricted additive Schwarz (C139) and C16; counterexample with three triangles |
| C200 | the arguments handed to the grid or its factory | calculation |
| C201 | `LeafOrdering::update` over the local DOFs of all elements, the two ways to a container index | the loops are folds over the concatenated local DOFs; induction with the last writer; counterexample with an edge seen in two directions |
| C202 | the scan for `contains` and `fixedSize` | induction over the scan; counterexample with two geometry types |
| C203 | histories of `find` and `update` | invariant of the map; counterexample with degrees per element |
| C204 | the flags of the index cache | calculation; counterexample |
| C205 | the residual and Jacobian application engines of both grid operators as state machines over the calls of the assembler, memory by address, null pointers explicit | refinement: invariants over the protocol C62 relating memory and buffers to the sum of accumulations; counterexamples with rawAccumulate and aliasing |
| C206 | the Jacobian engines of both grid operators, matrices by block, blocks outside of the pattern undefined | the same with local matrices; counterexamples for partly constrained blocks and missing blocks |
| C207 | the pattern engines of both grid operators, fast index cache | simulation; invariant that each visited cell and face is linked or pending; counterexample with a sparse pattern |
| C208 | `interpolate` on memory by address | calculation; counterexample with one vector |
| C209 | the deprecated `Newton` with all its base classes: object with result, matrix and flags, `apply` with fuel, log of assemblies and solves | invariant at the head of the loop, kept by one run of it; counterexamples by evaluation |
| C210 | the same | decreasing fuel: a repeated line search is followed by an assembly if the threshold is below one; induction for the endless run |
| C211 | `line_search` | induction on the trials with the best trial so far as invariant |
| C212 | the log of `apply` | invariant on the log |
| C213 | `setParameters` as a list of steps on a parameter tree | step by step |
| C214 | `ExplicitOneStepMethod::apply` with boundary function and limiter, the assembler a parameter (`bApply`), or the one step engines (`bAsm`) | induction on the stages with the scheme equations of C36; false witness with a controller that shortens the step |
| C215 | the same, limiter a parameter | the same induction; false witness for the old value |
| C216 | constructor and `setMethod` | induction on the calls; false witness: a rejected scheme is used |
| C217 | `error_distribution` on a list of errors | induction on the bisection steps with the bracket as invariant |
| C218 | the descriptors of vectorhelpers.hh for trees of spaces (`Tree.describe`), `blocked`, `ci_depth`; the trees of orderings of C06 and C87 | induction on the tree with the invariant of the descriptor, induction on the orderings for the index length, C184 for the access; false witnesses |
| C219 | `BenchmarkHelper` as a state machine over histories of events (`Benchmark.step`, `Benchmark.history`) | induction on the history with an invariant connecting the recorded times with the events; false witnesses |
| C220 | `matrix_element_vector_from_matrix`, `invert_blocks`, `mv`, `row_size`, `row_begin`, `row_end` and the data handle on the nested containers of C184 (`BlockDiagonal`), with pointers as positions in blocks | induction on the nesting depth, on the columns of a row and on the DOFs |
| C221 | the model of C112 (`ConsAsm.constraints`) with arbitrary constraints classes; a class is described by the DOFs that its methods report (`Report`) | induction over leaves, faces and elements with the sets of DOFs in the container of the element and in those of its neighbours |
| C222 | `BlockDiagonalOperator`, `LocalPointJacobiPreconditioner`, `alpha_volume` and `jacobian_apply_volume` of the iterative block Jacobi operator (`BlockPrec.iterativeApply`); the iterative solver is a parameter | from C105 and C110; sums over accumulate calls |
| C223 | as C27, C28 (`Newton.apply`) | invariant of the loop: no iteration yet, or the defect is below the first one; from the outcome of the line search (C27) |
| C224 | `LocalVector` (`LocalVectorOps.*`): loops of `std::transform` and `std::inner_product`, with reads outside of the container as undefined | induction on the containers; Cauchy-Schwarz from Mathlib |
| C225 | as C27, C28 (`Newton.apply`) | induction on the loop: the defect after i iterations is at most rho^i times the first one, every line search takes the full step, the matrix is assembled before the first solve |
| C226 | `ArPackPlusPlus_BCRSMatrixWrapperGen`, `computeGenNonSymMinMagnitude` (`Eigensolver.*`); ARPACK, the direct solver and `std::sort` are parameters with contracts | flat indices as quotient and remainder; linear algebra of the shift-invert operator in both directions; permutation by the sorted indices |
| C227 | Model/Adaptivity.lean (histories of the time adaptation strategy) | Induction over histories: accepted estimates are bounded by the allowed ones; the flag of a decrease excludes later growth |
| C228 | Model/OneStepParams.lean, OneStepMethod.lean, OneStepOperator.lean; Spec/Stability.lean | Stability functions from the stage equations, polynomial inequalities in -Re z and (Im z)^2 with nonnegative coefficients; energy estimates by testing the stage equation of C69 with a convex combination of old and new state |
| C229 | the same | Stages are convex combinations of the old state and Euler steps; stage equations from C70 |
| C230 | Model/TimeStepSize (members of the finite volume operator, suggestion over the processes) on Model/CCFVAssembly; Spec/TimeStepSize (outflow rate of a cell, step size bound, stage equations) | The residual of a cell is bounded by its outflow rate times its value, so Euler steps are nonnegative and the other schemes are convex combinations of them; the assembly emits no post-skeleton call, by cases. The suggestion is too large: concrete witness |
| C231 | Model/KrylovSolvers (solvers as trees of calls, the backends' operator, scalar product and preconditioner) on Model/ParallelSolvers; Spec/KrylovSolvers (roles of vectors, sequential iteration, additive Schwarz method) | Simulation between the parallel and the sequential backend by induction on the solver, with the relations "consistent", "consistent and zero at constrained DOFs" and "summands" of C136-C141 |
| C232 | Model/ConstrainedSolve (residual and Jacobian of the grid operator from local contributions, linear solve and Newton update with hanging node modifications) on Model/Constraints and Model/AssemblerUtilities; Spec/ConstrainedSolve (Galerkin problem in the constrained space, energy) | The residual represents the residual form on the test space (expansion of test functions in transformed ones), the Jacobian of C60 is its derivative, regularity of the form makes the matrix injective, hence surjective; the update is the conforming function minus the transformed correction |
| C233 | Model/HyperbolicMesh (assembly of the operators of Model/Hyperbolic over a mesh); Spec/HyperbolicMesh (energy, divergence theorem, passive boundary values, implicit Euler) | Summation by parts: the symmetric form of the volume terms becomes half of the energy fluxes through the faces, which C161 compares with the numerical fluxes; energy estimate of a time step by testing with the new state; two-cell mesh as witness for different speeds of sound |
| C234 | Model/CCFVAssembly; Spec/MaximumPrinciple (couplings, net outflow, bounds of the data, connection to the Dirichlet boundary) | In a cell with the largest value all parts of the balance of C95 are nonnegative, so neighbours behind positive couplings have the same value; induction along the path to the boundary; lower bounds by negating the data |
| C235 | Model/DGMesh (assembly of the operator of Model/ConvectionDiffusion over a mesh); Spec/DGMesh (energies, trace inequality, incompressible flow, threshold) | Differences of residuals are the bilinear forms of C97; Young's inequality for the cross terms on every face, with the weights and the harmonic average; trace inequality; sum over the faces; convection by summation by parts; one-cell mesh as witness below the bound |
| C236 | Model/Logtag (streams with flags, width, precision and fill character; formatters, setup, programs with blocks; host names); Spec/Logtag (text of the tags, formatter in force) | Every writer restores the stream; lengths of numerals; induction on programs; the host name loop by induction on the number of doublings |
| C237 | Model/FEMMesh (what the engines make of the calls of a local operator; the operator of Model/ConvectionDiffusion on all cells and boundary faces, full volume pattern) with Model/ConstrainedSolve; Spec/FEMMesh (weak form, energy, ellipticity, incompressible flow, solution) | The local residual tested with a function is the integral of the weak form; affine with the Jacobian (C93); convection by summation by parts, so the bilinear form dominates the energy and the problem is regular; then C232 |
| C238 | meshes of cells with the elasticity operator of C166, as parts of the assembled problem of C232 | the assembled form is work minus load (calculation per cell); C232 for a definite form |
| C239 | meshes of cells with the Taylor-Hood operator of C167 and boundary tractions, as parts of the assembled problem of C232 | the assembled form is the weak form; regularity by testing with (u, -p) and the inf-sup condition; C232 |
| C240 | meshes of affine cells with the mixed operator of C168 and its numerical Jacobian, as parts of the assembled problem of C232 | the numerical Jacobian of a linear operator is its matrix; the assembled form is the weak form; regularity as for C239; Thomson's principle by expansion |
| C241 | stages of the instationary grid operator with constraints (C22 with C232), FEM (C237) and L2 operator as its parts, OneStepMethod::apply (C23) on top | the stage residual is the residual of scaled parts plus a constant; C232 for the stage; induction over the stages of apply; energy estimate by testing with the difference |
| C242 | meshes of cells and faces with the DG operator of C94/C235 as parts of the assembled problem of C232, skeleton pattern, L2 operator in time, OneStepMethod::apply | the assembled form is the sum of the forms of C235; regularity from the stability estimate; C232 and the stages of C241; conservation by testing with the indicator function of a cell |
| C243 | the finite volume operators of C95 in the calls of the grid traversal of C20 as parts of the assembled problem of C232, the pattern collected by the pattern engine, stages and OneStepMethod::apply of C241 | the assembled form at the indicator of a cell is the total of its calls; regularity from the maximum principle C234; C232 and the stages of C241; induction over the steps |
| C244 | explicitApply of C70 with the contributions of the finite volume operators of C243 and the matrix of the temporal operator | C70 for the stage equations, uniqueness by induction over the stages with the regular diagonal matrix; bounds from the Euler step by the convexity theorem C229; induction over the steps |
| C245 | explicitStep of C244 with the operators and meshes of C241 and C242 | the general stage equations and uniqueness of C244; the matrix entries by testing the assembled mass form with unit vectors; balance by C242 |
| C246 | Newton.apply of C28 with the defect, the Jacobian and the systems of the assembled problem of C232 | the iterates move along corrections, which vanish at constrained degrees of freedom: an invariant of the loop; Cauchy-Schwarz and monotonicity for the error; convergence theorem C225 with factor zero for linear problems; instances by C237, C242, C243 |
| C247 | the Newton loop of C28 with a modification of the solution in updateDefect and prepareStep; for hanging nodes the interpolation of C232 | simulation: with a linear idempotent modification the loop equals the one of C28 with modified corrections, by induction over trials and iterations; the interpolation is linear and idempotent; then as C246 |
| C248 | Newton.apply of C28 with reassembly threshold zero | the requested reduction lies between zero and max(MinLinearReduction, 1/10) as long as no criterion is fulfilled; invariant of the loop with a sequence of bounds; full steps are accepted because they reduce the defect by 3/4 |
| C249 | the loop over the stages of C25 with Newton.apply of C28 and the residual and Jacobian of the instationary grid operator of C241 | a stage is the problem of C246 with a constant contribution; strong monotonicity of the stage from that of the operators; induction over the stages; energy argument with Cauchy-Schwarz for the accumulation |
| C250 | meshes of cells and faces with the nonlinear operator of C171 and numerical Jacobians as parts of the assembled problem of C232, the L2 operator in time | the assembled form is the weak form by C171; strong monotonicity by a calculation at the quadrature points; C246 and C249 |
| C251 | the meshes of C238, C239 and C240 with Newton.apply of C28 and the residual and Jacobian of the grid operator of C246 | the residual form is the product of residual and test function; weak forms of C238 to C240; C246_linear with the regularity shown there |
| C252 | the mesh of C239 with parameters and faces that depend on time as parts of the instationary grid operator of C241, NavierStokesMass of C169 as temporal operator | the assembled forms are the weak form and the kinetic energy form; a stage is regular by testing with the pressure reversed, then with velocities (inf-sup); the step by the theorem for all stages of C242; mass by strong induction over the stages with pressure test functions |
| C253 | Newton.apply in the stages of OneStepMethod as in C249, any local operators; the flow problems of C252 | the stage problem is a stationary problem with a constant part, so C251_defect and C246_linear apply; induction over the stages; pressure test functions as in C252 |

## Modules and the source files they model

The exact functions and lines are in the comment of every definition.

| module | source files |
|---|---|
| `Model/Adaptivity.lean` | adaptivity.hh |
| `Model/AmgBackends.lean` | assemblerutilities.hh, cg_to_dg_prolongation.hh, jacobianengine.hh, novlpistlsolverbackend.hh, ovlp_amg_dg_backend.hh, ovlpistlsolverbackend.hh, seq_amg_dg_backend.hh, seqistlsolverbackend.hh |
| `Model/AmgIndexSet.lean` | genericdatahandle.hh, parallelhelper.hh |
| `Model/AssemblerUtilities.lean` | assembler.hh, assemblerutilities.hh, bcrsmatrix.hh, jacobianengine.hh, lfsindexcache.hh, patternengine.hh |
| `Model/BackendStorage.lean` | bcrsmatrix.hh, matrix.hh, vector.hh |
| `Model/Benchmark.lean` | benchmarkhelper.hh |
| `Model/BlockDiagonal.lean` | blockmatrixdiagonal.hh, tags.hh |
| `Model/BlockOperators.lean` | assembler.hh, blockdiagonalwrapper.hh, blockoffdiagonalwrapper.hh, callswitch.hh, dofindex.hh, geometrywrapper.hh, gridoperator.hh, interface.hh, jacobianapplyengine.hh, jacobianapplyhelper.hh, jacobianengine.hh, localvector.hh, pointdiagonalwrapper.hh, residualengine.hh |
| `Model/BlockPrecond.lean` | assembledblockjacobipreconditioner.hh, blocksorpreconditioner.hh, gridoperatorpreconditioner.hh, iterativeblockjacobipreconditioner.hh, solverstatistics.hh |
| `Model/Boilerplate.lean` | interface.hh, pdelab.hh |
| `Model/BorderExchange.lean` | borderdofexchanger.hh, borderindexidcache.hh, dofindex.hh, gridoperator.hh, onestep.hh, patternengine.hh |
| `Model/CCFVAssembly.lean` | assembler.hh, convectiondiffusionccfv.hh, flags.hh, residualengine.hh |
| `Model/CCFVSolve.lean` | assembler.hh, convectiondiffusionccfv.hh, enginebase.hh, jacobianengine.hh, pattern.hh, patternengine.hh, residualengine.hh |
| `Model/Clock.lean` | clock.cc, clock.hh |
| `Model/CombinedOperator.lean` | callswitch.hh, combinedoperator.hh, interface.hh, sum.hh, weightedsum.hh |
| `Model/ConstrainedSolve.lean` | jacobianengine.hh, linearproblem.hh, linesearch.hh, newton.hh, residualengine.hh |
| `Model/Constraints.lean` | constraints.hh, constraintstransformation.hh |
| `Model/ConstraintsAssembly.lean` | conforming.hh, constraints.hh, constraintsparameters.hh, constraintstransformation.hh, interiornode.hh, noconstraints.hh, p0.hh, p0ghost.hh, raviartthomas0.hh |
| `Model/ConvectionDiffusion.lean` | convectiondiffusionccfv.hh, convectiondiffusiondg.hh, convectiondiffusionfem.hh, convectiondiffusionparameter.hh |
| `Model/DGMesh.lean` | assembler.hh, convectiondiffusiondg.hh, residualengine.hh |
| `Model/DGNavierStokes.lean` | dginteriorpenaltyparameter.hh, dgnavierstokes.hh, dgnavierstokesparameter.hh, dgnavierstokesvelvecfem.hh, idefault.hh, stokesparameter.hh |
| `Model/DGSolve.lean` | assembler.hh, convectiondiffusiondg.hh, jacobianengine.hh, l2.hh, pattern.hh, patternengine.hh, residualengine.hh |
| `Model/Darcy.lean` | darcyccfv.hh, darcyfem.hh, eval.hh |
| `Model/DataHandle.lean` | datahandleprovider.hh, entityindexcache.hh, genericdatahandle.hh, polymorphicbufferwrapper.hh |
| `Model/DiscreteFunctions.lean` | crossproduct.hh, discretegridviewfunction.hh, function.hh, gridfunctionspaceutilities.hh, jacobiantocurl.hh, uncachedvectorview.hh |
| `Model/DuneFunctionsSpace.lean` | dunefunctionsgridfunctionspace.hh, dunefunctionslfsindexcache.hh, dunefunctionslocalfunctionspace.hh |
| `Model/Eigensolver.lean` | arpackpp_geneo.hh |
| `Model/EntitySet.lean` | borderindexidcache.hh, elementmapper.hh, partitionviewentityset.hh |
| `Model/ErrorDistribution.lean` | adaptivity.hh |
| `Model/ErrorEstimators.lean` | assembler.hh, convectiondiffusionfem.hh, errorindicatordg.hh |
| `Model/ExplicitBoundary.lean` | explicitonestep.hh, gridoperator.hh, jacobianengine.hh, onestep.hh |
| `Model/ExplicitSolve.lean` | explicitonestep.hh, jacobianengine.hh, onestep.hh |
| `Model/FEMMesh.lean` | assembler.hh, convectiondiffusionfem.hh, jacobianengine.hh, pattern.hh, patternengine.hh, residualengine.hh |
| `Model/FastDG.lean` | aliasedmatrixview.hh, aliasedvectorview.hh, assemblerutilities.hh, bcrsmatrix.hh, callswitch.hh, engine.hh, fastdg.hh, jacobianapplyengine.hh, jacobianengine.hh, lfsindexcache.hh, localassembler.hh, localmatrix.hh, localvector.hh, pattern.hh, patternengine.hh, residualengine.hh |
| `Model/FiniteElementMaps.lean` | 5fem.hh, bdm1cube2dfem.hh, bdm1simplex2dfem.hh, finiteelementmap.hh, mimeticfem.hh, monomfem.hh, opbfem.hh, p0fem.hh, pk1d.hh, pkfem.hh, pkqkfem.hh, powerfem.hh, qkdg.hh, qkfem.hh, rannacherturekfem.hh, rt0cube2dfem.hh, rt0cube3dfem.hh, rt0simplex2dfem.hh, rt0simplex3dfem.hh, rt1cube2dfem.hh, rt1cube3dfem.hh, rt1simplex2dfem.hh, rt2cube2dfem.hh, topologyutility.hh, utility.hh, variablemonomfem.hh, variableopbfem.hh, variableqkdgfem.hh |
| `Model/FiniteElements.lean` | localbasiscache.hh, qkdglagrange.hh, qkdglegendre.hh, qkdglobatto.hh |
| `Model/FunctionAdapters.lean` | bindtime.hh, callableadapter.hh, function.hh, functionwrappers.hh |
| `Model/FunctionTree.lean` | callableadapter.hh, function.hh, localfunction.hh, localfunctionhelper.hh, oldinterfaceadapter.hh |
| `Model/GenEO.lean` | geneobasis.hh, liptonbabuskabasis.hh, localoperator_ovlp_region.hh, multicommdatahandle.hh, subdomainbasis.hh, subdomainprojectedcoarsespace.hh, two_level_schwarz.hh |
| `Model/GridAssembler.lean` | assembler.hh, intersectiontype.hh |
| `Model/GridFunctions.lean` | const.hh, division.hh, function.hh, functionutilities.hh, inverse.hh, minus.hh, product.hh, scalarscaled.hh, selectcomponent.hh, sqr.hh, sqrt.hh |
| `Model/GridViewOrdering.lean` | directleaflocalordering.hh, entityblockedlocalordering.hh, gridviewordering.hh, leaflocalordering.hh, localorderingbase.hh, orderingbase.hh |
| `Model/HangingNode.lean` | constraints.hh, geometrywrapper.hh, hangingnode.hh, hangingnodemanager.hh |
| `Model/Hyperbolic.lean` | convectiondiffusionccfv.hh, convectiondiffusiondg.hh, convectiondiffusionfem.hh, dgnavierstokes.hh, dgnavierstokesvelvecfem.hh, idefault.hh, linearacousticsdg.hh, linearacousticsparameter.hh, maxwelldg.hh, maxwellparameter.hh, nonlinearconvectiondiffusionfem.hh, taylorhoodnavierstokes.hh |
| `Model/HyperbolicMesh.lean` | assembler.hh, linearacousticsdg.hh, maxwelldg.hh, residualengine.hh |
| `Model/IndexRoutes.lean` | chunkedblockordering.hh, datahandleprovider.hh, directleaflocalordering.hh, entityblockedlocalordering.hh, entityindexcache.hh, gridviewordering.hh, interleavedordering.hh, leaforderingbase.hh, lexicographicordering.hh, lfsindexcache.hh, localorderingbase.hh, multiindex.hh, orderingbase.hh, permutedordering.hh, subordering.hh, subspace.hh |
| `Model/IstlAccess.lean` | bcrsmatrix.hh, bcrsmatrixbackend.hh, matrixhelpers.hh, patternstatistics.hh, tags.hh, vector.hh, vectorhelpers.hh |
| `Model/IterativeBlocks.lean` | iterativeblockjacobipreconditioner.hh, localfunctionspace.hh, localvector.hh |
| `Model/KrylovSolvers.lean` | novlpistlsolverbackend.hh, ovlpistlsolverbackend.hh, vector.hh |
| `Model/LeafOrdering.lean` | directleaflocalordering.hh, leafgridviewordering.hh, leaforderingbase.hh |
| `Model/LinearProblem.lean` | linearproblem.hh, solver.hh |
| `Model/LoadBalance.lean` | entityindexcache.hh, loadbalance.hh, polymorphicbufferwrapper.hh |
| `Model/LocalContainers.lean` | diagonallocalmatrix.hh, localmatrix.hh, localvector.hh |
| `Model/LocalFunctionSpace.lean` | dofindex.hh, localfunctionspace.hh, utility.hh |
| `Model/LocalOperator.lean` | convectiondiffusionfem.hh, geometrywrapper.hh, localfunctionspace.hh, localmatrix.hh, localvector.hh, quadraturerules.hh |
| `Model/LocalVectorOps.lean` | localvector.hh |
| `Model/Logtag.lean` | clock.cc, hostname.cc, logtag.cc, logtag.hh |
| `Model/MetisPartition.lean` | metis.hh |
| `Model/MixedMesh.lean` | assembler.hh, diffusionmixed.hh, jacobianengine.hh, numericaljacobian.hh, pattern.hh, patternengine.hh, residualengine.hh |
| `Model/MultiIndex.lean` | multiindex.hh |
| `Model/Newton.lean` | linesearch.hh, newton.hh, solver.hh, terminate.hh, utility.hh |
| `Model/NewtonModified.lean` | linesearch.hh, newton.hh |
| `Model/NewtonSolve.lean` | newton.hh |
| `Model/NewtonStep.lean` | implicitonestep.hh, newton.hh, onestep.hh |
| `Model/NonlinearFEM.lean` | nonlinearconvectiondiffusionfem.hh |
| `Model/NonlinearMesh.lean` | assembler.hh, jacobianengine.hh, l2.hh, nonlinearconvectiondiffusionfem.hh, numericaljacobian.hh, pattern.hh, patternengine.hh, residualengine.hh |
| `Model/NumericalJacobian.lean` | localmatrix.hh, localvector.hh, numericaljacobian.hh, numericaljacobianapply.hh, numericalnonlinearjacobianapply.hh, numericalresidual.hh |
| `Model/OldNewton.lean` | newton.hh, solver.hh |
| `Model/OneStepMethod.lean` | constraints.hh, explicitonestep.hh, gridoperator.hh, implicitonestep.hh, onestep.hh |
| `Model/OneStepOperator.lean` | enginebase.hh, jacobianengine.hh, jacobianresidualengine.hh, localassembler.hh, onestep.hh, prestageengine.hh, residualengine.hh |
| `Model/OneStepParams.lean` | onestepparameter.hh |
| `Model/Ordering.lean` | chunkedblockordering.hh, interleavedordering.hh, leafgridviewordering.hh, lexicographicordering.hh, orderingbase.hh, permutedordering.hh, tags.hh |
| `Model/OrthonormalBasis.lean` | l2orthonormal.hh |
| `Model/ParallelHelper.lean` | genericdatahandle.hh, parallelhelper.hh |
| `Model/ParallelSolvers.lean` | blockmatrixdiagonal.hh, constraints.hh, genericdatahandle.hh, novlpistlsolverbackend.hh, ovlpistlsolverbackend.hh, parallelhelper.hh, partitionofunity.hh |
| `Model/Partition.lean` | colored.hh, iteratorsplit.hh, region.hh, uncolored.hh |
| `Model/Pattern.lean` | bcrspattern.hh |
| `Model/ScaledOperator.lean` | flags.hh, localassembler.hh, localmatrix.hh, localvector.hh, scaled.hh |
| `Model/SimpleMatrix.lean` | matrix.hh, sparse.hh |
| `Model/SpaceLifecycle.lean` | compositegridfunctionspace.hh, entityblockedlocalordering.hh, gridfunctionspace.hh, gridfunctionspacebase.hh, gridviewordering.hh, leafgridviewordering.hh, lexicographicordering.hh, localorderingbase.hh, orderingbase.hh, partitionviewentityset.hh, powercompositegridfunctionspacebase.hh, powergridfunctionspace.hh, utility.hh, vectorgridfunctionspace.hh |
| `Model/TimeStepSize.lean` | assembler.hh, convectiondiffusionccfv.hh, idefault.hh, onestep.hh |
| `Model/Transfer.lean` | adaptivity.hh |
| `Model/TransientFlow.lean` | assembler.hh, navierstokesmass.hh, pattern.hh, residualengine.hh, taylorhoodnavierstokes.hh |
| `Model/TransientSolve.lean` | assembler.hh, convectiondiffusionfem.hh, enginebase.hh, gridoperator.hh, implicitonestep.hh, jacobianengine.hh, l2.hh, linearproblem.hh, onestep.hh, pattern.hh, prestageengine.hh, residualengine.hh |
| `Model/TwoPhase.lean` | twophaseccfv.hh |
| `Model/VectorIterator.lean` | tags.hh, vectoriterator.hh |
| `Model/VectorMesh.lean` | assembler.hh, jacobianengine.hh, linearelasticity.hh, localfunctionspace.hh, pattern.hh, patternengine.hh, residualengine.hh, taylorhoodnavierstokes.hh |
| `Model/VectorOperators.lean` | blockdiagonal.hh, convectiondiffusionparameter.hh, diffusionmixed.hh, electrodynamic.hh, l2.hh, l2volumefunctional.hh, linearelasticity.hh, linearelasticityparameter.hh, navierstokesmass.hh, stokesparameter.hh, taylorhoodnavierstokes.hh |
| `Model/VectorType.lean` | chunkedblockordering.hh, descriptors.hh, leafgridviewordering.hh, orderingbase.hh, transformations.hh, vectorhelpers.hh |
| `Model/Views.lean` | aliasedmatrixview.hh, aliasedvectorview.hh, bcrsmatrix.hh, interpolate.hh, localfunctionspace.hh, uncachedmatrixview.hh, uncachedvectorview.hh, vector.hh |
| `Model/Vtk.lean` | function.hh, range.hh, vectorgridfunctionspace.hh, vtk.hh, vtkexport.hh |

## What is not modelled

* C++ templates and type computations (the model is written for arbitrary trees/parameters instead), `const`-ness,
  compile errors, object lifetimes other than the stage vectors of C67.
* The DUNE modules: grids (element lists, intersections, indices, partition types and refinement enter as parameters
  with the assumptions stated in the theorems), istl (matrices and vectors enter as lists or functions; solvers as
  oracles), localfunctions (finite elements enter as sizes and coefficients), typetree (trees are inductive types).
* MPI: a communication is a list of messages in arbitrary order. Threads: interleavings of atomic loads and stores (C36).
* Floating point rounding (an arbitrary ordered field, or the rational numbers), integer overflow unless stated.
* Files not modelled at all: the concrete local operators (`localoperator/*` other than the sums, flags, numerical
  Jacobians, the block wrappers, the convection-diffusion operators, those of C161–C178), `finiteelementmap/global.hh`, `finiteelement/pk1d*`, the constructor of the orthonormal basis from another basis, `backend/istl/geneo/arpackpp_geneo.hh`, Eigen and the block solvers inside the matrix-free
  preconditioners (parameters), the solver backends
  (`backend/istl/*solverbackend*`) beyond the operators, scalar products, preconditioners and life cycles of C136–C142 and C179–C182, the file formats of VTK output, METIS and file readers.

## Properties that are false of the code

Each is proved false by a theorem with a concrete witness; what does hold is proved by the other theorems of the
property (see MANIFEST.json).

* **C04 CSR matrix: access to an entry outside the pattern is detected**
  * `C04_absent_access_detected_false`: **C04 is false of the code.** With the pattern {(0,2)} the access to the absent entry (0,1) passes the assertion and yields the cell of the entry (0,2).
* **C06 Degree-of-freedom orderings never map two DOFs to one container index**
  * `C06_no_two_dofs_share_an_index_false`: **C06 is false for the code as it is**: there is a tree of orderings whose `update()` succeeds and which maps two DOFs to the same container index (DOF 2 of the first child and DOF 0 of the third leaf are both mapped to (0,2)).
* **C08 Interleaved blocking is rejected exactly when it does not divide**
  * `C08_accepted_interleavings_are_complete_false`: **C08 is false for the code as it is**: `update()` accepts container-blocked interleavings in which a block is incomplete (3 blocks of the first child, 1 block of the second, merged as (1,1)).
* **C09 A user-supplied permutation is applied**
  * `C09_permutation_survives_update_false`: **C09 is false for the code as it is**: a permutation of the right size that the user put into the tag before `update()` is not applied (`update()` replaces it by the identity without an error).
* **C101 The block diagonal wrapper selects the diagonal blocks**
  * `C101_post_skeleton_false`: **C101 (false in general).** The wrapper drops post-skeleton terms, so that the wrapped operator does not give the diagonal blocks of an operator that has them.
* **C102 The block off-diagonal wrapper selects the off-diagonal blocks**
  * `C102_two_sided_false`: **C102 (false in general).** For an operator that is called from both sides and contributes to the rows of the inside cell, the matrix of the operator wrapped for the off-diagonal blocks is not the off-diagonal part of the matrix: the wrapper keeps the block whose rows belong to the other cell. (Its matrix-free application is right, see C103.)
* **C104 The point diagonal wrapper yields the diagonal of the matrix**
  * `C104_systems_false`: **C104 (false in general).** For a system the wrapper adds entries that couple different components to the diagonal: it compares the indices in the component spaces and does not look at the spaces.
* **C105 The functions for one cell yield the cell's diagonal block**
  * `C105_neighbour_coefficients_false`: **C105 (false for nonlinear skeleton terms).** The functions for one block hand the coefficients of the cell to the skeleton term in place of those of the neighbour, so that the block of an operator whose diagonal part depends on the neighbour's coefficients is wrong.
  * `C105_periodic_false`: **C105 (false at periodic boundaries).** The functions for one block leave out faces at periodic boundaries, which the assembler treats like all other faces between two cells.
* **C106 Block Jacobi inverts the diagonal blocks**
  * `C106_systems_false`: **C106 (false for systems).** The view that the blocks are assembled through ignores the spaces, so that entries of different components of a system are added to the same entry of the matrix.
* **C108 Block SOR stays within its vectors**
  * `C108_block_sizes_false`: **C108 (false in general).** With two cells that have two degrees of freedom and one, the preconditioner reads past the end of the vector it is applied to.
* **C109 Matrix-free preconditioners use the current linearisation point**
  * `C109_new_point_false`: **C109 (false in general).** A new linearisation point has no effect on the blocks that `apply` inverts: `pre()` does not set them up again, and nothing in the library asks for it.
* **C11 Sizes reported for container blocks match the indices that occur**
  * `C11_sizes_match_false`: **C11 is false for the code as it is.** First witness: unblocked lexicographic ordering of two children with 2 blocks of 2 DOFs each: the size of block 2 (the first block of the second child) is looked up in a child that does not exist, although the block occurs.
  * `C11_interleaved_sizes_false`: Second witness: container-blocked interleaving of two children with (1,1) blocks. The reconstructed child index forgets to subtract the child's offset in the block, so for the last block of the second child `size` reports 0 instead of 2.
* **C110 The iterative block solver is preconditioned with the inverse diagonal**
  * `C110_second_setup_false`: **C110 (false for later setups).** A second setup adds the diagonal entries to the inverses stored by the first.
* **C111 Statistics of the block solvers are those of all invocations on all processes**
  * `C111_fractions_false`: **C111 (false for fractions).** The sum is kept in an `int`, so that the mean of 1/2 and 1/2 is 0.
  * `C111_process_without_data_false`: **C111 (false without data).** If a process has no data its minimum is read from the end of an empty container.
  * `C111_single_false`: **C111 (false for one invocation).** The standard deviation of a single number is not a number.
* **C117 Lagrange elements on cubes reproduce Q_k**
  * `C117_equidistant_false`: But the points returned by `EquidistantLagrangePolynomials::x` are others: the polynomials do not have the values 0 and 1 there.
* **C12 Leaf ordering gives every grid entity its own contiguous index range**
  * `C12_entity_ranges_false`: **C12 is false for the code as it is**: the automatic detection of a fixed size remembers, per cell and geometry type, only the size of the entity visited last, so with entity-dependent sizes inside one cell two DOFs can get the same index.
* **C121 The cache of basis functions returns what the basis would return**
  * `C121_cache_false`: Of two different positions that close the second is answered with the values of the first.
  * `C121_other_basis_false`: A cache that is given two local bases answers with the values of the first one.
  * `C121_comparison_false`: On all positions it is not: two positions may both be incomparable to a third one but not to each other. (`std::map` requires that this does not happen.)
* **C126 Evaluation with a lower order gives the basis of the smaller space**
  * `C126_order_false`: For Q_k the functions that are evaluated for an order l are not all in Q_l.
* **C129 Normal components of neighbouring cells have the same orientation**
  * `C129_nonconforming_false`: On a nonconforming grid the orientation of a coarse face is not that of all its parts: cell 1 has the cells 0 and 2 behind its face 1.
  * `C129_processes_false`: In a parallel run the processes number their cells independently: the same face of the same cell (`name`) may be inverted on one process and not on another one.
* **C130 Tangential components of neighbouring cells have the same orientation**
  * `C130_hexahedra_false`: False for hexahedra: the orientations of the edges 8 to 11 do not fit into the byte where they are stored.
* **C131 Finite element maps tell the numbers of degrees of freedom of their elements**
  * `C131_rannacher_turek_false`: In 3d, where it has one degree of freedom for each of the 6 faces, the map puts them on the 12 edges, and the bound is too small.
  * `C131_pkqk_bound_false`: 
* **C134 The mimetic map returns elements with the right number of faces**
  * `C134_reference_false`: Otherwise it dangles: the element of one cell is gone when that of its neighbour has been asked for.
* **C135 Geometry types and basic types are converted into each other**
  * `C135_geometry_type_false`: False for `none`: the result is a simplex. False for pyramids of dimension 1: the result is a line.
* **C136 The nonoverlapping operator is the global operator**
  * `C136_applyscaleadd_false`: C136 fails for scaled addition to a consistent vector: at the border its values are added up.
* **C142 Explicit diagonal solvers solve the global diagonal system**
  * `C142_novlp_false`: C142 fails for the nonoverlapping backend at DOFs on the border of two processes: with residuals 1 and 1 and diagonals 1 and 1 the global solution is 2/2 = 1, the result is 1/1 + 1/1 = 2.
* **C144 The cache of border entities translates indices and ids**
  * `C144_update_false`: C144 fails if an existing cache is updated after the grid has changed: border entities that are gone are still found. Here the process has given all its entities to other processes.
* **C145 Matrix patterns are complete on the border of nonoverlapping processes**
  * `C145_cells_false`: C145 fails for spaces with DOFs in cells: the cache has no flags for cells, so collecting the links of a cell is undefined.
* **C146 make_consistent sums up the matrix entries of all processes on the border**
  * `C146_repeat_false`: C146 fails if a matrix is made consistent twice: the entries of the other processes are added again.
  * `C146_spaces_false`: C146 fails if test and trial space have different orderings: rows and columns are looked up in the wrong one.
  * `C146_onestep_false`: C146 fails for one step grid operators whose second operator has fewer links than the first: the matrix lacks entries the first operator has links for on other processes, so making it consistent is an exception.
  * `C146_onestep_links_false`: C146 fails for one step grid operators whose second operator has more links than the first: the entries it alone has links for stay different on the two processes.
* **C148 The coarse matrix of the two-level Schwarz method is the Galerkin product**
  * `C148_setup_false`: C148 fails: three cells in a row, one for each of three processes, with one cell of overlap. Processes 0 and 2 have a common cell, but process 2 owns no DOF of process 0; with the lists of neighbours of the parallel helper the set-up of the coarse system throws for every basis with a vector, in every order of delivery.
* **C150 The GenEO and Lipton-Babuska bases are the chosen eigenvectors times the partition of unity**
  * `C150_unity_false`: C150 fails: if the partition of unity is to be added, but no eigenvalue is below the threshold, the basis is empty.
  * `C150_norm_false`: C150 fails: the basis vectors are not normalised.
* **C151 The local operator on the overlap is evaluated exactly on elements covered by several subdomains**
  * `C151_gap_false`: C151 fails: cell 2, with the vertices 2 and 3, is on process 1 only, but the method of the base operator is called, since vertex 2 is on process 0 and vertex 3 on process 2.
* **C153 Divergences and curls are those of the vector field**
  * `C153_globalCurl_false`: C153 is false in two dimensions: the case is chosen with the number of components of the curl, not of the shape functions, so the curl of a scalar and that of a plane vector field access entries that do not exist.
* **C154 Second derivatives of discrete functions are those of the finite element function**
  * `C154_hessian_false`: C154 is false: on an element with affine geometry, in two or more dimensions, evaluating a second derivative always ends in a failed assertion or an access outside the container, whatever the basis and the coefficients are.
* **C155 Piola transformed fields keep their fluxes and divergences**
  * `C155_backward_false`: C155 is false on elements with a negatively oriented geometry: the adapter uses the integration element `|det A|`, the transformation the determinant, so that going forth and back changes the sign of every vector.
  * `C155_normalFlux_false`: C155 is false on triangles whose corners are numbered clockwise: the adapter uses the inner normal.
* **C156 Interpolation sets exactly the coefficients of the function**
  * `C156_false`: C156 fails for functions that are interpolated into a composed space with a leaf that has no degrees of freedom on an element (a variable that lives on a part of the grid): the check for this exists only where a leaf function meets a leaf space.
* **C157 Views transfer exactly the entries of the element**
  * `C157_raw_false`: C157 fails for `rawAccumulate` on the aliased view of a vector: it applies the weight. Local operators that have applied the weight already get its square.
* **C162 The numerical fluxes are exact at interfaces between materials**
  * `C162_acousticInterface_false`: **C162 (acoustics, false).** For any two different speeds of sound, the fluid at rest with the same pressure on both sides is not preserved: mass flows across the interface.
  * `C162_maxwellInterface_false`: **C162 (Maxwell, false).** For any two materials with different ε√(1/(εμ)) (the admittance), a constant electric field along the interface is not preserved.
* **C165 setTime determines the time of the coefficients**
  * `C165_time_false`: **C165 (set, false).** However often the time is set, the operators for acoustics and for Maxwell's equations evaluate the parameters at the time they had in the beginning; and `getTime` of these and three other operators returns the time it returned in the beginning.
* **C168 The mixed diffusion operator is the mixed weak form with the Piola transformation**
  * `C168_reaction_false`: The reaction term is integrated without the integration element: on an affine cell of length two, the residual of a constant is not that of the weak form if there is reaction.
* **C170 The velocity reconstructed from a pressure has the fluxes of the scheme**
  * `C170_outflow_false`: At an outflow boundary with prescribed diffusive flux the velocity is zero although the finite volume operator accounts for that flux.
* **C171 The nonlinear convection-diffusion operator is the weak form of the documented equation**
  * `C171_coefficients_false`: Where w is not the identity the coefficients are evaluated at w(u) instead of u: the weak form and the Neumann condition are violated.
* **C172 Two-phase flow conserves both phases and upwinds each of them**
  * `C172_boundaryScaling_false`: With different scaling factors the claim is false: the flux of the gas at a Dirichlet boundary is scaled with the factor of the liquid.
  * `C172_interface_false`: Through the interface the viscosity of the gas is that of the liquid.
* **C173 The phase velocities have the fluxes of the two-phase scheme**
  * `C173_velocities_false`: For compressible liquids and for two gases of different density the claims are false.
* **C174 The error indicators are the squared norms of the residuals**
  * `C174_femVolume_false`: **C174 fails for a reaction term.** `f² - c²u²` is integrated instead of `(f - cu)²`: with `c = 1`, `f = 0` and `u = 1` the squared indicator of the cell is negative.
  * `C174_dgVolume_false`: **C174 fails for piecewise constant functions.** The order of the element is a divisor: for an element of order zero the indicator of a cell is never a number.
* **C175 The temporal error indicators measure the change of the solution and of the data in a time step**
  * `C175_paramTime_false`: **C175 fails: the assembly has an effect.** The parameters are left at the end of the time step, also if other operators that share them have set another time.
* **C176 The discontinuous Galerkin operator for flow is the interior penalty method for the Navier-Stokes equations**
  * `C176_continuity_false`: With time steps of another length than 1 the residual of the continuity equation is not that of div u = g₂: here div u = g₂ = 3 and dt = 1/2, and the residual is not zero.
* **C177 The operator for vector valued shape functions is the same method**
  * `C177_full_tensor_false`: The vector valued operator uses the stress μ∇u also if the full stress tensor is asked for.
  * `C177_continuity_false`: It ignores the source g₂ of the continuity equation: div u = g₂ = 3 here, and the residual is not zero, even for dt = 1.
  * `C177_slip_false`: It does nothing on slip boundaries: whatever flows through them, there is no residual.
* **C181 Solver backends with multigrid solve the system they are given**
  * `C181_sequential_false`: C181 fails with reuse: the second call solves with the matrix of the first, not the one it was given.
  * `C181_destroyed_false`: ... and if that matrix is destroyed it is used all the same.
  * `C181_parallel_false`: C181 fails with reuse: every call after the first uses objects that were destroyed at the end of the first.
  * `C181_relaxation_false`: C181 fails for other relaxation factors: the member is an integer. With the factor 1/2 and a smoother that scales with its factor the preconditioner is the correction in the subspace alone.
  * `C181_matrix_false`: C181 fails for the parallel backend for discontinuous spaces: it leaves trivial rows in the matrix of the caller, so that a second call with the same matrix builds another hierarchy.
* **C183 Load balancing moves the values of functions with the entities**
  * `C183_shared_ids_false`: If an entity outside of the entity set has the id of one inside (a vertex of the coarse grid that is also one of the leaf grid) and is sent first, an empty entry takes its place in the map, the values sent later are dropped, and an assertion fails.
  * `C183_overlap_false`: Even if the grid moves nothing, the values of degrees of freedom in the overlap are lost: they are not restored, and not communicated.
* **C184 Multi-indices address the elements of nested containers one to one**
  * `C184_size_one_false`: In a power space with one component and blocks of fixed size, multi-indices have an index for the blocks of size 1. This is allowed in vectors, but an assertion fails for the matrix of the same space.
* **C187 Output files show the current values of the functions**
  * `C187_one_cell_false`: C187 is false without the proviso. On a grid with one cell (or on a process with one cell) the second file shows the values of the first one, although the vector has changed in between.
* **C189 Generated names of output functions are unique**
  * `C189_no_separator_false`: C189. The condition on the separator is needed: without a separator two components get the same name.
* **C19 Constrained rows become identity rows**
  * `C19_constrained_rows_false`: **C19** is false without the hypothesis on the diagonal: if no local pattern links the constrained DOF with itself, `clear_row` does not find the diagonal entry and the row is zero.
* **C190 Sizes reported by grid function spaces are those of the present grid**
  * `C190_copy_false`: **C190** (false for copies). A copy of a space which has been updated shares its ordering, which writes to the original: after the grid changed, `update(true)` of the copy succeeds, but the copy still reports the size on the old grid, and the original the one on the new grid.
  * `C190_mixed_grids_false`: **C190** (false without a forced update). Spaces constructed after a change of the grid, with an entity set which was used before, and used without `update(true)`: one child has the size on the old grid, the other one the size on the new grid, since only a new codimension makes the entity set look at the grid. The size of the whole space is the dimension on neither grid.
* **C191 Rules for building and using trees of grid function spaces**
  * `C191_rejected_false`: **C191** (false for rejected constructions). A constructor which throws because its second child is an initialised root has already taken the first child away: this space belongs to no larger space, but `update()` of it throws.
* **C193 Matrix wrappers describe the matrix they hold**
  * `C193_assign_false`: **C193** (false for assignments between different sizes). After `a.detach(); a = b;` (or `a = b` alone) where `a` was made for a smaller space, `a` has the entries of `b` but its old sizes: element (1,0) of `a` is element (0,2) of `b`.
  * `C193_attach_false`: **C193** (false for `attach`). A matrix constructed without container which is attached to the container of another one has no sizes, and all its rows are the first row.
  * `C193_statistics_false`: **C193** (statistics, false for copies and for `attach`). A copy of a matrix with statistics has none, and a matrix attached to another container reports the statistics of the former one.
* **C194 Partitions of the overlap computed with METIS**
  * `C194_automatic_false`: C194. With an automatic choice, however, class `Metis` keeps the number of patches it chose for the entity set it was constructed with: the partition of a grid that has been refined depends on what the grid was before.
  * `C194_adjacent_1d_false`: C194. In one dimension no two elements are adjacent.
* **C195 Scaled local operators scale every contribution**
  * `C195_pattern_false`: C195. If the factor is zero when the pattern is assembled, as it is by default, and is changed by `setFactor` afterwards, then the Jacobian writes to entries that are not in the pattern.
  * `C195_grid_operator_false`: C195. A grid operator cannot be created with a scaled operator: some of the flags its local assembler uses are missing.
* **C196 Time of functions in function trees**
  * `C196_clones_false`: C196. `PowerGridFunction(t)` does not make independent clones if `t` is a composite function (the clones share the leaves with `t`), or an adapter for a callable with a parameter object.
* **C199 Constrained DOFs of the convenience spaces are set consistently**
  * `C199_nonoverlapping_false`: C199 is false of nonoverlapping spaces: setting the constrained DOFs of a consistent vector gives a vector that is not consistent, since a process can have a vertex of the Dirichlet boundary without a face there.
* **C201 Spaces made from dune-functions bases use the indices of the basis**
  * `C201_container_index_false`: Without this agreement the two container indices differ: in the first triangle the first DOF of the edge has the index 4, the ordering says 5.
* **C202 Spaces made from dune-functions bases describe their communication correctly**
  * `C202_fixedSize_false`: On a mesh with two geometry types `fixedSize` says that all entities have the same number of DOFs although they have not.
* **C203 The finite element map of a dune-functions basis is current**
  * `C203_find_false`: Other bases, for example with a polynomial degree for each element: the answer for the second triangle is the finite element of the first.
* **C204 The index cache of a dune-functions space reports constrained DOFs**
  * `C204_constrained_false`: A constrained DOF is never reported: whatever the constraints, the cache answers that the DOF is not constrained.
* **C205 The FastDG grid operator computes the same residuals**
  * `C205_raw_accumulate_false`: **C205** is false in general (1): with a weight different from one, a local operator that uses `rawAccumulate` gets another result from the FastDG grid operator, since `AliasedVectorView::WeightedAccumulationView::rawAccumulate` applies the weight.
  * `C205_aliased_false`: **C205** is false in general (2): if the result vector is also the vector read, FastDG sees its own accumulations, while the default grid operator does not within one cell.
* **C206 The FastDG grid operator assembles the same Jacobian**
  * `C206_partial_blocks_false`: **C206** is false in general (1): if a block is constrained in part, FastDG also replaces its unconstrained rows (`clear_row_block`), the default grid operator only the constrained ones (`clear_row`).
  * `C206_pattern_without_neighbours_false`: **C206** is false in general (2): the pattern must have the blocks of the neighbours even if the local operator does not couple them (no skeleton pattern, but another term, here `flag`, makes the assembler visit the faces): the default grid operator leaves out the zeros, FastDG needs the addresses of the blocks.
* **C207 The FastDG grid operator fills a sufficient pattern**
  * `C207_sparse_pattern_false`: **C207** is false in general: a sparse local pattern whose first link is not between the first two functions is fine for the default grid operator, but FastDG uses an index its cache has not set.
* **C208 interpolate() keeps unconstrained values**
  * `C208_same_vector_false`: **C208** is false of FastDG when `xold` and `x` are the same vector: the old values of the unconstrained DOFs are lost.
* **C209 The deprecated Newton solver reports what it did**
  * `C209_uninitialised_false`: C209 is false for objects made by the constructor that is given a vector: the flags for hanging nodes are read without ever being set.
  * `C209_flags_differ_false`: C209 is false if the modification of hanging nodes is enabled in one of the two base classes only: then the solution is modified after its defect was computed, and if the linear solver fails, the reported defect is not that of the solution.
  * `C209_stale_first_defect_false`: C209 is false for the first defect if the initial residual is not a number: the one of the previous call is reported.
* **C21 Intersection indices passed to the local operator are the positions of the intersections**
  * `C21_intersection_index_false`: **C21** is false of the code: after a skipped intersection the index lags behind the position, because the loop continues before the counter is incremented.
* **C210 The deprecated Newton solver comes to an end**
  * `C210_endless_false`: C210 is false in general: with the threshold one, a failed line search with a matrix that is not current is repeated with the same matrix for ever, whatever the maximum number of iterations.
* **C212 The deprecated Newton solver uses the matrix it says it uses**
  * `C212_false`: C212 is false in general: in an iteration forced from a solution with defect zero, no matrix is assembled, and the linear solver is given a matrix that was never assembled, and told to reuse its set-up for it.
* **C213 Parameters of the deprecated Newton solver are read from their keys**
  * `C213_documented_example_false`: C213: the documented example sets the damping factor by the key `LineSearchDamping` (newton/newton.hh:822-828), which is never read.
  * `C213_atomic_false`: C213: `setParameters` is not all or nothing: if it throws for the name of the line search, the parameters read before are set.
* **C214 Explicit time steps with boundary values**
  * `C214_explicit_boundary_false`: **C214** is false of the code if the controller shortens the step: the boundary values of the new solution are those at the end of the given step, not at the end of the returned one. (Explicit Euler, given step 1 and suggestion 1/2.)
* **C215 Limiters in explicit time steps**
  * `C215_old_value_false`: **C215**: the old value, documented as input only, is not preserved when the limiter changes it.
* **C216 Explicit time stepping uses explicit schemes only**
  * `C216_scheme_explicit_false`: **C216** is false of the code after a rejected call: `setMethod` throws for an implicit scheme but keeps it, and the next step (without any message) does not satisfy the equations of that scheme. (Implicit Euler for `u' = -u`.)
* **C218 Coefficient vectors fit their function spaces**
  * `C218_nested_false`: **C218** is false for nested dynamic blocking: a vector of two vectors of two vectors compiles, but the deduced type has two levels only. The indices of the two DOFs of the first space have three entries, the access ignores the innermost one, and both DOFs refer to the same number in every vector. With a third system the program does not compile any more.
  * `C218_chunked_false`: **C218** is false for chunked orderings of spaces whose backend is not blocked: the container indices are longer than the capacity.
  * `C218_lexicographic_fixed_false`: **C218** is false for lexicographic orderings with static blocking: with two spaces of three DOFs each, the third DOF of the first space has the index (0,2), but the blocks of the vector have two entries.
  * `C218_entitywise_leaf_false`: **C218** is false for statically blocked leaf spaces in an entity-wise ordering: its container indices have one entry, but the vector has blocks, so that no DOF can be accessed.
* **C219 The benchmark helper reports the times that were measured**
  * `C219_runs_false`: C219 is false of the code for statistics after fewer runs than planned: the remaining runs are counted as runs that took no time. Here one of two planned runs took 5 seconds; the reported minimum is 0 and the reported mean is 5/2.
  * `C219_stale_false`: C219 is false of the code if a report is printed during a run: `end_run` does not tell that the statistics have to be computed again, so the following report shows the time of the run together with statistics of the time before. Here a run took 5 seconds, and the maximum is said to be 0.
  * `C219_overrun_false`: C219 is false of the code for the detection of mistakes: after the last run, `end_run`, `start` and `end` write behind the end of the vectors instead of throwing an exception as `start_run` does.
* **C220 The block diagonal of a matrix is extracted, exchanged and applied correctly**
  * `C220_size_false`: C220 is false of the code for the size of the data if the first block of the container has no DOFs on this process: the size of a row is asked from the first block of the first block, which does not exist, although the rows of the entity do.
* **C226 The eigensolver of GenEO returns generalised eigenpairs nearest to the shift**
  * `C226_complex_false`: C226 is false for pairs of conjugate complex eigenvalues: their imaginary parts are ignored, and what is returned for the real part is no eigenpair. Here `A = [[1,-1],[1,1]]` with the eigenvalues `1 ± i`, `B` the identity and no shift; the inverse of `A` has the eigenvalue `(1 + i)/2` with the eigenvector `(1,0) + i (0,1)`, of which ARPACK stores the real part first.
* **C23 The instationary residual is the one-step scheme formula**
  * `C23_residual_is_scheme_formula_false`: **C23** is false of the code for tiny coefficients: the one-step theta scheme with theta = 10^-7 is an implicit scheme, but its spatial residual at the new time is not assembled.
* **C230 Explicit finite volume steps keep values nonnegative, and the suggested step size ensures it**
  * `C230_suggestion_false`: **C230 (the suggestion) is false of the code.** It is not true that the step which the controller selects from the suggestion keeps the values nonnegative: for a problem with nonnegative sources the controller with the CFL number 1 lets a step of 1/2 pass, after which a value is negative.
* **C232 Stationary solvers solve the constrained discrete problem**
  * `C232_without_modifications_false`: **C232** is false without the modifications if there are linear constraints, for every linear solver that solves the system: the value at the hanging node stays as it is in the initial guess.
* **C233 The wave operators create no energy**
  * `C233_two_fluids_false`: **C233 (limit of the claim).** With different speeds of sound in the cells, the residual can feed energy into the field: a wave in two neighbouring cells with speeds of sound 16 and 1, and no incoming wave from outside.
* **C235 Interior penalty methods are stable for penalties above an explicit bound**
  * `C235_small_penalty_false`: **C235 (the bound is needed).** Below the bound, which is 2 for intervals, the symmetric method is not stable, the nonsymmetric one is.
* **C24 All local operator contributions of both operators are assembled**
  * `C24_all_contributions_false`: **C24** is false of the code: volume terms after the skeleton of the temporal operator are not part of the residual of the new stage, although they are part of the constant part assembled for the old stages.
* **C25 Time-step statistics of the one-step method count every attempt**
  * `C25_statistics_false`: **C25** is false of the code if the assembler throws: an attempt whose second stage cannot be assembled is not counted, nor are the solver iterations of its first stage.
* **C26 The CFL controller never steps past the target time and never enlarges the step**
  * `C26_cfl_controller_false`: **C26** is false of the code if the selected step is fed back: with the CFL number 1/2 and operators without restriction the step is halved in every call and the target is never reached.
* **C27 Line search accepts only admissible steps and leaves a consistent state**
  * `C27_false`: C27 is false for damping factor one: if told to accept the best, the line search returns without exception, the solution is the previous one and the defect that of a trial.
* **C28 Newton either reports convergence or throws, and reports faithful statistics**
  * `C28_reduction_false`: C28 is false in general: if the initial guess already satisfies the criterion, the reported reduction is zero, not the quotient one.
  * `C72_false`: C72 is false in general: a forced iteration from a solution with defect zero, or a first defect that is NaN, or a threshold of one or more, make the solver use a matrix that was never assembled.
* **C30 Local matrix storage has one cell per entry and iterates over all of them**
  * `C30_diagonal_false`: C30 is false for the diagonal local matrix: its product reads entries that do not exist (assertion failure) as soon as there are two rows.
* **C32 Communication buffers are consumed exactly as they are produced**
  * `C32_size_false`: C32 fails for entity sets that leave out part of the grid if the number of DOFs varies between entities of one type: the announced size is computed with the index of the entity in the grid view, but the ordering is indexed with the index in the entity set, so that another entity's size is announced.
  * `C32_outside_false`: C32 fails on the receiver outside of its partition if leaf sizes are not sent: the items received for an entity without DOFs are not taken out of the buffer, and the next entity gets them instead of its own.
  * `C32_entity_false`: C32 fails for the handles sending one item per entity (ghosts, disjoint partitioning, shared DOFs): for entities outside of the entity set nothing is announced, but one item is written.
* **C38 A sum of local operators contributes the sum of all contributions**
  * `C38_alpha_boundary_false`: C38 is false of the code for `alpha_boundary`: the boundary terms of the summands are not evaluated at all, and instead the post-skeleton terms of summands that have such are evaluated on the boundary intersection.
  * `C38_jacobian_apply_false`: C38 is false of the code for the application of Jacobians: the combined operators pass one argument (two for the skeleton) less than the call switch expects, for every tuple of summands, so that the code is ill-formed as soon as the method is used.
  * `C38_skip_false`: Three summands that agree lead to an error; three that disagree do not; and so does a single one.
* **C39 Mixing one-sided and two-sided summands is rejected**
  * `C39_mixed_false`: C39 is false of the code: a one-sided and a two-sided summand are accepted together, the combined operator wants two-sided visits, so that on the grid of two cells the skeleton terms of the first summand, which alone are evaluated once on the common face, are evaluated twice.
* **C41 Grid marking respects thresholds and level limits**
  * `C41_coarsening_false`: C41 is false of the code for `mark_grid_for_coarsening`: every cell with an error above the refinement threshold, i.e. the cells with the largest errors, is marked for coarsening as well.
* **C44 Hanging node weights form a partition of unity**
  * `C44_two_dim_false`: C44, negated for two dimensional grids: the code takes the dimension of the intersection for the one of the grid, so that no intersection of any grid ever yields a constraint.
  * `C44_three_dim_false`: C44, negated for three dimensional grids: whenever exactly one side has hanging nodes, the assertion on the number of vertices fails.
* **C46 Border entity lookup tables are mutually inverse after every update**
  * `C46_findIndex_false`: C46, negated: `update` never clears the map from ids to indices, so that former border entities are still found; the maps are not inverse to each other.
  * `C46_isBorder_false`: C46, negated: the flags of entities that are neither interior nor border any more are kept.
* **C47 Entity set indices are a bijection per geometry type and consistent after updates**
  * `C47_fallback_false`: C47, negated for grids without entity iterators: for the interior partition alone, the border vertex is counted and numbered, too.
* **C48 Parallel scalar products count every DOF once**
  * `C48_periodic_false`: C48 fails if a process stores two copies of an entity (grids periodic in a direction that is not distributed): the periodic copy is owned, too, and counts twice; on one process because there is no communication, on several because the process receives its own rank.
* **C50 Residuals generated from Jacobians are the matrix-vector product**
  * `C50_boundary_false`: C50 fails for `alpha_boundary` and rectangular shapes: the matrix has `x.size()` rows and `r.size()` columns. With two test and one trial coefficient the product reads a coefficient that does not exist; with two trial coefficients and one test coefficient it writes a residual that does not exist. `alpha_volume` handles both.
* **C51 Pattern iterators compare equal only at the same position**
  * `C51_iterator_equality_false`: **C51 is false of the code.** Equality of pattern iterators of one row is not symmetric and identifies iterators that point to different columns: in a row with one slot and the columns 0 (slot) and 1 (overflow), the incremented iterator compares equal to `begin`, but not vice versa.
* **C52 Assigning a dense matrix makes the target equal to the source**
  * `C52_dense_assignment_false`: **C52 is false of the code.** Assigning a 1x2 dense matrix to a 2x1 dense matrix leaves the shape of the target, so the entry (0,1) of the source reappears as entry (1,0).
* **C53 Container-blocked leaf spaces have one block per entity, numbered below the block count**
  * `C53_block_numbers_below_count_false`: **C53 is false for the code as it is**: a container-blocked leaf ordering with entity-dependent sizes reports the number of DOFs as the number of blocks, so block numbers can lie beyond `blockCount()`.
* **C55 localVectorSize() is the size of the root local function space**
  * `C55_localVectorSize_is_root_size_false`: **C55 is false of the code**: `localVectorSize()` is documented as the `size()` of the root, but is the maximal size over all elements, for instance when a leaf is not defined on the element.
* **C56 Converting a multi-index to another capacity keeps its entries**
  * `C56_conversion_false`: **C56 is false of the code** (with the checks of ReservedVector enabled): converting a multi-index to one of another, sufficient capacity reads past the end of the shorter ones.
* **C57 set_shifted_dofs sets exactly the DOFs that are not Dirichlet-constrained**
  * `C57_set_shifted_unconstrained_false`: **C57 is false of the code**: `set_shifted_dofs` should set all DOFs that are not Dirichlet-constrained. For an unconstrained space the special overload leaves the vector unchanged, while the general function on an empty container sets every entry.
* **C58 Reassembling constraints forgets the previous ones**
  * `C58_reassembly_false`: **C58 is false of the code** for `constraints(gfs,cg)`: constraints of an earlier assembly survive, while `constraints(p,gfs,cg)` starts from scratch.
* **C66 Explicit assembly yields the parts of the scheme formula**
  * `C66_explicit_parts_false`: **C66** is false of the code for skeleton and boundary terms of the temporal operator: their Jacobian is evaluated at the time of the last old stage. (One stage of the explicit Euler scheme with a boundary term that is the time.)
* **C67 Time steps release the stage vectors they allocate**
  * `C67_no_leak_false`: **C67** is false of the code for other exceptions: the vectors of the previous stages are leaked.
* **C70 An explicit step satisfies all stage equations with the selected time step**
  * `C70_explicit_step_false`: **C70** is false of the code if the controller shortens the step of a time-dependent problem: the stages are evaluated at the times of the given step. (Heun's scheme for `u' = -t`, given step 1 and suggestion 1/2.)
* **C72 Linear systems of Newton use a current Jacobian**
  * `C72_false`: C72 is false in general: a forced iteration from a solution with defect zero, or a first defect that is NaN, or a threshold of one or more, make the solver use a matrix that was never assembled.
* **C73 Requested linear reduction is the documented one**
  * `C73_false`: C73: the documented bound (the requested reduction is at most `MinLinearReduction`) is false: close to convergence it may be larger.
* **C74 setParameters changes exactly the given parameters**
  * `C74_false`: C74 is false: setting a single parameter resets the line search and the termination criterion to their defaults; and a damping factor given in the flat tree is changed by its conversion to a string with six digits.
* **C75 The linear problem solver solves the linear problem**
  * `C75_false`: C75 is false in general: (1) a solve with `reuse_matrix` before any matrix was assembled uses a matrix that is zero; (2) so does a second solve if matrices are not kept; (3) if the linear solver does not converge the solution is changed all the same. All without exception.
* **C76 Printed time stamps denote their value**
  * `C76_false`: C76 is false for negative time stamps: minus half a second, the difference of one second and one and a half, is printed as `-1.500000000`.
* **C77 Verbosity does not influence the time adaptation strategy**
  * `C77_verbosity_false`: C77 is false of the code: with verbosity 1 a cell on level 1 with a small error is not marked for coarsening when the grid is refined, since the verbosity is passed as the minimal level.
* **C78 Grid transfer preserves functions of both discrete spaces**
  * `C78_reproduction_false`: **C78** is false of the code: the projection to a vanishing element's ancestor always uses the quadrature of order two, whatever order is passed to `adapt_grid`. For quadratic elements on the halves of an interval and the order 4, with exact rules of order 2 and 4 and correctly inverted mass matrices, coarsening the function x² (which belongs to all spaces) changes it.
* **C79 Leaf offsets belong to the element they are used for**
  * `C79_leaf_offsets_false`: **C79** is false if elements of the same type may have different numbers of DOFs (finite element maps with variable order): the offsets are those of the element that was seen first.
* **C82 Hanging nodes are recognised**
  * `C82_boundary_false`: C82, negated for vertices between parts of the boundary: the flag is the one of the boundary face visited last, so that it depends on the numbering of the faces.
* **C83 contains() tells whether an entity belongs to the entity set**
  * `C83_contains_false`: C83, negated: entities of a codimension that is not active are reported as contained, but have no index.
* **C84 Applying a numerical Jacobian is multiplying by the numerical Jacobian matrix**
  * `C84_skeleton_false`: C84 fails for nonlinear `jacobian_apply_skeleton`: outside, `us + 3 un` has the gradient (1, 3), so that `z = (1, 1)` gives 4; the result is `5 + 21`, the product with `x = (5, 7)`.
  * `C84_boundary_false`: C84 fails for both versions of `jacobian_apply_boundary`: the residual `3 u` with weight 10 gives 30 z, but the linear version adds 3 x and the nonlinear version adds 3 x for every `z`, while the matrix has the entry 30.
* **C85 Neighbouring ranks are complete**
  * `C85_false`: C85 fails: two processes with a common vertex are neighbours, but process 0 owns the vertex and its list is empty.
* **C87 Entity-wise orderings never give two DOFs one index**
  * `C87_detection_false`: **C87 is false for the code as it is** (1): like for leaf orderings, the automatic detection of fixed sizes looks only at one entity per cell and type.
  * `C87_nested_false`: **C87 is false for the code as it is** (2): the offset of a child that is itself blocked by the container is counted in DOFs, but its indices are child numbers, which can be larger if some of its children have no DOFs on an entity.
* **C88 Sizes reported by entity-wise orderings cover all indices**
  * `C88_unblocked_false`: **C88 is false for the code as it is** (1): with entity-dependent sizes an unblocked entity-wise ordering reports the number of entities with DOFs as its block count, so indices lie beyond `size({})`.
  * `C88_nested_false`: **C88 is false for the code as it is** (2): for nested blocks `size(suffix)` looks up the wrong child.
* **C91 Fast DG index cache**
  * `C91_several_cell_types_false`: **C91 is false for the code as it is**: on a grid with triangles and quadrilaterals the index of a cell in the fast mode is not the one of the ordering.
* **C93 Jacobians of the conforming finite element operator are exact**
  * `C93_fem_boundary_false`: **C93 (counterexample).** With the boundary condition type `None` the matrix contains an outflow term that the residual does not contain.

## Axioms of each theorem

Output of `#print axioms` for the theorems of MANIFEST.json, grouped by the axioms.

* none: `C109_new_point_false`, `C131_flux`, `C131_rannacher_turek_false`, `C157_aliasedAccumulate`, `C157_aliasedGet`, `C157_raw_partial`, `C16_unconstrained`, `C181_destroyed_false`, `C181_sequential_false`, `C193_statistics_false`, `C195_grid_operator_false`, `C195_instationary`, `C198_coordinates`, `C203_find_false`, `C208_same_vector_false`, `C20_self_neighbour_never_visited`, `C236_restored`, `C32_entity_false`, `C32_size_false`, `C51_iterator_equality_false`, `C79_leaf_offsets_false`, `C82_boundary_false`, `C83_contains_partial`, `C85_false`

* propext: `C108_block_sizes_false`, `C116_adapters`, `C129_processes_false`, `C130_hexahedra_false`, `C131_pkqk_bound_false`, `C131_power`, `C134_reference_false`, `C134_reference_partial`, `C135_geometry_type_false`, `C135_kinds`, `C157_aliasedMatrix`, `C165_time_false`, `C170_exchange`, `C17_order_matters_with_chains`, `C189_named`, `C189_no_separator_false`, `C189_refused`, `C193_assign_false`, `C193_attach_false`, `C193_statistics`, `C194_colored`, `C194_single`, `C195_backend`, `C195_flags`, `C195_pattern_false`, `C196_clones_false`, `C198_boundary`, `C198_function_roundtrip`, `C198_gridfunction_roundtrip`, `C199_nonoverlapping_false`, `C19_constrained_rows_false`, `C201_container_index_false`, `C203_find_partial`, `C206_partial_blocks_false`, `C206_pattern_without_neighbours_false`, `C207_sparse_pattern_false`, `C208_default_interpolate`, `C208_fast_interpolate_partial`, `C21_intersection_index_false`, `C220_size_false`, `C25_resume`, `C25_statistics_false`, `C31_single`, `C32_outside_false`, `C38_skip_false`, `C39_never_rejects`, `C52_dense_assignment_false`, `C52_dense_assignment_partial`, `C56_conversion_false`, `C58_reassembly_partial`, `C76_false`

* Quot.sound, propext: `C109_needs_point`, `C109_never_without_setup`, `C109_setup_point_partial`, `C110_inverse_diagonal_partial`, `C111_process_without_data_false`, `C133_rejected`, `C144_update_false`, `C145_cells_false`, `C145_size`, `C14_access`, `C14_accumulate`, `C14_views`, `C150_fixed`, `C152_remap`, `C152_undefined`, `C154_hessian_false`, `C157_read`, `C157_readChild`, `C157_readSub`, `C159_exact`, `C159_integrate`, `C165_time_partial`, `C16_check`, `C16_set_and_copy`, `C172_interface_partial`, `C172_storage`, `C178_clock`, `C17_constrain_residual`, `C181_parallel_partial`, `C181_sequential_defined`, `C181_sequential_partial`, `C183_overlap_false`, `C183_shared_ids_false`, `C183_size`, `C184_matrix_length`, `C184_matrix_partial`, `C184_size_one_false`, `C185_clear_row`, `C185_clear_row_block`, `C185_not_square`, `C188_registered`, `C193_default_constructed`, `C193_dense_partial`, `C194_adjacent_partial`, `C194_automatic_false`, `C194_failure`, `C194_given_partial`, `C194_mesh`, `C195_calls`, `C195_pattern_partial`, `C195_result`, `C195_setFactor`, `C196_clones_partial`, `C196_frame`, `C196_history`, `C196_references`, `C196_setTime`, `C197_unbound`, `C198_bindTime`, `C198_engines`, `C198_pointwise`, `C198_select`, `C19_other_rows_untouched`, `C200_corner`, `C200_structured`, `C200_yasp`, `C202_fixedSize_false`, `C204_constrained_false`, `C204_constrained_partial`, `C205_aliased_false`, `C205_fast_result_partial`, `C205_raw_accumulate_false`, `C206_default_jacobian`, `C206_fast_equals_default_partial`, `C206_fast_jacobian`, `C207_pattern_covers_jacobian_partial`, `C207_same_pattern_partial`, `C209_uninitialised_false`, `C20_visited_from_larger_side`, `C213_exception`, `C213_set_parameters`, `C216_scheme_explicit_partial`, `C218_capacity_partial`, `C218_chunked_false`, `C218_index_length`, `C21_intersection_index_partial`, `C230_minimum`, `C230_suggests_constant`, `C231_bcgs`, `C231_cg`, `C236_host_name`, `C236_local_tag`, `C25_statistics_partial`, `C29_addition`, `C29_subtraction`, `C30_diagonal_false`, `C30_storage`, `C31_accumulation`, `C31_modified`, `C32_size_partial`, `C33_split`, `C36_deterministic`, `C36_halo`, `C36_interior`, `C38_alpha_boundary_dispatch`, `C38_jacobian_apply_false`, `C38_skip_partial`, `C39_uniform_partial`, `C44_three_dim_false`, `C44_two_dim_false`, `C46_findIndex_false`, `C46_isBorder_false`, `C47_fallback_false`, `C48_covered`, `C51_iterator_equality_partial`, `C55_localVectorSize_is_root_size_false`, `C56_conversion_partial`, `C57_set_shifted_partial`, `C58_reassembly_false`, `C62_protocol`, `C67_no_leak_false`, `C71_newton_terminates`, `C74_set_parameters_partial`, `C83_contains_false`, `C87_detection_false`, `C87_nested_false`, `C88_nested_false`, `C88_unblocked_false`, `C91_several_cell_types_false`

* Classical.choice, Quot.sound, propext: `C01_columns_are_the_links`, `C01_nested_columns_are_the_links`, `C02_overflowCount`, `C02_sizes_count_distinct_columns`, `C03_pattern_entries_have_own_cells`, `C03_reads_return_last_writes`, `C04_absent_access_detected_false`, `C04_absent_access_detected_partial`, `C05_clear_row`, `C05_csr_agrees_with_dense`, `C05_csr_products`, `C05_dense_products`, `C06_no_two_dofs_share_an_index_false`, `C06_no_two_dofs_share_an_index_partial`, `C07_unblocked_is_a_bijection`, `C08_accepted_interleavings_are_complete_false`, `C08_interleaving_rejected_iff_not_divisible_partial`, `C09_permutation_is_applied_partial`, `C09_permutation_survives_update_false`, `C100_dg_volume_nonneg`, `C100_nipg_boundary_nonneg`, `C100_nipg_skeleton_nonneg`, `C101_block_diagonal_partial`, `C101_post_skeleton_false`, `C102_block_off_diagonal_partial`, `C102_splitting_partial`, `C102_two_sided_false`, `C103_block_diagonal_application`, `C103_block_off_diagonal_application`, `C103_matrix_free_application`, `C104_point_diagonal_partial`, `C104_systems_false`, `C105_local_application_partial`, `C105_local_block_partial`, `C105_local_point_diagonal_partial`, `C105_neighbour_coefficients_false`, `C105_periodic_false`, `C106_block_jacobi_partial`, `C106_systems_false`, `C107_block_gauss_seidel_partial`, `C107_block_sor_sweep`, `C108_block_sizes_partial`, `C10_chunks`, `C110_second_setup_false`, `C111_extremes_partial`, `C111_fractions_false`, `C111_single_false`, `C111_statistics_partial`, `C112_constrained_dofs`, `C113_dirichlet_faces`, `C114_compute_ghosts`, `C114_nonoverlapping`, `C115_interior_nodes`, `C115_rt0`, `C116_functions_as_parameters`, `C116_parameters_of_leaves`, `C117_equidistant_false`, `C117_equidistant_partial`, `C117_lagrange`, `C117_lobatto`, `C117_multiindex`, `C118_lagrange`, `C118_legendre`, `C118_lobatto`, `C119_legendre_1d`, `C119_legendre_basis`, `C119_legendre_interpolation`, `C11_interleaved_sizes_false`, `C11_sizes_match_false`, `C11_sizes_match_partial`, `C11_top_level_size_partial`, `C120_lobatto_points`, `C121_cache_false`, `C121_cache_partial`, `C121_comparison_false`, `C121_comparison_partial`, `C121_other_basis_false`, `C122_multiindex`, `C122_size_exact`, `C123_binomial`, `C123_monomials`, `C124_orthonormal`, `C125_jacobian`, `C126_order_false`, `C126_order_partial`, `C127_interpolation`, `C128_neighbours`, `C128_vertex_order`, `C129_nonconforming_false`, `C129_orientation_partial`, `C129_variants`, `C12_entity_ranges_false`, `C12_entity_ranges_partial`, `C130_edges_partial`, `C131_cubes`, `C131_discontinuous`, `C131_pkqk_bound_partial`, `C131_pkqk_codims`, `C131_pkqk_elements`, `C131_rannacher_turek_partial`, `C131_simplices`, `C132_block_size`, `C133_bound`, `C133_variable_order`, `C134_variant_partial`, `C135_basic_type`, `C135_geometry_type_partial`, `C136_apply`, `C136_applyscaleadd_false`, `C136_applyscaleadd_partial`, `C137_apply`, `C137_applyscaleadd`, `C138_positive`, `C138_subdomain`, `C138_symmetric`, `C138_wrapped`, `C139_owner`, `C13_dof_indices`, `C13_local_indices`, `C140_additive`, `C140_consistent`, `C140_setup`, `C141_dot`, `C141_norm`, `C142_novlp_false`, `C142_novlp_partial`, `C142_ovlp`, `C143_sarkis_cover`, `C143_sarkis_distance`, `C143_sarkis_sum`, `C143_standard`, `C143_standard_sum`, `C144_cache_partial`, `C145_pattern_partial`, `C146_consistent_partial`, `C146_entries_partial`, `C146_onestep_false`, `C146_onestep_links_false`, `C146_onestep_partial`, `C146_repeat_false`, `C146_spaces_false`, `C147_index_set`, `C147_owner`, `C148_entries`, `C148_neighbours_partial`, `C148_setup_false`, `C149_apply`, `C149_galerkin`, `C149_positive`, `C149_restrict`, `C149_symmetric`, `C14_join_reverse_eq`, `C14_push_pop`, `C150_basis`, `C150_count`, `C150_form`, `C150_norm`, `C150_norm_false`, `C150_throws`, `C150_unity_false`, `C150_unity_lost`, `C150_unity_partial`, `C150_vanishing`, `C151_covered_partial`, `C151_evaluated`, `C151_gap_false`, `C152_calls`, `C152_gradient`, `C152_local`, `C152_value`, `C152_vector`, `C152_vectorGradient`, `C153_crossProduct`, `C153_curl2`, `C153_curl3`, `C153_divergence`, `C153_globalCurl_false`, `C153_globalCurl_partial`, `C153_jacobianToCurl`, `C154_hessian_partial`, `C155_backward_false`, `C155_backward_partial`, `C155_divergence`, `C155_evaluate`, `C155_flux`, `C155_forward`, `C155_normalFlux_false`, `C155_normalFlux_partial`, `C155_normalFlux_throws`, `C156_defined`, `C156_false`, `C156_last`, `C156_roundtrip`, `C156_untouched`, `C156_value`, `C157_add`, `C157_addChild`, `C157_addMatrix`, `C157_addSub`, `C157_raw_false`, `C157_readMatrix`, `C157_roundtrip`, `C157_write`, `C157_writeChild`, `C157_writeMatrix`, `C157_writeSub`, `C158_consecutive`, `C158_independent`, `C158_select`, `C158_setTime`, `C158_shared`, `C158_singular`, `C158_time`, `C158_value`, `C15_cell_order`, `C15_contributions`, `C15_order_independent`, `C160_global`, `C160_probe`, `C161_acousticEigenvectors`, `C161_acousticEnergy`, `C161_acousticUpwind`, `C161_maxwellEigenvectors`, `C161_maxwellEnergy`, `C161_maxwellUpwind`, `C162_acousticInterface_false`, `C162_acousticInterface_partial`, `C162_maxwellInterface_false`, `C162_maxwellInterface_partial`, `C163_acousticConservative`, `C163_acousticFaces`, `C163_acousticSource`, `C163_acousticVolume`, `C163_maxwellConservative`, `C163_maxwellFaces`, `C163_maxwellSource`, `C163_maxwellVolume`, `C163_order`, `C164_mass`, `C166_energy`, `C166_jacobian`, `C166_rigid_motions`, `C166_weak_form`, `C167_dissipation`, `C167_jacobian`, `C167_orders`, `C167_stokes`, `C167_weak_form`, `C168_reaction_false`, `C168_sources`, `C168_symmetric`, `C168_weak_form_partial`, `C169_electrodynamics`, `C169_electrodynamics_energy`, `C169_functional`, `C169_mass`, `C169_mass_energy`, `C169_velocity_mass`, `C16_copy_both`, `C170_conservative`, `C170_fem`, `C170_flux_partial`, `C170_history`, `C170_normal_component`, `C170_outflow_false`, `C171_coefficients_false`, `C171_identity`, `C171_weak_form_partial`, `C172_boundaryScaling_false`, `C172_boundary_partial`, `C172_conservation`, `C172_direction`, `C172_interface_false`, `C172_orientation`, `C172_skeleton`, `C173_normal_component`, `C173_velocities_false`, `C173_velocities_partial`, `C174_dgBoundary`, `C174_dgDefinite`, `C174_dgFace`, `C174_dgOrientation`, `C174_dgVolume`, `C174_dgVolume_false`, `C174_diameter`, `C174_femBoundary`, `C174_femFace`, `C174_femNonneg_partial`, `C174_femOrientation`, `C174_femVanishes`, `C174_femVolume_false`, `C174_femVolume_partial`, `C175_boundary`, `C175_history`, `C175_nonneg`, `C175_paramTime_false`, `C175_simpson`, `C175_stationary`, `C175_volume`, `C175_volume1`, `C175_volume1_linear`, `C176_boundary`, `C176_cell`, `C176_conservative`, `C176_consistent`, `C176_continuity_false`, `C176_continuity_partial`, `C176_dissipation`, `C176_face`, `C176_jacobian`, `C176_orders`, `C176_orientation`, `C176_symmetric`, `C177_agree`, `C177_continuity_false`, `C177_full_tensor_false`, `C177_jacobian`, `C177_slip_false`, `C177_symmetric`, `C177_weak_form_partial`, `C178_overpenalty`, `C178_penalty`, `C179_apply`, `C179_defect`, `C179_error`, `C179_positive`, `C179_subspace`, `C179_symmetric`, `C17_order_independent`, `C180_embedding`, `C180_galerkin`, `C180_rows`, `C181_matrix_false`, `C181_matrix_partial`, `C181_on_the_fly`, `C181_parallel_false`, `C181_relaxation_false`, `C181_settings_partial`, `C182_parallel`, `C183_schedule`, `C183_values_partial`, `C184_vector`, `C184_vector_all`, `C184_vector_length`, `C186_pattern`, `C187_default_components`, `C187_one_cell_false`, `C187_range`, `C187_values_partial`, `C187_values_unchanged`, `C189_unnamed_distinct`, `C189_vector_name`, `C18_scatter_stays_in_pattern`, `C190_copy_false`, `C190_forced_update_partial`, `C190_mixed_grids_false`, `C190_unchanged`, `C191_compose`, `C191_for_ever`, `C191_initialized`, `C191_rejected_false`, `C191_use`, `C192_attach`, `C192_frame`, `C192_result`, `C192_values`, `C194_adjacent_1d_false`, `C194_nodes`, `C194_patches`, `C197_bound`, `C198_vtk_names`, `C199_other_categories_partial`, `C199_overlapping`, `C19_constrained_rows_partial`, `C201_container_index_partial`, `C201_entity_indices`, `C201_update`, `C202_contains`, `C202_fixedSize_partial`, `C205_default_result`, `C205_fast_equals_default_partial`, `C209_flags_differ_false`, `C209_newton_partial`, `C209_stale_first_defect_false`, `C20_boundary_faces`, `C20_interior_faces`, `C20_volume_once_per_cell`, `C210_endless_false`, `C210_newton_terminates_partial`, `C211_defect_decreases`, `C211_line_search`, `C212_current_jacobian_partial`, `C212_false`, `C212_first_assembly`, `C212_matrix_use`, `C213_atomic_false`, `C213_documented_example_false`, `C214_explicit_boundary_false`, `C214_explicit_boundary_partial`, `C215_limited_stages`, `C215_old_value_false`, `C216_scheme_explicit_false`, `C217_error_distribution`, `C217_last_bin`, `C217_monotone`, `C218_block_size`, `C218_container_fits_partial`, `C218_depth`, `C218_entitywise_leaf_false`, `C218_lexicographic_fixed_false`, `C218_nested_false`, `C219_defined`, `C219_limit`, `C219_overrun_false`, `C219_report`, `C219_runs_false`, `C219_stale_false`, `C219_statistics_partial`, `C220_exchange`, `C220_extract`, `C220_gather`, `C220_jacobi`, `C220_product`, `C220_size_partial`, `C221_asked`, `C222_inverts_blocks_partial`, `C222_local_preconditioner_partial`, `C222_local_system_partial`, `C223_forced_iteration`, `C223_never_worse`, `C224_geometry`, `C224_products`, `C224_updates`, `C225_converges`, `C225_linear`, `C225_threshold`, `C226_complex_false`, `C226_conversion`, `C226_eigenpairs_partial`, `C226_nearest_partial`, `C227_attempts`, `C227_tolerance`, `C228_a_stable`, `C228_contraction`, `C228_damping`, `C228_energy`, `C228_limits`, `C229_convex_sets`, `C229_limits`, `C22_alexander3_parameter`, `C22_implicit_flag`, `C22_orders`, `C22_schemes_are_consistent`, `C22_test_equation`, `C230_explicit_steps_partial`, `C230_suggestion_false`, `C231_nonoverlapping_jacobi`, `C231_nonoverlapping_plain`, `C231_overlapping_subdomain`, `C231_overlapping_wrapped`, `C232_dirichlet_only`, `C232_energy`, `C232_linear_solver`, `C232_newton_conforming`, `C232_newton_step`, `C232_residual`, `C232_without_modifications_false`, `C233_acoustics`, `C233_acoustics_boundary`, `C233_acoustics_euler`, `C233_maxwell`, `C233_maxwell_boundary`, `C233_maxwell_euler`, `C233_two_fluids_false`, `C234_implicit_euler`, `C234_stationary`, `C234_unique`, `C235_monotone`, `C235_small_penalty_false`, `C235_stable`, `C235_unique`, `C236_aligned`, `C236_block`, `C236_not_aligned_before_setup`, `C236_scopes`, `C236_text`, `C237_coercive`, `C237_energy`, `C237_newton`, `C237_residual`, `C237_solver`, `C237_weak_form`, `C238_energy`, `C238_reciprocity`, `C238_solver`, `C238_virtual_work`, `C239_mass`, `C239_power`, `C239_residual`, `C239_solver`, `C239_weak_form`, `C23_builtin_schemes`, `C23_residual_is_scheme_formula_false`, `C23_residual_is_scheme_formula_partial`, `C240_least_resistance`, `C240_local_conservation`, `C240_solver`, `C240_weak_form`, `C241_balance`, `C241_contraction`, `C241_contraction_steps`, `C241_contraction_theta`, `C241_residual`, `C241_schemes`, `C241_stage`, `C241_step`, `C241_weak_form`, `C242_assembled`, `C242_balance`, `C242_conservation`, `C242_contraction`, `C242_contraction_steps`, `C242_contraction_theta`, `C242_residual`, `C242_solver`, `C242_step`, `C242_time`, `C243_bounds`, `C243_conservation`, `C243_history`, `C243_residual`, `C243_solver`, `C243_step`, `C243_time`, `C244_bounds`, `C244_euler`, `C244_history`, `C244_matrix`, `C244_schemes`, `C244_step`, `C245_dg_matrix`, `C245_dg_step`, `C245_fem_matrix`, `C245_fem_step`, `C246_dg`, `C246_dirichlet`, `C246_error`, `C246_fem`, `C246_fv`, `C246_linear`, `C246_unique`, `C247_conforming`, `C247_dirichlet`, `C247_error`, `C247_fem`, `C247_linear`, `C247_modification`, `C248_inexact`, `C248_last_step`, `C248_quadratic`, `C249_history`, `C249_stage`, `C249_step`, `C24_all_contributions_false`, `C24_missing_contributions_partial`, `C250_error`, `C250_history`, `C250_jacobian`, `C250_linear`, `C250_step`, `C250_weak_form`, `C251_defect`, `C251_elasticity`, `C251_flow`, `C251_mixed`, `C251_stokes`, `C252_assembled`, `C252_contraction`, `C252_explicit`, `C252_history`, `C252_mass`, `C252_schemes`, `C252_step`, `C253_euler`, `C253_flow`, `C253_linear`, `C253_step`, `C253_stokes`, `C26_cfl_controller_false`, `C26_cfl_controller_partial`, `C27_false`, `C27_line_search_partial`, `C28_newton_partial`, `C28_reduction_false`, `C29_getrusage`, `C29_sub_add`, `C30_decrement`, `C30_iteration`, `C30_product`, `C30_products`, `C32_exchange_partial`, `C32_message_partial`, `C32_mismatch`, `C33_automatic`, `C34_coloring`, `C34_limit`, `C35_graph`, `C35_labels`, `C37_flat_iteration`, `C38_alpha_boundary_false`, `C38_skip_odd`, `C38_sum_partial`, `C39_mixed_false`, `C40_element_fraction`, `C40_error_fraction`, `C41_coarsening_false`, `C41_coarsening_partial`, `C41_mark_grid`, `C41_no_conflict`, `C42_accept`, `C42_accumulated`, `C42_no_increase`, `C43_average`, `C43_exception`, `C43_unchanged`, `C44_cube_partial`, `C44_edge_partial`, `C44_tetrahedron_partial`, `C45_element_mapper`, `C46_fresh_partial`, `C46_update_partial`, `C47_current`, `C47_current_all`, `C47_needsUpdate`, `C47_no_residue`, `C47_update`, `C47_update_all`, `C48_dot_partial`, `C48_local`, `C48_owner_partial`, `C48_partition_partial`, `C48_periodic_false`, `C49_affine`, `C49_difference_quotients`, `C49_skeleton`, `C50_boundary_false`, `C50_boundary_partial`, `C50_skeleton`, `C50_volume`, `C53_block_numbers_below_count_false`, `C53_block_numbers_partial`, `C54_entity_indices_agree_with_mapIndex`, `C55_localVectorSize_partial`, `C57_set_shifted_unconstrained_false`, `C59_index_cache_reflects_constraints`, `C59_no_caching_no_constraints`, `C60_jacobian_is_constraint_transformed`, `C61_backtransform_is_transpose`, `C63_process_faces`, `C64_outside_cells_are_in_entity_set`, `C65_jacobian_matches_residual`, `C66_explicit_parts_false`, `C66_explicit_parts_partial`, `C67_no_leak_partial`, `C68_stages`, `C68_stages_with_boundary`, `C69_step_satisfies_scheme`, `C70_explicit_step_false`, `C70_explicit_step_partial`, `C72_current_jacobian_partial`, `C72_false`, `C72_first_assembly`, `C73_false`, `C73_linear_reduction_partial`, `C74_false`, `C75_false`, `C75_linear_solve_partial`, `C76_print_partial`, `C77_verbosity_false`, `C77_verbosity_partial`, `C78_reproduction_false`, `C78_reproduction_partial`, `C79_leaf_offsets_partial`, `C80_packs`, `C81_isolated`, `C81_minimal`, `C82_boundary_partial`, `C82_hanging`, `C84_boundary_false`, `C84_boundary_partial`, `C84_matrix_free`, `C84_skeleton_false`, `C84_skeleton_linear`, `C84_skeleton_partial`, `C84_volume`, `C85_owners_partial`, `C86_neighbors`, `C86_shared`, `C87_bijection_partial`, `C87_injective_partial`, `C88_entity_sizes_partial`, `C88_indices_below_sizes_partial`, `C89_cache_agrees_with_mapIndex`, `C89_subspace_cache_agrees_with_mapIndex`, `C90_entity_cache_agrees_with_mapIndex`, `C91_fast_index_partial`, `C91_fast_index_systems_partial`, `C92_ccfv_boundary`, `C92_ccfv_skeleton`, `C92_ccfv_temporal`, `C92_ccfv_volume`, `C93_fem_boundary_false`, `C93_fem_boundary_partial`, `C93_fem_volume`, `C94_dg_boundary`, `C94_dg_outflow_on_inflow_is_rejected`, `C94_dg_skeleton`, `C94_dg_volume`, `C95_ccfv_cell_balance`, `C95_ccfv_mass_balance`, `C96_ccfv_preserves_nonnegativity`, `C96_ccfv_step_unique`, `C97_dg_boundary_form`, `C97_dg_skeleton_form`, `C97_dg_volume_form`, `C98_dg_conservative`, `C99_dg_volume_symmetric`, `C99_fem_symmetric`, `C99_sipg_boundary_symmetric`, `C99_sipg_skeleton_symmetric`

