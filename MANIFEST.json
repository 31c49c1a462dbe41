{
 "claims": [
  {
   "property": "C01",
   "status": "proved",
   "theorems": [
    "Verif.C01_columns_are_the_links",
    "Verif.C01_nested_columns_are_the_links"
   ],
   "note": "BCRSPattern and NestedPattern, all estimates and histories"
  },
  {
   "property": "C02",
   "status": "proved",
   "theorems": [
    "Verif.C02_sizes_count_distinct_columns",
    "Verif.C02_overflowCount"
   ],
   "note": ""
  },
  {
   "property": "C03",
   "status": "proved",
   "theorems": [
    "Verif.C03_pattern_entries_have_own_cells",
    "Verif.C03_reads_return_last_writes"
   ],
   "note": ""
  },
  {
   "property": "C04",
   "status": "partial",
   "theorems": [
    "Verif.C04_absent_access_detected_false",
    "Verif.C04_absent_access_detected_partial"
   ],
   "note": "false of the code: the assertion only detects columns beyond the last one of the row; the partial theorem characterises exactly what is detected"
  },
  {
   "property": "C05",
   "status": "proved",
   "theorems": [
    "Verif.C05_csr_products",
    "Verif.C05_dense_products",
    "Verif.C05_csr_agrees_with_dense",
    "Verif.C05_clear_row"
   ],
   "note": ""
  },
  {
   "property": "C06",
   "status": "partial",
   "theorems": [
    "Verif.C06_no_two_dofs_share_an_index_false",
    "Verif.C06_no_two_dofs_share_an_index_partial"
   ],
   "note": "false of the code for unbalanced blocked interleaving, which update() accepts; proved for all trees with balanced interleaving"
  },
  {
   "property": "C07",
   "status": "proved",
   "theorems": [
    "Verif.C07_unblocked_is_a_bijection"
   ],
   "note": "for trees meeting the interleaving divisibility condition (update() does not check it for unblocked interleaving)"
  },
  {
   "property": "C08",
   "status": "partial",
   "theorems": [
    "Verif.C08_accepted_interleavings_are_complete_false",
    "Verif.C08_interleaving_rejected_iff_not_divisible_partial"
   ],
   "note": "the code checks only the total, not each child; exact rejection condition and completeness for balanced children proved"
  },
  {
   "property": "C09",
   "status": "partial",
   "theorems": [
    "Verif.C09_permutation_survives_update_false",
    "Verif.C09_permutation_is_applied_partial"
   ],
   "note": "false of the code: update() overwrites the user's permutation with the identity; proved for permutations assigned after update()"
  },
  {
   "property": "C10",
   "status": "proved",
   "theorems": [
    "Verif.C10_chunks"
   ],
   "note": ""
  },
  {
   "property": "C100",
   "status": "proved",
   "theorems": [
    "Verif.C100_dg_volume_nonneg",
    "Verif.C100_nipg_skeleton_nonneg",
    "Verif.C100_nipg_boundary_nonneg"
   ],
   "note": ""
  },
  {
   "property": "C101",
   "status": "partial",
   "theorems": [
    "Verif.C101_block_diagonal_partial",
    "Verif.C101_post_skeleton_false"
   ],
   "note": "Proved for operators without post-skeleton terms; the wrapper drops those."
  },
  {
   "property": "C102",
   "status": "partial",
   "theorems": [
    "Verif.C102_block_off_diagonal_partial",
    "Verif.C102_splitting_partial",
    "Verif.C102_two_sided_false"
   ],
   "note": "Proved for operators that are called once for each face. False of the code for two-sided operators that contribute to the rows of the inside cell: the wrapper keeps the block with the rows of the outside cell. The matrix-free application is right for both (C103)."
  },
  {
   "property": "C103",
   "status": "proved",
   "theorems": [
    "Verif.C103_matrix_free_application",
    "Verif.C103_block_diagonal_application",
    "Verif.C103_block_off_diagonal_application"
   ],
   "note": "Without post-skeleton terms, as in the code of the wrappers. Unconstrained spaces."
  },
  {
   "property": "C104",
   "status": "partial",
   "theorems": [
    "Verif.C104_point_diagonal_partial",
    "Verif.C104_systems_false"
   ],
   "note": "Proved if no Jacobian couples two components. False of the code for coupled systems: the indices are compared, the spaces are not."
  },
  {
   "property": "C105",
   "status": "partial",
   "theorems": [
    "Verif.C105_local_block_partial",
    "Verif.C105_local_application_partial",
    "Verif.C105_local_point_diagonal_partial",
    "Verif.C105_neighbour_coefficients_false",
    "Verif.C105_periodic_false"
   ],
   "note": "Proved if the diagonal part of the skeleton term does not depend on the neighbour's coefficients and the cell has no periodic boundary; false of the code otherwise."
  },
  {
   "property": "C106",
   "status": "partial",
   "theorems": [
    "Verif.C106_block_jacobi_partial",
    "Verif.C106_systems_false"
   ],
   "note": "Proved for scalar problems, given that Eigen's decomposition is one. False of the code for systems: the accumulation view ignores the spaces."
  },
  {
   "property": "C107",
   "status": "proved",
   "theorems": [
    "Verif.C107_block_sor_sweep",
    "Verif.C107_block_gauss_seidel_partial"
   ],
   "note": "For every solver that inverts the diagonal blocks; the corollary with the block Jacobi preconditioner is limited like C106. Cells of equal size (C108)."
  },
  {
   "property": "C108",
   "status": "partial",
   "theorems": [
    "Verif.C108_block_sizes_partial",
    "Verif.C108_block_sizes_false"
   ],
   "note": "Accesses are in bounds if and only if all cells have equally many degrees of freedom; false of the code otherwise."
  },
  {
   "property": "C109",
   "status": "partial",
   "theorems": [
    "Verif.C109_setup_point_partial",
    "Verif.C109_never_without_setup",
    "Verif.C109_needs_point",
    "Verif.C109_new_point_false"
   ],
   "note": "False of the code for a linearisation point that is set after the first pre(): the blocks are not set up again unless the user calls setRequireSetup(true)."
  },
  {
   "property": "C11",
   "status": "partial",
   "theorems": [
    "Verif.C11_sizes_match_false",
    "Verif.C11_interleaved_sizes_false",
    "Verif.C11_sizes_match_partial",
    "Verif.C11_top_level_size_partial"
   ],
   "note": "false of the code for unblocked lexicographic and for interleaved nodes; proved for blocked lexicographic, chunked and unpermuted nodes"
  },
  {
   "property": "C110",
   "status": "partial",
   "theorems": [
    "Verif.C110_inverse_diagonal_partial",
    "Verif.C110_second_setup_false"
   ],
   "note": "Proved for the first setup. False of the code for later ones: the diagonal is added to the inverses stored before."
  },
  {
   "property": "C111",
   "status": "partial",
   "theorems": [
    "Verif.C111_statistics_partial",
    "Verif.C111_extremes_partial",
    "Verif.C111_fractions_false",
    "Verif.C111_process_without_data_false",
    "Verif.C111_single_false"
   ],
   "note": "Proved for integral values, and for extremes if every process has data. False of the code for fractional values (sums are kept in an int), for processes without data and for a single value."
  },
  {
   "property": "C112",
   "status": "proved",
   "theorems": [
    "Verif.C112_constrained_dofs"
   ],
   "note": "HangingNodesDirichletConstraints are treated elsewhere. RT0Constraints need finite elements with a DOF for each face."
  },
  {
   "property": "C113",
   "status": "proved",
   "theorems": [
    "Verif.C113_dirichlet_faces"
   ],
   "note": "Finite elements whose DOFs on an entity are the same for all elements with that entity."
  },
  {
   "property": "C114",
   "status": "proved",
   "theorems": [
    "Verif.C114_compute_ghosts",
    "Verif.C114_nonoverlapping"
   ],
   "note": ""
  },
  {
   "property": "C115",
   "status": "proved",
   "theorems": [
    "Verif.C115_rt0",
    "Verif.C115_interior_nodes"
   ],
   "note": ""
  },
  {
   "property": "C116",
   "status": "proved",
   "theorems": [
    "Verif.C116_parameters_of_leaves",
    "Verif.C116_functions_as_parameters",
    "Verif.C116_adapters"
   ],
   "note": ""
  },
  {
   "property": "C117",
   "status": "partial",
   "theorems": [
    "Verif.C117_lagrange",
    "Verif.C117_lobatto",
    "Verif.C117_multiindex",
    "Verif.C117_equidistant_partial",
    "Verif.C117_equidistant_false"
   ],
   "note": "The elements are proved correct. False of the code: EquidistantLagrangePolynomials::x returns i/(k+1) instead of i/k."
  },
  {
   "property": "C118",
   "status": "proved",
   "theorems": [
    "Verif.C118_lagrange",
    "Verif.C118_lobatto",
    "Verif.C118_legendre"
   ],
   "note": ""
  },
  {
   "property": "C119",
   "status": "proved",
   "theorems": [
    "Verif.C119_legendre_1d",
    "Verif.C119_legendre_basis",
    "Verif.C119_legendre_interpolation"
   ],
   "note": "The quadrature rule of order 2k is assumed to be exact for Q_2k."
  },
  {
   "property": "C12",
   "status": "partial",
   "theorems": [
    "Verif.C12_entity_ranges_false",
    "Verif.C12_entity_ranges_partial"
   ],
   "note": "false of the code when a fixed size is wrongly detected (sizes differing inside one cell); proved for all other paths"
  },
  {
   "property": "C120",
   "status": "proved",
   "theorems": [
    "Verif.C120_lobatto_points"
   ],
   "note": ""
  },
  {
   "property": "C121",
   "status": "partial",
   "theorems": [
    "Verif.C121_cache_partial",
    "Verif.C121_cache_false",
    "Verif.C121_other_basis_false",
    "Verif.C121_comparison_partial",
    "Verif.C121_comparison_false"
   ],
   "note": "Proved up to the tolerance of 1e-5, and exactly for positions further apart, if the same basis is passed each time. False of the code otherwise. The comparison used by the maps is an order only on separated positions."
  },
  {
   "property": "C122",
   "status": "proved",
   "theorems": [
    "Verif.C122_multiindex",
    "Verif.C122_size_exact"
   ],
   "note": ""
  },
  {
   "property": "C123",
   "status": "proved",
   "theorems": [
    "Verif.C123_monomials",
    "Verif.C123_binomial"
   ],
   "note": "Exact arithmetic."
  },
  {
   "property": "C124",
   "status": "proved",
   "theorems": [
    "Verif.C124_orthonormal"
   ],
   "note": "Exact arithmetic with exact square roots. The constructor that starts from another basis (template LFE) is not modelled."
  },
  {
   "property": "C125",
   "status": "proved",
   "theorems": [
    "Verif.C125_jacobian"
   ],
   "note": ""
  },
  {
   "property": "C126",
   "status": "partial",
   "theorems": [
    "Verif.C126_order_partial",
    "Verif.C126_order_false"
   ],
   "note": "Proved for P_k. False of the code for Q_k: the first (l+1)^d functions are not those of Q_l."
  },
  {
   "property": "C127",
   "status": "proved",
   "theorems": [
    "Verif.C127_interpolation"
   ],
   "note": "The quadrature rule of order 2k is assumed to be exact for the products of two functions of the space."
  },
  {
   "property": "C128",
   "status": "proved",
   "theorems": [
    "Verif.C128_vertex_order",
    "Verif.C128_neighbours"
   ],
   "note": ""
  },
  {
   "property": "C129",
   "status": "partial",
   "theorems": [
    "Verif.C129_variants",
    "Verif.C129_orientation_partial",
    "Verif.C129_nonconforming_false",
    "Verif.C129_processes_false"
   ],
   "note": "Proved for faces with one neighbour on each side, on one process. False of the code on nonconforming faces, and across processes, which number their cells independently."
  },
  {
   "property": "C13",
   "status": "proved",
   "theorems": [
    "Verif.C13_local_indices",
    "Verif.C13_dof_indices"
   ],
   "note": "sizes and local indices in both modes; DOF indices in the standard mode (the fast mode stores only the first one by design)"
  },
  {
   "property": "C130",
   "status": "partial",
   "theorems": [
    "Verif.C130_edges_partial",
    "Verif.C130_hexahedra_false"
   ],
   "note": "Proved for reference elements with up to 8 edges. False of the code for hexahedra: the 12 orientations do not fit into the unsigned char that stores them."
  },
  {
   "property": "C131",
   "status": "partial",
   "theorems": [
    "Verif.C131_simplices",
    "Verif.C131_cubes",
    "Verif.C131_discontinuous",
    "Verif.C131_flux",
    "Verif.C131_power",
    "Verif.C131_rannacher_turek_partial",
    "Verif.C131_rannacher_turek_false",
    "Verif.C131_pkqk_bound_partial",
    "Verif.C131_pkqk_bound_false",
    "Verif.C131_pkqk_codims",
    "Verif.C131_pkqk_elements"
   ],
   "note": "Proved for all maps but two. False of the code for the Rannacher-Turek map in 3d (degrees of freedom on edges instead of faces) and for maxLocalSize of the PkQk map with order 2 and more."
  },
  {
   "property": "C132",
   "status": "proved",
   "theorems": [
    "Verif.C132_block_size"
   ],
   "note": ""
  },
  {
   "property": "C133",
   "status": "proved",
   "theorems": [
    "Verif.C133_variable_order",
    "Verif.C133_rejected",
    "Verif.C133_bound"
   ],
   "note": "Orders below 256, which is what the vector of unsigned char can store."
  },
  {
   "property": "C134",
   "status": "partial",
   "theorems": [
    "Verif.C134_variant_partial",
    "Verif.C134_reference_partial",
    "Verif.C134_reference_false"
   ],
   "note": "The element returned is right. False of the code: a reference returned before dangles after find of a cell with 20 or more intersections."
  },
  {
   "property": "C135",
   "status": "partial",
   "theorems": [
    "Verif.C135_geometry_type_partial",
    "Verif.C135_geometry_type_false",
    "Verif.C135_basic_type",
    "Verif.C135_kinds"
   ],
   "note": "False of the code for the basic type none, and for pyramids and prisms of dimension below 2."
  },
  {
   "property": "C136",
   "status": "partial",
   "theorems": [
    "Verif.C136_apply",
    "Verif.C136_applyscaleadd_partial",
    "Verif.C136_applyscaleadd_false"
   ],
   "note": "apply is proved. applyscaleadd adds up the second vector at the border, so that it is right for vectors given by summands and wrong for consistent ones."
  },
  {
   "property": "C137",
   "status": "proved",
   "theorems": [
    "Verif.C137_apply",
    "Verif.C137_applyscaleadd"
   ],
   "note": "The local matrices are assumed to be assembled from element matrices, with all elements at the unconstrained degrees of freedom."
  },
  {
   "property": "C138",
   "status": "proved",
   "theorems": [
    "Verif.C138_wrapped",
    "Verif.C138_subdomain",
    "Verif.C138_symmetric",
    "Verif.C138_positive"
   ],
   "note": "Local preconditioners are parameters."
  },
  {
   "property": "C139",
   "status": "proved",
   "theorems": [
    "Verif.C139_owner"
   ],
   "note": "The subdomain solver is a parameter."
  },
  {
   "property": "C14",
   "status": "proved",
   "theorems": [
    "Verif.C14_push_pop",
    "Verif.C14_access",
    "Verif.C14_accumulate",
    "Verif.C14_join_reverse_eq",
    "Verif.C14_views"
   ],
   "note": "capacity overflow is detected by the assertions (of ReservedVector and of join)"
  },
  {
   "property": "C140",
   "status": "proved",
   "theorems": [
    "Verif.C140_setup",
    "Verif.C140_consistent",
    "Verif.C140_additive"
   ],
   "note": "Inversion of blocks is a parameter."
  },
  {
   "property": "C141",
   "status": "proved",
   "theorems": [
    "Verif.C141_dot",
    "Verif.C141_norm"
   ],
   "note": "Squares of norms, exact arithmetic."
  },
  {
   "property": "C142",
   "status": "partial",
   "theorems": [
    "Verif.C142_ovlp",
    "Verif.C142_novlp_partial",
    "Verif.C142_novlp_false"
   ],
   "note": "Proved for the overlapping backend, and for the nonoverlapping one at degrees of freedom of one process. False of the nonoverlapping backend at border degrees of freedom: it adds up quotients."
  },
  {
   "property": "C143",
   "status": "proved",
   "theorems": [
    "Verif.C143_standard",
    "Verif.C143_standard_sum",
    "Verif.C143_sarkis_sum",
    "Verif.C143_sarkis_distance",
    "Verif.C143_sarkis_cover"
   ],
   "note": "Exact arithmetic."
  },
  {
   "property": "C144",
   "status": "partial",
   "theorems": [
    "Verif.C144_cache_partial",
    "Verif.C144_update_false"
   ],
   "note": "Proved for new caches. False for updates of an existing cache: the map from ids to indices is not cleared."
  },
  {
   "property": "C145",
   "status": "partial",
   "theorems": [
    "Verif.C145_size",
    "Verif.C145_pattern_partial",
    "Verif.C145_cells_false"
   ],
   "note": "Proved for spaces without degrees of freedom in cells. For spaces with degrees of freedom in cells the flags of cells are accessed out of range."
  },
  {
   "property": "C146",
   "status": "partial",
   "theorems": [
    "Verif.C146_entries_partial",
    "Verif.C146_consistent_partial",
    "Verif.C146_onestep_partial",
    "Verif.C146_repeat_false",
    "Verif.C146_spaces_false",
    "Verif.C146_onestep_false",
    "Verif.C146_onestep_links_false"
   ],
   "note": "Proved for one call and equal orderings of test and trial space. False if a matrix is made consistent twice, if the orderings differ (swapped arguments), and for one step operators whose operators have different links on the border."
  },
  {
   "property": "C147",
   "status": "proved",
   "theorems": [
    "Verif.C147_index_set",
    "Verif.C147_owner"
   ],
   "note": "Blocks whose entries all belong to one entity, as assumed by the code; grids that store an entity at most once per process; the remote indices are built by dune-common. The matrix argument is not touched, contrary to the documentation."
  },
  {
   "property": "C148",
   "status": "partial",
   "theorems": [
    "Verif.C148_entries",
    "Verif.C148_neighbours_partial",
    "Verif.C148_setup_false"
   ],
   "note": "Proved for complete lists of neighbours; those of the parallel helper are complete if processes with common entities own DOFs of each other. Else the set-up throws, e.g. for one cell per process with one cell of overlap. Basis vectors vanish at constrained DOFs (C150_vanishing with C143)."
  },
  {
   "property": "C149",
   "status": "proved",
   "theorems": [
    "Verif.C149_restrict",
    "Verif.C149_apply",
    "Verif.C149_galerkin",
    "Verif.C149_symmetric",
    "Verif.C149_positive"
   ],
   "note": "Direct solvers are parameters."
  },
  {
   "property": "C15",
   "status": "proved",
   "theorems": [
    "Verif.C15_contributions",
    "Verif.C15_order_independent",
    "Verif.C15_cell_order"
   ],
   "note": "coefficients contributed twice with different values keep the last one; the theorem says each is one of the contributed values"
  },
  {
   "property": "C150",
   "status": "partial",
   "theorems": [
    "Verif.C150_count",
    "Verif.C150_fixed",
    "Verif.C150_throws",
    "Verif.C150_basis",
    "Verif.C150_vanishing",
    "Verif.C150_form",
    "Verif.C150_unity_partial",
    "Verif.C150_unity_lost",
    "Verif.C150_norm",
    "Verif.C150_unity_false",
    "Verif.C150_norm_false"
   ],
   "note": "The eigenvalue solver is a parameter. False: basis vectors are divided by the square of their norm, so they are not normalised; the partition of unity is lost if no eigenvalue is below the threshold. The argument nev, documented to return the number of eigenvectors, is never written."
  },
  {
   "property": "C151",
   "status": "partial",
   "theorems": [
    "Verif.C151_evaluated",
    "Verif.C151_covered_partial",
    "Verif.C151_gap_false"
   ],
   "note": "An element is evaluated exactly if each of its DOFs is on several processes. False as documented: elements on one process only can be evaluated if their DOFs are shared with different neighbours. pattern_volume_post_skeleton calls pattern_volume of the base operator; lambda_boundary and lambda_skeleton are not forwarded although their flags are."
  },
  {
   "property": "C152",
   "status": "proved",
   "theorems": [
    "Verif.C152_value",
    "Verif.C152_calls",
    "Verif.C152_undefined",
    "Verif.C152_gradient",
    "Verif.C152_vector",
    "Verif.C152_remap",
    "Verif.C152_vectorGradient",
    "Verif.C152_local"
   ],
   "note": "Real arithmetic; the local bases are parameters that return the derivatives of the shape functions. If the space grows after the function has been created (adaptation without a new function), the buffers are too small: C152_undefined."
  },
  {
   "property": "C153",
   "status": "partial",
   "theorems": [
    "Verif.C153_divergence",
    "Verif.C153_curl3",
    "Verif.C153_curl2",
    "Verif.C153_globalCurl_partial",
    "Verif.C153_globalCurl_false",
    "Verif.C153_jacobianToCurl",
    "Verif.C153_crossProduct"
   ],
   "note": "False of DiscreteGridFunctionGlobalCurl in two dimensions: the cases are chosen with the number of components of the curl, so nonexistent entries are accessed. DiscreteGridFunctionCurl cannot be instantiated and is not modelled."
  },
  {
   "property": "C154",
   "status": "partial",
   "theorems": [
    "Verif.C154_hessian_partial",
    "Verif.C154_hessian_false"
   ],
   "note": "False: in two and more dimensions the evaluation ends in a failed assertion or outside a container, in one dimension the result is always zero. Elements that are not affine: exception."
  },
  {
   "property": "C155",
   "status": "partial",
   "theorems": [
    "Verif.C155_forward",
    "Verif.C155_evaluate",
    "Verif.C155_flux",
    "Verif.C155_divergence",
    "Verif.C155_backward_partial",
    "Verif.C155_backward_false",
    "Verif.C155_normalFlux_partial",
    "Verif.C155_normalFlux_false",
    "Verif.C155_normalFlux_throws"
   ],
   "note": "Proved for positively oriented elements. False for negatively oriented ones: PiolaBackwardAdapter uses the absolute value of the determinant, and the normal of NormalFluxGridFunctionAdapter points inwards."
  },
  {
   "property": "C156",
   "status": "partial",
   "theorems": [
    "Verif.C156_value",
    "Verif.C156_untouched",
    "Verif.C156_last",
    "Verif.C156_defined",
    "Verif.C156_roundtrip",
    "Verif.C156_false"
   ],
   "note": "False for a scalar or vector-valued function and a composed space with a leaf that has no finite element on an element: the check exists only where a leaf function meets a leaf space (C156_false). The interpolations of the finite elements are parameters."
  },
  {
   "property": "C157",
   "status": "partial",
   "theorems": [
    "Verif.C157_read",
    "Verif.C157_readChild",
    "Verif.C157_readSub",
    "Verif.C157_write",
    "Verif.C157_writeChild",
    "Verif.C157_writeSub",
    "Verif.C157_add",
    "Verif.C157_addChild",
    "Verif.C157_addSub",
    "Verif.C157_roundtrip",
    "Verif.C157_readMatrix",
    "Verif.C157_writeMatrix",
    "Verif.C157_addMatrix",
    "Verif.C157_aliasedGet",
    "Verif.C157_aliasedAccumulate",
    "Verif.C157_aliasedMatrix",
    "Verif.C157_raw_partial",
    "Verif.C157_raw_false"
   ],
   "note": "False of rawAccumulate of the aliased view of a vector: it applies the weight (C157_raw_false), so that values that are weighted already get its square."
  },
  {
   "property": "C158",
   "status": "proved",
   "theorems": [
    "Verif.C158_value",
    "Verif.C158_singular",
    "Verif.C158_setTime",
    "Verif.C158_time",
    "Verif.C158_independent",
    "Verif.C158_shared",
    "Verif.C158_select",
    "Verif.C158_consecutive"
   ],
   "note": "Exact arithmetic; division by zero is the outcome none. Since the adapters hold references, expressions with a common operand do not have independent times (C158_shared)."
  },
  {
   "property": "C159",
   "status": "proved",
   "theorems": [
    "Verif.C159_integrate",
    "Verif.C159_exact"
   ],
   "note": "Exact arithmetic; that each element is interior on one process is a property of the grid."
  },
  {
   "property": "C16",
   "status": "proved",
   "theorems": [
    "Verif.C16_set_and_copy",
    "Verif.C16_copy_both",
    "Verif.C16_check",
    "Verif.C16_unconstrained"
   ],
   "note": ""
  },
  {
   "property": "C160",
   "status": "proved",
   "theorems": [
    "Verif.C160_probe",
    "Verif.C160_global"
   ],
   "note": "The hierarchic search of dune-grid is a parameter; min and broadcast follow MPI."
  },
  {
   "property": "C161",
   "status": "proved",
   "theorems": [
    "Verif.C161_acousticEigenvectors",
    "Verif.C161_maxwellEigenvectors",
    "Verif.C161_acousticUpwind",
    "Verif.C161_maxwellUpwind",
    "Verif.C161_acousticEnergy",
    "Verif.C161_maxwellEnergy"
   ],
   "note": "Exact arithmetic; FieldMatrix::solve, invert and sqrt are parameters. MaxwellEigenvectors::eigenvalues writes to a const reference and cannot be instantiated; it is not modelled."
  },
  {
   "property": "C162",
   "status": "partial",
   "theorems": [
    "Verif.C162_acousticInterface_partial",
    "Verif.C162_maxwellInterface_partial",
    "Verif.C162_acousticInterface_false",
    "Verif.C162_maxwellInterface_false"
   ],
   "note": "True for equal materials. False for all different speeds of sound and for all media with different admittance."
  },
  {
   "property": "C163",
   "status": "proved",
   "theorems": [
    "Verif.C163_acousticVolume",
    "Verif.C163_acousticFaces",
    "Verif.C163_acousticSource",
    "Verif.C163_maxwellVolume",
    "Verif.C163_maxwellFaces",
    "Verif.C163_maxwellSource",
    "Verif.C163_acousticConservative",
    "Verif.C163_maxwellConservative",
    "Verif.C163_order"
   ],
   "note": "Exact arithmetic; the limit 20 is the size of the cache."
  },
  {
   "property": "C164",
   "status": "proved",
   "theorems": [
    "Verif.C164_mass"
   ],
   "note": "Exact arithmetic."
  },
  {
   "property": "C165",
   "status": "partial",
   "theorems": [
    "Verif.C165_time_partial",
    "Verif.C165_time_false"
   ],
   "note": "False of the operators for acoustics and Maxwell's equations: setTime does nothing. getTime of the CCFV, FEM and nonlinear FEM operators is not updated."
  },
  {
   "property": "C166",
   "status": "proved",
   "theorems": [
    "Verif.C166_weak_form",
    "Verif.C166_jacobian",
    "Verif.C166_energy",
    "Verif.C166_rigid_motions"
   ],
   "note": "Exact arithmetic; homogeneous Neumann conditions as documented."
  },
  {
   "property": "C167",
   "status": "proved",
   "theorems": [
    "Verif.C167_orders",
    "Verif.C167_weak_form",
    "Verif.C167_jacobian",
    "Verif.C167_stokes",
    "Verif.C167_dissipation"
   ],
   "note": "Exact arithmetic."
  },
  {
   "property": "C168",
   "status": "partial",
   "theorems": [
    "Verif.C168_weak_form_partial",
    "Verif.C168_sources",
    "Verif.C168_symmetric",
    "Verif.C168_reaction_false"
   ],
   "note": "True for cells of unit volume factor or without reaction. False otherwise: the reaction term is integrated without the integration element (diffusionmixed.hh:164-166)."
  },
  {
   "property": "C169",
   "status": "proved",
   "theorems": [
    "Verif.C169_mass",
    "Verif.C169_mass_energy",
    "Verif.C169_velocity_mass",
    "Verif.C169_functional",
    "Verif.C169_electrodynamics",
    "Verif.C169_electrodynamics_energy"
   ],
   "note": "Exact arithmetic."
  },
  {
   "property": "C17",
   "status": "proved",
   "theorems": [
    "Verif.C17_constrain_residual",
    "Verif.C17_order_independent",
    "Verif.C17_order_matters_with_chains"
   ],
   "note": ""
  },
  {
   "property": "C170",
   "status": "partial",
   "theorems": [
    "Verif.C170_history",
    "Verif.C170_normal_component",
    "Verif.C170_conservative",
    "Verif.C170_flux_partial",
    "Verif.C170_outflow_false",
    "Verif.C170_exchange",
    "Verif.C170_fem"
   ],
   "note": "The shape functions of Raviart and Thomas enter by their normal components. False at outflow boundaries with a prescribed flux, where the velocity is zero (darcyccfv.hh:206-228)."
  },
  {
   "property": "C171",
   "status": "partial",
   "theorems": [
    "Verif.C171_weak_form_partial",
    "Verif.C171_identity",
    "Verif.C171_coefficients_false"
   ],
   "note": "True for w(u) = u and for coefficients that do not depend on u. Otherwise false: q, v, f and j are evaluated at the interpolation of w(u) instead of u (nonlinearconvectiondiffusionfem.hh:287-289, 371-373)."
  },
  {
   "property": "C172",
   "status": "partial",
   "theorems": [
    "Verif.C172_skeleton",
    "Verif.C172_orientation",
    "Verif.C172_direction",
    "Verif.C172_boundary_partial",
    "Verif.C172_boundaryScaling_false",
    "Verif.C172_storage",
    "Verif.C172_conservation",
    "Verif.C172_interface_partial",
    "Verif.C172_interface_false"
   ],
   "note": "False: the gas flux at Dirichlet boundaries is scaled with the factor of the liquid (twophaseccfv.hh:469), and the interface returns the viscosity of the liquid for the gas (twophaseccfv.hh:126)."
  },
  {
   "property": "C173",
   "status": "partial",
   "theorems": [
    "Verif.C173_velocities_partial",
    "Verif.C173_velocities_false",
    "Verif.C173_normal_component"
   ],
   "note": "False for liquids whose molar density depends on the pressure (evaluated at the gas pressure of the neighbour) and for gas densities that differ between cells (evaluated in the inside cell). The code dereferences entities and needs an old dune-grid."
  },
  {
   "property": "C174",
   "status": "partial",
   "theorems": [
    "Verif.C174_diameter",
    "Verif.C174_femVolume_partial",
    "Verif.C174_femVolume_false",
    "Verif.C174_femFace",
    "Verif.C174_femBoundary",
    "Verif.C174_femNonneg_partial",
    "Verif.C174_femOrientation",
    "Verif.C174_femVanishes",
    "Verif.C174_dgVolume",
    "Verif.C174_dgVolume_false",
    "Verif.C174_dgFace",
    "Verif.C174_dgBoundary",
    "Verif.C174_dgDefinite",
    "Verif.C174_dgOrientation"
   ],
   "note": "For symmetric tensors and flat faces. False for conforming elements with a reaction term: f\u00b2-c\u00b2u\u00b2 is integrated instead of (f-cu)\u00b2, which may be negative (convectiondiffusionfem.hh:423). False for discontinuous elements of order zero: division by the order (errorindicatordg.hh:158)."
  },
  {
   "property": "C175",
   "status": "partial",
   "theorems": [
    "Verif.C175_simpson",
    "Verif.C175_volume1",
    "Verif.C175_volume1_linear",
    "Verif.C175_volume",
    "Verif.C175_boundary",
    "Verif.C175_nonneg",
    "Verif.C175_stationary",
    "Verif.C175_history",
    "Verif.C175_paramTime_false"
   ],
   "note": "False: the parameters are left at the end of the time step (convectiondiffusionfem.hh:748, 886, 1004)."
  },
  {
   "property": "C176",
   "status": "partial",
   "theorems": [
    "Verif.C176_orders",
    "Verif.C176_cell",
    "Verif.C176_face",
    "Verif.C176_boundary",
    "Verif.C176_jacobian",
    "Verif.C176_symmetric",
    "Verif.C176_orientation",
    "Verif.C176_conservative",
    "Verif.C176_consistent",
    "Verif.C176_dissipation",
    "Verif.C176_continuity_partial",
    "Verif.C176_continuity_false"
   ],
   "note": "False for sources g\u2082 of the continuity equation and steps other than 1: div u is scaled by 1/dt (dgnavierstokes.hh:217), g\u2082 is not (dgnavierstokes.hh:1221). Independent of the orientation if both elements have the same order."
  },
  {
   "property": "C177",
   "status": "partial",
   "theorems": [
    "Verif.C177_weak_form_partial",
    "Verif.C177_jacobian",
    "Verif.C177_symmetric",
    "Verif.C177_agree",
    "Verif.C177_full_tensor_false",
    "Verif.C177_continuity_false",
    "Verif.C177_slip_false"
   ],
   "note": "The operators agree if the stress is \u03bc\u2207u, g\u2082 = 0 and there is no slip boundary. Otherwise false: the flag for the full stress tensor, g\u2082 and slip boundaries are ignored (dgnavierstokesvelvecfem.hh:160-278, 796-937, 1064-1115)."
  },
  {
   "property": "C178",
   "status": "proved",
   "theorems": [
    "Verif.C178_penalty",
    "Verif.C178_overpenalty",
    "Verif.C178_clock"
   ],
   "note": "Exact arithmetic; the power is a parameter."
  },
  {
   "property": "C179",
   "status": "proved",
   "theorems": [
    "Verif.C179_apply",
    "Verif.C179_error",
    "Verif.C179_symmetric",
    "Verif.C179_defect",
    "Verif.C179_subspace",
    "Verif.C179_positive"
   ],
   "note": "Exact arithmetic; smoother and multigrid cycle are linear parameters."
  },
  {
   "property": "C18",
   "status": "proved",
   "theorems": [
    "Verif.C18_scatter_stays_in_pattern"
   ],
   "note": ""
  },
  {
   "property": "C180",
   "status": "proved",
   "theorems": [
    "Verif.C180_rows",
    "Verif.C180_embedding",
    "Verif.C180_galerkin"
   ],
   "note": "Exact arithmetic; interpolation is a parameter."
  },
  {
   "property": "C181",
   "status": "partial",
   "theorems": [
    "Verif.C181_sequential_partial",
    "Verif.C181_sequential_defined",
    "Verif.C181_sequential_false",
    "Verif.C181_destroyed_false",
    "Verif.C181_parallel_partial",
    "Verif.C181_parallel_false",
    "Verif.C181_settings_partial",
    "Verif.C181_relaxation_false",
    "Verif.C181_matrix_false",
    "Verif.C181_matrix_partial",
    "Verif.C181_on_the_fly"
   ],
   "note": "True without reuse or with the same matrix object. False: with reuse the sequential backend solves with the matrix object of the first call (seqistlsolverbackend.hh:806-817); the parallel ones use local variables of the first call (ovlpistlsolverbackend.hh:1205); the relaxation factor of the sequential backend for discontinuous spaces is stored in an int (seq_amg_dg_backend.hh:194); the parallel one leaves trivial rows in the matrix of the caller (ovlp_amg_dg_backend.hh:728)."
  },
  {
   "property": "C182",
   "status": "proved",
   "theorems": [
    "Verif.C182_parallel"
   ],
   "note": "Exact arithmetic; the multigrid cycle is assumed to return consistent vectors."
  },
  {
   "property": "C183",
   "status": "partial",
   "theorems": [
    "Verif.C183_values_partial",
    "Verif.C183_schedule",
    "Verif.C183_size",
    "Verif.C183_shared_ids_false",
    "Verif.C183_overlap_false"
   ],
   "note": "True for interior and border entities if ids are not shared with entities outside the entity set. False: an entity of a coarser level that has the id of a leaf entity and arrives first leaves an empty entry, so an assertion fails; values of degrees of freedom in the overlap are lost."
  },
  {
   "property": "C184",
   "status": "partial",
   "theorems": [
    "Verif.C184_vector",
    "Verif.C184_vector_length",
    "Verif.C184_vector_all",
    "Verif.C184_matrix_partial",
    "Verif.C184_matrix_length",
    "Verif.C184_size_one_false"
   ],
   "note": "True for vectors, and for matrices without indices for blocks of size 1. False: in a power space with one component and fixed blocking the multi-indices have an index for the blocks, which vectors accept, but the assertions for matrices reject."
  },
  {
   "property": "C185",
   "status": "proved",
   "theorems": [
    "Verif.C185_clear_row",
    "Verif.C185_clear_row_block",
    "Verif.C185_not_square"
   ],
   "note": "Square blocks, as for one space for trial and test functions."
  },
  {
   "property": "C186",
   "status": "proved",
   "theorems": [
    "Verif.C186_pattern"
   ],
   "note": ""
  },
  {
   "property": "C187",
   "status": "partial",
   "theorems": [
    "Verif.C187_values_partial",
    "Verif.C187_values_unchanged",
    "Verif.C187_default_components",
    "Verif.C187_range",
    "Verif.C187_one_cell_false"
   ],
   "note": "True if the first evaluation after a change takes place on another cell than the last one before. False: the coefficients of the last cell are kept, so on a grid (or process) with one cell all files show the values of the first one (vtk.hh:117-129)."
  },
  {
   "property": "C188",
   "status": "proved",
   "theorems": [
    "Verif.C188_registered"
   ],
   "note": ""
  },
  {
   "property": "C189",
   "status": "proved",
   "theorems": [
    "Verif.C189_refused",
    "Verif.C189_named",
    "Verif.C189_unnamed_distinct",
    "Verif.C189_no_separator_false",
    "Verif.C189_vector_name"
   ],
   "note": "C189_no_separator_false shows that the condition on the separator is needed."
  },
  {
   "property": "C19",
   "status": "partial",
   "theorems": [
    "Verif.C19_constrained_rows_false",
    "Verif.C19_constrained_rows_partial",
    "Verif.C19_other_rows_untouched"
   ],
   "note": "false of the code if no local pattern links the constrained DOF with itself (clear_row then finds no diagonal entry); proved otherwise"
  },
  {
   "property": "C190",
   "status": "partial",
   "theorems": [
    "Verif.C190_forced_update_partial",
    "Verif.C190_unchanged",
    "Verif.C190_copy_false",
    "Verif.C190_mixed_grids_false"
   ],
   "note": "True if spaces are copied only before they are used and updates are forced. False: a copy of an updated space shares the ordering, which writes its sizes to the original only; spaces made after a change of the grid, with an entity set used before, mix the sizes of old and new grid unless update(true) is called."
  },
  {
   "property": "C191",
   "status": "partial",
   "theorems": [
    "Verif.C191_use",
    "Verif.C191_compose",
    "Verif.C191_for_ever",
    "Verif.C191_initialized",
    "Verif.C191_rejected_false"
   ],
   "note": "False: a constructor which throws because of a later child has already cleared the root flag of the earlier children, which cannot be used any more (gridfunctionspacebase.hh:33-41)."
  },
  {
   "property": "C192",
   "status": "proved",
   "theorems": [
    "Verif.C192_values",
    "Verif.C192_result",
    "Verif.C192_frame",
    "Verif.C192_attach"
   ],
   "note": ""
  },
  {
   "property": "C193",
   "status": "partial",
   "theorems": [
    "Verif.C193_dense_partial",
    "Verif.C193_assign_false",
    "Verif.C193_attach_false",
    "Verif.C193_statistics",
    "Verif.C193_statistics_false",
    "Verif.C193_default_constructed"
   ],
   "note": "Simple backend: assignment does not change the sizes of a matrix which has some, not even after detach(), so that entries are misplaced; attach() never sets sizes (simple/matrix.hh:83-111). ISTL: a copy loses the statistics, attach() keeps those of the former container (bcrsmatrix.hh:117-135, 175-178)."
  },
  {
   "property": "C194",
   "status": "partial",
   "theorems": [
    "Verif.C194_mesh",
    "Verif.C194_nodes",
    "Verif.C194_patches",
    "Verif.C194_single",
    "Verif.C194_failure",
    "Verif.C194_colored",
    "Verif.C194_given_partial",
    "Verif.C194_automatic_false",
    "Verif.C194_adjacent_partial",
    "Verif.C194_adjacent_1d_false"
   ],
   "note": "False: the partition without colors keeps an automatically chosen number of patches when the grid changes; the number of common nodes is always two, so that in one dimension no two elements are neighbours."
  },
  {
   "property": "C195",
   "status": "partial",
   "theorems": [
    "Verif.C195_result",
    "Verif.C195_calls",
    "Verif.C195_pattern_partial",
    "Verif.C195_pattern_false",
    "Verif.C195_backend",
    "Verif.C195_instationary",
    "Verif.C195_setFactor",
    "Verif.C195_flags",
    "Verif.C195_grid_operator_false"
   ],
   "note": "False: with factor zero the pattern is empty, and a factor set later lets the Jacobian write outside of it; the flags doSkipEntity, doSkipIntersection and isLinear are missing, so that a grid operator for a scaled operator does not compile."
  },
  {
   "property": "C196",
   "status": "partial",
   "theorems": [
    "Verif.C196_history",
    "Verif.C196_setTime",
    "Verif.C196_frame",
    "Verif.C196_references",
    "Verif.C196_clones_partial",
    "Verif.C196_clones_false"
   ],
   "note": "False: PowerGridFunction(t) does not make independent clones if t is a composite function (clones share the leaves), or an adapter with a parameter object (function.hh:400-402)."
  },
  {
   "property": "C197",
   "status": "proved",
   "theorems": [
    "Verif.C197_bound",
    "Verif.C197_unbound"
   ],
   "note": ""
  },
  {
   "property": "C198",
   "status": "proved",
   "theorems": [
    "Verif.C198_function_roundtrip",
    "Verif.C198_gridfunction_roundtrip",
    "Verif.C198_coordinates",
    "Verif.C198_select",
    "Verif.C198_pointwise",
    "Verif.C198_engines",
    "Verif.C198_boundary",
    "Verif.C198_bindTime",
    "Verif.C198_vtk_names"
   ],
   "note": "The search for the element containing a point is a parameter."
  },
  {
   "property": "C199",
   "status": "partial",
   "theorems": [
    "Verif.C199_overlapping",
    "Verif.C199_other_categories_partial",
    "Verif.C199_nonoverlapping_false"
   ],
   "note": "False for nonoverlapping spaces: their make_consistent does nothing, and a process can have a vertex of the Dirichlet boundary without a face there (pdelab.hh:570-571)."
  },
  {
   "property": "C20",
   "status": "proved",
   "theorems": [
    "Verif.C20_volume_once_per_cell",
    "Verif.C20_interior_faces",
    "Verif.C20_visited_from_larger_side",
    "Verif.C20_boundary_faces",
    "Verif.C20_self_neighbour_never_visited"
   ],
   "note": "faces between different cells; a cell that is its own periodic neighbour is never visited in one-sided mode (last theorem)"
  },
  {
   "property": "C200",
   "status": "proved",
   "theorems": [
    "Verif.C200_yasp",
    "Verif.C200_structured",
    "Verif.C200_corner"
   ],
   "note": "The conversion of the numbers of cells to int is not modelled."
  },
  {
   "property": "C201",
   "status": "partial",
   "theorems": [
    "Verif.C201_update",
    "Verif.C201_container_index_partial",
    "Verif.C201_container_index_false",
    "Verif.C201_entity_indices"
   ],
   "note": "False if two elements number the DOFs of a common entity differently: the ordering keeps the numbering of the element visited last."
  },
  {
   "property": "C202",
   "status": "partial",
   "theorems": [
    "Verif.C202_contains",
    "Verif.C202_fixedSize_partial",
    "Verif.C202_fixedSize_false"
   ],
   "note": "False for codimensions with several geometry types: numbers of DOFs are compared within one type only."
  },
  {
   "property": "C203",
   "status": "partial",
   "theorems": [
    "Verif.C203_find_partial",
    "Verif.C203_find_false"
   ],
   "note": "True if the finite elements depend on the geometry type only, as the documentation of the map assumes; false otherwise."
  },
  {
   "property": "C204",
   "status": "partial",
   "theorems": [
    "Verif.C204_constrained_partial",
    "Verif.C204_constrained_false"
   ],
   "note": "False: update() does nothing, no DOF is ever reported as constrained."
  },
  {
   "property": "C205",
   "status": "partial",
   "theorems": [
    "Verif.C205_fast_result_partial",
    "Verif.C205_default_result",
    "Verif.C205_fast_equals_default_partial",
    "Verif.C205_raw_accumulate_false",
    "Verif.C205_aliased_false"
   ],
   "note": "True if the weight is one or rawAccumulate is not used, and the result vector is not one of the arguments. False otherwise: the aliased view applies the weight also in rawAccumulate (aliasedvectorview.hh:168-178), and FastDG reads coefficients while it writes."
  },
  {
   "property": "C206",
   "status": "partial",
   "theorems": [
    "Verif.C206_fast_jacobian",
    "Verif.C206_default_jacobian",
    "Verif.C206_fast_equals_default_partial",
    "Verif.C206_partial_blocks_false",
    "Verif.C206_pattern_without_neighbours_false"
   ],
   "note": "True if blocks are constrained entirely or not at all and the pattern has the blocks of all neighbours. False otherwise: FastDG clears whole block rows, and needs blocks for pairs of neighbours which are not coupled."
  },
  {
   "property": "C207",
   "status": "partial",
   "theorems": [
    "Verif.C207_same_pattern_partial",
    "Verif.C207_pattern_covers_jacobian_partial",
    "Verif.C207_sparse_pattern_false"
   ],
   "note": "True for local patterns beginning with the first pair of functions (as the full patterns). False otherwise: FastDG uses the first link with an index cache filled for local index 0 only (lfsindexcache.hh:306-310)."
  },
  {
   "property": "C208",
   "status": "partial",
   "theorems": [
    "Verif.C208_fast_interpolate_partial",
    "Verif.C208_default_interpolate",
    "Verif.C208_same_vector_false"
   ],
   "note": "FastDG: false if old and new vector are the same object (fastdg.hh:184-193); the default grid operator saves the old vector first."
  },
  {
   "property": "C209",
   "status": "partial",
   "theorems": [
    "Verif.C209_newton_partial",
    "Verif.C209_uninitialised_false",
    "Verif.C209_flags_differ_false",
    "Verif.C209_stale_first_defect_false"
   ],
   "note": "True if the flags for hanging nodes are set alike in both base classes. False for the constructor taking a vector, which initialises neither flag (newton.hh:158-163, 506-511), if the flags differ (the setter is in both bases), and for the first defect if the initial residual is not a number."
  },
  {
   "property": "C21",
   "status": "partial",
   "theorems": [
    "Verif.C21_intersection_index_false",
    "Verif.C21_intersection_index_partial"
   ],
   "note": "false of the code after a skipped intersection (the loop continues before the counter is incremented); proved for cells without skipped intersections"
  },
  {
   "property": "C210",
   "status": "partial",
   "theorems": [
    "Verif.C210_newton_terminates_partial",
    "Verif.C210_endless_false"
   ],
   "note": "True for reassemble thresholds below one. False from one on: a failed line search with an old matrix is repeated with the same matrix for ever (newton.hh:369-376)."
  },
  {
   "property": "C211",
   "status": "proved",
   "theorems": [
    "Verif.C211_line_search",
    "Verif.C211_defect_decreases"
   ],
   "note": ""
  },
  {
   "property": "C212",
   "status": "partial",
   "theorems": [
    "Verif.C212_matrix_use",
    "Verif.C212_first_assembly",
    "Verif.C212_current_jacobian_partial",
    "Verif.C212_false"
   ],
   "note": "The last part is proved for runs without forced iterations and for all runs whose first defect is positive. False otherwise: a forced iteration from a solution with defect zero solves with a matrix that was never assembled (C212_false; as for the new solver, C72_false)."
  },
  {
   "property": "C213",
   "status": "partial",
   "theorems": [
    "Verif.C213_set_parameters",
    "Verif.C213_exception",
    "Verif.C213_documented_example_false",
    "Verif.C213_atomic_false"
   ],
   "note": "False for the key LineSearchDamping of the documented example, which is not read, and for exceptions, which leave the parameters read before set."
  },
  {
   "property": "C214",
   "status": "partial",
   "theorems": [
    "Verif.C214_explicit_boundary_partial",
    "Verif.C214_explicit_boundary_false"
   ],
   "note": "True for a linear temporal operator with volume terms, an exact linear solver, no limiter, and if the controller keeps the given step or nothing depends on time. False if the controller shortens the step: boundary values are then those at the end of the step given."
  },
  {
   "property": "C215",
   "status": "partial",
   "theorems": [
    "Verif.C215_limited_stages",
    "Verif.C215_old_value_false"
   ],
   "note": "False for the old solution: prestage() of the limiter changes it although the parameter is documented as [in]."
  },
  {
   "property": "C216",
   "status": "partial",
   "theorems": [
    "Verif.C216_scheme_explicit_partial",
    "Verif.C216_scheme_explicit_false"
   ],
   "note": "True as long as no call throws. False afterwards: setMethod() stores the scheme before it throws, and the next step uses it."
  },
  {
   "property": "C217",
   "status": "proved",
   "theorems": [
    "Verif.C217_error_distribution",
    "Verif.C217_monotone",
    "Verif.C217_last_bin"
   ],
   "note": ""
  },
  {
   "property": "C218",
   "status": "partial",
   "theorems": [
    "Verif.C218_depth",
    "Verif.C218_block_size",
    "Verif.C218_index_length",
    "Verif.C218_capacity_partial",
    "Verif.C218_container_fits_partial",
    "Verif.C218_nested_false",
    "Verif.C218_chunked_false",
    "Verif.C218_lexicographic_fixed_false",
    "Verif.C218_entitywise_leaf_false"
   ],
   "note": "True without dynamic blocking below nodes with several children, with chunked orderings only for blocked backends, blocks of the ordering not larger than the static blocks, and indices of equal length. False otherwise: the descriptor of siblings forgets the nesting of the children (vectorhelpers.hh:266), chunked orderings of unblocked spaces exceed the capacity of container indices, static blocking with lexicographic ordering and statically blocked leaves in entity-wise orderings compile but do not fit."
  },
  {
   "property": "C219",
   "status": "partial",
   "theorems": [
    "Verif.C219_defined",
    "Verif.C219_limit",
    "Verif.C219_report",
    "Verif.C219_statistics_partial",
    "Verif.C219_runs_false",
    "Verif.C219_stale_false",
    "Verif.C219_overrun_false"
   ],
   "note": "True of the times shown, and of the statistics of the times shown if no report is printed during a run. False: runs that did not take place count as runs of no time, a report printed during a run leaves stale statistics, and measuring after the last run writes out of bounds instead of throwing."
  },
  {
   "property": "C22",
   "status": "proved",
   "theorems": [
    "Verif.C22_schemes_are_consistent",
    "Verif.C22_orders",
    "Verif.C22_alexander3_parameter",
    "Verif.C22_implicit_flag",
    "Verif.C22_test_equation"
   ],
   "note": "exact arithmetic; the rooted-tree order conditions are the definition of order; Alexander's parameter is treated both as exact root and as the Newton iterate"
  },
  {
   "property": "C220",
   "status": "partial",
   "theorems": [
    "Verif.C220_extract",
    "Verif.C220_product",
    "Verif.C220_jacobi",
    "Verif.C220_gather",
    "Verif.C220_size_partial",
    "Verif.C220_exchange",
    "Verif.C220_size_false"
   ],
   "note": "Proved, except that the announced size is taken from the first block of the first block, which does not exist if the first block has no DOFs (C220_size_false)."
  },
  {
   "property": "C221",
   "status": "proved",
   "theorems": [
    "Verif.C221_asked"
   ],
   "note": "For every tree of spaces whose constraints classes report Dirichlet constraints by any of their four methods; classes with other rows are covered by C15 (how rows are combined)."
  },
  {
   "property": "C222",
   "status": "partial",
   "theorems": [
    "Verif.C222_local_system_partial",
    "Verif.C222_local_preconditioner_partial",
    "Verif.C222_inverts_blocks_partial"
   ],
   "note": "For every iterative solver. The limits are those of C105 (the diagonal part of the skeleton term must not depend on the neighbour; no periodic boundary) and C110 (first setup only), where the false cases are."
  },
  {
   "property": "C223",
   "status": "proved",
   "theorems": [
    "Verif.C223_never_worse",
    "Verif.C223_forced_iteration"
   ],
   "note": "C223_forced_iteration shows why a forced iteration is excluded in the statement: below the absolute limit the line search takes the full step."
  },
  {
   "property": "C224",
   "status": "proved",
   "theorems": [
    "Verif.C224_updates",
    "Verif.C224_products",
    "Verif.C224_geometry"
   ],
   "note": "Numbers are elements of a ring or an ordered field with a square root; rounding is not modelled."
  },
  {
   "property": "C225",
   "status": "proved",
   "theorems": [
    "Verif.C225_converges",
    "Verif.C225_linear",
    "Verif.C225_threshold"
   ],
   "note": "C225_threshold shows why a reassembly threshold of one is excluded in the statement."
  },
  {
   "property": "C226",
   "status": "partial",
   "theorems": [
    "Verif.C226_eigenpairs_partial",
    "Verif.C226_nearest_partial",
    "Verif.C226_conversion",
    "Verif.C226_complex_false"
   ],
   "note": "False of the code if ARPACK returns pairs of conjugate complex eigenvalues, whose imaginary parts are ignored (C226_complex_false); proved if the eigenvalues found are real and nonzero and there are enough of them."
  },
  {
   "property": "C227",
   "status": "proved",
   "theorems": [
    "Verif.C227_tolerance",
    "Verif.C227_attempts"
   ],
   "note": "Exact arithmetic in an ordered field. The driver is not part of the code; the sizes of the attempts are stated for a driver that follows newDT()."
  },
  {
   "property": "C228",
   "status": "proved",
   "theorems": [
    "Verif.C228_a_stable",
    "Verif.C228_damping",
    "Verif.C228_energy",
    "Verif.C228_contraction",
    "Verif.C228_limits"
   ],
   "note": "Exact arithmetic; Alexander's third order scheme for the exact root of its polynomial (see C22 for the value computed). C228_limits shows which schemes are rightly left out. The post-skeleton volume terms excluded in C23/C69 are excluded here, too."
  },
  {
   "property": "C229",
   "status": "proved",
   "theorems": [
    "Verif.C229_convex_sets",
    "Verif.C229_limits"
   ],
   "note": "Under the hypotheses of C70 (temporal operator with volume terms only; shortened steps only for problems not depending on time). C229_limits: false for RK4, which is not claimed."
  },
  {
   "property": "C23",
   "status": "partial",
   "theorems": [
    "Verif.C23_residual_is_scheme_formula_false",
    "Verif.C23_residual_is_scheme_formula_partial",
    "Verif.C23_builtin_schemes"
   ],
   "note": "false of the code for coefficients below 1e-6 in absolute value (they are ignored); proved for all schemes without such coefficients, which includes all built-in ones, and temporal operators without post-skeleton terms (C24)"
  },
  {
   "property": "C230",
   "status": "partial",
   "theorems": [
    "Verif.C230_explicit_steps_partial",
    "Verif.C230_minimum",
    "Verif.C230_suggests_constant",
    "Verif.C230_suggestion_false"
   ],
   "note": "Proved: nonnegativity of all stages under the step size bound, agreement of the processes, the suggestion is 1e100 for every problem. False of the code: the suggested step does not keep values nonnegative."
  },
  {
   "property": "C231",
   "status": "proved",
   "theorems": [
    "Verif.C231_overlapping_wrapped",
    "Verif.C231_overlapping_subdomain",
    "Verif.C231_nonoverlapping_plain",
    "Verif.C231_nonoverlapping_jacobi",
    "Verif.C231_cg",
    "Verif.C231_bcgs"
   ],
   "note": "For solvers that apply applyscaleadd only to the given right-hand side (shown for CG and BiCGSTAB as in dune-istl; the solvers themselves are not part of this code). C136_applyscaleadd_false shows that this is needed. Jacobi: scalar entries."
  },
  {
   "property": "C232",
   "status": "proved",
   "theorems": [
    "Verif.C232_linear_solver",
    "Verif.C232_dirichlet_only",
    "Verif.C232_newton_step",
    "Verif.C232_newton_conforming",
    "Verif.C232_residual",
    "Verif.C232_energy",
    "Verif.C232_without_modifications_false"
   ],
   "note": "C232_without_modifications_false: with linear constraints and without the modifications the result is not a solution, which is why the statement asks for them."
  },
  {
   "property": "C233",
   "status": "proved",
   "theorems": [
    "Verif.C233_acoustics",
    "Verif.C233_acoustics_euler",
    "Verif.C233_acoustics_boundary",
    "Verif.C233_maxwell",
    "Verif.C233_maxwell_euler",
    "Verif.C233_maxwell_boundary",
    "Verif.C233_two_fluids_false"
   ],
   "note": "Exact arithmetic; the linear systems of the time steps are solved exactly. C233_two_fluids_false: with different speeds of sound the operator can feed in energy, which is why the statement asks for one material (see also C162)."
  },
  {
   "property": "C234",
   "status": "proved",
   "theorems": [
    "Verif.C234_stationary",
    "Verif.C234_implicit_euler",
    "Verif.C234_unique"
   ],
   "note": "Exact arithmetic. As in C96 the velocity at Dirichlet boundaries must not point outwards, which the operator documents."
  },
  {
   "property": "C235",
   "status": "proved",
   "theorems": [
    "Verif.C235_stable",
    "Verif.C235_monotone",
    "Verif.C235_unique",
    "Verif.C235_small_penalty_false"
   ],
   "note": "Exact arithmetic. The trace inequality (constant 1/d on simplices) and the incompressibility as seen by the quadrature are hypotheses, as are weights switched on. C235_small_penalty_false shows that the bound is needed: on intervals it is 2."
  },
  {
   "property": "C236",
   "status": "proved",
   "theorems": [
    "Verif.C236_text",
    "Verif.C236_restored",
    "Verif.C236_local_tag",
    "Verif.C236_aligned",
    "Verif.C236_scopes",
    "Verif.C236_block",
    "Verif.C236_host_name",
    "Verif.C236_not_aligned_before_setup"
   ],
   "note": "Times must fit into the columns (wall time below 10^10 s, process time below 10^5 s). Exceptions thrown by streams are not modelled."
  },
  {
   "property": "C237",
   "status": "proved",
   "theorems": [
    "Verif.C237_weak_form",
    "Verif.C237_residual",
    "Verif.C237_coercive",
    "Verif.C237_solver",
    "Verif.C237_newton",
    "Verif.C237_energy"
   ],
   "note": "Exact arithmetic; the linear solver of the back-end finds a solution if there is one. Incompressibility is assumed as the quadrature sees it. Boundary faces without condition (BoundaryCondition None) are excluded for the solver: there the Jacobian is not the derivative (C93_fem_boundary_false)."
  },
  {
   "property": "C238",
   "status": "proved",
   "theorems": [
    "Verif.C238_virtual_work",
    "Verif.C238_solver",
    "Verif.C238_energy",
    "Verif.C238_reciprocity"
   ],
   "note": "Exact arithmetic; the linear solver of the back-end finds a solution if there is one. That the body is held (Korn) is a hypothesis about mesh and constraints."
  },
  {
   "property": "C239",
   "status": "proved",
   "theorems": [
    "Verif.C239_weak_form",
    "Verif.C239_residual",
    "Verif.C239_solver",
    "Verif.C239_mass",
    "Verif.C239_power"
   ],
   "note": "Exact arithmetic; the linear solver of the back-end finds a solution if there is one. The inf-sup condition and Korn's inequality are hypotheses about mesh and spaces."
  },
  {
   "property": "C24",
   "status": "partial",
   "theorems": [
    "Verif.C24_all_contributions_false",
    "Verif.C24_missing_contributions_partial"
   ],
   "note": "false of the code: post-skeleton volume terms of the temporal operator are not assembled for the new stage; proved that exactly these are missing"
  },
  {
   "property": "C240",
   "status": "proved",
   "theorems": [
    "Verif.C240_weak_form",
    "Verif.C240_solver",
    "Verif.C240_local_conservation",
    "Verif.C240_least_resistance"
   ],
   "note": "Exact arithmetic; the linear solver of the back-end finds a solution if there is one. Reaction is excluded because it is integrated without the integration element (C168_reaction_false). Definiteness and the inf-sup condition are hypotheses about mesh and spaces."
  },
  {
   "property": "C241",
   "status": "proved",
   "theorems": [
    "Verif.C241_residual",
    "Verif.C241_weak_form",
    "Verif.C241_stage",
    "Verif.C241_step",
    "Verif.C241_contraction",
    "Verif.C241_contraction_theta",
    "Verif.C241_contraction_steps",
    "Verif.C241_balance",
    "Verif.C241_schemes"
   ],
   "note": "Exact arithmetic; the linear solver of the back-end finds a solution if there is one; coefficients of the scheme below 1e-6 that are not zero are excluded, as in C22. The irrational parameters of the schemes are represented by numbers in small intervals, as in C23."
  },
  {
   "property": "C242",
   "status": "proved",
   "theorems": [
    "Verif.C242_assembled",
    "Verif.C242_residual",
    "Verif.C242_time",
    "Verif.C242_solver",
    "Verif.C242_conservation",
    "Verif.C242_step",
    "Verif.C242_contraction",
    "Verif.C242_contraction_theta",
    "Verif.C242_contraction_steps",
    "Verif.C242_balance"
   ],
   "note": "Exact arithmetic; the linear solver of the back-end finds a solution if there is one. The trace inequality and the incompressibility as seen by the quadrature are hypotheses, as are weights switched on, as in C235."
  },
  {
   "property": "C243",
   "status": "proved",
   "theorems": [
    "Verif.C243_residual",
    "Verif.C243_solver",
    "Verif.C243_time",
    "Verif.C243_step",
    "Verif.C243_bounds",
    "Verif.C243_conservation",
    "Verif.C243_history"
   ],
   "note": "Exact arithmetic; the linear solver of the back-end finds a solution if there is one. Convection with accumulation in a cell is excluded, as in C234. The capacity does not depend on time."
  },
  {
   "property": "C244",
   "status": "proved",
   "theorems": [
    "Verif.C244_schemes",
    "Verif.C244_matrix",
    "Verif.C244_step",
    "Verif.C244_euler",
    "Verif.C244_bounds",
    "Verif.C244_history"
   ],
   "note": "Exact arithmetic; the linear solver of the back-end solves systems with regular matrices. The step restriction is a hypothesis, because the suggested step does not guarantee it (C230_suggestion_false). A step that the controller shortens while the data depend on time is excluded, because the stages are then assembled at the times of the longer step (C70). No constraints; slope limiters do nothing."
  },
  {
   "property": "C245",
   "status": "proved",
   "theorems": [
    "Verif.C245_fem_matrix",
    "Verif.C245_fem_step",
    "Verif.C245_dg_matrix",
    "Verif.C245_dg_step"
   ],
   "note": "Exact arithmetic; the linear solver of the back-end solves systems with regular matrices. A step that the controller shortens while the data depend on time is excluded, because the stages are then assembled at the times of the longer step (C70). No constraints; no slope limiter."
  },
  {
   "property": "C246",
   "status": "proved",
   "theorems": [
    "Verif.C246_dirichlet",
    "Verif.C246_unique",
    "Verif.C246_error",
    "Verif.C246_linear",
    "Verif.C246_fem",
    "Verif.C246_dg",
    "Verif.C246_fv"
   ],
   "note": "Exact arithmetic. Modifications for hanging nodes are off (the default). Linear solvers leave alone degrees of freedom whose row is one of the identity and whose right hand side is zero; for linear problems they are exact. Damping factor one is excluded in C246_error, as in C27 and C28, where the line search is wrong for it."
  },
  {
   "property": "C247",
   "status": "proved",
   "theorems": [
    "Verif.C247_modification",
    "Verif.C247_conforming",
    "Verif.C247_dirichlet",
    "Verif.C247_error",
    "Verif.C247_linear",
    "Verif.C247_fem"
   ],
   "note": "Exact arithmetic. Linear solvers as in C246. Constraints whose coefficients are for degrees of freedom that are themselves linearly constrained are excluded (C232)."
  },
  {
   "property": "C248",
   "status": "proved",
   "theorems": [
    "Verif.C248_quadratic",
    "Verif.C248_inexact",
    "Verif.C248_last_step"
   ],
   "note": "Exact arithmetic. That a full step leaves at most C d^2 (a regular, Lipschitz continuous Jacobian) is a hypothesis about the problem. No forced iterations; no modifications for hanging nodes (C247 reduces them to this case)."
  },
  {
   "property": "C249",
   "status": "proved",
   "theorems": [
    "Verif.C249_stage",
    "Verif.C249_step",
    "Verif.C249_history"
   ],
   "note": "Exact arithmetic. That the Newton solver returns is a hypothesis (C225, C248 give conditions). Modifications for hanging nodes are off. Linear solvers leave alone degrees of freedom with a row of the identity and no right hand side."
  },
  {
   "property": "C25",
   "status": "partial",
   "theorems": [
    "Verif.C25_statistics_false",
    "Verif.C25_statistics_partial",
    "Verif.C25_resume"
   ],
   "note": "false of the code if an exception other than one of the solver leaves apply (e.g. from assembling a later stage): the attempt is not counted; proved for all histories of steps that succeed or fail in the solver"
  },
  {
   "property": "C250",
   "status": "proved",
   "theorems": [
    "Verif.C250_jacobian",
    "Verif.C250_weak_form",
    "Verif.C250_error",
    "Verif.C250_linear",
    "Verif.C250_step",
    "Verif.C250_history"
   ],
   "note": "Exact arithmetic. w(u) = u, because the coefficients are evaluated at w(u) otherwise (C171_coefficients_false). That the Newton solver returns is a hypothesis (C225, C248 give conditions). Linear solvers leave alone degrees of freedom with a row of the identity and no right hand side."
  },
  {
   "property": "C251",
   "status": "proved",
   "theorems": [
    "Verif.C251_defect",
    "Verif.C251_flow",
    "Verif.C251_stokes",
    "Verif.C251_elasticity",
    "Verif.C251_mixed"
   ],
   "note": "Exact arithmetic. That the Newton solver returns is a hypothesis of C251_defect and C251_flow (C225, C248 give conditions) and a conclusion for the linear problems, which have Dirichlet constraints only. For C251_defect and C251_flow linear solvers leave alone degrees of freedom with a row of the identity and no right hand side."
  },
  {
   "property": "C252",
   "status": "proved",
   "theorems": [
    "Verif.C252_assembled",
    "Verif.C252_step",
    "Verif.C252_mass",
    "Verif.C252_contraction",
    "Verif.C252_history",
    "Verif.C252_explicit",
    "Verif.C252_schemes"
   ],
   "note": "Exact arithmetic. The linear solver is exact; C252_step and the contraction are for the Stokes equations, conservation of mass also for the Navier-Stokes equations, where a solution of the equations of the stages is a hypothesis. The density of the temporal operator does not depend on time. Parameters of the schemes are real numbers near those of the constructors."
  },
  {
   "property": "C253",
   "status": "proved",
   "theorems": [
    "Verif.C253_step",
    "Verif.C253_linear",
    "Verif.C253_flow",
    "Verif.C253_euler",
    "Verif.C253_stokes"
   ],
   "note": "Exact arithmetic. That the step succeeds is a hypothesis of C253_step, C253_flow and C253_euler, and a conclusion of C253_linear and C253_stokes, which have Dirichlet constraints only. For the former linear solvers leave alone degrees of freedom with a row of the identity and no right hand side. The density of the temporal operator does not depend on time."
  },
  {
   "property": "C26",
   "status": "partial",
   "theorems": [
    "Verif.C26_cfl_controller_false",
    "Verif.C26_cfl_controller_partial"
   ],
   "note": "false of the code if the returned step is fed back as given step with operators without restriction and CFL number below 1 (the steps shrink geometrically); proved if given steps and bounds stay above a positive value"
  },
  {
   "property": "C27",
   "status": "partial",
   "theorems": [
    "Verif.C27_line_search_partial",
    "Verif.C27_false"
   ],
   "note": "false of the code for damping factor 1 with acceptBest (previous solution with the defect of a trial, no exception); proved for all other positive damping factors, all defect functions including NaN"
  },
  {
   "property": "C28",
   "status": "partial",
   "theorems": [
    "Verif.C28_newton_partial",
    "Verif.C28_reduction_false",
    "Verif.C72_first_assembly",
    "Verif.C72_false"
   ],
   "note": "false of the code without iterations (reduction reported as 0) and, for the first assembly, for thresholds of one or more, NaN or zero first defects; proved otherwise; hanging node modifications and infinities not modelled"
  },
  {
   "property": "C29",
   "status": "proved",
   "theorems": [
    "Verif.C29_addition",
    "Verif.C29_subtraction",
    "Verif.C29_sub_add",
    "Verif.C29_getrusage"
   ],
   "note": "unbounded integers"
  },
  {
   "property": "C30",
   "status": "partial",
   "theorems": [
    "Verif.C30_storage",
    "Verif.C30_iteration",
    "Verif.C30_decrement",
    "Verif.C30_products",
    "Verif.C30_product",
    "Verif.C30_diagonal_false"
   ],
   "note": "proved for LocalMatrix; false of the code for the product of DiagonalLocalMatrix with two or more rows (assertion failure)"
  },
  {
   "property": "C31",
   "status": "proved",
   "theorems": [
    "Verif.C31_accumulation",
    "Verif.C31_modified",
    "Verif.C31_single"
   ],
   "note": ""
  },
  {
   "property": "C32",
   "status": "partial",
   "theorems": [
    "Verif.C32_size_partial",
    "Verif.C32_message_partial",
    "Verif.C32_exchange_partial",
    "Verif.C32_mismatch",
    "Verif.C32_size_false",
    "Verif.C32_outside_false",
    "Verif.C32_entity_false"
   ],
   "note": "Byte-exact model of gather/scatter with and without leaf sizes and ranks. Announced size = written size, exact consumption over whole sequences of entities, leafwise combination and detection of mismatches are proved where the DOF count of an entity is the same under its grid view index and its entity set index. Missing (false of the code): dataHandleSize() uses the grid view index although the ordering is indexed by the entity set (C32_size_false); the plain scatter() outside of the partition does not drain the received items (C32_outside_false); one-item-per-entity handles announce 0 but write 1 outside of the entity set (C32_entity_false)."
  },
  {
   "property": "C33",
   "status": "proved",
   "theorems": [
    "Verif.C33_split",
    "Verif.C33_automatic"
   ],
   "note": ""
  },
  {
   "property": "C34",
   "status": "proved",
   "theorems": [
    "Verif.C34_coloring",
    "Verif.C34_limit"
   ],
   "note": "DSatur with its priority queue and post-condition checks; self links in the graph are allowed."
  },
  {
   "property": "C35",
   "status": "proved",
   "theorems": [
    "Verif.C35_graph",
    "Verif.C35_labels"
   ],
   "note": ""
  },
  {
   "property": "C36",
   "status": "proved",
   "theorems": [
    "Verif.C36_halo",
    "Verif.C36_deterministic",
    "Verif.C36_interior"
   ],
   "note": "All interleavings of the individual atomic loads and stores of all threads in each phase."
  },
  {
   "property": "C37",
   "status": "proved",
   "theorems": [
    "Verif.C37_flat_iteration"
   ],
   "note": ""
  },
  {
   "property": "C38",
   "status": "partial",
   "theorems": [
    "Verif.C38_sum_partial",
    "Verif.C38_alpha_boundary_false",
    "Verif.C38_alpha_boundary_dispatch",
    "Verif.C38_jacobian_apply_false",
    "Verif.C38_skip_partial",
    "Verif.C38_skip_odd",
    "Verif.C38_skip_false"
   ],
   "note": "Proved for all nested sums and weighted sums for 15 of the 20 methods. Missing (false of the code): alpha_boundary() dispatches to alpha_volume_post_skeleton(); the four jacobian_apply methods pass too few arguments to the call switch; skip_entity/skip_intersection test by XOR, which is right for exactly two summands only."
  },
  {
   "property": "C39",
   "status": "partial",
   "theorems": [
    "Verif.C39_uniform_partial",
    "Verif.C39_never_rejects",
    "Verif.C39_mixed_false"
   ],
   "note": "False of the code: the static_assert uses two conjunctions that can never hold together, so that no tuple is rejected; the one-sided skeleton terms are then evaluated twice. Proved part: uniform tuples are accepted with the right flag."
  },
  {
   "property": "C40",
   "status": "proved",
   "theorems": [
    "Verif.C40_error_fraction",
    "Verif.C40_element_fraction"
   ],
   "note": "Exact arithmetic."
  },
  {
   "property": "C41",
   "status": "partial",
   "theorems": [
    "Verif.C41_mark_grid",
    "Verif.C41_no_conflict",
    "Verif.C41_coarsening_partial",
    "Verif.C41_coarsening_false"
   ],
   "note": "mark_grid is proved. False of the code for mark_grid_for_coarsening: cells with error above the refinement threshold are marked for coarsening, too."
  },
  {
   "property": "C42",
   "status": "proved",
   "theorems": [
    "Verif.C42_accept",
    "Verif.C42_accumulated",
    "Verif.C42_no_increase"
   ],
   "note": "For all histories of uses with parameters that may change between them."
  },
  {
   "property": "C43",
   "status": "proved",
   "theorems": [
    "Verif.C43_average",
    "Verif.C43_unchanged",
    "Verif.C43_exception"
   ],
   "note": "For any number of processes; exact arithmetic."
  },
  {
   "property": "C44",
   "status": "partial",
   "theorems": [
    "Verif.C44_two_dim_false",
    "Verif.C44_three_dim_false",
    "Verif.C44_cube_partial",
    "Verif.C44_edge_partial",
    "Verif.C44_tetrahedron_partial"
   ],
   "note": "False of the code: it uses the dimension of the intersection, so that there are no constraints in 2D and a failed assertion in 3D. Proved for the algorithm with the dimension of the grid."
  },
  {
   "property": "C45",
   "status": "proved",
   "theorems": [
    "Verif.C45_element_mapper"
   ],
   "note": ""
  },
  {
   "property": "C46",
   "status": "partial",
   "theorems": [
    "Verif.C46_update_partial",
    "Verif.C46_fresh_partial",
    "Verif.C46_findIndex_false",
    "Verif.C46_isBorder_false"
   ],
   "note": "False of the code for caches updated more than once: the map from ids to indices is never cleared, and flags of entities that are neither interior nor border any more are kept. Proved: everything for new caches; the map from indices to ids and the lookup of all current border entities in all histories."
  },
  {
   "property": "C47",
   "status": "partial",
   "theorems": [
    "Verif.C47_update",
    "Verif.C47_update_all",
    "Verif.C47_needsUpdate",
    "Verif.C47_current",
    "Verif.C47_current_all",
    "Verif.C47_no_residue",
    "Verif.C47_fallback_false"
   ],
   "note": "Proved for grids with iterators for all codimensions and, without them, for partitions consisting of the sub-entities of their elements; false of the fallback for other partitions (e.g. interior only)."
  },
  {
   "property": "C48",
   "status": "partial",
   "theorems": [
    "Verif.C48_partition_partial",
    "Verif.C48_owner_partial",
    "Verif.C48_covered",
    "Verif.C48_local",
    "Verif.C48_dot_partial",
    "Verif.C48_periodic_false"
   ],
   "note": "Proved for all distributions in which a process stores at most one copy of an entity, all orders of delivery and all nested vectors. False of the code if a process stores two copies (periodic grids): both are owned."
  },
  {
   "property": "C49",
   "status": "proved",
   "theorems": [
    "Verif.C49_difference_quotients",
    "Verif.C49_affine",
    "Verif.C49_skeleton"
   ],
   "note": "Exact arithmetic; arbitrary (also nonlinear) residuals get the difference quotients. The statement about jacobian_apply is C84."
  },
  {
   "property": "C50",
   "status": "partial",
   "theorems": [
    "Verif.C50_volume",
    "Verif.C50_skeleton",
    "Verif.C50_boundary_partial",
    "Verif.C50_boundary_false"
   ],
   "note": "Proved for volume and skeleton terms of all shapes. False of the code for alpha_boundary with different numbers of trial and test functions: rows and columns of the matrix are exchanged."
  },
  {
   "property": "C51",
   "status": "partial",
   "theorems": [
    "Verif.C51_iterator_equality_false",
    "Verif.C51_iterator_equality_partial"
   ],
   "note": "false of the code for iterators straddling slots and overflow set; true against end()"
  },
  {
   "property": "C52",
   "status": "partial",
   "theorems": [
    "Verif.C52_dense_assignment_false",
    "Verif.C52_dense_assignment_partial"
   ],
   "note": "false of the code when the shapes differ"
  },
  {
   "property": "C53",
   "status": "partial",
   "theorems": [
    "Verif.C53_block_numbers_below_count_false",
    "Verif.C53_block_numbers_partial"
   ],
   "note": "false of the code for entity-dependent sizes (block count is the number of DOFs)"
  },
  {
   "property": "C54",
   "status": "proved",
   "theorems": [
    "Verif.C54_entity_indices_agree_with_mapIndex"
   ],
   "note": ""
  },
  {
   "property": "C55",
   "status": "partial",
   "theorems": [
    "Verif.C55_localVectorSize_is_root_size_false",
    "Verif.C55_localVectorSize_partial"
   ],
   "note": "false of the code: localVectorSize() is the maximal local size; proved that it bounds all local indices and is invariant under bind"
  },
  {
   "property": "C56",
   "status": "partial",
   "theorems": [
    "Verif.C56_conversion_false",
    "Verif.C56_conversion_partial"
   ],
   "note": "false of the code with ReservedVector's checks on: the copy loop runs past the end of the source; proved without checks or for full sources"
  },
  {
   "property": "C57",
   "status": "partial",
   "theorems": [
    "Verif.C57_set_shifted_unconstrained_false",
    "Verif.C57_set_shifted_partial"
   ],
   "note": "false of the code for unconstrained spaces (the overload does nothing)"
  },
  {
   "property": "C58",
   "status": "partial",
   "theorems": [
    "Verif.C58_reassembly_false",
    "Verif.C58_reassembly_partial"
   ],
   "note": "false of the code for the overload without parameters, which does not clear the container"
  },
  {
   "property": "C59",
   "status": "proved",
   "theorems": [
    "Verif.C59_index_cache_reflects_constraints",
    "Verif.C59_no_caching_no_constraints"
   ],
   "note": ""
  },
  {
   "property": "C60",
   "status": "proved",
   "theorems": [
    "Verif.C60_jacobian_is_constraint_transformed"
   ],
   "note": "exact arithmetic"
  },
  {
   "property": "C61",
   "status": "proved",
   "theorems": [
    "Verif.C61_backtransform_is_transpose"
   ],
   "note": "exact arithmetic"
  },
  {
   "property": "C62",
   "status": "proved",
   "theorems": [
    "Verif.C62_protocol"
   ],
   "note": ""
  },
  {
   "property": "C63",
   "status": "proved",
   "theorems": [
    "Verif.C63_process_faces"
   ],
   "note": ""
  },
  {
   "property": "C64",
   "status": "proved",
   "theorems": [
    "Verif.C64_outside_cells_are_in_entity_set"
   ],
   "note": ""
  },
  {
   "property": "C65",
   "status": "proved",
   "theorems": [
    "Verif.C65_jacobian_matches_residual"
   ],
   "note": ""
  },
  {
   "property": "C66",
   "status": "partial",
   "theorems": [
    "Verif.C66_explicit_parts_false",
    "Verif.C66_explicit_parts_partial"
   ],
   "note": "false of the code for skeleton and boundary terms of the temporal operator, whose Jacobian is evaluated at the time of the last old stage; proved for temporal Jacobians with volume terms only"
  },
  {
   "property": "C67",
   "status": "partial",
   "theorems": [
    "Verif.C67_no_leak_false",
    "Verif.C67_no_leak_partial"
   ],
   "note": "false of the code if assembling the constant part throws (only the solver call is guarded); proved for returns and solver exceptions"
  },
  {
   "property": "C68",
   "status": "proved",
   "theorems": [
    "Verif.C68_stages",
    "Verif.C68_stages_with_boundary"
   ],
   "note": ""
  },
  {
   "property": "C69",
   "status": "proved",
   "theorems": [
    "Verif.C69_step_satisfies_scheme"
   ],
   "note": "exact arithmetic; for schemes without coefficients below 1e-6 (C23) and temporal operators without post-skeleton terms (C24)"
  },
  {
   "property": "C70",
   "status": "partial",
   "theorems": [
    "Verif.C70_explicit_step_false",
    "Verif.C70_explicit_step_partial"
   ],
   "note": "false of the code if the controller shortens the step of a time-dependent problem (stage times use the given step); proved if the step is kept or the operators do not depend on time"
  },
  {
   "property": "C71",
   "status": "proved",
   "theorems": [
    "Verif.C71_newton_terminates"
   ],
   "note": ""
  },
  {
   "property": "C72",
   "status": "partial",
   "theorems": [
    "Verif.C72_current_jacobian_partial",
    "Verif.C72_first_assembly",
    "Verif.C72_false"
   ],
   "note": "false of the code for forced iterations from a zero defect, NaN defects, thresholds of one or more; proved otherwise"
  },
  {
   "property": "C73",
   "status": "partial",
   "theorems": [
    "Verif.C73_linear_reduction_partial",
    "Verif.C73_false"
   ],
   "note": "false of the code: in the last steps up to one tenth is requested; proved with the larger of the two as bound"
  },
  {
   "property": "C74",
   "status": "partial",
   "theorems": [
    "Verif.C74_set_parameters_partial",
    "Verif.C74_false"
   ],
   "note": "false of the code: termination and line search parameters not given are reset to defaults, the damping factor loses digits; proved for the parameters of the solver itself and sub trees"
  },
  {
   "property": "C75",
   "status": "partial",
   "theorems": [
    "Verif.C75_linear_solve_partial",
    "Verif.C75_false"
   ],
   "note": "false of the code: reuse without assembled matrix and non-converged linear solvers go unnoticed; proved for histories that reuse only kept matrices and converged solvers"
  },
  {
   "property": "C76",
   "status": "partial",
   "theorems": [
    "Verif.C76_print_partial",
    "Verif.C76_false"
   ],
   "note": "false of the code for negative time stamps; proved for nonnegative ones"
  },
  {
   "property": "C77",
   "status": "partial",
   "theorems": [
    "Verif.C77_verbosity_false",
    "Verif.C77_verbosity_partial"
   ],
   "note": "False of the code: the verbosity is passed as min_level of mark_grid. Proved part: everything but the marks for coarsening."
  },
  {
   "property": "C78",
   "status": "partial",
   "theorems": [
    "Verif.C78_reproduction_partial",
    "Verif.C78_reproduction_false"
   ],
   "note": "False of the code: the backup visitor is constructed without the integration order and projects with order 2, so that coarsening does not preserve quadratic functions. Proved if rules of order two suffice for the mass matrix."
  },
  {
   "property": "C79",
   "status": "partial",
   "theorems": [
    "Verif.C79_leaf_offsets_partial",
    "Verif.C79_leaf_offsets_false"
   ],
   "note": "Offsets are cached per geometry type; proved for spaces in which the sizes depend on the type only, false for others."
  },
  {
   "property": "C80",
   "status": "proved",
   "theorems": [
    "Verif.C80_packs"
   ],
   "note": ""
  },
  {
   "property": "C81",
   "status": "proved",
   "theorems": [
    "Verif.C81_isolated",
    "Verif.C81_minimal"
   ],
   "note": "Partial correctness: the loop of the code is unbounded, termination depends on the grid manager."
  },
  {
   "property": "C82",
   "status": "partial",
   "theorems": [
    "Verif.C82_hanging",
    "Verif.C82_boundary_partial",
    "Verif.C82_boundary_false"
   ],
   "note": "Recognition of hanging nodes is proved. The boundary flag is false of the code where boundary faces disagree about a common vertex: the last face visited wins."
  },
  {
   "property": "C83",
   "status": "partial",
   "theorems": [
    "Verif.C83_contains_partial",
    "Verif.C83_contains_false"
   ],
   "note": "False of the code for codimensions that are not active: only the partition is tested."
  },
  {
   "property": "C84",
   "status": "partial",
   "theorems": [
    "Verif.C84_volume",
    "Verif.C84_matrix_free",
    "Verif.C84_skeleton_linear",
    "Verif.C84_skeleton_partial",
    "Verif.C84_boundary_partial",
    "Verif.C84_skeleton_false",
    "Verif.C84_boundary_false"
   ],
   "note": "Proved for the volume terms and the linear skeleton term. False of the code: the nonlinear skeleton term multiplies by x instead of z for the residual outside; the boundary terms drop the weight, and the nonlinear one multiplies by x instead of z."
  },
  {
   "property": "C85",
   "status": "partial",
   "theorems": [
    "Verif.C85_owners_partial",
    "Verif.C85_false"
   ],
   "note": "False of the code: only processes owning one of the DOFs are listed. Proved: sorted list of exactly these."
  },
  {
   "property": "C86",
   "status": "proved",
   "theorems": [
    "Verif.C86_shared",
    "Verif.C86_neighbors"
   ],
   "note": "For distributions with at most one copy of an entity per process."
  },
  {
   "property": "C87",
   "status": "partial",
   "theorems": [
    "Verif.C87_injective_partial",
    "Verif.C87_bijection_partial",
    "Verif.C87_detection_false",
    "Verif.C87_nested_false"
   ],
   "note": "Proved for all trees without nested blocks (bijection) and for nested blocks with DOFs in all or none of their children (no collisions), given right leaf sizes. False of the code: the automatic detection of fixed sizes (as C05) and nested blocks whose children have DOFs on different entities: offsets count DOFs, indices are child numbers."
  },
  {
   "property": "C88",
   "status": "partial",
   "theorems": [
    "Verif.C88_indices_below_sizes_partial",
    "Verif.C88_entity_sizes_partial",
    "Verif.C88_unblocked_false",
    "Verif.C88_nested_false"
   ],
   "note": "Proved for blocked orderings and for unblocked ones with fixed sizes. False of the code: an unblocked ordering with entity-dependent sizes reports the number of entities with DOFs as block count; size(suffix) looks up the wrong child of nested blocks."
  },
  {
   "property": "C89",
   "status": "proved",
   "theorems": [
    "Verif.C89_cache_agrees_with_mapIndex",
    "Verif.C89_subspace_cache_agrees_with_mapIndex"
   ],
   "note": "For every tree of orderings whose leaf and grid view orderings are the result of an update; the DOFs are ones for which mapIndex is defined (see C05, C12, C87)."
  },
  {
   "property": "C90",
   "status": "proved",
   "theorems": [
    "Verif.C90_entity_cache_agrees_with_mapIndex"
   ],
   "note": "Same trees as C89."
  },
  {
   "property": "C91",
   "status": "partial",
   "theorems": [
    "Verif.C91_fast_index_partial",
    "Verif.C91_fast_index_systems_partial",
    "Verif.C91_several_cell_types_false"
   ],
   "note": "Proved if no geometry type before the cell type has DOFs. False of the code for several cell types: the offset of the geometry type is missing."
  },
  {
   "property": "C92",
   "status": "proved",
   "theorems": [
    "Verif.C92_ccfv_volume",
    "Verif.C92_ccfv_skeleton",
    "Verif.C92_ccfv_boundary",
    "Verif.C92_ccfv_temporal"
   ],
   "note": "Exact arithmetic. jacobian_apply_boundary is the numerical one (C84)."
  },
  {
   "property": "C93",
   "status": "partial",
   "theorems": [
    "Verif.C93_fem_volume",
    "Verif.C93_fem_boundary_partial",
    "Verif.C93_fem_boundary_false"
   ],
   "note": "False of the code for the boundary condition type None: the matrix contains the outflow term, the residual does not. Proved for all other types."
  },
  {
   "property": "C94",
   "status": "proved",
   "theorems": [
    "Verif.C94_dg_volume",
    "Verif.C94_dg_skeleton",
    "Verif.C94_dg_boundary",
    "Verif.C94_dg_outflow_on_inflow_is_rejected"
   ],
   "note": "Test space = trial space, as the code assumes. The cache of basis function values is modelled as direct evaluation."
  },
  {
   "property": "C95",
   "status": "proved",
   "theorems": [
    "Verif.C95_ccfv_cell_balance",
    "Verif.C95_ccfv_mass_balance"
   ],
   "note": ""
  },
  {
   "property": "C96",
   "status": "proved",
   "theorems": [
    "Verif.C96_ccfv_preserves_nonnegativity",
    "Verif.C96_ccfv_step_unique"
   ],
   "note": ""
  },
  {
   "property": "C97",
   "status": "proved",
   "theorems": [
    "Verif.C97_dg_volume_form",
    "Verif.C97_dg_skeleton_form",
    "Verif.C97_dg_boundary_form"
   ],
   "note": ""
  },
  {
   "property": "C98",
   "status": "proved",
   "theorems": [
    "Verif.C98_dg_conservative"
   ],
   "note": ""
  },
  {
   "property": "C99",
   "status": "proved",
   "theorems": [
    "Verif.C99_fem_symmetric",
    "Verif.C99_dg_volume_symmetric",
    "Verif.C99_sipg_skeleton_symmetric",
    "Verif.C99_sipg_boundary_symmetric"
   ],
   "note": ""
  }
 ]
}