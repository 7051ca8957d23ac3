{
 "claims": [
  {
   "property": "C01",
   "status": "proved",
   "theorems": [
    "Gpy.C01_array_correspondence_first_match",
    "Gpy.C01_array_correspondence_empty"
   ],
   "note": ""
  },
  {
   "property": "C02",
   "status": "proved",
   "theorems": [
    "Gpy.C02_edges_lists_each_edge_once",
    "Gpy.C02_edges_empty_rejected"
   ],
   "note": ""
  },
  {
   "property": "C03",
   "status": "partial",
   "theorems": [
    "Gpy.C03_violated",
    "Gpy.C03_boundary_indices_partial",
    "Gpy.C03_closed_mesh_partial"
   ],
   "note": "False of the code as stated (C03_violated gives a mesh where return_interior_indices / nonmanifold indices address wrong rows of E); proved for boundary indices on every mesh and for interior indices on closed meshes."
  },
  {
   "property": "C04",
   "status": "proved",
   "theorems": [
    "Gpy.C04_boundary_edges",
    "Gpy.C04_boundary_vertices",
    "Gpy.C04_non_manifold_edges"
   ],
   "note": ""
  },
  {
   "property": "C05",
   "status": "proved",
   "theorems": [
    "Gpy.C05_halfedge_edge_map_manifold",
    "Gpy.C05_unoriented_counterexample",
    "Gpy.C05_halfedge_edge_map_nonmanifold"
   ],
   "note": "Proved under the documented manifold+orientation hypothesis, and for every mesh in the non-manifold mode; a counterexample shows the silent wrong output without consistent orientation."
  },
  {
   "property": "C06",
   "status": "proved",
   "theorems": [
    "Gpy.C06_triangle_triangle_adjacency"
   ],
   "note": ""
  },
  {
   "property": "C07",
   "status": "proved",
   "theorems": [
    "Gpy.C07_d1_d0_zero",
    "Gpy.C07_d1_is_circulation"
   ],
   "note": ""
  },
  {
   "property": "C08",
   "status": "proved",
   "theorems": [
    "Gpy.C08_d0_differences",
    "Gpy.C08_d0_differences_given_edges"
   ],
   "note": ""
  },
  {
   "property": "C09",
   "status": "proved",
   "theorems": [
    "Gpy.C09_cotangent_laplacian"
   ],
   "note": ""
  },
  {
   "property": "C10",
   "status": "proved",
   "theorems": [
    "Gpy.C10_dec_laplacian"
   ],
   "note": ""
  },
  {
   "property": "C11",
   "status": "proved",
   "theorems": [
    "Gpy.C11_laplacian_psd",
    "Gpy.C11_laplacian_is_GtAG"
   ],
   "note": ""
  },
  {
   "property": "C12",
   "status": "proved",
   "theorems": [
    "Gpy.C12_massmatrix",
    "Gpy.C12_lumped_entries",
    "Gpy.C12_full_form"
   ],
   "note": ""
  },
  {
   "property": "C13",
   "status": "partial",
   "theorems": [
    "Gpy.C13_h1inv_h1",
    "Gpy.C13_h1_exists",
    "Gpy.C13_h2inv_h2",
    "Gpy.C13_h0inv_h0_violated",
    "Gpy.C13_h0inv_h0_partial"
   ],
   "note": "h1, h2 proved. For h0 the claim is false of the code (C13_h0inv_h0_violated); proved at vertices with one incident triangle."
  },
  {
   "property": "C14",
   "status": "proved",
   "theorems": [
    "Gpy.C14_loops_are_the_boundary_edges",
    "Gpy.C14_each_boundary_vertex_once",
    "Gpy.C14_returns",
    "Gpy.C14_fuel"
   ],
   "note": ""
  },
  {
   "property": "C15",
   "status": "partial",
   "theorems": [
    "Gpy.C15_cut_edges",
    "Gpy.C15_uncut_edges_stay_together",
    "Gpy.C15_no_cuts_violated"
   ],
   "note": "Proved for a nonempty list of cut edges (connected_components is a parameter with its contract). With an empty list the call raises instead of returning the mesh unchanged (C15_no_cuts_violated)."
  },
  {
   "property": "C16",
   "status": "proved",
   "theorems": [
    "Gpy.C16_remove_unreferenced",
    "Gpy.C16_rejects",
    "Gpy.C16_no_vertices"
   ],
   "note": ""
  },
  {
   "property": "C17",
   "status": "proved",
   "theorems": [
    "Gpy.C17_round_rule",
    "Gpy.C17_exact",
    "Gpy.C17_rounded",
    "Gpy.C17_faces"
   ],
   "note": ""
  },
  {
   "property": "C18",
   "status": "proved",
   "theorems": [
    "Gpy.C18_upsample_step",
    "Gpy.C18_upsample_iterate",
    "Gpy.C18_pillow_counterexample",
    "Gpy.C18_upsample_total_area"
   ],
   "note": ""
  },
  {
   "property": "C19",
   "status": "proved",
   "theorems": [
    "Gpy.C19_loop_masks",
    "Gpy.C19_loop_rows_convex",
    "Gpy.C19_loop_affine",
    "Gpy.C19_bowtie_counterexample",
    "Gpy.C19_unreferenced_counterexample",
    "Gpy.C19_trailing_vertex_counterexample"
   ],
   "note": ""
  },
  {
   "property": "C20",
   "status": "proved",
   "theorems": [
    "Gpy.C20_tree_structure",
    "Gpy.C20_leaves_tile",
    "Gpy.C20_subdivide_succeeds",
    "Gpy.C20_recursion_depth"
   ],
   "note": ""
  },
  {
   "property": "C21",
   "status": "proved",
   "theorems": [
    "Gpy.C21_adjacency_codes"
   ],
   "note": ""
  },
  {
   "property": "C22",
   "status": "proved",
   "theorems": [
    "Gpy.C22_graded"
   ],
   "note": ""
  },
  {
   "property": "C23",
   "status": "proved",
   "theorems": [
    "Gpy.C23_in_quadtree"
   ],
   "note": ""
  },
  {
   "property": "C24",
   "status": "proved",
   "theorems": [
    "Gpy.C24_aabbtree",
    "Gpy.C24_tight"
   ],
   "note": ""
  },
  {
   "property": "C25",
   "status": "proved",
   "theorems": [
    "Gpy.C25_aabb_minimum",
    "Gpy.C25_brute_minimum",
    "Gpy.C25_aabb_equals_brute"
   ],
   "note": ""
  },
  {
   "property": "C26",
   "status": "proved",
   "theorems": [
    "Gpy.C26_point_element",
    "Gpy.C26_short_segment"
   ],
   "note": ""
  },
  {
   "property": "C27",
   "status": "proved",
   "theorems": [
    "Gpy.C27_minimum_distance"
   ],
   "note": ""
  },
  {
   "property": "C28",
   "status": "proved",
   "theorems": [
    "Gpy.C28_ray_box"
   ],
   "note": ""
  },
  {
   "property": "C29",
   "status": "proved",
   "theorems": [
    "Gpy.C29_ray_triangle",
    "Gpy.C29_return_negative",
    "Gpy.C29_unique",
    "Gpy.C29_small_triangle_missed"
   ],
   "note": ""
  },
  {
   "property": "C30",
   "status": "proved",
   "theorems": [
    "Gpy.C30_ray_mesh",
    "Gpy.C30_own_tree"
   ],
   "note": ""
  },
  {
   "property": "C31",
   "status": "proved",
   "theorems": [
    "Gpy.C31_square_mesh_combinatorics",
    "Gpy.C31_square_mesh_areas",
    "Gpy.C31_square_mesh_covers",
    "Gpy.C31_square_mesh_no_overlap",
    "Gpy.C31_square_mesh_disk"
   ],
   "note": ""
  },
  {
   "property": "C32",
   "status": "proved",
   "theorems": [
    "Gpy.C32_cube_mesh_indices",
    "Gpy.C32_cube_mesh_positive",
    "Gpy.C32_cube_mesh_total_volume",
    "Gpy.C32_cube_mesh_covers",
    "Gpy.C32_cube_mesh_no_overlap",
    "Gpy.C32_cube_mesh_hex"
   ],
   "note": ""
  },
  {
   "property": "C33",
   "status": "proved",
   "theorems": [
    "Gpy.C33_cylinder",
    "Gpy.C33_torus",
    "Gpy.C33_small_rejected",
    "Gpy.C33_cone"
   ],
   "note": ""
  },
  {
   "property": "C34",
   "status": "proved",
   "theorems": [
    "Gpy.C34_fd_interpolate2_weights",
    "Gpy.C34_fd_interpolate2_exact",
    "Gpy.C34_fd_interpolate3_weights",
    "Gpy.C34_fd_interpolate3_exact"
   ],
   "note": ""
  },
  {
   "property": "C35",
   "status": "proved",
   "theorems": [
    "Gpy.C35_fd_partial2_x",
    "Gpy.C35_fd_partial2_y",
    "Gpy.C35_fd_partial3_x",
    "Gpy.C35_fd_partial3_y",
    "Gpy.C35_fd_partial3_z",
    "Gpy.C35_fd_grad2_affine",
    "Gpy.C35_fd_grad3_affine"
   ],
   "note": "All rows in 2D and 3D for all grid sizes, spacings and directions; exact reals. (The names contain fd_partial because the function is fd_partial_derivative; nothing is missing.)"
  },
  {
   "property": "C36",
   "status": "partial",
   "theorems": [
    "Gpy.C36_order_one",
    "Gpy.C36_walks",
    "Gpy.C36_order_two",
    "Gpy.C36_unique_sound",
    "Gpy.C36_order3_violated",
    "Gpy.C36_small_grid_violated",
    "Gpy.C36_order2_unique_violated",
    "Gpy.C36_order2_unique",
    "Gpy.C36_order2_diagonal_violated"
   ],
   "note": "Order one: exact for all grids without duplicate removal, or with at least three cells per direction. Any order without duplicate removal: exactly the cells reached by walks of 1..2^(order-1) steps, hence exact for order 2 and wrong for order 3 (C36_order3_violated). With duplicate removal: sound for every order, exact for order 2 on grids with >=5 cells per direction in 2D or without diagonals (except for the cell itself); witnesses for the failures on small grids, for the cell itself and for 3D diagonals."
  },
  {
   "property": "C37",
   "status": "proved",
   "theorems": [
    "Gpy.C37_grad_affine"
   ],
   "note": ""
  },
  {
   "property": "C38",
   "status": "proved",
   "theorems": [
    "Gpy.C38_barycentric_3d",
    "Gpy.C38_barycentric_2d"
   ],
   "note": ""
  },
  {
   "property": "C39",
   "status": "proved",
   "theorems": [
    "Gpy.C39_writers_agree",
    "Gpy.C39_roundtrip_python",
    "Gpy.C39_roundtrip_cpp",
    "Gpy.C39_roundtrip_full",
    "Gpy.C39_empty_writers_differ"
   ],
   "note": ""
  },
  {
   "property": "C40",
   "status": "proved",
   "theorems": [
    "Gpy.C40_python",
    "Gpy.C40_cpp",
    "Gpy.C40_unknown_topology_raises",
    "Gpy.C40_moves_python",
    "Gpy.C40_moves_cpp"
   ],
   "note": "Exact arithmetic, objective values real or +infinity, random numbers as parameters. C40_moves_python and C40_moves_cpp determine every position and velocity of a run up to ties between equally good points."
  },
  {
   "property": "C41",
   "status": "partial",
   "theorems": [
    "Gpy.C41_accepted_chain",
    "Gpy.C41_first_value_violated",
    "Gpy.C41_terminates"
   ],
   "note": "The rows after the first: proved. The first value F[0] is never set by the code (C41_first_value_violated)."
  },
  {
   "property": "C42",
   "status": "proved",
   "theorems": [
    "Gpy.C42_weights",
    "Gpy.C42_on_mesh",
    "Gpy.C42_example"
   ],
   "note": ""
  },
  {
   "property": "C43",
   "status": "proved",
   "theorems": [
    "Gpy.C43_min_quad",
    "Gpy.C43_fixed_dof",
    "Gpy.C43_returns",
    "Gpy.C43_dof_returns",
    "Gpy.C43_refused",
    "Gpy.C43_example"
   ],
   "note": ""
  },
  {
   "property": "C44",
   "status": "partial",
   "theorems": [
    "Gpy.C44_rotation3",
    "Gpy.C44_opposite3_violated",
    "Gpy.C44_rotation2",
    "Gpy.C44_example"
   ],
   "note": "Proved for all nonzero vectors in 2D and all non-opposite ones in 3D; for opposite vectors in 3D the code returns minus the identity, which is no rotation (C44_opposite3_violated)."
  },
  {
   "property": "C45",
   "status": "proved",
   "theorems": [
    "Gpy.C45_integer",
    "Gpy.C45_locally_constant",
    "Gpy.C45_triangle_inside",
    "Gpy.C45_triangle_outside",
    "Gpy.C45_separated_zero",
    "Gpy.C45_signed_distance",
    "Gpy.C45_edge_indices_closed",
    "Gpy.C45_edge_indices_open",
    "Gpy.C45_open_curve_zero",
    "Gpy.C45_crossings"
   ],
   "note": ""
  },
  {
   "property": "C46",
   "status": "proved",
   "theorems": [
    "Gpy.C46_values",
    "Gpy.C46_gauss_bonnet",
    "Gpy.C46_gauss_bonnet_intrinsic"
   ],
   "note": ""
  },
  {
   "property": "C47",
   "status": "proved",
   "theorems": [
    "Gpy.C47_unit_box",
    "Gpy.C47_overwrites_argument"
   ],
   "note": ""
  },
  {
   "property": "C48",
   "status": "proved",
   "theorems": [
    "Gpy.C48_marching_squares",
    "Gpy.C48_every_crossing_used"
   ],
   "note": ""
  },
  {
   "property": "C49",
   "status": "proved",
   "theorems": [
    "Gpy.C49_hausdorff"
   ],
   "note": ""
  },
  {
   "property": "C50",
   "status": "proved",
   "theorems": [
    "Gpy.C50_ascii",
    "Gpy.C50_binary",
    "Gpy.C50_ascii_empty_raises",
    "Gpy.C50_two_on_a_line_raises",
    "Gpy.C50_example"
   ],
   "note": ""
  },
  {
   "property": "C51",
   "status": "proved",
   "theorems": [
    "Gpy.C51_edge_edge"
   ],
   "note": ""
  },
  {
   "property": "C52",
   "status": "partial",
   "theorems": [
    "Gpy.C52_triangle_triangle",
    "Gpy.C52_small_violated"
   ],
   "note": "Proved for triangles above the function's absolute area threshold; below it the claim is false (C52_small_violated). Exact reals."
  },
  {
   "property": "C53",
   "status": "partial",
   "theorems": [
    "Gpy.C53_tip_angles_sum",
    "Gpy.C53_tip_angles_value",
    "Gpy.C53_small_side_chord_partial",
    "Gpy.C53_small_violated"
   ],
   "note": "Proved with the small-angle approximation off, and with it for triangles with no side below its threshold; C53_small_violated shows that the angles do not sum to pi with the approximation."
  },
  {
   "property": "C54",
   "status": "proved",
   "theorems": [
    "Gpy.C54_initialize_quadtree"
   ],
   "note": ""
  },
  {
   "property": "C55",
   "status": "proved",
   "theorems": [
    "Gpy.C55_children",
    "Gpy.C55_boundary"
   ],
   "note": ""
  },
  {
   "property": "C56",
   "status": "partial",
   "theorems": [
    "Gpy.C56_cube_mesh_conforming",
    "Gpy.C56_cube_mesh_faces_once",
    "Gpy.C56_five_violated"
   ],
   "note": "Proved for the two conforming types; C56_five_violated shows that type 'five' has unmatched interior faces."
  },
  {
   "property": "C57",
   "status": "partial",
   "theorems": [
    "Gpy.C57_extension",
    "Gpy.C57_explicit_violated",
    "Gpy.C57_explicit_prefixed"
   ],
   "note": "By extension: exact, any case. By explicit name: false of the code (C57_explicit_violated: every supported name is rejected because its first character is dropped)."
  },
  {
   "property": "C58",
   "status": "proved",
   "theorems": [
    "Gpy.C58_uniform_triangle",
    "Gpy.C58_point"
   ],
   "note": ""
  },
  {
   "property": "C59",
   "status": "partial",
   "theorems": [
    "Gpy.C59_magnitude",
    "Gpy.C59_sign_partial",
    "Gpy.C59_sign_violated"
   ],
   "note": "Magnitude proved for all inputs; sign proved when no vertex is at the height of the query (C59_sign_partial); C59_sign_violated: wrong sign at the centre of a diamond."
  },
  {
   "property": "C60",
   "status": "partial",
   "theorems": [
    "Gpy.C60_ray_polyline_partial",
    "Gpy.C60_default_edges",
    "Gpy.C60_collinear_violated"
   ],
   "note": "Proved when no edge is numerically parallel to the direction; C60_collinear_violated: for an edge on the line of the ray the returned point is not on the polyline (line 75 uses a0 instead of a1)."
  },
  {
   "property": "C61",
   "status": "proved",
   "theorems": [
    "Gpy.C61_icosphere"
   ],
   "note": ""
  },
  {
   "property": "C62",
   "status": "proved",
   "theorems": [
    "Gpy.C62_faces_lists_each_face_once",
    "Gpy.C62_faces_empty_rejected"
   ],
   "note": ""
  },
  {
   "property": "C63",
   "status": "partial",
   "theorems": [
    "Gpy.C63_violated",
    "Gpy.C63_indices_partial"
   ],
   "note": "false of the code for interior and non-manifold indices (C63_violated, a two-tetrahedron mesh); C63_indices_partial states exactly what the arrays address. Boundary indices are right (C62)."
  },
  {
   "property": "C64",
   "status": "proved",
   "theorems": [
    "Gpy.C64_boundary_is_closed",
    "Gpy.C64_volume"
   ],
   "note": ""
  },
  {
   "property": "C65",
   "status": "proved",
   "theorems": [
    "Gpy.C65_polyline",
    "Gpy.C65_empty_rejected",
    "Gpy.C65_triangle_mesh"
   ],
   "note": "scipy's csr_matrix((vals,(i,j))) is modelled as a list of triplets whose duplicates are summed."
  },
  {
   "property": "C66",
   "status": "proved",
   "theorems": [
    "Gpy.C66_connected_components",
    "Gpy.C66_connected_components_empty"
   ],
   "note": "scipy.sparse.csgraph.connected_components is modelled by its depth-first search (undirected graph given by the nonzero pattern)."
  },
  {
   "property": "C67",
   "status": "proved",
   "theorems": [
    "Gpy.C67_biharmonic_intrinsic",
    "Gpy.C67_biharmonic_extrinsic"
   ],
   "note": "mixed finite elements only (bc='mixedfem_zero_neumann'); positive area hypothesis as in C09/C12."
  },
  {
   "property": "C68",
   "status": "proved",
   "theorems": [
    "Gpy.C68_hessian_energy",
    "Gpy.C68_affine_functions_have_zero_energy"
   ],
   "note": "bc='hessian' for planar meshes (2 columns); the 'curved_hessian' option is implemented in C++ and not modelled."
  },
  {
   "property": "C69",
   "status": "proved",
   "theorems": [
    "Gpy.C69_face_normals",
    "Gpy.C69_edge_normals"
   ],
   "note": ""
  },
  {
   "property": "C70",
   "status": "proved",
   "theorems": [
    "Gpy.C70_vertex_normals"
   ],
   "note": ""
  },
  {
   "property": "C71",
   "status": "proved",
   "theorems": [
    "Gpy.C71_dihedral_angles"
   ],
   "note": ""
  },
  {
   "property": "C72",
   "status": "proved",
   "theorems": [
    "Gpy.C72_interpolating_C1",
    "Gpy.C72_too_few_keyframes",
    "Gpy.C72_affine_invariant",
    "Gpy.C72_linear_precision"
   ],
   "note": "real arithmetic; np.floor is Int.floor; one time value at a time (the code is vectorised)."
  },
  {
   "property": "C73",
   "status": "proved",
   "theorems": [
    "Gpy.C73_connectivity",
    "Gpy.C73_same_surface"
   ],
   "note": "real arithmetic; C++ arrays are modelled as sized arrays whose out-of-range accesses make the result none; the edge map input is specified by IsEdgeMap (igl::unique_edge_map's contract)."
  },
  {
   "property": "C74",
   "status": "partial",
   "theorems": [
    "Gpy.C74_boundary_violated"
   ],
   "note": "false of the code: C74_boundary_violated shows the out-of-range access for every oriented mesh with boundary and every choice of edges."
  },
  {
   "property": "C75",
   "status": "proved",
   "theorems": [
    "Gpy.C75_selection",
    "Gpy.C75_feature_edges"
   ],
   "note": "one pass (the code's loop runs once); duplicates in feature_edges are excluded by hypothesis."
  },
  {
   "property": "C76",
   "status": "proved",
   "theorems": [
    "Gpy.C76_flips",
    "Gpy.C76_complete",
    "Gpy.C76_mesh"
   ],
   "note": "igl::flip_edge is a parameter with the contract FlipSpec, shown satisfiable by rebuildFlip_spec; igl::unique_edge_map is modelled by its documented result IsEdgeMap (uniqueEdgeMap_isEdgeMap builds one for every mesh). Real arithmetic."
  },
  {
   "property": "C77",
   "status": "proved",
   "theorems": [
    "Gpy.C77_relaxed",
    "Gpy.C77_features",
    "Gpy.C77_tangential",
    "Gpy.C77_line"
   ],
   "note": "igl::per_vertex_normals and igl::point_mesh_squared_distance are parameters (arbitrary normals; closest-point contract). Real arithmetic."
  },
  {
   "property": "C78",
   "status": "partial",
   "theorems": [
    "Gpy.C78_collapsed",
    "Gpy.C78_allowed",
    "Gpy.C78_crease_violated",
    "Gpy.C78_foldover_violated"
   ],
   "note": "igl::decimate is specified by its contract (Spec/Collapse): any sequence of allowed collapses that keeps the mesh closed. Two parts of the claim are refuted (C78_crease_violated, C78_foldover_violated); the rest is proved. Closed meshes only. Real arithmetic."
  },
  {
   "property": "C79",
   "status": "proved",
   "theorems": [
    "Gpy.C79_remesh",
    "Gpy.C79_surface"
   ],
   "note": "libigl functions are parameters constrained by contracts (Spec/Remesh.LibOk; shown consistent by simpleLib_ok). Closed meshes only. Real arithmetic."
  },
  {
   "property": "C80",
   "status": "proved",
   "theorems": [
    "Gpy.C80_detect",
    "Gpy.C80_remesh",
    "Gpy.C80_surface"
   ],
   "note": "libigl contracts as in C79; closed meshes (open ones run into the out-of-range accesses of C74). Feature indices non-negative. Real arithmetic."
  },
  {
   "property": "C81",
   "status": "proved",
   "theorems": [
    "Gpy.C81_derivatives",
    "Gpy.C81_covariance",
    "Gpy.C81_values"
   ],
   "note": "Rows are treated one by one, as the code does; `length` is the row's entry. Positive semidefiniteness including derivatives is proved through the expansion of the exponential as a positive combination of squares (limit argument), derivatives through HasDerivAt."
  },
  {
   "property": "C82",
   "status": "proved",
   "theorems": [
    "Gpy.C82_covariance",
    "Gpy.C82_derivatives",
    "Gpy.C82_support"
   ],
   "note": "The cubic B-spline is shown to be the auto-correlation of a hat function (integral of products), which gives positive semidefiniteness with derivatives in one dimension; products over coordinates by the Schur product theorem of Mathlib."
  },
  {
   "property": "C83",
   "status": "proved",
   "theorems": [
    "Gpy.C83_matrix",
    "Gpy.C83_pattern",
    "Gpy.C83_covariance",
    "Gpy.C83_rows"
   ],
   "note": "All of matrix_from_function (sparse, dense, pattern) and cov_matrix_from_function without/with gradients."
  },
  {
   "property": "C84",
   "status": "partial",
   "theorems": [
    "Gpy.C84_values",
    "Gpy.C84_regression",
    "Gpy.C84_variance",
    "Gpy.C84_more_data",
    "Gpy.C84_induced",
    "Gpy.C84_induced_train",
    "Gpy.C84_compact",
    "Gpy.C84_compact_violated",
    "Gpy.C84_induced_mean",
    "Gpy.C84_lumped",
    "Gpy.C84_lumped_cautious",
    "Gpy.C84_lumped_one"
   ],
   "note": "Proved for exact arithmetic with splu as a correct and complete linear solver, cg with its default relative residual 1e-5, KD-tree balls by their contract. compact_kernel=True is shown to change results (C84_compact_violated) unless the kernel vanishes beyond the support found (C84_compact). lump_K3=True computes the regression with the row sums on the diagonal (C84_lumped), never reports less variance than without for kernels with non-negative values (C84_lumped_cautious), and raises for a single training observation (C84_lumped_one)."
  },
  {
   "property": "C85",
   "status": "proved",
   "theorems": [
    "Gpy.C85_formula",
    "Gpy.C85_missing",
    "Gpy.C85_common",
    "Gpy.C85_identity",
    "Gpy.C85_world",
    "Gpy.C85_rest",
    "Gpy.C85_hull",
    "Gpy.C85_local"
   ],
   "note": "Real arithmetic; the handles' transformations are lists as in the code (IndexError modelled)."
  },
  {
   "property": "C86",
   "status": "proved",
   "theorems": [
    "Gpy.C86_rigid",
    "Gpy.C86_scale",
    "Gpy.C86_doublearea",
    "Gpy.C86_areas"
   ],
   "note": "Real arithmetic. Vertices in 3D; the model takes V as a list of vectors, so any map preserving distances qualifies. grad/stiffness of triangle meshes are in other claims."
  },
  {
   "property": "C87",
   "status": "proved",
   "theorems": [
    "Gpy.C87_signed",
    "Gpy.C87_total"
   ],
   "note": "The sum is over OrientedManifold meshes (each directed side once): overlapping sheets are allowed geometrically."
  },
  {
   "property": "C88",
   "status": "proved",
   "theorems": [
    "Gpy.C88_lengths",
    "Gpy.C88_mass",
    "Gpy.C88_grad",
    "Gpy.C88_integral",
    "Gpy.C88_barycenters",
    "Gpy.C88_barycenter_hull"
   ],
   "note": "grad of a polyline needs edges of non-zero length (division by zero otherwise); real arithmetic."
  },
  {
   "property": "C89",
   "status": "partial",
   "theorems": [
    "Gpy.C89_density",
    "Gpy.C89_mass",
    "Gpy.C89_support",
    "Gpy.C89_unknown",
    "Gpy.C89_second",
    "Gpy.C89_knots_violated"
   ],
   "note": "The convolution power is defined by integrals in Spec/BSpline.lean. Proved off the knots (n=2, 4) and everywhere (n=1, 3); the knots are C89_knots_violated: for n=2 the strict inequalities leave out 1/2, for n=4 both pieces are added there."
  },
  {
   "property": "C90",
   "status": "partial",
   "theorems": [
    "Gpy.C90_strain",
    "Gpy.C90_stiffness",
    "Gpy.C90_kernel",
    "Gpy.C90_few_triangles_violated"
   ],
   "note": "Proved: strain matrix = gradients, stiffness matrix symmetric, its form is the elastic energy, nonnegative, kernel = rigid motions (for meshes with at most 2m vertices). Violated: with more vertices than twice the number of triangles (e.g. a single triangle) the call raises, because G[0:2m,0:2m] also cuts columns (linear_elasticity_stiffness.py:68)."
  },
  {
   "property": "C91",
   "status": "partial",
   "theorems": [
    "Gpy.C91_step",
    "Gpy.C91_fixed",
    "Gpy.C91_momentum",
    "Gpy.C91_energy",
    "Gpy.C91_returns",
    "Gpy.C91_free",
    "Gpy.C91_von_mises_violated"
   ],
   "note": "Proved: weak form of implicit Euler, fixed values, momentum, energy, free motion and existence. Violated: the returned stress is sqrt(1/2) times the von Mises stress (linear_elasticity.py:96)."
  },
  {
   "property": "C92",
   "status": "proved",
   "theorems": [
    "Gpy.C92_layout",
    "Gpy.C92_isometry",
    "Gpy.C92_constant"
   ],
   "note": "Real arithmetic; degenerate triangles (division by zero, root of a negative number) are failures in the model. n may be given or inferred."
  },
  {
   "property": "C93",
   "status": "proved",
   "theorems": [
    "Gpy.C93_distance",
    "Gpy.C93_lipschitz",
    "Gpy.C93_zero",
    "Gpy.C93_default"
   ],
   "note": "use_cpp=False; on top of the model of squared_distance with the box tree."
  },
  {
   "property": "C94",
   "status": "partial",
   "theorems": [
    "Gpy.C94_result",
    "Gpy.C94_refused",
    "Gpy.C94_edges",
    "Gpy.C94_distinct",
    "Gpy.C94_regular_violated"
   ],
   "note": "Proved: circle, chain, constant angle. Violated: linspace includes 2*pi, so the last vertex repeats the first, the last edge has length zero and the result is a regular polygon for no n (C94_regular_violated)."
  },
  {
   "property": "C95",
   "status": "partial",
   "theorems": [
    "Gpy.C95_planar",
    "Gpy.C95_orthogonal",
    "Gpy.C95_aliased_violated",
    "Gpy.C95_spatial_partial",
    "Gpy.C95_spatial_violated"
   ],
   "note": "Planar: proved for all inputs; independence if num_modes is at most the number of grid points per axis, violated by aliasing otherwise (C95_aliased_violated). Spatial: only round(sqrt(num_modes//8)) modes per axis are considered; for 2..455 modes two columns are equal (C95_spatial_violated)."
  },
  {
   "property": "C96",
   "status": "partial",
   "theorems": [
    "Gpy.C96_nearest",
    "Gpy.C96_linear",
    "Gpy.C96_range",
    "Gpy.C96_total",
    "Gpy.C96_single",
    "Gpy.C96_log_violated"
   ],
   "note": "Integer colour tables, real arithmetic, interp1d by its documented algorithm. Violated: with log=True and data below machine epsilon the assertion maximum >= minimum fails instead of clamping (C96_log_violated)."
  },
  {
   "property": "C97",
   "status": "partial",
   "theorems": [
    "Gpy.C97_optimal",
    "Gpy.C97_returns",
    "Gpy.C97_error",
    "Gpy.C97_factor_violated",
    "Gpy.C97_mosek_optimal",
    "Gpy.C97_mosek_returns",
    "Gpy.C97_any_solver",
    "Gpy.C97_default_returns",
    "Gpy.C97_solver_errors",
    "Gpy.C97_mosek_error",
    "Gpy.C97_mosek_factor_violated",
    "Gpy.C97_mosek_repeated_violated"
   ],
   "note": "Both branches and the solver dispatch are modelled; the cone solvers are parameters constrained by their contract (they return a minimiser of the problem handed over when one exists, or a failure status), and so is MOSEK's sparse Cholesky factorisation of Q. For MOSEK the theorems assume that Q is symmetric (only its lower triangle is read) and that no index is repeated in k. Partial: a non-square factor L of the documented shape (?,n) is refused by both (C97_factor_violated, C97_mosek_factor_violated); with an index repeated in k MOSEK's branch keeps the last value and returns a vector even if the constraints contradict each other (C97_mosek_repeated_violated)."
  },
  {
   "property": "C98",
   "status": "partial",
   "theorems": [
    "Gpy.C98_nested",
    "Gpy.C98_maximal",
    "Gpy.C98_directions",
    "Gpy.C98_best_rigid",
    "Gpy.C98_best_all",
    "Gpy.C98_warm_start",
    "Gpy.C98_warm_true",
    "Gpy.C98_scale_only",
    "Gpy.C98_total",
    "Gpy.C98_warm_start_violated",
    "Gpy.C98_axis_angle"
   ],
   "note": "signed_distance and ray_mesh_intersect enter as arbitrary answers; samples and random numbers are parameters; exact arithmetic. The warm start guarantee is proved for the same samples and rotations that survive the axis-angle conversion exactly; it is violated for a seed dictionary computed from other samples (C98_warm_start_violated)."
  },
  {
   "property": "C99",
   "status": "partial",
   "theorems": [
    "Gpy.C99_pieces",
    "Gpy.C99_vertices",
    "Gpy.C99_volume",
    "Gpy.C99_first_row_violated",
    "Gpy.C99_lost_tets_violated",
    "Gpy.C99_single_tet_violated",
    "Gpy.C99_out_of_range_violated"
   ],
   "note": "Exact real arithmetic; maxCoeff is any argmax; undefined behaviour (index out of range, endless loop on empty T) is `none`, and the guarantees are for runs that return. Completeness (the pieces fill the input) is violated: row 0 is bogus, the last tets are dropped, and a mesh of one material crashes (C99_*_violated)."
  },
  {
   "property": "C100",
   "status": "proved",
   "theorems": [
    "Gpy.C100_leaves",
    "Gpy.C100_gradient",
    "Gpy.C100_laplacian",
    "Gpy.C100_coarse_gradient_violated",
    "Gpy.C100_coarse_laplacian_violated",
    "Gpy.C100_octree_violated",
    "Gpy.C100_single_cell_violated"
   ],
   "note": "Exact arithmetic over an ordered field. The *_violated theorems show that the conditions in the statement are needed: beside larger leaves, on a single cell and on octrees the stronger claim fails."
  },
  {
   "property": "C101",
   "status": "partial",
   "theorems": [
    "Gpy.Ply.C101_read_says",
    "Gpy.Ply.C101_write_says",
    "Gpy.Ply.C101_colour_count",
    "Gpy.Ply.C101_binary_roundtrip",
    "Gpy.Ply.C101_ascii_roundtrip",
    "Gpy.Ply.C101_colours_violated",
    "Gpy.Ply.C101_short_normals_violated",
    "Gpy.Ply.C101_order_violated",
    "Gpy.Ply.C101_polygons_violated",
    "Gpy.Ply.C101_squares",
    "Gpy.Ply.C101_short_indices_violated",
    "Gpy.Ply.C101_names_violated"
   ],
   "note": "Headers are lists of tokens and the payload is a list of bytes; numbers are bit patterns, text formatting is a contract (TextIO.Ok; an instance is given). Proved: every Readable document in the three formats is read faithfully; the written file; binary and text round trips without colours; refusal of wrong colour counts. Violations proved: colours are stored four bytes per component and come back scrambled (for every mesh), short normals run past the array, coordinates in another order, mixed polygons, 16-bit indices, names that concatenate alike. None stands for every outcome after which nothing is promised (exception, undefined behaviour)."
  },
  {
   "property": "C102",
   "status": "partial",
   "theorems": [
    "Gpy.Stl.C102_read_binary",
    "Gpy.Stl.C102_read_text",
    "Gpy.Stl.C102_write",
    "Gpy.Stl.C102_roundtrip_binary",
    "Gpy.Stl.C102_roundtrip_text",
    "Gpy.Stl.C102_crash_binary",
    "Gpy.Stl.C102_crash_text",
    "Gpy.Stl.C102_empty_violated"
   ],
   "note": "Bytes; a float is its four bytes; printing and scanning of floats is a contract (FloatIO.Ok; an instance is given). Proved: binary and text files are read facet by facet, what is written, both round trips, merging, refusal of every cut-off file. Partial because a mesh without faces does not come back from binary (C102_empty_violated), and a text file cut right before the d of the last endsolid is accepted if the uninitialised byte happens to be a d (not covered). write to an unopenable path is not modelled."
  },
  {
   "property": "C103",
   "status": "proved",
   "theorems": [
    "Gpy.Cage.C103_result",
    "Gpy.Cage.C103_tight",
    "Gpy.Cage.C103_answers"
   ],
   "note": "The offset, decimation, boolean and intersection routines (libigl, CGAL) are arbitrary partial functions; exact arithmetic."
  },
  {
   "property": "C104",
   "status": "partial",
   "theorems": [
    "Gpy.BadQuad.C104_quadtree",
    "Gpy.BadQuad.C104_octree",
    "Gpy.BadQuad.C104_faces_of_cube",
    "Gpy.BadQuad.C104_H_violated"
   ],
   "note": "Proved for all trees with exact arithmetic; the documented claim that H is empty for a quadtree is false (C104_H_violated)."
  },
  {
   "property": "C105",
   "status": "proved",
   "theorems": [
    "Gpy.Arcs.C105_returns",
    "Gpy.Arcs.C105_feasible",
    "Gpy.Arcs.C105_all",
    "Gpy.Arcs.C105_projection",
    "Gpy.Arcs.C105_schedule",
    "Gpy.Arcs.C105_intersections"
   ],
   "note": "Real arithmetic; nearest-neighbour search, std::sort, the random numbers and the scheduling of whole iterations are parameters. Samples at the same place are supposed to have the same distance (else the search can move a point to the centre)."
  },
  {
   "property": "C106",
   "status": "partial",
   "theorems": [
    "Gpy.Arcs.C106_returns",
    "Gpy.Arcs.C106_tune_partial",
    "Gpy.Arcs.C106_iter_3d",
    "Gpy.Arcs.C106_threads",
    "Gpy.Arcs.C106_tune_2d",
    "Gpy.Arcs.C106_antipodal_violated"
   ],
   "note": "Proved in the plane. In space it is false: a point whose target is diametrically opposite is moved off its sphere into the ball (the rotation axis is the zero vector) and kept, C106_antipodal_violated; proved there: at most the distance for any number of rounds, and exactly the distance for a round without opposite targets. Distances to the reconstructed mesh and winding numbers are parameters."
  },
  {
   "property": "C107",
   "status": "proved",
   "theorems": [
    "Gpy.Raster.C107_refused",
    "Gpy.Raster.C107_returns",
    "Gpy.Raster.C107_outside",
    "Gpy.Raster.C107_band",
    "Gpy.Raster.C107_threads"
   ],
   "note": "Real arithmetic; the GPU version is not modelled. Flat arrays with uninitialised contents are modelled as such."
  },
  {
   "property": "C108",
   "status": "partial",
   "theorems": [
    "Gpy.Arcs.C108_returns",
    "Gpy.Arcs.C108_cloud_partial",
    "Gpy.Arcs.C108_equivariant",
    "Gpy.Arcs.C108_cloud_2d"
   ],
   "note": "Proved in the plane; in space 'exactly at the distance' fails after fine tuning (C106_antipodal_violated), proved there with 'at most'. point_cloud_to_mesh is an arbitrary function. Exact arithmetic; default values of resolution and number of searches computed from the number of samples are parameters."
  },
  {
   "property": "C109",
   "status": "proved",
   "theorems": [
    "Gpy.Spheres.C109_terminates",
    "Gpy.Spheres.C109_cut",
    "Gpy.Spheres.C109_max_iter",
    "Gpy.Spheres.C109_returned"
   ],
   "note": "Flow, remeshing and sampling are arbitrary functions of the iteration number here; C110 models the flow."
  },
  {
   "property": "C110",
   "status": "partial",
   "theorems": [
    "Gpy.Spheres.C110_step_size",
    "Gpy.Spheres.C110_counted",
    "Gpy.Spheres.C110_line_search",
    "Gpy.Spheres.C110_minimises",
    "Gpy.Spheres.C110_error",
    "Gpy.Spheres.C110_targets",
    "Gpy.Spheres.C110_side",
    "Gpy.Spheres.C110_fixed_point",
    "Gpy.Spheres.C110_valid",
    "Gpy.Spheres.C110_boundary",
    "Gpy.Spheres.C110_closed_violated",
    "Gpy.Spheres.C110_line_mass"
   ],
   "note": "Masses are positive by hypothesis (shown for curves in C110_line_mass; for surfaces see C12). The closest points (face and barycentric coordinates) are those of squared_distance (C25, C26)."
  },
  {
   "property": "C111",
   "status": "partial",
   "theorems": [
    "Gpy.LineRemesh.C111_split",
    "Gpy.LineRemesh.C111_collapse",
    "Gpy.LineRemesh.C111_slide",
    "Gpy.LineRemesh.C111_normal",
    "Gpy.LineRemesh.C111_remesh",
    "Gpy.LineRemesh.C111_returns",
    "Gpy.LineRemesh.C111_small_violated",
    "Gpy.LineRemesh.C111_unused_feature_violated"
   ],
   "note": "Exact arithmetic; squared_distance enters as any routine that returns a closest point (C25, C26). C111_small_violated and C111_unused_feature_violated show where the code does not do what its users expect."
  },
  {
   "property": "C112",
   "status": "partial",
   "theorems": [
    "Gpy.Merge.C112_triangles",
    "Gpy.Merge.C112_segments",
    "Gpy.Merge.C112_seam",
    "Gpy.Merge.C112_order_violated"
   ],
   "note": "The 3D case assumes that boundary vertices come first in V_active (true of remesh_botsch output, not checked): C112_order_violated shows the result otherwise. Exact arithmetic; np.unique with a total order."
  },
  {
   "property": "C113",
   "status": "partial",
   "theorems": [
    "Gpy.SampleSdf.C113_vdf",
    "Gpy.SampleSdf.C113_new",
    "Gpy.SampleSdf.C113_limit",
    "Gpy.SampleSdf.C113_removal",
    "Gpy.SampleSdf.C113_old_stay",
    "Gpy.SampleSdf.C113_no_samples_violated"
   ],
   "note": "The random trial points are an arbitrary input; np.argsort is any function that sorts. C113_no_samples_violated: U0=None with remove_samples=False raises (line 1010), although lines 1012-1017 handle it."
  },
  {
   "property": "C114",
   "status": "partial",
   "theorems": [
    "Gpy.Swept.C114_position",
    "Gpy.Swept.C114_one_keyframe_violated",
    "Gpy.Swept.C114_keyframes",
    "Gpy.Swept.C114_rotation",
    "Gpy.Swept.C114_velocity",
    "Gpy.Swept.C114_scale_velocity_violated",
    "Gpy.Swept.C114_local_velocity"
   ],
   "note": "Exact reals. Violations: one keyframe reads out of range; with changing scales the velocity of the scale is multiplied by the scale once more. Orientations that are different but nearly equal (where the code interpolates without the sine) are not covered by the velocity theorem."
  },
  {
   "property": "C115",
   "status": "proved",
   "theorems": [
    "Gpy.SweptAlign.C115_rotation",
    "Gpy.SweptAlign.C115_alignment",
    "Gpy.SweptAlign.C115_alignment_exact",
    "Gpy.SweptAlign.C115_keyframes",
    "Gpy.SweptAlign.C115_turning_back"
   ],
   "note": "Exact reals. A keyframe whose two neighbours coincide has no direction (C115_turning_back): the code divides by zero there."
  },
  {
   "property": "C116",
   "status": "partial",
   "theorems": [
    "Gpy.Descent.C116_descent",
    "Gpy.Descent.C116_history",
    "Gpy.Descent.C116_seed_times_violated",
    "Gpy.Descent.C116_seed_voxel",
    "Gpy.Descent.C116_revisit_violated"
   ],
   "note": "Violations: the seeds are queued with the time of the seed before (one zero too many), the voxel is the one whose lower corner, not centre, is next to the seed, and a start inside a recorded interval may get a result worse than the start. The assertion that the search stays below 100 function values is not modelled (it is off in release builds)."
  },
  {
   "property": "C117",
   "status": "proved",
   "theorems": [
    "Gpy.Cont.C117_cubes",
    "Gpy.Cont.C117_history"
   ],
   "note": "Exact reals; the hash map is a function; the result of marching_cubes (libigl) on the grid is not modelled."
  },
  {
   "property": "C118",
   "status": "proved",
   "theorems": [
    "Gpy.Cont.C118_terminates",
    "Gpy.Cont.C118_region"
   ],
   "note": "Exact reals; times of the seeds in [0,1] as swept_volume makes them."
  },
  {
   "property": "C119",
   "status": "partial",
   "theorems": [
    "Gpy.Dual.C119_mesh",
    "Gpy.Dual.C119_corners",
    "Gpy.Dual.C119_closed",
    "Gpy.Dual.C119_winding",
    "Gpy.Dual.C119_plane",
    "Gpy.Dual.C119_returns",
    "Gpy.Dual.C119_hole_violated",
    "Gpy.Dual.C119_tiny_violated"
   ],
   "note": "mesh topology, closedness, winding and absence of exceptions proved for all inputs; two natural readings are false and recorded as _violated (samples equal to the isovalue leave holes; tiny samples raise); SVD, PCA, closest point queries, sort and shuffle are arbitrary functions"
  },
  {
   "property": "C120",
   "status": "proved",
   "theorems": [
    "Gpy.Dual.C120_nets",
    "Gpy.Dual.C120_inside",
    "Gpy.Dual.C120_plane"
   ],
   "note": "proved for every option with outer = 0; linear interpolation includes the code's +1e-16 in the denominator, hence the 1e-16 in the value"
  },
  {
   "property": "C121",
   "status": "proved",
   "theorems": [
    "Gpy.Dual.C121_energy",
    "Gpy.Dual.C121_step",
    "Gpy.Dual.C121_bounded",
    "Gpy.Dual.C121_stays",
    "Gpy.Dual.C121_truncated"
   ],
   "note": "proved for the step function (minimizeQef) under the contract of Eigen's JacobiSVD (IsSvd); real arithmetic"
  },
  {
   "property": "C122",
   "status": "proved",
   "theorems": [
    "Gpy.Spsr.C122_mean2",
    "Gpy.Spsr.C122_mean3",
    "Gpy.Spsr.C122_returns2",
    "Gpy.Spsr.C122_average2",
    "Gpy.Spsr.C122_linear",
    "Gpy.Spsr.C122_returns3",
    "Gpy.Spsr.C122_average3"
   ],
   "note": "gaussian_filter, bicg are parameters; bicg's documented stopping rule is the hypothesis. Numbers are exact reals. The subspace solver is not modelled. Grids with fewer than 8 nodes in a leading coordinate are not covered (offsets of the point stencil then coincide). The exact return condition and the average are proved in 2D and in 3D."
  },
  {
   "property": "C123",
   "status": "partial",
   "theorems": [
    "Gpy.Spsr.C123_cov3_partial",
    "Gpy.Spsr.C123_cov3_violated",
    "Gpy.Spsr.C123_variance2",
    "Gpy.Spsr.C123_returns2"
   ],
   "note": "splu is a parameter with the contract that a returned solution is exact. 2D: proved. 3D: the covariance entries of edges whose midpoint is an inner node (one away from the border at the start, two at the end) are right (C123_cov3_partial), but edges at the corner miss neighbours at offsets such as (0,2,2), so the claim is false there (C123_cov3_violated)."
  },
  {
   "property": "C124",
   "status": "partial",
   "theorems": [
    "Gpy.Spsr.C124_default_needs_origin",
    "Gpy.Spsr.C124_default_violated",
    "Gpy.Spsr.C124_default2",
    "Gpy.Spsr.C124_spacing_ignored_violated",
    "Gpy.Spsr.C124_vertices2",
    "Gpy.Spsr.C124_vertices3_violated"
   ],
   "note": "Claims hold in 2D where stated; the default grid and the 3D vertex order are violated (theorems say so)."
  },
  {
   "property": "C125",
   "status": "partial",
   "theorems": [
    "Gpy.PointCloud.C125_returns",
    "Gpy.PointCloud.C125_similarity",
    "Gpy.PointCloud.C125_translation",
    "Gpy.PointCloud.C125_options",
    "Gpy.PointCloud.C125_small",
    "Gpy.PointCloud.C125_scale_violated"
   ],
   "note": "PoissonRecon is an arbitrary function of options, points and normals; exact arithmetic. Violated: scaling (C125_scale_violated)."
  },
  {
   "property": "C126",
   "status": "proved",
   "theorems": [
    "Gpy.Dual.C126_cell",
    "Gpy.Dual.C126_triangles",
    "Gpy.Dual.C126_batch",
    "Gpy.Dual.C126_spheres",
    "Gpy.Dual.C126_anew",
    "Gpy.Dual.C126_faces",
    "Gpy.Dual.C126_local",
    "Gpy.Dual.C126_contact",
    "Gpy.Dual.C126_face_plane"
   ],
   "note": "In exact arithmetic; the closest-point routines of libigl (point_mesh_squared_distance, AABB) are parameters, their contract is IsQuery (exists_isQuery shows that it can be met). C126_spheres, _cell, _batch, _triangles, _anew: the assignment; C126_local, _contact: the local surface and the contact points; C126_face_plane, _faces: face points, for all outer iterations of all runs (Reached). Degenerate triangles (Gram determinant below 1e-12) get weights (1,0,0), contact points nearer than 1e-9 to a centre are replaced by the centre."
  },
  {
   "property": "C127",
   "status": "proved",
   "theorems": [
    "Gpy.Dual.C127_shared",
    "Gpy.Dual.C127_average",
    "Gpy.Dual.C127_update"
   ],
   "note": "In exact arithmetic; the last right singular vector of Eigen is a parameter, its contract is IsPca (exists_isPca shows that it can be met). C127_shared: for all outer iterations of all runs (Reached); C127_average, C127_update: the new normals, with the four cells characterised by their edges. With two vertices along the axis process_edge skips the edge, and its normals are not averaged; positions are shared only up to the 1e-16 of lerp_t."
  },
  {
   "property": "C128",
   "status": "partial",
   "theorems": [
    "Gpy.C128_plain",
    "Gpy.C128_unknown",
    "Gpy.C128_prefix_partial",
    "Gpy.C128_prefix_violated",
    "Gpy.C128_spline_exists_unique",
    "Gpy.C128_interpolated",
    "Gpy.C128_range_violated",
    "Gpy.C128_negative_violated",
    "Gpy.C128_channels"
   ],
   "note": "All 35 tables are part of the model. interp1d(kind='cubic') is a parameter with the contract of the not-a-knot spline (existence and uniqueness proved). Violated: for sequential and diverging maps the n colours are not the first n of the map (C128_prefix_violated); interpolated colours leave 0..255 (C128_range_violated: 284, C128_negative_violated: -25)."
  },
  {
   "property": "C129",
   "status": "partial",
   "theorems": [
    "Gpy.C129_direct",
    "Gpy.C129_tree",
    "Gpy.C129_tree_dims",
    "Gpy.C129_unsigned",
    "Gpy.C129_unsigned_default",
    "Gpy.C129_tree_violated"
   ],
   "note": "The search of libigl is a parameter with the contract that it returns a closest point (exists_closestOk: such a search exists). Proved for explicit elements and for the default in space. Violated: without elements in the plane the precomputed tree is that of the closed polyline, the call itself uses the points (C129_tree_violated). Exact arithmetic; degenerate edges and triangles (0/0) excluded."
  },
  {
   "property": "C130",
   "status": "partial",
   "theorems": [
    "Gpy.C130_space",
    "Gpy.C130_plane",
    "Gpy.C130_default",
    "Gpy.C130_open_violated",
    "Gpy.C130_precompute"
   ],
   "note": "libigl's closest point search and fast winding number are parameters (contracts: a closest point; within one half of the winding number). Violated for open polylines (C130_open_violated: value 0 off the mesh)."
  },
  {
   "property": "C131",
   "status": "partial",
   "theorems": [
    "Gpy.C131_first_hit",
    "Gpy.C131_agree",
    "Gpy.C131_near_violated",
    "Gpy.C131_precompute"
   ],
   "note": "Embree is a parameter; its contract EmbreeOk (first hit at or after tnear, with its weights) is assumed and shown to be satisfiable (embree_exists). The rounding of cast<float> is an arbitrary function. Violated: hits closer than 1e-4 are missed, so the two paths of the same function disagree (C131_near_violated)."
  },
  {
   "property": "C132",
   "status": "partial",
   "theorems": [
    "Gpy.C132_x_fastest_partial",
    "Gpy.C132_cube_partial",
    "Gpy.C132_cube_violated",
    "Gpy.C132_x_fastest_violated"
   ],
   "note": "igl::marching_cubes is a parameter; its contract McOk (vertices at the crossed lattice edges, first coordinate fastest) is assumed and shown satisfiable (mc_exists); the triangles are not modelled. Full statement fails in the code: the C++ lambda names its size parameters nx, nz, ny but is called with nx, ny, nz (C132_cube_violated, C132_x_fastest_violated); proved where the swap does no harm."
  },
  {
   "property": "C133",
   "status": "partial",
   "theorems": [
    "Gpy.C133_boolean",
    "Gpy.C133_boolean_chain",
    "Gpy.C133_decimate",
    "Gpy.C133_in_element",
    "Gpy.C133_in_element_violated"
   ],
   "note": "libigl is a parameter with the contracts BooleanOk, DecimateOk, InElementOk, each shown satisfiable; the solid of a mesh is any notion the library gets right. Violated: in_element_aabb in dimension other than 2 and 3 (C133_in_element_violated)."
  },
  {
   "property": "C134",
   "status": "proved",
   "theorems": [
    "Gpy.C134_upsample_topology"
   ],
   "note": "For method='upsample'. The hypothesis 'no two triangles on the same three vertices' is needed: C18_pillow_counterexample."
  },
  {
   "property": "C135",
   "status": "proved",
   "theorems": [
    "Gpy.C135_loop_iterate"
   ],
   "note": "Extends C19 (one step) and C134. The at-least-three-neighbours hypothesis of C19 is derived from the absence of twin triangles."
  },
  {
   "property": "C136",
   "status": "proved",
   "theorems": [
    "Gpy.C136_remesh_topology",
    "Gpy.C136_python"
   ],
   "note": "libigl contracts as in C79 (Spec/Remesh.LibOk); closed meshes."
  },
  {
   "property": "C137",
   "status": "proved",
   "theorems": [
    "Gpy.C137_polyline",
    "Gpy.C137_length"
   ],
   "note": "Exact arithmetic over any field where 2 is not 0 (length over the reals). V must be given: with V=None the polyline branch raises."
  },
  {
   "property": "C138",
   "status": "proved",
   "theorems": [
    "Gpy.Local.C138_active",
    "Gpy.Local.C138_rest"
   ],
   "note": "The remesher is an arbitrary function; exact arithmetic; the property that boundary vertices come first in its result is a hypothesis (see C112). In this branch the code passes no feature vertices to the remesher, so feature_detection has no effect there."
  },
  {
   "property": "C139",
   "status": "proved",
   "theorems": [
    "Gpy.Dual.C139_interpolates",
    "Gpy.Dual.C139_gradient",
    "Gpy.Dual.C139_normals",
    "Gpy.Dual.C139_affine"
   ],
   "note": "Exact arithmetic; the specification (trilinear function, box corners, partial derivatives with HasDerivAt) is separate from the model. Grid spacing above 1e-12, as the code assumes."
  },
  {
   "property": "C140",
   "status": "proved",
   "theorems": [
    "Gpy.Spsr.C140_subspace2",
    "Gpy.Spsr.C140_returns2"
   ],
   "note": "Exact arithmetic (the code rounds the projected covariance to float32). The objective, the edges and the covariance are the specification of C123; the modes that of C95. The modes are not orthogonal on the grid, which is why the fit is one by one."
  },
  {
   "property": "C141",
   "status": "proved",
   "theorems": [
    "Gpy.C141_cylinder",
    "Gpy.C141_torus",
    "Gpy.C141_cone"
   ],
   "note": "Real arithmetic. For r >= R, which the asserts of torus accept, no claim is made (the surface then meets itself)."
  },
  {
   "property": "C142",
   "status": "proved",
   "theorems": [
    "Gpy.SphereSamples.C142_batch",
    "Gpy.SphereSamples.C142_values",
    "Gpy.SphereSamples.C142_kept",
    "Gpy.SphereSamples.C142_default",
    "Gpy.SphereSamples.C142_min_h",
    "Gpy.SphereSamples.C142_invalid",
    "Gpy.SphereSamples.C142_features"
   ],
   "note": "rng.choice is a list of different numbers (its contract), np.argsort any sorting, trial points arbitrary; the flow and remeshing do not change the samples. Exact arithmetic."
  }
 ]
}