{
 "C03": {
  "note": "False of the code as stated (C03_violated gives a mesh where return_interior_indices / nonmanifold indices address wrong rows of E); proved for boundary indices on every mesh and for interior indices on closed meshes."
 },
 "C05": {
  "note": "Proved under the documented manifold+orientation hypothesis, and for every mesh in the non-manifold mode; a counterexample shows the silent wrong output without consistent orientation."
 },
 "C13": {
  "note": "h1, h2 proved. For h0 the claim is false of the code (C13_h0inv_h0_violated); proved at vertices with one incident triangle."
 },
 "C36": {
  "note": "Order one: exact for all grids without duplicate removal, or with at least three cells per direction. Any order without duplicate removal: exactly the cells reached by walks of 1..2^(order-1) steps, hence exact for order 2 and wrong for order 3 (C36_order3_violated). With duplicate removal: sound for every order, exact for order 2 on grids with >=5 cells per direction in 2D or without diagonals (except for the cell itself); witnesses for the failures on small grids, for the cell itself and for 3D diagonals."
 },
 "C53": {
  "note": "Proved with the small-angle approximation off, and with it for triangles with no side below its threshold; C53_small_violated shows that the angles do not sum to pi with the approximation."
 },
 "C56": {
  "note": "Proved for the two conforming types; C56_five_violated shows that type 'five' has unmatched interior faces."
 },
 "C57": {
  "note": "By extension: exact, any case. By explicit name: false of the code (C57_explicit_violated: every supported name is rejected because its first character is dropped)."
 },
 "C41": {
  "note": "The rows after the first: proved. The first value F[0] is never set by the code (C41_first_value_violated)."
 },
 "C44": {
  "note": "Proved for all nonzero vectors in 2D and all non-opposite ones in 3D; for opposite vectors in 3D the code returns minus the identity, which is no rotation (C44_opposite3_violated)."
 },
 "C59": {
  "note": "Magnitude proved for all inputs; sign proved when no vertex is at the height of the query (C59_sign_partial); C59_sign_violated: wrong sign at the centre of a diamond."
 },
 "C60": {
  "note": "Proved when no edge is numerically parallel to the direction; C60_collinear_violated: for an edge on the line of the ray the returned point is not on the polyline (line 75 uses a0 instead of a1)."
 },
 "C63": {
  "note": "false of the code for interior and non-manifold indices (C63_violated, a two-tetrahedron mesh); C63_indices_partial states exactly what the arrays address. Boundary indices are right (C62)."
 },
 "C65": {
  "note": "scipy's csr_matrix((vals,(i,j))) is modelled as a list of triplets whose duplicates are summed."
 },
 "C66": {
  "note": "scipy.sparse.csgraph.connected_components is modelled by its depth-first search (undirected graph given by the nonzero pattern)."
 },
 "C67": {
  "note": "mixed finite elements only (bc='mixedfem_zero_neumann'); positive area hypothesis as in C09/C12."
 },
 "C68": {
  "note": "bc='hessian' for planar meshes (2 columns); the 'curved_hessian' option is implemented in C++ and not modelled."
 },
 "C72": {
  "note": "real arithmetic; np.floor is Int.floor; one time value at a time (the code is vectorised)."
 },
 "C73": {
  "note": "real arithmetic; C++ arrays are modelled as sized arrays whose out-of-range accesses make the result none; the edge map input is specified by IsEdgeMap (igl::unique_edge_map's contract)."
 },
 "C74": {
  "note": "false of the code: C74_boundary_violated shows the out-of-range access for every oriented mesh with boundary and every choice of edges."
 },
 "C75": {
  "note": "one pass (the code's loop runs once); duplicates in feature_edges are excluded by hypothesis."
 },
 "C76": {
  "note": "igl::flip_edge is a parameter with the contract FlipSpec, shown satisfiable by rebuildFlip_spec; igl::unique_edge_map is modelled by its documented result IsEdgeMap (uniqueEdgeMap_isEdgeMap builds one for every mesh). Real arithmetic."
 },
 "C77": {
  "note": "igl::per_vertex_normals and igl::point_mesh_squared_distance are parameters (arbitrary normals; closest-point contract). Real arithmetic."
 },
 "C78": {
  "note": "igl::decimate is specified by its contract (Spec/Collapse): any sequence of allowed collapses that keeps the mesh closed. Two parts of the claim are refuted (C78_crease_violated, C78_foldover_violated); the rest is proved. Closed meshes only. Real arithmetic."
 },
 "C79": {
  "note": "libigl functions are parameters constrained by contracts (Spec/Remesh.LibOk; shown consistent by simpleLib_ok). Closed meshes only. Real arithmetic."
 },
 "C80": {
  "note": "libigl contracts as in C79; closed meshes (open ones run into the out-of-range accesses of C74). Feature indices non-negative. Real arithmetic."
 },
 "C81": {
  "note": "Rows are treated one by one, as the code does; `length` is the row's entry. Positive semidefiniteness including derivatives is proved through the expansion of the exponential as a positive combination of squares (limit argument), derivatives through HasDerivAt."
 },
 "C82": {
  "note": "The cubic B-spline is shown to be the auto-correlation of a hat function (integral of products), which gives positive semidefiniteness with derivatives in one dimension; products over coordinates by the Schur product theorem of Mathlib."
 },
 "C83": {
  "note": "All of matrix_from_function (sparse, dense, pattern) and cov_matrix_from_function without/with gradients."
 },
 "C84": {
  "note": "Proved for exact arithmetic with splu as a correct and complete linear solver, cg with its default relative residual 1e-5, KD-tree balls by their contract. compact_kernel=True is shown to change results (C84_compact_violated) unless the kernel vanishes beyond the support found (C84_compact). lump_K3=True computes the regression with the row sums on the diagonal (C84_lumped), never reports less variance than without for kernels with non-negative values (C84_lumped_cautious), and raises for a single training observation (C84_lumped_one)."
 },
 "C85": {
  "note": "Real arithmetic; the handles' transformations are lists as in the code (IndexError modelled)."
 },
 "C86": {
  "note": "Real arithmetic. Vertices in 3D; the model takes V as a list of vectors, so any map preserving distances qualifies. grad/stiffness of triangle meshes are in other claims."
 },
 "C87": {
  "note": "The sum is over OrientedManifold meshes (each directed side once): overlapping sheets are allowed geometrically."
 },
 "C88": {
  "note": "grad of a polyline needs edges of non-zero length (division by zero otherwise); real arithmetic."
 },
 "C89": {
  "note": "The convolution power is defined by integrals in Spec/BSpline.lean. Proved off the knots (n=2, 4) and everywhere (n=1, 3); the knots are C89_knots_violated: for n=2 the strict inequalities leave out 1/2, for n=4 both pieces are added there."
 },
 "C90": {
  "note": "Proved: strain matrix = gradients, stiffness matrix symmetric, its form is the elastic energy, nonnegative, kernel = rigid motions (for meshes with at most 2m vertices). Violated: with more vertices than twice the number of triangles (e.g. a single triangle) the call raises, because G[0:2m,0:2m] also cuts columns (linear_elasticity_stiffness.py:68)."
 },
 "C91": {
  "note": "Proved: weak form of implicit Euler, fixed values, momentum, energy, free motion and existence. Violated: the returned stress is sqrt(1/2) times the von Mises stress (linear_elasticity.py:96)."
 },
 "C92": {
  "note": "Real arithmetic; degenerate triangles (division by zero, root of a negative number) are failures in the model. n may be given or inferred."
 },
 "C93": {
  "note": "use_cpp=False; on top of the model of squared_distance with the box tree."
 },
 "C94": {
  "note": "Proved: circle, chain, constant angle. Violated: linspace includes 2*pi, so the last vertex repeats the first, the last edge has length zero and the result is a regular polygon for no n (C94_regular_violated)."
 },
 "C95": {
  "note": "Planar: proved for all inputs; independence if num_modes is at most the number of grid points per axis, violated by aliasing otherwise (C95_aliased_violated). Spatial: only round(sqrt(num_modes//8)) modes per axis are considered; for 2..455 modes two columns are equal (C95_spatial_violated)."
 },
 "C96": {
  "note": "Integer colour tables, real arithmetic, interp1d by its documented algorithm. Violated: with log=True and data below machine epsilon the assertion maximum >= minimum fails instead of clamping (C96_log_violated)."
 },
 "C97": {
  "note": "Both branches and the solver dispatch are modelled; the cone solvers are parameters constrained by their contract (they return a minimiser of the problem handed over when one exists, or a failure status), and so is MOSEK's sparse Cholesky factorisation of Q. For MOSEK the theorems assume that Q is symmetric (only its lower triangle is read) and that no index is repeated in k. Partial: a non-square factor L of the documented shape (?,n) is refused by both (C97_factor_violated, C97_mosek_factor_violated); with an index repeated in k MOSEK's branch keeps the last value and returns a vector even if the constraints contradict each other (C97_mosek_repeated_violated)."
 },
 "C98": {
  "note": "signed_distance and ray_mesh_intersect enter as arbitrary answers; samples and random numbers are parameters; exact arithmetic. The warm start guarantee is proved for the same samples and rotations that survive the axis-angle conversion exactly; it is violated for a seed dictionary computed from other samples (C98_warm_start_violated)."
 },
 "C99": {
  "note": "Exact real arithmetic; maxCoeff is any argmax; undefined behaviour (index out of range, endless loop on empty T) is `none`, and the guarantees are for runs that return. Completeness (the pieces fill the input) is violated: row 0 is bogus, the last tets are dropped, and a mesh of one material crashes (C99_*_violated)."
 },
 "C100": {
  "status": "proved",
  "note": "Exact arithmetic over an ordered field. The *_violated theorems show that the conditions in the statement are needed: beside larger leaves, on a single cell and on octrees the stronger claim fails."
 },
 "C101": {
  "status": "partial",
  "note": "Headers are lists of tokens and the payload is a list of bytes; numbers are bit patterns, text formatting is a contract (TextIO.Ok; an instance is given). Proved: every Readable document in the three formats is read faithfully; the written file; binary and text round trips without colours; refusal of wrong colour counts. Violations proved: colours are stored four bytes per component and come back scrambled (for every mesh), short normals run past the array, coordinates in another order, mixed polygons, 16-bit indices, names that concatenate alike. None stands for every outcome after which nothing is promised (exception, undefined behaviour)."
 },
 "C102": {
  "status": "partial",
  "note": "Bytes; a float is its four bytes; printing and scanning of floats is a contract (FloatIO.Ok; an instance is given). Proved: binary and text files are read facet by facet, what is written, both round trips, merging, refusal of every cut-off file. Partial because a mesh without faces does not come back from binary (C102_empty_violated), and a text file cut right before the d of the last endsolid is accepted if the uninitialised byte happens to be a d (not covered). write to an unopenable path is not modelled."
 },
 "C103": {
  "status": "proved",
  "note": "The offset, decimation, boolean and intersection routines (libigl, CGAL) are arbitrary partial functions; exact arithmetic."
 },
 "C104": {
  "note": "Proved for all trees with exact arithmetic; the documented claim that H is empty for a quadtree is false (C104_H_violated)."
 },
 "C105": {
  "note": "Real arithmetic; nearest-neighbour search, std::sort, the random numbers and the scheduling of whole iterations are parameters. Samples at the same place are supposed to have the same distance (else the search can move a point to the centre)."
 },
 "C106": {
  "note": "Proved in the plane. In space it is false: a point whose target is diametrically opposite is moved off its sphere into the ball (the rotation axis is the zero vector) and kept, C106_antipodal_violated; proved there: at most the distance for any number of rounds, and exactly the distance for a round without opposite targets. Distances to the reconstructed mesh and winding numbers are parameters.",
  "status": "partial"
 },
 "C107": {
  "note": "Real arithmetic; the GPU version is not modelled. Flat arrays with uninitialised contents are modelled as such."
 },
 "C108": {
  "note": "Proved in the plane; in space 'exactly at the distance' fails after fine tuning (C106_antipodal_violated), proved there with 'at most'. point_cloud_to_mesh is an arbitrary function. Exact arithmetic; default values of resolution and number of searches computed from the number of samples are parameters.",
  "status": "partial"
 },
 "C109": {
  "note": "Flow, remeshing and sampling are arbitrary functions of the iteration number here; C110 models the flow."
 },
 "C110": {
  "note": "Masses are positive by hypothesis (shown for curves in C110_line_mass; for surfaces see C12). The closest points (face and barycentric coordinates) are those of squared_distance (C25, C26).",
  "status": "partial"
 },
 "C111": {
  "note": "Exact arithmetic; squared_distance enters as any routine that returns a closest point (C25, C26). C111_small_violated and C111_unused_feature_violated show where the code does not do what its users expect.",
  "status": "partial"
 },
 "C112": {
  "note": "The 3D case assumes that boundary vertices come first in V_active (true of remesh_botsch output, not checked): C112_order_violated shows the result otherwise. Exact arithmetic; np.unique with a total order.",
  "status": "partial"
 },
 "C113": {
  "note": "The random trial points are an arbitrary input; np.argsort is any function that sorts. C113_no_samples_violated: U0=None with remove_samples=False raises (line 1010), although lines 1012-1017 handle it.",
  "status": "partial"
 },
 "C114": {
  "note": "Exact reals. Violations: one keyframe reads out of range; with changing scales the velocity of the scale is multiplied by the scale once more. Orientations that are different but nearly equal (where the code interpolates without the sine) are not covered by the velocity theorem.",
  "status": "partial"
 },
 "C115": {
  "note": "Exact reals. A keyframe whose two neighbours coincide has no direction (C115_turning_back): the code divides by zero there.",
  "status": "proved"
 },
 "C116": {
  "note": "Violations: the seeds are queued with the time of the seed before (one zero too many), the voxel is the one whose lower corner, not centre, is next to the seed, and a start inside a recorded interval may get a result worse than the start. The assertion that the search stays below 100 function values is not modelled (it is off in release builds).",
  "status": "partial"
 },
 "C117": {
  "note": "Exact reals; the hash map is a function; the result of marching_cubes (libigl) on the grid is not modelled.",
  "status": "proved"
 },
 "C118": {
  "note": "Exact reals; times of the seeds in [0,1] as swept_volume makes them.",
  "status": "proved"
 },
 "C119": {
  "note": "mesh topology, closedness, winding and absence of exceptions proved for all inputs; two natural readings are false and recorded as _violated (samples equal to the isovalue leave holes; tiny samples raise); SVD, PCA, closest point queries, sort and shuffle are arbitrary functions",
  "status": "partial"
 },
 "C120": {
  "note": "proved for every option with outer = 0; linear interpolation includes the code's +1e-16 in the denominator, hence the 1e-16 in the value",
  "status": "proved"
 },
 "C121": {
  "note": "proved for the step function (minimizeQef) under the contract of Eigen's JacobiSVD (IsSvd); real arithmetic",
  "status": "proved"
 },
 "C122": {
  "note": "gaussian_filter, bicg are parameters; bicg's documented stopping rule is the hypothesis. Numbers are exact reals. The subspace solver is not modelled. Grids with fewer than 8 nodes in a leading coordinate are not covered (offsets of the point stencil then coincide). The exact return condition and the average are proved in 2D and in 3D.",
  "status": "proved"
 },
 "C123": {
  "status": "partial",
  "note": "splu is a parameter with the contract that a returned solution is exact. 2D: proved. 3D: the covariance entries of edges whose midpoint is an inner node (one away from the border at the start, two at the end) are right (C123_cov3_partial), but edges at the corner miss neighbours at offsets such as (0,2,2), so the claim is false there (C123_cov3_violated)."
 },
 "C124": {
  "note": "Claims hold in 2D where stated; the default grid and the 3D vertex order are violated (theorems say so).",
  "status": "partial"
 },
 "C15": {
  "status": "partial",
  "note": "Proved for a nonempty list of cut edges (connected_components is a parameter with its contract). With an empty list the call raises instead of returning the mesh unchanged (C15_no_cuts_violated)."
 },
 "C35": {
  "status": "proved",
  "note": "All rows in 2D and 3D for all grid sizes, spacings and directions; exact reals. (The names contain fd_partial because the function is fd_partial_derivative; nothing is missing.)"
 },
 "C52": {
  "status": "partial",
  "note": "Proved for triangles above the function's absolute area threshold; below it the claim is false (C52_small_violated). Exact reals."
 },
 "C125": {
  "note": "PoissonRecon is an arbitrary function of options, points and normals; exact arithmetic. Violated: scaling (C125_scale_violated).",
  "status": "partial"
 },
 "C126": {
  "note": "In exact arithmetic; the closest-point routines of libigl (point_mesh_squared_distance, AABB) are parameters, their contract is IsQuery (exists_isQuery shows that it can be met). C126_spheres, _cell, _batch, _triangles, _anew: the assignment; C126_local, _contact: the local surface and the contact points; C126_face_plane, _faces: face points, for all outer iterations of all runs (Reached). Degenerate triangles (Gram determinant below 1e-12) get weights (1,0,0), contact points nearer than 1e-9 to a centre are replaced by the centre.",
  "status": "proved"
 },
 "C127": {
  "note": "In exact arithmetic; the last right singular vector of Eigen is a parameter, its contract is IsPca (exists_isPca shows that it can be met). C127_shared: for all outer iterations of all runs (Reached); C127_average, C127_update: the new normals, with the four cells characterised by their edges. With two vertices along the axis process_edge skips the edge, and its normals are not averaged; positions are shared only up to the 1e-16 of lerp_t.",
  "status": "proved"
 },
 "C128": {
  "note": "All 35 tables are part of the model. interp1d(kind='cubic') is a parameter with the contract of the not-a-knot spline (existence and uniqueness proved). Violated: for sequential and diverging maps the n colours are not the first n of the map (C128_prefix_violated); interpolated colours leave 0..255 (C128_range_violated: 284, C128_negative_violated: -25).",
  "status": "partial"
 },
 "C129": {
  "note": "The search of libigl is a parameter with the contract that it returns a closest point (exists_closestOk: such a search exists). Proved for explicit elements and for the default in space. Violated: without elements in the plane the precomputed tree is that of the closed polyline, the call itself uses the points (C129_tree_violated). Exact arithmetic; degenerate edges and triangles (0/0) excluded.",
  "status": "partial"
 },
 "C130": {
  "note": "libigl's closest point search and fast winding number are parameters (contracts: a closest point; within one half of the winding number). Violated for open polylines (C130_open_violated: value 0 off the mesh).",
  "status": "partial"
 },
 "C131": {
  "note": "Embree is a parameter; its contract EmbreeOk (first hit at or after tnear, with its weights) is assumed and shown to be satisfiable (embree_exists). The rounding of cast<float> is an arbitrary function. Violated: hits closer than 1e-4 are missed, so the two paths of the same function disagree (C131_near_violated).",
  "status": "partial"
 },
 "C132": {
  "note": "igl::marching_cubes is a parameter; its contract McOk (vertices at the crossed lattice edges, first coordinate fastest) is assumed and shown satisfiable (mc_exists); the triangles are not modelled. Full statement fails in the code: the C++ lambda names its size parameters nx, nz, ny but is called with nx, ny, nz (C132_cube_violated, C132_x_fastest_violated); proved where the swap does no harm.",
  "status": "partial"
 },
 "C133": {
  "note": "libigl is a parameter with the contracts BooleanOk, DecimateOk, InElementOk, each shown satisfiable; the solid of a mesh is any notion the library gets right. Violated: in_element_aabb in dimension other than 2 and 3 (C133_in_element_violated).",
  "status": "partial"
 },
 "C134": {
  "note": "For method='upsample'. The hypothesis 'no two triangles on the same three vertices' is needed: C18_pillow_counterexample.",
  "status": "proved"
 },
 "C135": {
  "note": "Extends C19 (one step) and C134. The at-least-three-neighbours hypothesis of C19 is derived from the absence of twin triangles.",
  "status": "proved"
 },
 "C136": {
  "note": "libigl contracts as in C79 (Spec/Remesh.LibOk); closed meshes.",
  "status": "proved"
 },
 "C137": {
  "note": "Exact arithmetic over any field where 2 is not 0 (length over the reals). V must be given: with V=None the polyline branch raises.",
  "status": "proved"
 },
 "C138": {
  "note": "The remesher is an arbitrary function; exact arithmetic; the property that boundary vertices come first in its result is a hypothesis (see C112). In this branch the code passes no feature vertices to the remesher, so feature_detection has no effect there.",
  "status": "proved"
 },
 "C139": {
  "note": "Exact arithmetic; the specification (trilinear function, box corners, partial derivatives with HasDerivAt) is separate from the model. Grid spacing above 1e-12, as the code assumes.",
  "status": "proved"
 },
 "C140": {
  "note": "Exact arithmetic (the code rounds the projected covariance to float32). The objective, the edges and the covariance are the specification of C123; the modes that of C95. The modes are not orthogonal on the grid, which is why the fit is one by one.",
  "status": "proved"
 },
 "C141": {
  "note": "Real arithmetic. For r >= R, which the asserts of torus accept, no claim is made (the surface then meets itself).",
  "status": "proved"
 },
 "C142": {
  "note": "rng.choice is a list of different numbers (its contract), np.argsort any sorting, trial points arbitrary; the flow and remeshing do not change the samples. Exact arithmetic.",
  "status": "proved"
 },
 "C40": {
  "note": "Exact arithmetic, objective values real or +infinity, random numbers as parameters. C40_moves_python and C40_moves_cpp determine every position and velocity of a run up to ties between equally good points."
 }
}