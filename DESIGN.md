# Formal model of gpytoolbox in Lean 4 — design

## 1. Trusted base

* Lean 4.33.0's kernel, and the Mathlib installed next to it (only for definitions such as `Real.sqrt`,
  `Finset.sum`, `Matrix`, and for proved lemmas; no Mathlib theorem is assumed, all are kernel-checked).
* Axioms: every theorem depends at most on `propext`, `Classical.choice`, `Quot.sound`
  (checked with `#print axioms` by the gate).  No axioms of our own.
* The reading of the Python/C++ source: each model definition cites the file and lines it models.  Nothing is extracted
  mechanically; the code is not run.
* Semantics assumed for numpy/scipy primitives (see section 2).

## 2. Modelling conventions

* **Numbers.** Floating-point rounding, overflow, NaN and ±0 are *not* modelled.  Geometry is over an arbitrary linearly
  ordered field `K` wherever only `+ - * / ≤` occur (so it can be instantiated with ℚ and evaluated), and over ℝ where
  `sqrt`, `arccos`, `atan2` occur.  Index arrays are `Int`/`Nat` (unbounded; int32/int64 overflow not modelled).
* **Arrays.** A dense numpy array is a `List` of rows.  `A[i]` out of range is an error value (`none`) where the code can
  reach it.  `assert` and raised exceptions are `none`/`Except`.
* **numpy.unique** = the strictly increasing list of distinct values; `return_index` = first occurrence;
  `return_inverse`, `return_counts` in the obvious way (`Verif/Np`).  This is numpy's documented contract.
* **scipy.sparse** matrices are functions `i j ↦ value` obtained by summing the COO triplets (documented behaviour of
  `csr_matrix((data,(i,j)))`).
* **argsort**, random number generators, linear solvers, `scipy.sparse.csgraph.connected_components` and user supplied
  callbacks are *parameters*; theorems hold for all parameters satisfying the stated contract (or for all of them).
* Loops become folds / structural recursion / fuel recursion with a proof that the fuel suffices.
* The compiled C++ accelerations (libigl/CGAL bindings) are not modelled, except where stated (`read_obj.cpp`,
  `write_obj.cpp`, `particle_swarm.cpp`, ... ).

## 3. Layout

`Verif/Np` numpy primitives and their lemmas · `Verif/Model` model of the code · `Verif/Spec` small independent
specifications · `Verif/Proofs` helper lemmas · `Verif/Props` the property theorems (named `Cxx_...`), each followed by an
`example` showing that a concrete non-trivial input meets the hypotheses.

## 4. Plan per property

C01 model `array_correspondence` literally (two `unique` calls, index and inverse); prove the first-occurrence spec.
C02–C04 model `halfedges`, `edges`, `boundary_edges`, ... as list functions; spec by counting occurrences among the
 undirected halfedges.  C03 is false of the code: prove the negation on a witness and `_partial` for closed meshes.
C05 model `halfedge_edge_map`; C06 `triangle_triangle_adjacency` via C01.
C07, C08 model the triplets of `dec_d0`, `dec_d1`; prove `d1 d0 = 0` by cancelling the two halfedges of every edge.
C09–C11 model `cotangent_weights_intrinsic`, `cotangent_laplacian_intrinsic`, `grad`; algebra over a field, positivity by
 Heron/Lagrange identity.
C12 model three mass matrices; per-triangle identity, then sum.
C13 prove for h1,h2; negate h0 by a concrete two-triangle mesh; `_partial` when each vertex has one triangle.
C14 model the loop tracing with fuel; invariant "edges listed so far + edges left = boundary edges".
C15–C17 model renumberings; connected components as a parameter with contract.  C15: the empty-E case of the code violates
 the claim (witness); C17 also pins down the rounding rule used to identify vertices.
C18, C19 model `subdivide` (one step, iterated).  Several Loop steps need that no two triangles share all three vertices
 (`NoTwin`): a pillow of two triangles is a counterexample.  C19: bow-tie vertices, unreferenced vertices and trailing unused
 vertices are shown to break the claim on witnesses.
C20–C23, C54, C55 quadtree arrays; reachable states by induction over `subdivide_quad` calls.  The invariant gives every row a dyadic
 address (level, integer coordinates); boxes, adjacency codes and gradedness become arithmetic on addresses; the theorems are
 stated in terms of boxes only (`Spec/Quadtree`).  C55: in 3D the code ignores the third axis (witness).
C24, C25, C27, C30, C49 model trees; a general branch-and-bound theorem (pruning with a valid lower bound never loses the
 minimum), instantiated for each traversal.
C26 model `pointTriangleDistance` (Eberly) region by region over an ordered field; prove optimality by the variational
 inequality.
C28, C29 model Woo's ray/box and Möller–Trumbore.
C31–C33 model generators as index functions; prove for all sizes by arithmetic.
C34–C36 finite differences and grids as index functions.
C37, C38 algebra over a field.
C39, C50 model the writer/reader on tokenised lines.
C40–C42 state machines driven by an arbitrary list of random draws. C40 also against a specification of the moves (`Spec/Swarm.lean`): the records of the code are a best point of the set of visited positions.
C43 quadratic optimisation with solver as parameter.
C44 algebra; false for antiparallel vectors in 3D (negation + partial).
C45 via `Complex.arg` / `Real.Angle`.
C46 angles sum to π per triangle (ℝ), then count.
C47, C48 lists over an ordered field.
C51, C52 model `edge_edge_distance`, `triangle_triangle_distance` branch by branch; C51 by the variational inequality;
 C52 by separating slabs.
C53 angles over ℝ; the small-length special case of `tip_angles_intrinsic` violates the claim.
C56 the conforming tilings: faces of neighbouring cubes carry the same diagonals; violated for the types whose cubes are mirrored wrongly (witness).
C57 model the format dispatch on strings; `fmt[1:]` drops the first character of an explicit format (violated).
C58 model the sampling map; the push-forward of the uniform measure on the square is shown to be uniform with Mathlib's change of variables.
C59, C60 model the polygon functions over ℝ; degenerate/ambiguous inputs violate the claim (witnesses) and are excluded in `_partial`.
C61 model icosphere = normalised iterated subdivision; invariants: manifold, Euler characteristic 2, positive volume of every triangle cone.
C62–C64 model `faces`, `boundary_faces`, `halffaces`, `volume`; count occurrences of undirected faces; divergence theorem by cancelling interior faces.
C65, C66 model triplets and the depth-first search; reachability as reflexive-transitive closure.
C67, C68 model mixed FEM matrices; algebra of sums (`Matrix`), kernel computed from per-triangle identities.
C69–C71 model normals over ℝ. C72 model the spline with `Int.floor`; interpolation and continuity of value and derivative at the knots.
C73–C75 model the C++ splitting pass on sized arrays (out-of-range access = `none`).  Invariant `SInv` (all five tables consistent after every split) by induction
 over the edges; geometry by additivity of area/volume under midpoint splits.  C74 is false (out-of-range access on boundary edges).
C76 models the C++ flipping pass on the same arrays; `igl::flip_edge` is a parameter with the contract `FlipSpec`.  Invariant `EqInv` (edge data structure correct, valences
exact, adjacency table complete, mesh reached by good flips) by induction over the edges; completeness because before the first flip the adjacency table is exact.
C77 models the C++ relaxation pass (in-place smoothing, then projection); the smoothed positions are characterised by the recursion `Smoothed`; loops by induction over the vertices.

C78 models the C++ collapsing pass: the cost callback and the code after `igl::decimate` (union-find with path halving, renumbering, de-duplication); decimate itself is a relation (`CollapseStep`, `IsDecimated`). Invariant over the sequence of collapses; union-find by a rank argument. Two counterexamples are machine-checked.
C79 composes the models of C74-C78 into the C++ loop; libigl functions are parameters with contracts (`LibOk`). Loop invariant `RInv` by induction over the number of iterations.
C80 models the Python wrapper (detection of sharp edges through the model of `dihedral_angles`, reordering through `np.unique`/`argsort`/`np.delete`, the uninitialised index array) on top of C79.
- **C81** `squared_exponential_kernel`: one pair of rows; derivative options against `HasDerivAt`, covariance (`PsdKernel`: symmetric, all finite quadratic forms non-negative) over pairs (point, optional derivative).
- **C82** `compactly_supported_normal_kernel`: same, plus exact support.
- **C83** `matrix_from_function`, `cov_matrix_from_function`: triplets of the Kronecker products, `hstack`/`vstack` of sparse blocks; entries against the list of observations (`obs`).
- **C84** `gaussian_process`: constructor and `predict`; the covariance against the least mean squared error of linear prediction (`predError`, `IsLeast`); inducing points by comparison of quadratic forms; `compact_kernel` bisection modelled, found wrong; `lump_K3` by diagonal dominance.
- **C85** `linear_blend_skinning`: loop over the columns of the weights as a monadic fold; sum formula, invariances and convex hull from it.
- **C86** `halfedge_lengths`, `doublearea`, `cotangent_weights`, `massmatrix`, `dec_h0/h1/h2(inv)` called with vertices: all factor through the squared lengths, so invariance is equality of those; areas against the cross product.
- **C87** signed `doublearea`: sides of the triangles cancel in pairs in the shoelace sum.
- **C88** polyline cases of `doublearea`, `massmatrix`, `grad`; `barycenters`.
- **C89** `compactly_supported_normal`: box splines defined by iterated integrals (`Spec/BSpline`), identified with truncated powers (`Proofs/BSplineTp`), then compared piece by piece with the code's polynomials; found wrong at the knots.

- **C90** Model/Elasticity.lean models `linear_elasticity_stiffness` for planar meshes with the sparse block operations (row and column slices, hstack, vstack, block_diag); Spec/Elasticity.lean says what a gradient on a triangle, the energy density and a rigid motion are. The form of the assembled matrix is computed block by block; the kernel is found by rigidity of each triangle and propagation across shared edges. Failure for n > 2m is proved.
- **C91** `linear_elasticity` on top of the model of `min_quad_with_fixed` with an abstract linear solver. Stationarity of the result gives the weak form; energy decay by testing with U - U0; momentum by testing with rigid motions; existence from positive definiteness. The stress is shown to be sqrt(1/2) times the von Mises stress.
- **C92** `grad_intrinsic`: layout of a triangle from its lengths, gradient of the padded planar copies times the selection matrix. The layout is shown to have the given lengths; the gradient on it solves the two corner equations; the Gram determinant formula gives the isometry with the embedded gradient.
- **C93** `unsigned_distance` with `use_cpp=False` on top of `squared_distance` and the box tree (C25/C26); Lipschitz by the triangle inequality.
- **C94** `regular_circle_polyline`: explicit vertices; chord lengths from the addition theorems; the duplicate vertex is a theorem for every `n`.
- **C95** `grid_laplacian_eigenfunctions`: both branches with `argsort` by contract. Independent specification: smooth solutions of the Neumann eigenvalue problem on the box. Lowest modes by a pigeonhole argument, orthogonality by telescoping trapezoidal sums.
- **C96** `apply_colormap`: `interp1d` by its algorithm (searchsorted on midpoints / nodes). Specification: first nearest node, convex combination of neighbours, rounding to nearest even.
- **C97** `min_l1_with_fixed` (SCS): assembly of P, A, b, c, cone sizes as in the code; SCS is a parameter with its documented contract. Specification: the energy written out with block norms. Proof: feasible points of the cone program correspond to vectors with slack at least the block norms; optimal slack equals the norm. The MOSEK branch is modelled as the task it builds (variable bounds, linear constraints, affine expressions, quadratic and rotated cones), MOSEK and its Cholesky factorisation being parameters; the same correspondence is proved for it, and `minL1` models the choice between the solvers, including the fallback to SCS without the module or a license.
- **C98** `matryoshka`: all helpers as in the code, on top of the particle swarm model of C40; queries against A are parameters. Specification: `Nested` writes out the transformed points and the ray conditions. Proof: bisection invariant (feasible below, infeasible above), monotonicity of the bisection in the feasible set, tracker invariant over the list of evaluations, Rodrigues' formula and its inverse by polynomial identities of rotation matrices.
- **C99** `upper_envelope` (C++): every routine of `upper_envelope.cpp` as in the code, padding, growth, stale counters and all. Specification: `PointOf` (barycentric points of an input tet with interpolated labels), `Wins`, `totalVol`. Proof: invariant `proper tets ++ zero rows`, every corner is a point of the input tet, edge splits preserve hulls and total volume, recorded midpoints are on their edges and fresh.
- **C100** `quadtree_gradient`, `quadtree_laplacian`: triplet lists as in the code, `csr_matrix` adds duplicates. Specification: `rowApply` (matrix times vector), `sampled`, `affine2`, `quadratic2`, and the boxes and `Touches` of `Spec/Quadtree`. Proof: every side of a leaf in a graded tree has no neighbour, one leaf not smaller, or exactly two half-size leaves (`SideSpec`), whose centres balance.
- **C101** PLY: model tinyply's header parser, requests through hashed names, the two passes over the payload and its three codecs, the wrapper and the writer; a separate `Doc` says what a file says; refinement of the reader on `Readable` documents by simulation of the passes, the writer by the bytes left in each array, and the round trip by composing the two.
- **C102** STL: model microstl's line reader, its state machine, the guess of the format, the binary reader and both writers byte by byte; a separate `Line`/`SaysFacets` says what a text file says; invariants of the machine over the lines, refinement of the writers to such files, crash points by the lines of a prefix (`no line begins with endsolid`) and by counting bytes (binary).
- **C103** `lazy_cage`: the loop over an abstract state, with the external routines as partial functions; invariant of the bisection (width, what is known at both ends, the last cage) by induction on the rounds.
- **C104** `bad_quad_mesh_from_quadtree`: corners of all leaves lie on the grid of the smallest leaf (from the invariant of C20), so rounding at 1/100 of it merges exactly the equal ones (C17); rows of the renumbered arrays.
- **C105** Model/SphereTree (sAABB.cpp as a tree with boxes; the breadth-first search finds exactly the spheres containing the point, up to k), Model/Resolve (intersections of circles and spheres), Model/Feasible (the loop with its threads as a fold over any schedule). Proofs: induction over the tree, the queue and the iterations of the local search; linear combinations for the intersection formulas.
- **C106** Model/FineTune: both loops of a round as folds over schedules, the rotation towards the target and its line search, and the loop over rounds. One invariant lemma for any property that the points of a sphere and of the arcs have; instantiated with 'at the distance' in the plane, 'at most the distance' in space.
- **C107** Model/Raster: the flat arrays with arbitrary initial contents, nested loops over boxes and windows, the grids of the threads. Proofs: loop order and embedding injective, so a fold of updates is a function on cells; floor/ceil inequalities show that box and window miss nothing.
- **C108** Model/ReachArcs: normalisation, the two groups, fine tuning, mapping back; all parts are those of C105–C107. Proofs: reindexing of the groups, the invariant of the fine tuning for a relation (= in the plane, ≤ in space), bounding box of an affine image.
- **C109** Model/ReachSpheres: the loop as a state machine over arbitrary flow, remeshing, sampling; proof: a lexicographic measure (edge length above min_h, best error, counter) falls in each iteration; invariants for what is returned.
- **C110** Model/SphereFlow: targets, weights, line search, system matrix; proof: quadratic expansion of the energy around the solution, invertibility from positive masses, C43 for the fixed boundary.
- **C111** Model/LineRemesh: split, collapse loop with remove_unreferenced (C16), relaxation with projection; proof: each step is a renaming of vertices that keeps both columns of the edge array free of repetitions, ends, and reachability between features; measure: number of edges.
- **C112** _merge_meshes: index arithmetic of the two seams over lists; remove_duplicate_vertices model reused; invariant: the composed renumbering σ.
- **C113** _sample_sdf, _vdf: fold invariant over the dictionary "worst", then the prefix of a sorted permutation.
- **C114** Model interpolate_position (Catmull-Rom on translations, slerp with Eigen's threshold, scales), proved equal to the spline of catmull_rom_spline, derivatives by HasDerivAt.
- **C115** Model the Python part of swept_volume; Rodrigues rotation with its 1e-8 branch, alignment by induction over keyframes.
- **C116** Model gradient_descent_test with its records, loop invariant, induction over sequences of calls; the lists init_times and init_voxels.
- **C117** Model sparse_continuation (first overload) round by round with its tables; table facts by decide, invariant over rounds by induction.
- **C118** Lexicographic measure: voxels not visited, how often the values can still be lowered by 1e-3 or change sign, weights of the entries in the queue.
- **C119** model of the whole C++ pipeline with Eigen/libigl results as parameters; invariant that cells keep place, samples and slots through all passes; mesh extraction equals the dual of the sign pattern; counting of sides via the four edges of a grid face
- **C120** model of the cell generation and centroid step (Model/DualGrid, DualContouring); induction over the 12 slots
- **C121** least squares system of a cell as list of rows; A^T A is positive semidefinite, so left and right singular vectors agree; expansion of the residual around the solution
- **C122** kernel stencil index arithmetic by induction over the dimension, then the normal equations: the mean minimises the regularised misfit up to the residual.
- **C123** grid_neighbors order 2 rows give the kernel matrix (k1_exact2); the double solve is the quadratic form of the weights. In 3D: exact for inner rows, counterexample at the border.
- **C124** grid defaults as a function, cell membership of the extreme points; list order of meshgrid by induction.
- **C125** The bounding box arithmetic; the reconstruction is a parameter.
- **C126** Model of the assignment and refinement passes; closed form of the filter/zip loops, face-edge tables checked against corner offsets, face points by induction over outer iterations.
- **C127** Completeness of the edge lookup (12 edges by evaluation, all cells by translation), the list of an edge in closed form, lists of different edges do not overlap, folds over the lists, induction over outer iterations.
- **C128** C128: the tables and the lookup are modelled, the spline by Spec/Spline (moment equations, shooting for existence, maximum principle for uniqueness); finite facts about the tables by kernel evaluation of the whole dictionary.
- **C129** C129: model of the C++ branch with the library as a parameter; the weights are shown to be those of the closest point (ratio of distances on a segment, barycentric coordinates on a triangle).
- **C130** C130: model of signed_distance on top of C129, planar winding number from C45.
- **C131** C131: model the wrapper and the object over an Embree parameter with a contract; compare with the Python path of C30.
- **C132** C132: model the call through the binding with its parameter order over an igl parameter with a contract for the vertex set; prove exactness for the sizes where it holds, refute it for others.
- **C133** C133: model the dispatch of the three wrappers over libigl parameters with contracts.
- **C134** Topology of the iterated upsample: sides of the split mesh are a permutation of half sides and inner sides (Proofs of C18), boundary sides counted from it, Euler count through numEdges; reachability by projecting every new vertex to an end of its edge; induction over the iterations.
- **C135** One Loop step keeps the hypotheses (valence three from no twins, boundary vertices of the split mesh, all vertices used); induction over the iterations with products of stochastic matrices.
- **C136** each split, link-condition collapse, renaming and flip is shown to preserve 2*used vertices - triangles and to induce a bijection of connected components; induction over the passes and iterations
- **C137** induction over the iterations with a labelling of the rows by (old edge, number of the piece)
- **C138** one-ring selection characterised, C16 for both parts, C112 for the merge
- **C139** the trilinear function and its partial derivatives as specification; the derivative along an axis of a trilinear function is affine, so the computed slopes are compared by field arithmetic; uniqueness of derivatives gives the affine case
- **C140** the energy along one mode is a quadratic polynomial, so the projected diagonal system computes the best multiple of each mode; the variance is then a product of matrices
- **C141** Specification: implicit equations of the surfaces and their outward directions. Proof from the angle-addition formulas with the step angle 2pi/n, n at least 3.
- **C142** Model: the four sample arrays of the state and their changes in an iteration. Proof: invariant over the list of iterations, using the properties of resampling of C113.

## 5. Which code is modelled

Generated by `tools/coverage.py` from the citations in `lean/Verif/Model`: source file → model modules.  Where a file is modelled in part,
the comments at the definitions and the note in MANIFEST.json say which part.

* `gpytoolbox/adjacency_matrix.py` → `Adjacency`
* `gpytoolbox/angle_defect.py` → `Angles`
* `gpytoolbox/angle_defect_intrinsic.py` → `Angles`
* `gpytoolbox/apply_colormap.py` → `ApplyColormap`
* `gpytoolbox/approximate_hausdorff_distance.py` → `MinimumDistance`
* `gpytoolbox/array_correspondence.py` → `ArrayCorrespondence`
* `gpytoolbox/bad_quad_mesh_from_quadtree.py` → `BadQuad`
* `gpytoolbox/barycenters.py` → `Extrinsic`
* `gpytoolbox/barycentric_coordinates.py` → `SquaredDistance`
* `gpytoolbox/biharmonic_energy.py` → `Biharmonic`
* `gpytoolbox/biharmonic_energy_intrinsic.py` → `Biharmonic`
* `gpytoolbox/boundary_edges.py` → `Edges`
* `gpytoolbox/boundary_faces.py` → `Faces`
* `gpytoolbox/boundary_loops.py` → `BoundaryLoops`
* `gpytoolbox/boundary_vertices.py` → `Edges`
* `gpytoolbox/catmull_rom_spline.py` → `CatmullRom`
* `gpytoolbox/colormap.py` → `Colormap`, `ColormapData`
* `gpytoolbox/compactly_supported_normal.py` → `CompactNormal`
* `gpytoolbox/compactly_supported_normal_kernel.py` → `Kernels`
* `gpytoolbox/cone.py` → `Generators`
* `gpytoolbox/connected_components.py` → `Adjacency`
* `gpytoolbox/copyleft/do_meshes_intersect.py` → `LazyCage`
* `gpytoolbox/copyleft/lazy_cage.py` → `LazyCage`
* `gpytoolbox/copyleft/mesh_boolean.py` → `Wrappers`
* `gpytoolbox/cotangent_laplacian.py` → `Intrinsic`
* `gpytoolbox/cotangent_laplacian_intrinsic.py` → `Intrinsic`
* `gpytoolbox/cotangent_weights.py` → `Extrinsic`
* `gpytoolbox/cotangent_weights_intrinsic.py` → `Intrinsic`
* `gpytoolbox/cut_edges.py` → `CutEdges`
* `gpytoolbox/cylinder.py` → `Generators`
* `gpytoolbox/dec_d0.py` → `Dec`
* `gpytoolbox/dec_d1.py` → `Dec`
* `gpytoolbox/dec_h0.py` → `Extrinsic`
* `gpytoolbox/dec_h0_intrinsic.py` → `Intrinsic`
* `gpytoolbox/dec_h0inv.py` → `Extrinsic`
* `gpytoolbox/dec_h0inv_intrinsic.py` → `Intrinsic`
* `gpytoolbox/dec_h1.py` → `Extrinsic`
* `gpytoolbox/dec_h1_intrinsic.py` → `Intrinsic`
* `gpytoolbox/dec_h1inv.py` → `Extrinsic`
* `gpytoolbox/dec_h1inv_intrinsic.py` → `Intrinsic`
* `gpytoolbox/dec_h2.py` → `Extrinsic`
* `gpytoolbox/dec_h2_intrinsic.py` → `Intrinsic`
* `gpytoolbox/dec_h2inv.py` → `Extrinsic`
* `gpytoolbox/dec_h2inv_intrinsic.py` → `Intrinsic`
* `gpytoolbox/decimate.py` → `Wrappers`
* `gpytoolbox/dihedral_angles.py` → `Normals`
* `gpytoolbox/doublearea.py` → `Extrinsic`, `RandomPoints`, `SquaredDistance`
* `gpytoolbox/doublearea_intrinsic.py` → `Intrinsic`
* `gpytoolbox/dual_contouring_of_signed_distance_data.py` → `DualContouring`
* `gpytoolbox/edge_edge_distance.py` → `TriangleDistance`
* `gpytoolbox/edge_indices.py` → `Extrinsic`, `Winding`
* `gpytoolbox/edges.py` → `Edges`
* `gpytoolbox/faces.py` → `Faces`
* `gpytoolbox/fast_winding_number.py` → `SignedDistanceCpp`
* `gpytoolbox/fast_winding_number_precompute.py` → `SignedDistanceCpp`
* `gpytoolbox/fd_grad.py` → `Fd`
* `gpytoolbox/fd_interpolate.py` → `Fd`
* `gpytoolbox/fd_partial_derivative.py` → `Fd`
* `gpytoolbox/fixed_dof_solve.py` → `MinQuad`
* `gpytoolbox/gaussian_process.py` → `GaussianProcess`
* `gpytoolbox/grad.py` → `Biharmonic`, `Extrinsic`, `Grad`, `GradIntrinsic`
* `gpytoolbox/grad_intrinsic.py` → `GradIntrinsic`
* `gpytoolbox/grid_laplacian_eigenfunctions.py` → `GridEigen`
* `gpytoolbox/grid_neighbors.py` → `GridNeighbors`
* `gpytoolbox/halfedge_edge_map.py` → `Edges`, `HalfedgeEdgeMap`, `LoopSubdivide`
* `gpytoolbox/halfedge_lengths.py` → `Extrinsic`
* `gpytoolbox/halfedge_lengths_squared.py` → `Intrinsic`, `RandomPoints`
* `gpytoolbox/halfedges.py` → `Edges`
* `gpytoolbox/halffaces.py` → `Faces`
* `gpytoolbox/icosphere.py` → `Icosphere`
* `gpytoolbox/in_element_aabb.py` → `Wrappers`
* `gpytoolbox/in_quadtree.py` → `Quadtree`
* `gpytoolbox/initialize_aabbtree.py` → `Aabb`
* `gpytoolbox/initialize_quadtree.py` → `Quadtree`
* `gpytoolbox/linear_blend_skinning.py` → `Skinning`
* `gpytoolbox/linear_elasticity.py` → `Elasticity`
* `gpytoolbox/linear_elasticity_stiffness.py` → `Elasticity`
* `gpytoolbox/marching_cubes.py` → `MarchingCubes`
* `gpytoolbox/marching_squares.py` → `MarchingSquares`
* `gpytoolbox/massmatrix.py` → `Extrinsic`
* `gpytoolbox/massmatrix_intrinsic.py` → `Intrinsic`
* `gpytoolbox/matrix_from_function.py` → `GaussianProcess`
* `gpytoolbox/matryoshka.py` → `Matryoshka`
* `gpytoolbox/metropolis_hastings.py` → `Metropolis`
* `gpytoolbox/min_l1_with_fixed.py` → `MinL1`, `MinL1Mosek`
* `gpytoolbox/min_quad_with_fixed.py` → `MinQuad`
* `gpytoolbox/minimum_distance.py` → `MinimumDistance`
* `gpytoolbox/non_manifold_edges.py` → `Edges`
* `gpytoolbox/normalize_points.py` → `NormalizePoints`
* `gpytoolbox/particle_swarm.py` → `Matryoshka`, `Swarm`
* `gpytoolbox/per_face_normals.py` → `Normals`
* `gpytoolbox/per_vertex_normals.py` → `Normals`
* `gpytoolbox/point_cloud_to_mesh.py` → `PointCloud`
* `gpytoolbox/quadtree_boundary.py` → `Quadtree`
* `gpytoolbox/quadtree_children.py` → `Quadtree`
* `gpytoolbox/quadtree_gradient.py` → `QuadOperators`
* `gpytoolbox/quadtree_laplacian.py` → `QuadOperators`
* `gpytoolbox/random_points_on_mesh.py` → `RandomPoints`
* `gpytoolbox/ray_box_intersect.py` → `Ray`
* `gpytoolbox/ray_mesh_intersect.py` → `Ray`, `RayEmbree`
* `gpytoolbox/ray_mesh_intersect_precompute.py` → `RayEmbree`
* `gpytoolbox/ray_polyline_intersect.py` → `RayPolyline`
* `gpytoolbox/ray_triangle_intersect.py` → `Ray`
* `gpytoolbox/reach_for_the_arcs.py` → `Feasible`, `FineTune`, `Raster`, `ReachArcs`
* `gpytoolbox/reach_for_the_spheres.py` → `LineRemesh`, `LocalRemesh`, `MergeMeshes`, `ReachSpheres`, `SampleSdf`, `SphereFlow`, `SphereSamples`
* `gpytoolbox/read_dmat.py` → `Dmat`
* `gpytoolbox/read_mesh.py` → `Obj`, `Ply`, `Stl`
* `gpytoolbox/regular_circle_polyline.py` → `CirclePolyline`
* `gpytoolbox/regular_cube_mesh.py` → `CubeMesh`
* `gpytoolbox/regular_square_mesh.py` → `Generators`
* `gpytoolbox/remesh_botsch.py` → `RemeshPy`
* `gpytoolbox/remove_duplicate_vertices.py` → `RemoveDuplicate`, `RemoveUnreferenced`
* `gpytoolbox/remove_unreferenced.py` → `RemoveUnreferenced`
* `gpytoolbox/rotation_matrix_from_vectors.py` → `Rotation`, `SweptAlign`
* `gpytoolbox/signed_distance.py` → `SignedDistanceCpp`, `Winding`
* `gpytoolbox/signed_distance_polygon.py` → `SignedDistancePolygon`
* `gpytoolbox/squared_distance.py` → `Aabb`, `SquaredDistance`, `SquaredDistanceCpp`
* `gpytoolbox/squared_distance_precompute.py` → `SquaredDistanceCpp`
* `gpytoolbox/squared_distance_to_element.py` → `SquaredDistance`
* `gpytoolbox/squared_exponential_kernel.py` → `GaussianProcess`, `Kernels`
* `gpytoolbox/stochastic_poisson_surface_reconstruction.py` → `SpsrSubspace`, `StochasticPoisson`
* `gpytoolbox/subdivide.py` → `LoopSubdivide`, `PolylineSubdivide`, `Subdivide`
* `gpytoolbox/subdivide_quad.py` → `Quadtree`
* `gpytoolbox/swept_volume.py` → `SweptAlign`
* `gpytoolbox/tip_angles.py` → `Angles`
* `gpytoolbox/tip_angles_intrinsic.py` → `Angles`
* `gpytoolbox/torus.py` → `Generators`
* `gpytoolbox/traverse_aabbtree.py` → `Aabb`
* `gpytoolbox/triangle_triangle_adjacency.py` → `Edges`, `HalfedgeEdgeMap`
* `gpytoolbox/triangle_triangle_distance.py` → `TriangleDistance`
* `gpytoolbox/unsigned_distance.py` → `SquaredDistanceCpp`, `Unsigned`
* `gpytoolbox/upper_envelope.py` → `UpperEnvelope`
* `gpytoolbox/volume.py` → `Faces`
* `gpytoolbox/winding_number.py` → `SignedDistanceCpp`, `Winding`
* `gpytoolbox/write_mesh.py` → `Obj`, `Ply`, `Stl`
* `cpp/binding_aabb_tree.cpp` → `SquaredDistanceCpp`
* `cpp/binding_booleans.cpp` → `Wrappers`
* `cpp/binding_decimate.cpp` → `Wrappers`
* `cpp/binding_fast_winding_number_bvh.cpp` → `SignedDistanceCpp`
* `cpp/binding_in_element_aabb.cpp` → `Wrappers`
* `cpp/binding_marching_cubes.cpp` → `MarchingCubes`
* `cpp/binding_point_cloud_to_mesh.cpp` → `PointCloud`
* `cpp/binding_ray_mesh_intersector.cpp` → `RayEmbree`
* `cpp/binding_remesher_botsch.cpp` → `RemeshPy`
* `cpp/dual_contouring_of_signed_distance_data/Cell.cpp` → `DualGrid`, `DualHermite`, `DualQef`, `DualRefine`
* `cpp/dual_contouring_of_signed_distance_data/binding_dcsdd.cpp` → `DualContouring`
* `cpp/dual_contouring_of_signed_distance_data/contouring.cpp` → `DualContouring`, `DualExtract`, `DualGrid`, `DualRefine`
* `cpp/dual_contouring_of_signed_distance_data/hermite_update.cpp` → `DualGrid`, `DualHermite`, `DualRefine`
* `cpp/dual_contouring_of_signed_distance_data/vertex_refinement.cpp` → `DualRefine`
* `cpp/in_element_aabb.cpp` → `Wrappers`
* `cpp/microstl/microstl_wrappers.cpp` → `Stl`
* `cpp/particle_swarm.cpp` → `Swarm`
* `cpp/point_cloud_to_mesh.cpp` → `PointCloud`
* `cpp/ray_mesh_intersect_aabb.cpp` → `RayEmbree`
* `cpp/reach_for_the_arcs/fine_tune_point_cloud_iter.cpp` → `FineTune`
* `cpp/reach_for_the_arcs/locally_make_feasible.cpp` → `Feasible`
* `cpp/reach_for_the_arcs/outside_points_from_rasterization.cpp` → `Raster`
* `cpp/reach_for_the_arcs/resolve_collisions_on_sphere.cpp` → `Resolve`
* `cpp/reach_for_the_arcs/sAABB.cpp` → `Feasible`, `SphereTree`
* `cpp/read_obj.cpp` → `Obj`
* `cpp/remesher/collapse_edges.cpp` → `Collapse`, `Remesh`
* `cpp/remesher/equalize_valences.cpp` → `Equalize`, `Remesh`
* `cpp/remesher/remesh_botsch.cpp` → `Remesh`
* `cpp/remesher/split_edges.cpp` → `SplitEdges`
* `cpp/remesher/split_edges_until_bound.cpp` → `Remesh`, `SplitBound`
* `cpp/remesher/tangential_relaxation.cpp` → `Relax`, `Remesh`
* `cpp/swept_volume/gradient_descent_test.cpp` → `SweptDescent`
* `cpp/swept_volume/sparse_continuation.cpp` → `SweptContinuation`, `SweptDescent`
* `cpp/swept_volume/swept_volume.cpp` → `SweptAlign`, `SweptContinuation`, `SweptDescent`, `SweptPath`
* `cpp/tinyply/tinyply_wrappers.cpp` → `Ply`
* `cpp/upper_envelope.cpp` → `UpperEnvelope`
* `cpp/write_obj.cpp` → `Obj`

**Not modelled** (no theorem says anything about them): `gpytoolbox/offset_surface.py`, `gpytoolbox/png2poly.py`, `cpp/binding_curved_hessian_intrinsic.cpp`, `cpp/binding_fast_winding_number.cpp`, `cpp/binding_hausdorff_distance.cpp`, `cpp/binding_offset_surface.cpp`, `cpp/binding_particle_swarm.cpp`, `cpp/binding_point_mesh_squared_distance.cpp`, `cpp/binding_ray_mesh_intersect.cpp`, `cpp/binding_read_obj.cpp`, `cpp/binding_read_ply.cpp`, `cpp/binding_read_stl.cpp`, `cpp/binding_swept_volume.cpp`, `cpp/binding_upper_envelope.cpp`, `cpp/binding_write_obj.cpp`, `cpp/binding_write_ply.cpp`, `cpp/binding_write_stl.cpp`, `cpp/dual_contouring_of_signed_distance_data/Sphere.cpp`, `cpp/gpytoolbox_bindings_copyleft_core.cpp`, `cpp/gpytoolbox_bindings_core.cpp`, `cpp/reach_for_the_arcs/binding_fine_tune_point_cloud_iter.cpp`, `cpp/reach_for_the_arcs/binding_locally_make_feasible.cpp`, `cpp/reach_for_the_arcs/binding_outside_points_from_rasterization.cpp`, `cpp/swept_volume/fd_interpolate.cpp`, `cpp/swept_volume/random_points_on_mesh.cpp`.

Of the vendored headers, `cpp/tinyply/tinyply.h` is modelled in `Ply` and `cpp/microstl/microstl.h` in `Stl`; other headers (`.h`) and the external libigl, CGAL, numpy and scipy are not modelled except through the contracts of section 2.
