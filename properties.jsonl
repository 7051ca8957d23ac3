{"id": "C01", "title": "array_correspondence finds the first match or -1", "statement": "For integer arrays A and nonempty B, array_correspondence(A,B) returns a list f as long as A such that f[i]=j>=0 means B[j]==A[i] and no earlier B entry equals A[i], and f[i]==-1 exactly when A[i] does not occur in B (axis=None, and likewise for rows with axis=0).", "quantifier": "all finite arrays A and all nonempty finite arrays B, with arbitrary duplicates", "why_tests_cant": "the result depends on sorting, de-duplication and inverse permutations of arbitrary inputs; no finite test set covers all duplicate patterns", "anchors": ["src/gpytoolbox/array_correspondence.py:array_correspondence"]}
{"id": "C02", "title": "edges lists each undirected edge exactly once", "statement": "For every nonempty triangle list F, edges(F) contains a row {a,b} iff some triangle has {a,b} as two of its corners at consecutive positions, contains no edge twice (in either orientation), lists all boundary edges first (oriented as in their single triangle) and then the others in increasing (min,max) order.", "quantifier": "all nonempty triangle lists, manifold or not, consistently oriented or not", "why_tests_cant": "the set of meshes is infinite and includes non-manifold and inconsistently oriented ones", "anchors": ["src/gpytoolbox/edges.py:edges", "src/gpytoolbox/halfedges.py:halfedges"]}
{"id": "C03", "title": "edges' index outputs point at the right rows of E", "statement": "With return_boundary_indices / return_interior_indices / return_nonmanifold_indices, the returned index arrays address exactly the rows of the returned E that are boundary (one incident halfedge), interior (two or more), non-manifold (three or more).", "quantifier": "all nonempty triangle lists and all flag combinations", "why_tests_cant": "the error only shows on meshes whose boundary edges are not lexicographically first; tests on closed meshes never see it", "anchors": ["src/gpytoolbox/edges.py:edges"]}
{"id": "C04", "title": "boundary_edges, boundary_vertices, non_manifold_edges characterise incidence counts", "statement": "boundary_edges(F) is exactly the list of oriented edges whose undirected edge occurs once among the halfedges of F; boundary_vertices(F) is the strictly increasing list of their endpoints; non_manifold_edges(F) is the strictly lexicographically increasing list of undirected edges (min,max) that occur at least three times.", "quantifier": "all nonempty triangle lists", "why_tests_cant": "must hold for any incidence pattern", "anchors": ["src/gpytoolbox/boundary_edges.py", "src/gpytoolbox/boundary_vertices.py", "src/gpytoolbox/non_manifold_edges.py"]}
{"id": "C05", "title": "halfedge_edge_map's four outputs are mutually consistent", "statement": "Whenever halfedge_edge_map(F) (assume_manifold=True) returns on a mesh in which every undirected edge has at most two halfedges and two halfedges of an edge are opposite: he[f,i] is the i-th halfedge of face f, E[he_to_E[f,i]] is he[f,i] up to orientation, E_to_he[e,0] is a halfedge equal to E[e], E_to_he[e,1] is the opposite halfedge or (-1,-1) when e is a boundary edge.", "quantifier": "all consistently oriented manifold triangle lists with boundary", "why_tests_cant": "involves several index permutations composed; a wrong one is invisible on symmetric test meshes", "anchors": ["src/gpytoolbox/halfedge_edge_map.py:halfedge_edge_map"]}
{"id": "C06", "title": "triangle_triangle_adjacency is symmetric and geometrically right", "statement": "For a consistently oriented manifold F, TT[f,i]=g>=0 implies that halfedge i of f is the reverse of halfedge TTi[f,i] of g and TT[g,TTi[f,i]]=f, TTi[g,TTi[f,i]]=i; TT[f,i]=-1 (with TTi=-1) iff that halfedge has no opposite, i.e. is a boundary edge.", "quantifier": "all consistently oriented edge-manifold triangle lists", "why_tests_cant": "modular index arithmetic over arbitrary mesh sizes", "anchors": ["src/gpytoolbox/triangle_triangle_adjacency.py:triangle_triangle_adjacency"]}
{"id": "C07", "title": "discrete exterior derivatives compose to zero", "statement": "For every consistently oriented manifold mesh, dec_d1(F,...) @ dec_d0(F,...) is the zero matrix, whether or not E / E_to_he are passed in precomputed.", "quantifier": "all consistently oriented manifold triangle lists with or without boundary", "why_tests_cant": "an exactness identity over all meshes", "anchors": ["src/gpytoolbox/dec_d0.py:dec_d0", "src/gpytoolbox/dec_d1.py:dec_d1"]}
{"id": "C08", "title": "dec_d0 computes edge differences", "statement": "(dec_d0(F) @ u)[e] = u[E[e,0]] - u[E[e,1]] for every function u on the vertices; in particular constants are annihilated and, on any mesh, d0 u = 0 iff u is constant on every connected component.", "quantifier": "all nonempty triangle lists, all vertex functions", "why_tests_cant": "kernel statement over all functions and connectivity patterns", "anchors": ["src/gpytoolbox/dec_d0.py:dec_d0", "src/gpytoolbox/edges.py:edges"]}
{"id": "C09", "title": "cotangent Laplacian is symmetric with zero row sums", "statement": "cotangent_laplacian_intrinsic(l_sq,F,n) is a symmetric n x n matrix whose rows sum to zero, and (L u)[i] = sum over incident halfedges of the cotangent weight times (u[i]-u[j]).", "quantifier": "all triangle lists with indices < n and all squared-length tables with nonzero areas", "why_tests_cant": "matrix identity over all meshes and metrics", "anchors": ["src/gpytoolbox/cotangent_laplacian_intrinsic.py", "src/gpytoolbox/cotangent_weights_intrinsic.py"]}
{"id": "C10", "title": "DEC and finite-element Laplacians agree", "statement": "dec_d0(F)^T @ dec_h1_intrinsic(l_sq,F) @ dec_d0(F) == cotangent_laplacian_intrinsic(l_sq,F).", "quantifier": "all oriented manifold meshes with boundary, all squared-length tables", "why_tests_cant": "relates three independent assembly paths on arbitrary meshes", "anchors": ["src/gpytoolbox/dec_h1_intrinsic.py", "src/gpytoolbox/dec_d0.py", "src/gpytoolbox/cotangent_laplacian_intrinsic.py"]}
{"id": "C11", "title": "cotangent Laplacian is positive semidefinite and equals G^T A G", "statement": "For nondegenerate triangles in R^3, u^T cotangent_laplacian(V,F) u = sum_f area_f |grad u|_f^2 >= 0 for every u, i.e. L = grad(V,F)^T diag(areas) grad(V,F).", "quantifier": "all vertex arrays, all triangle lists with positive area, all functions u", "why_tests_cant": "positivity over a continuum of geometries, including obtuse triangles with negative weights", "anchors": ["src/gpytoolbox/cotangent_laplacian.py", "src/gpytoolbox/grad.py", "src/gpytoolbox/cotangent_weights_intrinsic.py"]}
{"id": "C12", "title": "mass matrices have total mass equal to the surface area and non-negative entries", "statement": "For every triangle mesh with positive areas massmatrix_intrinsic of type 'voronoi' (including the obtuse fallback), 'barycentric' and 'full' has entries >= 0 and entries summing to the total area; the first two are diagonal.", "quantifier": "all triangle lists and squared-length tables of nondegenerate triangles", "why_tests_cant": "depends on obtuse/acute case distinction per triangle", "anchors": ["src/gpytoolbox/massmatrix_intrinsic.py", "src/gpytoolbox/massmatrix.py"]}
{"id": "C13", "title": "dec_h0inv is the inverse of dec_h0 (and h1inv of h1, h2inv of h2)", "statement": "dec_hkinv_intrinsic(l_sq,F) @ dec_hk_intrinsic(l_sq,F) is the identity matrix for k=0,1,2 (where defined).", "quantifier": "all triangle meshes with positive areas", "why_tests_cant": "false for k=0 whenever a vertex has more than one triangle; a test on a single triangle passes", "anchors": ["src/gpytoolbox/dec_h0_intrinsic.py", "src/gpytoolbox/dec_h0inv_intrinsic.py", "src/gpytoolbox/dec_h1_intrinsic.py", "src/gpytoolbox/dec_h1inv_intrinsic.py", "src/gpytoolbox/dec_h2_intrinsic.py", "src/gpytoolbox/dec_h2inv_intrinsic.py"]}
{"id": "C14", "title": "boundary_loops partitions the boundary into closed loops", "statement": "Whenever boundary_loops(F) returns, the edges between cyclically consecutive vertices of the returned loops are exactly the boundary edges of F, each once; if no vertex is on more than two boundary edges, every boundary vertex is listed exactly once; and the function returns for every consistently oriented edge-manifold mesh whose boundary vertices have one incoming and one outgoing boundary edge.", "quantifier": "all triangle lists for which the function returns (edges), and all meshes with simple boundary (vertices, termination)", "why_tests_cant": "loop tracing over arbitrary boundary permutations", "anchors": ["src/gpytoolbox/boundary_loops.py:boundary_loops"]}
{"id": "C15", "title": "cut_edges only cuts the listed edges", "statement": "cut_edges(F,E) returns (G,I) with I[G]==F (every corner still maps to its old vertex), and two corners of the result are merged only if they were the same vertex in F; two triangles sharing an uncut manifold edge still share both its end points in G.", "quantifier": "all manifold triangle lists and all nonempty edge lists E", "why_tests_cant": "depends on connected components of a corner graph", "anchors": ["src/gpytoolbox/cut_edges.py:cut_edges"]}
{"id": "C16", "title": "remove_unreferenced keeps exactly the referenced vertices", "statement": "remove_unreferenced(V,F) returns V2,F2,I,J with V2[F2]==V[F] entrywise, V2 containing exactly the referenced vertices in their original order, J increasing, I[J[k]]==k and I[v]=-1 iff v is unreferenced; entries -1 of F stay -1.", "quantifier": "all vertex arrays and nonempty index arrays in range", "why_tests_cant": "renumbering must be right for all index patterns", "anchors": ["src/gpytoolbox/remove_unreferenced.py:remove_unreferenced"]}
{"id": "C17", "title": "remove_duplicate_vertices merges exactly equal (rounded) rows", "statement": "remove_duplicate_vertices(V,epsilon=0) returns unique rows SV and SVI,SVJ with SV==V[SVI], V==SV[SVJ], no two equal rows in SV; faces are remapped so SV[SF]==V[F]. With epsilon>0 merged vertices differ by at most epsilon in every coordinate.", "quantifier": "all vertex arrays, faces and tolerances", "why_tests_cant": "the rounding grid is a discontinuous function of the input", "anchors": ["src/gpytoolbox/remove_duplicate_vertices.py:remove_duplicate_vertices"]}
{"id": "C18", "title": "upsampling splits each triangle in four and keeps orientation", "statement": "subdivide(V,F,method='upsample',iters=k) has 4^k|F| faces and n + (number of edges) vertices per step; old vertices keep their indices and positions, each new vertex is the midpoint of one edge shared by all faces on it, the four children of a triangle have a quarter of its (vector) area each and sum to it; the returned matrix S satisfies Vu = S V.", "quantifier": "all consistently oriented edge-manifold triangle lists (without two triangles on the same three vertices, for more than one step), all vertex arrays, all iteration counts", "why_tests_cant": "for every connectivity and iteration count", "anchors": ["src/gpytoolbox/subdivide.py:subdivide"]}
{"id": "C19", "title": "Loop subdivision is affine invariant", "statement": "One Loop step computes Loop's (Warren's) masks: midpoints on boundary edges, 3/8,3/8,1/8,1/8 on interior edges, 3/4,1/8,1/8 at boundary vertices, beta and 1-n*beta at interior vertices of every valence n>=3; hence every row of the matrix is non-negative and sums to one, and subdivision commutes with affine maps.", "quantifier": "all consistently oriented manifold triangle lists in which every vertex is used, all valences", "why_tests_cant": "valence-dependent weights", "anchors": ["src/gpytoolbox/subdivide.py:subdivide"]}
{"id": "C20", "title": "quadtree subdivision yields a well-formed tree whose leaves tile the domain", "statement": "After any sequence of subdivide_quad calls on existing leaves of a freshly created root cell (graded or not), every non-root cell's parent lists it among its children, depth is parent's depth+1, width is half the parent's, the children of a cell tile it exactly, and therefore every point of the root box lies in a leaf and leaf interiors are disjoint.", "quantifier": "all histories of subdivisions, in 2D and 3D, graded or ungraded", "why_tests_cant": "all histories of operations", "anchors": ["src/gpytoolbox/subdivide_quad.py:subdivide_quad", "src/gpytoolbox/initialize_quadtree.py:initialize_quadtree"]}
{"id": "C21", "title": "quadtree adjacency codes are geometrically right", "statement": "At all times A[i,j]=d != 0 for two leaves exactly when the cells share a facet of positive measure in direction d (1 left, 2 right, 3 bottom, 4 top, 5 back, 6 front), and A[j,i] is the opposite code.", "quantifier": "all histories of subdivisions in 2D and 3D", "why_tests_cant": "the 4 look-up tables must be right for all relative depths and positions", "anchors": ["src/gpytoolbox/subdivide_quad.py:subdivide_quad"]}
{"id": "C22", "title": "graded quadtrees stay graded", "statement": "With graded=True, after any sequence of subdivisions any two adjacent leaves differ in depth by at most one.", "quantifier": "all histories of graded subdivisions", "why_tests_cant": "recursive neighbour splitting over all histories", "anchors": ["src/gpytoolbox/subdivide_quad.py:subdivide_quad"]}
{"id": "C23", "title": "in_quadtree finds a leaf containing the point", "statement": "in_quadtree(point,C,W,CH) returns a childless cell containing the point if the point is in the root box and (-1,-1) otherwise.", "quantifier": "all points and all quadtrees reachable by subdivision", "why_tests_cant": "all trees and all points, including points on shared faces", "anchors": ["src/gpytoolbox/in_quadtree.py:in_quadtree"]}
{"id": "C24", "title": "AABB trees are binary trees with one leaf per element and conservative boxes", "statement": "initialize_aabbtree(V,F) builds a tree with 2m-1 nodes (m elements) whose leaves are in bijection with elements, in which every node's box contains the boxes of its descendants and hence all their vertices.", "quantifier": "all vertex arrays and all nonempty element lists (coordinates of magnitude <= 10000 for the tightness of the boxes)", "why_tests_cant": "recursive median splitting with argsort over all inputs", "anchors": ["src/gpytoolbox/initialize_aabbtree.py:initialize_aabbtree"]}
{"id": "C25", "title": "AABB-accelerated squared distance equals the brute force minimum", "statement": "squared_distance(p,V,F,use_aabb=True) on the Python path returns the minimum over elements of the element distance, and an element index that attains it - the same value as without the tree.", "quantifier": "all query points, meshes and trees", "why_tests_cant": "branch-and-bound pruning must never discard the minimiser", "anchors": ["src/gpytoolbox/squared_distance.py:squared_distance", "src/gpytoolbox/traverse_aabbtree.py:traverse_aabbtree"]}
{"id": "C26", "title": "point-element distance is the true minimum over the element", "statement": "squared_distance_to_element(p,V,e) returns (d,b) with b barycentric weights (>=0, summing to one), d equal to the squared distance to the point they describe, and d <= squared distance to any point of the element, for points, segments longer than the threshold and nondegenerate triangles.", "quantifier": "all points and elements in R^3", "why_tests_cant": "seven-region case analysis over a continuum", "anchors": ["src/gpytoolbox/squared_distance_to_element.py:squared_distance_to_element"]}
{"id": "C27", "title": "minimum_distance is the minimum over pairs of elements", "statement": "For two nonempty triangle meshes whose triangles are above the area threshold of triangle_triangle_distance, minimum_distance returns a number that is the distance between some point of the one and some point of the other mesh, and no two points of the two meshes are closer.", "quantifier": "all pairs of such meshes, in any relative position, and all orders of ties in the tree construction", "why_tests_cant": "pruning correctness over all trees", "anchors": ["src/gpytoolbox/minimum_distance.py:minimum_distance"]}
{"id": "C28", "title": "ray_box_intersect reports a hit iff the ray meets the box", "statement": "ray_box_intersect(o,d,c,w) returns is_hit=True iff some point o+t d with t>=0 lies in the closed box, and then the returned point is such a point (the first one when o is outside, o itself when inside).", "quantifier": "all origins, nonzero directions and boxes, including axis-parallel rays", "why_tests_cant": "continuum of rays with degenerate directions", "anchors": ["src/gpytoolbox/ray_box_intersect.py:ray_box_intersect"]}
{"id": "C29", "title": "ray_triangle_intersect is sound and complete up to its determinant threshold", "statement": "If ray_triangle_intersect reports a finite t, then t>=0 and o+t d equals the point of the triangle with the returned barycentric data; if the ray meets the triangle and |det| >= 1e-6 a finite t is reported.", "quantifier": "all rays and triangles", "why_tests_cant": "continuum of inputs", "anchors": ["src/gpytoolbox/ray_triangle_intersect.py:ray_triangle_intersect"]}
{"id": "C30", "title": "ray_mesh_intersect returns the closest hit", "statement": "The Python path of ray_mesh_intersect returns for every ray the smallest hit parameter over all triangles, and a triangle attaining it; infinity and -1 when no triangle is hit.", "quantifier": "all rays, meshes and trees", "why_tests_cant": "pruning by boxes must never lose the first hit", "anchors": ["src/gpytoolbox/ray_mesh_intersect.py:ray_mesh_intersect"]}
{"id": "C31", "title": "regular_square_mesh is a valid triangulated grid", "statement": "regular_square_mesh(nx,ny) returns nx*ny vertices and 2(nx-1)(ny-1) triangles with in-range indices; they form a consistently oriented edge-manifold disk whose boundary is the perimeter of the grid, all have the same positive area, cover the square [-1,1]^2 and do not overlap.", "quantifier": "all grid sizes nx,ny >= 2", "why_tests_cant": "for every size", "anchors": ["src/gpytoolbox/regular_square_mesh.py:regular_square_mesh"]}
{"id": "C32", "title": "regular_cube_mesh tetrahedra are valid and fill the cube", "statement": "For each tetrahedral type, all indices are in range, every tetrahedron has positive signed volume, the volumes sum to one, the tetrahedra cover the unit cube and do not overlap; type 'hex' lists the eight corners of each cell in cyclic order.", "quantifier": "all grid sizes >= 2 in each direction and all tet types", "why_tests_cant": "for every size, with parity-dependent reflections", "anchors": ["src/gpytoolbox/regular_cube_mesh.py:regular_cube_mesh"]}
{"id": "C33", "title": "cylinder, torus and cone are oriented manifolds of the right topology", "statement": "cylinder(nx,nz), torus(nR,nr) and cone(nx,nz) have in-range indices, every directed halfedge occurs at most once, every halfedge of the torus has its opposite (closed), the cylinder's boundary is exactly the two rims and the cone's the bottom rim, and V-E+F = 0 (cone: 1).", "quantifier": "all sizes accepted by the asserts", "why_tests_cant": "wrap-around arithmetic for every size", "anchors": ["src/gpytoolbox/cylinder.py:cylinder", "src/gpytoolbox/torus.py:torus"]}
{"id": "C34", "title": "fd_interpolate weights form a partition of unity and reproduce (multi)linear functions", "statement": "For every point in the grid's bounding box the weight fd_interpolate gives to node j is the product over the coordinates of the hat function of (point-node)/h, i.e. (bi/tri)linear interpolation: the weights are non-negative, sum to one, address nodes in range, and reproduce every bilinear (2D) or trilinear (3D) function, in particular every affine one, exactly.", "quantifier": "all grid sizes, spacings, corners and points in the box, in 2D and 3D", "why_tests_cant": "continuum of points and every grid size", "anchors": ["src/gpytoolbox/fd_interpolate.py:fd_interpolate"]}
{"id": "C35", "title": "finite-difference derivatives are exact on affine functions", "statement": "Each row of fd_partial_derivative(gs,h,direction) is the difference quotient of the values at two neighbouring nodes in this direction, addresses only grid nodes, and fd_grad applied to samples of an affine function returns its slopes exactly at every staggered node.", "quantifier": "all grid sizes, spacings and directions, in 2D and 3D (in 1D the function raises an exception)", "why_tests_cant": "for every size", "anchors": ["src/gpytoolbox/fd_partial_derivative.py:fd_partial_derivative", "src/gpytoolbox/fd_grad.py:fd_grad"]}
{"id": "C36", "title": "grid_neighbors lists exactly the geometric neighbours", "statement": "grid_neighbors lists in column c exactly the cells of the grid reachable from cell c in at most `order` steps to neighbouring cells (with or without diagonals and the cell itself), and -1 otherwise. (Fails for order>=3, for grids with fewer than three cells in a direction and output_unique, and for order 2 in 3D with diagonals and output_unique.)", "quantifier": "all grid sizes in 2D and 3D, orders and option combinations", "why_tests_cant": "index arithmetic for every size", "anchors": ["src/gpytoolbox/grid_neighbors.py:grid_neighbors"]}
{"id": "C37", "title": "grad reproduces gradients of affine functions", "statement": "On a nondegenerate triangle mesh, grad(V,F) applied to u_i = <a,V_i>+c gives on each triangle the projection of a to its plane; with polylines the derivative with respect to arc length.", "quantifier": "all vertex arrays, faces with positive area, all affine functions", "why_tests_cant": "continuum of geometries", "anchors": ["src/gpytoolbox/grad.py:grad"]}
{"id": "C38", "title": "barycentric_coordinates inverts barycentric combination", "statement": "barycentric_coordinates(p,a,b,c) of a point in the plane of a nondegenerate triangle returns the unique weights that sum to one and combine to p.", "quantifier": "all nondegenerate triangles and points in their plane", "why_tests_cant": "continuum of inputs", "anchors": ["src/gpytoolbox/barycentric_coordinates.py:barycentric_coordinates"]}
{"id": "C39", "title": "OBJ write then read gives the mesh back", "statement": "For every triangle mesh and every combination of texture coordinates, texture faces, normals and normal faces, write_mesh succeeds and each of the two OBJ readers returns exactly the matrices written (with texture/normal faces defaulting to F when there is one coordinate per vertex, and -1 where the file has none), provided number formatting round-trips; the Python and the C++ writer produce the same characters.", "quantifier": "all triangle meshes (consistent shapes), option combinations, requested return values, both writers and both readers, any contents of uninitialised memory", "why_tests_cant": "round trip over all meshes", "anchors": ["src/gpytoolbox/write_mesh.py:write_mesh", "src/gpytoolbox/read_mesh.py:read_mesh", "src/cpp/read_obj.cpp", "src/cpp/write_obj.cpp"]}
{"id": "C40", "title": "particle_swarm returns the best evaluated point inside the bounds", "statement": "particle_swarm(fun,lb,ub,...) returns (x,f) with f = fun(x), lb <= x <= ub, and f <= every value of fun evaluated during the run; this holds for the Python and for the C++ implementation and every topology; an unknown topology raises in Python. The evaluated points are the positions of the particles, in order; each move is drawn towards the best point the particle has visited and the best point visited by the particles it listens to (all, or on a ring itself and its two neighbours).", "quantifier": "all objective functions, bounds, random draws and iteration counts", "why_tests_cant": "quantifies over all random histories", "anchors": ["src/gpytoolbox/particle_swarm.py:particle_swarm", "src/cpp/particle_swarm.cpp"]}
{"id": "C41", "title": "metropolis_hastings records exactly the accepted states with their values", "statement": "S and F returned by metropolis_hastings satisfy S[0]=x0, F[i] = f(S[i]) for all rows i>=1, and every later row is the first proposal, made from the row before, that was accepted with ratio > the drawn uniform number. (F[0] is never filled in: it is 0 instead of f(x0).)", "quantifier": "all unnormalised densities, proposals and random draws", "why_tests_cant": "quantifies over all random histories", "anchors": ["src/gpytoolbox/metropolis_hastings.py:metropolis_hastings"]}
{"id": "C42", "title": "random_points_on_mesh samples lie on the surface", "statement": "Every returned point is the barycentric combination, with weights >= 0 summing to one, of a face of positive sampling weight, and the returned I,u describe it.", "quantifier": "all meshes and all random draws", "why_tests_cant": "quantifies over all random draws", "anchors": ["src/gpytoolbox/random_points_on_mesh.py:random_points_on_mesh"]}
{"id": "C43", "title": "min_quad_with_fixed / fixed_dof_solve return the constrained optimum", "statement": "The vector returned by min_quad_with_fixed has exactly the prescribed values at the fixed unknowns and satisfies A u = b; if the quadratic form of Q (symmetric or not) is non-negative on the feasible directions, it minimises 1/2 u^T Q u + c^T u among all vectors with these fixed values and constraints, and uniquely if the form is positive there; in that case, with independent constraints, the function returns. fixed_dof_solve returns a vector with the fixed values that satisfies the equations of all other unknowns. Column by column for several right hand sides.", "quantifier": "all matrices Q, A, vectors c, b, y (None, number, vector or matrix), all duplicate-free index arrays, every linear solver that solves its systems", "why_tests_cant": "optimality over all competitors", "anchors": ["src/gpytoolbox/min_quad_with_fixed.py", "src/gpytoolbox/fixed_dof_solve.py"]}
{"id": "C44", "title": "rotation_matrix_from_vectors returns a rotation taking a to b", "statement": "R=rotation_matrix_from_vectors(a,b) is orthogonal with determinant +1 and maps the direction of a to the direction of b, except for opposite vectors in 3D, where it is minus the identity (determinant -1).", "quantifier": "all pairs of nonzero vectors", "why_tests_cant": "fails exactly on a measure-zero set (antiparallel vectors) that random tests never hit", "anchors": ["src/gpytoolbox/rotation_matrix_from_vectors.py:rotation_matrix_from_vectors"]}
{"id": "C45", "title": "winding number of closed polylines counts crossings", "statement": "winding_number of a union of closed 2D polylines is an integer at every point that is no vertex; off the curve it is the signed number of crossings of any ray avoiding the vertices, it is constant on connected sets avoiding the curve, zero beyond any separating line, one inside and zero outside of a counterclockwise triangle; signed_distance returns plus or minus the distance to the curve, minus exactly where the winding number is at least one.", "quantifier": "all closed polylines and query points", "why_tests_cant": "continuum of inputs", "anchors": ["src/gpytoolbox/winding_number.py:winding_number", "src/gpytoolbox/signed_distance.py:signed_distance"]}
{"id": "C46", "title": "angle defects have the right values and satisfy Gauss-Bonnet", "statement": "angle_defect returns 0 at boundary vertices and 2*pi minus the sum of the angles of the incident triangles at all others; for a closed triangle mesh (every edge on exactly two triangle sides) of triangles of positive area its sum over the vertices is 2*pi*(V-E+F).", "quantifier": "all closed triangle meshes, orientable or not, with the small-angle approximation off or no side shorter than its threshold", "why_tests_cant": "global identity over all meshes", "anchors": ["src/gpytoolbox/angle_defect_intrinsic.py", "src/gpytoolbox/tip_angles_intrinsic.py"]}
{"id": "C47", "title": "normalize_points maps into a centred unit box", "statement": "normalize_points(v,center) returns one common scaling and translation of the points, inside a box centred at the requested center, symmetric about it in each coordinate, with largest extent exactly one; the caller's array is overwritten by its translate to the origin.", "quantifier": "all point sets with at least two distinct points", "why_tests_cant": "continuum of inputs", "anchors": ["src/gpytoolbox/normalize_points.py:normalize_points"]}
{"id": "C48", "title": "marching_squares returns exactly the zero crossings, joined into oriented curves that end only at the border", "statement": "Every vertex returned by marching_squares is, in grid coordinates, the zero of the linear interpolant on a grid edge whose ends are on different sides (>0 / not >0), placed in the bounding box of GV, and every such zero is within 2^-26 grid units of a vertex; every edge has two different ends and joins crossings of two sides of one cell with the positive nodes on its right; at every vertex not next to a crossing of the grid border as many edges start as end; a crossing with no other crossing nearby is the end of exactly one leaving and one arriving edge, or of exactly one edge on the border.", "quantifier": "all grid sizes, all sample values, all grid positions", "why_tests_cant": "16 sign configurations over all grids", "anchors": ["src/gpytoolbox/marching_squares.py:marching_squares"]}
{"id": "C49", "title": "approximate_hausdorff_distance is symmetric and correct at vertices", "statement": "The Python path of approximate_hausdorff_distance returns the least R>=0 such that every vertex of either mesh is within R of some point of the other mesh, whatever the traversal order and early exits.", "quantifier": "all pairs of nonempty meshes of points, segments no shorter than 1e-10 or triangles of positive area", "why_tests_cant": "early-exit logic over all inputs", "anchors": ["src/gpytoolbox/approximate_hausdorff_distance.py"]}
{"id": "C50", "title": "read_dmat parses column-major files", "statement": "read_dmat of an ASCII .dmat file (header 'cols rows', one entry per line, column by column) or of a binary one (header '0 0', header, little-endian doubles) returns the rows x cols matrix that was stored. (An ASCII file of a 0x0 matrix raises.)", "quantifier": "all matrices", "why_tests_cant": "round trip over all sizes", "anchors": ["src/gpytoolbox/read_dmat.py:read_dmat"]}
{"id": "C51", "title": "edge_edge_distance is the distance of two segments", "statement": "edge_edge_distance(P1,Q1,P2,Q2) returns the distance and two points, one on each closed segment, whose distance is the minimum over all pairs of points of the two segments, for segments in any relative position (parallel, crossing, degenerate).", "quantifier": "all pairs of segments in 3D whose lengths are above the code's thresholds", "why_tests_cant": "many branches (clamping order, parallel case); tests visit few of them", "anchors": ["src/gpytoolbox/edge_edge_distance.py:edge_edge_distance"]}
{"id": "C52", "title": "triangle_triangle_distance is the distance of two triangles", "statement": "For two triangles of positive area triangle_triangle_distance returns the minimum of the distances between points of the one and points of the other, and zero exactly when they intersect.", "quantifier": "all pairs of triangles with area above the code's threshold", "why_tests_cant": "case analysis with early returns and a 'shown disjoint' flag; degenerate contact configurations have measure zero and are missed by random tests", "anchors": ["src/gpytoolbox/triangle_triangle_distance.py:triangle_triangle_distance"]}
{"id": "C53", "title": "tip_angles of a triangle sum to pi", "statement": "For every triangle of positive area the three angles returned by tip_angles / tip_angles_intrinsic are the angles between its sides and sum to pi.", "quantifier": "all triangles of positive area", "why_tests_cant": "holds only outside of a small-angle special case that depends on absolute size", "anchors": ["src/gpytoolbox/tip_angles_intrinsic.py:tip_angles_intrinsic", "src/gpytoolbox/tip_angles.py:tip_angles"]}
{"id": "C54", "title": "initialize_quadtree stops, covers the points and refines to the requested depth", "statement": "For every nonempty point set initialize_quadtree terminates; its root box contains all points; no cell is deeper than max_depth; every leaf less deep than max_depth has depth at least min_depth and contains no point, so every point lies in a leaf of depth max_depth; with graded=True the tree is graded.", "quantifier": "all nonempty point sets, all depths max_depth>=1, graded or not, in 2D and 3D", "why_tests_cant": "termination and a statement about every leaf of trees of unbounded size", "anchors": ["src/gpytoolbox/initialize_quadtree.py:initialize_quadtree"]}
{"id": "C55", "title": "quadtree_boundary and quadtree_children list the right cells", "statement": "On every tree obtained by subdivisions quadtree_children lists exactly the leaves and quadtree_boundary exactly the cells (and the leaf cells) with a side on the boundary of the root box, in 2D; in 3D only sides across the first two axes are considered.", "quantifier": "all trees reachable by subdivisions from a root box of positive width", "why_tests_cant": "depends on the completeness of the adjacency matrix for all histories of subdivisions", "anchors": ["src/gpytoolbox/quadtree_boundary.py:quadtree_boundary", "src/gpytoolbox/quadtree_children.py:quadtree_children"]}
{"id": "C56", "title": "neighbouring tetrahedra of regular_cube_mesh fit together", "statement": "In the meshes of type 'reflectionally-symmetric' and 'rotationally-symmetric' every face of every tetrahedron lies on the boundary of the cube or is, with the other orientation, a face of another tetrahedron; no oriented face occurs in two tetrahedra. (For type 'five' the first part fails.)", "quantifier": "all grid sizes >= 2 in each direction", "why_tests_cant": "all grid sizes; a wrong diagonal leaves indices and volumes correct", "anchors": ["src/gpytoolbox/regular_cube_mesh.py:regular_cube_mesh"]}
{"id": "C57", "title": "read_mesh and write_mesh honour the file format", "statement": "read_mesh and write_mesh choose the format named by the argument fmt ('obj','stl','ply'), or by the file extension (in any case) when fmt is None, and raise for every other name.", "quantifier": "all format names and file names", "why_tests_cant": "tests only use fmt=None; every explicit name is mishandled", "anchors": ["src/gpytoolbox/read_mesh.py:read_mesh", "src/gpytoolbox/write_mesh.py:write_mesh"]}
{"id": "C58", "title": "random_points_on_mesh distributes points uniformly on a triangle", "statement": "The map from two independent uniform numbers to a point of a triangle used by random_points_on_mesh pushes the uniform distribution on the unit square forward to the uniform distribution on the triangle: every measurable part of the triangle receives a probability proportional to its area.", "quantifier": "all measurable subsets of the triangle", "why_tests_cant": "a statistical test accepts many slightly wrong densities (e.g. forgetting the square root in one place)", "anchors": ["src/gpytoolbox/random_points_on_mesh.py:random_points_on_mesh"]}
{"id": "C59", "title": "signed_distance_polygon returns the signed distance to the polygon", "statement": "|signed_distance_polygon(p,V)| is the distance from p to the closed polygon through the rows of V, and its sign is negative exactly where the winding number of the polygon is odd. (The sign is wrong at points at the height of a vertex, e.g. at the centre of a diamond: the claim is proved for all other heights.)", "quantifier": "all nonempty vertex lists, with repeated vertices, all query points off the polygon", "why_tests_cant": "the sign rule depends on ties between coordinates; random queries never hit them", "anchors": ["src/gpytoolbox/signed_distance_polygon.py:signed_distance_polygon"]}
{"id": "C60", "title": "ray_polyline_intersect returns the first hit", "statement": "ray_polyline_intersect returns the first point at which the ray meets the interior of an edge within max_distance, the lowest index of an edge hit there and its left unit normal, or infinity, zero and -1 if there is none. (For an edge on the line of the ray the returned point need not be on the polyline at all: the claim is proved when no edge is numerically parallel to the direction.)", "quantifier": "all polylines, positions, directions and maximal distances", "why_tests_cant": "depends on the order and number of edges and on ties", "anchors": ["src/gpytoolbox/ray_polyline_intersect.py:ray_polyline_intersect", "src/gpytoolbox/edge_indices.py:edge_indices"]}
{"id": "C61", "title": "icosphere is a closed, outward-oriented triangulation of the unit sphere", "statement": "For every n>=0, icosphere(n) returns a mesh with 20*4^n faces and 10*4^n+2 vertices; every vertex has norm 1; every face index is a row of V; every directed side occurs in exactly one face and its reverse occurs too (closed, consistently oriented manifold); and every face is seen counterclockwise from outside.", "quantifier": "all subdivision depths n", "why_tests_cant": "the claim is by induction over the depth; tests only look at one or two depths", "anchors": ["src/gpytoolbox/icosphere.py:icosphere", "src/gpytoolbox/subdivide.py:_upsample_triangle_mesh"]}
{"id": "C62", "title": "faces lists every face of a tetrahedral mesh once", "statement": "For every nonempty tetrahedron list, faces(T) lists every triangle that is a face of some tetrahedron exactly once: first the faces of exactly one tetrahedron, oriented as in that tetrahedron, then the others as increasing index triples in lexicographic order; boundary_faces(T) is the first part and the returned boundary indices address it; an empty list is rejected.", "quantifier": "all tetrahedron lists, including non-manifold and inconsistently oriented ones", "why_tests_cant": "depends on sorting/uniqueness over arbitrary index lists", "anchors": ["src/gpytoolbox/faces.py:faces", "src/gpytoolbox/halffaces.py:halffaces", "src/gpytoolbox/boundary_faces.py:boundary_faces"]}
{"id": "C63", "title": "faces returns index arrays that address its own rows", "statement": "The boundary, interior and non-manifold index arrays returned by faces address exactly the rows of the returned F with one, at least two and at least three incident tetrahedra. (Found false: the interior and non-manifold arrays address the sorted list of all faces, not F.)", "quantifier": "all tetrahedron lists", "why_tests_cant": "the order of F and of the unique rows agree on some meshes and differ on others; the existing test only checks the lengths", "anchors": ["src/gpytoolbox/faces.py:faces"]}
{"id": "C64", "title": "The boundary of a tetrahedral mesh is closed and encloses its volume", "statement": "For a consistently oriented tetrahedral mesh the triangles returned by boundary_faces form a closed oriented surface (every directed edge is traversed as often as its reverse); volume(V,T) is the signed volume (b-a).((c-a)x(d-a))/6 of every tetrahedron; and the total volume equals the volume enclosed by boundary_faces(T) (sum of a.(bxc)/6 over its faces).", "quantifier": "all consistently oriented tetrahedral meshes and all vertex positions", "why_tests_cant": "a global cancellation over all interior faces", "anchors": ["src/gpytoolbox/boundary_faces.py:boundary_faces", "src/gpytoolbox/volume.py:volume", "src/gpytoolbox/halffaces.py:halffaces"]}
{"id": "C65", "title": "adjacency_matrix joins exactly the vertices that share an edge", "statement": "For a nonempty mesh adjacency_matrix returns a square matrix with one row per vertex index in use. For triangle meshes two different vertices have entry 1 if they are the ends of a triangle side (however many triangles share it) and 0 otherwise; for polylines the entry counts the edges that join the two vertices. An empty face array raises.", "quantifier": "all triangle and edge lists, manifold or not", "why_tests_cant": "quantifies over all meshes, including repeated and non-manifold edges", "anchors": ["src/gpytoolbox/adjacency_matrix.py:adjacency_matrix"]}
{"id": "C66", "title": "connected_components labels vertices by reachability", "statement": "connected_components gives two vertices the same label exactly if a chain of triangles joins them, uses the labels 0..k-1 without gaps, and labels every face like its corners.", "quantifier": "all triangle lists", "why_tests_cant": "reachability over arbitrarily long chains", "anchors": ["src/gpytoolbox/connected_components.py:connected_components"]}
{"id": "C67", "title": "The mixed biharmonic energy is the L2 norm of the discrete Laplacian", "statement": "For nondegenerate triangles biharmonic_energy (mixed finite elements) returns a symmetric positive semidefinite matrix Q that annihilates constants with u^T Q u = sum over referenced vertices of (Lu)_i^2/M_ii, L the cotangent Laplacian and M the Voronoi mass matrix; u^T Q u = 0 exactly if Lu = 0.", "quantifier": "all meshes of nondegenerate triangles (intrinsic or extrinsic, unreferenced vertices allowed) and all functions u", "why_tests_cant": "an identity of quadratic forms over all meshes and functions", "anchors": ["src/gpytoolbox/biharmonic_energy.py:biharmonic_energy", "src/gpytoolbox/biharmonic_energy_intrinsic.py:biharmonic_energy_intrinsic"]}
{"id": "C68", "title": "The planar Hessian energy has natural boundary conditions", "statement": "For a planar triangle mesh biharmonic_energy(bc='hessian') is symmetric positive semidefinite, u^T Q u is the sum over the vertices off the boundary of the squared discrete Hessian over the mass, and it vanishes on all affine functions.", "quantifier": "all positively oriented manifold planar meshes whose vertices are all referenced, all functions u", "why_tests_cant": "an identity over all meshes and functions", "anchors": ["src/gpytoolbox/biharmonic_energy.py:biharmonic_energy"]}
{"id": "C69", "title": "per_face_normals are unit, orthogonal to the face and follow the right-hand rule", "statement": "per_face_normals returns for every triangle of positive area the unit vector orthogonal to it on the side given by the right-hand rule (for planar polylines the unit vector to the right of the edge) and nan for degenerate ones; with unit_norm=False its length is twice the area.", "quantifier": "all meshes and vertex positions", "why_tests_cant": "quantifies over all real coordinates", "anchors": ["src/gpytoolbox/per_face_normals.py:per_face_normals"]}
{"id": "C70", "title": "per_vertex_normals are area-weighted averages", "statement": "per_vertex_normals returns in row v the normalised sum of the area-weighted normals of the triangles at v; nan exactly if one of them is degenerate or the sum vanishes.", "quantifier": "all triangle meshes in space, all vertices", "why_tests_cant": "quantifies over all meshes and real coordinates", "anchors": ["src/gpytoolbox/per_vertex_normals.py:per_vertex_normals"]}
{"id": "C71", "title": "dihedral_angles are symmetric angles between adjacent normals", "statement": "dihedral_angles returns for every interior side the angle in [0,pi] between the unit normals of its two triangles, the same in both rows, and nan for boundary sides.", "quantifier": "all consistently oriented manifold meshes of nondegenerate triangles", "why_tests_cant": "quantifies over all meshes and real coordinates", "anchors": ["src/gpytoolbox/dihedral_angles.py:dihedral_angles"]}
{"id": "C72", "title": "catmull_rom_spline interpolates its keyframes with a continuously differentiable curve", "statement": "For at least two keyframes catmull_rom_spline defines a curve on [0,1] that passes through keyframe k at time k/(n-1), is continuously differentiable, has central-difference velocity at the interior keyframes and one-sided differences at the ends, commutes with affine maps and reproduces uniform linear motion; with fewer keyframes it raises.", "quantifier": "all keyframe lists, dimensions and times in [0,1]", "why_tests_cant": "continuity and differentiability are statements about all times", "anchors": ["src/gpytoolbox/catmull_rom_spline.py:catmull_rom_spline"]}
{"id": "C73", "title": "splitting long edges keeps a closed mesh closed and its surface unchanged", "statement": "The edge-splitting pass of remesh_botsch, applied to any set of edges of a consistently oriented closed mesh, terminates without any out-of-range access; the result is a consistently oriented closed mesh with one more vertex and two more triangles per split edge, the old vertices unmoved, the new vertices at the midpoints of the split edges with averaged target lengths, the unsplit edges kept and the split ones replaced by their halves; it covers exactly the same points, every new triangle is part of an old one with the same orientation, and area and signed volume are unchanged.", "quantifier": "all closed oriented triangle meshes (of any size and genus), all vertex positions, all sets of edges", "why_tests_cant": "the array renumbering must be right for every connectivity and order of splits", "anchors": ["src/cpp/remesher/split_edges.cpp:split_edges", "src/gpytoolbox/remesh_botsch.py:remesh_botsch"]}
{"id": "C74", "title": "splitting edges of a mesh with boundary stays within its arrays", "statement": "The edge-splitting pass accepts meshes with boundary (whose boundary vertices remesh_botsch adds to the fixed features) without accessing arrays out of range. (False: the renumbering loop reads and writes a second side of every edge.)", "quantifier": "all oriented manifold meshes with at least one boundary edge, all sets of edges", "why_tests_cant": "undefined behaviour in C++ that tests may not notice", "anchors": ["src/cpp/remesher/split_edges.cpp:split_edges", "src/gpytoolbox/remesh_botsch.py:remesh_botsch"]}
{"id": "C75", "title": "the remesher splits exactly the too long edges and keeps feature edges", "statement": "One splitting pass replaces by two halves exactly the edges longer than the average of the upper bounds at their ends, except those that touch a fixed vertex and are not feature edges; all other edges stay. If the feature edges are different edges of the mesh, so are the updated feature edges, they cover exactly the same points, and feature edges that are not too long stay in the list.", "quantifier": "all closed oriented triangle meshes, bounds, fixed vertices and lists of distinct feature edges", "why_tests_cant": "all inputs; simultaneous bookkeeping of several split feature edges", "anchors": ["src/cpp/remesher/split_edges_until_bound.cpp:split_edges_until_bound"]}
{"id": "C76", "title": "the flipping pass of remesh_botsch makes only good flips and keeps the mesh", "statement": "The flipping pass (equalize_valences) of the remesher runs without out-of-range access or failing assertion on every consistently oriented edge-manifold mesh. Its result is reached by a sequence of flips each of which replaces the common edge of two triangles by the other diagonal, is no flip of a feature edge, touches no fixed vertex, creates no edge that exists already, strictly lowers the total deviation of the valences from six and turns no triangle normal by more than 60 degrees. Hence vertices, number of triangles, boundary and feature edges are kept, the mesh stays manifold and oriented, and every triangle at a fixed vertex stays. It leaves the mesh alone exactly if no such flip is possible.", "quantifier": "all consistently oriented manifold meshes (open or closed), vertex positions, fixed vertices, feature edges; every correct igl::flip_edge", "why_tests_cant": "the sequence of flips depends on the mesh; unit tests run the whole remesher on a few meshes", "anchors": ["src/cpp/remesher/equalize_valences.cpp:equalize_valences", "src/gpytoolbox/remesh_botsch.py:remesh_botsch"]}
{"id": "C77", "title": "the relaxation pass of remesh_botsch pins features and returns to the surface", "statement": "The relaxation pass (tangential_relaxation) of the remesher accesses no array out of range. Fixed vertices and vertices on one or more than two feature edges do not move; vertices on exactly two feature edges end, with projection, at the point of the original feature segments closest to the midpoint of their two neighbours on the line, and without projection at that midpoint; all other vertices end at the closest surface point of a position obtained by moving orthogonally to the vertex normal towards the average of the neighbours.", "quantifier": "all meshes without unreferenced vertices, all positions, fixed vertices, feature edges, normals, step sizes; every closest-point projection", "why_tests_cant": "the result depends on all positions and on the order of the vertices; unit tests check a few meshes with a tolerance", "anchors": ["src/cpp/remesher/tangential_relaxation.cpp:tangential_relaxation", "src/cpp/remesher/tangential_relaxation.cpp:closest_point_on_segment"]}
{"id": "C78", "title": "the collapsing pass keeps fixed vertices and feature edges, and its renumbering is right", "statement": "Whatever edges are collapsed in whatever order, on a closed mesh the collapsing pass of the remesher (remesh_botsch) never reads out of range; the new mesh is closed and is the image of the old one under one renumbering of the vertices (faces with two equal corners dropped); fixed vertices keep their positions (and their numbers if they come first) and nothing is merged into them; the feature edges are the images of the old ones, without repetition, and are edges of the new mesh; every new vertex inherits both bounds from one of its old vertices; collapsed edges are short, and crease corners do not move, and no face turns over. (The last two fail: the surviving vertex keeps the smaller number but crease degrees are looked up by number, and the fold-over test skips faces by number.)", "quantifier": "all closed meshes, fixed vertices, feature edges, bounds and all sequences of collapses that the cost callback allows", "why_tests_cant": "the sequence of collapses is decided by a priority queue; union-find, renumbering and de-duplication must be right for every sequence", "anchors": ["src/cpp/remesher/collapse_edges.cpp:collapse_edges", "src/cpp/remesher/collapse_edges.cpp:uf_find", "src/cpp/remesher/collapse_edges.cpp:uf_union"]}
{"id": "C79", "title": "remeshing keeps closed meshes closed, fixed vertices fixed and vertices on the surface", "statement": "The C++ loop of remesh_botsch, called on a closed triangle mesh whose first k vertices are fixed, returns for every number of iterations (no pass accesses an array out of range); the result is a closed mesh in which every vertex is used, its first k vertices are the fixed ones at their old places, and the feature edges are edges of the new mesh; with project=True every vertex lies on the original surface except possibly where feature lines end or branch, and vertices on the course of a feature line lie on the original feature lines.", "quantifier": "all closed oriented meshes, fixed vertices, feature edges, target lengths, numbers of iterations, and all behaviours of igl::decimate and igl::flip_edge that meet their contracts", "why_tests_cant": "iterates four passes with shared mutable state, so the invariant must survive every history of splits, collapses, flips and moves", "anchors": ["src/cpp/remesher/remesh_botsch.cpp:remesh_botsch"]}
{"id": "C80", "title": "remesh_botsch from Python: fixed vertices come first, sharp edges are detected, the result lies on the surface", "statement": "Called on a closed mesh with vertices in any order, remesh_botsch returns a closed mesh in which every vertex is used; the vertices given in `feature` are the first vertices of the result, unchanged, in the given order without repetitions; with project=True and no feature edges every vertex of the result lies on the original surface (with feature edges: except where they end or branch, and vertices along them stay on the original feature edges); detect_feature_edges adds exactly the edges whose two faces meet at an angle above the threshold, each once.", "quantifier": "all closed oriented meshes, feature lists (with repetitions), feature edges, thresholds, iteration counts and target lengths", "why_tests_cant": "the wrapper renumbers vertices, faces, features and feature edges consistently through uninitialised arrays and argsort; must hold for every list of features", "anchors": ["src/gpytoolbox/remesh_botsch.py:remesh_botsch"]}
{"id": "C81", "title": "squared_exponential_kernel is a covariance and its derivative options are its true derivatives", "statement": "For every length, scale and dimension, squared_exponential_kernel(x, y) equals scale*exp(-|x-y|^2/(2 length^2)), is scale exactly where the points agree, positive, and strictly decreasing with the distance; with derivatives=(i,-1), (-1,j), (i,j) it returns the partial derivative in coordinate i of the first point, in coordinate j of the second point, and the mixed partial derivative; and for every finite list of points, each taken with or without a derivative, the matrix of kernel values is symmetric and positive semidefinite.", "quantifier": "all dimensions, points, lengths, scales, derivative pairs; for the covariance claim all finite lists of (point, derivative) and all weights", "why_tests_cant": "derivatives and positive semidefiniteness are statements about a continuum of points; finite differences at sample points only bound them", "anchors": ["src/gpytoolbox/squared_exponential_kernel.py:squared_exponential_kernel"]}
{"id": "C82", "title": "compactly_supported_normal_kernel is a covariance with compact support and its derivative options are its true derivatives", "statement": "For every positive length and non-negative scale, compactly_supported_normal_kernel(x, y) is positive exactly when every coordinate of x-y is less than 2*length in absolute value and zero otherwise; with derivatives=(i,-1), (-1,j), (i,j) it returns the true partial and mixed partial derivatives everywhere (also at the knots of the spline); and for every finite list of points, each taken with or without a derivative, the matrix of kernel values is symmetric and positive semidefinite.", "quantifier": "all dimensions, points, lengths, scales, derivative pairs; for the covariance claim all finite lists of (point, derivative) and all weights", "why_tests_cant": "positive definiteness of the cubic B-spline and differentiability at the knots are statements about a continuum of points", "anchors": ["src/gpytoolbox/compactly_supported_normal_kernel.py:compactly_supported_normal_kernel"]}
{"id": "C83", "title": "matrix_from_function evaluates the function on every pair of rows", "statement": "For every function that works row by row and every two arrays, matrix_from_function returns the matrix whose entry (i,j) is the function of row i of the first and row j of the second array: the sparse form stores each non-zero value exactly once and nothing else, the dense form has the same entries; with a sparsity pattern (I,J) the entry (i,j) is the value times the number of times (i,j) occurs in the pattern (so exactly the value on a pattern without repetitions and zero elsewhere). The covariance matrices of gaussian_process have, with gradients, row (a+1)*n+i for the derivative in coordinate a at point i, and every entry is the kernel with the corresponding derivative flags.", "quantifier": "all row-wise functions, arrays of every length, sparsity patterns, kernels, dimensions", "why_tests_cant": "index bookkeeping of Kronecker products, column-major reshapes and block stacking has to be right for all sizes", "anchors": ["src/gpytoolbox/matrix_from_function.py:matrix_from_function", "src/gpytoolbox/gaussian_process.py:cov_matrix_from_function"]}
{"id": "C84", "title": "gaussian_process returns the best linear prediction and its error", "statement": "For every covariance kernel (in particular the default kernel, with or without observed gradients), training set and non-zero noise, gaussian_process returns; the covariance matrix is symmetric, positive semidefinite, at most the prior, and its quadratic form at every combination c of test observations is the least mean squared error over all linear predictors from the noisy training observations; each mean equals the optimal predictor applied to the data up to the tolerance of the iterative solver; adding training points never increases a predicted variance. With inducing points at which the kernel is strictly positive definite the covariance lies between what exact data there would leave and the prior, and inducing points equal to the training points change nothing. With lump_K3 and a kernel with non-negative values the variance reported is nowhere smaller than without. compact_kernel=True never changes the result (fails: the support is measured as a coordinate of the diagonal point and capped at 1, so a radial kernel of radius R is cut at min(1, R/sqrt(d)), and test points in between are predicted as if there were no data).", "quantifier": "all dimensions, kernels, training, test and inducing points, values, gradients, noise levels", "why_tests_cant": "optimality over all linear predictors and monotonicity in the data are statements about all weights and all data sets", "anchors": ["src/gpytoolbox/gaussian_process.py:gaussian_process", "src/gpytoolbox/gaussian_process.py:gaussian_process_precompute"]}
{"id": "C85", "title": "linear_blend_skinning moves every vertex to the weighted sum of its images", "statement": "linear_blend_skinning(V,Ws,Rs,Ts) sends every vertex to the sum over the handles of its weight times R_i v + T_i; with weights that add up to one, equal transformations act as that transformation (the identity leaves the mesh alone), moving the skeleton by an affine map moves the result by it, changing the rest pose's coordinates together with the transformations changes nothing, with non-negative weights every vertex stays in the convex hull of its images; a vertex depends only on itself, its weights and the transformations of non-zero weight; a weight column without transformation is an error.", "quantifier": "all numbers of vertices, handles and dimensions, all weights and transformations", "why_tests_cant": "an identity over all weights and transformations", "anchors": ["src/gpytoolbox/linear_blend_skinning.py:linear_blend_skinning"]}
{"id": "C86", "title": "the operators of a triangle mesh do not change under rigid motions and scale as they should; areas are areas", "statement": "doublearea returns twice the area of every triangle. halfedge lengths, areas, cotangent weights, cotangent Laplacian, mass matrices, DEC Hodge stars and their inverses, tip angles, angle defects and biharmonic energy of a mesh are unchanged when the vertices are moved by a distance-preserving map; under scaling by s, lengths scale by |s|, areas, mass matrices and the stars of vertices and faces by s^2, while cotangent weights, the Laplacian and the star of edges do not change. The entries of every mass matrix add up to the total area; dec_h2 is the diagonal of the areas.", "quantifier": "all meshes, all distance-preserving maps, all scales s != 0", "why_tests_cant": "quantifies over all meshes and all isometries", "anchors": ["src/gpytoolbox/doublearea.py:doublearea", "src/gpytoolbox/cotangent_laplacian.py:cotangent_laplacian", "src/gpytoolbox/massmatrix.py:massmatrix", "src/gpytoolbox/dec_h0.py:dec_h0", "src/gpytoolbox/dec_h1.py:dec_h1", "src/gpytoolbox/dec_h2.py:dec_h2"]}
{"id": "C87", "title": "signed areas have the right sign and add up to the area enclosed by the boundary", "statement": "doublearea(V,F,signed=True) of a planar mesh has the unsigned double area as absolute value, is positive exactly for counterclockwise triangles, flips sign with the orientation, and for a consistently oriented mesh its sum is the shoelace sum over boundary_edges(F): it depends on the boundary only.", "quantifier": "all planar meshes (for the sum: consistently oriented, every edge in at most two triangles)", "why_tests_cant": "an identity over all meshes, needing cancellation over interior edges", "anchors": ["src/gpytoolbox/doublearea.py:doublearea", "src/gpytoolbox/boundary_edges.py:boundary_edges"]}
{"id": "C88", "title": "polyline operators: lengths, masses, gradients and barycenters are what they should be", "statement": "For a polyline doublearea is twice the edge lengths; the mass matrix is diagonal with half of the total length of the incident edges at each vertex and adds up to the total length; grad maps vertex values to slopes along each edge, with constants giving zero, and integrating the slope along an open polyline gives the difference of the end values; barycenters are the averages of the corners and lie in their convex hull.", "quantifier": "all polylines in any dimension, with and without an edge list; all simplex sizes for barycenters", "why_tests_cant": "identities over all polylines and functions", "anchors": ["src/gpytoolbox/doublearea.py:doublearea", "src/gpytoolbox/massmatrix.py:massmatrix", "src/gpytoolbox/grad.py:grad", "src/gpytoolbox/barycenters.py:barycenters"]}
{"id": "C89", "title": "compactly_supported_normal is the n-fold convolution of the box and has unit mass", "statement": "compactly_supported_normal(x,n,sigma,center) is, coordinate-wise, the box function convolved n times with itself, scaled by sigma and centered: non-negative, zero further than (n+1)/2*sigma from the center, with integral one in every dimension; with second_derivative=i it is the second partial derivative of that function. Violated at the knots for n=2 (value 0 instead of 1/2 at distance 1/2) and n=4 (value and second derivative doubled at 1/2 and 3/2).", "quantifier": "all n from 1 to 4, all sigma > 0, all centers, dimensions and points", "why_tests_cant": "integrals and derivatives over the whole space", "anchors": ["src/gpytoolbox/compactly_supported_normal.py:compactly_supported_normal"]}
{"id": "C90", "title": "linear_elasticity_stiffness: the strain matrix takes gradients, the stiffness matrix is the elastic energy, and only rigid motions are free", "statement": "For a planar triangle mesh with triangles of positive area, the rows of the strain matrix applied to nodal displacements (u,v) are du/dx, dv/dy and du/dy+dv/dx of the linear interpolation on each triangle. The stiffness matrix is symmetric, its quadratic form is the sum over the triangles of the volume (by default the area) times lambda(div)^2+2mu(e11^2+e22^2)+mu(2e12)^2 with lambda=K-2mu/3, it is never negative when mu,K+mu/3>=0, and on an edge-connected mesh its kernel consists exactly of the infinitesimal rigid motions. This holds for every mesh, also one of a single triangle.", "quantifier": "all planar meshes with triangles of non-zero area, bulk and shear moduli, volumes, mass matrices and displacements", "why_tests_cant": "Tests compare with stored values on one mesh; they cannot show the energy identity or determine the kernel for every mesh.", "anchors": ["src/gpytoolbox/linear_elasticity_stiffness.py:linear_elasticity_stiffness", "src/gpytoolbox/grad.py:grad"]}
{"id": "C91", "title": "linear_elasticity: a time step is implicit Euler, keeps the fixed vertices, balances momentum and never gains energy", "statement": "If linear_elasticity(V,F,U0,dt,bb,bc,...) returns U, then for every virtual displacement that is zero at the fixed vertices the mass form with U-U0-dt*Ud0-dt^2*fext plus dt^2 times the stiffness form with U is zero; the fixed vertices have exactly the prescribed displacements; without fixed vertices linear and angular momentum change exactly by the impulse of the forces; without forces and with the fixed vertices held, kinetic plus elastic energy does not grow, whatever dt; a rigid displacement with a rigid velocity gives U=U0+dt*Ud0. The call returns whenever the mass matrix is positive definite and the arrays fit. The second result is the von Mises stress of the displacement on every triangle.", "quantifier": "all planar meshes, displacements, velocities, forces, fixed vertices, time steps, moduli and linear solvers", "why_tests_cant": "Tests run one simulation and look at it; energy and momentum statements are about all states and all time steps.", "anchors": ["src/gpytoolbox/linear_elasticity.py:linear_elasticity", "src/gpytoolbox/linear_elasticity_stiffness.py:linear_elasticity_stiffness", "src/gpytoolbox/min_quad_with_fixed.py:min_quad_with_fixed"]}
{"id": "C92", "title": "The intrinsic gradient agrees with a flat copy of every triangle", "statement": "For squared edge lengths that satisfy the strict triangle inequality, grad_intrinsic returns a matrix with two rows per triangle; for every function on the vertices, the two numbers of a triangle are the gradient of the linear function with these corner values on a planar triangle with exactly these edge lengths. Inner products of gradients equal those of the embedded gradient operator when the lengths come from an embedded mesh, and constants have gradient zero.", "quantifier": "all triangle lists and all squared lengths of nondegenerate triangles, all functions on the vertices", "why_tests_cant": "the flattening must be an isometry for every triangle shape, tests compare a few meshes with grad", "anchors": ["src/gpytoolbox/grad_intrinsic.py:grad_intrinsic"]}
{"id": "C93", "title": "unsigned_distance returns the distance to the closest point of the mesh", "statement": "unsigned_distance returns for every query point the distance to the closest point of the mesh, an element that contains this closest point and its barycentric weights there; the distance is never negative, zero exactly on the mesh, and changes by at most the distance between the query points. Without elements a planar polyline is closed, and in space the call is refused.", "quantifier": "all meshes (edges or triangles, nondegenerate as for squared_distance), all query points, all argsort tie breaks", "why_tests_cant": "a search through a tree can miss the closest element for some query, tests sample queries", "anchors": ["src/gpytoolbox/unsigned_distance.py:unsigned_distance"]}
{"id": "C94", "title": "regular_circle_polyline samples the unit circle", "statement": "regular_circle_polyline(n) returns n vertices on the unit circle and the n edges of one closed chain; the angle between consecutive vertices is constant. The vertices should be n different points and all edges should have the same length.", "quantifier": "all n at least 3", "why_tests_cant": "the closing of the polyline must be right for every n", "anchors": ["src/gpytoolbox/regular_circle_polyline.py:regular_circle_polyline"]}
{"id": "C95", "title": "grid_laplacian_eigenfunctions returns the lowest Neumann modes", "statement": "The columns of grid_laplacian_eigenfunctions are num_modes different eigenfunctions of the Laplacian on the box with Neumann conditions, sampled at the grid points in the documented order, sorted by eigenvalue, and no mode with a smaller eigenvalue is left out; the columns are linearly independent.", "quantifier": "all numbers of modes, grids, side lengths and argsort tie breaks", "why_tests_cant": "the selection must be right for every box shape, tests look at a few modes on a few grids", "anchors": ["src/gpytoolbox/grid_laplacian_eigenfunctions.py:grid_laplacian_eigenfunctions"]}
{"id": "C96", "title": "apply_colormap maps values to the colours of the clamped value", "statement": "apply_colormap returns one colour per value: by default the colour whose node (equally spaced between the limits, or equally spaced in the logarithm) is nearest to the clamped value, the lower one on ties; with piecewise_linear the rounded interpolation of the two neighbouring colours. No channel leaves the range of the colour table, and with log values are clamped to machine epsilon.", "quantifier": "all colour tables, value arrays, limits and options", "why_tests_cant": "clamping and ties concern every value between and outside the nodes", "anchors": ["src/gpytoolbox/apply_colormap.py:apply_colormap"]}
{"id": "C97", "title": "min_l1_with_fixed returns a minimiser of the documented energy", "statement": "With the SCS solver, with MOSEK and with the automatic choice between them, min_l1_with_fixed returns a vector u with u[k] = y that minimises the documented energy (sum of the norms of the blocks of G u, plus the quadratic term of Q or of its factor, plus c u) among all vectors with these fixed values and with A u = b, if the cone solver solves the problem it is handed; if the constrained problem has a minimiser and inputs have the documented shapes, a result is returned; the solver's failure is reported as an error and the call never returns something that is not a minimiser.", "quantifier": "all matrices G, Q or L, A, vectors c, b, fixed values and block sizes of matching shape", "why_tests_cant": "the reduction to a cone program introduces slack variables and reorders rows; it must be exact for every input, tests compare a few random instances", "anchors": ["src/gpytoolbox/min_l1_with_fixed.py:min_l1_with_fixed", "src/gpytoolbox/min_l1_with_fixed.py:_min_l1_with_fixed_scs", "src/gpytoolbox/min_l1_with_fixed.py:_min_l1_with_fixed_mosek"]}
{"id": "C98", "title": "matryoshka returns a copy that nests", "statement": "In every mode, if the returned scale is positive then the copy of B under the returned transformation has every vertex and every surface sample inside A, and the two halves can be pulled off along the returned directions (no ray backwards along them hits A on the wrong side of the cut plane). The scale is between 0 and 1, it is the best over all configurations the search evaluated, and a scale just above it (within the tolerance) fails for the returned configuration. R is a rotation, the directions have length one and point to their sides of the plane, and a warm start never makes the result worse than the seed.", "quantifier": "all meshes (through the answers of signed_distance and ray_mesh_intersect), samples, modes, fixed values, warm starts and random numbers", "why_tests_cant": "the result of a stochastic search must be valid for every run, tests look at a few seeds", "anchors": ["src/gpytoolbox/matryoshka.py:matryoshka", "src/gpytoolbox/matryoshka.py:_feasible", "src/gpytoolbox/matryoshka.py:_largest_feasible_scale", "src/gpytoolbox/matryoshka.py:_decode", "src/gpytoolbox/matryoshka.py:_encode_all", "src/gpytoolbox/matryoshka.py:_axis_angle_to_matrix", "src/gpytoolbox/matryoshka.py:_matrix_to_axis_angle"]}
{"id": "C99", "title": "upper_envelope slices a tet mesh into pieces of one material each", "statement": "Let U,G,LT = upper_envelope(V,T,D) return normally, with every row of T having four different entries. The rows of V are the first rows of U. Every row of G other than row 0 has exactly one true label in LT, has four different corners, and is contained in a single input tet; at each of its points, the soft labels interpolated linearly over that input tet are largest for its material, up to 1e-5. The returned tets together have at most the volume of the input, and none is inverted if no input tet is. What a user expects beyond that fails: row 0 is always [0,0,0,0] without a label; the last carved tet and the last tet of the mesh are lost (when nothing needs cutting, the last two tets of T are missing; a single tet of one material gives an empty result); three or more tets of the first material only make the code read out of range.", "quantifier": "all tet meshes, all soft labels, any number of materials, any tie-breaking of the maximum; real arithmetic", "why_tests_cant": "which tets are cut, in which order and how arrays grow depends on the sign patterns of every pair of materials on every tet; a test sees one mesh and cannot show containment and labelling of every piece", "anchors": ["src/cpp/upper_envelope.cpp:upper_envelope", "src/cpp/upper_envelope.cpp:propogate_split_func", "src/cpp/upper_envelope.cpp:carve_out_material", "src/gpytoolbox/upper_envelope.py:upper_envelope"]}
{"id": "C100", "title": "quadtree_gradient and quadtree_laplacian are consistent difference operators", "statement": "Let C,W,CH,PAR,D,A be a planar quadtree built by any sequence of graded subdivisions of a root cell of positive width, with more than one cell. Then quadtree_gradient and quadtree_laplacian return. The unknowns are the leaves in the order of the arrays, and stored_at lists their centres. Both rows of G of every leaf give 0 on constants; row i (first axis) or n+i (second axis) of G gives the exact partial derivative of an affine function if that function varies along that axis only, or if no larger leaf lies across the two sides of the leaf on that axis. Every row of L gives 0 on constants; the off-diagonal entry of two leaves is never negative, and is non-zero exactly when they share a side; at a leaf with neighbours on all four sides and no larger neighbour, affine functions have Laplacian 0; if all its neighbours have its size, quadratic functions have their exact Laplacian. The conditions are needed: beside larger leaves both operators are wrong already for affine functions. On a single cell both functions raise, and quadtree_laplacian raises on octrees.", "quantifier": "every root cell, every finite history of graded subdivisions, every leaf, every affine or quadratic function, over every ordered field", "why_tests_cant": "The rows depend on the sizes of all neighbours, which depend on the whole subdivision history; a test inspects a few trees.", "anchors": ["src/gpytoolbox/quadtree_gradient.py:quadtree_gradient", "src/gpytoolbox/quadtree_laplacian.py:quadtree_laplacian", "src/gpytoolbox/subdivide_quad.py:subdivide_quad"]}
{"id": "C101", "title": "PLY files say what the arrays say", "statement": "write_mesh of (V,F,N,C) to a .ply file, binary or text, writes one vertex element with x,y,z (and nx,ny,nz) and one face element of index triples, every row in its place; read_mesh of any .ply file in the text, little-endian or big-endian format - with any further elements, properties, lists and comments - whose coordinates, normals, colours and triangles are declared in order and with supported types returns exactly the rows of that file, choosing vertex colours before face colours; a mesh without colours written to a binary file is read back bit for bit, and to a text file up to the printing of numbers; a wrong number of colours is refused. (Colours themselves do not survive writing, short normal arrays are read out of bounds, and reordered coordinates, mixed polygons, 16-bit indices and clashing names are misread: shown as violations.)", "quantifier": "all meshes; all PLY documents with any elements, properties, rows, list lengths and comments, in the three formats; all text formatters that meet a stated contract", "why_tests_cant": "a test writes a few meshes; the payload is parsed relative to a header with arbitrarily many foreign elements and properties, and properties are found through a 32-bit hash of concatenated names", "anchors": ["src/gpytoolbox/read_mesh.py:_read_ply", "src/gpytoolbox/write_mesh.py:_write_ply", "src/cpp/tinyply/tinyply_wrappers.cpp:read_ply", "src/cpp/tinyply/tinyply_wrappers.cpp:write_ply", "src/cpp/tinyply/tinyply.h:PlyFile"]}
{"id": "C102", "title": "STL files say what the faces say", "statement": "write_mesh of (V,F) to a .stl file, binary or text, writes one facet per face with its corners in order; read_mesh of any binary .stl file with at least one facet (any 80-byte header, normals, attributes and trailing bytes) or any text file made of one solid (any indentation, names, normals, carriage returns and foreign lines) returns one face per facet, in order and with its corners in order; with merging no two returned vertices are equal and every vertex is a corner, without merging the corners are listed one after the other; a mesh with faces that was written is read back with the same faces and coordinates rounded to float (binary) or to the printed digits (text); a written file that was cut off is refused, a binary one anywhere, a text one anywhere before the last letters of endsolid, whatever the byte is that the reader looks at past the end of the file. (The binary file of a mesh without faces is written but refused on reading: shown as a violation.)", "quantifier": "all meshes, all headers, names, normals, attributes, indentations and foreign lines; all crash points of the writer; all values of the uninitialised byte; all float formatters that meet a stated contract", "why_tests_cant": "a test reads a few files; the text reader is a state machine over arbitrarily many lines, the format is guessed from the length, and a crash can stop the writer after any byte", "anchors": ["src/gpytoolbox/read_mesh.py:_read_stl", "src/gpytoolbox/write_mesh.py:_write_stl", "src/cpp/microstl/microstl_wrappers.cpp:read_stl", "src/cpp/microstl/microstl_wrappers.cpp:write_stl", "src/cpp/microstl/microstl.h:Reader", "src/cpp/microstl/microstl.h:Writer"]}
{"id": "C103", "title": "lazy_cage returns the tightest cage it tried", "statement": "lazy_cage makes exactly max_iter cages at distances between 0 and half of the largest side of the bounding box. If it returns a cage that does not meet the input, it is the one of the smallest distance d tried with success; every distance tried at which the cage met the input is smaller by at least max_bb/2^max_iter, and d-max_bb/2^max_iter is 0 or such a distance. Otherwise all cages tried met the input, and the last one is returned with force_output and (None,None) without. When cages are clear exactly from a distance t on (and t leaves room), the result is clear and at most max_bb/2^max_iter beyond t. A call with vertices gets an answer, except for max_iter=0 with force_output, which fails.", "quantifier": "all meshes, all numbers of rounds, all behaviours of the offset, decimation, union and intersection routines", "why_tests_cant": "a test runs one mesh; the choice depends on the whole history of intersections found in the binary search", "anchors": ["src/gpytoolbox/copyleft/lazy_cage.py:lazy_cage", "src/gpytoolbox/copyleft/do_meshes_intersect.py:do_meshes_intersect"]}
{"id": "C104", "title": "The mesh of a quadtree has exactly the corners of its leaves", "statement": "For every quadtree or octree built by the library, bad_quad_mesh_from_quadtree succeeds. No vertex is repeated and every vertex is a corner of a leaf. In 2D there is exactly one quad per leaf, in the order of the leaves, whose corners are exactly those of the leaf in order around it. In 3D there is one hexahedron per leaf with its eight corners, and six quads per leaf, one for each side of the cube, in order around it. (In 2D the hexahedra are not empty as documented: one row of all renumbered corners is returned.)", "quantifier": "all quadtrees and octrees reachable by initialisation and any sequence of splits, with any centre and size", "why_tests_cant": "a test checks one tree; that merging within 1/100 of the smallest leaf never merges different corners and never misses equal ones depends on the whole tree", "anchors": ["src/gpytoolbox/bad_quad_mesh_from_quadtree.py:bad_quad_mesh_from_quadtree", "src/gpytoolbox/remove_duplicate_vertices.py:remove_duplicate_vertices"]}
{"id": "C105", "title": "Reach for the arcs: locally feasible points", "statement": "The step of `reach_for_the_arcs` that turns signed distance samples into points returns whenever its assertions hold. Every point returned with index i is at distance exactly |S[i]| from U[i], is inside none of the spheres of the batch (all spheres, unless a batch size is in force) by more than tol, and |S[i]| is below the clamp; its normal has length one and the point is U[i] - S[i]*normal; indices increase. If the projection of the nearest outside point to a sphere is feasible it is the point returned. The result depends neither on the number of threads, nor on the order of the iterations, nor on the shuffled order of the samples. The intersection points the search moves to are on all circles or spheres concerned.", "quantifier": "all numbers of samples, all positions in the unit box and distances (samples at the same place having the same distance), all outside points, batches, tolerances, clamps, iteration counts, numbers of local searches, shuffles, sorting algorithms and schedules of the loop", "why_tests_cant": "tests look at a few shapes with fixed seeds; feasibility must hold for every arrangement of spheres, every path of the local search and every schedule of the threads", "anchors": ["src/gpytoolbox/reach_for_the_arcs.py:_locally_make_feasible", "src/cpp/reach_for_the_arcs/locally_make_feasible.cpp:locally_make_feasible", "src/cpp/reach_for_the_arcs/sAABB.cpp:get_spheres_containing", "src/cpp/reach_for_the_arcs/resolve_collisions_on_sphere.cpp:resolve_collisions_on_sphere"]}
{"id": "C106", "title": "Reach for the arcs: fine tuning keeps points on their spheres and outside the others", "statement": "The fine tuning of `reach_for_the_arcs` returns whenever its assertions hold. Starting from points that are each at the distance of their sample, every row of the result belongs to a sample below the clamp and is at exactly |S[i]| from U[i]; no sphere has more than max_points_per_sphere rows; unless the cloud is returned unchanged, no point is inside another sphere of the batch of the last round by more than tol, normals have length one and the point is U[i] - S[i]*normal. A round does not depend on how its loops are given to threads.", "quantifier": "all samples (those at the same place having the same distance), all clouds, all reconstructed meshes, numbers of rounds, batches, tolerances and schedules", "why_tests_cant": "tests run the whole pipeline on a few shapes; the invariant must survive any number of rounds, any mesh the reconstruction returns and any schedule", "anchors": ["src/gpytoolbox/reach_for_the_arcs.py:_fine_tune_point_cloud", "src/cpp/reach_for_the_arcs/fine_tune_point_cloud_iter.cpp:fine_tune_point_cloud_iter"]}
{"id": "C107", "title": "Reach for the arcs: outside points from rasterisation", "statement": "The rasterisation used by `reach_for_the_arcs` (without a GPU) returns whenever its assertions hold. Every point it returns is in the unit box and outside every sphere used, their squared radii shrunk by 0.95. There is one random point per cell of the grid, and, with the narrow band, the points returned are exactly, each once, those in no shrunk sphere whose cell touches a cell with a point in one. The result does not depend on the number of threads or on what was in uninitialised memory.", "quantifier": "all samples in the unit box, all radii (for the exact set: none of them zero), resolutions, numbers of spheres, random numbers, assignments of spheres to threads, contents of uninitialised memory, in the plane and in space", "why_tests_cant": "tests check a few grids; that the boxes and windows that the code restricts itself to miss no cell must hold for all centres and radii", "anchors": ["src/gpytoolbox/reach_for_the_arcs.py:_outside_points_from_rasterization", "src/cpp/reach_for_the_arcs/outside_points_from_rasterization.cpp:outside_points_from_rasterization_cpu"]}
{"id": "C108", "title": "Reach for the arcs: the point cloud as a whole", "statement": "`reach_for_the_arcs` returns for samples that are not all at one place. With `return_point_cloud=True`, points and normals are as many, at most `max_points_per_sphere` per sample; every point belongs to a sample whose distance is below the clamp value and is at exactly that distance from it, its normal has length one and the point is the sample minus its signed distance times the normal; with a batch of all samples, no point is inside the sphere of a sample of the same sign by more than `tol` times the longest side of the bounding box. Scaling and moving the samples (distances and clamp scaled too) scales and moves mesh and points, and leaves faces and normals as they are.", "quantifier": "all samples and signed distances (the same distance at the same place), in the plane and in space, all values of the arguments, all random numbers, schedules of threads and reconstructed meshes", "why_tests_cant": "tests look at a few shapes; the claims must survive normalisation, two groups, fine tuning and mapping back for every sampling", "anchors": ["src/gpytoolbox/reach_for_the_arcs.py:reach_for_the_arcs,_sdf_to_point_cloud"]}
{"id": "C109", "title": "Reach for the spheres: the loop ends and what it returns", "statement": "`reach_for_the_spheres` ends for every behaviour of the flow, the remesher and the random numbers, also with `max_iter=None`, as long as `tol` and `min_h` are positive: the average error cannot improve by `tol/1000` for ever and the edge length is halved finitely often. With `max_iter=m` there are at most max(1, m) iterations. The edge length at the end is the first one or max(h/2^k, min_h). It returns because the limit was reached (with the mesh after the last remeshing), because the next mesh is not finite (with a mesh that was finite), or because all resamplings were made and either no face was invalid before the last step or the edge length is at its minimum (with the mesh right after a flow step).", "quantifier": "all behaviours of the external operations at each iteration, all parameters", "why_tests_cant": "termination and the reason for it are about all runs; a test runs a few meshes with a fixed limit", "anchors": ["src/gpytoolbox/reach_for_the_spheres.py:reach_for_the_spheres,reach_for_the_spheres_iteration"]}
{"id": "C110", "title": "Reach for the spheres: one step of the flow", "statement": "One step moves the vertices to the placement with the least energy: mass-weighted squared movement plus step size times the mean squared distance between targets and the points that were closest to the samples, strictly better than any other placement; so the misfit to the targets never grows, and falls unless nothing moves. A sample counts unless its distance is only a lower bound (clamped, or outside a pseudo distance) that the mesh respects. Targets are at the distance of the sample along the line to its closest point; with the inside-outside test they are on the side that the sign asks for. The step size is 99/100 of the best length along steepest descent, between `min_t` and `max_t`. A mesh that fits every sample stays as it is. With `fix_boundary`, boundary vertices stay and the rest is the best placement with that boundary; on a mesh without boundary it raises an exception.", "quantifier": "all meshes in the plane or space, all closest-point queries, samples, distances and arguments, all positive masses", "why_tests_cant": "the optimum is over all placements of all meshes; a test can only compare a few", "anchors": ["src/gpytoolbox/reach_for_the_spheres.py:reach_for_the_spheres_iteration"]}
{"id": "C111", "title": "Reach for the spheres in the plane: remeshing of curves keeps features, ends and connections", "statement": "Remeshing a curve without branches (`reach_for_the_spheres` with segments) gives a curve without branches. Vertices marked as features and the ends of open curves keep their places exactly; the result starts and ends there and nowhere else, and of any two of them one is reached from the other along the curve exactly when it was before. With projection, every vertex of the result lies on the curve that was given. Splitting leaves the point set as it is and halves exactly the edges longer than 1.4h; collapsing ends, and then every edge shorter than 0.7h connects two features; relaxation slides a vertex along its tangent. With a feature or an open curve it returns; a closed curve without features in a circle of diameter less than 0.7h raises an exception.", "quantifier": "all curves without branches in the plane (any number of open and closed components, any length), all features that edges use, all edge lengths and numbers of iterations, all ways to sort equal lengths, all closest-point routines", "why_tests_cant": "the loop runs until no short edge is left, on any curve; ties, tiny loops and renumbering make examples unreliable", "anchors": ["src/gpytoolbox/reach_for_the_spheres.py:_remesh_line,_split_line,_collapse_line,_relaxation_line,_line_bdry"]}
{"id": "C112", "title": "Reach for the spheres: joining the remeshed part to the rest of the mesh keeps all faces in place and closes the seam", "statement": "Joining the remeshed (active) part of the mesh to the inactive rest keeps every face of both, in order, with its corners in place up to the tolerance. Boundary vertices are identified exactly when they fall in the same cell of the tolerance grid - in particular coinciding ones are, so the seam is closed - and interior vertices of the active part stay exactly in place and are identified with nothing. For triangles this needs the boundary vertices of the active part to be numbered first, as the remesher returns them; in another order corners move.", "quantifier": "all pairs of meshes (triangles or segments) with indices in range, all coordinates, all tolerances other than zero", "why_tests_cant": "renumbering of an arbitrary union of meshes; wrong numbers show only for particular orders of vertices", "anchors": ["src/gpytoolbox/reach_for_the_spheres.py:_merge_meshes"]}
{"id": "C113", "title": "Reach for the spheres: new samples are the worst trial points, one per face, within the limit", "statement": "When `reach_for_the_spheres` is given a function instead of fixed samples, each round adds at most the requested number of samples, after the old ones; each is on a different face and is the trial point of its face that lies farthest (in power) outside the known spheres, and no trial point on another face is farther outside than a chosen one. The guiding value is never positive, and zero exactly inside or on some known sphere. There are never more samples than allowed; without removal the old ones all stay, in order; with removal those nearest to the surface stay, and the protected ones stay when there is room for them. Called without samples and without permission to remove, it raises an exception.", "quantifier": "all distance functions, all lists of samples and trial points with their faces, in every dimension, all limits, all ways to break ties when sorting", "why_tests_cant": "selection by two sorts with ties over any number of points", "anchors": ["src/gpytoolbox/reach_for_the_spheres.py:_sample_sdf,_vdf"]}
{"id": "C114", "title": "the trajectory of swept_volume passes through its keyframes, and the velocity used is its derivative", "statement": "For at least two keyframes and any time in [0,1], swept_volume moves the mesh along a continuously differentiable curve that is at translation k at time k/(n-1) and turns it through rotations that are those of the keyframes at their times; the velocities handed to the descent are the derivatives of the positions and orientations, and the velocity of a query point in the frame of the mesh is the derivative of its position there. With one keyframe only, or scales that change between keyframes, this fails.", "quantifier": "all keyframe lists, all times in [0,1]", "why_tests_cant": "A derivative is a limit and the trajectory a continuum of times.", "anchors": ["src/cpp/swept_volume/swept_volume.cpp:swept_volume", "src/cpp/swept_volume/swept_volume.cpp:interpolate_position", "src/cpp/swept_volume/swept_volume.cpp:logq"]}
{"id": "C115", "title": "swept_volume gives the compiled code the keyframes the caller described", "statement": "swept_volume passes one affine keyframe for each translation, with the given rotation (or, with align_with_velocity, a rotation that takes the first axis to the direction of motion, up to rounding-size tolerance) and the given scale; rotation_matrix_from_vectors is a rotation taking the one direction to the other for all nonzero vectors.", "quantifier": "all translations, rotations and scales, all pairs of nonzero vectors", "why_tests_cant": "The space of vectors and keyframes is a continuum, with degenerate directions in it.", "anchors": ["src/gpytoolbox/swept_volume.py:swept_volume", "src/gpytoolbox/swept_volume.py:velocity_alignment_rotations", "src/gpytoolbox/swept_volume.py:rotation_matrix_from_vectors"]}
{"id": "C116", "title": "the descent in time of swept_volume always returns a value attained at a time in [0,1]", "statement": "For every function, derivative and history of earlier calls, the descent in time comes to an end with a time in [0,1] and the value of the distance at exactly that time; its records of intervals stay true and only grow, and a start that is in no interval ends at a value not above the start or at an earlier result. Every seed of the continuation is queued with its own time and inside its own voxel.", "quantifier": "all functions, all starts in [0,1], all sequences of calls, all lists of seeds", "why_tests_cant": "It is a statement about all functions and all histories of calls.", "anchors": ["src/cpp/swept_volume/gradient_descent_test.cpp:gradient_descent_test", "src/cpp/swept_volume/swept_volume.cpp:swept_volume", "src/cpp/swept_volume/sparse_continuation.cpp:sparse_continuation"]}
{"id": "C117", "title": "the grid swept_volume builds is consistent", "statement": "After any number of rounds the continuation of swept_volume has: different voxels for different rows of CI, all linked to the seeds through faces; in every row the indices of the eight corners of the cube of side eps around p0+eps*voxel, in a fixed order; no point twice in CV, so that cubes that meet share their vertices; every vertex in some cube; and at every vertex a number that is the distance there at some time in [0,1] and that never goes up from one round to a later one.", "quantifier": "all distance functions and derivatives, all seeds, all cell sizes, all numbers of rounds", "why_tests_cant": "It is an invariant of an unbounded search whose order depends on the distance function.", "anchors": ["src/cpp/swept_volume/sparse_continuation.cpp:sparse_continuation", "src/cpp/swept_volume/swept_volume.cpp:swept_volume"]}
{"id": "C118", "title": "the continuation of swept_volume comes to an end", "statement": "When the distance is bounded below and positive at all times outside some box, the continuation of swept_volume ends after finitely many rounds, for every list of seeds, every cell size and every derivative; and every cube that is not a seed is next to a cube with a corner inside the mesh at some time.", "quantifier": "all bounded motions of bounded meshes, all seeds, all cell sizes", "why_tests_cant": "Termination of a search with corrections cannot be shown by running it.", "anchors": ["src/cpp/swept_volume/sparse_continuation.cpp:sparse_continuation"]}
{"id": "C119", "title": "Dual contouring: one vertex per active cell, one quad per crossed edge; closed if the boundary has one sign", "statement": "dual_contouring_of_signed_distance_data returns, for every choice of options, random batches and solver results, a quad mesh with exactly one vertex for every grid cell with samples strictly on both sides of the isovalue and exactly one quad for every inner grid edge whose ends are strictly on opposite sides, through the vertices of its four cells.  The four corners of a quad are different valid indices.  If no sample equals the isovalue and the samples on the boundary of the grid are all on one side, every side belongs to 0, 2 or 4 quads (closed mesh).  A quad with a normal that is not tiny does not point against the sum of the unit gradients at the ends of its edge; for samples of a function with constant gradient on a regular grid it does not point against the gradient.  The call returns (no exception) if sizes match, new_hermite_pos_weight is in [0,1] and no sample lies strictly between the isovalue and 1e-16 above it.  It is NOT true that the mesh is closed when a sample equals the isovalue (a 4x3x3 grid gives a side with one quad), nor that multiplying all samples by a positive factor keeps the call from raising (samples of size 1e-16 raise 'No hermite normal found').", "quantifier": "all grid sizes, samples, positions, isovalues, options, random shuffles, numbers of iterations and results of the linear algebra and closest point routines", "why_tests_cant": "the topology depends on the sign pattern of a grid of any size and must survive any number of optimisation rounds with random batches; tests look at a few smooth shapes", "anchors": ["src/gpytoolbox/dual_contouring_of_signed_distance_data.py:dual_contouring_of_signed_distance_data", "src/cpp/dual_contouring_of_signed_distance_data/contouring.cpp:extract_mesh_from_cells", "src/cpp/dual_contouring_of_signed_distance_data/contouring.cpp:contouring"]}
{"id": "C120", "title": "Dual contouring without outer iterations: vertices are the mean of the edge crossings of their cell", "statement": "With num_outer_iters = 0 and no sample equal to the isovalue or less than 1e-16 above it, the vertex of every cell is the mean of the points where the cell's edges cross the isovalue by linear interpolation of the samples (each edge with a sign change counted exactly once, interpolated value within 1e-16 of the isovalue), and the quads connect these vertices around the crossed inner edges.  So every vertex lies in the convex hull of the corners of its cell, and for samples of an affine function on the isosurface up to 1e-16 in the value.", "quantifier": "all grid sizes, positions (not only regular grids), samples and isovalues", "why_tests_cant": "the mean runs over one of 2^8 sign patterns per cell, and the numbering links cells to vertices in a grid of any size; tests compare a few shapes up to a tolerance", "anchors": ["src/gpytoolbox/dual_contouring_of_signed_distance_data.py:dual_contouring_of_signed_distance_data", "src/cpp/dual_contouring_of_signed_distance_data/contouring.cpp:contouring", "src/cpp/dual_contouring_of_signed_distance_data/contouring.cpp:generate_cells"]}
{"id": "C121", "title": "Dual contouring: each inner step moves a cell vertex to the unique minimiser of its energy", "statement": "In every inner iteration with mu > svd_threshold >= 0 (the default) a cell vertex is moved to the unique minimiser of dc_weight^2 * (squared Hermite plane distances) + (squares of radius times the distance of the moved surface point to the tangent plane of each sphere that counts) + mu * |x - previous vertex|^2.  So the step satisfies mu*|step|^2 <= the energy before the step, and a vertex that lies on all Hermite planes and whose surface touches all spheres stays.  For any other svd_threshold >= 0 the vertex is the unique minimiser among the points that differ from the mean of the Hermite points by a combination of the eigenvectors of A^T A for eigenvalues above the threshold.", "quantifier": "all cells, Hermite data, spheres, closest points, weights mu >= 0, dc_weight, svd_threshold >= 0, and all singular value decompositions the library may return (they are not unique)", "why_tests_cant": "the minimality is over all points of space and the decomposition is any one the library may pick; a test sees one vertex", "anchors": ["src/cpp/dual_contouring_of_signed_distance_data/Cell.cpp:minimize_qef", "src/cpp/dual_contouring_of_signed_distance_data/Cell.cpp:solve_quadratic_system"]}
{"id": "C122", "title": "Stochastic Poisson: the mean fits its differences to the vector field of the normals", "statement": "Whenever stochastic_poisson_surface_reconstruction (solve_subspace_dim=0) with gs, h>0 and corner given returns on a grid with at least 8 nodes in every coordinate except the last, the mean has one value per node and its finite differences along the grid edges fit the vector field V = prior + sum_i kernel(p_i,.) (n_i - prior(p_i))/(density_i + sigma_n^2), taken at the midpoints of the edges, at least as well as those of any other grid function u, up to 1e-6*sum u^2 and the tolerance of the iterative solver.  The kernel is the compactly supported normal with sigma 1.5 min(h), all of it: no pair of a point and a node in its support is missed.  In 2D, on at least 8x6 nodes, and in 3D, on at least 8x8x6: it returns exactly if in each coordinate every point is at least half a cell after the first node and less than half a cell after the last; if no point is beyond the last node, the bilinear (trilinear) interpolation of the mean averages to zero over the points.  Without a prior and with exact solves the mean is linear in the normals (any dimension, any grid); flipping the normals flips it.", "quantifier": "all points, normals, grids, spacings, priors, noise levels, blurs, and every linear solver that meets scipy's accuracy contract; optimality against all grid functions", "why_tests_cant": "a fit against all other grid functions and for all point sets; the kernel matrices are built by index arithmetic that a test on one grid does not exhaust", "anchors": ["src/gpytoolbox/stochastic_poisson_surface_reconstruction.py:stochastic_poisson_surface_reconstruction"]}
{"id": "C123", "title": "Stochastic Poisson: the variance is that of the exact solution, shifted", "statement": "In 2D, on a grid with at least 8x6 nodes, with exact direct solves: the returned variance has one value per node, every value is at least sigma_n^2+1e-6 and the smallest is exactly that.  Up to one common shift, the value of a node is the variance of the value there of the exact minimiser (a weighted sum of the components of the vector field along the grid edges) when these components have the covariance sigma^2*(k(q,q') - sum_i k(p_i,q) k(p_i,q')/(density_i+sigma_n^2)) for edges in the same direction and 0 otherwise.  A variance is returned exactly for the points for which a mean is.  In 3D the covariance of the vector field has this form for every edge away from the border of the grid and any other edge; it is NOT true for edges at the border: on a grid of 9x8x8 nodes the entry of the edges at (0,0,0) and (0,2,2) is zero.", "quantifier": "all points, normals, grids, spacings, noise levels; all exact solvers", "why_tests_cant": "an identity between covariance matrices for all grids; the kernel matrix is filled from one template row by index arithmetic", "anchors": ["src/gpytoolbox/stochastic_poisson_surface_reconstruction.py:stochastic_poisson_surface_reconstruction"]}
{"id": "C124", "title": "Stochastic Poisson: the default grid contains the points, the returned vertices belong to the values", "statement": "If the spacing or the corner is not given, the grid is 1.5 times the bounding box scaled about the ORIGIN.  Claim: the default grid works for all points.  Violated: it raises whenever one coordinate is positive for all points (or negative for all) and not constant, in every dimension; it can only work if the origin is inside the bounding box at least one cell from each side, and in 2D (8x6 nodes or more) that is also sufficient.  A spacing without corner, or a corner without spacing, is silently ignored if gs is given.  In 2D the j-th value belongs to the j-th returned vertex (C order); violated in 3D: neither in C nor in Fortran order.", "quantifier": "all point sets, grids, dimensions", "why_tests_cant": "exact domain of definition of a default; order of all vertices of all grids", "anchors": ["src/gpytoolbox/stochastic_poisson_surface_reconstruction.py:stochastic_poisson_surface_reconstruction"]}
{"id": "C125", "title": "point_cloud_to_mesh works in the caller's coordinates", "statement": "point_cloud_to_mesh runs the reconstruction on a translated, uniformly scaled copy of the points (normals unchanged, depth at most 12) and returns its faces and its vertices moved back by the inverse map; so the result moves with the points (translation equivariance, exactly).  The copy is inside the unit cube, in one coordinate within [11/32, 21/32].  If two points differ by 1e-6 or more in a coordinate, two points of the copy differ by at least 5/37.  The call returns exactly for two or more points in 2D or 3D with one normal each, method 'PSR', positive depth and nonnegative weight.  All depths >= 12 are the same; every boundary type except 'Dirichlet'/'dirichlet' is 'Neumann'.  It is NOT true that scaling the points scales the result: clouds small compared with 1e-6 are seen as a single point.", "quantifier": "all point clouds, normals, options and every reconstruction algorithm in the place of the library's", "why_tests_cant": "equivariance is about all clouds and all translations; the scaling works for all clouds of ordinary size and fails below an absolute threshold", "anchors": ["src/gpytoolbox/point_cloud_to_mesh.py:point_cloud_to_mesh", "src/cpp/point_cloud_to_mesh.cpp:point_cloud_to_mesh", "src/cpp/binding_point_cloud_to_mesh.cpp:binding_definer_point_cloud_to_mesh"]}
{"id": "C126", "title": "dual contouring: every sample sphere pulls on the cell where the surface is closest to it, and the local surfaces of the cells fit together", "statement": "In each outer iteration of dual_contouring_of_signed_distance_data, a cell with a vertex works with exactly the spheres of those samples of the batch whose closest point on the present surface (two triangles per quad) is in this cell and less than a cell diagonal outside of the sphere; the cell chosen is a cell of the grid and, on a regular grid, contains the closest point. The batch consists of distinct samples and includes every sample nearer than three cell diagonals, and all samples if the batch size allows. The surface a cell shows to its spheres consists of all triangles (cell vertex, Hermite point on an edge of a face, point on that face); each sphere is matched with a closest point of it, whose barycentric weights are used, and with the point of the sphere on the ray through it. Points on faces lie on the planes of the faces and are the same for the two cells of a face.", "quantifier": "All grids, samples, options, batches and shuffles, surfaces, all outer iterations of all runs, all closest-point routines meeting their contract.", "why_tests_cant": "The assignment goes through a quad triangulation, an inexact cell lookup with clamping and a cell-local mesh built from index tables of faces, edges and corners; the output only depends on it through an iterated minimisation, so that a wrong face-edge table or neighbour offset shows up as slightly worse quality, not as an error.", "anchors": ["src/cpp/dual_contouring_of_signed_distance_data/contouring.cpp:assign_spheres_to_cells", "src/cpp/dual_contouring_of_signed_distance_data/contouring.cpp:compute_face_cell_intersections", "src/cpp/dual_contouring_of_signed_distance_data/vertex_refinement.cpp:refine_vertex_from_face_intersections", "src/cpp/dual_contouring_of_signed_distance_data/vertex_refinement.cpp:compute_sphere_to_mesh_closest_points", "src/cpp/dual_contouring_of_signed_distance_data/Cell.cpp:clean"]}
{"id": "C127", "title": "dual contouring: every edge has one normal, shared by the four cells around it", "statement": "During dual_contouring_of_signed_distance_data, after every outer iteration, the four cells around an inner grid edge with a sign change store the same Hermite normal for it, a unit vector or zero, provided the grid has at least three vertices along the axis of the edge. Averaging replaces the four normals by their normalised sum; with update_hermite_data, an update blends them with the unit normal of the plane that fits the four cell vertices best, oriented from the negative to the positive end of the edge.", "quantifier": "All grids, samples, options, inner edges with a sign change, all outer iterations of all runs, all decompositions meeting their contract.", "why_tests_cant": "The cells of an edge are found through tables of local edge numbers, faces and offsets, and all edges are processed in sequence on shared cells; a wrong table entry corrupts the data of some other edge in a way that only shows as a slightly different surface.", "anchors": ["src/cpp/dual_contouring_of_signed_distance_data/hermite_update.cpp:process_edge", "src/cpp/dual_contouring_of_signed_distance_data/hermite_update.cpp:average_hermite_normals", "src/cpp/dual_contouring_of_signed_distance_data/hermite_update.cpp:update_hermite_points_and_normals", "src/cpp/dual_contouring_of_signed_distance_data/Cell.cpp:get_face_normals_from_edge_idx"]}
{"id": "C128", "title": "colormap returns the documented number of colours, in range, and interpolation keeps the colours of the map", "statement": "Without interpolation colormap succeeds exactly for the documented names and 0 <= n <= the number of colours of the map, returns n colours (all of them for n = 0) with channels between 0 and 255, and these are the first n colours of the map; with interpolation it returns n colours for every n >= 1, starting with the first and ending with the last colour of the map and passing through every colour of it, with channels between 0 and 255; anything else is refused.", "quantifier": "all names, all numbers of colours, both modes", "why_tests_cant": "n is unbounded, and the overshoot of a cubic interpolation depends on the data between the nodes", "anchors": ["src/gpytoolbox/colormap.py:colormap"]}
{"id": "C129", "title": "squared_distance and unsigned_distance on the C++ path return the closest point, and a precomputed tree does not change the answer", "statement": "With use_cpp=True (the default of unsigned_distance) squared_distance returns for every query point the squared distance from the mesh, an element that contains a closest point, and the barycentric weights of that point, which are recovered from the closest point of the library; passing a squared_distance_precompute object made from the same arguments as cpp_aabb does not change the result; the object can be made exactly in the plane and in space.", "quantifier": "all meshes of points, of segments with different ends, or of triangles of positive area in the plane or in space, all query points, every library that returns a closest point", "why_tests_cant": "the weights are recovered by division for a continuum of closest points, and the equality of the cached and the direct answer concerns every mesh, query and default argument", "anchors": ["src/gpytoolbox/squared_distance.py:squared_distance", "src/gpytoolbox/squared_distance_precompute.py:squared_distance_precompute", "src/gpytoolbox/unsigned_distance.py:unsigned_distance", "src/cpp/binding_aabb_tree.cpp:AABBTreeWrapper"]}
{"id": "C130", "title": "signed_distance on its default path returns the signed distance, with or without precomputed structures", "statement": "signed_distance with use_cpp=True (the default) returns for every query point the distance from the mesh, with a minus sign exactly where the winding number is at least one, together with a closest element and the weights of a closest point; a squared_distance_precompute tree and a fast_winding_number_precompute hierarchy made from the same mesh change nothing; without elements a planar polyline is closed and a mesh in space is refused. (For open polylines the magnitude is wrong where the winding number is one half: zero is returned.)", "quantifier": "all unions of closed polylines in the plane and queries off the vertices; in space all meshes and queries at which the fast winding number is within one half of the winding number", "why_tests_cant": "continuum of queries; the equality of cached and uncached answers concerns every mesh", "anchors": ["src/gpytoolbox/signed_distance.py:signed_distance", "src/gpytoolbox/winding_number.py:winding_number", "src/gpytoolbox/fast_winding_number.py:fast_winding_number", "src/gpytoolbox/fast_winding_number_precompute.py:fast_winding_number_precompute"]}
{"id": "C131", "title": "ray_mesh_intersect on its default path returns the first hit", "statement": "For every batch of rays and every triangle mesh, ray_mesh_intersect with use_embree=True (the default) returns one row per ray: if the ray (rounded to single precision, as is the mesh) meets a triangle it is not parallel to at parameter 1e-4 or later, the smallest such parameter, the index of a triangle hit there and barycentric weights, nonnegative and of sum one, that combine its corners to the hit point; else infinity, -1 and zeros. Passing the object of ray_mesh_intersect_precompute for the same mesh changes nothing. Where no triangle is hit before 1e-4 and no hit triangle is below the determinant threshold of the Python path, both paths return the same parameter. Violated without that: a ray that starts closer than 1e-4 to the mesh has a hit on the Python path and none on the default path.", "quantifier": "every list of rays, every triangle mesh, every rounding to single precision, every Embree that meets its contract", "why_tests_cant": "a test compares the two paths on random rays, which never start this close to the surface", "anchors": ["src/gpytoolbox/ray_mesh_intersect.py:ray_mesh_intersect", "src/gpytoolbox/ray_mesh_intersect_precompute.py:ray_mesh_intersect_precompute", "src/cpp/ray_mesh_intersect_aabb.cpp:ray_mesh_intersect_aabb", "src/cpp/binding_ray_mesh_intersector.cpp:RayMeshIntersectorWrapper"]}
{"id": "C132", "title": "marching_cubes puts a vertex on every crossed edge of the grid", "statement": "marching_cubes(S,GV,nx,ny,nz,isovalue), with S the values of any function at the grid points GV, returns a vertex exactly at the linearly interpolated point of every grid edge on which the values cross the isovalue, and no other vertex. Proved for grids of regular_cube_mesh with nx = nz, and for grids listed with x fastest with ny = nz. Violated otherwise: the binding passes ny and nz to libigl in the wrong order, so on the grid of regular_cube_mesh(2,2,3), and on a 2 x 2 x 3 grid listed with x fastest, a vertex is returned that is on no edge of the grid.", "quantifier": "every function, every isovalue, every grid size of at least two, every libigl that meets its contract", "why_tests_cant": "the tests use cubes with the same size in all directions only, where the swapped arguments are equal", "anchors": ["src/gpytoolbox/marching_cubes.py:marching_cubes", "src/cpp/binding_marching_cubes.cpp:binding_marching_cubes", "src/gpytoolbox/regular_cube_mesh.py:regular_cube_mesh"]}
{"id": "C133", "title": "mesh_boolean, decimate and in_element_aabb pass the right request to libigl", "statement": "mesh_boolean returns the union, the intersection or the first solid without the second, as its name says; 'minus' is 'difference'; the result can be used in further calls; every other name raises. decimate uses num_faces where given, whatever face_ratio is, and else leaves at most the fraction face_ratio of the triangles (where the library does not get stuck); its index maps have one entry in range per triangle and vertex; every other method name raises. in_element_aabb returns for every query in the plane or in space an element that contains it or -1 if none does. Violated for in_element_aabb in other dimensions: it returns an empty array and raises nothing.", "quantifier": "all meshes, all names, all ratios and numbers of faces, all queries, every libigl that meets its contract", "why_tests_cant": "the claims are for all names, meshes and queries", "anchors": ["src/gpytoolbox/copyleft/mesh_boolean.py:mesh_boolean", "src/cpp/binding_booleans.cpp:binding_booleans", "src/gpytoolbox/decimate.py:decimate", "src/cpp/binding_decimate.cpp:binding_decimate", "src/gpytoolbox/in_element_aabb.py:in_element_aabb", "src/cpp/in_element_aabb.cpp:in_element_aabb"]}
{"id": "C134", "title": "subdivide keeps the topology of the mesh", "statement": "Upsampling a triangle mesh any number of times keeps V - E + F, multiplies the number of boundary sides by two in every step (so closed meshes stay closed, and only those become closed), connects two old vertices by edges exactly if they were connected before, and connects every new vertex to an old one.", "quantifier": "all non-empty consistently oriented edge-manifold triangle lists with valid indices and without two triangles on the same three vertices, all vertex positions, all iteration counts", "why_tests_cant": "tests count vertices and faces of a few meshes; connectivity and boundary for every mesh and depth need an induction", "anchors": ["src/gpytoolbox/subdivide.py:subdivide"]}
{"id": "C135", "title": "Loop subdivision can be iterated and keeps the topology", "statement": "subdivide(V,F,method='loop',iters=k) succeeds for every k; the result is again a consistently oriented edge-manifold mesh with manifold boundary, all vertices used and no two triangles on the same vertices; every row of the returned matrix is non-negative with sum one and the new vertices are the matrix times the old ones (so they stay in the convex hull of the input); V - E + F is kept, the number of boundary sides doubles in every step, and the connected components are the same.", "quantifier": "all non-empty consistently oriented edge-manifold triangle lists with valid indices, without two triangles on the same three vertices, with one incoming and one outgoing boundary side at every boundary vertex and every vertex used; all vertex positions in any dimension; all k", "why_tests_cant": "tests run a few iterations on a few meshes; success and convexity at every depth need the preservation of the hypotheses by one step", "anchors": ["src/gpytoolbox/subdivide.py:subdivide", "src/gpytoolbox/subdivide.py:_loop_triangle_mesh"]}
{"id": "C136", "title": "remesh_botsch keeps the topology of a closed mesh", "statement": "Called on a closed, consistently oriented mesh, remesh_botsch returns a mesh of the same topology: used vertices minus edges plus triangles is unchanged, and there is a map of the old used vertices to the new ones under which two vertices are connected by mesh edges before exactly if their images are connected after, which reaches every connected component of the result and takes the given fixed vertices to the first vertices of the result, in the given order. So no handle, hole or component is ever created, closed up, merged or lost.", "quantifier": "all closed consistently oriented meshes without repeated sides, all target lengths, iteration counts, fixed vertices, feature edges (given or detected), with and without projection", "why_tests_cant": "every iteration makes a data-dependent sequence of splits, collapses and flips; tests can only look at the genus of a few results", "anchors": ["src/cpp/remesher/remesh_botsch.cpp:remesh_botsch", "src/cpp/remesher/split_edges_until_bound.cpp:split_edges_until_bound", "src/cpp/remesher/collapse_edges.cpp:collapse_edges", "src/cpp/remesher/equalize_valences.cpp:equalize_valences", "src/gpytoolbox/remesh_botsch.py:remesh_botsch"]}
{"id": "C137", "title": "subdividing a polyline k times cuts every edge into 2^k equal pieces", "statement": "subdivide with an (m,2) element list inserts 2^iters - 1 evenly spaced new vertices on every edge (each new vertex on one edge only, no vertex unused), replaces the edge by the 2^iters pieces in the edge's direction, keeps the old vertices in their places at the front, keeps the total length, and returns a matrix that takes the old vertices to the new ones.", "quantifier": "all lists of at least one edge (open, closed, branching, with repeated edges) between at least two vertices, any dimension, any number of iterations", "why_tests_cant": "the numbering of the new vertices depends on all previous iterations; tests look at one or two iterations of a few curves", "anchors": ["src/gpytoolbox/subdivide.py:subdivide", "src/gpytoolbox/subdivide.py:_upsample_polyline"]}
{"id": "C138", "title": "Reach for the spheres: output-sensitive remeshing leaves the rest of the mesh alone", "statement": "In an iteration with violated samples, output-sensitive remeshing of a triangle mesh hands to the remesher exactly the faces within two vertex rings of the faces closest to the violated samples (in place, with exactly their vertices), or the whole mesh if these are all faces. Otherwise the new mesh consists of all other faces, in their old order and with their corners in place up to the merging tolerance, followed by the faces the remesher returned, with their corners in place; a boundary vertex of the new part at the place of an old vertex is identified with it, so the seam closes.", "quantifier": "all triangle meshes, all nonempty sets of violated faces, any behaviour of the remesher that returns boundary vertices first", "why_tests_cant": "which faces are active depends on mesh and samples in every iteration, and renumbering errors show only for particular layouts", "anchors": ["src/gpytoolbox/reach_for_the_spheres.py:reach_for_the_spheres_iteration", "src/gpytoolbox/reach_for_the_spheres.py:_one_ring", "src/gpytoolbox/reach_for_the_spheres.py:_merge_meshes"]}
{"id": "C139", "title": "dual_contouring_of_signed_distance_data: the initial normals are gradients of the trilinear interpolant", "statement": "On a regular grid, dual_contouring_of_signed_distance_data gives every cell whose corners have samples of both signs a point and a normal at exactly the edges whose ends do not have the same strict sign. The point is the root of linear interpolation along the edge (with the guard 1e-16 in the denominator), and the normal is the unit gradient, at that point moved into the cell if necessary, of the trilinear function that takes the eight samples at the eight corners. For samples of an affine function every normal is the unit normal of its level sets.", "quantifier": "all grids, samples and cells", "why_tests_cant": "a test has a few grids; the claim is about partial derivatives of a function of three real variables at every point of every cell", "anchors": ["src/cpp/dual_contouring_of_signed_distance_data/Cell.cpp:gradientAtPointUsingTrilinear", "src/cpp/dual_contouring_of_signed_distance_data/Cell.cpp:fill_hermite_data", "src/cpp/dual_contouring_of_signed_distance_data/contouring.cpp:generate_cells"]}
{"id": "C140", "title": "Stochastic Poisson: the variance from a subspace", "statement": "In 2D, on a grid with at least 8x6 nodes, with exact direct solves: stochastic_poisson_surface_reconstruction with solve_subspace_dim=n>0 returns the same mean as without a subspace and one variance per node; every value is at least sigma_n^2+1e-6 and the smallest is exactly that.  Up to one common shift, the variance of a node is that of the value there of the sum of the n lowest Neumann modes of the box, each of which is fitted alone (not jointly) to the random vector field, whose components along the grid edges have the covariance of the Gaussian process after observing the points.  The projected system can always be solved: a variance is returned exactly for the points for which one is returned without a subspace, for every number of modes and every tie break of argsort.", "quantifier": "all points, normals, priors, grids of at least 8x6 nodes, numbers of modes, argsort tie breaks", "why_tests_cant": "a statement about a variance as a quadratic form in a random field, for every grid and number of modes; tests compare a few samples with tolerance", "anchors": ["src/gpytoolbox/stochastic_poisson_surface_reconstruction.py:stochastic_poisson_surface_reconstruction", "src/gpytoolbox/grid_laplacian_eigenfunctions.py:grid_laplacian_eigenfunctions"]}
{"id": "C141", "title": "cylinder, cone and torus have the right shape and face outwards", "statement": "The vertices of cylinder(nx,nz) are different points of the cylinder of radius and height one around the z axis; those of cone(nx,nz) are different points of the cone over the unit circle with tip (0,0,1); those of torus(nR,nr,R,r) with 0<r<R are different points of the torus with these radii.  Every triangle has corners in the vertex list, positive area, and a normal pointing to the outer side of the surface at its first corner.", "quantifier": "all sizes accepted by the asserts, all radii 0<r<R", "why_tests_cant": "holds for every resolution and all radii; tests compare a few sizes", "anchors": ["src/gpytoolbox/cylinder.py:cylinder", "src/gpytoolbox/cone.py:cone", "src/gpytoolbox/torus.py:torus"]}
{"id": "C142", "title": "Reach for the spheres: which samples and vertices an iteration looks at", "statement": "After any number of iterations of reach_for_the_spheres: the next one works with all samples if batch_size is not positive or not below their number, and otherwise with batch_size different samples followed by every sample whose value is zero or less (none of these is ever left out), each with its own value.  Values given by the user stay in use until samples are added; from then on, and always if none were given, every sample has the value of the function.  Samples are never fewer than at the start, at most double when samples are added and grow by at most the number asked for; the given samples stay in front if no more are asked for than there were at the start (true of the default number from six samples on), and stay in any case if the function is not zero at a trial point.  The default smallest resolution lies between 0.001 and 0.1.  Invalid faces are those closest to a sample whose distance is off by the tolerance or more; the vertices left alone by remeshing are the corners of no invalid face ('aggressive') or the corners of some valid face (otherwise), and the first are among the second if every vertex is used.", "quantifier": "all samples, values, functions, batch sizes, random choices, trial points and histories of iterations", "why_tests_cant": "a statement about every history of batches and resampling", "anchors": ["src/gpytoolbox/reach_for_the_spheres.py:reach_for_the_spheres_iteration"]}
