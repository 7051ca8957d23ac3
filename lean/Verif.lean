import Verif.Props.Edges
import Verif.Props.HalfedgeEdgeMap
import Verif.Props.Dec
import Verif.Props.Laplacian
import Verif.Props.Mass
import Verif.Props.MassEntries
import Verif.Props.Aabb
import Verif.Props.PointElement
import Verif.Props.SquaredDistance
import Verif.Props.EdgeEdge
import Verif.Props.RemoveUnreferenced
import Verif.Props.RemoveDuplicate
import Verif.Props.CutEdges
import Verif.Props.BoundaryLoops
import Verif.Props.Subdivide
import Verif.Props.LoopSubdivide
import Verif.Props.Quadtree
import Verif.Props.InQuadtree
import Verif.Props.QuadBoundary
import Verif.Props.TriTri
import Verif.Props.MinimumDistance
import Verif.Props.Hausdorff
import Verif.Props.Ray
import Verif.Props.Generators
import Verif.Props.CubeMesh
import Verif.Props.Angles
import Verif.Props.Fd
import Verif.Props.GridNeighbors
import Verif.Props.Obj
import Verif.Props.Swarm
import Verif.Props.SwarmMoves
import Verif.Props.Metropolis
import Verif.Props.RandomPoints
import Verif.Props.UniformSampling
import Verif.Props.NormalizePoints
import Verif.Props.Rotation
import Verif.Props.MinQuad
import Verif.Props.Winding
import Verif.Props.Dmat
import Verif.Props.MarchingSquares
import Verif.Props.SignedDistancePolygon
import Verif.Props.RayPolyline
import Verif.Model.Icosphere
import Verif.Props.Icosphere
import Verif.Model.Faces
import Verif.Spec.TetFaces
import Verif.Proofs.UniqSplit
import Verif.Proofs.Faces
import Verif.Props.Faces
import Verif.Model.Adjacency
import Verif.Proofs.Adjacency
import Verif.Props.Adjacency
import Verif.Model.Biharmonic
import Verif.Props.Biharmonic
import Verif.Props.HessianEnergy
import Verif.Model.Normals
import Verif.Props.Normals
import Verif.Model.CatmullRom
import Verif.Props.CatmullRom
import Verif.Props.AngleDefect
import Verif.Props.SplitEdges
import Verif.Props.SplitBound
import Verif.Props.Equalize
import Verif.Props.Relax
import Verif.Model.Collapse
import Verif.Spec.Collapse
import Verif.Proofs.UnionFind
import Verif.Proofs.CollapseRun
import Verif.Proofs.CollapseMap
import Verif.Proofs.Collapse
import Verif.Props.Collapse
import Verif.Model.Remesh
import Verif.Spec.Remesh
import Verif.Proofs.Remesh
import Verif.Props.Remesh
import Verif.Model.RemeshPy
import Verif.Proofs.RemeshPy
import Verif.Props.RemeshPy
import Verif.Model.Kernels
import Verif.Spec.Kernels
import Verif.Proofs.Kernels
import Verif.Props.Kernels
import Verif.Proofs.CubicB
import Verif.Proofs.CubicPsd
import Verif.Props.CsnKernel
import Verif.Model.GaussianProcess
import Verif.Spec.GaussianProcess
import Verif.Proofs.MatrixFromFunction
import Verif.Proofs.GaussianProcess
import Verif.Props.MatrixFromFunction
import Verif.Props.GaussianProcess
import Verif.Props.GaussianProcess2
import Verif.Props.GaussianProcess3
import Verif.Props.GaussianProcess4
import Verif.Props.GaussianProcess5
import Verif.Props.GaussianProcess6
import Verif.Props.GaussianProcess7
import Verif.Model.Skinning
import Verif.Model.Extrinsic
import Verif.Model.CompactNormal
import Verif.Spec.BSpline
import Verif.Proofs.BSplineTp
import Verif.Proofs.BSpline
import Verif.Props.Skinning
import Verif.Props.Extrinsic
import Verif.Props.SignedArea
import Verif.Props.Polyline
import Verif.Props.CompactNormal
import Verif.Model.Elasticity
import Verif.Spec.Elasticity
import Verif.Proofs.CsrBlocks
import Verif.Proofs.Elasticity
import Verif.Proofs.Elasticity2
import Verif.Props.Elasticity
import Verif.Props.Elasticity2
import Verif.Props.Elasticity3
import Verif.Props.Elasticity4
import Verif.Model.GradIntrinsic
import Verif.Props.GradIntrinsic
import Verif.Model.Unsigned
import Verif.Props.Unsigned
import Verif.Model.CirclePolyline
import Verif.Props.CirclePolyline
import Verif.Model.GridEigen
import Verif.Spec.GridEigen
import Verif.Proofs.GridEigen
import Verif.Props.GridEigen
import Verif.Props.GridEigen2
import Verif.Model.ApplyColormap
import Verif.Props.ApplyColormap
import Verif.Model.MinL1
import Verif.Spec.MinL1
import Verif.Proofs.MinL1
import Verif.Proofs.MinL1b
import Verif.Props.MinL1
import Verif.Model.MinL1Mosek
import Verif.Spec.MinL1Mosek
import Verif.Proofs.MinL1Mosek
import Verif.Props.MinL1Mosek
import Verif.Model.Matryoshka
import Verif.Spec.Matryoshka
import Verif.Proofs.Matryoshka
import Verif.Proofs.Matryoshka2
import Verif.Proofs.Matryoshka3
import Verif.Props.Matryoshka
import Verif.Props.Matryoshka2
import Verif.Props.Matryoshka3
import Verif.Model.UpperEnvelope
import Verif.Spec.UpperEnvelope
import Verif.Proofs.UpperEnvelope
import Verif.Proofs.UpperEnvelope2
import Verif.Proofs.UpperEnvelope3
import Verif.Props.UpperEnvelope
import Verif.Model.QuadOperators
import Verif.Spec.QuadOperators
import Verif.Proofs.QuadOperators
import Verif.Proofs.QuadOperators2
import Verif.Proofs.QuadOperators3
import Verif.Proofs.QuadOperators4
import Verif.Props.QuadOperators
import Verif.Model.Ply
import Verif.Spec.Ply
import Verif.Proofs.Ply
import Verif.Proofs.Ply2
import Verif.Proofs.Ply3
import Verif.Proofs.Ply4
import Verif.Proofs.Ply5
import Verif.Proofs.Ply6
import Verif.Proofs.Ply7
import Verif.Proofs.Ply8
import Verif.Proofs.Ply9
import Verif.Proofs.Ply10
import Verif.Proofs.Ply11
import Verif.Proofs.Ply12
import Verif.Props.Ply
import Verif.Model.Stl
import Verif.Spec.Stl
import Verif.Proofs.Stl
import Verif.Proofs.Stl2
import Verif.Proofs.Stl3
import Verif.Props.Stl
import Verif.Model.LazyCage
import Verif.Props.LazyCage
import Verif.Model.BadQuad
import Verif.Spec.BadQuad
import Verif.Proofs.BadQuad
import Verif.Props.BadQuad
import Verif.Props.Feasible
import Verif.Props.FineTune
import Verif.Props.Raster
import Verif.Props.ReachArcs
import Verif.Props.ReachSpheres
import Verif.Props.SphereFlow
import Verif.Props.LineRemesh
import Verif.Props.MergeMeshes
import Verif.Props.SampleSdf
import Verif.Props.SweptPath
import Verif.Props.SweptAlign
import Verif.Props.SweptDescent
import Verif.Props.SweptContinuation
import Verif.Props.SweptTermination
import Verif.Props.DualMesh
import Verif.Props.DualNets
import Verif.Props.DualQef
import Verif.Props.SpsrMean
import Verif.Props.SpsrReturns
import Verif.Props.SpsrVariance
import Verif.Props.SpsrGrid
import Verif.Props.SpsrSpace
import Verif.Props.PointCloud
import Verif.Props.DualSpheres
import Verif.Props.DualFaces
import Verif.Props.DualAssign
import Verif.Props.DualContact
import Verif.Props.DualNormals
import Verif.Props.Colormap
import Verif.Props.SquaredDistanceCpp
import Verif.Props.SignedDistanceCpp
import Verif.Props.RayEmbree
import Verif.Props.MarchingCubes
import Verif.Props.Wrappers
import Verif.Props.SubdivTopology
import Verif.Props.LoopTopology
import Verif.Props.RemeshTopology
import Verif.Props.PolylineSubdivide
import Verif.Props.LocalRemesh
import Verif.Props.DualGradient
import Verif.Props.SpsrSubspace
import Verif.Props.GeneratorShape
import Verif.Props.SphereSamples
