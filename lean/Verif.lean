import Verif.Props.Pattern
import Verif.Props.SimpleMatrix
import Verif.Props.Ordering
import Verif.Props.LeafOrdering
import Verif.Props.LocalFunctionSpace
import Verif.Props.MultiIndex
import Verif.Props.Constraints
import Verif.Props.AssemblerUtilities
import Verif.Props.GridAssembler
import Verif.Props.OneStepParams
import Verif.Props.OneStepOperator
import Verif.Props.OneStepMethod
import Verif.Props.Newton
import Verif.Props.LinearProblem
import Verif.Props.Clock
import Verif.Props.LocalContainers
import Verif.Props.DataHandle
import Verif.Props.Partition
import Verif.Props.VectorIterator
import Verif.Props.CombinedOperator
import Verif.Props.Adaptivity
import Verif.Props.Transfer
import Verif.Props.HangingNode
import Verif.Props.EntitySet
import Verif.Props.NumericalJacobian
import Verif.Props.ParallelHelper
import Verif.Props.GridViewOrdering
import Verif.Props.IndexRoutes
import Verif.Props.ConvectionDiffusion
import Verif.Props.CCFV
import Verif.Props.DGForm
import Verif.Props.BlockOperators
import Verif.Props.BlockPrecond
import Verif.Props.ConstraintsAssembly
import Verif.Props.FiniteElements
import Verif.Props.OrthonormalBasis
import Verif.Props.FiniteElementMaps
import Verif.Props.ParallelSolvers
import Verif.Props.BorderExchange
import Verif.Props.AmgIndexSet
import Verif.Props.GenEO
import Verif.Props.DiscreteFunctions
import Verif.Props.Views
import Verif.Props.GridFunctions
import Verif.Props.Hyperbolic
import Verif.Props.VectorOperators
import Verif.Props.MassOperators
import Verif.Props.Darcy
import Verif.Props.NonlinearFEM
import Verif.Props.TwoPhase
import Verif.Props.ErrorEstimators
import Verif.Props.DGNavierStokes
import Verif.Props.AmgBackends
import Verif.Props.ParallelHybrid
import Verif.Props.LoadBalance
import Verif.Props.IstlAccess
import Verif.Props.Vtk
import Verif.Props.SpaceLifecycle
import Verif.Props.BackendStorage
import Verif.Props.MetisPartition
import Verif.Props.ScaledOperator
import Verif.Props.FunctionTree
import Verif.Props.FunctionAdapters
import Verif.Props.Boilerplate
import Verif.Props.DuneFunctionsSpace
import Verif.Props.FastDG
import Verif.Props.OldNewton
import Verif.Props.ExplicitBoundary
import Verif.Props.ErrorDistribution
import Verif.Props.VectorType
import Verif.Props.Benchmark
import Verif.Props.BlockDiagonal
import Verif.Props.UserConstraints
import Verif.Props.IterativeBlocks
import Verif.Props.NewtonDecrease
import Verif.Props.LocalVectorOps
import Verif.Props.NewtonConvergence
import Verif.Props.Eigensolver
import Verif.Props.AdaptiveSteps
import Verif.Props.Stability
import Verif.Props.TimeStepSize
import Verif.Props.KrylovSolvers
import Verif.Props.ConstrainedSolve
import Verif.Props.HyperbolicMesh
import Verif.Props.MaximumPrinciple
import Verif.Props.DGMesh
import Verif.Props.Logtag
import Verif.Props.FEMMesh
import Verif.Props.VectorMesh
import Verif.Props.MixedMesh
import Verif.Props.TransientSolve
import Verif.Props.DGSolve
import Verif.Props.CCFVSolve
import Verif.Props.ExplicitSolve
import Verif.Props.ExplicitGalerkin
import Verif.Props.NewtonSolve
import Verif.Props.NewtonModified
import Verif.Props.NewtonQuadratic
import Verif.Props.NewtonStep
import Verif.Props.NonlinearMesh
import Verif.Props.NewtonMesh
import Verif.Props.TransientFlow
import Verif.Props.NewtonFlow
