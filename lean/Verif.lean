import Verif.Model.Basic
import Verif.Model.KnnResult
import Verif.Spec.Knn
import Verif.Proofs.StableSort
import Verif.Proofs.KnnResult
import Verif.Model.Arith
import Verif.Model.KdTree
import Verif.Model.FastFloor
import Verif.Model.VoxelMap
import Verif.Spec.KdTree
import Verif.Proofs.KdBuild
import Verif.Proofs.KdSearch
import Verif.Proofs.KdExact
import Verif.Spec.Geometry
import Verif.Props.KnnResult
import Verif.Props.KdTree
import Verif.Proofs.NthInstance
import Verif.Props.KdTreeExamples
import Verif.Props.Rounding
import Verif.Props.Degenerate
import Verif.Props.FindAxis
import Verif.Spec.Voxel
import Verif.Proofs.Voxel
import Verif.Proofs.VoxelSearch
import Verif.Proofs.VoxelHistory
import Verif.Props.VoxelMap
import Verif.Props.VoxelContents
import Verif.Props.VoxelExamples
import Verif.Model.KdTreeParallel
import Verif.Spec.KdParallel
import Verif.Proofs.KdParallel
import Verif.Props.KdParallel
import Verif.Props.KdParallelAny
import Verif.Props.Downsampling
import Verif.Model.SortOmp
import Verif.Spec.Sort
import Verif.Proofs.SortOmp
import Verif.Props.SortOmp
import Verif.Model.Parallel
import Verif.Model.SortTbb
import Verif.Proofs.Parallel
import Verif.Proofs.SortTbb
import Verif.Proofs.SortTbbStep
import Verif.Props.SortTbb
import Verif.Model.PointCloud
import Verif.Props.PointCloud
import Verif.Model.Reduction
import Verif.Spec.Reduction
import Verif.Proofs.Reduction
import Verif.Proofs.ReductionTbb
import Verif.Props.Reduction
import Verif.Model.Factors
import Verif.Spec.Registration
import Verif.Proofs.Factors
import Verif.Props.Factors
import Verif.Model.Lie
import Verif.Spec.Lie
import Verif.Proofs.Lie
import Verif.Proofs.LieExp
import Verif.Proofs.LieDeriv
import Verif.Props.Lie
import Verif.Model.Optimizer
import Verif.Proofs.Optimizer
import Verif.Props.Optimizer
import Verif.Proofs.Stationary
import Verif.Proofs.Equivariance
import Verif.Props.Registration
import Verif.Props.Equivariance
import Verif.Model.Features
import Verif.Spec.Features
import Verif.Proofs.Features
import Verif.Props.Features
import Verif.Model.Helper
import Verif.Spec.Helper
import Verif.Props.Helper
import Verif.Model.PclRegistration
import Verif.Spec.PclRegistration
import Verif.Props.PclRegistration
import Verif.Model.Projective
import Verif.Spec.Projective
import Verif.Proofs.Projective
import Verif.Props.Projective
import Verif.Model.PythonSearch
import Verif.Spec.PythonSearch
import Verif.Props.PythonSearch
import Verif.Model.PointFiles
import Verif.Spec.PointFiles
import Verif.Props.PointFiles
import Verif.Model.RegistrationMemory
import Verif.Model.Pipeline
import Verif.Spec.RegistrationMemory
import Verif.Proofs.RegistrationMemory
import Verif.Proofs.RegistrationScene
import Verif.Proofs.RegistrationRange
import Verif.Proofs.KdAny
import Verif.Props.RegistrationMemory
import Verif.Props.RegistrationVoxel
import Verif.Props.RegistrationMemoryExamples
import Verif.Props.RegistrationSelf
import Verif.Spec.Pipeline
import Verif.Proofs.Pipeline
import Verif.Props.Pipeline
import Verif.Spec.Steps
import Verif.Proofs.Steps
import Verif.Props.Steps
import Verif.Props.PythonExact
import Verif.Props.PipelineAlign
import Verif.Props.PipelineVoxel
import Verif.Props.Odometry
import Verif.Props.OdometryPipeline
import Verif.Props.RegistrationMap
import Verif.Props.OdometryModel
import Verif.Props.OdometryVoxel
import Verif.Spec.Descent
import Verif.Props.Descent
import Verif.Props.DescentMap
import Verif.Props.OdometryDescent
import Verif.Props.OdometryMemory
import Verif.Model.OdometryPcl
import Verif.Props.OdometryPcl
import Verif.Model.Python
import Verif.Props.Python
import Verif.Props.PythonOdometry
import Verif.Props.PythonFactors
import Verif.Model.PythonVoxel
import Verif.Props.PythonModel
import Verif.Spec.Robust
import Verif.Props.Robust
import Verif.Spec.Misfit
import Verif.Props.Misfit
import Verif.Model.Example
import Verif.Spec.Example
import Verif.Proofs.Example
import Verif.Props.Example
import Verif.Model.ExamplePipeline
import Verif.Props.ExamplePipeline
import Verif.Spec.Stiff
import Verif.Props.Stiff
import Verif.Props.StiffHeld
import Verif.Spec.ExampleRun
import Verif.Props.ExampleRun
import Verif.Model.Benchmark
import Verif.Model.BenchmarkEngines
import Verif.Props.Statistics
import Verif.Props.Dataset
import Verif.Props.BenchmarkProgram
import Verif.Model.VoxelHeap
import Verif.Props.VoxelSharing
import Verif.Props.Observability
import Verif.Props.ReductionRounding
import Verif.Props.OrderFree
import Verif.Spec.GaussNewton
import Verif.Props.GaussNewton
import Verif.Model.KdtreeBenchmark
import Verif.Spec.KdtreeBenchmark
import Verif.Props.KdtreeBenchmark
import Verif.Spec.Distance
import Verif.Spec.Recovery
import Verif.Proofs.Norms
import Verif.Proofs.ExpBounds
import Verif.Proofs.PoseError
import Verif.Proofs.LeastSquares
import Verif.Props.RecoveryStep
import Verif.Props.Recovery
import Verif.Props.RecoveryAlign
import Verif.Model.BasicExamples
import Verif.Props.BasicExamples
import Verif.Model.BasicExamplesPcl
import Verif.Props.BasicExamplesPcl
import Verif.Model.DownsamplingBenchmark
import Verif.Props.DownsamplingBenchmark
import Verif.Model.DownsamplingMachine
import Verif.Props.DownsamplingRounding
import Verif.Model.PythonVoxelMaps
import Verif.Props.PythonVoxelMaps
import Verif.Model.VoxelMachine
import Verif.Props.VoxelRounding
import Verif.Model.ExampleProgram
import Verif.Props.ExampleProgram
import Verif.Model.RegistrationMachine
import Verif.Props.OptimizerMachine
import Verif.Props.NanSource
import Verif.Props.IcpRounding
import Verif.Props.RegistrationAnyArith
import Verif.Props.IcpRoundingDigits
import Verif.Props.KnnAnyArith
import Verif.Proofs.PreprocessAnyArith
import Verif.Props.PreprocessAnyArith
import Verif.Model.PreprocessMachine
import Verif.Model.VoxelMapMachine
import Verif.Model.OdometryMachine
import Verif.Proofs.VoxelAnyArith
import Verif.Props.VoxelAnyArith
import Verif.Props.OdometryAnyArith
import Verif.Model.FeatureMachine
import Verif.Props.FeatureRounding
import Verif.Model.VoxelHash
import Verif.Props.VoxelHash
import Verif.Model.PoseMachine
import Verif.Props.PoseRounding
import Verif.Props.PoseExp
import Verif.Props.ExpRounding
import Verif.Props.ExpTranslation
import Verif.Props.ExpLoss
import Verif.Props.PoseChain
import Verif.Props.PairRounding
import Verif.Props.FrozenDescent
import Verif.Props.FrozenRun
import Verif.Props.FrozenDigits
import Verif.Props.FrozenGicp
import Verif.Props.FrozenRobust
import Verif.Props.FrozenRobustDigits
import Verif.Props.FrozenCauchy
