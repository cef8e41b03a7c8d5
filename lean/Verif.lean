import Verif.Props.Regions
import Verif.Props.AxisAlignedBox
import Verif.Props.KdTree
import Verif.Props.ThreadPool
import Verif.Props.BranchPoint
import Verif.Props.GeometryBase
import Verif.Props.Strategy
import Verif.Props.LaneSequences
import Verif.Props.Graph
import Verif.Props.Router
import Verif.Props.Rules
import Verif.Props.Rulebook
import Verif.Props.RuleRegistry
import Verif.Props.Phases
import Verif.Props.RuleStateProvider
import Verif.Props.RangeValidator
import Verif.Props.RoutePhase
import Verif.Props.Route
import Verif.Props.TrafficLights
import Verif.Props.TrafficLightLoader
import Verif.Props.Intersection
import Verif.Props.DeprecatedRules
import Verif.Props.Validator
import Verif.Props.Mesh
import Verif.Props.DouglasPeucker
import Verif.Props.MeshSimplification
import Verif.Props.SegmentAnalysis
import Verif.Props.Waypoints
import Verif.Props.Hash
import Verif.Props.Matrix
import Verif.Props.Quaternion
import Verif.Props.RollPitchYaw
import Verif.Props.Rotation
import Verif.Props.BoundingBox
import Verif.Props.Compare
import Verif.Props.RulebookLoader
import Verif.Props.RegistryLoader
import Verif.Props.PhaseRingLoader
import Verif.Props.RowPhaseRing
import Verif.Props.IntersectionLoader
import Verif.Props.RoadMesh
import Verif.Props.BranchPoints
import Verif.Props.BuildMeshes
import Verif.Props.ObjFile
import Verif.Props.RoadGeometryMesh
import Verif.Props.Polynomial
import Verif.Props.PiecewiseOperations
import Verif.Props.PiecewisePolynomial
import Verif.Model.Integrator
import Verif.Spec.Integrator
import Verif.Lemmas.Integrator
import Verif.Lemmas.IntegratorRuns
import Verif.Lemmas.IntegratorTermination
import Verif.Lemmas.IntegratorCalls
import Verif.Lemmas.IntegratorDense
import Verif.Lemmas.IntegratorValues
import Verif.Lemmas.IntegratorFunctions
import Verif.Lemmas.Simpson
import Verif.Lemmas.Hermite
import Verif.Props.Integrator
import Verif.Props.IntegratorFunctions
import Verif.Model.Cache
import Verif.Model.CacheUse
import Verif.Spec.Cache
import Verif.Lemmas.CacheNote
import Verif.Lemmas.CacheEval
import Verif.Lemmas.CacheWire
import Verif.Lemmas.CacheParts
import Verif.Lemmas.CacheSystem
import Verif.Lemmas.CacheHistory
import Verif.Lemmas.CacheMake
import Verif.Lemmas.CacheWritten
import Verif.Lemmas.CacheStep
import Verif.Lemmas.CacheFeedthrough
import Verif.Lemmas.CacheTickets
import Verif.Props.Cache
import Verif.Props.CacheUse
import Verif.Props.VectorText
import Verif.Props.Files
import Verif.Props.Plugins
import Verif.Props.Logger
import Verif.Props.GenerateString
import Verif.Props.GenerateDot
import Verif.Props.Fresnel
import Verif.Props.Contains
import Verif.Props.RightOfWayTools
import Verif.Props.DoubleRanges
import Verif.Props.GenerateUrdf
import Verif.Props.LoadedPhases
import Verif.Props.CubicSpline
import Verif.Props.PolynomialQueries
import Verif.Props.YamlEncode
import Verif.Props.VectorOps
import Verif.Props.BackendFrame
import Verif.Props.DenseOutput
import Verif.Props.PeriodicEvents
import Verif.Props.DoubleArithmetic
import Verif.Props.StateVectors
import Verif.Props.TypeErasure
import Verif.Props.SystemState
import Verif.Props.EventCollections
import Verif.Props.LeafDefaults
import Verif.Props.InitialValueProblem
import Verif.Props.ScalarInitialValueProblem
import Verif.Props.InitialValueProblemTermination
import Verif.Props.SystemConstraint
import Verif.Props.Ports
import Verif.Props.TypeSafeIndex
import Verif.Props.PolynomialText
import Verif.Props.CopyablePtr
import Verif.Props.MatrixTrajectory
import Verif.Props.MatrixProduct
import Verif.Props.Identifier
import Verif.Props.MatrixSplines
import Verif.Props.InputCopies
import Verif.Props.Witness
import Verif.Props.VectorDenseOutput
import Verif.Props.ImplicitDerivatives
import Verif.Props.ValueProducer
import Verif.Props.NamedPolynomial
import Verif.Props.StatePorts
