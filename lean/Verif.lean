import Verif.Props.Pairings
import Verif.Props.Icp
import Verif.Props.MatcherSolver
import Verif.Props.LogFile
import Verif.Props.Pipeline
import Verif.Props.BitField
import Verif.Props.Matchers
import Verif.Props.Solvers
import Verif.Props.ErrorTerms
import Verif.Props.LineJacobian
import Verif.Props.GaussNewton
import Verif.Props.GnSteps
import Verif.Props.Covariance
import Verif.Props.Serial
import Verif.Props.YamlIO
import Verif.Props.Velocity
import Verif.Props.Param
import Verif.Props.Merge
import Verif.Props.Filters
import Verif.Props.FilterValues
import Verif.Props.Voxels
import Verif.Props.Adaptive
import Verif.Props.Curvature
import Verif.Props.Deskew
import Verif.Props.Sm2mm
import Verif.Props.Tools
import Verif.Props.Quadratic
import Verif.Props.MoreFilters
import Verif.Props.Quality
import Verif.Props.EdgeGen
import Verif.Props.CurvEdge
import Verif.Props.Poles
import Verif.Props.PointsEigen
import Verif.Props.EdgesPlanes
import Verif.Props.Generator
import Verif.Props.MapDef
import Verif.Props.MapFile
import Verif.Props.IcpYaml
import Verif.Props.RawlogFilter
import Verif.Props.Loaders
import Verif.Props.Visual
import Verif.Props.LibPm
import Verif.Props.IcpRun
import Verif.Props.MapUtil
import Verif.Props.SmCli
import Verif.Props.SmApp
import Verif.Props.GnMore
import Verif.Props.Vocabulary
import Verif.Props.EndToEnd
import Verif.Props.LogViewer
import Verif.Props.MmViewer
import Verif.Props.FpNorm
import Verif.Props.FpTime
import Verif.Props.FpQuality
import Verif.Props.FpVoxel
import Verif.Props.FpFilters
import Verif.Props.FpIcp
import Verif.Props.FpMatch
import Verif.Props.FpDecimate
import Verif.Props.DecimateTwice
import Verif.Props.FpVocabulary
import Verif.Props.AdaptiveSize
import Verif.Props.EndToEndMore
import Verif.Props.FrameFree
import Verif.Props.MatchExact
import Verif.Props.GnFrame
import Verif.Props.GnShift
import Verif.Props.PlaneReg
import Verif.Props.CovValue
import Verif.Props.Downhill
import Verif.Props.DownhillCases
import Verif.Props.Laguerre
import Verif.Props.Converge
import Verif.Props.NearReg
import Verif.Props.Overlap
import Verif.Props.PlaneNear
import Verif.Props.Prior
import Verif.Props.PriorNear
import Verif.Props.Rest
import Verif.Props.Restart
import Verif.Props.PriorReg
import Verif.Props.HornSame
import Verif.Props.Unit
import Verif.Props.Body
import Verif.Props.Reach
