import Verif.Props.Discretization
import Verif.Props.SimpleFun3
import Verif.Props.ModelError
import Verif.Props.InvertDefined
import Verif.Props.Comm
import Verif.Props.Util
import Verif.Props.Storage
import Verif.Props.CleanData
import Verif.Props.Sampling
import Verif.Props.Sampler
import Verif.Props.Latin
import Verif.Props.SurrogateUpdate
import Verif.Props.Gradients
import Verif.Props.Rbf
import Verif.Props.UniqueVecs
import Verif.Props.BestSets
import Verif.Props.GoodSets
import Verif.Props.PostTools
import Verif.Props.PlotP
import Verif.Props.CompareP
import Verif.Props.Skewness
import Verif.Props.Clusters
import Verif.Props.Updated
import Verif.Props.Radii
import Verif.Props.RandomDisc
import Verif.Props.Pdf
import Verif.Props.Smooth2
import Verif.Props.Voronoi2D
import Verif.Props.Fitted
import Verif.Props.CompareQuad
import Verif.Props.PlotVoronoi1D
import Verif.Props.PlotVoronoi2D
import Verif.Props.PlotMarginals1D
import Verif.Props.PlotMarginals2D
import Verif.Props.PlotDensities
import Verif.Props.PlotScatter
import Verif.Props.PlotRhoD
import Verif.Props.DataDomain
import Verif.Props.Accessors
import Verif.Props.UseLuq
import Verif.Props.SamplerHistory
import Verif.Props.Workflow
import Verif.Props.SamplingErrorObject
import Verif.Props.DensityCache
import Verif.Props.DiscHistory
import Verif.Props.SaveRace
import Verif.Props.Spmd
import Verif.Props.Copies
import Verif.Props.RegionSets
import Verif.Props.SpmdChoose
import Verif.Props.Caught
import Verif.Props.SpmdSet
import Verif.Props.SpmdSimpleFun
import Verif.Props.SpmdHistory
import Verif.Props.ModelErrorObject
import Verif.Props.SamplerCaught
import Verif.Props.SpmdError
import Verif.Props.SpmdSampler
import Verif.Props.SpmdSurrogate
import Verif.Props.SpmdFiles
import Verif.Props.LhsOwn
import Verif.Props.InitMeasure
import Verif.Props.Convergence
import Verif.Props.SolutionLimit
import Verif.Props.RejectionLaw
import Verif.Props.ProbLimit
import Verif.Props.ErrorBracket
import Verif.Props.DrawnLaw
import Verif.Props.ScriptLimit
import Verif.Props.ScaledLimit
import Verif.Props.CellLimit
import Verif.Props.JointLimit
import Verif.Props.SurrogateLimit
import Verif.Props.GradientLimit
import Verif.Props.RadiusLimit
import Verif.Props.MarginalLimit
import Verif.Props.CompareLimit
import Verif.Props.GridCompare
import Verif.Props.Kl
import Verif.Props.Mink
import Verif.Props.LpLaws
import Verif.Props.LocalLimit
import Verif.Props.PairwiseRadii
import Verif.Props.EmulatedLimit
import Verif.Props.Stability
import Verif.Props.DataError
import Verif.Props.Reorder
import Verif.Props.Rounded
import Verif.Props.RoundedVolumes
import Verif.Props.SampleCount
import Verif.Props.SamplingHistory
import Verif.Props.Units
import Verif.Props.Agreement
import Verif.Props.LocalMax
import Verif.Props.Subdivide
import Verif.Props.UpdateLimit
import Verif.Props.CopyCount
import Verif.Props.ClusterLaw
import Verif.Props.QoiUnits
import Verif.Props.LatinMean
import Verif.Props.LatinMarginals
import Verif.Props.Divergence
import Verif.Props.GridMarginals
import Verif.Props.GridMean
import Verif.Props.Nearest
import Verif.Props.ModelValues
import Verif.Props.Recovered
import Verif.Props.SmoothParameter
import Verif.Props.SmallestRegion
import Verif.Props.NestedRegions
import Verif.Props.MoreQois
import Verif.Props.MoreQoisCond
import Verif.Props.SmoothParameter2
import Verif.Props.Gain
import Verif.Props.InTurn
import Verif.Props.OnceEach
