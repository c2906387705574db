import Verif.Props.Permutation
import Verif.Props.Sort
import Verif.Props.GraphUtil
import Verif.Props.InverseVector
import Verif.Props.TimestampFlags
import Verif.Props.IdQueue
import Verif.Props.IdSetQueue
import Verif.Props.BitVector
import Verif.Model.BitVectorHeap
import Verif.Spec.BitVectorValue
import Verif.Proof.BitVectorHeap
import Verif.Props.BitVectorHeap
import Verif.Model.AlignedAlloc
import Verif.Spec.AlignedAlloc
import Verif.Proof.AlignedAlloc
import Verif.Props.AlignedAlloc
import Verif.Props.IdMapper
import Verif.Props.Dijkstra
import Verif.Props.Scc
import Verif.Props.ArcReduction
import Verif.Props.Contraction
import Verif.Props.ChQuery
import Verif.Props.ChTotal
import Verif.Props.Minimal
import Verif.Props.Cch
import Verif.Props.CchMetric
import Verif.Props.CchParallel
import Verif.Props.CchRace
import Verif.Model.Shuffle
import Verif.Props.Shuffle
import Verif.Props.CchQuery
import Verif.Model.CchPerfect
import Verif.Model.ChCheck
import Verif.Spec.Hierarchy
import Verif.Proof.ChCheck
import Verif.Proof.PerfectInv
import Verif.Proof.PerfectOk
import Verif.Proof.CchPerfect
import Verif.Proof.PerfectCh
import Verif.Props.CchPerfect
import Verif.Res
import Verif.Model.VectorIO
import Verif.Model.ChFile
import Verif.Proof.VectorIO
import Verif.Proof.ChFile
import Verif.Props.VectorIO
import Verif.Props.ChFile
import Verif.Spec.Protobuf
import Verif.Model.Protobuf
import Verif.Proof.Protobuf
import Verif.Props.Protobuf
import Verif.Model.TagMap
import Verif.Proof.TagMap
import Verif.Props.TagMap
import Verif.Spec.AsyncReader
import Verif.Model.AsyncReader
import Verif.Proof.AsyncReader
import Verif.Proof.AsyncLive
import Verif.Props.AsyncReader
import Verif.Model.AsyncRace
import Verif.Props.AsyncRace
import Verif.Model.VpTree
import Verif.Proof.VpTree
import Verif.Props.VpTree
import Verif.Model.GeoDist
import Verif.Props.GeoDist
import Verif.Spec.Fragment
import Verif.Model.Fragment
import Verif.Proof.Fragment
import Verif.Proof.Components
import Verif.Props.Fragment
import Verif.Spec.Dissection
import Verif.Proof.Parts
import Verif.Proof.DissTree
import Verif.Proof.Dissection
import Verif.Props.Dissection
import Verif.Model.Flow
import Verif.Spec.Flow
import Verif.Proof.Bfs
import Verif.Proof.FlowSum
import Verif.Proof.Dfs
import Verif.Proof.Advance
import Verif.Proof.Grow
import Verif.Proof.Balanced
import Verif.Proof.Cut
import Verif.Props.Flow
import Verif.Model.Inertial
import Verif.Spec.Inertial
import Verif.Proof.Inertial
import Verif.Props.Inertial
import Verif.Model.OsmPbf
import Verif.Model.OsmFile
import Verif.Spec.OsmPbf
import Verif.Spec.OsmFile
import Verif.Spec.OsmReport
import Verif.Proof.OsmPbf
import Verif.Proof.OsmFile
import Verif.Props.OsmPbf
import Verif.Model.OsmStatus
import Verif.Props.OsmStatus
import Verif.Model.OsmProfile
import Verif.Spec.OsmProfile
import Verif.Proof.OsmProfile
import Verif.Proof.OsmRestriction
import Verif.Props.OsmProfile
import Verif.Props.OsmDirections
import Verif.Model.OsmMapping
import Verif.Spec.OsmGraph
import Verif.Proof.OsmMapping
import Verif.Props.OsmMapping
import Verif.Model.OsmGraph
import Verif.Model.OsmTurns
import Verif.Proof.OsmScan
import Verif.Proof.OsmSort
import Verif.Proof.OsmGraph
import Verif.Props.OsmGraph
import Verif.Spec.OsmTurns
import Verif.Proof.OsmTurns
import Verif.Proof.OsmForbidden
import Verif.Props.OsmTurns
import Verif.Model.OsmSimple
import Verif.Spec.OsmSimple
import Verif.Proof.OsmSimple
import Verif.Props.OsmSimple
import Verif.Model.ChExtra
import Verif.Spec.ExtraWeight
import Verif.Proof.ChExtra
import Verif.Proof.ChExtraPinned
import Verif.Props.ChExtra
import Verif.Spec.Reuse
import Verif.Proof.SameQueue
import Verif.Proof.ChSame
import Verif.Proof.ChSameQuery
import Verif.Proof.CchSame
import Verif.Proof.Reuse
import Verif.Props.Reuse
import Verif.Model.TextIO
import Verif.Model.Dimacs
import Verif.Spec.Dimacs
import Verif.Proof.TextIO
import Verif.Proof.Dimacs
import Verif.Proof.DimacsAny
import Verif.Proof.DimacsExport
import Verif.Props.Dimacs
import Verif.Model.VectorText
import Verif.Spec.VectorText
import Verif.Proof.VectorText
import Verif.Props.VectorText
import Verif.Model.Verify
import Verif.Spec.Verify
import Verif.Proof.Verify
import Verif.Props.Verify
import Verif.Model.PermuteNodes
import Verif.Spec.PermuteNodes
import Verif.Proof.PermuteNodes
import Verif.Props.PermuteNodes
import Verif.Proof.ChStored
import Verif.Model.Tools
import Verif.Spec.Tools
import Verif.Proof.Tools
import Verif.Props.Tools
import Verif.Model.FileSource
import Verif.Spec.FileSource
import Verif.Proof.FileSource
import Verif.Props.FileSource
import Verif.Proof.ShortWalk
import Verif.Model.RankQuery
import Verif.Spec.RankQuery
import Verif.Proof.RankQuery
import Verif.Props.RankQuery
import Verif.Model.DimacsCoord
import Verif.Spec.DimacsCoord
import Verif.Proof.DimacsCoord
import Verif.Props.DimacsCoord
import Verif.Model.MinMax
import Verif.Spec.MinMax
import Verif.Proof.MinMax
import Verif.Props.MinMax
import Verif.Model.OsmExtract
import Verif.Spec.OsmExtract
import Verif.Proof.OsmExtract
import Verif.Props.OsmExtract
import Verif.Model.OrderTool
import Verif.Spec.OrderTool
import Verif.Proof.OrderTool
import Verif.Props.OrderTool
import Verif.Model.ShowPath
import Verif.Spec.ShowPath
import Verif.Proof.ShowPath
import Verif.Props.ShowPath
import Verif.Spec.FirstWords
import Verif.Proof.FirstWords
import Verif.Model.ArcTools
import Verif.Spec.ArcTools
import Verif.Proof.ArcTools
import Verif.Props.ArcTools
import Verif.Model.Generators
import Verif.Proof.Generators
import Verif.Props.Generators
import Verif.Spec.OsmDefined
import Verif.Proof.OsmDefined
import Verif.Proof.OsmDefinedFile
import Verif.Props.OsmDefined
import Verif.Props.Agreement
import Verif.Props.ChArcs
import Verif.Props.ChPositive
import Verif.Props.SimplePaths
import Verif.Props.OsmRoutes
import Verif.Props.GeoFloat
import Verif.Props.OsmFloat
import Verif.Model.OsmDouble
import Verif.Spec.OsmDouble
import Verif.Proof.OsmDouble
import Verif.Proof.OsmDoubleGraph
import Verif.Props.OsmDouble
import Verif.Props.TurnFloat
import Verif.Props.BuildFloat
import Verif.Props.DimacsFloat
import Verif.Props.OsmWalks
import Verif.Model.ReadmeFloat
import Verif.Props.ReadmeFloat
import Verif.Props.ReadmeSmall
import Verif.Model.FloatText
import Verif.Spec.FloatText
import Verif.Proof.FloatText
import Verif.Proof.FloatRound
import Verif.Proof.FloatAgain
import Verif.Proof.FloatVector
import Verif.Props.FloatText
import Verif.Model.SvgText
import Verif.Spec.Svg
import Verif.Proof.SvgText
import Verif.Proof.SvgFile
import Verif.Props.SvgText
import Verif.Model.KmlText
import Verif.Spec.Kml
import Verif.Proof.KmlText
import Verif.Props.KmlText
import Verif.Props.ToolPositive
import Verif.Props.CchTriangles
import Verif.Props.GccBuiltin
import Verif.Props.StdioSource
import Verif.Props.SortMove
import Verif.Spec.ReaderLife
import Verif.Model.ReaderLife
import Verif.Proof.ReaderLife
import Verif.Props.ReaderLife
import Verif.Spec.Speedtest
import Verif.Model.Speedtest
import Verif.Proof.Speedtest
import Verif.Props.Speedtest
import Verif.Spec.QueryLife
import Verif.Model.QueryLife
import Verif.Proof.QueryLife
import Verif.Props.QueryLife
import Verif.Spec.DijkstraLife
import Verif.Model.DijkstraLife
import Verif.Proof.DijkstraLife
import Verif.Props.DijkstraLife
