import Verif.Model.Angle
import Verif.Model.Border
import Verif.Model.Cell
import Verif.Model.CellFind
import Verif.Model.Container
import Verif.Model.Decomp
import Verif.Model.Double
import Verif.Model.DoubleConvex
import Verif.Model.DoubleField
import Verif.Model.DoubleGeom
import Verif.Model.DoubleObjective
import Verif.Model.DoublePath
import Verif.Model.DoubleSwath
import Verif.Model.DoubleTracks
import Verif.Model.DoubleTurning
import Verif.Model.FieldObj
import Verif.Model.Geom
import Verif.Model.Graph
import Verif.Model.Graph2D
import Verif.Model.Heap
import Verif.Model.HeapSwaths
import Verif.Model.Ieee
import Verif.Model.IeeeBorder
import Verif.Model.IeeeGeom
import Verif.Model.IeeeGraph
import Verif.Model.IeeeLength
import Verif.Model.IeeeRobot
import Verif.Model.IeeeRoute
import Verif.Model.IeeeShare
import Verif.Model.IeeeTime
import Verif.Model.Json
import Verif.Model.Lines
import Verif.Model.LongLine
import Verif.Model.Moves
import Verif.Model.ObjVirtual
import Verif.Model.Objectives
import Verif.Model.OgrGeom
import Verif.Model.Order
import Verif.Model.Outcome
import Verif.Model.Path
import Verif.Model.PathBox
import Verif.Model.PathFile
import Verif.Model.PathPlanning
import Verif.Model.PathSpline
import Verif.Model.Point
import Verif.Model.Random
import Verif.Model.RandomGen
import Verif.Model.Robot
import Verif.Model.Route
import Verif.Model.RoutePlanner
import Verif.Model.Share
import Verif.Model.ShortestGraph
import Verif.Model.SmoothRadius
import Verif.Model.Spline
import Verif.Model.Steering
import Verif.Model.Strip
import Verif.Model.Swath
import Verif.Model.SwathGenerator
import Verif.Model.Text
import Verif.Model.TopLevel
import Verif.Model.TurnCost
import Verif.Model.Turning
import Verif.Model.Vector
import Verif.Model.Visualizer
import Verif.Lemmas.Angle
import Verif.Lemmas.Border
import Verif.Lemmas.CellFind
import Verif.Lemmas.Container
import Verif.Lemmas.Convex
import Verif.Lemmas.Decomp
import Verif.Lemmas.Double
import Verif.Lemmas.DoubleConvex
import Verif.Lemmas.DoubleExact
import Verif.Lemmas.DoubleGeom
import Verif.Lemmas.DoubleObjective
import Verif.Lemmas.DoublePath
import Verif.Lemmas.DoubleSteps
import Verif.Lemmas.DoubleSwath
import Verif.Lemmas.DoubleTracks
import Verif.Lemmas.DoubleTurning
import Verif.Lemmas.FieldObj
import Verif.Lemmas.Geom
import Verif.Lemmas.Graph
import Verif.Lemmas.Graph2D
import Verif.Lemmas.GraphBuild
import Verif.Lemmas.GraphOps
import Verif.Lemmas.HeadlandLength
import Verif.Lemmas.HeapSwaths
import Verif.Lemmas.Ieee
import Verif.Lemmas.IeeeBorder
import Verif.Lemmas.IeeeGeom
import Verif.Lemmas.IeeeGraph
import Verif.Lemmas.IeeeRobot
import Verif.Lemmas.IeeeRoute
import Verif.Lemmas.IeeeShare
import Verif.Lemmas.Json
import Verif.Lemmas.JsonErrors
import Verif.Lemmas.LeftStraightLeft
import Verif.Lemmas.Lines
import Verif.Lemmas.ObjVirtual
import Verif.Lemmas.Objectives
import Verif.Lemmas.Order
import Verif.Lemmas.Path
import Verif.Lemmas.PathBox
import Verif.Lemmas.PathFile
import Verif.Lemmas.PathPlanning
import Verif.Lemmas.PathSpline
import Verif.Lemmas.Random
import Verif.Lemmas.Route
import Verif.Lemmas.RouteCost
import Verif.Lemmas.RoutePlanner
import Verif.Lemmas.SetOps
import Verif.Lemmas.ShortestGraph
import Verif.Lemmas.SmoothRadius
import Verif.Lemmas.Spline
import Verif.Lemmas.Swath
import Verif.Lemmas.SwathGenerator
import Verif.Lemmas.Text
import Verif.Lemmas.TourCost
import Verif.Lemmas.TurnCost
import Verif.Lemmas.Turning
import Verif.Lemmas.TurningCC
import Verif.Lemmas.UtmName
import Verif.Lemmas.Vector
import Verif.Lemmas.Visualizer
import Verif.Props.Angles
import Verif.Props.CellFind
import Verif.Props.Connection
import Verif.Props.ConnectionSpec
import Verif.Props.Containers
import Verif.Props.Convex
import Verif.Props.ConvexSpec
import Verif.Props.Coverage
import Verif.Props.Decomp
import Verif.Props.DecompSpec
import Verif.Props.Double
import Verif.Props.DoubleConvex
import Verif.Props.DoubleField
import Verif.Props.DoubleGeom
import Verif.Props.DoubleObjective
import Verif.Props.DoublePath
import Verif.Props.DoublePopulate
import Verif.Props.DoubleSteps
import Verif.Props.DoubleSwath
import Verif.Props.DoubleTracks
import Verif.Props.DoubleTurning
import Verif.Props.DoubleTurningSpec
import Verif.Props.FieldObj
import Verif.Props.FieldSpec
import Verif.Props.Geometry
import Verif.Props.GeometrySpec
import Verif.Props.Graph
import Verif.Props.Graph2D
import Verif.Props.Graph2DSpec
import Verif.Props.GraphEdges
import Verif.Props.GraphSpec
import Verif.Props.HeapSwaths
import Verif.Props.Ieee
import Verif.Props.IeeeBorder
import Verif.Props.IeeeGeom
import Verif.Props.IeeeGeomSpec
import Verif.Props.IeeeGraph
import Verif.Props.IeeeLength
import Verif.Props.IeeeRobot
import Verif.Props.IeeeRoute
import Verif.Props.IeeeShare
import Verif.Props.IeeeTime
import Verif.Props.Json
import Verif.Props.JsonErrors
import Verif.Props.JsonSpec
import Verif.Props.Lines
import Verif.Props.LongLine
import Verif.Props.Moves
import Verif.Props.ObjVirtual
import Verif.Props.Objectives
import Verif.Props.ObjectivesSpec
import Verif.Props.Orders
import Verif.Props.Parser
import Verif.Props.Path
import Verif.Props.PathBox
import Verif.Props.PathFile
import Verif.Props.PathFileSpec
import Verif.Props.PathLine
import Verif.Props.PathPlanning
import Verif.Props.PathPlanningSpec
import Verif.Props.PathSpec
import Verif.Props.PathSpline
import Verif.Props.Random
import Verif.Props.RandomGen
import Verif.Props.Rings
import Verif.Props.Robot
import Verif.Props.RobotSpec
import Verif.Props.Route
import Verif.Props.RouteEdit
import Verif.Props.RoutePlanner
import Verif.Props.RoutePlannerSpec
import Verif.Props.RouteSpec
import Verif.Props.SetOps
import Verif.Props.SetOpsSpec
import Verif.Props.Share
import Verif.Props.ShortestGraph
import Verif.Props.ShortestGraphSpec
import Verif.Props.ShortestRoute
import Verif.Props.SmoothRadius
import Verif.Props.Spline
import Verif.Props.Steering
import Verif.Props.Strips
import Verif.Props.SwathClip
import Verif.Props.SwathClipSpec
import Verif.Props.SwathDir
import Verif.Props.SwathGenerator
import Verif.Props.SwathGeneratorSpec
import Verif.Props.SwathTypes
import Verif.Props.TopLevel
import Verif.Props.TopLevelField
import Verif.Props.TopLevelHeadland
import Verif.Props.Transform
import Verif.Props.TurnCost
import Verif.Props.Turning
import Verif.Props.TurningSpec
import Verif.Props.UtmChoice
import Verif.Props.UtmName
import Verif.Props.Vector
import Verif.Props.Visualizer
import Verif.Props.VisualizerSpec
import Verif.Props.WayPoints
