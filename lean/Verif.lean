import Verif.Props.DeltaEncoder
import Verif.Props.Hungarian
import Verif.Props.Matcher
import Verif.Props.Mot
import Verif.Props.Measure
import Verif.Props.Angles
import Verif.Props.Breakdown
import Verif.Props.Detection
import Verif.Props.Curve
import Verif.Props.Tiling
import Verif.Props.Pca
import Verif.Props.Shipped
import Verif.Props.Frame
import Verif.Props.Segmentation
import Verif.Props.Iou
import Verif.Props.Motion
import Verif.Props.MotionFrame
import Verif.Props.MotionType
import Verif.Props.Boxes
import Verif.Props.PoseBox
import Verif.Props.PoseReorder
import Verif.Props.PoseMetric
import Verif.Props.PoseMatch
import Verif.Props.Rater
import Verif.Props.PanopticIds
import Verif.Props.Panoptic
import Verif.Props.RangePack
import Verif.Props.RangeImage
import Verif.Props.SimAgents
import Verif.Props.SimScene
import Verif.Props.RoadConvex
import Verif.Props.RoadLight
import Verif.Props.SimMetrics
import Verif.Props.TimeToCollision
import Verif.Props.Occupancy
import Verif.Props.OccupancyGeom
import Verif.Props.OccupancyFlow
import Verif.Props.OccupancyWaypoints
import Verif.Props.OccupancyMetrics
import Verif.Model.Conversion
import Verif.Props.ConversionState
import Verif.Props.ConversionAgents
import Verif.Props.ConversionRoad
import Verif.Props.ConversionRoadTensor
import Verif.Props.ConversionSpline
import Verif.Props.ConversionExact
import Verif.Props.ExactMeans
import Verif.Props.ExactExamples
import Verif.Props.ExactSteps
import Verif.Props.ExactDrawn
import Verif.Props.MatcherAffinity
import Verif.Props.TrackingSpeed
import Verif.Props.CameraOmega
import Verif.Props.ConversionCounters
import Verif.Props.PanopticUnique
import Verif.Props.ExactPictures
import Verif.Props.PoseTurned
import Verif.Props.ExactSaved
import Verif.Props.ExactParsed
import Verif.Props.ConversionTotal
import Verif.Model.Polygon
import Verif.Props.PolygonSegment
import Verif.Props.PolygonInside
import Verif.Props.PolygonArea
import Verif.Props.PolygonBox
import Verif.Lemmas.PolyCast
import Verif.Lemmas.PolyGrid
import Verif.Props.PolygonAligned
import Verif.Props.MotionOverlap
import Verif.Lemmas.PolyConvex
import Verif.Props.PolygonConvex
import Verif.Props.PolygonMove
import Verif.Props.PolygonTest
import Verif.Model.Segment
import Verif.Props.SegmentCache
import Verif.Props.SegmentGeom
import Verif.Props.SegmentBox
import Verif.Model.ExactFloat
import Verif.Model.ExactFloatString
import Verif.Lemmas.ExactFloat
import Verif.Props.ExactFloat
import Verif.Props.ExactFloatOrder
import Verif.Props.ExactFloatRound
import Verif.Props.ExactFloatExp
import Verif.Props.ExactFloatString
import Verif.Props.ExactFloatText
import Verif.Props.ExactFloatStyle
import Verif.Model.Camera
import Verif.Model.CameraOps
import Verif.Props.CameraLens
import Verif.Props.CameraGlobal
import Verif.Props.CameraTime
import Verif.Props.CameraRolling
import Verif.Props.CameraCases
import Verif.Props.CameraOps
import Verif.Props.CrossExact
import Verif.Props.OpsEvaluator
import Verif.Props.TrackingScene
import Verif.Props.OpsTrackingUse
import Verif.Props.OpsMotionDemo
import Verif.Props.OpsMatchPad
import Verif.Props.SubmitCreate
import Verif.Props.SubmitMake
import Verif.Props.OpsTight
import Verif.Model.Tools
import Verif.Props.ToolsFrames
import Verif.Props.ToolsLabels
import Verif.Props.ToolsPrint
import Verif.Props.ToolsSeg
import Verif.Model.Rays
import Verif.Props.Rays
import Verif.Props.RaysFrame
import Verif.Model.Clouds
import Verif.Props.Clouds
import Verif.Props.CloudsFrame
import Verif.Props.CloudsVersions
import Verif.Props.Extract
import Verif.Props.SubmitRefuse
import Verif.Model.SimFeatures
import Verif.Props.SimFeatures
import Verif.Props.SimFeaturesRows
import Verif.Props.SimFeaturesOrder
import Verif.Props.SimFeaturesUse
import Verif.Props.SimFeaturesCases
import Verif.Props.PolygonFrame
import Verif.Props.BoxFrame
import Verif.Model.Assets
import Verif.Props.Assets
import Verif.Model.CamSeg
import Verif.Props.CamSeg
import Verif.Model.Examples
import Verif.Props.Examples
import Verif.Model.FrameDict
import Verif.Props.FrameDict
import Verif.Model.Wireframe
import Verif.Props.Wireframe
import Verif.Model.FlowVis
import Verif.Props.FlowVis
import Verif.Model.Maps
import Verif.Props.Maps
import Verif.Model.Challenge
import Verif.Props.Challenge
import Verif.Model.PoseMetrics
import Verif.Props.PoseMetrics
import Verif.Props.PoseCombined
import Verif.Model.SegView
import Verif.Props.SegView
import Verif.Model.PoseTensors
import Verif.Props.PoseTensors
import Verif.Model.LatencyExamples
import Verif.Props.LatencyExamples
import Verif.Model.OccTutorial
import Verif.Props.OccTutorial
import Verif.Model.SimTutorial
import Verif.Props.SimTutorial
import Verif.Props.GenTutorial
import Verif.Model.SemsegTutorial
import Verif.Props.SemsegTutorial
import Verif.Model.E2ETutorial
import Verif.Props.E2ETutorial
import Verif.Model.CameraTutorial
import Verif.Props.CameraTutorial
import Verif.Model.PvpsTutorial
import Verif.Props.PvpsTutorial
import Verif.Model.MotionTutorial
import Verif.Props.MotionTutorial
import Verif.Model.AssetTutorial
import Verif.Props.AssetTutorial
import Verif.Model.BoxMatcher
import Verif.Props.BoxMatcher
import Verif.Model.LaserTutorial
import Verif.Props.LaserTutorial
import Verif.Model.TablesTutorial
import Verif.Props.TablesTutorial
import Verif.Props.PolygonTurned
import Verif.Props.MotionBuckets
import Verif.Props.BreakdownMeaning
import Verif.Props.SimScores
import Verif.Model.PanopticV2
import Verif.Props.PanopticV2
import Verif.Model.Waypoints
import Verif.Props.Waypoints
import Verif.Props.PolygonTurned3d
import Verif.Model.CodecJson
import Verif.Props.CodecJson
import Verif.Model.PcaFit
import Verif.Props.PcaFit
import Verif.Props.RoadSeam
import Verif.Props.DetectionHeading
import Verif.Props.BreakdownOwn
import Verif.Props.MeasureBest
import Verif.Props.RaysMiss
import Verif.Props.SimDiverse
import Verif.Props.PolygonPoint
import Verif.Props.SegmentBoxThin
import Verif.Props.SegmentMeet
import Verif.Props.SegmentationWide
import Verif.Props.RangeImageBehind
import Verif.Props.ExactFloatInt
import Verif.Props.SubmitScore
import Verif.Props.DeltaInput
import Verif.Props.PcaColumn
import Verif.Props.SegViewOne
import Verif.Props.MotionContribute
import Verif.Props.AssetsFit
import Verif.Props.ExactCases
import Verif.Props.SubmitZones
import Verif.Props.CurveTracking
import Verif.Props.ExactErrors
import Verif.Props.CloudsExact
import Verif.Props.OpsHistories
import Verif.Props.TightSmall
import Verif.Props.CropExact
import Verif.Props.SimShipped
