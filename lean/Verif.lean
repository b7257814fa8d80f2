import Verif.Props.PlyHolder
import Verif.Props.PrintInPly
import Verif.Props.DsoSystem
import Verif.Props.TrajectoryWriter
import Verif.Props.CloudWriter
import Verif.Props.Motion
import Verif.Props.Sim3Aligner
import Verif.Props.TrajectoryGT
import Verif.Props.AffineLight
import Verif.Props.StereoMatcher
import Verif.Props.DepthColour
import Verif.Props.Flags
import Verif.Props.Reader
import Verif.Props.Geometry
import Verif.Props.Geometry2
import Verif.Props.SphericalPlus
import Verif.Props.Geometry3
import Verif.Props.Pyramid
import Verif.Props.DistanceMap
import Verif.Props.Activation
import Verif.Props.PixelSelector
import Verif.Props.CameraModel
import Verif.Props.Snapshot
import Verif.Props.Resume
import Verif.Props.ImmaturePoint
import Verif.Props.StereoGeometry
import Verif.Props.Triangulation
import Verif.Props.SphericalTerrain
import Verif.Props.TrackingDepths
import Verif.Props.FrameTracker
import Verif.Props.BundleDemo
import Verif.Props.Session
import Verif.Props.Drawers
import Verif.Props.EpipolarStat
import Verif.Props.DataSet
import Verif.Props.GenPly
import Verif.Props.DebugImage
import Verif.Props.TriDraw
import Verif.Props.DiffMap
import Verif.Props.Averaging
import Verif.Props.StereoChoice
import Verif.Props.SessionLight
import Verif.Props.GenPlyRun
import Verif.Props.NumberText
import Verif.Props.Symmetry
import Verif.Props.Symmetry2
import Verif.Props.Symmetry3
import Verif.Props.TraceInterval
import Verif.Props.Frame
import Verif.Props.Frame2
import Verif.Props.Frame3
import Verif.Props.Crash
import Verif.Props.Delaunay
import Verif.Props.Delaunay2
import Verif.Props.SphericalDelaunay
import Verif.Props.InitOrder
import Verif.Props.DensePictures
import Verif.Props.AlignmentGauge
import Verif.Props.DrawTracing
import Verif.Props.SelectPix
import Verif.Props.TriChance
import Verif.Props.InitPicture
import Verif.Props.Sectors
import Verif.Props.StereoChance
import Verif.Props.InitCount
import Verif.Props.FirstFrames
import Verif.Props.BadPoints
import Verif.Props.PointLife
import Verif.Props.ActivationPlaces
import Verif.Props.PerfectRun
import Verif.Props.Renumber
import Verif.Props.PointHistory
import Verif.Props.Deviation
import Verif.Props.SelectorReturns
import Verif.Props.SearchOrder
import Verif.Props.Wiring
import Verif.Props.Exchange
import Verif.Spec.Brightness
import Verif.Props.Brightness
import Verif.Spec.BrightTracking
import Verif.Props.BrightTracking
import Verif.Spec.Resave
import Verif.Props.Resave
import Verif.Model.TimeName
import Verif.Spec.TimeName
import Verif.Props.TimeName
import Verif.Model.CameraRect
import Verif.Spec.CameraRect
import Verif.Props.CameraRect
import Verif.Spec.SharedPixels
import Verif.Props.SharedPixels
import Verif.Model.SectorCheck
import Verif.Spec.SectorCheck
import Verif.Props.SectorCheck
import Verif.Spec.RelitKeyFrame
import Verif.Props.RelitKeyFrame
import Verif.Model.ColourFlags
import Verif.Spec.ColourFlags
import Verif.Props.ColourFlags
import Verif.Props.InitUnit
import Verif.Props.UnitPictures
import Verif.Props.TriUnit
import Verif.Spec.CameraTurn
import Verif.Spec.TraceTurn
import Verif.Lemmas.Turn
import Verif.Props.CameraTurn
import Verif.Props.TraceTurn
import Verif.Model.TraceReport
import Verif.Spec.TraceReport
import Verif.Props.TraceReport
import Verif.Model.TextOut
import Verif.Spec.TextOut
import Verif.Props.TextOut
import Verif.Spec.WindowTrace
import Verif.Props.WindowTrace
import Verif.Spec.WindowIndependence
import Verif.Props.WindowIndependence
import Verif.Spec.TraceResume
import Verif.Props.TraceResume
import Verif.Lemmas.ResumeRun
import Verif.Props.ResumeRun
