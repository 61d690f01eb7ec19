import Verif.Model.Cg
import Verif.Props.Orientation
import Verif.Props.Lines
import Verif.Props.Hull
import Verif.Props.Cones
import Verif.Props.Transform
import Verif.Props.ConePolygon
import Verif.Props.RandomPolygon
import Verif.Props.Motion
import Verif.Props.Obstacle
import Verif.Props.World
import Verif.Props.Cluster
import Verif.Model.Ellipse
import Verif.Spec.Ellipse
import Verif.Proofs.Ellipse
import Verif.Props.Ellipse
import Verif.Props.EllipseTangent
import Verif.Props.EllipseShape
import Verif.Model.Polygon
import Verif.Spec.Polygon
import Verif.Proofs.Polygon
import Verif.Proofs.Angles
import Verif.Props.Polygon
import Verif.Props.PolygonLocation
import Verif.Props.PolygonTangent
import Verif.Model.StarPolygon
import Verif.Spec.StarPolygon
import Verif.Proofs.StarRing
import Verif.Props.StarPolygon
import Verif.Props.StarPolygonHit
import Verif.Props.StarPolygonDistance
import Verif.Model.Combination
import Verif.Spec.Combination
import Verif.Props.Combination
import Verif.Props.CombinationVel
import Verif.Model.StarHull
import Verif.Spec.StarHull
import Verif.Props.AdmissibleKernel
import Verif.Props.StarHull
import Verif.Model.KernelPoints
import Verif.Spec.KernelPoints
import Verif.Props.KernelPoints
import Verif.Props.PolygonLine
import Verif.Props.PolygonEdge
import Verif.Model.PolygonHull
import Verif.Spec.PolygonHull
import Verif.Props.PolygonHull
import Verif.Props.StarPolygonMore
import Verif.Props.DistanceFunction
import Verif.Props.CombinationTangent
import Verif.Props.PolygonVisible
import Verif.Props.AdmissibleKernelNone
import Verif.Props.HullKinds
import Verif.Props.TriangleCentre
import Verif.Model.KernelPolygon
import Verif.Spec.Kernel
import Verif.Proofs.KernelTracks
import Verif.Proofs.KernelMaps
import Verif.Proofs.KernelRational
import Verif.Props.KernelRigid
import Verif.Proofs.KernelVisible
import Verif.Proofs.KernelCorner
import Verif.Props.KernelPolygon
import Verif.Props.HullKernelPoints
import Verif.Model.CombinationState
import Verif.Props.CombinationNormal
import Verif.Props.CombinationState
import Verif.Proofs.StarInside
import Verif.Proofs.StarKernel
import Verif.Proofs.StarCriterion
import Verif.Proofs.StarMove
import Verif.Proofs.StarConvex
import Verif.Proofs.KernelCertificate
import Verif.Model.DefaultXr
import Verif.Spec.DefaultXr
import Verif.Props.KernelStar
import Verif.Props.StarPolygonLocation
import Verif.Props.DefaultXr
import Verif.Model.Starify
import Verif.Spec.Starify
import Verif.Proofs.ClusterMade
import Verif.Proofs.ClusterTotal
import Verif.Proofs.PlaneHull
import Verif.Props.Starify
import Verif.Props.StarifySelect
import Verif.Props.StarifyExample
import Verif.Props.StarifyTotal
import Verif.Props.StarifyDisjoint
import Verif.Spec.Turning
import Verif.Proofs.Turning
import Verif.Props.PolygonConvex
import Verif.Props.PolygonSimple
import Verif.Proofs.NotchShape
import Verif.Model.Flags
import Verif.Spec.Flags
import Verif.Props.Flags
import Verif.Props.StarifyHull
import Verif.Spec.ConeRegion
import Verif.Proofs.Sweep
import Verif.Proofs.ConeRegion
import Verif.Props.ConeRegion
import Verif.Proofs.ConeList
import Verif.Model.Admissible
import Verif.Spec.Admissible
import Verif.Props.ConeIntersection
import Verif.Proofs.FreeCone
import Verif.Props.Admissible
import Verif.Props.AdmissibleExample
import Verif.Model.Exclude
import Verif.Props.Exclude
import Verif.Props.ExcludeExample
import Verif.Props.ConesExample
import Verif.Model.StarifyEffects
import Verif.Proofs.StarifyEffects
import Verif.Props.StarifyEffects
import Verif.Model.MotionHeap
import Verif.Spec.MotionHeap
import Verif.Proofs.MotionHeap
import Verif.Props.MotionHeap
import Verif.Model.MotionQuery
import Verif.Props.MotionQuery
import Verif.Model.EllipseDilation
import Verif.Spec.EllipseDilation
import Verif.Props.EllipseDilation
import Verif.Model.Batch
import Verif.Props.Batch
import Verif.Model.StarifyIds
import Verif.Spec.StarifyIds
import Verif.Proofs.StarifyIds
import Verif.Proofs.StarifyNames
import Verif.Proofs.StarifyEach
import Verif.Props.StarifyIds
import Verif.Props.StarGenerator
import Verif.Model.StarTangent
import Verif.Proofs.StarTangent
import Verif.Props.StarTangent
import Verif.Spec.HullMeaning
import Verif.Proofs.HullStar
import Verif.Proofs.HullExists
import Verif.Proofs.HullKeeps
import Verif.Proofs.FilledRational
import Verif.Props.HullMeaning
import Verif.Proofs.HullRunGeometry
import Verif.Proofs.HullRun
import Verif.Proofs.HullRunModel
import Verif.Proofs.StarFrontier
import Verif.Proofs.HullCertificate
import Verif.Proofs.HullPlain
import Verif.Props.HullChecked
import Verif.Proofs.HullOrder
import Verif.Proofs.FilledRing
import Verif.Props.HullOrder
import Verif.Props.HullRightmost
import Verif.Model.Intersects
import Verif.Spec.Intersects
import Verif.Proofs.Winding
import Verif.Proofs.SimpleRing
import Verif.Proofs.EllipsePolygon
import Verif.Props.Intersects
import Verif.Model.Draw
import Verif.Spec.Draw
import Verif.Props.Draw
import Verif.Model.DrawGeometry
import Verif.Spec.DrawGeometry
import Verif.Props.DrawGeometry
import Verif.Spec.Moving
import Verif.Props.Moving
import Verif.Props.InteriorPolygon
import Verif.Spec.ClusterOrder
import Verif.Proofs.ClusterOrder
import Verif.Proofs.ClusterOrderLoop
import Verif.Proofs.ConvexOrder
import Verif.Props.ClusterOrder
import Verif.Model.ClusterObjects
import Verif.Spec.ClusterObjects
import Verif.Proofs.ClusterObjects
import Verif.Props.ClusterObjects
import Verif.Model.XrHeap
import Verif.Spec.XrHeap
import Verif.Proofs.XrHeap
import Verif.Props.XrHeap
import Verif.Model.Dilation
import Verif.Spec.Dilation
import Verif.Proofs.Dilation
import Verif.Props.Dilation
import Verif.Spec.Repeat
import Verif.Proofs.Repeat
import Verif.Props.Repeat
import Verif.Spec.Translate
import Verif.Proofs.GeoMap
import Verif.Proofs.GeoAgree
import Verif.Proofs.Translate
import Verif.Props.Translate
import Verif.Props.TranslateCg
import Verif.Props.TranslateExample
import Verif.Spec.Groups
import Verif.Proofs.GroupsMerge
import Verif.Proofs.Groups
import Verif.Proofs.GroupsLoop
import Verif.Proofs.GroupsCall
import Verif.Props.Groups
import Verif.Model.DrawClusters
import Verif.Spec.DrawClusters
import Verif.Proofs.BoxRing
import Verif.Props.DrawClusters
import Verif.Spec.Exchange
import Verif.Props.Exchange
import Verif.Spec.StarOrder
import Verif.Props.StarOrder
import Verif.Props.StarOrderExample
import Verif.Spec.Waypoints
import Verif.Props.Waypoints
import Verif.Spec.Sinus
import Verif.Props.Sinus
import Verif.Spec.Interval
import Verif.Props.Interval
import Verif.Model.Area
import Verif.Spec.Area
import Verif.Proofs.Area
import Verif.Proofs.AreaRing
import Verif.Proofs.AreaCut
import Verif.Proofs.WindingTriangle
import Verif.Proofs.WindingRing
import Verif.Proofs.WindingSimple
import Verif.Proofs.SimpleRational
import Verif.Props.Area
import Verif.Proofs.SimpleStar
import Verif.Proofs.SimpleOrient
import Verif.Props.KernelReference
import Verif.Props.StarContinuous
import Verif.Props.GeneratedObstacles
import Verif.Proofs.ConvexAround
import Verif.Props.ConvexGenerator
import Verif.Props.LeastHull
import Verif.Props.DefaultReference
import Verif.Spec.EllipseForm
import Verif.Props.EllipseForm
import Verif.Props.CombinationContinuous
import Verif.Props.ClusterDistance
import Verif.Props.IterationLimit
import Verif.Props.Together
import Verif.Props.EllipseInner
import Verif.Props.EllipseKernel
import Verif.Props.CombinationKernel
