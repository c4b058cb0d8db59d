import Verif.Model.Basis
import Verif.Model.BoundingBox
import Verif.Model.Curve
import Verif.Model.DegreeAlgo
import Verif.Model.Double
import Verif.Model.Geometry
import Verif.Model.Grid
import Verif.Model.KnotRemoval
import Verif.Model.KnotVector
import Verif.Model.MathUtils
import Verif.Model.NaN
import Verif.Model.Prelude
import Verif.Model.Rounded
import Verif.Model.Search
import Verif.Model.Serialization
import Verif.Model.Surface
import Verif.Model.Vec
import Verif.Spec.Align
import Verif.Spec.Basis
import Verif.Spec.Box
import Verif.Spec.Circle
import Verif.Spec.Curve
import Verif.Spec.Deriv
import Verif.Spec.Double
import Verif.Spec.Drawn
import Verif.Spec.Elevate
import Verif.Spec.Hodograph
import Verif.Spec.Iso
import Verif.Spec.Knots
import Verif.Spec.Local
import Verif.Spec.NetSpeed
import Verif.Spec.Placement
import Verif.Spec.Precision
import Verif.Spec.Reverse
import Verif.Spec.ReverseSurface
import Verif.Spec.Reweigh
import Verif.Spec.Rounded
import Verif.Spec.RoundedDeriv
import Verif.Spec.Samples
import Verif.Spec.Search
import Verif.Spec.Sections
import Verif.Spec.Serial
import Verif.Spec.Surface
import Verif.Spec.SurfaceDeriv
import Verif.Spec.TextLayout
import Verif.Spec.Transposed
import Verif.Spec.Values
import Verif.Proof.Align
import Verif.Proof.AlignDir
import Verif.Proof.AlignTri
import Verif.Proof.AnyArith
import Verif.Proof.AnyDeriv
import Verif.Proof.AnyElev
import Verif.Proof.BBox
import Verif.Proof.BBoxMono
import Verif.Proof.BBoxMove
import Verif.Proof.BBoxTouch
import Verif.Proof.Basis
import Verif.Proof.Bezier
import Verif.Proof.Bisect
import Verif.Proof.Blossom
import Verif.Proof.Circle
import Verif.Proof.Curve
import Verif.Proof.CurveDeriv
import Verif.Proof.Deriv
import Verif.Proof.DerivMath
import Verif.Proof.Double
import Verif.Proof.DoubleBasis
import Verif.Proof.DoubleBezier
import Verif.Proof.DoubleCurve
import Verif.Proof.DoubleInsert
import Verif.Proof.DoubleSurfaceInsert
import Verif.Proof.ElevBlossom
import Verif.Proof.ElevCode
import Verif.Proof.ElevCurve
import Verif.Proof.ElevMain
import Verif.Proof.ElevRemove
import Verif.Proof.ElevRuns
import Verif.Proof.ElevSafe
import Verif.Proof.ElevStage
import Verif.Proof.ElevSteps
import Verif.Proof.ElevTable
import Verif.Proof.Elevate
import Verif.Proof.EndKnots
import Verif.Proof.Geometry
import Verif.Proof.Grid
import Verif.Proof.Hodograph
import Verif.Proof.Insert
import Verif.Proof.Insert2
import Verif.Proof.Iso
import Verif.Proof.Knots
import Verif.Proof.Knots2
import Verif.Proof.Local
import Verif.Proof.Loops
import Verif.Proof.Path
import Verif.Proof.Plane
import Verif.Proof.Precision
import Verif.Proof.Refine
import Verif.Proof.RefineSurface
import Verif.Proof.RelErr
import Verif.Proof.Removal
import Verif.Proof.Removal2
import Verif.Proof.Removal3
import Verif.Proof.Removal4
import Verif.Proof.Removal5
import Verif.Proof.RemovalTol
import Verif.Proof.Reverse
import Verif.Proof.Reweigh
import Verif.Proof.Rounded
import Verif.Proof.RoundedBBox
import Verif.Proof.RoundedBasis
import Verif.Proof.RoundedBezier
import Verif.Proof.RoundedCurve
import Verif.Proof.RoundedCurveDeriv
import Verif.Proof.RoundedDeriv
import Verif.Proof.RoundedDerivErr
import Verif.Proof.RoundedElev
import Verif.Proof.RoundedInsert
import Verif.Proof.RoundedKnots
import Verif.Proof.RoundedPieces
import Verif.Proof.RoundedSearch
import Verif.Proof.RoundedSurfaceInsert
import Verif.Proof.Search
import Verif.Proof.Sections
import Verif.Proof.SerialBin
import Verif.Proof.SerialCut
import Verif.Proof.SerialFile
import Verif.Proof.SerialHeader
import Verif.Proof.SerialInv
import Verif.Proof.SerialLine
import Verif.Proof.SerialNum
import Verif.Proof.SerialRel
import Verif.Proof.SerialStable
import Verif.Proof.SerialText
import Verif.Proof.Sim
import Verif.Proof.Smooth
import Verif.Proof.SmoothSurface
import Verif.Proof.Stationary
import Verif.Proof.Surface
import Verif.Proof.SurfaceDeriv
import Verif.Proof.SurfaceDerivMath
import Verif.Proof.SurfaceDerivUb
import Verif.Proof.SurfaceElev
import Verif.Proof.SurfaceInsert
import Verif.Proof.SurfaceRemoval
import Verif.Proof.SurfaceSearch
import Verif.Proof.TextLayout
import Verif.Proof.Transposed
import Verif.Proof.Unique
import Verif.Proof.Variation
import Verif.Proof.Vec
import Verif.Props.Align
import Verif.Props.AlignTri
import Verif.Props.Arguments
import Verif.Props.BBox
import Verif.Props.BBoxMono
import Verif.Props.BBoxMove
import Verif.Props.BBoxTouch
import Verif.Props.Basis
import Verif.Props.Bezier
import Verif.Props.BezierPieces
import Verif.Props.BinaryExact
import Verif.Props.Bisect
import Verif.Props.BoxMeasure
import Verif.Props.Circle
import Verif.Props.Curve
import Verif.Props.Deriv
import Verif.Props.Double
import Verif.Props.DoubleBBox
import Verif.Props.DoubleBezier
import Verif.Props.DoubleInsert
import Verif.Props.DoubleSurfaceInsert
import Verif.Props.Drawn
import Verif.Props.Edits
import Verif.Props.Elevate
import Verif.Props.Ends
import Verif.Props.Geometry
import Verif.Props.GridBounds
import Verif.Props.Hodograph
import Verif.Props.Hull
import Verif.Props.Insert
import Verif.Props.Iso
import Verif.Props.KnotVector
import Verif.Props.Local
import Verif.Props.LocalAny
import Verif.Props.Path
import Verif.Props.Placement
import Verif.Props.PlacementEdit
import Verif.Props.PlacementSearch
import Verif.Props.Plane
import Verif.Props.Precision
import Verif.Props.PrecisionSurface
import Verif.Props.Refine
import Verif.Props.RefineSurface
import Verif.Props.Removal
import Verif.Props.RemovalTol
import Verif.Props.RemovalTolSurface
import Verif.Props.RemovalWeights
import Verif.Props.RemovalWeightsSurface
import Verif.Props.Reverse
import Verif.Props.ReverseSurface
import Verif.Props.Reweigh
import Verif.Props.ReweighRemove
import Verif.Props.Rounded
import Verif.Props.RoundedBezier
import Verif.Props.RoundedDeriv
import Verif.Props.RoundedDerivErr
import Verif.Props.RoundedElev
import Verif.Props.RoundedElevSurface
import Verif.Props.RoundedInsert
import Verif.Props.RoundedSearch
import Verif.Props.RoundedSurfaceInsert
import Verif.Props.Ruled
import Verif.Props.Samples
import Verif.Props.Search
import Verif.Props.Sections
import Verif.Props.SerialStable
import Verif.Props.Serialization
import Verif.Props.Smooth
import Verif.Props.SmoothSurface
import Verif.Props.Stability
import Verif.Props.Stationary
import Verif.Props.Surface
import Verif.Props.SurfaceDeriv
import Verif.Props.SurfaceInsert
import Verif.Props.SurfaceRemoval
import Verif.Props.SurfaceSearch
import Verif.Props.TextFive
import Verif.Props.TextLayout
import Verif.Props.Transposed
import Verif.Props.Uniform
import Verif.Props.Utils
import Verif.Props.Variation
import Verif.Tests.Conformance
