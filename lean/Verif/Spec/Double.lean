import Verif.Spec.Surface
import Verif.Model.Double

/-! # What data of type `double` mean exactly -/

namespace Nurbs.Spec

/-- A finite `double`. -/
def IsFin (d : Double) : Prop := ∃ a : ℚ, d = Double.fin a ∧ round64 a = a ∧ |a| ≤ maxDouble

/-- The exact coordinates of a control point. -/
def exactPoint64 (P : Vec4 Double) : Vec4 ℚ := ⟨P.x.val, P.y.val, P.z.val, P.w.val⟩

/-- The curve with the same degree, knots and control points, as an object of exact arithmetic. -/
def exactCurve64 (c : Curve Double) : Curve ℚ :=
  ⟨c.Degree, ⟨c.Knots.Values.map Double.val⟩, c.ControlPoints.map exactPoint64⟩

/-- All knots, coordinates and weights are finite numbers. -/
structure FinCurve (c : Curve Double) : Prop where
  knots : ∀ d ∈ c.Knots.Values, IsFin d
  points : ∀ P ∈ c.ControlPoints, IsFin P.x ∧ IsFin P.y ∧ IsFin P.z ∧ IsFin P.w

/-- Knots that follow each other are equal or at least `g` apart. -/
def GapsAtLeast (g : ℚ) (l : List ℚ) : Prop := ∀ i, kn l i < kn l (i + 1) → i + 1 < l.length → g ≤ kn l (i + 1) - kn l i

/-- The surface with the same degrees, knots and control points, as an object of exact arithmetic. -/
def exactSurface64 (s : Surface Double) : Surface ℚ :=
  ⟨s.DegreeU, s.DegreeV, ⟨s.KnotsU.Values.map Double.val⟩, ⟨s.KnotsV.Values.map Double.val⟩,
    ⟨s.ControlPoints.UCount, s.ControlPoints.VCount, s.ControlPoints.Values.map exactPoint64⟩⟩

/-- All knots, coordinates and weights are finite numbers. -/
structure FinSurface (s : Surface Double) : Prop where
  knotsU : ∀ d ∈ s.KnotsU.Values, IsFin d
  knotsV : ∀ d ∈ s.KnotsV.Values, IsFin d
  points : ∀ P ∈ s.ControlPoints.Values, IsFin P.x ∧ IsFin P.y ∧ IsFin P.z ∧ IsFin P.w

end Nurbs.Spec
