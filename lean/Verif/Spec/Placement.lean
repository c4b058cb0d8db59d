import Verif.Spec.Surface

/-! # Placements

Moving a curve or surface in space: a linear map, a translation, and a common factor for all weights. -/

namespace Nurbs.Spec

/-- A linear map, a translation and a factor for the weights. -/
structure Placement (K : Type) where
  R : Mat3 K
  t : Vec3 K
  a : K

variable {K : Type} [Field K] [LinearOrder K]

/-- The point `v` moved: `R v + t`. -/
def Placement.pos (P : Placement K) (v : Vec3 K) : Vec3 K :=
  ⟨(matApply P.R v).x + P.t.x, (matApply P.R v).y + P.t.y, (matApply P.R v).z + P.t.z⟩

/-- A control point moved, its weight multiplied by `a`. -/
def Placement.cpt (P : Placement K) (v : Vec4 K) : Vec4 K :=
  ⟨(P.pos ⟨v.x, v.y, v.z⟩).x, (P.pos ⟨v.x, v.y, v.z⟩).y, (P.pos ⟨v.x, v.y, v.z⟩).z, P.a * v.w⟩

/-- The curve with all control points moved. -/
def Placement.curve (P : Placement K) (c : Curve K) : Curve K := { c with ControlPoints := c.ControlPoints.map P.cpt }

/-- The surface with all control points moved. -/
def Placement.surface (P : Placement K) (s : Surface K) : Surface K :=
  { s with ControlPoints := { s.ControlPoints with Values := s.ControlPoints.Values.map P.cpt } }

/-- `R` preserves scalar products (rotations and reflections). -/
def IsOrthogonal (R : Mat3 K) : Prop := ∀ v w : Vec3 K,
  (matApply R v).x * (matApply R w).x + (matApply R v).y * (matApply R w).y + (matApply R v).z * (matApply R w).z =
    v.x * w.x + v.y * w.y + v.z * w.z

end Nurbs.Spec
