import Verif.Spec.Serial

/-! # The numbers that stored curves and surfaces stand for -/

namespace Nurbs.Spec

open Nurbs Serial

/-- The number a finite double stands for. -/
def valueF64 (x : F64) : ℚ := if signBit x then -absF64 x else absF64 x

/-- a point of doubles as a point of numbers -/
def valuePoint (v : Vec4 F64) : Vec4 ℚ := ⟨valueF64 v.x, valueF64 v.y, valueF64 v.z, valueF64 v.w⟩

/-- a curve of doubles as a curve of numbers -/
def valueCurve (c : Curve F64) : Curve ℚ := ⟨c.Degree, ⟨c.Knots.Values.map valueF64⟩, c.ControlPoints.map valuePoint⟩

/-- a surface of doubles as a surface of numbers -/
def valueSurface (s : Surface F64) : Surface ℚ :=
  ⟨s.DegreeU, s.DegreeV, ⟨s.KnotsU.Values.map valueF64⟩, ⟨s.KnotsV.Values.map valueF64⟩,
    ⟨s.ControlPoints.UCount, s.ControlPoints.VCount, s.ControlPoints.Values.map valuePoint⟩⟩

end Nurbs.Spec
