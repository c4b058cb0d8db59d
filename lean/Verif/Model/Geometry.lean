import Verif.Model.Surface

/-! # Model of `src/Geometry/*.cpp` -/

namespace Nurbs

variable {K : Type} [Zero K] [One K] [Add K] [Sub K] [Mul K] [Div K] [Neg K] [NatCast K] [IntCast K] [LinearOrder K]

/-- `GeomSegment` – include/libnurbs/Geometry/GeomSegment.hpp:12-18. -/
structure GeomSegment (K : Type) where
  LeftPoint : Vec3 K
  RightPoint : Vec3 K
  Degree : Int
  ControlPointCount : Int

/-- A control point with weight one – GeomSegment.cpp:19-20, GeomRect.cpp:28-29. -/
def withWeightOne (v : Vec3 K) : Vec4 K := ⟨v.x, v.y, v.z, 1⟩

/-- `GeomSegment::GetCurve` – GeomSegment.cpp:7-23. -/
def GeomSegment.GetCurve (s : GeomSegment K) : M (Curve K) := do
  massert (s.Degree ≥ 1)
  massert (s.ControlPointCount ≥ s.Degree + 1)
  let knot_count := s.ControlPointCount + s.Degree + 1
  let knots ← KnotVector.Uniform s.Degree knot_count
  let pts ← vnew s.ControlPointCount (0 : Vec4 K)
  let k ← (s.RightPoint - s.LeftPoint).divM ((s.ControlPointCount - 1 : Int) : K)
  let pts ← forLt 0 s.ControlPointCount (fun i pts =>
    vset pts i (withWeightOne (s.LeftPoint + (i : K) • k))) pts
  return ⟨s.Degree, knots, pts⟩

/-- `GeomSegment::Make` – GeomSegment.hpp:21-27 (degree 1 and two control points by default, :15-16). -/
def GeomSegment.Make (left right : Vec3 K) : GeomSegment K := ⟨left, right, 1, 2⟩

/-- `GeomRect` – include/libnurbs/Geometry/GeomRect.hpp:12-22. -/
structure GeomRect (K : Type) where
  LeftTopPoint : Vec3 K
  RightTopPoint : Vec3 K
  LeftBottomPoint : Vec3 K
  RightBottomPoint : Vec3 K
  DegreeU : Int
  DegreeV : Int
  ControlPointCountU : Int
  ControlPointCountV : Int

/-- `GeomRect::Make` – GeomRect.hpp:25-33 (degrees 1 and 2×2 control points by default, :15-18). -/
def GeomRect.Make (left_bottom right_bottom left_top right_top : Vec3 K) : GeomRect K :=
  ⟨left_top, right_top, left_bottom, right_bottom, 1, 1, 2, 2⟩

/-- `GeomRect::GetSurface` – GeomRect.cpp:7-33 (`RightTopPoint` is not used by the code). -/
def GeomRect.GetSurface (r : GeomRect K) : M (Surface K) := do
  massert (r.DegreeU ≥ 1)
  massert (r.DegreeV ≥ 1)
  massert (r.ControlPointCountU ≥ r.DegreeU + 1)
  massert (r.ControlPointCountV ≥ r.DegreeV + 1)
  let knot_count_u := r.ControlPointCountU + r.DegreeU + 1
  let knot_count_v := r.ControlPointCountV + r.DegreeV + 1
  let knotsU ← KnotVector.Uniform r.DegreeU knot_count_u
  let knotsV ← KnotVector.Uniform r.DegreeV knot_count_v
  let grid ← Grid.mk' r.ControlPointCountU r.ControlPointCountV (0 : Vec4 K)
  let k1 ← (r.RightBottomPoint - r.LeftBottomPoint).divM ((r.ControlPointCountU - 1 : Int) : K)
  let k2 ← (r.LeftTopPoint - r.LeftBottomPoint).divM ((r.ControlPointCountV - 1 : Int) : K)
  let grid ← forLt 0 r.ControlPointCountV (fun j grid =>
    forLt 0 r.ControlPointCountU (fun i (grid : Grid (Vec4 K)) =>
      grid.Set i j (withWeightOne (r.LeftBottomPoint + (i : K) • k1 + (j : K) • k2))) grid) grid
  return ⟨r.DegreeU, r.DegreeV, knotsU, knotsV, grid⟩

end Nurbs
