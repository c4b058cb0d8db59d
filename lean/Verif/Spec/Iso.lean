import Verif.Spec.Transposed

/-! # Isoparametric curves -/

namespace Nurbs.Spec

variable {K : Type} [Field K] [LinearOrder K]

/-- The curve `u ↦ S(u, v)` of a surface with `m × n` control points and degree `q` in the direction of `v`: its control points are the
points at `v` of the curves of the control points `(i, ·)`, weighted by the denominators. -/
def isoCurve (q m n : ℕ) (s : Surface K) (v : K) : Curve K :=
  ⟨s.DegreeU, s.KnotsU, (List.range m).map fun i =>
    ⟨(nurbsPoint q (colCurve n s i) v).x, (nurbsPoint q (colCurve n s i) v).y, (nurbsPoint q (colCurve n s i) v).z,
      wsum q (colCurve n s i) v fun _ => 1⟩⟩

end Nurbs.Spec
