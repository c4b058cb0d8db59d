import Verif.Spec.Reverse
import Verif.Spec.Surface

/-! # Specification of running through a surface backwards in one direction -/

namespace Nurbs.Spec

/-- The surface run through backwards in the direction of `u`: `KnotVector::Reverse` for `KnotsU`, and the control point `(i, j)` is the
control point `(UCount - 1 - i, j)` of `s`. -/
def backwardsU {K : Type} [Zero K] [One K] [Sub K] (s : Surface K) : Surface K :=
  ⟨s.DegreeU, s.DegreeV, s.KnotsU.Reverse, s.KnotsV, ⟨s.ControlPoints.UCount, s.ControlPoints.VCount,
    (List.range (s.ControlPoints.VCount.toNat * s.ControlPoints.UCount.toNat)).map fun n =>
      cp s (s.ControlPoints.UCount.toNat - 1 - n % s.ControlPoints.UCount.toNat) (n / s.ControlPoints.UCount.toNat)⟩⟩

/-- The same in the direction of `v`. -/
def backwardsV {K : Type} [Zero K] [One K] [Sub K] (s : Surface K) : Surface K :=
  ⟨s.DegreeU, s.DegreeV, s.KnotsU, s.KnotsV.Reverse, ⟨s.ControlPoints.UCount, s.ControlPoints.VCount,
    (List.range (s.ControlPoints.VCount.toNat * s.ControlPoints.UCount.toNat)).map fun n =>
      cp s (n % s.ControlPoints.UCount.toNat) (s.ControlPoints.VCount.toNat - 1 - n / s.ControlPoints.UCount.toNat)⟩⟩

end Nurbs.Spec
