import Verif.Spec.Surface

/-! # Exchanging the two directions of a surface -/

namespace Nurbs.Spec

/-- The surface with the roles of `u` and `v` exchanged: its control point `(j, i)` is the control point `(i, j)` of `s`. -/
def transposed {K : Type} [Zero K] (s : Surface K) : Surface K :=
  ⟨s.DegreeV, s.DegreeU, s.KnotsV, s.KnotsU, ⟨s.ControlPoints.VCount, s.ControlPoints.UCount,
    (List.range (s.ControlPoints.UCount.toNat * s.ControlPoints.VCount.toNat)).map fun n =>
      cp s (n / s.ControlPoints.VCount.toNat) (n % s.ControlPoints.VCount.toNat)⟩⟩

/-- The storage of the control points matches their numbers. -/
def Sized {K : Type} (s : Surface K) (m n : ℕ) : Prop :=
  s.ControlPoints.UCount = m ∧ s.ControlPoints.VCount = n ∧ s.ControlPoints.Values.length = n * m

end Nurbs.Spec
