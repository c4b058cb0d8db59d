import Verif.Spec.Surface

/-! # A common factor for the weights -/

namespace Nurbs.Spec

/-- All weights of the curve multiplied by `a`. -/
def reweigh {K : Type} [Mul K] (a : K) (c : Curve K) : Curve K :=
  { c with ControlPoints := c.ControlPoints.map fun v => ⟨v.x, v.y, v.z, a * v.w⟩ }

/-- All weights of the surface multiplied by `a`. -/
def reweighS {K : Type} [Mul K] (a : K) (s : Surface K) : Surface K :=
  { s with ControlPoints := { s.ControlPoints with Values := s.ControlPoints.Values.map fun v => ⟨v.x, v.y, v.z, a * v.w⟩ } }

/-- All coordinates of the curve multiplied by `k`: another unit of length. -/
def rescale {K : Type} [Mul K] (k : K) (c : Curve K) : Curve K :=
  { c with ControlPoints := c.ControlPoints.map fun v => ⟨k * v.x, k * v.y, k * v.z, v.w⟩ }

/-- `D` is the largest weight times distance from the origin of a control point. -/
def LargestReach {K : Type} [Field K] [LinearOrder K] (c : Curve K) (D : K) : Prop :=
  0 ≤ D ∧ (∀ v ∈ c.ControlPoints, (v.w * v.x) ^ 2 + (v.w * v.y) ^ 2 + (v.w * v.z) ^ 2 ≤ D ^ 2) ∧
    ∃ v ∈ c.ControlPoints, (v.w * v.x) ^ 2 + (v.w * v.y) ^ 2 + (v.w * v.z) ^ 2 = D ^ 2

end Nurbs.Spec
