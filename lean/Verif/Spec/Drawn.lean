import Verif.Spec.Surface

/-! # Surfaces drawn out from a curve -/

namespace Nurbs.Spec

variable {K : Type} [Zero K]

/-- The surface of `n` rows in the direction of `v` (degree `q`, knots `kv`) that are all the control points of `c`. -/
def drawn (c : Curve K) (q : ℕ) (kv : KnotVector K) (n : ℕ) : Surface K :=
  ⟨c.Degree, q, c.Knots, kv, ⟨c.ControlPoints.length, n,
    (List.range (n * c.ControlPoints.length)).map fun i => pt c.ControlPoints (i % c.ControlPoints.length)⟩⟩

end Nurbs.Spec
