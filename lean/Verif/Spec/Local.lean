import Verif.Spec.Curve
import Verif.Spec.Surface

/-! # Spans that look alike -/

namespace Nurbs.Spec

/-- The `p` knots on either side of the span `k` of `l` are those on either side of the span `k'` of `l'`. -/
structure SameKnots {K : Type} [Zero K] (p : ℕ) (l : List K) (k : ℕ) (l' : List K) (k' : ℕ) : Prop where
  right : ∀ i, 1 ≤ i → i ≤ p → kn l (k + i) = kn l' (k' + i)
  left : ∀ i < p, kn l (k - i) = kn l' (k' - i)

/-- Moreover the `p + 1` control points of the two spans are the same. -/
structure SameSpan {K : Type} [Zero K] (p : ℕ) (c : Curve K) (k : ℕ) (c' : Curve K) (k' : ℕ) : Prop where
  knots : SameKnots p c.Knots.Values k c'.Knots.Values k'
  points : ∀ i ≤ p, pt c.ControlPoints (k - p + i) = pt c'.ControlPoints (k' - p + i)

/-- The same for surfaces. -/
structure SamePatch {K : Type} [Zero K] (p q : ℕ) (s : Surface K) (ku kv : ℕ) (s' : Surface K) (ku' kv' : ℕ) : Prop where
  knotsU : SameKnots p s.KnotsU.Values ku s'.KnotsU.Values ku'
  knotsV : SameKnots q s.KnotsV.Values kv s'.KnotsV.Values kv'
  points : ∀ i ≤ p, ∀ j ≤ q, cp s (ku - p + i) (kv - q + j) = cp s' (ku' - p + i) (kv' - q + j)

end Nurbs.Spec
