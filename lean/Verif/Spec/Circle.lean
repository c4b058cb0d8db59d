import Verif.Spec.Surface

/-! # Circular arcs and surfaces of revolution as NURBS -/

namespace Nurbs.Spec

variable {K : Type} [Field K] [LinearOrder K]

/-- The inner product of the vectors from `o` to two control points. -/
def dotAt (o : Vec3 K) (a b : Vec4 K) : K := (a.x - o.x) * (b.x - o.x) + (a.y - o.y) * (b.y - o.y) + (a.z - o.z) * (b.z - o.z)

/-- Three weighted points that describe an arc of the circle with centre `o` and radius `r`: the outer two are on the circle, the middle
one is where the tangents meet, and its weight is that of the textbook (`w₁² = w₀ w₂ cos²` of half the angle, here without the cosine). -/
structure ArcOn (o : Vec3 K) (r : K) (a b c : Vec4 K) : Prop where
  start : dotAt o a a = r * r
  stop : dotAt o c c = r * r
  tangentStart : dotAt o a b = r * r
  tangentStop : dotAt o b c = r * r
  weight : a.w * c.w * (r * r - dotAt o a c) = 2 * (b.w * b.w) * (dotAt o b b - r * r)

/-- A curve of degree two made of `N` arcs of one circle: all knots are double and the control points `2i`, `2i+1`, `2i+2` are an arc. -/
structure Arcs (o : Vec3 K) (r : K) (N : ℕ) (c : Curve K) : Prop where
  count : c.ControlPoints.length = 2 * N + 1
  double : ∀ i ≤ N, kn c.Knots.Values (2 * i + 1) = kn c.Knots.Values (2 * i + 2)
  arc : ∀ i < N, ArcOn o r (pt c.ControlPoints (2 * i)) (pt c.ControlPoints (2 * i + 1)) (pt c.ControlPoints (2 * i + 2))

/-- The surface that turns the profile `c` (distance from the axis in `x`, height in `z`) along the outline `e` in the plane of `x` and `y`. -/
structure Revolves (m n : ℕ) (e c : Curve K) (s : Surface K) : Prop where
  knotsU : s.KnotsU = e.Knots
  knotsV : s.KnotsV = c.Knots
  countU : e.ControlPoints.length = m
  countV : c.ControlPoints.length = n
  points : ∀ i < m, ∀ j < n, cp s i j = ⟨(pt c.ControlPoints j).x * (pt e.ControlPoints i).x,
    (pt c.ControlPoints j).x * (pt e.ControlPoints i).y, (pt c.ControlPoints j).z,
    (pt e.ControlPoints i).w * (pt c.ControlPoints j).w⟩

end Nurbs.Spec
