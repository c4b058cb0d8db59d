import Verif.Spec.Curve

/-! # The velocity of a curve as a curve -/

namespace Nurbs.Spec

variable {K : Type} [Field K]

/-- The curve of velocities of a curve `c` of degree `p` whose weights are all equal: one degree less, without the first and the last
knot, control points `p (P_{i+1} - P_i) / (U[i+p+1] - U[i+1])` with weight one.  (Where the quotient is `0/0`, at a knot of
multiplicity `p+1`, the point is on no span and Lean's `0` stands for it.) -/
def hodograph (p : ℕ) (c : Curve K) : Curve K :=
  ⟨(p : Int) - 1, ⟨c.Knots.Values.tail.dropLast⟩, (List.range (c.ControlPoints.length - 1)).map fun i =>
    let f := (p : K) / (kn c.Knots.Values (i + p + 1) - kn c.Knots.Values (i + 1))
    let P := pt c.ControlPoints i
    let Q := pt c.ControlPoints (i + 1)
    ⟨f * (Q.x - P.x), f * (Q.y - P.y), f * (Q.z - P.z), 1⟩⟩

end Nurbs.Spec
