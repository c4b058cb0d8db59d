import Verif.Model.Curve

/-! # Specification of running through a curve backwards -/

namespace Nurbs.Spec

/-- The curve run through backwards: the knots are reversed by `KnotVector::Reverse`, the control points by `std::reverse` (the library
has no member function for this; `Surface::AlignParameterDomain` does it for the rows of a surface). -/
def backwards {K : Type} [One K] [Sub K] (c : Curve K) : Curve K := ⟨c.Degree, c.Knots.Reverse, c.ControlPoints.reverse⟩

end Nurbs.Spec
