import Verif.Spec.Curve

/-! # Where straight lines and polynomials come from -/

namespace Nurbs.Spec

variable {K : Type} [Field K]

/-- The `i`-th Greville abscissa: the mean of the knots `U (i+1), …, U (i+p)`. -/
def greville (p : ℕ) (l : List K) (i : ℕ) : K := (∑ j ∈ Finset.range p, kn l (i + 1 + j)) / p

end Nurbs.Spec
