import Verif.Spec.Surface
import Mathlib.Algebra.MvPolynomial.PDeriv

/-! # Specification of partial derivatives

As for curves, a piecewise polynomial function of two variables is differentiated on the rectangle of knot spans that
holds the parameters.  Polynomials in two variables: variable 0 is `u`, variable 1 is `v`. -/

namespace Nurbs.Spec
open MvPolynomial

variable {K : Type} [Field K] [LinearOrder K]

/-- `P` is the polynomial that `f` is on the rectangle of span `ku` of `lu` and span `kv` of `lv`. -/
def IsPatch (lu lv : List K) (ku kv : ℕ) (f : K → K → K) (P : MvPolynomial (Fin 2) K) : Prop :=
  ∀ a b, IsSpan lu a ku → IsSpan lv b kv → f a b = eval ![a, b] P

/-- Numerators of the partial derivatives of the quotient `A / W`:
`∂ᵘᵏ ∂ᵛˡ (A/W) = mixNum A W k l / W^(k+l+1)`, by the quotient rule (first `l` times for `v`, then `k` times for `u`). -/
noncomputable def mixNum (A W : MvPolynomial (Fin 2) K) : ℕ → ℕ → MvPolynomial (Fin 2) K
  | 0, 0 => A
  | 0, l + 1 => pderiv 1 (mixNum A W 0 l) * W - (l + 1 : ℕ) • (mixNum A W 0 l * pderiv 1 W)
  | k + 1, l => pderiv 0 (mixNum A W k l) * W - (k + l + 1 : ℕ) • (mixNum A W k l * pderiv 0 W)

/-- Partial derivative of `A / W` at `(u, v)`, `k` times for `u` and `l` times for `v`. -/
noncomputable def mixDeriv (A W : MvPolynomial (Fin 2) K) (k l : ℕ) (u v : K) : K :=
  eval ![u, v] (mixNum A W k l) / eval ![u, v] W ^ (k + l + 1)

end Nurbs.Spec
