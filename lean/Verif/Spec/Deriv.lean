import Verif.Spec.Curve
import Mathlib.Algebra.Polynomial.Derivative

/-! # Specification of derivatives

Piecewise polynomial functions are differentiated piece by piece: the derivative at a parameter is that of the
polynomial which the function is on the span that holds the parameter (so at a knot it is the derivative from the
right, and at 1 the one from the left).  Nothing here refers to functions of the model. -/

namespace Nurbs.Spec
open Polynomial

variable {K : Type} [Field K] [LinearOrder K]

/-- `P` is the polynomial that `f` is on span `k` of the knot vector `l`. -/
def IsPiece (l : List K) (k : ℕ) (f : K → K) (P : K[X]) : Prop := ∀ t, IsSpan l t k → f t = P.eval t

/-- Numerators of the derivatives of the quotient `A / W`: `(A/W)⁽ⁿ⁾ = quotNum A W n / W^(n+1)`, by the quotient
rule. -/
noncomputable def quotNum (A W : K[X]) : ℕ → K[X]
  | 0 => A
  | n + 1 => derivative (quotNum A W n) * W - (n + 1 : ℕ) • (quotNum A W n * derivative W)

/-- `n`-th derivative of the quotient `A / W` at `x`. -/
noncomputable def quotDeriv (A W : K[X]) (n : ℕ) (x : K) : K := (quotNum A W n).eval x / W.eval x ^ (n + 1)

end Nurbs.Spec
