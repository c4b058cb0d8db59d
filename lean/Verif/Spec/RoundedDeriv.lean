import Verif.Spec.Rounded
import Mathlib.Algebra.BigOperators.Fin

/-! # Magnitudes of the terms of a derivative

The derivative of a B-spline is a sum of terms of both signs.  The sums of the absolute values of these terms are what the
rounding error of the sum is measured against. -/

namespace Nurbs.Spec

variable {K : Type} [Field K] [LinearOrder K]

/-- The derivative of order `m` of `N_{i,p}` at `x` with all terms added with positive sign: the recursion
`N_{i,p}' = p (N_{i,p-1} / (u_{i+p} - u_i) - N_{i+1,p-1} / (u_{i+p+1} - u_{i+1}))` with the minus replaced by a plus. -/
def absDeriv (U : ℕ → K) (x : K) : ℕ → ℕ → ℕ → K
  | 0, p, i => N U x p i
  | _ + 1, 0, _ => 0
  | m + 1, p + 1, i => ((p + 1 : ℕ) : K) * (absDeriv U x m p i / (U (i + p + 1) - U i) +
      absDeriv U x m p (i + 1) / (U (i + p + 2) - U (i + 1)))

/-- `Σ absDeriv_i w_i f(P_i)`, to compare with the `m`-th derivative of `Σ N_i w_i f(P_i)`. -/
def absSum (p : ℕ) (c : Curve K) (x : K) (f : Vec4 K → K) (m : ℕ) : K :=
  ∑ i ∈ Finset.range c.ControlPoints.length,
    absDeriv (kn c.Knots.Values) x m p i * ((pt c.ControlPoints i).w * f (pt c.ControlPoints i))

/-- The derivative of order `m` of a quotient by the rule `(A/W)_m = (A_m - Σ_{1≤i≤m} C(m,i) W_i (A/W)_{m-i}) / W`, with all
terms added with positive sign. -/
def absQuot (A W : ℕ → K) (m : ℕ) : K :=
  (A m + ∑ i : Fin m, (m.choose (i + 1) : K) * W (i + 1) * absQuot A W (m - (i + 1))) / W 0
termination_by m
decreasing_by have := i.2; omega

end Nurbs.Spec
