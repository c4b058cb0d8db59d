import Verif.Spec.Knots

/-! # Textbook B-spline basis functions (Cox – de Boor)

Nothing here refers to the model of the code. -/

namespace Nurbs.Spec

variable {K : Type} [Field K] [LinearOrder K]

/-- `N_{i,p}(x)` for the knots `U`, by the textbook recursion with the usual convention `0/0 = 0`
(division by zero is 0 in Lean).  The last non-empty span is closed at 1. -/
def N (U : ℕ → K) (x : K) : ℕ → ℕ → K
  | 0, i => if (U i ≤ x ∧ x < U (i + 1)) ∨ (x = 1 ∧ U i < 1 ∧ U (i + 1) = 1) then 1 else 0
  | p + 1, i => (x - U i) / (U (i + p + 1) - U i) * N U x p i +
      (U (i + p + 2) - x) / (U (i + p + 2) - U (i + 1)) * N U x p (i + 1)

end Nurbs.Spec
