import Verif.Spec.Curve
import Mathlib.Data.List.Dedup

/-! # Specification vocabulary for degree elevation

Nothing here refers to the model of the code. -/

namespace Nurbs.Spec

variable {K : Type} [Field K] [LinearOrder K]

/-- Every value of `l` occurs `t` times more in `l'`, and nothing else does. -/
def MultRaised (t : ℕ) (l l' : List K) : Prop :=
  l'.Pairwise (· ≤ ·) ∧ ∀ v, l'.count v = l.count v + if v ∈ l then t else 0

/-- Different knots are at least the library's tolerance apart. -/
def KnotsApart (l : List K) : Prop := ∀ a ∈ l, ∀ b ∈ l, a < b → 1 / 1000000 ≤ b - a

/-- Interior knots have multiplicity at most `p`, that is, the curve is continuous. -/
def InteriorMult (p : ℕ) (l : List K) : Prop := ∀ v, 0 < v → v < 1 → l.count v ≤ p

/-- `a` and `b` are neighbouring knot values. -/
def Neighbours (l : List K) (a b : K) : Prop := a ∈ l ∧ b ∈ l ∧ a < b ∧ ∀ v ∈ l, ¬ (a < v ∧ v < b)

/-- The multiplicity does not jump up by two or more from one interior knot to the next, or the degree is too small for the jump to
matter. -/
def SteadyMult (p t : ℕ) (l : List K) : Prop := ∀ a b, Neighbours l a b → 0 < a → b < 1 →
  l.count b ≤ l.count a + 1 ∨ (p - l.count b + 1) / 2 < l.count a + t + 2

/-- Number of non-empty spans. -/
def spanCount (l : List K) : ℕ := l.dedup.length - 1

end Nurbs.Spec
