import Mathlib.Algebra.Order.Field.Basic
import Mathlib.Data.List.GetD

/-! # Independent specification vocabulary for knot vectors

Nothing here refers to the model of the code. -/

namespace Nurbs.Spec

variable {K : Type}

/-- `i`-th knot; only used for `i < l.length`. -/
def kn [Zero K] (l : List K) (i : ℕ) : K := l.getD i 0

/-- The vectors the `KnotVector` constructors document as valid. -/
def WellFormedValues [LinearOrder K] [Zero K] [One K] (l : List K) : Prop :=
  l ≠ [] ∧ l.Pairwise (· ≤ ·) ∧ (∀ v ∈ l, 0 ≤ v) ∧ l.getLast? = some 1

/-- A valid knot vector on [0,1] (the doc of `IsValid`). -/
def ValidKnots [LinearOrder K] [Zero K] [One K] (l : List K) : Prop :=
  4 ≤ l.length ∧ l.head? = some 0 ∧ l.getLast? = some 1 ∧ l.Pairwise (· ≤ ·)

/-- A knot vector on [0,1] clamped for degree `p`: end multiplicities exactly `p + 1`. -/
structure Clamped [LinearOrder K] [Zero K] [One K] (p : ℕ) (l : List K) : Prop where
  len : 2 * p + 2 ≤ l.length
  sorted : l.Pairwise (· ≤ ·)
  zeros : ∀ i ≤ p, kn l i = 0
  ones : ∀ i < l.length, l.length ≤ i + p + 1 → kn l i = 1
  first : 0 < kn l (p + 1)
  last : kn l (l.length - p - 2) < 1

/-- `k` is the index of the non-empty span that holds the parameter `u`; the last span is closed at 1. -/
def IsSpan [LinearOrder K] [Zero K] [One K] (l : List K) (u : K) (k : ℕ) : Prop :=
  k + 1 < l.length ∧ kn l k ≤ u ∧ (u < kn l (k + 1) ∨ (u = 1 ∧ kn l k < 1 ∧ kn l (k + 1) = 1))

end Nurbs.Spec
