import Verif.Spec.Elevate

/-! # Samples of curves and surfaces -/

namespace Nurbs.Spec
variable {K : Type} [Field K] [LinearOrder K]

/-- `x` belongs to the knot interval from `a` to `b`: the right end is counted to the next interval, except for 1. -/
def InInterval (a b x : K) : Prop := a ≤ x ∧ (x < b ∨ (x = 1 ∧ b = 1))

/-- In every interval between neighbouring knots of `l`, there are at least `n` parameters at which `A` is true. -/
def SampledOn (n : ℕ) (l : List K) (A : K → Prop) : Prop :=
  ∀ a b, Neighbours l a b → ∃ T : Finset K, n ≤ T.card ∧ ∀ x ∈ T, InInterval a b x ∧ A x

/-- In every rectangle between neighbouring knots of `l` and `l'`, `A` is true on a grid of at least `n` times `n'` parameters. -/
def SampledOnGrid (n n' : ℕ) (l l' : List K) (A : K → K → Prop) : Prop :=
  ∀ a b a' b', Neighbours l a b → Neighbours l' a' b' → ∃ T T' : Finset K, n ≤ T.card ∧ n' ≤ T'.card ∧
    (∀ x ∈ T, InInterval a b x) ∧ (∀ y ∈ T', InInterval a' b' y) ∧ ∀ x ∈ T, ∀ y ∈ T', A x y

end Nurbs.Spec
