import Verif.Model.Vec
import Mathlib.Algebra.Order.Field.Basic

/-! # Vocabulary for the parameter searches -/

namespace Nurbs.Spec
variable {K : Type} [Field K]

/-- Euclidean distance of two points, for a given square-root function. -/
def distance (sqrt : K → K) (a b : Vec3 K) : K := sqrt ((a.x - b.x) ^ 2 + (a.y - b.y) ^ 2 + (a.z - b.z) ^ 2)

/-- On `[0,1]` the function falls strictly until `m` and rises strictly from `m` on. -/
def Valley [LinearOrder K] (f : K → K) (m : K) : Prop :=
  0 ≤ m ∧ m ≤ 1 ∧ (∀ x y, 0 ≤ x → x < y → y ≤ m → f y < f x) ∧ (∀ x y, m ≤ x → x < y → y ≤ 1 → f x < f y)

/-- The square of the distance, which needs no root. -/
def distSq (a b : Vec3 K) : K := (a.x - b.x) ^ 2 + (a.y - b.y) ^ 2 + (a.z - b.z) ^ 2

end Nurbs.Spec
