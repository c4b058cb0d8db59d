import Verif.Spec.Surface

/-! # Differences of the control points of a surface -/

namespace Nurbs.Spec

variable {K : Type} [Field K] [LinearOrder K]

/-- The vectors `p (P_{i+1,j} - P_{i,j}) / (U[i+p+1] - U[i+1])` of a surface with `m × n` control points, which control its partial derivative
in `u`, have a component along `a` of at most `b` (those that belong to different knots; the others are on no span). -/
def SpeedU (p m n : ℕ) (s : Surface K) (a : Vec3 K) (b : K) : Prop :=
  ∀ i, i + 1 < m → ∀ j < n, kn s.KnotsU.Values (i + 1) < kn s.KnotsU.Values (i + p + 1) →
    |(p : K) / (kn s.KnotsU.Values (i + p + 1) - kn s.KnotsU.Values (i + 1)) *
      (form a (cp s (i + 1) j).x (cp s (i + 1) j).y (cp s (i + 1) j).z - form a (cp s i j).x (cp s i j).y (cp s i j).z)| ≤ b

/-- The same in `v`. -/
def SpeedV (q m n : ℕ) (s : Surface K) (a : Vec3 K) (b : K) : Prop :=
  ∀ i < m, ∀ j, j + 1 < n → kn s.KnotsV.Values (j + 1) < kn s.KnotsV.Values (j + q + 1) →
    |(q : K) / (kn s.KnotsV.Values (j + q + 1) - kn s.KnotsV.Values (j + 1)) *
      (form a (cp s i (j + 1)).x (cp s i (j + 1)).y (cp s i (j + 1)).z - form a (cp s i j).x (cp s i j).y (cp s i j).z)| ≤ b

end Nurbs.Spec
