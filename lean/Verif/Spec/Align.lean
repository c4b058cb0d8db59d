import Verif.Spec.Surface

/-! # Specification for parameter alignment: jumps of a spline, directions of edges -/

namespace Nurbs.Spec

variable {K : Type}

/-- `x` is an interior knot of multiplicity greater than `p` (knots `i, …, i+p` are all equal to `x`): the spline of degree `p` may
jump there. -/
def JumpAt [LinearOrder K] [Zero K] [One K] (p : ℕ) (l : List K) (x : K) : Prop :=
  0 < x ∧ x < 1 ∧ ∃ i, i + p < l.length ∧ kn l i = x ∧ kn l (i + p) = x

/-- The coordinate of `v` along an axis. -/
def along (v : Vec3 K) : AlignAxis → K
  | .XAxis => v.x
  | .YAxis => v.y
  | .ZAxis => v.z

/-- `v` points in the positive direction of axis `A`: its component along `A` is positive and larger than the others in absolute value. -/
def Points [LinearOrder K] [Zero K] [Neg K] (A : AlignAxis) (v : Vec3 K) : Prop :=
  0 < along v A ∧ ∀ B, B ≠ A → along v B < along v A ∧ -along v B < along v A

/-- The vector from the first to the last control point in u, at row `j`. -/
def edgeU [Field K] (m : ℕ) (s : Surface K) (j : ℕ) : Vec3 K := (cp s (m - 1) j).head3 - (cp s 0 j).head3

/-- The vector from the first to the last control point in v, at column `i`. -/
def edgeV [Field K] (n : ℕ) (s : Surface K) (i : ℕ) : Vec3 K := (cp s i (n - 1)).head3 - (cp s i 0).head3

/-- Both u edges of the corner quadrilateral point along `A` and both v edges along `B`, up to the given signs. -/
def EdgesPoint [Field K] [LinearOrder K] (m n : ℕ) (A B : AlignAxis) (posU posV : Bool) (s : Surface K) : Prop :=
  (∀ j, j = 0 ∨ j = n - 1 → Points A (if posU then edgeU m s j else -edgeU m s j)) ∧
  ∀ i, i = 0 ∨ i = m - 1 → Points B (if posV then edgeV n s i else -edgeV n s i)

/-- Extent of the box of the four corner control points along an axis. -/
def cornerExtent [Field K] [LinearOrder K] (m n : ℕ) (s : Surface K) (A : AlignAxis) : K :=
  max (max (max (along (cp s 0 0).head3 A) (along (cp s (m - 1) 0).head3 A)) (along (cp s 0 (n - 1)).head3 A))
      (along (cp s (m - 1) (n - 1)).head3 A) -
    min (min (min (along (cp s 0 0).head3 A) (along (cp s (m - 1) 0).head3 A)) (along (cp s 0 (n - 1)).head3 A))
      (along (cp s (m - 1) (n - 1)).head3 A)

/-- Like `EdgesPoint`, but asking nothing of edges that are not longer than 1e-6. -/
def LongEdgesPoint [Field K] [LinearOrder K] (sqrt : K → K) (m n : ℕ) (A B : AlignAxis) (posU posV : Bool) (s : Surface K) : Prop :=
  (∀ j, j = 0 ∨ j = n - 1 → 1 / 10 ^ 6 < (edgeU m s j).norm sqrt → Points A (if posU then edgeU m s j else -edgeU m s j)) ∧
  ∀ i, i = 0 ∨ i = m - 1 → 1 / 10 ^ 6 < (edgeV n s i).norm sqrt → Points B (if posV then edgeV n s i else -edgeV n s i)

end Nurbs.Spec
