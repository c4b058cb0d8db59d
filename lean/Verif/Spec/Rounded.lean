import Verif.Spec.Curve
import Verif.Spec.Surface
import Verif.Model.Rounded
import Mathlib.Algebra.Order.Group.Unbundled.Abs

/-! # What rounded data mean exactly

Only the number type `Fl` and the data structures are taken from the model. -/

namespace Nurbs.Spec

variable {K : Type} [Field K] [LinearOrder K] {R : Rounding K}

/-- The exact numbers of a list of rounded numbers. -/
def exactList (l : List (Fl R)) : List K := l.map Fl.val

/-- The exact coordinates of a control point. -/
def exactPoint (P : Vec4 (Fl R)) : Vec4 K := ⟨P.x.val, P.y.val, P.z.val, P.w.val⟩

/-- The exact coordinates of a point. -/
def exactVec (P : Vec3 (Fl R)) : Vec3 K := ⟨P.x.val, P.y.val, P.z.val⟩

/-- The curve with the same degree, knots and control points, as an object of exact arithmetic. -/
def exactCurve (c : Curve (Fl R)) : Curve K :=
  ⟨c.Degree, ⟨exactList c.Knots.Values⟩, c.ControlPoints.map exactPoint⟩

/-- The surface with the same degrees, knots and control points, as an object of exact arithmetic. -/
def exactSurface (s : Surface (Fl R)) : Surface K :=
  ⟨s.DegreeU, s.DegreeV, ⟨exactList s.KnotsU.Values⟩, ⟨exactList s.KnotsV.Values⟩,
    ⟨s.ControlPoints.UCount, s.ControlPoints.VCount, s.ControlPoints.Values.map exactPoint⟩⟩

/-- All weights lie in `[lo, hi]` and all coordinates in `[-B, B]`. -/
def CurveBounds (c : Curve K) (lo hi B : K) : Prop :=
  ∀ i < c.ControlPoints.length, lo ≤ (pt c.ControlPoints i).w ∧ (pt c.ControlPoints i).w ≤ hi ∧
    |(pt c.ControlPoints i).x| ≤ B ∧ |(pt c.ControlPoints i).y| ≤ B ∧ |(pt c.ControlPoints i).z| ≤ B

/-- The two curves differ by at most `e` in every coordinate, everywhere on `[0,1]`. -/
def CurvesWithin (p : ℕ) (c c' : Curve K) (e : K) : Prop :=
  ∀ x, 0 ≤ x → x ≤ 1 → |(nurbsPoint p c' x).x - (nurbsPoint p c x).x| ≤ e ∧
    |(nurbsPoint p c' x).y - (nurbsPoint p c x).y| ≤ e ∧ |(nurbsPoint p c' x).z - (nurbsPoint p c x).z| ≤ e

/-- All weights of an `m × n` surface lie in `[lo, hi]` and all coordinates in `[-B, B]`. -/
def SurfaceBounds (m n : ℕ) (s : Surface K) (lo hi B : K) : Prop :=
  ∀ i < m, ∀ j < n, lo ≤ (cp s i j).w ∧ (cp s i j).w ≤ hi ∧ |(cp s i j).x| ≤ B ∧ |(cp s i j).y| ≤ B ∧ |(cp s i j).z| ≤ B

/-- The `m × n` surface `s` and the `m' × n'` surface `s'` differ by at most `e` in every coordinate, everywhere on
`[0,1]²`. -/
def SurfacesWithin (p q m n m' n' : ℕ) (s s' : Surface K) (e : K) : Prop :=
  ∀ x y, 0 ≤ x → x ≤ 1 → 0 ≤ y → y ≤ 1 →
    |(surfPoint p q m' n' s' x y).x - (surfPoint p q m n s x y).x| ≤ e ∧
    |(surfPoint p q m' n' s' x y).y - (surfPoint p q m n s x y).y| ≤ e ∧
    |(surfPoint p q m' n' s' x y).z - (surfPoint p q m n s x y).z| ≤ e

/-- The error factor of `m` roundings in a row: `(1 - u)^-m - 1`, about `m u`. -/
def errFactor (R : Rounding K) (m : ℕ) : K := ((1 - R.u) ^ m)⁻¹ - 1

end Nurbs.Spec
