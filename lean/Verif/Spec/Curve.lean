import Verif.Spec.Basis
import Verif.Model.Curve
import Mathlib.Algebra.BigOperators.Group.Finset.Basic

/-! # Specification of NURBS curves

Only the data structure `Curve` is taken from the model; no function of the model is used. -/

namespace Nurbs.Spec

variable {K : Type} [Field K] [LinearOrder K]

/-- `i`-th control point (only used in range). -/
def pt {K : Type} [Zero K] (l : List (Vec4 K)) (i : ℕ) : Vec4 K := l.getD i ⟨0, 0, 0, 0⟩

/-- A well-formed NURBS curve of degree `p`: clamped knots, matching number of control points and
positive weights. -/
structure WFCurve (p : ℕ) (c : Curve K) : Prop where
  degree : c.Degree = p
  clamped : Clamped p c.Knots.Values
  count : c.Knots.Values.length = c.ControlPoints.length + p + 1
  weights : ∀ i < c.ControlPoints.length, 0 < (pt c.ControlPoints i).w

/-- `Σ_i N_{i,p}(x) w_i f(P_i)` over all control points. -/
def wsum (p : ℕ) (c : Curve K) (x : K) (f : Vec4 K → K) : K :=
  ∑ i ∈ Finset.range c.ControlPoints.length,
    N (kn c.Knots.Values) x p i * (pt c.ControlPoints i).w * f (pt c.ControlPoints i)

/-- The textbook NURBS point `Σ N w P / Σ N w`. -/
def nurbsPoint (p : ℕ) (c : Curve K) (x : K) : Vec3 K :=
  ⟨wsum p c x (·.x) / wsum p c x (fun _ => 1), wsum p c x (·.y) / wsum p c x (fun _ => 1),
    wsum p c x (·.z) / wsum p c x (fun _ => 1)⟩

/-- Matrix times vector, written out. -/
def matApply (R : Mat3 K) (v : Vec3 K) : Vec3 K :=
  ⟨R.r0.x * v.x + R.r0.y * v.y + R.r0.z * v.z, R.r1.x * v.x + R.r1.y * v.y + R.r1.z * v.z,
    R.r2.x * v.x + R.r2.y * v.y + R.r2.z * v.z⟩

/-- Value of the linear form with coefficients `a` at the point `v`. -/
def form (a : Vec3 K) (x y z : K) : K := a.x * x + a.y * y + a.z * z

end Nurbs.Spec
