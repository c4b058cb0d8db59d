import Verif.Spec.Curve
import Verif.Model.Surface

/-! # Specification of NURBS surfaces

Only the data structures `Surface` and `Grid` are taken from the model; no function of the model is used. -/

namespace Nurbs.Spec

variable {K : Type} [Field K] [LinearOrder K]

/-- Control point `(i, j)`, `i` in the u direction (only used in range). -/
def cp {K : Type} [Zero K] (s : Surface K) (i j : ℕ) : Vec4 K :=
  s.ControlPoints.Values.getD (j * s.ControlPoints.UCount.toNat + i) ⟨0, 0, 0, 0⟩

/-- A well-formed NURBS surface of degrees `p`, `q` with `m × n` control points: clamped knots in both
directions, matching numbers of control points, storage of exactly `m·n` points and positive weights. -/
structure WFSurface (p q m n : ℕ) (s : Surface K) : Prop where
  degreeU : s.DegreeU = p
  degreeV : s.DegreeV = q
  clampedU : Clamped p s.KnotsU.Values
  clampedV : Clamped q s.KnotsV.Values
  uCount : s.ControlPoints.UCount = m
  vCount : s.ControlPoints.VCount = n
  knotsU : s.KnotsU.Values.length = m + p + 1
  knotsV : s.KnotsV.Values.length = n + q + 1
  storage : s.ControlPoints.Values.length = n * m
  weights : ∀ i < m, ∀ j < n, 0 < (cp s i j).w

/-- `Σ_i Σ_j N_{i,p}(u) N_{j,q}(v) w_ij f(P_ij)` over all control points. -/
def swsum (p q m n : ℕ) (s : Surface K) (u v : K) (f : Vec4 K → K) : K :=
  ∑ i ∈ Finset.range m, ∑ j ∈ Finset.range n,
    N (kn s.KnotsU.Values) u p i * N (kn s.KnotsV.Values) v q j * (cp s i j).w * f (cp s i j)

/-- The textbook tensor-product NURBS point. -/
def surfPoint (p q m n : ℕ) (s : Surface K) (u v : K) : Vec3 K :=
  ⟨swsum p q m n s u v (·.x) / swsum p q m n s u v (fun _ => 1),
    swsum p q m n s u v (·.y) / swsum p q m n s u v (fun _ => 1),
    swsum p q m n s u v (·.z) / swsum p q m n s u v (fun _ => 1)⟩

/-- The curve of the control points `(·, j)`. -/
def rowCurve {K : Type} [Zero K] (m : ℕ) (s : Surface K) (j : ℕ) : Curve K :=
  ⟨s.DegreeU, s.KnotsU, (List.range m).map fun i => cp s i j⟩

/-- The curve of the control points `(i, ·)`. -/
def colCurve {K : Type} [Zero K] (n : ℕ) (s : Surface K) (i : ℕ) : Curve K :=
  ⟨s.DegreeV, s.KnotsV, (List.range n).map fun j => cp s i j⟩

end Nurbs.Spec
