import Verif.Model.Curve
import Verif.Model.Grid

/-! # Model of `src/Surface/Surface.cpp` (everything except the file functions) -/

namespace Nurbs

/-- `class Surface` – Surface.hpp:10-17. -/
@[ext] structure Surface (K : Type) where
  DegreeU : Int := -1
  DegreeV : Int := -1
  KnotsU : KnotVector K := ⟨[]⟩
  KnotsV : KnotVector K := ⟨[]⟩
  ControlPoints : Grid (Vec4 K) := {}
  deriving DecidableEq, Repr

/-- `Surface::AlignAxis` – Surface.hpp:94-99. -/
inductive AlignAxis
  | XAxis
  | YAxis
  | ZAxis
  deriving DecidableEq, Repr

/-- Uninitialised `Vec4` storage; every cell is overwritten before it is read. -/
instance {K : Type} [Zero K] : Inhabited (Vec4 K) := ⟨0⟩

namespace Surface

section Part1
variable {K : Type} [Zero K] [One K] [Add K] [Sub K] [Mul K] [Div K] [Neg K] [NatCast K] [IntCast K] [LinearOrder K]


/-- `Surface::Evaluate` – Surface.cpp:371-399. -/
def Evaluate (s : Surface K) (u v : K) : M (Vec3 K) := do
  massert (u ≥ 0 ∧ u ≤ 1)
  massert (v ≥ 0 ∧ v ≤ 1)
  let index_span_u ← s.KnotsU.FindSpanIndex s.DegreeU u
  let index_span_v ← s.KnotsV.FindSpanIndex s.DegreeV v
  let basis_u ← BSplineBasis.EvaluateAt s.DegreeU s.KnotsU.Values index_span_u u
  let basis_v ← BSplineBasis.EvaluateAt s.DegreeV s.KnotsV.Values index_span_v v
  massert ((basis_u.length : Int) = s.DegreeU + 1)
  massert ((basis_v.length : Int) = s.DegreeV + 1)
  let index_pre_u := index_span_u - s.DegreeU
  let index_pre_v := index_span_v - s.DegreeV
  let result ← forLe 0 s.DegreeV (fun j (result : Vec4 K) => do
    let index_v := index_pre_v + j
    let tmp ← forLe 0 s.DegreeU (fun i (tmp : Vec4 K) => do
      let index_u := index_pre_u + i
      let point := ToHomo (← s.ControlPoints.Get index_u index_v)
      return tmp + (← vget basis_u i) • point) 0
    return result + (← vget basis_v j) • tmp) 0
  projectM result

/-- `Surface::HomogeneousDerivative` – Surface.cpp:1150-1185. -/
def HomogeneousDerivative (s : Surface K) (u v : K) (order_u order_v : Int) : M (Grid (Vec4 K)) := do
  massert (u ≥ 0 ∧ u ≤ 1)
  massert (v ≥ 0 ∧ v ≤ 1)
  let index_span_u ← s.KnotsU.FindSpanIndex s.DegreeU u
  let index_span_v ← s.KnotsV.FindSpanIndex s.DegreeV v
  let basis_u ← BSplineBasis.EvaluateAllAt s.DegreeU s.KnotsU.Values index_span_u u order_u
  let basis_v ← BSplineBasis.EvaluateAllAt s.DegreeV s.KnotsV.Values index_span_v v order_v
  massert (∀ row ∈ basis_u, (row.length : Int) = s.DegreeU + 1)
  massert (∀ row ∈ basis_v, (row.length : Int) = s.DegreeV + 1)
  let index_pre_u := index_span_u - s.DegreeU
  let index_pre_v := index_span_v - s.DegreeV
  let result ← Grid.mk' (order_u + 1) (order_v + 1) (0 : Vec4 K)
  forLe 0 order_v (fun l result =>
    forLe 0 order_u (fun k result =>
      forLe 0 s.DegreeV (fun j (result : Grid (Vec4 K)) => do
        let index_v := index_pre_v + j
        let tmp ← forLe 0 s.DegreeU (fun i (tmp : Vec4 K) => do
          let index_u := index_pre_u + i
          let point := ToHomo (← s.ControlPoints.Get index_u index_v)
          return tmp + (← mget basis_u k i) • point) 0
        result.Set k l ((← result.Get k l) + (← mget basis_v l j) • tmp)) result) result) result

/-- `Surface::EvaluateAll` – Surface.cpp:406-444.  `bi * Binomial(ov, j)` on line 436 is an `int`
product. -/
def EvaluateAll (s : Surface K) (u v : K) (order_u order_v : Int) : M (Grid (Vec3 K)) := do
  let homo_ders ← s.HomogeneousDerivative u v order_u order_v
  let result ← Grid.mk' (order_u + 1) (order_v + 1) (0 : Vec3 K)
  let Wders00 := (← homo_ders.Get 0 0).w
  forLe 0 order_u (fun ou result =>
    forLe 0 order_v (fun ov (result : Grid (Vec3 K)) => do
      let Aders := (← homo_ders.Get ou ov).head3
      let Aders ← forLe 1 ou (fun i (Aders : Vec3 K) => do
        let Wders := (← homo_ders.Get i 0).w
        return Aders - (((← Binomial ou i : Int) : K) * Wders) • (← result.Get (ou - i) ov)) Aders
      let Aders ← forLe 1 ov (fun j (Aders : Vec3 K) => do
        let Wders := (← homo_ders.Get 0 j).w
        return Aders - (((← Binomial ov j : Int) : K) * Wders) • (← result.Get ou (ov - j))) Aders
      let Aders ← forLe 1 ou (fun i (Aders : Vec3 K) => do
        let bi ← Binomial ou i
        forLe 1 ov (fun j (Aders : Vec3 K) => do
          let Wders := (← homo_ders.Get i j).w
          let bb ← int32 (bi * (← Binomial ov j))
          return Aders - ((bb : K) * Wders) • (← result.Get (ou - i) (ov - j))) Aders) Aders
      result.Set ou ov (← Aders.divM Wders00)) result) result

/-- `Surface::EvaluateDerivative` – Surface.cpp:401-404. -/
def EvaluateDerivative (s : Surface K) (u v : K) (order_u order_v : Int) : M (Vec3 K) := do
  (← s.EvaluateAll u v order_u order_v).Get order_u order_v

/-- `Surface::IsRational` – Surface.cpp:446-456. -/
def IsRational (s : Surface K) : Bool :=
  match s.ControlPoints.Values with
  | [] => false
  | cp :: rest => rest.any fun p => decide (p.w ≠ cp.w)

/-! ### Searches -/

/-- `Vec2` of Surface.cpp:464 -/
structure Vec2 (K : Type) where
  x : K
  y : K
  deriving DecidableEq, Repr

/-- `Mat2x2` of Surface.cpp:465, row by row -/
structure Mat2 (K : Type) where
  a : K
  b : K
  c : K
  d : K
  deriving DecidableEq, Repr

/-- `A * v` -/
def Mat2.mulVec (A : Mat2 K) (v : Vec2 K) : Vec2 K := ⟨A.a * v.x + A.b * v.y, A.c * v.x + A.d * v.y⟩
/-- `A * B` -/
def Mat2.mul (A B : Mat2 K) : Mat2 K :=
  ⟨A.a * B.a + A.b * B.c, A.a * B.b + A.b * B.d, A.c * B.a + A.d * B.c, A.c * B.b + A.d * B.d⟩
/-- `I - rho * s * y^T` -/
def Mat2.oneSubOuter (rho : K) (s y : Vec2 K) : Mat2 K :=
  ⟨1 - rho * s.x * y.x, -(rho * s.x * y.y), -(rho * s.y * y.x), 1 - rho * s.y * y.y⟩
/-- `A + rho * s * s^T` -/
def Mat2.addOuter (A : Mat2 K) (rho : K) (s : Vec2 K) : Mat2 K :=
  ⟨A.a + rho * s.x * s.x, A.b + rho * s.x * s.y, A.c + rho * s.y * s.x, A.d + rho * s.y * s.y⟩
/-- `v.dot(w)` -/
def Vec2.dot (v w : Vec2 K) : K := v.x * w.x + v.y * w.y

/-- The lambda `Ri` followed by `norm()` – Surface.cpp:467-470, 498, 533. -/
def residual (sqrt : K → K) (s : Surface K) (point : Vec3 K) (u v : K) : M K := do
  return ((← s.Evaluate u v) - point).norm sqrt

/-- The lambda `Ki` – Surface.cpp:472-478. -/
def searchGradient (s : Surface K) (point : Vec3 K) (u v : K) : M (Vec2 K) := do
  let ri := (← s.Evaluate u v) - point
  let Su ← s.EvaluateDerivative u v 1 0
  let Sv ← s.EvaluateDerivative u v 0 1
  return ⟨ri.dot Su, ri.dot Sv⟩

end Part1

section Part2
variable {K : Type} [Zero K] [One K] [Add K] [Sub K] [Mul K] [Div K] [Neg K] [NatCast K] [IntCast K] [LinearOrder K]

/-- Trial point of the line search – Surface.cpp:494-496, 504-506. -/
def trial2 (uv : Vec2 K) (Hk : Mat2 K) (gk : Vec2 K) (alpha : K) : Vec2 K :=
  let d := Hk.mulVec gk
  ⟨Search.clamp01 (uv.x - alpha * d.x), Search.clamp01 (uv.y - alpha * d.y)⟩

/-- The lambda `line_search` – Surface.cpp:484-508. -/
def lineSearch2 (norm : K → K → M K) (uv : Vec2 K) (current_residual : K) (Hk : Mat2 K) (gk : Vec2 K) :
    Nat → K → M (Vec2 K)
  | 0, alpha => .ok (trial2 uv Hk gk alpha)
  | n + 1, alpha => do
    let t := trial2 uv Hk gk alpha
    if (← norm t.x t.y) ≤ current_residual - Search.c1 * alpha * gk.dot (Hk.mulVec gk) then return t
    else lineSearch2 norm uv current_residual Hk gk n (alpha * Search.beta)

/-- One iteration – Surface.cpp:513-533; state (`uv`, `current_residual`, `Hk`). -/
def bfgsStep2 (norm : K → K → M K) (Ki : K → K → M (Vec2 K)) :
    Vec2 K × K × Mat2 K → M (Vec2 K × K × Mat2 K)
  | (uv, current_residual, Hk) => do
    let gk ← Ki uv.x uv.y
    let uv_last ← lineSearch2 norm uv current_residual Hk gk 20 1
    let sk : Vec2 K := ⟨uv_last.x - uv.x, uv_last.y - uv.y⟩
    let gk_new ← Ki uv_last.x uv_last.y
    let yk : Vec2 K := ⟨gk_new.x - gk.x, gk_new.y - gk.y⟩
    let yk_dot_sk := yk.dot sk
    let Hk := if Search.fabs yk_dot_sk < Search.tiny then ⟨1, 0, 0, 1⟩ else Hk
    let yk_dot_sk := if Search.fabs yk_dot_sk < Search.tiny then Search.fallback else yk_dot_sk
    let rho ← fdiv 1 yk_dot_sk
    let Hk := (((Mat2.oneSubOuter rho sk yk).mul Hk).mul (Mat2.oneSubOuter rho yk sk)).addOuter rho sk
    return (uv_last, ← norm uv_last.x uv_last.y, Hk)

/-- Main loop – Surface.cpp:510-534. -/
def bfgsLoop2 (norm : K → K → M K) (Ki : K → K → M (Vec2 K)) (epsilon maxIter : K) :
    Nat → Nat → Vec2 K × K × Mat2 K → M ((Vec2 K × K × Mat2 K) × Nat)
  | 0, _, _ => .error .diverge
  | fuel + 1, count, s =>
    if s.2.1 < epsilon then .ok (s, count)
    else if (count : K) ≥ maxIter then .ok (s, count)
    else do
      let s ← bfgsStep2 norm Ki s
      bfgsLoop2 norm Ki epsilon maxIter fuel (count + 1) s

/-- `Surface::SearchParameter` – Surface.cpp:458-536; last component: iterations done. -/
def SearchParameter (sqrt : K → K) (fuel : Nat) (s : Surface K) (point : Vec3 K)
    (init_u init_v epsilon max_iteration_count : K) : M ((K × K) × Nat) := do
  massert (init_u ≥ 0 ∧ init_u ≤ 1)
  massert (init_v ≥ 0 ∧ init_v ≤ 1)
  let (st, count) ← bfgsLoop2 (s.residual sqrt point) (s.searchGradient point) epsilon max_iteration_count
    fuel 0 (⟨init_u, init_v⟩, Search.dblMax, ⟨1, 0, 0, 1⟩)
  return ((st.1.x, st.1.y), count)

/-- `direction == 0 ? constant : val`, `direction == 1 ? constant : val` – Surface.cpp:545-546, 552-553,
625-626. -/
def onLine (direction : Int) (constant val : K) : K × K :=
  (if direction = 0 then constant else val, if direction = 1 then constant else val)

/-- The lambda `Ri` with `norm()` – Surface.cpp:543-548, 623-628. -/
def residualOn (sqrt : K → K) (s : Surface K) (point : Vec3 K) (direction : Int) (constant val : K) : M K :=
  let uv := onLine direction constant val
  s.residual sqrt point uv.1 uv.2

/-- The lambda `fi` – Surface.cpp:550-559. -/
def gradientOn (s : Surface K) (point : Vec3 K) (direction : Int) (constant val : K) : M K := do
  let uv := onLine direction constant val
  let ri := (← s.Evaluate uv.1 uv.2) - point
  let Cu ← if direction = 1 then s.EvaluateDerivative uv.1 uv.2 1 0 else s.EvaluateDerivative uv.1 uv.2 0 1
  return ri.dot Cu

/-- The returned pair – Surface.cpp:611-613, 659-661, 669-671. -/
def pairOn (direction : Int) (constant val : K) : K × K :=
  if direction = 0 then (constant, val) else (val, constant)

/-- `Surface::SearchParameterOn` – Surface.cpp:538-614 (`max_line_search_iterations = 0`, line 570). -/
def SearchParameterOn (sqrt : K → K) (fuel : Nat) (s : Surface K) (point : Vec3 K) (direction : Int)
    (constant init_value epsilon max_iteration_count : K) : M ((K × K) × Nat) := do
  let (st, count) ← Search.bfgsLoop1 (s.residualOn sqrt point direction constant)
    (s.gradientOn point direction constant) 0 epsilon max_iteration_count fuel 0 (init_value, Search.dblMax, 1)
  return (pairOn direction constant st.1, count)

/-- `Surface::BinarySearchParameterOn` – Surface.cpp:616-672 (`max_iteration_count` is a `Numeric`). -/
def BinarySearchParameterOn (sqrt : K → K) (fuel : Nat) (s : Surface K) (point : Vec3 K) (direction : Int)
    (constant epsilon max_iteration_count : K) : M ((K × K) × Nat) := do
  let (val, count) ← Search.binLoop (s.residualOn sqrt point direction constant) epsilon
    (fun count => decide ((count : K) < max_iteration_count)) fuel 0 0 1
  return (pairOn direction constant val, count)

/-! ### Knot insertion, removal, degree elevation -/

end Part2

section Part3
variable {K : Type} [Zero K] [One K] [Add K] [Sub K] [Mul K] [Div K] [Neg K] [NatCast K] [IntCast K] [LinearOrder K]

/-- `alpha_list` – Surface.cpp:680-686 and 724-730. -/
def alphaList (degree : Int) (knots : List K) (k : Int) (knot_value : K) : M (List K) := do
  let alpha_list ← vnew degree (0 : K)
  forLe (k - degree + 1) k (fun i alpha_list => do
    vset alpha_list (i - k + degree - 1)
      (← fdiv (knot_value - (← vget knots i)) ((← vget knots (i + degree)) - (← vget knots i)))) alpha_list

/-- `Surface::InsertKnotU(Numeric)` – Surface.cpp:675-701. -/
def InsertKnotU (s : Surface K) (knot_value : K) : M (Surface K) := do
  let (newKnots, k) ← s.KnotsU.InsertKnot knot_value 1
  let grid ← s.ControlPoints.InsertU k 0 0
  let alpha_list ← alphaList s.DegreeU s.KnotsU.Values k knot_value
  let grid ← forLt 0 grid.VCount (fun j grid =>
    forLe (k - s.DegreeU + 1) k (fun i (grid : Grid (Vec4 K)) => do
      let point_i := ToHomo (← s.ControlPoints.Get i j)
      let point_im1 := ToHomo (← s.ControlPoints.Get (i - 1) j)
      let alpha ← vget alpha_list (i - k + s.DegreeU - 1)
      grid.Set i j (← FromHomo (alpha • point_i + (1 - alpha) • point_im1))) grid) grid
  return { s with KnotsU := newKnots, ControlPoints := grid }

/-- `Surface::InsertKnotU(span)` – Surface.cpp:709-717. -/
def InsertKnotUList (s : Surface K) (knots_to_insert : List K) : M (Surface K) :=
  foldMList (fun knot (result : Surface K) => result.InsertKnotU knot) knots_to_insert s

/-- `Surface::InsertKnotU(Numeric, int)` – Surface.cpp:703-707. -/
def InsertKnotUTimes (s : Surface K) (knot_value : K) (times : Int) : M (Surface K) := do
  s.InsertKnotUList (← vnew times knot_value)

/-- `Surface::InsertKnotV(Numeric)` – Surface.cpp:719-746. -/
def InsertKnotV (s : Surface K) (knot_value : K) : M (Surface K) := do
  let (newKnots, k) ← s.KnotsV.InsertKnot knot_value 1
  let grid ← s.ControlPoints.InsertV k 0
  let alpha_list ← alphaList s.DegreeV s.KnotsV.Values k knot_value
  let grid ← forLt 0 grid.UCount (fun j grid =>
    forLe (k - s.DegreeV + 1) k (fun i (grid : Grid (Vec4 K)) => do
      let point_i := ToHomo (← s.ControlPoints.Get j i)
      let point_im1 := ToHomo (← s.ControlPoints.Get j (i - 1))
      let alpha ← vget alpha_list (i - k + s.DegreeV - 1)
      grid.Set j i (← FromHomo (alpha • point_i + (1 - alpha) • point_im1))) grid) grid
  return { s with KnotsV := newKnots, ControlPoints := grid }

/-- `Surface::InsertKnotV(span)` – Surface.cpp:754-762. -/
def InsertKnotVList (s : Surface K) (knots_to_insert : List K) : M (Surface K) :=
  foldMList (fun knot (result : Surface K) => result.InsertKnotV knot) knots_to_insert s

/-- `Surface::InsertKnotV(Numeric, int)` – Surface.cpp:748-752. -/
def InsertKnotVTimes (s : Surface K) (knot_value : K) (times : Int) : M (Surface K) := do
  s.InsertKnotVList (← vnew times knot_value)

/-- Loop of `RemoveKnotU` – Surface.cpp:770-779, by recursion on the number of remaining columns.
`none` is the early `return {*this, 0}`. -/
def removeLoopU (sqrt : K → K) (s : Surface K) (knot_remove : K) (times : Int) (tolerance : K) :
    Nat → Int → Surface K → Int → M (Option (Surface K × Int))
  | 0, _, result, t => .ok (some (result, t))
  | n + 1, it_v, result, t => do
    let points ← s.ControlPoints.GetV it_v
    let (knots, points, t_tmp) ← KnotRemoval sqrt result.KnotsU points result.DegreeU knot_remove times tolerance
    if t_tmp = 0 ∨ (it_v ≠ 0 ∧ t ≠ t_tmp) then return none
    let result := if it_v = s.ControlPoints.VCount - 1 then { result with KnotsU := knots } else result
    let grid ← result.ControlPoints.SetV it_v points
    removeLoopU sqrt s knot_remove times tolerance n (it_v + 1) { result with ControlPoints := grid } t_tmp

/-- `Surface::RemoveKnotU` – Surface.cpp:764-781. -/
def RemoveKnotU (sqrt : K → K) (s : Surface K) (knot_remove : K) (times : Int) (tolerance : K) :
    M (Surface K × Int) := do
  let grid ← Grid.mk' (s.ControlPoints.UCount - times) s.ControlPoints.VCount (0 : Vec4 K)
  match ← removeLoopU sqrt s knot_remove times tolerance s.ControlPoints.VCount.toNat 0
    { s with ControlPoints := grid } 0 with
  | none => return (s, 0)
  | some (result, t) => return (result, t)

/-- Loop of `RemoveKnotV` – Surface.cpp:789-798. -/
def removeLoopV (sqrt : K → K) (s : Surface K) (knot_remove : K) (times : Int) (tolerance : K) :
    Nat → Int → Surface K → Int → M (Option (Surface K × Int))
  | 0, _, result, t => .ok (some (result, t))
  | n + 1, it_u, result, t => do
    let points ← s.ControlPoints.GetU it_u
    let (knots, points, t_tmp) ← KnotRemoval sqrt result.KnotsV points result.DegreeV knot_remove times tolerance
    if t_tmp = 0 ∨ (it_u ≠ 0 ∧ t ≠ t_tmp) then return none
    let result := if it_u = s.ControlPoints.UCount - 1 then { result with KnotsV := knots } else result
    let grid ← result.ControlPoints.SetU it_u points
    removeLoopV sqrt s knot_remove times tolerance n (it_u + 1) { result with ControlPoints := grid } t_tmp

/-- `Surface::RemoveKnotV` – Surface.cpp:783-800. -/
def RemoveKnotV (sqrt : K → K) (s : Surface K) (knot_remove : K) (times : Int) (tolerance : K) :
    M (Surface K × Int) := do
  let grid ← Grid.mk' s.ControlPoints.UCount (s.ControlPoints.VCount - times) (0 : Vec4 K)
  match ← removeLoopV sqrt s knot_remove times tolerance s.ControlPoints.UCount.toNat 0
    { s with ControlPoints := grid } 0 with
  | none => return (s, 0)
  | some (result, t) => return (result, t)

/-- `Surface::ElevateDegreeU` – Surface.cpp:802-821. -/
def ElevateDegreeU (s : Surface K) (times : Int) : M (Surface K) := do
  let grid ← Grid.mk' (s.ControlPoints.UCount + times) s.ControlPoints.VCount (0 : Vec4 K)
  forLt 0 s.ControlPoints.VCount (fun it_v (result : Surface K) => do
    let points ← s.ControlPoints.GetV it_v
    let (knots, points, degree) ← NurbsDegreeElevation result.KnotsU points result.DegreeU times
    let result := if it_v = s.ControlPoints.VCount - 1 then { result with KnotsU := knots, DegreeU := degree }
      else result
    let grid ← result.ControlPoints.SetV it_v points
    return { result with ControlPoints := grid }) { s with ControlPoints := grid }

/-- `Surface::ElevateDegreeV` – Surface.cpp:823-842. -/
def ElevateDegreeV (s : Surface K) (times : Int) : M (Surface K) := do
  let grid ← Grid.mk' s.ControlPoints.UCount (s.ControlPoints.VCount + times) (0 : Vec4 K)
  forLt 0 s.ControlPoints.UCount (fun it_u (result : Surface K) => do
    let points ← s.ControlPoints.GetU it_u
    let (knots, points, degree) ← NurbsDegreeElevation result.KnotsV points result.DegreeV times
    let result := if it_u = s.ControlPoints.UCount - 1 then { result with KnotsV := knots, DegreeV := degree }
      else result
    let grid ← result.ControlPoints.SetU it_u points
    return { result with ControlPoints := grid }) { s with ControlPoints := grid }

/-- `Surface::Transform` – Surface.cpp:844-852. -/
def Transform (s : Surface K) (R : Mat3 K) : Surface K :=
  { s with ControlPoints :=
      { s.ControlPoints with Values := s.ControlPoints.Values.map (Curve.transformPoint R) } }

/-! ### AlignParameterDomain -/

end Part3

section Part4
variable {K : Type} [Field K] [LinearOrder K]

/-- `GetAxisValue` – Surface.cpp:974-986; also `vec.normalized().dot(axis_vector)` up to the division by the
norm (Surface.cpp:920-934). -/
def axisValue (p : Vec3 K) : AlignAxis → K
  | .XAxis => p.x
  | .YAxis => p.y
  | .ZAxis => p.z

/-- `std::min({a,b,c,d})` -/
def min4 (a b c d : K) : K := min (min (min a b) c) d
/-- `std::max({a,b,c,d})` -/
def max4 (a b c d : K) : K := max (max (max a b) c) d

/-- Extents of the corner box – Surface.cpp:875-892. -/
def cornerExtents (S00 S10 S01 S11 : Vec3 K) : List (K × AlignAxis) :=
  [(max4 S00.x S10.x S01.x S11.x - min4 S00.x S10.x S01.x S11.x, .XAxis),
   (max4 S00.y S10.y S01.y S11.y - min4 S00.y S10.y S01.y S11.y, .YAxis),
   (max4 S00.z S10.z S01.z S11.z - min4 S00.z S10.z S01.z S11.z, .ZAxis)]

/-- Insertion into a list sorted by decreasing first component. -/
def insertDesc (x : K × AlignAxis) : List (K × AlignAxis) → List (K × AlignAxis)
  | [] => [x]
  | y :: l => if x.1 > y.1 then x :: y :: l else y :: insertDesc x l

/-- `std::sort` with `a.first > b.first` – Surface.cpp:895-900.  libstdc++ uses insertion sort for three
elements; for ties any order is allowed by the standard, the model keeps the input order. -/
def sortDesc (l : List (K × AlignAxis)) : List (K × AlignAxis) :=
  l.foldl (fun acc x => insertDesc x acc) []

/-- `compute_angle` – Surface.cpp:918-937. -/
def computeAngle (sqrt acos : K → K) (vec : Vec3 K) (axis : AlignAxis) : M K := do
  return acos |← fdiv (axisValue vec axis) (vec.norm sqrt)|

/-- `VectorInfo` – Surface.cpp:909-915. -/
structure VectorInfo (K : Type) where
  vector : Vec3 K
  angle1 : K
  angle2 : K

/-- `add_vector_info` – Surface.cpp:940-950. -/
def addVectorInfo (sqrt acos : K → K) (a1 a2 : AlignAxis) (vec : Vec3 K) (vectors : List (VectorInfo K)) :
    M (List (VectorInfo K)) :=
  if vec.norm sqrt > eps6 then do
    let angle1 ← computeAngle sqrt acos vec a1
    let angle2 ← computeAngle sqrt acos vec a2
    return vectors ++ [⟨vec, angle1, angle2⟩]
  else .ok vectors

/-- `(x >= 0) ? 1 : -1` -/
def signOf (x : K) : Int := if x ≥ 0 then 1 else -1

/-- Surface.cpp:967-1018: axes and signs when fewer than four vectors are available. -/
def votedAxes (a1 a2 : AlignAxis) (vectors : List (VectorInfo K)) : AlignAxis × AlignAxis × Int × Int :=
  let (count1, count2, du, dv) := vectors.foldl
    (fun (s : Nat × Nat × K × K) info =>
      if info.angle1 < info.angle2 then (s.1 + 1, s.2.1, s.2.2.1 + axisValue info.vector a1, s.2.2.2)
      else (s.1, s.2.1 + 1, s.2.2.1, s.2.2.2 + axisValue info.vector a2)) (0, 0, 0, 0)
  if count1 ≥ count2 then (a1, a2, signOf du, signOf dv) else (a2, a1, signOf dv, signOf du)

/-- `GetDominantAxis` – Surface.cpp:1022-1052. -/
def dominantAxis (vec : Vec3 K) : AlignAxis × Int :=
  let max_abs := max (max |vec.x| |vec.y|) |vec.z|
  let axis := if max_abs = |vec.x| then AlignAxis.XAxis
    else if max_abs = |vec.y| then AlignAxis.YAxis else AlignAxis.ZAxis
  (axis, signOf (axisValue vec axis))

/-- `std::swap(grid.Get(a,b), grid.Get(c,d))` -/
def swapCells (grid : Grid (Vec4 K)) (a b c d : Int) : M (Grid (Vec4 K)) := do
  let p ← grid.Get a b
  let q ← grid.Get c d
  (← grid.Set a b q).Set c d p

/-- Exchange of u and v – Surface.cpp:1093-1111. -/
def swapUV (s : Surface K) : M (Surface K) := do
  let grid := s.ControlPoints
  let transposed ← Grid.mk' grid.VCount grid.UCount (0 : Vec4 K)
  let transposed ← forLt 0 grid.UCount (fun u t =>
    forLt 0 grid.VCount (fun v (t : Grid (Vec4 K)) => do t.Set v u (← grid.Get u v)) t) transposed
  return ⟨s.DegreeV, s.DegreeU, s.KnotsV, s.KnotsU, transposed⟩

/-- Reversal of u – Surface.cpp:1113-1127. -/
def reverseU (s : Surface K) : M (Surface K) := do
  let grid := s.ControlPoints
  let grid ← forLt 0 grid.VCount (fun v g =>
    forLt 0 (grid.UCount.tdiv 2) (fun u g => swapCells g u v (grid.UCount - 1 - u) v) g) grid
  return { s with KnotsU := s.KnotsU.Reverse, ControlPoints := grid }

/-- Reversal of v – Surface.cpp:1129-1143. -/
def reverseV (s : Surface K) : M (Surface K) := do
  let grid := s.ControlPoints
  let grid ← forLt 0 grid.UCount (fun u g =>
    forLt 0 (grid.VCount.tdiv 2) (fun v g => swapCells g u v u (grid.VCount - 1 - v)) g) grid
  return { s with KnotsV := s.KnotsV.Reverse, ControlPoints := grid }

/-- Surface.cpp:1059-1143: apply the swap and reversals for the detected axes and signs. -/
def applyAlign (s : Surface K) (u_axis v_axis current_u current_v : AlignAxis) (u_sign v_sign : Int) :
    M (Surface K) := do
  if current_u ≠ u_axis ∧ ¬ (current_v = u_axis ∧ current_u = v_axis) then return s
  let need_swap := current_u ≠ u_axis
  let (cu, cv, us, vs) := if need_swap then (current_v, current_u, v_sign, u_sign)
    else (current_u, current_v, u_sign, v_sign)
  let reverse_u := cu = u_axis ∧ us < 0
  let reverse_v := cv = v_axis ∧ vs < 0
  let s ← if need_swap then s.swapUV else pure s
  let s ← if reverse_u then s.reverseU else pure s
  if reverse_v then s.reverseV else pure s

/-- `Surface::AlignParameterDomain` – Surface.cpp:854-1147. -/
def AlignParameterDomain (sqrt acos : K → K) (s : Surface K) (u_axis v_axis : AlignAxis) : M (Surface K) := do
  let g := s.ControlPoints
  if g.UCount < 2 ∨ g.VCount < 2 then return s
  let u_max := g.UCount - 1
  let v_max := g.VCount - 1
  let S00 := (← g.Get 0 0).head3
  let S10 := (← g.Get u_max 0).head3
  let S01 := (← g.Get 0 v_max).head3
  let S11 := (← g.Get u_max v_max).head3
  let extents := sortDesc (cornerExtents S00 S10 S01 S11)
  let major_axis1 := (← vget extents 0).2
  let major_axis2 := (← vget extents 1).2
  let vectors ← addVectorInfo sqrt acos major_axis1 major_axis2 (S10 - S00) []
  let vectors ← addVectorInfo sqrt acos major_axis1 major_axis2 (S01 - S00) vectors
  let vectors ← addVectorInfo sqrt acos major_axis1 major_axis2 (S11 - S10) vectors
  let vectors ← addVectorInfo sqrt acos major_axis1 major_axis2 (S11 - S01) vectors
  if vectors.isEmpty then return s
  if vectors.length < 4 then
    let (cu, cv, us, vs) := votedAxes major_axis1 major_axis2 vectors
    s.applyAlign u_axis v_axis cu cv us vs
  else
    let (cu, us) := dominantAxis (← vget vectors 0).vector
    let (cv, vs) := dominantAxis (← vget vectors 1).vector
    s.applyAlign u_axis v_axis cu cv us vs

end Part4

end Surface
end Nurbs
