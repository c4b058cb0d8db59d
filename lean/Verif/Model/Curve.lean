import Verif.Model.Basis
import Verif.Model.BoundingBox
import Verif.Model.KnotRemoval
import Verif.Model.DegreeAlgo
import Verif.Model.Search

/-! # Model of `src/Curve/Curve.cpp` (everything except the file functions, see `Serialization.lean`) -/

namespace Nurbs

/-- `class Curve` – Curve.hpp:16-21. -/
@[ext] structure Curve (K : Type) where
  Degree : Int := -1
  Knots : KnotVector K := ⟨[]⟩
  ControlPoints : List (Vec4 K) := []
  deriving DecidableEq, Repr

namespace Curve

section Part1
variable {K : Type} [Zero K] [One K] [Add K] [Sub K] [Mul K] [Div K] [Neg K] [NatCast K] [IntCast K] [LinearOrder K]


/-- `Curve::Evaluate` – Curve.cpp:283-296. -/
def Evaluate (c : Curve K) (x : K) : M (Vec3 K) := do
  massert (x ≥ 0 ∧ x ≤ 1)
  let index_span ← c.Knots.FindSpanIndex c.Degree x
  let basis ← BSplineBasis.EvaluateAt c.Degree c.Knots.Values index_span x
  massert ((basis.length : Int) = c.Degree + 1)
  let result ← forLe 0 c.Degree (fun i (result : Vec4 K) => do
    let point := ToHomo (← vget c.ControlPoints (index_span - c.Degree + i))
    return result + (← vget basis i) • point) 0
  projectM result

/-- `Curve::HomogeneousDerivative` – Curve.cpp:299-318.  (`basis.cols()` on line 305 is read off the
rows.) -/
def HomogeneousDerivative (c : Curve K) (x : K) (order : Int) : M (List (Vec4 K)) := do
  massert (x ≥ 0 ∧ x ≤ 1)
  let index_span ← c.Knots.FindSpanIndex c.Degree x
  let basis ← BSplineBasis.EvaluateAllAt c.Degree c.Knots.Values index_span x order
  massert ((basis.length : Int) = order + 1)
  massert (∀ row ∈ basis, (row.length : Int) = c.Degree + 1)
  let result ← vnew (order + 1) (0 : Vec4 K)
  forLe 0 order (fun k result => do
    let tmp ← forLe 0 c.Degree (fun i (tmp : Vec4 K) => do
      let point := ToHomo (← vget c.ControlPoints (index_span - c.Degree + i))
      return tmp + (← mget basis k i) • point) 0
    vset result k tmp) result

/-- `Curve::EvaluateAll` – Curve.cpp:325-343. -/
def EvaluateAll (c : Curve K) (x : K) (order : Int) : M (List (Vec3 K)) := do
  let homo_ders ← c.HomogeneousDerivative x order
  let result ← vnew (order + 1) (0 : Vec3 K)
  let Wders0 := (← vget homo_ders 0).w
  forLe 0 order (fun k result => do
    let Aders := (← vget homo_ders k).head3
    let Aders ← forLe 1 k (fun i (Aders : Vec3 K) => do
      let Wders := (← vget homo_ders i).w
      return Aders - (((← Binomial k i : Int) : K) * Wders) • (← vget result (k - i))) Aders
    vset result k (← Aders.divM Wders0)) result

/-- `Curve::EvaluateDerivative` – Curve.cpp:320-323. -/
def EvaluateDerivative (c : Curve K) (x : K) (order : Int) : M (Vec3 K) := do
  vget (← c.EvaluateAll x order) order

/-- `Curve::IsRational` – Curve.cpp:345-357. -/
def IsRational (c : Curve K) : Bool :=
  match c.ControlPoints with
  | [] => false
  | cp :: rest => rest.any fun p => decide (p.w ≠ cp.w)

/-- The lambda `Ri` followed by `norm()` – Curve.cpp:361, 387, 418 and 428-431. -/
def residual (sqrt : K → K) (c : Curve K) (point : Vec3 K) (u : K) : M K := do
  return ((← c.Evaluate u) - point).norm sqrt

/-- The lambda `fi` – Curve.cpp:363-368. -/
def searchGradient (c : Curve K) (point : Vec3 K) (u : K) : M K := do
  let ri := (← c.Evaluate u) - point
  let Cu ← c.EvaluateDerivative u 1
  return ri.dot Cu

end Part1

section Part2
variable {K : Type} [Zero K] [One K] [Add K] [Sub K] [Mul K] [Div K] [Neg K] [NatCast K] [IntCast K] [LinearOrder K]

/-- `Curve::SearchParameter` – Curve.cpp:359-421; `fuel` bounds the main loop.  The second component is
the number of iterations done. -/
def SearchParameter (sqrt : K → K) (fuel : Nat) (c : Curve K) (point : Vec3 K)
    (init epsilon max_iteration_count : K) : M (K × Nat) := do
  let (s, count) ← Search.bfgsLoop1 (c.residual sqrt point) (c.searchGradient point) 20 epsilon
    max_iteration_count fuel 0 (init, Search.dblMax, 1)
  return (s.1, count)

/-- `Curve::BinarySearchParameter` – Curve.cpp:423-469.  `max_iteration_count` is an `int`, so
`max_iteration_count + 1` evaluations of the loop condition are enough fuel. -/
def BinarySearchParameter (sqrt : K → K) (c : Curve K) (point : Vec3 K) (epsilon : K)
    (max_iteration_count : Int) : M (K × Nat) :=
  Search.binLoop (c.residual sqrt point) epsilon (fun count => decide ((count : Int) < max_iteration_count))
    (max_iteration_count.toNat + 1) 0 0 1

end Part2

section Part3
variable {K : Type} [Zero K] [One K] [Add K] [Sub K] [Mul K] [Div K] [Neg K] [NatCast K] [IntCast K] [LinearOrder K]

/-- `Curve::InsertKnot(Numeric)` – Curve.cpp:471-485. -/
def InsertKnot (c : Curve K) (knot_value : K) : M (Curve K) := do
  let (newKnots, k) ← c.Knots.InsertKnot knot_value 1
  let pts ← vinsert c.ControlPoints k 1 (0 : Vec4 K)
  let knots := c.Knots.Values
  let pts ← forLe (k - c.Degree + 1) k (fun i pts => do
    let alpha ← fdiv (knot_value - (← vget knots i)) ((← vget knots (i + c.Degree)) - (← vget knots i))
    let point_i := ToHomo (← vget c.ControlPoints i)
    let point_im1 := ToHomo (← vget c.ControlPoints (i - 1))
    vset pts i (← FromHomo (alpha • point_i + (1 - alpha) • point_im1))) pts
  return ⟨c.Degree, newKnots, pts⟩

/-- Inner loop body – Curve.cpp:508-512; state (`points`, `point_last`). -/
def insertListInner (degree : Int) (knots : List K) (knot_value : K) (i : Int) :
    List (Vec4 K) × Vec4 K → M (List (Vec4 K) × Vec4 K)
  | (points, point_last) => do
    let alpha ← fdiv (knot_value - (← vget knots i)) ((← vget knots (i + degree)) - (← vget knots i))
    let point_i := ToHomo (← vget points i)
    let point_new ← FromHomo (alpha • point_i + (1 - alpha) • point_last)
    let points ← vset points i point_new
    return (points, point_i)

/-- Loop body of `InsertKnot(span)` – Curve.cpp:503-514. -/
def insertListStep (knot_value : K) (c : Curve K) : M (Curve K) := do
  let knots := c.Knots.Values
  let k ← c.Knots.FindSpanIndex c.Degree knot_value
  let pk ← vget c.ControlPoints k
  let points ← vinsert c.ControlPoints k 1 pk
  let point_last := ToHomo (← vget points (k - c.Degree))
  let (points, _) ← forLe (k - c.Degree + 1) k (insertListInner c.Degree knots knot_value) (points, point_last)
  let knots ← vinsert knots (k + 1) 1 knot_value
  return ⟨c.Degree, ⟨knots⟩, points⟩

/-- `Curve::InsertKnot(std::span<Numeric>)` – Curve.cpp:494-517. -/
def InsertKnotList (c : Curve K) (knots_to_insert : List K) : M (Curve K) :=
  foldMList insertListStep knots_to_insert c

/-- `Curve::InsertKnot(Numeric, int)` – Curve.cpp:487-492. -/
def InsertKnotTimes (c : Curve K) (knot_value : K) (times : Int) : M (Curve K) := do
  c.InsertKnotList (← vnew times knot_value)

/-- `Curve::RemoveKnot` – Curve.cpp:519-529. -/
def RemoveKnot (sqrt : K → K) (c : Curve K) (knot_remove : K) (times : Int) (tolerance : K) :
    M (Curve K × Int) := do
  massert (knot_remove > 0 ∧ knot_remove < 1)
  massert (times > 0)
  let (knots, points, t) ← KnotRemoval sqrt c.Knots c.ControlPoints c.Degree knot_remove times tolerance
  return (⟨c.Degree, knots, points⟩, t)

/-- `Curve::ElevateDegree` – Curve.cpp:531-538. -/
def ElevateDegree (c : Curve K) (times : Int) : M (Curve K) := do
  massert (times ≥ 1)
  let (knots, points, degree) ← NurbsDegreeElevation c.Knots c.ControlPoints c.Degree times
  return ⟨degree, knots, points⟩

/-- `point.head<3>() = R * point.head<3>()` – Curve.cpp:545, Surface.cpp:849. -/
def transformPoint (R : Mat3 K) (p : Vec4 K) : Vec4 K :=
  let q := R.mulVec p.head3
  ⟨q.x, q.y, q.z, p.w⟩

/-- `Curve::Transform` – Curve.cpp:540-548. -/
def Transform (c : Curve K) (R : Mat3 K) : Curve K :=
  { c with ControlPoints := c.ControlPoints.map (transformPoint R) }

/-- First loop of `ExtractBezier` – Curve.cpp:552-563. -/
def extractInsert (Degree : Int) : List (KnotPair K) → Curve K → M (Curve K) :=
  foldMList fun item bezier =>
    let u := item.Value
    let mult := item.Multiplicity
    if u ≤ 0 ∨ u ≥ 1 then .ok bezier
    else if mult ≥ Degree then .ok bezier
    else bezier.InsertKnotTimes u (Degree - mult)

/-- Second loop of `ExtractBezier` – Curve.cpp:570-581.  `i + p < ctrl.size()` compares as unsigned, so a
negative `i + p` ends the loop.  The fuel (number of points + 1) suffices whenever `p > 0`; with `p = 0` the
C++ loop does not end and the outcome is `diverge`. -/
def extractSegments (p : Int) (ctrl : List (Vec4 K)) : Nat → Int → M (List (Curve K))
  | 0, _ => .error .diverge
  | fuel + 1, i =>
    if 0 ≤ i + p ∧ i + p < (ctrl.length : Int) then do
      let knots ← KnotVector.Uniform p (2 * p + 2)
      let pts ← vnew (p + 1) (0 : Vec4 K)
      let pts ← forLe 0 p (fun k pts => do vset pts k (← vget ctrl (i + k))) pts
      let rest ← extractSegments p ctrl fuel (i + p)
      return ⟨p, knots, pts⟩ :: rest
    else .ok []

/-- `Curve::ExtractBezier` – Curve.cpp:550-583. -/
def ExtractBezier (c : Curve K) : M (List (Curve K)) := do
  let bezier ← extractInsert c.Degree c.Knots.GetKnotPairs c
  extractSegments bezier.Degree bezier.ControlPoints (bezier.ControlPoints.length + 1) 0

end Part3

section Part4
variable {K : Type} [Zero K] [One K] [Add K] [Sub K] [Mul K] [Div K] [Neg K] [NatCast K] [IntCast K] [LinearOrder K]

/-- The de Casteljau triangle – Curve.cpp:643-656; `b` is the scratch matrix `b_view`. -/
def casteljau (p : Int) (ctrlPts : List (Vec4 K)) (b : List (List (Vec4 K))) : M (List (List (Vec4 K))) := do
  let b ← forLe 0 p (fun s b => do mset b 0 s (← vget ctrlPts s)) b
  forLe 1 p (fun r b =>
    forLe 0 (p - r) (fun s b => do
      mset b r s ((1 / 2 : K) • (← mget b (r - 1) s) + (1 / 2 : K) • (← mget b (r - 1) (s + 1)))) b) b

/-- Reading off the two halves – Curve.cpp:657-662. -/
def casteljauHalves (p : Int) (b : List (List (Vec4 K))) : M (List (Vec4 K) × List (Vec4 K)) := do
  let L ← vnew (p + 1) (0 : Vec4 K)
  let R ← vnew (p + 1) (0 : Vec4 K)
  forLe 0 p (fun r (LR : List (Vec4 K) × List (Vec4 K)) => do
    let L ← vset LR.1 r (← mget b r 0)
    let R ← vset LR.2 r (← mget b (p - r) r)
    return (L, R)) (L, R)

/-- `Approx(Vec3, Vec3, eps)` – MathUtils.hpp:19-25: `(v1 - v2).cwiseAbs().maxCoeff() < eps`, the
overload used by Curve.cpp:626-627; `|x|` is `max x (-x)`. -/
def approxVec3 (a b : Vec3 K) (eps : K) : Bool :=
  let v := a - b
  decide (max (max v.x (-v.x)) (max (max v.y (-v.y)) (max v.z (-v.z))) < eps)

/-- Control-net box – Curve.cpp:610-616. -/
def controlBox (ctrlPts : List (Vec4 K)) : M (BoundingBox K) := do
  let p0 ← vget ctrlPts 0
  return (ctrlPts.drop 1).foldl (fun box p => box.ExpandToIncludePoint p.head3)
    (BoundingBox.ofPoints p0.head3 p0.head3)

/-- End-point box – Curve.cpp:618-621. -/
def endBox (ctrlPts : List (Vec4 K)) : M (BoundingBox K) := do
  let a ← vget ctrlPts 0
  let b ← vget ctrlPts ((ctrlPts.length : Int) - 1)
  return BoundingBox.ofPoints a.head3 b.head3

/-- `small_enough || flat_enough` – Curve.cpp:623-629. -/
def boxDone (sqrt : K → K) (epsilon : K) (cpBox epBox : BoundingBox K) : Bool :=
  decide (cpBox.Length.norm sqrt ≤ epsilon) ||
  (approxVec3 cpBox.Min epBox.Min eps6 && approxVec3 cpBox.Max epBox.Max eps6)

/-- The `while (!stack.empty())` loop – Curve.cpp:605-665; `global = none` is `!initialized`.
State: the stack (head = top), the scratch buffer and the global box. -/
def boxLoop (sqrt : K → K) (p : Int) (epsilon : K) :
    Nat → List (List (Vec4 K)) → List (List (Vec4 K)) → Option (BoundingBox K) →
      M (List (List (Vec4 K)) × Option (BoundingBox K))
  | 0, _, _, _ => .error .diverge
  | _ + 1, [], b, global => .ok (b, global)
  | fuel + 1, ctrlPts :: stack, b, global => do
    let cpBox ← controlBox ctrlPts
    let epBox ← endBox ctrlPts
    if boxDone sqrt epsilon cpBox epBox then
      let global := match global with
        | none => epBox
        | some g => g.ExpandToIncludeBox epBox
      boxLoop sqrt p epsilon fuel stack b (some global)
    else
      let b ← casteljau p ctrlPts b
      let (L, R) ← casteljauHalves p b
      boxLoop sqrt p epsilon fuel (L :: R :: stack) b global

/-- `Curve::GetBoundingBox` – Curve.cpp:585-668; `fuel` bounds the number of stack pops per segment.  The buffer `b` of
`(p + 1) * (p + 1)` entries (line 596, never a negative number) is modelled by its rows; for `p < 0` there are no segments and it is
not used. -/
def GetBoundingBox (sqrt : K → K) (fuel : Nat) (c : Curve K) (epsilon : K) : M (BoundingBox K) := do
  let segments ← c.ExtractBezier
  let p := c.Degree
  let b := List.replicate (p + 1).toNat (List.replicate (p + 1).toNat (0 : Vec4 K))
  let (_, global) ← foldMList (fun (seg : Curve K) (s : List (List (Vec4 K)) × Option (BoundingBox K)) =>
    boxLoop sqrt p epsilon fuel [seg.ControlPoints] s.1 s.2) segments (b, none)
  return global.getD ⟨0, 0⟩

end Part4

end Curve
end Nurbs
