import Verif.Model.Vec
import Verif.Model.KnotVector

/-! # Model of `src/Algorithm/KnotRemoval.cpp` -/

namespace Nurbs
namespace KnotRemovalImpl

variable {K : Type} [Zero K] [One K] [Add K] [Sub K] [Mul K] [Div K] [Neg K] [NatCast K] [IntCast K] [LinearOrder K]

/-- `CalcTOL` – KnotRemoval.cpp:8-18. -/
def CalcTOL (sqrt : K → K) (points : List (Vec4 K)) (epsilon : K) : M K :=
  let (w_min, dist_max) := points.foldl
    (fun (s : K × K) point => (min s.1 point.w, max s.2 (point.head3.norm sqrt)))
    ((1000000000000 : K), 0)
  fdiv (epsilon * w_min) (1 + dist_max)

/-- State of the `while (j - i > t)` loop at KnotRemoval.cpp:57-70. -/
structure SolveState (K : Type) where
  i : Int
  j : Int
  ii : Int
  jj : Int
  temp : List (Vec4 K)

/-- Body of that loop – KnotRemoval.cpp:59-69. -/
def solveBody (knots : List K) (points : List (Vec4 K)) (knot_remove : K) (order t : Int)
    (s : SolveState K) : M (SolveState K) := do
  let alphai ← fdiv (knot_remove - (← vget knots s.i))
    ((← vget knots (s.i + order + t)) - (← vget knots s.i))
  let alphaj ← fdiv (knot_remove - (← vget knots (s.j - t)))
    ((← vget knots (s.j + order)) - (← vget knots (s.j - t)))
  let temp ← vset s.temp s.ii
    (← ((← vget points s.i) - (1 - alphai) • (← vget s.temp (s.ii - 1))).divM alphai)
  let temp ← vset temp s.jj
    (← ((← vget points s.j) - alphaj • (← vget temp (s.jj + 1))).divM (1 - alphaj))
  return ⟨s.i + 1, s.j - 1, s.ii + 1, s.jj - 1, temp⟩

/-- Body of the write-back loop – KnotRemoval.cpp:86-92; state (`i`, `j`, `points`). -/
def copyBody (temp : List (Vec4 K)) (off : Int) :
    Int × Int × List (Vec4 K) → M (Int × Int × List (Vec4 K))
  | (i, j, points) => do
    let points ← vset points i (← vget temp (i - off))
    let points ← vset points j (← vget temp (j - off))
    return (i + 1, j - 1, points)

/-- The distance checked against the tolerance – KnotRemoval.cpp:72-81. -/
def removalDist (sqrt : K → K) (knots : List K) (points : List (Vec4 K)) (knot_remove : K) (order t : Int)
    (s : SolveState K) : M K :=
  if s.j - s.i < t then do
    return ((← vget s.temp (s.ii - 1)) - (← vget s.temp (s.jj + 1))).norm sqrt
  else do
    let alphai ← fdiv (knot_remove - (← vget knots s.i))
      ((← vget knots (s.i + order + t)) - (← vget knots s.i))
    return ((alphai • (← vget s.temp (s.ii + t + 1)) + (1 - alphai) • (← vget s.temp (s.ii - 1)))
      - (← vget points s.i)).norm sqrt

/-- The `for (t = 0; t < times; t++)` loop – KnotRemoval.cpp:47-96 – as recursion on the number of
remaining iterations; returns the value of `t` after the loop and the updated `points`. -/
def removalLoop (sqrt : K → K) (knots : List K) (knot_remove tol : K) (order : Int) :
    Nat → Int → Int → Int → List (Vec4 K) → List (Vec4 K) → M (Int × List (Vec4 K))
  | 0, t, _, _, points, _ => .ok (t, points)
  | n + 1, t, first, last, points, temp => do
    let off := first - 1
    let temp ← vset temp 0 (← vget points off)
    let temp ← vset temp (last + 1 - off) (← vget points (last + 1))
    let s ← whileM ((last - first).toNat + 1) (fun s => .ok (decide (s.j - s.i > t)))
      (solveBody knots points knot_remove order t) ⟨first, last, 1, last - off, temp⟩
    let dist ← removalDist sqrt knots points knot_remove order t s
    if dist > tol then return (t, points)
    let (_, _, points) ← whileM ((last - first).toNat + 1)
      (fun s => .ok (decide (s.2.1 - s.1 > t))) (copyBody s.temp off) (first, last, points)
    removalLoop sqrt knots knot_remove tol order n (t + 1) (first - 1) (last + 1) points s.temp

/-- `KnotRemoval` – KnotRemoval.cpp:23-129; returns the updated knot vector and points together
with `t`. -/
def KnotRemoval (sqrt : K → K) (knot_vector : KnotVector K) (points : List (Vec4 K)) (degree : Int)
    (knot_remove : K) (times : Int) (tolerance : K) : M (KnotVector K × List (Vec4 K) × Int) := do
  let points := points.map ToHomo
  let knots := knot_vector.Values
  let s := knot_vector.GetMultiplicity knot_remove
  let r ← knot_vector.FindSpanIndex degree knot_remove
  let tol ← CalcTOL sqrt points tolerance
  let n : Int := (points.length : Int) - 1
  let m := n + degree + 1
  let order := degree + 1
  let last := r - s
  let first := r - degree
  let temp ← vnew (2 * degree + 1) (0 : Vec4 K)
  let (t, points) ← removalLoop sqrt knots knot_remove tol order times.toNat 0 first last points temp
  if t = 0 then return (knot_vector, points, t)
  let j := (2 * r - s - degree).tdiv 2
  let i := j
  let (i, j) ← forLt 1 t (fun k (s : Int × Int) =>
    .ok (s.1 + (if k.tmod 2 = 1 then 1 else 0), s.2 - (if k.tmod 2 = 1 then 0 else 1))) (i, j)
  let (points, _) ← forLe (i + 1) n (fun k (s : List (Vec4 K) × Int) => do
    return (← vset s.1 s.2 (← vget s.1 k), s.2 + 1)) (points, j)
  let points ← vresize points ((points.length : Int) - times) 0
  let knots ← forLe (r + 1) m (fun k knots => do vset knots (k - times) (← vget knots k)) knots
  let knots ← vresize knots ((knots.length : Int) - times) 0
  let points ← mapMList FromHomo points
  return (⟨knots⟩, points, t)

end KnotRemovalImpl

export KnotRemovalImpl (KnotRemoval)

end Nurbs
