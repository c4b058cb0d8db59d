import Verif.Model.KnotVector

/-! # Model of `src/Basis/BSplineBasis.cpp` -/

namespace Nurbs
namespace BSplineBasis

variable {K : Type} [Zero K] [One K] [Add K] [Sub K] [Mul K] [Div K] [Neg K] [NatCast K] [IntCast K] [LinearOrder K]

/-- Inner loop body of `Evaluate` – BSplineBasis.cpp:18-23; state is (`result`, `saved`). -/
def evalInner (left right : List K) (j : Int) (r : Int) : List K × K → M (List K × K)
  | (result, saved) => do
    let temp ← fdiv (← vget result r) ((← vget right (r + 1)) + (← vget left (j - r)))
    let result ← vset result r (saved + (← vget right (r + 1)) * temp)
    return (result, (← vget left (j - r)) * temp)

/-- Outer loop body of `Evaluate` – BSplineBasis.cpp:13-25; state is (`result`, `left`, `right`). -/
def evalOuter (knots : List K) (index_span : Int) (x : K) (j : Int) :
    List K × List K × List K → M (List K × List K × List K)
  | (result, left, right) => do
    let left ← vset left j (x - (← vget knots (index_span + 1 - j)))
    let right ← vset right j ((← vget knots (index_span + j)) - x)
    let (result, saved) ← forLt 0 j (evalInner left right j) (result, 0)
    let result ← vset result j saved
    return (result, left, right)

/-- `BSplineBasis::Evaluate(degree, knots, index_span, x)` – BSplineBasis.cpp:7-27. -/
def EvaluateAt (degree : Int) (knots : List K) (index_span : Int) (x : K) : M (List K) := do
  let zero ← vnew (degree + 1) (0 : K)
  let result ← vset zero 0 1
  let (result, _, _) ← forLe 1 degree (evalOuter knots index_span x) (result, zero, zero)
  return result

/-- `BSplineBasis::Evaluate(degree, knot_vec, x)` – BSplineBasis.cpp:30-35. -/
def Evaluate (degree : Int) (knot_vec : KnotVector K) (x : K) : M (List K) := do
  let index_span ← knot_vec.FindSpanIndex degree x
  EvaluateAt degree knot_vec.Values index_span x

/-- Inner loop body of the `ndu` construction – BSplineBasis.cpp:65-73; state (`ndu`, `saved`). -/
def nduInner (left right : List K) (j : Int) (r : Int) :
    List (List K) × K → M (List (List K) × K)
  | (ndu, saved) => do
    let ndu ← mset ndu j r ((← vget right (r + 1)) + (← vget left (j - r)))
    let temp ← fdiv (← mget ndu r (j - 1)) (← mget ndu j r)
    let ndu ← mset ndu r j (saved + (← vget right (r + 1)) * temp)
    return (ndu, (← vget left (j - r)) * temp)

/-- Outer loop body of the `ndu` construction – BSplineBasis.cpp:60-75. -/
def nduOuter (knots : List K) (index_span : Int) (x : K) (j : Int) :
    List (List K) × List K × List K → M (List (List K) × List K × List K)
  | (ndu, left, right) => do
    let left ← vset left j (x - (← vget knots (index_span + 1 - j)))
    let right ← vset right j ((← vget knots (index_span + j)) - x)
    let (ndu, saved) ← forLt 0 j (nduInner left right j) (ndu, 0)
    let ndu ← mset ndu j j saved
    return (ndu, left, right)

/-- Body of the `j` loop – BSplineBasis.cpp:100-104; state (`a`, `d`). -/
def derInner (ndu : List (List K)) (s1 s2 pk rk : Int) (j : Int) :
    List (List K) × K → M (List (List K) × K)
  | (a, d) => do
    let q ← fdiv ((← mget a s1 j) - (← mget a s1 (j - 1))) (← mget ndu (pk + 1) (rk + j))
    let a ← mset a s2 j q
    let d := d + (← mget a s2 j) * (← mget ndu (rk + j) pk)
    return (a, d)

/-- First part of the body of the `k` loop (`j = 0`) – BSplineBasis.cpp:91-95; state (`a`, `d`). -/
def derFirst (ndu : List (List K)) (s1 s2 r k pk rk : Int) : List (List K) × K → M (List (List K) × K)
  | (a, d) =>
    if r ≥ k then do
      let a ← mset a s2 0 (← fdiv (← mget a s1 0) (← mget ndu (pk + 1) rk))
      let d := (← mget a s2 0) * (← mget ndu rk pk)
      return (a, d)
    else return (a, d)

/-- Last part of the body of the `k` loop (`j = k`) – BSplineBasis.cpp:106-110; state (`a`, `d`). -/
def derLast (ndu : List (List K)) (s1 s2 r k pk : Int) : List (List K) × K → M (List (List K) × K)
  | (a, d) =>
    if r ≤ pk then do
      let a ← mset a s2 k (← fdiv (-(← mget a s1 (k - 1))) (← mget ndu (pk + 1) r))
      let d := d + (← mget a s2 k) * (← mget ndu r pk)
      return (a, d)
    else return (a, d)

/-- Body of the `k` loop – BSplineBasis.cpp:85-114; state (`result`, `a`, `s1`, `s2`). -/
def derOrder (degree : Int) (ndu : List (List K)) (r : Int) (k : Int) :
    List (List K) × List (List K) × Int × Int → M (List (List K) × List (List K) × Int × Int)
  | (result, a, s1, s2) => do
    let rk := r - k
    let pk := degree - k
    let (a, d) ← derFirst ndu s1 s2 r k pk rk (a, 0)
    let j1 : Int := if rk ≥ -1 then 1 else -rk
    let j2 : Int := if r - 1 ≤ pk then k - 1 else degree - r
    let (a, d) ← forLe j1 j2 (derInner ndu s1 s2 pk rk) (a, d)
    let (a, d) ← derLast ndu s1 s2 r k pk (a, d)
    let result ← mset result k r d
    return (result, a, s2, s1)

/-- Body of the `r` loop – BSplineBasis.cpp:81-115; state (`result`, `a`). -/
def derFunction (degree order : Int) (ndu : List (List K)) (r : Int) :
    List (List K) × List (List K) → M (List (List K) × List (List K))
  | (result, a) => do
    let a ← mset a 0 0 1
    let (result, a, _, _) ← forLe 1 order (derOrder degree ndu r) (result, a, 0, 1)
    return (result, a)

/-- Body of the scaling loop – BSplineBasis.cpp:118-122; state (`result`, `fac`). -/
def derScale (degree : Int) (k : Int) : List (List K) × K → M (List (List K) × K)
  | (result, fac) => do
    let row ← vget result k
    let result ← vset result k (row.map fun e => e * fac)
    return (result, fac * ((degree - k : Int) : K))

/-- `BSplineBasis::EvaluateAll(degree, knots, index_span, x, order)` – BSplineBasis.cpp:53-125.
Matrices are lists of rows. -/
def EvaluateAllAt (degree : Int) (knots : List K) (index_span : Int) (x : K) (order : Int) :
    M (List (List K)) := do
  let left ← vnew (degree + 1) (0 : K)
  let right ← vnew (degree + 1) (0 : K)
  let ndu ← vnew (degree + 1) (← vnew (degree + 1) (0 : K))
  let ndu ← mset ndu 0 0 1
  let (ndu, _, _) ← forLe 1 degree (nduOuter knots index_span x) (ndu, left, right)
  let result ← vnew (order + 1) (← vnew (degree + 1) (0 : K))
  -- result.row(0) = ndu.col(degree)
  let col ← mapMList (fun row => vget row degree) ndu
  let result ← vset result 0 col
  let a ← vnew 2 (← vnew (degree + 1) (0 : K))
  let (result, _) ← forLe 0 degree (derFunction degree order ndu) (result, a)
  let (result, _) ← forLe 1 order (derScale degree) (result, (degree : K))
  return result

/-- `BSplineBasis::EvaluateAll(degree, knot_vec, x, order)` – BSplineBasis.cpp:127-132. -/
def EvaluateAll (degree : Int) (knot_vec : KnotVector K) (x : K) (order : Int) : M (List (List K)) := do
  let index_span ← knot_vec.FindSpanIndex degree x
  EvaluateAllAt degree knot_vec.Values index_span x order

/-- `BSplineBasis::EvaluateDerivative(degree, knots, index_span, x, order)` – BSplineBasis.cpp:46-50. -/
def EvaluateDerivativeAt (degree : Int) (knots : List K) (index_span : Int) (x : K) (order : Int) :
    M (List K) := do
  vget (← EvaluateAllAt degree knots index_span x order) order

/-- `BSplineBasis::EvaluateDerivative(degree, knot_vec, x, order)` – BSplineBasis.cpp:38-43. -/
def EvaluateDerivative (degree : Int) (knot_vec : KnotVector K) (x : K) (order : Int) : M (List K) := do
  let index_span ← knot_vec.FindSpanIndex degree x
  EvaluateDerivativeAt degree knot_vec.Values index_span x order

end BSplineBasis
end Nurbs
