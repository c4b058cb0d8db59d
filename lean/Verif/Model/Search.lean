import Verif.Model.Vec
import Mathlib.Algebra.Order.Group.Abs

/-! # Model of the parameter searches

`Curve::SearchParameter` (Curve.cpp:359-421) and `Surface::SearchParameterOn` (Surface.cpp:538-614) are the
same program text up to the functions `Ri`, `fi` and the constant `max_line_search_iterations` (20
resp. 0); they share `bfgs1`.  `Curve::BinarySearchParameter` (Curve.cpp:423-469) and
`Surface::BinarySearchParameterOn` (Surface.cpp:616-672) share `binarySearch`. -/

namespace Nurbs
namespace Search

variable {K : Type} [Zero K] [One K] [Add K] [Sub K] [Mul K] [Div K] [Neg K] [NatCast K] [IntCast K] [LinearOrder K]

/-- `std::numeric_limits<double>::max()` = (2^53 - 1) * 2^971. -/
def dblMax : K := (((2 ^ 53 - 1) * 2 ^ 971 : ℕ) : K)

/-- `std::clamp(v, 0, 1)` -/
def clamp01 (v : K) : K := if v < 0 then 0 else if 1 < v then 1 else v

/-- `c1 = 1e-4` – Curve.cpp:377, Surface.cpp:487,568 -/
def c1 : K := 1 / 10000
/-- `beta = 0.9` – Curve.cpp:378, Surface.cpp:488,569 -/
def beta : K := 9 / 10
/-- `1e-16` – Curve.cpp:408, Surface.cpp:521,599 -/
def tiny : K := 1 / 10000000000000000
/-- `1e-10` – Curve.cpp:411, Surface.cpp:524,602 -/
def fallback : K := 1 / 10000000000

/-- `std::abs` – Curve.cpp:408,461, Surface.cpp:521,599,657 -/
def fabs (x : K) : K := max x (-x)

/-- The lambda `line_search` – Curve.cpp:374-395, Surface.cpp:565-586; the first argument is the number of
remaining trials. -/
def lineSearch1 (norm : K → M K) (u_last current_residual Hk gk : K) : Nat → K → M K
  | 0, alpha => .ok (clamp01 (u_last - alpha * Hk * gk))
  | n + 1, alpha => do
    let u_trial := clamp01 (u_last - alpha * Hk * gk)
    if (← norm u_trial) ≤ current_residual - c1 * alpha * gk * Hk * gk then return u_trial
    else lineSearch1 norm u_last current_residual Hk gk n (alpha * beta)

/-- One iteration of the main loop – Curve.cpp:400-418, Surface.cpp:591-609;
state (`u_last`, `current_residual`, `Hk`). -/
def bfgsStep1 (norm fi : K → M K) (lsMax : Nat) : K × K × K → M (K × K × K)
  | (u_last, current_residual, Hk) => do
    let gk ← fi u_last
    let u_new ← lineSearch1 norm u_last current_residual Hk gk lsMax 1
    let sk := u_new - u_last
    let gk_new ← fi u_new
    let yk := gk_new - gk
    let yk_dot_sk := yk * sk
    let Hk := if fabs yk_dot_sk < tiny then 1 else Hk
    let yk_dot_sk := if fabs yk_dot_sk < tiny then fallback else yk_dot_sk
    let rho ← fdiv 1 yk_dot_sk
    let Hk := (1 - rho * yk * sk) * Hk * (1 - rho * sk * yk) + rho * sk * sk
    return (u_new, ← norm u_new, Hk)

/-- The main loop `while (!((current_residual < epsilon) || (count++ >= max)))` – Curve.cpp:397-419,
Surface.cpp:588-610.  Returns the final state and the value of `count` (number of iterations done). -/
def bfgsLoop1 (norm fi : K → M K) (lsMax : Nat) (epsilon maxIter : K) :
    Nat → Nat → K × K × K → M ((K × K × K) × Nat)
  | 0, _, _ => .error .diverge
  | fuel + 1, count, s =>
    if s.2.1 < epsilon then .ok (s, count)
    else if (count : K) ≥ maxIter then .ok (s, count)
    else do
      let s ← bfgsStep1 norm fi lsMax s
      bfgsLoop1 norm fi lsMax epsilon maxIter fuel (count + 1) s

/-- One iteration of the bisection – Curve.cpp:436-465, Surface.cpp:634-665.  `inl mid` is the early return,
`inr (low, high)` the next bracket. -/
def binStep (Ri : K → M K) (epsilon : K) (low high : K) : M (K ⊕ K × K) := do
  let mid := (low + high) / 2
  let mid_residual ← Ri mid
  let left_mid := mid - epsilon
  let right_mid := mid + epsilon
  let left_mid := if left_mid < low then low else left_mid
  let right_mid := if right_mid > high then high else right_mid
  let left_residual ← Ri left_mid
  let right_residual ← Ri right_mid
  if left_residual < mid_residual then return .inr (low, mid)
  else if right_residual < mid_residual then return .inr (mid, high)
  else if fabs (high - low) < epsilon ∨ mid_residual < epsilon then return .inl mid
  else return .inr (left_mid, right_mid)

/-- The bisection loop – Curve.cpp:433-468, Surface.cpp:630-671; `more count` is the loop condition
`count++ < max_iteration_count`.  Returns the parameter and the number of iterations started. -/
def binLoop (Ri : K → M K) (epsilon : K) (more : Nat → Bool) :
    Nat → Nat → K → K → M (K × Nat)
  | 0, _, _, _ => .error .diverge
  | fuel + 1, count, low, high =>
    if more count then do
      match ← binStep Ri epsilon low high with
      | .inl mid => return (mid, count + 1)
      | .inr (low, high) => binLoop Ri epsilon more fuel (count + 1) low high
    else .ok ((low + high) / 2, count)

end Search
end Nurbs
