import Verif.Model.Prelude
import Mathlib.Algebra.Order.Group.Abs

/-! # Model of `include/libnurbs/Algorithm/MathUtils.hpp` -/

namespace Nurbs

/-- The table of MathUtils.hpp:9. -/
def factorialTable : List Int := [1, 1, 2, 6, 24, 120, 720, 5040, 40320, 362880]

/-- `Factorial` – MathUtils.hpp:7-12 (table lookup after the assertion on line 10). -/
def Factorial (n : Int) : M Int := do
  massert (n ≥ 0 ∧ n ≤ 9)
  vget factorialTable n

/-- `Approx(double,double,epsilon)` – MathUtils.hpp:14-17, epsilon explicit. -/
def Approx {K : Type} [Sub K] [Neg K] [LinearOrder K] (v1 v2 eps : K) : Bool := decide (max (v1 - v2) (-(v1 - v2)) < eps)

/-- Result of a 32-bit signed `int` operation: out of range is undefined behaviour. -/
def int32 (z : Int) : M Int := if -2147483648 ≤ z ∧ z ≤ 2147483647 then .ok z else .error .ub

/-- `Binomial` – MathUtils.hpp:27-38, with 32-bit overflow detection on `result *= (n - i + 1)`
(line 34).  The divisor `i` on line 35 is at least 1, C++ `/` truncates (`Int.tdiv`). -/
def Binomial (n k : Int) : M Int :=
  if k > n then .ok 0
  else forLe 1 k (fun i result => do
    let r ← int32 (result * (n - i + 1))
    .ok (r.tdiv i)) 1

end Nurbs
