import Verif.Model.KnotVector

/-! # The `KnotVector` constructor on IEEE values including NaN

The main model works over exact numbers, so NaN is not a value there.  This file repeats the model
of the constructor for a number type with an additional NaN, with IEEE comparisons. -/

namespace Nurbs

/-- A number or NaN. -/
inductive Dbl (K : Type)
  | num (x : K)
  | nan
  deriving DecidableEq, Repr

namespace Dbl
variable {K : Type}

/-- IEEE `a < b`: false as soon as one side is NaN. -/
def lt [LT K] [DecidableLT K] : Dbl K → Dbl K → Bool
  | num a, num b => decide (a < b)
  | _, _ => false

/-- IEEE `a != b`: true as soon as one side is NaN. -/
def ne [DecidableEq K] : Dbl K → Dbl K → Bool
  | num a, num b => decide (a ≠ b)
  | _, _ => true

end Dbl

variable {K : Type} [LinearOrder K] [Zero K] [One K]

/-- The loop of `ValidateKnots` – KnotVector.cpp:13-20, with IEEE comparisons. -/
def validateLoopF : Dbl K → List (Dbl K) → Bool
  | last, [] => if last.ne (.num 1) then false else true
  | last, val :: rest => if val.lt last then false else validateLoopF val rest

/-- `ValidateKnots` – KnotVector.cpp:10-21, with IEEE comparisons. -/
def ValidateKnotsF (knots : List (Dbl K)) : Bool :=
  if knots.isEmpty then false else validateLoopF (.num 0) knots

/-- `KnotVector(const vector<Numeric>&)` – KnotVector.cpp:58-62, with IEEE comparisons. -/
def KnotVector.ofValuesF (values : List (Dbl K)) : M (KnotVector (Dbl K)) :=
  if !ValidateKnotsF values then .error .throws else .ok ⟨values⟩

end Nurbs
