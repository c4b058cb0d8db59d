import Verif.Model.Surface
import Verif.Model.Geometry
import Mathlib.Data.Int.Log
import Mathlib.Data.Rat.Floor

/-! # Numbers that round

The definitions of the model only need the operations of `Numeric`, so they can be run with `double`-like
numbers: `Fl R` are the numbers representable in a format whose rounding function is `R`, and every operation
rounds its exact result, as IEEE 754 demands.  Overflow and underflow are not modelled (the exponent is
unbounded): every operation has the same small relative error. -/

namespace Nurbs

/-- A rounding function with unit roundoff `u`: what IEEE 754 arithmetic (`using Numeric = double;` –
Typedefs.hpp:17) satisfies as long as nothing overflows or underflows, for every rounding direction that treats
positive and negative numbers alike. -/
structure Rounding (K : Type) [Field K] [LinearOrder K] where
  /-- the representable number chosen for an exact result -/
  rnd : K → K
  /-- unit roundoff -/
  u : K
  u_nonneg : 0 ≤ u
  u_lt : u < 1
  mono : ∀ a b, a ≤ b → rnd a ≤ rnd b
  idem : ∀ a, rnd (rnd a) = rnd a
  neg : ∀ a, rnd (-a) = -rnd a
  one : rnd 1 = 1
  rel : ∀ a, |rnd a - a| ≤ u * |a|

/-- The representable numbers. -/
def Fl {K : Type} [Field K] [LinearOrder K] (R : Rounding K) : Type := {a : K // R.rnd a = a}

namespace Fl

variable {K : Type} [Field K] [LinearOrder K] {R : Rounding K}

/-- The number itself. -/
def val (a : Fl R) : K := a.1

/-- The number an exact result is rounded to. -/
def round (R : Rounding K) (a : K) : Fl R := ⟨R.rnd a, R.idem a⟩

/-- Comparisons are exact. -/
instance : LinearOrder (Fl R) := inferInstanceAs (LinearOrder {a : K // R.rnd a = a})
/-- `0.0` -/
instance : Zero (Fl R) := ⟨round R 0⟩
/-- `1.0` -/
instance : One (Fl R) := ⟨round R 1⟩
/-- `a + b` -/
instance : Add (Fl R) := ⟨fun a b => round R (a.val + b.val)⟩
/-- `a - b` -/
instance : Sub (Fl R) := ⟨fun a b => round R (a.val - b.val)⟩
/-- `a * b` -/
instance : Mul (Fl R) := ⟨fun a b => round R (a.val * b.val)⟩
/-- `a / b`; the model only divides through `fdiv`, so `b` is not zero. -/
instance : Div (Fl R) := ⟨fun a b => round R (a.val / b.val)⟩
/-- `-a` -/
instance : Neg (Fl R) := ⟨fun a => round R (-a.val)⟩
/-- Conversion of an integer to `double`. -/
instance : NatCast (Fl R) := ⟨fun n => round R n⟩
/-- Conversion of an integer to `double`. -/
instance : IntCast (Fl R) := ⟨fun n => round R n⟩

end Fl

/-- Rounding to the nearest integer, ties to even. -/
def roundEven (x : ℚ) : ℤ :=
  let f := ⌊x⌋
  if x - f < 1 / 2 then f else if 1 / 2 < x - f then f + 1 else if f % 2 = 0 then f else f + 1

/-- Rounding of a positive number to 53 significant bits. -/
def roundPos53 (x : ℚ) : ℚ :=
  let e := Int.log 2 x
  roundEven (x * 2 ^ (52 - e)) * 2 ^ (e - 52)

/-- `roundTiesToEven` with 53 significant bits and unbounded exponent: the rounding of `double` arithmetic in the
absence of overflow and underflow. -/
def round53 (x : ℚ) : ℚ := if x = 0 then 0 else if 0 < x then roundPos53 x else -roundPos53 (-x)

end Nurbs
