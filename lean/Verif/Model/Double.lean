import Verif.Model.Rounded

/-! # `double` with its finite range

`Fl` rounds to 53 bits and has no limits.  Here the limits are there: results below `2 ^ -1022` keep fewer bits (gradual underflow), and
results beyond the largest finite number are not finite any more.  Infinities and NaN are one value, `⊥`: an operation on it gives `⊥`.
That is coarser than IEEE 754 (where `1 / ∞ = 0`), and comparisons with `⊥` do not mean anything; the theorems about `Double` either show
that `⊥` never occurs or follow a computation in which NaN is not compared with anything. -/

namespace Nurbs

/-- `roundTiesToEven` to a `double`, the exponent not limited above: multiples of `2 ^ -1074` below `2 ^ -1022`, 53 bits from there on
(`using Numeric = double;` – Typedefs.hpp:17). -/
def round64 (x : ℚ) : ℚ := if |x| < 1 / 2 ^ 1022 then roundEven (x * 2 ^ 1074) / 2 ^ 1074 else round53 x

/-- The largest finite `double`. -/
def maxDouble : ℚ := (2 ^ 53 - 1) * 2 ^ 971

/-- A finite `double`, or `⊥` for infinities and NaN. -/
def Double : Type := WithBot ℚ

namespace Double

/-- A finite number. -/
def fin (a : ℚ) : Double := (a : WithBot ℚ)

/-- Infinity or NaN. -/
def bad : Double := (⊥ : WithBot ℚ)

/-- The `double` for an exact result: rounded, and not finite if that is beyond the largest number. -/
def ofExact (a : ℚ) : Double := if |round64 a| ≤ maxDouble then fin (round64 a) else bad

/-- The exact value of a finite number. -/
def val : Double → ℚ
  | some a => a
  | none => 0

/-- An operation on two numbers. -/
def lift (f : ℚ → ℚ → ℚ) : Double → Double → Double
  | some a, some b => ofExact (f a b)
  | _, _ => bad

/-- Comparisons of finite numbers are exact. -/
instance : LinearOrder Double := inferInstanceAs (LinearOrder (WithBot ℚ))
/-- `0.0` -/
instance : Zero Double := ⟨fin 0⟩
/-- `1.0` -/
instance : One Double := ⟨fin 1⟩
/-- `a + b` -/
instance : Add Double := ⟨lift (· + ·)⟩
/-- `a - b` -/
instance : Sub Double := ⟨lift (· - ·)⟩
/-- `a * b` -/
instance : Mul Double := ⟨lift (· * ·)⟩
/-- `a / b`; the model only divides through `fdiv`, so `b` is not zero. -/
instance : Div Double := ⟨lift (· / ·)⟩
/-- `-a` -/
instance : Neg Double := ⟨lift (· - ·) (fin 0)⟩
/-- Conversion of an integer to `double`. -/
instance : NatCast Double := ⟨fun n => ofExact n⟩
/-- Conversion of an integer to `double`. -/
instance : IntCast Double := ⟨fun n => ofExact n⟩

end Double

end Nurbs
