import Verif.Model.Serialization
import Mathlib.Data.Rat.Defs
import Mathlib.Algebra.Order.Ring.Rat
import Mathlib.Algebra.Field.Rat
import Mathlib.Algebra.Order.Group.Unbundled.Abs

/-! # What is claimed about files, independent of how the code does it -/

namespace Nurbs.Spec

/-- White space of the "C" locale. -/
def Space (c : UInt8) : Prop := c = 9 ∨ c = 10 ∨ c = 11 ∨ c = 12 ∨ c = 13 ∨ c = 32

/-- `t` is `s` without the surrounding white space. -/
def IsTrimmed (s t : List UInt8) : Prop :=
  ∃ a b, s = a ++ t ++ b ∧ (∀ c ∈ a, Space c) ∧ (∀ c ∈ b, Space c) ∧
    (∀ c ∈ t.head?, ¬ Space c) ∧ (∀ c ∈ t.getLast?, ¬ Space c)

/-- `line` is the first line of the byte sequence. -/
def IsFirstLine (bytes line : List UInt8) : Prop :=
  (10 : UInt8) ∉ line ∧ (bytes = line ∨ ∃ rest, bytes = line ++ 10 :: rest)

/-- The first three words of `line`. -/
def FirstWords (line w₁ w₂ w₃ : List UInt8) : Prop :=
  ∃ s₀ s₁ s₂ rest, line = s₀ ++ (w₁ ++ (s₁ ++ (w₂ ++ (s₂ ++ (w₃ ++ rest))))) ∧
    (∀ c ∈ s₀, Space c) ∧ (∀ c ∈ s₁, Space c) ∧ (∀ c ∈ s₂, Space c) ∧ s₁ ≠ [] ∧ s₂ ≠ [] ∧
    (∀ c ∈ w₁, ¬ Space c) ∧ (∀ c ∈ w₂, ¬ Space c) ∧ (∀ c ∈ w₃, ¬ Space c) ∧ (∀ c ∈ rest.head?, Space c)

/-- ASCII text. -/
def ascii (s : List Char) : List UInt8 := s.map fun c => UInt8.ofNat c.toNat

/-! ## IEEE 754 binary64 -/

/-- exponent field -/
def expField (x : BitVec 64) : ℕ := x.toNat / 2 ^ 52 % 2 ^ 11
/-- fraction field -/
def fracField (x : BitVec 64) : ℕ := x.toNat % 2 ^ 52
/-- sign bit -/
def signBit (x : BitVec 64) : Bool := decide (2 ^ 63 ≤ x.toNat)

/-- neither an infinity nor a NaN -/
def FiniteF64 (x : BitVec 64) : Prop := expField x ≠ 2047

instance (x : BitVec 64) : Decidable (FiniteF64 x) := inferInstanceAs (Decidable (_ ≠ _))

/-- The number a finite double stands for, up to sign. -/
def absF64 (x : BitVec 64) : ℚ :=
  if expField x = 0 then fracField x * (2 : ℚ) ^ (-1074 : ℤ)
  else (2 ^ 52 + fracField x) * (2 : ℚ) ^ ((expField x : ℤ) - 1075)

/-- Doubles that survive 17 decimals: zero in particular, all of absolute value at least 1/16, and all
multiples of `2^-17`. -/
def Survives (x : BitVec 64) : Prop :=
  FiniteF64 x ∧ (1 / 16 ≤ absF64 x ∨ ∃ j : ℕ, absF64 x = j / 2 ^ 17)

/-- all four coordinates survive -/
def PointSurvives (v : Vec4 F64) : Prop := Survives v.x ∧ Survives v.y ∧ Survives v.z ∧ Survives v.w

/-- all four coordinates are finite -/
def PointFinite (v : Vec4 F64) : Prop := FiniteF64 v.x ∧ FiniteF64 v.y ∧ FiniteF64 v.z ∧ FiniteF64 v.w

instance (v : Vec4 F64) : Decidable (PointFinite v) := inferInstanceAs (Decidable (_ ∧ _))

/-- `y` is `x` up to `10^-17`, with the same sign bit, and `x` itself when `x` survives 17 decimals. -/
structure SameTo17 (x y : BitVec 64) : Prop where
  finite : FiniteF64 y
  sign : signBit y = signBit x
  close : |absF64 y - absF64 x| ≤ 1 / 10 ^ 17
  exact : Survives x → y = x

/-- the same for the four coordinates -/
def PointSameTo17 (v w : Vec4 F64) : Prop := SameTo17 v.x w.x ∧ SameTo17 v.y w.y ∧ SameTo17 v.z w.z ∧ SameTo17 v.w w.w

/-- fits into a 32-bit `int` -/
def FitsInt (n : ℤ) : Prop := -2 ^ 31 ≤ n ∧ n < 2 ^ 31

instance (n : ℤ) : Decidable (FitsInt n) := inferInstanceAs (Decidable (_ ∧ _))

/-- A curve whose counts fit into an `int`. -/
structure BinCurve (c : Curve F64) : Prop where
  degree : FitsInt c.Degree
  knots : FitsInt c.Knots.Values.length
  points : FitsInt c.ControlPoints.length

/-- A surface with as many points as its positive dimensions say, and whose counts fit into an `int`. -/
structure BinSurface (s : Surface F64) : Prop where
  degreeU : FitsInt s.DegreeU
  degreeV : FitsInt s.DegreeV
  knotsU : FitsInt s.KnotsU.Values.length
  knotsV : FitsInt s.KnotsV.Values.length
  uPos : 0 < s.ControlPoints.UCount
  vPos : 0 < s.ControlPoints.VCount
  count : FitsInt (s.ControlPoints.UCount * s.ControlPoints.VCount)
  storage : (s.ControlPoints.Values.length : ℤ) = s.ControlPoints.UCount * s.ControlPoints.VCount

/-- A curve whose numbers survive 17 decimals. -/
structure TextCurve (c : Curve F64) : Prop where
  degree : FitsInt c.Degree
  knots : ∀ x ∈ c.Knots.Values, Survives x
  points : ∀ v ∈ c.ControlPoints, PointSurvives v

/-- A surface whose numbers survive 17 decimals. -/
structure TextSurface (s : Surface F64) : Prop where
  degreeU : FitsInt s.DegreeU
  degreeV : FitsInt s.DegreeV
  knotsU : ∀ x ∈ s.KnotsU.Values, Survives x
  knotsV : ∀ x ∈ s.KnotsV.Values, Survives x
  uPos : 0 < s.ControlPoints.UCount
  vPos : 0 < s.ControlPoints.VCount
  count : FitsInt (s.ControlPoints.UCount * s.ControlPoints.VCount)
  storage : (s.ControlPoints.Values.length : ℤ) = s.ControlPoints.UCount * s.ControlPoints.VCount
  points : ∀ v ∈ s.ControlPoints.Values, PointSurvives v

/-- A curve of finite numbers. -/
structure FiniteCurve (c : Curve F64) : Prop where
  degree : FitsInt c.Degree
  knots : ∀ x ∈ c.Knots.Values, FiniteF64 x
  points : ∀ v ∈ c.ControlPoints, PointFinite v

/-- A surface of finite numbers. -/
structure FiniteSurface (s : Surface F64) : Prop where
  degreeU : FitsInt s.DegreeU
  degreeV : FitsInt s.DegreeV
  knotsU : ∀ x ∈ s.KnotsU.Values, FiniteF64 x
  knotsV : ∀ x ∈ s.KnotsV.Values, FiniteF64 x
  uPos : 0 < s.ControlPoints.UCount
  vPos : 0 < s.ControlPoints.VCount
  count : FitsInt (s.ControlPoints.UCount * s.ControlPoints.VCount)
  storage : (s.ControlPoints.Values.length : ℤ) = s.ControlPoints.UCount * s.ControlPoints.VCount
  points : ∀ v ∈ s.ControlPoints.Values, PointFinite v

end Nurbs.Spec
