import Verif.Model.MathUtils

/-! # Model of `src/Core/KnotVector.cpp` and `include/libnurbs/Core/KnotVector.hpp`

The functions that only compare knots are stated for any linearly ordered type with `0` and `1`. -/

namespace Nurbs

/-- `class KnotVector` – KnotVector.hpp:11-14 (`m_Values`). -/
@[ext] structure KnotVector (K : Type) where
  Values : List K
  deriving DecidableEq, Repr

/-- `KnotVector::KnotPair` – KnotVector.hpp:87-97. -/
structure KnotPair (K : Type) where
  Index : Int
  Value : K
  Multiplicity : Int
  deriving DecidableEq, Repr

/-- `KnotVector::KnotSpan` – KnotVector.hpp:99-109. -/
structure KnotSpan (K : Type) where
  Index : Int
  Left : KnotPair K
  Right : KnotPair K
  deriving DecidableEq, Repr

variable {K : Type}

section Order
variable [LinearOrder K] [Zero K] [One K]

/-- The loop of `ValidateKnots` – KnotVector.cpp:13-20: state is `last_value`. -/
def validateLoop : K → List K → Bool
  | last, [] => if last ≠ 1 then false else true
  | last, val :: rest => if val < last then false else validateLoop val rest

/-- `ValidateKnots` – KnotVector.cpp:10-21. -/
def ValidateKnots (knots : List K) : Bool :=
  if knots.isEmpty then false else validateLoop 0 knots

/-- `KnotVector(const vector<Numeric>&)` – KnotVector.cpp:58-62. -/
def KnotVector.ofValues (values : List K) : M (KnotVector K) :=
  if !ValidateKnots values then .error .throws else .ok ⟨values⟩

/-- Body of the constructor loop KnotVector.cpp:26-32: `Multiplicity` copies of each value
(a multiplicity `<= 0` adds nothing). -/
def expandPairs : List (KnotPair K) → List K
  | [] => []
  | p :: ps => List.replicate p.Multiplicity.toNat p.Value ++ expandPairs ps

/-- `KnotVector(const vector<KnotPair>&)` – KnotVector.cpp:24-34. -/
def KnotVector.ofPairs (knots : List (KnotPair K)) : M (KnotVector K) :=
  let m_Values := expandPairs knots
  if !ValidateKnots m_Values then .error .throws else .ok ⟨m_Values⟩

/-- The loop of `GetKnotPairs` – KnotVector.cpp:71-82: state is `i`, `last_value`,
`multiplicity`; `len` is the vector length. -/
def knotPairsLoop (len : Int) : Int → K → Int → List K → List (KnotPair K)
  | _, last, mult, [] => [⟨len - mult, last, mult⟩]
  | i, last, mult, val :: rest =>
    if val ≠ last then ⟨i, last, mult⟩ :: knotPairsLoop len (i + 1) val 1 rest
    else knotPairsLoop len (i + 1) last (mult + 1) rest

/-- `KnotVector::GetKnotPairs` – KnotVector.cpp:64-84. -/
def KnotVector.GetKnotPairs (kv : KnotVector K) : List (KnotPair K) :=
  match kv.Values with
  | [] => []
  | v :: rest => knotPairsLoop (kv.Values.length : Int) 1 v 1 rest

/-- Loop of `IsValid` – KnotVector.cpp:91-94 (`prev` is `m_Values[i-1]`). -/
def isValidLoop : K → List K → Bool
  | _, [] => true
  | prev, v :: rest => if v < prev then false else isValidLoop v rest

/-- `KnotVector::IsValid` – KnotVector.cpp:86-96. -/
def KnotVector.IsValid (kv : KnotVector K) : Bool :=
  match kv.Values with
  | [] => false
  | v :: rest =>
    if (v :: rest).length < 4 then false
    else if v ≠ 0 then false
    else if (v :: rest).getLast (by simp) ≠ 1 then false
    else isValidLoop v rest

/-- First loop of `IsClamped` – KnotVector.cpp:101-104: index of the first knot `!= 0`
(the vector length if there is none). -/
def clampCount0 : List K → Int
  | [] => 0
  | v :: rest => if v ≠ 0 then 0 else 1 + clampCount0 rest

/-- Second loop of `IsClamped` – KnotVector.cpp:105-108: index of the last knot `!= 1`
(`-1` if there is none); runs over the reversed vector. -/
def clampCount1 : List K → Int
  | [] => -1
  | v :: rest => if v ≠ 1 then (rest.length : Int) else clampCount1 rest

/-- `KnotVector::IsClamped` – KnotVector.cpp:98-110. -/
def KnotVector.IsClamped (kv : KnotVector K) : Bool :=
  decide (clampCount0 kv.Values = clampCount1 kv.Values.reverse)

/-- `std::upper_bound` as in libstdc++ (`__upper_bound`): `first`, `len` halving loop.
The fuel is the length, which always suffices because `len` strictly decreases. -/
def upperBoundLoop (l : List K) (u : K) : Nat → Nat → Nat → Nat
  | 0, first, _ => first
  | fuel + 1, first, len =>
    if len = 0 then first
    else
      let half := len / 2
      let middle := first + half
      match l[middle]? with
      | none => first
      | some m => if u < m then upperBoundLoop l u fuel first half
                  else upperBoundLoop l u fuel (middle + 1) (len - half - 1)

/-- `std::distance(begin, std::upper_bound(begin, end, u))`. -/
def upperBound (l : List K) (u : K) : Nat := upperBoundLoop l u l.length 0 l.length

/-- `KnotVector::FindSpanIndex` – KnotVector.cpp:125-138. -/
def KnotVector.FindSpanIndex (kv : KnotVector K) (degree : Int) (u : K) : M Int := do
  massert (u ≥ 0 ∧ u ≤ 1)
  let index_first_span := degree
  let index_last_span : Int := (kv.Values.length : Int) - degree - 2
  massert (index_last_span ≥ 0)
  massert (index_first_span ≤ index_last_span)
  let back ← vget kv.Values ((kv.Values.length : Int) - 1)
  if u = back then return index_last_span
  let front ← vget kv.Values 0
  if u = front then return index_first_span
  return (upperBound kv.Values u : Int) - 1

/-- Loop of `FindSpan` – KnotVector.cpp:145-152, counting `i` down from `pairs.size()-2`;
`none` is the fall-through `return {}` on line 153. -/
def findSpanLoop (pairs : List (KnotPair K)) (u : K) : Nat → M (Option (KnotSpan K))
  | 0 => .ok none
  | i + 1 => do
    let pair ← vget pairs (i : Int)
    if pair.Value ≤ u then
      let right ← vget pairs ((i : Int) + 1)
      return some ⟨i, pair, right⟩
    else findSpanLoop pairs u i

/-- `KnotVector::FindSpan` – KnotVector.cpp:140-154; `none` stands for the default-constructed
`KnotSpan` returned on line 153. -/
def KnotVector.FindSpan (kv : KnotVector K) (u : K) : M (Option (KnotSpan K)) := do
  massert (u ≥ 0 ∧ u ≤ 1)
  let pairs := kv.GetKnotPairs
  massert (pairs.length ≥ 2)
  findSpanLoop pairs u (pairs.length - 1)

/-- Loop of `DetectDegree` – KnotVector.cpp:158-161. -/
def detectDegreeLoop : Int → List K → M Int
  | _, [] => .error .throws
  | i, v :: rest => if v ≠ 0 then .ok (i - 1) else detectDegreeLoop (i + 1) rest

/-- `KnotVector::DetectDegree` – KnotVector.cpp:156-163. -/
def KnotVector.DetectDegree (kv : KnotVector K) : M Int := detectDegreeLoop 0 kv.Values

/-- `KnotVector::InsertKnot` – KnotVector.cpp:175-182; returns the new vector and the index.
A negative `times` converts to a huge `size_t`, which throws `std::length_error`. -/
def KnotVector.InsertKnot (kv : KnotVector K) (value : K) (times : Int) : M (KnotVector K × Int) := do
  massert (value > 0 ∧ value < 1)
  let i := upperBound kv.Values value
  mthrowUnless (0 ≤ times)
  let v ← vinsert kv.Values i times.toNat value
  return (⟨v⟩, (i : Int) - 1)

end Order

section Field
variable [Zero K] [One K] [Add K] [Sub K] [Mul K] [Div K] [Neg K] [NatCast K] [IntCast K] [LinearOrder K]

/-- `1e-6`, the default epsilon of `Approx` (MathUtils.hpp:14). -/
def eps6 : K := 1 / 1000000

/-- `KnotVector::Uniform` – KnotVector.cpp:36-56. -/
def KnotVector.Uniform (degree knots_count : Int) : M (KnotVector K) := do
  let additional : Int := knots_count - (degree + 1) * 2
  massert (additional ≥ 0)
  -- knots.reserve(knots_count): a negative count throws std::length_error
  mthrowUnless (0 ≤ knots_count)
  let zeros := List.replicate (degree + 1).toNat (0 : K)
  let t ← fdiv (1 : K) ((additional : K) + 1)
  let mid := (List.range additional.toNat).map fun (i : ℕ) => (((i : Int) + 1 : Int) : K) * t
  let ones := List.replicate (degree + 1).toNat (1 : K)
  KnotVector.ofValues (zeros ++ mid ++ ones)

/-- Loop of `IsUniform` – KnotVector.cpp:115-121: state is `interval` and the previous knot. -/
def isUniformLoop : K → K → List K → Bool
  | _, _, [] => true
  | interval, prev, val :: rest =>
    let curr := val - prev
    if interval = 0 then isUniformLoop curr val rest
    else if !Approx curr interval eps6 && decide (curr ≠ 0) then false
    else isUniformLoop interval val rest

/-- `KnotVector::IsUniform` – KnotVector.cpp:112-123. -/
def KnotVector.IsUniform (kv : KnotVector K) : Bool :=
  match kv.Values with
  | [] => true
  | v :: rest => isUniformLoop 0 v rest

/-- `KnotVector::GetMultiplicity` – KnotVector.cpp:165-173. -/
def KnotVector.GetMultiplicity (kv : KnotVector K) (u : K) : Int :=
  kv.Values.foldl (fun result val => if Approx val u eps6 then result + 1 else result) 0

/-- `KnotVector::Reverse` – KnotVector.cpp:184-191. -/
def KnotVector.Reverse (kv : KnotVector K) : KnotVector K :=
  ⟨kv.Values.reverse.map fun t => 1 - t⟩

end Field

end Nurbs
