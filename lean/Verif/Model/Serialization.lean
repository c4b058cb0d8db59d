import Verif.Model.Curve
import Verif.Model.Surface

/-!
# Model of the file functions

`src/Utils/Serialization.cpp`, `Curve::LoadFromFile` / `SaveToFile` (Curve.cpp:29-201, 223-280) and
`Surface::LoadFromFile` / `SaveToFile` (Surface.cpp:25-258, 281-368).

* A stream is a list of bytes.  The overloads taking a file name (Curve.cpp:19-27, 203-221,
  Surface.cpp:15-23, 260-278) only open a file and are not modelled; output streams never fail.
* A `double` is its 64 bits.  The machine is little endian with a 32-bit `int` and IEEE 754 binary64.
* The C++ library parts (`getline`, `>>`, `<<`) are modelled as libstdc++ implements them in the "C" locale.
* Loading changes the object while it reads, so `Load` returns the object also when it throws.
-/

namespace Nurbs

/-- One `char` of a stream. -/
abbrev Byte := UInt8
/-- Contents of a stream or of a `std::string`. -/
abbrev Bytes := List UInt8
/-- `Numeric` (`double`) bit by bit. -/
abbrev F64 := BitVec 64

/-- Character literal. -/
def ch (c : Char) : Byte := UInt8.ofNat c.toNat
/-- String literal. -/
def lit (cs : List Char) : Bytes := cs.map ch

namespace Serial

/-! ## Integers and doubles in memory -/

/-- `k` bytes of `n`, low byte first. -/
def leBytes : Nat → Nat → Bytes
  | 0, _ => []
  | k + 1, n => UInt8.ofNat (n % 256) :: leBytes k (n / 256)

/-- Value of a little endian byte sequence. -/
def leNat : Bytes → Nat
  | [] => 0
  | b :: l => b.toNat + 256 * leNat l

/-- Memory of an `int`. -/
def intBytes (n : Int) : Bytes := leBytes 4 (n % 2 ^ 32).toNat
/-- The `int` held by four bytes of memory. -/
def bytesInt (l : Bytes) : Int :=
  if leNat l < 2 ^ 31 then (leNat l : Int) else (leNat l : Int) - 2 ^ 32
/-- `static_cast<int>` of a size: keeps the low 32 bits. -/
def toInt32 (n : Int) : Int := bytesInt (intBytes n)

/-- Memory of a `double`. -/
def f64Bytes (x : F64) : Bytes := leBytes 8 x.toNat
/-- The `double` held by eight bytes of memory. -/
def bytesF64 (l : Bytes) : F64 := BitVec.ofNat 64 (leNat l)

/-- Memory of a `Vec4` (Eigen stores the four coefficients in order). -/
def vec4Bytes (v : Vec4 F64) : Bytes := f64Bytes v.x ++ (f64Bytes v.y ++ (f64Bytes v.z ++ f64Bytes v.w))
/-- The `Vec4` held by 32 bytes. -/
def bytesVec4 (l : Bytes) : Vec4 F64 :=
  ⟨bytesF64 (l.take 8), bytesF64 ((l.drop 8).take 8), bytesF64 ((l.drop 16).take 8), bytesF64 ((l.drop 24).take 8)⟩

/-- Memory of an array of `double`s. -/
def arrBytes : List F64 → Bytes
  | [] => []
  | x :: l => f64Bytes x ++ arrBytes l
/-- `n` doubles read from memory. -/
def bytesArr : Nat → Bytes → List F64
  | 0, _ => []
  | n + 1, l => bytesF64 (l.take 8) :: bytesArr n (l.drop 8)

/-- `v.resize(n)`: new elements are `fill`. -/
def resize {α : Type} (l : List α) (n : Nat) (fill : α) : List α := l.take n ++ List.replicate (n - l.length) fill

/-- Memory `old` after its first bytes have been replaced by `new`. -/
def overwrite (old new : Bytes) : Bytes := new ++ old.drop new.length

/-! ## Input streams and the effects of loading -/

/-- A `std::istream` that has not failed: the bytes still to come and the `eofbit`. -/
structure IStream where
  rest : Bytes
  eof : Bool := false
  deriving DecidableEq, Repr

/-- `is.read(p, n)`: the bytes stored at `p`, whether the read succeeded, and the stream afterwards.
With `eofbit` already set nothing is read. -/
def IStream.read (s : IStream) (n : Nat) : Bytes × Bool × IStream :=
  if s.eof then ([], false, s)
  else if n ≤ s.rest.length then (s.rest.take n, true, ⟨s.rest.drop n, false⟩)
  else (s.rest, false, ⟨[], true⟩)

end Serial

open Serial

/-- Loading into an object of type `σ` from a stream.  The object is returned also with an error. -/
def Load (σ α : Type) := σ → IStream → M α × σ × IStream

namespace Load
variable {σ τ α β : Type}

/-- `return a` -/
protected def pure (a : α) : Load σ α := fun o s => (.ok a, o, s)
/-- statement sequencing -/
protected def bind (x : Load σ α) (f : α → Load σ β) : Load σ β := fun o s =>
  match x o s with
  | (.ok a, o', s') => f a o' s'
  | (.error e, o', s') => (.error e, o', s')
instance : Monad (Load σ) where
  pure := Load.pure
  bind := Load.bind

/-- `throw std::runtime_error(...)`, or another way to stop. -/
def fail (e : Err) : Load σ α := fun o s => (.error e, o, s)
/-- Read the object. -/
def get : Load σ σ := fun o s => (.ok o, o, s)
/-- Assign the object. -/
def modify (f : σ → σ) : Load σ Unit := fun o s => (.ok (), f o, s)
/-- Pass a member of the object by reference. -/
def zoom (g : σ → τ) (p : τ → σ → σ) (x : Load τ α) : Load σ α := fun o s =>
  match x (g o) s with
  | (r, t, s') => (r, p t o, s')
/-- `is.read` followed by the check of `is.fail()`: the bytes are stored into the object in any case. -/
def read (n : Nat) (store : Bytes → σ → σ) : Load σ Unit := fun o s =>
  match s.read n with
  | (b, ok, s') => (if ok then .ok () else .error .throws, store b o, s')
/-- Run a computation that does not touch the object. -/
def lift (x : M α) : Load σ α := fun o s => (x, o, s)
/-- A range-based `for`. -/
def forEach (f : β → α → Load σ β) : List α → β → Load σ β
  | [], b => Load.pure b
  | a :: l, b => Load.bind (f b a) fun b' => forEach f l b'

end Load

/-! ## `src/Utils/Serialization.cpp` -/
namespace Utils

/-- `is.read(reinterpret_cast<char*>(&x), sizeof(int))` with `x` a member of the object. -/
def readIntMember {σ : Type} (g : σ → Int) (p : Int → σ → σ) : Load σ Unit :=
  Load.zoom g p (Load.read 4 fun b old => bytesInt (overwrite (intBytes old) b))

/-- `int x; is.read(reinterpret_cast<char*>(&x), sizeof(int));` and the check of `is.fail()`
(the value is used only after a successful read). -/
def readIntLocal {σ : Type} : Load σ Int := fun o s =>
  match s.read 4 with
  | (b, ok, s') => (if ok then .ok (bytesInt b) else .error .throws, o, s')

/-- `ReadKnotVectorFromStream` – Serialization.cpp:7-21. -/
def ReadKnotVectorFromStream : Load (KnotVector F64) Unit := do
  let count ← readIntLocal
  if count < 0 then Load.fail .throws
  else do
    Load.modify fun k => ⟨resize k.Values count.toNat 0⟩
    Load.read (8 * count.toNat) fun b k => ⟨bytesArr count.toNat (overwrite (arrBytes k.Values) b)⟩

/-- `ReadVec4FromStream` – Serialization.cpp:23-30. -/
def ReadVec4FromStream : Load (Vec4 F64) Unit :=
  Load.read 32 fun b v => bytesVec4 (overwrite (vec4Bytes v) b)

/-- `WriteKnotVectorToStream` – Serialization.cpp:42-56.  A count that came out negative makes the
size argument of `write` wrap around. -/
def WriteKnotVectorToStream (k : KnotVector F64) : M Bytes :=
  let count := toInt32 k.Values.length
  if count < 0 then .error .ub
  else .ok (intBytes count ++ (arrBytes k.Values).take (8 * count.toNat))

/-- `WriteVec4ToStream` – Serialization.cpp:58-65. -/
def WriteVec4ToStream (v : Vec4 F64) : Bytes := vec4Bytes v

/-- `std::isspace` in the "C" locale. -/
def isspace (c : Byte) : Bool := (9 ≤ c.toNat && c.toNat ≤ 13) || c.toNat == 32

/-- `TrimString` – Serialization.cpp:67-80. -/
def TrimString (s : Bytes) : Bytes := ((s.dropWhile isspace).reverse.dropWhile isspace).reverse

end Utils

open Utils

namespace Serial

/-! ## Library functions for text -/

/-- `std::getline(is, line)` up to `'\n'`; fails on a stream without bytes. -/
def getline (s : IStream) : Option (Bytes × IStream) :=
  if s.eof ∨ s.rest = [] then none
  else
    let line := s.rest.takeWhile (· != ch '\n')
    match s.rest.dropWhile (· != ch '\n') with
    | [] => some (line, ⟨[], true⟩)
    | _ :: r => some (line, ⟨r, false⟩)

/-- All results of `while (std::getline(is, t, d))`. -/
def splitBy (d : Byte) : Bytes → List Bytes
  | [] => []
  | b :: l =>
    if b = d then [] :: splitBy d l
    else match splitBy d l with
      | [] => [[b]]
      | t :: ts => (b :: t) :: ts

/-- `ss >> word`: the word (empty when there is none) and the rest. -/
def nextWord (l : Bytes) : Bytes × Bytes :=
  let l' := l.dropWhile isspace
  (l'.takeWhile (fun c => !isspace c), l'.dropWhile (fun c => !isspace c))

/-- decimal digit -/
def isDigit (c : Byte) : Bool := 48 ≤ c.toNat && c.toNat ≤ 57

/-- Value of a sequence of decimal digits. -/
def decNat (ds : Bytes) : Nat := ds.foldl (fun a c => 10 * a + (c.toNat - 48)) 0

/-- An optional sign: is it a minus, and what follows. -/
def takeSign : Bytes → Bool × Bytes
  | [] => (false, [])
  | c :: l => if c = ch '-' then (true, l) else if c = ch '+' then (false, l) else (false, c :: l)

/-- `ss >> n` for an `int n` that held `old`: the new value, success, and the rest.  Without any
character the variable keeps its value; a malformed number stores 0, one out of range the limit. -/
def extractInt (old : Int) (l : Bytes) : Int × Bool × Bytes :=
  let l1 := l.dropWhile isspace
  if l1 = [] then (old, false, [])
  else
    let sg := takeSign l1
    let ds := sg.2.takeWhile isDigit
    let rest := sg.2.dropWhile isDigit
    if ds = [] then (0, false, rest)
    else
      let v : Int := if sg.1 then -(decNat ds : Int) else (decNat ds : Int)
      if v < -2 ^ 31 then (-2 ^ 31, false, rest)
      else if 2 ^ 31 ≤ v then (2 ^ 31 - 1, false, rest)
      else (v, true, rest)

/-- Nearest integer to `a / b`, ties to even. -/
def roundHalfEven (a b : Nat) : Nat :=
  if 2 * (a % b) < b then a / b
  else if 2 * (a % b) = b then a / b + (a / b) % 2
  else a / b + 1

/-- Magnitude bits (exponent and fraction field) of the double nearest to `a / b`, ties to even:
`k` is the exponent of the last place, counted from `2 ^ -1074`. -/
def nearestBits (a b : Nat) : Nat :=
  let s := a * 2 ^ 1074 / b
  let k := Nat.log2 s - 52
  k * 2 ^ 52 + roundHalfEven (a * 2 ^ 1074) (b * 2 ^ k)

/-- `strtod` of `± a / b`; `none` when the result overflows. -/
def toDouble (neg : Bool) (a b : Nat) : Option F64 :=
  let n := nearestBits a b
  if n < 2047 * 2 ^ 52 then some (BitVec.ofNat 64 (n + if neg then 2 ^ 63 else 0)) else none

/-- `ss >> x` for a `double`: the value and the rest, `none` when the extraction fails. -/
def extractDouble (l : Bytes) : Option (F64 × Bytes) :=
  let sg := takeSign (l.dropWhile isspace)
  let ip := sg.2.takeWhile isDigit
  let l3 := sg.2.dropWhile isDigit
  let dot := l3.head? = some (ch '.')
  let fp := if dot then l3.tail.takeWhile isDigit else []
  let l4 := if dot then l3.tail.dropWhile isDigit else l3
  if ip ++ fp = [] then none
  else if l4.head? = some (ch 'e') ∨ l4.head? = some (ch 'E') then
    let es := takeSign l4.tail
    let ed := es.2.takeWhile isDigit
    let rest := es.2.dropWhile isDigit
    if ed = [] then none
    else if es.1 then
      (toDouble sg.1 (decNat (ip ++ fp)) (10 ^ (fp.length + decNat ed))).map fun x => (x, rest)
    else
      (toDouble sg.1 (decNat (ip ++ fp) * 10 ^ decNat ed) (10 ^ fp.length)).map fun x => (x, rest)
  else (toDouble sg.1 (decNat (ip ++ fp)) (10 ^ fp.length)).map fun x => (x, l4)

/-- one decimal digit -/
def digit (n : Nat) : Byte := UInt8.ofNat (48 + n)

/-- Decimal digits of `n`, last digit first, at most as many as the first argument. -/
def decRev : Nat → Nat → Bytes
  | 0, _ => []
  | f + 1, n => digit (n % 10) :: if n < 10 then [] else decRev f (n / 10)

/-- `os << n` for `n ≥ 0`. -/
def natText (n : Nat) : Bytes := (decRev (Nat.log2 n + 1) n).reverse

/-- `os << n` for an `int`. -/
def intText (n : Int) : Bytes := if n < 0 then ch '-' :: natText n.natAbs else natText n.natAbs

/-- Exactly `k` decimal digits of `n`, last digit first. -/
def fixRev : Nat → Nat → Bytes
  | 0, _ => []
  | k + 1, n => digit (n % 10) :: fixRev k (n / 10)

/-- Magnitude of the double with magnitude bits `n`, in units of `2 ^ -1074`. -/
def magUnits (n : Nat) : Nat := (n - (n / 2 ^ 52 - 1) * 2 ^ 52) * 2 ^ (n / 2 ^ 52 - 1)

/-- `std::setprecision(std::numeric_limits<double>::digits10 + 2)` – Curve.cpp:256, Surface.cpp:325. -/
def precision : Nat := 17

/-- `os << std::fixed << x` with 17 decimals, rounded to nearest even. -/
def fixedText (x : F64) : Bytes :=
  let n := x.toNat % 2 ^ 63
  let sign := if x.toNat < 2 ^ 63 then [] else [ch '-']
  if n < 2047 * 2 ^ 52 then
    let d := roundHalfEven (magUnits n * 10 ^ precision) (2 ^ 1074)
    sign ++ (natText (d / 10 ^ precision) ++ (ch '.' :: (fixRev precision d).reverse))
  else if n = 2047 * 2 ^ 52 then sign ++ lit ['i', 'n', 'f']
  else sign ++ lit ['n', 'a', 'n']

end Serial

/-- `LIBNURBS_MAGIC` – Typedefs.hpp:15. -/
def LIBNURBS_MAGIC : Bytes := lit ['L', 'I', 'B', 'N', 'U', 'R', 'B', 'S']

namespace Utils

/-- `ReadVec4FromText` – Serialization.cpp:32-40. -/
def ReadVec4FromText (text : Bytes) : M (Vec4 F64) :=
  match extractDouble text with
  | none => .error .throws
  | some (x, l1) =>
    match extractDouble l1 with
    | none => .error .throws
    | some (y, l2) =>
      match extractDouble l2 with
      | none => .error .throws
      | some (z, l3) =>
        match extractDouble l3 with
        | none => .error .throws
        | some (w, _) => .ok ⟨x, y, z, w⟩

end Utils

namespace Serial

/-- The header check shared by Curve.cpp:31-64 and Surface.cpp:27-60; `true` for binary mode. -/
def readHeader {σ : Type} (typeName : Bytes) : Load σ Bool := fun o s =>
  match getline s with
  | none => (.error .throws, o, s)
  | some (line, s') =>
    let magic := nextWord line
    let mode := nextWord magic.2
    let type := nextWord mode.2
    if magic.1 ≠ LIBNURBS_MAGIC then (.error .throws, o, s')
    else if mode.1 ≠ lit ['T', 'X', 'T'] ∧ mode.1 ≠ lit ['B', 'I', 'N'] then (.error .throws, o, s')
    else if type.1 ≠ typeName then (.error .throws, o, s')
    else (.ok (decide (mode.1 = lit ['B', 'I', 'N'])), o, s')

/-- Local variables of the text loop: `current_key` and `content_lines`. -/
structure TextState where
  key : Bytes := []
  lines : List Bytes := []

/-- One turn of the text loop – Curve.cpp:157-193, Surface.cpp:214-249. -/
def textStep {σ : Type} (process_key : Bytes → List Bytes → Load σ Unit) (st : TextState) (raw : Bytes) :
    Load σ TextState :=
  let line := TrimString raw
  if line = [] then pure st
  else if line.head? = some (ch '*') ∧ ch ':' ∈ line then
    let key := TrimString ((line.takeWhile (· != ch ':')).drop 1)
    let value := TrimString ((line.dropWhile (· != ch ':')).drop 1)
    let more := if value = [] then [] else [value]
    if st.key ≠ [] then do
      process_key st.key st.lines
      pure ⟨key, more⟩
    else pure ⟨key, st.lines ++ more⟩
  else if st.key = [] then Load.fail .throws
  else pure ⟨st.key, st.lines ++ [line]⟩

/-- The text loop and the final `process_key` – Curve.cpp:157-199, Surface.cpp:214-255.  (All lines are
taken from the stream before the first is processed; only the stream position after an exception is
affected.) -/
def textLoop {σ : Type} (process_key : Bytes → List Bytes → Load σ Unit) : Load σ Unit := fun o s =>
  (do
    let st ← Load.forEach (textStep process_key) (if s.eof then [] else splitBy (ch '\n') s.rest) {}
    if st.key ≠ [] then process_key st.key st.lines else pure () : Load σ Unit) o ⟨[], true⟩

/-- The `Knots` branch – Curve.cpp:112-131, Surface.cpp:130-149, 153-172. -/
def readKnotLines (lines : List Bytes) : Load (KnotVector F64) Unit :=
  Load.forEach (fun _ l => Load.forEach (fun _ tok =>
    let t := TrimString tok
    if t = [] then pure ()
    else match extractDouble t with
      | none => Load.fail .throws
      | some (x, _) => Load.modify fun k => ⟨k.Values ++ [x]⟩) (splitBy (ch ',') l) ()) lines ()

/-- `process_key` for one integer – Curve.cpp:97-109, Surface.cpp:102-127. -/
def readIntLine (lines : List Bytes) : Load Int Unit := fun old s =>
  match lines with
  | [l] => match extractInt old l with
    | (v, ok, _) => (if ok then .ok () else .error .throws, v, s)
  | _ => (.error .throws, old, s)

/-- Knot list of the text format – Curve.cpp:258-267, Surface.cpp:328-348. -/
def knotsText : List F64 → Bytes
  | [] => []
  | [x] => fixedText x
  | x :: y :: l => fixedText x ++ (lit [',', ' '] ++ knotsText (y :: l))

/-- `os << cp.x() << " " << cp.y() << " " << cp.z() << " " << cp.w()` – Curve.cpp:272, Surface.cpp:359. -/
def vec4Text (v : Vec4 F64) : Bytes :=
  fixedText v.x ++ (ch ' ' :: (fixedText v.y ++ (ch ' ' :: (fixedText v.z ++ (ch ' ' :: fixedText v.w)))))

end Serial

namespace Curve

/-- `process_key` – Curve.cpp:95-155. -/
def processKey (key : Bytes) (lines : List Bytes) : Load (Curve F64) Unit :=
  if key = lit ['D', 'e', 'g', 'r', 'e', 'e'] then
    Load.zoom (·.Degree) (fun d c => { c with Degree := d }) (readIntLine lines)
  else if key = lit ['K', 'n', 'o', 't', 's'] then
    Load.zoom (·.Knots) (fun k c => { c with Knots := k }) (readKnotLines lines)
  else if key = lit ['C', 'o', 'n', 't', 'r', 'o', 'l', 'P', 'o', 'i', 'n', 't', 's'] then
    Load.forEach (fun _ l => Load.forEach (fun _ tok =>
      let t := TrimString tok
      if t = [] then pure ()
      else do
        let v ← Load.lift (ReadVec4FromText t)
        Load.modify fun c => { c with ControlPoints := c.ControlPoints ++ [v] }) (splitBy (ch ',') l) ()) lines ()
  else Load.fail .throws

/-- Binary part of `Curve::LoadFromFile` – Curve.cpp:66-88.  `junk` stands for the uninitialised
points `resize` creates. -/
def loadBinary (junk : Vec4 F64) : Load (Curve F64) Unit := do
  readIntMember (·.Degree) (fun d c => { c with Degree := d })
  Load.zoom (·.Knots) (fun k c => { c with Knots := k }) ReadKnotVectorFromStream
  let cp_count ← readIntLocal
  if cp_count < 0 then Load.fail .throws
  else do
    Load.modify fun c => { c with ControlPoints := resize c.ControlPoints cp_count.toNat junk }
    Load.forEach (fun _ i => Load.zoom (fun c => c.ControlPoints.getD i junk)
      (fun v c => { c with ControlPoints := c.ControlPoints.set i v }) ReadVec4FromStream)
      (List.range cp_count.toNat) ()

/-- `Curve::LoadFromFile(std::istream&)` – Curve.cpp:29-201. -/
def LoadFromFile (junk : Vec4 F64) : Load (Curve F64) Unit := do
  let mode_binary ← readHeader (lit ['C', 'U', 'R', 'V', 'E'])
  if mode_binary then loadBinary junk else textLoop processKey

/-- `Curve::SaveToFile(std::ostream&, bool)` – Curve.cpp:223-280. -/
def SaveToFile (c : Curve F64) (binary_mode : Bool) : M Bytes :=
  if binary_mode then do
    let k ← WriteKnotVectorToStream c.Knots
    return LIBNURBS_MAGIC ++ (lit [' ', 'B', 'I', 'N', ' ', 'C', 'U', 'R', 'V', 'E', '\n'] ++
      (intBytes c.Degree ++ (k ++ (intBytes (toInt32 c.ControlPoints.length) ++
        c.ControlPoints.flatMap WriteVec4ToStream))))
  else
    .ok (LIBNURBS_MAGIC ++ (lit [' ', 'T', 'X', 'T', ' ', 'C', 'U', 'R', 'V', 'E', '\n'] ++
      (lit ['*', 'D', 'e', 'g', 'r', 'e', 'e', ':', ' '] ++ (intText c.Degree ++ (ch '\n' ::
      (lit ['*', 'K', 'n', 'o', 't', 's', ':', '\n'] ++ (knotsText c.Knots.Values ++ (ch '\n' ::
      (lit ['*', 'C', 'o', 'n', 't', 'r', 'o', 'l', 'P', 'o', 'i', 'n', 't', 's', ':', '\n'] ++
      c.ControlPoints.flatMap fun v => vec4Text v ++ lit [',', '\n'])))))))))

end Curve

namespace Surface

/-- `ControlPoints.UCount * ControlPoints.VCount` in `int`; overflow is undefined. -/
def gridCount (u v : Int) : M Int :=
  if -2 ^ 31 ≤ u * v ∧ u * v < 2 ^ 31 then .ok (u * v) else .error .ub

/-- `ss_dims >> UCount >> VCount` and the checks – Surface.cpp:181-186. -/
def readDims (l : Bytes) : Load (Grid (Vec4 F64)) Unit := fun g s =>
  match extractInt g.UCount l with
  | (u, okU, rest) =>
    if okU then
      match extractInt g.VCount rest with
      | (v, okV, _) =>
        (if okV ∧ 0 < u ∧ 0 < v then .ok () else .error .throws, { g with UCount := u, VCount := v }, s)
    else (.error .throws, { g with UCount := u }, s)

/-- `ControlPoints` branch of `process_key` – Surface.cpp:174-207. -/
def readGridLines (junk : Vec4 F64) (lines : List Bytes) : Load (Grid (Vec4 F64)) Unit :=
  match lines with
  | [] => Load.fail .throws
  | l0 :: pts => do
    readDims l0
    let g ← Load.get
    let expected ← Load.lift (gridCount g.UCount g.VCount)
    if toInt32 pts.length ≠ expected then Load.fail .throws
    else do
      Load.modify fun g => { g with Values := resize g.Values expected.toNat junk }
      let _ ← Load.forEach (fun (i : Nat) l =>
        let t := TrimString l
        if t = [] then pure (i + 1)
        else do
          let v ← Load.lift (ReadVec4FromText t)
          Load.modify fun g => { g with Values := g.Values.set i v }
          pure (i + 1)) pts 0
      pure ()

/-- `process_key` – Surface.cpp:100-212. -/
def processKey (junk : Vec4 F64) (key : Bytes) (lines : List Bytes) : Load (Surface F64) Unit :=
  if key = lit ['D', 'e', 'g', 'r', 'e', 'e', 'U'] then
    Load.zoom (·.DegreeU) (fun d c => { c with DegreeU := d }) (readIntLine lines)
  else if key = lit ['D', 'e', 'g', 'r', 'e', 'e', 'V'] then
    Load.zoom (·.DegreeV) (fun d c => { c with DegreeV := d }) (readIntLine lines)
  else if key = lit ['K', 'n', 'o', 't', 's', 'U'] then
    Load.zoom (·.KnotsU) (fun k c => { c with KnotsU := k }) (readKnotLines lines)
  else if key = lit ['K', 'n', 'o', 't', 's', 'V'] then
    Load.zoom (·.KnotsV) (fun k c => { c with KnotsV := k }) (readKnotLines lines)
  else if key = lit ['C', 'o', 'n', 't', 'r', 'o', 'l', 'P', 'o', 'i', 'n', 't', 's'] then
    Load.zoom (·.ControlPoints) (fun k c => { c with ControlPoints := k }) (readGridLines junk lines)
  else Load.fail .throws

/-- Control points of the binary format – Surface.cpp:77-91. -/
def loadGrid (junk : Vec4 F64) : Load (Grid (Vec4 F64)) Unit := do
  readIntMember (·.UCount) (fun u g => { g with UCount := u })
  readIntMember (·.VCount) (fun v g => { g with VCount := v })
  let g ← Load.get
  if g.UCount ≤ 0 ∨ g.VCount ≤ 0 then Load.fail .throws
  else do
    let cp_count ← Load.lift (gridCount g.UCount g.VCount)
    Load.modify fun g => { g with Values := resize g.Values cp_count.toNat junk }
    Load.forEach (fun _ i => Load.zoom (fun g => g.Values.getD i junk)
      (fun v g => { g with Values := g.Values.set i v }) ReadVec4FromStream) (List.range cp_count.toNat) ()

/-- Binary part of `Surface::LoadFromFile` – Surface.cpp:62-92. -/
def loadBinary (junk : Vec4 F64) : Load (Surface F64) Unit := do
  readIntMember (·.DegreeU) (fun d c => { c with DegreeU := d })
  readIntMember (·.DegreeV) (fun d c => { c with DegreeV := d })
  Load.zoom (·.KnotsU) (fun k c => { c with KnotsU := k }) ReadKnotVectorFromStream
  Load.zoom (·.KnotsV) (fun k c => { c with KnotsV := k }) ReadKnotVectorFromStream
  Load.zoom (·.ControlPoints) (fun k c => { c with ControlPoints := k }) (loadGrid junk)

/-- `Surface::LoadFromFile(std::istream&)` – Surface.cpp:25-258. -/
def LoadFromFile (junk : Vec4 F64) : Load (Surface F64) Unit := do
  let mode_binary ← readHeader (lit ['S', 'U', 'R', 'F', 'A', 'C', 'E'])
  if mode_binary then loadBinary junk else textLoop (processKey junk)

/-- `Surface::SaveToFile(std::ostream&, bool)` – Surface.cpp:281-368. -/
def SaveToFile (s : Surface F64) (binary_mode : Bool) : M Bytes :=
  if binary_mode then do
    let ku ← WriteKnotVectorToStream s.KnotsU
    let kv ← WriteKnotVectorToStream s.KnotsV
    let cp_count ← gridCount s.ControlPoints.UCount s.ControlPoints.VCount
    let pts ← forLt 0 cp_count (fun i (os : Bytes) => do
      return os ++ WriteVec4ToStream (← vget s.ControlPoints.Values i)) []
    return LIBNURBS_MAGIC ++ (lit [' ', 'B', 'I', 'N', ' ', 'S', 'U', 'R', 'F', 'A', 'C', 'E', '\n'] ++
      (intBytes s.DegreeU ++ (intBytes s.DegreeV ++ (ku ++ (kv ++
        (intBytes s.ControlPoints.UCount ++ (intBytes s.ControlPoints.VCount ++ pts)))))))
  else do
    let pts ← forLt 0 s.ControlPoints.VCount (fun v os =>
      forLt 0 s.ControlPoints.UCount (fun u (os : Bytes) => do
        return os ++ (vec4Text (← s.ControlPoints.Get u v) ++ [ch '\n'])) os) []
    return LIBNURBS_MAGIC ++ (lit [' ', 'T', 'X', 'T', ' ', 'S', 'U', 'R', 'F', 'A', 'C', 'E', '\n'] ++
      (lit ['*', 'D', 'e', 'g', 'r', 'e', 'e', 'U', ':', ' '] ++ (intText s.DegreeU ++ (ch '\n' ::
      (lit ['*', 'D', 'e', 'g', 'r', 'e', 'e', 'V', ':', ' '] ++ (intText s.DegreeV ++ (ch '\n' ::
      (lit ['*', 'K', 'n', 'o', 't', 's', 'U', ':', '\n'] ++ (knotsText s.KnotsU.Values ++ (ch '\n' ::
      (lit ['*', 'K', 'n', 'o', 't', 's', 'V', ':', '\n'] ++ (knotsText s.KnotsV.Values ++ (ch '\n' ::
      (lit ['*', 'C', 'o', 'n', 't', 'r', 'o', 'l', 'P', 'o', 'i', 'n', 't', 's', ':', '\n'] ++
      (intText s.ControlPoints.UCount ++ (ch ' ' :: (intText s.ControlPoints.VCount ++ (ch '\n' ::
      pts))))))))))))))))))

end Surface

end Nurbs
