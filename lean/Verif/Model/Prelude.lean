import Mathlib.Algebra.Order.Field.Basic
import Mathlib.Algebra.Module.Defs

/-!
# Outcome monad and C++ vector / loop primitives used by the model

Nothing here models a libnurbs function; these are the C++ language primitives the code is
written with.  Undefined behaviour, failed `assert`s, exceptions and floating-point divisions by
zero are distinct outcomes.
-/

namespace Nurbs

/-- The ways a C++ call can leave the happy path. -/
inductive Err
  /-- a C++ exception is thrown -/
  | throws
  /-- an `assert` fails (debug builds abort here) -/
  | assert
  /-- undefined behaviour: out-of-range element access, signed overflow, ... -/
  | ub
  /-- a floating point division by zero, i.e. the result leaves the finite numbers -/
  | nonfinite
  /-- a loop did not end within the fuel given to the model -/
  | diverge
  deriving DecidableEq, Repr

/-- Outcome of a modelled C++ function. -/
abbrev M := Except Err

/-- Decidable equality of outcomes, used when concrete runs are compared. -/
instance {α : Type} [DecidableEq α] : DecidableEq (M α) := fun a b =>
  match a, b with
  | .ok x, .ok y => if h : x = y then isTrue (by rw [h]) else isFalse (by simpa using h)
  | .error x, .error y => if h : x = y then isTrue (by rw [h]) else isFalse (by simpa using h)
  | .ok _, .error _ => isFalse (by simp)
  | .error _, .ok _ => isFalse (by simp)

/-- `assert(p)` -/
def massert (p : Prop) [Decidable p] : M Unit := if p then .ok () else .error .assert

/-- `if (!p) throw ...;` -/
def mthrowUnless (p : Prop) [Decidable p] : M Unit := if p then .ok () else .error .throws

/-- `v[i]` on a `std::vector` (or Eigen vector); any index outside the vector is `ub`. -/
def vget {α : Type} (l : List α) (i : Int) : M α :=
  if h : 0 ≤ i ∧ i.toNat < l.length then .ok (l[i.toNat]'h.2) else .error .ub

/-- `v[i] = a` on a `std::vector` (or Eigen vector). -/
def vset {α : Type} (l : List α) (i : Int) (a : α) : M (List α) :=
  if 0 ≤ i ∧ i.toNat < l.length then .ok (l.set i.toNat a) else .error .ub

/-- `std::vector<T>(n, init)` / `VecX::Zero(n)`; a negative size is an exception
(`std::length_error`) for `std::vector` and an assertion for Eigen; the model uses `throws`. -/
def vnew {α : Type} (n : Int) (init : α) : M (List α) :=
  if 0 ≤ n then .ok (List.replicate n.toNat init) else .error .throws

/-- `v.resize(n)` with fill value `fill` for new elements. -/
def vresize {α : Type} (l : List α) (n : Int) (fill : α) : M (List α) :=
  if 0 ≤ n then .ok (l.take n.toNat ++ List.replicate (n.toNat - l.length) fill) else .error .throws

/-- `v.insert(v.begin() + i, n, a)`; the iterator must be in `[begin, end]`. -/
def vinsert {α : Type} (l : List α) (i : Int) (n : Nat) (a : α) : M (List α) :=
  if 0 ≤ i ∧ i.toNat ≤ l.length then
    .ok (l.take i.toNat ++ List.replicate n a ++ l.drop i.toNat)
  else .error .ub

/-- Row-major matrix `m(i,j)` read, with bounds. -/
def mget {α : Type} (m : List (List α)) (i j : Int) : M α := do vget (← vget m i) j

/-- Matrix write `m(i,j) = a`, with bounds. -/
def mset {α : Type} (m : List (List α)) (i j : Int) (a : α) : M (List (List α)) := do
  vset m i (← vset (← vget m i) j a)

/-- Floating-point division; division by zero is the distinct outcome `nonfinite`. -/
def fdiv {K : Type} [Div K] [Zero K] [DecidableEq K] (a b : K) : M K :=
  if b = 0 then .error .nonfinite else .ok (a / b)

/-- `n` iterations of a counting-up loop whose counter starts at `lo`. -/
def forUp {σ : Type} (lo : Int) : Nat → (Int → σ → M σ) → σ → M σ
  | 0, _, s => .ok s
  | n + 1, f, s => f lo s >>= fun s' => forUp (lo + 1) n f s'

/-- `for (int i = lo; i < hi; ++i) s = f(i, s);` -/
def forLt {σ : Type} (lo hi : Int) (f : Int → σ → M σ) (s : σ) : M σ :=
  forUp lo (hi - lo).toNat f s

/-- `for (int i = lo; i <= hi; ++i) s = f(i, s);` -/
def forLe {σ : Type} (lo hi : Int) (f : Int → σ → M σ) (s : σ) : M σ :=
  forUp lo (hi + 1 - lo).toNat f s

/-- `n` iterations of a counting-down loop whose counter starts at `hi`. -/
def forDn {σ : Type} (hi : Int) : Nat → (Int → σ → M σ) → σ → M σ
  | 0, _, s => .ok s
  | n + 1, f, s => f hi s >>= fun s' => forDn (hi - 1) n f s'

/-- `for (int i = hi; i >= lo; --i) s = f(i, s);` -/
def forGe {σ : Type} (hi lo : Int) (f : Int → σ → M σ) (s : σ) : M σ :=
  forDn hi (hi + 1 - lo).toNat f s

/-- `while (c(s)) s = f(s);` with an iteration budget; running out of it is `diverge`. -/
def whileM {σ : Type} : Nat → (σ → M Bool) → (σ → M σ) → σ → M σ
  | 0, _, _, _ => .error .diverge
  | n + 1, c, f, s => c s >>= fun b => if b then f s >>= fun s' => whileM n c f s' else .ok s

/-- Range-based `for (auto& x : l) x = f(x);` / building a vector elementwise. -/
def mapMList {α β : Type} (f : α → M β) : List α → M (List β)
  | [] => .ok []
  | a :: l => f a >>= fun b => mapMList f l >>= fun bs => .ok (b :: bs)

/-- Range-based `for (auto x : l) s = f(x, s);` -/
def foldMList {α σ : Type} (f : α → σ → M σ) : List α → σ → M σ
  | [], s => .ok s
  | a :: l, s => f a s >>= fun s' => foldMList f l s'

end Nurbs
