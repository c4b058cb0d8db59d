import Verif.Model.Prelude

/-! # Model of `include/libnurbs/Core/Grid.hpp` -/

namespace Nurbs

/-- `Grid<T>` – Grid.hpp:8-14; default counts are `INVALID_INDEX = -1`. -/
@[ext] structure Grid (α : Type) where
  UCount : Int := -1
  VCount : Int := -1
  Values : List α := []
  deriving DecidableEq, Repr

namespace Grid
variable {α : Type}

/-- `Grid(u_count, v_count, init)` – Grid.hpp:19-31 (`init` is `T()` for the two-argument form). -/
def mk' (u v : Int) (init : α) : M (Grid α) := do
  let vals ← vnew (u * v) init
  return ⟨u, v, vals⟩

/-- `Get` (read) – Grid.hpp:48-52 (and 42-46). -/
def Get (g : Grid α) (u v : Int) : M α := do
  massert (u < g.UCount ∧ v < g.VCount)
  vget g.Values (v * g.UCount + u)

/-- `Get(u,v) = a` (write through the returned reference) – Grid.hpp:42-46. -/
def Set (g : Grid α) (u v : Int) (a : α) : M (Grid α) := do
  massert (u < g.UCount ∧ v < g.VCount)
  let vals ← vset g.Values (v * g.UCount + u) a
  return { g with Values := vals }

/-- `GetU` – Grid.hpp:54-63.  `result(VCount)` filled index by index. -/
def GetU [Inhabited α] (g : Grid α) (index_u : Int) : M (List α) := do
  massert (index_u < g.UCount)
  let result ← vnew g.VCount default
  forLt 0 g.VCount (fun i result => do
    vset result i (← vget g.Values (i * g.UCount + index_u))) result

/-- `GetV` – Grid.hpp:65-74. -/
def GetV [Inhabited α] (g : Grid α) (index_v : Int) : M (List α) := do
  massert (index_v < g.VCount)
  let result ← vnew g.UCount default
  forLt 0 g.UCount (fun i result => do
    vset result i (← vget g.Values (index_v * g.UCount + i))) result

/-- `SetU` – Grid.hpp:76-84. -/
def SetU (g : Grid α) (index_u : Int) (values : List α) : M (Grid α) := do
  massert (index_u < g.UCount)
  massert ((values.length : Int) = g.VCount)
  let vals ← forLt 0 g.VCount (fun i vals => do
    vset vals (i * g.UCount + index_u) (← vget values i)) g.Values
  return { g with Values := vals }

/-- `SetV` – Grid.hpp:86-94. -/
def SetV (g : Grid α) (index_v : Int) (values : List α) : M (Grid α) := do
  massert (index_v < g.VCount)
  massert ((values.length : Int) = g.UCount)
  let vals ← forLt 0 g.UCount (fun i vals => do
    vset vals (index_v * g.UCount + i) (← vget values i)) g.Values
  return { g with Values := vals }

/-- `Count` – Grid.hpp:96-99. -/
def Count (g : Grid α) : Int := g.UCount * g.VCount

/-- `InsertV` – Grid.hpp:101-107.  A negative `UCount` becomes a huge `size_t`, for which `insert` throws
`std::length_error`. -/
def InsertV (g : Grid α) (v_index : Int) (default_value : α) : M (Grid α) := do
  massert (v_index ≥ 0 ∧ v_index < g.VCount)
  let vals ← vinsert g.Values (v_index * g.UCount) g.UCount.toNat default_value
  mthrowUnless (0 ≤ g.UCount)
  return { g with Values := vals, VCount := g.VCount + 1 }

/-- `InsertU` – Grid.hpp:109-132: grow, then move rows backwards in place.  `fill` is the value
`resize` gives the new tail elements (`T()`); it is always overwritten. -/
def InsertU (g : Grid α) (u_index : Int) (default_value : α) (fill : α) : M (Grid α) := do
  massert (u_index ≥ 0 ∧ u_index < g.UCount)
  let float_idx : Int := g.UCount * g.VCount - 1
  let UCount := g.UCount + 1
  let Values ← vresize g.Values (UCount * g.VCount) fill
  let (Values, _) ← forGe (g.VCount - 1) 0 (fun it_v (Values, float_idx) => do
    let start_idx := it_v * UCount
    let insertion_idx := start_idx + u_index
    let end_idx := (it_v + 1) * UCount
    let (Values, float_idx) ← forGe (end_idx - 1) (insertion_idx + 1) (fun i (Values, float_idx) => do
      let Values ← vset Values i (← vget Values float_idx)
      return (Values, float_idx - 1)) (Values, float_idx)
    let (Values, float_idx) ← forGe (insertion_idx - 1) start_idx (fun i (Values, float_idx) => do
      let Values ← vset Values i (← vget Values float_idx)
      return (Values, float_idx - 1)) (Values, float_idx)
    let Values ← vset Values insertion_idx default_value
    return (Values, float_idx)) (Values, float_idx)
  return ⟨UCount, g.VCount, Values⟩

end Grid
end Nurbs
