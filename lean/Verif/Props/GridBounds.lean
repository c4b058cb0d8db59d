import Verif.Props.Utils

/-! # C15: what the grid does with indices out of range -/

namespace Nurbs.Props
open Nurbs

variable {α : Type}

/-- C15 (count): `Count` is the number of stored cells. -/
theorem C15_grid_count (g : Grid α) (U V : ℕ) (h : GridSized g U V) : g.Count = (g.Values.length : Int) := by
  unfold Grid.Count
  rw [h.1, h.2.1, h.2.2]
  push_cast
  ring

/-- C15 (cells, all indices): the assertion refuses exactly the indices that are too large; a negative index is not refused: it leads to
the cell that many places before, on another row, or (before the first cell) to undefined behaviour. -/
theorem C15_grid_any_index (g : Grid α) (U V : ℕ) (h : GridSized g U V) (u v : Int) :
    ((U : Int) ≤ u ∨ (V : Int) ≤ v → g.Get u v = .error .assert ∧ ∀ a, g.Set u v a = .error .assert) ∧
    (u < U → v < V → v * U + u < 0 → g.Get u v = .error .ub ∧ ∀ a, g.Set u v a = .error .ub) ∧
    (u < U → v < V → ∀ n : ℕ, v * U + u = n → ∃ a, g.Values[n]? = some a ∧ g.Get u v = .ok a ∧
      ∀ b, g.Set u v b = .ok { g with Values := g.Values.set n b }) := by
  unfold Grid.Get Grid.Set
  rw [h.1, h.2.1]
  refine ⟨fun hh => ?_, fun h1 h2 h3 => ?_, fun h1 h2 n hn => ?_⟩
  · rw [massert_false (by omega)]
    exact ⟨rfl, fun _ => rfl⟩
  · rw [massert_true ⟨h1, h2⟩]
    simp only [bind_ok]
    rw [vget_neg _ _ h3]
    refine ⟨rfl, fun a => ?_⟩
    unfold vset
    rw [if_neg (by omega)]
    rfl
  · rw [massert_true ⟨h1, h2⟩]
    simp only [bind_ok]
    have hlt : n < g.Values.length := by
      rw [h.2.2]
      have h4 : v * U + u < ((V * U : ℕ) : Int) := by
        push_cast
        have := mul_le_mul_of_nonneg_right (show v ≤ (V : Int) - 1 by omega) (show (0 : Int) ≤ U by omega)
        linarith
      omega
    refine ⟨g.Values[n], by simp [hlt], ?_, fun b => ?_⟩
    · rw [hn, vget_nat _ _ hlt]
    · unfold vset
      rw [hn, if_pos ⟨by omega, by simpa using hlt⟩, Int.toNat_natCast]
      rfl

/-- C15 (rows and columns): a row or column index that is too large, or values of the wrong number, are refused. -/
theorem C15_grid_refused [Inhabited α] (g : Grid α) (U V : ℕ) (h : GridSized g U V) (n : Int) (values : List α) :
    ((U : Int) ≤ n → g.GetU n = .error .assert) ∧ ((V : Int) ≤ n → g.GetV n = .error .assert) ∧
    ((U : Int) ≤ n ∨ values.length ≠ V → g.SetU n values = .error .assert) ∧
    ((V : Int) ≤ n ∨ values.length ≠ U → g.SetV n values = .error .assert) := by
  unfold Grid.GetU Grid.GetV Grid.SetU Grid.SetV
  rw [h.1, h.2.1]
  refine ⟨fun hh => by rw [massert_false (by omega)]; rfl, fun hh => by rw [massert_false (by omega)]; rfl, fun hh => ?_, fun hh => ?_⟩
  · by_cases hn : n < U
    · rw [massert_true hn, bind_ok, massert_false (by omega)]; rfl
    · rw [massert_false hn]; rfl
  · by_cases hn : n < V
    · rw [massert_true hn, bind_ok, massert_false (by omega)]; rfl
    · rw [massert_false hn]; rfl

/-- C16, C17 (refused): rows and columns are inserted before an existing one only. -/
theorem C16_insert_refused (g : Grid α) (U V : ℕ) (h : GridSized g U V) (n : Int) (d fill : α) :
    (n < 0 ∨ (V : Int) ≤ n → g.InsertV n d = .error .assert) ∧ (n < 0 ∨ (U : Int) ≤ n → g.InsertU n d fill = .error .assert) := by
  unfold Grid.InsertV Grid.InsertU
  rw [h.1, h.2.1]
  exact ⟨fun hh => by rw [massert_false (by omega)]; rfl, fun hh => by rw [massert_false (by omega)]; rfl⟩

/-- The column `-1` of the second row is the last cell of the first row. -/
example : (⟨2, 3, [1, 2, 3, 4, 5, 6]⟩ : Grid ℕ).Get (-1) 1 = .ok 2 ∧ (⟨2, 3, [1, 2, 3, 4, 5, 6]⟩ : Grid ℕ).Get (-1) 0 = .error .ub ∧
    (⟨2, 3, [1, 2, 3, 4, 5, 6]⟩ : Grid ℕ).Get 2 0 = .error .assert ∧ (⟨2, 3, [1, 2, 3, 4, 5, 6]⟩ : Grid ℕ).Count = 6 := by decide +kernel

end Nurbs.Props
