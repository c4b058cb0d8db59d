import Verif.Model.MathUtils
import Verif.Model.BoundingBox
import Verif.Proof.Loops
import Verif.Proof.Grid
import Mathlib.Data.Nat.Choose.Basic
import Mathlib.Data.Nat.Factorial.Basic
import Mathlib.Algebra.Order.Ring.Rat
import Mathlib.Tactic.NormNum
import Mathlib.Tactic.IntervalCases

/-! # C13 – C19: MathUtils, Grid, BoundingBox -/

namespace Nurbs.Props
open Nurbs

/-! ## C13 -/

/-- The value `result` holds right before the division in iteration `i`. -/
theorem choose_step (n i : ℕ) : n.choose i * (n - i) = n.choose (i + 1) * (i + 1) :=
  (Nat.choose_succ_right_eq n i).symm

/-- C13, general form: `Binomial(n,k)` is `n choose k` whenever the products `i * (n choose i)`,
`1 ≤ i ≤ k`, which are the intermediate values, fit in 32 bits; every division is exact.  If one does
not fit the behaviour is undefined. -/
theorem C13_binomial_exact (n k : ℕ) :
    ((∀ i, 1 ≤ i → i ≤ k → i * n.choose i ≤ 2147483647) → Binomial n k = .ok (n.choose k : Int)) ∧
    ((k ≤ n ∧ ∃ i, 1 ≤ i ∧ i ≤ k ∧ 2147483647 < i * n.choose i) → Binomial n k = .error .ub) := by
  have step : ∀ i, i < n → (n.choose i : Int) * ((n : Int) - (1 + i) + 1) = ((i + 1) * n.choose (i + 1) : ℕ) := by
    intro i hi
    have := choose_step n i
    rw [show (n : Int) - (1 + i) + 1 = ((n - i : ℕ) : Int) by rw [Nat.cast_sub hi.le]; ring, ← Nat.cast_mul, this,
      Nat.mul_comm]
  have body : ∀ i, i < n → (i + 1) * n.choose (i + 1) ≤ 2147483647 →
      (do let r ← int32 ((n.choose i : Int) * ((n : Int) - (1 + i) + 1)); Except.ok (r.tdiv (1 + i)) : M Int) =
        .ok (n.choose (i + 1) : Int) := by
    intro i hi hb
    rw [step i hi, int32, if_pos (by omega)]
    simp only [bind_ok, Except.ok.injEq]
    rw [Nat.cast_mul, show (1 + (i : Int)) = ((i + 1 : ℕ) : Int) by push_cast; ring]
    exact Int.mul_tdiv_cancel_left _ (by omega)
  constructor
  · intro h
    unfold Binomial
    by_cases hk : (k : Int) > n
    · rw [if_pos hk, Nat.choose_eq_zero_of_lt (by omega)]; rfl
    · rw [if_neg hk, forLe_eq_forUp _ _ k (by omega)]
      have := forUp_eq (fun i result => do
        let r ← int32 (result * ((n : Int) - i + 1)); Except.ok (r.tdiv i)) (fun i => (n.choose i : Int)) k 1 (by
          intro i hi
          exact body i (by omega) (h (i + 1) (by omega) (by omega)))
      simpa using this
  · rintro ⟨hkn, hex⟩
    -- first iteration that overflows
    obtain ⟨i, ⟨hi1, hik, hbig⟩, hmin⟩ : ∃ i, (1 ≤ i ∧ i ≤ k ∧ 2147483647 < i * n.choose i) ∧
        ∀ j, j < i → ¬ (1 ≤ j ∧ j ≤ k ∧ 2147483647 < j * n.choose j) := by
      classical
      exact ⟨Nat.find hex, Nat.find_spec hex, fun j hj => Nat.find_min hex hj⟩
    unfold Binomial
    rw [if_neg (by omega), forLe_eq_forUp _ _ k (by omega)]
    obtain ⟨m, rfl⟩ : ∃ m, i = m + 1 := ⟨i - 1, by omega⟩
    have gen : ∀ (r j : ℕ), j + r = m → ∀ t, m + 1 - j ≤ t → j + t ≤ n → forUp ((1 : Int) + j) t (fun i result => do
        let r ← int32 (result * ((n : Int) - i + 1)); Except.ok (r.tdiv i)) (n.choose j : Int) = .error .ub := by
      intro r
      induction r with
      | zero =>
        intro j hj t ht hjt
        obtain rfl : j = m := by omega
        obtain ⟨t, rfl⟩ : ∃ t', t = t' + 1 := ⟨t - 1, by omega⟩
        simp only [forUp]
        rw [step j (by omega), int32, if_neg (by omega)]
        rfl
      | succ r ih =>
        intro j hj t ht hjt
        obtain ⟨t, rfl⟩ : ∃ t', t = t' + 1 := ⟨t - 1, by omega⟩
        simp only [forUp]
        rw [body j (by omega) (by have := hmin (j + 1) (by omega); push Not at this; exact this (by omega) (by omega))]
        simp only [bind_ok]
        have := ih (j + 1) (by omega) t (by omega) (by omega)
        rw [show (1 : Int) + j + 1 = 1 + ((j + 1 : ℕ) : Int) by push_cast; ring]
        exact this
    have := gen m 0 (by omega) k (by omega) (by omega)
    simpa using this

/-- C13: for `n ≤ 29` and every `k ≥ 0` the result is `n choose k` without overflow. -/
theorem C13_binomial (n : ℕ) (hn : n ≤ 29) (k : ℕ) : Binomial n k = .ok (n.choose k : Int) := by
  apply (C13_binomial_exact n k).1
  intro i h1 _
  rcases Nat.lt_or_ge n i with h | h
  · rw [Nat.choose_eq_zero_of_lt h]; omega
  · have : ∀ n < 30, ∀ i < 30, i * n.choose i ≤ 2147483647 := by decide
    exact this n (by omega) i (by omega)

/-- C13: at `n = 30` the 32-bit product overflows. -/
theorem C13_binomial_overflow : Binomial 30 15 = .error .ub := by decide +kernel

/-- C13: a negative `k` gives 1 (mathematically 0) and `k > n` gives 0. -/
theorem C13_binomial_edge (n k : Int) : (k > n → Binomial n k = .ok 0) ∧ (k < 0 → k ≤ n → Binomial n k = .ok 1) := by
  constructor
  · intro h; simp [Binomial, h]
  · intro h h2
    unfold Binomial
    rw [if_neg (by omega), forLe_eq_forUp _ _ 0 (by omega)]; rfl

example : Binomial 10 3 = .ok 120 := by decide +kernel
example : ∀ i, 1 ≤ i → i ≤ 2 → i * (1000).choose i ≤ 2147483647 := by
  intro i h1 h2
  interval_cases i
  · simp
  · rw [Nat.choose_two_right]; norm_num

/-! ## C14 -/

/-- C14: `Factorial` is `n!` on `0..9`, and asserts elsewhere. -/
theorem C14_factorial (n : Int) :
    (0 ≤ n → n ≤ 9 → Factorial n = .ok (n.toNat.factorial : Int)) ∧
    (n < 0 ∨ 9 < n → Factorial n = .error .assert) := by
  constructor
  · intro h0 h9
    interval_cases n <;> decide
  · intro h
    unfold Factorial
    rw [massert_false (by omega)]; rfl

/-! ## Grid -/

/-- The storage of the grid matches its (natural) dimensions. -/
def GridSized {α : Type} (g : Grid α) (U V : ℕ) : Prop :=
  g.UCount = U ∧ g.VCount = V ∧ g.Values.length = V * U

variable {α : Type}

theorem gridSized_gridOf (U V : ℕ) (f : ℕ → ℕ → α) : GridSized (gridOf U V f) U V := ⟨rfl, rfl, by simp [gridOf]⟩

/-- C15 (reading): columns, rows and cells agree, and every in-range access succeeds. -/
theorem C15_grid_read [Inhabited α] (g : Grid α) (U V : ℕ) (h : GridSized g U V) (u v : ℕ) (hu : u < U) (hv : v < V) :
    ∃ (a : α) (col row : List α), g.Get u v = .ok a ∧ g.GetU u = .ok col ∧ g.GetV v = .ok row ∧
      col.length = V ∧ row.length = U ∧ col[v]? = some a ∧ row[u]? = some a ∧ g.Values[v * U + u]? = some a := by
  rw [exists_gridOf g U V h.1 h.2.1 h.2.2]
  set f : ℕ → ℕ → α := fun u v => g.Values.getD (v * U + u) default
  refine ⟨f u v, tab V (f u), tab U (fun u => f u v), get_gridOf _ _ _ _ _ u v rfl rfl hu hv,
    getU_gridOf _ _ _ _ u rfl hu, getV_gridOf _ _ _ _ v rfl hv, by simp, by simp, tab_getElem? _ _ _ hv,
    tab_getElem? _ _ _ hu, ?_⟩
  simp only [gridOf]
  rw [tab_getElem? _ _ _ (cell_lt hu hv), cell_div hu, cell_mod hu]

/-- C15 (writing): a written cell, column or row reads back, every other cell is unchanged. -/
theorem C15_grid_write [Inhabited α] (g : Grid α) (U V : ℕ) (h : GridSized g U V) (u v : ℕ) (hu : u < U) (hv : v < V) :
    (∀ a, ∃ g', g.Set u v a = .ok g' ∧ GridSized g' U V ∧ ∀ x < U, ∀ y < V,
      g'.Get x y = if x = u ∧ y = v then .ok a else g.Get x y) ∧
    (∀ col : List α, col.length = V → ∃ g', g.SetU u col = .ok g' ∧ GridSized g' U V ∧ g'.GetU u = .ok col ∧
      ∀ x < U, ∀ y < V, x ≠ u → g'.Get x y = g.Get x y) ∧
    (∀ row : List α, row.length = U → ∃ g', g.SetV v row = .ok g' ∧ GridSized g' U V ∧ g'.GetV v = .ok row ∧
      ∀ x < U, ∀ y < V, y ≠ v → g'.Get x y = g.Get x y) := by
  rw [exists_gridOf g U V h.1 h.2.1 h.2.2]
  set f : ℕ → ℕ → α := fun u v => g.Values.getD (v * U + u) default
  refine ⟨fun a => ?_, fun col hcol => ?_, fun row hrow => ?_⟩
  · refine ⟨gridOf U V fun x y => if x = u ∧ y = v then a else f x y,
      set_gridOf U V f _ _ _ u v a rfl rfl hu hv (fun _ _ _ _ => rfl), gridSized_gridOf _ _ _, ?_⟩
    intro x hx y hy
    rw [get_gridOf _ _ _ _ _ x y rfl rfl hx hy, get_gridOf _ _ _ _ _ x y rfl rfl hx hy]
    split <;> rfl
  · have e := eq_tab col (fun i => col.getD i default) (by intro i hi; simp [List.getD_eq_getElem?_getD, hi])
    rw [hcol] at e
    rw [e]
    refine ⟨_, setU_gridOf U V f _ u _ rfl hu, gridSized_gridOf _ _ _, ?_, ?_⟩
    · rw [getU_gridOf _ _ _ _ u rfl hu]; simp
    · intro x hx y hy hne
      rw [get_gridOf _ _ _ _ _ x y rfl rfl hx hy, get_gridOf _ _ _ _ _ x y rfl rfl hx hy, if_neg hne]
  · have e := eq_tab row (fun i => row.getD i default) (by intro i hi; simp [List.getD_eq_getElem?_getD, hi])
    rw [hrow] at e
    rw [e]
    refine ⟨_, setV_gridOf U V f _ v _ rfl hv, gridSized_gridOf _ _ _, ?_, ?_⟩
    · rw [getV_gridOf _ _ _ _ v rfl hv]; simp
    · intro x hx y hy hne
      rw [get_gridOf _ _ _ _ _ x y rfl rfl hx hy, get_gridOf _ _ _ _ _ x y rfl rfl hx hy, if_neg hne]

/-- C15: the constructor makes a grid of the requested size filled with the initial value. -/
theorem C15_grid_new (U V : ℕ) (a : α) : ∃ g, Grid.mk' (U : Int) (V : Int) a = .ok g ∧ GridSized g U V ∧
    ∀ x < U, ∀ y < V, g.Get x y = .ok a :=
  ⟨_, mk'_gridOf U V a, gridSized_gridOf _ _ _, fun x hx y hy => get_gridOf _ _ _ _ _ x y rfl rfl hx hy⟩

/-- C16: `InsertV` inserts one row. -/
theorem C16_insertV [Inhabited α] (g : Grid α) (U V : ℕ) (h : GridSized g U V) (v : ℕ) (hv : v < V) (d : α) :
    ∃ g', g.InsertV v d = .ok g' ∧ GridSized g' U (V + 1) ∧
      ∀ x < U, (∀ y < v, g'.Get x y = g.Get x y) ∧ g'.Get x v = .ok d ∧
        (∀ y : ℕ, v ≤ y → y < V → g'.Get x ((y + 1 : ℕ) : Int) = g.Get x y) := by
  rw [exists_gridOf g U V h.1 h.2.1 h.2.2]
  set f : ℕ → ℕ → α := fun u v => g.Values.getD (v * U + u) default
  refine ⟨_, insertV_gridOf U V f _ v d rfl hv, gridSized_gridOf _ _ _, fun x hx => ⟨fun y hy => ?_, ?_, fun y h1 h2 => ?_⟩⟩
  · rw [get_gridOf _ _ _ _ _ x y rfl rfl hx (by omega), get_gridOf _ _ _ _ _ x y rfl rfl hx (by omega), if_pos hy]
  · rw [get_gridOf _ _ _ _ _ x v rfl rfl hx (by omega), if_neg (by omega), if_pos rfl]
  · rw [get_gridOf _ _ _ _ _ x (y + 1) rfl rfl hx (by omega), get_gridOf _ _ _ _ _ x y rfl rfl hx (by omega),
      if_neg (by omega), if_neg (by omega)]; rfl

/-- C17: `InsertU` inserts one column (in place), all accesses in bounds. -/
theorem C17_insertU [Inhabited α] (g : Grid α) (U V : ℕ) (h : GridSized g U V) (u : ℕ) (hu : u < U) (d fill : α) :
    ∃ g', g.InsertU u d fill = .ok g' ∧ GridSized g' (U + 1) V ∧
      ∀ y < V, (∀ x < u, g'.Get x y = g.Get x y) ∧ g'.Get u y = .ok d ∧
        (∀ x : ℕ, u ≤ x → x < U → g'.Get ((x + 1 : ℕ) : Int) y = g.Get x y) := by
  rw [exists_gridOf g U V h.1 h.2.1 h.2.2]
  set f : ℕ → ℕ → α := fun u v => g.Values.getD (v * U + u) default
  refine ⟨_, insertU_gridOf U V f _ u d fill rfl hu, gridSized_gridOf _ _ _, fun y hy => ⟨fun x hx => ?_, ?_, fun x h1 h2 => ?_⟩⟩
  · rw [get_gridOf _ _ _ _ _ x y rfl rfl (by omega) hy, get_gridOf _ _ _ _ _ x y rfl rfl (by omega) hy, if_pos hx]
  · rw [get_gridOf _ _ _ _ _ u y rfl rfl (by omega) hy, if_neg (by omega), if_pos rfl]
  · rw [get_gridOf _ _ _ _ _ (x + 1) y rfl rfl (by omega) hy, get_gridOf _ _ _ _ _ x y rfl rfl (by omega) hy,
      if_neg (by omega), if_neg (by omega)]; rfl

example : GridSized (⟨2, 3, [1, 2, 3, 4, 5, 6]⟩ : Grid ℕ) 2 3 := ⟨rfl, rfl, rfl⟩
example : (⟨2, 3, [1, 2, 3, 4, 5, 6]⟩ : Grid ℕ).InsertU 1 9 0 = .ok ⟨3, 3, [1, 9, 2, 3, 9, 4, 5, 9, 6]⟩ := by
  decide +kernel
example : (⟨2, 3, [1, 2, 3, 4, 5, 6]⟩ : Grid ℕ).InsertV 1 9 = .ok ⟨2, 4, [1, 2, 9, 9, 3, 4, 5, 6]⟩ := by
  decide +kernel

/-! ## BoundingBox -/

/-- Spec: a point lies in the closed axis-parallel box `[lo, hi]`. -/
def InBox {K : Type} [LE K] (lo hi p : Vec3 K) : Prop :=
  lo.x ≤ p.x ∧ lo.y ≤ p.y ∧ lo.z ≤ p.z ∧ p.x ≤ hi.x ∧ p.y ≤ hi.y ∧ p.z ≤ hi.z

variable {K : Type} [LinearOrder K]

theorem containsPoint_iff (b : BoundingBox K) (p : Vec3 K) : b.ContainsPoint p = true ↔ InBox b.Min b.Max p := by
  simp only [BoundingBox.ContainsPoint, InBox, Bool.and_eq_true, decide_eq_true_eq, ge_iff_le]; tauto

/-- C18: the constructor gives the smallest box containing both points; `ExpandToInclude(box)` the
smallest box containing both boxes; `Contains(box)` for an ordered box is containment of all points. -/
theorem C18_box_tight :
    (∀ a b : Vec3 K, (BoundingBox.ofPoints a b).ContainsPoint a = true ∧
      (BoundingBox.ofPoints a b).ContainsPoint b = true ∧
      ∀ lo hi, InBox lo hi a → InBox lo hi b → ∀ p, (BoundingBox.ofPoints a b).ContainsPoint p = true → InBox lo hi p) ∧
    (∀ x y : BoundingBox K, (∀ p, x.ContainsPoint p = true → (x.ExpandToIncludeBox y).ContainsPoint p = true) ∧
      (∀ p, y.ContainsPoint p = true → (x.ExpandToIncludeBox y).ContainsPoint p = true) ∧
      ∀ lo hi, InBox lo hi x.Min → InBox lo hi x.Max → InBox lo hi y.Min → InBox lo hi y.Max →
        ∀ p, (x.ExpandToIncludeBox y).ContainsPoint p = true → InBox lo hi p) ∧
    (∀ x y : BoundingBox K, (∃ p, y.ContainsPoint p = true) →
      (x.ContainsBox y = true ↔ ∀ p, y.ContainsPoint p = true → x.ContainsPoint p = true)) := by
  simp only [containsPoint_iff]
  refine ⟨fun a b => ⟨?_, ?_, ?_⟩, fun x y => ⟨?_, ?_, ?_⟩, fun x y hy => ?_⟩
  · simp [InBox, BoundingBox.ofPoints, Vec3.cwiseMin, Vec3.cwiseMax]
  · simp [InBox, BoundingBox.ofPoints, Vec3.cwiseMin, Vec3.cwiseMax]
  · rintro lo hi ⟨a1, a2, a3, a4, a5, a6⟩ ⟨b1, b2, b3, b4, b5, b6⟩ p ⟨p1, p2, p3, p4, p5, p6⟩
    simp only [BoundingBox.ofPoints, Vec3.cwiseMin, Vec3.cwiseMax] at p1 p2 p3 p4 p5 p6
    exact ⟨(le_min a1 b1).trans p1, (le_min a2 b2).trans p2, (le_min a3 b3).trans p3,
      p4.trans (max_le a4 b4), p5.trans (max_le a5 b5), p6.trans (max_le a6 b6)⟩
  · rintro p ⟨p1, p2, p3, p4, p5, p6⟩
    simp only [InBox, BoundingBox.ExpandToIncludeBox, Vec3.cwiseMin, Vec3.cwiseMax]
    exact ⟨(min_le_left _ _).trans p1, (min_le_left _ _).trans p2, (min_le_left _ _).trans p3,
      p4.trans (le_max_left _ _), p5.trans (le_max_left _ _), p6.trans (le_max_left _ _)⟩
  · rintro p ⟨p1, p2, p3, p4, p5, p6⟩
    simp only [InBox, BoundingBox.ExpandToIncludeBox, Vec3.cwiseMin, Vec3.cwiseMax]
    exact ⟨(min_le_right _ _).trans p1, (min_le_right _ _).trans p2, (min_le_right _ _).trans p3,
      p4.trans (le_max_right _ _), p5.trans (le_max_right _ _), p6.trans (le_max_right _ _)⟩
  · rintro lo hi ⟨a1, a2, a3, _⟩ ⟨_, _, _, a4, a5, a6⟩ ⟨b1, b2, b3, _⟩ ⟨_, _, _, b4, b5, b6⟩ p ⟨p1, p2, p3, p4, p5, p6⟩
    simp only [BoundingBox.ExpandToIncludeBox, Vec3.cwiseMin, Vec3.cwiseMax] at p1 p2 p3 p4 p5 p6
    exact ⟨(le_min a1 b1).trans p1, (le_min a2 b2).trans p2, (le_min a3 b3).trans p3,
      p4.trans (max_le a4 b4), p5.trans (max_le a5 b5), p6.trans (max_le a6 b6)⟩
  · obtain ⟨q, q1, q2, q3, q4, q5, q6⟩ := hy
    simp only [BoundingBox.ContainsBox, Bool.and_eq_true, containsPoint_iff]
    constructor
    · rintro ⟨⟨a1, a2, a3, _⟩, ⟨_, _, _, a4, a5, a6⟩⟩ p ⟨p1, p2, p3, p4, p5, p6⟩
      exact ⟨a1.trans p1, a2.trans p2, a3.trans p3, p4.trans a4, p5.trans a5, p6.trans a6⟩
    · intro h
      exact ⟨h _ ⟨le_refl _, le_refl _, le_refl _, q1.trans q4, q2.trans q5, q3.trans q6⟩,
        h _ ⟨q1.trans q4, q2.trans q5, q3.trans q6, le_refl _, le_refl _, le_refl _⟩⟩

example : ∃ p, (BoundingBox.ofPoints (⟨0, 2, 1⟩ : Vec3 ℚ) ⟨1, -1, 1⟩).ContainsPoint p = true :=
  ⟨⟨1/2, 0, 1⟩, by decide +kernel⟩

/-- C19 is false of the code: a box `[0,2]^3` expanded by `(1,1,1)` no longer contains `(2,2,2)`. -/
theorem C19_expand_point_refuted :
    ¬ ∀ (b : BoundingBox ℚ) (p q : Vec3 ℚ), b.ContainsPoint q = true →
      (b.ExpandToIncludePoint p).ContainsPoint p = true ∧ (b.ExpandToIncludePoint p).ContainsPoint q = true := by
  intro h
  have := (h ⟨⟨0, 0, 0⟩, ⟨2, 2, 2⟩⟩ ⟨1, 1, 1⟩ ⟨2, 2, 2⟩ (by decide +kernel)).2
  revert this
  decide +kernel

/-- C19, what does hold: the new point is contained, the old lower corner bound is kept, and the
upper corner becomes exactly the new point (so the old upper bound is lost).
Missing: old points are kept only if they do not exceed the new point. -/
theorem C19_expand_point_partial (b : BoundingBox K) (p : Vec3 K) :
    (b.ExpandToIncludePoint p).ContainsPoint p = true ∧
    (b.ExpandToIncludePoint p).Max = p ∧
    (∀ q, b.ContainsPoint q = true → ((b.ExpandToIncludePoint p).ContainsPoint q = true ↔
      (q.x ≤ p.x ∧ q.y ≤ p.y ∧ q.z ≤ p.z))) := by
  have hmax : (b.ExpandToIncludePoint p).Max = p := by
    simp only [BoundingBox.ExpandToIncludePoint, Vec3.cwiseMin, Vec3.cwiseMax]
    ext <;> simp
  refine ⟨?_, hmax, fun q hq => ?_⟩
  · rw [containsPoint_iff, hmax]
    simp [InBox, BoundingBox.ExpandToIncludePoint, Vec3.cwiseMin]
  · rw [containsPoint_iff] at hq ⊢
    rw [hmax]
    obtain ⟨q1, q2, q3, _⟩ := hq
    simp only [InBox, BoundingBox.ExpandToIncludePoint, Vec3.cwiseMin]
    constructor
    · rintro ⟨_, _, _, h4, h5, h6⟩; exact ⟨h4, h5, h6⟩
    · rintro ⟨h4, h5, h6⟩
      exact ⟨(min_le_left _ _).trans q1, (min_le_left _ _).trans q2, (min_le_left _ _).trans q3, h4, h5, h6⟩

example : (BoundingBox.mk (⟨0, 0, 0⟩ : Vec3 ℚ) ⟨2, 2, 2⟩).ContainsPoint ⟨1, 0, 2⟩ = true := by decide +kernel

end Nurbs.Props
