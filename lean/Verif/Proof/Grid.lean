import Verif.Model.Grid
import Verif.Proof.Loops

/-! # Lemmas about grids -/

namespace Nurbs

variable {α : Type}

/-- The grid with cell `(u,v) = f u v`. -/
def gridOf (U V : ℕ) (f : ℕ → ℕ → α) : Grid α :=
  ⟨U, V, tab (V * U) fun i => f (i % U) (i / U)⟩

@[simp] theorem gridOf_UCount (U V : ℕ) (f : ℕ → ℕ → α) : (gridOf U V f).UCount = U := rfl
@[simp] theorem gridOf_VCount (U V : ℕ) (f : ℕ → ℕ → α) : (gridOf U V f).VCount = V := rfl

theorem cell_lt {U V u v : ℕ} (hu : u < U) (hv : v < V) : v * U + u < V * U := by nlinarith

theorem cell_div {U u v : ℕ} (hu : u < U) : (v * U + u) / U = v := by
  rw [Nat.add_comm, Nat.add_mul_div_right _ _ (by omega), Nat.div_eq_of_lt hu]; simp

theorem cell_mod {U u v : ℕ} (hu : u < U) : (v * U + u) % U = u := by
  rw [Nat.add_comm, Nat.add_mul_mod_self_right, Nat.mod_eq_of_lt hu]

theorem gridOf_congr {U V : ℕ} {f g : ℕ → ℕ → α} (h : ∀ u < U, ∀ v < V, f u v = g u v) :
    gridOf U V f = gridOf U V g := by
  unfold gridOf
  congr 1
  apply tab_congr
  intro i hi
  have hU : 0 < U := by rcases Nat.eq_zero_or_pos U with h | h; (subst h; simp at hi); exact h
  exact h _ (Nat.mod_lt _ hU) _ (by rw [Nat.div_lt_iff_lt_mul hU]; exact hi)

/-- Every grid whose storage matches its dimensions is a `gridOf`. -/
theorem eq_gridOf (g : Grid α) (U V : ℕ) (hU : g.UCount = U) (hV : g.VCount = V)
    (hl : g.Values.length = V * U) (f : ℕ → ℕ → α)
    (hf : ∀ u < U, ∀ v < V, g.Values[v * U + u]? = some (f u v)) : g = gridOf U V f := by
  obtain ⟨a, b, l⟩ := g
  simp only at hU hV hl hf
  subst hU hV
  unfold gridOf
  congr 1
  rw [← hl]
  apply eq_tab
  intro i hi
  have hU : 0 < U := by rcases Nat.eq_zero_or_pos U with h | h; (subst h; simp at hl; subst hl; simp at hi); exact h
  have := hf (i % U) (Nat.mod_lt _ hU) (i / U) (by rw [Nat.div_lt_iff_lt_mul hU]; omega)
  rw [Nat.div_add_mod', List.getElem?_eq_some_iff] at this
  exact this.2

theorem exists_gridOf [Inhabited α] (g : Grid α) (U V : ℕ) (hU : g.UCount = U) (hV : g.VCount = V)
    (hl : g.Values.length = V * U) :
    g = gridOf U V (fun u v => g.Values.getD (v * U + u) default) := by
  apply eq_gridOf g U V hU hV hl
  intro u hu v hv
  have := cell_lt hu hv
  simp [List.getD_eq_getElem?_getD, hl, this]

theorem mk'_gridOf (U V : ℕ) (a : α) : Grid.mk' (U : Int) (V : Int) a = .ok (gridOf U V fun _ _ => a) := by
  unfold Grid.mk' gridOf
  rw [vnew_of _ (V * U) _ (by push_cast; ring), replicate_eq_tab]; rfl

theorem get_gridOf (U V : ℕ) (f : ℕ → ℕ → α) (i j : Int) (u v : ℕ) (hi : i = u) (hj : j = v) (hu : u < U)
    (hv : v < V) : (gridOf U V f).Get i j = .ok (f u v) := by
  subst hi hj
  unfold Grid.Get
  rw [massert_true (by simp; omega)]
  simp only [bind_ok, gridOf]
  rw [vget_tab _ _ _ (v * U + u) (by push_cast; ring) (cell_lt hu hv), cell_div hu, cell_mod hu]

theorem set_gridOf (U V : ℕ) (f f' : ℕ → ℕ → α) (i j : Int) (u v : ℕ) (a : α) (hi : i = u) (hj : j = v)
    (hu : u < U) (hv : v < V) (hf' : ∀ x < U, ∀ y < V, f' x y = if x = u ∧ y = v then a else f x y) :
    (gridOf U V f).Set i j a = .ok (gridOf U V f') := by
  subst hi hj
  unfold Grid.Set
  rw [massert_true (by simp; omega)]
  simp only [bind_ok, gridOf]
  rw [vset_tab' _ _ (fun i => f' (i % U) (i / U)) _ (v * U + u) a (by push_cast; ring) (cell_lt hu hv)]
  · rfl
  · intro k hk
    have hU : 0 < U := by omega
    rw [hf' _ (Nat.mod_lt _ hU) _ (by rw [Nat.div_lt_iff_lt_mul hU]; exact hk)]
    by_cases h : k = v * U + u
    · subst h; simp [cell_div hu, cell_mod hu]
    · rw [if_neg h, if_neg]
      rintro ⟨h1, h2⟩
      exact h (by rw [← h1, ← h2, Nat.div_add_mod'])

theorem getU_gridOf [Inhabited α] (U V : ℕ) (f : ℕ → ℕ → α) (i : Int) (u : ℕ) (hi : i = u) (hu : u < U) :
    (gridOf U V f).GetU i = .ok (tab V (f u)) := by
  subst hi
  unfold Grid.GetU
  rw [massert_true (by simp; omega)]
  simp only [bind_ok, gridOf]
  rw [vnew_nat]
  simp only [bind_ok]
  rw [forLt_eq_forUp _ _ V (by omega), replicate_eq_tab]
  have := forUp_eq (fun i result => do
    vset result i (← vget (tab (V * U) fun i => f (i % U) (i / U)) (i * (U : Int) + u)))
    (fun n => tab V fun v => if v < n then f u v else default) V 0 (by
      intro i hi
      rw [vget_tab _ _ _ (i * U + u) (by push_cast; ring) (cell_lt hu hi)]
      simp only [bind_ok, cell_div hu, cell_mod hu]
      rw [vset_tab' _ _ _ _ i _ (by simp) hi]
      intro k _
      by_cases hk : k = i
      · subst hk; simp
      · simp only [hk, if_false]
        by_cases hki : k < i
        · rw [if_pos hki, if_pos (by omega)]
        · rw [if_neg hki, if_neg (by omega)])
  simp only [Nat.not_lt_zero, if_false] at this
  rw [this]
  congr 1
  apply tab_congr
  intro v hv
  simp [hv]

theorem getV_gridOf [Inhabited α] (U V : ℕ) (f : ℕ → ℕ → α) (j : Int) (v : ℕ) (hj : j = v) (hv : v < V) :
    (gridOf U V f).GetV j = .ok (tab U fun u => f u v) := by
  subst hj
  unfold Grid.GetV
  rw [massert_true (by simp; omega)]
  simp only [bind_ok, gridOf]
  rw [vnew_nat]
  simp only [bind_ok]
  rw [forLt_eq_forUp _ _ U (by omega), replicate_eq_tab]
  have := forUp_eq (fun i result => do
    vset result i (← vget (tab (V * U) fun i => f (i % U) (i / U)) ((v : Int) * (U : Int) + i)))
    (fun n => tab U fun u => if u < n then f u v else default) U 0 (by
      intro i hi
      rw [vget_tab _ _ _ (v * U + i) (by push_cast; ring) (cell_lt hi hv)]
      simp only [bind_ok, cell_div hi, cell_mod hi]
      rw [vset_tab' _ _ _ _ i _ (by simp) hi]
      intro k _
      by_cases hk : k = i
      · subst hk; simp
      · simp only [hk, if_false]
        by_cases hki : k < i
        · rw [if_pos hki, if_pos (by omega)]
        · rw [if_neg hki, if_neg (by omega)])
  simp only [Nat.not_lt_zero, if_false] at this
  rw [this]
  congr 1
  apply tab_congr
  intro v hv
  simp [hv]

theorem setU_gridOf (U V : ℕ) (f : ℕ → ℕ → α) (i : Int) (u : ℕ) (a : ℕ → α) (hi : i = u) (hu : u < U) :
    (gridOf U V f).SetU i (tab V a) = .ok (gridOf U V fun x y => if x = u then a y else f x y) := by
  subst hi
  unfold Grid.SetU
  rw [massert_true (by simp; omega)]
  simp only [bind_ok]
  rw [massert_true (by simp)]
  simp only [bind_ok, gridOf]
  rw [forLt_eq_forUp _ _ V (by omega)]
  have := forUp_eq (fun i vals => do
    vset vals (i * (U : Int) + u) (← vget (tab V a) i))
    (fun n => tab (V * U) fun i => if i % U = u ∧ i / U < n then a (i / U) else f (i % U) (i / U)) V 0 (by
      intro i hi
      rw [vget_tab _ _ _ i (by simp) hi]
      simp only [bind_ok]
      rw [vset_tab' _ _ _ _ (i * U + u) _ (by push_cast; ring) (cell_lt hu hi)]
      intro k _
      by_cases hk : k = i * U + u
      · subst hk; simp [cell_div hu, cell_mod hu]
      · rw [if_neg hk]
        by_cases hku : k % U = u
        · have hne : k / U ≠ i := by
            intro h; apply hk; rw [← hku, ← h, Nat.div_add_mod']
          by_cases hlt : k / U < i
          · rw [if_pos ⟨hku, by omega⟩, if_pos ⟨hku, hlt⟩]
          · rw [if_neg (by omega), if_neg (by tauto)]
        · rw [if_neg (by tauto), if_neg (by tauto)])
  simp only [Nat.not_lt_zero, and_false, if_false] at this
  rw [this]
  simp only [bind_ok, pure_ok]
  congr 2
  apply tab_congr
  intro k hk
  have hU : 0 < U := by omega
  have : k / U < V := by rw [Nat.div_lt_iff_lt_mul hU]; exact hk
  simp [this]

theorem setV_gridOf (U V : ℕ) (f : ℕ → ℕ → α) (j : Int) (v : ℕ) (a : ℕ → α) (hj : j = v) (hv : v < V) :
    (gridOf U V f).SetV j (tab U a) = .ok (gridOf U V fun x y => if y = v then a x else f x y) := by
  subst hj
  unfold Grid.SetV
  rw [massert_true (by simp; omega)]
  simp only [bind_ok]
  rw [massert_true (by simp)]
  simp only [bind_ok, gridOf]
  rw [forLt_eq_forUp _ _ U (by omega)]
  have := forUp_eq (fun i vals => do
    vset vals ((v : Int) * (U : Int) + i) (← vget (tab U a) i))
    (fun n => tab (V * U) fun i => if i / U = v ∧ i % U < n then a (i % U) else f (i % U) (i / U)) U 0 (by
      intro i hi
      rw [vget_tab _ _ _ i (by simp) hi]
      simp only [bind_ok]
      rw [vset_tab' _ _ _ _ (v * U + i) _ (by push_cast; ring) (cell_lt hi hv)]
      intro k _
      by_cases hk : k = v * U + i
      · subst hk; simp [cell_div hi, cell_mod hi]
      · rw [if_neg hk]
        by_cases hku : k / U = v
        · have hne : k % U ≠ i := by
            intro h; apply hk; rw [← hku, ← h, Nat.div_add_mod']
          by_cases hlt : k % U < i
          · rw [if_pos ⟨hku, by omega⟩, if_pos ⟨hku, hlt⟩]
          · rw [if_neg (by omega), if_neg (by tauto)]
        · rw [if_neg (by tauto), if_neg (by tauto)])
  simp only [Nat.not_lt_zero, and_false, if_false] at this
  rw [this]
  simp only [bind_ok, pure_ok]
  congr 2
  apply tab_congr
  intro k hk
  have hU : 0 < U := by
    rcases Nat.eq_zero_or_pos U with h | h
    · subst h; simp at hk
    · exact h
  simp [Nat.mod_lt k hU]

theorem insertV_gridOf (U V : ℕ) (f : ℕ → ℕ → α) (j : Int) (v : ℕ) (d : α) (hj : j = v) (hv : v < V) :
    (gridOf U V f).InsertV j d =
      .ok (gridOf U (V + 1) fun x y => if y < v then f x y else if y = v then d else f x (y - 1)) := by
  subst hj
  unfold Grid.InsertV
  rw [massert_true (by simp; omega)]
  have hle : v * U ≤ V * U := Nat.mul_le_mul_right U hv.le
  have hth : mthrowUnless (0 ≤ (gridOf U V f).UCount) = .ok () := mthrowUnless_true (by simp)
  simp only [hth]
  simp only [bind_ok, gridOf]
  rw [vinsert_of _ _ _ (v * U) _ (by push_cast; ring) (by rw [tab_length]; exact hle), bind_ok]
  simp only [pure_ok, Int.toNat_natCast, Nat.cast_add, Nat.cast_one]
  congr 2
  apply List.ext_getElem
  · simp only [List.length_append, List.length_take, List.length_replicate, List.length_drop, tab_length]
    rw [Nat.min_eq_left hle, Nat.add_mul]; omega
  · intro k h1 h2
    simp only [tab_getElem]
    simp only [tab_length] at h2
    have hU : 0 < U := by
      rcases Nat.eq_zero_or_pos U with h | h
      · subst h; simp at h2
      · exact h
    have hdiv := Nat.div_add_mod' k U
    have hmod := Nat.mod_lt k hU
    rcases Nat.lt_or_ge k (v * U) with hk | hk
    · rw [List.getElem_append_left (by simp [Nat.min_eq_left hle]; omega),
        List.getElem_append_left (by simp [Nat.min_eq_left hle]; omega), List.getElem_take, tab_getElem,
        if_pos (by rw [Nat.div_lt_iff_lt_mul hU]; exact hk)]
    · rcases Nat.lt_or_ge k (v * U + U) with hk2 | hk2
      · rw [List.getElem_append_left (by simp [Nat.min_eq_left hle]; omega),
          List.getElem_append_right (by simp [Nat.min_eq_left hle]; omega), List.getElem_replicate]
        have : k / U = v := by
          rw [Nat.div_eq_of_lt_le] <;> [exact hk; (rw [Nat.add_mul, Nat.one_mul]; exact hk2)]
        simp [this]
      · rw [List.getElem_append_right (by simp [Nat.min_eq_left hle]; omega), List.getElem_drop, tab_getElem]
        have hge : v + 1 ≤ k / U := by rw [Nat.le_div_iff_mul_le hU, Nat.add_mul, Nat.one_mul]; exact hk2
        rw [if_neg (by omega), if_neg (by omega)]
        have e1 : v * U + (k - (List.take (v * U) (tab (V * U) fun i => f (i % U) (i / U)) ++ List.replicate U d).length)
            = k - U := by simp [Nat.min_eq_left hle]; omega
        rw [e1]
        have e2 : (k - U) % U = k % U := by
          conv_rhs => rw [← Nat.sub_add_cancel (show U ≤ k by omega)]
          simp
        have e3 : (k - U) / U = k / U - 1 := by
          have := Nat.sub_mul_div k U 1; rwa [Nat.mul_one] at this
        rw [e2, e3]

/-- In-place column insertion. -/
theorem insertU_gridOf (U V : ℕ) (f : ℕ → ℕ → α) (i : Int) (u : ℕ) (d fill : α) (hi : i = u) (hu : u < U) :
    (gridOf U V f).InsertU i d fill =
      .ok (gridOf (U + 1) V fun x y => if x < u then f x y else if x = u then d else f (x - 1) y) := by
  subst hi
  unfold Grid.InsertU
  rw [massert_true (by simp; omega)]
  simp only [bind_ok, gridOf]
  have hle : V * U ≤ V * (U + 1) := Nat.mul_le_mul_left V (by omega)
  rw [vresize_of _ _ (V * (U + 1)) _ (by push_cast; ring)]
  simp only [bind_ok]
  set N := V * (U + 1) with hNdef
  -- the resized vector as a function of the index
  let old : ℕ → α := fun k => if k < V * U then f (k % U) (k / U) else fill
  let new : ℕ → α := fun k => if k % (U + 1) < u then f (k % (U + 1)) (k / (U + 1))
    else if k % (U + 1) = u then d else f (k % (U + 1) - 1) (k / (U + 1))
  have hold : (List.take N (tab (V * U) fun i => f (i % U) (i / U)) ++
      List.replicate (N - (tab (V * U) fun i => f (i % U) (i / U)).length) fill) = tab N old := by
    apply List.ext_getElem
    · simp; omega
    · intro k h1 h2
      simp only [tab_getElem]
      by_cases hk : k < V * U
      · rw [List.getElem_append_left (by simp; omega), List.getElem_take, tab_getElem]
        simp [old, hk]
      · rw [List.getElem_append_right (by simp; omega)]
        simp [old, hk]
  rw [hold]
  have hoc : ∀ x < U, ∀ y < V, old (y * U + x) = f x y := by
    intro x hx y hy
    simp only [old, if_pos (cell_lt hx hy), cell_div hx, cell_mod hx]
  have hnc : ∀ x < U + 1, ∀ y, new (y * (U + 1) + x) =
      if x < u then f x y else if x = u then d else f (x - 1) y := by
    intro x hx y
    simp only [new, cell_div hx, cell_mod hx]
  have key := forDn_eq (fun it_v (s : List α × Int) => do
    let start_idx := it_v * ((U : Int) + 1)
    let insertion_idx := start_idx + u
    let end_idx := (it_v + 1) * ((U : Int) + 1)
    let (Values, float_idx) ← forGe (end_idx - 1) (insertion_idx + 1) (fun i (s : List α × Int) => do
      let Values ← vset s.1 i (← vget s.1 s.2)
      return (Values, s.2 - 1)) (s.1, s.2)
    let (Values, float_idx) ← forGe (insertion_idx - 1) start_idx (fun i (s : List α × Int) => do
      let Values ← vset s.1 i (← vget s.1 s.2)
      return (Values, s.2 - 1)) (Values, float_idx)
    let Values ← vset Values insertion_idx d
    return (Values, float_idx))
    (fun n => (tab N fun k => if (V - n) * (U + 1) ≤ k then new k else old k, ((V : Int) - n) * U - 1)) V
    ((V : Int) - 1) (by
      intro n hn
      obtain ⟨r, hr⟩ : ∃ r, V = r + n + 1 := ⟨V - n - 1, by omega⟩
      have hrV : r < V := by omega
      have hVn : V - n = r + 1 := by omega
      have hVn1 : V - (n + 1) = r := by omega
      have hc : (V : Int) - 1 - n = r := by omega
      have hc2 : (V : Int) - n = r + 1 := by omega
      have hc3 : (V : Int) - ((n + 1 : ℕ) : Int) = r := by push_cast; omega
      have hrow : r * (U + 1) + (U + 1) ≤ N := by
        have : (r + 1) * (U + 1) ≤ V * (U + 1) := Nat.mul_le_mul_right _ (by omega)
        rw [Nat.add_mul, Nat.one_mul] at this; exact this
      have hrU : r * (U + 1) = r * U + r := by ring
      simp only [hVn, hVn1, hc, hc2, hc3]
      -- first inner loop
      have l1 := forDn_eq (fun i (s : List α × Int) => do
          let Values ← vset s.1 i (← vget s.1 s.2)
          return (Values, s.2 - 1))
        (fun m => (tab N fun k => if r * (U + 1) + (U + 1) - m ≤ k then new k else old k,
          ((r : Int) + 1) * U - 1 - m)) (U - u) (((r : Int) + 1) * ((U : Int) + 1) - 1) (by
          intro m hm
          rw [vget_tab _ _ _ (r * U + (U - 1 - m))
            (by rw [show ((r * U + (U - 1 - m) : ℕ) : Int) = (r : Int) * U + (U - 1 - m) by
                  push_cast; rw [Nat.cast_sub (by omega), Nat.cast_sub (by omega)]; simp]; ring) (by omega)]
          simp only [bind_ok]
          rw [if_neg (by omega), hoc _ (by omega) _ hrV,
            vset_tab' _ _ (fun k => if r * (U + 1) + (U + 1) - (m + 1) ≤ k then new k else old k) _
            (r * (U + 1) + (U - m)) _
            (by rw [show ((r * (U + 1) + (U - m) : ℕ) : Int) = (r : Int) * (U + 1) + (U - m) by
                  push_cast; rw [Nat.cast_sub (by omega)]]; ring) (by omega)]
          · simp only [bind_ok, pure_ok, Except.ok.injEq, Prod.mk.injEq, true_and]
            push_cast; ring
          · intro k hk
            by_cases hk1 : k = r * (U + 1) + (U - m)
            · rw [if_pos hk1, if_pos (by omega), hk1, hnc _ (by omega), if_neg (by omega), if_neg (by omega)]
              congr 1; omega
            · rw [if_neg hk1]
              by_cases hk2 : r * (U + 1) + (U + 1) - m ≤ k
              · rw [if_pos hk2, if_pos (by omega)]
              · rw [if_neg hk2, if_neg (by omega)])
      simp only [Nat.sub_zero, Nat.cast_zero, sub_zero] at l1
      have hcount1 : (((r : Int) + 1) * ((U : Int) + 1) - 1 + 1 - ((r : Int) * ((U : Int) + 1) + u + 1)).toNat = U - u := by
        rw [show ((r : Int) + 1) * ((U : Int) + 1) - 1 + 1 - ((r : Int) * ((U : Int) + 1) + u + 1) = U - u by ring]
        omega
      have hst : (fun k => if (r + 1) * (U + 1) ≤ k then new k else old k) =
          (fun k => if r * (U + 1) + (U + 1) ≤ k then new k else old k) := by
        funext k; rw [Nat.add_mul, Nat.one_mul]
      simp only [forGe, hcount1, hst, l1, bind_ok]
      -- second inner loop
      have l2 := forDn_eq (fun i (s : List α × Int) => do
          let Values ← vset s.1 i (← vget s.1 s.2)
          return (Values, s.2 - 1))
        (fun m => (tab N fun k => if r * (U + 1) + u - m ≤ k then (if k = r * (U + 1) + u then old k else new k) else old k,
          (r : Int) * U + u - 1 - m)) u ((r : Int) * ((U : Int) + 1) + u - 1) (by
          intro m hm
          rw [vget_tab _ _ _ (r * U + (u - 1 - m))
            (by rw [show ((r * U + (u - 1 - m) : ℕ) : Int) = (r : Int) * U + (u - 1 - m) by
                  push_cast; rw [Nat.cast_sub (by omega), Nat.cast_sub (by omega)]; simp]; ring) (by omega)]
          simp only [bind_ok]
          have hread : ((fun k => if r * (U + 1) + u - m ≤ k then (if k = r * (U + 1) + u then old k else new k) else old k)
              (r * U + (u - 1 - m))) = f (u - 1 - m) r := by
            simp only
            rw [if_neg (by omega), hoc _ (by omega) _ hrV]
          simp only at hread
          rw [hread,
            vset_tab' _ _ (fun k => if r * (U + 1) + u - (m + 1) ≤ k then (if k = r * (U + 1) + u then old k else new k) else old k) _
            (r * (U + 1) + (u - 1 - m)) _
            (by rw [show ((r * (U + 1) + (u - 1 - m) : ℕ) : Int) = (r : Int) * (U + 1) + (u - 1 - m) by
                  push_cast; rw [Nat.cast_sub (by omega), Nat.cast_sub (by omega)]; simp]; ring) (by omega)]
          · simp only [bind_ok, pure_ok, Except.ok.injEq, Prod.mk.injEq, true_and]
            push_cast; ring
          · intro k hk
            by_cases hk1 : k = r * (U + 1) + (u - 1 - m)
            · rw [if_pos hk1, if_pos (by omega), if_neg (by omega), hk1, hnc _ (by omega), if_pos (by omega)]
            · rw [if_neg hk1]
              by_cases hk2 : r * (U + 1) + u - m ≤ k
              · rw [if_pos hk2, if_pos (by omega)]
              · rw [if_neg hk2, if_neg (by omega)])
      simp only [Nat.sub_zero, Nat.cast_zero, sub_zero] at l2
      have hcount2 : ((r : Int) * ((U : Int) + 1) + u - 1 + 1 - (r : Int) * ((U : Int) + 1)).toNat = u := by
        rw [show (r : Int) * ((U : Int) + 1) + u - 1 + 1 - (r : Int) * ((U : Int) + 1) = u by ring]; simp
      have hmid : (tab N fun k => if r * (U + 1) + (U + 1) - (U - u) ≤ k then new k else old k) =
          (tab N fun k => if r * (U + 1) + u ≤ k then (if k = r * (U + 1) + u then old k else new k) else old k) := by
        apply tab_congr
        intro k _
        by_cases hk1 : k = r * (U + 1) + u
        · rw [if_pos (show r * (U + 1) + u ≤ k by omega), if_pos hk1, if_neg (by omega)]
        · by_cases hk2 : r * (U + 1) + u ≤ k
          · rw [if_pos hk2, if_neg hk1, if_pos (by omega)]
          · rw [if_neg hk2, if_neg (by omega)]
      have hfl : ((r : Int) + 1) * U - 1 - ((U - u : ℕ) : Int) = (r : Int) * U + u - 1 := by
        rw [Nat.cast_sub hu.le]; ring
      simp only [hcount2, hmid, hfl, l2, bind_ok]
      rw [vset_tab' _ _ (fun k => if r * (U + 1) ≤ k then new k else old k) _ (r * (U + 1) + u) _
        (by push_cast; ring) (by omega)]
      · simp only [bind_ok, pure_ok, Except.ok.injEq, Prod.mk.injEq, true_and]
        ring
      · intro k _
        by_cases hk1 : k = r * (U + 1) + u
        · rw [if_pos hk1, if_pos (by omega), hk1, hnc _ (by omega), if_neg (by omega), if_pos rfl]
        · rw [if_neg hk1]
          by_cases hk2 : r * (U + 1) ≤ k
          · rw [if_pos hk2, if_pos (by omega), if_neg hk1]
          · rw [if_neg hk2, if_neg (by omega)])
  simp only [Nat.sub_zero, Nat.cast_zero, sub_zero] at key
  have h0 : (tab N fun k => if V * (U + 1) ≤ k then new k else old k) = tab N old := by
    apply tab_congr
    intro k hk
    rw [if_neg (by omega)]
  rw [h0] at key
  have hcnt : ((V : Int) - 1 + 1 - 0).toNat = V := by omega
  have e1 : (V : Int) * U - 1 = (U : Int) * V - 1 := by ring
  rw [e1] at key
  simp only [forGe] at key ⊢
  simp only [hcnt]
  erw [key]
  simp only [bind_ok, pure_ok, Nat.sub_self, Nat.zero_mul, Nat.zero_le, if_true]
  push_cast
  rfl

end Nurbs
