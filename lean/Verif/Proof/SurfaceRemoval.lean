import Verif.Proof.SurfaceInsert
import Verif.Model.KnotRemoval

/-! # Knot removal on surfaces, row by row

In the second half (`V`) the letters `m`, `n` are exchanged: `n` is always the number of curves that are treated. -/

set_option linter.unusedSectionVars false

namespace Nurbs
open Nurbs.Spec

variable {K : Type} [Field K] [LinearOrder K] [IsStrictOrderedRing K]

section U
variable {sqrt : K → K} {s : Surface K} {u : K} {times : Int} {tol : K} {m n m' : ℕ}

theorem removeLoopU_inv (hg : s.ControlPoints = gridOf m n (cp s)) : ∀ (N i : ℕ) (g : ℕ → ℕ → Vec4 K) (t : Int) (R : Surface K) (T : Int),
    i + (N + 1) = n →
    Surface.removeLoopU sqrt s u times tol (N + 1) i { s with ControlPoints := gridOf m' n g } t = .ok (some (R, T)) →
    T ≠ 0 ∧ (i ≠ 0 → T = t) ∧ ∃ (kv : KnotVector K) (f : ℕ → ℕ → Vec4 K), (∀ j, i ≤ j → j < n → ∃ kvj,
      KnotRemoval sqrt s.KnotsU (tab m fun x => cp s x j) s.DegreeU u times tol = .ok (kvj, tab m' fun x => f x j, T) ∧ (j + 1 = n → kvj = kv)) ∧
      R = { s with KnotsU := kv, ControlPoints := gridOf m' n fun x y => if y < i then g x y else f x y } := by
  intro N
  induction N with
  | zero =>
    intro i g t R T hi h
    rw [Surface.removeLoopU] at h
    rw [hg, getV_gridOf m n (cp s) _ i rfl (by omega), bind_ok] at h
    obtain ⟨⟨kv, pts, t'⟩, hk, h⟩ := bind_eq_ok.mp h
    simp only at h hk
    by_cases hc : t' = 0 ∨ ((i : Int) ≠ 0 ∧ t ≠ t')
    · rw [if_pos hc] at h
      exact absurd (Except.ok.inj h) (by simp)
    rw [if_neg hc] at h
    push Not at hc
    rw [if_pos (by simp; omega)] at h
    obtain ⟨grid, hgr, h⟩ := bind_eq_ok.mp h
    have hlen : pts.length = m' := by
      unfold Grid.SetV at hgr
      obtain ⟨_, _, hgr⟩ := bind_eq_ok.mp hgr
      obtain ⟨_, h2, _⟩ := bind_eq_ok.mp hgr
      have := massert_eq_ok.mp h2
      simp only [gridOf_UCount] at this
      omega
    rw [← hlen] at hgr
    rw [eq_tab_pt pts, tab_length, setV_gridOf _ _ _ _ i _ rfl (by omega)] at hgr
    rw [hlen] at hgr
    obtain ⟨rfl⟩ := hgr
    rw [Surface.removeLoopU] at h
    have h := Option.some.inj (Except.ok.inj h)
    obtain ⟨rfl, rfl⟩ := Prod.mk.inj h
    refine ⟨hc.1, fun hi => (hc.2 (by omega)).symm, kv, fun x y => if y = i then pt pts x else g x y, ?_, ?_⟩
    · intro j h1 h2
      obtain rfl : j = i := by omega
      refine ⟨kv, ?_, fun _ => rfl⟩
      rw [hk]
      simp only [if_true]
      rw [← hlen, ← eq_tab_pt]
    · have : (gridOf m' n fun x y => if y = i then pt pts x else g x y) =
          gridOf m' n fun x y => if y < i then g x y else if y = i then pt pts x else g x y := by
        apply gridOf_congr
        intro x hx y hy
        by_cases hy1 : y < i
        · rw [if_pos hy1, if_neg (by omega)]
        · rw [if_neg hy1]
      rw [this]
  | succ N ih =>
    intro i g t R T hi h
    rw [Surface.removeLoopU] at h
    rw [hg, getV_gridOf m n (cp s) _ i rfl (by omega), bind_ok] at h
    obtain ⟨⟨kv, pts, t'⟩, hk, h⟩ := bind_eq_ok.mp h
    simp only at h hk
    by_cases hc : t' = 0 ∨ ((i : Int) ≠ 0 ∧ t ≠ t')
    · rw [if_pos hc] at h
      exact absurd (Except.ok.inj h) (by simp)
    rw [if_neg hc] at h
    push Not at hc
    rw [if_neg (by simp; omega)] at h
    obtain ⟨grid, hgr, h⟩ := bind_eq_ok.mp h
    have hlen : pts.length = m' := by
      unfold Grid.SetV at hgr
      obtain ⟨_, _, hgr⟩ := bind_eq_ok.mp hgr
      obtain ⟨_, h2, _⟩ := bind_eq_ok.mp hgr
      have := massert_eq_ok.mp h2
      simp only [gridOf_UCount] at this
      omega
    rw [← hlen] at hgr
    rw [eq_tab_pt pts, tab_length, setV_gridOf _ _ _ _ i _ rfl (by omega)] at hgr
    rw [hlen] at hgr
    obtain ⟨rfl⟩ := hgr
    obtain ⟨h1, h2, kv', f, h3, h4⟩ := ih (i + 1) _ t' R T (by omega) (by push_cast; exact h)
    have hT := h2 (by omega)
    refine ⟨h1, fun hi => by rw [hT]; exact (hc.2 (by omega)).symm, kv', fun x y => if y = i then pt pts x else f x y, ?_, ?_⟩
    · intro j hj1 hj2
      by_cases hji : j = i
      · subst hji
        refine ⟨kv, ?_, fun _ => by omega⟩
        rw [hk, hT]
        simp only [if_true]
        rw [← hlen, ← eq_tab_pt]
      · simp only [if_neg hji]
        exact h3 j (by omega) hj2
    · rw [h4]
      congr 1
      apply gridOf_congr
      intro x hx y hy
      by_cases hy1 : y < i
      · rw [if_pos (by omega), if_neg (by omega), if_pos hy1]
      · by_cases hy2 : y = i
        · rw [if_pos (by omega), if_pos hy2, if_neg hy1]; exact (if_pos hy2).symm
        · rw [if_neg (by omega), if_neg hy1]; exact (if_neg hy2).symm

theorem removeLoopU_ok (hg : s.ControlPoints = gridOf m n (cp s)) {kv : KnotVector K} {f : ℕ → ℕ → Vec4 K} {T : Int} (hT : T ≠ 0)
    (hrow : ∀ j < n, KnotRemoval sqrt s.KnotsU (tab m fun x => cp s x j) s.DegreeU u times tol = .ok (kv, tab m' fun x => f x j, T)) :
    ∀ (N i : ℕ) (g : ℕ → ℕ → Vec4 K) (t : Int), i + (N + 1) = n → (i ≠ 0 → t = T) →
    Surface.removeLoopU sqrt s u times tol (N + 1) i { s with ControlPoints := gridOf m' n g } t =
      .ok (some ({ s with KnotsU := kv, ControlPoints := gridOf m' n fun x y => if y < i then g x y else f x y }, T)) := by
  intro N
  induction N with
  | zero =>
    intro i g t hi ht
    rw [Surface.removeLoopU]
    rw [hg, getV_gridOf m n (cp s) _ i rfl (by omega), bind_ok]
    simp only
    rw [hrow i (by omega), bind_ok]
    simp only
    rw [if_neg (by intro h; rcases h with h | ⟨h, h'⟩; exacts [hT h, h' (ht (by omega))]), if_pos (by simp; omega),
      setV_gridOf _ _ _ _ i _ rfl (by omega), bind_ok, Surface.removeLoopU]
    have : (gridOf m' n fun x y => if y = i then f x i else g x y) = gridOf m' n fun x y => if y < i then g x y else f x y := by
      apply gridOf_congr
      intro x hx y hy
      by_cases hy1 : y = i
      · subst hy1; rw [if_pos rfl, if_neg (by omega)]
      · rw [if_neg hy1, if_pos (by omega)]
    rw [this]
  | succ N ih =>
    intro i g t hi ht
    rw [Surface.removeLoopU]
    rw [hg, getV_gridOf m n (cp s) _ i rfl (by omega), bind_ok]
    simp only
    rw [hrow i (by omega), bind_ok]
    simp only
    rw [if_neg (by intro h; rcases h with h | ⟨h, h'⟩; exacts [hT h, h' (ht (by omega))]), if_neg (by simp; omega),
      setV_gridOf _ _ _ _ i _ rfl (by omega), bind_ok]
    have e := ih (i + 1) (fun x y => if y = i then f x i else g x y) T (by omega) (fun _ => rfl)
    rw [show ((i + 1 : ℕ) : Int) = (i : Int) + 1 by push_cast; rfl] at e
    rw [e]
    have : (gridOf m' n fun x y => if y < i + 1 then (if y = i then f x i else g x y) else f x y) =
        gridOf m' n fun x y => if y < i then g x y else f x y := by
      apply gridOf_congr
      intro x hx y hy
      by_cases hy1 : y < i
      · rw [if_pos (by omega), if_neg (by omega), if_pos hy1]
      · rw [if_neg hy1]
        by_cases hy2 : y = i
        · subst hy2; rw [if_pos (by omega), if_pos rfl]
        · rw [if_neg (by omega)]
    rw [this]

/-- All rows removed alike. -/
theorem removeKnotU_ok (hu : s.ControlPoints.UCount = m) (hv : s.ControlPoints.VCount = n) (hg : s.ControlPoints = gridOf m n (cp s)) (hn : 0 < n)
    (hm : (m : Int) - times = m') {kv : KnotVector K} {f : ℕ → ℕ → Vec4 K} {T : Int} (hT : T ≠ 0)
    (hrow : ∀ j < n, KnotRemoval sqrt s.KnotsU (tab m fun x => cp s x j) s.DegreeU u times tol = .ok (kv, tab m' fun x => f x j, T)) :
    s.RemoveKnotU sqrt u times tol = .ok ({ s with KnotsU := kv, ControlPoints := gridOf m' n f }, T) := by
  obtain ⟨N, rfl⟩ : ∃ N, n = N + 1 := ⟨n - 1, by omega⟩
  unfold Surface.RemoveKnotU
  rw [hu, hv, hm, mk'_gridOf, bind_ok, Int.toNat_natCast]
  have := removeLoopU_ok (m' := m') hg hT hrow N 0 (fun _ _ => 0) 0 (by omega) (fun h => absurd rfl h)
  rw [show ((0 : ℕ) : Int) = 0 from rfl] at this
  rw [this, bind_ok]
  simp only [Nat.not_lt_zero, if_false]
  rfl

/-- A removal that reports success was successful, with the same count, in every row. -/
theorem removeKnotU_inv (hu : s.ControlPoints.UCount = m) (hv : s.ControlPoints.VCount = n) (hg : s.ControlPoints = gridOf m n (cp s)) (hn : 0 < n)
    (hm : (m : Int) - times = m') {R : Surface K} {T : Int} (h : s.RemoveKnotU sqrt u times tol = .ok (R, T)) :
    (T = 0 ∧ R = s) ∨ (T ≠ 0 ∧ ∃ (kv : KnotVector K) (f : ℕ → ℕ → Vec4 K), (∀ j < n, ∃ kvj,
      KnotRemoval sqrt s.KnotsU (tab m fun x => cp s x j) s.DegreeU u times tol = .ok (kvj, tab m' fun x => f x j, T) ∧ (j + 1 = n → kvj = kv)) ∧
      R = { s with KnotsU := kv, ControlPoints := gridOf m' n f }) := by
  obtain ⟨N, rfl⟩ : ∃ N, n = N + 1 := ⟨n - 1, by omega⟩
  unfold Surface.RemoveKnotU at h
  rw [hu, hv, hm, mk'_gridOf, bind_ok, Int.toNat_natCast] at h
  obtain ⟨o, ho, h⟩ := bind_eq_ok.mp h
  cases o with
  | none =>
    obtain ⟨rfl, rfl⟩ := Prod.mk.inj (Except.ok.inj h)
    exact Or.inl ⟨rfl, rfl⟩
  | some o =>
    obtain ⟨R', T'⟩ := o
    obtain ⟨rfl, rfl⟩ := Prod.mk.inj (Except.ok.inj h)
    obtain ⟨h1, _, kv, f, h3, h4⟩ := removeLoopU_inv (m' := m') hg N 0 (fun _ _ => 0) 0 R' T' (by omega) ho
    refine Or.inr ⟨h1, kv, f, fun j hj => h3 j (by omega) hj, ?_⟩
    rw [h4]
    simp only [Nat.not_lt_zero, if_false]

theorem removeLoopU_some : ∀ (N : ℕ) (i : Int) (R0 : Surface K) (t : Int) (R : Surface K) (T : Int), (N = 0 → t ≠ 0) →
    Surface.removeLoopU sqrt s u times tol N i R0 t = .ok (some (R, T)) → T ≠ 0 := by
  intro N
  induction N with
  | zero =>
    intro i R0 t R T ht h
    rw [Surface.removeLoopU] at h
    obtain ⟨rfl, rfl⟩ := Prod.mk.inj (Option.some.inj (Except.ok.inj h))
    exact ht rfl
  | succ N ih =>
    intro i R0 t R T _ h
    rw [Surface.removeLoopU] at h
    obtain ⟨pts0, _, h⟩ := bind_eq_ok.mp h
    obtain ⟨⟨kv, pts, t'⟩, hk, h⟩ := bind_eq_ok.mp h
    simp only at h
    by_cases hc : t' = 0 ∨ (i ≠ 0 ∧ t ≠ t')
    · rw [if_pos hc] at h
      exact absurd (Except.ok.inj h) (by simp)
    rw [if_neg hc] at h
    push Not at hc
    obtain ⟨grid, hgr, h⟩ := bind_eq_ok.mp h
    exact ih _ _ _ _ _ (fun _ => hc.1) h

end U

section V
variable {sqrt : K → K} {s : Surface K} {u : K} {times : Int} {tol : K} {m n m' : ℕ}

theorem removeLoopV_inv (hg : s.ControlPoints = gridOf n m (cp s)) : ∀ (N i : ℕ) (g : ℕ → ℕ → Vec4 K) (t : Int) (R : Surface K) (T : Int),
    i + (N + 1) = n →
    Surface.removeLoopV sqrt s u times tol (N + 1) i { s with ControlPoints := gridOf n m' g } t = .ok (some (R, T)) →
    T ≠ 0 ∧ (i ≠ 0 → T = t) ∧ ∃ (kv : KnotVector K) (f : ℕ → ℕ → Vec4 K), (∀ j, i ≤ j → j < n → ∃ kvj,
      KnotRemoval sqrt s.KnotsV (tab m fun x => cp s j x) s.DegreeV u times tol = .ok (kvj, tab m' fun x => f j x, T) ∧ (j + 1 = n → kvj = kv)) ∧
      R = { s with KnotsV := kv, ControlPoints := gridOf n m' fun y x => if y < i then g y x else f y x } := by
  intro N
  induction N with
  | zero =>
    intro i g t R T hi h
    rw [Surface.removeLoopV] at h
    rw [hg, getU_gridOf n m (cp s) _ i rfl (by omega), bind_ok] at h
    obtain ⟨⟨kv, pts, t'⟩, hk, h⟩ := bind_eq_ok.mp h
    simp only at h hk
    by_cases hc : t' = 0 ∨ ((i : Int) ≠ 0 ∧ t ≠ t')
    · rw [if_pos hc] at h
      exact absurd (Except.ok.inj h) (by simp)
    rw [if_neg hc] at h
    push Not at hc
    rw [if_pos (by simp; omega)] at h
    obtain ⟨grid, hgr, h⟩ := bind_eq_ok.mp h
    have hlen : pts.length = m' := by
      unfold Grid.SetU at hgr
      obtain ⟨_, _, hgr⟩ := bind_eq_ok.mp hgr
      obtain ⟨_, h2, _⟩ := bind_eq_ok.mp hgr
      have := massert_eq_ok.mp h2
      simp only [gridOf_VCount] at this
      omega
    rw [← hlen] at hgr
    rw [eq_tab_pt pts, tab_length, setU_gridOf _ _ _ _ i _ rfl (by omega)] at hgr
    rw [hlen] at hgr
    obtain ⟨rfl⟩ := hgr
    rw [Surface.removeLoopV] at h
    have h := Option.some.inj (Except.ok.inj h)
    obtain ⟨rfl, rfl⟩ := Prod.mk.inj h
    refine ⟨hc.1, fun hi => (hc.2 (by omega)).symm, kv, fun y x => if y = i then pt pts x else g y x, ?_, ?_⟩
    · intro j h1 h2
      obtain rfl : j = i := by omega
      refine ⟨kv, ?_, fun _ => rfl⟩
      rw [hk]
      simp only [if_true]
      rw [← hlen, ← eq_tab_pt]
    · have : (gridOf n m' fun y x => if y = i then pt pts x else g y x) =
          gridOf n m' fun y x => if y < i then g y x else if y = i then pt pts x else g y x := by
        apply gridOf_congr
        intro y hy x hx
        by_cases hy1 : y < i
        · rw [if_pos hy1, if_neg (by omega)]
        · rw [if_neg hy1]
      rw [this]
  | succ N ih =>
    intro i g t R T hi h
    rw [Surface.removeLoopV] at h
    rw [hg, getU_gridOf n m (cp s) _ i rfl (by omega), bind_ok] at h
    obtain ⟨⟨kv, pts, t'⟩, hk, h⟩ := bind_eq_ok.mp h
    simp only at h hk
    by_cases hc : t' = 0 ∨ ((i : Int) ≠ 0 ∧ t ≠ t')
    · rw [if_pos hc] at h
      exact absurd (Except.ok.inj h) (by simp)
    rw [if_neg hc] at h
    push Not at hc
    rw [if_neg (by simp; omega)] at h
    obtain ⟨grid, hgr, h⟩ := bind_eq_ok.mp h
    have hlen : pts.length = m' := by
      unfold Grid.SetU at hgr
      obtain ⟨_, _, hgr⟩ := bind_eq_ok.mp hgr
      obtain ⟨_, h2, _⟩ := bind_eq_ok.mp hgr
      have := massert_eq_ok.mp h2
      simp only [gridOf_VCount] at this
      omega
    rw [← hlen] at hgr
    rw [eq_tab_pt pts, tab_length, setU_gridOf _ _ _ _ i _ rfl (by omega)] at hgr
    rw [hlen] at hgr
    obtain ⟨rfl⟩ := hgr
    obtain ⟨h1, h2, kv', f, h3, h4⟩ := ih (i + 1) _ t' R T (by omega) (by push_cast; exact h)
    have hT := h2 (by omega)
    refine ⟨h1, fun hi => by rw [hT]; exact (hc.2 (by omega)).symm, kv', fun y x => if y = i then pt pts x else f y x, ?_, ?_⟩
    · intro j hj1 hj2
      by_cases hji : j = i
      · subst hji
        refine ⟨kv, ?_, fun _ => by omega⟩
        rw [hk, hT]
        simp only [if_true]
        rw [← hlen, ← eq_tab_pt]
      · simp only [if_neg hji]
        exact h3 j (by omega) hj2
    · rw [h4]
      congr 1
      apply gridOf_congr
      intro y hy x hx
      by_cases hy1 : y < i
      · rw [if_pos (by omega), if_neg (by omega), if_pos hy1]
      · by_cases hy2 : y = i
        · rw [if_pos (by omega), if_pos hy2, if_neg hy1]; exact (if_pos hy2).symm
        · rw [if_neg (by omega), if_neg hy1]; exact (if_neg hy2).symm

theorem removeLoopV_ok (hg : s.ControlPoints = gridOf n m (cp s)) {kv : KnotVector K} {f : ℕ → ℕ → Vec4 K} {T : Int} (hT : T ≠ 0)
    (hrow : ∀ j < n, KnotRemoval sqrt s.KnotsV (tab m fun x => cp s j x) s.DegreeV u times tol = .ok (kv, tab m' fun x => f j x, T)) :
    ∀ (N i : ℕ) (g : ℕ → ℕ → Vec4 K) (t : Int), i + (N + 1) = n → (i ≠ 0 → t = T) →
    Surface.removeLoopV sqrt s u times tol (N + 1) i { s with ControlPoints := gridOf n m' g } t =
      .ok (some ({ s with KnotsV := kv, ControlPoints := gridOf n m' fun y x => if y < i then g y x else f y x }, T)) := by
  intro N
  induction N with
  | zero =>
    intro i g t hi ht
    rw [Surface.removeLoopV]
    rw [hg, getU_gridOf n m (cp s) _ i rfl (by omega), bind_ok]
    simp only
    rw [hrow i (by omega), bind_ok]
    simp only
    rw [if_neg (by intro h; rcases h with h | ⟨h, h'⟩; exacts [hT h, h' (ht (by omega))]), if_pos (by simp; omega),
      setU_gridOf _ _ _ _ i _ rfl (by omega), bind_ok, Surface.removeLoopV]
    have : (gridOf n m' fun y x => if y = i then f i x else g y x) = gridOf n m' fun y x => if y < i then g y x else f y x := by
      apply gridOf_congr
      intro y hy x hx
      by_cases hy1 : y = i
      · subst hy1; rw [if_pos rfl, if_neg (by omega)]
      · rw [if_neg hy1, if_pos (by omega)]
    rw [this]
  | succ N ih =>
    intro i g t hi ht
    rw [Surface.removeLoopV]
    rw [hg, getU_gridOf n m (cp s) _ i rfl (by omega), bind_ok]
    simp only
    rw [hrow i (by omega), bind_ok]
    simp only
    rw [if_neg (by intro h; rcases h with h | ⟨h, h'⟩; exacts [hT h, h' (ht (by omega))]), if_neg (by simp; omega),
      setU_gridOf _ _ _ _ i _ rfl (by omega), bind_ok]
    have e := ih (i + 1) (fun y x => if y = i then f i x else g y x) T (by omega) (fun _ => rfl)
    rw [show ((i + 1 : ℕ) : Int) = (i : Int) + 1 by push_cast; rfl] at e
    rw [e]
    have : (gridOf n m' fun y x => if y < i + 1 then (if y = i then f i x else g y x) else f y x) =
        gridOf n m' fun y x => if y < i then g y x else f y x := by
      apply gridOf_congr
      intro y hy x hx
      by_cases hy1 : y < i
      · rw [if_pos (by omega), if_neg (by omega), if_pos hy1]
      · rw [if_neg hy1]
        by_cases hy2 : y = i
        · subst hy2; rw [if_pos (by omega), if_pos rfl]
        · rw [if_neg (by omega)]
    rw [this]

/-- All rows removed alike. -/
theorem removeKnotV_ok (hu : s.ControlPoints.UCount = n) (hv : s.ControlPoints.VCount = m) (hg : s.ControlPoints = gridOf n m (cp s)) (hn : 0 < n)
    (hm : (m : Int) - times = m') {kv : KnotVector K} {f : ℕ → ℕ → Vec4 K} {T : Int} (hT : T ≠ 0)
    (hrow : ∀ j < n, KnotRemoval sqrt s.KnotsV (tab m fun x => cp s j x) s.DegreeV u times tol = .ok (kv, tab m' fun x => f j x, T)) :
    s.RemoveKnotV sqrt u times tol = .ok ({ s with KnotsV := kv, ControlPoints := gridOf n m' f }, T) := by
  obtain ⟨N, rfl⟩ : ∃ N, n = N + 1 := ⟨n - 1, by omega⟩
  unfold Surface.RemoveKnotV
  rw [hu, hv, hm, mk'_gridOf, bind_ok, Int.toNat_natCast]
  have := removeLoopV_ok (m' := m') hg hT hrow N 0 (fun _ _ => 0) 0 (by omega) (fun h => absurd rfl h)
  rw [show ((0 : ℕ) : Int) = 0 from rfl] at this
  rw [this, bind_ok]
  simp only [Nat.not_lt_zero, if_false]
  rfl

/-- A removal that reports success was successful, with the same count, in every row. -/
theorem removeKnotV_inv (hu : s.ControlPoints.UCount = n) (hv : s.ControlPoints.VCount = m) (hg : s.ControlPoints = gridOf n m (cp s)) (hn : 0 < n)
    (hm : (m : Int) - times = m') {R : Surface K} {T : Int} (h : s.RemoveKnotV sqrt u times tol = .ok (R, T)) :
    (T = 0 ∧ R = s) ∨ (T ≠ 0 ∧ ∃ (kv : KnotVector K) (f : ℕ → ℕ → Vec4 K), (∀ j < n, ∃ kvj,
      KnotRemoval sqrt s.KnotsV (tab m fun x => cp s j x) s.DegreeV u times tol = .ok (kvj, tab m' fun x => f j x, T) ∧ (j + 1 = n → kvj = kv)) ∧
      R = { s with KnotsV := kv, ControlPoints := gridOf n m' f }) := by
  obtain ⟨N, rfl⟩ : ∃ N, n = N + 1 := ⟨n - 1, by omega⟩
  unfold Surface.RemoveKnotV at h
  rw [hu, hv, hm, mk'_gridOf, bind_ok, Int.toNat_natCast] at h
  obtain ⟨o, ho, h⟩ := bind_eq_ok.mp h
  cases o with
  | none =>
    obtain ⟨rfl, rfl⟩ := Prod.mk.inj (Except.ok.inj h)
    exact Or.inl ⟨rfl, rfl⟩
  | some o =>
    obtain ⟨R', T'⟩ := o
    obtain ⟨rfl, rfl⟩ := Prod.mk.inj (Except.ok.inj h)
    obtain ⟨h1, _, kv, f, h3, h4⟩ := removeLoopV_inv (m' := m') hg N 0 (fun _ _ => 0) 0 R' T' (by omega) ho
    refine Or.inr ⟨h1, kv, f, fun j hj => h3 j (by omega) hj, ?_⟩
    rw [h4]
    simp only [Nat.not_lt_zero, if_false]

theorem removeLoopV_some : ∀ (N : ℕ) (i : Int) (R0 : Surface K) (t : Int) (R : Surface K) (T : Int), (N = 0 → t ≠ 0) →
    Surface.removeLoopV sqrt s u times tol N i R0 t = .ok (some (R, T)) → T ≠ 0 := by
  intro N
  induction N with
  | zero =>
    intro i R0 t R T ht h
    rw [Surface.removeLoopV] at h
    obtain ⟨rfl, rfl⟩ := Prod.mk.inj (Option.some.inj (Except.ok.inj h))
    exact ht rfl
  | succ N ih =>
    intro i R0 t R T _ h
    rw [Surface.removeLoopV] at h
    obtain ⟨pts0, _, h⟩ := bind_eq_ok.mp h
    obtain ⟨⟨kv, pts, t'⟩, hk, h⟩ := bind_eq_ok.mp h
    simp only at h
    by_cases hc : t' = 0 ∨ (i ≠ 0 ∧ t ≠ t')
    · rw [if_pos hc] at h
      exact absurd (Except.ok.inj h) (by simp)
    rw [if_neg hc] at h
    push Not at hc
    obtain ⟨grid, hgr, h⟩ := bind_eq_ok.mp h
    exact ih _ _ _ _ _ (fun _ => hc.1) h

end V

end Nurbs
