import Verif.Proof.RoundedInsert
import Verif.Proof.SurfaceInsert

/-! # Surface knot insertion with rounding -/

set_option linter.unusedSectionVars false

namespace Nurbs
open Nurbs.Spec

/-! ### the loops, for any arithmetic -/

section generic
variable {K : Type} [Zero K] [One K] [Add K] [Sub K] [Mul K] [Div K] [Neg K] [NatCast K] [IntCast K] [LinearOrder K]

/-- The new control points of one row, as the code computes them. -/
def insPtC (U : ℕ → K) (k : ℕ) (v : K) (p : ℕ) (P : ℕ → Vec4 K) (i : ℕ) : Vec4 K :=
  if i + p ≤ k then P i else if i ≤ k then unhomo (insH U p v P i) else P (i - 1)

/-- The surface after inserting `v` behind knot `k` of the u direction, as the code computes it. -/
def insSurfUC (p m n k : ℕ) (v : K) (s : Surface K) : Surface K :=
  { s with
    KnotsU := ⟨insL s.KnotsU.Values k v⟩
    ControlPoints := gridOf (m + 1) n fun i j => insPtC (kn s.KnotsU.Values) k v p (fun i => cp s i j) i }

/-- The surface after inserting `v` behind knot `k` of the v direction, as the code computes it. -/
def insSurfVC (q m n k : ℕ) (v : K) (s : Surface K) : Surface K :=
  { s with
    KnotsV := ⟨insL s.KnotsV.Values k v⟩
    ControlPoints := gridOf m (n + 1) fun i j => insPtC (kn s.KnotsV.Values) k v q (fun j => cp s i j) j }

theorem insertKnotU_gen {p m n : ℕ} {s : Surface K} (hd : s.DegreeU = p) (hc : Clamped p s.KnotsU.Values)
    (hu : s.ControlPoints.UCount = m) (hv : s.ControlPoints.VCount = n) (hl : s.ControlPoints.Values.length = n * m)
    {v : K} (h0 : 0 < v) (h1 : v < 1) {k : ℕ} (hk : IsSpan s.KnotsU.Values v k) (hpk : p ≤ k)
    (hlk : k + p + 2 ≤ s.KnotsU.Values.length) (hkn : k < m) (hp : 1 ≤ p)
    (hne : ∀ i, k < i + p → i ≤ k → kn s.KnotsU.Values (i + p) - kn s.KnotsU.Values i ≠ 0 ∧
      ∀ j < n, (insH (kn s.KnotsU.Values) p v (fun i => cp s i j) i).w ≠ 0) :
    s.InsertKnotU v = .ok (insSurfUC p m n k v s) := by
  have hg := grid_eq hu hv hl
  unfold Surface.InsertKnotU
  have e := knotInsert_ok s.KnotsU v 1 h0 h1 hc.sorted
  rw [upperBound_eq_span hc.sorted hk h1] at e
  rw [show ((1 : ℕ) : Int) = 1 from rfl] at e
  rw [e, bind_ok, hd]
  simp only
  have ek : ((k + 1 : ℕ) : Int) - 1 = k := by push_cast; omega
  rw [ek]
  have hins : s.ControlPoints.InsertU (k : Int) 0 0 =
      .ok (gridOf (m + 1) n fun x y => if x < k then cp s x y else if x = k then 0 else cp s (x - 1) y) := by
    rw [hg]; exact insertU_gridOf m n (cp s) (k : Int) k 0 0 rfl hkn
  rw [hins, bind_ok, alphaList_ok hpk (by omega) (fun i a b => (hne i a b).1), bind_ok]
  rw [gridOf_VCount, forLt_eq_forUp _ _ n (by omega)]
  have hloop := forUp_eq (fun j grid =>
    forLe ((k : Int) - p + 1) k (fun i (grid : Grid (Vec4 K)) => do
      let point_i := ToHomo (← s.ControlPoints.Get i j)
      let point_im1 := ToHomo (← s.ControlPoints.Get (i - 1) j)
      let alpha ← vget (tab p fun t => (v - kn s.KnotsU.Values (k - p + 1 + t)) /
        (kn s.KnotsU.Values (k - p + 1 + t + p) - kn s.KnotsU.Values (k - p + 1 + t))) (i - k + p - 1)
      grid.Set i j (← FromHomo (alpha • point_i + (1 - alpha) • point_im1))) grid)
    (fun j => gridOf (m + 1) n fun x y => if y < j then insPtC (kn s.KnotsU.Values) k v p (fun i => cp s i y) x
      else if x < k then cp s x y else if x = k then 0 else cp s (x - 1) y) n 0 (by
    intro j hj
    rw [forLe_eq_forUp _ _ p (by omega)]
    have hinner := forUp_eq (fun i (grid : Grid (Vec4 K)) => do
        let point_i := ToHomo (← s.ControlPoints.Get i ((0 : Int) + (j : Int)))
        let point_im1 := ToHomo (← s.ControlPoints.Get (i - 1) ((0 : Int) + (j : Int)))
        let alpha ← vget (tab p fun t => (v - kn s.KnotsU.Values (k - p + 1 + t)) /
          (kn s.KnotsU.Values (k - p + 1 + t + p) - kn s.KnotsU.Values (k - p + 1 + t))) (i - k + p - 1)
        grid.Set i ((0 : Int) + (j : Int)) (← FromHomo (alpha • point_i + (1 - alpha) • point_im1)))
      (fun t => gridOf (m + 1) n fun x y => if y < j ∨ (y = j ∧ x + p ≤ k + t) then insPtC (kn s.KnotsU.Values) k v p (fun i => cp s i y) x
        else if x < k then cp s x y else if x = k then 0 else cp s (x - 1) y) p ((k : Int) - p + 1) (by
      intro t ht
      obtain ⟨i, hi⟩ : ∃ i, k + t + 1 = i + p := ⟨k + t + 1 - p, by omega⟩
      have hpos := (hne i (by omega) (by omega)).2 j hj
      have ei : (k : Int) - p + 1 + t = i := by omega
      rw [ei, hg, get_gridOf m n (cp s) _ _ i j rfl (by omega) (by omega) hj, bind_ok,
        get_gridOf m n (cp s) _ _ (i - 1) j (by omega) (by omega) (by omega) hj, bind_ok,
        vget_tab _ _ _ t (by omega) ht, bind_ok, show k - p + 1 + t = i by omega]
      change (FromHomo (insH (kn s.KnotsU.Values) p v (fun i => cp s i j) i) >>= _) = _
      rw [fromHomo_gen hpos, bind_ok]
      apply set_gridOf _ _ _ _ _ _ i j _ rfl (by omega) (by omega) hj
      intro x hx y hy
      by_cases hxy : x = i ∧ y = j
      · obtain ⟨rfl, rfl⟩ := hxy
        rw [if_pos (by omega), if_pos ⟨rfl, rfl⟩, insPtC, if_neg (by omega), if_pos (by omega)]
      · rw [if_neg hxy]
        by_cases hc : y < j ∨ (y = j ∧ x + p ≤ k + t)
        · rw [if_pos hc, if_pos (by omega)]
        · rw [if_neg hc, if_neg (show ¬ (y < j ∨ (y = j ∧ x + p ≤ k + (t + 1))) by omega)])
    have e1 : (gridOf (m + 1) n fun x y => if y < j then insPtC (kn s.KnotsU.Values) k v p (fun i => cp s i y) x
        else if x < k then cp s x y else if x = k then 0 else cp s (x - 1) y) =
      (gridOf (m + 1) n fun x y => if y < j ∨ (y = j ∧ x + p ≤ k + 0) then insPtC (kn s.KnotsU.Values) k v p (fun i => cp s i y) x
        else if x < k then cp s x y else if x = k then 0 else cp s (x - 1) y) := by
      apply gridOf_congr
      intro x hx y hy
      by_cases hy1 : y < j
      · rw [if_pos hy1, if_pos (Or.inl hy1)]
      · rw [if_neg hy1]
        by_cases hc : y = j ∧ x + p ≤ k
        · rw [if_pos (show y < j ∨ _ by omega), if_pos (show x < k by omega), insPtC, if_pos hc.2]
        · rw [if_neg (show ¬ (y < j ∨ _) by omega)]
    have e2 : (gridOf (m + 1) n fun x y => if y < j ∨ (y = j ∧ x + p ≤ k + p) then insPtC (kn s.KnotsU.Values) k v p (fun i => cp s i y) x
        else if x < k then cp s x y else if x = k then 0 else cp s (x - 1) y) =
      (gridOf (m + 1) n fun x y => if y < j + 1 then insPtC (kn s.KnotsU.Values) k v p (fun i => cp s i y) x
        else if x < k then cp s x y else if x = k then 0 else cp s (x - 1) y) := by
      apply gridOf_congr
      intro x hx y hy
      by_cases hc : y < j ∨ (y = j ∧ x + p ≤ k + p)
      · rw [if_pos hc, if_pos (by omega)]
      · rw [if_neg hc]
        by_cases hy1 : y = j
        · rw [if_pos (show y < j + 1 by omega), if_neg (show ¬ x < k by omega), if_neg (show ¬ x = k by omega), insPtC,
            if_neg (by omega), if_neg (by omega)]
        · rw [if_neg (show ¬ y < j + 1 by omega)]
    rw [e1, hinner, e2])
  have e0 : (gridOf (m + 1) n fun x y => if x < k then cp s x y else if x = k then 0 else cp s (x - 1) y) =
      (gridOf (m + 1) n fun x y => if y < 0 then insPtC (kn s.KnotsU.Values) k v p (fun i => cp s i y) x
      else if x < k then cp s x y else if x = k then 0 else cp s (x - 1) y) := by
    apply gridOf_congr
    intro x hx y hy
    rw [if_neg (show ¬ y < 0 by omega)]
  rw [e0, hloop, bind_ok, pure_ok]
  unfold insSurfUC insL
  simp only [List.replicate_one, hd]
  congr 2
  apply gridOf_congr
  intro x hx y hy
  rw [if_pos hy]

theorem insertKnotV_gen {q m n : ℕ} {s : Surface K} (hd : s.DegreeV = q) (hc : Clamped q s.KnotsV.Values)
    (hu : s.ControlPoints.UCount = m) (hv : s.ControlPoints.VCount = n) (hl : s.ControlPoints.Values.length = n * m)
    {v : K} (h0 : 0 < v) (h1 : v < 1) {k : ℕ} (hk : IsSpan s.KnotsV.Values v k) (hpk : q ≤ k)
    (hlk : k + q + 2 ≤ s.KnotsV.Values.length) (hkn : k < n) (hp : 1 ≤ q)
    (hne : ∀ i, k < i + q → i ≤ k → kn s.KnotsV.Values (i + q) - kn s.KnotsV.Values i ≠ 0 ∧
      ∀ j < m, (insH (kn s.KnotsV.Values) q v (fun i => cp s j i) i).w ≠ 0) :
    s.InsertKnotV v = .ok (insSurfVC q m n k v s) := by
  have hg := grid_eq hu hv hl
  unfold Surface.InsertKnotV
  have e := knotInsert_ok s.KnotsV v 1 h0 h1 hc.sorted
  rw [upperBound_eq_span hc.sorted hk h1] at e
  rw [show ((1 : ℕ) : Int) = 1 from rfl] at e
  rw [e, bind_ok, hd]
  simp only
  have ek : ((k + 1 : ℕ) : Int) - 1 = k := by push_cast; omega
  rw [ek]
  have hins : s.ControlPoints.InsertV (k : Int) 0 =
      .ok (gridOf m (n + 1) fun x y => if y < k then cp s x y else if y = k then 0 else cp s x (y - 1)) := by
    rw [hg]; exact insertV_gridOf m n (cp s) (k : Int) k 0 rfl hkn
  rw [hins, bind_ok, alphaList_ok hpk (by omega) (fun i a b => (hne i a b).1), bind_ok]
  rw [gridOf_UCount, forLt_eq_forUp _ _ m (by omega)]
  have hloop := forUp_eq (fun j grid =>
    forLe ((k : Int) - q + 1) k (fun i (grid : Grid (Vec4 K)) => do
      let point_i := ToHomo (← s.ControlPoints.Get j i)
      let point_im1 := ToHomo (← s.ControlPoints.Get j (i - 1))
      let alpha ← vget (tab q fun t => (v - kn s.KnotsV.Values (k - q + 1 + t)) /
        (kn s.KnotsV.Values (k - q + 1 + t + q) - kn s.KnotsV.Values (k - q + 1 + t))) (i - k + q - 1)
      grid.Set j i (← FromHomo (alpha • point_i + (1 - alpha) • point_im1))) grid)
    (fun j => gridOf m (n + 1) fun y x => if y < j then insPtC (kn s.KnotsV.Values) k v q (fun i => cp s y i) x
      else if x < k then cp s y x else if x = k then 0 else cp s y (x - 1)) m 0 (by
    intro j hj
    rw [forLe_eq_forUp _ _ q (by omega)]
    have hinner := forUp_eq (fun i (grid : Grid (Vec4 K)) => do
        let point_i := ToHomo (← s.ControlPoints.Get ((0 : Int) + (j : Int)) i)
        let point_im1 := ToHomo (← s.ControlPoints.Get ((0 : Int) + (j : Int)) (i - 1))
        let alpha ← vget (tab q fun t => (v - kn s.KnotsV.Values (k - q + 1 + t)) /
          (kn s.KnotsV.Values (k - q + 1 + t + q) - kn s.KnotsV.Values (k - q + 1 + t))) (i - k + q - 1)
        grid.Set ((0 : Int) + (j : Int)) i (← FromHomo (alpha • point_i + (1 - alpha) • point_im1)))
      (fun t => gridOf m (n + 1) fun y x => if y < j ∨ (y = j ∧ x + q ≤ k + t) then insPtC (kn s.KnotsV.Values) k v q (fun i => cp s y i) x
        else if x < k then cp s y x else if x = k then 0 else cp s y (x - 1)) q ((k : Int) - q + 1) (by
      intro t ht
      obtain ⟨i, hi⟩ : ∃ i, k + t + 1 = i + q := ⟨k + t + 1 - q, by omega⟩
      have hpos := (hne i (by omega) (by omega)).2 j hj
      have ei : (k : Int) - q + 1 + t = i := by omega
      rw [ei, hg, get_gridOf m n (cp s) _ _ j i (by omega) rfl hj (by omega), bind_ok,
        get_gridOf m n (cp s) _ _ j (i - 1) (by omega) (by omega) hj (by omega), bind_ok,
        vget_tab _ _ _ t (by omega) ht, bind_ok, show k - q + 1 + t = i by omega]
      change (FromHomo (insH (kn s.KnotsV.Values) q v (fun i => cp s j i) i) >>= _) = _
      rw [fromHomo_gen hpos, bind_ok]
      apply set_gridOf _ _ _ _ _ _ j i _ (by omega) rfl hj (by omega)
      intro y hy x hx
      by_cases hxy : y = j ∧ x = i
      · obtain ⟨rfl, rfl⟩ := hxy
        rw [if_pos (by omega), if_pos ⟨rfl, rfl⟩, insPtC, if_neg (by omega), if_pos (by omega)]
      · rw [if_neg hxy]
        by_cases hc : y < j ∨ (y = j ∧ x + q ≤ k + t)
        · rw [if_pos hc, if_pos (by omega)]
        · rw [if_neg hc, if_neg (show ¬ (y < j ∨ (y = j ∧ x + q ≤ k + (t + 1))) by omega)])
    have e1 : (gridOf m (n + 1) fun y x => if y < j then insPtC (kn s.KnotsV.Values) k v q (fun i => cp s y i) x
        else if x < k then cp s y x else if x = k then 0 else cp s y (x - 1)) =
      (gridOf m (n + 1) fun y x => if y < j ∨ (y = j ∧ x + q ≤ k + 0) then insPtC (kn s.KnotsV.Values) k v q (fun i => cp s y i) x
        else if x < k then cp s y x else if x = k then 0 else cp s y (x - 1)) := by
      apply gridOf_congr
      intro y hy x hx
      by_cases hy1 : y < j
      · rw [if_pos hy1, if_pos (Or.inl hy1)]
      · rw [if_neg hy1]
        by_cases hc : y = j ∧ x + q ≤ k
        · rw [if_pos (show y < j ∨ _ by omega), if_pos (show x < k by omega), insPtC, if_pos hc.2]
        · rw [if_neg (show ¬ (y < j ∨ _) by omega)]
    have e2 : (gridOf m (n + 1) fun y x => if y < j ∨ (y = j ∧ x + q ≤ k + q) then insPtC (kn s.KnotsV.Values) k v q (fun i => cp s y i) x
        else if x < k then cp s y x else if x = k then 0 else cp s y (x - 1)) =
      (gridOf m (n + 1) fun y x => if y < j + 1 then insPtC (kn s.KnotsV.Values) k v q (fun i => cp s y i) x
        else if x < k then cp s y x else if x = k then 0 else cp s y (x - 1)) := by
      apply gridOf_congr
      intro y hy x hx
      by_cases hc : y < j ∨ (y = j ∧ x + q ≤ k + q)
      · rw [if_pos hc, if_pos (by omega)]
      · rw [if_neg hc]
        by_cases hy1 : y = j
        · rw [if_pos (show y < j + 1 by omega), if_neg (show ¬ x < k by omega), if_neg (show ¬ x = k by omega), insPtC,
            if_neg (by omega), if_neg (by omega)]
        · rw [if_neg (show ¬ y < j + 1 by omega)]
    rw [e1, hinner, e2])
  have e0 : (gridOf m (n + 1) fun x y => if y < k then cp s x y else if y = k then 0 else cp s x (y - 1)) =
      (gridOf m (n + 1) fun y x => if y < 0 then insPtC (kn s.KnotsV.Values) k v q (fun i => cp s y i) x
      else if x < k then cp s y x else if x = k then 0 else cp s y (x - 1)) := by
    apply gridOf_congr
    intro y hy x hx
    rw [if_neg (show ¬ y < 0 by omega)]
  rw [e0, hloop, bind_ok, pure_ok]
  unfold insSurfVC insL
  simp only [List.replicate_one, hd]
  congr 2
  apply gridOf_congr
  intro y hy x hx
  rw [if_pos hy]

theorem insSurfUC_row {p m n k : ℕ} {s : Surface K} {v : K} (hd : s.DegreeU = p) (hpk : p ≤ k) (hkn : k < m) {j : ℕ} (hj : j < n) :
    rowCurve (m + 1) (insSurfUC p m n k v s) j = insCurveC p k v (rowCurve m s j) := by
  unfold insCurveC
  rw [rowCurve_length]
  refine Curve.ext (by simpa [rowCurve, insSurfUC] using hd) rfl ?_
  show _ = tab (m + 1) _
  have hl : (rowCurve (m + 1) (insSurfUC p m n k v s) j).ControlPoints = tab (m + 1) fun i => cp (insSurfUC p m n k v s) i j := rfl
  rw [hl]
  apply tab_congr
  intro i hi
  rw [cp_gridOf (s := insSurfUC p m n k v s)
    (f := fun i j => insPtC (kn s.KnotsU.Values) k v p (fun i => cp s i j) i) rfl hi hj, insPtC]
  split_ifs with ha hb
  · rw [pt_rowCurve (by omega)]
  · congr 1
    unfold insH
    simp only
    rw [pt_rowCurve (by omega), pt_rowCurve (by omega)]
    rfl
  · rw [pt_rowCurve (by omega)]

theorem insSurfVC_col {q m n k : ℕ} {s : Surface K} {v : K} (hd : s.DegreeV = q) (hpk : q ≤ k) (hkn : k < n) {i : ℕ} (hi : i < m) :
    colCurve (n + 1) (insSurfVC q m n k v s) i = insCurveC q k v (colCurve n s i) := by
  unfold insCurveC
  rw [colCurve_length]
  refine Curve.ext (by simpa [colCurve, insSurfVC] using hd) rfl ?_
  show _ = tab (n + 1) _
  have hl : (colCurve (n + 1) (insSurfVC q m n k v s) i).ControlPoints = tab (n + 1) fun j => cp (insSurfVC q m n k v s) i j := rfl
  rw [hl]
  apply tab_congr
  intro j hj
  rw [cp_gridOf (s := insSurfVC q m n k v s)
    (f := fun i j => insPtC (kn s.KnotsV.Values) k v q (fun j => cp s i j) j) rfl hi hj, insPtC]
  split_ifs with ha hb
  · rw [pt_colCurve (by omega)]
  · congr 1
    unfold insH
    simp only
    rw [pt_colCurve (by omega), pt_colCurve (by omega)]
    rfl
  · rw [pt_colCurve (by omega)]

end generic

variable {K : Type} [Field K] [LinearOrder K] [IsStrictOrderedRing K] {R : Rounding K}

/-! ### exact rows and columns -/

theorem cp_exact (s : Surface (Fl R)) (i j : ℕ) : cp (exactSurface s) i j = exactPoint (cp s i j) := by
  unfold cp exactSurface
  simp only
  rw [List.getD_eq_getElem?_getD, List.getD_eq_getElem?_getD, List.getElem?_map]
  cases s.ControlPoints.Values[j * s.ControlPoints.UCount.toNat + i]? with
  | none => simp [exactPoint, Fl.val_zero]
  | some a => simp

theorem exact_rowCurve (m : ℕ) (s : Surface (Fl R)) (j : ℕ) : exactCurve (rowCurve m s j) = rowCurve m (exactSurface s) j := by
  refine Curve.ext rfl rfl ?_
  simp only [exactCurve, rowCurve, List.map_map]
  exact List.map_congr_left fun i _ => (cp_exact s i j).symm

theorem exact_colCurve (n : ℕ) (s : Surface (Fl R)) (i : ℕ) : exactCurve (colCurve n s i) = colCurve n (exactSurface s) i := by
  refine Curve.ext rfl rfl ?_
  simp only [exactCurve, colCurve, List.map_map]
  exact List.map_congr_left fun j _ => (cp_exact s i j).symm

theorem surfaceBounds_row {m n : ℕ} {s : Surface K} {lo hi B : K} (h : SurfaceBounds m n s lo hi B) {j : ℕ} (hj : j < n) :
    CurveBounds (rowCurve m s j) lo hi B := by
  intro i hin
  rw [rowCurve_length] at hin
  rw [pt_rowCurve hin]
  exact h i hin j hj

theorem surfaceBounds_col {m n : ℕ} {s : Surface K} {lo hi B : K} (h : SurfaceBounds m n s lo hi B) {i : ℕ} (hin : i < m) :
    CurveBounds (colCurve n s i) lo hi B := by
  intro j hj
  rw [colCurve_length] at hj
  rw [pt_colCurve hj]
  exact h i hin j hj

/-! ### nearby weighted means -/

theorem mean_perturb {ι : Type} (S : Finset ι) (ν wA fA wB fB : ι → K) (hν : ∀ i ∈ S, 0 ≤ ν i) (hS : ∑ i ∈ S, ν i = 1)
    {D D' M m : K} (hm : 0 < m) (hB : ∀ i ∈ S, 0 < wB i)
    (h1 : ∀ i ∈ S, |wA i * fA i - wB i * fB i| ≤ D) (h2 : ∀ i ∈ S, |wA i - wB i| ≤ D') (h3 : ∀ i ∈ S, |fB i| ≤ M)
    (h4 : ∀ i ∈ S, m ≤ wA i) :
    |(∑ i ∈ S, ν i * (wA i * fA i)) / (∑ i ∈ S, ν i * wA i) - (∑ i ∈ S, ν i * (wB i * fB i)) / (∑ i ∈ S, ν i * wB i)| ≤
      (D + M * D') / m := by
  have avg : ∀ (g : ι → K) (C : K), (∀ i ∈ S, |g i| ≤ C) → |∑ i ∈ S, ν i * g i| ≤ C := by
    intro g C hg
    refine le_trans (Finset.abs_sum_le_sum_abs _ _) ?_
    calc _ ≤ ∑ i ∈ S, ν i * C := by
          apply Finset.sum_le_sum
          intro i hi
          rw [abs_mul, abs_of_nonneg (hν i hi)]
          exact mul_le_mul_of_nonneg_left (hg i hi) (hν i hi)
      _ = C := by rw [← Finset.sum_mul, hS, one_mul]
  have d1 : |(∑ i ∈ S, ν i * (wA i * fA i)) - ∑ i ∈ S, ν i * (wB i * fB i)| ≤ D := by
    rw [← Finset.sum_sub_distrib]
    simp only [← mul_sub]
    exact avg _ _ h1
  have d2 : |(∑ i ∈ S, ν i * wA i) - ∑ i ∈ S, ν i * wB i| ≤ D' := by
    rw [← Finset.sum_sub_distrib]
    simp only [← mul_sub]
    exact avg _ _ h2
  have d3 : m ≤ ∑ i ∈ S, ν i * wA i := by
    calc m = ∑ i ∈ S, ν i * m := by rw [← Finset.sum_mul, hS, one_mul]
      _ ≤ _ := Finset.sum_le_sum fun i hi => mul_le_mul_of_nonneg_left (h4 i hi) (hν i hi)
  have hbpos : 0 < ∑ i ∈ S, ν i * wB i := by
    obtain ⟨i, hi, hne⟩ := Finset.exists_ne_zero_of_sum_ne_zero (by rw [hS]; exact one_ne_zero : ∑ i ∈ S, ν i ≠ 0)
    exact Finset.sum_pos' (fun i hi => mul_nonneg (hν i hi) (hB i hi).le)
      ⟨i, hi, mul_pos (lt_of_le_of_ne (hν i hi) (Ne.symm hne)) (hB i hi)⟩
  have d4 : |(∑ i ∈ S, ν i * (wB i * fB i)) / ∑ i ∈ S, ν i * wB i| ≤ M := by
    rw [abs_div, abs_of_pos hbpos, div_le_iff₀ hbpos, Finset.mul_sum]
    refine le_trans (Finset.abs_sum_le_sum_abs _ _) (Finset.sum_le_sum fun i hi => ?_)
    rw [abs_mul, abs_mul, abs_of_nonneg (hν i hi), abs_of_pos (hB i hi)]
    have := mul_le_mul_of_nonneg_left (h3 i hi) (mul_nonneg (hν i hi) (hB i hi).le)
    linarith
  have hpos : 0 < ∑ i ∈ S, ν i * wA i := lt_of_lt_of_le hm d3
  set SA := ∑ i ∈ S, ν i * wA i
  set SB := ∑ i ∈ S, ν i * wB i
  set TA := ∑ i ∈ S, ν i * (wA i * fA i)
  set TB := ∑ i ∈ S, ν i * (wB i * fB i)
  rw [show TA / SA - TB / SB = ((TA - TB) - TB / SB * (SA - SB)) / SA by field_simp; ring, abs_div, abs_of_pos hpos]
  have hM : 0 ≤ M := le_trans (abs_nonneg _) d4
  have hD : 0 ≤ D := le_trans (abs_nonneg _) d1
  have hD' : 0 ≤ D' := le_trans (abs_nonneg _) d2
  have num : |TA - TB - TB / SB * (SA - SB)| ≤ D + M * D' := by
    refine le_trans (abs_sub _ _) (add_le_add d1 ?_)
    rw [abs_mul]
    exact mul_le_mul d4 d2 (abs_nonneg _) hM
  exact div_le_div₀ (add_nonneg hD (mul_nonneg hM hD')) num hm d3

theorem swsum_perturb {p q m n : ℕ} {A B : Surface K} (hB : WFSurface p q m n B)
    (hku : A.KnotsU.Values = B.KnotsU.Values) (hkv : A.KnotsV.Values = B.KnotsV.Values) (f : Vec4 K → K) {D D' M l : K} (hl : 0 < l)
    (h1 : ∀ i < m, ∀ j < n, |(cp A i j).w * f (cp A i j) - (cp B i j).w * f (cp B i j)| ≤ D)
    (h2 : ∀ i < m, ∀ j < n, |(cp A i j).w - (cp B i j).w| ≤ D') (h3 : ∀ i < m, ∀ j < n, |f (cp B i j)| ≤ M)
    (h4 : ∀ i < m, ∀ j < n, l ≤ (cp A i j).w) {x y : K} (hx0 : 0 ≤ x) (hx1 : x ≤ 1) (hy0 : 0 ≤ y) (hy1 : y ≤ 1) :
    |swsum p q m n A x y f / swsum p q m n A x y (fun _ => 1) - swsum p q m n B x y f / swsum p q m n B x y (fun _ => 1)| ≤
      (D + M * D') / l := by
  have mem : ∀ a ∈ Finset.range m ×ˢ Finset.range n, a.1 < m ∧ a.2 < n := fun a ha => by
    rw [Finset.mem_product, Finset.mem_range, Finset.mem_range] at ha; exact ha
  have key := mean_perturb (Finset.range m ×ˢ Finset.range n)
    (fun a => N (kn B.KnotsU.Values) x p a.1 * N (kn B.KnotsV.Values) y q a.2)
    (fun a => (cp A a.1 a.2).w) (fun a => f (cp A a.1 a.2)) (fun a => (cp B a.1 a.2).w) (fun a => f (cp B a.1 a.2))
    (fun a ha => mul_nonneg (N_nonneg hB.clampedU hB.knotsU hx0 hx1 (mem a ha).1) (N_nonneg hB.clampedV hB.knotsV hy0 hy1 (mem a ha).2))
    (by
      rw [Finset.sum_product]
      simp only [← Finset.mul_sum, N_sum hB.clampedV hB.knotsV hy0 hy1, mul_one, N_sum hB.clampedU hB.knotsU hx0 hx1])
    hl (fun a ha => hB.weights _ (mem a ha).1 _ (mem a ha).2) (fun a ha => h1 _ (mem a ha).1 _ (mem a ha).2)
    (fun a ha => h2 _ (mem a ha).1 _ (mem a ha).2) (fun a ha => h3 _ (mem a ha).1 _ (mem a ha).2)
    (fun a ha => h4 _ (mem a ha).1 _ (mem a ha).2)
  simp only [Finset.sum_product] at key
  have e : ∀ (C : Surface K), C.KnotsU.Values = B.KnotsU.Values → C.KnotsV.Values = B.KnotsV.Values → ∀ g : Vec4 K → K,
      swsum p q m n C x y g = ∑ i ∈ Finset.range m, ∑ j ∈ Finset.range n,
        N (kn B.KnotsU.Values) x p i * N (kn B.KnotsV.Values) y q j * ((cp C i j).w * g (cp C i j)) := by
    intro C hu hv g
    unfold swsum
    rw [hu, hv]
    exact Finset.sum_congr rfl fun i _ => Finset.sum_congr rfl fun j _ => by ring
  rw [e A hku hkv, e A hku hkv, e B rfl rfl, e B rfl rfl]
  simp only [mul_one]
  exact key

theorem surfPoint_eq_of_evaluate {p q m n m' n' : ℕ} {s t : Surface K} (hs : WFSurface p q m n s) (ht : WFSurface p q m' n' t)
    {x y : K} (hx0 : 0 ≤ x) (hx1 : x ≤ 1) (hy0 : 0 ≤ y) (hy1 : y ≤ 1) (e : t.Evaluate x y = s.Evaluate x y) :
    surfPoint p q m' n' t x y = surfPoint p q m n s x y := by
  obtain ⟨a, ha, _⟩ := exists_span hs.clampedU hx0 hx1
  obtain ⟨b, hb, _⟩ := exists_span hs.clampedV hy0 hy1
  obtain ⟨c, hc, _⟩ := exists_span ht.clampedU hx0 hx1
  obtain ⟨d, hd, _⟩ := exists_span ht.clampedV hy0 hy1
  obtain ⟨a1, a2, a3, a4, _, _, _, e1⟩ := surface_seg hs hx0 hx1 hy0 hy1 ha hb
  obtain ⟨b1, b2, b3, b4, _, _, _, e2⟩ := surface_seg ht hx0 hx1 hy0 hy1 hc hd
  rw [e1, e2, proj_sseg_eq ht hc hd b1 b2 b3 b4, proj_sseg_eq hs ha hb a1 a2 a3 a4] at e
  injection e

theorem surfacesWithin_trans {p q m n m' n' m'' n'' : ℕ} {a b c : Surface K} {e e' : K}
    (h : SurfacesWithin p q m n m' n' a b e) (h' : SurfacesWithin p q m' n' m'' n'' b c e') :
    SurfacesWithin p q m n m'' n'' a c (e + e') := by
  intro x y h0 h1 h2 h3
  obtain ⟨a1, a2, a3⟩ := h x y h0 h1 h2 h3
  obtain ⟨b1, b2, b3⟩ := h' x y h0 h1 h2 h3
  have tri : ∀ r s t : K, |s - r| ≤ e → |t - s| ≤ e' → |t - r| ≤ e + e' := fun r s t h1 h2 => by
    rw [show t - r = (s - r) + (t - s) by ring]
    exact le_trans (abs_add_le _ _) (add_le_add h1 h2)
  exact ⟨tri _ _ _ a1 b1, tri _ _ _ a2 b2, tri _ _ _ a3 b3⟩

/-- Two surfaces whose homogeneous control points differ as after one insertion. -/
theorem surf_ins_fin {p q m n : ℕ} {A B : Surface K} (hB : WFSurface p q m n B)
    (hku : A.KnotsU.Values = B.KnotsU.Values) (hkv : A.KnotsV.Values = B.KnotsV.Values) {lo hi Bd : K} (hlo : 0 < lo)
    (hhi : 0 ≤ hi) (hBd : 0 ≤ Bd) (hr : ∀ i < m, ∀ j < n, R.q ^ 3 * lo ≤ (cp A i j).w) (f : Vec4 K → K)
    (h : ∀ i < m, ∀ j < n, |(cp A i j).w * f (cp A i j) - (cp B i j).w * f (cp B i j)| ≤ ((R.q ^ 8)⁻¹ - 1) * (2 * hi * Bd) ∧
      |(cp A i j).w - (cp B i j).w| ≤ ((R.q ^ 8)⁻¹ - 1) * (2 * hi) ∧ |f (cp B i j)| ≤ Bd)
    {x y : K} (hx0 : 0 ≤ x) (hx1 : x ≤ 1) (hy0 : 0 ≤ y) (hy1 : y ≤ 1) :
    |swsum p q m n A x y f / swsum p q m n A x y (fun _ => 1) - swsum p q m n B x y f / swsum p q m n B x y (fun _ => 1)| ≤
      4 * errFactor R 11 * (hi / lo) * Bd := by
  have hq := R.q_pos
  have hm : 0 < R.q ^ 3 * lo := mul_pos (pow_pos hq 3) hlo
  refine le_trans (swsum_perturb hB hku hkv f hm (fun i a j b => (h i a j b).1) (fun i a j b => (h i a j b).2.1)
    (fun i a j b => (h i a j b).2.2) hr hx0 hx1 hy0 hy1) ?_
  rw [div_le_iff₀ hm]
  have e : 4 * errFactor R 11 * (hi / lo) * Bd * (R.q ^ 3 * lo) = 4 * hi * Bd * (errFactor R 11 * R.q ^ 3) := by
    field_simp
  rw [e]
  have hE : (R.q ^ 8)⁻¹ - 1 ≤ errFactor R 11 * R.q ^ 3 := by
    have l3 : R.q ^ 3 ≤ 1 := pow_le_one₀ hq.le R.q_le
    have : errFactor R 11 * R.q ^ 3 = (R.q ^ 8)⁻¹ - R.q ^ 3 := by
      change ((R.q ^ 11)⁻¹ - 1) * R.q ^ 3 = _
      field_simp
    linarith
  have := mul_le_mul_of_nonneg_left hE (show 0 ≤ 4 * hi * Bd by positivity)
  linarith

theorem insC_keys {p : ℕ} {c : Curve (Fl R)} (hw : WFCurve p (exactCurve c)) {v : Fl R} {k : ℕ}
    (hk : IsSpan (exactList c.Knots.Values) v.val k) (h0 : 0 < v.val) (h1 : v.val < 1)
    {lo hi B : K} (hlo : 0 < lo) (hb : CurveBounds (exactCurve c) lo hi B) (f : Vec4 K → K)
    (hf : f = (·.x) ∨ f = (·.y) ∨ f = (·.z)) : ∀ i < c.ControlPoints.length + 1,
        |(pt (exactCurve (insCurveC p k v c)).ControlPoints i).w * f (pt (exactCurve (insCurveC p k v c)).ControlPoints i) -
          (pt (insCurve p k v.val (exactCurve c)).ControlPoints i).w * f (pt (insCurve p k v.val (exactCurve c)).ControlPoints i)| ≤
          ((R.q ^ 8)⁻¹ - 1) * (2 * hi * B) ∧
        |(pt (exactCurve (insCurveC p k v c)).ControlPoints i).w - (pt (insCurve p k v.val (exactCurve c)).ControlPoints i).w| ≤
          ((R.q ^ 8)⁻¹ - 1) * (2 * hi) ∧
        |f (pt (insCurve p k v.val (exactCurve c)).ControlPoints i)| ≤ B := by
  have key := insC_key hw hk h0 h1 hlo hb
  have hb' : ∀ i < c.ControlPoints.length, |(pt c.ControlPoints i).x.val| ≤ B ∧ |(pt c.ControlPoints i).y.val| ≤ B ∧
      |(pt c.ControlPoints i).z.val| ≤ B := by
    intro i hin
    have hlen2 : (exactCurve c).ControlPoints.length = c.ControlPoints.length := List.length_map _
    have := (hb i (by omega)).2.2
    change |(pt (c.ControlPoints.map exactPoint) i).x| ≤ _ ∧ |(pt (c.ControlPoints.map exactPoint) i).y| ≤ _ ∧
      |(pt (c.ControlPoints.map exactPoint) i).z| ≤ _ at this
    rwa [← exactPoint_pt] at this
  rcases hf with rfl | rfl | rfl
  · exact key (·.x) (·.x) (fun _ => rfl) (fun _ => rfl) (fun _ => rfl) (fun _ _ => rfl) (fun _ _ => rfl)
      (fun P => by simp [ToHomo, mul_comm]) (fun _ _ => rfl) (fun _ _ => rfl) (fun i hin => (hb' i hin).1)
  · exact key (·.y) (·.y) (fun _ => rfl) (fun _ => rfl) (fun _ => rfl) (fun _ _ => rfl) (fun _ _ => rfl)
      (fun P => by simp [ToHomo, mul_comm]) (fun _ _ => rfl) (fun _ _ => rfl) (fun i hin => (hb' i hin).2.1)
  · exact key (·.z) (·.z) (fun _ => rfl) (fun _ => rfl) (fun _ => rfl) (fun _ _ => rfl) (fun _ _ => rfl)
      (fun P => by simp [ToHomo, mul_comm]) (fun _ _ => rfl) (fun _ _ => rfl) (fun i hin => (hb' i hin).2.2)

/-- The bounds of a list of insertions add up. -/
theorem ins_factor_add {lo hi B : K} (hlo : 0 < lo) (hhi : 0 ≤ hi) (hB : 0 ≤ B) (t : ℕ) :
    4 * errFactor R 11 * (hi / lo) * B +
      4 * errFactor R (14 * t) * ((R.q ^ 3)⁻¹ * hi / (R.q ^ 3 * lo)) * ((R.q ^ 8)⁻¹ * B) ≤
      4 * errFactor R (14 * (t + 1)) * (hi / lo) * B := by
  have hq := R.q_pos
  have hH : 0 ≤ hi / lo := div_nonneg hhi hlo.le
  have e1 : 4 * errFactor R (14 * t) * ((R.q ^ 3)⁻¹ * hi / (R.q ^ 3 * lo)) * ((R.q ^ 8)⁻¹ * B) =
      4 * (hi / lo) * B * ((R.q ^ (14 * (t + 1)))⁻¹ - (R.q ^ 14)⁻¹) := by
    change 4 * ((R.q ^ (14 * t))⁻¹ - 1) * _ * _ = _
    rw [mul_add, pow_add, mul_one]
    field_simp
  have e2 : 4 * errFactor R (14 * (t + 1)) * (hi / lo) * B = 4 * (hi / lo) * B * ((R.q ^ (14 * (t + 1)))⁻¹ - 1) := by
    change 4 * ((R.q ^ (14 * (t + 1)))⁻¹ - 1) * _ * _ = _
    ring
  have e3 : 4 * errFactor R 11 * (hi / lo) * B ≤ 4 * (hi / lo) * B * ((R.q ^ 14)⁻¹ - 1) := by
    have : errFactor R 11 ≤ (R.q ^ 14)⁻¹ - 1 := by
      change (R.q ^ 11)⁻¹ - 1 ≤ _
      have := pow_inv_mono hq R.q_le (show 11 ≤ 14 by omega)
      linarith
    have := mul_le_mul_of_nonneg_left this (show 0 ≤ 4 * (hi / lo) * B by positivity)
    linarith
  rw [e1, e2]
  linarith

/-! ### direction u -/

section U
variable {p q m n : ℕ} {s : Surface (Fl R)} (hw : WFSurface p q m n (exactSurface s)) {v : Fl R} {k : ℕ}
  (hk : IsSpan (exactList s.KnotsU.Values) v.val k) (h0 : 0 < v.val) (h1 : v.val < 1)
include hw hk h0 h1

theorem insUC_bounds : p ≤ k ∧ k + p + 2 ≤ s.KnotsU.Values.length ∧ k < m := by
  have := insU_bounds hw hk h0 h1
  have hlen : (exactSurface s).KnotsU.Values.length = s.KnotsU.Values.length := exactList_length _
  rwa [hlen] at this

theorem insUC_row_wf {j : ℕ} (hx : j < n) : WFCurve p (exactCurve (rowCurve m s j)) := by
  rw [exact_rowCurve]; exact rowCurve_wf hw hx

theorem insertKnotU_rounded (hp : 1 ≤ p) : s.InsertKnotU v = .ok (insSurfUC p m n k v s) := by
  obtain ⟨hpk, hlk, hkn⟩ := insUC_bounds hw hk h0 h1
  have e0 : (0 : Fl R) < v := by rw [Fl.lt_def, Fl.val_zero]; exact h0
  have e1 : v < (1 : Fl R) := by rw [Fl.lt_def, Fl.val_one]; exact h1
  have hd : s.DegreeU = p := hw.degreeU
  have hl : s.ControlPoints.Values.length = n * m := by simpa [exactSurface] using hw.storage
  have ho : 0 < n := by
    have := hw.knotsV
    have := hw.clampedV.len
    omega
  refine insertKnotU_gen hd (clamped_exact.mp hw.clampedU) hw.uCount hw.vCount hl e0 e1 (isSpan_exact.mp hk) hpk hlk hkn hp
    (fun i hi1 hi2 => ⟨(insC_ne (insUC_row_wf hw hk h0 h1 ho) hk h0 h1 hi1 hi2).1, fun j hj => ?_⟩)
  have := (insC_ne (insUC_row_wf hw hk h0 h1 hj) hk h0 h1 hi1 hi2).2
  have e : insH (kn s.KnotsU.Values) p v (pt (rowCurve m s j).ControlPoints) i =
      insH (kn s.KnotsU.Values) p v (fun i => cp s i j) i := by
    unfold insH
    rw [pt_rowCurve (by omega), pt_rowCurve (by omega)]
  rw [← e]
  exact this

theorem insUC_row {j : ℕ} (hx : j < n) : rowCurve (m + 1) (exactSurface (insSurfUC p m n k v s)) j =
    exactCurve (insCurveC p k v (rowCurve m s j)) := by
  obtain ⟨hpk, hlk, hkn⟩ := insUC_bounds hw hk h0 h1
  have hd : s.DegreeU = p := hw.degreeU
  rw [← exact_rowCurve, insSurfUC_row hd hpk hkn hx]

theorem insUC_range {lo hi B : K} (hlo : 0 < lo) (hb : SurfaceBounds m n (exactSurface s) lo hi B) :
    SurfaceBounds (m + 1) n (exactSurface (insSurfUC p m n k v s)) (R.q ^ 3 * lo) ((R.q ^ 3)⁻¹ * hi) ((R.q ^ 8)⁻¹ * B) := by
  intro i hin j hj
  have := insC_range (insUC_row_wf hw hk h0 h1 hj) hk h0 h1 hlo (by rw [exact_rowCurve]; exact surfaceBounds_row hb hj)
  rw [← insUC_row hw hk h0 h1 hj] at this
  have := this i (by rw [rowCurve_length]; exact hin)
  rwa [pt_rowCurve hin] at this

theorem insUC_wf : WFSurface p q (m + 1) n (exactSurface (insSurfUC p m n k v s)) := by
  have he := insSurfU_wf hw hk h0 h1
  have ek : exactList (insL s.KnotsU.Values k v) = insL (exactList s.KnotsU.Values) k v.val := exactList_insL _ _ _
  refine ⟨hw.degreeU, hw.degreeV, ?_, hw.clampedV, rfl, rfl, ?_, hw.knotsV,
    by simp [exactSurface, insSurfUC, gridOf], ?_⟩
  · change Clamped p (exactList (insL s.KnotsU.Values k v))
    rw [ek]; exact he.clampedU
  · change (exactList (insL s.KnotsU.Values k v)).length = _
    rw [ek]; exact he.knotsU
  · intro i hin j hj
    have := insC_wf (insUC_row_wf hw hk h0 h1 hj) hk h0 h1
    rw [← insUC_row hw hk h0 h1 hj] at this
    have := this.weights i (by rw [rowCurve_length]; exact hin)
    rwa [pt_rowCurve hin] at this

theorem insUC_within {lo hi B : K} (hlo : 0 < lo) (hb : SurfaceBounds m n (exactSurface s) lo hi B) :
    SurfacesWithin p q m n (m + 1) n (exactSurface s) (exactSurface (insSurfUC p m n k v s)) (4 * errFactor R 11 * (hi / lo) * B) := by
  have he := insSurfU_wf hw hk h0 h1
  have hr := insUC_range hw hk h0 h1 hlo hb
  have hm : 0 < m := by
    have := hw.knotsU
    have := hw.clampedU.len
    omega
  have hn : 0 < n := by
    have := hw.knotsV
    have := hw.clampedV.len
    omega
  obtain ⟨b1, b2, b3, _⟩ := hb 0 hm 0 hn
  have hB : 0 ≤ B := le_trans (abs_nonneg _) b3
  have hhi : 0 ≤ hi := by linarith
  have eU : (exactSurface (insSurfUC p m n k v s)).KnotsU.Values = (insSurfU p m n k v.val (exactSurface s)).KnotsU.Values := exactList_insL _ _ _
  have eV : (exactSurface (insSurfUC p m n k v s)).KnotsV.Values = (insSurfU p m n k v.val (exactSurface s)).KnotsV.Values := rfl
  have fin : ∀ f : Vec4 K → K, f = (·.x) ∨ f = (·.y) ∨ f = (·.z) → ∀ x y, 0 ≤ x → x ≤ 1 → 0 ≤ y → y ≤ 1 →
      |swsum p q (m + 1) n (exactSurface (insSurfUC p m n k v s)) x y f / swsum p q (m + 1) n (exactSurface (insSurfUC p m n k v s)) x y (fun _ => 1) -
        swsum p q (m + 1) n (insSurfU p m n k v.val (exactSurface s)) x y f / swsum p q (m + 1) n (insSurfU p m n k v.val (exactSurface s)) x y (fun _ => 1)| ≤ 4 * errFactor R 11 * (hi / lo) * B := by
    intro f hf x y hx0 hx1 hy0 hy1
    refine surf_ins_fin (A := exactSurface (insSurfUC p m n k v s)) (B := insSurfU p m n k v.val (exactSurface s)) he eU eV hlo hhi hB (fun i a j b => (hr i a j b).1) f ?_ hx0 hx1 hy0 hy1
    intro i hin j hj
    have := insC_keys (insUC_row_wf hw hk h0 h1 hj) hk h0 h1 hlo (by rw [exact_rowCurve]; exact surfaceBounds_row hb hj) f hf i
      (by rw [rowCurve_length]; exact hin)
    rw [← insUC_row hw hk h0 h1 hj, exact_rowCurve, ← insSurfU_row hw hk h0 h1 hj, pt_rowCurve hin, pt_rowCurve hin] at this
    exact this
  intro x y hx0 hx1 hy0 hy1
  rw [← surfPoint_eq_of_evaluate hw he hx0 hx1 hy0 hy1 (insSurfU_evaluate hw hk h0 h1 hx0 hx1 hy0 hy1)]
  exact ⟨fin _ (Or.inl rfl) x y hx0 hx1 hy0 hy1, fin _ (Or.inr (Or.inl rfl)) x y hx0 hx1 hy0 hy1,
    fin _ (Or.inr (Or.inr rfl)) x y hx0 hx1 hy0 hy1⟩

end U

/-- Inserting a list of knots: the errors of the single insertions add up. -/
theorem insertListU_rounded {p q n : ℕ} (hp : 1 ≤ p) (vs : List (Fl R)) (hv : ∀ v ∈ vs, 0 < v.val ∧ v.val < 1) {m : ℕ}
    {s : Surface (Fl R)} (hw : WFSurface p q m n (exactSurface s)) {lo hi B : K} (hlo : 0 < lo)
    (hb : SurfaceBounds m n (exactSurface s) lo hi B) :
    ∃ s', s.InsertKnotUList vs = .ok s' ∧ WFSurface p q (m + vs.length) n (exactSurface s') ∧
      s'.KnotsU.Values.Perm (vs ++ s.KnotsU.Values) ∧ s'.KnotsV = s.KnotsV ∧
      SurfacesWithin p q m n (m + vs.length) n (exactSurface s) (exactSurface s')
        (4 * errFactor R (14 * vs.length) * (hi / lo) * B) := by
  induction vs generalizing m s lo hi B with
  | nil =>
    refine ⟨s, rfl, hw, List.Perm.refl _, rfl, ?_⟩
    intro x y _ _ _ _
    simp [errFactor]
  | cons v vs ih =>
    obtain ⟨h0, h1⟩ := hv v (by simp)
    obtain ⟨k, hk, _⟩ := exists_span hw.clampedU h0.le h1.le
    have hw' := insUC_wf hw hk h0 h1
    obtain ⟨s', e, hw'', hpm, hkv, hs⟩ := ih (fun v hv' => hv v (by simp [hv'])) hw' (mul_pos (pow_pos R.q_pos 3) hlo)
      (insUC_range hw hk h0 h1 hlo hb)
    have hlen : m + (v :: vs).length = m + 1 + vs.length := by simp; omega
    rw [hlen]
    refine ⟨s', ?_, hw'', ?_, hkv, ?_⟩
    · unfold Surface.InsertKnotUList
      simp only [foldMList]
      rw [insertKnotU_rounded hw hk h0 h1 hp, bind_ok]
      exact e
    · refine hpm.trans ?_
      refine ((insL_perm _ _ _).append_left vs).trans ?_
      exact List.perm_middle
    · have hm : 0 < m := by
        have := hw.knotsU
        have := hw.clampedU.len
        omega
      have hn : 0 < n := by
        have := hw.knotsV
        have := hw.clampedV.len
        omega
      obtain ⟨b1, b2, b3, _⟩ := hb 0 hm 0 hn
      have hle := ins_factor_add (R := R) hlo (show 0 ≤ hi by linarith) (le_trans (abs_nonneg _) b3) vs.length
      have := surfacesWithin_trans (insUC_within hw hk h0 h1 hlo hb) hs
      intro x y hx0 hx1 hy0 hy1
      obtain ⟨t1, t2, t3⟩ := this x y hx0 hx1 hy0 hy1
      exact ⟨t1.trans hle, t2.trans hle, t3.trans hle⟩

/-! ### direction v -/

section V
variable {p q m n : ℕ} {s : Surface (Fl R)} (hw : WFSurface p q m n (exactSurface s)) {v : Fl R} {k : ℕ}
  (hk : IsSpan (exactList s.KnotsV.Values) v.val k) (h0 : 0 < v.val) (h1 : v.val < 1)
include hw hk h0 h1

theorem insVC_bounds : q ≤ k ∧ k + q + 2 ≤ s.KnotsV.Values.length ∧ k < n := by
  have := insV_bounds hw hk h0 h1
  have hlen : (exactSurface s).KnotsV.Values.length = s.KnotsV.Values.length := exactList_length _
  rwa [hlen] at this

theorem insVC_row_wf {i : ℕ} (hx : i < m) : WFCurve q (exactCurve (colCurve n s i)) := by
  rw [exact_colCurve]; exact colCurve_wf hw hx

theorem insertKnotV_rounded (hp : 1 ≤ q) : s.InsertKnotV v = .ok (insSurfVC q m n k v s) := by
  obtain ⟨hpk, hlk, hkn⟩ := insVC_bounds hw hk h0 h1
  have e0 : (0 : Fl R) < v := by rw [Fl.lt_def, Fl.val_zero]; exact h0
  have e1 : v < (1 : Fl R) := by rw [Fl.lt_def, Fl.val_one]; exact h1
  have hd : s.DegreeV = q := hw.degreeV
  have hl : s.ControlPoints.Values.length = n * m := by simpa [exactSurface] using hw.storage
  have ho : 0 < m := by
    have := hw.knotsU
    have := hw.clampedU.len
    omega
  refine insertKnotV_gen hd (clamped_exact.mp hw.clampedV) hw.uCount hw.vCount hl e0 e1 (isSpan_exact.mp hk) hpk hlk hkn hp
    (fun i hi1 hi2 => ⟨(insC_ne (insVC_row_wf hw hk h0 h1 ho) hk h0 h1 hi1 hi2).1, fun j hj => ?_⟩)
  have := (insC_ne (insVC_row_wf hw hk h0 h1 hj) hk h0 h1 hi1 hi2).2
  have e : insH (kn s.KnotsV.Values) q v (pt (colCurve n s j).ControlPoints) i =
      insH (kn s.KnotsV.Values) q v (fun i => cp s j i) i := by
    unfold insH
    rw [pt_colCurve (by omega), pt_colCurve (by omega)]
  rw [← e]
  exact this

theorem insVC_col {i : ℕ} (hx : i < m) : colCurve (n + 1) (exactSurface (insSurfVC q m n k v s)) i =
    exactCurve (insCurveC q k v (colCurve n s i)) := by
  obtain ⟨hpk, hlk, hkn⟩ := insVC_bounds hw hk h0 h1
  have hd : s.DegreeV = q := hw.degreeV
  rw [← exact_colCurve, insSurfVC_col hd hpk hkn hx]

theorem insVC_range {lo hi B : K} (hlo : 0 < lo) (hb : SurfaceBounds m n (exactSurface s) lo hi B) :
    SurfaceBounds m (n + 1) (exactSurface (insSurfVC q m n k v s)) (R.q ^ 3 * lo) ((R.q ^ 3)⁻¹ * hi) ((R.q ^ 8)⁻¹ * B) := by
  intro i hin j hj
  have := insC_range (insVC_row_wf hw hk h0 h1 hin) hk h0 h1 hlo (by rw [exact_colCurve]; exact surfaceBounds_col hb hin)
  rw [← insVC_col hw hk h0 h1 hin] at this
  have := this j (by rw [colCurve_length]; exact hj)
  rwa [pt_colCurve hj] at this

theorem insVC_wf : WFSurface p q m (n + 1) (exactSurface (insSurfVC q m n k v s)) := by
  have he := insSurfV_wf hw hk h0 h1
  have ek : exactList (insL s.KnotsV.Values k v) = insL (exactList s.KnotsV.Values) k v.val := exactList_insL _ _ _
  refine ⟨hw.degreeU, hw.degreeV, hw.clampedU, ?_, rfl, rfl, hw.knotsU, ?_,
    by simp [exactSurface, insSurfVC, gridOf], ?_⟩
  · change Clamped q (exactList (insL s.KnotsV.Values k v))
    rw [ek]; exact he.clampedV
  · change (exactList (insL s.KnotsV.Values k v)).length = _
    rw [ek]; exact he.knotsV
  · intro i hin j hj
    have := insC_wf (insVC_row_wf hw hk h0 h1 hin) hk h0 h1
    rw [← insVC_col hw hk h0 h1 hin] at this
    have := this.weights j (by rw [colCurve_length]; exact hj)
    rwa [pt_colCurve hj] at this

theorem insVC_within {lo hi B : K} (hlo : 0 < lo) (hb : SurfaceBounds m n (exactSurface s) lo hi B) :
    SurfacesWithin p q m n m (n + 1) (exactSurface s) (exactSurface (insSurfVC q m n k v s)) (4 * errFactor R 11 * (hi / lo) * B) := by
  have he := insSurfV_wf hw hk h0 h1
  have hr := insVC_range hw hk h0 h1 hlo hb
  have hm : 0 < m := by
    have := hw.knotsU
    have := hw.clampedU.len
    omega
  have hn : 0 < n := by
    have := hw.knotsV
    have := hw.clampedV.len
    omega
  obtain ⟨b1, b2, b3, _⟩ := hb 0 hm 0 hn
  have hB : 0 ≤ B := le_trans (abs_nonneg _) b3
  have hhi : 0 ≤ hi := by linarith
  have eU : (exactSurface (insSurfVC q m n k v s)).KnotsU.Values = (insSurfV q m n k v.val (exactSurface s)).KnotsU.Values := rfl
  have eV : (exactSurface (insSurfVC q m n k v s)).KnotsV.Values = (insSurfV q m n k v.val (exactSurface s)).KnotsV.Values := exactList_insL _ _ _
  have fin : ∀ f : Vec4 K → K, f = (·.x) ∨ f = (·.y) ∨ f = (·.z) → ∀ x y, 0 ≤ x → x ≤ 1 → 0 ≤ y → y ≤ 1 →
      |swsum p q m (n + 1) (exactSurface (insSurfVC q m n k v s)) x y f / swsum p q m (n + 1) (exactSurface (insSurfVC q m n k v s)) x y (fun _ => 1) -
        swsum p q m (n + 1) (insSurfV q m n k v.val (exactSurface s)) x y f / swsum p q m (n + 1) (insSurfV q m n k v.val (exactSurface s)) x y (fun _ => 1)| ≤ 4 * errFactor R 11 * (hi / lo) * B := by
    intro f hf x y hx0 hx1 hy0 hy1
    refine surf_ins_fin (A := exactSurface (insSurfVC q m n k v s)) (B := insSurfV q m n k v.val (exactSurface s)) he eU eV hlo hhi hB (fun i a j b => (hr i a j b).1) f ?_ hx0 hx1 hy0 hy1
    intro i hin j hj
    have := insC_keys (insVC_row_wf hw hk h0 h1 hin) hk h0 h1 hlo (by rw [exact_colCurve]; exact surfaceBounds_col hb hin) f hf j
      (by rw [colCurve_length]; exact hj)
    rw [← insVC_col hw hk h0 h1 hin, exact_colCurve, ← insSurfV_col hw hk h0 h1 hin, pt_colCurve hj, pt_colCurve hj] at this
    exact this
  intro x y hx0 hx1 hy0 hy1
  rw [← surfPoint_eq_of_evaluate hw he hx0 hx1 hy0 hy1 (insSurfV_evaluate hw hk h0 h1 hx0 hx1 hy0 hy1)]
  exact ⟨fin _ (Or.inl rfl) x y hx0 hx1 hy0 hy1, fin _ (Or.inr (Or.inl rfl)) x y hx0 hx1 hy0 hy1,
    fin _ (Or.inr (Or.inr rfl)) x y hx0 hx1 hy0 hy1⟩

end V

/-- Inserting a list of knots: the errors of the single insertions add up. -/
theorem insertListV_rounded {p q m : ℕ} (hp : 1 ≤ q) (vs : List (Fl R)) (hv : ∀ v ∈ vs, 0 < v.val ∧ v.val < 1) {n : ℕ}
    {s : Surface (Fl R)} (hw : WFSurface p q m n (exactSurface s)) {lo hi B : K} (hlo : 0 < lo)
    (hb : SurfaceBounds m n (exactSurface s) lo hi B) :
    ∃ s', s.InsertKnotVList vs = .ok s' ∧ WFSurface p q m (n + vs.length) (exactSurface s') ∧
      s'.KnotsV.Values.Perm (vs ++ s.KnotsV.Values) ∧ s'.KnotsU = s.KnotsU ∧
      SurfacesWithin p q m n m (n + vs.length) (exactSurface s) (exactSurface s')
        (4 * errFactor R (14 * vs.length) * (hi / lo) * B) := by
  induction vs generalizing n s lo hi B with
  | nil =>
    refine ⟨s, rfl, hw, List.Perm.refl _, rfl, ?_⟩
    intro x y _ _ _ _
    simp [errFactor]
  | cons v vs ih =>
    obtain ⟨h0, h1⟩ := hv v (by simp)
    obtain ⟨k, hk, _⟩ := exists_span hw.clampedV h0.le h1.le
    have hw' := insVC_wf hw hk h0 h1
    obtain ⟨s', e, hw'', hpm, hkv, hs⟩ := ih (fun v hv' => hv v (by simp [hv'])) hw' (mul_pos (pow_pos R.q_pos 3) hlo)
      (insVC_range hw hk h0 h1 hlo hb)
    have hlen : n + (v :: vs).length = n + 1 + vs.length := by simp; omega
    rw [hlen]
    refine ⟨s', ?_, hw'', ?_, hkv, ?_⟩
    · unfold Surface.InsertKnotVList
      simp only [foldMList]
      rw [insertKnotV_rounded hw hk h0 h1 hp, bind_ok]
      exact e
    · refine hpm.trans ?_
      refine ((insL_perm _ _ _).append_left vs).trans ?_
      exact List.perm_middle
    · have hm : 0 < m := by
        have := hw.knotsU
        have := hw.clampedU.len
        omega
      have hn : 0 < n := by
        have := hw.knotsV
        have := hw.clampedV.len
        omega
      obtain ⟨b1, b2, b3, _⟩ := hb 0 hm 0 hn
      have hle := ins_factor_add (R := R) hlo (show 0 ≤ hi by linarith) (le_trans (abs_nonneg _) b3) vs.length
      have := surfacesWithin_trans (insVC_within hw hk h0 h1 hlo hb) hs
      intro x y hx0 hx1 hy0 hy1
      obtain ⟨t1, t2, t3⟩ := this x y hx0 hx1 hy0 hy1
      exact ⟨t1.trans hle, t2.trans hle, t3.trans hle⟩

end Nurbs
