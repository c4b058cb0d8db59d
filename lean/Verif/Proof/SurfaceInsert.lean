import Verif.Proof.Surface
import Verif.Proof.Insert2

/-! # Knot insertion on surfaces -/

set_option linter.unusedSectionVars false

namespace Nurbs
open Nurbs.Spec

variable {K : Type} [Field K] [LinearOrder K] [IsStrictOrderedRing K]

/-- The new control points of one row. -/
def insPt (U : ℕ → K) (k : ℕ) (v : K) (p : ℕ) (P : ℕ → Vec4 K) (i : ℕ) : Vec4 K :=
  if i + p ≤ k then P i else if i ≤ k then unhomo (step U p v (fun i => ToHomo (P i)) i) else P (i - 1)

/-- The surface after inserting `v` behind knot `k` of the u direction. -/
def insSurfU (p m n k : ℕ) (v : K) (s : Surface K) : Surface K :=
  { s with
    KnotsU := ⟨insL s.KnotsU.Values k v⟩
    ControlPoints := gridOf (m + 1) n fun i j => insPt (kn s.KnotsU.Values) k v p (fun i => cp s i j) i }

/-- The surface after inserting `v` behind knot `k` of the v direction. -/
def insSurfV (q m n k : ℕ) (v : K) (s : Surface K) : Surface K :=
  { s with
    KnotsV := ⟨insL s.KnotsV.Values k v⟩
    ControlPoints := gridOf m (n + 1) fun i j => insPt (kn s.KnotsV.Values) k v q (fun j => cp s i j) j }

theorem alphaList_ok {K : Type} [Zero K] [One K] [Add K] [Sub K] [Mul K] [Div K] [Neg K] [NatCast K] [IntCast K] [LinearOrder K]
    {p : ℕ} {l : List K} {k : ℕ} {v : K} (hpk : p ≤ k) (hl : k + p < l.length)
    (hne : ∀ i, k < i + p → i ≤ k → kn l (i + p) - kn l i ≠ 0) :
    Surface.alphaList (p : Int) l (k : Int) v =
      .ok (tab p fun t => (v - kn l (k - p + 1 + t)) / (kn l (k - p + 1 + t + p) - kn l (k - p + 1 + t))) := by
  unfold Surface.alphaList
  rw [vnew_nat, bind_ok, replicate_eq_tab, forLe_eq_forUp _ _ p (by omega)]
  have := forUp_eq (fun i alpha_list => do
    vset alpha_list (i - (k : Int) + p - 1) (← fdiv (v - (← vget l i)) ((← vget l (i + (p : Int))) - (← vget l i))))
    (fun t => tab p fun x => if x < t then (v - kn l (k - p + 1 + x)) / (kn l (k - p + 1 + x + p) - kn l (k - p + 1 + x)) else 0) p
    ((k : Int) - p + 1) (by
    intro t ht
    rw [vget_kn l _ (k - p + 1 + t) (by omega) (by omega), bind_ok, vget_kn l _ (k - p + 1 + t + p) (by omega) (by omega), bind_ok,
      bind_ok, fdiv_ok (hne _ (by omega) (by omega)), bind_ok]
    apply vset_tab' _ _ _ _ t _ (by omega) ht
    intro x hx
    by_cases hxt : x = t
    · subst hxt; rw [if_pos (by omega), if_pos rfl]
    · rw [if_neg hxt]
      by_cases h : x < t
      · rw [if_pos (by omega), if_pos h]
      · rw [if_neg (by omega), if_neg h])
  rw [show (tab p fun _ => (0 : K)) = tab p fun x => if x < 0 then
    (v - kn l (k - p + 1 + x)) / (kn l (k - p + 1 + x + p) - kn l (k - p + 1 + x)) else 0 from
    tab_congr fun x _ => by rw [if_neg (by omega)]]
  rw [this]
  exact congrArg _ (tab_congr fun x hx => by rw [if_pos hx])

theorem rowCurve_length {K : Type} [Zero K] (m : ℕ) (s : Surface K) (j : ℕ) : (rowCurve m s j).ControlPoints.length = m := by simp [rowCurve]
theorem colCurve_length {K : Type} [Zero K] (n : ℕ) (s : Surface K) (i : ℕ) : (colCurve n s i).ControlPoints.length = n := by simp [colCurve]

theorem pt_rowCurve {K : Type} [Zero K] {s : Surface K} {m i j : ℕ} (hi : i < m) : pt (rowCurve m s j).ControlPoints i = cp s i j := by
  simp [rowCurve, pt, hi]

theorem pt_colCurve {K : Type} [Zero K] {s : Surface K} {n i j : ℕ} (hj : j < n) : pt (colCurve n s i).ControlPoints j = cp s i j := by
  simp [colCurve, pt, hj]

section U
variable {p q m n : ℕ} {s : Surface K} (hw : WFSurface p q m n s) {v : K} {k : ℕ} (hk : IsSpan s.KnotsU.Values v k)
  (h0 : 0 < v) (h1 : v < 1)
include hw hk h0 h1

theorem insU_bounds : p ≤ k ∧ k + p + 2 ≤ s.KnotsU.Values.length ∧ k < m := by
  obtain ⟨k', hk', hpk, hlk⟩ := exists_span hw.clampedU h0.le h1.le
  obtain rfl : k = k' := isSpan_unique hw.clampedU.sorted hk hk' (fun i hi => hw.clampedU.le_one hi)
  have := hw.knotsU
  exact ⟨hpk, hlk, by omega⟩

theorem insU_step (i : ℕ) (hi1 : k < i + p) (hi2 : i ≤ k) :
    kn s.KnotsU.Values (i + p) - kn s.KnotsU.Values i ≠ 0 ∧
      ∀ j < n, 0 < (step (kn s.KnotsU.Values) p v (fun i => hcp s i j) i).w := by
  obtain ⟨hpk, hlk, hkn⟩ := insU_bounds hw hk h0 h1
  have hkv : v < kn s.KnotsU.Values (k + 1) := by
    rcases hk.2.2 with h | h
    · exact h
    · exact absurd h.1 h1.ne
  have a : kn s.KnotsU.Values i ≤ v := (kn_mono hw.clampedU.sorted hi2 (by omega)).trans hk.2.1
  have b : v < kn s.KnotsU.Values (i + p) := lt_of_lt_of_le hkv (kn_mono hw.clampedU.sorted (by omega) (by omega))
  exact ⟨by intro h; linarith, fun j hj =>
    step_w_pos _ _ _ _ _ a b (hw.weights _ (by omega) j hj) (hw.weights _ (by omega) j hj)⟩

theorem insertKnotU_ok (hp : 1 ≤ p) : s.InsertKnotU v = .ok (insSurfU p m n k v s) := by
  obtain ⟨hpk, hlk, hkn⟩ := insU_bounds hw hk h0 h1
  have hg := WFSurface.grid hw
  unfold Surface.InsertKnotU
  have e := knotInsert_ok s.KnotsU v 1 h0 h1 hw.clampedU.sorted
  rw [upperBound_eq_span hw.clampedU.sorted hk h1] at e
  rw [show ((1 : ℕ) : Int) = 1 from rfl] at e
  rw [e, bind_ok, hw.degreeU]
  simp only
  have ek : ((k + 1 : ℕ) : Int) - 1 = k := by push_cast; omega
  rw [ek]
  have hins : s.ControlPoints.InsertU (k : Int) 0 0 =
      .ok (gridOf (m + 1) n fun x y => if x < k then cp s x y else if x = k then 0 else cp s (x - 1) y) := by
    rw [hg]; exact insertU_gridOf m n (cp s) (k : Int) k 0 0 rfl hkn
  rw [hins, bind_ok, alphaList_ok hpk (by omega) (fun i a b => (insU_step hw hk h0 h1 i a b).1), bind_ok]
  rw [gridOf_VCount, forLt_eq_forUp _ _ n (by omega)]
  have hloop := forUp_eq (fun j grid =>
    forLe ((k : Int) - p + 1) k (fun i (grid : Grid (Vec4 K)) => do
      let point_i := ToHomo (← s.ControlPoints.Get i j)
      let point_im1 := ToHomo (← s.ControlPoints.Get (i - 1) j)
      let alpha ← vget (tab p fun t => (v - kn s.KnotsU.Values (k - p + 1 + t)) /
        (kn s.KnotsU.Values (k - p + 1 + t + p) - kn s.KnotsU.Values (k - p + 1 + t))) (i - k + p - 1)
      grid.Set i j (← FromHomo (alpha • point_i + (1 - alpha) • point_im1))) grid)
    (fun j => gridOf (m + 1) n fun x y => if y < j then insPt (kn s.KnotsU.Values) k v p (fun i => cp s i y) x
      else if x < k then cp s x y else if x = k then 0 else cp s (x - 1) y) n 0 (by
    intro j hj
    rw [forLe_eq_forUp _ _ p (by omega)]
    have hinner := forUp_eq (fun i (grid : Grid (Vec4 K)) => do
        let point_i := ToHomo (← s.ControlPoints.Get i ((0 : Int) + (j : Int)))
        let point_im1 := ToHomo (← s.ControlPoints.Get (i - 1) ((0 : Int) + (j : Int)))
        let alpha ← vget (tab p fun t => (v - kn s.KnotsU.Values (k - p + 1 + t)) /
          (kn s.KnotsU.Values (k - p + 1 + t + p) - kn s.KnotsU.Values (k - p + 1 + t))) (i - k + p - 1)
        grid.Set i ((0 : Int) + (j : Int)) (← FromHomo (alpha • point_i + (1 - alpha) • point_im1)))
      (fun t => gridOf (m + 1) n fun x y => if y < j ∨ (y = j ∧ x + p ≤ k + t) then insPt (kn s.KnotsU.Values) k v p (fun i => cp s i y) x
        else if x < k then cp s x y else if x = k then 0 else cp s (x - 1) y) p ((k : Int) - p + 1) (by
      intro t ht
      obtain ⟨i, hi⟩ : ∃ i, k + t + 1 = i + p := ⟨k + t + 1 - p, by omega⟩
      obtain ⟨hne, hpos⟩ := insU_step hw hk h0 h1 i (by omega) (by omega)
      have ei : (k : Int) - p + 1 + t = i := by omega
      rw [ei, hg, get_gridOf m n (cp s) _ _ i j rfl (by omega) (by omega) hj, bind_ok,
        get_gridOf m n (cp s) _ _ (i - 1) j (by omega) (by omega) (by omega) hj, bind_ok,
        vget_tab _ _ _ t (by omega) ht, bind_ok, show k - p + 1 + t = i by omega]
      have ea := alpha_form (kn s.KnotsU.Values) p v (fun i => hcp s i j) i hne
      have hpos := hpos j hj
      simp only [hcp] at ea hpos
      simp only [ea]
      rw [fromHomo_ok hpos.ne', bind_ok]
      apply set_gridOf _ _ _ _ _ _ i j _ rfl (by omega) (by omega) hj
      intro x hx y hy
      by_cases hxy : x = i ∧ y = j
      · obtain ⟨rfl, rfl⟩ := hxy
        rw [if_pos (by omega), if_pos ⟨rfl, rfl⟩, insPt, if_neg (by omega), if_pos (by omega)]
      · rw [if_neg hxy]
        by_cases hc : y < j ∨ (y = j ∧ x + p ≤ k + t)
        · rw [if_pos hc, if_pos (by omega)]
        · rw [if_neg hc, if_neg (show ¬ (y < j ∨ (y = j ∧ x + p ≤ k + (t + 1))) by omega)])
    have e1 : (gridOf (m + 1) n fun x y => if y < j then insPt (kn s.KnotsU.Values) k v p (fun i => cp s i y) x
        else if x < k then cp s x y else if x = k then 0 else cp s (x - 1) y) =
      (gridOf (m + 1) n fun x y => if y < j ∨ (y = j ∧ x + p ≤ k + 0) then insPt (kn s.KnotsU.Values) k v p (fun i => cp s i y) x
        else if x < k then cp s x y else if x = k then 0 else cp s (x - 1) y) := by
      apply gridOf_congr
      intro x hx y hy
      by_cases hy1 : y < j
      · rw [if_pos hy1, if_pos (Or.inl hy1)]
      · rw [if_neg hy1]
        by_cases hc : y = j ∧ x + p ≤ k
        · rw [if_pos (show y < j ∨ _ by omega), if_pos (show x < k by omega), insPt, if_pos hc.2]
        · rw [if_neg (show ¬ (y < j ∨ _) by omega)]
    have e2 : (gridOf (m + 1) n fun x y => if y < j ∨ (y = j ∧ x + p ≤ k + p) then insPt (kn s.KnotsU.Values) k v p (fun i => cp s i y) x
        else if x < k then cp s x y else if x = k then 0 else cp s (x - 1) y) =
      (gridOf (m + 1) n fun x y => if y < j + 1 then insPt (kn s.KnotsU.Values) k v p (fun i => cp s i y) x
        else if x < k then cp s x y else if x = k then 0 else cp s (x - 1) y) := by
      apply gridOf_congr
      intro x hx y hy
      by_cases hc : y < j ∨ (y = j ∧ x + p ≤ k + p)
      · rw [if_pos hc, if_pos (by omega)]
      · rw [if_neg hc]
        by_cases hy1 : y = j
        · rw [if_pos (show y < j + 1 by omega), if_neg (show ¬ x < k by omega), if_neg (show ¬ x = k by omega), insPt,
            if_neg (by omega), if_neg (by omega)]
        · rw [if_neg (show ¬ y < j + 1 by omega)]
    rw [e1, hinner, e2])
  have e0 : (gridOf (m + 1) n fun x y => if x < k then cp s x y else if x = k then 0 else cp s (x - 1) y) =
      (gridOf (m + 1) n fun x y => if y < 0 then insPt (kn s.KnotsU.Values) k v p (fun i => cp s i y) x
      else if x < k then cp s x y else if x = k then 0 else cp s (x - 1) y) := by
    apply gridOf_congr
    intro x hx y hy
    rw [if_neg (show ¬ y < 0 by omega)]
  rw [e0, hloop, bind_ok, pure_ok]
  unfold insSurfU insL
  simp only [List.replicate_one, hw.degreeU]
  congr 2
  apply gridOf_congr
  intro x hx y hy
  rw [if_pos hy]

theorem insSurfU_row {j : ℕ} (hj : j < n) : rowCurve (m + 1) (insSurfU p m n k v s) j = insCurve p k v (rowCurve m s j) := by
  obtain ⟨hpk, hlk, hkn⟩ := insU_bounds hw hk h0 h1
  unfold insCurve
  rw [rowCurve_length]
  refine Curve.ext (by simpa [rowCurve, insSurfU] using hw.degreeU) rfl ?_
  show _ = tab (m + 1) _
  have hl : (rowCurve (m + 1) (insSurfU p m n k v s) j).ControlPoints = tab (m + 1) fun i => cp (insSurfU p m n k v s) i j := rfl
  rw [hl]
  apply tab_congr
  intro i hi
  rw [cp_gridOf (s := insSurfU p m n k v s)
    (f := fun i j => insPt (kn s.KnotsU.Values) k v p (fun i => cp s i j) i) rfl hi hj, insPt]
  have hh : ∀ i, i < m → hpts (rowCurve m s j).ControlPoints i = ToHomo (cp s i j) := fun i hi => hpts_rowCurve hi
  split_ifs with ha hb
  · rw [pt_rowCurve (by omega)]
  · congr 1
    simp only [step]
    rw [hh _ (by omega), hh _ (by omega)]
    rfl
  · rw [pt_rowCurve (by omega)]

theorem insSurfU_hcp {i j : ℕ} (hi : i < m + 1) (hj : j < n) :
    hcp (insSurfU p m n k v s) i j = insP (kn s.KnotsU.Values) k v p (fun i => hcp s i j) i := by
  obtain ⟨hpk, hlk, hkn⟩ := insU_bounds hw hk h0 h1
  have e := insCurve_hpts (rowCurve_wf hw hj) hk h0 h1 i (by rw [rowCurve_length]; exact hi)
  rw [← insSurfU_row hw hk h0 h1 hj, hpts_rowCurve hi] at e
  rw [e]
  exact insP_congr m (by omega) (fun i hi => hpts_rowCurve hi) i hi

theorem insSurfU_wf : WFSurface p q (m + 1) n (insSurfU p m n k v s) := by
  obtain ⟨hpk, hlk, hkn⟩ := insU_bounds hw hk h0 h1
  refine ⟨hw.degreeU, hw.degreeV, insL_clamped hw.clampedU hk hpk hlk h0 h1, hw.clampedV, rfl, rfl,
    ?_, hw.knotsV, by simp [insSurfU, gridOf], ?_⟩
  · have := hw.knotsU
    simp only [insSurfU, insL_length]; omega
  · intro i hi j hj
    have hwj := insCurve_wf (rowCurve_wf hw hj) hk h0 h1
    rw [← insSurfU_row hw hk h0 h1 hj] at hwj
    have := hwj.weights i (by rw [rowCurve_length]; exact hi)
    rwa [pt_rowCurve hi] at this

/-- Same polar form in the u direction. -/
theorem insSurfU_evaluate {x y : K} (hx0 : 0 ≤ x) (hx1 : x ≤ 1) (hy0 : 0 ≤ y) (hy1 : y ≤ 1) :
    (insSurfU p m n k v s).Evaluate x y = s.Evaluate x y := by
  have hw' := insSurfU_wf hw hk h0 h1
  obtain ⟨su, hsu, _, _⟩ := exists_span hw'.clampedU hx0 hx1
  obtain ⟨sv, hsv, _, _⟩ := exists_span hw.clampedV hy0 hy1
  have hsu0 : IsSpan s.KnotsU.Values x (if su ≤ k then su else su - 1) := insL_span hk h1 hsu
  obtain ⟨a1, a2, a3, a4, _, _, _, e1⟩ := surface_seg hw' hx0 hx1 hy0 hy1 hsu hsv
  obtain ⟨b1, b2, b3, b4, _, _, _, e2⟩ := surface_seg hw hx0 hx1 hy0 hy1 hsu0 hsv
  rw [e1, e2]
  congr 2
  unfold surfSeg sseg
  apply seg_congr a3
  intro j _ hj
  rw [seg_eq_blos _ _ _ _ _ a1, seg_eq_blos _ _ _ _ _ b1,
    ← insL_blos hw.clampedU hk h0 h1 hsu hx0 hx1 (fun i => hcp s i j) _ (by simp)]
  apply blos_congr _ _ _ _ _ (by simpa using a1)
  intro i _ hi
  exact insSurfU_hcp hw hk h0 h1 (by omega) (by omega)

end U

section V
variable {p q m n : ℕ} {s : Surface K} (hw : WFSurface p q m n s) {v : K} {k : ℕ} (hk : IsSpan s.KnotsV.Values v k)
  (h0 : 0 < v) (h1 : v < 1)
include hw hk h0 h1

theorem insV_bounds : q ≤ k ∧ k + q + 2 ≤ s.KnotsV.Values.length ∧ k < n := by
  obtain ⟨k', hk', hpk, hlk⟩ := exists_span hw.clampedV h0.le h1.le
  obtain rfl : k = k' := isSpan_unique hw.clampedV.sorted hk hk' (fun i hi => hw.clampedV.le_one hi)
  have := hw.knotsV
  exact ⟨hpk, hlk, by omega⟩

theorem insV_step (i : ℕ) (hi1 : k < i + q) (hi2 : i ≤ k) :
    kn s.KnotsV.Values (i + q) - kn s.KnotsV.Values i ≠ 0 ∧
      ∀ j < m, 0 < (step (kn s.KnotsV.Values) q v (fun i => hcp s j i) i).w := by
  obtain ⟨hpk, hlk, hkn⟩ := insV_bounds hw hk h0 h1
  have hkv : v < kn s.KnotsV.Values (k + 1) := by
    rcases hk.2.2 with h | h
    · exact h
    · exact absurd h.1 h1.ne
  have a : kn s.KnotsV.Values i ≤ v := (kn_mono hw.clampedV.sorted hi2 (by omega)).trans hk.2.1
  have b : v < kn s.KnotsV.Values (i + q) := lt_of_lt_of_le hkv (kn_mono hw.clampedV.sorted (by omega) (by omega))
  exact ⟨by intro h; linarith, fun j hj =>
    step_w_pos _ _ _ _ _ a b (hw.weights j hj _ (by omega)) (hw.weights j hj _ (by omega))⟩

theorem insertKnotV_ok (hq : 1 ≤ q) : s.InsertKnotV v = .ok (insSurfV q m n k v s) := by
  obtain ⟨hpk, hlk, hkn⟩ := insV_bounds hw hk h0 h1
  have hg := WFSurface.grid hw
  unfold Surface.InsertKnotV
  have e := knotInsert_ok s.KnotsV v 1 h0 h1 hw.clampedV.sorted
  rw [upperBound_eq_span hw.clampedV.sorted hk h1] at e
  rw [show ((1 : ℕ) : Int) = 1 from rfl] at e
  rw [e, bind_ok, hw.degreeV]
  simp only
  have ek : ((k + 1 : ℕ) : Int) - 1 = k := by push_cast; omega
  rw [ek]
  have hins : s.ControlPoints.InsertV (k : Int) 0 =
      .ok (gridOf m (n + 1) fun x y => if y < k then cp s x y else if y = k then 0 else cp s x (y - 1)) := by
    rw [hg]; exact insertV_gridOf m n (cp s) (k : Int) k 0 rfl hkn
  rw [hins, bind_ok, alphaList_ok hpk (by omega) (fun i a b => (insV_step hw hk h0 h1 i a b).1), bind_ok]
  rw [gridOf_UCount, forLt_eq_forUp _ _ m (by omega)]
  have hloop := forUp_eq (fun j grid =>
    forLe ((k : Int) - q + 1) k (fun i (grid : Grid (Vec4 K)) => do
      let point_i := ToHomo (← s.ControlPoints.Get j i)
      let point_im1 := ToHomo (← s.ControlPoints.Get j (i - 1))
      let alpha ← vget (tab q fun t => (v - kn s.KnotsV.Values (k - q + 1 + t)) /
        (kn s.KnotsV.Values (k - q + 1 + t + q) - kn s.KnotsV.Values (k - q + 1 + t))) (i - k + q - 1)
      grid.Set j i (← FromHomo (alpha • point_i + (1 - alpha) • point_im1))) grid)
    (fun j => gridOf m (n + 1) fun y x => if y < j then insPt (kn s.KnotsV.Values) k v q (fun i => cp s y i) x
      else if x < k then cp s y x else if x = k then 0 else cp s y (x - 1)) m 0 (by
    intro j hj
    rw [forLe_eq_forUp _ _ q (by omega)]
    have hinner := forUp_eq (fun i (grid : Grid (Vec4 K)) => do
        let point_i := ToHomo (← s.ControlPoints.Get ((0 : Int) + (j : Int)) i)
        let point_im1 := ToHomo (← s.ControlPoints.Get ((0 : Int) + (j : Int)) (i - 1))
        let alpha ← vget (tab q fun t => (v - kn s.KnotsV.Values (k - q + 1 + t)) /
          (kn s.KnotsV.Values (k - q + 1 + t + q) - kn s.KnotsV.Values (k - q + 1 + t))) (i - k + q - 1)
        grid.Set ((0 : Int) + (j : Int)) i (← FromHomo (alpha • point_i + (1 - alpha) • point_im1)))
      (fun t => gridOf m (n + 1) fun y x => if y < j ∨ (y = j ∧ x + q ≤ k + t) then insPt (kn s.KnotsV.Values) k v q (fun i => cp s y i) x
        else if x < k then cp s y x else if x = k then 0 else cp s y (x - 1)) q ((k : Int) - q + 1) (by
      intro t ht
      obtain ⟨i, hi⟩ : ∃ i, k + t + 1 = i + q := ⟨k + t + 1 - q, by omega⟩
      obtain ⟨hne, hpos⟩ := insV_step hw hk h0 h1 i (by omega) (by omega)
      have ei : (k : Int) - q + 1 + t = i := by omega
      rw [ei, hg, get_gridOf m n (cp s) _ _ j i (by omega) rfl hj (by omega), bind_ok,
        get_gridOf m n (cp s) _ _ j (i - 1) (by omega) (by omega) hj (by omega), bind_ok,
        vget_tab _ _ _ t (by omega) ht, bind_ok, show k - q + 1 + t = i by omega]
      have ea := alpha_form (kn s.KnotsV.Values) q v (fun i => hcp s j i) i hne
      have hpos := hpos j hj
      simp only [hcp] at ea hpos
      simp only [ea]
      rw [fromHomo_ok hpos.ne', bind_ok]
      apply set_gridOf _ _ _ _ _ _ j i _ (by omega) rfl hj (by omega)
      intro y hy x hx
      by_cases hxy : y = j ∧ x = i
      · obtain ⟨rfl, rfl⟩ := hxy
        rw [if_pos (by omega), if_pos ⟨rfl, rfl⟩, insPt, if_neg (by omega), if_pos (by omega)]
      · rw [if_neg hxy]
        by_cases hc : y < j ∨ (y = j ∧ x + q ≤ k + t)
        · rw [if_pos hc, if_pos (by omega)]
        · rw [if_neg hc, if_neg (show ¬ (y < j ∨ (y = j ∧ x + q ≤ k + (t + 1))) by omega)])
    have e1 : (gridOf m (n + 1) fun y x => if y < j then insPt (kn s.KnotsV.Values) k v q (fun i => cp s y i) x
        else if x < k then cp s y x else if x = k then 0 else cp s y (x - 1)) =
      (gridOf m (n + 1) fun y x => if y < j ∨ (y = j ∧ x + q ≤ k + 0) then insPt (kn s.KnotsV.Values) k v q (fun i => cp s y i) x
        else if x < k then cp s y x else if x = k then 0 else cp s y (x - 1)) := by
      apply gridOf_congr
      intro y hy x hx
      by_cases hy1 : y < j
      · rw [if_pos hy1, if_pos (Or.inl hy1)]
      · rw [if_neg hy1]
        by_cases hc : y = j ∧ x + q ≤ k
        · rw [if_pos (show y < j ∨ _ by omega), if_pos (show x < k by omega), insPt, if_pos hc.2]
        · rw [if_neg (show ¬ (y < j ∨ _) by omega)]
    have e2 : (gridOf m (n + 1) fun y x => if y < j ∨ (y = j ∧ x + q ≤ k + q) then insPt (kn s.KnotsV.Values) k v q (fun i => cp s y i) x
        else if x < k then cp s y x else if x = k then 0 else cp s y (x - 1)) =
      (gridOf m (n + 1) fun y x => if y < j + 1 then insPt (kn s.KnotsV.Values) k v q (fun i => cp s y i) x
        else if x < k then cp s y x else if x = k then 0 else cp s y (x - 1)) := by
      apply gridOf_congr
      intro y hy x hx
      by_cases hc : y < j ∨ (y = j ∧ x + q ≤ k + q)
      · rw [if_pos hc, if_pos (by omega)]
      · rw [if_neg hc]
        by_cases hy1 : y = j
        · rw [if_pos (show y < j + 1 by omega), if_neg (show ¬ x < k by omega), if_neg (show ¬ x = k by omega), insPt,
            if_neg (by omega), if_neg (by omega)]
        · rw [if_neg (show ¬ y < j + 1 by omega)]
    rw [e1, hinner, e2])
  have e0 : (gridOf m (n + 1) fun x y => if y < k then cp s x y else if y = k then 0 else cp s x (y - 1)) =
      (gridOf m (n + 1) fun y x => if y < 0 then insPt (kn s.KnotsV.Values) k v q (fun i => cp s y i) x
      else if x < k then cp s y x else if x = k then 0 else cp s y (x - 1)) := by
    apply gridOf_congr
    intro y hy x hx
    rw [if_neg (show ¬ y < 0 by omega)]
  rw [e0, hloop, bind_ok, pure_ok]
  unfold insSurfV insL
  simp only [List.replicate_one, hw.degreeV]
  congr 2
  apply gridOf_congr
  intro y hy x hx
  rw [if_pos hy]

theorem insSurfV_col {i : ℕ} (hi : i < m) : colCurve (n + 1) (insSurfV q m n k v s) i = insCurve q k v (colCurve n s i) := by
  obtain ⟨hpk, hlk, hkn⟩ := insV_bounds hw hk h0 h1
  unfold insCurve
  rw [colCurve_length]
  refine Curve.ext (by simpa [colCurve, insSurfV] using hw.degreeV) rfl ?_
  show _ = tab (n + 1) _
  have hl : (colCurve (n + 1) (insSurfV q m n k v s) i).ControlPoints = tab (n + 1) fun j => cp (insSurfV q m n k v s) i j := rfl
  rw [hl]
  apply tab_congr
  intro j hj
  rw [cp_gridOf (s := insSurfV q m n k v s)
    (f := fun i j => insPt (kn s.KnotsV.Values) k v q (fun j => cp s i j) j) rfl hi hj, insPt]
  have hh : ∀ j, j < n → hpts (colCurve n s i).ControlPoints j = ToHomo (cp s i j) := fun j hj => hpts_colCurve hj
  split_ifs with ha hb
  · rw [pt_colCurve (by omega)]
  · congr 1
    simp only [step]
    rw [hh _ (by omega), hh _ (by omega)]
    rfl
  · rw [pt_colCurve (by omega)]

theorem insSurfV_hcp {i j : ℕ} (hi : i < m) (hj : j < n + 1) :
    hcp (insSurfV q m n k v s) i j = insP (kn s.KnotsV.Values) k v q (fun j => hcp s i j) j := by
  obtain ⟨hpk, hlk, hkn⟩ := insV_bounds hw hk h0 h1
  have e := insCurve_hpts (colCurve_wf hw hi) hk h0 h1 j (by rw [colCurve_length]; exact hj)
  rw [← insSurfV_col hw hk h0 h1 hi, hpts_colCurve hj] at e
  rw [e]
  exact insP_congr n (by omega) (fun i hi => hpts_colCurve hi) j hj

theorem insSurfV_wf : WFSurface p q m (n + 1) (insSurfV q m n k v s) := by
  obtain ⟨hpk, hlk, hkn⟩ := insV_bounds hw hk h0 h1
  refine ⟨hw.degreeU, hw.degreeV, hw.clampedU, insL_clamped hw.clampedV hk hpk hlk h0 h1, rfl, rfl,
    hw.knotsU, ?_, by simp [insSurfV, gridOf], ?_⟩
  · have := hw.knotsV
    simp only [insSurfV, insL_length]; omega
  · intro i hi j hj
    have hwj := insCurve_wf (colCurve_wf hw hi) hk h0 h1
    rw [← insSurfV_col hw hk h0 h1 hi] at hwj
    have := hwj.weights j (by rw [colCurve_length]; exact hj)
    rwa [pt_colCurve hj] at this

theorem insSurfV_evaluate {x y : K} (hx0 : 0 ≤ x) (hx1 : x ≤ 1) (hy0 : 0 ≤ y) (hy1 : y ≤ 1) :
    (insSurfV q m n k v s).Evaluate x y = s.Evaluate x y := by
  have hw' := insSurfV_wf hw hk h0 h1
  obtain ⟨sv, hsv, _, _⟩ := exists_span hw'.clampedV hy0 hy1
  obtain ⟨su, hsu, _, _⟩ := exists_span hw.clampedU hx0 hx1
  have hsv0 : IsSpan s.KnotsV.Values y (if sv ≤ k then sv else sv - 1) := insL_span hk h1 hsv
  obtain ⟨a1, a2, a3, a4, _, _, _, e1⟩ := surface_seg hw' hx0 hx1 hy0 hy1 hsu hsv
  obtain ⟨b1, b2, b3, b4, _, _, _, e2⟩ := surface_seg hw hx0 hx1 hy0 hy1 hsu hsv0
  rw [e1, e2]
  congr 2
  unfold surfSeg
  rw [sseg_swap, sseg_swap]
  apply seg_congr a1
  intro i _ hi
  rw [seg_eq_blos _ _ _ _ _ a3, seg_eq_blos _ _ _ _ _ b3,
    ← insL_blos hw.clampedV hk h0 h1 hsv hy0 hy1 (fun j => hcp s i j) _ (by simp)]
  apply blos_congr _ _ _ _ _ (by simpa using a3)
  intro j _ hj
  exact insSurfV_hcp hw hk h0 h1 (by omega) (by omega)

end V

/-! ### Commutation of the two directions -/

theorem insP_swap {V : Type} [AddCommGroup V] [Module K V] (U1 U2 : ℕ → K) (k1 k2 : ℕ) (a b : K) (p q : ℕ) (H : ℕ → ℕ → V) (i j : ℕ) :
    insP U2 k2 b q (fun j => insP U1 k1 a p (fun i => H i j) i) j = insP U1 k1 a p (fun i => insP U2 k2 b q (fun j => H i j) j) i := by
  unfold insP
  split_ifs <;> (simp only [step]; try rfl)
  simp only [smul_add, smul_smul]
  rw [mul_comm ((U2 (j + q) - b) / _), mul_comm ((U2 (j + q) - b) / _), mul_comm ((b - U2 j) / _), mul_comm ((b - U2 j) / _)]
  abel

theorem insSurf_comm {p q m n : ℕ} {s : Surface K} (hw : WFSurface p q m n s) {a b : K} {ka kb : ℕ}
    (hka : IsSpan s.KnotsU.Values a ka) (hkb : IsSpan s.KnotsV.Values b kb) (ha0 : 0 < a) (ha1 : a < 1) (hb0 : 0 < b) (hb1 : b < 1) :
    insSurfV q (m + 1) n kb b (insSurfU p m n ka a s) = insSurfU p m (n + 1) ka a (insSurfV q m n kb b s) := by
  have hwa := insSurfU_wf hw hka ha0 ha1
  have hwb := insSurfV_wf hw hkb hb0 hb1
  have hwab := insSurfV_wf hwa (v := b) (k := kb) hkb hb0 hb1
  have hwba := insSurfU_wf hwb (v := a) (k := ka) hka ha0 ha1
  have hbk := (insV_bounds hw hkb hb0 hb1).2.2
  have hak := (insU_bounds hw hka ha0 ha1).2.2
  refine Surface.ext rfl rfl rfl rfl ?_
  rw [WFSurface.grid hwab, WFSurface.grid hwba]
  apply gridOf_congr
  intro i hi j hj
  rw [← unhomo_toHomo (hwab.weights i hi j hj).ne', ← unhomo_toHomo (hwba.weights i hi j hj).ne']
  congr 1
  have e1 := insSurfV_hcp hwa (v := b) (k := kb) hkb hb0 hb1 hi hj
  have e2 := insSurfU_hcp hwb (v := a) (k := ka) hka ha0 ha1 hi hj
  unfold hcp at e1 e2
  rw [e1, e2]
  have t1 := insP_congr (U := kn s.KnotsV.Values) (k := kb) (p := q) (v := b) n (by omega)
    (fun j hj => insSurfU_hcp hw hka ha0 ha1 hi hj) j hj
  have t2 := insP_congr (U := kn s.KnotsU.Values) (k := ka) (p := p) (v := a) m (by omega)
    (fun i hi => insSurfV_hcp hw hkb hb0 hb1 hi hj) i hi
  exact t1.trans ((insP_swap _ _ _ _ _ _ _ _ _ _ _).trans t2.symm)

/-! ### Lists -/

theorem insertListU_spec {p q n : ℕ} (hp : 1 ≤ p) (vs : List K) (hv : ∀ v ∈ vs, 0 < v ∧ v < 1) {m : ℕ} {s : Surface K}
    (hw : WFSurface p q m n s) :
    ∃ s', s.InsertKnotUList vs = .ok s' ∧ WFSurface p q (m + vs.length) n s' ∧ s'.KnotsU.Values.Perm (vs ++ s.KnotsU.Values) ∧
      s'.KnotsV = s.KnotsV ∧
      (∀ j < n, (rowCurve m s j).InsertKnotList vs = .ok (rowCurve (m + vs.length) s' j)) ∧
      ∀ x y, 0 ≤ x → x ≤ 1 → 0 ≤ y → y ≤ 1 → s'.Evaluate x y = s.Evaluate x y := by
  induction vs generalizing m s with
  | nil => exact ⟨s, rfl, hw, List.Perm.refl _, rfl, fun _ _ => rfl, fun _ _ _ _ _ _ => rfl⟩
  | cons v vs ih =>
    obtain ⟨h0, h1⟩ := hv v (by simp)
    obtain ⟨k, hk, _⟩ := exists_span hw.clampedU h0.le h1.le
    have hw' := insSurfU_wf hw hk h0 h1
    obtain ⟨s', e, hw'', hpm, hkv, hrow, hev⟩ := ih (fun v hv' => hv v (by simp [hv'])) hw'
    have hlen : m + (v :: vs).length = m + 1 + vs.length := by simp; omega
    rw [hlen]
    refine ⟨s', ?_, hw'', ?_, hkv, ?_, ?_⟩
    · unfold Surface.InsertKnotUList
      simp only [foldMList]
      rw [insertKnotU_ok hw hk h0 h1 hp, bind_ok]
      exact e
    · refine hpm.trans ?_
      refine ((insL_perm _ _ _).append_left vs).trans ?_
      exact List.perm_middle
    · intro j hj
      unfold Curve.InsertKnotList
      simp only [foldMList]
      rw [insertListStep_ok (rowCurve_wf hw hj) hk h0 h1, bind_ok, ← insSurfU_row hw hk h0 h1 hj]
      exact hrow j hj
    · intro x y hx0 hx1 hy0 hy1
      rw [hev x y hx0 hx1 hy0 hy1, insSurfU_evaluate hw hk h0 h1 hx0 hx1 hy0 hy1]

theorem insertListV_spec {p q m : ℕ} (hq : 1 ≤ q) (vs : List K) (hv : ∀ v ∈ vs, 0 < v ∧ v < 1) {n : ℕ} {s : Surface K}
    (hw : WFSurface p q m n s) :
    ∃ s', s.InsertKnotVList vs = .ok s' ∧ WFSurface p q m (n + vs.length) s' ∧ s'.KnotsV.Values.Perm (vs ++ s.KnotsV.Values) ∧
      s'.KnotsU = s.KnotsU ∧
      (∀ i < m, (colCurve n s i).InsertKnotList vs = .ok (colCurve (n + vs.length) s' i)) ∧
      ∀ x y, 0 ≤ x → x ≤ 1 → 0 ≤ y → y ≤ 1 → s'.Evaluate x y = s.Evaluate x y := by
  induction vs generalizing n s with
  | nil => exact ⟨s, rfl, hw, List.Perm.refl _, rfl, fun _ _ => rfl, fun _ _ _ _ _ _ => rfl⟩
  | cons v vs ih =>
    obtain ⟨h0, h1⟩ := hv v (by simp)
    obtain ⟨k, hk, _⟩ := exists_span hw.clampedV h0.le h1.le
    have hw' := insSurfV_wf hw hk h0 h1
    obtain ⟨s', e, hw'', hpm, hkv, hrow, hev⟩ := ih (fun v hv' => hv v (by simp [hv'])) hw'
    have hlen : n + (v :: vs).length = n + 1 + vs.length := by simp; omega
    rw [hlen]
    refine ⟨s', ?_, hw'', ?_, hkv, ?_, ?_⟩
    · unfold Surface.InsertKnotVList
      simp only [foldMList]
      rw [insertKnotV_ok hw hk h0 h1 hq, bind_ok]
      exact e
    · refine hpm.trans ?_
      refine ((insL_perm _ _ _).append_left vs).trans ?_
      exact List.perm_middle
    · intro j hj
      unfold Curve.InsertKnotList
      simp only [foldMList]
      rw [insertListStep_ok (colCurve_wf hw hj) hk h0 h1, bind_ok, ← insSurfV_col hw hk h0 h1 hj]
      exact hrow j hj
    · intro x y hx0 hx1 hy0 hy1
      rw [hev x y hx0 hx1 hy0 hy1, insSurfV_evaluate hw hk h0 h1 hx0 hx1 hy0 hy1]

theorem insertUV_single {p q m n : ℕ} (hp : 1 ≤ p) (hq : 1 ≤ q) {s : Surface K} (hw : WFSurface p q m n s) {a b : K}
    (ha0 : 0 < a) (ha1 : a < 1) (hb0 : 0 < b) (hb1 : b < 1) :
    ((s.InsertKnotU a) >>= fun s' => s'.InsertKnotV b) = ((s.InsertKnotV b) >>= fun s' => s'.InsertKnotU a) := by
  obtain ⟨ka, hka, _⟩ := exists_span hw.clampedU ha0.le ha1.le
  obtain ⟨kb, hkb, _⟩ := exists_span hw.clampedV hb0.le hb1.le
  rw [insertKnotU_ok hw hka ha0 ha1 hp, insertKnotV_ok hw hkb hb0 hb1 hq, bind_ok, bind_ok,
    insertKnotV_ok (insSurfU_wf hw hka ha0 ha1) (k := kb) hkb hb0 hb1 hq,
    insertKnotU_ok (insSurfV_wf hw hkb hb0 hb1) (k := ka) hka ha0 ha1 hp, insSurf_comm hw hka hkb ha0 ha1 hb0 hb1]

theorem insertUV_list1 {p q m : ℕ} (hp : 1 ≤ p) (hq : 1 ≤ q) {a : K} (ha0 : 0 < a) (ha1 : a < 1) (bs : List K)
    (hb : ∀ b ∈ bs, 0 < b ∧ b < 1) {n : ℕ} {s : Surface K} (hw : WFSurface p q m n s) :
    ((s.InsertKnotU a) >>= fun s' => s'.InsertKnotVList bs) = ((s.InsertKnotVList bs) >>= fun s' => s'.InsertKnotU a) := by
  induction bs generalizing n s with
  | nil =>
    show ((s.InsertKnotU a) >>= fun s' => Except.ok s') = _
    cases h : s.InsertKnotU a <;> simp [Surface.InsertKnotVList, foldMList, h, Bind.bind, Except.bind]
  | cons b bs ih =>
    obtain ⟨hb0, hb1⟩ := hb b (by simp)
    obtain ⟨ka, hka, _⟩ := exists_span hw.clampedU ha0.le ha1.le
    obtain ⟨kb, hkb, _⟩ := exists_span hw.clampedV hb0.le hb1.le
    have h := ih (fun b h => hb b (by simp [h])) (insSurfV_wf hw hkb hb0 hb1)
    have e : ∀ t : Surface K, t.InsertKnotVList (b :: bs) = (t.InsertKnotV b) >>= fun t' => t'.InsertKnotVList bs := fun t => rfl
    rw [e, insertKnotV_ok hw hkb hb0 hb1 hq, bind_ok, ← h]
    have hs := insertUV_single hp hq hw ha0 ha1 hb0 hb1
    rw [insertKnotV_ok hw hkb hb0 hb1 hq, bind_ok] at hs
    rw [← hs, bind_assoc']
    rfl

theorem insertUV_list {p q n : ℕ} (hp : 1 ≤ p) (hq : 1 ≤ q) (as bs : List K) (ha : ∀ a ∈ as, 0 < a ∧ a < 1)
    (hb : ∀ b ∈ bs, 0 < b ∧ b < 1) {m : ℕ} {s : Surface K} (hw : WFSurface p q m n s) :
    ((s.InsertKnotUList as) >>= fun s' => s'.InsertKnotVList bs) =
      ((s.InsertKnotVList bs) >>= fun s' => s'.InsertKnotUList as) := by
  induction as generalizing m s with
  | nil =>
    show _ = ((s.InsertKnotVList bs) >>= fun s' => Except.ok s')
    cases h : s.InsertKnotVList bs <;> simp [Surface.InsertKnotUList, foldMList, h, Bind.bind, Except.bind]
  | cons a as ih =>
    obtain ⟨ha0, ha1⟩ := ha a (by simp)
    obtain ⟨ka, hka, _⟩ := exists_span hw.clampedU ha0.le ha1.le
    have h := ih (fun b h => ha b (by simp [h])) (insSurfU_wf hw hka ha0 ha1)
    have e : ∀ t : Surface K, t.InsertKnotUList (a :: as) = (t.InsertKnotU a) >>= fun t' => t'.InsertKnotUList as := fun t => rfl
    rw [e, insertKnotU_ok hw hka ha0 ha1 hp, bind_ok, h]
    have hs := insertUV_list1 hp hq ha0 ha1 bs hb hw
    rw [insertKnotU_ok hw hka ha0 ha1 hp, bind_ok] at hs
    rw [hs, bind_assoc']
    rfl

/-- Surfaces with the same rows. -/
theorem surface_ext_rows {p q m n : ℕ} {s t : Surface K} (hs : WFSurface p q m n s) (ht : WFSurface p q m n t)
    (hkv : s.KnotsV = t.KnotsV) (hrow : ∀ j < n, rowCurve m s j = rowCurve m t j) : s = t := by
  have hn : 0 < n := by have := hs.knotsV; have := hs.clampedV.len; omega
  refine Surface.ext (hs.degreeU.trans ht.degreeU.symm) (hs.degreeV.trans ht.degreeV.symm) ?_ hkv ?_
  · exact congrArg Curve.Knots (hrow 0 hn)
  · rw [WFSurface.grid hs, WFSurface.grid ht]
    apply gridOf_congr
    intro i hi j hj
    rw [← pt_rowCurve (s := s) hi, ← pt_rowCurve (s := t) hi, hrow j hj]

theorem surface_ext_cols {p q m n : ℕ} {s t : Surface K} (hs : WFSurface p q m n s) (ht : WFSurface p q m n t)
    (hku : s.KnotsU = t.KnotsU) (hcol : ∀ i < m, colCurve n s i = colCurve n t i) : s = t := by
  have hm : 0 < m := by have := hs.knotsU; have := hs.clampedU.len; omega
  refine Surface.ext (hs.degreeU.trans ht.degreeU.symm) (hs.degreeV.trans ht.degreeV.symm) hku ?_ ?_
  · exact congrArg Curve.Knots (hcol 0 hm)
  · rw [WFSurface.grid hs, WFSurface.grid ht]
    apply gridOf_congr
    intro i hi j hj
    rw [← pt_colCurve (s := s) hj, ← pt_colCurve (s := t) hj, hcol i hi]

/-! ### Corner cutting -/

/-- `InHull` for the control grids of two surfaces. -/
def InHullS (m n : ℕ) (s : Surface K) (m' n' : ℕ) (s' : Surface K) : Prop :=
  ∀ (L : Vec4 K →ₗ[K] K) (b : K), (∀ i < m, ∀ j < n, 0 ≤ L (hcp s i j) + b) → ∀ i < m', ∀ j < n', 0 ≤ L (hcp s' i j) + b

theorem InHullS.trans {m n m' n' m'' n'' : ℕ} {s s' s'' : Surface K} (h : InHullS m n s m' n' s') (h' : InHullS m' n' s' m'' n'' s'') :
    InHullS m n s m'' n'' s'' :=
  fun L b hP => h' L b (h L b hP)

theorem inHullS_U {p q m n : ℕ} {s : Surface K} (hw : WFSurface p q m n s) {v : K} {k : ℕ} (hk : IsSpan s.KnotsU.Values v k)
    (h0 : 0 < v) (h1 : v < 1) : InHullS m n s (m + 1) n (insSurfU p m n k v s) := by
  intro L b hP i hi j hj
  have hr := inHull_ins (rowCurve_wf hw hj) (k := k) (v := v) hk h0 h1 L b (fun i hi => by
    rw [rowCurve_length] at hi
    have := hP i hi j hj
    unfold hpts
    rwa [pt_rowCurve hi])
  rw [← insSurfU_row hw hk h0 h1 hj] at hr
  have := hr i (by rw [rowCurve_length]; exact hi)
  unfold hpts at this
  rwa [pt_rowCurve hi] at this

theorem inHullS_V {p q m n : ℕ} {s : Surface K} (hw : WFSurface p q m n s) {v : K} {k : ℕ} (hk : IsSpan s.KnotsV.Values v k)
    (h0 : 0 < v) (h1 : v < 1) : InHullS m n s m (n + 1) (insSurfV q m n k v s) := by
  intro L b hP i hi j hj
  have hr := inHull_ins (colCurve_wf hw hi) (k := k) (v := v) hk h0 h1 L b (fun j hj => by
    rw [colCurve_length] at hj
    have := hP i hi j hj
    unfold hpts
    rwa [pt_colCurve hj])
  rw [← insSurfV_col hw hk h0 h1 hi] at hr
  have := hr j (by rw [colCurve_length]; exact hj)
  unfold hpts at this
  rwa [pt_colCurve hj] at this

end Nurbs
