import Verif.Proof.Insert
import Verif.Proof.Knots2

/-! # The code's knot insertion is Boehm's -/

set_option linter.unusedSectionVars false

namespace Nurbs
open Nurbs.Spec

variable {K : Type} [Field K] [LinearOrder K] [IsStrictOrderedRing K]

/-- The curve after inserting `v` behind knot `k`. -/
def insCurve (p k : ℕ) (v : K) (c : Curve K) : Curve K :=
  ⟨p, ⟨insL c.Knots.Values k v⟩, tab (c.ControlPoints.length + 1) fun i =>
    if i + p ≤ k then pt c.ControlPoints i
    else if i ≤ k then unhomo (step (kn c.Knots.Values) p v (hpts c.ControlPoints) i)
    else pt c.ControlPoints (i - 1)⟩

theorem upperBound_eq_span {K : Type} [LinearOrder K] [Zero K] [One K] {l : List K} (hs : l.Pairwise (· ≤ ·)) {v : K} {k : ℕ} (hk : IsSpan l v k) (h1 : v < 1) :
    upperBound l v = k + 1 := by
  obtain ⟨hb1, hb2, hb3⟩ := upperBound_spec l v hs
  have hkl := hk.1
  have hkv : v < kn l (k + 1) := by
    rcases hk.2.2 with h | h
    · exact h
    · exact absurd h.1 h1.ne
  apply le_antisymm
  · by_contra h
    have := hb2 (k + 1) (by omega) (by omega)
    rw [← kn_eq_getElem] at this
    exact absurd hkv (not_lt.mpr this)
  · by_contra h
    have := hb3 k (by omega) (by omega)
    rw [← kn_eq_getElem] at this
    exact absurd this (not_lt.mpr hk.2.1)

theorem pt_tab {K : Type} [Zero K] (n : ℕ) (f : ℕ → Vec4 K) (i : ℕ) (h : i < n) : pt (tab n f) i = f i := by
  simp [pt, List.getD_eq_getElem?_getD, tab_getElem? _ _ _ h]

theorem eq_tab_pt {K : Type} [Zero K] (l : List (Vec4 K)) : l = tab l.length (pt l) :=
  eq_tab l _ (fun i hi => by simp [pt, hi])

theorem insert_eq_tab {K : Type} [Zero K] (l : List (Vec4 K)) (k : ℕ) (a : Vec4 K) (hk : k ≤ l.length) :
    l.take k ++ List.replicate 1 a ++ l.drop k =
      tab (l.length + 1) (fun i => if i < k then pt l i else if i = k then a else pt l (i - 1)) := by
  have hl : (l.take k ++ List.replicate 1 a ++ l.drop k).length = l.length + 1 := by simp; omega
  rw [← hl]
  apply eq_tab
  intro i hi
  rw [hl] at hi
  have e : (l.take k ++ List.replicate 1 a ++ l.drop k)[i]? =
      some (if i < k then pt l i else if i = k then a else pt l (i - 1)) := by
    by_cases h1 : i < k
    · rw [if_pos h1, List.append_assoc, List.getElem?_append_left (by simp; omega), List.getElem?_take, if_pos h1]
      simp [pt, show i < l.length by omega]
    · rw [if_neg h1]
      by_cases h2 : i = k
      · rw [if_pos h2, List.getElem?_append_left (by simp; omega), List.getElem?_append_right (by simp; omega)]
        simp [h2, hk]
      · rw [if_neg h2, List.getElem?_append_right (by simp; omega), List.getElem?_drop]
        simp only [List.length_append, List.length_take, List.length_replicate]
        rw [show k + (i - (min k l.length + 1)) = i - 1 by omega]
        simp [pt, show i - 1 < l.length by omega]
  have := List.getElem?_eq_getElem (l := l.take k ++ List.replicate 1 a ++ l.drop k) (i := i) (by omega)
  rw [e] at this
  exact (Option.some.inj this).symm

theorem step_w_pos (U : ℕ → K) (p : ℕ) (v : K) (P : ℕ → Vec4 K) (i : ℕ) (h1 : U i ≤ v) (h2 : v < U (i + p))
    (hP1 : 0 < (P (i - 1)).w) (hP2 : 0 < (P i).w) : 0 < (step U p v P i).w := by
  have hd : 0 < U (i + p) - U i := by linarith
  simp only [step, Vec4.add_w, Vec4.smul_w]
  have a : 0 < (U (i + p) - v) / (U (i + p) - U i) := div_pos (by linarith) hd
  have b : 0 ≤ (v - U i) / (U (i + p) - U i) := div_nonneg (by linarith) hd.le
  exact add_pos_of_pos_of_nonneg (mul_pos a hP1) (mul_nonneg b hP2.le)

theorem alpha_form (U : ℕ → K) (p : ℕ) (v : K) (P : ℕ → Vec4 K) (i : ℕ) (h : U (i + p) - U i ≠ 0) :
    ((v - U i) / (U (i + p) - U i)) • P i + (1 - (v - U i) / (U (i + p) - U i)) • P (i - 1) = step U p v P i := by
  unfold step
  have e : 1 - (v - U i) / (U (i + p) - U i) = (U (i + p) - v) / (U (i + p) - U i) := by field_simp; ring
  rw [e, add_comm]

section facts
variable {p : ℕ} {c : Curve K} (hw : WFCurve p c) {v : K} {k : ℕ} (hk : IsSpan c.Knots.Values v k) (h0 : 0 < v) (h1 : v < 1)
include hw hk h0 h1

theorem ins_bounds : p ≤ k ∧ k + p + 2 ≤ c.Knots.Values.length ∧ k < c.ControlPoints.length := by
  obtain ⟨k', hk', hpk, hlk⟩ := exists_span hw.clamped h0.le h1.le
  obtain rfl : k = k' := isSpan_unique hw.clamped.sorted hk hk' (fun i hi => hw.clamped.le_one hi)
  have := hw.count
  exact ⟨hpk, hlk, by omega⟩

theorem ins_step_pos (i : ℕ) (hi1 : k < i + p) (hi2 : i ≤ k) :
    kn c.Knots.Values (i + p) - kn c.Knots.Values i ≠ 0 ∧
      0 < (step (kn c.Knots.Values) p v (hpts c.ControlPoints) i).w := by
  obtain ⟨hpk, hlk, hkn⟩ := ins_bounds hw hk h0 h1
  have hkv : v < kn c.Knots.Values (k + 1) := by
    rcases hk.2.2 with h | h
    · exact h
    · exact absurd h.1 h1.ne
  have a : kn c.Knots.Values i ≤ v := (kn_mono hw.clamped.sorted hi2 (by omega)).trans hk.2.1
  have b : v < kn c.Knots.Values (i + p) := lt_of_lt_of_le hkv (kn_mono hw.clamped.sorted (by omega) (by omega))
  exact ⟨by intro h; linarith, step_w_pos _ _ _ _ _ a b (hw.weights _ (by omega)) (hw.weights _ (by omega))⟩

theorem insCurve_hpts (i : ℕ) (hi : i < c.ControlPoints.length + 1) :
    hpts (insCurve p k v c).ControlPoints i = insP (kn c.Knots.Values) k v p (hpts c.ControlPoints) i := by
  unfold hpts insCurve insP
  simp only
  rw [pt_tab _ _ _ hi]
  split_ifs with ha hb
  · rfl
  · exact toHomo_unhomo (ins_step_pos hw hk h0 h1 i (by omega) hb).2.ne'
  · rfl

theorem insCurve_wf : WFCurve p (insCurve p k v c) := by
  obtain ⟨hpk, hlk, hkn⟩ := ins_bounds hw hk h0 h1
  refine ⟨rfl, insL_clamped hw.clamped hk hpk hlk h0 h1, ?_, ?_⟩
  · have := hw.count
    simp only [insCurve, insL_length, tab_length]; omega
  · intro i hi
    simp only [insCurve, tab_length] at hi
    have e := insCurve_hpts hw hk h0 h1 i hi
    have e2 : (pt (insCurve p k v c).ControlPoints i).w = (hpts (insCurve p k v c).ControlPoints i).w := rfl
    rw [e2, e]
    unfold insP
    split_ifs with ha hb
    · exact hw.weights _ (by omega)
    · exact (ins_step_pos hw hk h0 h1 i (by omega) hb).2
    · exact hw.weights _ (by omega)

theorem insCurve_blos {x : K} (hx0 : 0 ≤ x) (hx1 : x ≤ 1) {s : ℕ} (hs : IsSpan (insCurve p k v c).Knots.Values x s)
    (ts : List K) (ht : ts.length = p) :
    IsSpan c.Knots.Values x (if s ≤ k then s else s - 1) ∧
    blos (kn (insCurve p k v c).Knots.Values) ts (hpts (insCurve p k v c).ControlPoints) s =
      blos (kn c.Knots.Values) ts (hpts c.ControlPoints) (if s ≤ k then s else s - 1) := by
  obtain ⟨hpk, hlk, hkn⟩ := ins_bounds hw hk h0 h1
  refine ⟨insL_span hk h1 hs, ?_⟩
  obtain ⟨hps, hls, _⟩ := evaluate_seg (insCurve_wf hw hk h0 h1) hx0 hx1 hs
  rw [← insL_blos hw.clamped hk h0 h1 hs hx0 hx1 (hpts c.ControlPoints) ts ht]
  have hct := (insCurve_wf hw hk h0 h1).count
  simp only [insCurve, tab_length] at hct hls
  apply blos_congr _ _ _ _ _ (by omega)
  intro i hi1 hi2
  exact insCurve_hpts hw hk h0 h1 i (by omega)

theorem insCurve_evaluate {x : K} (hx0 : 0 ≤ x) (hx1 : x ≤ 1) : (insCurve p k v c).Evaluate x = c.Evaluate x := by
  have hw' := insCurve_wf hw hk h0 h1
  obtain ⟨s, hs, hps, hls⟩ := exists_span hw'.clamped hx0 hx1
  obtain ⟨hs0, hb⟩ := insCurve_blos hw hk h0 h1 hx0 hx1 hs (List.replicate p x) (by simp)
  obtain ⟨a1, _, _, _, e1⟩ := evaluate_seg hw' hx0 hx1 hs
  obtain ⟨a2, _, _, _, e2⟩ := evaluate_seg hw hx0 hx1 hs0
  rw [e1, e2, seg_eq_blos _ _ _ _ _ a1, seg_eq_blos _ _ _ _ _ a2, hb]

/-- `InsertKnot(value)` for degree ≥ 1. -/
theorem insertKnot_ok (hp : 1 ≤ p) : c.InsertKnot v = .ok (insCurve p k v c) := by
  obtain ⟨hpk, hlk, hkn⟩ := ins_bounds hw hk h0 h1
  unfold Curve.InsertKnot
  have e := knotInsert_ok c.Knots v 1 h0 h1 hw.clamped.sorted
  rw [upperBound_eq_span hw.clamped.sorted hk h1] at e
  rw [show ((1 : ℕ) : Int) = 1 from rfl] at e
  rw [e, bind_ok, hw.degree]
  simp only
  rw [vinsert_of _ _ _ k _ (by push_cast; omega) (by omega), bind_ok, insert_eq_tab _ _ _ (by omega),
    forLe_eq_forUp _ _ p (by push_cast; omega)]
  have hloop := forUp_eq (fun i pts => do
    let alpha ← fdiv (v - (← vget c.Knots.Values i)) ((← vget c.Knots.Values (i + p)) - (← vget c.Knots.Values i))
    let point_i := ToHomo (← vget c.ControlPoints i)
    let point_im1 := ToHomo (← vget c.ControlPoints (i - 1))
    vset pts i (← FromHomo (alpha • point_i + (1 - alpha) • point_im1)))
    (fun m => tab (c.ControlPoints.length + 1) fun i =>
      if i + p ≤ k then pt c.ControlPoints i
      else if i + p ≤ k + m then unhomo (step (kn c.Knots.Values) p v (hpts c.ControlPoints) i)
      else if i < k then pt c.ControlPoints i else if i = k then 0
      else pt c.ControlPoints (i - 1)) p (((k + 1 : ℕ) : Int) - 1 - p + 1) (by
    intro m hm
    obtain ⟨i, hi⟩ : ∃ i, k + m + 1 = i + p := ⟨k + m + 1 - p, by omega⟩
    obtain ⟨hne, hpos⟩ := ins_step_pos hw hk h0 h1 i (by omega) (by omega)
    have ei : ((k + 1 : ℕ) : Int) - 1 - p + 1 + m = i := by push_cast; omega
    rw [ei, vget_kn _ _ i rfl (by omega), bind_ok, vget_kn _ _ (i + p) (by push_cast; rfl) (by omega), bind_ok, bind_ok,
      fdiv_ok hne, bind_ok, vget_pt _ _ i rfl (by omega), bind_ok, vget_pt _ _ (i - 1) (by omega) (by omega), bind_ok]
    have ea := alpha_form (kn c.Knots.Values) p v (hpts c.ControlPoints) i hne
    simp only [hpts] at ea hpos
    simp only [ea]
    rw [fromHomo_ok hpos.ne', bind_ok]
    apply vset_tab' _ _ _ _ i _ rfl (by omega)
    intro j hj
    by_cases hji : j = i
    · subst hji
      rw [if_neg (by omega), if_pos (by omega), if_pos rfl]
    · rw [if_neg hji]
      by_cases h3 : j + p ≤ k
      · simp [h3]
      · rw [if_neg h3, if_neg h3]
        by_cases h4 : j + p ≤ k + m
        · rw [if_pos (by omega), if_pos h4]
        · rw [if_neg (by omega), if_neg h4])
  have hinit : (tab (c.ControlPoints.length + 1) fun i => if i < k then pt c.ControlPoints i else if i = k then 0
      else pt c.ControlPoints (i - 1)) = (tab (c.ControlPoints.length + 1) fun i =>
      if i + p ≤ k then pt c.ControlPoints i
      else if i + p ≤ k + 0 then unhomo (step (kn c.Knots.Values) p v (hpts c.ControlPoints) i)
      else if i < k then pt c.ControlPoints i else if i = k then 0
      else pt c.ControlPoints (i - 1)) := by
    apply tab_congr
    intro i hi
    by_cases h3 : i + p ≤ k
    · rw [if_pos (show i < k by omega), if_pos h3]
    · rw [if_neg h3, if_neg (show ¬ i + p ≤ k + 0 by omega)]
  rw [hinit, hloop, bind_ok]
  unfold insCurve insL
  simp only [pure_ok, List.replicate_one]
  congr 2
  apply tab_congr
  intro i hi
  by_cases h3 : i + p ≤ k
  · rw [if_pos h3, if_pos h3]
  · rw [if_neg h3, if_neg h3]
    by_cases h4 : i ≤ k
    · rw [if_pos (by omega), if_pos h4]
    · rw [if_neg (by omega), if_neg h4, if_neg (by omega), if_neg (by omega)]

/-- One step of `InsertKnot(list)`, for every degree. -/
theorem insertListStep_ok : Curve.insertListStep v c = .ok (insCurve p k v c) := by
  obtain ⟨hpk, hlk, hkn⟩ := ins_bounds hw hk h0 h1
  obtain ⟨k', hk', hs, _⟩ := findSpanIndex_spec hw.clamped h0.le h1.le
  obtain rfl : k = k' := isSpan_unique hw.clamped.sorted hk hs (fun i hi => hw.clamped.le_one hi)
  unfold Curve.insertListStep
  simp only
  rw [hw.degree, hk', bind_ok, vget_pt _ _ k rfl hkn, bind_ok, vinsert_of _ _ _ k _ rfl (by omega), bind_ok,
    insert_eq_tab _ _ _ (by omega), vget_tab _ _ _ (k - p) (by omega) (by omega), bind_ok,
    forLe_eq_forUp _ _ p (by push_cast; omega)]
  have hbase : (if k - p < k then pt c.ControlPoints (k - p) else if k - p = k then pt c.ControlPoints k
      else pt c.ControlPoints (k - p - 1)) = pt c.ControlPoints (k - p + 0) := by
    by_cases h : k - p < k
    · rw [if_pos h]; rfl
    · rw [if_neg h, if_pos (by omega)]; congr 1; omega
  rw [hbase]
  have hloop := forUp_eq (Curve.insertListInner p c.Knots.Values v)
    (fun m => (tab (c.ControlPoints.length + 1) fun i =>
      if i + p ≤ k then pt c.ControlPoints i
      else if i + p ≤ k + m then unhomo (step (kn c.Knots.Values) p v (hpts c.ControlPoints) i)
      else if i ≤ k then pt c.ControlPoints i
      else pt c.ControlPoints (i - 1), ToHomo (pt c.ControlPoints (k - p + m)))) p ((k : Int) - p + 1) (by
    intro m hm
    obtain ⟨i, hi⟩ : ∃ i, k + m + 1 = i + p := ⟨k + m + 1 - p, by omega⟩
    obtain ⟨hne, hpos⟩ := ins_step_pos hw hk h0 h1 i (by omega) (by omega)
    have ei : (k : Int) - p + 1 + m = i := by omega
    simp only [Curve.insertListInner]
    rw [ei, vget_kn _ _ i rfl (by omega), bind_ok, vget_kn _ _ (i + p) (by push_cast; rfl) (by omega), bind_ok, bind_ok,
      fdiv_ok hne, bind_ok, vget_tab _ _ _ i rfl (by omega), bind_ok]
    rw [if_neg (show ¬ i + p ≤ k by omega), if_neg (show ¬ i + p ≤ k + m by omega), if_pos (show i ≤ k by omega),
      show k - p + m = i - 1 by omega]
    have ea := alpha_form (kn c.Knots.Values) p v (hpts c.ControlPoints) i hne
    simp only [hpts] at ea hpos
    simp only [ea]
    rw [fromHomo_ok hpos.ne', bind_ok]
    rw [vset_tab' _ _ (fun i =>
      if i + p ≤ k then pt c.ControlPoints i
      else if i + p ≤ k + (m + 1) then unhomo (step (kn c.Knots.Values) p v (hpts c.ControlPoints) i)
      else if i ≤ k then pt c.ControlPoints i
      else pt c.ControlPoints (i - 1)) _ i _ rfl (by omega)]
    · rw [bind_ok, show k - p + (m + 1) = i by omega]; rfl
    intro j hj
    by_cases hji : j = i
    · subst hji
      rw [if_neg (by omega), if_pos (by omega), if_pos rfl]
    · rw [if_neg hji]
      by_cases h3 : j + p ≤ k
      · simp [h3]
      · rw [if_neg h3, if_neg h3]
        by_cases h4 : j + p ≤ k + m
        · rw [if_pos (by omega), if_pos h4]
        · rw [if_neg (by omega), if_neg h4])
  have hinit : (tab (c.ControlPoints.length + 1) fun i => if i < k then pt c.ControlPoints i else if i = k then pt c.ControlPoints k
      else pt c.ControlPoints (i - 1)) = (tab (c.ControlPoints.length + 1) fun i =>
      if i + p ≤ k then pt c.ControlPoints i
      else if i + p ≤ k + 0 then unhomo (step (kn c.Knots.Values) p v (hpts c.ControlPoints) i)
      else if i ≤ k then pt c.ControlPoints i
      else pt c.ControlPoints (i - 1)) := by
    apply tab_congr
    intro i hi
    have : (if i < k then pt c.ControlPoints i else if i = k then pt c.ControlPoints k
      else pt c.ControlPoints (i - 1)) = if i ≤ k then pt c.ControlPoints i else pt c.ControlPoints (i - 1) := by
      rcases Nat.lt_trichotomy i k with h | h | h
      · rw [if_pos h, if_pos h.le]
      · subst h; simp
      · rw [if_neg (by omega), if_neg (by omega), if_neg (by omega)]
    rw [this]
    by_cases h3 : i + p ≤ k
    · rw [if_pos (show i ≤ k by omega), if_pos h3]
    · rw [if_neg h3, if_neg (show ¬ i + p ≤ k + 0 by omega)]
  rw [hinit, hloop, bind_ok]
  simp only
  rw [vinsert_of _ _ _ (k + 1) _ (by push_cast; rfl) (by omega), bind_ok]
  unfold insCurve insL
  simp only [pure_ok, List.replicate_one]
  congr 2
  apply tab_congr
  intro i hi
  by_cases h3 : i + p ≤ k
  · rw [if_pos h3, if_pos h3]
  · rw [if_neg h3, if_neg h3]
    by_cases h4 : i ≤ k
    · rw [if_pos (by omega), if_pos h4]
    · rw [if_neg (by omega), if_neg h4, if_neg (by omega)]

end facts

/-! ### Commuting insertions -/

/-- Both curves have the same polar form on every segment. -/
def SamePolar (p : ℕ) (c c' : Curve K) : Prop :=
  ∀ x, 0 ≤ x → x ≤ 1 → ∀ s s', IsSpan c.Knots.Values x s → IsSpan c'.Knots.Values x s' → ∀ ts : List K, ts.length = p →
    blos (kn c'.Knots.Values) ts (hpts c'.ControlPoints) s' = blos (kn c.Knots.Values) ts (hpts c.ControlPoints) s

theorem SamePolar.trans {p : ℕ} {c c' c'' : Curve K} (h : SamePolar p c c') (h' : SamePolar p c' c'') (hw : WFCurve p c') :
    SamePolar p c c'' := by
  intro x h0 h1 s s' hs hs' ts ht
  obtain ⟨m, hm, _⟩ := exists_span hw.clamped h0 h1
  rw [h' x h0 h1 m s' hm hs' ts ht, h x h0 h1 s m hs hm ts ht]

theorem SamePolar.evaluate {p : ℕ} {c c' : Curve K} (h : SamePolar p c c') (hw : WFCurve p c) (hw' : WFCurve p c') {x : K}
    (h0 : 0 ≤ x) (h1 : x ≤ 1) : c'.Evaluate x = c.Evaluate x := by
  obtain ⟨s, hs, _⟩ := exists_span hw.clamped h0 h1
  obtain ⟨s', hs', _⟩ := exists_span hw'.clamped h0 h1
  obtain ⟨a1, _, _, _, e1⟩ := evaluate_seg hw h0 h1 hs
  obtain ⟨a2, _, _, _, e2⟩ := evaluate_seg hw' h0 h1 hs'
  rw [e1, e2, seg_eq_blos _ _ _ _ _ a1, seg_eq_blos _ _ _ _ _ a2, h x h0 h1 s s' hs hs' _ (by simp)]

theorem samePolar_ins {p : ℕ} {c : Curve K} (hw : WFCurve p c) {v : K} {k : ℕ} (hk : IsSpan c.Knots.Values v k)
    (h0 : 0 < v) (h1 : v < 1) : SamePolar p c (insCurve p k v c) := by
  intro x hx0 hx1 s s' hs hs' ts ht
  obtain ⟨hs0, hb⟩ := insCurve_blos hw hk h0 h1 hx0 hx1 hs' ts ht
  rw [hb, isSpan_unique hw.clamped.sorted hs0 hs (fun i hi => hw.clamped.le_one hi)]

/-- Somewhere between unequal knots there is a non-empty span. -/
theorem exists_jump (U : ℕ → K) (i n : ℕ) (h : U i < U (i + n)) : ∃ s, i ≤ s ∧ s < i + n ∧ U s < U (s + 1) := by
  induction n with
  | zero => exact absurd h (lt_irrefl _)
  | succ n ih =>
    by_cases h' : U (i + n) < U (i + n + 1)
    · exact ⟨i + n, by omega, by omega, h'⟩
    · obtain ⟨s, h1, h2, h3⟩ := ih (lt_of_lt_of_le h (not_lt.mp h'))
      exact ⟨s, h1, by omega, h3⟩

/-- Control points that influence the curve are determined by the polar form. -/
theorem hpts_unique {p : ℕ} {c c1 c2 : Curve K} (hw : WFCurve p c) (hw1 : WFCurve p c1)
    (h1 : SamePolar p c c1) (h2 : SamePolar p c c2) (he : c1.Knots = c2.Knots) (i : ℕ) (hi : i < c1.ControlPoints.length)
    (hlive : kn c1.Knots.Values i < kn c1.Knots.Values (i + (p + 1))) :
    hpts c1.ControlPoints i = hpts c2.ControlPoints i := by
  have hct := hw1.count
  obtain ⟨s, hs1, hs2, hs3⟩ := exists_jump _ _ _ hlive
  have hs := isSpan_left (l := c1.Knots.Values) (show s + 1 < _ by omega) hs3
  have hx0 := hw1.clamped.nonneg (show s < _ by omega)
  have hx1 := hw1.clamped.le_one (show s < _ by omega)
  obtain ⟨s0, hs0, _⟩ := exists_span hw.clamped hx0 hx1
  obtain ⟨a1, a2, a3, _⟩ := evaluate_seg hw1 hx0 hx1 hs
  have e1 := h1 _ hx0 hx1 s0 s hs0 hs (win (kn c1.Knots.Values) i p) (by simp)
  have e2 := h2 _ hx0 hx1 s0 s hs0 (he ▸ hs) (win (kn c1.Knots.Values) i p) (by simp)
  rw [← he] at e2
  rw [blos_win _ s p i _ a1 a3 (by omega) (by omega)] at e1 e2
  rw [e1, e2]

theorem insP_comm_dead (U : ℕ → K) (ka kb p : ℕ) (a b : K) {V : Type} [AddCommGroup V] [Module K V] (P : ℕ → V) (hab : ka ≤ kb) (i : ℕ)
    (h : ka + 2 ≤ i ∨ i + p + 1 ≤ ka ∨ kb + 3 ≤ i ∨ i + p ≤ kb) :
    insP (insU U ka a) (kb + 1) b p (insP U ka a p P) i = insP (insU U kb b) ka a p (insP U kb b p P) i := by
  have hP : ∀ (k : ℕ) (v : K) j, ka ≤ k → ka + 1 ≤ j → k + 1 ≤ j → insP U k v p P j = P (j - 1) := fun k v j h1 h2 h3 => by
    unfold insP; rw [if_neg (by omega), if_neg (by omega)]
  have hPl : ∀ (k : ℕ) (v : K) j, j + p ≤ k → insP U k v p P j = P j := fun k v j h1 => by
    unfold insP; rw [if_pos h1]
  rcases h with h | h | h | h
  · -- beyond a
    have e2 : insP (insU U kb b) ka a p (insP U kb b p P) i = insP U kb b p P (i - 1) := by
      rw [insP, if_neg (by omega), if_neg (by omega)]
    rw [e2]
    have q1 : insP U ka a p P i = P (i - 1) := hP ka a i le_rfl (by omega) (by omega)
    have q2 : insP U ka a p P (i - 1) = P (i - 1 - 1) := hP ka a (i - 1) le_rfl (by omega) (by omega)
    have u1 : insU U ka a i = U (i - 1) := by unfold insU; rw [if_neg (by omega), if_neg (by omega)]
    have u2 : insU U ka a (i + p) = U (i - 1 + p) := by
      unfold insU; rw [if_neg (by omega), if_neg (by omega)]; congr 1; omega
    have l1 : insP (insU U ka a) (kb + 1) b p (insP U ka a p P) i = if i + p ≤ kb + 1 then insP U ka a p P i
      else if i ≤ kb + 1 then step (insU U ka a) p b (insP U ka a p P) i else insP U ka a p P (i - 1) := rfl
    have l2 : insP U kb b p P (i - 1) = if i - 1 + p ≤ kb then P (i - 1)
      else if i - 1 ≤ kb then step U p b P (i - 1) else P (i - 1 - 1) := rfl
    rw [l1, l2]
    by_cases h1 : i + p ≤ kb + 1
    · rw [if_pos h1, if_pos (by omega), q1]
    · rw [if_neg h1, if_neg (show ¬ i - 1 + p ≤ kb by omega)]
      by_cases h2 : i ≤ kb + 1
      · rw [if_pos h2, if_pos (by omega), step, step, q1, q2, u1, u2]
      · rw [if_neg h2, if_neg (by omega), q2]
  · rw [insP, if_pos (show i + p ≤ kb + 1 by omega), insP, if_pos (by omega), insP, if_pos (by omega), insP, if_pos (by omega)]
  · rw [insP, if_neg (by omega), if_neg (by omega), hP ka a _ le_rfl (by omega) (by omega), insP, if_neg (by omega), if_neg (by omega),
      hP kb b _ hab (by omega) (by omega)]
  · have l1 : insP U ka a p P i = if i + p ≤ ka then P i else if i ≤ ka then step U p a P i else P (i - 1) := rfl
    have l2 : insP (insU U kb b) ka a p (insP U kb b p P) i = if i + p ≤ ka then insP U kb b p P i
      else if i ≤ ka then step (insU U kb b) p a (insP U kb b p P) i else insP U kb b p P (i - 1) := rfl
    rw [insP, if_pos (show i + p ≤ kb + 1 by omega), l1, l2]
    by_cases h1 : i + p ≤ ka
    · rw [if_pos h1, if_pos h1, hPl kb b i h]
    · rw [if_neg h1, if_neg h1]
      by_cases h2 : i ≤ ka
      · rw [if_pos h2, if_pos h2, step, step, hPl kb b i h, hPl kb b (i - 1) (by omega)]
        have u1 : insU U kb b i = U i := by unfold insU; rw [if_pos (by omega)]
        have u2 : insU U kb b (i + p) = U (i + p) := by unfold insU; rw [if_pos (by omega)]
        rw [u1, u2]
      · rw [if_neg h2, if_neg h2, hPl kb b _ (by omega)]

theorem insP_congr {U : ℕ → K} {k p : ℕ} {v : K} {V : Type} [AddCommGroup V] [Module K V] {P Q : ℕ → V} (n : ℕ) (hk : k < n)
    (h : ∀ j < n, P j = Q j) (i : ℕ) (hi : i < n + 1) : insP U k v p P i = insP U k v p Q i := by
  unfold insP
  split_ifs with t1 t2
  · exact h i (by omega)
  · exact step_congr (h _ (by omega)) (h _ (by omega))
  · exact h _ (by omega)

/-- Two insertions commute. -/
theorem ins_comm {p : ℕ} {c : Curve K} (hw : WFCurve p c) {a b : K} (ha : 0 < a) (hab : a < b) (hb : b < 1) {ka kb : ℕ}
    (hka : IsSpan c.Knots.Values a ka) (hkb : IsSpan c.Knots.Values b kb) :
    IsSpan (insCurve p ka a c).Knots.Values b (kb + 1) ∧ IsSpan (insCurve p kb b c).Knots.Values a ka ∧
    insCurve p (kb + 1) b (insCurve p ka a c) = insCurve p ka a (insCurve p kb b c) := by
  have ha1 : a < 1 := hab.trans hb
  have hb0 : 0 < b := ha.trans hab
  obtain ⟨a1, a2, a3⟩ := ins_bounds hw hka ha ha1
  obtain ⟨b1, b2, b3⟩ := ins_bounds hw hkb hb0 hb
  have hka' : a < kn c.Knots.Values (ka + 1) := by
    rcases hka.2.2 with h | h
    · exact h
    · exact absurd h.1 ha1.ne
  have hkb' : b < kn c.Knots.Values (kb + 1) := by
    rcases hkb.2.2 with h | h
    · exact h
    · exact absurd h.1 hb.ne
  have hk : ka ≤ kb := by
    by_contra h
    have := kn_mono hw.clamped.sorted (show kb + 1 ≤ ka by omega) (by omega)
    have h2 := hka.2.1
    linarith
  have sb : IsSpan (insCurve p ka a c).Knots.Values b (kb + 1) := by
    simp only [insCurve, IsSpan, insL_length]
    rw [kn_insL' _ _ _ (by omega)]
    refine ⟨by omega, ?_, Or.inl ?_⟩
    · unfold insU
      rw [if_neg (by omega)]
      split_ifs
      · exact hab.le
      · exact hkb.2.1
    · unfold insU
      rw [if_neg (by omega), if_neg (by omega)]
      exact hkb'
  have sa : IsSpan (insCurve p kb b c).Knots.Values a ka := by
    simp only [insCurve, IsSpan, insL_length]
    rw [kn_insL' _ _ _ (by omega)]
    refine ⟨by omega, ?_, Or.inl ?_⟩
    · unfold insU
      rw [if_pos hk]
      exact hka.2.1
    · unfold insU
      split_ifs
      · exact hka'
      · exact hab
      · omega
  refine ⟨sb, sa, ?_⟩
  have hwa := insCurve_wf hw hka ha ha1
  have hwb := insCurve_wf hw hkb hb0 hb
  have hwab := insCurve_wf hwa sb hb0 hb
  have hwba := insCurve_wf hwb sa ha ha1
  have hkn : (insCurve p (kb + 1) b (insCurve p ka a c)).Knots = (insCurve p ka a (insCurve p kb b c)).Knots := by
    have : (insCurve p (kb + 1) b (insCurve p ka a c)).Knots.Values = (insCurve p ka a (insCurve p kb b c)).Knots.Values := by
      apply List.Perm.eq_of_pairwise (fun x y _ _ h1 h2 => le_antisymm h1 h2) hwab.clamped.sorted hwba.clamped.sorted
      refine (insL_perm _ _ _).trans ?_
      refine ((insL_perm _ _ _).cons b).trans ?_
      refine (List.Perm.swap _ _ _).trans ?_
      refine ((insL_perm _ kb _).symm.cons a).trans ?_
      exact (insL_perm _ _ _).symm
    exact congrArg KnotVector.mk this
  have hlen1 : (insCurve p (kb + 1) b (insCurve p ka a c)).ControlPoints.length = c.ControlPoints.length + 2 := by simp [insCurve]
  have hlen2 : (insCurve p ka a (insCurve p kb b c)).ControlPoints.length = c.ControlPoints.length + 2 := by simp [insCurve]
  have hpt : ∀ i < c.ControlPoints.length + 2, pt (insCurve p (kb + 1) b (insCurve p ka a c)).ControlPoints i =
      pt (insCurve p ka a (insCurve p kb b c)).ControlPoints i := by
    intro i hi
    have key : hpts (insCurve p (kb + 1) b (insCurve p ka a c)).ControlPoints i =
        hpts (insCurve p ka a (insCurve p kb b c)).ControlPoints i := by
      have hct := hwab.count
      rcases lt_or_eq_of_le (kn_mono hwab.clamped.sorted (show i ≤ i + (p + 1) by omega) (by omega)) with hl | hd
      · exact hpts_unique hw hwab
          ((samePolar_ins hw hka ha ha1).trans (samePolar_ins hwa sb hb0 hb) hwa)
          ((samePolar_ins hw hkb hb0 hb).trans (samePolar_ins hwb sa ha ha1) hwb) hkn i (by omega) hl
      · rw [insCurve_hpts hwa sb hb0 hb i (by simp only [insCurve, tab_length]; omega), insCurve_hpts hwb sa ha ha1 i (by simp only [insCurve, tab_length]; omega)]
        have ek : kn (insCurve p ka a c).Knots.Values = insU (kn c.Knots.Values) ka a := kn_insL' _ _ _ (by omega)
        have ek2 : kn (insCurve p kb b c).Knots.Values = insU (kn c.Knots.Values) kb b := kn_insL' _ _ _ (by omega)
        have ek3 : kn (insCurve p (kb + 1) b (insCurve p ka a c)).Knots.Values = insU (insU (kn c.Knots.Values) ka a) (kb + 1) b := by
          rw [← ek]; exact kn_insL' _ _ _ (by have := sb.1; omega)
        have hcond : ka + 2 ≤ i ∨ i + p + 1 ≤ ka ∨ kb + 3 ≤ i ∨ i + p ≤ kb := by
          by_contra hcon
          push Not at hcon
          obtain ⟨c1, c2, c3, c4⟩ := hcon
          have m1 := kn_mono hwab.clamped.sorted (show i ≤ ka + 1 by omega) (by omega)
          have m3 := kn_mono hwab.clamped.sorted (show kb + 2 ≤ i + (p + 1) by omega) (by omega)
          have v1 : kn (insCurve p (kb + 1) b (insCurve p ka a c)).Knots.Values (ka + 1) = a := by
            rw [ek3, insU, if_pos (by omega), insU, if_neg (by omega), if_pos rfl]
          have v2 : kn (insCurve p (kb + 1) b (insCurve p ka a c)).Knots.Values (kb + 2) = b := by
            rw [ek3, insU, if_neg (by omega), if_pos (by omega)]
          rw [v1] at m1
          rw [v2] at m3
          linarith
        have hc' := insP_comm_dead (kn c.Knots.Values) ka kb p a b (hpts c.ControlPoints) hk i hcond
        rw [← ek, ← ek2] at hc'
        have t1 : insP (kn (insCurve p ka a c).Knots.Values) (kb + 1) b p (hpts (insCurve p ka a c).ControlPoints) i =
            insP (kn (insCurve p ka a c).Knots.Values) (kb + 1) b p (insP (kn c.Knots.Values) ka a p (hpts c.ControlPoints)) i := by
          exact insP_congr (c.ControlPoints.length + 1) (by omega) (fun j hj => insCurve_hpts hw hka ha ha1 j hj) i hi
        have t2 : insP (kn (insCurve p kb b c).Knots.Values) ka a p (hpts (insCurve p kb b c).ControlPoints) i =
            insP (kn (insCurve p kb b c).Knots.Values) ka a p (insP (kn c.Knots.Values) kb b p (hpts c.ControlPoints)) i := by
          exact insP_congr (c.ControlPoints.length + 1) (by omega) (fun j hj => insCurve_hpts hw hkb hb0 hb j hj) i hi
        rw [t1, t2, hc']
    have p1 := (hwab.weights i (by omega)).ne'
    have p2 := (hwba.weights i (by omega)).ne'
    rw [← unhomo_toHomo p1, ← unhomo_toHomo p2]
    exact congrArg unhomo key
  have hpts' : (insCurve p (kb + 1) b (insCurve p ka a c)).ControlPoints = (insCurve p ka a (insCurve p kb b c)).ControlPoints := by
    rw [eq_tab_pt (insCurve p (kb + 1) b (insCurve p ka a c)).ControlPoints, eq_tab_pt (insCurve p ka a (insCurve p kb b c)).ControlPoints,
      hlen1, hlen2]
    exact tab_congr hpt
  exact Curve.ext rfl hkn hpts'

end Nurbs

namespace Nurbs
open Nurbs.Spec
variable {K : Type} [Field K] [LinearOrder K] [IsStrictOrderedRing K]

theorem samePolar_refl {p : ℕ} {c : Curve K} (hw : WFCurve p c) : SamePolar p c c := by
  intro x _ _ s s' hs hs' ts _
  rw [isSpan_unique hw.clamped.sorted hs hs' (fun i hi => hw.clamped.le_one hi)]

theorem insertList_spec {p : ℕ} (vs : List K) (hv : ∀ v ∈ vs, 0 < v ∧ v < 1) {c : Curve K} (hw : WFCurve p c) :
    ∃ c', c.InsertKnotList vs = .ok c' ∧ WFCurve p c' ∧ c'.Knots.Values.Perm (vs ++ c.Knots.Values) ∧ SamePolar p c c' := by
  induction vs generalizing c with
  | nil => exact ⟨c, rfl, hw, List.Perm.refl _, samePolar_refl hw⟩
  | cons v vs ih =>
    obtain ⟨h0, h1⟩ := hv v (by simp)
    obtain ⟨k, hk, _⟩ := exists_span hw.clamped h0.le h1.le
    have hw' := insCurve_wf hw hk h0 h1
    obtain ⟨c', e, hw'', hp, hs⟩ := ih (fun v hv' => hv v (by simp [hv'])) hw'
    refine ⟨c', ?_, hw'', ?_, (samePolar_ins hw hk h0 h1).trans hs hw'⟩
    · unfold Curve.InsertKnotList
      simp only [foldMList]
      rw [insertListStep_ok hw hk h0 h1, bind_ok]
      exact e
    · refine hp.trans ?_
      refine ((insL_perm _ _ _).append_left vs).trans ?_
      exact List.perm_middle

/-! ### Corner cutting -/

/-- Every half-space of homogeneous space that contains the points of `P` contains the points of `P'`. -/
def InHull (P P' : List (Vec4 K)) : Prop :=
  ∀ (L : Vec4 K →ₗ[K] K) (b : K), (∀ i < P.length, 0 ≤ L (hpts P i) + b) → ∀ i < P'.length, 0 ≤ L (hpts P' i) + b

theorem InHull.refl (P : List (Vec4 K)) : InHull P P := fun _ _ h => h

theorem InHull.trans {P P' P'' : List (Vec4 K)} (h : InHull P P') (h' : InHull P' P'') : InHull P P'' :=
  fun L b hP => h' L b (h L b hP)

theorem inHull_ins {p : ℕ} {c : Curve K} (hw : WFCurve p c) {v : K} {k : ℕ} (hk : IsSpan c.Knots.Values v k) (h0 : 0 < v) (h1 : v < 1) :
    InHull c.ControlPoints (insCurve p k v c).ControlPoints := by
  intro L b hP i hi
  obtain ⟨hpk, hlk, hkn⟩ := ins_bounds hw hk h0 h1
  have hcnt := hw.count
  simp only [insCurve, tab_length] at hi
  rw [insCurve_hpts hw hk h0 h1 i hi]
  unfold insP
  split_ifs with ha hb
  · exact hP _ (by omega)
  · have hkv : v < kn c.Knots.Values (k + 1) := by
      rcases hk.2.2 with h | h
      · exact h
      · exact absurd h.1 h1.ne
    have a : kn c.Knots.Values i ≤ v := (kn_mono hw.clamped.sorted hb (by omega)).trans hk.2.1
    have b' : v < kn c.Knots.Values (i + p) := lt_of_lt_of_le hkv (kn_mono hw.clamped.sorted (by omega) (by omega))
    have hd : 0 < kn c.Knots.Values (i + p) - kn c.Knots.Values i := by linarith
    unfold step
    set al := (v - kn c.Knots.Values i) / (kn c.Knots.Values (i + p) - kn c.Knots.Values i) with hal
    have al0 : 0 ≤ al := div_nonneg (by linarith) hd.le
    have al1 : al ≤ 1 := (div_le_one hd).mpr (by linarith)
    have hal' : (kn c.Knots.Values (i + p) - v) / (kn c.Knots.Values (i + p) - kn c.Knots.Values i) = 1 - al := by
      rw [hal]; field_simp; ring
    rw [map_add, map_smul, map_smul, smul_eq_mul, smul_eq_mul, hal']
    have e1 := mul_nonneg (sub_nonneg.mpr al1) (hP (i - 1) (by omega))
    have e2 := mul_nonneg al0 (hP i (by omega))
    linarith
  · exact hP _ (by omega)

theorem insertList_hull {p : ℕ} (vs : List K) (hv : ∀ v ∈ vs, 0 < v ∧ v < 1) {c : Curve K} (hw : WFCurve p c) {c' : Curve K}
    (h : c.InsertKnotList vs = .ok c') : InHull c.ControlPoints c'.ControlPoints := by
  induction vs generalizing c with
  | nil =>
    obtain rfl := Except.ok.inj h
    exact InHull.refl _
  | cons v vs ih =>
    obtain ⟨h0, h1⟩ := hv v (by simp)
    obtain ⟨k, hk, _⟩ := exists_span hw.clamped h0.le h1.le
    unfold Curve.InsertKnotList at h
    simp only [foldMList] at h
    rw [insertListStep_ok hw hk h0 h1, bind_ok] at h
    exact (inHull_ins hw hk h0 h1).trans (ih (fun v hv' => hv v (by simp [hv'])) (insCurve_wf hw hk h0 h1) h)

theorem insertList_perm {p : ℕ} {vs ws : List K} (h : vs.Perm ws) (hv : ∀ v ∈ vs, 0 < v ∧ v < 1) {c : Curve K}
    (hw : WFCurve p c) : c.InsertKnotList vs = c.InsertKnotList ws := by
  induction h generalizing c with
  | nil => rfl
  | @cons v vs ws h ih =>
    obtain ⟨h0, h1⟩ := hv v (by simp)
    obtain ⟨k, hk, _⟩ := exists_span hw.clamped h0.le h1.le
    unfold Curve.InsertKnotList
    simp only [foldMList]
    rw [insertListStep_ok hw hk h0 h1, bind_ok, bind_ok]
    exact ih (fun v hv' => hv v (by simp [hv'])) (insCurve_wf hw hk h0 h1)
  | @swap a b l =>
    obtain ⟨ha0, ha1⟩ := hv a (by simp)
    obtain ⟨hb0, hb1⟩ := hv b (by simp)
    have key : ∀ a b : K, 0 < a → a < b → b < 1 →
        (Curve.insertListStep a c >>= fun c' => Curve.insertListStep b c') =
        (Curve.insertListStep b c >>= fun c' => Curve.insertListStep a c') := by
      intro a b h0 hab h1
      obtain ⟨ka, hka, _⟩ := exists_span hw.clamped h0.le (hab.trans h1).le
      obtain ⟨kb, hkb, _⟩ := exists_span hw.clamped (h0.trans hab).le h1.le
      obtain ⟨s1, s2, e⟩ := ins_comm hw h0 hab h1 hka hkb
      rw [insertListStep_ok hw hka h0 (hab.trans h1), insertListStep_ok hw hkb (h0.trans hab) h1, bind_ok, bind_ok,
        insertListStep_ok (insCurve_wf hw hka h0 (hab.trans h1)) s1 (h0.trans hab) h1,
        insertListStep_ok (insCurve_wf hw hkb (h0.trans hab) h1) s2 h0 (hab.trans h1), e]
    have fold2 : ∀ a b : K, c.InsertKnotList (a :: b :: l) =
        (Curve.insertListStep a c >>= fun c' => Curve.insertListStep b c') >>= fun c'' => c''.InsertKnotList l := by
      intro a b
      unfold Curve.InsertKnotList
      simp only [foldMList, bind_assoc']
    rw [fold2, fold2]
    rcases lt_trichotomy a b with h | h | h
    · rw [key a b ha0 h hb1]
    · rw [h]
    · rw [key b a hb0 h ha1]
  | @trans l1 l2 l3 h1 h2 ih1 ih2 =>
    rw [ih1 hv hw, ih2 (fun v hv' => hv v (h1.mem_iff.mpr hv')) hw]

theorem insertList_single {p : ℕ} (hp : 1 ≤ p) (vs : List K) (hv : ∀ v ∈ vs, 0 < v ∧ v < 1) {c : Curve K} (hw : WFCurve p c) :
    vs.foldlM (fun c v => Curve.InsertKnot c v) c = c.InsertKnotList vs := by
  induction vs generalizing c with
  | nil => rfl
  | cons v vs ih =>
    obtain ⟨h0, h1⟩ := hv v (by simp)
    obtain ⟨k, hk, _⟩ := exists_span hw.clamped h0.le h1.le
    rw [List.foldlM_cons, insertKnot_ok hw hk h0 h1 hp, bind_ok, ih (fun v hv' => hv v (by simp [hv'])) (insCurve_wf hw hk h0 h1)]
    conv_rhs => unfold Curve.InsertKnotList
    simp only [foldMList]
    rw [insertListStep_ok hw hk h0 h1, bind_ok]
    rfl

end Nurbs
