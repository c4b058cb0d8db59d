import Verif.Proof.Local

/-! # The list form of knot insertion at the ends of the parameter range -/

set_option linter.unusedSectionVars false

namespace Nurbs
open Nurbs.Spec

/-! ### an empty span -/

section generic
variable {K : Type} [Zero K] [One K] [Add K] [Sub K] [Mul K] [Div K] [Neg K] [NatCast K] [IntCast K] [LinearOrder K]

theorem forUp_succ {σ : Type} (lo : Int) (n : ℕ) (f : Int → σ → M σ) (s : σ) :
    forUp lo (n + 1) f s = f lo s >>= fun s' => forUp (lo + 1) n f s' := rfl

/-- In a span of length zero the first step of the recurrence divides by zero. -/
theorem evaluateAt_empty {p k : ℕ} {l : List K} {x : K} (hp : 1 ≤ p) (hl : k + 1 < l.length)
    (hz : (kn l (k + 1) - x) + (x - kn l k) = 0) :
    BSplineBasis.EvaluateAt p l k x = .error .nonfinite := by
  unfold BSplineBasis.EvaluateAt
  obtain ⟨q, rfl⟩ : ∃ q, p = q + 1 := ⟨p - 1, by omega⟩
  rw [vnew_of _ (q + 2) _ (by push_cast; ring), replicate_eq_tab, bind_ok, vset_tab _ _ 0 0 _ rfl (by omega), bind_ok,
    forLe_eq_forUp _ _ (q + 1) (by omega), forUp_succ]
  unfold BSplineBasis.evalOuter
  simp only
  rw [vget_kn l _ k (by omega) (by omega), bind_ok, vset_tab _ _ 1 1 _ rfl (by omega), bind_ok,
    vget_kn l _ (k + 1) (by push_cast; ring) (by omega), bind_ok, vset_tab _ _ 1 1 _ rfl (by omega), bind_ok,
    forLt_eq_forUp _ _ (0 + 1) (by omega), forUp_succ]
  unfold BSplineBasis.evalInner
  simp only
  rw [vget_tab _ _ 0 0 rfl (by omega), bind_ok, vget_tab _ _ (0 + 1) 1 rfl (by omega), bind_ok, vget_tab _ _ (1 - 0) 1 rfl (by omega), bind_ok]
  have : fdiv (Function.update (fun _ => (0 : K)) 0 1 0)
      (Function.update (fun _ => (0 : K)) 1 (kn l (k + 1) - x) 1 + Function.update (fun _ => (0 : K)) 1 (x - kn l k) 1) = .error .nonfinite := by
    simp only [Function.update_self, fdiv, hz, if_true]
  rw [this]
  rfl

theorem evaluate_empty {p k : ℕ} {c : Curve K} {x : K} (hd : c.Degree = p) (hp : 1 ≤ p) (h0 : 0 ≤ x) (h1 : x ≤ 1)
    (hk : c.Knots.FindSpanIndex p x = .ok (k : Int)) (hl : k + 1 < c.Knots.Values.length)
    (hz : (kn c.Knots.Values (k + 1) - x) + (x - kn c.Knots.Values k) = 0) : c.Evaluate x = .error .nonfinite := by
  unfold Curve.Evaluate
  rw [massert_true ⟨h0, h1⟩, bind_ok, hd, hk, bind_ok, evaluateAt_empty hp hl hz]
  rfl

theorem insertKnotTimes_of (c : Curve K) (v : K) (n : ℕ) : c.InsertKnotTimes v n = c.InsertKnotList (List.replicate n v) := by
  unfold Curve.InsertKnotTimes
  rw [vnew_of _ n _ rfl, bind_ok]

end generic

section exact
variable {K : Type} [Field K] [LinearOrder K] [IsStrictOrderedRing K]

/-! ### the knots -/

theorem kn_app_left (l r : List K) {i : ℕ} (h : i < l.length) : kn (l ++ r) i = kn l i := by
  rw [kn_eq_getElem _ i (by simp; omega), kn_eq_getElem _ i h, List.getElem_append_left h]

theorem kn_append_self (l : List K) (v : K) : kn (l ++ [v]) l.length = v := by
  rw [kn_eq_getElem _ _ (by simp)]; simp

theorem kn_cons_up (l : List K) (v : K) (i : ℕ) : kn (v :: l) (i + 1) = kn l i := rfl

theorem kn_cons_zero (l : List K) (v : K) : kn (v :: l) 0 = v := rfl

theorem kn_ext {l l' : List K} (hl : l.length = l'.length) (h : ∀ i < l.length, kn l i = kn l' i) : l = l' := by
  apply List.ext_getElem hl
  intro i h1 h2
  rw [← kn_eq_getElem _ i h1, ← kn_eq_getElem _ i h2, h i h1]

theorem insL_ones {p : ℕ} {l : List K} (hc : Clamped p l) : insL l (l.length - p - 2) 1 = l ++ [1] := by
  have hl := hc.len
  apply kn_ext (by rw [insL_length]; simp)
  intro i hi
  rw [insL_length] at hi
  rw [kn_insL' l _ 1 (by omega)]
  unfold insU
  rcases Nat.lt_or_ge i l.length with h | h
  · rw [kn_app_left _ _ h]
    split_ifs with h1 h2
    · rfl
    · exact (hc.ones i h (by omega)).symm
    · rw [hc.ones i h (by omega), hc.ones (i - 1) (by omega) (by omega)]
  · obtain rfl : i = l.length := by omega
    rw [kn_append_self]
    split_ifs with h1 h2
    · omega
    · rfl
    · exact hc.ones _ (by omega) (by omega)

theorem insL_zeros {p : ℕ} {l : List K} (hc : Clamped p l) : insL l p 0 = 0 :: l := by
  have hl := hc.len
  apply kn_ext (by rw [insL_length]; simp)
  intro i hi
  rw [insL_length] at hi
  rw [kn_insL' l _ 0 (by omega)]
  unfold insU
  rcases i with _ | i
  · rw [kn_cons_zero]
    split_ifs with h1 h2
    · exact hc.zeros 0 (by omega)
    · rfl
    · omega
  · rw [kn_cons_up]
    split_ifs with h1 h2
    · rw [hc.zeros _ h1, hc.zeros i (by omega)]
    · rw [hc.zeros i (by omega)]
    · rfl

/-! ### the points -/

theorem insH_one {U : ℕ → K} {p : ℕ} {P : ℕ → Vec4 K} {i : ℕ} {v : K} (h : U (i + p) = v) (hne : U i ≠ v) :
    insH U p v P i = ToHomo (P i) := by
  unfold insH
  rw [h, div_self (sub_ne_zero.mpr (Ne.symm hne))]
  ext <;> simp

theorem insH_zero {U : ℕ → K} {p : ℕ} {P : ℕ → Vec4 K} {i : ℕ} {v : K} (h : U i = v) :
    insH U p v P i = ToHomo (P (i - 1)) := by
  unfold insH
  rw [h]
  ext <;> simp

theorem Spec.WFCurve.pt_ne {p : ℕ} {c : Curve K} (hw : WFCurve p c) {i : ℕ} (hi : i < c.ControlPoints.length) :
    (pt c.ControlPoints i).w ≠ 0 := (hw.weights i hi).ne'

theorem list_ext_pt {a b : List (Vec4 K)} (hl : a.length = b.length) (h : ∀ i < a.length, pt a i = pt b i) : a = b := by
  apply List.ext_getElem hl
  intro i h1 h2
  have := h i h1
  simpa [pt, h1, h2] using this

/-- Inserting 1 in list form repeats the last knot and the last control point. -/
theorem insert_one {p : ℕ} {c : Curve K} (hw : WFCurve p c) :
    c.InsertKnotList [1] = .ok ⟨p, ⟨c.Knots.Values ++ [1]⟩, c.ControlPoints ++ [pt c.ControlPoints (c.ControlPoints.length - 1)]⟩ := by
  have hc := hw.clamped
  have hl := hc.len
  have hn := hw.count
  obtain ⟨k, hk, hs, hpk, hlk⟩ := findSpanIndex_spec (kv := c.Knots) hc (zero_le_one) (le_refl (1 : K))
  have hke : k = c.Knots.Values.length - p - 2 :=
    isSpan_unique hc.sorted hs ⟨by omega, hc.le_one (by omega), .inr ⟨rfl, hc.last, hc.ones _ (by omega) (by omega)⟩⟩ (fun i hi => hc.le_one hi)
  have hU : ∀ i, k < i + p → i ≤ k → kn c.Knots.Values (i + p) = 1 ∧ kn c.Knots.Values i ≠ 1 := fun i h1 h2 =>
    ⟨hc.ones _ (by omega) (by omega), (lt_of_le_of_lt (kn_mono hc.sorted (show i ≤ c.Knots.Values.length - p - 2 by omega) (by omega)) hc.last).ne⟩
  have := insertListStep_gen (c := c) (v := 1) hw.degree hk hpk hlk (by omega) (fun i h1 h2 => by
    obtain ⟨e1, e2⟩ := hU i h1 h2
    rw [insH_one e1 e2, e1]
    exact ⟨sub_ne_zero.mpr (Ne.symm e2), by simpa using hw.pt_ne (by omega)⟩)
  show (Curve.insertListStep 1 c >>= fun s' => foldMList Curve.insertListStep [] s') = _
  rw [this, bind_ok]
  show Except.ok _ = _
  unfold insCurveC
  rw [hke, insL_ones hc, ← hke]
  congr 2
  apply list_ext_pt (by simp)
  intro i hi
  simp only [tab_length] at hi
  rw [pt_tab _ _ _ hi]
  rcases Nat.lt_or_ge i c.ControlPoints.length with h | h
  · have : pt (c.ControlPoints ++ [pt c.ControlPoints (c.ControlPoints.length - 1)]) i = pt c.ControlPoints i := by
      simp [pt, List.getElem?_append_left h]
    rw [this]
    split_ifs with h1 h2
    · rfl
    · obtain ⟨e1, e2⟩ := hU i (by omega) h2
      rw [insH_one e1 e2, unhomo_toHomo (hw.pt_ne h)]
    · omega
  · obtain rfl : i = c.ControlPoints.length := by omega
    rw [if_neg (by omega), if_neg (by omega)]
    simp [pt]

/-- Inserting 0 in list form repeats the first knot and the first control point. -/
theorem insert_zero {p : ℕ} {c : Curve K} (hw : WFCurve p c) :
    c.InsertKnotList [0] = .ok ⟨p, ⟨0 :: c.Knots.Values⟩, pt c.ControlPoints 0 :: c.ControlPoints⟩ := by
  have hc := hw.clamped
  have hl := hc.len
  have hn := hw.count
  obtain ⟨k, hk, hs, hpk, hlk⟩ := findSpanIndex_spec (kv := c.Knots) hc (le_refl (0 : K)) zero_le_one
  have hke : k = p :=
    isSpan_unique hc.sorted hs ⟨by omega, (hc.zeros p le_rfl).le, .inl hc.first⟩ (fun i hi => hc.le_one hi)
  subst hke
  have hU : ∀ i, k < i + k → i ≤ k → kn c.Knots.Values i = 0 ∧ kn c.Knots.Values (i + k) ≠ 0 := fun i h1 h2 =>
    ⟨hc.zeros _ h2, (lt_of_lt_of_le hc.first (kn_mono hc.sorted (by omega) (by omega))).ne'⟩
  have := insertListStep_gen (c := c) (v := 0) hw.degree hk hpk hlk (by omega) (fun i h1 h2 => by
    obtain ⟨e1, e2⟩ := hU i h1 h2
    rw [insH_zero e1, e1]
    exact ⟨by simpa using e2, by simpa using hw.pt_ne (by omega)⟩)
  show (Curve.insertListStep 0 c >>= fun s' => foldMList Curve.insertListStep [] s') = _
  rw [this, bind_ok]
  show Except.ok _ = _
  unfold insCurveC
  rw [insL_zeros hc]
  congr 2
  apply list_ext_pt (by simp)
  intro i hi
  simp only [tab_length] at hi
  rw [pt_tab _ _ _ hi]
  rcases i with _ | i
  · rw [if_pos (by omega)]; rfl
  · show _ = pt c.ControlPoints i
    rw [if_neg (by omega)]
    split_ifs with h2
    · obtain ⟨e1, e2⟩ := hU (i + 1) (by omega) h2
      rw [insH_zero e1]
      exact unhomo_toHomo (hw.pt_ne (by omega))
    · rfl

/-! ### evaluation afterwards -/

theorem denOK_exact {p k : ℕ} {l : List K} {x : K} (hc : Clamped p l) (hs : IsSpan l x k) (hlk : k + p + 2 ≤ l.length) :
    DenOK l k x p := by
  intro j h1 hj r hr
  unfold denG
  have a : kn l (k + 1) ≤ kn l (k + (r + 1)) := kn_mono hc.sorted (by omega) (by omega)
  have b : kn l (k + 1 - (j - r)) ≤ kn l k := kn_mono hc.sorted (by omega) (by omega)
  have := IsSpan.lt hs
  intro h
  linarith

theorem findSpanIndex_mid {p k : ℕ} {l : List K} {x : K} (hs : l.Pairwise (· ≤ ·)) (h0 : 0 ≤ x) (h1 : x < 1) (hl : 2 * p + 2 ≤ l.length)
    (hf : kn l 0 = 0) (hb : kn l (l.length - 1) = 1) (hk : IsSpan l x k) (hx : x = 0 → k = p) :
    KnotVector.FindSpanIndex ⟨l⟩ p x = .ok (k : Int) := by
  unfold KnotVector.FindSpanIndex
  simp only
  rw [massert_true ⟨h0, h1.le⟩]
  simp only [bind_ok]
  rw [massert_true (by omega), bind_ok, massert_true (by omega), bind_ok,
    vget_kn l ((l.length : Int) - 1) (l.length - 1) (by omega) (by omega), bind_ok,
    vget_kn l 0 0 (by simp) (by omega), hb, hf, if_neg h1.ne]
  simp only [pure_ok, bind_ok]
  by_cases h : x = 0
  · rw [if_pos h, hx h]
  · rw [if_neg h, upperBound_eq_span hs hk h1]
    congr 1
    push_cast
    ring

theorem evaluate_spanG {p k : ℕ} {c : Curve K} (hw : WFCurve p c) {x : K} (h0 : 0 ≤ x) (h1 : x ≤ 1) (hs : IsSpan c.Knots.Values x k) :
    p ≤ k ∧ k + p + 2 ≤ c.Knots.Values.length ∧ DenOK c.Knots.Values k x p ∧ c.Evaluate x = projectM (homG p k c x 0) := by
  obtain ⟨k', hk', hs', hpk, hlk⟩ := findSpanIndex_spec (kv := c.Knots) hw.clamped h0 h1
  obtain rfl := isSpan_unique hw.clamped.sorted hs hs' (fun i hi => hw.clamped.le_one hi)
  have hd := denOK_exact hw.clamped hs hlk
  exact ⟨hpk, hlk, hd, curve_evaluate_any hw.degree hw.count h0 h1 hk' hpk hlk hd⟩

theorem sameKnots_den {p k k' : ℕ} {l l' : List K} {x : K} (h : SameKnots p l k l' k') (hd : DenOK l k x p) : DenOK l' k' x p :=
  fun j h1 hj r hr => by rw [← denG_local h hj hr]; exact hd j h1 hj r hr

/-- After inserting 1 every parameter but 1 gives the same point, and 1 gives no point. -/
theorem evaluate_after_one {p : ℕ} {c : Curve K} (hp : 1 ≤ p) (hw : WFCurve p c) :
    let c' : Curve K := ⟨p, ⟨c.Knots.Values ++ [1]⟩, c.ControlPoints ++ [pt c.ControlPoints (c.ControlPoints.length - 1)]⟩
    c'.Evaluate 1 = .error .nonfinite ∧ ∀ x, 0 ≤ x → x < 1 → c'.Evaluate x = c.Evaluate x := by
  have hc := hw.clamped
  have hl := hc.len
  have hn := hw.count
  have hs' : (c.Knots.Values ++ [1]).Pairwise (· ≤ ·) := by
    rw [List.pairwise_append]
    refine ⟨hc.sorted, by simp, fun a ha b hb => ?_⟩
    obtain ⟨i, hi, rfl⟩ := List.getElem_of_mem ha
    rw [List.mem_singleton.mp hb, ← kn_eq_getElem _ i hi]
    exact hc.le_one hi
  have hlast : kn (c.Knots.Values ++ [1]) (c.Knots.Values ++ [1]).length.pred = 1 := by
    simp only [List.length_append, List.length_singleton, Nat.pred_eq_sub_one, Nat.add_sub_cancel]
    exact kn_append_self _ _
  intro c'
  constructor
  · have hk : c'.Knots.FindSpanIndex p 1 = .ok ((c.ControlPoints.length : ℕ) : Int) := by
      unfold KnotVector.FindSpanIndex
      simp only
      rw [massert_true ⟨zero_le_one, le_refl (1 : K)⟩]
      simp only [bind_ok]
      have hl' : c'.Knots.Values.length = c.Knots.Values.length + 1 := by simp [c']
      rw [massert_true (by omega), bind_ok, massert_true (by omega), bind_ok,
        vget_kn _ _ c.Knots.Values.length (by omega) (by omega), bind_ok]
      rw [show kn c'.Knots.Values c.Knots.Values.length = 1 from kn_append_self _ _, if_pos rfl]
      simp only [pure_ok]
      congr 1
      omega
    have e1 : kn c'.Knots.Values (c.ControlPoints.length + 1) = 1 := by
      show kn (c.Knots.Values ++ [1]) _ = 1
      rw [kn_app_left _ _ (by omega)]
      exact hc.ones _ (by omega) (by omega)
    have e0 : kn c'.Knots.Values c.ControlPoints.length = 1 := by
      show kn (c.Knots.Values ++ [1]) _ = 1
      rw [kn_app_left _ _ (by omega)]
      exact hc.ones _ (by omega) (by omega)
    refine evaluate_empty (p := p) rfl hp zero_le_one le_rfl hk (by simp [c']; omega) ?_
    rw [e1, e0]; ring
  · intro x h0 h1
    obtain ⟨k, hk, hs, _, _⟩ := findSpanIndex_spec (kv := c.Knots) hc h0 h1.le
    obtain ⟨hpk, hlk, hd, he⟩ := evaluate_spanG hw h0 h1.le hs
    have hsame : SameSpan p c k c' k := by
      refine ⟨⟨fun i _ hi => (kn_app_left _ _ (by omega)).symm, fun i hi => (kn_app_left _ _ (by omega)).symm⟩, fun i hi => ?_⟩
      show _ = pt (c.ControlPoints ++ _) _
      simp [pt, List.getElem?_append_left (show k - p + i < c.ControlPoints.length by omega)]
    have hsp : IsSpan (c.Knots.Values ++ [1]) x k := by
      obtain ⟨a, b, d⟩ := hs
      refine ⟨by simp; omega, ?_, ?_⟩
      · rw [kn_app_left _ _ (by omega)]; exact b
      · rw [kn_app_left _ _ (by omega), kn_app_left _ _ (by omega)]; exact d
    have hx : x = 0 → k = p := by
      rintro rfl
      exact isSpan_unique hc.sorted hs ⟨by omega, (hc.zeros p le_rfl).le, .inl hc.first⟩ (fun i hi => hc.le_one hi)
    have hk' : c'.Knots.FindSpanIndex p x = .ok (k : Int) := by
      refine findSpanIndex_mid (l := c.Knots.Values ++ [1]) hs' h0 h1 (by simp; omega) ?_ hlast hsp hx
      rw [kn_app_left _ _ (by omega)]; exact hc.zeros 0 (by omega)
    rw [he, homG_local hsame, curve_evaluate_any (c := c') rfl (by simp [c']; omega) h0 h1.le hk' hpk (by simp [c']; omega) (sameKnots_den hsame.knots hd)]

/-- After inserting 0 every parameter but 0 gives the same point, and 0 gives no point. -/
theorem evaluate_after_zero {p : ℕ} {c : Curve K} (hp : 1 ≤ p) (hw : WFCurve p c) :
    let c' : Curve K := ⟨p, ⟨0 :: c.Knots.Values⟩, pt c.ControlPoints 0 :: c.ControlPoints⟩
    c'.Evaluate 0 = .error .nonfinite ∧ ∀ x, 0 < x → x ≤ 1 → c'.Evaluate x = c.Evaluate x := by
  have hc := hw.clamped
  have hl := hc.len
  have hn := hw.count
  have hs' : (0 :: c.Knots.Values).Pairwise (· ≤ ·) := by
    refine List.pairwise_cons.mpr ⟨fun a ha => ?_, hc.sorted⟩
    obtain ⟨i, hi, rfl⟩ := List.getElem_of_mem ha
    rw [← kn_eq_getElem _ i hi]
    exact hc.nonneg hi
  have hlen : (0 :: c.Knots.Values).length = c.Knots.Values.length + 1 := rfl
  have hlast : kn (0 :: c.Knots.Values) ((0 :: c.Knots.Values).length - 1) = 1 := by
    rw [hlen, show c.Knots.Values.length + 1 - 1 = (c.Knots.Values.length - 1) + 1 by omega, kn_cons_up]
    exact hc.ones _ (by omega) (by omega)
  intro c'
  have hl' : c'.Knots.Values.length = c.Knots.Values.length + 1 := rfl
  constructor
  · have hk : c'.Knots.FindSpanIndex p 0 = .ok (p : Int) := by
      unfold KnotVector.FindSpanIndex
      simp only
      rw [massert_true ⟨le_refl (0 : K), zero_le_one⟩]
      simp only [bind_ok]
      rw [massert_true (by omega), bind_ok, massert_true (by omega), bind_ok,
        vget_kn _ _ ((0 :: c.Knots.Values).length - 1) (by omega) (by omega), bind_ok]
      rw [show kn c'.Knots.Values ((0 :: c.Knots.Values).length - 1) = 1 from hlast, if_neg zero_ne_one]
      rw [vget_kn _ 0 0 (by simp) (by omega)]
      simp only [pure_ok, bind_ok]
      rw [if_pos (kn_cons_zero c.Knots.Values (0 : K)).symm]
    refine evaluate_empty (p := p) rfl hp le_rfl zero_le_one hk (by omega) ?_
    obtain ⟨q, rfl⟩ : ∃ q, p = q + 1 := ⟨p - 1, by omega⟩
    rw [show kn c'.Knots.Values (q + 1 + 1) = kn c.Knots.Values (q + 1) from rfl, show kn c'.Knots.Values (q + 1) = kn c.Knots.Values q from rfl,
      hc.zeros _ le_rfl, hc.zeros _ (by omega)]
    ring
  · intro x h0 h1
    obtain ⟨k, hk, hs, _, _⟩ := findSpanIndex_spec (kv := c.Knots) hc h0.le h1
    obtain ⟨hpk, hlk, hd, he⟩ := evaluate_spanG hw h0.le h1 hs
    have hsame : SameSpan p c k c' (k + 1) := by
      refine ⟨⟨fun i _ hi => ?_, fun i hi => ?_⟩, fun i hi => ?_⟩
      · rw [show k + 1 + i = (k + i) + 1 by omega]; rfl
      · rw [show k + 1 - i = (k - i) + 1 by omega]; rfl
      · rw [show k + 1 - p + i = (k - p + i) + 1 by omega]; rfl
    have hsp : IsSpan (0 :: c.Knots.Values) x (k + 1) := by
      obtain ⟨a, b, d⟩ := hs
      exact ⟨by simp; omega, b, d⟩
    have hk' : c'.Knots.FindSpanIndex p x = .ok ((k + 1 : ℕ) : Int) := by
      rcases h1.lt_or_eq with h1 | rfl
      · exact findSpanIndex_mid (l := 0 :: c.Knots.Values) hs' h0.le h1 (by simp; omega) rfl hlast hsp (fun h => absurd h h0.ne')
      · have hke : k = c.Knots.Values.length - p - 2 :=
          isSpan_unique hc.sorted hs ⟨by omega, hc.le_one (by omega), .inr ⟨rfl, hc.last, hc.ones _ (by omega) (by omega)⟩⟩ (fun i hi => hc.le_one hi)
        unfold KnotVector.FindSpanIndex
        simp only
        rw [massert_true ⟨zero_le_one, le_refl (1 : K)⟩]
        simp only [bind_ok]
        rw [massert_true (by omega), bind_ok, massert_true (by omega), bind_ok,
          vget_kn _ _ ((0 :: c.Knots.Values).length - 1) (by omega) (by omega), bind_ok]
        rw [show kn c'.Knots.Values ((0 :: c.Knots.Values).length - 1) = 1 from hlast, if_pos rfl]
        simp only [pure_ok]
        congr 1
        omega
    rw [he, homG_local hsame, curve_evaluate_any (c := c') rfl (by rw [hl']; simp [c']; omega) h0.le h1 hk' (by omega) (by omega) (sameKnots_den hsame.knots hd)]

end exact
end Nurbs
