import Verif.Spec.Local
import Verif.Proof.AnyDeriv
import Verif.Proof.RoundedDeriv
import Verif.Proof.RoundedSurfaceInsert

/-! # Evaluation looks at nothing but its span -/

set_option linter.unusedSectionVars false

namespace Nurbs
open Nurbs.Spec

section generic
variable {K : Type} [Zero K] [One K] [Add K] [Sub K] [Mul K] [Div K] [Neg K] [NatCast K] [IntCast K] [LinearOrder K]
variable {p : ℕ} {l l' : List K} {k k' : ℕ} {x : K}

theorem Spec.SameKnots.left' (h : SameKnots p l k l' k') {d : ℕ} (h1 : 1 ≤ d) (h2 : d ≤ p) : kn l (k + 1 - d) = kn l' (k' + 1 - d) := by
  have := h.left (d - 1) (by omega)
  rwa [show k - (d - 1) = k + 1 - d by omega, show k' - (d - 1) = k' + 1 - d by omega] at this

theorem denG_local (h : SameKnots p l k l' k') {j r : ℕ} (hj : j ≤ p) (hr : r < j) : denG l k x j r = denG l' k' x j r := by
  unfold denG
  rw [h.right (r + 1) (by omega) (by omega), h.left' (d := j - r) (by omega) (by omega)]

theorem savG_local (h : SameKnots p l k l' k') {prev prev' : ℕ → K} (hp : ∀ r, prev r = prev' r) {j r : ℕ} (hj : j ≤ p) (hr : r ≤ j) :
    savG l k x prev j r = savG l' k' x prev' j r := by
  cases r with
  | zero => rfl
  | succ n =>
    show (x - kn l (k + 1 - (j - n))) * (prev n / denG l k x j n) = (x - kn l' (k' + 1 - (j - n))) * (prev' n / denG l' k' x j n)
    rw [h.left' (d := j - n) (by omega) (by omega), hp, denG_local h hj (by omega)]

theorem lvG_local (h : SameKnots p l k l' k') {j : ℕ} (hj : j ≤ p) (r : ℕ) : lvG l k x j r = lvG l' k' x j r := by
  induction j generalizing r with
  | zero => rfl
  | succ j ih =>
    have ih' : ∀ r, lvG l k x j r = lvG l' k' x j r := fun r => ih (by omega) r
    unfold lvG nextG
    by_cases h1 : r < j + 1
    · rw [if_pos h1, if_pos h1, savG_local h ih' hj (by omega), h.right (r + 1) (by omega) (by omega), ih', denG_local h hj h1]
    · rw [if_neg h1, if_neg h1]
      by_cases h2 : r = j + 1
      · rw [if_pos h2, if_pos h2, savG_local h ih' hj (le_refl _)]
      · rw [if_neg h2, if_neg h2]

theorem cdG_local (h : SameKnots p l k l' k') {r m t : ℕ} (hm1 : 1 ≤ m) (hm : m ≤ p) (hr : r + t ≤ p) : cdG l k p x r m t = cdG l' k' p x r m t := by
  unfold cdG
  exact denG_local h (by omega) (by omega)

theorem cvG_local (h : SameKnots p l k l' k') (r m t : ℕ) : cvG l k p x r m t = cvG l' k' p x r m t := lvG_local h (by omega) _

theorem acG_local (h : SameKnots p l k l' k') {r m : ℕ} (hm : m ≤ p) {j : ℕ} (hj : r + j ≤ p) (hjm : j ≤ m) :
    acG l k p x r m j = acG l' k' p x r m j := by
  induction m generalizing j with
  | zero => rfl
  | succ m ih =>
    unfold acG
    by_cases h0 : j = 0
    · subst h0
      rw [if_pos rfl, if_pos rfl, ih (by omega) hj (by omega), cdG_local h (by omega) hm (by omega)]
    · rw [if_neg h0, if_neg h0]
      by_cases h1 : j = m + 1
      · subst h1
        rw [if_pos rfl, if_pos rfl, ih (by omega) (by omega) (le_refl _), cdG_local h (by omega) hm (by omega)]
      · rw [if_neg h1, if_neg h1, ih (by omega) hj (by omega), ih (j := j - 1) (by omega) (by omega) (by omega),
          cdG_local h (by omega) hm (by omega)]

theorem midG_local (h : SameKnots p l k l' k') {r m : ℕ} (hr : r ≤ p) (hm : m ≤ p) {n : ℕ}
    (hn : n ≤ min m (p + 1 - r) - max 1 (m - r)) : midG l k p x r m n = midG l' k' p x r m n := by
  induction n with
  | zero =>
    unfold midG
    rw [acG_local h hm (by omega) (by omega), cvG_local h]
  | succ n ih =>
    unfold midG
    rw [ih (by omega), acG_local h hm (by omega) (by omega), cvG_local h]

theorem derG_local (h : SameKnots p l k l' k') {r m : ℕ} (hr : r ≤ p) : derG l k p x r m = derG l' k' p x r m := by
  unfold derG
  by_cases hm : m ≤ p
  · rw [if_pos hm, if_pos hm, midG_local h hr hm (le_refl _)]
    by_cases h2 : r + m ≤ p
    · rw [if_pos h2, if_pos h2, acG_local h hm h2 (le_refl _), cvG_local h]
    · rw [if_neg h2, if_neg h2]
  · rw [if_neg hm, if_neg hm]

theorem basisG_local (h : SameKnots p l k l' k') {r m : ℕ} (hr : r ≤ p) : basisG l k p x m r = basisG l' k' p x m r := by
  unfold basisG
  by_cases hm : m = 0
  · rw [if_pos hm, if_pos hm, lvG_local h (le_refl _)]
  · rw [if_neg hm, if_neg hm, derG_local h hr]

theorem accG_congr2 {f g : ℕ → K} {P Q : ℕ → Vec4 K} {n : ℕ} (h : ∀ i < n, f i = g i) (h2 : ∀ i < n, P i = Q i) : accG f P n = accG g Q n := by
  induction n with
  | zero => rfl
  | succ n ih =>
    unfold accG
    rw [ih (fun i hi => h i (by omega)) (fun i hi => h2 i (by omega)), h n (by omega), h2 n (by omega)]

theorem homG_local {c c' : Curve K} (h : SameSpan p c k c' k') : homG p k c x = homG p k' c' x := by
  funext m
  unfold homG
  exact accG_congr2 (fun i hi => basisG_local h.knots (by omega)) (fun i hi => by rw [h.points i (by omega)])

theorem homG2_local {q ku kv ku' kv' : ℕ} {s s' : Surface K} {u v : K} (h : SamePatch p q s ku kv s' ku' kv') :
    homG2 p q ku kv s u v = homG2 p q ku' kv' s' u v := by
  funext a b
  unfold homG2
  exact accG_congr2 (fun j hj => basisG_local h.knotsV (by omega)) (fun j hj =>
    accG_congr2 (fun i hi => basisG_local h.knotsU (by omega)) (fun i hi => by rw [h.points i (by omega) j (by omega)]))

end generic

variable {K : Type} [Field K] [LinearOrder K] [IsStrictOrderedRing K] {R : Rounding K}

/-- The span the code finds is the span of `x`. -/
theorem span_at {p : ℕ} {l : List (Fl R)} (hc : Clamped p l) {x : Fl R} (h0 : 0 ≤ x) (h1 : x ≤ 1) {k : ℕ} (hk : IsSpan l x k) :
    KnotVector.FindSpanIndex ⟨l⟩ p x = .ok (k : Int) ∧ p ≤ k ∧ k + p + 2 ≤ l.length ∧ DenOK l k x p := by
  obtain ⟨j, hj, hs, hpj, hlj, hd, _⟩ := span_rounded hc h0 h1
  obtain rfl := isSpan_unique hc.sorted hs hk (fun i hi => hc.le_one hi)
  exact ⟨hj, hpj, hlj, hd⟩

theorem curve_local {p : ℕ} {c c' : Curve (Fl R)} (hw : WFCurve p (exactCurve c)) (hw' : WFCurve p (exactCurve c')) {x : Fl R}
    (h0 : 0 ≤ x) (h1 : x ≤ 1) {k k' : ℕ} (hk : IsSpan c.Knots.Values x k) (hk' : IsSpan c'.Knots.Values x k') (h : SameSpan p c k c' k') :
    c.Evaluate x = c'.Evaluate x ∧ ∀ order : ℕ, order ≤ 29 → c.EvaluateAll x order = c'.EvaluateAll x order := by
  have aux : ∀ {c : Curve (Fl R)}, WFCurve p (exactCurve c) → ∀ {k : ℕ}, IsSpan c.Knots.Values x k →
      (homG p k c x 0).w ≠ 0 ∧ c.Evaluate x = projectM (homG p k c x 0) ∧
        ∀ order : ℕ, order ≤ 29 → c.EvaluateAll x order = .ok (tab (order + 1) (ratG (homG p k c x))) := by
    intro c hw k hk
    obtain ⟨e, _, he, _⟩ := evaluate_close hw h0 h1
    have hd : c.Degree = p := hw.degree
    have hn : c.Knots.Values.length = c.ControlPoints.length + p + 1 := by
      have := hw.count
      simpa [exactCurve, exactList] using this
    obtain ⟨hf, hpk, hlk, hden⟩ := span_at (clamped_exact.mp hw.clamped) h0 h1 hk
    have hev := curve_evaluate_any hd hn h0 h1 hf hpk hlk hden
    have hev' := hev
    rw [he] at hev'
    obtain ⟨hwne, _⟩ := projectM_inv hev'.symm
    exact ⟨hwne, hev, fun order ho => curve_evaluateAll_any hd hn h0 h1 hf hpk hlk hden hwne order ho⟩
  obtain ⟨_, e1, e2⟩ := aux hw hk
  obtain ⟨_, f1, f2⟩ := aux hw' hk'
  have hH := homG_local (x := x) h
  exact ⟨by rw [e1, f1, hH], fun o ho => by rw [e2 o ho, f2 o ho, hH]⟩

theorem surface_local {p q m n m' n' : ℕ} {s s' : Surface (Fl R)} (hw : WFSurface p q m n (exactSurface s))
    (hw' : WFSurface p q m' n' (exactSurface s')) {u v : Fl R} (hu0 : 0 ≤ u) (hu1 : u ≤ 1) (hv0 : 0 ≤ v) (hv1 : v ≤ 1) {ku kv ku' kv' : ℕ}
    (hku : IsSpan s.KnotsU.Values u ku) (hkv : IsSpan s.KnotsV.Values v kv) (hku' : IsSpan s'.KnotsU.Values u ku')
    (hkv' : IsSpan s'.KnotsV.Values v kv') (h : SamePatch p q s ku kv s' ku' kv') :
    s.Evaluate u v = s'.Evaluate u v ∧ ∀ ou ov : ℕ, ou ≤ 29 → ov ≤ 29 → ou.choose (ou / 2) * ov.choose (ov / 2) ≤ 2147483647 →
      s.EvaluateAll u v ou ov = s'.EvaluateAll u v ou ov := by
  have aux : ∀ {m n : ℕ} {s : Surface (Fl R)}, WFSurface p q m n (exactSurface s) → ∀ {ku kv : ℕ}, IsSpan s.KnotsU.Values u ku →
      IsSpan s.KnotsV.Values v kv → s.Evaluate u v = projectM (homG2 p q ku kv s u v 0 0) ∧
        ∀ ou ov : ℕ, ou ≤ 29 → ov ≤ 29 → ou.choose (ou / 2) * ov.choose (ov / 2) ≤ 2147483647 →
          s.EvaluateAll u v ou ov = .ok (gridOf (ou + 1) (ov + 1) (ratG2 (homG2 p q ku kv s u v))) := by
    intro m n s hw ku kv hku hkv
    obtain ⟨e, _, _, he, _⟩ := surface_close hw hu0 hu1 hv0 hv1
    obtain ⟨hfu, hpku, hlku, hdenu⟩ := span_at (clamped_exact.mp hw.clampedU) hu0 hu1 hku
    obtain ⟨hfv, hpkv, hlkv, hdenv⟩ := span_at (clamped_exact.mp hw.clampedV) hv0 hv1 hkv
    have hlu : s.KnotsU.Values.length = m + p + 1 := by
      have := hw.knotsU
      rwa [show (exactSurface s).KnotsU.Values.length = s.KnotsU.Values.length from exactList_length _] at this
    have hlv : s.KnotsV.Values.length = n + q + 1 := by
      have := hw.knotsV
      rwa [show (exactSurface s).KnotsV.Values.length = s.KnotsV.Values.length from exactList_length _] at this
    have hst : s.ControlPoints.Values.length = n * m := by
      have := hw.storage
      simpa [exactSurface] using this
    have hs : SurfAny p q m n ku kv s u v :=
      ⟨hw.degreeU, hw.degreeV, grid_eq hw.uCount hw.vCount hst, hu0, hu1, hv0, hv1, hfu, hfv, hpku, hpkv, by omega, by omega, hlu, hlv, hdenu, hdenv⟩
    have hev := surface_evaluate_any hs
    have hev' := hev
    rw [he] at hev'
    obtain ⟨hwne, _⟩ := projectM_inv hev'.symm
    exact ⟨hev, fun ou ov hou hov hprod => surface_evaluateAll_any hs hwne ou ov hou hov hprod⟩
  obtain ⟨e1, e2⟩ := aux hw hku hkv
  obtain ⟨f1, f2⟩ := aux hw' hku' hkv'
  have hH := homG2_local (u := u) (v := v) h
  exact ⟨by rw [e1, f1, hH], fun a b ha hb hab => by rw [e2 a b ha hb hab, f2 a b ha hb hab, hH]⟩

/-! ### knot insertion far away -/

/-- Before the `p` spans that end with the one of the new knot, nothing around a span changes; behind them it moves up by one. -/
theorem insL_length' {A : Type} (l : List A) (k : ℕ) (v : A) : (insL l k v).length = l.length + 1 := by
  simp only [insL, List.length_append, List.length_take, List.length_drop, List.length_singleton]; omega

theorem kn_insL_before (l : List (Fl R)) {k : ℕ} (v : Fl R) (hk : k < l.length) {j : ℕ} (hj : j ≤ k) : kn (insL l k v) j = kn l j := by
  unfold kn insL
  simp only [List.getD_eq_getElem?_getD]
  rw [List.append_assoc, List.getElem?_append_left (by simp; omega), List.getElem?_take, if_pos (by omega)]

theorem kn_insL_behind (l : List (Fl R)) {k : ℕ} (v : Fl R) (hk : k < l.length) {j : ℕ} (hj : k < j) : kn (insL l k v) (j + 1) = kn l j := by
  unfold kn insL
  simp only [List.getD_eq_getElem?_getD]
  rw [List.getElem?_append_right (by simp; omega), List.getElem?_drop]
  simp only [List.length_append, List.length_take, List.length_singleton]
  rw [show k + 1 + (j + 1 - (min (k + 1) l.length + 1)) = j by omega]

theorem insL_before {l : List (Fl R)} {p k t : ℕ} {v x : Fl R} (hk : k + 1 < l.length) (ht : IsSpan l x t) (htk : t + p ≤ k) (hp : 1 ≤ p) :
    IsSpan (insL l k v) x t ∧ SameKnots p l t (insL l k v) t := by
  have e : ∀ j ≤ k, kn (insL l k v) j = kn l j := fun j hj => kn_insL_before l v (by omega) hj
  refine ⟨⟨by rw [insL_length']; omega, ?_, ?_⟩, ⟨fun i _ hi => (e _ (by omega)).symm, fun i hi => (e _ (by omega)).symm⟩⟩
  · rw [e t (by omega)]; exact ht.2.1
  · rw [e t (by omega), e (t + 1) (by omega)]; exact ht.2.2

theorem insL_behind {l : List (Fl R)} {p k t : ℕ} {v x : Fl R} (hk : k + 1 < l.length) (ht : IsSpan l x t) (htk : k + p ≤ t) (hp : 1 ≤ p) :
    IsSpan (insL l k v) x (t + 1) ∧ SameKnots p l t (insL l k v) (t + 1) := by
  have e : ∀ j, k < j → kn (insL l k v) (j + 1) = kn l j := fun j hj => kn_insL_behind l v (by omega) hj
  refine ⟨⟨by rw [insL_length']; have := ht.1; omega, ?_, ?_⟩, ⟨fun i _ hi => ?_, fun i hi => ?_⟩⟩
  · rw [e t (by omega)]; exact ht.2.1
  · rw [e t (by omega), e (t + 1) (by omega)]; exact ht.2.2
  · rw [show t + 1 + i = t + i + 1 by omega, e _ (by omega)]
  · rw [show t + 1 - i = t - i + 1 by omega, e _ (by omega)]

end Nurbs
