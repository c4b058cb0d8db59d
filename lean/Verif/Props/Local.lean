import Verif.Proof.Local
import Verif.Props.Rounded

/-! # C97: what happens elsewhere does not change a bit -/

set_option linter.unusedSectionVars false

namespace Nurbs.Props
open Nurbs Nurbs.Spec

variable {K : Type} [Field K] [LinearOrder K] [IsStrictOrderedRing K] {R : Rounding K}

/-- C97.  With rounding, the point and the derivatives at `x` depend, bit for bit, on nothing but the `p` knots on either side
of the span of `x` and its `p + 1` control points: two curves that agree there give the same results, whatever the rest. -/
theorem C97_evaluate {p : ℕ} {c c' : Curve (Fl R)} (hw : WFCurve p (exactCurve c)) (hw' : WFCurve p (exactCurve c')) {x : Fl R}
    (h0 : 0 ≤ x) (h1 : x ≤ 1) {k k' : ℕ} (hk : IsSpan c.Knots.Values x k) (hk' : IsSpan c'.Knots.Values x k') (h : SameSpan p c k c' k') :
    c.Evaluate x = c'.Evaluate x ∧ ∀ order : ℕ, order ≤ 29 → c.EvaluateAll x order = c'.EvaluateAll x order :=
  curve_local hw hw' h0 h1 hk hk' h

/-- C97 for surfaces. -/
theorem C97_surface {p q m n m' n' : ℕ} {s s' : Surface (Fl R)} (hw : WFSurface p q m n (exactSurface s))
    (hw' : WFSurface p q m' n' (exactSurface s')) {u v : Fl R} (hu0 : 0 ≤ u) (hu1 : u ≤ 1) (hv0 : 0 ≤ v) (hv1 : v ≤ 1) {ku kv ku' kv' : ℕ}
    (hku : IsSpan s.KnotsU.Values u ku) (hkv : IsSpan s.KnotsV.Values v kv) (hku' : IsSpan s'.KnotsU.Values u ku')
    (hkv' : IsSpan s'.KnotsV.Values v kv') (h : SamePatch p q s ku kv s' ku' kv') :
    s.Evaluate u v = s'.Evaluate u v ∧ ∀ ou ov : ℕ, ou ≤ 29 → ov ≤ 29 → ou.choose (ou / 2) * ov.choose (ov / 2) ≤ 2147483647 →
      s.EvaluateAll u v ou ov = s'.EvaluateAll u v ou ov :=
  surface_local hw hw' hu0 hu1 hv0 hv1 hku hkv hku' hkv' h

/-- C97, moving a control point: replacing control point `i` by any point with a positive weight changes no bit of the points and
derivatives at parameters whose span is not one of the spans `i, …, i + p`. -/
theorem C97_move_point {p : ℕ} {c : Curve (Fl R)} (hw : WFCurve p (exactCurve c)) {i : ℕ} {P : Vec4 (Fl R)} (hP : 0 < P.w) {x : Fl R}
    (h0 : 0 ≤ x) (h1 : x ≤ 1) {k : ℕ} (hk : IsSpan c.Knots.Values x k) (hi : k < i ∨ i + p < k) :
    let c' : Curve (Fl R) := { c with ControlPoints := c.ControlPoints.set i P }
    c'.Evaluate x = c.Evaluate x ∧ ∀ order : ℕ, order ≤ 29 → c'.EvaluateAll x order = c.EvaluateAll x order := by
  intro c'
  have hother : ∀ j, j ≠ i → pt c'.ControlPoints j = pt c.ControlPoints j := by
    intro j hj
    unfold pt
    rw [List.getD_eq_getElem?_getD, List.getD_eq_getElem?_getD, List.getElem?_set_ne (Ne.symm hj)]
  have hlen : (exactCurve c').ControlPoints.length = (exactCurve c).ControlPoints.length := by simp [exactCurve, c']
  have hw' : WFCurve p (exactCurve c') := by
    refine ⟨hw.degree, hw.clamped, by rw [hlen]; exact hw.count, fun j hj => ?_⟩
    rw [hlen] at hj
    change 0 < (pt (c'.ControlPoints.map exactPoint) j).w
    rw [← exactPoint_pt]
    by_cases e : j = i
    · subst e
      have hjl : j < c.ControlPoints.length := by simpa [exactCurve] using hj
      have : pt c'.ControlPoints j = P := by
        unfold pt
        rw [List.getD_eq_getElem?_getD, List.getElem?_set_self hjl]
        rfl
      rw [this]
      rw [Fl.lt_def, Fl.val_zero] at hP
      exact hP
    · rw [hother j e, exactPoint_pt]
      exact hw.weights j hj
  obtain ⟨_, hpk, _⟩ := span_at (clamped_exact.mp hw.clamped) h0 h1 hk
  exact curve_local hw' hw h0 h1 hk hk ⟨⟨fun _ _ _ => rfl, fun _ _ => rfl⟩, fun j hj => hother _ (by omega)⟩

/-- Where a parameter's span lies if the parameter is before or behind the spans that an insertion touches. -/
theorem span_outside {p : ℕ} {l : List (Fl R)} (hc : Clamped p l) {k : ℕ} (hpk : p ≤ k) (hlk : k + p + 2 ≤ l.length) {x : Fl R} {t : ℕ}
    (ht : IsSpan l x t) (hx : x < kn l (k - p + 1) ∨ kn l (k + p) ≤ x ∧ kn l (k + p) < 1) : t + p ≤ k ∨ k + p ≤ t := by
  have htl := ht.1
  rcases hx with hx | ⟨hx, hx1⟩
  · left
    by_contra h
    have := kn_mono hc.sorted (show k - p + 1 ≤ t by omega) (by omega)
    exact absurd (lt_of_lt_of_le hx (le_trans this ht.2.1)) (lt_irrefl _)
  · right
    by_contra h
    have := kn_mono hc.sorted (show t + 1 ≤ k + p by omega) (by omega)
    rcases ht.2.2 with h2 | ⟨_, _, h2⟩
    · exact absurd (lt_of_lt_of_le h2 (le_trans this hx)) (lt_irrefl _)
    · rw [h2] at this
      exact absurd (lt_of_lt_of_le hx1 this) (lt_irrefl _)

/-- C97, inserting a knot: with rounding, `Curve::InsertKnot(v)` with `v` in the span `k` copies the control points `0, …, k - p`
and those from `k` on, and changes no bit of the points and derivatives at the parameters before `U[k-p+1]` and from `U[k+p]` on. -/
theorem C97_insert {p : ℕ} (hp : 1 ≤ p) {c : Curve (Fl R)} (hw : WFCurve p (exactCurve c)) {v : Fl R} (h0 : 0 < v) (h1 : v < 1)
    {k : ℕ} (hk : IsSpan c.Knots.Values v k) :
    ∃ c', c.InsertKnot v = .ok c' ∧ (∀ i, i + p ≤ k → c'.ControlPoints[i]? = c.ControlPoints[i]?) ∧
      (∀ i, k ≤ i → c'.ControlPoints[i + 1]? = c.ControlPoints[i]?) ∧
      ∀ x : Fl R, 0 ≤ x → x ≤ 1 →
        (x < kn c.Knots.Values (k - p + 1) ∨ kn c.Knots.Values (k + p) ≤ x ∧ kn c.Knots.Values (k + p) < 1) →
        c'.Evaluate x = c.Evaluate x ∧ ∀ order : ℕ, order ≤ 29 → c'.EvaluateAll x order = c.EvaluateAll x order := by
  rw [Fl.lt_def, Fl.val_zero] at h0
  rw [Fl.lt_def, Fl.val_one] at h1
  have hke := isSpan_exact.mpr hk
  obtain ⟨hpk, hlk, hkn⟩ := insC_bounds hw hke h0 h1
  have hwi := insC_wf hw hke h0 h1
  have hc := clamped_exact.mp hw.clamped
  have hn : c.Knots.Values.length = c.ControlPoints.length + p + 1 := by
    have := hw.count
    simpa [exactCurve, exactList] using this
  have hpt : ∀ i < c.ControlPoints.length, c.ControlPoints[i]? = some (pt c.ControlPoints i) := by
    intro i hi
    simp [pt, List.getD_eq_getElem?_getD, hi]
  refine ⟨insCurveC p k v c, insertKnot_rounded hw hke h0 h1 hp, fun i hi => ?_, fun i hi => ?_, fun x hx0 hx1 hx => ?_⟩
  · unfold insCurveC
    simp only
    rw [tab_getElem? _ _ _ (by omega), if_pos hi, hpt i (by omega)]
  · unfold insCurveC
    simp only
    by_cases hil : i < c.ControlPoints.length
    · rw [tab_getElem? _ _ _ (by omega), if_neg (by omega), if_neg (by omega), hpt i hil]
      rfl
    · rw [List.getElem?_eq_none (by simp; omega), List.getElem?_eq_none (by omega)]
  · obtain ⟨t, _, ht, hpt, hlt, _⟩ := span_rounded hc hx0 hx1
    rcases span_outside hc hpk hlk ht hx with h | h
    · obtain ⟨a, b⟩ := insL_before (v := v) (by omega) ht h hp
      obtain ⟨e, f⟩ := curve_local hw hwi hx0 hx1 ht a ⟨b, fun i hi => by
        unfold insCurveC
        simp only
        rw [pt_tab _ _ _ (by omega), if_pos (by omega)]⟩
      exact ⟨e.symm, fun o ho => (f o ho).symm⟩
    · obtain ⟨a, b⟩ := insL_behind (v := v) (by omega) ht h hp
      obtain ⟨e, f⟩ := curve_local hw hwi hx0 hx1 ht a ⟨b, fun i hi => by
        unfold insCurveC
        simp only
        rw [pt_tab _ _ _ (by omega), if_neg (by omega), if_neg (by omega), show t + 1 - p + i - 1 = t - p + i by omega]⟩
      exact ⟨e.symm, fun o ho => (f o ho).symm⟩

/-- C97 for `Surface::InsertKnotU`. -/
theorem C97_insertU {p q m n : ℕ} (hp : 1 ≤ p) {s : Surface (Fl R)} (hw : WFSurface p q m n (exactSurface s)) {w : Fl R} (h0 : 0 < w)
    (h1 : w < 1) {k : ℕ} (hk : IsSpan s.KnotsU.Values w k) :
    ∃ s', s.InsertKnotU w = .ok s' ∧ ∀ u v : Fl R, 0 ≤ u → u ≤ 1 → 0 ≤ v → v ≤ 1 →
        (u < kn s.KnotsU.Values (k - p + 1) ∨ kn s.KnotsU.Values (k + p) ≤ u ∧ kn s.KnotsU.Values (k + p) < 1) →
        s'.Evaluate u v = s.Evaluate u v ∧ ∀ ou ov : ℕ, ou ≤ 29 → ov ≤ 29 → ou.choose (ou / 2) * ov.choose (ov / 2) ≤ 2147483647 →
          s'.EvaluateAll u v ou ov = s.EvaluateAll u v ou ov := by
  rw [Fl.lt_def, Fl.val_zero] at h0
  rw [Fl.lt_def, Fl.val_one] at h1
  have hke := isSpan_exact.mpr hk
  obtain ⟨hpk, hlk, hkn⟩ := insUC_bounds hw hke h0 h1
  have hwi := insUC_wf hw hke h0 h1
  have hc := clamped_exact.mp hw.clampedU
  have hcv := clamped_exact.mp hw.clampedV
  have hlu : s.KnotsU.Values.length = m + p + 1 := by
    have := hw.knotsU
    rwa [show (exactSurface s).KnotsU.Values.length = s.KnotsU.Values.length from exactList_length _] at this
  have hlv : s.KnotsV.Values.length = n + q + 1 := by
    have := hw.knotsV
    rwa [show (exactSurface s).KnotsV.Values.length = s.KnotsV.Values.length from exactList_length _] at this
  have hcp : ∀ i < m + 1, ∀ j < n, cp (insSurfUC p m n k w s) i j = insPtC (kn s.KnotsU.Values) k w p (fun i => cp s i j) i :=
    fun i hi j hj => cp_gridOf (f := fun i j => insPtC (kn s.KnotsU.Values) k w p (fun i => cp s i j) i) rfl hi hj
  refine ⟨insSurfUC p m n k w s, insertKnotU_rounded hw hke h0 h1 hp, fun u v hu0 hu1 hv0 hv1 hx => ?_⟩
  obtain ⟨t, _, ht, hpt, hlt, _⟩ := span_rounded hc hu0 hu1
  obtain ⟨tv, _, htv, hptv, hltv, _⟩ := span_rounded hcv hv0 hv1
  rcases span_outside hc hpk hlk ht hx with h | h
  · obtain ⟨a, b⟩ := insL_before (v := w) (by omega) ht h hp
    obtain ⟨e, f⟩ := surface_local hw hwi hu0 hu1 hv0 hv1 ht htv a htv ⟨b, ⟨fun _ _ _ => rfl, fun _ _ => rfl⟩, fun i hi j hj => by
      rw [hcp _ (by omega) _ (by omega), insPtC, if_pos (by omega)]⟩
    exact ⟨e.symm, fun ou ov h1 h2 h3 => (f ou ov h1 h2 h3).symm⟩
  · obtain ⟨a, b⟩ := insL_behind (v := w) (by omega) ht h hp
    obtain ⟨e, f⟩ := surface_local hw hwi hu0 hu1 hv0 hv1 ht htv a htv ⟨b, ⟨fun _ _ _ => rfl, fun _ _ => rfl⟩, fun i hi j hj => by
      rw [hcp _ (by omega) _ (by omega), insPtC, if_neg (by omega), if_neg (by omega), show t + 1 - p + i - 1 = t - p + i by omega]⟩
    exact ⟨e.symm, fun ou ov h1 h2 h3 => (f ou ov h1 h2 h3).symm⟩

/-- C97 for `Surface::InsertKnotV`. -/
theorem C97_insertV {p q m n : ℕ} (hq : 1 ≤ q) {s : Surface (Fl R)} (hw : WFSurface p q m n (exactSurface s)) {w : Fl R} (h0 : 0 < w)
    (h1 : w < 1) {k : ℕ} (hk : IsSpan s.KnotsV.Values w k) :
    ∃ s', s.InsertKnotV w = .ok s' ∧ ∀ u v : Fl R, 0 ≤ u → u ≤ 1 → 0 ≤ v → v ≤ 1 →
        (v < kn s.KnotsV.Values (k - q + 1) ∨ kn s.KnotsV.Values (k + q) ≤ v ∧ kn s.KnotsV.Values (k + q) < 1) →
        s'.Evaluate u v = s.Evaluate u v ∧ ∀ ou ov : ℕ, ou ≤ 29 → ov ≤ 29 → ou.choose (ou / 2) * ov.choose (ov / 2) ≤ 2147483647 →
          s'.EvaluateAll u v ou ov = s.EvaluateAll u v ou ov := by
  rw [Fl.lt_def, Fl.val_zero] at h0
  rw [Fl.lt_def, Fl.val_one] at h1
  have hke := isSpan_exact.mpr hk
  obtain ⟨hpk, hlk, hkn⟩ := insVC_bounds hw hke h0 h1
  have hwi := insVC_wf hw hke h0 h1
  have hc := clamped_exact.mp hw.clampedV
  have hcu := clamped_exact.mp hw.clampedU
  have hlu : s.KnotsU.Values.length = m + p + 1 := by
    have := hw.knotsU
    rwa [show (exactSurface s).KnotsU.Values.length = s.KnotsU.Values.length from exactList_length _] at this
  have hlv : s.KnotsV.Values.length = n + q + 1 := by
    have := hw.knotsV
    rwa [show (exactSurface s).KnotsV.Values.length = s.KnotsV.Values.length from exactList_length _] at this
  have hcp : ∀ i < m, ∀ j < n + 1, cp (insSurfVC q m n k w s) i j = insPtC (kn s.KnotsV.Values) k w q (fun j => cp s i j) j :=
    fun i hi j hj => cp_gridOf (f := fun i j => insPtC (kn s.KnotsV.Values) k w q (fun j => cp s i j) j) rfl hi hj
  refine ⟨insSurfVC q m n k w s, insertKnotV_rounded hw hke h0 h1 hq, fun u v hu0 hu1 hv0 hv1 hx => ?_⟩
  obtain ⟨t, _, ht, hpt, hlt, _⟩ := span_rounded hc hv0 hv1
  obtain ⟨tu, _, htu, hptu, hltu, _⟩ := span_rounded hcu hu0 hu1
  rcases span_outside hc hpk hlk ht hx with h | h
  · obtain ⟨a, b⟩ := insL_before (v := w) (by omega) ht h hq
    obtain ⟨e, f⟩ := surface_local hw hwi hu0 hu1 hv0 hv1 htu ht htu a ⟨⟨fun _ _ _ => rfl, fun _ _ => rfl⟩, b, fun i hi j hj => by
      rw [hcp _ (by omega) _ (by omega), insPtC, if_pos (by omega)]⟩
    exact ⟨e.symm, fun ou ov h1 h2 h3 => (f ou ov h1 h2 h3).symm⟩
  · obtain ⟨a, b⟩ := insL_behind (v := w) (by omega) ht h hq
    obtain ⟨e, f⟩ := surface_local hw hwi hu0 hu1 hv0 hv1 htu ht htu a ⟨⟨fun _ _ _ => rfl, fun _ _ => rfl⟩, b, fun i hi j hj => by
      rw [hcp _ (by omega) _ (by omega), insPtC, if_neg (by omega), if_neg (by omega), show t + 1 - q + j - 1 = t - q + j by omega]⟩
    exact ⟨e.symm, fun ou ov h1 h2 h3 => (f ou ov h1 h2 h3).symm⟩

/-- A rational quadratic with six spans. -/
def snake : Curve (Fl binary53) :=
  ⟨2, ⟨[0, 0, 0, dbl (1/10), dbl (3/10), dbl (1/2), dbl (7/10), dbl (9/10), 1, 1, 1]⟩,
    [⟨1, 0, 0, dbl (1/10)⟩, ⟨2, 1, 0, dbl (7/10)⟩, ⟨dbl (33/10), dbl (-1/10), 1, 1⟩, ⟨4, 0, 2, dbl (3/10)⟩,
      ⟨5, dbl (1/3), 1, 1⟩, ⟨6, 1, 1, dbl (4/5)⟩, ⟨7, dbl (2/3), 0, 1⟩, ⟨8, 0, 0, dbl (6/5)⟩]⟩
theorem snake_wf : WFCurve 2 (exactCurve snake) :=
  ⟨by decide +kernel, ⟨by decide +kernel, by decide +kernel, by decide +kernel, by decide +kernel, by decide +kernel, by decide +kernel⟩,
    by decide +kernel, by decide +kernel⟩
example : IsSpan snake.Knots.Values (dbl (2/5)) 4 := by unfold IsSpan; decide +kernel
/-- The hypotheses on the parameter hold before 1/10 and from 7/10 on; between them the bits do change. -/
example : dbl (1/11) < kn snake.Knots.Values (4 - 2 + 1) ∧ kn snake.Knots.Values (4 + 2) ≤ dbl (5/7) ∧ kn snake.Knots.Values (4 + 2) < 1 := by
  decide +kernel
example : ((snake.InsertKnot (dbl (2/5))).bind fun c => c.Evaluate (dbl (5/7))).map exactVec = (snake.Evaluate (dbl (5/7))).map exactVec ∧
    ((snake.InsertKnot (dbl (2/5))).bind fun c => c.Evaluate (dbl (3/7))).map exactVec ≠ (snake.Evaluate (dbl (3/7))).map exactVec := by
  decide +kernel
/-- Moving control point 5 leaves the spans up to 4 alone, but not span 5. -/
example : let c' : Curve (Fl binary53) := { snake with ControlPoints := snake.ControlPoints.set 5 ⟨0, 0, 9, 2⟩ }
    (c'.Evaluate (dbl (3/7))).map exactVec = (snake.Evaluate (dbl (3/7))).map exactVec ∧
      (c'.Evaluate (dbl (4/7))).map exactVec ≠ (snake.Evaluate (dbl (4/7))).map exactVec := by decide +kernel

/-- A surface whose u direction has five spans. -/
def strip : Surface (Fl binary53) :=
  ⟨1, 1, ⟨[0, 0, dbl (1/5), dbl (2/5), dbl (3/5), dbl (4/5), 1, 1]⟩, ⟨[0, 0, 1, 1]⟩,
    ⟨6, 2, [⟨0, 0, 0, dbl (1/10)⟩, ⟨1, 0, 0, 1⟩, ⟨2, 1, 0, dbl (1/3)⟩, ⟨3, 1, 3, 1⟩, ⟨4, 0, 1, 1⟩, ⟨5, 0, 0, dbl (2/3)⟩,
      ⟨0, 2, 0, 1⟩, ⟨1, 3, 0, dbl (3/7)⟩, ⟨2, 2, 0, 1⟩, ⟨3, 2, dbl (1/7), 1⟩, ⟨4, 3, 1, 2⟩, ⟨5, 2, 2, 1⟩]⟩⟩
theorem strip_wf : WFSurface 1 1 6 2 (exactSurface strip) :=
  ⟨by decide +kernel, by decide +kernel,
    ⟨by decide +kernel, by decide +kernel, by decide +kernel, by decide +kernel, by decide +kernel, by decide +kernel⟩,
    ⟨by decide +kernel, by decide +kernel, by decide +kernel, by decide +kernel, by decide +kernel, by decide +kernel⟩,
    by decide +kernel, by decide +kernel, by decide +kernel, by decide +kernel, by decide +kernel, by decide +kernel⟩
example : IsSpan strip.KnotsU.Values (dbl (1/2)) 3 := by unfold IsSpan; decide +kernel
example : ((strip.InsertKnotU (dbl (1/2))).bind fun s => s.Evaluate (dbl (5/7)) (dbl (1/3))).map exactVec =
      (strip.Evaluate (dbl (5/7)) (dbl (1/3))).map exactVec ∧
    ((strip.InsertKnotU (dbl (1/2))).bind fun s => s.Evaluate (dbl (43/100)) (dbl (1/3))).map exactVec ≠
      (strip.Evaluate (dbl (43/100)) (dbl (1/3))).map exactVec := by decide +kernel

end Nurbs.Props
