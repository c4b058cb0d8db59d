import Verif.Proof.RoundedInsert
import Verif.Props.Rounded

/-! # C74: knot insertion with numbers that round -/

set_option linter.unusedSectionVars false

namespace Nurbs.Props
open Nurbs Nurbs.Spec

variable {K : Type} [Field K] [LinearOrder K] [IsStrictOrderedRing K] {R : Rounding K}

/-- C74.  With rounding, `Curve::InsertKnot(value)` never divides by zero on a well-formed curve of degree at least one
and a value in `(0,1)`: it returns a well-formed curve whose knots are the old ones and the new one, and the curve moves
by at most `4 ((1-u)^-11 - 1) (hi/lo) B`, where the weights lie in `[lo, hi]` and the coordinates in `[-B, B]`. -/
theorem C74_insertKnot_rounding {p : ℕ} (hp : 1 ≤ p) {c : Curve (Fl R)} (hw : WFCurve p (exactCurve c)) {v : Fl R}
    (h0 : 0 < v) (h1 : v < 1) :
    ∃ c', c.InsertKnot v = .ok c' ∧ WFCurve p (exactCurve c') ∧ c'.Knots.Values.Perm (v :: c.Knots.Values) ∧
      ∀ lo hi B : K, 0 < lo → CurveBounds (exactCurve c) lo hi B →
        CurvesWithin p (exactCurve c) (exactCurve c') (4 * errFactor R 11 * (hi / lo) * B) := by
  rw [Fl.lt_def, Fl.val_zero] at h0
  rw [Fl.lt_def, Fl.val_one] at h1
  obtain ⟨k, hk, _⟩ := exists_span hw.clamped h0.le h1.le
  exact ⟨insCurveC p k v c, insertKnot_rounded hw hk h0 h1 hp, insC_wf hw hk h0 h1, insL_perm _ _ _,
    fun lo hi B hlo hb => insC_within hw hk h0 h1 hlo hb⟩

/-- C74 for a list of knots, any degree: `m` insertions move the curve by at most `4 ((1-u)^(-14m) - 1) (hi/lo) B`. -/
theorem C74_insertKnotList_rounding {p : ℕ} (vs : List (Fl R)) (hv : ∀ v ∈ vs, 0 < v ∧ v < 1) {c : Curve (Fl R)}
    (hw : WFCurve p (exactCurve c)) {lo hi B : K} (hlo : 0 < lo) (hb : CurveBounds (exactCurve c) lo hi B) :
    ∃ c', c.InsertKnotList vs = .ok c' ∧ WFCurve p (exactCurve c') ∧ c'.Knots.Values.Perm (vs ++ c.Knots.Values) ∧
      CurvesWithin p (exactCurve c) (exactCurve c') (4 * errFactor R (14 * vs.length) * (hi / lo) * B) :=
  insertList_rounded vs (fun v h => by
    have := hv v h
    rwa [Fl.lt_def, Fl.lt_def, Fl.val_zero, Fl.val_one] at this) hw hlo hb

/-- C74 for `InsertKnot(value, times)`. -/
theorem C74_insertKnotTimes_rounding {p : ℕ} {v : Fl R} (h0 : 0 < v) (h1 : v < 1) (times : ℕ) {c : Curve (Fl R)}
    (hw : WFCurve p (exactCurve c)) {lo hi B : K} (hlo : 0 < lo) (hb : CurveBounds (exactCurve c) lo hi B) :
    ∃ c', c.InsertKnotTimes v times = .ok c' ∧ WFCurve p (exactCurve c') ∧
      c'.Knots.Values.Perm (List.replicate times v ++ c.Knots.Values) ∧
      CurvesWithin p (exactCurve c) (exactCurve c') (4 * errFactor R (14 * times) * (hi / lo) * B) := by
  have := C74_insertKnotList_rounding (List.replicate times v) (fun w hw => by
    rw [List.eq_of_mem_replicate hw]; exact ⟨h0, h1⟩) hw hlo hb
  rw [List.length_replicate] at this
  unfold Curve.InsertKnotTimes
  rw [vnew_of _ times _ rfl, bind_ok]
  exact this

/-- C74 for `double` and equal weights: one inserted knot moves the curve by less than `4.9e-15` times the largest
coordinate. -/
theorem C74_double {p : ℕ} (hp : 1 ≤ p) {c : Curve (Fl binary53)} (hw : WFCurve p (exactCurve c)) {v : Fl binary53}
    (h0 : 0 < v) (h1 : v < 1) {w B : ℚ} (hlo : 0 < w) (hb : CurveBounds (exactCurve c) w w B) :
    ∃ c', c.InsertKnot v = .ok c' ∧ CurvesWithin p (exactCurve c) (exactCurve c') (49 / 10 ^ 16 * B) := by
  obtain ⟨c', e, _, _, h⟩ := C74_insertKnot_rounding hp hw h0 h1
  refine ⟨c', e, fun x hx0 hx1 => ?_⟩
  have hl : 0 < (exactCurve c).ControlPoints.length := by
    have := hw.count
    have := hw.clamped.len
    omega
  have hB : 0 ≤ B := le_trans (abs_nonneg _) (hb 0 hl).2.2.1
  have hf : errFactor binary53 11 ≤ 1225 / 10 ^ 18 := by
    refine le_trans (errFactor_le binary53 _ ?_) ?_ <;> · simp only [binary53]; norm_num
  have hle : 4 * errFactor binary53 11 * (w / w) * B ≤ 49 / 10 ^ 16 * B := by
    rw [div_self hlo.ne', mul_one]
    refine mul_le_mul_of_nonneg_right ?_ hB
    linarith
  obtain ⟨a, b, d⟩ := h w w B hlo hb x hx0 hx1
  exact ⟨a.trans hle, b.trans hle, d.trans hle⟩

example : CurveBounds (exactCurve wavy) (1/11) 1 4 := by unfold CurveBounds; decide +kernel
/-- The insertion really rounds: the new points are not those of exact arithmetic. -/
example : (wavy.InsertKnot (dbl (2/5))).map exactCurve ≠ (exactCurve wavy).InsertKnot (dbl (2/5)).val := by decide +kernel
example : ((wavy.InsertKnot (dbl (2/5))).map fun c => c.ControlPoints.length) = .ok 5 := by decide +kernel

end Nurbs.Props
