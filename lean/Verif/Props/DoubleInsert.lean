import Verif.Proof.DoubleInsert
import Verif.Props.Double

/-! # C109: knot insertion in `double` with its finite range -/

set_option exponentiation.threshold 2000

namespace Nurbs.Props
open Nurbs Nurbs.Spec

/-- C109 for `InsertKnot(value)`: with weights between `wl ≥ 2 ^ -100` and `wh ≤ 2 ^ 100` and coordinates up to `B ≤ 2 ^ 400` the new curve is
well-formed and all its numbers are finite, it moves by at most `4 ((1-u)^(-13) - 1) (wh/wl) B + 2 ^ -872`, and the control points that do
not take part are copied.  Any degree; the knots may be as close together as `double` allows.
Not proved: weights and coordinates near the limits of `double`, for which it is false (`C109_underflow_refuted`, `C109_overflow_refuted`). -/
theorem C109_insertKnot_partial {p : ℕ} (hp : 1 ≤ p) {c : Curve Double} (hfin : FinCurve c) (hw : WFCurve p (exactCurve64 c))
    {wl wh B : ℚ} (hb : CurveBounds (exactCurve64 c) wl wh B) (hl : 1 / 2 ^ 100 ≤ wl) (hh : wh ≤ 2 ^ 100) (hB : B ≤ 2 ^ 400)
    {v : Double} (hv : IsFin v) (h0 : 0 < v.val) (h1 : v.val < 1) :
    ∃ c' k, c.InsertKnot v = .ok c' ∧ FinCurve c' ∧ WFCurve p (exactCurve64 c') ∧ c'.Knots.Values.Perm (v :: c.Knots.Values) ∧
      CurvesWithin p (exactCurve64 c) (exactCurve64 c') (4 * errFactor binary53 13 * (wh / wl) * B + 1 / 2 ^ 872) ∧
      IsSpan (exactCurve64 c).Knots.Values v.val k ∧ (∀ i, i + p ≤ k → pt c'.ControlPoints i = pt c.ControlPoints i) ∧
      ∀ i, k ≤ i → i < c.ControlPoints.length → pt c'.ControlPoints (i + 1) = pt c.ControlPoints i := by
  obtain ⟨ev, gv, _⟩ := isFin_eq hv
  obtain ⟨k, hk, _⟩ := exists_span hw.clamped h0.le h1.le
  have D : InsData p k c v.val wl wh B := ⟨hfin, hw, hk, gv, h0, h1, hb, hl, hh, hB⟩
  obtain ⟨_, _, hkn⟩ := insD_bounds D
  refine ⟨insCurveC p k v c, k, ?_, ?_, ?_, insL_perm _ _ _, ?_, hk, ?_, ?_⟩
  · have := insertKnot_double D hp
    rwa [← ev] at this
  · have := insD_finite D (by rwa [← ev])
    rwa [← ev] at this
  · have := insD_wf D
    rwa [← ev] at this
  · have := insD_within D
    rwa [← ev] at this
  · intro i hi
    unfold insCurveC
    simp only
    rw [pt_tab _ _ _ (by omega), if_pos hi]
  · intro i hi hn
    unfold insCurveC
    simp only
    rw [pt_tab _ _ _ (by omega), if_neg (by omega), if_neg (by omega), Nat.add_sub_cancel]

/-- Up to `2 ^ 40` insertions change the bounds by less than a factor of 2. -/
theorem pow_list {n m : ℕ} (hn : n ≤ 2 ^ 40) (hm : m ≤ 20) : 1 / 2 ≤ q64 ^ (m * n) := by
  have h1 : 1 + ((m * n : ℕ) : ℚ) * (-u64) ≤ (1 + -u64) ^ (m * n) := one_add_mul_le_pow (by unfold u64; norm_num) (m * n)
  rw [show (1 + -u64) = q64 by rw [q64_def]; ring] at h1
  have h2 : ((m * n : ℕ) : ℚ) ≤ 20 * 2 ^ 40 := by exact_mod_cast Nat.mul_le_mul hm hn
  have h3 : ((m * n : ℕ) : ℚ) * u64 ≤ 1 / 2 := by
    calc ((m * n : ℕ) : ℚ) * u64 ≤ 20 * 2 ^ 40 * u64 := mul_le_mul_of_nonneg_right h2 u64_nonneg
      _ ≤ 1 / 2 := by unfold u64; norm_num
  linarith

/-- C109 for a list of up to `2 ^ 40` knots: `m` insertions move the curve by at most `4 ((1-u)^(-19m) - 1) (wh/wl) B`, where `B` is at
least `2 ^ -600`. -/
theorem C109_insertKnotList_partial {p : ℕ} (vs : List Double) (hv : ∀ v ∈ vs, IsFin v ∧ 0 < v.val ∧ v.val < 1) (hn : vs.length ≤ 2 ^ 40)
    {c : Curve Double} (hfin : FinCurve c) (hw : WFCurve p (exactCurve64 c)) {wl wh B : ℚ} (hb : CurveBounds (exactCurve64 c) wl wh B)
    (hl : 1 / 2 ^ 99 ≤ wl) (hh : wh ≤ 2 ^ 99) (hB0 : 1 / 2 ^ 600 ≤ B) (hB : B ≤ 2 ^ 399) :
    ∃ c', c.InsertKnotList vs = .ok c' ∧ FinCurve c' ∧ WFCurve p (exactCurve64 c') ∧ c'.Knots.Values.Perm (vs ++ c.Knots.Values) ∧
      CurvesWithin p (exactCurve64 c) (exactCurve64 c') (4 * errFactor binary53 (19 * vs.length) * (wh / wl) * B) := by
  have h4 := pow_list hn (show 4 ≤ 20 by norm_num)
  have h11 := pow_list hn (show 11 ≤ 20 by norm_num)
  have i4 : (q64 ^ (4 * vs.length))⁻¹ ≤ 2 := by rw [inv_le_comm₀ (pow_pos q64_pos _) (by norm_num)]; linarith
  have i11 : (q64 ^ (11 * vs.length))⁻¹ ≤ 2 := by rw [inv_le_comm₀ (pow_pos q64_pos _) (by norm_num)]; linarith
  refine insertList_double vs hv hfin hw hb ?_ ?_ hB0 ?_
  · calc (1 : ℚ) / 2 ^ 100 = 1 / 2 * (1 / 2 ^ 99) := by norm_num
      _ ≤ q64 ^ (4 * vs.length) * wl := mul_le_mul h4 hl (by positivity) (pow_pos q64_pos _).le
  · calc (q64 ^ (4 * vs.length))⁻¹ * wh ≤ (q64 ^ (4 * vs.length))⁻¹ * 2 ^ 99 :=
          mul_le_mul_of_nonneg_left hh (inv_nonneg.mpr (pow_pos q64_pos _).le)
      _ ≤ 2 * 2 ^ 99 := mul_le_mul_of_nonneg_right i4 (by positivity)
      _ = 2 ^ 100 := by norm_num
  · calc (q64 ^ (11 * vs.length))⁻¹ * B ≤ (q64 ^ (11 * vs.length))⁻¹ * 2 ^ 399 :=
          mul_le_mul_of_nonneg_left hB (inv_nonneg.mpr (pow_pos q64_pos _).le)
      _ ≤ 2 * 2 ^ 399 := mul_le_mul_of_nonneg_right i11 (by positivity)
      _ = 2 ^ 400 := by norm_num

/-- C109 for `InsertKnot(value, times)`. -/
theorem C109_insertKnotTimes_partial {p : ℕ} {v : Double} (hv : IsFin v) (h0 : 0 < v.val) (h1 : v.val < 1) {times : ℕ} (hn : times ≤ 2 ^ 40)
    {c : Curve Double} (hfin : FinCurve c) (hw : WFCurve p (exactCurve64 c)) {wl wh B : ℚ} (hb : CurveBounds (exactCurve64 c) wl wh B)
    (hl : 1 / 2 ^ 99 ≤ wl) (hh : wh ≤ 2 ^ 99) (hB0 : 1 / 2 ^ 600 ≤ B) (hB : B ≤ 2 ^ 399) :
    ∃ c', c.InsertKnotTimes v times = .ok c' ∧ FinCurve c' ∧ WFCurve p (exactCurve64 c') ∧
      c'.Knots.Values.Perm (List.replicate times v ++ c.Knots.Values) ∧
      CurvesWithin p (exactCurve64 c) (exactCurve64 c') (4 * errFactor binary53 (19 * times) * (wh / wl) * B) := by
  have := C109_insertKnotList_partial (List.replicate times v) (fun w hw' => by
    rw [List.eq_of_mem_replicate hw']; exact ⟨hv, h0, h1⟩) (by simpa using hn) hfin hw hb hl hh hB0 hB
  rw [List.length_replicate] at this
  unfold Curve.InsertKnotTimes
  rw [vnew_of _ times _ rfl, bind_ok]
  exact this

/-- A line whose weights are all equal, and as small as they can be. -/
def exFaint64 : Curve Double := ⟨1, ⟨[0, 0, 1, 1]⟩, [⟨0, 0, 0, tiny64⟩, ⟨1, 0, 0, tiny64⟩]⟩

/-- The middle of the parameter interval. -/
abbrev half64 : Double := Double.fin (1 / 2)

/-- C109 without the bounds on the weights is false: in a curve with equal weights the weight of the new point underflows to zero and the
division by it gives infinities or NaN. -/
theorem C109_underflow_refuted : FinCurve exFaint64 ∧ WFCurve 1 (exactCurve64 exFaint64) ∧ exFaint64.InsertKnot half64 = .error .nonfinite := by
  refine ⟨⟨?_, ?_⟩, ⟨rfl, ⟨by decide +kernel, by decide +kernel, by decide +kernel, by decide +kernel, by decide +kernel,
    by decide +kernel⟩, by decide +kernel, by decide +kernel⟩, by decide +kernel⟩
  · intro d hd
    simp only [exFaint64, List.mem_cons, List.not_mem_nil, or_false] at hd
    rcases hd with rfl | rfl | rfl | rfl <;> first | exact isFin_0 | exact isFin_1
  · intro P hP
    simp only [exFaint64, List.mem_cons, List.not_mem_nil, or_false] at hP
    have ht : IsFin tiny64 := isFin_of (by decide +kernel) (by decide +kernel)
    rcases hP with rfl | rfl <;> refine ⟨?_, ?_, ?_, ?_⟩ <;> first | exact isFin_0 | exact isFin_1 | exact ht

/-- A line far out with large weights. -/
def exFar : Curve Double :=
  ⟨1, ⟨[0, 0, 1, 1]⟩, [⟨Double.fin (2 ^ 1000), 0, 0, Double.fin (2 ^ 30)⟩, ⟨Double.fin (2 ^ 1000), 1, 0, Double.fin (2 ^ 30)⟩]⟩

/-- Likewise for the coordinates: the homogeneous coordinates overflow, and the curve gets a control point that is not finite. -/
theorem C109_overflow_refuted : FinCurve exFar ∧ WFCurve 1 (exactCurve64 exFar) ∧
    ∃ c', exFar.InsertKnot half64 = .ok c' ∧ ¬ FinCurve c' := by
  refine ⟨⟨?_, ?_⟩, ⟨rfl, ⟨by decide +kernel, by decide +kernel, by decide +kernel, by decide +kernel, by decide +kernel,
    by decide +kernel⟩, by decide +kernel, by decide +kernel⟩, ⟨1, ⟨[0, 0, half64, 1, 1]⟩, [⟨Double.fin (2 ^ 1000), 0, 0, Double.fin (2 ^ 30)⟩,
      ⟨Double.bad, half64, 0, Double.fin (2 ^ 30)⟩, ⟨Double.fin (2 ^ 1000), 1, 0, Double.fin (2 ^ 30)⟩]⟩, by decide +kernel, ?_⟩
  · intro d hd
    simp only [exFar, List.mem_cons, List.not_mem_nil, or_false] at hd
    rcases hd with rfl | rfl | rfl | rfl <;> first | exact isFin_0 | exact isFin_1
  · intro P hP
    simp only [exFar, List.mem_cons, List.not_mem_nil, or_false] at hP
    have h1 : IsFin (Double.fin (2 ^ 1000)) := isFin_of (by decide +kernel) (by decide +kernel)
    have h2 : IsFin (Double.fin (2 ^ 30)) := isFin_of (by decide +kernel) (by decide +kernel)
    rcases hP with rfl | rfl <;> refine ⟨?_, ?_, ?_, ?_⟩ <;> first | exact isFin_0 | exact isFin_1 | exact h1 | exact h2
  · intro h
    obtain ⟨a, h, _⟩ := (h.points ⟨Double.bad, half64, 0, Double.fin (2 ^ 30)⟩ (by simp)).1
    cases h

theorem exDouble_fin : FinCurve exDouble := by
  refine ⟨?_, ?_⟩
  · intro d hd
    simp only [exDouble, List.mem_cons, List.not_mem_nil, or_false] at hd
    rcases hd with rfl | rfl | rfl | rfl | rfl | rfl | rfl <;> first | exact isFin_0 | exact isFin_1 | exact isFin_third
  · intro P hP
    simp only [exDouble, List.mem_cons, List.not_mem_nil, or_false] at hP
    rcases hP with rfl | rfl | rfl | rfl <;> refine ⟨?_, ?_, ?_, ?_⟩ <;> first | exact isFin_0 | exact isFin_1 | exact isFin_tenth

theorem exDouble_wf : WFCurve 2 (exactCurve64 exDouble) :=
  ⟨rfl, ⟨by decide +kernel, by decide +kernel, by decide +kernel, by decide +kernel, by decide +kernel,
    by decide +kernel⟩, by decide +kernel, by decide +kernel⟩

/-- The hypotheses hold for the curve of C103 with weights from `1/16` to `1` and `B = 1`: one knot, … -/
example : ∃ c', exDouble.InsertKnot (Double.ofExact (1/10)) = .ok c' ∧ FinCurve c' := by
  obtain ⟨c', _, e, f, _⟩ := C109_insertKnot_partial (by norm_num) exDouble_fin exDouble_wf (wl := 1/16) (wh := 1) (B := 1)
    (show ∀ i < 4, _ by decide +kernel) (by norm_num) (by norm_num) (by norm_num) isFin_tenth (by decide +kernel) (by decide +kernel)
  exact ⟨c', e, f⟩

/-- … a list of knots, … -/
example : ∃ c', exDouble.InsertKnotList [Double.ofExact (1/10), Double.ofExact (1/3), Double.ofExact (1/10)] = .ok c' ∧ FinCurve c' := by
  obtain ⟨c', e, f, _⟩ := C109_insertKnotList_partial [Double.ofExact (1/10), Double.ofExact (1/3), Double.ofExact (1/10)] (by
      intro v hv
      simp only [List.mem_cons, List.not_mem_nil, or_false] at hv
      rcases hv with rfl | rfl | rfl
      · exact ⟨isFin_tenth, by decide +kernel, by decide +kernel⟩
      · exact ⟨isFin_third, by decide +kernel, by decide +kernel⟩
      · exact ⟨isFin_tenth, by decide +kernel, by decide +kernel⟩) (by norm_num) exDouble_fin exDouble_wf (wl := 1/16) (wh := 1) (B := 1)
    (show ∀ i < 4, _ by decide +kernel) (by norm_num) (by norm_num) (by norm_num) (by norm_num)
  exact ⟨c', e, f⟩

/-- … and a knot twice. -/
example : ∃ c', exDouble.InsertKnotTimes (Double.ofExact (1/10)) (2 : ℕ) = .ok c' ∧ FinCurve c' := by
  obtain ⟨c', e, f, _⟩ := C109_insertKnotTimes_partial isFin_tenth (by decide +kernel) (by decide +kernel) (times := 2) (by norm_num)
    exDouble_fin exDouble_wf (wl := 1/16) (wh := 1) (B := 1)
    (show ∀ i < 4, _ by decide +kernel) (by norm_num) (by norm_num) (by norm_num) (by norm_num)
  exact ⟨c', e, f⟩

end Nurbs.Props
