import Verif.Proof.Curve
import Mathlib.Algebra.Order.Ring.Rat

/-! # C23 – C28: evaluation of curves -/

set_option linter.unusedSectionVars false

namespace Nurbs.Props
open Nurbs Nurbs.Spec

variable {K : Type} [Field K] [LinearOrder K] [IsStrictOrderedRing K]

/-- A rational quadratic with a double interior knot, used as the concrete case below. -/
def exCurve : Curve ℚ :=
  ⟨2, ⟨[0, 0, 0, 1/4, 1/2, 1/2, 1, 1, 1]⟩,
    [⟨0, 0, 0, 1⟩, ⟨1, 2, 0, 1/2⟩, ⟨2, 0, 1, 3⟩, ⟨3, 1, 1, 1⟩, ⟨4, 4, 0, 2⟩, ⟨5, 0, 2, 1⟩]⟩

theorem exCurve_wf : WFCurve 2 exCurve :=
  ⟨rfl, ⟨by decide +kernel, by decide +kernel, by decide +kernel, by decide +kernel, by decide +kernel,
    by decide +kernel⟩, rfl, by decide +kernel⟩

/-- C23.  `Curve::Evaluate` succeeds on a well-formed curve for every `x ∈ [0,1]` and returns the NURBS point,
with a positive denominator. -/
theorem C23_evaluate {p : ℕ} {c : Curve K} (hw : WFCurve p c) {x : K} (h0 : 0 ≤ x) (h1 : x ≤ 1) :
    c.Evaluate x = .ok (nurbsPoint p c x) ∧ 0 < wsum p c x (fun _ => 1) := by
  obtain ⟨k, hk, _, _⟩ := exists_span hw.clamped h0 h1
  obtain ⟨hpk, hl, hr, hpos, he⟩ := evaluate_seg hw h0 h1 hk
  refine ⟨by rw [he, proj_seg_eq hw hk hpk hl], ?_⟩
  rw [← sum_N_window hw.clamped hk hpk hl hw.count, Vec4.sum_w] at hpos
  convert hpos using 1
  unfold wsum
  apply Finset.sum_congr rfl
  intro i _
  simp [hpts]

example : exCurve.Evaluate (1/3) = .ok ⟨2, 3/20, 19/20⟩ := by decide +kernel

/-- C24.  The curve starts at the first and ends at the last control point. -/
theorem C24_endpoints {p : ℕ} {c : Curve K} (hw : WFCurve p c) :
    (∃ P, c.ControlPoints.head? = some P ∧ c.Evaluate 0 = .ok ⟨P.x, P.y, P.z⟩) ∧
    (∃ P, c.ControlPoints.getLast? = some P ∧ c.Evaluate 1 = .ok ⟨P.x, P.y, P.z⟩) := by
  have hc := hw.clamped
  have hlen := hc.len
  have hcount := hw.count
  have hproj : ∀ i < c.ControlPoints.length, proj (hpts c.ControlPoints i) =
      ⟨(pt c.ControlPoints i).x, (pt c.ControlPoints i).y, (pt c.ControlPoints i).z⟩ := by
    intro i hi
    have := (hw.weights i hi).ne'
    ext <;> simp [proj, hpts, ToHomo, this]
  constructor
  · have hk : IsSpan c.Knots.Values 0 p := ⟨by omega, (hc.zeros p (le_refl _)).le, Or.inl hc.first⟩
    obtain ⟨hpk, hl, hr, hpos, he⟩ := evaluate_seg hw le_rfl zero_le_one hk
    rw [seg_eq_point _ _ _ _ 0 _ hpk hr (by omega) (by omega) (fun j _ hj => hc.zeros j (by omega))] at he
    refine ⟨pt c.ControlPoints 0, ?_, by rw [he, hproj 0 (by omega)]⟩
    have : 0 < c.ControlPoints.length := by omega
    rw [List.head?_eq_getElem?, List.getElem?_eq_getElem this]
    simp [pt, this]
  · obtain ⟨n, hn⟩ : ∃ n, c.ControlPoints.length = n + 1 := ⟨c.ControlPoints.length - 1, by omega⟩
    have hk : IsSpan c.Knots.Values 1 n := by
      have h1 := hc.last
      have h2 := hc.ones (n + 1) (by omega) (by omega)
      rw [show c.Knots.Values.length - p - 2 = n by omega] at h1
      exact ⟨by omega, h1.le, Or.inr ⟨rfl, h1, h2⟩⟩
    obtain ⟨hpk, hl, hr, hpos, he⟩ := evaluate_seg hw zero_le_one le_rfl hk
    rw [seg_eq_point _ _ _ _ n _ hpk hr (by omega) (by omega) (fun j h1 h2 => hc.ones j (by omega) (by omega))] at he
    refine ⟨pt c.ControlPoints n, ?_, by rw [he, hproj n (by omega)]⟩
    rw [List.getLast?_eq_getElem?, hn, Nat.add_sub_cancel]
    have : n < c.ControlPoints.length := by omega
    simp [pt, this]

example : exCurve.Evaluate 0 = .ok ⟨0, 0, 0⟩ ∧ exCurve.Evaluate 1 = .ok ⟨5, 0, 2⟩ := by decide +kernel

/-- C25.  Convex hull property: a half-space `a·P ≤ b` that contains the `p+1` control points `k-p, …, k` of the
active span `k` contains the curve point. -/
theorem C25_convex_hull {p : ℕ} {c : Curve K} (hw : WFCurve p c) {x : K} (h0 : 0 ≤ x) (h1 : x ≤ 1) :
    ∃ k C, IsSpan c.Knots.Values x k ∧ p ≤ k ∧ k < c.ControlPoints.length ∧ c.Evaluate x = .ok C ∧
      ∀ (a : Vec3 K) (b : K),
        (∀ i, k - p ≤ i → i ≤ k → form a (pt c.ControlPoints i).x (pt c.ControlPoints i).y (pt c.ControlPoints i).z ≤ b) →
        form a C.x C.y C.z ≤ b := by
  obtain ⟨k, hk, _, _⟩ := exists_span hw.clamped h0 h1
  obtain ⟨hpk, hl, hr, hpos, he⟩ := evaluate_seg hw h0 h1 hk
  have hcount := hw.count
  refine ⟨k, _, hk, hpk, by omega, he, ?_⟩
  intro a b h
  have hle : planeForm a b (seg (kn c.Knots.Values) k x p (hpts c.ControlPoints)) ≤ 0 := by
    rw [seg_map]
    apply seg_nonpos _ _ _ _ hpk (fun a b hab hb => kn_mono hw.clamped.sorted hab (by omega)) hk.2.1 (IsSpan.le_right hk)
    intro i hi1 hi2
    have hwi := hw.weights i (by omega)
    have := h i (by omega) hi2
    have e : planeForm a b (hpts c.ControlPoints i) =
        (pt c.ControlPoints i).w * (form a (pt c.ControlPoints i).x (pt c.ControlPoints i).y (pt c.ControlPoints i).z - b) := by
      simp [planeForm, hpts, ToHomo, form]; ring
    rw [e]
    exact mul_nonpos_of_nonneg_of_nonpos hwi.le (by linarith)
  generalize seg (kn c.Knots.Values) k x p (hpts c.ControlPoints) = S at *
  have e : form a (proj S).x (proj S).y (proj S).z = form a S.x S.y S.z / S.w := by
    simp [form, proj]; ring
  rw [e, div_le_iff₀ hpos]
  simp [planeForm] at hle
  linarith

example : ∃ k C, IsSpan exCurve.Knots.Values (1/3) k ∧ 2 ≤ k ∧ k < 6 ∧ exCurve.Evaluate (1/3) = .ok C ∧
    ∀ (a : Vec3 ℚ) (b : ℚ), (∀ i, k - 2 ≤ i → i ≤ k → form a (pt exCurve.ControlPoints i).x
      (pt exCurve.ControlPoints i).y (pt exCurve.ControlPoints i).z ≤ b) → form a C.x C.y C.z ≤ b :=
  C25_convex_hull exCurve_wf (by decide +kernel) (by decide +kernel)

/-- C26.  Local control: two well-formed curves with the same knots whose control points agree except at index
`i` have the same point at every parameter outside `[U_i, U_{i+p+1}]`. -/
theorem C26_local_control {p : ℕ} {c : Curve K} (hw : WFCurve p c) {i : ℕ} (hi : i < c.ControlPoints.length)
    (Q : Vec4 K) (hQ : 0 < Q.w) {x : K} (h0 : 0 ≤ x) (h1 : x ≤ 1)
    (hx : x < kn c.Knots.Values i ∨ kn c.Knots.Values (i + p + 1) < x) :
    ∃ C, c.Evaluate x = .ok C ∧ Curve.Evaluate { c with ControlPoints := c.ControlPoints.set i Q } x = .ok C := by
  have hcount := hw.count
  have hw' : WFCurve p { c with ControlPoints := c.ControlPoints.set i Q } := by
    refine ⟨hw.degree, hw.clamped, by simpa using hw.count, ?_⟩
    intro j hj
    simp only [List.length_set] at hj
    by_cases hij : i = j
    · subst hij; simpa [pt, hi] using hQ
    · simpa [pt, List.getElem?_set_ne hij] using hw.weights j hj
  obtain ⟨k, hk, _, _⟩ := exists_span hw.clamped h0 h1
  obtain ⟨hpk, hl, hr, hpos, he⟩ := evaluate_seg hw h0 h1 hk
  obtain ⟨_, _, _, _, he'⟩ := evaluate_seg hw' h0 h1 hk
  refine ⟨_, he, ?_⟩
  rw [he']
  congr 2
  apply seg_congr hpk
  intro j hj1 hj2
  have hij : i ≠ j := by
    rintro rfl
    rcases hx with hx | hx
    · exact absurd (lt_of_le_of_lt hk.2.1 hx) (not_lt.mpr (kn_mono hw.clamped.sorted hj2 (by omega)))
    · exact absurd (lt_of_lt_of_le hx (IsSpan.le_right hk)) (not_lt.mpr (kn_mono hw.clamped.sorted (by omega) (by omega)))
  simp only [hpts]
  congr 1
  simp [pt, List.getElem?_set_ne hij]

/-- Moving control point 1 of the example changes nothing at `x = 3/4 > U_4`. -/
example : exCurve.Evaluate (3/4) =
    Curve.Evaluate { exCurve with ControlPoints := exCurve.ControlPoints.set 1 ⟨9, 9, 9, 7⟩ } (3/4) ∧
    exCurve.Evaluate (1/3) ≠
    Curve.Evaluate { exCurve with ControlPoints := exCurve.ControlPoints.set 1 ⟨9, 9, 9, 7⟩ } (1/3) := by decide +kernel

/-- C27 (curves).  `Transform` keeps degree, knots and weights and commutes with evaluation. -/
theorem C27_transform_curve {p : ℕ} {c : Curve K} (hw : WFCurve p c) (R : Mat3 K) :
    (c.Transform R).Degree = c.Degree ∧ (c.Transform R).Knots = c.Knots ∧
    (c.Transform R).ControlPoints.map (·.w) = c.ControlPoints.map (·.w) ∧
    ∀ x, 0 ≤ x → x ≤ 1 → ∃ C, c.Evaluate x = .ok C ∧ (c.Transform R).Evaluate x = .ok (matApply R C) := by
  refine ⟨rfl, rfl, ?_, ?_⟩
  · simp [Curve.Transform, Curve.transformPoint, Function.comp_def]
  · intro x h0 h1
    have hw' : WFCurve p (c.Transform R) := wf_map hw _ (fun v hv => hv)
    have hcount := hw.count
    obtain ⟨k, hk, _, _⟩ := exists_span hw.clamped h0 h1
    obtain ⟨hpk, hl, hr, hpos, he⟩ := evaluate_seg hw h0 h1 hk
    obtain ⟨_, _, _, _, he'⟩ := evaluate_seg hw' h0 h1 hk
    refine ⟨_, he, ?_⟩
    rw [he', ← proj_matMap, seg_map]
    congr 2
    apply seg_congr hpk
    intro i hi1 hi2
    simp only [hpts, matMap_toHomo]
    congr 1
    exact pt_map _ _ _ (by omega)

/-- C27 (composition).  Transforming by `R` and then by `S` is transforming by the product `S R` – here `SR` is any
matrix that acts like the product. -/
theorem C27_transform_compose (c : Curve K) (R S SR : Mat3 K) (h : ∀ v, matApply SR v = matApply S (matApply R v)) :
    (c.Transform R).Transform S = c.Transform SR := by
  have e : ∀ (R : Mat3 K) v, R.mulVec v = matApply R v := fun R v => rfl
  unfold Curve.Transform
  simp only [List.map_map]
  congr 1
  apply List.map_congr_left
  intro v _
  simp only [Function.comp, Curve.transformPoint, e, Vec4.head3]
  rw [h]

example : (exCurve.Transform ⟨⟨0, -1, 0⟩, ⟨1, 0, 0⟩, ⟨0, 0, 2⟩⟩).Evaluate (1/3) = .ok ⟨-3/20, 2, 19/10⟩ := by
  decide +kernel

/-- C28 (scaling).  Multiplying all weights by the same non-zero constant does not change the curve. -/
theorem C28_scale_weights {p : ℕ} {c : Curve K} (hw : WFCurve p c) {a : K} (ha : a ≠ 0) {x : K} (h0 : 0 ≤ x) (h1 : x ≤ 1) :
    ∃ C, c.Evaluate x = .ok C ∧
      Curve.Evaluate { c with ControlPoints := c.ControlPoints.map fun v => { v with w := a * v.w } } x = .ok C := by
  have hcount := hw.count
  obtain ⟨k, hk, _, _⟩ := exists_span hw.clamped h0 h1
  obtain ⟨hpk, hl, hr, hpos, he⟩ := evaluate_seg hw h0 h1 hk
  obtain ⟨_, _, _, he'⟩ := evaluate_at_span
    (c := { c with ControlPoints := c.ControlPoints.map fun v => { v with w := a * v.w } }) hw.degree hw.clamped
    (by simpa using hcount) h0 h1 hk
  refine ⟨_, he, ?_⟩
  rw [he']
  have e : seg (kn c.Knots.Values) k x p (hpts (c.ControlPoints.map fun v => { v with w := a * v.w })) =
      a • seg (kn c.Knots.Values) k x p (hpts c.ControlPoints) := by
    have := seg_map (LinearMap.lsmul K (Vec4 K) a) (kn c.Knots.Values) k x p (hpts c.ControlPoints)
    rw [LinearMap.lsmul_apply] at this
    rw [this]
    apply seg_congr hpk
    intro i hi1 hi2
    simp only [hpts, LinearMap.lsmul_apply]
    rw [pt_map _ _ _ (by omega)]
    ext <;> simp [ToHomo] <;> ring
  rw [e, projectM_ok (by simp [ha, hpos.ne'])]
  congr 1
  ext <;> simp [proj] <;> field_simp

/-- C28 (decision).  `IsRational` is true exactly when two weights differ. -/
theorem C28_isRational_iff (c : Curve K) :
    c.IsRational = true ↔ ∃ i j, i < c.ControlPoints.length ∧ j < c.ControlPoints.length ∧
      (pt c.ControlPoints i).w ≠ (pt c.ControlPoints j).w := by
  obtain ⟨d, ks, l⟩ := c
  cases l with
  | nil => simp [Curve.IsRational]
  | cons P l =>
    simp only [Curve.IsRational, List.any_eq_true, decide_eq_true_eq]
    constructor
    · rintro ⟨Q, hQ, h⟩
      obtain ⟨n, hn, rfl⟩ := List.getElem_of_mem hQ
      refine ⟨n + 1, 0, by simpa using hn, by simp, ?_⟩
      simpa [pt, hn] using h
    · rintro ⟨i, j, hi, hj, h⟩
      by_contra hall
      push Not at hall
      have key : ∀ i < (P :: l).length, (pt (P :: l) i).w = P.w := by
        intro i hi
        cases i with
        | zero => rfl
        | succ i =>
          have := pt_mem l i (by simpa using hi)
          exact hall _ (by simpa [pt] using this)
      exact h ((key i hi).trans (key j hj).symm)

/-- C28 (non-rational curves).  If `IsRational` is false the curve is the plain B-spline sum. -/
theorem C28_nonrational {p : ℕ} {c : Curve K} (hw : WFCurve p c) (hn : c.IsRational = false) {x : K} (h0 : 0 ≤ x)
    (h1 : x ≤ 1) :
    c.Evaluate x = .ok
      ⟨∑ i ∈ Finset.range c.ControlPoints.length, N (kn c.Knots.Values) x p i * (pt c.ControlPoints i).x,
        ∑ i ∈ Finset.range c.ControlPoints.length, N (kn c.Knots.Values) x p i * (pt c.ControlPoints i).y,
        ∑ i ∈ Finset.range c.ControlPoints.length, N (kn c.Knots.Values) x p i * (pt c.ControlPoints i).z⟩ := by
  have hcount := hw.count
  have hlen := hw.clamped.len
  have hall : ∀ i < c.ControlPoints.length, (pt c.ControlPoints i).w = (pt c.ControlPoints 0).w := by
    intro i hi
    by_contra h
    have := (C28_isRational_iff c).mpr ⟨i, 0, hi, by omega, h⟩
    rw [hn] at this
    exact absurd this (by simp)
  have hw0 := (hw.weights 0 (by omega)).ne'
  obtain ⟨k, hk, hpk, hl⟩ := exists_span hw.clamped h0 h1
  have hr : RegSpan (kn c.Knots.Values) k p := regSpan_of_sorted hw.clamped.sorted (IsSpan.lt hk) (by omega)
  have hone := sum_N_window hw.clamped hk hpk hl hw.count (fun _ => (1 : K))
  rw [seg_const _ _ _ _ hpk hr] at hone
  have hden : wsum p c x (fun _ => 1) = (pt c.ControlPoints 0).w := by
    have : (pt c.ControlPoints 0).w = (pt c.ControlPoints 0).w * ∑ i ∈ Finset.range c.ControlPoints.length, N (kn c.Knots.Values) x p i • (1 : K) := by
      rw [hone, mul_one]
    rw [this, Finset.mul_sum]
    apply Finset.sum_congr rfl
    intro i hi
    rw [hall i (Finset.mem_range.mp hi)]; simp [mul_comm]
  have hnum : ∀ f, wsum p c x f = (pt c.ControlPoints 0).w *
      ∑ i ∈ Finset.range c.ControlPoints.length, N (kn c.Knots.Values) x p i * f (pt c.ControlPoints i) := by
    intro f
    unfold wsum
    rw [Finset.mul_sum]
    apply Finset.sum_congr rfl
    intro i hi
    rw [hall i (Finset.mem_range.mp hi)]; ring
  rw [(C23_evaluate hw h0 h1).1]
  unfold nurbsPoint
  rw [hden, hnum (·.x), hnum (·.y), hnum (·.z)]
  simp [hw0]

example : exCurve.IsRational = true ∧
    Curve.IsRational { exCurve with ControlPoints := exCurve.ControlPoints.map fun v => { v with w := 2 } } = false := by
  decide +kernel
example : Curve.Evaluate { exCurve with ControlPoints := exCurve.ControlPoints.map fun v => { v with w := 3 * v.w } } (1/3) =
    exCurve.Evaluate (1/3) := by decide +kernel

end Nurbs.Props
