import Verif.Props.Iso

/-! # C123: ruled surfaces -/

set_option linter.unusedSectionVars false

namespace Nurbs.Props
open Nurbs Nurbs.Spec

variable {K : Type} [Field K] [LinearOrder K] [IsStrictOrderedRing K] {p m : ℕ} {s : Surface K}

theorem clamped_two {l : List K} (h : Clamped 1 l) (hl : l.length = 4) : l = [0, 0, 1, 1] := by
  have a0 := h.zeros 0 (by omega)
  have a1 := h.zeros 1 le_rfl
  have a2 := h.ones 2 (by omega) (by omega)
  have a3 := h.ones 3 (by omega) (by omega)
  match l, hl with
  | [a, b, c, d], _ =>
    simp only [kn, List.getD_cons_zero, List.getD_cons_succ] at a0 a1 a2 a3
    rw [a0, a1, a2, a3]

/-- C123.  A surface of degree 1 in `v` with two rows of control points is ruled: for every `u` the points `S(u, v)` run along the straight
segment from the point at `u` of the curve of the first row to that of the second, from end to end; the place on the segment is
`v W₁ / ((1 - v) W₀ + v W₁)` with the denominators `W₀`, `W₁` of the two curves.  If the two rows have the same weights, it is `v`. -/
theorem C123_ruled (hw : WFSurface p 1 m 2 s) {u v : K} (hu0 : 0 ≤ u) (hu1 : u ≤ 1) (hv0 : 0 ≤ v) (hv1 : v ≤ 1) :
    ∃ (C₀ C₁ : Vec3 K) (t : K), (rowCurve m s 0).Evaluate u = .ok C₀ ∧ (rowCurve m s 1).Evaluate u = .ok C₁ ∧ 0 ≤ t ∧ t ≤ 1 ∧
      s.Evaluate u v = .ok ((1 - t) • C₀ + t • C₁) ∧
      t * ((1 - v) * wsum p (rowCurve m s 0) u (fun _ => 1) + v * wsum p (rowCurve m s 1) u (fun _ => 1)) = v * wsum p (rowCurve m s 1) u (fun _ => 1) ∧
      ((∀ i < m, (cp s i 0).w = (cp s i 1).w) → t = v) := by
  have hT := transposed_wf hw
  have hrow : ∀ j < 2, colCurve m (transposed s) j = rowCurve m s j := by
    intro j hj
    unfold colCurve rowCurve
    have : ((List.range m).map fun i => cp (transposed s) j i) = (List.range m).map fun i => cp s i j :=
      List.map_congr_left fun i hi => cp_transposed hw.sized (List.mem_range.mp hi) hj
    rw [this]
    rfl
  obtain ⟨e0, hW0⟩ := C23_evaluate (rowCurve_wf hw (j := 0) (by omega)) hu0 hu1
  obtain ⟨e1, hW1⟩ := C23_evaluate (rowCurve_wf hw (j := 1) (by omega)) hu0 hu1
  obtain ⟨_, _, _, hwd, ed, _⟩ := C101_iso hw hu0 hu1 hv0 hv1
  have hk : s.KnotsV.Values = [0, 0, 1, 1] := clamped_two hw.clampedV hw.knotsV
  have hsp : IsSpan (isoCurve p 2 m (transposed s) u).Knots.Values v 1 := by
    change IsSpan s.KnotsV.Values v 1
    rw [hk]
    refine ⟨by simp, by simpa [kn] using hv0, ?_⟩
    rcases hv1.lt_or_eq with h | h
    · exact Or.inl (by simpa [kn] using h)
    · exact Or.inr ⟨h, by simp [kn], by simp [kn]⟩
  obtain ⟨_, _, _, _, ev⟩ := evaluate_seg hwd hv0 hv1 hsp
  have hseg : seg (kn (isoCurve p 2 m (transposed s) u).Knots.Values) 1 v 1 (hpts (isoCurve p 2 m (transposed s) u).ControlPoints) =
      (1 - v) • hpts (isoCurve p 2 m (transposed s) u).ControlPoints 0 + v • hpts (isoCurve p 2 m (transposed s) u).ControlPoints 1 := by
    change seg (kn s.KnotsV.Values) 1 v 1 _ = _
    rw [hk]
    unfold seg
    rw [Finset.sum_range_succ, Finset.sum_range_one]
    have n0 : Nl (kn ([0, 0, 1, 1] : List K)) 1 v 1 (1 - 1 + 0) = 1 - v := by simp [Nl, kn]
    have n1 : Nl (kn ([0, 0, 1, 1] : List K)) 1 v 1 (1 - 1 + 1) = v := by simp [Nl, kn]
    rw [n0, n1]
  have q0 : hpts (isoCurve p 2 m (transposed s) u).ControlPoints 0 = ToHomo ⟨(nurbsPoint p (rowCurve m s 0) u).x, (nurbsPoint p (rowCurve m s 0) u).y,
      (nurbsPoint p (rowCurve m s 0) u).z, wsum p (rowCurve m s 0) u fun _ => 1⟩ := by
    unfold hpts
    rw [pt_iso (by omega), hrow 0 (by omega)]
  have q1 : hpts (isoCurve p 2 m (transposed s) u).ControlPoints 1 = ToHomo ⟨(nurbsPoint p (rowCurve m s 1) u).x, (nurbsPoint p (rowCurve m s 1) u).y,
      (nurbsPoint p (rowCurve m s 1) u).z, wsum p (rowCurve m s 1) u fun _ => 1⟩ := by
    unfold hpts
    rw [pt_iso (by omega), hrow 1 (by omega)]
  rw [hseg, q0, q1, ed] at ev
  set W₀ := wsum p (rowCurve m s 0) u (fun _ => 1) with hW0'
  set W₁ := wsum p (rowCurve m s 1) u (fun _ => 1) with hW1'
  have hv' : 0 ≤ 1 - v := by linarith
  have hD : 0 < (1 - v) * W₀ + v * W₁ := by
    rcases hv0.lt_or_eq with h | h
    · have := mul_pos h hW1
      have := mul_nonneg hv' hW0.le
      linarith
    · rw [← h]; simpa using hW0
  refine ⟨_, _, v * W₁ / ((1 - v) * W₀ + v * W₁), e0, e1, div_nonneg (mul_nonneg hv0 hW1.le) hD.le, ?_, ?_, div_mul_cancel₀ _ hD.ne', ?_⟩
  · rw [div_le_one hD]
    have := mul_nonneg hv' hW0.le
    linarith
  · rw [ev]
    refine congrArg Except.ok ?_
    have h1 : 1 - v * W₁ / ((1 - v) * W₀ + v * W₁) = (1 - v) * W₀ / ((1 - v) * W₀ + v * W₁) := by
      rw [eq_div_iff hD.ne', sub_mul, div_mul_cancel₀ _ hD.ne']
      ring
    rw [h1]
    have hc : ∀ a b : K, ((1 - v) * (a * W₀) + v * (b * W₁)) / ((1 - v) * W₀ + v * W₁) =
        (1 - v) * W₀ / ((1 - v) * W₀ + v * W₁) * a + v * W₁ / ((1 - v) * W₀ + v * W₁) * b := by
      intro a b
      field_simp
    ext
    · exact hc _ _
    · exact hc _ _
    · exact hc _ _
  · intro h
    have : W₀ = W₁ := by
      rw [hW0', hW1']
      unfold wsum
      rw [rowCurve_length, rowCurve_length]
      refine Finset.sum_congr rfl fun i hi => ?_
      have hi := Finset.mem_range.mp hi
      rw [pt_rowCurve hi, pt_rowCurve hi, h i hi]
      rfl
    rw [this, div_eq_iff (by rw [this] at hD; exact hD.ne')]
    ring

/-- The ruled surface between a parabola with different weights and a straight line. -/
def exRuled : Surface ℚ := ⟨2, 1, ⟨[0, 0, 0, 1, 1, 1]⟩, ⟨[0, 0, 1, 1]⟩,
  ⟨3, 2, [⟨0, 0, 0, 1⟩, ⟨1, 2, 0, 2⟩, ⟨2, 0, 0, 1⟩, ⟨0, 0, 1, 1⟩, ⟨1, 0, 1, 1⟩, ⟨2, 0, 1, 1⟩]⟩⟩

theorem exRuled_wf : WFSurface 2 1 3 2 exRuled :=
  ⟨rfl, rfl, ⟨by decide +kernel, by decide +kernel, by decide +kernel, by decide +kernel, by decide +kernel, by decide +kernel⟩,
    ⟨by decide +kernel, by decide +kernel, by decide +kernel, by decide +kernel, by decide +kernel, by decide +kernel⟩, rfl, rfl, rfl, rfl, rfl, by decide +kernel⟩

/-- Here the point for `v = 1/2` is at 2/5 of the segment. -/
example : (rowCurve 3 exRuled 0).Evaluate (1/2) = .ok ⟨1, 4/3, 0⟩ ∧ (rowCurve 3 exRuled 1).Evaluate (1/2) = .ok ⟨1, 0, 1⟩ ∧
    exRuled.Evaluate (1/2) (1/2) = .ok ((1 - 2/5 : ℚ) • ⟨1, 4/3, 0⟩ + (2/5 : ℚ) • ⟨1, 0, 1⟩) := by decide +kernel

end Nurbs.Props
