import Verif.Proof.RoundedBezier

/-! # The size of the control points of rounded Bezier pieces -/

set_option linter.unusedSectionVars false

namespace Nurbs
open Nurbs.Spec

variable {K : Type} [Field K] [LinearOrder K] [IsStrictOrderedRing K] {R : Rounding K}

/-- Inserting a list of knots: weights and coordinates stay inside slightly larger bounds. -/
theorem insertList_range {p : ℕ} (vs : List (Fl R)) (hv : ∀ v ∈ vs, 0 < v.val ∧ v.val < 1) {c : Curve (Fl R)}
    (hw : WFCurve p (exactCurve c)) {lo hi B : K} (hlo : 0 < lo) (hb : CurveBounds (exactCurve c) lo hi B) :
    ∃ c', c.InsertKnotList vs = .ok c' ∧
      CurveBounds (exactCurve c') (R.q ^ (3 * vs.length) * lo) ((R.q ^ (3 * vs.length))⁻¹ * hi) ((R.q ^ (8 * vs.length))⁻¹ * B) := by
  induction vs generalizing c lo hi B with
  | nil => exact ⟨c, rfl, by simpa using hb⟩
  | cons v vs ih =>
    obtain ⟨h0, h1⟩ := hv v (by simp)
    obtain ⟨k, hk, _⟩ := exists_span hw.clamped h0.le h1.le
    have hw' := insC_wf hw hk h0 h1
    have hq := R.q_pos
    obtain ⟨c', e, hs⟩ := ih (fun v hv' => hv v (by simp [hv'])) hw' (mul_pos (pow_pos hq 3) hlo)
      (insC_range hw hk h0 h1 hlo hb)
    refine ⟨c', ?_, ?_⟩
    · unfold Curve.InsertKnotList
      simp only [foldMList]
      rw [insertListStep_rounded hw hk h0 h1, bind_ok]
      exact e
    · rw [← mul_assoc, ← mul_assoc, ← mul_assoc, ← mul_inv, ← mul_inv, ← pow_add, ← pow_add] at hs
      simpa only [List.length_cons, Nat.mul_add, Nat.mul_one] using hs

/-- The control points of the pieces are at most by a factor of `(1-u)^(-8N)` larger than those of the curve, `N` the number of added points. -/
theorem extractBezier_range {p : ℕ} (hp : 1 ≤ p) {c : Curve (Fl R)} (hw : WFCurve p (exactCurve c))
    (hmult : ∀ v, 0 < v → v < 1 → c.Knots.Values.count v ≤ p) {lo hi B : K} (hlo : 0 < lo) (hb : CurveBounds (exactCurve c) lo hi B) :
    ∃ segs, c.ExtractBezier = .ok segs ∧ segs.length + 1 ≤ c.Knots.Values.length ∧ ∀ s ∈ segs, ∀ P ∈ s.ControlPoints,
      |P.x.val| ≤ (R.q ^ (8 * (p * segs.length + 1 - c.ControlPoints.length)))⁻¹ * B ∧
      |P.y.val| ≤ (R.q ^ (8 * (p * segs.length + 1 - c.ControlPoints.length)))⁻¹ * B ∧
      |P.z.val| ≤ (R.q ^ (8 * (p * segs.length + 1 - c.ControlPoints.length)))⁻¹ * B := by
  have hc : Clamped p c.Knots.Values := clamped_exact.mp hw.clamped
  obtain ⟨_, _, h3⟩ := Props.C03_pairs_roundtrip c.Knots
  obtain ⟨p1, p2, p3⟩ := h3 hc.sorted
  have hvs : ∀ v ∈ bezInsert p c.Knots.GetKnotPairs, 0 < v ∧ v < 1 := by
    intro v hv
    simp only [bezInsert, List.mem_flatMap] at hv
    obtain ⟨q, hq, hv⟩ := hv
    split_ifs at hv with h
    · simp at hv
    · rw [List.eq_of_mem_replicate hv]
      push Not at h
      exact h
  have hvs' : ∀ v ∈ bezInsert p c.Knots.GetKnotPairs, 0 < v.val ∧ v.val < 1 := fun v h => by
    have := hvs v h
    rwa [Fl.lt_def, Fl.lt_def, Fl.val_zero, Fl.val_one] at this
  obtain ⟨c', e, hw', hperm, -⟩ := insertList_rounded (bezInsert p c.Knots.GetKnotPairs) hvs' hw hlo hb
  obtain ⟨c'', e'', hb'⟩ := insertList_range (bezInsert p c.Knots.GetKnotPairs) hvs' hw hlo hb
  obtain rfl : c' = c'' := Except.ok.inj (e.symm.trans e'')
  have hc' : Clamped p c'.Knots.Values := clamped_exact.mp hw'.clamped
  have hkn := bezier_knots hp hc hmult hc'.sorted hperm
  have hne : dvals c.Knots ≠ [] := by
    intro h
    have h0 : (0 : Fl R) ∈ c.Knots.Values := by
      have := (clamped_count hc).1
      exact List.count_pos_iff.mp (by omega)
    have := (p2 0).mpr h0
    unfold dvals at h
    rw [h] at this
    simp at this
  obtain ⟨m, hm⟩ : ∃ m, (dvals c.Knots).length = m + 1 := ⟨(dvals c.Knots).length - 1, by
    have := List.length_pos_iff.mpr hne; omega⟩
  have hl' : c'.Knots.Values.length = c'.ControlPoints.length + p + 1 := by
    simpa [exactCurve, exactList] using hw'.count
  have hl : c.Knots.Values.length = c.ControlPoints.length + p + 1 := by
    simpa [exactCurve, exactList] using hw.count
  have hlen : c'.ControlPoints.length = p * m + 1 := by
    have h1 := hl'
    rw [hkn] at h1
    simp only [List.length_cons, List.length_append, reps_length, List.length_nil, hm, Nat.mul_add] at h1
    omega
  have hN : (bezInsert p c.Knots.GetKnotPairs).length = p * m + 1 - c.ControlPoints.length := by
    have h1 := hperm.length_eq
    rw [List.length_append] at h1
    omega
  rw [hN] at hb'
  have hd : c.Degree = p := hw.degree
  have hd' : c'.Degree = p := hw'.degree
  refine ⟨tab m (bezSeg p c'.ControlPoints), ?_, ?_, ?_⟩
  · unfold Curve.ExtractBezier
    rw [hd, extractInsert_eq p _ (fun q hq => by have := (getKnotPairs_spec c.Knots hc.sorted).2 q hq; omega), e, bind_ok, hd']
    have hf : m + 1 ≤ c'.ControlPoints.length + 1 := by
      rw [hlen]
      have := Nat.le_mul_of_pos_left m (show 0 < p by omega)
      omega
    have := extractSegments_gen hp (uniform_bezier_rounded p) c'.ControlPoints m hlen m 0 (c'.ControlPoints.length + 1) (by omega) hf
    simp only [Nat.mul_zero, Nat.cast_zero, Nat.zero_add] at this
    exact this
  · rw [tab_length, ← hm]
    have hnd : (dvals c.Knots).Nodup := p1.imp fun h => ne_of_lt h
    exact (List.subperm_of_subset hnd fun v hv => (p2 v).mp hv).length_le
  · intro s hs P hP
    rw [tab_length]
    simp only [tab, List.mem_map, List.mem_range] at hs
    obtain ⟨r, hr, rfl⟩ := hs
    simp only [bezSeg, tab, List.mem_map, List.mem_range] at hP
    obtain ⟨i, hi, rfl⟩ := hP
    have hlt : p * r + i < p * m + 1 := by
      have := Nat.mul_le_mul_left p (show r + 1 ≤ m from hr)
      rw [Nat.mul_add] at this
      omega
    have := hb' (p * r + i) (by simpa [exactCurve, hlen] using hlt)
    rw [show pt (exactCurve c').ControlPoints (p * r + i) = exactPoint (pt c'.ControlPoints (p * r + i)) from (exactPoint_pt c'.ControlPoints _).symm] at this
    exact this.2.2

end Nurbs
