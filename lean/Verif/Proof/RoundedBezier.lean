import Verif.Proof.RoundedInsert
import Verif.Proof.Bezier

/-! # Bezier extraction with rounding -/

set_option linter.unusedSectionVars false

namespace Nurbs
open Nurbs.Spec

variable {K : Type} [Field K] [LinearOrder K] [IsStrictOrderedRing K] {R : Rounding K}

instance : ZeroLEOneClass (Fl R) := ⟨Fl.one_pos.le⟩
instance : NeZero (1 : Fl R) := ⟨Fl.one_pos.ne'⟩

theorem uniform_bezier_rounded (p : ℕ) : (KnotVector.Uniform (p : Int) (2 * p + 2) : M (KnotVector (Fl R))) =
    .ok ⟨List.replicate (p + 1) 0 ++ List.replicate (p + 1) 1⟩ := by
  have h0 : (((0 : Int) : Fl R) + 1) = 1 := by
    apply Fl.val_inj
    show R.rnd (R.rnd ((0 : Int) : K) + (1 : Fl R).val) = _
    rw [Int.cast_zero, R.zero, zero_add, Fl.val_one, R.one]
  unfold KnotVector.Uniform
  have e : (2 * (p : Int) + 2) - ((p : Int) + 1) * 2 = 0 := by ring
  simp only [e]
  rw [massert_true (by omega)]
  simp only [bind_ok]
  rw [mthrowUnless_true (by omega)]
  simp only [bind_ok]
  rw [h0, fdiv_ok one_ne_zero]
  simp only [bind_ok]
  have e2 : ((p : Int) + 1).toNat = p + 1 := by omega
  simp only [e2, Int.toNat_zero, List.range_zero, List.map_nil, List.append_nil]
  refine (Props.C01_constructor_accepts_exactly _).1 ⟨by simp, ?_, ?_, ?_⟩
  · rw [List.pairwise_append]
    refine ⟨List.pairwise_replicate.mpr (Or.inr le_rfl), List.pairwise_replicate.mpr (Or.inr le_rfl), ?_⟩
    intro a ha b hb
    rw [List.eq_of_mem_replicate ha, List.eq_of_mem_replicate hb]
    exact zero_le_one
  · intro x hx
    rcases List.mem_append.mp hx with hx | hx
    · rw [List.eq_of_mem_replicate hx]
    · rw [List.eq_of_mem_replicate hx]; exact zero_le_one
  · rw [List.replicate_succ' (n := p) (a := (1 : Fl R)), ← List.append_assoc]; simp

/-- As `extractBezier_spec`: the pieces are read off a curve with additional knots. -/
theorem extractBezier_rounded {p : ℕ} (hp : 1 ≤ p) {c : Curve (Fl R)} (hw : WFCurve p (exactCurve c))
    (hmult : ∀ v, 0 < v → v < 1 → c.Knots.Values.count v ≤ p) {lo hi B : K} (hlo : 0 < lo) (hb : CurveBounds (exactCurve c) lo hi B) :
    ∃ (c' : Curve (Fl R)) (m : ℕ), WFCurve p (exactCurve c') ∧ (dvals c.Knots).length = m + 1 ∧
      c'.ControlPoints.length = p * m + 1 ∧ c'.Knots.Values = 0 :: (reps p (dvals c.Knots) ++ [1]) ∧
      c.ExtractBezier = .ok (tab m (bezSeg p c'.ControlPoints)) ∧
      CurvesWithin p (exactCurve c) (exactCurve c') (4 * errFactor R (14 * (p * m + 1 - c.ControlPoints.length)) * (hi / lo) * B) := by
  have hc : Clamped p c.Knots.Values := clamped_exact.mp hw.clamped
  obtain ⟨_, _, h3⟩ := Props.C03_pairs_roundtrip c.Knots
  obtain ⟨p1, p2, p3⟩ := h3 hc.sorted
  have hvs : ∀ v ∈ bezInsert p c.Knots.GetKnotPairs, 0 < v ∧ v < 1 := by
    intro v hv
    simp only [bezInsert, List.mem_flatMap] at hv
    obtain ⟨q, hq, hv⟩ := hv
    split_ifs at hv with h
    · simp at hv
    · rw [List.eq_of_mem_replicate hv]
      push Not at h
      exact h
  obtain ⟨c', e, hw', hperm, hs⟩ := insertList_rounded (bezInsert p c.Knots.GetKnotPairs) (fun v h => by
    have := hvs v h
    rwa [Fl.lt_def, Fl.lt_def, Fl.val_zero, Fl.val_one] at this) hw hlo hb
  have hc' : Clamped p c'.Knots.Values := clamped_exact.mp hw'.clamped
  have hkn := bezier_knots hp hc hmult hc'.sorted hperm
  have hne : dvals c.Knots ≠ [] := by
    intro h
    have h0 : (0 : Fl R) ∈ c.Knots.Values := by
      have := (clamped_count hc).1
      exact List.count_pos_iff.mp (by omega)
    have := (p2 0).mpr h0
    unfold dvals at h
    rw [h] at this
    simp at this
  obtain ⟨m, hm⟩ : ∃ m, (dvals c.Knots).length = m + 1 := ⟨(dvals c.Knots).length - 1, by
    have := List.length_pos_iff.mpr hne; omega⟩
  have hl' : c'.Knots.Values.length = c'.ControlPoints.length + p + 1 := by
    simpa [exactCurve, exactList] using hw'.count
  have hl : c.Knots.Values.length = c.ControlPoints.length + p + 1 := by
    simpa [exactCurve, exactList] using hw.count
  have hlen : c'.ControlPoints.length = p * m + 1 := by
    have h1 := hl'
    rw [hkn] at h1
    simp only [List.length_cons, List.length_append, reps_length, List.length_nil, hm, Nat.mul_add] at h1
    omega
  have hN : (bezInsert p c.Knots.GetKnotPairs).length = p * m + 1 - c.ControlPoints.length := by
    have h1 := hperm.length_eq
    rw [List.length_append] at h1
    omega
  rw [hN] at hs
  have hd : c.Degree = p := hw.degree
  have hd' : c'.Degree = p := hw'.degree
  refine ⟨c', m, hw', hm, hlen, hkn, ?_, hs⟩
  unfold Curve.ExtractBezier
  rw [hd, extractInsert_eq p _ (fun q hq => by have := (getKnotPairs_spec c.Knots hc.sorted).2 q hq; omega), e, bind_ok, hd']
  have hf : m + 1 ≤ c'.ControlPoints.length + 1 := by
    rw [hlen]
    have := Nat.le_mul_of_pos_left m (show 0 < p by omega)
    omega
  have := extractSegments_gen hp (uniform_bezier_rounded p) c'.ControlPoints m hlen m 0 (c'.ControlPoints.length + 1) (by omega) hf
  simp only [Nat.mul_zero, Nat.cast_zero, Nat.zero_add] at this
  exact this

theorem exact_reps (p : ℕ) (d : List (Fl R)) : exactList (0 :: (reps p d ++ [1])) = 0 :: (reps p (exactList d) ++ [1]) := by
  simp [exactList, reps, List.map_flatMap, List.flatMap_map, Fl.val_zero, Fl.val_one]

theorem exact_bezSeg (p : ℕ) (l : List (Vec4 (Fl R))) (j : ℕ) : exactCurve (bezSeg p l j) = bezSeg p (l.map exactPoint) j := by
  unfold bezSeg exactCurve
  congr 1
  · simp [exactList, Fl.val_zero, Fl.val_one]
  · simp [tab, exactPoint_pt]

end Nurbs
