import Verif.Proof.DoubleInsert
import Verif.Proof.Bezier

/-! # Bezier extraction in `double` with its finite range -/

set_option linter.unusedSectionVars false
set_option exponentiation.threshold 2000

namespace Nurbs
open Nurbs.Spec

instance : ZeroLEOneClass Double := ⟨Double.fin_le.mpr zero_le_one⟩
instance : NeZero (1 : Double) := ⟨fun h => one_ne_zero (Double.fin_inj.mp h)⟩

theorem uniform_bezier_double (p : ℕ) : (KnotVector.Uniform (p : Int) (2 * p + 2) : M (KnotVector Double)) =
    .ok ⟨List.replicate (p + 1) 0 ++ List.replicate (p + 1) 1⟩ := by
  have h0 : (((0 : Int) : Double) + 1) = 1 := by decide +kernel
  unfold KnotVector.Uniform
  have e : (2 * (p : Int) + 2) - ((p : Int) + 1) * 2 = 0 := by ring
  simp only [e]
  rw [massert_true (by omega)]
  simp only [bind_ok]
  rw [mthrowUnless_true (by omega)]
  simp only [bind_ok]
  rw [h0, fdiv_ok one_ne_zero]
  simp only [bind_ok]
  have e2 : ((p : Int) + 1).toNat = p + 1 := by omega
  simp only [e2, Int.toNat_zero, List.range_zero, List.map_nil, List.append_nil]
  refine (Props.C01_constructor_accepts_exactly _).1 ⟨by simp, ?_, ?_, ?_⟩
  · rw [List.pairwise_append]
    refine ⟨List.pairwise_replicate.mpr (Or.inr le_rfl), List.pairwise_replicate.mpr (Or.inr le_rfl), ?_⟩
    intro a ha b hb
    rw [List.eq_of_mem_replicate ha, List.eq_of_mem_replicate hb]
    exact zero_le_one
  · intro x hx
    rcases List.mem_append.mp hx with hx | hx
    · rw [List.eq_of_mem_replicate hx]
    · rw [List.eq_of_mem_replicate hx]; exact zero_le_one
  · rw [List.replicate_succ' (n := p) (a := (1 : Double)), ← List.append_assoc]; simp

/-- The additional knots are finite and strictly between 0 and 1. -/
theorem bezInsert_double {p : ℕ} {c : Curve Double} (hfin : FinCurve c) (hs : c.Knots.Values.Pairwise (· ≤ ·)) :
    ∀ v ∈ bezInsert p c.Knots.GetKnotPairs, IsFin v ∧ 0 < v.val ∧ v.val < 1 := by
  obtain ⟨_, _, h3⟩ := Props.C03_pairs_roundtrip c.Knots
  obtain ⟨p1, p2, p3⟩ := h3 hs
  intro v hv
  simp only [bezInsert, List.mem_flatMap] at hv
  obtain ⟨q, hq, hv⟩ := hv
  split_ifs at hv with h
  · simp at hv
  · rw [List.eq_of_mem_replicate hv]
    push Not at h
    have hf : IsFin q.Value := hfin.knots _ ((p2 q.Value).mp (List.mem_map_of_mem hq))
    refine ⟨hf, ?_⟩
    obtain ⟨a, ha, _⟩ := hf
    rw [ha, Double.zero_def, Double.one_def, Double.fin_lt, Double.fin_lt] at h
    rw [ha]
    exact h

/-- As `extractBezier_spec`: the pieces are read off a curve with additional knots. -/
theorem extractBezier_double {p : ℕ} (hp : 1 ≤ p) {c c' : Curve Double} (hfin : FinCurve c) (hw : WFCurve p (exactCurve64 c))
    (hw' : WFCurve p (exactCurve64 c')) (hfin' : FinCurve c')
    (hmult : ∀ v, 0 < v → v < 1 → c.Knots.Values.count v ≤ p) (e : c.InsertKnotList (bezInsert p c.Knots.GetKnotPairs) = .ok c')
    (hperm : c'.Knots.Values.Perm (bezInsert p c.Knots.GetKnotPairs ++ c.Knots.Values)) :
    ∃ m : ℕ, (dvals c.Knots).length = m + 1 ∧ c'.ControlPoints.length = p * m + 1 ∧
      c'.Knots.Values = 0 :: (reps p (dvals c.Knots) ++ [1]) ∧ c.ExtractBezier = .ok (tab m (bezSeg p c'.ControlPoints)) ∧
      (bezInsert p c.Knots.GetKnotPairs).length = p * m + 1 - c.ControlPoints.length := by
  have hc : Clamped p c.Knots.Values := clamped_double hfin.knots hw.clamped
  have hc' : Clamped p c'.Knots.Values := clamped_double hfin'.knots hw'.clamped
  obtain ⟨_, _, h3⟩ := Props.C03_pairs_roundtrip c.Knots
  obtain ⟨p1, p2, p3⟩ := h3 hc.sorted
  have hkn := bezier_knots hp hc hmult hc'.sorted hperm
  have hne : dvals c.Knots ≠ [] := by
    intro h
    have h0 : (0 : Double) ∈ c.Knots.Values := by
      have := (clamped_count hc).1
      exact List.count_pos_iff.mp (by omega)
    have := (p2 0).mpr h0
    unfold dvals at h
    rw [h] at this
    simp at this
  obtain ⟨m, hm⟩ : ∃ m, (dvals c.Knots).length = m + 1 := ⟨(dvals c.Knots).length - 1, by
    have := List.length_pos_iff.mpr hne; omega⟩
  have hl' : c'.Knots.Values.length = c'.ControlPoints.length + p + 1 := by
    simpa [exactCurve64] using hw'.count
  have hl : c.Knots.Values.length = c.ControlPoints.length + p + 1 := by
    simpa [exactCurve64] using hw.count
  have hlen : c'.ControlPoints.length = p * m + 1 := by
    have h1 := hl'
    rw [hkn] at h1
    simp only [List.length_cons, List.length_append, reps_length, List.length_nil, hm, Nat.mul_add] at h1
    omega
  have hN : (bezInsert p c.Knots.GetKnotPairs).length = p * m + 1 - c.ControlPoints.length := by
    have h1 := hperm.length_eq
    rw [List.length_append] at h1
    omega
  have hd : c.Degree = p := hw.degree
  have hd' : c'.Degree = p := hw'.degree
  refine ⟨m, hm, hlen, hkn, ?_, hN⟩
  unfold Curve.ExtractBezier
  rw [hd, extractInsert_eq p _ (fun q hq => by have := (getKnotPairs_spec c.Knots hc.sorted).2 q hq; omega), e, bind_ok, hd']
  have hf : m + 1 ≤ c'.ControlPoints.length + 1 := by
    rw [hlen]
    have := Nat.le_mul_of_pos_left m (show 0 < p by omega)
    omega
  have := extractSegments_gen hp (uniform_bezier_double p) c'.ControlPoints m hlen m 0 (c'.ControlPoints.length + 1) (by omega) hf
  simp only [Nat.mul_zero, Nat.cast_zero, Nat.zero_add] at this
  exact this

theorem exact64_reps (p : ℕ) (d : List Double) : (0 :: (reps p d ++ [1])).map Double.val = 0 :: (reps p (d.map Double.val) ++ [1]) := by
  simp [reps, List.map_flatMap, List.flatMap_map, Double.zero_def, Double.one_def, Double.val_fin]

theorem exact64_bezSeg (p : ℕ) (l : List (Vec4 Double)) (j : ℕ) : exactCurve64 (bezSeg p l j) = bezSeg p (l.map exactPoint64) j := by
  unfold bezSeg exactCurve64
  congr 1
  · simp [Double.zero_def, Double.one_def, Double.val_fin]
  · simp [tab, exactPoint64_pt]

end Nurbs
