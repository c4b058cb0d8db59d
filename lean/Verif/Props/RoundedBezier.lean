import Verif.Proof.RoundedBezier
import Verif.Props.RoundedInsert
import Verif.Props.Bezier

/-! # C94: Bezier extraction with rounding -/

namespace Nurbs.Props
open Nurbs Nurbs.Spec

set_option linter.unusedSectionVars false

variable {K : Type} [Field K] [LinearOrder K] [IsStrictOrderedRing K] {R : Rounding K}

/-- C94: with rounding, `ExtractBezier` returns one well-formed Bezier curve for each knot interval.  The curve of the interval `[a, b]`
at `t` (both evaluated exactly) is within `4 ((1-u)^(-14 N) - 1) (hi/lo) B` of the given curve at `a + t (b - a)`, where `N` is the
number of added control points.  Neighbouring pieces share their control point exactly. -/
theorem C94_extractBezier_rounding {p : ℕ} (hp : 1 ≤ p) {c : Curve (Fl R)} (hw : WFCurve p (exactCurve c))
    (hmult : ∀ v, 0 < v → v < 1 → c.Knots.Values.count v ≤ p) {lo hi B : K} (hlo : 0 < lo) (hb : CurveBounds (exactCurve c) lo hi B) :
    ∃ (d : List (Fl R)) (segs : List (Curve (Fl R))), d.Pairwise (· < ·) ∧ (∀ v, v ∈ d ↔ v ∈ c.Knots.Values) ∧
      c.ExtractBezier = .ok segs ∧ segs.length + 1 = d.length ∧
      (∀ j a b, d[j]? = some a → d[j + 1]? = some b → ∃ s, segs[j]? = some s ∧ WFCurve p (exactCurve s) ∧
        s.Knots.Values = List.replicate (p + 1) 0 ++ List.replicate (p + 1) 1 ∧
        ∀ t, 0 ≤ t → t ≤ 1 → ∀ C D, (exactCurve s).Evaluate t = .ok C → (exactCurve c).Evaluate (a.val + t * (b.val - a.val)) = .ok D →
          |C.x - D.x| ≤ 4 * errFactor R (14 * (p * segs.length + 1 - c.ControlPoints.length)) * (hi / lo) * B ∧
          |C.y - D.y| ≤ 4 * errFactor R (14 * (p * segs.length + 1 - c.ControlPoints.length)) * (hi / lo) * B ∧
          |C.z - D.z| ≤ 4 * errFactor R (14 * (p * segs.length + 1 - c.ControlPoints.length)) * (hi / lo) * B) ∧
      ∀ j s s', segs[j]? = some s → segs[j + 1]? = some s' → s.ControlPoints[p]? = s'.ControlPoints[0]? := by
  obtain ⟨c', m, hw', hm, hlen, hkn, e, hs⟩ := extractBezier_rounded hp hw hmult hlo hb
  have hc : Clamped p c.Knots.Values := clamped_exact.mp hw.clamped
  obtain ⟨_, _, h3⟩ := C03_pairs_roundtrip c.Knots
  obtain ⟨p1, p2, p3⟩ := h3 hc.sorted
  refine ⟨dvals c.Knots, _, p1, p2, e, by simp [hm], ?_, ?_⟩
  · intro j a b ha hb'
    obtain ⟨hb1, hb2⟩ := List.getElem?_eq_some_iff.mp hb'
    obtain ⟨ha1, ha2⟩ := List.getElem?_eq_some_iff.mp ha
    have hj : j < m := by omega
    have hd : (exactList (dvals c.Knots)).Pairwise (· < ·) := by
      unfold exactList
      rw [List.pairwise_map]
      exact p1.imp fun h => h
    have hle : (exactCurve c').ControlPoints = c'.ControlPoints.map exactPoint := rfl
    obtain ⟨q1, q2, q3, q4, q5⟩ := bezSeg_spec hp hw' hw' (samePolar_refl hw') (d := exactList (dvals c.Knots)) hd
      (by simp [exactList, hm]) (by rw [hle, List.length_map, hlen])
      (by rw [← exact_reps, ← hkn]; rfl) j hj
    have ga : (exactList (dvals c.Knots)).getD j 0 = a.val := by
      simp [exactList, List.getD_eq_getElem?_getD, ha]
    have gb : (exactList (dvals c.Knots)).getD (j + 1) 0 = b.val := by
      simp [exactList, List.getD_eq_getElem?_getD, hb']
    rw [ga, gb] at q5
    rw [ga] at q2 q3
    rw [gb] at q3 q4
    rw [hle, ← exact_bezSeg] at q1 q5
    refine ⟨bezSeg p c'.ControlPoints j, by simp [tab, hj], q1, rfl, ?_⟩
    intro t ht0 ht1 C D hC hD
    have hx0 : 0 ≤ a.val + t * (b.val - a.val) := add_nonneg q2 (mul_nonneg ht0 (by linarith))
    have hx1 : a.val + t * (b.val - a.val) ≤ 1 := by nlinarith
    rw [q5 t ht0 ht1, (C23_evaluate hw' hx0 hx1).1] at hC
    rw [(C23_evaluate hw hx0 hx1).1] at hD
    rw [← Except.ok.inj hC, ← Except.ok.inj hD, tab_length]
    exact hs _ hx0 hx1
  · intro j s s' h1 h2
    obtain ⟨l1, rfl⟩ := List.getElem?_eq_some_iff.mp h1
    obtain ⟨l2, rfl⟩ := List.getElem?_eq_some_iff.mp h2
    simp [tab, bezSeg, Nat.mul_add]

/-- C94 for `double` and equal weights: every added control point costs at most `6.3e-15` times the largest coordinate. -/
theorem C94_double {p : ℕ} (hp : 1 ≤ p) {c : Curve (Fl binary53)} (hw : WFCurve p (exactCurve c))
    (hmult : ∀ v, 0 < v → v < 1 → c.Knots.Values.count v ≤ p) {w B : ℚ} (hlo : 0 < w) (hb : CurveBounds (exactCurve c) w w B) :
    ∃ (d : List (Fl binary53)) (segs : List (Curve (Fl binary53))), d.Pairwise (· < ·) ∧ (∀ v, v ∈ d ↔ v ∈ c.Knots.Values) ∧
      c.ExtractBezier = .ok segs ∧ segs.length + 1 = d.length ∧
      ∀ N : ℕ, p * segs.length + 1 ≤ c.ControlPoints.length + N → N ≤ 1000000 →
      ∀ j a b, d[j]? = some a → d[j + 1]? = some b → ∃ s, segs[j]? = some s ∧
        ∀ t, 0 ≤ t → t ≤ 1 → ∀ C D, (exactCurve s).Evaluate t = .ok C → (exactCurve c).Evaluate (a.val + t * (b.val - a.val)) = .ok D →
          |C.x - D.x| ≤ 63 / 10 ^ 16 * N * B ∧ |C.y - D.y| ≤ 63 / 10 ^ 16 * N * B ∧ |C.z - D.z| ≤ 63 / 10 ^ 16 * N * B := by
  obtain ⟨d, segs, h1, h2, h3, h4, h5, -⟩ := C94_extractBezier_rounding hp hw hmult hlo hb
  refine ⟨d, segs, h1, h2, h3, h4, ?_⟩
  intro N hN hN2 j a b ha hb'
  obtain ⟨s, e, -, -, h⟩ := h5 j a b ha hb'
  refine ⟨s, e, fun t ht0 ht1 C D hC hD => ?_⟩
  have hl : 0 < (exactCurve c).ControlPoints.length := by
    have := hw.count
    have := hw.clamped.len
    omega
  have hB : 0 ≤ B := le_trans (abs_nonneg _) (hb 0 hl).2.2.1
  have hu : binary53.u = 1 / 2 ^ 53 := rfl
  have hle : 4 * errFactor binary53 (14 * (p * segs.length + 1 - c.ControlPoints.length)) * (w / w) * B ≤ 63 / 10 ^ 16 * N * B := by
    rw [div_self hlo.ne', mul_one]
    refine mul_le_mul_of_nonneg_right ?_ hB
    generalize hM : p * segs.length + 1 - c.ControlPoints.length = M
    have hMN : (M : ℚ) ≤ N := by exact_mod_cast (show M ≤ N by omega)
    have hN3 : (N : ℚ) ≤ 1000000 := by exact_mod_cast hN2
    have hM0 : (0 : ℚ) ≤ M := by positivity
    have hs : ((14 * M : ℕ) : ℚ) * binary53.u ≤ 1 / 10 ^ 8 := by
      rw [hu]; push_cast; linarith
    have := errFactor_le binary53 (14 * M) (lt_of_le_of_lt hs (by norm_num))
    have h2 : ((14 * M : ℕ) : ℚ) * binary53.u / (1 - ((14 * M : ℕ) : ℚ) * binary53.u) ≤ ((14 * M : ℕ) : ℚ) * binary53.u / (1 - 1 / 10 ^ 8) := by
      apply div_le_div_of_nonneg_left
      · rw [hu]; positivity
      · norm_num
      · linarith
    rw [hu] at this h2
    push_cast at this h2
    rw [le_div_iff₀ (by norm_num)] at h2
    have h3 := le_trans this (le_refl _)
    nlinarith
  obtain ⟨a1, a2, a3⟩ := h t ht0 ht1 C D hC hD
  exact ⟨a1.trans hle, a2.trans hle, a3.trans hle⟩

/-- `wavy` is well-formed, its knot 1/3 (rounded) is simple, and the extraction really rounds. -/
example : WFCurve 2 (exactCurve wavy) ∧ (∀ v ∈ wavy.Knots.Values, 0 < v → v < 1 → wavy.Knots.Values.count v ≤ 2) ∧
    CurveBounds (exactCurve wavy) (1/11) 1 4 :=
  ⟨⟨by decide +kernel, ⟨by decide +kernel, by decide +kernel, by decide +kernel, by decide +kernel, by decide +kernel, by decide +kernel⟩,
    by decide +kernel, by decide +kernel⟩, by decide +kernel, by unfold CurveBounds; decide +kernel⟩
example : (wavy.ExtractBezier.map fun l => l.map exactCurve) ≠ (exactCurve wavy).ExtractBezier ∧
    (wavy.ExtractBezier.map fun l => l.map fun c => c.ControlPoints.length) = .ok [3, 3] := by decide +kernel

end Nurbs.Props
