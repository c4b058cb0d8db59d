import Verif.Proof.Bezier
import Verif.Props.Insert

/-! # C38: splitting a curve into its Bezier pieces -/

set_option linter.unusedSectionVars false

namespace Nurbs.Props
open Nurbs Nurbs.Spec

variable {K : Type} [Field K] [LinearOrder K] [IsStrictOrderedRing K]

/-- C38.  For degree ≥ 1 and interior multiplicities ≤ degree, `ExtractBezier` succeeds; with `d` the increasing
list of the distinct knots there is exactly one piece per interval `[d j, d (j+1)]`, it is a well-formed curve of the
same degree on the Bezier knots `0…0 1…1`, and its point at `t` is the curve's point at `d j + t (d (j+1) - d j)`. -/
theorem C38_extractBezier {p : ℕ} (hp : 1 ≤ p) {c : Curve K} (hw : WFCurve p c)
    (hmult : ∀ v, 0 < v → v < 1 → c.Knots.Values.count v ≤ p) :
    ∃ (d : List K) (segs : List (Curve K)), d.Pairwise (· < ·) ∧ (∀ v, v ∈ d ↔ v ∈ c.Knots.Values) ∧
      c.ExtractBezier = .ok segs ∧ segs.length + 1 = d.length ∧
      ∀ j a b, d[j]? = some a → d[j + 1]? = some b → ∃ s, segs[j]? = some s ∧ WFCurve p s ∧
        s.Knots.Values = List.replicate (p + 1) 0 ++ List.replicate (p + 1) 1 ∧
        ∀ t, 0 ≤ t → t ≤ 1 → ∃ C, s.Evaluate t = .ok C ∧ c.Evaluate (a + t * (b - a)) = .ok C := by
  obtain ⟨c', m, hw', hs, hm, hlen, hkn, e, _⟩ := extractBezier_spec hp hw hmult
  obtain ⟨_, _, h3⟩ := C03_pairs_roundtrip c.Knots
  obtain ⟨p1, p2, p3⟩ := h3 hw.clamped.sorted
  refine ⟨dvals c.Knots, _, p1, p2, e, by simp [hm], ?_⟩
  intro j a b ha hb
  obtain ⟨hb1, hb2⟩ := List.getElem?_eq_some_iff.mp hb
  obtain ⟨ha1, ha2⟩ := List.getElem?_eq_some_iff.mp ha
  have hj : j < m := by omega
  obtain ⟨q1, q2, q3, q4, q5⟩ := bezSeg_spec hp hw hw' hs (d := dvals c.Knots) p1 hm hlen hkn j hj
  have ga : (dvals c.Knots).getD j 0 = a := by rw [List.getD_eq_getElem _ _ ha1, ha2]
  have gb : (dvals c.Knots).getD (j + 1) 0 = b := by rw [List.getD_eq_getElem _ _ hb1, hb2]
  rw [ga, gb] at q5
  rw [ga] at q2 q3
  rw [gb] at q3 q4
  refine ⟨bezSeg p c'.ControlPoints j, by simp [tab, hj], q1, rfl, ?_⟩
  intro t ht0 ht1
  have hx0 : 0 ≤ a + t * (b - a) := add_nonneg q2 (mul_nonneg ht0 (by linarith))
  have hx1 : a + t * (b - a) ≤ 1 := by nlinarith
  exact ⟨_, by rw [q5 t ht0 ht1]; exact (C23_evaluate hw hx0 hx1).1, (C23_evaluate hw hx0 hx1).1⟩

/-- The rational quadratic example has three pieces; the middle one at `1/3` is the curve at `1/4 + 1/3 * 1/4`. -/
example : exCurve.ExtractBezier.map List.length = .ok 3 := by decide +kernel
example : ∀ v, 0 < v → v < 1 → exCurve.Knots.Values.count v ≤ 2 := by
  intro v h0 h1
  simp only [exCurve, List.count_cons, List.count_nil, beq_iff_eq]
  rw [if_neg h1.ne', if_neg h0.ne]
  split_ifs with h2 h3 h3 <;> first | omega | (exfalso; rw [← h2] at h3; norm_num at h3)

/-- Degree 0 is excluded with reason: the loop of `ExtractBezier` never ends there. -/
theorem C38_degree_zero_diverges :
    ∃ c : Curve ℚ, WFCurve 0 c ∧ c.ExtractBezier = .error .diverge :=
  ⟨⟨0, ⟨[0, 1/2, 1]⟩, [⟨0, 0, 0, 1⟩, ⟨1, 0, 0, 1⟩]⟩, ⟨rfl, ⟨by decide +kernel, by decide +kernel, by decide +kernel,
    by decide +kernel, by decide +kernel, by decide +kernel⟩, rfl, by decide +kernel⟩, by decide +kernel⟩

/-- So is multiplicity above the degree: this discontinuous line has two knot intervals but three pieces are returned,
one of them bridging the gap. -/
theorem C38_high_multiplicity_misaligned :
    ∃ c : Curve ℚ, WFCurve 1 c ∧ c.Knots.GetKnotPairs.length = 3 ∧ c.ExtractBezier.map List.length = .ok 3 :=
  ⟨⟨1, ⟨[0, 0, 1/2, 1/2, 1, 1]⟩, [⟨0, 0, 0, 1⟩, ⟨1, 0, 0, 1⟩, ⟨5, 0, 0, 1⟩, ⟨6, 0, 0, 1⟩]⟩,
    ⟨rfl, ⟨by decide +kernel, by decide +kernel, by decide +kernel, by decide +kernel, by decide +kernel, by decide +kernel⟩,
      rfl, by decide +kernel⟩, by decide +kernel, by decide +kernel⟩

end Nurbs.Props
