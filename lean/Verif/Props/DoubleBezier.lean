import Verif.Proof.DoubleBezier
import Verif.Props.DoubleInsert
import Verif.Props.Bezier

/-! # C118: Bezier extraction in `double` with its finite range -/

set_option linter.unusedSectionVars false
set_option exponentiation.threshold 2000

namespace Nurbs.Props
open Nurbs Nurbs.Spec

theorem bezInsert_length_le (p : ℕ) (ps : List (KnotPair Double)) : (bezInsert p ps).length ≤ p * ps.length := by
  induction ps with
  | nil => simp [bezInsert]
  | cons q ps ih =>
    unfold bezInsert at ih ⊢
    rw [List.flatMap_cons, List.length_append, List.length_cons, Nat.mul_add, Nat.mul_one]
    have : (if q.Value ≤ 0 ∨ q.Value ≥ 1 then [] else List.replicate (p - q.Multiplicity.toNat) q.Value).length ≤ p := by
      split_ifs <;> simp
    omega

/-- C118: in `double` with its finite range, `ExtractBezier` returns one well-formed Bezier curve of finite numbers for each knot interval.
The curve of the interval `[a, b]` at `t` (both evaluated exactly) is within `4 ((1-u)^(-19 N) - 1) (wh/wl) B` of the given curve at
`a + t (b - a)`, where `N` is the number of added control points, and neighbouring pieces share their control point bit for bit.
The knots may be as close together as `double` allows.  Not proved: weights and coordinates near the limits of `double`, for which it
is false (`C118_underflow_refuted`). -/
theorem C118_extractBezier_partial {p : ℕ} (hp : 1 ≤ p) {c : Curve Double} (hfin : FinCurve c) (hw : WFCurve p (exactCurve64 c))
    (hmult : ∀ v, 0 < v → v < 1 → c.Knots.Values.count v ≤ p) (hn : p * c.Knots.Values.length ≤ 2 ^ 40) {wl wh B : ℚ}
    (hb : CurveBounds (exactCurve64 c) wl wh B) (hl : 1 / 2 ^ 99 ≤ wl) (hh : wh ≤ 2 ^ 99) (hB0 : 1 / 2 ^ 600 ≤ B) (hB : B ≤ 2 ^ 399) :
    ∃ (d : List Double) (segs : List (Curve Double)), d.Pairwise (· < ·) ∧ (∀ v, v ∈ d ↔ v ∈ c.Knots.Values) ∧
      c.ExtractBezier = .ok segs ∧ segs.length + 1 = d.length ∧
      (∀ j a b, d[j]? = some a → d[j + 1]? = some b → ∃ s, segs[j]? = some s ∧ FinCurve s ∧ WFCurve p (exactCurve64 s) ∧
        s.Knots.Values = List.replicate (p + 1) 0 ++ List.replicate (p + 1) 1 ∧
        ∀ t, 0 ≤ t → t ≤ 1 → ∃ C D, (exactCurve64 s).Evaluate t = .ok C ∧ (exactCurve64 c).Evaluate (a.val + t * (b.val - a.val)) = .ok D ∧
          |C.x - D.x| ≤ 4 * errFactor binary53 (19 * (p * segs.length + 1 - c.ControlPoints.length)) * (wh / wl) * B ∧
          |C.y - D.y| ≤ 4 * errFactor binary53 (19 * (p * segs.length + 1 - c.ControlPoints.length)) * (wh / wl) * B ∧
          |C.z - D.z| ≤ 4 * errFactor binary53 (19 * (p * segs.length + 1 - c.ControlPoints.length)) * (wh / wl) * B) ∧
      ∀ j s s', segs[j]? = some s → segs[j + 1]? = some s' → s.ControlPoints[p]? = s'.ControlPoints[0]? := by
  have hc : Clamped p c.Knots.Values := clamped_double hfin.knots hw.clamped
  obtain ⟨_, _, h3⟩ := C03_pairs_roundtrip c.Knots
  obtain ⟨p1, p2, p3⟩ := h3 hc.sorted
  have hlen0 : (bezInsert p c.Knots.GetKnotPairs).length ≤ 2 ^ 40 := by
    have h1 := bezInsert_length_le p c.Knots.GetKnotPairs
    have h2 : (c.Knots.GetKnotPairs.map (·.Value)).length ≤ c.Knots.Values.length :=
      (List.subperm_of_subset (p1.imp fun h => h.ne) fun v hv => (p2 v).mp hv).length_le
    rw [List.length_map] at h2
    exact h1.trans ((Nat.mul_le_mul_left p h2).trans hn)
  obtain ⟨c', e, hfin', hw', hperm, hs⟩ := C109_insertKnotList_partial (p := p) (bezInsert p c.Knots.GetKnotPairs)
    (bezInsert_double hfin hc.sorted) hlen0 hfin hw hb hl hh hB0 hB
  obtain ⟨m, hm, hlen, hkn, hx, hN⟩ := extractBezier_double hp hfin hw hw' hfin' hmult e hperm
  rw [hN] at hs
  refine ⟨dvals c.Knots, _, p1, p2, hx, by simp [hm], ?_, ?_⟩
  · intro j a b ha hb'
    obtain ⟨hb1, hb2⟩ := List.getElem?_eq_some_iff.mp hb'
    obtain ⟨ha1, ha2⟩ := List.getElem?_eq_some_iff.mp ha
    have hj : j < m := by omega
    have hd : ((dvals c.Knots).map Double.val).Pairwise (· < ·) := by
      rw [List.pairwise_map]
      refine List.Pairwise.imp_of_mem (fun {x y} hx hy h => ?_) p1
      obtain ⟨a, rfl, _⟩ := hfin.knots x ((p2 x).mp hx)
      obtain ⟨b, rfl, _⟩ := hfin.knots y ((p2 y).mp hy)
      exact Double.fin_lt.mp h
    have hle : (exactCurve64 c').ControlPoints = c'.ControlPoints.map exactPoint64 := rfl
    obtain ⟨q1, q2, q3, q4, q5⟩ := bezSeg_spec hp hw' hw' (samePolar_refl hw') (d := (dvals c.Knots).map Double.val) hd
      (by simp [hm]) (by rw [hle, List.length_map, hlen])
      (by rw [← exact64_reps, ← hkn]; rfl) j hj
    have ga : ((dvals c.Knots).map Double.val).getD j 0 = a.val := by
      simp [List.getD_eq_getElem?_getD, ha]
    have gb : ((dvals c.Knots).map Double.val).getD (j + 1) 0 = b.val := by
      simp [List.getD_eq_getElem?_getD, hb']
    rw [ga, gb] at q5
    rw [ga] at q2 q3
    rw [gb] at q3 q4
    rw [hle, ← exact64_bezSeg] at q1 q5
    refine ⟨bezSeg p c'.ControlPoints j, by simp [tab, hj], ⟨?_, ?_⟩, q1, rfl, ?_⟩
    · intro d hd
      simp only [bezSeg, List.mem_append, List.mem_replicate] at hd
      rcases hd with ⟨_, rfl⟩ | ⟨_, rfl⟩
      · exact isFin_0
      · exact isFin_1
    · intro P hP
      simp only [bezSeg, tab, List.mem_map, List.mem_range] at hP
      obtain ⟨r, hr, rfl⟩ := hP
      have hlt : p * j + r < c'.ControlPoints.length := ?_
      · refine hfin'.points _ ?_
        unfold pt
        rw [List.getD_eq_getElem?_getD, List.getElem?_eq_getElem hlt]
        exact List.getElem_mem hlt
      have : p * (j + 1) ≤ p * m := Nat.mul_le_mul_left p (by omega)
      rw [Nat.mul_add, Nat.mul_one] at this
      omega
    intro t ht0 ht1
    have hx0 : 0 ≤ a.val + t * (b.val - a.val) := add_nonneg q2 (mul_nonneg ht0 (by linarith))
    have hx1 : a.val + t * (b.val - a.val) ≤ 1 := by nlinarith
    refine ⟨_, _, by rw [q5 t ht0 ht1]; exact (C23_evaluate hw' hx0 hx1).1, (C23_evaluate hw hx0 hx1).1, ?_⟩
    rw [tab_length]
    exact hs _ hx0 hx1
  · intro j s s' h1 h2
    obtain ⟨l1, rfl⟩ := List.getElem?_eq_some_iff.mp h1
    obtain ⟨l2, rfl⟩ := List.getElem?_eq_some_iff.mp h2
    simp [tab, bezSeg, Nat.mul_add]

/-- A curve with one inner knot whose weights are all the smallest number. -/
def exFaintArc : Curve Double :=
  ⟨2, ⟨[0, 0, 0, half64, 1, 1, 1]⟩, [⟨0, 0, 0, tiny64⟩, ⟨1, 0, 0, tiny64⟩, ⟨1, 1, 0, tiny64⟩, ⟨0, 1, 0, tiny64⟩]⟩

/-- C118 without the bounds on the weights is false: the weight at the joint underflows to zero and the code divides by it. -/
theorem C118_underflow_refuted : FinCurve exFaintArc ∧ WFCurve 2 (exactCurve64 exFaintArc) ∧ exFaintArc.ExtractBezier = .error .nonfinite := by
  refine ⟨⟨?_, ?_⟩, ⟨rfl, ⟨by decide +kernel, by decide +kernel, by decide +kernel, by decide +kernel, by decide +kernel,
    by decide +kernel⟩, by decide +kernel, by decide +kernel⟩, by decide +kernel⟩
  · intro d hd
    simp only [exFaintArc, List.mem_cons, List.not_mem_nil, or_false] at hd
    have hh : IsFin half64 := isFin_of (by decide +kernel) (by decide +kernel)
    rcases hd with rfl | rfl | rfl | rfl | rfl | rfl | rfl <;> first | exact isFin_0 | exact isFin_1 | exact hh
  · intro P hP
    simp only [exFaintArc, List.mem_cons, List.not_mem_nil, or_false] at hP
    have ht : IsFin tiny64 := isFin_of (by decide +kernel) (by decide +kernel)
    rcases hP with rfl | rfl | rfl | rfl <;> refine ⟨?_, ?_, ?_, ?_⟩ <;> first | exact isFin_0 | exact isFin_1 | exact ht

/-- The curve of C103 meets the hypotheses. -/
example : ∃ s t, exDouble.ExtractBezier = .ok [s, t] ∧ FinCurve s ∧ FinCurve t := by
  obtain ⟨d, segs, h1, h2, h3, h4, h5, _⟩ := C118_extractBezier_partial (by norm_num) exDouble_fin exDouble_wf (by
      intro v h0 h1
      by_cases hv : v ∈ exDouble.Knots.Values
      · have : ∀ v ∈ exDouble.Knots.Values, 0 < v → v < 1 → exDouble.Knots.Values.count v ≤ 2 := by decide +kernel
        exact this v hv h0 h1
      · rw [List.count_eq_zero_of_not_mem hv]; omega)
    (by decide +kernel) (wl := 1/16) (wh := 1) (B := 1) (show ∀ i < 4, _ by decide +kernel)
    (by norm_num) (by norm_num) (by norm_num) (by norm_num)
  have e2 : exDouble.ExtractBezier.map List.length = .ok 2 := by decide +kernel
  rw [h3] at e2
  obtain ⟨s, t, rfl⟩ := List.length_eq_two.mp (Except.ok.inj e2)
  obtain ⟨x, y, z, rfl⟩ := List.length_eq_three.mp h4.symm
  obtain ⟨s', e, f, _⟩ := h5 0 x y rfl rfl
  obtain ⟨t', e', f', _⟩ := h5 1 y z rfl rfl
  cases e; cases e'
  exact ⟨_, _, h3, f, f'⟩

end Nurbs.Props
