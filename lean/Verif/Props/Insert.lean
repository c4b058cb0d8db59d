import Verif.Proof.Insert2
import Verif.Props.Curve

/-! # C30, C31: knot insertion on curves -/

set_option linter.unusedSectionVars false

namespace Nurbs.Props
open Nurbs Nurbs.Spec

variable {K : Type} [Field K] [LinearOrder K] [IsStrictOrderedRing K]

/-- C30.  `InsertKnot(value)` on a well-formed curve of degree ≥ 1 gives a well-formed curve of the same degree
with exactly one more knot (`value`) and one more control point, and the same points. -/
theorem C30_insertKnot {p : ℕ} (hp : 1 ≤ p) {c : Curve K} (hw : WFCurve p c) {v : K} (h0 : 0 < v) (h1 : v < 1) :
    ∃ c', c.InsertKnot v = .ok c' ∧ WFCurve p c' ∧
      c'.Knots.Values.Perm (v :: c.Knots.Values) ∧ c'.ControlPoints.length = c.ControlPoints.length + 1 ∧
      ∀ x, 0 ≤ x → x ≤ 1 → ∃ C, c.Evaluate x = .ok C ∧ c'.Evaluate x = .ok C := by
  obtain ⟨k, hk, _⟩ := exists_span hw.clamped h0.le h1.le
  refine ⟨_, insertKnot_ok hw hk h0 h1 hp, insCurve_wf hw hk h0 h1, insL_perm _ _ _, by simp [insCurve], ?_⟩
  intro x hx0 hx1
  exact ⟨_, (C23_evaluate hw hx0 hx1).1, by rw [insCurve_evaluate hw hk h0 h1 hx0 hx1]; exact (C23_evaluate hw hx0 hx1).1⟩

/-- Inserting at an existing knot of the rational example. -/
example : (exCurve.InsertKnot (1/4)).map (fun c => (c.Knots.Values, c.ControlPoints.length)) =
    .ok ([0, 0, 0, 1/4, 1/4, 1/2, 1/2, 1, 1, 1], 7) := by decide +kernel
example : (exCurve.InsertKnot (1/3)).bind (fun c => c.Evaluate (2/5)) = exCurve.Evaluate (2/5) := by decide +kernel

/-- The restriction `1 ≤ p` in C30 is necessary: a well-formed curve of degree 0 is spoiled by `InsertKnot(value)`
(the new control point is the zero vector, so evaluation divides by zero). -/
theorem C30_degree_zero_breaks :
    ∃ c : Curve ℚ, WFCurve 0 c ∧ ∃ c', c.InsertKnot (1/2) = .ok c' ∧ c.Evaluate 0 = .ok ⟨1, 2, 3⟩ ∧
      c'.Evaluate 0 = .error .nonfinite := by
  refine ⟨⟨0, ⟨[0, 1]⟩, [⟨1, 2, 3, 1⟩]⟩, ⟨rfl, ⟨by decide +kernel, by decide +kernel, by decide +kernel, by decide +kernel,
    by decide +kernel, by decide +kernel⟩, rfl, by decide +kernel⟩, ⟨0, ⟨[0, 1/2, 1]⟩, [⟨0, 0, 0, 0⟩, ⟨1, 2, 3, 1⟩]⟩, ?_, ?_, ?_⟩ <;>
  decide +kernel

/-- C31 (list).  `InsertKnot(list)` for every degree. -/
theorem C31_insertKnotList {p : ℕ} {c : Curve K} (hw : WFCurve p c) (vs : List K) (hv : ∀ v ∈ vs, 0 < v ∧ v < 1) :
    ∃ c', c.InsertKnotList vs = .ok c' ∧ WFCurve p c' ∧
      c'.Knots.Values.Perm (vs ++ c.Knots.Values) ∧ c'.ControlPoints.length = c.ControlPoints.length + vs.length ∧
      ∀ x, 0 ≤ x → x ≤ 1 → ∃ C, c.Evaluate x = .ok C ∧ c'.Evaluate x = .ok C := by
  obtain ⟨c', e, hw', hp, hs⟩ := insertList_spec vs hv hw
  refine ⟨c', e, hw', hp, ?_, ?_⟩
  · have h1 := hw.count
    have h2 := hw'.count
    have h3 := hp.length_eq
    rw [List.length_append] at h3
    omega
  · intro x hx0 hx1
    exact ⟨_, (C23_evaluate hw hx0 hx1).1, by rw [hs.evaluate hw hw' hx0 hx1]; exact (C23_evaluate hw hx0 hx1).1⟩

/-- C31 (order).  The resulting curve does not depend on the order of the list. -/
theorem C31_order_independent {p : ℕ} {c : Curve K} (hw : WFCurve p c) {vs ws : List K} (hperm : vs.Perm ws)
    (hv : ∀ v ∈ vs, 0 < v ∧ v < 1) : c.InsertKnotList vs = c.InsertKnotList ws :=
  insertList_perm hperm hv hw

/-- C31 (repetition).  For degree ≥ 1 the list version does the same as inserting one value after the other. -/
theorem C31_repeated_single {p : ℕ} (hp : 1 ≤ p) {c : Curve K} (hw : WFCurve p c) (vs : List K)
    (hv : ∀ v ∈ vs, 0 < v ∧ v < 1) : c.InsertKnotList vs = vs.foldlM (fun c v => Curve.InsertKnot c v) c :=
  (insertList_single hp vs hv hw).symm

/-- C31 (times).  `InsertKnot(value, times)` inserts `times` copies. -/
theorem C31_insertKnotTimes (c : Curve K) (v : K) (t : ℕ) : c.InsertKnotTimes v t = c.InsertKnotList (List.replicate t v) := by
  unfold Curve.InsertKnotTimes
  rw [vnew_nat, bind_ok]

example : exCurve.InsertKnotList [1/3, 1/4, 3/4, 1/4] = exCurve.InsertKnotList [1/4, 1/4, 1/3, 3/4] ∧
    (exCurve.InsertKnotList [1/3, 1/4, 3/4, 1/4]).bind (fun c => c.Evaluate (2/5)) = exCurve.Evaluate (2/5) := by
  decide +kernel

end Nurbs.Props
