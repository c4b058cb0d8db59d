import Verif.Proof.EndKnots
import Verif.Proof.Transposed
import Verif.Proof.Bezier
import Verif.Props.Curve
import Verif.Props.Surface

/-! # C110: arguments out of range are refused, and where they are not -/

set_option linter.unusedSectionVars false

namespace Nurbs.Props
open Nurbs.Spec

section generic
variable {K : Type} [Zero K] [One K] [Add K] [Sub K] [Mul K] [Div K] [Neg K] [NatCast K] [IntCast K] [LinearOrder K]

theorem findSpanIndex_outside (kv : KnotVector K) (degree : Int) {u : K} (h : ¬ (0 ≤ u ∧ u ≤ 1)) :
    kv.FindSpanIndex degree u = .error .assert := by
  unfold KnotVector.FindSpanIndex
  rw [massert_false h]; rfl

theorem homogeneous_outside (c : Curve K) (order : Int) {x : K} (h : ¬ (0 ≤ x ∧ x ≤ 1)) :
    c.HomogeneousDerivative x order = .error .assert := by
  unfold Curve.HomogeneousDerivative
  rw [massert_false h]; rfl

/-- C110 (parameters of curves).  Whatever the knots, the points and the arithmetic: a parameter outside `[0,1]` ends every
evaluation, every derivative, every span search and every basis evaluation in the assertion. -/
theorem C110_curve (c : Curve K) (kv : KnotVector K) (degree order : Int) {x : K} (h : ¬ (0 ≤ x ∧ x ≤ 1)) :
    c.Evaluate x = .error .assert ∧ c.EvaluateAll x order = .error .assert ∧ c.EvaluateDerivative x order = .error .assert ∧
    kv.FindSpanIndex degree x = .error .assert ∧ kv.FindSpan x = .error .assert ∧
    BSplineBasis.Evaluate degree kv x = .error .assert ∧ BSplineBasis.EvaluateAll degree kv x order = .error .assert ∧
    BSplineBasis.EvaluateDerivative degree kv x order = .error .assert := by
  have hE : c.EvaluateAll x order = .error .assert := by
    unfold Curve.EvaluateAll
    rw [homogeneous_outside c order h]; rfl
  refine ⟨?_, hE, ?_, findSpanIndex_outside _ _ h, ?_, ?_, ?_, ?_⟩
  · unfold Curve.Evaluate; rw [massert_false h]; rfl
  · unfold Curve.EvaluateDerivative; rw [hE]; rfl
  · unfold KnotVector.FindSpan; rw [massert_false h]; rfl
  · unfold BSplineBasis.Evaluate; rw [findSpanIndex_outside _ _ h]; rfl
  · unfold BSplineBasis.EvaluateAll; rw [findSpanIndex_outside _ _ h]; rfl
  · unfold BSplineBasis.EvaluateDerivative; rw [findSpanIndex_outside _ _ h]; rfl

/-- C110 (parameters of surfaces). -/
theorem C110_surface (s : Surface K) (a b : Int) {u v : K} (h : ¬ (0 ≤ u ∧ u ≤ 1) ∨ ¬ (0 ≤ v ∧ v ≤ 1)) :
    s.Evaluate u v = .error .assert ∧ s.EvaluateAll u v a b = .error .assert ∧ s.EvaluateDerivative u v a b = .error .assert := by
  have hE : s.EvaluateAll u v a b = .error .assert := by
    unfold Surface.EvaluateAll Surface.HomogeneousDerivative
    by_cases hu : 0 ≤ u ∧ u ≤ 1
    · rw [massert_true hu, bind_ok, massert_false (h.resolve_left (not_not.mpr hu))]; rfl
    · rw [massert_false hu]; rfl
  refine ⟨?_, hE, ?_⟩
  · unfold Surface.Evaluate
    by_cases hu : 0 ≤ u ∧ u ≤ 1
    · rw [massert_true hu, bind_ok, massert_false (h.resolve_left (not_not.mpr hu))]; rfl
    · rw [massert_false hu]; rfl
  · unfold Surface.EvaluateDerivative; rw [hE]; rfl

/-- C110 (search on surfaces).  Starting values outside the unit square are refused. -/
theorem C110_search (sqrt : K → K) (fuel : ℕ) (s : Surface K) (point : Vec3 K) (eps max : K) {u v : K}
    (h : ¬ (0 ≤ u ∧ u ≤ 1) ∨ ¬ (0 ≤ v ∧ v ≤ 1)) : s.SearchParameter sqrt fuel point u v eps max = .error .assert := by
  unfold Surface.SearchParameter
  by_cases hu : 0 ≤ u ∧ u ≤ 1
  · rw [massert_true hu, bind_ok, massert_false (h.resolve_left (not_not.mpr hu))]; rfl
  · rw [massert_false hu]; rfl

/-- C110 (insertion, one knot).  Only values strictly between 0 and 1 are accepted – by the knot vector, by the one-knot form
for curves and by every form for surfaces. -/
theorem C110_insert (kv : KnotVector K) (c : Curve K) (s : Surface K) (times : Int) {v : K} (h : ¬ (0 < v ∧ v < 1)) :
    kv.InsertKnot v times = .error .assert ∧ c.InsertKnot v = .error .assert ∧
    s.InsertKnotU v = .error .assert ∧ s.InsertKnotV v = .error .assert := by
  have hk : ∀ (kv : KnotVector K) (times : Int), kv.InsertKnot v times = .error .assert := by
    intro kv times; unfold KnotVector.InsertKnot; rw [massert_false h]; rfl
  refine ⟨hk _ _, ?_, ?_, ?_⟩
  · unfold Curve.InsertKnot; rw [hk]; rfl
  · unfold Surface.InsertKnotU; rw [hk]; rfl
  · unfold Surface.InsertKnotV; rw [hk]; rfl

/-- C110 (insertion, lists, surfaces).  The list form ends in the assertion as soon as it comes to a value that is not
strictly between 0 and 1. -/
theorem C110_insertList_surface (s : Surface K) (vs ws : List K) {v : K} (h : ¬ (0 < v ∧ v < 1)) :
    (∀ s', s.InsertKnotUList vs = .ok s' → s.InsertKnotUList (vs ++ v :: ws) = .error .assert) ∧
    (∀ s', s.InsertKnotVList vs = .ok s' → s.InsertKnotVList (vs ++ v :: ws) = .error .assert) := by
  constructor
  · intro s' hs
    unfold Surface.InsertKnotUList at hs ⊢
    rw [foldMList_append, hs, bind_ok]
    show (s'.InsertKnotU v >>= _) = _
    rw [(C110_insert s'.KnotsU ⟨0, s'.KnotsU, []⟩ s' 1 h).2.2.1]; rfl
  · intro s' hs
    unfold Surface.InsertKnotVList at hs ⊢
    rw [foldMList_append, hs, bind_ok]
    show (s'.InsertKnotV v >>= _) = _
    rw [(C110_insert s'.KnotsU ⟨0, s'.KnotsU, []⟩ s' 1 h).2.2.2]; rfl

/-- C110 (insertion, lists, curves; partial).  Full statement: the list form refuses every value that the one-knot form refuses.
It refuses the values outside `[0,1]`.  Missing: the values 0 and 1 – see `C110_one_refuted`, `C110_zero_refuted`. -/
theorem C110_insertList_partial (c : Curve K) (vs ws : List K) {v : K} (h : ¬ (0 ≤ v ∧ v ≤ 1)) :
    ∀ c', c.InsertKnotList vs = .ok c' → c.InsertKnotList (vs ++ v :: ws) = .error .assert := by
  intro c' hs
  unfold Curve.InsertKnotList at hs ⊢
  rw [foldMList_append, hs, bind_ok]
  show (Curve.insertListStep v c' >>= _) = _
  unfold Curve.insertListStep
  rw [findSpanIndex_outside _ _ h]; rfl

/-- C110 (removal from curves). -/
theorem C110_remove (sqrt : K → K) (c : Curve K) (tol : K) (times : Int) {u : K} (h : ¬ (0 < u ∧ u < 1) ∨ times ≤ 0) :
    c.RemoveKnot sqrt u times tol = .error .assert := by
  unfold Curve.RemoveKnot
  by_cases hu : 0 < u ∧ u < 1
  · rw [massert_true hu, bind_ok, massert_false]
    · rfl
    · have := h.resolve_left (not_not.mpr hu); omega
  · rw [massert_false hu]; rfl

/-- C110 (elevation of curves). -/
theorem C110_elevate (c : Curve K) {times : Int} (h : times < 1) : c.ElevateDegree times = .error .assert := by
  unfold Curve.ElevateDegree
  rw [massert_false (by omega)]; rfl

end generic

section exact
variable {K : Type} [Field K] [LinearOrder K] [IsStrictOrderedRing K]

/-- C110 (elevation of surfaces).  `times` between minus the number of points and zero ends in the assertion too (fewer still:
the allocation of the grid throws). -/
theorem C110_elevate_surface {p q m n : ℕ} {s : Surface K} (hw : WFSurface p q m n s) {times : Int} (h : times < 1) :
    ((0 ≤ (m : Int) + times → s.ElevateDegreeU times = .error .assert) ∧ ((m : Int) + times < 0 → s.ElevateDegreeU times = .error .throws)) ∧
    ((0 ≤ (n : Int) + times → s.ElevateDegreeV times = .error .assert) ∧ ((n : Int) + times < 0 → s.ElevateDegreeV times = .error .throws)) := by
  have hm : 0 < m := by have := hw.clampedU.len; have := hw.knotsU; omega
  have hn : 0 < n := by have := hw.clampedV.len; have := hw.knotsV; omega
  have hs : Sized s m n := ⟨hw.uCount, hw.vCount, hw.storage⟩
  refine ⟨⟨fun h0 => ?_, fun h0 => ?_⟩, ⟨fun h0 => ?_, fun h0 => ?_⟩⟩
  · unfold Surface.ElevateDegreeU
    obtain ⟨N, rfl⟩ : ∃ N, n = N + 1 := ⟨n - 1, by omega⟩
    rw [hw.uCount, hw.vCount, show (m : Int) + times = ((m + times).toNat : ℕ) by omega, mk'_gridOf, bind_ok,
      forLt_eq_forUp _ _ (N + 1) (by omega), forUp_succ, show (0 : Int) = ((0 : ℕ) : Int) from rfl, hs.getV (by omega), bind_ok]
    unfold NurbsDegreeElevation
    rw [massert_false (by omega)]; rfl
  · unfold Surface.ElevateDegreeU Grid.mk'
    rw [hw.uCount, hw.vCount]
    have : ((m : Int) + times) * n < 0 := mul_neg_of_neg_of_pos h0 (by omega)
    unfold vnew
    rw [if_neg (by omega)]; rfl
  · unfold Surface.ElevateDegreeV
    obtain ⟨N, rfl⟩ : ∃ N, m = N + 1 := ⟨m - 1, by omega⟩
    rw [hw.uCount, hw.vCount, show (n : Int) + times = ((n + times).toNat : ℕ) by omega, mk'_gridOf, bind_ok,
      forLt_eq_forUp _ _ (N + 1) (by omega), forUp_succ, show (0 : Int) = ((0 : ℕ) : Int) from rfl, hs.getU (by omega), bind_ok]
    unfold NurbsDegreeElevation
    rw [massert_false (by omega)]; rfl
  · unfold Surface.ElevateDegreeV Grid.mk'
    rw [hw.uCount, hw.vCount]
    have : (m : Int) * ((n : Int) + times) < 0 := mul_neg_of_pos_of_neg (by omega) h0
    unfold vnew
    rw [if_neg (by omega)]; rfl

/-- C110 (refutation at 1).  The list form of `Curve::InsertKnot` accepts the value 1, on every well-formed curve.  The result
has a knot and a point too many at the end: its end point can no longer be evaluated, while all other points are the same. -/
theorem C110_one_refuted {p : ℕ} {c : Curve K} (hp : 1 ≤ p) (hw : WFCurve p c) :
    ∃ c', c.InsertKnotList [1] = .ok c' ∧ c.InsertKnotTimes 1 1 = .ok c' ∧ c.InsertKnot 1 = .error .assert ∧
      c'.Knots.Values = c.Knots.Values ++ [1] ∧ c'.ControlPoints = c.ControlPoints ++ [pt c.ControlPoints (c.ControlPoints.length - 1)] ∧
      (∃ P, c.Evaluate 1 = .ok P) ∧ c'.Evaluate 1 = .error .nonfinite ∧ ∀ x, 0 ≤ x → x < 1 → c'.Evaluate x = c.Evaluate x := by
  refine ⟨_, insert_one hw, ?_, ?_, rfl, rfl, ?_, evaluate_after_one hp hw⟩
  · exact (insertKnotTimes_of c 1 1).trans (insert_one hw)
  · exact (C110_insert c.Knots c ⟨0, 0, c.Knots, c.Knots, ⟨0, 0, []⟩⟩ 1 (by simp)).2.1
  · exact ⟨_, (C23_evaluate hw zero_le_one le_rfl).1⟩

/-- C110 (refutation at 0). -/
theorem C110_zero_refuted {p : ℕ} {c : Curve K} (hp : 1 ≤ p) (hw : WFCurve p c) :
    ∃ c', c.InsertKnotList [0] = .ok c' ∧ c.InsertKnotTimes 0 1 = .ok c' ∧ c.InsertKnot 0 = .error .assert ∧
      c'.Knots.Values = 0 :: c.Knots.Values ∧ c'.ControlPoints = pt c.ControlPoints 0 :: c.ControlPoints ∧
      (∃ P, c.Evaluate 0 = .ok P) ∧ c'.Evaluate 0 = .error .nonfinite ∧ ∀ x, 0 < x → x ≤ 1 → c'.Evaluate x = c.Evaluate x := by
  refine ⟨_, insert_zero hw, ?_, ?_, rfl, rfl, ?_, evaluate_after_zero hp hw⟩
  · exact (insertKnotTimes_of c 0 1).trans (insert_zero hw)
  · exact (C110_insert c.Knots c ⟨0, 0, c.Knots, c.Knots, ⟨0, 0, []⟩⟩ 1 (by simp)).2.1
  · exact ⟨_, (C23_evaluate hw le_rfl zero_le_one).1⟩

/-- `CalcTOL` never divides by zero. -/
theorem calcTOL_total (sqrt : K → K) (pts : List (Vec4 K)) (eps : K) : ∃ tol, KnotRemovalImpl.CalcTOL sqrt pts eps = .ok tol := by
  unfold KnotRemovalImpl.CalcTOL
  suffices h : ∀ (l : List (Vec4 K)) (s : K × K), 0 ≤ s.2 →
      0 ≤ (l.foldl (fun (s : K × K) point => (min s.1 point.w, max s.2 (point.head3.norm sqrt))) s).2 by
    have h2 := h pts ((1000000000000 : K), 0) le_rfl
    exact ⟨_, fdiv_ok (by positivity)⟩
  intro l
  induction l with
  | nil => intro s hs; exact hs
  | cons a l ih => intro s hs; exact ih _ (le_max_of_le_left hs)

/-- Asked to remove the knot 0, `KnotRemoval` reads the point before the first. -/
theorem knotRemoval_zero (sqrt : K → K) {p : ℕ} {kv : KnotVector K} (hc : Clamped p kv.Values) (pts : List (Vec4 K)) (times : Int)
    (ht : 1 ≤ times) (tol : K) : KnotRemoval sqrt kv pts p 0 times tol = .error .ub := by
  unfold KnotRemovalImpl.KnotRemoval
  obtain ⟨T, hT⟩ := calcTOL_total sqrt (pts.map ToHomo) tol
  obtain ⟨k, hk, hs, hpk, hlk⟩ := findSpanIndex_spec (kv := kv) hc (le_refl (0 : K)) zero_le_one
  have hl := hc.len
  obtain rfl : k = p :=
    isSpan_unique hc.sorted hs ⟨by omega, (hc.zeros p le_rfl).le, .inl hc.first⟩ (fun i hi => hc.le_one hi)
  simp only
  rw [hk, bind_ok, hT, bind_ok, vnew_of _ (2 * k + 1) _ (by push_cast; ring), bind_ok]
  obtain ⟨N, hN⟩ : ∃ N, times.toNat = N + 1 := ⟨times.toNat - 1, by omega⟩
  rw [hN, KnotRemovalImpl.removalLoop]
  have : vget (pts.map ToHomo) ((k : Int) - k - 1) = .error .ub := by
    unfold vget
    rw [dif_neg (by omega)]
  rw [this]
  rfl

theorem knotRemoval_outside (sqrt : K → K) (kv : KnotVector K) (pts : List (Vec4 K)) (degree times : Int) (tol : K) {u : K}
    (h : ¬ (0 ≤ u ∧ u ≤ 1)) : KnotRemoval sqrt kv pts degree u times tol = .error .assert := by
  unfold KnotRemovalImpl.KnotRemoval
  rw [findSpanIndex_outside _ _ h]; rfl

theorem removeKnotU_first (sqrt : K → K) {p q m n : ℕ} {s : Surface K} (hw : WFSurface p q m n s) {u : K} {times : Int} (ht : times ≤ m)
    {tol : K} {e : Err} (he : ∀ pts, KnotRemoval sqrt s.KnotsU pts p u times tol = .error e) : s.RemoveKnotU sqrt u times tol = .error e := by
  have hn : 0 < n := by have := hw.clampedV.len; have := hw.knotsV; omega
  obtain ⟨N, rfl⟩ : ∃ N, n = N + 1 := ⟨n - 1, by omega⟩
  have hs : Sized s m (N + 1) := ⟨hw.uCount, hw.vCount, hw.storage⟩
  unfold Surface.RemoveKnotU
  rw [hw.uCount, hw.vCount, show (m : Int) - times = ((m - times).toNat : ℕ) by omega, mk'_gridOf, bind_ok, Int.toNat_natCast,
    Surface.removeLoopU, show (0 : Int) = ((0 : ℕ) : Int) from rfl, hs.getV (by omega), bind_ok]
  simp only
  rw [hw.degreeU, he]; rfl

theorem removeKnotV_first (sqrt : K → K) {p q m n : ℕ} {s : Surface K} (hw : WFSurface p q m n s) {u : K} {times : Int} (ht : times ≤ n)
    {tol : K} {e : Err} (he : ∀ pts, KnotRemoval sqrt s.KnotsV pts q u times tol = .error e) : s.RemoveKnotV sqrt u times tol = .error e := by
  have hm : 0 < m := by have := hw.clampedU.len; have := hw.knotsU; omega
  obtain ⟨M, rfl⟩ : ∃ M, m = M + 1 := ⟨m - 1, by omega⟩
  have hs : Sized s (M + 1) n := ⟨hw.uCount, hw.vCount, hw.storage⟩
  unfold Surface.RemoveKnotV
  rw [hw.uCount, hw.vCount, show (n : Int) - times = ((n - times).toNat : ℕ) by omega, mk'_gridOf, bind_ok, Int.toNat_natCast,
    Surface.removeLoopV, show (0 : Int) = ((0 : ℕ) : Int) from rfl, hs.getU (by omega), bind_ok]
  simp only
  rw [hw.degreeV, he]; rfl

/-- C110 (removal from surfaces; partial).  Full statement: `RemoveKnotU` and `RemoveKnotV` refuse, like `Curve::RemoveKnot`, every
value that is not strictly between 0 and 1.  They refuse those outside `[0,1]`.  Missing: 0 and 1 – see
`C110_remove_zero_refuted`, `C110_remove_one_refuted`. -/
theorem C110_remove_surface_partial (sqrt : K → K) {p q m n : ℕ} {s : Surface K} (hw : WFSurface p q m n s) {u : K} (h : ¬ (0 ≤ u ∧ u ≤ 1))
    {times : Int} (tol : K) :
    (times ≤ m → s.RemoveKnotU sqrt u times tol = .error .assert) ∧ (times ≤ n → s.RemoveKnotV sqrt u times tol = .error .assert) :=
  ⟨fun ht => removeKnotU_first sqrt hw ht fun _ => knotRemoval_outside _ _ _ _ _ _ h,
    fun ht => removeKnotV_first sqrt hw ht fun _ => knotRemoval_outside _ _ _ _ _ _ h⟩

/-- C110 (refutation, removal of 0 from surfaces).  On every well-formed surface, for every tolerance, the removal of the knot 0
reads before the beginning of the list of points. -/
theorem C110_remove_zero_refuted (sqrt : K → K) {p q m n : ℕ} {s : Surface K} (hw : WFSurface p q m n s) {times : Int} (h1 : 1 ≤ times) (tol : K) :
    (times ≤ m → s.RemoveKnotU sqrt 0 times tol = .error .ub) ∧ (times ≤ n → s.RemoveKnotV sqrt 0 times tol = .error .ub) :=
  ⟨fun ht => removeKnotU_first sqrt hw ht fun _ => knotRemoval_zero sqrt hw.clampedU _ _ h1 _,
    fun ht => removeKnotV_first sqrt hw ht fun _ => knotRemoval_zero sqrt hw.clampedV _ _ h1 _⟩

end exact

/-- A surface whose first two columns of points coincide. -/
def exTwin : Surface ℚ :=
  ⟨2, 1, ⟨[0, 0, 0, 1/3, 1, 1, 1]⟩, ⟨[0, 0, 1, 1]⟩,
    ⟨4, 2, [⟨0, 0, 0, 1⟩, ⟨0, 0, 0, 1⟩, ⟨2, 0, 1, 3⟩, ⟨3, 0, 0, 1⟩,
      ⟨0, 1, 1, 2⟩, ⟨0, 1, 1, 2⟩, ⟨2, 2, 0, 1⟩, ⟨4, 1, 5, 1⟩]⟩⟩

theorem exTwin_wf : WFSurface 2 1 4 2 exTwin :=
  ⟨rfl, rfl, ⟨by decide +kernel, by decide +kernel, by decide +kernel, by decide +kernel, by decide +kernel,
    by decide +kernel⟩, ⟨by decide +kernel, by decide +kernel, by decide +kernel, by decide +kernel, by decide +kernel,
    by decide +kernel⟩, rfl, rfl, rfl, rfl, rfl, by decide +kernel⟩

/-- The surface that the removal of 1 from `exTwin` returns: the knot 1/3 and the first column are gone. -/
def exTwinAfter : Surface ℚ :=
  ⟨2, 1, ⟨[0, 0, 0, 1, 1, 1]⟩, ⟨[0, 0, 1, 1]⟩,
    ⟨3, 2, [⟨0, 0, 0, 1⟩, ⟨2, 0, 1, 3⟩, ⟨3, 0, 0, 1⟩, ⟨0, 1, 1, 2⟩, ⟨2, 2, 0, 1⟩, ⟨4, 1, 5, 1⟩]⟩⟩

/-- C110 (refutation, removal of 1 from surfaces).  With tolerance zero the removal of the knot 1 reports one removed knot; it has
removed the knot 1/3 instead, and the surface is another one. -/
theorem C110_remove_one_refuted :
    exTwin.RemoveKnotU (fun x => x) 1 1 0 = .ok (exTwinAfter, 1) ∧
      exTwin.Evaluate (1/2) 0 ≠ exTwinAfter.Evaluate (1/2) 0 := by
  constructor <;> decide +kernel

/-! ### concrete cases -/

example : exCurve.Evaluate (3/2) = .error .assert := (C110_curve exCurve exCurve.Knots 2 1 (by decide +kernel)).1
example : exSurface.EvaluateAll (1/2) (-1) 1 1 = .error .assert := (C110_surface exSurface 1 1 (.inr (by decide +kernel))).2.1
example : exSurface.SearchParameter (fun x => x) 100 0 2 (1/2) 1 1 = .error .assert :=
  C110_search _ _ _ _ _ _ (.inl (by decide +kernel))
example : exCurve.InsertKnot 1 = .error .assert := (C110_insert exCurve.Knots exCurve exSurface 1 (by decide +kernel)).2.1
example : ∃ s', exSurface.InsertKnotUList [1/2] = .ok s' ∧ exSurface.InsertKnotUList [1/2, 1, 2] = .error .assert := by
  have h : (exSurface.InsertKnotUList [1/2]).isOk := by decide +kernel
  obtain ⟨s', hs⟩ : ∃ s', exSurface.InsertKnotUList [1/2] = .ok s' := by
    revert h; cases exSurface.InsertKnotUList [1/2] with
    | ok a => exact fun _ => ⟨a, rfl⟩
    | error e => exact fun h => nomatch h
  exact ⟨s', hs, (C110_insertList_surface exSurface [1/2] [2] (by decide +kernel)).1 s' hs⟩
example : ∃ c', exCurve.InsertKnotList [1/2] = .ok c' ∧ exCurve.InsertKnotList [1/2, 2] = .error .assert := by
  have h : (exCurve.InsertKnotList [1/2]).isOk := by decide +kernel
  obtain ⟨c', hc⟩ : ∃ c', exCurve.InsertKnotList [1/2] = .ok c' := by
    revert h; cases exCurve.InsertKnotList [1/2] with
    | ok a => exact fun _ => ⟨a, rfl⟩
    | error e => exact fun h => nomatch h
  exact ⟨c', hc, C110_insertList_partial exCurve [1/2] [] (by decide +kernel) c' hc⟩
example : exCurve.RemoveKnot (fun x => x) 1 1 5 = .error .assert := C110_remove _ _ _ _ (.inl (by decide +kernel))
example : exCurve.ElevateDegree 0 = .error .assert := C110_elevate exCurve (by decide)
example : exSurface.ElevateDegreeU (-2) = .error .assert ∧ exSurface.ElevateDegreeV (-4) = .error .throws :=
  ⟨(C110_elevate_surface exSurface_wf (by decide)).1.1 (by decide), (C110_elevate_surface exSurface_wf (by decide)).2.2 (by decide)⟩
/-- Asked to insert 1 twice, the list form divides zero by zero. -/
example : exCurve.InsertKnotTimes 1 2 = .error .nonfinite := by decide +kernel
example : ∃ c', exCurve.InsertKnotList [1] = .ok c' ∧ c'.Evaluate 1 = .error .nonfinite ∧ c'.Evaluate (1/2) = exCurve.Evaluate (1/2) := by
  obtain ⟨c', h, _, _, _, _, _, h1, h2⟩ := C110_one_refuted (by decide) exCurve_wf
  exact ⟨c', h, h1, h2 _ (by decide +kernel) (by decide +kernel)⟩
example : ∃ c', exCurve.InsertKnotList [0] = .ok c' ∧ c'.Evaluate 0 = .error .nonfinite ∧ c'.Evaluate 1 = exCurve.Evaluate 1 := by
  obtain ⟨c', h, _, _, _, _, _, h1, h2⟩ := C110_zero_refuted (by decide) exCurve_wf
  exact ⟨c', h, h1, h2 _ (by decide +kernel) (by decide +kernel)⟩
example : exSurface.RemoveKnotU (fun x => x) 2 1 5 = .error .assert :=
  (C110_remove_surface_partial _ exSurface_wf (by decide +kernel) 5).1 (by decide)
example : exSurface.RemoveKnotV (fun x => x) 0 1 5 = .error .ub :=
  (C110_remove_zero_refuted _ exSurface_wf (by decide) 5).2 (by decide)

end Nurbs.Props
