import Verif.Proof.Hodograph
import Verif.Props.Curve

/-! # C99: the velocity of a curve is a curve, and its control points bound the chords -/

set_option linter.unusedSectionVars false

namespace Nurbs.Props
open Nurbs Nurbs.Spec Polynomial

variable {K : Type} [Field K] [LinearOrder K] [IsStrictOrderedRing K]

theorem hodograph_weight {q : ℕ} (c : Curve K) :
    ∀ i < (hodograph (q + 1) c).ControlPoints.length, (pt (hodograph (q + 1) c).ControlPoints i).w = 1 := by
  intro i hi
  rw [pt_hodograph (by simpa [hodograph] using hi)]

/-- C99 (derivatives).  If all weights are equal, the derivatives of the curve are those of its curve of velocities (degree one less,
knots without the first and the last, control points `p (P_{i+1} - P_i) / (U[i+p+1] - U[i+1])`), one order lower. -/
theorem C99_derivatives {q : ℕ} {c : Curve K} (hw : WFCurve (q + 1) c) {W : K} (he : ∀ i < c.ControlPoints.length, (pt c.ControlPoints i).w = W)
    {x : K} (h0 : 0 ≤ x) (h1 : x ≤ 1) {m : ℕ} (hm : m ≤ 28) :
    WFCurve q (hodograph (q + 1) c) ∧
      ∃ D, c.EvaluateDerivative x ((m : Int) + 1) = .ok D ∧ (hodograph (q + 1) c).EvaluateDerivative x m = .ok D := by
  have hwh := hodograph_wf hw
  obtain ⟨k, hk, hpk, hl⟩ := exists_span hw.clamped h0 h1
  have hlt := IsSpan.lt hk
  have hr : RegSpan (kn c.Knots.Values) k (q + 1) := regSpan_of_sorted hw.clamped.sorted hlt (by omega)
  have hk' : IsSpan (hodograph (q + 1) c).Knots.Values x (k - 1) := isSpan_inner hk hpk hl
  obtain ⟨hpk', hl', hr', _, _⟩ := evaluate_seg hwh h0 h1 hk'
  have get : ∀ {p : ℕ} {c : Curve K} {k : ℕ} (_ : WFCurve p c) (_ : IsSpan c.Knots.Values x k) (m : ℕ) (_ : m ≤ 29),
      c.EvaluateDerivative x m = .ok (ratD p c k x m) := by
    intro p c k hw hk m hm
    obtain ⟨_, h⟩ := curve_evaluateAll_ok hw h0 h1 hk m hm
    unfold Curve.EvaluateDerivative
    refine (congrArg (fun z => z >>= _) h).trans ?_
    rw [bind_ok]
    exact vget_tab _ _ _ _ rfl (by omega)
  refine ⟨hwh, _, ?_, get hwh hk' m (by omega)⟩
  have := get hw hk (m + 1) (by omega)
  push_cast at this
  rw [this, ratD_flat hw he hpk hl hr, ratD_flat hwh (hodograph_weight c) hpk' hl' hr']
  simp only [Function.iterate_succ_apply]
  rw [segP_hodograph hw hpk hl hlt (·.x) (fun i hi => by rw [pt_hodograph hi]), segP_hodograph hw hpk hl hlt (·.y) (fun i hi => by rw [pt_hodograph hi]),
    segP_hodograph hw hpk hl hlt (·.z) (fun i hi => by rw [pt_hodograph hi])]

/-- C99 (velocity).  In particular the first derivative is the point of the curve of velocities. -/
theorem C99_velocity {q : ℕ} {c : Curve K} (hw : WFCurve (q + 1) c) {W : K} (he : ∀ i < c.ControlPoints.length, (pt c.ControlPoints i).w = W)
    {x : K} (h0 : 0 ≤ x) (h1 : x ≤ 1) : ∃ D, c.EvaluateDerivative x 1 = .ok D ∧ (hodograph (q + 1) c).Evaluate x = .ok D := by
  obtain ⟨hwh, D, a, b⟩ := C99_derivatives hw he h0 h1 (m := 0) (by omega)
  refine ⟨D, by simpa using a, ?_⟩
  obtain ⟨k, hk, hpk, hl⟩ := exists_span hwh.clamped h0 h1
  obtain ⟨_, h⟩ := curve_evaluateAll_ok hwh h0 h1 hk 0 (by omega)
  obtain ⟨_, _, hr, _⟩ := evaluate_seg hwh h0 h1 hk
  rw [evaluate_flat hwh (hodograph_weight c) h0 h1 hk]
  unfold Curve.EvaluateDerivative at b
  have b2 := (congrArg (fun z => z >>= fun l => vget l ((0 : ℕ) : Int)) h).symm.trans b
  rw [bind_ok, vget_tab _ _ _ 0 rfl (by omega), ratD_flat hwh (hodograph_weight c) hpk hl hr] at b2
  simpa [segP_eval] using b2

/-- C99 (speed).  A half-space that contains the control points of the curve of velocities contains all velocities. -/
theorem C99_speed {q : ℕ} {c : Curve K} (hw : WFCurve (q + 1) c) {W : K} (he : ∀ i < c.ControlPoints.length, (pt c.ControlPoints i).w = W)
    {a : Vec3 K} {b : K} (hb : ∀ i < (hodograph (q + 1) c).ControlPoints.length, form a (pt (hodograph (q + 1) c).ControlPoints i).x
      (pt (hodograph (q + 1) c).ControlPoints i).y (pt (hodograph (q + 1) c).ControlPoints i).z ≤ b) {x : K} (h0 : 0 ≤ x) (h1 : x ≤ 1) :
    ∃ D, c.EvaluateDerivative x 1 = .ok D ∧ form a D.x D.y D.z ≤ b := by
  obtain ⟨D, h, e⟩ := C99_velocity hw he h0 h1
  obtain ⟨k, C, _, _, hkl, e2, hull⟩ := C25_convex_hull (hodograph_wf hw) h0 h1
  obtain rfl : D = C := by rw [e] at e2; injection e2
  exact ⟨D, h, hull a b fun i _ hi => hb i (by omega)⟩

/-- C99 (chords).  If moreover no interior knot is repeated more than `p` times, a half-space through the control points of the curve of
velocities bounds every chord: `a·(C(y) - C(x)) ≤ b (y - x)` for `x ≤ y`. -/
theorem C99_chord {q : ℕ} {c : Curve K} (hw : WFCurve (q + 1) c) {W : K} (he : ∀ i < c.ControlPoints.length, (pt c.ControlPoints i).w = W)
    (hmult : ∀ x, ¬ JumpAt (q + 1) c.Knots.Values x) {a : Vec3 K} {b : K}
    (hb : ∀ i < (hodograph (q + 1) c).ControlPoints.length, form a (pt (hodograph (q + 1) c).ControlPoints i).x
      (pt (hodograph (q + 1) c).ControlPoints i).y (pt (hodograph (q + 1) c).ControlPoints i).z ≤ b)
    {x y : K} (h0 : 0 ≤ x) (hxy : x ≤ y) (h1 : y ≤ 1) :
    ∃ C D, c.Evaluate x = .ok C ∧ c.Evaluate y = .ok D ∧ form a D.x D.y D.z - form a C.x C.y C.z ≤ b * (y - x) := by
  have hct := hw.count
  obtain ⟨j, hj, aj, bj⟩ := exists_span hw.clamped h0 (hxy.trans h1)
  obtain ⟨k, hk, ak, bk⟩ := exists_span hw.clamped (h0.trans hxy) h1
  refine ⟨_, _, evaluate_flat hw he h0 (hxy.trans h1) hj, evaluate_flat hw he (h0.trans hxy) h1 hk, ?_⟩
  have hform : ∀ (k : ℕ) (x : K), form a (seg (kn c.Knots.Values) k x (q + 1) fun i => (pt c.ControlPoints i).x)
      (seg (kn c.Knots.Values) k x (q + 1) fun i => (pt c.ControlPoints i).y) (seg (kn c.Knots.Values) k x (q + 1) fun i => (pt c.ControlPoints i).z) =
      seg (kn c.Knots.Values) k x (q + 1) fun i => form a (pt c.ControlPoints i).x (pt c.ControlPoints i).y (pt c.ControlPoints i).z := by
    intro k x
    unfold form seg
    simp only [smul_eq_mul, Finset.mul_sum, ← Finset.sum_add_distrib]
    refine Finset.sum_congr rfl fun n _ => ?_
    ring
  rw [hform, hform]
  refine spline_chord hw.clamped hmult (fun i hi1 hi2 => ?_) (k - j) j k x y le_rfl h0 h1 hxy hj hk
  have := hb (i - 1) (by simp only [hodograph, List.length_map, List.length_range]; omega)
  rw [pt_hodograph (by omega), show i - 1 + 1 = i by omega, show i - 1 + (q + 1) + 1 = i + (q + 1) by omega] at this
  refine le_trans (le_of_eq ?_) this
  unfold form
  ring

/-- Parabolic pieces with equal weights on the knots of `exCurve`. -/
def exFlat : Curve ℚ := ⟨2, ⟨[0, 0, 0, 1/4, 1/2, 1/2, 1, 1, 1]⟩, [⟨0, 0, 0, 3⟩, ⟨1, 2, 0, 3⟩, ⟨2, -1, 1, 3⟩, ⟨3, 1, 0, 3⟩, ⟨4, 3, 1, 3⟩, ⟨5, 0, 2, 3⟩]⟩
example : WFCurve (1 + 1) exFlat ∧ ∀ i < exFlat.ControlPoints.length, (pt exFlat.ControlPoints i).w = 3 :=
  ⟨⟨by decide +kernel, ⟨by decide +kernel, by decide +kernel, by decide +kernel, by decide +kernel, by decide +kernel, by decide +kernel⟩,
    by decide +kernel, by decide +kernel⟩, by decide +kernel⟩
example : hodograph 2 exFlat = ⟨1, ⟨[0, 0, 1/4, 1/2, 1/2, 1, 1]⟩, [⟨8, 16, 0, 1⟩, ⟨4, -12, 4, 1⟩, ⟨8, 16, -8, 1⟩, ⟨4, 8, 4, 1⟩, ⟨4, -12, 4, 1⟩]⟩ := by
  decide +kernel
example : exFlat.EvaluateDerivative (1/3) 1 = .ok ⟨16/3, -8/3, 0⟩ ∧ (hodograph 2 exFlat).Evaluate (1/3) = .ok ⟨16/3, -8/3, 0⟩ := by decide +kernel
/-- The bound 8 of the velocity along the first axis and a chord from 1/8 to 3/4. -/
example : (∀ i < (hodograph (1 + 1) exFlat).ControlPoints.length, form ⟨1, 0, 0⟩ (pt (hodograph (1 + 1) exFlat).ControlPoints i).x
      (pt (hodograph (1 + 1) exFlat).ControlPoints i).y (pt (hodograph (1 + 1) exFlat).ControlPoints i).z ≤ 8) ∧
    exFlat.Evaluate (1/8) = .ok ⟨7/8, 9/8, 1/8⟩ ∧ exFlat.Evaluate (3/4) = .ok ⟨4, 7/4, 1⟩ := by decide +kernel
/-- No interior knot is repeated more than twice. -/
example : ∀ x : ℚ, ¬ JumpAt (1 + 1) exFlat.Knots.Values x := by
  rintro x ⟨h1, h2, i, hi, e1, e2⟩
  subst e1
  revert h1 h2 e2
  have hi' : i < 7 := by
    have : exFlat.Knots.Values.length = 9 := rfl
    omega
  interval_cases i <;> decide +kernel
/-- With different weights the velocity is another one. -/
example : exCurve.EvaluateDerivative (1/3) 1 ≠ (hodograph 2 exCurve).Evaluate (1/3) := by decide +kernel

/-- Where a knot is repeated more than `p` times the curve may jump: all velocities are 0, yet the ends differ. -/
def exStep : Curve ℚ := ⟨1, ⟨[0, 0, 1/2, 1/2, 1, 1]⟩, [⟨0, 0, 0, 1⟩, ⟨0, 0, 0, 1⟩, ⟨1, 0, 0, 1⟩, ⟨1, 0, 0, 1⟩]⟩
example : (∀ i < (hodograph 1 exStep).ControlPoints.length, (pt (hodograph 1 exStep).ControlPoints i).x ≤ 0) ∧
    exStep.Evaluate 0 = .ok ⟨0, 0, 0⟩ ∧ exStep.Evaluate 1 = .ok ⟨1, 0, 0⟩ := by decide +kernel

end Nurbs.Props
