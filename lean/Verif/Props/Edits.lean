import Verif.Props.Hull
import Verif.Props.RemovalWeightsSurface
import Verif.Props.Deriv

/-! # C111: any number of edits, one after the other

The theorems on the single functions speak of one call on a well-formed curve.  Here the calls are put together: whatever is done
to a curve, in whatever order and however often, the curve stays well-formed and the deviations add up. -/

namespace Nurbs.Props
open Nurbs Nurbs.Spec KnotRemovalImpl

set_option linter.unusedSectionVars false

variable {K : Type} [Field K] [LinearOrder K] [IsStrictOrderedRing K]

/-- `R` keeps lengths (rotations and reflections). -/
def KeepsLength (R : Mat3 K) : Prop := ∀ a : Vec3 K, sqLen (matApply R a) = sqLen a

/-- The matrices one after the other, the last of the list first. -/
def turnAll (Rs : List (Mat3 K)) (P : Vec3 K) : Vec3 K := Rs.foldr matApply P

/-- The histories of a curve: `Edits rem sqrt p₀ c₀ p c Rs d` says that calls of the library that returned normally have made the curve
`c` of degree `p` of the curve `c₀` of degree `p₀`, that `Rs` are the matrices it was transformed by (the latest first), and that the
tolerances of its successful knot removals, each times the number of knots removed, sum up to `d`.  Removals are allowed only if
`rem` is true; then the matrices must keep lengths. -/
inductive Edits (rem : Bool) (sqrt : K → K) (p₀ : ℕ) (c₀ : Curve K) : ℕ → Curve K → List (Mat3 K) → K → Prop
  | start : Edits rem sqrt p₀ c₀ p₀ c₀ [] 0
  | insert {p c Rs d v c'} : Edits rem sqrt p₀ c₀ p c Rs d → 0 < v → v < 1 → c.InsertKnot v = .ok c' → Edits rem sqrt p₀ c₀ p c' Rs d
  | insertList {p c Rs d vs c'} : Edits rem sqrt p₀ c₀ p c Rs d → (∀ v ∈ vs, 0 < v ∧ v < 1) → c.InsertKnotList vs = .ok c' →
      Edits rem sqrt p₀ c₀ p c' Rs d
  | insertTimes {p c Rs d v c'} {times : ℕ} : Edits rem sqrt p₀ c₀ p c Rs d → 0 < v → v < 1 → c.InsertKnotTimes v times = .ok c' →
      Edits rem sqrt p₀ c₀ p c' Rs d
  | remove {p c Rs d u eps c'} {times : ℕ} : Edits rem sqrt p₀ c₀ p c Rs d → rem = true → 0 < u → u < 1 → Separated c.Knots.Values u →
      c.Knots.Values.count u ≤ p → times ≤ c.Knots.Values.count u → 0 ≤ eps → c.RemoveKnot sqrt u times eps = .ok (c', (times : Int)) →
      Edits rem sqrt p₀ c₀ p c' Rs (d + times * eps)
  | removeFailed {p c Rs d u eps c'} {times : Int} : Edits rem sqrt p₀ c₀ p c Rs d → rem = true → c.RemoveKnot sqrt u times eps = .ok (c', 0) →
      Edits rem sqrt p₀ c₀ p c' Rs d
  | elevate {p c Rs d c'} {t : ℕ} : Edits rem sqrt p₀ c₀ p c Rs d → 1 ≤ t → p + t ≤ 29 → InteriorMult p c.Knots.Values → KnotsApart c.Knots.Values →
      SteadyMult p t c.Knots.Values → c.ControlPoints.length + t * spanCount c.Knots.Values ≤ 2 * (c.ControlPoints.length - 1 + t) →
      c.ElevateDegree t = .ok c' → Edits rem sqrt p₀ c₀ (p + t) c' Rs d
  | transform {p c Rs d R} : Edits rem sqrt p₀ c₀ p c Rs d → (rem = true → KeepsLength R) →
      Edits rem sqrt p₀ c₀ p (c.Transform R) (R :: Rs) d

/-! ### lengths -/

theorem sqDist_self (a : Vec3 K) : sqDist a a = 0 := by unfold sqDist; ring

/-- The triangle inequality without square roots. -/
theorem sqDist_triangle {a b c : Vec3 K} {α β : K} (hα : 0 ≤ α) (hβ : 0 ≤ β) (h1 : sqDist a b ≤ α ^ 2) (h2 : sqDist b c ≤ β ^ 2) :
    sqDist a c ≤ (α + β) ^ 2 := by
  unfold sqDist at *
  obtain ⟨x1, hx1⟩ : ∃ t, t = a.x - b.x := ⟨_, rfl⟩
  obtain ⟨y1, hy1⟩ : ∃ t, t = a.y - b.y := ⟨_, rfl⟩
  obtain ⟨z1, hz1⟩ : ∃ t, t = a.z - b.z := ⟨_, rfl⟩
  obtain ⟨x2, hx2⟩ : ∃ t, t = b.x - c.x := ⟨_, rfl⟩
  obtain ⟨y2, hy2⟩ : ∃ t, t = b.y - c.y := ⟨_, rfl⟩
  obtain ⟨z2, hz2⟩ : ∃ t, t = b.z - c.z := ⟨_, rfl⟩
  rw [← hx1, ← hy1, ← hz1] at h1
  rw [← hx2, ← hy2, ← hz2] at h2
  rw [show a.x - c.x = x1 + x2 by rw [hx1, hx2]; ring, show a.y - c.y = y1 + y2 by rw [hy1, hy2]; ring,
    show a.z - c.z = z1 + z2 by rw [hz1, hz2]; ring]
  have hcs : (x1 * x2 + y1 * y2 + z1 * z2) ^ 2 ≤ (α * β) ^ 2 := by
    calc (x1 * x2 + y1 * y2 + z1 * z2) ^ 2 ≤ (x1 ^ 2 + y1 ^ 2 + z1 ^ 2) * (x2 ^ 2 + y2 ^ 2 + z2 ^ 2) := by
          nlinarith [sq_nonneg (x1 * y2 - y1 * x2), sq_nonneg (x1 * z2 - z1 * x2), sq_nonneg (y1 * z2 - z1 * y2)]
      _ ≤ α ^ 2 * β ^ 2 := mul_le_mul h1 h2 (by positivity) (by positivity)
      _ = (α * β) ^ 2 := by ring
  have hd : x1 * x2 + y1 * y2 + z1 * z2 ≤ α * β := abs_le_of_sq_le_sq' hcs (by positivity) |>.2
  nlinarith

theorem keepsLength_dist {R : Mat3 K} (h : KeepsLength R) (a b : Vec3 K) : sqDist (matApply R a) (matApply R b) = sqDist a b := by
  have e := h ⟨a.x - b.x, a.y - b.y, a.z - b.z⟩
  unfold sqLen matApply at e
  unfold sqDist matApply
  rw [← e]
  ring

theorem hullKept_ones {old new : List (Vec4 K)} (h : HullKept old new) (h1 : ∀ a ∈ old, a.w = 1) : ∀ a ∈ new, a.w = 1 := fun a ha => by
  obtain ⟨l, r⟩ := h.2 1 1 (fun P hP => by rw [h1 P hP]; exact ⟨le_rfl, le_rfl⟩) a ha
  exact le_antisymm r l

theorem transform_wf {p : ℕ} {c : Curve K} (hw : WFCurve p c) (R : Mat3 K) : WFCurve p (c.Transform R) := wf_map hw _ (fun _ hv => hv)

theorem transform_evaluate {p : ℕ} {c : Curve K} (hw : WFCurve p c) (R : Mat3 K) {x : K} (h0 : 0 ≤ x) (h1 : x ≤ 1) {P : Vec3 K}
    (hP : c.Evaluate x = .ok P) : (c.Transform R).Evaluate x = .ok (matApply R P) := by
  obtain ⟨C, e1, e2⟩ := (C27_transform_curve hw R).2.2.2 x h0 h1
  rw [hP] at e1
  rw [e2, Except.ok.inj e1]

/-! ### C111 -/

/-- C111 (no removals).  However often knots are inserted, the degree elevated and the curve transformed by any matrices, for
all weights: the curve is well-formed and each of its points is the transformed point of the given curve, exactly. -/
theorem C111_exact {sqrt : K → K} {p₀ p : ℕ} {c₀ c : Curve K} {Rs : List (Mat3 K)} {d : K} (hp : 1 ≤ p₀) (hw : WFCurve p₀ c₀)
    (h : Edits false sqrt p₀ c₀ p c Rs d) :
    p₀ ≤ p ∧ WFCurve p c ∧ ∀ x, 0 ≤ x → x ≤ 1 → ∃ C, c₀.Evaluate x = .ok C ∧ c.Evaluate x = .ok (turnAll Rs C) := by
  induction h with
  | start => exact ⟨le_rfl, hw, fun x h0 h1 => ⟨_, (C23_evaluate hw h0 h1).1, (C23_evaluate hw h0 h1).1⟩⟩
  | insert _ a b e ih =>
    obtain ⟨i1, i2, i3⟩ := ih
    obtain ⟨c2, e2, hw2, _, _, q⟩ := C30_insertKnot (hp.trans i1) i2 a b
    obtain rfl := Except.ok.inj (e.symm.trans e2)
    refine ⟨i1, hw2, fun x h0 h1 => ?_⟩
    obtain ⟨C, r1, r2⟩ := i3 x h0 h1
    obtain ⟨C', s1, s2⟩ := q x h0 h1
    exact ⟨C, r1, by rw [s2, ← s1, r2]⟩
  | insertList _ a e ih =>
    obtain ⟨i1, i2, i3⟩ := ih
    obtain ⟨c2, e2, hw2, _, _, q⟩ := C31_insertKnotList i2 _ a
    obtain rfl := Except.ok.inj (e.symm.trans e2)
    refine ⟨i1, hw2, fun x h0 h1 => ?_⟩
    obtain ⟨C, r1, r2⟩ := i3 x h0 h1
    obtain ⟨C', s1, s2⟩ := q x h0 h1
    exact ⟨C, r1, by rw [s2, ← s1, r2]⟩
  | @insertTimes p c Rs d v c' times _ a b e ih =>
    obtain ⟨i1, i2, i3⟩ := ih
    rw [C31_insertKnotTimes] at e
    obtain ⟨c2, e2, hw2, _, _, q⟩ := C31_insertKnotList i2 (List.replicate times v) (fun w hw => by rw [List.eq_of_mem_replicate hw]; exact ⟨a, b⟩)
    obtain rfl := Except.ok.inj (e.symm.trans e2)
    refine ⟨i1, hw2, fun x h0 h1 => ?_⟩
    obtain ⟨C, r1, r2⟩ := i3 x h0 h1
    obtain ⟨C', s1, s2⟩ := q x h0 h1
    exact ⟨C, r1, by rw [s2, ← s1, r2]⟩
  | remove _ hr => exact absurd hr (by decide)
  | removeFailed _ hr => exact absurd hr (by decide)
  | elevate _ a1 a2 a3 a4 a5 a6 e ih =>
    obtain ⟨i1, i2, i3⟩ := ih
    obtain ⟨c2, e2, hw2, _, _, _, q⟩ := elevateDegree_ok (hp.trans i1) a1 a2 i2 a3 a4 a5 a6
    obtain rfl := Except.ok.inj (e.symm.trans e2)
    refine ⟨by omega, hw2, fun x h0 h1 => ?_⟩
    obtain ⟨C, r1, r2⟩ := i3 x h0 h1
    exact ⟨C, r1, by rw [q, r2]⟩
  | transform _ _ ih =>
    obtain ⟨i1, i2, i3⟩ := ih
    refine ⟨i1, transform_wf i2 _, fun x h0 h1 => ?_⟩
    obtain ⟨C, r1, r2⟩ := i3 x h0 h1
    exact ⟨C, r1, transform_evaluate i2 _ h0 h1 r2⟩

/-- C111 (with removals; partial).  Full statement: for all curves.  Here for curves with weights 1 (then all weights stay 1): however
often knots are inserted and removed, the degree elevated and the curve turned, the curve is well-formed and none of its points is
farther from the turned point of the given curve than the sum of the tolerances.  Missing: other weights (`C87_rational_refuted`,
`C88_weights_refuted`: false after one removal). -/
theorem C111_tolerance_partial {sqrt : K → K} (hsq : ∀ x, 0 ≤ x → 0 ≤ sqrt x ∧ sqrt x * sqrt x = x) {p₀ p : ℕ} {c₀ c : Curve K}
    {Rs : List (Mat3 K)} {d : K} (hp : 1 ≤ p₀) (hw : WFCurve p₀ c₀) (hone : ∀ a ∈ c₀.ControlPoints, a.w = 1)
    (h : Edits true sqrt p₀ c₀ p c Rs d) :
    p₀ ≤ p ∧ WFCurve p c ∧ (∀ a ∈ c.ControlPoints, a.w = 1) ∧ 0 ≤ d ∧
      ∀ x, 0 ≤ x → x ≤ 1 → ∃ C C', c₀.Evaluate x = .ok C ∧ c.Evaluate x = .ok C' ∧ sqDist C' (turnAll Rs C) ≤ d ^ 2 := by
  induction h with
  | start => exact ⟨le_rfl, hw, hone, le_rfl, fun x h0 h1 => ⟨_, _, (C23_evaluate hw h0 h1).1, (C23_evaluate hw h0 h1).1, by
      show sqDist _ _ ≤ _
      rw [show turnAll ([] : List (Mat3 K)) (nurbsPoint p₀ c₀ x) = nurbsPoint p₀ c₀ x from rfl, sqDist_self]; positivity⟩⟩
  | insert _ a b e ih =>
    obtain ⟨i1, i2, i3, i4, i5⟩ := ih
    obtain ⟨c2, e2, hw2, _, _, q⟩ := C30_insertKnot (hp.trans i1) i2 a b
    obtain ⟨c3, e3, hh⟩ := C89_insertKnot (hp.trans i1) i2 a b
    obtain rfl := Except.ok.inj (e.symm.trans e2)
    obtain rfl := Except.ok.inj (e.symm.trans e3)
    refine ⟨i1, hw2, hullKept_ones hh i3, i4, fun x h0 h1 => ?_⟩
    obtain ⟨C, D, r1, r2, r3⟩ := i5 x h0 h1
    obtain ⟨C', s1, s2⟩ := q x h0 h1
    exact ⟨C, D, r1, by rw [s2, ← s1, r2], r3⟩
  | insertList _ a e ih =>
    obtain ⟨i1, i2, i3, i4, i5⟩ := ih
    obtain ⟨c2, e2, hw2, _, _, q⟩ := C31_insertKnotList i2 _ a
    obtain ⟨c3, e3, hh⟩ := C89_insertKnotList i2 _ a
    obtain rfl := Except.ok.inj (e.symm.trans e2)
    obtain rfl := Except.ok.inj (e.symm.trans e3)
    refine ⟨i1, hw2, hullKept_ones hh i3, i4, fun x h0 h1 => ?_⟩
    obtain ⟨C, D, r1, r2, r3⟩ := i5 x h0 h1
    obtain ⟨C', s1, s2⟩ := q x h0 h1
    exact ⟨C, D, r1, by rw [s2, ← s1, r2], r3⟩
  | @insertTimes p c Rs d v c' times _ a b e ih =>
    obtain ⟨i1, i2, i3, i4, i5⟩ := ih
    rw [C31_insertKnotTimes] at e
    have hv : ∀ w ∈ List.replicate times v, 0 < w ∧ w < 1 := fun w hw => by rw [List.eq_of_mem_replicate hw]; exact ⟨a, b⟩
    obtain ⟨c2, e2, hw2, _, _, q⟩ := C31_insertKnotList i2 _ hv
    obtain ⟨c3, e3, hh⟩ := C89_insertKnotList i2 _ hv
    obtain rfl := Except.ok.inj (e.symm.trans e2)
    obtain rfl := Except.ok.inj (e.symm.trans e3)
    refine ⟨i1, hw2, hullKept_ones hh i3, i4, fun x h0 h1 => ?_⟩
    obtain ⟨C, D, r1, r2, r3⟩ := i5 x h0 h1
    obtain ⟨C', s1, s2⟩ := q x h0 h1
    exact ⟨C, D, r1, by rw [s2, ← s1, r2], r3⟩
  | @remove p c Rs d u eps c' times _ _ a1 a2 a3 a4 a5 a6 e ih =>
    obtain ⟨i1, i2, i3, i4, i5⟩ := ih
    have ht : 1 ≤ times := by
      by_contra hc
      unfold Curve.RemoveKnot at e
      rw [massert_true ⟨a1, a2⟩, bind_ok, massert_false (by omega)] at e
      exact absurd e (by simp [bind_error])
    obtain ⟨c2, t, e2, w2, _, q2⟩ := C88_polynomial_partial i2 i3 a1 a2 a3 a4 sqrt a6 ht a5
    obtain ⟨rfl, rfl⟩ := Prod.mk.inj (Except.ok.inj (e.symm.trans e2))
    obtain ⟨_, _, q⟩ := C87_polynomial i2 i3 a1 a2 a3 a4 hsq a6 a5 e (D := 0) ⟨le_rfl, .inl rfl⟩
    have hn : 0 ≤ (times : K) * eps := by positivity
    refine ⟨i1, q2 rfl, w2, by positivity, fun x h0 h1 => ?_⟩
    obtain ⟨C, D, r1, r2, r3⟩ := i5 x h0 h1
    obtain ⟨D', E, s1, s2, s3⟩ := q x h0 h1
    obtain rfl := Except.ok.inj (r2.symm.trans s1)
    refine ⟨C, E, r1, s2, ?_⟩
    rw [add_comm]
    exact sqDist_triangle hn i4 (by simpa using s3) r3
  | removeFailed _ _ e ih =>
    obtain ⟨i1, i2, i3, i4, i5⟩ := ih
    rw [(C34_failed_removal_partial e).2.2.2 i3]
    exact ⟨i1, i2, i3, i4, i5⟩
  | elevate _ a1 a2 a3 a4 a5 a6 e ih =>
    obtain ⟨i1, i2, i3, i4, i5⟩ := ih
    obtain ⟨c2, e2, hw2, _, _, _, q⟩ := elevateDegree_ok (hp.trans i1) a1 a2 i2 a3 a4 a5 a6
    obtain ⟨c3, e3, hh⟩ := C89_elevate_partial i2 (hp.trans i1) a1 a2 a3 a4 a5 a6
    obtain rfl := Except.ok.inj (e.symm.trans e2)
    obtain rfl := Except.ok.inj (e.symm.trans e3)
    refine ⟨by omega, hw2, hullKept_ones hh i3, i4, fun x h0 h1 => ?_⟩
    obtain ⟨C, D, r1, r2, r3⟩ := i5 x h0 h1
    exact ⟨C, D, r1, by rw [q, r2], r3⟩
  | @transform p c Rs d R _ hR ih =>
    obtain ⟨i1, i2, i3, i4, i5⟩ := ih
    refine ⟨i1, transform_wf i2 _, ?_, i4, fun x h0 h1 => ?_⟩
    · intro a ha
      obtain ⟨b, hb, rfl⟩ := List.mem_map.mp ha
      exact i3 b hb
    · obtain ⟨C, D, r1, r2, r3⟩ := i5 x h0 h1
      refine ⟨C, _, r1, transform_evaluate i2 _ h0 h1 r2, ?_⟩
      show sqDist (matApply R D) (matApply R (turnAll Rs C)) ≤ _
      rw [keepsLength_dist (hR rfl)]
      exact r3

/-- C111 (nothing gets stuck; partial as above).  After any history every further call returns normally: evaluation and derivatives
up to order 29 at every parameter, all insertions, every removal of a knot of multiplicity at most the degree that is apart from the others,
every elevation of a continuous curve within the known limits (C36). -/
theorem C111_total_partial {sqrt : K → K} (hsq : ∀ x, 0 ≤ x → 0 ≤ sqrt x ∧ sqrt x * sqrt x = x) {p₀ p : ℕ} {c₀ c : Curve K}
    {Rs : List (Mat3 K)} {d : K} (hp : 1 ≤ p₀) (hw : WFCurve p₀ c₀) (hone : ∀ a ∈ c₀.ControlPoints, a.w = 1)
    (h : Edits true sqrt p₀ c₀ p c Rs d) :
    (∀ x, 0 ≤ x → x ≤ 1 → (∃ C, c.Evaluate x = .ok C) ∧ ∀ order : ℕ, order ≤ 29 → ∃ D, c.EvaluateDerivative x order = .ok D) ∧
    (∀ vs : List K, (∀ v ∈ vs, 0 < v ∧ v < 1) → ∃ c', c.InsertKnotList vs = .ok c') ∧
    (∀ v, 0 < v → v < 1 → ∃ c', c.InsertKnot v = .ok c') ∧
    (∀ u, 0 < u → u < 1 → Separated c.Knots.Values u → c.Knots.Values.count u ≤ p → ∀ eps, 0 ≤ eps → ∀ times : ℕ, 1 ≤ times →
      times ≤ c.Knots.Values.count u → ∃ r, c.RemoveKnot sqrt u times eps = .ok r) ∧
    (∀ t : ℕ, 1 ≤ t → p + t ≤ 29 → InteriorMult p c.Knots.Values → KnotsApart c.Knots.Values → SteadyMult p t c.Knots.Values →
      c.ControlPoints.length + t * spanCount c.Knots.Values ≤ 2 * (c.ControlPoints.length - 1 + t) → ∃ c', c.ElevateDegree t = .ok c') := by
  obtain ⟨i1, i2, i3, _, _⟩ := C111_tolerance_partial hsq hp hw hone h
  refine ⟨fun x h0 h1 => ⟨⟨_, (C23_evaluate i2 h0 h1).1⟩, fun order ho => ?_⟩, fun vs hv => ?_, fun v a b => ?_, ?_, ?_⟩
  · obtain ⟨_, _, _, _, _, _, _, _, _, _, _, _, _, _, _, e⟩ := C29_evaluateAll_partial i2 h0 h1 order ho
    exact ⟨_, e⟩
  · obtain ⟨c', e, _⟩ := C31_insertKnotList i2 vs hv
    exact ⟨c', e⟩
  · obtain ⟨c', e, _⟩ := C30_insertKnot (hp.trans i1) i2 a b
    exact ⟨c', e⟩
  · intro u a1 a2 a3 a4 eps a6 times ht a5
    obtain ⟨c2, t, e2, _⟩ := C88_polynomial_partial i2 i3 a1 a2 a3 a4 sqrt a6 ht a5
    exact ⟨_, e2⟩
  · intro t a1 a2 a3 a4 a5 a6
    obtain ⟨c2, e2, _⟩ := elevateDegree_ok (hp.trans i1) a1 a2 i2 a3 a4 a5 a6
    exact ⟨c2, e2⟩

/-! ### surfaces -/

/-- The histories of a surface: `EditsS rem sqrt p₀ q₀ m₀ n₀ s₀ p q m n s Rs d` says that calls of the library that returned normally
have made the surface `s` of degrees `p`, `q` with `m * n` control points of the surface `s₀`; `Rs`, `d` and `rem` as for curves. -/
inductive EditsS (rem : Bool) (sqrt : K → K) (p₀ q₀ m₀ n₀ : ℕ) (s₀ : Surface K) : ℕ → ℕ → ℕ → ℕ → Surface K → List (Mat3 K) → K → Prop
  | start : EditsS rem sqrt p₀ q₀ m₀ n₀ s₀ p₀ q₀ m₀ n₀ s₀ [] 0
  | insertU {p q m n s Rs d v s'} : EditsS rem sqrt p₀ q₀ m₀ n₀ s₀ p q m n s Rs d → 0 < v → v < 1 → s.InsertKnotU v = .ok s' →
      EditsS rem sqrt p₀ q₀ m₀ n₀ s₀ p q (m + 1) n s' Rs d
  | insertV {p q m n s Rs d v s'} : EditsS rem sqrt p₀ q₀ m₀ n₀ s₀ p q m n s Rs d → 0 < v → v < 1 → s.InsertKnotV v = .ok s' →
      EditsS rem sqrt p₀ q₀ m₀ n₀ s₀ p q m (n + 1) s' Rs d
  | insertListU {p q m n s Rs d vs s'} : EditsS rem sqrt p₀ q₀ m₀ n₀ s₀ p q m n s Rs d → (∀ v ∈ vs, 0 < v ∧ v < 1) → s.InsertKnotUList vs = .ok s' →
      EditsS rem sqrt p₀ q₀ m₀ n₀ s₀ p q (m + vs.length) n s' Rs d
  | insertListV {p q m n s Rs d vs s'} : EditsS rem sqrt p₀ q₀ m₀ n₀ s₀ p q m n s Rs d → (∀ v ∈ vs, 0 < v ∧ v < 1) → s.InsertKnotVList vs = .ok s' →
      EditsS rem sqrt p₀ q₀ m₀ n₀ s₀ p q m (n + vs.length) s' Rs d
  | removeU {p q m n s Rs d u eps s'} {times : ℕ} : EditsS rem sqrt p₀ q₀ m₀ n₀ s₀ p q m n s Rs d → rem = true → 0 < u → u < 1 →
      Separated s.KnotsU.Values u → s.KnotsU.Values.count u ≤ p → 1 ≤ times → times ≤ s.KnotsU.Values.count u → 0 ≤ eps →
      s.RemoveKnotU sqrt u times eps = .ok (s', (times : Int)) → EditsS rem sqrt p₀ q₀ m₀ n₀ s₀ p q (m - times) n s' Rs (d + times * eps)
  | removeV {p q m n s Rs d u eps s'} {times : ℕ} : EditsS rem sqrt p₀ q₀ m₀ n₀ s₀ p q m n s Rs d → rem = true → 0 < u → u < 1 →
      Separated s.KnotsV.Values u → s.KnotsV.Values.count u ≤ q → 1 ≤ times → times ≤ s.KnotsV.Values.count u → 0 ≤ eps →
      s.RemoveKnotV sqrt u times eps = .ok (s', (times : Int)) → EditsS rem sqrt p₀ q₀ m₀ n₀ s₀ p q m (n - times) s' Rs (d + times * eps)
  | removeFailedU {p q m n s Rs d u eps s'} {times : Int} : EditsS rem sqrt p₀ q₀ m₀ n₀ s₀ p q m n s Rs d → rem = true →
      s.RemoveKnotU sqrt u times eps = .ok (s', 0) → EditsS rem sqrt p₀ q₀ m₀ n₀ s₀ p q m n s' Rs d
  | removeFailedV {p q m n s Rs d u eps s'} {times : Int} : EditsS rem sqrt p₀ q₀ m₀ n₀ s₀ p q m n s Rs d → rem = true →
      s.RemoveKnotV sqrt u times eps = .ok (s', 0) → EditsS rem sqrt p₀ q₀ m₀ n₀ s₀ p q m n s' Rs d
  | elevateU {p q n s Rs d s'} {t : ℕ} : EditsS rem sqrt p₀ q₀ m₀ n₀ s₀ p q (p + 1) n s Rs d → 1 ≤ t → p + t ≤ 29 → s.ElevateDegreeU t = .ok s' →
      EditsS rem sqrt p₀ q₀ m₀ n₀ s₀ (p + t) q (p + t + 1) n s' Rs d
  | elevateV {p q m s Rs d s'} {t : ℕ} : EditsS rem sqrt p₀ q₀ m₀ n₀ s₀ p q m (q + 1) s Rs d → 1 ≤ t → q + t ≤ 29 → s.ElevateDegreeV t = .ok s' →
      EditsS rem sqrt p₀ q₀ m₀ n₀ s₀ p (q + t) m (q + t + 1) s' Rs d
  | transform {p q m n s Rs d R} : EditsS rem sqrt p₀ q₀ m₀ n₀ s₀ p q m n s Rs d → (rem = true → KeepsLength R) →
      EditsS rem sqrt p₀ q₀ m₀ n₀ s₀ p q m n (s.Transform R) (R :: Rs) d

theorem transform_wfS {p q m n : ℕ} {s : Surface K} (hw : WFSurface p q m n s) (R : Mat3 K) : WFSurface p q m n (s.Transform R) :=
  (C27_transform_surface hw R).1

theorem transform_evaluateS {p q m n : ℕ} {s : Surface K} (hw : WFSurface p q m n s) (R : Mat3 K) {u v : K} (hu0 : 0 ≤ u) (hu1 : u ≤ 1)
    (hv0 : 0 ≤ v) (hv1 : v ≤ 1) {P : Vec3 K} (hP : s.Evaluate u v = .ok P) : (s.Transform R).Evaluate u v = .ok (matApply R P) := by
  obtain ⟨C, e1, e2⟩ := (C27_transform_surface hw R).2.2.2.2 u v hu0 hu1 hv0 hv1
  rw [hP] at e1
  rw [e2, Except.ok.inj e1]

/-- C111 (surfaces, no removals).  However often knots are inserted in both directions, the degrees elevated and the surface transformed
by any matrices, for all weights: the surface is well-formed and each of its points is the transformed point of the given surface. -/
theorem C111_exact_surface {p₀ q₀ m₀ n₀ p q m n : ℕ} {s₀ s : Surface K} {Rs : List (Mat3 K)} {sqrt : K → K} {d : K} (hp : 1 ≤ p₀) (hq : 1 ≤ q₀)
    (hw : WFSurface p₀ q₀ m₀ n₀ s₀) (h : EditsS false sqrt p₀ q₀ m₀ n₀ s₀ p q m n s Rs d) :
    p₀ ≤ p ∧ q₀ ≤ q ∧ WFSurface p q m n s ∧ ∀ u v, 0 ≤ u → u ≤ 1 → 0 ≤ v → v ≤ 1 →
      ∃ S, s₀.Evaluate u v = .ok S ∧ s.Evaluate u v = .ok (turnAll Rs S) := by
  induction h with
  | start => exact ⟨le_rfl, le_rfl, hw, fun u v a b c d => ⟨_, (C43_evaluate hw a b c d).1, (C43_evaluate hw a b c d).1⟩⟩
  | insertU _ a b e ih =>
    obtain ⟨i1, i2, i3, i4⟩ := ih
    obtain ⟨s2, e2, hw2, _, _, r⟩ := C46_insertKnotU (hp.trans i1) i3 a b
    obtain rfl := Except.ok.inj (e.symm.trans e2)
    refine ⟨i1, i2, hw2, fun u v a b c d => ?_⟩
    obtain ⟨S, r1, r2⟩ := i4 u v a b c d
    obtain ⟨S', s1, s2⟩ := r u v a b c d
    exact ⟨S, r1, by rw [s2, ← s1, r2]⟩
  | insertV _ a b e ih =>
    obtain ⟨i1, i2, i3, i4⟩ := ih
    obtain ⟨s2, e2, hw2, _, _, r⟩ := C46_insertKnotV (hq.trans i2) i3 a b
    obtain rfl := Except.ok.inj (e.symm.trans e2)
    refine ⟨i1, i2, hw2, fun u v a b c d => ?_⟩
    obtain ⟨S, r1, r2⟩ := i4 u v a b c d
    obtain ⟨S', s1, s2⟩ := r u v a b c d
    exact ⟨S, r1, by rw [s2, ← s1, r2]⟩
  | insertListU _ a e ih =>
    obtain ⟨i1, i2, i3, i4⟩ := ih
    obtain ⟨s2, e2, hw2, _, _, _, r⟩ := C46_insertKnotU_list (hp.trans i1) i3 _ a
    obtain rfl := Except.ok.inj (e.symm.trans e2)
    refine ⟨i1, i2, hw2, fun u v a b c d => ?_⟩
    obtain ⟨S, r1, r2⟩ := i4 u v a b c d
    obtain ⟨S', s1, s2⟩ := r u v a b c d
    exact ⟨S, r1, by rw [s2, ← s1, r2]⟩
  | insertListV _ a e ih =>
    obtain ⟨i1, i2, i3, i4⟩ := ih
    obtain ⟨s2, e2, hw2, _, _, _, r⟩ := C46_insertKnotV_list (hq.trans i2) i3 _ a
    obtain rfl := Except.ok.inj (e.symm.trans e2)
    refine ⟨i1, i2, hw2, fun u v a b c d => ?_⟩
    obtain ⟨S, r1, r2⟩ := i4 u v a b c d
    obtain ⟨S', s1, s2⟩ := r u v a b c d
    exact ⟨S, r1, by rw [s2, ← s1, r2]⟩
  | elevateU _ a b e ih =>
    obtain ⟨i1, i2, i3, i4⟩ := ih
    obtain ⟨s2, e2, hw2, _, _, r⟩ := C49_elevateU_partial i3 (hp.trans i1) a b
    obtain rfl := Except.ok.inj (e.symm.trans e2)
    refine ⟨by omega, i2, hw2, fun u v a b c d => ?_⟩
    obtain ⟨S, r1, r2⟩ := i4 u v a b c d
    exact ⟨S, r1, by rw [r, r2]⟩
  | elevateV _ a b e ih =>
    obtain ⟨i1, i2, i3, i4⟩ := ih
    obtain ⟨s2, e2, hw2, _, _, r⟩ := C49_elevateV_partial i3 (hq.trans i2) a b
    obtain rfl := Except.ok.inj (e.symm.trans e2)
    refine ⟨i1, by omega, hw2, fun u v a b c d => ?_⟩
    obtain ⟨S, r1, r2⟩ := i4 u v a b c d
    exact ⟨S, r1, by rw [r, r2]⟩
  | removeU _ hr => exact absurd hr (by decide)
  | removeV _ hr => exact absurd hr (by decide)
  | removeFailedU _ hr => exact absurd hr (by decide)
  | removeFailedV _ hr => exact absurd hr (by decide)
  | @transform p q m n s Rs d R _ _ ih =>
    obtain ⟨i1, i2, i3, i4⟩ := ih
    refine ⟨i1, i2, transform_wfS i3 R, fun u v a b c d => ?_⟩
    obtain ⟨S, r1, r2⟩ := i4 u v a b c d
    exact ⟨S, r1, transform_evaluateS i3 R a b c d r2⟩

theorem ones_iff {p q m n : ℕ} {s : Surface K} (hw : WFSurface p q m n s) :
    (∀ a ∈ s.ControlPoints.Values, a.w = 1) ↔ ∀ i < m, ∀ j < n, (cp s i j).w = 1 := by
  have hl := hw.storage
  have hm : 0 < m := by have := hw.clampedU.len; have := hw.knotsU; omega
  constructor
  · intro h i hi j hj
    have hlt : j * m + i < s.ControlPoints.Values.length := by rw [hl]; exact cell_lt hi hj
    refine h _ ?_
    simp only [cp, hw.uCount, Int.toNat_natCast]
    rw [List.getD_eq_getElem _ _ hlt]
    exact List.getElem_mem hlt
  · intro h a ha
    obtain ⟨k, hk, rfl⟩ := List.getElem_of_mem ha
    have hj : k / m < n := by
      rw [Nat.div_lt_iff_lt_mul hm]
      rw [hl] at hk
      nlinarith
    have := h (k % m) (Nat.mod_lt _ hm) (k / m) hj
    simp only [cp, hw.uCount, Int.toNat_natCast] at this
    rw [Nat.div_add_mod', List.getD_eq_getElem _ _ hk] at this
    exact this

/-- C111 (surfaces with removals; partial as for curves): weights 1. -/
theorem C111_tolerance_surface_partial {sqrt : K → K} (hsq : ∀ x, 0 ≤ x → 0 ≤ sqrt x ∧ sqrt x * sqrt x = x) {p₀ q₀ m₀ n₀ p q m n : ℕ}
    {s₀ s : Surface K} {Rs : List (Mat3 K)} {d : K} (hp : 1 ≤ p₀) (hq : 1 ≤ q₀) (hw : WFSurface p₀ q₀ m₀ n₀ s₀)
    (hone : ∀ a ∈ s₀.ControlPoints.Values, a.w = 1) (h : EditsS true sqrt p₀ q₀ m₀ n₀ s₀ p q m n s Rs d) :
    p₀ ≤ p ∧ q₀ ≤ q ∧ WFSurface p q m n s ∧ (∀ a ∈ s.ControlPoints.Values, a.w = 1) ∧ 0 ≤ d ∧ ∀ u v, 0 ≤ u → u ≤ 1 → 0 ≤ v → v ≤ 1 →
      ∃ S S', s₀.Evaluate u v = .ok S ∧ s.Evaluate u v = .ok S' ∧ sqDist S' (turnAll Rs S) ≤ d ^ 2 := by
  induction h with
  | start => exact ⟨le_rfl, le_rfl, hw, hone, le_rfl, fun u v a b c d => ⟨_, _, (C43_evaluate hw a b c d).1, (C43_evaluate hw a b c d).1, by
      show sqDist _ _ ≤ _
      rw [show turnAll ([] : List (Mat3 K)) (surfPoint p₀ q₀ m₀ n₀ s₀ u v) = surfPoint p₀ q₀ m₀ n₀ s₀ u v from rfl, sqDist_self]; positivity⟩⟩
  | insertU _ a b e ih =>
    obtain ⟨i1, i2, i3, i4, i5, i6⟩ := ih
    obtain ⟨s2, e2, hw2, _, _, r⟩ := C46_insertKnotU (hp.trans i1) i3 a b
    obtain ⟨s3, e3, hh⟩ := (C89_insertKnotUV i3 a b).1 (hp.trans i1)
    obtain rfl := Except.ok.inj (e.symm.trans e2)
    obtain rfl := Except.ok.inj (e.symm.trans e3)
    refine ⟨i1, i2, hw2, hullKept_ones hh i4, i5, fun u v a b c d => ?_⟩
    obtain ⟨S, S', r1, r2, r3⟩ := i6 u v a b c d
    obtain ⟨S2, s1, s2⟩ := r u v a b c d
    exact ⟨S, S', r1, by rw [s2, ← s1, r2], r3⟩
  | insertV _ a b e ih =>
    obtain ⟨i1, i2, i3, i4, i5, i6⟩ := ih
    obtain ⟨s2, e2, hw2, _, _, r⟩ := C46_insertKnotV (hq.trans i2) i3 a b
    obtain ⟨s3, e3, hh⟩ := (C89_insertKnotUV i3 a b).2 (hq.trans i2)
    obtain rfl := Except.ok.inj (e.symm.trans e2)
    obtain rfl := Except.ok.inj (e.symm.trans e3)
    refine ⟨i1, i2, hw2, hullKept_ones hh i4, i5, fun u v a b c d => ?_⟩
    obtain ⟨S, S', r1, r2, r3⟩ := i6 u v a b c d
    obtain ⟨S2, s1, s2⟩ := r u v a b c d
    exact ⟨S, S', r1, by rw [s2, ← s1, r2], r3⟩
  | insertListU _ a e ih =>
    obtain ⟨i1, i2, i3, i4, i5, i6⟩ := ih
    obtain ⟨s2, e2, hw2, _, _, _, r⟩ := C46_insertKnotU_list (hp.trans i1) i3 _ a
    obtain ⟨s3, e3, hh⟩ := C89_insertKnotUList (hp.trans i1) i3 _ a
    obtain rfl := Except.ok.inj (e.symm.trans e2)
    obtain rfl := Except.ok.inj (e.symm.trans e3)
    refine ⟨i1, i2, hw2, hullKept_ones hh i4, i5, fun u v a b c d => ?_⟩
    obtain ⟨S, S', r1, r2, r3⟩ := i6 u v a b c d
    obtain ⟨S2, s1, s2⟩ := r u v a b c d
    exact ⟨S, S', r1, by rw [s2, ← s1, r2], r3⟩
  | insertListV _ a e ih =>
    obtain ⟨i1, i2, i3, i4, i5, i6⟩ := ih
    obtain ⟨s2, e2, hw2, _, _, _, r⟩ := C46_insertKnotV_list (hq.trans i2) i3 _ a
    obtain ⟨s3, e3, hh⟩ := C89_insertKnotVList (hq.trans i2) i3 _ a
    obtain rfl := Except.ok.inj (e.symm.trans e2)
    obtain rfl := Except.ok.inj (e.symm.trans e3)
    refine ⟨i1, i2, hw2, hullKept_ones hh i4, i5, fun u v a b c d => ?_⟩
    obtain ⟨S, S', r1, r2, r3⟩ := i6 u v a b c d
    obtain ⟨S2, s1, s2⟩ := r u v a b c d
    exact ⟨S, S', r1, by rw [s2, ← s1, r2], r3⟩
  | @removeU p q m n s Rs d u eps s' times _ _ a1 a2 a3 a4 a5 a6 a7 e ih =>
    obtain ⟨i1, i2, i3, i4, i5, i6⟩ := ih
    obtain ⟨s2, t, e2, _, w2⟩ := C88_surfaceU_partial i3 ((ones_iff i3).mp i4) a1 a2 a3 a4 sqrt a7 a5 a6
    obtain ⟨rfl, rfl⟩ := Prod.mk.inj (Except.ok.inj (e.symm.trans e2))
    obtain ⟨hw2, o2⟩ := w2 rfl
    obtain ⟨_, _, _, _, mv⟩ := C87_surfaceU_partial i3 a1 a2 a3 a4 hsq a7 a5 a6 e (D := 0) (fun _ _ => ⟨le_rfl, .inl rfl⟩)
    have hn : 0 ≤ (times : K) * eps := by positivity
    refine ⟨i1, i2, hw2, (ones_iff hw2).mpr o2, by positivity, fun u v a b c d => ?_⟩
    obtain ⟨S, S', r1, r2, r3⟩ := i6 u v a b c d
    obtain ⟨T, T', s1, s2, s3⟩ := (mv u v a b c d).2 ((ones_iff i3).mp i4)
    obtain rfl := Except.ok.inj (r2.symm.trans s1)
    refine ⟨S, T', r1, s2, ?_⟩
    rw [add_comm]
    exact sqDist_triangle hn i5 (by simpa using s3) r3
  | @removeV p q m n s Rs d u eps s' times _ _ a1 a2 a3 a4 a5 a6 a7 e ih =>
    obtain ⟨i1, i2, i3, i4, i5, i6⟩ := ih
    obtain ⟨s2, t, e2, _, w2⟩ := C88_surfaceV_partial i3 ((ones_iff i3).mp i4) a1 a2 a3 a4 sqrt a7 a5 a6
    obtain ⟨rfl, rfl⟩ := Prod.mk.inj (Except.ok.inj (e.symm.trans e2))
    obtain ⟨hw2, o2⟩ := w2 rfl
    obtain ⟨_, _, _, _, mv⟩ := C87_surfaceV_partial i3 a1 a2 a3 a4 hsq a7 a5 a6 e (D := 0) (fun _ _ => ⟨le_rfl, .inl rfl⟩)
    have hn : 0 ≤ (times : K) * eps := by positivity
    refine ⟨i1, i2, hw2, (ones_iff hw2).mpr o2, by positivity, fun u v a b c d => ?_⟩
    obtain ⟨S, S', r1, r2, r3⟩ := i6 u v a b c d
    obtain ⟨T, T', s1, s2, s3⟩ := (mv u v a b c d).2 ((ones_iff i3).mp i4)
    obtain rfl := Except.ok.inj (r2.symm.trans s1)
    refine ⟨S, T', r1, s2, ?_⟩
    rw [add_comm]
    exact sqDist_triangle hn i5 (by simpa using s3) r3
  | removeFailedU _ _ e ih =>
    obtain ⟨i1, i2, i3, i4, i5, i6⟩ := ih
    rw [C48_failed_removal.1 (by rw [i3.vCount]; have := i3.clampedV.len; have := i3.knotsV; omega) e]
    exact ⟨i1, i2, i3, i4, i5, i6⟩
  | removeFailedV _ _ e ih =>
    obtain ⟨i1, i2, i3, i4, i5, i6⟩ := ih
    rw [C48_failed_removal.2 (by rw [i3.uCount]; have := i3.clampedU.len; have := i3.knotsU; omega) e]
    exact ⟨i1, i2, i3, i4, i5, i6⟩
  | elevateU _ a b e ih =>
    obtain ⟨i1, i2, i3, i4, i5, i6⟩ := ih
    obtain ⟨s2, e2, hw2, _, _, r⟩ := C49_elevateU_partial i3 (hp.trans i1) a b
    obtain ⟨s3, e3, hh⟩ := C89_elevateU_partial i3 (hp.trans i1) a b
    obtain rfl := Except.ok.inj (e.symm.trans e2)
    obtain rfl := Except.ok.inj (e.symm.trans e3)
    refine ⟨by omega, i2, hw2, hullKept_ones hh i4, i5, fun u v a b c d => ?_⟩
    obtain ⟨S, S', r1, r2, r3⟩ := i6 u v a b c d
    exact ⟨S, S', r1, by rw [r, r2], r3⟩
  | elevateV _ a b e ih =>
    obtain ⟨i1, i2, i3, i4, i5, i6⟩ := ih
    obtain ⟨s2, e2, hw2, _, _, r⟩ := C49_elevateV_partial i3 (hq.trans i2) a b
    obtain ⟨s3, e3, hh⟩ := C89_elevateV_partial i3 (hq.trans i2) a b
    obtain rfl := Except.ok.inj (e.symm.trans e2)
    obtain rfl := Except.ok.inj (e.symm.trans e3)
    refine ⟨i1, by omega, hw2, hullKept_ones hh i4, i5, fun u v a b c d => ?_⟩
    obtain ⟨S, S', r1, r2, r3⟩ := i6 u v a b c d
    exact ⟨S, S', r1, by rw [r, r2], r3⟩
  | @transform p q m n s Rs d R _ hR ih =>
    obtain ⟨i1, i2, i3, i4, i5, i6⟩ := ih
    refine ⟨i1, i2, transform_wfS i3 R, ?_, i5, fun u v a b c d => ?_⟩
    · intro a ha
      obtain ⟨b, hb, rfl⟩ := List.mem_map.mp ha
      exact i4 b hb
    · obtain ⟨S, S', r1, r2, r3⟩ := i6 u v a b c d
      refine ⟨S, _, r1, transform_evaluateS i3 R a b c d r2, ?_⟩
      show sqDist (matApply R S') (matApply R (turnAll Rs S)) ≤ _
      rw [keepsLength_dist (hR rfl)]
      exact r3

/-- C111 (nothing gets stuck, surfaces; partial as above). -/
theorem C111_total_surface_partial {sqrt : K → K} (hsq : ∀ x, 0 ≤ x → 0 ≤ sqrt x ∧ sqrt x * sqrt x = x) {p₀ q₀ m₀ n₀ p q m n : ℕ}
    {s₀ s : Surface K} {Rs : List (Mat3 K)} {d : K} (hp : 1 ≤ p₀) (hq : 1 ≤ q₀) (hw : WFSurface p₀ q₀ m₀ n₀ s₀)
    (hone : ∀ a ∈ s₀.ControlPoints.Values, a.w = 1) (h : EditsS true sqrt p₀ q₀ m₀ n₀ s₀ p q m n s Rs d) :
    (∀ u v, 0 ≤ u → u ≤ 1 → 0 ≤ v → v ≤ 1 → ∃ S, s.Evaluate u v = .ok S) ∧
    (∀ vs : List K, (∀ v ∈ vs, 0 < v ∧ v < 1) → (∃ s', s.InsertKnotUList vs = .ok s') ∧ ∃ s', s.InsertKnotVList vs = .ok s') ∧
    (∀ v, 0 < v → v < 1 → (∃ s', s.InsertKnotU v = .ok s') ∧ ∃ s', s.InsertKnotV v = .ok s') ∧
    (∀ u, 0 < u → u < 1 → ∀ eps, 0 ≤ eps → ∀ times : ℕ, 1 ≤ times →
      (Separated s.KnotsU.Values u → s.KnotsU.Values.count u ≤ p → times ≤ s.KnotsU.Values.count u → ∃ r, s.RemoveKnotU sqrt u times eps = .ok r) ∧
      (Separated s.KnotsV.Values u → s.KnotsV.Values.count u ≤ q → times ≤ s.KnotsV.Values.count u → ∃ r, s.RemoveKnotV sqrt u times eps = .ok r)) ∧
    (∀ t : ℕ, 1 ≤ t → (m = p + 1 → p + t ≤ 29 → ∃ s', s.ElevateDegreeU t = .ok s') ∧ (n = q + 1 → q + t ≤ 29 → ∃ s', s.ElevateDegreeV t = .ok s')) := by
  obtain ⟨i1, i2, i3, i4, _, _⟩ := C111_tolerance_surface_partial hsq hp hq hw hone h
  have h1 := (ones_iff i3).mp i4
  refine ⟨fun u v a b c d => ⟨_, (C43_evaluate i3 a b c d).1⟩, fun vs hv => ?_, fun v a b => ?_, fun u a b eps he times ht => ?_, fun t ht => ?_⟩
  · obtain ⟨s1, e1, _⟩ := C46_insertKnotU_list (hp.trans i1) i3 vs hv
    obtain ⟨s2, e2, _⟩ := C46_insertKnotV_list (hq.trans i2) i3 vs hv
    exact ⟨⟨s1, e1⟩, s2, e2⟩
  · obtain ⟨s1, e1, _⟩ := C46_insertKnotU (hp.trans i1) i3 a b
    obtain ⟨s2, e2, _⟩ := C46_insertKnotV (hq.trans i2) i3 a b
    exact ⟨⟨s1, e1⟩, s2, e2⟩
  · refine ⟨fun a1 a2 a3 => ?_, fun a1 a2 a3 => ?_⟩
    · obtain ⟨s1, t, e1, _⟩ := C88_surfaceU_partial i3 h1 a b a1 a2 sqrt he ht a3
      exact ⟨_, e1⟩
    · obtain ⟨s1, t, e1, _⟩ := C88_surfaceV_partial i3 h1 a b a1 a2 sqrt he ht a3
      exact ⟨_, e1⟩
  · refine ⟨fun hm h29 => ?_, fun hn h29 => ?_⟩
    · subst hm
      obtain ⟨s1, e1, _⟩ := C49_elevateU_partial i3 (hp.trans i1) ht h29
      exact ⟨s1, e1⟩
    · subst hn
      obtain ⟨s1, e1, _⟩ := C49_elevateV_partial i3 (hq.trans i2) ht h29
      exact ⟨s1, e1⟩

/-! ### concrete cases -/

/-- A rotation. -/
def exRot345 : Mat3 K := ⟨⟨3/5, -4/5, 0⟩, ⟨4/5, 3/5, 0⟩, ⟨0, 0, 1⟩⟩

theorem exRot345_keeps : KeepsLength (exRot345 : Mat3 K) := by
  intro a
  simp only [sqLen, matApply, exRot345]
  ring

/-- A rational curve is elevated, gets a knot twice and is turned. -/
example : ∃ c', Edits false id 2 exElev 3 c' [exRot345] 0 ∧ ∀ x, 0 ≤ x → x ≤ 1 →
    ∃ C, exElev.Evaluate x = .ok C ∧ c'.Evaluate x = .ok (matApply exRot345 C) := by
  obtain ⟨c1, e1, w1, _⟩ := C36_once_partial exElev_wf (by norm_num) (by norm_num) exElev_mult exElev_apart
  obtain ⟨c2, e2, _⟩ := C31_insertKnotList w1 [1/4, 1/4] (by intro v hv; simp at hv; subst hv; norm_num)
  have h : Edits false id 2 exElev 3 (c2.Transform exRot345) [exRot345] 0 :=
    .transform (.insertList (.elevate (t := 1) .start le_rfl (by norm_num) exElev_mult exElev_apart (steady_of_low (by norm_num) le_rfl _)
      (buf_once exElev_wf) e1) (by intro v hv; simp at hv; subst hv; norm_num) e2) (fun _ => exRot345_keeps)
  exact ⟨_, h, (C111_exact (by norm_num) exElev_wf h).2.2⟩

/-- A curve with a flat corner. -/
noncomputable def exFlatCorner : Curve ℝ := exTwoLines ⟨0, 0, 0, 1⟩ ⟨1, 1/100, 0, 1⟩ ⟨2, 0, 0, 1⟩

theorem exFlatCorner_wf : WFCurve 1 exFlatCorner := exTwoLines_wf (by norm_num) (by norm_num) (by norm_num)

theorem exFlatCorner_removed : ∃ c', exFlatCorner.RemoveKnot Real.sqrt (1/2) 1 (1/10) = .ok (c', 1) := by
  have n2 : Real.sqrt (2 * 2) = 2 := Real.sqrt_mul_self (by norm_num)
  have n1 : Real.sqrt (1 + 1/100 * (1/100)) ≤ 2 := by rw [Real.sqrt_le_left (by norm_num)]; norm_num
  have n0 : Real.sqrt (1/100 * (1/100)) = 1/100 := Real.sqrt_mul_self (by norm_num)
  have ht : CalcTOL Real.sqrt ([(⟨0, 0, 0, 1⟩ : Vec4 ℝ), ⟨1, 1/100, 0, 1⟩, ⟨2, 0, 0, 1⟩].map ToHomo) (1/10) = .ok (1/30) := by
    unfold CalcTOL
    simp only [List.map_cons, List.map_nil, ToHomo, List.foldl_cons, List.foldl_nil, Vec4.head3, Vec3.norm, Vec3.dot, mul_one, mul_zero, add_zero,
      Real.sqrt_zero, n2, max_self]
    rw [min_eq_right (by norm_num), max_eq_right (Real.sqrt_nonneg _), max_eq_right n1, fdiv_ok (by norm_num)]
    norm_num
  have hr := exTwoLines_removed (a := (⟨0, 0, 0, 1⟩ : Vec4 ℝ)) (b := ⟨1, 1/100, 0, 1⟩) (c := ⟨2, 0, 0, 1⟩) (by norm_num) (by norm_num) (by norm_num) ht (by
    have : (1/2 : ℝ) • ToHomo (⟨2, 0, 0, 1⟩ : Vec4 ℝ) + (1/2 : ℝ) • ToHomo (⟨0, 0, 0, 1⟩ : Vec4 ℝ) - ToHomo ⟨1, 1/100, 0, 1⟩ = ⟨0, -(1/100), 0, 0⟩ := by
      ext <;> simp [ToHomo]; norm_num
    rw [this]
    simp only [Vec4.norm, mul_zero, zero_add, add_zero, neg_mul_neg, n0]
    norm_num)
  exact ⟨_, hr⟩

/-- The corner is removed within the tolerance 1/10, a knot is inserted, the curve is turned: it is within 1/10 of the turned curve. -/
example : ∃ c', Edits true Real.sqrt 1 exFlatCorner 1 c' [exRot345] (1/10) ∧ ∀ x, 0 ≤ x → x ≤ 1 →
    ∃ C C', exFlatCorner.Evaluate x = .ok C ∧ c'.Evaluate x = .ok C' ∧ sqDist C' (matApply exRot345 C) ≤ (1/10) ^ 2 := by
  have hsq : ∀ x : ℝ, 0 ≤ x → 0 ≤ Real.sqrt x ∧ Real.sqrt x * Real.sqrt x = x := fun x hx => ⟨Real.sqrt_nonneg x, Real.mul_self_sqrt hx⟩
  have hone : ∀ a ∈ exFlatCorner.ControlPoints, a.w = 1 := by
    intro a ha
    simp only [exFlatCorner, exTwoLines, List.mem_cons, List.not_mem_nil, or_false] at ha
    rcases ha with rfl | rfl | rfl <;> rfl
  obtain ⟨c1, e1⟩ := exFlatCorner_removed
  have h1 : Edits true Real.sqrt 1 exFlatCorner 1 c1 [] (0 + ((1 : ℕ) : ℝ) * (1/10)) :=
    .remove .start rfl (by norm_num) (by norm_num) exTwoLines_sep (le_of_eq exTwoLines_count) (le_of_eq exTwoLines_count.symm) (by norm_num) e1
  obtain ⟨c2, e2⟩ := (C111_total_partial hsq le_rfl exFlatCorner_wf hone h1).2.2.1 (1/3) (by norm_num) (by norm_num)
  have h := Edits.transform (.insert h1 (by norm_num) (by norm_num) e2) (fun _ => exRot345_keeps)
  rw [show (0 : ℝ) + ((1 : ℕ) : ℝ) * (1/10) = 1/10 by norm_num] at h
  exact ⟨_, h, (C111_tolerance_partial hsq le_rfl exFlatCorner_wf hone h).2.2.2.2⟩

/-- A rational surface is elevated in the u direction, gets knots in both directions and is transformed by a matrix. -/
example : ∃ s', EditsS false id 2 1 3 3 exElevSurf 3 1 6 4 s' [⟨⟨0, -1, 0⟩, ⟨1, 0, 0⟩, ⟨0, 0, 2⟩⟩] 0 ∧ ∀ u v, 0 ≤ u → u ≤ 1 → 0 ≤ v → v ≤ 1 →
    ∃ S, exElevSurf.Evaluate u v = .ok S ∧ s'.Evaluate u v = .ok (matApply ⟨⟨0, -1, 0⟩, ⟨1, 0, 0⟩, ⟨0, 0, 2⟩⟩ S) := by
  obtain ⟨s1, e1, w1, _⟩ := C49_elevateU_partial (p := 2) (times := 1) exElevSurf_wf (by norm_num) (by norm_num) (by norm_num)
  have hv : ∀ v ∈ [(1/4 : ℚ), 1/3], 0 < v ∧ v < 1 := by intro v hv; simp at hv; rcases hv with rfl | rfl <;> norm_num
  obtain ⟨s2, e2, w2, _⟩ := C46_insertKnotU_list (by norm_num) w1 [1/4, 1/3] hv
  obtain ⟨s3, e3, _⟩ := C46_insertKnotV le_rfl w2 (a := 1/5) (by norm_num) (by norm_num)
  have h : EditsS false id 2 1 3 3 exElevSurf 3 1 6 4 (s3.Transform ⟨⟨0, -1, 0⟩, ⟨1, 0, 0⟩, ⟨0, 0, 2⟩⟩) [⟨⟨0, -1, 0⟩, ⟨1, 0, 0⟩, ⟨0, 0, 2⟩⟩] 0 :=
    .transform (.insertV (.insertListU (.elevateU (p := 2) (t := 1) .start le_rfl (by norm_num) e1) hv e2)
    (by norm_num) (by norm_num) e3) (fun h => absurd h (by decide))
  exact ⟨_, h, (C111_exact_surface (by norm_num) le_rfl exElevSurf_wf h).2.2.2⟩

/-- A surface loses a knot within the tolerance 1 and is turned. -/
example : ∃ s', EditsS true Real.sqrt 1 1 3 2 exDiscU 1 1 2 2 s' [exRot345] 1 ∧ ∀ u v, 0 ≤ u → u ≤ 1 → 0 ≤ v → v ≤ 1 →
    ∃ S S', exDiscU.Evaluate u v = .ok S ∧ s'.Evaluate u v = .ok S' ∧ sqDist S' (matApply exRot345 S) ≤ 1 ^ 2 := by
  have hsq : ∀ x : ℝ, 0 ≤ x → 0 ≤ Real.sqrt x ∧ Real.sqrt x * Real.sqrt x = x := fun x hx => ⟨Real.sqrt_nonneg x, Real.mul_self_sqrt hx⟩
  obtain ⟨s1, e1⟩ := exDiscU_removed hsq
  have h : EditsS true Real.sqrt 1 1 3 2 exDiscU 1 1 (3 - 1) 2 (s1.Transform exRot345) [exRot345] (0 + ((1 : ℕ) : ℝ) * 1) :=
    .transform (.removeU .start rfl (by norm_num) (by norm_num) exDisc_sep.1 (le_of_eq exDisc_sep.2) le_rfl (le_of_eq exDisc_sep.2.symm) zero_le_one e1)
      (fun _ => exRot345_keeps)
  rw [show (0 : ℝ) + ((1 : ℕ) : ℝ) * 1 = 1 by norm_num] at h
  have hw := (exDisc_wf (K := ℝ)).1
  exact ⟨_, h, (C111_tolerance_surface_partial hsq le_rfl le_rfl hw ((ones_iff hw).mpr fun i hi j hj => by rw [exDiscU_cp hi hj, exDiscF_w]) h).2.2.2.2.2⟩

end Nurbs.Props
