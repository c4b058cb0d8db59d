import Verif.Props.Elevate
import Verif.Props.Bezier
import Verif.Proof.Unique
import Verif.Spec.Placement

/-! # C91: editing commutes with moving -/

namespace Nurbs.Props
open Nurbs Nurbs.Spec Polynomial

set_option linter.unusedSectionVars false

variable {K : Type} [Field K] [LinearOrder K] [IsStrictOrderedRing K]

/-- A placement on homogeneous coordinates. -/
def placeL (P : Placement K) : Vec4 K →ₗ[K] Vec4 K where
  toFun v := ⟨P.a * ((matApply P.R ⟨v.x, v.y, v.z⟩).x + P.t.x * v.w), P.a * ((matApply P.R ⟨v.x, v.y, v.z⟩).y + P.t.y * v.w),
    P.a * ((matApply P.R ⟨v.x, v.y, v.z⟩).z + P.t.z * v.w), P.a * v.w⟩
  map_add' u v := by ext <;> simp [matApply] <;> ring
  map_smul' c v := by ext <;> simp [matApply] <;> ring

theorem placeL_toHomo (P : Placement K) (v : Vec4 K) : ToHomo (P.cpt v) = placeL P (ToHomo v) := by
  ext <;> simp [placeL, ToHomo, Placement.cpt, Placement.pos, matApply] <;> ring

theorem placeL_w (P : Placement K) (v : Vec4 K) : (placeL P v).w = P.a * v.w := rfl

theorem proj_placeL (P : Placement K) (ha : P.a ≠ 0) (v : Vec4 K) (hv : v.w ≠ 0) : proj (placeL P v) = P.pos (proj v) := by
  ext <;> simp [placeL, proj, Placement.pos, matApply] <;> field_simp

theorem place_wf {p : ℕ} {c : Curve K} (hw : WFCurve p c) {P : Placement K} (ha : 0 < P.a) : WFCurve p (P.curve c) :=
  wf_map hw _ fun _ hv => mul_pos ha hv

theorem place_hpts (P : Placement K) (c : Curve K) {i : ℕ} (hi : i < c.ControlPoints.length) :
    hpts (P.curve c).ControlPoints i = placeL P (hpts c.ControlPoints i) := by
  unfold hpts Placement.curve
  rw [pt_map _ _ _ hi, placeL_toHomo]

theorem place_seg {p : ℕ} {c : Curve K} (hw : WFCurve p c) (P : Placement K) {x : K} (h0 : 0 ≤ x) (h1 : x ≤ 1) {k : ℕ}
    (hk : IsSpan c.Knots.Values x k) : seg (kn c.Knots.Values) k x p (hpts (P.curve c).ControlPoints) =
      placeL P (seg (kn c.Knots.Values) k x p (hpts c.ControlPoints)) := by
  obtain ⟨hpk, hl, _⟩ := evaluate_seg hw h0 h1 hk
  have := hw.count
  rw [seg_map]
  exact seg_congr hpk fun i _ hi => place_hpts P c (by omega)

theorem transform_place (c : Curve K) (R : Mat3 K) : c.Transform R = Placement.curve ⟨R, 0, 1⟩ c := by
  unfold Curve.Transform Placement.curve
  congr 1
  apply List.map_congr_left
  intro v _
  ext <;> simp [Curve.transformPoint, Placement.cpt, Placement.pos, matApply, Mat3.mulVec, Vec3.dot, Vec4.head3]

/-- Equal homogeneous points, equal curves. -/
theorem curve_ext_hpts {p : ℕ} {c c' : Curve K} (hw : WFCurve p c) (hw' : WFCurve p c') (hk : c'.Knots = c.Knots)
    (h : ∀ i < c.ControlPoints.length, hpts c'.ControlPoints i = hpts c.ControlPoints i) : c' = c := by
  have hct := hw.count
  have hct' := hw'.count
  rw [hk] at hct'
  have hlen : c'.ControlPoints.length = c.ControlPoints.length := by omega
  have hpts' : c'.ControlPoints = c.ControlPoints := by
    rw [eq_tab_pt c'.ControlPoints, eq_tab_pt c.ControlPoints, hlen]
    apply tab_congr
    intro i hi
    have e := congrArg unhomo (h i hi)
    unfold hpts at e
    rwa [unhomo_toHomo (hw'.weights i (by omega)).ne', unhomo_toHomo (hw.weights i hi).ne'] at e
  cases c; cases c'
  simp only at hk hpts'
  have d1 := hw.degree
  have d2 := hw'.degree
  simp only at d1 d2
  rw [hk, hpts', d1, d2]

/-- `insP` is linear. -/
theorem insP_map {V W : Type} [AddCommGroup V] [Module K V] [AddCommGroup W] [Module K W] (L : V →ₗ[K] W) (U : ℕ → K) (k : ℕ) (v : K)
    (p : ℕ) (P : ℕ → V) (i : ℕ) : insP U k v p (fun j => L (P j)) i = L (insP U k v p P i) := by
  unfold insP
  split_ifs
  · rfl
  · simp [step]
  · rfl

theorem place_ins {p : ℕ} {c : Curve K} (hw : WFCurve p c) {P : Placement K} (ha : 0 < P.a) {v : K} {k : ℕ}
    (hk : IsSpan c.Knots.Values v k) (h0 : 0 < v) (h1 : v < 1) : insCurve p k v (P.curve c) = P.curve (insCurve p k v c) := by
  have hw' := place_wf hw ha
  obtain ⟨_, _, hkn⟩ := ins_bounds hw hk h0 h1
  refine curve_ext_hpts (place_wf (insCurve_wf hw hk h0 h1) ha) (insCurve_wf hw' hk h0 h1) rfl fun i hi => ?_
  have hi' : i < c.ControlPoints.length + 1 := by simpa [Placement.curve, insCurve] using hi
  rw [place_hpts P _ (by simpa [insCurve] using hi'), insCurve_hpts hw hk h0 h1 i hi',
    insCurve_hpts hw' hk h0 h1 i (by simpa [Placement.curve] using hi'), ← insP_map]
  exact insP_congr c.ControlPoints.length hkn (fun j hj => place_hpts P c hj) i hi'

theorem place_insertList {p : ℕ} (vs : List K) (hv : ∀ v ∈ vs, 0 < v ∧ v < 1) {c : Curve K} (hw : WFCurve p c) {P : Placement K}
    (ha : 0 < P.a) : ∃ c', c.InsertKnotList vs = .ok c' ∧ (P.curve c).InsertKnotList vs = .ok (P.curve c') := by
  induction vs generalizing c with
  | nil => exact ⟨c, rfl, rfl⟩
  | cons v vs ih =>
    obtain ⟨h0, h1⟩ := hv v (by simp)
    obtain ⟨k, hk, _⟩ := exists_span hw.clamped h0.le h1.le
    obtain ⟨c', e1, e2⟩ := ih (fun v hv' => hv v (by simp [hv'])) (insCurve_wf hw hk h0 h1)
    refine ⟨c', ?_, ?_⟩
    · unfold Curve.InsertKnotList
      simp only [foldMList]
      rw [insertListStep_ok hw hk h0 h1, bind_ok]
      exact e1
    · unfold Curve.InsertKnotList
      simp only [foldMList]
      rw [insertListStep_ok (place_wf hw ha) hk h0 h1, bind_ok, place_ins hw ha hk h0 h1]
      exact e2

/-! ### Curves -/

/-- C91 (evaluation).  The moved curve evaluates to the moved points. -/
theorem C91_evaluate {p : ℕ} {c : Curve K} (hw : WFCurve p c) {P : Placement K} (ha : 0 < P.a) {x : K} (h0 : 0 ≤ x) (h1 : x ≤ 1) :
    ∃ C, c.Evaluate x = .ok C ∧ (P.curve c).Evaluate x = .ok (P.pos C) := by
  obtain ⟨k, hk, _⟩ := exists_span hw.clamped h0 h1
  obtain ⟨_, _, _, hpos, e⟩ := evaluate_seg hw h0 h1 hk
  obtain ⟨_, _, _, _, e'⟩ := evaluate_seg (place_wf hw ha) h0 h1 hk
  refine ⟨_, e, e'.trans ?_⟩
  congr 1
  exact (congrArg proj (place_seg hw P h0 h1 hk)).trans (proj_placeL P ha.ne' _ hpos.ne')

/-- C91 (insertion).  Inserting a knot into the moved curve is moving the result of the insertion. -/
theorem C91_insertKnot {p : ℕ} (hp : 1 ≤ p) {c : Curve K} (hw : WFCurve p c) {P : Placement K} (ha : 0 < P.a) {v : K} (h0 : 0 < v)
    (h1 : v < 1) : ∃ c', c.InsertKnot v = .ok c' ∧ (P.curve c).InsertKnot v = .ok (P.curve c') := by
  obtain ⟨k, hk, _⟩ := exists_span hw.clamped h0.le h1.le
  exact ⟨_, insertKnot_ok hw hk h0 h1 hp, by rw [insertKnot_ok (place_wf hw ha) hk h0 h1 hp, place_ins hw ha hk h0 h1]⟩

/-- C91 (insertion of a list). -/
theorem C91_insertKnotList {p : ℕ} (vs : List K) (hv : ∀ v ∈ vs, 0 < v ∧ v < 1) {c : Curve K} (hw : WFCurve p c) {P : Placement K}
    (ha : 0 < P.a) : ∃ c', c.InsertKnotList vs = .ok c' ∧ (P.curve c).InsertKnotList vs = .ok (P.curve c') :=
  place_insertList vs hv hw ha

/-- C91 (Bezier pieces).  The pieces of the moved curve are the moved pieces. -/
theorem C91_extractBezier {p : ℕ} (hp : 1 ≤ p) {c : Curve K} (hw : WFCurve p c)
    (hmult : ∀ v, 0 < v → v < 1 → c.Knots.Values.count v ≤ p) {P : Placement K} (ha : 0 < P.a) :
    ∃ segs, c.ExtractBezier = .ok segs ∧ (P.curve c).ExtractBezier = .ok (segs.map P.curve) := by
  obtain ⟨c1, m1, hw1, _, l1, n1, _, e1, vs, hvs, i1, rfl⟩ := extractBezier_spec hp hw hmult
  obtain ⟨c2, m2, hw2, _, l2, n2, _, e2, vs2, _, i2, rfl⟩ := extractBezier_spec hp (place_wf hw ha) hmult
  obtain ⟨c', e, e'⟩ := place_insertList _ hvs hw ha
  have hc1 : c' = c1 := Except.ok.inj (e.symm.trans i1)
  have hc2 : P.curve c' = c2 := Except.ok.inj (e'.symm.trans i2)
  subst hc1 hc2
  have hm : m2 = m1 := by
    have : (dvals (P.curve c).Knots).length = (dvals c.Knots).length := rfl
    omega
  subst hm
  refine ⟨_, e1, e2.trans ?_⟩
  congr 1
  simp only [tab, List.map_map]
  apply List.map_congr_left
  intro j hj
  rw [List.mem_range] at hj
  have := Nat.mul_le_mul_left p (show j + 1 ≤ m2 from hj)
  rw [Nat.mul_add, Nat.mul_one] at this
  simp only [Function.comp, bezSeg, Placement.curve]
  congr 1
  simp only [tab, List.map_map]
  apply List.map_congr_left
  intro r hr
  rw [List.mem_range] at hr
  simp only [Function.comp]
  exact pt_map _ _ _ (by omega)

end Nurbs.Props
