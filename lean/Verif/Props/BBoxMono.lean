import Verif.Proof.BBoxMono
import Verif.Props.BBox

/-! # C119: a smaller tolerance never gives a smaller box -/

set_option linter.unusedSectionVars false

namespace Nurbs.Props
open Nurbs Nurbs.Spec

variable {K : Type} [Field K] [LinearOrder K] [IsStrictOrderedRing K]

/-- C119: if `GetBoundingBox` returns boxes for two tolerances, the box for the smaller one contains that for the larger one.  For every
function in place of `sqrt`, any weights, and any two limits for the number of rounds. -/
theorem C119_tolerance (sqrt : K → K) {p : ℕ} (hp : 1 ≤ p) {c : Curve K} (hw : WFCurve p c)
    (hmult : ∀ v, 0 < v → v < 1 → c.Knots.Values.count v ≤ p) {eps1 eps2 : K} (h12 : eps1 ≤ eps2) {n1 n2 : ℕ} {B1 B2 : BoundingBox K}
    (h1 : c.GetBoundingBox sqrt n1 eps1 = .ok B1) (h2 : c.GetBoundingBox sqrt n2 eps2 = .ok B2) (k : Axis) :
    coord k B1.Min ≤ coord k B2.Min ∧ coord k B2.Max ≤ coord k B1.Max := by
  obtain ⟨c', m, hw', hs, hm, hlen, hkn, e, vs, hvs, hins, _⟩ := extractBezier_spec hp hw hmult
  have hb : ∀ {eps : K} {n : ℕ} {B : BoundingBox K}, c.GetBoundingBox sqrt n eps = .ok B → ∃ res : List (List (Vec4 K)) × Option (BoundingBox K),
      foldMList (fun (seg : Curve K) (s : List (List (Vec4 K)) × Option (BoundingBox K)) =>
        Curve.boxLoop sqrt (p : Int) eps n [seg.ControlPoints] s.1 s.2) (tab m (bezSeg p c'.ControlPoints))
        (tab (p + 1) fun _ => tab (p + 1) fun _ => 0, none) = .ok res ∧ res.2.getD ⟨0, 0⟩ = B := by
    intro eps n B h
    unfold Curve.GetBoundingBox at h
    rw [e, bind_ok, hw.degree] at h
    have hbuf : List.replicate ((p : Int) + 1).toNat (List.replicate ((p : Int) + 1).toNat (0 : Vec4 K)) =
        tab (p + 1) fun _ => tab (p + 1) fun _ => 0 := by
      rw [show ((p : Int) + 1).toNat = p + 1 by omega, replicate_eq_tab, replicate_eq_tab]
    dsimp only at h
    rw [hbuf] at h
    cases hr : foldMList (fun (seg : Curve K) (s : List (List (Vec4 K)) × Option (BoundingBox K)) =>
        Curve.boxLoop sqrt (p : Int) eps n [seg.ControlPoints] s.1 s.2) (tab m (bezSeg p c'.ControlPoints))
        (tab (p + 1) fun _ => tab (p + 1) fun _ => 0, none) with
    | error x => simp only [hr, bind_error] at h; cases h
    | ok res => simp only [hr, bind_ok] at h; exact ⟨res, rfl, Except.ok.inj h⟩
  have hlen' : ∀ s ∈ tab m (bezSeg p c'.ControlPoints), s.ControlPoints.length = p + 1 := by
    intro s hs'
    simp only [tab, List.mem_map, List.mem_range] at hs'
    obtain ⟨r, _, rfl⟩ := hs'
    simp [bezSeg]
  obtain ⟨r1, e1, g1⟩ := hb h1
  obtain ⟨r2, e2, g2⟩ := hb h2
  obtain ⟨a1, a2, a3, a4⟩ := boxFold_least sqrt eps1 p n1 _ hlen' _ _ _ e1
  obtain ⟨b1, b2, b3, b4⟩ := boxFold_least sqrt eps2 p n2 _ hlen' _ _ _ e2
  have hnone : ∀ B : BoundingBox K, HasBox B none := fun B b hb => by cases hb
  by_cases hl : tab m (bezSeg p c'.ControlPoints) = []
  · rw [a4 hl] at g1
    rw [b4 hl] at g2
    rw [← g1, ← g2]
    exact ⟨le_rfl, le_rfl⟩
  · obtain ⟨x1, hx1⟩ := Option.ne_none_iff_exists'.mp (a3 (.inl hl))
    obtain ⟨x2, hx2⟩ := Option.ne_none_iff_exists'.mp (b3 (.inl hl))
    rw [hx1] at g1 a1
    rw [hx2] at g2 b1
    simp only [Option.getD_some] at g1 g2
    subst g1 g2
    have hself : HasBox x1 (some x1) := fun b hb k => by cases hb; exact ⟨le_rfl, le_rfl⟩
    have hleaf := ((a1 x1).mp hself).2
    exact (b1 x1).mpr ⟨hnone _, fun s hs' q hq => leaf_mono h12 hq (a2 s hs') (hleaf s hs')⟩ x2 rfl k

/-- C119: the box does not depend on the number of rounds that were allowed. -/
theorem C119_rounds (sqrt : K → K) {p : ℕ} (hp : 1 ≤ p) {c : Curve K} (hw : WFCurve p c)
    (hmult : ∀ v, 0 < v → v < 1 → c.Knots.Values.count v ≤ p) {eps : K} {n1 n2 : ℕ} {B1 B2 : BoundingBox K}
    (h1 : c.GetBoundingBox sqrt n1 eps = .ok B1) (h2 : c.GetBoundingBox sqrt n2 eps = .ok B2) : B1 = B2 := by
  have a := C119_tolerance sqrt hp hw hmult le_rfl h1 h2
  have b := C119_tolerance sqrt hp hw hmult le_rfl h2 h1
  obtain ⟨m1, M1⟩ := B1
  obtain ⟨m2, M2⟩ := B2
  congr 1
  · exact coord_ext fun k => le_antisymm (a k).1 (b k).1
  · exact coord_ext fun k => le_antisymm (b k).2 (a k).2

/-- A parabola that dips below its ends. -/
def exDip : Curve ℚ := ⟨2, ⟨[0, 0, 0, 1, 1, 1]⟩, [⟨0, 0, 0, 1⟩, ⟨1, -4, 0, 1⟩, ⟨2, 1, 0, 1⟩]⟩

/-- For `exDip` the boxes for the tolerances 10 and 100 are different. -/
example : exDip.GetBoundingBox id 10 100 = .ok ⟨⟨0, 0, 0⟩, ⟨2, 1, 0⟩⟩ ∧ exDip.GetBoundingBox id 10 10 = .ok ⟨⟨0, -7/4, 0⟩, ⟨2, 1, 0⟩⟩ ∧
    WFCurve 2 exDip ∧ ∀ v, 0 < v → v < 1 → exDip.Knots.Values.count v ≤ 2 := by
  refine ⟨by decide +kernel, by decide +kernel, ⟨rfl, ⟨by decide +kernel, by decide +kernel, by decide +kernel, by decide +kernel,
    by decide +kernel, by decide +kernel⟩, rfl, by decide +kernel⟩, fun v h0 h1 => ?_⟩
  rw [List.count_eq_zero_of_not_mem]
  · omega
  · simp only [exDip, List.mem_cons, List.not_mem_nil, or_false]
    rintro (rfl | rfl | rfl | rfl | rfl | rfl) <;> linarith

end Nurbs.Props
