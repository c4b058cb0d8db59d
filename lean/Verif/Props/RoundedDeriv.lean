import Verif.Proof.RoundedDeriv
import Verif.Props.Rounded

/-! # C81: derivatives with numbers that round -/

set_option linter.unusedSectionVars false

namespace Nurbs.Props
open Nurbs Nurbs.Spec

variable {K : Type} [Field K] [LinearOrder K] [IsStrictOrderedRing K] {R : Rounding K}

/-- C81.  With rounding, `BSplineBasis::EvaluateAll` succeeds for every order.  Row `m` does not depend on the highest order
asked for, row 0 is, bit for bit, what `BSplineBasis::Evaluate` returns, row `order` is what `EvaluateDerivative` returns,
and the rows beyond the degree are exactly zero. -/
theorem C81_basis_orders {p : ℕ} {l : List (Fl R)} (hc : Clamped p l) {x : Fl R} (h0 : 0 ≤ x) (h1 : x ≤ 1) :
    ∃ B : ℕ → List (Fl R), BSplineBasis.Evaluate p ⟨l⟩ x = .ok (B 0) ∧ (∀ m, (B m).length = p + 1) ∧
      (∀ m, p < m → B m = List.replicate (p + 1) 0) ∧
      ∀ order : ℕ, BSplineBasis.EvaluateAll p ⟨l⟩ x order = .ok ((List.range (order + 1)).map B) ∧
        BSplineBasis.EvaluateDerivative p ⟨l⟩ x order = .ok (B order) := by
  obtain ⟨k, hk, _, hpk, hlk, hden, _⟩ := span_rounded hc h0 h1
  have hall := fun order => evaluateAllAt_any (x := x) hpk (by omega) hden order
  refine ⟨fun m => tab (p + 1) (basisG l k p x m), ?_, fun m => by simp, fun m hm => ?_, fun order => ⟨?_, ?_⟩⟩
  · unfold BSplineBasis.Evaluate
    rw [hk, bind_ok]
    exact evaluateAt_any (knots := l) hpk (by omega) hden
  · rw [replicate_eq_tab]
    refine tab_congr fun r _ => ?_
    unfold basisG
    rw [if_neg (by omega), derG_zero hm, Fl.zero_mul']
  · unfold BSplineBasis.EvaluateAll
    rw [hk, bind_ok]
    exact hall order
  · unfold BSplineBasis.EvaluateDerivative BSplineBasis.EvaluateDerivativeAt
    rw [hk, bind_ok]
    change (BSplineBasis.EvaluateAllAt (p : Int) l k x order >>= _) = _
    rw [hall, bind_ok]
    exact vget_tab _ _ _ order rfl (by omega)

/-- C81.  With rounding, `Curve::EvaluateAll` and `Curve::EvaluateDerivative` succeed on every well-formed curve, for every
`x ∈ [0,1]` and every order up to 29: no division by zero, no index out of range.  The derivative of order `m` does not
depend, in a single bit, on the highest order asked for, and the one of order 0 is exactly the point that `Curve::Evaluate`
returns. -/
theorem C81_curve_orders {p : ℕ} {c : Curve (Fl R)} (hw : WFCurve p (exactCurve c)) {x : Fl R} (h0 : 0 ≤ x) (h1 : x ≤ 1) :
    ∃ D : ℕ → Vec3 (Fl R), c.Evaluate x = .ok (D 0) ∧ ∀ order : ℕ, order ≤ 29 →
      c.EvaluateAll x order = .ok ((List.range (order + 1)).map D) ∧ c.EvaluateDerivative x order = .ok (D order) := by
  obtain ⟨e, _, he, _⟩ := evaluate_close hw h0 h1
  have hc : Clamped p c.Knots.Values := clamped_exact.mp hw.clamped
  have hd : c.Degree = p := hw.degree
  have hn : c.Knots.Values.length = c.ControlPoints.length + p + 1 := by
    have := hw.count
    simpa [exactCurve, exactList] using this
  obtain ⟨k, hk, _, hpk, hlk, hden, _⟩ := span_rounded hc h0 h1
  have hev := curve_evaluate_any hd hn h0 h1 hk hpk hlk hden
  rw [he] at hev
  obtain ⟨hwne, rfl⟩ := projectM_inv hev.symm
  refine ⟨ratG (homG p k c x), ?_, fun order ho => ?_⟩
  · rw [he, ratG_zero]
  · have hall := curve_evaluateAll_any hd hn h0 h1 hk hpk hlk hden hwne order ho
    refine ⟨hall, ?_⟩
    unfold Curve.EvaluateDerivative
    rw [hall, bind_ok]
    exact vget_tab _ _ _ order rfl (by omega)

/-- C81 for surfaces: the same, for all orders whose binomial coefficients and their products fit into an `int`. -/
theorem C81_surface_orders {p q m n : ℕ} {s : Surface (Fl R)} (hw : WFSurface p q m n (exactSurface s)) {u v : Fl R}
    (hu0 : 0 ≤ u) (hu1 : u ≤ 1) (hv0 : 0 ≤ v) (hv1 : v ≤ 1) :
    ∃ D : ℕ → ℕ → Vec3 (Fl R), s.Evaluate u v = .ok (D 0 0) ∧ ∀ ou ov : ℕ, ou ≤ 29 → ov ≤ 29 →
      ou.choose (ou / 2) * ov.choose (ov / 2) ≤ 2147483647 →
      ∃ g, s.EvaluateAll u v ou ov = .ok g ∧ g.UCount = ou + 1 ∧ g.VCount = ov + 1 ∧
        (∀ a ≤ ou, ∀ b ≤ ov, g.Get a b = .ok (D a b)) ∧ s.EvaluateDerivative u v ou ov = .ok (D ou ov) := by
  obtain ⟨e, _, _, he, _⟩ := surface_close hw hu0 hu1 hv0 hv1
  have hcu : Clamped p s.KnotsU.Values := clamped_exact.mp hw.clampedU
  have hcv : Clamped q s.KnotsV.Values := clamped_exact.mp hw.clampedV
  obtain ⟨ku, hku, _, hpku, hlku, hdenu, _⟩ := span_rounded hcu hu0 hu1
  obtain ⟨kv, hkv, _, hpkv, hlkv, hdenv, _⟩ := span_rounded hcv hv0 hv1
  have hlu : s.KnotsU.Values.length = m + p + 1 := by
    have := hw.knotsU
    rwa [show (exactSurface s).KnotsU.Values.length = s.KnotsU.Values.length from exactList_length _] at this
  have hlv : s.KnotsV.Values.length = n + q + 1 := by
    have := hw.knotsV
    rwa [show (exactSurface s).KnotsV.Values.length = s.KnotsV.Values.length from exactList_length _] at this
  have hst : s.ControlPoints.Values.length = n * m := by
    have := hw.storage
    simpa [exactSurface] using this
  have hs : SurfAny p q m n ku kv s u v :=
    ⟨hw.degreeU, hw.degreeV, grid_eq hw.uCount hw.vCount hst, hu0, hu1, hv0, hv1, hku, hkv, hpku, hpkv, by omega, by omega, hlu, hlv, hdenu, hdenv⟩
  have hev := surface_evaluate_any hs
  rw [he] at hev
  obtain ⟨hwne, rfl⟩ := projectM_inv hev.symm
  refine ⟨ratG2 (homG2 p q ku kv s u v), ?_, fun ou ov hou hov hprod => ?_⟩
  · rw [he, ratG2_zero]
  · have hall := surface_evaluateAll_any hs hwne ou ov hou hov hprod
    refine ⟨_, hall, by simp [gridOf], by simp [gridOf], fun a ha b hb => ?_, ?_⟩
    · exact get_gridOf _ _ _ _ _ a b rfl rfl (by omega) (by omega)
    · unfold Surface.EvaluateDerivative
      rw [hall, bind_ok]
      exact get_gridOf _ _ _ _ _ ou ov rfl rfl (by omega) (by omega)

/-- The hypotheses hold of the rounded curve and patch of `Props/Rounded`, whose derivatives do suffer from rounding. -/
example : (wavy.EvaluateDerivative (dbl (2/5)) 2).map exactVec ≠ (exactCurve wavy).EvaluateDerivative (dbl (2/5)).val 2 := by decide +kernel
example : (patch.EvaluateDerivative (dbl (1/3)) (dbl (2/7)) 1 1).map exactVec ≠
    (exactSurface patch).EvaluateDerivative (dbl (1/3)).val (dbl (2/7)).val 1 1 := by decide +kernel
example : (wavy.EvaluateAll (dbl (2/5)) 2).map List.length = .ok 3 := by decide +kernel

end Nurbs.Props
