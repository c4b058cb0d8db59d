import Verif.Proof.RoundedCurveDeriv
import Verif.Props.Rounded
import Verif.Props.Deriv

/-! # C82: the rounding error of derivatives -/

set_option linter.unusedSectionVars false

namespace Nurbs.Props
open Nurbs Nurbs.Spec Polynomial

variable {K : Type} [Field K] [LinearOrder K] [IsStrictOrderedRing K] {R : Rounding K}

/-- C82.  With rounding, every entry of `BSplineBasis::EvaluateAll` differs from the true derivative of the basis function by
at most `(1-u)^(-6p-m-2) - 1` times the sum of the absolute values of the terms of that derivative. -/
theorem C82_basis_rounding {p : ℕ} {l : List (Fl R)} (hc : Clamped p l) {x : Fl R} (h0 : 0 ≤ x) (h1 : x ≤ 1) (order : ℕ) :
    ∃ k rows, IsSpan (exactList l) x.val k ∧ p ≤ k ∧ k + p + 2 ≤ l.length ∧
      BSplineBasis.EvaluateAll p ⟨l⟩ x order = .ok rows ∧ rows.length = order + 1 ∧
      ∀ m ≤ order, ∃ row, rows[m]? = some row ∧ row.length = p + 1 ∧
        ∀ n ≤ p, ∃ P a, IsPiece (exactList l) k (fun t => N (kn (exactList l)) t p (k - p + n)) P ∧ row[n]? = some a ∧
          |a.val - (derivative^[m] P).eval x.val| ≤
            errFactor R (6 * p + m + 2) * absDeriv (kn (exactList l)) x.val m p (k - p + n) := by
  obtain ⟨k, hk, hs, hpk, hlk, hden, hlt, hx1, hx2⟩ := span_rounded hc h0 h1
  have hcx : Clamped p (exactList l) := clamped_exact.mpr hc
  have hsx := isSpan_exact.mpr hs
  have hlen := exactList_length l
  have hsp : SpanR l k p x := ⟨hpk, by omega, hc.sorted, hlt, hx1, hx2⟩
  have hN : ∀ q i, i + q < l.length - 1 → N (exKn l) x.val q i = Nl (exKn l) k x.val q i := by
    intro q i hi
    rw [exKn_eq]
    exact N_eq_Nl _ _ k (_ - 1) (N_zero_span hcx.sorted (fun i hi => hcx.le_one hi) hsx) q i (by rw [hlen]; exact hi)
  refine ⟨k, tab (order + 1) fun m => tab (p + 1) (basisG l k p x m), hsx, hpk, hlk, ?_, by simp, fun m hm =>
    ⟨_, tab_getElem? _ _ m (by omega), by simp, fun n hn => ⟨NlP (kn (exactList l)) k p (k - p + n), _, N_piece hcx (by omega),
      tab_getElem? _ _ n (by omega), ?_⟩⟩⟩
  · unfold BSplineBasis.EvaluateAll
    rw [hk, bind_ok]
    exact evaluateAllAt_any (knots := l) hpk (by omega) hden order
  · have h := (basisG_close hsp (fun q i h => hN q i (by omega)) hn m).2
    rw [exKn_eq] at h
    refine le_trans h (mul_le_mul_of_nonneg_left ?_ (errFactor_nonneg R _))
    split
    · exact le_rfl
    · refine absDeriv_nonneg (M := l.length - 1) (P := p) (fun a b hab hb => kn_mono hcx.sorted hab (by have := hcx.len; omega))
        (fun q i hi hq => ?_) m p _ le_rfl (by omega)
      rw [← exKn_eq, hN q i hi]
      exact hsp.nl_nonneg hq i

/-- C82.  With rounding, each coordinate of the derivative of order `m ≤ 29` computed by `Curve::EvaluateAll` differs from
the true derivative by at most `(1-u)^(-(m+1)(14p+2m+11)) - 1` times the sum of the absolute values of the terms of the
quotient rule. -/
theorem C82_curve_rounding {p : ℕ} {c : Curve (Fl R)} (hw : WFCurve p (exactCurve c)) {x : Fl R} (h0 : 0 ≤ x) (h1 : x ≤ 1)
    (order : ℕ) (ho : order ≤ 29) :
    ∃ (k : ℕ) (X Y Z W : K[X]) (ds : List (Vec3 (Fl R))), IsSpan (exactList c.Knots.Values) x.val k ∧
      IsPiece (exactList c.Knots.Values) k (fun t => wsum p (exactCurve c) t (·.x)) X ∧
      IsPiece (exactList c.Knots.Values) k (fun t => wsum p (exactCurve c) t (·.y)) Y ∧
      IsPiece (exactList c.Knots.Values) k (fun t => wsum p (exactCurve c) t (·.z)) Z ∧
      IsPiece (exactList c.Knots.Values) k (fun t => wsum p (exactCurve c) t (fun _ => 1)) W ∧
      0 < W.eval x.val ∧ c.EvaluateAll x order = .ok ds ∧ ds.length = order + 1 ∧
      ∀ m ≤ order, ∃ e, ds[m]? = some e ∧
        |e.x.val - quotDeriv X W m x.val| ≤ errFactor R ((m + 1) * (14 * p + 2 * m + 11)) *
          absQuot (absSum p (exactCurve c) x.val fun v => |v.x|) (absSum p (exactCurve c) x.val fun _ => 1) m ∧
        |e.y.val - quotDeriv Y W m x.val| ≤ errFactor R ((m + 1) * (14 * p + 2 * m + 11)) *
          absQuot (absSum p (exactCurve c) x.val fun v => |v.y|) (absSum p (exactCurve c) x.val fun _ => 1) m ∧
        |e.z.val - quotDeriv Z W m x.val| ≤ errFactor R ((m + 1) * (14 * p + 2 * m + 11)) *
          absQuot (absSum p (exactCurve c) x.val fun v => |v.z|) (absSum p (exactCurve c) x.val fun _ => 1) m := by
  obtain ⟨k, D, hk, hpk, hl, hpos, hall, hcl⟩ := curve_derivs_close hw h0 h1
  refine ⟨k, _, _, _, _, tab (order + 1) D, hk, ?_, ?_, ?_, ?_, hpos, hall order ho, by simp, fun m hm =>
    ⟨D m, tab_getElem? _ _ m (by omega), (hcl m).1.2, (hcl m).2.1.2, (hcl m).2.2.2⟩⟩
  · exact curveP_piece hw hpk hl _ _ (fun v => by simp [ToHomo]; ring)
  · exact curveP_piece hw hpk hl _ _ (fun v => by simp [ToHomo]; ring)
  · exact curveP_piece hw hpk hl _ _ (fun v => by simp [ToHomo]; ring)
  · exact curveP_piece hw hpk hl _ _ (fun v => by simp [ToHomo])

/-- C82 for the tangent of a cubic in `double`: the error is at most `1.3e-14` times the sum of the absolute values of the
terms `|A'| + |W'| |A| / W` over `W`. -/
theorem C82_tangent_double {c : Curve (Fl binary53)} (hw : WFCurve 3 (exactCurve c)) {x : Fl binary53} (h0 : 0 ≤ x) (h1 : x ≤ 1) :
    ∃ (k : ℕ) (X W : ℚ[X]) (e : Vec3 (Fl binary53)), IsSpan (exactList c.Knots.Values) x.val k ∧
      IsPiece (exactList c.Knots.Values) k (fun t => wsum 3 (exactCurve c) t (·.x)) X ∧
      IsPiece (exactList c.Knots.Values) k (fun t => wsum 3 (exactCurve c) t (fun _ => 1)) W ∧
      0 < W.eval x.val ∧ c.EvaluateDerivative x 1 = .ok e ∧
      |e.x.val - ((derivative X).eval x.val * W.eval x.val - X.eval x.val * (derivative W).eval x.val) / W.eval x.val ^ 2| ≤
        13 / 10 ^ 15 * ((absSum 3 (exactCurve c) x.val (fun v => |v.x|) 1 + absSum 3 (exactCurve c) x.val (fun _ => 1) 1 *
          (wsum 3 (exactCurve c) x.val (fun v => |v.x|) / wsum 3 (exactCurve c) x.val (fun _ => 1))) /
            wsum 3 (exactCurve c) x.val (fun _ => 1)) := by
  obtain ⟨k, D, hk, hpk, hl, hpos, hall, hcl⟩ := curve_derivs_close hw h0 h1
  refine ⟨k, _, _, D 1, hk, curveP_piece hw hpk hl (·.x) _ (fun v => by simp [ToHomo]; ring),
    curveP_piece hw hpk hl (·.w) _ (fun v => by simp [ToHomo]), hpos, ?_, ?_⟩
  · unfold Curve.EvaluateDerivative
    have := hall 1 (by norm_num)
    rw [show ((1 : ℕ) : Int) = 1 from rfl] at this
    rw [this, bind_ok]
    exact vget_tab _ _ _ 1 rfl (by omega)
  · have h := (hcl 1).1
    have hB := h.nonneg binary53.q_pos
    have hf : errFactor binary53 ((1 + 1) * (14 * 3 + 2 * 1 + 11)) ≤ 13 / 10 ^ 15 := by
      refine le_trans (errFactor_le binary53 _ ?_) ?_ <;> · simp only [binary53]; norm_num
    have h2 := le_trans h.2 (mul_le_mul_of_nonneg_right hf hB)
    have e0 : ∀ f, absSum 3 (exactCurve c) x.val f 0 = wsum 3 (exactCurve c) x.val f := fun f => by
      unfold absSum wsum
      simp only [absDeriv, mul_assoc]
    rw [absQuot_eq, Finset.sum_range_one, absQuot_eq, Finset.sum_range_zero, e0, e0] at h2
    simp only [zero_add, Nat.choose_self, Nat.cast_one, one_mul, Nat.sub_self, add_zero] at h2
    rw [quotDeriv_rec _ _ _ hpos.ne', Finset.sum_range_one, quotDeriv_rec _ _ _ hpos.ne', Finset.sum_range_zero] at h2
    simp only [zero_add, Nat.choose_self, Nat.cast_one, one_mul, Nat.sub_self, sub_zero, Function.iterate_one, Function.iterate_zero, id] at h2
    rw [show ((derivative (curveP 3 (exactCurve c) k (·.x))).eval x.val * (curveP 3 (exactCurve c) k (·.w)).eval x.val -
        (curveP 3 (exactCurve c) k (·.x)).eval x.val * (derivative (curveP 3 (exactCurve c) k (·.w))).eval x.val) /
        (curveP 3 (exactCurve c) k (·.w)).eval x.val ^ 2 = ((derivative (curveP 3 (exactCurve c) k (·.x))).eval x.val -
          (derivative (curveP 3 (exactCurve c) k (·.w))).eval x.val * ((curveP 3 (exactCurve c) k (·.x)).eval x.val /
            (curveP 3 (exactCurve c) k (·.w)).eval x.val)) / (curveP 3 (exactCurve c) k (·.w)).eval x.val by
      have := hpos.ne'
      field_simp]
    exact h2

/-- The hypotheses hold of the rounded curve of `Props/Rounded`; the bound is not zero there. -/
example : absDeriv (K := ℚ) (kn [0, 0, 0, 1/3, 1, 1, 1]) (2/5) 1 2 1 = 9/5 := by decide +kernel
example : 0 < absSum 2 (exactCurve wavy) (dbl (2/5)).val (fun _ => 1) 1 := by decide +kernel

/-- The rows beyond the degree are zero and so is the bound. -/
example : absDeriv (K := ℚ) (kn [0, 0, 1/3, 1, 1]) (2/5) 2 1 1 = 0 := by decide +kernel

end Nurbs.Props
