import Verif.Proof.CurveDeriv
import Verif.Proof.Insert2
import Verif.Spec.Elevate

/-! # Control points are determined by the curve

On a span the pieces of the basis functions are linearly independent, so two curves with the same knots whose numerators and
denominators agree have the same control points. -/

namespace Nurbs
open Nurbs.Spec Polynomial

set_option linter.unusedSectionVars false

variable {K : Type} [Field K] [LinearOrder K] [IsStrictOrderedRing K]

/-- The derivative of a segment is a segment of one degree less with the divided differences as points. -/
theorem segP_derivative (U : ℕ → K) (k p : ℕ) (g : ℕ → K) (hp : p + 1 ≤ k) (hr : RegSpan U k (p + 1)) :
    derivative (segP U k (p + 1) g) =
      segP U k p (fun i => ((p + 1 : ℕ) : K) * (g i - g (i - 1)) / (U (i + p + 1) - U i)) := by
  unfold segP
  rw [derivative_sum]
  have h1 : ∀ n ∈ Finset.range (p + 1 + 1), derivative (C (g (k - (p + 1) + n)) * NlP U k (p + 1) (k - (p + 1) + n)) =
      C (((p + 1 : ℕ) : K) * g (k - (p + 1) + n) / (U (k - (p + 1) + n + p + 1) - U (k - (p + 1) + n))) * NlP U k p (k - (p + 1) + n) -
      C (((p + 1 : ℕ) : K) * g (k - (p + 1) + n) / (U (k - (p + 1) + n + p + 2) - U (k - (p + 1) + n + 1))) * NlP U k p (k - (p + 1) + n + 1) := by
    intro n _
    rw [derivative_C_mul, derivative_NlP U k p _ hr]
    simp only [div_eq_mul_inv, one_mul, C_mul]
    ring
  rw [Finset.sum_congr rfl h1, Finset.sum_sub_distrib, Finset.sum_range_succ', Finset.sum_range_succ (n := p + 1),
    NlP_zero_of_lt U k p (k - (p + 1) + 0) (by omega), NlP_zero_of_gt U k p (k - (p + 1) + (p + 1) + 1) (by omega), mul_zero, mul_zero,
    add_zero, add_zero, ← Finset.sum_sub_distrib]
  apply Finset.sum_congr rfl
  intro n _
  rw [show k - (p + 1) + (n + 1) = k - p + n by omega, show k - (p + 1) + n + 1 = k - p + n by omega,
    show k - (p + 1) + n + p + 2 = k - p + n + p + 1 by omega, ← sub_mul, ← C_sub]
  simp only [show k - p + n - 1 = k - (p + 1) + n by omega]
  congr 2
  ring

/-- A segment that vanishes has vanishing points. -/
theorem segP_zero (U : ℕ → K) (k p : ℕ) (g : ℕ → K) (hp : p ≤ k) (hr : RegSpan U k p) (h : segP U k p g = 0) :
    ∀ i, k - p ≤ i → i ≤ k → g i = 0 := by
  induction p generalizing g with
  | zero =>
    intro i h1 h2
    have e := congrArg (eval 0) h
    rw [segP_eval, seg_eq_point U k 0 0 k g (by omega) hr (by omega) le_rfl (fun j _ _ => by omega), eval_zero] at e
    rwa [show i = k by omega]
  | succ p ih =>
    have hd := congrArg derivative h
    rw [segP_derivative U k p g hp hr, derivative_zero] at hd
    have h' := ih _ (by omega) (hr.mono (by omega)) hd
    have hstep : ∀ i, k - p ≤ i → i ≤ k → g i = g (i - 1) := by
      intro i h1 h2
      have e := h' i h1 h2
      have hne : U (i + p + 1) - U i ≠ 0 := sub_ne_zero.mpr (hr (p + 1) i le_rfl (by omega) h2)
      have hc : ((p + 1 : ℕ) : K) ≠ 0 := Nat.cast_ne_zero.mpr (by omega)
      rcases mul_eq_zero.mp ((div_eq_zero_iff.mp e).resolve_right hne) with h3 | h3
      · exact absurd h3 hc
      · exact sub_eq_zero.mp h3
    have hconst : ∀ n ≤ p + 1, g (k - (p + 1) + n) = g (k - (p + 1)) := by
      intro n hn
      induction n with
      | zero => rfl
      | succ n ihn => rw [hstep _ (by omega) (by omega), show k - (p + 1) + (n + 1) - 1 = k - (p + 1) + n by omega, ihn (by omega)]
    have e := congrArg (eval 0) h
    rw [segP_eval, seg_congr (Q := fun _ => g (k - (p + 1))) hp (fun i h1 h2 => by
      rw [show i = k - (p + 1) + (i - (k - (p + 1))) by omega]; exact hconst _ (by omega)), seg_const _ _ _ _ hp hr, eval_zero] at e
    intro i h1 h2
    rw [show i = k - (p + 1) + (i - (k - (p + 1))) by omega, hconst _ (by omega), e]

/-- Points are determined by the values of the segment. -/
theorem seg_unique {l : List K} {k p : ℕ} (hlt : kn l k < kn l (k + 1)) (hp : p ≤ k) (hr : RegSpan (kn l) k p)
    (P Q : ℕ → Vec4 K) (h : ∀ x, kn l k ≤ x → x < kn l (k + 1) → seg (kn l) k x p P = seg (kn l) k x p Q) :
    ∀ i, k - p ≤ i → i ≤ k → P i = Q i := by
  have key : ∀ L : Vec4 K →ₗ[K] K, ∀ i, k - p ≤ i → i ≤ k → L (P i) = L (Q i) := by
    intro L i h1 h2
    have hz : segP (kn l) k p (fun i => L (P i) - L (Q i)) = 0 := by
      apply Polynomial.eq_of_infinite_eval_eq
      apply (Set.Ico_infinite hlt).mono
      intro x hx
      simp only [Set.mem_ofPred_eq, eval_zero]
      rw [segP_eval]
      have e := congrArg L (h x hx.1 hx.2)
      rw [seg_map, seg_map] at e
      unfold seg at e ⊢
      rw [← sub_eq_zero, ← Finset.sum_sub_distrib] at e
      rw [← e]
      apply Finset.sum_congr rfl
      intro n _
      simp only [smul_eq_mul]; ring
    exact sub_eq_zero.mp (segP_zero _ _ _ _ hp hr hz i h1 h2)
  intro i h1 h2
  ext
  · exact key Vec4.lx i h1 h2
  · exact key Vec4.ly i h1 h2
  · exact key Vec4.lz i h1 h2
  · exact key Vec4.lw i h1 h2

/-- With interior multiplicities up to `p + 1` every control point has a non-empty span. -/
theorem live_of_mult {p : ℕ} {l : List K} (hc : Clamped p l) (hm : InteriorMult (p + 1) l) (i : ℕ) (hi : i + p + 1 < l.length) :
    kn l i < kn l (i + (p + 1)) := by
  refine lt_of_le_of_ne (kn_mono hc.sorted (by omega) (by omega)) fun he => ?_
  by_cases h0 : kn l i = 0
  · have := hc.first
    have := kn_mono hc.sorted (show p + 1 ≤ i + (p + 1) by omega) (by omega)
    linarith
  by_cases h1 : kn l i = 1
  · have := hc.last
    have := kn_mono hc.sorted (show i ≤ l.length - p - 2 by omega) (by omega)
    linarith
  have hp0 := lt_of_le_of_ne (hc.nonneg (show i < l.length by omega)) (Ne.symm h0)
  have hp1 := lt_of_le_of_ne (hc.le_one (show i < l.length by omega)) h1
  have h2 := hm _ hp0 hp1
  have hsub : List.Sublist (List.replicate (p + 2) (kn l i)) l := by
    have hd : (l.drop i).take (p + 2) = List.replicate (p + 2) (kn l i) := by
      apply List.ext_getElem (by simp; omega)
      intro n h3 h4
      simp only [List.length_replicate] at h4
      rw [List.getElem_replicate, List.getElem_take, List.getElem_drop, ← kn_eq_getElem]
      apply le_antisymm
      · rw [he]; exact kn_mono hc.sorted (by omega) (by omega)
      · exact kn_mono hc.sorted (by omega) (by omega)
    rw [← hd]
    exact (List.take_sublist _ _).trans (List.drop_sublist _ _)
  have := hsub.count_le (kn l i)
  rw [List.count_replicate_self] at this
  omega

/-- Curves with the same knots and the same homogeneous values have the same control points. -/
theorem curve_unique {p : ℕ} {c c' : Curve K} (hw : WFCurve p c) (hw' : WFCurve p c') (hk : c'.Knots = c.Knots)
    (hm : InteriorMult (p + 1) c.Knots.Values)
    (h : ∀ x k, 0 ≤ x → x < 1 → IsSpan c.Knots.Values x k →
      seg (kn c.Knots.Values) k x p (hpts c'.ControlPoints) = seg (kn c.Knots.Values) k x p (hpts c.ControlPoints)) : c' = c := by
  have hct := hw.count
  have hct' := hw'.count
  rw [hk] at hct'
  have hlen : c'.ControlPoints.length = c.ControlPoints.length := by omega
  have hpt : ∀ i < c.ControlPoints.length, hpts c'.ControlPoints i = hpts c.ControlPoints i := by
    intro i hi
    obtain ⟨s, hs1, hs2, hs3⟩ := exists_jump _ _ _ (live_of_mult hw.clamped hm i (by omega))
    have hs := isSpan_left (l := c.Knots.Values) (show s + 1 < _ by omega) hs3
    have hx0 := hw.clamped.nonneg (show s < _ by omega)
    have hx1 := hw.clamped.le_one (show s < _ by omega)
    obtain ⟨a1, _, a3, _⟩ := evaluate_seg hw hx0 hx1 hs
    refine seg_unique hs3 a1 a3 _ _ (fun x h1 h2 => ?_) i (by omega) (by omega)
    exact h x s (hx0.trans h1) (lt_of_lt_of_le h2 (hw.clamped.le_one (by omega))) ⟨by omega, h1, Or.inl h2⟩
  have hpts' : c'.ControlPoints = c.ControlPoints := by
    rw [eq_tab_pt c'.ControlPoints, eq_tab_pt c.ControlPoints, hlen]
    apply tab_congr
    intro i hi
    have e := congrArg unhomo (hpt i hi)
    unfold hpts at e
    rwa [unhomo_toHomo (hw'.weights i (by omega)).ne', unhomo_toHomo (hw.weights i hi).ne'] at e
  cases c; cases c'
  simp only at hk hpts'
  have d1 := hw.degree
  have d2 := hw'.degree
  simp only at d1 d2
  rw [hk, hpts', d1, d2]

end Nurbs
