import Verif.Proof.Basis
import Mathlib.Algebra.Order.Ring.Rat

/-! # C20, C21: basis function evaluation -/

set_option linter.unusedSectionVars false

namespace Nurbs.Props
open Nurbs Nurbs.Spec

variable {K : Type} [Field K] [LinearOrder K] [IsStrictOrderedRing K]

/-- The result of `Evaluate` in terms of the span-local functions. -/
theorem evaluate_spec {p : ℕ} {l : List K} (hc : Clamped p l) {x : K} (h0 : 0 ≤ x) (h1 : x ≤ 1) :
    ∃ k : ℕ, IsSpan l x k ∧ p ≤ k ∧ k + p + 2 ≤ l.length ∧ RegSpan (kn l) k p ∧
      KnotVector.FindSpanIndex (⟨l⟩ : KnotVector K) p x = .ok (k : Int) ∧
      (∀ i, i + p + 1 < l.length → N (kn l) x p i = Nl (kn l) k x p i) ∧
      BSplineBasis.EvaluateAt p l k x = .ok (tab (p + 1) fun n => N (kn l) x p (k - p + n)) := by
  obtain ⟨k, hk, hs, hpk, hlk⟩ := findSpanIndex_spec hc h0 h1
  change k + p + 2 ≤ l.length at hlk
  have hreg : RegSpan (kn l) k p := regSpan_of_sorted hc.sorted (IsSpan.lt hs) (by omega)
  have hN : ∀ i, i + p + 1 < l.length → N (kn l) x p i = Nl (kn l) k x p i := fun i hi =>
    N_eq_Nl (kn l) x k (l.length - 1) (N_zero_span hc.sorted (fun i hi => hc.le_one hi) hs) p i (by omega)
  refine ⟨k, hs, hpk, hlk, hreg, hk, hN, ?_⟩
  rw [evaluateAt_ok hpk (by omega) hreg]
  congr 1
  apply tab_congr
  intro n hn
  rw [hN _ (by omega)]

/-- C20.  For a clamped knot vector and `x ∈ [0,1]`, `BSplineBasis::Evaluate` succeeds and returns the values
`N_{k-p,p}(x), …, N_{k,p}(x)` of the Cox – de Boor functions, where `k` is the span of `x`; all the other
basis functions vanish at `x`. -/
theorem C20_evaluate_coxDeBoor {p : ℕ} {l : List K} (hc : Clamped p l) {x : K} (h0 : 0 ≤ x) (h1 : x ≤ 1) :
    ∃ k : ℕ, IsSpan l x k ∧ p ≤ k ∧ k + p + 2 ≤ l.length ∧
      BSplineBasis.Evaluate p ⟨l⟩ x = .ok ((List.range (p + 1)).map fun n => N (kn l) x p (k - p + n)) ∧
      ∀ i, i + p + 1 < l.length → (i + p < k ∨ k < i) → N (kn l) x p i = 0 := by
  obtain ⟨k, hs, hpk, hlk, _, hk, hN, he⟩ := evaluate_spec hc h0 h1
  refine ⟨k, hs, hpk, hlk, ?_, ?_⟩
  · unfold BSplineBasis.Evaluate
    rw [hk]
    exact he
  · intro i hi h
    rw [hN i hi]
    rcases h with h | h
    · exact Nl_zero_of_lt _ _ _ _ _ h
    · exact Nl_zero_of_gt _ _ _ _ _ h

/-- Quadratic basis at the double knot 1/2 … -/
example : BSplineBasis.Evaluate 2 (⟨[0, 0, 0, 1/4, 1/2, 1, 1, 1]⟩ : KnotVector ℚ) (1/3) = .ok [2/9, 20/27, 1/27] := by
  decide +kernel
/-- … and the hypotheses hold there. -/
example : Clamped 2 ([0, 0, 0, 1/4, 1/2, 1, 1, 1] : List ℚ) :=
  ⟨by decide +kernel, by decide +kernel, by decide +kernel, by decide +kernel, by decide +kernel, by decide +kernel⟩

/-- C21.  The returned values are non-negative and sum to one; together with C20: so do all `N_{i,p}(x)`. -/
theorem C21_nonneg_sum_one {p : ℕ} {l : List K} (hc : Clamped p l) {x : K} (h0 : 0 ≤ x) (h1 : x ≤ 1) :
    ∃ b : List K, BSplineBasis.Evaluate p ⟨l⟩ x = .ok b ∧ b.length = p + 1 ∧ (∀ v ∈ b, 0 ≤ v) ∧ b.sum = 1 := by
  obtain ⟨k, hs, hpk, hlk, hreg, hk, hN, he⟩ := evaluate_spec hc h0 h1
  refine ⟨tab (p + 1) fun n => N (kn l) x p (k - p + n), ?_, by simp, ?_, ?_⟩
  · unfold BSplineBasis.Evaluate
    rw [hk]
    exact he
  · intro v hv
    simp only [tab, List.mem_map, List.mem_range] at hv
    obtain ⟨n, hn, rfl⟩ := hv
    rw [hN _ (by omega)]
    exact Nl_nonneg _ _ _ _ _ (fun a b hab hb => kn_mono hc.sorted hab (by omega)) hs.2.1 (IsSpan.le_right hs)
  · have : (tab (p + 1) fun n => N (kn l) x p (k - p + n)).sum = ∑ n ∈ Finset.range (p + 1), N (kn l) x p (k - p + n) := by
      rw [Finset.sum_eq_multiset_sum]; rfl
    rw [this, ← seg_one (kn l) k x p hpk hreg]
    apply Finset.sum_congr rfl
    intro n hn
    have := Finset.mem_range.mp hn
    rw [hN _ (by omega)]

example : ([2/9, 20/27, 1/27] : List ℚ).sum = 1 := by decide +kernel

end Nurbs.Props
