import Verif.Proof.Basis
import Mathlib.Algebra.Polynomial.Derivative
import Mathlib.Data.Nat.Factorial.Basic
import Mathlib.Tactic.LinearCombination
import Mathlib.Algebra.Polynomial.Degree.Lemmas

/-! # Derivatives of span-local basis functions, as polynomials -/

set_option linter.unusedSectionVars false

namespace Nurbs
open Polynomial

variable {K : Type} [Field K]

/-- The polynomial that a basis function is on span `k`. -/
noncomputable def NlP (U : ℕ → K) (k : ℕ) : ℕ → ℕ → K[X]
  | 0, i => if i = k then 1 else 0
  | p + 1, i => C (1 / (U (i + p + 1) - U i)) * (X - C (U i)) * NlP U k p i +
      C (1 / (U (i + p + 2) - U (i + 1))) * (C (U (i + p + 2)) - X) * NlP U k p (i + 1)

theorem NlP_eval (U : ℕ → K) (k : ℕ) (x : K) (p i : ℕ) : (NlP U k p i).eval x = Nl U k x p i := by
  induction p generalizing i with
  | zero => simp only [NlP, Nl]; split <;> simp
  | succ p ih =>
    simp only [NlP, Nl, eval_add, eval_mul, eval_sub, eval_C, eval_X, ih]
    ring

theorem NlP_zero_of_gt (U : ℕ → K) (k p i : ℕ) (h : k < i) : NlP U k p i = 0 := by
  induction p generalizing i with
  | zero => simp only [NlP]; rw [if_neg (by omega)]
  | succ p ih => simp only [NlP]; rw [ih i h, ih (i + 1) (by omega)]; simp

theorem NlP_zero_of_lt (U : ℕ → K) (k p i : ℕ) (h : i + p < k) : NlP U k p i = 0 := by
  induction p generalizing i with
  | zero => simp only [NlP]; rw [if_neg (by omega)]
  | succ p ih => simp only [NlP]; rw [ih i (by omega), ih (i + 1) (by omega)]; simp

theorem derivative_NlP (U : ℕ → K) (k p i : ℕ) (hr : RegSpan U k (p + 1)) :
    derivative (NlP U k (p + 1) i) = C ((p + 1 : ℕ) : K) * (C (1 / (U (i + p + 1) - U i)) * NlP U k p i -
      C (1 / (U (i + p + 2) - U (i + 1))) * NlP U k p (i + 1)) := by
  induction p generalizing i with
  | zero =>
    simp only [NlP]
    split_ifs <;> simp <;> ring
  | succ p ih =>
    have ih' := fun i => ih i (hr.mono (by omega))
    have key : C (1 / (U (i + p + 2) - U i)) * C (U (i + p + 2) - U i) * NlP U k p (i + 1) =
        C (1 / (U (i + p + 3) - U (i + 1))) * C (U (i + p + 3) - U (i + 1)) * NlP U k p (i + 1) := by
      by_cases h : i + 1 ≤ k ∧ k ≤ i + 1 + p
      · have h1 := hr.sub_ne (q := p + 2) (i := i) (by omega) (by omega) (by omega)
        have h2 := hr.sub_ne (q := p + 2) (i := i + 1) (by omega) (by omega) (by omega)
        rw [show i + (p + 2) = i + p + 2 by omega] at h1
        rw [show i + 1 + (p + 2) = i + p + 3 by omega] at h2
        rw [← C_mul, ← C_mul, one_div_mul_cancel h1, one_div_mul_cancel h2]
      · have hz : NlP U k p (i + 1) = 0 := by
          by_cases h1 : k < i + 1
          · exact NlP_zero_of_gt U k p _ h1
          · exact NlP_zero_of_lt U k p _ (by omega)
        rw [hz]; simp
    have e1 := ih' i
    have e2 := ih' (i + 1)
    have d1 : NlP U k (p + 1) i = C (1 / (U (i + p + 1) - U i)) * (X - C (U i)) * NlP U k p i +
      C (1 / (U (i + p + 2) - U (i + 1))) * (C (U (i + p + 2)) - X) * NlP U k p (i + 1) := rfl
    have d2 : NlP U k (p + 1) (i + 1) = C (1 / (U (i + 1 + p + 1) - U (i + 1))) * (X - C (U (i + 1))) * NlP U k p (i + 1) +
      C (1 / (U (i + 1 + p + 2) - U (i + 1 + 1))) * (C (U (i + 1 + p + 2)) - X) * NlP U k p (i + 1 + 1) := rfl
    have d3 : NlP U k (p + 1 + 1) i = C (1 / (U (i + (p + 1) + 1) - U i)) * (X - C (U i)) * NlP U k (p + 1) i +
      C (1 / (U (i + (p + 1) + 2) - U (i + 1))) * (C (U (i + (p + 1) + 2)) - X) * NlP U k (p + 1) (i + 1) := rfl
    rw [d3]
    simp only [derivative_add, derivative_mul, derivative_C, derivative_sub, derivative_X, zero_mul, zero_add, sub_zero, mul_one,
      zero_sub, mul_neg, e1, e2]
    rw [show i + 1 + p + 1 = i + p + 2 by omega] at *
    rw [show i + 1 + p + 2 = i + p + 3 by omega] at *
    rw [show i + (p + 1) + 1 = i + p + 2 by omega, show i + (p + 1) + 2 = i + p + 3 by omega]
    rw [show i + 1 + 1 = i + 2 by omega] at *
    simp only [C_sub] at key
    rw [d1, d2]
    push_cast
    simp only [C_add, C_1]
    linear_combination (-(C (p : K) + 1)) * C (1 / (U (i + p + 2) - U (i + 1))) * key

/-- The coefficients `a_{m,j}` of the derivative formula. -/
def aC (U : ℕ → K) (p i : ℕ) : ℕ → ℕ → K
  | 0, j => if j = 0 then 1 else 0
  | m + 1, j => (aC U p i m j - (if j = 0 then 0 else aC U p i m (j - 1))) / (U (i + j + (p - m)) - U (i + j))

theorem aC_zero (U : ℕ → K) (p i m j : ℕ) (h : m < j) : aC U p i m j = 0 := by
  induction m generalizing j with
  | zero => simp only [aC]; rw [if_neg (by omega)]
  | succ m ih => simp only [aC]; rw [ih j (by omega), if_neg (by omega), ih (j - 1) (by omega)]; simp

/-- `m`-th derivative of a basis function, `m ≤ p`. -/
theorem iterate_derivative_NlP (U : ℕ → K) (k p i m : ℕ) (hm : m ≤ p) (hr : RegSpan U k p) :
    derivative^[m] (NlP U k p i) = C ((p.descFactorial m : ℕ) : K) *
      ∑ j ∈ Finset.range (m + 1), C (aC U p i m j) * NlP U k (p - m) (i + j) := by
  induction m with
  | zero => simp [aC]
  | succ m ih =>
    rw [Function.iterate_succ_apply', ih (by omega)]
    obtain ⟨q, hq⟩ : ∃ q, p - m = q + 1 := ⟨p - m - 1, by omega⟩
    rw [hq, derivative_C_mul, derivative_sum]
    have hd : ∀ j, derivative (C (aC U p i m j) * NlP U k (q + 1) (i + j)) = C ((q + 1 : ℕ) : K) *
        (C (aC U p i m j) * (C (1 / (U (i + j + (q + 1)) - U (i + j))) * NlP U k q (i + j)) -
          C (aC U p i m j) * (C (1 / (U (i + (j + 1) + (q + 1)) - U (i + (j + 1)))) * NlP U k q (i + (j + 1)))) := by
      intro j
      rw [derivative_C_mul, derivative_NlP U k q (i + j) (hr.mono (by omega))]
      rw [show i + j + q + 1 = i + j + (q + 1) by omega, show i + j + q + 2 = i + (j + 1) + (q + 1) by omega,
        show i + j + 1 = i + (j + 1) by omega]
      ring
    simp only [hd]
    rw [← Finset.mul_sum, Finset.sum_sub_distrib]
    have hfac : ((p.descFactorial (m + 1) : ℕ) : K) = (p.descFactorial m : ℕ) * ((q + 1 : ℕ) : K) := by
      rw [Nat.descFactorial_succ, hq]; push_cast; ring
    rw [hfac, C_mul, show p - (m + 1) = q by omega, mul_assoc]
    congr 1
    congr 1
    have h1 : ∑ j ∈ Finset.range (m + 1), C (aC U p i m j) * (C (1 / (U (i + j + (q + 1)) - U (i + j))) * NlP U k q (i + j)) =
        ∑ j ∈ Finset.range (m + 2), C (aC U p i m j) * (C (1 / (U (i + j + (q + 1)) - U (i + j))) * NlP U k q (i + j)) := by
      rw [Finset.sum_range_succ _ (m + 1), aC_zero U p i m (m + 1) (by omega)]; simp
    have h2 : ∑ j ∈ Finset.range (m + 1), C (aC U p i m j) * (C (1 / (U (i + (j + 1) + (q + 1)) - U (i + (j + 1)))) * NlP U k q (i + (j + 1))) =
        ∑ j ∈ Finset.range (m + 2), C (if j = 0 then 0 else aC U p i m (j - 1)) *
          (C (1 / (U (i + j + (q + 1)) - U (i + j))) * NlP U k q (i + j)) := by
      rw [Finset.sum_range_succ' _ (m + 1)]; simp
    rw [h1, h2, ← Finset.sum_sub_distrib]
    apply Finset.sum_congr rfl
    intro j _
    have : aC U p i (m + 1) j = (aC U p i m j - (if j = 0 then 0 else aC U p i m (j - 1))) * (1 / (U (i + j + (q + 1)) - U (i + j))) := by
      simp only [aC]; rw [hq]; ring
    rw [this, C_mul, C_sub]
    ring

theorem NlP_natDegree (U : ℕ → K) (k p i : ℕ) : (NlP U k p i).natDegree ≤ p := by
  induction p generalizing i with
  | zero => simp only [NlP]; split <;> simp
  | succ p ih =>
    simp only [NlP]
    apply natDegree_add_le_of_degree_le
    · refine (natDegree_mul_le).trans ?_
      have := natDegree_C_mul_le (1 / (U (i + p + 1) - U i)) (X - C (U i))
      have h2 := natDegree_X_sub_C_le (U i)
      have := ih i
      omega
    · refine (natDegree_mul_le).trans ?_
      have := natDegree_C_mul_le (1 / (U (i + p + 2) - U (i + 1))) (C (U (i + p + 2)) - X)
      have h2 : (C (U (i + p + 2)) - X).natDegree ≤ 1 := by
        rw [← natDegree_neg, neg_sub]; exact natDegree_X_sub_C_le _
      have := ih (i + 1)
      omega

theorem iterate_derivative_NlP_zero (U : ℕ → K) (k p i m : ℕ) (hm : p < m) : derivative^[m] (NlP U k p i) = 0 :=
  iterate_derivative_eq_zero (lt_of_le_of_lt (NlP_natDegree U k p i) hm)

/-- Value of the sum in the derivative formula (before the factorial factor); zero above the degree. -/
def derSum (U : ℕ → K) (k : ℕ) (x : K) (p i m : ℕ) : K :=
  if m ≤ p then ∑ j ∈ Finset.range (m + 1), aC U p i m j * Nl U k x (p - m) (i + j) else 0

theorem derSum_eq (U : ℕ → K) (k : ℕ) (x : K) (p i m : ℕ) (hr : RegSpan U k p) :
    ((p.descFactorial m : ℕ) : K) * derSum U k x p i m = (derivative^[m] (NlP U k p i)).eval x := by
  unfold derSum
  by_cases h : m ≤ p
  · rw [if_pos h, iterate_derivative_NlP U k p i m h hr, eval_mul, eval_C, eval_finsetSum]
    congr 1
    apply Finset.sum_congr rfl
    intro j _
    rw [eval_mul, eval_C, NlP_eval]
  · rw [if_neg h, iterate_derivative_NlP_zero U k p i m (by omega)]; simp

end Nurbs
