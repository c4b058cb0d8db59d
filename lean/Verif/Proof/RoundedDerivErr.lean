import Verif.Proof.RoundedDeriv
import Verif.Proof.RoundedInsert
import Verif.Spec.RoundedDeriv

/-! # The rounding error of derivatives -/

set_option linter.unusedSectionVars false

namespace Nurbs
open Nurbs.Spec Polynomial

section mags
variable {K : Type} [Field K] [LinearOrder K] [IsStrictOrderedRing K]

/-- The absolute values of the coefficients `aC`. -/
def bC (U : ℕ → K) (p i : ℕ) : ℕ → ℕ → K
  | 0, j => if j = 0 then 1 else 0
  | m + 1, j => (bC U p i m j + (if j = 0 then 0 else bC U p i m (j - 1))) / (U (i + j + (p - m)) - U (i + j))

theorem bC_zero (U : ℕ → K) (p i m j : ℕ) (h : m < j) : bC U p i m j = 0 := by
  induction m generalizing j with
  | zero => simp only [bC]; rw [if_neg (by omega)]
  | succ m ih => simp only [bC]; rw [ih j (by omega), if_neg (by omega), ih (j - 1) (by omega)]; simp

theorem aC_sign (U : ℕ → K) (p i m j : ℕ) : aC U p i m j = (-1) ^ j * bC U p i m j := by
  induction m generalizing j with
  | zero => simp only [aC, bC]; split <;> simp_all
  | succ m ih =>
    rcases j with _ | j
    · simp only [aC, bC, ih, pow_zero, if_true]; simp
    · simp only [aC, bC, ih, Nat.add_sub_cancel, if_neg (Nat.succ_ne_zero j)]
      rw [pow_succ]
      ring

/-- Peeling the first derivative instead of the last. -/
theorem bC_peel (U : ℕ → K) (p i m j : ℕ) (hm : m ≤ p) :
    bC U (p + 1) i (m + 1) j = bC U p i m j / (U (i + (p + 1)) - U i) +
      (if j = 0 then 0 else bC U p (i + 1) m (j - 1)) / (U (i + 1 + (p + 1)) - U (i + 1)) := by
  induction m generalizing j with
  | zero =>
    rcases j with _ | _ | j
    · simp [bC]
    · simp [bC]
    · simp [bC]
  | succ m ih =>
    have e : bC U (p + 1) i (m + 1 + 1) j = (bC U (p + 1) i (m + 1) j + (if j = 0 then 0 else bC U (p + 1) i (m + 1) (j - 1))) /
        (U (i + j + (p + 1 - (m + 1))) - U (i + j)) := rfl
    rw [e, show p + 1 - (m + 1) = p - m by omega]
    rcases j with _ | _ | j
    · rw [ih 0 (by omega)]; simp [bC]; ring
    · rw [ih 1 (by omega)]
      simp only [Nat.zero_add, Nat.sub_self, if_neg one_ne_zero]
      rw [ih 0 (by omega)]; simp [bC]; ring
    · simp only [if_neg (Nat.succ_ne_zero (j + 1)), Nat.add_sub_cancel]
      rw [ih (j + 1 + 1) (by omega), ih (j + 1) (by omega)]
      simp only [if_neg (Nat.succ_ne_zero (j + 1)), if_neg (Nat.succ_ne_zero j), Nat.add_sub_cancel, bC]
      rw [show i + 1 + (j + 1) = i + (j + 1 + 1) by omega]
      ring

theorem absDeriv_eq (U : ℕ → K) (x : K) (m p i : ℕ) (hm : m ≤ p) :
    absDeriv U x m p i = (p.descFactorial m : ℕ) * ∑ j ∈ Finset.range (m + 1), bC U p i m j * N U x (p - m) (i + j) := by
  induction m generalizing p i with
  | zero => simp [absDeriv, bC]
  | succ m ih =>
    obtain ⟨p, rfl⟩ : ∃ p', p = p' + 1 := ⟨p - 1, by omega⟩
    simp only [absDeriv]
    rw [ih p i (by omega), ih p (i + 1) (by omega), Nat.succ_descFactorial_succ, show p + 1 - (m + 1) = p - m by omega]
    have e : ∑ j ∈ Finset.range (m + 1 + 1), bC U (p + 1) i (m + 1) j * N U x (p - m) (i + j) =
        (∑ j ∈ Finset.range (m + 1), bC U p i m j * N U x (p - m) (i + j)) / (U (i + p + 1) - U i) +
          (∑ j ∈ Finset.range (m + 1), bC U p (i + 1) m j * N U x (p - m) (i + 1 + j)) / (U (i + p + 2) - U (i + 1)) := by
      simp only [bC_peel U p i m _ (show m ≤ p by omega), add_mul]
      rw [Finset.sum_add_distrib]
      congr 1
      · rw [Finset.sum_range_succ, bC_zero U p i m (m + 1) (by omega), Finset.sum_div]
        simp only [zero_div, zero_mul, add_zero]
        refine Finset.sum_congr rfl fun j _ => ?_
        rw [show i + (p + 1) = i + p + 1 by omega]; ring
      · rw [Finset.sum_range_succ', Finset.sum_div]
        simp only [if_true, zero_div, zero_mul, add_zero]
        refine Finset.sum_congr rfl fun j _ => ?_
        rw [if_neg (Nat.succ_ne_zero j), Nat.add_sub_cancel, show i + 1 + (p + 1) = i + p + 2 by omega,
          show i + 1 + j = i + (j + 1) by omega]
        ring
    rw [e]
    push_cast
    ring

end mags

variable {K : Type} [Field K] [LinearOrder K] [IsStrictOrderedRing K] {R : Rounding K}

theorem Rounding.sign (R : Rounding K) (j : ℕ) (a : K) : R.rnd ((-1) ^ j * a) = (-1) ^ j * R.rnd a := by
  rcases neg_one_pow_eq_or K j with h | h <;> rw [h]
  · simp
  · rw [neg_one_mul, neg_one_mul, R.neg]

theorem Fl.val_neg (a : Fl R) : (-a).val = -a.val := by
  change R.rnd (-a.val) = _
  rw [R.neg, Fl.rnd_val]

theorem tab_inj' {α : Type} {n : ℕ} {f g : ℕ → α} (h : tab n f = tab n g) {i : ℕ} (hi : i < n) : f i = g i := by
  have := congrArg (fun l => l[i]?) h
  simp only [tab_getElem? _ _ i hi] at this
  exact Option.some.inj this

/-- Everything that is needed of the span. -/
structure SpanR (l : List (Fl R)) (k p : ℕ) (x : Fl R) : Prop where
  hp : p ≤ k
  hl : k + p < l.length
  sorted : l.Pairwise (· ≤ ·)
  lt : (kn l k).val < (kn l (k + 1)).val
  left : (kn l k).val ≤ x.val
  right : x.val ≤ (kn l (k + 1)).val

variable {l : List (Fl R)} {k p : ℕ} {x : Fl R}

theorem SpanR.mono (h : SpanR l k p x) {a b : ℕ} (hab : a ≤ b) (hb : b ≤ k + p) : exKn l a ≤ exKn l b := by
  have := h.hl
  exact kn_mono h.sorted hab (by omega)

theorem SpanR.reg (h : SpanR l k p x) : RegSpan (exKn l) k p := by
  rw [exKn_eq]
  have := h.hl
  have hlt : kn (exactList l) k < kn (exactList l) (k + 1) := by rw [← exKn_eq]; exact h.lt
  refine regSpan_of_sorted ?_ hlt (by rw [exactList_length]; omega)
  exact List.pairwise_map.mpr (h.sorted.imp fun hab => hab)

theorem SpanR.nl_nonneg (h : SpanR l k p x) {j : ℕ} (hj : j ≤ p) (i : ℕ) : 0 ≤ Nl (exKn l) k x.val j i :=
  Nl_nonneg _ _ _ _ _ (fun _ _ hab hb => h.mono hab (by omega)) h.left h.right

theorem lvG_near (h : SpanR l k p x) {j r : ℕ} (hj : j ≤ p) (hr : r ≤ j) :
    Near R.q (6 * j) (lvG l k x j r).val (Nl (exKn l) k x.val j (k - j + r)) := by
  have h1 := h.hp
  have h2 := h.hl
  obtain ⟨f, hf, hn⟩ := evaluateAt_near (p := j) (by omega) (by omega) h.sorted h.lt h.left h.right
  have hd : DenOK l k x j := denOK_rounded (p := j) (by omega) (by omega) h.sorted h.lt h.left h.right
  rw [evaluateAt_any (by omega) (by omega) hd] at hf
  injection hf with hf
  rw [tab_inj' hf (show r < j + 1 by omega)]
  exact hn r hr

theorem acG_near (h : SpanR l k p x) {r : ℕ} (hr : r ≤ p) (m j : ℕ) (hm : m ≤ p) (h1 : m ≤ r + j) (h2 : j ≤ m) (h3 : r + j ≤ p) :
    Near R.q (4 * m) ((-1) ^ j * (acG l k p x r m j).val) (bC (exKn l) p (k - p + r) m j) := by
  have hpk := h.hp
  induction m generalizing j with
  | zero =>
    obtain rfl : j = 0 := by omega
    simp only [acG, bC, if_true, pow_zero, one_mul, Fl.val_one]
    exact Near.refl R.q_pos zero_le_one
  | succ m ih =>
    obtain ⟨hd, hpos⟩ := denG_near (j := p + 1 - (m + 1)) (r := r + j - (m + 1)) h.hp h.hl h.sorted h.lt h.left h.right (by omega) (by omega)
    rw [show k + (r + j - (m + 1) + 1) = k - p + r + j + (p - m) by omega,
      show k + 1 - (p + 1 - (m + 1) - (r + j - (m + 1))) = k - p + r + j by omega] at hd hpos
    change Near R.q 2 (cdG l k p x r (m + 1) j).val (exKn l (k - p + r + j + (p - m)) - exKn l (k - p + r + j)) at hd
    change 0 < exKn l (k - p + r + j + (p - m)) - exKn l (k - p + r + j) at hpos
    have fin : ∀ {a : Fl R} {b : K} {n : ℕ}, n ≤ 4 * m + 1 → Near R.q n ((-1) ^ j * a.val) b →
        Near R.q (4 * (m + 1)) ((-1) ^ j * (a / cdG l k p x r (m + 1) j).val) (b / (exKn l (k - p + r + j + (p - m)) - exKn l (k - p + r + j))) := by
      intro a b n hn hab
      rw [Fl.val_div, ← R.sign, mul_div_assoc']
      have h4 := hab.div R.q_pos hd hpos
      have h5 := (R.near h4.1).trans R.q_pos h4
      exact h5.mono R.q_pos R.q_le (by omega)
    by_cases hj0 : j = 0
    · subst hj0
      simp only [acG, bC, if_true, add_zero]
      have := ih 0 (by omega) (by omega) (by omega) (by omega)
      exact fin (a := acG l k p x r m 0) (n := 4 * m) (by omega) this
    · by_cases hjm : j = m + 1
      · subst hjm
        have e1 : acG l k p x r (m + 1) (m + 1) = -acG l k p x r m m / cdG l k p x r (m + 1) (m + 1) := by
          simp only [acG]; rw [if_neg (by omega), if_true]
        have e2 : bC (exKn l) p (k - p + r) (m + 1) (m + 1) = bC (exKn l) p (k - p + r) m m /
            (exKn l (k - p + r + (m + 1) + (p - m)) - exKn l (k - p + r + (m + 1))) := by
          simp only [bC]; rw [bC_zero _ _ _ m (m + 1) (by omega), if_neg (by omega), zero_add, Nat.add_sub_cancel]
        rw [e1, e2]
        refine fin (n := 4 * m) (by omega) ?_
        have := ih m (by omega) (by omega) (by omega) (by omega)
        rwa [Fl.val_neg, pow_succ, mul_neg_one, neg_mul_neg]
      · have e1 : acG l k p x r (m + 1) j = (acG l k p x r m j - acG l k p x r m (j - 1)) / cdG l k p x r (m + 1) j := by
          simp only [acG]; rw [if_neg hj0, if_neg hjm]
        have e2 : bC (exKn l) p (k - p + r) (m + 1) j = (bC (exKn l) p (k - p + r) m j + bC (exKn l) p (k - p + r) m (j - 1)) /
            (exKn l (k - p + r + j + (p - m)) - exKn l (k - p + r + j)) := by
          simp only [bC]; rw [if_neg hj0]
        rw [e1, e2]
        refine fin (n := 4 * m + 1) (by omega) ?_
        have i1 := ih j (by omega) (by omega) (by omega) (by omega)
        have i2 := ih (j - 1) (by omega) (by omega) (by omega) (by omega)
        rw [Fl.val_sub, ← R.sign, mul_sub, sub_eq_add_neg,
          show -((-1 : K) ^ j * (acG l k p x r m (j - 1)).val) = (-1) ^ (j - 1) * (acG l k p x r m (j - 1)).val by
            obtain ⟨j', rfl⟩ : ∃ j', j = j' + 1 := ⟨j - 1, by omega⟩
            rw [Nat.add_sub_cancel, pow_succ]; ring]
        have h4 := i1.add R.q_pos i2
        rw [add_comm (4 * m) 1]
        exact (R.near h4.1).trans R.q_pos h4

theorem Close.sign {q : K} {m : ℕ} {a b B : K} (j : ℕ) (h : Close q m a b B) : Close q m ((-1) ^ j * a) ((-1) ^ j * b) B := by
  rcases neg_one_pow_eq_or K j with e | e <;> rw [e]
  · simpa using h
  · refine ⟨by simpa using h.1, ?_⟩
    rw [show -1 * a - -1 * b = -(a - b) by ring, abs_neg]; exact h.2

/-- The absolute value of a term. -/
def absTerm (U : ℕ → K) (k : ℕ) (x : K) (p i m t : ℕ) : K := bC U p i m t * Nl U k x (p - m) (i + t)

theorem absTerm_zero (U : ℕ → K) {k : ℕ} (x : K) {p r m t : ℕ} (hp : p ≤ k) (hr : r ≤ p) (hm : m ≤ p) (h : r + t < m ∨ p < r + t) :
    absTerm U k x p (k - p + r) m t = 0 := by
  unfold absTerm
  rcases h with h | h
  · rw [Nl_zero_of_lt U k x _ _ (by omega), mul_zero]
  · rw [Nl_zero_of_gt U k x _ _ (by omega), mul_zero]

theorem term_close (h : SpanR l k p x) {r : ℕ} (hr : r ≤ p) {m t : ℕ} (hm : m ≤ p) (h1 : m ≤ r + t) (h2 : t ≤ m) (h3 : r + t ≤ p) :
    Close R.q (4 * m + 6 * (p - m) + 1) (acG l k p x r m t * cvG l k p x r m t).val (derTerm (exKn l) k x.val p (k - p + r) m t)
      (absTerm (exKn l) k x.val p (k - p + r) m t) := by
  have hpk := h.hp
  have ha := acG_near h hr m t hm h1 h2 h3
  have hv := lvG_near h (j := p - m) (r := r + t - m) (by omega) (by omega)
  rw [show k - (p - m) + (r + t - m) = k - p + r + t by omega] at hv
  have hn := ha.mul R.q_pos hv
  have hr' := (R.near hn.1).trans R.q_pos hn
  rw [mul_assoc, R.sign] at hr'
  have hc := (hr'.close R.q_pos).sign t
  rw [← mul_assoc, ← pow_add, ← two_mul, pow_mul, neg_one_sq, one_pow, one_mul, ← mul_assoc, ← aC_sign] at hc
  rw [add_comm _ 1]
  exact hc

theorem midG_close (h : SpanR l k p x) {r : ℕ} (hr : r ≤ p) {m : ℕ} (hm1 : 1 ≤ m) (hm : m ≤ p) (n : ℕ) (hn : n ≤ min m (p + 1 - r) - max 1 (m - r)) :
    Close R.q (4 * m + 6 * (p - m) + 1 + n) (midG l k p x r m n).val
      (∑ t ∈ Finset.range (max 1 (m - r) + n), derTerm (exKn l) k x.val p (k - p + r) m t)
      (∑ t ∈ Finset.range (max 1 (m - r) + n), absTerm (exKn l) k x.val p (k - p + r) m t) := by
  have hpk := h.hp
  induction n with
  | zero =>
    simp only [midG, add_zero]
    by_cases hmr : m ≤ r
    · rw [if_pos hmr, show max 1 (m - r) = 1 by omega, Finset.sum_range_one, Finset.sum_range_one]
      exact term_close h hr hm (by omega) (by omega) (by omega)
    · rw [if_neg hmr, Finset.sum_eq_zero, Finset.sum_eq_zero]
      · exact close_zero _
      · intro t ht
        have := Finset.mem_range.mp ht
        exact absTerm_zero _ _ hpk hr hm (by omega)
      · intro t ht
        have := Finset.mem_range.mp ht
        exact derTerm_zero _ _ hpk hr hm (by omega)
  | succ n ih =>
    rw [← add_assoc (max 1 (m - r)), Finset.sum_range_succ, Finset.sum_range_succ]
    have h1 := ih (by omega)
    have h2 := term_close h hr (t := max 1 (m - r) + n) hm (by omega) (by omega) (by omega)
    exact Fl.close_add h1 (h2.mono R.q_pos R.q_le (show _ ≤ 4 * m + 6 * (p - m) + 1 + n by omega) le_rfl)

theorem derG_close (h : SpanR l k p x) {r : ℕ} (hr : r ≤ p) {m : ℕ} (hm1 : 1 ≤ m) (hm : m ≤ p) :
    Close R.q (6 * (p - m) + 5 * m + 1) (derG l k p x r m).val
      (∑ t ∈ Finset.range (m + 1), derTerm (exKn l) k x.val p (k - p + r) m t)
      (∑ t ∈ Finset.range (m + 1), absTerm (exKn l) k x.val p (k - p + r) m t) := by
  have hpk := h.hp
  unfold derG
  rw [if_pos hm]
  have hmid := midG_close h hr hm1 hm _ (le_refl _)
  by_cases h1 : r + m ≤ p
  · rw [if_pos h1, Finset.sum_range_succ, Finset.sum_range_succ]
    rw [show max 1 (m - r) + (min m (p + 1 - r) - max 1 (m - r)) = m by omega] at hmid
    have h2 := term_close h hr (t := m) hm (by omega) (by omega) (by omega)
    have := Fl.close_add (hmid.mono R.q_pos R.q_le (show _ ≤ 6 * (p - m) + 5 * m by omega) le_rfl)
      (h2.mono R.q_pos R.q_le (show _ ≤ 6 * (p - m) + 5 * m by omega) le_rfl)
    exact this
  · rw [if_neg h1]
    rw [show max 1 (m - r) + (min m (p + 1 - r) - max 1 (m - r)) = p + 1 - r by omega] at hmid
    have e : ∀ g : ℕ → K, (∀ t, p < r + t → g t = 0) → ∑ t ∈ Finset.range (p + 1 - r), g t = ∑ t ∈ Finset.range (m + 1), g t := by
      intro g hg
      refine Finset.sum_subset (Finset.range_subset_range.mpr (by omega)) fun t _ ht => hg t ?_
      rw [Finset.mem_range] at ht
      omega
    rw [e _ fun t ht => derTerm_zero _ _ hpk hr hm (Or.inr ht), e _ fun t ht => absTerm_zero _ _ hpk hr hm (Or.inr ht)] at hmid
    exact hmid.mono R.q_pos R.q_le (by omega) le_rfl

theorem facG_near (p m : ℕ) (hm : m ≤ p) : Near R.q (2 * m) (facG (Fl R) p m).val ((p.descFactorial m : ℕ) : K) := by
  induction m with
  | zero =>
    simp only [facG, Fl.val_one, Nat.descFactorial_zero, Nat.cast_one]
    exact Near.refl R.q_pos zero_le_one
  | succ m ih =>
    have hcast : ∀ n : ℕ, Near R.q 1 ((((n : ℕ) : Int) : Fl R)).val ((n : ℕ) : K) := by
      intro n
      have : ((((n : ℕ) : Int) : Fl R)).val = R.rnd ((n : ℕ) : K) := by
        change R.rnd (((n : ℕ) : Int) : K) = _
        push_cast; rfl
      rw [this]
      exact R.near (Nat.cast_nonneg n)
    rcases m with _ | m
    · simp only [facG, Nat.descFactorial_succ, Nat.descFactorial_zero, Nat.sub_zero, mul_one]
      exact (hcast p).mono R.q_pos R.q_le (by omega)
    · rw [Nat.descFactorial_succ, mul_comm (p - (m + 1)), Nat.cast_mul]
      change Near R.q _ (facG (Fl R) p (m + 1) * (((p : Int) - ((m + 1 : ℕ) : Int) : Int) : Fl R)).val _
      rw [show (p : Int) - ((m + 1 : ℕ) : Int) = ((p - (m + 1) : ℕ) : Int) by omega]
      have := Fl.near_mul (ih (by omega)) (hcast (p - (m + 1)))
      rwa [show 2 * (m + 1) + 1 + 1 = 2 * (m + 1 + 1) by ring] at this

/-- The computed derivatives of the basis functions. -/
theorem basisG_close (h : SpanR l k p x) (hN : ∀ q i, i + q < k + p + 1 → N (exKn l) x.val q i = Nl (exKn l) k x.val q i)
    {r : ℕ} (hr : r ≤ p) (m : ℕ) :
    Close R.q (6 * p + m + 2) (basisG l k p x m r).val ((derivative^[m] (NlP (exKn l) k p (k - p + r))).eval x.val)
      (if m ≤ p then absDeriv (exKn l) x.val m p (k - p + r) else 0) := by
  have hpk := h.hp
  unfold basisG
  by_cases h0 : m = 0
  · subst h0
    rw [if_pos rfl, if_pos (by omega), Function.iterate_zero, id, NlP_eval, absDeriv, hN _ _ (by omega)]
    exact ((lvG_near h le_rfl hr).close R.q_pos).mono R.q_pos R.q_le (by omega) le_rfl
  rw [if_neg h0]
  by_cases hm : m ≤ p
  · rw [if_pos hm, absDeriv_eq _ _ _ _ _ hm]
    have e1 : (derivative^[m] (NlP (exKn l) k p (k - p + r))).eval x.val = (p.descFactorial m : ℕ) *
        ∑ t ∈ Finset.range (m + 1), derTerm (exKn l) k x.val p (k - p + r) m t := by
      rw [iterate_derivative_NlP _ _ _ _ _ hm h.reg, eval_mul, eval_C, eval_finsetSum]
      simp only [eval_mul, eval_C, NlP_eval]
      rfl
    have e2 : ∑ j ∈ Finset.range (m + 1), bC (exKn l) p (k - p + r) m j * N (exKn l) x.val (p - m) (k - p + r + j) =
        ∑ t ∈ Finset.range (m + 1), absTerm (exKn l) k x.val p (k - p + r) m t := by
      refine Finset.sum_congr rfl fun t ht => ?_
      have := Finset.mem_range.mp ht
      rw [hN _ _ (by omega)]; rfl
    rw [e1, e2, Fl.val_mul, mul_comm (derG l k p x r m).val]
    have hc := Fl.close_round ((facG_near (R := R) p m hm).mul_close R.q_pos R.q_le (derG_close h hr (by omega) hm))
    rw [show 6 * p + m + 2 = 2 * m + (6 * (p - m) + 5 * m + 1) + 1 by omega]
    exact hc
  · rw [if_neg hm, derG_zero (by omega), Fl.zero_mul', iterate_derivative_NlP_zero _ _ _ _ _ (by omega), eval_zero]
    exact close_zero _

end Nurbs
