import Verif.Proof.CurveDeriv
import Mathlib.Algebra.Polynomial.FieldDivision
import Mathlib.Analysis.Calculus.ContDiff.Basic
import Mathlib.Analysis.Calculus.IteratedDeriv.Lemmas
import Mathlib.Analysis.Calculus.Deriv.Polynomial
import Mathlib.Analysis.Calculus.Deriv.Pow
import Mathlib.Analysis.Calculus.Deriv.Inv

/-! # How the pieces of a curve meet at a knot -/

set_option linter.unusedSectionVars false

namespace Nurbs
open Polynomial Spec

section algebra
variable {K : Type} [Field K]

/-- Span `j` ends and span `J` begins at `ξ`; the knots between are all `ξ`. -/
structure Meet (U : ℕ → K) (j J : ℕ) (ξ : K) : Prop where
  le : j ≤ J
  left : j < J → U j ≠ ξ
  mid : ∀ i, j < i → i ≤ J → U i = ξ
  right : j < J → U (J + 1) ≠ ξ

theorem Meet.nl_left {U : ℕ → K} {j J : ℕ} {ξ : K} (h : Meet U j J ξ) : ∀ {q : ℕ}, j + q ≤ J → ∀ i,
    Nl U j ξ q i = if i = j then 1 else 0
  | 0, _, _ => rfl
  | q + 1, hq, i => by
    have ih := h.nl_left (q := q) (by omega)
    have hne := h.left (by omega)
    simp only [Nl, ih]
    by_cases h1 : i = j
    · subst h1
      rw [if_pos rfl, if_neg (by omega), h.mid (i + q + 1) (by omega) (by omega), div_self (sub_ne_zero.2 hne.symm)]
      simp
    · rw [if_neg h1]
      by_cases h2 : i + 1 = j
      · rw [if_pos h2, h.mid (i + q + 2) (by omega) (by omega)]
        simp
      · rw [if_neg h2]
        simp

theorem Meet.nl_right {U : ℕ → K} {j J : ℕ} {ξ : K} (h : Meet U j J ξ) : ∀ {q : ℕ}, j + q ≤ J → ∀ i,
    Nl U J ξ q i = if i + q = J then 1 else 0
  | 0, _, _ => rfl
  | q + 1, hq, i => by
    have ih := h.nl_right (q := q) (by omega)
    have hne := h.right (by omega)
    simp only [Nl, ih]
    by_cases h1 : i + (q + 1) = J
    · rw [if_pos h1, if_pos (show i + 1 + q = J by omega), if_neg (show ¬ i + q = J by omega), show i + q + 2 = J + 1 by omega, h.mid (i + 1) (by omega) (by omega),
        div_self (sub_ne_zero.2 hne)]
      simp
    · rw [if_neg h1, if_neg (show ¬ i + 1 + q = J by omega)]
      by_cases h2 : i + q = J
      · rw [if_pos h2, h.mid i (by omega) (by omega)]
        simp
      · rw [if_neg h2]
        simp

/-- The values from both sides agree from the multiplicity on. -/
theorem Meet.nl {U : ℕ → K} {j J : ℕ} {ξ : K} (h : Meet U j J ξ) {q : ℕ} (hq : J ≤ j + q) : ∀ i, Nl U j ξ q i = Nl U J ξ q i := by
  have key : ∀ d i, Nl U j ξ (J - j + d) i = Nl U J ξ (J - j + d) i := by
    intro d
    have := h.le
    induction d with
    | zero =>
      intro i
      rw [Nat.add_zero, h.nl_left (by omega), h.nl_right (by omega)]
      congr 1
      exact propext ⟨by omega, by omega⟩
    | succ d ih =>
      intro i
      rw [← Nat.add_assoc]
      simp only [Nl, ih]
  intro i
  have := key (q - (J - j)) i
  rwa [show J - j + (q - (J - j)) = q by have := h.le; omega] at this

/-- So do the derivatives, as far as the multiplicity permits. -/
theorem Meet.deriv {U : ℕ → K} {j J : ℕ} {ξ : K} (h : Meet U j J ξ) {p r : ℕ} (hr : J + r ≤ j + p) (h1 : RegSpan U j p)
    (h2 : RegSpan U J p) (i : ℕ) :
    (derivative^[r] (NlP U j p i)).eval ξ = (derivative^[r] (NlP U J p i)).eval ξ := by
  have := h.le
  rw [iterate_derivative_NlP U j p i r (by omega) h1, iterate_derivative_NlP U J p i r (by omega) h2]
  simp only [eval_mul, eval_finsetSum, eval_C, NlP_eval, h.nl (q := p - r) (by omega)]

/-- A window of basis functions is the sum over all. -/
theorem segP_full {U : ℕ → K} {k p n : ℕ} (hp : p ≤ k) (hn : k < n) (g : ℕ → K) :
    segP U k p g = ∑ i ∈ Finset.range n, C (g i) * NlP U k p i := by
  unfold segP
  have hsub : (Finset.range (p + 1)).image (fun n => k - p + n) ⊆ Finset.range n := by
    intro i hi
    obtain ⟨a, ha, rfl⟩ := Finset.mem_image.1 hi
    rw [Finset.mem_range] at ha ⊢
    omega
  rw [← Finset.sum_subset hsub]
  · rw [Finset.sum_image fun a _ b _ hab => by omega]
  · intro i _ hi
    have : k < i ∨ i + p < k := by
      by_contra hc
      exact hi (Finset.mem_image.2 ⟨i - (k - p), Finset.mem_range.2 (by omega), by omega⟩)
    rcases this with h | h
    · rw [NlP_zero_of_gt U k p i h, mul_zero]
    · rw [NlP_zero_of_lt U k p i h, mul_zero]

theorem Meet.segP {U : ℕ → K} {j J : ℕ} {ξ : K} (h : Meet U j J ξ) {p r : ℕ} (hr : J + r ≤ j + p) (hj : p ≤ j) (h1 : RegSpan U j p)
    (h2 : RegSpan U J p) (g : ℕ → K) :
    (derivative^[r] (segP U j p g)).eval ξ = (derivative^[r] (Nurbs.segP U J p g)).eval ξ := by
  have := h.le
  rw [segP_full (n := J + 1) hj (by omega), segP_full (n := J + 1) (by omega) (by omega)]
  simp only [iterate_derivative_sum, iterate_derivative_C_mul, eval_finsetSum, eval_mul, eval_C, h.deriv hr h1 h2]

/-! ## Quotients -/

/-- `A` and `B` agree at `ξ` to order `n` (exclusive). -/
def Agree (ξ : K) (n : ℕ) (A B : K[X]) : Prop := (X - C ξ) ^ n ∣ A - B

theorem Agree.eval {ξ : K} {n : ℕ} {A B : K[X]} (h : Agree ξ (n + 1) A B) : A.eval ξ = B.eval ξ := by
  obtain ⟨Q, hQ⟩ := h
  have := congrArg (Polynomial.eval ξ) hQ
  rw [pow_succ] at this
  simp at this
  exact sub_eq_zero.1 this

theorem Agree.mono {ξ : K} {n m : ℕ} {A B : K[X]} (h : Agree ξ n A B) (hm : m ≤ n) : Agree ξ m A B := (pow_dvd_pow _ hm).trans h

theorem Agree.derivative {ξ : K} {n : ℕ} {A B : K[X]} (h : Agree ξ (n + 1) A B) : Agree ξ n (derivative A) (derivative B) := by
  obtain ⟨Q, hQ⟩ := h
  unfold Agree
  rw [← derivative_sub, hQ, derivative_mul, derivative_X_sub_C_pow]
  rw [Nat.add_sub_cancel, pow_succ]
  exact dvd_add (Dvd.dvd.mul_right (Dvd.dvd.mul_left dvd_rfl _) _) (Dvd.dvd.mul_right (Dvd.dvd.mul_right dvd_rfl _) _)

theorem Agree.sub {ξ : K} {n : ℕ} {A B A' B' : K[X]} (h : Agree ξ n A B) (h' : Agree ξ n A' B') : Agree ξ n (A - A') (B - B') := by
  have := dvd_sub h h'
  unfold Agree
  rwa [show A - A' - (B - B') = A - B - (A' - B') by ring]

theorem Agree.mul {ξ : K} {n : ℕ} {A B A' B' : K[X]} (h : Agree ξ n A B) (h' : Agree ξ n A' B') : Agree ξ n (A * A') (B * B') := by
  have := dvd_add (h.mul_right A') (h'.mul_left B)
  unfold Agree
  rwa [show A * A' - B * B' = (A - B) * A' + B * (A' - B') by ring]

theorem Agree.nsmul {ξ : K} {n : ℕ} {A B : K[X]} (h : Agree ξ n A B) (m : ℕ) : Agree ξ n (m • A) (m • B) := by
  unfold Agree
  rw [← nsmul_sub, nsmul_eq_mul]
  exact Dvd.dvd.mul_left h _

theorem Agree.of_deriv [CharZero K] {ξ : K} {n : ℕ} {A B : K[X]}
    (h : ∀ m ≤ n, (Polynomial.derivative^[m] A).eval ξ = (Polynomial.derivative^[m] B).eval ξ) : Agree ξ (n + 1) A B := by
  unfold Agree
  by_cases h0 : A - B = 0
  · rw [h0]; exact dvd_zero _
  · rw [← le_rootMultiplicity_iff h0, Nat.succ_le_iff, lt_rootMultiplicity_iff_isRoot_iterate_derivative h0]
    intro m hm
    rw [IsRoot, iterate_derivative_sub, eval_sub, h m hm, sub_self]

theorem Agree.quotNum {ξ : K} {A A' W W' : K[X]} {n : ℕ} : ∀ {m : ℕ}, Agree ξ (n + m) A A' → Agree ξ (n + m) W W' →
    Agree ξ n (quotNum A W m) (Spec.quotNum A' W' m)
  | 0, hA, _ => hA
  | m + 1, hA, hW => by
    have hA' : Agree ξ ((n + 1) + m) A A' := by rwa [show n + 1 + m = n + (m + 1) by omega]
    have hW' : Agree ξ ((n + 1) + m) W W' := by rwa [show n + 1 + m = n + (m + 1) by omega]
    have ih := Agree.quotNum hA' hW'
    simp only [Spec.quotNum]
    exact (ih.derivative.mul (hW.mono (by omega))).sub (((ih.mono (by omega)).mul (hW'.mono (m := n + 1) (by omega)).derivative).nsmul _)

theorem Agree.quotDeriv {ξ : K} {A A' W W' : K[X]} {r m : ℕ} (hA : Agree ξ (r + 1) A A') (hW : Agree ξ (r + 1) W W') (hm : m ≤ r) :
    quotDeriv A W m ξ = Spec.quotDeriv A' W' m ξ := by
  unfold Spec.quotDeriv
  rw [(Agree.quotNum (n := 1) (m := m) (hA.mono (by omega)) (hW.mono (by omega))).eval (n := 0), hW.eval]

end algebra

/-! ## Analysis -/

section analysis
open Set

/-- A function made of two families of derivatives that agree at `x`. -/
theorem glue {f : ℝ → ℝ} {fa fb : ℕ → ℝ → ℝ} {a x b : ℝ} {r : ℕ} (hax : a < x) (hxb : x < b)
    (ha : ∀ t, a < t → t < x → f t = fa 0 t) (hb : ∀ t, x ≤ t → t < b → f t = fb 0 t)
    (da : ∀ s t, a < t → t ≤ x → HasDerivAt (fa s) (fa (s + 1) t) t) (db : ∀ s t, x ≤ t → t < b → HasDerivAt (fb s) (fb (s + 1) t) t)
    (h : ∀ s ≤ r, fa s x = fb s x) : ∀ s ≤ r, (∀ t, a < t → t ≤ x → iteratedDeriv s f t = fa s t) ∧
      (∀ t, x ≤ t → t < b → iteratedDeriv s f t = fb s t) := by
  intro s
  induction s with
  | zero =>
    intro _
    refine ⟨fun t h1 h2 => ?_, fun t h1 h2 => by rw [iteratedDeriv_zero]; exact hb t h1 h2⟩
    rw [iteratedDeriv_zero]
    rcases h2.lt_or_eq with h2 | rfl
    · exact ha t h1 h2
    · rw [hb t le_rfl hxb, h 0 (Nat.zero_le _)]
  | succ s ih =>
    intro hs
    obtain ⟨i1, i2⟩ := ih (by omega)
    have hx : HasDerivAt (iteratedDeriv s f) (fb (s + 1) x) x := by
      have l1 : HasDerivWithinAt (iteratedDeriv s f) (fa (s + 1) x) (Iic x) x := by
        refine (da s x hax le_rfl).hasDerivWithinAt.congr_of_eventuallyEq ?_ (i1 x hax le_rfl)
        filter_upwards [self_mem_nhdsWithin, mem_nhdsWithin_of_mem_nhds (Ioi_mem_nhds hax)] with t h1 h2
        exact i1 t h2 h1
      have l2 : HasDerivWithinAt (iteratedDeriv s f) (fb (s + 1) x) (Ici x) x := by
        refine (db s x le_rfl hxb).hasDerivWithinAt.congr_of_eventuallyEq ?_ (i2 x le_rfl hxb)
        filter_upwards [self_mem_nhdsWithin, mem_nhdsWithin_of_mem_nhds (Iio_mem_nhds hxb)] with t h1 h2
        exact i2 t h1 h2
      rw [h (s + 1) hs] at l1
      have := l1.union l2
      rwa [Iic_union_Ici, hasDerivWithinAt_univ] at this
    refine ⟨fun t h1 h2 => ?_, fun t h1 h2 => ?_⟩
    · rw [iteratedDeriv_succ]
      rcases h2.lt_or_eq with h2 | rfl
      · have : iteratedDeriv s f =ᶠ[nhds t] fa s := by
          filter_upwards [Ioo_mem_nhds h1 h2] with y hy
          exact i1 y hy.1 hy.2.le
        rw [this.deriv_eq]
        exact (da s t h1 h2.le).deriv
      · rw [hx.deriv, h (s + 1) hs]
    · rw [iteratedDeriv_succ]
      rcases h1.lt_or_eq with h1 | rfl
      · have : iteratedDeriv s f =ᶠ[nhds t] fb s := by
          filter_upwards [Ioo_mem_nhds h1 h2] with y hy
          exact i2 y hy.1.le hy.2
        rw [this.deriv_eq]
        exact (db s t h1.le h2).deriv
      · exact hx.deriv

/-- … is as smooth as the agreement. -/
theorem glue_contDiff {f : ℝ → ℝ} {fa fb : ℕ → ℝ → ℝ} {a x b : ℝ} {r : ℕ} (hax : a < x) (hxb : x < b)
    (ha : ∀ t, a < t → t < x → f t = fa 0 t) (hb : ∀ t, x ≤ t → t < b → f t = fb 0 t)
    (da : ∀ s t, a < t → t ≤ x → HasDerivAt (fa s) (fa (s + 1) t) t) (db : ∀ s t, x ≤ t → t < b → HasDerivAt (fb s) (fb (s + 1) t) t)
    (h : ∀ s ≤ r, fa s x = fb s x) : ContDiffAt ℝ r f x := by
  have key := glue hax hxb ha hb da db h
  have hcont : ∀ s ≤ r, ∀ t ∈ Ioo a b, ContinuousAt (iteratedDeriv s f) t := by
    intro s hs t ht
    obtain ⟨i1, i2⟩ := key s hs
    rcases lt_trichotomy t x with h1 | h1 | h1
    · have : iteratedDeriv s f =ᶠ[nhds t] fa s := by
        filter_upwards [Ioo_mem_nhds ht.1 h1] with y hy
        exact i1 y hy.1 hy.2.le
      exact (da s t ht.1 h1.le).continuousAt.congr this.symm
    · subst h1
      rw [continuousAt_iff_continuous_left_right]
      refine ⟨?_, ?_⟩
      · refine (da s t ht.1 le_rfl).continuousAt.continuousWithinAt.congr_of_eventuallyEq ?_ (i1 t ht.1 le_rfl)
        filter_upwards [self_mem_nhdsWithin, mem_nhdsWithin_of_mem_nhds (Ioi_mem_nhds hax)] with y h1 h2
        exact i1 y h2 h1
      · refine (db s t le_rfl ht.2).continuousAt.continuousWithinAt.congr_of_eventuallyEq ?_ (i2 t le_rfl ht.2)
        filter_upwards [self_mem_nhdsWithin, mem_nhdsWithin_of_mem_nhds (Iio_mem_nhds hxb)] with y h1 h2
        exact i2 y h1 h2
    · have : iteratedDeriv s f =ᶠ[nhds t] fb s := by
        filter_upwards [Ioo_mem_nhds h1 ht.2] with y hy
        exact i2 y hy.1.le hy.2
      exact (db s t h1.le ht.2).continuousAt.congr this.symm
  have hdiff : ∀ s < r, ∀ t ∈ Ioo a b, DifferentiableAt ℝ (iteratedDeriv s f) t := by
    intro s hs t ht
    obtain ⟨i1, i2⟩ := key s hs.le
    rcases lt_trichotomy t x with h1 | h1 | h1
    · have : iteratedDeriv s f =ᶠ[nhds t] fa s := by
        filter_upwards [Ioo_mem_nhds ht.1 h1] with y hy
        exact i1 y hy.1 hy.2.le
      exact (this.symm.differentiableAt_iff).1 (da s t ht.1 h1.le).differentiableAt
    · subst h1
      have l1 : HasDerivWithinAt (iteratedDeriv s f) (fa (s + 1) t) (Iic t) t := by
        refine (da s t hax le_rfl).hasDerivWithinAt.congr_of_eventuallyEq ?_ (i1 t hax le_rfl)
        filter_upwards [self_mem_nhdsWithin, mem_nhdsWithin_of_mem_nhds (Ioi_mem_nhds hax)] with y h1 h2
        exact i1 y h2 h1
      have l2 : HasDerivWithinAt (iteratedDeriv s f) (fb (s + 1) t) (Ici t) t := by
        refine (db s t le_rfl hxb).hasDerivWithinAt.congr_of_eventuallyEq ?_ (i2 t le_rfl hxb)
        filter_upwards [self_mem_nhdsWithin, mem_nhdsWithin_of_mem_nhds (Iio_mem_nhds hxb)] with y h1 h2
        exact i2 y h1 h2
      rw [h (s + 1) hs] at l1
      have := l1.union l2
      rw [Iic_union_Ici, hasDerivWithinAt_univ] at this
      exact this.differentiableAt
    · have : iteratedDeriv s f =ᶠ[nhds t] fb s := by
        filter_upwards [Ioo_mem_nhds h1 ht.2] with y hy
        exact i2 y hy.1.le hy.2
      exact (this.symm.differentiableAt_iff).1 (db s t h1.le ht.2).differentiableAt
  have hw : ∀ s, ∀ t ∈ Ioo a b, iteratedDerivWithin s f (Ioo a b) t = iteratedDeriv s f t :=
    fun s t ht => iteratedDerivWithin_of_isOpen isOpen_Ioo ht
  have : ContDiffOn ℝ ((r : ℕ∞) : WithTop ℕ∞) f (Ioo a b) := by
    rw [contDiffOn_iff_continuousOn_differentiableOn_deriv (uniqueDiffOn_Ioo a b)]
    refine ⟨fun s hs t ht => ?_, fun s hs t ht => ?_⟩
    · exact ((hcont s (by exact_mod_cast hs) t ht).continuousWithinAt).congr (fun y hy => hw s y hy) (hw s t ht)
    · exact ((hdiff s (by exact_mod_cast hs) t ht).differentiableWithinAt).congr (fun y hy => hw s y hy) (hw s t ht)
  exact_mod_cast this.contDiffAt (Ioo_mem_nhds hax hxb)

theorem quotDeriv_hasDerivAt (A W : ℝ[X]) (m : ℕ) {t : ℝ} (hne : W.eval t ≠ 0) :
    HasDerivAt (quotDeriv A W m) (quotDeriv A W (m + 1) t) t := by
  have hd := HasDerivAt.fun_div ((quotNum A W m).hasDerivAt t) (HasDerivAt.fun_pow (W.hasDerivAt t) (m + 1)) (pow_ne_zero _ hne)
  refine hd.congr_deriv ?_
  unfold quotDeriv
  simp only [quotNum, eval_sub, eval_mul, nsmul_eq_mul, eval_natCast]
  rw [div_eq_div_iff (pow_ne_zero _ (pow_ne_zero _ hne)) (pow_ne_zero _ hne)]
  simp only [Nat.add_sub_cancel]
  push_cast
  ring

end analysis

/-! ## Knots -/

/-- The spans on both sides of a parameter. -/
theorem exists_meet {K : Type} [Field K] [LinearOrder K] [IsStrictOrderedRing K] {p : ℕ} {l : List K} (hc : Clamped p l) {x : K}
    (h0 : 0 < x) {J : ℕ} (hJ : IsSpan l x J) (hx1 : x < 1) :
    ∃ j, p ≤ j ∧ Meet (kn l) j J x ∧ kn l j < kn l (j + 1) ∧ kn l j < x ∧ x ≤ kn l (j + 1) ∧ (x ∈ l → J ≤ j + l.count x) ∧ (x ∉ l → j = J) := by
  have hlt : x < kn l (J + 1) := by
    rcases hJ.2.2 with h | h
    · exact h
    · exact absurd h.1 hx1.ne
  -- the last index below x
  have hex : ∃ j, j ≤ J ∧ kn l j < x ∧ ∀ i, j < i → i ≤ J → kn l i = x := by
    have : ∀ d, d ≤ J → (∀ i, d < i → i ≤ J → kn l i = x) → ∃ j, j ≤ J ∧ kn l j < x ∧ ∀ i, j < i → i ≤ J → kn l i = x := by
      intro d
      induction d with
      | zero =>
        intro _ hd
        exact ⟨0, Nat.zero_le _, by rw [hc.zeros 0 (Nat.zero_le _)]; exact h0, hd⟩
      | succ d ih =>
        intro hdJ hd
        by_cases hlt' : kn l (d + 1) < x
        · exact ⟨d + 1, hdJ, hlt', hd⟩
        · have hle : kn l (d + 1) ≤ kn l J := kn_mono hc.sorted hdJ (by have := hJ.1; omega)
          have heq : kn l (d + 1) = x := le_antisymm (hle.trans hJ.2.1) (not_lt.1 hlt')
          refine ih (by omega) fun i hi hiJ => ?_
          rcases Nat.lt_or_ge (d + 1) i with h | h
          · exact hd i h hiJ
          · rw [show i = d + 1 by omega, heq]
    exact this J le_rfl fun i hi hiJ => absurd hi (by omega)
  obtain ⟨j, hjJ, hj, hmid⟩ := hex
  have hJl := hJ.1
  have hpj : p ≤ j := by
    by_contra hc'
    by_cases hJp : p < J + 1
    · have := hmid p (by omega) (by omega)
      rw [hc.zeros p le_rfl] at this
      exact h0.ne this
    · have h1 : kn l (J + 1) = 0 := hc.zeros (J + 1) (by omega)
      rw [h1] at hlt
      exact absurd hlt (not_lt.2 h0.le)
  have hjx : x ≤ kn l (j + 1) := by
    rcases hjJ.lt_or_eq with h | h
    · rw [hmid (j + 1) (by omega) (by omega)]
    · rw [h]; exact hlt.le
  refine ⟨j, hpj, ⟨hjJ, fun _ => hj.ne, hmid, fun _ => hlt.ne'⟩, lt_of_lt_of_le hj hjx, hj, hjx, fun _ => ?_, fun hx => ?_⟩
  · have hsub : (List.replicate (J - j) x).Sublist l := by
      have : List.replicate (J - j) x = (l.drop (j + 1)).take (J - j) := by
        apply List.ext_getElem
        · simp; omega
        · intro n h1 h2
          simp only [List.length_replicate] at h1
          have := hmid (j + 1 + n) (by omega) (by omega)
          rw [kn, List.getD_eq_getElem _ _ (by omega)] at this
          simp [this]
      rw [this]
      exact (List.take_sublist _ _).trans (List.drop_sublist _ _)
    have := hsub.count_le x
    rw [List.count_replicate_self] at this
    omega
  · by_contra hne
    have := hmid J (by omega) le_rfl
    apply hx
    rw [← this, kn, List.getD_eq_getElem _ _ (by omega)]
    exact List.getElem_mem _

end Nurbs
