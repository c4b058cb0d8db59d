import Verif.Proof.Smooth
import Verif.Proof.SurfaceDeriv
import Mathlib.Topology.Algebra.MvPolynomial

/-! # How the patches of a surface meet at a knot line -/

set_option linter.unusedSectionVars false

namespace Nurbs
open Spec

section algebra
variable {R : Type} [CommRing R]

/-- Two elements that differ by a multiple of a power of `d`. -/
def AgreeM (d : R) (n : ℕ) (A B : R) : Prop := d ^ n ∣ A - B

theorem AgreeM.refl (d : R) (n : ℕ) (A : R) : AgreeM d n A A := by
  unfold AgreeM; rw [sub_self]; exact dvd_zero _

theorem AgreeM.mono {d : R} {n m : ℕ} {A B : R} (h : AgreeM d n A B) (hm : m ≤ n) : AgreeM d m A B := (pow_dvd_pow _ hm).trans h

theorem AgreeM.sub {d : R} {n : ℕ} {A B A' B' : R} (h : AgreeM d n A B) (h' : AgreeM d n A' B') : AgreeM d n (A - A') (B - B') := by
  have := dvd_sub h h'
  unfold AgreeM
  rwa [show A - A' - (B - B') = A - B - (A' - B') by ring]

theorem AgreeM.mul {d : R} {n : ℕ} {A B A' B' : R} (h : AgreeM d n A B) (h' : AgreeM d n A' B') : AgreeM d n (A * A') (B * B') := by
  have := dvd_add (h.mul_right A') (h'.mul_left B)
  unfold AgreeM
  rwa [show A * A' - B * B' = (A - B) * A' + B * (A' - B') by ring]

theorem AgreeM.nsmul {d : R} {n : ℕ} {A B : R} (h : AgreeM d n A B) (m : ℕ) : AgreeM d n (m • A) (m • B) := by
  unfold AgreeM
  rw [← nsmul_sub, nsmul_eq_mul]
  exact Dvd.dvd.mul_left h _

theorem AgreeM.sum {ι : Type} {d : R} {n : ℕ} {S : Finset ι} {A B : ι → R} (h : ∀ i ∈ S, AgreeM d n (A i) (B i)) :
    AgreeM d n (∑ i ∈ S, A i) (∑ i ∈ S, B i) := by
  unfold AgreeM
  rw [← Finset.sum_sub_distrib]
  exact Finset.dvd_sum h

theorem AgreeM.map {S : Type} [CommRing S] (φ : R →+* S) {d : R} {n : ℕ} {A B : R} (h : AgreeM d (n + 1) A B) (h0 : φ d = 0) : φ A = φ B := by
  obtain ⟨Q, hQ⟩ := h
  have := congrArg φ hQ
  rw [map_sub, map_mul, map_pow, h0, zero_pow (by omega), zero_mul] at this
  exact sub_eq_zero.1 this

variable {K : Type} [Field K] [Algebra K R]

theorem AgreeM.deriv (D : Derivation K R R) {d : R} {n : ℕ} {A B : R} (h : AgreeM d (n + 1) A B) : AgreeM d n (D A) (D B) := by
  obtain ⟨Q, hQ⟩ := h
  unfold AgreeM
  rw [← map_sub, hQ, D.leibniz, D.leibniz_pow, Nat.add_sub_cancel, smul_eq_mul, smul_eq_mul, pow_succ]
  refine dvd_add (Dvd.intro (d * D Q) (by ring)) (Dvd.intro (Q * ((n + 1 : ℕ) • D d)) ?_)
  simp only [smul_eq_mul, nsmul_eq_mul]
  ring

theorem AgreeM.deriv_const (D : Derivation K R R) {d : R} (hd : D d = 0) {n : ℕ} {A B : R} (h : AgreeM d n A B) : AgreeM d n (D A) (D B) := by
  obtain ⟨Q, hQ⟩ := h
  unfold AgreeM
  rw [← map_sub, hQ, D.leibniz, D.leibniz_pow, hd, smul_eq_mul, smul_eq_mul]
  simp

end algebra

section mix
open MvPolynomial
variable {K : Type} [Field K] [LinearOrder K]

theorem pderiv_line (i j : Fin 2) (h : i ≠ j) (ξ : K) : pderiv j (X i - C ξ : MvPolynomial (Fin 2) K) = 0 := by
  rw [map_sub, pderiv_C, pderiv_X_of_ne h, sub_zero]

/-- Agreement along a line of constant `u`. -/
theorem AgreeM.mixNum_u {ξ : K} {A A' W W' : MvPolynomial (Fin 2) K} (l : ℕ) : ∀ {k n : ℕ}, AgreeM (X 0 - C ξ) (n + k) A A' →
    AgreeM (X 0 - C ξ) (n + k) W W' → AgreeM (X 0 - C ξ) n (mixNum A W k l) (mixNum A' W' k l)
  | 0, n, hA, hW => by
    induction l with
    | zero => simpa [mixNum] using hA
    | succ l ih =>
      simp only [mixNum]
      exact ((ih.deriv_const (pderiv 1) (pderiv_line 0 1 (by decide) ξ)).mul hW).sub
        ((ih.mul (hW.deriv_const (pderiv 1) (pderiv_line 0 1 (by decide) ξ))).nsmul _)
  | k + 1, n, hA, hW => by
    have hA' : AgreeM (X 0 - C ξ) ((n + 1) + k) A A' := by rwa [show n + 1 + k = n + (k + 1) by omega]
    have hW' : AgreeM (X 0 - C ξ) ((n + 1) + k) W W' := by rwa [show n + 1 + k = n + (k + 1) by omega]
    have ih := AgreeM.mixNum_u l hA' hW'
    simp only [mixNum_eq, gNum_u]
    simp only [← mixNum_eq]
    exact ((ih.deriv (pderiv 0)).mul (hW.mono (by omega))).sub
      (((ih.mono (by omega)).mul ((hW'.mono (m := n + 1) (by omega)).deriv (pderiv 0))).nsmul _)

/-- Agreement along a line of constant `v`. -/
theorem AgreeM.mixNum_v {ξ : K} {A A' W W' : MvPolynomial (Fin 2) K} (k : ℕ) : ∀ {l n : ℕ}, AgreeM (X 1 - C ξ) (n + l) A A' →
    AgreeM (X 1 - C ξ) (n + l) W W' → AgreeM (X 1 - C ξ) n (mixNum A W k l) (mixNum A' W' k l) := by
  induction k with
  | zero =>
    intro l
    induction l with
    | zero => intro n hA _; simpa [mixNum] using hA
    | succ l ih =>
      intro n hA hW
      have hA' : AgreeM (X 1 - C ξ) ((n + 1) + l) A A' := by rwa [show n + 1 + l = n + (l + 1) by omega]
      have hW' : AgreeM (X 1 - C ξ) ((n + 1) + l) W W' := by rwa [show n + 1 + l = n + (l + 1) by omega]
      have ih := ih hA' hW'
      simp only [mixNum]
      exact ((ih.deriv (pderiv 1)).mul (hW.mono (by omega))).sub
        (((ih.mono (by omega)).mul ((hW'.mono (m := n + 1) (by omega)).deriv (pderiv 1))).nsmul _)
  | succ k ih =>
    intro l n hA hW
    have ih := ih hA hW
    simp only [mixNum_eq, gNum_u]
    simp only [← mixNum_eq]
    have hW' := hW.mono (m := n) (by omega)
    exact ((ih.deriv_const (pderiv 0) (pderiv_line 1 0 (by decide) ξ)).mul hW').sub
      ((ih.mul (hW'.deriv_const (pderiv 0) (pderiv_line 1 0 (by decide) ξ))).nsmul _)

theorem AgreeM.mixDeriv_u {ξ : K} {A A' W W' : MvPolynomial (Fin 2) K} {r k : ℕ} (hA : AgreeM (X 0 - C ξ) (r + 1) A A')
    (hW : AgreeM (X 0 - C ξ) (r + 1) W W') (hk : k ≤ r) (l : ℕ) (b : K) : mixDeriv A W k l ξ b = mixDeriv A' W' k l ξ b := by
  unfold mixDeriv
  have h0 : eval ![ξ, b] (X 0 - C ξ : MvPolynomial (Fin 2) K) = 0 := by simp
  rw [(AgreeM.mixNum_u (n := 1) (k := k) l (hA.mono (by omega)) (hW.mono (by omega))).map (n := 0) _ h0, hW.map _ h0]

theorem AgreeM.mixDeriv_v {ξ : K} {A A' W W' : MvPolynomial (Fin 2) K} {r l : ℕ} (hA : AgreeM (X 1 - C ξ) (r + 1) A A')
    (hW : AgreeM (X 1 - C ξ) (r + 1) W W') (hl : l ≤ r) (k : ℕ) (a : K) : mixDeriv A W k l a ξ = mixDeriv A' W' k l a ξ := by
  unfold mixDeriv
  have h0 : eval ![a, ξ] (X 1 - C ξ : MvPolynomial (Fin 2) K) = 0 := by simp
  rw [(AgreeM.mixNum_v (n := 1) (l := l) k (hA.mono (by omega)) (hW.mono (by omega))).map (n := 0) _ h0, hW.map _ h0]

theorem Agree.aeval {ξ : K} {n : ℕ} {A B : Polynomial K} (h : Agree ξ n A B) (i : Fin 2) :
    AgreeM (X i - C ξ : MvPolynomial (Fin 2) K) n (Polynomial.aeval (X i) A) (Polynomial.aeval (X i) B) := by
  have := map_dvd (Polynomial.aeval (X i : MvPolynomial (Fin 2) K)) h
  unfold AgreeM
  rw [map_pow, map_sub, map_sub, Polynomial.aeval_X, Polynomial.aeval_C] at this
  exact this

theorem AgreeM.smul {d : MvPolynomial (Fin 2) K} {n : ℕ} {A B : MvPolynomial (Fin 2) K} (h : AgreeM d n A B) (c : K) : AgreeM d n (c • A) (c • B) := by
  unfold AgreeM
  rw [← smul_sub, smul_eq_C_mul]
  exact Dvd.dvd.mul_left h _

theorem Agree.tens_u {ξ : K} {n : ℕ} {A B : Polynomial K} (h : Agree ξ n A B) (c : K) (g : Polynomial K) :
    AgreeM (X 0 - C ξ) n (tens c A g) (tens c B g) := ((h.aeval 0).mul (AgreeM.refl _ _ _)).smul c

theorem Agree.tens_v {ξ : K} {n : ℕ} {A B : Polynomial K} (h : Agree ξ n A B) (c : K) (g : Polynomial K) :
    AgreeM (X 1 - C ξ) n (tens c g A) (tens c g B) := ((AgreeM.refl _ _ _).mul (h.aeval 1)).smul c

end mix

section sides
open Set Filter Topology

/-- The basis functions on the two sides of a parameter. -/
theorem basis_sides {p : ℕ} {l : List ℝ} (hc : Clamped p l) {x : ℝ} (h0 : 0 ≤ x) (h1 : x ≤ 1) {J : ℕ} (hJ : IsSpan l x J) {r : ℕ}
    (hm : x ∈ l → 0 < x → x < 1 → l.count x + r ≤ p) :
    (∃ j, (∀ i, Agree x (r + 1) (NlP (kn l) j p i) (NlP (kn l) J p i)) ∧ ∀ᶠ t in 𝓝[Icc 0 1 ∩ Iic x] x, t = x ∨ IsSpan l t j) ∧
    ∃ j, (∀ i, Agree x (r + 1) (NlP (kn l) j p i) (NlP (kn l) J p i)) ∧ ∀ᶠ t in 𝓝[Icc 0 1 ∩ Ici x] x, t = x ∨ IsSpan l t j := by
  have hJl := hJ.1
  have rfl' : ∀ i, Agree x (r + 1) (NlP (kn l) J p i) (NlP (kn l) J p i) := fun i => by
    unfold Agree; rw [sub_self]; exact dvd_zero _
  constructor
  · rcases h0.lt_or_eq with hx0 | rfl
    · rcases h1.lt_or_eq with hx1 | rfl
      · obtain ⟨j, hpj, hmeet, hlt, hjx, hxj, hin, hout⟩ := exists_meet hc hx0 hJ hx1
        have := hmeet.le
        refine ⟨j, fun i => ?_, ?_⟩
        · by_cases hx : x ∈ l
          · have h2 := hin hx
            have h3 := hm hx hx0 hx1
            have hlJ : J + p + 2 ≤ l.length := by
              obtain ⟨J', hJ', _, hl'⟩ := exists_span hc hx0.le hx1.le
              rwa [isSpan_unique hc.sorted hJ hJ' (fun i hi => hc.le_one hi)]
            have hreg : RegSpan (kn l) J p := regSpan_of_sorted hc.sorted (IsSpan.lt hJ) (by omega)
            have hregj : RegSpan (kn l) j p := regSpan_of_sorted hc.sorted hlt (by omega)
            exact Agree.of_deriv fun s hs => hmeet.deriv (by omega) hregj hreg i
          · rw [hout hx]; exact rfl' i
        · refine nhdsWithin_mono _ inter_subset_right ?_
          filter_upwards [Ioc_mem_nhdsLE hjx] with t ht
          rcases ht.2.lt_or_eq with h | h
          · exact .inr ⟨by omega, ht.1.le, .inl (h.trans_le hxj)⟩
          · exact .inl h
      · obtain ⟨-, hlt, heq⟩ := hJ.2.2.resolve_left fun h => absurd (hc.le_one (i := J + 1) (by omega)) (not_le.2 h)
        refine ⟨J, rfl', nhdsWithin_mono _ inter_subset_right ?_⟩
        filter_upwards [Ioc_mem_nhdsLE hlt] with t ht
        rcases ht.2.lt_or_eq with h | h
        · exact .inr ⟨by omega, ht.1.le, .inl (h.trans_eq heq.symm)⟩
        · exact .inl h
    · refine ⟨J, rfl', ?_⟩
      filter_upwards [self_mem_nhdsWithin] with t ht
      exact .inl (le_antisymm ht.2 ht.1.1)
  · rcases h1.lt_or_eq with hx1 | rfl
    · have hxJ : x < kn l (J + 1) := hJ.2.2.resolve_right fun h => hx1.ne h.1
      refine ⟨J, rfl', nhdsWithin_mono _ inter_subset_right ?_⟩
      filter_upwards [Ico_mem_nhdsGE hxJ] with t ht
      exact .inr ⟨by omega, hJ.2.1.trans ht.1, .inl ht.2⟩
    · refine ⟨J, rfl', ?_⟩
      filter_upwards [self_mem_nhdsWithin] with t ht
      exact .inl (le_antisymm ht.1.2 ht.2)

end sides

end Nurbs
