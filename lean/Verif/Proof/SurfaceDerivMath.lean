import Verif.Spec.SurfaceDeriv
import Verif.Proof.CurveDeriv
import Verif.Proof.Surface

/-! # The Leibniz rule behind `Surface::EvaluateAll` -/

set_option linter.unusedSectionVars false

namespace Nurbs
open Nurbs.Spec MvPolynomial

section
variable {K R ι : Type} [Field K] [CommRing R] [Algebra K R]

/-- Differentiating an identity between fractions with powers of `W` as denominators. -/
theorem leibniz_step (D : Derivation K R R) (W a : R) (E : ℕ) (S : Finset ι) (c : ι → ℕ) (w n : ι → R) (e f : ι → ℕ)
    (hef : ∀ i ∈ S, e i + f i = E) (h : ∑ i ∈ S, c i • (w i * n i * W ^ e i) = a * W ^ (E + 1)) :
    ∑ i ∈ S, c i • (D (w i) * n i * W ^ (e i + 1) + w i * (D (n i) * W - (f i + 1 : ℕ) • (n i * D W)) * W ^ e i) = D a * W ^ (E + 2) := by
  have hpow : ∀ m : ℕ, W * D (W ^ m) = (m : R) * W ^ m * D W := by
    intro m
    cases m with
    | zero => simp
    | succ m => rw [D.leibniz_pow, Nat.add_sub_cancel]; simp only [nsmul_eq_mul, smul_eq_mul]; push_cast; ring
  have key : W * D (a * W ^ (E + 1)) - ((E : R) + 1) * D W * (a * W ^ (E + 1)) = D a * W ^ (E + 2) := by
    rw [D.leibniz, smul_eq_mul, smul_eq_mul]
    have := hpow (E + 1)
    push_cast at this
    linear_combination a * this
  rw [← key, ← h, map_sum, Finset.mul_sum, Finset.mul_sum, ← Finset.sum_sub_distrib]
  apply Finset.sum_congr rfl
  intro i hi
  rw [← hef i hi]
  have h1 := hpow (e i)
  rw [map_nsmul, D.leibniz, D.leibniz]
  simp only [nsmul_eq_mul, smul_eq_mul]
  push_cast
  linear_combination (-(c i : R)) * w i * n i * h1


/-- `d₀ᵏ d₁ˡ P` -/
def gpd (d₀ d₁ : R → R) (P : R) (k l : ℕ) : R := d₀^[k] (d₁^[l] P)

theorem gpd_u (d₀ d₁ : R → R) (P : R) (k l : ℕ) : d₀ (gpd d₀ d₁ P k l) = gpd d₀ d₁ P (k + 1) l :=
  (Function.iterate_succ_apply' d₀ k (d₁^[l] P)).symm
theorem gpd_v (d₀ d₁ : R → R) (P : R) (l : ℕ) : d₁ (gpd d₀ d₁ P 0 l) = gpd d₀ d₁ P 0 (l + 1) :=
  (Function.iterate_succ_apply' d₁ l P).symm

/-- Numerators of repeated derivatives of a quotient, for any two derivations. -/
def gNum (d₀ d₁ : R → R) (A W : R) : ℕ → ℕ → R
  | 0, 0 => A
  | 0, l + 1 => d₁ (gNum d₀ d₁ A W 0 l) * W - (l + 1 : ℕ) • (gNum d₀ d₁ A W 0 l * d₁ W)
  | k + 1, l => d₀ (gNum d₀ d₁ A W k l) * W - (k + l + 1 : ℕ) • (gNum d₀ d₁ A W k l * d₀ W)

theorem gNum_v (d₀ d₁ : R → R) (A W : R) (l : ℕ) : gNum d₀ d₁ A W 0 (l + 1) =
    d₁ (gNum d₀ d₁ A W 0 l) * W - (l + 1 : ℕ) • (gNum d₀ d₁ A W 0 l * d₁ W) := by rw [gNum]
theorem gNum_u (d₀ d₁ : R → R) (A W : R) (k l : ℕ) : gNum d₀ d₁ A W (k + 1) l =
    d₀ (gNum d₀ d₁ A W k l) * W - (k + l + 1 : ℕ) • (gNum d₀ d₁ A W k l * d₀ W) := by rw [gNum]

theorem g_identity_v (d₀ : R → R) (D₁ : Derivation K R R) (A W : R) (l : ℕ) :
    ∑ j ∈ Finset.antidiagonal l, l.choose j.1 • (gpd d₀ D₁ W 0 j.1 * gNum d₀ D₁ A W 0 j.2 * W ^ j.1) = gpd d₀ D₁ A 0 l * W ^ (l + 1) := by
  induction l with
  | zero => simp [gpd, gNum, mul_comm]
  | succ l ih =>
    have h := leibniz_step D₁ W _ l (Finset.antidiagonal l) (fun j => l.choose j.1) (fun j => gpd d₀ D₁ W 0 j.1)
      (fun j => gNum d₀ D₁ A W 0 j.2) (fun j => j.1) (fun j => j.2) (fun j hj => Finset.mem_antidiagonal.mp hj) ih
    rw [gpd_v d₀ D₁] at h
    refine Eq.trans ?_ h
    rw [Finset.sum_antidiagonal_choose_succ_nsmul (fun i j => gpd d₀ D₁ W 0 i * gNum d₀ D₁ A W 0 j * W ^ i) l, ← Finset.sum_add_distrib]
    apply Finset.sum_congr rfl
    rintro ⟨i, j⟩ hij
    have hij' : i + j = l := Finset.mem_antidiagonal.mp hij
    have h4 : l.choose j = l.choose i := (Nat.choose_symm_of_eq_add hij'.symm).symm
    simp only
    rw [h4, gpd_v d₀ D₁, gNum_v, ← smul_add]
    congr 1
    ring

theorem g_identity (D₀ D₁ : Derivation K R R) (A W : R) (k l : ℕ) :
    ∑ i ∈ Finset.antidiagonal k, ∑ j ∈ Finset.antidiagonal l, (k.choose i.1 * l.choose j.1) •
      (gpd D₀ D₁ W i.1 j.1 * gNum D₀ D₁ A W i.2 j.2 * W ^ (i.1 + j.1)) = gpd D₀ D₁ A k l * W ^ (k + l + 1) := by
  induction k with
  | zero =>
    have := g_identity_v D₀ D₁ A W l
    rw [zero_add]
    simpa using this
  | succ k ih =>
    rw [← Finset.sum_product'] at ih
    have h := leibniz_step D₀ W _ (k + l) _ (fun x : (ℕ × ℕ) × (ℕ × ℕ) => k.choose x.1.1 * l.choose x.2.1)
      (fun x => gpd D₀ D₁ W x.1.1 x.2.1) (fun x => gNum D₀ D₁ A W x.1.2 x.2.2) (fun x => x.1.1 + x.2.1) (fun x => x.1.2 + x.2.2) (by
        rintro ⟨⟨a, b⟩, ⟨c, d⟩⟩ hx
        obtain ⟨h1, h2⟩ := Finset.mem_product.mp hx
        have := Finset.mem_antidiagonal.mp h1
        have := Finset.mem_antidiagonal.mp h2
        simp only at *
        omega) ih
    rw [gpd_u D₀ D₁, Finset.sum_product] at h
    rw [show k + 1 + l + 1 = k + l + 2 by omega]
    refine Eq.trans ?_ h
    have e1 : ∀ i : ℕ × ℕ, ∑ j ∈ Finset.antidiagonal l, ((k + 1).choose i.1 * l.choose j.1) •
      (gpd D₀ D₁ W i.1 j.1 * gNum D₀ D₁ A W i.2 j.2 * W ^ (i.1 + j.1)) = (k + 1).choose i.1 • ∑ j ∈ Finset.antidiagonal l, l.choose j.1 •
      (gpd D₀ D₁ W i.1 j.1 * gNum D₀ D₁ A W i.2 j.2 * W ^ (i.1 + j.1)) := by
      intro i
      rw [Finset.smul_sum]
      exact Finset.sum_congr rfl fun j _ => mul_smul _ _ _
    simp only [e1]
    rw [Finset.sum_antidiagonal_choose_succ_nsmul (fun i i' => ∑ j ∈ Finset.antidiagonal l, l.choose j.1 •
      (gpd D₀ D₁ W i j.1 * gNum D₀ D₁ A W i' j.2 * W ^ (i + j.1))) k, ← Finset.sum_add_distrib]
    apply Finset.sum_congr rfl
    rintro ⟨i, i'⟩ hij
    have hij' : i + i' = k := Finset.mem_antidiagonal.mp hij
    have h4 : k.choose i' = k.choose i := (Nat.choose_symm_of_eq_add hij'.symm).symm
    simp only
    rw [h4, ← smul_add, ← Finset.sum_add_distrib, Finset.smul_sum]
    apply Finset.sum_congr rfl
    rintro ⟨j, j'⟩ _
    simp only
    rw [gpd_u D₀ D₁, gNum_u, mul_smul, ← smul_add]
    congr 2
    ring

/-- The recursion of the algorithm, for the image of the identity under a ring homomorphism to a field. -/
theorem g_rec (D₀ D₁ : Derivation K R R) (φ : R →+* K) (A W : R) (hW : φ W ≠ 0) (q : ℕ → ℕ → K)
    (hq : ∀ k l, q k l = φ (gNum D₀ D₁ A W k l) / φ W ^ (k + l + 1)) (k l : ℕ) :
    q k l = (φ (gpd D₀ D₁ A k l)
      - ∑ i ∈ Finset.range k, (k.choose (i + 1) : K) * φ (gpd D₀ D₁ W (i + 1) 0) * q (k - (i + 1)) l
      - ∑ j ∈ Finset.range l, (l.choose (j + 1) : K) * φ (gpd D₀ D₁ W 0 (j + 1)) * q k (l - (j + 1))
      - ∑ i ∈ Finset.range k, ∑ j ∈ Finset.range l, ((k.choose (i + 1) * l.choose (j + 1) : ℕ) : K) * φ (gpd D₀ D₁ W (i + 1) (j + 1)) *
          q (k - (i + 1)) (l - (j + 1))) / φ W := by
  have h := congrArg φ (g_identity D₀ D₁ A W k l)
  have hE : ∑ i ∈ Finset.range (k + 1), ∑ j ∈ Finset.range (l + 1), ((k.choose i * l.choose j : ℕ) : K) * φ (gpd D₀ D₁ W i j) *
      q (k - i) (l - j) = φ (gpd D₀ D₁ A k l) := by
    have hp : φ W ^ (k + l + 1) ≠ 0 := pow_ne_zero _ hW
    apply mul_right_cancel₀ hp
    rw [map_mul, map_pow] at h
    rw [← h, Finset.Nat.sum_antidiagonal_eq_sum_range_succ_mk, map_sum, Finset.sum_mul]
    apply Finset.sum_congr rfl
    intro i hi
    rw [Finset.Nat.sum_antidiagonal_eq_sum_range_succ_mk, map_sum, Finset.sum_mul]
    apply Finset.sum_congr rfl
    intro j hj
    have := Finset.mem_range.mp hi
    have := Finset.mem_range.mp hj
    rw [hq, map_nsmul, map_mul, map_mul, map_pow, nsmul_eq_mul]
    rw [show k + l + 1 = (k - i + (l - j) + 1) + (i + j) by omega, pow_add]
    field_simp
    ring
  rw [Finset.sum_range_succ'] at hE
  simp only [Finset.sum_range_succ' _ l] at hE
  rw [eq_div_iff hW, ← hE, Finset.sum_add_distrib]
  have h00 : gpd D₀ D₁ W 0 0 = W := rfl
  simp only [Nat.choose_zero_right, mul_one, one_mul, Nat.cast_one, Nat.sub_zero, h00]
  ring

end

section
variable {K : Type} [Field K] [LinearOrder K]

theorem mixNum_eq (A W : MvPolynomial (Fin 2) K) (k l : ℕ) : mixNum A W k l = gNum (pderiv 0) (pderiv 1) A W k l := by
  induction k with
  | zero =>
    induction l with
    | zero => rw [mixNum, gNum]
    | succ l ih => rw [mixNum, gNum, ih]
  | succ k ih => rw [mixNum, gNum, ih]

/-- `∂ᵘᵏ ∂ᵛˡ P` -/
noncomputable def pd (P : MvPolynomial (Fin 2) K) (k l : ℕ) : MvPolynomial (Fin 2) K := gpd (pderiv 0) (pderiv 1) P k l

theorem mixDeriv_rec (A W : MvPolynomial (Fin 2) K) (u v : K) (hW : eval ![u, v] W ≠ 0) (k l : ℕ) :
    mixDeriv A W k l u v = (eval ![u, v] (pd A k l)
      - ∑ i ∈ Finset.range k, (k.choose (i + 1) : K) * eval ![u, v] (pd W (i + 1) 0) * mixDeriv A W (k - (i + 1)) l u v
      - ∑ j ∈ Finset.range l, (l.choose (j + 1) : K) * eval ![u, v] (pd W 0 (j + 1)) * mixDeriv A W k (l - (j + 1)) u v
      - ∑ i ∈ Finset.range k, ∑ j ∈ Finset.range l, ((k.choose (i + 1) * l.choose (j + 1) : ℕ) : K) * eval ![u, v] (pd W (i + 1) (j + 1)) *
          mixDeriv A W (k - (i + 1)) (l - (j + 1)) u v) / eval ![u, v] W :=
  g_rec (pderiv 0) (pderiv 1) (eval ![u, v]) A W hW (fun k l => mixDeriv A W k l u v) (fun k l => by rw [mixDeriv, mixNum_eq]) k l

end
end Nurbs
