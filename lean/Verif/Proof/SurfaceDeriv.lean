import Verif.Proof.SurfaceDerivMath

/-! # `Surface::HomogeneousDerivative` and `Surface::EvaluateAll` -/

set_option linter.unusedSectionVars false

namespace Nurbs
open Nurbs.Spec

section
variable {K R : Type} [Field K] [CommRing R] [Algebra K R]

theorem gpd_sum {ι : Type} (D₀ D₁ : Derivation K R R) (S : Finset ι) (f : ι → R) (k l : ℕ) :
    gpd D₀ D₁ (∑ i ∈ S, f i) k l = ∑ i ∈ S, gpd D₀ D₁ (f i) k l := by
  have h : ∀ (D : Derivation K R R) (f : ι → R) (n : ℕ), D^[n] (∑ i ∈ S, f i) = ∑ i ∈ S, D^[n] (f i) := by
    intro D f n
    induction n generalizing f with
    | zero => rfl
    | succ n ih => simp only [Function.iterate_succ_apply, map_sum, ih]
  unfold gpd
  rw [h D₁, h D₀]

theorem iter_aeval (D : Derivation K R R) {x y : R} (hx : D x = 1) (hy : D y = 0) (c : K) (f g : Polynomial K) (n : ℕ) :
    D^[n] (c • (Polynomial.aeval x f * Polynomial.aeval y g)) =
      c • (Polynomial.aeval x (Polynomial.derivative^[n] f) * Polynomial.aeval y g) := by
  induction n generalizing f with
  | zero => rfl
  | succ n ih =>
    rw [Function.iterate_succ_apply, Function.iterate_succ_apply, ← ih]
    congr 1
    rw [D.map_smul, D.leibniz, D.map_aeval, D.map_aeval, hx, hy]
    simp [mul_comm]

theorem gpd_aeval (D₀ D₁ : Derivation K R R) {x y : R} (hx0 : D₀ x = 1) (hy0 : D₀ y = 0) (hx1 : D₁ x = 0) (hy1 : D₁ y = 1) (c : K)
    (f g : Polynomial K) (k l : ℕ) : gpd D₀ D₁ (c • (Polynomial.aeval x f * Polynomial.aeval y g)) k l =
      c • (Polynomial.aeval x (Polynomial.derivative^[k] f) * Polynomial.aeval y (Polynomial.derivative^[l] g)) := by
  unfold gpd
  rw [mul_comm, iter_aeval D₁ hy1 hx1, mul_comm, iter_aeval D₀ hx0 hy0]

end

section
variable {K : Type} [Field K] [LinearOrder K]

/-- A bivariate polynomial from two univariate ones. -/
noncomputable def tens (c : K) (f g : Polynomial K) : MvPolynomial (Fin 2) K :=
  c • (Polynomial.aeval (MvPolynomial.X 0) f * Polynomial.aeval (MvPolynomial.X 1) g)

theorem pd_tens (c : K) (f g : Polynomial K) (k l : ℕ) :
    pd (tens c f g) k l = tens c (Polynomial.derivative^[k] f) (Polynomial.derivative^[l] g) := by
  unfold pd tens
  refine gpd_aeval _ _ ?_ ?_ ?_ ?_ c f g k l
  · exact MvPolynomial.pderiv_X_self _
  · exact MvPolynomial.pderiv_X_of_ne (by decide)
  · exact MvPolynomial.pderiv_X_of_ne (by decide)
  · exact MvPolynomial.pderiv_X_self _

theorem eval_aevalX (i : Fin 2) (f : Polynomial K) (z : Fin 2 → K) :
    MvPolynomial.eval z (Polynomial.aeval (MvPolynomial.X i) f) = f.eval (z i) := by
  induction f using Polynomial.induction_on' with
  | add p q hp hq => rw [map_add, map_add, hp, hq, Polynomial.eval_add]
  | monomial n a => simp [Polynomial.aeval_monomial]

theorem tens_eval (c : K) (f g : Polynomial K) (u v : K) : MvPolynomial.eval ![u, v] (tens c f g) = c * (f.eval u * g.eval v) := by
  unfold tens
  rw [MvPolynomial.smul_eval, map_mul, eval_aevalX, eval_aevalX]
  rfl

end

section
variable {K : Type} [Field K] [LinearOrder K] [IsStrictOrderedRing K]

/-- Numerator polynomials of the surface on a rectangle of spans. -/
noncomputable def surfP (p q : ℕ) (s : Surface K) (ku kv : ℕ) (L : Vec4 K → K) : MvPolynomial (Fin 2) K :=
  ∑ j ∈ Finset.range (q + 1), ∑ i ∈ Finset.range (p + 1), tens (L (hcp s (ku - p + i) (kv - q + j)))
    (NlP (kn s.KnotsU.Values) ku p (ku - p + i)) (NlP (kn s.KnotsV.Values) kv q (kv - q + j))

/-- The homogeneous derivatives as computed. -/
noncomputable def homD2 (p q : ℕ) (s : Surface K) (ku kv : ℕ) (u v : K) (k l : ℕ) : Vec4 K :=
  ∑ j ∈ Finset.range (q + 1), (Polynomial.derivative^[l] (NlP (kn s.KnotsV.Values) kv q (kv - q + j))).eval v •
    ∑ i ∈ Finset.range (p + 1), (Polynomial.derivative^[k] (NlP (kn s.KnotsU.Values) ku p (ku - p + i))).eval u •
      hcp s (ku - p + i) (kv - q + j)

theorem surfP_pd (p q : ℕ) (s : Surface K) (ku kv : ℕ) (L : Vec4 K →ₗ[K] K) (u v : K) (k l : ℕ) :
    MvPolynomial.eval ![u, v] (pd (surfP p q s ku kv L) k l) = L (homD2 p q s ku kv u v k l) := by
  unfold surfP homD2
  rw [pd, gpd_sum, map_sum, map_sum]
  apply Finset.sum_congr rfl
  intro j _
  rw [gpd_sum, map_sum, map_smul, map_sum, smul_eq_mul, Finset.mul_sum]
  apply Finset.sum_congr rfl
  intro i _
  rw [← pd, pd_tens, tens_eval, map_smul, smul_eq_mul]
  ring

theorem surfP_eval (p q : ℕ) (s : Surface K) (ku kv : ℕ) (L : Vec4 K →ₗ[K] K) (u v : K) :
    MvPolynomial.eval ![u, v] (surfP p q s ku kv L) = L (surfSeg p q s ku kv u v) := by
  have := surfP_pd p q s ku kv L u v 0 0
  refine this.trans ?_
  congr 1
  unfold homD2 surfSeg sseg seg
  simp only [Function.iterate_zero, id, NlP_eval]

theorem surface_homD_ok {p q m n : ℕ} {s : Surface K} (hw : WFSurface p q m n s)
    {u v : K} (hu0 : 0 ≤ u) (hu1 : u ≤ 1) (hv0 : 0 ≤ v) (hv1 : v ≤ 1) {ku kv : ℕ}
    (hku : IsSpan s.KnotsU.Values u ku) (hkv : IsSpan s.KnotsV.Values v kv) (ou ov : ℕ) :
    s.HomogeneousDerivative u v ou ov = .ok (gridOf (ou + 1) (ov + 1) (homD2 p q s ku kv u v)) := by
  have hcu := hw.clampedU
  have hcv := hw.clampedV
  have hlu := hw.knotsU
  have hlv := hw.knotsV
  obtain ⟨ku', hku', hsu, hpku, hlku⟩ := findSpanIndex_spec hcu hu0 hu1
  obtain rfl : ku = ku' := isSpan_unique hcu.sorted hku hsu (fun i hi => hcu.le_one hi)
  obtain ⟨kv', hkv', hsv, hpkv, hlkv⟩ := findSpanIndex_spec hcv hv0 hv1
  obtain rfl : kv = kv' := isSpan_unique hcv.sorted hkv hsv (fun i hi => hcv.le_one hi)
  have hru : RegSpan (kn s.KnotsU.Values) ku p := regSpan_of_sorted hcu.sorted (IsSpan.lt hsu) (by omega)
  have hrv : RegSpan (kn s.KnotsV.Values) kv q := regSpan_of_sorted hcv.sorted (IsSpan.lt hsv) (by omega)
  have hrows : ∀ (p o : ℕ) (f : ℕ → ℕ → K), ∀ row ∈ tab (o + 1) (fun a => tab (p + 1) (f a)), (row.length : Int) = (p : Int) + 1 := by
    intro p o f row hrow
    unfold tab at hrow
    obtain ⟨m, _, rfl⟩ := List.mem_map.mp hrow
    simp
  unfold Surface.HomogeneousDerivative
  rw [massert_true ⟨hu0, hu1⟩, bind_ok, massert_true ⟨hv0, hv1⟩, bind_ok, hw.degreeU, hw.degreeV, hku', bind_ok, hkv', bind_ok,
    evaluateAllAt_deriv hpku (by omega) hru, bind_ok, evaluateAllAt_deriv hpkv (by omega) hrv, bind_ok,
    massert_true (hrows _ _ _), bind_ok, massert_true (hrows _ _ _), bind_ok]
  rw [show (ou : Int) + 1 = ((ou + 1 : ℕ) : Int) by push_cast; ring, show (ov : Int) + 1 = ((ov + 1 : ℕ) : Int) by push_cast; ring,
    mk'_gridOf, bind_ok, forLe_eq_forUp 0 ov (ov + 1) (by omega)]
  simp only []
  set Du : ℕ → ℕ → K := fun m r => (Polynomial.derivative^[m] (NlP (kn s.KnotsU.Values) ku p (ku - p + r))).eval u with hDu
  set Dv : ℕ → ℕ → K := fun m r => (Polynomial.derivative^[m] (NlP (kn s.KnotsV.Values) kv q (kv - q + r))).eval v with hDv
  have hg := WFSurface.grid hw
  set H := homD2 p q s ku kv u v with hH
  have hH' : ∀ k l, H k l = ∑ j ∈ Finset.range (q + 1), Dv l j • ∑ i ∈ Finset.range (p + 1), Du k i • hcp s (ku - p + i) (kv - q + j) :=
    fun _ _ => rfl
  have hfill : (gridOf (ou + 1) (ov + 1) fun _ _ => (0 : Vec4 K)) = gridOf (ou + 1) (ov + 1) fun a b => if b < 0 then H a b else 0 :=
    gridOf_congr fun a _ b _ => by simp
  rw [hfill, forUp_eq _ (fun l => gridOf (ou + 1) (ov + 1) fun a b => if b < l then H a b else 0)]
  · congr 1
    exact gridOf_congr fun a _ b hb => by rw [if_pos hb]
  intro l hl
  rw [forLe_eq_forUp 0 ou (ou + 1) (by omega)]
  have hfill : (gridOf (ou + 1) (ov + 1) fun a b => if b < l then H a b else 0) =
      gridOf (ou + 1) (ov + 1) fun a b => if b < l ∨ (b = l ∧ a < 0) then H a b else 0 :=
    gridOf_congr fun a _ b _ => by simp
  rw [hfill, forUp_eq _ (fun k => gridOf (ou + 1) (ov + 1) fun a b => if b < l ∨ (b = l ∧ a < k) then H a b else 0)]
  · congr 1
    refine gridOf_congr fun a ha b hb => ?_
    by_cases h : b < l + 1
    · rw [if_pos h, if_pos (by omega)]
    · rw [if_neg h, if_neg (by omega)]
  intro k hk
  rw [forLe_eq_forUp 0 q (q + 1) (by omega)]
  have hfill : (gridOf (ou + 1) (ov + 1) fun a b => if b < l ∨ (b = l ∧ a < k) then H a b else 0) =
      gridOf (ou + 1) (ov + 1) fun a b => if a = k ∧ b = l then
        ∑ j ∈ Finset.range 0, Dv l j • ∑ i ∈ Finset.range (p + 1), Du k i • hcp s (ku - p + i) (kv - q + j)
        else if b < l ∨ (b = l ∧ a < k) then H a b else 0 := by
    refine gridOf_congr fun a _ b _ => ?_
    by_cases h : a = k ∧ b = l
    · rw [if_pos h, if_neg (by omega)]; simp
    · rw [if_neg h]
  rw [hfill, forUp_eq _ (fun c => gridOf (ou + 1) (ov + 1) fun a b => if a = k ∧ b = l then
        ∑ j ∈ Finset.range c, Dv l j • ∑ i ∈ Finset.range (p + 1), Du k i • hcp s (ku - p + i) (kv - q + j)
        else if b < l ∨ (b = l ∧ a < k) then H a b else 0)]
  · congr 1
    refine gridOf_congr fun a ha b hb => ?_
    by_cases h : a = k ∧ b = l
    · rw [if_pos h, if_pos (by omega), hH', h.1, h.2]
    · rw [if_neg h]
      by_cases h2 : b < l ∨ (b = l ∧ a < k)
      · rw [if_pos h2, if_pos (by omega)]
      · rw [if_neg h2, if_neg (by omega)]
  intro j hj
  rw [forLe_eq_forUp 0 p (p + 1) (by omega)]
  rw [forUp_finsum _ (fun i => Du k i • hcp s (ku - p + i) (kv - q + j))]
  · rw [bind_ok, zero_add, get_gridOf _ _ _ _ _ k l (by simp) (by simp) hk hl, bind_ok, if_pos ⟨rfl, rfl⟩,
      mget_tab (ov + 1) (q + 1) _ _ _ l j (by simp) (by simp) hl hj, bind_ok]
    apply set_gridOf _ _ _ _ _ _ k l _ (by simp) (by simp) hk hl
    intro a _ b _
    by_cases h : a = k ∧ b = l
    · rw [if_pos h, if_pos h, Finset.sum_range_succ, zero_add]
    · rw [if_neg h, if_neg h, if_neg h]
  · intro i hi t
    rw [hg, get_gridOf m n _ _ _ (ku - p + i) (kv - q + j) (by omega) (by omega) (by omega) (by omega), bind_ok,
      mget_tab (ou + 1) (p + 1) _ _ _ k i (by simp) (by simp) hk hi, bind_ok]
    rfl

open Vec4 in
/-- The partial derivatives of the rational surface. -/
noncomputable def ratD2 (p q : ℕ) (s : Surface K) (ku kv : ℕ) (u v : K) (k l : ℕ) : Vec3 K :=
  ⟨mixDeriv (surfP p q s ku kv lx) (surfP p q s ku kv lw) k l u v, mixDeriv (surfP p q s ku kv ly) (surfP p q s ku kv lw) k l u v,
    mixDeriv (surfP p q s ku kv lz) (surfP p q s ku kv lw) k l u v⟩

theorem vec3_sum_x (s : Finset ℕ) (f : ℕ → Vec3 K) : (∑ i ∈ s, f i).x = ∑ i ∈ s, (f i).x := by
  induction s using Finset.cons_induction <;> simp_all
theorem vec3_sum_y (s : Finset ℕ) (f : ℕ → Vec3 K) : (∑ i ∈ s, f i).y = ∑ i ∈ s, (f i).y := by
  induction s using Finset.cons_induction <;> simp_all
theorem vec3_sum_z (s : Finset ℕ) (f : ℕ → Vec3 K) : (∑ i ∈ s, f i).z = ∑ i ∈ s, (f i).z := by
  induction s using Finset.cons_induction <;> simp_all

theorem ratD2_rec {p q : ℕ} {s : Surface K} {ku kv : ℕ} {u v : K} (hne : (homD2 p q s ku kv u v 0 0).w ≠ 0) (k l : ℕ) (D : Vec3 K)
    (hD : D = (homD2 p q s ku kv u v k l).head3
      + ∑ i ∈ Finset.range k, -(((k.choose (i + 1) : K) * (homD2 p q s ku kv u v (i + 1) 0).w) • ratD2 p q s ku kv u v (k - (i + 1)) l)
      + ∑ j ∈ Finset.range l, -(((l.choose (j + 1) : K) * (homD2 p q s ku kv u v 0 (j + 1)).w) • ratD2 p q s ku kv u v k (l - (j + 1)))
      + ∑ i ∈ Finset.range k, ∑ j ∈ Finset.range l, -((((k.choose (i + 1) * l.choose (j + 1) : ℕ) : K) * (homD2 p q s ku kv u v (i + 1) (j + 1)).w) •
          ratD2 p q s ku kv u v (k - (i + 1)) (l - (j + 1)))) :
    D.divM (homD2 p q s ku kv u v 0 0).w = .ok (ratD2 p q s ku kv u v k l) := by
  have hw : ∀ k l, (homD2 p q s ku kv u v k l).w = MvPolynomial.eval ![u, v] (pd (surfP p q s ku kv Vec4.lw) k l) :=
    fun k l => (surfP_pd p q s ku kv Vec4.lw u v k l).symm
  have hx : ∀ k l, (homD2 p q s ku kv u v k l).x = MvPolynomial.eval ![u, v] (pd (surfP p q s ku kv Vec4.lx) k l) :=
    fun k l => (surfP_pd p q s ku kv Vec4.lx u v k l).symm
  have hy : ∀ k l, (homD2 p q s ku kv u v k l).y = MvPolynomial.eval ![u, v] (pd (surfP p q s ku kv Vec4.ly) k l) :=
    fun k l => (surfP_pd p q s ku kv Vec4.ly u v k l).symm
  have hz : ∀ k l, (homD2 p q s ku kv u v k l).z = MvPolynomial.eval ![u, v] (pd (surfP p q s ku kv Vec4.lz) k l) :=
    fun k l => (surfP_pd p q s ku kv Vec4.lz u v k l).symm
  have hne' : MvPolynomial.eval ![u, v] (surfP p q s ku kv Vec4.lw) ≠ 0 := by rw [hw] at hne; exact hne
  have h0 : (homD2 p q s ku kv u v 0 0).w = MvPolynomial.eval ![u, v] (surfP p q s ku kv Vec4.lw) := hw 0 0
  unfold Vec3.divM
  rw [fdiv_ok hne, bind_ok, fdiv_ok hne, bind_ok, fdiv_ok hne, bind_ok]
  congr 1
  rw [ratD2]
  have rx := mixDeriv_rec (surfP p q s ku kv Vec4.lx) _ u v hne' k l
  have ry := mixDeriv_rec (surfP p q s ku kv Vec4.ly) _ u v hne' k l
  have rz := mixDeriv_rec (surfP p q s ku kv Vec4.lz) _ u v hne' k l
  ext
  · rw [rx, hD, h0]
    simp only [Vec3.sub_x, Vec3.add_x, vec3_sum_x, Vec3.smul_x, Vec3.neg_x, Finset.sum_neg_distrib, ← sub_eq_add_neg, Vec4.head3, hx, hw, ratD2]
  · rw [ry, hD, h0]
    simp only [Vec3.sub_y, Vec3.add_y, vec3_sum_y, Vec3.smul_y, Vec3.neg_y, Finset.sum_neg_distrib, ← sub_eq_add_neg, Vec4.head3, hy, hw, ratD2]
  · rw [rz, hD, h0]
    simp only [Vec3.sub_z, Vec3.add_z, vec3_sum_z, Vec3.smul_z, Vec3.neg_z, Finset.sum_neg_distrib, ← sub_eq_add_neg, Vec4.head3, hz, hw, ratD2]

/-- One cell of `Surface::EvaluateAll`. -/
theorem evaluateAll2_cell {p q : ℕ} {s : Surface K} {ku kv : ℕ} {u v : K} (hne : (homD2 p q s ku kv u v 0 0).w ≠ 0) (OU OV a b : ℕ)
    (ha : a ≤ OU) (hb : b ≤ OV) (ha29 : a ≤ 29) (hb29 : b ≤ 29)
    (hprod : ∀ i j, i < a → j < b → a.choose (i + 1) * b.choose (j + 1) ≤ 2147483647) (f f' : ℕ → ℕ → Vec3 K)
    (hf : ∀ x y, x ≤ a → y ≤ b → (x ≠ a ∨ y ≠ b) → f x y = ratD2 p q s ku kv u v x y)
    (hf' : ∀ x < OU + 1, ∀ y < OV + 1, f' x y = if x = a ∧ y = b then ratD2 p q s ku kv u v a b else f x y) :
    (do
      let Aders := (← (gridOf (OU + 1) (OV + 1) (homD2 p q s ku kv u v)).Get a b).head3
      let Aders ← forLe 1 (a : Int) (fun i (Aders : Vec3 K) => do
        let Wders := (← (gridOf (OU + 1) (OV + 1) (homD2 p q s ku kv u v)).Get i 0).w
        return Aders - (((← Binomial a i : Int) : K) * Wders) • (← (gridOf (OU + 1) (OV + 1) f).Get (a - i) b)) Aders
      let Aders ← forLe 1 (b : Int) (fun j (Aders : Vec3 K) => do
        let Wders := (← (gridOf (OU + 1) (OV + 1) (homD2 p q s ku kv u v)).Get 0 j).w
        return Aders - (((← Binomial b j : Int) : K) * Wders) • (← (gridOf (OU + 1) (OV + 1) f).Get a (b - j))) Aders
      let Aders ← forLe 1 (a : Int) (fun i (Aders : Vec3 K) => do
        let bi ← Binomial a i
        forLe 1 (b : Int) (fun j (Aders : Vec3 K) => do
          let Wders := (← (gridOf (OU + 1) (OV + 1) (homD2 p q s ku kv u v)).Get i j).w
          let bb ← int32 (bi * (← Binomial b j))
          return Aders - ((bb : K) * Wders) • (← (gridOf (OU + 1) (OV + 1) f).Get (a - i) (b - j))) Aders) Aders
      (gridOf (OU + 1) (OV + 1) f).Set a b (← Aders.divM (homD2 p q s ku kv u v 0 0).w)) =
    .ok (gridOf (OU + 1) (OV + 1) f') := by
  rw [get_gridOf _ _ _ _ _ a b rfl rfl (by omega) (by omega), bind_ok]
  simp only
  rw [forLe_eq_forUp 1 a a (by omega)]
  rw [forUp_finsum _ (fun i => -(((a.choose (i + 1) : K) * (homD2 p q s ku kv u v (i + 1) 0).w) • ratD2 p q s ku kv u v (a - (i + 1)) b))]
  swap
  · intro i hi t
    rw [get_gridOf _ _ _ _ _ (i + 1) 0 (by push_cast; ring) (by simp) (by omega) (by omega), bind_ok,
      show (1 : Int) + (i : ℕ) = ((i + 1 : ℕ) : Int) by push_cast; ring,
      Props.C13_binomial a ha29 (i + 1), bind_ok, get_gridOf _ _ _ _ _ (a - (i + 1)) b (by omega) rfl (by omega) (by omega), bind_ok,
      hf _ _ (by omega) (by omega) (by omega), ← sub_eq_add_neg]
    simp
  rw [bind_ok, forLe_eq_forUp 1 b b (by omega)]
  rw [forUp_finsum _ (fun j => -(((b.choose (j + 1) : K) * (homD2 p q s ku kv u v 0 (j + 1)).w) • ratD2 p q s ku kv u v a (b - (j + 1))))]
  swap
  · intro j hj t
    rw [get_gridOf _ _ _ _ _ 0 (j + 1) (by simp) (by push_cast; ring) (by omega) (by omega), bind_ok,
      show (1 : Int) + (j : ℕ) = ((j + 1 : ℕ) : Int) by push_cast; ring,
      Props.C13_binomial b hb29 (j + 1), bind_ok, get_gridOf _ _ _ _ _ a (b - (j + 1)) rfl (by omega) (by omega) (by omega), bind_ok,
      hf _ _ (by omega) (by omega) (by omega), ← sub_eq_add_neg]
    simp
  rw [bind_ok, forLe_eq_forUp 1 a a (by omega)]
  rw [forUp_finsum _ (fun i => ∑ j ∈ Finset.range b, -((((a.choose (i + 1) * b.choose (j + 1) : ℕ) : K) * (homD2 p q s ku kv u v (i + 1) (j + 1)).w) •
          ratD2 p q s ku kv u v (a - (i + 1)) (b - (j + 1))))]
  swap
  · intro i hi t
    rw [show (1 : Int) + (i : ℕ) = ((i + 1 : ℕ) : Int) by push_cast; ring,
      Props.C13_binomial a ha29 (i + 1), bind_ok, forLe_eq_forUp 1 b b (by omega)]
    rw [forUp_finsum _ (fun j => -((((a.choose (i + 1) * b.choose (j + 1) : ℕ) : K) * (homD2 p q s ku kv u v (i + 1) (j + 1)).w) •
          ratD2 p q s ku kv u v (a - (i + 1)) (b - (j + 1))))]
    intro j hj t
    have h32 : int32 (((a.choose (i + 1) : ℕ) : Int) * ((b.choose (j + 1) : ℕ) : Int)) = .ok ((a.choose (i + 1) * b.choose (j + 1) : ℕ) : Int) := by
      have := hprod i j hi hj
      unfold int32
      rw [← Nat.cast_mul, if_pos (by omega)]
    rw [get_gridOf _ _ _ _ _ (i + 1) (j + 1) rfl (by push_cast; ring) (by omega) (by omega), bind_ok,
      show (1 : Int) + (j : ℕ) = ((j + 1 : ℕ) : Int) by push_cast; ring,
      Props.C13_binomial b hb29 (j + 1), bind_ok, h32, bind_ok,
      get_gridOf _ _ _ _ _ (a - (i + 1)) (b - (j + 1)) (by omega) (by omega) (by omega) (by omega), bind_ok,
      hf _ _ (by omega) (by omega) (by omega), ← sub_eq_add_neg]
    simp
  rw [bind_ok, ratD2_rec hne a b _ rfl, bind_ok]
  exact set_gridOf _ _ _ _ _ _ a b _ rfl rfl (by omega) (by omega) hf'

/-- `Surface::EvaluateAll`. -/
theorem surface_evaluateAll_ok {p q m n : ℕ} {s : Surface K} (hw : WFSurface p q m n s)
    {u v : K} (hu0 : 0 ≤ u) (hu1 : u ≤ 1) (hv0 : 0 ≤ v) (hv1 : v ≤ 1) {ku kv : ℕ}
    (hku : IsSpan s.KnotsU.Values u ku) (hkv : IsSpan s.KnotsV.Values v kv) (OU OV : ℕ) (hOU : OU ≤ 29) (hOV : OV ≤ 29)
    (hprod : OU.choose (OU / 2) * OV.choose (OV / 2) ≤ 2147483647) :
    0 < MvPolynomial.eval ![u, v] (surfP p q s ku kv Vec4.lw) ∧
    s.EvaluateAll u v OU OV = .ok (gridOf (OU + 1) (OV + 1) (ratD2 p q s ku kv u v)) := by
  obtain ⟨_, _, _, _, _, _, hpos, _⟩ := surface_seg hw hu0 hu1 hv0 hv1 hku hkv
  have hpos' : 0 < MvPolynomial.eval ![u, v] (surfP p q s ku kv Vec4.lw) := by rw [surfP_eval]; exact hpos
  refine ⟨hpos', ?_⟩
  have h00 : (homD2 p q s ku kv u v 0 0).w ≠ 0 := by
    have := surfP_pd p q s ku kv Vec4.lw u v 0 0
    rw [show pd (surfP p q s ku kv Vec4.lw) 0 0 = surfP p q s ku kv Vec4.lw from rfl] at this
    rw [this] at hpos'
    exact hpos'.ne'
  have hpr : ∀ a ≤ OU, ∀ b ≤ OV, ∀ i j, i < a → j < b → a.choose (i + 1) * b.choose (j + 1) ≤ 2147483647 := by
    intro a ha b hb i j _ _
    refine le_trans (Nat.mul_le_mul ?_ ?_) hprod
    · exact (Nat.choose_le_choose _ ha).trans (Nat.choose_le_middle _ _)
    · exact (Nat.choose_le_choose _ hb).trans (Nat.choose_le_middle _ _)
  unfold Surface.EvaluateAll
  rw [surface_homD_ok hw hu0 hu1 hv0 hv1 hku hkv, bind_ok, show (OU : Int) + 1 = ((OU + 1 : ℕ) : Int) by push_cast; ring,
    show (OV : Int) + 1 = ((OV + 1 : ℕ) : Int) by push_cast; ring,
    mk'_gridOf, bind_ok, get_gridOf _ _ _ _ _ 0 0 (by simp) (by simp) (by omega) (by omega), bind_ok, forLe_eq_forUp 0 OU (OU + 1) (by omega)]
  set T := ratD2 p q s ku kv u v with hT
  have hfill : (gridOf (OU + 1) (OV + 1) fun _ _ => (0 : Vec3 K)) = gridOf (OU + 1) (OV + 1) fun x y => if x < 0 then T x y else 0 :=
    gridOf_congr fun a _ b _ => by simp
  rw [hfill, forUp_eq _ (fun a => gridOf (OU + 1) (OV + 1) fun x y => if x < a then T x y else 0)]
  · congr 1
    exact gridOf_congr fun a ha b _ => by rw [if_pos ha]
  intro a ha
  rw [forLe_eq_forUp 0 OV (OV + 1) (by omega)]
  have hfill : (gridOf (OU + 1) (OV + 1) fun x y => if x < a then T x y else 0) =
      gridOf (OU + 1) (OV + 1) fun x y => if x < a ∨ (x = a ∧ y < 0) then T x y else 0 :=
    gridOf_congr fun a _ b _ => by simp
  rw [hfill, forUp_eq _ (fun b => gridOf (OU + 1) (OV + 1) fun x y => if x < a ∨ (x = a ∧ y < b) then T x y else 0)]
  · congr 1
    refine gridOf_congr fun x hx y hy => ?_
    by_cases h : x < a + 1
    · rw [if_pos h, if_pos (by omega)]
    · rw [if_neg h, if_neg (by omega)]
  intro b hb
  rw [zero_add, zero_add]
  apply evaluateAll2_cell h00 OU OV a b (by omega) (by omega) (by omega) (by omega) (hpr a (by omega) b (by omega))
  · intro x y hx hy hxy
    rw [if_pos (by omega)]
  · intro x _ y _
    by_cases h : x = a ∧ y = b
    · rw [if_pos h, if_pos (by omega), h.1, h.2]
    · rw [if_neg h]
      by_cases h2 : x < a ∨ (x = a ∧ y < b)
      · rw [if_pos h2, if_pos (by omega)]
      · rw [if_neg h2, if_neg (by omega)]

end
end Nurbs
