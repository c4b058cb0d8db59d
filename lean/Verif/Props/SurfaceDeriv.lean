import Verif.Proof.SurfaceDerivUb
import Verif.Props.Surface
import Verif.Props.Deriv
import Mathlib.Algebra.MvPolynomial.Funext

/-! # C45: partial derivatives of surfaces -/

set_option linter.unusedSectionVars false

namespace Nurbs.Props
open Nurbs Nurbs.Spec

variable {K : Type} [Field K] [LinearOrder K] [IsStrictOrderedRing K]

/-- The polynomials in the statement below are determined by the function. -/
theorem C45_patch_unique {lu lv : List K} {u v : K} {ku kv : ℕ} (hu : IsSpan lu u ku) (hv : IsSpan lv v kv) {f : K → K → K}
    {P Q : MvPolynomial (Fin 2) K} (hP : IsPatch lu lv ku kv f P) (hQ : IsPatch lu lv ku kv f Q) : P = Q := by
  apply MvPolynomial.funext_set ![Set.Ico (kn lu ku) (kn lu (ku + 1)), Set.Ico (kn lv kv) (kn lv (kv + 1))]
  · intro i
    fin_cases i
    · exact Set.Ico_infinite (IsSpan.lt hu)
    · exact Set.Ico_infinite (IsSpan.lt hv)
  · intro x hx
    have h0 := hx 0 (Set.mem_univ _)
    have h1 := hx 1 (Set.mem_univ _)
    have e : x = ![x 0, x 1] := by funext i; fin_cases i <;> rfl
    rw [e, ← hP (x 0) (x 1) ⟨hu.1, h0.1, Or.inl h0.2⟩ ⟨hv.1, h1.1, Or.inl h1.2⟩,
      ← hQ (x 0) (x 1) ⟨hu.1, h0.1, Or.inl h0.2⟩ ⟨hv.1, h1.1, Or.inl h1.2⟩]

theorem surfP_patch {p q m n : ℕ} {s : Surface K} (hw : WFSurface p q m n s) {ku kv : ℕ} (hp : p ≤ ku) (hm : ku < m)
    (hq : q ≤ kv) (hn : kv < n) (L : Vec4 K →ₗ[K] K) (f : Vec4 K → K) (hL : ∀ v, L (ToHomo v) = v.w * f v) :
    IsPatch s.KnotsU.Values s.KnotsV.Values ku kv (fun a b => swsum p q m n s a b f) (surfP p q s ku kv L) := by
  intro a b ha hb
  simp only
  rw [surfP_eval, swsum_eq hw ha hb hp hm hq hn L f hL]

/-- C45.  For a well-formed surface, `(u, v) ∈ [0,1]²` and orders `ou, ov ≤ 29` with
`C(ou, ou/2) · C(ov, ov/2) < 2³¹`, `Surface::EvaluateAll` succeeds and its entry `(k, l)` is the partial derivative, `k` times for
`u` and `l` times for `v`, of the surface at `(u, v)`: if on the rectangle of knot spans around `(u, v)` the sums `Σ N N w x`,
`Σ N N w y`, `Σ N N w z` and `Σ N N w` are the polynomials `X`, `Y`, `Z`, `W` then the entry is, by the quotient rule, the derivative
of `X/W`, `Y/W`, `Z/W`.  `EvaluateDerivative` returns the last entry.
Missing for the full C45 (all orders): the larger orders, where it is false, see `C45_large_orders_refuted`. -/
theorem C45_evaluateAll_partial {p q m n : ℕ} {s : Surface K} (hw : WFSurface p q m n s) {u v : K} (hu0 : 0 ≤ u) (hu1 : u ≤ 1)
    (hv0 : 0 ≤ v) (hv1 : v ≤ 1) (ou ov : ℕ) (hou : ou ≤ 29) (hov : ov ≤ 29)
    (hprod : ou.choose (ou / 2) * ov.choose (ov / 2) ≤ 2147483647) :
    ∃ (ku kv : ℕ) (X Y Z W : MvPolynomial (Fin 2) K) (ds : Grid (Vec3 K)),
      IsSpan s.KnotsU.Values u ku ∧ IsSpan s.KnotsV.Values v kv ∧
      IsPatch s.KnotsU.Values s.KnotsV.Values ku kv (fun a b => swsum p q m n s a b (·.x)) X ∧
      IsPatch s.KnotsU.Values s.KnotsV.Values ku kv (fun a b => swsum p q m n s a b (·.y)) Y ∧
      IsPatch s.KnotsU.Values s.KnotsV.Values ku kv (fun a b => swsum p q m n s a b (·.z)) Z ∧
      IsPatch s.KnotsU.Values s.KnotsV.Values ku kv (fun a b => swsum p q m n s a b (fun _ => 1)) W ∧
      0 < MvPolynomial.eval ![u, v] W ∧ s.EvaluateAll u v ou ov = .ok ds ∧
      ds.UCount = ou + 1 ∧ ds.VCount = ov + 1 ∧
      (∀ k ≤ ou, ∀ l ≤ ov, ds.Get k l = .ok ⟨mixDeriv X W k l u v, mixDeriv Y W k l u v, mixDeriv Z W k l u v⟩) ∧
      s.EvaluateDerivative u v ou ov = .ok ⟨mixDeriv X W ou ov u v, mixDeriv Y W ou ov u v, mixDeriv Z W ou ov u v⟩ := by
  obtain ⟨ku, hku, _, _⟩ := exists_span hw.clampedU hu0 hu1
  obtain ⟨kv, hkv, _, _⟩ := exists_span hw.clampedV hv0 hv1
  obtain ⟨h1, h2, h3, h4, _⟩ := surface_seg hw hu0 hu1 hv0 hv1 hku hkv
  obtain ⟨hpos, he⟩ := surface_evaluateAll_ok hw hu0 hu1 hv0 hv1 hku hkv ou ov hou hov hprod
  refine ⟨ku, kv, surfP p q s ku kv Vec4.lx, surfP p q s ku kv Vec4.ly, surfP p q s ku kv Vec4.lz, surfP p q s ku kv Vec4.lw, _,
    hku, hkv, ?_, ?_, ?_, ?_, hpos, he, by simp, by simp, ?_, ?_⟩
  · exact surfP_patch hw h1 h2 h3 h4 _ _ (fun v => by simp [ToHomo, Vec4.lx]; ring)
  · exact surfP_patch hw h1 h2 h3 h4 _ _ (fun v => by simp [ToHomo, Vec4.ly]; ring)
  · exact surfP_patch hw h1 h2 h3 h4 _ _ (fun v => by simp [ToHomo, Vec4.lz]; ring)
  · exact surfP_patch hw h1 h2 h3 h4 _ _ (fun v => by simp [ToHomo, Vec4.lw])
  · intro k hk l hl
    exact get_gridOf _ _ _ _ _ k l rfl rfl (by omega) (by omega)
  · unfold Surface.EvaluateDerivative
    rw [he, bind_ok]
    exact get_gridOf _ _ _ _ _ ou ov rfl rfl (by omega) (by omega)

/-- Value, `∂u`, `∂u²`, `∂v`, `∂u∂v`, `∂u²∂v` of the example at `(1/3, 1/4)`. -/
example : exSurface.EvaluateAll (1/3) (1/4) 2 1 = .ok ⟨3, 2, [⟨11/7, 4/7, 5/7⟩, ⟨108/49, -18/49, 9/49⟩, ⟨-5913/686, 1647/686, 3807/686⟩,
    ⟨-40/49, 128/49, -120/49⟩, ⟨360/343, 864/343, 1584/343⟩, ⟨95688/2401, -63072/2401, 50436/2401⟩]⟩ := by decide +kernel

/-- A bilinear patch. -/
def exBilinear : Surface ℚ :=
  ⟨1, 1, ⟨[0, 0, 1, 1]⟩, ⟨[0, 0, 1, 1]⟩, ⟨2, 2, [⟨0, 0, 0, 1⟩, ⟨1, 0, 0, 1⟩, ⟨0, 1, 0, 1⟩, ⟨1, 1, 1, 1⟩]⟩⟩

theorem exBilinear_wf : WFSurface 1 1 2 2 exBilinear :=
  ⟨rfl, rfl, ⟨by decide +kernel, by decide +kernel, by decide +kernel, by decide +kernel, by decide +kernel,
    by decide +kernel⟩, ⟨by decide +kernel, by decide +kernel, by decide +kernel, by decide +kernel, by decide +kernel,
    by decide +kernel⟩, rfl, rfl, rfl, rfl, rfl, by decide +kernel⟩

/-- C45 fails for all other orders: `Surface::EvaluateAll` overflows an `int`, in `Binomial` or in the product of two binomial
coefficients, which is undefined behaviour. -/
theorem C45_large_orders_refuted {p q m n : ℕ} {s : Surface K} (hw : WFSurface p q m n s) {u v : K} (hu0 : 0 ≤ u) (hu1 : u ≤ 1)
    (hv0 : 0 ≤ v) (hv1 : v ≤ 1) (ou ov : ℕ) (h : 30 ≤ ou ∨ 30 ≤ ov ∨ 2147483647 < ou.choose (ou / 2) * ov.choose (ov / 2)) :
    s.EvaluateAll u v ou ov = .error .ub ∧ s.EvaluateDerivative u v ou ov = .error .ub := by
  obtain ⟨ku, hku, _, _⟩ := exists_span hw.clampedU hu0 hu1
  obtain ⟨kv, hkv, _, _⟩ := exists_span hw.clampedV hv0 hv1
  have := surface_evaluateAll_ub hw hu0 hu1 hv0 hv1 hku hkv ou ov h
  refine ⟨this, ?_⟩
  unfold Surface.EvaluateDerivative
  rw [this]
  rfl

/-- Already for the 18th mixed derivative of a bilinear patch. -/
example : exBilinear.EvaluateAll (1/2) (1/2) 18 18 = .error .ub :=
  (C45_large_orders_refuted exBilinear_wf (by decide +kernel) (by decide +kernel) (by decide +kernel) (by decide +kernel) 18 18
    (by decide)).1

/-! ### Over the real numbers -/

section real

theorem mv_hasDerivAt_u (P : MvPolynomial (Fin 2) ℝ) (a b : ℝ) :
    HasDerivAt (fun t => MvPolynomial.eval ![t, b] P) (MvPolynomial.eval ![a, b] (MvPolynomial.pderiv 0 P)) a := by
  induction P using MvPolynomial.induction_on with
  | C c => simpa using hasDerivAt_const a c
  | add p q hp hq => simpa using hp.fun_add hq
  | mul_X p i hp =>
    fin_cases i
    · have := hp.fun_mul (hasDerivAt_id' a)
      simpa [Derivation.leibniz, MvPolynomial.pderiv_X_self, add_comm, mul_comm] using this
    · have := hp.mul_const b
      simpa [Derivation.leibniz, MvPolynomial.pderiv_X, mul_comm] using this

theorem mv_hasDerivAt_v (P : MvPolynomial (Fin 2) ℝ) (a b : ℝ) :
    HasDerivAt (fun t => MvPolynomial.eval ![a, t] P) (MvPolynomial.eval ![a, b] (MvPolynomial.pderiv 1 P)) b := by
  induction P using MvPolynomial.induction_on with
  | C c => simpa using hasDerivAt_const b c
  | add p q hp hq => simpa using hp.fun_add hq
  | mul_X p i hp =>
    fin_cases i
    · have := hp.mul_const a
      simpa [Derivation.leibniz, MvPolynomial.pderiv_X, mul_comm] using this
    · have := hp.fun_mul (hasDerivAt_id' b)
      simpa [Derivation.leibniz, MvPolynomial.pderiv_X_self, add_comm, mul_comm] using this

theorem mix_iteratedDeriv {f : ℝ → ℝ → ℝ} {a₀ a₁ b₀ b₁ : ℝ} {A W : MvPolynomial (Fin 2) ℝ}
    (h : ∀ a, a₀ < a → a < a₁ → ∀ b, b₀ < b → b < b₁ → f a b = MvPolynomial.eval ![a, b] A / MvPolynomial.eval ![a, b] W)
    (hW : ∀ a, a₀ < a → a < a₁ → ∀ b, b₀ < b → b < b₁ → MvPolynomial.eval ![a, b] W ≠ 0) (k l : ℕ) :
    ∀ a, a₀ < a → a < a₁ → ∀ b, b₀ < b → b < b₁ →
      iteratedDeriv k (fun a => iteratedDeriv l (fun b => f a b) b) a = mixDeriv A W k l a b := by
  induction k with
  | zero =>
    simp only [iteratedDeriv_zero]
    induction l with
    | zero => intro a h1 h2 b h3 h4; simpa [mixDeriv, mixNum] using h a h1 h2 b h3 h4
    | succ l ih =>
      intro a h1 h2 b h3 h4
      rw [iteratedDeriv_succ]
      have : iteratedDeriv l (fun b => f a b) =ᶠ[nhds b] fun t => MvPolynomial.eval ![a, t] (mixNum A W 0 l) / MvPolynomial.eval ![a, t] W ^ (0 + l + 1) := by
        filter_upwards [Ioo_mem_nhds h3 h4] with t ht
        exact ih a h1 h2 t ht.1 ht.2
      rw [this.deriv_eq]
      have hne := hW a h1 h2 b h3 h4
      have hd := HasDerivAt.fun_div (mv_hasDerivAt_v (mixNum A W 0 l) a b) (HasDerivAt.fun_pow (mv_hasDerivAt_v W a b) (0 + l + 1)) (pow_ne_zero _ hne)
      rw [hd.deriv]
      unfold mixDeriv
      rw [mixNum_eq, mixNum_eq, gNum_v]
      simp only [map_sub, map_mul, nsmul_eq_mul, map_natCast]
      rw [div_eq_div_iff (pow_ne_zero _ (pow_ne_zero _ hne)) (pow_ne_zero _ hne)]
      simp only [Nat.add_sub_cancel]
      push_cast
      ring
  | succ k ih =>
    intro a h1 h2 b h3 h4
    rw [iteratedDeriv_succ]
    have : iteratedDeriv k (fun a => iteratedDeriv l (fun b => f a b) b) =ᶠ[nhds a] fun t => MvPolynomial.eval ![t, b] (mixNum A W k l) / MvPolynomial.eval ![t, b] W ^ (k + l + 1) := by
      filter_upwards [Ioo_mem_nhds h1 h2] with t ht
      exact ih t ht.1 ht.2 b h3 h4
    rw [this.deriv_eq]
    have hne := hW a h1 h2 b h3 h4
    have hd := HasDerivAt.fun_div (mv_hasDerivAt_u (mixNum A W k l) a b) (HasDerivAt.fun_pow (mv_hasDerivAt_u W a b) (k + l + 1)) (pow_ne_zero _ hne)
    rw [hd.deriv]
    unfold mixDeriv
    rw [mixNum_eq, mixNum_eq, gNum_u]
    simp only [map_sub, map_mul, nsmul_eq_mul, map_natCast]
    rw [div_eq_div_iff (pow_ne_zero _ (pow_ne_zero _ hne)) (pow_ne_zero _ hne)]
    simp only [Nat.add_sub_cancel]
    push_cast
    ring

/-- C45 over the reals: inside a rectangle of knot spans the returned vectors are the iterated partial derivatives of the
coordinates of the surface. -/
theorem C45_evaluateAll_real_partial {p q m n : ℕ} {s : Surface ℝ} (hw : WFSurface p q m n s) {u v : ℝ} {ku kv : ℕ}
    (hku : ku + 1 < s.KnotsU.Values.length) (hkv : kv + 1 < s.KnotsV.Values.length)
    (hu1 : kn s.KnotsU.Values ku < u) (hu2 : u < kn s.KnotsU.Values (ku + 1))
    (hv1 : kn s.KnotsV.Values kv < v) (hv2 : v < kn s.KnotsV.Values (kv + 1)) (ou ov : ℕ) (hou : ou ≤ 29) (hov : ov ≤ 29)
    (hprod : ou.choose (ou / 2) * ov.choose (ov / 2) ≤ 2147483647) :
    ∃ ds, s.EvaluateAll u v ou ov = .ok ds ∧ ∀ k ≤ ou, ∀ l ≤ ov, ds.Get k l = .ok
      ⟨iteratedDeriv k (fun a => iteratedDeriv l (fun b => (surfPoint p q m n s a b).x) v) u,
        iteratedDeriv k (fun a => iteratedDeriv l (fun b => (surfPoint p q m n s a b).y) v) u,
        iteratedDeriv k (fun a => iteratedDeriv l (fun b => (surfPoint p q m n s a b).z) v) u⟩ := by
  have hcu := hw.clampedU
  have hcv := hw.clampedV
  obtain ⟨ku', kv', X, Y, Z, W, ds, hsu, hsv, hX, hY, hZ, hW, _, he, _, _, hds, _⟩ := C45_evaluateAll_partial hw
    (le_trans (hcu.nonneg (by omega)) hu1.le) (le_trans hu2.le (hcu.le_one hku))
    (le_trans (hcv.nonneg (by omega)) hv1.le) (le_trans hv2.le (hcv.le_one hkv)) ou ov hou hov hprod
  obtain rfl : ku = ku' := isSpan_unique hcu.sorted ⟨hku, hu1.le, Or.inl hu2⟩ hsu (fun i hi => hcu.le_one hi)
  obtain rfl : kv = kv' := isSpan_unique hcv.sorted ⟨hkv, hv1.le, Or.inl hv2⟩ hsv (fun i hi => hcv.le_one hi)
  have hWne : ∀ a, kn s.KnotsU.Values ku < a → a < kn s.KnotsU.Values (ku + 1) → ∀ b, kn s.KnotsV.Values kv < b →
      b < kn s.KnotsV.Values (kv + 1) → MvPolynomial.eval ![a, b] W ≠ 0 := by
    intro a ha1 ha2 b hb1 hb2
    rw [← hW a b ⟨hku, ha1.le, Or.inl ha2⟩ ⟨hkv, hb1.le, Or.inl hb2⟩]
    exact (C43_evaluate hw (le_trans (hcu.nonneg (by omega)) ha1.le) (le_trans ha2.le (hcu.le_one hku))
      (le_trans (hcv.nonneg (by omega)) hb1.le) (le_trans hb2.le (hcv.le_one hkv))).2.ne'
  refine ⟨ds, he, fun k hk l hl => ?_⟩
  rw [hds k hk l hl, mix_iteratedDeriv (A := X) _ hWne k l u hu1 hu2 v hv1 hv2, mix_iteratedDeriv (A := Y) _ hWne k l u hu1 hu2 v hv1 hv2,
    mix_iteratedDeriv (A := Z) _ hWne k l u hu1 hu2 v hv1 hv2]
  · intro a ha1 ha2 b hb1 hb2
    rw [← hZ a b ⟨hku, ha1.le, Or.inl ha2⟩ ⟨hkv, hb1.le, Or.inl hb2⟩, ← hW a b ⟨hku, ha1.le, Or.inl ha2⟩ ⟨hkv, hb1.le, Or.inl hb2⟩]; rfl
  · intro a ha1 ha2 b hb1 hb2
    rw [← hY a b ⟨hku, ha1.le, Or.inl ha2⟩ ⟨hkv, hb1.le, Or.inl hb2⟩, ← hW a b ⟨hku, ha1.le, Or.inl ha2⟩ ⟨hkv, hb1.le, Or.inl hb2⟩]; rfl
  · intro a ha1 ha2 b hb1 hb2
    rw [← hX a b ⟨hku, ha1.le, Or.inl ha2⟩ ⟨hkv, hb1.le, Or.inl hb2⟩, ← hW a b ⟨hku, ha1.le, Or.inl ha2⟩ ⟨hkv, hb1.le, Or.inl hb2⟩]; rfl

end real

end Nurbs.Props
