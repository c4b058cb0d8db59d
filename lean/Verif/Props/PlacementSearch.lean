import Verif.Props.Placement
import Verif.Props.Ends
import Verif.Proof.SurfaceElev

/-! # C91: moving surfaces, derivatives and searches -/

namespace Nurbs.Props
open Nurbs Nurbs.Spec Polynomial

set_option linter.unusedSectionVars false

variable {K : Type} [Field K] [LinearOrder K] [IsStrictOrderedRing K]

/-! ### Derivatives of curves -/

theorem quotNum_scale (A W : K[X]) (a : K) (m : ℕ) : quotNum (C a * A) (C a * W) m = C a ^ (m + 1) * quotNum A W m := by
  induction m with
  | zero => simp [quotNum]
  | succ m ih =>
    simp only [quotNum]
    rw [ih]
    have : derivative (C a ^ (m + 1) * quotNum A W m) = C a ^ (m + 1) * derivative (quotNum A W m) := by
      rw [← C_pow, derivative_C_mul]
    rw [this, derivative_C_mul]
    simp only [nsmul_eq_mul]
    ring

theorem quotNum_lin (A B D W : K[X]) (r s t d : K) (m : ℕ) :
    quotNum (C r * A + C s * B + C t * D + C d * W) W m =
      C r * quotNum A W m + C s * quotNum B W m + C t * quotNum D W m + if m = 0 then C d * W else 0 := by
  induction m with
  | zero => simp [quotNum]
  | succ m ih =>
    simp only [quotNum]
    rw [ih]
    rcases Nat.eq_zero_or_pos m with rfl | hm
    · simp only [if_pos, derivative_add, derivative_C_mul, nsmul_eq_mul]
      simp
      ring
    · rw [if_neg (by omega), if_neg (by omega)]
      simp only [derivative_add, derivative_C_mul, nsmul_eq_mul, add_zero]
      ring

theorem quotDeriv_place (A B D W : K[X]) (r s t d a : K) (ha : a ≠ 0) (m : ℕ) (x : K) (hW : W.eval x ≠ 0) :
    quotDeriv (C a * (C r * A + C s * B + C t * D + C d * W)) (C a * W) m x =
      r * quotDeriv A W m x + s * quotDeriv B W m x + t * quotDeriv D W m x + if m = 0 then d else 0 := by
  unfold quotDeriv
  rw [quotNum_scale, quotNum_lin]
  have h1 : W.eval x ^ (m + 1) ≠ 0 := pow_ne_zero _ hW
  have h2 : a ^ (m + 1) ≠ 0 := pow_ne_zero _ ha
  split_ifs with h
  · subst h
    simp
    field_simp
  · simp [mul_pow]
    field_simp

theorem segP_add (U : ℕ → K) (k p : ℕ) (f g : ℕ → K) : segP U k p (fun i => f i + g i) = segP U k p f + segP U k p g := by
  unfold segP
  rw [← Finset.sum_add_distrib]
  exact Finset.sum_congr rfl fun _ _ => by rw [C_add, add_mul]

theorem segP_mul (U : ℕ → K) (k p : ℕ) (a : K) (f : ℕ → K) : segP U k p (fun i => a * f i) = C a * segP U k p f := by
  unfold segP
  rw [Finset.mul_sum]
  exact Finset.sum_congr rfl fun _ _ => by rw [C_mul, mul_assoc]

theorem segP_congr {U : ℕ → K} {k p : ℕ} {f g : ℕ → K} (hp : p ≤ k) (h : ∀ i, k ≤ i + p → i ≤ k → f i = g i) :
    segP U k p f = segP U k p g := by
  unfold segP
  refine Finset.sum_congr rfl fun n hn => ?_
  have := Finset.mem_range.mp hn
  rw [h _ (by omega) (by omega)]

/-- One coordinate of the moved curve. -/
theorem curveP_place {p : ℕ} {c : Curve K} (P : Placement K) {k : ℕ} (hpk : p ≤ k) (hk : k < c.ControlPoints.length) (L : Vec4 K → K)
    (r s t d : K) (hL : ∀ v, L (placeL P v) = P.a * (r * v.x + s * v.y + t * v.z + d * v.w)) :
    curveP p (P.curve c) k L = C P.a * (C r * curveP p c k (·.x) + C s * curveP p c k (·.y) + C t * curveP p c k (·.z) +
      C d * curveP p c k (·.w)) := by
  unfold curveP
  rw [← segP_mul, ← segP_mul, ← segP_mul, ← segP_mul, ← segP_add, ← segP_add, ← segP_add, ← segP_mul]
  refine segP_congr hpk fun i _ hi => ?_
  rw [place_hpts P c (by omega), hL]

theorem place_evaluateAll {p : ℕ} {c : Curve K} (hw : WFCurve p c) {P : Placement K} (ha : 0 < P.a) {x : K} (h0 : 0 ≤ x) (h1 : x ≤ 1)
    (order : ℕ) (ho : order ≤ 29) : ∃ D : ℕ → Vec3 K, c.EvaluateAll x order = .ok (tab (order + 1) D) ∧
      (P.curve c).EvaluateAll x order = .ok (tab (order + 1) fun m => if m = 0 then P.pos (D 0) else matApply P.R (D m)) := by
  obtain ⟨k, hk, _⟩ := exists_span hw.clamped h0 h1
  obtain ⟨hpk, hl, _⟩ := evaluate_seg hw h0 h1 hk
  have hct := hw.count
  obtain ⟨hpos, e⟩ := curve_evaluateAll_ok hw h0 h1 hk order ho
  obtain ⟨_, e'⟩ := curve_evaluateAll_ok (place_wf hw ha) h0 h1 hk order ho
  refine ⟨_, e, e'.trans ?_⟩
  congr 1
  refine tab_congr fun m _ => ?_
  have hkn : k < c.ControlPoints.length := by omega
  have hwW : curveP p (P.curve c) k (·.w) = C P.a * curveP p c k (·.w) := by
    rw [curveP_place P hpk hkn (·.w) 0 0 0 1 (fun v => by simp [placeL])]
    simp
  have key := fun (L : Vec4 K → K) r s t d hL => (congrArg (fun z => quotDeriv z (curveP p (P.curve c) k (·.w)) m x)
    (curveP_place (p := p) (c := c) P hpk hkn L r s t d hL)).trans
      ((congrArg (fun z => quotDeriv _ z m x) hwW).trans (quotDeriv_place _ _ _ _ r s t d P.a ha.ne' m x hpos.ne'))
  split_ifs with hm
  · subst hm
    ext
    · refine (key (·.x) P.R.r0.x P.R.r0.y P.R.r0.z P.t.x (fun v => by simp [placeL, matApply])).trans ?_
      simp [Placement.pos, matApply, ratD]
    · refine (key (·.y) P.R.r1.x P.R.r1.y P.R.r1.z P.t.y (fun v => by simp [placeL, matApply])).trans ?_
      simp [Placement.pos, matApply, ratD]
    · refine (key (·.z) P.R.r2.x P.R.r2.y P.R.r2.z P.t.z (fun v => by simp [placeL, matApply])).trans ?_
      simp [Placement.pos, matApply, ratD]
  · ext
    · refine (key (·.x) P.R.r0.x P.R.r0.y P.R.r0.z P.t.x (fun v => by simp [placeL, matApply])).trans ?_
      simp [matApply, ratD, hm]
    · refine (key (·.y) P.R.r1.x P.R.r1.y P.R.r1.z P.t.y (fun v => by simp [placeL, matApply])).trans ?_
      simp [matApply, ratD, hm]
    · refine (key (·.z) P.R.r2.x P.R.r2.y P.R.r2.z P.t.z (fun v => by simp [placeL, matApply])).trans ?_
      simp [matApply, ratD, hm]

/-- C91 (derivatives).  The derivatives of the moved curve are the derivatives, turned by the linear map only. -/
theorem C91_derivative {p : ℕ} {c : Curve K} (hw : WFCurve p c) {P : Placement K} (ha : 0 < P.a) {x : K} (h0 : 0 ≤ x) (h1 : x ≤ 1)
    (order : ℕ) (ho : order ≤ 29) (hpos : 1 ≤ order) :
    ∃ D, c.EvaluateDerivative x order = .ok D ∧ (P.curve c).EvaluateDerivative x order = .ok (matApply P.R D) := by
  obtain ⟨D, e, e'⟩ := place_evaluateAll hw ha h0 h1 order ho
  refine ⟨D order, ?_, ?_⟩
  · unfold Curve.EvaluateDerivative
    rw [e, bind_ok, vget_tab _ _ _ order rfl (by omega)]
  · unfold Curve.EvaluateDerivative
    rw [e', bind_ok, vget_tab _ _ _ order rfl (by omega), if_neg (by omega)]

/-! ### Searches on curves -/

theorem pos_sub (P : Placement K) (v w : Vec3 K) : P.pos v - P.pos w = matApply P.R (v - w) := by
  ext <;> simp [Placement.pos, matApply] <;> ring

theorem orth_norm {R : Mat3 K} (hR : IsOrthogonal R) (sqrt : K → K) (v : Vec3 K) : (matApply R v).norm sqrt = v.norm sqrt :=
  congrArg sqrt (hR v v)

theorem orth_dot {R : Mat3 K} (hR : IsOrthogonal R) (v w : Vec3 K) : (matApply R v).dot (matApply R w) = v.dot w := hR v w

theorem eval_out (c : Curve K) {x : K} (h : ¬ (0 ≤ x ∧ x ≤ 1)) : c.Evaluate x = .error .assert := by
  unfold Curve.Evaluate
  rw [massert_false (by simpa using h)]
  rfl

theorem place_residual {p : ℕ} {c : Curve K} (hw : WFCurve p c) {P : Placement K} (ha : 0 < P.a) (hR : IsOrthogonal P.R) (sqrt : K → K)
    (pt : Vec3 K) : (P.curve c).residual sqrt (P.pos pt) = c.residual sqrt pt := by
  funext u
  unfold Curve.residual
  by_cases h : 0 ≤ u ∧ u ≤ 1
  · obtain ⟨C, e, e'⟩ := C91_evaluate hw ha h.1 h.2
    rw [e, e', bind_ok, bind_ok, pos_sub, orth_norm hR]
  · rw [eval_out _ h, eval_out _ h]
    rfl

theorem place_gradient {p : ℕ} {c : Curve K} (hw : WFCurve p c) {P : Placement K} (ha : 0 < P.a) (hR : IsOrthogonal P.R)
    (pt : Vec3 K) : (P.curve c).searchGradient (P.pos pt) = c.searchGradient pt := by
  funext u
  unfold Curve.searchGradient
  by_cases h : 0 ≤ u ∧ u ≤ 1
  · obtain ⟨C, e, e'⟩ := C91_evaluate hw ha h.1 h.2
    obtain ⟨D, d, d'⟩ := C91_derivative hw ha h.1 h.2 1 (by omega) le_rfl
    rw [e, e', bind_ok, bind_ok, show (1 : Int) = ((1 : ℕ) : Int) from rfl, d, d', bind_ok, bind_ok, pos_sub, orth_dot hR]
  · rw [eval_out _ h, eval_out _ h]
    rfl

/-- C91 (searches).  Moving curve and point by a rotation or reflection and a translation does not change what the searches
return, whatever the starting value, tolerance and number of iterations. -/
theorem C91_search {p : ℕ} {c : Curve K} (hw : WFCurve p c) {P : Placement K} (ha : 0 < P.a) (hR : IsOrthogonal P.R) (sqrt : K → K)
    (pt : Vec3 K) :
    (∀ fuel init eps count, (P.curve c).SearchParameter sqrt fuel (P.pos pt) init eps count = c.SearchParameter sqrt fuel pt init eps count) ∧
    ∀ eps count, (P.curve c).BinarySearchParameter sqrt (P.pos pt) eps count = c.BinarySearchParameter sqrt pt eps count := by
  unfold Curve.SearchParameter Curve.BinarySearchParameter
  rw [place_residual hw ha hR, place_gradient hw ha hR]
  exact ⟨fun _ _ _ _ => rfl, fun _ _ => rfl⟩

/-! ### Surfaces -/

section
variable {p q m n : ℕ} {s : Surface K}

theorem place_cp (hw : WFSurface p q m n s) (P : Placement K) {i j : ℕ} (hi : i < m) (hj : j < n) :
    cp (P.surface s) i j = P.cpt (cp s i j) := by
  have h1 := cell_lt hi hj
  have h2 := hw.storage
  have h3 : j * m + i < s.ControlPoints.Values.length := by omega
  simp [cp, Placement.surface, hw.uCount, h3]

theorem place_hcp (hw : WFSurface p q m n s) (P : Placement K) {i j : ℕ} (hi : i < m) (hj : j < n) :
    hcp (P.surface s) i j = placeL P (hcp s i j) := by
  unfold hcp
  rw [place_cp hw P hi hj, placeL_toHomo]

theorem place_wfs (hw : WFSurface p q m n s) {P : Placement K} (ha : 0 < P.a) : WFSurface p q m n (P.surface s) :=
  ⟨hw.degreeU, hw.degreeV, hw.clampedU, hw.clampedV, hw.uCount, hw.vCount, hw.knotsU, hw.knotsV,
    by simpa [Placement.surface] using hw.storage, fun i hi j hj => by
      rw [place_cp hw P hi hj]; exact mul_pos ha (hw.weights i hi j hj)⟩

theorem transform_place_surface (s : Surface K) (R : Mat3 K) : s.Transform R = Placement.surface ⟨R, 0, 1⟩ s := by
  unfold Surface.Transform Placement.surface
  congr 1
  show (⟨_, _, _⟩ : Grid _) = ⟨_, _, _⟩
  congr 1
  apply List.map_congr_left
  intro v _
  ext <;> simp [Curve.transformPoint, Placement.cpt, Placement.pos, matApply, Mat3.mulVec, Vec3.dot, Vec4.head3]

/-- C91 (evaluation of surfaces). -/
theorem C91_evaluate_surface (hw : WFSurface p q m n s) {P : Placement K} (ha : 0 < P.a) {u v : K} (hu0 : 0 ≤ u) (hu1 : u ≤ 1)
    (hv0 : 0 ≤ v) (hv1 : v ≤ 1) : ∃ S, s.Evaluate u v = .ok S ∧ (P.surface s).Evaluate u v = .ok (P.pos S) := by
  obtain ⟨ku, hku, _, _⟩ := exists_span hw.clampedU hu0 hu1
  obtain ⟨kv, hkv, _, _⟩ := exists_span hw.clampedV hv0 hv1
  obtain ⟨h1, h2, h3, h4, _, _, hpos, he⟩ := surface_seg hw hu0 hu1 hv0 hv1 hku hkv
  obtain ⟨_, _, _, _, _, _, _, he'⟩ := surface_seg (place_wfs hw ha) hu0 hu1 hv0 hv1 hku hkv
  refine ⟨_, he, ?_⟩
  rw [he', ← proj_placeL P ha.ne' _ hpos.ne', surfSeg, surfSeg, sseg_map]
  congr 2
  apply sseg_congr h1 h3
  intro i j _ hi _ hj
  exact place_hcp hw P (by omega) (by omega)

/-! ### Derivatives of surfaces -/

open MvPolynomial in
theorem mixNum_scale (A W : MvPolynomial (Fin 2) K) (a : K) (k l : ℕ) :
    mixNum (MvPolynomial.C a * A) (MvPolynomial.C a * W) k l = MvPolynomial.C a ^ (k + l + 1) * mixNum A W k l := by
  have hd : ∀ (i : Fin 2) (N : MvPolynomial (Fin 2) K) (e : ℕ), pderiv i (MvPolynomial.C a ^ e * N) = MvPolynomial.C a ^ e * pderiv i N := by
    intro i N e
    rw [← MvPolynomial.C_pow, pderiv_C_mul]
  induction k with
  | zero =>
    induction l with
    | zero => simp [mixNum]
    | succ l ih =>
      simp only [mixNum]
      rw [ih, hd, pderiv_C_mul]
      simp only [nsmul_eq_mul]
      ring
  | succ k ih =>
    simp only [mixNum]
    rw [ih, hd, pderiv_C_mul]
    simp only [nsmul_eq_mul]
    ring

open MvPolynomial in
theorem mixNum_lin (A B D W : MvPolynomial (Fin 2) K) (r s t d : K) (k l : ℕ) :
    mixNum (MvPolynomial.C r * A + MvPolynomial.C s * B + MvPolynomial.C t * D + MvPolynomial.C d * W) W k l =
      MvPolynomial.C r * mixNum A W k l + MvPolynomial.C s * mixNum B W k l + MvPolynomial.C t * mixNum D W k l + if k + l = 0 then MvPolynomial.C d * W else 0 := by
  have hstep : ∀ (i : Fin 2) (X Y Z N : MvPolynomial (Fin 2) K) (e : ℕ), 
      pderiv i (MvPolynomial.C r * X + MvPolynomial.C s * Y + MvPolynomial.C t * Z + N) * W - e • ((MvPolynomial.C r * X + MvPolynomial.C s * Y + MvPolynomial.C t * Z + N) * pderiv i W) =
      MvPolynomial.C r * (pderiv i X * W - e • (X * pderiv i W)) + MvPolynomial.C s * (pderiv i Y * W - e • (Y * pderiv i W)) +
        MvPolynomial.C t * (pderiv i Z * W - e • (Z * pderiv i W)) + (pderiv i N * W - e • (N * pderiv i W)) := by
    intro i X Y Z N e
    simp only [map_add, pderiv_C_mul, nsmul_eq_mul]
    ring
  have hz : ∀ (i : Fin 2) (e : ℕ), (pderiv i (if e = 0 then MvPolynomial.C d * W else 0) * W - (e + 1) • ((if e = 0 then MvPolynomial.C d * W else 0) * pderiv i W)) = 0 := by
    intro i e
    split_ifs with h
    · subst h
      rw [pderiv_C_mul]
      simp
      ring
    · simp
  induction k with
  | zero =>
    induction l with
    | zero => simp [mixNum]
    | succ l ih =>
      simp only [mixNum]
      rw [ih, hstep, zero_add, hz, if_neg (by omega)]
  | succ k ih =>
    simp only [mixNum]
    rw [ih, hstep, hz, if_neg (by omega)]

open MvPolynomial in
theorem mixDeriv_place (A B D W : MvPolynomial (Fin 2) K) (r s t d a : K) (ha : a ≠ 0) (k l : ℕ) (u v : K) (hW : eval ![u, v] W ≠ 0) :
    mixDeriv (MvPolynomial.C a * (MvPolynomial.C r * A + MvPolynomial.C s * B + MvPolynomial.C t * D + MvPolynomial.C d * W)) (MvPolynomial.C a * W) k l u v =
      r * mixDeriv A W k l u v + s * mixDeriv B W k l u v + t * mixDeriv D W k l u v + if k + l = 0 then d else 0 := by
  unfold mixDeriv
  rw [mixNum_scale, mixNum_lin]
  have h1 : eval ![u, v] W ^ (k + l + 1) ≠ 0 := pow_ne_zero _ hW
  have h2 : a ^ (k + l + 1) ≠ 0 := pow_ne_zero _ ha
  split_ifs with h
  · obtain ⟨rfl, rfl⟩ : k = 0 ∧ l = 0 := by omega
    simp
    field_simp
  · simp [mul_pow]
    field_simp

theorem tens_lin (a r s t d x y z w : K) (f g : K[X]) : tens (a * (r * x + s * y + t * z + d * w)) f g =
    MvPolynomial.C a * (MvPolynomial.C r * tens x f g + MvPolynomial.C s * tens y f g + MvPolynomial.C t * tens z f g +
      MvPolynomial.C d * tens w f g) := by
  unfold tens
  simp only [MvPolynomial.smul_eq_C_mul, map_add, map_mul]
  ring

theorem surfP_place (hw : WFSurface p q m n s) (P : Placement K) {ku kv : ℕ} (hpk : p ≤ ku) (hk : ku < m) (hqk : q ≤ kv) (hkn : kv < n)
    (L : Vec4 K →ₗ[K] K) (r s' t d : K) (hL : ∀ v, L (placeL P v) = P.a * (r * v.x + s' * v.y + t * v.z + d * v.w)) :
    surfP p q (P.surface s) ku kv L = MvPolynomial.C P.a * (MvPolynomial.C r * surfP p q s ku kv Vec4.lx +
      MvPolynomial.C s' * surfP p q s ku kv Vec4.ly + MvPolynomial.C t * surfP p q s ku kv Vec4.lz +
      MvPolynomial.C d * surfP p q s ku kv Vec4.lw) := by
  unfold surfP
  simp only [Finset.mul_sum, ← Finset.sum_add_distrib]
  refine Finset.sum_congr rfl fun j hj => Finset.sum_congr rfl fun i hi => ?_
  have := Finset.mem_range.mp hj
  have := Finset.mem_range.mp hi
  rw [place_hcp hw P (by omega) (by omega), hL]
  exact tens_lin _ _ _ _ _ _ _ _ _ _ _

theorem place_evaluateAll_surface (hw : WFSurface p q m n s) {P : Placement K} (ha : 0 < P.a) {u v : K} (hu0 : 0 ≤ u) (hu1 : u ≤ 1)
    (hv0 : 0 ≤ v) (hv1 : v ≤ 1) (OU OV : ℕ) (hOU : OU ≤ 29) (hOV : OV ≤ 29)
    (hprod : OU.choose (OU / 2) * OV.choose (OV / 2) ≤ 2147483647) :
    ∃ D : ℕ → ℕ → Vec3 K, s.EvaluateAll u v OU OV = .ok (gridOf (OU + 1) (OV + 1) D) ∧
      (P.surface s).EvaluateAll u v OU OV =
        .ok (gridOf (OU + 1) (OV + 1) fun k l => if k + l = 0 then P.pos (D 0 0) else matApply P.R (D k l)) := by
  obtain ⟨ku, hku, _, _⟩ := exists_span hw.clampedU hu0 hu1
  obtain ⟨kv, hkv, _, _⟩ := exists_span hw.clampedV hv0 hv1
  obtain ⟨hpk, hkm, hqk, hkn, _, _, _, _⟩ := surface_seg hw hu0 hu1 hv0 hv1 hku hkv
  obtain ⟨hpos, e⟩ := surface_evaluateAll_ok hw hu0 hu1 hv0 hv1 hku hkv OU OV hOU hOV hprod
  obtain ⟨_, e'⟩ := surface_evaluateAll_ok (place_wfs hw ha) hu0 hu1 hv0 hv1 hku hkv OU OV hOU hOV hprod
  refine ⟨_, e, e'.trans ?_⟩
  congr 1
  refine gridOf_congr fun k _ l _ => ?_
  have hwW : surfP p q (P.surface s) ku kv Vec4.lw = MvPolynomial.C P.a * surfP p q s ku kv Vec4.lw := by
    rw [surfP_place hw P hpk hkm hqk hkn Vec4.lw 0 0 0 1 (fun v => by simp [placeL, Vec4.lw])]
    simp
  have key := fun (L : Vec4 K →ₗ[K] K) r s' t d hL => (congrArg (fun z => mixDeriv z (surfP p q (P.surface s) ku kv Vec4.lw) k l u v)
    (surfP_place hw P hpk hkm hqk hkn L r s' t d hL)).trans
      ((congrArg (fun z => mixDeriv _ z k l u v) hwW).trans (mixDeriv_place _ _ _ _ r s' t d P.a ha.ne' k l u v hpos.ne'))
  split_ifs with hm
  · obtain ⟨rfl, rfl⟩ : k = 0 ∧ l = 0 := by omega
    ext
    · refine (key Vec4.lx P.R.r0.x P.R.r0.y P.R.r0.z P.t.x (fun v => by simp [placeL, matApply, Vec4.lx])).trans ?_
      simp [Placement.pos, matApply, ratD2]
    · refine (key Vec4.ly P.R.r1.x P.R.r1.y P.R.r1.z P.t.y (fun v => by simp [placeL, matApply, Vec4.ly])).trans ?_
      simp [Placement.pos, matApply, ratD2]
    · refine (key Vec4.lz P.R.r2.x P.R.r2.y P.R.r2.z P.t.z (fun v => by simp [placeL, matApply, Vec4.lz])).trans ?_
      simp [Placement.pos, matApply, ratD2]
  · ext
    · refine (key Vec4.lx P.R.r0.x P.R.r0.y P.R.r0.z P.t.x (fun v => by simp [placeL, matApply, Vec4.lx])).trans ?_
      rw [if_neg hm]
      simp [matApply, ratD2]
    · refine (key Vec4.ly P.R.r1.x P.R.r1.y P.R.r1.z P.t.y (fun v => by simp [placeL, matApply, Vec4.ly])).trans ?_
      rw [if_neg hm]
      simp [matApply, ratD2]
    · refine (key Vec4.lz P.R.r2.x P.R.r2.y P.R.r2.z P.t.z (fun v => by simp [placeL, matApply, Vec4.lz])).trans ?_
      rw [if_neg hm]
      simp [matApply, ratD2]

/-- C91 (partial derivatives of surfaces). -/
theorem C91_derivative_surface (hw : WFSurface p q m n s) {P : Placement K} (ha : 0 < P.a) {u v : K} (hu0 : 0 ≤ u) (hu1 : u ≤ 1)
    (hv0 : 0 ≤ v) (hv1 : v ≤ 1) (k l : ℕ) (hk : k ≤ 29) (hl : l ≤ 29) (hprod : k.choose (k / 2) * l.choose (l / 2) ≤ 2147483647)
    (hpos : 1 ≤ k + l) :
    ∃ D, s.EvaluateDerivative u v k l = .ok D ∧ (P.surface s).EvaluateDerivative u v k l = .ok (matApply P.R D) := by
  obtain ⟨D, e, e'⟩ := place_evaluateAll_surface hw ha hu0 hu1 hv0 hv1 k l hk hl hprod
  refine ⟨D k l, ?_, ?_⟩
  · unfold Surface.EvaluateDerivative
    rw [e, bind_ok, get_gridOf _ _ _ _ _ k l rfl rfl (by omega) (by omega)]
  · unfold Surface.EvaluateDerivative
    rw [e', bind_ok, get_gridOf _ _ _ _ _ k l rfl rfl (by omega) (by omega), if_neg (by omega)]

/-! ### Searches on surfaces -/

theorem place_residual2 (hw : WFSurface p q m n s) {P : Placement K} (ha : 0 < P.a) (hR : IsOrthogonal P.R) (sqrt : K → K)
    (pt : Vec3 K) : (P.surface s).residual sqrt (P.pos pt) = s.residual sqrt pt := by
  funext u v
  unfold Surface.residual
  by_cases h : (0 ≤ u ∧ u ≤ 1) ∧ (0 ≤ v ∧ v ≤ 1)
  · obtain ⟨C, e, e'⟩ := C91_evaluate_surface hw ha h.1.1 h.1.2 h.2.1 h.2.2
    rw [e, e', bind_ok, bind_ok, pos_sub, orth_norm hR]
  · rw [sEval_outside _ h, sEval_outside _ h]
    rfl

theorem place_gradient2 (hw : WFSurface p q m n s) {P : Placement K} (ha : 0 < P.a) (hR : IsOrthogonal P.R)
    (pt : Vec3 K) : (P.surface s).searchGradient (P.pos pt) = s.searchGradient pt := by
  funext u v
  unfold Surface.searchGradient
  by_cases h : (0 ≤ u ∧ u ≤ 1) ∧ (0 ≤ v ∧ v ≤ 1)
  · obtain ⟨C, e, e'⟩ := C91_evaluate_surface hw ha h.1.1 h.1.2 h.2.1 h.2.2
    obtain ⟨D, d, d'⟩ := C91_derivative_surface hw ha h.1.1 h.1.2 h.2.1 h.2.2 1 0 (by omega) (by omega) (by simp) (by omega)
    obtain ⟨E, f, f'⟩ := C91_derivative_surface hw ha h.1.1 h.1.2 h.2.1 h.2.2 0 1 (by omega) (by omega) (by simp) (by omega)
    rw [e, e', bind_ok, bind_ok, show (1 : Int) = ((1 : ℕ) : Int) from rfl, show (0 : Int) = ((0 : ℕ) : Int) from rfl, d, d', bind_ok,
      bind_ok, f, f', bind_ok, bind_ok, pos_sub, orth_dot hR, orth_dot hR]
  · rw [sEval_outside _ h, sEval_outside _ h]
    rw [bind_error, bind_error]

theorem place_gradientOn (hw : WFSurface p q m n s) {P : Placement K} (ha : 0 < P.a) (hR : IsOrthogonal P.R)
    (pt : Vec3 K) (dir : Int) (const : K) : (P.surface s).gradientOn (P.pos pt) dir const = s.gradientOn pt dir const := by
  funext val
  unfold Surface.gradientOn
  generalize Surface.onLine dir const val = uv
  obtain ⟨u, v⟩ := uv
  simp only
  by_cases h : (0 ≤ u ∧ u ≤ 1) ∧ (0 ≤ v ∧ v ≤ 1)
  · obtain ⟨C, e, e'⟩ := C91_evaluate_surface hw ha h.1.1 h.1.2 h.2.1 h.2.2
    obtain ⟨D, d, d'⟩ := C91_derivative_surface hw ha h.1.1 h.1.2 h.2.1 h.2.2 1 0 (by omega) (by omega) (by simp) (by omega)
    obtain ⟨E, f, f'⟩ := C91_derivative_surface hw ha h.1.1 h.1.2 h.2.1 h.2.2 0 1 (by omega) (by omega) (by simp) (by omega)
    simp only [Nat.cast_one, Nat.cast_zero] at d d' f f'
    rw [e, e', bind_ok, bind_ok, d, d', f, f']
    split_ifs
    · rw [bind_ok, bind_ok, pos_sub, orth_dot hR]
    · rw [bind_ok, bind_ok, pos_sub, orth_dot hR]
  · rw [sEval_outside _ h, sEval_outside _ h]
    rw [bind_error, bind_error]

/-- C91 (searches on surfaces).  Moving surface and point by a rotation or reflection and a translation does not change what
the searches return, whatever the starting values, tolerance and number of iterations. -/
theorem C91_search_surface (hw : WFSurface p q m n s) {P : Placement K} (ha : 0 < P.a) (hR : IsOrthogonal P.R) (sqrt : K → K)
    (pt : Vec3 K) (fuel : ℕ) :
    (∀ u v eps count, (P.surface s).SearchParameter sqrt fuel (P.pos pt) u v eps count = s.SearchParameter sqrt fuel pt u v eps count) ∧
    (∀ dir const init eps count, (P.surface s).SearchParameterOn sqrt fuel (P.pos pt) dir const init eps count =
      s.SearchParameterOn sqrt fuel pt dir const init eps count) ∧
    ∀ dir const eps count, (P.surface s).BinarySearchParameterOn sqrt fuel (P.pos pt) dir const eps count =
      s.BinarySearchParameterOn sqrt fuel pt dir const eps count := by
  have h : ∀ dir const, (P.surface s).residualOn sqrt (P.pos pt) dir const = s.residualOn sqrt pt dir const := by
    intro dir const
    funext val
    unfold Surface.residualOn
    rw [place_residual2 hw ha hR]
  refine ⟨fun u v eps count => ?_, fun dir const init eps count => ?_, fun dir const eps count => ?_⟩
  · unfold Surface.SearchParameter
    rw [place_residual2 hw ha hR, place_gradient2 hw ha hR]
  · unfold Surface.SearchParameterOn
    rw [h, place_gradientOn hw ha hR]
  · unfold Surface.BinarySearchParameterOn
    rw [h]

/-! ### Insertion into surfaces -/

theorem place_row (hw : WFSurface p q m n s) (P : Placement K) {j : ℕ} (hj : j < n) :
    rowCurve m (P.surface s) j = P.curve (rowCurve m s j) := by
  unfold rowCurve Placement.curve
  simp only [List.map_map]
  congr 1
  apply List.map_congr_left
  intro i hi
  exact place_cp hw P (List.mem_range.mp hi) hj

theorem place_col (hw : WFSurface p q m n s) (P : Placement K) {i : ℕ} (hi : i < m) :
    colCurve n (P.surface s) i = P.curve (colCurve n s i) := by
  unfold colCurve Placement.curve
  simp only [List.map_map]
  congr 1
  apply List.map_congr_left
  intro j hj
  exact place_cp hw P hi (List.mem_range.mp hj)

/-- C91 (insertion into surfaces).  `InsertKnotU`, `InsertKnotV` with a list of knots commute with moving. -/
theorem C91_insert_surface (hw : WFSurface p q m n s) {P : Placement K} (ha : 0 < P.a) (vs : List K) (hv : ∀ v ∈ vs, 0 < v ∧ v < 1) :
    (1 ≤ p → ∃ s', s.InsertKnotUList vs = .ok s' ∧ (P.surface s).InsertKnotUList vs = .ok (P.surface s')) ∧
    (1 ≤ q → ∃ s', s.InsertKnotVList vs = .ok s' ∧ (P.surface s).InsertKnotVList vs = .ok (P.surface s')) := by
  constructor
  · intro hp
    obtain ⟨s1, a1, b1, _, d1, e1, _⟩ := insertListU_spec hp vs hv hw
    obtain ⟨s2, a2, b2, _, d2, e2, _⟩ := insertListU_spec hp vs hv (place_wfs hw ha)
    refine ⟨s1, a1, a2.trans (congrArg _ (surface_ext_rows b2 (place_wfs b1 ha) (d2.trans d1.symm) fun j hj => ?_))⟩
    obtain ⟨c', f, f'⟩ := place_insertList vs hv (rowCurve_wf hw hj) ha
    have g := e2 j hj
    rw [place_row hw P hj, f'] at g
    rw [← Except.ok.inj g, place_row b1 P hj, ← Except.ok.inj (f.symm.trans (e1 j hj))]
  · intro hq
    obtain ⟨s1, a1, b1, _, d1, e1, _⟩ := insertListV_spec hq vs hv hw
    obtain ⟨s2, a2, b2, _, d2, e2, _⟩ := insertListV_spec hq vs hv (place_wfs hw ha)
    refine ⟨s1, a1, a2.trans (congrArg _ (surface_ext_cols b2 (place_wfs b1 ha) (d2.trans d1.symm) fun j hj => ?_))⟩
    obtain ⟨c', f, f'⟩ := place_insertList vs hv (colCurve_wf hw hj) ha
    have g := e2 j hj
    rw [place_col hw P hj, f'] at g
    rw [← Except.ok.inj g, place_col b1 P hj, ← Except.ok.inj (f.symm.trans (e1 j hj))]

end

end Nurbs.Props
