import Mathlib.Algebra.MvPolynomial.Funext
import Verif.Props.Reverse
import Verif.Props.Transposed
import Verif.Props.SurfaceInsert
import Verif.Spec.ReverseSurface

/-! # C96: a surface run through backwards in one direction -/

set_option linter.unusedSectionVars false

namespace Nurbs
open Spec

section
variable {K : Type} [Zero K] [One K] [Sub K] {s : Surface K} {m n : ℕ}

theorem backwardsU_grid (hs : Sized s m n) : (backwardsU s).ControlPoints = gridOf m n fun i j => cp s (m - 1 - i) j := by
  unfold backwardsU gridOf tab
  simp only [hs.1, hs.2.1, Int.toNat_natCast]

theorem backwardsV_grid (hs : Sized s m n) : (backwardsV s).ControlPoints = gridOf m n fun i j => cp s i (n - 1 - j) := by
  unfold backwardsV gridOf tab
  simp only [hs.1, hs.2.1, Int.toNat_natCast]

theorem backwardsU_sized (hs : Sized s m n) : Sized (backwardsU s) m n :=
  ⟨hs.1, hs.2.1, by rw [backwardsU_grid hs]; simp [gridOf]⟩

theorem cp_backwardsU (hs : Sized s m n) {i j : ℕ} (hi : i < m) (hj : j < n) : cp (backwardsU s) i j = cp s (m - 1 - i) j :=
  cp_gridOf (backwardsU_grid hs) hi hj

theorem backwardsV_eq (hs : Sized s m n) : backwardsV s = transposed (backwardsU (transposed s)) := by
  have h : (transposed (backwardsU (transposed s))).ControlPoints = (backwardsV s).ControlPoints := by
    rw [transposed_gridOf (backwardsU_grid (transposed_sized hs)), backwardsV_grid hs]
    exact gridOf_congr fun i hi j hj => cp_transposed hs hi (by omega)
  unfold backwardsV transposed backwardsU at h ⊢
  simp only at h ⊢
  rw [h]

end

section
variable {K : Type} [Field K] [LinearOrder K] [IsStrictOrderedRing K] {p q m n : ℕ} {s : Surface K}

theorem backwardsU_wf (hw : WFSurface p q m n s) : WFSurface p q m n (backwardsU s) := by
  have hs := backwardsU_sized hw.sized
  refine ⟨hw.degreeU, hw.degreeV, clamped_reverse hw.clampedU, hw.clampedV, hs.1, hs.2.1, ?_, hw.knotsV, hs.2.2, fun i hi j hj => ?_⟩
  · change s.KnotsU.Reverse.Values.length = _
    rw [reverse_length]; exact hw.knotsU
  · rw [cp_backwardsU hw.sized hi hj]
    exact hw.weights _ (by omega) j hj

theorem backwardsU_twice (hw : WFSurface p q m n s) : backwardsU (backwardsU s) = s := by
  have h : (backwardsU (backwardsU s)).ControlPoints = s.ControlPoints := by
    rw [backwardsU_grid (backwardsU_sized hw.sized), WFSurface.grid hw]
    refine gridOf_congr fun i hi j hj => ?_
    rw [cp_backwardsU hw.sized (by omega) hj]
    congr 1
    omega
  refine Surface.ext rfl rfl ?_ rfl h
  exact (Props.C11_reverse s.KnotsU).2.2.1

theorem rowCurve_backwardsU (hw : WFSurface p q m n s) {j : ℕ} (hj : j < n) : rowCurve m (backwardsU s) j = backwards (rowCurve m s j) := by
  unfold rowCurve backwards
  congr 1
  refine List.ext_getElem (by simp) fun i h1 h2 => ?_
  have hi : i < m := by simpa using h1
  simp only [List.getElem_map, List.getElem_range, List.getElem_reverse, List.length_map, List.length_range]
  exact cp_backwardsU hw.sized hi hj

theorem colCurve_backwardsU (hw : WFSurface p q m n s) {i : ℕ} (hi : i < m) : colCurve n (backwardsU s) i = colCurve n s (m - 1 - i) := by
  unfold colCurve
  congr 1
  refine List.map_congr_left fun j hj => ?_
  exact cp_backwardsU hw.sized hi (List.mem_range.1 hj)

theorem hcp_backwardsU (hw : WFSurface p q m n s) {a b j : ℕ} (hab : a + b + 1 = m) (hj : j < n) : hcp (backwardsU s) a j = hcp s b j := by
  unfold hcp
  rw [cp_backwardsU hw.sized (by omega) hj, show m - 1 - a = b by omega]

/-! ## Polynomials -/

set_option linter.unnecessarySeqFocus false

open MvPolynomial in
/-- `u ↦ 1 - u` -/
noncomputable def mirror : MvPolynomial (Fin 2) K →ₐ[K] MvPolynomial (Fin 2) K := aeval ![1 - X 0, X 1]

open MvPolynomial

theorem mirror_eval (P : MvPolynomial (Fin 2) K) (u v : K) : eval ![u, v] (mirror P) = eval ![1 - u, v] P := by
  unfold mirror
  induction P using MvPolynomial.induction_on with
  | C a => simp
  | add p q hp hq => simp only [map_add, hp, hq]
  | mul_X p i hp =>
    simp only [map_mul, hp, aeval_X]
    congr 1
    fin_cases i <;> simp

theorem mirror_pderiv (P : MvPolynomial (Fin 2) K) : pderiv 0 (mirror P) = - mirror (pderiv 0 P) ∧ pderiv 1 (mirror P) = mirror (pderiv 1 P) := by
  unfold mirror
  induction P using MvPolynomial.induction_on with
  | C a => simp
  | add p q hp hq =>
    simp only [map_add, hp.1, hq.1, hp.2, hq.2]
    exact ⟨by ring, trivial⟩
  | mul_X p i hp =>
    simp only [map_mul, aeval_X, Derivation.leibniz, smul_eq_mul, map_add]
    rw [hp.1, hp.2]
    fin_cases i <;> simp [pderiv_X] <;> ring

theorem mixNum_mirror (A W : MvPolynomial (Fin 2) K) (k l : ℕ) : mixNum (mirror A) (mirror W) k l = (-1) ^ k * mirror (mixNum A W k l) := by
  induction k with
  | zero =>
    induction l with
    | zero => simp [mixNum]
    | succ l ih =>
      simp only [mixNum]
      rw [ih]
      simp only [pow_zero, one_mul, (mirror_pderiv _).2, map_sub, map_mul, map_nsmul]
  | succ k ih =>
    simp only [mixNum]
    rw [ih]
    have h1 : pderiv 0 ((-1) ^ k * mirror (mixNum A W k l) : MvPolynomial (Fin 2) K) = - ((-1) ^ k * mirror (pderiv 0 (mixNum A W k l))) := by
      have : ((-1) ^ k : MvPolynomial (Fin 2) K) = C ((-1) ^ k) := by simp
      rw [this, Derivation.leibniz, (mirror_pderiv _).1, pderiv_C]
      simp
    rw [h1, (mirror_pderiv W).1]
    simp only [map_sub, map_mul, nsmul_eq_mul, map_natCast]
    ring

theorem mixDeriv_mirror (A W : MvPolynomial (Fin 2) K) (k l : ℕ) (u v : K) :
    mixDeriv (mirror A) (mirror W) k l (1 - u) v = (-1) ^ k * mixDeriv A W k l u v := by
  unfold mixDeriv
  rw [mixNum_mirror, map_mul, mirror_eval, mirror_eval, sub_sub_cancel]
  simp [mul_div_assoc]

theorem surfP_mirror (hw : WFSurface p q m n s) {k k' l : ℕ} (hkk : k + k' + 1 = m + p) (hp : p ≤ k) (hp' : p ≤ k') (hq : q ≤ l) (hl : l < n)
    (L : Vec4 K →ₗ[K] K) : surfP p q (backwardsU s) k' l L = mirror (surfP p q s k l L) := by
  refine MvPolynomial.funext fun z => ?_
  obtain ⟨u, v, rfl⟩ : ∃ u v, z = ![u, v] := ⟨z 0, z 1, by ext i; fin_cases i <;> rfl⟩
  rw [mirror_eval, surfP_eval, surfP_eval]
  congr 1
  unfold surfSeg sseg
  refine seg_congr hq fun j h1 h2 => ?_
  have := seg_reverse (U := kn s.KnotsU.Values) (U' := kn s.KnotsU.Reverse.Values) (m := m) (p := p) (k := k) (k' := k')
    (fun a b h => kn_reverse s.KnotsU (by have := hw.knotsU; omega)) hkk hp hp' (1 - u) (P := fun i => hcp s i j) (P' := fun i => hcp (backwardsU s) i j)
    (fun a b h => hcp_backwardsU hw h (by omega))
  rwa [sub_sub_cancel] at this

end

namespace Props
variable {K : Type} [Field K] [LinearOrder K] [IsStrictOrderedRing K] {p q m n : ℕ} {s : Surface K}

/-- C96 (points, surfaces).  The surface run through backwards in `u` is well-formed and has the same points, at the parameters `1 - u` –
everywhere but at interior knots of `u` of multiplicity above the degree. -/
theorem C96_evaluate_surfaceU (hw : WFSurface p q m n s) :
    WFSurface p q m n (backwardsU s) ∧ backwardsU (backwardsU s) = s ∧
    ∀ u v, 0 ≤ u → u ≤ 1 → 0 ≤ v → v ≤ 1 → ¬ JumpAt p s.KnotsU.Values u → (backwardsU s).Evaluate (1 - u) v = s.Evaluate u v := by
  have hw' := backwardsU_wf hw
  refine ⟨hw', backwardsU_twice hw, fun u v hu0 hu1 hv0 hv1 hj => ?_⟩
  obtain ⟨k, hk, _⟩ := exists_span hw.clampedU hu0 hu1
  obtain ⟨k', hk', _⟩ := exists_span hw'.clampedU (x := 1 - u) (by linarith) (by linarith)
  obtain ⟨l, hl, _⟩ := exists_span hw.clampedV hv0 hv1
  obtain ⟨a1, a2, a3, a4, _, _, _, e1⟩ := surface_seg hw hu0 hu1 hv0 hv1 hk hl
  obtain ⟨b1, b2, b3, b4, _, _, _, e2⟩ := surface_seg hw' (u := 1 - u) (by linarith) (by linarith) hv0 hv1 hk' hl
  rw [e1, e2]
  congr 2
  unfold surfSeg sseg
  refine seg_congr a3 fun j h1 h2 => ?_
  exact seg_reverse_at hw.clampedU hw.knotsU hu0 hk a1 (by omega) hk' b1 (by omega) hj _ _ (fun a b h => hcp_backwardsU hw h (by omega))

/-- C96 (derivatives, surfaces).  At parameters `u` that are no interior knots, the derivatives `∂ᵘᵃ ∂ᵛᵇ` of the surface run through backwards
in `u` are `(-1)^a` times those of the surface. -/
theorem C96_derivative_surfaceU (hw : WFSurface p q m n s) {u v : K} (hu0 : 0 ≤ u) (hu1 : u ≤ 1) (hv0 : 0 ≤ v) (hv1 : v ≤ 1)
    (hu : u ∈ s.KnotsU.Values → u = 0 ∨ u = 1) (a b : ℕ) (ha : a ≤ 29) (hb : b ≤ 29) (hab : a.choose (a / 2) * b.choose (b / 2) ≤ 2147483647) :
    ∃ D, s.EvaluateDerivative u v a b = .ok D ∧
      (backwardsU s).EvaluateDerivative (1 - u) v a b = .ok ⟨(-1) ^ a * D.x, (-1) ^ a * D.y, (-1) ^ a * D.z⟩ := by
  have hw' := backwardsU_wf hw
  obtain ⟨k, hk, _⟩ := exists_span hw.clampedU hu0 hu1
  obtain ⟨l, hl, _⟩ := exists_span hw.clampedV hv0 hv1
  have hk' := span_mirror hw.clampedU hk hu
  have hct := hw.knotsU
  obtain ⟨a1, a2, a3, a4, _, _, _, e1⟩ := surface_seg hw hu0 hu1 hv0 hv1 hk hl
  obtain ⟨b1, b2, _⟩ := surface_seg hw' (u := 1 - u) (ku := s.KnotsU.Values.length - 2 - k) (by linarith) (by linarith) hv0 hv1 hk' hl
  obtain ⟨-, e1⟩ := surface_evaluateAll_ok hw hu0 hu1 hv0 hv1 hk hl a b ha hb hab
  obtain ⟨-, e2⟩ := surface_evaluateAll_ok hw' (u := 1 - u) (by linarith) (by linarith) hv0 hv1 (ku := s.KnotsU.Values.length - 2 - k) hk' hl a b ha hb hab
  refine ⟨ratD2 p q s k l u v a b, ?_, ?_⟩
  · unfold Surface.EvaluateDerivative
    rw [e1, bind_ok, get_gridOf _ _ _ _ _ a b rfl rfl (by omega) (by omega)]
  · unfold Surface.EvaluateDerivative
    rw [e2, bind_ok, get_gridOf _ _ _ _ _ a b rfl rfl (by omega) (by omega)]
    congr 1
    unfold ratD2
    simp only [surfP_mirror hw (k := k) (k' := s.KnotsU.Values.length - 2 - k) (l := l) (by omega) (by omega) (by omega) a3 (by omega), mixDeriv_mirror]

theorem surface_ext_rows {s' : Surface K} (hw : WFSurface p q m n s) (hw' : WFSurface p q m n s') (hv : s'.KnotsV = s.KnotsV) (hn : 0 < n)
    (h : ∀ j < n, rowCurve m s' j = rowCurve m s j) : s' = s := by
  refine Surface.ext (hw'.degreeU.trans hw.degreeU.symm) (hw'.degreeV.trans hw.degreeV.symm) (congrArg Curve.Knots (h 0 hn)) hv ?_
  rw [WFSurface.grid hw, WFSurface.grid hw']
  refine gridOf_congr fun i hi j hj => ?_
  have := congrArg Curve.ControlPoints (h j hj)
  simp only [rowCurve] at this
  have e := List.map_inj_left.1 this i (List.mem_range.2 hi)
  exact e

/-- C96 (insertion, surfaces).  Inserting `1 - x` for every `x` of a list into the surface run through backwards gives the refined surface run
through backwards. -/
theorem C96_insert_surfaceU (hw : WFSurface p q m n s) (hp : 1 ≤ p) (xs : List K) (hx : ∀ x ∈ xs, 0 < x ∧ x < 1)
    (hmult : InteriorMult (p + 1) (xs ++ s.KnotsU.Values)) :
    ∃ s', s.InsertKnotUList xs = .ok s' ∧ (backwardsU s).InsertKnotUList (xs.map fun x => 1 - x) = .ok (backwardsU s') := by
  obtain ⟨s1, e1, w1, _, v1, r1, _⟩ := C46_insertKnotU_list hp hw xs hx
  obtain ⟨d1, e2, w2, _, v2, r2, _⟩ := C46_insertKnotU_list hp (backwardsU_wf hw) (xs.map fun x => 1 - x) (fun y h => by
    obtain ⟨x, hx', rfl⟩ := List.mem_map.mp h
    have := hx x hx'
    exact ⟨by linarith [this.2], by linarith [this.1]⟩)
  rw [List.length_map] at w2 r2
  refine ⟨s1, e1, ?_⟩
  rw [e2]
  congr 1
  refine surface_ext_rows (backwardsU_wf w1) w2 (v2.trans v1.symm) (wf_rows_pos hw).2 fun j hj => ?_
  obtain ⟨c', f1, f2⟩ := C96_insert (rowCurve_wf hw hj) xs hx hmult
  rw [r1 j hj] at f1
  have h2 := r2 j hj
  rw [rowCurve_backwardsU hw hj, f2] at h2
  rw [rowCurve_backwardsU w1 hj, Except.ok.inj f1]
  exact (Except.ok.inj h2).symm

/-- C96 (the other direction).  Knots inserted in `v` do not notice that `u` runs backwards. -/
theorem C96_insert_otherU (hw : WFSurface p q m n s) (hq : 1 ≤ q) (xs : List K) (hx : ∀ x ∈ xs, 0 < x ∧ x < 1) :
    ∃ s', s.InsertKnotVList xs = .ok s' ∧ (backwardsU s).InsertKnotVList xs = .ok (backwardsU s') := by
  obtain ⟨s1, e1, w1, _, v1, r1, _⟩ := C46_insertKnotV_list hq hw xs hx
  obtain ⟨d1, e2, w2, _, v2, r2, _⟩ := C46_insertKnotV_list hq (backwardsU_wf hw) xs hx
  have hm := (wf_rows_pos hw).1
  refine ⟨s1, e1, ?_⟩
  rw [e2]
  congr 1
  have h : ∀ i < m, colCurve (n + xs.length) d1 i = colCurve (n + xs.length) (backwardsU s1) i := fun i hi => by
    have h2 := r2 i hi
    rw [colCurve_backwardsU hw hi, r1 _ (by omega)] at h2
    rw [colCurve_backwardsU w1 hi]
    exact (Except.ok.inj h2).symm
  have w1' := backwardsU_wf w1
  refine Surface.ext (w2.degreeU.trans w1'.degreeU.symm) (w2.degreeV.trans w1'.degreeV.symm) ?_ (congrArg Curve.Knots (h 0 hm)) ?_
  · rw [v2]
    change s.KnotsU.Reverse = s1.KnotsU.Reverse
    rw [v1]
  · rw [WFSurface.grid w2, WFSurface.grid w1']
    refine gridOf_congr fun i hi j hj => ?_
    have := congrArg Curve.ControlPoints (h i hi)
    simp only [colCurve] at this
    exact List.map_inj_left.1 this j (List.mem_range.2 hj)

/-- C96 (the direction of `v`). -/
theorem C96_surfaceV (hw : WFSurface p q m n s) :
    WFSurface p q m n (backwardsV s) ∧ backwardsV (backwardsV s) = s ∧
    (∀ u v, 0 ≤ u → u ≤ 1 → 0 ≤ v → v ≤ 1 → ¬ JumpAt q s.KnotsV.Values v → (backwardsV s).Evaluate u (1 - v) = s.Evaluate u v) ∧
    (∀ u v, 0 ≤ u → u ≤ 1 → 0 ≤ v → v ≤ 1 → (v ∈ s.KnotsV.Values → v = 0 ∨ v = 1) → ∀ a b : ℕ, a ≤ 29 → b ≤ 29 →
      a.choose (a / 2) * b.choose (b / 2) ≤ 2147483647 → ∃ D, s.EvaluateDerivative u v a b = .ok D ∧
        (backwardsV s).EvaluateDerivative u (1 - v) a b = .ok ⟨(-1) ^ b * D.x, (-1) ^ b * D.y, (-1) ^ b * D.z⟩) ∧
    (1 ≤ p → 1 ≤ q → ∀ xs : List K, (∀ x ∈ xs, 0 < x ∧ x < 1) → InteriorMult (q + 1) (xs ++ s.KnotsV.Values) →
      ∃ s', s.InsertKnotVList xs = .ok s' ∧ (backwardsV s).InsertKnotVList (xs.map fun x => 1 - x) = .ok (backwardsV s')) := by
  have ht := transposed_wf hw
  have hb := backwardsU_wf ht
  have he := backwardsV_eq hw.sized
  refine ⟨by rw [he]; exact transposed_wf hb, ?_, fun u v hu0 hu1 hv0 hv1 hj => ?_, fun u v hu0 hu1 hv0 hv1 hv a b ha hb' hab => ?_, fun hp hq xs hx hm => ?_⟩
  · rw [backwardsV_eq (by rw [he]; exact (transposed_wf hb).sized), he, transposed_transposed hb.sized, backwardsU_twice ht, transposed_transposed hw.sized]
  · rw [he, C100_evaluate hb (1 - v) u, (C96_evaluate_surfaceU ht).2.2 v u hv0 hv1 hu0 hu1 hj, C100_evaluate hw u v]
  · obtain ⟨D, h1, h2⟩ := C96_derivative_surfaceU ht hv0 hv1 hu0 hu1 hv b a hb' ha (by rw [mul_comm]; exact hab)
    rw [(C100_derivative hw hu0 hu1 hv0 hv1 a b).1] at h1
    refine ⟨D, h1, ?_⟩
    rw [he, (C100_derivative hb (u := 1 - v) (v := u) (by linarith) (by linarith) hu0 hu1 b a).1]
    exact h2
  · obtain ⟨s1, h1, h2⟩ := C96_insert_surfaceU ht hq xs hx hm
    obtain ⟨s2, f1, w2, _⟩ := C46_insertKnotV_list hq hw xs hx
    have e1 := (C100_insert_list hw hp hq xs).1
    rw [f1, emap_ok, h1] at e1
    refine ⟨s2, f1, ?_⟩
    rw [he, (C100_insert_list hb hq hp _).2, h2, emap_ok, Except.ok.inj e1, backwardsV_eq w2.sized]

/-! ## A concrete surface -/

example : WFSurface 2 1 4 3 (backwardsU exSurface) ∧ backwardsU exSurface ≠ exSurface ∧ backwardsV exSurface ≠ exSurface :=
  ⟨backwardsU_wf exSurface_wf, by decide +kernel, by decide +kernel⟩
example : (backwardsU exSurface).Evaluate (4/5) (1/4) = exSurface.Evaluate (1/5) (1/4) ∧ (backwardsU exSurface).Evaluate (1/5) (1/4) ≠ exSurface.Evaluate (1/5) (1/4) := by
  decide +kernel
example : (exSurface.EvaluateDerivative (1/5) (1/4) 1 1).isOk = true ∧
    (backwardsV exSurface).EvaluateDerivative (1/5) (3/4) 1 1 = (exSurface.EvaluateDerivative (1/5) (1/4) 1 1).map fun D => ⟨-D.x, -D.y, -D.z⟩ := by
  decide +kernel
example : ∃ s', exSurface.InsertKnotUList [1/5, 1/3] = .ok s' ∧ (backwardsU exSurface).InsertKnotUList ([1/5, 1/3].map fun x => 1 - x) = .ok (backwardsU s') :=
  C96_insert_surfaceU exSurface_wf (by norm_num) _ (by decide +kernel) fun v h0 h1 => by
    by_cases h : v ∈ ([1/5, 1/3] : List ℚ) ++ exSurface.KnotsU.Values
    · revert v
      exact fun v h0 h1 h => (by decide +kernel : ∀ v ∈ ([1/5, 1/3] : List ℚ) ++ exSurface.KnotsU.Values, 0 < v → v < 1 →
        (([1/5, 1/3] : List ℚ) ++ exSurface.KnotsU.Values).count v ≤ 3) v h h0 h1
    · rw [List.count_eq_zero_of_not_mem h]; exact Nat.zero_le _

end Props
end Nurbs
