import Verif.Props.RemovalTol
import Verif.Props.SurfaceRemoval

/-! # C87 for surfaces -/

namespace Nurbs.Props
open Nurbs Nurbs.Spec KnotRemovalImpl

set_option linter.unusedSectionVars false

variable {K : Type} [Field K] [LinearOrder K] [IsStrictOrderedRing K]

/-- A linear form that is at most `B` on the unit ball (`one`: of the vectors without weight). -/
def FormLe (sqrt : K → K) (one : Prop) (L : Vec4 K →ₗ[K] K) (B : K) : Prop :=
  ∀ (D : Vec4 K) (tol : K), D.norm sqrt ≤ tol → (one → D.w = 0) → |L D| ≤ tol * B

/-- One row: the change of a linear form relative to the weight. -/
theorem row_tol {p : ℕ} {c : Curve K} (hw : WFCurve p c) {u : K} (h0 : 0 < u) (h1 : u < 1)
    (hsep : Separated c.Knots.Values u) (hmul : c.Knots.Values.count u ≤ p)
    {sqrt : K → K} (hsq : ∀ x, 0 ≤ x → 0 ≤ sqrt x ∧ sqrt x * sqrt x = x) {eps : K} (he : 0 ≤ eps)
    {times : ℕ} (htm : times ≤ c.Knots.Values.count u) {c' : Curve K} (h : c.RemoveKnot sqrt u times eps = .ok (c', (times : Int)))
    {D : K} (hD : Reach c.ControlPoints D) {one : Prop} (hone : one → ∀ a ∈ c.ControlPoints, a.w = 1) :
    c.Knots.Values.Perm (List.replicate times u ++ c'.Knots.Values) ∧ Clamped p c'.Knots.Values ∧
      ∀ x, 0 ≤ x → x ≤ 1 → ∀ a b, IsSpan c.Knots.Values x a → IsSpan c'.Knots.Values x b →
        ∀ (L : Vec4 K →ₗ[K] K) (B : K), 0 ≤ B → FormLe sqrt one L B →
        |L (seg (kn c'.Knots.Values) b x p (hpts c'.ControlPoints)) - L (seg (kn c.Knots.Values) a x p (hpts c.ControlPoints))| ≤
          times * (eps / (1 + D) * B) * (seg (kn c.Knots.Values) a x p (hpts c.ControlPoints)).w := by
  obtain ⟨hd, hperm, hlen, hcl, tol, htol, hseg⟩ := removeKnot_tol hw h0 h1 hsep hmul he htm h
  refine ⟨hperm, hcl, ?_⟩
  intro x hx0 hx1 a b ha hb L B hB hL
  obtain ⟨hpa, hla, hreg, hpos, A⟩ := evaluate_seg hw hx0 hx1 ha
  have hcnt := hw.count
  have hwt : ∀ a ∈ c.ControlPoints, 0 < a.w := by
    intro a ha
    obtain ⟨i, hi, rfl⟩ := List.getElem_of_mem ha
    have := hw.weights i hi
    simpa [pt, hi] using this
  obtain ⟨m, hm, hmin⟩ := exists_min_weight c.ControlPoints (by intro e; rw [e] at hcnt; simp at hcnt; omega)
  obtain ⟨t0, htr⟩ := tol_reach hsq hwt he htol hD
  have htm' := htr m hm
  have hge := seg_w_ge (kn c.Knots.Values) a x p hpa hreg (fun a b hab hb => kn_mono hw.clamped.sorted hab (by omega)) ha.2.1
    (IsSpan.le_right ha) (hpts c.ControlPoints) m.w (fun i _ hi => by
      have hi' : i < c.ControlPoints.length := by omega
      have := hmin _ (List.getElem_mem hi')
      simpa [hpts, pt, hi'] using this)
  have hs := hseg x hx0 hx1 a b ha hb L (tol * B) (fun D hD hD2 => hL D tol hD (fun ho => hD2 (hone ho)))
  have hD1 : 0 < 1 + D := by have := hD.1; linarith
  have hT : (0 : K) ≤ times := Nat.cast_nonneg _
  generalize (seg (kn c.Knots.Values) a x p (hpts c.ControlPoints)).w = W at *
  refine hs.trans ?_
  have h2 : tol ≤ eps / (1 + D) * W := by
    rw [div_mul_eq_mul_div, le_div_iff₀ hD1]
    exact htm'.trans (mul_le_mul_of_nonneg_left hge he)
  calc times * (tol * B) ≤ times * (eps / (1 + D) * W * B) := mul_le_mul_of_nonneg_left (mul_le_mul_of_nonneg_right h2 hB) hT
    _ = times * (eps / (1 + D) * B) * W := by ring

/-- Rows combine. -/
theorem seg_rel {U : ℕ → K} {k : ℕ} {x : K} {p : ℕ} (hm : ∀ a b, a ≤ b → b ≤ k + p → U a ≤ U b)
    (h1 : U k ≤ x) (h2 : x ≤ U (k + 1)) (L : Vec4 K →ₗ[K] K) {κ : K} {F' F : ℕ → Vec4 K} (hp : p ≤ k)
    (h : ∀ i, k ≤ i + p → i ≤ k → |L (F' i) - L (F i)| ≤ κ * (F i).w) :
    |L (seg U k x p F') - L (seg U k x p F)| ≤ κ * (seg U k x p F).w := by
  rw [seg_map, seg_map]
  unfold seg
  rw [← Finset.sum_sub_distrib, Vec4.sum_w, Finset.mul_sum]
  refine (Finset.abs_sum_le_sum_abs _ _).trans ?_
  apply Finset.sum_le_sum
  intro i hi
  have := Finset.mem_range.mp hi
  have h0 := Nl_nonneg U k x p (k - p + i) hm h1 h2
  rw [smul_eq_mul, smul_eq_mul, ← mul_sub, abs_mul, abs_of_nonneg h0, Vec4.smul_w]
  calc _ ≤ Nl U k x p (k - p + i) * (κ * (F (k - p + i)).w) := mul_le_mul_of_nonneg_left (h _ (by omega) (by omega)) h0
    _ = _ := by ring

/-- From forms to points. -/
theorem dist_rel {sqrt : K → K} (hsq : ∀ x, 0 ≤ x → 0 ≤ sqrt x ∧ sqrt x * sqrt x = x) {one : Prop} {A A' : Vec4 K} (hA : 0 < A.w) {T eps D : K}
    (he : 0 ≤ eps) (hD : 0 ≤ D)
    (hL : ∀ (L : Vec4 K →ₗ[K] K) (B : K), 0 ≤ B → FormLe sqrt one L B → |L A' - L A| ≤ T * (eps / (1 + D) * B) * A.w) :
    (T * eps < 1 + D → A'.w ≠ 0 ∧ (1 + D - T * eps) ^ 2 * sqDist (proj A') (proj A) ≤ (T * eps) ^ 2 * (1 + sqLen (proj A))) ∧
    (one → A'.w ≠ 0 ∧ (1 + D) ^ 2 * sqDist (proj A') (proj A) ≤ (T * eps) ^ 2) := by
  have hD1 : 0 < 1 + D := by linarith
  have hκ : 0 ≤ eps / (1 + D) := div_nonneg he hD1.le
  have hκe : eps / (1 + D) * (1 + D) = eps := div_mul_cancel₀ _ hD1.ne'
  generalize eps / (1 + D) = κ at *
  constructor
  · intro hs
    have hq : 0 < 1 + D - T * eps := by linarith
    have hdw := hL Vec4.lw 1 zero_le_one (fun D tol hD _ => by
      have := form_abs hsq hD 0 0 0 1 (B := 1) (by norm_num) (by norm_num)
      change |D.w| ≤ _
      simpa using this)
    change |A'.w - A.w| ≤ _ at hdw
    have hdw' := (abs_le.mp hdw).1
    have hw1 : A.w * (1 + D - T * eps) ≤ A'.w * (1 + D) := by
      have : (A.w - T * (κ * 1) * A.w) * (1 + D) ≤ A'.w * (1 + D) := mul_le_mul_of_nonneg_right (by linarith) hD1.le
      calc A.w * (1 + D - T * eps) = (A.w - T * (κ * 1) * A.w) * (1 + D) := by rw [← hκe]; ring
        _ ≤ _ := this
    have hA' : 0 < A'.w := (pos_iff_pos_of_mul_pos (lt_of_lt_of_le (mul_pos hA hq) hw1)).mpr hD1
    refine ⟨hA'.ne', ?_⟩
    have key := dist_of_forms hsq hA.ne' hA' (T := T) (tol := κ * A.w) (q := 1) zero_le_one (by
      intro v B hB hvB
      refine (hL (planeForm v _) B hB ?_).trans (le_of_eq (by ring))
      intro D tol hD _
      rw [planeForm_apply]
      exact form_abs hsq hD _ _ _ _ hB (by rw [neg_sq]; linarith))
    rw [one_mul] at key
    have dn := sqDist_nonneg (proj A') (proj A)
    generalize sqDist (proj A') (proj A) = d at *
    generalize 1 + sqLen (proj A) = l at *
    have hw2 : (A.w * (1 + D - T * eps)) ^ 2 ≤ (A'.w * (1 + D)) ^ 2 := pow_le_pow_left₀ (mul_nonneg hA.le hq.le) hw1 2
    refine le_of_mul_le_mul_left ?_ (show 0 < A.w ^ 2 by positivity)
    calc A.w ^ 2 * ((1 + D - T * eps) ^ 2 * d) = (A.w * (1 + D - T * eps)) ^ 2 * d := by ring
      _ ≤ (A'.w * (1 + D)) ^ 2 * d := mul_le_mul_of_nonneg_right hw2 dn
      _ = (1 + D) ^ 2 * (A'.w ^ 2 * d) := by ring
      _ ≤ (1 + D) ^ 2 * ((T * (κ * A.w)) ^ 2 * l) := mul_le_mul_of_nonneg_left key (sq_nonneg _)
      _ = A.w ^ 2 * ((T * (κ * (1 + D))) ^ 2 * l) := by ring
      _ = A.w ^ 2 * ((T * eps) ^ 2 * l) := by rw [hκe]
  · intro ho
    have hdw := hL Vec4.lw 0 le_rfl (fun D tol hD h => by
      change |D.w| ≤ _
      rw [h ho]; simp)
    change |A'.w - A.w| ≤ _ at hdw
    rw [mul_zero, mul_zero, zero_mul] at hdw
    have hw1 : A'.w = A.w := sub_eq_zero.mp (abs_eq_zero.mp (le_antisymm hdw (abs_nonneg _)))
    refine ⟨by rw [hw1]; exact hA.ne', ?_⟩
    have key := dist_of_forms hsq hA.ne' (by rw [hw1]; exact hA) (T := T) (tol := κ * A.w) (q := 0) le_rfl (by
      intro v B hB hvB
      refine (hL (planeForm v _) B hB ?_).trans (le_of_eq (by ring))
      intro D tol hD hD2
      rw [planeForm_apply, hD2 ho, mul_zero, add_zero]
      have := form_abs hsq hD v.x v.y v.z 0 hB (by linarith)
      rwa [zero_mul, add_zero] at this)
    rw [zero_mul, add_zero, mul_one, hw1] at key
    have dn := sqDist_nonneg (proj A') (proj A)
    generalize sqDist (proj A') (proj A) = d at *
    refine le_of_mul_le_mul_left ?_ (show 0 < A.w ^ 2 by positivity)
    calc A.w ^ 2 * ((1 + D) ^ 2 * d) = (1 + D) ^ 2 * (A.w ^ 2 * d) := by ring
      _ ≤ (1 + D) ^ 2 * (T * (κ * A.w)) ^ 2 := mul_le_mul_of_nonneg_left key (sq_nonneg _)
      _ = A.w ^ 2 * (T * (κ * (1 + D))) ^ 2 := by ring
      _ = A.w ^ 2 * (T * eps) ^ 2 := by rw [hκe]

/-- What the two theorems for surfaces say about the points of `s` and `s'`. -/
def SurfaceMoved (s s' : Surface K) (one : Prop) (T eps D : K) : Prop :=
  ∀ x y, 0 ≤ x → x ≤ 1 → 0 ≤ y → y ≤ 1 →
    (T * eps < 1 + D → ∃ S S', s.Evaluate x y = .ok S ∧ s'.Evaluate x y = .ok S' ∧
      (1 + D - T * eps) ^ 2 * sqDist S' S ≤ (T * eps) ^ 2 * (1 + sqLen S)) ∧
    (one → ∃ S S', s.Evaluate x y = .ok S ∧ s'.Evaluate x y = .ok S' ∧ (1 + D) ^ 2 * sqDist S' S ≤ (T * eps) ^ 2)

/-- C87 for `RemoveKnotU`: as for curves; `D` must not exceed the largest weight times distance of any row. -/
theorem C87_surfaceU_partial {p q m n : ℕ} {s : Surface K} (hw : WFSurface p q m n s) {u : K} (h0 : 0 < u) (h1 : u < 1)
    (hsep : Separated s.KnotsU.Values u) (hmul : s.KnotsU.Values.count u ≤ p)
    {sqrt : K → K} (hsq : ∀ x, 0 ≤ x → 0 ≤ sqrt x ∧ sqrt x * sqrt x = x) {eps : K} (he : 0 ≤ eps)
    {times : ℕ} (ht : 1 ≤ times) (htm : times ≤ s.KnotsU.Values.count u) {s' : Surface K}
    (h : s.RemoveKnotU sqrt u times eps = .ok (s', (times : Int))) {D : K} (hD : ∀ j < n, Reach (tab m fun i => cp s i j) D) :
    s.KnotsU.Values.Perm (List.replicate times u ++ s'.KnotsU.Values) ∧ s'.KnotsV = s.KnotsV ∧
      s'.ControlPoints.UCount + times = m ∧ s'.ControlPoints.VCount = n ∧
      SurfaceMoved s s' (∀ i < m, ∀ j < n, (cp s i j).w = 1) times eps D := by
  have hn : 0 < n := by have := hw.knotsV; have := hw.clampedV.len; omega
  have hlu := hw.knotsU
  have hlv := hw.knotsV
  have hmt : times ≤ m := by
    have := hw.clampedU.len
    omega
  obtain ⟨m', hm'⟩ : ∃ m', m = m' + times := ⟨m - times, by omega⟩
  rcases removeKnotU_inv hw.uCount hw.vCount (WFSurface.grid hw) hn (m' := m') (by omega) h with ⟨hz, _⟩ | ⟨_, kv, f, hrow, rfl⟩
  · omega
  have hex : ∀ j < n, ∃ kvj, (rowCurve m s j).RemoveKnot sqrt u times eps =
      .ok (⟨s.DegreeU, kvj, tab m' fun x => f x j⟩, (times : Int)) ∧ (j + 1 = n → kvj = kv) := by
    intro j hj
    obtain ⟨kvj, h2, h3⟩ := hrow j hj
    refine ⟨kvj, ?_, h3⟩
    unfold Curve.RemoveKnot
    rw [massert_true ⟨h0, h1⟩, bind_ok, massert_true (by omega), bind_ok]
    have : KnotRemoval sqrt (rowCurve m s j).Knots (rowCurve m s j).ControlPoints (rowCurve m s j).Degree u times eps =
      .ok (kvj, tab m' fun x => f x j, (times : Int)) := h2
    rw [this, bind_ok]
    rfl
  have hone : ∀ j < n, (∀ i < m, ∀ j < n, (cp s i j).w = 1) → ∀ a ∈ (rowCurve m s j).ControlPoints, a.w = 1 := by
    intro j hj ho a ha
    change a ∈ tab m fun i => cp s i j at ha
    unfold tab at ha
    obtain ⟨i, hi, rfl⟩ := List.mem_map.mp ha
    exact ho i (List.mem_range.mp hi) j hj
  have hall : ∀ j < n, s.KnotsU.Values.Perm (List.replicate times u ++ kv.Values) ∧ Clamped p kv.Values ∧
      ∀ x, 0 ≤ x → x ≤ 1 → ∀ a b, IsSpan s.KnotsU.Values x a → IsSpan kv.Values x b →
        ∀ (L : Vec4 K →ₗ[K] K) (B : K), 0 ≤ B → FormLe sqrt (∀ i < m, ∀ j < n, (cp s i j).w = 1) L B →
        |L (seg (kn kv.Values) b x p (hpts (tab m' fun x => f x j))) - L (seg (kn s.KnotsU.Values) a x p (hpts (rowCurve m s j).ControlPoints))| ≤
          times * (eps / (1 + D) * B) * (seg (kn s.KnotsU.Values) a x p (hpts (rowCurve m s j).ControlPoints)).w := by
    obtain ⟨kvl, e1, e2⟩ := hex (n - 1) (by omega)
    obtain rfl := e2 (by omega)
    obtain ⟨hpl, hcl, _⟩ := row_tol (rowCurve_wf hw (show n - 1 < n by omega)) h0 h1 hsep hmul hsq he htm e1 (hD _ (by omega)) (hone _ (by omega))
    intro j hj
    obtain ⟨kvj, e1, _⟩ := hex j hj
    obtain ⟨hpj, hcj, hsj⟩ := row_tol (rowCurve_wf hw hj) h0 h1 hsep hmul hsq he htm e1 (hD j hj) (hone j hj)
    have : kvj.Values = kvl.Values := by
      apply List.Perm.eq_of_pairwise (fun x y _ _ h1 h2 => le_antisymm h1 h2) hcj.sorted hcl.sorted
      exact (List.perm_append_left_iff _).mp (hpj.symm.trans hpl)
    have : kvj = kvl := congrArg KnotVector.mk this
    subst this
    exact ⟨hpj, hcj, hsj⟩
  refine ⟨(hall 0 hn).1, rfl, by simp; omega, rfl, ?_⟩
  intro x y hx0 hx1 hy0 hy1
  have hcl := (hall 0 hn).2.1
  have hlen := (hall 0 hn).1.length_eq
  rw [List.length_append, List.length_replicate] at hlen
  obtain ⟨ku, hku, _, _⟩ := exists_span hw.clampedU hx0 hx1
  obtain ⟨ku', hku', _, _⟩ := exists_span hcl hx0 hx1
  obtain ⟨kv', hkv', _, _⟩ := exists_span hw.clampedV hy0 hy1
  obtain ⟨a1, a2, a3, a4, _, _, hpos, e1⟩ := surface_seg hw hx0 hx1 hy0 hy1 hku hkv'
  have hgrid : ({ s with KnotsU := kv, ControlPoints := gridOf m' n f } : Surface K).ControlPoints =
      gridOf m' n (cp { s with KnotsU := kv, ControlPoints := gridOf m' n f }) := grid_eq rfl rfl (by simp [gridOf])
  obtain ⟨b1, b2, b3, b4, _, _, e2⟩ := surface_at_span (s := { s with KnotsU := kv, ControlPoints := gridOf m' n f }) (m := m') (n := n)
    hw.degreeU hw.degreeV hcl hw.clampedV (by simp only; omega) hw.knotsV hgrid hx0 hx1 hy0 hy1 hku' hkv'
  have hforms : ∀ (L : Vec4 K →ₗ[K] K) (B : K), 0 ≤ B → FormLe sqrt (∀ i < m, ∀ j < n, (cp s i j).w = 1) L B →
      |L (surfSeg p q { s with KnotsU := kv, ControlPoints := gridOf m' n f } ku' kv' x y) - L (surfSeg p q s ku kv' x y)| ≤
        times * (eps / (1 + D) * B) * (surfSeg p q s ku kv' x y).w := by
    intro L B hB hL
    unfold surfSeg sseg
    refine seg_rel (fun a b hab hb => kn_mono hw.clampedV.sorted hab (by omega)) hkv'.2.1 (IsSpan.le_right hkv') L a3 ?_
    intro j _ hj
    have e := (hall j (by omega)).2.2 x hx0 hx1 ku ku' hku hku' L B hB hL
    have t1 : seg (kn kv.Values) ku' x p (fun i => hcp { s with KnotsU := kv, ControlPoints := gridOf m' n f } i j) =
        seg (kn kv.Values) ku' x p (hpts (tab m' fun x => f x j)) := by
      apply seg_congr b1
      intro i _ hi
      unfold hcp hpts
      rw [cp_gridOf (s := { s with KnotsU := kv, ControlPoints := gridOf m' n f }) (f := f) rfl (show i < m' by omega) (by omega),
        pt_tab _ _ _ (by omega)]
    have t2 : seg (kn s.KnotsU.Values) ku x p (hpts (rowCurve m s j).ControlPoints) = seg (kn s.KnotsU.Values) ku x p (fun i => hcp s i j) := by
      apply seg_congr a1
      intro i _ hi
      exact hpts_rowCurve (by omega)
    rw [← t1, t2] at e
    exact e
  obtain ⟨k1, k2⟩ := dist_rel hsq hpos he (hD 0 hn).1 hforms
  refine ⟨fun hs => ?_, fun ho => ?_⟩
  · obtain ⟨w1, d1⟩ := k1 hs
    exact ⟨_, _, e1, e2.trans (projectM_ok w1), d1⟩
  · obtain ⟨w1, d1⟩ := k2 ho
    exact ⟨_, _, e1, e2.trans (projectM_ok w1), d1⟩

/-- C87 for `RemoveKnotV`. -/
theorem C87_surfaceV_partial {p q m n : ℕ} {s : Surface K} (hw : WFSurface p q m n s) {u : K} (h0 : 0 < u) (h1 : u < 1)
    (hsep : Separated s.KnotsV.Values u) (hmul : s.KnotsV.Values.count u ≤ q)
    {sqrt : K → K} (hsq : ∀ x, 0 ≤ x → 0 ≤ sqrt x ∧ sqrt x * sqrt x = x) {eps : K} (he : 0 ≤ eps)
    {times : ℕ} (ht : 1 ≤ times) (htm : times ≤ s.KnotsV.Values.count u) {s' : Surface K}
    (h : s.RemoveKnotV sqrt u times eps = .ok (s', (times : Int))) {D : K} (hD : ∀ i < m, Reach (tab n fun j => cp s i j) D) :
    s.KnotsV.Values.Perm (List.replicate times u ++ s'.KnotsV.Values) ∧ s'.KnotsU = s.KnotsU ∧
      s'.ControlPoints.UCount = m ∧ s'.ControlPoints.VCount + times = n ∧
      SurfaceMoved s s' (∀ i < m, ∀ j < n, (cp s i j).w = 1) times eps D := by
  have hm : 0 < m := by have := hw.knotsU; have := hw.clampedU.len; omega
  have hlu := hw.knotsU
  have hlv := hw.knotsV
  have hmt : times ≤ n := by
    have := hw.clampedV.len
    omega
  obtain ⟨n', hn'⟩ : ∃ n', n = n' + times := ⟨n - times, by omega⟩
  rcases removeKnotV_inv hw.uCount hw.vCount (WFSurface.grid hw) hm (m' := n') (by omega) h with ⟨hz, _⟩ | ⟨_, kv, f, hrow, rfl⟩
  · omega
  have hex : ∀ j < m, ∃ kvj, (colCurve n s j).RemoveKnot sqrt u times eps =
      .ok (⟨s.DegreeV, kvj, tab n' fun x => f j x⟩, (times : Int)) ∧ (j + 1 = m → kvj = kv) := by
    intro j hj
    obtain ⟨kvj, h2, h3⟩ := hrow j hj
    refine ⟨kvj, ?_, h3⟩
    unfold Curve.RemoveKnot
    rw [massert_true ⟨h0, h1⟩, bind_ok, massert_true (by omega), bind_ok]
    have : KnotRemoval sqrt (colCurve n s j).Knots (colCurve n s j).ControlPoints (colCurve n s j).Degree u times eps =
      .ok (kvj, tab n' fun x => f j x, (times : Int)) := h2
    rw [this, bind_ok]
    rfl
  have hone : ∀ j < m, (∀ i < m, ∀ j < n, (cp s i j).w = 1) → ∀ a ∈ (colCurve n s j).ControlPoints, a.w = 1 := by
    intro j hj ho a ha
    change a ∈ tab n fun i => cp s j i at ha
    unfold tab at ha
    obtain ⟨i, hi, rfl⟩ := List.mem_map.mp ha
    exact ho j hj i (List.mem_range.mp hi)
  have hall : ∀ j < m, s.KnotsV.Values.Perm (List.replicate times u ++ kv.Values) ∧ Clamped q kv.Values ∧
      ∀ x, 0 ≤ x → x ≤ 1 → ∀ a b, IsSpan s.KnotsV.Values x a → IsSpan kv.Values x b →
        ∀ (L : Vec4 K →ₗ[K] K) (B : K), 0 ≤ B → FormLe sqrt (∀ i < m, ∀ j < n, (cp s i j).w = 1) L B →
        |L (seg (kn kv.Values) b x q (hpts (tab n' fun x => f j x))) - L (seg (kn s.KnotsV.Values) a x q (hpts (colCurve n s j).ControlPoints))| ≤
          times * (eps / (1 + D) * B) * (seg (kn s.KnotsV.Values) a x q (hpts (colCurve n s j).ControlPoints)).w := by
    obtain ⟨kvl, e1, e2⟩ := hex (m - 1) (by omega)
    obtain rfl := e2 (by omega)
    obtain ⟨hpl, hcl, _⟩ := row_tol (colCurve_wf hw (show m - 1 < m by omega)) h0 h1 hsep hmul hsq he htm e1 (hD _ (by omega)) (hone _ (by omega))
    intro j hj
    obtain ⟨kvj, e1, _⟩ := hex j hj
    obtain ⟨hpj, hcj, hsj⟩ := row_tol (colCurve_wf hw hj) h0 h1 hsep hmul hsq he htm e1 (hD j hj) (hone j hj)
    have : kvj.Values = kvl.Values := by
      apply List.Perm.eq_of_pairwise (fun x y _ _ h1 h2 => le_antisymm h1 h2) hcj.sorted hcl.sorted
      exact (List.perm_append_left_iff _).mp (hpj.symm.trans hpl)
    have : kvj = kvl := congrArg KnotVector.mk this
    subst this
    exact ⟨hpj, hcj, hsj⟩
  refine ⟨(hall 0 hm).1, rfl, rfl, by simp; omega, ?_⟩
  intro x y hx0 hx1 hy0 hy1
  have hcl := (hall 0 hm).2.1
  have hlen := (hall 0 hm).1.length_eq
  rw [List.length_append, List.length_replicate] at hlen
  obtain ⟨kv', hkv', _, _⟩ := exists_span hw.clampedV hy0 hy1
  obtain ⟨kv'', hkv'', _, _⟩ := exists_span hcl hy0 hy1
  obtain ⟨ku, hku, _, _⟩ := exists_span hw.clampedU hx0 hx1
  obtain ⟨a1, a2, a3, a4, _, _, hpos, e1⟩ := surface_seg hw hx0 hx1 hy0 hy1 hku hkv'
  have hgrid : ({ s with KnotsV := kv, ControlPoints := gridOf m n' f } : Surface K).ControlPoints =
      gridOf m n' (cp { s with KnotsV := kv, ControlPoints := gridOf m n' f }) := grid_eq rfl rfl (by simp [gridOf])
  obtain ⟨b1, b2, b3, b4, _, _, e2⟩ := surface_at_span (s := { s with KnotsV := kv, ControlPoints := gridOf m n' f }) (m := m) (n := n')
    hw.degreeU hw.degreeV hw.clampedU hcl hw.knotsU (by simp only; omega) hgrid hx0 hx1 hy0 hy1 hku hkv''
  have hforms : ∀ (L : Vec4 K →ₗ[K] K) (B : K), 0 ≤ B → FormLe sqrt (∀ i < m, ∀ j < n, (cp s i j).w = 1) L B →
      |L (surfSeg p q { s with KnotsV := kv, ControlPoints := gridOf m n' f } ku kv'' x y) - L (surfSeg p q s ku kv' x y)| ≤
        times * (eps / (1 + D) * B) * (surfSeg p q s ku kv' x y).w := by
    intro L B hB hL
    unfold surfSeg
    rw [sseg_swap, sseg_swap]
    refine seg_rel (fun a b hab hb => kn_mono hw.clampedU.sorted hab (by omega)) hku.2.1 (IsSpan.le_right hku) L a1 ?_
    intro j _ hj
    have e := (hall j (by omega)).2.2 y hy0 hy1 kv' kv'' hkv' hkv'' L B hB hL
    have t1 : seg (kn kv.Values) kv'' y q (fun i => hcp { s with KnotsV := kv, ControlPoints := gridOf m n' f } j i) =
        seg (kn kv.Values) kv'' y q (hpts (tab n' fun x => f j x)) := by
      apply seg_congr b3
      intro i _ hi
      unfold hcp hpts
      rw [cp_gridOf (s := { s with KnotsV := kv, ControlPoints := gridOf m n' f }) (f := f) rfl (by omega) (show i < n' by omega),
        pt_tab _ _ _ (by omega)]
    have t2 : seg (kn s.KnotsV.Values) kv' y q (hpts (colCurve n s j).ControlPoints) = seg (kn s.KnotsV.Values) kv' y q (fun i => hcp s j i) := by
      apply seg_congr a3
      intro i _ hi
      exact hpts_colCurve (by omega)
    rw [← t1, t2] at e
    exact e
  obtain ⟨k1, k2⟩ := dist_rel hsq hpos he (hD 0 hm).1 hforms
  refine ⟨fun hs => ?_, fun ho => ?_⟩
  · obtain ⟨w1, d1⟩ := k1 hs
    exact ⟨_, _, e1, e2.trans (projectM_ok w1), d1⟩
  · obtain ⟨w1, d1⟩ := k2 ho
    exact ⟨_, _, e1, e2.trans (projectM_ok w1), d1⟩

/-! A quarter disc fan: the rows lie on the axes, and the middle points are off the middle by 1/8. -/

def exDiscF (j : ℕ) (r : K) : Vec4 K := if j = 0 then ⟨r, 0, 0, 1⟩ else ⟨0, r, 0, 1⟩

def exDiscR (i : ℕ) : K := if i = 0 then 0 else if i = 1 then 5/8 else 1

def exDiscU : Surface K := ⟨1, 1, ⟨[0, 0, 1/2, 1, 1]⟩, ⟨[0, 0, 1, 1]⟩, gridOf 3 2 fun i j => exDiscF j (exDiscR i)⟩

def exDiscV : Surface K := ⟨1, 1, ⟨[0, 0, 1, 1]⟩, ⟨[0, 0, 1/2, 1, 1]⟩, gridOf 2 3 fun j i => exDiscF j (exDiscR i)⟩

theorem exDiscF_w (j : ℕ) (r : K) : (exDiscF j r).w = 1 := by unfold exDiscF; split <;> rfl

theorem exDiscU_cp {i j : ℕ} (hi : i < 3) (hj : j < 2) : cp (exDiscU : Surface K) i j = exDiscF j (exDiscR i) :=
  cp_gridOf (f := fun i j => exDiscF j (exDiscR i)) rfl hi hj

theorem exDiscV_cp {i j : ℕ} (hi : i < 3) (hj : j < 2) : cp (exDiscV : Surface K) j i = exDiscF j (exDiscR i) :=
  cp_gridOf (f := fun j i => exDiscF j (exDiscR i)) rfl hj hi

theorem exDisc_clamped : Clamped 1 ([0, 0, 1/2, 1, 1] : List K) ∧ Clamped 1 ([0, 0, 1, 1] : List K) := by
  refine ⟨(exTwoLines_wf (a := ⟨0, 0, 0, 1⟩) (b := ⟨0, 0, 0, 1⟩) (c := ⟨0, 0, 0, 1⟩) one_pos one_pos one_pos).clamped,
    ⟨by simp, by simp, ?_, ?_, by simp [kn], by simp [kn]⟩⟩
  · intro i hi; interval_cases i <;> simp [kn]
  · intro i h1 h2; simp at h1 h2; interval_cases i <;> simp [kn]

theorem exDisc_wf : WFSurface 1 1 3 2 (exDiscU : Surface K) ∧ WFSurface 1 1 2 3 (exDiscV : Surface K) := by
  constructor
  · refine ⟨rfl, rfl, exDisc_clamped.1, exDisc_clamped.2, rfl, rfl, rfl, rfl, rfl, ?_⟩
    intro i hi j hj
    rw [exDiscU_cp hi hj, exDiscF_w]
    exact one_pos
  · refine ⟨rfl, rfl, exDisc_clamped.2, exDisc_clamped.1, rfl, rfl, rfl, rfl, rfl, ?_⟩
    intro i hi j hj
    rw [exDiscV_cp hj hi, exDiscF_w]
    exact one_pos

theorem exDisc_row {sqrt : K → K} (hsq : ∀ x, 0 ≤ x → 0 ≤ sqrt x ∧ sqrt x * sqrt x = x) (j : ℕ) :
    KnotRemoval sqrt ⟨[0, 0, 1/2, 1, 1]⟩ [exDiscF j 0, exDiscF j (5/8), exDiscF j 1] 1 (1/2) 1 1 = .ok (⟨[0, 0, 1, 1]⟩, [exDiscF j 0, exDiscF j 1], 1) := by
  have hq : ∀ x, 0 ≤ x → sqrt (x * x) = x := by
    intro x hx
    obtain ⟨a, b⟩ := hsq (x * x) (mul_nonneg hx hx)
    exact (mul_self_inj a hx).mp b
  have q0 : sqrt 0 = 0 := by simpa using hq 0 le_rfl
  have q1 : sqrt 1 = 1 := by simpa using hq 1 zero_le_one
  have q2 := hq (5/8) (by norm_num)
  have q3 := hq (1/8) (by norm_num)
  have ht : CalcTOL sqrt ([exDiscF j 0, exDiscF j (5/8), exDiscF j 1].map ToHomo) 1 = .ok (1/2) := by
    have hn : ∀ r, (ToHomo (exDiscF j r)).head3.norm sqrt = sqrt (r * r) := by
      intro r
      unfold exDiscF
      split <;> simp [ToHomo, Vec4.head3, Vec3.norm, Vec3.dot]
    have hw : ∀ r : K, (ToHomo (exDiscF j r)).w = 1 := fun r => exDiscF_w j r
    unfold CalcTOL
    simp only [List.map_cons, List.map_nil, List.foldl_cons, List.foldl_nil, hn, hw, q2, mul_zero, q0, mul_one, q1, max_self]
    rw [min_eq_right (by norm_num), max_eq_right (by norm_num), fdiv_ok (by norm_num)]
    norm_num
  have hn : ((1/2 : K) • ToHomo (exDiscF j (1 : K)) + (1/2 : K) • ToHomo (exDiscF j (0 : K)) - ToHomo (exDiscF j (5/8 : K))).norm sqrt = sqrt (1/8 * (1/8)) := by
    have e : (1/2 : K) • ToHomo (exDiscF j (1 : K)) + (1/2 : K) • ToHomo (exDiscF j (0 : K)) - ToHomo (exDiscF j (5/8 : K)) =
        if j = 0 then ⟨-(1/8), 0, 0, 0⟩ else ⟨0, -(1/8), 0, 0⟩ := by
      unfold exDiscF
      split <;> ext <;> simp [ToHomo] <;> norm_num
    rw [e]
    split <;> simp [Vec4.norm]
  have hw : ∀ r : K, 0 < (exDiscF j r).w := fun r => by rw [exDiscF_w]; exact one_pos
  have hr := exTwoLines_removed (hw 0) (hw (5/8)) (hw 1) ht (by rw [hn, q3]; norm_num)
  have hk := knotRemoval_of_removeKnot hr
  simp only [exTwoLines] at hk
  exact hk

/-- The hypotheses of the two theorems are met and the points do move. -/
example {sqrt : K → K} (hsq : ∀ x, 0 ≤ x → 0 ≤ sqrt x ∧ sqrt x * sqrt x = x) :
    (∃ s', (exDiscU : Surface K).RemoveKnotU sqrt (1/2) 1 1 = .ok (s', 1) ∧
      SurfaceMoved exDiscU s' (∀ i < 3, ∀ j < 2, (cp (exDiscU : Surface K) i j).w = 1) ((1 : ℕ) : K) 1 1) ∧
    ∃ s', (exDiscV : Surface K).RemoveKnotV sqrt (1/2) 1 1 = .ok (s', 1) ∧
      SurfaceMoved exDiscV s' (∀ i < 2, ∀ j < 3, (cp (exDiscV : Surface K) i j).w = 1) ((1 : ℕ) : K) 1 1 := by
  obtain ⟨hu, hv⟩ := exDisc_wf (K := K)
  have hsep := exTwoLines_sep (a := (⟨0, 0, 0, 1⟩ : Vec4 K)) (b := ⟨0, 0, 0, 1⟩) (c := ⟨0, 0, 0, 1⟩)
  have hcnt := exTwoLines_count (a := (⟨0, 0, 0, 1⟩ : Vec4 K)) (b := ⟨0, 0, 0, 1⟩) (c := ⟨0, 0, 0, 1⟩)
  have r0 : (exDiscR 0 : K) = 0 := rfl
  have r1 : (exDiscR 1 : K) = 5/8 := rfl
  have r2 : (exDiscR 2 : K) = 1 := rfl
  have hreach : ∀ j, (1 : K) ^ 2 ≤ (exDiscF j (1 : K)).w ^ 2 * ((exDiscF j (1 : K)).x ^ 2 + (exDiscF j (1 : K)).y ^ 2 + (exDiscF j (1 : K)).z ^ 2) := by
    intro j
    unfold exDiscF
    split <;> simp
  constructor
  · have hr := removeKnotU_ok (sqrt := sqrt) (u := (1/2 : K)) (tol := 1) (times := 1) hu.uCount hu.vCount (WFSurface.grid hu) (by norm_num) (m' := 2) (by norm_num)
      (kv := ⟨[0, 0, 1, 1]⟩) (f := fun i j => exDiscF j (if i = 0 then 0 else 1)) one_ne_zero (fun j hj => by
        have h3 : (tab 3 fun x => cp (exDiscU : Surface K) x j) = [exDiscF j 0, exDiscF j (5/8), exDiscF j 1] := by
          simp only [tab, List.range_succ, List.range_zero, List.nil_append, List.cons_append, List.map_cons, List.map_nil]
          rw [exDiscU_cp (by norm_num) hj, exDiscU_cp (by norm_num) hj, exDiscU_cp (by norm_num) hj, r0, r1, r2]
        rw [h3]
        exact exDisc_row hsq j)
    refine ⟨_, hr, (C87_surfaceU_partial (times := 1) hu (by norm_num) (by norm_num) hsep (le_of_eq hcnt) hsq zero_le_one le_rfl (le_of_eq hcnt.symm) hr ?_).2.2.2.2⟩
    intro j hj
    refine ⟨zero_le_one, Or.inr ⟨cp exDiscU 2 j, by simp [tab, List.range_succ], ?_⟩⟩
    rw [exDiscU_cp (by norm_num) hj, r2]
    exact hreach j
  · have hr := removeKnotV_ok (sqrt := sqrt) (u := (1/2 : K)) (tol := 1) (times := 1) hv.uCount hv.vCount (WFSurface.grid hv) (by norm_num) (m' := 2) (by norm_num)
      (kv := ⟨[0, 0, 1, 1]⟩) (f := fun j i => exDiscF j (if i = 0 then 0 else 1)) one_ne_zero (fun j hj => by
        have h3 : (tab 3 fun x => cp (exDiscV : Surface K) j x) = [exDiscF j 0, exDiscF j (5/8), exDiscF j 1] := by
          simp only [tab, List.range_succ, List.range_zero, List.nil_append, List.cons_append, List.map_cons, List.map_nil]
          rw [exDiscV_cp (by norm_num) hj, exDiscV_cp (by norm_num) hj, exDiscV_cp (by norm_num) hj, r0, r1, r2]
        rw [h3]
        exact exDisc_row hsq j)
    refine ⟨_, hr, (C87_surfaceV_partial (times := 1) hv (by norm_num) (by norm_num) hsep (le_of_eq hcnt) hsq zero_le_one le_rfl (le_of_eq hcnt.symm) hr ?_).2.2.2.2⟩
    intro j hj
    refine ⟨zero_le_one, Or.inr ⟨cp exDiscV j 2, by simp [tab, List.range_succ], ?_⟩⟩
    rw [exDiscV_cp (by norm_num) hj, r2]
    exact hreach j

end Nurbs.Props
