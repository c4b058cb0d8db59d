import Verif.Spec.Iso
import Verif.Props.Transposed
import Verif.Props.Ends
import Verif.Props.Hodograph
import Verif.Proof.RoundedCurve

/-! # Isoparametric curves -/

set_option linter.unusedSectionVars false

namespace Nurbs
open Nurbs.Spec Nurbs.Props Polynomial

variable {K : Type} [Field K] [LinearOrder K] [IsStrictOrderedRing K] {p q m n : ℕ} {s : Surface K}

theorem iso_length (q m n : ℕ) (s : Surface K) (v : K) : (isoCurve q m n s v).ControlPoints.length = m := by simp [isoCurve]

theorem pt_iso {v : K} {i : ℕ} (hi : i < m) : pt (isoCurve q m n s v).ControlPoints i =
    ⟨(nurbsPoint q (colCurve n s i) v).x, (nurbsPoint q (colCurve n s i) v).y, (nurbsPoint q (colCurve n s i) v).z,
      wsum q (colCurve n s i) v fun _ => 1⟩ := by simp [isoCurve, pt, hi]

theorem iso_wf (hw : WFSurface p q m n s) {v : K} (hv0 : 0 ≤ v) (hv1 : v ≤ 1) : WFCurve p (isoCurve q m n s v) := by
  refine ⟨hw.degreeU, hw.clampedU, by rw [iso_length]; exact hw.knotsU, fun i hi => ?_⟩
  rw [iso_length] at hi
  rw [pt_iso hi]
  exact (C23_evaluate (colCurve_wf hw hi) hv0 hv1).2

/-- Control points in homogeneous form. -/
theorem pt_iso_seg (hw : WFSurface p q m n s) {v : K} (hv0 : 0 ≤ v) (hv1 : v ≤ 1) {kv : ℕ} (hkv : IsSpan s.KnotsV.Values v kv) {i : ℕ}
    (hi : i < m) : pt (isoCurve q m n s v).ControlPoints i = unhomo (seg (kn s.KnotsV.Values) kv v q fun j => hcp s i j) ∧
      0 < (seg (kn s.KnotsV.Values) kv v q fun j => hcp s i j).w := by
  have hwc := colCurve_wf hw hi
  obtain ⟨hpk, hl, _, hpos, he⟩ := evaluate_seg hwc hv0 hv1 (k := kv) hkv
  have hct := hwc.count
  have hn : (colCurve n s i).ControlPoints.length = n := by simp [colCurve]
  have es : seg (kn (colCurve n s i).Knots.Values) kv v q (hpts (colCurve n s i).ControlPoints) = seg (kn s.KnotsV.Values) kv v q fun j => hcp s i j := by
    refine seg_congr hpk fun j _ hj => hpts_colCurve ?_
    omega
  rw [es] at hpos he
  refine ⟨?_, hpos⟩
  rw [(C23_evaluate hwc hv0 hv1).1] at he
  injection he with he
  rw [pt_iso hi, he]
  have hone := seg_wsum hwc (k := kv) hkv hpk hl Vec4.lw id (fun _ => 1) (fun v => by simp [Vec4.lw])
  rw [← hone]
  have e2 : Vec4.lw (seg (kn (colCurve n s i).Knots.Values) kv v q fun i_1 => ToHomo (id (pt (colCurve n s i).ControlPoints i_1))) =
      (seg (kn s.KnotsV.Values) kv v q fun j => hcp s i j).w := by rw [← es]; rfl
  rw [e2]
  rfl

theorem hpts_iso (hw : WFSurface p q m n s) {v : K} (hv0 : 0 ≤ v) (hv1 : v ≤ 1) {kv : ℕ} (hkv : IsSpan s.KnotsV.Values v kv) {i : ℕ}
    (hi : i < m) : hpts (isoCurve q m n s v).ControlPoints i = seg (kn s.KnotsV.Values) kv v q fun j => hcp s i j := by
  obtain ⟨e, hpos⟩ := pt_iso_seg hw hv0 hv1 hkv hi
  unfold hpts
  rw [e, toHomo_unhomo hpos.ne']

theorem iso_derivative (hw : WFSurface p q m n s) {x v : K} (h0 : 0 ≤ x) (h1 : x ≤ 1) (hv0 : 0 ≤ v) (hv1 : v ≤ 1) (a : ℕ) (ha : a ≤ 29) :
    ∃ D, s.EvaluateDerivative x v a 0 = .ok D ∧ (isoCurve q m n s v).EvaluateDerivative x a = .ok D := by
  obtain ⟨ku, hku, _, _⟩ := exists_span hw.clampedU h0 h1
  obtain ⟨kv, hkv, _, _⟩ := exists_span hw.clampedV hv0 hv1
  obtain ⟨hpk, hkm, hqk, hkn, hru, hrv, _, _⟩ := surface_seg hw h0 h1 hv0 hv1 hku hkv
  obtain ⟨hpos, he⟩ := surface_evaluateAll_ok hw h0 h1 hv0 hv1 hku hkv a 0 ha (by omega) (by simpa using choose_29 a ha)
  obtain ⟨hpos', he'⟩ := curve_evaluateAll_ok (iso_wf hw hv0 hv1) h0 h1 (k := ku) hku a ha
  have key : ∀ (L : Vec4 K →ₗ[K] K) i, MvPolynomial.eval ![x, v] (pd (surfP p q s ku kv L) i 0) =
      (derivative^[i] (curveP p (isoCurve q m n s v) ku L)).eval x := by
    intro L i
    rw [surfP_pd, curveP, segP_deriv]
    unfold homD2
    simp only [Function.iterate_zero, id, NlP_eval, Finset.smul_sum]
    rw [Finset.sum_comm, map_sum]
    apply Finset.sum_congr rfl
    intro n hn
    have := Finset.mem_range.mp hn
    rw [hpts_iso hw hv0 hv1 hkv (by omega)]
    unfold seg
    rw [← smul_eq_mul, ← map_smul, Finset.smul_sum]
    congr 1
    refine Finset.sum_congr rfl fun j _ => ?_
    rw [smul_comm]
    rfl
  refine ⟨ratD2 p q s ku kv x v a 0, ?_, ?_⟩
  · unfold Surface.EvaluateDerivative
    rw [show ((0 : Int)) = ((0 : ℕ) : Int) from rfl, he, bind_ok, get_gridOf _ _ _ _ _ a 0 rfl rfl (by omega) (by omega)]
  · unfold Curve.EvaluateDerivative
    rw [he', bind_ok, vget_tab _ _ _ a rfl (by omega)]
    congr 1
    ext
    · exact (mix_edge_u _ _ _ _ x v hpos'.ne' (key Vec4.lx) (key Vec4.lw) a).symm
    · exact (mix_edge_u _ _ _ _ x v hpos'.ne' (key Vec4.ly) (key Vec4.lw) a).symm
    · exact (mix_edge_u _ _ _ _ x v hpos'.ne' (key Vec4.lz) (key Vec4.lw) a).symm

theorem iso_evaluate (hw : WFSurface p q m n s) {v : K} (hv0 : 0 ≤ v) (hv1 : v ≤ 1) {u : K} (hu0 : 0 ≤ u) (hu1 : u ≤ 1) :
    (isoCurve q m n s v).Evaluate u = s.Evaluate u v := by
  obtain ⟨ku, hku, _, _⟩ := exists_span hw.clampedU hu0 hu1
  obtain ⟨kv, hkv, _, _⟩ := exists_span hw.clampedV hv0 hv1
  obtain ⟨hpk, hkm, hqk, hkn, hru, hrv, _, he⟩ := surface_seg hw hu0 hu1 hv0 hv1 hku hkv
  obtain ⟨_, _, _, _, he'⟩ := evaluate_seg (iso_wf hw hv0 hv1) hu0 hu1 (k := ku) hku
  rw [he, he']
  congr 2
  unfold surfSeg sseg seg
  simp only [Finset.smul_sum]
  rw [Finset.sum_comm]
  refine Finset.sum_congr rfl fun i hi => ?_
  have := Finset.mem_range.mp hi
  rw [hpts_iso hw hv0 hv1 hkv (by omega)]
  unfold seg
  rw [Finset.smul_sum]
  refine Finset.sum_congr rfl fun j _ => ?_
  rw [smul_comm]
  rfl

theorem curve_ext {c c' : Curve K} (hd : c.Degree = c'.Degree) (hk : c.Knots = c'.Knots) (hl : c.ControlPoints.length = c'.ControlPoints.length)
    (h : ∀ i < c.ControlPoints.length, pt c.ControlPoints i = pt c'.ControlPoints i) : c = c' := by
  cases c; cases c'
  simp only at hd hk hl h
  subst hd hk
  congr 1
  refine List.ext_getElem hl fun i h1 h2 => ?_
  simpa [pt, h1, h2] using h i h1

theorem seg_insP (U V : ℕ → K) (p k q kv : ℕ) (x v : K) (P : ℕ → ℕ → Vec4 K) (i : ℕ) :
    seg V kv v q (fun j => insP U k x p (fun i => P i j) i) = insP U k x p (fun i => seg V kv v q fun j => P i j) i := by
  unfold insP
  split_ifs
  · rfl
  · unfold step seg
    simp only [smul_add, Finset.sum_add_distrib, Finset.smul_sum]
    congr 1
    · exact Finset.sum_congr rfl fun j _ => smul_comm _ _ _
    · exact Finset.sum_congr rfl fun j _ => smul_comm _ _ _
  · rfl

/-- Insertion along the curve. -/
theorem iso_insSurfU (hw : WFSurface p q m n s) {v : K} (hv0 : 0 ≤ v) (hv1 : v ≤ 1) {x : K} (h0 : 0 < x) (h1 : x < 1) {k : ℕ}
    (hk : IsSpan s.KnotsU.Values x k) : isoCurve q (m + 1) n (insSurfU p m n k x s) v = insCurve p k x (isoCurve q m n s v) := by
  have hw' := insSurfU_wf hw hk h0 h1
  have hwc := iso_wf hw hv0 hv1
  have hwi := insCurve_wf hwc (k := k) hk h0 h1
  obtain ⟨kv, hkv, _, hlk⟩ := exists_span hw.clampedV hv0 hv1
  have hb := insU_bounds hw hk h0 h1
  have hll : (insCurve p k x (isoCurve q m n s v)).ControlPoints.length = m + 1 := by simp [insCurve, iso_length]
  refine curve_ext ?_ rfl ?_ ?_
  · show s.DegreeU = p
    exact hw.degreeU
  · rw [iso_length, hll]
  · intro i hi
    rw [iso_length] at hi
    have e1 : hpts (isoCurve q (m + 1) n (insSurfU p m n k x s) v).ControlPoints i =
        hpts (insCurve p k x (isoCurve q m n s v)).ControlPoints i := by
      rw [hpts_iso hw' hv0 hv1 (kv := kv) hkv hi, insCurve_hpts hwc (k := k) hk h0 h1 i (by rw [iso_length]; exact hi)]
      have ec : seg (kn (insSurfU p m n k x s).KnotsV.Values) kv v q (fun j => hcp (insSurfU p m n k x s) i j) =
          seg (kn s.KnotsV.Values) kv v q fun j => insP (kn s.KnotsU.Values) k x p (fun i => hcp s i j) i := by
        have := hw.knotsV
        refine seg_congr (by omega) fun j _ hj => insSurfU_hcp hw hk h0 h1 hi (by omega)
      rw [ec, seg_insP]
      exact insP_congr m hb.2.2 (fun i hi => (hpts_iso hw hv0 hv1 hkv hi).symm) i hi
    have p1 := (iso_wf hw' hv0 hv1).weights i (by rw [iso_length]; exact hi)
    have p2 := hwi.weights i (by rw [hll]; exact hi)
    have := congrArg unhomo e1
    unfold hpts at this
    rwa [unhomo_toHomo p1.ne', unhomo_toHomo p2.ne'] at this

/-- Insertion across the curve. -/
theorem iso_insSurfV (hw : WFSurface p q m n s) {v : K} (hv0 : 0 ≤ v) (hv1 : v ≤ 1) {x : K} (h0 : 0 < x) (h1 : x < 1) {k : ℕ}
    (hk : IsSpan s.KnotsV.Values x k) : isoCurve q m (n + 1) (insSurfV q m n k x s) v = isoCurve q m n s v := by
  have hw' := insSurfV_wf hw hk h0 h1
  obtain ⟨sv, hsv, hqs, hls⟩ := exists_span hw'.clampedV hv0 hv1
  have hsv0 : IsSpan s.KnotsV.Values v (if sv ≤ k then sv else sv - 1) := insL_span hk h1 hsv
  obtain ⟨sv', hsv', hqs', _⟩ := exists_span hw.clampedV hv0 hv1
  obtain rfl := isSpan_unique hw.clampedV.sorted hsv0 hsv' (fun i hi => hw.clampedV.le_one hi)
  refine curve_ext rfl rfl (by rw [iso_length, iso_length]) ?_
  intro i hi
  rw [iso_length] at hi
  rw [(pt_iso_seg hw' hv0 hv1 hsv hi).1, (pt_iso_seg hw hv0 hv1 hsv0 hi).1]
  congr 1
  rw [seg_eq_blos _ _ _ _ _ hqs, seg_eq_blos _ _ _ _ _ hqs', ← insL_blos hw.clampedV hk h0 h1 hsv hv0 hv1 (fun j => hcp s i j) _ (by simp)]
  apply blos_congr _ _ _ _ _ (by simpa using hqs)
  intro j _ hj
  have := hw'.knotsV
  exact insSurfV_hcp hw hk h0 h1 hi (by omega)

end Nurbs
