import Verif.Proof.Surface
import Mathlib.Algebra.Order.Ring.Rat

/-! # C43, C44 and the surface part of C27: evaluation of surfaces -/

set_option linter.unusedSectionVars false

namespace Nurbs.Props
open Nurbs Nurbs.Spec

variable {K : Type} [Field K] [LinearOrder K] [IsStrictOrderedRing K]

/-- A rational surface of degrees 2 and 1 with one interior knot in each direction: 4 × 3 control points. -/
def exSurface : Surface ℚ :=
  ⟨2, 1, ⟨[0, 0, 0, 1/3, 1, 1, 1]⟩, ⟨[0, 0, 1/2, 1, 1]⟩,
    ⟨4, 3, [⟨0, 0, 0, 1⟩, ⟨1, 0, 2, 1/2⟩, ⟨2, 0, 1, 3⟩, ⟨3, 0, 0, 1⟩,
      ⟨0, 1, 1, 2⟩, ⟨1, 1, 0, 1⟩, ⟨2, 2, 0, 1⟩, ⟨4, 1, 5, 1⟩,
      ⟨0, 2, 0, 1⟩, ⟨1, 3, 1, 1⟩, ⟨2, 2, 0, 4⟩, ⟨3, 3, 3, 2⟩]⟩⟩

theorem exSurface_wf : WFSurface 2 1 4 3 exSurface :=
  ⟨rfl, rfl, ⟨by decide +kernel, by decide +kernel, by decide +kernel, by decide +kernel, by decide +kernel,
    by decide +kernel⟩, ⟨by decide +kernel, by decide +kernel, by decide +kernel, by decide +kernel, by decide +kernel,
    by decide +kernel⟩, rfl, rfl, rfl, rfl, rfl, by decide +kernel⟩

/-- C43.  `Surface::Evaluate` succeeds on a well-formed surface for every `(u, v) ∈ [0,1]²` and returns the
tensor-product NURBS point, with a positive denominator. -/
theorem C43_evaluate {p q m n : ℕ} {s : Surface K} (hw : WFSurface p q m n s) {u v : K} (hu0 : 0 ≤ u) (hu1 : u ≤ 1)
    (hv0 : 0 ≤ v) (hv1 : v ≤ 1) :
    s.Evaluate u v = .ok (surfPoint p q m n s u v) ∧ 0 < swsum p q m n s u v (fun _ => 1) := by
  obtain ⟨ku, hku, _, _⟩ := exists_span hw.clampedU hu0 hu1
  obtain ⟨kv, hkv, _, _⟩ := exists_span hw.clampedV hv0 hv1
  obtain ⟨h1, h2, h3, h4, _, _, hpos, he⟩ := surface_seg hw hu0 hu1 hv0 hv1 hku hkv
  refine ⟨by rw [he, proj_sseg_eq hw hku hkv h1 h2 h3 h4], ?_⟩
  rw [swsum_eq hw hku hkv h1 h2 h3 h4 Vec4.lw (fun _ => 1) (fun v => by simp [Vec4.lw])]
  exact hpos

example : exSurface.Evaluate (1/2) (2/3) = .ok ⟨35/19, 73/38, 11/38⟩ := by decide +kernel

/-- Outside the unit square the assertion of `Evaluate` fires (in a build with assertions). -/
theorem C43_outside (s : Surface K) {u v : K} (h : u < 0 ∨ 1 < u ∨ v < 0 ∨ 1 < v) : s.Evaluate u v = .error .assert := by
  unfold Surface.Evaluate
  by_cases hu : u ≥ 0 ∧ u ≤ 1
  · rw [massert_true hu, bind_ok, massert_false, bind_error]
    rintro ⟨a, b⟩
    rcases h with h | h | h | h
    · exact absurd hu.1 (not_le.mpr h)
    · exact absurd hu.2 (not_le.mpr h)
    · exact absurd a (not_le.mpr h)
    · exact absurd b (not_le.mpr h)
  · rw [massert_false hu, bind_error]

/-- C44 (boundary).  On the four sides of the parameter square the surface is the curve of the first / last row or
column of control points. -/
theorem C44_boundary {p q m n : ℕ} {s : Surface K} (hw : WFSurface p q m n s) {x : K} (h0 : 0 ≤ x) (h1 : x ≤ 1) :
    ∃ A B C D, s.Evaluate x 0 = .ok A ∧ (rowCurve m s 0).Evaluate x = .ok A ∧
      s.Evaluate x 1 = .ok B ∧ (rowCurve m s (n - 1)).Evaluate x = .ok B ∧
      s.Evaluate 0 x = .ok C ∧ (colCurve n s 0).Evaluate x = .ok C ∧
      s.Evaluate 1 x = .ok D ∧ (colCurve n s (m - 1)).Evaluate x = .ok D := by
  have hlu := hw.knotsU
  have hlv := hw.knotsV
  have hcu := hw.clampedU
  have hcv := hw.clampedV
  have hu := hcu.len
  have hv := hcv.len
  obtain ⟨n, rfl⟩ : ∃ n', n = n' + 1 := ⟨n - 1, by omega⟩
  obtain ⟨m, rfl⟩ : ∃ m', m = m' + 1 := ⟨m - 1, by omega⟩
  simp only [Nat.add_sub_cancel]
  obtain ⟨ku, hku, _, _⟩ := exists_span hw.clampedU h0 h1
  obtain ⟨kv, hkv, _, _⟩ := exists_span hw.clampedV h0 h1
  have row : ∀ j < n + 1, ∃ A, (rowCurve (m + 1) s j).Evaluate x = .ok A ∧
      A = proj (seg (kn s.KnotsU.Values) ku x p fun i => hcp s i j) := by
    intro j hj
    obtain ⟨a, b, _, _, e⟩ := evaluate_seg (rowCurve_wf hw hj) h0 h1 hku
    refine ⟨_, e, congrArg proj (seg_congr a fun i _ hi => hpts_rowCurve (by have := hw.knotsU; simp only [rowCurve] at b; omega))⟩
  have col : ∀ i < m + 1, ∃ A, (colCurve (n + 1) s i).Evaluate x = .ok A ∧
      A = proj (seg (kn s.KnotsV.Values) kv x q fun j => hcp s i j) := by
    intro i hi
    obtain ⟨a, b, _, _, e⟩ := evaluate_seg (colCurve_wf hw hi) h0 h1 hkv
    refine ⟨_, e, congrArg proj (seg_congr a fun j _ hj => hpts_colCurve (by have := hw.knotsV; simp only [colCurve] at b; omega))⟩
  obtain ⟨A, hA, eA⟩ := row 0 (by omega)
  obtain ⟨B, hB, eB⟩ := row n (by omega)
  obtain ⟨C, hC, eC⟩ := col 0 (by omega)
  obtain ⟨D, hD, eD⟩ := col m (by omega)
  refine ⟨A, B, C, D, ?_, hA, ?_, hB, ?_, hC, ?_, hD⟩
  · obtain ⟨a, b, c, d, e, f, _, he⟩ := surface_seg hw h0 h1 le_rfl zero_le_one hku (span_zero hcv)
    rw [he, eA, surfSeg, sseg, seg_eq_point _ _ _ _ 0 _ c f (by omega) (by omega) (fun j _ hj => hcv.zeros j (by omega))]
  · obtain ⟨a, b, c, d, e, f, _, he⟩ := surface_seg hw h0 h1 zero_le_one le_rfl hku (span_one (n := n) hcv (by omega))
    rw [he, eB, surfSeg, sseg, seg_eq_point _ _ _ _ n _ c f (by omega) (by omega)
      (fun j _ hj => hcv.ones j (by omega) (by omega))]
  · obtain ⟨a, b, c, d, e, f, _, he⟩ := surface_seg hw le_rfl zero_le_one h0 h1 (span_zero hcu) hkv
    rw [he, eC, surfSeg, sseg_swap, seg_eq_point _ _ _ _ 0 _ a e (by omega) (by omega) (fun j _ hj => hcu.zeros j (by omega))]
  · obtain ⟨a, b, c, d, e, f, _, he⟩ := surface_seg hw zero_le_one le_rfl h0 h1 (span_one (n := m) hcu (by omega)) hkv
    rw [he, eD, surfSeg, sseg_swap, seg_eq_point _ _ _ _ m _ a e (by omega) (by omega)
      (fun j _ hj => hcu.ones j (by omega) (by omega))]

/-- C44 (corners).  The surface takes the values of the four corner control points at the corners. -/
theorem C44_corners {p q m n : ℕ} {s : Surface K} (hw : WFSurface p q m n s) :
    s.Evaluate 0 0 = .ok ⟨(cp s 0 0).x, (cp s 0 0).y, (cp s 0 0).z⟩ ∧
    s.Evaluate 1 0 = .ok ⟨(cp s (m - 1) 0).x, (cp s (m - 1) 0).y, (cp s (m - 1) 0).z⟩ ∧
    s.Evaluate 0 1 = .ok ⟨(cp s 0 (n - 1)).x, (cp s 0 (n - 1)).y, (cp s 0 (n - 1)).z⟩ ∧
    s.Evaluate 1 1 = .ok ⟨(cp s (m - 1) (n - 1)).x, (cp s (m - 1) (n - 1)).y, (cp s (m - 1) (n - 1)).z⟩ := by
  have hlu := hw.knotsU
  have hlv := hw.knotsV
  have hcu := hw.clampedU
  have hcv := hw.clampedV
  have hu := hcu.len
  have hv := hcv.len
  obtain ⟨n, rfl⟩ : ∃ n', n = n' + 1 := ⟨n - 1, by omega⟩
  obtain ⟨m, rfl⟩ : ∃ m', m = m' + 1 := ⟨m - 1, by omega⟩
  simp only [Nat.add_sub_cancel]
  have hproj : ∀ i < m + 1, ∀ j < n + 1, proj (hcp s i j) = ⟨(cp s i j).x, (cp s i j).y, (cp s i j).z⟩ := by
    intro i hi j hj
    have := (hw.weights i hi j hj).ne'
    ext <;> simp [proj, hcp, ToHomo, this]
  refine ⟨?_, ?_, ?_, ?_⟩
  · obtain ⟨a, b, c, d, e, f, _, he⟩ := surface_seg hw le_rfl zero_le_one le_rfl zero_le_one (span_zero hcu) (span_zero hcv)
    rw [he, surfSeg, sseg, seg_eq_point _ _ _ _ 0 _ c f (by omega) (by omega) (fun j _ hj => hcv.zeros j (by omega)),
      seg_eq_point _ _ _ _ 0 _ a e (by omega) (by omega) (fun j _ hj => hcu.zeros j (by omega)), hproj _ (by omega) _ (by omega)]
  · obtain ⟨a, b, c, d, e, f, _, he⟩ := surface_seg hw zero_le_one le_rfl le_rfl zero_le_one
      (span_one (n := m) hcu (by omega)) (span_zero hcv)
    rw [he, surfSeg, sseg, seg_eq_point _ _ _ _ 0 _ c f (by omega) (by omega) (fun j _ hj => hcv.zeros j (by omega)),
      seg_eq_point _ _ _ _ m _ a e (by omega) (by omega) (fun j _ hj => hcu.ones j (by omega) (by omega)),
      hproj _ (by omega) _ (by omega)]
  · obtain ⟨a, b, c, d, e, f, _, he⟩ := surface_seg hw le_rfl zero_le_one zero_le_one le_rfl (span_zero hcu)
      (span_one (n := n) hcv (by omega))
    rw [he, surfSeg, sseg, seg_eq_point _ _ _ _ n _ c f (by omega) (by omega) (fun j _ hj => hcv.ones j (by omega) (by omega)),
      seg_eq_point _ _ _ _ 0 _ a e (by omega) (by omega) (fun j _ hj => hcu.zeros j (by omega)), hproj _ (by omega) _ (by omega)]
  · obtain ⟨a, b, c, d, e, f, _, he⟩ := surface_seg hw zero_le_one le_rfl zero_le_one le_rfl
      (span_one (n := m) hcu (by omega)) (span_one (n := n) hcv (by omega))
    rw [he, surfSeg, sseg, seg_eq_point _ _ _ _ n _ c f (by omega) (by omega) (fun j _ hj => hcv.ones j (by omega) (by omega)),
      seg_eq_point _ _ _ _ m _ a e (by omega) (by omega) (fun j _ hj => hcu.ones j (by omega) (by omega)),
      hproj _ (by omega) _ (by omega)]

example : exSurface.Evaluate 1 0 = .ok ⟨3, 0, 0⟩ ∧ exSurface.Evaluate 0 1 = .ok ⟨0, 2, 0⟩ ∧
    exSurface.Evaluate (1/2) 1 = (rowCurve 4 exSurface 2).Evaluate (1/2) := by decide +kernel

/-- C44 (convex hull).  A half-space `a·P ≤ b` that contains the `(p+1)(q+1)` active control points contains the
surface point. -/
theorem C44_convex_hull {p q m n : ℕ} {s : Surface K} (hw : WFSurface p q m n s) {u v : K} (hu0 : 0 ≤ u) (hu1 : u ≤ 1)
    (hv0 : 0 ≤ v) (hv1 : v ≤ 1) :
    ∃ ku kv S, IsSpan s.KnotsU.Values u ku ∧ IsSpan s.KnotsV.Values v kv ∧ p ≤ ku ∧ ku < m ∧ q ≤ kv ∧ kv < n ∧
      s.Evaluate u v = .ok S ∧
      ∀ (a : Vec3 K) (b : K),
        (∀ i j, ku - p ≤ i → i ≤ ku → kv - q ≤ j → j ≤ kv → form a (cp s i j).x (cp s i j).y (cp s i j).z ≤ b) →
        form a S.x S.y S.z ≤ b := by
  obtain ⟨ku, hku, _, _⟩ := exists_span hw.clampedU hu0 hu1
  obtain ⟨kv, hkv, _, _⟩ := exists_span hw.clampedV hv0 hv1
  obtain ⟨h1, h2, h3, h4, _, _, hpos, he⟩ := surface_seg hw hu0 hu1 hv0 hv1 hku hkv
  have hlu := hw.knotsU
  have hlv := hw.knotsV
  refine ⟨ku, kv, _, hku, hkv, h1, h2, h3, h4, he, ?_⟩
  intro a b h
  have hle : planeForm a b (surfSeg p q s ku kv u v) ≤ 0 := by
    unfold surfSeg
    rw [sseg_map]
    apply seg_nonpos _ _ _ _ h3 (fun a b hab hb => kn_mono hw.clampedV.sorted hab (by omega)) hkv.2.1 (IsSpan.le_right hkv)
    intro j hj1 hj2
    apply seg_nonpos _ _ _ _ h1 (fun a b hab hb => kn_mono hw.clampedU.sorted hab (by omega)) hku.2.1 (IsSpan.le_right hku)
    intro i hi1 hi2
    have hwi := hw.weights i (by omega) j (by omega)
    have := h i j (by omega) hi2 (by omega) hj2
    have e : planeForm a b (hcp s i j) = (cp s i j).w * (form a (cp s i j).x (cp s i j).y (cp s i j).z - b) := by
      simp [planeForm, hcp, ToHomo, form]; ring
    show planeForm a b (hcp s i j) ≤ 0
    rw [e]
    exact mul_nonpos_of_nonneg_of_nonpos hwi.le (by linarith)
  generalize surfSeg p q s ku kv u v = S at *
  have e : form a (proj S).x (proj S).y (proj S).z = form a S.x S.y S.z / S.w := by
    simp [form, proj]; ring
  rw [e, div_le_iff₀ hpos]
  simp [planeForm] at hle
  linarith

example : ∃ ku kv S, IsSpan exSurface.KnotsU.Values (1/2) ku ∧ IsSpan exSurface.KnotsV.Values (1/4) kv ∧ 2 ≤ ku ∧ ku < 4 ∧
    1 ≤ kv ∧ kv < 3 ∧ exSurface.Evaluate (1/2) (1/4) = .ok S ∧
    ∀ (a : Vec3 ℚ) (b : ℚ), (∀ i j, ku - 2 ≤ i → i ≤ ku → kv - 1 ≤ j → j ≤ kv →
      form a (cp exSurface i j).x (cp exSurface i j).y (cp exSurface i j).z ≤ b) → form a S.x S.y S.z ≤ b :=
  C44_convex_hull exSurface_wf (by decide +kernel) (by decide +kernel) (by decide +kernel) (by decide +kernel)

/-- C27 (surfaces).  `Transform` keeps degrees, knots, grid size and weights and commutes with evaluation. -/
theorem C27_transform_surface {p q m n : ℕ} {s : Surface K} (hw : WFSurface p q m n s) (R : Mat3 K) :
    WFSurface p q m n (s.Transform R) ∧
    (s.Transform R).KnotsU = s.KnotsU ∧ (s.Transform R).KnotsV = s.KnotsV ∧
    (∀ i < m, ∀ j < n, (cp (s.Transform R) i j).w = (cp s i j).w) ∧
    ∀ u v, 0 ≤ u → u ≤ 1 → 0 ≤ v → v ≤ 1 →
      ∃ S, s.Evaluate u v = .ok S ∧ (s.Transform R).Evaluate u v = .ok (matApply R S) := by
  have hcell : ∀ i < m, ∀ j < n, cp (s.Transform R) i j = Curve.transformPoint R (cp s i j) := by
    intro i hi j hj
    have h1 := cell_lt hi hj
    have h2 := hw.storage
    have h3 : j * m + i < s.ControlPoints.Values.length := by omega
    simp [cp, Surface.Transform, hw.uCount, h3]
  have hwt : ∀ i < m, ∀ j < n, (cp (s.Transform R) i j).w = (cp s i j).w := by
    intro i hi j hj
    rw [hcell i hi j hj]; rfl
  have hw' : WFSurface p q m n (s.Transform R) :=
    ⟨hw.degreeU, hw.degreeV, hw.clampedU, hw.clampedV, hw.uCount, hw.vCount, hw.knotsU, hw.knotsV,
      by simpa [Surface.Transform] using hw.storage, fun i hi j hj => by rw [hwt i hi j hj]; exact hw.weights i hi j hj⟩
  refine ⟨hw', rfl, rfl, hwt, ?_⟩
  intro u v hu0 hu1 hv0 hv1
  obtain ⟨ku, hku, _, _⟩ := exists_span hw.clampedU hu0 hu1
  obtain ⟨kv, hkv, _, _⟩ := exists_span hw.clampedV hv0 hv1
  obtain ⟨h1, h2, h3, h4, _, _, _, he⟩ := surface_seg hw hu0 hu1 hv0 hv1 hku hkv
  obtain ⟨_, _, _, _, _, _, _, he'⟩ := surface_seg hw' hu0 hu1 hv0 hv1 hku hkv
  refine ⟨_, he, ?_⟩
  rw [he', ← proj_matMap, surfSeg, surfSeg, sseg_map]
  congr 2
  apply sseg_congr h1 h3
  intro i j _ hi _ hj
  simp only [hcp, matMap_toHomo]
  rw [hcell i (by omega) j (by omega)]

example : (exSurface.Transform ⟨⟨0, -1, 0⟩, ⟨1, 0, 0⟩, ⟨0, 0, 2⟩⟩).Evaluate (1/2) (2/3) = .ok ⟨-73/38, 35/19, 11/19⟩ := by decide +kernel

end Nurbs.Props
