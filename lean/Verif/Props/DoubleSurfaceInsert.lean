import Verif.Proof.DoubleSurfaceInsert
import Verif.Props.DoubleInsert

/-! # C109 for surfaces: knot insertion in `double` with its finite range -/

set_option exponentiation.threshold 2000

namespace Nurbs.Props
open Nurbs Nurbs.Spec

/-- The limits on the data with room for up to `2 ^ 40` insertions. -/
theorem list_limits {t : ℕ} (hn : t ≤ 2 ^ 40) {wl wh B : ℚ} (hl : 1 / 2 ^ 99 ≤ wl) (hh : wh ≤ 2 ^ 99) (hB : B ≤ 2 ^ 399) :
    1 / 2 ^ 100 ≤ q64 ^ (4 * t) * wl ∧ (q64 ^ (4 * t))⁻¹ * wh ≤ 2 ^ 100 ∧ (q64 ^ (11 * t))⁻¹ * B ≤ 2 ^ 400 := by
  have h4 := pow_list hn (show 4 ≤ 20 by norm_num)
  have h11 := pow_list hn (show 11 ≤ 20 by norm_num)
  have i4 : (q64 ^ (4 * t))⁻¹ ≤ 2 := by rw [inv_le_comm₀ (pow_pos q64_pos _) (by norm_num)]; linarith
  have i11 : (q64 ^ (11 * t))⁻¹ ≤ 2 := by rw [inv_le_comm₀ (pow_pos q64_pos _) (by norm_num)]; linarith
  refine ⟨?_, ?_, ?_⟩
  · calc (1 : ℚ) / 2 ^ 100 = 1 / 2 * (1 / 2 ^ 99) := by norm_num
      _ ≤ q64 ^ (4 * t) * wl := mul_le_mul h4 hl (by positivity) (pow_pos q64_pos _).le
  · calc (q64 ^ (4 * t))⁻¹ * wh ≤ (q64 ^ (4 * t))⁻¹ * 2 ^ 99 :=
          mul_le_mul_of_nonneg_left hh (inv_nonneg.mpr (pow_pos q64_pos _).le)
      _ ≤ 2 * 2 ^ 99 := mul_le_mul_of_nonneg_right i4 (by positivity)
      _ = 2 ^ 100 := by norm_num
  · calc (q64 ^ (11 * t))⁻¹ * B ≤ (q64 ^ (11 * t))⁻¹ * 2 ^ 399 :=
          mul_le_mul_of_nonneg_left hB (inv_nonneg.mpr (pow_pos q64_pos _).le)
      _ ≤ 2 * 2 ^ 399 := mul_le_mul_of_nonneg_right i11 (by positivity)
      _ = 2 ^ 400 := by norm_num

/-- C109 for `Surface::InsertKnotU(value)`: the new surface is well-formed and all its numbers are finite, `KnotsV` is unchanged, the surface
moves by at most `4 ((1-u)^(-13) - 1) (wh/wl) B + 2 ^ -872`, and the control points that do not take part are copied.
Not proved: weights and coordinates near the limits of `double`, for which it is false (`C109_surface_underflow_refuted`). -/
theorem C109_insertKnotU_partial {p q m n : ℕ} (hp : 1 ≤ p) {s : Surface Double} (hfin : FinSurface s) (hw : WFSurface p q m n (exactSurface64 s))
    {wl wh B : ℚ} (hb : SurfaceBounds m n (exactSurface64 s) wl wh B) (hl : 1 / 2 ^ 100 ≤ wl) (hh : wh ≤ 2 ^ 100) (hB : B ≤ 2 ^ 400)
    {v : Double} (hv : IsFin v) (h0 : 0 < v.val) (h1 : v.val < 1) :
    ∃ s' k, s.InsertKnotU v = .ok s' ∧ FinSurface s' ∧ WFSurface p q (m + 1) n (exactSurface64 s') ∧
      s'.KnotsU.Values.Perm (v :: s.KnotsU.Values) ∧ s'.KnotsV = s.KnotsV ∧
      SurfacesWithin p q m n (m + 1) n (exactSurface64 s) (exactSurface64 s') (4 * errFactor binary53 13 * (wh / wl) * B + 1 / 2 ^ 872) ∧
      IsSpan (exactSurface64 s).KnotsU.Values v.val k ∧ (∀ i j, j < n → i + p ≤ k → cp s' i j = cp s i j) ∧
      ∀ i j, j < n → k ≤ i → i < m → cp s' (i + 1) j = cp s i j := by
  obtain ⟨ev, gv, _⟩ := isFin_eq hv
  obtain ⟨k, hk, _⟩ := exists_span hw.clampedU h0.le h1.le
  have D : InsDataU p q m n k s v.val wl wh B := ⟨hfin, hw, hk, gv, h0, h1, hb, hl, hh, hB⟩
  obtain ⟨_, _, hkn⟩ := insUD_bounds D
  refine ⟨insSurfUC p m n k v s, k, ?_, ?_, ?_, insL_perm _ _ _, rfl, ?_, hk, ?_, ?_⟩
  · have := insertKnotU_double D hp
    rwa [← ev] at this
  · have := insUD_finite D (by rwa [← ev])
    rwa [← ev] at this
  · have := insUD_wf D
    rwa [← ev] at this
  · have := insUD_within D
    rwa [← ev] at this
  · intro i j hj hi
    rw [cp_gridOf (s := insSurfUC p m n k v s) (f := fun i j => insPtC (kn s.KnotsU.Values) k v p (fun i => cp s i j) i) rfl (by omega) hj, insPtC,
      if_pos hi]
  · intro i j hj hi hn
    rw [cp_gridOf (s := insSurfUC p m n k v s) (f := fun i j => insPtC (kn s.KnotsU.Values) k v p (fun i => cp s i j) i) rfl (by omega) hj, insPtC,
      if_neg (by omega), if_neg (by omega), Nat.add_sub_cancel]

/-- C109 for a list of up to `2 ^ 40` knots in direction u. -/
theorem C109_insertKnotUList_partial {p q m n : ℕ} (hp : 1 ≤ p) (vs : List Double) (hv : ∀ v ∈ vs, IsFin v ∧ 0 < v.val ∧ v.val < 1)
    (hn : vs.length ≤ 2 ^ 40) {s : Surface Double} (hfin : FinSurface s) (hw : WFSurface p q m n (exactSurface64 s)) {wl wh B : ℚ}
    (hb : SurfaceBounds m n (exactSurface64 s) wl wh B) (hl : 1 / 2 ^ 99 ≤ wl) (hh : wh ≤ 2 ^ 99) (hB0 : 1 / 2 ^ 600 ≤ B) (hB : B ≤ 2 ^ 399) :
    ∃ s', s.InsertKnotUList vs = .ok s' ∧ FinSurface s' ∧ WFSurface p q (m + vs.length) n (exactSurface64 s') ∧
      s'.KnotsU.Values.Perm (vs ++ s.KnotsU.Values) ∧ s'.KnotsV = s.KnotsV ∧
      SurfacesWithin p q m n (m + vs.length) n (exactSurface64 s) (exactSurface64 s') (4 * errFactor binary53 (19 * vs.length) * (wh / wl) * B) := by
  obtain ⟨l1, l2, l3⟩ := list_limits hn hl hh hB
  exact insertListU_double hp vs hv hfin hw hb l1 l2 hB0 l3

/-- C109 for `InsertKnotU(value, times)`. -/
theorem C109_insertKnotUTimes_partial {p q m n : ℕ} (hp : 1 ≤ p) {v : Double} (hv : IsFin v) (h0 : 0 < v.val) (h1 : v.val < 1) {times : ℕ}
    (hn : times ≤ 2 ^ 40) {s : Surface Double} (hfin : FinSurface s) (hw : WFSurface p q m n (exactSurface64 s)) {wl wh B : ℚ}
    (hb : SurfaceBounds m n (exactSurface64 s) wl wh B) (hl : 1 / 2 ^ 99 ≤ wl) (hh : wh ≤ 2 ^ 99) (hB0 : 1 / 2 ^ 600 ≤ B) (hB : B ≤ 2 ^ 399) :
    ∃ s', s.InsertKnotUTimes v times = .ok s' ∧ FinSurface s' ∧ WFSurface p q (m + times) n (exactSurface64 s') ∧
      s'.KnotsU.Values.Perm (List.replicate times v ++ s.KnotsU.Values) ∧ s'.KnotsV = s.KnotsV ∧
      SurfacesWithin p q m n (m + times) n (exactSurface64 s) (exactSurface64 s') (4 * errFactor binary53 (19 * times) * (wh / wl) * B) := by
  have := C109_insertKnotUList_partial hp (List.replicate times v) (fun w hw' => by
    rw [List.eq_of_mem_replicate hw']; exact ⟨hv, h0, h1⟩) (by simpa using hn) hfin hw hb hl hh hB0 hB
  rw [List.length_replicate] at this
  unfold Surface.InsertKnotUTimes
  rw [vnew_of _ times _ rfl, bind_ok]
  exact this

/-- C109 for `Surface::InsertKnotV(value)`: the new surface is well-formed and all its numbers are finite, `KnotsU` is unchanged, the surface
moves by at most `4 ((1-u)^(-13) - 1) (wh/wl) B + 2 ^ -872`, and the control points that do not take part are copied.
Not proved: weights and coordinates near the limits of `double`, for which it is false (`C109_surface_underflow_refuted`). -/
theorem C109_insertKnotV_partial {p q m n : ℕ} (hp : 1 ≤ q) {s : Surface Double} (hfin : FinSurface s) (hw : WFSurface p q m n (exactSurface64 s))
    {wl wh B : ℚ} (hb : SurfaceBounds m n (exactSurface64 s) wl wh B) (hl : 1 / 2 ^ 100 ≤ wl) (hh : wh ≤ 2 ^ 100) (hB : B ≤ 2 ^ 400)
    {v : Double} (hv : IsFin v) (h0 : 0 < v.val) (h1 : v.val < 1) :
    ∃ s' k, s.InsertKnotV v = .ok s' ∧ FinSurface s' ∧ WFSurface p q m (n + 1) (exactSurface64 s') ∧
      s'.KnotsV.Values.Perm (v :: s.KnotsV.Values) ∧ s'.KnotsU = s.KnotsU ∧
      SurfacesWithin p q m n m (n + 1) (exactSurface64 s) (exactSurface64 s') (4 * errFactor binary53 13 * (wh / wl) * B + 1 / 2 ^ 872) ∧
      IsSpan (exactSurface64 s).KnotsV.Values v.val k ∧ (∀ i j, j < m → i + q ≤ k → cp s' j i = cp s j i) ∧
      ∀ i j, j < m → k ≤ i → i < n → cp s' j (i + 1) = cp s j i := by
  obtain ⟨ev, gv, _⟩ := isFin_eq hv
  obtain ⟨k, hk, _⟩ := exists_span hw.clampedV h0.le h1.le
  have D : InsDataV p q m n k s v.val wl wh B := ⟨hfin, hw, hk, gv, h0, h1, hb, hl, hh, hB⟩
  obtain ⟨_, _, hkn⟩ := insVD_bounds D
  refine ⟨insSurfVC q m n k v s, k, ?_, ?_, ?_, insL_perm _ _ _, rfl, ?_, hk, ?_, ?_⟩
  · have := insertKnotV_double D hp
    rwa [← ev] at this
  · have := insVD_finite D (by rwa [← ev])
    rwa [← ev] at this
  · have := insVD_wf D
    rwa [← ev] at this
  · have := insVD_within D
    rwa [← ev] at this
  · intro i j hj hi
    rw [cp_gridOf (s := insSurfVC q m n k v s) (f := fun i j => insPtC (kn s.KnotsV.Values) k v q (fun j => cp s i j) j) rfl hj (by omega), insPtC,
      if_pos hi]
  · intro i j hj hi hn
    rw [cp_gridOf (s := insSurfVC q m n k v s) (f := fun i j => insPtC (kn s.KnotsV.Values) k v q (fun j => cp s i j) j) rfl hj (by omega), insPtC,
      if_neg (by omega), if_neg (by omega), Nat.add_sub_cancel]

/-- C109 for a list of up to `2 ^ 40` knots in direction v. -/
theorem C109_insertKnotVList_partial {p q m n : ℕ} (hp : 1 ≤ q) (vs : List Double) (hv : ∀ v ∈ vs, IsFin v ∧ 0 < v.val ∧ v.val < 1)
    (hn : vs.length ≤ 2 ^ 40) {s : Surface Double} (hfin : FinSurface s) (hw : WFSurface p q m n (exactSurface64 s)) {wl wh B : ℚ}
    (hb : SurfaceBounds m n (exactSurface64 s) wl wh B) (hl : 1 / 2 ^ 99 ≤ wl) (hh : wh ≤ 2 ^ 99) (hB0 : 1 / 2 ^ 600 ≤ B) (hB : B ≤ 2 ^ 399) :
    ∃ s', s.InsertKnotVList vs = .ok s' ∧ FinSurface s' ∧ WFSurface p q m (n + vs.length) (exactSurface64 s') ∧
      s'.KnotsV.Values.Perm (vs ++ s.KnotsV.Values) ∧ s'.KnotsU = s.KnotsU ∧
      SurfacesWithin p q m n m (n + vs.length) (exactSurface64 s) (exactSurface64 s') (4 * errFactor binary53 (19 * vs.length) * (wh / wl) * B) := by
  obtain ⟨l1, l2, l3⟩ := list_limits hn hl hh hB
  exact insertListV_double hp vs hv hfin hw hb l1 l2 hB0 l3

/-- C109 for `InsertKnotV(value, times)`. -/
theorem C109_insertKnotVTimes_partial {p q m n : ℕ} (hp : 1 ≤ q) {v : Double} (hv : IsFin v) (h0 : 0 < v.val) (h1 : v.val < 1) {times : ℕ}
    (hn : times ≤ 2 ^ 40) {s : Surface Double} (hfin : FinSurface s) (hw : WFSurface p q m n (exactSurface64 s)) {wl wh B : ℚ}
    (hb : SurfaceBounds m n (exactSurface64 s) wl wh B) (hl : 1 / 2 ^ 99 ≤ wl) (hh : wh ≤ 2 ^ 99) (hB0 : 1 / 2 ^ 600 ≤ B) (hB : B ≤ 2 ^ 399) :
    ∃ s', s.InsertKnotVTimes v times = .ok s' ∧ FinSurface s' ∧ WFSurface p q m (n + times) (exactSurface64 s') ∧
      s'.KnotsV.Values.Perm (List.replicate times v ++ s.KnotsV.Values) ∧ s'.KnotsU = s.KnotsU ∧
      SurfacesWithin p q m n m (n + times) (exactSurface64 s) (exactSurface64 s') (4 * errFactor binary53 (19 * times) * (wh / wl) * B) := by
  have := C109_insertKnotVList_partial hp (List.replicate times v) (fun w hw' => by
    rw [List.eq_of_mem_replicate hw']; exact ⟨hv, h0, h1⟩) (by simpa using hn) hfin hw hb hl hh hB0 hB
  rw [List.length_replicate] at this
  unfold Surface.InsertKnotVTimes
  rw [vnew_of _ times _ rfl, bind_ok]
  exact this

/-- A bilinear patch whose weights are all equal, and as small as they can be. -/
def exFaintPatch64 : Surface Double :=
  ⟨1, 1, ⟨[0, 0, 1, 1]⟩, ⟨[0, 0, 1, 1]⟩, ⟨2, 2, [⟨0, 0, 0, tiny64⟩, ⟨1, 0, 0, tiny64⟩, ⟨0, 1, 0, tiny64⟩, ⟨1, 1, 0, tiny64⟩]⟩⟩

/-- C109 for surfaces is false without the bounds on the weights. -/
theorem C109_surface_underflow_refuted : FinSurface exFaintPatch64 ∧ WFSurface 1 1 2 2 (exactSurface64 exFaintPatch64) ∧
    exFaintPatch64.InsertKnotU half64 = .error .nonfinite ∧ exFaintPatch64.InsertKnotV half64 = .error .nonfinite := by
  refine ⟨⟨?_, ?_, ?_⟩, ⟨rfl, rfl, ?_, ?_, rfl, rfl, by decide +kernel, by decide +kernel, by decide +kernel, by decide +kernel⟩,
    by decide +kernel, by decide +kernel⟩
  · intro d hd
    simp only [exFaintPatch64, List.mem_cons, List.not_mem_nil, or_false] at hd
    rcases hd with rfl | rfl | rfl | rfl <;> first | exact isFin_0 | exact isFin_1
  · intro d hd
    simp only [exFaintPatch64, List.mem_cons, List.not_mem_nil, or_false] at hd
    rcases hd with rfl | rfl | rfl | rfl <;> first | exact isFin_0 | exact isFin_1
  · intro P hP
    simp only [exFaintPatch64, List.mem_cons, List.not_mem_nil, or_false] at hP
    have ht : IsFin tiny64 := isFin_of (by decide +kernel) (by decide +kernel)
    rcases hP with rfl | rfl | rfl | rfl <;> refine ⟨?_, ?_, ?_, ?_⟩ <;> first | exact isFin_0 | exact isFin_1 | exact ht
  · exact ⟨by decide +kernel, by decide +kernel, by decide +kernel, by decide +kernel, by decide +kernel, by decide +kernel⟩
  · exact ⟨by decide +kernel, by decide +kernel, by decide +kernel, by decide +kernel, by decide +kernel, by decide +kernel⟩

theorem exPatch64_fin : FinSurface exPatch64 := by
  refine ⟨?_, ?_, ?_⟩
  · intro d hd
    simp only [exPatch64, List.mem_cons, List.not_mem_nil, or_false] at hd
    rcases hd with rfl | rfl | rfl | rfl | rfl <;> first | exact isFin_0 | exact isFin_1 | exact isFin_third
  · intro d hd
    simp only [exPatch64, List.mem_cons, List.not_mem_nil, or_false] at hd
    rcases hd with rfl | rfl | rfl | rfl | rfl | rfl <;> first | exact isFin_0 | exact isFin_1
  · intro P hP
    simp only [exPatch64, List.mem_cons, List.not_mem_nil, or_false] at hP
    rcases hP with rfl | rfl | rfl | rfl | rfl | rfl | rfl | rfl | rfl <;> refine ⟨?_, ?_, ?_, ?_⟩ <;>
      first | exact isFin_0 | exact isFin_1 | exact isFin_tenth | exact isFin_third

theorem exPatch64_wf : WFSurface 1 2 3 3 (exactSurface64 exPatch64) := by
  refine ⟨rfl, rfl, ?_, ?_, rfl, rfl, by decide +kernel, by decide +kernel, by decide +kernel, by decide +kernel⟩
  · exact ⟨by decide +kernel, by decide +kernel, by decide +kernel, by decide +kernel, by decide +kernel, by decide +kernel⟩
  · exact ⟨by decide +kernel, by decide +kernel, by decide +kernel, by decide +kernel, by decide +kernel, by decide +kernel⟩

theorem exPatch64_bounds : SurfaceBounds 3 3 (exactSurface64 exPatch64) (1/16) 1 1 := by
  unfold SurfaceBounds; decide +kernel

/-- The hypotheses hold for the patch of C103 with weights from `1/16` to `1` and `B = 1`. -/
example : ∃ s', exPatch64.InsertKnotU (Double.ofExact (1/10)) = .ok s' ∧ FinSurface s' := by
  obtain ⟨s', _, e, f, _⟩ := C109_insertKnotU_partial (by norm_num) exPatch64_fin exPatch64_wf exPatch64_bounds (by norm_num) (by norm_num)
    (by norm_num) isFin_tenth (by decide +kernel) (by decide +kernel)
  exact ⟨s', e, f⟩
example : ∃ s', exPatch64.InsertKnotV (Double.ofExact (1/10)) = .ok s' ∧ FinSurface s' := by
  obtain ⟨s', _, e, f, _⟩ := C109_insertKnotV_partial (by norm_num) exPatch64_fin exPatch64_wf exPatch64_bounds (by norm_num) (by norm_num)
    (by norm_num) isFin_tenth (by decide +kernel) (by decide +kernel)
  exact ⟨s', e, f⟩
example : ∃ s', exPatch64.InsertKnotUTimes (Double.ofExact (1/10)) (2 : ℕ) = .ok s' ∧ FinSurface s' := by
  obtain ⟨s', e, f, _⟩ := C109_insertKnotUTimes_partial (by norm_num) isFin_tenth (by decide +kernel) (by decide +kernel) (times := 2)
    (by norm_num) exPatch64_fin exPatch64_wf exPatch64_bounds (by norm_num) (by norm_num) (by norm_num) (by norm_num)
  exact ⟨s', e, f⟩
example : ∃ s', exPatch64.InsertKnotVTimes (Double.ofExact (1/10)) (2 : ℕ) = .ok s' ∧ FinSurface s' := by
  obtain ⟨s', e, f, _⟩ := C109_insertKnotVTimes_partial (by norm_num) isFin_tenth (by decide +kernel) (by decide +kernel) (times := 2)
    (by norm_num) exPatch64_fin exPatch64_wf exPatch64_bounds (by norm_num) (by norm_num) (by norm_num) (by norm_num)
  exact ⟨s', e, f⟩

end Nurbs.Props
