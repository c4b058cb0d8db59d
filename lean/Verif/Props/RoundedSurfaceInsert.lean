import Verif.Proof.RoundedSurfaceInsert
import Verif.Props.RoundedInsert

/-! # C75: surface knot insertion with numbers that round -/

set_option linter.unusedSectionVars false

namespace Nurbs.Props
open Nurbs Nurbs.Spec

variable {K : Type} [Field K] [LinearOrder K] [IsStrictOrderedRing K] {R : Rounding K}

/-- C75, direction u.  With rounding, `Surface::InsertKnotU(value)` never divides by zero on a well-formed surface with
`DegreeU` at least one and a value in `(0,1)`: it returns a well-formed surface with one more row, whose `KnotsU` are the
old ones and the new one and whose `KnotsV` are unchanged, and the surface moves by at most
`4 ((1-u)^-11 - 1) (hi/lo) B`, where the weights lie in `[lo, hi]` and the coordinates in `[-B, B]`. -/
theorem C75_insertKnotU_rounding {p q m n : ℕ} (hp : 1 ≤ p) {s : Surface (Fl R)} (hw : WFSurface p q m n (exactSurface s))
    {v : Fl R} (h0 : 0 < v) (h1 : v < 1) :
    ∃ s', s.InsertKnotU v = .ok s' ∧ WFSurface p q (m + 1) n (exactSurface s') ∧
      s'.KnotsU.Values.Perm (v :: s.KnotsU.Values) ∧ s'.KnotsV = s.KnotsV ∧
      ∀ lo hi B : K, 0 < lo → SurfaceBounds m n (exactSurface s) lo hi B →
        SurfacesWithin p q m n (m + 1) n (exactSurface s) (exactSurface s') (4 * errFactor R 11 * (hi / lo) * B) := by
  rw [Fl.lt_def, Fl.val_zero] at h0
  rw [Fl.lt_def, Fl.val_one] at h1
  obtain ⟨k, hk, _⟩ := exists_span hw.clampedU h0.le h1.le
  exact ⟨insSurfUC p m n k v s, insertKnotU_rounded hw hk h0 h1 hp, insUC_wf hw hk h0 h1, insL_perm _ _ _, rfl,
    fun lo hi B hlo hb => insUC_within hw hk h0 h1 hlo hb⟩

/-- C75, direction v. -/
theorem C75_insertKnotV_rounding {p q m n : ℕ} (hq : 1 ≤ q) {s : Surface (Fl R)} (hw : WFSurface p q m n (exactSurface s))
    {v : Fl R} (h0 : 0 < v) (h1 : v < 1) :
    ∃ s', s.InsertKnotV v = .ok s' ∧ WFSurface p q m (n + 1) (exactSurface s') ∧
      s'.KnotsV.Values.Perm (v :: s.KnotsV.Values) ∧ s'.KnotsU = s.KnotsU ∧
      ∀ lo hi B : K, 0 < lo → SurfaceBounds m n (exactSurface s) lo hi B →
        SurfacesWithin p q m n m (n + 1) (exactSurface s) (exactSurface s') (4 * errFactor R 11 * (hi / lo) * B) := by
  rw [Fl.lt_def, Fl.val_zero] at h0
  rw [Fl.lt_def, Fl.val_one] at h1
  obtain ⟨k, hk, _⟩ := exists_span hw.clampedV h0.le h1.le
  exact ⟨insSurfVC q m n k v s, insertKnotV_rounded hw hk h0 h1 hq, insVC_wf hw hk h0 h1, insL_perm _ _ _, rfl,
    fun lo hi B hlo hb => insVC_within hw hk h0 h1 hlo hb⟩

/-- C75 for a list of u knots: `t` insertions move the surface by at most `4 ((1-u)^(-14t) - 1) (hi/lo) B`. -/
theorem C75_insertKnotUList_rounding {p q m n : ℕ} (hp : 1 ≤ p) (vs : List (Fl R)) (hv : ∀ v ∈ vs, 0 < v ∧ v < 1)
    {s : Surface (Fl R)} (hw : WFSurface p q m n (exactSurface s)) {lo hi B : K} (hlo : 0 < lo)
    (hb : SurfaceBounds m n (exactSurface s) lo hi B) :
    ∃ s', s.InsertKnotUList vs = .ok s' ∧ WFSurface p q (m + vs.length) n (exactSurface s') ∧
      s'.KnotsU.Values.Perm (vs ++ s.KnotsU.Values) ∧ s'.KnotsV = s.KnotsV ∧
      SurfacesWithin p q m n (m + vs.length) n (exactSurface s) (exactSurface s')
        (4 * errFactor R (14 * vs.length) * (hi / lo) * B) :=
  insertListU_rounded hp vs (fun v h => by
    have := hv v h
    rwa [Fl.lt_def, Fl.lt_def, Fl.val_zero, Fl.val_one] at this) hw hlo hb

/-- C75 for a list of v knots. -/
theorem C75_insertKnotVList_rounding {p q m n : ℕ} (hq : 1 ≤ q) (vs : List (Fl R)) (hv : ∀ v ∈ vs, 0 < v ∧ v < 1)
    {s : Surface (Fl R)} (hw : WFSurface p q m n (exactSurface s)) {lo hi B : K} (hlo : 0 < lo)
    (hb : SurfaceBounds m n (exactSurface s) lo hi B) :
    ∃ s', s.InsertKnotVList vs = .ok s' ∧ WFSurface p q m (n + vs.length) (exactSurface s') ∧
      s'.KnotsV.Values.Perm (vs ++ s.KnotsV.Values) ∧ s'.KnotsU = s.KnotsU ∧
      SurfacesWithin p q m n m (n + vs.length) (exactSurface s) (exactSurface s')
        (4 * errFactor R (14 * vs.length) * (hi / lo) * B) :=
  insertListV_rounded hq vs (fun v h => by
    have := hv v h
    rwa [Fl.lt_def, Fl.lt_def, Fl.val_zero, Fl.val_one] at this) hw hlo hb

/-- C75 for `InsertKnotU(value, times)`. -/
theorem C75_insertKnotUTimes_rounding {p q m n : ℕ} (hp : 1 ≤ p) {v : Fl R} (h0 : 0 < v) (h1 : v < 1) (times : ℕ)
    {s : Surface (Fl R)} (hw : WFSurface p q m n (exactSurface s)) {lo hi B : K} (hlo : 0 < lo)
    (hb : SurfaceBounds m n (exactSurface s) lo hi B) :
    ∃ s', s.InsertKnotUTimes v times = .ok s' ∧ WFSurface p q (m + times) n (exactSurface s') ∧
      s'.KnotsU.Values.Perm (List.replicate times v ++ s.KnotsU.Values) ∧ s'.KnotsV = s.KnotsV ∧
      SurfacesWithin p q m n (m + times) n (exactSurface s) (exactSurface s') (4 * errFactor R (14 * times) * (hi / lo) * B) := by
  have := C75_insertKnotUList_rounding hp (List.replicate times v) (fun w hw => by
    rw [List.eq_of_mem_replicate hw]; exact ⟨h0, h1⟩) hw hlo hb
  rw [List.length_replicate] at this
  unfold Surface.InsertKnotUTimes
  rw [vnew_of _ times _ rfl, bind_ok]
  exact this

/-- C75 for `InsertKnotV(value, times)`. -/
theorem C75_insertKnotVTimes_rounding {p q m n : ℕ} (hq : 1 ≤ q) {v : Fl R} (h0 : 0 < v) (h1 : v < 1) (times : ℕ)
    {s : Surface (Fl R)} (hw : WFSurface p q m n (exactSurface s)) {lo hi B : K} (hlo : 0 < lo)
    (hb : SurfaceBounds m n (exactSurface s) lo hi B) :
    ∃ s', s.InsertKnotVTimes v times = .ok s' ∧ WFSurface p q m (n + times) (exactSurface s') ∧
      s'.KnotsV.Values.Perm (List.replicate times v ++ s.KnotsV.Values) ∧ s'.KnotsU = s.KnotsU ∧
      SurfacesWithin p q m n m (n + times) (exactSurface s) (exactSurface s') (4 * errFactor R (14 * times) * (hi / lo) * B) := by
  have := C75_insertKnotVList_rounding hq (List.replicate times v) (fun w hw => by
    rw [List.eq_of_mem_replicate hw]; exact ⟨h0, h1⟩) hw hlo hb
  rw [List.length_replicate] at this
  unfold Surface.InsertKnotVTimes
  rw [vnew_of _ times _ rfl, bind_ok]
  exact this

/-- C75 for `double` and equal weights: one inserted knot moves the surface by less than `4.9e-15` times the largest
coordinate. -/
theorem C75_double {p q m n : ℕ} (hp : 1 ≤ p) {s : Surface (Fl binary53)} (hw : WFSurface p q m n (exactSurface s))
    {v : Fl binary53} (h0 : 0 < v) (h1 : v < 1) {w B : ℚ} (hlo : 0 < w) (hb : SurfaceBounds m n (exactSurface s) w w B) :
    ∃ s', s.InsertKnotU v = .ok s' ∧ SurfacesWithin p q m n (m + 1) n (exactSurface s) (exactSurface s') (49 / 10 ^ 16 * B) := by
  obtain ⟨s', e, _, _, _, h⟩ := C75_insertKnotU_rounding hp hw h0 h1
  refine ⟨s', e, fun x y hx0 hx1 hy0 hy1 => ?_⟩
  have hm : 0 < m := by
    have := hw.knotsU
    have := hw.clampedU.len
    omega
  have hn : 0 < n := by
    have := hw.knotsV
    have := hw.clampedV.len
    omega
  have hB : 0 ≤ B := le_trans (abs_nonneg _) (hb 0 hm 0 hn).2.2.1
  have hf : errFactor binary53 11 ≤ 1225 / 10 ^ 18 := by
    refine le_trans (errFactor_le binary53 _ ?_) ?_ <;> · simp only [binary53]; norm_num
  have hle : 4 * errFactor binary53 11 * (w / w) * B ≤ 49 / 10 ^ 16 * B := by
    rw [div_self hlo.ne', mul_one]
    refine mul_le_mul_of_nonneg_right ?_ hB
    linarith
  obtain ⟨a, b, d⟩ := h w w B hlo hb x y hx0 hx1 hy0 hy1
  exact ⟨a.trans hle, b.trans hle, d.trans hle⟩

example : SurfaceBounds 2 2 (exactSurface patch) (1/11) 1 3 := by unfold SurfaceBounds; decide +kernel
/-- The insertion really rounds: the new points are not those of exact arithmetic. -/
example : (patch.InsertKnotU (dbl (2/5))).map exactSurface ≠ (exactSurface patch).InsertKnotU (dbl (2/5)).val := by decide +kernel
example : (patch.InsertKnotV (dbl (2/5))).map exactSurface ≠ (exactSurface patch).InsertKnotV (dbl (2/5)).val := by decide +kernel
example : ((patch.InsertKnotUTimes (dbl (2/5)) 2).map fun s => s.ControlPoints.Values.length) = .ok 8 := by decide +kernel

end Nurbs.Props
