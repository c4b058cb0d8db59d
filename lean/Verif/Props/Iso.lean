import Verif.Proof.Iso

/-! # C101: the curves on a surface with one parameter fixed -/

set_option linter.unusedSectionVars false

namespace Nurbs.Props
open Nurbs Nurbs.Spec

variable {K : Type} [Field K] [LinearOrder K] [IsStrictOrderedRing K] {p q m n : ℕ} {s : Surface K}

/-- C101 (points and derivatives).  With `v` fixed a surface is a NURBS curve in `u` (`isoCurve`): the class `Curve` computes its points,
and its derivatives are the partial derivatives in `u`.  The same with `u` fixed (the curve of the exchanged surface). -/
theorem C101_iso (hw : WFSurface p q m n s) {u v : K} (hu0 : 0 ≤ u) (hu1 : u ≤ 1) (hv0 : 0 ≤ v) (hv1 : v ≤ 1) :
    WFCurve p (isoCurve q m n s v) ∧ (isoCurve q m n s v).Evaluate u = s.Evaluate u v ∧
    (∀ a : ℕ, a ≤ 29 → ∃ D, (isoCurve q m n s v).EvaluateDerivative u a = .ok D ∧ s.EvaluateDerivative u v a 0 = .ok D) ∧
    WFCurve q (isoCurve p n m (transposed s) u) ∧ (isoCurve p n m (transposed s) u).Evaluate v = s.Evaluate u v ∧
    ∀ a : ℕ, a ≤ 29 → ∃ D, (isoCurve p n m (transposed s) u).EvaluateDerivative v a = .ok D ∧ s.EvaluateDerivative u v 0 a = .ok D := by
  have hw' := transposed_wf hw
  refine ⟨iso_wf hw hv0 hv1, iso_evaluate hw hv0 hv1 hu0 hu1, fun a ha => ?_, iso_wf hw' hu0 hu1, ?_, fun a ha => ?_⟩
  · obtain ⟨D, e, e'⟩ := iso_derivative hw hu0 hu1 hv0 hv1 a ha
    exact ⟨D, e', e⟩
  · rw [iso_evaluate hw' hu0 hu1 hv0 hv1, C100_evaluate hw]
  · obtain ⟨D, e, e'⟩ := iso_derivative hw' hv0 hv1 hu0 hu1 a ha
    have h := (C100_derivative hw hu0 hu1 hv0 hv1 0 a).1
    rw [Nat.cast_zero] at h
    exact ⟨D, e', by rw [← h, e]⟩

/-- C101 (insertion).  Inserting a knot into the surface along the curve inserts it into the curve; inserting one across the curve leaves
the curve as it is, control points and weights included. -/
theorem C101_insert (hw : WFSurface p q m n s) (hp : 1 ≤ p) (hq : 1 ≤ q) {v : K} (hv0 : 0 ≤ v) (hv1 : v ≤ 1) {x : K} (h0 : 0 < x) (h1 : x < 1) :
    (∃ s', s.InsertKnotU x = .ok s' ∧ (isoCurve q m n s v).InsertKnot x = .ok (isoCurve q (m + 1) n s' v)) ∧
    ∃ s', s.InsertKnotV x = .ok s' ∧ isoCurve q m (n + 1) s' v = isoCurve q m n s v := by
  constructor
  · obtain ⟨k, hk, _, _⟩ := exists_span hw.clampedU h0.le h1.le
    refine ⟨_, insertKnotU_ok hw hk h0 h1 hp, ?_⟩
    rw [iso_insSurfU hw hv0 hv1 h0 h1 hk, insertKnot_ok (iso_wf hw hv0 hv1) (k := k) hk h0 h1 hp]
  · obtain ⟨k, hk, _, _⟩ := exists_span hw.clampedV h0.le h1.le
    exact ⟨_, insertKnotV_ok hw hk h0 h1 hq, iso_insSurfV hw hv0 hv1 h0 h1 hk⟩

theorem pt_iso_flat (hw : WFSurface p q m n s) {W : K} (he : ∀ i < m, ∀ j < n, (cp s i j).w = W) {v : K} (hv0 : 0 ≤ v) (hv1 : v ≤ 1)
    {kv : ℕ} (hkv : IsSpan s.KnotsV.Values v kv) {i : ℕ} (hi : i < m) :
    pt (isoCurve q m n s v).ControlPoints i = ⟨seg (kn s.KnotsV.Values) kv v q fun j => (cp s i j).x,
      seg (kn s.KnotsV.Values) kv v q fun j => (cp s i j).y, seg (kn s.KnotsV.Values) kv v q fun j => (cp s i j).z, W⟩ := by
  have hwc := colCurve_wf hw hi
  have hl : (colCurve n s i).ControlPoints.length = n := by simp [colCurve]
  obtain ⟨hpk, hlk, hr, _, _⟩ := evaluate_seg hwc hv0 hv1 (k := kv) hkv
  have hct := hwc.count
  have hec : ∀ j < (colCurve n s i).ControlPoints.length, (pt (colCurve n s i).ControlPoints j).w = W := by
    intro j hj
    rw [hl] at hj
    rw [pt_colCurve hj]
    exact he i hi j hj
  have e1 := evaluate_flat hwc hec hv0 hv1 (k := kv) hkv
  rw [(C23_evaluate hwc hv0 hv1).1] at e1
  injection e1 with e1
  have key : ∀ f : Vec4 K → K, (seg (kn (colCurve n s i).Knots.Values) kv v q fun j => f (pt (colCurve n s i).ControlPoints j)) =
      seg (kn s.KnotsV.Values) kv v q fun j => f (cp s i j) :=
    fun f => seg_congr hpk fun j _ hj => by rw [pt_colCurve (by omega)]
  have hW : (wsum q (colCurve n s i) v fun _ => 1) = W := by
    have h2 := (pt_iso_seg hw hv0 hv1 hkv hi).1
    rw [pt_iso hi] at h2
    have h3 := congrArg Vec4.w h2
    simp only [unhomo_w] at h3
    rw [h3]
    have h4 : (seg (kn s.KnotsV.Values) kv v q fun j => hcp s i j).w = seg (kn s.KnotsV.Values) kv v q fun j => (cp s i j).w := by
      show Vec4.lw (seg (kn s.KnotsV.Values) kv v q fun j => hcp s i j) = _
      rw [seg_map]; rfl
    rw [h4, ← seg_const (kn s.KnotsV.Values) kv v q hpk hr W]
    exact seg_congr hpk fun j _ hj => he i hi j (by omega)
  rw [pt_iso hi, e1, hW]
  simp only
  rw [key (·.x), key (·.y), key (·.z)]

/-- C101 (chords).  On a surface with equal weights and without interior knots of multiplicity above `p` in the direction of `u`, a
half-space through the vectors `p (P_{i+1,j} - P_{i,j}) / (U[i+p+1] - U[i+1])` bounds all chords along `u`. -/
theorem C101_chord {p : ℕ} (hw : WFSurface (p + 1) q m n s) {W : K} (he : ∀ i < m, ∀ j < n, (cp s i j).w = W)
    (hmult : ∀ x, ¬ JumpAt (p + 1) s.KnotsU.Values x) {a : Vec3 K} {b : K}
    (hb : ∀ i, i + 1 < m → ∀ j < n, ((p + 1 : ℕ) : K) / (kn s.KnotsU.Values (i + (p + 1) + 1) - kn s.KnotsU.Values (i + 1)) *
      (form a (cp s (i + 1) j).x (cp s (i + 1) j).y (cp s (i + 1) j).z - form a (cp s i j).x (cp s i j).y (cp s i j).z) ≤ b)
    {x y v : K} (h0 : 0 ≤ x) (hxy : x ≤ y) (h1 : y ≤ 1) (hv0 : 0 ≤ v) (hv1 : v ≤ 1) :
    ∃ C D, s.Evaluate x v = .ok C ∧ s.Evaluate y v = .ok D ∧ form a D.x D.y D.z - form a C.x C.y C.z ≤ b * (y - x) := by
  obtain ⟨kv, hkv, hqk, hlk⟩ := exists_span hw.clampedV hv0 hv1
  have hwi := iso_wf hw hv0 hv1
  have hlen := iso_length q m n s v
  have hkn := hw.knotsV
  have hh : ∀ i < (hodograph (p + 1) (isoCurve q m n s v)).ControlPoints.length,
      form a (pt (hodograph (p + 1) (isoCurve q m n s v)).ControlPoints i).x (pt (hodograph (p + 1) (isoCurve q m n s v)).ControlPoints i).y
        (pt (hodograph (p + 1) (isoCurve q m n s v)).ControlPoints i).z ≤ b := by
    intro i hi
    have hi' : i < m - 1 := by simpa [hodograph, hlen] using hi
    rw [pt_hodograph (by rw [hlen]; exact hi'), pt_iso_flat hw he hv0 hv1 hkv (by omega), pt_iso_flat hw he hv0 hv1 hkv (by omega)]
    simp only
    have e3 : form a
        (((p + 1 : ℕ) : K) / (kn s.KnotsU.Values (i + (p + 1) + 1) - kn s.KnotsU.Values (i + 1)) *
          ((seg (kn s.KnotsV.Values) kv v q fun j => (cp s (i + 1) j).x) - seg (kn s.KnotsV.Values) kv v q fun j => (cp s i j).x))
        (((p + 1 : ℕ) : K) / (kn s.KnotsU.Values (i + (p + 1) + 1) - kn s.KnotsU.Values (i + 1)) *
          ((seg (kn s.KnotsV.Values) kv v q fun j => (cp s (i + 1) j).y) - seg (kn s.KnotsV.Values) kv v q fun j => (cp s i j).y))
        (((p + 1 : ℕ) : K) / (kn s.KnotsU.Values (i + (p + 1) + 1) - kn s.KnotsU.Values (i + 1)) *
          ((seg (kn s.KnotsV.Values) kv v q fun j => (cp s (i + 1) j).z) - seg (kn s.KnotsV.Values) kv v q fun j => (cp s i j).z)) =
        seg (kn s.KnotsV.Values) kv v q fun j => ((p + 1 : ℕ) : K) / (kn s.KnotsU.Values (i + (p + 1) + 1) - kn s.KnotsU.Values (i + 1)) *
          (form a (cp s (i + 1) j).x (cp s (i + 1) j).y (cp s (i + 1) j).z - form a (cp s i j).x (cp s i j).y (cp s i j).z) := by
      unfold form seg
      simp only [← Finset.sum_sub_distrib, Finset.mul_sum, ← Finset.sum_add_distrib, smul_eq_mul]
      refine Finset.sum_congr rfl fun j _ => ?_
      ring
    refine (le_of_eq e3).trans ?_
    rw [seg_eq_blos _ _ _ _ _ hqk]
    refine blos_le _ _ (by simpa using hqk) ?_ ?_ (IsSpan.lt hkv) ?_
    · intro i j h1 h2
      simp only [List.length_replicate] at h2
      exact kn_mono hw.clampedV.sorted h1 (by omega)
    · intro t ht
      rw [List.eq_of_mem_replicate ht]
      exact ⟨hkv.2.1, IsSpan.le_right hkv⟩
    · intro j _ hj
      exact hb i (by omega) j (by omega)
  obtain ⟨C, D, e1, e2, h⟩ := C99_chord hwi (W := W) (fun i hi => by rw [hlen] at hi; rw [pt_iso_flat hw he hv0 hv1 hkv hi]) hmult
    hh h0 hxy h1
  refine ⟨C, D, ?_, ?_, h⟩
  · rw [← iso_evaluate hw hv0 hv1 h0 (hxy.trans h1), e1]
  · rw [← iso_evaluate hw hv0 hv1 (h0.trans hxy) h1, e2]

/-! ### A concrete surface -/

example : isoCurve 1 4 3 exSurface (1/4) = ⟨2, ⟨[0, 0, 0, 1/3, 1, 1, 1]⟩, [⟨0, 2/3, 2/3, 3/2⟩, ⟨1, 2/3, 2/3, 3/4⟩, ⟨2, 1/2, 3/4, 2⟩, ⟨7/2, 1/2, 5/2, 1⟩]⟩ := by
  decide +kernel
example : (isoCurve 1 4 3 exSurface (1/4)).Evaluate (1/5) = exSurface.Evaluate (1/5) (1/4) ∧
    (exSurface.Evaluate (1/5) (1/4)).isOk = true := by decide +kernel
example : (isoCurve 1 4 3 exSurface (1/4)).EvaluateDerivative (1/5) 2 = exSurface.EvaluateDerivative (1/5) (1/4) 2 0 := by decide +kernel
example : (isoCurve 2 3 4 (transposed exSurface) (1/5)).EvaluateDerivative (1/4) 1 = exSurface.EvaluateDerivative (1/5) (1/4) 0 1 ∧
    exSurface.EvaluateDerivative (1/5) (1/4) 0 1 ≠ .ok 0 := by decide +kernel

/-- A surface with equal weights: `C101_chord` holds with `a = (1, 0, 0)` and `b = 6`. -/
def exIso : Surface ℚ :=
  ⟨2, 1, ⟨[0, 0, 0, 1/3, 1, 1, 1]⟩, ⟨[0, 0, 1/2, 1, 1]⟩,
    ⟨4, 3, [⟨0, 0, 0, 2⟩, ⟨1, 0, 2, 2⟩, ⟨2, 0, 1, 2⟩, ⟨3, 0, 0, 2⟩, ⟨0, 1, 1, 2⟩, ⟨1, 1, 0, 2⟩, ⟨2, 2, 0, 2⟩, ⟨4, 1, 5, 2⟩,
      ⟨0, 2, 0, 2⟩, ⟨1, 3, 1, 2⟩, ⟨2, 2, 0, 2⟩, ⟨3, 3, 3, 2⟩]⟩⟩
theorem exIso_wf : WFSurface (1 + 1) 1 4 3 exIso :=
  ⟨rfl, rfl, ⟨by decide +kernel, by decide +kernel, by decide +kernel, by decide +kernel, by decide +kernel,
    by decide +kernel⟩, ⟨by decide +kernel, by decide +kernel, by decide +kernel, by decide +kernel, by decide +kernel,
    by decide +kernel⟩, rfl, rfl, rfl, rfl, rfl, by decide +kernel⟩
example : ∃ C D, exIso.Evaluate (1/5) (1/4) = .ok C ∧ exIso.Evaluate (4/5) (1/4) = .ok D ∧
    form ⟨1, 0, 0⟩ D.x D.y D.z - form ⟨1, 0, 0⟩ C.x C.y C.z ≤ 6 * (4/5 - 1/5) := by
  refine C101_chord (W := 2) exIso_wf (by decide +kernel) ?_ ?_ (by norm_num) (by norm_num) (by norm_num) (by norm_num) (by norm_num)
  · rintro x ⟨h1, h2, i, hi, e1, e2⟩
    subst e1
    revert h1 h2 e2
    have hi' : i < 5 := by
      have : exIso.KnotsU.Values.length = 7 := rfl
      omega
    interval_cases i <;> decide +kernel
  · intro i hi
    have : i < 3 := by omega
    interval_cases i <;> decide +kernel
example : exIso.Evaluate (1/5) (1/4) = .ok ⟨24/25, 14/25, 43/50⟩ ∧ exIso.Evaluate (4/5) (1/4) = .ok ⟨107/40, 29/40, 151/100⟩ := by decide +kernel

end Nurbs.Props
