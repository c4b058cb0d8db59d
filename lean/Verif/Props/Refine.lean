import Verif.Proof.Refine
import Verif.Props.Hodograph
import Verif.Props.Insert

/-! # C104: refining the knots draws the control points to the curve -/

set_option linter.unusedSectionVars false

namespace Nurbs.Props
open Nurbs Nurbs.Spec

variable {K : Type} [Field K] [LinearOrder K] [IsStrictOrderedRing K]

theorem refine_diff {q : ℕ} {c : Curve K} (hw : WFCurve (q + 1) c) {W : K} (he : ∀ i < c.ControlPoints.length, (pt c.ControlPoints i).w = W) {a : Vec3 K} {b : K}
    (hb : ∀ i < (hodograph (q + 1) c).ControlPoints.length, form a (pt (hodograph (q + 1) c).ControlPoints i).x
      (pt (hodograph (q + 1) c).ControlPoints i).y (pt (hodograph (q + 1) c).ControlPoints i).z ≤ b)
    {vs : List K} (hv : ∀ v ∈ vs, 0 < v ∧ v < 1) {c' : Curve K} (e : c.InsertKnotList vs = .ok c') :
    DiffLe (q + 1) c'.Knots.Values c'.ControlPoints.length
      (fun i => form a (pt c'.ControlPoints i).x (pt c'.ControlPoints i).y (pt c'.ControlPoints i).z) b := by
  have hct := hw.count
  have hW : 0 < W := by
    rw [← he 0 (by have := hw.clamped.len; omega)]
    exact hw.weights 0 (by have := hw.clamped.len; omega)
  have base : DiffLe (q + 1) c.Knots.Values c.ControlPoints.length (fun i => dirForm a (hpts c.ControlPoints i)) (W * b) := by
    intro i h1 h2 hlt
    have hd := sub_pos.2 hlt
    have h := hb (i - 1) (by simp only [hodograph, List.length_map, List.length_range]; omega)
    rw [pt_hodograph (by omega), show i - 1 + 1 = i by omega, show i - 1 + (q + 1) + 1 = i + (q + 1) by omega] at h
    have h' := mul_le_mul_of_nonneg_right h (mul_nonneg hW.le hd.le)
    beta_reduce
    rw [dirForm_hpts, dirForm_hpts, he i h2, he (i - 1) (by omega)]
    calc _ = _ := ?_
      _ ≤ _ := h'
      _ = _ := by ring
    unfold form
    field_simp
    ring
  have h := insertList_diff (by omega) vs hv hw e (dirForm a) base
  have hf := insertList_flat vs hv hw e he
  intro i h1 h2 hlt
  have := h i h1 h2 hlt
  beta_reduce at this ⊢
  rw [dirForm_hpts, dirForm_hpts, hf i h2, hf (i - 1) (by omega)] at this
  refine le_of_mul_le_mul_left ?_ hW
  calc _ = _ := ?_
    _ ≤ _ := this
    _ = _ := by ring
  ring

/-- C104 (velocities).  A half-space that contains the velocities' control points of a curve with equal weights contains those of every
refinement of its knots (those that belong to knots `p` apart that differ; the others are on no span). -/
theorem C104_velocity {q : ℕ} {c : Curve K} (hw : WFCurve (q + 1) c) {W : K} (he : ∀ i < c.ControlPoints.length, (pt c.ControlPoints i).w = W) {a : Vec3 K} {b : K}
    (hb : ∀ i < (hodograph (q + 1) c).ControlPoints.length, form a (pt (hodograph (q + 1) c).ControlPoints i).x
      (pt (hodograph (q + 1) c).ControlPoints i).y (pt (hodograph (q + 1) c).ControlPoints i).z ≤ b)
    {vs : List K} (hv : ∀ v ∈ vs, 0 < v ∧ v < 1) :
    ∃ c', c.InsertKnotList vs = .ok c' ∧
      ∀ i < (hodograph (q + 1) c').ControlPoints.length, kn c'.Knots.Values (i + 1) < kn c'.Knots.Values (i + (q + 1) + 1) → form a (pt (hodograph (q + 1) c').ControlPoints i).x
        (pt (hodograph (q + 1) c').ControlPoints i).y (pt (hodograph (q + 1) c').ControlPoints i).z ≤ b := by
  obtain ⟨c', e, hw', _⟩ := insertList_spec vs hv hw
  refine ⟨c', e, fun i hi hlt => ?_⟩
  have hct := hw'.count
  have hi' : i < c'.ControlPoints.length - 1 := by simpa [hodograph] using hi
  have hd := sub_pos.2 hlt
  have h := refine_diff hw he hb hv e (i + 1) (by omega) (by omega) (by rwa [show i + 1 + (q + 1) = i + (q + 1) + 1 by omega])
  rw [pt_hodograph hi']
  rw [show i + 1 + (q + 1) = i + (q + 1) + 1 by omega] at h
  rw [← div_le_iff₀ hd] at h
  refine le_trans (le_of_eq ?_) h
  simp only [form, Nat.add_sub_cancel]
  ring

/-- C104 (distance).  Let all velocities' control points `Q` of a curve with equal weights have `|a·Q| ≤ b`.  After any refinement of the
knots, the point at `x` differs along `a` from each control point of its span by at most `b` times the distance between the `p` th knot
before and after the span. -/
theorem C104_distance {q : ℕ} {c : Curve K} (hw : WFCurve (q + 1) c) {W : K} (he : ∀ i < c.ControlPoints.length, (pt c.ControlPoints i).w = W) {a : Vec3 K} {b : K}
    (hb : ∀ i < (hodograph (q + 1) c).ControlPoints.length, |form a (pt (hodograph (q + 1) c).ControlPoints i).x
      (pt (hodograph (q + 1) c).ControlPoints i).y (pt (hodograph (q + 1) c).ControlPoints i).z| ≤ b)
    {vs : List K} (hv : ∀ v ∈ vs, 0 < v ∧ v < 1) :
    ∃ c', c.InsertKnotList vs = .ok c' ∧ ∀ x, 0 ≤ x → x ≤ 1 → ∃ k C, IsSpan c'.Knots.Values x k ∧ q + 1 ≤ k ∧ k < c'.ControlPoints.length ∧
      c.Evaluate x = .ok C ∧ ∀ i, k - (q + 1) ≤ i → i ≤ k →
        |form a C.x C.y C.z - form a (pt c'.ControlPoints i).x (pt c'.ControlPoints i).y (pt c'.ControlPoints i).z| ≤
          b * (kn c'.Knots.Values (k + (q + 1)) - kn c'.Knots.Values (k - q)) := by
  obtain ⟨c', e, hw', _, hsp⟩ := insertList_spec vs hv hw
  refine ⟨c', e, fun x h0 h1 => ?_⟩
  obtain ⟨k, C, hk, hpk, hkl, eC, hull⟩ := C25_convex_hull hw' h0 h1
  refine ⟨k, C, hk, hpk, hkl, (SamePolar.evaluate hsp hw hw' h0 h1) ▸ eC, ?_⟩
  have hct := hw'.count
  have hct0 := hw.count
  have hlen0 := hw.clamped.len
  have hb0 : 0 ≤ b := (abs_nonneg _).trans (hb 0 (by simp only [hodograph, List.length_map, List.length_range]; omega))
  have fneg : ∀ x y z : K, form (⟨-a.x, -a.y, -a.z⟩ : Vec3 K) x y z = -form a x y z := by
    intro x y z; unfold form; ring
  have d1 := refine_diff hw he (fun i hi => (le_abs_self _).trans (hb i hi)) hv e
  have d2 := refine_diff (a := ⟨-a.x, -a.y, -a.z⟩) hw he (fun i hi => by
    rw [fneg]; exact (neg_le_abs _).trans (hb i hi)) hv e
  simp only [fneg] at d2
  set G := b * (kn c'.Knots.Values (k + (q + 1)) - kn c'.Knots.Values (k - q)) with hG
  have bound : ∀ i j, k ≤ i + (q + 1) → i ≤ k → k ≤ j + (q + 1) → j ≤ k →
      form a (pt c'.ControlPoints j).x (pt c'.ControlPoints j).y (pt c'.ControlPoints j).z -
        form a (pt c'.ControlPoints i).x (pt c'.ControlPoints i).y (pt c'.ControlPoints i).z ≤ G := by
    intro i j i1 i2 j1 j2
    rcases le_total i j with h | h
    · have := diff_window hw'.clamped.sorted hb0 d1 (by omega) hpk hkl (by omega) (IsSpan.lt hk) h i1 j2
      rwa [show k + 1 - (q + 1) = k - q by omega] at this
    · have := diff_window hw'.clamped.sorted hb0 d2 (by omega) hpk hkl (by omega) (IsSpan.lt hk) h j1 i2
      rw [show k + 1 - (q + 1) = k - q by omega] at this
      linarith
  intro i i1 i2
  rw [abs_le]
  constructor
  · have := hull ⟨-a.x, -a.y, -a.z⟩ (G - form a (pt c'.ControlPoints i).x (pt c'.ControlPoints i).y (pt c'.ControlPoints i).z) (fun j j1 j2 => by
      rw [fneg]
      have := bound j i (by omega) j2 (by omega) i2
      linarith)
    rw [fneg] at this
    linarith
  · have := hull a (G + form a (pt c'.ControlPoints i).x (pt c'.ControlPoints i).y (pt c'.ControlPoints i).z) (fun j j1 j2 => by
      have := bound i j (by omega) i2 (by omega) j2
      linarith)
    linarith

/-- C104 (rate).  In particular, if no two neighbouring knots of the refinement are more than `h` apart, the distance along `a` is at most
`(2p - 1) b h`, where `b` belongs to the curve before the refinement. -/
theorem C104_rate {q : ℕ} {c : Curve K} (hw : WFCurve (q + 1) c) {W : K} (he : ∀ i < c.ControlPoints.length, (pt c.ControlPoints i).w = W) {a : Vec3 K} {b : K}
    (hb : ∀ i < (hodograph (q + 1) c).ControlPoints.length, |form a (pt (hodograph (q + 1) c).ControlPoints i).x
      (pt (hodograph (q + 1) c).ControlPoints i).y (pt (hodograph (q + 1) c).ControlPoints i).z| ≤ b)
    {vs : List K} (hv : ∀ v ∈ vs, 0 < v ∧ v < 1) {c' : Curve K} (e : c.InsertKnotList vs = .ok c') {h : K}
    (hg : ∀ i, i + 1 < c'.Knots.Values.length → kn c'.Knots.Values (i + 1) - kn c'.Knots.Values i ≤ h) {x : K} (h0 : 0 ≤ x) (h1 : x ≤ 1) :
    ∃ k C, IsSpan c'.Knots.Values x k ∧ q + 1 ≤ k ∧ k < c'.ControlPoints.length ∧ c.Evaluate x = .ok C ∧ ∀ i, k - (q + 1) ≤ i → i ≤ k →
      |form a C.x C.y C.z - form a (pt c'.ControlPoints i).x (pt c'.ControlPoints i).y (pt c'.ControlPoints i).z| ≤
        (2 * (q + 1 : ℕ) - 1) * b * h := by
  obtain ⟨c'', e', H⟩ := C104_distance hw he hb hv
  obtain rfl : c' = c'' := by rw [e] at e'; injection e'
  obtain ⟨_, e2, hw', _⟩ := insertList_spec vs hv hw
  obtain rfl := Except.ok.inj (e.symm.trans e2)
  obtain ⟨k, C, hk, hpk, hkl, eC, B⟩ := H x h0 h1
  refine ⟨k, C, hk, hpk, hkl, eC, fun i i1 i2 => (B i i1 i2).trans ?_⟩
  have hct0 := hw.count
  have hlen0 := hw.clamped.len
  have hct := hw'.count
  have hb0 : 0 ≤ b := (abs_nonneg _).trans (hb 0 (by simp only [hodograph, List.length_map, List.length_range]; omega))
  have hs := gaps_sum hg (k - q) (2 * q + 1) (by omega)
  rw [show k - q + (2 * q + 1) = k + (q + 1) by omega] at hs
  calc _ ≤ b * (((2 * q + 1 : ℕ) : K) * h) := mul_le_mul_of_nonneg_left hs hb0
    _ = _ := by push_cast; ring

/-- C104 (convergence).  Over an Archimedean field every curve with equal weights has refinements whose control points are as near to the curve
as wanted: for every `ε > 0` there are knots to insert after which each point of the curve is, along `a`, within `ε` of all control points
of its span. -/
theorem C104_converges [Archimedean K] {q : ℕ} {c : Curve K} (hw : WFCurve (q + 1) c) {W : K}
    (he : ∀ i < c.ControlPoints.length, (pt c.ControlPoints i).w = W) (a : Vec3 K) {ε : K} (hε : 0 < ε) :
    ∃ vs c', (∀ v ∈ vs, 0 < v ∧ v < 1) ∧ c.InsertKnotList vs = .ok c' ∧ ∀ x, 0 ≤ x → x ≤ 1 →
      ∃ k C, IsSpan c'.Knots.Values x k ∧ q + 1 ≤ k ∧ k < c'.ControlPoints.length ∧ c.Evaluate x = .ok C ∧ ∀ i, k - (q + 1) ≤ i → i ≤ k →
        |form a C.x C.y C.z - form a (pt c'.ControlPoints i).x (pt c'.ControlPoints i).y (pt c'.ControlPoints i).z| ≤ ε := by
  obtain ⟨b, hb⟩ : ∃ b : K, ∀ i < (hodograph (q + 1) c).ControlPoints.length, |form a (pt (hodograph (q + 1) c).ControlPoints i).x
      (pt (hodograph (q + 1) c).ControlPoints i).y (pt (hodograph (q + 1) c).ControlPoints i).z| ≤ b := by
    refine ⟨∑ i ∈ Finset.range (hodograph (q + 1) c).ControlPoints.length, |form a (pt (hodograph (q + 1) c).ControlPoints i).x
      (pt (hodograph (q + 1) c).ControlPoints i).y (pt (hodograph (q + 1) c).ControlPoints i).z|, fun i hi => ?_⟩
    exact Finset.single_le_sum (f := fun i => |form a (pt (hodograph (q + 1) c).ControlPoints i).x
      (pt (hodograph (q + 1) c).ControlPoints i).y (pt (hodograph (q + 1) c).ControlPoints i).z|) (fun i _ => abs_nonneg _) (Finset.mem_range.2 hi)
  have hb0 : 0 ≤ b := (abs_nonneg _).trans (hb 0 (by
    have := hw.count; have := hw.clamped.len; simp only [hodograph, List.length_map, List.length_range]; omega))
  obtain ⟨N, hN⟩ := exists_nat_gt ((2 * (q + 1 : ℕ) - 1) * b / ε)
  have hq : (0 : K) ≤ 2 * (q + 1 : ℕ) - 1 := by
    push_cast
    have : (0 : K) ≤ q := Nat.cast_nonneg q
    linarith
  have hN0 : (0 : K) < N := lt_of_le_of_lt (div_nonneg (mul_nonneg hq hb0) hε.le) hN
  have hv : ∀ v ∈ (List.range (N - 1)).map (fun j => ((j + 1 : ℕ) : K) / N), 0 < v ∧ v < 1 := by
    intro v hv
    simp only [List.mem_map, List.mem_range] at hv
    obtain ⟨j, hj, rfl⟩ := hv
    refine ⟨div_pos (by exact_mod_cast Nat.succ_pos j) hN0, (div_lt_one hN0).2 (by exact_mod_cast (by omega : j + 1 < N))⟩
  obtain ⟨c', e, hw', hperm, _⟩ := insertList_spec _ hv hw
  refine ⟨_, c', hv, e, fun x h0 h1 => ?_⟩
  have hgap : ∀ i, i + 1 < c'.Knots.Values.length → kn c'.Knots.Values (i + 1) - kn c'.Knots.Values i ≤ 1 / N := by
    intro i hi
    refine gap_le hw'.clamped.sorted (fun i hi => ⟨?_, hw'.clamped.le_one hi⟩) (by exact_mod_cast hN0) (fun j j0 jN => ?_) hi
    · have := kn_mono hw'.clamped.sorted (Nat.zero_le i) hi
      rwa [hw'.clamped.zeros 0 (by omega)] at this
    · refine hperm.mem_iff.2 (List.mem_append_left _ (List.mem_map.2 ⟨j - 1, List.mem_range.2 (by omega), ?_⟩))
      rw [Nat.sub_add_cancel j0]
  obtain ⟨k, C, hk, hpk, hkl, eC, B⟩ := C104_rate hw he hb hv e hgap h0 h1
  refine ⟨k, C, hk, hpk, hkl, eC, fun i i1 i2 => (B i i1 i2).trans ?_⟩
  rw [div_lt_iff₀ hε] at hN
  rw [mul_one_div, div_le_iff₀ hN0]
  linarith

/-- The curve `exFlat` with further knots inserted, so that the multiples of 1/8 are knots. -/
def exFine : Curve ℚ := ⟨2, ⟨[0, 0, 0, 1/8, 1/4, 3/8, 1/2, 1/2, 5/8, 3/4, 7/8, 1, 1, 1]⟩,
  [⟨0, 0, 0, 3⟩, ⟨1/2, 1, 0, 3⟩, ⟨5/4, 5/4, 1/4, 3⟩, ⟨7/4, -1/4, 3/4, 3⟩, ⟨5/2, 0, 1/2, 3⟩, ⟨3, 1, 0, 3⟩, ⟨13/4, 3/2, 1/4, 3⟩, ⟨15/4, 15/8, 3/4, 3⟩,
    ⟨17/4, 13/8, 5/4, 3⟩, ⟨19/4, 3/4, 7/4, 3⟩, ⟨5, 0, 2, 3⟩]⟩
example : exFlat.InsertKnotList [1/8, 3/8, 5/8, 3/4, 7/8] = .ok exFine ∧
    (hodograph 2 exFlat).ControlPoints.map (·.y) = [16, -12, 16, 8, -12] ∧
    (hodograph 2 exFine).ControlPoints.map (·.y) = [16, 2, -12, 2, 16, 8, 3, -2, -7, -12] := by decide +kernel
/-- All gaps are at most 1/8; the point at 1/3 is in span 4, and along the second axis within 3 · 16 · 1/8 of the control points 2, 3 and 4. -/
example : (∀ i, i + 1 < exFine.Knots.Values.length → kn exFine.Knots.Values (i + 1) - kn exFine.Knots.Values i ≤ 1/8) ∧
    IsSpan exFine.Knots.Values (1/3) 4 ∧ exFlat.Evaluate (1/3) = .ok ⟨17/9, -1/9, 2/3⟩ ∧ exFine.Evaluate (1/3) = .ok ⟨17/9, -1/9, 2/3⟩ ∧
    ∀ i < 5, 2 ≤ i → |(-1/9 : ℚ) - (pt exFine.ControlPoints i).y| ≤ 3 * 16 * (1/8) := by
  refine ⟨fun i hi => ?_, by unfold IsSpan; decide +kernel⟩
  have : i < 13 := by
    have : exFine.Knots.Values.length = 14 := rfl
    omega
  interval_cases i <;> decide +kernel

end Nurbs.Props
