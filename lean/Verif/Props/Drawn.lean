import Verif.Spec.Drawn
import Verif.Props.Iso
import Verif.Props.SurfaceRemoval
import Verif.Props.RemovalTol
import Verif.Proof.Removal5
import Verif.Proof.SurfaceElev

/-! # C122: surfaces drawn out from a curve, and C87 for surfaces -/

set_option linter.unusedSectionVars false

namespace Nurbs.Props
open Nurbs Nurbs.Spec

variable {K : Type} [Field K] [LinearOrder K] [IsStrictOrderedRing K]

section
variable (c : Curve K) (q : ℕ) (kv : KnotVector K) (n : ℕ)

theorem drawn_grid : (drawn c q kv n).ControlPoints = gridOf c.ControlPoints.length n fun i _ => pt c.ControlPoints i := rfl

theorem drawn_sized : Sized (drawn c q kv n) c.ControlPoints.length n := ⟨rfl, rfl, by simp [drawn]⟩

theorem drawn_cp {i j : ℕ} (hi : i < c.ControlPoints.length) (hj : j < n) : cp (drawn c q kv n) i j = pt c.ControlPoints i :=
  cp_gridOf (drawn_grid c q kv n) hi hj

theorem drawn_row {j : ℕ} (hj : j < n) : (tab c.ControlPoints.length fun i => cp (drawn c q kv n) i j) = c.ControlPoints := by
  rw [tab_congr fun i hi => drawn_cp c q kv n hi hj]
  exact (eq_tab_pt _).symm

theorem drawn_turned : transposed (drawn c q kv n) =
    ⟨q, c.Degree, kv, c.Knots, gridOf n c.ControlPoints.length fun _ i => pt c.ControlPoints i⟩ := by
  have h := transposed_gridOf (drawn_grid c q kv n)
  ext1
  · rfl
  · rfl
  · rfl
  · rfl
  · exact h

end

variable {c : Curve K} {p q n : ℕ} {kv : KnotVector K}

theorem drawn_wf (hw : WFCurve p c) (hv : Clamped q kv.Values) (hn : kv.Values.length = n + q + 1) :
    WFSurface p q c.ControlPoints.length n (drawn c q kv n) :=
  ⟨hw.degree, rfl, hw.clamped, hv, rfl, rfl, hw.count, hn, by simp [drawn], fun i hi j hj => by rw [drawn_cp c q kv n hi hj]; exact hw.weights i hi⟩

/-- C122 (points and derivatives).  If all rows of control points of a surface are those of a curve, the surface is the curve for every `v`:
the isoparametric curves are the curve itself, control points and weights included, so that points and derivatives in `u` agree. -/
theorem C122_points (hw : WFCurve p c) (hv : Clamped q kv.Values) (hn : kv.Values.length = n + q + 1) {u v : K} (hu0 : 0 ≤ u) (hu1 : u ≤ 1)
    (hv0 : 0 ≤ v) (hv1 : v ≤ 1) :
    isoCurve q c.ControlPoints.length n (drawn c q kv n) v = c ∧ (drawn c q kv n).Evaluate u v = c.Evaluate u ∧
    (transposed (drawn c q kv n)).Evaluate v u = c.Evaluate u ∧
    ∀ a : ℕ, a ≤ 29 → ∃ D, c.EvaluateDerivative u a = .ok D ∧ (drawn c q kv n).EvaluateDerivative u v a 0 = .ok D := by
  have hs := drawn_wf (n := n) hw hv hn
  obtain ⟨k, hk, _, _⟩ := exists_span hv hv0 hv1
  have e : isoCurve q c.ControlPoints.length n (drawn c q kv n) v = c := by
    refine curve_ext rfl rfl (iso_length _ _ _ _ _) fun i hi => ?_
    rw [iso_length] at hi
    obtain ⟨hqk, hkn, hreg, _⟩ := evaluate_seg (colCurve_wf hs hi) hv0 hv1 (k := k) hk
    rw [(pt_iso_seg hs hv0 hv1 hk hi).1]
    have hc : seg (kn (drawn c q kv n).KnotsV.Values) k v q (fun j => hcp (drawn c q kv n) i j) = ToHomo (pt c.ControlPoints i) := by
      have hct := (colCurve_wf hs hi).count
      rw [seg_congr (Q := fun _ => ToHomo (pt c.ControlPoints i)) hqk fun j _ hj => ?_]
      · refine seg_const _ _ _ _ hqk ?_ _
        exact hreg
      · change k + q + 2 ≤ kv.Values.length at hkn
        exact congrArg ToHomo (drawn_cp c q kv n hi (by omega))
    rw [hc, unhomo_toHomo (hw.weights i hi).ne']
  obtain ⟨_, e1, e2, _⟩ := C101_iso hs hu0 hu1 hv0 hv1
  rw [e] at e1 e2
  exact ⟨e, e1.symm, (C100_evaluate hs u v).trans e1.symm, e2⟩

/-- C122 (removal).  Whatever `RemoveKnot` does to the curve, `RemoveKnotU` does to the drawn-out surface and `RemoveKnotV` to the one with
exchanged directions; if nothing could be removed, the surface is
returned as it is (the curve is not: C34). -/
theorem C122_removal (sqrt : K → K) {u tol : K} {times t : Int} {c' : Curve K} (hn : 0 < n) (h : c.RemoveKnot sqrt u times tol = .ok (c', t)) :
    (t ≠ 0 → (drawn c q kv n).RemoveKnotU sqrt u times tol = .ok (drawn c' q kv n, t) ∧
      (transposed (drawn c q kv n)).RemoveKnotV sqrt u times tol = .ok (transposed (drawn c' q kv n), t)) ∧
    (t = 0 → times ≤ c.ControlPoints.length → (drawn c q kv n).RemoveKnotU sqrt u times tol = .ok (drawn c q kv n, 0) ∧
      (transposed (drawn c q kv n)).RemoveKnotV sqrt u times tol = .ok (transposed (drawn c q kv n), 0)) := by
  have hk := knotRemoval_of_removeKnot h
  refine ⟨fun ht => ?_, ?_⟩
  swap
  · rintro rfl hle
    obtain ⟨N, rfl⟩ : ∃ N, n = N + 1 := ⟨n - 1, by omega⟩
    obtain ⟨m', hm'⟩ : ∃ m' : ℕ, (c.ControlPoints.length : Int) - times = m' := ⟨_, (Int.toNat_of_nonneg (by omega)).symm⟩
    constructor
    · unfold Surface.RemoveKnotU
      have hg : (drawn c q kv (N + 1)).ControlPoints.GetV 0 = .ok c.ControlPoints := by
        have := getV_gridOf c.ControlPoints.length (N + 1) (fun i _ => pt c.ControlPoints i) 0 0 rfl (by omega)
        rwa [← eq_tab_pt] at this
      rw [show (drawn c q kv (N + 1)).ControlPoints.UCount - times = m' from hm',
        show (drawn c q kv (N + 1)).ControlPoints.VCount = ((N + 1 : ℕ) : Int) from rfl, mk'_gridOf, bind_ok, Int.toNat_natCast, Surface.removeLoopU, hg,
        bind_ok]
      change ((KnotRemoval sqrt c.Knots c.ControlPoints c.Degree u times tol >>= _) >>= _ : M (Surface K × Int)) = _
      rw [hk, bind_ok]
      rfl
    · rw [drawn_turned]
      unfold Surface.RemoveKnotV
      have hg : (gridOf (N + 1) c.ControlPoints.length fun _ i => pt c.ControlPoints i).GetU 0 = .ok c.ControlPoints := by
        have := getU_gridOf (N + 1) c.ControlPoints.length (fun _ i => pt c.ControlPoints i) 0 0 rfl (by omega)
        rwa [← eq_tab_pt] at this
      simp only [gridOf_UCount, gridOf_VCount]
      rw [hm', mk'_gridOf, bind_ok, Int.toNat_natCast, Surface.removeLoopV, hg, bind_ok]
      change ((KnotRemoval sqrt c.Knots c.ControlPoints c.Degree u times tol >>= _) >>= _ : M (Surface K × Int)) = _
      rw [hk, bind_ok]
      rfl
  have hd : c'.Degree = c.Degree := by
    unfold Curve.RemoveKnot at h
    obtain ⟨_, _, h⟩ := bind_eq_ok.mp h
    obtain ⟨_, _, h⟩ := bind_eq_ok.mp h
    obtain ⟨⟨kv', P', t'⟩, hk, h⟩ := bind_eq_ok.mp h
    obtain ⟨rfl, rfl⟩ := Prod.mk.inj (Except.ok.inj h)
    rfl
  obtain ⟨_, _, _, hl⟩ := knotRemoval_counts _ _ _ _ _ _ _ _ _ _ hk
  obtain ⟨hl, _⟩ := hl ht
  constructor
  · rw [removeKnotU_ok (m' := c'.ControlPoints.length) (kv := c'.Knots) (f := fun i _ => pt c'.ControlPoints i) rfl rfl
      (grid_eq rfl rfl (drawn_sized c q kv n).2.2) hn (by omega) ht fun j hj => by
        rw [drawn_row c q kv n hj, ← eq_tab_pt]
        exact hk]
    unfold drawn
    rw [hd]
    rfl
  · rw [drawn_turned, drawn_turned]
    have hg : (⟨q, c.Degree, kv, c.Knots, gridOf n c.ControlPoints.length fun _ i => pt c.ControlPoints i⟩ : Surface K).ControlPoints =
      gridOf n c.ControlPoints.length fun _ i => pt c.ControlPoints i := rfl
    rw [removeKnotV_ok (n := n) (m := c.ControlPoints.length) (m' := c'.ControlPoints.length) (kv := c'.Knots) (f := fun _ i => pt c'.ControlPoints i) rfl rfl
      (grid_eq rfl rfl (by simp [gridOf, Nat.mul_comm])) hn (by omega) ht fun j hj => by
        rw [tab_congr fun i hi => cp_gridOf hg hj hi, ← eq_tab_pt, ← eq_tab_pt]
        exact hk]
    rw [hd]

/-- C122 (insertion).  Inserting a knot in the direction of the curve inserts it into the curve; inserting one in the other direction adds a
row of the same control points. -/
theorem C122_insertion (hw : WFCurve p c) (hv : Clamped q kv.Values) (hn : kv.Values.length = n + q + 1) {v : K} (h0 : 0 < v) (h1 : v < 1) :
    (1 ≤ p → ∃ c', c.InsertKnot v = .ok c' ∧ (drawn c q kv n).InsertKnotU v = .ok (drawn c' q kv n)) ∧
    (1 ≤ q → ∃ kv', kv'.Values.Perm (v :: kv.Values) ∧ (drawn c q kv n).InsertKnotV v = .ok (drawn c q kv' (n + 1))) := by
  have hs := drawn_wf (n := n) hw hv hn
  have hct := hw.count
  refine ⟨fun hp => ?_, fun hq => ?_⟩
  · obtain ⟨k, hk, hpk, hlk⟩ := exists_span hw.clamped h0.le h1.le
    refine ⟨_, insertKnot_ok hw hk h0 h1 hp, ?_⟩
    rw [insertKnotU_ok hs (k := k) hk h0 h1 hp]
    have hl : (insCurve p k v c).ControlPoints.length = c.ControlPoints.length + 1 := by simp [insCurve]
    have hg : gridOf (c.ControlPoints.length + 1) n (fun i j => insPt (kn c.Knots.Values) k v p (fun i => cp (drawn c q kv n) i j) i) =
        gridOf (insCurve p k v c).ControlPoints.length n fun i _ => pt (insCurve p k v c).ControlPoints i := by
      rw [hl]
      refine gridOf_congr fun i hi j hj => ?_
      unfold insCurve
      rw [pt_tab _ _ _ hi]
      unfold insPt
      split_ifs with a b
      · exact drawn_cp c q kv n (by omega) hj
      · unfold step hpts
        simp only
        rw [drawn_cp c q kv n (i := i - 1) (by omega) hj, drawn_cp c q kv n (i := i) (by omega) hj]
      · exact drawn_cp c q kv n (by omega) hj
    have hd : c.Degree = (p : Int) := hw.degree
    unfold insSurfU
    refine congrArg Except.ok ?_
    ext1
    · exact hd
    · rfl
    · rfl
    · rfl
    · exact hg
  · obtain ⟨k, hk, hpk, hlk⟩ := exists_span hv h0.le h1.le
    refine ⟨⟨insL kv.Values k v⟩, insL_perm _ _ _, ?_⟩
    rw [insertKnotV_ok hs (k := k) hk h0 h1 hq]
    have hst := insV_step hs (k := k) hk h0 h1
    have hg : gridOf c.ControlPoints.length (n + 1) (fun i j => insPt (kn kv.Values) k v q (fun j => cp (drawn c q kv n) i j) j) =
        gridOf c.ControlPoints.length (n + 1) fun i _ => pt c.ControlPoints i := by
      refine gridOf_congr fun i hi j hj => ?_
      unfold insPt
      split_ifs with a b
      · exact drawn_cp c q kv n hi (by omega)
      · have hne : kn kv.Values (j + q) - kn kv.Values j ≠ 0 := (hst j (by omega) b).1
        unfold step
        simp only
        rw [drawn_cp c q kv n (j := j - 1) hi (by omega), drawn_cp c q kv n (j := j) hi (by omega), ← add_smul, ← add_div,
          sub_add_sub_cancel, div_self hne, one_smul, unhomo_toHomo (hw.weights i hi).ne']
      · exact drawn_cp c q kv n hi (by omega)
    unfold insSurfV
    refine congrArg Except.ok ?_
    ext1
    · rfl
    · rfl
    · rfl
    · rfl
    · exact hg

/-- C122 (elevation).  Where `ElevateDegree` of the curve returns the right number of control points, `ElevateDegreeU` returns the surface drawn
out from the elevated curve; otherwise (C36) it fails. -/
theorem C122_elevation {t : ℕ} {c' : Curve K} (hd : c.Degree = (p : Int)) (hn : 0 < n) (h : c.ElevateDegree t = .ok c') (hd' : c'.Degree = (p : Int) + t) :
    (c'.ControlPoints.length = c.ControlPoints.length + t → (drawn c q kv n).ElevateDegreeU t = .ok (drawn c' q kv n) ∧
      (transposed (drawn c q kv n)).ElevateDegreeV t = .ok (transposed (drawn c' q kv n))) ∧
    (WFCurve p c → Clamped q kv.Values → kv.Values.length = n + q + 1 → c'.ControlPoints.length ≠ c.ControlPoints.length + t →
      (drawn c q kv n).ElevateDegreeU t = .error .assert ∧ (transposed (drawn c q kv n)).ElevateDegreeV t = .error .assert) := by
  have hk : NurbsDegreeElevation c.Knots c.ControlPoints p t = .ok (c'.Knots, c'.ControlPoints, (p : Int) + t) := by
    unfold Curve.ElevateDegree at h
    obtain ⟨_, _, h⟩ := bind_eq_ok.mp h
    obtain ⟨⟨kv', P', d'⟩, hk, h⟩ := bind_eq_ok.mp h
    obtain rfl := Except.ok.inj h
    rw [← hd, hk]
    simp only at hd'
    rw [hd', hd]
  have hgt : (⟨q, c.Degree, kv, c.Knots, gridOf n c.ControlPoints.length fun _ i => pt c.ControlPoints i⟩ : Surface K).ControlPoints =
    gridOf n c.ControlPoints.length fun _ i => pt c.ControlPoints i := rfl
  refine ⟨fun hl => ⟨?_, ?_⟩, fun hw hv hkv hl => ⟨?_, ?_⟩⟩
  · rw [elevateU_gen (p := p) (m' := c'.ControlPoints.length) (kv' := c'.Knots) (Q := fun i _ => pt c'.ControlPoints i) hd hn rfl rfl
      (grid_eq rfl rfl (drawn_sized c q kv n).2.2) hl fun j hj => by rw [drawn_row c q kv n hj, ← eq_tab_pt]; exact hk]
    unfold elevSurfU
    refine congrArg Except.ok ?_
    ext1
    · exact hd'.symm
    all_goals rfl
  · rw [drawn_turned, drawn_turned]
    rw [elevateV_gen (q := p) (m := n) (n := c.ControlPoints.length) (n' := c'.ControlPoints.length) (kv' := c'.Knots) (Q := fun _ i => pt c'.ControlPoints i) hd hn rfl rfl
      (grid_eq rfl rfl (by simp [gridOf, Nat.mul_comm])) hl fun j hj => by
        rw [tab_congr fun i hi => cp_gridOf hgt hj hi, ← eq_tab_pt, ← eq_tab_pt]; exact hk]
    unfold elevSurfV
    refine congrArg Except.ok ?_
    ext1
    · rfl
    · exact hd'.symm
    all_goals rfl
  · exact elevateU_assert (drawn_wf hw hv hkv) (m' := c'.ControlPoints.length) (kv' := c'.Knots) (Q := pt c'.ControlPoints) hl (by
      rw [drawn_row c q kv n hn, ← eq_tab_pt]; exact hk)
  · have hs := transposed_wf (drawn_wf (n := n) hw hv hkv)
    rw [drawn_turned] at hs ⊢
    exact elevateV_assert hs (n' := c'.ControlPoints.length) (kv' := c'.Knots) (Q := pt c'.ControlPoints) hl (by
      rw [tab_congr fun i hi => cp_gridOf hgt hn hi, ← eq_tab_pt, ← eq_tab_pt]; exact hk)

theorem clamped_line : Clamped 1 ([0, 0, 1, 1] : List K) := by
  refine ⟨by simp, by simp, ?_, ?_, by simp [kn], by simp [kn]⟩
  · intro i hi; interval_cases i <;> simp [kn]
  · intro i h1 h2; simp at h1 h2; interval_cases i <;> simp [kn]

/-- C87 fails for rational surfaces, in both directions: whatever the factor `M`, there is a surface that the removal with tolerance `eps`
moves by more than `M * eps`, at every `v` (or `u`). -/
theorem C87_surface_rational_refuted {sqrt : K → K} (hsq : ∀ x, 0 ≤ x → 0 ≤ sqrt x ∧ sqrt x * sqrt x = x) {M eps : K} (hM : 0 ≤ M) (he : 0 < eps) :
    (∃ (m : ℕ) (s s' : Surface K) (S S' : Vec3 K), WFSurface 1 1 m 2 s ∧ Separated s.KnotsU.Values (1/2) ∧ s.KnotsU.Values.count (1/2) = 1 ∧
      s.RemoveKnotU sqrt (1/2) 1 eps = .ok (s', 1) ∧ (M * eps) ^ 2 < sqDist S' S ∧
      ∀ v, 0 ≤ v → v ≤ 1 → s.Evaluate (1/2) v = .ok S ∧ s'.Evaluate (1/2) v = .ok S') ∧
    ∃ (m : ℕ) (s s' : Surface K) (S S' : Vec3 K), WFSurface 1 1 2 m s ∧ Separated s.KnotsV.Values (1/2) ∧ s.KnotsV.Values.count (1/2) = 1 ∧
      s.RemoveKnotV sqrt (1/2) 1 eps = .ok (s', 1) ∧ (M * eps) ^ 2 < sqDist S' S ∧
      ∀ u, 0 ≤ u → u ≤ 1 → s.Evaluate u (1/2) = .ok S ∧ s'.Evaluate u (1/2) = .ok S' := by
  obtain ⟨c, c', C, C', hw, hsep, hcount, hr, e, e', hw', hd⟩ := C87_rational_refuted hsq hM he
  have hs := drawn_wf (q := 1) (n := 2) (kv := ⟨[0, 0, 1, 1]⟩) hw clamped_line rfl
  have hrem := (C122_removal (q := 1) (n := 2) (kv := ⟨[0, 0, 1, 1]⟩) sqrt (by norm_num) hr).1 one_ne_zero
  have h0 : (0 : K) ≤ 1/2 := by norm_num
  have h1 : (1/2 : K) ≤ 1 := by norm_num
  refine ⟨⟨_, _, _, C, C', hs, hsep, hcount, hrem.1, hd, fun v hv0 hv1 => ?_⟩, _, _, _, C, C', transposed_wf hs, hsep, hcount, hrem.2, hd, fun v hv0 hv1 => ?_⟩
  · obtain ⟨_, a, _⟩ := C122_points (n := 2) (kv := ⟨[0, 0, 1, 1]⟩) hw clamped_line rfl h0 h1 hv0 hv1
    obtain ⟨_, a', _⟩ := C122_points (n := 2) (kv := ⟨[0, 0, 1, 1]⟩) hw' clamped_line rfl h0 h1 hv0 hv1
    exact ⟨a.trans e, a'.trans e'⟩
  · obtain ⟨_, _, a, _⟩ := C122_points (n := 2) (kv := ⟨[0, 0, 1, 1]⟩) hw clamped_line rfl h0 h1 hv0 hv1
    obtain ⟨_, _, a', _⟩ := C122_points (n := 2) (kv := ⟨[0, 0, 1, 1]⟩) hw' clamped_line rfl h0 h1 hv0 hv1
    exact ⟨a.trans e, a'.trans e'⟩

/-- C35 fails for surfaces as well, in both directions: one of two removals succeeds but two knots and two rows of control points
disappear, so that the surface changes. -/
theorem C35_surface_refuted : ∃ (s s' : Surface ℚ) (m : ℕ), WFSurface 2 1 m 2 s ∧ s.KnotsU.Values.count (1/4) = 2 ∧
    s'.KnotsU.Values.length + 2 = s.KnotsU.Values.length ∧ s'.ControlPoints.UCount + 2 = s.ControlPoints.UCount ∧
    (∀ v, 0 ≤ v → v ≤ 1 → s'.Evaluate 1 v ≠ s.Evaluate 1 v ∧ (transposed s').Evaluate v 1 ≠ (transposed s).Evaluate v 1) ∧
    ∀ sqrt : ℚ → ℚ, sqrt 0 = 0 → (∀ x, 0 < x → 0 < sqrt x) →
      s.RemoveKnotU sqrt (1/4) 2 0 = .ok (s', 1) ∧ (transposed s).RemoveKnotV sqrt (1/4) 2 0 = .ok (transposed s', 1) := by
  obtain ⟨c, c', hw, hw', hc, hk, hl, hne, hr⟩ : ∃ c c' : Curve ℚ, WFCurve 2 c ∧ WFCurve 2 c' ∧ c.Knots.Values.count (1/4) = 2 ∧
    c'.Knots.Values.length + 2 = c.Knots.Values.length ∧ c'.ControlPoints.length + 2 = c.ControlPoints.length ∧
    c'.Evaluate 1 ≠ c.Evaluate 1 ∧
    ∀ sqrt : ℚ → ℚ, sqrt 0 = 0 → (∀ x, 0 < x → 0 < sqrt x) → c.RemoveKnot sqrt (1/4) 2 0 = .ok (c', 1) := by
    refine ⟨⟨2, ⟨[0, 0, 0, 1/4, 1/4, 1/2, 1/2, 1, 1, 1]⟩, [⟨0, 0, 0, 1⟩, ⟨1, 2, 0, 1/2⟩, ⟨13/7, 2/7, 6/7, 7/4⟩,
      ⟨2, 0, 1, 3⟩, ⟨3, 1, 1, 1⟩, ⟨4, 4, 0, 2⟩, ⟨5, 0, 2, 1⟩]⟩, ⟨2, ⟨[0, 0, 0, 1/2, 1/2, 1, 1, 1]⟩, [⟨0, 0, 0, 1⟩, ⟨1, 2, 0, 1/2⟩,
      ⟨2, 0, 1, 3⟩, ⟨3, 1, 1, 1⟩, ⟨4, 4, 0, 2⟩]⟩, ⟨rfl, ⟨by decide +kernel, by decide +kernel, by decide +kernel, by decide +kernel,
      by decide +kernel, by decide +kernel⟩, rfl, by decide +kernel⟩, ⟨rfl, ⟨by decide +kernel, by decide +kernel, by decide +kernel, by decide +kernel,
      by decide +kernel, by decide +kernel⟩, rfl, by decide +kernel⟩, by decide +kernel, by decide +kernel, by decide +kernel, by decide +kernel, ?_⟩
    intro sqrt h0 h
    rw [removeKnot_agree (sqrt' := id) h0 rfl h (fun _ h => h)]
    decide +kernel
  refine ⟨drawn c 1 ⟨[0, 0, 1, 1]⟩ 2, drawn c' 1 ⟨[0, 0, 1, 1]⟩ 2, _, drawn_wf hw clamped_line rfl, hc, hk, ?_, fun v hv0 hv1 => ?_, fun sqrt h0 h => ?_⟩
  · change (c'.ControlPoints.length : Int) + 2 = c.ControlPoints.length
    omega
  · obtain ⟨_, a, b, _⟩ := C122_points (n := 2) (kv := ⟨[0, 0, 1, 1]⟩) hw clamped_line rfl zero_le_one le_rfl hv0 hv1
    obtain ⟨_, a', b', _⟩ := C122_points (n := 2) (kv := ⟨[0, 0, 1, 1]⟩) hw' clamped_line rfl zero_le_one le_rfl hv0 hv1
    rw [a, a', b, b']
    exact ⟨hne, hne⟩
  · exact (C122_removal sqrt (by norm_num) (hr sqrt h0 h)).1 one_ne_zero

/-- A surface of three rows drawn out from a rational curve. -/
example : (drawn exCurve 2 ⟨[0, 0, 0, 1, 1, 1]⟩ 3).Evaluate (1/3) (2/7) = exCurve.Evaluate (1/3) ∧
    (drawn exCurve 2 ⟨[0, 0, 0, 1, 1, 1]⟩ 3).ControlPoints.Values.length = 3 * exCurve.ControlPoints.length := by decide +kernel

/-- Insertion and elevation of drawn-out surfaces; with interior knots elevation fails. -/
example : (drawn exCurve 1 ⟨[0, 0, 1, 1]⟩ 2).InsertKnotU (2/5) = (exCurve.InsertKnot (2/5)).map (fun c' => drawn c' 1 ⟨[0, 0, 1, 1]⟩ 2) ∧
    (exCurve.InsertKnot (2/5)).map (fun c' => c'.ControlPoints.length) = .ok (exCurve.ControlPoints.length + 1) ∧
    (drawn exCurve 1 ⟨[0, 0, 1, 1]⟩ 2).InsertKnotV (2/5) = .ok (drawn exCurve 1 ⟨[0, 0, 2/5, 1, 1]⟩ 3) := by decide +kernel
example : let c : Curve ℚ := ⟨2, ⟨[0, 0, 0, 1, 1, 1]⟩, [⟨0, 0, 0, 1⟩, ⟨1, 2, 0, 1/2⟩, ⟨3, 0, 1, 2⟩]⟩
    (drawn c 1 ⟨[0, 0, 1, 1]⟩ 2).ElevateDegreeU 1 = (c.ElevateDegree 1).map (fun c' => drawn c' 1 ⟨[0, 0, 1, 1]⟩ 2) ∧
    (c.ElevateDegree 1).map (fun c' => c'.ControlPoints.length) = .ok 4 ∧
    (exCurve.ElevateDegree 1).map (fun c' => c'.Degree) = .ok 3 ∧ (drawn exCurve 1 ⟨[0, 0, 1, 1]⟩ 2).ElevateDegreeU 1 = .error .assert := by decide +kernel

end Nurbs.Props
