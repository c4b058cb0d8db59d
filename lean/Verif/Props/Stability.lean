import Verif.Props.Curve
import Verif.Props.Surface
import Verif.Props.SerialStable
import Verif.Spec.Values

/-! # C105: small changes of the data cause small changes of the points -/

set_option linter.unusedSectionVars false

namespace Nurbs

open Spec

variable {K : Type} [Field K] [LinearOrder K] [IsStrictOrderedRing K]

theorem seg_le {U : ℕ → K} {k : ℕ} {x : K} {p : ℕ} (hp : p ≤ k) (hm : ∀ a b, a ≤ b → b ≤ k + p → U a ≤ U b) (h1 : U k ≤ x) (h2 : x ≤ U (k + 1))
    {P Q : ℕ → K} (h : ∀ i, k ≤ i + p → i ≤ k → P i ≤ Q i) : seg U k x p P ≤ seg U k x p Q := by
  unfold seg
  refine Finset.sum_le_sum fun n hn => ?_
  have := Finset.mem_range.mp hn
  exact mul_le_mul_of_nonneg_left (h _ (by omega) (by omega)) (Nl_nonneg U k x p _ hm h1 h2)

theorem perturb_term {w w' g g' t δ η D m : K} (hm : 0 < m) (hw : m ≤ w') (hg : g' ≤ g + δ) (he : |w' - w| ≤ η) (hD : |g - t| ≤ D) :
    w' * (g' - (t + (δ + η * D / m))) ≤ w * (g - t) := by
  have hw0 : 0 < w' := lt_of_lt_of_le hm hw
  have hE : 0 ≤ η * D := mul_nonneg ((abs_nonneg _).trans he) ((abs_nonneg _).trans hD)
  have h1 : (w' - w) * (g - t) ≤ η * D := by
    refine (le_abs_self _).trans ?_
    rw [abs_mul]
    exact mul_le_mul he hD (abs_nonneg _) ((abs_nonneg _).trans he)
  have h2 : η * D ≤ w' * (η * D / m) := by
    rw [mul_div_assoc', le_div_iff₀ hm, mul_comm]
    exact mul_le_mul_of_nonneg_right hw hE
  have h3 := mul_le_mul_of_nonneg_left hg hw0.le
  linarith

theorem planeForm_to (a : Vec3 K) (b : K) (v : Vec4 K) : planeForm a b (ToHomo v) = v.w * (form a v.x v.y v.z - b) := by
  simp [planeForm, ToHomo, form]; ring

theorem planeForm_proj' (a : Vec3 K) (b : K) {v : Vec4 K} (h : 0 < v.w) :
    planeForm a b v = v.w * (form a (proj v).x (proj v).y (proj v).z - b) := by
  have := h.ne'
  simp only [planeForm, form, proj, LinearMap.coe_mk, AddHom.coe_mk]
  field_simp

/-- From the inequality between the forms to the one between the points. -/
theorem perturb_point {a : Vec3 K} {S S' : Vec4 K} {ρ : K} (hS : 0 < S.w) (hS' : 0 < S'.w)
    (h : planeForm a (form a (proj S).x (proj S).y (proj S).z + ρ) S' ≤ planeForm a (form a (proj S).x (proj S).y (proj S).z) S) :
    form a (proj S').x (proj S').y (proj S').z ≤ form a (proj S).x (proj S).y (proj S).z + ρ := by
  rw [planeForm_proj' _ _ hS', planeForm_proj' _ _ hS, sub_self, mul_zero] at h
  by_contra hc
  rw [not_le] at hc
  exact absurd (mul_pos hS' (sub_pos.2 hc)) (not_lt.2 h)

theorem form_neg (a : Vec3 K) (x y z : K) : form (⟨-a.x, -a.y, -a.z⟩ : Vec3 K) x y z = -form a x y z := by
  unfold form; ring

end Nurbs

namespace Nurbs.Props
open Nurbs Nurbs.Spec Serial

variable {K : Type} [Field K] [LinearOrder K] [IsStrictOrderedRing K]

/-- One side of `C105_curve`. -/
theorem stable_one {p : ℕ} {c c' : Curve K} (hw : WFCurve p c) (hw' : WFCurve p c') (hk : c'.Knots = c.Knots) {a : Vec3 K} {δ η D m : K} (hm : 0 < m)
    (h1 : ∀ i < c.ControlPoints.length, form a (pt c'.ControlPoints i).x (pt c'.ControlPoints i).y (pt c'.ControlPoints i).z ≤
      form a (pt c.ControlPoints i).x (pt c.ControlPoints i).y (pt c.ControlPoints i).z + δ)
    (h2 : ∀ i < c.ControlPoints.length, |(pt c'.ControlPoints i).w - (pt c.ControlPoints i).w| ≤ η)
    (h3 : ∀ i < c.ControlPoints.length, ∀ j < c.ControlPoints.length, |form a (pt c.ControlPoints i).x (pt c.ControlPoints i).y (pt c.ControlPoints i).z -
      form a (pt c.ControlPoints j).x (pt c.ControlPoints j).y (pt c.ControlPoints j).z| ≤ D)
    (h4 : ∀ i < c.ControlPoints.length, m ≤ (pt c'.ControlPoints i).w) {x : K} (h0 : 0 ≤ x) (hx : x ≤ 1) :
    ∃ C C', c.Evaluate x = .ok C ∧ c'.Evaluate x = .ok C' ∧ form a C'.x C'.y C'.z ≤ form a C.x C.y C.z + (δ + η * D / m) := by
  obtain ⟨k, C, hsp, hpk, hkl, e, hull⟩ := C25_convex_hull hw h0 hx
  obtain ⟨_, hl, _, hpos, he⟩ := evaluate_seg hw h0 hx hsp
  have hsp' : IsSpan c'.Knots.Values x k := by rwa [hk]
  obtain ⟨_, _, _, hpos', he'⟩ := evaluate_seg hw' h0 hx hsp'
  have hC : C = proj (seg (kn c.Knots.Values) k x p (hpts c.ControlPoints)) := by rw [he] at e; injection e with e; exact e.symm
  refine ⟨_, _, he, he', perturb_point hpos hpos' ?_⟩
  rw [← hC, seg_map, seg_map, hk]
  refine seg_le hpk (fun a b hab hb => kn_mono hw.clamped.sorted hab (by omega)) hsp.2.1 (IsSpan.le_right hsp) fun i i1 i2 => ?_
  show planeForm a _ (ToHomo (pt c'.ControlPoints i)) ≤ planeForm a _ (ToHomo (pt c.ControlPoints i))
  rw [planeForm_to, planeForm_to]
  refine perturb_term hm (h4 i (by omega)) (h1 i (by omega)) (h2 i (by omega)) (abs_le.2 ⟨?_, ?_⟩)
  · have := hull a (form a (pt c.ControlPoints i).x (pt c.ControlPoints i).y (pt c.ControlPoints i).z + D) fun j _ j2 => by
      have := (abs_le.1 (h3 i (by omega) j (by omega))).1
      linarith
    linarith
  · have := hull ⟨-a.x, -a.y, -a.z⟩ (D - form a (pt c.ControlPoints i).x (pt c.ControlPoints i).y (pt c.ControlPoints i).z) fun j _ j2 => by
      have := (abs_le.1 (h3 i (by omega) j (by omega))).2
      rw [form_neg]
      linarith
    rw [form_neg] at this
    linarith

/-- C105 (curves).  Change the control points of a curve by at most `δ` along `a` and their weights by at most `η`, the new weights being at least
`m > 0`: no point moves along `a` by more than `δ + η D / m`, where `D` is the extent of the control points along `a`. -/
theorem C105_curve {p : ℕ} {c c' : Curve K} (hw : WFCurve p c) (hw' : WFCurve p c') (hk : c'.Knots = c.Knots) {a : Vec3 K} {δ η D m : K} (hm : 0 < m)
    (h1 : ∀ i < c.ControlPoints.length, |form a (pt c'.ControlPoints i).x (pt c'.ControlPoints i).y (pt c'.ControlPoints i).z -
      form a (pt c.ControlPoints i).x (pt c.ControlPoints i).y (pt c.ControlPoints i).z| ≤ δ)
    (h2 : ∀ i < c.ControlPoints.length, |(pt c'.ControlPoints i).w - (pt c.ControlPoints i).w| ≤ η)
    (h3 : ∀ i < c.ControlPoints.length, ∀ j < c.ControlPoints.length, |form a (pt c.ControlPoints i).x (pt c.ControlPoints i).y (pt c.ControlPoints i).z -
      form a (pt c.ControlPoints j).x (pt c.ControlPoints j).y (pt c.ControlPoints j).z| ≤ D)
    (h4 : ∀ i < c.ControlPoints.length, m ≤ (pt c'.ControlPoints i).w) {x : K} (h0 : 0 ≤ x) (hx : x ≤ 1) :
    ∃ C C', c.Evaluate x = .ok C ∧ c'.Evaluate x = .ok C' ∧ |form a C'.x C'.y C'.z - form a C.x C.y C.z| ≤ δ + η * D / m := by
  obtain ⟨C, C', e, e', A⟩ := stable_one hw hw' hk hm (fun i hi => by have := (abs_le.1 (h1 i hi)).2; linarith) h2 h3 h4 h0 hx
  obtain ⟨B, B', f, f', G⟩ := stable_one (a := ⟨-a.x, -a.y, -a.z⟩) (δ := δ) hw hw' hk hm
    (fun i hi => by have := (abs_le.1 (h1 i hi)).1; rw [form_neg, form_neg]; linarith) h2
    (fun i hi j hj => by rw [form_neg, form_neg, neg_sub_neg, abs_sub_comm]; exact h3 i hi j hj) h4 h0 hx
  obtain rfl := Except.ok.inj (e.symm.trans f)
  obtain rfl := Except.ok.inj (e'.symm.trans f')
  rw [form_neg, form_neg] at G
  exact ⟨C, C', e, e', abs_le.2 ⟨by linarith, by linarith⟩⟩

/-- One side of `C105_surface`. -/
theorem stable_one_surface {p q m n : ℕ} {s s' : Surface K} (hw : WFSurface p q m n s) (hw' : WFSurface p q m n s') (hku : s'.KnotsU = s.KnotsU)
    (hkv : s'.KnotsV = s.KnotsV) {a : Vec3 K} {δ η D w : K} (hm : 0 < w)
    (h1 : ∀ i < m, ∀ j < n, form a (cp s' i j).x (cp s' i j).y (cp s' i j).z ≤ form a (cp s i j).x (cp s i j).y (cp s i j).z + δ)
    (h2 : ∀ i < m, ∀ j < n, |(cp s' i j).w - (cp s i j).w| ≤ η)
    (h3 : ∀ i < m, ∀ j < n, ∀ i' < m, ∀ j' < n, |form a (cp s i j).x (cp s i j).y (cp s i j).z - form a (cp s i' j').x (cp s i' j').y (cp s i' j').z| ≤ D)
    (h4 : ∀ i < m, ∀ j < n, w ≤ (cp s' i j).w) {u v : K} (hu0 : 0 ≤ u) (hu1 : u ≤ 1) (hv0 : 0 ≤ v) (hv1 : v ≤ 1) :
    ∃ S S', s.Evaluate u v = .ok S ∧ s'.Evaluate u v = .ok S' ∧ form a S'.x S'.y S'.z ≤ form a S.x S.y S.z + (δ + η * D / w) := by
  obtain ⟨ku, kv, S, hsu, hsv, b1, b2, b3, b4, e, hull⟩ := C44_convex_hull hw hu0 hu1 hv0 hv1
  obtain ⟨_, _, _, _, _, _, hpos, he⟩ := surface_seg hw hu0 hu1 hv0 hv1 hsu hsv
  have hsu' : IsSpan s'.KnotsU.Values u ku := by rwa [hku]
  have hsv' : IsSpan s'.KnotsV.Values v kv := by rwa [hkv]
  obtain ⟨_, _, _, _, _, _, hpos', he'⟩ := surface_seg hw' hu0 hu1 hv0 hv1 hsu' hsv'
  have hS : S = proj (surfSeg p q s ku kv u v) := by rw [he] at e; injection e with e; exact e.symm
  refine ⟨_, _, he, he', perturb_point hpos hpos' ?_⟩
  have hlu := hw.knotsU
  have hlv := hw.knotsV
  rw [← hS]
  unfold surfSeg
  rw [sseg_map, sseg_map, hku, hkv]
  refine seg_le b3 (fun a b hab hb => kn_mono hw.clampedV.sorted hab (by omega)) hsv.2.1 (IsSpan.le_right hsv) fun j j1 j2 => ?_
  refine seg_le b1 (fun a b hab hb => kn_mono hw.clampedU.sorted hab (by omega)) hsu.2.1 (IsSpan.le_right hsu) fun i i1 i2 => ?_
  show planeForm a _ (ToHomo (cp s' i j)) ≤ planeForm a _ (ToHomo (cp s i j))
  rw [planeForm_to, planeForm_to]
  refine perturb_term hm (h4 i (by omega) j (by omega)) (h1 i (by omega) j (by omega)) (h2 i (by omega) j (by omega)) (abs_le.2 ⟨?_, ?_⟩)
  · have := hull a (form a (cp s i j).x (cp s i j).y (cp s i j).z + D) fun i' j' _ i2 _ j2 => by
      have := (abs_le.1 (h3 i (by omega) j (by omega) i' (by omega) j' (by omega))).1
      linarith
    linarith
  · have := hull ⟨-a.x, -a.y, -a.z⟩ (D - form a (cp s i j).x (cp s i j).y (cp s i j).z) fun i' j' _ i2 _ j2 => by
      have := (abs_le.1 (h3 i (by omega) j (by omega) i' (by omega) j' (by omega))).2
      rw [form_neg]
      linarith
    rw [form_neg] at this
    linarith

/-- C105 (surfaces). -/
theorem C105_surface {p q m n : ℕ} {s s' : Surface K} (hw : WFSurface p q m n s) (hw' : WFSurface p q m n s') (hku : s'.KnotsU = s.KnotsU)
    (hkv : s'.KnotsV = s.KnotsV) {a : Vec3 K} {δ η D w : K} (hm : 0 < w)
    (h1 : ∀ i < m, ∀ j < n, |form a (cp s' i j).x (cp s' i j).y (cp s' i j).z - form a (cp s i j).x (cp s i j).y (cp s i j).z| ≤ δ)
    (h2 : ∀ i < m, ∀ j < n, |(cp s' i j).w - (cp s i j).w| ≤ η)
    (h3 : ∀ i < m, ∀ j < n, ∀ i' < m, ∀ j' < n, |form a (cp s i j).x (cp s i j).y (cp s i j).z - form a (cp s i' j').x (cp s i' j').y (cp s i' j').z| ≤ D)
    (h4 : ∀ i < m, ∀ j < n, w ≤ (cp s' i j).w) {u v : K} (hu0 : 0 ≤ u) (hu1 : u ≤ 1) (hv0 : 0 ≤ v) (hv1 : v ≤ 1) :
    ∃ S S', s.Evaluate u v = .ok S ∧ s'.Evaluate u v = .ok S' ∧ |form a S'.x S'.y S'.z - form a S.x S.y S.z| ≤ δ + η * D / w := by
  obtain ⟨C, C', e, e', A⟩ := stable_one_surface hw hw' hku hkv hm (fun i hi j hj => by have := (abs_le.1 (h1 i hi j hj)).2; linarith) h2 h3 h4 hu0 hu1 hv0 hv1
  obtain ⟨B, B', f, f', G⟩ := stable_one_surface (a := ⟨-a.x, -a.y, -a.z⟩) (δ := δ) hw hw' hku hkv hm
    (fun i hi j hj => by have := (abs_le.1 (h1 i hi j hj)).1; rw [form_neg, form_neg]; linarith) h2
    (fun i hi j hj i' hi' j' hj' => by rw [form_neg, form_neg, neg_sub_neg, abs_sub_comm]; exact h3 i hi j hj i' hi' j' hj') h4 hu0 hu1 hv0 hv1
  obtain rfl := Except.ok.inj (e.symm.trans f)
  obtain rfl := Except.ok.inj (e'.symm.trans f')
  rw [form_neg, form_neg] at G
  exact ⟨C, C', e, e', abs_le.2 ⟨by linarith, by linarith⟩⟩

/-- The same weights, the points moved along `a` by at most `δ`. -/
theorem same_weights_one {p : ℕ} {c c' : Curve K} (hw : WFCurve p c) (hw' : WFCurve p c') (hk : c'.Knots = c.Knots) {a : Vec3 K} {δ : K}
    (h1 : ∀ i < c.ControlPoints.length, form a (pt c'.ControlPoints i).x (pt c'.ControlPoints i).y (pt c'.ControlPoints i).z ≤
      form a (pt c.ControlPoints i).x (pt c.ControlPoints i).y (pt c.ControlPoints i).z + δ)
    (h2 : ∀ i < c.ControlPoints.length, (pt c'.ControlPoints i).w = (pt c.ControlPoints i).w) {x : K} (h0 : 0 ≤ x) (hx : x ≤ 1) :
    ∃ C C', c.Evaluate x = .ok C ∧ c'.Evaluate x = .ok C' ∧ form a C'.x C'.y C'.z ≤ form a C.x C.y C.z + δ := by
  obtain ⟨k, C, hsp, hpk, hkl, e, -⟩ := C25_convex_hull hw h0 hx
  obtain ⟨_, _, _, hpos, he⟩ := evaluate_seg hw h0 hx hsp
  have hsp' : IsSpan c'.Knots.Values x k := by rwa [hk]
  obtain ⟨_, _, _, hpos', he'⟩ := evaluate_seg hw' h0 hx hsp'
  have hl := hw.count
  refine ⟨_, _, he, he', perturb_point hpos hpos' ?_⟩
  rw [seg_map, seg_map, hk]
  refine seg_le hpk (fun a b hab hb => kn_mono hw.clamped.sorted hab (by omega)) hsp.2.1 (IsSpan.le_right hsp) fun i i1 i2 => ?_
  show planeForm a _ (ToHomo (pt c'.ControlPoints i)) ≤ planeForm a _ (ToHomo (pt c.ControlPoints i))
  rw [planeForm_to, planeForm_to, h2 i (by omega)]
  refine mul_le_mul_of_nonneg_left ?_ (hw.weights i (by omega)).le
  have := h1 i (by omega)
  linarith

/-- C105 (same weights).  Points moved by at most `δ` along `a` move the curve by at most `δ`. -/
theorem C105_same_weights {p : ℕ} {c c' : Curve K} (hw : WFCurve p c) (hw' : WFCurve p c') (hk : c'.Knots = c.Knots) {a : Vec3 K} {δ : K}
    (h1 : ∀ i < c.ControlPoints.length, |form a (pt c'.ControlPoints i).x (pt c'.ControlPoints i).y (pt c'.ControlPoints i).z -
      form a (pt c.ControlPoints i).x (pt c.ControlPoints i).y (pt c.ControlPoints i).z| ≤ δ)
    (h2 : ∀ i < c.ControlPoints.length, (pt c'.ControlPoints i).w = (pt c.ControlPoints i).w) {x : K} (h0 : 0 ≤ x) (hx : x ≤ 1) :
    ∃ C C', c.Evaluate x = .ok C ∧ c'.Evaluate x = .ok C' ∧ |form a C'.x C'.y C'.z - form a C.x C.y C.z| ≤ δ := by
  obtain ⟨C, C', e, e', A⟩ := same_weights_one hw hw' hk (fun i hi => by have := (abs_le.1 (h1 i hi)).2; linarith) h2 h0 hx
  obtain ⟨B, B', f, f', G⟩ := same_weights_one (a := ⟨-a.x, -a.y, -a.z⟩) (δ := δ) hw hw' hk
    (fun i hi => by have := (abs_le.1 (h1 i hi)).1; rw [form_neg, form_neg]; linarith) h2 h0 hx
  obtain rfl := Except.ok.inj (e.symm.trans f)
  obtain rfl := Except.ok.inj (e'.symm.trans f')
  rw [form_neg, form_neg] at G
  exact ⟨C, C', e, e', abs_le.2 ⟨by linarith, by linarith⟩⟩

theorem same_weights_surface_one {p q m n : ℕ} {s s' : Surface K} (hw : WFSurface p q m n s) (hw' : WFSurface p q m n s') (hku : s'.KnotsU = s.KnotsU)
    (hkv : s'.KnotsV = s.KnotsV) {a : Vec3 K} {δ : K}
    (h1 : ∀ i < m, ∀ j < n, form a (cp s' i j).x (cp s' i j).y (cp s' i j).z ≤ form a (cp s i j).x (cp s i j).y (cp s i j).z + δ)
    (h2 : ∀ i < m, ∀ j < n, (cp s' i j).w = (cp s i j).w) {u v : K} (hu0 : 0 ≤ u) (hu1 : u ≤ 1) (hv0 : 0 ≤ v) (hv1 : v ≤ 1) :
    ∃ S S', s.Evaluate u v = .ok S ∧ s'.Evaluate u v = .ok S' ∧ form a S'.x S'.y S'.z ≤ form a S.x S.y S.z + δ := by
  obtain ⟨ku, kv, S, hsu, hsv, b1, b2, b3, b4, e, -⟩ := C44_convex_hull hw hu0 hu1 hv0 hv1
  obtain ⟨_, _, _, _, _, _, hpos, he⟩ := surface_seg hw hu0 hu1 hv0 hv1 hsu hsv
  have hsu' : IsSpan s'.KnotsU.Values u ku := by rwa [hku]
  have hsv' : IsSpan s'.KnotsV.Values v kv := by rwa [hkv]
  obtain ⟨_, _, _, _, _, _, hpos', he'⟩ := surface_seg hw' hu0 hu1 hv0 hv1 hsu' hsv'
  refine ⟨_, _, he, he', perturb_point hpos hpos' ?_⟩
  have hlu := hw.knotsU
  have hlv := hw.knotsV
  generalize form a _ _ _ = t
  unfold surfSeg
  rw [sseg_map, sseg_map, hku, hkv]
  refine seg_le b3 (fun a b hab hb => kn_mono hw.clampedV.sorted hab (by omega)) hsv.2.1 (IsSpan.le_right hsv) fun j j1 j2 => ?_
  refine seg_le b1 (fun a b hab hb => kn_mono hw.clampedU.sorted hab (by omega)) hsu.2.1 (IsSpan.le_right hsu) fun i i1 i2 => ?_
  show planeForm a _ (ToHomo (cp s' i j)) ≤ planeForm a _ (ToHomo (cp s i j))
  rw [planeForm_to, planeForm_to, h2 i (by omega) j (by omega)]
  refine mul_le_mul_of_nonneg_left ?_ (hw.weights i (by omega) j (by omega)).le
  have := h1 i (by omega) j (by omega)
  linarith

/-- C105 (surfaces, same weights). -/
theorem C105_surface_same_weights {p q m n : ℕ} {s s' : Surface K} (hw : WFSurface p q m n s) (hw' : WFSurface p q m n s') (hku : s'.KnotsU = s.KnotsU)
    (hkv : s'.KnotsV = s.KnotsV) {a : Vec3 K} {δ : K}
    (h1 : ∀ i < m, ∀ j < n, |form a (cp s' i j).x (cp s' i j).y (cp s' i j).z - form a (cp s i j).x (cp s i j).y (cp s i j).z| ≤ δ)
    (h2 : ∀ i < m, ∀ j < n, (cp s' i j).w = (cp s i j).w) {u v : K} (hu0 : 0 ≤ u) (hu1 : u ≤ 1) (hv0 : 0 ≤ v) (hv1 : v ≤ 1) :
    ∃ S S', s.Evaluate u v = .ok S ∧ s'.Evaluate u v = .ok S' ∧ |form a S'.x S'.y S'.z - form a S.x S.y S.z| ≤ δ := by
  obtain ⟨C, C', e, e', A⟩ := same_weights_surface_one hw hw' hku hkv (fun i hi j hj => by have := (abs_le.1 (h1 i hi j hj)).2; linarith) h2 hu0 hu1 hv0 hv1
  obtain ⟨B, B', f, f', G⟩ := same_weights_surface_one (a := ⟨-a.x, -a.y, -a.z⟩) (δ := δ) hw hw' hku hkv
    (fun i hi j hj => by have := (abs_le.1 (h1 i hi j hj)).1; rw [form_neg, form_neg]; linarith) h2 hu0 hu1 hv0 hv1
  obtain rfl := Except.ok.inj (e.symm.trans f)
  obtain rfl := Except.ok.inj (e'.symm.trans f')
  rw [form_neg, form_neg] at G
  exact ⟨C, C', e, e', abs_le.2 ⟨by linarith, by linarith⟩⟩

/-! ## What a text file does to the points -/

theorem value_same {x y : F64} (h : SameTo17 x y) : |valueF64 y - valueF64 x| ≤ 1 / 10 ^ 17 := by
  unfold valueF64
  rw [h.sign]
  split
  · rw [neg_sub_neg, abs_sub_comm]; exact h.close
  · exact h.close

theorem reread_self {l : List F64} (h : ∀ x ∈ l, Survives x) : l.map reread = l := by
  conv_rhs => rw [← List.map_id l]
  exact List.map_congr_left fun x hx => (reread_same (h x hx).1).exact (h x hx)

theorem form_x (x y z : ℚ) : form (⟨1, 0, 0⟩ : Vec3 ℚ) x y z = x := by unfold form; ring
theorem form_y (x y z : ℚ) : form (⟨0, 1, 0⟩ : Vec3 ℚ) x y z = y := by unfold form; ring
theorem form_z (x y z : ℚ) : form (⟨0, 0, 1⟩ : Vec3 ℚ) x y z = z := by unfold form; ring

theorem pt_value {l : List (Vec4 F64)} {i : ℕ} (h : i < l.length) : pt (l.map valuePoint) i = valuePoint l[i] := by
  simp [pt, h]

/-- C105 (text files of curves).  A finite curve whose knots and weights survive 17 decimals, saved as text and loaded, has all its points within
`10^-17` per coordinate of the original, whatever its coordinates are. -/
theorem C105_text_curve {p : ℕ} {c : Curve F64} (hf : FiniteCurve c) (hk : ∀ x ∈ c.Knots.Values, Survives x) (hv : ∀ v ∈ c.ControlPoints, Survives v.w)
    (hw : WFCurve p (valueCurve c)) : ∃ file c', c.SaveToFile false = .ok file ∧
    (∀ junk, Curve.LoadFromFile junk {} ⟨file, false⟩ = (.ok (), c', ⟨[], true⟩)) ∧
    ∀ x : ℚ, 0 ≤ x → x ≤ 1 → ∃ C C', (valueCurve c).Evaluate x = .ok C ∧ (valueCurve c').Evaluate x = .ok C' ∧
      |C'.x - C.x| ≤ 1 / 10 ^ 17 ∧ |C'.y - C.y| ≤ 1 / 10 ^ 17 ∧ |C'.z - C.z| ≤ 1 / 10 ^ 17 := by
  refine ⟨_, c.reread, Curve.save_text c, fun junk => ?_, fun x h0 hx => ?_⟩
  · rw [← Curve.reread_text hf, Curve.load_text (Curve.reread_survives hf)]
    rfl
  have hlen : (valueCurve c).ControlPoints.length = c.ControlPoints.length := List.length_map ..
  have hlen' : (valueCurve c.reread).ControlPoints.length = c.ControlPoints.length := by simp [valueCurve, Curve.reread]
  have hkn : (valueCurve c.reread).Knots = (valueCurve c).Knots := by
    show (⟨(c.Knots.Values.map reread).map valueF64⟩ : KnotVector ℚ) = ⟨c.Knots.Values.map valueF64⟩
    rw [reread_self hk]
  have h1 : ∀ i (hi : i < c.ControlPoints.length), pt (valueCurve c).ControlPoints i = valuePoint c.ControlPoints[i] := fun i hi => pt_value hi
  have h2 : ∀ i (hi : i < c.ControlPoints.length), pt (valueCurve c.reread).ControlPoints i = valuePoint (rereadPt c.ControlPoints[i]) := fun i hi => by
    show pt ((c.ControlPoints.map rereadPt).map valuePoint) i = _
    rw [pt_value (by simpa using hi), List.getElem_map]
  have hsame : ∀ i (hi : i < c.ControlPoints.length), PointSameTo17 c.ControlPoints[i] (rereadPt c.ControlPoints[i]) := fun i hi =>
    rereadPt_same (hf.points _ (List.getElem_mem hi))
  have hwt : ∀ i < (valueCurve c).ControlPoints.length, (pt (valueCurve c.reread).ControlPoints i).w = (pt (valueCurve c).ControlPoints i).w := by
    intro i hi
    rw [hlen] at hi
    rw [h1 i hi, h2 i hi]
    exact congrArg valueF64 ((hsame i hi).2.2.2.exact (hv _ (List.getElem_mem hi)))
  have hw' : WFCurve p (valueCurve c.reread) := by
    refine ⟨hw.degree, by rw [hkn]; exact hw.clamped, by rw [hkn, hw.count, hlen, hlen'], fun i hi => ?_⟩
    rw [hlen', ← hlen] at hi
    rw [hwt i hi]
    exact hw.weights i hi
  obtain ⟨C, C', e, e', X⟩ := C105_same_weights (a := ⟨1, 0, 0⟩) (δ := 1 / 10 ^ 17) hw hw' hkn (fun i hi => by
    rw [hlen] at hi; rw [form_x, form_x, h1 i hi, h2 i hi]; exact value_same (hsame i hi).1) hwt h0 hx
  obtain ⟨D, D', f, f', Y⟩ := C105_same_weights (a := ⟨0, 1, 0⟩) (δ := 1 / 10 ^ 17) hw hw' hkn (fun i hi => by
    rw [hlen] at hi; rw [form_y, form_y, h1 i hi, h2 i hi]; exact value_same (hsame i hi).2.1) hwt h0 hx
  obtain ⟨E, E', g, g', Z⟩ := C105_same_weights (a := ⟨0, 0, 1⟩) (δ := 1 / 10 ^ 17) hw hw' hkn (fun i hi => by
    rw [hlen] at hi; rw [form_z, form_z, h1 i hi, h2 i hi]; exact value_same (hsame i hi).2.2.1) hwt h0 hx
  obtain rfl := Except.ok.inj (e.symm.trans f)
  obtain rfl := Except.ok.inj (e'.symm.trans f')
  obtain rfl := Except.ok.inj (e.symm.trans g)
  obtain rfl := Except.ok.inj (e'.symm.trans g')
  rw [form_x, form_x] at X
  rw [form_y, form_y] at Y
  rw [form_z, form_z] at Z
  exact ⟨C, C', e, e', X, Y, Z⟩

/-- C105 (text files of surfaces). -/
theorem C105_text_surface {p q m n : ℕ} {s : Surface F64} (hf : FiniteSurface s) (hku : ∀ x ∈ s.KnotsU.Values, Survives x)
    (hkv : ∀ x ∈ s.KnotsV.Values, Survives x) (hv : ∀ v ∈ s.ControlPoints.Values, Survives v.w) (hw : WFSurface p q m n (valueSurface s)) :
    ∃ file s', s.SaveToFile false = .ok file ∧ (∀ junk, Surface.LoadFromFile junk {} ⟨file, false⟩ = (.ok (), s', ⟨[], true⟩)) ∧
    ∀ u v : ℚ, 0 ≤ u → u ≤ 1 → 0 ≤ v → v ≤ 1 → ∃ S S', (valueSurface s).Evaluate u v = .ok S ∧ (valueSurface s').Evaluate u v = .ok S' ∧
      |S'.x - S.x| ≤ 1 / 10 ^ 17 ∧ |S'.y - S.y| ≤ 1 / 10 ^ 17 ∧ |S'.z - S.z| ≤ 1 / 10 ^ 17 := by
  refine ⟨_, s.reread, Surface.save_text' hf.uPos hf.vPos hf.storage, fun junk => ?_, fun u v hu0 hu1 hv0 hv1 => ?_⟩
  · rw [← Surface.reread_text hf, Surface.load_text (Surface.reread_survives hf)]
    rfl
  have hkn : (valueSurface s.reread).KnotsU = (valueSurface s).KnotsU := by
    show (⟨(s.KnotsU.Values.map reread).map valueF64⟩ : KnotVector ℚ) = ⟨s.KnotsU.Values.map valueF64⟩
    rw [reread_self hku]
  have hkn' : (valueSurface s.reread).KnotsV = (valueSurface s).KnotsV := by
    show (⟨(s.KnotsV.Values.map reread).map valueF64⟩ : KnotVector ℚ) = ⟨s.KnotsV.Values.map valueF64⟩
    rw [reread_self hkv]
  have hst : s.ControlPoints.Values.length = n * m := by
    have := hw.storage
    rwa [show (valueSurface s).ControlPoints.Values.length = s.ControlPoints.Values.length from List.length_map ..] at this
  have hm : s.ControlPoints.UCount.toNat = m := by
    have : s.ControlPoints.UCount = m := hw.uCount
    rw [this]; rfl
  have hin : ∀ i < m, ∀ j < n, j * m + i < s.ControlPoints.Values.length := fun i hi j hj => by
    rw [hst]
    calc j * m + i < j * m + m := by omega
      _ = (j + 1) * m := by ring
      _ ≤ n * m := Nat.mul_le_mul_right _ hj
  have h1 : ∀ i (hi : i < m) j (hj : j < n), cp (valueSurface s) i j = valuePoint (s.ControlPoints.Values[j * m + i]'(hin i hi j hj)) := fun i hi j hj => by
    show pt (s.ControlPoints.Values.map valuePoint) (j * s.ControlPoints.UCount.toNat + i) = _
    rw [hm, pt_value (hin i hi j hj)]
  have h2 : ∀ i (hi : i < m) j (hj : j < n), cp (valueSurface s.reread) i j = valuePoint (rereadPt (s.ControlPoints.Values[j * m + i]'(hin i hi j hj))) :=
    fun i hi j hj => by
    show pt ((s.ControlPoints.Values.map rereadPt).map valuePoint) (j * s.ControlPoints.UCount.toNat + i) = _
    rw [hm, pt_value (by simpa using hin i hi j hj), List.getElem_map]
  have hsame : ∀ i (hi : i < m) j (hj : j < n), PointSameTo17 (s.ControlPoints.Values[j * m + i]'(hin i hi j hj))
      (rereadPt (s.ControlPoints.Values[j * m + i]'(hin i hi j hj))) := fun i hi j hj => rereadPt_same (hf.points _ (List.getElem_mem _))
  have hwt : ∀ i < m, ∀ j < n, (cp (valueSurface s.reread) i j).w = (cp (valueSurface s) i j).w := by
    intro i hi j hj
    rw [h1 i hi j hj, h2 i hi j hj]
    exact congrArg valueF64 ((hsame i hi j hj).2.2.2.exact (hv _ (List.getElem_mem _)))
  have hw' : WFSurface p q m n (valueSurface s.reread) := by
    refine ⟨hw.degreeU, hw.degreeV, by rw [hkn]; exact hw.clampedU, by rw [hkn']; exact hw.clampedV, hw.uCount, hw.vCount,
      by rw [hkn]; exact hw.knotsU, by rw [hkn']; exact hw.knotsV, ?_, fun i hi j hj => ?_⟩
    · show ((s.ControlPoints.Values.map rereadPt).map valuePoint).length = n * m
      rw [List.length_map, List.length_map, hst]
    · rw [hwt i hi j hj]
      exact hw.weights i hi j hj
  obtain ⟨C, C', e, e', X⟩ := C105_surface_same_weights (a := ⟨1, 0, 0⟩) (δ := 1 / 10 ^ 17) hw hw' hkn hkn' (fun i hi j hj => by
    rw [form_x, form_x, h1 i hi j hj, h2 i hi j hj]; exact value_same (hsame i hi j hj).1) hwt hu0 hu1 hv0 hv1
  obtain ⟨D, D', f, f', Y⟩ := C105_surface_same_weights (a := ⟨0, 1, 0⟩) (δ := 1 / 10 ^ 17) hw hw' hkn hkn' (fun i hi j hj => by
    rw [form_y, form_y, h1 i hi j hj, h2 i hi j hj]; exact value_same (hsame i hi j hj).2.1) hwt hu0 hu1 hv0 hv1
  obtain ⟨E, E', g, g', Z⟩ := C105_surface_same_weights (a := ⟨0, 0, 1⟩) (δ := 1 / 10 ^ 17) hw hw' hkn hkn' (fun i hi j hj => by
    rw [form_z, form_z, h1 i hi j hj, h2 i hi j hj]; exact value_same (hsame i hi j hj).2.2.1) hwt hu0 hu1 hv0 hv1
  obtain rfl := Except.ok.inj (e.symm.trans f)
  obtain rfl := Except.ok.inj (e'.symm.trans f')
  obtain rfl := Except.ok.inj (e.symm.trans g)
  obtain rfl := Except.ok.inj (e'.symm.trans g')
  rw [form_x, form_x] at X
  rw [form_y, form_y] at Y
  rw [form_z, form_z] at Z
  exact ⟨C, C', e, e', X, Y, Z⟩

/-! ## Concrete cases -/

/-- A rational parabola. -/
def exBent : Curve ℚ := ⟨2, ⟨[0, 0, 0, 1/2, 1, 1, 1]⟩, [⟨0, 0, 0, 1⟩, ⟨1, 2, 0, 2⟩, ⟨3, 2, 1, 1⟩, ⟨4, 0, 0, 1⟩]⟩

/-- The same with one coordinate moved by `1/10` and one weight changed by `1/2`. -/
def exBent' : Curve ℚ := ⟨2, ⟨[0, 0, 0, 1/2, 1, 1, 1]⟩, [⟨0, 0, 0, 1⟩, ⟨1, 21/10, 0, 5/2⟩, ⟨3, 2, 1, 1⟩, ⟨4, 0, 0, 1⟩]⟩

theorem exBent_wf : WFCurve 2 exBent ∧ WFCurve 2 exBent' :=
  ⟨⟨by decide +kernel, ⟨by decide +kernel, by decide +kernel, by decide +kernel, by decide +kernel, by decide +kernel, by decide +kernel⟩,
    by decide +kernel, by decide +kernel⟩,
   ⟨by decide +kernel, ⟨by decide +kernel, by decide +kernel, by decide +kernel, by decide +kernel, by decide +kernel, by decide +kernel⟩,
    by decide +kernel, by decide +kernel⟩⟩

/-- `δ = 1/10`, `η = 1/2`, `D = 2` and `m = 1` in the direction of `y`; the points do move. -/
example : ∃ C C', exBent.Evaluate (1/4) = .ok C ∧ exBent'.Evaluate (1/4) = .ok C' ∧ |C'.y - C.y| ≤ 11/10 := by
  obtain ⟨C, C', e, e', h⟩ := C105_curve (a := ⟨0, 1, 0⟩) (δ := 1/10) (η := 1/2) (D := 2) (m := 1) exBent_wf.1 exBent_wf.2 rfl (by norm_num)
    (by decide +kernel) (by decide +kernel) (by decide +kernel) (by decide +kernel) (x := 1/4) (by norm_num) (by norm_num)
  rw [form_y, form_y] at h
  exact ⟨C, C', e, e', by norm_num at h ⊢; exact h⟩
example : exBent.Evaluate (1/4) ≠ exBent'.Evaluate (1/4) := by decide +kernel

/-- A curve with a coordinate that is lost in a text file. -/
def exFaint : Curve F64 := ⟨1, ⟨[0, 0, half, one, one]⟩, [⟨tiny, 0, 0, one⟩, ⟨one, tenth, 0, half⟩, ⟨0, one, tiny, one⟩]⟩

example : FiniteCurve exFaint ∧ WFCurve 1 (valueCurve exFaint) ∧ valueF64 tiny ≠ 0 :=
  ⟨⟨by decide, by simp [exFaint]; decide, by simp [exFaint]; decide⟩,
    ⟨by decide +kernel, ⟨by decide +kernel, by decide +kernel, by decide +kernel, by decide +kernel, by decide +kernel, by decide +kernel⟩,
    by decide +kernel, by decide +kernel⟩, by decide +kernel⟩
example : (∀ x ∈ exFaint.Knots.Values, Survives x) ∧ ∀ v ∈ exFaint.ControlPoints, Survives v.w := by
  constructor
  · simp only [exFaint, List.mem_cons, List.not_mem_nil, or_false]
    rintro x (rfl | rfl | rfl | rfl | rfl)
    exacts [survives_zero, survives_zero, survives_half, survives_one, survives_one]
  · simp only [exFaint, List.mem_cons, List.not_mem_nil, or_false]
    rintro v (rfl | rfl | rfl)
    exacts [survives_one, survives_half, survives_one]

example : FiniteSurface exSheet ∧ WFSurface 1 1 2 2 (valueSurface exSheet) :=
  ⟨⟨by decide, by decide, by simp [exSheet]; decide, by simp [exSheet]; decide, by decide, by decide, by decide, by decide, by simp [exSheet]; decide⟩,
   ⟨by decide +kernel, by decide +kernel,
    ⟨by decide +kernel, by decide +kernel, by decide +kernel, by decide +kernel, by decide +kernel, by decide +kernel⟩,
    ⟨by decide +kernel, by decide +kernel, by decide +kernel, by decide +kernel, by decide +kernel, by decide +kernel⟩,
    by decide +kernel, by decide +kernel, by decide +kernel, by decide +kernel, by decide +kernel, by decide +kernel⟩⟩

/-- Two sheets that differ in one coordinate and one weight. -/
def exSheetA : Surface ℚ := ⟨1, 1, ⟨[0, 0, 1, 1]⟩, ⟨[0, 0, 1, 1]⟩, ⟨2, 2, [⟨0, 0, 0, 1⟩, ⟨1, 0, 0, 2⟩, ⟨0, 1, 0, 1⟩, ⟨1, 1, 1, 1⟩]⟩⟩
def exSheetB : Surface ℚ := ⟨1, 1, ⟨[0, 0, 1, 1]⟩, ⟨[0, 0, 1, 1]⟩, ⟨2, 2, [⟨0, 0, 0, 1⟩, ⟨1, 0, 0, 3⟩, ⟨0, 1, 0, 1⟩, ⟨1, 1, 9/10, 1⟩]⟩⟩

theorem exSheetA_wf : WFSurface 1 1 2 2 exSheetA ∧ WFSurface 1 1 2 2 exSheetB :=
  ⟨⟨by decide +kernel, by decide +kernel,
    ⟨by decide +kernel, by decide +kernel, by decide +kernel, by decide +kernel, by decide +kernel, by decide +kernel⟩,
    ⟨by decide +kernel, by decide +kernel, by decide +kernel, by decide +kernel, by decide +kernel, by decide +kernel⟩,
    by decide +kernel, by decide +kernel, by decide +kernel, by decide +kernel, by decide +kernel, by decide +kernel⟩,
   ⟨by decide +kernel, by decide +kernel,
    ⟨by decide +kernel, by decide +kernel, by decide +kernel, by decide +kernel, by decide +kernel, by decide +kernel⟩,
    ⟨by decide +kernel, by decide +kernel, by decide +kernel, by decide +kernel, by decide +kernel, by decide +kernel⟩,
    by decide +kernel, by decide +kernel, by decide +kernel, by decide +kernel, by decide +kernel, by decide +kernel⟩⟩

example : ∃ C C', exSheetA.Evaluate (1/2) (1/2) = .ok C ∧ exSheetB.Evaluate (1/2) (1/2) = .ok C' ∧
    |form ⟨0, 0, 1⟩ C'.x C'.y C'.z - form ⟨0, 0, 1⟩ C.x C.y C.z| ≤ (1/10 + 1 * 1 / 1 : ℚ) :=
  C105_surface (a := ⟨0, 0, 1⟩) (δ := 1/10) (η := 1) (D := 1) (w := 1) exSheetA_wf.1 exSheetA_wf.2 rfl rfl (by norm_num)
    (by decide +kernel) (by decide +kernel) (by decide +kernel) (by decide +kernel) (by norm_num) (by norm_num) (by norm_num) (by norm_num)

end Nurbs.Props
