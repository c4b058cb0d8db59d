import Verif.Proof.Reweigh
import Verif.Props.PlacementEdit

/-! # C114: only the ratios of the weights count -/

set_option linter.unusedSectionVars false

namespace Nurbs.Props
open Nurbs Nurbs.Spec KnotRemovalImpl

variable {K : Type} [Field K] [LinearOrder K] [IsStrictOrderedRing K]

/-! ### The factor as a placement -/

/-- The placement that leaves the positions and multiplies the weights by `a`. -/
def weightPlace (a : K) : Placement K := ⟨⟨⟨1, 0, 0⟩, ⟨0, 1, 0⟩, ⟨0, 0, 1⟩⟩, 0, a⟩

theorem weight_R (a : K) (v : Vec3 K) : matApply (weightPlace a).R v = v := by
  ext <;> simp [weightPlace, matApply]

theorem weight_pos (a : K) (v : Vec3 K) : (weightPlace a).pos v = v := by
  unfold Placement.pos
  rw [weight_R]
  ext <;> simp [weightPlace]

theorem weight_cpt (a : K) : (weightPlace a).cpt = fun v => ⟨v.x, v.y, v.z, a * v.w⟩ := by
  funext v
  unfold Placement.cpt
  rw [weight_pos]
  rfl

theorem weight_orth (a : K) : IsOrthogonal (weightPlace a).R := by
  intro v w
  rw [weight_R, weight_R]

theorem reweigh_eq (a : K) (c : Curve K) : (weightPlace a).curve c = reweigh a c := by
  unfold Placement.curve reweigh
  rw [weight_cpt]

theorem reweighS_eq (a : K) (s : Surface K) : (weightPlace a).surface s = reweighS a s := by
  unfold Placement.surface reweighS
  rw [weight_cpt]

/-- The weights multiplied by `a`, as a linear map. -/
def factorL (a : K) : Vec4 K →ₗ[K] Vec4 K where
  toFun v := ⟨v.x, v.y, v.z, a * v.w⟩
  map_add' v w := by ext <;> simp [mul_add]
  map_smul' c v := by ext <;> simp; ring

theorem factorL_eq (a : K) : (fun v : Vec4 K => (⟨v.x, v.y, v.z, a * v.w⟩ : Vec4 K)) = factorL a := rfl

theorem factorL_toHomo (a : K) (v : Vec4 K) : ToHomo (factorL a v) = scaleL a (ToHomo v) := by
  rw [scaleL_apply]
  ext <;> simp [factorL, ToHomo] <;> ring

theorem factorL_fromHomo {a : K} (ha : a ≠ 0) (v : Vec4 K) : FromHomo (scaleL a v) = Except.map (factorL a) (FromHomo v) := by
  rw [scaleL_apply]
  unfold FromHomo fdiv
  by_cases h : v.w = 0
  · simp [h]
  · have h' : a * v.w ≠ 0 := mul_ne_zero ha h
    simp only [Vec4.smul_w, Vec4.smul_x, Vec4.smul_y, Vec4.smul_z, if_neg h, if_neg h', bind_ok, emap_ok]
    congr 1
    ext <;> simp [factorL] <;> field_simp

/-! ### What does not notice the factor -/

/-- C114 (points and derivatives of a curve). -/
theorem C114_evaluate {p : ℕ} {c : Curve K} (hw : WFCurve p c) {a : K} (ha : 0 < a) {x : K} (h0 : 0 ≤ x) (h1 : x ≤ 1) :
    (∃ C, c.Evaluate x = .ok C ∧ (reweigh a c).Evaluate x = .ok C) ∧
    ∀ order : ℕ, 1 ≤ order → order ≤ 29 →
      ∃ D, c.EvaluateDerivative x order = .ok D ∧ (reweigh a c).EvaluateDerivative x order = .ok D := by
  rw [← reweigh_eq]
  constructor
  · obtain ⟨C, e, e'⟩ := C91_evaluate hw (P := weightPlace a) ha h0 h1
    exact ⟨C, e, by rw [e', weight_pos]⟩
  · intro order h1' h2
    obtain ⟨D, e, e'⟩ := C91_derivative hw (P := weightPlace a) ha h0 h1 order h2 h1'
    exact ⟨D, e, by rw [e', weight_R]⟩

/-- C114 (points and derivatives of a surface). -/
theorem C114_evaluate_surface {p q m n : ℕ} {s : Surface K} (hw : WFSurface p q m n s) {a : K} (ha : 0 < a) {u v : K} (hu0 : 0 ≤ u) (hu1 : u ≤ 1)
    (hv0 : 0 ≤ v) (hv1 : v ≤ 1) :
    (∃ S, s.Evaluate u v = .ok S ∧ (reweighS a s).Evaluate u v = .ok S) ∧
    ∀ k l : ℕ, k ≤ 29 → l ≤ 29 → k.choose (k / 2) * l.choose (l / 2) ≤ 2147483647 → 1 ≤ k + l →
      ∃ D, s.EvaluateDerivative u v k l = .ok D ∧ (reweighS a s).EvaluateDerivative u v k l = .ok D := by
  rw [← reweighS_eq]
  constructor
  · obtain ⟨C, e, e'⟩ := C91_evaluate_surface hw (P := weightPlace a) ha hu0 hu1 hv0 hv1
    exact ⟨C, e, by rw [e', weight_pos]⟩
  · intro k l hk hl hp hpos
    obtain ⟨D, e, e'⟩ := C91_derivative_surface hw (P := weightPlace a) ha hu0 hu1 hv0 hv1 k l hk hl hp hpos
    exact ⟨D, e, by rw [e', weight_R]⟩

/-- C114 (searches of a curve). -/
theorem C114_search {p : ℕ} {c : Curve K} (hw : WFCurve p c) {a : K} (ha : 0 < a) (sqrt : K → K) (pt : Vec3 K) :
    (∀ fuel init eps count, (reweigh a c).SearchParameter sqrt fuel pt init eps count = c.SearchParameter sqrt fuel pt init eps count) ∧
    ∀ eps count, (reweigh a c).BinarySearchParameter sqrt pt eps count = c.BinarySearchParameter sqrt pt eps count := by
  have h := C91_search hw (P := weightPlace a) ha (weight_orth a) sqrt pt
  rwa [weight_pos, reweigh_eq] at h

/-- C114 (searches of a surface). -/
theorem C114_search_surface {p q m n : ℕ} {s : Surface K} (hw : WFSurface p q m n s) {a : K} (ha : 0 < a) (sqrt : K → K) (pt : Vec3 K) (fuel : ℕ) :
    (∀ u v eps count, (reweighS a s).SearchParameter sqrt fuel pt u v eps count = s.SearchParameter sqrt fuel pt u v eps count) ∧
    (∀ dir const init eps count, (reweighS a s).SearchParameterOn sqrt fuel pt dir const init eps count =
      s.SearchParameterOn sqrt fuel pt dir const init eps count) ∧
    ∀ dir const eps count, (reweighS a s).BinarySearchParameterOn sqrt fuel pt dir const eps count =
      s.BinarySearchParameterOn sqrt fuel pt dir const eps count := by
  have h := C91_search_surface hw (P := weightPlace a) ha (weight_orth a) sqrt pt fuel
  rwa [weight_pos, reweighS_eq] at h

/-- C114 (insertion). -/
theorem C114_insert {p : ℕ} {c : Curve K} (hw : WFCurve p c) {a : K} (ha : 0 < a) (vs : List K) (hv : ∀ v ∈ vs, 0 < v ∧ v < 1) :
    ∃ c', c.InsertKnotList vs = .ok c' ∧ (reweigh a c).InsertKnotList vs = .ok (reweigh a c') := by
  have h := C91_insertKnotList vs hv hw (P := weightPlace a) ha
  simpa only [reweigh_eq] using h

/-- C114 (insertion into a surface). -/
theorem C114_insert_surface {p q m n : ℕ} {s : Surface K} (hw : WFSurface p q m n s) {a : K} (ha : 0 < a) (vs : List K)
    (hv : ∀ v ∈ vs, 0 < v ∧ v < 1) :
    (1 ≤ p → ∃ s', s.InsertKnotUList vs = .ok s' ∧ (reweighS a s).InsertKnotUList vs = .ok (reweighS a s')) ∧
    (1 ≤ q → ∃ s', s.InsertKnotVList vs = .ok s' ∧ (reweighS a s).InsertKnotVList vs = .ok (reweighS a s')) := by
  have h := C91_insert_surface hw (P := weightPlace a) ha vs hv
  simpa only [reweighS_eq] using h

/-- C114 (extraction and bounding box). -/
theorem C114_extract {p : ℕ} (hp : 1 ≤ p) {c : Curve K} (hw : WFCurve p c) (hmult : ∀ v, 0 < v → v < 1 → c.Knots.Values.count v ≤ p)
    {a : K} (ha : 0 < a) :
    (∃ segs, c.ExtractBezier = .ok segs ∧ (reweigh a c).ExtractBezier = .ok (segs.map (reweigh a))) ∧
    ∀ sqrt fuel eps, (reweigh a c).GetBoundingBox sqrt fuel eps = c.GetBoundingBox sqrt fuel eps := by
  have h := C91_extractBezier hp hw hmult (P := weightPlace a) ha
  have e : (weightPlace a).curve = reweigh a := funext (reweigh_eq a)
  rw [e] at h
  refine ⟨h, fun sqrt fuel eps => ?_⟩
  obtain ⟨segs, e1, e2⟩ := h
  unfold Curve.GetBoundingBox
  rw [e1, e2]
  simp only [bind_ok]
  have hb := boxes_sim (L := factorL a) (fun v => rfl) sqrt c.Degree eps fuel (reweigh a) (fun c => rfl) segs
    (List.replicate (c.Degree + 1).toNat (List.replicate (c.Degree + 1).toNat (0 : Vec4 K)), none)
  simp only [List.map_replicate, map_zero] at hb
  show (foldMList _ _ _ >>= _) = _
  have hd : (reweigh a c).Degree = c.Degree := rfl
  rw [hd, hb]
  cases foldMList (fun (seg : Curve K) (s : List (List (Vec4 K)) × Option (BoundingBox K)) =>
    Curve.boxLoop sqrt c.Degree eps fuel [seg.ControlPoints] s.1 s.2) segs
    (List.replicate (c.Degree + 1).toNat (List.replicate (c.Degree + 1).toNat (0 : Vec4 K)), none) <;> rfl

/-- C114 (elevation), for every curve, well-formed or not. -/
theorem C114_elevate {a : K} (ha : a ≠ 0) (c : Curve K) (times : Int) :
    (reweigh a c).ElevateDegree times = Except.map (reweigh a) (c.ElevateDegree times) := by
  have e : (weightPlace a).curve = reweigh a := funext (reweigh_eq a)
  rw [← e]
  exact C91_elevate (weightPlace a) ha c times

theorem reweighS_smap (a : K) : reweighS a = smap (factorL a) := rfl

/-- C114 (elevation of surfaces), well-formed or not. -/
theorem C114_elevate_surface {a : K} (ha : a ≠ 0) (s : Surface K) (times : Int) :
    (reweighS a s).ElevateDegreeU times = Except.map (reweighS a) (s.ElevateDegreeU times) ∧
    (reweighS a s).ElevateDegreeV times = Except.map (reweighS a) (s.ElevateDegreeV times) := by
  have hel := fun (kv : KnotVector K) (points : List (Vec4 K)) (degree times : Int) =>
    elevation_sim (scaleL a) (factorL a) (factorL_toHomo a) (factorL_fromHomo ha) kv points degree times
  rw [reweighS_smap]
  constructor
  · unfold Surface.ElevateDegreeU
    refine sim_bind (gmk_sim (factorL a) _ _) fun g => ?_
    refine forLt_sim (f := smap (factorL a)) (fun i r => ?_) _ _ { s with ControlPoints := g }
    refine sim_bind (getV_sim _ s.ControlPoints i) fun pts => ?_
    refine sim_bind (hel r.KnotsU pts r.DegreeU times) ?_
    rintro ⟨kn, pts, deg⟩
    by_cases hc : i = s.ControlPoints.VCount - 1
    · have hc' : i = (smap (factorL a) s).ControlPoints.VCount - 1 := hc
      simp only [if_pos hc, if_pos hc']
      exact sim_bind (setV_sim _ r.ControlPoints i pts) fun g => rfl
    · have hc' : ¬ i = (smap (factorL a) s).ControlPoints.VCount - 1 := hc
      simp only [if_neg hc, if_neg hc']
      exact sim_bind (setV_sim _ r.ControlPoints i pts) fun g => rfl
  · unfold Surface.ElevateDegreeV
    refine sim_bind (gmk_sim (factorL a) _ _) fun g => ?_
    refine forLt_sim (f := smap (factorL a)) (fun i r => ?_) _ _ { s with ControlPoints := g }
    refine sim_bind (getU_sim _ s.ControlPoints i) fun pts => ?_
    refine sim_bind (hel r.KnotsV pts r.DegreeV times) ?_
    rintro ⟨kn, pts, deg⟩
    by_cases hc : i = s.ControlPoints.UCount - 1
    · have hc' : i = (smap (factorL a) s).ControlPoints.UCount - 1 := hc
      simp only [if_pos hc, if_pos hc']
      exact sim_bind (setU_sim _ r.ControlPoints i pts) fun g => rfl
    · have hc' : ¬ i = (smap (factorL a) s).ControlPoints.UCount - 1 := hc
      simp only [if_neg hc, if_neg hc']
      exact sim_bind (setU_sim _ r.ControlPoints i pts) fun g => rfl

/-! ### Removal notices it -/

/-- C114, refuted for removal: the knot is removed from the curve, but not if all weights – all equal – are multiplied by 5/3.  The
points of the two curves are the same, and the tolerance is the same. -/
theorem C114_remove_refuted :
    (exPeak.RemoveKnot exPythRoot (1/2) 1 15).map (fun r => r.2) = .ok 1 ∧
    ((reweigh (5/3) exPeak).RemoveKnot exPythRoot (1/2) 1 15).map (fun r => r.2) = .ok 0 := by
  decide +kernel

/-- C114, refuted for removal: measured in another unit (coordinates and tolerance multiplied by 5/3) the knot is not removed. -/
theorem C114_units_refuted :
    (exPeak.RemoveKnot exPythRoot (1/2) 1 15).map (fun r => r.2) = .ok 1 ∧
    ((rescale (5/3) exPeak).RemoveKnot exPythRoot (1/2) 1 (5/3 * 15)).map (fun r => r.2) = .ok 0 := by
  decide +kernel

theorem foldl_pair {α : Type} (f g : K → α → K) (l : List α) : ∀ s : K × K,
    l.foldl (fun (s : K × K) v => (f s.1 v, g s.2 v)) s = (l.foldl f s.1, l.foldl g s.2) := by
  induction l with
  | nil => intro s; rfl
  | cons x l ih => intro s; exact ih _

theorem foldl_min_scale {a : K} (ha : 0 < a) (w : Vec4 K → K) (l : List (Vec4 K)) : ∀ m : K,
    l.foldl (fun m v => min m (a * w v)) (a * m) = a * l.foldl (fun m v => min m (w v)) m := by
  induction l with
  | nil => intro m; rfl
  | cons x l ih =>
    intro m
    rw [List.foldl_cons, List.foldl_cons, ← mul_min_of_nonneg _ _ ha.le, ih]

theorem foldl_max_scale {a : K} (ha : 0 < a) (w : Vec4 K → K) (l : List (Vec4 K)) : ∀ m : K,
    l.foldl (fun m v => max m (a * w v)) (a * m) = a * l.foldl (fun m v => max m (w v)) m := by
  induction l with
  | nil => intro m; rfl
  | cons x l ih =>
    intro m
    rw [List.foldl_cons, List.foldl_cons, ← mul_max_of_nonneg _ _ ha.le, ih]

theorem foldl_max_top (w : Vec4 K → K) (D : K) (l : List (Vec4 K)) (hle : ∀ v ∈ l, w v ≤ D) : ∀ m : K, m ≤ D → (m = D ∨ ∃ v ∈ l, w v = D) →
    l.foldl (fun m v => max m (w v)) m = D := by
  induction l with
  | nil => rintro m _ (h | ⟨v, hv, _⟩); exacts [h, absurd hv (by simp)]
  | cons x l ih =>
    intro m hm h
    rw [List.foldl_cons]
    have hx := hle x (by simp)
    refine ih (fun v hv => hle v (by simp [hv])) _ (max_le hm hx) ?_
    rcases h with rfl | ⟨v, hv, e⟩
    · exact .inl (max_eq_left hx)
    · rcases List.mem_cons.1 hv with rfl | hv
      · exact .inl (by rw [e]; exact max_eq_right hm)
      · exact .inr ⟨v, hv, e⟩

theorem calcTOL_scale {sqrt : K → K} {a : K} (ha : 0 < a) (hs : ∀ x, 0 ≤ x → sqrt (a ^ 2 * x) = a * sqrt x) (l : List (Vec4 K))
    (hw : ∀ v ∈ l, v.w ≤ 1000000000000) (hw' : ∀ v ∈ l, a * v.w ≤ 1000000000000) {D : K} (hD : 0 ≤ D)
    (hle : ∀ v ∈ l, v.head3.norm sqrt ≤ D) (hex : ∃ v ∈ l, v.head3.norm sqrt = D) {eps eps' : K} (he : eps' * (1 + D) = eps * (1 + a * D)) :
    CalcTOL sqrt (l.map (scaleL a)) eps' = Except.map (a * ·) (CalcTOL sqrt l eps) := by
  have hD1 : (1 + D) ≠ 0 := by positivity
  have hD2 : (1 + a * D) ≠ 0 := by positivity
  unfold CalcTOL
  rw [List.foldl_map]
  simp only [scale_norm3 hs]
  simp only [scaleL_apply, Vec4.smul_w]
  rw [foldl_pair (fun m v => min m (a * v.w)) (fun m (v : Vec4 K) => max m (a * v.head3.norm sqrt)),
    foldl_pair (fun m v => min m v.w) (fun m (v : Vec4 K) => max m (v.head3.norm sqrt))]
  have hmax := foldl_max_scale ha (fun v : Vec4 K => v.head3.norm sqrt) l 0
  rw [mul_zero] at hmax
  simp only [hmax, foldl_max_top (fun v : Vec4 K => v.head3.norm sqrt) D l hle 0 hD (.inr hex)]
  have hmin : l.foldl (fun m v => min m (a * v.w)) 1000000000000 = a * l.foldl (fun m v => min m v.w) (1000000000000 : K) := by
    obtain ⟨v, hv, _⟩ := hex
    cases l with
    | nil => cases hv
    | cons x l =>
      rw [List.foldl_cons, List.foldl_cons, min_eq_right (hw x (by simp)), min_eq_right (hw' x (by simp)), foldl_min_scale ha fun v : Vec4 K => v.w]
  rw [hmin]
  unfold fdiv
  rw [if_neg hD1, if_neg hD2]
  show Except.ok _ = Except.ok _
  congr 1
  simp only
  rw [div_eq_iff hD2, mul_div_assoc', div_mul_eq_mul_div, eq_div_iff hD1]
  linear_combination a * l.foldl (fun m v => min m v.w) (1000000000000 : K) * he

theorem sqrt_factor {sqrt : K → K} (hsq : ∀ x, 0 ≤ x → 0 ≤ sqrt x ∧ sqrt x * sqrt x = x) {a : K} (ha : 0 < a) (x : K) (hx : 0 ≤ x) :
    sqrt (a ^ 2 * x) = a * sqrt x := by
  obtain ⟨h1, h2⟩ := hsq x hx
  obtain ⟨h3, h4⟩ := hsq (a ^ 2 * x) (by positivity)
  have h5 : 0 ≤ a * sqrt x := by positivity
  refine (mul_self_inj h3 h5).1 ?_
  linear_combination h4 - a ^ 2 * h2

/-- C114 (removal), the part that holds: the factor `a` acts as a change of the tolerance.  Where `D` is the largest weighted
distance of a control point from the origin, removal with tolerance `eps` from the curve and removal with tolerance `eps'` from the curve
with weights times `a` go the same way, where `eps' (1 + D) = eps (1 + a D)` – so the tolerance has to grow with `a`, towards `a eps` for curves far
from the origin.  They fail in the same way, remove the same number of knots, and where a knot is removed the resulting curves
again differ by the factor. -/
theorem C114_remove_partial {sqrt : K → K} (hsq : ∀ x, 0 ≤ x → 0 ≤ sqrt x ∧ sqrt x * sqrt x = x) {c : Curve K} {a : K} (ha : 0 < a) {D : K}
    (hD : LargestReach c D) (hw : ∀ v ∈ c.ControlPoints, v.w ≤ 1000000000000 ∧ a * v.w ≤ 1000000000000) (u : K) (times : Int) {eps eps' : K}
    (he : eps' * (1 + D) = eps * (1 + a * D)) :
    (∀ e, c.RemoveKnot sqrt u times eps = .error e → (reweigh a c).RemoveKnot sqrt u times eps' = .error e) ∧
    ∀ c' t, c.RemoveKnot sqrt u times eps = .ok (c', t) →
      ∃ c'', (reweigh a c).RemoveKnot sqrt u times eps' = .ok (c'', t) ∧ (t ≠ 0 → c'' = reweigh a c') := by
  have hs := fun x hx => sqrt_factor hsq ha x hx
  have hnorm : ∀ v : Vec4 K, (ToHomo v).head3.norm sqrt * (ToHomo v).head3.norm sqrt =
      (v.w * v.x) ^ 2 + (v.w * v.y) ^ 2 + (v.w * v.z) ^ 2 ∧ 0 ≤ (ToHomo v).head3.norm sqrt := by
    intro v
    obtain ⟨h1, h2⟩ := hsq ((ToHomo v).head3.dot (ToHomo v).head3) (by unfold Vec3.dot; simp only [← sq]; positivity)
    refine ⟨h2.trans ?_, h1⟩
    simp only [Vec3.dot, Vec4.head3, ToHomo]
    ring
  obtain ⟨hD0, hDle, v, hv, hDv⟩ := hD
  have htol : CalcTOL sqrt ((c.ControlPoints.map ToHomo).map (scaleL a)) eps' = Except.map (a * ·) (CalcTOL sqrt (c.ControlPoints.map ToHomo) eps) := by
    refine calcTOL_scale ha hs _ ?_ ?_ hD0 ?_ ?_ he
    · intro x hx
      obtain ⟨y, hy, rfl⟩ := List.mem_map.1 hx
      exact (hw y hy).1
    · intro x hx
      obtain ⟨y, hy, rfl⟩ := List.mem_map.1 hx
      exact (hw y hy).2
    · intro x hx
      obtain ⟨y, hy, rfl⟩ := List.mem_map.1 hx
      refine le_of_not_gt fun hlt => ?_
      have := mul_self_lt_mul_self hD0 hlt
      have := hDle y hy
      have := (hnorm y).1
      nlinarith
    · refine ⟨_, List.mem_map_of_mem hv, ?_⟩
      refine (mul_self_inj (hnorm v).2 hD0).1 ?_
      rw [(hnorm v).1, hDv, sq]
  have key : (reweigh a c).RemoveKnot sqrt u times eps' =
      Except.map (fun r : Curve K × Int => ((⟨r.1.Degree, r.1.Knots, r.1.ControlPoints.map (if r.2 = 0 then scaleL a else factorL a)⟩ : Curve K), r.2))
        (c.RemoveKnot sqrt u times eps) := by
    unfold Curve.RemoveKnot
    refine sim_same fun _ => sim_same fun _ => ?_
    exact sim_bind (removal_scale ha hs (f := factorL a) (factorL_toHomo a) (factorL_fromHomo ha.ne') c.Knots c.ControlPoints c.Degree u times htol) fun s => rfl
  rw [key]
  refine ⟨fun e h => by rw [h]; rfl, fun c' t h => ?_⟩
  rw [h]
  refine ⟨_, rfl, fun ht => ?_⟩
  simp only [if_neg ht]
  rfl

/-! ### Concrete cases -/

/-- The factor 3 on a rational curve: points, derivatives, insertion. -/
example : (∃ C, exCurve.Evaluate (1/4) = .ok C ∧ (reweigh 3 exCurve).Evaluate (1/4) = .ok C) ∧
    (reweigh 3 exCurve).ControlPoints ≠ exCurve.ControlPoints ∧
    ∃ c', exCurve.InsertKnotList [1/3] = .ok c' ∧ (reweigh 3 exCurve).InsertKnotList [1/3] = .ok (reweigh 3 c') :=
  ⟨(C114_evaluate exCurve_wf (by norm_num) (by norm_num) (by norm_num)).1, by decide +kernel,
    C114_insert exCurve_wf (by norm_num) _ (by simp; norm_num)⟩

/-- The tolerance that belongs to the factor 5/3 for `exPeak`, whose largest weighted distance is 3: `45/2` instead of `15`, and with it
the knot is removed. -/
example : LargestReach exPeak 3 ∧ (45/2 : ℚ) * (1 + 3) = 15 * (1 + 5/3 * 3) ∧
    ((reweigh (5/3) exPeak).RemoveKnot exPythRoot (1/2) 1 (45/2)).map (fun r => r.2) = .ok 1 := by
  refine ⟨⟨by norm_num, by decide +kernel, by decide +kernel⟩, by norm_num, by decide +kernel⟩

end Nurbs.Props
