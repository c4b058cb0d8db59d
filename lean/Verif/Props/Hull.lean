import Verif.Props.Bezier
import Verif.Props.Elevate
import Verif.Props.SurfaceInsert

/-! # C89: refinement stays in the convex hull of the control points

Knot insertion, the extraction of Bezier pieces and degree elevation compute new control points.  They are meant to cut
corners: no new control point leaves the convex hull of the old ones, and no new weight leaves the range of the old weights. -/

namespace Nurbs.Props
open Nurbs Nurbs.Spec

set_option linter.unusedSectionVars false

variable {K : Type} [Field K] [LinearOrder K] [IsStrictOrderedRing K]

/-- The point `(P.x, P.y, P.z)` is in the half-space `a · X ≤ b`. -/
def InHalf (a : Vec3 K) (b : K) (P : Vec4 K) : Prop := a.x * P.x + a.y * P.y + a.z * P.z ≤ b

/-- Every half-space that contains all points of `old` contains all points of `new` (that is, the new points are in the
convex hull of the old ones), and every interval that contains all weights of `old` contains those of `new`. -/
def HullKept (old new : List (Vec4 K)) : Prop :=
  (∀ a b, (∀ P ∈ old, InHalf a b P) → ∀ P ∈ new, InHalf a b P) ∧
  (∀ lo hi, (∀ P ∈ old, lo ≤ P.w ∧ P.w ≤ hi) → ∀ P ∈ new, lo ≤ P.w ∧ P.w ≤ hi)

/-- `b w - a · (x, y, z)`. -/
def halfL (a : Vec3 K) (b : K) : Vec4 K →ₗ[K] K where
  toFun h := b * h.w - (a.x * h.x + a.y * h.y + a.z * h.z)
  map_add' := by intro u v; simp only [Vec4.add_x, Vec4.add_y, Vec4.add_z, Vec4.add_w]; ring
  map_smul' := by intro c v; simp only [Vec4.smul_x, Vec4.smul_y, Vec4.smul_z, Vec4.smul_w, RingHom.id_apply, smul_eq_mul]; ring

def weightL : Vec4 K →ₗ[K] K where
  toFun h := h.w
  map_add' := by intro u v; rfl
  map_smul' := by intro c v; rfl

theorem halfL_iff {a : Vec3 K} {b : K} {P : Vec4 K} (h : 0 < P.w) : 0 ≤ halfL a b (ToHomo P) + 0 ↔ InHalf a b P := by
  have e : halfL a b (ToHomo P) + 0 = P.w * (b - (a.x * P.x + a.y * P.y + a.z * P.z)) := by
    show b * P.w - (a.x * (P.x * P.w) + a.y * (P.y * P.w) + a.z * (P.z * P.w)) + 0 = _
    ring
  rw [e, InHalf, mul_nonneg_iff_of_pos_left h, sub_nonneg]

theorem mem_pt {l : List (Vec4 K)} {P : Vec4 K} : P ∈ l ↔ ∃ i < l.length, pt l i = P := by
  constructor
  · intro h
    obtain ⟨i, hi, rfl⟩ := List.getElem_of_mem h
    exact ⟨i, hi, by simp [pt, hi]⟩
  · rintro ⟨i, hi, rfl⟩
    simp [pt, hi]

theorem hullKept_of {I J : Type} {f : I → Vec4 K} {g : J → Vec4 K} {P P' : List (Vec4 K)}
    (hP : ∀ Q, Q ∈ P ↔ ∃ i, f i = Q) (hP' : ∀ Q, Q ∈ P' ↔ ∃ j, g j = Q) (w : ∀ i, 0 < (f i).w) (w' : ∀ j, 0 < (g j).w)
    (h : ∀ (L : Vec4 K →ₗ[K] K) (b : K), (∀ i, 0 ≤ L (ToHomo (f i)) + b) → ∀ j, 0 ≤ L (ToHomo (g j)) + b) : HullKept P P' := by
  refine ⟨fun a b ho Q hQ => ?_, fun lo hi ho Q hQ => ?_⟩
  · obtain ⟨j, rfl⟩ := (hP' Q).mp hQ
    exact (halfL_iff (w' j)).mp (h (halfL a b) 0 (fun i => (halfL_iff (w i)).mpr (ho _ ((hP _).mpr ⟨i, rfl⟩))) j)
  · obtain ⟨j, rfl⟩ := (hP' Q).mp hQ
    have h1 := h weightL (-lo) (fun i => by
      have := (ho _ ((hP _).mpr ⟨i, rfl⟩)).1
      show 0 ≤ (f i).w + -lo
      linarith) j
    have h2 := h (-weightL) hi (fun i => by
      have := (ho _ ((hP _).mpr ⟨i, rfl⟩)).2
      show 0 ≤ -(f i).w + hi
      linarith) j
    have h1' : 0 ≤ (g j).w + -lo := h1
    have h2' : 0 ≤ -(g j).w + hi := h2
    constructor <;> linarith

theorem hullKept_curve {P P' : List (Vec4 K)} (w : ∀ i < P.length, 0 < (pt P i).w) (w' : ∀ i < P'.length, 0 < (pt P' i).w)
    (h : InHull P P') : HullKept P P' := by
  refine hullKept_of (I := {i // i < P.length}) (J := {i // i < P'.length}) (f := fun i => pt P i) (g := fun i => pt P' i)
    (fun Q => ?_) (fun Q => ?_) (fun i => w i i.2) (fun i => w' i i.2) (fun L b hL j => h L b (fun i hi => hL ⟨i, hi⟩) j j.2)
  · rw [mem_pt]
    exact ⟨fun ⟨i, hi, e⟩ => ⟨⟨i, hi⟩, e⟩, fun ⟨⟨i, hi⟩, e⟩ => ⟨i, hi, e⟩⟩
  · rw [mem_pt]
    exact ⟨fun ⟨i, hi, e⟩ => ⟨⟨i, hi⟩, e⟩, fun ⟨⟨i, hi⟩, e⟩ => ⟨i, hi, e⟩⟩

theorem mem_grid {p q m n : ℕ} {s : Surface K} (hw : WFSurface p q m n s) {Q : Vec4 K} :
    Q ∈ s.ControlPoints.Values ↔ ∃ i < m, ∃ j < n, cp s i j = Q := by
  rw [mem_pt, hw.storage]
  have hu : s.ControlPoints.UCount.toNat = m := by rw [hw.uCount]; simp
  have e : ∀ i j, cp s i j = pt s.ControlPoints.Values (j * m + i) := fun i j => by unfold cp pt; rw [hu]
  constructor
  · rintro ⟨k, hk, rfl⟩
    have hm : 0 < m := by
      rcases Nat.eq_zero_or_pos m with h | h
      · rw [h, Nat.mul_zero] at hk; omega
      · exact h
    refine ⟨k % m, Nat.mod_lt _ hm, k / m, Nat.div_lt_of_lt_mul (by rwa [Nat.mul_comm]), ?_⟩
    rw [e]
    congr 1
    exact Nat.div_add_mod' k m
  · rintro ⟨i, hi, j, hj, rfl⟩
    refine ⟨j * m + i, ?_, (e i j).symm⟩
    calc j * m + i < j * m + m := by omega
      _ = (j + 1) * m := by ring
      _ ≤ n * m := Nat.mul_le_mul_right _ hj

theorem hullKept_surface {p q m n p' q' m' n' : ℕ} {s s' : Surface K} (hw : WFSurface p q m n s) (hw' : WFSurface p' q' m' n' s')
    (h : InHullS m n s m' n' s') : HullKept s.ControlPoints.Values s'.ControlPoints.Values := by
  refine hullKept_of (I := {i : ℕ × ℕ // i.1 < m ∧ i.2 < n}) (J := {i : ℕ × ℕ // i.1 < m' ∧ i.2 < n'})
    (f := fun i => cp s i.1.1 i.1.2) (g := fun i => cp s' i.1.1 i.1.2)
    (fun Q => ?_) (fun Q => ?_) (fun i => hw.weights _ i.2.1 _ i.2.2) (fun i => hw'.weights _ i.2.1 _ i.2.2)
    (fun L b hL j => h L b (fun i hi j hj => hL ⟨(i, j), hi, hj⟩) _ j.2.1 _ j.2.2)
  · rw [mem_grid hw]
    exact ⟨fun ⟨i, hi, j, hj, e⟩ => ⟨⟨(i, j), hi, hj⟩, e⟩, fun ⟨⟨(i, j), hi, hj⟩, e⟩ => ⟨i, hi, j, hj, e⟩⟩
  · rw [mem_grid hw']
    exact ⟨fun ⟨i, hi, j, hj, e⟩ => ⟨⟨(i, j), hi, hj⟩, e⟩, fun ⟨⟨(i, j), hi, hj⟩, e⟩ => ⟨i, hi, j, hj, e⟩⟩

/-! ### Curves -/

/-- C89 for `InsertKnot(value)`. -/
theorem C89_insertKnot {p : ℕ} (hp : 1 ≤ p) {c : Curve K} (hw : WFCurve p c) {v : K} (h0 : 0 < v) (h1 : v < 1) :
    ∃ c', c.InsertKnot v = .ok c' ∧ HullKept c.ControlPoints c'.ControlPoints := by
  obtain ⟨k, hk, _⟩ := exists_span hw.clamped h0.le h1.le
  exact ⟨_, insertKnot_ok hw hk h0 h1 hp, hullKept_curve hw.weights (insCurve_wf hw hk h0 h1).weights (inHull_ins hw hk h0 h1)⟩

/-- C89 for the list version of `InsertKnot` (and so for `InsertKnot(value, times)`, `C31_insertKnotTimes`). -/
theorem C89_insertKnotList {p : ℕ} {c : Curve K} (hw : WFCurve p c) (vs : List K) (hv : ∀ v ∈ vs, 0 < v ∧ v < 1) :
    ∃ c', c.InsertKnotList vs = .ok c' ∧ HullKept c.ControlPoints c'.ControlPoints := by
  obtain ⟨c', e, hw', _⟩ := insertList_spec vs hv hw
  exact ⟨c', e, hullKept_curve hw.weights hw'.weights (insertList_hull vs hv hw e)⟩

/-- C89 for `ExtractBezier`: the control points of every piece are in the hull of those of the curve. -/
theorem C89_extractBezier {p : ℕ} (hp : 1 ≤ p) {c : Curve K} (hw : WFCurve p c)
    (hmult : ∀ v, 0 < v → v < 1 → c.Knots.Values.count v ≤ p) :
    ∃ segs, c.ExtractBezier = .ok segs ∧ ∀ s ∈ segs, s.ControlPoints.length = p + 1 ∧ HullKept c.ControlPoints s.ControlPoints := by
  obtain ⟨c', m, hw', _, _, hlen, _, e, vs, hvs, ei, _⟩ := extractBezier_spec hp hw hmult
  refine ⟨_, e, fun s hs => ?_⟩
  simp only [tab, List.mem_map, List.mem_range] at hs
  obtain ⟨j, hj, rfl⟩ := hs
  refine ⟨by simp [bezSeg], ?_⟩
  have hin : ∀ r < p + 1, p * j + r < c'.ControlPoints.length := by
    intro r hr
    have := Nat.mul_le_mul_left p (show j + 1 ≤ m from hj)
    rw [Nat.mul_add, Nat.mul_one] at this
    omega
  have hpt : ∀ r < p + 1, pt (bezSeg p c'.ControlPoints j).ControlPoints r = pt c'.ControlPoints (p * j + r) := by
    intro r hr
    exact pt_tab _ _ _ hr
  have hl : (bezSeg p c'.ControlPoints j).ControlPoints.length = p + 1 := by simp [bezSeg]
  refine hullKept_curve hw.weights (fun i hi => ?_) (fun L b hL i hi => ?_)
  · rw [hl] at hi
    rw [hpt i hi]
    exact hw'.weights _ (hin i hi)
  · rw [hl] at hi
    have := insertList_hull vs hvs hw ei L b hL _ (hin i hi)
    unfold hpts at this ⊢
    rwa [hpt i hi]

/-- C89 for `ElevateDegree`, partial: in the cases in which elevation works (`C36_elevate_partial`). -/
theorem C89_elevate_partial {p times : ℕ} {c : Curve K} (hw : WFCurve p c) (hp : 1 ≤ p) (ht : 1 ≤ times) (h29 : p + times ≤ 29)
    (hmult : InteriorMult p c.Knots.Values) (hapart : KnotsApart c.Knots.Values) (hsteady : SteadyMult p times c.Knots.Values)
    (hbuf : c.ControlPoints.length + times * spanCount c.Knots.Values ≤ 2 * (c.ControlPoints.length - 1 + times)) :
    ∃ c', c.ElevateDegree times = .ok c' ∧ HullKept c.ControlPoints c'.ControlPoints := by
  obtain ⟨c', e1, e2, _, _, h, _⟩ := elevateDegree_ok hp ht h29 hw hmult hapart hsteady hbuf
  exact ⟨c', e1, hullKept_curve hw.weights e2.weights h⟩

/-- Elevation by one of a curve of degree at most 9. -/
theorem C89_elevate_once_partial {p : ℕ} {c : Curve K} (hw : WFCurve p c) (hp : 1 ≤ p) (h9 : p ≤ 9)
    (hmult : InteriorMult p c.Knots.Values) (hapart : KnotsApart c.Knots.Values) :
    ∃ c', c.ElevateDegree 1 = .ok c' ∧ HullKept c.ControlPoints c'.ControlPoints :=
  C89_elevate_partial (times := 1) hw hp le_rfl (by omega) hmult hapart (steady_of_low h9 le_rfl _) (buf_once hw)

/-! ### Surfaces -/

/-- C89 for the list version of `InsertKnotU`; one value is the list of length one. -/
theorem C89_insertKnotUList {p q m n : ℕ} (hp : 1 ≤ p) {s : Surface K} (hw : WFSurface p q m n s) (vs : List K)
    (hv : ∀ v ∈ vs, 0 < v ∧ v < 1) :
    ∃ s', s.InsertKnotUList vs = .ok s' ∧ HullKept s.ControlPoints.Values s'.ControlPoints.Values := by
  have key : ∀ (vs : List K), (∀ v ∈ vs, 0 < v ∧ v < 1) → ∀ {m : ℕ} {s : Surface K}, WFSurface p q m n s →
      ∃ s', s.InsertKnotUList vs = .ok s' ∧ WFSurface p q (m + vs.length) n s' ∧ InHullS m n s (m + vs.length) n s' := by
    intro vs
    induction vs with
    | nil => intro _ m s hw; exact ⟨s, rfl, hw, fun L b h => h⟩
    | cons v vs ih =>
      intro hv m s hw
      obtain ⟨h0, h1⟩ := hv v (by simp)
      obtain ⟨k, hk, _⟩ := exists_span hw.clampedU h0.le h1.le
      obtain ⟨s', e, hw', hh⟩ := ih (fun v hv' => hv v (by simp [hv'])) (insSurfU_wf hw hk h0 h1)
      rw [show m + (v :: vs).length = m + 1 + vs.length by simp; omega]
      refine ⟨s', ?_, hw', (inHullS_U hw hk h0 h1).trans hh⟩
      unfold Surface.InsertKnotUList
      simp only [foldMList]
      rw [insertKnotU_ok hw hk h0 h1 hp, bind_ok]
      exact e
  obtain ⟨s', e, hw', h⟩ := key vs hv hw
  exact ⟨s', e, hullKept_surface hw hw' h⟩

/-- C89 for the list version of `InsertKnotV`. -/
theorem C89_insertKnotVList {p q m n : ℕ} (hq : 1 ≤ q) {s : Surface K} (hw : WFSurface p q m n s) (vs : List K)
    (hv : ∀ v ∈ vs, 0 < v ∧ v < 1) :
    ∃ s', s.InsertKnotVList vs = .ok s' ∧ HullKept s.ControlPoints.Values s'.ControlPoints.Values := by
  have key : ∀ (vs : List K), (∀ v ∈ vs, 0 < v ∧ v < 1) → ∀ {n : ℕ} {s : Surface K}, WFSurface p q m n s →
      ∃ s', s.InsertKnotVList vs = .ok s' ∧ WFSurface p q m (n + vs.length) s' ∧ InHullS m n s m (n + vs.length) s' := by
    intro vs
    induction vs with
    | nil => intro _ n s hw; exact ⟨s, rfl, hw, fun L b h => h⟩
    | cons v vs ih =>
      intro hv n s hw
      obtain ⟨h0, h1⟩ := hv v (by simp)
      obtain ⟨k, hk, _⟩ := exists_span hw.clampedV h0.le h1.le
      obtain ⟨s', e, hw', hh⟩ := ih (fun v hv' => hv v (by simp [hv'])) (insSurfV_wf hw hk h0 h1)
      rw [show n + (v :: vs).length = n + 1 + vs.length by simp; omega]
      refine ⟨s', ?_, hw', (inHullS_V hw hk h0 h1).trans hh⟩
      unfold Surface.InsertKnotVList
      simp only [foldMList]
      rw [insertKnotV_ok hw hk h0 h1 hq, bind_ok]
      exact e
  obtain ⟨s', e, hw', h⟩ := key vs hv hw
  exact ⟨s', e, hullKept_surface hw hw' h⟩

/-- C89 for `InsertKnotU(value)` and `InsertKnotV(value)`. -/
theorem C89_insertKnotUV {p q m n : ℕ} {s : Surface K} (hw : WFSurface p q m n s) {a : K} (h0 : 0 < a) (h1 : a < 1) :
    (1 ≤ p → ∃ s', s.InsertKnotU a = .ok s' ∧ HullKept s.ControlPoints.Values s'.ControlPoints.Values) ∧
    (1 ≤ q → ∃ s', s.InsertKnotV a = .ok s' ∧ HullKept s.ControlPoints.Values s'.ControlPoints.Values) := by
  constructor
  · intro hp
    obtain ⟨k, hk, _⟩ := exists_span hw.clampedU h0.le h1.le
    exact ⟨_, insertKnotU_ok hw hk h0 h1 hp, hullKept_surface hw (insSurfU_wf hw hk h0 h1) (inHullS_U hw hk h0 h1)⟩
  · intro hq
    obtain ⟨k, hk, _⟩ := exists_span hw.clampedV h0.le h1.le
    exact ⟨_, insertKnotV_ok hw hk h0 h1 hq, hullKept_surface hw (insSurfV_wf hw hk h0 h1) (inHullS_V hw hk h0 h1)⟩

/-- C89 for `ElevateDegreeU`, partial: without interior knots in the u direction, the only case in which it works (`C49`). -/
theorem C89_elevateU_partial {p q n times : ℕ} {s : Surface K} (hw : WFSurface p q (p + 1) n s) (hp : 1 ≤ p) (ht : 1 ≤ times)
    (h29 : p + times ≤ 29) :
    ∃ s', s.ElevateDegreeU times = .ok s' ∧ HullKept s.ControlPoints.Values s'.ControlPoints.Values := by
  obtain ⟨h1, h2, h3⟩ := conds_of_one (t := times) hw.clampedU hw.knotsU rfl
  obtain ⟨s', e1, e2, _, _, h, _⟩ := elevateU_ok hw hp ht h29 ((spanCount_one hw.clampedU hw.knotsU).mpr rfl) h1 h2 h3
  exact ⟨s', e1, hullKept_surface hw e2 h⟩

/-- C89 for `ElevateDegreeV`, partial. -/
theorem C89_elevateV_partial {p q m times : ℕ} {s : Surface K} (hw : WFSurface p q m (q + 1) s) (hq : 1 ≤ q) (ht : 1 ≤ times)
    (h29 : q + times ≤ 29) :
    ∃ s', s.ElevateDegreeV times = .ok s' ∧ HullKept s.ControlPoints.Values s'.ControlPoints.Values := by
  obtain ⟨h1, h2, h3⟩ := conds_of_one (t := times) hw.clampedV hw.knotsV rfl
  obtain ⟨s', e1, e2, _, _, h, _⟩ := elevateV_ok hw hq ht h29 ((spanCount_one hw.clampedV hw.knotsV).mpr rfl) h1 h2 h3
  exact ⟨s', e1, hullKept_surface hw e2 h⟩

/-! ### Concrete cases -/

/-- The control points of `exElev` satisfy `x + y ≤ 7` and have weights between 1/2 and 3; so do those of the results. -/
example : ∃ c', exElev.ElevateDegree 1 = .ok c' ∧ (∀ P ∈ c'.ControlPoints, P.x + P.y ≤ 7 ∧ 1/2 ≤ P.w ∧ P.w ≤ 3) := by
  obtain ⟨c', e, h1, h2⟩ := C89_elevate_once_partial exElev_wf (by norm_num) (by norm_num) exElev_mult exElev_apart
  refine ⟨c', e, fun P hP => ⟨?_, h2 (1/2) 3 (by decide +kernel) P hP⟩⟩
  have := h1 ⟨1, 1, 0⟩ 7 (by unfold InHalf; decide +kernel) P hP
  unfold InHalf at this
  linarith

example : ∃ c', exElev.InsertKnotList [1/4, 2/3, 1/4] = .ok c' ∧ HullKept exElev.ControlPoints c'.ControlPoints :=
  C89_insertKnotList exElev_wf _ (by decide +kernel)

example : ∃ segs, exElev.ExtractBezier = .ok segs ∧
    ∀ s ∈ segs, s.ControlPoints.length = 2 + 1 ∧ HullKept exElev.ControlPoints s.ControlPoints :=
  C89_extractBezier (by norm_num) exElev_wf exElev_mult

example : ∃ s', exSurface.InsertKnotUList [1/4, 1/3] = .ok s' ∧ HullKept exSurface.ControlPoints.Values s'.ControlPoints.Values :=
  C89_insertKnotUList (by norm_num) exSurface_wf _ (by decide +kernel)

/-- The range is not only kept trivially: the new weights and points differ from the old ones. -/
example : (exElev.InsertKnotList [1/4]).map (fun c => c.ControlPoints.map (·.w)) = .ok [1, 7/4, 3/2, 1, 1/2, 1, 3] := by decide +kernel

end Nurbs.Props
