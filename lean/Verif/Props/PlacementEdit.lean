import Verif.Props.PlacementSearch
import Verif.Proof.Sim

/-! # C91: elevation and removal commute with moving, whatever the input -/

namespace Nurbs.Props
open Nurbs Nurbs.Spec Polynomial

set_option linter.unusedSectionVars false

variable {K : Type} [Field K] [LinearOrder K] [IsStrictOrderedRing K]

theorem placeL_fromHomo (P : Placement K) (ha : P.a ≠ 0) (v : Vec4 K) :
    FromHomo (placeL P v) = Except.map P.cpt (FromHomo v) := by
  unfold FromHomo fdiv
  by_cases h : v.w = 0
  · simp [placeL_w, h]
  · have h' : P.a * v.w ≠ 0 := mul_ne_zero ha h
    rw [placeL_w]
    simp only [if_neg h, if_neg h', bind_ok, emap_ok]
    congr 1
    ext <;> simp [placeL, Placement.cpt, Placement.pos, matApply] <;> field_simp

/-- C91 (elevation).  Elevating the moved curve is moving the elevated curve – for every curve and every `times`, well-formed or
not; where elevation fails, it fails in the same way on the moved curve. -/
theorem C91_elevate (P : Placement K) (ha : P.a ≠ 0) (c : Curve K) (times : Int) :
    (P.curve c).ElevateDegree times = Except.map P.curve (c.ElevateDegree times) := by
  unfold Curve.ElevateDegree
  refine sim_same fun _ => ?_
  exact sim_bind (elevation_sim (placeL P) P.cpt (placeL_toHomo P) (placeL_fromHomo P ha) c.Knots c.ControlPoints c.Degree times)
    fun s => rfl

/-! ### Removal -/

theorem orth_norm4 {R : Mat3 K} (hR : IsOrthogonal R) (sqrt : K → K) (v : Vec4 K) :
    (placeL ⟨R, 0, 1⟩ v).norm sqrt = v.norm sqrt := by
  have h := hR ⟨v.x, v.y, v.z⟩ ⟨v.x, v.y, v.z⟩
  simp only at h
  unfold Vec4.norm
  simp only [placeL, LinearMap.coe_mk, AddHom.coe_mk, one_mul, Vec3.zero_x, Vec3.zero_y, Vec3.zero_z, zero_mul, add_zero]
  rw [h]

theorem orth_norm3 {R : Mat3 K} (hR : IsOrthogonal R) (sqrt : K → K) (v : Vec4 K) :
    (placeL ⟨R, 0, 1⟩ v).head3.norm sqrt = v.head3.norm sqrt := by
  have h := hR ⟨v.x, v.y, v.z⟩ ⟨v.x, v.y, v.z⟩
  have e : (placeL ⟨R, 0, 1⟩ v).head3.dot (placeL ⟨R, 0, 1⟩ v).head3 = v.head3.dot v.head3 := by
    simp only [placeL, Vec3.dot, Vec4.head3, LinearMap.coe_mk, AddHom.coe_mk, one_mul, Vec3.zero_x, Vec3.zero_y, Vec3.zero_z, zero_mul,
      add_zero]
    rw [h]
  unfold Vec3.norm
  rw [e]

theorem placeL_cpt (R : Mat3 K) (v : Vec4 K) : Placement.cpt ⟨R, 0, 1⟩ v = placeL ⟨R, 0, 1⟩ v := by
  ext <;> simp [placeL, Placement.cpt, Placement.pos]

theorem placeL_tr (R : Mat3 K) (v : Vec4 K) : Curve.transformPoint R v = placeL ⟨R, 0, 1⟩ v := by
  ext <;> simp [placeL, Curve.transformPoint, matApply, Mat3.mulVec, Vec3.dot, Vec4.head3]

theorem transformPoint_eq (R : Mat3 K) : Curve.transformPoint R = placeL (⟨R, 0, 1⟩ : Placement K) := funext (placeL_tr R)

theorem removal_orth {R : Mat3 K} (hR : IsOrthogonal R) (sqrt : K → K) (kv : KnotVector K) (points : List (Vec4 K)) (degree : Int)
    (u : K) (times : Int) (eps : K) :
    KnotRemoval sqrt kv (points.map (placeL ⟨R, 0, 1⟩)) degree u times eps =
      Except.map (fun s : KnotVector K × List (Vec4 K) × Int => (s.1, s.2.1.map (placeL ⟨R, 0, 1⟩), s.2.2))
        (KnotRemoval sqrt kv points degree u times eps) := by
  refine removal_sim (placeL ⟨R, 0, 1⟩) sqrt (orth_norm4 hR sqrt) (fun v => by rw [placeL_w]; exact one_mul _) (orth_norm3 hR sqrt)
    (fun v => ?_) (fun v => ?_) kv points degree u times eps
  · rw [← placeL_cpt, placeL_toHomo]
  · rw [placeL_fromHomo _ one_ne_zero]
    exact congrArg (fun f => Except.map f (FromHomo v)) (funext (placeL_cpt R))

/-- C91 (removal).  Removing from the rotated or reflected curve is rotating the result of the removal; the number of removed
knots is the same – for every curve, knot, number of times and tolerance. -/
theorem C91_remove {R : Mat3 K} (hR : IsOrthogonal R) (sqrt : K → K) (c : Curve K) (u : K) (times : Int) (eps : K) :
    (c.Transform R).RemoveKnot sqrt u times eps =
      Except.map (fun r : Curve K × Int => (r.1.Transform R, r.2)) (c.RemoveKnot sqrt u times eps) := by
  unfold Curve.RemoveKnot Curve.Transform
  rw [transformPoint_eq]
  refine sim_same fun _ => sim_same fun _ => ?_
  exact sim_bind (removal_orth hR sqrt c.Knots c.ControlPoints c.Degree u times eps) fun s => rfl

/-! ### Surfaces -/

/-- `f` on the values of a grid. -/
def gmap {α β : Type} (f : α → β) (g : Grid α) : Grid β := ⟨g.UCount, g.VCount, g.Values.map f⟩

variable (L : Vec4 K →ₗ[K] Vec4 K)

theorem dflt_map : (default : Vec4 K) = L default := (map_zero L).symm

theorem gmk_sim (u v : Int) : Grid.mk' u v (0 : Vec4 K) = Except.map (gmap L) (Grid.mk' u v 0) := by
  unfold Grid.mk'
  exact sim_bind (f := List.map L) (by rw [← vnew_lmap, map_zero]) fun vals => rfl

theorem getV_sim (g : Grid (Vec4 K)) (i : Int) : (gmap L g).GetV i = Except.map (List.map L) (g.GetV i) := by
  unfold Grid.GetV
  refine sim_same fun _ => sim_bind (f := List.map L) (by rw [← vnew_lmap, ← dflt_map]; rfl) fun r => ?_
  exact forLt_sim (fun j r => sim_bind (vget_lmap L g.Values _) fun x => vset_lmap L r j x) _ _ r

theorem getU_sim (g : Grid (Vec4 K)) (i : Int) : (gmap L g).GetU i = Except.map (List.map L) (g.GetU i) := by
  unfold Grid.GetU
  refine sim_same fun _ => sim_bind (f := List.map L) (by rw [← vnew_lmap, ← dflt_map]; rfl) fun r => ?_
  exact forLt_sim (fun j r => sim_bind (vget_lmap L g.Values _) fun x => vset_lmap L r j x) _ _ r

theorem setV_sim (g : Grid (Vec4 K)) (i : Int) (vs : List (Vec4 K)) :
    (gmap L g).SetV i (vs.map L) = Except.map (gmap L) (g.SetV i vs) := by
  unfold Grid.SetV
  refine sim_same fun _ => ?_
  rw [List.length_map]
  refine sim_same fun _ => ?_
  exact sim_bind (forLt_sim (f := List.map L) (fun j r => sim_bind (vget_lmap L vs _) fun x => vset_lmap L r _ x) _ _ g.Values)
    fun r => rfl

theorem setU_sim (g : Grid (Vec4 K)) (i : Int) (vs : List (Vec4 K)) :
    (gmap L g).SetU i (vs.map L) = Except.map (gmap L) (g.SetU i vs) := by
  unfold Grid.SetU
  refine sim_same fun _ => ?_
  rw [List.length_map]
  refine sim_same fun _ => ?_
  exact sim_bind (forLt_sim (f := List.map L) (fun j r => sim_bind (vget_lmap L vs _) fun x => vset_lmap L r _ x) _ _ g.Values)
    fun r => rfl

/-- `L` on the control points of a surface. -/
def smap (s : Surface K) : Surface K := { s with ControlPoints := gmap L s.ControlPoints }

theorem transform_smap (s : Surface K) (R : Mat3 K) : s.Transform R = smap (placeL ⟨R, 0, 1⟩) s := by
  unfold Surface.Transform smap gmap
  rw [transformPoint_eq]

theorem elevation_lin (R : Mat3 K) (kv : KnotVector K) (points : List (Vec4 K)) (degree times : Int) :
    NurbsDegreeElevation kv (points.map (placeL ⟨R, 0, 1⟩)) degree times =
      Except.map (fun s : KnotVector K × List (Vec4 K) × Int => (s.1, s.2.1.map (placeL ⟨R, 0, 1⟩), s.2.2))
        (NurbsDegreeElevation kv points degree times) := by
  refine elevation_sim (placeL ⟨R, 0, 1⟩) _ (fun v => ?_) (fun v => ?_) kv points degree times
  · rw [← placeL_cpt, placeL_toHomo]
  · rw [placeL_fromHomo _ one_ne_zero]
    exact congrArg (fun f => Except.map f (FromHomo v)) (funext (placeL_cpt R))

/-- C91 (elevation in the first direction). -/
theorem C91_elevateU (R : Mat3 K) (s : Surface K) (times : Int) :
    (s.Transform R).ElevateDegreeU times = Except.map (fun s' => s'.Transform R) (s.ElevateDegreeU times) := by
  have e : (fun s' : Surface K => s'.Transform R) = smap (placeL ⟨R, 0, 1⟩) := funext fun s => transform_smap s R
  rw [e, transform_smap]
  unfold Surface.ElevateDegreeU
  refine sim_bind (gmk_sim (placeL ⟨R, 0, 1⟩) _ _) fun g => ?_
  refine forLt_sim (f := smap (placeL ⟨R, 0, 1⟩)) (fun i r => ?_) _ _ { s with ControlPoints := g }
  refine sim_bind (getV_sim _ s.ControlPoints i) fun pts => ?_
  refine sim_bind (elevation_lin R r.KnotsU pts r.DegreeU times) ?_
  rintro ⟨kn, pts, deg⟩
  by_cases hc : i = s.ControlPoints.VCount - 1
  · have hc' : i = (smap (placeL ⟨R, 0, 1⟩) s).ControlPoints.VCount - 1 := hc
    simp only [if_pos hc, if_pos hc']
    exact sim_bind (setV_sim _ r.ControlPoints i pts) fun g => rfl
  · have hc' : ¬ i = (smap (placeL ⟨R, 0, 1⟩) s).ControlPoints.VCount - 1 := hc
    simp only [if_neg hc, if_neg hc']
    exact sim_bind (setV_sim _ r.ControlPoints i pts) fun g => rfl

/-- C91 (elevation in the second direction). -/
theorem C91_elevateV (R : Mat3 K) (s : Surface K) (times : Int) :
    (s.Transform R).ElevateDegreeV times = Except.map (fun s' => s'.Transform R) (s.ElevateDegreeV times) := by
  have e : (fun s' : Surface K => s'.Transform R) = smap (placeL ⟨R, 0, 1⟩) := funext fun s => transform_smap s R
  rw [e, transform_smap]
  unfold Surface.ElevateDegreeV
  refine sim_bind (gmk_sim (placeL ⟨R, 0, 1⟩) _ _) fun g => ?_
  refine forLt_sim (f := smap (placeL ⟨R, 0, 1⟩)) (fun i r => ?_) _ _ { s with ControlPoints := g }
  refine sim_bind (getU_sim _ s.ControlPoints i) fun pts => ?_
  refine sim_bind (elevation_lin R r.KnotsV pts r.DegreeV times) ?_
  rintro ⟨kn, pts, deg⟩
  by_cases hc : i = s.ControlPoints.UCount - 1
  · have hc' : i = (smap (placeL ⟨R, 0, 1⟩) s).ControlPoints.UCount - 1 := hc
    simp only [if_pos hc, if_pos hc']
    exact sim_bind (setU_sim _ r.ControlPoints i pts) fun g => rfl
  · have hc' : ¬ i = (smap (placeL ⟨R, 0, 1⟩) s).ControlPoints.UCount - 1 := hc
    simp only [if_neg hc, if_neg hc']
    exact sim_bind (setU_sim _ r.ControlPoints i pts) fun g => rfl

theorem removeLoopU_sim {R : Mat3 K} (hR : IsOrthogonal R) (sqrt : K → K) (s : Surface K) (u : K) (times : Int) (eps : K) :
    ∀ (n : ℕ) (i : Int) (r : Surface K) (t : Int),
      Surface.removeLoopU sqrt (smap (placeL ⟨R, 0, 1⟩) s) u times eps n i (smap (placeL ⟨R, 0, 1⟩) r) t =
        Except.map (Option.map fun q : Surface K × Int => (smap (placeL ⟨R, 0, 1⟩) q.1, q.2))
          (Surface.removeLoopU sqrt s u times eps n i r t) := by
  intro n
  induction n with
  | zero => intro i r t; rfl
  | succ n ih =>
    intro i r t
    rw [Surface.removeLoopU, Surface.removeLoopU]
    refine sim_bind (getV_sim _ s.ControlPoints i) fun pts => ?_
    refine sim_bind (removal_orth hR sqrt r.KnotsU pts r.DegreeU u times eps) ?_
    rintro ⟨kn, pts, t'⟩
    simp only
    by_cases ht : t' = 0 ∨ (i ≠ 0 ∧ t ≠ t')
    · rw [if_pos ht, if_pos ht]; rfl
    rw [if_neg ht, if_neg ht]
    by_cases hc : i = s.ControlPoints.VCount - 1
    · have hc' : i = (smap (placeL ⟨R, 0, 1⟩) s).ControlPoints.VCount - 1 := hc
      simp only [if_pos hc, if_pos hc']
      exact sim_bind (setV_sim _ r.ControlPoints i pts) fun g => ih _ { r with KnotsU := kn, ControlPoints := g } _
    · have hc' : ¬ i = (smap (placeL ⟨R, 0, 1⟩) s).ControlPoints.VCount - 1 := hc
      simp only [if_neg hc, if_neg hc']
      exact sim_bind (setV_sim _ r.ControlPoints i pts) fun g => ih _ { r with ControlPoints := g } _

theorem removeLoopV_sim {R : Mat3 K} (hR : IsOrthogonal R) (sqrt : K → K) (s : Surface K) (u : K) (times : Int) (eps : K) :
    ∀ (n : ℕ) (i : Int) (r : Surface K) (t : Int),
      Surface.removeLoopV sqrt (smap (placeL ⟨R, 0, 1⟩) s) u times eps n i (smap (placeL ⟨R, 0, 1⟩) r) t =
        Except.map (Option.map fun q : Surface K × Int => (smap (placeL ⟨R, 0, 1⟩) q.1, q.2))
          (Surface.removeLoopV sqrt s u times eps n i r t) := by
  intro n
  induction n with
  | zero => intro i r t; rfl
  | succ n ih =>
    intro i r t
    rw [Surface.removeLoopV, Surface.removeLoopV]
    refine sim_bind (getU_sim _ s.ControlPoints i) fun pts => ?_
    refine sim_bind (removal_orth hR sqrt r.KnotsV pts r.DegreeV u times eps) ?_
    rintro ⟨kn, pts, t'⟩
    simp only
    by_cases ht : t' = 0 ∨ (i ≠ 0 ∧ t ≠ t')
    · rw [if_pos ht, if_pos ht]; rfl
    rw [if_neg ht, if_neg ht]
    by_cases hc : i = s.ControlPoints.UCount - 1
    · have hc' : i = (smap (placeL ⟨R, 0, 1⟩) s).ControlPoints.UCount - 1 := hc
      simp only [if_pos hc, if_pos hc']
      exact sim_bind (setU_sim _ r.ControlPoints i pts) fun g => ih _ { r with KnotsV := kn, ControlPoints := g } _
    · have hc' : ¬ i = (smap (placeL ⟨R, 0, 1⟩) s).ControlPoints.UCount - 1 := hc
      simp only [if_neg hc, if_neg hc']
      exact sim_bind (setU_sim _ r.ControlPoints i pts) fun g => ih _ { r with ControlPoints := g } _

/-- C91 (removal in the first direction). -/
theorem C91_removeU {R : Mat3 K} (hR : IsOrthogonal R) (sqrt : K → K) (s : Surface K) (u : K) (times : Int) (eps : K) :
    (s.Transform R).RemoveKnotU sqrt u times eps =
      Except.map (fun r : Surface K × Int => (r.1.Transform R, r.2)) (s.RemoveKnotU sqrt u times eps) := by
  simp only [transform_smap]
  unfold Surface.RemoveKnotU
  refine sim_bind (gmk_sim (placeL ⟨R, 0, 1⟩) _ _) fun g => ?_
  refine sim_bind (removeLoopU_sim hR sqrt s u times eps _ 0 { s with ControlPoints := g } 0) fun o => ?_
  cases o <;> rfl

/-- C91 (removal in the second direction). -/
theorem C91_removeV {R : Mat3 K} (hR : IsOrthogonal R) (sqrt : K → K) (s : Surface K) (u : K) (times : Int) (eps : K) :
    (s.Transform R).RemoveKnotV sqrt u times eps =
      Except.map (fun r : Surface K × Int => (r.1.Transform R, r.2)) (s.RemoveKnotV sqrt u times eps) := by
  simp only [transform_smap]
  unfold Surface.RemoveKnotV
  refine sim_bind (gmk_sim (placeL ⟨R, 0, 1⟩) _ _) fun g => ?_
  refine sim_bind (removeLoopV_sim hR sqrt s u times eps _ 0 { s with ControlPoints := g } 0) fun o => ?_
  cases o <;> rfl

/-! ### Concrete cases -/

/-- A quarter turn about the third axis. -/
def exTurn : Mat3 ℚ := ⟨⟨0, -1, 0⟩, ⟨1, 0, 0⟩, ⟨0, 0, 1⟩⟩

theorem exTurn_orth : IsOrthogonal exTurn := by
  intro v w
  simp only [matApply, exTurn]
  ring

/-- The quarter turn followed by a translation, and all weights doubled. -/
def exPlace : Placement ℚ := ⟨exTurn, ⟨5, -7, 1/2⟩, 2⟩

example : ∃ C, exCurve.Evaluate (1/4) = .ok C ∧ (exPlace.curve exCurve).Evaluate (1/4) = .ok (exPlace.pos C) :=
  C91_evaluate exCurve_wf (by norm_num [exPlace]) (by norm_num) (by norm_num)

example : ∃ c', exCurve.InsertKnot (1/4) = .ok c' ∧ (exPlace.curve exCurve).InsertKnot (1/4) = .ok (exPlace.curve c') :=
  C91_insertKnot (by norm_num) exCurve_wf (by norm_num [exPlace]) (by norm_num) (by norm_num)

example : ∃ c', exCurve.InsertKnotList [1/4, 3/4] = .ok c' ∧ (exPlace.curve exCurve).InsertKnotList [1/4, 3/4] = .ok (exPlace.curve c') :=
  C91_insertKnotList _ (by intro v hv; simp at hv; rcases hv with rfl | rfl <;> norm_num) exCurve_wf (by norm_num [exPlace])

example : ∃ D, exCurve.EvaluateDerivative (1/4) (2 : ℕ) = .ok D ∧
    (exPlace.curve exCurve).EvaluateDerivative (1/4) (2 : ℕ) = .ok (matApply exTurn D) :=
  C91_derivative exCurve_wf (P := exPlace) (by norm_num [exPlace]) (by norm_num) (by norm_num) 2 (by norm_num) (by norm_num)

example (sqrt : ℚ → ℚ) (pt : Vec3 ℚ) : (exPlace.curve exCurve).SearchParameter sqrt 10 (exPlace.pos pt) (1/2) (1/1000) 10 =
    exCurve.SearchParameter sqrt 10 pt (1/2) (1/1000) 10 :=
  (C91_search exCurve_wf (P := exPlace) (by norm_num [exPlace]) exTurn_orth sqrt pt).1 _ _ _ _

example : ∃ S, exSurface.Evaluate (1/4) (1/3) = .ok S ∧ (exPlace.surface exSurface).Evaluate (1/4) (1/3) = .ok (exPlace.pos S) :=
  C91_evaluate_surface exSurface_wf (by norm_num [exPlace]) (by norm_num) (by norm_num) (by norm_num) (by norm_num)

example : ∃ D, exSurface.EvaluateDerivative (1/4) (1/3) (1 : ℕ) (1 : ℕ) = .ok D ∧
    (exPlace.surface exSurface).EvaluateDerivative (1/4) (1/3) (1 : ℕ) (1 : ℕ) = .ok (matApply exTurn D) :=
  C91_derivative_surface exSurface_wf (P := exPlace) (by norm_num [exPlace]) (by norm_num) (by norm_num) (by norm_num) (by norm_num) 1 1
    (by norm_num) (by norm_num) (by decide) (by norm_num)

example : ∃ s', exSurface.InsertKnotUList [1/4] = .ok s' ∧ (exPlace.surface exSurface).InsertKnotUList [1/4] = .ok (exPlace.surface s') :=
  (C91_insert_surface exSurface_wf (P := exPlace) (by norm_num [exPlace]) [1/4]
    (by intro v hv; simp at hv; subst hv; norm_num)).1 (by norm_num)

/-- Elevation of the moved curve, computed, and moving the elevated one. -/
example : ∃ c', exElev.ElevateDegree 2 = .ok c' ∧ c'.ControlPoints.length = 12 ∧
    (exPlace.curve exElev).ElevateDegree 2 = .ok (exPlace.curve c') := by
  obtain ⟨c', h, hl⟩ : ∃ c', exElev.ElevateDegree 2 = .ok c' ∧ c'.ControlPoints.length = 12 := by
    have : (exElev.ElevateDegree 2).map (fun c => c.ControlPoints.length) = .ok 12 := by decide +kernel
    cases h : exElev.ElevateDegree 2 with
    | error e => rw [h] at this; cases this
    | ok c' => rw [h] at this; exact ⟨c', rfl, Except.ok.inj this⟩
  exact ⟨c', h, hl, by rw [C91_elevate exPlace (by norm_num [exPlace]), h]; rfl⟩

/-- A square root that is right on 0, 9, 16 and 25. -/
def exPythRoot (x : ℚ) : ℚ := if x = 9 then 3 else if x = 16 then 4 else if x = 25 then 5 else x

/-- A corner at height 3 over a segment of length 0. -/
def exPeak : Curve ℚ := ⟨1, ⟨[0, 0, 1/2, 1, 1]⟩, [⟨0, 0, 0, 1⟩, ⟨0, 3, 0, 1⟩, ⟨0, 0, 0, 1⟩]⟩

/-- The removal succeeds and turns with the curve. -/
example : (exPeak.RemoveKnot exPythRoot (1/2) 1 15).map (fun r => (r.1.ControlPoints, r.2)) = .ok ([⟨0, 0, 0, 1⟩, ⟨0, 0, 0, 1⟩], 1) ∧
    (exPeak.Transform exTurn).RemoveKnot exPythRoot (1/2) 1 15 =
      Except.map (fun r : Curve ℚ × Int => (r.1.Transform exTurn, r.2)) (exPeak.RemoveKnot exPythRoot (1/2) 1 15) :=
  ⟨by decide +kernel, C91_remove exTurn_orth _ _ _ _ _⟩

/-- C91, the restriction for removal: translations are not allowed, as the tolerance shrinks with the distance from the origin.  The
knot is removed from the curve, but not from the curve moved by 4 along the first axis. -/
theorem C91_remove_translation_fails :
    (exPeak.RemoveKnot exPythRoot (1/2) 1 15).map (fun r => r.2) = .ok 1 ∧
    ((Placement.curve ⟨⟨⟨1, 0, 0⟩, ⟨0, 1, 0⟩, ⟨0, 0, 1⟩⟩, ⟨4, 0, 0⟩, 1⟩ exPeak).RemoveKnot exPythRoot (1/2) 1 15).map (fun r => r.2) = .ok 0 := by
  decide +kernel

end Nurbs.Props
