import Verif.Proof.Sim
import Verif.Model.Curve
import Verif.Spec.Reweigh

/-! # Homogeneous points multiplied by a factor -/

set_option linter.unusedSectionVars false

namespace Nurbs
open Spec KnotRemovalImpl

variable {K : Type} [Field K] [LinearOrder K] [IsStrictOrderedRing K]

/-- Multiplication by `a`. -/
def scaleL (a : K) : Vec4 K →ₗ[K] Vec4 K := a • LinearMap.id

theorem scaleL_apply (a : K) (v : Vec4 K) : scaleL a v = a • v := rfl

section
variable {a : K} (ha : 0 < a) {sqrt : K → K} (hs : ∀ x, 0 ≤ x → sqrt (a ^ 2 * x) = a * sqrt x)

include hs

theorem scale_norm4 (v : Vec4 K) : (scaleL a v).norm sqrt = a * v.norm sqrt := by
  unfold Vec4.norm
  rw [← hs _ (by simp only [← sq]; positivity)]
  congr 1
  simp only [scaleL_apply, Vec4.smul_x, Vec4.smul_y, Vec4.smul_z, Vec4.smul_w]
  ring

theorem scale_norm3 (v : Vec4 K) : (scaleL a v).head3.norm sqrt = a * v.head3.norm sqrt := by
  unfold Vec3.norm Vec3.dot Vec4.head3
  simp only
  rw [← hs _ (by simp only [← sq]; positivity)]
  congr 1
  simp only [scaleL_apply, Vec4.smul_x, Vec4.smul_y, Vec4.smul_z]
  ring

theorem removalDist_scale (knots : List K) (points : List (Vec4 K)) (u : K) (order t : Int) (s : SolveState K) :
    removalDist sqrt knots (points.map (scaleL a)) u order t (solveMap (scaleL a) s) = Except.map (a * ·) (removalDist sqrt knots points u order t s) := by
  obtain ⟨i, j, ii, jj, temp⟩ := s
  show removalDist sqrt knots (points.map (scaleL a)) u order t ⟨i, j, ii, jj, temp.map (scaleL a)⟩ = _
  unfold removalDist
  simp only
  by_cases hc : j - i < t
  · rw [if_pos hc, if_pos hc]
    refine sim_bind (vget_lmap (scaleL a) temp _) fun x => sim_bind (vget_lmap (scaleL a) temp _) fun y => ?_
    rw [← map_sub, scale_norm4 hs]; rfl
  · rw [if_neg hc, if_neg hc]
    refine sim_same fun _ => sim_same fun b => sim_same fun c => sim_same fun alphai => ?_
    refine sim_bind (vget_lmap (scaleL a) temp _) fun x => sim_bind (vget_lmap (scaleL a) temp _) fun y => ?_
    refine sim_bind (vget_lmap (scaleL a) points _) fun z => ?_
    rw [lin2, ← map_sub, scale_norm4 hs]; rfl

include ha in
theorem removalLoop_scale (knots : List K) (u tol : K) (order : Int) : ∀ (n : ℕ) (t first last : Int) (points temp : List (Vec4 K)),
    removalLoop sqrt knots u (a * tol) order n t first last (points.map (scaleL a)) (temp.map (scaleL a)) =
      Except.map (fun s : Int × List (Vec4 K) => (s.1, s.2.map (scaleL a))) (removalLoop sqrt knots u tol order n t first last points temp) := by
  intro n
  induction n with
  | zero => intro t first last points temp; rfl
  | succ n ih =>
    intro t first last points temp
    rw [removalLoop, removalLoop]
    simp only
    refine sim_bind (vget_lmap (scaleL a) points _) fun p => sim_bind (vset_lmap (scaleL a) temp _ p) fun temp => ?_
    refine sim_bind (vget_lmap (scaleL a) points _) fun p => sim_bind (vset_lmap (scaleL a) temp _ p) fun temp => ?_
    refine sim_bind (whileM_sim (f := solveMap (scaleL a)) (fun s => rfl) (fun s => solveBody_sim (scaleL a) knots points u order t s) _
      ⟨first, last, 1, last - (first - 1), temp⟩) fun s => ?_
    refine sim_bind (removalDist_scale hs _ _ _ _ _ _) fun dist => ?_
    have hiff : a * dist > a * tol ↔ dist > tol := mul_lt_mul_iff_right₀ ha
    by_cases hc : dist > tol
    · rw [if_pos hc, if_pos (hiff.2 hc)]; rfl
    · rw [if_neg hc, if_neg (fun h => hc (hiff.1 h))]
      refine sim_bind (whileM_sim (f := fun s : Int × Int × List (Vec4 K) => (s.1, s.2.1, s.2.2.map (scaleL a))) (fun s => rfl)
        (fun s' => copyBody_sim (scaleL a) s.temp _ s') _ (first, last, points)) ?_
      rintro ⟨i, j, pts⟩
      exact ih _ _ _ _ _

include ha in
/-- Removal of points whose homogeneous coordinates are multiplied by `a`, where the tolerances correspond. -/
theorem removal_scale {f : Vec4 K → Vec4 K} (hT : ∀ v, ToHomo (f v) = scaleL a (ToHomo v)) (hF : ∀ v, FromHomo (scaleL a v) = Except.map f (FromHomo v))
    (kv : KnotVector K) (points : List (Vec4 K)) (degree : Int) (u : K) (times : Int) {eps eps' : K}
    (htol : CalcTOL sqrt ((points.map ToHomo).map (scaleL a)) eps' = Except.map (a * ·) (CalcTOL sqrt (points.map ToHomo) eps)) :
    KnotRemoval sqrt kv (points.map f) degree u times eps' =
      Except.map (fun s : KnotVector K × List (Vec4 K) × Int => (s.1, s.2.1.map (if s.2.2 = 0 then scaleL a else f), s.2.2))
        (KnotRemoval sqrt kv points degree u times eps) := by
  unfold KnotRemoval
  have hpts : (points.map f).map ToHomo = (points.map ToHomo).map (scaleL a) := by
    rw [List.map_map, List.map_map]
    exact List.map_congr_left fun v _ => hT v
  simp only [hpts]
  revert htol
  generalize points.map ToHomo = P
  intro htol
  simp only [List.length_map]
  refine sim_same fun r => sim_bind htol fun tol => ?_
  refine sim_bind (f := List.map (scaleL a)) (by rw [← vnew_lmap, map_zero]) fun temp => ?_
  refine sim_bind (removalLoop_scale ha hs _ _ _ _ _ _ _ _ P temp) ?_
  rintro ⟨t, pts⟩
  simp only
  by_cases ht : t = 0
  · rw [if_pos ht, if_pos ht]
    simp only [emap_pure, ht, if_true]
    rfl
  · rw [if_neg ht, if_neg ht]
    refine sim_same ?_
    rintro ⟨i, j⟩
    simp only
    refine sim_bind (forLe_sim (f := fun s : List (Vec4 K) × Int => (s.1.map (scaleL a), s.2)) (fun k s => ?_) _ _ (pts, j)) ?_
    · exact sim_bind (vget_lmap (scaleL a) s.1 k) fun x => sim_bind (vset_lmap (scaleL a) s.1 s.2 x) fun y => rfl
    rintro ⟨pts, j⟩
    simp only [List.length_map]
    refine sim_bind (f := List.map (scaleL a)) (by rw [← vresize_lmap, map_zero]) fun pts => ?_
    refine sim_same fun knots => sim_same fun knots => ?_
    refine sim_bind (mapMList_sim hF pts) fun pts => ?_
    simp only [emap_pure, ht, if_false]
    rfl

end

/-! ## The bounding box looks at the positions only -/

section
variable {L : Vec4 K →ₗ[K] Vec4 K}

theorem mget_lmap {α β : Type} (f : α → β) (b : List (List α)) (i j : Int) : mget (b.map (List.map f)) i j = Except.map f (mget b i j) := by
  unfold mget
  exact sim_bind (vget_lmap (List.map f) b i) fun row => vget_lmap f row j

theorem mset_lmap {α β : Type} (f : α → β) (b : List (List α)) (i j : Int) (x : α) :
    mset (b.map (List.map f)) i j (f x) = Except.map (List.map (List.map f)) (mset b i j x) := by
  unfold mset
  exact sim_bind (vget_lmap (List.map f) b i) fun row => sim_bind (vset_lmap f row j x) fun row' => vset_lmap (List.map f) b i row'

theorem casteljau_sim (p : Int) (pts : List (Vec4 K)) (b : List (List (Vec4 K))) :
    Curve.casteljau p (pts.map L) (b.map (List.map L)) = Except.map (List.map (List.map L)) (Curve.casteljau p pts b) := by
  unfold Curve.casteljau
  refine sim_bind (forLe_sim (f := List.map (List.map L)) (fun s b => sim_bind (vget_lmap L pts s) fun x => mset_lmap L b 0 s x) _ _ b) fun b => ?_
  refine forLe_sim (f := List.map (List.map L)) (fun r b => ?_) _ _ b
  refine forLe_sim (f := List.map (List.map L)) (fun s b => ?_) _ _ b
  refine sim_bind (mget_lmap L b _ _) fun x => sim_bind (mget_lmap L b _ _) fun y => ?_
  rw [lin2]
  exact mset_lmap L b r s _

theorem halves_sim (p : Int) (b : List (List (Vec4 K))) :
    Curve.casteljauHalves p (b.map (List.map L)) = Except.map (pmap2 L) (Curve.casteljauHalves p b) := by
  unfold Curve.casteljauHalves
  refine sim_bind (f := List.map L) (by rw [← vnew_lmap, map_zero]) fun l => ?_
  refine sim_bind (f := List.map L) (by rw [← vnew_lmap, map_zero]) fun r => ?_
  refine forLe_sim (f := pmap2 L) (fun i s => ?_) _ _ (l, r)
  exact sim_bind (mget_lmap L b _ _) fun x => sim_bind (vset_lmap L s.1 i x) fun l =>
    sim_bind (mget_lmap L b _ _) fun x => sim_bind (vset_lmap L s.2 i x) fun r => rfl

variable (hL : ∀ v, (L v).head3 = v.head3)
include hL

theorem controlBox_sim (pts : List (Vec4 K)) : Curve.controlBox (pts.map L) = Curve.controlBox pts := by
  have h : Curve.controlBox (pts.map L) = Except.map id (Curve.controlBox pts) := by
    unfold Curve.controlBox
    refine sim_bind (vget_lmap L pts 0) fun p0 => ?_
    rw [← List.map_drop, List.foldl_map]
    simp only [hL]
    rfl
  rw [h]
  cases Curve.controlBox pts <;> rfl

theorem endBox_sim (pts : List (Vec4 K)) : Curve.endBox (pts.map L) = Curve.endBox pts := by
  have h : Curve.endBox (pts.map L) = Except.map id (Curve.endBox pts) := by
    unfold Curve.endBox
    rw [List.length_map]
    refine sim_bind (vget_lmap L pts 0) fun p0 => sim_bind (vget_lmap L pts _) fun p1 => ?_
    simp only [hL]
    rfl
  rw [h]
  cases Curve.endBox pts <;> rfl

theorem boxLoop_sim (sqrt : K → K) (p : Int) (eps : K) (fuel : ℕ) : ∀ (stack b : List (List (Vec4 K))) (global : Option (BoundingBox K)),
    Curve.boxLoop sqrt p eps fuel (stack.map (List.map L)) (b.map (List.map L)) global =
      Except.map (fun s : List (List (Vec4 K)) × Option (BoundingBox K) => (s.1.map (List.map L), s.2)) (Curve.boxLoop sqrt p eps fuel stack b global) := by
  induction fuel with
  | zero => intro stack b global; rfl
  | succ fuel ih =>
    intro stack b global
    cases stack with
    | nil => rfl
    | cons pts stack =>
      rw [List.map_cons, Curve.boxLoop, Curve.boxLoop, controlBox_sim hL, endBox_sim hL]
      refine sim_same fun cpBox => sim_same fun epBox => ?_
      split_ifs
      · exact ih _ _ _
      · refine sim_bind (casteljau_sim p pts b) fun b => sim_bind (halves_sim p b) ?_
        rintro ⟨l, r⟩
        exact ih (l :: r :: stack) b global

theorem boxes_sim (sqrt : K → K) (p : Int) (eps : K) (fuel : ℕ) (f : Curve K → Curve K) (hf : ∀ c, (f c).ControlPoints = c.ControlPoints.map L)
    (segs : List (Curve K)) : ∀ (s : List (List (Vec4 K)) × Option (BoundingBox K)),
    foldMList (fun (seg : Curve K) (s : List (List (Vec4 K)) × Option (BoundingBox K)) =>
        Curve.boxLoop sqrt p eps fuel [seg.ControlPoints] s.1 s.2) (segs.map f) (s.1.map (List.map L), s.2) =
      Except.map (fun s : List (List (Vec4 K)) × Option (BoundingBox K) => (s.1.map (List.map L), s.2))
        (foldMList (fun (seg : Curve K) (s : List (List (Vec4 K)) × Option (BoundingBox K)) =>
          Curve.boxLoop sqrt p eps fuel [seg.ControlPoints] s.1 s.2) segs s) := by
  induction segs with
  | nil => intro s; rfl
  | cons c segs ih =>
    intro s
    refine sim_bind (f := fun s : List (List (Vec4 K)) × Option (BoundingBox K) => (s.1.map (List.map L), s.2)) ?_ fun t => ih t
    simp only [hf]
    exact boxLoop_sim hL sqrt p eps fuel [c.ControlPoints] s.1 s.2

end
end Nurbs
