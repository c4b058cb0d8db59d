import Verif.Proof.BBox
import Verif.Spec.Placement
import Mathlib.Algebra.BigOperators.Fin

/-! # The loop of `GetBoundingBox` on moved pieces -/

set_option linter.unusedSectionVars false

namespace Nurbs
open Nurbs.Spec

variable {K : Type} [Field K] [LinearOrder K] [IsStrictOrderedRing K]

/-- A motion of points that the box loop does not notice. -/
structure BoxMotion (sqrt : K → K) (F : Vec4 K → Vec4 K) (T : Vec3 K → Vec3 K) : Prop where
  head : ∀ v, (F v).head3 = T v.head3
  mid : ∀ a b : Vec4 K, F ((1 / 2 : K) • a + (1 / 2 : K) • b) = (1 / 2 : K) • F a + (1 / 2 : K) • F b
  min : ∀ a b, T (a.cwiseMin b) = (T a).cwiseMin (T b)
  max : ∀ a b, T (a.cwiseMax b) = (T a).cwiseMax (T b)
  norm : ∀ a b : Vec3 K, (T a - T b).norm sqrt = (a - b).norm sqrt
  approx : ∀ a b (e : K), Curve.approxVec3 (T a) (T b) e = Curve.approxVec3 a b e

/-- The box moved. -/
def moveBox (T : Vec3 K → Vec3 K) (b : BoundingBox K) : BoundingBox K := ⟨T b.Min, T b.Max⟩

section
variable {sqrt : K → K} {F : Vec4 K → Vec4 K} {T : Vec3 K → Vec3 K} (h : BoxMotion sqrt F T)
include h

theorem tri_move (P : ℕ → Vec4 K) (r s : ℕ) : tri (K := K) (fun i => F (P i)) r s = F (tri (K := K) P r s) := by
  induction r generalizing s with
  | zero => rfl
  | succ r ih => rw [tri, tri, ih, ih, h.mid]

theorem ofPoints_move (a b : Vec3 K) : BoundingBox.ofPoints (T a) (T b) = moveBox T (BoundingBox.ofPoints a b) := by
  unfold BoundingBox.ofPoints moveBox
  rw [h.min, h.max]

theorem controlBox_move (p : ℕ) (P : ℕ → Vec4 K) :
    Curve.controlBox (tab (p + 1) fun i => F (P i)) = Except.map (moveBox T) (Curve.controlBox (tab (p + 1) P)) := by
  unfold Curve.controlBox
  rw [vget_tab _ _ _ 0 (by simp) (by omega), bind_ok, vget_tab _ _ _ 0 (by simp) (by omega), bind_ok]
  have hd : (tab (p + 1) fun i => F (P i)).drop 1 = ((tab (p + 1) P).drop 1).map F := by
    rw [List.map_drop]
    simp [tab, Function.comp_def]
  rw [hd, h.head, ofPoints_move h]
  show Except.ok _ = Except.ok _
  congr 1
  generalize BoundingBox.ofPoints (P 0).head3 (P 0).head3 = b
  generalize (tab (p + 1) P).drop 1 = l
  induction l generalizing b with
  | nil => rfl
  | cons x l ih =>
    rw [List.map_cons, List.foldl_cons, List.foldl_cons]
    rw [← ih]
    congr 1
    unfold BoundingBox.ExpandToIncludePoint moveBox
    simp only [h.head, h.min, h.max]

theorem boxDone_move (eps : K) (a b : BoundingBox K) : Curve.boxDone sqrt eps (moveBox T a) (moveBox T b) = Curve.boxDone sqrt eps a b := by
  unfold Curve.boxDone moveBox BoundingBox.Length
  simp only [h.norm, h.approx]

theorem boxLoop_move (eps : K) (p : ℕ) (fuel : ℕ) :
    ∀ (stack : List (List (Vec4 K))) (f f2 : ℕ → ℕ → Vec4 K) (g : Option (BoundingBox K)), (∀ e ∈ stack, e.length = p + 1) →
      (∀ x, Curve.boxLoop sqrt (p : Int) eps fuel stack (tab (p + 1) fun i => tab (p + 1) (f i)) g = .error x →
        Curve.boxLoop sqrt (p : Int) eps fuel (stack.map (List.map F)) (tab (p + 1) fun i => tab (p + 1) (f2 i)) (g.map (moveBox T)) = .error x) ∧
      ∀ res, Curve.boxLoop sqrt (p : Int) eps fuel stack (tab (p + 1) fun i => tab (p + 1) (f i)) g = .ok res →
        ∃ f' f2' : ℕ → ℕ → Vec4 K, res.1 = (tab (p + 1) fun i => tab (p + 1) (f' i)) ∧
          Curve.boxLoop sqrt (p : Int) eps fuel (stack.map (List.map F)) (tab (p + 1) fun i => tab (p + 1) (f2 i)) (g.map (moveBox T)) =
            .ok (tab (p + 1) fun i => tab (p + 1) (f2' i), res.2.map (moveBox T)) := by
  induction fuel with
  | zero =>
    intro stack f f2 g _
    exact ⟨fun x hx => by rw [Curve.boxLoop] at hx ⊢; exact hx, fun res hr => by simp [Curve.boxLoop] at hr⟩
  | succ fuel ih =>
    intro stack f f2 g hst
    cases stack with
    | nil =>
      rw [Curve.boxLoop]
      refine ⟨fun x hx => by simp at hx, fun res hr => ?_⟩
      cases hr
      exact ⟨f, f2, rfl, by rw [List.map_nil, Curve.boxLoop]⟩
    | cons e stack =>
      have hst' : ∀ e ∈ stack, e.length = p + 1 := fun e he => hst e (by simp [he])
      have he := eq_tab_pt e
      rw [hst e (by simp)] at he
      have heF : e.map F = tab (p + 1) fun i => F (pt e i) := by
        conv_lhs => rw [he]
        simp [tab]
      obtain ⟨box, e1, _⟩ := controlBox_ok p (pt e)
      have e1' := controlBox_move h p (pt e)
      rw [e1, ← heF] at e1'
      rw [← he] at e1
      have e2 := endBox_ok p (pt e)
      rw [← he] at e2
      have e2' := endBox_ok p (fun i => F (pt e i))
      rw [← heF, h.head, h.head, ofPoints_move h] at e2'
      have e1'' : Curve.controlBox (e.map F) = .ok (moveBox T box) := e1'
      rw [List.map_cons, Curve.boxLoop, Curve.boxLoop, e1, bind_ok, e2, bind_ok, e1'', bind_ok, e2', bind_ok, boxDone_move h]
      by_cases hd : Curve.boxDone sqrt eps box (BoundingBox.ofPoints (pt e 0).head3 (pt e p).head3) = true
      · rw [if_pos hd, if_pos hd]
        cases g with
        | none => exact ih stack f f2 (some (BoundingBox.ofPoints (pt e 0).head3 (pt e p).head3)) hst'
        | some b =>
          have := ih stack f f2 (some (b.ExpandToIncludeBox (BoundingBox.ofPoints (pt e 0).head3 (pt e p).head3))) hst'
          have hg : moveBox T (b.ExpandToIncludeBox (BoundingBox.ofPoints (pt e 0).head3 (pt e p).head3)) =
              (moveBox T b).ExpandToIncludeBox (moveBox T (BoundingBox.ofPoints (pt e 0).head3 (pt e p).head3)) := by
            unfold BoundingBox.ExpandToIncludeBox moveBox
            simp only [h.min, h.max]
          simp only [Option.map_some] at this
          rw [hg] at this
          exact this
      · rw [if_neg hd, if_neg hd]
        have ec := casteljau_ok p (pt e) f
        rw [← he] at ec
        have ec' := casteljau_ok p (fun i => F (pt e i)) f2
        rw [← heF] at ec'
        rw [ec, bind_ok, casteljauHalves_ok, bind_ok, ec', bind_ok, casteljauHalves_ok, bind_ok]
        simp only
        have hl : ∀ (Q : ℕ → Vec4 K) (f : ℕ → ℕ → Vec4 K), (tab (p + 1) fun r => if r + 0 ≤ p then tri (K := K) Q r 0 else f r 0) =
            tab (p + 1) fun r => tri (K := K) Q r 0 := fun Q f => tab_congr fun i hi => by rw [if_pos (by omega)]
        have hr : ∀ (Q : ℕ → Vec4 K) (f : ℕ → ℕ → Vec4 K),
            (tab (p + 1) fun r => if p - r + r ≤ p then tri (K := K) Q (p - r) r else f (p - r) r) =
            tab (p + 1) fun r => tri (K := K) Q (p - r) r := fun Q f => tab_congr fun i hi => by rw [if_pos (by omega)]
        rw [hl, hr, hl, hr]
        have := ih ((tab (p + 1) fun r => tri (K := K) (pt e) r 0) :: (tab (p + 1) fun r => tri (K := K) (pt e) (p - r) r) :: stack)
          (fun i j => if i + j ≤ p then tri (K := K) (pt e) i j else f i j)
          (fun i j => if i + j ≤ p then tri (K := K) (fun i => F (pt e i)) i j else f2 i j) g (by
            intro e' he'
            simp only [List.mem_cons] at he'
            rcases he' with rfl | rfl | he'
            · simp
            · simp
            · exact hst' e' he')
        simp only [List.map_cons] at this
        have m1 : (tab (p + 1) fun r => tri (K := K) (pt e) r 0).map F = tab (p + 1) fun r => tri (K := K) (fun i => F (pt e i)) r 0 := by
          simp [tab, tri_move h]
        have m2 : (tab (p + 1) fun r => tri (K := K) (pt e) (p - r) r).map F = tab (p + 1) fun r => tri (K := K) (fun i => F (pt e i)) (p - r) r := by
          simp [tab, tri_move h]
        rw [m1, m2] at this
        exact this

theorem boxFold_move (eps : K) (p : ℕ) (fuel : ℕ) (G : Curve K → Curve K) (hG : ∀ c, (G c).ControlPoints = c.ControlPoints.map F)
    (l : List (Curve K)) (hl : ∀ s ∈ l, s.ControlPoints.length = p + 1) :
    ∀ (f f2 : ℕ → ℕ → Vec4 K) (g : Option (BoundingBox K)),
      Except.map (fun r => r.2) (foldMList (fun (seg : Curve K) (s : List (List (Vec4 K)) × Option (BoundingBox K)) =>
        Curve.boxLoop sqrt (p : Int) eps fuel [seg.ControlPoints] s.1 s.2) (l.map G) (tab (p + 1) fun i => tab (p + 1) (f2 i), g.map (moveBox T))) =
      Except.map (fun r => r.2.map (moveBox T)) (foldMList (fun (seg : Curve K) (s : List (List (Vec4 K)) × Option (BoundingBox K)) =>
        Curve.boxLoop sqrt (p : Int) eps fuel [seg.ControlPoints] s.1 s.2) l (tab (p + 1) fun i => tab (p + 1) (f i), g)) := by
  induction l with
  | nil => intro f f2 g; rfl
  | cons s l ih =>
    intro f f2 g
    simp only [List.map_cons, foldMList, hG]
    obtain ⟨a, b⟩ := boxLoop_move h eps p fuel [s.ControlPoints] f f2 g (by
      intro e he
      simp only [List.mem_singleton] at he
      subst he
      exact hl s (by simp))
    cases hr : Curve.boxLoop sqrt (p : Int) eps fuel [s.ControlPoints] (tab (p + 1) fun i => tab (p + 1) (f i)) g with
    | error x =>
      have := a x hr
      simp only [List.map_cons, List.map_nil] at this
      rw [this]; rfl
    | ok r =>
      obtain ⟨f', f2', q1, q2⟩ := b r hr
      simp only [List.map_cons, List.map_nil] at q2
      rw [q2, bind_ok, bind_ok]
      have hrr : r = (tab (p + 1) fun i => tab (p + 1) (f' i), r.2) := by rw [← q1]
      rw [hrr]
      exact ih (fun s hs => hl s (by simp [hs])) f' f2' r.2

end

/-! ### Translations and exchanges of the axes -/

instance : DecidableEq Axis := fun a b => by cases a <;> cases b <;> first | exact isTrue rfl | exact isFalse (by intro h; cases h)
instance : Fintype Axis := ⟨{.x, .y, .z}, fun k => by cases k <;> simp⟩

theorem dot_sum (v : Vec3 K) : v.dot v = ∑ k : Axis, coord k v * coord k v := by
  have : (Finset.univ : Finset Axis) = {.x, .y, .z} := rfl
  rw [this, Finset.sum_insert (by simp), Finset.sum_insert (by simp), Finset.sum_singleton]
  unfold Vec3.dot coord
  ring

theorem coord_sub (k : Axis) (a b : Vec3 K) : coord k (a - b) = coord k a - coord k b := by cases k <;> rfl

theorem coord_pos (P : Placement K) (k : Axis) (v : Vec3 K) : coord k (P.pos v) = coord k (matApply P.R v) + coord k P.t := by cases k <;> rfl

theorem boxMotion_place (sqrt : K → K) (P : Placement K) (σ : Equiv.Perm Axis) (hσ : ∀ k v, coord k (matApply P.R v) = coord (σ k) v) :
    BoxMotion sqrt P.cpt P.pos where
  head v := rfl
  mid a b := by
    have h3 : P.pos ((1 / 2 : K) • a + (1 / 2 : K) • b).head3 = (1 / 2 : K) • P.pos a.head3 + (1 / 2 : K) • P.pos b.head3 := by
      apply coord_ext
      intro k
      have e1 : coord k ((1 / 2 : K) • P.pos a.head3 + (1 / 2 : K) • P.pos b.head3) =
          1 / 2 * coord k (P.pos a.head3) + 1 / 2 * coord k (P.pos b.head3) := by cases k <;> rfl
      have e2 : ∀ k, coord k ((1 / 2 : K) • a + (1 / 2 : K) • b).head3 = 1 / 2 * coord k a.head3 + 1 / 2 * coord k b.head3 := by
        intro k; cases k <;> rfl
      rw [e1, coord_pos, coord_pos, coord_pos, hσ, hσ, hσ, e2]
      ring
    have hx := congrArg Vec3.x h3
    have hy := congrArg Vec3.y h3
    have hz := congrArg Vec3.z h3
    have hw : P.a * ((1 / 2 : K) * a.w + 1 / 2 * b.w) = 1 / 2 * (P.a * a.w) + 1 / 2 * (P.a * b.w) := by ring
    ext
    · exact hx
    · exact hy
    · exact hz
    · exact hw
  min a b := coord_ext fun k => by
    rw [coord_pos, hσ, coord_cwiseMin, coord_cwiseMin, coord_pos, coord_pos, hσ, hσ, min_add_add_right]
  max a b := coord_ext fun k => by
    rw [coord_pos, hσ, coord_cwiseMax, coord_cwiseMax, coord_pos, coord_pos, hσ, hσ, max_add_add_right]
  norm a b := by
    unfold Vec3.norm
    congr 1
    rw [dot_sum, dot_sum, ← Equiv.sum_comp σ fun k => coord k (a - b) * coord k (a - b)]
    refine Finset.sum_congr rfl fun k _ => ?_
    rw [coord_sub, coord_sub, coord_pos, coord_pos, hσ, hσ, add_sub_add_right_eq_sub]
  approx a b e := by
    rw [Bool.eq_iff_iff, approxVec3_iff, approxVec3_iff]
    have : ∀ k, |coord k (P.pos a) - coord k (P.pos b)| = |coord (σ k) a - coord (σ k) b| := fun k => by
      rw [coord_pos, coord_pos, hσ, hσ, add_sub_add_right_eq_sub]
    simp only [this]
    exact ⟨fun h k => by simpa using h (σ.symm k), fun h k => h _⟩

end Nurbs
