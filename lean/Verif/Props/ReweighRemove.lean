import Verif.Props.Reweigh
import Mathlib.Analysis.Real.Sqrt

/-! # C114: removal with tolerance 0, and removal from surfaces -/

set_option linter.unusedSectionVars false

namespace Nurbs.Props
open Nurbs Nurbs.Spec KnotRemovalImpl

variable {K : Type} [Field K] [LinearOrder K] [IsStrictOrderedRing K]

theorem calcTOL_zero (sqrt : K → K) (l : List (Vec4 K)) : CalcTOL sqrt l 0 = .ok 0 := by
  unfold CalcTOL
  have h : ∀ (l : List (Vec4 K)) (s : K × K), 0 ≤ s.2 →
      0 ≤ (l.foldl (fun (s : K × K) point => (min s.1 point.w, max s.2 (point.head3.norm sqrt))) s).2 := by
    intro l
    induction l with
    | nil => intro s hs; exact hs
    | cons x l ih => intro s hs; exact ih _ (le_max_of_le_left hs)
  have h0 := h l (1000000000000, 0) le_rfl
  have hne : 1 + (l.foldl (fun (s : K × K) point => (min s.1 point.w, max s.2 (point.head3.norm sqrt))) (1000000000000, 0)).2 ≠ 0 := by positivity
  show fdiv (0 * _) _ = _
  unfold fdiv
  rw [if_neg hne, zero_mul, zero_div]

theorem removal_zero {sqrt : K → K} (hsq : ∀ x, 0 ≤ x → 0 ≤ sqrt x ∧ sqrt x * sqrt x = x) {a : K} (ha : 0 < a) (kv : KnotVector K)
    (points : List (Vec4 K)) (degree : Int) (u : K) (times : Int) :
    KnotRemoval sqrt kv (points.map (factorL a)) degree u times 0 =
      Except.map (fun s : KnotVector K × List (Vec4 K) × Int => (s.1, s.2.1.map (if s.2.2 = 0 then scaleL a else factorL a), s.2.2))
        (KnotRemoval sqrt kv points degree u times 0) :=
  removal_scale ha (fun x hx => sqrt_factor hsq ha x hx) (f := factorL a) (factorL_toHomo a) (factorL_fromHomo ha.ne') kv points degree u times
    (by rw [calcTOL_zero, calcTOL_zero]; show Except.ok 0 = Except.ok (a * 0); rw [mul_zero])

/-- C114 (removal with tolerance 0), for every curve: only knots that can be removed exactly are removed, and whether a knot is one of
them does not depend on the factor.  The calls fail in the same way, remove the same number of knots, and where a knot is removed the resulting curves again
differ by the factor. -/
theorem C114_remove_exact_partial {sqrt : K → K} (hsq : ∀ x, 0 ≤ x → 0 ≤ sqrt x ∧ sqrt x * sqrt x = x) (c : Curve K) {a : K} (ha : 0 < a)
    (u : K) (times : Int) :
    (∀ e, c.RemoveKnot sqrt u times 0 = .error e → (reweigh a c).RemoveKnot sqrt u times 0 = .error e) ∧
    ∀ c' t, c.RemoveKnot sqrt u times 0 = .ok (c', t) →
      ∃ c'', (reweigh a c).RemoveKnot sqrt u times 0 = .ok (c'', t) ∧ (t ≠ 0 → c'' = reweigh a c') := by
  have key : (reweigh a c).RemoveKnot sqrt u times 0 =
      Except.map (fun r : Curve K × Int => ((⟨r.1.Degree, r.1.Knots, r.1.ControlPoints.map (if r.2 = 0 then scaleL a else factorL a)⟩ : Curve K), r.2))
        (c.RemoveKnot sqrt u times 0) := by
    unfold Curve.RemoveKnot
    refine sim_same fun _ => sim_same fun _ => ?_
    exact sim_bind (removal_zero hsq ha c.Knots c.ControlPoints c.Degree u times) fun s => rfl
  rw [key]
  refine ⟨fun e h => by rw [h]; rfl, fun c' t h => ?_⟩
  rw [h]
  refine ⟨_, rfl, fun ht => ?_⟩
  simp only [if_neg ht]
  rfl

/-- The result of a removal loop with all weights multiplied. -/
def rmap (a : K) (r : Option (Surface K × Int)) : Option (Surface K × Int) := r.map fun q => (smap (factorL a) q.1, q.2)

theorem removeLoopU_zero {sqrt : K → K} (hsq : ∀ x, 0 ≤ x → 0 ≤ sqrt x ∧ sqrt x * sqrt x = x) {a : K} (ha : 0 < a) (s : Surface K) (u : K) (times : Int) :
    ∀ (n : ℕ) (i : Int) (r : Surface K) (t : Int),
      (smap (factorL a) s).removeLoopU sqrt u times 0 n i (smap (factorL a) r) t = Except.map (rmap a) (s.removeLoopU sqrt u times 0 n i r t) := by
  intro n
  induction n with
  | zero => intro i r t; rfl
  | succ n ih =>
    intro i r t
    rw [Surface.removeLoopU, Surface.removeLoopU]
    refine sim_bind (getV_sim (factorL a) s.ControlPoints i) fun pts => ?_
    refine sim_bind (removal_zero hsq ha r.KnotsU pts r.DegreeU u times) ?_
    rintro ⟨kn, pts, t'⟩
    simp only
    by_cases hz : t' = 0 ∨ (i ≠ 0 ∧ t ≠ t')
    · rw [if_pos hz, if_pos hz]; rfl
    · rw [if_neg hz, if_neg hz, if_neg (fun h => hz (.inl h))]
      by_cases hc : i = s.ControlPoints.VCount - 1
      · have hc' : i = (smap (factorL a) s).ControlPoints.VCount - 1 := hc
        simp only [if_pos hc, if_pos hc']
        exact sim_bind (setV_sim (factorL a) r.ControlPoints i pts) fun g => ih _ { r with KnotsU := kn, ControlPoints := g } _
      · have hc' : ¬ i = (smap (factorL a) s).ControlPoints.VCount - 1 := hc
        simp only [if_neg hc, if_neg hc']
        exact sim_bind (setV_sim (factorL a) r.ControlPoints i pts) fun g => ih _ { r with ControlPoints := g } _

theorem removeLoopV_zero {sqrt : K → K} (hsq : ∀ x, 0 ≤ x → 0 ≤ sqrt x ∧ sqrt x * sqrt x = x) {a : K} (ha : 0 < a) (s : Surface K) (u : K) (times : Int) :
    ∀ (n : ℕ) (i : Int) (r : Surface K) (t : Int),
      (smap (factorL a) s).removeLoopV sqrt u times 0 n i (smap (factorL a) r) t = Except.map (rmap a) (s.removeLoopV sqrt u times 0 n i r t) := by
  intro n
  induction n with
  | zero => intro i r t; rfl
  | succ n ih =>
    intro i r t
    rw [Surface.removeLoopV, Surface.removeLoopV]
    refine sim_bind (getU_sim (factorL a) s.ControlPoints i) fun pts => ?_
    refine sim_bind (removal_zero hsq ha r.KnotsV pts r.DegreeV u times) ?_
    rintro ⟨kn, pts, t'⟩
    simp only
    by_cases hz : t' = 0 ∨ (i ≠ 0 ∧ t ≠ t')
    · rw [if_pos hz, if_pos hz]; rfl
    · rw [if_neg hz, if_neg hz, if_neg (fun h => hz (.inl h))]
      by_cases hc : i = s.ControlPoints.UCount - 1
      · have hc' : i = (smap (factorL a) s).ControlPoints.UCount - 1 := hc
        simp only [if_pos hc, if_pos hc']
        exact sim_bind (setU_sim (factorL a) r.ControlPoints i pts) fun g => ih _ { r with KnotsV := kn, ControlPoints := g } _
      · have hc' : ¬ i = (smap (factorL a) s).ControlPoints.UCount - 1 := hc
        simp only [if_neg hc, if_neg hc']
        exact sim_bind (setU_sim (factorL a) r.ControlPoints i pts) fun g => ih _ { r with ControlPoints := g } _

/-- C114 (removal from surfaces with tolerance 0), for every surface, well-formed or not: the factor makes no difference, failures
included. -/
theorem C114_remove_exact_surface_partial {sqrt : K → K} (hsq : ∀ x, 0 ≤ x → 0 ≤ sqrt x ∧ sqrt x * sqrt x = x) (s : Surface K) {a : K} (ha : 0 < a)
    (u : K) (times : Int) :
    (reweighS a s).RemoveKnotU sqrt u times 0 = Except.map (fun r : Surface K × Int => (reweighS a r.1, r.2)) (s.RemoveKnotU sqrt u times 0) ∧
    (reweighS a s).RemoveKnotV sqrt u times 0 = Except.map (fun r : Surface K × Int => (reweighS a r.1, r.2)) (s.RemoveKnotV sqrt u times 0) := by
  rw [reweighS_smap]
  constructor
  · unfold Surface.RemoveKnotU
    refine sim_bind (gmk_sim (factorL a) _ _) fun g => ?_
    refine sim_bind (removeLoopU_zero hsq ha s u times _ _ { s with ControlPoints := g } _) fun r => ?_
    cases r <;> rfl
  · unfold Surface.RemoveKnotV
    refine sim_bind (gmk_sim (factorL a) _ _) fun g => ?_
    refine sim_bind (removeLoopV_zero hsq ha s u times _ _ { s with ControlPoints := g } _) fun r => ?_
    cases r <;> rfl

/-- `exPeak` drawn out to a ridge. -/
def exRidge : Surface ℚ :=
  ⟨1, 1, ⟨[0, 0, 1/2, 1, 1]⟩, ⟨[0, 0, 1, 1]⟩, ⟨3, 2, [⟨0, 0, 0, 1⟩, ⟨0, 3, 0, 1⟩, ⟨0, 0, 0, 1⟩, ⟨0, 0, 0, 1⟩, ⟨0, 3, 0, 1⟩, ⟨0, 0, 0, 1⟩]⟩⟩

/-- A rational surface with a superfluous knot. -/
def exSlope : Surface ℚ :=
  ⟨1, 1, ⟨[0, 0, 1/2, 1, 1]⟩, ⟨[0, 0, 1, 1]⟩, ⟨3, 2, [⟨0, 0, 0, 1⟩, ⟨2/3, 0, 0, 3/2⟩, ⟨1, 0, 0, 2⟩, ⟨0, 1, 0, 1⟩, ⟨2/3, 1, 0, 3/2⟩, ⟨1, 1, 0, 2⟩]⟩⟩

/-- C114, refuted for removal from surfaces: with a positive tolerance the factor 5/3 decides whether the knot is removed. -/
theorem C114_remove_surface_refuted :
    (exRidge.RemoveKnotU exPythRoot (1/2) 1 15).map (fun r => r.2) = .ok 1 ∧
    ((reweighS (5/3) exRidge).RemoveKnotU exPythRoot (1/2) 1 15).map (fun r => r.2) = .ok 0 := by
  decide +kernel

/-- A rational surface with a removable knot: it is removed whatever the factor, and the result has the factor too. -/
example : (exSlope.RemoveKnotU id (1/2) 1 0).map (fun r => (r.1.KnotsU.Values, r.1.ControlPoints.Values, r.2)) =
      .ok ([0, 0, 1, 1], [⟨0, 0, 0, 1⟩, ⟨1, 0, 0, 2⟩, ⟨0, 1, 0, 1⟩, ⟨1, 1, 0, 2⟩], 1) ∧
    ((reweighS 3 exSlope).RemoveKnotU id (1/2) 1 0).map (fun r => (r.1.KnotsU.Values, r.1.ControlPoints.Values, r.2)) =
      .ok ([0, 0, 1, 1], [⟨0, 0, 0, 3⟩, ⟨1, 0, 0, 6⟩, ⟨0, 1, 0, 3⟩, ⟨1, 1, 0, 6⟩], 1) := by
  decide +kernel

/-- The real square root is one the theorems are about. -/
example (s : Surface ℝ) : (reweighS 3 s).RemoveKnotU Real.sqrt (1/2) 1 0 =
    Except.map (fun r : Surface ℝ × Int => (reweighS 3 r.1, r.2)) (s.RemoveKnotU Real.sqrt (1/2) 1 0) :=
  (C114_remove_exact_surface_partial (fun x hx => ⟨Real.sqrt_nonneg x, Real.mul_self_sqrt hx⟩) s (by norm_num) _ _).1

end Nurbs.Props
