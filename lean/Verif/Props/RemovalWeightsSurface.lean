import Verif.Props.RemovalWeights
import Verif.Props.RemovalTolSurface
import Verif.Props.Transposed

/-! # C88 for surfaces -/

namespace Nurbs.Props
open Nurbs Nurbs.Spec KnotRemovalImpl

set_option linter.unusedSectionVars false

variable {K : Type} [Field K] [LinearOrder K] [IsStrictOrderedRing K]

/-- The loop of `RemoveKnotU` returns if the removal from every row does and leaves the right number of points. -/
theorem removeLoopU_total {sqrt : K → K} {s : Surface K} {u tol : K} {times : Int} {m n m' : ℕ} (hg : s.ControlPoints = gridOf m n (cp s))
    (hrow : ∀ j < n, ∃ kv P t, KnotRemoval sqrt s.KnotsU (tab m fun x => cp s x j) s.DegreeU u times tol = .ok (kv, P, t) ∧
      (t ≠ 0 → P.length = m')) :
    ∀ (N i : ℕ) (g : ℕ → ℕ → Vec4 K) (t : Int), i + N = n →
      ∃ o, Surface.removeLoopU sqrt s u times tol N i { s with ControlPoints := gridOf m' n g } t = .ok o := by
  intro N
  induction N with
  | zero => intro i g t _; exact ⟨_, by rw [Surface.removeLoopU]⟩
  | succ N ih =>
    intro i g t hi
    obtain ⟨kv, P, t', e, hP⟩ := hrow i (by omega)
    rw [Surface.removeLoopU]
    rw [hg, getV_gridOf m n (cp s) _ i rfl (by omega), bind_ok]
    simp only
    rw [e, bind_ok]
    simp only
    by_cases hc : t' = 0 ∨ ((i : Int) ≠ 0 ∧ t ≠ t')
    · rw [if_pos hc]; exact ⟨_, rfl⟩
    · rw [if_neg hc]
      rw [eq_tab_pt P, hP (fun h => hc (.inl h))]
      rcases Nat.eq_zero_or_pos N with rfl | hN
      · rw [if_pos (by simp; omega), setV_gridOf _ _ _ _ i _ rfl (by omega), bind_ok, Surface.removeLoopU]
        exact ⟨_, rfl⟩
      · rw [if_neg (by simp; omega), setV_gridOf _ _ _ _ i _ rfl (by omega), bind_ok]
        obtain ⟨o, e2⟩ := ih (i + 1) (fun x y => if y = i then pt P x else g x y) t' (by omega)
        rw [show ((i + 1 : ℕ) : Int) = (i : Int) + 1 by push_cast; rfl] at e2
        exact ⟨o, e2⟩

/-- C88 for `RemoveKnotU` of polynomial surfaces: removal with any tolerance and any square root function returns normally; nothing has
changed if it reports 0, and if it reports complete success the surface is well-formed with all weights 1. -/
theorem C88_surfaceU_partial {p q m n : ℕ} {s : Surface K} (hw : WFSurface p q m n s) (hone : ∀ i < m, ∀ j < n, (cp s i j).w = 1) {u : K} (h0 : 0 < u)
    (h1 : u < 1) (hsep : Separated s.KnotsU.Values u) (hmul : s.KnotsU.Values.count u ≤ p) (sqrt : K → K) {eps : K} (he : 0 ≤ eps)
    {times : ℕ} (ht : 1 ≤ times) (htm : times ≤ s.KnotsU.Values.count u) :
    ∃ s' t, s.RemoveKnotU sqrt u times eps = .ok (s', t) ∧ (t = 0 → s' = s) ∧
      (t = times → WFSurface p q (m - times) n s' ∧ ∀ i < m - times, ∀ j < n, (cp s' i j).w = 1) := by
  have hn : 0 < n := by have := hw.knotsV; have := hw.clampedV.len; omega
  have hlu := hw.knotsU
  have hmt : times ≤ m := by
    have := hw.clampedU.len
    omega
  have hones : ∀ j < n, ∀ a ∈ (rowCurve m s j).ControlPoints, a.w = 1 := by
    intro j hj a ha
    change a ∈ tab m fun i => cp s i j at ha
    unfold tab at ha
    obtain ⟨i, hi, rfl⟩ := List.mem_map.mp ha
    exact hone i (List.mem_range.mp hi) j hj
  have hrow : ∀ j < n, ∃ c' t, (rowCurve m s j).RemoveKnot sqrt u times eps = .ok (c', t) ∧ (∀ a ∈ c'.ControlPoints, a.w = 1) ∧
      (t = times → WFCurve p c') ∧ (t ≠ 0 → c'.ControlPoints.length = m - times) := by
    intro j hj
    obtain ⟨c', t, e1, e2, _, e4⟩ := C88_polynomial_partial (rowCurve_wf hw hj) (hones j hj) h0 h1 hsep hmul sqrt he ht htm
    refine ⟨c', t, e1, e2, e4, fun h => ?_⟩
    have := ((C35_counts_partial e1).2.2.2 h).2
    rw [rowCurve_length] at this
    omega
  have hk : ∀ j < n, ∃ kv P t, KnotRemoval sqrt s.KnotsU (tab m fun x => cp s x j) s.DegreeU u times eps = .ok (kv, P, t) ∧
      (t ≠ 0 → P.length = m - times) := by
    intro j hj
    obtain ⟨c', t, e1, _, _, e5⟩ := hrow j hj
    have e6 := knotRemoval_of_removeKnot e1
    unfold rowCurve at e6
    exact ⟨c'.Knots, c'.ControlPoints, t, e6, e5⟩
  have htot : ∃ s' t, s.RemoveKnotU sqrt u times eps = .ok (s', t) := by
    obtain ⟨o, e⟩ := removeLoopU_total (sqrt := sqrt) (s := s) (u := u) (tol := eps) (times := times) (m' := m - times) (WFSurface.grid hw) hk n 0 (fun _ _ => 0) 0 (by omega)
    unfold Surface.RemoveKnotU
    rw [hw.uCount, hw.vCount, show (m : Int) - times = ((m - times : ℕ) : Int) by omega, mk'_gridOf, bind_ok, Int.toNat_natCast]
    rw [Nat.cast_zero] at e
    rw [e, bind_ok]
    rcases o with _ | ⟨r, t⟩
    · exact ⟨_, _, rfl⟩
    · exact ⟨_, _, rfl⟩
  obtain ⟨s', t, e⟩ := htot
  refine ⟨s', t, e, fun h => ?_, fun h => ?_⟩
  · subst h
    exact (C48_failed_removal.1 (by rw [hw.vCount]; omega)) e
  · subst h
    rcases removeKnotU_inv hw.uCount hw.vCount (WFSurface.grid hw) hn (m' := m - times) (by omega) e with ⟨hz, _⟩ | ⟨_, kv, f, hr, rfl⟩
    · omega
    have hex : ∀ j < n, ∃ kvj, WFCurve p ⟨s.DegreeU, kvj, tab (m - times) fun x => f x j⟩ ∧ (∀ i < m - times, (f i j).w = 1) ∧ (j + 1 = n → kvj = kv) := by
      intro j hj
      obtain ⟨kvj, h2, h3⟩ := hr j hj
      obtain ⟨c', t, e1, e2, e3, _⟩ := hrow j hj
      have e4 := knotRemoval_of_removeKnot e1
      unfold rowCurve at e4
      obtain ⟨k1, k2, k3⟩ : kvj = c'.Knots ∧ (tab (m - times) fun x => f x j) = c'.ControlPoints ∧ (times : Int) = t := by
        have := Except.ok.inj (h2.symm.trans e4)
        simpa using this
      have w := e3 k3.symm
      refine ⟨kvj, ?_, fun i hi => ?_, h3⟩
      · rw [k1, k2]
        exact ⟨hw.degreeU, w.clamped, w.count, w.weights⟩
      · refine e2 _ ?_
        rw [← k2]
        exact List.mem_map.mpr ⟨i, List.mem_range.mpr hi, rfl⟩
    obtain ⟨kvl, wl, _, hl⟩ := hex (n - 1) (by omega)
    obtain rfl := hl (by omega)
    have hcnt := wl.count
    simp only [tab_length] at hcnt
    have hcp : ∀ i < m - times, ∀ j < n, cp { s with KnotsU := kvl, ControlPoints := gridOf (m - times) n f } i j = f i j := fun i hi j hj =>
      cp_gridOf (s := { s with KnotsU := kvl, ControlPoints := gridOf (m - times) n f }) rfl hi hj
    have hw1 : ∀ i < m - times, ∀ j < n, (cp { s with KnotsU := kvl, ControlPoints := gridOf (m - times) n f } i j).w = 1 := by
      intro i hi j hj
      obtain ⟨_, _, h, _⟩ := hex j hj
      rw [hcp i hi j hj, h i hi]
    exact ⟨⟨hw.degreeU, hw.degreeV, wl.clamped, hw.clampedV, rfl, rfl, hcnt, hw.knotsV, by simp [gridOf], fun i hi j hj => by
      rw [hw1 i hi j hj]; exact zero_lt_one⟩, hw1⟩

/-- C88 for `RemoveKnotV` of polynomial surfaces. -/
theorem C88_surfaceV_partial {p q m n : ℕ} {s : Surface K} (hw : WFSurface p q m n s) (hone : ∀ i < m, ∀ j < n, (cp s i j).w = 1) {u : K} (h0 : 0 < u)
    (h1 : u < 1) (hsep : Separated s.KnotsV.Values u) (hmul : s.KnotsV.Values.count u ≤ q) (sqrt : K → K) {eps : K} (he : 0 ≤ eps)
    {times : ℕ} (ht : 1 ≤ times) (htm : times ≤ s.KnotsV.Values.count u) :
    ∃ s' t, s.RemoveKnotV sqrt u times eps = .ok (s', t) ∧ (t = 0 → s' = s) ∧
      (t = times → WFSurface p q m (n - times) s' ∧ ∀ i < m, ∀ j < n - times, (cp s' i j).w = 1) := by
  have hm : 0 < m := by have := hw.knotsU; have := hw.clampedU.len; omega
  have hn : 0 < n := by have := hw.knotsV; have := hw.clampedV.len; omega
  obtain ⟨r, t, e1, e2, e3⟩ := C88_surfaceU_partial (transposed_wf hw) (fun j hj i hi => by rw [cp_transposed hw.sized hi hj]; exact hone i hi j hj)
    h0 h1 hsep hmul sqrt he ht htm
  rw [(C100_remove sqrt hw.sized hm hn u times eps).1] at e1
  cases e : s.RemoveKnotV sqrt u times eps with
  | error x => rw [e] at e1; cases e1
  | ok y =>
    obtain ⟨s', t'⟩ := y
    rw [e] at e1
    obtain ⟨hr, rfl⟩ := Prod.mk.inj (Except.ok.inj e1)
    refine ⟨s', t', rfl, fun h => ?_, fun h => ?_⟩
    · subst h
      exact (C48_failed_removal.2 (by rw [hw.uCount]; omega)) e
    · subst h
      obtain ⟨w, o⟩ := e3 rfl
      have hsz : Sized s' m (n - times) := by
        have hle : times ≤ n := by have := w.knotsU; have := hw.knotsV; have := w.clampedU.len; omega
        rcases removeKnotV_inv hw.uCount hw.vCount (WFSurface.grid hw) hm (m' := n - times) (by omega) e with ⟨hz, _⟩ | ⟨_, kv, f, _, rfl⟩
        · omega
        · exact ⟨rfl, rfl, by simp [gridOf]⟩
      have hw' := transposed_wf w
      change transposed s' = r at hr
      rw [← hr, transposed_transposed hsz] at hw'
      refine ⟨hw', fun i hi j hj => ?_⟩
      have := o j hj i hi
      rwa [← hr, cp_transposed hsz hi hj] at this

/-! ### Concrete cases -/

/-- A removal that succeeds and moves points. -/
theorem exDiscU_removed {sqrt : K → K} (hsq : ∀ x, 0 ≤ x → 0 ≤ sqrt x ∧ sqrt x * sqrt x = x) :
    ∃ s', (exDiscU : Surface K).RemoveKnotU sqrt (1/2) 1 1 = .ok (s', 1) := by
  have hu := (exDisc_wf (K := K)).1
  have r0 : (exDiscR 0 : K) = 0 := rfl
  have r1 : (exDiscR 1 : K) = 5/8 := rfl
  have r2 : (exDiscR 2 : K) = 1 := rfl
  exact ⟨_, removeKnotU_ok (sqrt := sqrt) (u := (1/2 : K)) (tol := 1) (times := 1) hu.uCount hu.vCount (WFSurface.grid hu) (by norm_num) (m' := 2) (by norm_num)
      (kv := ⟨[0, 0, 1, 1]⟩) (f := fun i j => exDiscF j (if i = 0 then 0 else 1)) one_ne_zero (fun j hj => by
        have h3 : (tab 3 fun x => cp (exDiscU : Surface K) x j) = [exDiscF j 0, exDiscF j (5/8), exDiscF j 1] := by
          simp only [tab, List.range_succ, List.range_zero, List.nil_append, List.cons_append, List.map_cons, List.map_nil]
          rw [exDiscU_cp (by norm_num) hj, exDiscU_cp (by norm_num) hj, exDiscU_cp (by norm_num) hj, r0, r1, r2]
        rw [h3]
        exact exDisc_row hsq j)⟩

theorem exDisc_sep : Separated ([0, 0, 1/2, 1, 1] : List K) (1/2) ∧ ([0, 0, 1/2, 1, 1] : List K).count (1/2) = 1 :=
  ⟨exTwoLines_sep (a := (⟨0, 0, 0, 1⟩ : Vec4 K)) (b := ⟨0, 0, 0, 1⟩) (c := ⟨0, 0, 0, 1⟩),
    exTwoLines_count (a := (⟨0, 0, 0, 1⟩ : Vec4 K)) (b := ⟨0, 0, 0, 1⟩) (c := ⟨0, 0, 0, 1⟩)⟩

/-- The removal leaves a well-formed surface of weights 1. -/
example {sqrt : K → K} (hsq : ∀ x, 0 ≤ x → 0 ≤ sqrt x ∧ sqrt x * sqrt x = x) :
    ∃ s', (exDiscU : Surface K).RemoveKnotU sqrt (1/2) 1 1 = .ok (s', 1) ∧ WFSurface 1 1 2 2 s' ∧ ∀ i < 2, ∀ j < 2, (cp s' i j).w = 1 := by
  obtain ⟨s', e⟩ := exDiscU_removed hsq
  obtain ⟨s2, t, e2, _, h⟩ := C88_surfaceU_partial (times := 1) (exDisc_wf (K := K)).1 (fun i hi j hj => by rw [exDiscU_cp hi hj, exDiscF_w]) (u := 1/2)
    (by norm_num) (by norm_num) exDisc_sep.1 (le_of_eq exDisc_sep.2) sqrt (eps := 1) zero_le_one le_rfl (le_of_eq exDisc_sep.2.symm)
  obtain ⟨rfl, rfl⟩ := Prod.mk.inj (Except.ok.inj (e.symm.trans e2))
  exact ⟨s', e, h rfl⟩

example (sqrt : K → K) : ∃ s' t, (exDiscV : Surface K).RemoveKnotV sqrt (1/2) 1 (1/10) = .ok (s', t) := by
  obtain ⟨s2, t, e2, _⟩ := C88_surfaceV_partial (times := 1) (exDisc_wf (K := K)).2 (fun j hj i hi => by rw [exDiscV_cp hi hj, exDiscF_w]) (u := 1/2)
    (by norm_num) (by norm_num) exDisc_sep.1 (le_of_eq exDisc_sep.2) sqrt (eps := 1/10) (by norm_num) le_rfl (le_of_eq exDisc_sep.2.symm)
  exact ⟨s2, t, e2⟩

section
variable {sqrt sqrt' : K → K} (h0 : sqrt 0 = 0) (h0' : sqrt' 0 = 0) (h : ∀ x, 0 < x → 0 < sqrt x) (h' : ∀ x, 0 < x → 0 < sqrt' x)
include h0 h0' h h'

/-- With tolerance 0 the outcome does not depend on which positive definite function is used as square root. -/
theorem knotRemoval_agree (U : KnotVector K) (pts : List (Vec4 K)) (p : Int) (u : K) (times : Int) :
    KnotRemoval sqrt U pts p u times 0 = KnotRemoval sqrt' U pts p u times 0 := by
  have hn : ∀ v : Vec4 K, v.norm sqrt > 0 ↔ v.norm sqrt' > 0 := by
    intro v
    by_cases hv : v = 0
    · subst hv; rw [Vec4.norm_zero h0, Vec4.norm_zero h0']
    · have a : v.norm sqrt > 0 := by by_contra hc; exact hv (Vec4.eq_zero_of_norm h (not_lt.mp hc))
      have b : v.norm sqrt' > 0 := by by_contra hc; exact hv (Vec4.eq_zero_of_norm h' (not_lt.mp hc))
      exact ⟨fun _ => b, fun _ => a⟩
  unfold KnotRemoval
  simp only
  rw [calcTOL_zero, calcTOL_zero]
  simp only [bind_ok, removalLoop_agree hn]

theorem removeKnotU_agree (s : Surface K) (u : K) (times : Int) : s.RemoveKnotU sqrt u times 0 = s.RemoveKnotU sqrt' u times 0 := by
  have key : ∀ n i (r : Surface K) t, Surface.removeLoopU sqrt s u times 0 n i r t = Surface.removeLoopU sqrt' s u times 0 n i r t := by
    intro n
    induction n with
    | zero => intros; rfl
    | succ n ih =>
      intro i r t
      rw [Surface.removeLoopU, Surface.removeLoopU]
      simp only [knotRemoval_agree h0 h0' h h', ih]
  unfold Surface.RemoveKnotU
  simp only [key]

theorem removeKnotV_agree (s : Surface K) (u : K) (times : Int) : s.RemoveKnotV sqrt u times 0 = s.RemoveKnotV sqrt' u times 0 := by
  have key : ∀ n i (r : Surface K) t, Surface.removeLoopV sqrt s u times 0 n i r t = Surface.removeLoopV sqrt' s u times 0 n i r t := by
    intro n
    induction n with
    | zero => intros; rfl
    | succ n ih =>
      intro i r t
      rw [Surface.removeLoopV, Surface.removeLoopV]
      simp only [knotRemoval_agree h0 h0' h h', ih]
  unfold Surface.RemoveKnotV
  simp only [key]

end

/-- `exHalf` and `exMore` drawn out along z, along either direction. -/
def exHalfU : Surface ℚ := ⟨2, 1, exHalf.Knots, ⟨[0, 0, 1, 1]⟩, ⟨4, 2, exHalf.ControlPoints ++ exHalf.ControlPoints.map fun a => { a with z := 1 }⟩⟩
def exMoreU : Surface ℚ := ⟨2, 1, exMore.Knots, ⟨[0, 0, 1, 1]⟩, ⟨4, 2, exMore.ControlPoints ++ exMore.ControlPoints.map fun a => { a with z := 1 }⟩⟩
def exHalfV : Surface ℚ := ⟨1, 2, ⟨[0, 0, 1, 1]⟩, exHalf.Knots, ⟨2, 4, exHalf.ControlPoints.flatMap fun a => [a, { a with z := 1 }]⟩⟩
def exMoreV : Surface ℚ := ⟨1, 2, ⟨[0, 0, 1, 1]⟩, exMore.Knots, ⟨2, 4, exMore.ControlPoints.flatMap fun a => [a, { a with z := 1 }]⟩⟩

/-- C88 is false of surfaces for the same reason, in both directions: with tolerance 0 and whatever the square root function (as long as
it is positive for positive numbers) the removal divides by a weight 0, or it reports success and returns negative weights. -/
theorem C88_surface_weights_refuted :
    (WFSurface 2 1 4 2 exHalfU ∧ WFSurface 2 1 4 2 exMoreU ∧ WFSurface 1 2 2 4 exHalfV ∧ WFSurface 1 2 2 4 exMoreV) ∧
    ∃ sU sV : Surface ℚ, (∃ a ∈ sU.ControlPoints.Values, a.w < 0) ∧ (∃ a ∈ sV.ControlPoints.Values, a.w < 0) ∧
      ∀ sqrt : ℚ → ℚ, sqrt 0 = 0 → (∀ x, 0 < x → 0 < sqrt x) →
        exHalfU.RemoveKnotU sqrt (1/2) 1 0 = .error .nonfinite ∧ exMoreU.RemoveKnotU sqrt (1/2) 1 0 = .ok (sU, 1) ∧
        exHalfV.RemoveKnotV sqrt (1/2) 1 0 = .error .nonfinite ∧ exMoreV.RemoveKnotV sqrt (1/2) 1 0 = .ok (sV, 1) := by
  refine ⟨?_, ⟨2, 1, ⟨[0, 0, 0, 1, 1, 1]⟩, ⟨[0, 0, 1, 1]⟩, ⟨3, 2, [⟨0, 0, 0, 1⟩, ⟨0, -3, 0, -1/4⟩, ⟨1, 0, 0, 1⟩, ⟨0, 0, 1, 1⟩, ⟨0, -3, 1, -1/4⟩, ⟨1, 0, 1, 1⟩]⟩⟩,
    ⟨1, 2, ⟨[0, 0, 1, 1]⟩, ⟨[0, 0, 0, 1, 1, 1]⟩, ⟨2, 3, [⟨0, 0, 0, 1⟩, ⟨0, 0, 1, 1⟩, ⟨0, -3, 0, -1/4⟩, ⟨0, -3, 1, -1/4⟩, ⟨1, 0, 0, 1⟩, ⟨1, 0, 1, 1⟩]⟩⟩,
    by decide +kernel, by decide +kernel, ?_⟩
  · refine ⟨?_, ?_, ?_, ?_⟩ <;> exact ⟨rfl, rfl, ⟨by decide +kernel, by decide +kernel, by decide +kernel, by decide +kernel, by decide +kernel, by decide +kernel⟩, ⟨by decide +kernel, by decide +kernel, by decide +kernel, by decide +kernel, by decide +kernel, by decide +kernel⟩, rfl, rfl, rfl, rfl, rfl, by decide +kernel⟩
  · intro sqrt h0 h
    rw [removeKnotU_agree (sqrt' := id) h0 rfl h (fun _ h => h), removeKnotU_agree (sqrt' := id) h0 rfl h (fun _ h => h),
      removeKnotV_agree (sqrt' := id) h0 rfl h (fun _ h => h), removeKnotV_agree (sqrt' := id) h0 rfl h (fun _ h => h)]
    decide +kernel

/-- Before the removal all these surfaces have a point everywhere, for example here. -/
example : exHalfU.Evaluate (1/2) (1/3) = .ok ⟨1/2, 1, 1/3⟩ ∧ exMoreV.Evaluate (1/3) (1/2) = .ok ⟨2/3, 1, 1/3⟩ := by decide +kernel

end Nurbs.Props
