import Verif.Props.RemovalTol

/-! # C88: the weights after a knot removal

`KnotRemoval` solves for the new homogeneous control points and divides by their weights without looking at them.  The
new weights need not be positive, although all old ones are. -/

namespace Nurbs.Props
open Nurbs Nurbs.Spec KnotRemovalImpl

set_option linter.unusedSectionVars false

variable {K : Type} [Field K] [LinearOrder K] [IsStrictOrderedRing K]

/-- Half an ellipse.  Before the knot 1/2 was inserted the middle control point was at infinity (weight 0). -/
def exHalf : Curve ℚ := ⟨2, ⟨[0, 0, 0, 1/2, 1, 1, 1]⟩, [⟨0, 0, 0, 1⟩, ⟨0, 1, 0, 1/2⟩, ⟨1, 1, 0, 1/2⟩, ⟨1, 0, 0, 1⟩]⟩

theorem exHalf_wf : WFCurve 2 exHalf :=
  ⟨rfl, ⟨by decide +kernel, by decide +kernel, by decide +kernel, by decide +kernel, by decide +kernel, by decide +kernel⟩, rfl, by decide +kernel⟩

/-- More than half an ellipse: the middle weight was negative. -/
def exMore : Curve ℚ := ⟨2, ⟨[0, 0, 0, 1/2, 1, 1, 1]⟩, [⟨0, 0, 0, 1⟩, ⟨0, 1, 0, 3/8⟩, ⟨4/3, 1, 0, 3/8⟩, ⟨1, 0, 0, 1⟩]⟩

theorem exMore_wf : WFCurve 2 exMore :=
  ⟨rfl, ⟨by decide +kernel, by decide +kernel, by decide +kernel, by decide +kernel, by decide +kernel, by decide +kernel⟩, rfl, by decide +kernel⟩

/-- C88 is false of the code, even with tolerance 0 and whatever the square root function (as long as it is positive for
positive numbers): on a well-formed curve the removal divides by a weight 0 (in C++: infinite and NaN coordinates are
stored and 1 is returned), or it returns a curve with a negative weight. -/
theorem C88_weights_refuted : (WFCurve 2 exHalf ∧ ∀ sqrt : ℚ → ℚ, sqrt 0 = 0 → (∀ x, 0 < x → 0 < sqrt x) →
      exHalf.RemoveKnot sqrt (1/2) 1 0 = .error .nonfinite) ∧
    (WFCurve 2 exMore ∧ ∃ c' : Curve ℚ, (∃ a ∈ c'.ControlPoints, a.w < 0) ∧ ∀ sqrt : ℚ → ℚ, sqrt 0 = 0 → (∀ x, 0 < x → 0 < sqrt x) →
      exMore.RemoveKnot sqrt (1/2) 1 0 = .ok (c', 1)) := by
  refine ⟨⟨exHalf_wf, ?_⟩, exMore_wf, ⟨2, ⟨[0, 0, 0, 1, 1, 1]⟩, [⟨0, 0, 0, 1⟩, ⟨0, -3, 0, -1/4⟩, ⟨1, 0, 0, 1⟩]⟩, ⟨_, by simp; right; left; rfl, by norm_num⟩, ?_⟩
  · intro sqrt h0 h
    rw [removeKnot_agree (sqrt' := id) h0 rfl h (fun _ h => h)]
    decide +kernel
  · intro sqrt h0 h
    rw [removeKnot_agree (sqrt' := id) h0 rfl h (fun _ h => h)]
    decide +kernel

/-- Before the removal the point exists everywhere; the removal of the first curve destroys a curve that evaluates well. -/
example : exHalf.Evaluate (1/2) = .ok ⟨1/2, 1, 0⟩ ∧ exMore.Evaluate (1/2) = .ok ⟨2/3, 1, 0⟩ := by decide +kernel

section
variable {U : List K} {u : K} {p s r n : ℕ} (H : RemCtx U u p s r n)
include H

/-- A property of the points that the rounds keep. -/
theorem loop_keeps (sqrt : K → K) (tol : K) (hs2 : s ≤ p) (Q : Vec4 K → Prop) (N : ℕ) (hN : N ≤ s)
    (hstep : ∀ t < N, ∀ g : ℕ → Vec4 K, (∀ i < n, Q (g i)) →
      ∀ i < n, Q (remNext (kn U) u p t s (r - p - t - 1) (r - p - t - 1 + (p + 2 + 2 * t - s)) g i)) :
    ∀ (m t : ℕ) (g tmp : ℕ → Vec4 K), t + m ≤ N → (∀ i < n, Q (g i)) →
      ∃ (a : ℕ) (g' : ℕ → Vec4 K), a ≤ t + m ∧ t ≤ a ∧ (∀ i < n, Q (g' i)) ∧
        removalLoop sqrt U u tol ((p : Int) + 1) m t ((r : Int) - p - t) ((r : Int) - s + t) (tab n g) (tab (2 * p + 1) tmp) = .ok ((a : Int), tab n g') := by
  intro m
  induction m with
  | zero => intro t g tmp _ hg; exact ⟨t, g, by omega, le_rfl, hg, rfl⟩
  | succ m ih =>
    intro t g tmp hts hg
    obtain ⟨tmp', e⟩ := removalLoop_step H sqrt tol m t (by omega) (by omega) g tmp
    by_cases hd : (remDiff (kn U) u p t s (r - p - t - 1) (r - p - t - 1 + (p + 2 + 2 * t - s)) g).norm sqrt > tol
    · rw [if_pos hd] at e
      exact ⟨t, g, by omega, le_rfl, hg, e⟩
    · rw [if_neg hd] at e
      obtain ⟨a, g', h1, h2, h3, h4⟩ := ih (t + 1) _ tmp' (by omega) (hstep t (by omega) g hg)
      exact ⟨a, g', by omega, by omega, h3, e.trans h4⟩

end

/-- A property of homogeneous points that implies a non-zero weight and is kept by every round is kept by `RemoveKnot`. -/
theorem removeKnot_keeps {p : ℕ} {c : Curve K} (hw : WFCurve p c) {u : K} (h0 : 0 < u) (h1 : u < 1)
    (hsep : Separated c.Knots.Values u) (hmul : c.Knots.Values.count u ≤ p) (sqrt : K → K) {eps : K} (he : 0 ≤ eps)
    {times : ℕ} (ht : 1 ≤ times) (htm : times ≤ c.Knots.Values.count u) (Q : K → Prop) (hQ : ∀ w, Q w → w ≠ 0) (hQ0 : ∀ a ∈ c.ControlPoints, Q a.w)
    (hstep : ∀ r s, c.Knots.Values.count u = s → RemCtx c.Knots.Values u p s r c.ControlPoints.length → ∀ t < times, ∀ g : ℕ → Vec4 K, (∀ i < c.ControlPoints.length, Q (g i).w) →
      ∀ i < c.ControlPoints.length, Q (remNext (kn c.Knots.Values) u p t s (r - p - t - 1) (r - p - t - 1 + (p + 2 + 2 * t - s)) g i).w) :
    ∃ c' t, c.RemoveKnot sqrt u times eps = .ok (c', t) ∧ ∀ a ∈ c'.ControlPoints, Q a.w := by
  obtain ⟨⟨U⟩, hU⟩ : ∃ U, c.Knots = U := ⟨_, rfl⟩
  have hcnt := hw.count
  have hcl := hw.clamped
  rw [hU] at hsep hmul htm hcnt hcl hstep
  simp only at hsep hmul htm hcnt hcl hstep
  obtain ⟨r, hr, hr1, _⟩ := findSpanIndex_spec (kv := ⟨U⟩) hcl h0.le h1.le
  obtain ⟨s, hs⟩ : ∃ s, U.count u = s := ⟨_, rfl⟩
  rw [hs] at hmul htm
  have H : RemCtx U u p s r c.ControlPoints.length := remCtx_of hcl h0 h1 hr1 hcnt hs (by omega) (by omega)
  have hms : (⟨U⟩ : KnotVector K).GetMultiplicity u = s := by
    rw [(C12_getMultiplicity ⟨U⟩ u).2 hsep, hs]
  have hpr := H.pr
  have hrn := H.rn
  obtain ⟨tol, ht1, _, _⟩ := calcTOL_ok sqrt (c.ControlPoints.map ToHomo) eps he (by
    intro a ha
    obtain ⟨b, hb, rfl⟩ := List.mem_map.mp ha
    obtain ⟨i, hi, rfl⟩ := List.getElem_of_mem hb
    have := hw.weights i hi
    simpa [pt, hi] using this)
  obtain ⟨a, g, b1, _, b3, b4⟩ := loop_keeps H sqrt tol hmul (fun v => Q v.w) times htm (hstep r s hs H) times 0 (hpts c.ControlPoints) (fun _ => 0) (by omega) (by
    intro i hi
    have := hQ0 _ (List.getElem_mem hi)
    simpa [hpts, pt, hi, ToHomo] using this)
  unfold Curve.RemoveKnot
  rw [massert_true ⟨h0, h1⟩, bind_ok, massert_true (by omega), bind_ok, hU, hw.degree]
  by_cases ha : a = 0
  · subst ha
    rw [knotRemoval_none H sqrt c.ControlPoints rfl eps tol times hms hr ht1 _ (by rw [Int.toNat_natCast]; exact b4)]
    refine ⟨_, _, rfl, ?_⟩
    intro v hv
    simp only [tab] at hv
    obtain ⟨i, hi, rfl⟩ := List.mem_map.mp hv
    exact b3 i (List.mem_range.mp hi)
  · rw [knotRemoval_some H sqrt c.ControlPoints rfl eps tol times a (by omega) (by omega) htm hms hr ht1 g b4]
    have hall : ∀ v ∈ tab (c.ControlPoints.length - times) (fun y => if y < (2 * r - s - p) / 2 - (a - 1) / 2 then g y else
        if y < c.ControlPoints.length - a then g (y + a) else g y), Q v.w := by
      intro v hv
      unfold tab at hv
      obtain ⟨i, hi, rfl⟩ := List.mem_map.mp hv
      have := List.mem_range.mp hi
      split_ifs
      · exact b3 _ (by omega)
      · exact b3 _ (by omega)
      · exact b3 _ (by omega)
    rw [mapMList_ok _ unhomo _ (fun v hv => fromHomo_ok (hQ _ (hall v hv)))]
    refine ⟨_, _, rfl, ?_⟩
    intro v hv
    obtain ⟨b, hb, rfl⟩ := List.mem_map.mp hv
    exact hall b hb

/-- C88 for polynomial curves: removal with any tolerance and any square root function returns a curve all of whose
weights are 1, and if it reports complete success the curve is well-formed.  (After a partial success the numbers do not fit, see
C35.) -/
theorem C88_polynomial_partial {p : ℕ} {c : Curve K} (hw : WFCurve p c) (h1w : ∀ a ∈ c.ControlPoints, a.w = 1) {u : K} (h0 : 0 < u) (h1 : u < 1)
    (hsep : Separated c.Knots.Values u) (hmul : c.Knots.Values.count u ≤ p) (sqrt : K → K) {eps : K} (he : 0 ≤ eps)
    {times : ℕ} (ht : 1 ≤ times) (htm : times ≤ c.Knots.Values.count u) :
    ∃ c' t, c.RemoveKnot sqrt u times eps = .ok (c', t) ∧ (∀ a ∈ c'.ControlPoints, a.w = 1) ∧
      (t = 0 → c' = c) ∧ (t = times → WFCurve p c') := by
  obtain ⟨c', t, h, hq⟩ := removeKnot_keeps hw h0 h1 hsep hmul sqrt he ht htm (fun w => w = 1) (fun w hw => by rw [hw]; exact one_ne_zero) h1w
    (fun r s hs H t ht g hg => remNext_w H (by omega) (by omega) hg)
  refine ⟨c', t, h, hq, ?_, ?_⟩
  · rintro rfl
    exact (C34_failed_removal_partial h).2.2.2 h1w
  · rintro rfl
    obtain ⟨hd, hperm, hlen, hcl, _⟩ := removeKnot_tol hw h0 h1 hsep hmul he htm h
    refine ⟨hd.trans hw.degree, hcl, ?_, ?_⟩
    · have := hperm.length_eq
      rw [List.length_append, List.length_replicate] at this
      have := hw.count
      omega
    · intro i hi
      have := hq _ (List.getElem_mem hi)
      simp [pt, hi, this]

/-- C88 for one removal of a knot of full multiplicity `p`: the curve is well-formed for all weights and tolerances. -/
theorem C88_full_multiplicity_partial {p : ℕ} {c : Curve K} (hw : WFCurve p c) {u : K} (h0 : 0 < u) (h1 : u < 1)
    (hsep : Separated c.Knots.Values u) (hmul : c.Knots.Values.count u = p) (hp : 1 ≤ p) (sqrt : K → K) {eps : K} (he : 0 ≤ eps) :
    ∃ c' t, c.RemoveKnot sqrt u 1 eps = .ok (c', t) ∧ (t = 0 ∨ t = 1) ∧ WFCurve p c' := by
  obtain ⟨c', t, h, hq⟩ := removeKnot_keeps hw h0 h1 hsep hmul.le sqrt he le_rfl (by omega) (fun w => 0 < w) (fun w hw => hw.ne') (by
    intro a ha
    obtain ⟨i, hi, rfl⟩ := List.getElem_of_mem ha
    have := hw.weights i hi
    simpa [pt, hi] using this) (by
    intro r s hs H t ht g hg i hi
    unfold remNext
    simp only
    have := H.pr
    split_ifs with c1 c2
    · omega
    · omega
    · exact hg i hi)
  rw [Nat.cast_one] at h
  obtain ⟨t0, t1, hz, _⟩ := C35_counts_partial h
  have ht : t = 0 ∨ t = 1 := by omega
  refine ⟨c', t, h, ht, ?_⟩
  have hwt : ∀ i < c'.ControlPoints.length, 0 < (pt c'.ControlPoints i).w := by
    intro i hi
    have := hq _ (List.getElem_mem hi)
    simpa [pt, hi] using this
  rcases ht with rfl | rfl
  · obtain ⟨hd, hk, _, _⟩ := C34_failed_removal_partial h
    obtain ⟨_, hl⟩ := hz rfl
    exact ⟨hd.trans hw.degree, by rw [hk]; exact hw.clamped, by rw [hk, hl]; exact hw.count, hwt⟩
  · obtain ⟨hd, hperm, hlen, hcl, _⟩ := removeKnot_tol (times := 1) hw h0 h1 hsep hmul.le he (by omega) (by rw [Nat.cast_one]; exact h)
    refine ⟨hd.trans hw.degree, hcl, ?_, hwt⟩
    have := hperm.length_eq
    rw [List.length_append, List.length_replicate] at this
    have := hw.count
    omega

/-! ### Concrete cases -/

/-- A rational curve with the double knot 1/2, degree 2. -/
example : ∃ c' t, exCurve.RemoveKnot id (1/2) 1 100000 = .ok (c', t) ∧ (t = 0 ∨ t = 1) ∧ WFCurve 2 c' :=
  C88_full_multiplicity_partial exCurve_wf (by norm_num) (by norm_num) (by unfold Separated; decide +kernel) (by decide +kernel) (by norm_num) id (by norm_num)

/-- With a wide tolerance the knot is removed, with tolerance 0 it is not. -/
example : (exCurve.RemoveKnot id (1/2) 1 100000).map (fun x => (x.1.ControlPoints.map (·.w), x.2)) = .ok ([1, 1/2, 3, 2, 1], 1) ∧
    (exCurve.RemoveKnot id (1/2) 1 0).map (fun x => (x.1.ControlPoints.map (·.w), x.2)) = .ok ([1, 1/2, 3, 1, 2, 1], 0) := by
  decide +kernel

/-- A polynomial cubic with the double knot 1/2. -/
def exPoly3 : Curve ℚ := ⟨3, ⟨[0, 0, 0, 0, 1/2, 1/2, 1, 1, 1, 1]⟩,
  [⟨0, 0, 0, 1⟩, ⟨1, 2, 0, 1⟩, ⟨2, 0, 1, 1⟩, ⟨3, 1, 1, 1⟩, ⟨4, 4, 0, 1⟩, ⟨5, 0, 2, 1⟩]⟩

theorem exPoly3_wf : WFCurve 3 exPoly3 :=
  ⟨rfl, ⟨by decide +kernel, by decide +kernel, by decide +kernel, by decide +kernel, by decide +kernel, by decide +kernel⟩, rfl, by decide +kernel⟩

example : ∃ c' t, exPoly3.RemoveKnot id (1/2) (2 : ℕ) 100000 = .ok (c', t) ∧ (∀ a ∈ c'.ControlPoints, a.w = 1) ∧
    (t = 0 → c' = exPoly3) ∧ (t = (2 : ℕ) → WFCurve 3 c') :=
  C88_polynomial_partial exPoly3_wf (by decide +kernel) (by norm_num) (by norm_num) (by unfold Separated; decide +kernel) (by decide +kernel) id (by norm_num)
    (by norm_num) (by decide +kernel)

example : (exPoly3.RemoveKnot id (1/2) 2 100000).map (fun x => (x.1.ControlPoints.length, x.2)) = .ok (4, 2) := by decide +kernel

end Nurbs.Props
