import Verif.Proof.BBox
import Verif.Props.Bezier

/-! # C39, C40: bounding boxes of curves -/

set_option linter.unusedSectionVars false

namespace Nurbs.Props
open Nurbs Nurbs.Spec

variable {K : Type} [Field K] [LinearOrder K] [IsStrictOrderedRing K]

/-- Everything that is known about `GetBoundingBox`; C39 and C40 are read off. -/
theorem getBoundingBox_spec [Archimedean K] (sqrt : K → K) (eps : K) {p : ℕ} (hp : 1 ≤ p) {c : Curve K} (hw : WFCurve p c)
    (hmult : ∀ v, 0 < v → v < 1 → c.Knots.Values.count v ≤ p) :
    ∃ (box : BoundingBox K) (fuel₀ : ℕ) (c' : Curve K) (m : ℕ), (∀ fuel ≥ fuel₀, c.GetBoundingBox sqrt fuel eps = .ok box) ∧
      WFCurve p c' ∧ SamePolar p c c' ∧ (dvals c.Knots).length = m + 1 ∧ 1 ≤ m ∧ c'.ControlPoints.length = p * m + 1 ∧
      c'.Knots.Values = 0 :: (reps p (dvals c.Knots) ++ [1]) ∧ c.ExtractBezier = .ok (tab m (bezSeg p c'.ControlPoints)) ∧
      (∃ vs : List K, (∀ v ∈ vs, 0 < v ∧ v < 1) ∧ c.InsertKnotList vs = .ok c') ∧
      BoxFold sqrt p eps (tab m (bezSeg p c'.ControlPoints)) none (some box) := by
  obtain ⟨c', m, hw', hs, hm, hlen, hkn, e, vs, hvs, evs, _⟩ := extractBezier_spec hp hw hmult
  have hm1 : 1 ≤ m := by
    by_contra hcon
    obtain rfl : m = 0 := by omega
    have := hw'.clamped.len
    have := hw'.count
    rw [hkn] at this
    simp only [List.length_cons, List.length_append, reps_length, hm, List.length_nil, hlen] at this
    have h2 := hw'.count
    omega
  obtain ⟨F, hF⟩ := boxFold_ok sqrt eps p (tab m (bezSeg p c'.ControlPoints)) (by
    intro s hs
    simp only [tab, List.mem_map, List.mem_range] at hs
    obtain ⟨j, _, rfl⟩ := hs
    simp [bezSeg])
  obtain ⟨f', g', hb, hrun⟩ := hF (fun _ _ => 0) none
  obtain ⟨box, hbox, _⟩ := hb.each (bezSeg p c'.ControlPoints 0) (by
    simp only [tab, List.mem_map, List.mem_range]
    exact ⟨0, by omega, rfl⟩)
  subst hbox
  refine ⟨box, F, c', m, ?_, hw', hs, hm, hm1, hlen, hkn, e, ⟨vs, hvs, evs⟩, hb⟩
  intro fuel hfuel
  unfold Curve.GetBoundingBox
  rw [e, bind_ok, hw.degree]
  simp only
  rw [show ((p : Int) + 1).toNat = p + 1 by omega, replicate_eq_tab, replicate_eq_tab, hrun fuel hfuel]
  rfl

/-- C39.  For degree ≥ 1 and interior multiplicities ≤ degree, `GetBoundingBox(eps)` terminates for *every* `eps` (there is
a number of loop rounds that suffices, and more make no difference) and any function in place of `sqrt`.  The box contains the
curve point at every knot (so both ends of the curve and of each Bezier piece), and it is contained in every axis-parallel slab
that contains the control points – of the Bezier pieces, and of the curve itself. -/
theorem C39_getBoundingBox [Archimedean K] (sqrt : K → K) (eps : K) {p : ℕ} (hp : 1 ≤ p) {c : Curve K} (hw : WFCurve p c)
    (hmult : ∀ v, 0 < v → v < 1 → c.Knots.Values.count v ≤ p) :
    ∃ (box : BoundingBox K) (fuel₀ : ℕ) (segs : List (Curve K)),
      (∀ fuel ≥ fuel₀, c.GetBoundingBox sqrt fuel eps = .ok box) ∧ c.ExtractBezier = .ok segs ∧
      (∀ v ∈ c.Knots.Values, ∃ C, c.Evaluate v = .ok C ∧ InBox box C) ∧
      (∀ k lo hi, (∀ s ∈ segs, ∀ P ∈ s.ControlPoints, lo ≤ coord k ⟨P.x, P.y, P.z⟩ ∧ coord k ⟨P.x, P.y, P.z⟩ ≤ hi) →
        lo ≤ coord k box.Min ∧ coord k box.Max ≤ hi) ∧
      (∀ k lo hi, (∀ P ∈ c.ControlPoints, lo ≤ coord k ⟨P.x, P.y, P.z⟩ ∧ coord k ⟨P.x, P.y, P.z⟩ ≤ hi) →
        lo ≤ coord k box.Min ∧ coord k box.Max ≤ hi) := by
  obtain ⟨box, F, c', m, hrun, hw', hs, hm, hm1, hlen, hkn, e, ⟨vs, hvs, hins⟩, hb⟩ := getBoundingBox_spec sqrt eps hp hw hmult
  obtain ⟨_, _, h3⟩ := C03_pairs_roundtrip c.Knots
  obtain ⟨p1, p2, p3⟩ := h3 hw.clamped.sorted
  have inside : ∀ k lo hi, (∀ s ∈ tab m (bezSeg p c'.ControlPoints), ∀ P ∈ s.ControlPoints,
      lo ≤ coord k ⟨P.x, P.y, P.z⟩ ∧ coord k ⟨P.x, P.y, P.z⟩ ≤ hi) → lo ≤ coord k box.Min ∧ coord k box.Max ≤ hi := by
    intro k lo hi h
    refine hb.inside k lo hi ?_ (by simp) box rfl
    intro s hs' i hi'
    have hlen' : s.ControlPoints.length = p + 1 := by
      simp only [tab, List.mem_map, List.mem_range] at hs'
      obtain ⟨j, _, rfl⟩ := hs'
      simp [bezSeg]
    have := h s hs' (pt s.ControlPoints i) (pt_mem _ _ (by omega))
    rwa [show (⟨(pt s.ControlPoints i).x, (pt s.ControlPoints i).y, (pt s.ControlPoints i).z⟩ : Vec3 K) =
      (pt s.ControlPoints i).head3 from rfl, coord_head3] at this
  refine ⟨box, F, _, hrun, e, ?_, inside, ?_⟩
  · intro v hv
    obtain ⟨j, hj, hjv⟩ := List.getElem_of_mem ((p2 v).mpr hv)
    change j < (dvals c.Knots).length at hj
    change (dvals c.Knots)[j] = v at hjv
    -- the piece and the end of it that meets `v`
    have key : ∃ r t, r < m ∧ (t = 0 ∨ t = 1) ∧
        (dvals c.Knots).getD r 0 + t * ((dvals c.Knots).getD (r + 1) 0 - (dvals c.Knots).getD r 0) = v := by
      by_cases hjm : j < m
      · exact ⟨j, 0, hjm, Or.inl rfl, by rw [zero_mul, add_zero, List.getD_eq_getElem _ _ hj, hjv]⟩
      · obtain rfl : j = m := by omega
        refine ⟨j - 1, 1, by omega, Or.inr rfl, ?_⟩
        rw [one_mul, Nat.sub_add_cancel hm1, add_sub_cancel, List.getD_eq_getElem _ _ hj, hjv]
    obtain ⟨r, t, hr, ht, hv'⟩ := key
    obtain ⟨q1, q2, q3, q4, q5⟩ := bezSeg_spec hp hw hw' hs (d := dvals c.Knots) p1 hm hlen hkn r hr
    obtain ⟨b', hb', i1, i2, _⟩ := hb.each (bezSeg p c'.ControlPoints r) (by
      simp only [tab, List.mem_map, List.mem_range]
      exact ⟨r, hr, rfl⟩)
    cases hb'
    obtain ⟨⟨P0, hP0, e0⟩, ⟨P1, hP1, e1⟩⟩ := C24_endpoints q1
    rcases ht with rfl | rfl
    · have := q5 0 le_rfl zero_le_one
      rw [hv', e0] at this
      refine ⟨_, this.symm, ?_⟩
      have e : P0 = pt (bezSeg p c'.ControlPoints r).ControlPoints 0 := by
        simp [bezSeg, tab, List.range_succ_eq_map] at hP0
        rw [← hP0]; simp [bezSeg, pt_tab]
      rw [e]; exact i1
    · have := q5 1 zero_le_one le_rfl
      rw [hv', e1] at this
      refine ⟨_, this.symm, ?_⟩
      have e : P1 = pt (bezSeg p c'.ControlPoints r).ControlPoints p := by
        simp [bezSeg, tab, List.range_succ] at hP1
        rw [← hP1]; simp [bezSeg, pt_tab]
      rw [e]; exact i2
  · intro k lo hi h
    apply inside k lo hi
    -- `lo·w ≤ coordinate·w ≤ hi·w` is a convex condition on homogeneous points
    have hQ := insertList_convex (p := p) (Q := fun v : Vec4 K => lo * v.w ≤ l4 k v ∧ l4 k v ≤ hi * v.w) (by
      intro a b r ha hb h0 h1
      have hr : (r • a + (1 - r) • b).w = r * a.w + (1 - r) * b.w := rfl
      rw [map_add, map_smul, map_smul, hr, smul_eq_mul, smul_eq_mul]
      have := mul_le_mul_of_nonneg_left ha.1 h0
      have := mul_le_mul_of_nonneg_left ha.2 h0
      have := mul_le_mul_of_nonneg_left hb.1 (sub_nonneg.mpr h1)
      have := mul_le_mul_of_nonneg_left hb.2 (sub_nonneg.mpr h1)
      constructor <;> linarith) vs hvs hw hp (by
      intro i hi'
      have hP := h _ (pt_mem c.ControlPoints i hi')
      rw [show (⟨(pt c.ControlPoints i).x, (pt c.ControlPoints i).y, (pt c.ControlPoints i).z⟩ : Vec3 K) =
        (pt c.ControlPoints i).head3 from rfl, coord_head3] at hP
      have hwt := hw.weights i hi'
      have ew : (hpts c.ControlPoints i).w = (pt c.ControlPoints i).w := rfl
      rw [ew]
      unfold hpts
      rw [l4_toHomo]
      exact ⟨mul_le_mul_of_nonneg_right hP.1 hwt.le, mul_le_mul_of_nonneg_right hP.2 hwt.le⟩) hins
    intro s hs' P hP
    simp only [tab, List.mem_map, List.mem_range] at hs'
    obtain ⟨j, hj, rfl⟩ := hs'
    simp only [bezSeg, tab, List.mem_map, List.mem_range] at hP
    obtain ⟨r, hr, rfl⟩ := hP
    have hidx : p * j + r < c'.ControlPoints.length := by
      have : p * (j + 1) ≤ p * m := Nat.mul_le_mul_left p (by omega)
      rw [Nat.mul_add, Nat.mul_one] at this
      omega
    have hq := hQ _ hidx
    have hwt := hw'.weights _ hidx
    have ew : (hpts c'.ControlPoints (p * j + r)).w = (pt c'.ControlPoints (p * j + r)).w := rfl
    rw [ew] at hq
    unfold hpts at hq
    rw [l4_toHomo] at hq
    rw [show (⟨(pt c'.ControlPoints (p * j + r)).x, (pt c'.ControlPoints (p * j + r)).y, (pt c'.ControlPoints (p * j + r)).z⟩ : Vec3 K) =
      (pt c'.ControlPoints (p * j + r)).head3 from rfl, coord_head3]
    exact ⟨le_of_mul_le_mul_right hq.1 hwt, le_of_mul_le_mul_right hq.2 hwt⟩

/-- The rational example satisfies the hypotheses (see C38); with `sqrt = id` and a coarse tolerance the loop finishes at once. -/
example : exCurve.GetBoundingBox id 40 100 = .ok ⟨⟨0, 0, 0⟩, ⟨5, 1, 2⟩⟩ := by decide +kernel

/-- C40 is false: the box of this parabola arc is flat in `y` although the curve rises to `5/2`. -/
theorem C40_contains_curve_refuted :
    ∃ c : Curve ℚ, WFCurve 2 c ∧ ∀ (sqrt : ℚ → ℚ) (eps : ℚ) (fuel : ℕ), 2 ≤ fuel →
      ∃ box, c.GetBoundingBox sqrt fuel eps = .ok box ∧ box.Max.y = 0 ∧ c.Evaluate (1/2) = .ok ⟨1, 5/2, 0⟩ := by
  refine ⟨⟨2, ⟨[0, 0, 0, 1, 1, 1]⟩, [⟨0, 0, 0, 1⟩, ⟨1, 5, 0, 1⟩, ⟨2, 0, 0, 1⟩]⟩,
    ⟨rfl, ⟨by decide +kernel, by decide +kernel, by decide +kernel, by decide +kernel, by decide +kernel, by decide +kernel⟩, rfl,
      by decide +kernel⟩, ?_⟩
  intro sqrt eps fuel hf
  obtain ⟨f, rfl⟩ : ∃ f, fuel = f + 1 + 1 := ⟨fuel - 2, by omega⟩
  refine ⟨⟨⟨0, 0, 0⟩, ⟨2, 0, 0⟩⟩, ?_, rfl, by decide +kernel⟩
  have e : (⟨2, ⟨[0, 0, 0, 1, 1, 1]⟩, [⟨0, 0, 0, 1⟩, ⟨1, 5, 0, 1⟩, ⟨2, 0, 0, 1⟩]⟩ : Curve ℚ).ExtractBezier =
      .ok [⟨2, ⟨[0, 0, 0, 1, 1, 1]⟩, [⟨0, 0, 0, 1⟩, ⟨1, 5, 0, 1⟩, ⟨2, 0, 0, 1⟩]⟩] := by decide +kernel
  have e1 : Curve.controlBox ([⟨0, 0, 0, 1⟩, ⟨1, 5, 0, 1⟩, ⟨2, 0, 0, 1⟩] : List (Vec4 ℚ)) = .ok ⟨⟨0, 0, 0⟩, ⟨2, 0, 0⟩⟩ := by decide +kernel
  have e2 : Curve.endBox ([⟨0, 0, 0, 1⟩, ⟨1, 5, 0, 1⟩, ⟨2, 0, 0, 1⟩] : List (Vec4 ℚ)) = .ok ⟨⟨0, 0, 0⟩, ⟨2, 0, 0⟩⟩ := by decide +kernel
  have hd : Curve.boxDone sqrt eps (⟨⟨0, 0, 0⟩, ⟨2, 0, 0⟩⟩ : BoundingBox ℚ) ⟨⟨0, 0, 0⟩, ⟨2, 0, 0⟩⟩ = true := by
    unfold Curve.boxDone
    rw [Bool.or_eq_true]
    right
    decide +kernel
  unfold Curve.GetBoundingBox
  rw [e, bind_ok]
  simp only [foldMList]
  rw [Curve.boxLoop, e1, bind_ok, e2, bind_ok, if_pos hd]
  rfl

/-- C40 is false of rational curves even for the lower faces: the box is that of the polynomial curve with the same control points.
For every tolerance below 1 the box ends at `y = -1/2`, and the curve goes down to `y = -3/4`. -/
theorem C40_rational_refuted :
    ∃ c : Curve ℚ, WFCurve 2 c ∧ ∀ (sqrt : ℚ → ℚ) (eps : ℚ) (fuel : ℕ), sqrt 0 = 0 → sqrt 1 = 1 → 0 ≤ eps → eps < 1 → 4 ≤ fuel →
      ∃ box, c.GetBoundingBox sqrt fuel eps = .ok box ∧ box.Min.y = -1/2 ∧ c.Evaluate (1/2) = .ok ⟨0, -3/4, 0⟩ := by
  refine ⟨⟨2, ⟨[0, 0, 0, 1, 1, 1]⟩, [⟨0, 0, 0, 1⟩, ⟨0, -1, 0, 3⟩, ⟨0, 0, 0, 1⟩]⟩,
    ⟨rfl, ⟨by decide +kernel, by decide +kernel, by decide +kernel, by decide +kernel, by decide +kernel, by decide +kernel⟩, rfl,
      by decide +kernel⟩, ?_⟩
  intro sqrt eps fuel hs0 hs1 he0 he1 hf
  obtain ⟨fuel, rfl⟩ : ∃ k, fuel = k + 4 := ⟨fuel - 4, by omega⟩
  refine ⟨⟨⟨0, -1/2, 0⟩, ⟨0, 0, 0⟩⟩, ?_, rfl, by decide +kernel⟩
  have e : (⟨2, ⟨[0, 0, 0, 1, 1, 1]⟩, [⟨0, 0, 0, 1⟩, ⟨0, -1, 0, 3⟩, ⟨0, 0, 0, 1⟩]⟩ : Curve ℚ).ExtractBezier =
      .ok [⟨2, ⟨[0, 0, 0, 1, 1, 1]⟩, [⟨0, 0, 0, 1⟩, ⟨0, -1, 0, 3⟩, ⟨0, 0, 0, 1⟩]⟩] := by decide +kernel
  have c1 : Curve.controlBox ([⟨0, 0, 0, 1⟩, ⟨0, -1, 0, 3⟩, ⟨0, 0, 0, 1⟩] : List (Vec4 ℚ)) = .ok ⟨⟨0, -1, 0⟩, ⟨0, 0, 0⟩⟩ := by decide +kernel
  have e1 : Curve.endBox ([⟨0, 0, 0, 1⟩, ⟨0, -1, 0, 3⟩, ⟨0, 0, 0, 1⟩] : List (Vec4 ℚ)) = .ok ⟨⟨0, 0, 0⟩, ⟨0, 0, 0⟩⟩ := by decide +kernel
  have c2 : Curve.controlBox ([⟨0, 0, 0, 1⟩, ⟨0, -1/2, 0, 2⟩, ⟨0, -1/2, 0, 2⟩] : List (Vec4 ℚ)) = .ok ⟨⟨0, -1/2, 0⟩, ⟨0, -1/2, 0⟩⟩ := by decide +kernel
  have e2 : Curve.endBox ([⟨0, 0, 0, 1⟩, ⟨0, -1/2, 0, 2⟩, ⟨0, -1/2, 0, 2⟩] : List (Vec4 ℚ)) = .ok ⟨⟨0, -1/2, 0⟩, ⟨0, 0, 0⟩⟩ := by decide +kernel
  have c3 : Curve.controlBox ([⟨0, -1/2, 0, 2⟩, ⟨0, -1/2, 0, 2⟩, ⟨0, 0, 0, 1⟩] : List (Vec4 ℚ)) = .ok ⟨⟨0, -1/2, 0⟩, ⟨0, 0, 0⟩⟩ := by decide +kernel
  have e3 : Curve.endBox ([⟨0, -1/2, 0, 2⟩, ⟨0, -1/2, 0, 2⟩, ⟨0, 0, 0, 1⟩] : List (Vec4 ℚ)) = .ok ⟨⟨0, -1/2, 0⟩, ⟨0, 0, 0⟩⟩ := by decide +kernel
  have d1 : Curve.boxDone sqrt eps (⟨⟨0, -1, 0⟩, ⟨0, 0, 0⟩⟩ : BoundingBox ℚ) ⟨⟨0, 0, 0⟩, ⟨0, 0, 0⟩⟩ = false := by
    have : (BoundingBox.Length (⟨⟨0, -1, 0⟩, ⟨0, 0, 0⟩⟩ : BoundingBox ℚ)).norm sqrt = sqrt 1 := congrArg sqrt (by decide +kernel)
    unfold Curve.boxDone
    rw [this, hs1, decide_eq_false (not_le.mpr he1)]
    decide +kernel
  have d2 : Curve.boxDone sqrt eps (⟨⟨0, -1/2, 0⟩, ⟨0, -1/2, 0⟩⟩ : BoundingBox ℚ) ⟨⟨0, -1/2, 0⟩, ⟨0, 0, 0⟩⟩ = true := by
    have : (BoundingBox.Length (⟨⟨0, -1/2, 0⟩, ⟨0, -1/2, 0⟩⟩ : BoundingBox ℚ)).norm sqrt = sqrt 0 := congrArg sqrt (by decide +kernel)
    unfold Curve.boxDone
    rw [this, hs0, decide_eq_true he0, Bool.true_or]
  have d3 : Curve.boxDone sqrt eps (⟨⟨0, -1/2, 0⟩, ⟨0, 0, 0⟩⟩ : BoundingBox ℚ) ⟨⟨0, -1/2, 0⟩, ⟨0, 0, 0⟩⟩ = true := by
    unfold Curve.boxDone
    rw [Bool.or_eq_true]
    right
    decide +kernel
  have hc : (Curve.casteljau 2 ([⟨0, 0, 0, 1⟩, ⟨0, -1, 0, 3⟩, ⟨0, 0, 0, 1⟩] : List (Vec4 ℚ))
      (List.replicate 3 (List.replicate 3 0)) >>= fun b => Curve.casteljauHalves 2 b) =
      .ok ([⟨0, 0, 0, 1⟩, ⟨0, -1/2, 0, 2⟩, ⟨0, -1/2, 0, 2⟩], [⟨0, -1/2, 0, 2⟩, ⟨0, -1/2, 0, 2⟩, ⟨0, 0, 0, 1⟩]) := by decide +kernel
  obtain ⟨b, hb⟩ : ∃ b, Curve.casteljau 2 ([⟨0, 0, 0, 1⟩, ⟨0, -1, 0, 3⟩, ⟨0, 0, 0, 1⟩] : List (Vec4 ℚ))
      (List.replicate 3 (List.replicate 3 0)) = .ok b := by
    cases h : Curve.casteljau 2 ([⟨0, 0, 0, 1⟩, ⟨0, -1, 0, 3⟩, ⟨0, 0, 0, 1⟩] : List (Vec4 ℚ)) (List.replicate 3 (List.replicate 3 0)) with
    | ok b => exact ⟨b, rfl⟩
    | error e => rw [h, bind_error] at hc; exact absurd hc (by simp)
  rw [hb, bind_ok] at hc
  unfold Curve.GetBoundingBox
  rw [e, bind_ok]
  simp only [foldMList]
  rw [Curve.boxLoop, c1, bind_ok, e1, bind_ok, if_neg (by rw [d1]; decide)]
  rw [show List.replicate ((2 : Int) + 1).toNat (List.replicate ((2 : Int) + 1).toNat (0 : Vec4 ℚ)) = List.replicate 3 (List.replicate 3 0) from rfl]
  rw [hb, bind_ok, hc, bind_ok]
  simp only []
  rw [Curve.boxLoop, c2, bind_ok, e2, bind_ok, if_pos d2, Curve.boxLoop, c3, bind_ok, e3, bind_ok, if_pos d3, Curve.boxLoop]
  have hx : (⟨⟨0, -1/2, 0⟩, ⟨0, 0, 0⟩⟩ : BoundingBox ℚ).ExpandToIncludeBox ⟨⟨0, -1/2, 0⟩, ⟨0, 0, 0⟩⟩ = ⟨⟨0, -1/2, 0⟩, ⟨0, 0, 0⟩⟩ := by decide +kernel
  exact congrArg Except.ok hx

/-- C40, the part that does hold.  For curves with equal weights and a correct square root the *lower* faces of the box
are right up to the tolerance: no coordinate of any curve point is more than `max eps 1e-6` below the box.  Missing: the upper
faces and rational curves (see the refutations: the code subdivides in Cartesian instead of homogeneous coordinates). -/
theorem C40_lower_faces_partial [Archimedean K] (sqrt : K → K) (hsqrt : ∀ x, 0 ≤ x → 0 ≤ sqrt x ∧ sqrt x * sqrt x = x) (eps : K)
    {p : ℕ} (hp : 1 ≤ p) {c : Curve K} (hw : WFCurve p c) (hmult : ∀ v, 0 < v → v < 1 → c.Knots.Values.count v ≤ p)
    {w : K} (hwt : ∀ P ∈ c.ControlPoints, P.w = w) :
    ∃ (box : BoundingBox K) (fuel₀ : ℕ), (∀ fuel ≥ fuel₀, c.GetBoundingBox sqrt fuel eps = .ok box) ∧
      ∀ x, 0 ≤ x → x ≤ 1 → ∃ C, c.Evaluate x = .ok C ∧ ∀ k, coord k box.Min - max eps (1 / 1000000) ≤ coord k C := by
  obtain ⟨box, F, c', m, hrun, hw', hs, hm, hm1, hlen, hkn, e, ⟨vs, hvs, hins⟩, hb⟩ := getBoundingBox_spec sqrt eps hp hw hmult
  obtain ⟨_, _, h3⟩ := C03_pairs_roundtrip c.Knots
  obtain ⟨p1, p2, p3⟩ := h3 hw.clamped.sorted
  refine ⟨box, F, hrun, ?_⟩
  intro x h0 h1
  have hQ := insertList_convex (p := p) (Q := fun v : Vec4 K => v.w = w) (by
    intro a b r ha hb _ _
    have hr : (r • a + (1 - r) • b).w = r * a.w + (1 - r) * b.w := rfl
    rw [hr, ha, hb]; ring) vs hvs hw hp (fun i hi => hwt (pt c.ControlPoints i) (pt_mem _ _ hi)) hins
  -- the piece that contains `x`
  obtain ⟨r, hr, hr1, hr2⟩ : ∃ r < m, (dvals c.Knots).getD r 0 ≤ x ∧ x ≤ (dvals c.Knots).getD (r + 1) 0 := by
    have hfirst : (dvals c.Knots).getD 0 0 = 0 := by
      have := kn_reps p hp (dvals c.Knots) 0 (by rw [hm]; exact Nat.mul_pos (by omega) (by omega))
      rw [Nat.zero_div, ← hkn] at this
      rw [← this]
      exact hw'.clamped.zeros _ (by omega)
    have hlast : (dvals c.Knots).getD m 0 = 1 := by
      have := kn_reps p hp (dvals c.Knots) (p * m) (by rw [hm]; exact Nat.mul_lt_mul_of_pos_left (by omega) (by omega))
      rw [Nat.mul_div_cancel_left _ (by omega : 0 < p), ← hkn] at this
      rw [← this]
      have hl := hw'.count
      exact hw'.clamped.ones _ (by omega) (by omega)
    have : ∀ q ≤ m, 1 ≤ q → x ≤ (dvals c.Knots).getD q 0 → ∃ r < q, (dvals c.Knots).getD r 0 ≤ x ∧ x ≤ (dvals c.Knots).getD (r + 1) 0 := by
      intro q
      induction q with
      | zero => intro _ h; omega
      | succ q ih =>
        intro hq _ hx
        by_cases hc : (dvals c.Knots).getD q 0 ≤ x
        · exact ⟨q, by omega, hc, hx⟩
        · rcases Nat.eq_zero_or_pos q with rfl | hq0
          · rw [hfirst] at hc; exact absurd h0 hc
          · obtain ⟨r, hr, h⟩ := ih (by omega) hq0 (not_le.mp hc).le
            exact ⟨r, by omega, h⟩
    exact this m le_rfl hm1 (hlast ▸ h1)
  obtain ⟨q1, q2, q3, q4, q5⟩ := bezSeg_spec hp hw hw' hs (d := dvals c.Knots) p1 hm hlen hkn r hr
  set a := (dvals c.Knots).getD r 0
  set b := (dvals c.Knots).getD (r + 1) 0
  have hab : 0 < b - a := sub_pos.mpr q3
  have ht0 : 0 ≤ (x - a) / (b - a) := div_nonneg (by linarith) hab.le
  have ht1 : (x - a) / (b - a) ≤ 1 := (div_le_one hab).mpr (by linarith)
  have hx := q5 _ ht0 ht1
  rw [div_mul_cancel₀ _ hab.ne', add_sub_cancel] at hx
  obtain ⟨C, hC, hCk⟩ := evaluate_bezPt q1 rfl (w := w) (by
    intro i hi
    simp only [bezSeg, tab_length] at hi
    simp only [bezSeg]
    rw [pt_tab _ _ _ hi]
    apply hQ
    have : p * (r + 1) ≤ p * m := Nat.mul_le_mul_left p (by omega)
    rw [Nat.mul_add, Nat.mul_one] at this
    omega) ht0 ht1
  rw [hC] at hx
  refine ⟨C, hx.symm, fun k => ?_⟩
  rw [hCk]
  obtain ⟨b', hb', _, _, hlow⟩ := hb.each (bezSeg p c'.ControlPoints r) (by
    simp only [tab, List.mem_map, List.mem_range]
    exact ⟨r, hr, rfl⟩)
  cases hb'
  exact hlow hsqrt k _ ht0 ht1

end Nurbs.Props
