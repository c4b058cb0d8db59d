import Verif.Proof.BBoxTouch
import Verif.Proof.Circle
import Verif.Props.BBox

/-! # C116: every face of the bounding box touches the curve -/

set_option linter.unusedSectionVars false

namespace Nurbs.Props
open Nurbs Nurbs.Spec

variable {K : Type} [Field K] [LinearOrder K] [IsStrictOrderedRing K]

/-- C116 for curves with equal weights (the statement for all weights is refuted below).  Whenever `GetBoundingBox` returns a box –
for every tolerance, every number of rounds and any function in place of `sqrt` –, each coordinate of `Min` and of `Max` is
that coordinate of a point of the curve. -/
theorem C116_faces_touch_partial (sqrt : K → K) (eps : K) {p : ℕ} (hp : 1 ≤ p) {c : Curve K} (hw : WFCurve p c)
    (hmult : ∀ v, 0 < v → v < 1 → c.Knots.Values.count v ≤ p) {w : K} (hwt : ∀ P ∈ c.ControlPoints, P.w = w)
    {fuel : ℕ} {box : BoundingBox K} (hbox : c.GetBoundingBox sqrt fuel eps = .ok box) (k : Axis) :
    (∃ x C, 0 ≤ x ∧ x ≤ 1 ∧ c.Evaluate x = .ok C ∧ coord k box.Min = coord k C) ∧
    (∃ x C, 0 ≤ x ∧ x ≤ 1 ∧ c.Evaluate x = .ok C ∧ coord k box.Max = coord k C) := by
  obtain ⟨c', m, hw', hs, hm, hlen, hkn, e, vs, hvs, hins, _⟩ := extractBezier_spec hp hw hmult
  obtain ⟨_, _, h3⟩ := C03_pairs_roundtrip c.Knots
  obtain ⟨p1, p2, p3⟩ := h3 hw.clamped.sorted
  have hQ := insertList_convex (p := p) (Q := fun v : Vec4 K => v.w = w) (by
    intro a b r ha hb _ _
    have hr : (r • a + (1 - r) • b).w = r * a.w + (1 - r) * b.w := rfl
    rw [hr, ha, hb]; ring) vs hvs hw hp (fun i hi => hwt (pt c.ControlPoints i) (pt_mem _ _ hi)) hins
  have hm1 : 1 ≤ m := by
    by_contra hcon
    obtain rfl : m = 0 := by omega
    have := hw'.clamped.len
    have := hw'.count
    rw [hkn] at this
    simp only [List.length_cons, List.length_append, reps_length, hm, List.length_nil, hlen] at this
    have h2 := hw'.count
    omega
  let S : Axis → K → Prop := fun k y => ∃ x C, 0 ≤ x ∧ x ≤ 1 ∧ c.Evaluate x = .ok C ∧ y = coord k C
  have hpieces : ∀ s ∈ tab m (bezSeg p c'.ControlPoints), s.ControlPoints.length = p + 1 ∧ PieceIn p S (pt s.ControlPoints) := by
    intro s hs'
    simp only [tab, List.mem_map, List.mem_range] at hs'
    obtain ⟨r, hr, rfl⟩ := hs'
    refine ⟨by simp [bezSeg], fun k t t0 t1 => ?_⟩
    obtain ⟨q1, q2, q3, q4, q5⟩ := bezSeg_spec hp hw hw' hs (d := dvals c.Knots) p1 hm hlen hkn r hr
    obtain ⟨C, hC, hCk⟩ := evaluate_bezPt q1 rfl (w := w) (by
      intro i hi
      simp only [bezSeg, tab_length] at hi
      simp only [bezSeg]
      rw [pt_tab _ _ _ hi]
      apply hQ
      have : p * (r + 1) ≤ p * m := Nat.mul_le_mul_left p (by omega)
      rw [Nat.mul_add, Nat.mul_one] at this
      omega) t0 t1
    have hx := q5 t t0 t1
    rw [hC] at hx
    have hd := sub_pos.mpr q3
    refine ⟨_, C, ?_, ?_, hx.symm, (hCk k).symm⟩
    · have := mul_nonneg t0 hd.le
      linarith
    · have := mul_le_mul_of_nonneg_right t1 hd.le
      linarith
  have key : FacesIn S (some box) := by
    unfold Curve.GetBoundingBox at hbox
    rw [e, bind_ok, hw.degree] at hbox
    simp only at hbox
    rw [show ((p : Int) + 1).toNat = p + 1 by omega, replicate_eq_tab, replicate_eq_tab] at hbox
    cases hr : foldMList (fun (seg : Curve K) (s : List (List (Vec4 K)) × Option (BoundingBox K)) =>
        Curve.boxLoop sqrt (p : Int) eps fuel [seg.ControlPoints] s.1 s.2) (tab m (bezSeg p c'.ControlPoints))
        (tab (p + 1) fun _ => tab (p + 1) fun _ => 0, none) with
    | error e => rw [hr, bind_error] at hbox; cases hbox
    | ok r =>
      rw [hr, bind_ok] at hbox
      obtain ⟨hf, hne⟩ := boxFold_faces sqrt eps p S fuel _ hpieces (fun _ _ => 0) none r (by intro b hb; cases hb) hr
      have hsome := hne (Or.inl (by
        intro h
        have := congrArg List.length h
        simp at this
        omega))
      obtain ⟨b, hb⟩ := Option.ne_none_iff_exists'.mp hsome
      rw [hb] at hbox hf
      cases hbox
      exact hf
  exact key box rfl k

/-- With a correct square root the lower faces are at the lowest points of the curve, up to the tolerance: `Min` is attained, and no
point of the curve is lower than it by more than `max eps 1e-6`. -/
theorem C116_minimum_partial [Archimedean K] (sqrt : K → K) (hsqrt : ∀ x, 0 ≤ x → 0 ≤ sqrt x ∧ sqrt x * sqrt x = x) (eps : K)
    {p : ℕ} (hp : 1 ≤ p) {c : Curve K} (hw : WFCurve p c) (hmult : ∀ v, 0 < v → v < 1 → c.Knots.Values.count v ≤ p)
    {w : K} (hwt : ∀ P ∈ c.ControlPoints, P.w = w) :
    ∃ (box : BoundingBox K) (fuel₀ : ℕ), (∀ fuel ≥ fuel₀, c.GetBoundingBox sqrt fuel eps = .ok box) ∧
      ∀ k, ∃ x₀ C₀, 0 ≤ x₀ ∧ x₀ ≤ 1 ∧ c.Evaluate x₀ = .ok C₀ ∧ coord k box.Min = coord k C₀ ∧
        ∀ x, 0 ≤ x → x ≤ 1 → ∃ C, c.Evaluate x = .ok C ∧ coord k C₀ - max eps (1 / 1000000) ≤ coord k C := by
  obtain ⟨box, F, hrun, hlow⟩ := C40_lower_faces_partial sqrt hsqrt eps hp hw hmult hwt
  refine ⟨box, F, hrun, fun k => ?_⟩
  obtain ⟨⟨x, C, h0, h1, he, hk⟩, _⟩ := C116_faces_touch_partial sqrt eps hp hw hmult hwt (hrun F le_rfl) k
  refine ⟨x, C, h0, h1, he, hk, fun y y0 y1 => ?_⟩
  obtain ⟨C', e', h'⟩ := hlow y y0 y1
  exact ⟨C', e', hk ▸ h' k⟩

/-- A curve with an inner knot whose weights are all 2: the box ends at points of the curve. -/
example : ∃ c : Curve ℚ, WFCurve 2 c ∧ (∀ P ∈ c.ControlPoints, P.w = 2) ∧
    c.GetBoundingBox id 200 1 = .ok ⟨⟨0, -9/8, 0⟩, ⟨4, 1, 0⟩⟩ ∧ c.Evaluate (1/4) = .ok ⟨1, -9/8, 0⟩ :=
  ⟨⟨2, ⟨[0, 0, 0, 1/2, 1, 1, 1]⟩, [⟨0, 0, 0, 2⟩, ⟨1, -2, 0, 2⟩, ⟨3, 1, 0, 2⟩, ⟨4, 1, 0, 2⟩]⟩,
    ⟨rfl, ⟨by decide +kernel, by decide +kernel, by decide +kernel, by decide +kernel, by decide +kernel, by decide +kernel⟩, rfl,
      by decide +kernel⟩, by decide +kernel, by decide +kernel, by decide +kernel⟩

/-- C116 is false of rational curves: for every tolerance below 1 the box of this curve goes down to `y = -1/2`, and every point
of the curve is strictly above. -/
theorem C116_rational_refuted :
    ∃ c : Curve ℚ, WFCurve 2 c ∧ ∀ (sqrt : ℚ → ℚ) (eps : ℚ) (fuel : ℕ), sqrt 0 = 0 → sqrt 1 = 1 → 0 ≤ eps → eps < 1 → 4 ≤ fuel →
      ∃ box, c.GetBoundingBox sqrt fuel eps = .ok box ∧ box.Min.y = -1/2 ∧
        ∀ x, 0 ≤ x → x ≤ 1 → ∃ C, c.Evaluate x = .ok C ∧ -1/2 < C.y := by
  have hwf : WFCurve 2 (⟨2, ⟨[0, 0, 0, 1, 1, 1]⟩, [⟨0, 0, 0, 1⟩, ⟨0, -1, 0, 1/3⟩, ⟨0, 0, 0, 1⟩]⟩ : Curve ℚ) :=
    ⟨rfl, ⟨by decide +kernel, by decide +kernel, by decide +kernel, by decide +kernel, by decide +kernel, by decide +kernel⟩, rfl,
      by decide +kernel⟩
  refine ⟨_, hwf, ?_⟩
  intro sqrt eps fuel hs0 hs1 he0 he1 hf
  obtain ⟨fuel, rfl⟩ : ∃ k, fuel = k + 4 := ⟨fuel - 4, by omega⟩
  refine ⟨⟨⟨0, -1/2, 0⟩, ⟨0, 0, 0⟩⟩, ?_, rfl, ?_⟩
  · have e : (⟨2, ⟨[0, 0, 0, 1, 1, 1]⟩, [⟨0, 0, 0, 1⟩, ⟨0, -1, 0, 1/3⟩, ⟨0, 0, 0, 1⟩]⟩ : Curve ℚ).ExtractBezier =
        .ok [⟨2, ⟨[0, 0, 0, 1, 1, 1]⟩, [⟨0, 0, 0, 1⟩, ⟨0, -1, 0, 1/3⟩, ⟨0, 0, 0, 1⟩]⟩] := by decide +kernel
    have c1 : Curve.controlBox ([⟨0, 0, 0, 1⟩, ⟨0, -1, 0, 1/3⟩, ⟨0, 0, 0, 1⟩] : List (Vec4 ℚ)) = .ok ⟨⟨0, -1, 0⟩, ⟨0, 0, 0⟩⟩ := by decide +kernel
    have e1 : Curve.endBox ([⟨0, 0, 0, 1⟩, ⟨0, -1, 0, 1/3⟩, ⟨0, 0, 0, 1⟩] : List (Vec4 ℚ)) = .ok ⟨⟨0, 0, 0⟩, ⟨0, 0, 0⟩⟩ := by decide +kernel
    have c2 : Curve.controlBox ([⟨0, 0, 0, 1⟩, ⟨0, -1/2, 0, 2/3⟩, ⟨0, -1/2, 0, 2/3⟩] : List (Vec4 ℚ)) = .ok ⟨⟨0, -1/2, 0⟩, ⟨0, -1/2, 0⟩⟩ := by decide +kernel
    have e2 : Curve.endBox ([⟨0, 0, 0, 1⟩, ⟨0, -1/2, 0, 2/3⟩, ⟨0, -1/2, 0, 2/3⟩] : List (Vec4 ℚ)) = .ok ⟨⟨0, -1/2, 0⟩, ⟨0, 0, 0⟩⟩ := by decide +kernel
    have c3 : Curve.controlBox ([⟨0, -1/2, 0, 2/3⟩, ⟨0, -1/2, 0, 2/3⟩, ⟨0, 0, 0, 1⟩] : List (Vec4 ℚ)) = .ok ⟨⟨0, -1/2, 0⟩, ⟨0, 0, 0⟩⟩ := by decide +kernel
    have e3 : Curve.endBox ([⟨0, -1/2, 0, 2/3⟩, ⟨0, -1/2, 0, 2/3⟩, ⟨0, 0, 0, 1⟩] : List (Vec4 ℚ)) = .ok ⟨⟨0, -1/2, 0⟩, ⟨0, 0, 0⟩⟩ := by decide +kernel
    have d1 : Curve.boxDone sqrt eps (⟨⟨0, -1, 0⟩, ⟨0, 0, 0⟩⟩ : BoundingBox ℚ) ⟨⟨0, 0, 0⟩, ⟨0, 0, 0⟩⟩ = false := by
      have : (BoundingBox.Length (⟨⟨0, -1, 0⟩, ⟨0, 0, 0⟩⟩ : BoundingBox ℚ)).norm sqrt = sqrt 1 := congrArg sqrt (by decide +kernel)
      unfold Curve.boxDone
      rw [this, hs1, decide_eq_false (not_le.mpr he1)]
      decide +kernel
    have d2 : Curve.boxDone sqrt eps (⟨⟨0, -1/2, 0⟩, ⟨0, -1/2, 0⟩⟩ : BoundingBox ℚ) ⟨⟨0, -1/2, 0⟩, ⟨0, 0, 0⟩⟩ = true := by
      have : (BoundingBox.Length (⟨⟨0, -1/2, 0⟩, ⟨0, -1/2, 0⟩⟩ : BoundingBox ℚ)).norm sqrt = sqrt 0 := congrArg sqrt (by decide +kernel)
      unfold Curve.boxDone
      rw [this, hs0, decide_eq_true he0, Bool.true_or]
    have d3 : Curve.boxDone sqrt eps (⟨⟨0, -1/2, 0⟩, ⟨0, 0, 0⟩⟩ : BoundingBox ℚ) ⟨⟨0, -1/2, 0⟩, ⟨0, 0, 0⟩⟩ = true := by
      unfold Curve.boxDone
      rw [Bool.or_eq_true]
      right
      decide +kernel
    have hc : (Curve.casteljau 2 ([⟨0, 0, 0, 1⟩, ⟨0, -1, 0, 1/3⟩, ⟨0, 0, 0, 1⟩] : List (Vec4 ℚ))
        (List.replicate 3 (List.replicate 3 0)) >>= fun b => Curve.casteljauHalves 2 b) =
        .ok ([⟨0, 0, 0, 1⟩, ⟨0, -1/2, 0, 2/3⟩, ⟨0, -1/2, 0, 2/3⟩], [⟨0, -1/2, 0, 2/3⟩, ⟨0, -1/2, 0, 2/3⟩, ⟨0, 0, 0, 1⟩]) := by decide +kernel
    obtain ⟨b, hb⟩ : ∃ b, Curve.casteljau 2 ([⟨0, 0, 0, 1⟩, ⟨0, -1, 0, 1/3⟩, ⟨0, 0, 0, 1⟩] : List (Vec4 ℚ))
        (List.replicate 3 (List.replicate 3 0)) = .ok b := by
      cases h : Curve.casteljau 2 ([⟨0, 0, 0, 1⟩, ⟨0, -1, 0, 1/3⟩, ⟨0, 0, 0, 1⟩] : List (Vec4 ℚ)) (List.replicate 3 (List.replicate 3 0)) with
      | ok b => exact ⟨b, rfl⟩
      | error e => rw [h, bind_error] at hc; exact absurd hc (by simp)
    rw [hb, bind_ok] at hc
    unfold Curve.GetBoundingBox
    rw [e, bind_ok]
    simp only [foldMList]
    rw [Curve.boxLoop, c1, bind_ok, e1, bind_ok, if_neg (by rw [d1]; decide)]
    rw [show List.replicate ((2 : Int) + 1).toNat (List.replicate ((2 : Int) + 1).toNat (0 : Vec4 ℚ)) = List.replicate 3 (List.replicate 3 0) from rfl]
    rw [hb, bind_ok, hc, bind_ok]
    simp only []
    rw [Curve.boxLoop, c2, bind_ok, e2, bind_ok, if_pos d2, Curve.boxLoop, c3, bind_ok, e3, bind_ok, if_pos d3, Curve.boxLoop]
    have hx : (⟨⟨0, -1/2, 0⟩, ⟨0, 0, 0⟩⟩ : BoundingBox ℚ).ExpandToIncludeBox ⟨⟨0, -1/2, 0⟩, ⟨0, 0, 0⟩⟩ = ⟨⟨0, -1/2, 0⟩, ⟨0, 0, 0⟩⟩ := by decide +kernel
    exact congrArg Except.ok hx
  · intro x h0 h1
    have hsp : IsSpan [(0 : ℚ), 0, 0, 1, 1, 1] x 2 := by
      refine ⟨by decide, by simpa [kn] using h0, ?_⟩
      rcases h1.lt_or_eq with h | rfl
      · left; simpa [kn] using h
      · right; decide +kernel
    obtain ⟨_, _, _, hpos, e⟩ := evaluate_seg hwf h0 h1 hsp
    refine ⟨_, e, ?_⟩
    have hk2 : kn [(0 : ℚ), 0, 0, 1, 1, 1] (0 + 2) = 0 := by decide +kernel
    have hk3 : kn [(0 : ℚ), 0, 0, 1, 1, 1] (0 + 3) = 1 := by decide +kernel
    have form : ∀ L : Vec4 ℚ →ₗ[ℚ] ℚ, L (seg (kn [(0 : ℚ), 0, 0, 1, 1, 1]) 2 x 2
        (hpts ([⟨0, 0, 0, 1⟩, ⟨0, -1, 0, 1/3⟩, ⟨0, 0, 0, 1⟩] : List (Vec4 ℚ)))) =
        (1 - x) ^ 2 * L ⟨0, 0, 0, 1⟩ + 2 * (x * (1 - x)) * L ⟨0, -1/3, 0, 1/3⟩ + x ^ 2 * L ⟨0, 0, 0, 1⟩ := by
      intro L
      have h := seg_bezier2 (kn [(0 : ℚ), 0, 0, 1, 1, 1]) 0 x
        (fun i => L (hpts ([⟨0, 0, 0, 1⟩, ⟨0, -1, 0, 1/3⟩, ⟨0, 0, 0, 1⟩] : List (Vec4 ℚ)) i))
        (by decide +kernel) (by decide +kernel) (by decide +kernel)
      rw [hk2, hk3, sub_zero, one_pow, one_mul] at h
      rw [seg_map, h, show hpts ([⟨0, 0, 0, 1⟩, ⟨0, -1, 0, 1/3⟩, ⟨0, 0, 0, 1⟩] : List (Vec4 ℚ)) 0 = ⟨0, 0, 0, 1⟩ by decide +kernel,
        show hpts ([⟨0, 0, 0, 1⟩, ⟨0, -1, 0, 1/3⟩, ⟨0, 0, 0, 1⟩] : List (Vec4 ℚ)) (0 + 1) = ⟨0, -1/3, 0, 1/3⟩ by decide +kernel,
        show hpts ([⟨0, 0, 0, 1⟩, ⟨0, -1, 0, 1/3⟩, ⟨0, 0, 0, 1⟩] : List (Vec4 ℚ)) (0 + 2) = ⟨0, 0, 0, 1⟩ by decide +kernel, sub_zero]
    have hy := form Vec4.ly
    have hw := form Vec4.lw
    simp only [Vec4.ly, Vec4.lw, LinearMap.coe_mk, AddHom.coe_mk] at hy hw
    change -1/2 < _ / _
    rw [lt_div_iff₀ hpos]
    simp only
    rw [hy, hw]
    nlinarith [sq_nonneg (2 * x - 1)]

end Nurbs.Props
