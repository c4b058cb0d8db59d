import Verif.Props.DoubleInsert
import Verif.Props.BBox
import Verif.Proof.RoundedBBox
import Verif.Proof.RoundedPieces
import Verif.Props.RoundedBezier

/-! # C121: bounding boxes in `double` -/

set_option linter.unusedSectionVars false
set_option exponentiation.threshold 2000

namespace Nurbs.Props
open Nurbs Nurbs.Spec

/-- C121 (partial): with rounding `GetBoundingBox` ends as long as `2 p² u B (1 + u)` is below the rounded `1e-6`, where `B` bounds the
coordinates of the Bezier pieces and `u` is the unit roundoff.  There is a number of rounds that suffices, and more make no difference,
for every tolerance (also 0 and below) and any function in place of `sqrt`.  The box contains the ends of every piece exactly, and it is
contained in every axis-parallel slab that contains the control points of the pieces.  For binary arithmetic without overflow and
underflow.  Missing: larger coordinates, for which it is false (`C121_endless_refuted`). -/
theorem C121_ends_partial {K : Type} [Field K] [LinearOrder K] [IsStrictOrderedRing K] [Archimedean K] {R : Rounding K} (hR : Binary R)
    (sqrt : Fl R → Fl R) (eps : Fl R) {p : ℕ} (hp : 1 ≤ p) {c : Curve (Fl R)} (hw : WFCurve p (exactCurve c))
    (hmult : ∀ v, 0 < v → v < 1 → c.Knots.Values.count v ≤ p) {lo hi B₀ B : K} (hlo : 0 < lo) (hb : CurveBounds (exactCurve c) lo hi B₀)
    (hB : ∀ segs, c.ExtractBezier = .ok segs → ∀ s ∈ segs, ∀ P ∈ s.ControlPoints, |P.x.val| ≤ B ∧ |P.y.val| ≤ B ∧ |P.z.val| ≤ B)
    (hs : 2 * (p : K) ^ 2 * B * R.u * (1 + R.u) < (eps6 : Fl R).val) :
    ∃ (segs : List (Curve (Fl R))) (box : BoundingBox (Fl R)) (fuel₀ : ℕ), c.ExtractBezier = .ok segs ∧ segs ≠ [] ∧
      (∀ fuel ≥ fuel₀, c.GetBoundingBox sqrt fuel eps = .ok box) ∧
      (∀ s ∈ segs, ∃ P Q, s.ControlPoints.head? = some P ∧ s.ControlPoints.getLast? = some Q ∧
        Spec.InBox box ⟨P.x, P.y, P.z⟩ ∧ Spec.InBox box ⟨Q.x, Q.y, Q.z⟩) ∧
      (∀ k a b, (∀ s ∈ segs, ∀ P ∈ s.ControlPoints, a ≤ coord k ⟨P.x, P.y, P.z⟩ ∧ coord k ⟨P.x, P.y, P.z⟩ ≤ b) →
        a ≤ coord k box.Min ∧ coord k box.Max ≤ b) := by
  obtain ⟨c', m, hw', hm, hlen, hkn, e, -⟩ := extractBezier_rounded hp hw hmult hlo hb
  have hm1 : 1 ≤ m := by
    by_contra hcon
    obtain rfl : m = 0 := by omega
    have h1 := hw'.clamped.len
    have h2 := hw'.count
    have h3 : (exactCurve c').ControlPoints.length = c'.ControlPoints.length := by simp [exactCurve]
    omega
  have hlen' : ∀ s ∈ tab m (bezSeg p c'.ControlPoints), s.ControlPoints.length = p + 1 := by
    intro s hs'
    simp only [tab, List.mem_map, List.mem_range] at hs'
    obtain ⟨r, _, rfl⟩ := hs'
    simp [bezSeg]
  have hne : tab m (bezSeg p c'.ControlPoints) ≠ [] := by
    intro h
    have := congrArg List.length h
    simp at this
    omega
  have hpt : ∀ s ∈ tab m (bezSeg p c'.ControlPoints), ∀ i ≤ p, pt s.ControlPoints i ∈ s.ControlPoints := by
    intro s hs' i hi
    have hl := hlen' s hs'
    unfold pt
    rw [List.getD_eq_getElem?_getD, List.getElem?_eq_getElem (by omega), Option.getD_some]
    exact List.getElem_mem _
  have hB' : ∀ s ∈ tab m (bezSeg p c'.ControlPoints), ∀ i ≤ p, ∀ k, |cv k (pt s.ControlPoints i)| ≤ B := by
    intro s hs' i hi k
    obtain ⟨h1, h2, h3⟩ := hB _ e s hs' _ (hpt s hs' i hi)
    cases k
    · exact h1
    · exact h2
    · exact h3
  have hB0 : 0 ≤ B := by
    obtain ⟨s, hs'⟩ := List.exists_mem_of_ne_nil _ hne
    exact (abs_nonneg _).trans (hB' s hs' 0 (by omega) .x)
  obtain ⟨F, hF⟩ := boxFold_fl hR sqrt eps p hB0 hs (tab m (bezSeg p c'.ControlPoints)) hlen' hB'
  obtain ⟨f', g', hg, hrun⟩ := hF (fun _ _ => 0) none
  obtain ⟨s0, hs0⟩ := List.exists_mem_of_ne_nil _ hne
  obtain ⟨box, rfl, -⟩ := hg.each s0 hs0
  refine ⟨_, box, F, e, hne, ?_, ?_, ?_⟩
  · intro fuel hf
    unfold Curve.GetBoundingBox
    rw [e, bind_ok]
    dsimp only
    rw [show c.Degree = (p : Int) from hw.degree, show ((p : Int) + 1).toNat = p + 1 by omega, replicate_eq_tab, replicate_eq_tab, hrun fuel hf]
    rfl
  · intro s hs'
    obtain ⟨b', hb', h1, h2⟩ := hg.each s hs'
    obtain rfl := Option.some.inj hb'
    have hl := hlen' s hs'
    refine ⟨_, _, ?_, ?_, h1, h2⟩
    · unfold pt
      rw [List.head?_eq_getElem?, List.getD_eq_getElem?_getD, List.getElem?_eq_getElem (by omega), Option.getD_some]
    · unfold pt
      rw [List.getLast?_eq_getElem?, List.getD_eq_getElem?_getD, hl, Nat.add_sub_cancel, List.getElem?_eq_getElem (by omega), Option.getD_some]
  · intro k a b h
    exact hg.inside k a b (fun s hs' i hi => h s hs' _ (hpt s hs' i hi)) (by simp) box rfl

/-- C121 in `double`: if `p² B ≤ 4·10⁹`, `B` the largest coordinate of the control points of the curve, and `p` times the number of knots
is at most a million, `GetBoundingBox` ends. -/
theorem C121_double_partial (sqrt : Fl binary53 → Fl binary53) (eps : Fl binary53) {p : ℕ} (hp : 1 ≤ p) {c : Curve (Fl binary53)}
    (hw : WFCurve p (exactCurve c)) (hmult : ∀ v, 0 < v → v < 1 → c.Knots.Values.count v ≤ p) {lo hi B : ℚ} (hlo : 0 < lo)
    (hb : CurveBounds (exactCurve c) lo hi B) (hN : p * c.Knots.Values.length ≤ 1000000) (hs : (p : ℚ) ^ 2 * B ≤ 4000000000) :
    ∃ (box : BoundingBox (Fl binary53)) (fuel₀ : ℕ), ∀ fuel ≥ fuel₀, c.GetBoundingBox sqrt fuel eps = .ok box := by
  have h6 : (9 / 10000000 : ℚ) < (eps6 : Fl binary53).val := by decide +kernel
  have hu : binary53.u = 1 / 2 ^ 53 := rfl
  have hl : 0 < (exactCurve c).ControlPoints.length := by
    have := hw.count
    have := hw.clamped.len
    omega
  have hB : 0 ≤ B := le_trans (abs_nonneg _) (hb 0 hl).2.2.1
  obtain ⟨segs, e, hlen, hseg⟩ := extractBezier_range hp hw hmult hlo hb
  generalize hM : p * segs.length + 1 - c.ControlPoints.length = M at hseg
  have hMN : M ≤ 1000000 := by
    have := Nat.mul_le_mul_left p (show segs.length + 1 ≤ c.Knots.Values.length from hlen)
    rw [Nat.mul_add] at this
    omega
  have hq : (binary53.q ^ (8 * M))⁻¹ ≤ 101 / 100 := by
    have hMq : (M : ℚ) ≤ 1000000 := by exact_mod_cast hMN
    have hM0 : (0 : ℚ) ≤ M := by positivity
    have hsm : ((8 * M : ℕ) : ℚ) * binary53.u ≤ 1 / 10 ^ 8 := by
      rw [hu]; push_cast; linarith
    have h1 := errFactor_le binary53 (8 * M) (lt_of_le_of_lt hsm (by norm_num))
    have h2 : ((8 * M : ℕ) : ℚ) * binary53.u / (1 - ((8 * M : ℕ) : ℚ) * binary53.u) ≤ 1 / 100 := by
      rw [div_le_iff₀ (by linarith)]
      linarith
    change (binary53.q ^ (8 * M))⁻¹ - 1 ≤ _ at h1
    linarith
  obtain ⟨_, box, F, -, -, h, -⟩ := C121_ends_partial binary53_binary sqrt eps hp hw hmult hlo hb (B := (binary53.q ^ (8 * M))⁻¹ * B)
    (fun segs' h => by rw [← Except.ok.inj (e.symm.trans h)]; exact hseg) (by
    refine lt_of_le_of_lt ?_ h6
    rw [hu]
    have : 2 * (p : ℚ) ^ 2 * ((binary53.q ^ (8 * M))⁻¹ * B) * (1 / 2 ^ 53) * (1 + 1 / 2 ^ 53) =
      (binary53.q ^ (8 * M))⁻¹ * (((p : ℚ) ^ 2 * B) * (2 * (1 / 2 ^ 53) * (1 + 1 / 2 ^ 53))) := by ring
    rw [this]
    refine (mul_le_mul hq (mul_le_mul_of_nonneg_right hs (by norm_num)) (by positivity) (by norm_num)).trans ?_
    norm_num)
  exact ⟨box, F, h⟩

/-- Three neighbouring numbers, `2^-8` apart; the outer ones have an even last bit. -/
def far64 (i : ℕ) : Double := Double.fin (2 ^ 44 + i / 2 ^ 8)

/-- A short line far away. -/
def exFarLine : Curve Double :=
  ⟨2, ⟨[0, 0, 0, 1, 1, 1]⟩, [⟨far64 1, far64 1, 0, 1⟩, ⟨far64 0, far64 2, 0, 1⟩, ⟨far64 0, far64 2, 0, 1⟩]⟩

/-- The triangle of de Casteljau of this curve. -/
def exFarTri : List (List (Vec4 Double)) :=
  [[⟨far64 1, far64 1, 0, 1⟩, ⟨far64 0, far64 2, 0, 1⟩, ⟨far64 0, far64 2, 0, 1⟩],
   [⟨far64 0, far64 2, 0, 1⟩, ⟨far64 0, far64 2, 0, 1⟩, 0], [⟨far64 0, far64 2, 0, 1⟩, 0, 0]]

/-- C121 without a bound on the coordinates is false: `GetBoundingBox` of this curve of finite numbers does not end, since the left half
of the curve is, rounded, the curve itself; the stack grows by one piece in each round.  For every tolerance below `2^-8` (the default
is `1e-3`) and whatever `sqrt`, provided that `sqrt (2^-16) = 2^-8`. -/
theorem C121_endless_refuted : FinCurve exFarLine ∧ WFCurve 2 (exactCurve64 exFarLine) ∧
    ∀ sqrt : Double → Double, sqrt (Double.fin (1 / 2 ^ 16)) = Double.fin (1 / 2 ^ 8) → ∀ eps, eps < Double.fin (1 / 2 ^ 8) →
      ∀ fuel, exFarLine.GetBoundingBox sqrt fuel eps = .error .diverge := by
  refine ⟨⟨?_, ?_⟩, ⟨rfl, ⟨by decide +kernel, by decide +kernel, by decide +kernel, by decide +kernel, by decide +kernel,
    by decide +kernel⟩, by decide +kernel, by decide +kernel⟩, ?_⟩
  · intro d hd
    simp only [exFarLine, List.mem_cons, List.not_mem_nil, or_false] at hd
    rcases hd with rfl | rfl | rfl | rfl | rfl | rfl <;> first | exact isFin_0 | exact isFin_1
  · intro P hP
    simp only [exFarLine, List.mem_cons, List.not_mem_nil, or_false] at hP
    have h0 : IsFin (far64 0) := isFin_of (by decide +kernel) (by decide +kernel)
    have h1 : IsFin (far64 1) := isFin_of (by decide +kernel) (by decide +kernel)
    have h2 : IsFin (far64 2) := isFin_of (by decide +kernel) (by decide +kernel)
    rcases hP with rfl | rfl | rfl <;> refine ⟨?_, ?_, ?_, ?_⟩ <;> first | exact isFin_0 | exact isFin_1 | exact h0 | exact h1 | exact h2
  · intro sqrt hs eps he fuel
    have hc : Curve.controlBox exFarLine.ControlPoints = .ok ⟨⟨far64 0, far64 1, 0⟩, ⟨far64 0, far64 2, 0⟩⟩ := by decide +kernel
    have hE : Curve.endBox exFarLine.ControlPoints = .ok ⟨⟨far64 0, far64 1, 0⟩, ⟨far64 1, far64 2, 0⟩⟩ := by decide +kernel
    have hd : Curve.boxDone sqrt eps ⟨⟨far64 0, far64 1, 0⟩, ⟨far64 0, far64 2, 0⟩⟩ ⟨⟨far64 0, far64 1, 0⟩, ⟨far64 1, far64 2, 0⟩⟩ = false := by
      have h1 : (⟨⟨far64 0, far64 1, 0⟩, ⟨far64 0, far64 2, 0⟩⟩ : BoundingBox Double).Length.norm sqrt = Double.fin (1 / 2 ^ 8) := by
        unfold Vec3.norm
        rw [← hs]
        exact congrArg sqrt (by decide +kernel)
      have h2 : (Curve.approxVec3 (⟨far64 0, far64 1, 0⟩ : Vec3 Double) ⟨far64 0, far64 1, 0⟩ eps6 &&
        Curve.approxVec3 (⟨far64 0, far64 2, 0⟩ : Vec3 Double) ⟨far64 1, far64 2, 0⟩ eps6) = false := by decide +kernel
      unfold Curve.boxDone
      rw [h1, h2, decide_eq_false (not_le.mpr he), Bool.or_false]
    have hz : Curve.casteljau 2 exFarLine.ControlPoints (List.replicate 3 (List.replicate 3 0)) = .ok exFarTri := by decide +kernel
    have hb : Curve.casteljau 2 exFarLine.ControlPoints exFarTri = .ok exFarTri := by decide +kernel
    have hh : ∃ R, Curve.casteljauHalves 2 exFarTri = .ok (exFarLine.ControlPoints, R) := ⟨List.replicate 3 ⟨far64 0, far64 2, 0, 1⟩, by decide +kernel⟩
    obtain ⟨R, hh⟩ := hh
    have key : ∀ (fuel : ℕ) stack B g, Curve.casteljau 2 exFarLine.ControlPoints B = .ok exFarTri →
        Curve.boxLoop sqrt 2 eps fuel (exFarLine.ControlPoints :: stack) B g = .error .diverge := by
      intro fuel
      induction fuel with
      | zero => intros; rfl
      | succ fuel ih =>
        intro stack B g hB
        rw [Curve.boxLoop, hc, bind_ok, hE, bind_ok, if_neg (by rw [hd]; decide), hB, bind_ok, hh, bind_ok]
        exact ih _ _ _ hb
    have e : exFarLine.ExtractBezier = .ok [exFarLine] := by decide +kernel
    unfold Curve.GetBoundingBox
    rw [e, bind_ok]
    simp only [foldMList]
    rw [show List.replicate (exFarLine.Degree + 1).toNat (List.replicate (exFarLine.Degree + 1).toNat (0 : Vec4 Double)) = List.replicate 3 (List.replicate 3 0) from rfl]
    rw [show exFarLine.Degree = 2 from rfl, key fuel [] _ none hz]
    rfl

/-- `wavy`, with the knot 1/3 rounded, meets the hypotheses of the positive part. -/
example (sqrt : Fl binary53 → Fl binary53) (eps : Fl binary53) : ∃ box fuel₀, ∀ fuel ≥ fuel₀, wavy.GetBoundingBox sqrt fuel eps = .ok box := by
  refine C121_double_partial sqrt eps (p := 2)
    ⟨by decide +kernel, ⟨by decide +kernel, by decide +kernel, by decide +kernel, by decide +kernel, by decide +kernel, by decide +kernel⟩,
      by decide +kernel, by decide +kernel⟩ ?_ (lo := 1/11) (hi := 1) (B := 4) (by norm_num) (by unfold CurveBounds; decide +kernel)
      (by decide +kernel) (by norm_num) (hp := by norm_num)
  intro v h0 h1
  by_cases hv : v ∈ wavy.Knots.Values
  · have : ∀ v ∈ wavy.Knots.Values, 0 < v → v < 1 → wavy.Knots.Values.count v ≤ 2 := by decide +kernel
    exact this v hv h0 h1
  · rw [List.count_eq_zero_of_not_mem hv]; omega

end Nurbs.Props
