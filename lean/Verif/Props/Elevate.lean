import Verif.Props.Curve
import Verif.Props.Surface
import Verif.Proof.SurfaceElev
import Verif.Proof.ElevSafe

/-! # C36, C37, C49: degree elevation -/

set_option linter.unusedSectionVars false

namespace Nurbs.Props
open Nurbs Nurbs.Spec

/-! ## Refutations -/

/-- A curve of degree 10 with the single knot 1/3 followed by the triple knot 2/3. -/
def exTen : Curve ℚ :=
  ⟨10, ⟨List.replicate 11 0 ++ [1/3, 2/3, 2/3, 2/3] ++ List.replicate 11 1⟩,
    (List.range 15).map fun i => ⟨if i = 7 then 1 else 0, 0, 0, 1⟩⟩

theorem exTen_wf : WFCurve 10 exTen :=
  ⟨rfl, ⟨by decide +kernel, by decide +kernel, by decide +kernel, by decide +kernel, by decide +kernel,
    by decide +kernel⟩, by decide +kernel, by decide +kernel⟩

/-- C36 is false of the code.  In the knot removal part, `bet` (computed with the last knot before `ua`) is used for all
`j - tr > kind - ph + oldr` (DegreeAlgo.cpp:137-145), that is for as many steps as the multiplicity of the *current* knot suggests; the
previous knot may have a smaller multiplicity, and then the wrong knot is used.  The elevated curve differs from the original one. -/
theorem C36_wrong_curve_refuted : WFCurve 10 exTen ∧ ∃ c, exTen.ElevateDegree 1 = .ok c ∧
    exTen.Evaluate (1/2) = .ok ⟨9483/32768, 0, 0⟩ ∧ c.Evaluate (1/2) = .ok ⟨84457/294912, 0, 0⟩ := by
  refine ⟨exTen_wf, ⟨11, ⟨List.replicate 12 0 ++ [1/3, 1/3, 2/3, 2/3, 2/3, 2/3] ++ List.replicate 12 1⟩,
    (List.range 18).map fun i => ⟨if i = 7 then 8/99 else if i = 8 then 43/99 else if i = 9 then 49/99 else if i = 10 then 16/297 else 0, 0, 0, 1⟩⟩, ?_, ?_, ?_⟩
  · decide +kernel
  · decide +kernel
  · decide +kernel

/-- A polygon with five vertices. -/
def exLine : Curve ℚ := ⟨1, ⟨[0, 0, 1/4, 1/2, 3/4, 1, 1]⟩, [⟨0, 0, 0, 1⟩, ⟨1, 0, 0, 1⟩, ⟨2, 0, 0, 1⟩, ⟨3, 0, 0, 1⟩, ⟨4, 0, 0, 1⟩]⟩

theorem exLine_wf : WFCurve 1 exLine :=
  ⟨rfl, ⟨by decide +kernel, by decide +kernel, by decide +kernel, by decide +kernel, by decide +kernel,
    by decide +kernel⟩, by decide +kernel, by decide +kernel⟩

/-- C37 is false of the code: the buffers of `2 (n + times)` points are too small for five points and `times = 2`. -/
theorem C37_buffer_refuted : WFCurve 1 exLine ∧ exLine.ElevateDegree 2 = .error .ub := ⟨exLine_wf, by decide +kernel⟩

/-- A curve of degree 0: `std::vector<Vec4> nextbpts(degree - 1)` is created with size -1, converted to a huge unsigned size. -/
theorem C37_degree_zero_refuted : WFCurve 0 (⟨0, ⟨[0, 1]⟩, [⟨1, 2, 3, 1⟩]⟩ : Curve ℚ) ∧
    Curve.ElevateDegree (⟨0, ⟨[0, 1]⟩, [⟨1, 2, 3, 1⟩]⟩ : Curve ℚ) 1 = .error .throws :=
  ⟨⟨rfl, ⟨by decide +kernel, by decide +kernel, by decide +kernel, by decide +kernel, by decide +kernel,
    by decide +kernel⟩, by decide +kernel, by decide +kernel⟩, by decide +kernel⟩

/-- C49 is false of the code: `ElevateDegreeU/V` enlarge the grid by `times` although every interior knot adds `times` more points. -/
theorem C49_interior_knot_refuted : WFSurface 2 1 4 3 exSurface ∧ exSurface.ElevateDegreeU 1 = .error .assert ∧
    exSurface.ElevateDegreeV 1 = .error .assert := ⟨exSurface_wf, by decide +kernel, by decide +kernel⟩

/-! ## What holds -/

section
variable {K : Type} [Field K] [LinearOrder K] [IsStrictOrderedRing K]

/-- C36, partial.  `ElevateDegree(times)` on a well-formed curve of degree `p ≥ 1` gives a well-formed curve of degree `p + times` in
which every knot value has `times` more multiplicity and every value of `Evaluate` is the same (outside the unit interval both fail the
same assertion).  Missing from the full claim: degree sums above 29 (`int` overflow in `Binomial`), interior knots of multiplicity
`p + 1`, different knots closer than 1e-6, multiplicities that jump up by two or more at high degree (`C36_wrong_curve_refuted`), and
curves with more spans than the buffers allow (`C37_buffer_refuted`). -/
theorem C36_elevate_partial {p times : ℕ} {c : Curve K} (hw : WFCurve p c) (hp : 1 ≤ p) (ht : 1 ≤ times) (h29 : p + times ≤ 29)
    (hmult : InteriorMult p c.Knots.Values) (hapart : KnotsApart c.Knots.Values) (hsteady : SteadyMult p times c.Knots.Values)
    (hbuf : c.ControlPoints.length + times * spanCount c.Knots.Values ≤ 2 * (c.ControlPoints.length - 1 + times)) :
    ∃ c', c.ElevateDegree times = .ok c' ∧ WFCurve (p + times) c' ∧ MultRaised times c.Knots.Values c'.Knots.Values ∧
      c'.ControlPoints.length = c.ControlPoints.length + times * spanCount c.Knots.Values ∧ ∀ x, c'.Evaluate x = c.Evaluate x := by
  obtain ⟨c', e1, e2, e3, e4, _, e5⟩ := elevateDegree_ok hp ht h29 hw hmult hapart hsteady hbuf
  exact ⟨c', e1, e2, e3, e4, e5⟩

/-- C36, partial.  Elevation by one of a curve of degree at most 9: only the multiplicity and the distance of knots matter. -/
theorem C36_once_partial {p : ℕ} {c : Curve K} (hw : WFCurve p c) (hp : 1 ≤ p) (h9 : p ≤ 9)
    (hmult : InteriorMult p c.Knots.Values) (hapart : KnotsApart c.Knots.Values) :
    ∃ c', c.ElevateDegree 1 = .ok c' ∧ WFCurve (p + 1) c' ∧ MultRaised 1 c.Knots.Values c'.Knots.Values ∧
      c'.ControlPoints.length = c.ControlPoints.length + spanCount c.Knots.Values ∧ ∀ x, c'.Evaluate x = c.Evaluate x := by
  obtain ⟨c', e1, e2, e3, e4, _, e5⟩ :=
    elevateDegree_ok (t := 1) hp le_rfl (by omega) hw hmult hapart (steady_of_low h9 le_rfl _) (buf_once hw)
  exact ⟨c', e1, e2, e3, by rw [e4, one_mul], e5⟩

/-- C36, partial.  A curve with `p + 1` control points, that is, a single segment: any number of times. -/
theorem C36_segment_partial {p times : ℕ} {c : Curve K} (hw : WFCurve p c) (hp : 1 ≤ p) (ht : 1 ≤ times) (h29 : p + times ≤ 29)
    (hone : c.ControlPoints.length = p + 1) :
    ∃ c', c.ElevateDegree times = .ok c' ∧ WFCurve (p + times) c' ∧ MultRaised times c.Knots.Values c'.Knots.Values ∧
      c'.ControlPoints.length = p + times + 1 ∧ ∀ x, c'.Evaluate x = c.Evaluate x := by
  obtain ⟨h1, h2, h3⟩ := conds_of_one (t := times) hw.clamped hw.count hone
  have hs := (spanCount_one hw.clamped hw.count).mpr hone
  obtain ⟨c', e1, e2, e3, e4, _, e5⟩ := elevateDegree_ok hp ht h29 hw h1 h2 h3 (by rw [hs, hone]; omega)
  exact ⟨c', e1, e2, e3, by rw [e4, hs, hone]; omega, e5⟩

/-- A quadratic curve with a simple and a double interior knot and different weights. -/
def exElev : Curve ℚ :=
  ⟨2, ⟨[0, 0, 0, 1/3, 1/2, 1/2, 1, 1, 1]⟩, [⟨0, 0, 0, 1⟩, ⟨1, 2, 0, 2⟩, ⟨3, 1, 1, 1⟩, ⟨4, 0, 0, 1/2⟩, ⟨5, 2, 2, 1⟩, ⟨6, 0, 1, 3⟩]⟩

theorem exElev_wf : WFCurve 2 exElev :=
  ⟨rfl, ⟨by decide +kernel, by decide +kernel, by decide +kernel, by decide +kernel, by decide +kernel,
    by decide +kernel⟩, by decide +kernel, by decide +kernel⟩

theorem exElev_mult : InteriorMult 2 exElev.Knots.Values := by
  intro v h0 h1
  have : exElev.Knots.Values = [0, 0, 0, 1/3, 1/2, 1/2, 1, 1, 1] := rfl
  rw [this]
  simp only [List.count_cons, List.count_nil, beq_iff_eq]
  rw [if_neg h0.ne, if_neg h1.ne']
  split_ifs with a b
  · rw [← b] at a; exact absurd a (by norm_num)
  all_goals norm_num

theorem exElev_apart : KnotsApart exElev.Knots.Values := by
  unfold KnotsApart; decide +kernel

/-- The hypotheses of the theorems hold for a non-trivial curve. -/
example : ∃ c', exElev.ElevateDegree 1 = .ok c' ∧ WFCurve (2 + 1) c' ∧ MultRaised 1 exElev.Knots.Values c'.Knots.Values ∧
    c'.ControlPoints.length = 6 + spanCount exElev.Knots.Values ∧ ∀ x, c'.Evaluate x = exElev.Evaluate x :=
  C36_once_partial exElev_wf (by norm_num) (by norm_num) exElev_mult exElev_apart

example : ∃ c', exElev.ElevateDegree (2 : ℕ) = .ok c' ∧ WFCurve (2 + 2) c' ∧ MultRaised 2 exElev.Knots.Values c'.Knots.Values ∧
    c'.ControlPoints.length = 6 + 2 * spanCount exElev.Knots.Values ∧ ∀ x, c'.Evaluate x = exElev.Evaluate x :=
  C36_elevate_partial exElev_wf (by norm_num) (by norm_num) (by norm_num) exElev_mult exElev_apart
    (steady_of_low (by norm_num) (by norm_num) _) (by decide +kernel)

/-- What the code computes on it. -/
example : (exElev.ElevateDegree 2).bind (fun c => c.Evaluate (2/5)) = exElev.Evaluate (2/5) ∧
    (exElev.ElevateDegree 2).map (fun c => (c.Degree, c.Knots.Values)) =
      .ok (4, [0, 0, 0, 0, 0, 1/3, 1/3, 1/3, 1/2, 1/2, 1/2, 1/2, 1, 1, 1, 1, 1]) := by decide +kernel

/-- C37, partial: the exact condition.  For a well-formed curve of degree `p ≥ 1` whose different knots are at least 1e-6 apart,
`ElevateDegree(times)` leaves one of its vectors or overflows an `int` if and only if the degree sum is 30 or more, or an interior knot
has multiplicity above `p`, or the new control points do not fit in the `2 (n + times)` entries of the buffer `Qw`.
Missing from the full claim: degree 0 (`C37_degree_zero_always_throws`) and different knots closer than 1e-6. -/
theorem C37_exact_partial {p times : ℕ} {c : Curve K} (hw : WFCurve p c) (hp : 1 ≤ p) (ht : 1 ≤ times) (hapart : KnotsApart c.Knots.Values) :
    c.ElevateDegree times = .error .ub ↔ 30 ≤ p + times ∨ ¬ InteriorMult p c.Knots.Values ∨
      2 * (c.ControlPoints.length - 1 + times) < c.ControlPoints.length + times * spanCount c.Knots.Values :=
  elevateDegree_ub_iff hp ht hw hapart

/-- Elevating by one leaves no vector unless the degree is 29 or more or a knot has multiplicity above the degree. -/
theorem C37_once_exact_partial {p : ℕ} {c : Curve K} (hw : WFCurve p c) (hp : 1 ≤ p) (hapart : KnotsApart c.Knots.Values) :
    c.ElevateDegree 1 = .error .ub ↔ 29 ≤ p ∨ ¬ InteriorMult p c.Knots.Values := by
  have h := elevateDegree_ub_iff (t := 1) hp le_rfl hw hapart
  have hb := buf_once hw
  rw [show ((1 : ℕ) : Int) = 1 from rfl] at h
  rw [h]
  constructor
  · rintro (h1 | h1 | h1)
    · left; omega
    · exact Or.inr h1
    · omega
  · rintro (h1 | h1)
    · left; omega
    · exact Or.inr (Or.inl h1)

/-- Every curve of degree 0 fails: `nextbpts` is created with size -1 (or, from `times = 30` on, `Binomial` overflows first). -/
theorem C37_degree_zero_always_throws {times : ℕ} {c : Curve K} (hw : WFCurve 0 c) (ht : 1 ≤ times) :
    c.ElevateDegree times = .error (if times ≤ 29 then .throws else .ub) := elevateDegree_zero ht hw

/-- C37, partial: with steady multiplicities the outcome is decided: success or leaving the vectors, nothing else. -/
theorem C37_success_exact_partial {p times : ℕ} {c : Curve K} (hw : WFCurve p c) (hp : 1 ≤ p) (ht : 1 ≤ times)
    (hapart : KnotsApart c.Knots.Values) (hsteady : SteadyMult p times c.Knots.Values) :
    (∃ c', c.ElevateDegree times = .ok c') ↔ p + times ≤ 29 ∧ InteriorMult p c.Knots.Values ∧
      c.ControlPoints.length + times * spanCount c.Knots.Values ≤ 2 * (c.ControlPoints.length - 1 + times) := by
  constructor
  · rintro ⟨c', h⟩
    by_contra hc
    have := (C37_exact_partial hw hp ht hapart).mpr (by
      by_contra hn
      push Not at hn
      exact hc ⟨by omega, hn.2.1, hn.2.2⟩)
    rw [h] at this
    cases this
  · rintro ⟨h1, h2, h3⟩
    obtain ⟨c', h, -⟩ := C36_elevate_partial hw hp ht h1 h2 hapart hsteady h3
    exact ⟨c', h⟩

/-- The three ways to leave the vectors, and a curve for which none applies. -/
example : exLine.ElevateDegree (2 : ℕ) = .error .ub :=
  (C37_exact_partial exLine_wf (by norm_num) (by norm_num) (by unfold KnotsApart; decide +kernel)).mpr (Or.inr (Or.inr (by decide +kernel)))

example : exElev.ElevateDegree (28 : ℕ) = .error .ub :=
  (C37_exact_partial exElev_wf (by norm_num) (by norm_num) exElev_apart).mpr (Or.inl (by norm_num))

example : Curve.ElevateDegree (⟨1, ⟨[0, 0, 1/2, 1/2, 1, 1]⟩, [⟨0, 0, 0, 1⟩, ⟨1, 0, 0, 1⟩, ⟨2, 0, 0, 1⟩, ⟨3, 0, 0, 1⟩]⟩ : Curve ℚ) 1 = .error .ub :=
  (C37_once_exact_partial (p := 1) ⟨rfl, ⟨by decide +kernel, by decide +kernel, by decide +kernel, by decide +kernel, by decide +kernel,
    by decide +kernel⟩, by decide +kernel, by decide +kernel⟩ (by norm_num) (by unfold KnotsApart; decide +kernel)).mpr
    (Or.inr fun h => absurd (h (1/2) (by norm_num) (by norm_num)) (by decide +kernel))

example : exTen.ElevateDegree 1 ≠ .error .ub := fun h => by
  rcases (C37_once_exact_partial exTen_wf (by norm_num) (by unfold KnotsApart; decide +kernel)).mp h with h | h
  · norm_num at h
  · apply h
    intro v h0 h1
    have : exTen.Knots.Values = List.replicate 11 0 ++ [1/3, 2/3, 2/3, 2/3] ++ List.replicate 11 1 := rfl
    rw [this, List.count_append, List.count_append, List.count_replicate, List.count_replicate, if_neg (by simpa using h0.ne),
      if_neg (by simpa using h1.ne')]
    have := List.count_le_length (a := v) (l := [(1/3 : ℚ), 2/3, 2/3, 2/3])
    simp only [List.length_cons, List.length_nil] at this
    omega

/-- C49, partial.  Without interior knots in the u direction (`p + 1` control points) `ElevateDegreeU(times)` succeeds and returns a
well-formed surface of the raised degree with the same values. -/
theorem C49_elevateU_partial {p q n times : ℕ} {s : Surface K} (hw : WFSurface p q (p + 1) n s) (hp : 1 ≤ p) (ht : 1 ≤ times)
    (h29 : p + times ≤ 29) :
    ∃ s', s.ElevateDegreeU times = .ok s' ∧ WFSurface (p + times) q (p + times + 1) n s' ∧
      MultRaised times s.KnotsU.Values s'.KnotsU.Values ∧ s'.KnotsV = s.KnotsV ∧ ∀ u v, s'.Evaluate u v = s.Evaluate u v := by
  obtain ⟨h1, h2, h3⟩ := conds_of_one (t := times) hw.clampedU hw.knotsU rfl
  obtain ⟨s', e1, e2, e3, e4, _, e5⟩ := elevateU_ok hw hp ht h29 ((spanCount_one hw.clampedU hw.knotsU).mpr rfl) h1 h2 h3
  exact ⟨s', e1, by rwa [show p + times + 1 = p + 1 + times by omega], e3, e4, e5⟩

/-- C49, partial: the v direction. -/
theorem C49_elevateV_partial {p q m times : ℕ} {s : Surface K} (hw : WFSurface p q m (q + 1) s) (hq : 1 ≤ q) (ht : 1 ≤ times)
    (h29 : q + times ≤ 29) :
    ∃ s', s.ElevateDegreeV times = .ok s' ∧ WFSurface p (q + times) m (q + times + 1) s' ∧
      MultRaised times s.KnotsV.Values s'.KnotsV.Values ∧ s'.KnotsU = s.KnotsU ∧ ∀ u v, s'.Evaluate u v = s.Evaluate u v := by
  obtain ⟨h1, h2, h3⟩ := conds_of_one (t := times) hw.clampedV hw.knotsV rfl
  obtain ⟨s', e1, e2, e3, e4, _, e5⟩ := elevateV_ok hw hq ht h29 ((spanCount_one hw.clampedV hw.knotsV).mpr rfl) h1 h2 h3
  exact ⟨s', e1, by rwa [show q + times + 1 = q + 1 + times by omega], e3, e4, e5⟩

/-- With more than `p + 1` control points, that is, with interior knots, elevating by one never succeeds: every such surface (of degree
at most 9, continuous, with separated knots) fails an assertion. -/
theorem C49_interior_knots_always_fail {p q m n : ℕ} {s : Surface K} (hw : WFSurface p q m n s) :
    (1 ≤ p → p ≤ 9 → m ≠ p + 1 → InteriorMult p s.KnotsU.Values → KnotsApart s.KnotsU.Values → s.ElevateDegreeU 1 = .error .assert) ∧
    (1 ≤ q → q ≤ 9 → n ≠ q + 1 → InteriorMult q s.KnotsV.Values → KnotsApart s.KnotsV.Values → s.ElevateDegreeV 1 = .error .assert) := by
  obtain ⟨hm0, hn0⟩ := wf_rows_pos hw
  constructor
  · intro hp h9 hm hmult hap
    have hb := buf_once (rowCurve_wf hw hn0)
    rw [rowCurve_length] at hb
    exact elevateU_fails (t := 1) hw hp le_rfl (by omega) (fun h => hm ((spanCount_one hw.clampedU hw.knotsU).mp h)) hmult hap
      (steady_of_low h9 le_rfl _) hb
  · intro hq h9 hn hmult hap
    have hb := buf_once (colCurve_wf hw hm0)
    rw [colCurve_length] at hb
    exact elevateV_fails (t := 1) hw hq le_rfl (by omega) (fun h => hn ((spanCount_one hw.clampedV hw.knotsV).mp h)) hmult hap
      (steady_of_low h9 le_rfl _) hb

/-- C49, partial: the exact condition.  For a well-formed surface with degrees at least 1 and separated knots, `ElevateDegreeU(times)`
succeeds if and only if there are no interior knots in that direction and the new degree is at most 29; likewise for v.
Missing from the full claim: everything else, on which the code fails. -/
theorem C49_exact_partial {p q m n times : ℕ} {s : Surface K} (hw : WFSurface p q m n s) (ht : 1 ≤ times) :
    (1 ≤ p → KnotsApart s.KnotsU.Values → ((∃ s', s.ElevateDegreeU times = .ok s') ↔ m = p + 1 ∧ p + times ≤ 29)) ∧
    (1 ≤ q → KnotsApart s.KnotsV.Values → ((∃ s', s.ElevateDegreeV times = .ok s') ↔ n = q + 1 ∧ q + times ≤ 29)) := by
  constructor
  · intro hp hs
    constructor
    · rintro ⟨s', h⟩
      exact elevateU_needs hw hp ht hs h
    · rintro ⟨rfl, h29⟩
      obtain ⟨s', h, -⟩ := C49_elevateU_partial hw hp ht h29
      exact ⟨s', h⟩
  · intro hq hs
    constructor
    · rintro ⟨s', h⟩
      exact elevateV_needs hw hq ht hs h
    · rintro ⟨rfl, h29⟩
      obtain ⟨s', h, -⟩ := C49_elevateV_partial hw hq ht h29
      exact ⟨s', h⟩

/-- A surface with an interior knot in the v direction only. -/
def exElevSurf : Surface ℚ :=
  ⟨2, 1, ⟨[0, 0, 0, 1, 1, 1]⟩, ⟨[0, 0, 1/2, 1, 1]⟩,
    ⟨3, 3, [⟨0, 0, 0, 1⟩, ⟨1, 0, 2, 1/2⟩, ⟨2, 0, 1, 3⟩, ⟨0, 1, 1, 2⟩, ⟨1, 1, 0, 1⟩, ⟨2, 2, 0, 1⟩, ⟨0, 2, 0, 1⟩, ⟨1, 3, 1, 1⟩, ⟨2, 2, 0, 4⟩]⟩⟩

theorem exElevSurf_wf : WFSurface 2 1 3 3 exElevSurf :=
  ⟨rfl, rfl, ⟨by decide +kernel, by decide +kernel, by decide +kernel, by decide +kernel, by decide +kernel,
    by decide +kernel⟩, ⟨by decide +kernel, by decide +kernel, by decide +kernel, by decide +kernel, by decide +kernel,
    by decide +kernel⟩, rfl, rfl, rfl, rfl, rfl, by decide +kernel⟩

example : ∃ s', exElevSurf.ElevateDegreeU (3 : ℕ) = .ok s' ∧ WFSurface (2 + 3) 1 (2 + 3 + 1) 3 s' ∧
    MultRaised 3 exElevSurf.KnotsU.Values s'.KnotsU.Values ∧ s'.KnotsV = exElevSurf.KnotsV ∧
    ∀ u v, s'.Evaluate u v = exElevSurf.Evaluate u v :=
  C49_elevateU_partial (p := 2) exElevSurf_wf (by norm_num) (by norm_num) (by norm_num)

example : ¬ ∃ s', exElevSurf.ElevateDegreeV (5 : ℕ) = .ok s' := fun h =>
  absurd (((C49_exact_partial exElevSurf_wf (by norm_num)).2 (by norm_num) (by unfold KnotsApart; decide +kernel)).mp h).1 (by norm_num)

example : exElevSurf.ElevateDegreeV 1 = .error .assert :=
  (C49_interior_knots_always_fail exElevSurf_wf).2 (by norm_num) (by norm_num) (by norm_num) (by
    intro v h0 h1
    have : exElevSurf.KnotsV.Values = [0, 0, 1/2, 1, 1] := rfl
    rw [this]
    simp only [List.count_cons, List.count_nil, beq_iff_eq]
    rw [if_neg h0.ne, if_neg h1.ne']
    split_ifs <;> norm_num) (by unfold KnotsApart; decide +kernel)

end

end Nurbs.Props
