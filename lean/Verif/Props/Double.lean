import Verif.Proof.DoubleCurve
import Verif.Props.Rounded

/-! # C103: evaluation in `double` with its finite range

`Double` rounds like IEEE 754 binary64: to nearest even, gradual underflow below `2 ^ -1022`, and a result beyond the largest finite
number is not finite any more. -/

set_option exponentiation.threshold 2000

namespace Nurbs.Props
open Nurbs Nurbs.Spec

/-- C103, the basis functions.  Not proved: knot intervals shorter than `2 ^ -1000` (see `C103_basis_refuted`), degrees above 29. -/
theorem C103_basis_partial {p : ℕ} (hp : p ≤ 29) {l : List Double} (hfin : ∀ d ∈ l, IsFin d) (hc : Clamped p (l.map Double.val))
    (hgap : GapsAtLeast (1 / 2 ^ 1000) (l.map Double.val))
    {x : Double} (hx : IsFin x) (h0 : 0 ≤ x.val) (h1 : x.val ≤ 1) :
    ∃ (k : ℕ) (b : List Double), IsSpan (l.map Double.val) x.val k ∧ p ≤ k ∧ BSplineBasis.Evaluate p ⟨l⟩ x = .ok b ∧ b.length = p + 1 ∧
      ∀ n ≤ p, ∃ v : ℚ, kn b n = Double.fin v ∧ 0 ≤ v ∧
        |v - N (kn (l.map Double.val)) x.val p (k - p + n)| ≤
          errFactor binary53 (6 * p) * N (kn (l.map Double.val)) x.val p (k - p + n) + 1 / 2 ^ 959 := by
  obtain ⟨ex, gx, _⟩ := isFin_eq hx
  generalize x.val = X at *
  subst ex
  obtain ⟨k, hk, hs, hpk, hlk⟩ := findSpanIndex_spec (kv := ⟨l⟩) (clamped_double hfin hc) (u := Double.fin X)
    (Double.fin_le.mpr h0) (Double.fin_le.mpr h1)
  change k + p + 2 ≤ l.length at hlk
  have hlen : (l.map Double.val).length = l.length := List.length_map _
  have hsx : IsSpan (l.map Double.val) X k := (isSpan_double hfin).mpr hs
  have H : TriData l k p (kn (l.map Double.val)) X := triData hfin hc hp gx hsx hpk hlk (fun i h h' => hgap i h (by omega))
  obtain ⟨V, hV⟩ := tri_levels H p le_rfl
  refine ⟨k, tab (p + 1) (lvG l k (Double.fin X) p), hsx, hpk, ?_, tab_length _ _, fun n hn => ⟨V n, ?_, (hV n).2.left, ?_⟩⟩
  · unfold BSplineBasis.Evaluate
    rw [hk, bind_ok]
    exact evaluateAt_any hpk (show k + p < l.length by omega) (tri_denOK H)
  · rw [kn_eq_getElem _ _ (by simp; omega)]
    simp only [tab, List.getElem_map, List.getElem_range]
    exact (hV n).1
  · have hN : N (kn (l.map Double.val)) X p (k - p + n) = lev (kn (l.map Double.val)) k X p n := by
      unfold lev
      rw [if_pos hn]
      exact N_eq_Nl _ _ k ((l.map Double.val).length - 1) (N_zero_span hc.sorted (fun i hi => hc.le_one hi) hsx) p _ (by omega)
    rw [hN]
    have h := (hV n).2.dist
    have h' := absErr_le hp
    exact h.trans (add_le_add_right h' _)

/-- C103.  `Curve::Evaluate` on a well-formed curve of finite numbers, at a parameter in `[0, 1]`, returns finite numbers, and each
coordinate is within `(1-u)^(-14p-8) - 1` (about `(14 p + 8) · 1.1e-16`) times the largest coordinate, plus `2 ^ -729`, of the true point.
Not proved: knot intervals shorter than `2 ^ -1000` and coordinates or weights near the limits of `double` (see `C103_refuted` and
`C103_overflow`), degrees above 29. -/
theorem C103_evaluate_partial {p : ℕ} {c : Curve Double} (hp : p ≤ 29) (hfin : FinCurve c) (hw : WFCurve p (exactCurve64 c))
    (hgap : GapsAtLeast (1 / 2 ^ 1000) (exactCurve64 c).Knots.Values)
    (hwt : ∀ P ∈ (exactCurve64 c).ControlPoints, 1 / 2 ^ 100 ≤ P.w ∧ P.w ≤ 2 ^ 100)
    {B : ℚ} (hB : B ≤ 2 ^ 400) (hc : ∀ P ∈ (exactCurve64 c).ControlPoints, |P.x| ≤ B ∧ |P.y| ≤ B ∧ |P.z| ≤ B)
    {x : Double} (hx : IsFin x) (h0 : 0 ≤ x.val) (h1 : x.val ≤ 1) :
    ∃ e, c.Evaluate x = .ok e ∧ IsFin e.x ∧ IsFin e.y ∧ IsFin e.z ∧
      |e.x.val - (nurbsPoint p (exactCurve64 c) x.val).x| ≤ errFactor binary53 (14 * p + 8) * B + 1 / 2 ^ 729 ∧
      |e.y.val - (nurbsPoint p (exactCurve64 c) x.val).y| ≤ errFactor binary53 (14 * p + 8) * B + 1 / 2 ^ 729 ∧
      |e.z.val - (nurbsPoint p (exactCurve64 c) x.val).z| ≤ errFactor binary53 (14 * p + 8) * B + 1 / 2 ^ 729 := by
  obtain ⟨e, k, he, fx, fy, fz, hk, hpk, hl, rx, ry, rz⟩ := evaluate_double hp hfin hw hgap hwt hB hc hx h0 h1
  have hps := proj_seg_eq hw hk hpk hl
  refine ⟨e, he, fx, fy, fz, ?_, ?_, ?_⟩ <;> rw [← hps]
  · exact rx
  · exact ry
  · exact rz

/-- C103 for surfaces: the same with `14 (p + q) + 13` roundings. -/
theorem C103_surface_partial {p q m n : ℕ} {s : Surface Double} (hp : p ≤ 29) (hq : q ≤ 29) (hfin : FinSurface s)
    (hw : WFSurface p q m n (exactSurface64 s)) (hgu : GapsAtLeast (1 / 2 ^ 1000) (exactSurface64 s).KnotsU.Values)
    (hgv : GapsAtLeast (1 / 2 ^ 1000) (exactSurface64 s).KnotsV.Values)
    (hwt : ∀ P ∈ (exactSurface64 s).ControlPoints.Values, 1 / 2 ^ 100 ≤ P.w ∧ P.w ≤ 2 ^ 100)
    {B : ℚ} (hB : B ≤ 2 ^ 400) (hc : ∀ P ∈ (exactSurface64 s).ControlPoints.Values, |P.x| ≤ B ∧ |P.y| ≤ B ∧ |P.z| ≤ B)
    {u v : Double} (hu : IsFin u) (hv : IsFin v) (hu0 : 0 ≤ u.val) (hu1 : u.val ≤ 1) (hv0 : 0 ≤ v.val) (hv1 : v.val ≤ 1) :
    ∃ e, s.Evaluate u v = .ok e ∧ IsFin e.x ∧ IsFin e.y ∧ IsFin e.z ∧
      |e.x.val - (surfPoint p q m n (exactSurface64 s) u.val v.val).x| ≤ errFactor binary53 (14 * (p + q) + 13) * B + 1 / 2 ^ 729 ∧
      |e.y.val - (surfPoint p q m n (exactSurface64 s) u.val v.val).y| ≤ errFactor binary53 (14 * (p + q) + 13) * B + 1 / 2 ^ 729 ∧
      |e.z.val - (surfPoint p q m n (exactSurface64 s) u.val v.val).z| ≤ errFactor binary53 (14 * (p + q) + 13) * B + 1 / 2 ^ 729 := by
  obtain ⟨e, ku, kv, he, fx, fy, fz, hku, hkv, hpu, hm, hpv, hn, rx, ry, rz⟩ :=
    surface_double hp hq hfin hw hgu hgv hwt hB hc hu hv hu0 hu1 hv0 hv1
  have hps := proj_sseg_eq hw hku hkv hpu hm hpv hn
  refine ⟨e, he, fx, fy, fz, ?_, ?_, ?_⟩ <;> rw [← hps]
  · exact rx
  · exact ry
  · exact rz

/-- The smallest positive `double`. -/
abbrev tiny64 : Double := Double.fin (1 / 2 ^ 1074)

/-- Knots of finite numbers whose basis functions are not finite. -/
theorem C103_basis_refuted : BSplineBasis.Evaluate 1 ⟨[0, 0, tiny64, 1, 1]⟩ (0 : Double) = .ok [Double.bad, Double.bad] := by
  decide +kernel

/-- Two different knots as close as they can be. -/
def exTiny : Curve Double := ⟨1, ⟨[0, 0, tiny64, 1, 1]⟩, [⟨0, 0, 0, 1⟩, ⟨1, 0, 0, 1⟩, ⟨1, 1, 0, 1⟩]⟩

theorem isFin_of {a : ℚ} (h : round64 a = a) (h' : |a| ≤ maxDouble) : IsFin (Double.fin a) := ⟨a, rfl, h, h'⟩

theorem isFin_0 : IsFin 0 := isFin_of (by decide +kernel) (by decide +kernel)
theorem isFin_1 : IsFin 1 := isFin_of (by decide +kernel) (by decide +kernel)

/-- C103 without the bound on the knot intervals is false: a well-formed curve of finite numbers and a parameter for which
`Curve::Evaluate` returns infinities or NaN. -/
theorem C103_refuted : FinCurve exTiny ∧ WFCurve 1 (exactCurve64 exTiny) ∧ ∃ e, exTiny.Evaluate 0 = .ok e ∧ ¬ IsFin e.x := by
  refine ⟨⟨?_, ?_⟩, ⟨rfl, ⟨by decide +kernel, by decide +kernel, by decide +kernel, by decide +kernel, by decide +kernel,
    by decide +kernel⟩, by decide +kernel, by decide +kernel⟩, ⟨Double.bad, Double.bad, Double.bad⟩, by decide +kernel, ?_⟩
  · intro d hd
    simp only [exTiny, List.mem_cons, List.not_mem_nil, or_false] at hd
    rcases hd with rfl | rfl | rfl | rfl | rfl
    · exact isFin_0
    · exact isFin_0
    · exact isFin_of (by decide +kernel) (by decide +kernel)
    · exact isFin_1
    · exact isFin_1
  · intro P hP
    simp only [exTiny, List.mem_cons, List.not_mem_nil, or_false] at hP
    rcases hP with rfl | rfl | rfl <;> refine ⟨?_, ?_, ?_, ?_⟩ <;> first | exact isFin_0 | exact isFin_1
  · rintro ⟨a, h, _⟩
    exact absurd h (by intro h; cases h)

/-- Points far out with large weights: their homogeneous coordinates overflow, although every point of the curve is a finite number. -/
theorem C103_overflow : (⟨1, ⟨[0, 0, 1, 1]⟩, [⟨Double.fin (2 ^ 1000), 0, 0, Double.fin (2 ^ 30)⟩,
    ⟨Double.fin (2 ^ 1000), 0, 0, Double.fin (2 ^ 30)⟩]⟩ : Curve Double).Evaluate 0 = .ok ⟨Double.bad, 0, 0⟩ := by
  decide +kernel

/-- A curve of degree 2 in `double`: the knot is `1/3` rounded, one weight is `1/10` rounded. -/
def exDouble : Curve Double :=
  ⟨2, ⟨[0, 0, 0, Double.ofExact (1/3), 1, 1, 1]⟩,
    [⟨0, 0, 0, 1⟩, ⟨1, 1, 0, Double.ofExact (1/10)⟩, ⟨1, 0, 1, 1⟩, ⟨0, 1, 1, 1⟩]⟩

theorem isFin_third : IsFin (Double.ofExact (1/3)) := Double.ofExact_fin (a := 1/3) (by rw [abs_of_pos (by norm_num)]; norm_num) ▸
  Double.isFin_round (by rw [abs_of_pos (by norm_num)]; norm_num)
theorem isFin_tenth : IsFin (Double.ofExact (1/10)) := Double.ofExact_fin (a := 1/10) (by rw [abs_of_pos (by norm_num)]; norm_num) ▸
  Double.isFin_round (by rw [abs_of_pos (by norm_num)]; norm_num)

theorem gapsAtLeast_of {g : ℚ} {l : List ℚ} {n : ℕ} (hl : l.length = n + 1) (h : ∀ i < n, kn l i < kn l (i + 1) → g ≤ kn l (i + 1) - kn l i) :
    GapsAtLeast g l := fun i h1 h2 => h i (by omega) h1

/-- The hypotheses of `C103_evaluate_partial` hold for it with `B = 1`, at `x = 1/10` rounded. -/
example : ∃ e, exDouble.Evaluate (Double.ofExact (1/10)) = .ok e ∧ IsFin e.x ∧ IsFin e.y ∧ IsFin e.z := by
  have hf : FinCurve exDouble := by
    refine ⟨?_, ?_⟩
    · intro d hd
      simp only [exDouble, List.mem_cons, List.not_mem_nil, or_false] at hd
      rcases hd with rfl | rfl | rfl | rfl | rfl | rfl | rfl <;> first | exact isFin_0 | exact isFin_1 | exact isFin_third
    · intro P hP
      simp only [exDouble, List.mem_cons, List.not_mem_nil, or_false] at hP
      rcases hP with rfl | rfl | rfl | rfl <;> refine ⟨?_, ?_, ?_, ?_⟩ <;> first | exact isFin_0 | exact isFin_1 | exact isFin_tenth
  have hw : WFCurve 2 (exactCurve64 exDouble) :=
    ⟨rfl, ⟨by decide +kernel, by decide +kernel, by decide +kernel, by decide +kernel, by decide +kernel,
      by decide +kernel⟩, by decide +kernel, by decide +kernel⟩
  have hg : GapsAtLeast (1 / 2 ^ 1000) (exactCurve64 exDouble).Knots.Values :=
    gapsAtLeast_of (n := 6) (by decide +kernel) (by decide +kernel)
  obtain ⟨e, he, hx, hy, hz, _⟩ := C103_evaluate_partial (p := 2) (c := exDouble) (by norm_num) hf hw hg (by decide +kernel) (B := 1)
    (by norm_num) (by decide +kernel) isFin_tenth (by decide +kernel) (by decide +kernel)
  exact ⟨e, he, hx, hy, hz⟩

/-- A biquadratic-by-linear patch in `double`. -/
def exPatch64 : Surface Double :=
  ⟨1, 2, ⟨[0, 0, Double.ofExact (1/3), 1, 1]⟩, ⟨[0, 0, 0, 1, 1, 1]⟩,
    ⟨3, 3, [⟨0, 0, 0, 1⟩, ⟨1, 1, 0, Double.ofExact (1/10)⟩, ⟨1, 0, 1, 1⟩, ⟨0, 1, 1, 1⟩, ⟨1, 1, 1, 1⟩, ⟨0, 0, 1, 1⟩, ⟨1, 0, 0, 1⟩,
      ⟨0, 1, 0, Double.ofExact (1/3)⟩, ⟨Double.ofExact (1/10), 0, 0, 1⟩]⟩⟩

/-- The hypotheses of `C103_surface_partial` hold for it with `B = 1`. -/
example : ∃ e, exPatch64.Evaluate (Double.ofExact (1/10)) (Double.ofExact (1/3)) = .ok e ∧ IsFin e.x ∧ IsFin e.y ∧ IsFin e.z := by
  have hf : FinSurface exPatch64 := by
    refine ⟨?_, ?_, ?_⟩
    · intro d hd
      simp only [exPatch64, List.mem_cons, List.not_mem_nil, or_false] at hd
      rcases hd with rfl | rfl | rfl | rfl | rfl <;> first | exact isFin_0 | exact isFin_1 | exact isFin_third
    · intro d hd
      simp only [exPatch64, List.mem_cons, List.not_mem_nil, or_false] at hd
      rcases hd with rfl | rfl | rfl | rfl | rfl | rfl <;> first | exact isFin_0 | exact isFin_1
    · intro P hP
      simp only [exPatch64, List.mem_cons, List.not_mem_nil, or_false] at hP
      rcases hP with rfl | rfl | rfl | rfl | rfl | rfl | rfl | rfl | rfl <;> refine ⟨?_, ?_, ?_, ?_⟩ <;>
        first | exact isFin_0 | exact isFin_1 | exact isFin_tenth | exact isFin_third
  have hw : WFSurface 1 2 3 3 (exactSurface64 exPatch64) :=
    ⟨by decide +kernel, by decide +kernel,
      ⟨by decide +kernel, by decide +kernel, by decide +kernel, by decide +kernel, by decide +kernel, by decide +kernel⟩,
      ⟨by decide +kernel, by decide +kernel, by decide +kernel, by decide +kernel, by decide +kernel, by decide +kernel⟩,
      by decide +kernel, by decide +kernel, by decide +kernel, by decide +kernel, by decide +kernel, by decide +kernel⟩
  obtain ⟨e, he, hx, hy, hz, _⟩ := C103_surface_partial (p := 1) (q := 2) (by norm_num) (by norm_num) hf hw
    (gapsAtLeast_of (n := 4) (by decide +kernel) (by decide +kernel)) (gapsAtLeast_of (n := 5) (by decide +kernel) (by decide +kernel))
    (by decide +kernel) (B := 1) (by norm_num) (by decide +kernel) isFin_tenth isFin_third (by decide +kernel) (by decide +kernel)
    (by decide +kernel) (by decide +kernel)
  exact ⟨e, he, hx, hy, hz⟩

end Nurbs.Props
