import Verif.Proof.RoundedKnots
import Mathlib.Algebra.Order.Ring.Rat

/-! # C68 – C73: the same code with numbers that round

`R` is any rounding with unit roundoff `R.u` (no overflow, no underflow); `binary53` is `double`.  The theorems of
C01, C03 – C08 and C10 only need comparisons and hold for `Fl R` as they stand. -/

set_option linter.unusedSectionVars false

namespace Nurbs.Props
open Nurbs Nurbs.Spec

variable {K : Type} [Field K] [LinearOrder K] [IsStrictOrderedRing K] {R : Rounding K}

/-- A number rounded to `double`. -/
abbrev dbl (x : ℚ) : Fl binary53 := Fl.round binary53 x

/-- The error factor is at most the usual `m u / (1 - m u)`. -/
theorem C68_errFactor_le (R : Rounding K) (m : ℕ) (h : m * R.u < 1) : errFactor R m ≤ m * R.u / (1 - m * R.u) :=
  errFactor_le R m h

/-- C68.  With rounding, `BSplineBasis::Evaluate` never divides by zero, uses the right span, and each of its `p + 1`
values is non-negative, zero exactly if the true basis function is zero, and has relative error at most
`(1-u)^(-6p) - 1`; their sum is that close to one. -/
theorem C68_basis_rounding {p : ℕ} {l : List (Fl R)} (hc : Clamped p l) {x : Fl R} (h0 : 0 ≤ x) (h1 : x ≤ 1) :
    ∃ (k : ℕ) (b : List (Fl R)), IsSpan l x k ∧ p ≤ k ∧ k + p + 2 ≤ l.length ∧
      BSplineBasis.Evaluate p ⟨l⟩ x = .ok b ∧ b.length = p + 1 ∧
      (∀ n ≤ p, 0 ≤ kn (exactList b) n ∧
        (kn (exactList b) n = 0 ↔ N (kn (exactList l)) x.val p (k - p + n) = 0) ∧
        |kn (exactList b) n - N (kn (exactList l)) x.val p (k - p + n)| ≤
          errFactor R (6 * p) * N (kn (exactList l)) x.val p (k - p + n)) ∧
      |(exactList b).sum - 1| ≤ errFactor R (6 * p) := by
  obtain ⟨k, hk, hs, hpk, hlk⟩ := findSpanIndex_spec (kv := ⟨l⟩) hc h0 h1
  change k + p + 2 ≤ l.length at hlk
  have hcx := clamped_exact.mpr hc
  have hsx := isSpan_exact.mpr hs
  have hlt := IsSpan.lt hsx
  have hle := IsSpan.le_right hsx
  rw [kn_exactList] at hlt hle
  rw [kn_exactList] at hlt
  obtain ⟨f, hf, hfn⟩ := evaluateAt_near hpk (by omega) hc.sorted hlt hs.2.1 hle
  have hl' := exactList_length l
  have hN : ∀ n ≤ p, N (kn (exactList l)) x.val p (k - p + n) = Nl (exKn l) k x.val p (k - p + n) := fun n hn => by
    rw [exKn_eq]
    exact N_eq_Nl _ _ k ((exactList l).length - 1) (N_zero_span hcx.sorted (fun i hi => hcx.le_one hi) hsx) p _ (by omega)
  have hb : ∀ n ≤ p, kn (exactList (tab (p + 1) f)) n = (f n).val := fun n hn => by
    rw [kn_exactList, kn_eq_getElem _ _ (by simp; omega)]
    simp [tab]
  have hreg : RegSpan (kn (exactList l)) k p := regSpan_of_sorted hcx.sorted (IsSpan.lt hsx) (by omega)
  refine ⟨k, tab (p + 1) f, hs, hpk, hlk, ?_, by simp, fun n hn => ?_, ?_⟩
  · unfold BSplineBasis.Evaluate
    rw [hk, bind_ok]
    exact hf
  · rw [hb n hn, hN n hn]
    have h := hfn n hn
    refine ⟨h.1, ⟨fun e => ?_, fun e => ?_⟩, h.abs_sub_le R.q_pos⟩
    · rw [e] at h
      exact le_antisymm (le_of_mul_le_mul_left (by rw [mul_zero]; exact h.2.2.1) (pow_pos R.q_pos _)) h.2.1
    · rw [e] at h
      exact le_antisymm (le_of_mul_le_mul_left (by rw [mul_zero]; exact h.2.2.2) (pow_pos R.q_pos _)) h.1
  · have hsum : (exactList (tab (p + 1) f)).sum = ∑ n ∈ Finset.range (p + 1), (f n).val := by
      rw [exactList, tab, List.map_map, ← List.toFinset_range, List.sum_toFinset _ List.nodup_range]
      rfl
    have hone := seg_one (kn (exactList l)) k x.val p hpk hreg
    rw [hsum, ← hone, ← Finset.sum_sub_distrib]
    calc |∑ n ∈ Finset.range (p + 1), ((f n).val - Nl (kn (exactList l)) k x.val p (k - p + n))|
        ≤ ∑ n ∈ Finset.range (p + 1), |(f n).val - Nl (kn (exactList l)) k x.val p (k - p + n)| :=
          Finset.abs_sum_le_sum_abs _ _
      _ ≤ ∑ n ∈ Finset.range (p + 1), errFactor R (6 * p) * Nl (kn (exactList l)) k x.val p (k - p + n) := by
          apply Finset.sum_le_sum
          intro n hn
          have := (hfn n (by have := Finset.mem_range.mp hn; omega)).abs_sub_le R.q_pos
          rw [exKn_eq] at this
          exact this
      _ = errFactor R (6 * p) := by rw [← Finset.mul_sum, hone, mul_one]

/-- The values are not exact: in `double` arithmetic the two linear basis functions at `1/100` on the knots
`0, 0, 1/200, 1, 1` do not sum to one. -/
example : ∃ a b : Fl binary53, BSplineBasis.Evaluate 1 (⟨[0, 0, dbl (1/200), 1, 1]⟩ : KnotVector (Fl binary53)) (dbl (1/100)) = .ok [a, b] ∧
    a.val + b.val ≠ 1 := 
  ⟨dbl (4480968473464111 / 2 ^ 52), dbl (5793575400034407 / 2 ^ 60), by decide +kernel, by decide +kernel⟩
/-- … although the knots satisfy the hypothesis. -/
example : Clamped 1 [0, 0, dbl (1/200), 1, 1] :=
  ⟨by decide +kernel, by decide +kernel, by decide +kernel, by decide +kernel, by decide +kernel, by decide +kernel⟩

/-- C69.  With rounding, `Curve::Evaluate` succeeds on every well-formed curve and every `x ∈ [0,1]` (no division by
zero, no index out of range); each coordinate differs from the true NURBS point by at most `(1-u)^(-14p-6) - 1` times
the weighted mean of the absolute coordinates of the control points. -/
theorem C69_curve_rounding {p : ℕ} {c : Curve (Fl R)} (hw : WFCurve p (exactCurve c)) {x : Fl R} (h0 : 0 ≤ x) (h1 : x ≤ 1) :
    ∃ e, c.Evaluate x = .ok e ∧
      |e.x.val - (nurbsPoint p (exactCurve c) x.val).x| ≤ errFactor R (14 * p + 6) *
        (wsum p (exactCurve c) x.val (fun v => |v.x|) / wsum p (exactCurve c) x.val (fun _ => 1)) ∧
      |e.y.val - (nurbsPoint p (exactCurve c) x.val).y| ≤ errFactor R (14 * p + 6) *
        (wsum p (exactCurve c) x.val (fun v => |v.y|) / wsum p (exactCurve c) x.val (fun _ => 1)) ∧
      |e.z.val - (nurbsPoint p (exactCurve c) x.val).z| ≤ errFactor R (14 * p + 6) *
        (wsum p (exactCurve c) x.val (fun v => |v.z|) / wsum p (exactCurve c) x.val (fun _ => 1)) := by
  obtain ⟨e, k, he, hk, hpk, hl, hpos, hx, hy, hz⟩ := evaluate_close hw h0 h1
  have ew : (seg (kn (exactList c.Knots.Values)) k x.val p (hpts (exactCurve c).ControlPoints)).w =
      wsum p (exactCurve c) x.val (fun _ => 1) :=
    seg_wsum hw hk hpk hl Vec4.lw id (fun _ => 1) (fun v => by simp [Vec4.lw])
  have hp := proj_seg_eq hw hk hpk hl
  have ex : (seg (kn (exactList c.Knots.Values)) k x.val p (fun i => ToHomo (absV (pt (exactCurve c).ControlPoints i)))).x =
      wsum p (exactCurve c) x.val (fun v => |v.x|) :=
    seg_wsum hw hk hpk hl Vec4.lx absV _ (fun v => by simp [Vec4.lx, absV, ToHomo, mul_comm])
  have ey : (seg (kn (exactList c.Knots.Values)) k x.val p (fun i => ToHomo (absV (pt (exactCurve c).ControlPoints i)))).y =
      wsum p (exactCurve c) x.val (fun v => |v.y|) :=
    seg_wsum hw hk hpk hl Vec4.ly absV _ (fun v => by simp [Vec4.ly, absV, ToHomo, mul_comm])
  have ez : (seg (kn (exactList c.Knots.Values)) k x.val p (fun i => ToHomo (absV (pt (exactCurve c).ControlPoints i)))).z =
      wsum p (exactCurve c) x.val (fun v => |v.z|) :=
    seg_wsum hw hk hpk hl Vec4.lz absV _ (fun v => by simp [Vec4.lz, absV, ToHomo, mul_comm])
  refine ⟨e, he, ?_, ?_, ?_⟩
  · rw [← hp, ← ew, ← ex]; exact hx.2
  · rw [← hp, ← ew, ← ey]; exact hy.2
  · rw [← hp, ← ew, ← ez]; exact hz.2

/-- C69 for `double`, degree 3: no coordinate is off by more than `5.4e-15` times the largest coordinate. -/
theorem C69_cubic_double {c : Curve (Fl binary53)} (hw : WFCurve 3 (exactCurve c)) {x : Fl binary53} (h0 : 0 ≤ x) (h1 : x ≤ 1)
    {B : ℚ} (hB : ∀ i < c.ControlPoints.length, |(pt (exactCurve c).ControlPoints i).x| ≤ B) :
    ∃ e, c.Evaluate x = .ok e ∧ |e.x.val - (nurbsPoint 3 (exactCurve c) x.val).x| ≤ 54 / 10 ^ 16 * B := by
  obtain ⟨e, he, hx, -, -⟩ := C69_curve_rounding hw h0 h1
  refine ⟨e, he, le_trans hx ?_⟩
  have hm := wsum_div_le hw (x := x.val) (by have := h0; rwa [Fl.le_def, Fl.val_zero] at this)
    (by have := h1; rwa [Fl.le_def, Fl.val_one] at this) (fun v => |v.x|) B
    (fun i hi => hB i (by simpa [exactCurve] using hi))
  have hB0 : 0 ≤ B := by
    have hc := hw.count
    have hl := hw.clamped.len
    have : (exactCurve c).ControlPoints.length = c.ControlPoints.length := by simp [exactCurve]
    exact le_trans (abs_nonneg _) (hB 0 (by omega))
  have hf : errFactor binary53 (14 * 3 + 6) ≤ 54 / 10 ^ 16 := by
    refine le_trans (errFactor_le binary53 _ ?_) ?_ <;> · simp only [binary53]; norm_num
  exact le_trans (mul_le_mul_of_nonneg_left hm (errFactor_nonneg _ _)) (mul_le_mul_of_nonneg_right hf hB0)

/-- A rational quadratic with rounded data, and its computed value: close to, but not equal to the true point. -/
def wavy : Curve (Fl binary53) :=
  ⟨2, ⟨[0, 0, 0, dbl (1/3), 1, 1, 1]⟩, [⟨1, 0, 0, dbl (1/10)⟩, ⟨2, 1, 0, dbl (7/10)⟩, ⟨dbl (33/10), dbl (-1/10), 1, 1⟩, ⟨4, 0, 2, dbl (3/10)⟩]⟩
example : WFCurve 2 (exactCurve wavy) :=
  ⟨by decide +kernel, ⟨by decide +kernel, by decide +kernel, by decide +kernel, by decide +kernel, by decide +kernel, by decide +kernel⟩,
    by decide +kernel, by decide +kernel⟩
example : (wavy.Evaluate (dbl (2/5))).map exactVec ≠ (exactCurve wavy).Evaluate (dbl (2/5)).val := by decide +kernel

/-- C70.  With rounding, `Surface::Evaluate` succeeds on every well-formed surface and all `u, v ∈ [0,1]`; each coordinate
differs from the true point by at most `(1-u)^(-14(p+q)-10) - 1` times the weighted mean of the absolute coordinates. -/
theorem C70_surface_rounding {p q m n : ℕ} {s : Surface (Fl R)} (hw : WFSurface p q m n (exactSurface s)) {u v : Fl R}
    (hu0 : 0 ≤ u) (hu1 : u ≤ 1) (hv0 : 0 ≤ v) (hv1 : v ≤ 1) :
    ∃ e, s.Evaluate u v = .ok e ∧
      |e.x.val - (surfPoint p q m n (exactSurface s) u.val v.val).x| ≤ errFactor R (14 * (p + q) + 10) *
        (swsum p q m n (exactSurface s) u.val v.val (fun P => |P.x|) / swsum p q m n (exactSurface s) u.val v.val (fun _ => 1)) ∧
      |e.y.val - (surfPoint p q m n (exactSurface s) u.val v.val).y| ≤ errFactor R (14 * (p + q) + 10) *
        (swsum p q m n (exactSurface s) u.val v.val (fun P => |P.y|) / swsum p q m n (exactSurface s) u.val v.val (fun _ => 1)) ∧
      |e.z.val - (surfPoint p q m n (exactSurface s) u.val v.val).z| ≤ errFactor R (14 * (p + q) + 10) *
        (swsum p q m n (exactSurface s) u.val v.val (fun P => |P.z|) / swsum p q m n (exactSurface s) u.val v.val (fun _ => 1)) := by
  obtain ⟨e, ku, kv, he, hku, hkv, hpu, hm, hpv, hn, hpos, hx, hy, hz⟩ := surface_close hw hu0 hu1 hv0 hv1
  have ew : (surfSeg p q (exactSurface s) ku kv u.val v.val).w = swsum p q m n (exactSurface s) u.val v.val (fun _ => 1) :=
    sseg_swsum hw hku hkv hpu hm hpv hn Vec4.lw id (fun _ => 1) (fun v => by simp [Vec4.lw])
  have hp := proj_sseg_eq hw hku hkv hpu hm hpv hn
  have ex : (sseg (kn (exactList s.KnotsU.Values)) ku u.val p (kn (exactList s.KnotsV.Values)) kv v.val q
      (fun i j => ToHomo (absV (cp (exactSurface s) i j)))).x = swsum p q m n (exactSurface s) u.val v.val (fun P => |P.x|) :=
    sseg_swsum hw hku hkv hpu hm hpv hn Vec4.lx absV _ (fun v => by simp [Vec4.lx, absV, ToHomo, mul_comm])
  have ey : (sseg (kn (exactList s.KnotsU.Values)) ku u.val p (kn (exactList s.KnotsV.Values)) kv v.val q
      (fun i j => ToHomo (absV (cp (exactSurface s) i j)))).y = swsum p q m n (exactSurface s) u.val v.val (fun P => |P.y|) :=
    sseg_swsum hw hku hkv hpu hm hpv hn Vec4.ly absV _ (fun v => by simp [Vec4.ly, absV, ToHomo, mul_comm])
  have ez : (sseg (kn (exactList s.KnotsU.Values)) ku u.val p (kn (exactList s.KnotsV.Values)) kv v.val q
      (fun i j => ToHomo (absV (cp (exactSurface s) i j)))).z = swsum p q m n (exactSurface s) u.val v.val (fun P => |P.z|) :=
    sseg_swsum hw hku hkv hpu hm hpv hn Vec4.lz absV _ (fun v => by simp [Vec4.lz, absV, ToHomo, mul_comm])
  refine ⟨e, he, ?_, ?_, ?_⟩
  · rw [← hp, ← ew, ← ex]; exact hx.2
  · rw [← hp, ← ew, ← ey]; exact hy.2
  · rw [← hp, ← ew, ← ez]; exact hz.2

/-- C70, in terms of the largest coordinate. -/
theorem C70_surface_rounding_bound {p q m n : ℕ} {s : Surface (Fl R)} (hw : WFSurface p q m n (exactSurface s)) {u v : Fl R}
    (hu0 : 0 ≤ u) (hu1 : u ≤ 1) (hv0 : 0 ≤ v) (hv1 : v ≤ 1) {B : K}
    (hB : ∀ i < m, ∀ j < n, |(cp (exactSurface s) i j).x| ≤ B ∧ |(cp (exactSurface s) i j).y| ≤ B ∧ |(cp (exactSurface s) i j).z| ≤ B) :
    ∃ e, s.Evaluate u v = .ok e ∧
      |e.x.val - (surfPoint p q m n (exactSurface s) u.val v.val).x| ≤ errFactor R (14 * (p + q) + 10) * B ∧
      |e.y.val - (surfPoint p q m n (exactSurface s) u.val v.val).y| ≤ errFactor R (14 * (p + q) + 10) * B ∧
      |e.z.val - (surfPoint p q m n (exactSurface s) u.val v.val).z| ≤ errFactor R (14 * (p + q) + 10) * B := by
  obtain ⟨e, he, hx, hy, hz⟩ := C70_surface_rounding hw hu0 hu1 hv0 hv1
  rw [Fl.le_def, Fl.val_zero] at hu0 hv0
  rw [Fl.le_def, Fl.val_one] at hu1 hv1
  have hf := errFactor_nonneg R (14 * (p + q) + 10)
  exact ⟨e, he,
    le_trans hx (mul_le_mul_of_nonneg_left (swsum_div_le hw hu0 hu1 hv0 hv1 _ B fun i hi j hj => (hB i hi j hj).1) hf),
    le_trans hy (mul_le_mul_of_nonneg_left (swsum_div_le hw hu0 hu1 hv0 hv1 _ B fun i hi j hj => (hB i hi j hj).2.1) hf),
    le_trans hz (mul_le_mul_of_nonneg_left (swsum_div_le hw hu0 hu1 hv0 hv1 _ B fun i hi j hj => (hB i hi j hj).2.2) hf)⟩

/-- A bilinear patch with rounded data, and its computed value. -/
def patch : Surface (Fl binary53) :=
  ⟨1, 1, ⟨[0, 0, 1, 1]⟩, ⟨[0, 0, 1, 1]⟩, ⟨2, 2, [⟨0, 0, 0, dbl (1/10)⟩, ⟨1, 0, 0, 1⟩, ⟨0, 1, 0, dbl (1/3)⟩, ⟨1, 1, 3, 1⟩]⟩⟩
example : WFSurface 1 1 2 2 (exactSurface patch) :=
  ⟨by decide +kernel, by decide +kernel,
    ⟨by decide +kernel, by decide +kernel, by decide +kernel, by decide +kernel, by decide +kernel, by decide +kernel⟩,
    ⟨by decide +kernel, by decide +kernel, by decide +kernel, by decide +kernel, by decide +kernel, by decide +kernel⟩,
    by decide +kernel, by decide +kernel, by decide +kernel, by decide +kernel, by decide +kernel, by decide +kernel⟩
example : (patch.Evaluate (dbl (1/3)) (dbl (2/7))).map exactVec ≠
    (exactSurface patch).Evaluate (dbl (1/3)).val (dbl (2/7)).val := by decide +kernel

/-- C71.  With rounding, `KnotVector::Uniform` succeeds and returns a clamped vector (all interior knots strictly between
0 and 1 and in order) whose interior knots have relative error at most `(1-u)^-2 - 1`, if the integers up to the number of
spans are representable and `2 u` times that number is below one. -/
theorem C71_uniform_rounding (d a : ℕ) (hrep : ∀ n : ℕ, n ≤ a + 1 → R.rnd n = n) (hu : 2 * R.u * (a + 1) < 1) :
    ∃ kv : KnotVector (Fl R), KnotVector.Uniform d ((2 * d + 2 + a : ℕ) : Int) = .ok kv ∧ kv.Values.length = 2 * d + 2 + a ∧
      Clamped d kv.Values ∧
      ∀ i < a, |kn (exactList kv.Values) (d + 1 + i) - (i + 1 : K) / (a + 1)| ≤ errFactor R 2 * ((i + 1 : K) / (a + 1)) := by
  obtain ⟨l, h1, h2, h3, h4⟩ := uniform_rounded (R := R) d a hrep hu
  refine ⟨⟨l⟩, h1, h2, h3, fun i hi => ?_⟩
  rw [kn_exactList]
  exact (h4 i hi).abs_sub_le R.q_pos

/-- C71 for `double`: it works for every number of interior knots an `int` can hold. -/
theorem C71_uniform_double (d a : ℕ) (ha : a < 2 ^ 31) :
    ∃ kv : KnotVector (Fl binary53), KnotVector.Uniform d ((2 * d + 2 + a : ℕ) : Int) = .ok kv ∧ Clamped d kv.Values := by
  have h31 : (a : ℚ) + 1 ≤ 2 ^ 31 := by exact_mod_cast ha
  obtain ⟨kv, h1, -, h2, -⟩ := C71_uniform_rounding (R := binary53) d a
    (fun n hn => round53_nat (by omega))
    (by
      have : (binary53.u : ℚ) = 1 / 2 ^ 53 := rfl
      rw [this]
      calc (2 : ℚ) * (1 / 2 ^ 53) * (a + 1) ≤ 2 * (1 / 2 ^ 53) * 2 ^ 31 := mul_le_mul_of_nonneg_left h31 (by positivity)
        _ < 1 := by norm_num)
  exact ⟨kv, h1, h2⟩

example : (KnotVector.Uniform 1 9 : M (KnotVector (Fl binary53))) =
    .ok ⟨[0, 0, dbl (1/6), dbl (1/3), dbl (1/2), dbl (2/3), dbl (3752999689475413 / 2 ^ 52), 1, 1]⟩ := by decide +kernel

/-- C72.  With rounding, `KnotVector::Reverse` keeps a valid vector valid, and each new knot has relative error at most
`(1-u)^-1 - 1`. -/
theorem C72_reverse_rounding_partial (kv : KnotVector (Fl R)) (hv : kv.IsValid = true) :
    kv.Reverse.IsValid = true ∧ kv.Reverse.Values.length = kv.Values.length ∧
    ∀ i < kv.Values.length, |kn (exactList kv.Reverse.Values) i - (1 - kn (exactList kv.Values) (kv.Values.length - 1 - i))| ≤
      errFactor R 1 * (1 - kn (exactList kv.Values) (kv.Values.length - 1 - i)) := by
  have hv' := (isValid_iff kv).mp hv
  refine ⟨(isValid_iff _).mpr (reverse_rounded_valid kv hv'), by simp [KnotVector.Reverse], fun i hi => ?_⟩
  have h1 : kn kv.Values (kv.Values.length - 1 - i) ≤ 1 := by
    obtain ⟨h4, _, hl, hs⟩ := hv'
    have hlast : kn kv.Values (kv.Values.length - 1) = 1 := by
      rw [List.getLast?_eq_getElem?] at hl
      unfold kn
      rw [List.getD_eq_getElem?_getD, hl]; rfl
    rw [← hlast, kn_eq_getElem _ _ (by omega), kn_eq_getElem _ _ (by omega)]
    rcases Nat.eq_zero_or_pos i with rfl | hp
    · exact le_refl _
    · exact List.pairwise_iff_getElem.mp hs _ _ _ _ (by omega)
  rw [kn_exactList, kn_exactList, reverse_rounded_kn kv i hi]
  rw [Fl.le_def, Fl.val_one] at h1
  have := Fl.near_sub (a := (1 : Fl R)) (b := kn kv.Values (kv.Values.length - 1 - i)) (by rw [Fl.val_one]; exact h1)
  rw [Fl.val_one] at this
  exact this.abs_sub_le R.q_pos

/-- C72 is false of the code: reversing twice loses a small knot, and the multiplicity of the end knot grows. -/
theorem C72_reverse_rounding_refuted :
    ¬ ∀ kv : KnotVector (Fl binary53), kv.IsValid = true →
      kv.Reverse.Reverse = kv ∧ kv.Reverse.Values.count 1 = kv.Values.count 0 := by
  intro h
  have := (h ⟨[0, 0, dbl (1 / 2 ^ 60), 1, 1]⟩ (by decide +kernel)).2
  revert this
  decide +kernel

example : (KnotVector.mk [0, 0, dbl (1 / 10), 1, 1] : KnotVector (Fl binary53)).IsValid = true ∧
    (KnotVector.mk [0, 0, dbl (1 / 10), 1, 1] : KnotVector (Fl binary53)).Reverse.Reverse ≠ ⟨[0, 0, dbl (1 / 10), 1, 1]⟩ := by
  decide +kernel

/-- C73.  With rounding, curves pass through their end control points up to a relative error of `(1-u)^(-14p-6) - 1` in
each coordinate. -/
theorem C73_endpoints_rounding_partial {p : ℕ} {c : Curve (Fl R)} (hw : WFCurve p (exactCurve c)) :
    (∃ P e, c.ControlPoints.head? = some P ∧ c.Evaluate 0 = .ok e ∧ |e.x.val - P.x.val| ≤ errFactor R (14 * p + 6) * |P.x.val| ∧
      |e.y.val - P.y.val| ≤ errFactor R (14 * p + 6) * |P.y.val| ∧ |e.z.val - P.z.val| ≤ errFactor R (14 * p + 6) * |P.z.val|) ∧
    (∃ P e, c.ControlPoints.getLast? = some P ∧ c.Evaluate 1 = .ok e ∧ |e.x.val - P.x.val| ≤ errFactor R (14 * p + 6) * |P.x.val| ∧
      |e.y.val - P.y.val| ≤ errFactor R (14 * p + 6) * |P.y.val| ∧ |e.z.val - P.z.val| ≤ errFactor R (14 * p + 6) * |P.z.val|) := by
  have hc := hw.clamped
  have hlen := hc.len
  have hcount := hw.count
  have hcl : (exactCurve c).ControlPoints.length = c.ControlPoints.length := by simp [exactCurve]
  -- both ends: the segment is a single control point
  have key : ∀ (i : ℕ) (e : Vec3 (Fl R)) (P : Vec4 (Fl R)) (s S : Vec4 K), i < c.ControlPoints.length → c.ControlPoints[i]? = some P →
      s = hpts (exactCurve c).ControlPoints i → S = ToHomo (absV (pt (exactCurve c).ControlPoints i)) →
      Close R.q (14 * p + 6) e.x.val (s.x / s.w) (S.x / s.w) → Close R.q (14 * p + 6) e.y.val (s.y / s.w) (S.y / s.w) →
      Close R.q (14 * p + 6) e.z.val (s.z / s.w) (S.z / s.w) →
      |e.x.val - P.x.val| ≤ errFactor R (14 * p + 6) * |P.x.val| ∧
      |e.y.val - P.y.val| ≤ errFactor R (14 * p + 6) * |P.y.val| ∧ |e.z.val - P.z.val| ≤ errFactor R (14 * p + 6) * |P.z.val| := by
    rintro i e P s S hi hP rfl rfl hx hy hz
    have hwi := (hw.weights i (by omega)).ne'
    have hpt : pt (exactCurve c).ControlPoints i = exactPoint P := by
      simp [pt, exactCurve, hP]
    simp only [hpts, hpt, ToHomo, absV] at hx hy hz hwi
    rw [mul_div_cancel_right₀ _ hwi, mul_div_cancel_right₀ _ hwi] at hx hy hz
    exact ⟨hx.2, hy.2, hz.2⟩
  have e0 : (0 : Fl R).val = 0 := Fl.val_zero
  have e1 : (1 : Fl R).val = 1 := Fl.val_one
  constructor
  · have hk : IsSpan (exactCurve c).Knots.Values 0 p := ⟨by omega, (hc.zeros p (le_refl _)).le, Or.inl hc.first⟩
    obtain ⟨e, k, he, hk', hpk, hl, hpos, hx, hy, hz⟩ := evaluate_close hw (x := 0) le_rfl Fl.one_pos.le
    rw [e0] at hk' hx hy hz
    obtain rfl : p = k := isSpan_unique hc.sorted hk hk' (fun i hi => hc.le_one hi)
    obtain ⟨_, _, hr, _, _⟩ := evaluate_seg hw le_rfl zero_le_one hk
    have hsp : ∀ Q : ℕ → Vec4 K, seg (kn (exactList c.Knots.Values)) p 0 p Q = Q 0 := fun Q =>
      seg_eq_point _ _ _ _ 0 _ hpk hr (by omega) (by omega) (fun j _ hj => hc.zeros j (by omega))
    have h0 : 0 < c.ControlPoints.length := by omega
    refine ⟨c.ControlPoints[0], e, by rw [List.head?_eq_getElem?, List.getElem?_eq_getElem h0], he, ?_⟩
    exact key 0 e _ _ _ h0 (List.getElem?_eq_getElem h0) (hsp _) (hsp _) hx hy hz
  · obtain ⟨n, hn⟩ : ∃ n, c.ControlPoints.length = n + 1 := ⟨c.ControlPoints.length - 1, by omega⟩
    have hk : IsSpan (exactCurve c).Knots.Values 1 n := by
      have h1 := hc.last
      have h2 := hc.ones (n + 1) (by omega) (by omega)
      rw [show (exactCurve c).Knots.Values.length - p - 2 = n by omega] at h1
      exact ⟨by omega, h1.le, Or.inr ⟨rfl, h1, h2⟩⟩
    obtain ⟨e, k, he, hk', hpk, hl, hpos, hx, hy, hz⟩ := evaluate_close hw (x := 1) Fl.one_pos.le le_rfl
    rw [e1] at hk' hx hy hz
    obtain rfl : n = k := isSpan_unique hc.sorted hk hk' (fun i hi => hc.le_one hi)
    obtain ⟨_, _, hr, _, _⟩ := evaluate_seg hw zero_le_one le_rfl hk
    have hsp : ∀ Q : ℕ → Vec4 K, seg (kn (exactList c.Knots.Values)) n 1 p Q = Q n := fun Q =>
      seg_eq_point _ _ _ _ n _ hpk hr (by omega) (by omega) (fun j h1 h2 => hc.ones j (by omega) (by omega))
    have h0 : n < c.ControlPoints.length := by omega
    refine ⟨c.ControlPoints[n], e, by
      rw [List.getLast?_eq_getElem?, hn, Nat.add_sub_cancel, List.getElem?_eq_getElem h0], he, ?_⟩
    exact key n e _ _ _ h0 (List.getElem?_eq_getElem h0) (hsp _) (hsp _) hx hy hz

/-- C73 is false of the code as an exact statement: a Bézier segment whose first weight is `0.1` does not start at its first
control point. -/
theorem C73_endpoints_rounding_refuted :
    ¬ ∀ (p : ℕ) (c : Curve (Fl binary53)), WFCurve p (exactCurve c) →
      ∃ P, c.ControlPoints.head? = some P ∧ c.Evaluate 0 = .ok ⟨P.x, P.y, P.z⟩ := by
  intro h
  obtain ⟨P, h1, h2⟩ := h 1 ⟨1, ⟨[0, 0, 1, 1]⟩, [⟨dbl 3, 0, 0, dbl (1 / 10)⟩, ⟨0, 0, 0, 1⟩]⟩
    ⟨by decide +kernel, ⟨by decide +kernel, by decide +kernel, by decide +kernel, by decide +kernel, by decide +kernel, by decide +kernel⟩,
      by decide +kernel, by decide +kernel⟩
  obtain rfl : (⟨dbl 3, 0, 0, dbl (1 / 10)⟩ : Vec4 (Fl binary53)) = P := by simpa using h1
  revert h2
  decide +kernel

end Nurbs.Props
