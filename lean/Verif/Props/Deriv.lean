import Verif.Proof.CurveDeriv
import Verif.Props.Basis
import Verif.Props.Curve
import Mathlib.Analysis.Calculus.IteratedDeriv.Defs
import Mathlib.Analysis.Calculus.Deriv.Polynomial
import Mathlib.Analysis.Calculus.Deriv.Inv
import Mathlib.Analysis.Calculus.Deriv.Pow

/-! # C22, C29: derivatives -/

set_option linter.unusedSectionVars false

namespace Nurbs.Props
open Nurbs Nurbs.Spec Polynomial

variable {K : Type} [Field K] [LinearOrder K] [IsStrictOrderedRing K]

/-- The polynomial pieces used in the statements below are determined by the function. -/
theorem C22_piece_unique {p : ℕ} {l : List K} (hc : Clamped p l) {x : K} {k : ℕ} (hk : IsSpan l x k) {f : K → K} {P Q : K[X]}
    (hP : IsPiece l k f P) (hQ : IsPiece l k f Q) : P = Q :=
  isPiece_unique (IsSpan.lt hk) hk.1 hP hQ

theorem N_piece {p : ℕ} {l : List K} (hc : Clamped p l) {k i : ℕ} (hi : i + p + 1 < l.length) :
    IsPiece l k (fun t => N (kn l) t p i) (NlP (kn l) k p i) := by
  intro t ht
  simp only
  rw [NlP_eval]
  exact N_eq_Nl (kn l) t k (l.length - 1) (N_zero_span hc.sorted (fun i hi => hc.le_one hi) ht) p i (by omega)

/-- C22.  For a clamped knot vector, `x ∈ [0,1]` and every order, `BSplineBasis::EvaluateAll` succeeds and entry
`(r, n)` of its result is the `r`-th derivative at `x` of (the polynomial piece around `x` of) `N_{k-p+n,p}`, where
`k` is the span of `x`. -/
theorem C22_evaluateAll {p : ℕ} {l : List K} (hc : Clamped p l) {x : K} (h0 : 0 ≤ x) (h1 : x ≤ 1) (order : ℕ) :
    ∃ k rows, IsSpan l x k ∧ p ≤ k ∧ k + p + 2 ≤ l.length ∧
      BSplineBasis.EvaluateAll p ⟨l⟩ x order = .ok rows ∧ rows.length = order + 1 ∧
      ∀ r ≤ order, ∃ row, rows[r]? = some row ∧ row.length = p + 1 ∧
        ∀ n ≤ p, ∃ P, IsPiece l k (fun t => N (kn l) t p (k - p + n)) P ∧
          row[n]? = some ((derivative^[r] P).eval x) := by
  obtain ⟨k, hs, hpk, hlk, hreg, hk, hN, he⟩ := evaluate_spec hc h0 h1
  refine ⟨k, tab (order + 1) fun m => tab (p + 1) fun r => (derivative^[m] (NlP (kn l) k p (k - p + r))).eval x, hs, hpk, hlk, ?_, ?_⟩
  · unfold BSplineBasis.EvaluateAll
    rw [hk, bind_ok, evaluateAllAt_deriv hpk (by omega) hreg]
  · refine ⟨by simp, fun r hr => ⟨_, tab_getElem? _ _ r (by omega), by simp, fun n hn => ?_⟩⟩
    exact ⟨_, N_piece hc (by omega), tab_getElem? _ _ n (by omega)⟩

/-- Degree 2, orders 0 to 3 at 1/3. -/
example : BSplineBasis.EvaluateAll 2 (⟨[0, 0, 0, 1/4, 1/2, 1, 1, 1]⟩ : KnotVector ℚ) (1/3) 3 =
    .ok [[2/9, 20/27, 1/27], [-8/3, 16/9, 8/9], [16, -80/3, 32/3], [0, 0, 0]] := by decide +kernel

/-- C22.  Row 0 is what `Evaluate` returns, the rows above the degree are zero, and `EvaluateDerivative` returns
the row of its order. -/
theorem C22_rows {p : ℕ} {l : List K} (hc : Clamped p l) {x : K} (h0 : 0 ≤ x) (h1 : x ≤ 1) (order : ℕ) :
    ∃ rows, BSplineBasis.EvaluateAll p ⟨l⟩ x order = .ok rows ∧
      (∃ row0, BSplineBasis.Evaluate p ⟨l⟩ x = .ok row0 ∧ rows[0]? = some row0) ∧
      (∀ r ≤ order, p < r → rows[r]? = some (List.replicate (p + 1) 0)) ∧
      (∃ row, BSplineBasis.EvaluateDerivative p ⟨l⟩ x order = .ok row ∧ rows[order]? = some row) := by
  obtain ⟨k, hs, hpk, hlk, hreg, hk, hN, he⟩ := evaluate_spec hc h0 h1
  refine ⟨tab (order + 1) fun m => tab (p + 1) fun r => (derivative^[m] (NlP (kn l) k p (k - p + r))).eval x, ?_, ?_, ?_, ?_⟩
  · unfold BSplineBasis.EvaluateAll
    rw [hk, bind_ok, evaluateAllAt_deriv hpk (by omega) hreg]
  · refine ⟨tab (p + 1) fun n => N (kn l) x p (k - p + n), ?_, ?_⟩
    · unfold BSplineBasis.Evaluate
      rw [hk]
      exact he
    · rw [tab_getElem? _ _ 0 (by omega)]
      congr 1
      refine tab_congr fun n hn => ?_
      rw [hN _ (by omega), ← NlP_eval]
      rfl
  · intro r hr hpr
    rw [tab_getElem? _ _ r (by omega), replicate_eq_tab]
    congr 1
    refine tab_congr fun n hn => ?_
    rw [iterate_derivative_NlP_zero _ _ _ _ _ hpr, eval_zero]
  · refine ⟨_, ?_, tab_getElem? _ _ order (by omega)⟩
    unfold BSplineBasis.EvaluateDerivative BSplineBasis.EvaluateDerivativeAt
    rw [hk, bind_ok, evaluateAllAt_deriv hpk (by omega) hreg, bind_ok, vget_tab _ _ _ order rfl (by omega)]

example : BSplineBasis.EvaluateDerivative 2 (⟨[0, 0, 0, 1/4, 1/2, 1, 1, 1]⟩ : KnotVector ℚ) (1/3) 1 =
    .ok [-8/3, 16/9, 8/9] := by decide +kernel

/-- C29.  For a well-formed curve, `x ∈ [0,1]` and every order up to 29, `Curve::EvaluateAll` succeeds and its
entry `m` is the `m`-th derivative of the curve at `x`: if on the span of `x` the sums `Σ N w x_i`, `Σ N w y_i`,
`Σ N w z_i` and `Σ N w` are the polynomials `X`, `Y`, `Z`, `W` then the entry is the `m`-th derivative, by the
quotient rule, of `X/W`, `Y/W`, `Z/W`.  `EvaluateDerivative` returns the last entry.
Missing for the full C29 (every order): orders from 30 on, where it is false, see `C29_every_order_refuted`. -/
theorem C29_evaluateAll_partial {p : ℕ} {c : Curve K} (hw : WFCurve p c) {x : K} (h0 : 0 ≤ x) (h1 : x ≤ 1) (order : ℕ) (ho : order ≤ 29) :
    ∃ (k : ℕ) (X Y Z W : K[X]) (ds : List (Vec3 K)), IsSpan c.Knots.Values x k ∧
      IsPiece c.Knots.Values k (fun t => wsum p c t (·.x)) X ∧ IsPiece c.Knots.Values k (fun t => wsum p c t (·.y)) Y ∧
      IsPiece c.Knots.Values k (fun t => wsum p c t (·.z)) Z ∧ IsPiece c.Knots.Values k (fun t => wsum p c t (fun _ => 1)) W ∧
      0 < W.eval x ∧ c.EvaluateAll x order = .ok ds ∧ ds.length = order + 1 ∧
      (∀ m ≤ order, ds[m]? = some ⟨quotDeriv X W m x, quotDeriv Y W m x, quotDeriv Z W m x⟩) ∧
      c.EvaluateDerivative x order = .ok ⟨quotDeriv X W order x, quotDeriv Y W order x, quotDeriv Z W order x⟩ := by
  obtain ⟨k, hk, hpk, hl⟩ := exists_span hw.clamped h0 h1
  obtain ⟨hpos, he⟩ := curve_evaluateAll_ok hw h0 h1 hk order ho
  refine ⟨k, curveP p c k (·.x), curveP p c k (·.y), curveP p c k (·.z), curveP p c k (·.w), _, hk, ?_, ?_, ?_, ?_, hpos, he, by simp,
    fun m hm => tab_getElem? _ _ m (by omega), ?_⟩
  · exact curveP_piece hw hpk hl _ _ (fun v => by simp [ToHomo]; ring)
  · exact curveP_piece hw hpk hl _ _ (fun v => by simp [ToHomo]; ring)
  · exact curveP_piece hw hpk hl _ _ (fun v => by simp [ToHomo]; ring)
  · exact curveP_piece hw hpk hl _ _ (fun v => by simp [ToHomo])
  · unfold Curve.EvaluateDerivative
    rw [he, bind_ok, vget_tab _ _ _ order rfl (by omega)]
    rfl

/-- A rational curve: value, first, second and third derivative. -/
example : exCurve.EvaluateAll (1/3) 3 =
    .ok [⟨2, 3/20, 19/20⟩, ⟨9/5, -9/100, 63/100⟩, ⟨216/25, 3591/125, -837/125⟩, ⟨29646/125, -80433/1250, 125631/1250⟩] := by
  decide +kernel

/-! ### Orders from 30 on

`Binomial(30, 15)` overflows `int` (C13), so `Curve::EvaluateAll` has undefined behaviour for every order ≥ 30 and C29
cannot be extended. -/

/-- C29 fails above order 29: `Curve::EvaluateAll` has undefined behaviour for every order ≥ 30. -/
theorem C29_every_order_refuted {p : ℕ} {c : Curve K} (hw : WFCurve p c) {x : K} (h0 : 0 ≤ x) (h1 : x ≤ 1) (order : ℕ) (ho : 30 ≤ order) :
    c.EvaluateAll x order = .error .ub := by
  obtain ⟨k, hk, hpk, hl⟩ := exists_span hw.clamped h0 h1
  obtain ⟨hpos, _⟩ := curve_evaluateAll_ok hw h0 h1 hk 0 (by omega)
  exact curve_evaluateAll_ub hw h0 h1 hk hpos.ne' order ho

example : exCurve.EvaluateAll (1/3) 30 = .error .ub :=
  C29_every_order_refuted exCurve_wf (by decide +kernel) (by decide +kernel) 30 (le_refl _)

/-! ### The same over the real numbers, in terms of the derivative of analysis -/

section real

theorem piece_iteratedDeriv {f : ℝ → ℝ} {a b : ℝ} {P : ℝ[X]} (h : ∀ t, a < t → t < b → f t = P.eval t) (m : ℕ) :
    ∀ t, a < t → t < b → iteratedDeriv m f t = (derivative^[m] P).eval t := by
  induction m with
  | zero => intro t h1 h2; simpa using h t h1 h2
  | succ m ih =>
    intro t h1 h2
    rw [iteratedDeriv_succ, Function.iterate_succ_apply']
    have : iteratedDeriv m f =ᶠ[nhds t] fun s => (derivative^[m] P).eval s := by
      filter_upwards [Ioo_mem_nhds h1 h2] with s hs
      exact ih s hs.1 hs.2
    rw [this.deriv_eq, Polynomial.deriv]

theorem quot_iteratedDeriv {f : ℝ → ℝ} {a b : ℝ} {A W : ℝ[X]} (h : ∀ t, a < t → t < b → f t = A.eval t / W.eval t)
    (hW : ∀ t, a < t → t < b → W.eval t ≠ 0) (m : ℕ) :
    ∀ t, a < t → t < b → iteratedDeriv m f t = quotDeriv A W m t := by
  induction m with
  | zero => intro t h1 h2; simpa [quotDeriv, quotNum] using h t h1 h2
  | succ m ih =>
    intro t h1 h2
    rw [iteratedDeriv_succ]
    have : iteratedDeriv m f =ᶠ[nhds t] fun s => (quotNum A W m).eval s / W.eval s ^ (m + 1) := by
      filter_upwards [Ioo_mem_nhds h1 h2] with s hs
      exact ih s hs.1 hs.2
    rw [this.deriv_eq]
    have hne := hW t h1 h2
    have hd := HasDerivAt.fun_div ((quotNum A W m).hasDerivAt t) (HasDerivAt.fun_pow (W.hasDerivAt t) (m + 1)) (pow_ne_zero _ hne)
    rw [hd.deriv]
    unfold quotDeriv
    simp only [quotNum, eval_sub, eval_mul, nsmul_eq_mul, eval_natCast]
    rw [div_eq_div_iff (pow_ne_zero _ (pow_ne_zero _ hne)) (pow_ne_zero _ hne)]
    simp only [Nat.add_sub_cancel]
    push_cast
    ring

/-- C22 over the reals: inside a span the returned rows are the iterated derivatives of the basis functions. -/
theorem C22_evaluateAll_real {p : ℕ} {l : List ℝ} (hc : Clamped p l) {x : ℝ} {k : ℕ} (hk : k + 1 < l.length)
    (h1 : kn l k < x) (h2 : x < kn l (k + 1)) (order : ℕ) :
    ∃ rows, BSplineBasis.EvaluateAll p ⟨l⟩ x order = .ok rows ∧ ∀ r ≤ order, ∃ row, rows[r]? = some row ∧
      ∀ n ≤ p, row[n]? = some (iteratedDeriv r (fun t => N (kn l) t p (k - p + n)) x) := by
  have hx0 : 0 ≤ x := le_trans (hc.nonneg (by omega)) h1.le
  have hx1 : x ≤ 1 := le_trans h2.le (hc.le_one hk)
  obtain ⟨k', rows, hs, _, _, he, _, hrows⟩ := C22_evaluateAll hc hx0 hx1 order
  obtain rfl : k = k' := isSpan_unique hc.sorted ⟨hk, h1.le, Or.inl h2⟩ hs (fun i hi => hc.le_one hi)
  refine ⟨rows, he, fun r hr => ?_⟩
  obtain ⟨row, e, _, hrow⟩ := hrows r hr
  refine ⟨row, e, fun n hn => ?_⟩
  obtain ⟨P, hP, hv⟩ := hrow n hn
  rw [hv, piece_iteratedDeriv (fun t ht1 ht2 => hP t ⟨hk, ht1.le, Or.inl ht2⟩) r x h1 h2]

/-- C29 over the reals: inside a span the returned vectors are the iterated derivatives of the coordinates of the
curve. -/
theorem C29_evaluateAll_real_partial {p : ℕ} {c : Curve ℝ} (hw : WFCurve p c) {x : ℝ} {k : ℕ} (hk : k + 1 < c.Knots.Values.length)
    (h1 : kn c.Knots.Values k < x) (h2 : x < kn c.Knots.Values (k + 1)) (order : ℕ) (ho : order ≤ 29) :
    ∃ ds, c.EvaluateAll x order = .ok ds ∧ ds.length = order + 1 ∧ ∀ m ≤ order, ds[m]? =
      some ⟨iteratedDeriv m (fun t => (nurbsPoint p c t).x) x, iteratedDeriv m (fun t => (nurbsPoint p c t).y) x,
        iteratedDeriv m (fun t => (nurbsPoint p c t).z) x⟩ := by
  have hc := hw.clamped
  have hx0 : 0 ≤ x := le_trans (hc.nonneg (by omega)) h1.le
  have hx1 : x ≤ 1 := le_trans h2.le (hc.le_one hk)
  obtain ⟨k', X, Y, Z, W, ds, hs, hX, hY, hZ, hW, _, he, hlen, hds, _⟩ := C29_evaluateAll_partial hw hx0 hx1 order ho
  obtain rfl : k = k' := isSpan_unique hc.sorted ⟨hk, h1.le, Or.inl h2⟩ hs (fun i hi => hc.le_one hi)
  have hWne : ∀ t, kn c.Knots.Values k < t → t < kn c.Knots.Values (k + 1) → W.eval t ≠ 0 := by
    intro t ht1 ht2
    rw [← hW t ⟨hk, ht1.le, Or.inl ht2⟩]
    exact (C23_evaluate hw (le_trans (hc.nonneg (by omega)) ht1.le) (le_trans ht2.le (hc.le_one hk))).2.ne'
  refine ⟨ds, he, hlen, fun m hm => ?_⟩
  rw [hds m hm, quot_iteratedDeriv (A := X) _ hWne m x h1 h2, quot_iteratedDeriv (A := Y) _ hWne m x h1 h2,
    quot_iteratedDeriv (A := Z) _ hWne m x h1 h2]
  · intro t ht1 ht2
    rw [← hZ t ⟨hk, ht1.le, Or.inl ht2⟩, ← hW t ⟨hk, ht1.le, Or.inl ht2⟩]; rfl
  · intro t ht1 ht2
    rw [← hY t ⟨hk, ht1.le, Or.inl ht2⟩, ← hW t ⟨hk, ht1.le, Or.inl ht2⟩]; rfl
  · intro t ht1 ht2
    rw [← hX t ⟨hk, ht1.le, Or.inl ht2⟩, ← hW t ⟨hk, ht1.le, Or.inl ht2⟩]; rfl

end real

end Nurbs.Props
