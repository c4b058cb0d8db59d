import Verif.Props.Deriv
import Verif.Proof.Smooth

/-! # C86: smoothness at the knots -/

set_option linter.unusedSectionVars false

namespace Nurbs.Props
open Nurbs Nurbs.Spec Polynomial

section algebra
variable {K : Type} [Field K] [LinearOrder K] [IsStrictOrderedRing K]

/-- The polynomial that a sum of the curve is on a span. -/
noncomputable def wsumP (p : ℕ) (c : Curve K) (k : ℕ) (f : Vec4 K → K) : K[X] :=
  segP (kn c.Knots.Values) k p fun i => (pt c.ControlPoints i).w * f (pt c.ControlPoints i)

theorem wsumP_piece {p : ℕ} {c : Curve K} (hw : WFCurve p c) {k : ℕ} (hpk : p ≤ k) (hl : k + p + 2 ≤ c.Knots.Values.length)
    (f : Vec4 K → K) : IsPiece c.Knots.Values k (fun t => wsum p c t f) (wsumP p c k f) := by
  intro t ht
  unfold wsumP
  rw [segP_eval, ← sum_N_window hw.clamped ht hpk hl hw.count]
  simp only [wsum]
  refine Finset.sum_congr rfl fun i _ => ?_
  rw [smul_eq_mul, mul_assoc]

/-- The pieces of a curve on both sides of an interior parameter. -/
theorem curve_meet {p : ℕ} {c : Curve K} (hw : WFCurve p c) {x : K} (h0 : 0 < x) (h1 : x < 1) {J : ℕ} (hJ : IsSpan c.Knots.Values x J)
    {r : ℕ} (hm : x ∈ c.Knots.Values → c.Knots.Values.count x + r ≤ p) :
    ∃ j, p ≤ j ∧ j + p + 2 ≤ c.Knots.Values.length ∧ kn c.Knots.Values j < x ∧ x ≤ kn c.Knots.Values (j + 1) ∧ ∀ f : Vec4 K → K,
      Agree x (r + 1) (wsumP p c j f) (wsumP p c J f) := by
  have hc := hw.clamped
  obtain ⟨hpJ, hlJ, hreg, -, -⟩ := evaluate_seg hw h0.le h1.le hJ
  obtain ⟨j, hpj, hmeet, hlt, hjx, hxj, hin, hout⟩ := exists_meet hc h0 hJ h1
  have := hmeet.le
  refine ⟨j, hpj, by omega, hjx, hxj, fun f => ?_⟩
  by_cases hx : x ∈ c.Knots.Values
  · have h2 := hin hx
    have h3 := hm hx
    have hregj : RegSpan (kn c.Knots.Values) j p := regSpan_of_sorted hc.sorted hlt (by omega)
    exact Agree.of_deriv fun s hs => hmeet.segP (by omega) hpj hregj hreg _
  · rw [hout hx]
    unfold Agree
    rw [sub_self]
    exact dvd_zero _

/-- C86 (any field).  At an interior knot `x` of multiplicity `s` the polynomial pieces on both sides agree with all their derivatives up to
order `p - s`: those of every sum `Σ N w f(P)`, and those of the quotients of two such sums by the quotient rule. -/
theorem C86_pieces_meet {p : ℕ} {c : Curve K} (hw : WFCurve p c) {x : K} (h0 : 0 < x) (h1 : x < 1) {J : ℕ} (hJ : IsSpan c.Knots.Values x J)
    {r : ℕ} (hm : x ∈ c.Knots.Values → c.Knots.Values.count x + r ≤ p) (f g : Vec4 K → K) :
    ∃ j, kn c.Knots.Values j < x ∧ x ≤ kn c.Knots.Values (j + 1) ∧ ∃ A B V W : K[X],
      IsPiece c.Knots.Values j (fun t => wsum p c t f) A ∧ IsPiece c.Knots.Values J (fun t => wsum p c t f) B ∧
      IsPiece c.Knots.Values j (fun t => wsum p c t g) V ∧ IsPiece c.Knots.Values J (fun t => wsum p c t g) W ∧
      ∀ m ≤ r, (derivative^[m] A).eval x = (derivative^[m] B).eval x ∧ quotDeriv A V m x = quotDeriv B W m x := by
  obtain ⟨hpJ, hlJ, -, -, -⟩ := evaluate_seg hw h0.le h1.le hJ
  obtain ⟨j, hpj, hlj, hjx, hxj, hag⟩ := curve_meet hw h0 h1 hJ hm
  refine ⟨j, hjx, hxj, _, _, _, _, wsumP_piece hw hpj hlj f, wsumP_piece hw hpJ hlJ f, wsumP_piece hw hpj hlj g,
    wsumP_piece hw hpJ hlJ g, fun m hm => ⟨?_, (hag f).quotDeriv (hag g) hm⟩⟩
  have := (hag f).mono (m := m + 1) (by omega)
  clear hm
  generalize wsumP p c j f = A at *
  generalize wsumP p c J f = B at *
  clear hag
  have key : ∀ n m : ℕ, ∀ A B : K[X], Agree x (n + m) A B → Agree x n (derivative^[m] A) (derivative^[m] B) := by
    intro n m
    induction m with
    | zero => intro A B h; exact h
    | succ m ih => intro A B h; exact ih _ _ (Agree.derivative (by rwa [← Nat.add_assoc] at h))
  exact (key 1 m A B (by rwa [Nat.add_comm])).eval (n := 0)

end algebra

section real
open Set

/-- Everything about one coordinate of a curve around an interior parameter. -/
theorem coord_smooth {p : ℕ} {c : Curve ℝ} (hw : WFCurve p c) {x : ℝ} (h0 : 0 < x) (h1 : x < 1) {J : ℕ} (hJ : IsSpan c.Knots.Values x J)
    {r : ℕ} (hm : x ∈ c.Knots.Values → c.Knots.Values.count x + r ≤ p) (f : Vec4 ℝ → ℝ) :
    ContDiffAt ℝ r (fun t => wsum p c t f / wsum p c t fun _ => 1) x ∧
    ∀ m ≤ r, iteratedDeriv m (fun t => wsum p c t f / wsum p c t fun _ => 1) x =
      quotDeriv (wsumP p c J f) (wsumP p c J fun _ => 1) m x := by
  have hc := hw.clamped
  obtain ⟨hpJ, hlJ, -, -, -⟩ := evaluate_seg hw h0.le h1.le hJ
  obtain ⟨j, hpj, hlj, hjx, hxj, hag⟩ := curve_meet hw h0 h1 hJ hm
  have hxJ : x < kn c.Knots.Values (J + 1) := by
    rcases hJ.2.2 with h | h
    · exact h
    · exact absurd h.1 h1.ne
  have sj : ∀ t, kn c.Knots.Values j < t → t < x → IsSpan c.Knots.Values t j := fun t ht1 ht2 =>
    ⟨by omega, ht1.le, .inl (ht2.trans_le hxj)⟩
  have sJ : ∀ t, x ≤ t → t < kn c.Knots.Values (J + 1) → IsSpan c.Knots.Values t J := fun t ht1 ht2 =>
    ⟨by omega, hJ.2.1.trans ht1, .inl ht2⟩
  have pos : ∀ {k t}, IsSpan c.Knots.Values t k → p ≤ k → k + p + 2 ≤ c.Knots.Values.length →
      0 < (wsumP p c k fun _ => 1).eval t := by
    intro k t ht hpk hlk
    rw [← wsumP_piece hw hpk hlk _ t ht]
    have := hc.nonneg (i := k) (by omega)
    exact (C23_evaluate hw (this.trans ht.2.1) ((IsSpan.le_right ht).trans (hc.le_one (by omega)))).2
  have wj : ∀ t, kn c.Knots.Values j < t → t ≤ x → (wsumP p c j fun _ => 1).eval t ≠ 0 := by
    intro t ht1 ht2
    rcases ht2.lt_or_eq with ht2 | rfl
    · exact (pos (sj t ht1 ht2) hpj hlj).ne'
    · rw [(hag fun _ => 1).eval]
      exact (pos hJ hpJ hlJ).ne'
  have wJ : ∀ t, x ≤ t → t < kn c.Knots.Values (J + 1) → (wsumP p c J fun _ => 1).eval t ≠ 0 := fun t ht1 ht2 =>
    (pos (sJ t ht1 ht2) hpJ hlJ).ne'
  have ha : ∀ t, kn c.Knots.Values j < t → t < x → (fun t => wsum p c t f / wsum p c t fun _ => 1) t =
      quotDeriv (wsumP p c j f) (wsumP p c j fun _ => 1) 0 t := by
    intro t ht1 ht2
    simp only [quotDeriv, quotNum, Nat.zero_add, pow_one]
    rw [← wsumP_piece hw hpj hlj f t (sj t ht1 ht2), ← wsumP_piece hw hpj hlj _ t (sj t ht1 ht2)]
  have hb : ∀ t, x ≤ t → t < kn c.Knots.Values (J + 1) → (fun t => wsum p c t f / wsum p c t fun _ => 1) t =
      quotDeriv (wsumP p c J f) (wsumP p c J fun _ => 1) 0 t := by
    intro t ht1 ht2
    simp only [quotDeriv, quotNum, Nat.zero_add, pow_one]
    rw [← wsumP_piece hw hpJ hlJ f t (sJ t ht1 ht2), ← wsumP_piece hw hpJ hlJ _ t (sJ t ht1 ht2)]
  have da := fun s t ht1 ht2 => quotDeriv_hasDerivAt (wsumP p c j f) (wsumP p c j fun _ => 1) s (wj t ht1 ht2)
  have db := fun s t ht1 ht2 => quotDeriv_hasDerivAt (wsumP p c J f) (wsumP p c J fun _ => 1) s (wJ t ht1 ht2)
  have hx : ∀ s ≤ r, quotDeriv (wsumP p c j f) (wsumP p c j fun _ => 1) s x = quotDeriv (wsumP p c J f) (wsumP p c J fun _ => 1) s x :=
    fun s hs => (hag f).quotDeriv (hag _) hs
  exact ⟨glue_contDiff hjx hxJ ha hb da db hx, fun m hm => (glue hjx hxJ ha hb da db hx m hm).2 x le_rfl hxJ⟩

/-- C86 over the reals.  At every interior parameter, knots included, where the multiplicity leaves room for `order` derivatives, each
coordinate of the curve is `order` times continuously differentiable and `Curve::EvaluateAll` returns the derivatives of analysis. -/
theorem C86_curve_smooth {p : ℕ} {c : Curve ℝ} (hw : WFCurve p c) {x : ℝ} (h0 : 0 < x) (h1 : x < 1) {order : ℕ} (ho : order ≤ 29)
    (hm : x ∈ c.Knots.Values → c.Knots.Values.count x + order ≤ p) :
    ContDiffAt ℝ order (fun t => (nurbsPoint p c t).x) x ∧ ContDiffAt ℝ order (fun t => (nurbsPoint p c t).y) x ∧
    ContDiffAt ℝ order (fun t => (nurbsPoint p c t).z) x ∧
    ∃ ds, c.EvaluateAll x order = .ok ds ∧ ds.length = order + 1 ∧ ∀ m ≤ order, ds[m]? =
      some ⟨iteratedDeriv m (fun t => (nurbsPoint p c t).x) x, iteratedDeriv m (fun t => (nurbsPoint p c t).y) x,
        iteratedDeriv m (fun t => (nurbsPoint p c t).z) x⟩ := by
  have hc := hw.clamped
  obtain ⟨J, X, Y, Z, W, ds, hJ, hX, hY, hZ, hW, _, he, hlen, hds, _⟩ := C29_evaluateAll_partial hw h0.le h1.le order ho
  obtain ⟨hpJ, hlJ, -, -, -⟩ := evaluate_seg hw h0.le h1.le hJ
  have eX := C22_piece_unique hc hJ hX (wsumP_piece hw hpJ hlJ _)
  have eY := C22_piece_unique hc hJ hY (wsumP_piece hw hpJ hlJ _)
  have eZ := C22_piece_unique hc hJ hZ (wsumP_piece hw hpJ hlJ _)
  have eW := C22_piece_unique hc hJ hW (wsumP_piece hw hpJ hlJ _)
  obtain ⟨sx, dx⟩ := coord_smooth hw h0 h1 hJ hm (·.x)
  obtain ⟨sy, dy⟩ := coord_smooth hw h0 h1 hJ hm (·.y)
  obtain ⟨sz, dz⟩ := coord_smooth hw h0 h1 hJ hm (·.z)
  refine ⟨sx, sy, sz, ds, he, hlen, fun m hm => ?_⟩
  rw [hds m hm, eX, eY, eZ, eW, ← dx m hm, ← dy m hm, ← dz m hm]
  rfl

/-- A function that is a quotient of polynomials on a span, continued to the domain. -/
theorem span_continuous {p : ℕ} {c : Curve ℝ} (hw : WFCurve p c) {r : ℕ}
    (hm : ∀ x ∈ c.Knots.Values, 0 < x → x < 1 → c.Knots.Values.count x + r ≤ p) (f : Vec4 ℝ → ℝ) {F : ℝ → ℝ}
    (hF : ∀ u k, 0 ≤ u → u ≤ 1 → IsSpan c.Knots.Values u k → F u = quotDeriv (wsumP p c k f) (wsumP p c k fun _ => 1) r u) :
    ContinuousOn F (Icc 0 1) := by
  have hc := hw.clamped
  have pos : ∀ {k t}, IsSpan c.Knots.Values t k → p ≤ k → k + p + 2 ≤ c.Knots.Values.length →
      (wsumP p c k fun _ => 1).eval t ≠ 0 := by
    intro k t ht hpk hlk
    rw [← wsumP_piece hw hpk hlk _ t ht]
    have := hc.nonneg (i := k) (by omega)
    exact (C23_evaluate hw (this.trans ht.2.1) ((IsSpan.le_right ht).trans (hc.le_one (by omega)))).2.ne'
  intro x hx
  obtain ⟨h0, h1⟩ := hx
  obtain ⟨J, hJ, hpJ, hlJ⟩ := exists_span hc h0 h1
  have hcont := (quotDeriv_hasDerivAt (wsumP p c J f) (wsumP p c J fun _ => 1) r (pos hJ hpJ hlJ)).continuousAt
  have right : x < 1 → ContinuousWithinAt F (Ici x) x := by
    intro hx1
    have hxJ : x < kn c.Knots.Values (J + 1) := hJ.2.2.resolve_right fun h => hx1.ne h.1
    refine hcont.continuousWithinAt.congr_of_eventuallyEq ?_ (hF x J h0 h1 hJ)
    filter_upwards [Ico_mem_nhdsGE hxJ] with t ht
    exact hF t J (h0.trans ht.1) (ht.2.le.trans (hc.le_one (by omega))) ⟨by omega, hJ.2.1.trans ht.1, .inl ht.2⟩
  have left : 0 < x → ContinuousWithinAt F (Iic x) x := by
    intro hx0
    rcases h1.lt_or_eq with hx1 | rfl
    · obtain ⟨j, hpj, hlj, hjx, hxj, hag⟩ := curve_meet hw hx0 hx1 hJ (fun hx => hm x hx hx0 hx1)
      have he := (hag f).quotDeriv (hag fun _ => 1) (le_refl r)
      have hW : (wsumP p c j fun _ => 1).eval x ≠ 0 := by
        rw [(hag fun _ => 1).eval]
        exact pos hJ hpJ hlJ
      refine (quotDeriv_hasDerivAt (wsumP p c j f) _ r hW).continuousAt.continuousWithinAt.congr_of_eventuallyEq ?_
        ((hF x J h0 h1 hJ).trans he.symm)
      filter_upwards [Ioc_mem_nhdsLE hjx] with t ht
      rcases ht.2.lt_or_eq with h | rfl
      · exact hF t j ((hc.nonneg (by omega)).trans ht.1.le) (ht.2.trans h1) ⟨by omega, ht.1.le, .inl (h.trans_le hxj)⟩
      · exact (hF t J h0 h1 hJ).trans he.symm
    · obtain ⟨-, hlt, he⟩ := hJ.2.2.resolve_left fun h => absurd (hc.le_one (i := J + 1) (by omega)) (not_le.2 h)
      refine hcont.continuousWithinAt.congr_of_eventuallyEq ?_ (hF 1 J h0 h1 hJ)
      filter_upwards [Ioc_mem_nhdsLE hlt] with t ht
      rcases ht.2.lt_or_eq with h | rfl
      · exact hF t J ((hc.nonneg (by omega)).trans ht.1.le) ht.2 ⟨by omega, ht.1.le, .inl (h.trans_eq he.symm)⟩
      · exact hF 1 J h0 h1 hJ
  rcases h0.lt_or_eq with hx0 | rfl
  · rcases h1.lt_or_eq with hx1 | rfl
    · exact (continuousAt_iff_continuous_left_right.2 ⟨left hx0, right hx1⟩).continuousWithinAt
    · exact (left hx0).mono Icc_subset_Iic_self
  · exact (right one_pos).mono Icc_subset_Ici_self

/-- C86, whole domain.  If every interior knot has multiplicity at most `p - order`, the derivative of that order returned by
`Curve::EvaluateDerivative` (order 0: the point returned by `Evaluate`) is a continuous function of the parameter on `[0,1]`. -/
theorem C86_derivative_continuous {p : ℕ} {c : Curve ℝ} (hw : WFCurve p c) {order : ℕ} (ho : order ≤ 29)
    (hm : ∀ x ∈ c.Knots.Values, 0 < x → x < 1 → c.Knots.Values.count x + order ≤ p) :
    ∃ F : ℝ → Vec3 ℝ, (∀ u, 0 ≤ u → u ≤ 1 → c.EvaluateDerivative u order = .ok (F u)) ∧
      (order = 0 → ∀ u, 0 ≤ u → u ≤ 1 → c.Evaluate u = .ok (F u)) ∧
      ContinuousOn (fun u => (F u).x) (Icc 0 1) ∧ ContinuousOn (fun u => (F u).y) (Icc 0 1) ∧ ContinuousOn (fun u => (F u).z) (Icc 0 1) := by
  have hc := hw.clamped
  have main : ∀ u, ∃ v : Vec3 ℝ, 0 ≤ u → u ≤ 1 → c.EvaluateDerivative u order = .ok v ∧ (order = 0 → c.Evaluate u = .ok v) ∧
      ∀ k, IsSpan c.Knots.Values u k → v = ⟨quotDeriv (wsumP p c k (·.x)) (wsumP p c k fun _ => 1) order u,
        quotDeriv (wsumP p c k (·.y)) (wsumP p c k fun _ => 1) order u, quotDeriv (wsumP p c k (·.z)) (wsumP p c k fun _ => 1) order u⟩ := by
    intro u
    by_cases hu : 0 ≤ u ∧ u ≤ 1
    · obtain ⟨h0, h1⟩ := hu
      obtain ⟨J, X, Y, Z, W, ds, hJ, hX, hY, hZ, hW, _, he, hlen, hds, hd⟩ := C29_evaluateAll_partial hw h0 h1 order ho
      obtain ⟨hpJ, hlJ, -, -, -⟩ := evaluate_seg hw h0 h1 hJ
      refine ⟨_, fun _ _ => ⟨hd, ?_, fun k hk => ?_⟩⟩
      · rintro rfl
        rw [(C23_evaluate hw h0 h1).1]
        simp only [quotDeriv, quotNum, Nat.zero_add, pow_one, ← hX u hJ, ← hY u hJ, ← hZ u hJ, ← hW u hJ]
        rfl
      · obtain rfl : k = J := isSpan_unique hc.sorted hk hJ (fun i hi => hc.le_one hi)
        rw [C22_piece_unique hc hJ hX (wsumP_piece hw hpJ hlJ _), C22_piece_unique hc hJ hY (wsumP_piece hw hpJ hlJ _),
          C22_piece_unique hc hJ hZ (wsumP_piece hw hpJ hlJ _), C22_piece_unique hc hJ hW (wsumP_piece hw hpJ hlJ _)]
    · exact ⟨⟨0, 0, 0⟩, fun h0 h1 => absurd ⟨h0, h1⟩ hu⟩
  choose F hF using main
  refine ⟨F, fun u h0 h1 => (hF u h0 h1).1, fun h u h0 h1 => (hF u h0 h1).2.1 h, ?_, ?_, ?_⟩
  · exact span_continuous hw hm (·.x) fun u k h0 h1 hk => by rw [(hF u h0 h1).2.2 k hk]
  · exact span_continuous hw hm (·.y) fun u k h0 h1 hk => by rw [(hF u h0 h1).2.2 k hk]
  · exact span_continuous hw hm (·.z) fun u k h0 h1 hk => by rw [(hF u h0 h1).2.2 k hk]

/-- Derivatives within a set, from a family of derivatives there. -/
theorem within_iteratedDeriv {f : ℝ → ℝ} {q : ℕ → ℝ → ℝ} {s : Set ℝ} (hs : UniqueDiffOn ℝ s) (h : ∀ t ∈ s, f t = q 0 t)
    (hd : ∀ m, ∀ t ∈ s, HasDerivAt (q m) (q (m + 1) t) t) (m : ℕ) : ∀ t ∈ s, iteratedDerivWithin m f s t = q m t := by
  induction m with
  | zero => simpa [iteratedDerivWithin_zero] using h
  | succ m ih =>
    intro t ht
    rw [iteratedDerivWithin_succ, derivWithin_congr ih (ih t ht)]
    exact (hd m t ht).hasDerivWithinAt.derivWithin (hs t ht)

/-- C86, one-sided derivatives.  For every parameter of `[0,1)` and every order up to 29, whatever the multiplicities are, what
`Curve::EvaluateAll` returns are the derivatives from the right: those of the curve restricted to an interval `[x, b)`. -/
theorem C86_from_the_right {p : ℕ} {c : Curve ℝ} (hw : WFCurve p c) {x : ℝ} (h0 : 0 ≤ x) (h1 : x < 1) (order : ℕ) (ho : order ≤ 29) :
    ∃ b, x < b ∧ b ≤ 1 ∧ ∃ ds, c.EvaluateAll x order = .ok ds ∧ ds.length = order + 1 ∧ ∀ m ≤ order, ds[m]? =
      some ⟨iteratedDerivWithin m (fun t => (nurbsPoint p c t).x) (Ico x b) x, iteratedDerivWithin m (fun t => (nurbsPoint p c t).y) (Ico x b) x,
        iteratedDerivWithin m (fun t => (nurbsPoint p c t).z) (Ico x b) x⟩ := by
  have hc := hw.clamped
  obtain ⟨J, X, Y, Z, W, ds, hJ, hX, hY, hZ, hW, _, he, hlen, hds, _⟩ := C29_evaluateAll_partial hw h0 h1.le order ho
  have hJl := hJ.1
  have hxJ : x < kn c.Knots.Values (J + 1) := hJ.2.2.resolve_right fun h => h1.ne h.1
  have hb1 := hc.le_one (i := J + 1) hJ.1
  have sp : ∀ t ∈ Ico x (kn c.Knots.Values (J + 1)), IsSpan c.Knots.Values t J := fun t ht => ⟨hJ.1, hJ.2.1.trans ht.1, .inl ht.2⟩
  have hne : ∀ t ∈ Ico x (kn c.Knots.Values (J + 1)), W.eval t ≠ 0 := fun t ht => by
    rw [← hW t (sp t ht)]
    exact (C23_evaluate hw (h0.trans ht.1) (ht.2.le.trans hb1)).2.ne'
  have key : ∀ (f : ℝ → ℝ) (A : ℝ[X]), (∀ t ∈ Ico x (kn c.Knots.Values (J + 1)), f t = A.eval t / W.eval t) → ∀ m,
      iteratedDerivWithin m f (Ico x (kn c.Knots.Values (J + 1))) x = quotDeriv A W m x := fun f A h m =>
    within_iteratedDeriv (q := quotDeriv A W) (uniqueDiffOn_Ico _ _)
      (fun t ht => by simp only [quotDeriv, quotNum, Nat.zero_add, pow_one]; exact h t ht)
      (fun m t ht => quotDeriv_hasDerivAt A W m (hne t ht)) m x ⟨le_rfl, hxJ⟩
  refine ⟨_, hxJ, hb1, ds, he, hlen, fun m hm => ?_⟩
  rw [hds m hm, key _ X _ m, key _ Y _ m, key _ Z _ m]
  · intro t ht; rw [← hZ t (sp t ht), ← hW t (sp t ht)]; rfl
  · intro t ht; rw [← hY t (sp t ht), ← hW t (sp t ht)]; rfl
  · intro t ht; rw [← hX t (sp t ht), ← hW t (sp t ht)]; rfl

/-- C86, one-sided derivatives: at 1 they are the derivatives from the left. -/
theorem C86_left_at_one {p : ℕ} {c : Curve ℝ} (hw : WFCurve p c) (order : ℕ) (ho : order ≤ 29) :
    ∃ a, 0 ≤ a ∧ a < 1 ∧ ∃ ds, c.EvaluateAll 1 order = .ok ds ∧ ds.length = order + 1 ∧ ∀ m ≤ order, ds[m]? =
      some ⟨iteratedDerivWithin m (fun t => (nurbsPoint p c t).x) (Ioc a 1) 1, iteratedDerivWithin m (fun t => (nurbsPoint p c t).y) (Ioc a 1) 1,
        iteratedDerivWithin m (fun t => (nurbsPoint p c t).z) (Ioc a 1) 1⟩ := by
  have hc := hw.clamped
  obtain ⟨J, X, Y, Z, W, ds, hJ, hX, hY, hZ, hW, _, he, hlen, hds, _⟩ := C29_evaluateAll_partial hw zero_le_one le_rfl order ho
  have hJl := hJ.1
  obtain ⟨-, hlt, heq⟩ := hJ.2.2.resolve_left fun h => absurd (hc.le_one (i := J + 1) (by omega)) (not_le.2 h)
  have ha0 := hc.nonneg (i := J) (by omega)
  have sp : ∀ t ∈ Ioc (kn c.Knots.Values J) 1, IsSpan c.Knots.Values t J := fun t ht => ⟨hJ.1, ht.1.le, by
    rcases ht.2.lt_or_eq with h | h
    · exact .inl (h.trans_eq heq.symm)
    · exact .inr ⟨h, hlt, heq⟩⟩
  have hne : ∀ t ∈ Ioc (kn c.Knots.Values J) 1, W.eval t ≠ 0 := fun t ht => by
    rw [← hW t (sp t ht)]
    exact (C23_evaluate hw (ha0.trans ht.1.le) ht.2).2.ne'
  have key : ∀ (f : ℝ → ℝ) (A : ℝ[X]), (∀ t ∈ Ioc (kn c.Knots.Values J) 1, f t = A.eval t / W.eval t) → ∀ m,
      iteratedDerivWithin m f (Ioc (kn c.Knots.Values J) 1) 1 = quotDeriv A W m 1 := fun f A h m =>
    within_iteratedDeriv (q := quotDeriv A W) (uniqueDiffOn_Ioc _ _)
      (fun t ht => by simp only [quotDeriv, quotNum, Nat.zero_add, pow_one]; exact h t ht)
      (fun m t ht => quotDeriv_hasDerivAt A W m (hne t ht)) m 1 ⟨hlt, le_rfl⟩
  refine ⟨_, ha0, hlt, ds, he, hlen, fun m hm => ?_⟩
  rw [hds m hm, key _ X _ m, key _ Y _ m, key _ Z _ m]
  · intro t ht; rw [← hZ t (sp t ht), ← hW t (sp t ht)]; rfl
  · intro t ht; rw [← hY t (sp t ht), ← hW t (sp t ht)]; rfl
  · intro t ht; rw [← hX t (sp t ht), ← hW t (sp t ht)]; rfl

/-- C86 for the basis.  At every interior parameter, knots included, where the multiplicity leaves room for `order` derivatives, the basis
functions are `order` times continuously differentiable and the rows of `BSplineBasis::EvaluateAll` are their derivatives. -/
theorem C86_basis_smooth {p : ℕ} {l : List ℝ} (hc : Clamped p l) {x : ℝ} (h0 : 0 < x) (h1 : x < 1) {order : ℕ}
    (hm : x ∈ l → l.count x + order ≤ p) :
    (∀ i, i + p + 1 < l.length → ContDiffAt ℝ order (fun t => N (kn l) t p i) x) ∧
    ∃ k rows, IsSpan l x k ∧ BSplineBasis.EvaluateAll p ⟨l⟩ x order = .ok rows ∧ ∀ r ≤ order, ∃ row, rows[r]? = some row ∧
      ∀ n ≤ p, row[n]? = some (iteratedDeriv r (fun t => N (kn l) t p (k - p + n)) x) := by
  obtain ⟨J, rows, hJ, hpJ, hlJ, he, _, hrows⟩ := C22_evaluateAll hc h0.le h1.le order
  obtain ⟨j, hpj, hmeet, hlt, hjx, hxj, hin, hout⟩ := exists_meet hc h0 hJ h1
  have := hmeet.le
  have hreg : RegSpan (kn l) J p := regSpan_of_sorted hc.sorted (IsSpan.lt hJ) (by omega)
  have hregj : RegSpan (kn l) j p := regSpan_of_sorted hc.sorted hlt (by omega)
  have hxJ : x < kn l (J + 1) := hJ.2.2.resolve_right fun h => h1.ne h.1
  have hag : ∀ i, ∀ s ≤ order, (derivative^[s] (NlP (kn l) j p i)).eval x = (derivative^[s] (NlP (kn l) J p i)).eval x := by
    intro i s hs
    by_cases hx : x ∈ l
    · have h2 := hin hx
      have h3 := hm hx
      exact hmeet.deriv (by omega) hregj hreg i
    · rw [hout hx]
  have ha : ∀ i, i + p + 1 < l.length → ∀ t, kn l j < t → t < x → N (kn l) t p i = (derivative^[0] (NlP (kn l) j p i)).eval t :=
    fun i hi t ht1 ht2 => N_piece hc hi t ⟨by omega, ht1.le, .inl (ht2.trans_le hxj)⟩
  have hb : ∀ i, i + p + 1 < l.length → ∀ t, x ≤ t → t < kn l (J + 1) → N (kn l) t p i = (derivative^[0] (NlP (kn l) J p i)).eval t :=
    fun i hi t ht1 ht2 => N_piece hc hi t ⟨by omega, hJ.2.1.trans ht1, .inl ht2⟩
  have hd : ∀ (P : ℝ[X]) (s : ℕ) (t : ℝ), HasDerivAt (fun t => (derivative^[s] P).eval t) ((derivative^[s + 1] P).eval t) t := by
    intro P s t
    rw [Function.iterate_succ_apply']
    exact (derivative^[s] P).hasDerivAt t
  refine ⟨fun i hi => glue_contDiff (fa := fun s t => (derivative^[s] (NlP (kn l) j p i)).eval t)
    (fb := fun s t => (derivative^[s] (NlP (kn l) J p i)).eval t) hjx hxJ (ha i hi) (hb i hi) (fun s t _ _ => hd _ s t)
    (fun s t _ _ => hd _ s t) (hag i), J, rows, hJ, he, fun r hr => ?_⟩
  obtain ⟨row, e, _, hrow⟩ := hrows r hr
  refine ⟨row, e, fun n hn => ?_⟩
  obtain ⟨P, hP, hv⟩ := hrow n hn
  have hi : J - p + n + p + 1 < l.length := by omega
  rw [hv, C22_piece_unique hc hJ hP (N_piece hc hi)]
  exact congrArg some ((glue (fa := fun s t => (derivative^[s] (NlP (kn l) j p (J - p + n))).eval t)
    (fb := fun s t => (derivative^[s] (NlP (kn l) J p (J - p + n))).eval t) hjx hxJ (ha _ hi) (hb _ hi) (fun s t _ _ => hd _ s t)
    (fun s t _ _ => hd _ s t) (hag _) r hr).2 x le_rfl hxJ).symm

/-! ### The condition on the multiplicities -/

/-- A parabola bent into another one: degree 2, one simple interior knot. -/
noncomputable def exParabolas : Curve ℝ := ⟨2, ⟨[0, 0, 0, 1/2, 1, 1, 1]⟩, [⟨0, 0, 0, 1⟩, ⟨1, 0, 0, 2⟩, ⟨2, 1, 0, 1⟩, ⟨2, 2, 1, 3⟩]⟩

theorem exParabolas_wf : WFCurve 2 exParabolas where
  degree := rfl
  clamped := by
    constructor
    · simp [exParabolas]
    · simp [exParabolas]; norm_num
    · intro i hi; interval_cases i <;> rfl
    · intro i hi h
      simp only [exParabolas, List.length_cons, List.length_nil] at hi h
      interval_cases i <;> first | rfl | omega
    · simp [exParabolas, kn]
    · simp [exParabolas, kn]; norm_num
  count := rfl
  weights := by
    intro i hi
    simp only [exParabolas, List.length_cons, List.length_nil] at hi
    interval_cases i <;> simp [exParabolas, pt]

/-- The curve has a continuous first derivative on the whole domain, the knot included. -/
example : ∃ F : ℝ → Vec3 ℝ, (∀ u, 0 ≤ u → u ≤ 1 → exParabolas.EvaluateDerivative u 1 = .ok (F u)) ∧ ContinuousOn (fun u => (F u).x) (Icc 0 1) := by
  obtain ⟨F, h1, -, h2, -, -⟩ := C86_derivative_continuous exParabolas_wf (order := 1) (by omega) (by
    intro x hx h0 h1
    simp only [exParabolas, List.mem_cons, List.not_mem_nil, or_false] at hx
    obtain rfl : x = 1/2 := by
      rcases hx with h | h | h | h | h | h | h <;> first | exact h | (subst h; exact absurd h0 (lt_irrefl _)) | (subst h; exact absurd h1 (lt_irrefl _))
    norm_num [exParabolas, List.count_cons])
  exact ⟨F, h1, h2⟩

/-- At its knot it has a first derivative, and that is what is computed. -/
example : ContDiffAt ℝ 1 (fun t => (nurbsPoint 2 exParabolas t).y) (1/2) ∧ ∃ ds, exParabolas.EvaluateAll (1/2) 1 = .ok ds ∧
    ∀ m ≤ 1, ds[m]? = some ⟨iteratedDeriv m (fun t => (nurbsPoint 2 exParabolas t).x) (1/2),
      iteratedDeriv m (fun t => (nurbsPoint 2 exParabolas t).y) (1/2), iteratedDeriv m (fun t => (nurbsPoint 2 exParabolas t).z) (1/2)⟩ := by
  obtain ⟨-, h, -, ds, h1, -, h2⟩ := C86_curve_smooth exParabolas_wf (x := 1/2) (by norm_num) (by norm_num) (order := 1) (by omega)
    (fun _ => by norm_num [exParabolas, List.count_cons])
  exact ⟨h, ds, h1, h2⟩

example : ContDiffAt ℝ 1 (fun t : ℝ => N (kn [0, 0, 0, 1/2, 1, 1, 1]) t 2 1) (1/2) :=
  (C86_basis_smooth exParabolas_wf.clamped (x := 1/2) (by norm_num) (by norm_num) (order := 1)
    (fun _ => by norm_num [exParabolas, List.count_cons])).1 1 (by simp [exParabolas])

/-- The second derivative at the knot is the one from the right. -/
example : ∃ b : ℝ, 1/2 < b ∧ b ≤ 1 ∧ ∃ ds, exParabolas.EvaluateAll (1/2) 2 = .ok ds ∧ ∀ m ≤ 2, ds[m]? =
      some ⟨iteratedDerivWithin m (fun t => (nurbsPoint 2 exParabolas t).x) (Ico (1/2) b) (1/2),
        iteratedDerivWithin m (fun t => (nurbsPoint 2 exParabolas t).y) (Ico (1/2) b) (1/2),
        iteratedDerivWithin m (fun t => (nurbsPoint 2 exParabolas t).z) (Ico (1/2) b) (1/2)⟩ := by
  obtain ⟨b, h1, h2, ds, h3, -, h4⟩ := C86_from_the_right exParabolas_wf (x := 1/2) (by norm_num) (by norm_num) 2 (by omega)
  exact ⟨b, h1, h2, ds, h3, h4⟩

/-- A polyline with a corner: degree 1, one simple interior knot. -/
noncomputable def exCorner : Curve ℝ := ⟨1, ⟨[0, 0, 1/2, 1, 1]⟩, [⟨0, 0, 0, 1⟩, ⟨1, 0, 0, 1⟩, ⟨1, 1, 0, 1⟩]⟩

theorem exCorner_wf : WFCurve 1 exCorner where
  degree := rfl
  clamped := by
    constructor
    · simp [exCorner]
    · simp [exCorner]; norm_num
    · intro i hi; interval_cases i <;> rfl
    · intro i hi h
      simp only [exCorner, List.length_cons, List.length_nil] at hi h
      interval_cases i <;> first | rfl | omega
    · simp [exCorner, kn]
    · simp [exCorner, kn]; norm_num
  count := rfl
  weights := by
    intro i hi
    simp only [exCorner, List.length_cons, List.length_nil] at hi
    interval_cases i <;> simp [exCorner, pt]

theorem exCorner_left {t : ℝ} (h0 : 0 < t) (h1 : t < 1/2) : (nurbsPoint 1 exCorner t).x = 2 * t := by
  have h2 : t < 1 := h1.trans (by norm_num)
  have h3 : ¬ (1/2 : ℝ) ≤ t := not_le.2 h1
  have h3' : ¬ (2⁻¹ : ℝ) ≤ t := by simpa using h3
  have h4 : t < 2⁻¹ := by simpa using h1
  simp only [nurbsPoint, wsum, exCorner, List.length_cons, List.length_nil, Finset.sum_range_succ, Finset.sum_range_zero]
  norm_num [N, kn, pt, h0.le, h1, h2, h2.ne, h3, h3', h4, h0, not_lt.2 h0.le]
  field_simp
  ring

theorem exCorner_right {t : ℝ} (h0 : 1/2 < t) (h1 : t < 1) : (nurbsPoint 1 exCorner t).x = 1 := by
  have h2 : 0 < t := lt_trans (by norm_num) h0
  have h3 : ¬ t < (1/2 : ℝ) := not_lt.2 h0.le
  have h3' : ¬ t < (2⁻¹ : ℝ) := by simpa using h3
  have h4 : (2⁻¹ : ℝ) ≤ t := by simpa using h0.le
  simp only [nurbsPoint, wsum, exCorner, List.length_cons, List.length_nil, Finset.sum_range_succ, Finset.sum_range_zero]
  norm_num [N, kn, pt, h0.le, h1, h1.ne, h2, h3, h3', h4, h2.le, not_lt.2 h2.le]
  field_simp
  ring_nf
  norm_num

theorem exCorner_derivative {F : Vec3 ℝ} {x a b e : ℝ} {k : ℕ} (hk : k + 1 < 5) (h1 : kn exCorner.Knots.Values k < x)
    (h2 : x < kn exCorner.Knots.Values (k + 1)) (hF : exCorner.EvaluateDerivative x 1 = .ok F) (ha : a < x) (hb : x < b)
    (h : ∀ t, a < t → t < b → (nurbsPoint 1 exCorner t).x = e * t + (nurbsPoint 1 exCorner x).x - e * x) : F.x = e := by
  obtain ⟨ds, he, _, hds⟩ := C29_evaluateAll_real_partial exCorner_wf hk h1 h2 1 (by omega)
  unfold Curve.EvaluateDerivative at hF
  rw [show exCorner.EvaluateAll x 1 = .ok ds from he, bind_ok, vget_of ds 1 1 _ rfl (hds 1 le_rfl)] at hF
  injection hF with hF
  rw [← hF, iteratedDeriv_one]
  have : (fun t => (nurbsPoint 1 exCorner t).x) =ᶠ[nhds x] fun t => e * t + (nurbsPoint 1 exCorner x).x - e * x := by
    filter_upwards [Ioo_mem_nhds ha hb] with t ht
    exact h t ht.1 ht.2
  rw [this.deriv_eq]
  simp

/-- C86: the condition on the multiplicities cannot be left out.  At a knot of multiplicity 1 the first derivative of a curve of degree 1
jumps. -/
theorem C86_multiplicity_needed : WFCurve 1 exCorner ∧ ¬ ∃ F : ℝ → Vec3 ℝ,
    (∀ u, 0 ≤ u → u ≤ 1 → exCorner.EvaluateDerivative u 1 = .ok (F u)) ∧ ContinuousOn (fun u => (F u).x) (Icc 0 1) := by
  refine ⟨exCorner_wf, fun ⟨F, hF, hcont⟩ => ?_⟩
  have hl : ∀ t ∈ Ioo (0 : ℝ) (1/2), (F t).x = 2 := fun t ht =>
    exCorner_derivative (k := 1) (by omega) ht.1 ht.2 (hF t ht.1.le (ht.2.le.trans (by norm_num))) ht.1 ht.2 fun s h1 h2 => by
      rw [exCorner_left h1 h2, exCorner_left ht.1 ht.2]; ring
  have hr : ∀ t ∈ Ioo (1/2 : ℝ) 1, (F t).x = 0 := fun t ht =>
    exCorner_derivative (k := 2) (by omega) ht.1 ht.2 (hF t (le_trans (by norm_num) ht.1.le) ht.2.le) ht.1 ht.2 fun s h1 h2 => by
      rw [exCorner_right h1 h2, exCorner_right ht.1 ht.2]; ring
  have hc : ContinuousAt (fun u => (F u).x) (1/2) := (hcont (1/2) (by norm_num)).continuousAt (Icc_mem_nhds (by norm_num) (by norm_num))
  have e1 : (F (1/2)).x = 2 := tendsto_nhds_unique (hc.tendsto.mono_left nhdsWithin_le_nhds)
    (tendsto_const_nhds.congr' (by
      filter_upwards [Ioo_mem_nhdsLT (show (0 : ℝ) < 1/2 by norm_num)] with t ht
      exact (hl t ht).symm))
  have e2 : (F (1/2)).x = 0 := tendsto_nhds_unique (hc.tendsto.mono_left nhdsWithin_le_nhds)
    (tendsto_const_nhds.congr' (by
      filter_upwards [Ioo_mem_nhdsGT (show (1/2 : ℝ) < 1 by norm_num)] with t ht
      exact (hr t ht).symm))
  linarith

end real

end Nurbs.Props
