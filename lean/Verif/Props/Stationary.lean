import Verif.Proof.Stationary
import Verif.Props.Bisect
import Mathlib.Data.Real.Sqrt

/-! # C78, C79: where the descent searches end -/

set_option linter.unusedSectionVars false

namespace Nurbs.Props
open Nurbs Nurbs.Spec

variable {K : Type} [Field K] [LinearOrder K] [IsStrictOrderedRing K]

/-- Half the derivative of the squared distance to `P`, at a point `C` that moves with velocity `D`. -/
def slope (C P D : Vec3 K) : K := (C.x - P.x) * D.x + (C.y - P.y) * D.y + (C.z - P.z) * D.z

/-- The slope `g` gives no way down from `u` inside `[0,1]`: it vanishes, or `u` is the end of the domain towards which it falls. -/
def NoWayDown (u g : K) : Prop := g = 0 ∨ (u = 0 ∧ 0 ≤ g) ∨ (u = 1 ∧ g ≤ 0)

theorem dbl_ge : (9000000000000000 : K) ≤ (2 ^ 53 - 1) * 2 ^ 971 :=
  calc (9000000000000000 : K) ≤ (2 ^ 53 - 1) * 1 := by norm_num
    _ ≤ _ := mul_le_mul_of_nonneg_left (one_le_pow₀ (by norm_num)) (by norm_num)

/-- C78 for curves, **partial**: a start without a way down is returned unchanged.
Missing for the full C78 (the result is never farther from the point than the start): the other starts, where it is false,
see `C78_curve_refuted`. -/
theorem C78_curve_partial [Archimedean K] (sqrt : K → K) {p : ℕ} {c : Curve K} (hw : WFCurve p c) (P : Vec3 K) {init : K}
    (h0 : 0 ≤ init) (h1 : init ≤ 1) {C D : Vec3 K} (hC : c.Evaluate init = .ok C) (hD : c.EvaluateDerivative init 1 = .ok D)
    (hs : NoWayDown init (slope C P D)) {eps : K} (he : eps ≤ (2 ^ 53 - 1) * 2 ^ 971) (limit : K) :
    ∃ n fuel₀, ∀ fuel ≥ fuel₀, c.SearchParameter sqrt fuel P init eps limit = .ok (init, n) := by
  obtain ⟨r, n, -, fuel₀, h, -⟩ := C42_searchParameter sqrt hw P h0 h1 he limit
  have hg : c.searchGradient P init = .ok (slope C P D) := by
    unfold Curve.searchGradient
    rw [hC, bind_ok, hD, bind_ok]
    rfl
  refine ⟨n, fuel₀, fun fuel hf => ?_⟩
  have e := h fuel hf
  rw [e]
  unfold Curve.SearchParameter at e
  obtain ⟨x, e1, e2⟩ := bind_eq_ok.1 e
  have e3 := bfgsLoop1_stuck (residual_eq sqrt hC) hg h0 h1 20 eps limit fuel 0 _ _ (Or.inr ⟨zero_le_one, hs⟩) x e1
  have e4 : x.1.1 = r := congrArg Prod.fst (Except.ok.inj e2)
  rw [← e4, e3]

/-- C78 for curves, **partial**: a search that stops before the limit is not farther away than the start or `epsilon`. -/
theorem C78_curve_early_partial [Archimedean K] (sqrt : K → K) {p : ℕ} {c : Curve K} (hw : WFCurve p c) (P : Vec3 K) {init : K}
    (h0 : 0 ≤ init) (h1 : init ≤ 1) {eps : K} (he : eps ≤ (2 ^ 53 - 1) * 2 ^ 971) (limit : K) :
    ∃ r n C C' fuel₀, (∀ fuel ≥ fuel₀, c.SearchParameter sqrt fuel P init eps limit = .ok (r, n)) ∧ c.Evaluate init = .ok C ∧
      c.Evaluate r = .ok C' ∧ ((n : K) < limit → distance sqrt C' P ≤ max (distance sqrt C P) eps) := by
  obtain ⟨r, n, C', fuel₀, h, _, _, _, hC', hd⟩ := C42_searchParameter sqrt hw P h0 h1 he limit
  exact ⟨r, n, _, C', fuel₀, h, (C23_evaluate hw h0 h1).1, hC', fun hn => (hd hn).le.trans (le_max_right _ _)⟩

/-- The curve goes along `x = 0 … 10 … 8`. -/
def exBack : Curve ℚ := ⟨1, ⟨[0, 0, 1/2, 1, 1]⟩, [⟨0, 0, 0, 1⟩, ⟨10, 0, 0, 1⟩, ⟨8, 0, 0, 1⟩]⟩

theorem exBack_wf : WFCurve 1 exBack :=
  ⟨rfl, ⟨by decide +kernel, by decide +kernel, by decide +kernel, by decide +kernel, by decide +kernel,
    by decide +kernel⟩, rfl, by decide +kernel⟩

/-- A square root that is exact for the numbers occurring in the refutation (1 and 9). -/
def exRoot (t : ℚ) : ℚ := if t = 9 then 3 else t

/-- C78 is false of the code: from `1/5`, where the distance is 1, the first step jumps to the end of the curve, where it is 3,
and the search stays there (every tolerance up to 1 and every limit above 0). -/
theorem C78_curve_refuted : exBack.Evaluate (1/5) = .ok ⟨4, 0, 0⟩ ∧ exBack.Evaluate 1 = .ok ⟨8, 0, 0⟩ ∧
    distance exRoot (⟨4, 0, 0⟩ : Vec3 ℚ) ⟨5, 0, 0⟩ = 1 ∧ distance exRoot (⟨8, 0, 0⟩ : Vec3 ℚ) ⟨5, 0, 0⟩ = 3 ∧
    ∀ eps limit : ℚ, eps ≤ 1 → 0 < limit →
      ∃ n fuel₀, ∀ fuel ≥ fuel₀, exBack.SearchParameter exRoot fuel ⟨5, 0, 0⟩ (1/5) eps limit = .ok (1, n) := by
  refine ⟨by decide +kernel, by decide +kernel, by decide +kernel, by decide +kernel, fun eps limit he hl => ?_⟩
  have hbig : (1 : ℚ) ≤ (2 ^ 53 - 1) * 2 ^ 971 := by
    exact le_trans (by norm_num) dbl_ge
  obtain ⟨r, n, -, fuel₀, h, -⟩ := C42_searchParameter (K := ℚ) exRoot exBack_wf ⟨5, 0, 0⟩ (init := 1/5) (by norm_num) (by norm_num)
    (he.trans hbig) limit
  refine ⟨n, fuel₀, fun fuel hf => ?_⟩
  have e := h fuel hf
  rw [e]
  unfold Curve.SearchParameter at e
  obtain ⟨x, e1, e2⟩ := bind_eq_ok.1 e
  have hs : Search.bfgsStep1 (exBack.residual exRoot ⟨5, 0, 0⟩) (exBack.searchGradient ⟨5, 0, 0⟩) 20 (1/5, Search.dblMax, 1) =
      .ok (1, 3, 1/10) := by decide +kernel
  have e4 : x.1.1 = r := congrArg Prod.fst (Except.ok.inj e2)
  cases fuel with
  | zero => simp [Search.bfgsLoop1] at e1
  | succ fuel =>
    unfold Search.bfgsLoop1 at e1
    rw [if_neg (by rw [dblMax_eq]; exact not_lt.2 (he.trans hbig)), if_neg (by push_cast; exact not_le.2 hl), hs, bind_ok] at e1
    have e3 := bfgsLoop1_stuck (norm := exBack.residual exRoot ⟨5, 0, 0⟩) (fi := exBack.searchGradient ⟨5, 0, 0⟩) (u := 1) (R := 3) (g := -12)
      (by decide +kernel) (by decide +kernel) zero_le_one le_rfl 20 eps limit fuel _ _ _
      (Or.inr ⟨by norm_num, Or.inr (Or.inr ⟨rfl, by norm_num⟩)⟩) x e1
    rw [← e4, e3]

/-- The curve of the refutation from a start that is kept. -/
example : NoWayDown (1/4 : ℚ) (slope ⟨5, 0, 0⟩ ⟨5, 1, 0⟩ ⟨20, 0, 0⟩) ∧ exBack.Evaluate (1/4) = .ok ⟨5, 0, 0⟩ ∧
    exBack.EvaluateDerivative (1/4) 1 = .ok ⟨20, 0, 0⟩ ∧ exBack.SearchParameter id 100 ⟨5, 1, 0⟩ (1/4) (1/100) 64 = .ok (1/4, 64) := by
  refine ⟨Or.inl (by norm_num [slope]), ?_⟩
  decide +kernel

/-- C78 for surfaces, **partial**: a start without a way down in either direction is returned unchanged. -/
theorem C78_surface_partial [Archimedean K] (sqrt : K → K) {p q m n : ℕ} {s : Surface K} (hw : WFSurface p q m n s) (P : Vec3 K)
    {u v : K} (hu0 : 0 ≤ u) (hu1 : u ≤ 1) (hv0 : 0 ≤ v) (hv1 : v ≤ 1) {C Du Dv : Vec3 K} (hC : s.Evaluate u v = .ok C)
    (hDu : s.EvaluateDerivative u v 1 0 = .ok Du) (hDv : s.EvaluateDerivative u v 0 1 = .ok Dv)
    (hsu : NoWayDown u (slope C P Du)) (hsv : NoWayDown v (slope C P Dv)) {eps : K} (he : eps ≤ (2 ^ 53 - 1) * 2 ^ 971) (limit : K) :
    ∃ i fuel₀, ∀ fuel ≥ fuel₀, s.SearchParameter sqrt fuel P u v eps limit = .ok ((u, v), i) := by
  obtain ⟨u', v', i, -, fuel₀, h, -⟩ := C51_searchParameter sqrt hw P hu0 hu1 hv0 hv1 he limit
  have hg : s.searchGradient P u v = .ok ⟨slope C P Du, slope C P Dv⟩ := by
    unfold Surface.searchGradient
    rw [hC, bind_ok, hDu, bind_ok, hDv, bind_ok]
    rfl
  refine ⟨i, fuel₀, fun fuel hf => ?_⟩
  have e := h fuel hf
  rw [e]
  unfold Surface.SearchParameter at e
  rw [massert_true ⟨hu0, hu1⟩, bind_ok, massert_true ⟨hv0, hv1⟩, bind_ok] at e
  obtain ⟨x, e1, e2⟩ := bind_eq_ok.1 e
  have e3 := bfgsLoop2_stuck (u := ⟨u, v⟩) (surface_residual_eq sqrt hC) hg ⟨hu0, hu1, hv0, hv1⟩ hsu hsv eps limit fuel 0 _ x e1
  have e4 : (x.1.1.x, x.1.1.y) = (u', v') := congrArg Prod.fst (Except.ok.inj e2)
  rw [← e4, e3]

/-- C78 for `SearchParameterOn`, **partial**: a start without a way down in the direction of the search is returned unchanged. -/
theorem C78_surfaceOn_partial [Archimedean K] (sqrt : K → K) {p q m n : ℕ} {s : Surface K} (hw : WFSurface p q m n s) (P : Vec3 K)
    {u v : K} (hu0 : 0 ≤ u) (hu1 : u ≤ 1) (hv0 : 0 ≤ v) (hv1 : v ≤ 1) {C Du Dv : Vec3 K} (hC : s.Evaluate u v = .ok C)
    (hDu : s.EvaluateDerivative u v 1 0 = .ok Du) (hDv : s.EvaluateDerivative u v 0 1 = .ok Dv) {eps : K}
    (he : eps ≤ (2 ^ 53 - 1) * 2 ^ 971) (limit : K) :
    (NoWayDown v (slope C P Dv) → ∃ i fuel₀, ∀ fuel ≥ fuel₀, s.SearchParameterOn sqrt fuel P 0 u v eps limit = .ok ((u, v), i)) ∧
    (NoWayDown u (slope C P Du) → ∃ i fuel₀, ∀ fuel ≥ fuel₀, s.SearchParameterOn sqrt fuel P 1 v u eps limit = .ok ((u, v), i)) := by
  constructor
  · intro hs
    obtain ⟨u', v', i, -, fuel₀, h, hu', -⟩ := C51_searchParameterOn sqrt hw P (d := 0) (Or.inl rfl) hu0 hu1 hv0 hv1 he limit
    have hn : s.residualOn sqrt P 0 u v = .ok (distance sqrt C P) := surface_residual_eq sqrt hC
    have hg : s.gradientOn P 0 u v = .ok (slope C P Dv) := by
      show (do let ri := (← s.Evaluate u v) - P; let Cu ← s.EvaluateDerivative u v 0 1; return ri.dot Cu) = _
      rw [hC, bind_ok, hDv, bind_ok]
      rfl
    refine ⟨i, fuel₀, fun fuel hf => ?_⟩
    have e := h fuel hf
    rw [e]
    unfold Surface.SearchParameterOn at e
    obtain ⟨x, e1, e2⟩ := bind_eq_ok.1 e
    have e3 := bfgsLoop1_stuck hn hg hv0 hv1 0 eps limit fuel 0 _ _ (Or.inr ⟨zero_le_one, hs⟩) x e1
    have e4 : (u, x.1.1) = (u', v') := congrArg Prod.fst (Except.ok.inj e2)
    rw [← e4, e3]
  · intro hs
    obtain ⟨u', v', i, -, fuel₀, h, -⟩ := C51_searchParameterOn sqrt hw P (d := 1) (Or.inr rfl) hv0 hv1 hu0 hu1 he limit
    have hn : s.residualOn sqrt P 1 v u = .ok (distance sqrt C P) := surface_residual_eq sqrt hC
    have hg : s.gradientOn P 1 v u = .ok (slope C P Du) := by
      show (do let ri := (← s.Evaluate u v) - P; let Cu ← s.EvaluateDerivative u v 1 0; return ri.dot Cu) = _
      rw [hC, bind_ok, hDu, bind_ok]
      rfl
    refine ⟨i, fuel₀, fun fuel hf => ?_⟩
    have e := h fuel hf
    rw [e]
    unfold Surface.SearchParameterOn at e
    obtain ⟨x, e1, e2⟩ := bind_eq_ok.1 e
    have e3 := bfgsLoop1_stuck hn hg hu0 hu1 0 eps limit fuel 0 _ _ (Or.inr ⟨zero_le_one, hs⟩) x e1
    have e4 : (x.1.1, v) = (u', v') := congrArg Prod.fst (Except.ok.inj e2)
    rw [← e4, e3]

/-- The point lies off the surface `(u, v, u v)`, on the normal at `(1/2, 1/2)`. -/
example : NoWayDown (1/2 : ℚ) (slope ⟨1/2, 1/2, 1/4⟩ ⟨0, 0, 5/4⟩ ⟨1, 0, 1/2⟩) ∧ NoWayDown (1/2 : ℚ) (slope ⟨1/2, 1/2, 1/4⟩ ⟨0, 0, 5/4⟩ ⟨0, 1, 1/2⟩) ∧
    exBilinear.Evaluate (1/2) (1/2) = .ok ⟨1/2, 1/2, 1/4⟩ ∧ exBilinear.EvaluateDerivative (1/2) (1/2) 1 0 = .ok ⟨1, 0, 1/2⟩ ∧
    exBilinear.EvaluateDerivative (1/2) (1/2) 0 1 = .ok ⟨0, 1, 1/2⟩ := by
  refine ⟨Or.inl (by norm_num [slope]), Or.inl (by norm_num [slope]), ?_⟩
  decide +kernel

/-! ### C79: straight lines -/

/-- If a quotient of polynomials is linear on a span, its derivative is the slope. -/
theorem line_quot {l : List K} {k : ℕ} {x : K} (hk : IsSpan l x k) {f w : K → K} {A W : Polynomial K} (hA : IsPiece l k f A)
    (hW : IsPiece l k w W) (hw : ∀ t, IsSpan l t k → w t ≠ 0) {α β : K} (hq : ∀ t, IsSpan l t k → f t / w t = α + t * (β - α))
    (hne : W.eval x ≠ 0) : quotDeriv A W 1 x = β - α := by
  have hA' : IsPiece l k f (W * (Polynomial.C α + Polynomial.X * Polynomial.C (β - α))) := by
    intro t ht
    simp only [Polynomial.eval_mul, Polynomial.eval_add, Polynomial.eval_C, Polynomial.eval_X]
    rw [← hW t ht, ← hq t ht, mul_div_cancel₀ _ (hw t ht)]
  rw [isPiece_unique (IsSpan.lt hk) hk.1 hA hA']
  unfold quotDeriv
  simp only [quotNum, Polynomial.derivative_mul, Polynomial.derivative_add, Polynomial.derivative_C, Polynomial.derivative_X,
    Polynomial.eval_sub, Polynomial.eval_mul, Polynomial.eval_add, Polynomial.eval_C, Polynomial.eval_X, Polynomial.eval_zero,
    Polynomial.eval_one, nsmul_eq_mul, Polynomial.eval_natCast]
  rw [div_eq_iff (by positivity)]
  push_cast
  ring

/-- The velocity of a curve that runs along a line with constant speed. -/
theorem line_derivative {p : ℕ} {c : Curve K} (hw : WFCurve p c) {a b : Vec3 K}
    (hl : ∀ x, 0 ≤ x → x ≤ 1 → nurbsPoint p c x = between a b x) {x : K} (h0 : 0 ≤ x) (h1 : x ≤ 1) :
    c.EvaluateDerivative x 1 = .ok (b - a) := by
  obtain ⟨k, X, Y, Z, W, ds, hk, hX, hY, hZ, hW, hpos, -, -, -, hd⟩ := C29_evaluateAll_partial hw h0 h1 1 (by omega)
  have key : ∀ (f : Vec4 K → K) (A : Polynomial K) (α β : K), IsPiece c.Knots.Values k (fun t => wsum p c t f) A →
      (∀ t, 0 ≤ t → t ≤ 1 → wsum p c t f / wsum p c t (fun _ => 1) = α + t * (β - α)) → quotDeriv A W 1 x = β - α := by
    intro f A α β hA hq
    have hmem : ∀ t, IsSpan c.Knots.Values t k → 0 ≤ t ∧ t ≤ 1 := fun t ht =>
      ⟨(hw.clamped.nonneg (by have := ht.1; omega)).trans ht.2.1, (IsSpan.le_right ht).trans (hw.clamped.le_one ht.1)⟩
    exact line_quot hk hA hW (fun t ht => (C23_evaluate hw (hmem t ht).1 (hmem t ht).2).2.ne')
      (fun t ht => hq t (hmem t ht).1 (hmem t ht).2) hpos.ne'
  rw [Nat.cast_one] at hd
  rw [hd, key _ X a.x b.x hX fun t t0 t1 => congrArg Vec3.x (hl t t0 t1), key _ Y a.y b.y hY fun t t0 t1 => congrArg Vec3.y (hl t t0 t1),
    key _ Z a.z b.z hZ fun t t0 t1 => congrArg Vec3.z (hl t t0 t1)]
  rfl

/-- A square root. -/
def IsRoot (sqrt : K → K) : Prop := ∀ x, 0 ≤ x → 0 ≤ sqrt x ∧ sqrt x ^ 2 = x

theorem clamp01_eq (x : K) : Search.clamp01 x = max 0 (min 1 x) := by
  unfold Search.clamp01
  split_ifs with h1 h2
  · rw [max_eq_left ((min_le_right _ _).trans h1.le)]
  · rw [min_eq_left h2.le, max_eq_right zero_le_one]
  · rw [min_eq_right (not_lt.1 h2), max_eq_right (not_lt.1 h1)]

theorem sq_le_5000 {x : K} (h : 0 ≤ x) : x ^ 2 ≤ 25000000 ↔ x ≤ 5000 := by
  constructor
  · intro hx
    by_contra hn
    nlinarith
  · intro hx
    nlinarith

theorem distSq_pos {a b : Vec3 K} (hab : a ≠ b) : 0 < distSq a b := by
  by_contra h
  unfold distSq at h
  refine hab (Vec3.ext ?_ ?_ ?_)
  · nlinarith [sq_nonneg (a.x - b.x), sq_nonneg (a.y - b.y), sq_nonneg (a.z - b.z)]
  · nlinarith [sq_nonneg (a.x - b.x), sq_nonneg (a.y - b.y), sq_nonneg (a.z - b.z)]
  · nlinarith [sq_nonneg (a.x - b.x), sq_nonneg (a.y - b.y), sq_nonneg (a.z - b.z)]

theorem distSq_le (a b P : Vec3 K) : distSq a b ≤ 2 * (distSq a P + distSq b P) := by
  unfold distSq
  linarith [sq_nonneg (a.x - P.x + (b.x - P.x)), sq_nonneg (a.y - P.y + (b.y - P.y)), sq_nonneg (a.z - P.z + (b.z - P.z))]

theorem armijo {f g E : K} (hf : 0 ≤ f) (hg : 0 ≤ g) (hf' : f ≤ 5000) (hg' : g ≤ 5000) (h : f ^ 2 = g ^ 2 + E) (hE : 0 ≤ E) :
    g ≤ f - 1 / 10000 * E := by
  have : g ≤ f := by nlinarith
  nlinarith

/-- C79: on a straight line `a + u (b - a)` the search ends exactly at the foot `m` of the perpendicular, or at a point closer than
`epsilon`, whenever it is allowed two iterations.  The ends lie within 5000 of the point (this makes the line search accept the full
step) and the first step is not tiny. -/
theorem C79_line [Archimedean K] {sqrt : K → K} (hr : IsRoot sqrt) {p : ℕ} {c : Curve K} (hw : WFCurve p c) {a b P : Vec3 K}
    (hl : ∀ x, 0 ≤ x → x ≤ 1 → nurbsPoint p c x = between a b x) (hab : a ≠ b) (ha : distance sqrt a P ≤ 5000)
    (hb : distance sqrt b P ≤ 5000) {m : K} (hm0 : 0 ≤ m) (hm1 : m ≤ 1) (hm : slope (between a b m) P (b - a) = 0)
    {init : K} (h0 : 0 ≤ init) (h1 : init ≤ 1)
    (hbig : 1 / 10 ^ 16 ≤ distSq a b * (max 0 (min 1 (init - distSq a b * (init - m))) - init) ^ 2)
    {eps : K} (he : eps ≤ (2 ^ 53 - 1) * 2 ^ 971) {limit : K} (hi : 1 < limit) :
    ∃ r n C fuel₀, (∀ fuel ≥ fuel₀, c.SearchParameter sqrt fuel P init eps limit = .ok (r, n)) ∧ c.Evaluate r = .ok C ∧
      (r = m ∨ distance sqrt C P < eps) := by
  obtain ⟨r, n, C, fuel₀, h, _, r0, r1, hC, _⟩ := C42_searchParameter sqrt hw P h0 h1 he limit
  refine ⟨r, n, C, fuel₀, h, hC, ?_⟩
  have e := h fuel₀ le_rfl
  unfold Curve.SearchParameter at e
  obtain ⟨x, e1, e2⟩ := bind_eq_ok.1 e
  have e4 : x.1.1 = r := congrArg Prod.fst (Except.ok.inj e2)
  have hE : ∀ x, 0 ≤ x → x ≤ 1 → c.Evaluate x = .ok (between a b x) := fun x x0 x1 => by
    rw [← hl x x0 x1]; exact (C23_evaluate hw x0 x1).1
  obtain ⟨D, hDe⟩ : ∃ D, distSq a b = D := ⟨_, rfl⟩
  have hD : 0 < D := by
    rw [← hDe]
    exact distSq_pos hab
  simp only [slope, between, Vec3.sub_x, Vec3.sub_y, Vec3.sub_z] at hm
  have hg : ∀ x, 0 ≤ x → x ≤ 1 → c.searchGradient P x = .ok (D * (x - m)) := by
    intro x x0 x1
    unfold Curve.searchGradient
    rw [hE x x0 x1, bind_ok, line_derivative hw hl x0 x1, bind_ok]
    show Except.ok _ = _
    congr 1
    simp only [Vec3.dot, between, Vec3.sub_x, Vec3.sub_y, Vec3.sub_z, ← hDe, distSq]
    linear_combination hm
  have hq : ∀ v, distSq (between a b v) P = distSq (between a b m) P + D * (v - m) ^ 2 := by
    intro v
    simp only [between, ← hDe, distSq]
    linear_combination 2 * (v - m) * hm
  have hqn : ∀ A B : Vec3 K, 0 ≤ distSq A B := fun A B => by unfold distSq; positivity
  have hf : ∀ v, 0 ≤ distance sqrt (between a b v) P ∧ distance sqrt (between a b v) P ^ 2 = distSq (between a b v) P :=
    fun v => hr _ (hqn _ _)
  have qa : distSq a P ≤ 25000000 := by
    have := hr _ (hqn a P)
    rw [← this.2]
    exact (sq_le_5000 this.1).2 ha
  have qb : distSq b P ≤ 25000000 := by
    have := hr _ (hqn b P)
    rw [← this.2]
    exact (sq_le_5000 this.1).2 hb
  have hqv : ∀ v, 0 ≤ v → v ≤ 1 → distSq (between a b v) P ≤ 25000000 := by
    intro v v0 v1
    have e : distSq (between a b v) P = (1 - v) * distSq a P + v * distSq b P - v * (1 - v) * D := by
      simp only [between, ← hDe, distSq]; ring
    rw [e]
    have t1 := mul_nonneg (mul_nonneg v0 (sub_nonneg.2 v1)) hD.le
    have t2 := mul_le_mul_of_nonneg_left qa (sub_nonneg.2 v1)
    have t3 := mul_le_mul_of_nonneg_left qb v0
    linarith
  have hfv : ∀ v, 0 ≤ v → v ≤ 1 → distance sqrt (between a b v) P ≤ 5000 := by
    intro v v0 v1
    refine (sq_le_5000 (hf v).1).1 ?_
    rw [(hf v).2]
    exact hqv v v0 v1
  have hDle : D ≤ 100000000 := by
    have := distSq_le a b P
    linarith
  have hmax : (9000000000000000 : K) ≤ Search.dblMax := by
    rw [dblMax_eq]; exact dbl_ge
  have key := bfgsLoop1_parabola (f := fun v => distance sqrt (between a b v) P) (fun x x0 x1 => residual_eq sqrt (hE x x0 x1)) hg hD h0 h1
    hm0 hm1 20 (Or.inr fun v v0 v1 => ⟨?_, ?_⟩) (by rw [clamp01_eq, ← hDe, tiny_eq]; exact hbig) (by rw [dblMax_eq]; exact he) hi fuel₀ e1
  · rw [e4] at key
    refine key.imp id fun k => ?_
    rw [hE r r0 r1] at hC
    rw [← Except.ok.inj hC]
    exact k.1
  · have a1 := hfv v v0 v1
    have a2 : D * (init - m) ^ 2 ≤ 25000000 := by
      have := hqv init h0 h1
      rw [hq init] at this
      linarith [hqn (between a b m) P]
    have a3 : (D * (init - m)) ^ 2 ≤ 100000000 * 25000000 := by
      have : (D * (init - m)) ^ 2 = D * (D * (init - m) ^ 2) := by ring
      rw [this]
      exact mul_le_mul hDle a2 (by positivity) (by norm_num)
    show distance sqrt (between a b v) P ≤ _
    unfold Search.c1
    linarith
  · have a1 := hfv v v0 v1
    have a2 := hfv m hm0 hm1
    obtain ⟨b1, b2⟩ := hf v
    obtain ⟨c1, c2⟩ := hf m
    have a3 := hq v
    rw [← b2, ← c2] at a3
    have a4 : 0 ≤ D * (v - m) ^ 2 := by positivity
    show distance sqrt (between a b m) P ≤ distance sqrt (between a b v) P - _
    unfold Search.c1
    generalize distance sqrt (between a b v) P = f at *
    generalize distance sqrt (between a b m) P = g at *
    exact armijo b1 c1 a1 a2 a3 a4

/-- C79 applied to segments of any length up to the bound, with the true square root. -/
theorem C79_segment {a b P : Vec3 ℝ} (hab : a ≠ b) (ha : distance Real.sqrt a P ≤ 5000) (hb : distance Real.sqrt b P ≤ 5000) {m : ℝ}
    (hm0 : 0 ≤ m) (hm1 : m ≤ 1) (hm : slope (between a b m) P (b - a) = 0) {init : ℝ} (h0 : 0 ≤ init) (h1 : init ≤ 1)
    (hbig : 1 / 10 ^ 16 ≤ distSq a b * (max 0 (min 1 (init - distSq a b * (init - m))) - init) ^ 2) {limit : ℝ} (hi : 1 < limit) :
    ∃ c n fuel₀, (GeomSegment.Make a b).GetCurve = .ok c ∧
      ∀ fuel ≥ fuel₀, c.SearchParameter Real.sqrt fuel P init 0 limit = .ok (m, n) := by
  obtain ⟨c, hc, hw, -⟩ := C52_segment (GeomSegment.Make a b) (p := 1) (n := 2) rfl rfl le_rfl le_rfl
  obtain ⟨c', hc', hE⟩ := C52_make a b
  obtain rfl : c = c' := Except.ok.inj (hc.symm.trans hc')
  obtain ⟨r, n, C, fuel₀, h, -, h'⟩ := C79_line (sqrt := Real.sqrt) (fun x hx => ⟨Real.sqrt_nonneg x, Real.sq_sqrt hx⟩) hw
    (fun x x0 x1 => Except.ok.inj ((C23_evaluate hw x0 x1).1.symm.trans (hE x x0 x1))) hab ha hb hm0 hm1 hm h0 h1 hbig
    (eps := 0) (le_trans (by norm_num) dbl_ge) hi
  refine ⟨c, n, fuel₀, hc, fun fuel hf => ?_⟩
  rcases h' with rfl | h'
  · exact h fuel hf
  · exact absurd h' (not_lt.2 (Real.sqrt_nonneg _))

/-- From the middle of a segment of length 3 to the foot at a third. -/
example : ∃ c n fuel₀, (GeomSegment.Make (⟨0, 0, 0⟩ : Vec3 ℝ) ⟨3, 0, 0⟩).GetCurve = .ok c ∧
    ∀ fuel ≥ fuel₀, c.SearchParameter Real.sqrt fuel ⟨1, 2, 0⟩ (1/2) 0 512 = .ok (1/3, n) := by
  refine C79_segment (fun h => ?_) ?_ ?_ (by norm_num) (by norm_num) ?_ (by norm_num) (by norm_num) ?_ (by norm_num)
  · have := congrArg Vec3.x h
    norm_num at this
  · unfold distance
    rw [Real.sqrt_le_left (by norm_num)]
    norm_num
  · unfold distance
    rw [Real.sqrt_le_left (by norm_num)]
    norm_num
  · simp only [slope, between, Vec3.sub_x, Vec3.sub_y, Vec3.sub_z]
    norm_num
  · rw [show distSq (⟨0, 0, 0⟩ : Vec3 ℝ) ⟨3, 0, 0⟩ = 9 by norm_num [distSq]]
    norm_num

/-! ### Straight lines of constant parameter on a surface -/

open MvPolynomial in
/-- Substituting a constant for one variable. -/
noncomputable def freeze (d : Fin 2) (c : K) : MvPolynomial (Fin 2) K →ₐ[K] Polynomial K :=
  aeval fun i => if i = d then Polynomial.X else Polynomial.C c

open MvPolynomial in
theorem freeze_eval (d : Fin 2) (c x : K) (P : MvPolynomial (Fin 2) K) :
    (freeze d c P).eval x = eval (fun i => if i = d then x else c) P := by
  unfold freeze
  induction P using MvPolynomial.induction_on with
  | C a => simp
  | add p q hp hq => simp only [map_add, Polynomial.eval_add, hp, hq]
  | mul_X p i hp =>
    simp only [map_mul, Polynomial.eval_mul, hp, aeval_X, eval_X]
    split_ifs <;> simp

open MvPolynomial in
theorem freeze_deriv (d : Fin 2) (c : K) (P : MvPolynomial (Fin 2) K) :
    Polynomial.derivative (freeze d c P) = freeze d c (pderiv d P) := by
  unfold freeze
  induction P using MvPolynomial.induction_on with
  | C a => simp
  | add p q hp hq => simp only [map_add, hp, hq]
  | mul_X p i hp =>
    simp only [map_mul, Polynomial.derivative_mul, hp, aeval_X, pderiv_mul, map_add, pderiv_X]
    by_cases h : i = d
    · subst h; simp
    · simp [h, Pi.single_apply, Ne.symm h]

theorem mixDeriv_freeze (A W : MvPolynomial (Fin 2) K) (c x : K) :
    mixDeriv A W 0 1 c x = quotDeriv (freeze 1 c A) (freeze 1 c W) 1 x ∧
    mixDeriv A W 1 0 x c = quotDeriv (freeze 0 c A) (freeze 0 c W) 1 x := by
  have e1 : (fun i : Fin 2 => if i = 1 then x else c) = ![c, x] := by funext i; fin_cases i <;> rfl
  have e0 : (fun i : Fin 2 => if i = 0 then x else c) = ![x, c] := by funext i; fin_cases i <;> rfl
  constructor
  · simp only [mixDeriv, quotDeriv, mixNum, quotNum, Polynomial.eval_sub, Polynomial.eval_mul, nsmul_eq_mul, freeze_deriv, freeze_eval, e1,
      map_sub, map_mul, map_natCast, Polynomial.eval_natCast]
  · simp only [mixDeriv, quotDeriv, mixNum, quotNum, Polynomial.eval_sub, Polynomial.eval_mul, nsmul_eq_mul, freeze_deriv, freeze_eval, e0,
      map_sub, map_mul, map_natCast, Polynomial.eval_natCast]

theorem line_derivativeOn {p q m n : ℕ} {s : Surface K} (hw : WFSurface p q m n s) {d : Int} (hd : d = 0 ∨ d = 1) {c : K} (hc0 : 0 ≤ c)
    (hc1 : c ≤ 1) {a b : Vec3 K}
    (hl : ∀ x, 0 ≤ x → x ≤ 1 → (if d = 0 then surfPoint p q m n s c x else surfPoint p q m n s x c) = between a b x)
    {x : K} (h0 : 0 ≤ x) (h1 : x ≤ 1) :
    (if d = 1 then s.EvaluateDerivative x c 1 0 else s.EvaluateDerivative c x 0 1) = .ok (b - a) := by
  rcases hd with rfl | rfl
  · simp only [if_pos] at hl
    rw [if_neg (by norm_num)]
    obtain ⟨ku, kv, X, Y, Z, W, ds, hku, hkv, hX, hY, hZ, hW, hpos, -, -, -, -, hE⟩ :=
      C45_evaluateAll_partial hw hc0 hc1 h0 h1 0 1 (by omega) (by omega) (by simp)
    have e1 : ∀ t : K, (fun i : Fin 2 => if i = 1 then t else c) = ![c, t] := fun t => by funext i; fin_cases i <;> rfl
    have hmem : ∀ t, IsSpan s.KnotsV.Values t kv → 0 ≤ t ∧ t ≤ 1 := fun t ht =>
      ⟨(hw.clampedV.nonneg (by have := ht.1; omega)).trans ht.2.1, (IsSpan.le_right ht).trans (hw.clampedV.le_one ht.1)⟩
    have hp : ∀ (f : Vec4 K → K) A, IsPatch s.KnotsU.Values s.KnotsV.Values ku kv (fun a b => swsum p q m n s a b f) A →
        IsPiece s.KnotsV.Values kv (fun t => swsum p q m n s c t f) (freeze 1 c A) := by
      intro f A hA t ht
      rw [freeze_eval, e1]
      exact hA c t hku ht
    have key : ∀ (f : Vec4 K → K) A (α β : K), IsPatch s.KnotsU.Values s.KnotsV.Values ku kv (fun a b => swsum p q m n s a b f) A →
        (∀ t, 0 ≤ t → t ≤ 1 → swsum p q m n s c t f / swsum p q m n s c t (fun _ => 1) = α + t * (β - α)) →
        mixDeriv A W 0 1 c x = β - α := by
      intro f A α β hA hq
      rw [(mixDeriv_freeze A W c x).1]
      exact line_quot hkv (hp f A hA) (hp _ W hW)
        (fun t ht => (C43_evaluate hw hc0 hc1 (hmem t ht).1 (hmem t ht).2).2.ne') (fun t ht => hq t (hmem t ht).1 (hmem t ht).2)
        (by rw [freeze_eval, e1]; exact hpos.ne')
    rw [Nat.cast_zero, Nat.cast_one] at hE
    rw [hE, key _ X a.x b.x hX fun t t0 t1 => congrArg Vec3.x (hl t t0 t1), key _ Y a.y b.y hY fun t t0 t1 => congrArg Vec3.y (hl t t0 t1),
      key _ Z a.z b.z hZ fun t t0 t1 => congrArg Vec3.z (hl t t0 t1)]
    rfl
  · rw [if_pos rfl]
    simp only [if_neg (show ¬ (1 : Int) = 0 by norm_num)] at hl
    obtain ⟨ku, kv, X, Y, Z, W, ds, hku, hkv, hX, hY, hZ, hW, hpos, -, -, -, -, hE⟩ :=
      C45_evaluateAll_partial hw h0 h1 hc0 hc1 1 0 (by omega) (by omega) (by simp)
    have e1 : ∀ t : K, (fun i : Fin 2 => if i = 0 then t else c) = ![t, c] := fun t => by funext i; fin_cases i <;> rfl
    have hmem : ∀ t, IsSpan s.KnotsU.Values t ku → 0 ≤ t ∧ t ≤ 1 := fun t ht =>
      ⟨(hw.clampedU.nonneg (by have := ht.1; omega)).trans ht.2.1, (IsSpan.le_right ht).trans (hw.clampedU.le_one ht.1)⟩
    have hp : ∀ (f : Vec4 K → K) A, IsPatch s.KnotsU.Values s.KnotsV.Values ku kv (fun a b => swsum p q m n s a b f) A →
        IsPiece s.KnotsU.Values ku (fun t => swsum p q m n s t c f) (freeze 0 c A) := by
      intro f A hA t ht
      rw [freeze_eval, e1]
      exact hA t c ht hkv
    have key : ∀ (f : Vec4 K → K) A (α β : K), IsPatch s.KnotsU.Values s.KnotsV.Values ku kv (fun a b => swsum p q m n s a b f) A →
        (∀ t, 0 ≤ t → t ≤ 1 → swsum p q m n s t c f / swsum p q m n s t c (fun _ => 1) = α + t * (β - α)) →
        mixDeriv A W 1 0 x c = β - α := by
      intro f A α β hA hq
      rw [(mixDeriv_freeze A W c x).2]
      exact line_quot hku (hp f A hA) (hp _ W hW)
        (fun t ht => (C43_evaluate hw (hmem t ht).1 (hmem t ht).2 hc0 hc1).2.ne') (fun t ht => hq t (hmem t ht).1 (hmem t ht).2)
        (by rw [freeze_eval, e1]; exact hpos.ne')
    rw [Nat.cast_zero, Nat.cast_one] at hE
    rw [hE, key _ X a.x b.x hX fun t t0 t1 => congrArg Vec3.x (hl t t0 t1), key _ Y a.y b.y hY fun t t0 t1 => congrArg Vec3.y (hl t t0 t1),
      key _ Z a.z b.z hZ fun t t0 t1 => congrArg Vec3.z (hl t t0 t1)]
    rfl

/-- C79 for `SearchParameterOn`: on a straight line of constant parameter the search ends exactly at the foot of the perpendicular, or at
a point closer than `epsilon`, whenever it is allowed two iterations and the first step is not tiny; there is no bound on the distances
because this search always takes the full step. -/
theorem C79_lineOn [Archimedean K] (sqrt : K → K) {p q m n : ℕ} {s : Surface K} (hw : WFSurface p q m n s) {d : Int} (hd : d = 0 ∨ d = 1)
    {c : K} (hc0 : 0 ≤ c) (hc1 : c ≤ 1) {a b P : Vec3 K}
    (hl : ∀ x, 0 ≤ x → x ≤ 1 → (if d = 0 then surfPoint p q m n s c x else surfPoint p q m n s x c) = between a b x)
    (hab : a ≠ b) {t : K} (ht0 : 0 ≤ t) (ht1 : t ≤ 1) (ht : slope (between a b t) P (b - a) = 0)
    {init : K} (h0 : 0 ≤ init) (h1 : init ≤ 1)
    (hbig : 1 / 10 ^ 16 ≤ distSq a b * (max 0 (min 1 (init - distSq a b * (init - t))) - init) ^ 2)
    {eps : K} (he : eps ≤ (2 ^ 53 - 1) * 2 ^ 971) {limit : K} (hi : 1 < limit) :
    ∃ r i fuel₀, (∀ fuel ≥ fuel₀, s.SearchParameterOn sqrt fuel P d c init eps limit = .ok (if d = 0 then (c, r) else (r, c), i)) ∧
      (r = t ∨ distance sqrt (between a b r) P < eps) := by
  obtain ⟨u, v, i, -, fuel₀, h, hu, hv, -⟩ := C51_searchParameterOn sqrt hw P hd hc0 hc1 h0 h1 he limit
  have e := h fuel₀ le_rfl
  unfold Surface.SearchParameterOn at e
  obtain ⟨x, e1, e2⟩ := bind_eq_ok.1 e
  have e3 : Surface.pairOn d c x.1.1 = (u, v) := congrArg Prod.fst (Except.ok.inj e2)
  rw [(onLine_eq hd c _).2] at e3
  obtain ⟨D, hDe⟩ : ∃ D, distSq a b = D := ⟨_, rfl⟩
  have hD : 0 < D := by rw [← hDe]; exact distSq_pos hab
  simp only [slope, between, Vec3.sub_x, Vec3.sub_y, Vec3.sub_z] at ht
  have hn : ∀ x, 0 ≤ x → x ≤ 1 → s.residualOn sqrt P d c x = .ok (distance sqrt (between a b x) P) := by
    intro x x0 x1
    rw [(residualOn_eq sqrt hw P hd hc0 hc1 x0 x1).2, ← hl x x0 x1]
    unfold linePair
    split_ifs <;> rfl
  have hg : ∀ x, 0 ≤ x → x ≤ 1 → s.gradientOn P d c x = .ok (D * (x - t)) := by
    intro x x0 x1
    have hE := (residualOn_eq sqrt hw P hd hc0 hc1 x0 x1).1
    have hpt : surfPoint p q m n s (linePair d c x).1 (linePair d c x).2 = between a b x := by
      rw [← hl x x0 x1]; unfold linePair; split_ifs <;> rfl
    have hdv := line_derivativeOn hw hd hc0 hc1 hl x0 x1
    unfold Surface.gradientOn
    simp only
    rw [(onLine_eq hd c x).1, hE, bind_ok, hpt]
    have : (if d = 1 then s.EvaluateDerivative (linePair d c x).1 (linePair d c x).2 1 0
        else s.EvaluateDerivative (linePair d c x).1 (linePair d c x).2 0 1) = .ok (b - a) := by
      rw [← hdv]
      rcases hd with rfl | rfl <;> simp [linePair]
    have e5 : (between a b x - P).dot (b - a) = D * (x - t) := by
      simp only [Vec3.dot, between, Vec3.sub_x, Vec3.sub_y, Vec3.sub_z, ← hDe, distSq]
      linear_combination ht
    split_ifs at this ⊢ with c1
    · rw [this, bind_ok, e5]; rfl
    · rw [this, bind_ok, e5]; rfl
  have key := bfgsLoop1_parabola (f := fun v => distance sqrt (between a b v) P) hn hg hD h0 h1 ht0 ht1 0 (Or.inl rfl)
    (by rw [clamp01_eq, ← hDe, tiny_eq]; exact hbig) (by rw [dblMax_eq]; exact he) hi fuel₀ e1
  refine ⟨x.1.1, i, fuel₀, fun fuel hf => ?_, key.imp id fun k => k.1⟩
  rw [h fuel hf, ← e3]
  rfl

theorem N_hat {x : ℚ} (h0 : 0 ≤ x) (h1 : x ≤ 1) : N (kn [0, 0, 1, 1]) x 1 0 = 1 - x ∧ N (kn [0, 0, 1, 1]) x 1 1 = x := by
  have e0 : N (kn [0, 0, 1, 1]) x 0 0 = 0 := by
    simp only [N, kn, List.getD_cons_zero, List.getD_cons_succ]
    rw [if_neg]
    rintro (h | h)
    · exact absurd h.2 (not_lt.2 h0)
    · norm_num at h
  have e2 : N (kn [0, 0, 1, 1]) x 0 2 = 0 := by
    simp only [N, kn, List.getD_cons_zero, List.getD_cons_succ]
    rw [if_neg]
    rintro (h | h)
    · exact absurd (lt_of_le_of_lt h.1 h.2) (lt_irrefl _)
    · exact absurd h.2.1 (lt_irrefl _)
  have e1 : N (kn [0, 0, 1, 1]) x 0 1 = 1 := by
    simp only [N, kn, List.getD_cons_zero, List.getD_cons_succ]
    rw [if_pos]
    rcases h1.lt_or_eq with h | h
    · exact Or.inl ⟨h0, h⟩
    · exact Or.inr ⟨h, by norm_num⟩
  constructor
  · rw [N, e0, e1]; simp [kn]
  · rw [N, e1, e2]; simp [kn]

theorem exBilinear_line {x : ℚ} (h0 : 0 ≤ x) (h1 : x ≤ 1) :
    surfPoint 1 1 2 2 exBilinear (1/2) x = between ⟨1/2, 0, 0⟩ ⟨1/2, 1, 1/2⟩ x := by
  obtain ⟨a, b⟩ := N_hat h0 h1
  obtain ⟨c, d⟩ := N_hat (x := 1/2) (by norm_num) (by norm_num)
  have e : ∀ f : Vec4 ℚ → ℚ, swsum 1 1 2 2 exBilinear (1/2) x f =
      1/2 * ((1 - x) * f ⟨0, 0, 0, 1⟩ + x * f ⟨0, 1, 0, 1⟩ + (1 - x) * f ⟨1, 0, 0, 1⟩ + x * f ⟨1, 1, 1, 1⟩) := by
    intro f
    have c00 : cp exBilinear 0 0 = ⟨0, 0, 0, 1⟩ := rfl
    have c10 : cp exBilinear 1 0 = ⟨1, 0, 0, 1⟩ := rfl
    have c01 : cp exBilinear 0 1 = ⟨0, 1, 0, 1⟩ := rfl
    have c11 : cp exBilinear 1 1 = ⟨1, 1, 1, 1⟩ := rfl
    have ku : exBilinear.KnotsU.Values = [0, 0, 1, 1] := rfl
    have kv : exBilinear.KnotsV.Values = [0, 0, 1, 1] := rfl
    unfold swsum
    simp only [Finset.sum_range_succ, Finset.sum_range_zero, zero_add, c00, c10, c01, c11, ku, kv, a, b, c, d]
    ring
  unfold surfPoint between
  simp only [e]
  ext <;> ring_nf

/-- On the surface `(u, v, u v)` the line `u = 1/2` is straight; the foot of `(0, 3/8, 1/8)` is at `v = 7/20`. -/
example : ∃ r i fuel₀, (∀ fuel ≥ fuel₀, exBilinear.SearchParameterOn id fuel ⟨0, 3/8, 1/8⟩ 0 (1/2) 1 0 512 = .ok ((1/2, r), i)) ∧
    (r = 7/20 ∨ distance id (between (⟨1/2, 0, 0⟩ : Vec3 ℚ) ⟨1/2, 1, 1/2⟩ r) ⟨0, 3/8, 1/8⟩ < 0) := by
  refine C79_lineOn id exBilinear_wf (Or.inl rfl) (by norm_num) (by norm_num) (fun x h0 h1 => ?_) (by decide +kernel) (by norm_num)
    (by norm_num) ?_ (by norm_num) (by norm_num) ?_ (le_trans (by norm_num) dbl_ge) (by norm_num)
  · rw [if_pos rfl]
    exact exBilinear_line h0 h1
  · simp only [slope, between, Vec3.sub_x, Vec3.sub_y, Vec3.sub_z]
    norm_num
  · norm_num [distSq]

end Nurbs.Props
