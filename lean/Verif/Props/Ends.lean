import Verif.Props.Deriv
import Verif.Props.SurfaceDeriv
import Verif.Proof.SurfaceInsert
import Verif.Proof.Unique

/-! # C90: derivatives at the ends and along the edges

What the derivative functions return at the parameters 0 and 1 is used to join curves: the end tangents are multiples of
the first and the last leg of the control polygon.  Along an edge of a surface the derivatives along the edge are those of
the edge curve.  All rows of basis derivatives except the first sum to zero. -/

namespace Nurbs.Props
open Nurbs Nurbs.Spec Polynomial

set_option linter.unusedSectionVars false

variable {K : Type} [Field K] [LinearOrder K] [IsStrictOrderedRing K]

/-! ### Sums of the rows -/

/-- C90 (rows).  The rows of `BSplineBasis::EvaluateAll` from the second on sum to zero. -/
theorem C90_rows_sum {p : ℕ} {l : List K} (hc : Clamped p l) {x : K} (h0 : 0 ≤ x) (h1 : x ≤ 1) (order : ℕ) :
    ∃ rows, BSplineBasis.EvaluateAll p ⟨l⟩ x order = .ok rows ∧ rows.length = order + 1 ∧
      ∀ r, 1 ≤ r → r ≤ order → ∃ row, rows[r]? = some row ∧ row.length = p + 1 ∧ row.sum = 0 := by
  obtain ⟨k, hs, hpk, hlk, hreg, hk, hN, he⟩ := evaluate_spec hc h0 h1
  refine ⟨tab (order + 1) fun m => tab (p + 1) fun r => (derivative^[m] (NlP (kn l) k p (k - p + r))).eval x, ?_, ?_, ?_⟩
  · unfold BSplineBasis.EvaluateAll
    rw [hk, bind_ok, evaluateAllAt_deriv hpk (by omega) hreg]
  · simp
  · intro r hr1 hr
    refine ⟨_, tab_getElem? _ _ r (by omega), by simp, ?_⟩
    have h1 : segP (kn l) k p (fun _ => (1 : K)) = 1 := by
      apply Polynomial.funext
      intro t
      rw [segP_eval, seg_const _ _ _ _ hpk hreg, eval_one]
    have h2 := segP_deriv (kn l) k p (fun _ => (1 : K)) x r
    rw [h1, iterate_derivative_one (by omega), eval_zero] at h2
    simp only [mul_one] at h2
    have : (tab (p + 1) fun n => (derivative^[r] (NlP (kn l) k p (k - p + n))).eval x).sum =
        ∑ n ∈ Finset.range (p + 1), (derivative^[r] (NlP (kn l) k p (k - p + n))).eval x := by
      unfold tab
      rw [Finset.sum_eq_multiset_sum, Finset.range_val, Multiset.range, Multiset.map_coe, Multiset.sum_coe]
    rw [this, ← h2]

example : BSplineBasis.EvaluateAll exCurve.Degree exCurve.Knots (1/3) 2 =
    .ok [[2/9, 2/3, 1/9], [-8/3, 0, 8/3], [16, -48, 32]] := by
  decide +kernel

/-! ### End tangents -/

/-- The first derivative of a quotient whose numerator and denominator move along one leg of the control polygon. -/
theorem quot_one (A W : K[X]) (x a w c w1 s : K) (hA : A.eval x = a * w) (hW : W.eval x = w) (hw : w ≠ 0)
    (hA' : (derivative A).eval x = s * (c * w1 - a * w)) (hW' : (derivative W).eval x = s * (w1 - w)) :
    quotDeriv A W 1 x = s * (w1 / w) * (c - a) := by
  unfold quotDeriv quotNum quotNum
  rw [eval_sub, eval_mul, zero_add, one_smul, eval_mul, hA, hA', hW, hW']
  field_simp
  ring

/-- C90 (start tangent).  The first derivative at 0 is `p / U_{p+1} · w₁/w₀ · (P₁ − P₀)`. -/
theorem C90_start_tangent {p : ℕ} (hp : 1 ≤ p) {c : Curve K} (hw : WFCurve p c) :
    ∃ P Q D, c.ControlPoints[0]? = some P ∧ c.ControlPoints[1]? = some Q ∧ c.EvaluateDerivative 0 1 = .ok D ∧
      D = ((p : K) / kn c.Knots.Values (p + 1) * (Q.w / P.w)) • (⟨Q.x - P.x, Q.y - P.y, Q.z - P.z⟩ : Vec3 K) := by
  obtain ⟨d, rfl⟩ : ∃ d, p = d + 1 := ⟨p - 1, by omega⟩
  have hc := hw.clamped
  have hlen := hc.len
  have hcount := hw.count
  have hk : IsSpan c.Knots.Values 0 (d + 1) := ⟨by omega, (hc.zeros _ (le_refl _)).le, Or.inl hc.first⟩
  obtain ⟨hpk, hl, hr, _, _⟩ := evaluate_seg hw le_rfl zero_le_one hk
  have hr' : RegSpan (kn c.Knots.Values) (d + 1) d := hr.mono (by omega)
  obtain ⟨hpos, he⟩ := curve_evaluateAll_ok hw le_rfl zero_le_one hk 1 (by omega)
  have h0 : 0 < c.ControlPoints.length := by omega
  have h1 : 1 < c.ControlPoints.length := by omega
  refine ⟨pt c.ControlPoints 0, pt c.ControlPoints 1, ratD (d + 1) c (d + 1) 0 1, by simp [pt, h0], by simp [pt, h1], ?_, ?_⟩
  · unfold Curve.EvaluateDerivative
    rw [show (1 : Int) = ((1 : ℕ) : Int) from rfl, he, bind_ok, vget_tab _ _ _ 1 rfl (by omega)]
  have e0 : ∀ L : Vec4 K → K, (curveP (d + 1) c (d + 1) L).eval 0 = L (hpts c.ControlPoints 0) := by
    intro L
    rw [curveP, segP_eval, seg_eq_point _ _ _ _ 0 _ hpk hr (by omega) (by omega) (fun j _ hj => hc.zeros j (by omega))]
  have e1 : ∀ L : Vec4 K → K, (derivative (curveP (d + 1) c (d + 1) L)).eval 0 =
      (((d + 1 : ℕ) : K) / kn c.Knots.Values (d + 1 + 1)) * (L (hpts c.ControlPoints 1) - L (hpts c.ControlPoints 0)) := by
    intro L
    rw [curveP, segP_derivative _ _ _ _ hpk hr, segP_eval,
      seg_eq_point _ _ _ _ 1 _ (by omega) hr' (by omega) (by omega) (fun j _ hj => hc.zeros j (by omega)), hc.zeros 1 (by omega),
      show 1 + d + 1 = d + 1 + 1 by omega]
    simp only [Nat.sub_self, sub_zero]
    ring
  have hne := (hw.weights 0 h0).ne'
  ext
  · exact quot_one (curveP _ _ _ (·.x)) _ 0 _ _ _ _ _ (e0 (·.x)) (e0 (·.w)) hne (e1 (·.x)) (e1 (·.w))
  · exact quot_one (curveP _ _ _ (·.y)) _ 0 _ _ _ _ _ (e0 (·.y)) (e0 (·.w)) hne (e1 (·.y)) (e1 (·.w))
  · exact quot_one (curveP _ _ _ (·.z)) _ 0 _ _ _ _ _ (e0 (·.z)) (e0 (·.w)) hne (e1 (·.z)) (e1 (·.w))

/-- C90 (end tangent).  The first derivative at 1 is `p / (1 − U_n) · w_{n-1}/w_n · (P_n − P_{n-1})` where `n` is the last
index of a control point. -/
theorem C90_end_tangent {p : ℕ} (hp : 1 ≤ p) {c : Curve K} (hw : WFCurve p c) :
    ∃ n P Q D, c.ControlPoints.length = n + 2 ∧ c.ControlPoints[n]? = some P ∧ c.ControlPoints[n + 1]? = some Q ∧
      c.EvaluateDerivative 1 1 = .ok D ∧
      D = ((p : K) / (1 - kn c.Knots.Values (n + 1)) * (P.w / Q.w)) • (⟨Q.x - P.x, Q.y - P.y, Q.z - P.z⟩ : Vec3 K) := by
  obtain ⟨d, rfl⟩ : ∃ d, p = d + 1 := ⟨p - 1, by omega⟩
  have hc := hw.clamped
  have hlen := hc.len
  have hcount := hw.count
  obtain ⟨n, hn⟩ : ∃ n, c.ControlPoints.length = n + 2 := ⟨c.ControlPoints.length - 2, by omega⟩
  have hk : IsSpan c.Knots.Values 1 (n + 1) := by
    have h1 := hc.last
    have h2 := hc.ones (n + 2) (by omega) (by omega)
    rw [show c.Knots.Values.length - (d + 1) - 2 = n + 1 by omega] at h1
    exact ⟨by omega, h1.le, Or.inr ⟨rfl, h1, h2⟩⟩
  obtain ⟨hpk, hl, hr, _, _⟩ := evaluate_seg hw zero_le_one le_rfl hk
  have hr' : RegSpan (kn c.Knots.Values) (n + 1) d := hr.mono (by omega)
  obtain ⟨hpos, he⟩ := curve_evaluateAll_ok hw zero_le_one le_rfl hk 1 (by omega)
  have h0 : n < c.ControlPoints.length := by omega
  have h1 : n + 1 < c.ControlPoints.length := by omega
  refine ⟨n, pt c.ControlPoints n, pt c.ControlPoints (n + 1), ratD (d + 1) c (n + 1) 1 1, hn, by simp [pt, h0], by simp [pt, h1], ?_, ?_⟩
  · unfold Curve.EvaluateDerivative
    rw [show (1 : Int) = ((1 : ℕ) : Int) from rfl, he, bind_ok, vget_tab _ _ _ 1 rfl (by omega)]
  have e0 : ∀ L : Vec4 K → K, (curveP (d + 1) c (n + 1) L).eval 1 = L (hpts c.ControlPoints (n + 1)) := by
    intro L
    rw [curveP, segP_eval, seg_eq_point _ _ _ _ (n + 1) _ hpk hr (by omega) (by omega) (fun j _ hj => hc.ones j (by omega) (by omega))]
  have e1 : ∀ L : Vec4 K → K, (derivative (curveP (d + 1) c (n + 1) L)).eval 1 =
      -(((d + 1 : ℕ) : K) / (1 - kn c.Knots.Values (n + 1))) * (L (hpts c.ControlPoints n) - L (hpts c.ControlPoints (n + 1))) := by
    intro L
    rw [curveP, segP_derivative _ _ _ _ hpk hr, segP_eval,
      seg_eq_point _ _ _ _ (n + 1) _ (by omega) hr' (by omega) (by omega) (fun j _ hj => hc.ones j (by omega) (by omega)),
      hc.ones (n + 1 + d + 1) (by omega) (by omega)]
    simp only [Nat.add_sub_cancel]
    ring
  have hne := (hw.weights (n + 1) h1).ne'
  have hz : ∀ s w a b : K, -s * w * (a - b) = s * w * (b - a) := fun s w a b => by ring
  ext
  · exact (quot_one (curveP _ _ _ (·.x)) _ 1 _ _ _ _ _ (e0 (·.x)) (e0 (·.w)) hne (e1 (·.x)) (e1 (·.w))).trans (hz _ _ _ _)
  · exact (quot_one (curveP _ _ _ (·.y)) _ 1 _ _ _ _ _ (e0 (·.y)) (e0 (·.w)) hne (e1 (·.y)) (e1 (·.w))).trans (hz _ _ _ _)
  · exact (quot_one (curveP _ _ _ (·.z)) _ 1 _ _ _ _ _ (e0 (·.z)) (e0 (·.w)) hne (e1 (·.z)) (e1 (·.w))).trans (hz _ _ _ _)

example : exCurve.EvaluateDerivative 0 1 = .ok ⟨4, 8, 0⟩ ∧ exCurve.EvaluateDerivative 1 1 = .ok ⟨8, -32, 16⟩ := by decide +kernel

/-! ### Edges of a surface -/

theorem mix_edge_u (A W : MvPolynomial (Fin 2) K) (B V : K[X]) (u v : K) (hV : V.eval u ≠ 0)
    (hA : ∀ i, MvPolynomial.eval ![u, v] (pd A i 0) = (derivative^[i] B).eval u)
    (hW : ∀ i, MvPolynomial.eval ![u, v] (pd W i 0) = (derivative^[i] V).eval u) (a : ℕ) :
    mixDeriv A W a 0 u v = quotDeriv B V a u := by
  have hW0 : MvPolynomial.eval ![u, v] W = V.eval u := hW 0
  induction a using Nat.strong_induction_on with
  | _ a ih =>
    rw [mixDeriv_rec A W u v (by rwa [hW0]) a 0, quotDeriv_rec B V u hV a, hW0, hA]
    simp only [Finset.range_zero, Finset.sum_empty, Finset.sum_const_zero, sub_zero]
    congr 2
    apply Finset.sum_congr rfl
    intro i hi
    have := Finset.mem_range.mp hi
    rw [hW, ih _ (by omega)]

theorem mix_edge_v (A W : MvPolynomial (Fin 2) K) (B V : K[X]) (u v : K) (hV : V.eval v ≠ 0)
    (hA : ∀ i, MvPolynomial.eval ![u, v] (pd A 0 i) = (derivative^[i] B).eval v)
    (hW : ∀ i, MvPolynomial.eval ![u, v] (pd W 0 i) = (derivative^[i] V).eval v) (a : ℕ) :
    mixDeriv A W 0 a u v = quotDeriv B V a v := by
  have hW0 : MvPolynomial.eval ![u, v] W = V.eval v := hW 0
  induction a using Nat.strong_induction_on with
  | _ a ih =>
    rw [mixDeriv_rec A W u v (by rwa [hW0]) 0 a, quotDeriv_rec B V v hV a, hW0, hA]
    simp only [Finset.range_zero, Finset.sum_empty, sub_zero]
    congr 2
    apply Finset.sum_congr rfl
    intro i hi
    have := Finset.mem_range.mp hi
    rw [hW, ih _ (by omega)]

theorem choose_29 (a : ℕ) (ha : a ≤ 29) : a.choose (a / 2) ≤ 2147483647 := by
  refine le_trans (Nat.choose_le_choose _ ha) (le_trans (Nat.choose_le_middle _ _) ?_)
  decide +kernel

theorem edge_u {p q m n : ℕ} {s : Surface K} (hw : WFSurface p q m n s) {x v : K} (h0 : 0 ≤ x) (h1 : x ≤ 1) (hv0 : 0 ≤ v) (hv1 : v ≤ 1)
    {kv j : ℕ} (hkv : IsSpan s.KnotsV.Values v kv) (hj : j < n) (hjk : kv ≤ j + q) (hjk' : j ≤ kv)
    (hw1 : ∀ i, j < i → i ≤ j + q → kn s.KnotsV.Values i = v) (a : ℕ) (ha : a ≤ 29) :
    ∃ D, s.EvaluateDerivative x v a 0 = .ok D ∧ (rowCurve m s j).EvaluateDerivative x a = .ok D := by
  obtain ⟨ku, hku, _, _⟩ := exists_span hw.clampedU h0 h1
  obtain ⟨hpk, hkm, hqk, hkn, hru, hrv, _, _⟩ := surface_seg hw h0 h1 hv0 hv1 hku hkv
  obtain ⟨hpos, he⟩ := surface_evaluateAll_ok hw h0 h1 hv0 hv1 hku hkv a 0 ha (by omega) (by simpa using choose_29 a ha)
  obtain ⟨hpos', he'⟩ := curve_evaluateAll_ok (rowCurve_wf hw hj) h0 h1 (k := ku) hku a ha
  have key : ∀ (L : Vec4 K →ₗ[K] K) i, MvPolynomial.eval ![x, v] (pd (surfP p q s ku kv L) i 0) =
      (derivative^[i] (curveP p (rowCurve m s j) ku L)).eval x := by
    intro L i
    rw [surfP_pd, curveP, segP_deriv]
    have : homD2 p q s ku kv x v i 0 = seg (kn s.KnotsV.Values) kv v q fun j => ∑ n ∈ Finset.range (p + 1),
        (derivative^[i] (NlP (kn s.KnotsU.Values) ku p (ku - p + n))).eval x • hcp s (ku - p + n) j := by
      unfold homD2 seg
      simp only [Function.iterate_zero, id, NlP_eval]
    rw [this, seg_eq_point _ _ _ _ j _ hqk hrv hjk hjk' hw1, map_sum]
    apply Finset.sum_congr rfl
    intro n hn
    have := Finset.mem_range.mp hn
    rw [map_smul, smul_eq_mul, hpts_rowCurve (by omega)]
    rfl
  refine ⟨ratD2 p q s ku kv x v a 0, ?_, ?_⟩
  · unfold Surface.EvaluateDerivative
    rw [show ((0 : Int)) = ((0 : ℕ) : Int) from rfl, he, bind_ok, get_gridOf _ _ _ _ _ a 0 rfl rfl (by omega) (by omega)]
  · unfold Curve.EvaluateDerivative
    rw [he', bind_ok, vget_tab _ _ _ a rfl (by omega)]
    congr 1
    ext
    · exact (mix_edge_u _ _ _ _ x v hpos'.ne' (key Vec4.lx) (key Vec4.lw) a).symm
    · exact (mix_edge_u _ _ _ _ x v hpos'.ne' (key Vec4.ly) (key Vec4.lw) a).symm
    · exact (mix_edge_u _ _ _ _ x v hpos'.ne' (key Vec4.lz) (key Vec4.lw) a).symm

theorem edge_v {p q m n : ℕ} {s : Surface K} (hw : WFSurface p q m n s) {x u : K} (h0 : 0 ≤ x) (h1 : x ≤ 1) (hu0 : 0 ≤ u) (hu1 : u ≤ 1)
    {ku j : ℕ} (hku : IsSpan s.KnotsU.Values u ku) (hj : j < m) (hjk : ku ≤ j + p) (hjk' : j ≤ ku)
    (hw1 : ∀ i, j < i → i ≤ j + p → kn s.KnotsU.Values i = u) (a : ℕ) (ha : a ≤ 29) :
    ∃ D, s.EvaluateDerivative u x 0 a = .ok D ∧ (colCurve n s j).EvaluateDerivative x a = .ok D := by
  obtain ⟨kv, hkv, _, _⟩ := exists_span hw.clampedV h0 h1
  obtain ⟨hpk, hkm, hqk, hkn, hru, hrv, _, _⟩ := surface_seg hw hu0 hu1 h0 h1 hku hkv
  obtain ⟨hpos, he⟩ := surface_evaluateAll_ok hw hu0 hu1 h0 h1 hku hkv 0 a (by omega) ha (by simpa using choose_29 a ha)
  obtain ⟨hpos', he'⟩ := curve_evaluateAll_ok (colCurve_wf hw hj) h0 h1 (k := kv) hkv a ha
  have key : ∀ (L : Vec4 K →ₗ[K] K) i, MvPolynomial.eval ![u, x] (pd (surfP p q s ku kv L) 0 i) =
      (derivative^[i] (curveP q (colCurve n s j) kv L)).eval x := by
    intro L i
    rw [surfP_pd, curveP, segP_deriv]
    have : homD2 p q s ku kv u x 0 i = ∑ b ∈ Finset.range (q + 1), (derivative^[i] (NlP (kn s.KnotsV.Values) kv q (kv - q + b))).eval x •
        seg (kn s.KnotsU.Values) ku u p fun c => hcp s c (kv - q + b) := by
      unfold homD2 seg
      simp only [Function.iterate_zero, id, NlP_eval]
    rw [this, map_sum]
    apply Finset.sum_congr rfl
    intro b hb
    have := Finset.mem_range.mp hb
    rw [seg_eq_point _ _ _ _ j _ hpk hru hjk hjk' hw1, map_smul, smul_eq_mul, hpts_colCurve (by omega)]
    rfl
  refine ⟨ratD2 p q s ku kv u x 0 a, ?_, ?_⟩
  · unfold Surface.EvaluateDerivative
    rw [show ((0 : Int)) = ((0 : ℕ) : Int) from rfl, he, bind_ok, get_gridOf _ _ _ _ _ 0 a rfl rfl (by omega) (by omega)]
  · unfold Curve.EvaluateDerivative
    rw [he', bind_ok, vget_tab _ _ _ a rfl (by omega)]
    congr 1
    ext
    · exact (mix_edge_v _ _ _ _ u x hpos'.ne' (key Vec4.lx) (key Vec4.lw) a).symm
    · exact (mix_edge_v _ _ _ _ u x hpos'.ne' (key Vec4.ly) (key Vec4.lw) a).symm
    · exact (mix_edge_v _ _ _ _ u x hpos'.ne' (key Vec4.lz) (key Vec4.lw) a).symm

/-- C90 (edges).  Along the four edges of a surface the derivatives along the edge are the derivatives of the curve of the
first / last row or column of control points, of every order up to 29 (the orders the library can compute, see C29). -/
theorem C90_edges {p q m n : ℕ} {s : Surface K} (hw : WFSurface p q m n s) {x : K} (h0 : 0 ≤ x) (h1 : x ≤ 1) (a : ℕ) (ha : a ≤ 29) :
    ∃ A B C D, s.EvaluateDerivative x 0 a 0 = .ok A ∧ (rowCurve m s 0).EvaluateDerivative x a = .ok A ∧
      s.EvaluateDerivative x 1 a 0 = .ok B ∧ (rowCurve m s (n - 1)).EvaluateDerivative x a = .ok B ∧
      s.EvaluateDerivative 0 x 0 a = .ok C ∧ (colCurve n s 0).EvaluateDerivative x a = .ok C ∧
      s.EvaluateDerivative 1 x 0 a = .ok D ∧ (colCurve n s (m - 1)).EvaluateDerivative x a = .ok D := by
  have hlu := hw.knotsU
  have hlv := hw.knotsV
  have hcu := hw.clampedU
  have hcv := hw.clampedV
  have hu := hcu.len
  have hv := hcv.len
  obtain ⟨n, rfl⟩ : ∃ n', n = n' + 1 := ⟨n - 1, by omega⟩
  obtain ⟨m, rfl⟩ : ∃ m', m = m' + 1 := ⟨m - 1, by omega⟩
  simp only [Nat.add_sub_cancel]
  obtain ⟨A, a1, a2⟩ := edge_u hw h0 h1 le_rfl zero_le_one (span_zero hcv) (j := 0) (by omega) (by omega) (by omega)
    (fun j _ hj => hcv.zeros j (by omega)) a ha
  obtain ⟨B, b1, b2⟩ := edge_u hw h0 h1 zero_le_one le_rfl (span_one (n := n) hcv (by omega)) (j := n) (by omega) (by omega) (by omega)
    (fun j _ hj => hcv.ones j (by omega) (by omega)) a ha
  obtain ⟨C, c1, c2⟩ := edge_v hw h0 h1 le_rfl zero_le_one (span_zero hcu) (j := 0) (by omega) (by omega) (by omega)
    (fun j _ hj => hcu.zeros j (by omega)) a ha
  obtain ⟨D, d1, d2⟩ := edge_v hw h0 h1 zero_le_one le_rfl (span_one (n := m) hcu (by omega)) (j := m) (by omega) (by omega) (by omega)
    (fun j _ hj => hcu.ones j (by omega) (by omega)) a ha
  exact ⟨A, B, C, D, a1, a2, b1, b2, c1, c2, d1, d2⟩

example : exSurface.EvaluateDerivative (1/3) 1 2 0 = (rowCurve 4 exSurface 2).EvaluateDerivative (1/3) 2 ∧
    exSurface.EvaluateDerivative (1/3) 1 2 0 ≠ .ok 0 ∧ (∃ D, exSurface.EvaluateDerivative (1/3) 1 2 0 = .ok D) := by
  refine ⟨by decide +kernel, by decide +kernel, ?_⟩
  obtain ⟨_, B, _, _, _, _, h, _⟩ := C90_edges exSurface_wf (show (0 : ℚ) ≤ 1 / 3 by norm_num) (by norm_num) 2 (by omega)
  exact ⟨B, h⟩

end Nurbs.Props
