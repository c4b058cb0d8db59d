import Verif.Spec.Deriv
import Verif.Proof.Deriv
import Verif.Proof.Curve
import Verif.Props.Utils
import Mathlib.Data.Nat.Choose.Sum
import Mathlib.Algebra.Polynomial.Roots
import Mathlib.Order.Interval.Set.Infinite
import Mathlib.Algebra.Polynomial.Eval.SMul
import Mathlib.Algebra.BigOperators.Field
import Mathlib.Tactic.FieldSimp

/-! # `Curve::EvaluateAll` -/

set_option linter.unusedSectionVars false

namespace Nurbs
open Nurbs.Spec Polynomial

theorem forUp_err {σ : Type} (f : Int → σ → M σ) (e : Err) (n : ℕ) : ∀ (g : ℕ → σ) (m : ℕ) (lo : Int),
    (∀ i < n, f (lo + i) (g i) = .ok (g (i + 1))) → f (lo + n) (g n) = .error e → n < m → forUp lo m f (g 0) = .error e := by
  induction n with
  | zero =>
    intro g m lo _ he hm
    obtain ⟨m, rfl⟩ : ∃ m', m = m' + 1 := ⟨m - 1, by omega⟩
    simp only [Nat.cast_zero, add_zero] at he
    simp [forUp, he]
  | succ n ih =>
    intro g m lo h he hm
    obtain ⟨m, rfl⟩ : ∃ m', m = m' + 1 := ⟨m - 1, by omega⟩
    have h0 := h 0 (by omega)
    simp only [Nat.cast_zero, add_zero] at h0
    simp only [forUp, h0, bind_ok]
    refine ih (fun i => g (i + 1)) m (lo + 1) (fun i hi => ?_) ?_ (by omega)
    · have := h (i + 1) (by omega)
      rw [show lo + 1 + (i : ℕ) = lo + ((i + 1 : ℕ) : Int) by push_cast; ring]; exact this
    · rw [show lo + 1 + (n : ℕ) = lo + ((n + 1 : ℕ) : Int) by push_cast; ring]; exact he

section quot
variable {K : Type} [Field K] [LinearOrder K]

theorem mul_derivative_pow (W : K[X]) (i : ℕ) : W * derivative (W ^ i) = i * W ^ i * derivative W := by
  cases i with
  | zero => simp
  | succ i => rw [derivative_pow, Nat.add_sub_cancel]; push_cast; simp only [C_add, C_1, map_natCast]; ring

/-- The generalised Leibniz identity behind the rational derivative algorithm. -/
theorem quot_identity (A W : K[X]) (m : ℕ) :
    ∑ ij ∈ Finset.antidiagonal m, m.choose ij.1 • (derivative^[ij.1] W * quotNum A W ij.2 * W ^ ij.1) =
      W ^ (m + 1) * derivative^[m] A := by
  induction m with
  | zero => simp [quotNum]
  | succ m ih =>
    have key : W * derivative (W ^ (m + 1) * derivative^[m] A) - (m + 1 : ℕ) * derivative W * (W ^ (m + 1) * derivative^[m] A) =
        W ^ (m + 2) * derivative^[m + 1] A := by
      rw [derivative_mul, Function.iterate_succ_apply', mul_add, ← mul_assoc W, mul_derivative_pow]
      push_cast
      ring
    rw [← key, ← ih, derivative_sum, Finset.mul_sum, Finset.mul_sum, ← Finset.sum_sub_distrib,
      Finset.sum_antidiagonal_choose_succ_nsmul (fun i j => derivative^[i] W * quotNum A W j * W ^ i) m,
      ← Finset.sum_add_distrib]
    apply Finset.sum_congr rfl
    rintro ⟨i, j⟩ hij
    have hij' : i + j = m := Finset.mem_antidiagonal.mp hij
    have h4 : m.choose j = m.choose i := (Nat.choose_symm_of_eq_add hij'.symm).symm
    rw [h4]
    simp only [nsmul_eq_mul, derivative_mul, derivative_natCast, zero_mul, zero_add]
    have h1 : derivative (derivative^[i] W) = derivative^[i + 1] W := (Function.iterate_succ_apply' _ _ _).symm
    have h2 : quotNum A W (j + 1) = derivative (quotNum A W j) * W - ((j : K[X]) + 1) * (quotNum A W j * derivative W) := by
      rw [quotNum, nsmul_eq_mul]; push_cast; rfl
    have h3 := mul_derivative_pow W i
    rw [h1, h2, ← hij']
    push_cast
    linear_combination ((i + j).choose i : K[X]) * (-1) * (derivative^[i] W * quotNum A W j) * h3

theorem quotDeriv_rec (A W : K[X]) (x : K) (hW : W.eval x ≠ 0) (m : ℕ) :
    quotDeriv A W m x = ((derivative^[m] A).eval x -
      ∑ i ∈ Finset.range m, (m.choose (i + 1) : K) * (derivative^[i + 1] W).eval x * quotDeriv A W (m - (i + 1)) x) / W.eval x := by
  have h := congrArg (eval x) (quot_identity A W m)
  rw [Finset.Nat.sum_antidiagonal_eq_sum_range_succ_mk, eval_finsetSum, Finset.sum_range_succ'] at h
  simp only [Nat.choose_zero_right, Function.iterate_zero, id, Nat.sub_zero, pow_zero, mul_one, one_smul, eval_mul, eval_pow,
    eval_smul] at h
  rw [eq_div_iff hW]
  have hp : W.eval x ^ (m + 1) ≠ 0 := pow_ne_zero _ hW
  have h2 : (derivative^[m] A).eval x = (∑ i ∈ Finset.range m, eval x (m.choose (i + 1) • (derivative^[i + 1] W * quotNum A W (m - (i + 1)) * W ^ (i + 1))) +
      W.eval x * (quotNum A W m).eval x) / W.eval x ^ (m + 1) := by
    simp only [eval_smul, eval_mul, eval_pow]
    rw [eq_div_iff hp, h]; ring
  rw [h2, add_div, Finset.sum_div]
  have h3 : ∀ i ∈ Finset.range m, eval x (m.choose (i + 1) • (derivative^[i + 1] W * quotNum A W (m - (i + 1)) * W ^ (i + 1))) / W.eval x ^ (m + 1) =
      (m.choose (i + 1) : K) * (derivative^[i + 1] W).eval x * quotDeriv A W (m - (i + 1)) x := by
    intro i hi
    have := Finset.mem_range.mp hi
    rw [eval_smul, eval_mul, eval_mul, eval_pow, nsmul_eq_mul]
    unfold quotDeriv
    rw [show m + 1 = (m - (i + 1) + 1) + (i + 1) by omega, pow_add]
    field_simp
    ring
  rw [Finset.sum_congr rfl h3]
  unfold quotDeriv
  rw [pow_succ]
  field_simp
  ring

end quot

section
variable {K : Type} [Field K] [LinearOrder K] [IsStrictOrderedRing K]

/-- Pieces are unique. -/
theorem isPiece_unique {l : List K} {k : ℕ} {f : K → K} {P Q : K[X]} (hk : kn l k < kn l (k + 1)) (hl : k + 1 < l.length)
    (hP : IsPiece l k f P) (hQ : IsPiece l k f Q) : P = Q := by
  apply Polynomial.eq_of_infinite_eval_eq
  apply (Set.Ico_infinite hk).mono
  intro t ht
  have hs : IsSpan l t k := ⟨hl, ht.1, Or.inl ht.2⟩
  simp only [Set.mem_ofPred_eq]
  rw [← hP t hs, ← hQ t hs]

/-- The polynomial of a segment with scalar coefficients. -/
noncomputable def segP (U : ℕ → K) (k p : ℕ) (g : ℕ → K) : K[X] :=
  ∑ n ∈ Finset.range (p + 1), C (g (k - p + n)) * NlP U k p (k - p + n)

theorem segP_eval (U : ℕ → K) (k p : ℕ) (g : ℕ → K) (x : K) : (segP U k p g).eval x = seg U k x p g := by
  unfold segP seg
  rw [eval_finsetSum]
  apply Finset.sum_congr rfl
  intro n _
  rw [eval_mul, eval_C, NlP_eval, smul_eq_mul, mul_comm]

theorem segP_deriv (U : ℕ → K) (k p : ℕ) (g : ℕ → K) (x : K) (m : ℕ) : (derivative^[m] (segP U k p g)).eval x =
    ∑ n ∈ Finset.range (p + 1), (derivative^[m] (NlP U k p (k - p + n))).eval x * g (k - p + n) := by
  unfold segP
  rw [iterate_derivative_sum, eval_finsetSum]
  apply Finset.sum_congr rfl
  intro n _
  rw [iterate_derivative_C_mul, eval_mul, eval_C, mul_comm]

/-- Everything `EvaluateAll` of the basis returns, in terms of derivatives of the pieces. -/
theorem evaluateAllAt_deriv {knots : List K} {k p : ℕ} {x : K} (hp : p ≤ k) (hl : k + p < knots.length) (hr : RegSpan (kn knots) k p) (order : ℕ) :
    BSplineBasis.EvaluateAllAt p knots k x order = .ok (tab (order + 1) fun m => tab (p + 1) fun r =>
      (derivative^[m] (NlP (kn knots) k p (k - p + r))).eval x) := by
  rw [evaluateAllAt_ok hp hl hr]
  congr 1
  refine tab_congr fun m _ => tab_congr fun r _ => ?_
  rw [derSum_eq _ _ _ _ _ _ hr]

theorem homogeneousDerivative_ok {p : ℕ} {c : Curve K} (hd : c.Degree = p) (hc : Clamped p c.Knots.Values)
    (hn : c.Knots.Values.length = c.ControlPoints.length + p + 1) {x : K} (h0 : 0 ≤ x) (h1 : x ≤ 1) {k : ℕ}
    (hk : IsSpan c.Knots.Values x k) (order : ℕ) :
    c.HomogeneousDerivative x order = .ok (tab (order + 1) fun m => ∑ n ∈ Finset.range (p + 1),
      (derivative^[m] (NlP (kn c.Knots.Values) k p (k - p + n))).eval x • hpts c.ControlPoints (k - p + n)) := by
  obtain ⟨k', hk', hs, hpk, hlk⟩ := findSpanIndex_spec hc h0 h1
  obtain rfl : k = k' := isSpan_unique hc.sorted hk hs (fun i hi => hc.le_one hi)
  have hreg : RegSpan (kn c.Knots.Values) k p := regSpan_of_sorted hc.sorted (IsSpan.lt hs) (by omega)
  unfold Curve.HomogeneousDerivative
  rw [massert_true ⟨h0, h1⟩, bind_ok, hd, hk', bind_ok, evaluateAllAt_deriv hpk (by omega) hreg, bind_ok,
    massert_true (by simp), bind_ok, massert_true (by
      intro row hrow
      unfold tab at hrow
      obtain ⟨m, _, rfl⟩ := List.mem_map.mp hrow
      simp), bind_ok, vnew_of _ (order + 1) _ (by push_cast; ring), bind_ok, replicate_eq_tab, forLe_eq_forUp 0 order (order + 1) (by omega)]
  set D : ℕ → Vec4 K := fun m => ∑ n ∈ Finset.range (p + 1),
      (derivative^[m] (NlP (kn c.Knots.Values) k p (k - p + n))).eval x • hpts c.ControlPoints (k - p + n) with hD
  have key := forUp_eq (fun (k_1 : Int) (result : List (Vec4 K)) => do
      let tmp ← forLe 0 (p : Int) (fun i (tmp : Vec4 K) => do
        let point := ToHomo (← vget c.ControlPoints ((k : Int) - (p : Int) + i))
        return tmp + (← mget (tab (order + 1) fun m => tab (p + 1) fun r =>
          (derivative^[m] (NlP (kn c.Knots.Values) k p (k - p + r))).eval x) k_1 i) • point) 0
      vset result k_1 tmp) (fun n => tab (order + 1) fun m => if m < n then D m else 0) (order + 1) 0 (by
    intro m hm
    rw [forLe_eq_forUp 0 p (p + 1) (by omega), forUp_finsum _ (fun n => (derivative^[m] (NlP (kn c.Knots.Values) k p (k - p + n))).eval x • hpts c.ControlPoints (k - p + n))]
    · rw [bind_ok, zero_add, zero_add]
      apply vset_tab' _ _ _ _ m _ rfl hm
      intro j _
      by_cases h : j = m
      · subst h; simp [hD]
      · by_cases h2 : j < m
        · rw [if_pos (by omega), if_neg h, if_pos h2]
        · rw [if_neg (by omega), if_neg h, if_neg h2]
    · intro i hi t
      rw [vget_pt c.ControlPoints _ (k - p + i) (by omega) (by omega), bind_ok,
        mget_tab (order + 1) (p + 1) _ _ _ m i (by simp) (by simp) hm hi, bind_ok]
      rfl)
  simp only [Nat.not_lt_zero, if_false] at key
  rw [key]
  congr 1
  refine tab_congr fun m hm => ?_
  rw [if_pos hm]

/-- Numerator polynomials of the four homogeneous coordinates. -/
noncomputable def curveP (p : ℕ) (c : Curve K) (k : ℕ) (L : Vec4 K → K) : K[X] :=
  segP (kn c.Knots.Values) k p fun i => L (hpts c.ControlPoints i)

theorem curveP_piece {p : ℕ} {c : Curve K} (hw : WFCurve p c) {k : ℕ} (hpk : p ≤ k) (hl : k + p + 2 ≤ c.Knots.Values.length)
    (L : Vec4 K → K) (f : Vec4 K → K) (hL : ∀ v : Vec4 K, L (ToHomo v) = v.w * f v) :
    IsPiece c.Knots.Values k (fun t => wsum p c t f) (curveP p c k L) := by
  intro t ht
  unfold curveP
  rw [segP_eval, ← sum_N_window hw.clamped ht hpk hl hw.count]
  simp only [wsum]
  apply Finset.sum_congr rfl
  intro i _
  rw [smul_eq_mul, hpts, hL, mul_assoc]

/-- The homogeneous derivatives as computed. -/
noncomputable def homD (p : ℕ) (c : Curve K) (k : ℕ) (x : K) (m : ℕ) : Vec4 K := ∑ n ∈ Finset.range (p + 1),
      (derivative^[m] (NlP (kn c.Knots.Values) k p (k - p + n))).eval x • hpts c.ControlPoints (k - p + n)

/-- The derivatives of the rational curve. -/
noncomputable def ratD (p : ℕ) (c : Curve K) (k : ℕ) (x : K) (m : ℕ) : Vec3 K :=
  ⟨quotDeriv (curveP p c k (·.x)) (curveP p c k (·.w)) m x, quotDeriv (curveP p c k (·.y)) (curveP p c k (·.w)) m x,
        quotDeriv (curveP p c k (·.z)) (curveP p c k (·.w)) m x⟩

/-- One pass of the loop of `Curve::EvaluateAll`. -/
theorem evaluateAll_step {p : ℕ} {c : Curve K} {x : K} {k : ℕ} (hne : (curveP p c k (·.w)).eval x ≠ 0) (order m : ℕ) (hmo : m ≤ order) (ho : m ≤ 29) :
    (do
      let Aders := (← vget (tab (order + 1) (homD p c k x)) (0 + (m : ℕ))).head3
      let Aders ← forLe 1 (0 + (m : ℕ)) (fun i (Aders : Vec3 K) => do
        let Wders := (← vget (tab (order + 1) (homD p c k x)) i).w
        return Aders - (((← Binomial (0 + (m : ℕ)) i : Int) : K) * Wders) • (← vget (tab (order + 1) fun m' => if m' < m then ratD p c k x m' else 0) (0 + (m : ℕ) - i))) Aders
      vset (tab (order + 1) fun m' => if m' < m then ratD p c k x m' else 0) (0 + (m : ℕ)) (← Aders.divM (homD p c k x 0).w)) =
    .ok (tab (order + 1) fun m' => if m' < m + 1 then ratD p c k x m' else 0) := by
  set W := curveP p c k (·.w) with hW
  have hHw : ∀ m, (homD p c k x m).w = (derivative^[m] W).eval x := fun m => by
    simp only [homD, hW, curveP]; rw [segP_deriv, Vec4.sum_w]; rfl
  have hHx : ∀ m, (homD p c k x m).x = (derivative^[m] (curveP p c k (·.x))).eval x := fun m => by
    simp only [homD, curveP]; rw [segP_deriv, Vec4.sum_x]; rfl
  have hHy : ∀ m, (homD p c k x m).y = (derivative^[m] (curveP p c k (·.y))).eval x := fun m => by
    simp only [homD, curveP]; rw [segP_deriv, Vec4.sum_y]; rfl
  have hHz : ∀ m, (homD p c k x m).z = (derivative^[m] (curveP p c k (·.z))).eval x := fun m => by
    simp only [homD, curveP]; rw [segP_deriv, Vec4.sum_z]; rfl
  have hW0 : (homD p c k x 0).w = W.eval x := by rw [hHw]; rfl
  have hm : m < order + 1 := by omega
  rw [vget_tab _ _ _ m (by simp) hm, bind_ok]
  simp only
  rw [forLe_eq_forUp 1 _ m (by omega)]
  rw [forUp_finsum _ (fun i => -(((m.choose (i + 1) : K) * (homD p c k x (i + 1)).w) • ratD p c k x (m - (i + 1))))]
  · rw [bind_ok]
    have hd : ∀ v : Vec3 K, v.divM (homD p c k x 0).w = .ok ⟨v.x / W.eval x, v.y / W.eval x, v.z / W.eval x⟩ := by
      intro v
      unfold Vec3.divM
      rw [hW0, fdiv_ok hne, bind_ok, fdiv_ok hne, bind_ok, fdiv_ok hne, bind_ok]
    rw [hd, bind_ok, zero_add]
    apply vset_tab' _ _ _ _ m _ rfl hm
    intro j _
    by_cases h : j = m
    · subst h
      rw [if_pos (by omega), if_pos rfl]
      have vx : ∀ (s : Finset ℕ) (f : ℕ → Vec3 K), (∑ i ∈ s, f i).x = ∑ i ∈ s, (f i).x := fun s f => by
        induction s using Finset.cons_induction <;> simp_all
      have vy : ∀ (s : Finset ℕ) (f : ℕ → Vec3 K), (∑ i ∈ s, f i).y = ∑ i ∈ s, (f i).y := fun s f => by
        induction s using Finset.cons_induction <;> simp_all
      have vz : ∀ (s : Finset ℕ) (f : ℕ → Vec3 K), (∑ i ∈ s, f i).z = ∑ i ∈ s, (f i).z := fun s f => by
        induction s using Finset.cons_induction <;> simp_all
      simp only [ratD, Vec4.head3]
      ext
      · simp only [Vec3.sub_x, vx, Vec3.smul_x, Finset.sum_neg_distrib, hHw, hHx, ← sub_eq_add_neg]
        exact quotDeriv_rec _ W x hne j
      · simp only [Vec3.sub_y, vy, Vec3.smul_y, Finset.sum_neg_distrib, hHw, hHy, ← sub_eq_add_neg]
        exact quotDeriv_rec _ W x hne j
      · simp only [Vec3.sub_z, vz, Vec3.smul_z, Finset.sum_neg_distrib, hHw, hHz, ← sub_eq_add_neg]
        exact quotDeriv_rec _ W x hne j
    · by_cases h2 : j < m
      · rw [if_pos (by omega), if_neg h, if_pos h2]
      · rw [if_neg (by omega), if_neg h, if_neg h2]
  · intro i hi t
    rw [vget_tab _ _ _ (i + 1) (by push_cast; ring) (by omega), bind_ok,
      show (1 : Int) + (i : ℕ) = ((i + 1 : ℕ) : Int) by push_cast; ring, zero_add,
      Props.C13_binomial m (by omega) (i + 1), bind_ok, vget_tab _ _ _ (m - (i + 1)) (by omega) (by omega), bind_ok,
      if_pos (by omega), ← sub_eq_add_neg]
    simp

/-- `Curve::EvaluateAll`. -/
theorem curve_evaluateAll_ok {p : ℕ} {c : Curve K} (hw : WFCurve p c) {x : K} (h0 : 0 ≤ x) (h1 : x ≤ 1) {k : ℕ}
    (hk : IsSpan c.Knots.Values x k) (order : ℕ) (ho : order ≤ 29) :
    0 < (curveP p c k (·.w)).eval x ∧
    c.EvaluateAll x order = .ok (tab (order + 1) (ratD p c k x)) := by
  obtain ⟨hpk, hlk, hreg, hpos, _⟩ := evaluate_seg hw h0 h1 hk
  have hwe : ∀ t, (curveP p c k (·.w)).eval t = (seg (kn c.Knots.Values) k t p (hpts c.ControlPoints)).w := by
    intro t
    unfold curveP
    rw [segP_eval]; unfold seg; rw [Vec4.sum_w]; rfl
  rw [← hwe] at hpos
  refine ⟨hpos, ?_⟩
  unfold Curve.EvaluateAll
  rw [homogeneousDerivative_ok hw.degree hw.clamped hw.count h0 h1 hk, bind_ok, vnew_of _ (order + 1) _ (by push_cast; ring), bind_ok,
    replicate_eq_tab, vget_tab _ _ _ 0 (by simp) (by omega), bind_ok, forLe_eq_forUp 0 order (order + 1) (by omega)]
  have key := forUp_eq (fun (m : Int) (result : List (Vec3 K)) => do
      let Aders := (← vget (tab (order + 1) (homD p c k x)) m).head3
      let Aders ← forLe 1 m (fun i (Aders : Vec3 K) => do
        let Wders := (← vget (tab (order + 1) (homD p c k x)) i).w
        return Aders - (((← Binomial m i : Int) : K) * Wders) • (← vget result (m - i))) Aders
      vset result m (← Aders.divM (homD p c k x 0).w)) (fun n => tab (order + 1) fun m => if m < n then ratD p c k x m else 0) (order + 1) 0
    (fun m hm => evaluateAll_step hpos.ne' order m (by omega) (by omega))
  simp only [Nat.not_lt_zero, if_false] at key
  refine key.trans ?_
  congr 1
  refine tab_congr fun m hm => ?_
  rw [if_pos hm]

theorem binomial_30_lt (i : ℕ) (hi : i < 14) : Binomial ((30 : ℕ) : Int) ((i + 1 : ℕ) : Int) = .ok ((Nat.choose 30 (i + 1) : ℕ) : Int) := by
  apply (Props.C13_binomial_exact 30 (i + 1)).1
  have : ∀ j < 15, j * Nat.choose 30 j ≤ 2147483647 := by decide
  intro j _ hj
  exact this j (by omega)

theorem binomial_30_15 : Binomial ((30 : ℕ) : Int) ((14 + 1 : ℕ) : Int) = .error .ub := by decide +kernel

/-- The inner loop fails as soon as a binomial coefficient does. -/
theorem evaluateAll_inner_ub {p : ℕ} {c : Curve K} {x : K} {k : ℕ} (order m t : ℕ) (hmo : m ≤ order) (htm : t < m)
    (hb : ∀ i < t, Binomial (m : Int) ((i + 1 : ℕ) : Int) = .ok ((m.choose (i + 1) : ℕ) : Int))
    (hub : Binomial (m : Int) ((t + 1 : ℕ) : Int) = .error .ub) :
    (do
      let Aders := (← vget (tab (order + 1) (homD p c k x)) (0 + (m : ℕ))).head3
      let Aders ← forLe 1 (0 + (m : ℕ)) (fun i (Aders : Vec3 K) => do
        let Wders := (← vget (tab (order + 1) (homD p c k x)) i).w
        return Aders - (((← Binomial (0 + (m : ℕ)) i : Int) : K) * Wders) • (← vget (tab (order + 1) fun m' => if m' < m then ratD p c k x m' else 0) (0 + (m : ℕ) - i))) Aders
      vset (tab (order + 1) fun m' => if m' < m then ratD p c k x m' else 0) (0 + (m : ℕ)) (← Aders.divM (homD p c k x 0).w)) =
    .error .ub := by
  have hm : m < order + 1 := by omega
  rw [vget_tab _ _ _ m (by simp) hm, bind_ok]
  simp only [zero_add]
  rw [forLe_eq_forUp 1 _ m (by omega)]
  have := forUp_err (fun i (Aders : Vec3 K) => do
      let Wders := (← vget (tab (order + 1) (homD p c k x)) i).w
      return Aders - (((← Binomial (m : ℕ) i : Int) : K) * Wders) • (← vget (tab (order + 1) fun m' => if m' < m then ratD p c k x m' else 0) ((m : ℕ) - i))) .ub t
      (fun n => (homD p c k x m).head3 - ∑ i ∈ Finset.range n, ((m.choose (i + 1) : K) * (homD p c k x (i + 1)).w) • ratD p c k x (m - (i + 1))) m 1 (by
        intro i hi
        rw [vget_tab _ _ _ (i + 1) (by push_cast; ring) (by omega), bind_ok]
        simp only
        rw [show (1 : Int) + (i : ℕ) = ((i + 1 : ℕ) : Int) by push_cast; ring, hb i hi, bind_ok,
          vget_tab _ _ _ (m - (i + 1)) (by omega) (by omega), bind_ok, if_pos (by omega), pure_ok,
          Finset.sum_range_succ, sub_add_eq_sub_sub]
        simp) (by
        rw [vget_tab _ _ _ (t + 1) (by push_cast; ring) (by omega), bind_ok]
        simp only
        rw [show (1 : Int) + (t : ℕ) = ((t + 1 : ℕ) : Int) by push_cast; ring, hub]
        rfl) htm
  simp only [Finset.range_zero, Finset.sum_empty, sub_zero] at this
  rw [this]
  rfl

/-- Orders from 30 on overflow in `Binomial`. -/
theorem curve_evaluateAll_ub {p : ℕ} {c : Curve K} (hw : WFCurve p c) {x : K} (h0 : 0 ≤ x) (h1 : x ≤ 1) {k : ℕ}
    (hk : IsSpan c.Knots.Values x k) (hne : (curveP p c k (·.w)).eval x ≠ 0) (order : ℕ) (ho : 30 ≤ order) :
    c.EvaluateAll x order = .error .ub := by
  unfold Curve.EvaluateAll
  rw [homogeneousDerivative_ok hw.degree hw.clamped hw.count h0 h1 hk, bind_ok, vnew_of _ (order + 1) _ (by push_cast; ring), bind_ok,
    replicate_eq_tab, vget_tab _ _ _ 0 (by simp) (by omega), bind_ok, forLe_eq_forUp 0 order (order + 1) (by omega)]
  obtain ⟨m, hm⟩ : ∃ m : ℕ, m = 30 := ⟨30, rfl⟩
  have hb1 : ∀ i < 14, Binomial (m : Int) ((i + 1 : ℕ) : Int) = .ok ((m.choose (i + 1) : ℕ) : Int) := by subst hm; exact binomial_30_lt
  have hb2 : Binomial (m : Int) ((14 + 1 : ℕ) : Int) = .error .ub := by subst hm; exact binomial_30_15
  have key := forUp_err (fun (m : Int) (result : List (Vec3 K)) => do
      let Aders := (← vget (tab (order + 1) (homD p c k x)) m).head3
      let Aders ← forLe 1 m (fun i (Aders : Vec3 K) => do
        let Wders := (← vget (tab (order + 1) (homD p c k x)) i).w
        return Aders - (((← Binomial m i : Int) : K) * Wders) • (← vget result (m - i))) Aders
      vset result m (← Aders.divM (homD p c k x 0).w)) .ub m (fun n => tab (order + 1) fun m => if m < n then ratD p c k x m else 0) (order + 1) 0
    (fun i hi => evaluateAll_step hne order i (by omega) (by omega))
    (evaluateAll_inner_ub order m 14 (by omega) (by omega) hb1 hb2) (by omega)
  simp only [Nat.not_lt_zero, if_false] at key
  exact key

end

end Nurbs
