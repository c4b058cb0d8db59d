import Verif.Proof.Unique
import Verif.Proof.Smooth
import Verif.Proof.Insert2
import Verif.Spec.Hodograph
import Verif.Spec.Align
import Verif.Proof.Align

/-! # Velocities of curves with equal weights -/

set_option linter.unusedSectionVars false

namespace Nurbs
open Polynomial Nurbs.Spec

variable {K : Type} [Field K] [LinearOrder K] [IsStrictOrderedRing K]

theorem segP_congr {U : ℕ → K} {k p : ℕ} {g h : ℕ → K} (hp : p ≤ k) (e : ∀ i, k ≤ i + p → i ≤ k → g i = h i) :
    segP U k p g = segP U k p h := by
  unfold segP
  refine Finset.sum_congr rfl fun n hn => ?_
  rw [Finset.mem_range] at hn
  rw [e _ (by omega) (by omega)]

theorem segP_mul (U : ℕ → K) (k p : ℕ) (a : K) (g : ℕ → K) : segP U k p (fun i => a * g i) = C a * segP U k p g := by
  unfold segP
  rw [Finset.mul_sum]
  refine Finset.sum_congr rfl fun n _ => ?_
  rw [C_mul, mul_assoc]

theorem segP_const {U : ℕ → K} {k p : ℕ} (hp : p ≤ k) (hr : RegSpan U k p) (a : K) : segP U k p (fun _ => a) = C a := by
  apply Polynomial.funext
  intro x
  rw [segP_eval, seg_const U k x p hp hr, eval_C]

theorem quotNum_const (A : K[X]) (w : K) (m : ℕ) : quotNum A (C w) m = derivative^[m] A * C w ^ m := by
  induction m with
  | zero => simp [quotNum]
  | succ m ih =>
    rw [quotNum, ih, derivative_C, mul_zero, smul_zero, sub_zero, derivative_mul, ← C_pow, derivative_C, mul_zero, add_zero,
      Function.iterate_succ_apply', C_pow, pow_succ, mul_assoc]

theorem quotDeriv_const (A : K[X]) {w : K} (hw : w ≠ 0) (m : ℕ) (x : K) :
    quotDeriv (C w * A) (C w) m x = (derivative^[m] A).eval x := by
  unfold quotDeriv
  rw [quotNum_const, iterate_derivative_C_mul, eval_mul, eval_mul, eval_pow, eval_C, pow_succ]
  field_simp

/-- Derivatives of a curve with equal weights. -/
theorem ratD_flat {p : ℕ} {c : Curve K} (hw : WFCurve p c) {W : K} (he : ∀ i < c.ControlPoints.length, (pt c.ControlPoints i).w = W)
    {k : ℕ} (hpk : p ≤ k) (hl : k + p + 2 ≤ c.Knots.Values.length) (hr : RegSpan (kn c.Knots.Values) k p) (x : K) (m : ℕ) :
    ratD p c k x m = ⟨(derivative^[m] (segP (kn c.Knots.Values) k p fun i => (pt c.ControlPoints i).x)).eval x,
      (derivative^[m] (segP (kn c.Knots.Values) k p fun i => (pt c.ControlPoints i).y)).eval x,
      (derivative^[m] (segP (kn c.Knots.Values) k p fun i => (pt c.ControlPoints i).z)).eval x⟩ := by
  have hct := hw.count
  have hW : W ≠ 0 := by
    have := hw.weights k (by omega)
    rw [he k (by omega)] at this
    exact this.ne'
  have key : ∀ (L f : Vec4 K → K), (∀ v, L (ToHomo v) = v.w * f v) →
      curveP p c k L = C W * segP (kn c.Knots.Values) k p fun i => f (pt c.ControlPoints i) := by
    intro L f hL
    unfold curveP
    rw [← segP_mul]
    refine segP_congr hpk fun i _ hi => ?_
    rw [hpts, hL, he i (by omega)]
  have hcw : curveP p c k (·.w) = C W := by
    rw [key (·.w) (fun _ => 1) (fun v => by simp [ToHomo]), segP_const hpk hr, C_1, mul_one]
  unfold ratD
  rw [hcw, key (·.x) (·.x) (fun v => by simp [ToHomo, mul_comm]), key (·.y) (·.y) (fun v => by simp [ToHomo, mul_comm]),
    key (·.z) (·.z) (fun v => by simp [ToHomo, mul_comm]), quotDeriv_const _ hW, quotDeriv_const _ hW, quotDeriv_const _ hW]

/-- Points of a curve with equal weights. -/
theorem evaluate_flat {p : ℕ} {c : Curve K} (hw : WFCurve p c) {W : K} (he : ∀ i < c.ControlPoints.length, (pt c.ControlPoints i).w = W)
    {x : K} (h0 : 0 ≤ x) (h1 : x ≤ 1) {k : ℕ} (hk : IsSpan c.Knots.Values x k) :
    c.Evaluate x = .ok ⟨seg (kn c.Knots.Values) k x p fun i => (pt c.ControlPoints i).x,
      seg (kn c.Knots.Values) k x p fun i => (pt c.ControlPoints i).y, seg (kn c.Knots.Values) k x p fun i => (pt c.ControlPoints i).z⟩ := by
  obtain ⟨hpk, hl, hr, hpos, e⟩ := evaluate_seg hw h0 h1 hk
  have h := ratD_flat hw he hpk hl hr x 0
  rw [e, ← segP_eval, ← segP_eval, ← segP_eval]
  simp only [Function.iterate_zero, id] at h
  rw [← h]
  unfold ratD quotDeriv quotNum
  simp only [curveP, zero_add, pow_one, segP_eval]
  have hx := seg_map Vec4.lx (kn c.Knots.Values) k x p (hpts c.ControlPoints)
  have hy := seg_map Vec4.ly (kn c.Knots.Values) k x p (hpts c.ControlPoints)
  have hz := seg_map Vec4.lz (kn c.Knots.Values) k x p (hpts c.ControlPoints)
  have hv := seg_map Vec4.lw (kn c.Knots.Values) k x p (hpts c.ControlPoints)
  simp only [Vec4.lx, Vec4.ly, Vec4.lz, Vec4.lw, LinearMap.coe_mk, AddHom.coe_mk] at hx hy hz hv
  rw [← hx, ← hy, ← hz, ← hv]
  rfl

/-! ## The knots without their ends -/

theorem inner_length (l : List K) : l.tail.dropLast.length = l.length - 2 := by
  rw [List.length_dropLast, List.length_tail]; omega

theorem kn_inner {l : List K} {i : ℕ} (h : i + 2 < l.length) : kn l.tail.dropLast i = kn l (i + 1) := by
  rw [kn_eq_getElem _ _ (by rw [inner_length]; omega), kn_eq_getElem _ _ (by omega), List.getElem_dropLast, List.getElem_tail]

theorem clamped_inner {q : ℕ} {l : List K} (hc : Clamped (q + 1) l) : Clamped q l.tail.dropLast := by
  have hlen := hc.len
  refine ⟨by rw [inner_length]; omega, ?_, ?_, ?_, ?_, ?_⟩
  · exact (hc.sorted.sublist (List.tail_sublist l)).sublist (List.dropLast_sublist _)
  · intro i hi
    rw [kn_inner (by omega)]
    exact hc.zeros _ (by omega)
  · intro i hi h2
    rw [inner_length] at hi h2
    rw [kn_inner (by omega)]
    exact hc.ones _ (by omega) (by omega)
  · rw [kn_inner (by omega)]; exact hc.first
  · rw [inner_length, kn_inner (by omega)]
    rw [show l.length - 2 - q - 2 + 1 = l.length - (q + 1) - 2 by omega]
    exact hc.last

theorem isSpan_inner {q : ℕ} {l : List K} {x : K} {k : ℕ} (hk : IsSpan l x k) (hpk : q + 1 ≤ k)
    (hl : k + (q + 1) + 2 ≤ l.length) : IsSpan l.tail.dropLast x (k - 1) := by
  obtain ⟨a, b, d⟩ := hk
  unfold IsSpan
  rw [inner_length, kn_inner (by omega), kn_inner (by omega), show k - 1 + 1 = k by omega]
  exact ⟨by omega, b, d⟩

theorem hodograph_wf {q : ℕ} {c : Curve K} (hw : WFCurve (q + 1) c) : WFCurve q (hodograph (q + 1) c) := by
  have hct := hw.count
  have hlen := hw.clamped.len
  refine ⟨by simp [hodograph], clamped_inner hw.clamped, ?_, ?_⟩
  · simp only [hodograph, inner_length, List.length_map, List.length_range]; omega
  · intro i hi
    simp only [hodograph, List.length_map, List.length_range] at hi
    simp [hodograph, pt, List.getD_eq_getElem?_getD, hi]

/-- A segment on the shortened knots. -/
theorem seg_inner {q : ℕ} {l : List K} (hc : Clamped (q + 1) l) {k : ℕ} (hpk : q + 1 ≤ k) (hl : k + (q + 1) + 2 ≤ l.length)
    (hlt : kn l k < kn l (k + 1)) (G Q : ℕ → K) (hQ : ∀ i, k ≤ i + q + 1 → i + 1 ≤ k → Q i = G (i + 1)) (x : K) :
    seg (kn l.tail.dropLast) (k - 1) x q Q = seg (kn l) k x q G := by
  have hr : RegSpan (kn l) k q := regSpan_of_sorted hc.sorted hlt (by omega)
  have hr' : RegSpan (kn l.tail.dropLast) (k - 1) q := by
    apply regSpan_of_sorted (clamped_inner hc).sorted
    · rw [kn_inner (by omega), kn_inner (by omega), show k - 1 + 1 = k by omega]; exact hlt
    · rw [inner_length]; omega
  rw [seg_eq_blos (kn l) k x q G (by omega)]
  refine seg_eq_of_dual (kn l.tail.dropLast) (k - 1) q Q _ (multiAffine_blos (kn l) k q G (by omega) hr) (by omega) hr' (fun i h1 h2 => ?_) x
  have hwin : win (kn l.tail.dropLast) i q = win (kn l) (i + 1) q := by
    unfold win
    refine List.map_congr_left fun j hj => ?_
    rw [List.mem_range] at hj
    rw [kn_inner (by omega)]
    congr 1; omega
  rw [hwin, blos_win (kn l) k q (i + 1) G (by omega) hr (by omega) (by omega)]
  exact hQ i (by omega) (by omega)

theorem pt_hodograph {p : ℕ} {c : Curve K} {i : ℕ} (hi : i < c.ControlPoints.length - 1) :
    pt (hodograph p c).ControlPoints i =
      ⟨p / (kn c.Knots.Values (i + p + 1) - kn c.Knots.Values (i + 1)) * ((pt c.ControlPoints (i + 1)).x - (pt c.ControlPoints i).x),
       p / (kn c.Knots.Values (i + p + 1) - kn c.Knots.Values (i + 1)) * ((pt c.ControlPoints (i + 1)).y - (pt c.ControlPoints i).y),
       p / (kn c.Knots.Values (i + p + 1) - kn c.Knots.Values (i + 1)) * ((pt c.ControlPoints (i + 1)).z - (pt c.ControlPoints i).z), 1⟩ :=
  pt_tab _ _ _ hi

/-- The derivative of a segment is the segment of the hodograph. -/
theorem segP_hodograph {q : ℕ} {c : Curve K} (hw : WFCurve (q + 1) c) {k : ℕ} (hpk : q + 1 ≤ k) (hl : k + (q + 1) + 2 ≤ c.Knots.Values.length)
    (hlt : kn c.Knots.Values k < kn c.Knots.Values (k + 1)) (L : Vec4 K → K)
    (hL : ∀ i < c.ControlPoints.length - 1, L (pt (hodograph (q + 1) c).ControlPoints i) =
      (q + 1 : ℕ) / (kn c.Knots.Values (i + (q + 1) + 1) - kn c.Knots.Values (i + 1)) * (L (pt c.ControlPoints (i + 1)) - L (pt c.ControlPoints i))) :
    derivative (segP (kn c.Knots.Values) k (q + 1) fun i => L (pt c.ControlPoints i)) =
      segP (kn (hodograph (q + 1) c).Knots.Values) (k - 1) q fun i => L (pt (hodograph (q + 1) c).ControlPoints i) := by
  have hct := hw.count
  rw [segP_derivative _ _ _ _ hpk (regSpan_of_sorted hw.clamped.sorted hlt (by omega))]
  apply Polynomial.funext
  intro x
  rw [segP_eval, segP_eval]
  symm
  refine seg_inner hw.clamped hpk hl hlt _ _ (fun i h1 h2 => ?_) x
  rw [hL i (by omega), show i + 1 - 1 = i by omega, show i + 1 + q + 1 = i + (q + 1) + 1 by omega]
  ring

/-! ## Chords -/

theorem blos_le {U : ℕ → K} {k : ℕ} {b : K} : ∀ (ts : List K) (P : ℕ → K), ts.length ≤ k → (∀ i j, i ≤ j → j ≤ k + ts.length → U i ≤ U j) →
    (∀ t ∈ ts, U k ≤ t ∧ t ≤ U (k + 1)) → U k < U (k + 1) → (∀ i, k ≤ i + ts.length → i ≤ k → P i ≤ b) → blos U ts P k ≤ b
  | [], P, _, _, _, _, hP => hP k (by simp) le_rfl
  | t :: ts, P, hk, hm, ht, hlt, hP => by
    simp only [List.length_cons] at hk hm hP
    refine blos_le ts _ (by omega) (fun i j h1 h2 => hm i j h1 (by omega)) (fun s hs => ht s (List.mem_cons_of_mem _ hs)) hlt
      (fun i h1 h2 => ?_)
    have htt := ht t List.mem_cons_self
    have a1 : U i ≤ U k := hm _ _ h2 (by omega)
    have a2 : U (k + 1) ≤ U (i + (ts.length + 1)) := hm _ _ (by omega) (by omega)
    have hd : 0 < U (i + (ts.length + 1)) - U i := by linarith
    have e : step U (ts.length + 1) t P i = ((U (i + (ts.length + 1)) - t) * P (i - 1) + (t - U i) * P i) / (U (i + (ts.length + 1)) - U i) := by
      unfold step
      simp only [smul_eq_mul]
      ring
    rw [e, div_le_iff₀ hd]
    have b1 := mul_le_mul_of_nonneg_left (hP (i - 1) (by omega) (by omega)) (show 0 ≤ U (i + (ts.length + 1)) - t by linarith)
    have b2 := mul_le_mul_of_nonneg_left (hP i (by omega) h2) (show 0 ≤ t - U i by linarith)
    calc _ ≤ (U (i + (ts.length + 1)) - t) * b + (t - U i) * b := add_le_add b1 b2
      _ = _ := by ring

theorem blos_diff (U : ℕ → K) (k : ℕ) (s t : K) (ts : List K) (P : ℕ → K) :
    blos U (s :: ts) P k - blos U (t :: ts) P k =
      (s - t) * blos U ts (fun i => (P i - P (i - 1)) / (U (i + (ts.length + 1)) - U i)) k := by
  have e : step U (ts.length + 1) s P = step U (ts.length + 1) t P + (s - t) • fun i => (P i - P (i - 1)) / (U (i + (ts.length + 1)) - U i) := by
    funext i
    simp only [step, Pi.add_apply, Pi.smul_apply, smul_eq_mul]
    ring
  show blos U ts (step U (ts.length + 1) s P) k - blos U ts (step U (ts.length + 1) t P) k = _
  rw [e, blos_add, blos_smul]
  simp

/-- Inside a span, chords are bounded by the divided differences of the control values. -/
theorem seg_chord {U : ℕ → K} {k q : ℕ} {g : ℕ → K} {b x y : K} (hpk : q + 1 ≤ k) (hm : ∀ i j, i ≤ j → j ≤ k + (q + 1) → U i ≤ U j)
    (hlt : U k < U (k + 1)) (hx : U k ≤ x) (hxy : x ≤ y) (hy : y ≤ U (k + 1))
    (hg : ∀ i, k ≤ i + q → i ≤ k → (q + 1 : ℕ) * ((g i - g (i - 1)) / (U (i + (q + 1)) - U i)) ≤ b) :
    seg U k y (q + 1) g - seg U k x (q + 1) g ≤ b * (y - x) := by
  have hr : RegSpan U k (q + 1) := by
    intro r i hr h1 h2
    have a : U i ≤ U k := hm _ _ h2 (by omega)
    have b : U (k + 1) ≤ U (i + r) := hm _ _ (by omega) (by omega)
    exact (lt_of_le_of_lt a (lt_of_lt_of_le hlt b)).ne'
  have hma := multiAffine_blos U k (q + 1) g hpk hr
  rw [seg_eq_blos U k y (q + 1) g hpk, seg_eq_blos U k x (q + 1) g hpk]
  have hp0 : (0 : K) < (q + 1 : ℕ) := by exact_mod_cast Nat.succ_pos q
  have key : ∀ n ≤ q + 1, blos U (List.replicate n y ++ List.replicate (q + 1 - n) x) g k ≤
      blos U (List.replicate (q + 1) x) g k + n * (b / (q + 1 : ℕ) * (y - x)) := by
    intro n
    induction n with
    | zero => intro _; simp
    | succ n ih =>
      intro hn
      have ih := ih (by omega)
      have e1 : List.replicate (n + 1) y ++ List.replicate (q + 1 - (n + 1)) x = y :: (List.replicate n y ++ List.replicate (q - n) x) := by
        rw [List.replicate_succ, List.cons_append, show q + 1 - (n + 1) = q - n by omega]
      have e2 : blos U (List.replicate n y ++ List.replicate (q + 1 - n) x) g k =
          blos U (x :: (List.replicate n y ++ List.replicate (q - n) x)) g k := by
        refine hma.perm _ _ (by simp; omega) ?_
        rw [show q + 1 - n = (q - n) + 1 by omega, List.replicate_succ]
        exact List.perm_middle
      have hlen : (List.replicate n y ++ List.replicate (q - n) x).length = q := by simp; omega
      have hd := blos_diff U k y x (List.replicate n y ++ List.replicate (q - n) x) g
      rw [hlen] at hd
      have hle : blos U (List.replicate n y ++ List.replicate (q - n) x) (fun i => (g i - g (i - 1)) / (U (i + (q + 1)) - U i)) k ≤
          b / (q + 1 : ℕ) := by
        refine blos_le _ _ (by rw [hlen]; omega) (by rw [hlen]; exact fun i j h1 h2 => hm i j h1 (by omega)) ?_ hlt ?_
        · intro t ht
          rcases List.mem_append.mp ht with h | h
          · rw [(List.mem_replicate.mp h).2]; exact ⟨hx.trans hxy, hy⟩
          · rw [(List.mem_replicate.mp h).2]; exact ⟨hx, hxy.trans hy⟩
        · intro i h1 h2
          rw [hlen] at h1
          rw [le_div_iff₀' hp0]
          exact hg i h1 h2
      have := mul_le_mul_of_nonneg_left hle (sub_nonneg.mpr hxy)
      rw [e1]
      rw [e2] at ih
      push_cast at *
      linarith
  have h := key (q + 1) le_rfl
  rw [Nat.sub_self, List.replicate_zero, List.append_nil] at h
  have e : ((q + 1 : ℕ) : K) * (b / (q + 1 : ℕ) * (y - x)) = b * (y - x) := by field_simp
  rw [e] at h
  linarith

/-- Chords over several spans. -/
theorem spline_chord {q : ℕ} {l : List K} (hc : Clamped (q + 1) l) (hmult : ∀ x, ¬ JumpAt (q + 1) l x) {g : ℕ → K} {b : K}
    (hg : ∀ i, 1 ≤ i → i + q + 2 < l.length → (q + 1 : ℕ) * ((g i - g (i - 1)) / (kn l (i + (q + 1)) - kn l i)) ≤ b) :
    ∀ (n j k : ℕ) (x y : K), k - j ≤ n → 0 ≤ x → y ≤ 1 → x ≤ y → IsSpan l x j → IsSpan l y k →
      seg (kn l) k y (q + 1) g - seg (kn l) j x (q + 1) g ≤ b * (y - x) := by
  intro n
  induction n with
  | zero => ?_
  | succ n ih => ?_
  all_goals intro j k x y hn h0 h1 hxy hj hk
  all_goals
    obtain ⟨j', hj', aj, bj⟩ := exists_span hc h0 (hxy.trans h1)
    obtain rfl : j' = j := isSpan_unique hc.sorted hj' hj (fun i hi => hc.le_one hi)
    obtain ⟨k', hk', ak, bk⟩ := exists_span hc (h0.trans hxy) h1
    obtain rfl : k' = k := isSpan_unique hc.sorted hk' hk (fun i hi => hc.le_one hi)
    have inside : ∀ j, q + 1 ≤ j → j + (q + 1) + 2 ≤ l.length → kn l j < kn l (j + 1) → ∀ s t, kn l j ≤ s → s ≤ t → t ≤ kn l (j + 1) →
        seg (kn l) j t (q + 1) g - seg (kn l) j s (q + 1) g ≤ b * (t - s) := by
      intro j aj bj hlt s t h1 h2 h3
      exact seg_chord aj (fun i i' h1 h2 => kn_mono hc.sorted h1 (by omega)) hlt h1 h2 h3 (fun i h1 h2 => hg i (by omega) (by omega))
    have hjk : j' ≤ k' := by
      by_contra hlt
      have a1 : kn l (k' + 1) ≤ kn l j' := kn_mono hc.sorted (by omega) (by omega)
      rcases hk.2.2 with h | ⟨h, h2, h3⟩
      · exact absurd (hj.2.1.trans hxy) (not_le.mpr (lt_of_lt_of_le h a1))
      · have := hj.2.1
        rcases hj.2.2 with h4 | ⟨_, h4, _⟩
        · have := hc.le_one (i := j' + 1) (by omega)
          linarith
        · linarith
  · obtain rfl : j' = k' := by omega
    exact inside _ aj bj (IsSpan.lt hj) x y hj.2.1 hxy (IsSpan.le_right hk)
  · rcases Nat.eq_or_lt_of_le hjk with rfl | hlt
    · exact inside _ aj bj (IsSpan.lt hj) x y hj.2.1 hxy (IsSpan.le_right hk)
    · have hξy : kn l (j' + 1) ≤ y := (kn_mono hc.sorted (by omega) (by omega)).trans hk.2.1
      have hξ1 : kn l (j' + 1) < 1 := lt_of_le_of_lt (kn_mono hc.sorted (show j' + 1 ≤ k' by omega) (by omega))
        (lt_of_lt_of_le (IsSpan.lt hk) (hc.le_one (by omega)))
      have hxξ : x ≤ kn l (j' + 1) := IsSpan.le_right hj
      have hξ0 : 0 < kn l (j' + 1) := lt_of_le_of_lt (show 0 ≤ kn l j' by
        rw [← hc.zeros 0 (by omega)]; exact kn_mono hc.sorted (by omega) (by omega)) (IsSpan.lt hj)
      obtain ⟨J, hJ, aJ, bJ⟩ := exists_span hc hξ0.le hξ1.le
      have hjJ : j' < J := by
        by_contra h
        have h2 : kn l (J + 1) ≤ kn l (j' + 1) := kn_mono hc.sorted (by omega) (by omega)
        rcases hJ.2.2 with h3 | ⟨h3, _⟩
        · exact absurd h3 (not_lt.mpr h2)
        · linarith
      have hJ2 : kn l (j' + 1) < kn l (J + 1) := by
        rcases hJ.2.2 with h3 | ⟨h3, _⟩
        · exact h3
        · linarith
      have hmid : ∀ i, j' < i → i ≤ J → kn l i = kn l (j' + 1) := fun i h1 h2 =>
        le_antisymm ((kn_mono hc.sorted h2 (by omega)).trans hJ.2.1) (kn_mono hc.sorted (by omega) (by omega))
      have hmeet : Meet (kn l) j' J (kn l (j' + 1)) := ⟨hjJ.le, fun _ => (IsSpan.lt hj).ne, hmid, fun _ => hJ2.ne'⟩
      have hJp : J ≤ j' + (q + 1) := by
        by_contra h
        refine hmult (kn l (j' + 1)) ⟨hξ0, hξ1, j' + 1, by omega, rfl, ?_⟩
        exact hmid _ (by omega) (by omega)
      have r1 : RegSpan (kn l) j' (q + 1) := regSpan_of_sorted hc.sorted (IsSpan.lt hj) (by omega)
      have r2 : RegSpan (kn l) J (q + 1) := regSpan_of_sorted hc.sorted (IsSpan.lt hJ) (by omega)
      have e := hmeet.segP (p := q + 1) (r := 0) (by omega) aj r1 r2 g
      simp only [Function.iterate_zero, id, segP_eval] at e
      have hJk : J ≤ k' := by
        by_contra h
        have h2 : kn l (k' + 1) ≤ kn l (j' + 1) := by
          rw [← hmid J hjJ le_rfl]; exact kn_mono hc.sorted (by omega) (by omega)
        have h3 : kn l (j' + 1) ≤ kn l k' := kn_mono hc.sorted (by omega) (by omega)
        have := IsSpan.lt hk
        linarith
      have i1 := inside _ aj bj (IsSpan.lt hj) x _ hj.2.1 hxξ le_rfl
      have i2 := ih J k' (kn l (j' + 1)) y (by omega) hξ0.le h1 hξy hJ hk
      rw [e] at i1
      linarith

end Nurbs
