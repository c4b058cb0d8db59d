import Verif.Proof.RoundedKnots
import Verif.Proof.Insert2
import Verif.Proof.Geometry

/-! # Knot insertion with rounding -/

set_option linter.unusedSectionVars false

namespace Nurbs
open Nurbs.Spec

/-! ### the loop, for any arithmetic -/

section generic
variable {K : Type} [Zero K] [One K] [Add K] [Sub K] [Mul K] [Div K] [Neg K] [NatCast K] [IntCast K] [LinearOrder K]

/-- The new homogeneous control point, as the code computes it. -/
def insH (U : ℕ → K) (p : ℕ) (v : K) (P : ℕ → Vec4 K) (i : ℕ) : Vec4 K :=
  ((v - U i) / (U (i + p) - U i)) • ToHomo (P i) + (1 - (v - U i) / (U (i + p) - U i)) • ToHomo (P (i - 1))

/-- The curve after insertion, as the code computes it. -/
def insCurveC (p k : ℕ) (v : K) (c : Curve K) : Curve K :=
  ⟨p, ⟨insL c.Knots.Values k v⟩, tab (c.ControlPoints.length + 1) fun i =>
      if i + p ≤ k then pt c.ControlPoints i
      else if i ≤ k then unhomo (insH (kn c.Knots.Values) p v (pt c.ControlPoints) i)
      else pt c.ControlPoints (i - 1)⟩

theorem fromHomo_gen {v : Vec4 K} (h : v.w ≠ 0) : FromHomo v = .ok (unhomo v) := by
  simp [FromHomo, fdiv_ok h, unhomo]

theorem insertKnot_gen {p : ℕ} {c : Curve K} (hd : c.Degree = p) (hc : Clamped p c.Knots.Values) {v : K} (h0 : 0 < v) (h1 : v < 1)
    {k : ℕ} (hk : IsSpan c.Knots.Values v k) (hpk : p ≤ k) (hlk : k + p + 2 ≤ c.Knots.Values.length)
    (hkn : k < c.ControlPoints.length) (hp : 1 ≤ p)
    (hne : ∀ i, k < i + p → i ≤ k → kn c.Knots.Values (i + p) - kn c.Knots.Values i ≠ 0 ∧
      (insH (kn c.Knots.Values) p v (pt c.ControlPoints) i).w ≠ 0) :
    c.InsertKnot v = .ok (insCurveC p k v c) := by
  unfold Curve.InsertKnot
  have e := knotInsert_ok c.Knots v 1 h0 h1 hc.sorted
  rw [upperBound_eq_span hc.sorted hk h1] at e
  rw [show ((1 : ℕ) : Int) = 1 from rfl] at e
  rw [e, bind_ok, hd]
  simp only
  rw [vinsert_of _ _ _ k _ (by push_cast; omega) (by omega), bind_ok, insert_eq_tab _ _ _ (by omega),
    forLe_eq_forUp _ _ p (by push_cast; omega)]
  have hloop := forUp_eq (fun i pts => do
    let alpha ← fdiv (v - (← vget c.Knots.Values i)) ((← vget c.Knots.Values (i + p)) - (← vget c.Knots.Values i))
    let point_i := ToHomo (← vget c.ControlPoints i)
    let point_im1 := ToHomo (← vget c.ControlPoints (i - 1))
    vset pts i (← FromHomo (alpha • point_i + (1 - alpha) • point_im1)))
    (fun m => tab (c.ControlPoints.length + 1) fun i =>
      if i + p ≤ k then pt c.ControlPoints i
      else if i + p ≤ k + m then unhomo (insH (kn c.Knots.Values) p v (pt c.ControlPoints) i)
      else if i < k then pt c.ControlPoints i else if i = k then 0
      else pt c.ControlPoints (i - 1)) p (((k + 1 : ℕ) : Int) - 1 - p + 1) (by
    intro m hm
    obtain ⟨i, hi⟩ : ∃ i, k + m + 1 = i + p := ⟨k + m + 1 - p, by omega⟩
    obtain ⟨hne, hpos⟩ := hne i (by omega) (by omega)
    have ei : ((k + 1 : ℕ) : Int) - 1 - p + 1 + m = i := by push_cast; omega
    rw [ei, vget_kn _ _ i rfl (by omega), bind_ok, vget_kn _ _ (i + p) (by push_cast; rfl) (by omega), bind_ok, bind_ok,
      fdiv_ok hne, bind_ok, vget_pt _ _ i rfl (by omega), bind_ok, vget_pt _ _ (i - 1) (by omega) (by omega), bind_ok]
    change (FromHomo (insH (kn c.Knots.Values) p v (pt c.ControlPoints) i) >>= _) = _
    rw [fromHomo_gen hpos, bind_ok]
    apply vset_tab' _ _ _ _ i _ rfl (by omega)
    intro j hj
    by_cases hji : j = i
    · subst hji
      rw [if_neg (by omega), if_pos (by omega), if_pos rfl]
    · rw [if_neg hji]
      by_cases h3 : j + p ≤ k
      · simp [h3]
      · rw [if_neg h3, if_neg h3]
        by_cases h4 : j + p ≤ k + m
        · rw [if_pos (by omega), if_pos h4]
        · rw [if_neg (by omega), if_neg h4])
  have hinit : (tab (c.ControlPoints.length + 1) fun i => if i < k then pt c.ControlPoints i else if i = k then 0
      else pt c.ControlPoints (i - 1)) = (tab (c.ControlPoints.length + 1) fun i =>
      if i + p ≤ k then pt c.ControlPoints i
      else if i + p ≤ k + 0 then unhomo (insH (kn c.Knots.Values) p v (pt c.ControlPoints) i)
      else if i < k then pt c.ControlPoints i else if i = k then 0
      else pt c.ControlPoints (i - 1)) := by
    apply tab_congr
    intro i hi
    by_cases h3 : i + p ≤ k
    · rw [if_pos (show i < k by omega), if_pos h3]
    · rw [if_neg h3, if_neg (show ¬ i + p ≤ k + 0 by omega)]
  rw [hinit, hloop, bind_ok]
  unfold insCurveC insL
  simp only [pure_ok, List.replicate_one]
  congr 2
  apply tab_congr
  intro i hi
  by_cases h3 : i + p ≤ k
  · rw [if_pos h3, if_pos h3]
  · rw [if_neg h3, if_neg h3]
    by_cases h4 : i ≤ k
    · rw [if_pos (by omega), if_pos h4]
    · rw [if_neg (by omega), if_neg h4, if_neg (by omega), if_neg (by omega)]

theorem insertListStep_gen {p : ℕ} {c : Curve K} (hd : c.Degree = p) {v : K}
    {k : ℕ} (hk' : c.Knots.FindSpanIndex p v = .ok (k : Int)) (hpk : p ≤ k) (hlk : k + p + 2 ≤ c.Knots.Values.length)
    (hkn : k < c.ControlPoints.length)
    (hne : ∀ i, k < i + p → i ≤ k → kn c.Knots.Values (i + p) - kn c.Knots.Values i ≠ 0 ∧
      (insH (kn c.Knots.Values) p v (pt c.ControlPoints) i).w ≠ 0) :
    Curve.insertListStep v c = .ok (insCurveC p k v c) := by
  unfold Curve.insertListStep
  simp only
  rw [hd, hk', bind_ok, vget_pt _ _ k rfl hkn, bind_ok, vinsert_of _ _ _ k _ rfl (by omega), bind_ok,
    insert_eq_tab _ _ _ (by omega), vget_tab _ _ _ (k - p) (by omega) (by omega), bind_ok,
    forLe_eq_forUp _ _ p (by push_cast; omega)]
  have hbase : (if k - p < k then pt c.ControlPoints (k - p) else if k - p = k then pt c.ControlPoints k
      else pt c.ControlPoints (k - p - 1)) = pt c.ControlPoints (k - p + 0) := by
    by_cases h : k - p < k
    · rw [if_pos h]; rfl
    · rw [if_neg h, if_pos (by omega)]; congr 1; omega
  rw [hbase]
  have hloop := forUp_eq (Curve.insertListInner p c.Knots.Values v)
    (fun m => (tab (c.ControlPoints.length + 1) fun i =>
      if i + p ≤ k then pt c.ControlPoints i
      else if i + p ≤ k + m then unhomo (insH (kn c.Knots.Values) p v (pt c.ControlPoints) i)
      else if i ≤ k then pt c.ControlPoints i
      else pt c.ControlPoints (i - 1), ToHomo (pt c.ControlPoints (k - p + m)))) p ((k : Int) - p + 1) (by
    intro m hm
    obtain ⟨i, hi⟩ : ∃ i, k + m + 1 = i + p := ⟨k + m + 1 - p, by omega⟩
    obtain ⟨hne, hpos⟩ := hne i (by omega) (by omega)
    have ei : (k : Int) - p + 1 + m = i := by omega
    simp only [Curve.insertListInner]
    rw [ei, vget_kn _ _ i rfl (by omega), bind_ok, vget_kn _ _ (i + p) (by push_cast; rfl) (by omega), bind_ok, bind_ok,
      fdiv_ok hne, bind_ok, vget_tab _ _ _ i rfl (by omega), bind_ok]
    rw [if_neg (show ¬ i + p ≤ k by omega), if_neg (show ¬ i + p ≤ k + m by omega), if_pos (show i ≤ k by omega),
      show k - p + m = i - 1 by omega]
    change (FromHomo (insH (kn c.Knots.Values) p v (pt c.ControlPoints) i) >>= _) = _
    rw [fromHomo_gen hpos, bind_ok]
    rw [vset_tab' _ _ (fun i =>
      if i + p ≤ k then pt c.ControlPoints i
      else if i + p ≤ k + (m + 1) then unhomo (insH (kn c.Knots.Values) p v (pt c.ControlPoints) i)
      else if i ≤ k then pt c.ControlPoints i
      else pt c.ControlPoints (i - 1)) _ i _ rfl (by omega)]
    · rw [bind_ok, show k - p + (m + 1) = i by omega]; rfl
    intro j hj
    by_cases hji : j = i
    · subst hji
      rw [if_neg (by omega), if_pos (by omega), if_pos rfl]
    · rw [if_neg hji]
      by_cases h3 : j + p ≤ k
      · simp [h3]
      · rw [if_neg h3, if_neg h3]
        by_cases h4 : j + p ≤ k + m
        · rw [if_pos (by omega), if_pos h4]
        · rw [if_neg (by omega), if_neg h4])
  have hinit : (tab (c.ControlPoints.length + 1) fun i => if i < k then pt c.ControlPoints i else if i = k then pt c.ControlPoints k
      else pt c.ControlPoints (i - 1)) = (tab (c.ControlPoints.length + 1) fun i =>
      if i + p ≤ k then pt c.ControlPoints i
      else if i + p ≤ k + 0 then unhomo (insH (kn c.Knots.Values) p v (pt c.ControlPoints) i)
      else if i ≤ k then pt c.ControlPoints i
      else pt c.ControlPoints (i - 1)) := by
    apply tab_congr
    intro i hi
    have : (if i < k then pt c.ControlPoints i else if i = k then pt c.ControlPoints k
      else pt c.ControlPoints (i - 1)) = if i ≤ k then pt c.ControlPoints i else pt c.ControlPoints (i - 1) := by
      rcases Nat.lt_trichotomy i k with h | h | h
      · rw [if_pos h, if_pos h.le]
      · subst h; simp
      · rw [if_neg (by omega), if_neg (by omega), if_neg (by omega)]
    rw [this]
    by_cases h3 : i + p ≤ k
    · rw [if_pos (show i ≤ k by omega), if_pos h3]
    · rw [if_neg h3, if_neg (show ¬ i + p ≤ k + 0 by omega)]
  rw [hinit, hloop, bind_ok]
  simp only
  rw [vinsert_of _ _ _ (k + 1) _ (by push_cast; rfl) (by omega), bind_ok]
  unfold insCurveC insL
  simp only [pure_ok, List.replicate_one]
  congr 2
  apply tab_congr
  intro i hi
  by_cases h3 : i + p ≤ k
  · rw [if_pos h3, if_pos h3]
  · rw [if_neg h3, if_neg h3]
    by_cases h4 : i ≤ k
    · rw [if_pos (by omega), if_pos h4]
    · rw [if_neg (by omega), if_neg h4, if_neg (by omega)]

end generic

variable {K : Type} [Field K] [LinearOrder K] [IsStrictOrderedRing K] {R : Rounding K}

/-! ### more error calculus -/

theorem Close.mul {q : K} (hq0 : 0 < q) (hq1 : q ≤ 1) {m n : ℕ} {a b c d A C : K} (h : Close q m a b A) (h' : Close q n c d C) :
    Close q (m + n) (a * c) (b * d) (A * C) := by
  have hA := h.nonneg hq0
  have hC := h'.nonneg hq0
  have hp := one_le_pow_inv hq0 hq1 m
  have hn := one_le_pow_inv hq0 hq1 n
  refine ⟨by rw [abs_mul]; exact mul_le_mul h.1 h'.1 (abs_nonneg _) hA, ?_⟩
  rw [show a * c - b * d = a * (c - d) + (a - b) * d by ring, pow_add, mul_inv]
  have h1 : |a * (c - d)| ≤ (q ^ m)⁻¹ * A * (((q ^ n)⁻¹ - 1) * C) := by
    rw [abs_mul]
    exact mul_le_mul (h.abs_le hq0) h'.2 (abs_nonneg _) (mul_nonneg (by linarith) hA)
  have h2 : |(a - b) * d| ≤ ((q ^ m)⁻¹ - 1) * A * C := by
    rw [abs_mul]
    exact mul_le_mul h.2 h'.1 (abs_nonneg _) (mul_nonneg (by linarith) hA)
  calc _ ≤ _ := abs_add_le _ _
    _ ≤ _ := add_le_add h1 h2
    _ = _ := by ring

/-- One more relative error. -/
theorem Close.rel {m : ℕ} {a a' b B : K} (h : Close R.q m a b B) (ha : |a' - a| ≤ R.u * |a|) : Close R.q (m + 1) a' b B := by
  refine ⟨h.1, ?_⟩
  have hB := h.nonneg R.q_pos
  have h2 := h.abs_le R.q_pos
  have hu := R.u_nonneg
  have hq := R.q_pos
  have hg : 0 < (R.q ^ m)⁻¹ := inv_pos.mpr (pow_pos hq m)
  have h3 : |a' - b| ≤ R.u * ((R.q ^ m)⁻¹ * B) + ((R.q ^ m)⁻¹ - 1) * B := by
    rw [show a' - b = (a' - a) + (a - b) by ring]
    exact le_trans (abs_add_le _ _) (add_le_add (le_trans ha (mul_le_mul_of_nonneg_left h2 hu)) h.2)
  refine le_trans h3 ?_
  have h4 : 1 + R.u ≤ R.q⁻¹ := by
    rw [le_inv_comm₀ (by linarith) hq, ← one_div, le_div_iff₀ (by linarith)]
    unfold Rounding.q; nlinarith
  rw [pow_succ, mul_inv]
  have h5 : (R.q ^ m)⁻¹ * B * (1 + R.u) ≤ (R.q ^ m)⁻¹ * B * R.q⁻¹ :=
    mul_le_mul_of_nonneg_left h4 (mul_nonneg hg.le hB)
  nlinarith

/-! ### one new control point -/

theorem exactPoint_pt (l : List (Vec4 (Fl R))) (i : ℕ) : exactPoint (pt l i) = pt (l.map exactPoint) i := by
  unfold pt
  rw [List.getD_eq_getElem?_getD, List.getD_eq_getElem?_getD, List.getElem?_map]
  cases l[i]? with
  | none => simp [exactPoint, Fl.val_zero]
  | some a => simp

section point
variable {U : ℕ → Fl R} {p i : ℕ} {v : Fl R} (h1 : (U i).val ≤ v.val) (h2 : v.val < (U (i + p)).val)
include h1 h2

theorem ins_den_pos : 0 < (U (i + p) - U i).val := by
  have := (Fl.near_sub (a := U (i + p)) (b := U i) (by linarith)).pos R.q_pos (by linarith)
  exact this

theorem ins_alpha_near : Near R.q 3 ((v - U i) / (U (i + p) - U i)).val ((v.val - (U i).val) / ((U (i + p)).val - (U i).val)) :=
  Fl.near_div (Fl.near_sub h1) (Fl.near_sub (by linarith)) (by linarith)

theorem ins_alpha_le : ((v - U i) / (U (i + p) - U i)).val ≤ 1 := by
  rw [Fl.val_div, ← R.one]
  apply R.mono
  rw [div_le_one (ins_den_pos h1 h2), Fl.val_sub, Fl.val_sub]
  exact R.mono _ _ (by linarith)

theorem ins_beta_close : Close R.q 4 (1 - (v - U i) / (U (i + p) - U i)).val
    (1 - (v.val - (U i).val) / ((U (i + p)).val - (U i).val)) 1 := by
  have hn := ins_alpha_near h1 h2
  set α := (v - U i) / (U (i + p) - U i)
  set a := (v.val - (U i).val) / ((U (i + p)).val - (U i).val) with ha
  have hden : 0 < (U (i + p)).val - (U i).val := by linarith
  have ha1 : a ≤ 1 := by rw [ha, div_le_one hden]; linarith
  have ha0 : 0 ≤ a := hn.2.1
  have hc : Close R.q 3 (1 - α.val) (1 - a) 1 := by
    refine ⟨by rw [abs_of_nonneg (by linarith)]; linarith, ?_⟩
    rw [show 1 - α.val - (1 - a) = -(α.val - a) by ring, abs_neg]
    have := one_le_pow_inv R.q_pos R.q_le 3
    exact le_trans (hn.abs_sub_le R.q_pos) (mul_le_mul_of_nonneg_left ha1 (by linarith))
  have := Fl.close_round hc
  rw [Fl.val_sub, Fl.val_one]
  exact this

/-- The computed combination of two numbers. -/
theorem ins_comb_close {m : ℕ} {s t : Fl R} {x y X Y : K} (hs : Close R.q m s.val x X) (ht : Close R.q m t.val y Y) :
    Close R.q (m + 6) ((v - U i) / (U (i + p) - U i) * s + (1 - (v - U i) / (U (i + p) - U i)) * t).val
      (((v.val - (U i).val) / ((U (i + p)).val - (U i).val)) * x + (1 - (v.val - (U i).val) / ((U (i + p)).val - (U i).val)) * y)
      (X + Y) := by
  have hn := ins_alpha_near h1 h2
  have hb := ins_beta_close h1 h2
  set α := (v - U i) / (U (i + p) - U i)
  set a := (v.val - (U i).val) / ((U (i + p)).val - (U i).val) with ha
  have hden : 0 < (U (i + p)).val - (U i).val := by linarith
  have ha1 : a ≤ 1 := by rw [ha, div_le_one hden]; linarith
  have hX := hs.nonneg R.q_pos
  have e1 : Close R.q (m + 5) (α * s).val (a * x) X :=
    (close_smul hn hs).mono R.q_pos R.q_le (by omega) (by nlinarith)
  have e2 : Close R.q (m + 5) ((1 - α) * t).val ((1 - a) * y) Y := by
    have := Fl.close_round (hb.mul R.q_pos R.q_le ht)
    rw [one_mul] at this
    exact this.mono R.q_pos R.q_le (by omega) le_rfl
  exact Fl.close_add e1 e2

/-- The computed coefficients, against the exact combination with the computed `α`. -/
theorem ins_coeff : 0 ≤ ((v - U i) / (U (i + p) - U i)).val ∧ ((v - U i) / (U (i + p) - U i)).val ≤ 1 ∧
    Near R.q 1 (1 - (v - U i) / (U (i + p) - U i)).val (1 - ((v - U i) / (U (i + p) - U i)).val) := by
  have hle := ins_alpha_le h1 h2
  refine ⟨(ins_alpha_near h1 h2).1, hle, ?_⟩
  have := Fl.near_sub (a := 1) (b := (v - U i) / (U (i + p) - U i)) (by rw [Fl.val_one]; exact hle)
  rwa [Fl.val_one] at this

/-- The new point: weight and coordinates stay inside slightly larger bounds. -/
theorem ins_range {P : ℕ → Vec4 (Fl R)} {lo hi : K} (hlo : 0 < lo)
    (hw1 : lo ≤ (P i).w.val ∧ (P i).w.val ≤ hi) (hw2 : lo ≤ (P (i - 1)).w.val ∧ (P (i - 1)).w.val ≤ hi) :
    R.q ^ 3 * lo ≤ (insH U p v P i).w.val ∧ (insH U p v P i).w.val ≤ (R.q ^ 3)⁻¹ * hi := by
  obtain ⟨ha0, ha1, hb⟩ := ins_coeff h1 h2
  have hq := R.q_pos
  have hq3 := pow_pos hq 3
  unfold insH
  simp only [Vec4.add_w, Vec4.smul_w, ToHomo]
  set α := (v - U i) / (U (i + p) - U i)
  have e1 := Fl.near_mul (Near.refl hq ha0) (Near.refl hq (show 0 ≤ (P i).w.val by linarith))
  have e2 := Fl.near_mul hb (Near.refl hq (show 0 ≤ (P (i - 1)).w.val by linarith))
  have e3 := Fl.near_add (e1.mono hq R.q_le (show 0 + 0 + 1 ≤ 1 + 0 + 1 by omega)) e2
  have hW1 : lo ≤ α.val * (P i).w.val + (1 - α.val) * (P (i - 1)).w.val := by nlinarith
  have hW2 : α.val * (P i).w.val + (1 - α.val) * (P (i - 1)).w.val ≤ hi := by nlinarith
  refine ⟨le_trans (mul_le_mul_of_nonneg_left hW1 hq3.le) e3.2.2.1, ?_⟩
  rw [inv_mul_eq_div, le_div_iff₀ hq3, mul_comm]
  exact le_trans e3.2.2.2 hW2

theorem ins_range_coord {s t x y : Fl R} {lo B : K} (hlo : 0 < lo) (hs : lo ≤ s.val) (ht : lo ≤ t.val)
    (hx : |x.val| ≤ B) (hy : |y.val| ≤ B) :
    |(((v - U i) / (U (i + p) - U i) * (x * s) + (1 - (v - U i) / (U (i + p) - U i)) * (y * t)) /
      ((v - U i) / (U (i + p) - U i) * s + (1 - (v - U i) / (U (i + p) - U i)) * t)).val| ≤ (R.q ^ 8)⁻¹ * B := by
  obtain ⟨ha0, ha1, hb⟩ := ins_coeff h1 h2
  have hq := R.q_pos
  set α := (v - U i) / (U (i + p) - U i)
  have e1 := Fl.near_mul (Near.refl hq ha0) (Near.refl hq (show 0 ≤ s.val by linarith))
  have e2 := Fl.near_mul hb (Near.refl hq (show 0 ≤ t.val by linarith))
  have e3 := Fl.near_add (e1.mono hq R.q_le (show 0 + 0 + 1 ≤ 1 + 0 + 1 by omega)) e2
  have hW : 0 < α.val * s.val + (1 - α.val) * t.val := by nlinarith
  have c : ∀ (x s : Fl R), 0 ≤ s.val → |x.val| ≤ B → Close R.q 1 (x * s).val (x.val * s.val) (s.val * B) := fun x s h h' => by
    have := Fl.close_round (Close.refl hq (x.val * s.val))
    refine this.mono hq R.q_le le_rfl ?_
    rw [abs_mul, abs_of_nonneg h, mul_comm]
    exact mul_le_mul_of_nonneg_left h' h
  have c1 := close_smul (Near.refl hq ha0) (c x s (by linarith) hx)
  have c2 := close_smul hb (c y t (by linarith) hy)
  have c3 := Fl.close_add (c1.mono hq R.q_le (show 0 + 1 + 1 ≤ 1 + 1 + 1 by omega) le_rfl) c2
  have c4 := Fl.close_round (c3.div_near hq R.q_le e3 hW)
  rw [Fl.val_div]
  refine le_trans (c4.abs_le hq) (le_of_eq ?_)
  rw [show α.val * (s.val * B) + (1 - α.val) * (t.val * B) = B * (α.val * s.val + (1 - α.val) * t.val) by ring,
    mul_div_assoc, div_self hW.ne', mul_one]

end point

/-! ### nearby control points give nearby curves -/

theorem wsum_perturb {p : ℕ} {A B : Curve K} (hA : WFCurve p A) (hB : WFCurve p B) (hk : A.Knots.Values = B.Knots.Values)
    (hn : A.ControlPoints.length = B.ControlPoints.length) (f : Vec4 K → K) {D D' M m : K} (hm : 0 < m)
    (h1 : ∀ i < B.ControlPoints.length, |(pt A.ControlPoints i).w * f (pt A.ControlPoints i) -
      (pt B.ControlPoints i).w * f (pt B.ControlPoints i)| ≤ D)
    (h2 : ∀ i < B.ControlPoints.length, |(pt A.ControlPoints i).w - (pt B.ControlPoints i).w| ≤ D')
    (h3 : ∀ i < B.ControlPoints.length, |f (pt B.ControlPoints i)| ≤ M)
    (h4 : ∀ i < B.ControlPoints.length, m ≤ (pt A.ControlPoints i).w) {x : K} (hx0 : 0 ≤ x) (hx1 : x ≤ 1) :
    |wsum p A x f / wsum p A x (fun _ => 1) - wsum p B x f / wsum p B x (fun _ => 1)| ≤ (D + M * D') / m := by
  have hN := fun i (hi : i < B.ControlPoints.length) => N_nonneg hB.clamped hB.count hx0 hx1 hi
  have hS := N_sum hB.clamped hB.count hx0 hx1
  have avg : ∀ (g : ℕ → K) (C : K), (∀ i < B.ControlPoints.length, |g i| ≤ C) →
      |∑ i ∈ Finset.range B.ControlPoints.length, N (kn B.Knots.Values) x p i * g i| ≤ C := by
    intro g C hg
    refine le_trans (Finset.abs_sum_le_sum_abs _ _) ?_
    calc _ ≤ ∑ i ∈ Finset.range B.ControlPoints.length, N (kn B.Knots.Values) x p i * C := by
          apply Finset.sum_le_sum
          intro i hi
          have hi := Finset.mem_range.mp hi
          rw [abs_mul, abs_of_nonneg (hN i hi)]
          exact mul_le_mul_of_nonneg_left (hg i hi) (hN i hi)
      _ = C := by rw [← Finset.sum_mul, hS, one_mul]
  have low : ∀ (g : ℕ → K) (C : K), (∀ i < B.ControlPoints.length, C ≤ g i) →
      C ≤ ∑ i ∈ Finset.range B.ControlPoints.length, N (kn B.Knots.Values) x p i * g i := by
    intro g C hg
    calc C = ∑ i ∈ Finset.range B.ControlPoints.length, N (kn B.Knots.Values) x p i * C := by
          rw [← Finset.sum_mul, hS, one_mul]
      _ ≤ _ := Finset.sum_le_sum fun i hi =>
        mul_le_mul_of_nonneg_left (hg i (Finset.mem_range.mp hi)) (hN i (Finset.mem_range.mp hi))
  have eA : ∀ g, wsum p A x g = ∑ i ∈ Finset.range B.ControlPoints.length, N (kn B.Knots.Values) x p i *
      ((pt A.ControlPoints i).w * g (pt A.ControlPoints i)) := by
    intro g; unfold wsum; rw [hn, hk]; exact Finset.sum_congr rfl fun i _ => by ring
  have eB : ∀ g, wsum p B x g = ∑ i ∈ Finset.range B.ControlPoints.length, N (kn B.Knots.Values) x p i *
      ((pt B.ControlPoints i).w * g (pt B.ControlPoints i)) := by
    intro g; unfold wsum; exact Finset.sum_congr rfl fun i _ => by ring
  have d1 : |wsum p A x f - wsum p B x f| ≤ D := by
    rw [eA, eB, ← Finset.sum_sub_distrib]
    simp only [← mul_sub]
    exact avg _ _ h1
  have d2 : |wsum p A x (fun _ => 1) - wsum p B x (fun _ => 1)| ≤ D' := by
    rw [eA, eB, ← Finset.sum_sub_distrib]
    simp only [← mul_sub, mul_one]
    exact avg _ _ h2
  have d3 : m ≤ wsum p A x (fun _ => 1) := by
    rw [eA]
    exact low _ _ (by simpa using h4)
  have hbpos : 0 < wsum p B x (fun _ => 1) := by
    obtain ⟨k, hk, hpk, hl⟩ := exists_span hB.clamped hx0 hx1
    obtain ⟨_, _, _, hpos, _⟩ := evaluate_seg hB hx0 hx1 hk
    rwa [show (seg (kn B.Knots.Values) k x p (hpts B.ControlPoints)).w = wsum p B x (fun _ => 1) from
      seg_wsum hB hk hpk hl Vec4.lw id (fun _ => 1) (fun v => by simp [Vec4.lw])] at hpos
  have d4 : |wsum p B x f / wsum p B x (fun _ => 1)| ≤ M := by
    rw [abs_le]
    constructor
    · have := wsum_div_le hB hx0 hx1 (fun v => - f v) M (fun i hi => by have := (abs_le.mp (h3 i hi)).1; linarith)
      have e : wsum p B x (fun v => - f v) = - wsum p B x f := by
        unfold wsum; rw [← Finset.sum_neg_distrib]; exact Finset.sum_congr rfl fun i _ => by ring
      rw [e, neg_div] at this
      linarith
    · exact wsum_div_le hB hx0 hx1 f M (fun i hi => (abs_le.mp (h3 i hi)).2)
  have hpos : 0 < wsum p A x (fun _ => 1) := lt_of_lt_of_le hm d3
  set SA := wsum p A x (fun _ => 1)
  set SB := wsum p B x (fun _ => 1)
  rw [show wsum p A x f / SA - wsum p B x f / SB =
      ((wsum p A x f - wsum p B x f) - wsum p B x f / SB * (SA - SB)) / SA by field_simp; ring, abs_div, abs_of_pos hpos]
  have hM : 0 ≤ M := le_trans (abs_nonneg _) d4
  have hD : 0 ≤ D := le_trans (abs_nonneg _) d1
  have hD' : 0 ≤ D' := le_trans (abs_nonneg _) d2
  have num : |wsum p A x f - wsum p B x f - wsum p B x f / SB * (SA - SB)| ≤ D + M * D' := by
    refine le_trans (abs_sub _ _) (add_le_add d1 ?_)
    rw [abs_mul]
    exact mul_le_mul d4 d2 (abs_nonneg _) hM
  exact div_le_div₀ (add_nonneg hD (mul_nonneg hM hD')) num hm d3

/-! ### the whole curve -/

theorem exactList_insL (l : List (Fl R)) (k : ℕ) (v : Fl R) : exactList (insL l k v) = insL (exactList l) k v.val := by
  simp [exactList, insL, List.map_take, List.map_drop]

section curve
variable {p : ℕ} {c : Curve (Fl R)} (hw : WFCurve p (exactCurve c)) {v : Fl R} {k : ℕ}
  (hk : IsSpan (exactList c.Knots.Values) v.val k) (h0 : 0 < v.val) (h1 : v.val < 1)
include hw hk h0 h1

theorem insC_bounds : p ≤ k ∧ k + p + 2 ≤ c.Knots.Values.length ∧ k < c.ControlPoints.length := by
  have := ins_bounds hw hk h0 h1
  have hlen : (exactCurve c).Knots.Values.length = c.Knots.Values.length := exactList_length _
  have hlen2 : (exactCurve c).ControlPoints.length = c.ControlPoints.length := List.length_map _
  rwa [hlen, hlen2] at this

/-- in the window, the new knot lies between the two knots of the fraction -/
theorem insC_window {i : ℕ} (hi1 : k < i + p) (hi2 : i ≤ k) :
    (kn c.Knots.Values i).val ≤ v.val ∧ v.val < (kn c.Knots.Values (i + p)).val := by
  obtain ⟨hpk, hlk, hkn⟩ := insC_bounds hw hk h0 h1
  have hs := hw.clamped.sorted
  have hlen : (exactCurve c).Knots.Values.length = c.Knots.Values.length := exactList_length _
  have a1 := kn_mono hs hi2 (by omega)
  have a2 := kn_mono hs (show k + 1 ≤ i + p by omega) (by omega)
  have hkv : v.val < kn (exactList c.Knots.Values) (k + 1) := by
    rcases hk.2.2 with h | h
    · exact h
    · exact absurd h.1 h1.ne
  have b1 := le_trans a1 hk.2.1
  have b2 := lt_of_lt_of_le hkv a2
  change kn (exactList c.Knots.Values) i ≤ _ at b1
  change _ < kn (exactList c.Knots.Values) (i + p) at b2
  rw [kn_exactList] at b1 b2
  exact ⟨b1, b2⟩

theorem insC_ne {i : ℕ} (hi1 : k < i + p) (hi2 : i ≤ k) : kn c.Knots.Values (i + p) - kn c.Knots.Values i ≠ 0 ∧
    (insH (kn c.Knots.Values) p v (pt c.ControlPoints) i).w ≠ 0 := by
  obtain ⟨hpk, hlk, hkn⟩ := insC_bounds hw hk h0 h1
  obtain ⟨b1, b2⟩ := insC_window hw hk h0 h1 hi1 hi2
  have hlen2 : (exactCurve c).ControlPoints.length = c.ControlPoints.length := List.length_map _
  refine ⟨Fl.ne_zero (ins_den_pos b1 b2).ne', Fl.ne_zero ?_⟩
  have w1 := hw.weights i (by omega)
  have w2 := hw.weights (i - 1) (by omega)
  change 0 < (pt (c.ControlPoints.map exactPoint) i).w at w1
  change 0 < (pt (c.ControlPoints.map exactPoint) (i - 1)).w at w2
  rw [← exactPoint_pt] at w1 w2
  have := (ins_range (P := pt c.ControlPoints) b1 b2 (lo := min (pt c.ControlPoints i).w.val (pt c.ControlPoints (i - 1)).w.val)
    (hi := max (pt c.ControlPoints i).w.val (pt c.ControlPoints (i - 1)).w.val) (lt_min w1 w2)
    ⟨min_le_left _ _, le_max_left _ _⟩ ⟨min_le_right _ _, le_max_right _ _⟩).1
  exact (lt_of_lt_of_le (mul_pos (pow_pos R.q_pos 3) (lt_min w1 w2)) this).ne'

theorem insertKnot_rounded (hp : 1 ≤ p) : c.InsertKnot v = .ok (insCurveC p k v c) := by
  obtain ⟨hpk, hlk, hkn⟩ := insC_bounds hw hk h0 h1
  have e0 : (0 : Fl R) < v := by rw [Fl.lt_def, Fl.val_zero]; exact h0
  have e1 : v < (1 : Fl R) := by rw [Fl.lt_def, Fl.val_one]; exact h1
  have hd : c.Degree = p := hw.degree
  exact insertKnot_gen hd (clamped_exact.mp hw.clamped) e0 e1 (isSpan_exact.mp hk) hpk hlk hkn hp
    (fun i => insC_ne hw hk h0 h1)

theorem insertListStep_rounded : Curve.insertListStep v c = .ok (insCurveC p k v c) := by
  obtain ⟨hpk, hlk, hkn⟩ := insC_bounds hw hk h0 h1
  have hc : Clamped p c.Knots.Values := clamped_exact.mp hw.clamped
  obtain ⟨k', hk', hs, _⟩ := findSpanIndex_spec hc (u := v) (by rw [Fl.le_def, Fl.val_zero]; exact h0.le)
    (by rw [Fl.le_def, Fl.val_one]; exact h1.le)
  obtain rfl : k = k' := isSpan_unique hw.clamped.sorted hk (isSpan_exact.mpr hs) (fun i hi => hw.clamped.le_one hi)
  have hd : c.Degree = p := hw.degree
  exact insertListStep_gen hd hk' hpk hlk hkn (fun i => insC_ne hw hk h0 h1)

theorem insC_points_length : (exactCurve (insCurveC p k v c)).ControlPoints.length = c.ControlPoints.length + 1 := by
  simp [exactCurve, insCurveC]

theorem insC_pt {i : ℕ} (hi : i < c.ControlPoints.length + 1) : pt (exactCurve (insCurveC p k v c)).ControlPoints i =
    exactPoint (if i + p ≤ k then pt c.ControlPoints i
      else if i ≤ k then unhomo (insH (kn c.Knots.Values) p v (pt c.ControlPoints) i)
      else pt c.ControlPoints (i - 1)) := by
  change pt ((insCurveC p k v c).ControlPoints.map exactPoint) i = _
  rw [← exactPoint_pt]
  unfold insCurveC
  simp only
  rw [pt_tab _ _ _ hi]

theorem insC_range {lo hi B : K} (hlo : 0 < lo) (hb : CurveBounds (exactCurve c) lo hi B) :
    CurveBounds (exactCurve (insCurveC p k v c)) (R.q ^ 3 * lo) ((R.q ^ 3)⁻¹ * hi) ((R.q ^ 8)⁻¹ * B) := by
  obtain ⟨hpk, hlk, hkn⟩ := insC_bounds hw hk h0 h1
  have hb' : ∀ i < c.ControlPoints.length, lo ≤ (pt c.ControlPoints i).w.val ∧ (pt c.ControlPoints i).w.val ≤ hi ∧
      |(pt c.ControlPoints i).x.val| ≤ B ∧ |(pt c.ControlPoints i).y.val| ≤ B ∧ |(pt c.ControlPoints i).z.val| ≤ B := by
    intro i hin
    have hlen2 : (exactCurve c).ControlPoints.length = c.ControlPoints.length := List.length_map _
    have := hb i (by omega)
    change lo ≤ (pt (c.ControlPoints.map exactPoint) i).w ∧ (pt (c.ControlPoints.map exactPoint) i).w ≤ _ ∧
      |(pt (c.ControlPoints.map exactPoint) i).x| ≤ _ ∧ |(pt (c.ControlPoints.map exactPoint) i).y| ≤ _ ∧
      |(pt (c.ControlPoints.map exactPoint) i).z| ≤ _ at this
    rwa [← exactPoint_pt] at this
  intro i hin
  rw [insC_points_length hw hk h0 h1] at hin
  rw [insC_pt hw hk h0 h1 hin]
  have hq := R.q_pos
  have g3 := one_le_pow_inv hq R.q_le 3
  have g8 := one_le_pow_inv hq R.q_le 8
  have l3 : R.q ^ 3 ≤ 1 := pow_le_one₀ hq.le R.q_le
  have old : ∀ j < c.ControlPoints.length, R.q ^ 3 * lo ≤ (pt c.ControlPoints j).w.val ∧
      (pt c.ControlPoints j).w.val ≤ (R.q ^ 3)⁻¹ * hi ∧ |(pt c.ControlPoints j).x.val| ≤ (R.q ^ 8)⁻¹ * B ∧
      |(pt c.ControlPoints j).y.val| ≤ (R.q ^ 8)⁻¹ * B ∧ |(pt c.ControlPoints j).z.val| ≤ (R.q ^ 8)⁻¹ * B := by
    intro j hj
    obtain ⟨a1, a2, a3, a4, a5⟩ := hb' j hj
    have hB : B ≤ (R.q ^ 8)⁻¹ * B := le_mul_of_one_le_left (le_trans (abs_nonneg _) a3) g8
    have hH : hi ≤ (R.q ^ 3)⁻¹ * hi := le_mul_of_one_le_left (by linarith) g3
    have hL : R.q ^ 3 * lo ≤ lo := mul_le_of_le_one_left hlo.le l3
    exact ⟨hL.trans a1, a2.trans hH, a3.trans hB, a4.trans hB, a5.trans hB⟩
  split_ifs with ha hb2
  · exact old i (by omega)
  · obtain ⟨b1, b2⟩ := insC_window hw hk h0 h1 (show k < i + p by omega) hb2
    obtain ⟨p1, p2, p3, p4, p5⟩ := hb' i (by omega)
    obtain ⟨r1, r2, r3, r4, r5⟩ := hb' (i - 1) (by omega)
    obtain ⟨w1, w2⟩ := ins_range b1 b2 hlo ⟨p1, p2⟩ ⟨r1, r2⟩
    exact ⟨w1, w2, ins_range_coord b1 b2 hlo p1 r1 p3 r3, ins_range_coord b1 b2 hlo p1 r1 p4 r4,
      ins_range_coord b1 b2 hlo p1 r1 p5 r5⟩
  · exact old (i - 1) (by omega)

theorem insC_wf : WFCurve p (exactCurve (insCurveC p k v c)) := by
  obtain ⟨hpk, hlk, hkn⟩ := insC_bounds hw hk h0 h1
  have hwe := insCurve_wf hw hk h0 h1
  have ek : (exactCurve (insCurveC p k v c)).Knots.Values = (insCurve p k v.val (exactCurve c)).Knots.Values :=
    exactList_insL _ _ _
  have en : (exactCurve (insCurveC p k v c)).ControlPoints.length = (insCurve p k v.val (exactCurve c)).ControlPoints.length := by
    rw [insC_points_length hw hk h0 h1]; simp [insCurve, exactCurve]
  refine ⟨rfl, by rw [ek]; exact hwe.clamped, by rw [ek, en]; exact hwe.count, ?_⟩
  have hlen2 : (exactCurve c).ControlPoints.length = c.ControlPoints.length := List.length_map _
  have old : ∀ j < c.ControlPoints.length, 0 < (pt c.ControlPoints j).w.val := by
    intro j hj
    have := hw.weights j (by omega)
    change 0 < (pt (c.ControlPoints.map exactPoint) j).w at this
    rwa [← exactPoint_pt] at this
  intro i hi
  rw [insC_points_length hw hk h0 h1] at hi
  rw [insC_pt hw hk h0 h1 hi]
  split_ifs with ha hb2
  · exact old i (by omega)
  · obtain ⟨b1, b2⟩ := insC_window hw hk h0 h1 (show k < i + p by omega) hb2
    have w1 := old i (by omega)
    have w2 := old (i - 1) (by omega)
    have := (ins_range (P := pt c.ControlPoints) b1 b2 (lo := min (pt c.ControlPoints i).w.val (pt c.ControlPoints (i - 1)).w.val)
      (hi := max (pt c.ControlPoints i).w.val (pt c.ControlPoints (i - 1)).w.val) (lt_min w1 w2)
      ⟨min_le_left _ _, le_max_left _ _⟩ ⟨min_le_right _ _, le_max_right _ _⟩).1
    exact lt_of_lt_of_le (mul_pos (pow_pos R.q_pos 3) (lt_min w1 w2)) this
  · exact old (i - 1) (by omega)

theorem insCurve_nurbsPoint {x : K} (hx0 : 0 ≤ x) (hx1 : x ≤ 1) :
    nurbsPoint p (insCurve p k v.val (exactCurve c)) x = nurbsPoint p (exactCurve c) x := by
  have e := insCurve_evaluate hw hk h0 h1 hx0 hx1
  have hwe := insCurve_wf hw hk h0 h1
  obtain ⟨s, hs, a1, a2⟩ := exists_span hwe.clamped hx0 hx1
  obtain ⟨t, ht, b1, b2⟩ := exists_span hw.clamped hx0 hx1
  obtain ⟨_, _, _, _, e1⟩ := evaluate_seg hwe hx0 hx1 hs
  obtain ⟨_, _, _, _, e2⟩ := evaluate_seg hw hx0 hx1 ht
  rw [e1, e2, proj_seg_eq hwe hs a1 a2, proj_seg_eq hw ht b1 b2] at e
  injection e

/-- Weights and homogeneous coordinates of the computed and of the exact new curve, for a coordinate `f`. -/
theorem insC_key {lo hi B : K} (hlo : 0 < lo) (hb : CurveBounds (exactCurve c) lo hi B) :
    ∀ (f : Vec4 K → K) (g : Vec4 (Fl R) → Fl R), (∀ P, f (exactPoint P) = (g P).val) →
      (∀ P : Vec4 (Fl R), g (ToHomo P) = g P * P.w) → (∀ P : Vec4 (Fl R), g (unhomo P) = g P / P.w) →
      (∀ (a : Fl R) P, g (a • P) = a * g P) → (∀ P Q, g (P + Q) = g P + g Q) →
      (∀ P : Vec4 K, f (ToHomo P) = P.w * f P) → (∀ (a : K) P, f (a • P) = a * f P) → (∀ P Q, f (P + Q) = f P + f Q) →
      (∀ i < c.ControlPoints.length, |(g (pt c.ControlPoints i)).val| ≤ B) →
      ∀ i < c.ControlPoints.length + 1,
        |(pt (exactCurve (insCurveC p k v c)).ControlPoints i).w * f (pt (exactCurve (insCurveC p k v c)).ControlPoints i) -
          (pt (insCurve p k v.val (exactCurve c)).ControlPoints i).w * f (pt (insCurve p k v.val (exactCurve c)).ControlPoints i)| ≤
          ((R.q ^ 8)⁻¹ - 1) * (2 * hi * B) ∧
        |(pt (exactCurve (insCurveC p k v c)).ControlPoints i).w - (pt (insCurve p k v.val (exactCurve c)).ControlPoints i).w| ≤
          ((R.q ^ 8)⁻¹ - 1) * (2 * hi) ∧
        |f (pt (insCurve p k v.val (exactCurve c)).ControlPoints i)| ≤ B := by
  obtain ⟨hpk, hlk, hkn⟩ := insC_bounds hw hk h0 h1
  have hq := R.q_pos
  have hb' : ∀ i < c.ControlPoints.length, lo ≤ (pt c.ControlPoints i).w.val ∧ (pt c.ControlPoints i).w.val ≤ hi ∧
      |(pt c.ControlPoints i).x.val| ≤ B ∧ |(pt c.ControlPoints i).y.val| ≤ B ∧ |(pt c.ControlPoints i).z.val| ≤ B := by
    intro i hin
    have hlen2 : (exactCurve c).ControlPoints.length = c.ControlPoints.length := List.length_map _
    have := hb i (by omega)
    change lo ≤ (pt (c.ControlPoints.map exactPoint) i).w ∧ (pt (c.ControlPoints.map exactPoint) i).w ≤ _ ∧
      |(pt (c.ControlPoints.map exactPoint) i).x| ≤ _ ∧ |(pt (c.ControlPoints.map exactPoint) i).y| ≤ _ ∧
      |(pt (c.ControlPoints.map exactPoint) i).z| ≤ _ at this
    rwa [← exactPoint_pt] at this
  have hwe := insCurve_wf hw hk h0 h1
  have hwr := insC_wf hw hk h0 h1
  have hrng := insC_range hw hk h0 h1 hlo hb
  have hBn : 0 ≤ B := le_trans (abs_nonneg _) (hb' k hkn).2.2.1
  have hhi : 0 < hi := by have := hb' k hkn; linarith
  have ek : (exactCurve (insCurveC p k v c)).Knots.Values = (insCurve p k v.val (exactCurve c)).Knots.Values :=
    exactList_insL _ _ _
  have eln : (insCurve p k v.val (exactCurve c)).ControlPoints.length = c.ControlPoints.length + 1 := by
    simp [insCurve, exactCurve]
  have en := (insC_points_length hw hk h0 h1).trans eln.symm
  have g8 : 0 ≤ (R.q ^ 8)⁻¹ - 1 := by have := one_le_pow_inv hq R.q_le 8; linarith
  intro f g hfg hgh hgu hgs hga hfh hfs hfa hgB i hin
  have same : ∀ j < c.ControlPoints.length, ∀ P Q : Vec4 K, P = exactPoint (pt c.ControlPoints j) →
      Q = exactPoint (pt c.ControlPoints j) → |P.w * f P - Q.w * f Q| ≤ ((R.q ^ 8)⁻¹ - 1) * (2 * hi * B) ∧
        |P.w - Q.w| ≤ ((R.q ^ 8)⁻¹ - 1) * (2 * hi) ∧ |f Q| ≤ B := by
    intro j hj P Q e1 e2
    rw [e1, e2, sub_self, sub_self, abs_zero, hfg]
    exact ⟨mul_nonneg g8 (by positivity), mul_nonneg g8 (by positivity), hgB j hj⟩
  have e1 := insC_pt hw hk h0 h1 hin
  have e2 : pt (insCurve p k v.val (exactCurve c)).ControlPoints i =
      if i + p ≤ k then exactPoint (pt c.ControlPoints i)
      else if i ≤ k then unhomo (step (kn (exactList c.Knots.Values)) p v.val (hpts (exactCurve c).ControlPoints) i)
      else exactPoint (pt c.ControlPoints (i - 1)) := by
    rw [exactPoint_pt, exactPoint_pt]
    exact pt_tab _ _ _ (by rw [← eln] at hin; simpa [insCurve] using hin)
  by_cases ha : i + p ≤ k
  · rw [if_pos ha] at e1 e2
    exact same i (by omega) _ _ e1 e2
  · rw [if_neg ha] at e1 e2
    by_cases hb2 : i ≤ k
    · rw [if_pos hb2] at e1 e2
      obtain ⟨b1, b2⟩ := insC_window hw hk h0 h1 (show k < i + p by omega) hb2
      obtain ⟨p1, p2, _⟩ := hb' i (by omega)
      obtain ⟨r1, r2, _⟩ := hb' (i - 1) (by omega)
      have p3 := hgB i (by omega)
      have r3 := hgB (i - 1) (by omega)
      have hden : (kn c.Knots.Values (i + p)).val - (kn c.Knots.Values i).val ≠ 0 := by linarith
      set H := step (kn (exactList c.Knots.Values)) p v.val (hpts (exactCurve c).ControlPoints) i with hH
      have hform := alpha_form (kn (exactList c.Knots.Values)) p v.val (hpts (exactCurve c).ControlPoints) i
        (by rw [kn_exactList, kn_exactList]; exact hden)
      rw [← hH, kn_exactList, kn_exactList] at hform
      have hpe : ∀ j, hpts (exactCurve c).ControlPoints j = ToHomo (exactPoint (pt c.ControlPoints j)) := by
        intro j; rw [exactPoint_pt]; rfl
      rw [hpe, hpe] at hform
      set a := (v.val - (kn c.Knots.Values i).val) / ((kn c.Knots.Values (i + p)).val - (kn c.Knots.Values i).val) with hadef
      have ha0 : 0 ≤ a := div_nonneg (by linarith) (by linarith)
      have ha1 : a ≤ 1 := by rw [hadef, div_le_one (by linarith)]; linarith
      have hHw : H.w = a * (pt c.ControlPoints i).w.val + (1 - a) * (pt c.ControlPoints (i - 1)).w.val := by
        rw [← hform]; rfl
      have hHf : f H = a * ((g (pt c.ControlPoints i)).val * (pt c.ControlPoints i).w.val) +
          (1 - a) * ((g (pt c.ControlPoints (i - 1))).val * (pt c.ControlPoints (i - 1)).w.val) := by
        rw [← hform, hfa, hfs, hfs, hfh, hfh, hfg, hfg]
        simp only [exactPoint]; ring
      have hHpos : 0 < H.w := by rw [hHw]; nlinarith
      set h := insH (kn c.Knots.Values) p v (pt c.ControlPoints) i with hh
      have w1 : Close R.q 6 h.w.val H.w (2 * hi) := by
        rw [hHw]
        have := ins_comb_close b1 b2 (Close.refl R.q_pos (pt c.ControlPoints i).w.val) (Close.refl R.q_pos (pt c.ControlPoints (i - 1)).w.val)
        refine this.mono hq R.q_le le_rfl ?_
        rw [abs_of_nonneg (by linarith), abs_of_nonneg (by linarith)]; linarith
      have cc : ∀ j < c.ControlPoints.length, Close R.q 1 (g (pt c.ControlPoints j) * (pt c.ControlPoints j).w).val
          ((g (pt c.ControlPoints j)).val * (pt c.ControlPoints j).w.val) (hi * B) := by
        intro j hj
        have := Fl.close_round (Close.refl hq ((g (pt c.ControlPoints j)).val * (pt c.ControlPoints j).w.val))
        refine this.mono hq R.q_le le_rfl ?_
        obtain ⟨s1, s2, _⟩ := hb' j hj
        rw [abs_mul, abs_of_nonneg (show 0 ≤ (pt c.ControlPoints j).w.val by linarith), mul_comm]
        exact mul_le_mul s2 (hgB j hj) (abs_nonneg _) hhi.le
      have x1 : Close R.q 7 (g h).val (f H) (2 * hi * B) := by
        rw [hHf]
        have := ins_comb_close b1 b2 (cc i (by omega)) (cc (i - 1) (by omega))
        have e : g h = (v - kn c.Knots.Values i) / (kn c.Knots.Values (i + p) - kn c.Knots.Values i) *
            (g (pt c.ControlPoints i) * (pt c.ControlPoints i).w) +
            (1 - (v - kn c.Knots.Values i) / (kn c.Knots.Values (i + p) - kn c.Knots.Values i)) *
            (g (pt c.ControlPoints (i - 1)) * (pt c.ControlPoints (i - 1)).w) := by
          rw [hh]; unfold insH; rw [hga, hgs, hgs, hgh, hgh]
        rw [e]
        exact this.mono hq R.q_le le_rfl (by linarith)
      have hhw : 0 < h.w.val := by
        have := (ins_range (P := pt c.ControlPoints) b1 b2 hlo ⟨p1, p2⟩ ⟨r1, r2⟩).1
        exact lt_of_lt_of_le (mul_pos (pow_pos hq 3) hlo) this
      have x2 : Close R.q 8 (h.w.val * (g h / h.w).val) (f H) (2 * hi * B) := by
        apply x1.rel
        rw [Fl.val_div, show h.w.val * R.rnd ((g h).val / h.w.val) - (g h).val =
          h.w.val * (R.rnd ((g h).val / h.w.val) - (g h).val / h.w.val) by field_simp, abs_mul, abs_of_pos hhw]
        have := mul_le_mul_of_nonneg_left (R.rel ((g h).val / h.w.val)) hhw.le
        rw [abs_div, abs_of_pos hhw] at this
        refine le_trans this (le_of_eq ?_)
        field_simp
      rw [e1, e2, hfg, hgu]
      have hUw : (unhomo H).w = H.w := rfl
      have hUf : H.w * f (unhomo H) = f H := by
        have := hfh (unhomo H)
        rw [toHomo_unhomo hHpos.ne', hUw] at this
        exact this.symm
      refine ⟨?_, ?_, ?_⟩
      · rw [hUw, hUf]
        exact x2.2
      · rw [hUw]
        exact (w1.mono hq R.q_le (show 6 ≤ 8 by omega) le_rfl).2
      · have : f (unhomo H) = f H / H.w := by rw [eq_div_iff hHpos.ne', mul_comm]; exact hUf
        rw [this, abs_div, abs_of_pos hHpos, div_le_iff₀ hHpos, hHf, hHw]
        have t1 : |(g (pt c.ControlPoints i)).val * (pt c.ControlPoints i).w.val| ≤ B * (pt c.ControlPoints i).w.val := by
          rw [abs_mul, abs_of_nonneg (show 0 ≤ (pt c.ControlPoints i).w.val by linarith)]
          exact mul_le_mul_of_nonneg_right p3 (by linarith)
        have t2 : |(g (pt c.ControlPoints (i - 1))).val * (pt c.ControlPoints (i - 1)).w.val| ≤ B * (pt c.ControlPoints (i - 1)).w.val := by
          rw [abs_mul, abs_of_nonneg (show 0 ≤ (pt c.ControlPoints (i - 1)).w.val by linarith)]
          exact mul_le_mul_of_nonneg_right r3 (by linarith)
        refine le_trans (abs_add_le _ _) ?_
        rw [abs_mul a, abs_mul (1 - a), abs_of_nonneg ha0, abs_of_nonneg (show 0 ≤ 1 - a by linarith)]
        have := mul_le_mul_of_nonneg_left t1 ha0
        have := mul_le_mul_of_nonneg_left t2 (show 0 ≤ 1 - a by linarith)
        linarith
    · rw [if_neg hb2] at e1 e2
      exact same (i - 1) (by omega) _ _ e1 e2

theorem insC_within {lo hi B : K} (hlo : 0 < lo) (hb : CurveBounds (exactCurve c) lo hi B) :
    CurvesWithin p (exactCurve c) (exactCurve (insCurveC p k v c)) (4 * errFactor R 11 * (hi / lo) * B) := by
  obtain ⟨hpk, hlk, hkn⟩ := insC_bounds hw hk h0 h1
  have hq := R.q_pos
  have hb' : ∀ i < c.ControlPoints.length, lo ≤ (pt c.ControlPoints i).w.val ∧ (pt c.ControlPoints i).w.val ≤ hi ∧
      |(pt c.ControlPoints i).x.val| ≤ B ∧ |(pt c.ControlPoints i).y.val| ≤ B ∧ |(pt c.ControlPoints i).z.val| ≤ B := by
    intro i hin
    have hlen2 : (exactCurve c).ControlPoints.length = c.ControlPoints.length := List.length_map _
    have := hb i (by omega)
    change lo ≤ (pt (c.ControlPoints.map exactPoint) i).w ∧ (pt (c.ControlPoints.map exactPoint) i).w ≤ _ ∧
      |(pt (c.ControlPoints.map exactPoint) i).x| ≤ _ ∧ |(pt (c.ControlPoints.map exactPoint) i).y| ≤ _ ∧
      |(pt (c.ControlPoints.map exactPoint) i).z| ≤ _ at this
    rwa [← exactPoint_pt] at this
  have hwe := insCurve_wf hw hk h0 h1
  have hwr := insC_wf hw hk h0 h1
  have hrng := insC_range hw hk h0 h1 hlo hb
  have hBn : 0 ≤ B := le_trans (abs_nonneg _) (hb' k hkn).2.2.1
  have hhi : 0 < hi := by have := hb' k hkn; linarith
  have ek : (exactCurve (insCurveC p k v c)).Knots.Values = (insCurve p k v.val (exactCurve c)).Knots.Values :=
    exactList_insL _ _ _
  have eln : (insCurve p k v.val (exactCurve c)).ControlPoints.length = c.ControlPoints.length + 1 := by
    simp [insCurve, exactCurve]
  have en := (insC_points_length hw hk h0 h1).trans eln.symm
  have g8 : 0 ≤ (R.q ^ 8)⁻¹ - 1 := by have := one_le_pow_inv hq R.q_le 8; linarith
  have key := insC_key hw hk h0 h1 hlo hb
  -- the final estimate
  have fin : ∀ (f : Vec4 K → K), (∀ i < c.ControlPoints.length + 1,
        |(pt (exactCurve (insCurveC p k v c)).ControlPoints i).w * f (pt (exactCurve (insCurveC p k v c)).ControlPoints i) -
          (pt (insCurve p k v.val (exactCurve c)).ControlPoints i).w * f (pt (insCurve p k v.val (exactCurve c)).ControlPoints i)| ≤
          ((R.q ^ 8)⁻¹ - 1) * (2 * hi * B) ∧
        |(pt (exactCurve (insCurveC p k v c)).ControlPoints i).w - (pt (insCurve p k v.val (exactCurve c)).ControlPoints i).w| ≤
          ((R.q ^ 8)⁻¹ - 1) * (2 * hi) ∧
        |f (pt (insCurve p k v.val (exactCurve c)).ControlPoints i)| ≤ B) → ∀ x, 0 ≤ x → x ≤ 1 →
      |wsum p (exactCurve (insCurveC p k v c)) x f / wsum p (exactCurve (insCurveC p k v c)) x (fun _ => 1) -
        wsum p (insCurve p k v.val (exactCurve c)) x f / wsum p (insCurve p k v.val (exactCurve c)) x (fun _ => 1)| ≤
        4 * errFactor R 11 * (hi / lo) * B := by
    intro f hf x hx0 hx1
    have hm : 0 < R.q ^ 3 * lo := mul_pos (pow_pos hq 3) hlo
    have := wsum_perturb hwr hwe ek en f hm (fun i hin => (hf i (by omega)).1) (fun i hin => (hf i (by omega)).2.1)
      (fun i hin => (hf i (by omega)).2.2) (fun i hin => (hrng i (by rw [en]; exact hin)).1) hx0 hx1
    refine le_trans this ?_
    rw [div_le_iff₀ hm]
    have e : 4 * errFactor R 11 * (hi / lo) * B * (R.q ^ 3 * lo) = 4 * hi * B * (errFactor R 11 * R.q ^ 3) := by
      field_simp
    rw [e]
    have hE : (R.q ^ 8)⁻¹ - 1 ≤ errFactor R 11 * R.q ^ 3 := by
      have l3 : R.q ^ 3 ≤ 1 := pow_le_one₀ hq.le R.q_le
      have : errFactor R 11 * R.q ^ 3 = (R.q ^ 8)⁻¹ - R.q ^ 3 := by
        change ((R.q ^ 11)⁻¹ - 1) * R.q ^ 3 = _
        field_simp
      linarith
    have := mul_le_mul_of_nonneg_left hE (show 0 ≤ 4 * hi * B by positivity)
    linarith
  intro x hx0 hx1
  rw [← insCurve_nurbsPoint hw hk h0 h1 hx0 hx1]
  exact ⟨fin (·.x) (key (·.x) (·.x) (fun _ => rfl) (fun _ => rfl) (fun _ => rfl) (fun _ _ => rfl) (fun _ _ => rfl)
      (fun P => by simp [ToHomo, mul_comm]) (fun _ _ => rfl) (fun _ _ => rfl) (fun i hin => (hb' i hin).2.2.1)) x hx0 hx1,
    fin (·.y) (key (·.y) (·.y) (fun _ => rfl) (fun _ => rfl) (fun _ => rfl) (fun _ _ => rfl) (fun _ _ => rfl)
      (fun P => by simp [ToHomo, mul_comm]) (fun _ _ => rfl) (fun _ _ => rfl) (fun i hin => (hb' i hin).2.2.2.1)) x hx0 hx1,
    fin (·.z) (key (·.z) (·.z) (fun _ => rfl) (fun _ => rfl) (fun _ => rfl) (fun _ _ => rfl) (fun _ _ => rfl)
      (fun P => by simp [ToHomo, mul_comm]) (fun _ _ => rfl) (fun _ _ => rfl) (fun i hin => (hb' i hin).2.2.2.2)) x hx0 hx1⟩

end curve

theorem curvesWithin_trans {p : ℕ} {a b c : Curve K} {e e' : K} (h : CurvesWithin p a b e) (h' : CurvesWithin p b c e') :
    CurvesWithin p a c (e + e') := by
  intro x h0 h1
  obtain ⟨a1, a2, a3⟩ := h x h0 h1
  obtain ⟨b1, b2, b3⟩ := h' x h0 h1
  have tri : ∀ r s t : K, |s - r| ≤ e → |t - s| ≤ e' → |t - r| ≤ e + e' := fun r s t h1 h2 => by
    rw [show t - r = (s - r) + (t - s) by ring]
    exact le_trans (abs_add_le _ _) (add_le_add h1 h2)
  exact ⟨tri _ _ _ a1 b1, tri _ _ _ a2 b2, tri _ _ _ a3 b3⟩

/-- Inserting a list of knots: the errors of the single insertions add up. -/
theorem insertList_rounded {p : ℕ} (vs : List (Fl R)) (hv : ∀ v ∈ vs, 0 < v.val ∧ v.val < 1) {c : Curve (Fl R)}
    (hw : WFCurve p (exactCurve c)) {lo hi B : K} (hlo : 0 < lo) (hb : CurveBounds (exactCurve c) lo hi B) :
    ∃ c', c.InsertKnotList vs = .ok c' ∧ WFCurve p (exactCurve c') ∧
      c'.Knots.Values.Perm (vs ++ c.Knots.Values) ∧
      CurvesWithin p (exactCurve c) (exactCurve c') (4 * errFactor R (14 * vs.length) * (hi / lo) * B) := by
  induction vs generalizing c lo hi B with
  | nil =>
    refine ⟨c, rfl, hw, List.Perm.refl _, ?_⟩
    intro x _ _
    simp [errFactor]
  | cons v vs ih =>
    obtain ⟨h0, h1⟩ := hv v (by simp)
    obtain ⟨k, hk, _⟩ := exists_span hw.clamped h0.le h1.le
    have hw' := insC_wf hw hk h0 h1
    have hq := R.q_pos
    obtain ⟨c', e, hw'', hp, hs⟩ := ih (fun v hv' => hv v (by simp [hv'])) hw' (mul_pos (pow_pos hq 3) hlo)
      (insC_range hw hk h0 h1 hlo hb)
    refine ⟨c', ?_, hw'', ?_, ?_⟩
    · unfold Curve.InsertKnotList
      simp only [foldMList]
      rw [insertListStep_rounded hw hk h0 h1, bind_ok]
      exact e
    · refine hp.trans ?_
      refine ((insL_perm _ _ _).append_left vs).trans ?_
      exact List.perm_middle
    · have hlen2 : (exactCurve c).ControlPoints.length = c.ControlPoints.length := List.length_map _
      have hkn := (insC_bounds hw hk h0 h1).2.2
      obtain ⟨b1, b2, b3, _⟩ := hb k (by omega)
      have hB : 0 ≤ B := le_trans (abs_nonneg _) b3
      have hH : 0 ≤ hi / lo := div_nonneg (by linarith) hlo.le
      have := curvesWithin_trans (insC_within hw hk h0 h1 hlo hb) hs
      intro x hx0 hx1
      obtain ⟨t1, t2, t3⟩ := this x hx0 hx1
      have hle : 4 * errFactor R 11 * (hi / lo) * B +
          4 * errFactor R (14 * vs.length) * ((R.q ^ 3)⁻¹ * hi / (R.q ^ 3 * lo)) * ((R.q ^ 8)⁻¹ * B) ≤
          4 * errFactor R (14 * (v :: vs).length) * (hi / lo) * B := by
        have e1 : 4 * errFactor R (14 * vs.length) * ((R.q ^ 3)⁻¹ * hi / (R.q ^ 3 * lo)) * ((R.q ^ 8)⁻¹ * B) =
            4 * (hi / lo) * B * ((R.q ^ (14 * (v :: vs).length))⁻¹ - (R.q ^ 14)⁻¹) := by
          change 4 * ((R.q ^ (14 * vs.length))⁻¹ - 1) * _ * _ = _
          rw [List.length_cons, mul_add, pow_add, mul_one]
          field_simp
        have e2 : 4 * errFactor R (14 * (v :: vs).length) * (hi / lo) * B =
            4 * (hi / lo) * B * ((R.q ^ (14 * (v :: vs).length))⁻¹ - 1) := by
          change 4 * ((R.q ^ (14 * (v :: vs).length))⁻¹ - 1) * _ * _ = _
          ring
        have e3 : 4 * errFactor R 11 * (hi / lo) * B ≤ 4 * (hi / lo) * B * ((R.q ^ 14)⁻¹ - 1) := by
          have : errFactor R 11 ≤ (R.q ^ 14)⁻¹ - 1 := by
            change (R.q ^ 11)⁻¹ - 1 ≤ _
            have := pow_inv_mono hq R.q_le (show 11 ≤ 14 by omega)
            linarith
          have := mul_le_mul_of_nonneg_left this (show 0 ≤ 4 * (hi / lo) * B by positivity)
          linarith
        rw [e1, e2]
        linarith
      exact ⟨t1.trans hle, t2.trans hle, t3.trans hle⟩

end Nurbs
