import Verif.Proof.DoubleBasis
import Verif.Proof.RoundedCurve

/-! # Curve points in `double` with its finite range -/

set_option linter.unusedSectionVars false
set_option exponentiation.threshold 2000

namespace Nurbs
open Nurbs.Spec

variable {m n : ℕ} {e f a b c d B C : ℚ}

/-- `m` relative roundings against the bound `B`, plus the absolute error `e`. -/
structure CloseE (m : ℕ) (e a b B : ℚ) : Prop where
  err : 0 ≤ e
  bound : |b| ≤ B
  dist : |a - b| ≤ ((q64 ^ m)⁻¹ - 1) * B + e

theorem CloseE.bnn (h : CloseE m e a b B) : 0 ≤ B := (abs_nonneg b).trans h.bound

theorem qinv_one (m : ℕ) : 1 ≤ (q64 ^ m)⁻¹ := one_le_pow_inv q64_pos q64_le m

theorem qinv_le (hm : m ≤ 2000) : (q64 ^ m)⁻¹ ≤ 3 / 2 := by
  rw [inv_le_comm₀ (pow_pos q64_pos m) (by norm_num)]
  exact (by norm_num : ((3 : ℚ) / 2)⁻¹ ≤ 2 / 3).trans (q64_pow hm)

theorem CloseE.refl (h : |a| ≤ B) : CloseE 0 0 a a B := ⟨le_rfl, h, by simp⟩

theorem CloseE.mono (h : CloseE m e a b B) (hm : m ≤ n) (he : e ≤ f) : CloseE n f a b B := by
  have hp : (q64 ^ m)⁻¹ ≤ (q64 ^ n)⁻¹ := inv_anti₀ (pow_pos q64_pos n) (pow_le_pow_of_le_one q64_pos.le q64_le hm)
  exact ⟨h.err.trans he, h.bound, h.dist.trans (add_le_add (mul_le_mul_of_nonneg_right (by linarith) h.bnn) he)⟩

theorem CloseE.abs_le' (h : CloseE m e a b B) : |a| ≤ (q64 ^ m)⁻¹ * B + e := by
  have h1 := abs_add_le (a - b) b
  rw [sub_add_cancel] at h1
  have := h.dist
  have := h.bound
  linarith

theorem CloseE.abs_le (h : CloseE m e a b B) (hm : m ≤ 2000) : |a| ≤ 3 / 2 * B + e :=
  h.abs_le'.trans (add_le_add_left (mul_le_mul_of_nonneg_right (qinv_le hm) h.bnn) e)

theorem CloseE.round (h : CloseE m e a b B) : CloseE (m + 1) (2 * e + eta64) (round64 a) b B := by
  have h1 := round64_err a
  have h2 := h.abs_le'
  have hη := eta_pos
  have hu0 : 0 ≤ u64 := by unfold u64; positivity
  have hu1 : u64 ≤ 1 := by unfold u64; norm_num
  have he := h.err
  have hB := h.bnn
  refine ⟨by linarith, h.bound, ?_⟩
  have h3 := abs_add_le (round64 a - a) (a - b)
  rw [sub_add_sub_cancel] at h3
  have h4 : u64 * |a| ≤ u64 * ((q64 ^ m)⁻¹ * B) + e := by
    have := mul_le_mul_of_nonneg_left h2 hu0
    nlinarith
  have h5 : (q64 ^ m)⁻¹ * (1 + u64) ≤ (q64 ^ (m + 1))⁻¹ := by
    have hp := pow_pos q64_pos m
    rw [pow_succ, mul_inv]
    refine mul_le_mul_of_nonneg_left ?_ (inv_nonneg.mpr hp.le)
    rw [le_inv_comm₀ (by linarith) q64_pos, q64_def]
    rw [← one_div, le_div_iff₀ (by linarith)]
    nlinarith
  have h6 := mul_le_mul_of_nonneg_right h5 hB
  have h7 := h.dist
  nlinarith

theorem CloseE.add (h : CloseE m e a b B) (h' : CloseE m f c d C) : CloseE m (e + f) (a + c) (b + d) (B + C) := by
  refine ⟨add_nonneg h.err h'.err, (abs_add_le _ _).trans (add_le_add h.bound h'.bound), ?_⟩
  have := abs_add_le (a - b) (c - d)
  rw [show a - b + (c - d) = a + c - (b + d) by ring] at this
  have h1 := h.dist
  have h2 := h'.dist
  rw [mul_add]
  linarith

theorem NearE.dist (h : NearE m e a b) : |a - b| ≤ ((q64 ^ m)⁻¹ - 1) * b + e := by
  have hp := pow_pos q64_pos m
  have hp1 : q64 ^ m ≤ 1 := pow_le_one₀ q64_pos.le q64_le
  have hb := h.right
  have hi : q64 ^ m * (q64 ^ m)⁻¹ = 1 := mul_inv_cancel₀ hp.ne'
  have hi1 := qinv_one m
  rw [abs_le]
  constructor
  · have h1 := h.lower
    have : 2 - q64 ^ m ≤ (q64 ^ m)⁻¹ := by nlinarith
    nlinarith
  · have h1 := mul_le_mul_of_nonneg_left h.upper (inv_nonneg.mpr hp.le)
    rw [← mul_assoc, mul_comm _ (q64 ^ m), hi, one_mul] at h1
    nlinarith

theorem NearE.mul_close (h : NearE m e a b) (hb : b ≤ 1) (hm : m ≤ 2000) (hn : n ≤ 2000) (h' : CloseE n f c d C) :
    CloseE (m + n) (2 * f + e * (2 * C + f)) (a * c) (b * d) (b * C) := by
  have hC := h'.bnn
  have he := h.err
  have hf := h'.err
  refine ⟨by positivity, ?_, ?_⟩
  · rw [abs_mul, abs_of_nonneg h.right]; exact mul_le_mul_of_nonneg_left h'.bound h.right
  · have h1 : a * c - b * d = (a - b) * c + b * (c - d) := by ring
    have h2 := abs_add_le ((a - b) * c) (b * (c - d))
    rw [← h1, abs_mul, abs_mul, abs_of_nonneg h.right] at h2
    have h3 := mul_le_mul h.dist h'.abs_le' (abs_nonneg c) ((abs_nonneg _).trans h.dist)
    have h4 := mul_le_mul_of_nonneg_left h'.dist h.right
    have hqm := qinv_one m
    have hqn := qinv_one n
    have hqm2 := qinv_le hm
    have hqn2 := qinv_le hn
    rw [pow_add, mul_inv]
    generalize (q64 ^ m)⁻¹ = s at *
    generalize (q64 ^ n)⁻¹ = t at *
    have h5 : ((s - 1) * b + e) * (t * C + f) + b * ((t - 1) * C + f) = (s * t - 1) * (b * C) + (s * b * f + e * (t * C + f)) := by ring
    have h6 : s * b * f ≤ 2 * f := mul_le_mul_of_nonneg_right (by nlinarith [h.right]) hf
    have h7 : e * (t * C + f) ≤ e * (2 * C + f) := mul_le_mul_of_nonneg_left (by nlinarith) he
    linarith

theorem CloseE.mul_near (h : CloseE m e a b B) (h' : Near q64 n c d) : CloseE (m + n) (e * c) (a * c) (b * d) (B * d) := by
  have hB := h.bnn
  refine ⟨mul_nonneg h.err h'.1, ?_, ?_⟩
  · rw [abs_mul, abs_of_nonneg h'.2.1]; exact mul_le_mul_of_nonneg_right h.bound h'.2.1
  · have h1 : a * c - b * d = (a - b) * c + b * (c - d) := by ring
    have h2 := abs_add_le ((a - b) * c) (b * (c - d))
    rw [← h1, abs_mul, abs_mul, abs_of_nonneg h'.1] at h2
    have hn := NearE.of_near h'
    have h3 := mul_le_mul_of_nonneg_right h.dist h'.1
    have h4 := mul_le_mul h.bound hn.dist (abs_nonneg _) hB
    have hc : c ≤ (q64 ^ n)⁻¹ * d := by
      have := hn.upper
      rw [sub_zero] at this
      rw [inv_mul_eq_div, le_div_iff₀ (pow_pos q64_pos n), mul_comm]
      exact this
    have hqm := qinv_one m
    rw [pow_add, mul_inv]
    generalize (q64 ^ m)⁻¹ = s at *
    generalize (q64 ^ n)⁻¹ = t at *
    have h5 : (s - 1) * B * c ≤ (s - 1) * B * (t * d) := mul_le_mul_of_nonneg_left hc (mul_nonneg (by linarith) hB)
    nlinarith

/-- One step of an accumulated sum. -/
theorem CloseE.accum {j : ℕ} {T s : ℚ} (hA : CloseE (m + j) ((4 ^ j - 1) * T) a b B) (hs : CloseE m T s d C) (hT : eta64 ≤ T) :
    CloseE (m + (j + 1)) ((4 ^ (j + 1) - 1) * T) (round64 (a + s)) (b + d) (B + C) := by
  have h1 := (hA.add (hs.mono (Nat.le_add_right m j) le_rfl)).round
  have h4 : (1 : ℚ) ≤ 4 ^ j := one_le_pow₀ (by norm_num)
  have hT0 : 0 ≤ T := hs.err
  refine h1.mono (by omega) ?_
  rw [pow_succ]
  nlinarith

theorem NearE.accum {j : ℕ} {T s : ℚ} (hA : NearE (m + j) ((4 ^ j - 1) * T) a b) (hs : NearE m T s d) (hT : eta64 ≤ T) :
    NearE (m + (j + 1)) ((4 ^ (j + 1) - 1) * T) (round64 (a + s)) (b + d) := by
  have h1 := (hA.add (hs.mono (Nat.le_add_right m j) le_rfl)).round
  have h4 : (1 : ℚ) ≤ 4 ^ j := one_le_pow₀ (by norm_num)
  have hT0 : 0 ≤ T := hs.err
  refine h1.mono (by omega) ?_
  rw [pow_succ]
  nlinarith

/-- An absolute error far below the value is one more relative rounding. -/
theorem NearE.absorb (h : NearE m e a b) (hm : m ≤ 2000) (he : e ≤ u64 / 2 * b) : Near q64 (m + 1) a b := by
  have hp := q64_pow hm
  have hp1 : q64 ^ m ≤ 1 := pow_le_one₀ q64_pos.le q64_le
  have hu0 : 0 ≤ u64 := by unfold u64; positivity
  have hb := h.right
  have hub : 0 ≤ u64 * b := mul_nonneg hu0 hb
  refine ⟨h.left, h.right, ?_, ?_⟩
  · have h1 := h.lower
    have hq : q64 * b = b - u64 * b := by rw [q64_def]; ring
    rw [pow_succ, mul_assoc, hq]
    have : u64 / 2 * b ≤ q64 ^ m * (u64 * b) := by nlinarith
    rw [mul_sub]
    linarith
  · have h1 := h.upper
    have h2 : q64 ^ m * a ≤ (1 + u64) * b := by
      have : q64 ^ m * e ≤ 1 * e := mul_le_mul_of_nonneg_right hp1 h.err
      nlinarith
    rw [pow_succ', mul_assoc]
    calc q64 * (q64 ^ m * a) ≤ q64 * ((1 + u64) * b) := mul_le_mul_of_nonneg_left h2 q64_pos.le
      _ = (1 - u64 * u64) * b := by rw [q64_def]; ring
      _ ≤ 1 * b := mul_le_mul_of_nonneg_right (by nlinarith) hb
      _ = b := one_mul b

/-! ### the weighted sum -/

/-- A vector of finite numbers. -/
def finV (v : Vec4 ℚ) : Vec4 Double := ⟨Double.fin v.x, Double.fin v.y, Double.fin v.z, Double.fin v.w⟩

/-- The absolute error of one term of the weight. -/
def weightErr : ℚ := 1 / 2 ^ 856

theorem eta_le_one : eta64 ≤ 1 := by unfold eta64; rw [div_le_one (by positivity)]; exact one_le_pow₀ (by norm_num)

theorem pow1010 {t : ℚ} (h : |t| ≤ 2 ^ 1010) : |t| ≤ 2 ^ 1023 := h.trans (pow_le_pow_right₀ (by norm_num) (by norm_num))

/-- The absolute error `T` of one term of a coordinate: errors `et` of the point, data up to `H`. -/
structure TermErr (T et H : ℚ) : Prop where
  le : 4 * et + (H + 1) / 2 ^ 956 ≤ T
  small : T ≤ 1 / 2 ^ 200
  hH : H ≤ 2 ^ 500

theorem coord_step {m0 mt j : ℕ} {e F N t b C H A a BA T et : ℚ} (hT : TermErr T et H) (hF : NearE m0 e F N) (hN : N ≤ 1) (hm : m0 ≤ 400)
    (hmt : mt ≤ 500) (he : e ≤ 1 / 2 ^ 959) (ht : CloseE mt et t b C) (hC : C ≤ H) (hj : j < 30)
    (hA : CloseE (m0 + mt + 1 + j) ((4 ^ j - 1) * T) A a BA) (hBA : BA ≤ 2 ^ 505) :
    Double.fin A + Double.fin F * Double.fin t = Double.fin (round64 (A + round64 (F * t))) ∧
      CloseE (m0 + mt + 1 + (j + 1)) ((4 ^ (j + 1) - 1) * T) (round64 (A + round64 (F * t))) (a + N * b) (BA + N * C) := by
  have hη := eta_pos
  have he0 := hF.err
  have hC0 := ht.bnn
  have het := ht.err
  have hH := hT.hH
  have hH0 := hC0.trans hC
  have h500 : (1 : ℚ) ≤ 2 ^ 500 := one_le_pow₀ (by norm_num)
  have hd : (0 : ℚ) ≤ (H + 1) / 2 ^ 956 := by positivity
  have hTη : eta64 ≤ T := by
    refine le_trans ?_ hT.le
    have : eta64 ≤ (H + 1) / 2 ^ 956 := by
      unfold eta64
      rw [div_le_div_iff₀ (by positivity) (by positivity)]
      have : (2 : ℚ) ^ 956 ≤ 2 ^ 1075 := pow_le_pow_right₀ (by norm_num) (by norm_num)
      nlinarith
    linarith
  have hT1 : T ≤ 1 := hT.small.trans (by rw [div_le_one (by positivity)]; exact one_le_pow₀ (by norm_num))
  have het1 : et ≤ 1 := by linarith [hT.le]
  have p1 := hF.mul_close hN (by omega) (by omega) ht
  have p2 : CloseE (m0 + mt + 1) T (round64 (F * t)) (N * b) (N * C) := by
    refine p1.round.mono (by omega) (le_trans ?_ hT.le)
    have h1 : e * (2 * C + et) ≤ 1 / 2 ^ 959 * (2 * H + 1) := mul_le_mul he (by linarith) (by positivity) (by positivity)
    have h2 : eta64 = 1 / 2 ^ 1075 := rfl
    have h3 : (1 : ℚ) / 2 ^ 1075 ≤ 1 / 2 ^ 959 := by norm_num
    have h4 : (H + 1) / 2 ^ 956 = 8 * (1 / 2 ^ 959) * (H + 1) := by rw [div_eq_mul_one_div, mul_comm]; norm_num
    have h5 : (0 : ℚ) < 1 / 2 ^ 959 := by positivity
    rw [h4]
    nlinarith
  have hNC : N * C ≤ 2 ^ 500 := by nlinarith [hF.right]
  have r1 : |F * t| ≤ 2 ^ 1010 := by
    have := p1.abs_le (by omega)
    have h1 : e * (2 * C + et) ≤ 1 * (2 * 2 ^ 500 + 1) := mul_le_mul (he.trans (by rw [div_le_one (by positivity)]; exact one_le_pow₀ (by norm_num)))
      (by linarith) (by positivity) (by norm_num)
    have h2 : (5 : ℚ) * 2 ^ 500 + 3 ≤ 2 ^ 1010 := by norm_num
    linarith
  have h4j : (4 : ℚ) ^ j ≤ 4 ^ 30 := pow_le_pow_right₀ (by norm_num) hj.le
  have hT0 : 0 ≤ T := hη.le.trans hTη
  have hacc : (4 ^ j - 1) * T ≤ 1 := by
    calc (4 ^ j - 1) * T ≤ 4 ^ 30 * (1 / 2 ^ 200) := mul_le_mul (by linarith) hT.small hT0 (by positivity)
      _ ≤ 1 := by norm_num
  have r2 : |A + round64 (F * t)| ≤ 2 ^ 1010 := by
    have h1 := hA.abs_le (by omega)
    have h2 := p2.abs_le (by omega)
    have h3 := abs_add_le A (round64 (F * t))
    have h6 : (3 / 2 : ℚ) * 2 ^ 505 + 3 / 2 * 2 ^ 500 + 2 ≤ 2 ^ 1010 := by norm_num
    linarith
  refine ⟨?_, ?_⟩
  · rw [Double.fin_mul, Double.ofExact_fin (pow1010 r1), Double.fin_add, Double.ofExact_fin (pow1010 r2)]
  · exact hA.accum p2 hTη

theorem weight_step {m0 mt j : ℕ} {e F N w w' A a : ℚ} (hF : NearE m0 e F N) (hN : N ≤ 1) (hm : m0 ≤ 400) (hmt : mt ≤ 500) (he : e ≤ 1 / 2 ^ 959)
    (hw' : Near q64 mt w' w) (hw : w ≤ 2 ^ 100) (hj : j < 30) (hA : NearE (m0 + mt + 1 + j) ((4 ^ j - 1) * weightErr) A a) (ha : a ≤ 2 ^ 505) :
    Double.fin A + Double.fin F * Double.fin w' = Double.fin (round64 (A + round64 (F * w'))) ∧
      NearE (m0 + mt + 1 + (j + 1)) ((4 ^ (j + 1) - 1) * weightErr) (round64 (A + round64 (F * w'))) (a + N * w) := by
  have hη := eta_pos
  have he0 := hF.err
  have hw0 : 0 ≤ w := hw'.2.1
  have hw0' : 0 ≤ w' := hw'.1
  have hw2 : w' ≤ 2 ^ 101 := by
    have h1 := (NearE.of_near hw').le (by omega)
    have h2 : (3 / 2 : ℚ) * 2 ^ 100 ≤ 2 ^ 101 := by norm_num
    linarith
  have hT : eta64 ≤ weightErr := by
    unfold weightErr eta64
    exact one_div_le_one_div_of_le (by positivity) (pow_le_pow_right₀ (by norm_num) (by norm_num))
  have p1 := hF.mul_near hw'
  have p2 : NearE (m0 + mt + 1) weightErr (round64 (F * w')) (N * w) := by
    refine p1.round.mono (by omega) ?_
    have h1 : e * w' ≤ 1 / 2 ^ 959 * 2 ^ 101 := mul_le_mul he hw2 hw0' (by positivity)
    have h2 : eta64 = 1 / 2 ^ 1075 := rfl
    have h3 : (2 : ℚ) * (1 / 2 ^ 959 * 2 ^ 101) + 1 / 2 ^ 1075 ≤ weightErr := by unfold weightErr; norm_num
    linarith
  have hNw : N * w ≤ 2 ^ 100 := by nlinarith [hF.right]
  have hw1 : weightErr ≤ 1 / 2 ^ 400 := by
    unfold weightErr
    exact one_div_le_one_div_of_le (by positivity) (pow_le_pow_right₀ (by norm_num) (by norm_num))
  have h41 : (1 : ℚ) / 2 ^ 400 ≤ 1 := by rw [div_le_one (by positivity)]; exact one_le_pow₀ (by norm_num)
  have r1 : |F * w'| ≤ 2 ^ 1010 := by
    rw [abs_of_nonneg p1.left]
    have := p1.le (by omega)
    have h1 : e * w' ≤ 1 * 2 ^ 101 := mul_le_mul (he.trans (by rw [div_le_one (by positivity)]; exact one_le_pow₀ (by norm_num))) hw2 hw0' (by norm_num)
    have h2 : (3 : ℚ) * 2 ^ 101 ≤ 2 ^ 1010 := by norm_num
    have h3 : (2 : ℚ) ^ 100 ≤ 2 ^ 101 := by norm_num
    linarith
  have h4j : (4 : ℚ) ^ j ≤ 4 ^ 30 := pow_le_pow_right₀ (by norm_num) hj.le
  have hT0 : 0 ≤ weightErr := hη.le.trans hT
  have hacc : (4 ^ j - 1) * weightErr ≤ 1 := by
    calc (4 ^ j - 1) * weightErr ≤ 4 ^ 30 * (1 / 2 ^ 400) := mul_le_mul (by linarith) hw1 hT0 (by positivity)
      _ ≤ 1 := by norm_num
  have r2 : |A + round64 (F * w')| ≤ 2 ^ 1010 := by
    rw [abs_of_nonneg (add_nonneg hA.left p2.left)]
    have h1 := hA.le (by omega)
    have h2 := p2.le (by omega)
    have h6 : (3 / 2 : ℚ) * 2 ^ 505 + 3 / 2 * 2 ^ 100 + 2 ≤ 2 ^ 1010 := by norm_num
    linarith
  refine ⟨?_, ?_⟩
  · rw [Double.fin_mul, Double.ofExact_fin (pow1010 r1), Double.fin_add, Double.ofExact_fin (pow1010 r2)]
  · exact hA.accum p2 hT

/-- The weighted sum of homogeneous points, accumulated from zero. -/
theorem forUp_finV {m0 mt mw n : ℕ} {e H T et : ℚ} (body : Int → Vec4 Double → M (Vec4 Double)) (F N : ℕ → ℚ) (P b : ℕ → Vec4 ℚ) (C : ℕ → ℚ)
    (hn : n ≤ 30) (hm : m0 ≤ 400) (hmt : mt ≤ 500) (hmw : mw ≤ 500) (he : e ≤ 1 / 2 ^ 959) (hT : TermErr T et H)
    (hbody : ∀ i < n, ∀ t, body i t = .ok (t + Double.fin (F i) • finV (P i)))
    (hF : ∀ i < n, NearE m0 e (F i) (N i)) (hN : ∀ i < n, N i ≤ 1)
    (hP : ∀ i < n, CloseE mt et (P i).x (b i).x (C i) ∧ CloseE mt et (P i).y (b i).y (C i) ∧ CloseE mt et (P i).z (b i).z (C i) ∧
      Near q64 mw (P i).w (b i).w ∧ (b i).w ≤ 2 ^ 100 ∧ C i ≤ H) :
    ∃ A, forUp 0 n body 0 = .ok (finV A) ∧
      CloseE (m0 + mt + 1 + n) ((4 ^ n - 1) * T) A.x (∑ i ∈ Finset.range n, N i • b i).x (∑ i ∈ Finset.range n, N i * C i) ∧
      CloseE (m0 + mt + 1 + n) ((4 ^ n - 1) * T) A.y (∑ i ∈ Finset.range n, N i • b i).y (∑ i ∈ Finset.range n, N i * C i) ∧
      CloseE (m0 + mt + 1 + n) ((4 ^ n - 1) * T) A.z (∑ i ∈ Finset.range n, N i • b i).z (∑ i ∈ Finset.range n, N i * C i) ∧
      NearE (m0 + mw + 1 + n) ((4 ^ n - 1) * weightErr) A.w (∑ i ∈ Finset.range n, N i • b i).w := by
  have key := forUp_inv (P := fun j (r : Vec4 Double) => ∃ A, r = finV A ∧
      CloseE (m0 + mt + 1 + j) ((4 ^ j - 1) * T) A.x (∑ i ∈ Finset.range j, N i • b i).x (∑ i ∈ Finset.range j, N i * C i) ∧
      CloseE (m0 + mt + 1 + j) ((4 ^ j - 1) * T) A.y (∑ i ∈ Finset.range j, N i • b i).y (∑ i ∈ Finset.range j, N i * C i) ∧
      CloseE (m0 + mt + 1 + j) ((4 ^ j - 1) * T) A.z (∑ i ∈ Finset.range j, N i • b i).z (∑ i ∈ Finset.range j, N i * C i) ∧
      NearE (m0 + mw + 1 + j) ((4 ^ j - 1) * weightErr) A.w (∑ i ∈ Finset.range j, N i • b i).w ∧
      (∑ i ∈ Finset.range j, N i * C i) ≤ j * 2 ^ 500 ∧ (∑ i ∈ Finset.range j, N i • b i).w ≤ j * 2 ^ 500) body n 0 0 ?_ ?_
  · obtain ⟨r, hr, A, e1, hx, hy, hz, hw, _⟩ := key
    subst e1
    exact ⟨A, hr, hx, hy, hz, hw⟩
  · refine ⟨0, rfl, ?_⟩
    simp only [Finset.range_zero, Finset.sum_empty, pow_zero, sub_self, zero_mul]
    have hz : CloseE (m0 + mt + 1 + 0) 0 (0 : Vec4 ℚ).x (0 : Vec4 ℚ).x 0 := (CloseE.refl (by simp)).mono (by omega) le_rfl
    refine ⟨hz, hz, hz, ?_, by simp, by simp⟩
    exact (NearE.of_near (Near.refl q64_pos (le_refl (0 : ℚ)))).mono (by omega) le_rfl
  · rintro i hi s ⟨A, rfl, hx, hy, hz, hw, b1, b2⟩
    rw [zero_add, hbody i hi]
    obtain ⟨px, py, pz, pw, w1, hC⟩ := hP i hi
    have w0 := pw.2.1
    have hH := hT.hH
    have hFi := hF i hi
    have hNi := hN i hi
    have hi30 : i < 30 := by omega
    have hiq : (i : ℚ) ≤ 30 := by exact_mod_cast hi30.le
    have c505 : (i : ℚ) * 2 ^ 500 ≤ 2 ^ 505 := by
      calc (i : ℚ) * 2 ^ 500 ≤ 30 * 2 ^ 500 := mul_le_mul_of_nonneg_right hiq (by positivity)
        _ ≤ 2 ^ 505 := by norm_num
    obtain ⟨x1, x2⟩ := coord_step hT hFi hNi hm hmt he px hC hi30 hx (b1.trans c505)
    obtain ⟨y1, y2⟩ := coord_step hT hFi hNi hm hmt he py hC hi30 hy (b1.trans c505)
    obtain ⟨z1, z2⟩ := coord_step hT hFi hNi hm hmt he pz hC hi30 hz (b1.trans c505)
    obtain ⟨u1, u2⟩ := weight_step hFi hNi hm hmw he pw w1 hi30 hw (b2.trans c505)
    have hN0 := hFi.right
    have hC0 := px.bnn
    simp only [Finset.sum_range_succ]
    refine ⟨_, rfl, ⟨_, _, _, _⟩, ?_, x2, y2, z2, u2, ?_, ?_⟩
    · show (⟨Double.fin A.x + Double.fin (F i) * Double.fin (P i).x, Double.fin A.y + Double.fin (F i) * Double.fin (P i).y,
        Double.fin A.z + Double.fin (F i) * Double.fin (P i).z, Double.fin A.w + Double.fin (F i) * Double.fin (P i).w⟩ : Vec4 Double) = _
      rw [x1, y1, z1, u1]
      rfl
    · push_cast
      have : N i * C i ≤ 1 * 2 ^ 500 := mul_le_mul hNi (hC.trans hH) hC0 zero_le_one
      linarith
    · push_cast
      have h100 : (2 : ℚ) ^ 100 ≤ 2 ^ 500 := pow_le_pow_right₀ (by norm_num) (by norm_num)
      have : N i * (b i).w ≤ 1 * 2 ^ 500 := mul_le_mul hNi (w1.trans h100) w0 zero_le_one
      show (∑ i ∈ Finset.range i, N i • b i).w + N i * (b i).w ≤ _
      linarith

theorem near_weight {mw : ℕ} {W w0 ew : ℚ} (hmw : mw ≤ 1000) (hW : NearE mw ew W w0) (hw : 1 / 2 ^ 100 ≤ w0) (hew : ew ≤ 1 / 2 ^ 796) :
    Near q64 (mw + 1) W w0 := by
  refine hW.absorb (by omega) (hew.trans ?_)
  calc (1 : ℚ) / 2 ^ 796 ≤ u64 / 2 * (1 / 2 ^ 100) := by unfold u64; norm_num
    _ ≤ u64 / 2 * w0 := mul_le_mul_of_nonneg_left hw (by unfold u64; positivity)

/-- The final division of one coordinate by the weight. -/
theorem coord_div {m mw : ℕ} {A a W w0 B ea ew : ℚ} (hm : m ≤ 900) (hmw : mw ≤ 900) (hA : CloseE m ea A a (B * w0)) (hW : NearE mw ew W w0)
    (hw : 1 / 2 ^ 100 ≤ w0) (hB0 : 0 ≤ B) (hB : B ≤ 2 ^ 400) (hea : ea ≤ (B * 2 ^ 100 + 1) / 2 ^ 832)
    (hew : ew ≤ 1 / 2 ^ 796) :
    W ≠ 0 ∧ Double.fin A / Double.fin W = Double.fin (round64 (A / W)) ∧ |A / W| ≤ 2 ^ 1010 ∧
      |round64 (A / W) - a / w0| ≤ ((q64 ^ (m + mw + 3))⁻¹ - 1) * B + 1 / 2 ^ 729 := by
  have hw0 : 0 < w0 := lt_of_lt_of_le (by positivity) hw
  have nW : Near q64 (mw + 1) W w0 := near_weight (by omega) hW hw hew
  have hWpos : 0 < W := nW.pos q64_pos hw0
  have hWl : 2 / 3 * (1 / 2 ^ 100) ≤ W := by
    have h1 := nW.2.2.1
    have h2 := q64_pow (m := mw + 1) (by omega)
    calc (2 : ℚ) / 3 * (1 / 2 ^ 100) ≤ q64 ^ (mw + 1) * w0 := mul_le_mul h2 hw (by positivity) (by linarith)
      _ ≤ W := h1
  have hWi : W⁻¹ ≤ 2 ^ 101 := by
    rw [inv_le_comm₀ hWpos (by positivity)]
    exact le_trans (by norm_num) hWl
  have hWi0 : 0 ≤ W⁻¹ := inv_nonneg.mpr hWpos.le
  have p1 := hA.mul_near (nW.inv q64_pos hw0)
  rw [← div_eq_mul_inv A W, ← div_eq_mul_inv a w0, mul_assoc, mul_inv_cancel₀ hw0.ne', mul_one] at p1
  have hee : ea * W⁻¹ ≤ (B * 2 ^ 100 + 1) / 2 ^ 731 := by
    calc ea * W⁻¹ ≤ (B * 2 ^ 100 + 1) / 2 ^ 832 * 2 ^ 101 := mul_le_mul hea hWi hWi0 (by positivity)
      _ = (B * 2 ^ 100 + 1) / 2 ^ 731 := by rw [div_mul_eq_mul_div, div_eq_div_iff (by positivity) (by positivity), mul_assoc, ← pow_add]
  have p2 := p1.round
  have r : |A / W| ≤ 2 ^ 1010 := by
    have h1 := p1.abs_le (by omega)
    have h2 : (B * 2 ^ 100 + 1) / 2 ^ 731 ≤ 1 := by
      rw [div_le_one (by positivity)]
      have : (2 : ℚ) ^ 400 * 2 ^ 100 + 1 ≤ 2 ^ 731 := by norm_num
      nlinarith
    have h3 : (3 / 2 : ℚ) * 2 ^ 400 + 1 ≤ 2 ^ 1010 := by norm_num
    linarith
  refine ⟨hWpos.ne', ?_, r, ?_⟩
  · rw [Double.fin_div, Double.ofExact_fin (pow1010 r)]
  · have h1 := p2.dist
    have h2 : 2 * (ea * W⁻¹) + eta64 ≤ u64 * B + 1 / 2 ^ 729 := by
      have h3 : eta64 = 1 / 2 ^ 1075 := rfl
      have h4 : (B * 2 ^ 100 + 1) / 2 ^ 731 = B * (1 / 2 ^ 631) + 1 / 2 ^ 731 := by
        rw [add_div, mul_div_assoc]; congr 2; norm_num
      have h5 : B * (1 / 2 ^ 631) * 2 ≤ u64 * B := by
        rw [mul_assoc, mul_comm]
        exact mul_le_mul_of_nonneg_right (by unfold u64; norm_num) hB0
      have h6 : (2 : ℚ) * (1 / 2 ^ 731) + 1 / 2 ^ 1075 ≤ 1 / 2 ^ 729 := by norm_num
      linarith
    have hstep : (q64 ^ (m + (mw + 1) + 1))⁻¹ + u64 ≤ (q64 ^ (m + mw + 3))⁻¹ := by
      have e1 : m + mw + 3 = (m + (mw + 1) + 1) + 1 := by ring
      rw [e1, pow_succ _ (m + (mw + 1) + 1), mul_inv]
      have h7 := qinv_one (m + (mw + 1) + 1)
      have h8 : 1 + u64 ≤ q64⁻¹ := by
        rw [le_inv_comm₀ (by unfold u64; norm_num) q64_pos, q64_def]
        unfold u64
        norm_num
      have hu0 : 0 ≤ u64 := by unfold u64; positivity
      nlinarith
    have := mul_le_mul_of_nonneg_right hstep hB0
    rw [add_mul] at this
    linarith

/-- What is known about a control point. -/
structure PointOK (B : ℚ) (Q : Vec4 ℚ) : Prop where
  lo : 1 / 2 ^ 100 ≤ Q.w
  hi : Q.w ≤ 2 ^ 100
  x : |Q.x| ≤ B
  y : |Q.y| ≤ B
  z : |Q.z| ≤ B

/-- The rounded homogeneous coordinates. -/
def homo64 (Q : Vec4 ℚ) : Vec4 ℚ := ⟨round64 (Q.x * Q.w), round64 (Q.y * Q.w), round64 (Q.z * Q.w), Q.w⟩

theorem toHomo_finV {B : ℚ} {Q : Vec4 ℚ} (hB : B ≤ 2 ^ 400) (h : PointOK B Q) : ToHomo (finV Q) = finV (homo64 Q) := by
  have hw0 : 0 ≤ Q.w := le_trans (by positivity) h.lo
  have r : ∀ a : ℚ, |a| ≤ B → |a * Q.w| ≤ 2 ^ 1023 := by
    intro a ha
    rw [abs_mul, abs_of_nonneg hw0]
    calc |a| * Q.w ≤ 2 ^ 400 * 2 ^ 100 := mul_le_mul (ha.trans hB) h.hi hw0 (by positivity)
      _ ≤ 2 ^ 1023 := by norm_num
  unfold ToHomo finV homo64
  simp only [Double.fin_mul]
  rw [Double.ofExact_fin (r _ h.x), Double.ofExact_fin (r _ h.y), Double.ofExact_fin (r _ h.z)]

theorem homo64_close {B : ℚ} {Q : Vec4 ℚ} (h : PointOK B Q) : CloseE 1 eta64 (homo64 Q).x (ToHomo Q).x (B * Q.w) ∧
    CloseE 1 eta64 (homo64 Q).y (ToHomo Q).y (B * Q.w) ∧ CloseE 1 eta64 (homo64 Q).z (ToHomo Q).z (B * Q.w) := by
  have hw0 : 0 ≤ Q.w := le_trans (by positivity) h.lo
  have r : ∀ a : ℚ, |a| ≤ B → CloseE 1 eta64 (round64 (a * Q.w)) (a * Q.w) (B * Q.w) := by
    intro a ha
    have h : |a * Q.w| ≤ B * Q.w := by rw [abs_mul, abs_of_nonneg hw0]; exact mul_le_mul_of_nonneg_right ha hw0
    exact (CloseE.refl h).round.mono le_rfl (by linarith)
  exact ⟨r _ h.x, r _ h.y, r _ h.z⟩

variable {knots : List Double} {k p : ℕ} {U : ℕ → ℚ} {X : ℚ}

theorem tri_reg (H : TriData knots k p U X) (hlt : U k < U (k + 1)) : RegSpan U k p := by
  intro q i hq h1 h2
  have hp := H.hp
  have a1 := H.mono (k + 1) (i + q) (by omega) (by omega)
  have a2 := H.mono i k (by omega) (by omega)
  intro e
  linarith

theorem pow_four {p : ℕ} (hp : p ≤ 29) : (4 : ℚ) ^ (p + 1) - 1 ≤ 2 ^ 60 := by
  have : (4 : ℚ) ^ (p + 1) ≤ 4 ^ 30 := pow_le_pow_right₀ (by norm_num) (by omega)
  have h : (4 : ℚ) ^ 30 = 2 ^ 60 := by norm_num
  linarith

theorem sum_weightErr {p : ℕ} (hp : p ≤ 29) : (4 ^ (p + 1) - 1) * weightErr ≤ 1 / 2 ^ 796 := by
  calc (4 ^ (p + 1) - 1) * weightErr ≤ 2 ^ 60 * weightErr := mul_le_mul_of_nonneg_right (pow_four hp) (by unfold weightErr; positivity)
    _ = 1 / 2 ^ 796 := by unfold weightErr; norm_num

/-- The weights of the sum of a segment stay between their bounds. -/
theorem tri_between (H : TriData knots k p U X) (hlt : U k < U (k + 1)) {lo hi : ℚ} {w : ℕ → ℚ} (hw : ∀ i < p + 1, lo ≤ w i ∧ w i ≤ hi) :
    lo ≤ ∑ i ∈ Finset.range (p + 1), Nl U k X p (k - p + i) * w i ∧ ∑ i ∈ Finset.range (p + 1), Nl U k X p (k - p + i) * w i ≤ hi := by
  have hone := seg_one U k X p H.hp (tri_reg H hlt)
  have hnn : ∀ i, 0 ≤ Nl U k X p i := fun i => Nl_nonneg _ k X p i H.mono H.x1 H.x2
  constructor
  · calc lo = ∑ i ∈ Finset.range (p + 1), Nl U k X p (k - p + i) * lo := by rw [← Finset.sum_mul, hone, one_mul]
      _ ≤ _ := Finset.sum_le_sum fun i hi => mul_le_mul_of_nonneg_left (hw i (Finset.mem_range.mp hi)).1 (hnn _)
  · calc _ ≤ ∑ i ∈ Finset.range (p + 1), Nl U k X p (k - p + i) * hi :=
          Finset.sum_le_sum fun i hi => mul_le_mul_of_nonneg_left (hw i (Finset.mem_range.mp hi)).2 (hnn _)
      _ = hi := by rw [← Finset.sum_mul, hone, one_mul]

/-- The sum over the control points of one span. -/
theorem row_sum {B : ℚ} (H : TriData knots k p U X) (hlt : U k < U (k + 1)) (hB0 : 0 ≤ B) (hB : B ≤ 2 ^ 400) (V : ℕ → ℚ)
    (hV : ∀ r, lvG knots k (Double.fin X) p r = Double.fin (V r) ∧ NearE (6 * p) (absErr p) (V r) (lev U k X p r))
    (body : Int → Vec4 Double → M (Vec4 Double)) (Q : ℕ → Vec4 ℚ) (hQ : ∀ i < p + 1, PointOK B (Q i))
    (hbody : ∀ i < p + 1, ∀ t, body i t = .ok (t + Double.fin (V i) • ToHomo (finV (Q i)))) :
    ∃ A, forUp 0 (p + 1) body 0 = .ok (finV A) ∧
      (let s := ∑ i ∈ Finset.range (p + 1), Nl U k X p (k - p + i) • ToHomo (Q i)
       CloseE (7 * p + 3) ((B * 2 ^ 100 + 1) / 2 ^ 895) A.x s.x (B * s.w) ∧ CloseE (7 * p + 3) ((B * 2 ^ 100 + 1) / 2 ^ 895) A.y s.y (B * s.w) ∧
       CloseE (7 * p + 3) ((B * 2 ^ 100 + 1) / 2 ^ 895) A.z s.z (B * s.w) ∧ NearE (7 * p + 2) (1 / 2 ^ 796) A.w s.w ∧
       1 / 2 ^ 100 ≤ s.w ∧ s.w ≤ 2 ^ 100) := by
  have hp29 := H.p29
  have h500 : B * 2 ^ 100 ≤ 2 ^ 500 := by
    calc B * 2 ^ 100 ≤ 2 ^ 400 * 2 ^ 100 := mul_le_mul_of_nonneg_right hB (by positivity)
      _ = 2 ^ 500 := by rw [← pow_add]
  have hlev : ∀ i < p + 1, lev U k X p i = Nl U k X p (k - p + i) := by
    intro i hi; unfold lev; rw [if_pos (by omega)]
  have hT : TermErr ((B * 2 ^ 100 + 1) / 2 ^ 955) eta64 (B * 2 ^ 100) := by
    refine ⟨?_, ?_, h500⟩
    · have h1 : (B * 2 ^ 100 + 1) / 2 ^ 955 = 2 * ((B * 2 ^ 100 + 1) / 2 ^ 956) := by
        rw [← mul_div_assoc, div_eq_div_iff (by positivity) (by positivity)]; ring
      have h2 : 4 * eta64 ≤ (B * 2 ^ 100 + 1) / 2 ^ 956 := by
        have h3 : (1 : ℚ) / 2 ^ 956 ≤ (B * 2 ^ 100 + 1) / 2 ^ 956 := div_le_div_of_nonneg_right (by nlinarith) (by positivity)
        have h4 : 4 * eta64 ≤ (1 : ℚ) / 2 ^ 956 := by unfold eta64; norm_num
        linarith
      linarith
    · rw [div_le_div_iff₀ (by positivity) (by positivity)]
      have : ((2 : ℚ) ^ 500 + 1) * 2 ^ 200 ≤ 1 * 2 ^ 955 := by norm_num
      nlinarith
  obtain ⟨A, hA, ax, ay, az, aw⟩ := forUp_finV (m0 := 6 * p) (mt := 1) (mw := 0) (n := p + 1) body V
    (fun i => Nl U k X p (k - p + i)) (fun i => homo64 (Q i)) (fun i => ToHomo (Q i)) (fun i => B * (Q i).w)
    (by omega) (by omega) (by omega) (by omega) (absErr_le hp29) hT
    (fun i hi t => by rw [hbody i hi, toHomo_finV hB (hQ i hi)])
    (fun i hi => by rw [← hlev i hi]; exact (hV i).2)
    (fun i hi => by rw [← hlev i hi]; exact (lev_le_one H le_rfl i).2)
    (fun i hi => by
      have h := hQ i hi
      have hw0 : 0 ≤ (Q i).w := le_trans (by positivity) h.lo
      have hc := homo64_close h
      exact ⟨hc.1, hc.2.1, hc.2.2, Near.refl q64_pos hw0, h.hi, mul_le_mul_of_nonneg_left h.hi hB0⟩)
  have hsw : (∑ i ∈ Finset.range (p + 1), Nl U k X p (k - p + i) • ToHomo (Q i)).w =
      ∑ i ∈ Finset.range (p + 1), Nl U k X p (k - p + i) * (Q i).w := Vec4.sum_w _ _
  have hBs : ∑ i ∈ Finset.range (p + 1), Nl U k X p (k - p + i) * (B * (Q i).w) =
      B * (∑ i ∈ Finset.range (p + 1), Nl U k X p (k - p + i) • ToHomo (Q i)).w := by
    rw [hsw, Finset.mul_sum]
    exact Finset.sum_congr rfl fun i _ => by ring
  rw [hBs] at ax ay az
  have hte : (4 ^ (p + 1) - 1) * ((B * 2 ^ 100 + 1) / 2 ^ 955) ≤ (B * 2 ^ 100 + 1) / 2 ^ 895 := by
    calc (4 ^ (p + 1) - 1) * ((B * 2 ^ 100 + 1) / 2 ^ 955) ≤ 2 ^ 60 * ((B * 2 ^ 100 + 1) / 2 ^ 955) :=
          mul_le_mul_of_nonneg_right (pow_four hp29) (by positivity)
      _ = (B * 2 ^ 100 + 1) / 2 ^ 895 := by
          rw [← mul_div_assoc, div_eq_div_iff (by positivity) (by positivity), mul_comm ((2 : ℚ) ^ 60), mul_assoc, ← pow_add]
  have hb := tri_between H hlt (fun i hi => ⟨(hQ i hi).lo, (hQ i hi).hi⟩)
  rw [← hsw] at hb
  exact ⟨A, hA, ax.mono (by omega) hte, ay.mono (by omega) hte, az.mono (by omega) hte, aw.mono (by omega) (sum_weightErr hp29), hb.1, hb.2⟩

/-! ### finite data -/

theorem isFin_eq {x : Double} (h : IsFin x) : x = Double.fin x.val ∧ OnGrid x.val ∧ |x.val| ≤ maxDouble := by
  obtain ⟨a, rfl, h1, h2⟩ := h
  refine ⟨rfl, ?_, h2⟩
  rw [Double.val_fin, ← h1]
  exact onGrid_round a

theorem kn_val (l : List Double) (i : ℕ) : kn (l.map Double.val) i = (kn l i).val := by
  unfold kn
  rcases lt_or_ge i l.length with h | h
  · simp [h]
  · simp [h]; rfl

theorem kn_fin {l : List Double} (hl : ∀ d ∈ l, IsFin d) (i : ℕ) : kn l i = Double.fin (kn (l.map Double.val) i) ∧
    OnGrid (kn (l.map Double.val) i) := by
  rw [kn_val]
  rcases lt_or_ge i l.length with h | h
  · have := isFin_eq (hl _ (List.getElem_mem h))
    rw [kn_eq_getElem l i h]
    exact ⟨this.1, this.2.1⟩
  · have e : kn l i = Double.fin 0 := by unfold kn; simp [h]; rfl
    rw [e]
    refine ⟨rfl, ?_⟩
    rw [Double.val_fin, ← round64_zero]
    exact onGrid_round 0

theorem clamped_double {p : ℕ} {l : List Double} (hl : ∀ d ∈ l, IsFin d) (h : Clamped p (l.map Double.val)) : Clamped p l := by
  have e := fun i => (kn_fin hl i).1
  have hlen := h.len
  have h5 := h.last
  have h6 := h.ones
  rw [List.length_map] at hlen h5 h6
  refine ⟨hlen, ?_, fun i hi => ?_, fun i hi hi' => ?_, ?_, ?_⟩
  · have hs := h.sorted
    rw [List.pairwise_map] at hs
    refine hs.imp_of_mem fun ha hb hab => ?_
    rw [(isFin_eq (hl _ ha)).1, (isFin_eq (hl _ hb)).1]
    exact Double.fin_le.mpr hab
  · rw [e, h.zeros i hi]; rfl
  · rw [e, h6 i hi hi']; rfl
  · rw [e, Double.zero_def, Double.fin_lt]; exact h.first
  · rw [e, Double.one_def, Double.fin_lt]; exact h5

theorem isSpan_double {l : List Double} (hl : ∀ d ∈ l, IsFin d) {X : ℚ} {k : ℕ} :
    IsSpan (l.map Double.val) X k ↔ IsSpan l (Double.fin X) k := by
  unfold IsSpan
  simp only [List.length_map, (kn_fin hl _).1, Double.one_def, Double.fin_le, Double.fin_lt, Double.fin_inj]

theorem finV_exact {P : Vec4 Double} (h : IsFin P.x ∧ IsFin P.y ∧ IsFin P.z ∧ IsFin P.w) : finV (exactPoint64 P) = P := by
  unfold finV exactPoint64
  rw [← (isFin_eq h.1).1, ← (isFin_eq h.2.1).1, ← (isFin_eq h.2.2.1).1, ← (isFin_eq h.2.2.2).1]

theorem triData {p : ℕ} {l : List Double} (hfin : ∀ d ∈ l, IsFin d) (hc : Clamped p (l.map Double.val)) (hp : p ≤ 29) {X : ℚ} (gx : OnGrid X) {k : ℕ}
    (hsx : IsSpan (l.map Double.val) X k) (hpk : p ≤ k) (hlk : k + p + 2 ≤ l.length)
    (hgap : ∀ i, kn (l.map Double.val) i < kn (l.map Double.val) (i + 1) → i + 1 < l.length →
      minGap ≤ kn (l.map Double.val) (i + 1) - kn (l.map Double.val) i) :
    TriData l k p (kn (l.map Double.val)) X := by
  have hlen : (l.map Double.val).length = l.length := List.length_map _
  exact ⟨hpk, hp, fun i _ => (kn_fin hfin i).1, fun i _ => (kn_fin hfin i).2, gx,
      fun i j hij hj => kn_mono hc.sorted hij (by omega), fun i hi => hc.nonneg (by omega),
      fun i hi => hc.le_one (by omega), hsx.2.1, IsSpan.le_right hsx, fun _ => hgap k (IsSpan.lt hsx) (by omega)⟩

/-! ### curves -/

/-- `Curve::Evaluate` in `double`. -/
theorem evaluate_double {p : ℕ} {c : Curve Double} (hp29 : p ≤ 29) (hfin : FinCurve c) (hw : WFCurve p (exactCurve64 c))
    (hgap : GapsAtLeast minGap (exactCurve64 c).Knots.Values)
    (hwt : ∀ P ∈ (exactCurve64 c).ControlPoints, 1 / 2 ^ 100 ≤ P.w ∧ P.w ≤ 2 ^ 100)
    {B : ℚ} (hB : B ≤ 2 ^ 400) (hc : ∀ P ∈ (exactCurve64 c).ControlPoints, |P.x| ≤ B ∧ |P.y| ≤ B ∧ |P.z| ≤ B)
    {x : Double} (hx : IsFin x) (h0 : 0 ≤ x.val) (h1 : x.val ≤ 1) :
    ∃ e k, c.Evaluate x = .ok e ∧ IsFin e.x ∧ IsFin e.y ∧ IsFin e.z ∧ IsSpan (exactCurve64 c).Knots.Values x.val k ∧ p ≤ k ∧
      k + p + 2 ≤ (exactCurve64 c).Knots.Values.length ∧
      let s := seg (kn (exactCurve64 c).Knots.Values) k x.val p (hpts (exactCurve64 c).ControlPoints)
      |e.x.val - s.x / s.w| ≤ ((q64 ^ (14 * p + 8))⁻¹ - 1) * B + 1 / 2 ^ 729 ∧
      |e.y.val - s.y / s.w| ≤ ((q64 ^ (14 * p + 8))⁻¹ - 1) * B + 1 / 2 ^ 729 ∧
      |e.z.val - s.z / s.w| ≤ ((q64 ^ (14 * p + 8))⁻¹ - 1) * B + 1 / 2 ^ 729 := by
  obtain ⟨ex, gx, _⟩ := isFin_eq hx
  generalize x.val = X at *
  subst ex
  have hcl : Clamped p (c.Knots.Values.map Double.val) := hw.clamped
  have hlen : (exactCurve64 c).Knots.Values.length = c.Knots.Values.length := List.length_map _
  have hplen : (exactCurve64 c).ControlPoints.length = c.ControlPoints.length := List.length_map _
  have hcount := hw.count
  rw [hlen, hplen] at hcount
  have hd : c.Degree = p := hw.degree
  obtain ⟨k, hk, hs, hpk, hlk⟩ := findSpanIndex_spec (kv := c.Knots) (clamped_double hfin.knots hcl) (u := Double.fin X)
    (Double.fin_le.mpr h0) (Double.fin_le.mpr h1)
  have hsx : IsSpan (exactCurve64 c).Knots.Values X k := (isSpan_double hfin.knots).mpr hs
  have hlt := IsSpan.lt hsx
  have H : TriData c.Knots.Values k p (kn (exactCurve64 c).Knots.Values) X :=
    triData hfin.knots hw.clamped hp29 gx hsx hpk hlk (fun i h h' => hgap i h (by omega))
  have hev := evaluateAt_any hpk (by omega) (tri_denOK H)
  obtain ⟨V, hV⟩ := tri_levels H p le_rfl
  have hmem : ∀ i < p + 1, k - p + i < c.ControlPoints.length := fun i hi => by omega
  have hptE : ∀ i < c.ControlPoints.length, PointOK B (pt (exactCurve64 c).ControlPoints i) := by
    intro i hi
    have hi' : i < (exactCurve64 c).ControlPoints.length := by omega
    have : pt (exactCurve64 c).ControlPoints i ∈ (exactCurve64 c).ControlPoints := by unfold pt; simp [hi']
    exact ⟨(hwt _ this).1, (hwt _ this).2, (hc _ this).1, (hc _ this).2.1, (hc _ this).2.2⟩
  have hB0 : 0 ≤ B := (abs_nonneg _).trans (hptE k (by omega)).x
  have hpt : ∀ i < c.ControlPoints.length, vget c.ControlPoints ((i : ℕ) : Int) = .ok (finV (pt (exactCurve64 c).ControlPoints i)) := by
    intro i hi
    rw [vget_nat _ i hi]
    have e : pt (exactCurve64 c).ControlPoints i = exactPoint64 c.ControlPoints[i] := by simp [pt, exactCurve64, hi]
    rw [e, finV_exact (hfin.points _ (List.getElem_mem hi))]
  obtain ⟨A, hA, ax, ay, az, aw, wl, _⟩ := row_sum H hlt hB0 hB V hV
    (fun i (result : Vec4 Double) => do
      let point := ToHomo (← vget c.ControlPoints ((k : Int) - p + i))
      return result + (← vget (tab (p + 1) (lvG c.Knots.Values k (Double.fin X) p)) i) • point)
    (fun i => pt (exactCurve64 c).ControlPoints (k - p + i)) (fun i hi => hptE _ (hmem i hi))
    (by
      intro i hi t
      have e : (k : Int) - p + (i : Int) = ((k - p + i : ℕ) : Int) := by omega
      rw [e, hpt _ (hmem i hi), bind_ok, vget_tab _ _ _ i rfl hi, bind_ok, (hV i).1]
      rfl)
  have hte : (B * 2 ^ 100 + 1) / 2 ^ 895 ≤ (B * 2 ^ 100 + 1) / 2 ^ 832 :=
    div_le_div_of_nonneg_left (by positivity) (by positivity) (pow_le_pow_right₀ (by norm_num) (by norm_num))
  obtain ⟨w1, x1, x2, x3⟩ := coord_div (by omega) (by omega) ax aw wl hB0 hB hte le_rfl
  obtain ⟨_, y1, y2, y3⟩ := coord_div (by omega) (by omega) ay aw wl hB0 hB hte le_rfl
  obtain ⟨_, z1, z2, z3⟩ := coord_div (by omega) (by omega) az aw wl hB0 hB hte le_rfl
  rw [show 7 * p + 3 + (7 * p + 2) + 3 = 14 * p + 8 by ring] at x3 y3 z3
  refine ⟨⟨Double.fin A.x / Double.fin A.w, Double.fin A.y / Double.fin A.w, Double.fin A.z / Double.fin A.w⟩, k, ?_, ?_, ?_, ?_, hsx, hpk,
    by omega, ?_, ?_, ?_⟩
  · unfold Curve.Evaluate
    rw [massert_true ⟨Double.fin_le.mpr h0, Double.fin_le.mpr h1⟩, bind_ok, hd, hk, bind_ok, hev, bind_ok,
      massert_true (by simp), bind_ok, forLe_eq_forUp 0 p (p + 1) (by omega), hA, bind_ok]
    have hne : Double.fin A.w ≠ 0 := fun h => w1 (Double.fin_inj.mp h)
    simp [projectM, Vec3.divM, Vec4.head3, fdiv, hne, finV]
  · rw [x1]; exact Double.isFin_round (pow1010 x2)
  · rw [y1]; exact Double.isFin_round (pow1010 y2)
  · rw [z1]; exact Double.isFin_round (pow1010 z2)
  · rw [x1, Double.val_fin]; exact x3
  · rw [y1, Double.val_fin]; exact y3
  · rw [z1, Double.val_fin]; exact z3

/-! ### surfaces -/

/-- `Surface::Evaluate` in `double`. -/
theorem surface_double {p q m n : ℕ} {s : Surface Double} (hp29 : p ≤ 29) (hq29 : q ≤ 29) (hfin : FinSurface s)
    (hw : WFSurface p q m n (exactSurface64 s)) (hgu : GapsAtLeast minGap (exactSurface64 s).KnotsU.Values)
    (hgv : GapsAtLeast minGap (exactSurface64 s).KnotsV.Values)
    (hwt : ∀ P ∈ (exactSurface64 s).ControlPoints.Values, 1 / 2 ^ 100 ≤ P.w ∧ P.w ≤ 2 ^ 100)
    {B : ℚ} (hB : B ≤ 2 ^ 400) (hc : ∀ P ∈ (exactSurface64 s).ControlPoints.Values, |P.x| ≤ B ∧ |P.y| ≤ B ∧ |P.z| ≤ B)
    {u v : Double} (hu : IsFin u) (hv : IsFin v) (hu0 : 0 ≤ u.val) (hu1 : u.val ≤ 1) (hv0 : 0 ≤ v.val) (hv1 : v.val ≤ 1) :
    ∃ e ku kv, s.Evaluate u v = .ok e ∧ IsFin e.x ∧ IsFin e.y ∧ IsFin e.z ∧ IsSpan (exactSurface64 s).KnotsU.Values u.val ku ∧
      IsSpan (exactSurface64 s).KnotsV.Values v.val kv ∧ p ≤ ku ∧ ku < m ∧ q ≤ kv ∧ kv < n ∧
      let t := surfSeg p q (exactSurface64 s) ku kv u.val v.val
      |e.x.val - t.x / t.w| ≤ ((q64 ^ (14 * (p + q) + 13))⁻¹ - 1) * B + 1 / 2 ^ 729 ∧
      |e.y.val - t.y / t.w| ≤ ((q64 ^ (14 * (p + q) + 13))⁻¹ - 1) * B + 1 / 2 ^ 729 ∧
      |e.z.val - t.z / t.w| ≤ ((q64 ^ (14 * (p + q) + 13))⁻¹ - 1) * B + 1 / 2 ^ 729 := by
  obtain ⟨eu, gu, _⟩ := isFin_eq hu
  obtain ⟨ev, gv, _⟩ := isFin_eq hv
  generalize u.val = X at *
  generalize v.val = Y at *
  subst eu ev
  have hlu : (exactSurface64 s).KnotsU.Values.length = s.KnotsU.Values.length := List.length_map _
  have hlv : (exactSurface64 s).KnotsV.Values.length = s.KnotsV.Values.length := List.length_map _
  have hmu := hw.knotsU
  have hnv := hw.knotsV
  rw [hlu] at hmu
  rw [hlv] at hnv
  have hdu : s.DegreeU = p := hw.degreeU
  have hdv : s.DegreeV = q := hw.degreeV
  have hst : s.ControlPoints.Values.length = n * m := by
    have := hw.storage
    simpa [exactSurface64] using this
  have hUm : s.ControlPoints.UCount = m := hw.uCount
  have hVn : s.ControlPoints.VCount = n := hw.vCount
  obtain ⟨ku, hku, hsu, hpku, hlku⟩ := findSpanIndex_spec (kv := s.KnotsU) (clamped_double hfin.knotsU hw.clampedU) (u := Double.fin X)
    (Double.fin_le.mpr hu0) (Double.fin_le.mpr hu1)
  obtain ⟨kv, hkv, hsv, hpkv, hlkv⟩ := findSpanIndex_spec (kv := s.KnotsV) (clamped_double hfin.knotsV hw.clampedV) (u := Double.fin Y)
    (Double.fin_le.mpr hv0) (Double.fin_le.mpr hv1)
  have hsxu : IsSpan (exactSurface64 s).KnotsU.Values X ku := (isSpan_double hfin.knotsU).mpr hsu
  have hsxv : IsSpan (exactSurface64 s).KnotsV.Values Y kv := (isSpan_double hfin.knotsV).mpr hsv
  have hltu := IsSpan.lt hsxu
  have hltv := IsSpan.lt hsxv
  have Hu : TriData s.KnotsU.Values ku p (kn (exactSurface64 s).KnotsU.Values) X :=
    triData hfin.knotsU hw.clampedU hp29 gu hsxu hpku hlku (fun i h h' => hgu i h (by omega))
  have Hv : TriData s.KnotsV.Values kv q (kn (exactSurface64 s).KnotsV.Values) Y :=
    triData hfin.knotsV hw.clampedV hq29 gv hsxv hpkv hlkv (fun i h h' => hgv i h (by omega))
  have heu := evaluateAt_any hpku (by omega) (tri_denOK Hu)
  have hev := evaluateAt_any hpkv (by omega) (tri_denOK Hv)
  obtain ⟨V, hV⟩ := tri_levels Hu p le_rfl
  obtain ⟨W, hW⟩ := tri_levels Hv q le_rfl
  have hkm : ku < m := by omega
  have hkn : kv < n := by omega
  have hcell : ∀ i < m, ∀ j < n, j * m + i < s.ControlPoints.Values.length := by
    intro i hi j hj
    rw [hst]
    calc j * m + i < j * m + m := by omega
      _ = (j + 1) * m := by ring
      _ ≤ n * m := Nat.mul_le_mul_right m hj
  have hcpE : ∀ i (hi : i < m) j (hj : j < n), cp (exactSurface64 s) i j = exactPoint64 (s.ControlPoints.Values[j * m + i]'(hcell i hi j hj)) := by
    intro i hi j hj
    have := hcell i hi j hj
    simp [cp, exactSurface64, hUm, this]
  have hPE : ∀ i < m, ∀ j < n, PointOK B (cp (exactSurface64 s) i j) := by
    intro i hi j hj
    have : cp (exactSurface64 s) i j ∈ (exactSurface64 s).ControlPoints.Values := by
      rw [hcpE i hi j hj]
      exact List.mem_map_of_mem (List.getElem_mem _)
    exact ⟨(hwt _ this).1, (hwt _ this).2, (hc _ this).1, (hc _ this).2.1, (hc _ this).2.2⟩
  have hB0 : 0 ≤ B := (abs_nonneg _).trans (hPE ku hkm kv hkn).x
  have hget : ∀ i < m, ∀ j < n, s.ControlPoints.Get ((i : ℕ) : Int) ((j : ℕ) : Int) = .ok (finV (cp (exactSurface64 s) i j)) := by
    intro i hi j hj
    have hg := exists_gridOf s.ControlPoints m n hUm hVn hst
    have h := get_gridOf m n (fun u v => s.ControlPoints.Values.getD (v * m + u) default) i j i j rfl rfl hi hj
    rw [← hg] at h
    have hlt := hcell i hi j hj
    rw [h, hcpE i hi j hj, finV_exact (hfin.points _ (List.getElem_mem hlt))]
    simp [hlt]
  have hinner : ∀ j, ∃ A, j < q + 1 → forUp 0 (p + 1) (fun i (tmp : Vec4 Double) => do
        let point := ToHomo (← s.ControlPoints.Get ((ku : Int) - p + i) ((kv : Int) - q + (j : Int)))
        return tmp + (← vget (tab (p + 1) (lvG s.KnotsU.Values ku (Double.fin X) p)) i) • point) 0 = .ok (finV A) ∧
      (let t := ∑ i ∈ Finset.range (p + 1), Nl (kn (exactSurface64 s).KnotsU.Values) ku X p (ku - p + i) •
          ToHomo (cp (exactSurface64 s) (ku - p + i) (kv - q + j))
       CloseE (7 * p + 3) ((B * 2 ^ 100 + 1) / 2 ^ 895) A.x t.x (B * t.w) ∧ CloseE (7 * p + 3) ((B * 2 ^ 100 + 1) / 2 ^ 895) A.y t.y (B * t.w) ∧
       CloseE (7 * p + 3) ((B * 2 ^ 100 + 1) / 2 ^ 895) A.z t.z (B * t.w) ∧ NearE (7 * p + 2) (1 / 2 ^ 796) A.w t.w ∧
       1 / 2 ^ 100 ≤ t.w ∧ t.w ≤ 2 ^ 100) := by
    intro j
    by_cases hj : j < q + 1
    · obtain ⟨A, hA⟩ := row_sum Hu hltu hB0 hB V hV (fun i (tmp : Vec4 Double) => do
          let point := ToHomo (← s.ControlPoints.Get ((ku : Int) - p + i) ((kv : Int) - q + (j : Int)))
          return tmp + (← vget (tab (p + 1) (lvG s.KnotsU.Values ku (Double.fin X) p)) i) • point)
        (fun i => cp (exactSurface64 s) (ku - p + i) (kv - q + j)) (fun i hi => hPE _ (by omega) _ (by omega))
        (by
          intro i hi t
          have e1 : (ku : Int) - p + (i : Int) = ((ku - p + i : ℕ) : Int) := by omega
          have e2 : (kv : Int) - q + (j : Int) = ((kv - q + j : ℕ) : Int) := by omega
          rw [e1, e2, hget _ (by omega) _ (by omega), bind_ok, vget_tab _ _ _ i rfl hi, bind_ok, (hV i).1]
          rfl)
      exact ⟨A, fun _ => hA⟩
    · exact ⟨0, fun h => absurd h hj⟩
  choose A hA using hinner
  have hT : TermErr ((B * 2 ^ 100 + 1) / 2 ^ 892) ((B * 2 ^ 100 + 1) / 2 ^ 895) (B * 2 ^ 100) := by
    have h500 : B * 2 ^ 100 ≤ 2 ^ 500 := by
      calc B * 2 ^ 100 ≤ 2 ^ 400 * 2 ^ 100 := mul_le_mul_of_nonneg_right hB (by positivity)
        _ = 2 ^ 500 := by rw [← pow_add]
    have hnn : 0 ≤ B * 2 ^ 100 + 1 := by positivity
    refine ⟨?_, ?_, h500⟩
    · have h1 : (B * 2 ^ 100 + 1) / 2 ^ 892 = (B * 2 ^ 100 + 1) * (1 / 2 ^ 892) := by rw [div_eq_mul_one_div]
      have h2 : (B * 2 ^ 100 + 1) / 2 ^ 895 = (B * 2 ^ 100 + 1) * (1 / 2 ^ 895) := by rw [div_eq_mul_one_div]
      have h3 : (B * 2 ^ 100 + 1) / 2 ^ 956 = (B * 2 ^ 100 + 1) * (1 / 2 ^ 956) := by rw [div_eq_mul_one_div]
      have h4 : (4 : ℚ) * (1 / 2 ^ 895) + 1 / 2 ^ 956 ≤ 1 / 2 ^ 892 := by norm_num
      rw [h1, h2, h3]
      have := mul_le_mul_of_nonneg_left h4 hnn
      linarith
    · rw [div_le_div_iff₀ (by positivity) (by positivity)]
      have : ((2 : ℚ) ^ 500 + 1) * 2 ^ 200 ≤ 1 * 2 ^ 892 := by norm_num
      nlinarith
  have hlev : ∀ i < q + 1, lev (kn (exactSurface64 s).KnotsV.Values) kv Y q i = Nl (kn (exactSurface64 s).KnotsV.Values) kv Y q (kv - q + i) := by
    intro i hi; unfold lev; rw [if_pos (by omega)]
  obtain ⟨R, hR, ax, ay, az, aw⟩ := forUp_finV (m0 := 6 * q) (mt := 7 * p + 3) (mw := 7 * p + 3) (n := q + 1)
    (fun j (result : Vec4 Double) => do
      let index_v := (kv : Int) - q + j
      let tmp ← forLe 0 p (fun i (tmp : Vec4 Double) => do
        let index_u := (ku : Int) - p + i
        let point := ToHomo (← s.ControlPoints.Get index_u index_v)
        return tmp + (← vget (tab (p + 1) (lvG s.KnotsU.Values ku (Double.fin X) p)) i) • point) 0
      return result + (← vget (tab (q + 1) (lvG s.KnotsV.Values kv (Double.fin Y) q)) j) • tmp) W
    (fun j => Nl (kn (exactSurface64 s).KnotsV.Values) kv Y q (kv - q + j)) A
    (fun j => seg (kn (exactSurface64 s).KnotsU.Values) ku X p (fun i => hcp (exactSurface64 s) i (kv - q + j)))
    (fun j => B * (seg (kn (exactSurface64 s).KnotsU.Values) ku X p (fun i => hcp (exactSurface64 s) i (kv - q + j))).w)
    (by omega) (by omega) (by omega) (by omega) (absErr_le hq29) hT
    (by
      intro j hj t
      simp only []
      rw [forLe_eq_forUp 0 p (p + 1) (by omega), (hA j hj).1, bind_ok, vget_tab _ _ _ j rfl hj, bind_ok, (hW j).1]; rfl)
    (fun i hi => by rw [← hlev i hi]; exact (hW i).2)
    (fun i hi => by rw [← hlev i hi]; exact (lev_le_one Hv le_rfl i).2)
    (fun j hj => by
      obtain ⟨_, h1, h2, h3, h4, h5, h6⟩ := hA j hj
      exact ⟨h1, h2, h3, near_weight (by omega) h4 h5 le_rfl, h6, mul_le_mul_of_nonneg_left h6 hB0⟩)
  have hsw : (∑ j ∈ Finset.range (q + 1), Nl (kn (exactSurface64 s).KnotsV.Values) kv Y q (kv - q + j) •
      seg (kn (exactSurface64 s).KnotsU.Values) ku X p (fun i => hcp (exactSurface64 s) i (kv - q + j))).w =
      ∑ j ∈ Finset.range (q + 1), Nl (kn (exactSurface64 s).KnotsV.Values) kv Y q (kv - q + j) *
        (seg (kn (exactSurface64 s).KnotsU.Values) ku X p (fun i => hcp (exactSurface64 s) i (kv - q + j))).w := Vec4.sum_w _ _
  have hBs : ∑ j ∈ Finset.range (q + 1), Nl (kn (exactSurface64 s).KnotsV.Values) kv Y q (kv - q + j) *
      (B * (seg (kn (exactSurface64 s).KnotsU.Values) ku X p (fun i => hcp (exactSurface64 s) i (kv - q + j))).w) =
      B * (∑ j ∈ Finset.range (q + 1), Nl (kn (exactSurface64 s).KnotsV.Values) kv Y q (kv - q + j) •
        seg (kn (exactSurface64 s).KnotsU.Values) ku X p (fun i => hcp (exactSurface64 s) i (kv - q + j))).w := by
    rw [hsw, Finset.mul_sum]
    exact Finset.sum_congr rfl fun i _ => by ring
  rw [hBs] at ax ay az
  have hb := tri_between Hv hltv (lo := 1 / 2 ^ 100) (hi := 2 ^ 100)
    (w := fun j => (seg (kn (exactSurface64 s).KnotsU.Values) ku X p (fun i => hcp (exactSurface64 s) i (kv - q + j))).w)
    (fun j hj => ⟨(hA j hj).2.2.2.2.2.1, (hA j hj).2.2.2.2.2.2⟩)
  rw [← hsw] at hb
  have hte : (4 ^ (q + 1) - 1) * ((B * 2 ^ 100 + 1) / 2 ^ 892) ≤ (B * 2 ^ 100 + 1) / 2 ^ 832 := by
    calc (4 ^ (q + 1) - 1) * ((B * 2 ^ 100 + 1) / 2 ^ 892) ≤ 2 ^ 60 * ((B * 2 ^ 100 + 1) / 2 ^ 892) :=
          mul_le_mul_of_nonneg_right (pow_four hq29) (by positivity)
      _ = (B * 2 ^ 100 + 1) / 2 ^ 832 := by
          rw [← mul_div_assoc, div_eq_div_iff (by positivity) (by positivity), mul_comm ((2 : ℚ) ^ 60), mul_assoc, ← pow_add]
  obtain ⟨w1, x1, x2, x3⟩ := coord_div (by omega) (by omega) ax aw hb.1 hB0 hB hte (sum_weightErr hq29)
  obtain ⟨_, y1, y2, y3⟩ := coord_div (by omega) (by omega) ay aw hb.1 hB0 hB hte (sum_weightErr hq29)
  obtain ⟨_, z1, z2, z3⟩ := coord_div (by omega) (by omega) az aw hb.1 hB0 hB hte (sum_weightErr hq29)
  rw [show 6 * q + (7 * p + 3) + 1 + (q + 1) + (6 * q + (7 * p + 3) + 1 + (q + 1)) + 3 = 14 * (p + q) + 13 by ring] at x3 y3 z3
  refine ⟨⟨Double.fin R.x / Double.fin R.w, Double.fin R.y / Double.fin R.w, Double.fin R.z / Double.fin R.w⟩, ku, kv, ?_, ?_, ?_, ?_, hsxu, hsxv,
    hpku, hkm, hpkv, hkn, ?_, ?_, ?_⟩
  · unfold Surface.Evaluate
    rw [massert_true ⟨Double.fin_le.mpr hu0, Double.fin_le.mpr hu1⟩, bind_ok, massert_true ⟨Double.fin_le.mpr hv0, Double.fin_le.mpr hv1⟩,
      bind_ok, hdu, hdv, hku, bind_ok, hkv, bind_ok, heu, bind_ok, hev, bind_ok, massert_true (by simp), bind_ok, massert_true (by simp), bind_ok]
    simp only []
    rw [forLe_eq_forUp 0 q (q + 1) (by omega), hR, bind_ok]
    have hne : Double.fin R.w ≠ 0 := fun h => w1 (Double.fin_inj.mp h)
    simp [projectM, Vec3.divM, Vec4.head3, fdiv, hne, finV]
  · rw [x1]; exact Double.isFin_round (pow1010 x2)
  · rw [y1]; exact Double.isFin_round (pow1010 y2)
  · rw [z1]; exact Double.isFin_round (pow1010 z2)
  · rw [x1, Double.val_fin]; exact x3
  · rw [y1, Double.val_fin]; exact y3
  · rw [z1, Double.val_fin]; exact z3

end Nurbs
