import Verif.Proof.RoundedCurve
import Verif.Proof.AnyArith
import Verif.Spec.Double

/-! # `double` with its finite range -/

set_option linter.unusedSectionVars false
set_option exponentiation.threshold 2000

namespace Nurbs
open Nurbs.Spec

/-! ### rounding -/

theorem roundEven_neg (x : ℚ) : roundEven (-x) = -roundEven x := by
  by_cases hz : (⌊x⌋ : ℚ) = x
  · rw [← hz, ← Int.cast_neg, roundEven_int, roundEven_int]
  have hf : ⌊-x⌋ = -⌊x⌋ - 1 := by
    rw [Int.floor_eq_iff]
    have h1 := Int.floor_le x
    have h2 := Int.lt_floor_add_one x
    have h3 : (⌊x⌋ : ℚ) < x := lt_of_le_of_ne h1 hz
    push_cast
    constructor <;> linarith
  unfold roundEven
  simp only [hf]
  push_cast
  by_cases h1 : x - ⌊x⌋ < 1 / 2
  · rw [if_pos h1, if_neg (by linarith), if_pos (by linarith)]
    ring
  · rw [if_neg h1]
    by_cases h2 : 1 / 2 < x - ⌊x⌋
    · rw [if_pos h2, if_pos (by linarith)]; ring
    · rw [if_neg h2, if_neg (by linarith), if_neg (by linarith)]
      by_cases h3 : ⌊x⌋ % 2 = 0
      · rw [if_pos h3, if_neg (by omega)]; ring
      · rw [if_neg h3, if_pos (by omega)]; ring

theorem round64_small {x : ℚ} (h : |x| < 1 / 2 ^ 1022) : round64 x = roundEven (x * 2 ^ 1074) / 2 ^ 1074 := if_pos h
theorem round64_big {x : ℚ} (h : 1 / 2 ^ 1022 ≤ |x|) : round64 x = round53 x := if_neg (not_lt.mpr h)

theorem round64_neg (x : ℚ) : round64 (-x) = -round64 x := by
  unfold round64
  rw [abs_neg, round53_neg, neg_mul, roundEven_neg]
  split_ifs
  · push_cast; rw [neg_div]
  · rfl

theorem round64_zero : round64 0 = 0 := by
  rw [round64_small (by rw [abs_zero]; positivity), zero_mul, show (0 : ℚ) = ((0 : ℤ) : ℚ) by simp, roundEven_int]; simp

/-- Powers of two in range are not changed. -/
theorem round53_two_pow (e : ℤ) : round53 ((2 : ℚ) ^ e) = 2 ^ e := by
  have h := roundPos53_exact (m := 2 ^ 52) (e := e - 52) (by norm_num) (by norm_num)
  have e1 : (((2 ^ 52 : ℤ)) : ℚ) * 2 ^ (e - 52) = 2 ^ e := by
    rw [show ((2 ^ 52 : ℤ) : ℚ) = (2 : ℚ) ^ (52 : ℤ) by norm_num, ← zpow_add₀ (by norm_num)]; congr 1; ring
  rw [e1] at h
  rw [round53_pos (two_zpow_pos e), h]

theorem minNormal_eq : (1 : ℚ) / 2 ^ 1022 = 2 ^ (-1022 : ℤ) := by rw [zpow_neg, one_div]; norm_cast

theorem round64_mono {x y : ℚ} (h : x ≤ y) : round64 x ≤ round64 y := by
  have hm : round53 (1 / 2 ^ 1022) = 1 / 2 ^ 1022 := by rw [minNormal_eq]; exact round53_two_pow _
  have hs : ∀ z : ℚ, |z| < 1 / 2 ^ 1022 → |round64 z| ≤ 1 / 2 ^ 1022 := by
    intro z hz
    rw [round64_small hz]
    have key : ∀ t : ℚ, t < 1 / 2 ^ 1022 → (roundEven (t * 2 ^ 1074) : ℚ) / 2 ^ 1074 ≤ 1 / 2 ^ 1022 := by
      intro t ht
      have h1 : t * 2 ^ 1074 ≤ ((2 ^ 52 : ℤ) : ℚ) := by
        have : (1 : ℚ) / 2 ^ 1022 * 2 ^ 1074 = ((2 ^ 52 : ℤ) : ℚ) := by norm_num
        rw [← this]
        exact mul_le_mul_of_nonneg_right ht.le (by positivity)
      have h2 := roundEven_mono h1
      rw [roundEven_int] at h2
      have h3 : (roundEven (t * 2 ^ 1074) : ℚ) ≤ 2 ^ 52 := by exact_mod_cast h2
      rw [div_le_iff₀ (by positivity)]
      refine h3.trans (le_of_eq ?_)
      norm_num
    obtain ⟨a, b⟩ := abs_lt.mp hz
    rw [abs_le]
    refine ⟨?_, key z b⟩
    have := key (-z) (by linarith)
    rw [neg_mul, roundEven_neg] at this
    push_cast at this
    rw [neg_div] at this
    linarith
  have hbp : ∀ z : ℚ, 1 / 2 ^ 1022 ≤ z → 1 / 2 ^ 1022 ≤ round53 z := by
    intro z hz
    have := binary53.mono _ _ hz
    change round53 _ ≤ round53 z at this
    rwa [hm] at this
  have hpos : (0 : ℚ) < 1 / 2 ^ 1022 := by positivity
  by_cases hx : |x| < 1 / 2 ^ 1022
  · by_cases hy : |y| < 1 / 2 ^ 1022
    · rw [round64_small hx, round64_small hy]
      apply div_le_div_of_nonneg_right _ (by positivity)
      exact_mod_cast roundEven_mono (mul_le_mul_of_nonneg_right h (by positivity))
    · have h1 := (abs_le.mp (hs x hx)).2
      push Not at hy
      have hy' : 1 / 2 ^ 1022 ≤ y := by
        rcases le_abs.mp hy with h | h'
        · exact h
        · exfalso; linarith [(abs_lt.mp hx).1]
      rw [round64_big hy]
      exact h1.trans (hbp y hy')
  · push Not at hx
    by_cases hy : |y| < 1 / 2 ^ 1022
    · have h1 := (abs_le.mp (hs y hy)).1
      have hx' : 1 / 2 ^ 1022 ≤ -x := by
        rcases le_abs.mp hx with h' | h'
        · exfalso; linarith [(abs_lt.mp hy).2]
        · exact h'
      have := hbp (-x) hx'
      rw [round53_neg] at this
      rw [round64_big hx]
      linarith
    · push Not at hy
      rw [round64_big hx, round64_big hy]
      exact binary53.mono _ _ h

theorem round64_nonneg {x : ℚ} (h : 0 ≤ x) : 0 ≤ round64 x := by rw [← round64_zero]; exact round64_mono h

/-- unit roundoff -/
def u64 : ℚ := 1 / 2 ^ 53
/-- largest error below the normal numbers -/
def eta64 : ℚ := 1 / 2 ^ 1075

theorem round64_err (x : ℚ) : |round64 x - x| ≤ u64 * |x| + eta64 := by
  have hu : 0 ≤ u64 * |x| := mul_nonneg (by unfold u64; positivity) (abs_nonneg x)
  by_cases hx : |x| < 1 / 2 ^ 1022
  · rw [round64_small hx]
    have h := roundEven_near (x * 2 ^ 1074)
    have e : (roundEven (x * 2 ^ 1074) : ℚ) / 2 ^ 1074 - x = ((roundEven (x * 2 ^ 1074) : ℚ) - x * 2 ^ 1074) * (1 / 2 ^ 1074) := by
      field_simp
    rw [e, abs_mul, abs_of_pos (show (0 : ℚ) < 1 / 2 ^ 1074 by positivity)]
    have h2 : |(roundEven (x * 2 ^ 1074) : ℚ) - x * 2 ^ 1074| * (1 / 2 ^ 1074) ≤ 1 / 2 * (1 / 2 ^ 1074) :=
      mul_le_mul_of_nonneg_right h (by positivity)
    have h3 : (1 : ℚ) / 2 * (1 / 2 ^ 1074) = eta64 := by unfold eta64; norm_num
    linarith
  · push Not at hx
    rw [round64_big hx]
    have h := binary53.rel x
    change |round53 x - x| ≤ 1 / 2 ^ 53 * |x| at h
    have : (0 : ℚ) ≤ eta64 := by unfold eta64; positivity
    unfold u64
    linarith

/-- A multiple of the smallest number. -/
def OnGrid (a : ℚ) : Prop := ∃ z : ℤ, a = z / 2 ^ 1074

theorem onGrid_round (x : ℚ) : OnGrid (round64 x) := by
  by_cases hx : |x| < 1 / 2 ^ 1022
  · exact ⟨_, round64_small hx⟩
  · push Not at hx
    rw [round64_big hx]
    have key : ∀ t : ℚ, 1 / 2 ^ 1022 ≤ t → OnGrid (round53 t) := by
      intro t ht
      have ht0 : 0 < t := lt_of_lt_of_le (by positivity) ht
      rw [round53_pos ht0]
      have hl : -1022 ≤ Int.log 2 t := by
        rw [← Int.zpow_le_iff_le_log (by norm_num) ht0]
        refine le_trans (le_of_eq ?_) ht
        rw [minNormal_eq]; norm_cast
      refine ⟨roundEven (t * 2 ^ (52 - Int.log 2 t)) * 2 ^ (Int.log 2 t + 1022).toNat, ?_⟩
      unfold roundPos53
      simp only
      push_cast
      rw [mul_div_assoc]
      congr 1
      rw [← zpow_natCast, Int.toNat_of_nonneg (by omega), eq_div_iff (by positivity), ← zpow_natCast (2 : ℚ) 1074,
        ← zpow_add₀ (by norm_num)]
      congr 1
      push_cast
      ring
    rcases le_abs.mp hx with h | h
    · exact key x h
    · obtain ⟨z, hz⟩ := key (-x) h
      rw [round53_neg] at hz
      refine ⟨-z, ?_⟩
      push_cast
      rw [neg_div, ← hz, neg_neg]

theorem OnGrid.add {a b : ℚ} (ha : OnGrid a) (hb : OnGrid b) : OnGrid (a + b) := by
  obtain ⟨y, rfl⟩ := ha
  obtain ⟨z, rfl⟩ := hb
  exact ⟨y + z, by push_cast; ring⟩

theorem OnGrid.sub {a b : ℚ} (ha : OnGrid a) (hb : OnGrid b) : OnGrid (a - b) := by
  obtain ⟨y, rfl⟩ := ha
  obtain ⟨z, rfl⟩ := hb
  exact ⟨y - z, by push_cast; ring⟩

/-- Sums and differences of numbers do not underflow. -/
theorem round64_grid {x : ℚ} (h : OnGrid x) : |round64 x - x| ≤ u64 * |x| := by
  by_cases hx : |x| < 1 / 2 ^ 1022
  · obtain ⟨z, rfl⟩ := h
    rw [round64_small hx, div_mul_cancel₀ _ (by positivity), roundEven_int, sub_self, abs_zero]
    unfold u64
    positivity
  · push Not at hx
    rw [round64_big hx]
    exact binary53.rel x

theorem round64_near {x : ℚ} (h : OnGrid x) (h0 : 0 ≤ x) : Near binary53.q 1 (round64 x) x := by
  have h1 := round64_grid h
  rw [abs_of_nonneg h0, abs_le] at h1
  have e : binary53.q = 1 - u64 := rfl
  have hu : 0 ≤ u64 := by unfold u64; positivity
  have hu1 : u64 ≤ 1 := by unfold u64; norm_num
  refine ⟨round64_nonneg h0, h0, by rw [pow_one, e]; linarith [h1.1], ?_⟩
  rw [pow_one, e]
  nlinarith [mul_nonneg (mul_nonneg hu hu) h0]

theorem round64_idem (x : ℚ) : round64 (round64 x) = round64 x := by
  by_cases hx : |round64 x| < 1 / 2 ^ 1022
  · obtain ⟨z, hz⟩ := onGrid_round x
    rw [hz] at hx ⊢
    rw [round64_small hx, div_mul_cancel₀ _ (by positivity), roundEven_int]
  · push Not at hx
    rw [round64_big hx]
    by_cases hx' : |x| < 1 / 2 ^ 1022
    · -- rounded up to the smallest normal number
      have h1 : |round64 x| ≤ 1 / 2 ^ 1022 := by
        have hm : round64 (1 / 2 ^ 1022) = 1 / 2 ^ 1022 := by
          rw [round64_big (by rw [abs_of_pos (by positivity)]), minNormal_eq]; exact round53_two_pow _
        rw [abs_le]
        obtain ⟨a, b⟩ := abs_lt.mp hx'
        constructor
        · have := round64_mono a.le
          rwa [round64_neg, hm] at this
        · have := round64_mono b.le
          rwa [hm] at this
      have h2 : |round64 x| = 2 ^ (-1022 : ℤ) := by rw [← minNormal_eq]; exact le_antisymm h1 hx
      rcases abs_choice (round64 x) with h | h
      · rw [h] at h2; rw [h2, round53_two_pow]
      · rw [h] at h2
        have : round64 x = -(2 ^ (-1022 : ℤ)) := by linarith
        rw [this, round53_neg, round53_two_pow]
    · push Not at hx'
      rw [round64_big hx']
      exact binary53.idem x

theorem round64_range {x : ℚ} (h : |x| ≤ 2 ^ 1023) : |round64 x| ≤ 2 ^ 1023 := by
  have hm : round64 (2 ^ 1023) = 2 ^ 1023 := by
    have hb : (1 : ℚ) / 2 ^ 1022 ≤ |2 ^ 1023| := by
      rw [abs_of_pos (by positivity), div_le_iff₀ (by positivity)]; norm_num
    rw [round64_big hb]
    have := round53_two_pow 1023
    rwa [show (2 : ℚ) ^ (1023 : ℤ) = 2 ^ 1023 by norm_cast] at this
  obtain ⟨a, b⟩ := abs_le.mp h
  rw [abs_le]
  constructor
  · have := round64_mono a
    rwa [round64_neg, hm] at this
  · have := round64_mono b
    rwa [hm] at this

theorem pow_le_max : (2 : ℚ) ^ 1023 ≤ maxDouble := by
  unfold maxDouble
  have : (2 : ℚ) ^ 1023 = 2 ^ 52 * 2 ^ 971 := by rw [← pow_add]
  rw [this]
  exact mul_le_mul_of_nonneg_right (by norm_num) (by positivity)

namespace Double

theorem ofExact_fin {a : ℚ} (h : |a| ≤ 2 ^ 1023) : ofExact a = fin (round64 a) := if_pos ((round64_range h).trans pow_le_max)

theorem isFin_round {a : ℚ} (h : |a| ≤ 2 ^ 1023) : IsFin (fin (round64 a)) :=
  ⟨_, rfl, round64_idem a, (round64_range h).trans pow_le_max⟩

theorem val_fin (a : ℚ) : (fin a).val = a := rfl
theorem fin_add (a b : ℚ) : fin a + fin b = ofExact (a + b) := rfl
theorem fin_sub (a b : ℚ) : fin a - fin b = ofExact (a - b) := rfl
theorem fin_mul (a b : ℚ) : fin a * fin b = ofExact (a * b) := rfl
theorem fin_div (a b : ℚ) : fin a / fin b = ofExact (a / b) := rfl
theorem fin_inj {a b : ℚ} : fin a = fin b ↔ a = b := WithBot.coe_inj
theorem fin_le {a b : ℚ} : fin a ≤ fin b ↔ a ≤ b := WithBot.coe_le_coe
theorem fin_lt {a b : ℚ} : fin a < fin b ↔ a < b := WithBot.coe_lt_coe
theorem zero_def : (0 : Double) = fin 0 := rfl
theorem one_def : (1 : Double) = fin 1 := rfl

end Double

end Nurbs
