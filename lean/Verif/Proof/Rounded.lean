import Verif.Model.Rounded
import Verif.Proof.Basis
import Mathlib.Algebra.Order.Ring.Rat
import Mathlib.Tactic.Positivity
import Mathlib.Tactic.Linarith
import Mathlib.Tactic.Ring
import Mathlib.Tactic.FieldSimp

/-! # Rounding to 53 bits is a `Rounding`; algebra of relative errors -/

set_option linter.unusedSectionVars false

namespace Nurbs

/-! ### `round53` -/

theorem roundEven_near (x : ℚ) : |(roundEven x : ℚ) - x| ≤ 1 / 2 := by
  unfold roundEven
  have h1 := Int.floor_le x
  have h2 := Int.lt_floor_add_one x
  simp only
  split_ifs with a b c
  · rw [abs_le]; constructor <;> linarith
  · push_cast; rw [abs_le]; constructor <;> linarith
  · rw [abs_le]; constructor <;> linarith
  · push_cast; rw [abs_le]; constructor <;> linarith

theorem roundEven_int (z : ℤ) : roundEven (z : ℚ) = z := by
  unfold roundEven
  simp

theorem roundEven_mono {x y : ℚ} (h : x ≤ y) : roundEven x ≤ roundEven y := by
  by_contra hc
  push Not at hc
  have hx := abs_le.mp (roundEven_near x)
  have hy := abs_le.mp (roundEven_near y)
  have hc' : (roundEven y : ℚ) + 1 ≤ roundEven x := by exact_mod_cast hc
  have e1 : x = y := by linarith [hx.1, hx.2, hy.1, hy.2]
  rw [e1] at hc
  exact lt_irrefl _ hc

theorem two_zpow_pos (n : ℤ) : (0 : ℚ) < 2 ^ n := zpow_pos (by norm_num) n

/-- bounds of the significand -/
theorem log_bounds {x : ℚ} (hx : 0 < x) : (2 : ℚ) ^ (Int.log 2 x) ≤ x ∧ x < 2 ^ (Int.log 2 x + 1) :=
  ⟨by exact_mod_cast Int.zpow_log_le_self (b := 2) (by norm_num) hx, by exact_mod_cast Int.lt_zpow_succ_log_self (b := 2) (by norm_num) x⟩

theorem roundPos53_bounds {x : ℚ} (hx : 0 < x) :
    (2 : ℚ) ^ (Int.log 2 x) ≤ roundPos53 x ∧ roundPos53 x ≤ 2 ^ (Int.log 2 x + 1) := by
  obtain ⟨h1, h2⟩ := log_bounds hx
  set e := Int.log 2 x with he
  have hp := two_zpow_pos (52 - e)
  have e1 : (2 : ℚ) ^ (52 - e) * 2 ^ (e - 52) = 1 := by rw [← zpow_add₀ (by norm_num)]; simp
  have lo : ((2 ^ 52 : ℤ) : ℚ) ≤ x * 2 ^ (52 - e) := by
    have : (2 : ℚ) ^ e * 2 ^ (52 - e) = 2 ^ 52 := by rw [← zpow_add₀ (by norm_num)]; simp
    calc ((2 ^ 52 : ℤ) : ℚ) = (2 : ℚ) ^ e * 2 ^ (52 - e) := by rw [this]; norm_num
      _ ≤ _ := mul_le_mul_of_nonneg_right h1 hp.le
  have hi : x * 2 ^ (52 - e) ≤ ((2 ^ 53 : ℤ) : ℚ) := by
    have : (2 : ℚ) ^ (e + 1) * 2 ^ (52 - e) = 2 ^ 53 := by
      rw [← zpow_add₀ (by norm_num), show e + 1 + (52 - e) = 53 by ring]; norm_num
    calc x * 2 ^ (52 - e) ≤ (2 : ℚ) ^ (e + 1) * 2 ^ (52 - e) := mul_le_mul_of_nonneg_right h2.le hp.le
      _ = _ := by rw [this]; norm_num
  have lo' := roundEven_mono lo
  have hi' := roundEven_mono hi
  rw [roundEven_int] at lo' hi'
  have lo'' : ((2 : ℚ) ^ 52) ≤ roundEven (x * 2 ^ (52 - e)) := by exact_mod_cast lo'
  have hi'' : (roundEven (x * 2 ^ (52 - e)) : ℚ) ≤ 2 ^ 53 := by exact_mod_cast hi'
  have hq := two_zpow_pos (e - 52)
  unfold roundPos53
  simp only [← he]
  constructor
  · calc (2 : ℚ) ^ e = 2 ^ (52 : ℕ) * 2 ^ (e - 52) := by
          rw [← zpow_natCast, ← zpow_add₀ (by norm_num)]; congr 1; push_cast; ring
      _ ≤ _ := mul_le_mul_of_nonneg_right lo'' hq.le
  · calc (roundEven (x * 2 ^ (52 - e)) : ℚ) * 2 ^ (e - 52) ≤ 2 ^ (53 : ℕ) * 2 ^ (e - 52) :=
          mul_le_mul_of_nonneg_right hi'' hq.le
      _ = 2 ^ (e + 1) := by rw [← zpow_natCast, ← zpow_add₀ (by norm_num)]; congr 1; push_cast; ring

theorem roundPos53_pos {x : ℚ} (hx : 0 < x) : 0 < roundPos53 x :=
  lt_of_lt_of_le (two_zpow_pos _) (roundPos53_bounds hx).1

theorem roundPos53_rel {x : ℚ} (hx : 0 < x) : |roundPos53 x - x| ≤ 1 / 2 ^ 53 * x := by
  obtain ⟨h1, h2⟩ := log_bounds hx
  unfold roundPos53
  simp only
  set e := Int.log 2 x with he
  have e1 : (2 : ℚ) ^ (52 - e) * 2 ^ (e - 52) = 1 := by rw [← zpow_add₀ (by norm_num)]; simp
  have hq := two_zpow_pos (e - 52)
  have : (roundEven (x * 2 ^ (52 - e)) : ℚ) * 2 ^ (e - 52) - x
      = ((roundEven (x * 2 ^ (52 - e)) : ℚ) - x * 2 ^ (52 - e)) * 2 ^ (e - 52) := by
    rw [sub_mul, mul_assoc x, e1, mul_one]
  rw [this, abs_mul, abs_of_pos hq]
  calc _ ≤ 1 / 2 * (2 : ℚ) ^ (e - 52) := mul_le_mul_of_nonneg_right (roundEven_near _) hq.le
    _ = 1 / 2 ^ 53 * 2 ^ e := by rw [zpow_sub₀ (by norm_num)]; norm_num; ring
    _ ≤ _ := mul_le_mul_of_nonneg_left h1 (by positivity)

theorem roundPos53_mono {x y : ℚ} (hx : 0 < x) (h : x ≤ y) : roundPos53 x ≤ roundPos53 y := by
  have hy := lt_of_lt_of_le hx h
  have hl : Int.log 2 x ≤ Int.log 2 y := Int.log_mono_right hx h
  rcases hl.lt_or_eq with hlt | heq
  · calc roundPos53 x ≤ 2 ^ (Int.log 2 x + 1) := (roundPos53_bounds hx).2
      _ ≤ 2 ^ (Int.log 2 y) := zpow_le_zpow_right₀ (by norm_num) (by omega)
      _ ≤ _ := (roundPos53_bounds hy).1
  · unfold roundPos53
    simp only
    rw [heq]
    apply mul_le_mul_of_nonneg_right _ (two_zpow_pos _).le
    exact_mod_cast roundEven_mono (mul_le_mul_of_nonneg_right h (two_zpow_pos _).le)

/-- Numbers with at most 53 significant bits are not changed. -/
theorem roundPos53_exact {m : ℤ} {e : ℤ} (h1 : (2 : ℤ) ^ 52 ≤ m) (h2 : m ≤ 2 ^ 53) :
    roundPos53 ((m : ℚ) * 2 ^ e) = m * 2 ^ e := by
  have hm : (2 : ℚ) ^ (52 : ℕ) ≤ m := by exact_mod_cast h1
  have hm0 : (0 : ℚ) < m := lt_of_lt_of_le (by norm_num) hm
  have hpos : (0 : ℚ) < (m : ℚ) * 2 ^ e := mul_pos hm0 (two_zpow_pos e)
  rcases h2.lt_or_eq with hlt | heq
  · have hlog : Int.log 2 ((m : ℚ) * 2 ^ e) = e + 52 := by
      have hm' : (m : ℚ) < 2 ^ (53 : ℕ) := by exact_mod_cast hlt
      apply le_antisymm
      · have : Int.log 2 ((m : ℚ) * 2 ^ e) < e + 52 + 1 := by
          rw [← Int.lt_zpow_iff_log_lt (by norm_num) hpos]
          calc (m : ℚ) * 2 ^ e < 2 ^ (53 : ℕ) * 2 ^ e := mul_lt_mul_of_pos_right hm' (two_zpow_pos e)
            _ = _ := by
              rw [← zpow_natCast, ← zpow_add₀ (by norm_num)]; push_cast; congr 1; ring
        omega
      · rw [← Int.zpow_le_iff_le_log (by norm_num) hpos]
        calc ((2 : ℕ) : ℚ) ^ (e + 52) = 2 ^ (52 : ℕ) * 2 ^ e := by
              rw [← zpow_natCast, ← zpow_add₀ (by norm_num)]; push_cast; congr 1; ring
          _ ≤ _ := mul_le_mul_of_nonneg_right hm (two_zpow_pos e).le
    unfold roundPos53
    simp only
    rw [hlog, mul_assoc, ← zpow_add₀ (by norm_num), show e + (52 - (e + 52)) = 0 by ring, zpow_zero, mul_one,
      roundEven_int, show e + 52 - 52 = e by ring]
  · have hv : (m : ℚ) * 2 ^ e = 2 ^ (e + 53) := by
      rw [heq, zpow_add₀ (by norm_num), mul_comm]; norm_num
    rw [hv]
    have hlog : Int.log 2 ((2 : ℚ) ^ (e + 53)) = e + 53 := by
      have := Int.log_zpow (R := ℚ) (b := 2) (by norm_num) (e + 53)
      exact_mod_cast this
    unfold roundPos53
    simp only
    rw [hlog, ← zpow_add₀ (by norm_num), show e + 53 + (52 - (e + 53)) = 52 by ring,
      show ((2 : ℚ) ^ (52 : ℤ)) = (((2 : ℤ) ^ 52 : ℤ) : ℚ) by norm_num, roundEven_int]
    rw [show e + 53 - 52 = e + 53 + (-52) by ring, zpow_add₀ (by norm_num) (e + 53) (-52)]
    norm_num
    ring

theorem roundPos53_idem {x : ℚ} (hx : 0 < x) : roundPos53 (roundPos53 x) = roundPos53 x := by
  obtain ⟨h1, h2⟩ := roundPos53_bounds hx
  unfold roundPos53 at h1 h2
  simp only at h1 h2
  set e := Int.log 2 x with he
  have hq := two_zpow_pos (e - 52)
  have a1 : (2 : ℤ) ^ 52 ≤ roundEven (x * 2 ^ (52 - e)) := by
    have : (2 : ℚ) ^ (52 : ℕ) * 2 ^ (e - 52) ≤ roundEven (x * 2 ^ (52 - e)) * 2 ^ (e - 52) := by
      refine le_trans (le_of_eq ?_) h1
      rw [← zpow_natCast, ← zpow_add₀ (by norm_num)]; push_cast; congr 1; ring
    exact_mod_cast le_of_mul_le_mul_right this hq
  have a2 : roundEven (x * 2 ^ (52 - e)) ≤ 2 ^ 53 := by
    have : roundEven (x * 2 ^ (52 - e)) * 2 ^ (e - 52) ≤ (2 : ℚ) ^ (53 : ℕ) * 2 ^ (e - 52) := by
      refine le_trans h2 (le_of_eq ?_)
      rw [← zpow_natCast, ← zpow_add₀ (by norm_num)]; push_cast; congr 1; ring
    exact_mod_cast le_of_mul_le_mul_right this hq
  have := roundPos53_exact (e := e - 52) a1 a2
  rw [show roundPos53 x = (roundEven (x * 2 ^ (52 - e)) : ℚ) * 2 ^ (e - 52) from rfl, this]

theorem round53_pos {x : ℚ} (h : 0 < x) : round53 x = roundPos53 x := by
  unfold round53; rw [if_neg h.ne', if_pos h]

theorem round53_neg (x : ℚ) : round53 (-x) = -round53 x := by
  unfold round53
  rcases lt_trichotomy x 0 with h | h | h
  · rw [if_neg (neg_ne_zero.mpr h.ne), if_pos (neg_pos.mpr h), if_neg h.ne, if_neg (not_lt.mpr h.le), neg_neg]
  · subst h; simp
  · rw [if_neg (neg_ne_zero.mpr h.ne'), if_neg (not_lt.mpr (neg_nonpos.mpr h.le)), if_neg h.ne', if_pos h, neg_neg]

theorem round53_zero : round53 0 = 0 := by unfold round53; simp

/-- `double` rounding (to nearest, ties to even, 53 bits, no overflow or underflow). -/
def binary53 : Rounding ℚ where
  rnd := round53
  u := 1 / 2 ^ 53
  u_nonneg := by norm_num
  u_lt := by norm_num
  neg := round53_neg
  one := by
    rw [round53_pos one_pos]
    have := roundPos53_exact (m := 2 ^ 52) (e := -52) (by norm_num) (by norm_num)
    have e : (((2 ^ 52 : ℤ)) : ℚ) * 2 ^ (-52 : ℤ) = 1 := by norm_num
    rwa [e] at this
  rel := by
    intro x
    rcases lt_trichotomy x 0 with h | h | h
    · have := roundPos53_rel (neg_pos.mpr h)
      rw [← round53_pos (neg_pos.mpr h), round53_neg] at this
      rw [abs_of_neg h]
      rwa [show round53 x - x = -(-round53 x - -x) by ring, abs_neg]
    · subst h; simp [round53_zero]
    · rw [round53_pos h, abs_of_pos h]; exact roundPos53_rel h
  idem := by
    intro x
    rcases lt_trichotomy x 0 with h | h | h
    · have h' := neg_pos.mpr h
      have := roundPos53_idem h'
      rw [← round53_pos h', ← round53_pos (by rw [round53_pos h']; exact roundPos53_pos h'), round53_neg, round53_neg] at this
      exact neg_injective this
    · subst h; simp [round53_zero]
    · rw [round53_pos h, round53_pos (roundPos53_pos h), roundPos53_idem h]
  mono := by
    have key : ∀ a b : ℚ, 0 < a → a ≤ b → round53 a ≤ round53 b := fun a b ha hab => by
      rw [round53_pos ha, round53_pos (lt_of_lt_of_le ha hab)]; exact roundPos53_mono ha hab
    have nn : ∀ b : ℚ, 0 ≤ b → 0 ≤ round53 b := fun b hb => by
      rcases hb.eq_or_lt with h | h
      · rw [← h, round53_zero]
      · rw [round53_pos h]; exact (roundPos53_pos h).le
    intro a b hab
    rcases lt_or_ge 0 a with ha | ha
    · exact key a b ha hab
    · have h1 : round53 a ≤ 0 := by
        have := nn (-a) (by linarith)
        rw [round53_neg] at this; linarith
      rcases lt_or_ge b 0 with hb | hb
      · have := key (-b) (-a) (by linarith) (by linarith)
        rw [round53_neg, round53_neg] at this; linarith
      · exact le_trans h1 (nn b hb)

end Nurbs
