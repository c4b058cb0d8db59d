import Verif.Spec.Serial
import Verif.Proof.SerialHeader
import Mathlib.Tactic.Ring
import Mathlib.Tactic.Linarith
import Mathlib.Tactic.FieldSimp

/-! # Numbers as text: 17 decimals and back -/

set_option linter.unusedSectionVars false

namespace Nurbs
open Serial Utils

namespace Serial

theorem roundHalfEven_close (a b : ℕ) (hb : 0 < b) :
    2 * (b * roundHalfEven a b) ≤ 2 * a + b ∧ 2 * a ≤ 2 * (b * roundHalfEven a b) + b := by
  have e := Nat.div_add_mod a b
  have hr := Nat.mod_lt a hb
  unfold roundHalfEven
  generalize a / b = q at *
  generalize a % b = r at *
  subst e
  split_ifs with h1 h2
  · constructor <;> nlinarith
  · have : q % 2 < 2 := Nat.mod_lt _ (by norm_num)
    generalize q % 2 = t at *
    have : t = 0 ∨ t = 1 := by omega
    rcases this with rfl | rfl
    · constructor <;> nlinarith
    · constructor <;> nlinarith
  · constructor <;> nlinarith

theorem roundHalfEven_eq {a b m : ℕ} (h1 : 2 * a < 2 * (b * m) + b) (h2 : 2 * (b * m) < 2 * a + b) :
    roundHalfEven a b = m := by
  have hb : 0 < b := by
    rcases Nat.eq_zero_or_pos b with rfl | h
    · simp at h1 h2
    · exact h
  have e := Nat.div_add_mod a b
  have hr := Nat.mod_lt a hb
  unfold roundHalfEven
  generalize a / b = q at *
  generalize a % b = r at *
  subst e
  have hq : q = m ∨ q + 1 = m := by
    have u1 : q ≤ m := by
      by_contra hc
      have : b * (m + 1) ≤ b * q := Nat.mul_le_mul_left b (by omega)
      nlinarith
    have u2 : m ≤ q + 1 := by
      by_contra hc
      have : b * (q + 2) ≤ b * m := Nat.mul_le_mul_left b (by omega)
      nlinarith
    omega
  rcases hq with rfl | rfl
  · rw [if_pos (by omega)]
  · have : b < 2 * r := by nlinarith
    rw [if_neg (by omega), if_neg (by omega)]

theorem log2_eq {s k : ℕ} (h1 : 2 ^ k ≤ s) (h2 : s < 2 ^ (k + 1)) : Nat.log2 s = k := by
  have hs : s ≠ 0 := by
    have := Nat.pow_pos (n := k) (show 0 < 2 by norm_num)
    omega
  exact (Nat.log2_eq_iff hs).2 ⟨h1, h2⟩

/-- `nearestBits`, with the scaling `P = 2^1074` kept abstract. -/
def nearestBitsP (P a b : ℕ) : ℕ :=
  (Nat.log2 (a * P / b) - 52) * 2 ^ 52 + roundHalfEven (a * P) (b * 2 ^ (Nat.log2 (a * P / b) - 52))

theorem nearestBits_eq (a b : ℕ) : nearestBits a b = nearestBitsP (2 ^ 1074) a b := rfl

/-- A number closer to `m * 2^k` than half a unit in the last place. -/
theorem nearest_core {P a b k m : ℕ} (hb : 0 < b) (hm : m < 2 ^ 53) (hn : k = 0 ∨ 2 ^ 52 ≤ m)
    (h1 : 2 * (a * P) < 2 * (b * 2 ^ k * m) + b * 2 ^ k) (h2 : 2 * (b * 2 ^ k * m) < 2 * (a * P) + b * 2 ^ k)
    (h3 : k = 0 ∨ 2 ^ 52 < m ∨ b * 2 ^ k * m ≤ a * P) : nearestBitsP P a b = k * 2 ^ 52 + m := by
  unfold nearestBitsP
  generalize a * P = A at *
  have hup : A / b < 2 ^ (k + 53) := by
    rw [Nat.div_lt_iff_lt_mul hb, pow_add]
    have : b * 2 ^ k * (m + 1) ≤ b * 2 ^ k * 2 ^ 53 := Nat.mul_le_mul_left _ (by omega)
    nlinarith
  have hlog : Nat.log2 (A / b) - 52 = k := by
    by_cases hk : k = 0
    · subst hk
      by_cases hs : A / b = 0
      · rw [hs]; rfl
      · have := (Nat.log2_lt hs (k := 53)).2 (by simpa using hup)
        omega
    · have hlo : 2 ^ (k + 52) ≤ A / b := by
        rw [Nat.le_div_iff_mul_le hb, pow_add]
        have hn' : 2 ^ 52 ≤ m := hn.resolve_left hk
        rcases h3 with h | h | h
        · exact (hk h).elim
        · have : b * 2 ^ k * (2 ^ 52 + 1) ≤ b * 2 ^ k * m := Nat.mul_le_mul_left _ h
          nlinarith
        · have : b * 2 ^ k * 2 ^ 52 ≤ b * 2 ^ k * m := Nat.mul_le_mul_left _ hn'
          nlinarith
      rw [log2_eq hlo (by simpa [add_assoc] using hup)]
      omega
  rw [hlog, roundHalfEven_eq (m := m) (by linarith) (by linarith)]

/-- Just below a power of two the spacing is half as large. -/
theorem nearest_below {P a b k : ℕ} (hb : 0 < b)
    (h1 : a * P < b * 2 ^ (k + 1) * 2 ^ 52) (h2 : 4 * (b * 2 ^ (k + 1) * 2 ^ 52) < 4 * (a * P) + b * 2 ^ (k + 1)) :
    nearestBitsP P a b = (k + 1) * 2 ^ 52 + 2 ^ 52 := by
  unfold nearestBitsP
  generalize a * P = A at *
  rw [pow_succ] at h1 h2
  have hlog : Nat.log2 (A / b) = k + 52 := by
    refine log2_eq ?_ ?_
    · rw [Nat.le_div_iff_mul_le hb, pow_add]
      nlinarith
    · rw [Nat.div_lt_iff_lt_mul hb, add_assoc, pow_add]
      calc A < _ := h1
        _ = _ := by ring
  rw [hlog, show k + 52 - 52 = k by omega, roundHalfEven_eq (m := 2 ^ 53) (by linarith) (by linarith)]
  ring

/-- Every magnitude is a mantissa and a shift. -/
theorem mag_split (n : ℕ) : ∃ k m, n = k * 2 ^ 52 + m ∧ m < 2 ^ 53 ∧ (k = 0 ∨ 2 ^ 52 ≤ m) ∧ magUnits n = 2 ^ k * m := by
  refine ⟨n / 2 ^ 52 - 1, n - (n / 2 ^ 52 - 1) * 2 ^ 52, ?_, ?_, ?_, ?_⟩
  · have := Nat.div_add_mod n (2 ^ 52)
    have : (n / 2 ^ 52 - 1) * 2 ^ 52 ≤ n := by
      calc _ ≤ n / 2 ^ 52 * 2 ^ 52 := Nat.mul_le_mul_right _ (by omega)
        _ ≤ n := Nat.div_mul_le_self _ _
    omega
  · norm_num; omega
  · norm_num; omega
  · unfold magUnits; rw [mul_comm]

/-- Printing with 17 decimals and reading back, when the printed text is exact. -/
theorem nearest_exact {P a b : ℕ} (n : ℕ) (hb : 0 < b) (h : a * P = b * magUnits n) : nearestBitsP P a b = n := by
  obtain ⟨k, m, hn, hm, hk, hv⟩ := mag_split n
  have hp : 0 < b * 2 ^ k := Nat.mul_pos hb (Nat.pow_pos (by norm_num))
  rw [hv, ← mul_assoc] at h
  conv_rhs => rw [hn]
  exact nearest_core hb hm hk (by omega) (by omega) (.inr (.inr h.ge))

/-- Printing with 17 decimals and reading back, from 1/16 on. -/
theorem nearest_big {N : ℕ} (n : ℕ) (h : 2 ^ 1070 ≤ magUnits n)
    (h1 : 2 * (2 ^ 1074 * N) ≤ 2 * (magUnits n * 10 ^ 17) + 2 ^ 1074)
    (h2 : 2 * (magUnits n * 10 ^ 17) ≤ 2 * (2 ^ 1074 * N) + 2 ^ 1074) : nearestBitsP (2 ^ 1074) N (10 ^ 17) = n := by
  obtain ⟨k, m, hn, hm, hk, hv⟩ := mag_split n
  have hk18 : 1018 ≤ k := by
    by_contra hc
    have h17 : 2 ^ k ≤ 2 ^ 1017 := Nat.pow_le_pow_right two_pos (by omega)
    have hQ : 0 < 2 ^ 1017 := Nat.pow_pos (by norm_num)
    have e70 : (2 : ℕ) ^ 1070 = 2 ^ 1017 * 2 ^ 53 := by rw [← pow_add]
    rw [hv, e70] at h
    generalize (2 : ℕ) ^ 1017 = Q at *
    generalize (2 : ℕ) ^ k = J at *
    have : Q * m < Q * 2 ^ 53 := (Nat.mul_lt_mul_left hQ).2 hm
    have : J * m ≤ Q * m := Nat.mul_le_mul_right _ h17
    omega
  obtain ⟨j, rfl⟩ := Nat.exists_eq_add_of_le hk18
  have e74 : (2 : ℕ) ^ 1074 = 2 ^ 56 * 2 ^ 1018 := by rw [← pow_add]
  have ej : (2 : ℕ) ^ (1018 + j) = 2 ^ 1018 * 2 ^ j := pow_add _ _ _
  have hQ : 0 < 2 ^ 1018 := Nat.pow_pos (by norm_num)
  have hm52 : 2 ^ 52 ≤ m := by omega
  have hQJ : (2 : ℕ) ^ 1018 ≤ 2 ^ 1018 * 2 ^ j := Nat.le_mul_of_pos_right _ (Nat.pow_pos (by norm_num))
  rw [hv, mul_comm (2 ^ 1074) N] at h1 h2
  by_cases hcase : 2 ^ 52 < m ∨ 10 ^ 17 * 2 ^ (1018 + j) * m ≤ N * 2 ^ 1074
  · refine Eq.trans ?_ hn.symm
    refine nearest_core (by norm_num) hm hk ?_ ?_ (.inr hcase)
    · clear h2 h hv hn hcase hk hk18 hm hm52
      generalize N * 2 ^ 1074 = A at *
      rw [e74] at h1
      rw [ej] at h1 ⊢
      clear ej e74
      generalize (2 : ℕ) ^ 1018 * 2 ^ j = R at *
      generalize (2 : ℕ) ^ 1018 = Q at *
      norm_num at *
      generalize hx : R * m = X at *
      have : 100000000000000000 * R * m = 100000000000000000 * X := by rw [← hx]; ring
      omega
    · clear h1 h hv hn hcase hk hk18 hm hm52
      generalize N * 2 ^ 1074 = A at *
      rw [e74] at h2
      rw [ej] at h2 ⊢
      clear ej e74
      generalize (2 : ℕ) ^ 1018 * 2 ^ j = R at *
      generalize (2 : ℕ) ^ 1018 = Q at *
      norm_num at *
      generalize hx : R * m = X at *
      have : 100000000000000000 * R * m = 100000000000000000 * X := by rw [← hx]; ring
      omega
  · rw [not_or, not_lt, not_le] at hcase
    obtain ⟨hm', hlt⟩ := hcase
    have hm2 : m = 2 ^ 52 := by omega
    subst hm2
    obtain _ | j := j
    · exfalso
      clear h hv hn h1 hk hk18 hm hm52
      simp only [Nat.add_zero] at h2 hlt
      rw [e74] at h2 hlt
      clear ej e74
      generalize (2 : ℕ) ^ 1018 = Q at *
      norm_num at *
      have hN : N < 6250000000000000 := by
        by_contra hc
        have : 6250000000000000 * (72057594037927936 * Q) ≤ N * (72057594037927936 * Q) :=
          Nat.mul_le_mul_right _ (by omega)
        omega
      have : (N + 1) * (72057594037927936 * Q) ≤ 6250000000000000 * (72057594037927936 * Q) :=
        Nat.mul_le_mul_right _ (by omega)
      rw [add_mul, one_mul] at this
      generalize N * (72057594037927936 * Q) = A at *
      omega
    · refine Eq.trans ?_ hn.symm
      refine nearest_below (k := 1018 + j) (by norm_num) hlt ?_
      simp only [add_assoc]
      clear h h1 hv hn hk hk18 hm hm52 hlt hm'
      generalize N * 2 ^ 1074 = A at *
      rw [e74] at h2
      rw [ej] at h2 ⊢
      clear ej e74
      have hQJ2 : (2 : ℕ) ^ 1018 * 2 ≤ 2 ^ 1018 * 2 ^ (j + 1) :=
        Nat.mul_le_mul_left _ (by rw [pow_succ]; have := Nat.pow_pos (n := j) (show 0 < 2 by norm_num); omega)
      generalize (2 : ℕ) ^ 1018 * 2 ^ (j + 1) = R at *
      generalize (2 : ℕ) ^ 1018 = Q at *
      norm_num at *
      omega

theorem roundHalfEven_mul (b c : ℕ) (hb : 0 < b) : roundHalfEven (c * b) b = c := by
  unfold roundHalfEven
  rw [Nat.mul_mod_left, Nat.mul_div_cancel _ hb, if_pos (by omega)]

/-- Multiples of `2^-17` are printed exactly. -/
theorem print_exact {v w : ℕ} (h : v = 2 ^ 1057 * w) :
    roundHalfEven (v * 10 ^ 17) (2 ^ 1074) * 2 ^ 1074 = 10 ^ 17 * v := by
  have e : v * 10 ^ 17 = (5 ^ 17 * w) * 2 ^ 1074 := by
    rw [h, show (1074 : ℕ) = 1057 + 17 from rfl, pow_add]
    generalize (2 : ℕ) ^ 1057 = Q
    ring
  rw [mul_comm _ v, e, roundHalfEven_mul _ _ (Nat.pow_pos two_pos)]

/-- The absolute value of the standard is what the model uses. -/
theorem absF64_eq (x : F64) : Spec.absF64 x = magUnits (x.toNat % 2 ^ 63) / 2 ^ 1074 := by
  have hx := x.isLt
  have eE : Spec.expField x = x.toNat % 2 ^ 63 / 2 ^ 52 := by unfold Spec.expField; norm_num; omega
  have eF : Spec.fracField x = x.toNat % 2 ^ 63 % 2 ^ 52 := by unfold Spec.fracField; norm_num
  unfold Spec.absF64
  rw [eE, eF]
  generalize x.toNat % 2 ^ 63 = n
  have hP : (2 : ℚ) ^ 1074 ≠ 0 := pow_ne_zero _ two_ne_zero
  by_cases h0 : n / 2 ^ 52 = 0
  · rw [if_pos h0, magUnits, h0, zpow_neg, ← div_eq_mul_inv]
    have : n % 2 ^ 52 = n := by norm_num at *; omega
    rw [this]
    simp only [Nat.zero_sub, zero_mul, Nat.sub_zero, pow_zero, mul_one]
    exact congrArg (fun y : ℚ => (n : ℚ) / y) (zpow_natCast (2 : ℚ) 1074)
  · rw [if_neg h0, eq_div_iff hP]
    have hm : n - (n / 2 ^ 52 - 1) * 2 ^ 52 = 2 ^ 52 + n % 2 ^ 52 := by norm_num at *; omega
    unfold magUnits
    rw [hm]
    obtain ⟨e, he⟩ := Nat.exists_eq_succ_of_ne_zero h0
    rw [he, Nat.succ_eq_add_one, Nat.add_sub_cancel]
    have : (2 : ℚ) ^ (((e + 1 : ℕ) : ℤ) - 1075) * 2 ^ 1074 = 2 ^ e := by
      rw [← zpow_natCast (2 : ℚ) 1074, ← zpow_add₀ two_ne_zero, ← zpow_natCast (2 : ℚ) e]
      congr 1
      push_cast
      ring
    rw [mul_assoc, this]
    push_cast
    ring

theorem finite_iff (x : F64) : Spec.FiniteF64 x ↔ x.toNat % 2 ^ 63 < 2047 * 2 ^ 52 := by
  have hx := x.isLt
  unfold Spec.FiniteF64 Spec.expField
  norm_num
  omega

/-- What is printed with 17 decimals is read back as the same double. -/
theorem read_back {x : F64} (h : Spec.Survives x) :
    toDouble (decide (¬ x.toNat < 2 ^ 63)) (roundHalfEven (magUnits (x.toNat % 2 ^ 63) * 10 ^ 17) (2 ^ 1074)) (10 ^ 17) =
      some x := by
  obtain ⟨hf, hs⟩ := h
  rw [finite_iff] at hf
  rw [absF64_eq] at hs
  have hx := x.isLt
  have key : nearestBits (roundHalfEven (magUnits (x.toNat % 2 ^ 63) * 10 ^ 17) (2 ^ 1074)) (10 ^ 17) =
      x.toNat % 2 ^ 63 := by
    generalize x.toNat % 2 ^ 63 = n at *
    rw [nearestBits_eq]
    have hP : (0 : ℚ) < 2 ^ 1074 := pow_pos two_pos _
    rcases hs with hs | ⟨j, hj⟩
    · have hv : 2 ^ 1070 ≤ magUnits n := by
        rw [div_le_div_iff₀ (by norm_num) hP, one_mul] at hs
        have h74 : (2 : ℚ) ^ 1074 = 2 ^ 1070 * 16 := by
          rw [show (1074 : ℕ) = 1070 + 4 from rfl, pow_add]; norm_num
        rw [h74] at hs
        have : (2 : ℚ) ^ 1070 ≤ magUnits n := by linarith
        exact_mod_cast this
      obtain ⟨c1, c2⟩ := roundHalfEven_close (magUnits n * 10 ^ 17) (2 ^ 1074) (Nat.pow_pos two_pos)
      exact nearest_big n hv c1 c2
    · refine nearest_exact n (by norm_num) (print_exact (w := j) ?_)
      rw [div_eq_div_iff hP.ne' (by norm_num)] at hj
      have h74 : (2 : ℚ) ^ 1074 = 2 ^ 1057 * 2 ^ 17 := by
        rw [show (1074 : ℕ) = 1057 + 17 from rfl, pow_add]
      rw [h74, ← mul_assoc] at hj
      have := mul_right_cancel₀ (by norm_num) hj
      rw [mul_comm] at this
      exact_mod_cast this
  unfold toDouble
  simp only [key]
  rw [if_pos hf]
  congr 1
  apply BitVec.eq_of_toNat_eq
  rw [BitVec.toNat_ofNat]
  by_cases hneg : x.toNat < 2 ^ 63
  · simp only [hneg, not_true_eq_false, decide_false, Bool.false_eq_true, if_false, Nat.add_zero]
    rw [Nat.mod_eq_of_lt hneg, Nat.mod_eq_of_lt hx]
  · simp only [hneg, not_false_eq_true, decide_true, if_true]
    norm_num at *
    omega

/-- A finite double that is read back from its own 17 decimals. -/
def ReadsBack (x : F64) : Prop := Spec.FiniteF64 x ∧
  toDouble (decide (¬ x.toNat < 2 ^ 63)) (roundHalfEven (magUnits (x.toNat % 2 ^ 63) * 10 ^ 17) (2 ^ 1074)) (10 ^ 17) = some x

theorem readsBack {x : F64} (h : Spec.Survives x) : ReadsBack x := ⟨h.1, read_back h⟩

/-! ## Digits -/

theorem digit_toNat {n : ℕ} (h : n < 10) : (digit n).toNat = 48 + n := by
  unfold digit
  rw [UInt8.toNat_ofNat', Nat.mod_eq_of_lt (by norm_num; omega)]

theorem isDigit_digit {n : ℕ} (h : n < 10) : isDigit (digit n) = true := by
  unfold isDigit
  rw [digit_toNat h]
  simp; omega

theorem decNat_nil : decNat [] = 0 := rfl

theorem decNat_concat (l : Bytes) (c : Byte) : decNat (l ++ [c]) = 10 * decNat l + (c.toNat - 48) := by
  simp [decNat]

theorem decNat_decRev (f n : ℕ) (h : n < 10 ^ f) : decNat (decRev f n).reverse = n := by
  induction f generalizing n with
  | zero => simp at h; subst h; rfl
  | succ f ih =>
    have hd : n % 10 < 10 := Nat.mod_lt _ (by norm_num)
    unfold decRev
    rw [List.reverse_cons, decNat_concat, digit_toNat hd]
    split_ifs with hn
    · rw [List.reverse_nil, decNat_nil]; omega
    · rw [ih (n / 10) (by rw [pow_succ] at h; omega)]; omega

theorem decRev_digits (f n : ℕ) : ∀ c ∈ decRev f n, isDigit c = true := by
  induction f generalizing n with
  | zero => simp [decRev]
  | succ f ih =>
    intro c hc
    unfold decRev at hc
    rw [List.mem_cons] at hc
    rcases hc with rfl | hc
    · exact isDigit_digit (Nat.mod_lt _ (by norm_num))
    · split_ifs at hc
      · simp at hc
      · exact ih _ c hc

theorem natText_digits (n : ℕ) : ∀ c ∈ natText n, isDigit c = true := fun c hc =>
  decRev_digits _ n c (by simpa [natText] using hc)

theorem natText_ne (n : ℕ) : natText n ≠ [] := by simp [natText, decRev]

theorem decNat_natText (n : ℕ) : decNat (natText n) = n := by
  refine decNat_decRev _ _ ?_
  calc n < 2 ^ (Nat.log2 n + 1) := Nat.lt_log2_self
    _ ≤ 10 ^ (Nat.log2 n + 1) := Nat.pow_le_pow_left (by norm_num) _

theorem fixRev_length (k n : ℕ) : (fixRev k n).length = k := by
  induction k generalizing n with
  | zero => rfl
  | succ k ih => simp [fixRev, ih]

theorem fixRev_digits (k n : ℕ) : ∀ c ∈ fixRev k n, isDigit c = true := by
  induction k generalizing n with
  | zero => simp [fixRev]
  | succ k ih =>
    intro c hc
    rw [fixRev, List.mem_cons] at hc
    rcases hc with rfl | hc
    · exact isDigit_digit (Nat.mod_lt _ (by norm_num))
    · exact ih _ c hc

theorem decNat_fix (a : Bytes) (k n : ℕ) : decNat (a ++ (fixRev k n).reverse) = decNat a * 10 ^ k + n % 10 ^ k := by
  induction k generalizing n with
  | zero => simp [fixRev, Nat.mod_one]
  | succ k ih =>
    have hd : n % 10 < 10 := Nat.mod_lt _ (by norm_num)
    rw [fixRev, List.reverse_cons, ← List.append_assoc, decNat_concat, ih, digit_toNat hd, pow_succ',
      Nat.mod_mul]
    rw [Nat.add_sub_cancel_left]
    ring

/-- A digit is neither white space nor one of the other characters the parsers look for. -/
theorem digit_cases {c : Byte} (h : isDigit c = true) : isspace c = false ∧ c ≠ ch '-' ∧ c ≠ ch '+' ∧ c ≠ ch '.' ∧
    c ≠ ch ',' ∧ c ≠ ch '\n' ∧ c ≠ ch '*' ∧ c ≠ ch ' ' ∧ c ≠ ch ':' := by
  unfold isDigit at h
  rw [Bool.and_eq_true, decide_eq_true_eq, decide_eq_true_eq] at h
  refine ⟨?_, ?_, ?_, ?_, ?_, ?_, ?_, ?_, ?_⟩
  · unfold isspace; simp; omega
  all_goals
    rintro rfl
    revert h
    decide

end Serial
end Nurbs
