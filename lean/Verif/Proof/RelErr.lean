import Verif.Proof.Rounded
import Mathlib.Algebra.Order.BigOperators.Group.Finset

/-! # Relative and absolute error calculus -/

set_option linter.unusedSectionVars false

namespace Nurbs
open Nurbs.Spec

variable {K : Type} [Field K] [LinearOrder K] [IsStrictOrderedRing K]

/-! ### relative errors of non-negative numbers -/

/-- `a` and `b` are non-negative and agree up to a factor between `q ^ m` and `q ^ -m`. -/
def Near (q : K) (m : ℕ) (a b : K) : Prop := 0 ≤ a ∧ 0 ≤ b ∧ q ^ m * b ≤ a ∧ q ^ m * a ≤ b

section
variable {q : K} (hq0 : 0 < q) (hq1 : q ≤ 1) {m n : ℕ} {a b c d : K}
include hq0

theorem Near.refl (h : 0 ≤ a) : Near q 0 a a := ⟨h, h, by simp, by simp⟩

theorem Near.symm (h : Near q m a b) : Near q m b a := ⟨h.2.1, h.1, h.2.2.2, h.2.2.1⟩

theorem Near.add (h : Near q m a b) (h' : Near q m c d) : Near q m (a + c) (b + d) :=
  ⟨add_nonneg h.1 h'.1, add_nonneg h.2.1 h'.2.1, by rw [mul_add]; exact add_le_add h.2.2.1 h'.2.2.1,
    by rw [mul_add]; exact add_le_add h.2.2.2 h'.2.2.2⟩

theorem Near.mul (h : Near q m a b) (h' : Near q n c d) : Near q (m + n) (a * c) (b * d) := by
  have hm := (pow_pos hq0 m).le
  have hn := (pow_pos hq0 n).le
  refine ⟨mul_nonneg h.1 h'.1, mul_nonneg h.2.1 h'.2.1, ?_, ?_⟩
  · rw [pow_add, mul_mul_mul_comm]
    exact mul_le_mul h.2.2.1 h'.2.2.1 (mul_nonneg hn h'.2.1) h.1
  · rw [pow_add, mul_mul_mul_comm]
    exact mul_le_mul h.2.2.2 h'.2.2.2 (mul_nonneg hn h'.1) h.2.1

theorem Near.trans (h : Near q m a b) (h' : Near q n b c) : Near q (m + n) a c := by
  refine ⟨h.1, h'.2.1, ?_, ?_⟩
  · rw [pow_add, mul_assoc]
    exact le_trans (mul_le_mul_of_nonneg_left h'.2.2.1 (pow_pos hq0 m).le) h.2.2.1
  · rw [add_comm, pow_add, mul_assoc]
    exact le_trans (mul_le_mul_of_nonneg_left h.2.2.2 (pow_pos hq0 n).le) h'.2.2.2

theorem Near.pos (h : Near q m a b) (hb : 0 < b) : 0 < a := lt_of_lt_of_le (mul_pos (pow_pos hq0 m) hb) h.2.2.1

theorem Near.inv (h : Near q m a b) (hb : 0 < b) : Near q m a⁻¹ b⁻¹ := by
  have ha := h.pos hq0 hb
  refine ⟨inv_nonneg.mpr h.1, inv_nonneg.mpr h.2.1, ?_, ?_⟩
  · rw [← div_eq_mul_inv, div_le_iff₀ hb, inv_mul_eq_div, le_div_iff₀ ha]; exact h.2.2.2
  · rw [← div_eq_mul_inv, div_le_iff₀ ha, inv_mul_eq_div, le_div_iff₀ hb]; exact h.2.2.1

theorem Near.div (h : Near q m a b) (h' : Near q n c d) (hd : 0 < d) : Near q (m + n) (a / c) (b / d) := by
  rw [div_eq_mul_inv, div_eq_mul_inv]; exact h.mul hq0 (h'.inv hq0 hd)

include hq1 in
theorem Near.mono (h : Near q m a b) (hmn : m ≤ n) : Near q n a b := by
  have hp := pow_le_pow_of_le_one hq0.le hq1 hmn
  exact ⟨h.1, h.2.1, le_trans (mul_le_mul_of_nonneg_right hp h.2.1) h.2.2.1,
    le_trans (mul_le_mul_of_nonneg_right hp h.1) h.2.2.2⟩

/-- The relative error. -/
theorem Near.abs_sub_le (h : Near q m a b) : |a - b| ≤ ((q ^ m)⁻¹ - 1) * b := by
  have hp := pow_pos hq0 m
  have h1 : a ≤ (q ^ m)⁻¹ * b := by rw [inv_mul_eq_div, le_div_iff₀ hp, mul_comm]; exact h.2.2.2
  have h2 : b ≤ (q ^ m)⁻¹ * a := by rw [inv_mul_eq_div, le_div_iff₀ hp, mul_comm]; exact h.2.2.1
  have h3 : 0 ≤ a := h.1
  have h4 : 0 ≤ b := h.2.1
  rw [abs_le]
  constructor
  · -- b - a ≤ (1/q^m - 1) b  from  q^m b ≤ a
    by_cases hab : b ≤ a
    · have : 0 ≤ ((q ^ m)⁻¹ - 1) * b := by nlinarith
      linarith
    · push Not at hab
      have h5 : b ≤ a + ((q ^ m)⁻¹ - 1) * a := by linarith
      have h6 : 0 ≤ (q ^ m)⁻¹ - 1 := by
        by_contra hc
        push Not at hc
        have : ((q ^ m)⁻¹ - 1) * a ≤ 0 := mul_nonpos_of_nonpos_of_nonneg hc.le h3
        linarith
      have := mul_le_mul_of_nonneg_left hab.le h6
      linarith
  · linarith
end

/-! ### rounding -/

namespace Rounding
variable (R : Rounding K)

/-- one minus the unit roundoff -/
def q : K := 1 - R.u

theorem q_pos : 0 < R.q := sub_pos.mpr R.u_lt
theorem q_le : R.q ≤ 1 := by have := R.u_nonneg; unfold q; linarith
theorem zero : R.rnd 0 = 0 := by
  have := R.rel 0
  rw [abs_zero, mul_zero, sub_zero] at this
  exact abs_nonpos_iff.mp this

theorem near {a : K} (h : 0 ≤ a) : Near R.q 1 (R.rnd a) a := by
  have h1 := R.rel a
  rw [abs_of_nonneg h, abs_le] at h1
  have hu := R.u_nonneg
  have hq := R.q_pos
  have e : R.q = 1 - R.u := rfl
  have h2 : 0 ≤ R.rnd a := by rw [← R.zero]; exact R.mono _ _ h
  refine ⟨h2, h, by rw [pow_one, e]; linarith [h1.1], ?_⟩
  rw [pow_one]
  calc R.q * R.rnd a ≤ R.q * ((1 + R.u) * a) := mul_le_mul_of_nonneg_left (by linarith [h1.2]) hq.le
    _ = (1 - R.u * R.u) * a := by rw [e]; ring
    _ ≤ 1 * a := mul_le_mul_of_nonneg_right (by nlinarith) h
    _ = a := one_mul a

end Rounding

namespace Fl
variable {R : Rounding K}

theorem val_zero : (0 : Fl R).val = 0 := R.zero
theorem val_one : (1 : Fl R).val = 1 := R.one
theorem val_add (a b : Fl R) : (a + b).val = R.rnd (a.val + b.val) := rfl
theorem val_sub (a b : Fl R) : (a - b).val = R.rnd (a.val - b.val) := rfl
theorem val_mul (a b : Fl R) : (a * b).val = R.rnd (a.val * b.val) := rfl
theorem val_div (a b : Fl R) : (a / b).val = R.rnd (a.val / b.val) := rfl
theorem le_def (a b : Fl R) : a ≤ b ↔ a.val ≤ b.val := Iff.rfl
theorem lt_def (a b : Fl R) : a < b ↔ a.val < b.val := Iff.rfl
theorem val_inj {a b : Fl R} (h : a.val = b.val) : a = b := Subtype.ext h
theorem ne_zero {a : Fl R} (h : a.val ≠ 0) : a ≠ 0 := fun e => h (by rw [e, val_zero])
theorem val_round (a : K) : (round R a).val = R.rnd a := rfl
theorem rnd_val (a : Fl R) : R.rnd a.val = a.val := a.2

theorem near_add {m : ℕ} {a b : Fl R} {x y : K} (ha : Near R.q m a.val x) (hb : Near R.q m b.val y) :
    Near R.q (m + 1) (a + b).val (x + y) := by
  rw [add_comm m 1]
  exact (R.near (add_nonneg ha.1 hb.1)).trans R.q_pos (ha.add R.q_pos hb)

theorem near_mul {m n : ℕ} {a b : Fl R} {x y : K} (ha : Near R.q m a.val x) (hb : Near R.q n b.val y) :
    Near R.q (m + n + 1) (a * b).val (x * y) := by
  rw [add_comm _ 1]
  exact (R.near (mul_nonneg ha.1 hb.1)).trans R.q_pos (ha.mul R.q_pos hb)

theorem near_div {m n : ℕ} {a b : Fl R} {x y : K} (ha : Near R.q m a.val x) (hb : Near R.q n b.val y) (hy : 0 < y) :
    Near R.q (m + n + 1) (a / b).val (x / y) := by
  rw [add_comm _ 1]
  exact (R.near (div_nonneg ha.1 hb.1)).trans R.q_pos (ha.div R.q_pos hb hy)

theorem near_sub {a b : Fl R} (h : b.val ≤ a.val) : Near R.q 1 (a - b).val (a.val - b.val) :=
  R.near (sub_nonneg.mpr h)

end Fl

/-! ### absolute errors against a bound -/

/-- `a` differs from `b` by at most `(q ^ -m - 1) B`, where `|b| ≤ B`. -/
def Close (q : K) (m : ℕ) (a b B : K) : Prop := |b| ≤ B ∧ |a - b| ≤ ((q ^ m)⁻¹ - 1) * B

section
variable {q : K} (hq0 : 0 < q) (hq1 : q ≤ 1) {m n : ℕ} {a b c d B C : K}
include hq0

theorem Close.refl (b : K) : Close q 0 b b |b| := ⟨le_rfl, by simp⟩

theorem Close.abs_le (h : Close q m a b B) : |a| ≤ (q ^ m)⁻¹ * B := by
  have := abs_sub_abs_le_abs_sub a b
  linarith [h.1, h.2]

theorem Close.nonneg (h : Close q m a b B) : 0 ≤ B := le_trans (abs_nonneg b) h.1

theorem Close.add (h : Close q m a b B) (h' : Close q m c d C) : Close q m (a + c) (b + d) (B + C) := by
  refine ⟨le_trans (abs_add_le b d) (add_le_add h.1 h'.1), ?_⟩
  rw [show a + c - (b + d) = (a - b) + (c - d) by ring, mul_add]
  exact le_trans (abs_add_le _ _) (add_le_add h.2 h'.2)

include hq1 in
theorem one_le_pow_inv (m : ℕ) : 1 ≤ (q ^ m)⁻¹ := (one_le_inv₀ (pow_pos hq0 m)).mpr (pow_le_one₀ hq0.le hq1)

include hq1 in
theorem pow_inv_mono (h : m ≤ n) : (q ^ m)⁻¹ ≤ (q ^ n)⁻¹ :=
  inv_anti₀ (pow_pos hq0 n) (pow_le_pow_of_le_one hq0.le hq1 h)

include hq1 in
theorem Close.mono (h : Close q m a b B) (hmn : m ≤ n) (hB : B ≤ C) : Close q n a b C := by
  refine ⟨le_trans h.1 hB, le_trans h.2 ?_⟩
  have h1 := pow_inv_mono hq0 hq1 hmn
  have h2 := one_le_pow_inv hq0 hq1 m
  exact mul_le_mul (by linarith) hB (h.nonneg hq0) (by linarith)

include hq1 in
/-- product with a factor of small relative error -/
theorem Near.mul_close (h : Near q m a b) (h' : Close q n c d C) : Close q (m + n) (a * c) (b * d) (b * C) := by
  have hC := h'.nonneg hq0
  have hp := one_le_pow_inv hq0 hq1 m
  have hn := one_le_pow_inv hq0 hq1 n
  have ha : a ≤ (q ^ m)⁻¹ * b := by
    rw [inv_mul_eq_div, le_div_iff₀ (pow_pos hq0 m), mul_comm]; exact h.2.2.2
  refine ⟨by rw [abs_mul, abs_of_nonneg h.2.1]; exact mul_le_mul_of_nonneg_left h'.1 h.2.1, ?_⟩
  rw [show a * c - b * d = a * (c - d) + (a - b) * d by ring, pow_add, mul_inv]
  have h1 : |a * (c - d)| ≤ (q ^ m)⁻¹ * b * (((q ^ n)⁻¹ - 1) * C) := by
    rw [abs_mul, abs_of_nonneg h.1]
    exact mul_le_mul ha h'.2 (abs_nonneg _) (mul_nonneg (by linarith) h.2.1)
  have h2 : |(a - b) * d| ≤ ((q ^ m)⁻¹ - 1) * b * C := by
    rw [abs_mul]
    exact mul_le_mul (h.abs_sub_le hq0) h'.1 (abs_nonneg _) (mul_nonneg (by linarith) h.2.1)
  calc _ ≤ _ := abs_add_le _ _
    _ ≤ _ := add_le_add h1 h2
    _ = _ := by ring

theorem Near.close (h : Near q m a b) : Close q m a b b := ⟨(abs_of_nonneg h.2.1).le, h.abs_sub_le hq0⟩

include hq1 in
theorem Close.div_near (h : Close q m a b B) (h' : Near q n c d) (hd : 0 < d) :
    Close q (m + n) (a / c) (b / d) (B / d) := by
  have := (h'.inv hq0 hd).mul_close hq0 hq1 h
  rw [inv_mul_eq_div, inv_mul_eq_div, inv_mul_eq_div, add_comm n m] at this
  exact this

end

namespace Fl
variable {R : Rounding K}

theorem close_round {m : ℕ} {a b B : K} (h : Close R.q m a b B) : Close R.q (m + 1) (R.rnd a) b B := by
  refine ⟨h.1, ?_⟩
  have hB := h.nonneg R.q_pos
  have h1 := R.rel a
  have h2 := h.abs_le R.q_pos
  have hu := R.u_nonneg
  have hq := R.q_pos
  have hg : 0 < (R.q ^ m)⁻¹ := inv_pos.mpr (pow_pos hq m)
  have h3 : |R.rnd a - b| ≤ R.u * ((R.q ^ m)⁻¹ * B) + ((R.q ^ m)⁻¹ - 1) * B := by
    rw [show R.rnd a - b = (R.rnd a - a) + (a - b) by ring]
    exact le_trans (abs_add_le _ _) (add_le_add (le_trans h1 (mul_le_mul_of_nonneg_left h2 hu)) h.2)
  refine le_trans h3 ?_
  have h4 : 1 + R.u ≤ R.q⁻¹ := by
    rw [le_inv_comm₀ (by linarith) hq, ← one_div, le_div_iff₀ (by linarith)]
    unfold Rounding.q; nlinarith
  rw [pow_succ, mul_inv]
  have h5 : (R.q ^ m)⁻¹ * B * (1 + R.u) ≤ (R.q ^ m)⁻¹ * B * R.q⁻¹ :=
    mul_le_mul_of_nonneg_left h4 (mul_nonneg hg.le hB)
  nlinarith

theorem close_add {m : ℕ} {a b : Fl R} {x y X Y : K} (ha : Close R.q m a.val x X) (hb : Close R.q m b.val y Y) :
    Close R.q (m + 1) (a + b).val (x + y) (X + Y) := close_round (ha.add R.q_pos hb)

theorem close_val (a : Fl R) : Close R.q 0 a.val a.val |a.val| := Close.refl R.q_pos a.val

end Fl

end Nurbs
