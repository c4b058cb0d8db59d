import Mathlib.Algebra.Order.Ring.Pow
import Verif.Proof.Double

/-! # Basis functions in `double` with its finite range -/

set_option linter.unusedSectionVars false
set_option exponentiation.threshold 2000

namespace Nurbs
open Nurbs.Spec

/-- one minus the unit roundoff -/
abbrev q64 : ℚ := binary53.q

theorem q64_def : q64 = 1 - u64 := rfl
theorem q64_pos : 0 < q64 := binary53.q_pos
theorem q64_le : q64 ≤ 1 := binary53.q_le
theorem q64_half : 1 / 2 ≤ q64 := by rw [q64_def]; unfold u64; norm_num
theorem eta_pos : 0 < eta64 := by unfold eta64; positivity

/-- Relative error of `m` roundings plus absolute error `e`. -/
structure NearE (m : ℕ) (e a b : ℚ) : Prop where
  left : 0 ≤ a
  right : 0 ≤ b
  err : 0 ≤ e
  lower : q64 ^ m * b ≤ a + e
  upper : q64 ^ m * (a - e) ≤ b

variable {m n : ℕ} {e f a b c d : ℚ}

theorem NearE.of_near (h : Near q64 m a b) : NearE m 0 a b :=
  ⟨h.1, h.2.1, le_rfl, by rw [add_zero]; exact h.2.2.1, by rw [sub_zero]; exact h.2.2.2⟩

theorem NearE.mono (h : NearE m e a b) (hm : m ≤ n) (he : e ≤ f) : NearE n f a b := by
  have hp := pow_le_pow_of_le_one q64_pos.le q64_le hm
  have hn := pow_pos q64_pos n
  refine ⟨h.left, h.right, h.err.trans he, (mul_le_mul_of_nonneg_right hp h.right).trans (h.lower.trans (by linarith)), ?_⟩
  rcases le_total (a - f) 0 with h0 | h0
  · exact (mul_nonpos_of_nonneg_of_nonpos hn.le h0).trans h.right
  · calc q64 ^ n * (a - f) ≤ q64 ^ m * (a - e) := mul_le_mul hp (by linarith) h0 (pow_pos q64_pos m).le
      _ ≤ b := h.upper

theorem NearE.round (h : NearE m e a b) : NearE (m + 1) (2 * e + eta64) (round64 a) b := by
  have h1 := round64_err a
  rw [abs_of_nonneg h.left, abs_le] at h1
  have hq := q64_pos
  have hqd := q64_def
  have hh := q64_half
  have hu : 0 ≤ u64 := by unfold u64; positivity
  have hη := eta_pos
  have hpm := pow_pos q64_pos m
  refine ⟨round64_nonneg h.left, h.right, by linarith [h.err], ?_, ?_⟩
  · have : q64 * (q64 ^ m * b) ≤ q64 * (a + e) := mul_le_mul_of_nonneg_left h.lower hq.le
    rw [pow_succ', mul_assoc]
    have h2 : q64 * a ≤ round64 a + eta64 := by rw [hqd]; linarith [h1.1]
    have h3 : q64 * e ≤ e := by nlinarith [q64_le, h.err]
    linarith [h.err]
  · have h2 : q64 * (round64 a - eta64) ≤ a := by
      have : round64 a - eta64 ≤ (1 + u64) * a := by linarith [h1.2]
      calc q64 * (round64 a - eta64) ≤ q64 * ((1 + u64) * a) := mul_le_mul_of_nonneg_left this hq.le
        _ = (1 - u64 * u64) * a := by rw [hqd]; ring
        _ ≤ 1 * a := mul_le_mul_of_nonneg_right (by nlinarith) h.left
        _ = a := one_mul a
    have h3 : q64 * (round64 a - (2 * e + eta64)) ≤ a - e := by
      have : e ≤ q64 * (2 * e) := by nlinarith [h.err]
      linarith
    rw [pow_succ, mul_assoc]
    exact (mul_le_mul_of_nonneg_left h3 hpm.le).trans h.upper

theorem NearE.add (h : NearE m e a b) (h' : NearE m f c d) : NearE m (e + f) (a + c) (b + d) :=
  ⟨add_nonneg h.left h'.left, add_nonneg h.right h'.right, add_nonneg h.err h'.err, by linarith [h.lower, h'.lower],
    by rw [show a + c - (e + f) = (a - e) + (c - f) by ring, mul_add]; exact add_le_add h.upper h'.upper⟩

theorem NearE.mul_near (h : NearE m e a b) (h' : Near q64 n c d) : NearE (m + n) (e * c) (a * c) (b * d) := by
  have hm := pow_pos q64_pos m
  have hn := pow_pos q64_pos n
  refine ⟨mul_nonneg h.left h'.1, mul_nonneg h.right h'.2.1, mul_nonneg h.err h'.1, ?_, ?_⟩
  · rw [pow_add, mul_mul_mul_comm, ← add_mul]
    exact mul_le_mul h.lower h'.2.2.1 (mul_nonneg hn.le h'.2.1) (add_nonneg h.left h.err)
  · rw [← sub_mul, pow_add, mul_mul_mul_comm]
    rcases le_total (a - e) 0 with h0 | h0
    · exact (mul_nonpos_of_nonpos_of_nonneg (mul_nonpos_of_nonneg_of_nonpos hm.le h0) (mul_nonneg hn.le h'.1)).trans
        (mul_nonneg h.right h'.2.1)
    · exact mul_le_mul h.upper h'.2.2.2 (mul_nonneg hn.le h'.1) h.right

/-- The powers that occur stay close to one. -/
theorem q64_pow (hm : m ≤ 2000) : 2 / 3 ≤ q64 ^ m := by
  have h1 : 1 + (m : ℚ) * (-u64) ≤ (1 + -u64) ^ m := one_add_mul_le_pow (by unfold u64; norm_num) m
  rw [show (1 + -u64) = q64 by rw [q64_def]; ring] at h1
  have h2 : (m : ℚ) ≤ 2000 := by exact_mod_cast hm
  have h3 : (m : ℚ) * u64 ≤ 1 / 3 := by
    calc (m : ℚ) * u64 ≤ 2000 * u64 := mul_le_mul_of_nonneg_right h2 (by unfold u64; positivity)
      _ ≤ 1 / 3 := by unfold u64; norm_num
  linarith

theorem NearE.le (h : NearE m e a b) (hm : m ≤ 2000) : a ≤ 3 / 2 * b + e := by
  have hp := q64_pow hm
  have h1 := h.upper
  have hb := h.right
  rcases le_total (a - e) 0 with h0 | h0
  · linarith
  · have : 2 / 3 * (a - e) ≤ b := (mul_le_mul_of_nonneg_right hp h0).trans h1
    linarith

/-! ### the triangle -/

/-- The absolute error of level `j`. -/
def absErr (j : ℕ) : ℚ := (16 ^ j - 1) * eta64

theorem absErr_nonneg (j : ℕ) : 0 ≤ absErr j :=
  mul_nonneg (sub_nonneg.mpr (one_le_pow₀ (by norm_num))) eta_pos.le

theorem absErr_le {j : ℕ} (hj : j ≤ 29) : absErr j ≤ 1 / 2 ^ 959 := by
  have h : (16 : ℚ) ^ j ≤ 16 ^ 29 := pow_le_pow_right₀ (by norm_num) hj
  calc absErr j ≤ 16 ^ 29 * eta64 := mul_le_mul_of_nonneg_right (by linarith) eta_pos.le
    _ = 1 / 2 ^ 959 := by unfold eta64; norm_num

/-- The smallest knot interval that is allowed. -/
def minGap : ℚ := 1 / 2 ^ 1000

/-- What is known about knots and parameter. -/
structure TriData (knots : List Double) (k p : ℕ) (U : ℕ → ℚ) (X : ℚ) : Prop where
  hp : p ≤ k
  p29 : p ≤ 29
  kn_eq : ∀ i ≤ k + p, kn knots i = Double.fin (U i)
  grid : ∀ i ≤ k + p, OnGrid (U i)
  gridX : OnGrid X
  mono : ∀ i j, i ≤ j → j ≤ k + p → U i ≤ U j
  lo : ∀ i ≤ k + p, 0 ≤ U i
  hi : ∀ i ≤ k + p, U i ≤ 1
  x1 : U k ≤ X
  x2 : X ≤ U (k + 1)
  gap : 1 ≤ p → minGap ≤ U (k + 1) - U k

variable {knots : List Double} {k p : ℕ} {U : ℕ → ℚ} {X : ℚ}

theorem round64_one : round64 1 = 1 := by
  rw [round64_big (by rw [abs_one, div_le_one (by positivity)]; exact one_le_pow₀ (by norm_num))]
  exact binary53.one

theorem small_range {t : ℚ} (h0 : 0 ≤ t) (h : t ≤ 2 ^ 1010) : |t| ≤ 2 ^ 1023 := by
  rw [abs_of_nonneg h0]; exact h.trans (pow_le_pow_right₀ (by norm_num) (by norm_num))

theorem tri_den (H : TriData knots k p U X) {j r : ℕ} (hj : j ≤ p) (hr : r < j) :
    ∃ R L D : ℚ, kn knots (k + (r + 1)) - Double.fin X = Double.fin R ∧ Double.fin X - kn knots (k + 1 - (j - r)) = Double.fin L ∧
      denG knots k (Double.fin X) j r = Double.fin D ∧ Near q64 1 R (U (k + r + 1) - X) ∧ Near q64 1 L (X - U (k + 1 - j + r)) ∧
      Near q64 2 D (U (k + r + 1) - U (k + 1 - j + r)) ∧ R ≤ D ∧ L ≤ D ∧ R ≤ 1 ∧ L ≤ 1 ∧ 1 / 2 ^ 1001 ≤ D ∧
      0 < U (k + r + 1) - U (k + 1 - j + r) := by
  have hp := H.hp
  have ei : k + 1 - (j - r) = k + 1 - j + r := by omega
  have e1 := H.kn_eq (k + (r + 1)) (by omega)
  have e2 := H.kn_eq (k + 1 - j + r) (by omega)
  have a1 : 0 ≤ U (k + r + 1) - X := sub_nonneg.mpr (H.x2.trans (H.mono _ _ (by omega) (by omega)))
  have a2 : 0 ≤ X - U (k + 1 - j + r) := sub_nonneg.mpr ((H.mono _ _ (by omega) (by omega)).trans H.x1)
  have hX0 : 0 ≤ X := (H.lo k (by omega)).trans H.x1
  have hX1 : X ≤ 1 := H.x2.trans (H.hi (k + 1) (by omega))
  have b1 : U (k + r + 1) - X ≤ 1 := by linarith [H.hi (k + r + 1) (by omega)]
  have b2 : X - U (k + 1 - j + r) ≤ 1 := by linarith [H.lo (k + 1 - j + r) (by omega)]
  have big : (1 : ℚ) ≤ 2 ^ 1010 := one_le_pow₀ (by norm_num)
  have n1 := round64_near ((H.grid (k + r + 1) (by omega)).sub H.gridX) a1
  have n2 := round64_near (H.gridX.sub (H.grid (k + 1 - j + r) (by omega))) a2
  have c1 : round64 (U (k + r + 1) - X) ≤ 1 := by have := round64_mono b1; rwa [round64_one] at this
  have c2 : round64 (X - U (k + 1 - j + r)) ≤ 1 := by have := round64_mono b2; rwa [round64_one] at this
  have n3 : Near q64 2 (round64 (round64 (U (k + r + 1) - X) + round64 (X - U (k + 1 - j + r)))) (U (k + r + 1) - U (k + 1 - j + r)) := by
    have h := (round64_near ((onGrid_round (U (k + r + 1) - X)).add (onGrid_round (X - U (k + 1 - j + r)))) (add_nonneg n1.1 n2.1)).trans q64_pos
      (n1.add q64_pos n2)
    rwa [show U (k + r + 1) - X + (X - U (k + 1 - j + r)) = U (k + r + 1) - U (k + 1 - j + r) by ring] at h
  have hg := H.gap (by omega)
  have hm1 := H.mono (k + 1) (k + r + 1) (by omega) (by omega)
  have hm2 := H.mono (k + 1 - j + r) k (by omega) (by omega)
  have hgp : 0 < minGap := by unfold minGap; positivity
  refine ⟨_, _, _, ?_, ?_, ?_, n1, n2, n3, ?_, ?_, c1, c2, ?_, by linarith⟩
  · rw [e1, show k + (r + 1) = k + r + 1 by omega, Double.fin_sub, Double.ofExact_fin (small_range a1 (b1.trans big))]
  · rw [ei, e2, Double.fin_sub, Double.ofExact_fin (small_range a2 (b2.trans big))]
  · unfold denG
    rw [ei, e1, e2, show k + (r + 1) = k + r + 1 by omega, Double.fin_sub, Double.fin_sub, Double.ofExact_fin (small_range a1 (b1.trans big)),
      Double.ofExact_fin (small_range a2 (b2.trans big)), Double.fin_add, Double.ofExact_fin (small_range (add_nonneg n1.1 n2.1) (by
        have : (2 : ℚ) ≤ 2 ^ 1010 := by norm_num
        linarith))]
  · have := round64_mono (show round64 (U (k + r + 1) - X) ≤ round64 (U (k + r + 1) - X) + round64 (X - U (k + 1 - j + r)) by linarith [n2.1])
    rwa [round64_idem] at this
  · have := round64_mono (show round64 (X - U (k + 1 - j + r)) ≤ round64 (U (k + r + 1) - X) + round64 (X - U (k + 1 - j + r)) by linarith [n1.1])
    rwa [round64_idem] at this
  · refine le_trans ?_ n3.2.2.1
    have h1 : minGap ≤ U (k + r + 1) - U (k + 1 - j + r) := by linarith
    calc (1 : ℚ) / 2 ^ 1001 = 1 / 2 * minGap := by unfold minGap; norm_num
      _ ≤ q64 ^ 2 * (U (k + r + 1) - U (k + 1 - j + r)) :=
        mul_le_mul ((by norm_num : (1 : ℚ) / 2 ≤ 2 / 3).trans (q64_pow (by norm_num))) h1 hgp.le (by positivity)

theorem tri_denOK (H : TriData knots k p U X) : DenOK knots k (Double.fin X) p := by
  intro j h1 h2 r hr
  obtain ⟨R, L, D, _, _, e, _, _, _, _, _, _, _, hD, _⟩ := tri_den H h2 hr
  rw [e, Double.zero_def]
  intro h
  rw [Double.fin_inj] at h
  rw [h] at hD
  have : (0 : ℚ) < 1 / 2 ^ 1001 := by positivity
  linarith

theorem lev_le_one (H : TriData knots k p U X) {j : ℕ} (hj : j ≤ p) (r : ℕ) : 0 ≤ lev U k X j r ∧ lev U k X j r ≤ 1 := by
  have hp := H.hp
  have hm : ∀ a b, a ≤ b → b ≤ k + j → U a ≤ U b := fun a b h1 h2 => H.mono a b h1 (by omega)
  have hnn := fun i => Nl_nonneg U k X j i hm H.x1 H.x2
  unfold lev
  split_ifs with h
  · refine ⟨hnn _, ?_⟩
    rcases Nat.eq_zero_or_pos j with h0 | h0
    · subst h0; simp only [Nl]; split <;> norm_num
    have hg := H.gap (by omega)
    have hgp : 0 < minGap := by unfold minGap; positivity
    have hr : RegSpan U k j := by
      intro q i hq h1 h2
      have a1 := H.mono (k + 1) (i + q) (by omega) (by omega)
      have a2 := H.mono i k (by omega) (by omega)
      intro e
      linarith
    have hs := seg_const U k X j (by omega) hr (1 : ℚ)
    unfold seg at hs
    rw [← hs]
    have := Finset.single_le_sum (f := fun n => Nl U k X j (k - j + n) • (1 : ℚ)) (fun i _ => by simpa using hnn _)
      (Finset.mem_range.mpr (show r < j + 1 by omega))
    simpa using this
  · exact ⟨le_rfl, zero_le_one⟩

theorem tri_step (H : TriData knots k p U X) {j : ℕ} (hj : j + 1 ≤ p) (V : ℕ → ℚ)
    (hV : ∀ r, lvG knots k (Double.fin X) j r = Double.fin (V r) ∧ NearE (6 * j) (absErr j) (V r) (lev U k X j r)) {r : ℕ} (hr : r < j + 1) :
    ∃ s t : ℚ, savG knots k (Double.fin X) (lvG knots k (Double.fin X) j) (j + 1) (r + 1) = Double.fin s ∧
      (kn knots (k + (r + 1)) - Double.fin X) * (lvG knots k (Double.fin X) j r / denG knots k (Double.fin X) (j + 1) r) = Double.fin t ∧
      s ≤ 2 ^ 1005 ∧ t ≤ 2 ^ 1005 ∧
      NearE (6 * j + 5) (4 * absErr j + 3 * eta64) s (sav U k X (j + 1) (r + 1)) ∧
      NearE (6 * j + 5) (4 * absErr j + 3 * eta64) t ((U (k + r + 1) - X) * (lev U k X j r / (U (k + r + 1) - U (k + 1 - (j + 1) + r)))) := by
  have hp := H.hp
  have hp29 := H.p29
  obtain ⟨R, L, D, eR, eL, eD, nR, nL, nD, hRD, hLD, hR1, hL1, hD, hpos⟩ := tri_den H hj hr
  have hDpos : 0 < D := lt_of_lt_of_le (by positivity) hD
  obtain ⟨eV, nV⟩ := hV r
  have hE := absErr_nonneg j
  have hE2 := absErr_le (j := j) (by omega)
  have hη := eta_pos
  have hV2 : V r ≤ 2 := by
    have h1 := nV.le (by omega)
    have h2 := (lev_le_one H (j := j) (by omega) r).2
    have h3 : (1 : ℚ) / 2 ^ 959 ≤ 1 / 2 := by
      apply one_div_le_one_div_of_le (by norm_num); norm_num
    linarith
  have hq : V r / D ≤ 2 ^ 1002 := by
    rw [div_le_iff₀ hDpos]
    have : (2 : ℚ) ^ 1002 * (1 / 2 ^ 1001) ≤ 2 ^ 1002 * D := mul_le_mul_of_nonneg_left hD (by positivity)
    have h2 : (2 : ℚ) ^ 1002 * (1 / 2 ^ 1001) = 2 := by norm_num
    linarith
  have hq0 : 0 ≤ V r / D := div_nonneg nV.left hDpos.le
  have nq : NearE (6 * j + 2) (absErr j / D) (V r / D) (lev U k X j r / (U (k + r + 1) - U (k + 1 - (j + 1) + r))) := by
    have := nV.mul_near (nD.inv q64_pos hpos)
    rwa [← div_eq_mul_inv, ← div_eq_mul_inv, ← div_eq_mul_inv] at this
  have nT := nq.round
  have eT : lvG knots k (Double.fin X) j r / denG knots k (Double.fin X) (j + 1) r = Double.fin (round64 (V r / D)) := by
    rw [eV, eD, Double.fin_div, Double.ofExact_fin (small_range hq0 (hq.trans (pow_le_pow_right₀ (by norm_num) (by norm_num))))]
  have hT : round64 (V r / D) ≤ 2 ^ 1003 := by
    have h1 := round64_err (V r / D)
    rw [abs_of_nonneg hq0, abs_le] at h1
    have h2 : u64 * (V r / D) ≤ 1 / 2 * (V r / D) := mul_le_mul_of_nonneg_right (by unfold u64; norm_num) hq0
    have h3 : eta64 ≤ 1 := by unfold eta64; rw [div_le_one (by positivity)]; exact one_le_pow₀ (by norm_num)
    have h4 : (2 : ℚ) ^ 1002 * (3 / 2) + 1 ≤ 2 ^ 1003 := by norm_num
    linarith [h1.2]
  have main : ∀ C d0 : ℚ, Near q64 1 C d0 → C ≤ D → C ≤ 1 →
      Double.fin C * Double.fin (round64 (V r / D)) = Double.fin (round64 (C * round64 (V r / D))) ∧ round64 (C * round64 (V r / D)) ≤ 2 ^ 1005 ∧
      NearE (6 * j + 5) (4 * absErr j + 3 * eta64) (round64 (C * round64 (V r / D)))
        (d0 * (lev U k X j r / (U (k + r + 1) - U (k + 1 - (j + 1) + r)))) := by
    intro C d0 nC hCD hC1
    have hle : C * round64 (V r / D) ≤ 2 ^ 1003 := by
      calc C * round64 (V r / D) ≤ 1 * round64 (V r / D) := mul_le_mul_of_nonneg_right hC1 nT.left
        _ ≤ _ := by rw [one_mul]; exact hT
    have h0 : 0 ≤ C * round64 (V r / D) := mul_nonneg nC.1 nT.left
    refine ⟨?_, ?_, ?_⟩
    · rw [Double.fin_mul, Double.ofExact_fin (small_range h0 (hle.trans (pow_le_pow_right₀ (by norm_num) (by norm_num))))]
    · have h1 := round64_err (C * round64 (V r / D))
      rw [abs_of_nonneg h0, abs_le] at h1
      have h2 : u64 * (C * round64 (V r / D)) ≤ 1 / 2 * (C * round64 (V r / D)) := mul_le_mul_of_nonneg_right (by unfold u64; norm_num) h0
      have h3 : eta64 ≤ 1 := by unfold eta64; rw [div_le_one (by positivity)]; exact one_le_pow₀ (by norm_num)
      have h4 : (2 : ℚ) ^ 1003 * (3 / 2) + 1 ≤ 2 ^ 1005 := by norm_num
      linarith [h1.2]
    · have h := (nT.mul_near nC).round
      rw [mul_comm C, mul_comm d0]
      refine h.mono (by omega) ?_
      have h1 : absErr j / D * C ≤ absErr j := by
        rw [div_mul_eq_mul_div, div_le_iff₀ hDpos]
        exact mul_le_mul_of_nonneg_left hCD hE
      have h2 : eta64 * C ≤ eta64 := by nlinarith
      have h3 : (2 * (absErr j / D) + eta64) * C = 2 * (absErr j / D * C) + eta64 * C := by ring
      rw [h3]
      linarith
  obtain ⟨s1, s2, s3⟩ := main L _ nL hLD hL1
  obtain ⟨t1, t2, t3⟩ := main R _ nR hRD hR1
  refine ⟨_, _, ?_, ?_, s2, t2, ?_, t3⟩
  · show (Double.fin X - kn knots (k + 1 - (j + 1 - r))) * (lvG knots k (Double.fin X) j r / denG knots k (Double.fin X) (j + 1) r) = _
    rw [eL, eT, s1]
  · rw [eR, eT, t1]
  · rw [sav_succ U k X (j + 1) r (by omega)]
    exact s3

/-- All levels of the triangle are finite and close to the exact ones. -/
theorem tri_levels (H : TriData knots k p U X) : ∀ j ≤ p, ∃ V : ℕ → ℚ, ∀ r, lvG knots k (Double.fin X) j r = Double.fin (V r) ∧
    NearE (6 * j) (absErr j) (V r) (lev U k X j r) := by
  intro j
  induction j with
  | zero =>
    intro _
    refine ⟨fun r => if r = 0 then 1 else 0, fun r => ?_⟩
    have e0 : absErr 0 = 0 := by simp [absErr]
    rw [e0]
    unfold lvG lev
    simp only [Nl, Nat.sub_zero]
    by_cases h : r = 0
    · subst h
      rw [if_pos rfl, if_pos le_rfl, if_pos (add_zero k)]
      exact ⟨rfl, NearE.of_near (Near.refl q64_pos zero_le_one)⟩
    · rw [if_neg h, if_neg (by omega)]
      rw [if_neg (show ¬ r ≤ 0 by omega)]
      exact ⟨rfl, NearE.of_near (Near.refl q64_pos le_rfl)⟩
  | succ j ih =>
    intro hj
    obtain ⟨V, hV⟩ := ih (by omega)
    have hp := H.hp
    have hη := eta_pos
    have hE := absErr_nonneg j
    have hE1 : 16 * absErr j + 13 * eta64 ≤ absErr (j + 1) := by
      unfold absErr; rw [pow_succ]; nlinarith
    have hsav : ∀ r, r ≤ j + 1 → ∃ s, savG knots k (Double.fin X) (lvG knots k (Double.fin X) j) (j + 1) r = Double.fin s ∧ s ≤ 2 ^ 1005 ∧
        NearE (6 * j + 5) (4 * absErr j + 3 * eta64) s (sav U k X (j + 1) r) := by
      intro r hr
      rcases r with _ | r
      · refine ⟨0, rfl, by positivity, ?_⟩
        rw [show sav U k X (j + 1) 0 = 0 by simp [sav]]
        exact (NearE.of_near (Near.refl q64_pos le_rfl)).mono (by omega) (by linarith)
      · obtain ⟨s, _, h1, _, h2, _, h3, _⟩ := tri_step H hj V hV (show r < j + 1 by omega)
        exact ⟨s, h1, h2, h3⟩
    have key : ∀ r, ∃ v, lvG knots k (Double.fin X) (j + 1) r = Double.fin v ∧ NearE (6 * (j + 1)) (absErr (j + 1)) v (lev U k X (j + 1) r) := by
      intro r
      rcases lt_trichotomy r (j + 1) with h | h | h
      · obtain ⟨s, s1, s2, s3⟩ := hsav r h.le
        obtain ⟨_, t, _, t1, _, t2, _, t3⟩ := tri_step H hj V hV h
        refine ⟨round64 (s + t), ?_, ?_⟩
        · show nextG knots k (Double.fin X) (lvG knots k (Double.fin X) j) (j + 1) r = _
          unfold nextG
          rw [if_pos h, s1, t1, Double.fin_add, Double.ofExact_fin (small_range (add_nonneg s3.left t3.left) (by
            have : (2 : ℚ) ^ 1005 + 2 ^ 1005 ≤ 2 ^ 1010 := by norm_num
            linarith))]
        · have h2 := (s3.add t3).round
          rw [lev_rec U k X (j + 1) r (by omega) (by omega) h]
          exact h2.mono (by omega) (by linarith)
      · subst h
        obtain ⟨s, s1, s2, s3⟩ := hsav (j + 1) le_rfl
        refine ⟨s, ?_, ?_⟩
        · show nextG knots k (Double.fin X) (lvG knots k (Double.fin X) j) (j + 1) (j + 1) = _
          unfold nextG
          rw [if_neg (lt_irrefl _), if_pos rfl, s1]
        · rw [lev_last U k X (j + 1) (by omega) (by omega)]
          exact s3.mono (by omega) (by linarith)
      · refine ⟨0, lvG_gt _ _ h, ?_⟩
        have : lev U k X (j + 1) r = 0 := by unfold lev; rw [if_neg (by omega)]
        rw [this]
        exact (NearE.of_near (Near.refl q64_pos le_rfl)).mono (by omega) (absErr_nonneg _)
    choose W hW using key
    exact ⟨W, hW⟩

end Nurbs
