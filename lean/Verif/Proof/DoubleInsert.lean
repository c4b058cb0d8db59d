import Verif.Proof.DoubleCurve
import Verif.Proof.RoundedInsert

/-! # Knot insertion in `double` with its finite range -/

set_option linter.unusedSectionVars false
set_option exponentiation.threshold 2000

namespace Nurbs
open Nurbs.Spec

variable {m n : ℕ} {e f a b c d B C : ℚ}

/-! ### more error calculus -/

theorem u64_nonneg : 0 ≤ u64 := by unfold u64; positivity

theorem qinv_succ (m : ℕ) : (q64 ^ m)⁻¹ * (1 + u64) ≤ (q64 ^ (m + 1))⁻¹ := by
  have hu := u64_nonneg
  rw [pow_succ, mul_inv]
  refine mul_le_mul_of_nonneg_left ?_ (inv_nonneg.mpr (pow_pos q64_pos m).le)
  rw [le_inv_comm₀ (by linarith) q64_pos, q64_def, ← one_div, le_div_iff₀ (by linarith)]
  nlinarith

/-- One more relative error, and the absolute error `f`. -/
theorem CloseE.rel {a' : ℚ} (h : CloseE m e a b B) (hf : 0 ≤ f) (ha : |a' - a| ≤ u64 * |a| + f) :
    CloseE (m + 1) (2 * e + f) a' b B := by
  have hu := u64_nonneg
  have hu1 : u64 ≤ 1 := by unfold u64; norm_num
  have h2 := mul_le_mul_of_nonneg_left h.abs_le' hu
  have he := h.err
  refine ⟨by linarith, h.bound, ?_⟩
  have h3 := abs_add_le (a' - a) (a - b)
  rw [sub_add_sub_cancel] at h3
  have h6 := mul_le_mul_of_nonneg_right (qinv_succ m) h.bnn
  have h7 := h.dist
  nlinarith

/-- An absolute error that is small against the bound is one more relative rounding. -/
theorem CloseE.absorb (h : CloseE m e a b B) (hf : 0 ≤ f) (he : e ≤ u64 * B + f) : CloseE (m + 1) f a b B := by
  refine ⟨hf, h.bound, h.dist.trans ?_⟩
  have h1 := mul_le_mul_of_nonneg_right (qinv_succ m) h.bnn
  have h2 := mul_le_mul_of_nonneg_right (qinv_one m) (mul_nonneg u64_nonneg h.bnn)
  nlinarith

theorem CloseE.widen (h : CloseE m e a b B) (hB : B ≤ C) : CloseE m e a b C :=
  ⟨h.err, h.bound.trans hB, h.dist.trans (by
    have := mul_le_mul_of_nonneg_left hB (show 0 ≤ (q64 ^ m)⁻¹ - 1 by linarith [qinv_one m])
    linarith)⟩

theorem CloseE.mul (hm : m ≤ 2000) (hn : n ≤ 2000) (h : CloseE m e a b B) (h' : CloseE n f c d C) :
    CloseE (m + n) (e * (2 * C + f) + 2 * B * f) (a * c) (b * d) (B * C) := by
  have hB := h.bnn
  have hC := h'.bnn
  have he := h.err
  have hf := h'.err
  refine ⟨by positivity, ?_, ?_⟩
  · rw [abs_mul]; exact mul_le_mul h.bound h'.bound (abs_nonneg _) hB
  · have h1 : a * c - b * d = (a - b) * c + b * (c - d) := by ring
    have h2 := abs_add_le ((a - b) * c) (b * (c - d))
    rw [← h1, abs_mul, abs_mul] at h2
    have h3 := mul_le_mul h.dist h'.abs_le' (abs_nonneg c) ((abs_nonneg _).trans h.dist)
    have h4 := mul_le_mul h.bound h'.dist (abs_nonneg _) hB
    have hqm := qinv_one m
    have hqn := qinv_one n
    have hqm2 := qinv_le hm
    have hqn2 := qinv_le hn
    rw [pow_add, mul_inv]
    generalize (q64 ^ m)⁻¹ = s at *
    generalize (q64 ^ n)⁻¹ = t at *
    have h5 : ((s - 1) * B + e) * (t * C + f) + B * ((t - 1) * C + f) = (s * t - 1) * (B * C) + (s * (B * f) + e * (t * C + f)) := by ring
    have h6 : s * (B * f) ≤ 2 * (B * f) := mul_le_mul_of_nonneg_right (by linarith) (mul_nonneg hB hf)
    have h7 : e * (t * C + f) ≤ e * (2 * C + f) := mul_le_mul_of_nonneg_left (by nlinarith) he
    linarith

/-! ### the fraction -/

/-- What is known about the computed fraction `A` and its complement `A'`. -/
structure Frac (x lo hi A A' : ℚ) : Prop where
  den : Double.fin hi - Double.fin lo ≠ 0
  eq : (Double.fin x - Double.fin lo) / (Double.fin hi - Double.fin lo) = Double.fin A
  eq' : 1 - Double.fin A = Double.fin A'
  nonneg : 0 ≤ A
  le : A ≤ 1
  close : CloseE 3 eta64 A ((x - lo) / (hi - lo)) 1
  close' : CloseE 4 (3 * eta64) A' (1 - (x - lo) / (hi - lo)) 1
  near' : Near q64 1 A' (1 - A)

theorem frac_double {x lo hi : ℚ} (gx : OnGrid x) (gl : OnGrid lo) (gh : OnGrid hi) (h0 : 0 ≤ lo) (h1 : lo ≤ x) (h2 : x < hi) (h3 : hi ≤ 1) :
    ∃ A A', Frac x lo hi A A' := by
  have big : (1 : ℚ) ≤ 2 ^ 1010 := one_le_pow₀ (by norm_num)
  have hη := eta_pos
  have n1 := round64_near (gx.sub gl) (sub_nonneg.mpr h1)
  have n2 := round64_near (gh.sub gl) (show 0 ≤ hi - lo by linarith)
  have hpos : 0 < round64 (hi - lo) := n2.pos q64_pos (by linarith)
  have hle : round64 (x - lo) ≤ round64 (hi - lo) := round64_mono (by linarith)
  have e1 : Double.fin x - Double.fin lo = Double.fin (round64 (x - lo)) := by
    rw [Double.fin_sub, Double.ofExact_fin (small_range (by linarith) (le_trans (by linarith) big))]
  have e2 : Double.fin hi - Double.fin lo = Double.fin (round64 (hi - lo)) := by
    rw [Double.fin_sub, Double.ofExact_fin (small_range (by linarith) (le_trans (by linarith) big))]
  have q0 : 0 ≤ round64 (x - lo) / round64 (hi - lo) := div_nonneg n1.1 hpos.le
  have q1 : round64 (x - lo) / round64 (hi - lo) ≤ 1 := (div_le_one hpos).mpr hle
  have nd : Near q64 2 (round64 (x - lo) / round64 (hi - lo)) ((x - lo) / (hi - lo)) := by
    have := n1.mul q64_pos (n2.inv q64_pos (by linarith))
    rwa [← div_eq_mul_inv, ← div_eq_mul_inv] at this
  have nA : NearE 3 eta64 (round64 (round64 (x - lo) / round64 (hi - lo))) ((x - lo) / (hi - lo)) :=
    (NearE.of_near nd).round.mono le_rfl (by linarith)
  have f1 : (x - lo) / (hi - lo) ≤ 1 := (div_le_one (by linarith)).mpr (by linarith)
  have f0 : 0 ≤ (x - lo) / (hi - lo) := nA.right
  have A0 := round64_nonneg q0
  have A1 : round64 (round64 (x - lo) / round64 (hi - lo)) ≤ 1 := by have := round64_mono q1; rwa [round64_one] at this
  have gA := onGrid_round (round64 (x - lo) / round64 (hi - lo))
  have cA : CloseE 3 eta64 (round64 (round64 (x - lo) / round64 (hi - lo))) ((x - lo) / (hi - lo)) 1 := by
    refine ⟨hη.le, by rw [abs_of_nonneg f0]; exact f1, nA.dist.trans ?_⟩
    have := mul_le_mul_of_nonneg_left f1 (show 0 ≤ (q64 ^ 3)⁻¹ - 1 by linarith [qinv_one 3])
    linarith
  generalize hA : round64 (round64 (x - lo) / round64 (hi - lo)) = A at *
  have g1 : OnGrid 1 := by have := onGrid_round 1; rwa [round64_one] at this
  refine ⟨A, round64 (1 - A), ?_, ?_, ?_, A0, A1, cA, ?_, round64_near (g1.sub gA) (by linarith)⟩
  · rw [e2, Double.zero_def]
    exact fun h => hpos.ne' (Double.fin_inj.mp h)
  · rw [e1, e2, Double.fin_div, Double.ofExact_fin (small_range q0 (q1.trans big)), hA]
  · rw [Double.one_def, Double.fin_sub, Double.ofExact_fin (small_range (by linarith) (le_trans (by linarith) big))]
  · have : CloseE 3 eta64 (1 - A) (1 - (x - lo) / (hi - lo)) 1 := by
      refine ⟨hη.le, by rw [abs_of_nonneg (by linarith)]; linarith, ?_⟩
      rw [show 1 - A - (1 - (x - lo) / (hi - lo)) = -(A - (x - lo) / (hi - lo)) by ring, abs_neg]
      exact cA.dist
    exact this.round.mono le_rfl (by linarith)

/-- The computed combination of two numbers with absolute errors. -/
theorem comb_double {x lo hi A A' s t r r' H : ℚ} (F : Frac x lo hi A A') (hs : CloseE 1 eta64 s r H) (ht : CloseE 1 eta64 t r' H)
    (hH : H ≤ 2 ^ 500) :
    ∃ Z, Double.fin A * Double.fin s + Double.fin A' * Double.fin t = Double.fin Z ∧
      Z = round64 (round64 (A * s) + round64 (A' * t)) ∧ |Z| ≤ 2 ^ 510 ∧
      CloseE 8 (41 * eta64) Z ((x - lo) / (hi - lo) * r + (1 - (x - lo) / (hi - lo)) * r') (2 * H) := by
  have hη := eta_pos
  have hη1 := eta_le_one
  have hηη : eta64 * eta64 ≤ eta64 := by nlinarith
  have hH0 := hs.bnn
  have hHη : H * eta64 ≤ 1 := by
    calc H * eta64 ≤ 2 ^ 500 * eta64 := mul_le_mul_of_nonneg_right hH hη.le
      _ ≤ 1 := by unfold eta64; norm_num
  have p1 := CloseE.mul (by norm_num) (by norm_num) F.close hs
  have p2 := CloseE.mul (by norm_num) (by norm_num) F.close' ht
  rw [one_mul] at p1 p2
  have big : (2 : ℚ) ^ 500 * 2 + 2 * 20 ≤ 2 ^ 510 := by norm_num
  have b1 : eta64 * (2 * H + eta64) + 2 * 1 * eta64 ≤ 2 * (H * eta64) + 3 * eta64 := by linarith
  have b2 : 3 * eta64 * (2 * H + eta64) + 2 * 1 * eta64 ≤ 6 * (H * eta64) + 5 * eta64 := by linarith
  have r1 : |A * s| ≤ 2 ^ 510 := (p1.abs_le (by norm_num)).trans (by linarith)
  have r2 : |A' * t| ≤ 2 ^ 510 := (p2.abs_le (by norm_num)).trans (by linarith)
  have q1 : CloseE 6 (4 * (H * eta64) + 7 * eta64) (round64 (A * s)) ((x - lo) / (hi - lo) * r) H := p1.round.mono (by norm_num) (by linarith)
  have q2 : CloseE 6 (12 * (H * eta64) + 11 * eta64) (round64 (A' * t)) ((1 - (x - lo) / (hi - lo)) * r') H :=
    p2.round.mono (by norm_num) (by linarith)
  have q3 := q1.add q2
  have r3 : |round64 (A * s) + round64 (A' * t)| ≤ 2 ^ 505 := (q3.abs_le (by norm_num)).trans (by
    have : (2 : ℚ) ^ 500 * 3 + 40 ≤ 2 ^ 505 := by norm_num
    linarith)
  have lift : ∀ y : ℚ, |y| ≤ 2 ^ 510 → |y| ≤ 2 ^ 1023 := fun y hy => hy.trans (pow_le_pow_right₀ (by norm_num) (by norm_num))
  have q4 := q3.round
  refine ⟨_, ?_, rfl, ?_, ?_⟩
  · rw [Double.fin_mul, Double.fin_mul, Double.ofExact_fin (lift _ r1), Double.ofExact_fin (lift _ r2), Double.fin_add,
      Double.ofExact_fin (lift _ (r3.trans (pow_le_pow_right₀ (by norm_num) (by norm_num))))]
  · refine (q4.abs_le (by norm_num)).trans ?_
    have : (2 : ℚ) ^ 500 * 3 + 80 ≤ 2 ^ 510 := by norm_num
    linarith
  · have h40 : 32 * (H * eta64) ≤ u64 * (2 * H) := by
      rw [show 32 * (H * eta64) = (16 * eta64) * (2 * H) by ring]
      exact mul_le_mul_of_nonneg_right (by unfold eta64 u64; norm_num) (by linarith)
    have := q4.absorb (f := 41 * eta64) (by linarith) (by rw [← two_mul]; linarith)
    rwa [← two_mul] at this

/-! ### one new control point -/

/-- Two old weights and the computed new one. -/
structure NewWeight (x lo hi A A' wl wh w1 w2 W : ℚ) : Prop where
  frac : Frac x lo hi A A'
  lowest : 1 / 2 ^ 100 ≤ wl
  highest : wh ≤ 2 ^ 100
  lo1 : wl ≤ w1
  hi1 : w1 ≤ wh
  lo2 : wl ≤ w2
  hi2 : w2 ≤ wh
  eq : Double.fin A * Double.fin w1 + Double.fin A' * Double.fin w2 = Double.fin W
  range : |W| ≤ 2 ^ 510
  round : round64 W = W
  near : NearE 3 (5 * eta64) W (A * w1 + (1 - A) * w2)
  mid : wl ≤ A * w1 + (1 - A) * w2 ∧ A * w1 + (1 - A) * w2 ≤ wh
  close : CloseE 9 0 W ((x - lo) / (hi - lo) * w1 + (1 - (x - lo) / (hi - lo)) * w2) (2 * wh)

theorem weight_double {x lo hi A A' wl wh w1 w2 : ℚ} (F : Frac x lo hi A A') (hl : 1 / 2 ^ 100 ≤ wl) (hh : wh ≤ 2 ^ 100)
    (h1 : wl ≤ w1 ∧ w1 ≤ wh) (h2 : wl ≤ w2 ∧ w2 ≤ wh) : ∃ W, NewWeight x lo hi A A' wl wh w1 w2 W := by
  have hη := eta_pos
  have h0 : (0 : ℚ) < 1 / 2 ^ 100 := by positivity
  have hA0 := F.nonneg
  have hA1 := F.le
  have cl : ∀ w, wl ≤ w ∧ w ≤ wh → CloseE 1 eta64 w w wh := fun w hw =>
    (CloseE.refl (by rw [abs_of_nonneg (by linarith)]; exact hw.2)).mono (by norm_num) hη.le
  obtain ⟨W, e1, e2, e3, e4⟩ := comb_double F (cl _ h1) (cl _ h2) (hh.trans (pow_le_pow_right₀ (by norm_num) (by norm_num)))
  have n3 : NearE 2 (2 * eta64) (round64 (A * w1) + round64 (A' * w2)) (A * w1 + (1 - A) * w2) := by
    have a1 := (NearE.of_near (Near.refl q64_pos (mul_nonneg hA0 (show 0 ≤ w1 by linarith)))).round
    have a2 := (NearE.of_near (F.near'.mul q64_pos (Near.refl q64_pos (show 0 ≤ w2 by linarith)))).round
    have := (a1.mono (show 0 + 1 ≤ 2 by norm_num) le_rfl).add (a2.mono (show 1 + 0 + 1 ≤ 2 by norm_num) le_rfl)
    exact this.mono le_rfl (by linarith)
  have n4 := n3.round
  rw [← e2] at n4
  refine ⟨W, F, hl, hh, h1.1, h1.2, h2.1, h2.2, e1, e3, by rw [e2, round64_idem], n4.mono (by norm_num) (by linarith),
    ⟨by nlinarith, by nlinarith⟩, ?_⟩
  refine e4.absorb le_rfl ?_
  have : 41 * eta64 ≤ u64 * (2 * (1 / 2 ^ 100)) := by unfold eta64 u64; norm_num
  have := mul_le_mul_of_nonneg_left (show 2 * (1 / 2 ^ 100) ≤ 2 * wh by linarith) u64_nonneg
  linarith

section
variable {x lo hi A A' wl wh w1 w2 W : ℚ} (H : NewWeight x lo hi A A' wl wh w1 w2 W)
include H

theorem NewWeight.near4 : Near q64 4 W (A * w1 + (1 - A) * w2) :=
  near_weight (by norm_num) H.near (H.lowest.trans H.mid.1) (by unfold eta64; norm_num)

theorem NewWeight.bounds : q64 ^ 4 * wl ≤ W ∧ W ≤ (q64 ^ 4)⁻¹ * wh ∧ 0 < W := by
  have n := H.near4
  have hq := pow_pos q64_pos 4
  have h0 : (0 : ℚ) < 1 / 2 ^ 100 := by positivity
  have hl := H.lowest
  have h1 : q64 ^ 4 * wl ≤ W := (mul_le_mul_of_nonneg_left H.mid.1 hq.le).trans n.2.2.1
  refine ⟨h1, ?_, lt_of_lt_of_le (mul_pos hq (by linarith)) h1⟩
  rw [inv_mul_eq_div, le_div_iff₀ hq, mul_comm]
  exact n.2.2.2.trans H.mid.2

/-- One coordinate of the new control point. -/
theorem NewWeight.coord {B r1 r2 : ℚ} (hB : B ≤ 2 ^ 400) (h1 : |r1| ≤ B) (h2 : |r2| ≤ B) :
    ∃ Z, Double.fin A * Double.fin (round64 (r1 * w1)) + Double.fin A' * Double.fin (round64 (r2 * w2)) = Double.fin Z ∧
      Double.fin Z / Double.fin W = Double.fin (round64 (Z / W)) ∧ |Z / W| ≤ 2 ^ 1010 ∧
      |round64 (Z / W)| ≤ (q64 ^ 10)⁻¹ * B + 1 / 2 ^ 729 ∧
      CloseE 9 (1 / 2 ^ 973) (W * round64 (Z / W)) ((x - lo) / (hi - lo) * (r1 * w1) + (1 - (x - lo) / (hi - lo)) * (r2 * w2)) (2 * (wh * B)) := by
  have hη := eta_pos
  have hB0 : 0 ≤ B := (abs_nonneg _).trans h1
  have hl := H.lowest
  have hh := H.highest
  have h0 : (0 : ℚ) < 1 / 2 ^ 100 := by positivity
  have w10 : 0 ≤ w1 := by linarith [H.lo1]
  have w20 : 0 ≤ w2 := by linarith [H.lo2]
  have wh0 : 0 ≤ wh := by linarith [H.hi2]
  obtain ⟨b1, b2, Wp⟩ := H.bounds
  have cl : ∀ r w : ℚ, |r| ≤ B → 0 ≤ w → CloseE 1 eta64 (round64 (r * w)) (r * w) (B * w) := by
    intro r w hr hw
    have : |r * w| ≤ B * w := by rw [abs_mul, abs_of_nonneg hw]; exact mul_le_mul_of_nonneg_right hr hw
    exact (CloseE.refl this).round.mono le_rfl (by linarith)
  have c1 := cl r1 w1 h1 w10
  have c2 := cl r2 w2 h2 w20
  have k1 : B * w1 ≤ wh * B := by rw [mul_comm]; exact mul_le_mul_of_nonneg_right H.hi1 hB0
  have k2 : B * w2 ≤ wh * B := by rw [mul_comm]; exact mul_le_mul_of_nonneg_right H.hi2 hB0
  have kH : wh * B ≤ 2 ^ 500 := by
    calc wh * B ≤ 2 ^ 100 * 2 ^ 400 := mul_le_mul hh hB hB0 (by positivity)
      _ = 2 ^ 500 := by norm_num
  obtain ⟨Z, e1, e2, e3, e4⟩ := comb_double H.frac (c1.widen k1) (c2.widen k2) kH
  -- against the combination with the computed fraction
  have d1 : CloseE 3 (5 * eta64) (round64 (A * round64 (r1 * w1))) (A * (r1 * w1)) (A * (B * w1)) := by
    have := ((NearE.of_near (Near.refl q64_pos H.frac.nonneg)).mul_close H.frac.le (by norm_num) (by norm_num) c1).round
    exact this.mono (by norm_num) (by rw [zero_mul, add_zero]; linarith)
  have d2 : CloseE 3 (5 * eta64) (round64 (A' * round64 (r2 * w2))) ((1 - A) * (r2 * w2)) ((1 - A) * (B * w2)) := by
    have := ((NearE.of_near H.frac.near').mul_close (by linarith [H.frac.nonneg]) (by norm_num) (by norm_num) c2).round
    exact this.mono (by norm_num) (by rw [zero_mul, add_zero]; linarith)
  have d3 := (d1.add d2).round
  rw [← e2, show A * (B * w1) + (1 - A) * (B * w2) = B * (A * w1 + (1 - A) * w2) by ring] at d3
  obtain ⟨f1, f2, f3, f4⟩ := coord_div (by norm_num) (by norm_num) d3 H.near (hl.trans H.mid.1) hB0 hB (by
    refine le_trans ?_ (div_le_div_of_nonneg_right (show (1 : ℚ) ≤ B * 2 ^ 100 + 1 by linarith [mul_nonneg hB0 (show (0 : ℚ) ≤ 2 ^ 100 by positivity)]) (by positivity))
    unfold eta64; norm_num) (by unfold eta64; norm_num)
  refine ⟨Z, e1, f2, f3, ?_, ?_⟩
  · have hw0 : 0 < A * w1 + (1 - A) * w2 := by linarith [H.mid.1]
    have g : |(A * (r1 * w1) + (1 - A) * (r2 * w2)) / (A * w1 + (1 - A) * w2)| ≤ B := by
      rw [abs_div, abs_of_pos hw0, div_le_iff₀ hw0]
      exact d3.bound
    have h3 := abs_add_le (round64 (Z / W) - (A * (r1 * w1) + (1 - A) * (r2 * w2)) / (A * w1 + (1 - A) * w2))
      ((A * (r1 * w1) + (1 - A) * (r2 * w2)) / (A * w1 + (1 - A) * w2))
    rw [sub_add_cancel] at h3
    norm_num at f4
    linarith
  · have hr : |W * round64 (Z / W) - Z| ≤ u64 * |Z| + eta64 * W := by
      have := mul_le_mul_of_nonneg_left (round64_err (Z / W)) Wp.le
      rw [abs_div, abs_of_pos Wp] at this
      rw [show W * round64 (Z / W) - Z = W * (round64 (Z / W) - Z / W) by field_simp, abs_mul, abs_of_pos Wp]
      refine this.trans (le_of_eq ?_)
      field_simp
    refine (e4.rel (mul_nonneg hη.le Wp.le) hr).mono le_rfl ?_
    have hW2 : W ≤ 3 / 2 * 2 ^ 100 := b2.trans (mul_le_mul (qinv_le (by norm_num)) hh wh0 (by norm_num))
    have := mul_le_mul_of_nonneg_left hW2 hη.le
    refine (add_le_add_right this _).trans ?_
    unfold eta64; norm_num

end

/-! ### the whole curve -/

/-- One of the three coordinates. -/
def IsCoord (f : Vec4 ℚ → ℚ) : Prop := f = (·.x) ∨ f = (·.y) ∨ f = (·.z)

theorem exactPoint64_finV (R : Vec4 ℚ) : exactPoint64 (finV R) = R := rfl

theorem exactPoint64_pt (l : List (Vec4 Double)) (i : ℕ) : exactPoint64 (pt l i) = pt (l.map exactPoint64) i := by
  unfold pt
  rw [List.getD_eq_getElem?_getD, List.getD_eq_getElem?_getD, List.getElem?_map]
  cases l[i]? with
  | none => rfl
  | some a => simp

theorem val_insL (l : List Double) (k : ℕ) (v : Double) : (insL l k v).map Double.val = insL (l.map Double.val) k v.val := by
  simp [insL, List.map_take, List.map_drop]

/-- All four entries are finite. -/
def FinPoint (P : Vec4 Double) : Prop := IsFin P.x ∧ IsFin P.y ∧ IsFin P.z ∧ IsFin P.w

/-- What is known about the curve and the knot. -/
structure InsData (p k : ℕ) (c : Curve Double) (X wl wh B : ℚ) : Prop where
  finite : FinCurve c
  wf : WFCurve p (exactCurve64 c)
  span : IsSpan (c.Knots.Values.map Double.val) X k
  grid : OnGrid X
  pos : 0 < X
  lt : X < 1
  bounds : CurveBounds (exactCurve64 c) wl wh B
  lowest : 1 / 2 ^ 100 ≤ wl
  highest : wh ≤ 2 ^ 100
  size : B ≤ 2 ^ 400

section curve
variable {p k : ℕ} {c : Curve Double} {X wl wh B : ℚ} (D : InsData p k c X wl wh B)
include D

theorem insD_bounds : p ≤ k ∧ k + p + 2 ≤ c.Knots.Values.length ∧ k < c.ControlPoints.length := by
  have := ins_bounds D.wf D.span D.pos D.lt
  have hlen : (exactCurve64 c).Knots.Values.length = c.Knots.Values.length := List.length_map _
  have hlen2 : (exactCurve64 c).ControlPoints.length = c.ControlPoints.length := List.length_map _
  rwa [hlen, hlen2] at this

theorem insD_window {i : ℕ} (hi1 : k < i + p) (hi2 : i ≤ k) :
    0 ≤ kn (c.Knots.Values.map Double.val) i ∧ kn (c.Knots.Values.map Double.val) i ≤ X ∧
      X < kn (c.Knots.Values.map Double.val) (i + p) ∧ kn (c.Knots.Values.map Double.val) (i + p) ≤ 1 := by
  obtain ⟨hpk, hlk, hkn⟩ := insD_bounds D
  have hc : Clamped p (c.Knots.Values.map Double.val) := D.wf.clamped
  have hlen : (c.Knots.Values.map Double.val).length = c.Knots.Values.length := List.length_map _
  have a1 := kn_mono hc.sorted hi2 (by omega)
  have a2 := kn_mono hc.sorted (show k + 1 ≤ i + p by omega) (by omega)
  have hkv : X < kn (c.Knots.Values.map Double.val) (k + 1) := by
    rcases D.span.2.2 with h | h
    · exact h
    · exact absurd h.1 D.lt.ne
  exact ⟨hc.nonneg (by omega), a1.trans D.span.2.1, hkv.trans_le a2, hc.le_one (by omega)⟩

theorem insD_old {i : ℕ} (hi : i < c.ControlPoints.length) : FinPoint (pt c.ControlPoints i) ∧
    pt c.ControlPoints i = finV (exactPoint64 (pt c.ControlPoints i)) ∧
    wl ≤ (exactPoint64 (pt c.ControlPoints i)).w ∧ (exactPoint64 (pt c.ControlPoints i)).w ≤ wh ∧
    ∀ f, IsCoord f → |f (exactPoint64 (pt c.ControlPoints i))| ≤ B := by
  have hlen2 : (exactCurve64 c).ControlPoints.length = c.ControlPoints.length := List.length_map _
  have hf : FinPoint (pt c.ControlPoints i) := by
    have : pt c.ControlPoints i = c.ControlPoints[i] := by simp [pt, hi]
    rw [this]
    exact D.finite.points _ (List.getElem_mem hi)
  have hb := D.bounds i (by omega)
  change wl ≤ (pt (c.ControlPoints.map exactPoint64) i).w ∧ (pt (c.ControlPoints.map exactPoint64) i).w ≤ _ ∧
      |(pt (c.ControlPoints.map exactPoint64) i).x| ≤ _ ∧ |(pt (c.ControlPoints.map exactPoint64) i).y| ≤ _ ∧
      |(pt (c.ControlPoints.map exactPoint64) i).z| ≤ _ at hb
  rw [← exactPoint64_pt] at hb
  refine ⟨hf, (finV_exact hf).symm, hb.1, hb.2.1, ?_⟩
  rintro f (rfl | rfl | rfl)
  · exact hb.2.2.1
  · exact hb.2.2.2.1
  · exact hb.2.2.2.2

/-- The new control points. -/
theorem insD_new {i : ℕ} (hi1 : k < i + p) (hi2 : i ≤ k) :
    kn c.Knots.Values (i + p) - kn c.Knots.Values i ≠ 0 ∧
      (insH (kn c.Knots.Values) p (Double.fin X) (pt c.ControlPoints) i).w ≠ 0 ∧
      ∃ R, unhomo (insH (kn c.Knots.Values) p (Double.fin X) (pt c.ControlPoints) i) = finV R ∧ FinPoint (finV R) ∧
        q64 ^ 4 * wl ≤ R.w ∧ R.w ≤ (q64 ^ 4)⁻¹ * wh ∧
        let α := (X - kn (c.Knots.Values.map Double.val) i) / (kn (c.Knots.Values.map Double.val) (i + p) - kn (c.Knots.Values.map Double.val) i)
        let P := exactPoint64 (pt c.ControlPoints i)
        let Q := exactPoint64 (pt c.ControlPoints (i - 1))
        CloseE 9 0 R.w (α * P.w + (1 - α) * Q.w) (2 * wh) ∧
        ∀ f, IsCoord f → |f R| ≤ (q64 ^ 10)⁻¹ * B + 1 / 2 ^ 729 ∧
          CloseE 9 (1 / 2 ^ 973) (R.w * f R) (α * (f P * P.w) + (1 - α) * (f Q * Q.w)) (2 * (wh * B)) := by
  obtain ⟨hpk, hlk, hkn⟩ := insD_bounds D
  obtain ⟨v0, v1, v2, v3⟩ := insD_window D hi1 hi2
  obtain ⟨e1, g1⟩ := kn_fin D.finite.knots i
  obtain ⟨e2, g2⟩ := kn_fin D.finite.knots (i + p)
  obtain ⟨_, P1, P2, P3, P4⟩ := insD_old D (show i < c.ControlPoints.length by omega)
  obtain ⟨_, Q1, Q2, Q3, Q4⟩ := insD_old D (show i - 1 < c.ControlPoints.length by omega)
  obtain ⟨A, A', F⟩ := frac_double D.grid g1 g2 v0 v1 v2 v3
  obtain ⟨W, H⟩ := weight_double F D.lowest D.highest ⟨P2, P3⟩ ⟨Q2, Q3⟩
  set P := exactPoint64 (pt c.ControlPoints i) with hP
  set Q := exactPoint64 (pt c.ControlPoints (i - 1)) with hQ
  have okP : PointOK B P := ⟨D.lowest.trans P2, P3.trans D.highest, P4 _ (.inl rfl), P4 _ (.inr (.inl rfl)), P4 _ (.inr (.inr rfl))⟩
  have okQ : PointOK B Q := ⟨D.lowest.trans Q2, Q3.trans D.highest, Q4 _ (.inl rfl), Q4 _ (.inr (.inl rfl)), Q4 _ (.inr (.inr rfl))⟩
  obtain ⟨Zx, x1, x2, x3, x4, x5⟩ := H.coord D.size okP.x okQ.x
  obtain ⟨Zy, y1, y2, y3, y4, y5⟩ := H.coord D.size okP.y okQ.y
  obtain ⟨Zz, z1, z2, z3, z4, z5⟩ := H.coord D.size okP.z okQ.z
  have hH : insH (kn c.Knots.Values) p (Double.fin X) (pt c.ControlPoints) i = finV ⟨Zx, Zy, Zz, W⟩ := by
    unfold insH
    rw [e1, e2, F.eq, F.eq', P1, Q1, toHomo_finV D.size okP, toHomo_finV D.size okQ]
    refine Vec4.ext ?_ ?_ ?_ ?_
    · exact x1
    · exact y1
    · exact z1
    · exact H.eq
  have hWne : Double.fin W ≠ 0 := fun h => H.bounds.2.2.ne' (Double.fin_inj.mp h)
  refine ⟨by rw [e1, e2]; exact F.den, by rw [hH]; exact hWne, ⟨round64 (Zx / W), round64 (Zy / W), round64 (Zz / W), W⟩, ?_, ?_, H.bounds.1,
    H.bounds.2.1, H.close, ?_⟩
  · rw [hH]
    refine Vec4.ext ?_ ?_ ?_ rfl
    · exact x2
    · exact y2
    · exact z2
  · refine ⟨Double.isFin_round (pow1010 x3), Double.isFin_round (pow1010 y3), Double.isFin_round (pow1010 z3), W, rfl, H.round, ?_⟩
    exact H.range.trans ((pow_le_pow_right₀ (by norm_num) (by norm_num)).trans pow_le_max)
  · rintro f (rfl | rfl | rfl)
    · exact ⟨x4, x5⟩
    · exact ⟨y4, y5⟩
    · exact ⟨z4, z5⟩

theorem insertKnot_double (hp : 1 ≤ p) : c.InsertKnot (Double.fin X) = .ok (insCurveC p k (Double.fin X) c) := by
  obtain ⟨hpk, hlk, hkn⟩ := insD_bounds D
  have hd : c.Degree = p := D.wf.degree
  exact insertKnot_gen hd (clamped_double D.finite.knots D.wf.clamped) (Double.fin_lt.mpr D.pos) (Double.fin_lt.mpr D.lt)
    ((isSpan_double D.finite.knots).mp D.span) hpk hlk hkn hp
    (fun i h1 h2 => ⟨(insD_new D h1 h2).1, (insD_new D h1 h2).2.1⟩)

theorem insertListStep_double : Curve.insertListStep (Double.fin X) c = .ok (insCurveC p k (Double.fin X) c) := by
  obtain ⟨hpk, hlk, hkn⟩ := insD_bounds D
  obtain ⟨k', hk', hs, _⟩ := findSpanIndex_spec (kv := c.Knots) (clamped_double D.finite.knots D.wf.clamped) (u := Double.fin X)
    (Double.fin_le.mpr D.pos.le) (Double.fin_le.mpr D.lt.le)
  obtain rfl : k = k' := isSpan_unique D.wf.clamped.sorted D.span ((isSpan_double D.finite.knots).mpr hs)
    (fun i hi => D.wf.clamped.le_one hi)
  have hd : c.Degree = p := D.wf.degree
  exact insertListStep_gen hd hk' hpk hlk hkn (fun i h1 h2 => ⟨(insD_new D h1 h2).1, (insD_new D h1 h2).2.1⟩)

theorem insD_pt {i : ℕ} (hi : i < c.ControlPoints.length + 1) : pt (exactCurve64 (insCurveC p k (Double.fin X) c)).ControlPoints i =
    exactPoint64 (if i + p ≤ k then pt c.ControlPoints i
      else if i ≤ k then unhomo (insH (kn c.Knots.Values) p (Double.fin X) (pt c.ControlPoints) i)
      else pt c.ControlPoints (i - 1)) := by
  change pt ((insCurveC p k (Double.fin X) c).ControlPoints.map exactPoint64) i = _
  rw [← exactPoint64_pt]
  unfold insCurveC
  simp only
  rw [pt_tab _ _ _ hi]

theorem insD_points_length : (exactCurve64 (insCurveC p k (Double.fin X) c)).ControlPoints.length = c.ControlPoints.length + 1 := by
  simp [exactCurve64, insCurveC]

theorem insD_knots : (exactCurve64 (insCurveC p k (Double.fin X) c)).Knots.Values = (insCurve p k X (exactCurve64 c)).Knots.Values :=
  val_insL _ _ _

theorem insD_weights : 0 < wl ∧ 0 < wh ∧ wl ≤ wh ∧ 0 ≤ B := by
  obtain ⟨_, _, hkn⟩ := insD_bounds D
  obtain ⟨_, _, h2, h3, h4⟩ := insD_old D hkn
  have h0 : (0 : ℚ) < 1 / 2 ^ 100 := by positivity
  have := D.lowest
  exact ⟨by linarith, by linarith, by linarith, (abs_nonneg _).trans (h4 _ (.inl rfl))⟩

/-- Weights and coordinates after the insertion. -/
theorem insD_range {B' : ℚ} (hB' : B ≤ B') (hB'' : (q64 ^ 10)⁻¹ * B + 1 / 2 ^ 729 ≤ B') :
    CurveBounds (exactCurve64 (insCurveC p k (Double.fin X) c)) (q64 ^ 4 * wl) ((q64 ^ 4)⁻¹ * wh) B' := by
  obtain ⟨hpk, hlk, hkn⟩ := insD_bounds D
  obtain ⟨l0, h0, _, _⟩ := insD_weights D
  intro i hin
  rw [insD_points_length D] at hin
  rw [insD_pt D hin]
  have g4 := qinv_one 4
  have l4 : q64 ^ 4 ≤ 1 := pow_le_one₀ q64_pos.le q64_le
  have old : ∀ j < c.ControlPoints.length, q64 ^ 4 * wl ≤ (exactPoint64 (pt c.ControlPoints j)).w ∧
      (exactPoint64 (pt c.ControlPoints j)).w ≤ (q64 ^ 4)⁻¹ * wh ∧ |(exactPoint64 (pt c.ControlPoints j)).x| ≤ B' ∧
      |(exactPoint64 (pt c.ControlPoints j)).y| ≤ B' ∧ |(exactPoint64 (pt c.ControlPoints j)).z| ≤ B' := by
    intro j hj
    obtain ⟨_, _, a1, a2, a3⟩ := insD_old D hj
    have hH : wh ≤ (q64 ^ 4)⁻¹ * wh := le_mul_of_one_le_left h0.le g4
    have hL : q64 ^ 4 * wl ≤ wl := mul_le_of_le_one_left l0.le l4
    exact ⟨hL.trans a1, a2.trans hH, (a3 _ (.inl rfl)).trans hB', (a3 _ (.inr (.inl rfl))).trans hB', (a3 _ (.inr (.inr rfl))).trans hB'⟩
  split_ifs with ha hb2
  · exact old i (by omega)
  · obtain ⟨_, _, R, e, _, r1, r2, _, r4⟩ := insD_new D (show k < i + p by omega) hb2
    rw [e, exactPoint64_finV]
    exact ⟨r1, r2, (r4 _ (.inl rfl)).1.trans hB'', (r4 _ (.inr (.inl rfl))).1.trans hB'', (r4 _ (.inr (.inr rfl))).1.trans hB''⟩
  · exact old (i - 1) (by omega)

theorem insD_wf : WFCurve p (exactCurve64 (insCurveC p k (Double.fin X) c)) := by
  have hwe := insCurve_wf D.wf D.span D.pos D.lt
  have en : (exactCurve64 (insCurveC p k (Double.fin X) c)).ControlPoints.length = (insCurve p k X (exactCurve64 c)).ControlPoints.length := by
    rw [insD_points_length D]; simp [insCurve, exactCurve64]
  refine ⟨rfl, by rw [insD_knots D]; exact hwe.clamped, by rw [insD_knots D, en]; exact hwe.count, fun i hi => ?_⟩
  have := (insD_range D (le_max_left B ((q64 ^ 10)⁻¹ * B + 1 / 2 ^ 729)) (le_max_right _ _) i hi).1
  exact lt_of_lt_of_le (mul_pos (pow_pos q64_pos 4) (insD_weights D).1) this

/-- The new curve consists of finite numbers. -/
theorem insD_finite (hX : IsFin (Double.fin X)) : FinCurve (insCurveC p k (Double.fin X) c) := by
  obtain ⟨hpk, hlk, hkn⟩ := insD_bounds D
  refine ⟨fun d hd => ?_, fun P hP => ?_⟩
  · have : d ∈ Double.fin X :: c.Knots.Values := (insL_perm _ _ _).subset hd
    rcases List.mem_cons.mp this with rfl | h
    · exact hX
    · exact D.finite.knots _ h
  · unfold insCurveC at hP
    simp only at hP
    obtain ⟨i, hi, rfl⟩ := List.mem_map.mp hP
    have hi := List.mem_range.mp hi
    split_ifs with ha hb2
    · exact (insD_old D (by omega)).1
    · obtain ⟨_, _, R, e, r, _⟩ := insD_new D (show k < i + p by omega) hb2
      rw [e]
      exact r
    · exact (insD_old D (by omega)).1

/-- Weights and homogeneous coordinates of the computed and of the exact new curve. -/
theorem insD_key {f : Vec4 ℚ → ℚ} (hf : IsCoord f) : ∀ i < c.ControlPoints.length + 1,
    |(pt (exactCurve64 (insCurveC p k (Double.fin X) c)).ControlPoints i).w * f (pt (exactCurve64 (insCurveC p k (Double.fin X) c)).ControlPoints i) -
      (pt (insCurve p k X (exactCurve64 c)).ControlPoints i).w * f (pt (insCurve p k X (exactCurve64 c)).ControlPoints i)| ≤
      ((q64 ^ 9)⁻¹ - 1) * (2 * (wh * B)) + 1 / 2 ^ 973 ∧
    |(pt (exactCurve64 (insCurveC p k (Double.fin X) c)).ControlPoints i).w - (pt (insCurve p k X (exactCurve64 c)).ControlPoints i).w| ≤
      ((q64 ^ 9)⁻¹ - 1) * (2 * wh) ∧
    |f (pt (insCurve p k X (exactCurve64 c)).ControlPoints i)| ≤ B := by
  obtain ⟨hpk, hlk, hkn⟩ := insD_bounds D
  obtain ⟨l0, h0, _, hB0⟩ := insD_weights D
  have hfh : ∀ P : Vec4 ℚ, f (ToHomo P) = f P * P.w := by rcases hf with rfl | rfl | rfl <;> intro P <;> rfl
  have hfs : ∀ (a : ℚ) (P : Vec4 ℚ), f (a • P) = a * f P := by rcases hf with rfl | rfl | rfl <;> intro a P <;> rfl
  have hfa : ∀ P Q : Vec4 ℚ, f (P + Q) = f P + f Q := by rcases hf with rfl | rfl | rfl <;> intro P Q <;> rfl
  have g9 : 0 ≤ (q64 ^ 9)⁻¹ - 1 := by linarith [qinv_one 9]
  intro i hin
  have same : ∀ j < c.ControlPoints.length, ∀ P Q : Vec4 ℚ, P = exactPoint64 (pt c.ControlPoints j) →
      Q = exactPoint64 (pt c.ControlPoints j) → |P.w * f P - Q.w * f Q| ≤ ((q64 ^ 9)⁻¹ - 1) * (2 * (wh * B)) + 1 / 2 ^ 973 ∧
        |P.w - Q.w| ≤ ((q64 ^ 9)⁻¹ - 1) * (2 * wh) ∧ |f Q| ≤ B := by
    intro j hj P Q e1 e2
    rw [e1, e2, sub_self, sub_self, abs_zero]
    exact ⟨by positivity, by positivity, (insD_old D hj).2.2.2.2 f hf⟩
  have e1 := insD_pt D hin
  have e2 : pt (insCurve p k X (exactCurve64 c)).ControlPoints i =
      if i + p ≤ k then exactPoint64 (pt c.ControlPoints i)
      else if i ≤ k then unhomo (step (kn (c.Knots.Values.map Double.val)) p X (hpts (exactCurve64 c).ControlPoints) i)
      else exactPoint64 (pt c.ControlPoints (i - 1)) := by
    rw [exactPoint64_pt, exactPoint64_pt]
    exact pt_tab _ _ _ (by simpa [exactCurve64] using hin)
  by_cases ha : i + p ≤ k
  · rw [if_pos ha] at e1 e2
    exact same i (by omega) _ _ e1 e2
  · rw [if_neg ha] at e1 e2
    by_cases hb2 : i ≤ k
    · rw [if_pos hb2] at e1 e2
      obtain ⟨v0, v1, v2, v3⟩ := insD_window D (show k < i + p by omega) hb2
      obtain ⟨_, _, R, e, _, _, _, r3, r4⟩ := insD_new D (show k < i + p by omega) hb2
      obtain ⟨_, r5⟩ := r4 f hf
      obtain ⟨_, _, p1, p2, p3⟩ := insD_old D (show i < c.ControlPoints.length by omega)
      obtain ⟨_, _, q1, q2, q3⟩ := insD_old D (show i - 1 < c.ControlPoints.length by omega)
      have p3 := p3 f hf
      have q3 := q3 f hf
      rw [e, exactPoint64_finV] at e1
      set H := step (kn (c.Knots.Values.map Double.val)) p X (hpts (exactCurve64 c).ControlPoints) i with hH
      have hform := alpha_form (kn (c.Knots.Values.map Double.val)) p X (hpts (exactCurve64 c).ControlPoints) i (by linarith)
      rw [← hH] at hform
      have hpe : ∀ j, hpts (exactCurve64 c).ControlPoints j = ToHomo (exactPoint64 (pt c.ControlPoints j)) := by
        intro j; rw [exactPoint64_pt]; rfl
      rw [hpe, hpe] at hform
      set P := exactPoint64 (pt c.ControlPoints i)
      set Q := exactPoint64 (pt c.ControlPoints (i - 1))
      set a := (X - kn (c.Knots.Values.map Double.val) i) / (kn (c.Knots.Values.map Double.val) (i + p) - kn (c.Knots.Values.map Double.val) i) with hadef
      have ha0 : 0 ≤ a := div_nonneg (by linarith) (by linarith)
      have ha1 : a ≤ 1 := by rw [hadef, div_le_one (by linarith)]; linarith
      have hHw : H.w = a * P.w + (1 - a) * Q.w := by rw [← hform]; rfl
      have hHf : f H = a * (f P * P.w) + (1 - a) * (f Q * Q.w) := by
        rw [← hform, hfa, hfs, hfs, hfh, hfh]
      have hHpos : 0 < H.w := by rw [hHw]; nlinarith
      have hUw : (unhomo H).w = H.w := rfl
      have hUf : H.w * f (unhomo H) = f H := by
        have := hfh (unhomo H)
        rw [toHomo_unhomo hHpos.ne', hUw, mul_comm] at this
        exact this.symm
      rw [e1, e2]
      refine ⟨?_, ?_, ?_⟩
      · rw [hUw, hUf, hHf]; exact r5.dist
      · rw [hUw, hHw]
        have := r3.dist
        rwa [add_zero] at this
      · have : f (unhomo H) = f H / H.w := by rw [eq_div_iff hHpos.ne', mul_comm]; exact hUf
        rw [this, abs_div, abs_of_pos hHpos, div_le_iff₀ hHpos, hHf, hHw]
        have t1 : |f P * P.w| ≤ B * P.w := by
          rw [abs_mul, abs_of_nonneg (show 0 ≤ P.w by linarith)]
          exact mul_le_mul_of_nonneg_right p3 (by linarith)
        have t2 : |f Q * Q.w| ≤ B * Q.w := by
          rw [abs_mul, abs_of_nonneg (show 0 ≤ Q.w by linarith)]
          exact mul_le_mul_of_nonneg_right q3 (by linarith)
        refine le_trans (abs_add_le _ _) ?_
        rw [abs_mul a, abs_mul (1 - a), abs_of_nonneg ha0, abs_of_nonneg (show 0 ≤ 1 - a by linarith)]
        have := mul_le_mul_of_nonneg_left t1 ha0
        have := mul_le_mul_of_nonneg_left t2 (show 0 ≤ 1 - a by linarith)
        linarith
    · rw [if_neg hb2] at e1 e2
      exact same (i - 1) (by omega) _ _ e1 e2

theorem insD_within : CurvesWithin p (exactCurve64 c) (exactCurve64 (insCurveC p k (Double.fin X) c))
    (4 * errFactor binary53 13 * (wh / wl) * B + 1 / 2 ^ 872) := by
  obtain ⟨l0, h0, _, hB0⟩ := insD_weights D
  have hwe := insCurve_wf D.wf D.span D.pos D.lt
  have hwr := insD_wf D
  have hrng := insD_range D (le_max_left B ((q64 ^ 10)⁻¹ * B + 1 / 2 ^ 729)) (le_max_right _ _)
  have eln : (insCurve p k X (exactCurve64 c)).ControlPoints.length = c.ControlPoints.length + 1 := by
    simp [insCurve, exactCurve64]
  have en := (insD_points_length D).trans eln.symm
  have hq4 := pow_pos q64_pos 4
  have hm : 0 < q64 ^ 4 * wl := mul_pos hq4 l0
  have est : ∀ f : Vec4 ℚ → ℚ, IsCoord f → ∀ x, 0 ≤ x → x ≤ 1 →
      |wsum p (exactCurve64 (insCurveC p k (Double.fin X) c)) x f / wsum p (exactCurve64 (insCurveC p k (Double.fin X) c)) x (fun _ => 1) -
        wsum p (insCurve p k X (exactCurve64 c)) x f / wsum p (insCurve p k X (exactCurve64 c)) x (fun _ => 1)| ≤
        4 * errFactor binary53 13 * (wh / wl) * B + 1 / 2 ^ 872 := by
    intro f hf x hx0 hx1
    have key := insD_key D hf
    have := wsum_perturb hwr hwe (insD_knots D) en f hm (fun i hin => (key i (by omega)).1) (fun i hin => (key i (by omega)).2.1)
      (fun i hin => (key i (by omega)).2.2) (fun i hin => (hrng i (by rw [en]; exact hin)).1) hx0 hx1
    refine this.trans ?_
    rw [div_le_iff₀ hm]
    have e : (4 * errFactor binary53 13 * (wh / wl) * B + 1 / 2 ^ 872) * (q64 ^ 4 * wl) =
        4 * (wh * B) * (errFactor binary53 13 * q64 ^ 4) + 1 / 2 ^ 872 * (q64 ^ 4 * wl) := by field_simp
    rw [e]
    have hE : (q64 ^ 9)⁻¹ - 1 ≤ errFactor binary53 13 * q64 ^ 4 := by
      have l4 : q64 ^ 4 ≤ 1 := pow_le_one₀ q64_pos.le q64_le
      have hne := q64_pos.ne'
      have : errFactor binary53 13 * q64 ^ 4 = (q64 ^ 9)⁻¹ - q64 ^ 4 := by
        change ((q64 ^ 13)⁻¹ - 1) * q64 ^ 4 = _
        field_simp
      linarith
    have h1 := mul_le_mul_of_nonneg_left hE (show 0 ≤ 4 * (wh * B) by positivity)
    have h2 : (1 : ℚ) / 2 ^ 973 ≤ 1 / 2 ^ 872 * (q64 ^ 4 * wl) := by
      calc (1 : ℚ) / 2 ^ 973 ≤ 1 / 2 ^ 872 * (2 / 3 * (1 / 2 ^ 100)) := by norm_num
        _ ≤ 1 / 2 ^ 872 * (q64 ^ 4 * wl) :=
          mul_le_mul_of_nonneg_left (mul_le_mul (q64_pow (by norm_num)) D.lowest (by positivity) hq4.le) (by positivity)
    linarith
  have hpt : ∀ x, 0 ≤ x → x ≤ 1 → nurbsPoint p (insCurve p k X (exactCurve64 c)) x = nurbsPoint p (exactCurve64 c) x := by
    intro x hx0 hx1
    have e := insCurve_evaluate D.wf D.span D.pos D.lt hx0 hx1
    obtain ⟨s, hs, a1, a2⟩ := exists_span hwe.clamped hx0 hx1
    obtain ⟨t, ht, b1, b2⟩ := exists_span D.wf.clamped hx0 hx1
    obtain ⟨_, _, _, _, e1⟩ := evaluate_seg hwe hx0 hx1 hs
    obtain ⟨_, _, _, _, e2⟩ := evaluate_seg D.wf hx0 hx1 ht
    rw [show (exactCurve64 c).Evaluate x = _ from e2, e1, proj_seg_eq hwe hs a1 a2, proj_seg_eq D.wf ht b1 b2] at e
    injection e
  intro x hx0 hx1
  rw [← hpt x hx0 hx1]
  exact ⟨est (·.x) (.inl rfl) x hx0 hx1, est (·.y) (.inr (.inl rfl)) x hx0 hx1, est (·.z) (.inr (.inr rfl)) x hx0 hx1⟩

end curve

/-! ### lists of knots -/

/-- After one insertion the coordinates grow by at most eleven roundings. -/
theorem grow_double {B : ℚ} (hB : 1 / 2 ^ 600 ≤ B) : B ≤ (q64 ^ 11)⁻¹ * B ∧ (q64 ^ 10)⁻¹ * B + 1 / 2 ^ 729 ≤ (q64 ^ 11)⁻¹ * B := by
  have h0 : (0 : ℚ) < 1 / 2 ^ 600 := by positivity
  refine ⟨le_mul_of_one_le_left (by linarith) (qinv_one 11), ?_⟩
  have h1 := mul_le_mul_of_nonneg_right (qinv_succ 10) (show 0 ≤ B by linarith)
  have h2 := mul_le_mul_of_nonneg_right (qinv_one 10) (mul_nonneg u64_nonneg (show 0 ≤ B by linarith))
  have h3 : (1 : ℚ) / 2 ^ 729 ≤ u64 * (1 / 2 ^ 600) := by unfold u64; norm_num
  have h4 := mul_le_mul_of_nonneg_left hB u64_nonneg
  nlinarith

/-- The bounds of a list of insertions add up. -/
theorem ins_factor_double {wl wh B : ℚ} (hwl : 0 < wl) (hle : wl ≤ wh) (hB0 : 1 / 2 ^ 600 ≤ B) (t : ℕ) :
    4 * errFactor binary53 13 * (wh / wl) * B + 1 / 2 ^ 872 +
      4 * errFactor binary53 (19 * t) * ((q64 ^ 4)⁻¹ * wh / (q64 ^ 4 * wl)) * ((q64 ^ 11)⁻¹ * B) ≤
      4 * errFactor binary53 (19 * (t + 1)) * (wh / wl) * B := by
  have hW : 1 ≤ wh / wl := (one_le_div hwl).mpr hle
  have hne := q64_pos.ne'
  have e1 : 4 * errFactor binary53 (19 * t) * ((q64 ^ 4)⁻¹ * wh / (q64 ^ 4 * wl)) * ((q64 ^ 11)⁻¹ * B) =
      4 * (wh / wl) * B * ((q64 ^ (19 * (t + 1)))⁻¹ - (q64 ^ 19)⁻¹) := by
    change 4 * ((q64 ^ (19 * t))⁻¹ - 1) * _ * _ = _
    rw [mul_add, pow_add, mul_one]
    field_simp
  have e2 : 4 * errFactor binary53 (19 * (t + 1)) * (wh / wl) * B =
      4 * (wh / wl) * B * ((q64 ^ (19 * (t + 1)))⁻¹ - 1) := by
    change 4 * ((q64 ^ (19 * (t + 1)))⁻¹ - 1) * _ * _ = _
    ring
  have e3 : 4 * errFactor binary53 13 * (wh / wl) * B + 1 / 2 ^ 872 ≤ 4 * (wh / wl) * B * ((q64 ^ 19)⁻¹ - 1) := by
    have h13 : errFactor binary53 13 = (q64 ^ 13)⁻¹ - 1 := rfl
    have h14 : (q64 ^ 13)⁻¹ + u64 ≤ (q64 ^ 14)⁻¹ := by
      have := qinv_succ 13
      have := mul_le_mul_of_nonneg_right (qinv_one 13) u64_nonneg
      linarith
    have h19 : (q64 ^ 14)⁻¹ ≤ (q64 ^ 19)⁻¹ := pow_inv_mono q64_pos q64_le (by norm_num)
    have hS : 1 / 2 ^ 600 ≤ (wh / wl) * B := by nlinarith
    have hs0 : (0 : ℚ) < 1 / 2 ^ 600 := by positivity
    have h5 := mul_le_mul_of_nonneg_left (show (q64 ^ 13)⁻¹ - 1 + u64 ≤ (q64 ^ 19)⁻¹ - 1 by linarith) (show 0 ≤ 4 * ((wh / wl) * B) by linarith)
    have h6 : (1 : ℚ) / 2 ^ 872 ≤ 4 * (1 / 2 ^ 600) * u64 := by unfold u64; norm_num
    have h7 := mul_le_mul_of_nonneg_right (show 4 * (1 / 2 ^ 600) ≤ 4 * ((wh / wl) * B) by linarith) u64_nonneg
    rw [h13]
    calc 4 * ((q64 ^ 13)⁻¹ - 1) * (wh / wl) * B + 1 / 2 ^ 872 ≤ 4 * (wh / wl * B) * ((q64 ^ 13)⁻¹ - 1 + u64) := by linarith
      _ ≤ 4 * (wh / wl * B) * ((q64 ^ 19)⁻¹ - 1) := h5
      _ = _ := by ring
  rw [e1, e2]
  linarith

/-- Inserting a list of knots: the errors of the single insertions add up. -/
theorem insertList_double {p : ℕ} (vs : List Double) (hv : ∀ v ∈ vs, IsFin v ∧ 0 < v.val ∧ v.val < 1) {c : Curve Double}
    (hfin : FinCurve c) (hw : WFCurve p (exactCurve64 c)) {wl wh B : ℚ} (hb : CurveBounds (exactCurve64 c) wl wh B)
    (hl : 1 / 2 ^ 100 ≤ q64 ^ (4 * vs.length) * wl) (hh : (q64 ^ (4 * vs.length))⁻¹ * wh ≤ 2 ^ 100) (hB0 : 1 / 2 ^ 600 ≤ B)
    (hB : (q64 ^ (11 * vs.length))⁻¹ * B ≤ 2 ^ 400) :
    ∃ c', c.InsertKnotList vs = .ok c' ∧ FinCurve c' ∧ WFCurve p (exactCurve64 c') ∧ c'.Knots.Values.Perm (vs ++ c.Knots.Values) ∧
      CurvesWithin p (exactCurve64 c) (exactCurve64 c') (4 * errFactor binary53 (19 * vs.length) * (wh / wl) * B) := by
  induction vs generalizing c wl wh B with
  | nil =>
    refine ⟨c, rfl, hfin, hw, List.Perm.refl _, ?_⟩
    intro x _ _
    simp [errFactor]
  | cons v vs ih =>
    obtain ⟨f1, h0, h1⟩ := hv v (by simp)
    obtain ⟨ev, gv, _⟩ := isFin_eq f1
    have hlen2 : (exactCurve64 c).ControlPoints.length = c.ControlPoints.length := List.length_map _
    obtain ⟨k, hk, _⟩ := exists_span hw.clamped h0.le h1.le
    have hkn := (ins_bounds hw hk h0 h1).2.2
    obtain ⟨b1, b2, b3, _⟩ := hb k hkn
    have wpos := hw.weights k hkn
    have hB1 : 0 ≤ B := (abs_nonneg _).trans b3
    have hpow : ∀ m, q64 ^ m ≤ 1 := fun m => pow_le_one₀ q64_pos.le q64_le
    have hwl : 0 < wl := by
      by_contra hneg
      have hn := not_lt.mp hneg
      have := mul_nonpos_of_nonneg_of_nonpos (pow_pos q64_pos (4 * (v :: vs).length)).le hn
      have : (0 : ℚ) < 1 / 2 ^ 100 := by positivity
      linarith
    have hwh : 0 < wh := by linarith
    have D : InsData p k c v.val wl wh B := ⟨hfin, hw, hk, gv, h0, h1, hb, hl.trans (mul_le_of_le_one_left hwl.le (hpow _)),
      (le_mul_of_one_le_left hwh.le (qinv_one _)).trans hh, (le_mul_of_one_le_left hB1 (qinv_one _)).trans hB⟩
    obtain ⟨g1, g2⟩ := grow_double hB0
    have e4 : 4 * (v :: vs).length = 4 * vs.length + 4 := by rw [List.length_cons]; ring
    have e11 : 11 * (v :: vs).length = 11 * vs.length + 11 := by rw [List.length_cons]; ring
    rw [e4, pow_add, mul_assoc] at hl
    rw [e4, pow_add, mul_inv, mul_assoc] at hh
    rw [e11, pow_add, mul_inv, mul_assoc] at hB
    have hf' := insD_finite D (by rw [← ev]; exact f1)
    obtain ⟨c', e, hc', hw', hp, hs⟩ := ih (fun v hv' => hv v (by simp [hv'])) hf' (insD_wf D) (insD_range D g1 g2) hl hh (hB0.trans g1) hB
    refine ⟨c', ?_, hc', hw', ?_, ?_⟩
    · unfold Curve.InsertKnotList
      simp only [foldMList]
      have := insertListStep_double D
      rw [← ev] at this e
      rw [this, bind_ok]
      exact e
    · refine hp.trans ?_
      rw [← ev]
      refine ((insL_perm _ _ _).append_left vs).trans ?_
      exact List.perm_middle
    · have := curvesWithin_trans (insD_within D) hs
      intro x hx0 hx1
      obtain ⟨t1, t2, t3⟩ := this x hx0 hx1
      have hle := ins_factor_double hwl (show wl ≤ wh by linarith) hB0 vs.length
      exact ⟨t1.trans hle, t2.trans hle, t3.trans hle⟩

end Nurbs
