import Verif.Proof.RoundedCurve
import Verif.Proof.Knots2

/-! # Knot vectors with rounding -/

set_option linter.unusedSectionVars false

namespace Nurbs
open Nurbs.Spec

/-- Integers up to `2^53` are representable. -/
theorem round53_nat {n : ℕ} (h : n < 2 ^ 53) : round53 (n : ℚ) = n := by
  rcases Nat.eq_zero_or_pos n with rfl | hn
  · simpa using round53_zero
  have hpos : (0 : ℚ) < n := by exact_mod_cast hn
  rw [round53_pos hpos]
  obtain ⟨h1, h2⟩ := log_bounds hpos
  have h0 : 0 ≤ Int.log 2 (n : ℚ) := by
    rw [← Int.zpow_le_iff_le_log (by norm_num) hpos]
    simp; omega
  have h53 : Int.log 2 (n : ℚ) < 53 := by
    rw [← Int.lt_zpow_iff_log_lt (by norm_num) hpos]
    exact_mod_cast h
  obtain ⟨e, he⟩ := Int.eq_ofNat_of_zero_le (show 0 ≤ 52 - Int.log 2 (n : ℚ) by omega)
  unfold roundPos53
  simp only
  rw [he, zpow_natCast, show (n : ℚ) * 2 ^ e = (((n * 2 ^ e : ℕ) : ℤ) : ℚ) by push_cast; ring, roundEven_int,
    show Int.log 2 (n : ℚ) - 52 = -(e : ℤ) by omega, zpow_neg, zpow_natCast]
  push_cast
  field_simp

variable {K : Type} [Field K] [LinearOrder K] [IsStrictOrderedRing K] {R : Rounding K}

theorem Fl.one_pos : (0 : Fl R) < 1 := by rw [Fl.lt_def, Fl.val_zero, Fl.val_one]; exact zero_lt_one

theorem uniform_rounded (d a : ℕ) (hrep : ∀ n : ℕ, n ≤ a + 1 → R.rnd n = n) (hu : 2 * R.u * (a + 1) < 1) :
    ∃ l : List (Fl R), KnotVector.Uniform d ((2 * d + 2 + a : ℕ) : Int) = .ok ⟨l⟩ ∧ l.length = 2 * d + 2 + a ∧ Clamped d l ∧
      ∀ i < a, Near R.q 2 (kn l (d + 1 + i)).val ((i + 1 : K) / (a + 1)) := by
  have ha0 : (0 : K) < (a : K) + 1 := by positivity
  set t : Fl R := Fl.round R (1 / ((a : K) + 1)) with ht
  have hnt : Near R.q 1 t.val (1 / ((a : K) + 1)) := R.near (by positivity)
  set g : ℕ → Fl R := fun i => Fl.round R (((i : K) + 1) * t.val) with hg
  have hgn : ∀ i, Near R.q 2 (g i).val ((i + 1 : K) / (a + 1)) := by
    intro i
    have hi : (0 : K) ≤ (i : K) + 1 := by positivity
    have h1 : Near R.q 1 (((i : K) + 1) * t.val) (((i : K) + 1) * (1 / ((a : K) + 1))) := by
      have := (Near.refl R.q_pos hi).mul R.q_pos hnt
      rwa [zero_add] at this
    rw [← div_eq_mul_one_div] at h1
    exact (R.near h1.1).trans R.q_pos h1
  have hgm : ∀ i j, i ≤ j → g i ≤ g j := by
    intro i j hij
    rw [Fl.le_def]
    exact R.mono _ _ (mul_le_mul_of_nonneg_right (by have : (i : K) ≤ j := by exact_mod_cast hij
                                                     linarith) hnt.1)
  have hg0 : ∀ i, 0 < g i := by
    intro i
    rw [Fl.lt_def, Fl.val_zero]
    exact (hgn i).pos R.q_pos (by positivity)
  have hg1 : ∀ i < a, g i < 1 := by
    intro i hi
    rw [Fl.lt_def, Fl.val_one]
    have h1 := (hgn i).2.2.2
    have h2 : (i + 1 : K) / (a + 1) < R.q ^ 2 := by
      have hia : (i : K) + 1 ≤ a := by exact_mod_cast hi
      rw [div_lt_iff₀ ha0]
      have hq2 : 1 - 2 * R.u ≤ R.q ^ 2 := by unfold Rounding.q; nlinarith [R.u_nonneg]
      have := mul_le_mul_of_nonneg_right hq2 ha0.le
      nlinarith
    have h3 : 0 < R.q ^ 2 := pow_pos R.q_pos 2
    have h4 : R.q ^ 2 * (g i).val < R.q ^ 2 * 1 := by rw [mul_one]; exact lt_of_le_of_lt h1 h2
    exact lt_of_mul_lt_mul_left h4 h3.le
  set l : List (Fl R) := List.replicate (d + 1) 0 ++ (List.range a).map g ++ List.replicate (d + 1) 1 with hl
  have hlen : l.length = 2 * d + 2 + a := by simp [hl]; omega
  have hz : ∀ i : ℕ, i ≤ d → kn l i = 0 := by
    intro i hi
    rw [kn_eq_getElem _ _ (by omega)]
    simp only [hl]
    rw [List.getElem_append_left (by simp; omega), List.getElem_append_left (by simp; omega)]
    simp
  have ho : ∀ i : ℕ, d + 1 + a ≤ i → i < 2 * d + 2 + a → kn l i = 1 := by
    intro i hi hi2
    rw [kn_eq_getElem _ _ (by omega)]
    simp only [hl]
    rw [List.getElem_append_right (by simp; omega)]
    simp
  have hm : ∀ i < a, kn l (d + 1 + i) = g i := by
    intro i hi
    rw [kn_eq_getElem _ _ (by omega)]
    simp only [hl]
    rw [List.getElem_append_left (by simp; omega), List.getElem_append_right (by simp)]
    simp
  have hsorted : l.Pairwise (· ≤ ·) := by
    rw [hl, List.pairwise_append, List.pairwise_append]
    refine ⟨⟨by simp, ?_, ?_⟩, by simp, ?_⟩
    · rw [List.pairwise_map]
      exact List.pairwise_lt_range.imp (fun h => hgm _ _ h.le)
    · intro x hx y hy
      rw [List.eq_of_mem_replicate hx]
      obtain ⟨i, _, rfl⟩ := List.mem_map.mp hy
      exact (hg0 i).le
    · intro x hx y hy
      rw [List.eq_of_mem_replicate hy]
      rcases List.mem_append.mp hx with hx | hx
      · rw [List.eq_of_mem_replicate hx]; exact Fl.one_pos.le
      · obtain ⟨i, hi, rfl⟩ := List.mem_map.mp hx
        exact (hg1 i (List.mem_range.mp hi)).le
  have hcl : Clamped d l := by
    refine ⟨by omega, hsorted, hz, fun i h1 h2 => ho i (by omega) (by omega), ?_, ?_⟩
    · rcases Nat.eq_zero_or_pos a with h | h
      · rw [ho _ (by omega) (by omega)]; exact Fl.one_pos
      · have := hm 0 h
        rw [add_zero] at this
        rw [this]; exact hg0 0
    · rw [hlen]
      rcases Nat.eq_zero_or_pos a with h | h
      · rw [hz _ (by omega)]; exact Fl.one_pos
      · have := hm (a - 1) (by omega)
        rw [show 2 * d + 2 + a - d - 2 = d + 1 + (a - 1) by omega, this]
        exact hg1 _ (by omega)
  refine ⟨l, ?_, hlen, hcl, fun i hi => by rw [hm i hi]; exact hgn i⟩
  have hwf : WellFormedValues l := by
    refine ⟨fun h => by rw [h] at hlen; simp at hlen; omega, hsorted, fun v hv => ?_, ?_⟩
    · rw [hl] at hv
      rcases List.mem_append.mp hv with hv | hv
      · rcases List.mem_append.mp hv with hv | hv
        · rw [List.eq_of_mem_replicate hv]
        · obtain ⟨i, _, rfl⟩ := List.mem_map.mp hv
          exact (hg0 i).le
      · rw [List.eq_of_mem_replicate hv]; exact Fl.one_pos.le
    · rw [hl, List.getLast?_append]
      simp [List.getLast?_replicate]
  unfold KnotVector.Uniform
  have hadd : ((2 * d + 2 + a : ℕ) : Int) - ((d : Int) + 1) * 2 = (a : Int) := by push_cast; ring
  simp only [hadd]
  have hden : (((a : Int) : Fl R) + 1).val = (a : K) + 1 := by
    have h1 : (((a : Int) : Fl R)).val = a := by
      change R.rnd (((a : Int) : K)) = a
      have := hrep a (by omega)
      simpa using this
    rw [Fl.val_add, h1, Fl.val_one]
    have := hrep (a + 1) le_rfl
    simpa using this
  have hne : (((a : Int) : Fl R) + 1) ≠ 0 := Fl.ne_zero (by rw [hden]; exact ha0.ne')
  have htq : (1 : Fl R) / (((a : Int) : Fl R) + 1) = t := by
    apply Fl.val_inj
    rw [Fl.val_div, hden, Fl.val_one]; rfl
  have hmid : ∀ i < a, ((((i : Int) + 1 : Int)) : Fl R) * t = g i := by
    intro i hi
    apply Fl.val_inj
    have h1 : (((((i : Int) + 1 : Int)) : Fl R)).val = (i : K) + 1 := by
      change R.rnd ((((i : Int) + 1 : Int)) : K) = (i : K) + 1
      have := hrep (i + 1) (by omega)
      simpa using this
    rw [Fl.val_mul, h1]; rfl
  rw [massert_true (by omega), bind_ok]
  have hth : mthrowUnless (0 ≤ ((2 * d + 2 + a : ℕ) : Int)) = .ok () := by simp [mthrowUnless]; omega
  rw [hth, bind_ok]
  have hfd : fdiv (1 : Fl R) (((a : Int) : Fl R) + 1) = .ok t := by simp only [fdiv, hne, if_false, htq]
  rw [hfd, bind_ok]
  have hlist : List.replicate ((d : Int) + 1).toNat (0 : Fl R) ++
      (List.range (a : Int).toNat).map (fun (i : ℕ) => ((((i : Int) + 1 : Int)) : Fl R) * t) ++
      List.replicate ((d : Int) + 1).toNat (1 : Fl R) = l := by
    rw [hl, show ((d : Int) + 1).toNat = d + 1 by omega, Int.toNat_natCast]
    congr 2
    apply List.map_congr_left
    intro i hi
    exact hmid i (List.mem_range.mp hi)
  rw [hlist]
  unfold KnotVector.ofValues
  rw [(validateKnots_iff l).mpr hwf]
  rfl

/-! ### reversal -/

theorem reverse_rounded_valid (kv : KnotVector (Fl R)) (h : ValidKnots kv.Values) : ValidKnots kv.Reverse.Values := by
  obtain ⟨h4, hh, hl, hs⟩ := h
  have e0 : (1 : Fl R) - 0 = 1 := Fl.val_inj (by rw [Fl.val_sub, Fl.val_one, Fl.val_zero, sub_zero, R.one])
  have e1 : (1 : Fl R) - 1 = 0 := Fl.val_inj (by rw [Fl.val_sub, sub_self, R.zero, Fl.val_zero])
  refine ⟨by simpa [KnotVector.Reverse] using h4, ?_, ?_, ?_⟩
  · simp [KnotVector.Reverse, hl, e1]
  · simp [KnotVector.Reverse, hh, e0]
  · simp only [KnotVector.Reverse]
    rw [List.pairwise_map, List.pairwise_reverse]
    refine hs.imp (fun {a b} hab => ?_)
    rw [Fl.le_def, Fl.val_sub, Fl.val_sub]
    rw [Fl.le_def] at hab
    exact R.mono _ _ (by linarith)

theorem reverse_rounded_kn (kv : KnotVector (Fl R)) (i : ℕ) (hi : i < kv.Values.length) :
    kn kv.Reverse.Values i = 1 - kn kv.Values (kv.Values.length - 1 - i) := by
  rw [kn_eq_getElem _ _ (by simpa [KnotVector.Reverse] using hi), kn_eq_getElem _ _ (by omega)]
  simp [KnotVector.Reverse, List.getElem_reverse]

end Nurbs
