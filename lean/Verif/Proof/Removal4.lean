import Verif.Proof.Removal3
import Verif.Proof.Knots2

/-! # Knot removal seen as inverse knot insertion -/

set_option linter.unusedSectionVars false

namespace Nurbs
open Nurbs.Spec KnotRemovalImpl

variable {K : Type} [Field K] [LinearOrder K] [IsStrictOrderedRing K]

/-- The knots after `t` removals. -/
def remL (U : List K) (r t : ℕ) : List K := tab (U.length - t) (dropU (kn U) r t)

theorem remL_length (U : List K) (r t : ℕ) : (remL U r t).length = U.length - t := by simp [remL]

theorem kn_tab (n : ℕ) (f : ℕ → K) (i : ℕ) (h : i < n) : kn (tab n f) i = f i := by
  simp [kn, List.getD_eq_getElem?_getD, tab_getElem? _ _ _ h]

theorem kn_remL (U : List K) (r t i : ℕ) (h : i < U.length - t) : kn (remL U r t) i = if i + t ≤ r then kn U i else kn U (i + t) :=
  kn_tab _ _ _ h

theorem list_ext_kn {l l' : List K} (h : l.length = l'.length) (hk : ∀ i < l.length, kn l i = kn l' i) : l = l' := by
  apply List.ext_getElem h
  intro i h1 h2
  rw [← kn_eq_getElem l i h1, ← kn_eq_getElem l' i h2, hk i h1]

theorem remL_zero (U : List K) (r : ℕ) : remL U r 0 = U := by
  apply list_ext_kn (by rw [remL_length]; rfl)
  intro i hi
  rw [remL_length] at hi
  rw [kn_remL _ _ _ _ hi]
  split_ifs <;> rfl

section
variable {U : List K} {u : K} {p s r n : ℕ} (H : RemCtx U u p s r n)
include H

theorem remL_sorted (hc : Clamped p U) {t : ℕ} : (remL U r t).Pairwise (· ≤ ·) := by
  apply sorted_of_kn
  intro i hi
  rw [remL_length] at hi
  rw [kn_remL _ _ _ _ (by omega), kn_remL _ _ _ _ (by omega)]
  split_ifs <;> first | omega | exact kn_mono hc.sorted (by omega) (by omega)

theorem remL_clamped (hc : Clamped p U) {t : ℕ} (ht : t ≤ s) : Clamped p (remL U r t) := by
  have hpr := H.pr
  have hlen := H.len
  have hrn := H.rn
  have hs1 := H.s1
  have hcl := hc.len
  have hnlt : p + 1 + t ≤ n := by omega
  refine ⟨by rw [remL_length]; omega, remL_sorted H hc, ?_, ?_, ?_, ?_⟩
  · intro i hi
    rw [kn_remL _ _ _ _ (by omega), if_pos (by omega)]
    exact hc.zeros i hi
  · intro i hi1 hi2
    rw [remL_length] at hi1 hi2
    rw [kn_remL _ _ _ _ (by omega), if_neg (by omega)]
    exact hc.ones _ (by omega) (by omega)
  · rw [kn_remL _ _ _ _ (by omega)]
    split_ifs
    · exact hc.first
    · exact hc.first.trans_le (kn_mono hc.sorted (by omega) (by omega))
  · rw [remL_length, kn_remL _ _ _ _ (by omega)]
    split_ifs
    · exact (kn_mono hc.sorted (show U.length - t - p - 2 ≤ U.length - p - 2 by omega) (by omega)).trans_lt hc.last
    · rw [show U.length - t - p - 2 + t = U.length - p - 2 by omega]
      exact hc.last

theorem remL_span {t : ℕ} (ht : t < s) : IsSpan (remL U r (t + 1)) u (r - t - 1) := by
  have hpr := H.pr
  have hlen := H.len
  have hrn := H.rn
  refine ⟨by rw [remL_length]; omega, ?_, Or.inl ?_⟩
  · rw [kn_remL _ _ _ _ (by omega), if_pos (by omega)]
    by_cases h : r - t - 1 + s ≤ r
    · exact (H.lo _ h).le
    · exact (H.mid _ (by omega) (by omega)).le
  · rw [kn_remL _ _ _ _ (by omega), if_neg (by omega)]
    exact H.hi _ (by omega) (by omega)

theorem insL_remL {t : ℕ} (ht : t < s) : insL (remL U r (t + 1)) (r - t - 1) u = remL U r t := by
  have hpr := H.pr
  have hlen := H.len
  have hrn := H.rn
  apply list_ext_kn (by rw [insL_length, remL_length, remL_length]; omega)
  intro i hi
  rw [insL_length, remL_length] at hi
  rw [kn_insL _ _ _ (by rw [remL_length]; omega), kn_remL U r t _ (by omega)]
  unfold insU
  by_cases c1 : i ≤ r - t - 1
  · rw [if_pos c1, kn_remL _ _ _ _ (by omega), if_pos (by omega), if_pos (by omega)]
  · rw [if_neg c1]
    by_cases c2 : i = r - t - 1 + 1
    · rw [if_pos c2, if_pos (by omega)]
      exact (H.mid _ (by omega) (by omega)).symm
    · rw [if_neg c2, if_neg (by omega), kn_remL _ _ _ _ (by omega), if_neg (by omega)]
      congr 1; omega

/-- The relation solved by a round is knot insertion. -/
theorem insP_of_rel {t : ℕ} (ht : t < s) (hs2 : s ≤ p + 1) {F G : ℕ → Vec4 K} (hR : RemRel (kn U) u p s r t F G) (i : ℕ) :
    F i = insP (kn (remL U r (t + 1))) (r - t - 1) u p G i := by
  have hpr := H.pr
  have hlen := H.len
  have hrn := H.rn
  unfold insP
  by_cases c1 : i + p ≤ r - t - 1
  · rw [if_pos c1, hR.left i (by omega)]
  · rw [if_neg c1]
    by_cases c2 : i ≤ r - t - 1
    · rw [if_pos c2]
      have e1 : kn (remL U r (t + 1)) i = kn U i := by rw [kn_remL _ _ _ _ (by omega), if_pos (by omega)]
      have e2 : kn (remL U r (t + 1)) (i + p) = kn U (i + (p + 1) + t) := by
        rw [kn_remL _ _ _ _ (by omega), if_neg (by omega)]; congr 1; omega
      have hhi := H.hi (i + (p + 1) + t) (by omega) (by omega)
      by_cases c3 : i + s ≤ r
      · have hlo := H.lo i c3
        have hne : kn (remL U r (t + 1)) (i + p) - kn (remL U r (t + 1)) i ≠ 0 := by
          rw [e1, e2]; exact (sub_pos.mpr (hlo.trans hhi)).ne'
        rw [← alpha_form _ _ _ _ _ hne, e1, e2, hR.mid i (by omega) c3]
        rfl
      · have hm := H.mid i (by omega) (by omega)
        unfold step
        rw [e1, e2, hm, sub_self, zero_div, zero_smul, add_zero, div_self (sub_pos.mpr hhi).ne', one_smul, hR.right i (by omega) (by omega)]
    · rw [if_neg c2, hR.right i (by omega) (by omega)]

/-- Conversely. -/
theorem rel_of_insP {F G : ℕ → Vec4 K} (hF : ∀ i, F i = insP (kn (remL U r 1)) (r - 1) u p G i) :
    RemRel (kn U) u p s r 0 F G := by
  have hpr := H.pr
  have hlen := H.len
  have hrn := H.rn
  have hs1 := H.s1
  have e1 : ∀ i, i ≤ r - 1 → kn (remL U r 1) i = kn U i := fun i hi => by rw [kn_remL _ _ _ _ (by omega), if_pos (by omega)]
  have e2 : ∀ i, r - 1 < i + p → i ≤ r - 1 → kn (remL U r 1) (i + p) = kn U (i + (p + 1) + 0) := fun i hi hi2 => by
        rw [kn_remL _ _ _ _ (by omega), if_neg (by omega)]; congr 1
  refine ⟨?_, ?_, ?_⟩
  · intro i hi
    rw [hF, insP, if_pos (by omega)]
  · intro i hi1 hi2
    have hhi := H.hi (i + (p + 1) + 0) (by omega) (by omega)
    have hlo := H.lo i hi2
    have hne : kn (remL U r 1) (i + p) - kn (remL U r 1) i ≠ 0 := by
      rw [e1 i (by omega), e2 i (by omega) (by omega)]; exact (sub_pos.mpr (hlo.trans hhi)).ne'
    rw [hF, insP, if_neg (by omega), if_pos (by omega), ← alpha_form _ _ _ _ _ hne, e1 i (by omega), e2 i (by omega) (by omega)]
    rfl
  · intro i hi' hi
    rw [hF, insP, if_neg (by omega)]
    by_cases c : i ≤ r - 1
    · have hhi := H.hi (i + (p + 1) + 0) (by omega) (by omega)
      rw [if_pos c, step, e1 i (by omega), e2 i (by omega) (by omega), H.mid i (by omega) (by omega), sub_self, zero_div, zero_smul, add_zero,
        div_self (sub_pos.mpr hhi).ne', one_smul]
    · rw [if_neg c]

/-- Exact removals do not change the curve. -/
theorem chain_polar (hc : Clamped p U) (h0 : 0 < u) (h1 : u < 1) (hs2 : s ≤ p + 1) {F0 : ℕ → Vec4 K} {t : ℕ} {G : ℕ → Vec4 K}
    (hch : RemChain (kn U) u p s r F0 t G) : t ≤ s → ∀ x, 0 ≤ x → x ≤ 1 → ∀ a b, IsSpan U x a → IsSpan (remL U r t) x b →
      ∀ ts : List K, ts.length = p → blos (kn (remL U r t)) ts G b = blos (kn U) ts F0 a := by
  induction hch with
  | zero =>
    intro _ x hx0 hx1 a b ha hb ts _
    rw [remL_zero] at hb ⊢
    rw [isSpan_unique hc.sorted ha hb (fun i hi => hc.le_one hi)]
  | @succ t G G' _ hR ih =>
    intro ht x hx0 hx1 a b ha hb ts hts
    have hct := remL_clamped H hc (t := t) (by omega)
    have hct' := remL_clamped H hc ht
    obtain ⟨m, hm, hpm, hlm⟩ := exists_span hct hx0 hx1
    rw [← ih (by omega) x hx0 hx1 a m ha hm ts hts]
    have hm' := hm
    rw [← insL_remL H (show t < s by omega)] at hm'
    have e := insL_blos hct' (remL_span H (show t < s by omega)) h0 h1 hm' hx0 hx1 G' ts hts
    have hb' := insL_span (remL_span H (show t < s by omega)) h1 hm'
    rw [isSpan_unique hct'.sorted hb hb' (fun i hi => hct'.le_one hi), ← e, insL_remL H (show t < s by omega)]
    congr 1
    funext i
    exact (insP_of_rel H (by omega) hs2 hR i).symm

end

/-! ### establishing the context -/

theorem remCtx_of {U : List K} {u : K} {p s r n : ℕ} (hc : Clamped p U) (h0 : 0 < u) (h1 : u < 1) (hr : IsSpan U u r)
    (hn : U.length = n + p + 1) (hs : U.count u = s) (hs1 : 1 ≤ s) (hs2 : s ≤ p + 2) : RemCtx U u p s r n := by
  obtain ⟨r', hr', hpr, hlr⟩ := exists_span hc h0.le h1.le
  obtain rfl : r = r' := isSpan_unique hc.sorted hr hr' (fun i hi => hc.le_one hi)
  have hhi : ∀ i, r < i → i < U.length → u < kn U i := by
    intro i hi hil
    have hkv : u < kn U (r + 1) := by
      rcases hr.2.2 with h | h
      · exact h
      · exact absurd h.1 h1.ne
    exact hkv.trans_le (kn_mono hc.sorted (by omega) hil)
  have hle : ∀ i, i ≤ r → kn U i ≤ u := fun i hi => (kn_mono hc.sorted hi (by omega)).trans hr.2.1
  have split : ∀ i, i ≤ r + 1 → U.count u = (U.take i).count u + ((U.take (r + 1)).drop i).count u := by
    intro i hi
    have e1 : U = U.take (r + 1) ++ U.drop (r + 1) := (List.take_append_drop _ _).symm
    have e2 : U.take (r + 1) = U.take i ++ (U.take (r + 1)).drop i := by
      conv_lhs => rw [← List.take_append_drop i (U.take (r + 1))]
      rw [List.take_take, Nat.min_eq_left hi]
    have e3 : (U.drop (r + 1)).count u = 0 := by
      apply List.count_eq_zero.mpr
      intro hm
      obtain ⟨j, hj, e⟩ := List.getElem_of_mem hm
      rw [List.getElem_drop, ← kn_eq_getElem] at e
      rw [List.length_drop] at hj
      exact absurd e (hhi _ (by omega) (by omega)).ne'
    conv_lhs => rw [e1, List.count_append, e3, add_zero, e2, List.count_append]
  have hlo : ∀ i, i + s ≤ r → kn U i < u := by
    intro i hi
    by_contra hcon
    have heq : ∀ j, i ≤ j → j ≤ r → kn U j = u := fun j h1 h2 =>
      le_antisymm (hle j h2) ((not_lt.mp hcon).trans (kn_mono hc.sorted h1 (by omega)))
    have e := split i (by omega)
    have : ((U.take (r + 1)).drop i).count u = r + 1 - i := by
      rw [List.count_eq_length.mpr]
      · rw [List.length_drop, List.length_take]; omega
      · intro b hb
        obtain ⟨j, hj, e⟩ := List.getElem_of_mem hb
        rw [List.length_drop, List.length_take] at hj
        rw [List.getElem_drop, List.getElem_take, ← kn_eq_getElem] at e
        rw [← e, heq _ (by omega) (by omega)]
    omega
  have hmid : ∀ i, r < i + s → i ≤ r → kn U i = u := by
    intro i hi1 hi2
    by_contra hcon
    have hlt : kn U i < u := lt_of_le_of_ne (hle i hi2) hcon
    have e := split (i + 1) (by omega)
    have z : (U.take (i + 1)).count u = 0 := by
      apply List.count_eq_zero.mpr
      intro hm
      obtain ⟨j, hj, e⟩ := List.getElem_of_mem hm
      rw [List.length_take] at hj
      rw [List.getElem_take, ← kn_eq_getElem] at e
      exact absurd e ((kn_mono hc.sorted (show j ≤ i by omega) (by omega)).trans_lt hlt).ne
    have := List.count_le_length (a := u) (l := (U.take (r + 1)).drop (i + 1))
    rw [List.length_drop, List.length_take] at this
    omega
  refine ⟨hn, by omega, ?_, hs1, hs2, hlo, hmid, hhi⟩
  by_contra hcon
  have := hmid p (by omega) hpr
  rw [hc.zeros p le_rfl] at this
  exact absurd this h0.ne

end Nurbs
