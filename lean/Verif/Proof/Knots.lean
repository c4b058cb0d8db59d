import Verif.Model.KnotVector
import Verif.Spec.Knots
import Verif.Proof.Loops

/-! # Lemmas about knot vectors -/

set_option linter.unusedSectionVars false

namespace Nurbs
open Spec

variable {K : Type}

theorem kn_eq_getElem [Zero K] (l : List K) (i : ℕ) (h : i < l.length) : kn l i = l[i] := by
  simp [kn, List.getD_eq_getElem?_getD, h]

theorem vget_kn [Zero K] (l : List K) (z : Int) (i : ℕ) (hz : z = i) (h : i < l.length) :
    vget l z = .ok (kn l i) := by
  subst hz; rw [vget_nat l i h, kn_eq_getElem l i h]

theorem kn_mono [LinearOrder K] [Zero K] {l : List K} (hs : l.Pairwise (· ≤ ·)) {i j : ℕ} (hij : i ≤ j)
    (hj : j < l.length) : kn l i ≤ kn l j := by
  rw [kn_eq_getElem l i (by omega), kn_eq_getElem l j hj]
  rcases Nat.lt_or_ge i j with h | h
  · exact List.pairwise_iff_getElem.mp hs i j (by omega) hj h
  · have : i = j := by omega
    subst this; exact le_refl _

section Order
variable [LinearOrder K] [Zero K] [One K]

/-! ### validation -/

theorem validateLoop_iff (last : K) (l : List K) :
    validateLoop last l = true ↔
      (last :: l).Pairwise (· ≤ ·) ∧ (last :: l).getLast (by simp) = 1 := by
  induction l generalizing last with
  | nil => simp [validateLoop]
  | cons v l ih =>
    simp only [validateLoop]
    by_cases h : v < last
    · simp only [if_pos h, Bool.false_eq_true, false_iff, not_and]
      intro hp
      have := (List.pairwise_cons.mp hp).1 v (by simp)
      exact absurd this (not_le.mpr h)
    · rw [if_neg h, ih]
      have hle : last ≤ v := not_lt.mp h
      rw [List.getLast_cons (by simp : v :: l ≠ [])]
      refine and_congr_left fun _ => ⟨fun hp => List.pairwise_cons.mpr ⟨?_, hp⟩,
        fun hp => (List.pairwise_cons.mp hp).2⟩
      intro a ha
      rcases List.mem_cons.mp ha with rfl | ha
      · exact hle
      · exact le_trans hle ((List.pairwise_cons.mp hp).1 a ha)

theorem validateKnots_iff (l : List K) : ValidateKnots l = true ↔ WellFormedValues l := by
  unfold ValidateKnots WellFormedValues
  cases l with
  | nil => simp
  | cons v l =>
    simp only [List.isEmpty_cons, Bool.false_eq_true, if_false, validateLoop_iff, ne_eq,
      reduceCtorEq, not_false_eq_true, true_and]
    rw [List.getLast_cons (by simp : v :: l ≠ []), List.pairwise_cons,
      List.getLast?_eq_some_getLast (by simp : v :: l ≠ [])]
    simp only [Option.some.injEq]
    tauto

theorem isValidLoop_iff (prev : K) (l : List K) :
    isValidLoop prev l = true ↔ (prev :: l).Pairwise (· ≤ ·) := by
  induction l generalizing prev with
  | nil => simp [isValidLoop]
  | cons v l ih =>
    simp only [isValidLoop]
    by_cases h : v < prev
    · simp only [if_pos h, Bool.false_eq_true, false_iff]
      intro hp
      exact absurd ((List.pairwise_cons.mp hp).1 v (by simp)) (not_le.mpr h)
    · rw [if_neg h, ih]
      refine ⟨fun hp => List.pairwise_cons.mpr ⟨?_, hp⟩, fun hp => (List.pairwise_cons.mp hp).2⟩
      intro a ha
      have hle : prev ≤ v := not_lt.mp h
      rcases List.mem_cons.mp ha with rfl | ha
      · exact hle
      · exact le_trans hle ((List.pairwise_cons.mp hp).1 a ha)

theorem isValid_iff (kv : KnotVector K) : kv.IsValid = true ↔ ValidKnots kv.Values := by
  obtain ⟨l⟩ := kv
  unfold KnotVector.IsValid ValidKnots
  cases l with
  | nil => simp
  | cons v l =>
    simp only
    by_cases h4 : (v :: l).length < 4
    · rw [if_pos h4]
      simp only [Bool.false_eq_true, false_iff]
      intro h; omega
    · rw [if_neg h4]
      by_cases h0 : v = 0
      · rw [if_neg (by simpa using h0)]
        by_cases h1 : (v :: l).getLast (by simp) = 1
        · rw [if_neg (by simpa using h1), isValidLoop_iff, List.getLast?_eq_some_getLast (by simp : v :: l ≠ [])]
          simp only [List.head?_cons, Option.some.injEq, h0, true_and]
          have : 4 ≤ (v :: l).length := by omega
          subst h0
          simp_all
        · rw [if_pos (by simpa using h1), List.getLast?_eq_some_getLast (by simp : v :: l ≠ [])]
          simp [h1]
      · rw [if_pos (by simpa using h0)]
        simp [h0]

/-! ### knot pairs -/

theorem knotPairsLoop_expand (len : Int) (i : Int) (last : K) (mult : ℕ) (l : List K) :
    expandPairs (knotPairsLoop len i last mult l) = List.replicate mult last ++ l := by
  induction l generalizing i last mult with
  | nil => simp [knotPairsLoop, expandPairs]
  | cons v l ih =>
    simp only [knotPairsLoop]
    by_cases h : v = last
    · subst h
      have := ih (i + 1) v (mult + 1)
      simp only [ne_eq, not_true, if_false]
      rw [show ((mult : Int) + 1) = ((mult + 1 : ℕ) : Int) by push_cast; ring, this]
      rw [List.replicate_succ', List.append_assoc]; rfl
    · have := ih (i + 1) v 1
      simp only [ne_eq, h, not_false_eq_true, if_true, expandPairs]
      rw [Nat.cast_one] at this
      rw [this]
      simp

theorem knotPairsLoop_spec (len : Int) (i : Int) (last : K) (mult : ℕ) (l : List K)
    (hs : (last :: l).Pairwise (· ≤ ·)) (hm : 1 ≤ mult) :
    let ps := knotPairsLoop len i last mult l
    (∃ q qs, ps = q :: qs ∧ q.Value = last) ∧
    (ps.map (·.Value)).Pairwise (· < ·) ∧ (∀ q ∈ ps, q.Value = last ∨ q.Value ∈ l) ∧
    ∀ q ∈ ps, 1 ≤ q.Multiplicity := by
  induction l generalizing i last mult with
  | nil =>
    simp [knotPairsLoop]; omega
  | cons v l ih =>
    have hv : last ≤ v := (List.pairwise_cons.mp hs).1 v (by simp)
    have hs' := (List.pairwise_cons.mp hs).2
    simp only [knotPairsLoop]
    by_cases h : v = last
    · subst h
      simp only [ne_eq, not_true, if_false]
      rw [show ((mult : Int) + 1) = ((mult + 1 : ℕ) : Int) by push_cast; ring]
      obtain ⟨h1, h2, h3, h4⟩ := ih (i + 1) v (mult + 1) hs' (by omega)
      refine ⟨h1, h2, fun q hq => ?_, h4⟩
      rcases h3 q hq with h | h
      · exact Or.inl h
      · exact Or.inr (by simp [h])
    · simp only [ne_eq, h, not_false_eq_true, if_true]
      obtain ⟨h1, h2, h3, h4⟩ := ih (i + 1) v 1 hs' (le_refl _)
      have hlt : last < v := lt_of_le_of_ne hv (Ne.symm h)
      refine ⟨⟨_, _, rfl, rfl⟩, ?_, ?_, ?_⟩
      · rw [List.map_cons, List.pairwise_cons]
        refine ⟨?_, by simpa using h2⟩
        intro a ha
        obtain ⟨q, hq, rfl⟩ := List.mem_map.mp ha
        rcases h3 q (by simpa using hq) with h | h
        · rw [h]; exact hlt
        · exact lt_of_lt_of_le hlt ((List.pairwise_cons.mp hs').1 _ h)
      · intro q hq
        rcases List.mem_cons.mp hq with rfl | hq
        · exact Or.inl rfl
        · right
          rcases h3 q (by simpa using hq) with h | h
          · simp [h]
          · simp [h]
      · intro q hq
        rcases List.mem_cons.mp hq with rfl | hq
        · simpa using hm
        · exact h4 q (by simpa using hq)

theorem expandPairs_count [DecidableEq K] (ps : List (KnotPair K)) (hs : (ps.map (·.Value)).Pairwise (· < ·))
    (hm : ∀ q ∈ ps, 1 ≤ q.Multiplicity) :
    ∀ q ∈ ps, (List.count q.Value (expandPairs ps) : Int) = q.Multiplicity := by
  induction ps with
  | nil => simp
  | cons a ps ih =>
    have hs' := List.pairwise_cons.mp (by simpa using hs : (a.Value :: ps.map (·.Value)).Pairwise (· < ·))
    have hnot : ∀ v, v ∈ expandPairs ps → ∃ q ∈ ps, q.Value = v := by
      clear ih hs hs' hm
      intro v hv
      induction ps with
      | nil => simp [expandPairs] at hv
      | cons b ps ih2 =>
        simp only [expandPairs, List.mem_append, List.mem_replicate] at hv
        rcases hv with ⟨_, rfl⟩ | hv
        · exact ⟨b, by simp, rfl⟩
        · obtain ⟨q, hq, rfl⟩ := ih2 hv
          exact ⟨q, by simp [hq], rfl⟩
    intro q hq
    have hma := hm a (by simp)
    rcases List.mem_cons.mp hq with rfl | hq
    · simp only [expandPairs, List.count_append, List.count_replicate_self]
      rw [List.count_eq_zero_of_not_mem]
      · omega
      · intro hmem
        obtain ⟨r, hr, hre⟩ := hnot _ hmem
        have := hs'.1 r.Value (List.mem_map.mpr ⟨r, hr, rfl⟩)
        exact absurd hre.symm (ne_of_lt this)
    · have hne : a.Value ≠ q.Value := ne_of_lt (hs'.1 q.Value (List.mem_map.mpr ⟨q, hq, rfl⟩))
      simp only [expandPairs, List.count_append]
      rw [List.count_replicate, if_neg (by simpa using hne)]
      have := ih hs'.2 (fun r hr => hm r (by simp [hr])) q hq
      simpa using this

/-! ### upper_bound -/

theorem upperBoundLoop_spec (l : List K) (u : K) (hs : l.Pairwise (· ≤ ·)) :
    ∀ (fuel first len : ℕ), len ≤ fuel → first + len ≤ l.length →
      (∀ i (h : i < l.length), i < first → l[i] ≤ u) →
      (∀ i (h : i < l.length), first + len ≤ i → u < l[i]) →
      let r := upperBoundLoop l u fuel first len
      r ≤ l.length ∧ (∀ i (h : i < l.length), i < r → l[i] ≤ u) ∧
        (∀ i (h : i < l.length), r ≤ i → u < l[i]) := by
  intro fuel
  induction fuel with
  | zero =>
    intro first len h1 h2 h3 h4
    simp only [upperBoundLoop]
    have : len = 0 := by omega
    subst this
    exact ⟨by omega, h3, h4⟩
  | succ fuel ih =>
    intro first len h1 h2 h3 h4
    simp only [upperBoundLoop]
    by_cases hl : len = 0
    · subst hl; simp only [if_true]; exact ⟨by omega, h3, h4⟩
    · rw [if_neg hl]
      have hm : first + len / 2 < l.length := by omega
      rw [List.getElem?_eq_getElem hm]
      simp only
      by_cases hu : u < l[first + len / 2]
      · rw [if_pos hu]
        apply ih _ _ (by omega) (by omega) h3
        intro i hi hle
        rcases Nat.lt_or_ge (first + len / 2) i with hlt | hge
        · exact lt_of_lt_of_le hu (List.pairwise_iff_getElem.mp hs _ _ hm hi hlt)
        · have : i = first + len / 2 := by omega
          subst this; exact hu
      · rw [if_neg hu]
        apply ih _ _ (by omega) (by omega)
        · intro i hi hlt
          rcases Nat.lt_or_ge i (first + len / 2) with hlt' | hge
          · exact le_trans (List.pairwise_iff_getElem.mp hs _ _ hi hm hlt') (not_lt.mp hu)
          · have : i = first + len / 2 := by omega
            subst this; exact not_lt.mp hu
        · intro i hi hle
          exact h4 i hi (by omega)

theorem upperBound_spec (l : List K) (u : K) (hs : l.Pairwise (· ≤ ·)) :
    upperBound l u ≤ l.length ∧ (∀ i (h : i < l.length), i < upperBound l u → l[i] ≤ u) ∧
      (∀ i (h : i < l.length), upperBound l u ≤ i → u < l[i]) := by
  apply upperBoundLoop_spec l u hs <;> simp
  intro i h h'
  omega

/-! ### spans of clamped vectors -/

/-- A clamped knot vector has exactly one span for every parameter. -/
theorem isSpan_unique {l : List K} (hs : l.Pairwise (· ≤ ·)) {u : K} {j k : ℕ}
    (hj : IsSpan l u j) (hk : IsSpan l u k) (h1 : ∀ i < l.length, kn l i ≤ 1) : j = k := by
  have key : ∀ {j k : ℕ}, IsSpan l u j → IsSpan l u k → ¬ j < k := by
    intro j k hj hk hjk
    obtain ⟨hj1, hj2, hj3⟩ := hj
    obtain ⟨hk1, hk2, hk3⟩ := hk
    have hm : kn l (j + 1) ≤ kn l k := kn_mono hs (by omega) (by omega)
    rcases hj3 with hj3 | ⟨rfl, hj3, hj4⟩
    · exact absurd hk2 (not_le.mpr (lt_of_lt_of_le hj3 hm))
    · rw [hj4] at hm
      rcases hk3 with hk3 | ⟨_, hk3, _⟩
      · exact absurd (h1 (k + 1) hk1) (not_le.mpr hk3)
      · exact absurd hk3 (not_lt.mpr hm)
  rcases Nat.lt_trichotomy j k with h | h | h
  · exact absurd h (key hj hk)
  · exact h
  · exact absurd h (key hk hj)

theorem Spec.Clamped.le_one {p : ℕ} {l : List K} (h : Clamped p l) {i : ℕ} (hi : i < l.length) : kn l i ≤ 1 := by
  have := h.len
  have h1 := h.ones (l.length - 1) (by omega) (by omega)
  rw [← h1]; exact kn_mono h.sorted (by omega) (by omega)

theorem Spec.Clamped.nonneg {p : ℕ} {l : List K} (h : Clamped p l) {i : ℕ} (hi : i < l.length) : 0 ≤ kn l i := by
  rw [← h.zeros 0 (by omega)]; exact kn_mono h.sorted (by omega) hi

theorem findSpanIndex_spec {p : ℕ} {kv : KnotVector K} (h : Clamped p kv.Values) {u : K} (h0 : 0 ≤ u)
    (h1 : u ≤ 1) :
    ∃ k : ℕ, kv.FindSpanIndex p u = .ok (k : Int) ∧ IsSpan kv.Values u k ∧ p ≤ k ∧
      k + p + 2 ≤ kv.Values.length := by
  obtain ⟨l⟩ := kv
  simp only at h ⊢
  have hl := h.len
  unfold KnotVector.FindSpanIndex
  simp only
  rw [massert_true ⟨h0, h1⟩]
  simp only [bind_ok]
  rw [massert_true (by omega), bind_ok, massert_true (by omega), bind_ok,
    vget_kn l ((l.length : Int) - 1) (l.length - 1) (by omega) (by omega), bind_ok,
    vget_kn l 0 0 (by simp) (by omega)]
  rw [h.ones (l.length - 1) (by omega) (by omega), h.zeros 0 (by omega)]
  by_cases hu1 : u = 1
  · rw [if_pos hu1]
    refine ⟨l.length - p - 2, by simp only [pure_ok]; congr 1; omega, ⟨by omega, ?_, ?_⟩, by omega, by omega⟩
    · rw [hu1]; exact h.le_one (by omega)
    · right
      refine ⟨hu1, h.last, h.ones _ (by omega) (by omega)⟩
  · rw [if_neg hu1]
    simp only [pure_ok, bind_ok]
    by_cases hu0 : u = 0
    · rw [if_pos hu0]
      refine ⟨p, rfl, ⟨by omega, ?_, ?_⟩, le_refl _, by omega⟩
      · rw [hu0, h.zeros p (le_refl _)]
      · left; rw [hu0]; exact h.first
    · rw [if_neg hu0]
      obtain ⟨hb1, hb2, hb3⟩ := upperBound_spec l u h.sorted
      have hlt1 : u < 1 := lt_of_le_of_ne h1 hu1
      have hgt0 : 0 < u := lt_of_le_of_ne h0 (Ne.symm hu0)
      have hpb : p + 1 ≤ upperBound l u := by
        by_contra hc
        have := hb3 p (by omega) (by omega)
        rw [← kn_eq_getElem l p (by omega), h.zeros p (le_refl _)] at this
        exact absurd this (not_lt.mpr h0)
      have hbl : upperBound l u ≤ l.length - p - 1 := by
        by_contra hc
        have := hb2 (l.length - p - 1) (by omega) (by omega)
        rw [← kn_eq_getElem l _ (by omega), h.ones _ (by omega) (by omega)] at this
        exact absurd this (not_le.mpr hlt1)
      refine ⟨upperBound l u - 1, by congr 1; omega, ⟨by omega, ?_, ?_⟩, by omega, by omega⟩
      · rw [kn_eq_getElem l _ (by omega)]; exact hb2 _ (by omega) (by omega)
      · left
        rw [kn_eq_getElem l _ (by omega)]; exact hb3 _ (by omega) (by omega)

end Order

end Nurbs
