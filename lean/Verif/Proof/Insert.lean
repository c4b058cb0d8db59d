import Verif.Proof.Curve

/-! # Boehm's knot insertion (abstract part) -/

set_option linter.unusedSectionVars false

namespace Nurbs
open Nurbs.Spec

section abstract
variable {K : Type} [Field K] {V : Type} [AddCommGroup V] [Module K V]

/-- Knots after inserting `v` behind index `k`. -/
def insU (U : ℕ → K) (k : ℕ) (v : K) : ℕ → K := fun j => if j ≤ k then U j else if j = k + 1 then v else U (j - 1)

/-- Boehm's control points. -/
def insP (U : ℕ → K) (k : ℕ) (v : K) (p : ℕ) (P : ℕ → V) : ℕ → V := fun i =>
  if i + p ≤ k then P i else if i ≤ k then step U p v P i else P (i - 1)

theorem win_append (U : ℕ → K) (i a b : ℕ) : win U i (a + b) = win U i a ++ win U (i + a) b := by
  induction b with
  | zero => simp [win]
  | succ b ih => rw [← add_assoc, win_succ', ih, win_succ', List.append_assoc]; congr 3; congr 1; omega

theorem win_insU_perm (U : ℕ → K) (k : ℕ) (v : K) (i q : ℕ) (h1 : i ≤ k) (h2 : k < i + (q + 1)) :
    (win (insU U k v) i (q + 1)).Perm (v :: win U i q) := by
  obtain ⟨a, rfl⟩ : ∃ a, k = i + a := ⟨k - i, by omega⟩
  obtain ⟨b, rfl⟩ : ∃ b, q = a + b := ⟨q - a, by omega⟩
  rw [show a + b + 1 = a + (b + 1) by omega, win_append, win_succ, win_append U i a b]
  have e1 : win (insU U (i + a) v) i a = win U i a := win_congr fun j _ h => by simp [insU, h]
  have e2 : insU U (i + a) v (i + a + 1) = v := by simp [insU]
  have e3 : win (insU U (i + a) v) (i + a + 1) b = win U (i + a) b := by
    unfold win
    apply List.map_congr_left
    intro j _
    unfold insU
    rw [if_neg (by omega), if_neg (by omega)]
    congr 1; omega
  rw [e1, e2, e3]
  exact List.perm_middle

/-- The control points after insertion are blossom values of the old curve. -/
theorem insP_eq_blos (U : ℕ → K) (k : ℕ) (v : K) (p : ℕ) (P : ℕ → V) (hpk : p ≤ k) (hrk : RegSpan U k p) (s : ℕ)
    (hs' : p ≤ (if s ≤ k then s else s - 1)) (hr' : RegSpan U (if s ≤ k then s else s - 1) p) (i : ℕ)
    (h1 : s ≤ i + p) (h2 : i ≤ s) :
    insP U k v p P i = blos U (win (insU U k v) i p) P (if s ≤ k then s else s - 1) := by
  unfold insP
  by_cases hA : i + p ≤ k
  · rw [if_pos hA]
    have e : win (insU U k v) i p = win U i p := win_congr fun j _ h => by
      simp [insU, show j ≤ k by omega]
    rw [if_pos (show s ≤ k by omega)] at hs' hr' ⊢
    rw [e, blos_win U s p i P hs' hr' h1 h2]
  · rw [if_neg hA]
    by_cases hB : i ≤ k
    · rw [if_pos hB]
      obtain ⟨q, rfl⟩ : ∃ q, p = q + 1 := ⟨p - 1, by omega⟩
      have hF := multiAffine_blos U (if s ≤ k then s else s - 1) (q + 1) P hs' hr'
      generalize hs0 : (if s ≤ k then s else s - 1) = s0 at *
      have hcase : (s ≤ k ∧ s0 = s) ∨ (k < s ∧ s0 = s - 1) := by
        rw [← hs0]; by_cases h : s ≤ k
        · left; simp [h]
        · right; simp [h]; omega
      have e1 := hF.perm (win (insU U k v) i (q + 1)) _ (by simp) (win_insU_perm U k v i q hB (by omega))
      have e2 := hF.interp (a := U i) (b := U (i + (q + 1))) v (win U i q) (by simp) (hrk.sub_ne le_rfl (by omega) hB)
      have e3 : blos U (U i :: win U i q) P s0 = P (i - 1) := by
        have : U i :: win U i q = win U (i - 1) (q + 1) := by
          rw [win_succ]; congr 2 <;> omega
        rw [this]
        exact blos_win U s0 (q + 1) (i - 1) P hs' hr' (by omega) (by omega)
      have e4 : blos U (U (i + (q + 1)) :: win U i q) P s0 = P i := by
        have := hF.perm _ _ (by simp) (win_succ_perm U i q)
        rw [show i + 1 + q = i + (q + 1) by omega] at this
        rw [← this]
        exact blos_win U s0 (q + 1) i P hs' hr' (by omega) (by omega)
      rw [e3, e4] at e2
      rw [e1, e2]
      rfl
    · rw [if_neg hB]
      have e : win (insU U k v) i p = win U (i - 1) p := by
        unfold win
        apply List.map_congr_left
        intro j _
        unfold insU
        rw [if_neg (by omega), if_neg (by omega)]
        congr 1; omega
      rw [if_neg (show ¬ s ≤ k by omega)] at hs' hr' ⊢
      rw [e, blos_win U (s - 1) p (i - 1) P hs' hr' (by omega) (by omega)]

/-- Knot insertion preserves the polar form of every segment. -/
theorem blos_insP (U : ℕ → K) (k : ℕ) (v : K) (p : ℕ) (P : ℕ → V) (hpk : p ≤ k) (hrk : RegSpan U k p) (s : ℕ)
    (hs : p ≤ s) (hs' : p ≤ (if s ≤ k then s else s - 1)) (hr' : RegSpan U (if s ≤ k then s else s - 1) p)
    (hr : RegSpan (insU U k v) s p) (ts : List K) (ht : ts.length = p) :
    blos (insU U k v) ts (insP U k v p P) s = blos U ts P (if s ≤ k then s else s - 1) :=
  blos_dual (insU U k v) s p _ (fun ts => blos U ts P (if s ≤ k then s else s - 1))
    (multiAffine_blos U _ p P hs' hr') hs hr (fun i h1 h2 => insP_eq_blos U k v p P hpk hrk s hs' hr' i h1 h2) ts ht

end abstract

/-! ### lists of knots -/

section lists
variable {K : Type} [Field K] [LinearOrder K] [IsStrictOrderedRing K]

/-- `l` with `v` inserted behind index `k`. -/
def insL (l : List K) (k : ℕ) (v : K) : List K := l.take (k + 1) ++ [v] ++ l.drop (k + 1)

theorem insL_length (l : List K) (k : ℕ) (v : K) : (insL l k v).length = l.length + 1 := by
  simp only [insL, List.length_append, List.length_take, List.length_drop, List.length_singleton]; omega

theorem kn_insL (l : List K) (k : ℕ) (v : K) (hk : k < l.length) : ∀ j, kn (insL l k v) j = insU (kn l) k v j := by
  intro j
  unfold kn insL insU
  simp only [List.getD_eq_getElem?_getD]
  by_cases h1 : j ≤ k
  · rw [if_pos h1, List.append_assoc, List.getElem?_append_left (by simp; omega), List.getElem?_take, if_pos (by omega)]
  · rw [if_neg h1]
    by_cases h2 : j = k + 1
    · rw [if_pos h2]
      rw [List.getElem?_append_left (by simp; omega), List.getElem?_append_right (by simp; omega)]
      simp [h2, Nat.min_eq_left (show k + 1 ≤ l.length by omega)]
    · rw [if_neg h2, List.getElem?_append_right (by simp; omega), List.getElem?_drop]
      simp only [List.length_append, List.length_take, List.length_singleton]
      rw [show k + 1 + (j - (min (k + 1) l.length + 1)) = j - 1 by omega]

theorem kn_insL' (l : List K) (k : ℕ) (v : K) (hk : k < l.length) : kn (insL l k v) = insU (kn l) k v :=
  funext (kn_insL l k v hk)

theorem sorted_of_kn {l : List K} (h : ∀ i, i + 1 < l.length → kn l i ≤ kn l (i + 1)) : l.Pairwise (· ≤ ·) := by
  rw [List.pairwise_iff_getElem]
  intro i j hi hj hij
  rw [← kn_eq_getElem l i hi, ← kn_eq_getElem l j hj]
  induction j with
  | zero => omega
  | succ j ih =>
    rcases Nat.lt_or_ge i j with h' | h'
    · exact (ih (by omega) h').trans (h j hj)
    · obtain rfl : i = j := by omega
      exact h i hj

theorem insL_sorted {l : List K} (hs : l.Pairwise (· ≤ ·)) {k : ℕ} {v : K} (hk : k + 1 < l.length) (h1 : kn l k ≤ v)
    (h2 : v ≤ kn l (k + 1)) : (insL l k v).Pairwise (· ≤ ·) := by
  apply sorted_of_kn
  intro i hi
  rw [insL_length] at hi
  rw [kn_insL' l k v (by omega)]
  unfold insU
  split_ifs <;> try omega
  · exact kn_mono hs (by omega) (by omega)
  · have : i = k := by omega
    subst this; exact h1
  · have : i = k + 1 := by omega
    subst this; exact h2
  · exact kn_mono hs (by omega) (by omega)

theorem insL_perm {K : Type} (l : List K) (k : ℕ) (v : K) : (insL l k v).Perm (v :: l) := by
  unfold insL
  rw [List.append_assoc]
  refine List.perm_middle.trans ?_
  simp

theorem insL_clamped {p : ℕ} {l : List K} (hc : Clamped p l) {v : K} {k : ℕ} (hk : IsSpan l v k) (hpk : p ≤ k)
    (hl : k + p + 2 ≤ l.length) (h0 : 0 < v) (h1 : v < 1) : Clamped p (insL l k v) := by
  have hlen := hc.len
  have hkv : v < kn l (k + 1) := by
    rcases hk.2.2 with h | h
    · exact h
    · exact absurd h.1 h1.ne
  have hln := insL_length l k v
  refine ⟨by omega, insL_sorted hc.sorted (by omega) hk.2.1 hkv.le, ?_, ?_, ?_, ?_⟩
  · intro i hi
    rw [kn_insL l k v (by omega), insU, if_pos (by omega)]
    exact hc.zeros i hi
  · intro i hi1 hi2
    rw [kn_insL l k v (by omega), insU, if_neg (by omega), if_neg (by omega)]
    exact hc.ones _ (by omega) (by omega)
  · rw [kn_insL l k v (by omega), insU]
    split_ifs
    · exact hc.first
    · exact h0
    · omega
  · rw [kn_insL l k v (by omega), insU]
    have := hc.last
    split_ifs
    · have : kn l ((insL l k v).length - p - 2) ≤ kn l k := kn_mono hc.sorted (by omega) (by omega)
      exact lt_of_le_of_lt this (lt_of_le_of_lt hk.2.1 h1)
    · exact h1
    · rw [show (insL l k v).length - p - 2 - 1 = l.length - p - 2 by omega]
      exact this

/-- The old span that contains span `s` of the refined vector. -/
theorem insL_span {l : List K} {v x : K} {k s : ℕ} (hk : IsSpan l v k) (h1 : v < 1)
    (hs : IsSpan (insL l k v) x s) : IsSpan l x (if s ≤ k then s else s - 1) := by
  have hkl := hk.1
  have hkv : v < kn l (k + 1) := by
    rcases hk.2.2 with h | h
    · exact h
    · exact absurd h.1 h1.ne
  obtain ⟨a, b, c⟩ := hs
  rw [insL_length] at a
  rw [kn_insL' l k v (by omega)] at b c
  unfold insU at b c
  rcases Nat.lt_trichotomy s k with h | h | h
  · rw [if_pos h.le] at b c ⊢
    rw [if_pos (show s + 1 ≤ k by omega)] at c
    exact ⟨by omega, b, c⟩
  · subst h
    rw [if_pos le_rfl] at b c ⊢
    rw [if_neg (by omega), if_pos rfl] at c
    refine ⟨by omega, b, Or.inl ?_⟩
    rcases c with c | c
    · exact c.trans hkv
    · exact absurd c.2.2 h1.ne
  · rw [if_neg (show ¬ s ≤ k by omega)] at b c ⊢
    rw [if_neg (show ¬ s + 1 ≤ k by omega), if_neg (show ¬ s + 1 = k + 1 by omega), show s + 1 - 1 = s - 1 + 1 by omega] at c
    refine ⟨by omega, ?_, ?_⟩
    · split_ifs at b with h'
      · rw [show s - 1 = k by omega]; exact hk.2.1.trans b
      · exact b
    · rcases c with c | ⟨c1, c2, c3⟩
      · exact Or.inl c
      · refine Or.inr ⟨c1, ?_, c3⟩
        split_ifs at c2 with h'
        · rw [show s - 1 = k by omega]; exact lt_of_le_of_lt hk.2.1 h1
        · exact c2

theorem isSpan_left {l : List K} {s : ℕ} (h : s + 1 < l.length) (hlt : kn l s < kn l (s + 1)) : IsSpan l (kn l s) s :=
  ⟨h, le_rfl, Or.inl hlt⟩

/-- Segments of the refined curve are segments of the old curve (same polar form). -/
theorem insL_blos {V : Type} [AddCommGroup V] [Module K V] {p : ℕ} {l : List K} (hc : Clamped p l) {v x : K} {k s : ℕ}
    (hk : IsSpan l v k) (h0 : 0 < v) (h1 : v < 1) (hs : IsSpan (insL l k v) x s) (hx0 : 0 ≤ x) (hx1 : x ≤ 1) (P : ℕ → V) (ts : List K)
    (ht : ts.length = p) :
    blos (kn (insL l k v)) ts (insP (kn l) k v p P) s = blos (kn l) ts P (if s ≤ k then s else s - 1) := by
  obtain ⟨k', hk', hpk, hlk⟩ := exists_span hc h0.le h1.le
  obtain rfl : k = k' := isSpan_unique hc.sorted hk hk' (fun i hi => hc.le_one hi)
  have hc' := insL_clamped hc hk hpk hlk h0 h1
  have hs0 := insL_span hk h1 hs
  obtain ⟨s', hs', hps, hls⟩ := exists_span hc' hx0 hx1
  obtain rfl : s = s' := isSpan_unique hc'.sorted hs hs' (fun i hi => hc'.le_one hi)
  obtain ⟨s0', hs0', hps0, hls0⟩ := exists_span hc hx0 hx1
  obtain rfl := isSpan_unique hc.sorted hs0 hs0' (fun i hi => hc.le_one hi)
  have hr := regSpan_of_sorted hc'.sorted (IsSpan.lt hs) (show s + p < (insL l k v).length by omega)
  have hrk := regSpan_of_sorted hc.sorted (IsSpan.lt hk) (show k + p < l.length by omega)
  have hr0 := regSpan_of_sorted hc.sorted (IsSpan.lt hs0) (show _ + p < l.length by omega)
  rw [kn_insL' l k v (by omega)] at hr ⊢
  exact blos_insP (kn l) k v p P hpk hrk s hps hps0 hr0 hr ts ht

end lists
end Nurbs
