import Verif.Proof.Knots
import Verif.Model.NaN
import Mathlib.Data.Finset.Card
import Mathlib.Data.Finset.Filter
import Mathlib.Data.List.Count
import Mathlib.Data.List.Perm.Basic
import Mathlib.Tactic.FieldSimp
import Mathlib.Tactic.Positivity

/-! # More lemmas about knot vectors: pairs, insertion, uniform vectors, clamping -/

set_option linter.unusedSectionVars false

namespace Nurbs
open Spec

variable {K : Type}

section Order
variable [LinearOrder K] [Zero K] [One K]

theorem getKnotPairs_expand (kv : KnotVector K) : expandPairs kv.GetKnotPairs = kv.Values := by
  obtain ⟨l⟩ := kv
  cases l with
  | nil => rfl
  | cons v l =>
    have := knotPairsLoop_expand ((v :: l).length : Int) 1 v 1 l
    simpa [KnotVector.GetKnotPairs] using this

theorem getKnotPairs_spec (kv : KnotVector K) (hs : kv.Values.Pairwise (· ≤ ·)) :
    (kv.GetKnotPairs.map (·.Value)).Pairwise (· < ·) ∧ ∀ q ∈ kv.GetKnotPairs, 1 ≤ q.Multiplicity := by
  obtain ⟨l⟩ := kv
  cases l with
  | nil => simp [KnotVector.GetKnotPairs]
  | cons v l =>
    have := knotPairsLoop_spec ((v :: l).length : Int) 1 v 1 l hs (le_refl _)
    exact ⟨by simpa [KnotVector.GetKnotPairs] using this.2.1,
      by simpa [KnotVector.GetKnotPairs] using this.2.2.2⟩

theorem mem_expandPairs (ps : List (KnotPair K)) (hm : ∀ q ∈ ps, 1 ≤ q.Multiplicity) (v : K) :
    v ∈ expandPairs ps ↔ ∃ q ∈ ps, q.Value = v := by
  induction ps with
  | nil => simp [expandPairs]
  | cons a ps ih =>
    have ha := hm a (by simp)
    simp only [expandPairs, List.mem_append, List.mem_replicate, ih (fun q hq => hm q (by simp [hq])),
      List.mem_cons, exists_eq_or_imp]
    have : a.Multiplicity.toNat ≠ 0 := by omega
    constructor
    · rintro (⟨_, rfl⟩ | h)
      · exact Or.inl rfl
      · exact Or.inr h
    · rintro (rfl | h)
      · exact Or.inl ⟨this, rfl⟩
      · exact Or.inr h

theorem getKnotPairs_mem (kv : KnotVector K) (hs : kv.Values.Pairwise (· ≤ ·)) (v : K) :
    v ∈ kv.Values ↔ ∃ q ∈ kv.GetKnotPairs, q.Value = v := by
  rw [← mem_expandPairs _ (getKnotPairs_spec kv hs).2, getKnotPairs_expand]

/-- The index each pair carries: for the last pair the position of its first knot, for the others
the position just behind its run. -/
theorem knotPairsLoop_index (len i : ℕ) (last : K) (mult : ℕ) (l : List K)
    (hl : len = i + l.length) :
    ∀ pre q post, knotPairsLoop (len : Int) i last mult l = pre ++ q :: post →
      q.Index = ((i : Int) - mult) + (expandPairs pre).length + (if post = [] then 0 else q.Multiplicity) := by
  induction l generalizing i last mult with
  | nil =>
    intro pre q post h
    simp only [knotPairsLoop] at h
    cases pre with
    | nil =>
      simp only [List.nil_append, List.cons.injEq] at h
      obtain ⟨rfl, rfl⟩ := h
      simp [expandPairs] at hl ⊢
      exact hl
    | cons a pre => simp at h
  | cons v l ih =>
    intro pre q post h
    simp only [knotPairsLoop] at h
    by_cases hv : v = last
    · simp only [ne_eq, hv, not_true, if_false] at h
      have := ih (i + 1) last (mult + 1) (by simp at hl; omega) pre q post (by push_cast; exact h)
      rw [this]; push_cast; ring
    · simp only [ne_eq, hv, not_false_eq_true, if_true] at h
      cases pre with
      | nil =>
        simp only [List.nil_append, List.cons.injEq] at h
        obtain ⟨rfl, h⟩ := h
        have hne : post ≠ [] := by
          intro hp
          rw [hp] at h
          have := knotPairsLoop_expand (len : Int) ((i : Int) + 1) v 1 l
          rw [Nat.cast_one, h] at this
          simp [expandPairs] at this
        simp [expandPairs, hne]
      | cons a pre =>
        simp only [List.cons_append, List.cons.injEq] at h
        obtain ⟨rfl, h⟩ := h
        have := ih (i + 1) v 1 (by simp at hl; omega) pre q post (by push_cast; exact h)
        rw [this]
        simp only [expandPairs, List.length_append, List.length_replicate]
        push_cast
        simp only [Int.toNat_natCast]
        ring

theorem expandPairs_append (a b : List (KnotPair K)) : expandPairs (a ++ b) = expandPairs a ++ expandPairs b := by
  induction a with
  | nil => rfl
  | cons x a ih => simp [expandPairs, ih]

/-- Position of the first knot of a pair. -/
theorem pairs_idxOf (ps : List (KnotPair K)) (hs : (ps.map (·.Value)).Pairwise (· < ·))
    (hm : ∀ q ∈ ps, 1 ≤ q.Multiplicity) (pre post : List (KnotPair K)) (q : KnotPair K)
    (h : ps = pre ++ q :: post) : (expandPairs ps).idxOf q.Value = (expandPairs pre).length := by
  subst h
  rw [expandPairs_append]
  have hnot : q.Value ∉ expandPairs pre := by
    intro hmem
    obtain ⟨r, hr, hre⟩ := (mem_expandPairs pre (fun r hr => hm r (by simp [hr])) _).mp hmem
    rw [List.map_append, List.pairwise_append] at hs
    have := hs.2.2 r.Value (List.mem_map.mpr ⟨r, hr, rfl⟩) q.Value (by simp)
    exact absurd hre (ne_of_lt this)
  rw [List.idxOf_append_of_notMem hnot]
  have hq := hm q (by simp)
  simp only [expandPairs]
  have : q.Multiplicity.toNat = (q.Multiplicity.toNat - 1) + 1 := by omega
  rw [this, List.replicate_succ]
  simp

theorem getKnotPairs_index (kv : KnotVector K) (hs : kv.Values.Pairwise (· ≤ ·))
    (pre post : List (KnotPair K)) (q : KnotPair K) (h : kv.GetKnotPairs = pre ++ q :: post) :
    q.Index = kv.Values.idxOf q.Value + (if post = [] then 0 else q.Multiplicity) := by
  obtain ⟨h1, h2⟩ := getKnotPairs_spec kv hs
  have h3 := pairs_idxOf _ h1 h2 pre post q h
  rw [getKnotPairs_expand] at h3
  rw [h3]
  obtain ⟨l⟩ := kv
  cases l with
  | nil => simp [KnotVector.GetKnotPairs] at h
  | cons v l =>
    have := knotPairsLoop_index (l.length + 1) 1 v 1 l (by omega) pre q post
      (by simpa [KnotVector.GetKnotPairs] using h)
    simpa using this

/-! ### FindSpan -/

theorem findSpanLoop_spec (ps : List (KnotPair K)) (u : K) (n : ℕ) (hn : n < ps.length)
    (h0 : ∀ q, ps.head? = some q → q.Value ≤ u) (hn0 : 0 < n) :
    ∃ i : ℕ, ∃ (hi : i + 1 < ps.length), i < n ∧
      findSpanLoop ps u n = .ok (some ⟨i, ps[i], ps[i + 1]⟩) ∧ ps[i].Value ≤ u ∧
      ∀ j (hj : j < ps.length), i < j → j < n → u < ps[j].Value := by
  induction n with
  | zero => omega
  | succ n ih =>
    simp only [findSpanLoop]
    rw [vget_nat ps n (by omega)]
    simp only [bind_ok]
    by_cases h : ps[n].Value ≤ u
    · rw [if_pos h]
      rw [show ((n : Int) + 1) = ((n + 1 : ℕ) : Int) by push_cast; ring, vget_nat ps (n + 1) hn]
      exact ⟨n, hn, by omega, rfl, h, fun j _ h1 h2 => by omega⟩
    · rw [if_neg h]
      by_cases hz : n = 0
      · subst hz
        exact absurd (h0 ps[0] (by rw [List.head?_eq_getElem?]; simp)) h
      · obtain ⟨i, hi, h1, h2, h3, h4⟩ := ih (by omega) (by omega)
        refine ⟨i, hi, by omega, h2, h3, fun j hj hij hjn => ?_⟩
        rcases Nat.lt_or_ge j n with hlt | hge
        · exact h4 j hj hij hlt
        · have : j = n := by omega
          subst this; exact not_le.mp h

/-! ### insertion -/

theorem knotInsert_ok (kv : KnotVector K) (v : K) (times : ℕ) (h0 : 0 < v) (h1 : v < 1) 
    (hs : kv.Values.Pairwise (· ≤ ·)) :
    kv.InsertKnot v times =
      .ok (⟨kv.Values.take (upperBound kv.Values v) ++ List.replicate times v ++
        kv.Values.drop (upperBound kv.Values v)⟩, (upperBound kv.Values v : Int) - 1) := by
  have hu := (upperBound_spec kv.Values v hs).1
  unfold KnotVector.InsertKnot
  rw [massert_true ⟨h0, h1⟩]
  simp only [bind_ok]
  rw [mthrowUnless_true (by omega)]
  simp only [bind_ok, vinsert]
  rw [if_pos ⟨by omega, by simpa using hu⟩]
  simp

theorem knotInsert_sorted (l : List K) (v : K) (times : ℕ) (hs : l.Pairwise (· ≤ ·)) :
    (l.take (upperBound l v) ++ List.replicate times v ++ l.drop (upperBound l v)).Pairwise (· ≤ ·) := by
  obtain ⟨hu1, hu2, hu3⟩ := upperBound_spec l v hs
  have ht : ∀ a ∈ l.take (upperBound l v), a ≤ v := by
    intro a ha
    obtain ⟨i, hi, rfl⟩ := List.mem_iff_getElem.mp ha
    simp only [List.length_take] at hi
    rw [List.getElem_take]; exact hu2 i (by omega) (by omega)
  have hd : ∀ a ∈ l.drop (upperBound l v), v ≤ a := by
    intro a ha
    obtain ⟨i, hi, rfl⟩ := List.mem_iff_getElem.mp ha
    simp only [List.length_drop] at hi
    rw [List.getElem_drop]; exact le_of_lt (hu3 _ (by omega) (by omega))
  rw [List.pairwise_append, List.pairwise_append]
  refine ⟨⟨hs.sublist (List.take_sublist _ _), ?_, ?_⟩, hs.sublist (List.drop_sublist _ _), ?_⟩
  · rw [List.pairwise_replicate]; right; exact le_refl v
  · intro a ha b hb
    rw [List.eq_of_mem_replicate hb]; exact ht a ha
  · intro a ha b hb
    rcases List.mem_append.mp ha with ha | ha
    · exact le_trans (ht a ha) (hd b hb)
    · rw [List.eq_of_mem_replicate ha]; exact hd b hb

theorem knotInsert_perm (l : List K) (v : K) (times : ℕ) :
    (l.take (upperBound l v) ++ List.replicate times v ++ l.drop (upperBound l v)).Perm
      (List.replicate times v ++ l) := by
  rw [List.append_assoc]
  refine (List.perm_append_comm_assoc _ _ _).trans ?_
  rw [List.take_append_drop]

/-! ### clamping -/

theorem clampCount0_eq (l : List K) (hs : l.Pairwise (· ≤ ·)) (h0 : ∀ a ∈ l, 0 ≤ a) :
    clampCount0 l = l.count 0 := by
  induction l with
  | nil => rfl
  | cons v l ih =>
    simp only [clampCount0]
    have hp := List.pairwise_cons.mp hs
    by_cases hv : v = 0
    · subst hv
      simp only [ne_eq, not_true, if_false, List.count_cons_self]
      rw [ih hp.2 (fun a ha => h0 a (by simp [ha]))]; push_cast; ring
    · simp only [ne_eq, hv, not_false_eq_true, if_true]
      rw [List.count_eq_zero_of_not_mem]
      · rfl
      · intro hm
        rcases List.mem_cons.mp hm with h | h
        · exact hv h.symm
        · exact hv (le_antisymm (hp.1 0 h) (h0 v (by simp)))

theorem clampCount1_eq (l : List K) (hs : l.Pairwise (fun a b => b ≤ a)) (h1 : ∀ a ∈ l, a ≤ 1) :
    clampCount1 l = (l.length : Int) - 1 - l.count 1 := by
  induction l with
  | nil => rfl
  | cons v l ih =>
    simp only [clampCount1]
    have hp := List.pairwise_cons.mp hs
    by_cases hv : v = 1
    · subst hv
      simp only [ne_eq, not_true, if_false, List.count_cons_self, List.length_cons]
      rw [ih hp.2 (fun a ha => h1 a (by simp [ha]))]; push_cast; ring
    · simp only [ne_eq, hv, not_false_eq_true, if_true]
      rw [List.count_eq_zero_of_not_mem]
      · simp
      · intro hm
        rcases List.mem_cons.mp hm with h | h
        · exact hv h.symm
        · exact hv (le_antisymm (h1 v (by simp)) (hp.1 1 h))

theorem ValidKnots.bounds {l : List K} (h : ValidKnots l) : ∀ a ∈ l, 0 ≤ a ∧ a ≤ 1 := by
  obtain ⟨h4, hh, hl, hs⟩ := h
  intro a ha
  obtain ⟨i, hi, rfl⟩ := List.mem_iff_getElem.mp ha
  rw [List.pairwise_iff_getElem] at hs
  constructor
  · rw [List.head?_eq_getElem?, List.getElem?_eq_some_iff] at hh
    obtain ⟨h0, hh⟩ := hh
    rw [← hh]
    rcases Nat.eq_zero_or_pos i with rfl | hp
    · exact le_refl _
    · exact hs 0 i h0 hi hp
  · rw [List.getLast?_eq_getElem?, List.getElem?_eq_some_iff] at hl
    obtain ⟨h0, hl⟩ := hl
    rw [← hl]
    rcases Nat.lt_or_ge i (l.length - 1) with hp | hp
    · exact hs i _ hi h0 hp
    · have : i = l.length - 1 := by omega
      subst this; exact le_refl _

theorem isClamped_iff (kv : KnotVector K) (h : ValidKnots kv.Values) :
    kv.IsClamped = true ↔ kv.Values.count 0 + kv.Values.count 1 + 1 = kv.Values.length := by
  have hb := ValidKnots.bounds h
  unfold KnotVector.IsClamped
  rw [decide_eq_true_iff, clampCount0_eq _ h.2.2.2 (fun a ha => (hb a ha).1),
    clampCount1_eq _ (List.pairwise_reverse.mpr h.2.2.2) (fun a ha => (hb a (List.mem_reverse.mp ha)).2)]
  simp only [List.length_reverse, List.count_reverse]
  omega

/-! ### NaN -/

theorem validateLoopF_num (last : K) (l : List K) :
    validateLoopF (.num last) (l.map .num) = validateLoop last l := by
  induction l generalizing last with
  | nil => simp [validateLoopF, validateLoop, Dbl.ne]
  | cons v l ih => simp only [List.map_cons, validateLoopF, validateLoop, Dbl.lt, ih]; simp

theorem validateLoopF_last (last : Dbl K) (l : List (Dbl K)) (h : validateLoopF last l = true) :
    (last :: l).getLast (by simp) = .num 1 := by
  induction l generalizing last with
  | nil =>
    cases last with
    | num x => simp [validateLoopF, Dbl.ne] at h; simp [h]
    | nan => simp [validateLoopF, Dbl.ne] at h
  | cons v l ih =>
    simp only [validateLoopF] at h
    rw [List.getLast_cons (by simp)]
    split at h
    · simp at h
    · exact ih v h

end Order

section Field
variable [Field K] [LinearOrder K] [IsStrictOrderedRing K]

/-! ### Uniform -/

theorem isUniformLoop_true (t : K) (l : List K) : ∀ (interval prev : K), (interval = 0 ∨ interval = t) →
    (prev :: l).IsChain (fun a b => b - a = 0 ∨ b - a = t) → isUniformLoop interval prev l = true := by
  induction l with
  | nil => intro _ _ _ _; rfl
  | cons v l ih =>
    intro interval prev hi hc
    rw [List.isChain_cons_cons] at hc
    simp only [isUniformLoop]
    by_cases h0 : interval = 0
    · rw [if_pos h0]; exact ih _ _ hc.1 hc.2
    · rw [if_neg h0]
      have hit : interval = t := by tauto
      rw [if_neg]
      · exact ih _ _ hi hc.2
      · rcases hc.1 with h | h
        · simp [h]
        · subst hit
          simp [Approx, h, eps6]

theorem detectDegreeLoop_replicate (n : ℕ) (i : Int) (v : K) (rest : List K) (hv : v ≠ 0) :
    detectDegreeLoop i (List.replicate n (0 : K) ++ v :: rest) = .ok (i + n - 1) := by
  induction n generalizing i with
  | zero => simp [detectDegreeLoop, hv]
  | succ n ih =>
    simp only [List.replicate_succ, List.cons_append, detectDegreeLoop, ne_eq, not_true, if_false]
    rw [ih]; congr 1; push_cast; ring

/-- The values `Uniform` builds, as a function of the index. -/
theorem uniform_values (d a : ℕ) :
    (KnotVector.Uniform (d : Int) (2 * d + 2 + a : ℕ) : M (KnotVector K)) =
      KnotVector.ofValues (List.replicate (d + 1) 0 ++
        (List.range a).map (fun i : ℕ => ((i : K) + 1) * (1 / ((a : K) + 1))) ++ List.replicate (d + 1) 1) := by
  have ha : (0 : K) < (a : K) + 1 := by positivity
  unfold KnotVector.Uniform
  have e : ((2 * d + 2 + a : ℕ) : Int) - ((d : Int) + 1) * 2 = a := by push_cast; ring
  simp only [e]
  rw [massert_true (by omega)]
  simp only [bind_ok]
  rw [mthrowUnless_true (by omega)]
  simp only [bind_ok, Int.cast_natCast]
  rw [fdiv_ok ha.ne']
  simp only [bind_ok]
  have e2 : ((d : Int) + 1).toNat = d + 1 := by omega
  simp [e2]

theorem pairwise_append_le {l₁ l₂ : List K} {c : K} (h1 : l₁.Pairwise (· ≤ ·)) (h2 : l₂.Pairwise (· ≤ ·))
    (ha : ∀ a ∈ l₁, a ≤ c) (hb : ∀ b ∈ l₂, c ≤ b) : (l₁ ++ l₂).Pairwise (· ≤ ·) :=
  List.pairwise_append.mpr ⟨h1, h2, fun a h b h' => le_trans (ha a h) (hb b h')⟩

theorem uniform_wellFormed (d a : ℕ) : WellFormedValues (List.replicate (d + 1) (0 : K) ++
        (List.range a).map (fun i : ℕ => ((i : K) + 1) * (1 / ((a : K) + 1))) ++ List.replicate (d + 1) 1) := by
  have ha : (0 : K) < (a : K) + 1 := by positivity
  have hmid0 : ∀ x ∈ (List.range a).map (fun i : ℕ => ((i : K) + 1) * (1 / ((a : K) + 1))), 0 ≤ x := by
    intro x hx
    obtain ⟨i, _, rfl⟩ := List.mem_map.mp hx
    positivity
  have hmid1 : ∀ x ∈ (List.range a).map (fun i : ℕ => ((i : K) + 1) * (1 / ((a : K) + 1))), x ≤ 1 := by
    intro x hx
    obtain ⟨i, hi, rfl⟩ := List.mem_map.mp hx
    have : ((i : K) + 1) ≤ (a : K) + 1 := by
      have : (i : K) ≤ a := by exact_mod_cast (List.mem_range.mp hi).le
      linarith
    rw [mul_one_div, div_le_one ha]; exact this
  have hmid : ((List.range a).map (fun i : ℕ => ((i : K) + 1) * (1 / ((a : K) + 1)))).Pairwise (· ≤ ·) := by
    rw [List.pairwise_map]
    refine List.pairwise_lt_range.imp ?_
    intro i j hij
    have : (i : K) ≤ j := by exact_mod_cast hij.le
    have h2 : (0 : K) ≤ 1 / ((a : K) + 1) := by positivity
    nlinarith
  refine ⟨by simp, ?_, ?_, ?_⟩
  · apply pairwise_append_le (c := 1)
    · apply pairwise_append_le (c := 0)
      · rw [List.pairwise_replicate]; exact Or.inr (le_refl _)
      · exact hmid
      · intro x hx; rw [List.eq_of_mem_replicate hx]
      · exact hmid0
    · rw [List.pairwise_replicate]; exact Or.inr (le_refl _)
    · intro x hx
      rcases List.mem_append.mp hx with hx | hx
      · rw [List.eq_of_mem_replicate hx]; exact zero_le_one
      · exact hmid1 x hx
    · intro x hx; rw [List.eq_of_mem_replicate hx]
  · intro x hx
    rcases List.mem_append.mp hx with hx | hx
    · rcases List.mem_append.mp hx with hx | hx
      · rw [List.eq_of_mem_replicate hx]
      · exact hmid0 x hx
    · rw [List.eq_of_mem_replicate hx]; exact zero_le_one
  · rw [List.replicate_succ' (n := d) (a := (1 : K)), ← List.append_assoc]; simp

/-! ### multiplicity -/

/-- `Approx` in exact arithmetic. -/
theorem approx_eq (a b e : K) : Approx a b e = decide (|a - b| < e) := rfl

theorem getMultiplicity_eq (kv : KnotVector K) (u : K) :
    kv.GetMultiplicity u = (kv.Values.countP fun v => decide (|v - u| < 1 / 1000000) : ℕ) := by
  unfold KnotVector.GetMultiplicity
  suffices H : ∀ (l : List K) (r : Int),
      l.foldl (fun result val => if Approx val u eps6 then result + 1 else result) r =
        r + (l.countP fun v => decide (|v - u| < 1 / 1000000) : ℕ) by simpa using H kv.Values 0
  intro l
  induction l with
  | nil => simp
  | cons v l ih =>
    intro r
    rw [List.foldl_cons, ih, List.countP_cons]
    simp only [approx_eq, eps6]
    by_cases h : |v - u| < 1 / 1000000
    · simp only [h, decide_true, if_true]; push_cast; ring
    · simp only [h, decide_false, Bool.false_eq_true, if_false]; simp

end Field

end Nurbs
