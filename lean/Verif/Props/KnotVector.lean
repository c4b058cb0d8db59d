import Verif.Proof.Knots2
import Mathlib.Algebra.Order.Ring.Rat
import Mathlib.Tactic.NormNum
import Mathlib.Tactic.IntervalCases

/-! # C01 – C12: properties of `KnotVector` -/

namespace Nurbs.Props
open Nurbs Nurbs.Spec

variable {K : Type}

/-! ## C01 -/

/-- C01: the constructor accepts exactly the well-formed vectors and keeps them unchanged, and throws
on every other vector. -/
theorem C01_constructor_accepts_exactly [LinearOrder K] [Zero K] [One K] (values : List K) :
    (WellFormedValues values → KnotVector.ofValues values = .ok ⟨values⟩) ∧
    (¬ WellFormedValues values → KnotVector.ofValues values = .error .throws) := by
  unfold KnotVector.ofValues
  rw [← validateKnots_iff]
  constructor
  · intro h; simp [h]
  · intro h; simp [h]

/-- The constructor from pairs accepts exactly when the expanded vector is well-formed. -/
theorem C01_pairs_constructor [LinearOrder K] [Zero K] [One K] (ps : List (KnotPair K)) :
    (WellFormedValues (ps.flatMap fun q => List.replicate q.Multiplicity.toNat q.Value) →
      KnotVector.ofPairs ps = .ok ⟨ps.flatMap fun q => List.replicate q.Multiplicity.toNat q.Value⟩) ∧
    (¬ WellFormedValues (ps.flatMap fun q => List.replicate q.Multiplicity.toNat q.Value) →
      KnotVector.ofPairs ps = .error .throws) := by
  have e : expandPairs ps = ps.flatMap fun q => List.replicate q.Multiplicity.toNat q.Value := by
    induction ps with
    | nil => rfl
    | cons a ps ih => simp [expandPairs, ih]
  unfold KnotVector.ofPairs
  rw [← validateKnots_iff, e]
  constructor
  · intro h; simp [h]
  · intro h; simp [h]

example : WellFormedValues ([0, 0, 1/2, 1, 1] : List ℚ) := by
  refine ⟨by simp, ?_, ?_, rfl⟩
  · norm_num
  · simp
example : ¬ WellFormedValues ([0, 1, 1/2, 1] : List ℚ) := by
  intro h; have := h.2.1; norm_num at this

/-! ## C02 -/

/-- C02 is false of the code: `{0, NaN, 1}` is accepted. -/
theorem C02_no_nan_refuted :
    ¬ ∀ (values : List (Dbl ℚ)) (kv : KnotVector (Dbl ℚ)),
      KnotVector.ofValuesF values = .ok kv → Dbl.nan ∉ kv.Values := by
  intro h
  have := h [.num 0, .nan, .num 1] ⟨[.num 0, .nan, .num 1]⟩ (by rfl)
  simp at this

/-- C02, what does hold: an accepted vector still ends in the number 1 (a trailing NaN is rejected),
and on vectors without NaN the constructor behaves exactly as C01 says.
Missing from the full claim: NaN in any position but the last is not detected. -/
theorem C02_no_nan_partial [LinearOrder K] [Zero K] [One K] :
    (∀ (values : List (Dbl K)) (kv : KnotVector (Dbl K)), KnotVector.ofValuesF values = .ok kv →
      kv.Values = values ∧ values.getLast? = some (.num 1)) ∧
    (∀ values : List K, (WellFormedValues values →
        KnotVector.ofValuesF (values.map .num) = .ok ⟨values.map .num⟩) ∧
      (¬ WellFormedValues values → KnotVector.ofValuesF (values.map Dbl.num) = .error .throws)) := by
  constructor
  · intro values kv h
    unfold KnotVector.ofValuesF at h
    split at h
    · simp at h
    · rename_i hv
      simp only [Except.ok.injEq] at h
      subst h
      refine ⟨rfl, ?_⟩
      unfold ValidateKnotsF at hv
      cases values with
      | nil => simp at hv
      | cons v l =>
        simp only [List.isEmpty_cons, Bool.false_eq_true, if_false, Bool.not_eq_eq_eq_not, Bool.not_true,
          Bool.not_eq_false] at hv
        have := validateLoopF_last _ _ hv
        rw [List.getLast_cons (by simp)] at this
        rw [List.getLast?_eq_some_getLast (by simp), this]
  · intro values
    have e : ValidateKnotsF (values.map Dbl.num) = ValidateKnots values := by
      unfold ValidateKnotsF ValidateKnots
      cases values with
      | nil => rfl
      | cons v l =>
        simp only [List.map_cons, List.isEmpty_cons, Bool.false_eq_true, if_false]
        exact validateLoopF_num 0 (v :: l)
    unfold KnotVector.ofValuesF
    rw [e, ← validateKnots_iff]
    exact ⟨fun h => by simp [h], fun h => by simp [h]⟩

example : KnotVector.ofValuesF ([.num 0, .num 0, .num 1, .num 1] : List (Dbl ℚ)) =
    .ok ⟨[.num 0, .num 0, .num 1, .num 1]⟩ := by rfl

/-! ## C03 -/

/-- C03: the pairs of a sorted vector list each distinct knot once, in increasing order, with its
number of occurrences, and expanding any vector's pairs gives the vector back. -/
theorem C03_pairs_roundtrip [LinearOrder K] [Zero K] [One K] (kv : KnotVector K) :
    (WellFormedValues kv.Values → KnotVector.ofPairs kv.GetKnotPairs = .ok kv) ∧
    ((kv.GetKnotPairs.flatMap fun q => List.replicate q.Multiplicity.toNat q.Value) = kv.Values) ∧
    (kv.Values.Pairwise (· ≤ ·) →
      (kv.GetKnotPairs.map (·.Value)).Pairwise (· < ·) ∧
      (∀ v, v ∈ kv.GetKnotPairs.map (·.Value) ↔ v ∈ kv.Values) ∧
      (∀ q ∈ kv.GetKnotPairs, q.Multiplicity = kv.Values.count q.Value)) := by
  have e : ∀ ps : List (KnotPair K), expandPairs ps =
      ps.flatMap fun q => List.replicate q.Multiplicity.toNat q.Value := by
    intro ps
    induction ps with
    | nil => rfl
    | cons a ps ih => simp [expandPairs, ih]
  refine ⟨fun h => ?_, by rw [← e, getKnotPairs_expand], fun hs => ?_⟩
  · have := (C01_pairs_constructor kv.GetKnotPairs).1
    rw [← e, getKnotPairs_expand] at this
    exact this h
  · obtain ⟨h1, h2⟩ := getKnotPairs_spec kv hs
    refine ⟨h1, fun v => ?_, fun q hq => ?_⟩
    · rw [getKnotPairs_mem kv hs, List.mem_map]
    · have := expandPairs_count _ h1 h2 q hq
      rw [getKnotPairs_expand] at this
      exact this.symm

example : (KnotVector.mk ([0, 0, 1/2, 1, 1] : List ℚ)).GetKnotPairs =
    [⟨2, 0, 2⟩, ⟨3, 1/2, 1⟩, ⟨3, 1, 2⟩] := by decide +kernel
example : WellFormedValues (KnotVector.mk ([0, 0, 1, 1] : List ℚ)).Values :=
  ⟨by simp, by simp, by simp, rfl⟩

/-! ## C04 -/

/-- C04 is false of the code: for `{0,0,1,1}` the pair of knot 0 carries index 2, not 0. -/
theorem C04_index_first_occurrence_refuted :
    ¬ ∀ (kv : KnotVector ℚ), WellFormedValues kv.Values →
      ∀ q ∈ kv.GetKnotPairs, q.Index = kv.Values.idxOf q.Value := by
  intro h
  have := h ⟨[0, 0, 1, 1]⟩ ⟨by simp, by simp, by simp, rfl⟩ ⟨2, 0, 2⟩ (by decide +kernel)
  simp at this

/-- C04, what does hold: the index of the last pair is the position of its first knot; the index of
every other pair is the position just behind its last knot (first position + multiplicity).
Missing from the full claim: all pairs but the last. -/
theorem C04_index_partial [LinearOrder K] [Zero K] [One K] (kv : KnotVector K)
    (hs : kv.Values.Pairwise (· ≤ ·)) (pre post : List (KnotPair K)) (q : KnotPair K)
    (h : kv.GetKnotPairs = pre ++ q :: post) :
    (post = [] → q.Index = kv.Values.idxOf q.Value) ∧
    (post ≠ [] → q.Index = kv.Values.idxOf q.Value + kv.Values.count q.Value) := by
  have h1 := getKnotPairs_index kv hs pre post q h
  have h2 := ((C03_pairs_roundtrip kv).2.2 hs).2.2 q (by rw [h]; simp)
  constructor
  · intro hp; rw [h1, if_pos hp]; ring
  · intro hp; rw [h1, if_neg hp, h2]

example : (KnotVector.mk ([0, 0, 1, 1] : List ℚ)).GetKnotPairs = [⟨2, 0, 2⟩] ++ ⟨2, 1, 2⟩ :: [] := by
  decide +kernel

/-! ## C05 -/

/-- C05: `IsValid` decides validity. -/
theorem C05_isValid_iff [LinearOrder K] [Zero K] [One K] (kv : KnotVector K) :
    kv.IsValid = true ↔ (4 ≤ kv.Values.length ∧ kv.Values.head? = some 0 ∧ kv.Values.getLast? = some 1 ∧
      kv.Values.Pairwise (· ≤ ·)) :=
  isValid_iff kv

example : (KnotVector.mk ([0, 0, 1/2, 1] : List ℚ)).IsValid = true := by decide +kernel
example : (KnotVector.mk ([0, 1/2, 1/3, 1] : List ℚ)).IsValid = false := by decide +kernel

/-! ## C06 -/

/-- C06: `FindSpanIndex` returns the one span containing the parameter, without out-of-bounds access. -/
theorem C06_findSpanIndex [LinearOrder K] [Zero K] [One K] (p : ℕ) (kv : KnotVector K)
    (h : Clamped p kv.Values) (u : K) (h0 : 0 ≤ u) (h1 : u ≤ 1) :
    ∃ k : ℕ, kv.FindSpanIndex p u = .ok (k : Int) ∧ p ≤ k ∧ k + p + 2 ≤ kv.Values.length ∧
      IsSpan kv.Values u k ∧ ∀ j, IsSpan kv.Values u j → j = k := by
  obtain ⟨k, h2, h3, h4, h5⟩ := findSpanIndex_spec h h0 h1
  exact ⟨k, h2, h4, h5, h3, fun j hj => isSpan_unique h.sorted hj h3 fun i hi => h.le_one hi⟩

/-- A clamped vector with a double interior knot. -/
theorem clamped_example : Clamped 2 ([0, 0, 0, 1/2, 1/2, 1, 1, 1] : List ℚ) where
  len := by simp
  sorted := by norm_num
  zeros := by intro i hi; interval_cases i <;> rfl
  ones := by intro i h1 h2; simp at h1 h2; interval_cases i <;> rfl
  first := by norm_num [kn]
  last := by norm_num [kn]

example : (KnotVector.mk ([0, 0, 0, 1/2, 1/2, 1, 1, 1] : List ℚ)).FindSpanIndex 2 (1/2) = .ok 4 := by
  decide +kernel

/-! ## C07 -/

/-- C07: `FindSpan` returns two consecutive distinct knots around the parameter, with their
multiplicities, and the ordinal of the left one. -/
theorem C07_findSpan [LinearOrder K] [Zero K] [One K] (kv : KnotVector K) (h01 : (0 : K) < 1)
    (hs : kv.Values.Pairwise (· ≤ ·)) (hh : kv.Values.head? = some 0) (hl : kv.Values.getLast? = some 1)
    (u : K) (h0 : 0 ≤ u) (h1 : u ≤ 1) :
    ∃ s : KnotSpan K, kv.FindSpan u = .ok (some s) ∧
      s.Left.Value ∈ kv.Values ∧ s.Right.Value ∈ kv.Values ∧ s.Left.Value < s.Right.Value ∧
      (∀ v ∈ kv.Values, ¬ (s.Left.Value < v ∧ v < s.Right.Value)) ∧
      s.Left.Value ≤ u ∧ (u < s.Right.Value ∨ (u = 1 ∧ s.Right.Value = 1)) ∧
      s.Left.Multiplicity = kv.Values.count s.Left.Value ∧
      s.Right.Multiplicity = kv.Values.count s.Right.Value ∧
      s.Index = ((kv.Values.toFinset.filter (· < s.Left.Value)).card : Int) := by
  obtain ⟨hp1, hp2, hp3⟩ := (C03_pairs_roundtrip kv).2.2 hs
  set ps := kv.GetKnotPairs with hps
  have hm0 : (0 : K) ∈ kv.Values := List.mem_of_mem_head? hh
  have hm1 : (1 : K) ∈ kv.Values := List.mem_of_mem_getLast? hl
  -- every knot is in [0,1]
  have hbd : ∀ v ∈ kv.Values, 0 ≤ v ∧ v ≤ 1 := by
    intro v hv
    obtain ⟨i, hi, rfl⟩ := List.mem_iff_getElem.mp hv
    rw [List.head?_eq_getElem?, List.getElem?_eq_some_iff] at hh
    obtain ⟨a0, hh⟩ := hh
    rw [List.getLast?_eq_getElem?, List.getElem?_eq_some_iff] at hl
    obtain ⟨a1, hl⟩ := hl
    have k0 := kn_mono hs (Nat.zero_le i) hi
    have k1 := kn_mono hs (show i ≤ kv.Values.length - 1 by omega) a1
    rw [kn_eq_getElem _ _ a0, kn_eq_getElem _ _ hi, hh] at k0
    rw [kn_eq_getElem _ _ a1, kn_eq_getElem _ _ hi, hl] at k1
    exact ⟨k0, k1⟩
  have hlen : 2 ≤ ps.length := by
    rcases Nat.lt_or_ge ps.length 2 with hlt | hge
    · exfalso
      obtain ⟨a, ha, ha0⟩ := List.mem_map.mp ((hp2 0).mpr hm0)
      obtain ⟨b, hb, hb1⟩ := List.mem_map.mp ((hp2 1).mpr hm1)
      match ps, hlt with
      | [], _ => simp at ha
      | [c], _ =>
        simp only [List.mem_singleton] at ha hb
        subst ha; subst hb
        rw [ha0] at hb1
        exact absurd hb1 (ne_of_lt h01)
    · exact hge
  have hmono : ∀ i j (hi : i < ps.length) (hj : j < ps.length), i < j → ps[i].Value < ps[j].Value := by
    intro i j hi hj hij
    have := List.pairwise_iff_getElem.mp hp1 i j (by simpa using hi) (by simpa using hj) hij
    simpa using this
  have hinj : ∀ i j (hi : i < ps.length) (hj : j < ps.length), ps[i].Value < ps[j].Value → i < j := by
    intro i j hi hj hlt
    by_contra hc
    rcases Nat.lt_or_ge j i with h | h
    · exact absurd (hmono j i hj hi h) (not_lt.mpr hlt.le)
    · have : i = j := by omega
      subst this; exact lt_irrefl _ hlt
  have hget : ∀ v ∈ kv.Values, ∃ i, ∃ (hi : i < ps.length), ps[i].Value = v := by
    intro v hv
    obtain ⟨q, hq, rfl⟩ := List.mem_map.mp ((hp2 v).mpr hv)
    obtain ⟨i, hi, rfl⟩ := List.mem_iff_getElem.mp hq
    exact ⟨i, hi, rfl⟩
  have hval : ∀ i (hi : i < ps.length), ps[i].Value ∈ kv.Values := fun i hi =>
    (hp2 _).mp (List.mem_map.mpr ⟨_, List.getElem_mem hi, rfl⟩)
  have hfirst : ps[0].Value = 0 := by
    obtain ⟨i, hi, h⟩ := hget 0 hm0
    rcases Nat.eq_zero_or_pos i with rfl | hpos
    · exact h
    · have := hmono 0 i (by omega) hi hpos
      rw [h] at this
      exact absurd (hbd _ (hval 0 (by omega))).1 (not_le.mpr this)
  have hlast : ps[ps.length - 1].Value = 1 := by
    obtain ⟨i, hi, h⟩ := hget 1 hm1
    rcases Nat.lt_or_ge i (ps.length - 1) with hlt | hge
    · have := hmono i (ps.length - 1) hi (by omega) hlt
      rw [h] at this
      exact absurd (hbd _ (hval _ (by omega))).2 (not_le.mpr this)
    · have : i = ps.length - 1 := by omega
      subst this; exact h
  obtain ⟨i, hi, hin, he, hle, hgt⟩ := findSpanLoop_spec ps u (ps.length - 1) (by omega)
    (by intro q hq
        rw [List.head?_eq_getElem?, List.getElem?_eq_some_iff] at hq
        obtain ⟨_, hq⟩ := hq
        rw [← hq, hfirst]; exact h0) (by omega)
  refine ⟨⟨i, ps[i], ps[i + 1]⟩, ?_, hval _ _, hval _ _, hmono _ _ _ _ (by omega), ?_, hle, ?_,
    hp3 _ (List.getElem_mem _), hp3 _ (List.getElem_mem _), ?_⟩
  · unfold KnotVector.FindSpan
    rw [massert_true ⟨h0, h1⟩]
    simp only [bind_ok]
    rw [massert_true (show kv.GetKnotPairs.length ≥ 2 from hlen)]
    exact he
  · rintro v hv ⟨ha, hb⟩
    obtain ⟨j, hj, rfl⟩ := hget v hv
    have := hinj _ _ _ _ ha
    have := hinj _ _ _ _ hb
    omega
  · rcases Nat.lt_or_ge (i + 1) (ps.length - 1) with hlt | hge
    · exact Or.inl (hgt _ _ (by omega) hlt)
    · have e : i + 1 = ps.length - 1 := by omega
      have : ps[i + 1].Value = 1 := by simp only [e]; exact hlast
      rcases lt_or_eq_of_le h1 with h | h
      · left; rw [this]; exact h
      · exact Or.inr ⟨h, this⟩
  · simp only
    have hset : kv.Values.toFinset.filter (· < ps[i].Value) =
        (Finset.range i).attach.image (fun j => (ps[j.1]'(by have := Finset.mem_range.mp j.2; omega)).Value) := by
      ext v
      simp only [Finset.mem_filter, List.mem_toFinset, Finset.mem_image, Finset.mem_attach, true_and,
        Subtype.exists, Finset.mem_range]
      constructor
      · rintro ⟨hv, hlt⟩
        obtain ⟨j, hj, rfl⟩ := hget v hv
        exact ⟨j, hinj _ _ _ _ hlt, rfl⟩
      · rintro ⟨j, hj, rfl⟩
        exact ⟨hval _ _, hmono _ _ _ _ hj⟩
    rw [hset, Finset.card_image_of_injective]
    · simp
    · intro a b hab
      simp only at hab
      have ha := Finset.mem_range.mp a.2
      have hb := Finset.mem_range.mp b.2
      rcases Nat.lt_trichotomy a.1 b.1 with h | h | h
      · exact absurd hab (ne_of_lt (hmono _ _ (by omega) (by omega) h))
      · exact Subtype.ext h
      · exact absurd hab.symm (ne_of_lt (hmono _ _ (by omega) (by omega) h))

example : (KnotVector.mk ([0, 0, 1/2, 1, 1] : List ℚ)).FindSpan (3/4) =
    .ok (some ⟨1, ⟨3, 1/2, 1⟩, ⟨3, 1, 2⟩⟩) := by decide +kernel

/-! ## C08 -/

/-- C08: inserting keeps the vector sorted, only adds the copies, keeps validity, and returns the index
of the last old knot not above the value (-1 if there is none). -/
theorem C08_insertKnot [LinearOrder K] [Zero K] [One K] (kv : KnotVector K) (v : K) (times : ℕ)
    (hs : kv.Values.Pairwise (· ≤ ·)) (h0 : 0 < v) (h1 : v < 1) :
    ∃ (kv' : KnotVector K) (idx : Int), kv.InsertKnot v times = .ok (kv', idx) ∧
      kv'.Values.Pairwise (· ≤ ·) ∧ kv'.Values.Perm (List.replicate times v ++ kv.Values) ∧
      (kv.IsValid = true → kv'.IsValid = true) ∧
      -1 ≤ idx ∧ idx < kv.Values.length ∧
      (∀ i (hi : i < kv.Values.length), (i : Int) ≤ idx ↔ kv.Values[i] ≤ v) := by
  obtain ⟨hu1, hu2, hu3⟩ := upperBound_spec kv.Values v hs
  refine ⟨_, _, knotInsert_ok kv v times h0 h1 hs, knotInsert_sorted _ _ _ hs, knotInsert_perm _ _ _, ?_,
    by omega, by omega, ?_⟩
  · intro hv
    rw [isValid_iff] at hv ⊢
    obtain ⟨h4, hh, hl, _⟩ := hv
    refine ⟨?_, ?_, ?_, knotInsert_sorted _ _ _ hs⟩
    · rw [(knotInsert_perm _ _ _).length_eq]; simp; omega
    · have hpos : 0 < upperBound kv.Values v := by
        rcases Nat.eq_zero_or_pos (upperBound kv.Values v) with hz | hp
        · rw [List.head?_eq_getElem?, List.getElem?_eq_some_iff] at hh
          obtain ⟨hl0, hh⟩ := hh
          have := hu3 0 hl0 (by omega)
          rw [hh] at this
          exact absurd this (not_lt.mpr h0.le)
        · exact hp
      rw [List.append_assoc, List.head?_append]
      rw [List.head?_take, if_neg (by omega), hh]; rfl
    · have hlt : upperBound kv.Values v < kv.Values.length := by
        rcases Nat.lt_or_ge (upperBound kv.Values v) kv.Values.length with h | h
        · exact h
        · rw [List.getLast?_eq_getElem?, List.getElem?_eq_some_iff] at hl
          obtain ⟨hl0, hl⟩ := hl
          have := hu2 _ hl0 (by omega)
          rw [hl] at this
          exact absurd this (not_le.mpr h1)
      rw [List.getLast?_append, List.getLast?_drop, if_neg (by omega), hl]; rfl
  · intro i hi
    constructor
    · intro h; exact hu2 i hi (by omega)
    · intro h
      by_contra hc
      exact absurd h (not_le.mpr (hu3 i hi (by omega)))

example : (KnotVector.mk ([0, 0, 1/2, 1, 1] : List ℚ)).InsertKnot (1/2) 2 =
    .ok (⟨[0, 0, 1/2, 1/2, 1/2, 1, 1]⟩, 2) := by decide +kernel

/-! ## C09 -/

/-- C09: `Uniform` builds the clamped vector with equally spaced interior knots; `IsUniform` and
`DetectDegree` recognise it. -/
theorem C09_uniform [Field K] [LinearOrder K] [IsStrictOrderedRing K] (degree count : Int)
    (hd : 0 ≤ degree) (hc : 2 * (degree + 1) ≤ count) :
    ∃ kv : KnotVector K, KnotVector.Uniform degree count = .ok kv ∧ (kv.Values.length : Int) = count ∧
      (∀ i : ℕ, (i : Int) ≤ degree → kn kv.Values i = 0) ∧
      (∀ i : ℕ, (i : Int) < count → count ≤ i + degree + 1 → kn kv.Values i = 1) ∧
      (∀ i : ℕ, degree ≤ i → (i : Int) + degree + 1 < count →
        kn kv.Values (i + 1) - kn kv.Values i = 1 / ((count : K) - 2 * degree - 1)) ∧
      kv.IsUniform = true ∧ kv.DetectDegree = .ok degree := by
  obtain ⟨d, rfl⟩ := Int.eq_ofNat_of_zero_le hd
  obtain ⟨a, ha⟩ := Int.eq_ofNat_of_zero_le (show 0 ≤ count - (2 * d + 2) by omega)
  obtain rfl : count = ((2 * d + 2 + a : ℕ) : Int) := by push_cast; omega
  have ha0 : (0 : K) < (a : K) + 1 := by positivity
  set l : List K := List.replicate (d + 1) (0 : K) ++
        (List.range a).map (fun i : ℕ => ((i : K) + 1) * (1 / ((a : K) + 1))) ++ List.replicate (d + 1) 1 with hl
  have hlen : l.length = 2 * d + 2 + a := by simp [hl]; omega
  have hz : ∀ i : ℕ, i ≤ d → kn l i = 0 := by
    intro i hi
    rw [kn_eq_getElem _ _ (by omega)]
    simp only [hl]
    rw [List.getElem_append_left (by simp; omega), List.getElem_append_left (by simp; omega)]
    simp
  have ho : ∀ i : ℕ, d + 1 + a ≤ i → i < 2 * d + 2 + a → kn l i = 1 := by
    intro i hi hi2
    rw [kn_eq_getElem _ _ (by omega)]
    simp only [hl]
    rw [List.getElem_append_right (by simp; omega)]
    simp
  have hm : ∀ i : ℕ, d ≤ i → i ≤ d + 1 + a → kn l i = ((i : K) - d) * (1 / ((a : K) + 1)) := by
    intro i h1 h2
    rcases Nat.eq_or_lt_of_le h1 with rfl | h3
    · rw [hz _ (le_refl _)]; simp
    · rcases Nat.eq_or_lt_of_le h2 with rfl | h4
      · rw [ho _ (le_refl _) (by omega)]; push_cast; field_simp; ring
      · rw [kn_eq_getElem _ _ (by omega)]
        simp only [hl]
        rw [List.getElem_append_left (by simp; omega), List.getElem_append_right (by simp; omega)]
        simp only [List.length_replicate, List.getElem_map, List.getElem_range]
        obtain ⟨j, rfl⟩ := Nat.exists_eq_add_of_lt h3
        rw [show d + j + 1 - (d + 1) = j by omega]
        push_cast; ring
  refine ⟨⟨l⟩, ?_, by simp [hlen], fun i hi => hz i (by omega), fun i h1 h2 => ho i (by omega) (by omega), ?_, ?_, ?_⟩
  · rw [uniform_values]
    exact (C01_constructor_accepts_exactly _).1 (uniform_wellFormed d a)
  · intro i h1 h2
    rw [hm i (by omega) (by omega), hm (i + 1) (by omega) (by omega)]
    push_cast
    rw [show (2 * (d : K) + 2 + a) - 2 * d - 1 = a + 1 by ring]
    ring
  · unfold KnotVector.IsUniform
    simp only
    have hchain : l.IsChain (fun x y => y - x = 0 ∨ y - x = 1 / ((a : K) + 1)) := by
      rw [List.isChain_iff_getElem]
      intro i hi
      rw [← kn_eq_getElem l i (by omega), ← kn_eq_getElem l (i + 1) hi]
      rcases Nat.lt_or_ge i d with h1 | h1
      · left; rw [hz _ (by omega), hz _ (by omega)]; simp
      · rcases Nat.lt_or_ge i (d + 1 + a) with h2 | h2
        · right; rw [hm i h1 (by omega), hm (i + 1) (by omega) (by omega)]; push_cast; ring
        · left; rw [ho _ (by omega) (by omega), ho _ (by omega) (by omega)]; simp
    cases hl' : l with
    | nil => rfl
    | cons v r => exact isUniformLoop_true _ r 0 v (Or.inl rfl) (hl' ▸ hchain)
  · unfold KnotVector.DetectDegree
    simp only
    cases a with
    | zero =>
      have : l = List.replicate (d + 1) (0 : K) ++ 1 :: List.replicate d 1 := by
        rw [hl]; simp [List.replicate_succ]
      rw [this, detectDegreeLoop_replicate _ _ _ _ one_ne_zero]
      congr 1; push_cast; ring
    | succ a =>
      rw [List.append_assoc, List.range_succ_eq_map] at hl
      simp only [List.map_cons, List.cons_append] at hl
      rw [hl, detectDegreeLoop_replicate]
      · congr 1; push_cast; ring
      · simp; positivity

example : (KnotVector.Uniform 1 6 : M (KnotVector ℚ)) = .ok ⟨[0, 0, 1/3, 2/3, 1, 1]⟩ := by decide +kernel

/-! ## C10 -/

/-- C10 is false of the code: `{0,0,0,1,1,1}` has equal end multiplicities, `IsClamped` says no. -/
theorem C10_isClamped_refuted :
    ¬ ∀ kv : KnotVector ℚ, kv.IsValid = true →
      (kv.IsClamped = true ↔ kv.Values.count 0 = kv.Values.count 1) := by
  intro h
  have := (h ⟨[0, 0, 0, 1, 1, 1]⟩ (by decide +kernel)).mpr (by decide +kernel)
  revert this
  decide +kernel

/-- C10, what does hold: on a valid vector `IsClamped` is true exactly when precisely one knot lies
strictly between 0 and 1.  Missing: this is unrelated to the end multiplicities being equal. -/
theorem C10_isClamped_partial [LinearOrder K] [Zero K] [One K] (h01 : (0 : K) ≠ 1) (kv : KnotVector K)
    (h : kv.IsValid = true) :
    kv.IsClamped = true ↔ (kv.Values.countP fun v => decide (0 < v ∧ v < 1)) = 1 := by
  rw [isValid_iff] at h
  rw [isClamped_iff kv h]
  have hb := ValidKnots.bounds h
  have : kv.Values.count 0 + kv.Values.count 1 + (kv.Values.countP fun v => decide (0 < v ∧ v < 1)) =
      kv.Values.length := by
    clear h
    generalize kv.Values = l at hb
    induction l with
    | nil => rfl
    | cons v l ih =>
      have := ih (fun a ha => hb a (by simp [ha]))
      have hv := hb v (by simp)
      simp only [List.count_cons, List.countP_cons, List.length_cons]
      by_cases hv0 : v = 0
      · subst hv0
        simp [h01] at this ⊢; omega
      · by_cases hv1 : v = 1
        · subst hv1
          simp [Ne.symm h01] at this ⊢; omega
        · have ha : 0 < v := lt_of_le_of_ne hv.1 (Ne.symm hv0)
          have hb : v < 1 := lt_of_le_of_ne hv.2 hv1
          simp [hv0, hv1, ha, hb] at this ⊢; omega
  omega

example : (KnotVector.mk ([0, 1/2, 1, 1, 1] : List ℚ)).IsValid = true ∧
    (KnotVector.mk ([0, 1/2, 1, 1, 1] : List ℚ)).IsClamped = true := by decide +kernel

/-! ## C11 -/

/-- C11: `Reverse` maps knot `i` to `1 - knot (m-i)`, is an involution, preserves count and validity
and swaps the multiplicity of `v` with that of `1 - v`. -/
theorem C11_reverse [Field K] [LinearOrder K] [IsStrictOrderedRing K] (kv : KnotVector K) :
    kv.Reverse.Values.length = kv.Values.length ∧
    (∀ i < kv.Values.length, kn kv.Reverse.Values i = 1 - kn kv.Values (kv.Values.length - 1 - i)) ∧
    kv.Reverse.Reverse = kv ∧ kv.Reverse.IsValid = kv.IsValid ∧
    (∀ v, kv.Reverse.Values.count v = kv.Values.count (1 - v)) := by
  have hlen : kv.Reverse.Values.length = kv.Values.length := by simp [KnotVector.Reverse]
  have hget : ∀ kv : KnotVector K, ∀ i < kv.Values.length,
      kn kv.Reverse.Values i = 1 - kn kv.Values (kv.Values.length - 1 - i) := by
    intro kv i hi
    rw [kn_eq_getElem _ _ (by simpa [KnotVector.Reverse] using hi), kn_eq_getElem _ _ (by omega)]
    simp [KnotVector.Reverse, List.getElem_reverse]
  have hinv : ∀ kv : KnotVector K, kv.Reverse.Reverse = kv := by
    rintro ⟨l⟩
    simp only [KnotVector.Reverse, KnotVector.mk.injEq]
    simp
  have hval : ∀ kv : KnotVector K, kv.IsValid = true → kv.Reverse.IsValid = true := by
    intro kv h
    rw [isValid_iff] at h ⊢
    obtain ⟨h4, hh, hl, hs⟩ := h
    refine ⟨by simpa [KnotVector.Reverse] using h4, ?_, ?_, ?_⟩
    · simp [KnotVector.Reverse, hl]
    · simp [KnotVector.Reverse, hh]
    · simp only [KnotVector.Reverse]
      rw [List.pairwise_map, List.pairwise_reverse]
      exact hs.imp (fun {a b} hab => by linarith)
  refine ⟨hlen, hget kv, hinv kv, ?_, ?_⟩
  · rw [Bool.eq_iff_iff]
    constructor
    · intro h; have := hval _ h; rwa [hinv] at this
    · exact hval kv
  · intro v
    simp only [KnotVector.Reverse]
    have := List.count_map_of_injective kv.Values.reverse (fun t : K => 1 - t)
      (fun a b h => by simpa using h) (1 - v)
    simp only [sub_sub_cancel, List.count_reverse] at this
    exact this

example : (KnotVector.mk ([0, 0, 1/3, 1, 1, 1] : List ℚ)).Reverse = ⟨[0, 0, 0, 2/3, 1, 1]⟩ := by decide +kernel

/-! ## C12 -/

/-- C12: `GetMultiplicity` counts the knots within `1e-6`, hence the exact multiplicity when the other
knots are farther away. -/
theorem C12_getMultiplicity [Field K] [LinearOrder K] [IsStrictOrderedRing K] (kv : KnotVector K) (u : K) :
    kv.GetMultiplicity u = ((kv.Values.filter fun v => |v - u| < 1 / 1000000).length : Int) ∧
    ((∀ v ∈ kv.Values, v ≠ u → 1 / 1000000 ≤ |v - u|) → kv.GetMultiplicity u = kv.Values.count u) := by
  rw [getMultiplicity_eq]
  refine ⟨by rw [List.countP_eq_length_filter], fun h => ?_⟩
  congr 1
  unfold List.count
  apply List.countP_congr
  intro v hv
  by_cases hvu : v = u
  · subst hvu; simp
  · simp only [decide_eq_true_eq, beq_iff_eq, hvu, iff_false, not_lt]
    exact h v hv hvu

example : (KnotVector.mk ([0, 0, 1/2, 1/2, 1] : List ℚ)).GetMultiplicity (1/2) = 2 := by decide +kernel

end Nurbs.Props
