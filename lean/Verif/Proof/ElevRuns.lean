import Verif.Proof.ElevRemove
import Verif.Props.KnotVector

/-! # Knot vectors as runs of equal knots -/

set_option linter.unusedSectionVars false

namespace Nurbs
open Nurbs.Spec

variable {K : Type} [Field K] [LinearOrder K] [IsStrictOrderedRing K]

/-- `l` consists of the values `u 0 < … < u s`, the value `u q` at the positions `S q … S (q+1) - 1`. -/
structure Runs (l : List K) (s : ℕ) (u : ℕ → K) (S : ℕ → ℕ) : Prop where
  S0 : S 0 = 0
  len : S (s + 1) = l.length
  up : ∀ q ≤ s, S q < S (q + 1)
  val : ∀ q ≤ s, ∀ i, S q ≤ i → i < S (q + 1) → kn l i = u q
  lt : ∀ q < s, u q < u (q + 1)

theorem Runs.S_mono {l : List K} {s : ℕ} {u : ℕ → K} {S : ℕ → ℕ} (h : Runs l s u S) {q r : ℕ} (hqr : q ≤ r) (hr : r ≤ s + 1) : S q ≤ S r := by
  induction r with
  | zero => obtain rfl : q = 0 := by omega
            exact le_rfl
  | succ r ih =>
    by_cases hq : q = r + 1
    · subst hq; exact le_rfl
    · exact (ih (by omega) (by omega)).trans (h.up r (by omega)).le

theorem Runs.S_add {l : List K} {s : ℕ} {u : ℕ → K} {S : ℕ → ℕ} (h : Runs l s u S) {q r : ℕ} (hqr : q ≤ r) (hr : r ≤ s + 1) : S q + (r - q) ≤ S r := by
  induction r with
  | zero => obtain rfl : q = 0 := by omega
            simp
  | succ r ih =>
    by_cases hq : q = r + 1
    · subst hq; simp
    · have := ih (by omega) (by omega)
      have := h.up r (by omega)
      omega

theorem Runs.u_mono {l : List K} {s : ℕ} {u : ℕ → K} {S : ℕ → ℕ} (h : Runs l s u S) {q r : ℕ} (hqr : q ≤ r) (hr : r ≤ s) : u q ≤ u r := by
  induction r with
  | zero => obtain rfl : q = 0 := by omega
            exact le_rfl
  | succ r ih =>
    by_cases hq : q = r + 1
    · subst hq; exact le_rfl
    · exact (ih (by omega) (by omega)).trans (h.lt r (by omega)).le

theorem Runs.u_lt {l : List K} {s : ℕ} {u : ℕ → K} {S : ℕ → ℕ} (h : Runs l s u S) {q r : ℕ} (hqr : q < r) (hr : r ≤ s) : u q < u r :=
  (h.lt q (by omega)).trans_le (h.u_mono hqr hr)

theorem Runs.find {l : List K} {s : ℕ} {u : ℕ → K} {S : ℕ → ℕ} (h : Runs l s u S) {r i : ℕ} (hr : r ≤ s + 1) (hi : i < S r) :
    ∃ q < r, S q ≤ i ∧ i < S (q + 1) := by
  induction r with
  | zero => rw [h.S0] at hi; omega
  | succ r ih =>
    by_cases hc : i < S r
    · obtain ⟨q, h1, h2⟩ := ih (by omega) hc
      exact ⟨q, by omega, h2⟩
    · exact ⟨r, by omega, by omega, hi⟩

theorem Runs.lt_of {l : List K} {s : ℕ} {u : ℕ → K} {S : ℕ → ℕ} (h : Runs l s u S) {q i : ℕ} (hq : q ≤ s) (hi : i < S q) : kn l i < u q := by
  obtain ⟨r, h1, h2, h3⟩ := h.find (by omega) hi
  rw [h.val r (by omega) i h2 h3]
  exact h.u_lt h1 hq

theorem Runs.gt_of {l : List K} {s : ℕ} {u : ℕ → K} {S : ℕ → ℕ} (h : Runs l s u S) {q i : ℕ} (hqs : q ≤ s) (hi : S (q + 1) ≤ i) (hl : i < l.length) :
    u q < kn l i := by
  rw [← h.len] at hl
  obtain ⟨r, h1, h2, h3⟩ := h.find le_rfl hl
  rw [h.val r (by omega) i h2 h3]
  apply h.u_lt _ (by omega)
  by_contra hc
  have := h.S_mono (q := r + 1) (r := q + 1) (by omega) (by omega)
  omega

/-! ### Building the list from its runs -/

def runsL (u : ℕ → K) (μ : ℕ → ℕ) (n : ℕ) : List K := (List.range n).flatMap fun q => List.replicate (μ q) (u q)

def sumTo (μ : ℕ → ℕ) (n : ℕ) : ℕ := ∑ i ∈ Finset.range n, μ i

theorem runsL_succ (u : ℕ → K) (μ : ℕ → ℕ) (n : ℕ) : runsL u μ (n + 1) = runsL u μ n ++ List.replicate (μ n) (u n) := by
  simp [runsL, List.range_succ]

theorem sumTo_succ (μ : ℕ → ℕ) (n : ℕ) : sumTo μ (n + 1) = sumTo μ n + μ n := Finset.sum_range_succ _ _

theorem runsL_length (u : ℕ → K) (μ : ℕ → ℕ) (n : ℕ) : (runsL u μ n).length = sumTo μ n := by
  induction n with
  | zero => rfl
  | succ n ih => rw [runsL_succ, sumTo_succ, List.length_append, ih, List.length_replicate]

theorem kn_append_right {a b : List K} {i : ℕ} (h : a.length ≤ i) : kn (a ++ b) i = kn b (i - a.length) := by
  simp [kn, List.getD_eq_getElem?_getD, List.getElem?_append_right h]

theorem runsL_kn (u : ℕ → K) (μ : ℕ → ℕ) (n : ℕ) {q i : ℕ} (hq : q < n) (h1 : sumTo μ q ≤ i) (h2 : i < sumTo μ (q + 1)) :
    kn (runsL u μ n) i = u q := by
  induction n with
  | zero => omega
  | succ n ih =>
    rw [runsL_succ]
    have hmono : sumTo μ (q + 1) ≤ sumTo μ n ∨ q = n := by
      by_cases h : q = n
      · exact Or.inr h
      · exact Or.inl (Finset.sum_le_sum_of_subset (by intro x; simp; omega))
    rcases hmono with h | rfl
    · by_cases hqn : q < n
      · rw [kn_append_left (by rw [runsL_length]; omega)]
        exact ih hqn
      · obtain rfl : q = n := by omega
        rw [sumTo_succ] at h h2
        omega
    · rw [kn_append_right (by rw [runsL_length]; omega), runsL_length]
      rw [sumTo_succ] at h2
      rw [kn_eq_getElem _ _ (by simp; omega)]
      simp

theorem runs_runsL {u : ℕ → K} {μ : ℕ → ℕ} {s : ℕ} (hu : ∀ q < s, u q < u (q + 1)) (hμ : ∀ q ≤ s, 1 ≤ μ q) :
    Runs (runsL u μ (s + 1)) s u (sumTo μ) where
  S0 := rfl
  len := (runsL_length _ _ _).symm
  up := fun q hq => by rw [sumTo_succ]; have := hμ q hq; omega
  val := fun q hq i h1 h2 => runsL_kn u μ _ (by omega) h1 h2
  lt := hu

theorem Runs.sorted {l : List K} {s : ℕ} {u : ℕ → K} {S : ℕ → ℕ} (h : Runs l s u S) : l.Pairwise (· ≤ ·) := by
  rw [List.pairwise_iff_getElem]
  intro i j hi hj hij
  rw [← kn_eq_getElem, ← kn_eq_getElem]
  obtain ⟨q, h1, h2, h3⟩ := h.find le_rfl (show i < S (s + 1) by rw [h.len]; exact hi)
  by_cases hc : j < S (q + 1)
  · rw [h.val q (by omega) i h2 h3, h.val q (by omega) j (by omega) hc]
  · rw [h.val q (by omega) i h2 h3]
    exact (h.gt_of (by omega) (by omega) hj).le

theorem runsL_count (u : ℕ → K) (μ : ℕ → ℕ) (n : ℕ) (v : K) :
    (runsL u μ n).count v = ∑ q ∈ Finset.range n, if u q = v then μ q else 0 := by
  induction n with
  | zero => rfl
  | succ n ih =>
    rw [runsL_succ, List.count_append, ih, Finset.sum_range_succ, List.count_replicate]
    simp

theorem runsL_mem (u : ℕ → K) (μ : ℕ → ℕ) (n : ℕ) (v : K) : v ∈ runsL u μ n ↔ ∃ q < n, μ q ≠ 0 ∧ v = u q := by
  simp [runsL]

theorem runsL_count_eq {u : ℕ → K} {μ : ℕ → ℕ} {s : ℕ} (hu : ∀ q r, q < r → r ≤ s → u q < u r) {q : ℕ} (hq : q ≤ s) :
    (runsL u μ (s + 1)).count (u q) = μ q := by
  rw [runsL_count, Finset.sum_eq_single q]
  · simp
  · intro r hr hne
    rw [Finset.mem_range] at hr
    rw [if_neg]
    rcases lt_or_gt_of_ne hne with h | h
    · exact (hu _ _ h hq).ne
    · exact (hu _ _ h (by omega)).ne'
  · intro h; exact absurd (Finset.mem_range.mpr (by omega)) h

theorem raised_runsL {u : ℕ → K} {μ : ℕ → ℕ} {s : ℕ} (t : ℕ) (hu : ∀ q < s, u q < u (q + 1)) (hμ : ∀ q ≤ s, 1 ≤ μ q) :
    Raised t (runsL u μ (s + 1)) (runsL u (fun q => μ q + t) (s + 1)) := by
  have hr := runs_runsL hu hμ
  have hr' := runs_runsL (μ := fun q => μ q + t) hu (fun q hq => by have := hμ q hq; omega)
  have hinj : ∀ q r, q < r → r ≤ s → u q < u r := fun q r h1 h2 => hr.u_lt h1 h2
  refine ⟨hr'.sorted, fun v => ?_⟩
  by_cases hv : ∃ q ≤ s, v = u q
  · obtain ⟨q, hq, rfl⟩ := hv
    rw [runsL_count_eq hinj hq, runsL_count_eq hinj hq, if_pos]
    rw [runsL_mem]
    exact ⟨q, by omega, by have := hμ q hq; omega, rfl⟩
  · have n1 : v ∉ runsL u μ (s + 1) := by
      rw [runsL_mem]
      rintro ⟨q, h1, _, h2⟩
      exact hv ⟨q, by omega, h2⟩
    have n2 : v ∉ runsL u (fun q => μ q + t) (s + 1) := by
      rw [runsL_mem]
      rintro ⟨q, h1, _, h2⟩
      exact hv ⟨q, by omega, h2⟩
    rw [if_neg n1, List.count_eq_zero.mpr n1, List.count_eq_zero.mpr n2]

theorem sumTo_add (μ : ℕ → ℕ) (t n : ℕ) : sumTo (fun q => μ q + t) n = sumTo μ n + n * t := by
  unfold sumTo
  rw [Finset.sum_add_distrib]
  simp

/-- Every non-empty sorted list is a list of runs. -/
theorem exists_runsL {l : List K} (hs : l.Pairwise (· ≤ ·)) (hne : l ≠ []) :
    ∃ s u μ, l = runsL u μ (s + 1) ∧ (∀ q < s, u q < u (q + 1)) ∧ ∀ q ≤ s, 1 ≤ μ q := by
  obtain ⟨_, h2, h3⟩ := Props.C03_pairs_roundtrip (⟨l⟩ : KnotVector K)
  obtain ⟨p1, p2, p3⟩ := h3 hs
  generalize (⟨l⟩ : KnotVector K).GetKnotPairs = ps at *
  simp only at h2 p1 p2 p3
  have hps : ps ≠ [] := by
    rintro rfl
    exact hne h2.symm
  have hpos := List.length_pos_iff.mpr hps
  have hget : ∀ q (hq : q < ps.length), ps.getD q ⟨0, 0, 0⟩ = ps[q] := fun q hq => by
    simp [List.getD_eq_getElem?_getD, hq]
  refine ⟨ps.length - 1, fun q => (ps.getD q ⟨0, 0, 0⟩).Value, fun q => (ps.getD q ⟨0, 0, 0⟩).Multiplicity.toNat, ?_, ?_, ?_⟩
  · rw [show ps.length - 1 + 1 = ps.length by omega]
    have e : ps = (List.range ps.length).map fun q => ps.getD q ⟨0, 0, 0⟩ := eq_tab ps _ fun i hi => (hget i hi).symm
    rw [← h2]
    conv_lhs => rw [e]
    rw [List.flatMap_map]
    rfl
  · intro q hq
    simp only
    rw [hget q (by omega), hget (q + 1) (by omega)]
    have := List.pairwise_iff_getElem.mp p1 q (q + 1) (by simp; omega) (by simp; omega) (by omega)
    simpa using this
  · intro q hq
    simp only
    rw [hget q (by omega)]
    have hm : ps[q]'(by omega) ∈ ps := List.getElem_mem _
    rw [p3 _ hm]
    have : (ps[q]'(by omega)).Value ∈ l := (p2 _).mp (List.mem_map.mpr ⟨_, hm, rfl⟩)
    have := List.count_pos_iff.mpr this
    omega

/-! ### Polar forms of the spans of a clamped vector -/

/-- Runs of a vector clamped for degree `p`. -/
structure ClRuns (p : ℕ) (l : List K) (s : ℕ) (u : ℕ → K) (S : ℕ → ℕ) : Prop extends Runs l s u S where
  s1 : 1 ≤ s
  first : S 1 = p + 1
  last : S (s + 1) = S s + (p + 1)

/-- The polar form over span `q`. -/
def spanF (l : List K) (S : ℕ → ℕ) (P : ℕ → Vec4 K) (q : ℕ) (ts : List K) : Vec4 K := blos (kn l) ts P (S (q + 1) - 1)

variable {p : ℕ} {l : List K} {s : ℕ} {u : ℕ → K} {S : ℕ → ℕ}

theorem ClRuns.S_pos (h : ClRuns p l s u S) {q : ℕ} (hq : q < s) : p + 1 ≤ S (q + 1) := by
  rw [← h.first]; exact h.S_mono (by omega) (by omega)

theorem ClRuns.S_le (h : ClRuns p l s u S) {q : ℕ} (hq : q < s) : S (q + 1) + p + 1 ≤ l.length := by
  rw [← h.len, h.last]
  have := h.S_mono (q := q + 1) (r := s) (by omega) (by omega)
  omega

theorem ClRuns.jump (h : ClRuns p l s u S) {q : ℕ} (hq : q < s) : kn l (S (q + 1) - 1) < kn l (S (q + 1) - 1 + 1) := by
  have h1 := h.S_pos hq
  have h2 := h.up q (by omega)
  have h3 := h.up (q + 1) (by omega)
  rw [Nat.sub_add_cancel (by omega), h.val q (by omega) _ (by omega) (by omega), h.val (q + 1) (by omega) _ le_rfl h3]
  exact h.lt q hq

theorem ClRuns.reg (h : ClRuns p l s u S) {q : ℕ} (hq : q < s) : RegSpan (kn l) (S (q + 1) - 1) p :=
  regSpan_of_sorted h.sorted (h.jump hq) (by have := h.S_le hq; omega)

theorem ClRuns.ma (h : ClRuns p l s u S) (P : ℕ → Vec4 K) {q : ℕ} (hq : q < s) : MultiAffine p (spanF l S P q) :=
  multiAffine_blos (kn l) _ p P (by have := h.S_pos hq; omega) (h.reg hq)

theorem ClRuns.win (h : ClRuns p l s u S) (P : ℕ → Vec4 K) {q i : ℕ} (hq : q < s) (h1 : S (q + 1) ≤ i + p + 1) (h2 : i < S (q + 1)) :
    spanF l S P q (win (kn l) i p) = P i :=
  blos_win (kn l) _ p i P (by have := h.S_pos hq; omega) (h.reg hq) (by omega) (by omega)

theorem ClRuns.cont (h : ClRuns p l s u S) (P : ℕ → Vec4 K) {q : ℕ} (hq : q + 1 < s) {ts : List K} (ht : ts.length = p)
    (hc : S (q + 1 + 1) - S (q + 1) ≤ ts.count (u (q + 1))) : spanF l S P q ts = spanF l S P (q + 1) ts := by
  have h1 := h.S_pos (q := q) (by omega)
  have h2 := h.S_le hq
  have h3 := h.up (q + 1) (by omega)
  apply blos_cont' (kn l) p _ _ P (by omega) (by omega) _ (h.jump (by omega)) (h.jump hq) ts ht
  · rw [win_const (x := u (q + 1)) (fun i h4 h5 => h.val (q + 1) (by omega) _ (by omega) (by omega))]
    rw [List.subperm_iff_count]
    intro v
    rw [List.count_replicate]
    split_ifs with hv
    · have : u (q + 1) = v := by simpa using hv
      rw [← this]
      omega
    · exact Nat.zero_le _
  · intro i j hij hj
    exact kn_mono h.sorted hij (by omega)

/-- The control points that are also Bezier points of span `q`. -/
theorem ClRuns.load (h : ClRuns p l s u S) (P : ℕ → Vec4 K) {q j : ℕ} (hq : q < s) (hj : j ≤ p) (hm : p - j ≤ S (q + 1) - S q) :
    spanF l S P q (List.replicate (p - j) (u q) ++ Nurbs.win (kn l) (S (q + 1) - 1) j) = P (S (q + 1) - 1 - p + j) := by
  have h1 := h.S_pos hq
  have e : Nurbs.win (kn l) (S (q + 1) - 1 - p + j) p = List.replicate (p - j) (u q) ++ Nurbs.win (kn l) (S (q + 1) - 1) j := by
    have := win_append (kn l) (S (q + 1) - 1 - p + j) (p - j) j
    rw [show p - j + j = p by omega, show S (q + 1) - 1 - p + j + (p - j) = S (q + 1) - 1 by omega] at this
    rw [this, win_const (x := u q) (fun i h4 h5 => h.val q (by omega) _ (by omega) (by omega))]
  rw [← e]
  exact h.win P hq (by omega) (by omega)

end Nurbs
