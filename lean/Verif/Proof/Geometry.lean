import Verif.Proof.Surface
import Verif.Proof.SurfaceDerivUb
import Verif.Model.Geometry
import Verif.Props.KnotVector
import Mathlib.Algebra.Order.BigOperators.Group.Finset
import Mathlib.Algebra.BigOperators.Field

/-! # Segments and rectangles -/

set_option linter.unusedSectionVars false

namespace Nurbs
open Spec

variable {K : Type} [Field K] [LinearOrder K] [IsStrictOrderedRing K]

theorem N_nonneg {p n : ℕ} {l : List K} (hc : Clamped p l) (hn : l.length = n + p + 1) {x : K} (h0 : 0 ≤ x) (h1 : x ≤ 1) {i : ℕ} (hi : i < n) :
    0 ≤ N (kn l) x p i := by
  obtain ⟨k, hk, hpk, hl⟩ := exists_span hc h0 h1
  rw [N_eq_Nl (kn l) x k (l.length - 1) (N_zero_span hc.sorted (fun i hi => hc.le_one hi) hk) p i (by omega)]
  exact Nl_nonneg _ _ _ _ _ (fun a b hab hb => kn_mono hc.sorted hab (by omega)) hk.2.1 (IsSpan.le_right hk)

theorem N_sum {p n : ℕ} {l : List K} (hc : Clamped p l) (hn : l.length = n + p + 1) {x : K} (h0 : 0 ≤ x) (h1 : x ≤ 1) :
    ∑ i ∈ Finset.range n, N (kn l) x p i = 1 := by
  obtain ⟨k, hk, hpk, hl⟩ := exists_span hc h0 h1
  have hr : RegSpan (kn l) k p := regSpan_of_sorted hc.sorted (IsSpan.lt hk) (by omega)
  have hone := sum_N_window hc hk hpk hl hn (fun _ => (1 : K))
  rw [seg_const _ _ _ _ hpk hr] at hone
  simpa using hone

/-- Position along the segment: `Σ N_i(x) i/(n-1)`. -/
def pos (p n : ℕ) (l : List K) (x : K) : K := ∑ i ∈ Finset.range n, N (kn l) x p i * ((i : K) / ((n : K) - 1))

theorem pos_mem {p n : ℕ} {l : List K} (hc : Clamped p l) (hn : l.length = n + p + 1) (hn2 : 2 ≤ n) {x : K} (h0 : 0 ≤ x) (h1 : x ≤ 1) :
    0 ≤ pos p n l x ∧ pos p n l x ≤ 1 := by
  have hd : (0 : K) < (n : K) - 1 := by
    have : (1 : K) < n := by exact_mod_cast hn2
    linarith
  constructor
  · apply Finset.sum_nonneg
    intro i hi
    exact mul_nonneg (N_nonneg hc hn h0 h1 (Finset.mem_range.mp hi)) (div_nonneg (Nat.cast_nonneg _) hd.le)
  · rw [← N_sum hc hn h0 h1]
    apply Finset.sum_le_sum
    intro i hi
    have hi := Finset.mem_range.mp hi
    have : (i : K) / ((n : K) - 1) ≤ 1 := by
      rw [div_le_one hd]
      have : (i : K) + 1 ≤ n := by exact_mod_cast hi
      linarith
    calc _ ≤ N (kn l) x p i * 1 := mul_le_mul_of_nonneg_left this (N_nonneg hc hn h0 h1 hi)
      _ = _ := mul_one _

theorem pos_of_dual {p n : ℕ} {l : List K} (hc : Clamped p l) (hn : l.length = n + p + 1) {x : K} (h0 : 0 ≤ x) (h1 : x ≤ 1)
    (F : List K → K) (hF : MultiAffine p F) (hQ : ∀ i < n, (i : K) / ((n : K) - 1) = F (win (kn l) i p)) :
    pos p n l x = F (List.replicate p x) := by
  obtain ⟨k, hk, hpk, hl⟩ := exists_span hc h0 h1
  have hr : RegSpan (kn l) k p := regSpan_of_sorted hc.sorted (IsSpan.lt hk) (by omega)
  have := sum_N_window hc hk hpk hl hn (fun i => (i : K) / ((n : K) - 1))
  rw [seg_eq_of_dual _ _ _ _ F hF hpk hr (fun i _ hi => hQ i (by omega))] at this
  exact this

theorem pos_zero {p n : ℕ} {l : List K} (hc : Clamped p l) (hn : l.length = n + p + 1) : pos p n l 0 = 0 := by
  obtain ⟨k, hk, hpk, hl⟩ := exists_span hc (le_refl (0 : K)) zero_le_one
  have hr : RegSpan (kn l) k p := regSpan_of_sorted hc.sorted (IsSpan.lt hk) (by omega)
  have hkp : k = p := by
    have h : kn l k ≤ 0 := hk.2.1
    by_contra hne
    have := kn_mono hc.sorted (show p + 1 ≤ k by omega) (by omega)
    exact absurd (lt_of_lt_of_le hc.first (this.trans h)) (lt_irrefl _)
  have := sum_N_window hc hk hpk hl hn (fun i => (i : K) / ((n : K) - 1))
  rw [seg_eq_blos _ _ _ _ _ hpk] at this
  have e : List.replicate p (0 : K) = win (kn l) 0 p := by
    apply List.ext_getElem (by simp)
    intro i h1 h2
    simp at h1
    simp [win, hc.zeros (1 + i) (by omega)]
  rw [e, blos_win _ _ _ 0 _ hpk hr (by omega) (by omega)] at this
  simpa [pos] using this

theorem pos_one {p n : ℕ} {l : List K} (hc : Clamped p l) (hn : l.length = n + p + 1) (hn2 : 2 ≤ n) : pos p n l 1 = 1 := by
  obtain ⟨k, hk, hpk, hl⟩ := exists_span hc zero_le_one (le_refl (1 : K))
  have hr : RegSpan (kn l) k p := regSpan_of_sorted hc.sorted (IsSpan.lt hk) (by omega)
  have hkp : k = n - 1 := by
    by_contra hne
    have h1 : kn l (k + 1) < 1 := lt_of_le_of_lt (kn_mono hc.sorted (show k + 1 ≤ l.length - p - 2 by omega) (by omega)) hc.last
    rcases hk.2.2 with h | ⟨_, _, h⟩
    · exact absurd h1 (not_lt.mpr h.le)
    · exact absurd h1 (by rw [h]; exact lt_irrefl _)
  have := sum_N_window hc hk hpk hl hn (fun i => (i : K) / ((n : K) - 1))
  rw [seg_eq_blos _ _ _ _ _ hpk] at this
  have e : List.replicate p (1 : K) = win (kn l) (n - 1) p := by
    apply List.ext_getElem (by simp)
    intro i h1 h2
    simp at h1
    simp [win, hc.ones (n - 1 + 1 + i) (by omega) (by omega)]
  rw [e, blos_win _ _ _ (n - 1) _ hpk hr (by omega) (by omega)] at this
  have hd : (0 : K) < (n : K) - 1 := by
    have : (1 : K) < n := by exact_mod_cast hn2
    linarith
  unfold pos
  simp only [smul_eq_mul] at this
  rw [this, Nat.cast_sub (by omega), Nat.cast_one, div_self hd.ne']

/-- Uniform knots are clamped. -/
theorem uniform_clamped (p n : ℕ) (hn : p + 1 ≤ n) : ∃ kv : KnotVector K, KnotVector.Uniform (p : Int) ((n : Int) + p + 1) = .ok kv ∧
    Clamped p kv.Values ∧ kv.Values.length = n + p + 1 ∧
    ∀ i, p ≤ i → i < n → kn kv.Values (i + 1) - kn kv.Values i = 1 / ((n : K) - p) := by
  obtain ⟨kv, e, hl, hz, ho, hs, _, _⟩ := Props.C09_uniform (K := K) (p : Int) ((n : Int) + p + 1) (by omega) (by omega)
  have hlen : kv.Values.length = n + p + 1 := by omega
  have hd : (0 : K) < (n : K) - p := by
    have : (p : K) < n := by exact_mod_cast hn
    linarith
  have hs' : ∀ i, p ≤ i → i < n → kn kv.Values (i + 1) - kn kv.Values i = 1 / ((n : K) - p) := by
    intro i h1 h2
    rw [hs i (by omega) (by omega)]
    congr 1
    push_cast
    ring
  have hstep : ∀ i, i + 1 < n + p + 1 → kn kv.Values i ≤ kn kv.Values (i + 1) := by
    intro i hi
    by_cases h1 : i < p
    · rw [hz i (by omega), hz (i + 1) (by omega)]
    · by_cases h2 : i < n
      · have := hs' i (by omega) h2
        have h3 : 0 < 1 / ((n : K) - p) := by positivity
        linarith
      · rw [ho i (by omega) (by omega), ho (i + 1) (by omega) (by omega)]
  have hsorted : kv.Values.Pairwise (· ≤ ·) := by
    rw [← List.isChain_iff_pairwise, List.isChain_iff_getElem]
    intro i hi
    have := hstep i (by omega)
    rw [kn_eq_getElem _ _ (by omega), kn_eq_getElem _ _ (by omega)] at this
    exact this
  have hp : 0 < 1 / ((n : K) - p) := by positivity
  refine ⟨kv, e, ⟨by omega, hsorted, fun i hi => hz i (by omega), fun i hi h => ho i (by omega) (by omega), ?_, ?_⟩, hlen, hs'⟩
  · have := hs' p (le_refl _) (by omega)
    rw [hz p (by omega)] at this
    linarith
  · have := hs' (n - 1) (by omega) (by omega)
    rw [show n - 1 + 1 = n by omega, ho n (by omega) (by omega)] at this
    rw [hlen, show n + p + 1 - p - 2 = n - 1 by omega]
    linarith

theorem Vec3.divM_ok' {a : Vec3 K} {c : K} (h : c ≠ 0) : a.divM c = .ok ⟨a.x / c, a.y / c, a.z / c⟩ := by
  unfold Vec3.divM
  rw [fdiv_ok h, bind_ok, fdiv_ok h, bind_ok, fdiv_ok h, bind_ok]

/-- A linear function of the control points. -/
theorem lin_sum {p n : ℕ} {l : List K} (hc : Clamped p l) (hn : l.length = n + p + 1) {x : K} (h0 : 0 ≤ x) (h1 : x ≤ 1) (a b : K) :
    ∑ i ∈ Finset.range n, N (kn l) x p i * (a + (i : K) * (b / ((n : K) - 1))) = a + pos p n l x * b := by
  have : ∀ i ∈ Finset.range n, N (kn l) x p i * (a + (i : K) * (b / ((n : K) - 1))) =
      a * N (kn l) x p i + b * (N (kn l) x p i * ((i : K) / ((n : K) - 1))) := by
    intro i _
    ring
  rw [Finset.sum_congr rfl this, Finset.sum_add_distrib, ← Finset.mul_sum, ← Finset.mul_sum, N_sum hc hn h0 h1]
  unfold pos
  ring

theorem multiAffine_mean {p : ℕ} (hp : 1 ≤ p) : MultiAffine p (fun ts : List K => ts.sum / p) where
  perm := fun as bs _ h => by show as.sum / _ = bs.sum / _; rw [h.sum_eq]
  affine := fun c a b ts hl => by
    have : (p : K) ≠ 0 := by positivity
    simp only [List.sum_cons, smul_eq_mul]
    field_simp
    ring

/-- Linear precision: with degree one, or without interior knots, the position is the parameter itself. -/
theorem pos_eq {p n : ℕ} {l : List K} (hc : Clamped p l) (hn : l.length = n + p + 1) (hp : 1 ≤ p)
    (hs : ∀ i, p ≤ i → i < n → kn l (i + 1) - kn l i = 1 / ((n : K) - p)) (h : p = 1 ∨ n = p + 1) {x : K} (h0 : 0 ≤ x) (h1 : x ≤ 1) :
    pos p n l x = x := by
  have hp0 : (p : K) ≠ 0 := by positivity
  have hlen := hc.len
  rw [pos_of_dual hc hn h0 h1 _ (multiAffine_mean hp)]
  · simp only [List.sum_replicate, nsmul_eq_mul]
    field_simp
  · intro i hi
    rcases h with rfl | rfl
    · simp only [win, List.range_one, List.map_cons, List.map_nil, List.sum_cons, List.sum_nil, add_zero, Nat.cast_one, div_one]
      have hd : (0 : K) < (n : K) - 1 := by
        have : (1 : K) < n := by exact_mod_cast (show 1 < n by omega)
        linarith
      induction i with
      | zero => rw [hc.zeros 1 (by omega)]; simp
      | succ i ih =>
        have e := hs (i + 1) (by omega) (by omega)
        rw [Nat.cast_one] at e
        rw [show i + 1 + 1 = i + 2 by omega] at e ⊢
        have := ih (by omega)
        push_cast
        rw [show kn l (i + 2) = kn l (i + 1) + 1 / ((n : K) - 1) by linear_combination e, ← this]
        ring
    · have hw : win (kn l) i p = List.replicate (p - i) 0 ++ List.replicate i 1 := by
        apply List.ext_getElem (by simp; omega)
        intro j h1 h2
        simp at h1
        rw [List.getElem_append]
        simp only [win, List.getElem_map, List.getElem_range, List.length_replicate, List.getElem_replicate]
        split_ifs with h
        · exact hc.zeros _ (by omega)
        · exact hc.ones _ (by omega) (by omega)
      rw [hw]
      simp

end Nurbs
