import Verif.Proof.Surface
import Verif.Props.KnotVector
import Verif.Spec.Align

/-! # Reversal and exchange of the parameters -/

set_option linter.unusedSectionVars false

namespace Nurbs
open Nurbs.Spec

section math
variable {K : Type} [Field K] {V : Type} [AddCommGroup V] [Module K V]

theorem Nl_reverse {U U' : ℕ → K} {L k k' : ℕ} (hU : ∀ a b, a + b + 1 = L → U' a = 1 - U b) (hk : k + k' + 2 = L) (x : K) (p : ℕ) :
    ∀ i j, i + j + p + 2 = L → Nl U' k' (1 - x) p i = Nl U k x p j := by
  induction p with
  | zero =>
    intro i j h
    simp only [Nl]
    by_cases hi : i = k'
    · rw [if_pos hi, if_pos (by omega)]
    · rw [if_neg hi, if_neg (by omega)]
  | succ p ih =>
    intro i j h
    simp only [Nl]
    rw [ih i (j + 1) (by omega), ih (i + 1) j (by omega), hU i (j + p + 2) (by omega), hU (i + p + 1) (j + 1) (by omega),
      hU (i + p + 2) j (by omega), hU (i + 1) (j + p + 1) (by omega),
      show 1 - x - (1 - U (j + p + 2)) = U (j + p + 2) - x by ring, show 1 - U (j + 1) - (1 - U (j + p + 2)) = U (j + p + 2) - U (j + 1) by ring,
      show 1 - U j - (1 - x) = x - U j by ring, show 1 - U j - (1 - U (j + p + 1)) = U (j + p + 1) - U j by ring]
    ring

theorem seg_reverse {U U' : ℕ → K} {m p k k' : ℕ} (hU : ∀ a b, a + b = m + p → U' a = 1 - U b) (hk : k + k' + 1 = m + p) (hp : p ≤ k)
    (hp' : p ≤ k') (x : K) {P P' : ℕ → V} (hP : ∀ a b, a + b + 1 = m → P' a = P b) : seg U' k' (1 - x) p P' = seg U k x p P := by
  unfold seg
  rw [← Finset.sum_range_reflect]
  refine Finset.sum_congr rfl fun n hn => ?_
  have := Finset.mem_range.mp hn
  rw [Nl_reverse (L := m + p + 1) (U := U) (k := k) (fun a b h => hU a b (by omega)) (by omega) x p _ (k - p + n) (by omega),
    hP _ (k - p + n) (by omega)]

theorem blos_right {U : ℕ → K} {k : ℕ} {x : K} (s : ℕ) (hs : s ≤ k) (hx : ∀ i, k < i + s → i ≤ k → U i = x) (hk : U (k + 1) ≠ x) (Q : ℕ → V) :
    blos U (List.replicate s x) Q k = Q (k - s) := by
  induction s generalizing Q with
  | zero => rfl
  | succ s ih =>
    rw [List.replicate_succ]
    simp only [blos, List.length_replicate]
    rw [ih (by omega) (fun i h1 h2 => hx i (by omega) h2)]
    unfold step
    rw [show k - s + (s + 1) = k + 1 by omega, hx (k - s) (by omega) (by omega), sub_self, zero_div, zero_smul, add_zero,
      div_self (sub_ne_zero.mpr hk), one_smul, show k - s - 1 = k - (s + 1) by omega]

theorem blos_left {U : ℕ → K} {k : ℕ} {x : K} (s : ℕ) (hx : ∀ i, k < i → i ≤ k + s → U i = x) (hk : U k ≠ x) (Q : ℕ → V) :
    blos U (List.replicate s x) Q k = Q k := by
  induction s generalizing Q with
  | zero => rfl
  | succ s ih =>
    rw [List.replicate_succ]
    simp only [blos, List.length_replicate]
    rw [ih (fun i h1 h2 => hx i h1 (by omega))]
    unfold step
    rw [hx (k + (s + 1)) (by omega) (by omega), sub_self, zero_div, zero_smul, zero_add, div_self (sub_ne_zero.mpr hk.symm), one_smul]

/-- Segments on both sides of a knot of multiplicity `k - k₀ ≤ p` agree at the knot. -/
theorem seg_continuous {U : ℕ → K} {k k₀ p : ℕ} {x : K} (h0 : p ≤ k₀) (h1 : k₀ ≤ k) (h2 : k ≤ k₀ + p) (hx : ∀ i, k₀ < i → i ≤ k → U i = x)
    (hl : U k₀ ≠ x) (hr : U (k + 1) ≠ x) (P : ℕ → V) : seg U k x p P = seg U k₀ x p P := by
  rw [seg_eq_blos _ _ _ _ _ (by omega), seg_eq_blos _ _ _ _ _ h0,
    show List.replicate p x = List.replicate (p - (k - k₀)) x ++ List.replicate (k - k₀) x by
      rw [List.replicate_append_replicate]; congr 1; omega]
  obtain ⟨P', e⟩ := blos_append U (List.replicate (p - (k - k₀)) x) (List.replicate (k - k₀) x) P
  rw [e, blos_right _ (by omega) (fun i h3 h4 => hx i (by omega) h4) hr, blos_left _ (fun i h3 h4 => hx i h3 (by omega)) hl,
    show k - (k - k₀) = k₀ by omega]

end math

variable {K : Type} [Field K] [LinearOrder K] [IsStrictOrderedRing K]

theorem kn_reverse (kv : KnotVector K) {a b : ℕ} (h : a + b + 1 = kv.Values.length) : kn kv.Reverse.Values a = 1 - kn kv.Values b := by
  rw [(Props.C11_reverse kv).2.1 a (by omega), show kv.Values.length - 1 - a = b by omega]

theorem reverse_length (kv : KnotVector K) : kv.Reverse.Values.length = kv.Values.length := (Props.C11_reverse kv).1

theorem clamped_reverse {p : ℕ} {kv : KnotVector K} (hc : Clamped p kv.Values) : Clamped p kv.Reverse.Values := by
  have hl := reverse_length kv
  have hlen := hc.len
  refine ⟨by omega, ?_, ?_, ?_, ?_, ?_⟩
  · show (kv.Values.reverse.map fun t => 1 - t).Pairwise (· ≤ ·)
    rw [List.pairwise_map, List.pairwise_reverse]
    exact hc.sorted.imp (fun {a b} hab => by linarith)
  · intro i hi
    rw [kn_reverse kv (b := kv.Values.length - 1 - i) (by omega), hc.ones _ (by omega) (by omega), sub_self]
  · intro i hi h
    rw [kn_reverse kv (b := kv.Values.length - 1 - i) (by omega), hc.zeros _ (by omega), sub_zero]
  · rw [kn_reverse kv (b := kv.Values.length - p - 2) (by omega)]
    have := hc.last
    linarith
  · rw [kn_reverse kv (b := p + 1) (by omega)]
    have := hc.first
    linarith

/-- The span of `1 - x` in the reversed knots, and the equality of the segments. -/
theorem seg_reverse_at {V : Type} [AddCommGroup V] [Module K V] {p m : ℕ} {kv : KnotVector K} (hc : Clamped p kv.Values)
    (hl : kv.Values.length = m + p + 1) {x : K} (h0 : 0 ≤ x) {k k' : ℕ} (hk : IsSpan kv.Values x k) (hpk : p ≤ k) (hkm : k < m)
    (hk' : IsSpan kv.Reverse.Values (1 - x) k') (hpk' : p ≤ k') (hkm' : k' < m) (hj : ¬ JumpAt p kv.Values x)
    (P P' : ℕ → V) (hP : ∀ a b, a + b + 1 = m → P' a = P b) :
    seg (kn kv.Reverse.Values) k' (1 - x) p P' = seg (kn kv.Values) k x p P := by
  have hlr := reverse_length kv
  have hcr := clamped_reverse hc
  -- the span of the original knots that corresponds to `k'`
  obtain ⟨k₀, hk₀⟩ : ∃ k₀, k₀ + k' + 1 = m + p := ⟨m + p - 1 - k', by omega⟩
  have hU : ∀ a b, a + b = m + p → kn kv.Reverse.Values a = 1 - kn kv.Values b := fun a b h => kn_reverse kv (by omega)
  rw [seg_reverse hU hk₀ (by omega) hpk' x hP]
  have e1 := hU k' (k₀ + 1) (by omega)
  have e2 := hU (k' + 1) k₀ (by omega)
  have hle : x ≤ kn kv.Values (k₀ + 1) := by have := hk'.2.1; rw [e1] at this; linarith
  rcases hk'.2.2 with h | ⟨h1, h2, h3⟩
  · rw [e2] at h
    have hlt : kn kv.Values k₀ < x := by linarith
    rcases eq_or_lt_of_le hk.2.1 with hx | hx
    swap
    · -- `x` is not a knot from the left: the same span
      have : k = k₀ := by
        by_contra hne
        rcases Nat.lt_or_gt_of_ne hne with h4 | h4
        · have := kn_mono hc.sorted (show k + 1 ≤ k₀ by omega) (by omega)
          have := IsSpan.le_right hk
          linarith
        · have := kn_mono hc.sorted (show k₀ + 1 ≤ k by omega) (by omega)
          linarith
      rw [this]
    · have h01 : k₀ ≤ k := by
        by_contra h4
        have := kn_mono hc.sorted (show k + 1 ≤ k₀ by omega) (by omega)
        have := IsSpan.le_right hk
        linarith
      have hmid : ∀ i, k₀ < i → i ≤ k → kn kv.Values i = x := by
        intro i h4 h5
        have a := kn_mono hc.sorted (show k₀ + 1 ≤ i by omega) (by omega)
        have b := kn_mono hc.sorted h5 (by omega)
        exact le_antisymm (by linarith) (by linarith)
      have hx1 : kn kv.Values k < kn kv.Values (k + 1) := IsSpan.lt hk
      have hxlt : x < kn kv.Values (k + 1) := by rw [← hx]; exact hx1
      have hmult : k ≤ k₀ + p := by
        by_contra h4
        apply hj
        refine ⟨lt_of_le_of_lt (hc.nonneg (show k₀ < _ by omega)) hlt, lt_of_lt_of_le hxlt (hc.le_one (by omega)), k₀ + 1, by omega,
          hmid _ (by omega) (by omega), hmid _ (by omega) (by omega)⟩
      exact (seg_continuous (by omega) h01 hmult hmid hlt.ne hxlt.ne' P).symm
  · -- `x = 0`
    have hx0 : x = 0 := by linarith
    have : k = k₀ := by
      apply isSpan_unique hc.sorted hk ⟨by omega, ?_, Or.inl ?_⟩ (fun i hi => hc.le_one hi)
      · rw [h3] at e2; linarith
      · rw [e1] at h2; linarith
    rw [this]

/-! ### The grid loops -/

theorem swapCells_gridOf (U V : ℕ) (f f' : ℕ → ℕ → Vec4 K) (a b c d : ℕ) (ia ib ic id : Int) (ha : ia = a) (hb : ib = b) (hc : ic = c) (hd : id = d)
    (h1 : a < U) (h2 : b < V) (h3 : c < U) (h4 : d < V) (hne : a ≠ c ∨ b ≠ d)
    (hf' : ∀ x < U, ∀ y < V, f' x y = if x = a ∧ y = b then f c d else if x = c ∧ y = d then f a b else f x y) :
    Surface.swapCells (gridOf U V f) ia ib ic id = .ok (gridOf U V f') := by
  unfold Surface.swapCells
  rw [get_gridOf _ _ _ _ _ a b ha hb h1 h2, bind_ok, get_gridOf _ _ _ _ _ c d hc hd h3 h4, bind_ok,
    set_gridOf _ _ _ (fun x y => if x = a ∧ y = b then f c d else f x y) _ _ a b _ ha hb h1 h2 (fun _ _ _ _ => rfl), bind_ok]
  refine set_gridOf _ _ _ _ _ _ c d _ hc hd h3 h4 fun x hx y hy => ?_
  rw [hf' x hx y hy]
  by_cases e1 : x = a ∧ y = b
  · have : ¬ (x = c ∧ y = d) := by omega
    rw [if_pos e1, if_neg this, if_pos e1]
  · rw [if_neg e1]
    by_cases e2 : x = c ∧ y = d
    · rw [if_pos e2, if_pos e2]
    · rw [if_neg e2, if_neg e2, if_neg e1]

theorem reverseU_grid (m n : ℕ) (f : ℕ → ℕ → Vec4 K) :
    forLt 0 (n : Int) (fun v g => forLt 0 ((m : Int).tdiv 2) (fun u g => Surface.swapCells g u v ((m : Int) - 1 - u) v) g) (gridOf m n f) =
      .ok (gridOf m n fun x y => f (m - 1 - x) y) := by
  rw [forLt_eq_forUp 0 n n (by omega)]
  rw [show gridOf m n f = gridOf m n (fun x y => if y < 0 then f (m - 1 - x) y else f x y) from gridOf_congr fun x _ y _ => by simp,
    forUp_eq _ (fun t => gridOf m n (fun x y => if y < t then f (m - 1 - x) y else f x y))]
  · congr 1
    exact gridOf_congr fun x _ y hy => by rw [if_pos hy]
  intro t ht
  have e : (m : Int).tdiv 2 = ((m / 2 : ℕ) : Int) := by simp [Int.tdiv_eq_ediv_of_nonneg]
  rw [forLt_eq_forUp 0 _ (m / 2) (by rw [e]; omega)]
  rw [show gridOf m n (fun x y => if y < t then f (m - 1 - x) y else f x y) =
      gridOf m n (fun x y => if y < t ∨ (y = t ∧ (x < 0 ∨ m - 1 - x < 0)) then f (m - 1 - x) y else f x y) from
      gridOf_congr fun x _ y _ => by simp,
    forUp_eq _ (fun r => gridOf m n (fun x y => if y < t ∨ (y = t ∧ (x < r ∨ m - 1 - x < r)) then f (m - 1 - x) y else f x y))]
  · congr 1
    refine gridOf_congr fun x hx y hy => ?_
    by_cases h1 : y < t + 1
    · rw [if_pos h1]
      by_cases h2 : y < t ∨ (y = t ∧ (x < m / 2 ∨ m - 1 - x < m / 2))
      · rw [if_pos h2]
      · rw [if_neg h2, show m - 1 - x = x by omega]
    · rw [if_neg h1, if_neg (by omega)]
  intro r hr
  refine swapCells_gridOf m n _ _ r t (m - 1 - r) t _ _ _ _ (by omega) (by omega) (by omega) (by omega) (by omega) ht (by omega) ht (by omega) ?_
  intro x hx y hy
  by_cases h1 : x = r ∧ y = t
  · rw [if_pos h1, if_pos (by omega), if_neg (by omega), h1.1, h1.2]
  · rw [if_neg h1]
    by_cases h2 : x = m - 1 - r ∧ y = t
    · rw [if_pos h2, if_pos (by omega), if_neg (by omega), h2.2, show m - 1 - x = r by omega]
    · rw [if_neg h2]
      by_cases h3 : y < t ∨ (y = t ∧ (x < r ∨ m - 1 - x < r))
      · rw [if_pos h3, if_pos (by omega)]
      · rw [if_neg h3, if_neg (by omega)]

theorem reverseV_grid (m n : ℕ) (f : ℕ → ℕ → Vec4 K) :
    forLt 0 (m : Int) (fun u g => forLt 0 ((n : Int).tdiv 2) (fun v g => Surface.swapCells g u v u ((n : Int) - 1 - v)) g) (gridOf m n f) =
      .ok (gridOf m n fun x y => f x (n - 1 - y)) := by
  rw [forLt_eq_forUp 0 m m (by omega)]
  rw [show gridOf m n f = gridOf m n (fun x y => if x < 0 then f x (n - 1 - y) else f x y) from gridOf_congr fun x _ y _ => by simp,
    forUp_eq _ (fun t => gridOf m n (fun x y => if x < t then f x (n - 1 - y) else f x y))]
  · congr 1
    exact gridOf_congr fun x hx y _ => by rw [if_pos hx]
  intro t ht
  have e : (n : Int).tdiv 2 = ((n / 2 : ℕ) : Int) := by simp [Int.tdiv_eq_ediv_of_nonneg]
  rw [forLt_eq_forUp 0 _ (n / 2) (by rw [e]; omega)]
  rw [show gridOf m n (fun x y => if x < t then f x (n - 1 - y) else f x y) =
      gridOf m n (fun x y => if x < t ∨ (x = t ∧ (y < 0 ∨ n - 1 - y < 0)) then f x (n - 1 - y) else f x y) from
      gridOf_congr fun x _ y _ => by simp,
    forUp_eq _ (fun r => gridOf m n (fun x y => if x < t ∨ (x = t ∧ (y < r ∨ n - 1 - y < r)) then f x (n - 1 - y) else f x y))]
  · congr 1
    refine gridOf_congr fun x hx y hy => ?_
    by_cases h1 : x < t + 1
    · rw [if_pos h1]
      by_cases h2 : x < t ∨ (x = t ∧ (y < n / 2 ∨ n - 1 - y < n / 2))
      · rw [if_pos h2]
      · rw [if_neg h2, show n - 1 - y = y by omega]
    · rw [if_neg h1, if_neg (by omega)]
  intro r hr
  refine swapCells_gridOf m n _ _ t r t (n - 1 - r) _ _ _ _ (by omega) (by omega) (by omega) (by omega) ht (by omega) ht (by omega) (by omega) ?_
  intro x hx y hy
  by_cases h1 : x = t ∧ y = r
  · rw [if_pos h1, if_pos (by omega), if_neg (by omega), h1.1, h1.2]
  · rw [if_neg h1]
    by_cases h2 : x = t ∧ y = n - 1 - r
    · rw [if_pos h2, if_pos (by omega), if_neg (by omega), h2.1, show n - 1 - y = r by omega]
    · rw [if_neg h2]
      by_cases h3 : x < t ∨ (x = t ∧ (y < r ∨ n - 1 - y < r))
      · rw [if_pos h3, if_pos (by omega)]
      · rw [if_neg h3, if_neg (by omega)]

theorem swap_grid (m n : ℕ) (f : ℕ → ℕ → Vec4 K) :
    forLt 0 (m : Int) (fun u t => forLt 0 (n : Int) (fun v (t : Grid (Vec4 K)) => do t.Set v u (← (gridOf m n f).Get u v)) t)
      (gridOf n m fun _ _ => 0) = .ok (gridOf n m fun x y => f y x) := by
  rw [forLt_eq_forUp 0 m m (by omega)]
  rw [show (gridOf n m fun _ _ => (0 : Vec4 K)) = gridOf n m (fun x y => if y < 0 then f y x else 0) from gridOf_congr fun x _ y _ => by simp,
    forUp_eq _ (fun t => gridOf n m (fun x y => if y < t then f y x else 0))]
  · congr 1
    exact gridOf_congr fun x _ y hy => by rw [if_pos hy]
  intro t ht
  rw [forLt_eq_forUp 0 n n (by omega)]
  rw [show gridOf n m (fun x y => if y < t then f y x else 0) = gridOf n m (fun x y => if y < t ∨ (y = t ∧ x < 0) then f y x else 0) from
      gridOf_congr fun x _ y _ => by simp,
    forUp_eq _ (fun r => gridOf n m (fun x y => if y < t ∨ (y = t ∧ x < r) then f y x else 0))]
  · congr 1
    refine gridOf_congr fun x hx y hy => ?_
    by_cases h1 : y < t + 1
    · rw [if_pos h1, if_pos (by omega)]
    · rw [if_neg h1, if_neg (by omega)]
  intro r hr
  rw [get_gridOf _ _ _ _ _ t r (by omega) (by omega) ht hr, bind_ok]
  refine set_gridOf _ _ _ _ _ _ r t _ (by omega) (by omega) hr ht fun x hx y hy => ?_
  by_cases h1 : x = r ∧ y = t
  · rw [if_pos h1, if_pos (by omega), h1.1, h1.2]
  · rw [if_neg h1]
    by_cases h2 : y < t ∨ (y = t ∧ x < r)
    · rw [if_pos h2, if_pos (by omega)]
    · rw [if_neg h2, if_neg (by omega)]

/-! ### The three operations -/

theorem swapUV_ok {p q m n : ℕ} {s : Surface K} (hw : WFSurface p q m n s) :
    ∃ s', s.swapUV = .ok s' ∧ WFSurface q p n m s' ∧ s'.KnotsU = s.KnotsV ∧ s'.KnotsV = s.KnotsU ∧ (∀ i < n, ∀ j < m, cp s' i j = cp s j i) ∧
      ∀ a b, 0 ≤ a → a ≤ 1 → 0 ≤ b → b ≤ 1 → s'.Evaluate b a = s.Evaluate a b := by
  have hg := WFSurface.grid hw
  have e : s.swapUV = .ok ⟨s.DegreeV, s.DegreeU, s.KnotsV, s.KnotsU, gridOf n m fun x y => cp s y x⟩ := by
    unfold Surface.swapUV
    simp only
    rw [hw.vCount, hw.uCount, mk'_gridOf, bind_ok]
    rw [hg, swap_grid m n (cp s), bind_ok]
    rfl
  have hcps : ∀ i < n, ∀ j < m, cp (⟨s.DegreeV, s.DegreeU, s.KnotsV, s.KnotsU, gridOf n m fun x y => cp s y x⟩ : Surface K) i j = cp s j i :=
    fun i hi j hj => cp_gridOf (f := fun x y => cp s y x) rfl hi hj
  have hw' : WFSurface q p n m (⟨s.DegreeV, s.DegreeU, s.KnotsV, s.KnotsU, gridOf n m fun x y => cp s y x⟩ : Surface K) :=
    ⟨hw.degreeV, hw.degreeU, hw.clampedV, hw.clampedU, rfl, rfl, hw.knotsV, hw.knotsU, by simp [gridOf],
      fun i hi j hj => by rw [hcps i hi j hj]; exact hw.weights j hj i hi⟩
  refine ⟨_, e, hw', rfl, rfl, hcps, ?_⟩
  intro a b ha0 ha1 hb0 hb1
  obtain ⟨ka, hka, _, _⟩ := exists_span hw.clampedU ha0 ha1
  obtain ⟨kb, hkb, _, _⟩ := exists_span hw.clampedV hb0 hb1
  obtain ⟨g1, g2, g3, g4, _, _, _, g8⟩ := surface_seg hw ha0 ha1 hb0 hb1 hka hkb
  obtain ⟨_, _, _, _, _, _, _, g8'⟩ := surface_seg hw' hb0 hb1 ha0 ha1 hkb hka
  rw [g8, g8']
  congr 2
  unfold surfSeg
  rw [sseg_swap]
  refine seg_congr g3 fun j h1 h2 => seg_congr g1 fun i h3 h4 => ?_
  unfold hcp
  rw [hcps j (by omega) i (by omega)]

theorem reverseU_ok {p q m n : ℕ} {s : Surface K} (hw : WFSurface p q m n s) :
    ∃ s', s.reverseU = .ok s' ∧ WFSurface p q m n s' ∧ s'.KnotsU = s.KnotsU.Reverse ∧ s'.KnotsV = s.KnotsV ∧
      (∀ i < m, ∀ j < n, cp s' i j = cp s (m - 1 - i) j) ∧
      ∀ a b, 0 ≤ a → a ≤ 1 → 0 ≤ b → b ≤ 1 → ¬ JumpAt p s.KnotsU.Values a → s'.Evaluate (1 - a) b = s.Evaluate a b := by
  have hg := WFSurface.grid hw
  have e : s.reverseU = .ok { s with KnotsU := s.KnotsU.Reverse, ControlPoints := gridOf m n fun x y => cp s (m - 1 - x) y } := by
    unfold Surface.reverseU
    simp only
    rw [hw.vCount, hw.uCount]
    rw [hg, reverseU_grid m n (cp s), bind_ok]
    rfl
  have hcps : ∀ i < m, ∀ j < n, cp ({ s with KnotsU := s.KnotsU.Reverse, ControlPoints := gridOf m n fun x y => cp s (m - 1 - x) y } : Surface K) i j =
      cp s (m - 1 - i) j := fun i hi j hj => cp_gridOf (f := fun x y => cp s (m - 1 - x) y) rfl hi hj
  have hw' : WFSurface p q m n ({ s with KnotsU := s.KnotsU.Reverse, ControlPoints := gridOf m n fun x y => cp s (m - 1 - x) y } : Surface K) :=
    ⟨hw.degreeU, hw.degreeV, clamped_reverse hw.clampedU, hw.clampedV, rfl, rfl, by rw [← hw.knotsU]; exact reverse_length _, hw.knotsV, by simp [gridOf],
      fun i hi j hj => by rw [hcps i hi j hj]; exact hw.weights _ (by omega) j hj⟩
  refine ⟨_, e, hw', rfl, rfl, hcps, ?_⟩
  intro a b ha0 ha1 hb0 hb1 hj
  obtain ⟨ka, hka, _, _⟩ := exists_span hw.clampedU ha0 ha1
  obtain ⟨ka', hka', _, _⟩ := exists_span hw'.clampedU (show 0 ≤ 1 - a by linarith) (by linarith)
  obtain ⟨kb, hkb, _, _⟩ := exists_span hw.clampedV hb0 hb1
  obtain ⟨g1, g2, g3, g4, _, _, _, g8⟩ := surface_seg hw ha0 ha1 hb0 hb1 hka hkb
  obtain ⟨g1', g2', _, _, _, _, _, g8'⟩ := surface_seg hw' (by linarith) (by linarith) hb0 hb1 hka' hkb
  rw [g8, g8']
  congr 2
  unfold surfSeg
  refine seg_congr g3 fun j h1 h2 => ?_
  simp only
  have hx := seg_reverse_at hw.clampedU hw.knotsU ha0 hka g1 g2 hka' g1' g2' hj (fun i => hcp s i j) (fun i => hcp s (m - 1 - i) j)
    (fun a b hab => by beta_reduce; rw [show m - 1 - a = b by omega])
  rw [← hx]
  refine seg_congr g1' fun i h3 h4 => ?_
  unfold hcp
  rw [hcps i (by omega) j (by omega)]

theorem reverseV_ok {p q m n : ℕ} {s : Surface K} (hw : WFSurface p q m n s) :
    ∃ s', s.reverseV = .ok s' ∧ WFSurface p q m n s' ∧ s'.KnotsU = s.KnotsU ∧ s'.KnotsV = s.KnotsV.Reverse ∧
      (∀ i < m, ∀ j < n, cp s' i j = cp s i (n - 1 - j)) ∧
      ∀ a b, 0 ≤ a → a ≤ 1 → 0 ≤ b → b ≤ 1 → ¬ JumpAt q s.KnotsV.Values b → s'.Evaluate a (1 - b) = s.Evaluate a b := by
  have hg := WFSurface.grid hw
  have e : s.reverseV = .ok { s with KnotsV := s.KnotsV.Reverse, ControlPoints := gridOf m n fun x y => cp s x (n - 1 - y) } := by
    unfold Surface.reverseV
    simp only
    rw [hw.vCount, hw.uCount]
    rw [hg, reverseV_grid m n (cp s), bind_ok]
    rfl
  have hcps : ∀ i < m, ∀ j < n, cp ({ s with KnotsV := s.KnotsV.Reverse, ControlPoints := gridOf m n fun x y => cp s x (n - 1 - y) } : Surface K) i j =
      cp s i (n - 1 - j) := fun i hi j hj => cp_gridOf (f := fun x y => cp s x (n - 1 - y)) rfl hi hj
  have hw' : WFSurface p q m n ({ s with KnotsV := s.KnotsV.Reverse, ControlPoints := gridOf m n fun x y => cp s x (n - 1 - y) } : Surface K) :=
    ⟨hw.degreeU, hw.degreeV, hw.clampedU, clamped_reverse hw.clampedV, rfl, rfl, hw.knotsU, by rw [← hw.knotsV]; exact reverse_length _, by simp [gridOf],
      fun i hi j hj => by rw [hcps i hi j hj]; exact hw.weights _ hi _ (by omega)⟩
  refine ⟨_, e, hw', rfl, rfl, hcps, ?_⟩
  intro a b ha0 ha1 hb0 hb1 hj
  obtain ⟨ka, hka, _, _⟩ := exists_span hw.clampedU ha0 ha1
  obtain ⟨kb, hkb, _, _⟩ := exists_span hw.clampedV hb0 hb1
  obtain ⟨kb', hkb', _, _⟩ := exists_span hw'.clampedV (show 0 ≤ 1 - b by linarith) (by linarith)
  obtain ⟨g1, g2, g3, g4, _, _, _, g8⟩ := surface_seg hw ha0 ha1 hb0 hb1 hka hkb
  obtain ⟨_, _, g3', g4', _, _, _, g8'⟩ := surface_seg hw' ha0 ha1 (by linarith) (by linarith) hka hkb'
  rw [g8, g8']
  congr 2
  unfold surfSeg
  have hx := seg_reverse_at hw.clampedV hw.knotsV hb0 hkb g3 g4 hkb' g3' g4' hj
    (fun j => seg (kn s.KnotsU.Values) ka a p fun i => hcp s i j) (fun j => seg (kn s.KnotsU.Values) ka a p fun i => hcp s i (n - 1 - j))
    (fun a b hab => by beta_reduce; rw [show n - 1 - a = b by omega])
  show _ = seg (kn s.KnotsV.Values) kb b q fun j => seg (kn s.KnotsU.Values) ka a p fun i => hcp s i j
  rw [← hx]
  refine seg_congr g3' fun j h1 h2 => seg_congr g1 fun i h3 h4 => ?_
  unfold hcp
  rw [hcps i (by omega) j (by omega)]

end Nurbs
