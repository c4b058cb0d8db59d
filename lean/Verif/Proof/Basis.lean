import Verif.Model.Basis
import Verif.Spec.Basis
import Verif.Proof.Knots
import Verif.Proof.Blossom

/-! # The basis code computes the Cox–de Boor functions -/

set_option linter.unusedSectionVars false

namespace Nurbs
open Spec

variable {K : Type} [Field K] [LinearOrder K]

/-- On a span the Cox–de Boor functions are the span-local ones. -/
theorem N_eq_Nl (U : ℕ → K) (x : K) (k m : ℕ)
    (h0 : ∀ i < m, N U x 0 i = if i = k then 1 else 0) (p i : ℕ) (hi : i + p < m) :
    N U x p i = Nl U k x p i := by
  induction p generalizing i with
  | zero => rw [h0 i (by omega)]; rfl
  | succ p ih => simp only [N, Nl]; rw [ih i (by omega), ih (i + 1) (by omega)]

theorem N_zero_span {l : List K} (hs : l.Pairwise (· ≤ ·)) (h1 : ∀ i < l.length, kn l i ≤ 1) {x : K} {k : ℕ}
    (hk : IsSpan l x k) : ∀ i < l.length - 1, N (kn l) x 0 i = if i = k then 1 else 0 := by
  intro i hi
  simp only [N]
  by_cases h : i = k
  · subst h
    rw [if_pos rfl, if_pos]
    rcases hk.2.2 with h | h
    · exact Or.inl ⟨hk.2.1, h⟩
    · exact Or.inr h
  · rw [if_neg h, if_neg]
    intro hc
    apply h
    apply isSpan_unique hs _ hk h1
    refine ⟨by omega, ?_, ?_⟩
    · rcases hc with hc | hc
      · exact hc.1
      · rw [hc.1]; exact hc.2.1.le
    · rcases hc with hc | hc
      · exact Or.inl hc.2
      · exact Or.inr hc

theorem IsSpan.lt [IsStrictOrderedRing K] {l : List K} {x : K} {k : ℕ} (h : IsSpan l x k) : kn l k < kn l (k + 1) := by
  rcases h.2.2 with h' | h'
  · exact lt_of_le_of_lt h.2.1 h'
  · rw [h'.2.2]; exact h'.2.1

theorem IsSpan.le_right {l : List K} {x : K} {k : ℕ} (h : IsSpan l x k) : x ≤ kn l (k + 1) := by
  rcases h.2.2 with h' | h'
  · exact h'.le
  · rw [h'.2.2, h'.1]

/-- A non-empty span of a sorted vector is regular. -/
theorem regSpan_of_sorted {l : List K} (hs : l.Pairwise (· ≤ ·)) {k p : ℕ} (hk : kn l k < kn l (k + 1))
    (hl : k + p < l.length) : RegSpan (kn l) k p := by
  intro q i hq h1 h2
  have a : kn l i ≤ kn l k := kn_mono hs h2 (by omega)
  have b : kn l (k + 1) ≤ kn l (i + q) := kn_mono hs (by omega) (by omega)
  exact ne_of_gt (lt_of_le_of_lt a (lt_of_lt_of_le hk b))

/-! ### the inner recurrence -/

/-- Level-`j` entry `n` of the triangle. -/
def lev (U : ℕ → K) (k : ℕ) (x : K) (j n : ℕ) : K := if n ≤ j then Nl U k x j (k - j + n) else 0

/-- `saved` before iteration `n` of level `j`. -/
def sav (U : ℕ → K) (k : ℕ) (x : K) (j n : ℕ) : K :=
  if n = 0 then 0 else (x - U (k - j + n)) * (lev U k x (j - 1) (n - 1) / (U (k + n) - U (k - j + n)))

theorem lev_rec (U : ℕ → K) (k : ℕ) (x : K) (j n : ℕ) (hj : 1 ≤ j) (hjk : j ≤ k) (hn : n < j) :
    lev U k x j n = sav U k x j n + (U (k + n + 1) - x) * (lev U k x (j - 1) n / (U (k + n + 1) - U (k + 1 - j + n))) := by
  obtain ⟨j, rfl⟩ : ∃ j', j = j' + 1 := ⟨j - 1, by omega⟩
  simp only [lev, sav, Nat.add_sub_cancel]
  rw [if_pos (show n ≤ j + 1 by omega), if_pos (show n ≤ j by omega)]
  simp only [Nl]
  rw [show k - (j + 1) + n + j + 1 = k + n by omega, show k - (j + 1) + n + j + 2 = k + n + 1 by omega,
    show k - (j + 1) + n + 1 = k + 1 - (j + 1) + n by omega, show k + 1 - (j + 1) + n = k - j + n by omega]
  by_cases h0 : n = 0
  · subst h0
    rw [Nl_zero_of_lt U k x j (k - (j + 1) + 0) (by omega)]
    simp; ring
  · rw [if_neg h0, if_pos (by omega), show k - j + (n - 1) = k - (j + 1) + n by omega]
    ring

theorem lev_last (U : ℕ → K) (k : ℕ) (x : K) (j : ℕ) (hj : 1 ≤ j) (hjk : j ≤ k) :
    lev U k x j j = sav U k x j j := by
  obtain ⟨j, rfl⟩ : ∃ j', j = j' + 1 := ⟨j - 1, by omega⟩
  simp only [lev, sav, Nat.add_sub_cancel, le_refl, if_true]
  simp only [Nl]
  rw [Nl_zero_of_gt U k x j (k - (j + 1) + (j + 1) + 1) (by omega), if_neg (by omega),
    show k - (j + 1) + (j + 1) + j + 1 = k + (j + 1) by omega, show k - (j + 1) + (j + 1) = k by omega,
    show k - j + j = k by omega]
  ring

theorem sav_succ (U : ℕ → K) (k : ℕ) (x : K) (j n : ℕ) (hjk : j ≤ k) :
    sav U k x j (n + 1) =
      (x - U (k + 1 - j + n)) * (lev U k x (j - 1) n / (U (k + n + 1) - U (k + 1 - j + n))) := by
  simp only [sav, Nat.add_sub_cancel]
  rw [if_neg (by omega), show k - j + (n + 1) = k + 1 - j + n by omega]
  rfl

variable {knots : List K} {k p : ℕ} {x : K}

theorem evalOuter_ok (hp : p ≤ k) (hl : k + p < knots.length)
    (hr : RegSpan (kn knots) k p) (j : ℕ) (hj : 1 ≤ j) (hjp : j ≤ p)
    (left right : ℕ → K) (hleft : ∀ m, 1 ≤ m → m < j → left m = x - kn knots (k + 1 - m))
    (hright : ∀ m, 1 ≤ m → m < j → right m = kn knots (k + m) - x) :
    BSplineBasis.evalOuter knots k x j (tab (p + 1) (lev (kn knots) k x (j - 1)), tab (p + 1) left, tab (p + 1) right) =
      .ok (tab (p + 1) (lev (kn knots) k x j), tab (p + 1) (Function.update left j (x - kn knots (k + 1 - j))),
        tab (p + 1) (Function.update right j (kn knots (k + j) - x))) := by
  set U := kn knots with hU
  unfold BSplineBasis.evalOuter
  simp only
  rw [vget_kn knots _ (k + 1 - j) (by omega) (by omega)]
  simp only [bind_ok]
  rw [vset_tab _ _ _ j _ rfl (by omega)]
  simp only [bind_ok]
  rw [vget_kn knots _ (k + j) (by omega) (by omega)]
  simp only [bind_ok]
  rw [vset_tab _ _ _ j _ rfl (by omega)]
  simp only [bind_ok]
  rw [← hU]
  have hL : ∀ m, 1 ≤ m → m ≤ j → Function.update left j (x - U (k + 1 - j)) m = x - U (k + 1 - m) := by
    intro m h1 h2
    rcases Nat.lt_or_ge m j with h | h
    · rw [Function.update_of_ne (by omega), hleft m h1 h]
    · obtain rfl : m = j := by omega
      simp
  have hR : ∀ m, 1 ≤ m → m ≤ j → Function.update right j (U (k + j) - x) m = U (k + m) - x := by
    intro m h1 h2
    rcases Nat.lt_or_ge m j with h | h
    · rw [Function.update_of_ne (by omega), hright m h1 h]
    · obtain rfl : m = j := by omega
      simp
  rw [forLt_eq_forUp _ _ j (by omega)]
  have key := forUp_eq (BSplineBasis.evalInner (tab (p + 1) (Function.update left j (x - U (k + 1 - j))))
      (tab (p + 1) (Function.update right j (U (k + j) - x))) (j : Int))
    (fun n => (tab (p + 1) (fun m => if m < n then lev U k x j m else lev U k x (j - 1) m), sav U k x j n)) j 0 (by
      intro n hn
      unfold BSplineBasis.evalInner
      simp only [zero_add]
      rw [vget_tab _ _ _ n rfl (by omega)]
      simp only [bind_ok]
      rw [vget_tab _ _ _ (n + 1) (by push_cast; ring) (by omega)]
      simp only [bind_ok]
      rw [vget_tab _ _ _ (j - n) (by omega) (by omega)]
      simp only [bind_ok]
      rw [hL _ (by omega) (by omega), hR _ (by omega) (by omega), if_neg (lt_irrefl n),
        show k + 1 - (j - n) = k + 1 - j + n by omega, show k + (n + 1) = k + n + 1 by omega,
        show U (k + n + 1) - x + (x - U (k + 1 - j + n)) = U (k + n + 1) - U (k + 1 - j + n) by ring]
      have hne : U (k + n + 1) - U (k + 1 - j + n) ≠ 0 := by
        have := hr.sub_ne (q := j) (i := k + 1 - j + n) (by omega) (by omega) (by omega)
        rwa [show k + 1 - j + n + j = k + n + 1 by omega] at this
      rw [fdiv_ok hne]
      simp only [bind_ok]
      rw [vset_tab' _ _ (fun m => if m < n + 1 then lev U k x j m else lev U k x (j - 1) m) _ n _ rfl (by omega)]
      · simp only [bind_ok, pure_ok, sav_succ U k x j n (by omega)]
      · intro m _
        by_cases hm : m = n
        · subst hm
          rw [if_pos (by omega), if_pos rfl, lev_rec U k x j m hj (by omega) hn]
        · rw [if_neg hm]
          by_cases hmn : m < n
          · rw [if_pos (by omega), if_pos hmn]
          · rw [if_neg (by omega), if_neg hmn])
  have h00 : sav U k x j 0 = 0 := by simp [sav]
  simp only [Nat.not_lt_zero, if_false, h00] at key
  rw [key]
  simp only [bind_ok]
  rw [vset_tab' _ _ (lev U k x j) _ j _ rfl (by omega)]
  · simp
  · intro m _
    by_cases hm : m = j
    · subst hm; rw [if_pos rfl, lev_last U k x m hj (by omega)]
    · rw [if_neg hm]
      by_cases hmj : m < j
      · rw [if_pos hmj]
      · rw [if_neg hmj]
        simp only [lev]
        rw [if_neg (by omega), if_neg (by omega)]

/-- `BSplineBasis::Evaluate` on a regular span returns the span-local basis functions. -/
theorem evaluateAt_ok (hp : p ≤ k) (hl : k + p < knots.length) (hr : RegSpan (kn knots) k p) :
    BSplineBasis.EvaluateAt p knots k x = .ok (tab (p + 1) fun n => Nl (kn knots) k x p (k - p + n)) := by
  unfold BSplineBasis.EvaluateAt
  rw [vnew_of _ (p + 1) _ (by push_cast; ring), replicate_eq_tab]
  simp only [bind_ok]
  rw [vset_tab' _ _ (lev (kn knots) k x 0) _ 0 1 (by simp) (by omega) (by
    intro m _
    simp only [lev, Nl, Nat.sub_zero]
    by_cases hm : m = 0
    · subst hm; simp
    · rw [if_neg (by omega), if_neg hm])]
  simp only [bind_ok]
  rw [forLe_eq_forUp _ _ p (by omega)]
  obtain ⟨s, hs, hP⟩ := forUp_inv (BSplineBasis.evalOuter knots k x)
    (fun n s => ∃ left right : ℕ → K, s = (tab (p + 1) (lev (kn knots) k x n), tab (p + 1) left, tab (p + 1) right) ∧
      (∀ m, 1 ≤ m → m < n + 1 → left m = x - kn knots (k + 1 - m)) ∧
      (∀ m, 1 ≤ m → m < n + 1 → right m = kn knots (k + m) - x)) p 1
    (tab (p + 1) (lev (kn knots) k x 0), tab (p + 1) fun _ => 0, tab (p + 1) fun _ => 0)
    ⟨_, _, rfl, fun m h1 h2 => by omega, fun m h1 h2 => by omega⟩ (by
      rintro n hn s ⟨left, right, rfl, hleft, hright⟩
      refine ⟨_, ?_, Function.update left (n + 1) (x - kn knots (k + 1 - (n + 1))),
        Function.update right (n + 1) (kn knots (k + (n + 1)) - x), rfl, ?_, ?_⟩
      · have := evalOuter_ok (x := x) hp hl hr (n + 1) (by omega) (by omega) left right hleft hright
        simp only [Nat.add_sub_cancel] at this
        rw [show ((1 : Int) + n) = ((n + 1 : ℕ) : Int) by push_cast; ring]
        exact this
      · intro m h1 h2
        by_cases hm : m = n + 1
        · subst hm; simp
        · rw [Function.update_of_ne hm, hleft m h1 (by omega)]
      · intro m h1 h2
        by_cases hm : m = n + 1
        · subst hm; simp
        · rw [Function.update_of_ne hm, hright m h1 (by omega)])
  obtain ⟨left, right, rfl, _, _⟩ := hP
  rw [hs]
  simp only [bind_ok, pure_ok, Except.ok.injEq]
  apply tab_congr
  intro n hn
  simp only [lev]
  rw [if_pos (by omega)]

/-! ### positivity and partition of unity -/

theorem seg_one (U : ℕ → K) (k : ℕ) (x : K) (p : ℕ) (hp : p ≤ k) (hr : RegSpan U k p) :
    ∑ n ∈ Finset.range (p + 1), Nl U k x p (k - p + n) = 1 := by
  have h : seg U k x p (fun _ => (1 : K)) = 1 := by
    induction p with
    | zero => rw [seg_zero]
    | succ p ih =>
      rw [seg_step U k x p _ hp, seg_congr (Q := fun _ => (1 : K)) (by omega), ih (by omega) (hr.mono (by omega))]
      intro i h1 h2
      have hne := hr.sub_ne (q := p + 1) (i := i) (le_refl _) (by omega) h2
      simp only [step, smul_eq_mul, mul_one]
      rw [← add_div, div_eq_one_iff_eq hne]; ring
  simpa [seg] using h

theorem Nl_nonneg [IsStrictOrderedRing K] (U : ℕ → K) (k : ℕ) (x : K) (p i : ℕ)
    (hm : ∀ a b, a ≤ b → b ≤ k + p → U a ≤ U b) (h1 : U k ≤ x) (h2 : x ≤ U (k + 1)) : 0 ≤ Nl U k x p i := by
  induction p generalizing i with
  | zero => simp only [Nl]; split <;> simp
  | succ p ih =>
    have ih' := fun i => ih i (fun a b hab hb => hm a b hab (by omega))
    simp only [Nl]
    apply add_nonneg
    · rcases Nat.lt_or_ge k i with h | h
      · rw [Nl_zero_of_gt U k x p i h]; simp
      · apply mul_nonneg _ (ih' i)
        apply div_nonneg
        · have := hm i k h (by omega); linarith
        · have := hm i (i + p + 1) (by omega) (by omega); linarith
    · rcases Nat.lt_or_ge k (i + 1) with h | h
      · rw [Nl_zero_of_gt U k x p (i + 1) h]; simp
      · rcases Nat.lt_or_ge (i + 1 + p) k with h' | h'
        · rw [Nl_zero_of_lt U k x p (i + 1) h']; simp
        · apply mul_nonneg _ (ih' (i + 1))
          apply div_nonneg
          · have := hm (k + 1) (i + p + 2) (by omega) (by omega); linarith
          · have := hm (i + 1) (i + p + 2) (by omega) (by omega); linarith

end Nurbs
