import Verif.Proof.Search

/-! # Accuracy of the bisection on a function with one valley -/

set_option linter.unusedSectionVars false

namespace Nurbs
open Search Spec

variable {K : Type} [Field K] [LinearOrder K] [IsStrictOrderedRing K]

theorem binStep_near {Ri : K → M K} {f : K → K} (hn : ∀ x, 0 ≤ x → x ≤ 1 → Ri x = .ok (f x)) {m : K} (hv : Valley f m)
    {eps lo hi : K} (he : 0 < eps) (h0 : 0 ≤ lo) (h1 : hi ≤ 1) (hl : lo ≤ m) (hr : m ≤ hi) :
    (binStep Ri eps lo hi = .ok (.inl ((lo + hi) / 2)) ∧ |(lo + hi) / 2 - m| ≤ eps) ∨
    ∃ a b, binStep Ri eps lo hi = .ok (.inr (a, b)) ∧ lo ≤ a ∧ a ≤ m ∧ m ≤ b ∧ b ≤ hi ∧ b - a ≤ max ((hi - lo) / 2) (2 * eps) := by
  obtain ⟨-, -, v1, v2⟩ := hv
  obtain ⟨hm1, hm2⟩ := mid_mem (hl.trans hr)
  have el : (if (lo + hi) / 2 - eps < lo then lo else (lo + hi) / 2 - eps) = max lo ((lo + hi) / 2 - eps) := by
    split_ifs with h
    · rw [max_eq_left h.le]
    · rw [max_eq_right (not_lt.mp h)]
  have er : (if (lo + hi) / 2 + eps > hi then hi else (lo + hi) / 2 + eps) = min hi ((lo + hi) / 2 + eps) := by
    split_ifs with h
    · rw [min_eq_left (le_of_lt h)]
    · rw [min_eq_right (not_lt.mp h)]
  have l1 : lo ≤ max lo ((lo + hi) / 2 - eps) := le_max_left _ _
  have l3 : (lo + hi) / 2 - eps ≤ max lo ((lo + hi) / 2 - eps) := le_max_right _ _
  have l2 : max lo ((lo + hi) / 2 - eps) ≤ (lo + hi) / 2 := max_le hm1 (by linarith)
  have r1 : (lo + hi) / 2 ≤ min hi ((lo + hi) / 2 + eps) := le_min hm2 (by linarith)
  have r2 : min hi ((lo + hi) / 2 + eps) ≤ hi := min_le_left _ _
  have r3 : min hi ((lo + hi) / 2 + eps) ≤ (lo + hi) / 2 + eps := min_le_right _ _
  have sl : lo < hi → max lo ((lo + hi) / 2 - eps) < (lo + hi) / 2 := fun h => max_lt (by linarith) (by linarith)
  have sr : lo < hi → (lo + hi) / 2 < min hi ((lo + hi) / 2 + eps) := fun h => lt_min (by linarith) (by linarith)
  generalize max lo ((lo + hi) / 2 - eps) = L at *
  generalize min hi ((lo + hi) / 2 + eps) = R at *
  unfold binStep
  simp only [el, er, hn ((lo + hi) / 2) (by linarith) (by linarith), hn L (by linarith) (by linarith),
    hn R (by linarith) (by linarith), bind_ok]
  have hstay : ¬ f L < f ((lo + hi) / 2) → ¬ f R < f ((lo + hi) / 2) → L ≤ m ∧ m ≤ R := by
    intro c1 c2
    by_cases hlt : lo < hi
    · constructor
      · by_contra h
        exact c1 (v2 _ _ (not_le.1 h).le (sl hlt) (by linarith))
      · by_contra h
        exact c2 (v1 _ _ (by linarith) (sr hlt) (not_le.1 h).le)
    · constructor <;> linarith [not_lt.1 hlt]
  split_ifs with c1 c2 c3
  · refine Or.inr ⟨_, _, rfl, le_rfl, hl, ?_, hm2, le_trans (by linarith) (le_max_left _ _)⟩
    by_contra h
    rcases l2.lt_or_eq with h' | h'
    · exact absurd (v1 _ _ (by linarith) h' (not_le.1 h).le) (not_lt.2 c1.le)
    · rw [h'] at c1; exact lt_irrefl _ c1
  · refine Or.inr ⟨_, _, rfl, hm1, ?_, hr, le_rfl, le_trans (by linarith) (le_max_left _ _)⟩
    by_contra h
    rcases r1.lt_or_eq with h' | h'
    · exact absurd (v2 _ _ (not_le.1 h).le h' (by linarith)) (not_lt.2 c2.le)
    · rw [← h'] at c2; exact lt_irrefl _ c2
  · obtain ⟨a, b⟩ := hstay c1 c2
    exact Or.inl ⟨rfl, abs_le.2 ⟨by linarith, by linarith⟩⟩
  · obtain ⟨a, b⟩ := hstay c1 c2
    exact Or.inr ⟨_, _, rfl, l1, a, b, r2, le_trans (by linarith) (le_max_right _ _)⟩

theorem binLoop_near {Ri : K → M K} {f : K → K} (hn : ∀ x, 0 ≤ x → x ≤ 1 → Ri x = .ok (f x)) {m : K} (hv : Valley f m)
    {eps : K} (he : 0 < eps) (more : ℕ → Bool) (N : ℕ) (hmore : ∀ n, more n = true ↔ n < N) (fuel : ℕ) :
    ∀ (count : ℕ) (lo hi : K), N < fuel + count → count ≤ N → 0 ≤ lo → hi ≤ 1 → lo ≤ m → m ≤ hi →
      hi - lo ≤ max (1 / 2 ^ count) (2 * eps) →
      ∃ r n, binLoop Ri eps more fuel count lo hi = .ok (r, n) ∧ |r - m| ≤ max (1 / 2 ^ (N + 1)) eps := by
  induction fuel with
  | zero => intro count lo hi h1 h2; omega
  | succ fuel ih =>
    intro count lo hi h1 h2 h3 h4 h5 h6 hw
    unfold binLoop
    by_cases hm : more count = true
    · have hlt := (hmore _).mp hm
      rw [if_pos hm]
      rcases binStep_near hn hv he h3 h4 h5 h6 with ⟨e, hb⟩ | ⟨a, b, e, ha, ham, hmb, hb, hab⟩
      · rw [e]
        exact ⟨_, count + 1, rfl, hb.trans (le_max_right _ _)⟩
      · rw [e]
        refine ih (count + 1) a b (by omega) (by omega) (h3.trans ha) (hb.trans h4) ham hmb (hab.trans (max_le ?_ (le_max_right _ _)))
        rcases le_max_iff.1 hw with h | h
        · refine le_trans ?_ (le_max_left _ _)
          rw [pow_succ, ← div_div]
          linarith
        · exact le_trans (by linarith) (le_max_right _ _)
    · rw [if_neg hm]
      have : count = N := by
        have : ¬ count < N := fun h => hm ((hmore _).mpr h)
        omega
      subst this
      refine ⟨_, count, rfl, ?_⟩
      have hh : |(lo + hi) / 2 - m| ≤ (hi - lo) / 2 := abs_le.2 ⟨by linarith, by linarith⟩
      refine hh.trans ?_
      rcases le_max_iff.1 hw with h | h
      · refine le_trans ?_ (le_max_left _ _)
        rw [pow_succ, ← div_div]
        linarith
      · exact le_trans (by linarith) (le_max_right _ _)

end Nurbs
