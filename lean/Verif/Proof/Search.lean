import Verif.Proof.Loops
import Verif.Model.Search
import Verif.Spec.Search
import Mathlib.Tactic.Linarith
import Mathlib.Tactic.Positivity
import Mathlib.Tactic.NormNum

/-! # The search loops -/

set_option linter.unusedSectionVars false

namespace Nurbs
open Search

variable {K : Type} [Field K] [LinearOrder K] [IsStrictOrderedRing K]

theorem fabs_eq (x : K) : fabs x = |x| := rfl

theorem clamp01_mem (v : K) : 0 ≤ clamp01 v ∧ clamp01 v ≤ 1 := by
  unfold clamp01
  split_ifs with h1 h2
  · exact ⟨le_refl _, zero_le_one⟩
  · exact ⟨zero_le_one, le_refl _⟩
  · exact ⟨not_lt.mp h1, not_lt.mp h2⟩

/-- The function is defined (does not throw, assert, ...) on `[0,1]`. -/
def TotalOn (f : K → M K) : Prop := ∀ u, 0 ≤ u → u ≤ 1 → ∃ r, f u = .ok r

theorem lineSearch1_ok {norm : K → M K} (hn : TotalOn norm) (u r H g : K) (n : ℕ) (al : K) :
    ∃ v, 0 ≤ v ∧ v ≤ 1 ∧ lineSearch1 norm u r H g n al = .ok v := by
  induction n generalizing al with
  | zero => exact ⟨_, (clamp01_mem _).1, (clamp01_mem _).2, rfl⟩
  | succ n ih =>
    obtain ⟨x, hx⟩ := hn _ (clamp01_mem (u - al * H * g)).1 (clamp01_mem (u - al * H * g)).2
    unfold lineSearch1
    simp only [hx, bind_ok]
    split_ifs
    · exact ⟨_, (clamp01_mem _).1, (clamp01_mem _).2, rfl⟩
    · exact ih _

theorem bfgsStep1_ok {norm fi : K → M K} (hn : TotalOn norm) (hf : TotalOn fi) (ls : ℕ) {u : K} (h0 : 0 ≤ u) (h1 : u ≤ 1)
    (r H : K) : ∃ v r' H', 0 ≤ v ∧ v ≤ 1 ∧ norm v = .ok r' ∧ bfgsStep1 norm fi ls (u, r, H) = .ok (v, r', H') := by
  obtain ⟨g, hg⟩ := hf u h0 h1
  obtain ⟨v, hv0, hv1, hv⟩ := lineSearch1_ok hn u r H g ls 1
  obtain ⟨g', hg'⟩ := hf v hv0 hv1
  obtain ⟨r', hr'⟩ := hn v hv0 hv1
  unfold bfgsStep1
  simp only [hg, bind_ok, hv, hg', hr']
  rw [fdiv_ok]
  · exact ⟨v, r', _, hv0, hv1, hr', rfl⟩
  · split_ifs with h
    · unfold fallback; positivity
    · intro h2
      rw [h2, fabs_eq, abs_zero] at h
      exact h (by unfold tiny; positivity)

theorem bfgsLoop1_ok {norm fi : K → M K} (hn : TotalOn norm) (hf : TotalOn fi) (ls : ℕ) (eps maxIter : K) (N : ℕ) (hN : maxIter ≤ N)
    (fuel : ℕ) : ∀ (count : ℕ) (s : K × K × K), N < fuel + count → (count = 0 ∨ (count : K) - 1 < maxIter) →
      0 ≤ s.1 → s.1 ≤ 1 → (s.2.1 < eps → norm s.1 = .ok s.2.1) →
      ∃ s' count', bfgsLoop1 norm fi ls eps maxIter fuel count s = .ok (s', count') ∧ 0 ≤ s'.1 ∧ s'.1 ≤ 1 ∧
        (count' = 0 ∨ (count' : K) - 1 < maxIter) ∧ ((count' : K) < maxIter → s'.2.1 < eps) ∧ (s'.2.1 < eps → norm s'.1 = .ok s'.2.1) := by
  induction fuel with
  | zero =>
    intro count s h hc
    exfalso
    rcases hc with rfl | hc
    · omega
    · have h2 : (count : K) < (N : K) + 1 := by linarith
      have h3 : count < N + 1 := by exact_mod_cast h2
      omega
  | succ fuel ih =>
    intro count s h hc h0 h1 hr
    unfold bfgsLoop1
    split_ifs with c1 c2
    · exact ⟨s, count, rfl, h0, h1, hc, fun _ => c1, hr⟩
    · exact ⟨s, count, rfl, h0, h1, hc, fun h => absurd h (not_lt.mpr c2), fun h => absurd h c1⟩
    · obtain ⟨v, r', H', hv0, hv1, hv, he⟩ := bfgsStep1_ok hn hf ls h0 h1 s.2.1 s.2.2
      rw [show s = (s.1, s.2.1, s.2.2) from rfl, he, bind_ok]
      refine ih (count + 1) (v, r', H') (by omega) (Or.inr ?_) hv0 hv1 (fun _ => hv)
      push_cast
      have := not_le.mp c2
      linarith

theorem bfgsLoop1_mono (norm fi : K → M K) (ls : ℕ) (eps maxIter : K) (fuel : ℕ) :
    ∀ (count : ℕ) (s : K × K × K) (x) (k : ℕ), bfgsLoop1 norm fi ls eps maxIter fuel count s = .ok x →
      bfgsLoop1 norm fi ls eps maxIter (fuel + k) count s = .ok x := by
  induction fuel with
  | zero => intro count s x k h; simp [bfgsLoop1] at h
  | succ fuel ih =>
    intro count s x k h
    rw [show fuel + 1 + k = (fuel + k) + 1 by omega]
    unfold bfgsLoop1 at h ⊢
    split_ifs with c1 c2
    · rwa [if_pos c1] at h
    · rwa [if_neg c1, if_pos c2] at h
    · rw [if_neg c1, if_neg c2] at h
      obtain ⟨s', h1, h2⟩ := bind_eq_ok.mp h
      rw [h1, bind_ok]
      exact ih _ _ _ k h2

/-- The midpoint of a bracket lies in it. -/
theorem mid_mem {a b : K} (h : a ≤ b) : a ≤ (a + b) / 2 ∧ (a + b) / 2 ≤ b := by
  constructor <;> linarith

/-- What an early return of the bisection means. -/
def BinEarly (Ri : K → M K) (eps lo hi mid : K) : Prop :=
  ∃ rm rl rr, Ri mid = .ok rm ∧ Ri (max lo (mid - eps)) = .ok rl ∧ Ri (min hi (mid + eps)) = .ok rr ∧ rm ≤ rl ∧ rm ≤ rr ∧
    (hi - lo < eps ∨ rm < eps)

theorem binStep_ok {Ri : K → M K} (hn : TotalOn Ri) {eps lo hi : K} (he : 0 ≤ eps) (h0 : 0 ≤ lo) (h : lo ≤ hi) (h1 : hi ≤ 1) :
    (binStep Ri eps lo hi = .ok (.inl ((lo + hi) / 2)) ∧ BinEarly Ri eps lo hi ((lo + hi) / 2)) ∨
    ∃ a b, binStep Ri eps lo hi = .ok (.inr (a, b)) ∧ lo ≤ a ∧ a ≤ b ∧ b ≤ hi := by
  obtain ⟨hm1, hm2⟩ := mid_mem h
  have el : (if (lo + hi) / 2 - eps < lo then lo else (lo + hi) / 2 - eps) = max lo ((lo + hi) / 2 - eps) := by
    split_ifs with h
    · rw [max_eq_left h.le]
    · rw [max_eq_right (not_lt.mp h)]
  have er : (if (lo + hi) / 2 + eps > hi then hi else (lo + hi) / 2 + eps) = min hi ((lo + hi) / 2 + eps) := by
    split_ifs with h
    · rw [min_eq_left (le_of_lt h)]
    · rw [min_eq_right (not_lt.mp h)]
  have l1 : lo ≤ max lo ((lo + hi) / 2 - eps) := le_max_left _ _
  have l2 : max lo ((lo + hi) / 2 - eps) ≤ (lo + hi) / 2 := max_le hm1 (by linarith)
  have r1 : (lo + hi) / 2 ≤ min hi ((lo + hi) / 2 + eps) := le_min hm2 (by linarith)
  have r2 : min hi ((lo + hi) / 2 + eps) ≤ hi := min_le_left _ _
  obtain ⟨rm, hrm⟩ := hn ((lo + hi) / 2) (by linarith) (by linarith)
  obtain ⟨rl, hrl⟩ := hn (max lo ((lo + hi) / 2 - eps)) (by linarith) (by linarith)
  obtain ⟨rr, hrr⟩ := hn (min hi ((lo + hi) / 2 + eps)) (by linarith) (by linarith)
  unfold binStep
  simp only [el, er, hrm, hrl, hrr, bind_ok]
  split_ifs with c1 c2 c3
  · exact Or.inr ⟨_, _, rfl, le_refl _, hm1, hm2⟩
  · exact Or.inr ⟨_, _, rfl, hm1, hm2, le_refl _⟩
  · refine Or.inl ⟨rfl, rm, rl, rr, hrm, hrl, hrr, not_lt.mp c1, not_lt.mp c2, ?_⟩
    rwa [fabs_eq, abs_of_nonneg (by linarith)] at c3
  · exact Or.inr ⟨_, _, rfl, l1, by linarith, r2⟩

theorem binLoop_ok {Ri : K → M K} (hn : TotalOn Ri) {eps : K} (he : 0 ≤ eps) (more : ℕ → Bool) (N : ℕ)
    (hmore : ∀ n, more n = true ↔ n < N) (fuel : ℕ) :
    ∀ (count : ℕ) (lo hi : K), N < fuel + count → count ≤ N → 0 ≤ lo → lo ≤ hi → hi ≤ 1 →
      ∃ r n lo' hi', binLoop Ri eps more fuel count lo hi = .ok (r, n) ∧ n ≤ N ∧ lo ≤ lo' ∧ lo' ≤ hi' ∧ hi' ≤ hi ∧
        r = (lo' + hi') / 2 ∧ (n = N ∨ BinEarly Ri eps lo' hi' r) := by
  induction fuel with
  | zero => intro count lo hi h1 h2; omega
  | succ fuel ih =>
    intro count lo hi h1 h2 h3 h4 h5
    unfold binLoop
    by_cases hm : more count = true
    · have hlt := (hmore _).mp hm
      rw [if_pos hm]
      rcases binStep_ok hn he h3 h4 h5 with ⟨e, hb⟩ | ⟨a, b, e, ha, hab, hb⟩
      · rw [e]
        exact ⟨_, count + 1, lo, hi, rfl, by omega, le_refl _, h4, le_refl _, rfl, Or.inr hb⟩
      · rw [e]
        obtain ⟨r, n, lo', hi', q1, q2, q3, q4, q5, q6, q7⟩ := ih (count + 1) a b (by omega) (by omega) (h3.trans ha) hab (hb.trans h5)
        exact ⟨r, n, lo', hi', q1, q2, ha.trans q3, q4, q5.trans hb, q6, q7⟩
    · rw [if_neg hm]
      have : ¬ count < N := fun h => hm ((hmore _).mpr h)
      exact ⟨_, count, lo, hi, rfl, h2, le_refl _, h4, le_refl _, rfl, Or.inl (by omega)⟩

end Nurbs
