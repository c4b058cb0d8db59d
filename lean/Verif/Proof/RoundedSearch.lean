import Verif.Proof.RoundedDerivErr
import Verif.Model.Search
import Verif.Model.Surface

/-! # The parameter searches with rounding arithmetic -/

set_option linter.unusedSectionVars false

namespace Nurbs
open Search Surface

variable {K : Type} [Field K] [LinearOrder K] [IsStrictOrderedRing K] {R : Rounding K}

/-- The function is defined on `[0,1]`. -/
def TotalR {α : Type} (f : Fl R → M α) : Prop := ∀ u, 0 ≤ u → u ≤ 1 → ∃ r, f u = .ok r

/-- The function is defined on `[0,1]²`. -/
def TotalR2 {α : Type} (f : Fl R → Fl R → M α) : Prop := ∀ u v, 0 ≤ u → u ≤ 1 → 0 ≤ v → v ≤ 1 → ∃ r, f u v = .ok r

/-- `uv ∈ [0,1]²` -/
def InSquareR (t : Vec2 (Fl R)) : Prop := 0 ≤ t.x ∧ t.x ≤ 1 ∧ 0 ≤ t.y ∧ t.y ≤ 1

theorem Fl.zero_le_one' : (0 : Fl R) ≤ 1 := by
  rw [Fl.le_def, Fl.val_zero, Fl.val_one]
  exact zero_le_one

theorem clamp01_memR (v : Fl R) : 0 ≤ clamp01 v ∧ clamp01 v ≤ 1 := by
  unfold clamp01
  split_ifs with h1 h2
  · exact ⟨le_refl _, Fl.zero_le_one'⟩
  · exact ⟨Fl.zero_le_one', le_refl _⟩
  · exact ⟨not_lt.mp h1, not_lt.mp h2⟩

theorem Fl.ofNat_pos (n : ℕ) [n.AtLeastTwo] : (0 : K) < (OfNat.ofNat n : Fl R).val := by
  show (0 : K) < R.rnd ((n : ℕ) : K)
  have h : (1 : K) ≤ ((n : ℕ) : K) := by
    have := Nat.AtLeastTwo.one_lt (n := n)
    exact_mod_cast this.le
  have h2 := R.mono _ _ h
  rw [R.one] at h2
  exact lt_of_lt_of_le zero_lt_one h2

theorem Fl.div_pos' {a b : Fl R} (ha : 0 < a.val) (hb : 0 < b.val) : 0 < (a / b).val :=
  (R.near (div_pos ha hb).le).pos R.q_pos (div_pos ha hb)

theorem tiny_posR : (0 : K) < (tiny : Fl R).val :=
  Fl.div_pos' (by rw [Fl.val_one]; exact zero_lt_one) (Fl.ofNat_pos _)

theorem fallback_posR : (0 : K) < (fallback : Fl R).val :=
  Fl.div_pos' (by rw [Fl.val_one]; exact zero_lt_one) (Fl.ofNat_pos _)

theorem Fl.neg_zero' : -(0 : Fl R) = 0 := by
  apply Fl.val_inj
  rw [Fl.val_neg, Fl.val_zero, neg_zero]

/-- The divisor chosen by the update of `Hk` is not zero. -/
theorem divisor_ne {y : Fl R} : (if fabs y < tiny then fallback else y) ≠ 0 := by
  split_ifs with h
  · intro h2
    have := fallback_posR (R := R)
    rw [h2, Fl.val_zero] at this
    exact lt_irrefl _ this
  · rintro rfl
    apply h
    unfold fabs
    rw [Fl.neg_zero', max_self]
    show (0 : Fl R).val < (tiny : Fl R).val
    rw [Fl.val_zero]
    exact tiny_posR

theorem lineSearch1_okR {norm : Fl R → M (Fl R)} (hn : TotalR norm) (u r H g : Fl R) (n : ℕ) (al : Fl R) :
    ∃ v, 0 ≤ v ∧ v ≤ 1 ∧ lineSearch1 norm u r H g n al = .ok v := by
  induction n generalizing al with
  | zero => exact ⟨_, (clamp01_memR _).1, (clamp01_memR _).2, rfl⟩
  | succ n ih =>
    obtain ⟨x, hx⟩ := hn _ (clamp01_memR (u - al * H * g)).1 (clamp01_memR _).2
    unfold lineSearch1
    simp only [hx, bind_ok]
    split_ifs
    · exact ⟨_, (clamp01_memR _).1, (clamp01_memR _).2, rfl⟩
    · exact ih _

theorem bfgsStep1_okR {norm fi : Fl R → M (Fl R)} (hn : TotalR norm) (hf : TotalR fi) (ls : ℕ) {u : Fl R} (h0 : 0 ≤ u) (h1 : u ≤ 1)
    (r H : Fl R) : ∃ v r' H', 0 ≤ v ∧ v ≤ 1 ∧ norm v = .ok r' ∧ bfgsStep1 norm fi ls (u, r, H) = .ok (v, r', H') := by
  obtain ⟨g, hg⟩ := hf u h0 h1
  obtain ⟨v, hv0, hv1, hv⟩ := lineSearch1_okR hn u r H g ls 1
  obtain ⟨g', hg'⟩ := hf v hv0 hv1
  obtain ⟨r', hr'⟩ := hn v hv0 hv1
  unfold bfgsStep1
  simp only [hg, bind_ok, hv, hg', hr']
  rw [fdiv_ok divisor_ne]
  exact ⟨v, r', _, hv0, hv1, hr', rfl⟩

/-- A limit below `N` is met when the counter, converted to floating point, is `N`. -/
theorem limit_met {limit : Fl R} {N : ℕ} (h : limit.val ≤ N) : limit ≤ (N : Fl R) := by
  rw [Fl.le_def]
  have := R.mono _ _ h
  rwa [Fl.rnd_val] at this

theorem bfgsLoop1_okR {norm fi : Fl R → M (Fl R)} (hn : TotalR norm) (hf : TotalR fi) (ls : ℕ) (eps limit : Fl R) (N : ℕ)
    (hN : limit.val ≤ N) (fuel : ℕ) : ∀ (count : ℕ) (s : Fl R × Fl R × Fl R), fuel + count = N + 1 → count ≤ N →
      0 ≤ s.1 → s.1 ≤ 1 → (s.2.1 < eps → norm s.1 = .ok s.2.1) →
      ∃ s' n, (∀ k, bfgsLoop1 norm fi ls eps limit (fuel + k) count s = .ok (s', n)) ∧ n ≤ N ∧ 0 ≤ s'.1 ∧ s'.1 ≤ 1 ∧
        ((n : Fl R) < limit → s'.2.1 < eps) ∧ (s'.2.1 < eps → norm s'.1 = .ok s'.2.1) := by
  induction fuel with
  | zero => intro count s h hc; omega
  | succ fuel ih =>
    intro count s h hc h0 h1 hr
    by_cases c1 : s.2.1 < eps
    · refine ⟨s, count, fun k => ?_, hc, h0, h1, fun _ => c1, hr⟩
      rw [show fuel + 1 + k = (fuel + k) + 1 by omega]
      unfold bfgsLoop1
      rw [if_pos c1]
    by_cases c2 : limit ≤ (count : Fl R)
    · refine ⟨s, count, fun k => ?_, hc, h0, h1, fun h => absurd h (not_lt.mpr c2), hr⟩
      rw [show fuel + 1 + k = (fuel + k) + 1 by omega]
      unfold bfgsLoop1
      rw [if_neg c1, if_pos c2]
    obtain ⟨v, r', H', hv0, hv1, hv, he⟩ := bfgsStep1_okR hn hf ls h0 h1 s.2.1 s.2.2
    have hcN : count ≠ N := by
      rintro rfl
      exact c2 (limit_met hN)
    obtain ⟨s', n, e, q⟩ := ih (count + 1) (v, r', H') (by omega) (by omega) hv0 hv1 (fun _ => hv)
    refine ⟨s', n, fun k => ?_, q⟩
    rw [show fuel + 1 + k = (fuel + k) + 1 by omega]
    unfold bfgsLoop1
    rw [if_neg c1, if_neg c2, show s = (s.1, s.2.1, s.2.2) from rfl, he, bind_ok]
    exact e k

/-! ### Two parameters -/

theorem trial2_memR (uv : Vec2 (Fl R)) (H : Mat2 (Fl R)) (g : Vec2 (Fl R)) (al : Fl R) : InSquareR (Surface.trial2 uv H g al) :=
  ⟨(clamp01_memR _).1, (clamp01_memR _).2, (clamp01_memR _).1, (clamp01_memR _).2⟩

theorem lineSearch2_okR {norm : Fl R → Fl R → M (Fl R)} (hn : TotalR2 norm) (uv : Vec2 (Fl R)) (r : Fl R) (H : Mat2 (Fl R))
    (g : Vec2 (Fl R)) (n : ℕ) (al : Fl R) : ∃ v, InSquareR v ∧ Surface.lineSearch2 norm uv r H g n al = .ok v := by
  induction n generalizing al with
  | zero => exact ⟨_, trial2_memR uv H g al, rfl⟩
  | succ n ih =>
    obtain ⟨h1, h2, h3, h4⟩ := trial2_memR uv H g al
    obtain ⟨x, hx⟩ := hn _ _ h1 h2 h3 h4
    unfold Surface.lineSearch2
    simp only [hx, bind_ok]
    split_ifs
    · exact ⟨_, trial2_memR uv H g al, rfl⟩
    · exact ih _

theorem bfgsStep2_okR {norm : Fl R → Fl R → M (Fl R)} {Ki : Fl R → Fl R → M (Vec2 (Fl R))} (hn : TotalR2 norm) (hf : TotalR2 Ki)
    {u : Vec2 (Fl R)} (hu : InSquareR u) (r : Fl R) (H : Mat2 (Fl R)) :
    ∃ v r' H', InSquareR v ∧ norm v.x v.y = .ok r' ∧ Surface.bfgsStep2 norm Ki (u, r, H) = .ok (v, r', H') := by
  obtain ⟨g, hg⟩ := hf _ _ hu.1 hu.2.1 hu.2.2.1 hu.2.2.2
  obtain ⟨v, hv', hv⟩ := lineSearch2_okR hn u r H g 20 1
  obtain ⟨g', hg'⟩ := hf _ _ hv'.1 hv'.2.1 hv'.2.2.1 hv'.2.2.2
  obtain ⟨r', hr'⟩ := hn _ _ hv'.1 hv'.2.1 hv'.2.2.1 hv'.2.2.2
  unfold Surface.bfgsStep2
  simp only [hg, bind_ok, hv, hg', hr']
  rw [fdiv_ok divisor_ne]
  exact ⟨v, r', _, hv', hr', rfl⟩

theorem bfgsLoop2_okR {norm : Fl R → Fl R → M (Fl R)} {Ki : Fl R → Fl R → M (Vec2 (Fl R))} (hn : TotalR2 norm) (hf : TotalR2 Ki)
    (eps limit : Fl R) (N : ℕ) (hN : limit.val ≤ N) (fuel : ℕ) :
    ∀ (count : ℕ) (s : Vec2 (Fl R) × Fl R × Mat2 (Fl R)), fuel + count = N + 1 → count ≤ N →
      InSquareR s.1 → (s.2.1 < eps → norm s.1.x s.1.y = .ok s.2.1) →
      ∃ s' n, (∀ k, Surface.bfgsLoop2 norm Ki eps limit (fuel + k) count s = .ok (s', n)) ∧ n ≤ N ∧ InSquareR s'.1 ∧
        ((n : Fl R) < limit → s'.2.1 < eps) ∧ (s'.2.1 < eps → norm s'.1.x s'.1.y = .ok s'.2.1) := by
  induction fuel with
  | zero => intro count s h hc; omega
  | succ fuel ih =>
    intro count s h hc h0 hr
    by_cases c1 : s.2.1 < eps
    · refine ⟨s, count, fun k => ?_, hc, h0, fun _ => c1, hr⟩
      rw [show fuel + 1 + k = (fuel + k) + 1 by omega]
      unfold Surface.bfgsLoop2
      rw [if_pos c1]
    by_cases c2 : limit ≤ (count : Fl R)
    · refine ⟨s, count, fun k => ?_, hc, h0, fun h => absurd h (not_lt.mpr c2), hr⟩
      rw [show fuel + 1 + k = (fuel + k) + 1 by omega]
      unfold Surface.bfgsLoop2
      rw [if_neg c1, if_pos c2]
    obtain ⟨v, r', H', hv0, hv, he⟩ := bfgsStep2_okR hn hf h0 s.2.1 s.2.2
    have hcN : count ≠ N := by
      rintro rfl
      exact c2 (limit_met hN)
    obtain ⟨s', n, e, q⟩ := ih (count + 1) (v, r', H') (by omega) (by omega) hv0 (fun _ => hv)
    refine ⟨s', n, fun k => ?_, q⟩
    rw [show fuel + 1 + k = (fuel + k) + 1 by omega]
    unfold Surface.bfgsLoop2
    rw [if_neg c1, if_neg c2, show s = (s.1, s.2.1, s.2.2) from rfl, he, bind_ok]
    exact e k

/-! ### Bisection -/

/-- The middle of two numbers of `[0,1]` is in `[0,1]`, rounding included. -/
theorem mid_memR {a b : Fl R} (a0 : 0 ≤ a) (a1 : a ≤ 1) (b0 : 0 ≤ b) (b1 : b ≤ 1) : 0 ≤ (a + b) / 2 ∧ (a + b) / 2 ≤ 1 := by
  rw [Fl.le_def, Fl.val_zero] at a0 b0
  rw [Fl.le_def, Fl.val_one] at a1 b1
  have h2 : (0 : K) < (2 : Fl R).val := Fl.ofNat_pos 2
  have e2 : (2 : Fl R).val = R.rnd 2 := rfl
  have hs0 : 0 ≤ (a + b).val := by
    rw [Fl.val_add, ← R.zero]
    exact R.mono _ _ (by linarith)
  have hs1 : (a + b).val ≤ (2 : Fl R).val := by
    rw [Fl.val_add, e2]
    exact R.mono _ _ (by linarith)
  constructor
  · rw [Fl.le_def, Fl.val_zero, Fl.val_div, ← R.zero]
    exact R.mono _ _ (div_nonneg hs0 h2.le)
  · rw [Fl.le_def, Fl.val_one, Fl.val_div, ← R.one]
    exact R.mono _ _ ((div_le_one h2).mpr hs1)

theorem sub_leR {m e : Fl R} (he : 0 ≤ e) : m - e ≤ m := by
  rw [Fl.le_def, Fl.val_zero] at he
  rw [Fl.le_def, Fl.val_sub, ← Fl.rnd_val m]
  exact R.mono _ _ (by rw [Fl.rnd_val]; linarith)

theorem le_addR {m e : Fl R} (he : 0 ≤ e) : m ≤ m + e := by
  rw [Fl.le_def, Fl.val_zero] at he
  rw [Fl.le_def, Fl.val_add, ← Fl.rnd_val m]
  exact R.mono _ _ (by rw [Fl.rnd_val]; linarith)

/-- What an early return of the bisection means. -/
def BinEarlyR (Ri : Fl R → M (Fl R)) (eps lo hi mid : Fl R) : Prop :=
  ∃ rm rl rr, Ri mid = .ok rm ∧ Ri (max lo (mid - eps)) = .ok rl ∧ Ri (min hi (mid + eps)) = .ok rr ∧ rm ≤ rl ∧ rm ≤ rr ∧
    (fabs (hi - lo) < eps ∨ rm < eps)

theorem binStep_okR {Ri : Fl R → M (Fl R)} (hn : TotalR Ri) {eps lo hi : Fl R} (he : 0 ≤ eps) (l0 : 0 ≤ lo) (l1 : lo ≤ 1)
    (h0 : 0 ≤ hi) (h1 : hi ≤ 1) :
    (binStep Ri eps lo hi = .ok (.inl ((lo + hi) / 2)) ∧ BinEarlyR Ri eps lo hi ((lo + hi) / 2)) ∨
    ∃ a b, binStep Ri eps lo hi = .ok (.inr (a, b)) ∧ 0 ≤ a ∧ a ≤ 1 ∧ 0 ≤ b ∧ b ≤ 1 := by
  obtain ⟨m0, m1⟩ := mid_memR l0 l1 h0 h1
  have el : (if (lo + hi) / 2 - eps < lo then lo else (lo + hi) / 2 - eps) = max lo ((lo + hi) / 2 - eps) := by
    split_ifs with h
    · rw [max_eq_left h.le]
    · rw [max_eq_right (not_lt.mp h)]
  have er : (if (lo + hi) / 2 + eps > hi then hi else (lo + hi) / 2 + eps) = min hi ((lo + hi) / 2 + eps) := by
    split_ifs with h
    · rw [min_eq_left (le_of_lt h)]
    · rw [min_eq_right (not_lt.mp h)]
  have a0 : 0 ≤ max lo ((lo + hi) / 2 - eps) := l0.trans (le_max_left _ _)
  have a1 : max lo ((lo + hi) / 2 - eps) ≤ 1 := max_le l1 ((sub_leR he).trans m1)
  have b0 : 0 ≤ min hi ((lo + hi) / 2 + eps) := le_min h0 (m0.trans (le_addR he))
  have b1 : min hi ((lo + hi) / 2 + eps) ≤ 1 := (min_le_left _ _).trans h1
  obtain ⟨rm, hrm⟩ := hn _ m0 m1
  obtain ⟨rl, hrl⟩ := hn _ a0 a1
  obtain ⟨rr, hrr⟩ := hn _ b0 b1
  unfold binStep
  simp only [el, er, hrm, hrl, hrr, bind_ok]
  split_ifs with c1 c2 c3
  · exact Or.inr ⟨_, _, rfl, l0, l1, m0, m1⟩
  · exact Or.inr ⟨_, _, rfl, m0, m1, h0, h1⟩
  · exact Or.inl ⟨rfl, rm, rl, rr, hrm, hrl, hrr, not_lt.mp c1, not_lt.mp c2, c3⟩
  · exact Or.inr ⟨_, _, rfl, a0, a1, b0, b1⟩

theorem binLoop_okR {Ri : Fl R → M (Fl R)} (hn : TotalR Ri) {eps : Fl R} (he : 0 ≤ eps) (more : ℕ → Bool) (N : ℕ)
    (hN : more N = false) (fuel : ℕ) :
    ∀ (count : ℕ) (lo hi : Fl R), fuel + count = N + 1 → count ≤ N → 0 ≤ lo → lo ≤ 1 → 0 ≤ hi → hi ≤ 1 →
      ∃ r n lo' hi', (∀ k, binLoop Ri eps more (fuel + k) count lo hi = .ok (r, n)) ∧ n ≤ N ∧ 0 ≤ lo' ∧ lo' ≤ 1 ∧ 0 ≤ hi' ∧ hi' ≤ 1 ∧
        r = (lo' + hi') / 2 ∧ (more n = false ∨ BinEarlyR Ri eps lo' hi' r) := by
  induction fuel with
  | zero => intro count lo hi h1 h2; omega
  | succ fuel ih =>
    intro count lo hi h1 h2 l0 l1 u0 u1
    by_cases hm : more count = true
    · have hcN : count ≠ N := by
        rintro rfl
        rw [hN] at hm
        cases hm
      rcases binStep_okR hn he l0 l1 u0 u1 with ⟨e, hb⟩ | ⟨a, b, e, ha0, ha1, hb0, hb1⟩
      · refine ⟨_, count + 1, lo, hi, fun k => ?_, by omega, l0, l1, u0, u1, rfl, Or.inr hb⟩
        rw [show fuel + 1 + k = (fuel + k) + 1 by omega]
        unfold binLoop
        rw [if_pos hm, e]
        rfl
      · obtain ⟨r, n, lo', hi', q1, q⟩ := ih (count + 1) a b (by omega) (by omega) ha0 ha1 hb0 hb1
        refine ⟨r, n, lo', hi', fun k => ?_, q⟩
        rw [show fuel + 1 + k = (fuel + k) + 1 by omega]
        unfold binLoop
        rw [if_pos hm, e]
        exact q1 k
    · refine ⟨_, count, lo, hi, fun k => ?_, h2, l0, l1, u0, u1, rfl, Or.inl (by simpa using hm)⟩
      rw [show fuel + 1 + k = (fuel + k) + 1 by omega]
      unfold binLoop
      rw [if_neg hm]

end Nurbs
