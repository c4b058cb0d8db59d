import Verif.Proof.Search
import Verif.Model.Surface

/-! # The two-parameter search loop -/

set_option linter.unusedSectionVars false

namespace Nurbs
open Search Surface

variable {K : Type} [Field K] [LinearOrder K] [IsStrictOrderedRing K]

/-- The function is defined (does not throw, assert, ...) on `[0,1]²`. -/
def TotalOn2 {α : Type} (f : K → K → M α) : Prop := ∀ u v, 0 ≤ u → u ≤ 1 → 0 ≤ v → v ≤ 1 → ∃ r, f u v = .ok r

/-- `uv ∈ [0,1]²` -/
def InSquare (t : Vec2 K) : Prop := 0 ≤ t.x ∧ t.x ≤ 1 ∧ 0 ≤ t.y ∧ t.y ≤ 1

theorem trial2_mem (uv : Vec2 K) (H : Mat2 K) (g : Vec2 K) (al : K) : InSquare (Surface.trial2 uv H g al) :=
  ⟨(clamp01_mem _).1, (clamp01_mem _).2, (clamp01_mem _).1, (clamp01_mem _).2⟩

theorem lineSearch2_ok {norm : K → K → M K} (hn : TotalOn2 norm) (uv : Vec2 K) (r : K) (H : Mat2 K) (g : Vec2 K) (n : ℕ) (al : K) :
    ∃ v, InSquare v ∧ Surface.lineSearch2 norm uv r H g n al = .ok v := by
  induction n generalizing al with
  | zero => exact ⟨_, trial2_mem uv H g al, rfl⟩
  | succ n ih =>
    obtain ⟨h1, h2, h3, h4⟩ := trial2_mem uv H g al
    obtain ⟨x, hx⟩ := hn _ _ h1 h2 h3 h4
    unfold Surface.lineSearch2
    simp only [hx, bind_ok]
    split_ifs
    · exact ⟨_, trial2_mem uv H g al, rfl⟩
    · exact ih _

theorem bfgsStep2_ok {norm : K → K → M K} {Ki : K → K → M (Vec2 K)} (hn : TotalOn2 norm) (hf : TotalOn2 Ki) {u : Vec2 K} (hu : InSquare u)
    (r : K) (H : Mat2 K) : ∃ v r' H', InSquare v ∧ norm v.x v.y = .ok r' ∧ Surface.bfgsStep2 norm Ki (u, r, H) = .ok (v, r', H') := by
  obtain ⟨g, hg⟩ := hf _ _ hu.1 hu.2.1 hu.2.2.1 hu.2.2.2
  obtain ⟨v, hv', hv⟩ := lineSearch2_ok hn u r H g 20 1
  obtain ⟨g', hg'⟩ := hf _ _ hv'.1 hv'.2.1 hv'.2.2.1 hv'.2.2.2
  obtain ⟨r', hr'⟩ := hn _ _ hv'.1 hv'.2.1 hv'.2.2.1 hv'.2.2.2
  unfold Surface.bfgsStep2
  simp only [hg, bind_ok, hv, hg', hr']
  rw [fdiv_ok]
  · exact ⟨v, r', _, hv', hr', rfl⟩
  · split_ifs with h
    · unfold fallback; positivity
    · intro h2
      rw [h2, fabs_eq, abs_zero] at h
      exact h (by unfold tiny; positivity)

theorem bfgsLoop2_ok {norm : K → K → M K} {Ki : K → K → M (Vec2 K)} (hn : TotalOn2 norm) (hf : TotalOn2 Ki) (eps maxIter : K) (N : ℕ)
    (hN : maxIter ≤ N) (fuel : ℕ) :
    ∀ (count : ℕ) (s : Vec2 K × K × Mat2 K), N < fuel + count → (count = 0 ∨ (count : K) - 1 < maxIter) →
      InSquare s.1 → (s.2.1 < eps → norm s.1.x s.1.y = .ok s.2.1) →
      ∃ s' count', Surface.bfgsLoop2 norm Ki eps maxIter fuel count s = .ok (s', count') ∧ InSquare s'.1 ∧
        (count' = 0 ∨ (count' : K) - 1 < maxIter) ∧ ((count' : K) < maxIter → s'.2.1 < eps) ∧
        (s'.2.1 < eps → norm s'.1.x s'.1.y = .ok s'.2.1) := by
  induction fuel with
  | zero =>
    intro count s h hc
    exfalso
    rcases hc with rfl | hc
    · omega
    · have h2 : (count : K) < (N : K) + 1 := by linarith
      have h3 : count < N + 1 := by exact_mod_cast h2
      omega
  | succ fuel ih =>
    intro count s h hc h0 hr
    unfold Surface.bfgsLoop2
    split_ifs with c1 c2
    · exact ⟨s, count, rfl, h0, hc, fun _ => c1, hr⟩
    · exact ⟨s, count, rfl, h0, hc, fun h => absurd h (not_lt.mpr c2), fun h => absurd h c1⟩
    · obtain ⟨v, r', H', hv0, hv, he⟩ := bfgsStep2_ok hn hf h0 s.2.1 s.2.2
      rw [show s = (s.1, s.2.1, s.2.2) from rfl, he, bind_ok]
      refine ih (count + 1) (v, r', H') (by omega) (Or.inr ?_) hv0 (fun _ => hv)
      push_cast
      have := not_le.mp c2
      linarith

theorem bfgsLoop2_mono (norm : K → K → M K) (Ki : K → K → M (Vec2 K)) (eps maxIter : K) (fuel : ℕ) :
    ∀ (count : ℕ) (s : Vec2 K × K × Mat2 K) (x) (k : ℕ), Surface.bfgsLoop2 norm Ki eps maxIter fuel count s = .ok x →
      Surface.bfgsLoop2 norm Ki eps maxIter (fuel + k) count s = .ok x := by
  induction fuel with
  | zero => intro count s x k h; simp [Surface.bfgsLoop2] at h
  | succ fuel ih =>
    intro count s x k h
    rw [show fuel + 1 + k = (fuel + k) + 1 by omega]
    unfold Surface.bfgsLoop2 at h ⊢
    split_ifs with c1 c2
    · rwa [if_pos c1] at h
    · rwa [if_neg c1, if_pos c2] at h
    · rw [if_neg c1, if_neg c2] at h
      obtain ⟨s', h1, h2⟩ := bind_eq_ok.mp h
      rw [h1, bind_ok]
      exact ih _ _ _ k h2

theorem binLoop_mono (Ri : K → M K) (eps : K) (more : ℕ → Bool) (fuel : ℕ) :
    ∀ (count : ℕ) (lo hi : K) (x) (k : ℕ), binLoop Ri eps more fuel count lo hi = .ok x → binLoop Ri eps more (fuel + k) count lo hi = .ok x := by
  induction fuel with
  | zero => intro count lo hi x k h; simp [binLoop] at h
  | succ fuel ih =>
    intro count lo hi x k h
    rw [show fuel + 1 + k = (fuel + k) + 1 by omega]
    unfold binLoop at h ⊢
    split_ifs with c1
    · rw [if_pos c1] at h
      obtain ⟨s', h1, h2⟩ := bind_eq_ok.mp h
      rw [h1, bind_ok]
      rcases s' with mid | ⟨a, b⟩
      · exact h2
      · exact ih _ _ _ _ k h2
    · rwa [if_neg c1] at h

end Nurbs
