import Verif.Proof.ElevBlossom
import Verif.Model.DegreeAlgo
import Verif.Props.Utils

/-! # The table of Bezier degree elevation coefficients -/

set_option linter.unusedSectionVars false

namespace Nurbs
open Nurbs.Spec DegreeAlgo

theorem forUp_eq' {σ : Type} (f : Int → σ → M σ) (g : ℕ → σ) (n : ℕ) (lo : Int) (s0 : σ) (h0 : s0 = g 0)
    (h : ∀ i < n, f (lo + i) (g i) = .ok (g (i + 1))) : forUp lo n f s0 = .ok (g n) := by
  subst h0; exact forUp_eq f g n lo h

section anyArith
variable {K : Type} [Zero K] [One K] [Add K] [Sub K] [Mul K] [Div K] [Neg K] [NatCast K] [IntCast K] [LinearOrder K]

/-- The table in any arithmetic: `G` describes the entries as they are computed. -/
theorem makeBezalfs_gen {p t : ℕ} (ht : 1 ≤ t) (h29 : p + t ≤ 29) (G : ℕ → ℕ → K) (hout : ∀ i j, j + t < i ∨ i < j ∨ p < j → G i j = 0)
    (hfirst : G 0 0 = 1) (hlast : G (p + t) p = 1)
    (hsymm : ∀ i j, (p + t) / 2 < i → i < p + t → j ≤ p → G (p + t - i) (p - j) = G i j)
    (hne : ∀ i, 1 ≤ i → i ≤ (p + t) / 2 → (((p + t).choose i : Int) : K) ≠ 0)
    (hval : ∀ i j, 1 ≤ i → i ≤ (p + t) / 2 → j ≤ i → i ≤ j + t → j ≤ p →
      G i j = 1 / (((p + t).choose i : Int) : K) * ((p.choose j : Int) : K) * ((t.choose (i - j) : Int) : K)) :
    makeBezalfs (K := K) p t = .ok (tab (p + t + 1) fun i => tab (p + 1) fun j => G i j) := by
  unfold makeBezalfs
  simp only
  have hph2 : ((p : Int) + t).tdiv 2 = (((p + t) / 2 : ℕ) : Int) := by
    rw [Int.tdiv_eq_ediv_of_nonneg (by omega)]; omega
  rw [hph2, vnew_of _ (p + 1) _ (by push_cast; rfl), bind_ok, vnew_of _ (p + t + 1) _ (by push_cast; rfl), bind_ok]
  have e0 : List.replicate (p + t + 1) (List.replicate (p + 1) (0 : K)) = tab (p + t + 1) fun _ => tab (p + 1) fun _ => (0 : K) := by
    simp [tab, List.map_const']
  rw [e0, mset_tab (p + t + 1) (p + 1) _ (fun k l => if k = p + t ∧ l = p then (1 : K) else 0) _ _ (p + t) p 1 (by push_cast; rfl) rfl
    (by omega) (by omega) (fun k _ l _ => rfl), bind_ok,
    mset_tab (p + t + 1) (p + 1) _ (fun k l => if k = 0 ∨ k = p + t then G k l else 0) 0 0 0 0 1 rfl rfl
    (by omega) (by omega) (by
      intro k hk l hl
      by_cases h1 : k = 0
      · subst h1
        by_cases h2 : l = 0
        · subst h2; simp [hfirst]
        · rw [if_pos (by omega), if_neg (by omega), if_neg (by omega), hout _ _ (by omega)]
      · by_cases h2 : k = p + t
        · subst h2
          by_cases h3 : l = p
          · subst h3; simp [hlast]
          · rw [if_pos (by omega), if_neg (by omega), if_neg (by omega), hout _ _ (by omega)]
        · rw [if_neg (by omega), if_neg (by omega), if_neg (by omega)]), bind_ok,
    forLe_eq_forUp _ _ ((p + t) / 2) (by omega)]
  rw [forUp_eq' _ (fun x => tab (p + t + 1) fun k => tab (p + 1) fun l => if k = 0 ∨ k = p + t ∨ k ≤ x then G k l else 0)
    ((p + t) / 2) 1 _ ?_ ?_, bind_ok, forLe_eq_forUp _ _ (p + t - 1 - (p + t) / 2) (by omega)]
  rotate_left
  · apply tab_congr; intro k _; apply tab_congr; intro l _
    by_cases h : k = 0 ∨ k = p + t
    · rw [if_pos h, if_pos (by omega)]
    · rw [if_neg h, if_neg (by omega)]
  · intro x hx
    have hix : (1 : Int) + x = ((x + 1 : ℕ) : Int) := by push_cast; ring
    have hB : Binomial ((p : Int) + t) ((x + 1 : ℕ) : Int) = .ok ((p + t).choose (x + 1) : Int) := by
      have := Props.C13_binomial (p + t) h29 (x + 1)
      simpa using this
    have hpos : (((p + t).choose (x + 1) : Int) : K) ≠ 0 := hne _ (by omega) (by omega)
    rw [hix, hB, bind_ok, fdiv_ok hpos, bind_ok]
    have hlo : max 0 (((x + 1 : ℕ) : Int) - t) = ((x + 1 - t : ℕ) : Int) := by omega
    rw [hlo, forLe_eq_forUp _ _ (min p (x + 1) + 1 - (x + 1 - t)) (by omega)]
    rw [forUp_eq' _ (fun y => tab (p + t + 1) fun k => tab (p + 1) fun l =>
      if k = 0 ∨ k = p + t ∨ k ≤ x ∨ (k = x + 1 ∧ l < x + 1 - t + y) then G k l else 0)
      (min p (x + 1) + 1 - (x + 1 - t)) _ _ ?_ ?_]
    · congr 1
      apply tab_congr; intro k hk; apply tab_congr; intro l hl
      by_cases h : k = x + 1
      · subst h
        by_cases h1 : l < x + 1 - t + (min p (x + 1) + 1 - (x + 1 - t))
        · rw [if_pos (by omega), if_pos (by omega)]
        · rw [if_neg (by omega), if_pos (by omega), hout _ _ (by omega)]
      · by_cases h1 : k = 0 ∨ k = p + t ∨ k ≤ x
        · rw [if_pos (by omega), if_pos (by omega)]
        · rw [if_neg (by omega), if_neg (by omega)]
    · apply tab_congr; intro k hk; apply tab_congr; intro l hl
      by_cases h : k = x + 1
      · subst h
        by_cases h1 : l < x + 1 - t
        · rw [if_neg (by omega), if_pos (by omega), hout _ _ (by omega)]
        · rw [if_neg (by omega), if_neg (by omega)]
      · by_cases h1 : k = 0 ∨ k = p + t ∨ k ≤ x
        · rw [if_pos (by omega), if_pos (by omega)]
        · rw [if_neg (by omega), if_neg (by omega)]
    · intro y hy
      have hj : ((x + 1 - t : ℕ) : Int) + y = ((x + 1 - t + y : ℕ) : Int) := by push_cast; rfl
      generalize hJ : x + 1 - t + y = J at *
      have hj1 : J ≤ x + 1 := by omega
      have hj2 : J ≤ p := by omega
      have hj3 : x + 1 ≤ J + t := by omega
      have hij : ((x + 1 : ℕ) : Int) - J = ((x + 1 - J : ℕ) : Int) := by omega
      rw [hj, Props.C13_binomial p (by omega) J, bind_ok, hij, Props.C13_binomial t (by omega) _, bind_ok]
      apply mset_tab _ _ _ _ _ _ (x + 1) J _ rfl rfl (by omega) (by omega)
      intro k hk l hl
      by_cases h : k = x + 1 ∧ l = J
      · obtain ⟨rfl, rfl⟩ := h
        rw [if_pos (by omega), if_pos ⟨rfl, rfl⟩]
        exact hval _ _ (by omega) (by omega) hj1 hj3 hj2
      · rw [if_neg h]
        by_cases h1 : k = 0 ∨ k = p + t ∨ k ≤ x ∨ (k = x + 1 ∧ l < J)
        · rw [if_pos (by omega), if_pos h1]
        · rw [if_neg (by omega), if_neg h1]
  rw [forUp_eq' _ (fun x => tab (p + t + 1) fun k => tab (p + 1) fun l => if k = p + t ∨ k ≤ (p + t) / 2 + x then G k l else 0)
    (p + t - 1 - (p + t) / 2) _ _ ?_ ?_]
  · congr 1
    apply tab_congr; intro k hk; apply tab_congr; intro l hl
    rw [if_pos (by omega)]
  · apply tab_congr; intro k hk; apply tab_congr; intro l hl
    by_cases h : k = p + t ∨ k ≤ (p + t) / 2
    · rw [if_pos (by omega), if_pos (by omega)]
    · rw [if_neg (by omega), if_neg (by omega)]
  · intro x hx
    have hix : (((p + t) / 2 : ℕ) : Int) + 1 + x = (((p + t) / 2 + 1 + x : ℕ) : Int) := by push_cast; ring
    rw [hix]
    generalize hI : (p + t) / 2 + 1 + x = I at *
    have hlo : max 0 ((I : Int) - t) = ((I - t : ℕ) : Int) := by omega
    rw [hlo, forLe_eq_forUp _ _ (min p I + 1 - (I - t)) (by omega)]
    rw [forUp_eq' _ (fun y => tab (p + t + 1) fun k => tab (p + 1) fun l =>
      if k = p + t ∨ k ≤ (p + t) / 2 + x ∨ (k = I ∧ l < I - t + y) then G k l else 0)
      (min p I + 1 - (I - t)) _ _ ?_ ?_]
    · congr 1
      apply tab_congr; intro k hk; apply tab_congr; intro l hl
      by_cases h : k = I
      · by_cases h1 : l < I - t + (min p I + 1 - (I - t))
        · rw [if_pos (by omega), if_pos (by omega)]
        · rw [if_neg (by omega), if_pos (by omega), hout _ _ (by omega)]
      · by_cases h1 : k = p + t ∨ k ≤ (p + t) / 2 + x
        · rw [if_pos (by omega), if_pos (by omega)]
        · rw [if_neg (by omega), if_neg (by omega)]
    · apply tab_congr; intro k hk; apply tab_congr; intro l hl
      by_cases h : k = I
      · by_cases h1 : l < I - t
        · rw [if_neg (by omega), if_pos (by omega), hout _ _ (by omega)]
        · rw [if_neg (by omega), if_neg (by omega)]
      · by_cases h1 : k = p + t ∨ k ≤ (p + t) / 2 + x
        · rw [if_pos (by omega), if_pos (by omega)]
        · rw [if_neg (by omega), if_neg (by omega)]
    · intro y hy
      have hj : ((I - t : ℕ) : Int) + y = ((I - t + y : ℕ) : Int) := by push_cast; rfl
      generalize hJ : I - t + y = J at *
      rw [hj, mget_tab _ _ _ _ _ (p + t - I) (p - J) (by omega) (by omega) (by omega) (by omega), bind_ok, if_pos (by omega),
        hsymm _ _ (by omega) (by omega) (by omega)]
      apply mset_tab _ _ _ _ _ _ I J _ rfl rfl (by omega) (by omega)
      intro k hk l hl
      by_cases h : k = I ∧ l = J
      · obtain ⟨rfl, rfl⟩ := h
        rw [if_pos (by omega), if_pos ⟨rfl, rfl⟩]
      · rw [if_neg h]
        by_cases h1 : k = p + t ∨ k ≤ (p + t) / 2 + x ∨ (k = I ∧ l < J)
        · rw [if_pos (by omega), if_pos h1]
        · rw [if_neg (by omega), if_neg h1]

end anyArith

variable {K : Type} [Field K] [LinearOrder K] [IsStrictOrderedRing K]

theorem bezCoef_out {p t i j : ℕ} (h : j + t < i ∨ i < j ∨ p < j) : bezCoef K p t i j = 0 := by
  unfold bezCoef
  split_ifs with h1
  · rcases h with h | h | h
    · rw [Nat.choose_eq_zero_of_lt (show t < i - j by omega)]; simp
    · omega
    · rw [Nat.choose_eq_zero_of_lt h]; simp
  · rfl

theorem bezCoef_first {p t : ℕ} : bezCoef K p t 0 0 = 1 := by simp [bezCoef]

theorem bezCoef_last {p t : ℕ} : bezCoef K p t (p + t) p = 1 := by simp [bezCoef]

theorem bezCoef_symm {p t i j : ℕ} (hi : i ≤ p + t) (hj : j ≤ p) : bezCoef K p t (p + t - i) (p - j) = bezCoef K p t i j := by
  by_cases h : j ≤ i ∧ i ≤ j + t
  · unfold bezCoef
    rw [if_pos (by omega), if_pos h.1, Nat.choose_symm hi, Nat.choose_symm hj, show p + t - i - (p - j) = t - (i - j) by omega,
      Nat.choose_symm (by omega)]
  · rw [bezCoef_out (i := i) (j := j) (by omega), bezCoef_out (by omega)]

theorem makeBezalfs_ok {p t : ℕ} (ht : 1 ≤ t) (h29 : p + t ≤ 29) :
    makeBezalfs (K := K) p t = .ok (tab (p + t + 1) fun i => tab (p + 1) fun j => bezCoef K p t i j) := by
  refine makeBezalfs_gen ht h29 (bezCoef K p t) (fun i j h => bezCoef_out h) bezCoef_first bezCoef_last
    (fun i j h1 h2 h3 => bezCoef_symm (by omega) h3) (fun i h1 h2 => ?_) (fun i j h1 h2 h3 h4 h5 => ?_)
  · have : 0 < (p + t).choose i := Nat.choose_pos (by omega)
    exact_mod_cast this.ne'
  · unfold bezCoef
    rw [if_pos h3]
    push_cast
    ring

end Nurbs
