import Verif.Proof.Removal

/-! # Algebra of knot removal -/

set_option linter.unusedSectionVars false

namespace Nurbs
open Nurbs.Spec KnotRemovalImpl

variable {K : Type} [Field K] [LinearOrder K] [IsStrictOrderedRing K]

/-- Knots with `t` copies of the value ending at index `r` removed. -/
def dropU (U : ℕ → K) (r t : ℕ) : ℕ → K := fun j => if j + t ≤ r then U j else U (j + t)

/-- `F` (round `t`) is obtained from `G` (round `t + 1`) by inserting the knot again. -/
structure RemRel (U : ℕ → K) (u : K) (p s r t : ℕ) (F G : ℕ → Vec4 K) : Prop where
  left : ∀ i, i + p + t + 1 ≤ r → F i = G i
  mid : ∀ i, r < i + p + t + 1 → i + s ≤ r → F i = rA U u p t i • G i + (1 - rA U u p t i) • G (i - 1)
  right : ∀ i, r < i + p + t + 1 → r < i + s → F i = G (i - 1)

/-- The array `g` of round `t` holds the points `F`, with a gap in the middle. -/
structure Lay (p s r t : ℕ) (g F : ℕ → Vec4 K) : Prop where
  left : ∀ i, i + p + t ≤ r + (p + t - s) / 2 → g i = F i
  right : ∀ j, r + (p + 2 * t - s) ≤ j + p + t + (p + t - s) / 2 → g j = F (j - t)

section
variable {U : List K} {u : K} {p s r n : ℕ} (H : RemCtx U u p s r n)
include H

/-- If the removal is possible the sweeps compute the solution. -/
theorem sweeps_exact {t : ℕ} (ht : t < s) (hs2 : s ≤ p + 1) {g F G : ℕ → Vec4 K} (hl : Lay p s r t g F) (hR : RemRel (kn U) u p s r t F G) :
    (∀ x, x ≤ (p + 1 + t - s) / 2 → swL (kn U) u p t (r - p - t - 1) g x = G (r - p - t - 1 + x)) ∧
    (∀ x, x ≤ (p + 1 + t - s) / 2 →
      swR (kn U) u p t (r - p - t - 1 + (p + 2 + 2 * t - s)) g x = G (r - s - x)) := by
  have hpr := H.pr
  have hlen := H.len
  have hrn := H.rn
  have hs1 := H.s1
  constructor
  · intro x
    induction x with
    | zero => intro _; rw [swL, hl.left _ (by omega), hR.left _ (by omega), add_zero]
    | succ x ih =>
      intro hx
      obtain ⟨_, a2, _⟩ := rem_alpha H (t := t) (i := r - p - t - 1 + 1 + x) (by omega) (by omega) (by omega)
      rw [swL, ih (by omega), hl.left _ (by omega), hR.mid _ (by omega) (by omega),
        show r - p - t - 1 + 1 + x - 1 = r - p - t - 1 + x by omega, add_sub_cancel_right, smul_smul, inv_mul_cancel₀ a2.ne', one_smul]
      congr 1; omega
  · intro x
    induction x with
    | zero => intro _; rw [swR, hl.right _ (by omega), hR.right _ (by omega) (by omega)]; congr 1; omega
    | succ x ih =>
      intro hx
      obtain ⟨_, _, a3⟩ := rem_alpha H (t := t) (i := r - s - x) (by omega) (by omega) (by omega)
      rw [swR, ih (by omega), hl.right _ (by omega),
        show r - p - t - 1 + (p + 2 + 2 * t - s) - 1 - x - t = r - s - x by omega, hR.mid _ (by omega) (by omega),
        add_sub_cancel_left, smul_smul, inv_mul_cancel₀ (by linarith), one_smul]
      congr 1

theorem remDiff_exact {t : ℕ} (ht : t < s) (hs2 : s ≤ p + 1) {g F G : ℕ → Vec4 K} (hl : Lay p s r t g F) (hR : RemRel (kn U) u p s r t F G) :
    remDiff (kn U) u p t s (r - p - t - 1) (r - p - t - 1 + (p + 2 + 2 * t - s)) g = 0 := by
  have hpr := H.pr
  have hs1 := H.s1
  obtain ⟨h1, h2⟩ := sweeps_exact H ht hs2 hl hR
  unfold remDiff
  simp only
  rw [h1 _ le_rfl, h2 _ le_rfl]
  split_ifs with hpar
  · rw [show r - s - (p + 1 + t - s) / 2 = r - p - t - 1 + (p + 1 + t - s) / 2 by omega, sub_self]
  · rw [hl.left _ (by omega), hR.mid _ (by omega) (by omega),
      show r - s - (p + 1 + t - s) / 2 = r - p - t - 1 + 1 + (p + 1 + t - s) / 2 by omega,
      show r - p - t - 1 + 1 + (p + 1 + t - s) / 2 - 1 = r - p - t - 1 + (p + 1 + t - s) / 2 by omega, sub_self]

theorem remNext_exact {t : ℕ} (ht : t < s) (hs2 : s ≤ p + 1) {g F G : ℕ → Vec4 K} (hl : Lay p s r t g F) (hR : RemRel (kn U) u p s r t F G) :
    Lay p s r (t + 1) (remNext (kn U) u p t s (r - p - t - 1) (r - p - t - 1 + (p + 2 + 2 * t - s)) g) G := by
  have hpr := H.pr
  have hs1 := H.s1
  obtain ⟨h1, h2⟩ := sweeps_exact H ht hs2 hl hR
  constructor
  · intro i hi
    unfold remNext
    simp only
    by_cases c1 : r - p - t - 1 < i
    · rw [if_pos (by omega), h1 _ (by omega)]; congr 1; omega
    · rw [if_neg (by omega), if_neg (by omega), hl.left _ (by omega), hR.left _ (by omega)]
  · intro j hj
    unfold remNext
    simp only
    rw [if_neg (by omega)]
    by_cases c1 : j < r - p - t - 1 + (p + 2 + 2 * t - s)
    · rw [if_pos (by omega), h2 _ (by omega)]; congr 1; omega
    · rw [if_neg (by omega), hl.right _ (by omega), hR.right _ (by omega) (by omega)]; congr 1

/-- If the difference vanishes the knot can be removed exactly. -/
theorem remRel_of_diff {t : ℕ} (ht : t < s) (hs2 : s ≤ p + 1) {g F : ℕ → Vec4 K} (hl : Lay p s r t g F)
    (hd : remDiff (kn U) u p t s (r - p - t - 1) (r - p - t - 1 + (p + 2 + 2 * t - s)) g = 0) :
    ∃ G, RemRel (kn U) u p s r t F G := by
  have hpr := H.pr
  have hlen := H.len
  have hrn := H.rn
  have hs1 := H.s1
  obtain ⟨h, hh⟩ : ∃ h, (p + 1 + t - s) / 2 = h := ⟨_, rfl⟩
  obtain ⟨off, hoff⟩ : ∃ off, r - p - t - 1 = off := ⟨_, rfl⟩
  obtain ⟨e, hee⟩ : ∃ e, off + (p + 2 + 2 * t - s) = e := ⟨_, rfl⟩
  have hb : 2 * h ≤ p + 1 + t - s := by omega
  have hb2 : p + 1 + t - s ≤ 2 * h + 1 := by omega
  unfold remDiff at hd
  rw [hoff, hee, hh] at hd
  simp only at hd
  have sL : ∀ x < h, F (off + 1 + x) = rA (kn U) u p t (off + 1 + x) • swL (kn U) u p t off g (x + 1) +
      (1 - rA (kn U) u p t (off + 1 + x)) • swL (kn U) u p t off g x := by
    intro x hx
    obtain ⟨_, a2, _⟩ := rem_alpha H (t := t) (i := off + 1 + x) (by omega) (by omega) (by omega)
    rw [swL, smul_smul, mul_inv_cancel₀ a2.ne', one_smul, sub_add_cancel, hl.left _ (by omega)]
  have sR : ∀ x < h, F (r - s - x) = rA (kn U) u p t (r - s - x) • swR (kn U) u p t e g x +
      (1 - rA (kn U) u p t (r - s - x)) • swR (kn U) u p t e g (x + 1) := by
    intro x hx
    obtain ⟨_, _, a3⟩ := rem_alpha H (t := t) (i := r - s - x) (by omega) (by omega) (by omega)
    rw [swR, show e - 1 - x - t = r - s - x by omega, smul_smul, mul_inv_cancel₀ (by linarith), one_smul, add_sub_cancel,
      hl.right _ (by omega)]
    congr 1; omega
  refine ⟨fun i => if i ≤ off then F i else if i ≤ off + h then swL (kn U) u p t off g (i - off)
    else if i + s ≤ r then swR (kn U) u p t e g (r - s - i) else F (i + 1), ?_, ?_, ?_⟩
  · intro i hi
    rw [if_pos (by omega)]
  · intro i hi1 hi2
    rw [if_neg (by omega)]
    -- value at the left end
    have hoffv : F off = swL (kn U) u p t off g 0 := by rw [swL, hl.left _ (by omega)]
    have gl : ∀ x, x ≤ h → (if off + x ≤ off then F (off + x) else if off + x ≤ off + h then swL (kn U) u p t off g (off + x - off)
        else if off + x + s ≤ r then swR (kn U) u p t e g (r - s - (off + x)) else F (off + x + 1)) = swL (kn U) u p t off g x := by
      intro x hx
      by_cases h0 : x = 0
      · subst h0; rw [if_pos (by omega), add_zero, hoffv]
      · rw [if_neg (by omega), if_pos (by omega)]; congr 1; omega
    by_cases c1 : i ≤ off + h
    · rw [if_pos c1]
      obtain ⟨x, rfl⟩ : ∃ x, i = off + 1 + x := ⟨i - off - 1, by omega⟩
      rw [show off + 1 + x - 1 = off + x by omega, gl x (by omega), show off + 1 + x - off = x + 1 by omega]
      exact sL x (by omega)
    · rw [if_neg c1, if_pos hi2]
      by_cases c2 : i = off + h + 1
      · subst c2
        rw [show off + h + 1 - 1 = off + h by omega, gl h le_rfl]
        by_cases hpar : (p + 1 + t - s) % 2 = 0
        · rw [if_pos hpar, sub_eq_zero] at hd
          rw [hd]
          have := sR (r - s - (off + h + 1)) (by omega)
          rw [show r - s - (r - s - (off + h + 1)) = off + h + 1 by omega, show r - s - (off + h + 1) + 1 = h by omega] at this
          exact this
        · rw [if_neg hpar, sub_eq_zero] at hd
          rw [show r - s - (off + h + 1) = h by omega, show off + h + 1 = off + 1 + h by omega, hd, hl.left _ (by omega)]
      · rw [if_neg (by omega), if_neg (by omega), if_pos (by omega)]
        have := sR (r - s - i) (by omega)
        rw [show r - s - (r - s - i) = i by omega] at this
        rw [this]
        congr 3; omega
  · intro i _ hi
    have he0 : swR (kn U) u p t e g 0 = F (r - s + 1) := by rw [swR, hl.right _ (by omega)]; congr 1; omega
    by_cases c0 : i - 1 ≤ off
    · -- no equations at all
      rw [if_pos (show (p + 1 + t - s) % 2 = 0 by omega), sub_eq_zero, show h = 0 by omega, he0, swL, hl.left _ (by omega)] at hd
      rw [if_pos c0, show i = r - s + 1 by omega, ← hd]
      congr 1; omega
    · rw [if_neg c0]
      by_cases c1 : i - 1 ≤ off + h
      · exfalso; omega
      · rw [if_neg c1]
        by_cases c2 : i - 1 + s ≤ r
        · rw [if_pos c2, show r - s - (i - 1) = 0 by omega, he0]; congr 1; omega
        · rw [if_neg c2]; congr 1; omega

end

end Nurbs
