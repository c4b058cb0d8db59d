import Verif.Proof.AnyDeriv
import Verif.Proof.RoundedKnots

/-! # Derivatives with numbers that round -/

set_option linter.unusedSectionVars false

namespace Nurbs
open Nurbs.Spec

variable {K : Type} [Field K] [LinearOrder K] [IsStrictOrderedRing K] {R : Rounding K}

/-- Computed denominators: close to the difference of the knots, and positive. -/
theorem denG_near {knots : List (Fl R)} {k p : ℕ} {x : Fl R} (hp : p ≤ k) (hl : k + p < knots.length) (hs : knots.Pairwise (· ≤ ·))
    (hk : (kn knots k).val < (kn knots (k + 1)).val) (hx1 : (kn knots k).val ≤ x.val) (hx2 : x.val ≤ (kn knots (k + 1)).val)
    {j r : ℕ} (hj : j ≤ p) (hr : r < j) :
    Near R.q 2 (denG knots k x j r).val ((kn knots (k + (r + 1))).val - (kn knots (k + 1 - (j - r))).val) ∧
      0 < (kn knots (k + (r + 1))).val - (kn knots (k + 1 - (j - r))).val := by
  have mono : ∀ a b, a ≤ b → b ≤ k + p → (kn knots a).val ≤ (kn knots b).val := fun a b hab hb =>
    kn_mono hs hab (by omega)
  have h1 := mono (k + 1) (k + (r + 1)) (by omega) (by omega)
  have h2 := mono (k + 1 - (j - r)) k (by omega) (by omega)
  have hr1 : Near R.q 1 (kn knots (k + (r + 1)) - x).val ((kn knots (k + (r + 1))).val - x.val) :=
    Fl.near_sub (le_trans hx2 h1)
  have hl1 : Near R.q 1 (x - kn knots (k + 1 - (j - r))).val (x.val - (kn knots (k + 1 - (j - r))).val) :=
    Fl.near_sub (le_trans h2 hx1)
  have hden := Fl.near_add hr1 hl1
  rw [sub_add_sub_cancel] at hden
  exact ⟨hden, by linarith⟩

theorem denOK_rounded {knots : List (Fl R)} {k p : ℕ} {x : Fl R} (hp : p ≤ k) (hl : k + p < knots.length) (hs : knots.Pairwise (· ≤ ·))
    (hk : (kn knots k).val < (kn knots (k + 1)).val) (hx1 : (kn knots k).val ≤ x.val) (hx2 : x.val ≤ (kn knots (k + 1)).val) :
    DenOK knots k x p := by
  intro j _ hj r hr
  obtain ⟨h1, h2⟩ := denG_near hp hl hs hk hx1 hx2 hj hr
  exact Fl.ne_zero (h1.pos R.q_pos h2).ne'

/-- The span of `x`, with what is needed of it. -/
theorem span_rounded {l : List (Fl R)} {p : ℕ} (hc : Clamped p l) {x : Fl R} (h0 : 0 ≤ x) (h1 : x ≤ 1) :
    ∃ k : ℕ, KnotVector.FindSpanIndex ⟨l⟩ p x = .ok (k : Int) ∧ IsSpan l x k ∧ p ≤ k ∧ k + p + 2 ≤ l.length ∧ DenOK l k x p ∧
      (kn l k).val < (kn l (k + 1)).val ∧ (kn l k).val ≤ x.val ∧ x.val ≤ (kn l (k + 1)).val := by
  obtain ⟨k, hk, hs, hpk, hlk⟩ := findSpanIndex_spec (kv := ⟨l⟩) hc h0 h1
  change k + p + 2 ≤ l.length at hlk
  have hsx := isSpan_exact.mpr hs
  have hlt := IsSpan.lt hsx
  have hle := IsSpan.le_right hsx
  rw [kn_exactList] at hlt hle
  rw [kn_exactList] at hlt
  exact ⟨k, hk, hs, hpk, hlk, denOK_rounded hpk (by omega) hc.sorted hlt hs.2.1 hle, hlt, hs.2.1, hle⟩

theorem derG_zero {L : Type} [Zero L] [One L] [Add L] [Sub L] [Mul L] [Div L] [Neg L] [NatCast L] [IntCast L] [LinearOrder L]
    {knots : List L} {k p r m : ℕ} {x : L} (h : p < m) : derG knots k p x r m = 0 := by
  unfold derG
  rw [if_neg (by omega)]

theorem Fl.zero_mul' (a : Fl R) : 0 * a = 0 := by
  apply Fl.val_inj
  rw [Fl.val_mul, Fl.val_zero, MulZeroClass.zero_mul]
  exact R.zero

end Nurbs
