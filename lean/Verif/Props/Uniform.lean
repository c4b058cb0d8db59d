import Verif.Model.KnotVector
import Verif.Spec.Knots
import Mathlib.Tactic.Linarith
import Mathlib.Tactic.NormNum
import Mathlib.Tactic.Tauto

/-! # C106: what `IsUniform` decides -/

set_option linter.unusedSectionVars false

namespace Nurbs.Props
open Nurbs Nurbs.Spec

variable {K : Type} [Field K] [LinearOrder K] [IsStrictOrderedRing K]

theorem approx_iff (a b e : K) : Approx a b e = true ↔ |a - b| < e := by
  simp [Approx, abs, max_def]

theorem isUniformLoop_iff (h : K) (hh : h ≠ 0) : ∀ (l : List K) (prev : K), isUniformLoop h prev l = true ↔
    ∀ j < l.length, kn (prev :: l) (j + 1) ≠ kn (prev :: l) j → |kn (prev :: l) (j + 1) - kn (prev :: l) j - h| < 1 / 1000000
  | [], prev => by simp [isUniformLoop]
  | v :: r, prev => by
    have ih := isUniformLoop_iff h hh r v
    have split : (∀ j < (v :: r).length, kn (prev :: v :: r) (j + 1) ≠ kn (prev :: v :: r) j →
        |kn (prev :: v :: r) (j + 1) - kn (prev :: v :: r) j - h| < 1 / 1000000) ↔
        (v ≠ prev → |v - prev - h| < 1 / 1000000) ∧ isUniformLoop h v r = true := by
      rw [ih]
      constructor
      · intro H
        exact ⟨H 0 (by simp), fun j hj => H (j + 1) (by simpa using hj)⟩
      · rintro ⟨A, B⟩ j hj
        cases j with
        | zero => exact A
        | succ j => exact B j (by simpa using hj)
    rw [split]
    have e0 : isUniformLoop h prev (v :: r) = if h = 0 then isUniformLoop (v - prev) v r
      else if !Approx (v - prev) h eps6 && decide (v - prev ≠ 0) then false else isUniformLoop h v r := rfl
    rw [e0, if_neg hh]
    have e : (!Approx (v - prev) h eps6 && decide (v - prev ≠ 0)) = true ↔ ¬(v ≠ prev → |v - prev - h| < 1 / 1000000) := by
      rw [Bool.and_eq_true, Bool.not_eq_true', decide_eq_true_eq, sub_ne_zero, ← Bool.not_eq_true, approx_iff]
      unfold eps6
      tauto
    by_cases c : v ≠ prev → |v - prev - h| < 1 / 1000000
    · rw [if_neg (fun H => e.1 H c)]
      exact ⟨fun H => ⟨c, H⟩, fun H => H.2⟩
    · rw [if_pos (e.2 c)]
      exact ⟨fun H => by simp at H, fun H => absurd H.1 c⟩

/-- C106.  `IsUniform` compares every non-empty interval with the first one: it answers true exactly if all of them differ from it by less than
`10^-6`. -/
theorem C106_isUniform (kv : KnotVector K) : kv.IsUniform = true ↔
    ∀ i j, i < j → j + 1 < kv.Values.length → (∀ i' < i, kn kv.Values (i' + 1) = kn kv.Values i') → kn kv.Values (i + 1) ≠ kn kv.Values i →
      kn kv.Values (j + 1) ≠ kn kv.Values j →
      |(kn kv.Values (j + 1) - kn kv.Values j) - (kn kv.Values (i + 1) - kn kv.Values i)| < 1 / 1000000 := by
  obtain ⟨l⟩ := kv
  show KnotVector.IsUniform ⟨l⟩ = true ↔ ∀ i j, i < j → j + 1 < l.length → (∀ i' < i, kn l (i' + 1) = kn l i') → kn l (i + 1) ≠ kn l i →
      kn l (j + 1) ≠ kn l j → |(kn l (j + 1) - kn l j) - (kn l (i + 1) - kn l i)| < 1 / 1000000
  unfold KnotVector.IsUniform
  cases l with
  | nil => simp
  | cons a l =>
    simp only
    induction l generalizing a with
    | nil => simp [isUniformLoop]
    | cons v r ih =>
      unfold isUniformLoop
      simp only [if_true]
      by_cases h : v - a = 0
      · rw [h, ih v]
        have hv : v = a := sub_eq_zero.1 h
        constructor
        · intro H i j hij hj hz hi hjn
          cases i with
          | zero => exact absurd hv hi
          | succ i =>
            cases j with
            | zero => omega
            | succ j => exact H i j (by omega) (by simpa using hj) (fun i' hi' => hz (i' + 1) (by omega)) hi hjn
        · intro H i j hij hj hz hi hjn
          refine H (i + 1) (j + 1) (by omega) (by simpa using hj) (fun i' hi' => ?_) hi hjn
          cases i' with
          | zero => exact hv
          | succ i' => exact hz i' (by omega)
      · rw [isUniformLoop_iff _ h]
        constructor
        · intro H i j hij hj hz hi hjn
          cases i with
          | succ i => exact absurd (hz 0 (by omega)) (fun e => h (sub_eq_zero.2 e))
          | zero =>
            cases j with
            | zero => omega
            | succ j => exact H j (by simpa using hj) hjn
        · intro H j hj hjn
          exact H 0 (j + 1) (by omega) (by simpa using hj) (fun i' hi' => by omega) (fun e => h (sub_eq_zero.2 e)) hjn

/-- No two non-empty intervals of a vector found uniform differ by `2 10^-6` or more. -/
theorem C106_near {kv : KnotVector K} (h : kv.IsUniform = true) {i j : ℕ} (hi : i + 1 < kv.Values.length) (hj : j + 1 < kv.Values.length)
    (hin : kn kv.Values (i + 1) ≠ kn kv.Values i) (hjn : kn kv.Values (j + 1) ≠ kn kv.Values j) :
    |(kn kv.Values (j + 1) - kn kv.Values j) - (kn kv.Values (i + 1) - kn kv.Values i)| < 2 / 1000000 := by
  have H := (C106_isUniform kv).1 h
  classical
  have ex : ∃ f, kn kv.Values (f + 1) ≠ kn kv.Values f := ⟨i, hin⟩
  have h1 := Nat.find_spec ex
  have h2 : ∀ i' < Nat.find ex, kn kv.Values (i' + 1) = kn kv.Values i' := fun i' hi' => not_not.1 (Nat.find_min ex hi')
  have near : ∀ n, n + 1 < kv.Values.length → kn kv.Values (n + 1) ≠ kn kv.Values n →
      |(kn kv.Values (n + 1) - kn kv.Values n) - (kn kv.Values (Nat.find ex + 1) - kn kv.Values (Nat.find ex))| < 1 / 1000000 := by
    intro n hn hnn
    rcases Nat.lt_or_ge (Nat.find ex) n with g | g
    · exact H _ n g hn h2 h1 hnn
    · have : n = Nat.find ex := le_antisymm g (Nat.find_min' ex hnn)
      rw [← this, sub_self, abs_zero]; norm_num
  have a := abs_lt.1 (near i hi hin)
  have b := abs_lt.1 (near j hj hjn)
  exact abs_lt.2 ⟨by linarith [a.1, a.2, b.1, b.2], by linarith [a.1, a.2, b.1, b.2]⟩

/-- C106 (equal intervals).  Vectors whose non-empty intervals are all equal are found uniform, however often knots are repeated. -/
theorem C106_equal {kv : KnotVector K} {h : K} (H : ∀ i, i + 1 < kv.Values.length → kn kv.Values (i + 1) = kn kv.Values i ∨
    kn kv.Values (i + 1) - kn kv.Values i = h) : kv.IsUniform = true :=
  (C106_isUniform kv).2 fun i j hij hj _ hi hjn => by
    rcases H i (by omega) with a | a
    · exact absurd a hi
    rcases H j hj with b | b
    · exact absurd b hjn
    rw [a, b, sub_self, abs_zero]; norm_num

/-- The converse of `C106_equal` is false of the code: unequal intervals are accepted, and the answer depends on which comes first. -/
theorem C106_unequal_accepted : (KnotVector.mk ([0, 0, 1/2 + 1/5000000, 1, 1] : List ℚ)).IsUniform = true ∧
    (1/2 + 1/5000000 - 0 : ℚ) ≠ 1 - (1/2 + 1/5000000) ∧
    (KnotVector.mk ([0, 1/3, 2/3 + 3/5000000, 1] : List ℚ)).IsUniform = true ∧
    (KnotVector.mk ([0, 1/3 + 3/5000000, 2/3 + 3/5000000, 1] : List ℚ)).IsUniform = false := by decide +kernel

example : (KnotVector.mk ([0, 0, 0, 1/2, 1/2, 1, 1, 1] : List ℚ)).IsUniform = true ∧
    (KnotVector.mk ([0, 0, 0, 1/10, 3/10, 1, 1, 1] : List ℚ)).IsUniform = false := by decide +kernel

end Nurbs.Props
