import Mathlib.Algebra.Order.Field.Basic
import Mathlib.Algebra.Module.Basic
import Mathlib.Algebra.BigOperators.Group.Finset.Basic
import Mathlib.Algebra.BigOperators.Intervals
import Mathlib.Algebra.BigOperators.Module
import Mathlib.Tactic.Ring
import Mathlib.Tactic.FieldSimp
import Mathlib.Tactic.Linarith
import Mathlib.Tactic.Module
import Mathlib.Data.List.Perm.Basic

/-! # De Boor steps and blossoms

Pure mathematics, no reference to the code: `Nl` are the basis functions restricted to one span,
`step` is one level of de Boor's algorithm, `blos` the blossom (polar form) of a segment. -/

set_option linter.unusedSectionVars false

namespace Nurbs

section defs
variable {K : Type} [Field K] {V : Type} [AddCommGroup V] [Module K V]

/-- Cox–de Boor functions restricted to span `k`: polynomial in `x`. -/
def Nl (U : ℕ → K) (k : ℕ) (x : K) : ℕ → ℕ → K
  | 0, i => if i = k then 1 else 0
  | p + 1, i => (x - U i) / (U (i + p + 1) - U i) * Nl U k x p i +
      (U (i + p + 2) - x) / (U (i + p + 2) - U (i + 1)) * Nl U k x p (i + 1)

/-- One de Boor step of degree `q` at parameter `t`. -/
def step (U : ℕ → K) (q : ℕ) (t : K) (P : ℕ → V) : ℕ → V := fun i =>
  ((U (i + q) - t) / (U (i + q) - U i)) • P (i - 1) + ((t - U i) / (U (i + q) - U i)) • P i

/-- Blossom: de Boor steps of degree `ts.length, …, 1`. -/
def blos (U : ℕ → K) : List K → (ℕ → V) → ℕ → V
  | [], P => P
  | t :: ts, P => blos U ts (step U (ts.length + 1) t P)

end defs

variable {K : Type} [Field K] {V : Type} [AddCommGroup V] [Module K V]

/-- The span `k` is regular up to degree `p`: all de Boor denominators are non-zero. -/
def RegSpan (U : ℕ → K) (k p : ℕ) : Prop := ∀ q i, q ≤ p → k < i + q → i ≤ k → U (i + q) ≠ U i

theorem RegSpan.mono {U : ℕ → K} {k p q : ℕ} (h : RegSpan U k p) (hq : q ≤ p) : RegSpan U k q :=
  fun r i hr h1 h2 => h r i (by omega) h1 h2

theorem RegSpan.sub_ne {U : ℕ → K} {k p : ℕ} (h : RegSpan U k p) {q i : ℕ} (hq : q ≤ p) (h1 : k < i + q)
    (h2 : i ≤ k) : U (i + q) - U i ≠ 0 := sub_ne_zero.mpr (h q i hq h1 h2)

theorem Nl_zero_of_gt (U : ℕ → K) (k : ℕ) (x : K) (p i : ℕ) (h : k < i) : Nl U k x p i = 0 := by
  induction p generalizing i with
  | zero => simp only [Nl]; rw [if_neg (by omega)]
  | succ p ih => simp only [Nl]; rw [ih i h, ih (i + 1) (by omega)]; simp

theorem Nl_zero_of_lt (U : ℕ → K) (k : ℕ) (x : K) (p i : ℕ) (h : i + p < k) : Nl U k x p i = 0 := by
  induction p generalizing i with
  | zero => simp only [Nl]; rw [if_neg (by omega)]
  | succ p ih => simp only [Nl]; rw [ih i (by omega), ih (i + 1) (by omega)]; simp

/-- Value of a curve segment as a sum over the active basis functions. -/
def seg (U : ℕ → K) (k : ℕ) (x : K) (p : ℕ) (P : ℕ → V) : V :=
  ∑ n ∈ Finset.range (p + 1), Nl U k x p (k - p + n) • P (k - p + n)

theorem seg_congr {U : ℕ → K} {k : ℕ} {x : K} {p : ℕ} {P Q : ℕ → V} (hp : p ≤ k)
    (h : ∀ i, k ≤ i + p → i ≤ k → P i = Q i) : seg U k x p P = seg U k x p Q := by
  unfold seg
  apply Finset.sum_congr rfl
  intro n hn
  have := Finset.mem_range.mp hn
  rw [h _ (by omega) (by omega)]

/-- One de Boor step lowers the degree of the segment. -/
theorem seg_step (U : ℕ → K) (k : ℕ) (x : K) (p : ℕ) (P : ℕ → V) (hp : p + 1 ≤ k) :
    seg U k x (p + 1) P = seg U k x p (step U (p + 1) x P) := by
  unfold seg
  simp only [Nl]
  have e : k - (p + 1) + 1 = k - p := by omega
  have h1 : ∑ n ∈ Finset.range (p + 1 + 1), ((x - U (k - (p + 1) + n)) / (U (k - (p + 1) + n + p + 1) - U (k - (p + 1) + n)) *
        Nl U k x p (k - (p + 1) + n)) • P (k - (p + 1) + n) =
      ∑ n ∈ Finset.range (p + 1), ((x - U (k - p + n)) / (U (k - p + n + p + 1) - U (k - p + n)) *
        Nl U k x p (k - p + n)) • P (k - p + n) := by
    rw [Finset.sum_range_succ', Nl_zero_of_lt U k x p (k - (p + 1) + 0) (by omega)]
    simp only [mul_zero, zero_smul, add_zero]
    apply Finset.sum_congr rfl
    intro n _
    rw [show k - (p + 1) + (n + 1) = k - p + n by omega]
  have h2 : ∑ n ∈ Finset.range (p + 1 + 1), ((U (k - (p + 1) + n + p + 2) - x) / (U (k - (p + 1) + n + p + 2) - U (k - (p + 1) + n + 1)) *
        Nl U k x p (k - (p + 1) + n + 1)) • P (k - (p + 1) + n) =
      ∑ n ∈ Finset.range (p + 1), ((U (k - p + n + p + 1) - x) / (U (k - p + n + p + 1) - U (k - p + n)) *
        Nl U k x p (k - p + n)) • P (k - p + n - 1) := by
    rw [Finset.sum_range_succ, Nl_zero_of_gt U k x p (k - (p + 1) + (p + 1) + 1) (by omega)]
    simp only [mul_zero, zero_smul, add_zero]
    apply Finset.sum_congr rfl
    intro n _
    rw [show k - (p + 1) + n + 1 = k - p + n by omega, show k - (p + 1) + n + p + 2 = k - p + n + p + 1 by omega,
      show k - p + n - 1 = k - (p + 1) + n by omega]
  simp only [add_smul, Finset.sum_add_distrib]
  rw [h1, h2, ← Finset.sum_add_distrib]
  apply Finset.sum_congr rfl
  intro n _
  simp only [step, ← add_assoc]
  module

theorem seg_zero (U : ℕ → K) (k : ℕ) (x : K) (P : ℕ → V) : seg U k x 0 P = P k := by
  simp [seg, Nl]

/-- The segment value is the blossom on the diagonal. -/
theorem seg_eq_blos (U : ℕ → K) (k : ℕ) (x : K) (p : ℕ) (P : ℕ → V) (hp : p ≤ k) :
    seg U k x p P = blos U (List.replicate p x) P k := by
  induction p generalizing P with
  | zero => rw [seg_zero]; rfl
  | succ p ih =>
    rw [seg_step U k x p P hp, ih _ (by omega), List.replicate_succ]
    simp [blos]

theorem step_congr {U : ℕ → K} {q : ℕ} {t : K} {P Q : ℕ → V} {i : ℕ} (h1 : P (i - 1) = Q (i - 1)) (h2 : P i = Q i) :
    step U q t P i = step U q t Q i := by simp [step, h1, h2]

theorem blos_congr (U : ℕ → K) (k : ℕ) (ts : List K) (P Q : ℕ → V) (hk : ts.length ≤ k)
    (h : ∀ i, k ≤ i + ts.length → i ≤ k → P i = Q i) : blos U ts P k = blos U ts Q k := by
  induction ts generalizing P Q with
  | nil => exact h k (by simp) (le_refl _)
  | cons t ts ih =>
    simp only [blos]
    simp only [List.length_cons] at hk h
    apply ih _ _ (by omega)
    intro i h1 h2
    exact step_congr (h _ (by omega) (by omega)) (h _ (by omega) h2)

theorem step_add (U : ℕ → K) (q : ℕ) (t : K) (P Q : ℕ → V) :
    step U q t (P + Q) = step U q t P + step U q t Q := by
  funext i; simp only [step, Pi.add_apply]; module

theorem step_smul (U : ℕ → K) (q : ℕ) (t c : K) (P : ℕ → V) :
    step U q t (c • P) = c • step U q t P := by
  funext i; simp only [step, Pi.smul_apply]; module

theorem blos_add (U : ℕ → K) (ts : List K) (P Q : ℕ → V) : blos U ts (P + Q) = blos U ts P + blos U ts Q := by
  induction ts generalizing P Q with
  | nil => rfl
  | cons t ts ih => simp only [blos, step_add, ih]

theorem blos_smul (U : ℕ → K) (ts : List K) (c : K) (P : ℕ → V) : blos U ts (c • P) = c • blos U ts P := by
  induction ts generalizing P with
  | nil => rfl
  | cons t ts ih => simp only [blos, step_smul, ih]

theorem blos_append (U : ℕ → K) (as bs : List K) (P : ℕ → V) :
    ∃ P' : ℕ → V, blos U (as ++ bs) P = blos U bs P' := by
  induction as generalizing P with
  | nil => exact ⟨P, rfl⟩
  | cons a as ih => exact ih _

theorem step_affine (U : ℕ → K) (q : ℕ) (c a b : K) (P : ℕ → V) (i : ℕ) (h : U (i + q) - U i ≠ 0) :
    step U q (c * a + (1 - c) * b) P i = c • step U q a P i + (1 - c) • step U q b P i := by
  simp only [step, smul_add, smul_smul]
  have e1 : (U (i + q) - (c * a + (1 - c) * b)) / (U (i + q) - U i) =
      c * ((U (i + q) - a) / (U (i + q) - U i)) + (1 - c) * ((U (i + q) - b) / (U (i + q) - U i)) := by
    field_simp; ring
  have e2 : (c * a + (1 - c) * b - U i) / (U (i + q) - U i) =
      c * ((a - U i) / (U (i + q) - U i)) + (1 - c) * ((b - U i) / (U (i + q) - U i)) := by
    field_simp; ring
  rw [e1, e2]; module

/-- Two consecutive steps commute in their parameters. -/
theorem step_swap (U : ℕ → K) (q : ℕ) (a b : K) (P : ℕ → V) (i : ℕ) (hi : 1 ≤ i)
    (h1 : U (i + q) - U i ≠ 0) (h2 : U (i + q) - U (i - 1) ≠ 0) (h3 : U (i + q + 1) - U i ≠ 0) :
    step U q b (step U (q + 1) a P) i = step U q a (step U (q + 1) b P) i := by
  obtain ⟨j, rfl⟩ : ∃ j, i = j + 1 := ⟨i - 1, by omega⟩
  simp only [step, Nat.add_sub_cancel, smul_add, smul_smul] at *
  rw [show j + (q + 1) = j + 1 + q by omega, show j + 1 + (q + 1) = j + 1 + q + 1 by omega]
  generalize U (j + 1 + q) = A at *
  generalize U (j + 1) = B at *
  generalize U j = C at *
  generalize U (j + 1 + q + 1) = D at *
  have key : (A - b) / (A - B) * ((a - C) / (A - C)) + (b - B) / (A - B) * ((D - a) / (D - B)) =
      (A - a) / (A - B) * ((b - C) / (A - C)) + (a - B) / (A - B) * ((D - b) / (D - B)) := by
    field_simp; ring
  have k1 : (A - b) / (A - B) * ((A - a) / (A - C)) = (A - a) / (A - B) * ((A - b) / (A - C)) := by
    field_simp
  have k2 : (b - B) / (A - B) * ((a - B) / (D - B)) = (a - B) / (A - B) * ((b - B) / (D - B)) := by
    field_simp
  rw [k1, k2]
  have key' := congrArg (fun c => c • P j) key
  simp only [add_smul] at key'
  rw [add_assoc, ← add_assoc (((A - b) / (A - B) * ((a - C) / (A - C))) • P j), key']
  module

theorem blos_perm (U : ℕ → K) (k : ℕ) {as bs : List K} (h : as.Perm bs) (hk : as.length ≤ k)
    (hr : RegSpan U k as.length) : ∀ P : ℕ → V, blos U as P k = blos U bs P k := by
  induction h with
  | nil => intro P; rfl
  | @cons x l₁ l₂ h ih =>
    intro P
    simp only [blos, ← h.length_eq]
    simp only [List.length_cons] at hk hr
    exact ih (by omega) (hr.mono (by omega)) _
  | swap x y l =>
    intro P
    simp only [blos, List.length_cons] at hk hr ⊢
    apply blos_congr U k l _ _ (by omega)
    intro i h1 h2
    apply step_swap _ _ _ _ _ _ (by omega)
    · exact hr.sub_ne (by omega) (by omega) (by omega)
    · have := hr.sub_ne (q := l.length + 2) (i := i - 1) (by omega) (by omega) (by omega)
      rwa [show i - 1 + (l.length + 2) = i + (l.length + 1) by omega] at this
    · exact hr.sub_ne (q := l.length + 2) (by omega) (by omega) (by omega)
  | trans h1 h2 ih1 ih2 =>
    intro P
    rw [ih1 hk hr, ih2 (by rw [← h1.length_eq]; exact hk) (by rw [← h1.length_eq]; exact hr)]

theorem blos_affine (U : ℕ → K) (k : ℕ) (c a b : K) (ts : List K) (P : ℕ → V) (hk : ts.length + 1 ≤ k)
    (hr : RegSpan U k (ts.length + 1)) :
    blos U ((c * a + (1 - c) * b) :: ts) P k = c • blos U (a :: ts) P k + (1 - c) • blos U (b :: ts) P k := by
  have := blos_congr U k ts (step U (ts.length + 1) (c * a + (1 - c) * b) P)
    (c • step U (ts.length + 1) a P + (1 - c) • step U (ts.length + 1) b P) (by omega) (by
      intro i h1 h2
      rw [step_affine _ _ _ _ _ _ _ (hr.sub_ne (le_refl _) (by omega) h2)]; rfl)
  simp only [blos]
  rw [this, blos_add, blos_smul, blos_smul]; rfl

/-- `F` is a symmetric function of lists of length `p`, affine in each entry. -/
structure MultiAffine (p : ℕ) (F : List K → V) : Prop where
  perm : ∀ as bs : List K, as.length = p → as.Perm bs → F as = F bs
  affine : ∀ (c a b : K) (ts : List K), ts.length + 1 = p →
    F ((c * a + (1 - c) * b) :: ts) = c • F (a :: ts) + (1 - c) • F (b :: ts)

theorem multiAffine_blos (U : ℕ → K) (k p : ℕ) (P : ℕ → V) (hk : p ≤ k) (hr : RegSpan U k p) :
    MultiAffine p (fun ts => blos U ts P k) where
  perm := fun as bs hl h => by subst hl; exact blos_perm U k h hk hr P
  affine := fun c a b ts hl => by subst hl; exact blos_affine U k c a b ts P hk hr

theorem MultiAffine.cons {p : ℕ} {F : List K → V} (h : MultiAffine (p + 1) F) (t : K) :
    MultiAffine p (fun ts => F (t :: ts)) where
  perm := fun as bs hl hp => h.perm _ _ (by simp [hl]) (hp.cons t)
  affine := fun c a b ts hl => by
    rw [h.perm _ _ (by simp [hl]) (List.Perm.swap _ _ _), h.affine c a b (t :: ts) (by simp [hl]),
      h.perm _ _ (by simp [hl]) (List.Perm.swap _ _ _), h.perm (b :: t :: ts) _ (by simp [hl]) (List.Perm.swap _ _ _)]

/-- Interpolation in the head argument. -/
theorem MultiAffine.interp {p : ℕ} {F : List K → V} (h : MultiAffine p F) {a b : K} (t : K) (ts : List K)
    (hl : ts.length + 1 = p) (hab : b - a ≠ 0) :
    F (t :: ts) = ((b - t) / (b - a)) • F (a :: ts) + ((t - a) / (b - a)) • F (b :: ts) := by
  have := h.affine ((b - t) / (b - a)) a b ts hl
  have e : (b - t) / (b - a) * a + (1 - (b - t) / (b - a)) * b = t := by field_simp; ring
  have e2 : 1 - (b - t) / (b - a) = (t - a) / (b - a) := by field_simp; ring
  rw [e, e2] at this
  exact this

/-- The knots `U (i+1), …, U (i+p)`. -/
def win (U : ℕ → K) (i p : ℕ) : List K := (List.range p).map fun j => U (i + 1 + j)

@[simp] theorem win_length (U : ℕ → K) (i p : ℕ) : (win U i p).length = p := by simp [win]

theorem win_succ (U : ℕ → K) (i p : ℕ) : win U i (p + 1) = U (i + 1) :: win U (i + 1) p := by
  simp only [win, List.range_succ_eq_map, List.map_cons, List.map_map, Nat.add_zero]
  congr 1
  apply List.map_congr_left
  intro j _
  simp only [Function.comp, Nat.succ_eq_add_one]
  congr 1; omega

theorem win_succ' (U : ℕ → K) (i p : ℕ) : win U i (p + 1) = win U i p ++ [U (i + 1 + p)] := by
  simp [win, List.range_succ]

theorem win_succ_perm (U : ℕ → K) (i p : ℕ) : (win U i (p + 1)).Perm (U (i + 1 + p) :: win U i p) := by
  rw [win_succ']; exact List.perm_append_singleton _ _

theorem win_congr {U W : ℕ → K} {i p : ℕ} (h : ∀ j, i < j → j ≤ i + p → U j = W j) : win U i p = win W i p := by
  apply List.map_congr_left
  intro j hj
  have := List.mem_range.mp hj
  exact h _ (by omega) (by omega)

/-- Control points are blossom values at consecutive knots. -/
theorem blos_win (U : ℕ → K) (k p i : ℕ) (P : ℕ → V) (hk : p ≤ k) (hr : RegSpan U k p) (h1 : k ≤ i + p) (h2 : i ≤ k) :
    blos U (win U i p) P k = P i := by
  induction p generalizing i P with
  | zero =>
    obtain rfl : i = k := by omega
    rfl
  | succ p ih =>
    rcases Nat.lt_or_ge (i + p) k with h | h
    · -- i = k - (p+1)
      rw [win_succ]
      simp only [blos, win_length]
      rw [ih (i + 1) _ (by omega) (hr.mono (by omega)) (by omega) (by omega)]
      have hne := hr.sub_ne (q := p + 1) (i := i + 1) (le_refl _) (by omega) (by omega)
      simp only [step, Nat.add_sub_cancel, sub_self, zero_div, zero_smul, add_zero]
      rw [div_self hne, one_smul]
    · rw [blos_perm U k (win_succ_perm U i p) (by simpa using hk) (by simpa using hr)]
      simp only [blos, win_length]
      rw [ih i _ (by omega) (hr.mono (by omega)) (by omega) (by omega)]
      have hne := hr.sub_ne (q := p + 1) (i := i) (le_refl _) (by omega) (by omega)
      simp only [step]
      rw [show i + 1 + p = i + (p + 1) by omega, div_self hne, one_smul, sub_self, zero_div, zero_smul, zero_add]

/-- Dual functional property: points that are blossom values at the knots evaluate to the blossom. -/
theorem blos_dual (W : ℕ → K) (s p : ℕ) (Q : ℕ → V) (F : List K → V) (hF : MultiAffine p F) (hs : p ≤ s)
    (hr : RegSpan W s p) (hQ : ∀ i, s ≤ i + p → i ≤ s → Q i = F (win W i p)) (ts : List K) (ht : ts.length = p) :
    blos W ts Q s = F ts := by
  induction p generalizing Q F ts with
  | zero =>
    have : ts = [] := List.length_eq_zero_iff.mp ht
    subst this
    simp only [blos]
    rw [hQ s (by omega) (le_refl _)]
    rfl
  | succ p ih =>
    obtain ⟨t, ts, rfl⟩ : ∃ t ts', ts = t :: ts' := by
      cases ts with
      | nil => simp at ht
      | cons t ts => exact ⟨t, ts, rfl⟩
    simp only [List.length_cons, Nat.add_right_cancel_iff] at ht
    simp only [blos, ht]
    apply ih _ (fun l => F (t :: l)) (hF.cons t) (by omega) (hr.mono (by omega)) _ ts ht
    intro i h1 h2
    have hi : 1 ≤ i := by omega
    simp only [step]
    rw [hQ i (by omega) h2, hQ (i - 1) (by omega) (by omega)]
    have e1 : win W (i - 1) (p + 1) = W i :: win W i p := by
      rw [win_succ, show i - 1 + 1 = i by omega]
    rw [e1, hF.perm _ _ (by simp) (win_succ_perm W i p), show i + 1 + p = i + (p + 1) by omega]
    exact (hF.interp (a := W i) (b := W (i + (p + 1))) t (win W i p) (by simp)
      (hr.sub_ne (le_refl _) (by omega) h2)).symm

/-- The two forms combined: a segment equals another polar form on the diagonal. -/
theorem seg_eq_of_dual (W : ℕ → K) (s p : ℕ) (Q : ℕ → V) (F : List K → V) (hF : MultiAffine p F) (hs : p ≤ s)
    (hr : RegSpan W s p) (hQ : ∀ i, s ≤ i + p → i ≤ s → Q i = F (win W i p)) (x : K) :
    seg W s x p Q = F (List.replicate p x) := by
  rw [seg_eq_blos W s x p Q hs]
  exact blos_dual W s p Q F hF hs hr hQ _ (by simp)

end Nurbs
