import Verif.Proof.Insert
import Mathlib.Data.Nat.Choose.Basic
import Mathlib.Data.Nat.Cast.Field
import Mathlib.Algebra.CharZero.Defs
import Mathlib.Tactic.LinearCombination

/-! # Blossoms across knots and under degree elevation

Pure mathematics, no reference to the code. -/

set_option linter.unusedSectionVars false

namespace Nurbs

section cont
variable {K : Type} [Field K] [LinearOrder K] [IsStrictOrderedRing K] {V : Type} [AddCommGroup V] [Module K V]

theorem MultiAffine.append {p r : ℕ} {F : List K → V} (D : List K) (h : MultiAffine p F) (hp : p = D.length + r) :
    MultiAffine r (fun ts => F (D ++ ts)) := by
  induction D generalizing p F with
  | nil => simp only [List.length_nil, Nat.zero_add] at hp; subst hp; exact h
  | cons d D ih =>
    obtain ⟨q, rfl⟩ : ∃ q, p = q + 1 := ⟨D.length + r, by simp at hp; omega⟩
    exact ih (h.cons d) (by simp at hp; omega)

/-- Blossoms of two spans agree on lists that hold all knots between them. -/
theorem blos_cont (U : ℕ → K) (a d r : ℕ) (P : ℕ → V) (ha : d + r ≤ a) (hm : ∀ i j, i ≤ j → j ≤ a + d + (d + r) → U i ≤ U j)
    (h1 : U a < U (a + 1)) (h2 : U (a + d) < U (a + d + 1)) (ts : List K) (ht : ts.length = r) :
    blos U (win U a d ++ ts) P a = blos U (win U a d ++ ts) P (a + d) := by
  rcases Nat.eq_zero_or_pos r with hr0 | hrpos
  · subst hr0
    have : ts = [] := List.length_eq_zero_iff.mp ht
    subst this
    rw [List.append_nil, blos_win U a d a P (by omega) ?_ (by omega) le_rfl, blos_win U (a + d) d a P (by omega) ?_ (by omega) (by omega)]
    · intro q i hq h3 h4
      exact ne_of_gt (lt_of_le_of_lt (hm i (a + d) h4 (by omega)) (lt_of_lt_of_le h2 (hm _ _ (by omega) (by omega))))
    · intro q i hq h3 h4
      exact ne_of_gt (lt_of_le_of_lt (hm i a h4 (by omega)) (lt_of_lt_of_le h1 (hm _ _ (by omega) (by omega))))
  have r1 : RegSpan U a (d + r) := by
    intro q i hq h3 h4
    exact ne_of_gt (lt_of_le_of_lt (hm i a h4 (by omega)) (lt_of_lt_of_le h1 (hm _ _ (by omega) (by omega))))
  have r2 : RegSpan U (a + d) (d + r) := by
    intro q i hq h3 h4
    exact ne_of_gt (lt_of_le_of_lt (hm i (a + d) h4 (by omega)) (lt_of_lt_of_le h2 (hm _ _ (by omega) (by omega))))
  have m1 := (multiAffine_blos U a (d + r) P ha r1).append (win U a d) (r := r) (by simp)
  have m2 := (multiAffine_blos U (a + d) (d + r) P (by omega) r2).append (win U a d) (r := r) (by simp)
  let W : ℕ → K := fun j => if j ≤ a then U j else U (j + d)
  have hW : RegSpan W a r := by
    intro q i hq h3 h4
    simp only [W]
    rw [if_neg (by omega), if_pos h4]
    exact ne_of_gt (lt_of_le_of_lt (hm i a h4 (by omega)) (lt_of_lt_of_le h1 (hm _ _ (by omega) (by omega))))
  have hwin : ∀ i, a ≤ i + r → i ≤ a → (win U a d ++ win W i r).Perm (win U i (d + r)) := by
    intro i hi1 hi2
    obtain ⟨e, rfl⟩ : ∃ e, a = i + e := ⟨a - i, by omega⟩
    obtain ⟨f, rfl⟩ : ∃ f, r = e + f := ⟨r - e, by omega⟩
    rw [win_append W i e f, show d + (e + f) = e + (d + f) by omega, win_append U i e (d + f), win_append U (i + e) d f]
    have e1 : win W i e = win U i e := win_congr fun j _ h => by simp [W, show j ≤ i + e by omega]
    have e2 : win W (i + e) f = win U (i + e + d) f := by
      apply List.map_congr_left
      intro j _
      simp only [W]
      rw [if_neg (by omega)]
      congr 1; omega
    rw [e1, e2]
    rw [← List.append_assoc, ← List.append_assoc]
    exact List.Perm.append_right _ List.perm_append_comm
  have k1 := blos_dual W a r P _ m1 (by omega) hW (by
    intro i hi1 hi2
    rw [blos_perm U a (hwin i hi1 hi2) (by simpa using ha) (by simpa using r1),
      blos_win U a (d + r) i P ha r1 (by omega) hi2]) ts ht
  have k2 := blos_dual W a r P _ m2 (by omega) hW (by
    intro i hi1 hi2
    rw [blos_perm U (a + d) (hwin i hi1 hi2) (by simp; omega) (by simpa using r2),
      blos_win U (a + d) (d + r) i P (by omega) r2 (by omega) (by omega)]) ts ht
  rw [← k1, ← k2]

/-- The same with the knots in any order. -/
theorem blos_cont' (U : ℕ → K) (p a b : ℕ) (P : ℕ → V) (hab : a ≤ b) (ha : p ≤ a)
    (hm : ∀ i j, i ≤ j → j ≤ b + p → U i ≤ U j) (h1 : U a < U (a + 1)) (h2 : U b < U (b + 1)) (ts : List K) (ht : ts.length = p)
    (hs : (win U a (b - a)).Subperm ts) : blos U ts P a = blos U ts P b := by
  obtain ⟨l, hl, hsub⟩ := hs
  obtain ⟨rest, hrest⟩ := hsub.exists_perm_append
  have hp : ts.Perm (win U a (b - a) ++ rest) := hrest.trans (hl.append_right rest)
  have hlen : p = (b - a) + rest.length := by rw [← ht, hp.length_eq]; simp
  have hr : ∀ k, U k < U (k + 1) → k + p ≤ b + p → RegSpan U k p := by
    intro k hk hkb q i hq h3 h4
    exact ne_of_gt (lt_of_le_of_lt (hm i k h4 (by omega)) (lt_of_lt_of_le hk (hm _ _ (by omega) (by omega))))
  rw [blos_perm U a hp (by omega) (ht ▸ hr a h1 (by omega)), blos_perm U b hp (by omega) (ht ▸ hr b h2 (by omega))]
  have := blos_cont U a (b - a) rest.length P (by omega) (fun i j hij hj => hm i j hij (by omega)) h1
    (by rw [show a + (b - a) = b by omega]; exact h2) rest rfl
  rwa [show a + (b - a) = b by omega] at this

end cont

section elev
variable {K : Type} [Field K] {V : Type} [AddCommGroup V] [Module K V]

/-- Sum of `F` over the list with one entry left out. -/
def leaveOut (F : List K → V) : List K → V
  | [] => 0
  | a :: l => F l + leaveOut (fun ts => F (a :: ts)) l

theorem leaveOut_congr {F G : List K → V} (l : List K) (h : ∀ ts : List K, ts.length + 1 = l.length → F ts = G ts) :
    leaveOut F l = leaveOut G l := by
  induction l generalizing F G with
  | nil => rfl
  | cons a l ih =>
    simp only [leaveOut]
    rw [h l (by simp), ih fun ts hts => h (a :: ts) (by simpa using hts)]

theorem leaveOut_add (F G : List K → V) (l : List K) :
    leaveOut (fun ts => F ts + G ts) l = leaveOut F l + leaveOut G l := by
  induction l generalizing F G with
  | nil => simp [leaveOut]
  | cons a l ih => simp only [leaveOut]; rw [ih]; abel

theorem leaveOut_smul (c : K) (F : List K → V) (l : List K) : leaveOut (fun ts => c • F ts) l = c • leaveOut F l := by
  induction l generalizing F with
  | nil => simp [leaveOut]
  | cons a l ih => simp only [leaveOut]; rw [ih, smul_add]

theorem leaveOut_perm {p : ℕ} {F : List K → V} (hF : ∀ as bs : List K, as.length = p → as.Perm bs → F as = F bs)
    {as bs : List K} (hl : as.length = p + 1) (h : as.Perm bs) : leaveOut F as = leaveOut F bs := by
  induction h generalizing p F with
  | nil => rfl
  | @cons a l₁ l₂ h ih =>
    simp only [leaveOut]
    rw [hF l₁ l₂ (by simpa using hl) h]
    cases p with
    | zero =>
      have : l₁ = [] := List.length_eq_zero_iff.mp (by simpa using hl)
      subst this
      rw [h.nil_eq]
    | succ p =>
      rw [ih (p := p) (fun as bs hl h => hF _ _ (by simp [hl]) (h.cons a)) (by simpa using hl)]
  | swap a b l =>
    simp only [leaveOut]
    obtain ⟨q, rfl⟩ : ∃ q, p = q + 1 := ⟨l.length, by simp at hl; omega⟩
    rw [leaveOut_congr (F := fun ts => F (b :: a :: ts)) (G := fun ts => F (a :: b :: ts)) l
      fun ts hts => hF _ _ (by simp at hl ⊢; omega) (List.Perm.swap _ _ _)]
    abel
  | trans h1 h2 ih1 ih2 => rw [ih1 hF hl, ih2 hF (by rw [← h1.length_eq]; exact hl)]

/-- The polar form of degree `p+1` of the same polynomial. -/
def elev (p : ℕ) (F : List K → V) (ts : List K) : V := ((p : K) + 1)⁻¹ • leaveOut F ts

theorem multiAffine_elev {p : ℕ} {F : List K → V} (h : MultiAffine p F) : MultiAffine (p + 1) (elev p F) where
  perm := fun as bs hl hp => by unfold elev; rw [leaveOut_perm h.perm hl hp]
  affine := fun c a b ts hl => by
    unfold elev
    simp only [leaveOut]
    have e : leaveOut (fun us => F ((c * a + (1 - c) * b) :: us)) ts =
        c • leaveOut (fun us => F (a :: us)) ts + (1 - c) • leaveOut (fun us => F (b :: us)) ts := by
      rw [← leaveOut_smul, ← leaveOut_smul, ← leaveOut_add]
      exact leaveOut_congr ts fun us hus => h.affine c a b us (by omega)
    rw [e]
    module

/-- Entry by entry. -/
theorem leaveOut_sum (F : List K → V) (l : List K) : leaveOut F l = ∑ i ∈ Finset.range l.length, F (l.eraseIdx i) := by
  induction l generalizing F with
  | nil => simp [leaveOut]
  | cons a l ih =>
    simp only [leaveOut, List.length_cons]
    rw [Finset.sum_range_succ', ih, add_comm]
    simp

theorem leaveOut_replicate_append {p : ℕ} {F : List K → V} (hF : ∀ as bs : List K, as.length = p → as.Perm bs → F as = F bs)
    (x : K) (n : ℕ) (l : List K) (hl : n + l.length = p + 1) :
    leaveOut F (List.replicate n x ++ l) =
      (n : K) • F (List.replicate (n - 1) x ++ l) + leaveOut (fun ts => F (List.replicate n x ++ ts)) l := by
  induction n generalizing p F with
  | zero => simp
  | succ n ih =>
    rw [List.replicate_succ, List.cons_append]
    simp only [leaveOut]
    cases p with
    | zero =>
      have h0 : n = 0 := by omega
      have hl0 : l = [] := List.length_eq_zero_iff.mp (by omega)
      subst h0; subst hl0
      simp [leaveOut]
    | succ p =>
      rw [ih (p := p) (fun as bs hl h => hF _ _ (by simp [hl]) (h.cons x)) (by omega)]
      have e : (n : K) • F (x :: (List.replicate (n - 1) x ++ l)) = (n : K) • F (List.replicate n x ++ l) := by
        rcases Nat.eq_zero_or_pos n with h | h
        · subst h; simp
        · obtain ⟨k, rfl⟩ : ∃ k, n = k + 1 := ⟨n - 1, by omega⟩
          simp [List.replicate_succ]
      simp only [List.cons_append, Nat.add_sub_cancel] at e ⊢
      rw [e]
      push_cast
      module

/-- Elevation at two points. -/
theorem elev_two {p : ℕ} {F : List K → V} (hF : ∀ as bs : List K, as.length = p → as.Perm bs → F as = F bs) (x y : K)
    (a b : ℕ) (h : a + b = p + 1) :
    elev p F (List.replicate a x ++ List.replicate b y) =
      ((p : K) + 1)⁻¹ • ((a : K) • F (List.replicate (a - 1) x ++ List.replicate b y) +
        (b : K) • F (List.replicate a x ++ List.replicate (b - 1) y)) := by
  unfold elev
  rw [leaveOut_replicate_append hF x a _ (by simpa using h)]
  congr 2
  rcases Nat.eq_zero_or_pos b with hb | hb
  · subst hb; simp [leaveOut]
  · have := leaveOut_replicate_append (p := b - 1) (F := fun ts => F (List.replicate a x ++ ts))
      (fun as bs hl hp => hF _ _ (by simp; omega) (hp.append_left _)) y b [] (by simp; omega)
    rw [List.append_nil] at this
    rw [this]
    simp [leaveOut]

end elev

section coef
variable {K : Type} [Field K] [CharZero K] {V : Type} [AddCommGroup V] [Module K V]

/-- Coefficient of Bezier point `j` (degree `p`) in Bezier point `i` (degree `p+t`). -/
def bezCoef (K : Type) [Field K] (p t i j : ℕ) : K :=
  if j ≤ i then (p.choose j : K) * (t.choose (i - j) : K) / ((p + t).choose i : K) else 0

/-- `G` has the Bezier points of the `t` times elevated `F`. -/
def BezElev (p t : ℕ) (F G : List K → V) : Prop :=
  ∀ (x y : K) (i : ℕ), i ≤ p + t → G (List.replicate (p + t - i) x ++ List.replicate i y) =
    ∑ j ∈ Finset.range (p + 1), bezCoef K p t i j • F (List.replicate (p - j) x ++ List.replicate j y)

theorem bezElev_zero (p : ℕ) (F : List K → V) : BezElev p 0 F F := by
  intro x y i hi
  rw [Finset.sum_eq_single i]
  · have : (p.choose i : K) ≠ 0 := Nat.cast_ne_zero.mpr (Nat.choose_pos (by omega)).ne'
    simp [bezCoef, div_self this]
  · intro j _ hj
    unfold bezCoef
    split_ifs with h
    · rw [Nat.choose_eq_zero_of_lt (show 0 < i - j by omega)]; simp
    · simp
  · intro h; simp at h; omega

theorem bezCoef_succ (p t i j : ℕ) (hi : i ≤ p + t + 1) :
    bezCoef K p (t + 1) i j = (((p + t : ℕ) : K) + 1)⁻¹ *
      (((p + t + 1 - i : ℕ) : K) * (if i ≤ p + t then bezCoef K p t i j else 0) +
        (i : K) * (if 1 ≤ i then bezCoef K p t (i - 1) j else 0)) := by
  have hn : (((p + t : ℕ) : K) + 1) ≠ 0 := by exact_mod_cast Nat.succ_ne_zero (p + t)
  have hc : ((p + (t + 1)).choose i : K) ≠ 0 := Nat.cast_ne_zero.mpr (Nat.choose_pos (by omega)).ne'
  have key1 : i ≤ p + t → ((p + t + 1 - i : ℕ) : K) / ((p + t).choose i : K) = (((p + t : ℕ) : K) + 1) / ((p + (t + 1)).choose i : K) := by
    intro h
    have hc' : ((p + t).choose i : K) ≠ 0 := Nat.cast_ne_zero.mpr (Nat.choose_pos h).ne'
    rw [div_eq_div_iff hc' hc]
    have := Nat.choose_mul_succ_eq (p + t) i
    have e : ((p + t).choose i : K) * (((p + t : ℕ) : K) + 1) = ((p + t + 1).choose i : K) * ((p + t + 1 - i : ℕ) : K) := by
      exact_mod_cast this
    rw [show p + (t + 1) = p + t + 1 by omega]
    linear_combination -e
  have key2 : 1 ≤ i → (i : K) / ((p + t).choose (i - 1) : K) = (((p + t : ℕ) : K) + 1) / ((p + (t + 1)).choose i : K) := by
    intro h
    have hc' : ((p + t).choose (i - 1) : K) ≠ 0 := Nat.cast_ne_zero.mpr (Nat.choose_pos (by omega)).ne'
    rw [div_eq_div_iff hc' hc]
    have := Nat.add_one_mul_choose_eq (p + t) (i - 1)
    rw [show i - 1 + 1 = i by omega] at this
    have e : (((p + t : ℕ) : K) + 1) * ((p + t).choose (i - 1) : K) = ((p + t + 1).choose i : K) * (i : K) := by
      exact_mod_cast this
    rw [show p + (t + 1) = p + t + 1 by omega]
    linear_combination -e
  have s1 : ((p + t + 1 - i : ℕ) : K) * (if i ≤ p + t then bezCoef K p t i j else 0) =
      if j ≤ i then (p.choose j : K) * (t.choose (i - j) : K) * ((((p + t : ℕ) : K) + 1) / ((p + (t + 1)).choose i : K)) else 0 := by
    by_cases h : i ≤ p + t
    · rw [if_pos h, ← key1 h]
      unfold bezCoef
      split_ifs
      · ring
      · simp
    · rw [if_neg h]
      obtain rfl : i = p + t + 1 := by omega
      split_ifs with hj
      · rcases Nat.lt_or_ge p j with hpj | hpj
        · rw [Nat.choose_eq_zero_of_lt hpj]; simp
        · rw [Nat.choose_eq_zero_of_lt (show t < p + t + 1 - j by omega)]; simp
      · simp
  have s2 : (i : K) * (if 1 ≤ i then bezCoef K p t (i - 1) j else 0) =
      if j ≤ i then (p.choose j : K) * ((if j + 1 ≤ i then t.choose (i - j - 1) else 0 : ℕ) : K) *
        ((((p + t : ℕ) : K) + 1) / ((p + (t + 1)).choose i : K)) else 0 := by
    by_cases h : 1 ≤ i
    · rw [if_pos h, ← key2 h]
      unfold bezCoef
      by_cases hj : j ≤ i - 1
      · rw [if_pos hj, if_pos (by omega), if_pos (by omega), show i - 1 - j = i - j - 1 by omega]; ring
      · rw [if_neg hj]
        split_ifs
        · omega
        · simp
        · simp
    · obtain rfl : i = 0 := by omega
      simp
  rw [s1, s2]
  unfold bezCoef
  by_cases hj : j ≤ i
  · rw [if_pos hj, if_pos hj, if_pos hj]
    have e : ((t + 1).choose (i - j) : K) = (t.choose (i - j) : K) + ((if j + 1 ≤ i then t.choose (i - j - 1) else 0 : ℕ) : K) := by
      by_cases h : j + 1 ≤ i
      · rw [if_pos h]
        obtain ⟨k, hk⟩ : ∃ k, i - j = k + 1 := ⟨i - j - 1, by omega⟩
        rw [hk, Nat.choose_succ_succ, Nat.add_sub_cancel]
        push_cast; ring
      · rw [if_neg h, show i - j = 0 by omega]; simp
    rw [e]
    field_simp
  · rw [if_neg hj, if_neg hj, if_neg hj]; simp

theorem bezElev_succ {p t : ℕ} {F G H : List K → V} (hG : ∀ as bs : List K, as.length = p + t → as.Perm bs → G as = G bs)
    (h : BezElev p t F G) (hH : ∀ ts : List K, ts.length = p + t + 1 → H ts = elev (p + t) G ts) : BezElev p (t + 1) F H := by
  intro x y i hi
  rw [hH _ (by simp; omega), elev_two hG x y _ _ (by omega)]
  have e1 : ((p + (t + 1) - i : ℕ) : K) • G (List.replicate (p + (t + 1) - i - 1) x ++ List.replicate i y) =
      ∑ j ∈ Finset.range (p + 1), (((p + t + 1 - i : ℕ) : K) * (if i ≤ p + t then bezCoef K p t i j else 0)) •
        F (List.replicate (p - j) x ++ List.replicate j y) := by
    by_cases hi' : i ≤ p + t
    · rw [show p + (t + 1) - i - 1 = p + t - i by omega, h x y i hi', Finset.smul_sum]
      apply Finset.sum_congr rfl
      intro j _
      rw [if_pos hi', smul_smul]; rfl
    · rw [show p + (t + 1) - i = 0 by omega, show p + t + 1 - i = 0 by omega]; simp
  have e2 : (i : K) • G (List.replicate (p + (t + 1) - i) x ++ List.replicate (i - 1) y) =
      ∑ j ∈ Finset.range (p + 1), ((i : K) * (if 1 ≤ i then bezCoef K p t (i - 1) j else 0)) •
        F (List.replicate (p - j) x ++ List.replicate j y) := by
    by_cases hi' : 1 ≤ i
    · have := h x y (i - 1) (by omega)
      rw [show p + t - (i - 1) = p + (t + 1) - i by omega] at this
      rw [this, Finset.smul_sum]
      apply Finset.sum_congr rfl
      intro j _
      rw [if_pos hi', smul_smul]
    · obtain rfl : i = 0 := by omega
      simp
  rw [e1, e2, ← Finset.sum_add_distrib, Finset.smul_sum]
  apply Finset.sum_congr rfl
  intro j _
  rw [bezCoef_succ p t i j (by omega), ← add_smul, smul_smul]

/-- On the diagonal the polynomial is the same. -/
theorem BezElev.diag {p t : ℕ} {F G : List K → V} (h : BezElev p t F G) (x : K) :
    G (List.replicate (p + t) x) = F (List.replicate p x) := by
  have := h x x 0 (by omega)
  simp only [Nat.sub_zero, List.replicate_zero, List.append_nil] at this
  rw [this, Finset.sum_eq_single 0]
  · simp [bezCoef]
  · intro j _ hj
    simp [bezCoef, hj]
  · intro h; simp at h

end coef

end Nurbs
