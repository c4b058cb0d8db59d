import Verif.Proof.Removal5

/-! # Knot removal within a tolerance

A round of the removal loop that passes the test with a difference vector `D` is an exact removal after one control
point has been moved by a multiple `c • D`, `|c| ≤ 1`. -/

set_option linter.unusedSectionVars false

namespace Nurbs
open Nurbs.Spec KnotRemovalImpl

variable {K : Type} [Field K] [LinearOrder K] [IsStrictOrderedRing K]

/-- `F'` is `F` with points moved by multiples of `D` of factor at most one. -/
def NearT (D : Vec4 K) (F' F : ℕ → Vec4 K) : Prop := ∀ i, ∃ c : K, |c| ≤ 1 ∧ F' i = F i + c • D

/-- As `Lay`, but without the entry behind the gap that may repeat the last entry in front of it. -/
structure LayT (p s r t : ℕ) (g F : ℕ → Vec4 K) : Prop where
  left : ∀ i, i + p + t ≤ r + (p + t - s) / 2 → g i = F i
  right : ∀ j, r + (p + t - s) / 2 < j + p → g j = F (j - t)

/-- As `Lay`, but without the last entry in front of the gap. -/
structure LayB (p s r t : ℕ) (g F : ℕ → Vec4 K) : Prop where
  left : ∀ i, i + p + t < r + (p + t - s) / 2 → g i = F i
  right : ∀ j, r + (p + t - s) / 2 ≤ j + p → g j = F (j - t)

theorem layT_zero (p s r : ℕ) (F : ℕ → Vec4 K) : LayT p s r 0 F F := ⟨fun _ _ => rfl, fun _ _ => rfl⟩

theorem swL_congr (U : ℕ → K) (u : K) (p t off : ℕ) {g g' : ℕ → Vec4 K} :
    ∀ x, (∀ i, off ≤ i → i ≤ off + x → g i = g' i) → swL U u p t off g x = swL U u p t off g' x := by
  intro x
  induction x with
  | zero => intro h; exact h off le_rfl le_rfl
  | succ x ih =>
    intro h
    rw [swL, swL, ih (fun i h1 h2 => h i h1 (by omega)), h _ (by omega) (by omega)]

theorem swR_congr (U : ℕ → K) (u : K) (p t e : ℕ) {g g' : ℕ → Vec4 K} :
    ∀ x, x ≤ e → (∀ i, e ≤ i + x → i ≤ e → g i = g' i) → swR U u p t e g x = swR U u p t e g' x := by
  intro x
  induction x with
  | zero => intro _ h; exact h e le_rfl le_rfl
  | succ x ih =>
    intro hx h
    rw [swR, swR, ih (by omega) (fun i h1 h2 => h i (by omega) h2), h _ (by omega) (by omega)]

/-- The array of round `t` that holds `F`. -/
def canon (p s r t : ℕ) (F : ℕ → Vec4 K) : ℕ → Vec4 K := fun i =>
  if i + p + t ≤ r + (p + t - s) / 2 then F i else F (i - t)

theorem canon_lay {p s r t : ℕ} (hs : s ≤ p + t) (F : ℕ → Vec4 K) : Lay p s r t (canon p s r t F) F := by
  constructor
  · intro i hi; unfold canon; rw [if_pos hi]
  · intro j hj
    unfold canon
    split_ifs with h
    · obtain rfl : t = 0 := by omega
      rfl
    · rfl

section
variable {U : List K} {u : K} {p s r n : ℕ} (H : RemCtx U u p s r n)
include H

/-- One round; the value in front of the gap is kept. -/
theorem round_left {t : ℕ} (ht : t < s) (hs2 : s ≤ p) {g F : ℕ → Vec4 K} (hl : LayT p s r t g F) :
    ∃ F' G, NearT (remDiff (kn U) u p t s (r - p - t - 1) (r - p - t - 1 + (p + 2 + 2 * t - s)) g) F' F ∧ RemRel (kn U) u p s r t F' G ∧
      LayT p s r (t + 1) (remNext (kn U) u p t s (r - p - t - 1) (r - p - t - 1 + (p + 2 + 2 * t - s)) g) G := by
  have hpr := H.pr
  have hlen := H.len
  have hrn := H.rn
  have hs1 := H.s1
  obtain ⟨h, hh⟩ : ∃ h, (p + 1 + t - s) / 2 = h := ⟨_, rfl⟩
  obtain ⟨off, hoff⟩ : ∃ off, r - p - t - 1 = off := ⟨_, rfl⟩
  obtain ⟨e, hee⟩ : ∃ e, off + (p + 2 + 2 * t - s) = e := ⟨_, rfl⟩
  obtain ⟨D, hD⟩ : ∃ D, remDiff (kn U) u p t s off e g = D := ⟨_, rfl⟩
  rw [hoff, hee, hD]
  have hb : 2 * h ≤ p + 1 + t - s := by omega
  have hb2 : p + 1 + t - s ≤ 2 * h + 1 := by omega
  obtain ⟨_, a2, a3⟩ := rem_alpha H (t := t) (i := off + h + 1) (by omega) (by omega) (by omega)
  obtain ⟨α, hα⟩ : ∃ α, rA (kn U) u p t (off + h + 1) = α := ⟨_, rfl⟩
  rw [hα] at a2 a3
  -- the moved point
  obtain ⟨c, hc⟩ : ∃ c : K, c = if (p + 1 + t - s) % 2 = 0 then 1 - α else 1 := ⟨_, rfl⟩
  obtain ⟨F', hF'⟩ : ∃ F' : ℕ → Vec4 K, F' = fun i => if i = off + h + 1 then F i + c • D else F i := ⟨_, rfl⟩
  have hne : ∀ i, i ≠ off + h + 1 → F' i = F i := fun i hi => by rw [hF']; simp only; rw [if_neg hi]
  have heq : F' (off + h + 1) = F (off + h + 1) + c • D := by rw [hF']; exact if_pos rfl
  have hnear : NearT D F' F := by
    intro i
    by_cases hi : i = off + h + 1
    · subst hi
      refine ⟨c, ?_, heq⟩
      rw [hc]
      split_ifs
      · rw [abs_le]; constructor <;> linarith
      · simp
    · exact ⟨0, by simp, by rw [hne i hi, zero_smul, add_zero]⟩
  have hlay := canon_lay (p := p) (s := s) (r := r) (t := t) (by omega) F'
  have hgl : ∀ i, i ≤ off + h → canon p s r t F' i = g i := by
    intro i hi
    rw [hlay.left i (by omega), hl.left i (by omega), hne i (by omega)]
  have hgr : ∀ x, x < h ∨ ((p + 1 + t - s) % 2 ≠ 0 ∧ x ≤ h) → ∀ i, e ≤ i + x → canon p s r t F' i = g i := by
    intro x hx i hi
    rw [hlay.right i (by omega), hl.right i (by omega), hne _ (by omega)]
  have hL : ∀ x, x ≤ h → swL (kn U) u p t off (canon p s r t F') x = swL (kn U) u p t off g x :=
    fun x hx => swL_congr _ _ _ _ _ x (fun i _ hi => hgl i (by omega))
  have hR : ∀ x, x < h ∨ ((p + 1 + t - s) % 2 ≠ 0 ∧ x ≤ h) → swR (kn U) u p t e (canon p s r t F') x = swR (kn U) u p t e g x :=
    fun x hx => swR_congr _ _ _ _ _ x (by omega) (fun i hi _ => hgr x hx i hi)
  have hz : remDiff (kn U) u p t s off e (canon p s r t F') = 0 := by
    have hD' := hD
    unfold remDiff at hD' ⊢
    simp only at hD' ⊢
    rw [hh] at hD' ⊢
    by_cases hpar : (p + 1 + t - s) % 2 = 0
    · rw [if_pos hpar] at hD' hc ⊢
      obtain ⟨x, rfl⟩ : ∃ x, h = x + 1 := ⟨h - 1, by omega⟩
      have ei : e - 1 - x - t = off + (x + 1) + 1 := by omega
      have hα' : (1 : K) - α ≠ 0 := by linarith
      have e1 : canon p s r t F' (e - 1 - x) = g (e - 1 - x) + (1 - α) • D := by
        rw [hlay.right _ (by omega), hl.right _ (by omega), ei, heq, hc]
      have e2 : swR (kn U) u p t e (canon p s r t F') (x + 1) = swR (kn U) u p t e g (x + 1) + D := by
        rw [swR, swR, ei, hα, e1, hR x (by omega), add_sub_right_comm, smul_add, smul_smul (1 - α)⁻¹, inv_mul_cancel₀ hα', one_smul]
      rw [e2, hL _ le_rfl, ← hD']
      abel
    · rw [if_neg hpar] at hD' hc ⊢
      rw [show off + 1 + h = off + h + 1 by omega] at hD' ⊢
      rw [hlay.left _ (by omega), heq, hc, one_smul, ← hl.left _ (by omega), hR h (by omega), hL h le_rfl, ← hD']
      abel
  obtain ⟨G, hG⟩ := remRel_of_diff H ht (by omega) hlay (by rw [hoff, hee]; exact hz)
  have hnext := remNext_exact H ht (by omega) hlay hG
  rw [hoff, hee] at hnext
  refine ⟨F', G, hnear, hG, ?_, ?_⟩
  · intro i hi
    rw [← hnext.left i hi]
    unfold remNext
    simp only
    rw [hh]
    by_cases c1 : off < i ∧ i ≤ off + h
    · rw [if_pos c1, if_pos c1, hL _ (by omega)]
    · rw [if_neg c1, if_neg c1]
      by_cases c2 : e ≤ i + h ∧ i < e
      · exfalso; omega
      · rw [if_neg c2, if_neg c2, hgl i (by omega)]
  · intro j hj
    rw [← hnext.right j (by omega)]
    unfold remNext
    simp only
    rw [hh]
    by_cases c1 : off < j ∧ j ≤ off + h
    · exfalso; omega
    · rw [if_neg c1, if_neg c1]
      by_cases c2 : e ≤ j + h ∧ j < e
      · rw [if_pos c2, if_pos c2, hR _ (by omega)]
      · rw [if_neg c2, if_neg c2]
        by_cases hp0 : h = 0
        · subst hp0
          exact (hgr 0 (by omega) j (by omega)).symm
        · exact (hgr 0 (by omega) j (by omega)).symm

/-- One round that compares the ends of the two sweeps; the value behind the gap is kept. -/
theorem round_right {t : ℕ} (ht : t < s) (hs2 : s ≤ p) (hpar : (p + 1 + t - s) % 2 = 0) {g F : ℕ → Vec4 K} (hl : LayT p s r t g F) :
    ∃ F' G, NearT (remDiff (kn U) u p t s (r - p - t - 1) (r - p - t - 1 + (p + 2 + 2 * t - s)) g) F' F ∧ RemRel (kn U) u p s r t F' G ∧
      LayB p s r (t + 1) (remNext (kn U) u p t s (r - p - t - 1) (r - p - t - 1 + (p + 2 + 2 * t - s)) g) G := by
  have hpr := H.pr
  have hlen := H.len
  have hrn := H.rn
  have hs1 := H.s1
  obtain ⟨x, hh⟩ : ∃ x, (p + 1 + t - s) / 2 = x + 1 := ⟨(p + 1 + t - s) / 2 - 1, by omega⟩
  obtain ⟨off, hoff⟩ : ∃ off, r - p - t - 1 = off := ⟨_, rfl⟩
  obtain ⟨e, hee⟩ : ∃ e, off + (p + 2 + 2 * t - s) = e := ⟨_, rfl⟩
  obtain ⟨D, hD⟩ : ∃ D, remDiff (kn U) u p t s off e g = D := ⟨_, rfl⟩
  rw [hoff, hee, hD]
  have hb : 2 * (x + 1) = p + 1 + t - s := by omega
  obtain ⟨_, a2, a3⟩ := rem_alpha H (t := t) (i := off + 1 + x) (by omega) (by omega) (by omega)
  obtain ⟨α, hα⟩ : ∃ α, rA (kn U) u p t (off + 1 + x) = α := ⟨_, rfl⟩
  rw [hα] at a2 a3
  obtain ⟨F', hF'⟩ : ∃ F' : ℕ → Vec4 K, F' = fun i => if i = off + 1 + x then F i + (-α) • D else F i := ⟨_, rfl⟩
  have hne : ∀ i, i ≠ off + 1 + x → F' i = F i := fun i hi => by rw [hF']; simp only; rw [if_neg hi]
  have heq : F' (off + 1 + x) = F (off + 1 + x) + (-α) • D := by rw [hF']; exact if_pos rfl
  have hnear : NearT D F' F := by
    intro i
    by_cases hi : i = off + 1 + x
    · subst hi
      exact ⟨-α, by rw [abs_neg, abs_le]; constructor <;> linarith, heq⟩
    · exact ⟨0, by simp, by rw [hne i hi, zero_smul, add_zero]⟩
  have hlay := canon_lay (p := p) (s := s) (r := r) (t := t) (by omega) F'
  have hgl : ∀ i, i ≤ off + x → canon p s r t F' i = g i := by
    intro i hi
    rw [hlay.left i (by omega), hl.left i (by omega), hne i (by omega)]
  have hgr : ∀ i, e ≤ i + (x + 1) → canon p s r t F' i = g i := by
    intro i hi
    rw [hlay.right i (by omega), hl.right i (by omega), hne _ (by omega)]
  have hL : ∀ y, y ≤ x → swL (kn U) u p t off (canon p s r t F') y = swL (kn U) u p t off g y :=
    fun y hy => swL_congr _ _ _ _ _ y (fun i _ hi => hgl i (by omega))
  have hR : ∀ y, y ≤ x + 1 → swR (kn U) u p t e (canon p s r t F') y = swR (kn U) u p t e g y :=
    fun y hy => swR_congr _ _ _ _ _ y (by omega) (fun i hi _ => hgr i (by omega))
  have hz : remDiff (kn U) u p t s off e (canon p s r t F') = 0 := by
    have hD' := hD
    unfold remDiff at hD' ⊢
    simp only at hD' ⊢
    rw [hh] at hD' ⊢
    rw [if_pos hpar] at hD' ⊢
    have e1 : canon p s r t F' (off + 1 + x) = g (off + 1 + x) + (-α) • D := by
      rw [hlay.left _ (by omega), hl.left _ (by omega), heq]
    have e2 : swL (kn U) u p t off (canon p s r t F') (x + 1) = swL (kn U) u p t off g (x + 1) - D := by
      rw [swL, swL, hα, e1, hL x le_rfl, add_sub_right_comm, smul_add, smul_smul α⁻¹ (-α), mul_neg, inv_mul_cancel₀ a2.ne', neg_smul, one_smul,
        sub_eq_add_neg _ D]
    rw [e2, hR _ le_rfl, ← hD']
    abel
  obtain ⟨G, hG⟩ := remRel_of_diff H ht (by omega) hlay (by rw [hoff, hee]; exact hz)
  have hnext := remNext_exact H ht (by omega) hlay hG
  rw [hoff, hee] at hnext
  refine ⟨F', G, hnear, hG, ?_, ?_⟩
  · intro i hi
    rw [← hnext.left i (by omega)]
    unfold remNext
    simp only
    rw [hh]
    by_cases c1 : off < i ∧ i ≤ off + (x + 1)
    · rw [if_pos c1, if_pos c1, hL _ (by omega)]
    · rw [if_neg c1, if_neg c1]
      by_cases c2 : e ≤ i + (x + 1) ∧ i < e
      · exfalso; omega
      · rw [if_neg c2, if_neg c2, hgl i (by omega)]
  · intro j hj
    rw [← hnext.right j (by omega)]
    unfold remNext
    simp only
    rw [hh]
    by_cases c1 : off < j ∧ j ≤ off + (x + 1)
    · exfalso; omega
    · rw [if_neg c1, if_neg c1]
      by_cases c2 : e ≤ j + (x + 1) ∧ j < e
      · rw [if_pos c2, if_pos c2, hR _ (by omega)]
      · rw [if_neg c2, if_neg c2]
        exact (hgr j (by omega)).symm

/-- The compaction closes the gap. -/
theorem compact_layT {t : ℕ} (ht : 1 ≤ t) (hts : t ≤ s) (hs2 : s ≤ p) (hpar : t % 2 = 0 ∨ (p + t - s) % 2 ≠ 0) {g F : ℕ → Vec4 K}
    (hl : LayT p s r t g F) :
    ∀ y < n - t, (if y < (2 * r - s - p) / 2 - (t - 1) / 2 then g y else if y < n - t then g (y + t) else g y) = F y := by
  have hpr := H.pr
  have hrn := H.rn
  intro y hy
  by_cases c : y < (2 * r - s - p) / 2 - (t - 1) / 2
  · rw [if_pos c, hl.left y (by omega)]
  · rw [if_neg c, if_pos hy, hl.right _ (by omega)]
    congr 1; omega

theorem compact_layB {t : ℕ} (ht : 1 ≤ t) (hts : t ≤ s) (hs2 : s ≤ p) (hpar : t % 2 = 1) (hpar' : (p + t - s) % 2 = 0) {g F : ℕ → Vec4 K}
    (hl : LayB p s r t g F) :
    ∀ y < n - t, (if y < (2 * r - s - p) / 2 - (t - 1) / 2 then g y else if y < n - t then g (y + t) else g y) = F y := by
  have hpr := H.pr
  have hrn := H.rn
  intro y hy
  by_cases c : y < (2 * r - s - p) / 2 - (t - 1) / 2
  · rw [if_pos c, hl.left y (by omega)]
  · rw [if_neg c, if_pos hy, hl.right _ (by omega)]
    congr 1; omega

end

/-- `G` arises from `F0` by `t` removals, each exact after moving points by multiples of vectors with `ok`. -/
inductive ApxChain (U : ℕ → K) (u : K) (p s r : ℕ) (ok : Vec4 K → Prop) (F0 : ℕ → Vec4 K) : ℕ → (ℕ → Vec4 K) → Prop
  | zero : ApxChain U u p s r ok F0 0 F0
  | succ {t F D F' G} : ApxChain U u p s r ok F0 t F → ok D → NearT D F' F → RemRel U u p s r t F' G → ApxChain U u p s r ok F0 (t + 1) G

section
variable {U : List K} {u : K} {p s r n : ℕ} (H : RemCtx U u p s r n)
include H

/-- Points of weight one: so are the solutions of the sweeps. -/
theorem sweeps_w {t : ℕ} (ht : t < s) (hs2 : s ≤ p) {g : ℕ → Vec4 K} (hg : ∀ i < n, (g i).w = 1) :
    (∀ x, x ≤ (p + 1 + t - s) / 2 → (swL (kn U) u p t (r - p - t - 1) g x).w = 1) ∧
    (∀ x, x ≤ (p + 1 + t - s) / 2 → (swR (kn U) u p t (r - p - t - 1 + (p + 2 + 2 * t - s)) g x).w = 1) := by
  have hpr := H.pr
  have hlen := H.len
  have hrn := H.rn
  constructor
  · intro x
    induction x with
    | zero => intro _; exact hg _ (by omega)
    | succ x ih =>
      intro hx
      obtain ⟨_, a2, _⟩ := rem_alpha H (t := t) (i := r - p - t - 1 + 1 + x) (by omega) (by omega) (by omega)
      rw [swL, Vec4.smul_w, Vec4.sub_w, Vec4.smul_w, ih (by omega), hg _ (by omega), mul_one, sub_sub_cancel, inv_mul_cancel₀ a2.ne']
  · intro x
    induction x with
    | zero => intro _; exact hg _ (by omega)
    | succ x ih =>
      intro hx
      obtain ⟨_, _, a3⟩ := rem_alpha H (t := t) (i := r - p - t - 1 + (p + 2 + 2 * t - s) - 1 - x - t) (by omega) (by omega) (by omega)
      rw [swR, Vec4.smul_w, Vec4.sub_w, Vec4.smul_w, ih (by omega), hg _ (by omega), mul_one, inv_mul_cancel₀ (by linarith)]

theorem remDiff_w {t : ℕ} (ht : t < s) (hs2 : s ≤ p) {g : ℕ → Vec4 K} (hg : ∀ i < n, (g i).w = 1) :
    (remDiff (kn U) u p t s (r - p - t - 1) (r - p - t - 1 + (p + 2 + 2 * t - s)) g).w = 0 := by
  have hpr := H.pr
  have hrn := H.rn
  obtain ⟨h1, h2⟩ := sweeps_w H ht hs2 hg
  unfold remDiff
  simp only
  split_ifs
  · rw [Vec4.sub_w, h1 _ le_rfl, h2 _ le_rfl, sub_self]
  · rw [Vec4.sub_w, Vec4.add_w, Vec4.smul_w, Vec4.smul_w, h1 _ le_rfl, h2 _ le_rfl, hg _ (by omega)]; ring

theorem remNext_w {t : ℕ} (ht : t < s) (hs2 : s ≤ p) {g : ℕ → Vec4 K} (hg : ∀ i < n, (g i).w = 1) :
    ∀ i < n, (remNext (kn U) u p t s (r - p - t - 1) (r - p - t - 1 + (p + 2 + 2 * t - s)) g i).w = 1 := by
  obtain ⟨h1, h2⟩ := sweeps_w H ht hs2 hg
  intro i hi
  unfold remNext
  simp only
  split_ifs with c1 c2
  · exact h1 _ (by omega)
  · exact h2 _ (by omega)
  · exact hg i hi

/-- All rounds succeed: the compacted points arise from the original ones by removals within the tolerance. -/
theorem loop_tol (sqrt : K → K) (tol : K) (hs2 : s ≤ p) (Q : Prop) (F0 : ℕ → Vec4 K) :
    ∀ (m t : ℕ) (g F tmp : ℕ → Vec4 K), t + (m + 1) ≤ s → ApxChain (kn U) u p s r (fun D => D.norm sqrt ≤ tol ∧ (Q → D.w = 0)) F0 t F → LayT p s r t g F → (Q → ∀ i < n, (g i).w = 1) →
      ∀ pts : List (Vec4 K),
      removalLoop sqrt U u tol ((p : Int) + 1) (m + 1) t ((r : Int) - p - t) ((r : Int) - s + t) (tab n g) (tab (2 * p + 1) tmp) =
        .ok (((t + (m + 1) : ℕ) : Int), pts) →
      ∃ g' F' : ℕ → Vec4 K, pts = tab n g' ∧ ApxChain (kn U) u p s r (fun D => D.norm sqrt ≤ tol ∧ (Q → D.w = 0)) F0 (t + (m + 1)) F' ∧
        ∀ y < n - (t + (m + 1)), (if y < (2 * r - s - p) / 2 - (t + (m + 1) - 1) / 2 then g' y else
          if y < n - (t + (m + 1)) then g' (y + (t + (m + 1))) else g' y) = F' y := by
  intro m
  induction m with
  | zero =>
    intro t g F tmp hts hc hl hw pts he
    obtain ⟨tmp', e⟩ := removalLoop_step H sqrt tol 0 t (by omega) (by omega) g tmp
    rw [e] at he
    split_ifs at he with hd
    · have := (Prod.mk.inj (Except.ok.inj he)).1
      omega
    · rw [removalLoop] at he
      obtain rfl := (Prod.mk.inj (Except.ok.inj he)).2
      by_cases hpar : (t + 1) % 2 = 0 ∨ (p + (t + 1) - s) % 2 ≠ 0
      · obtain ⟨F', G, h1, h2, h3⟩ := round_left H (by omega) hs2 hl
        exact ⟨_, G, rfl, hc.succ ⟨not_lt.mp hd, fun q => remDiff_w H (by omega) hs2 (hw q)⟩ h1 h2, compact_layT H (by omega) (by omega) hs2 hpar h3⟩
      · obtain ⟨F', G, h1, h2, h3⟩ := round_right H (by omega) hs2 (by omega) hl
        exact ⟨_, G, rfl, hc.succ ⟨not_lt.mp hd, fun q => remDiff_w H (by omega) hs2 (hw q)⟩ h1 h2, compact_layB H (by omega) (by omega) hs2 (by omega) (by omega) h3⟩
  | succ m ih =>
    intro t g F tmp hts hc hl hw pts he
    obtain ⟨tmp', e⟩ := removalLoop_step H sqrt tol (m + 1) t (by omega) (by omega) g tmp
    rw [e] at he
    split_ifs at he with hd
    · have := (Prod.mk.inj (Except.ok.inj he)).1
      omega
    · obtain ⟨F', G, h1, h2, h3⟩ := round_left H (by omega) hs2 hl
      have := ih (t + 1) _ G tmp' (by omega) (hc.succ ⟨not_lt.mp hd, fun q => remDiff_w H (by omega) hs2 (hw q)⟩ h1 h2) h3 (fun q => remNext_w H (by omega) hs2 (hw q)) pts (by
        rw [he]; congr 3; omega)
      rw [show t + 1 + (m + 1) = t + (m + 1 + 1) by omega] at this
      exact this

end

/-- Moving the points moves the segment by no more. -/
theorem seg_near {U : ℕ → K} {k : ℕ} {x : K} {p : ℕ} (hp : p ≤ k) (hr : RegSpan U k p) (hm : ∀ a b, a ≤ b → b ≤ k + p → U a ≤ U b)
    (h1 : U k ≤ x) (h2 : x ≤ U (k + 1)) (L : Vec4 K →ₗ[K] K) {δ : K} {F' F : ℕ → Vec4 K} (h : ∀ i, |L (F' i) - L (F i)| ≤ δ) :
    |L (seg U k x p F') - L (seg U k x p F)| ≤ δ := by
  rw [seg_map, seg_map]
  unfold seg
  rw [← Finset.sum_sub_distrib]
  refine (Finset.abs_sum_le_sum_abs _ _).trans ?_
  have : ∑ n ∈ Finset.range (p + 1), Nl U k x p (k - p + n) * δ = δ := by
    rw [← Finset.sum_mul, seg_one U k x p hp hr, one_mul]
  rw [← this]
  apply Finset.sum_le_sum
  intro i _
  have h0 := Nl_nonneg U k x p (k - p + i) hm h1 h2
  rw [smul_eq_mul, smul_eq_mul, ← mul_sub, abs_mul, abs_of_nonneg h0]
  exact mul_le_mul_of_nonneg_left (h _) h0

section
variable {U : List K} {u : K} {p s r n : ℕ} (H : RemCtx U u p s r n)
include H

/-- Removals within `δ` move the homogeneous curve by at most `δ` per round. -/
theorem apx_seg (hc : Clamped p U) (h0 : 0 < u) (h1 : u < 1) (hs2 : s ≤ p + 1) {ok : Vec4 K → Prop} {δ : K} (L : Vec4 K →ₗ[K] K)
    (hok : ∀ D, ok D → |L D| ≤ δ) {F0 : ℕ → Vec4 K} {t : ℕ} {G : ℕ → Vec4 K}
    (hch : ApxChain (kn U) u p s r ok F0 t G) : t ≤ s → ∀ x, 0 ≤ x → x ≤ 1 → ∀ a b, IsSpan U x a → IsSpan (remL U r t) x b →
      |L (seg (kn (remL U r t)) b x p G) - L (seg (kn U) a x p F0)| ≤ t * δ := by
  induction hch with
  | zero =>
    intro _ x hx0 hx1 a b ha hb
    rw [remL_zero] at hb ⊢
    rw [isSpan_unique hc.sorted ha hb (fun i hi => hc.le_one hi), sub_self, abs_zero, Nat.cast_zero, zero_mul]
  | @succ t F D F' G _ hD hN hR ih =>
    intro ht x hx0 hx1 a b ha hb
    have hct := remL_clamped H hc (t := t) (by omega)
    have hct' := remL_clamped H hc ht
    obtain ⟨m, hm, hpm, hlm⟩ := exists_span hct hx0 hx1
    obtain ⟨b', hb1, hpb, hlb⟩ := exists_span hct' hx0 hx1
    obtain rfl : b = b' := isSpan_unique hct'.sorted hb hb1 (fun i hi => hct'.le_one hi)
    have hi := ih (by omega) x hx0 hx1 a m ha hm
    have hm' := hm
    rw [← insL_remL H (show t < s by omega)] at hm'
    have e := insL_blos hct' (remL_span H (show t < s by omega)) h0 h1 hm' hx0 hx1 G (List.replicate p x) (by simp)
    have hb' := insL_span (remL_span H (show t < s by omega)) h1 hm'
    have e2 : seg (kn (remL U r (t + 1))) b x p G = seg (kn (remL U r t)) m x p F' := by
      rw [seg_eq_blos _ _ _ _ _ hpb, seg_eq_blos _ _ _ _ _ hpm, isSpan_unique hct'.sorted hb hb' (fun i hi => hct'.le_one hi), ← e,
        insL_remL H (show t < s by omega)]
      congr 1
      funext i
      exact (insP_of_rel H (by omega) hs2 hR i).symm
    have hreg : RegSpan (kn (remL U r t)) m p := regSpan_of_sorted hct.sorted (IsSpan.lt hm) (by omega)
    have hs := seg_near hpm hreg (fun a b hab hb => kn_mono hct.sorted hab (by omega)) hm.2.1 (IsSpan.le_right hm) L (δ := δ) (F' := F') (F := F) (by
      intro i
      obtain ⟨c, hc1, hc2⟩ := hN i
      rw [hc2, map_add, map_smul, add_sub_cancel_left, smul_eq_mul, abs_mul]
      calc |c| * |L D| ≤ 1 * |L D| := mul_le_mul_of_nonneg_right hc1 (abs_nonneg _)
        _ ≤ δ := by rw [one_mul]; exact hok D hD)
    rw [e2]
    have := abs_sub_le (L (seg (kn (remL U r t)) m x p F')) (L (seg (kn (remL U r t)) m x p F)) (L (seg (kn U) a x p F0))
    push_cast
    linarith

end

end Nurbs
