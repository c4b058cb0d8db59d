import Verif.Proof.Hodograph
import Mathlib.Algebra.Order.Archimedean.Basic

/-! # Differences of control points under knot insertion -/

set_option linter.unusedSectionVars false

namespace Nurbs
open Nurbs.Spec

variable {K : Type} [Field K] [LinearOrder K] [IsStrictOrderedRing K]

/-- Consecutive values grow by at most `b/p` times the distance of the knots `p` apart, where these differ. -/
def DiffLe (p : ℕ) (l : List K) (n : ℕ) (g : ℕ → K) (b : K) : Prop :=
  ∀ i, 1 ≤ i → i < n → kn l i < kn l (i + p) → (p : K) * (g i - g (i - 1)) ≤ b * (kn l (i + p) - kn l i)

/-- Boehm's insertion keeps the bound of the differences. -/
theorem diff_insP {U : ℕ → K} {k p n : ℕ} {v b : K} {g : ℕ → K} (hkn : k < n) (hpk : p ≤ k) (hp : 1 ≤ p)
    (hd : ∀ i, k < i + p → i ≤ k → 0 < U (i + p) - U i) (h0 : ∀ i, k < i + p → i ≤ k → U i ≤ v) (h1 : ∀ i, k < i + p → i ≤ k → v ≤ U (i + p))
    (hg : ∀ i, 1 ≤ i → i < n → U i < U (i + p) → (p : K) * (g i - g (i - 1)) ≤ b * (U (i + p) - U i)) :
    ∀ i, 1 ≤ i → i < n + 1 → insU U k v i < insU U k v (i + p) →
      (p : K) * (insP U k v p g i - insP U k v p g (i - 1)) ≤ b * (insU U k v (i + p) - insU U k v i) := by
  intro i hi1 hi2 hlt
  have e : ∀ i, k < i + p → i ≤ k → step U p v g i = g (i - 1) + (v - U i) / (U (i + p) - U i) * (g i - g (i - 1)) := by
    intro i a1 a2
    have := (hd i a1 a2).ne'
    unfold step
    simp only [smul_eq_mul]
    field_simp
    ring
  have e' : ∀ i, k < i + p → i ≤ k → step U p v g i = g i - (U (i + p) - v) / (U (i + p) - U i) * (g i - g (i - 1)) := by
    intro i a1 a2
    have := (hd i a1 a2).ne'
    unfold step
    simp only [smul_eq_mul]
    field_simp
    ring
  have up : ∀ i, k < i + p → i ≤ k → (p : K) * ((v - U i) / (U (i + p) - U i) * (g i - g (i - 1))) ≤ b * (v - U i) := by
    intro i a1 a2
    have hdi := hd i a1 a2
    have h := mul_le_mul_of_nonneg_left (hg i (by omega) (by omega) (sub_pos.1 hdi)) (div_nonneg (sub_nonneg.2 (h0 i a1 a2)) hdi.le)
    calc _ = (v - U i) / (U (i + p) - U i) * ((p : K) * (g i - g (i - 1))) := by ring
      _ ≤ _ := h
      _ = b * (v - U i) := by field_simp
  have dn : ∀ i, k < i + p → i ≤ k → (p : K) * ((U (i + p) - v) / (U (i + p) - U i) * (g i - g (i - 1))) ≤ b * (U (i + p) - v) := by
    intro i a1 a2
    have hdi := hd i a1 a2
    have h := mul_le_mul_of_nonneg_left (hg i (by omega) (by omega) (sub_pos.1 hdi)) (div_nonneg (sub_nonneg.2 (h1 i a1 a2)) hdi.le)
    calc _ = (U (i + p) - v) / (U (i + p) - U i) * ((p : K) * (g i - g (i - 1))) := by ring
      _ ≤ _ := h
      _ = b * (U (i + p) - v) := by field_simp
  have P1 : ∀ i, i + p ≤ k → insP U k v p g i = g i := fun i h => if_pos h
  have P2 : ∀ i, k < i + p → i ≤ k → insP U k v p g i = step U p v g i := fun i h h' => (if_neg (by omega)).trans (if_pos h')
  have P3 : ∀ i, k < i → insP U k v p g i = g (i - 1) := fun i h => (if_neg (by omega)).trans (if_neg (by omega))
  have U1 : ∀ i, i ≤ k → insU U k v i = U i := fun i h => if_pos h
  have U2 : insU U k v (k + 1) = v := (if_neg (by omega)).trans (if_pos rfl)
  have U3 : ∀ i, k + 1 < i → insU U k v i = U (i - 1) := fun i h => (if_neg (by omega)).trans (if_neg (by omega))
  by_cases c1 : i + p ≤ k
  · rw [U1 _ c1, U1 i (by omega)] at hlt
    rw [P1 i c1, P1 (i - 1) (by omega), U1 _ c1, U1 i (by omega)]
    exact hg i hi1 (by omega) hlt
  by_cases c2 : i ≤ k
  · rw [P2 i (by omega) c2, U1 i c2]
    by_cases c3 : i - 1 + p ≤ k
    · rw [P1 _ c3, show i + p = k + 1 by omega, U2, e i (by omega) c2, add_sub_cancel_left]
      exact up i (by omega) c2
    · rw [P2 (i - 1) (by omega) (by omega), U3 _ (by omega), e i (by omega) c2, e' (i - 1) (by omega) (by omega),
        show i + p - 1 = i - 1 + p by omega]
      have a := up i (by omega) c2
      have d := dn (i - 1) (by omega) (by omega)
      linarith
  · rw [P3 i (by omega), U3 (i + p) (by omega), show i + p - 1 = i - 1 + p by omega]
    by_cases c3 : i = k + 1
    · subst c3
      rw [U2, show k + 1 - 1 = k by omega, P2 k (by omega) le_rfl, e' k (by omega) le_rfl]
      have d := dn k (by omega) le_rfl
      linarith
    · rw [U3 i (by omega), U3 (i + p) (by omega), show i + p - 1 = i - 1 + p by omega] at hlt
      rw [P3 (i - 1) (by omega), U3 i (by omega)]
      exact hg (i - 1) (by omega) (by omega) hlt

theorem diff_ins {p : ℕ} (hp : 1 ≤ p) {c : Curve K} (hw : WFCurve p c) {v : K} {k : ℕ} (hk : IsSpan c.Knots.Values v k) (h0 : 0 < v) (h1 : v < 1)
    (L : Vec4 K →ₗ[K] K) {b : K} (hg : DiffLe p c.Knots.Values c.ControlPoints.length (fun i => L (hpts c.ControlPoints i)) b) :
    DiffLe p (insCurve p k v c).Knots.Values (insCurve p k v c).ControlPoints.length
      (fun i => L (hpts (insCurve p k v c).ControlPoints i)) b := by
  obtain ⟨hpk, hlk, hkn⟩ := ins_bounds hw hk h0 h1
  have hct := hw.count
  have hkv : v < kn c.Knots.Values (k + 1) := by
    rcases hk.2.2 with h | h
    · exact h
    · exact absurd h.1 h1.ne
  have A : ∀ i, k < i + p → i ≤ k → kn c.Knots.Values i ≤ v := fun i _ h => (kn_mono hw.clamped.sorted h (by omega)).trans hk.2.1
  have B : ∀ i, k < i + p → i ≤ k → v < kn c.Knots.Values (i + p) := fun i h h' =>
    lt_of_lt_of_le hkv (kn_mono hw.clamped.sorted (by omega) (by omega))
  have hm : ∀ i, L (insP (kn c.Knots.Values) k v p (hpts c.ControlPoints) i) =
      insP (kn c.Knots.Values) k v p (fun i => L (hpts c.ControlPoints i)) i := by
    intro i
    unfold insP step
    split_ifs <;> simp
  intro i hi1 hi2 hlt
  simp only [insCurve, tab_length] at hi2
  replace hlt : kn (insL c.Knots.Values k v) i < kn (insL c.Knots.Values k v) (i + p) := hlt
  rw [kn_insL' _ _ _ (by omega)] at hlt
  have := diff_insP (v := v) hkn hpk hp (fun i a1 a2 => by have := A i a1 a2; have := B i a1 a2; linarith) A (fun i a1 a2 => (B i a1 a2).le) hg i hi1 hi2 hlt
  beta_reduce
  rw [insCurve_hpts hw hk h0 h1 i hi2, insCurve_hpts hw hk h0 h1 (i - 1) (by omega), hm, hm]
  show _ ≤ b * (kn (insL c.Knots.Values k v) (i + p) - kn (insL c.Knots.Values k v) i)
  rw [kn_insL' _ _ _ (by omega)]
  exact this

theorem insertList_diff {p : ℕ} (hp : 1 ≤ p) (vs : List K) (hv : ∀ v ∈ vs, 0 < v ∧ v < 1) {c : Curve K} (hw : WFCurve p c) {c' : Curve K}
    (h : c.InsertKnotList vs = .ok c') (L : Vec4 K →ₗ[K] K) {b : K}
    (hg : DiffLe p c.Knots.Values c.ControlPoints.length (fun i => L (hpts c.ControlPoints i)) b) :
    DiffLe p c'.Knots.Values c'.ControlPoints.length (fun i => L (hpts c'.ControlPoints i)) b := by
  induction vs generalizing c with
  | nil =>
    obtain rfl := Except.ok.inj h
    exact hg
  | cons v vs ih =>
    obtain ⟨h0, h1⟩ := hv v (by simp)
    obtain ⟨k, hk, _⟩ := exists_span hw.clamped h0.le h1.le
    unfold Curve.InsertKnotList at h
    simp only [foldMList] at h
    rw [insertListStep_ok hw hk h0 h1, bind_ok] at h
    exact ih (fun v hv' => hv v (by simp [hv'])) (insCurve_wf hw hk h0 h1) h (diff_ins hp hw hk h0 h1 L hg)

/-- Equal weights stay equal. -/
theorem insertList_flat {p : ℕ} (vs : List K) (hv : ∀ v ∈ vs, 0 < v ∧ v < 1) {c : Curve K} (hw : WFCurve p c) {c' : Curve K}
    (h : c.InsertKnotList vs = .ok c') {W : K} (he : ∀ i < c.ControlPoints.length, (pt c.ControlPoints i).w = W) :
    ∀ i < c'.ControlPoints.length, (pt c'.ControlPoints i).w = W := by
  intro i hi
  have hH := insertList_hull vs hv hw h
  have a := hH Vec4.lw (-W) (fun j hj => by
    have := he j hj
    show 0 ≤ (pt c.ControlPoints j).w + -W
    linarith) i hi
  have b := hH (-Vec4.lw) W (fun j hj => by
    have := he j hj
    show 0 ≤ -(pt c.ControlPoints j).w + W
    linarith) i hi
  replace a : 0 ≤ (pt c'.ControlPoints i).w + -W := a
  replace b : 0 ≤ -(pt c'.ControlPoints i).w + W := b
  linarith

/-- The direction `a` as a form on homogeneous points. -/
def dirForm (a : Vec3 K) : Vec4 K →ₗ[K] K := a.x • Vec4.lx + a.y • Vec4.ly + a.z • Vec4.lz

theorem dirForm_hpts (a : Vec3 K) (P : List (Vec4 K)) (i : ℕ) :
    dirForm a (hpts P i) = (pt P i).w * form a (pt P i).x (pt P i).y (pt P i).z := by
  simp only [dirForm, hpts, ToHomo, form, Vec4.lx, Vec4.ly, Vec4.lz, LinearMap.add_apply, LinearMap.smul_apply, LinearMap.coe_mk, AddHom.coe_mk,
    smul_eq_mul]
  ring

theorem gaps_sum {l : List K} {h : K} (hg : ∀ i, i + 1 < l.length → kn l (i + 1) - kn l i ≤ h) (a m : ℕ) (hm : a + m < l.length) :
    kn l (a + m) - kn l a ≤ m * h := by
  induction m with
  | zero => simp
  | succ m ih =>
    have h1 := ih (by omega)
    have h2 := hg (a + m) (by omega)
    push_cast
    rw [← add_assoc]
    linarith

/-- Values within a window differ by at most the sum of the differences. -/
theorem diff_window {p n : ℕ} {l : List K} (hs : l.Pairwise (· ≤ ·)) {g : ℕ → K} {b : K} (hb : 0 ≤ b) (hg : DiffLe p l n g b) {k : ℕ} (hp : 1 ≤ p)
    (hpk : p ≤ k) (hkn : k < n) (hl : k + p < l.length) (hlt : kn l k < kn l (k + 1)) {i j : ℕ} (hij : i ≤ j) (hi : k ≤ i + p) (hj : j ≤ k) :
    g j - g i ≤ b * (kn l (k + p) - kn l (k + 1 - p)) := by
  have hp0 : (0 : K) < p := by exact_mod_cast hp
  have hG : 0 ≤ kn l (k + p) - kn l (k + 1 - p) := sub_nonneg.2 (kn_mono hs (by omega) hl)
  have key : ∀ m, i + m ≤ k → (p : K) * (g (i + m) - g i) ≤ m * (b * (kn l (k + p) - kn l (k + 1 - p))) := by
    intro m
    induction m with
    | zero => intro _; simp
    | succ m ih =>
      intro hm
      have h1 := ih (by omega)
      have h2 := hg (i + m + 1) (by omega) (by omega) (lt_of_le_of_lt (kn_mono hs (show i + m + 1 ≤ k by omega) (by omega))
        (lt_of_lt_of_le hlt (kn_mono hs (by omega) (by omega))))
      rw [show i + m + 1 - 1 = i + m by omega] at h2
      have h3 := mul_le_mul_of_nonneg_left (sub_le_sub (kn_mono hs (show i + m + 1 + p ≤ k + p by omega) hl)
        (kn_mono hs (show k + 1 - p ≤ i + m + 1 by omega) (by omega))) hb
      rw [← add_assoc]
      push_cast
      linarith
  obtain ⟨m, rfl⟩ := Nat.exists_eq_add_of_le hij
  have h1 := key m hj
  have h2 : (m : K) * (b * (kn l (k + p) - kn l (k + 1 - p))) ≤ p * (b * (kn l (k + p) - kn l (k + 1 - p))) :=
    mul_le_mul_of_nonneg_right (by exact_mod_cast (by omega : m ≤ p)) (mul_nonneg hb hG)
  exact le_of_mul_le_mul_left (h1.trans h2) hp0

/-- A sorted vector that contains all multiples of `1/N` in between has no gap above `1/N`. -/
theorem gap_le [Archimedean K] {l : List K} (hs : l.Pairwise (· ≤ ·)) (h0 : ∀ i < l.length, 0 ≤ kn l i ∧ kn l i ≤ 1) {N : ℕ} (hN : 0 < N)
    (hmem : ∀ j, 0 < j → j < N → (j : K) / N ∈ l) {i : ℕ} (hi : i + 1 < l.length) : kn l (i + 1) - kn l i ≤ 1 / N := by
  have hN0 : (0 : K) < N := by exact_mod_cast hN
  by_contra hlt
  rw [not_le] at hlt
  have hex : ∃ j : ℕ, kn l i < (j : K) / N := by
    obtain ⟨j, hj⟩ := exists_nat_gt (kn l i * N)
    exact ⟨j, (lt_div_iff₀ hN0).2 hj⟩
  classical
  obtain ⟨hj, hmin⟩ := Nat.find_spec hex, fun m => Nat.find_min hex (m := m)
  set j := Nat.find hex
  have hj0 : 0 < j := by
    rcases Nat.eq_zero_or_pos j with e | e
    · rw [e, Nat.cast_zero, zero_div] at hj
      exact absurd (h0 i (by omega)).1 (not_le.2 hj)
    · exact e
  have hprev := not_lt.1 (hmin (j - 1) (by omega))
  rw [Nat.cast_sub hj0, Nat.cast_one, sub_div] at hprev
  have hup : (j : K) / N < kn l (i + 1) := by linarith
  have hjN : j < N := by
    have := lt_of_lt_of_le hup (h0 (i + 1) hi).2
    rw [div_lt_one hN0] at this
    exact_mod_cast this
  obtain ⟨m, hm, em⟩ := List.getElem_of_mem (hmem j hj0 hjN)
  rw [← kn_eq_getElem] at em
  rw [← em] at hj hup
  have a : i < m := by
    by_contra hc
    exact absurd (kn_mono hs (not_lt.1 hc) (by omega)) (not_le.2 hj)
  have b : m < i + 1 := by
    by_contra hc
    exact absurd (kn_mono hs (not_lt.1 hc) hm) (not_le.2 hup)
  omega

end Nurbs
