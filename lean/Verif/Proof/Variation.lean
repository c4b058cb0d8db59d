import Verif.Proof.Insert2
import Mathlib.Data.List.NodupEquivFin

/-! # Sign changes along the control polygon

`Alt` says that among the first `N` values of `h` there are, in this order, values with the signs of `σ 0, …, σ n`. -/

namespace Nurbs
open Nurbs.Spec

set_option linter.unusedSectionVars false

variable {K : Type} [Field K] [LinearOrder K] [IsStrictOrderedRing K]

/-- Positions `t 0 ≤ … ≤ t n < N` at which `h` has the sign of `σ`. -/
def Alt (N : ℕ) (σ h : ℕ → K) (n : ℕ) : Prop :=
  ∃ t : ℕ → ℕ, (∀ j < n, t j ≤ t (j + 1)) ∧ ∀ j ≤ n, t j < N ∧ 0 < σ j * h (t j)

theorem alt_ne {σ h : ℕ → K} {j a b : ℕ} (hσ : σ j * σ (j + 1) < 0) (h1 : 0 < σ j * h a) (h2 : 0 < σ (j + 1) * h b) : a ≠ b := by
  rintro rfl
  have h3 := mul_pos h1 h2
  have h4 : σ j * h a * (σ (j + 1) * h a) = σ j * σ (j + 1) * (h a * h a) := by ring
  rw [h4] at h3
  nlinarith [mul_self_nonneg (h a)]

theorem combo_sign {s a b al : K} (h0 : 0 ≤ al) (h1 : al ≤ 1) (h : 0 < s * ((1 - al) * a + al * b)) : 0 < s * a ∨ 0 < s * b := by
  by_contra hn
  push Not at hn
  have := mul_nonneg (sub_nonneg.mpr h1) (neg_nonneg.mpr hn.1)
  have := mul_nonneg h0 (neg_nonneg.mpr hn.2)
  nlinarith

/-- Corner cutting does not create sign changes. -/
theorem alt_ins {p : ℕ} {c : Curve K} (hw : WFCurve p c) {v : K} {k : ℕ} (hk : IsSpan c.Knots.Values v k) (h0 : 0 < v) (h1 : v < 1)
    (L : Vec4 K →ₗ[K] K) {σ : ℕ → K} {n : ℕ} (hσ : ∀ j < n, σ j * σ (j + 1) < 0)
    (h : Alt (insCurve p k v c).ControlPoints.length σ (fun i => L (hpts (insCurve p k v c).ControlPoints i)) n) :
    Alt c.ControlPoints.length σ (fun i => L (hpts c.ControlPoints i)) n := by
  obtain ⟨t, ht, hs⟩ := h
  obtain ⟨hpk, hlk, hkn⟩ := ins_bounds hw hk h0 h1
  have hcnt := hw.count
  have key : ∀ j, ∃ s, j ≤ n → s ≤ t j ∧ t j ≤ s + 1 ∧ s < c.ControlPoints.length ∧ 0 < σ j * L (hpts c.ControlPoints s) := by
    intro j
    by_cases hj : j ≤ n
    swap
    · exact ⟨0, fun h => absurd h hj⟩
    obtain ⟨hi, hpos⟩ := hs j hj
    simp only [insCurve, tab_length] at hi
    simp only at hpos
    rw [insCurve_hpts hw hk h0 h1 _ hi] at hpos
    unfold insP at hpos
    split_ifs at hpos with ha hb
    · exact ⟨t j, fun _ => ⟨le_rfl, by omega, by omega, hpos⟩⟩
    · have hkv : v < kn c.Knots.Values (k + 1) := by
        rcases hk.2.2 with h | h
        · exact h
        · exact absurd h.1 h1.ne
      have a : kn c.Knots.Values (t j) ≤ v := (kn_mono hw.clamped.sorted hb (by omega)).trans hk.2.1
      have b' : v < kn c.Knots.Values (t j + p) := lt_of_lt_of_le hkv (kn_mono hw.clamped.sorted (by omega) (by omega))
      have hd : 0 < kn c.Knots.Values (t j + p) - kn c.Knots.Values (t j) := by linarith
      unfold step at hpos
      set al := (v - kn c.Knots.Values (t j)) / (kn c.Knots.Values (t j + p) - kn c.Knots.Values (t j)) with hal
      have al0 : 0 ≤ al := div_nonneg (by linarith) hd.le
      have al1 : al ≤ 1 := (div_le_one hd).mpr (by linarith)
      have hal' : (kn c.Knots.Values (t j + p) - v) / (kn c.Knots.Values (t j + p) - kn c.Knots.Values (t j)) = 1 - al := by
        rw [hal]; field_simp; ring
      rw [map_add, map_smul, map_smul, smul_eq_mul, smul_eq_mul, hal'] at hpos
      rcases combo_sign al0 al1 hpos with h | h
      · exact ⟨t j - 1, fun _ => ⟨by omega, by omega, by omega, h⟩⟩
      · exact ⟨t j, fun _ => ⟨le_rfl, by omega, by omega, h⟩⟩
    · exact ⟨t j - 1, fun _ => ⟨by omega, by omega, by omega, hpos⟩⟩
  choose s hsj using key
  refine ⟨s, fun j hj => ?_, fun j hj => ⟨(hsj j hj).2.2.1, (hsj j hj).2.2.2⟩⟩
  have h1 := hsj j hj.le
  have h2 := hsj (j + 1) hj
  have h3 := ht j hj
  have h4 := alt_ne (h := fun i => L (hpts (insCurve p k v c).ControlPoints i)) (hσ j hj) (hs j hj.le).2 (hs (j + 1) hj).2
  omega

theorem alt_insertList {p : ℕ} (vs : List K) (hv : ∀ v ∈ vs, 0 < v ∧ v < 1) {c : Curve K} (hw : WFCurve p c) {c' : Curve K}
    (h : c.InsertKnotList vs = .ok c') (L : Vec4 K →ₗ[K] K) {σ : ℕ → K} {n : ℕ} (hσ : ∀ j < n, σ j * σ (j + 1) < 0)
    (ha : Alt c'.ControlPoints.length σ (fun i => L (hpts c'.ControlPoints i)) n) :
    Alt c.ControlPoints.length σ (fun i => L (hpts c.ControlPoints i)) n := by
  induction vs generalizing c with
  | nil =>
    obtain rfl := Except.ok.inj h
    exact ha
  | cons v vs ih =>
    obtain ⟨h0, h1⟩ := hv v (by simp)
    obtain ⟨k, hk, _⟩ := exists_span hw.clamped h0.le h1.le
    unfold Curve.InsertKnotList at h
    simp only [foldMList] at h
    rw [insertListStep_ok hw hk h0 h1, bind_ok] at h
    exact alt_ins hw hk h0 h1 L hσ (ih (fun v hv' => hv v (by simp [hv'])) (insCurve_wf hw hk h0 h1) h)

/-! ### A knot of full multiplicity -/

section blocks
variable {V : Type} [AddCommGroup V] [Module K V]

/-- If the last `p` knots up to `k` are all `x`, the segment starts in its first point. -/
theorem seg_left (U : ℕ → K) (k : ℕ) (x : K) (p : ℕ) (hp : p ≤ k) (hr : RegSpan U k p) (P : ℕ → V)
    (h : ∀ i, k < i + p → i ≤ k → U i = x) : seg U k x p P = P (k - p) := by
  induction p generalizing P with
  | zero => rw [seg_zero]; rfl
  | succ p ih =>
    rw [seg_step U k x p P hp, ih (by omega) (hr.mono (by omega)) _ (fun i h1 h2 => h i (by omega) h2)]
    have hx : U (k - p) = x := h _ (by omega) (by omega)
    have hd := hr.sub_ne (q := p + 1) (i := k - p) le_rfl (by omega) (by omega)
    unfold step
    rw [hx] at hd ⊢
    rw [div_self hd, sub_self, zero_div, one_smul, zero_smul, add_zero]
    congr 1

/-- If the `p` knots after `k` are all `x`, the segment ends in its last point. -/
theorem seg_right (U : ℕ → K) (k : ℕ) (x : K) (p : ℕ) (hp : p ≤ k) (hr : RegSpan U k p) (P : ℕ → V)
    (h : ∀ i, k < i → i ≤ k + p → U i = x) : seg U k x p P = P k := by
  induction p generalizing P with
  | zero => rw [seg_zero]
  | succ p ih =>
    rw [seg_step U k x p P hp, ih (by omega) (hr.mono (by omega)) _ (fun i h1 h2 => h i h1 (by omega))]
    have hx : U (k + (p + 1)) = x := h _ (by omega) (by omega)
    have hd := hr.sub_ne (q := p + 1) (i := k) le_rfl (by omega) (by omega)
    unfold step
    rw [hx] at hd ⊢
    rw [div_self hd, sub_self, zero_div, one_smul, zero_smul, zero_add]

end blocks

theorem count_le_of_gap {l : List K} {x : K} {a b : ℕ} (h1 : ∀ i < l.length, i < a → kn l i ≠ x)
    (h2 : ∀ i < l.length, b ≤ i → kn l i ≠ x) (hab : a ≤ b) : l.count x ≤ b - a := by
  have e : l = l.take a ++ ((l.drop a).take (b - a) ++ l.drop b) := by
    conv_lhs => rw [← List.take_append_drop a l, ← List.take_append_drop (b - a) (l.drop a), List.drop_drop]
    rw [show a + (b - a) = b by omega]
  have z1 : (l.take a).count x = 0 := by
    apply List.count_eq_zero_of_not_mem
    intro hm
    obtain ⟨i, hi, e⟩ := List.getElem_of_mem hm
    rw [List.length_take] at hi
    rw [List.getElem_take] at e
    exact h1 i (by omega) (by omega) (by simp [kn, show i < l.length by omega, e])
  have z2 : (l.drop b).count x = 0 := by
    apply List.count_eq_zero_of_not_mem
    intro hm
    obtain ⟨i, hi, e⟩ := List.getElem_of_mem hm
    rw [List.length_drop] at hi
    rw [List.getElem_drop] at e
    exact h2 (b + i) (by omega) (by omega) (by simp [kn, show b + i < l.length by omega, e])
  have z3 : ((l.drop a).take (b - a)).count x ≤ b - a :=
    (List.count_le_length).trans (by rw [List.length_take]; omega)
  rw [e, List.count_append, List.count_append]
  omega

/-- In a sorted vector the copies of `x` are the last knots of its span. -/
theorem block_of_count {l : List K} (hs : l.Pairwise (· ≤ ·)) {x : K} {k p : ℕ} (hk : IsSpan l x k) (h1 : x < 1)
    (hc : p ≤ l.count x) : ∀ i, k < i + p → i ≤ k → kn l i = x := by
  intro i hi hik
  by_contra hne
  have hkl := hk.1
  have hlt : kn l i < x := lt_of_le_of_ne ((kn_mono hs hik (by omega)).trans hk.2.1) hne
  have hgt : x < kn l (k + 1) := by
    rcases hk.2.2 with h | h
    · exact h
    · exact absurd h.1 h1.ne
  have := count_le_of_gap (l := l) (x := x) (a := i + 1) (b := k + 1)
    (fun j hj hja => (lt_of_le_of_lt (kn_mono hs (by omega) (by omega)) hlt).ne)
    (fun j hj hjb => (lt_of_lt_of_le hgt (kn_mono hs hjb hj)).ne') (by omega)
  omega

theorem span_le {l : List K} (hs : l.Pairwise (· ≤ ·)) {x y : K} {j k : ℕ} (hj : IsSpan l x j) (hk : IsSpan l y k) (h : x < y)  :
    j ≤ k := by
  by_contra hn
  push Not at hn
  have h1 : kn l (k + 1) ≤ kn l j := kn_mono hs (by omega) (by have := hj.1; omega)
  have h2 := hj.2.1
  rcases hk.2.2 with h3 | ⟨h3, _, h4⟩
  · linarith
  · linarith

/-- The control point the curve passes through at `x`, if `x` is an end or a knot of multiplicity `p`. -/
theorem evaluate_at_block {p : ℕ} {c : Curve K} (hw : WFCurve p c) {x : K} (h0 : 0 ≤ x) (h1 : x ≤ 1)
    (hx : 0 < x → x < 1 → p ≤ c.Knots.Values.count x) {k : ℕ} (hk : IsSpan c.Knots.Values x k) :
    c.Evaluate x = .ok (proj (hpts c.ControlPoints (if x < 1 then k - p else k))) := by
  obtain ⟨hpk, hl, hr, _, e⟩ := evaluate_seg hw h0 h1 hk
  rw [e]
  congr 2
  by_cases hlt : x < 1
  · rw [if_pos hlt]
    apply seg_left _ _ _ _ hpk hr
    rcases h0.lt_or_eq with h | h
    · exact block_of_count hw.clamped.sorted hk hlt (hx h hlt)
    · intro i hi hik
      have h3 := (kn_mono hw.clamped.sorted hik (by omega)).trans hk.2.1
      have h4 := kn_mono hw.clamped.sorted (Nat.zero_le i) (by omega)
      rw [hw.clamped.zeros 0 (by omega)] at h4
      rw [← h] at h3 ⊢
      exact le_antisymm h3 h4
  · obtain rfl : x = 1 := le_antisymm h1 (not_lt.mp hlt)
    rw [if_neg hlt]
    apply seg_right _ _ _ _ hpk hr
    intro i hi hik
    have hone : kn c.Knots.Values (k + 1) = 1 := by
      rcases hk.2.2 with h | h
      · exact absurd (hw.clamped.le_one (by omega)) (not_le.mpr h)
      · exact h.2.2
    exact le_antisymm (hw.clamped.le_one (by omega)) (hone ▸ kn_mono hw.clamped.sorted (by omega) (by omega))

theorem planeForm_proj (a : Vec3 K) (b : K) {v : Vec4 K} (h : 0 < v.w) :
    planeForm a b v = v.w * (form a (proj v).x (proj v).y (proj v).z - b) := by
  have h' := h.ne'
  simp only [planeForm, form, proj, LinearMap.coe_mk, AddHom.coe_mk]
  field_simp

/-- Points of the curve on alternating sides of a plane give control points on alternating sides. -/
theorem alt_curve {p : ℕ} {c : Curve K} (hw : WFCurve p c) (a : Vec3 K) (b : K) {n : ℕ} (x : ℕ → K) (C : ℕ → Vec3 K)
    (hx : ∀ j ≤ n, 0 ≤ x j ∧ x j ≤ 1) (hlt : ∀ j < n, x j < x (j + 1)) (he : ∀ j ≤ n, c.Evaluate (x j) = .ok (C j))
    (hσ : ∀ j < n, (form a (C j).x (C j).y (C j).z - b) * (form a (C (j + 1)).x (C (j + 1)).y (C (j + 1)).z - b) < 0)
    (hne : ∀ j ≤ n, form a (C j).x (C j).y (C j).z - b ≠ 0) :
    Alt c.ControlPoints.length (fun j => form a (C j).x (C j).y (C j).z - b) (fun i => planeForm a b (hpts c.ControlPoints i)) n := by
  set ins := ((List.range (n + 1)).map x).filter (fun v => decide (0 < v ∧ v < 1)) with hins
  set vs := ins.flatMap (fun v => List.replicate p v) with hvs
  have hv : ∀ v ∈ vs, 0 < v ∧ v < 1 := by
    intro v hv
    rw [hvs, List.mem_flatMap] at hv
    obtain ⟨w, hw, hr⟩ := hv
    obtain rfl := List.eq_of_mem_replicate hr
    rw [hins, List.mem_filter] at hw
    simpa using hw.2
  obtain ⟨c', e, hw', hperm, hsame⟩ := insertList_spec vs hv hw
  refine alt_insertList vs hv hw e _ hσ ?_
  have hev : ∀ j ≤ n, c'.Evaluate (x j) = .ok (C j) := fun j hj => by
    rw [hsame.evaluate hw hw' (hx j hj).1 (hx j hj).2, he j hj]
  have hcount : ∀ j ≤ n, 0 < x j → x j < 1 → p ≤ c'.Knots.Values.count (x j) := by
    intro j hj h0 h1
    rw [hperm.count_eq, List.count_append]
    have hm : x j ∈ ins := by
      rw [hins, List.mem_filter]
      exact ⟨List.mem_map.mpr ⟨j, List.mem_range.mpr (by omega), rfl⟩, by simp [h0, h1]⟩
    obtain ⟨s, t, hst⟩ := List.append_of_mem hm
    have : p ≤ vs.count (x j) := by
      rw [hvs, hst, List.flatMap_append, List.flatMap_cons, List.count_append, List.count_append, List.count_replicate_self]
      omega
    omega
  have hspan : ∀ j, ∃ k, j ≤ n → IsSpan c'.Knots.Values (x j) k ∧ p ≤ k ∧ k + p + 2 ≤ c'.Knots.Values.length := by
    intro j
    by_cases hj : j ≤ n
    · obtain ⟨k, hk⟩ := exists_span hw'.clamped (hx j hj).1 (hx j hj).2
      exact ⟨k, fun _ => hk⟩
    · exact ⟨0, fun h => absurd h hj⟩
  choose k hk using hspan
  have hcnt := hw'.count
  refine ⟨fun j => if x j < 1 then k j - p else k j, fun j hj => ?_, fun j hj => ?_⟩
  · have h1 := span_le hw'.clamped.sorted (hk j hj.le).1 (hk (j + 1) hj).1 (hlt j hj)
    have h2 : x j < 1 := lt_of_lt_of_le (hlt j hj) (hx (j + 1) hj).2
    simp only [if_pos h2]
    split_ifs <;> omega
  · obtain ⟨hs, hpk, hlk⟩ := hk j hj
    have hb := evaluate_at_block hw' (hx j hj).1 (hx j hj).2 (hcount j hj) hs
    rw [hev j hj] at hb
    have hC := Except.ok.inj hb
    have hin : (if x j < 1 then k j - p else k j) < c'.ControlPoints.length := by split_ifs <;> omega
    refine ⟨hin, ?_⟩
    have hwt : 0 < (hpts c'.ControlPoints (if x j < 1 then k j - p else k j)).w := hw'.weights _ hin
    simp only
    rw [planeForm_proj a b hwt, ← hC, mul_left_comm]
    exact mul_pos hwt (mul_self_pos.mpr (hne j hj))

end Nurbs
