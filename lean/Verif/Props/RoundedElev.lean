import Mathlib.Data.Nat.Choose.Vandermonde
import Verif.Proof.RoundedElev
import Verif.Props.Hull
import Verif.Props.Elevate
import Verif.Props.RoundedInsert

/-! # C95: degree elevation of Bezier curves with rounding -/

set_option linter.unusedSectionVars false

namespace Nurbs
open Nurbs.Spec DegreeAlgo

section generic
variable {K : Type} [Zero K] [One K] [Add K] [Sub K] [Mul K] [Div K] [Neg K] [NatCast K] [IntCast K] [LinearOrder K]

theorem bez_knots {p : ℕ} {l : List K} (hc : Clamped p l) (hl : l.length = 2 * p + 2) :
    l = List.replicate (p + 1) (0 : K) ++ List.replicate (p + 1) 1 := by
  apply List.ext_getElem
  · simp [hl]; omega
  · intro i h1 h2
    have e : l[i] = kn l i := by simp [kn, h1]
    rw [e, List.getElem_append]
    by_cases h : i < p + 1
    · rw [hc.zeros i (by omega)]
      simp [h]
    · rw [hc.ones i h1 (by omega)]
      simp [h]

theorem points_tab (l : List (Vec4 K)) : l = tab l.length (pt l) := by
  apply List.ext_getElem
  · simp
  · intro i h1 h2
    rw [tab_getElem]
    simp [pt, h1]

theorem elevateDegree_bez [ZeroLEOneClass K] [NeZero (1 : K)] {p t : ℕ} (hp : 1 ≤ p) (ht : 1 ≤ t) (h29 : p + t ≤ 29) (hA : Approx (1 : K) 1 eps6 = true)
    (hne : ∀ i, 1 ≤ i → i ≤ (p + t) / 2 → (((p + t).choose i : Int) : K) ≠ 0) {c : Curve K} (hd : c.Degree = p)
    (hc : Clamped p c.Knots.Values) (hl : c.Knots.Values.length = 2 * p + 2) (hn : c.ControlPoints.length = p + 1)
    (hE : ∀ i ≤ p + t, (elevH p t (pt c.ControlPoints) i).w ≠ 0) :
    c.ElevateDegree t = .ok (elevBez p t (pt c.ControlPoints)) := by
  unfold Curve.ElevateDegree
  have e1 : c.Knots = ⟨List.replicate (p + 1) (0 : K) ++ List.replicate (p + 1) 1⟩ := by
    rw [← bez_knots hc hl]
  have e2 := points_tab c.ControlPoints
  rw [hn] at e2
  rw [massert_true (by omega), bind_ok, hd, e1]
  conv_lhs => rw [e2]
  rw [nde_bezier_any hp ht h29 hA hne (pt c.ControlPoints) (by have := hE 0 (by omega); simpa [elevH] using this)
    (fun i h1 h2 => by have := hE i h2; unfold elevH at this; rwa [if_neg (by omega)] at this), bind_ok]
  rfl

end generic

end Nurbs

namespace Nurbs.Props
open Nurbs Nurbs.Spec

variable {K : Type} [Field K] [LinearOrder K] [IsStrictOrderedRing K] {R : Rounding K}

theorem choose_cast_ne {p t : ℕ} : ∀ i, 1 ≤ i → i ≤ (p + t) / 2 → (((p + t).choose i : Int) : K) ≠ 0 := by
  intro i h1 h2
  push_cast
  exact_mod_cast (Nat.choose_pos (show i ≤ p + t by omega)).ne'

theorem bezG_exact {p t : ℕ} (ht : 1 ≤ t) (h29 : p + t ≤ 29) {i j : ℕ} (hi : i ≤ p + t) (hj : j ≤ p) :
    bezG K p t i j = bezCoef K p t i j := by
  have h := (makeBezalfs_any (K := K) ht h29 choose_cast_ne).symm.trans (makeBezalfs_ok ht h29)
  exact tab_inj' (tab_inj' (Except.ok.inj h) (show i < p + t + 1 by omega)) (show j < p + 1 by omega)

theorem bezCoef_nonneg (p t i j : ℕ) : 0 ≤ bezCoef K p t i j := by
  unfold bezCoef
  split_ifs
  · positivity
  · exact le_rfl

/-- The coefficients of one new point sum to one. -/
theorem bezG_sum {p t : ℕ} (ht : 1 ≤ t) (h29 : p + t ≤ 29) {i : ℕ} (hi : i ≤ p + t) :
    ∑ y ∈ Finset.range (min p i + 1 - (i - t)), bezG K p t i (i - t + y) = 1 := by
  have e1 : ∑ y ∈ Finset.range (min p i + 1 - (i - t)), bezG K p t i (i - t + y) =
      ∑ j ∈ Finset.Ico (i - t) (min p i + 1), bezCoef K p t i j := by
    rw [Finset.sum_Ico_eq_sum_range]
    apply Finset.sum_congr rfl
    intro y hy
    exact bezG_exact ht h29 hi (by have := Finset.mem_range.mp hy; omega)
  have e2 : ∑ j ∈ Finset.Ico (i - t) (min p i + 1), bezCoef K p t i j = ∑ j ∈ Finset.range (i + 1), bezCoef K p t i j := by
    apply Finset.sum_subset
    · intro j hj
      rw [Finset.mem_Ico] at hj
      rw [Finset.mem_range]
      omega
    · intro j hj hj'
      rw [Finset.mem_Ico] at hj'
      rw [Finset.mem_range] at hj
      exact bezCoef_out (by omega)
  have hC : (((p + t).choose i : ℕ) : K) ≠ 0 := Nat.cast_ne_zero.mpr (Nat.choose_pos hi).ne'
  have e3 : ∑ j ∈ Finset.range (i + 1), bezCoef K p t i j = (∑ j ∈ Finset.range (i + 1), (p.choose j : K) * (t.choose (i - j) : K)) / ((p + t).choose i : K) := by
    rw [Finset.sum_div]
    apply Finset.sum_congr rfl
    intro j hj
    rw [Finset.mem_range] at hj
    unfold bezCoef
    rw [if_pos (by omega)]
  have e4 : (∑ j ∈ Finset.range (i + 1), (p.choose j : K) * (t.choose (i - j) : K)) = ((p + t).choose i : K) := by
    rw [Nat.add_choose_eq, Finset.Nat.sum_antidiagonal_eq_sum_range_succ (fun a b => p.choose a * t.choose b)]
    push_cast
    rfl
  rw [e1, e2, e3, e4, div_self hC]

theorem elevH_weight {p t : ℕ} (ht : 1 ≤ t) (h29 : p + t ≤ 29) {P : ℕ → Vec4 K} {lo hi : K} (hb : ∀ j ≤ p, lo ≤ (P j).w ∧ (P j).w ≤ hi)
    {i : ℕ} (hi' : i ≤ p + t) : lo ≤ (elevH p t P i).w ∧ (elevH p t P i).w ≤ hi := by
  unfold elevH
  by_cases h : i = 0
  · rw [if_pos h]; exact hb 0 (by omega)
  · rw [if_neg h]
    unfold elevG
    rw [accG_sum (·.w) rfl (fun _ _ => rfl) (fun _ _ => rfl)]
    have hs := bezG_sum (K := K) ht h29 hi'
    have h0 : ∀ y ∈ Finset.range (min p i + 1 - (i - t)), 0 ≤ bezG K p t i (i - t + y) := by
      intro y hy
      rw [bezG_exact ht h29 hi' (by have := Finset.mem_range.mp hy; omega)]
      exact bezCoef_nonneg _ _ _ _
    constructor
    · calc lo = ∑ y ∈ Finset.range (min p i + 1 - (i - t)), bezG K p t i (i - t + y) * lo := by rw [← Finset.sum_mul, hs, one_mul]
        _ ≤ _ := Finset.sum_le_sum fun y hy => mul_le_mul_of_nonneg_left (hb _ (by have := Finset.mem_range.mp hy; omega)).1 (h0 y hy)
    · calc _ ≤ ∑ y ∈ Finset.range (min p i + 1 - (i - t)), bezG K p t i (i - t + y) * hi :=
          Finset.sum_le_sum fun y hy => mul_le_mul_of_nonneg_left (hb _ (by have := Finset.mem_range.mp hy; omega)).2 (h0 y hy)
        _ = hi := by rw [← Finset.sum_mul, hs, one_mul]

/-- The exact elevated Bezier curve: same points. -/
theorem elevBez_exact {p t : ℕ} (hp : 1 ≤ p) (ht : 1 ≤ t) (h29 : p + t ≤ 29) {c : Curve K} (hw : WFCurve p c)
    (hone : c.ControlPoints.length = p + 1) {lo hi : K} (hlo : 0 < lo)
    (hb : ∀ i ≤ p, lo ≤ (pt c.ControlPoints i).w ∧ (pt c.ControlPoints i).w ≤ hi) :
    c.ElevateDegree t = .ok (elevBez p t (pt c.ControlPoints)) ∧ WFCurve (p + t) (elevBez p t (pt c.ControlPoints)) ∧ (∀ x, (elevBez p t (pt c.ControlPoints)).Evaluate x = c.Evaluate x) := by
  have hl : c.Knots.Values.length = 2 * p + 2 := by have := hw.count; omega
  have e := elevateDegree_bez hp ht h29 approx_one_exact choose_cast_ne hw.degree hw.clamped hl hone
    (fun i hi' => (lt_of_lt_of_le hlo (elevH_weight ht h29 hb hi').1).ne')
  obtain ⟨c', e1, e2, _, _, e5⟩ := C36_segment_partial hw hp ht h29 hone
  obtain rfl := Except.ok.inj (e1.symm.trans e)
  exact ⟨e, e2, e5⟩

theorem rel_of_div {w : K} (hw : 0 < w) (a : K) : |w * R.rnd (a / w) - a| ≤ R.u * |a| := by
  have h := R.rel (a / w)
  have e : w * R.rnd (a / w) - a = w * (R.rnd (a / w) - a / w) := by field_simp
  rw [e, abs_mul, abs_of_pos hw]
  refine le_trans (mul_le_mul_of_nonneg_left h hw.le) (le_of_eq ?_)
  rw [abs_div, abs_of_pos hw]
  field_simp

theorem elev_final {lo hi B : K} (hq : 0 < R.q) (hq1 : R.q ≤ 1) (hlo : 0 < lo) (hhi : 0 < hi) (hB : 0 ≤ B) (p : ℕ) :
    (((R.q ^ (p + 10))⁻¹ - 1) * (B * hi) + B * (((R.q ^ (p + 8))⁻¹ - 1) * hi)) / (R.q ^ (p + 8) * lo) ≤
      2 * errFactor R (2 * p + 18) * (hi / lo) * B := by
  have hm : 0 < R.q ^ (p + 8) * lo := mul_pos (pow_pos hq _) hlo
  have h8 := pow_pos hq (p + 8)
  have l8 : R.q ^ (p + 8) ≤ 1 := pow_le_one₀ hq.le hq1
  rw [div_le_iff₀ hm]
  have e : 2 * errFactor R (2 * p + 18) * (hi / lo) * B * (R.q ^ (p + 8) * lo) = 2 * hi * B * (errFactor R (2 * p + 18) * R.q ^ (p + 8)) := by
    field_simp
  have e2 : errFactor R (2 * p + 18) * R.q ^ (p + 8) = (R.q ^ (p + 10))⁻¹ - R.q ^ (p + 8) := by
    change ((R.q ^ (2 * p + 18))⁻¹ - 1) * R.q ^ (p + 8) = _
    rw [show 2 * p + 18 = (p + 10) + (p + 8) by ring, pow_add]
    field_simp
  have h10 : (R.q ^ (p + 8))⁻¹ ≤ (R.q ^ (p + 10))⁻¹ := pow_inv_mono hq hq1 (by omega)
  rw [e, e2]
  have hh : 0 ≤ hi * B := mul_nonneg hhi.le hB
  nlinarith

/-- What rounding does to the elevated control points of one row. -/
theorem elev_keys {p t : ℕ} (ht : 1 ≤ t) (h29 : p + t ≤ 29) {P : ℕ → Vec4 (Fl R)} {lo hi B : K} (hlo : 0 < lo) (hwn : ∀ j, 0 ≤ (P j).w.val)
    (hb : ∀ j ≤ p, lo ≤ (P j).w.val ∧ (P j).w.val ≤ hi) {f : Vec4 K → K} {g : Vec4 (Fl R) → Fl R} (hfg : CoordR f g)
    (hB : ∀ j ≤ p, |(g (P j)).val| ≤ B) {i : ℕ} (hi' : i ≤ p + t) :
    |(exactPoint (unhomo (elevH p t P i))).w * f (exactPoint (unhomo (elevH p t P i))) -
      (unhomo (elevH p t (fun j => exactPoint (P j)) i)).w * f (unhomo (elevH p t (fun j => exactPoint (P j)) i))| ≤
        ((R.q ^ (p + 10))⁻¹ - 1) * (B * hi) ∧
    |f (unhomo (elevH p t (fun j => exactPoint (P j)) i))| ≤ B := by
  have hq := R.q_pos
  have hW := elevH_weight ht h29 (P := fun j => exactPoint (P j)) hb hi'
  have hn := elevH_weight_near (p := p) (t := t) hwn hi'
  have hpos : 0 < (elevH p t P i).w.val := hn.pos hq (lt_of_lt_of_le hlo hW.1)
  have hcl := elevH_coord_close (t := t) hwn hfg hi' hB
  have hBn : 0 ≤ B := le_trans (abs_nonneg _) (hB 0 (by omega))
  have g10 : 0 ≤ (R.q ^ (p + 10))⁻¹ - 1 := by have := one_le_pow_inv hq R.q_le (p + 10); linarith
  have hw0 := lt_of_lt_of_le hlo hW.1
  refine ⟨?_, ?_⟩
  · rw [hfg.ex, hfg.unR, hfg.un]
    have e : (unhomo (elevH p t (fun j => exactPoint (P j)) i)).w * (f (elevH p t (fun j => exactPoint (P j)) i) /
        (elevH p t (fun j => exactPoint (P j)) i).w) = f (elevH p t (fun j => exactPoint (P j)) i) :=
      mul_div_cancel₀ _ hw0.ne'
    rw [e]
    have hr : |(exactPoint (unhomo (elevH p t P i))).w * (g (elevH p t P i) / (elevH p t P i).w).val - (g (elevH p t P i)).val| ≤
        R.u * |(g (elevH p t P i)).val| := rel_of_div hpos _
    exact le_trans (hcl.rel hr).2 (mul_le_mul_of_nonneg_left (mul_le_mul_of_nonneg_left hW.2 hBn) g10)
  · rw [hfg.un, abs_div, abs_of_pos hw0, div_le_iff₀ hw0]
    exact hcl.1

/-- The weights. -/
theorem elev_weight_keys {p t : ℕ} (ht : 1 ≤ t) (h29 : p + t ≤ 29) {P : ℕ → Vec4 (Fl R)} {lo hi : K} (hlo : 0 < lo) (hwn : ∀ j, 0 ≤ (P j).w.val)
    (hb : ∀ j ≤ p, lo ≤ (P j).w.val ∧ (P j).w.val ≤ hi) {i : ℕ} (hi' : i ≤ p + t) :
    0 < (elevH p t P i).w.val ∧
    |(exactPoint (unhomo (elevH p t P i))).w - (unhomo (elevH p t (fun j => exactPoint (P j)) i)).w| ≤ ((R.q ^ (p + 8))⁻¹ - 1) * hi ∧
    R.q ^ (p + 8) * lo ≤ (exactPoint (unhomo (elevH p t P i))).w := by
  have hq := R.q_pos
  have hW := elevH_weight ht h29 (P := fun j => exactPoint (P j)) hb hi'
  have hn := elevH_weight_near (p := p) (t := t) hwn hi'
  have g8 : 0 ≤ (R.q ^ (p + 8))⁻¹ - 1 := by have := one_le_pow_inv hq R.q_le (p + 8); linarith
  exact ⟨hn.pos hq (lt_of_lt_of_le hlo hW.1), le_trans (hn.abs_sub_le hq) (mul_le_mul_of_nonneg_left hW.2 g8),
    le_trans (mul_le_mul_of_nonneg_left hW.1 (pow_pos hq _).le) hn.2.2.1⟩

theorem choose_rounded_ne {p t : ℕ} : ∀ i, 1 ≤ i → i ≤ (p + t) / 2 → (((p + t).choose i : Int) : Fl R) ≠ 0 := by
  intro i h1 h2 h'
  have hc : (0 : K) < (((p + t).choose i : Int) : K) := by
    push_cast
    exact_mod_cast Nat.choose_pos (show i ≤ p + t by omega)
  have := (choose_near (R := R) (p + t) i).pos R.q_pos hc
  rw [h', Fl.val_zero] at this
  exact lt_irrefl _ this

/-- C95: with rounding, `ElevateDegree` of a curve with `p + 1` control points (a Bezier curve) returns a well-formed curve of degree
`p + t` with `p + t + 1` control points.  At every parameter the two curves (evaluated exactly) differ by at most
`2 ((1-u)^-(2p+18) - 1) (hi/lo) B` in every coordinate. -/
theorem C95_elevate_rounding {p t : ℕ} (hp : 1 ≤ p) (ht : 1 ≤ t) (h29 : p + t ≤ 29) {c : Curve (Fl R)} (hw : WFCurve p (exactCurve c))
    (hone : c.ControlPoints.length = p + 1) {lo hi B : K} (hlo : 0 < lo) (hb : CurveBounds (exactCurve c) lo hi B) :
    ∃ c', c.ElevateDegree t = .ok c' ∧ WFCurve (p + t) (exactCurve c') ∧ c'.ControlPoints.length = p + t + 1 ∧
      ∀ x, 0 ≤ x → x ≤ 1 → ∀ C D, (exactCurve c').Evaluate x = .ok C → (exactCurve c).Evaluate x = .ok D →
        |C.x - D.x| ≤ 2 * errFactor R (2 * p + 18) * (hi / lo) * B ∧ |C.y - D.y| ≤ 2 * errFactor R (2 * p + 18) * (hi / lo) * B ∧
        |C.z - D.z| ≤ 2 * errFactor R (2 * p + 18) * (hi / lo) * B := by
  have hq := R.q_pos
  set P := pt c.ControlPoints with hP
  have hpt : ∀ j, pt (exactCurve c).ControlPoints j = exactPoint (P j) := fun j => (exactPoint_pt c.ControlPoints j).symm
  have hlen : (exactCurve c).ControlPoints.length = p + 1 := by simpa [exactCurve] using hone
  have hb' : ∀ j ≤ p, lo ≤ (P j).w.val ∧ (P j).w.val ≤ hi ∧ |(P j).x.val| ≤ B ∧ |(P j).y.val| ≤ B ∧ |(P j).z.val| ≤ B := by
    intro j hj
    have := hb j (by omega)
    rwa [hpt j] at this
  have hwn : ∀ j, 0 ≤ (P j).w.val := by
    intro j
    by_cases h : j ≤ p
    · exact le_trans hlo.le (hb' j h).1
    · have : P j = 0 := by simp [hP, pt, show c.ControlPoints.length ≤ j by omega]; rfl
      rw [this]
      exact (Fl.val_zero (R := R)).ge
  have hQ : (fun j => exactPoint (P j)) = pt (exactCurve c).ControlPoints := funext fun j => (hpt j).symm
  have hbw : ∀ j ≤ p, lo ≤ (pt (exactCurve c).ControlPoints j).w ∧ (pt (exactCurve c).ControlPoints j).w ≤ hi := by
    intro j hj
    rw [hpt]
    exact ⟨(hb' j hj).1, (hb' j hj).2.1⟩
  obtain ⟨-, x2, x3⟩ := elevBez_exact hp ht h29 hw hlen hlo hbw
  have hK := fun i (h : i ≤ p + t) => elev_weight_keys ht h29 hlo hwn (fun j hj => ⟨(hb' j hj).1, (hb' j hj).2.1⟩) h
  rw [hQ] at hK
  have hcl : Clamped p c.Knots.Values := clamped_exact.mp hw.clamped
  have hl : c.Knots.Values.length = 2 * p + 2 := by
    have := hw.count
    have e : (exactCurve c).Knots.Values.length = c.Knots.Values.length := by simp [exactCurve, exactList]
    omega
  have lA : (exactCurve (elevBez p t P)).ControlPoints.length = p + t + 1 := by simp [exactCurve, elevBez]
  have lB : (elevBez p t (pt (exactCurve c).ControlPoints)).ControlPoints.length = p + t + 1 := by simp [elevBez]
  have pA : ∀ i ≤ p + t, pt (exactCurve (elevBez p t P)).ControlPoints i = exactPoint (unhomo (elevH p t P i)) := by
    intro i h
    simp [pt, exactCurve, elevBez, tab, show i < p + t + 1 by omega]
  have pB : ∀ i ≤ p + t, pt (elevBez p t (pt (exactCurve c).ControlPoints)).ControlPoints i =
      unhomo (elevH p t (pt (exactCurve c).ControlPoints) i) := by
    intro i h
    simp [pt, elevBez, tab, show i < p + t + 1 by omega]
  have wfr : WFCurve (p + t) (exactCurve (elevBez p t P)) := by
    refine ⟨by simp [exactCurve, elevBez], ?_, ?_, ?_⟩
    · have := bez_clamped (K := K) (p + t)
      simpa [exactCurve, elevBez, exactList, Fl.val_zero, Fl.val_one] using this
    · simp [exactCurve, elevBez, exactList]; omega
    · intro i hi'
      rw [lA] at hi'
      rw [pA i (by omega)]
      exact (hK i (by omega)).1
  refine ⟨elevBez p t P, elevateDegree_bez hp ht h29 approx_one_rounded choose_rounded_ne hw.degree hcl hl hone ?_, ?_, by simp [elevBez], ?_⟩
  · intro i h h'
    have := (hK i h).1
    rw [h', Fl.val_zero] at this
    exact lt_irrefl _ this
  · exact wfr
  intro x h0 h1 C D hC hD
  rw [← x3 x, (C23_evaluate x2 h0 h1).1] at hD
  rw [(C23_evaluate wfr h0 h1).1] at hC
  rw [← Except.ok.inj hC, ← Except.ok.inj hD]
  have fin : ∀ (f : Vec4 K → K) (g : Vec4 (Fl R) → Fl R), CoordR f g → (∀ j ≤ p, |(g (P j)).val| ≤ B) →
      |wsum (p + t) (exactCurve (elevBez p t P)) x f / wsum (p + t) (exactCurve (elevBez p t P)) x (fun _ => 1) -
        wsum (p + t) (elevBez p t (pt (exactCurve c).ControlPoints)) x f /
          wsum (p + t) (elevBez p t (pt (exactCurve c).ControlPoints)) x (fun _ => 1)| ≤ 2 * errFactor R (2 * p + 18) * (hi / lo) * B := by
    intro f g hfg hB
    have hF := fun i (h : i ≤ p + t) => elev_keys ht h29 hlo hwn (fun j hj => ⟨(hb' j hj).1, (hb' j hj).2.1⟩) hfg hB h
    rw [hQ] at hF
    have hBn : 0 ≤ B := le_trans (abs_nonneg _) (hB 0 (by omega))
    have hhi : 0 < hi := lt_of_lt_of_le hlo (le_trans (hb' 0 (by omega)).1 (hb' 0 (by omega)).2.1)
    have key := wsum_perturb wfr x2 (by simp [exactCurve, elevBez, exactList, Fl.val_zero, Fl.val_one]) (lA.trans lB.symm) f
      (D := ((R.q ^ (p + 10))⁻¹ - 1) * (B * hi)) (D' := ((R.q ^ (p + 8))⁻¹ - 1) * hi) (M := B) (mul_pos (pow_pos hq (p + 8)) hlo) ?_ ?_ ?_ ?_ h0 h1
    · exact le_trans key (elev_final hq R.q_le hlo hhi hBn p)
    all_goals
      intro i hi'
      rw [lB] at hi'
      have hi'' : i ≤ p + t := by omega
    · rw [pA i hi'', pB i hi'']
      exact (hF i hi'').1
    · rw [pA i hi'', pB i hi'']
      exact (hK i hi'').2.1
    · rw [pB i hi'']
      exact (hF i hi'').2
    · rw [pA i hi'']
      exact (hK i hi'').2.2
  exact ⟨fin _ _ coordR_x fun j hj => (hb' j hj).2.2.1, fin _ _ coordR_y fun j hj => (hb' j hj).2.2.2.1,
    fin _ _ coordR_z fun j hj => (hb' j hj).2.2.2.2⟩

/-- C95 for `double` and equal weights. -/
theorem C95_double {p t : ℕ} (hp : 1 ≤ p) (ht : 1 ≤ t) (h29 : p + t ≤ 29) {c : Curve (Fl binary53)} (hw : WFCurve p (exactCurve c))
    (hone : c.ControlPoints.length = p + 1) {w B : ℚ} (hlo : 0 < w) (hb : CurveBounds (exactCurve c) w w B) :
    ∃ c', c.ElevateDegree t = .ok c' ∧ ∀ x, 0 ≤ x → x ≤ 1 → ∀ C D, (exactCurve c').Evaluate x = .ok C → (exactCurve c).Evaluate x = .ok D →
      |C.x - D.x| ≤ 45 / 10 ^ 17 * (p + 9) * B ∧ |C.y - D.y| ≤ 45 / 10 ^ 17 * (p + 9) * B ∧ |C.z - D.z| ≤ 45 / 10 ^ 17 * (p + 9) * B := by
  obtain ⟨c', h1, -, -, h⟩ := C95_elevate_rounding hp ht h29 hw hone hlo hb
  refine ⟨c', h1, fun x h0 h1 C D hC hD => ?_⟩
  have hl : 0 < (exactCurve c).ControlPoints.length := by
    have := hw.count
    have := hw.clamped.len
    omega
  have hB : 0 ≤ B := le_trans (abs_nonneg _) (hb 0 hl).2.2.1
  have hu : binary53.u = 1 / 2 ^ 53 := rfl
  have hle : 2 * errFactor binary53 (2 * p + 18) * (w / w) * B ≤ 45 / 10 ^ 17 * (p + 9) * B := by
    rw [div_self hlo.ne', mul_one]
    refine mul_le_mul_of_nonneg_right ?_ hB
    have hp28 : (p : ℚ) ≤ 28 := by exact_mod_cast (show p ≤ 28 by omega)
    have hp0 : (0 : ℚ) ≤ p := by positivity
    have hs : ((2 * p + 18 : ℕ) : ℚ) * binary53.u ≤ 1 / 10 ^ 8 := by
      rw [hu]; push_cast; linarith
    have := errFactor_le binary53 (2 * p + 18) (lt_of_le_of_lt hs (by norm_num))
    have h2 : ((2 * p + 18 : ℕ) : ℚ) * binary53.u / (1 - ((2 * p + 18 : ℕ) : ℚ) * binary53.u) ≤ ((2 * p + 18 : ℕ) : ℚ) * binary53.u / (1 - 1 / 10 ^ 8) := by
      apply div_le_div_of_nonneg_left
      · rw [hu]; positivity
      · norm_num
      · linarith
    rw [hu] at this h2
    push_cast at this h2
    rw [le_div_iff₀ (by norm_num)] at h2
    nlinarith
  obtain ⟨a1, a2, a3⟩ := h x h0 h1 C D hC hD
  exact ⟨a1.trans hle, a2.trans hle, a3.trans hle⟩

/-- A rational quadratic arc with coordinates that are not representable exactly. -/
def arc : Curve (Fl binary53) :=
  ⟨2, ⟨[0, 0, 0, 1, 1, 1]⟩, [⟨dbl 1, dbl 0, dbl (1/3), dbl 1⟩, ⟨dbl 1, dbl 1, dbl (1/7), dbl (7/10)⟩, ⟨dbl 0, dbl 1, dbl 0, dbl 1⟩]⟩

/-- `arc` meets the hypotheses, and its elevation really rounds. -/
example : WFCurve 2 (exactCurve arc) ∧ arc.ControlPoints.length = 3 ∧ CurveBounds (exactCurve arc) (1/2) 1 1 :=
  ⟨⟨by decide +kernel, ⟨by decide +kernel, by decide +kernel, by decide +kernel, by decide +kernel, by decide +kernel, by decide +kernel⟩,
    by decide +kernel, by decide +kernel⟩, by decide +kernel, by unfold CurveBounds; decide +kernel⟩
example : ((arc.ElevateDegree 2).map exactCurve) ≠ (exactCurve arc).ElevateDegree 2 ∧
    ((arc.ElevateDegree 2).map fun c => c.ControlPoints.length) = .ok 5 := by decide +kernel

end Nurbs.Props
