import Verif.Proof.SerialFile

/-! # Text files of arbitrary finite numbers -/

set_option linter.unusedSectionVars false

namespace Nurbs
open Serial Utils

namespace Serial

/-- A mantissa that may have been rounded up to the next power of two. -/
theorem magUnits_round {k r : ℕ} (hr : r ≤ 2 ^ 53) (hk : k = 0 ∨ 2 ^ 52 ≤ r) : magUnits (k * 2 ^ 52 + r) = 2 ^ k * r := by
  rcases hr.lt_or_eq with h | h
  · have e : (k * 2 ^ 52 + r) / 2 ^ 52 - 1 = k := by norm_num at *; omega
    unfold magUnits
    rw [e, Nat.add_sub_cancel_left, mul_comm]
  · subst h
    have e : (k * 2 ^ 52 + 2 ^ 53) / 2 ^ 52 - 1 = k + 1 := by norm_num at *; omega
    have e' : k * 2 ^ 52 + 2 ^ 53 - (k + 1) * 2 ^ 52 = 2 ^ 52 := by norm_num at *; omega
    unfold magUnits
    rw [e, e', pow_succ]
    ring

/-- `strtod` rounds to nearest: half a unit in the last place of the result. -/
theorem nearest_err {P a b e : ℕ} (hb : 0 < b) (h : a * P < b * 2 ^ (e + 53)) :
    ∃ k, k ≤ e ∧ 2 * (b * magUnits (nearestBitsP P a b)) ≤ 2 * (a * P) + b * 2 ^ k ∧
      2 * (a * P) ≤ 2 * (b * magUnits (nearestBitsP P a b)) + b * 2 ^ k ∧
      nearestBitsP P a b ≤ e * 2 ^ 52 + 2 ^ 53 := by
  unfold nearestBitsP
  generalize a * P = A at *
  set k := Nat.log2 (A / b) - 52 with hkd
  have hbk : 0 < b * 2 ^ k := Nat.mul_pos hb (Nat.pow_pos two_pos)
  have hs : A / b < 2 ^ (e + 53) := by
    rw [Nat.div_lt_iff_lt_mul hb, mul_comm]; exact h
  have hke : k ≤ e := by
    by_cases h0 : A / b = 0
    · rw [hkd, h0]; simp
    · have := (Nat.log2_lt h0).2 hs
      omega
  have hup : A / b < 2 ^ (k + 53) := by
    by_cases h0 : A / b = 0
    · rw [h0]; exact Nat.pow_pos two_pos
    · exact (Nat.log2_lt h0).1 (by omega)
  have hlo : k = 0 ∨ 2 ^ (k + 52) ≤ A / b := by
    by_cases h0 : A / b = 0
    · left; rw [hkd, h0]; simp
    · by_cases hk : k = 0
      · exact .inl hk
      · right
        have := Nat.log2_self_le h0
        rwa [show k + 52 = Nat.log2 (A / b) by omega]
  clear_value k
  obtain ⟨c1, c2⟩ := roundHalfEven_close A (b * 2 ^ k) hbk
  set r := roundHalfEven A (b * 2 ^ k)
  clear_value r
  have hAu : A < b * 2 ^ k * 2 ^ 53 := by
    rw [Nat.div_lt_iff_lt_mul hb, pow_add] at hup
    calc A < _ := hup
      _ = _ := by ring
  have hr : r ≤ 2 ^ 53 := by
    by_contra hc
    have : b * 2 ^ k * (2 ^ 53 + 1) ≤ b * 2 ^ k * r := Nat.mul_le_mul_left _ (by omega)
    nlinarith
  have hr' : k = 0 ∨ 2 ^ 52 ≤ r := by
    refine hlo.imp_right fun hlo => ?_
    rw [Nat.le_div_iff_mul_le hb, pow_add] at hlo
    by_contra hc
    have : b * 2 ^ k * (r + 1) ≤ b * 2 ^ k * 2 ^ 52 := Nat.mul_le_mul_left _ (by omega)
    nlinarith
  rw [magUnits_round hr hr', ← mul_assoc b (2 ^ k) r]
  refine ⟨k, hke, c1, c2, ?_⟩
  exact Nat.add_le_add (Nat.mul_le_mul_right _ hke) hr

/-- The magnitude that is read from the 17 decimals of a magnitude. -/
def again (n : ℕ) : ℕ := nearestBits (roundHalfEven (magUnits n * 10 ^ 17) (2 ^ 1074)) (10 ^ 17)

theorem again_big {n : ℕ} (h : 2 ^ 1070 ≤ magUnits n) : again n = n := by
  obtain ⟨c1, c2⟩ := roundHalfEven_close (magUnits n * 10 ^ 17) (2 ^ 1074) (Nat.pow_pos two_pos)
  exact nearest_big n h c1 c2

/-- Below 1/16 the decimals come back although the number may not. -/
theorem again_small {n : ℕ} (h : magUnits n < 2 ^ 1070) :
    roundHalfEven (magUnits (again n) * 10 ^ 17) (2 ^ 1074) = roundHalfEven (magUnits n * 10 ^ 17) (2 ^ 1074) ∧
    magUnits (again n) * 10 ^ 17 ≤ magUnits n * 10 ^ 17 + 2 ^ 1074 ∧ magUnits n * 10 ^ 17 ≤ magUnits (again n) * 10 ^ 17 + 2 ^ 1074 ∧
    again n ≤ 1018 * 2 ^ 52 + 2 ^ 53 := by
  obtain ⟨c1, c2⟩ := roundHalfEven_close (magUnits n * 10 ^ 17) (2 ^ 1074) (Nat.pow_pos two_pos)
  unfold again
  rw [nearestBits_eq]
  set d := roundHalfEven (magUnits n * 10 ^ 17) (2 ^ 1074)
  clear_value d
  generalize magUnits n = v at *
  have e74 : (2 : ℕ) ^ 1074 = 2 ^ 58 * 2 ^ 1016 := by rw [← pow_add]
  have e70 : (2 : ℕ) ^ 1070 = 2 ^ 54 * 2 ^ 1016 := by rw [← pow_add]
  have hQ : 0 < (2 : ℕ) ^ 1016 := Nat.pow_pos two_pos
  have hd : d ≤ 6250000000000000 := by
    rw [e74] at c1
    rw [e70] at h
    clear c2
    generalize (2 : ℕ) ^ 1016 = Q at *
    norm_num at *
    by_contra hc
    have : 288230376151711744 * Q * 6250000000000001 ≤ 288230376151711744 * Q * d := Nat.mul_le_mul_left _ (by omega)
    generalize 288230376151711744 * Q * d = X at *
    omega
  rcases hd.lt_or_eq with hd | hd
  · obtain ⟨k, hk, b1, b2, b3⟩ := nearest_err (P := 2 ^ 1074) (a := d) (b := 10 ^ 17) (e := 1017) (by norm_num) (by
      have e : (2 : ℕ) ^ (1017 + 53) = 2 ^ 54 * 2 ^ 1016 := by rw [← pow_add]
      rw [e, e74]
      generalize (2 : ℕ) ^ 1016 = Q at *
      norm_num
      have : (d + 1) * (288230376151711744 * Q) ≤ 6250000000000000 * (288230376151711744 * Q) := Nat.mul_le_mul_right _ (by omega)
      rw [add_mul] at this
      generalize d * (288230376151711744 * Q) = X at *
      omega)
    have hkQ : (2 : ℕ) ^ k ≤ 2 * 2 ^ 1016 := by
      calc (2 : ℕ) ^ k ≤ 2 ^ 1017 := Nat.pow_le_pow_right two_pos hk
        _ = _ := by rw [← pow_succ']
    generalize nearestBitsP (2 ^ 1074) d (10 ^ 17) = n' at *
    generalize magUnits n' = v' at *
    generalize (2 : ℕ) ^ k = J at *
    rw [mul_comm d] at b1 b2
    generalize hX : 2 ^ 1074 * d = X at *
    rw [e74] at c1 c2 ⊢
    refine ⟨roundHalfEven_eq ?_ ?_, ?_, ?_, ?_⟩
    · rw [← e74, hX, e74]
      clear hX e74 e70
      generalize (2 : ℕ) ^ 1016 = Q at *
      norm_num at *
      omega
    · rw [← e74, hX, e74]
      clear hX e74 e70
      generalize (2 : ℕ) ^ 1016 = Q at *
      norm_num at *
      omega
    · clear hX e74 e70
      generalize (2 : ℕ) ^ 1016 = Q at *
      norm_num at *
      omega
    · clear hX e74 e70
      generalize (2 : ℕ) ^ 1016 = Q at *
      norm_num at *
      omega
    · norm_num at *
      omega
  · subst hd
    have hm : magUnits (1018 * 2 ^ 52 + 2 ^ 52) = 2 ^ 1070 := by
      rw [magUnits_round (by norm_num) (.inr le_rfl), ← pow_add]
    have hn : nearestBitsP (2 ^ 1074) 6250000000000000 (10 ^ 17) = 1018 * 2 ^ 52 + 2 ^ 52 := by
      refine nearest_exact _ (by norm_num) ?_
      rw [hm, e74, e70]
      generalize (2 : ℕ) ^ 1016 = Q
      norm_num
      omega
    rw [hn, hm]
    have e : (2 : ℕ) ^ 1070 * 10 ^ 17 = 6250000000000000 * 2 ^ 1074 := by
      rw [e74, e70]
      generalize (2 : ℕ) ^ 1016 = Q
      norm_num
      omega
    clear h e74 e70 hm hn hQ
    have hT : 0 < (2 : ℕ) ^ 1074 := Nat.pow_pos two_pos
    rw [e]
    clear e
    generalize (2 : ℕ) ^ 1074 = T at *
    rw [roundHalfEven_mul _ _ hT]
    rw [mul_comm T] at c1 c2
    refine ⟨rfl, ?_, ?_, by norm_num⟩
    · omega
    · omega

theorem again_lt {n : ℕ} (hn : n < 2047 * 2 ^ 52) : again n < 2047 * 2 ^ 52 := by
  rcases lt_or_ge (magUnits n) (2 ^ 1070) with h | h
  · refine lt_of_le_of_lt (again_small h).2.2.2 ?_
    norm_num only
  · rw [again_big h]
    exact hn

theorem again_text (n : ℕ) :
    roundHalfEven (magUnits (again n) * 10 ^ 17) (2 ^ 1074) = roundHalfEven (magUnits n * 10 ^ 17) (2 ^ 1074) := by
  rcases lt_or_ge (magUnits n) (2 ^ 1070) with h | h
  · exact (again_small h).1
  · rw [again_big h]

/-- The double read from the 17 decimals of a double. -/
def reread (x : F64) : F64 := BitVec.ofNat 64 (again (x.toNat % 2 ^ 63) + if 2 ^ 63 ≤ x.toNat then 2 ^ 63 else 0)

theorem reread_nat {x : F64} (h : Spec.FiniteF64 x) :
    (reread x).toNat % 2 ^ 63 = again (x.toNat % 2 ^ 63) ∧ (2 ^ 63 ≤ (reread x).toNat ↔ 2 ^ 63 ≤ x.toNat) := by
  have ha := again_lt ((finite_iff x).1 h)
  unfold reread
  rw [BitVec.toNat_ofNat]
  generalize again (x.toNat % 2 ^ 63) = a at *
  have hx := x.isLt
  by_cases hs : 2 ^ 63 ≤ x.toNat
  · rw [if_pos hs]
    norm_num at *
    omega
  · rw [if_neg hs]
    norm_num at *
    omega

theorem reread_finite {x : F64} (h : Spec.FiniteF64 x) : Spec.FiniteF64 (reread x) := by
  rw [finite_iff, (reread_nat h).1]
  exact again_lt ((finite_iff x).1 h)

theorem reread_readsBack {x : F64} (h : Spec.FiniteF64 x) : ReadsBack (reread x) := by
  refine ⟨reread_finite h, ?_⟩
  obtain ⟨h1, h2⟩ := reread_nat h
  rw [h1, again_text]
  unfold toDouble
  have e : nearestBits (roundHalfEven (magUnits (x.toNat % 2 ^ 63) * 10 ^ 17) (2 ^ 1074)) (10 ^ 17) = again (x.toNat % 2 ^ 63) := rfl
  simp only [e]
  rw [if_pos (again_lt ((finite_iff x).1 h))]
  simp only [not_lt, decide_eq_true_eq, h2]
  rfl

/-- The reread double has the same text. -/
theorem reread_text {x : F64} (h : Spec.FiniteF64 x) : fixedText (reread x) = fixedText x := by
  obtain ⟨h1, h2⟩ := reread_nat h
  rw [fixedText_eq h, fixedText_eq (reread_finite h), h1, again_text]
  congr 1
  have : (reread x).toNat < 2 ^ 63 ↔ x.toNat < 2 ^ 63 := by rw [← not_le, ← not_le, h2]
  simp only [this]

theorem reread_sign {x : F64} (h : Spec.FiniteF64 x) : Spec.signBit (reread x) = Spec.signBit x := by
  unfold Spec.signBit
  simp only [(reread_nat h).2]

theorem reread_eq_of {x : F64} (h : Spec.FiniteF64 x) (e : again (x.toNat % 2 ^ 63) = x.toNat % 2 ^ 63) : reread x = x := by
  obtain ⟨h1, h2⟩ := reread_nat h
  rw [e] at h1
  apply BitVec.eq_of_toNat_eq
  have hx := x.isLt
  have hy := (reread x).isLt
  generalize (reread x).toNat = b at *
  generalize x.toNat = a at *
  norm_num at *
  omega

theorem reread_survives {x : F64} (h : Spec.Survives x) : reread x = x := by
  have rb := read_back h
  unfold toDouble at rb
  simp only at rb
  have hlt := again_lt ((finite_iff x).1 h.1)
  unfold again at hlt
  rw [if_pos hlt, Option.some.injEq] at rb
  refine Eq.trans ?_ rb
  unfold reread again
  congr 2
  simp

theorem reread_close {x : F64} (h : Spec.FiniteF64 x) : |Spec.absF64 (reread x) - Spec.absF64 x| ≤ 1 / 10 ^ 17 := by
  rw [absF64_eq, absF64_eq, (reread_nat h).1]
  generalize x.toNat % 2 ^ 63 = n at *
  rcases lt_or_ge (magUnits n) (2 ^ 1070) with hs | hb
  · obtain ⟨-, h1, h2, -⟩ := again_small hs
    have hP : (0 : ℚ) < 2 ^ 1074 := pow_pos two_pos _
    have h1' : (magUnits (again n) : ℚ) * 10 ^ 17 ≤ magUnits n * 10 ^ 17 + 2 ^ 1074 := by exact_mod_cast h1
    have h2' : (magUnits n : ℚ) * 10 ^ 17 ≤ magUnits (again n) * 10 ^ 17 + 2 ^ 1074 := by exact_mod_cast h2
    clear h1 h2 hs
    generalize (2 : ℚ) ^ 1074 = P at *
    rw [← sub_div, abs_div, abs_of_pos hP, div_le_div_iff₀ hP (by norm_num), one_mul]
    generalize (magUnits (again n) : ℚ) = a at *
    generalize (magUnits n : ℚ) = b at *
    rcases abs_cases (a - b) with ⟨e, -⟩ | ⟨e, -⟩ <;> rw [e] <;> linarith
  · rw [again_big hb, sub_self, abs_zero]
    positivity

/-- point by point -/
def rereadPt (v : Vec4 F64) : Vec4 F64 := ⟨reread v.x, reread v.y, reread v.z, reread v.w⟩

theorem knotsText_reread : ∀ {l : List F64}, (∀ x ∈ l, Spec.FiniteF64 x) → knotsText (l.map reread) = knotsText l
  | [], _ => rfl
  | [x], h => reread_text (h x (by simp))
  | x :: y :: l, h => by
    have := knotsText_reread (l := y :: l) fun z hz => h z (List.mem_cons_of_mem _ hz)
    rw [List.map_cons] at this ⊢
    rw [List.map_cons]
    unfold knotsText
    rw [this, reread_text (h x (by simp))]

theorem vec4Text_reread {v : Vec4 F64} (h : Spec.PointFinite v) : vec4Text (rereadPt v) = vec4Text v := by
  unfold vec4Text rereadPt
  simp only [reread_text h.1, reread_text h.2.1, reread_text h.2.2.1, reread_text h.2.2.2]

theorem points_reread {suf : Bytes} {l : List (Vec4 F64)} (h : ∀ v ∈ l, Spec.PointFinite v) :
    ((l.map rereadPt).flatMap fun v => vec4Text v ++ suf) = l.flatMap fun v => vec4Text v ++ suf := by
  induction l with
  | nil => rfl
  | cons v l ih =>
    rw [List.map_cons, List.flatMap_cons, List.flatMap_cons, vec4Text_reread (h v (by simp)),
      ih fun w hw => h w (List.mem_cons_of_mem _ hw)]

theorem rereadPt_survives {v : Vec4 F64} (h : Spec.PointFinite v) : SurvivesPt (rereadPt v) :=
  ⟨reread_readsBack h.1, reread_readsBack h.2.1, reread_readsBack h.2.2.1, reread_readsBack h.2.2.2⟩

theorem reread_same {x : F64} (h : Spec.FiniteF64 x) : Spec.SameTo17 x (reread x) :=
  ⟨reread_finite h, reread_sign h, reread_close h, reread_survives⟩

theorem rereadPt_same {v : Vec4 F64} (h : Spec.PointFinite v) : Spec.PointSameTo17 v (rereadPt v) :=
  ⟨reread_same h.1, reread_same h.2.1, reread_same h.2.2.1, reread_same h.2.2.2⟩

theorem forall₂_map {α β : Type} {R : α → β → Prop} {f : α → β} : ∀ {l : List α}, (∀ x ∈ l, R x (f x)) → List.Forall₂ R l (l.map f)
  | [], _ => .nil
  | x :: _, h => .cons (h x (by simp)) (forall₂_map fun y hy => h y (List.mem_cons_of_mem _ hy))

end Serial

/-- The curve that is read from the text of a curve. -/
def Curve.reread (c : Curve F64) : Curve F64 :=
  ⟨c.Degree, ⟨c.Knots.Values.map Serial.reread⟩, c.ControlPoints.map Serial.rereadPt⟩

theorem Curve.reread_text {c : Curve F64} (h : Spec.FiniteCurve c) : curveText c.reread = curveText c := by
  unfold curveText Curve.reread
  simp only
  rw [knotsText_reread h.knots, points_reread h.points]

theorem Curve.reread_survives {c : Curve F64} (h : Spec.FiniteCurve c) : c.reread.Survives :=
  ⟨h.degree, fun x hx => by obtain ⟨y, hy, rfl⟩ := List.mem_map.1 hx; exact reread_readsBack (h.knots y hy),
    fun v hv => by obtain ⟨w, hw, rfl⟩ := List.mem_map.1 hv; exact rereadPt_survives (h.points w hw)⟩

/-- The surface that is read from the text of a surface. -/
def Surface.reread (s : Surface F64) : Surface F64 :=
  ⟨s.DegreeU, s.DegreeV, ⟨s.KnotsU.Values.map Serial.reread⟩, ⟨s.KnotsV.Values.map Serial.reread⟩,
    ⟨s.ControlPoints.UCount, s.ControlPoints.VCount, s.ControlPoints.Values.map Serial.rereadPt⟩⟩

theorem Surface.reread_survives {s : Surface F64} (h : Spec.FiniteSurface s) : s.reread.Survives :=
  ⟨h.degreeU, h.degreeV, fun x hx => by obtain ⟨y, hy, rfl⟩ := List.mem_map.1 hx; exact reread_readsBack (h.knotsU y hy),
    fun x hx => by obtain ⟨y, hy, rfl⟩ := List.mem_map.1 hx; exact reread_readsBack (h.knotsV y hy), h.uPos, h.vPos, h.count.2,
    (congrArg Nat.cast (List.length_map ..)).trans h.storage,
    fun v hv => by obtain ⟨w, hw, rfl⟩ := List.mem_map.1 hv; exact rereadPt_survives (h.points w hw)⟩

theorem Surface.reread_text {s : Surface F64} (h : Spec.FiniteSurface s) : surfaceText s.reread = surfaceText s := by
  unfold surfaceText Surface.reread
  simp only
  rw [knotsText_reread h.knotsU, knotsText_reread h.knotsV, points_reread h.points]

end Nurbs
