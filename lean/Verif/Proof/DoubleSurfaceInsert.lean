import Verif.Proof.DoubleInsert
import Verif.Proof.RoundedSurfaceInsert

/-! # Surface knot insertion in `double` with its finite range -/

set_option linter.unusedSectionVars false
set_option exponentiation.threshold 2000

namespace Nurbs
open Nurbs.Spec

/-! ### exact rows and columns -/

theorem cp_exact64 (s : Surface Double) (i j : ℕ) : cp (exactSurface64 s) i j = exactPoint64 (cp s i j) := by
  unfold cp exactSurface64
  simp only
  rw [List.getD_eq_getElem?_getD, List.getD_eq_getElem?_getD, List.getElem?_map]
  cases s.ControlPoints.Values[j * s.ControlPoints.UCount.toNat + i]? with
  | none => rfl
  | some a => rfl

theorem exact64_rowCurve (m : ℕ) (s : Surface Double) (j : ℕ) : exactCurve64 (rowCurve m s j) = rowCurve m (exactSurface64 s) j := by
  refine Curve.ext rfl rfl ?_
  simp only [exactCurve64, rowCurve, List.map_map]
  exact List.map_congr_left fun i _ => (cp_exact64 s i j).symm

theorem exact64_colCurve (n : ℕ) (s : Surface Double) (i : ℕ) : exactCurve64 (colCurve n s i) = colCurve n (exactSurface64 s) i := by
  refine Curve.ext rfl rfl ?_
  simp only [exactCurve64, colCurve, List.map_map]
  exact List.map_congr_left fun j _ => (cp_exact64 s i j).symm

theorem cp_mem {m n : ℕ} {s : Surface Double} (hu : s.ControlPoints.UCount = m) (hl : s.ControlPoints.Values.length = n * m)
    {i j : ℕ} (hi : i < m) (hj : j < n) : cp s i j ∈ s.ControlPoints.Values := by
  have hlt : j * m + i < s.ControlPoints.Values.length := by
    rw [hl]
    have := Nat.mul_le_mul_right m (show j + 1 ≤ n by omega)
    rw [Nat.succ_mul] at this
    omega
  unfold cp
  rw [hu, Int.toNat_natCast, List.getD_eq_getElem _ _ hlt]
  exact List.getElem_mem hlt

/-- Two surfaces whose homogeneous control points differ as after one insertion. -/
theorem surf_ins_double {p q m n : ℕ} {A B : Surface ℚ} (hB : WFSurface p q m n B)
    (hku : A.KnotsU.Values = B.KnotsU.Values) (hkv : A.KnotsV.Values = B.KnotsV.Values) {wl wh Bd : ℚ} (hl : 1 / 2 ^ 100 ≤ wl)
    (hhi : 0 ≤ wh) (hBd : 0 ≤ Bd) (hr : ∀ i < m, ∀ j < n, q64 ^ 4 * wl ≤ (cp A i j).w) (f : Vec4 ℚ → ℚ)
    (h : ∀ i < m, ∀ j < n, |(cp A i j).w * f (cp A i j) - (cp B i j).w * f (cp B i j)| ≤ ((q64 ^ 9)⁻¹ - 1) * (2 * (wh * Bd)) + 1 / 2 ^ 973 ∧
      |(cp A i j).w - (cp B i j).w| ≤ ((q64 ^ 9)⁻¹ - 1) * (2 * wh) ∧ |f (cp B i j)| ≤ Bd)
    {x y : ℚ} (hx0 : 0 ≤ x) (hx1 : x ≤ 1) (hy0 : 0 ≤ y) (hy1 : y ≤ 1) :
    |swsum p q m n A x y f / swsum p q m n A x y (fun _ => 1) - swsum p q m n B x y f / swsum p q m n B x y (fun _ => 1)| ≤
      4 * errFactor binary53 13 * (wh / wl) * Bd + 1 / 2 ^ 872 := by
  have hlo : (0 : ℚ) < 1 / 2 ^ 100 := by positivity
  have l0 : 0 < wl := by linarith
  have hq4 := pow_pos q64_pos 4
  have hm : 0 < q64 ^ 4 * wl := mul_pos hq4 l0
  refine le_trans (swsum_perturb hB hku hkv f hm (fun i a j b => (h i a j b).1) (fun i a j b => (h i a j b).2.1)
    (fun i a j b => (h i a j b).2.2) hr hx0 hx1 hy0 hy1) ?_
  rw [div_le_iff₀ hm]
  have e : (4 * errFactor binary53 13 * (wh / wl) * Bd + 1 / 2 ^ 872) * (q64 ^ 4 * wl) =
      4 * (wh * Bd) * (errFactor binary53 13 * q64 ^ 4) + 1 / 2 ^ 872 * (q64 ^ 4 * wl) := by field_simp
  rw [e]
  have hE : (q64 ^ 9)⁻¹ - 1 ≤ errFactor binary53 13 * q64 ^ 4 := by
    have l4 : q64 ^ 4 ≤ 1 := pow_le_one₀ q64_pos.le q64_le
    have hne := q64_pos.ne'
    have : errFactor binary53 13 * q64 ^ 4 = (q64 ^ 9)⁻¹ - q64 ^ 4 := by
      change ((q64 ^ 13)⁻¹ - 1) * q64 ^ 4 = _
      field_simp
    linarith
  have h1 := mul_le_mul_of_nonneg_left hE (show 0 ≤ 4 * (wh * Bd) by positivity)
  have h2 : (1 : ℚ) / 2 ^ 973 ≤ 1 / 2 ^ 872 * (q64 ^ 4 * wl) := by
    calc (1 : ℚ) / 2 ^ 973 ≤ 1 / 2 ^ 872 * (2 / 3 * (1 / 2 ^ 100)) := by norm_num
      _ ≤ 1 / 2 ^ 872 * (q64 ^ 4 * wl) :=
        mul_le_mul_of_nonneg_left (mul_le_mul (q64_pow (by norm_num)) hl (by positivity) hq4.le) (by positivity)
  linarith

/-! ### direction u -/

/-- What an insertion of the number `X` into the u direction needs. -/
structure InsDataU (p q m n k : ℕ) (s : Surface Double) (X wl wh B : ℚ) : Prop where
  finite : FinSurface s
  wf : WFSurface p q m n (exactSurface64 s)
  span : IsSpan (s.KnotsU.Values.map Double.val) X k
  grid : OnGrid X
  pos : 0 < X
  lt : X < 1
  bounds : SurfaceBounds m n (exactSurface64 s) wl wh B
  lowest : 1 / 2 ^ 100 ≤ wl
  highest : wh ≤ 2 ^ 100
  size : B ≤ 2 ^ 400

section U
variable {p q m n k : ℕ} {s : Surface Double} {X wl wh B : ℚ} (D : InsDataU p q m n k s X wl wh B)
include D

theorem insUD_counts : 0 < m ∧ 0 < n ∧ s.ControlPoints.Values.length = n * m := by
  have h1 := D.wf.knotsU
  have h2 := D.wf.clampedU.len
  have h3 := D.wf.knotsV
  have h4 := D.wf.clampedV.len
  exact ⟨by omega, by omega, by simpa [exactSurface64] using D.wf.storage⟩

theorem insUD_row {j : ℕ} (hj : j < n) : InsData p k (rowCurve m s j) X wl wh B := by
  refine ⟨⟨D.finite.knotsU, ?_⟩, ?_, D.span, D.grid, D.pos, D.lt, ?_, D.lowest, D.highest, D.size⟩
  · intro P hP
    simp only [rowCurve] at hP
    obtain ⟨i, hi, rfl⟩ := List.mem_map.mp hP
    exact D.finite.points _ (cp_mem D.wf.uCount (insUD_counts D).2.2 (List.mem_range.mp hi) hj)
  · rw [exact64_rowCurve]; exact rowCurve_wf D.wf hj
  · rw [exact64_rowCurve]; exact surfaceBounds_row D.bounds hj

theorem insUD_bounds : p ≤ k ∧ k + p + 2 ≤ s.KnotsU.Values.length ∧ k < m := by
  have := insD_bounds (insUD_row D (insUD_counts D).2.1)
  rwa [rowCurve_length] at this

theorem insertKnotU_double (hp : 1 ≤ p) : s.InsertKnotU (Double.fin X) = .ok (insSurfUC p m n k (Double.fin X) s) := by
  obtain ⟨hpk, hlk, hkn⟩ := insUD_bounds D
  obtain ⟨_, ho, hl⟩ := insUD_counts D
  have hd : s.DegreeU = p := D.wf.degreeU
  refine insertKnotU_gen hd (clamped_double D.finite.knotsU D.wf.clampedU) D.wf.uCount D.wf.vCount hl
    (Double.fin_lt.mpr D.pos) (Double.fin_lt.mpr D.lt) ((isSpan_double D.finite.knotsU).mp D.span) hpk hlk hkn hp
    (fun i hi1 hi2 => ⟨(insD_new (insUD_row D ho) hi1 hi2).1, fun j hj => ?_⟩)
  have := (insD_new (insUD_row D hj) hi1 hi2).2.1
  have e : insH (kn s.KnotsU.Values) p (Double.fin X) (pt (rowCurve m s j).ControlPoints) i =
      insH (kn s.KnotsU.Values) p (Double.fin X) (fun i => cp s i j) i := by
    unfold insH
    rw [pt_rowCurve (by omega), pt_rowCurve (by omega)]
  rw [← e]
  exact this

theorem insUD_new_row {j : ℕ} (hj : j < n) : rowCurve (m + 1) (insSurfUC p m n k (Double.fin X) s) j =
    insCurveC p k (Double.fin X) (rowCurve m s j) := by
  obtain ⟨hpk, hlk, hkn⟩ := insUD_bounds D
  have hd : s.DegreeU = p := D.wf.degreeU
  exact insSurfUC_row hd hpk hkn hj

theorem insUD_range {B' : ℚ} (hB' : B ≤ B') (hB'' : (q64 ^ 10)⁻¹ * B + 1 / 2 ^ 729 ≤ B') :
    SurfaceBounds (m + 1) n (exactSurface64 (insSurfUC p m n k (Double.fin X) s)) (q64 ^ 4 * wl) ((q64 ^ 4)⁻¹ * wh) B' := by
  intro i hin j hj
  have := insD_range (insUD_row D hj) hB' hB''
  rw [← insUD_new_row D hj, exact64_rowCurve] at this
  have := this i (by rw [rowCurve_length]; exact hin)
  rwa [pt_rowCurve hin] at this

theorem insUD_wf : WFSurface p q (m + 1) n (exactSurface64 (insSurfUC p m n k (Double.fin X) s)) := by
  have he := insSurfU_wf D.wf D.span D.pos D.lt
  have ek : (insL s.KnotsU.Values k (Double.fin X)).map Double.val = insL (s.KnotsU.Values.map Double.val) k X := val_insL _ _ _
  refine ⟨D.wf.degreeU, D.wf.degreeV, ?_, D.wf.clampedV, rfl, rfl, ?_, D.wf.knotsV,
    by simp [exactSurface64, insSurfUC, gridOf], ?_⟩
  · change Clamped p ((insL s.KnotsU.Values k (Double.fin X)).map Double.val)
    rw [ek]; exact he.clampedU
  · change ((insL s.KnotsU.Values k (Double.fin X)).map Double.val).length = _
    rw [ek]; exact he.knotsU
  · intro i hin j hj
    have := insD_wf (insUD_row D hj)
    rw [← insUD_new_row D hj, exact64_rowCurve] at this
    have := this.weights i (by rw [rowCurve_length]; exact hin)
    rwa [pt_rowCurve hin] at this

/-- The new surface consists of finite numbers. -/
theorem insUD_finite (hX : IsFin (Double.fin X)) : FinSurface (insSurfUC p m n k (Double.fin X) s) := by
  refine ⟨fun d hd => ?_, D.finite.knotsV, fun P hP => ?_⟩
  · have : d ∈ Double.fin X :: s.KnotsU.Values := (insL_perm _ _ _).subset hd
    rcases List.mem_cons.mp this with rfl | h
    · exact hX
    · exact D.finite.knotsU _ h
  · change P ∈ (gridOf (m + 1) n fun i j => insPtC (kn s.KnotsU.Values) k (Double.fin X) p (fun i => cp s i j) i).Values at hP
    obtain ⟨t, ht, rfl⟩ := List.mem_map.mp hP
    have ht := List.mem_range.mp ht
    obtain ⟨hm, hn, _⟩ := insUD_counts D
    have hin : t % (m + 1) < m + 1 := Nat.mod_lt _ (by omega)
    have hj : t / (m + 1) < n := Nat.div_lt_of_lt_mul (by rwa [Nat.mul_comm])
    have h := insD_finite (insUD_row D hj) hX
    rw [← insUD_new_row D hj] at h
    refine h.points _ ?_
    simp only [rowCurve]
    refine List.mem_map.mpr ⟨t % (m + 1), List.mem_range.mpr hin, ?_⟩
    exact cp_gridOf (s := insSurfUC p m n k (Double.fin X) s)
      (f := fun i j => insPtC (kn s.KnotsU.Values) k (Double.fin X) p (fun i => cp s i j) i) rfl hin hj

theorem insUD_within : SurfacesWithin p q m n (m + 1) n (exactSurface64 s) (exactSurface64 (insSurfUC p m n k (Double.fin X) s))
    (4 * errFactor binary53 13 * (wh / wl) * B + 1 / 2 ^ 872) := by
  have he := insSurfU_wf D.wf D.span D.pos D.lt
  have hr := insUD_range D (le_max_left B ((q64 ^ 10)⁻¹ * B + 1 / 2 ^ 729)) (le_max_right _ _)
  obtain ⟨_, hn, _⟩ := insUD_counts D
  obtain ⟨_, hh0, _, hB0⟩ := insD_weights (insUD_row D hn)
  have eU : (exactSurface64 (insSurfUC p m n k (Double.fin X) s)).KnotsU.Values = (insSurfU p m n k X (exactSurface64 s)).KnotsU.Values := val_insL _ _ _
  have eV : (exactSurface64 (insSurfUC p m n k (Double.fin X) s)).KnotsV.Values = (insSurfU p m n k X (exactSurface64 s)).KnotsV.Values := rfl
  have fin : ∀ f : Vec4 ℚ → ℚ, IsCoord f → ∀ x y, 0 ≤ x → x ≤ 1 → 0 ≤ y → y ≤ 1 →
      |swsum p q (m + 1) n (exactSurface64 (insSurfUC p m n k (Double.fin X) s)) x y f /
          swsum p q (m + 1) n (exactSurface64 (insSurfUC p m n k (Double.fin X) s)) x y (fun _ => 1) -
        swsum p q (m + 1) n (insSurfU p m n k X (exactSurface64 s)) x y f / swsum p q (m + 1) n (insSurfU p m n k X (exactSurface64 s)) x y (fun _ => 1)| ≤
        4 * errFactor binary53 13 * (wh / wl) * B + 1 / 2 ^ 872 := by
    intro f hf x y hx0 hx1 hy0 hy1
    refine surf_ins_double (A := exactSurface64 (insSurfUC p m n k (Double.fin X) s)) (B := insSurfU p m n k X (exactSurface64 s)) he eU eV
      D.lowest hh0.le hB0 (fun i a j b => (hr i a j b).1) f ?_ hx0 hx1 hy0 hy1
    intro i hin j hj
    have := insD_key (insUD_row D hj) hf i (by rw [rowCurve_length]; exact hin)
    rw [← insUD_new_row D hj, exact64_rowCurve, exact64_rowCurve, ← insSurfU_row D.wf D.span D.pos D.lt hj, pt_rowCurve hin,
      pt_rowCurve hin] at this
    exact this
  intro x y hx0 hx1 hy0 hy1
  rw [← surfPoint_eq_of_evaluate D.wf he hx0 hx1 hy0 hy1 (insSurfU_evaluate D.wf D.span D.pos D.lt hx0 hx1 hy0 hy1)]
  exact ⟨fin _ (.inl rfl) x y hx0 hx1 hy0 hy1, fin _ (.inr (.inl rfl)) x y hx0 hx1 hy0 hy1,
    fin _ (.inr (.inr rfl)) x y hx0 hx1 hy0 hy1⟩

end U

/-- Inserting a list of knots: the errors of the single insertions add up. -/
theorem insertListU_double {p q n : ℕ} (hp : 1 ≤ p) (vs : List Double) (hv : ∀ v ∈ vs, IsFin v ∧ 0 < v.val ∧ v.val < 1) {m : ℕ}
    {s : Surface Double} (hfin : FinSurface s) (hw : WFSurface p q m n (exactSurface64 s)) {wl wh B : ℚ}
    (hb : SurfaceBounds m n (exactSurface64 s) wl wh B)
    (hl : 1 / 2 ^ 100 ≤ q64 ^ (4 * vs.length) * wl) (hh : (q64 ^ (4 * vs.length))⁻¹ * wh ≤ 2 ^ 100) (hB0 : 1 / 2 ^ 600 ≤ B)
    (hB : (q64 ^ (11 * vs.length))⁻¹ * B ≤ 2 ^ 400) :
    ∃ s', s.InsertKnotUList vs = .ok s' ∧ FinSurface s' ∧ WFSurface p q (m + vs.length) n (exactSurface64 s') ∧
      s'.KnotsU.Values.Perm (vs ++ s.KnotsU.Values) ∧ s'.KnotsV = s.KnotsV ∧
      SurfacesWithin p q m n (m + vs.length) n (exactSurface64 s) (exactSurface64 s')
        (4 * errFactor binary53 (19 * vs.length) * (wh / wl) * B) := by
  induction vs generalizing m s wl wh B with
  | nil =>
    refine ⟨s, rfl, hfin, hw, List.Perm.refl _, rfl, ?_⟩
    intro x y _ _ _ _
    simp [errFactor]
  | cons v vs ih =>
    obtain ⟨f1, h0, h1⟩ := hv v (by simp)
    obtain ⟨ev, gv, _⟩ := isFin_eq f1
    obtain ⟨k, hk, _⟩ := exists_span hw.clampedU h0.le h1.le
    have hm : 0 < m := by
      have := hw.knotsU
      have := hw.clampedU.len
      omega
    have hn : 0 < n := by
      have := hw.knotsV
      have := hw.clampedV.len
      omega
    obtain ⟨b1, b2, b3, _⟩ := hb 0 hm 0 hn
    have wpos := hw.weights 0 hm 0 hn
    have hB1 : 0 ≤ B := (abs_nonneg _).trans b3
    have hpow : ∀ m, q64 ^ m ≤ 1 := fun m => pow_le_one₀ q64_pos.le q64_le
    have hwl : 0 < wl := by
      by_contra hneg
      have hn := not_lt.mp hneg
      have := mul_nonpos_of_nonneg_of_nonpos (pow_pos q64_pos (4 * (v :: vs).length)).le hn
      have : (0 : ℚ) < 1 / 2 ^ 100 := by positivity
      linarith
    have hwh : 0 < wh := by linarith
    have D : InsDataU p q m n k s v.val wl wh B := ⟨hfin, hw, hk, gv, h0, h1, hb, hl.trans (mul_le_of_le_one_left hwl.le (hpow _)),
      (le_mul_of_one_le_left hwh.le (qinv_one _)).trans hh, (le_mul_of_one_le_left hB1 (qinv_one _)).trans hB⟩
    obtain ⟨g1, g2⟩ := grow_double hB0
    have e4 : 4 * (v :: vs).length = 4 * vs.length + 4 := by rw [List.length_cons]; ring
    have e11 : 11 * (v :: vs).length = 11 * vs.length + 11 := by rw [List.length_cons]; ring
    rw [e4, pow_add, mul_assoc] at hl
    rw [e4, pow_add, mul_inv, mul_assoc] at hh
    rw [e11, pow_add, mul_inv, mul_assoc] at hB
    have hf' := insUD_finite D (by rw [← ev]; exact f1)
    obtain ⟨s', e, hs', hw', hpm, hkv, hs⟩ := ih (fun v hv' => hv v (by simp [hv'])) hf' (insUD_wf D) (insUD_range D g1 g2) hl hh
      (hB0.trans g1) hB
    have hlen : m + (v :: vs).length = m + 1 + vs.length := by simp; omega
    rw [hlen]
    refine ⟨s', ?_, hs', hw', ?_, hkv, ?_⟩
    · unfold Surface.InsertKnotUList
      simp only [foldMList]
      have := insertKnotU_double D hp
      rw [← ev] at this e
      rw [this, bind_ok]
      exact e
    · refine hpm.trans ?_
      rw [← ev]
      refine ((insL_perm _ _ _).append_left vs).trans ?_
      exact List.perm_middle
    · have hle := ins_factor_double hwl (show wl ≤ wh by linarith) hB0 vs.length
      have := surfacesWithin_trans (insUD_within D) hs
      intro x y hx0 hx1 hy0 hy1
      obtain ⟨t1, t2, t3⟩ := this x y hx0 hx1 hy0 hy1
      exact ⟨t1.trans hle, t2.trans hle, t3.trans hle⟩

/-! ### direction v -/

/-- What an insertion of the number `X` into the v direction needs. -/
structure InsDataV (p q m n k : ℕ) (s : Surface Double) (X wl wh B : ℚ) : Prop where
  finite : FinSurface s
  wf : WFSurface p q m n (exactSurface64 s)
  span : IsSpan (s.KnotsV.Values.map Double.val) X k
  grid : OnGrid X
  pos : 0 < X
  lt : X < 1
  bounds : SurfaceBounds m n (exactSurface64 s) wl wh B
  lowest : 1 / 2 ^ 100 ≤ wl
  highest : wh ≤ 2 ^ 100
  size : B ≤ 2 ^ 400

section V
variable {p q m n k : ℕ} {s : Surface Double} {X wl wh B : ℚ} (D : InsDataV p q m n k s X wl wh B)
include D

theorem insVD_counts : 0 < m ∧ 0 < n ∧ s.ControlPoints.Values.length = n * m := by
  have h1 := D.wf.knotsU
  have h2 := D.wf.clampedU.len
  have h3 := D.wf.knotsV
  have h4 := D.wf.clampedV.len
  exact ⟨by omega, by omega, by simpa [exactSurface64] using D.wf.storage⟩

theorem insVD_col {j : ℕ} (hj : j < m) : InsData q k (colCurve n s j) X wl wh B := by
  refine ⟨⟨D.finite.knotsV, ?_⟩, ?_, D.span, D.grid, D.pos, D.lt, ?_, D.lowest, D.highest, D.size⟩
  · intro P hP
    simp only [colCurve] at hP
    obtain ⟨i, hi, rfl⟩ := List.mem_map.mp hP
    exact D.finite.points _ (cp_mem D.wf.uCount (insVD_counts D).2.2 hj (List.mem_range.mp hi))
  · rw [exact64_colCurve]; exact colCurve_wf D.wf hj
  · rw [exact64_colCurve]; exact surfaceBounds_col D.bounds hj

theorem insVD_bounds : q ≤ k ∧ k + q + 2 ≤ s.KnotsV.Values.length ∧ k < n := by
  have := insD_bounds (insVD_col D (insVD_counts D).1)
  rwa [colCurve_length] at this

theorem insertKnotV_double (hp : 1 ≤ q) : s.InsertKnotV (Double.fin X) = .ok (insSurfVC q m n k (Double.fin X) s) := by
  obtain ⟨hpk, hlk, hkn⟩ := insVD_bounds D
  obtain ⟨ho, _, hl⟩ := insVD_counts D
  have hd : s.DegreeV = q := D.wf.degreeV
  refine insertKnotV_gen hd (clamped_double D.finite.knotsV D.wf.clampedV) D.wf.uCount D.wf.vCount hl
    (Double.fin_lt.mpr D.pos) (Double.fin_lt.mpr D.lt) ((isSpan_double D.finite.knotsV).mp D.span) hpk hlk hkn hp
    (fun i hi1 hi2 => ⟨(insD_new (insVD_col D ho) hi1 hi2).1, fun j hj => ?_⟩)
  have := (insD_new (insVD_col D hj) hi1 hi2).2.1
  have e : insH (kn s.KnotsV.Values) q (Double.fin X) (pt (colCurve n s j).ControlPoints) i =
      insH (kn s.KnotsV.Values) q (Double.fin X) (fun i => cp s j i) i := by
    unfold insH
    rw [pt_colCurve (by omega), pt_colCurve (by omega)]
  rw [← e]
  exact this

theorem insVD_new_col {j : ℕ} (hj : j < m) : colCurve (n + 1) (insSurfVC q m n k (Double.fin X) s) j =
    insCurveC q k (Double.fin X) (colCurve n s j) := by
  obtain ⟨hpk, hlk, hkn⟩ := insVD_bounds D
  have hd : s.DegreeV = q := D.wf.degreeV
  exact insSurfVC_col hd hpk hkn hj

theorem insVD_range {B' : ℚ} (hB' : B ≤ B') (hB'' : (q64 ^ 10)⁻¹ * B + 1 / 2 ^ 729 ≤ B') :
    SurfaceBounds m (n + 1) (exactSurface64 (insSurfVC q m n k (Double.fin X) s)) (q64 ^ 4 * wl) ((q64 ^ 4)⁻¹ * wh) B' := by
  intro j hj i hin
  have := insD_range (insVD_col D hj) hB' hB''
  rw [← insVD_new_col D hj, exact64_colCurve] at this
  have := this i (by rw [colCurve_length]; exact hin)
  rwa [pt_colCurve hin] at this

theorem insVD_wf : WFSurface p q m (n + 1) (exactSurface64 (insSurfVC q m n k (Double.fin X) s)) := by
  have he := insSurfV_wf D.wf D.span D.pos D.lt
  have ek : (insL s.KnotsV.Values k (Double.fin X)).map Double.val = insL (s.KnotsV.Values.map Double.val) k X := val_insL _ _ _
  refine ⟨D.wf.degreeU, D.wf.degreeV, D.wf.clampedU, ?_, rfl, rfl, D.wf.knotsU, ?_,
    by simp [exactSurface64, insSurfVC, gridOf], ?_⟩
  · change Clamped q ((insL s.KnotsV.Values k (Double.fin X)).map Double.val)
    rw [ek]; exact he.clampedV
  · change ((insL s.KnotsV.Values k (Double.fin X)).map Double.val).length = _
    rw [ek]; exact he.knotsV
  · intro j hj i hin
    have := insD_wf (insVD_col D hj)
    rw [← insVD_new_col D hj, exact64_colCurve] at this
    have := this.weights i (by rw [colCurve_length]; exact hin)
    rwa [pt_colCurve hin] at this

/-- The new surface consists of finite numbers. -/
theorem insVD_finite (hX : IsFin (Double.fin X)) : FinSurface (insSurfVC q m n k (Double.fin X) s) := by
  refine ⟨D.finite.knotsU, fun d hd => ?_, fun P hP => ?_⟩
  · have : d ∈ Double.fin X :: s.KnotsV.Values := (insL_perm _ _ _).subset hd
    rcases List.mem_cons.mp this with rfl | h
    · exact hX
    · exact D.finite.knotsV _ h
  · change P ∈ (gridOf m (n + 1) fun i j => insPtC (kn s.KnotsV.Values) k (Double.fin X) q (fun j => cp s i j) j).Values at hP
    obtain ⟨t, ht, rfl⟩ := List.mem_map.mp hP
    have ht := List.mem_range.mp ht
    obtain ⟨hm, hn, _⟩ := insVD_counts D
    have hin : t / m < n + 1 := Nat.div_lt_of_lt_mul (by rwa [Nat.mul_comm])
    have hj : t % m < m := Nat.mod_lt _ (by omega)
    have h := insD_finite (insVD_col D hj) hX
    rw [← insVD_new_col D hj] at h
    refine h.points _ ?_
    simp only [colCurve]
    refine List.mem_map.mpr ⟨t / m, List.mem_range.mpr hin, ?_⟩
    exact cp_gridOf (s := insSurfVC q m n k (Double.fin X) s)
      (f := fun i j => insPtC (kn s.KnotsV.Values) k (Double.fin X) q (fun j => cp s i j) j) rfl hj hin

theorem insVD_within : SurfacesWithin p q m n m (n + 1) (exactSurface64 s) (exactSurface64 (insSurfVC q m n k (Double.fin X) s))
    (4 * errFactor binary53 13 * (wh / wl) * B + 1 / 2 ^ 872) := by
  have he := insSurfV_wf D.wf D.span D.pos D.lt
  have hr := insVD_range D (le_max_left B ((q64 ^ 10)⁻¹ * B + 1 / 2 ^ 729)) (le_max_right _ _)
  obtain ⟨hn, _, _⟩ := insVD_counts D
  obtain ⟨_, hh0, _, hB0⟩ := insD_weights (insVD_col D hn)
  have eU : (exactSurface64 (insSurfVC q m n k (Double.fin X) s)).KnotsU.Values = (insSurfV q m n k X (exactSurface64 s)).KnotsU.Values := rfl
  have eV : (exactSurface64 (insSurfVC q m n k (Double.fin X) s)).KnotsV.Values = (insSurfV q m n k X (exactSurface64 s)).KnotsV.Values := val_insL _ _ _
  have fin : ∀ f : Vec4 ℚ → ℚ, IsCoord f → ∀ x y, 0 ≤ x → x ≤ 1 → 0 ≤ y → y ≤ 1 →
      |swsum p q m (n + 1) (exactSurface64 (insSurfVC q m n k (Double.fin X) s)) x y f /
          swsum p q m (n + 1) (exactSurface64 (insSurfVC q m n k (Double.fin X) s)) x y (fun _ => 1) -
        swsum p q m (n + 1) (insSurfV q m n k X (exactSurface64 s)) x y f / swsum p q m (n + 1) (insSurfV q m n k X (exactSurface64 s)) x y (fun _ => 1)| ≤
        4 * errFactor binary53 13 * (wh / wl) * B + 1 / 2 ^ 872 := by
    intro f hf x y hx0 hx1 hy0 hy1
    refine surf_ins_double (A := exactSurface64 (insSurfVC q m n k (Double.fin X) s)) (B := insSurfV q m n k X (exactSurface64 s)) he eU eV
      D.lowest hh0.le hB0 (fun i a j b => (hr i a j b).1) f ?_ hx0 hx1 hy0 hy1
    intro j hj i hin
    have := insD_key (insVD_col D hj) hf i (by rw [colCurve_length]; exact hin)
    rw [← insVD_new_col D hj, exact64_colCurve, exact64_colCurve, ← insSurfV_col D.wf D.span D.pos D.lt hj, pt_colCurve hin,
      pt_colCurve hin] at this
    exact this
  intro x y hx0 hx1 hy0 hy1
  rw [← surfPoint_eq_of_evaluate D.wf he hx0 hx1 hy0 hy1 (insSurfV_evaluate D.wf D.span D.pos D.lt hx0 hx1 hy0 hy1)]
  exact ⟨fin _ (.inl rfl) x y hx0 hx1 hy0 hy1, fin _ (.inr (.inl rfl)) x y hx0 hx1 hy0 hy1,
    fin _ (.inr (.inr rfl)) x y hx0 hx1 hy0 hy1⟩

end V

/-- Inserting a list of knots: the errors of the single insertions add up. -/
theorem insertListV_double {p q m : ℕ} (hp : 1 ≤ q) (vs : List Double) (hv : ∀ v ∈ vs, IsFin v ∧ 0 < v.val ∧ v.val < 1) {n : ℕ}
    {s : Surface Double} (hfin : FinSurface s) (hw : WFSurface p q m n (exactSurface64 s)) {wl wh B : ℚ}
    (hb : SurfaceBounds m n (exactSurface64 s) wl wh B)
    (hl : 1 / 2 ^ 100 ≤ q64 ^ (4 * vs.length) * wl) (hh : (q64 ^ (4 * vs.length))⁻¹ * wh ≤ 2 ^ 100) (hB0 : 1 / 2 ^ 600 ≤ B)
    (hB : (q64 ^ (11 * vs.length))⁻¹ * B ≤ 2 ^ 400) :
    ∃ s', s.InsertKnotVList vs = .ok s' ∧ FinSurface s' ∧ WFSurface p q m (n + vs.length) (exactSurface64 s') ∧
      s'.KnotsV.Values.Perm (vs ++ s.KnotsV.Values) ∧ s'.KnotsU = s.KnotsU ∧
      SurfacesWithin p q m n m (n + vs.length) (exactSurface64 s) (exactSurface64 s')
        (4 * errFactor binary53 (19 * vs.length) * (wh / wl) * B) := by
  induction vs generalizing n s wl wh B with
  | nil =>
    refine ⟨s, rfl, hfin, hw, List.Perm.refl _, rfl, ?_⟩
    intro x y _ _ _ _
    simp [errFactor]
  | cons v vs ih =>
    obtain ⟨f1, h0, h1⟩ := hv v (by simp)
    obtain ⟨ev, gv, _⟩ := isFin_eq f1
    obtain ⟨k, hk, _⟩ := exists_span hw.clampedV h0.le h1.le
    have hm : 0 < m := by
      have := hw.knotsU
      have := hw.clampedU.len
      omega
    have hn : 0 < n := by
      have := hw.knotsV
      have := hw.clampedV.len
      omega
    obtain ⟨b1, b2, b3, _⟩ := hb 0 hm 0 hn
    have wpos := hw.weights 0 hm 0 hn
    have hB1 : 0 ≤ B := (abs_nonneg _).trans b3
    have hpow : ∀ m, q64 ^ m ≤ 1 := fun m => pow_le_one₀ q64_pos.le q64_le
    have hwl : 0 < wl := by
      by_contra hneg
      have hn := not_lt.mp hneg
      have := mul_nonpos_of_nonneg_of_nonpos (pow_pos q64_pos (4 * (v :: vs).length)).le hn
      have : (0 : ℚ) < 1 / 2 ^ 100 := by positivity
      linarith
    have hwh : 0 < wh := by linarith
    have D : InsDataV p q m n k s v.val wl wh B := ⟨hfin, hw, hk, gv, h0, h1, hb, hl.trans (mul_le_of_le_one_left hwl.le (hpow _)),
      (le_mul_of_one_le_left hwh.le (qinv_one _)).trans hh, (le_mul_of_one_le_left hB1 (qinv_one _)).trans hB⟩
    obtain ⟨g1, g2⟩ := grow_double hB0
    have e4 : 4 * (v :: vs).length = 4 * vs.length + 4 := by rw [List.length_cons]; ring
    have e11 : 11 * (v :: vs).length = 11 * vs.length + 11 := by rw [List.length_cons]; ring
    rw [e4, pow_add, mul_assoc] at hl
    rw [e4, pow_add, mul_inv, mul_assoc] at hh
    rw [e11, pow_add, mul_inv, mul_assoc] at hB
    have hf' := insVD_finite D (by rw [← ev]; exact f1)
    obtain ⟨s', e, hs', hw', hpm, hkv, hs⟩ := ih (fun v hv' => hv v (by simp [hv'])) hf' (insVD_wf D) (insVD_range D g1 g2) hl hh
      (hB0.trans g1) hB
    have hlen : n + (v :: vs).length = n + 1 + vs.length := by simp; omega
    rw [hlen]
    refine ⟨s', ?_, hs', hw', ?_, hkv, ?_⟩
    · unfold Surface.InsertKnotVList
      simp only [foldMList]
      have := insertKnotV_double D hp
      rw [← ev] at this e
      rw [this, bind_ok]
      exact e
    · refine hpm.trans ?_
      rw [← ev]
      refine ((insL_perm _ _ _).append_left vs).trans ?_
      exact List.perm_middle
    · have hle := ins_factor_double hwl (show wl ≤ wh by linarith) hB0 vs.length
      have := surfacesWithin_trans (insVD_within D) hs
      intro x y hx0 hx1 hy0 hy1
      obtain ⟨t1, t2, t3⟩ := this x y hx0 hx1 hy0 hy1
      exact ⟨t1.trans hle, t2.trans hle, t3.trans hle⟩

end Nurbs
