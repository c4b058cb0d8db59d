import Verif.Proof.Variation
import Verif.Props.Bezier

/-! # C93: the curve follows its control polygon (variation diminishing)

No plane is crossed by a curve more often than by its control polygon.  With positive weights this holds for rational curves of every
degree.  The number of crossings is not defined here: `n + 1` points on alternating sides of the plane, met one after the other, are
`n` crossings. -/

namespace Nurbs.Props
open Nurbs Nurbs.Spec

set_option linter.unusedSectionVars false

variable {K : Type} [Field K] [LinearOrder K] [IsStrictOrderedRing K]

/-- On which side of the plane `a · X = b` the point is (positive, negative, or zero on the plane). -/
def side3 (a : Vec3 K) (b : K) (P : Vec3 K) : K := a.x * P.x + a.y * P.y + a.z * P.z - b

/-- The same for a control point; the weight does not matter. -/
def side4 (a : Vec3 K) (b : K) (P : Vec4 K) : K := a.x * P.x + a.y * P.y + a.z * P.z - b

/-- Every point is strictly on the other side than the point before. -/
def Alternating (l : List K) : Prop := l.IsChain (fun s t => s * t < 0)

theorem planeForm_hpts (a : Vec3 K) (b : K) (l : List (Vec4 K)) (i : ℕ) :
    planeForm a b (hpts l i) = (pt l i).w * side4 a b (pt l i) := by
  simp only [planeForm, form, hpts, ToHomo, side4, LinearMap.coe_mk, AddHom.coe_mk]
  ring

theorem sublist_of_mono {l : List (Vec4 K)} {t : ℕ → ℕ} {n : ℕ} (hlt : ∀ j < n, t j < t (j + 1)) (hN : ∀ j ≤ n, t j < l.length) :
    ((List.range (n + 1)).map fun j => pt l (t j)).Sublist l := by
  rw [List.sublist_iff_exists_orderEmbedding_getElem?_eq]
  refine ⟨OrderEmbedding.ofStrictMono (fun j => if j ≤ n then t j else l.length + j) (strictMono_nat_of_lt_succ fun j => ?_), fun j => ?_⟩
  · by_cases h : j + 1 ≤ n
    · rw [if_pos (show j ≤ n by omega), if_pos h]
      exact hlt j (by omega)
    · rw [if_neg h]
      split_ifs with h2
      · have := hN j h2; omega
      · omega
  · rw [OrderEmbedding.coe_ofStrictMono]
    by_cases h : j ≤ n
    · have := hN j h
      rw [if_pos h]
      simp [show j < n + 1 by omega, pt, this]
    · rw [if_neg h]
      simp [show ¬ j < n + 1 by omega]

/-- From positions to lists. -/
theorem alt_lists {l : List (Vec4 K)} (hwt : ∀ i < l.length, 0 < (pt l i).w) {a : Vec3 K} {b : K} {ss : List K} (halt : Alternating ss)
    (h : ∀ n, ss.length = n + 1 → Alt l.length (fun j => ss.getD j 0) (fun i => planeForm a b (hpts l i)) n) :
    ∃ Q, Q.Sublist l ∧ List.Forall₂ (fun s q => 0 < s * side4 a b q) ss Q := by
  rcases Nat.eq_zero_or_pos ss.length with h0 | h0
  · rw [List.length_eq_zero_iff] at h0
    subst h0
    exact ⟨[], List.nil_sublist _, List.Forall₂.nil⟩
  obtain ⟨n, hn⟩ : ∃ n, ss.length = n + 1 := ⟨ss.length - 1, by omega⟩
  obtain ⟨t, ht, hs⟩ := h n hn
  have hσ : ∀ j < n, ss.getD j 0 * ss.getD (j + 1) 0 < 0 := by
    intro j hj
    have := (List.isChain_iff_getElem.mp halt) j (by omega)
    simpa [show j < ss.length by omega, show j + 1 < ss.length by omega] using this
  refine ⟨(List.range (n + 1)).map fun j => pt l (t j), sublist_of_mono (fun j hj => ?_) (fun j hj => (hs j hj).1), ?_⟩
  · exact lt_of_le_of_ne (ht j hj) (alt_ne (σ := fun j => ss.getD j 0) (h := fun i => planeForm a b (hpts l i)) (hσ j hj) (hs j hj.le).2
      (hs (j + 1) hj).2)
  · rw [List.forall₂_iff_get]
    refine ⟨by simp [hn], fun j h1 h2 => ?_⟩
    obtain ⟨hlt, hpos⟩ := hs j (by omega)
    simp only [planeForm_hpts] at hpos
    rw [mul_left_comm] at hpos
    have := (mul_pos_iff_of_pos_left (hwt _ hlt)).mp hpos
    simpa [h1] using this

/-- C93: whenever the curve passes, at increasing parameters, points strictly on alternating sides of a plane, then there are as many
control points, in this order, on the same sides. -/
theorem C93_variation {p : ℕ} {c : Curve K} (hw : WFCurve p c) (a : Vec3 K) (b : K) {xs : List K} {Cs : List (Vec3 K)}
    (hx : ∀ x ∈ xs, 0 ≤ x ∧ x ≤ 1) (hlt : xs.Pairwise (· < ·)) (he : List.Forall₂ (fun x C => c.Evaluate x = .ok C) xs Cs)
    (hne : ∀ C ∈ Cs, side3 a b C ≠ 0) (halt : Alternating (Cs.map (side3 a b))) :
    ∃ Qs : List (Vec4 K), Qs.Sublist c.ControlPoints ∧ List.Forall₂ (fun C Q => 0 < side3 a b C * side4 a b Q) Cs Qs := by
  have hlen := he.length_eq
  obtain ⟨Q, h1, h2⟩ := alt_lists (a := a) (b := b) hw.weights halt (fun n hn => by
    rw [List.length_map] at hn
    have hC : ∀ j ≤ n, (Cs.map (side3 a b)).getD j 0 = form a (Cs.getD j ⟨0, 0, 0⟩).x (Cs.getD j ⟨0, 0, 0⟩).y (Cs.getD j ⟨0, 0, 0⟩).z - b := by
      intro j hj
      simp [show j < Cs.length by omega, side3, form]
    have := alt_curve hw a b (n := n) (fun j => xs.getD j 0) (fun j => Cs.getD j ⟨0, 0, 0⟩)
      (fun j hj => by
        have : j < xs.length := by omega
        simp only [List.getD_eq_getElem?_getD, List.getElem?_eq_getElem this, Option.getD_some]
        exact hx _ (List.getElem_mem this))
      (fun j hj => by
        have h1 : j < xs.length := by omega
        have h2 : j + 1 < xs.length := by omega
        simp only [List.getD_eq_getElem?_getD, List.getElem?_eq_getElem h1, List.getElem?_eq_getElem h2, Option.getD_some]
        exact List.pairwise_iff_getElem.mp hlt j (j + 1) h1 h2 (by omega))
      (fun j hj => by
        have h1 : j < xs.length := by omega
        have h2 : j < Cs.length := by omega
        simp only [List.getD_eq_getElem?_getD, List.getElem?_eq_getElem h1, List.getElem?_eq_getElem h2, Option.getD_some]
        exact he.get h1 h2)
      (fun j hj => by
        have := (List.isChain_iff_getElem.mp halt) j (by rw [List.length_map]; omega)
        simp only [List.getElem_map] at this
        simpa [show j < Cs.length by omega, show j + 1 < Cs.length by omega, side3, form] using this)
      (fun j hj => by
        have h2 : j < Cs.length := by omega
        simp only [List.getD_eq_getElem?_getD, List.getElem?_eq_getElem h2, Option.getD_some]
        exact hne _ (List.getElem_mem h2))
    obtain ⟨t, ht, hs⟩ := this
    exact ⟨t, ht, fun j hj => by
      have := hs j hj
      simp only [hC j hj]
      exact this⟩)
  exact ⟨Q, h1, (List.forall₂_map_left_iff).mp h2⟩

/-- C93 for refinement: knot insertion never adds crossings to the control polygon. -/
theorem C93_refine {p : ℕ} {c c' : Curve K} (hw : WFCurve p c) (a : Vec3 K) (b : K) {vs : List K} (hv : ∀ v ∈ vs, 0 < v ∧ v < 1)
    (h : c.InsertKnotList vs = .ok c') {Ps : List (Vec4 K)} (hs : Ps.Sublist c'.ControlPoints) (hne : ∀ P ∈ Ps, side4 a b P ≠ 0)
    (halt : Alternating (Ps.map (side4 a b))) :
    ∃ Qs : List (Vec4 K), Qs.Sublist c.ControlPoints ∧ List.Forall₂ (fun P Q => 0 < side4 a b P * side4 a b Q) Ps Qs := by
  obtain ⟨c1, e, hw', _⟩ := insertList_spec vs hv hw
  obtain rfl : c' = c1 := Except.ok.inj (h.symm.trans e)
  rw [List.sublist_iff_exists_orderEmbedding_getElem?_eq] at hs
  obtain ⟨f, hf⟩ := hs
  obtain ⟨Q, h1, h2⟩ := alt_lists (a := a) (b := b) hw.weights halt (fun n hn => by
    rw [List.length_map] at hn
    refine alt_insertList vs hv hw e _ (fun j hj => ?_) ⟨f, fun j _ => f.monotone (Nat.le_succ j), fun j hj => ?_⟩
    · have := (List.isChain_iff_getElem.mp halt) j (by rw [List.length_map]; omega)
      simpa [show j < Ps.length by omega, show j + 1 < Ps.length by omega] using this
    · have hj' : j < Ps.length := by omega
      have e1 := hf j
      rw [List.getElem?_eq_getElem hj'] at e1
      have hfj : f j < c'.ControlPoints.length := by
        by_contra hn
        rw [List.getElem?_eq_none (by omega)] at e1
        exact absurd e1 (by simp)
      refine ⟨hfj, ?_⟩
      have e2 : pt c'.ControlPoints (f j) = Ps[j] := by
        rw [List.getElem?_eq_getElem hfj] at e1
        simp [pt, hfj, Option.some.inj e1]
      simp only [planeForm_hpts, e2, List.getD_eq_getElem?_getD, List.getElem?_map, List.getElem?_eq_getElem hj', Option.map_some,
        Option.getD_some]
      rw [mul_left_comm]
      exact mul_pos (e2 ▸ hw'.weights _ hfj) (mul_self_pos.mpr (hne _ (List.getElem_mem hj'))))
  exact ⟨Q, h1, (List.forall₂_map_left_iff).mp h2⟩

/-- C93, the case of one crossing: if the control points advance in the direction `a`, so does the curve. -/
theorem C93_monotone {p : ℕ} {c : Curve K} (hw : WFCurve p c) (a : Vec3 K)
    (hm : c.ControlPoints.Pairwise (fun P Q => a.x * P.x + a.y * P.y + a.z * P.z ≤ a.x * Q.x + a.y * Q.y + a.z * Q.z))
    {x y : K} (h0 : 0 ≤ x) (hxy : x ≤ y) (h1 : y ≤ 1) {C D : Vec3 K} (hC : c.Evaluate x = .ok C) (hD : c.Evaluate y = .ok D) :
    a.x * C.x + a.y * C.y + a.z * C.z ≤ a.x * D.x + a.y * D.y + a.z * D.z := by
  rcases hxy.eq_or_lt with rfl | hlt
  · rw [Except.ok.inj (hC.symm.trans hD)]
  by_contra hn
  push Not at hn
  set b := (a.x * C.x + a.y * C.y + a.z * C.z + (a.x * D.x + a.y * D.y + a.z * D.z)) / 2 with hb
  have s1 : 0 < side3 a b C := by unfold side3; linarith
  have s2 : side3 a b D < 0 := by unfold side3; linarith
  obtain ⟨Qs, hq, hf⟩ := C93_variation hw a b (xs := [x, y]) (Cs := [C, D])
    (by simp only [List.mem_cons, List.not_mem_nil, or_false, forall_eq_or_imp, forall_eq]; constructor <;> constructor <;> linarith)
    (by simpa using hlt) (.cons hC (.cons hD .nil))
    (by simp only [List.mem_cons, List.not_mem_nil, or_false, forall_eq_or_imp, forall_eq]; exact ⟨s1.ne', s2.ne⟩)
    (by simpa [Alternating] using mul_neg_of_pos_of_neg s1 s2)
  cases hf with
  | @cons _ P _ _ h2 hf =>
    cases hf with
    | @cons _ Q _ _ h3 hf =>
      have hpw := hm.sublist hq
      rw [List.pairwise_cons] at hpw
      have h4 := hpw.1 Q (by simp)
      have h5 : 0 < side4 a b P := (mul_pos_iff_of_pos_left s1).mp h2
      have h6 : side4 a b Q < 0 := by
        by_contra h
        exact absurd h3 (not_lt.mpr (mul_nonpos_of_nonpos_of_nonneg s2.le (not_lt.mp h)))
      unfold side4 at h5 h6
      linarith

/-! ### Examples -/

/-- The points of `exCurve` at 0, 1/8, 1/4, 3/4, 1. -/
def exWave : List (Vec3 ℚ) := [⟨0, 0, 0⟩, ⟨17/15, 2/3, 2/5⟩, ⟨13/7, 2/7, 6/7⟩, ⟨4, 17/6, 1/2⟩, ⟨5, 0, 2⟩]

theorem exWave_eval : List.Forall₂ (fun x C => exCurve.Evaluate x = .ok C) [0, 1/8, 1/4, 3/4, 1] exWave :=
  .cons (by decide +kernel) (.cons (by decide +kernel) (.cons (by decide +kernel) (.cons (by decide +kernel)
    (.cons (by decide +kernel) .nil))))

/-- `exCurve` crosses the plane `y = 1/2` four times, so there are five control points on alternating sides. -/
example : ∃ Qs : List (Vec4 ℚ), Qs.Sublist exCurve.ControlPoints ∧
    List.Forall₂ (fun C Q => 0 < side3 ⟨0, 1, 0⟩ (1/2) C * side4 ⟨0, 1, 0⟩ (1/2) Q) exWave Qs :=
  C93_variation exCurve_wf _ _ (by decide +kernel) (by decide +kernel) exWave_eval (by decide +kernel)
    (by unfold Alternating; decide +kernel)

/-- The `x` coordinates of the control points of `exCurve` increase. -/
example {x y : ℚ} (h0 : 0 ≤ x) (hxy : x ≤ y) (h1 : y ≤ 1) {C D : Vec3 ℚ} (hC : exCurve.Evaluate x = .ok C)
    (hD : exCurve.Evaluate y = .ok D) : C.x ≤ D.x := by
  simpa using C93_monotone exCurve_wf ⟨1, 0, 0⟩ (by decide +kernel) h0 hxy h1 hC hD

/-- A refinement of `exCurve` and three of its control points on alternating sides of `y = 1/2`. -/
example : ∃ c', exCurve.InsertKnotList [1/3, 3/4] = .ok c' ∧ ∃ Ps : List (Vec4 ℚ), Ps.Sublist c'.ControlPoints ∧ Ps.length = 3 ∧
    (∀ P ∈ Ps, side4 ⟨0, 1, 0⟩ (1/2) P ≠ 0) ∧ Alternating (Ps.map (side4 ⟨0, 1, 0⟩ (1/2))) := by
  obtain ⟨c', e, _⟩ := insertList_spec [1/3, 3/4] (by decide +kernel) exCurve_wf
  refine ⟨c', e, ?_⟩
  have hP : (exCurve.InsertKnotList [1/3, 3/4]).map (fun c => c.ControlPoints.take 3) =
      .ok [⟨0, 0, 0, 1⟩, ⟨1, 2, 0, 1/2⟩, ⟨25/13, 2/13, 12/13, 13/6⟩] := by decide +kernel
  rw [e] at hP
  have hP' : c'.ControlPoints.take 3 = _ := Except.ok.inj hP
  refine ⟨c'.ControlPoints.take 3, List.take_sublist _ _, by rw [hP']; rfl, ?_, ?_⟩
  · rw [hP']; decide +kernel
  · rw [hP']; unfold Alternating; decide +kernel

/-- Positive weights are needed: with a negative weight the curve crosses the plane `y = 0` twice, its control polygon never. -/
theorem C93_weights_needed : ∃ c : Curve ℚ, Clamped 2 c.Knots.Values ∧ c.Degree = 2 ∧ c.ControlPoints.length = 3 ∧
    (∀ P ∈ c.ControlPoints, 0 < side4 ⟨0, 1, 0⟩ 0 P ∧ P.w ≠ 0) ∧
    ∃ Cs : List (Vec3 ℚ), List.Forall₂ (fun x C => c.Evaluate x = .ok C) [0, 1/2, 1] Cs ∧
      Alternating (Cs.map (side3 ⟨0, 1, 0⟩ 0)) :=
  ⟨⟨2, ⟨[0, 0, 0, 1, 1, 1]⟩, [⟨0, 1, 0, 1⟩, ⟨1, 3, 0, -1/2⟩, ⟨2, 1, 0, 1⟩]⟩,
    ⟨by decide +kernel, by decide +kernel, by decide +kernel, by decide +kernel, by decide +kernel, by decide +kernel⟩, rfl, rfl,
    by decide +kernel, [⟨0, 1, 0⟩, ⟨1, -1, 0⟩, ⟨2, 1, 0⟩],
    .cons (by decide +kernel) (.cons (by decide +kernel) (.cons (by decide +kernel) .nil)), by unfold Alternating; decide +kernel⟩

end Nurbs.Props
