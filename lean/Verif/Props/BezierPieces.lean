import Verif.Proof.Reverse
import Verif.Props.BBox
import Verif.Props.Path

/-! # C117: what the Bezier pieces of a curve depend on -/

set_option linter.unusedSectionVars false

namespace Nurbs.Props
open Nurbs Nurbs.Spec

variable {K : Type} [Field K] [LinearOrder K] [IsStrictOrderedRing K]

theorem dvals_spec {p : ℕ} {c : Curve K} (hw : WFCurve p c) :
    (dvals c.Knots).Pairwise (· < ·) ∧ ∀ v, v ∈ dvals c.Knots ↔ v ∈ c.Knots.Values := by
  obtain ⟨_, _, h3⟩ := C03_pairs_roundtrip c.Knots
  obtain ⟨p1, p2, _⟩ := h3 hw.clamped.sorted
  exact ⟨p1, p2⟩

theorem dvals_congr {p : ℕ} {c c1 : Curve K} (hw : WFCurve p c) (hw1 : WFCurve p c1)
    (h : ∀ v, v ∈ c1.Knots.Values ↔ v ∈ c.Knots.Values) : dvals c1.Knots = dvals c.Knots := by
  obtain ⟨a, b⟩ := dvals_spec hw
  obtain ⟨a1, b1⟩ := dvals_spec hw1
  refine List.Perm.eq_of_pairwise (le := (· < ·)) (fun x y _ _ hx hy => absurd hx hy.asymm) a1 a ?_
  refine (List.perm_ext_iff_of_nodup (a1.imp fun h => h.ne) (a.imp fun h => h.ne)).mpr fun v => ?_
  rw [b1, b, h]

/-- Curves with the same polar form and the same knot values (multiplicities aside) have the same pieces. -/
theorem extract_same {p : ℕ} (hp : 1 ≤ p) {c c1 : Curve K} (hw : WFCurve p c) (hw1 : WFCurve p c1)
    (hm : InteriorMult p c.Knots.Values) (hm1 : InteriorMult p c1.Knots.Values) (hs : SamePolar p c c1)
    (hv : ∀ v, v ∈ c1.Knots.Values ↔ v ∈ c.Knots.Values) : c1.ExtractBezier = c.ExtractBezier := by
  obtain ⟨c', m, hw', hs', hd, hlen, hkn, e, _⟩ := extractBezier_spec hp hw hm
  obtain ⟨c1', m1, hw1', hs1', hd1, hlen1, hkn1, e1, _⟩ := extractBezier_spec hp hw1 hm1
  have hdv := dvals_congr hw hw1 hv
  rw [hdv] at hd1 hkn1
  obtain rfl : m1 = m := by omega
  have hc : c1' = c' := by
    have hk : c1'.Knots = c'.Knots := by
      cases h1 : c1'.Knots; cases h2 : c'.Knots
      rw [h1] at hkn1; rw [h2] at hkn
      rw [KnotVector.mk.injEq]
      exact hkn1.trans hkn.symm
    have hsp := hs.trans hs1' hw1
    obtain ⟨p1, p2⟩ := dvals_spec hw
    refine curve_unique hw' hw1' hk ?_ ?_
    · intro v h0 h1
      rw [hkn, List.count_cons, List.count_append, count_reps, List.count_singleton]
      have := List.nodup_iff_count_le_one.mp (p1.imp fun h => h.ne) v
      have := Nat.mul_le_mul_left p this
      rw [if_neg (by simpa using h1.ne'), if_neg (by simpa using h0.ne)]
      omega
    · intro x k h0 h1 hx
      obtain ⟨s, hsx, _⟩ := exists_span hw.clamped h0 h1.le
      obtain ⟨a, _⟩ := evaluate_seg hw' h0 h1.le hx
      rw [seg_eq_blos _ _ _ _ _ a, seg_eq_blos _ _ _ _ _ a, hs' x h0 h1.le s k hsx hx _ (by simp)]
      have := hsp x h0 h1.le s k hsx (hk ▸ hx) (List.replicate p x) (by simp)
      rwa [hk] at this
  rw [e, e1, hc]

/-- C117.  Inserting further copies of knots that the curve already has (up to multiplicity `p`) does not change the Bezier pieces,
so not the bounding box either. -/
theorem C117_insert {p : ℕ} (hp : 1 ≤ p) {c : Curve K} (hw : WFCurve p c) (vs : List K) (hvs : ∀ v ∈ vs, 0 < v ∧ v < 1)
    (hold : ∀ v ∈ vs, v ∈ c.Knots.Values) (hm : InteriorMult p (vs ++ c.Knots.Values)) :
    ∃ c', c.InsertKnotList vs = .ok c' ∧ c'.ExtractBezier = c.ExtractBezier ∧
      ∀ (sqrt : K → K) fuel eps, c'.GetBoundingBox sqrt fuel eps = c.GetBoundingBox sqrt fuel eps := by
  obtain ⟨c', e, hw', hperm, hs⟩ := insertList_spec vs hvs hw
  have h : c'.ExtractBezier = c.ExtractBezier := by
    refine extract_same hp hw hw' ?_ ?_ hs ?_
    · intro v h0 h1
      have := hm v h0 h1
      rw [List.count_append] at this
      omega
    · intro v h0 h1
      rw [hperm.count_eq]
      exact hm v h0 h1
    · intro v
      rw [hperm.mem_iff, List.mem_append]
      exact ⟨fun h => h.elim (hold v) id, Or.inr⟩
  refine ⟨c', e, h, fun sqrt fuel eps => ?_⟩
  unfold Curve.GetBoundingBox
  rw [h, hw'.degree, hw.degree]

/-- A curve without inner knots is its only piece. -/
theorem C117_bezier {p : ℕ} (hp : 1 ≤ p) {c : Curve K} (hw : WFCurve p c)
    (hk : c.Knots.Values = List.replicate (p + 1) 0 ++ List.replicate (p + 1) 1) : c.ExtractBezier = .ok [c] := by
  have hmem : ∀ v, v ∈ c.Knots.Values ↔ v = 0 ∨ v = 1 := by
    intro v; rw [hk]; simp
  have hm : InteriorMult p c.Knots.Values := by
    intro v h0 h1
    rw [List.count_eq_zero_of_not_mem]
    · omega
    · rw [hmem]; rintro (rfl | rfl) <;> exact lt_irrefl _ ‹_›
  obtain ⟨c', m, hw', hs', hd, hlen, hkn, e, vs, hvs, hins, hvse⟩ := extractBezier_spec hp hw hm
  have hdv : dvals c.Knots = [0, 1] := by
    obtain ⟨a, b⟩ := dvals_spec hw
    refine List.Perm.eq_of_pairwise (le := (· < ·)) (fun x y _ _ hx hy => absurd hx hy.asymm) a (by simp) ?_
    refine (List.perm_ext_iff_of_nodup (a.imp fun h => h.ne) (by simp)).mpr fun v => ?_
    rw [b, hmem]; simp
  rw [hdv] at hd hkn
  obtain rfl : m = 1 := by simpa using hd.symm
  have hvs0 : vs = [] := by
    obtain ⟨c'', e'', _, hperm, _⟩ := insertList_spec vs hvs hw
    rw [hins] at e''
    cases e''
    have := hperm.length_eq
    rw [hkn, hk] at this
    simp [reps] at this
    exact List.length_eq_zero_iff.mp (by omega)
  subst hvs0
  have hc : c' = c := by
    unfold Curve.InsertKnotList at hins
    simp only [foldMList] at hins
    cases hins
    rfl
  rw [e, hc]
  have hl : c.ControlPoints.length = p + 1 := by rw [← hc, hlen]; omega
  have hkk : c.Knots = ⟨List.replicate (p + 1) 0 ++ List.replicate (p + 1) 1⟩ := by
    cases h : c.Knots; rw [h] at hk; exact congrArg _ hk
  have hb : bezSeg p c.ControlPoints 0 = c := by
    unfold bezSeg
    have := eq_tab_pt c.ControlPoints
    rw [hl] at this
    simp only [Nat.mul_zero, Nat.zero_add]
    rw [← this, ← hkk]
    have hdg := hw.degree
    cases c
    simp only at hdg
    rw [← hdg]
  simp [tab, hb]

/-- Each piece is its own only piece, and neighbouring pieces share a control point, weight included. -/
theorem C117_pieces {p : ℕ} (hp : 1 ≤ p) {c : Curve K} (hw : WFCurve p c) (hm : InteriorMult p c.Knots.Values) :
    ∃ segs, c.ExtractBezier = .ok segs ∧ (∀ s ∈ segs, s.ExtractBezier = .ok [s]) ∧
      ∀ j s t, segs[j]? = some s → segs[j + 1]? = some t → ∃ P, s.ControlPoints.getLast? = some P ∧ t.ControlPoints.head? = some P := by
  obtain ⟨c', m, hw', hs', hd, hlen, hkn, e, vs, hvs, hins, _⟩ := extractBezier_spec hp hw hm
  obtain ⟨p1, p2⟩ := dvals_spec hw
  refine ⟨_, e, ?_, ?_⟩
  · intro s hs
    simp only [tab, List.mem_map, List.mem_range] at hs
    obtain ⟨j, hj, rfl⟩ := hs
    exact C117_bezier hp (bezSeg_spec hp hw hw' hs' (d := dvals c.Knots) p1 hd hlen hkn j hj).1 rfl
  · intro j s t hs ht
    simp only [tab, List.getElem?_map, Option.map_eq_some_iff] at hs ht
    obtain ⟨j1, h1, rfl⟩ := hs
    obtain ⟨j2, h2, rfl⟩ := ht
    rw [List.getElem?_eq_some_iff] at h1 h2
    obtain ⟨_, h1⟩ := h1
    obtain ⟨_, h2⟩ := h2
    rw [List.getElem_range] at h1 h2
    subst h1 h2
    refine ⟨pt c'.ControlPoints (p * j + p), ?_, ?_⟩
    · simp [bezSeg, tab, List.range_succ]
    · simp [bezSeg, tab, List.range_succ_eq_map, Nat.mul_add]

/-- With equal weights the pieces depend on nothing but the degree, the values of the knots and the points of the curve. -/
theorem C117_path {p : ℕ} (hp : 1 ≤ p) {c c1 : Curve K} (hw : WFCurve p c) (hw1 : WFCurve p c1)
    (hm : InteriorMult p c.Knots.Values) (hm1 : InteriorMult p c1.Knots.Values)
    (hv : ∀ v, v ∈ c1.Knots.Values ↔ v ∈ c.Knots.Values) {w : K} (hwt : ∀ P ∈ c.ControlPoints, P.w = w)
    (hwt1 : ∀ P ∈ c1.ControlPoints, P.w = w) (h : ∀ x, 0 ≤ x → x < 1 → c1.Evaluate x = c.Evaluate x) :
    c1.ExtractBezier = c.ExtractBezier := by
  obtain ⟨c', m, hw', hs', hd, hlen, hkn, e, vs, hvs, hins, _⟩ := extractBezier_spec hp hw hm
  obtain ⟨c1', m1, hw1', hs1', hd1, hlen1, hkn1, e1, vs1, hvs1, hins1, _⟩ := extractBezier_spec hp hw1 hm1
  have hdv := dvals_congr hw hw1 hv
  rw [hdv] at hd1 hkn1
  obtain rfl : m1 = m := by omega
  have hQ : ∀ {c c' : Curve K} {vs : List K}, WFCurve p c → (∀ v ∈ vs, 0 < v ∧ v < 1) → (∀ P ∈ c.ControlPoints, P.w = w) →
      c.InsertKnotList vs = .ok c' → c'.ControlPoints.map (·.w) = List.replicate c'.ControlPoints.length w := by
    intro c c' vs hw hvs hwt hins
    have := insertList_convex (p := p) (Q := fun v : Vec4 K => v.w = w) (by
      intro a b r ha hb _ _
      have hr : (r • a + (1 - r) • b).w = r * a.w + (1 - r) * b.w := rfl
      rw [hr, ha, hb]; ring) vs hvs hw hp (fun i hi => hwt (pt c.ControlPoints i) (pt_mem _ _ hi)) hins
    rw [List.eq_replicate_iff]
    refine ⟨by simp, fun b hb => ?_⟩
    obtain ⟨P, hP, rfl⟩ := List.mem_map.mp hb
    obtain ⟨i, hi, rfl⟩ := List.getElem_of_mem hP
    have h := this i hi
    unfold hpts pt ToHomo at h
    simpa [List.getD_eq_getElem?_getD, List.getElem?_eq_getElem hi] using h
  have hc : c1' = c' := by
    have hk : c1'.Knots = c'.Knots := by
      cases h1 : c1'.Knots; cases h2 : c'.Knots
      rw [h1] at hkn1; rw [h2] at hkn
      rw [KnotVector.mk.injEq]
      exact hkn1.trans hkn.symm
    obtain ⟨p1, p2⟩ := dvals_spec hw
    refine C92_determined hw' hw1' hk ?_ ?_ ?_
    · rw [hQ hw hvs hwt hins, hQ hw1 hvs1 hwt1 hins1, hlen, hlen1]
    · intro v h0 h1
      rw [hkn, List.count_cons, List.count_append, count_reps, List.count_singleton]
      have := List.nodup_iff_count_le_one.mp (p1.imp fun h => h.ne) v
      have := Nat.mul_le_mul_left p this
      rw [if_neg (by simpa using h1.ne'), if_neg (by simpa using h0.ne)]
      omega
    · intro x h0 h1
      rw [hs'.evaluate hw hw' h0 h1.le, hs1'.evaluate hw1 hw1' h0 h1.le, h x h0 h1]
  rw [e, e1, hc]

/-- The rational example meets the hypotheses: its knot 1/4 is simple, a second copy of it leaves the pieces as they are … -/
example : (exCurve.InsertKnotList [1/4] >>= fun c => c.ExtractBezier) = exCurve.ExtractBezier ∧
    (exCurve.InsertKnotList [1/4]).map (·.ControlPoints.length) = .ok (exCurve.ControlPoints.length + 1) := by decide +kernel

/-- … a new knot does not. -/
example : (exCurve.InsertKnotList [1/3] >>= fun c => c.ExtractBezier) ≠ exCurve.ExtractBezier := by decide +kernel

theorem interiorMult_of_mem {p : ℕ} {l : List K} (h : ∀ v ∈ l, l.count v ≤ p ∨ v ≤ 0 ∨ 1 ≤ v) : InteriorMult p l := by
  intro v h0 h1
  by_cases hv : v ∈ l
  · rcases h v hv with h | h | h
    · exact h
    · exact absurd h0 (not_lt.mpr h)
    · exact absurd h1 (not_lt.mpr h)
  · rw [List.count_eq_zero_of_not_mem hv]; omega

example : InteriorMult 2 ([1/4] ++ exCurve.Knots.Values) := interiorMult_of_mem (by decide +kernel)

/-- Two different curves to which `C117_path` applies: one has a knot at 1/2, the other two. -/
example : ∃ c c1 : Curve ℚ, c1 ≠ c ∧ WFCurve 2 c ∧ WFCurve 2 c1 ∧ InteriorMult 2 c.Knots.Values ∧ InteriorMult 2 c1.Knots.Values ∧
    (∀ v, v ∈ c1.Knots.Values ↔ v ∈ c.Knots.Values) ∧ (∀ P ∈ c.ControlPoints, P.w = 1) ∧ (∀ P ∈ c1.ControlPoints, P.w = 1) ∧
    ∀ x, 0 ≤ x → x < 1 → c1.Evaluate x = c.Evaluate x := by
  have hw : WFCurve 2 (⟨2, ⟨[0, 0, 0, 1/2, 1, 1, 1]⟩, [⟨0, 0, 0, 1⟩, ⟨1, -2, 0, 1⟩, ⟨3, 1, 0, 1⟩, ⟨4, 1, 0, 1⟩]⟩ : Curve ℚ) :=
    ⟨rfl, ⟨by decide +kernel, by decide +kernel, by decide +kernel, by decide +kernel, by decide +kernel, by decide +kernel⟩, rfl,
      by decide +kernel⟩
  have hi : (⟨2, ⟨[0, 0, 0, 1/2, 1, 1, 1]⟩, [⟨0, 0, 0, 1⟩, ⟨1, -2, 0, 1⟩, ⟨3, 1, 0, 1⟩, ⟨4, 1, 0, 1⟩]⟩ : Curve ℚ).InsertKnotList [1/2] =
      .ok ⟨2, ⟨[0, 0, 0, 1/2, 1/2, 1, 1, 1]⟩, [⟨0, 0, 0, 1⟩, ⟨1, -2, 0, 1⟩, ⟨2, -1/2, 0, 1⟩, ⟨3, 1, 0, 1⟩, ⟨4, 1, 0, 1⟩]⟩ := by decide +kernel
  obtain ⟨c', e, hw', hperm, hs⟩ := insertList_spec [1/2] (by decide +kernel) hw
  rw [hi] at e
  cases e
  exact ⟨_, _, by decide +kernel, hw, hw', interiorMult_of_mem (by decide +kernel), interiorMult_of_mem (by decide +kernel),
    by intro v; simp, by decide +kernel, by decide +kernel, fun x h0 h1 => hs.evaluate hw hw' h0 h1.le⟩

end Nurbs.Props
