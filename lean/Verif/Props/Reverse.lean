import Verif.Proof.Reverse
import Verif.Props.Elevate
import Verif.Props.Curve

/-! # C96: a curve run through backwards -/

namespace Nurbs.Props
open Nurbs Nurbs.Spec Polynomial

set_option linter.unusedSectionVars false

variable {K : Type} [Field K] [LinearOrder K] [IsStrictOrderedRing K]

/-- C96 (points).  The curve run through backwards is well-formed and has the same points, at the parameters `1 - x` – everywhere but at
interior knots of multiplicity above the degree, where the curve may jump and the value from the right is returned. -/
theorem C96_evaluate {p : ℕ} {c : Curve K} (hw : WFCurve p c) :
    WFCurve p (backwards c) ∧ backwards (backwards c) = c ∧
    ∀ x, 0 ≤ x → x ≤ 1 → ¬ JumpAt p c.Knots.Values x → (backwards c).Evaluate (1 - x) = c.Evaluate x := by
  refine ⟨rev_wf hw, rev_rev c, fun x h0 h1 hj => ?_⟩
  obtain ⟨k, hk, _⟩ := exists_span hw.clamped h0 h1
  obtain ⟨k', hk', _⟩ := exists_span (rev_wf hw).clamped (x := 1 - x) (by linarith) (by linarith)
  obtain ⟨_, _, _, _, e1⟩ := evaluate_seg hw h0 h1 hk
  obtain ⟨_, _, _, _, e2⟩ := evaluate_seg (rev_wf hw) (x := 1 - x) (by linarith) (by linarith) hk'
  rw [e1, e2]
  congr 2
  exact seg_backwards hw h0 h1 hk hk' hj

theorem span_mirror {p : ℕ} {kv : KnotVector K} (hc : Clamped p kv.Values) {x : K} {k : ℕ} (hk : IsSpan kv.Values x k)
    (hx : x ∈ kv.Values → x = 0 ∨ x = 1) : IsSpan kv.Reverse.Values (1 - x) (kv.Values.length - 2 - k) := by
  obtain ⟨h1, h2, h3⟩ := hk
  have hr := IsSpan.le_right ⟨h1, h2, h3⟩
  have hl := reverse_length kv
  have e1 := kn_reverse kv (a := kv.Values.length - 2 - k) (b := k + 1) (by omega)
  have e2 := kn_reverse kv (a := kv.Values.length - 2 - k + 1) (b := k) (by omega)
  refine ⟨by omega, by rw [e1]; linarith, ?_⟩
  rw [e1, e2]
  rcases h2.lt_or_eq with h | h
  · left; linarith
  · have hm : x ∈ kv.Values := by
      rw [← h, kn_eq_getElem _ _ (show k < _ by omega)]
      exact List.getElem_mem _
    rcases hx hm with h0 | h0
    · right
      refine ⟨by linarith, ?_, by linarith⟩
      rcases h3 with h4 | ⟨h4, _, _⟩
      · linarith
      · rw [h0] at h4; exact absurd h4 zero_ne_one
    · exfalso
      have := hc.le_one (show k + 1 < _ by omega)
      rcases h3 with h4 | ⟨_, h4, _⟩ <;> linarith

/-- C96 (derivatives).  At every parameter that is not an interior knot, the derivative of order `r ≤ 29` of the curve run through
backwards is `(-1)^r` times the one of the curve. -/
theorem C96_derivative {p : ℕ} {c : Curve K} (hw : WFCurve p c) {x : K} (h0 : 0 ≤ x) (h1 : x ≤ 1) (hx : x ∈ c.Knots.Values → x = 0 ∨ x = 1)
    (r : ℕ) (hr : r ≤ 29) :
    ∃ D, c.EvaluateDerivative x r = .ok D ∧
      (backwards c).EvaluateDerivative (1 - x) r = .ok ⟨(-1) ^ r * D.x, (-1) ^ r * D.y, (-1) ^ r * D.z⟩ := by
  obtain ⟨k, hk, a1, a2⟩ := exists_span hw.clamped h0 h1
  have hk' := span_mirror hw.clamped hk hx
  have hct := hw.count
  obtain ⟨-, e1⟩ := curve_evaluateAll_ok hw h0 h1 hk r hr
  obtain ⟨-, e2⟩ := curve_evaluateAll_ok (rev_wf hw) (x := 1 - x) (by linarith) (by linarith) (k := c.Knots.Values.length - 2 - k) hk' r hr
  refine ⟨ratD p c k x r, ?_, ?_⟩
  · unfold Curve.EvaluateDerivative
    rw [e1, bind_ok, vget_tab _ _ _ r rfl (by omega)]
  · unfold Curve.EvaluateDerivative
    rw [e2, bind_ok, vget_tab _ _ _ r rfl (by omega)]
    congr 1
    unfold ratD
    simp only [curveP_rev hw (k := k) (k' := c.Knots.Values.length - 2 - k) (by omega) (by omega) (by omega), quotDeriv_rev]

theorem count_map_rev (vs : List K) (v : K) : (vs.map fun t => 1 - t).count v = vs.count (1 - v) := by
  have := List.count_map_of_injective vs (fun t : K => 1 - t) (fun a b h => by simpa using h) (1 - v)
  rwa [show (1 : K) - (1 - v) = v by ring] at this

/-- C96 (insertion).  Inserting `1 - v` for every `v` of a list into the curve run through backwards gives the refined curve run through
backwards. -/
theorem C96_insert {p : ℕ} {c : Curve K} (hw : WFCurve p c) (vs : List K) (hv : ∀ v ∈ vs, 0 < v ∧ v < 1)
    (hmult : InteriorMult (p + 1) (vs ++ c.Knots.Values)) :
    ∃ c', c.InsertKnotList vs = .ok c' ∧ (backwards c).InsertKnotList (vs.map fun v => 1 - v) = .ok (backwards c') := by
  obtain ⟨c1, e1, w1, k1, s1⟩ := insertList_spec vs hv hw
  obtain ⟨d1, e2, w2, k2, s2⟩ := insertList_spec (vs.map fun v => 1 - v) (fun v h => by
    obtain ⟨u, hu, rfl⟩ := List.mem_map.mp h
    have := hv u hu
    exact ⟨by linarith [this.2], by linarith [this.1]⟩) (rev_wf hw)
  refine ⟨c1, e1, ?_⟩
  rw [e2]
  congr 1
  refine rev_unique hw w1 w2 ?_ ?_ (fun v h => k1.mem_iff.mpr (List.mem_append_right _ h)) (sameSeg_of_polar hw w1 s1)
    (sameSeg_of_polar (rev_wf hw) w2 s2)
  · apply List.Perm.eq_of_pairwise (fun x y _ _ h1 h2 => le_antisymm h1 h2) w2.clamped.sorted (clamped_reverse w1.clamped).sorted
    rw [List.perm_iff_count]
    intro v
    rw [k2.count_eq, (C11_reverse c1.Knots).2.2.2.2, k1.count_eq, List.count_append, List.count_append, count_map_rev]
    congr 1
    exact (C11_reverse c.Knots).2.2.2.2 v
  · intro v h0 h1
    rw [k1.count_eq]
    exact hmult v h0 h1

theorem dvals_rev {kv : KnotVector K} (hs : kv.Values.Pairwise (· ≤ ·)) (hs' : kv.Reverse.Values.Pairwise (· ≤ ·)) (v : K) :
    (dvals kv.Reverse).count v = (dvals kv).count (1 - v) := by
  obtain ⟨p1, p2, _⟩ := (C03_pairs_roundtrip kv).2.2 hs
  obtain ⟨q1, q2, _⟩ := (C03_pairs_roundtrip kv.Reverse).2.2 hs'
  have n1 : (dvals kv).Nodup := p1.imp fun h => h.ne
  have n2 : (dvals kv.Reverse).Nodup := q1.imp fun h => h.ne
  rw [List.Nodup.count n1, List.Nodup.count n2]
  have : v ∈ dvals kv.Reverse ↔ 1 - v ∈ dvals kv := by
    unfold dvals
    rw [p2, q2, mem_reverse]
  by_cases h : v ∈ dvals kv.Reverse
  · rw [if_pos h, if_pos (this.mp h)]
  · rw [if_neg h, if_neg (fun h' => h (this.mpr h'))]

/-- C96 (Bezier pieces).  The Bezier pieces of the curve run through backwards are the pieces of the curve, each run through backwards, in
the opposite order. -/
theorem C96_extractBezier {p : ℕ} {c : Curve K} (hw : WFCurve p c) (hp : 1 ≤ p) (hmult : InteriorMult p c.Knots.Values) :
    ∃ segs, c.ExtractBezier = .ok segs ∧ (backwards c).ExtractBezier = .ok (segs.reverse.map backwards) := by
  have hs := hw.clamped.sorted
  have hs' := (clamped_reverse hw.clamped).sorted
  obtain ⟨c1, m, w1, s1, m1, l1, k1, e1, _⟩ := extractBezier_spec hp hw hmult
  obtain ⟨d1, m', w2, s2, m2, l2, k2, e2, _⟩ := extractBezier_spec hp (rev_wf hw) (fun v h0 h1 => by
    show c.Knots.Reverse.Values.count v ≤ p
    rw [(C11_reverse c.Knots).2.2.2.2]
    exact hmult _ (by linarith) (by linarith))
  have hd := dvals_rev hs hs'
  obtain ⟨p1, p2, _⟩ := (C03_pairs_roundtrip c.Knots).2.2 hs
  have n1 : (dvals c.Knots).Nodup := p1.imp fun h => h.ne
  have hm : m' = m := by
    have : (dvals c.Knots.Reverse).Perm ((dvals c.Knots).map fun t => 1 - t) := by
      rw [List.perm_iff_count]
      intro v
      rw [hd, count_map_rev]
    have := this.length_eq
    rw [List.length_map, m1] at this
    have h3 : (dvals (backwards c).Knots).length = (dvals c.Knots.Reverse).length := rfl
    omega
  subst hm
  have hd1 : d1 = backwards c1 := by
    refine rev_unique hw w1 w2 ?_ ?_ ?_ (sameSeg_of_polar hw w1 s1) (sameSeg_of_polar (rev_wf hw) w2 s2)
    · apply List.Perm.eq_of_pairwise (fun x y _ _ h1 h2 => le_antisymm h1 h2) w2.clamped.sorted (clamped_reverse w1.clamped).sorted
      rw [List.perm_iff_count]
      intro v
      rw [(C11_reverse c1.Knots).2.2.2.2, k1, k2]
      simp only [List.count_cons, List.count_append, List.count_nil, count_reps, beq_iff_eq]
      have h3 : (dvals (backwards c).Knots).count v = (dvals c.Knots).count (1 - v) := hd v
      rw [h3]
      have g1 : ((1 : K) = v) ↔ (0 : K) = 1 - v := ⟨fun h => by rw [← h]; ring, fun h => by linarith⟩
      have g2 : ((0 : K) = v) ↔ (1 : K) = 1 - v := ⟨fun h => by rw [← h]; ring, fun h => by linarith⟩
      simp only [g1, g2]
      omega
    · intro v h0 h1
      rw [k1]
      simp only [List.count_cons, List.count_append, List.count_nil, count_reps, beq_iff_eq]
      rw [if_neg h0.ne, if_neg h1.ne']
      have := List.nodup_iff_count_le_one.mp n1 v
      have := Nat.mul_le_mul_left p this
      omega
    · intro v h
      rw [k1]
      have := (p2 v).mpr h
      have h4 := List.count_pos_iff.mpr (show v ∈ dvals c.Knots from this)
      have h5 : v ∈ reps p (dvals c.Knots) := by
        rw [← List.count_pos_iff, count_reps]
        exact Nat.mul_pos (by omega) h4
      simp [h5]
  refine ⟨_, e1, ?_⟩
  rw [e2, hd1]
  congr 1
  apply List.ext_getElem
  · simp
  · intro j h1 h2
    simp only [tab_length] at h1
    rw [tab_getElem, List.getElem_map, List.getElem_reverse, tab_getElem]
    simp only [tab_length]
    unfold bezSeg backwards
    simp only
    congr 1
    · unfold KnotVector.Reverse
      simp
    · apply List.ext_getElem
      · simp
      · intro r h3 h4
        simp only [tab_length] at h3
        rw [tab_getElem, List.getElem_reverse, tab_getElem]
        simp only [tab_length]
        apply pt_reverse
        rw [l1]
        obtain ⟨i, rfl⟩ : ∃ i, m' = i + j + 1 := ⟨m' - 1 - j, by omega⟩
        rw [show i + j + 1 - 1 - j = i by omega]
        have : p * (i + j + 1) = p * i + p * j + p := by ring
        omega

/-- C96 (elevation), partial.  Elevating the curve run through backwards gives the elevated curve run through backwards.  Missing: the
cases in which elevation does not work in one of the directions, see `C96_elevate_refuted`, C36 and C37. -/
theorem C96_elevate_partial {p t : ℕ} {c : Curve K} (hw : WFCurve p c) (hp : 1 ≤ p) (ht : 1 ≤ t) (h29 : p + t ≤ 29)
    (hmult : InteriorMult p c.Knots.Values) (hapart : KnotsApart c.Knots.Values) (hsteady : SteadyMult p t c.Knots.Values)
    (hsteady' : SteadyMult p t c.Knots.Reverse.Values)
    (hbuf : c.ControlPoints.length + t * spanCount c.Knots.Values ≤ 2 * (c.ControlPoints.length - 1 + t)) :
    ∃ c', c.ElevateDegree t = .ok c' ∧ (backwards c).ElevateDegree t = .ok (backwards c') := by
  have hcnt := (C11_reverse c.Knots).2.2.2.2
  have hsp : spanCount c.Knots.Reverse.Values = spanCount c.Knots.Values := by
    unfold spanCount
    have : c.Knots.Reverse.Values.dedup.Perm (c.Knots.Values.dedup.map fun t => 1 - t) := by
      rw [List.perm_iff_count]
      intro v
      rw [count_map_rev, List.Nodup.count (List.nodup_dedup _), List.Nodup.count (List.nodup_dedup _)]
      simp only [List.mem_dedup, mem_reverse]
    rw [this.length_eq, List.length_map]
  obtain ⟨c1, e1, w1, r1, l1, g1⟩ := elevateDegree_seg hp ht h29 hw hmult hapart hsteady hbuf
  obtain ⟨d1, e2, w2, r2, l2, g2⟩ := elevateDegree_seg hp ht h29 (rev_wf hw)
    (fun v h0 h1 => by
      show c.Knots.Reverse.Values.count v ≤ p
      rw [hcnt]
      exact hmult _ (by linarith) (by linarith))
    (fun a ha b hb => by
      have := hapart (1 - b) (mem_reverse.mp hb) (1 - a) (mem_reverse.mp ha)
      intro hab
      have := this (by linarith)
      linarith) hsteady'
    (by
      show c.ControlPoints.reverse.length + t * spanCount c.Knots.Reverse.Values ≤ 2 * (c.ControlPoints.reverse.length - 1 + t)
      rw [hsp, List.length_reverse]
      exact hbuf)
  refine ⟨c1, e1, ?_⟩
  rw [e2]
  congr 1
  refine rev_unique hw w1 w2 ?_ ?_ (fun v h => (r1.mem v).mpr h) g1 g2
  · apply List.Perm.eq_of_pairwise (fun x y _ _ h1 h2 => le_antisymm h1 h2) w2.clamped.sorted (clamped_reverse w1.clamped).sorted
    rw [List.perm_iff_count]
    intro v
    rw [r2.2, (C11_reverse c1.Knots).2.2.2.2, r1.2]
    show c.Knots.Reverse.Values.count v + (if v ∈ c.Knots.Reverse.Values then t else 0) = _
    rw [hcnt]
    simp only [mem_reverse]
  · intro v h0 h1
    have := raised_interior r1 hmult v h0 h1
    omega

/-- C96 (elevation), partial.  Elevation by one of a curve of degree at most 9. -/
theorem C96_elevate_once_partial {p : ℕ} {c : Curve K} (hw : WFCurve p c) (hp : 1 ≤ p) (h9 : p ≤ 9)
    (hmult : InteriorMult p c.Knots.Values) (hapart : KnotsApart c.Knots.Values) :
    ∃ c', c.ElevateDegree 1 = .ok c' ∧ (backwards c).ElevateDegree 1 = .ok (backwards c') :=
  C96_elevate_partial (t := 1) hw hp le_rfl (by omega) hmult hapart (steady_of_low h9 le_rfl _) (steady_of_low h9 le_rfl _) (buf_once hw)

/-- C96 is false of elevation at degree 10: the elevation of `exTen` is wrong (C36) whereas the one of the curve run through backwards is
right. -/
theorem C96_elevate_refuted : WFCurve 10 exTen ∧ ∃ c d, exTen.ElevateDegree 1 = .ok c ∧ (backwards exTen).ElevateDegree 1 = .ok d ∧
    d ≠ backwards c ∧ d.Evaluate (1/2) = exTen.Evaluate (1/2) ∧ c.Evaluate (1/2) ≠ exTen.Evaluate (1/2) := by
  have h : ∃ c d, exTen.ElevateDegree 1 = .ok c ∧ (backwards exTen).ElevateDegree 1 = .ok d := by
    rcases h1 : exTen.ElevateDegree 1 with e | c
    · exact absurd h1 (by have : (exTen.ElevateDegree 1).toOption.isSome = true := by decide +kernel
                          intro h; rw [h] at this; simp [Except.toOption] at this)
    · rcases h2 : (backwards exTen).ElevateDegree 1 with e | d
      · exact absurd h2 (by have : ((backwards exTen).ElevateDegree 1).toOption.isSome = true := by decide +kernel
                            intro h; rw [h] at this; simp [Except.toOption] at this)
      · exact ⟨c, d, rfl, rfl⟩
  obtain ⟨c, d, h1, h2⟩ := h
  have a1 : ((backwards exTen).ElevateDegree 1 >>= fun d => d.Evaluate (1/2)) = exTen.Evaluate (1/2) := by decide +kernel
  have a2 : (exTen.ElevateDegree 1 >>= fun d => d.Evaluate (1/2)) ≠ exTen.Evaluate (1/2) := by decide +kernel
  have a3 : (backwards exTen).ElevateDegree 1 ≠ (exTen.ElevateDegree 1).map backwards := by decide +kernel
  rw [h2, bind_ok] at a1
  rw [h1, bind_ok] at a2
  rw [h1, h2] at a3
  exact ⟨exTen_wf, c, d, h1, h2, fun h => a3 (by rw [h]; rfl), a1, a2⟩

/-- A concrete case, in all operations. -/
example : (backwards exCurve).Evaluate (1/2) = exCurve.Evaluate (1/2) ∧ backwards exCurve ≠ exCurve := by decide +kernel
example : ¬ JumpAt 2 exCurve.Knots.Values (1/2) := by
  rintro ⟨_, _, i, hi, h1, h2⟩
  have hl : exCurve.Knots.Values.length = 9 := by decide +kernel
  have : i < 9 := by omega
  interval_cases i <;> revert h1 h2 <;> decide +kernel
example : ((backwards exCurve).InsertKnotList [1/2, 1/4]) = (exCurve.InsertKnotList [1/2, 3/4]).map backwards ∧
    ((backwards exCurve).ElevateDegree 1) = (exCurve.ElevateDegree 1).map backwards ∧
    ((backwards exCurve).ExtractBezier) = exCurve.ExtractBezier.map fun l => l.reverse.map backwards := by decide +kernel

end Nurbs.Props
