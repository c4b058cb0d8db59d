import Verif.Props.Elevate
import Verif.Props.Insert
import Verif.Props.Surface
import Verif.Proof.Path

/-! # C92: the way to a refined curve does not matter -/

namespace Nurbs.Props
open Nurbs Nurbs.Spec

set_option linter.unusedSectionVars false

variable {K : Type} [Field K] [LinearOrder K] [IsStrictOrderedRing K]

/-- C92 (elevation in steps), partial.  Elevating by `a` and then by `b` gives the same object as elevating by `a + b` at once.  Missing
for the full claim: the inputs on which elevation is wrong (C36, C37). -/
theorem C92_elevate_steps_partial {p a b : ℕ} {c : Curve K} (hw : WFCurve p c) (hp : 1 ≤ p) (ha : 1 ≤ a) (hb : 1 ≤ b) (h29 : p + a + b ≤ 29)
    (hmult : InteriorMult p c.Knots.Values) (hapart : KnotsApart c.Knots.Values) (hsteady : SteadyMult p a c.Knots.Values)
    (hbuf : c.ControlPoints.length + (a + b) * spanCount c.Knots.Values ≤ 2 * (c.ControlPoints.length - 1 + (a + b))) :
    ∃ c1 c2, c.ElevateDegree a = .ok c1 ∧ c1.ElevateDegree b = .ok c2 ∧ c.ElevateDegree (a + b : ℕ) = .ok c2 := by
  obtain ⟨hs1, hs2⟩ := spanCount_le hw
  have hbufa : c.ControlPoints.length + a * spanCount c.Knots.Values ≤ 2 * (c.ControlPoints.length - 1 + a) := by
    obtain ⟨s, hs⟩ : ∃ s, s = spanCount c.Knots.Values := ⟨_, rfl⟩
    rw [← hs] at hbuf hs1 hs2 ⊢
    clear hs
    rcases s with _ | _ | s
    · omega
    · omega
    · have e1 : (a + b) * (s + 1 + 1) = a * s + b * s + 2 * a + 2 * b := by ring
      have e2 : a * (s + 1 + 1) = a * s + 2 * a := by ring
      rw [e1] at hbuf; rw [e2]
      omega
  obtain ⟨c1, e1, w1, r1, l1, g1⟩ := elevateDegree_seg hp ha (by omega) hw hmult hapart hsteady hbufa
  have hsp : spanCount c1.Knots.Values = spanCount c.Knots.Values := spanCount_congr r1.mem
  obtain ⟨c2, e2, w2, r2, l2, g2⟩ := elevateDegree_seg (t := b) (by omega) hb (by omega) w1 (raised_interior r1 hmult)
    (knotsApart_congr (fun v => (r1.mem v).mp) hapart) (raised_steady r1 hsteady) (by
      rw [l1, hsp]
      have : (a + b) * spanCount c.Knots.Values = a * spanCount c.Knots.Values + b * spanCount c.Knots.Values := by ring
      have h3 := Nat.mul_le_mul_left a hs1
      rw [this] at hbuf
      omega)
  obtain ⟨c3, e3, w3, r3, l3, g3⟩ := elevateDegree_seg (t := a + b) hp (by omega) (by omega) hw hmult hapart
    (steady_mono hsteady (by omega)) hbuf
  refine ⟨c1, c2, e1, e2, ?_⟩
  rw [e3]
  congr 1
  have w2' : WFCurve (p + (a + b)) c2 := by rw [← add_assoc]; exact w2
  refine path_unique hw w3 w2' (r3.unique (r1.add r2)) ?_ g3 ?_
  · intro v h0 h1
    have := raised_interior r3 hmult v h0 h1
    omega
  · have := g1.trans g2 w1
    rwa [add_assoc] at this

/-- C92 (elevation and insertion), partial.  Inserting knots and then elevating by `t` gives the same object as elevating first and
inserting then: the same values, and `t` more copies of every value that is not a knot yet.  Missing: as above. -/
theorem C92_insert_elevate_partial {p t : ℕ} {c : Curve K} (hw : WFCurve p c) (hp : 1 ≤ p) (ht : 1 ≤ t) (h29 : p + t ≤ 29) (vs ws : List K)
    (hv : ∀ v ∈ vs, 0 < v ∧ v < 1)
    (hws : ∀ v, ws.count v = vs.count v + if v ∈ vs ∧ v ∉ c.Knots.Values then t else 0)
    (hmult : InteriorMult p (vs ++ c.Knots.Values)) (hapart : KnotsApart (vs ++ c.Knots.Values))
    (hsteady : SteadyMult p t c.Knots.Values) (hsteady' : SteadyMult p t (vs ++ c.Knots.Values))
    (hbuf : c.ControlPoints.length + t * spanCount c.Knots.Values ≤ 2 * (c.ControlPoints.length - 1 + t))
    (hbuf' : c.ControlPoints.length + vs.length + t * spanCount (vs ++ c.Knots.Values) ≤ 2 * (c.ControlPoints.length + vs.length - 1 + t)) :
    ∃ c1 c2 c', c.InsertKnotList vs = .ok c1 ∧ c1.ElevateDegree t = .ok c' ∧ c.ElevateDegree t = .ok c2 ∧ c2.InsertKnotList ws = .ok c' := by
  obtain ⟨c1, e1, w1, k1, s1⟩ := insertList_spec vs hv hw
  have hmem : ∀ v, v ∈ c1.Knots.Values ↔ v ∈ vs ++ c.Knots.Values := fun v => k1.mem_iff
  have hcnt : ∀ v, c1.Knots.Values.count v = (vs ++ c.Knots.Values).count v := fun v => k1.count_eq v
  have hl1 : c1.ControlPoints.length = c.ControlPoints.length + vs.length := by
    have a1 := hw.count
    have a2 := w1.count
    have a3 := k1.length_eq
    rw [List.length_append] at a3
    omega
  have hm1 : InteriorMult p c1.Knots.Values := fun v h0 h1 => by rw [hcnt]; exact hmult v h0 h1
  obtain ⟨c', e', w', r', l', g'⟩ := elevateDegree_seg (t := t) hp ht h29 w1 hm1 (knotsApart_congr (fun v => (hmem v).mp) hapart)
    (fun a b hn h0 h1 => by rw [hcnt, hcnt]; exact hsteady' a b ((neighbours_congr hmem).mp hn) h0 h1)
    (by rw [hl1, spanCount_congr hmem]; exact hbuf')
  have hm0 : InteriorMult p c.Knots.Values := fun v h0 h1 => by
    have := hmult v h0 h1
    rw [List.count_append] at this
    omega
  obtain ⟨c2, e2, w2, r2, l2, g2⟩ := elevateDegree_seg (t := t) hp ht h29 hw hm0
    (knotsApart_congr (fun v hv => List.mem_append_right _ hv) hapart) hsteady hbuf
  have hws01 : ∀ v ∈ ws, 0 < v ∧ v < 1 := by
    intro v h
    have h1 := List.count_pos_iff.mpr h
    rw [hws] at h1
    apply hv
    by_contra h2
    rw [List.count_eq_zero.mpr h2, if_neg (fun h => h2 h.1)] at h1
    omega
  obtain ⟨c3, e3, w3, k3, s3⟩ := insertList_spec ws hws01 w2
  refine ⟨c1, c2, c', e1, e', e2, ?_⟩
  rw [e3]
  congr 1
  have hk : c'.Knots.Values = c3.Knots.Values := by
    apply List.Perm.eq_of_pairwise (fun x y _ _ h1 h2 => le_antisymm h1 h2) r'.1 w3.clamped.sorted
    rw [List.perm_iff_count]
    intro v
    rw [r'.2, k3.count_eq, hcnt, List.count_append, List.count_append, hws, r2.2]
    have a1 := hmem v
    rw [List.mem_append] at a1
    by_cases h1 : v ∈ c.Knots.Values
    · rw [if_pos (a1.mpr (Or.inr h1)), if_pos h1, if_neg (fun h => h.2 h1)]; omega
    · by_cases h2 : v ∈ vs
      · rw [if_pos (a1.mpr (Or.inl h2)), if_neg h1, if_pos ⟨h2, h1⟩]; omega
      · rw [if_neg (fun h => (a1.mp h).elim h2 h1), if_neg h1, if_neg (fun h => h2 h.1)]; omega
  refine (path_unique hw w' w3 hk ?_ ((sameSeg_of_polar hw w1 s1).trans g' w1) (g2.trans (sameSeg_of_polar w2 w3 s3) w2)).symm
  intro v h0 h1
  have := raised_interior r' hm1 v h0 h1
  omega

/-- C92, partial, for a single elevation and degrees up to 9: only the multiplicity and the distance of the knots matter. -/
theorem C92_insert_elevate_once_partial {p : ℕ} {c : Curve K} (hw : WFCurve p c) (hp : 1 ≤ p) (h9 : p ≤ 9) (vs ws : List K)
    (hv : ∀ v ∈ vs, 0 < v ∧ v < 1) (hws : ∀ v, ws.count v = vs.count v + if v ∈ vs ∧ v ∉ c.Knots.Values then 1 else 0)
    (hmult : InteriorMult p (vs ++ c.Knots.Values)) (hapart : KnotsApart (vs ++ c.Knots.Values)) :
    ∃ c1 c2 c', c.InsertKnotList vs = .ok c1 ∧ c1.ElevateDegree 1 = .ok c' ∧ c.ElevateDegree 1 = .ok c2 ∧ c2.InsertKnotList ws = .ok c' := by
  refine C92_insert_elevate_partial (t := 1) hw hp le_rfl (by omega) vs ws hv hws hmult hapart (steady_of_low h9 le_rfl _)
    (steady_of_low h9 le_rfl _) (buf_once hw) ?_
  obtain ⟨c1, e1, w1, k1, s1⟩ := insertList_spec vs hv hw
  have := buf_once w1
  have a1 := hw.count
  have a2 := w1.count
  have a3 := k1.length_eq
  rw [List.length_append] at a3
  rw [← spanCount_congr (fun v => k1.mem_iff)]
  have : c1.ControlPoints.length = c.ControlPoints.length + vs.length := by omega
  rw [← this]
  assumption

/-! ### The points determine the control points -/

theorem proj_inj {v w : Vec4 K} (hv : v.w ≠ 0) (hw : v.w = w.w) (h : proj v = proj w) : v = w := by
  have h1 := congrArg Vec3.x h
  have h2 := congrArg Vec3.y h
  have h3 := congrArg Vec3.z h
  simp only [proj, ← hw] at h1 h2 h3
  ext
  · exact (div_left_inj' hv).mp h1
  · exact (div_left_inj' hv).mp h2
  · exact (div_left_inj' hv).mp h3
  · exact hw

/-- C92 (curves are determined by their points).  Two well-formed curves of the same degree with the same knots and weights that
`Evaluate` to the same points everywhere are equal – provided no interior knot has multiplicity above `p + 1`. -/
theorem C92_determined {p : ℕ} {c c' : Curve K} (hw : WFCurve p c) (hw' : WFCurve p c') (hk : c'.Knots = c.Knots)
    (hwt : c'.ControlPoints.map (·.w) = c.ControlPoints.map (·.w)) (hm : InteriorMult (p + 1) c.Knots.Values)
    (h : ∀ x, 0 ≤ x → x < 1 → c'.Evaluate x = c.Evaluate x) : c' = c := by
  have hlen : c'.ControlPoints.length = c.ControlPoints.length := by simpa using congrArg List.length hwt
  have hwi : ∀ i < c.ControlPoints.length, (hpts c'.ControlPoints i).w = (hpts c.ControlPoints i).w := by
    intro i hi
    have e := congrArg (fun l : List K => l[i]?) hwt
    simp only [List.getElem?_map, List.getElem?_eq_getElem hi, List.getElem?_eq_getElem (hlen.symm ▸ hi), Option.map_some,
      Option.some.injEq] at e
    unfold hpts ToHomo pt
    simpa [List.getD_eq_getElem?_getD, List.getElem?_eq_getElem hi, List.getElem?_eq_getElem (hlen.symm ▸ hi)] using e
  refine curve_unique hw hw' hk hm fun x k h0 h1 hs => ?_
  obtain ⟨a, b, _, hpos, e⟩ := evaluate_seg hw h0 h1.le hs
  obtain ⟨_, _, _, hpos', e'⟩ := evaluate_seg hw' h0 h1.le (k := k) (by rw [hk]; exact hs)
  have hE := h x h0 h1
  rw [e, e'] at hE
  have hE := Except.ok.inj hE
  rw [hk] at hE hpos'
  refine proj_inj hpos'.ne' ?_ hE
  have hct := hw.count
  have l1 := seg_map (Vec4.lw (K := K)) (kn c.Knots.Values) k x p (hpts c'.ControlPoints)
  have l2 := seg_map (Vec4.lw (K := K)) (kn c.Knots.Values) k x p (hpts c.ControlPoints)
  exact l1.trans ((seg_congr a fun i _ hi => hwi i (by omega)).trans l2.symm)

/-- C92 (surfaces are determined by their points). -/
theorem C92_determined_surface {p q m n : ℕ} {s s' : Surface K} (hw : WFSurface p q m n s) (hw' : WFSurface p q m n s')
    (hku : s'.KnotsU = s.KnotsU) (hkv : s'.KnotsV = s.KnotsV) (hwt : ∀ i < m, ∀ j < n, (cp s' i j).w = (cp s i j).w)
    (hmu : InteriorMult (p + 1) s.KnotsU.Values) (hmv : InteriorMult (q + 1) s.KnotsV.Values)
    (h : ∀ u v, 0 ≤ u → u < 1 → 0 ≤ v → v < 1 → s'.Evaluate u v = s.Evaluate u v) : s' = s := by
  have hseg : ∀ u v ku kv, 0 ≤ u → u < 1 → 0 ≤ v → v < 1 → IsSpan s.KnotsU.Values u ku → IsSpan s.KnotsV.Values v kv →
      surfSeg p q s' ku kv u v = surfSeg p q s ku kv u v := by
    intro u v ku kv hu0 hu1 hv0 hv1 hsu hsv
    obtain ⟨a1, a2, a3, a4, _, _, hpos, e⟩ := surface_seg hw hu0 hu1.le hv0 hv1.le hsu hsv
    obtain ⟨_, _, _, _, _, _, hpos', e'⟩ := surface_seg hw' hu0 hu1.le hv0 hv1.le (ku := ku) (kv := kv) (by rw [hku]; exact hsu)
      (by rw [hkv]; exact hsv)
    have hE := h u v hu0 hu1 hv0 hv1
    rw [e, e'] at hE
    refine proj_inj hpos'.ne' ?_ (Except.ok.inj hE)
    unfold surfSeg sseg
    rw [hku, hkv]
    have l1 := seg_map (Vec4.lw (K := K)) (kn s.KnotsV.Values) kv v q (fun j => seg (kn s.KnotsU.Values) ku u p fun i => hcp s' i j)
    have l2 := seg_map (Vec4.lw (K := K)) (kn s.KnotsV.Values) kv v q (fun j => seg (kn s.KnotsU.Values) ku u p fun i => hcp s i j)
    refine l1.trans ((seg_congr a3 fun j _ hj => ?_).trans l2.symm)
    rw [seg_map, seg_map]
    exact seg_congr a1 fun i _ hi => hwt i (by omega) j (by omega)
  have hpt : ∀ i < m, ∀ j < n, hcp s' i j = hcp s i j := by
    intro i hi j hj
    refine points_unique hw.clampedV hw.knotsV hmv (fun j => hcp s' i j) (fun j => hcp s i j) (fun v kv hv0 hv1 hsv => ?_) j hj
    refine points_unique hw.clampedU hw.knotsU hmu (fun i => seg (kn s.KnotsV.Values) kv v q fun j => hcp s' i j)
      (fun i => seg (kn s.KnotsV.Values) kv v q fun j => hcp s i j) (fun u ku hu0 hu1 hsu => ?_) i hi
    have := hseg u v ku kv hu0 hu1 hv0 hv1 hsu hsv
    unfold surfSeg at this
    rwa [hku, hkv, sseg_swap, sseg_swap] at this
  refine Surface.ext (hw'.degreeU.trans hw.degreeU.symm) (hw'.degreeV.trans hw.degreeV.symm) hku hkv ?_
  rw [WFSurface.grid hw, WFSurface.grid hw']
  refine gridOf_congr fun i hi j hj => ?_
  have e := congrArg unhomo (hpt i hi j hj)
  unfold hcp at e
  rwa [unhomo_toHomo (hw'.weights i hi j hj).ne', unhomo_toHomo (hw.weights i hi j hj).ne'] at e

/-! ### Concrete cases -/

example : ∃ c1 c2, exElev.ElevateDegree (1 : ℕ) = .ok c1 ∧ c1.ElevateDegree (1 : ℕ) = .ok c2 ∧ exElev.ElevateDegree (1 + 1 : ℕ) = .ok c2 :=
  C92_elevate_steps_partial exElev_wf (by norm_num) (by norm_num) (by norm_num) (by norm_num) exElev_mult exElev_apart
    (steady_of_low (by norm_num) (by norm_num) _) (by decide +kernel)

/-- What the code computes on it. -/
example : (exElev.ElevateDegree 1 >>= fun c => c.ElevateDegree 1) = exElev.ElevateDegree 2 := by decide +kernel

example : (exElev.InsertKnotList [3/4, 1/3] >>= fun c => c.ElevateDegree 1) =
    (exElev.ElevateDegree 1 >>= fun c => c.InsertKnotList [3/4, 3/4, 1/3]) := by decide +kernel

theorem exElev_count (v : ℚ) (h0 : v ≠ 0) (h1 : v ≠ 1) : ([3/4, 1/3] ++ exElev.Knots.Values).count v ≤ 2 := by
  have e : ([3/4, 1/3] ++ exElev.Knots.Values) = [3/4, 1/3, 0, 0, 0, 1/3, 1/2, 1/2, 1, 1, 1] := by decide +kernel
  rw [e]
  simp only [List.count_cons, List.count_nil, beq_iff_eq]
  rw [if_neg (Ne.symm h0), if_neg (Ne.symm h1)]
  by_cases a : (3/4 : ℚ) = v
  · subst a; norm_num
  by_cases b : (1/3 : ℚ) = v
  · subst b; norm_num
  by_cases c : (1/2 : ℚ) = v
  · subst c; norm_num
  rw [if_neg a, if_neg b, if_neg c]
  norm_num

example : ∃ c1 c2 c', exElev.InsertKnotList [3/4, 1/3] = .ok c1 ∧ c1.ElevateDegree 1 = .ok c' ∧ exElev.ElevateDegree 1 = .ok c2 ∧
    c2.InsertKnotList [3/4, 3/4, 1/3] = .ok c' := by
  refine C92_insert_elevate_once_partial exElev_wf (by norm_num) (by norm_num) _ _ ?_ ?_ ?_ (by unfold KnotsApart; decide +kernel)
  · intro v hv
    simp only [List.mem_cons, List.not_mem_nil, or_false] at hv
    rcases hv with rfl | rfl <;> norm_num
  · intro v
    by_cases a : v = 3/4
    · subst a; decide +kernel
    by_cases b : v = 1/3
    · subst b; decide +kernel
    have : ¬ (v ∈ ([3/4, 1/3] : List ℚ) ∧ v ∉ exElev.Knots.Values) := fun h => by
      rcases List.mem_cons.mp h.1 with h | h
      · exact a h
      · exact b (List.mem_singleton.mp h)
    rw [if_neg this]
    simp only [List.count_cons, List.count_nil, beq_iff_eq]
    rw [if_neg (Ne.symm a), if_neg (Ne.symm b)]
  · exact fun v h0 h1 => exElev_count v h0.ne' h1.ne

example (c : Curve ℚ) (hw : WFCurve 2 c) (hk : c.Knots = exElev.Knots)
    (hwt : c.ControlPoints.map (·.w) = exElev.ControlPoints.map (·.w)) (h : ∀ x, 0 ≤ x → x < 1 → c.Evaluate x = exElev.Evaluate x) :
    c = exElev :=
  C92_determined exElev_wf hw hk hwt (fun v h0 h1 => (exElev_mult v h0 h1).trans (by norm_num)) h

/-- Five control points of degree 1; the middle one can be chosen. -/
def exHidden (y : ℚ) : Curve ℚ :=
  ⟨1, ⟨[0, 0, 1/2, 1/2, 1/2, 1, 1]⟩, [⟨0, 0, 0, 1⟩, ⟨1, 0, 0, 1⟩, ⟨2, y, 0, 1⟩, ⟨3, 0, 0, 1⟩, ⟨4, 0, 0, 1⟩]⟩

theorem exHidden_wf (y : ℚ) : WFCurve 1 (exHidden y) := by
  have hc : Clamped 1 ([0, 0, 1/2, 1/2, 1/2, 1, 1] : List ℚ) :=
    ⟨by decide +kernel, by decide +kernel, by decide +kernel, by decide +kernel, by decide +kernel, by decide +kernel⟩
  refine ⟨rfl, hc, rfl, ?_⟩
  intro i hi
  have hi : i < 5 := hi
  interval_cases i <;> simp [exHidden, pt]

/-- C92, the condition on the multiplicity: a knot of multiplicity `p + 2` hides a control point. -/
theorem C92_multiplicity_needed : exHidden 0 ≠ exHidden 7 ∧ ∀ x, 0 ≤ x → x ≤ 1 → (exHidden 7).Evaluate x = (exHidden 0).Evaluate x := by
  refine ⟨by decide +kernel, fun x h0 h1 => ?_⟩
  obtain ⟨k, hk, hk1, hk2⟩ := exists_span (exHidden_wf 0).clamped h0 h1
  have hl : (exHidden 0).Knots.Values.length = 7 := rfl
  obtain ⟨_, _, _, _, e⟩ := evaluate_seg (exHidden_wf 0) h0 h1 hk
  obtain ⟨_, _, _, _, e'⟩ := evaluate_seg (exHidden_wf 7) h0 h1 (k := k) hk
  rw [e, e']
  congr 2
  have hne : k ≠ 2 ∧ k ≠ 3 := by
    obtain ⟨_, _, h3⟩ := hk
    constructor <;> rintro rfl <;> simp [exHidden, kn] at * <;> linarith
  refine seg_congr hk1 fun i hi1 hi2 => ?_
  have : i = 0 ∨ i = 1 ∨ i = 3 ∨ i = 4 := by omega
  rcases this with rfl | rfl | rfl | rfl <;> rfl

end Nurbs.Props
