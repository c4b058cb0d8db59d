import Verif.Spec.Samples
import Verif.Props.Path

/-! # C115: finitely many points decide whether two curves or surfaces are the same -/

set_option linter.unusedSectionVars false

namespace Nurbs.Props
open Nurbs Nurbs.Spec Polynomial

variable {K : Type} [Field K] [LinearOrder K] [IsStrictOrderedRing K]

/-! ### Knot intervals -/

theorem exists_interval {l : List K} (h0 : (0 : K) ∈ l) (h1 : (1 : K) ∈ l) {x : K} (hx0 : 0 ≤ x) (hx1 : x ≤ 1) :
    ∃ a b, Neighbours l a b ∧ InInterval a b x := by
  rcases lt_or_eq_of_le hx1 with hx | rfl
  · obtain ⟨a, ha, hmax⟩ := Finset.exists_max_image (l.toFinset.filter (· ≤ x)) id ⟨0, by simp [h0, hx0]⟩
    obtain ⟨b, hb, hmin⟩ := Finset.exists_min_image (l.toFinset.filter (x < ·)) id ⟨1, by simp [h1, hx]⟩
    simp only [Finset.mem_filter, List.mem_toFinset, id_eq] at ha hb hmax hmin
    refine ⟨a, b, ⟨ha.1, hb.1, lt_of_le_of_lt ha.2 hb.2, ?_⟩, ha.2, .inl hb.2⟩
    rintro v hv ⟨h2, h3⟩
    rcases le_or_gt v x with h | h
    · exact absurd (hmax v ⟨hv, h⟩) (not_le.2 h2)
    · exact absurd (hmin v ⟨hv, h⟩) (not_le.2 h3)
  · obtain ⟨a, ha, hmax⟩ := Finset.exists_max_image (l.toFinset.filter (· < 1)) id ⟨0, by simp [h0]⟩
    simp only [Finset.mem_filter, List.mem_toFinset, id_eq] at ha hmax
    refine ⟨a, 1, ⟨ha.1, h1, ha.2, ?_⟩, ha.2.le, .inr ⟨rfl, rfl⟩⟩
    rintro v hv ⟨h2, h3⟩
    exact absurd (hmax v ⟨hv, h3⟩) (not_le.2 h2)

theorem kn_mem {l : List K} {i : ℕ} (hi : i < l.length) : kn l i ∈ l := by
  rw [kn_eq_getElem l i hi]
  exact List.getElem_mem hi

/-- All parameters of an interval of more knots have the same span. -/
theorem span_interval {p : ℕ} {l l' : List K} (hc : Clamped p l) (hsub : ∀ v ∈ l, v ∈ l') (hle : ∀ v ∈ l', v ≤ 1) {a b x y : K} (hn : Neighbours l' a b)
    (hx : InInterval a b x) (hy : InInterval a b y) {k : ℕ} (hk : IsSpan l x k) : IsSpan l y k := by
  obtain ⟨hl, hk1, hk2⟩ := hk
  have hb1 := hc.le_one hl
  have m1 := hsub _ (kn_mem (show k < l.length by omega))
  have m2 := hsub _ (kn_mem hl)
  have e1 : kn l k ≤ a := by
    by_contra h
    refine hn.2.2.2 _ m1 ⟨not_le.1 h, ?_⟩
    rcases hx.2 with h' | ⟨rfl, rfl⟩
    · linarith
    · rcases hk2 with h' | h'
      · linarith
      · exact h'.2.1
  have e2 : b ≤ kn l (k + 1) := by
    by_contra h
    refine hn.2.2.2 _ m2 ⟨?_, not_le.1 h⟩
    rcases hk2 with h' | h'
    · exact lt_of_le_of_lt hx.1 h'
    · rw [h'.2.2]
      rcases hx.2 with h'' | h''
      · rw [h'.1] at h''
        linarith [hle _ hn.2.1]
      · rw [h''.2, h'.2.2] at h
        exact absurd le_rfl h
  refine ⟨hl, e1.trans hy.1, ?_⟩
  rcases hy.2 with h | ⟨rfl, rfl⟩
  · exact .inl (lt_of_lt_of_le h e2)
  · exact .inr ⟨rfl, lt_of_le_of_lt e1 hn.2.2.1, le_antisymm hb1 e2⟩

/-! ### Polynomials -/

theorem segP_natDegree (U : ℕ → K) (k p : ℕ) (g : ℕ → K) : (segP U k p g).natDegree ≤ p :=
  natDegree_sum_le_of_forall_le _ _ fun _ _ => (natDegree_C_mul_le _ _).trans (NlP_natDegree _ _ _ _)

theorem zero_of_samples {P : K[X]} {n : ℕ} (hP : P.natDegree ≤ n) {T : Finset K} (hT : n + 1 ≤ T.card) (h : ∀ x ∈ T, P.eval x = 0) : P = 0 :=
  eq_zero_of_natDegree_lt_card_of_eval_eq_zero' P T h (by omega)

theorem grid_zero {f : K → K → K} {n n' : ℕ} (hu : ∀ v, ∃ P : K[X], P.natDegree ≤ n ∧ ∀ u, P.eval u = f u v)
    (hv : ∀ u, ∃ P : K[X], P.natDegree ≤ n' ∧ ∀ v, P.eval v = f u v) {T T' : Finset K} (hT : n + 1 ≤ T.card) (hT' : n' + 1 ≤ T'.card)
    (h : ∀ u ∈ T, ∀ v ∈ T', f u v = 0) (u v : K) : f u v = 0 := by
  obtain ⟨Q, hQ, eQ⟩ := hv u
  rw [← eQ, zero_of_samples hQ hT' fun v hv' => ?_, eval_zero]
  obtain ⟨P, hP, eP⟩ := hu v
  rw [eQ, ← eP, zero_of_samples hP hT fun u hu' => ?_, eval_zero]
  rw [eP]
  exact h u hu' v hv'

theorem proj_eq_iff {v w : Vec4 K} (hv : v.w ≠ 0) (hw : w.w ≠ 0) :
    proj v = proj w ↔ v.x * w.w - w.x * v.w = 0 ∧ v.y * w.w - w.y * v.w = 0 ∧ v.z * w.w - w.z * v.w = 0 := by
  rw [Vec3.ext_iff]
  simp only [proj, div_eq_div_iff hv hw, sub_eq_zero]

/-! ### Curves -/

theorem mem_zero {p : ℕ} {l : List K} (hc : Clamped p l) : (0 : K) ∈ l ∧ (1 : K) ∈ l := by
  obtain ⟨k, hk, _⟩ := exists_span hc (le_refl (0 : K)) zero_le_one
  obtain ⟨k', hk', _⟩ := exists_span hc (zero_le_one (α := K)) le_rfl
  constructor
  · have := hc.nonneg (show k < l.length by have := hk.1; omega)
    have := kn_mem (show k < l.length by have := hk.1; omega)
    rwa [le_antisymm hk.2.1 (by assumption)] at this
  · have h1 := hc.le_one hk'.1
    have := kn_mem hk'.1
    rcases hk'.2.2 with h | h
    · linarith
    · rwa [h.2.2] at this

theorem unit_append {p p' : ℕ} {l l' : List K} (hc : Clamped p l) (hc' : Clamped p' l') : ∀ v ∈ l ++ l', 0 ≤ v ∧ v ≤ 1 := by
  intro v hv
  rcases List.mem_append.1 hv with hv | hv
  · obtain ⟨i, hi, rfl⟩ := List.getElem_of_mem hv
    rw [← kn_eq_getElem]
    exact ⟨hc.nonneg hi, hc.le_one hi⟩
  · obtain ⟨i, hi, rfl⟩ := List.getElem_of_mem hv
    rw [← kn_eq_getElem]
    exact ⟨hc'.nonneg hi, hc'.le_one hi⟩

theorem interval_unit {l : List K} (h : ∀ v ∈ l, 0 ≤ v ∧ v ≤ 1) {a b : K} (hn : Neighbours l a b) {y : K} (hy : InInterval a b y) :
    0 ≤ y ∧ y ≤ 1 := by
  refine ⟨(h a hn.1).1.trans hy.1, ?_⟩
  rcases hy.2 with h' | h'
  · exact h'.le.trans (h b hn.2.1).2
  · exact h'.1.le

/-- C115 (curves).  If `Evaluate` of two well-formed curves of degrees `p` and `p'` returns the same points at `p + p' + 1` parameters in
every interval between neighbouring knots – the knots of both taken together – it returns the same points everywhere. -/
theorem C115_curve {p p' : ℕ} {c c' : Curve K} (hw : WFCurve p c) (hw' : WFCurve p' c')
    (h : SampledOn (p + p' + 1) (c.Knots.Values ++ c'.Knots.Values) fun x => c'.Evaluate x = c.Evaluate x) :
    ∀ x, 0 ≤ x → x ≤ 1 → c'.Evaluate x = c.Evaluate x := by
  intro x h0 h1
  obtain ⟨a, b, hn, hx⟩ := exists_interval (l := c.Knots.Values ++ c'.Knots.Values) (List.mem_append_left _ (mem_zero hw.clamped).1)
    (List.mem_append_left _ (mem_zero hw.clamped).2) h0 h1
  obtain ⟨T, hT, hTs⟩ := h a b hn
  obtain ⟨k, hk, _⟩ := exists_span hw.clamped h0 h1
  obtain ⟨k', hk', _⟩ := exists_span hw'.clamped h0 h1
  have h2 := unit_append hw.clamped hw'.clamped
  have hab : ∀ y, InInterval a b y → 0 ≤ y ∧ y ≤ 1 := fun y hy => interval_unit h2 hn hy
  have ev : ∀ y, InInterval a b y → (c'.Evaluate y = c.Evaluate y ↔
      ∀ L : Vec4 K →ₗ[K] K, L = Vec4.lx ∨ L = Vec4.ly ∨ L = Vec4.lz →
        (segP (kn c'.Knots.Values) k' p' (fun i => L (hpts c'.ControlPoints i)) * segP (kn c.Knots.Values) k p (fun i => Vec4.lw (hpts c.ControlPoints i)) -
          segP (kn c.Knots.Values) k p (fun i => L (hpts c.ControlPoints i)) * segP (kn c'.Knots.Values) k' p' (fun i => Vec4.lw (hpts c'.ControlPoints i))).eval y = 0) := by
    intro y hy
    obtain ⟨y0, y1⟩ := hab y hy
    obtain ⟨_, _, _, hpos, e⟩ := evaluate_seg hw y0 y1 (span_interval hw.clamped (fun v hv => List.mem_append_left _ hv) (fun v hv => (h2 v hv).2) hn hx hy hk)
    obtain ⟨_, _, _, hpos', e'⟩ := evaluate_seg hw' y0 y1 (span_interval hw'.clamped (fun v hv => List.mem_append_right _ hv) (fun v hv => (h2 v hv).2) hn hx hy hk')
    rw [e, e', Except.ok.injEq, proj_eq_iff hpos'.ne' hpos.ne']
    simp only [eval_sub, eval_mul, segP_eval, ← seg_map, forall_eq_or_imp, forall_eq]
    exact Iff.rfl
  refine (ev x hx).2 fun L hL => ?_
  rw [zero_of_samples (n := p + p') ?_ hT fun y hy => (ev y (hTs y hy).1).1 (hTs y hy).2 L hL, eval_zero]
  refine (natDegree_sub_le _ _).trans (max_le ?_ ?_)
  · refine natDegree_mul_le.trans ?_
    have a1 := segP_natDegree (kn c'.Knots.Values) k' p' (fun i => L (hpts c'.ControlPoints i))
    have a2 := segP_natDegree (kn c.Knots.Values) k p (fun i => Vec4.lw (hpts c.ControlPoints i))
    omega
  · refine natDegree_mul_le.trans ?_
    have a1 := segP_natDegree (kn c'.Knots.Values) k' p' (fun i => Vec4.lw (hpts c'.ControlPoints i))
    have a2 := segP_natDegree (kn c.Knots.Values) k p (fun i => L (hpts c.ControlPoints i))
    omega

/-- C115 (curves of the same degree, knots and weights).  Then `p + 1` parameters in every interval are enough, and the curves are equal. -/
theorem C115_same_weights {p : ℕ} {c c' : Curve K} (hw : WFCurve p c) (hw' : WFCurve p c') (hk : c'.Knots = c.Knots)
    (hwt : c'.ControlPoints.map (·.w) = c.ControlPoints.map (·.w)) (hm : InteriorMult (p + 1) c.Knots.Values)
    (h : SampledOn (p + 1) c.Knots.Values fun x => c'.Evaluate x = c.Evaluate x) : c' = c := by
  have hlen : c'.ControlPoints.length = c.ControlPoints.length := by simpa using congrArg List.length hwt
  have hwi : ∀ i < c.ControlPoints.length, (hpts c'.ControlPoints i).w = (hpts c.ControlPoints i).w := by
    intro i hi
    have e := congrArg (fun l : List K => l[i]?) hwt
    simp only [List.getElem?_map, List.getElem?_eq_getElem hi, List.getElem?_eq_getElem (hlen.symm ▸ hi), Option.map_some,
      Option.some.injEq] at e
    unfold hpts ToHomo pt
    simpa [List.getD_eq_getElem?_getD, List.getElem?_eq_getElem hi, List.getElem?_eq_getElem (hlen.symm ▸ hi)] using e
  have hct := hw.count
  have h2 : ∀ v ∈ c.Knots.Values, 0 ≤ v ∧ v ≤ 1 := fun v hv => unit_append hw.clamped hw.clamped v (List.mem_append_left _ hv)
  refine C92_determined hw hw' hk hwt hm fun x h0 h1 => ?_
  obtain ⟨a, b, hn, hx⟩ := exists_interval (mem_zero hw.clamped).1 (mem_zero hw.clamped).2 h0 h1.le
  obtain ⟨T, hT, hTs⟩ := h a b hn
  obtain ⟨k, hks, _⟩ := exists_span hw.clamped h0 h1.le
  have ev : ∀ y, InInterval a b y → (c'.Evaluate y = c.Evaluate y ↔
      ∀ L : Vec4 K →ₗ[K] K, L = Vec4.lx ∨ L = Vec4.ly ∨ L = Vec4.lz →
        (segP (kn c.Knots.Values) k p (fun i => L (hpts c'.ControlPoints i)) - segP (kn c.Knots.Values) k p (fun i => L (hpts c.ControlPoints i))).eval y = 0) := by
    intro y hy
    obtain ⟨y0, y1⟩ := interval_unit h2 hn hy
    have hs := span_interval hw.clamped (fun v hv => hv) (fun v hv => (h2 v hv).2) hn hx hy hks
    obtain ⟨a1, a2, _, hpos, e⟩ := evaluate_seg hw y0 y1 hs
    obtain ⟨_, _, _, hpos', e'⟩ := evaluate_seg hw' y0 y1 (k := k) (by rw [hk]; exact hs)
    rw [hk] at e' hpos'
    have hww : (seg (kn c.Knots.Values) k y p (hpts c'.ControlPoints)).w = (seg (kn c.Knots.Values) k y p (hpts c.ControlPoints)).w := by
      have l1 := seg_map (Vec4.lw (K := K)) (kn c.Knots.Values) k y p (hpts c'.ControlPoints)
      have l2 := seg_map (Vec4.lw (K := K)) (kn c.Knots.Values) k y p (hpts c.ControlPoints)
      exact l1.trans ((seg_congr a1 fun i _ hi => hwi i (by omega)).trans l2.symm)
    rw [e, e', Except.ok.injEq, proj_eq_iff hpos'.ne' hpos.ne', hww]
    simp only [eval_sub, segP_eval, ← seg_map, forall_eq_or_imp, forall_eq, ← sub_mul, mul_eq_zero, hpos.ne', or_false]
    exact Iff.rfl
  refine (ev x hx).2 fun L hL => ?_
  rw [zero_of_samples (n := p) ?_ hT fun y hy => (ev y (hTs y hy).1).1 (hTs y hy).2 L hL, eval_zero]
  exact (natDegree_sub_le _ _).trans (max_le (segP_natDegree _ _ _ _) (segP_natDegree _ _ _ _))

/-! ### Surfaces -/

theorem surfSeg_polyU (L : Vec4 K →ₗ[K] K) (p q : ℕ) (s : Surface K) (ku kv : ℕ) (y : K) : ∃ P : K[X], P.natDegree ≤ p ∧
    ∀ x, P.eval x = L (surfSeg p q s ku kv x y) := by
  refine ⟨segP (kn s.KnotsU.Values) ku p fun i => L (seg (kn s.KnotsV.Values) kv y q fun j => hcp s i j), segP_natDegree _ _ _ _, fun x => ?_⟩
  rw [segP_eval, surfSeg, sseg_swap, ← seg_map L]

theorem surfSeg_polyV (L : Vec4 K →ₗ[K] K) (p q : ℕ) (s : Surface K) (ku kv : ℕ) (x : K) : ∃ P : K[X], P.natDegree ≤ q ∧
    ∀ y, P.eval y = L (surfSeg p q s ku kv x y) := by
  refine ⟨segP (kn s.KnotsV.Values) kv q fun j => L (seg (kn s.KnotsU.Values) ku x p fun i => hcp s i j), segP_natDegree _ _ _ _, fun y => ?_⟩
  rw [segP_eval, surfSeg, sseg, ← seg_map L]

/-- C115 (surfaces).  If `Evaluate` of two well-formed surfaces of degrees `p`, `q` and `p'`, `q'` returns the same points on a grid of
`p + p' + 1` times `q + q' + 1` parameters in every rectangle between neighbouring knots, it returns the same points everywhere. -/
theorem C115_surface {p q m n p' q' m' n' : ℕ} {s s' : Surface K} (hw : WFSurface p q m n s) (hw' : WFSurface p' q' m' n' s')
    (h : SampledOnGrid (p + p' + 1) (q + q' + 1) (s.KnotsU.Values ++ s'.KnotsU.Values) (s.KnotsV.Values ++ s'.KnotsV.Values)
      fun u v => s'.Evaluate u v = s.Evaluate u v) :
    ∀ u v, 0 ≤ u → u ≤ 1 → 0 ≤ v → v ≤ 1 → s'.Evaluate u v = s.Evaluate u v := by
  intro u v hu0 hu1 hv0 hv1
  obtain ⟨a, b, hn, hu⟩ := exists_interval (l := s.KnotsU.Values ++ s'.KnotsU.Values) (List.mem_append_left _ (mem_zero hw.clampedU).1)
    (List.mem_append_left _ (mem_zero hw.clampedU).2) hu0 hu1
  obtain ⟨a', b', hn', hv⟩ := exists_interval (l := s.KnotsV.Values ++ s'.KnotsV.Values) (List.mem_append_left _ (mem_zero hw.clampedV).1)
    (List.mem_append_left _ (mem_zero hw.clampedV).2) hv0 hv1
  obtain ⟨T, T', hT, hT', hTu, hTv, hTs⟩ := h a b a' b' hn hn'
  obtain ⟨ku, hku, _⟩ := exists_span hw.clampedU hu0 hu1
  obtain ⟨ku', hku', _⟩ := exists_span hw'.clampedU hu0 hu1
  obtain ⟨kv, hkv, _⟩ := exists_span hw.clampedV hv0 hv1
  obtain ⟨kv', hkv', _⟩ := exists_span hw'.clampedV hv0 hv1
  have h2 := unit_append hw.clampedU hw'.clampedU
  have h3 := unit_append hw.clampedV hw'.clampedV
  have ev : ∀ x y, InInterval a b x → InInterval a' b' y → (s'.Evaluate x y = s.Evaluate x y ↔
      ∀ L : Vec4 K →ₗ[K] K, L = Vec4.lx ∨ L = Vec4.ly ∨ L = Vec4.lz →
        L (surfSeg p' q' s' ku' kv' x y) * Vec4.lw (surfSeg p q s ku kv x y) - L (surfSeg p q s ku kv x y) * Vec4.lw (surfSeg p' q' s' ku' kv' x y) = 0) := by
    intro x y hx hy
    obtain ⟨x0, x1⟩ := interval_unit h2 hn hx
    obtain ⟨y0, y1⟩ := interval_unit h3 hn' hy
    obtain ⟨_, _, _, _, _, _, hpos, e⟩ := surface_seg hw x0 x1 y0 y1
      (span_interval hw.clampedU (fun v hv => List.mem_append_left _ hv) (fun v hv => (h2 v hv).2) hn hu hx hku)
      (span_interval hw.clampedV (fun v hv => List.mem_append_left _ hv) (fun v hv => (h3 v hv).2) hn' hv hy hkv)
    obtain ⟨_, _, _, _, _, _, hpos', e'⟩ := surface_seg hw' x0 x1 y0 y1
      (span_interval hw'.clampedU (fun v hv => List.mem_append_right _ hv) (fun v hv => (h2 v hv).2) hn hu hx hku')
      (span_interval hw'.clampedV (fun v hv => List.mem_append_right _ hv) (fun v hv => (h3 v hv).2) hn' hv hy hkv')
    rw [e, e', Except.ok.injEq, proj_eq_iff hpos'.ne' hpos.ne']
    simp only [forall_eq_or_imp, forall_eq]
    exact Iff.rfl
  refine (ev u v hu hv).2 fun L hL => ?_
  refine grid_zero (f := fun x y => L (surfSeg p' q' s' ku' kv' x y) * Vec4.lw (surfSeg p q s ku kv x y) -
    L (surfSeg p q s ku kv x y) * Vec4.lw (surfSeg p' q' s' ku' kv' x y)) (n := p + p') (n' := q + q') ?_ ?_ hT hT' ?_ u v
  · intro y
    obtain ⟨P1, d1, e1⟩ := surfSeg_polyU L p' q' s' ku' kv' y
    obtain ⟨P2, d2, e2⟩ := surfSeg_polyU Vec4.lw p q s ku kv y
    obtain ⟨P3, d3, e3⟩ := surfSeg_polyU L p q s ku kv y
    obtain ⟨P4, d4, e4⟩ := surfSeg_polyU Vec4.lw p' q' s' ku' kv' y
    refine ⟨P1 * P2 - P3 * P4, (natDegree_sub_le _ _).trans (max_le (natDegree_mul_le.trans (by omega)) (natDegree_mul_le.trans (by omega))), fun x => ?_⟩
    rw [eval_sub, eval_mul, eval_mul, e1, e2, e3, e4]
  · intro x
    obtain ⟨P1, d1, e1⟩ := surfSeg_polyV L p' q' s' ku' kv' x
    obtain ⟨P2, d2, e2⟩ := surfSeg_polyV Vec4.lw p q s ku kv x
    obtain ⟨P3, d3, e3⟩ := surfSeg_polyV L p q s ku kv x
    obtain ⟨P4, d4, e4⟩ := surfSeg_polyV Vec4.lw p' q' s' ku' kv' x
    refine ⟨P1 * P2 - P3 * P4, (natDegree_sub_le _ _).trans (max_le (natDegree_mul_le.trans (by omega)) (natDegree_mul_le.trans (by omega))), fun y => ?_⟩
    rw [eval_sub, eval_mul, eval_mul, e1, e2, e3, e4]
  · intro x hx y hy
    exact (ev x y (hTu x hx) (hTv y hy)).1 (hTs x hx y hy) L hL

/-- C115 (surfaces of the same degrees, knots and weights).  Then a grid of `p + 1` times `q + 1` parameters in every rectangle is enough,
and the surfaces are equal. -/
theorem C115_same_weights_surface {p q m n : ℕ} {s s' : Surface K} (hw : WFSurface p q m n s) (hw' : WFSurface p q m n s')
    (hku : s'.KnotsU = s.KnotsU) (hkv : s'.KnotsV = s.KnotsV) (hwt : ∀ i < m, ∀ j < n, (cp s' i j).w = (cp s i j).w)
    (hmu : InteriorMult (p + 1) s.KnotsU.Values) (hmv : InteriorMult (q + 1) s.KnotsV.Values)
    (h : SampledOnGrid (p + 1) (q + 1) s.KnotsU.Values s.KnotsV.Values fun u v => s'.Evaluate u v = s.Evaluate u v) : s' = s := by
  refine C92_determined_surface hw hw' hku hkv hwt hmu hmv fun u v hu0 hu1 hv0 hv1 => ?_
  obtain ⟨a, b, hn, hu⟩ := exists_interval (mem_zero hw.clampedU).1 (mem_zero hw.clampedU).2 hu0 hu1.le
  obtain ⟨a', b', hn', hv⟩ := exists_interval (mem_zero hw.clampedV).1 (mem_zero hw.clampedV).2 hv0 hv1.le
  obtain ⟨T, T', hT, hT', hTu, hTv, hTs⟩ := h a b a' b' hn hn'
  obtain ⟨ku, hsu, _⟩ := exists_span hw.clampedU hu0 hu1.le
  obtain ⟨kv, hsv, _⟩ := exists_span hw.clampedV hv0 hv1.le
  have h2 : ∀ v ∈ s.KnotsU.Values, 0 ≤ v ∧ v ≤ 1 := fun v hv => unit_append hw.clampedU hw.clampedU v (List.mem_append_left _ hv)
  have h3 : ∀ v ∈ s.KnotsV.Values, 0 ≤ v ∧ v ≤ 1 := fun v hv => unit_append hw.clampedV hw.clampedV v (List.mem_append_left _ hv)
  have ev : ∀ x y, InInterval a b x → InInterval a' b' y → (s'.Evaluate x y = s.Evaluate x y ↔
      ∀ L : Vec4 K →ₗ[K] K, L = Vec4.lx ∨ L = Vec4.ly ∨ L = Vec4.lz →
        L (surfSeg p q s' ku kv x y) - L (surfSeg p q s ku kv x y) = 0) := by
    intro x y hx hy
    obtain ⟨x0, x1⟩ := interval_unit h2 hn hx
    obtain ⟨y0, y1⟩ := interval_unit h3 hn' hy
    have hxs := span_interval hw.clampedU (fun v hv => hv) (fun v hv => (h2 v hv).2) hn hu hx hsu
    have hys := span_interval hw.clampedV (fun v hv => hv) (fun v hv => (h3 v hv).2) hn' hv hy hsv
    obtain ⟨a1, a2, a3, a4, _, _, hpos, e⟩ := surface_seg hw x0 x1 y0 y1 hxs hys
    obtain ⟨_, _, _, _, _, _, hpos', e'⟩ := surface_seg hw' x0 x1 y0 y1 (ku := ku) (kv := kv) (by rw [hku]; exact hxs) (by rw [hkv]; exact hys)
    have hww : (surfSeg p q s' ku kv x y).w = (surfSeg p q s ku kv x y).w := by
      unfold surfSeg sseg
      rw [hku, hkv]
      have l1 := seg_map (Vec4.lw (K := K)) (kn s.KnotsV.Values) kv y q (fun j => seg (kn s.KnotsU.Values) ku x p fun i => hcp s' i j)
      have l2 := seg_map (Vec4.lw (K := K)) (kn s.KnotsV.Values) kv y q (fun j => seg (kn s.KnotsU.Values) ku x p fun i => hcp s i j)
      refine l1.trans ((seg_congr a3 fun j _ hj => ?_).trans l2.symm)
      rw [seg_map, seg_map]
      exact seg_congr a1 fun i _ hi => hwt i (by omega) j (by omega)
    rw [e, e', Except.ok.injEq, proj_eq_iff hpos'.ne' hpos.ne', hww]
    simp only [forall_eq_or_imp, forall_eq, ← sub_mul, mul_eq_zero, hpos.ne', or_false]
    exact Iff.rfl
  refine (ev u v hu hv).2 fun L hL => ?_
  refine grid_zero (f := fun x y => L (surfSeg p q s' ku kv x y) - L (surfSeg p q s ku kv x y)) (n := p) (n' := q) ?_ ?_ hT hT' ?_ u v
  · intro y
    obtain ⟨P1, d1, e1⟩ := surfSeg_polyU L p q s' ku kv y
    obtain ⟨P3, d3, e3⟩ := surfSeg_polyU L p q s ku kv y
    exact ⟨P1 - P3, (natDegree_sub_le _ _).trans (max_le d1 d3), fun x => by rw [eval_sub, e1, e3]⟩
  · intro x
    obtain ⟨P1, d1, e1⟩ := surfSeg_polyV L p q s' ku kv x
    obtain ⟨P3, d3, e3⟩ := surfSeg_polyV L p q s ku kv x
    exact ⟨P1 - P3, (natDegree_sub_le _ _).trans (max_le d1 d3), fun y => by rw [eval_sub, e1, e3]⟩
  · intro x hx y hy
    exact (ev x y (hTu x hx) (hTv y hy)).1 (hTs x hx y hy) L hL

/-! ### Fewer are not enough -/

/-- A straight line from 0 to 1. -/
def exLine01 : Curve ℚ := ⟨1, ⟨[0, 0, 1, 1]⟩, [⟨0, 0, 0, 1⟩, ⟨1, 0, 0, 1⟩]⟩
/-- A part of the same line at another speed. -/
def exLineRat : Curve ℚ := ⟨1, ⟨[0, 0, 1, 1]⟩, [⟨1/9, 0, 0, 1⟩, ⟨11/9, 0, 0, 1/2⟩]⟩

/-- C115 is sharp: two curves of degree 1 that agree at two parameters of the only interval, and not at a third. -/
theorem C115_sharp : exLineRat.Evaluate (1/3) = exLine01.Evaluate (1/3) ∧ exLineRat.Evaluate (2/3) = exLine01.Evaluate (2/3) ∧
    exLineRat.Evaluate 0 = .ok ⟨1/9, 0, 0⟩ ∧ exLine01.Evaluate 0 = .ok ⟨0, 0, 0⟩ := by
  decide +kernel

/-! ### Concrete cases -/

/-- The line as a curve of degree 2, written down by hand. -/
def exLineQuad : Curve ℚ := ⟨2, ⟨[0, 0, 0, 1, 1, 1]⟩, [⟨0, 0, 0, 1⟩, ⟨1/2, 0, 0, 1⟩, ⟨1, 0, 0, 1⟩]⟩

theorem exLine01_wf : WFCurve 1 exLine01 :=
  ⟨rfl, ⟨by decide +kernel, by decide +kernel, by decide +kernel, by decide +kernel, by decide +kernel,
    by decide +kernel⟩, rfl, by decide +kernel⟩

theorem exLineQuad_wf : WFCurve 2 exLineQuad :=
  ⟨rfl, ⟨by decide +kernel, by decide +kernel, by decide +kernel, by decide +kernel, by decide +kernel,
    by decide +kernel⟩, rfl, by decide +kernel⟩

/-- Four evaluations show that it is the line. -/
example : ∀ x, 0 ≤ x → x ≤ 1 → exLineQuad.Evaluate x = exLine01.Evaluate x := by
  refine C115_curve exLine01_wf exLineQuad_wf ?_
  rintro a b ⟨ha, hb, hlt, _⟩
  refine ⟨{0, 1/4, 1/2, 3/4}, by decide +kernel, ?_⟩
  have h01 : ∀ v ∈ exLine01.Knots.Values ++ exLineQuad.Knots.Values, v = 0 ∨ v = 1 := by decide +kernel
  have ea : a = 0 := by
    rcases h01 a ha with h | h
    · exact h
    · rcases h01 b hb with h' | h' <;> rw [h, h'] at hlt <;> norm_num at hlt
  have eb : b = 1 := by
    rcases h01 b hb with h | h
    · rw [ea, h] at hlt; norm_num at hlt
    · exact h
  subst ea eb
  have e : ∀ x ∈ ({0, 1/4, 1/2, 3/4} : Finset ℚ), (0 ≤ x ∧ x < 1) ∧ exLineQuad.Evaluate x = exLine01.Evaluate x := by decide +kernel
  exact fun x hx => ⟨⟨(e x hx).1.1, .inl (e x hx).1.2⟩, (e x hx).2⟩

/-- A bilinear patch, and the same one with degree 2 in `u`, written down by hand. -/
def exPatch11 : Surface ℚ := ⟨1, 1, ⟨[0, 0, 1, 1]⟩, ⟨[0, 0, 1, 1]⟩, ⟨2, 2, [⟨0, 0, 0, 2⟩, ⟨2, 0, 1, 2⟩, ⟨0, 1, 3, 2⟩, ⟨4, 1, 0, 2⟩]⟩⟩
def exPatch21 : Surface ℚ := ⟨2, 1, ⟨[0, 0, 0, 1, 1, 1]⟩, ⟨[0, 0, 1, 1]⟩,
  ⟨3, 2, [⟨0, 0, 0, 1⟩, ⟨1, 0, 1/2, 1⟩, ⟨2, 0, 1, 1⟩, ⟨0, 1, 3, 1⟩, ⟨2, 1, 3/2, 1⟩, ⟨4, 1, 0, 1⟩]⟩⟩

theorem exPatch11_wf : WFSurface 1 1 2 2 exPatch11 :=
  ⟨rfl, rfl, ⟨by decide +kernel, by decide +kernel, by decide +kernel, by decide +kernel, by decide +kernel,
    by decide +kernel⟩, ⟨by decide +kernel, by decide +kernel, by decide +kernel, by decide +kernel, by decide +kernel,
    by decide +kernel⟩, rfl, rfl, rfl, rfl, rfl, by decide +kernel⟩

theorem exPatch21_wf : WFSurface 2 1 3 2 exPatch21 :=
  ⟨rfl, rfl, ⟨by decide +kernel, by decide +kernel, by decide +kernel, by decide +kernel, by decide +kernel,
    by decide +kernel⟩, ⟨by decide +kernel, by decide +kernel, by decide +kernel, by decide +kernel, by decide +kernel,
    by decide +kernel⟩, rfl, rfl, rfl, rfl, rfl, by decide +kernel⟩

theorem neighbours_unit {l : List ℚ} (h01 : ∀ v ∈ l, v = 0 ∨ v = 1) {a b : ℚ} (h : Neighbours l a b) : a = 0 ∧ b = 1 := by
  obtain ⟨ha, hb, hlt, _⟩ := h
  rcases h01 a ha with rfl | rfl <;> rcases h01 b hb with rfl | rfl <;> first | exact ⟨rfl, rfl⟩ | (norm_num at hlt)

/-- Twelve evaluations show that they are the same surface. -/
example : ∀ u v, 0 ≤ u → u ≤ 1 → 0 ≤ v → v ≤ 1 → exPatch21.Evaluate u v = exPatch11.Evaluate u v := by
  refine C115_surface exPatch11_wf exPatch21_wf ?_
  intro a b a' b' h h'
  obtain ⟨rfl, rfl⟩ := neighbours_unit (by decide +kernel) h
  obtain ⟨rfl, rfl⟩ := neighbours_unit (by decide +kernel) h'
  refine ⟨{0, 1/4, 1/2, 3/4}, {0, 1/3, 1}, by decide +kernel, by decide +kernel, ?_, ?_, by decide +kernel⟩
  · have : ∀ x ∈ ({0, 1/4, 1/2, 3/4} : Finset ℚ), 0 ≤ x ∧ (x < 1 ∨ x = 1 ∧ (1 : ℚ) = 1) := by decide +kernel
    exact this
  · have : ∀ x ∈ ({0, 1/3, 1} : Finset ℚ), 0 ≤ x ∧ (x < 1 ∨ x = 1 ∧ (1 : ℚ) = 1) := by decide +kernel
    exact this

/-- Any surface with the knots and weights of the first patch that agrees with it in the four corners is the first patch. -/
example (s : Surface ℚ) (hw : WFSurface 1 1 2 2 s) (hu : s.KnotsU = ⟨[0, 0, 1, 1]⟩) (hv : s.KnotsV = ⟨[0, 0, 1, 1]⟩)
    (hwt : ∀ i < 2, ∀ j < 2, (cp s i j).w = 2) (h00 : s.Evaluate 0 0 = .ok ⟨0, 0, 0⟩) (h10 : s.Evaluate 1 0 = .ok ⟨2, 0, 1⟩)
    (h01 : s.Evaluate 0 1 = .ok ⟨0, 1, 3⟩) (h11 : s.Evaluate 1 1 = .ok ⟨4, 1, 0⟩) : s = exPatch11 := by
  refine C115_same_weights_surface exPatch11_wf hw hu hv ?_ ?_ ?_ ?_
  · intro i hi j hj
    rw [hwt i hi j hj]
    have : ∀ i < 2, ∀ j < 2, (cp exPatch11 i j).w = 2 := by decide +kernel
    exact (this i hi j hj).symm
  · intro v h0 h1
    rw [List.count_eq_zero_of_not_mem]
    · omega
    · intro hv
      have : ∀ v ∈ exPatch11.KnotsU.Values, ¬ (0 < v ∧ v < 1) := by decide +kernel
      exact this v hv ⟨h0, h1⟩
  · intro v h0 h1
    rw [List.count_eq_zero_of_not_mem]
    · omega
    · intro hv
      have : ∀ v ∈ exPatch11.KnotsV.Values, ¬ (0 < v ∧ v < 1) := by decide +kernel
      exact this v hv ⟨h0, h1⟩
  · intro a b a' b' h h'
    obtain ⟨rfl, rfl⟩ := neighbours_unit (by decide +kernel) h
    obtain ⟨rfl, rfl⟩ := neighbours_unit (by decide +kernel) h'
    have hin : ∀ x ∈ ({0, 1} : Finset ℚ), 0 ≤ x ∧ (x < 1 ∨ x = 1 ∧ (1 : ℚ) = 1) := by decide +kernel
    refine ⟨{0, 1}, {0, 1}, by decide +kernel, by decide +kernel, hin, hin, ?_⟩
    have e : exPatch11.Evaluate 0 0 = .ok ⟨0, 0, 0⟩ ∧ exPatch11.Evaluate 1 0 = .ok ⟨2, 0, 1⟩ ∧
      exPatch11.Evaluate 0 1 = .ok ⟨0, 1, 3⟩ ∧ exPatch11.Evaluate 1 1 = .ok ⟨4, 1, 0⟩ := by decide +kernel
    intro x hx y hy
    simp only [Finset.mem_insert, Finset.mem_singleton] at hx hy
    rcases hx with rfl | rfl <;> rcases hy with rfl | rfl
    · rw [h00, e.1]
    · rw [h01, e.2.2.1]
    · rw [h10, e.2.1]
    · rw [h11, e.2.2.2]

end Nurbs.Props
