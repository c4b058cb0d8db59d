import Verif.Proof.SurfaceInsert
import Verif.Props.Surface

/-! # C46, C47: knot insertion on surfaces -/

set_option linter.unusedSectionVars false

namespace Nurbs.Props
open Nurbs Nurbs.Spec

variable {K : Type} [Field K] [LinearOrder K] [IsStrictOrderedRing K]

/-- C46 (u, single).  `InsertKnotU(value)` on a well-formed surface with degree ≥ 1 in u gives a well-formed surface
with one more knot in u, one more column of control points and the same points. -/
theorem C46_insertKnotU {p q m n : ℕ} (hp : 1 ≤ p) {s : Surface K} (hw : WFSurface p q m n s) {a : K} (h0 : 0 < a) (h1 : a < 1) :
    ∃ s', s.InsertKnotU a = .ok s' ∧ WFSurface p q (m + 1) n s' ∧ s'.KnotsU.Values.Perm (a :: s.KnotsU.Values) ∧
      s'.KnotsV = s.KnotsV ∧
      ∀ u v, 0 ≤ u → u ≤ 1 → 0 ≤ v → v ≤ 1 → ∃ S, s.Evaluate u v = .ok S ∧ s'.Evaluate u v = .ok S := by
  obtain ⟨k, hk, _⟩ := exists_span hw.clampedU h0.le h1.le
  refine ⟨_, insertKnotU_ok hw hk h0 h1 hp, insSurfU_wf hw hk h0 h1, insL_perm _ _ _, rfl, ?_⟩
  intro u v hu0 hu1 hv0 hv1
  have := (C43_evaluate hw hu0 hu1 hv0 hv1).1
  exact ⟨_, this, by rw [insSurfU_evaluate hw hk h0 h1 hu0 hu1 hv0 hv1]; exact this⟩

/-- C46 (v, single). -/
theorem C46_insertKnotV {p q m n : ℕ} (hq : 1 ≤ q) {s : Surface K} (hw : WFSurface p q m n s) {a : K} (h0 : 0 < a) (h1 : a < 1) :
    ∃ s', s.InsertKnotV a = .ok s' ∧ WFSurface p q m (n + 1) s' ∧ s'.KnotsV.Values.Perm (a :: s.KnotsV.Values) ∧
      s'.KnotsU = s.KnotsU ∧
      ∀ u v, 0 ≤ u → u ≤ 1 → 0 ≤ v → v ≤ 1 → ∃ S, s.Evaluate u v = .ok S ∧ s'.Evaluate u v = .ok S := by
  obtain ⟨k, hk, _⟩ := exists_span hw.clampedV h0.le h1.le
  refine ⟨_, insertKnotV_ok hw hk h0 h1 hq, insSurfV_wf hw hk h0 h1, insL_perm _ _ _, rfl, ?_⟩
  intro u v hu0 hu1 hv0 hv1
  have := (C43_evaluate hw hu0 hu1 hv0 hv1).1
  exact ⟨_, this, by rw [insSurfV_evaluate hw hk h0 h1 hu0 hu1 hv0 hv1]; exact this⟩

/-- C46 (u, list).  Moreover every row of the new net is what curve knot insertion makes of the old row. -/
theorem C46_insertKnotU_list {p q m n : ℕ} (hp : 1 ≤ p) {s : Surface K} (hw : WFSurface p q m n s) (vs : List K)
    (hv : ∀ v ∈ vs, 0 < v ∧ v < 1) :
    ∃ s', s.InsertKnotUList vs = .ok s' ∧ WFSurface p q (m + vs.length) n s' ∧
      s'.KnotsU.Values.Perm (vs ++ s.KnotsU.Values) ∧ s'.KnotsV = s.KnotsV ∧
      (∀ j < n, (rowCurve m s j).InsertKnotList vs = .ok (rowCurve (m + vs.length) s' j)) ∧
      ∀ u v, 0 ≤ u → u ≤ 1 → 0 ≤ v → v ≤ 1 → ∃ S, s.Evaluate u v = .ok S ∧ s'.Evaluate u v = .ok S := by
  obtain ⟨s', a, b, c, d, e, f⟩ := insertListU_spec hp vs hv hw
  refine ⟨s', a, b, c, d, e, ?_⟩
  intro u v hu0 hu1 hv0 hv1
  have := (C43_evaluate hw hu0 hu1 hv0 hv1).1
  exact ⟨_, this, by rw [f u v hu0 hu1 hv0 hv1]; exact this⟩

/-- C46 (v, list). -/
theorem C46_insertKnotV_list {p q m n : ℕ} (hq : 1 ≤ q) {s : Surface K} (hw : WFSurface p q m n s) (vs : List K)
    (hv : ∀ v ∈ vs, 0 < v ∧ v < 1) :
    ∃ s', s.InsertKnotVList vs = .ok s' ∧ WFSurface p q m (n + vs.length) s' ∧
      s'.KnotsV.Values.Perm (vs ++ s.KnotsV.Values) ∧ s'.KnotsU = s.KnotsU ∧
      (∀ i < m, (colCurve n s i).InsertKnotList vs = .ok (colCurve (n + vs.length) s' i)) ∧
      ∀ u v, 0 ≤ u → u ≤ 1 → 0 ≤ v → v ≤ 1 → ∃ S, s.Evaluate u v = .ok S ∧ s'.Evaluate u v = .ok S := by
  obtain ⟨s', a, b, c, d, e, f⟩ := insertListV_spec hq vs hv hw
  refine ⟨s', a, b, c, d, e, ?_⟩
  intro u v hu0 hu1 hv0 hv1
  have := (C43_evaluate hw hu0 hu1 hv0 hv1).1
  exact ⟨_, this, by rw [f u v hu0 hu1 hv0 hv1]; exact this⟩

/-- C46 (times).  The `times` overloads insert `times` copies. -/
theorem C46_insertKnot_times (s : Surface K) (v : K) (t : ℕ) :
    s.InsertKnotUTimes v t = s.InsertKnotUList (List.replicate t v) ∧
    s.InsertKnotVTimes v t = s.InsertKnotVList (List.replicate t v) := by
  unfold Surface.InsertKnotUTimes Surface.InsertKnotVTimes
  rw [vnew_nat, bind_ok, bind_ok]
  exact ⟨rfl, rfl⟩

/-- The result of the list versions does not depend on the order of the list. -/
theorem C46_order_independent {p q m n : ℕ} {s : Surface K} (hw : WFSurface p q m n s) {vs ws : List K}
    (hperm : vs.Perm ws) (hv : ∀ v ∈ vs, 0 < v ∧ v < 1) :
    (1 ≤ p → s.InsertKnotUList vs = s.InsertKnotUList ws) ∧ (1 ≤ q → s.InsertKnotVList vs = s.InsertKnotVList ws) := by
  have hv' : ∀ v ∈ ws, 0 < v ∧ v < 1 := fun v h => hv v (hperm.mem_iff.mpr h)
  refine ⟨fun hp => ?_, fun hq => ?_⟩
  · obtain ⟨s1, a1, b1, _, d1, e1, _⟩ := insertListU_spec hp vs hv hw
    obtain ⟨s2, a2, b2, _, d2, e2, _⟩ := insertListU_spec hp ws hv' hw
    rw [hperm.length_eq] at b1 e1
    rw [a1, a2]
    refine congrArg _ (surface_ext_rows b1 b2 (d1.trans d2.symm) fun j hj => ?_)
    have := e1 j hj
    rw [insertList_perm hperm hv (rowCurve_wf hw hj), e2 j hj] at this
    exact (Except.ok.inj this).symm
  · obtain ⟨s1, a1, b1, _, d1, e1, _⟩ := insertListV_spec hq vs hv hw
    obtain ⟨s2, a2, b2, _, d2, e2, _⟩ := insertListV_spec hq ws hv' hw
    rw [hperm.length_eq] at b1 e1
    rw [a1, a2]
    refine congrArg _ (surface_ext_cols b1 b2 (d1.trans d2.symm) fun j hj => ?_)
    have := e1 j hj
    rw [insertList_perm hperm hv (colCurve_wf hw hj), e2 j hj] at this
    exact (Except.ok.inj this).symm

example : (exSurface.InsertKnotU (1/3)).bind (fun s => s.Evaluate (1/2) (2/3)) = exSurface.Evaluate (1/2) (2/3) ∧
    (exSurface.InsertKnotV (1/4)).bind (fun s => s.Evaluate (1/2) (2/3)) = exSurface.Evaluate (1/2) (2/3) ∧
    (exSurface.InsertKnotV (1/4)).map (fun s => (s.KnotsV.Values, s.ControlPoints.UCount, s.ControlPoints.VCount)) =
      .ok ([0, 0, 1/4, 1/2, 1, 1], 4, 4) := by decide +kernel

/-- The restriction on the degree is necessary: for degree 0 the new row of control points is left zero. -/
theorem C46_degree_zero_breaks :
    ∃ s : Surface ℚ, WFSurface 0 0 1 1 s ∧ s.Evaluate 0 0 = .ok ⟨1, 2, 3⟩ ∧
      (s.InsertKnotU (1/2)).bind (fun t => t.Evaluate 0 0) = .error .nonfinite ∧
      (s.InsertKnotV (1/2)).bind (fun t => t.Evaluate 0 0) = .error .nonfinite := by
  refine ⟨⟨0, 0, ⟨[0, 1]⟩, ⟨[0, 1]⟩, ⟨1, 1, [⟨1, 2, 3, 1⟩]⟩⟩, ⟨rfl, rfl, ⟨by decide +kernel, by decide +kernel, by decide +kernel,
    by decide +kernel, by decide +kernel, by decide +kernel⟩, ⟨by decide +kernel, by decide +kernel, by decide +kernel,
    by decide +kernel, by decide +kernel, by decide +kernel⟩, rfl, rfl, rfl, rfl, rfl, by decide +kernel⟩, ?_⟩
  decide +kernel

/-- C47.  Insertions in u and in v commute: the same surface results in either order (single values and lists). -/
theorem C47_commute {p q m n : ℕ} (hp : 1 ≤ p) (hq : 1 ≤ q) {s : Surface K} (hw : WFSurface p q m n s) (as bs : List K)
    (ha : ∀ a ∈ as, 0 < a ∧ a < 1) (hb : ∀ b ∈ bs, 0 < b ∧ b < 1) :
    ∃ t, ((s.InsertKnotUList as) >>= fun s' => s'.InsertKnotVList bs) = .ok t ∧
      ((s.InsertKnotVList bs) >>= fun s' => s'.InsertKnotUList as) = .ok t ∧
      WFSurface p q (m + as.length) (n + bs.length) t := by
  obtain ⟨s1, a1, b1, _⟩ := insertListU_spec hp as ha hw
  obtain ⟨s2, a2, b2, _⟩ := insertListV_spec hq bs hb b1
  have e : ((s.InsertKnotUList as) >>= fun s' => s'.InsertKnotVList bs) = .ok s2 := by rw [a1, bind_ok, a2]
  exact ⟨s2, e, by rw [← insertUV_list hp hq as bs ha hb hw]; exact e, b2⟩

/-- C47 for the single-value functions. -/
theorem C47_commute_single {p q m n : ℕ} (hp : 1 ≤ p) (hq : 1 ≤ q) {s : Surface K} (hw : WFSurface p q m n s) {a b : K}
    (ha0 : 0 < a) (ha1 : a < 1) (hb0 : 0 < b) (hb1 : b < 1) :
    ((s.InsertKnotU a) >>= fun s' => s'.InsertKnotV b) = ((s.InsertKnotV b) >>= fun s' => s'.InsertKnotU a) :=
  insertUV_single hp hq hw ha0 ha1 hb0 hb1

example : ((exSurface.InsertKnotU (1/4)) >>= fun s => s.InsertKnotV (1/2)) =
    ((exSurface.InsertKnotV (1/2)) >>= fun s => s.InsertKnotU (1/4)) := by decide +kernel

end Nurbs.Props
