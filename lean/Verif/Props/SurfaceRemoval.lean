import Verif.Proof.SurfaceRemoval
import Verif.Props.SurfaceInsert
import Verif.Props.Removal

/-! # C48, C62, C63: knot removal on surfaces -/

set_option linter.unusedSectionVars false

namespace Nurbs.Props
open Nurbs Nurbs.Spec

variable {K : Type} [Field K] [LinearOrder K] [IsStrictOrderedRing K]

/-- C48.  If the surface has at least one row (column) of control points and `RemoveKnotU` (`RemoveKnotV`) returns 0,
the returned surface is the input – for every knot value, number of times, tolerance and square root. -/
theorem C48_failed_removal {sqrt : K → K} {s R : Surface K} {u tol : K} {times : Int} :
    (1 ≤ s.ControlPoints.VCount → s.RemoveKnotU sqrt u times tol = .ok (R, 0) → R = s) ∧
    (1 ≤ s.ControlPoints.UCount → s.RemoveKnotV sqrt u times tol = .ok (R, 0) → R = s) := by
  constructor
  · intro hn h
    unfold Surface.RemoveKnotU at h
    obtain ⟨g, _, h⟩ := bind_eq_ok.mp h
    obtain ⟨o, ho, h⟩ := bind_eq_ok.mp h
    cases o with
    | none => exact (Prod.mk.inj (Except.ok.inj h)).1.symm
    | some o =>
      obtain ⟨R', T'⟩ := o
      obtain ⟨rfl, rfl⟩ := Prod.mk.inj (Except.ok.inj h)
      exact absurd rfl (removeLoopU_some _ _ _ _ _ _ (by omega) ho)
  · intro hn h
    unfold Surface.RemoveKnotV at h
    obtain ⟨g, _, h⟩ := bind_eq_ok.mp h
    obtain ⟨o, ho, h⟩ := bind_eq_ok.mp h
    cases o with
    | none => exact (Prod.mk.inj (Except.ok.inj h)).1.symm
    | some o =>
      obtain ⟨R', T'⟩ := o
      obtain ⟨rfl, rfl⟩ := Prod.mk.inj (Except.ok.inj h)
      exact absurd rfl (removeLoopV_some _ _ _ _ _ _ (by omega) ho)

/-- A removal that fails on the example (the knot 1/3 is not removable) although its weights differ. -/
example : exSurface.RemoveKnotU id (1/3) 1 0 = .ok (exSurface, 0) ∧ exSurface.RemoveKnotV id (1/2) 1 0 = .ok (exSurface, 0) := by
  decide +kernel

/-- Without control points the input is not returned: the default-constructed surface gets a grid of other size. -/
theorem C48_empty_surface : ∃ R : Surface ℚ, ∀ sqrt : ℚ → ℚ, Surface.RemoveKnotU sqrt {} (1/2) 1 0 = .ok (R, 0) ∧ R ≠ {} := by
  refine ⟨{ ControlPoints := ⟨-2, -1, [0, 0]⟩ }, fun sqrt => ⟨rfl, by decide +kernel⟩⟩

theorem knotRemoval_of_removeKnot {sqrt : K → K} {c c' : Curve K} {u tol : K} {times t : Int}
    (h : c.RemoveKnot sqrt u times tol = .ok (c', t)) :
    KnotRemoval sqrt c.Knots c.ControlPoints c.Degree u times tol = .ok (c'.Knots, c'.ControlPoints, t) := by
  unfold Curve.RemoveKnot at h
  obtain ⟨_, _, h⟩ := bind_eq_ok.mp h
  obtain ⟨_, _, h⟩ := bind_eq_ok.mp h
  obtain ⟨⟨kv', P', t'⟩, hk, h⟩ := bind_eq_ok.mp h
  obtain ⟨rfl, rfl⟩ := Prod.mk.inj (Except.ok.inj h)
  exact hk

/-- C62 (u).  Removing once a knot that was just inserted with `InsertKnotU` succeeds for every tolerance ≥ 0 and gives
back the original surface. -/
theorem C62_remove_undoes_insertU {p q m n : ℕ} (hp : 1 ≤ p) {s : Surface K} (hw : WFSurface p q m n s) {v : K} (h0 : 0 < v)
    (h1 : v < 1) (hsep : Separated s.KnotsU.Values v) (hmul : s.KnotsU.Values.count v ≤ p + 1) {sqrt : K → K} (hsq : sqrt 0 = 0)
    {eps : K} (he : 0 ≤ eps) :
    ∃ s', s.InsertKnotU v = .ok s' ∧ s'.RemoveKnotU sqrt v 1 eps = .ok (s, 1) := by
  obtain ⟨k, hk, _⟩ := exists_span hw.clampedU h0.le h1.le
  have hw' := insSurfU_wf hw hk h0 h1
  have hn : 0 < n := by have := hw.knotsV; have := hw.clampedV.len; omega
  refine ⟨_, insertKnotU_ok hw hk h0 h1 hp, ?_⟩
  have hrow : ∀ j < n, KnotRemoval sqrt (insSurfU p m n k v s).KnotsU (tab (m + 1) fun x => cp (insSurfU p m n k v s) x j)
      (insSurfU p m n k v s).DegreeU v 1 eps = .ok (s.KnotsU, tab m fun x => cp s x j, 1) := by
    intro j hj
    obtain ⟨c', e1, e2⟩ := C32_remove_undoes_insert hp (rowCurve_wf hw hj) h0 h1 hsep hmul hsq he
    rw [insertKnot_ok (rowCurve_wf hw hj) hk h0 h1 hp, ← insSurfU_row hw hk h0 h1 hj] at e1
    rw [← Except.ok.inj e1] at e2
    have e3 := knotRemoval_of_removeKnot e2
    generalize insSurfU p m n k v s = s' at e3 ⊢
    exact e3
  rw [removeKnotU_ok hw'.uCount hw'.vCount (WFSurface.grid hw') hn (m' := m) (by push_cast; omega) one_ne_zero hrow]
  refine congrArg (fun x => Except.ok (x, (1 : Int))) ?_
  exact Surface.ext rfl rfl rfl rfl (WFSurface.grid hw).symm

/-- C62 (v). -/
theorem C62_remove_undoes_insertV {p q m n : ℕ} (hq : 1 ≤ q) {s : Surface K} (hw : WFSurface p q m n s) {v : K} (h0 : 0 < v)
    (h1 : v < 1) (hsep : Separated s.KnotsV.Values v) (hmul : s.KnotsV.Values.count v ≤ q + 1) {sqrt : K → K} (hsq : sqrt 0 = 0)
    {eps : K} (he : 0 ≤ eps) :
    ∃ s', s.InsertKnotV v = .ok s' ∧ s'.RemoveKnotV sqrt v 1 eps = .ok (s, 1) := by
  obtain ⟨k, hk, _⟩ := exists_span hw.clampedV h0.le h1.le
  have hw' := insSurfV_wf hw hk h0 h1
  have hm : 0 < m := by have := hw.knotsU; have := hw.clampedU.len; omega
  refine ⟨_, insertKnotV_ok hw hk h0 h1 hq, ?_⟩
  have hrow : ∀ j < m, KnotRemoval sqrt (insSurfV q m n k v s).KnotsV (tab (n + 1) fun x => cp (insSurfV q m n k v s) j x)
      (insSurfV q m n k v s).DegreeV v 1 eps = .ok (s.KnotsV, tab n fun x => cp s j x, 1) := by
    intro j hj
    obtain ⟨c', e1, e2⟩ := C32_remove_undoes_insert hq (colCurve_wf hw hj) h0 h1 hsep hmul hsq he
    rw [insertKnot_ok (colCurve_wf hw hj) hk h0 h1 hq, ← insSurfV_col hw hk h0 h1 hj] at e1
    rw [← Except.ok.inj e1] at e2
    have e3 := knotRemoval_of_removeKnot e2
    generalize insSurfV q m n k v s = s' at e3 ⊢
    exact e3
  rw [removeKnotV_ok hw'.uCount hw'.vCount (WFSurface.grid hw') hm (m' := n) (by push_cast; omega) one_ne_zero hrow]
  refine congrArg (fun x => Except.ok (x, (1 : Int))) ?_
  exact Surface.ext rfl rfl rfl rfl (WFSurface.grid hw).symm

example : (exSurface.InsertKnotU (1/3)).bind (fun s => s.RemoveKnotU id (1/3) 1 0) = .ok (exSurface, 1) ∧
    (exSurface.InsertKnotV (1/4)).bind (fun s => s.RemoveKnotV id (1/4) 1 0) = .ok (exSurface, 1) := by decide +kernel
example : Separated exSurface.KnotsU.Values (1/3 : ℚ) ∧ exSurface.KnotsU.Values.count (1/3 : ℚ) ≤ 2 + 1 ∧
    Separated exSurface.KnotsV.Values (1/4 : ℚ) ∧ exSurface.KnotsV.Values.count (1/4 : ℚ) ≤ 1 + 1 :=
  ⟨by unfold Separated; decide +kernel, by decide +kernel, by unfold Separated; decide +kernel, by decide +kernel⟩

/-- C63 (u).  If `RemoveKnotU(u, times, 0)` returns `times ≥ 1`, with `times` at most the multiplicity of `u` (itself at
most `degree + 1`), the result has `times` copies of `u` and `times` columns of control points fewer, and the same
points. -/
theorem C63_exact_removalU {p q m n : ℕ} {s : Surface K} (hw : WFSurface p q m n s) {u : K} (h0 : 0 < u) (h1 : u < 1)
    (hsep : Separated s.KnotsU.Values u) (hmul : s.KnotsU.Values.count u ≤ p + 1) {sqrt : K → K} (hsq : ∀ x, 0 < x → 0 < sqrt x)
    {times : ℕ} (ht : 1 ≤ times) (htm : times ≤ s.KnotsU.Values.count u) {s' : Surface K}
    (h : s.RemoveKnotU sqrt u times 0 = .ok (s', (times : Int))) :
    s.KnotsU.Values.Perm (List.replicate times u ++ s'.KnotsU.Values) ∧ s'.KnotsV = s.KnotsV ∧
      s'.ControlPoints.UCount + times = m ∧ s'.ControlPoints.VCount = n ∧
      ∀ x y, 0 ≤ x → x ≤ 1 → 0 ≤ y → y ≤ 1 → ∃ S, s.Evaluate x y = .ok S ∧ s'.Evaluate x y = .ok S := by
  have hn : 0 < n := by have := hw.knotsV; have := hw.clampedV.len; omega
  have hlu := hw.knotsU
  have hlv := hw.knotsV
  have hmt : times ≤ m := by
    have := hw.clampedU.len
    omega
  obtain ⟨m', hm'⟩ : ∃ m', m = m' + times := ⟨m - times, by omega⟩
  rcases removeKnotU_inv hw.uCount hw.vCount (WFSurface.grid hw) hn (m' := m') (by omega) h with ⟨hz, _⟩ | ⟨_, kv, f, hrow, rfl⟩
  · omega
  have hex : ∀ j < n, ∃ kvj, (rowCurve m s j).RemoveKnot sqrt u times 0 =
      .ok (⟨s.DegreeU, kvj, tab m' fun x => f x j⟩, (times : Int)) ∧ (j + 1 = n → kvj = kv) := by
    intro j hj
    obtain ⟨kvj, h2, h3⟩ := hrow j hj
    refine ⟨kvj, ?_, h3⟩
    unfold Curve.RemoveKnot
    rw [massert_true ⟨h0, h1⟩, bind_ok, massert_true (by omega), bind_ok]
    have : KnotRemoval sqrt (rowCurve m s j).Knots (rowCurve m s j).ControlPoints (rowCurve m s j).Degree u times 0 =
      .ok (kvj, tab m' fun x => f x j, (times : Int)) := h2
    rw [this, bind_ok]
    rfl
  have hall : ∀ j < n, s.KnotsU.Values.Perm (List.replicate times u ++ kv.Values) ∧ Clamped p kv.Values ∧
      ∀ x, 0 ≤ x → x ≤ 1 → ∀ a b, IsSpan s.KnotsU.Values x a → IsSpan kv.Values x b →
        seg (kn kv.Values) b x p (hpts (tab m' fun x => f x j)) = seg (kn s.KnotsU.Values) a x p (hpts (rowCurve m s j).ControlPoints) := by
    obtain ⟨kvl, e1, e2⟩ := hex (n - 1) (by omega)
    obtain rfl := e2 (by omega)
    obtain ⟨_, hpl, _, hcl, _⟩ := removeKnot_exact (rowCurve_wf hw (show n - 1 < n by omega)) h0 h1 hsep hmul hsq htm e1
    intro j hj
    obtain ⟨kvj, e1, _⟩ := hex j hj
    obtain ⟨_, hpj, _, hcj, hsj⟩ := removeKnot_exact (rowCurve_wf hw hj) h0 h1 hsep hmul hsq htm e1
    have : kvj.Values = kvl.Values := by
      apply List.Perm.eq_of_pairwise (fun x y _ _ h1 h2 => le_antisymm h1 h2) hcj.sorted hcl.sorted
      exact (List.perm_append_left_iff _).mp (hpj.symm.trans hpl)
    have : kvj = kvl := congrArg KnotVector.mk this
    subst this
    exact ⟨hpj, hcj, hsj⟩
  refine ⟨(hall 0 hn).1, rfl, by simp; omega, rfl, ?_⟩
  intro x y hx0 hx1 hy0 hy1
  have hcl := (hall 0 hn).2.1
  have hlen := (hall 0 hn).1.length_eq
  rw [List.length_append, List.length_replicate] at hlen
  obtain ⟨ku, hku, _, _⟩ := exists_span hw.clampedU hx0 hx1
  obtain ⟨ku', hku', _, _⟩ := exists_span hcl hx0 hx1
  obtain ⟨kv', hkv', _, _⟩ := exists_span hw.clampedV hy0 hy1
  obtain ⟨a1, a2, a3, a4, _, _, hpos, e1⟩ := surface_seg hw hx0 hx1 hy0 hy1 hku hkv'
  have hgrid : ({ s with KnotsU := kv, ControlPoints := gridOf m' n f } : Surface K).ControlPoints =
      gridOf m' n (cp { s with KnotsU := kv, ControlPoints := gridOf m' n f }) := grid_eq rfl rfl (by simp [gridOf])
  obtain ⟨b1, b2, b3, b4, _, _, e2⟩ := surface_at_span (s := { s with KnotsU := kv, ControlPoints := gridOf m' n f }) (m := m') (n := n)
    hw.degreeU hw.degreeV hcl hw.clampedV (by simp only; omega) hw.knotsV hgrid hx0 hx1 hy0 hy1 hku' hkv'
  refine ⟨_, e1, ?_⟩
  rw [e2, ← projectM_ok hpos.ne']
  congr 1
  unfold surfSeg sseg
  apply seg_congr a3
  intro j _ hj
  have e := (hall j (by omega)).2.2 x hx0 hx1 ku ku' hku hku'
  have t1 : seg (kn kv.Values) ku' x p (fun i => hcp { s with KnotsU := kv, ControlPoints := gridOf m' n f } i j) =
      seg (kn kv.Values) ku' x p (hpts (tab m' fun x => f x j)) := by
    apply seg_congr b1
    intro i _ hi
    unfold hcp hpts
    rw [cp_gridOf (s := { s with KnotsU := kv, ControlPoints := gridOf m' n f }) (f := f) rfl (show i < m' by omega) (by omega),
      pt_tab _ _ _ (by omega)]
  have t2 : seg (kn s.KnotsU.Values) ku x p (hpts (rowCurve m s j).ControlPoints) = seg (kn s.KnotsU.Values) ku x p (fun i => hcp s i j) := by
    apply seg_congr a1
    intro i _ hi
    exact hpts_rowCurve (by omega)
  exact t1.trans (e.trans t2)

/-- C63 (v). -/
theorem C63_exact_removalV {p q m n : ℕ} {s : Surface K} (hw : WFSurface p q m n s) {u : K} (h0 : 0 < u) (h1 : u < 1)
    (hsep : Separated s.KnotsV.Values u) (hmul : s.KnotsV.Values.count u ≤ q + 1) {sqrt : K → K} (hsq : ∀ x, 0 < x → 0 < sqrt x)
    {times : ℕ} (ht : 1 ≤ times) (htm : times ≤ s.KnotsV.Values.count u) {s' : Surface K}
    (h : s.RemoveKnotV sqrt u times 0 = .ok (s', (times : Int))) :
    s.KnotsV.Values.Perm (List.replicate times u ++ s'.KnotsV.Values) ∧ s'.KnotsU = s.KnotsU ∧
      s'.ControlPoints.UCount = m ∧ s'.ControlPoints.VCount + times = n ∧
      ∀ x y, 0 ≤ x → x ≤ 1 → 0 ≤ y → y ≤ 1 → ∃ S, s.Evaluate x y = .ok S ∧ s'.Evaluate x y = .ok S := by
  have hm : 0 < m := by have := hw.knotsU; have := hw.clampedU.len; omega
  have hlu := hw.knotsU
  have hlv := hw.knotsV
  have hmt : times ≤ n := by
    have := hw.clampedV.len
    omega
  obtain ⟨n', hn'⟩ : ∃ n', n = n' + times := ⟨n - times, by omega⟩
  rcases removeKnotV_inv hw.uCount hw.vCount (WFSurface.grid hw) hm (m' := n') (by omega) h with ⟨hz, _⟩ | ⟨_, kv, f, hrow, rfl⟩
  · omega
  have hex : ∀ j < m, ∃ kvj, (colCurve n s j).RemoveKnot sqrt u times 0 =
      .ok (⟨s.DegreeV, kvj, tab n' fun x => f j x⟩, (times : Int)) ∧ (j + 1 = m → kvj = kv) := by
    intro j hj
    obtain ⟨kvj, h2, h3⟩ := hrow j hj
    refine ⟨kvj, ?_, h3⟩
    unfold Curve.RemoveKnot
    rw [massert_true ⟨h0, h1⟩, bind_ok, massert_true (by omega), bind_ok]
    have : KnotRemoval sqrt (colCurve n s j).Knots (colCurve n s j).ControlPoints (colCurve n s j).Degree u times 0 =
      .ok (kvj, tab n' fun x => f j x, (times : Int)) := h2
    rw [this, bind_ok]
    rfl
  have hall : ∀ j < m, s.KnotsV.Values.Perm (List.replicate times u ++ kv.Values) ∧ Clamped q kv.Values ∧
      ∀ x, 0 ≤ x → x ≤ 1 → ∀ a b, IsSpan s.KnotsV.Values x a → IsSpan kv.Values x b →
        seg (kn kv.Values) b x q (hpts (tab n' fun x => f j x)) = seg (kn s.KnotsV.Values) a x q (hpts (colCurve n s j).ControlPoints) := by
    obtain ⟨kvl, e1, e2⟩ := hex (m - 1) (by omega)
    obtain rfl := e2 (by omega)
    obtain ⟨_, hpl, _, hcl, _⟩ := removeKnot_exact (colCurve_wf hw (show m - 1 < m by omega)) h0 h1 hsep hmul hsq htm e1
    intro j hj
    obtain ⟨kvj, e1, _⟩ := hex j hj
    obtain ⟨_, hpj, _, hcj, hsj⟩ := removeKnot_exact (colCurve_wf hw hj) h0 h1 hsep hmul hsq htm e1
    have : kvj.Values = kvl.Values := by
      apply List.Perm.eq_of_pairwise (fun x y _ _ h1 h2 => le_antisymm h1 h2) hcj.sorted hcl.sorted
      exact (List.perm_append_left_iff _).mp (hpj.symm.trans hpl)
    have : kvj = kvl := congrArg KnotVector.mk this
    subst this
    exact ⟨hpj, hcj, hsj⟩
  refine ⟨(hall 0 hm).1, rfl, rfl, by simp; omega, ?_⟩
  intro x y hx0 hx1 hy0 hy1
  have hcl := (hall 0 hm).2.1
  have hlen := (hall 0 hm).1.length_eq
  rw [List.length_append, List.length_replicate] at hlen
  obtain ⟨kv', hkv', _, _⟩ := exists_span hw.clampedV hy0 hy1
  obtain ⟨kv'', hkv'', _, _⟩ := exists_span hcl hy0 hy1
  obtain ⟨ku, hku, _, _⟩ := exists_span hw.clampedU hx0 hx1
  obtain ⟨a1, a2, a3, a4, _, _, hpos, e1⟩ := surface_seg hw hx0 hx1 hy0 hy1 hku hkv'
  have hgrid : ({ s with KnotsV := kv, ControlPoints := gridOf m n' f } : Surface K).ControlPoints =
      gridOf m n' (cp { s with KnotsV := kv, ControlPoints := gridOf m n' f }) := grid_eq rfl rfl (by simp [gridOf])
  obtain ⟨b1, b2, b3, b4, _, _, e2⟩ := surface_at_span (s := { s with KnotsV := kv, ControlPoints := gridOf m n' f }) (m := m) (n := n')
    hw.degreeU hw.degreeV hw.clampedU hcl hw.knotsU (by simp only; omega) hgrid hx0 hx1 hy0 hy1 hku hkv''
  refine ⟨_, e1, ?_⟩
  rw [e2, ← projectM_ok hpos.ne']
  congr 1
  unfold surfSeg
  rw [sseg_swap, sseg_swap]
  apply seg_congr a1
  intro j _ hj
  have e := (hall j (by omega)).2.2 y hy0 hy1 kv' kv'' hkv' hkv''
  have t1 : seg (kn kv.Values) kv'' y q (fun i => hcp { s with KnotsV := kv, ControlPoints := gridOf m n' f } j i) =
      seg (kn kv.Values) kv'' y q (hpts (tab n' fun x => f j x)) := by
    apply seg_congr b3
    intro i _ hi
    unfold hcp hpts
    rw [cp_gridOf (s := { s with KnotsV := kv, ControlPoints := gridOf m n' f }) (f := f) rfl (by omega) (show i < n' by omega),
      pt_tab _ _ _ (by omega)]
  have t2 : seg (kn s.KnotsV.Values) kv' y q (hpts (colCurve n s j).ControlPoints) = seg (kn s.KnotsV.Values) kv' y q (fun i => hcp s j i) := by
    apply seg_congr a3
    intro i _ hi
    exact hpts_colCurve (by omega)
  exact t1.trans (e.trans t2)

/-- Two exact removals after inserting the value twice. -/
example : (exSurface.InsertKnotUTimes (1/3) 2).bind (fun s => s.RemoveKnotU id (1/3) 2 0) = .ok (exSurface, 2) := by decide +kernel

end Nurbs.Props
