import Verif.Proof.ElevCode
import Verif.Proof.SurfaceInsert

/-! # Degree elevation of surfaces -/

set_option linter.unusedSectionVars false

namespace Nurbs
open Nurbs.Spec DegreeAlgo

variable {K : Type} [Field K] [LinearOrder K] [IsStrictOrderedRing K]

/-- What a family of curves over the same knots becomes. -/
theorem elevate_family {p t : ℕ} (hp : 1 ≤ p) (ht : 1 ≤ t) (h29 : p + t ≤ 29) {n m : ℕ} (hn : 0 < n) {kv : KnotVector K}
    {P : ℕ → ℕ → Vec4 K} (hw : ∀ j < n, WFCurve p (⟨p, kv, tab m fun i => P i j⟩ : Curve K))
    (hm : InteriorMult p kv.Values) (hs : KnotsApart kv.Values) (hst : SteadyMult p t kv.Values)
    (hbuf : m + t * spanCount kv.Values ≤ 2 * (m - 1 + t)) :
    ∃ (kv' : KnotVector K) (Q : ℕ → ℕ → Vec4 K), Raised t kv.Values kv'.Values ∧ ∀ j < n,
      WFCurve (p + t) (⟨((p + t : ℕ) : Int), kv', tab (m + t * spanCount kv.Values) fun i => Q i j⟩ : Curve K) ∧
      (∀ x, 0 ≤ x → x ≤ 1 → ∀ k k', IsSpan kv.Values x k → IsSpan kv'.Values x k' →
        seg (kn kv'.Values) k' x (p + t) (fun i => ToHomo (Q i j)) = seg (kn kv.Values) k x p (fun i => ToHomo (P i j))) ∧
      InHull (tab m fun i => P i j) (tab (m + t * spanCount kv.Values) fun i => Q i j) ∧
      NurbsDegreeElevation kv (tab m fun i => P i j) p t =
        .ok (kv', tab (m + t * spanCount kv.Values) fun i => Q i j, (p : Int) + t) := by
  have hl : ∀ j, (tab m fun i => P i j).length = m := fun j => by simp
  have key := fun j (hj : j < n) => elevate_code hp ht h29 (hw j hj) hm hs hst (by simpa using hbuf)
  obtain ⟨c0, hw0, hr0, _⟩ := key 0 hn
  have : Nonempty (Curve K) := ⟨c0⟩
  choose! c' h1 h2 h3 h4 h5 h7 h6 using key
  have hkv : ∀ j < n, (c' j).Knots = c0.Knots := by
    intro j hj
    have := (h2 j hj).unique hr0
    obtain ⟨_, ⟨a⟩, _⟩ := c0
    rcases hc : (c' j) with ⟨_, ⟨b⟩, _⟩
    rw [hc] at this
    simpa using this
  refine ⟨c0.Knots, fun i j => pt (c' j).ControlPoints i, hr0, ?_⟩
  intro j hj
  have hlen : (c' j).ControlPoints.length = m + t * spanCount kv.Values := by simpa using h3 j hj
  have heq : (tab (m + t * spanCount kv.Values) fun i => pt (c' j).ControlPoints i) = (c' j).ControlPoints := by
    rw [← hlen]; exact (eq_tab_pt _).symm
  have hc : (⟨((p + t : ℕ) : Int), c0.Knots, (c' j).ControlPoints⟩ : Curve K) = c' j :=
    Curve.ext (h1 j hj).degree.symm (hkv j hj).symm rfl
  rw [heq, hc]
  refine ⟨h1 j hj, ?_, h7 j hj, ?_⟩
  · intro x h0 hx1 k k' hk hk'
    have := h5 j hj x h0 hx1 k k' hk (by rw [hkv j hj]; exact hk')
    rw [hkv j hj] at this
    refine Eq.trans ?_ (this.trans ?_)
    · rfl
    · obtain ⟨a1, a2, _⟩ := evaluate_seg (hw j hj) h0 hx1 hk
      refine seg_congr a1 fun i _ hi => ?_
      have hcnt := (hw j hj).count
      simp only [tab_length] at hcnt a2
      have : i < m := by omega
      simp [hpts, pt, this]
  · rw [h6 j hj, hkv j hj]

theorem sEval_outside (s : Surface K) {x y : K} (h : ¬ ((0 ≤ x ∧ x ≤ 1) ∧ (0 ≤ y ∧ y ≤ 1))) : s.Evaluate x y = .error .assert := by
  unfold Surface.Evaluate
  by_cases hx : x ≥ 0 ∧ x ≤ 1
  · rw [massert_true hx, bind_ok, massert_false (fun hy => h ⟨hx, hy⟩), bind_error]
  · rw [massert_false hx, bind_error]

/-- There is one span exactly when there are no more than `p + 1` control points. -/
theorem spanCount_one {p n : ℕ} {l : List K} (hc : Clamped p l) (hl : l.length = n + p + 1) : spanCount l = 1 ↔ n = p + 1 := by
  obtain ⟨s, u, μ, _, hu, hμ, hrun, hcount, hu0, hus, hsc⟩ := exists_clRuns hc
  have h1 := hrun.S_add (q := 1) (r := s) hrun.s1 (by omega)
  have h2 := hrun.first
  have h3 := hrun.last
  have h4 := hrun.len
  have h5 := hrun.s1
  rw [hsc]
  constructor
  · rintro rfl
    omega
  · intro h
    omega

/-- Without interior knots all conditions on knots hold. -/
theorem conds_of_one {p n t : ℕ} {l : List K} (hc : Clamped p l) (hl : l.length = n + p + 1) (hn : n = p + 1) :
    InteriorMult p l ∧ KnotsApart l ∧ SteadyMult p t l := by
  have hz : ∀ v ∈ l, v = 0 ∨ v = 1 := by
    intro v hv
    obtain ⟨i, hi, rfl⟩ := List.getElem_of_mem hv
    rw [← kn_eq_getElem]
    by_cases h : i ≤ p
    · exact Or.inl (hc.zeros i h)
    · exact Or.inr (hc.ones i hi (by omega))
  refine ⟨?_, ?_, ?_⟩
  · intro v h0 h1
    rw [List.count_eq_zero_of_not_mem]
    · omega
    · intro hv
      rcases hz v hv with h | h
      · exact absurd h h0.ne'
      · exact absurd h h1.ne
  · intro a ha b hb hab
    rcases hz a ha with rfl | rfl <;> rcases hz b hb with rfl | rfl
    · exact absurd hab (lt_irrefl _)
    · norm_num
    · exact absurd hab (not_lt.mpr zero_le_one)
    · exact absurd hab (lt_irrefl _)
  · intro a b h ha hb
    rcases hz a h.1 with rfl | rfl
    · exact absurd ha (lt_irrefl _)
    · exact absurd (h.2.2.1.trans hb) (lt_irrefl _)

section generic
variable {K : Type} [Zero K] [One K] [Add K] [Sub K] [Mul K] [Div K] [Neg K] [NatCast K] [IntCast K] [LinearOrder K]

/-- The surface with new knots and points in the u direction. -/
def elevSurfU (m' n d : ℕ) (kv : KnotVector K) (Q : ℕ → ℕ → Vec4 K) (s : Surface K) : Surface K :=
  { s with DegreeU := d, KnotsU := kv, ControlPoints := gridOf m' n Q }

def elevSurfV (m n' d : ℕ) (kv : KnotVector K) (Q : ℕ → ℕ → Vec4 K) (s : Surface K) : Surface K :=
  { s with DegreeV := d, KnotsV := kv, ControlPoints := gridOf m n' Q }

variable {p q m n t : ℕ} {s : Surface K}

theorem elevateU_gen (hd : s.DegreeU = (p : ℕ)) (hnp : 0 < n) (hcu : s.ControlPoints.UCount = m) (hcv : s.ControlPoints.VCount = n)
    (hg : s.ControlPoints = gridOf m n (cp s)) {m' : ℕ} (hm' : m' = m + t) {kv' : KnotVector K} {Q : ℕ → ℕ → Vec4 K}
    (h : ∀ j < n, NurbsDegreeElevation s.KnotsU (tab m fun i => cp s i j) p t = .ok (kv', tab m' fun i => Q i j, (p : Int) + t)) :
    s.ElevateDegreeU t = .ok (elevSurfU m' n (p + t) kv' Q s) := by
  unfold Surface.ElevateDegreeU
  rw [hcu, hcv, show (m : Int) + t = (m' : ℕ) by omega, mk'_gridOf, bind_ok, forLt_eq_forUp _ _ n (by omega)]
  have hloop := forUp_eq (fun it_v (result : Surface K) => do
    let points ← s.ControlPoints.GetV it_v
    let (knots, points, degree) ← NurbsDegreeElevation result.KnotsU points result.DegreeU t
    let result := if it_v = (n : Int) - 1 then { result with KnotsU := knots, DegreeU := degree } else result
    let grid ← result.ControlPoints.SetV it_v points
    return { result with ControlPoints := grid })
    (fun j => if j < n then { s with ControlPoints := gridOf m' n fun x y => if y < j then Q x y else 0 } else
      elevSurfU m' n (p + t) kv' Q s) n 0 (by
    intro j hj
    rw [if_pos hj]
    simp only
    rw [hg, getV_gridOf m n (cp s) _ j (by omega) hj, bind_ok, hd, h j hj, bind_ok]
    have hset : (gridOf m' n (fun x y => if y < j then Q x y else 0)).SetV ((0 : Int) + j) (tab m' fun i => Q i j) = .ok (gridOf m' n fun x y => if y < j + 1 then Q x y else 0) := by
      rw [setV_gridOf m' n _ _ j (fun i => Q i j) (by omega) hj]
      congr 1
      apply gridOf_congr
      intro x _ y _
      by_cases h1 : y = j
      · subst h1; rw [if_pos rfl, if_pos (by omega)]
      · rw [if_neg h1]
        by_cases h2 : y < j
        · rw [if_pos h2, if_pos (by omega)]
        · rw [if_neg h2, if_neg (by omega)]
    by_cases hlast : j + 1 < n
    · rw [if_neg (show ¬ ((0 : Int) + j = n - 1) by omega), if_pos hlast]
      simp only
      rw [hset, bind_ok, pure_ok]
    · rw [if_pos (show (0 : Int) + j = n - 1 by omega), if_neg hlast]
      simp only
      rw [hset, bind_ok, pure_ok]
      unfold elevSurfU
      push_cast
      congr 2
      apply gridOf_congr
      intro x _ y hy
      rw [if_pos (by omega)])
  rw [if_pos hnp, if_neg (lt_irrefl _)] at hloop
  simp only [not_lt_zero, if_false] at hloop
  exact hloop

theorem elevateV_gen (hd : s.DegreeV = (q : ℕ)) (hmp : 0 < m) (hcu : s.ControlPoints.UCount = m) (hcv : s.ControlPoints.VCount = n)
    (hg : s.ControlPoints = gridOf m n (cp s)) {n' : ℕ} (hn' : n' = n + t) {kv' : KnotVector K} {Q : ℕ → ℕ → Vec4 K}
    (h : ∀ i < m, NurbsDegreeElevation s.KnotsV (tab n fun j => cp s i j) q t = .ok (kv', tab n' fun j => Q i j, (q : Int) + t)) :
    s.ElevateDegreeV t = .ok (elevSurfV m n' (q + t) kv' Q s) := by
  unfold Surface.ElevateDegreeV
  rw [hcu, hcv, show (n : Int) + t = (n' : ℕ) by omega, mk'_gridOf, bind_ok, forLt_eq_forUp _ _ m (by omega)]
  have hloop := forUp_eq (fun it_u (result : Surface K) => do
    let points ← s.ControlPoints.GetU it_u
    let (knots, points, degree) ← NurbsDegreeElevation result.KnotsV points result.DegreeV t
    let result := if it_u = (m : Int) - 1 then { result with KnotsV := knots, DegreeV := degree } else result
    let grid ← result.ControlPoints.SetU it_u points
    return { result with ControlPoints := grid })
    (fun j => if j < m then { s with ControlPoints := gridOf m n' fun x y => if x < j then Q x y else 0 } else
      elevSurfV m n' (q + t) kv' Q s) m 0 (by
    intro j hj
    rw [if_pos hj]
    simp only
    rw [hg, getU_gridOf m n (cp s) _ j (by omega) hj, bind_ok, hd, h j hj, bind_ok]
    have hset : (gridOf m n' (fun x y => if x < j then Q x y else 0)).SetU ((0 : Int) + j) (tab n' fun i => Q j i) = .ok (gridOf m n' fun x y => if x < j + 1 then Q x y else 0) := by
      rw [setU_gridOf m n' _ _ j (fun i => Q j i) (by omega) hj]
      congr 1
      apply gridOf_congr
      intro x _ y _
      by_cases h1 : x = j
      · subst h1; rw [if_pos rfl, if_pos (by omega)]
      · rw [if_neg h1]
        by_cases h2 : x < j
        · rw [if_pos h2, if_pos (by omega)]
        · rw [if_neg h2, if_neg (by omega)]
    by_cases hlast : j + 1 < m
    · rw [if_neg (show ¬ ((0 : Int) + j = m - 1) by omega), if_pos hlast]
      simp only
      rw [hset, bind_ok, pure_ok]
    · rw [if_pos (show (0 : Int) + j = m - 1 by omega), if_neg hlast]
      simp only
      rw [hset, bind_ok, pure_ok]
      unfold elevSurfV
      push_cast
      congr 2
      apply gridOf_congr
      intro x hx y _
      rw [if_pos (by omega)])
  rw [if_pos hmp, if_neg (lt_irrefl _)] at hloop
  simp only [not_lt_zero, if_false] at hloop
  exact hloop

end generic

section
variable {p q m n t : ℕ} {s : Surface K} (hw : WFSurface p q m n s)
include hw

theorem wf_rows_pos : 0 < m ∧ 0 < n := by
  have h1 := hw.clampedU.len
  have h2 := hw.clampedV.len
  have h3 := hw.knotsU
  have h4 := hw.knotsV
  omega

theorem elevateU_run {m' : ℕ} (hm' : m' = m + t) {kv' : KnotVector K} {Q : ℕ → ℕ → Vec4 K}
    (h : ∀ j < n, NurbsDegreeElevation s.KnotsU (tab m fun i => cp s i j) p t = .ok (kv', tab m' fun i => Q i j, (p : Int) + t)) :
    s.ElevateDegreeU t = .ok (elevSurfU m' n (p + t) kv' Q s) :=
  elevateU_gen hw.degreeU (wf_rows_pos hw).2 hw.uCount hw.vCount (WFSurface.grid hw) hm' h

theorem elevateU_assert {m' : ℕ} (hm' : m' ≠ m + t) {kv' : KnotVector K} {Q : ℕ → Vec4 K}
    (h : NurbsDegreeElevation s.KnotsU (tab m fun i => cp s i 0) p t = .ok (kv', tab m' Q, (p : Int) + t)) :
    s.ElevateDegreeU t = .error .assert := by
  obtain ⟨_, hn⟩ := wf_rows_pos hw
  have hg := WFSurface.grid hw
  obtain ⟨n, rfl⟩ : ∃ N, n = N + 1 := ⟨n - 1, by omega⟩
  unfold Surface.ElevateDegreeU
  rw [hw.uCount, hw.vCount, show (m : Int) + t = ((m + t : ℕ) : ℕ) by omega, mk'_gridOf, bind_ok, forLt_eq_forUp _ _ (n + 1) (by omega), forUp]
  have e : (gridOf (m + t) (n + 1) (fun _ _ => (0 : Vec4 K))).SetV 0 (tab m' Q) = .error .assert := by
    unfold Grid.SetV
    rw [massert_true (by simp), bind_ok, massert_false (by simp; omega)]
    rfl
  simp only
  rw [hg, getV_gridOf m (n + 1) (cp s) _ 0 (by omega) (by omega), bind_ok, hw.degreeU, h, bind_ok]
  simp only
  split_ifs
  · rw [e]; rfl
  · rw [e]; rfl

theorem elevateV_run {n' : ℕ} (hn' : n' = n + t) {kv' : KnotVector K} {Q : ℕ → ℕ → Vec4 K}
    (h : ∀ i < m, NurbsDegreeElevation s.KnotsV (tab n fun j => cp s i j) q t = .ok (kv', tab n' fun j => Q i j, (q : Int) + t)) :
    s.ElevateDegreeV t = .ok (elevSurfV m n' (q + t) kv' Q s) :=
  elevateV_gen hw.degreeV (wf_rows_pos hw).1 hw.uCount hw.vCount (WFSurface.grid hw) hn' h

theorem elevateV_assert {n' : ℕ} (hn' : n' ≠ n + t) {kv' : KnotVector K} {Q : ℕ → Vec4 K}
    (h : NurbsDegreeElevation s.KnotsV (tab n fun j => cp s 0 j) q t = .ok (kv', tab n' Q, (q : Int) + t)) :
    s.ElevateDegreeV t = .error .assert := by
  obtain ⟨hm, _⟩ := wf_rows_pos hw
  have hg := WFSurface.grid hw
  obtain ⟨m, rfl⟩ : ∃ N, m = N + 1 := ⟨m - 1, by omega⟩
  unfold Surface.ElevateDegreeV
  rw [hw.uCount, hw.vCount, show (n : Int) + t = ((n + t : ℕ) : ℕ) by omega, mk'_gridOf, bind_ok, forLt_eq_forUp _ _ (m + 1) (by omega), forUp]
  have e : (gridOf (m + 1) (n + t) (fun _ _ => (0 : Vec4 K))).SetU 0 (tab n' Q) = .error .assert := by
    unfold Grid.SetU
    rw [massert_true (by simp), bind_ok, massert_false (by simp; omega)]
    rfl
  simp only
  rw [hg, getU_gridOf (m + 1) n (cp s) _ 0 (by omega) (by omega), bind_ok, hw.degreeV, h, bind_ok]
  simp only
  split_ifs
  · rw [e]; rfl
  · rw [e]; rfl

/-- Without interior knots in the u direction the surface is elevated correctly. -/
theorem elevateU_ok (hp : 1 ≤ p) (ht : 1 ≤ t) (h29 : p + t ≤ 29) (h1 : spanCount s.KnotsU.Values = 1)
    (hm : InteriorMult p s.KnotsU.Values) (hs : KnotsApart s.KnotsU.Values) (hst : SteadyMult p t s.KnotsU.Values) :
    ∃ s', s.ElevateDegreeU t = .ok s' ∧ WFSurface (p + t) q (m + t) n s' ∧ Raised t s.KnotsU.Values s'.KnotsU.Values ∧
      s'.KnotsV = s.KnotsV ∧ InHullS m n s (m + t) n s' ∧ ∀ x y, s'.Evaluate x y = s.Evaluate x y := by
  obtain ⟨hm0, hn0⟩ := wf_rows_pos hw
  have hrow : ∀ j < n, WFCurve p (⟨p, s.KnotsU, tab m fun i => cp s i j⟩ : Curve K) := by
    intro j hj
    have := rowCurve_wf hw hj
    unfold rowCurve at this
    rwa [hw.degreeU] at this
  obtain ⟨kv', Q, hr, hall⟩ := elevate_family hp ht h29 hn0 hrow hm hs hst (by rw [h1]; omega)
  rw [h1, Nat.mul_one] at hall
  have hw' : WFSurface (p + t) q (m + t) n (elevSurfU (m + t) n (p + t) kv' Q s) := by
    have h0 := (hall 0 hn0).1
    refine ⟨by simp [elevSurfU], hw.degreeV, h0.clamped, hw.clampedV, rfl, rfl, ?_, hw.knotsV, by simp [elevSurfU, gridOf], ?_⟩
    · simpa [elevSurfU] using h0.count
    · intro i hi j hj
      rw [cp_gridOf (s := elevSurfU (m + t) n (p + t) kv' Q s) (f := Q) rfl hi hj]
      have := (hall j hj).1.weights i (by simpa using hi)
      simpa [pt, hi] using this
  refine ⟨_, elevateU_run hw rfl (fun j hj => (hall j hj).2.2.2), hw', hr, rfl, ?_, ?_⟩
  · intro L b hL i hi j hj
    have := (hall j hj).2.2.1 L b (fun i hi => by
      have hi' : i < m := by simpa using hi
      have := hL i hi' j hj
      simpa [hpts, pt, hi', hcp] using this) i (by simpa using hi)
    simp only [hcp]
    rw [cp_gridOf (s := elevSurfU (m + t) n (p + t) kv' Q s) (f := Q) rfl hi hj]
    simpa [hpts, pt, hi] using this
  intro x y
  by_cases hxy : (0 ≤ x ∧ x ≤ 1) ∧ (0 ≤ y ∧ y ≤ 1)
  · obtain ⟨⟨hx0, hx1⟩, hy0, hy1⟩ := hxy
    obtain ⟨su', hsu', _, _⟩ := exists_span hw'.clampedU hx0 hx1
    obtain ⟨su, hsu, _, _⟩ := exists_span hw.clampedU hx0 hx1
    obtain ⟨sv, hsv, _, _⟩ := exists_span hw.clampedV hy0 hy1
    obtain ⟨a1, a2, a3, a4, _, _, _, e1⟩ := surface_seg hw' hx0 hx1 hy0 hy1 hsu' hsv
    obtain ⟨b1, b2, b3, b4, _, _, _, e2⟩ := surface_seg hw hx0 hx1 hy0 hy1 hsu hsv
    rw [e1, e2]
    congr 2
    unfold surfSeg sseg
    apply seg_congr a3
    intro j _ hj
    refine Eq.trans ?_ ((hall j (by omega)).2.1 x hx0 hx1 su su' hsu hsu')
    refine seg_congr a1 fun i _ hi => ?_
    simp only [hcp]
    rw [cp_gridOf (s := elevSurfU (m + t) n (p + t) kv' Q s) (f := Q) rfl (by omega) (by omega)]
  · rw [sEval_outside _ hxy, sEval_outside _ hxy]

/-- Without interior knots in the v direction the surface is elevated correctly. -/
theorem elevateV_ok (hq : 1 ≤ q) (ht : 1 ≤ t) (h29 : q + t ≤ 29) (h1 : spanCount s.KnotsV.Values = 1)
    (hm : InteriorMult q s.KnotsV.Values) (hs : KnotsApart s.KnotsV.Values) (hst : SteadyMult q t s.KnotsV.Values) :
    ∃ s', s.ElevateDegreeV t = .ok s' ∧ WFSurface p (q + t) m (n + t) s' ∧ Raised t s.KnotsV.Values s'.KnotsV.Values ∧
      s'.KnotsU = s.KnotsU ∧ InHullS m n s m (n + t) s' ∧ ∀ x y, s'.Evaluate x y = s.Evaluate x y := by
  obtain ⟨hm0, hn0⟩ := wf_rows_pos hw
  have hcol : ∀ i < m, WFCurve q (⟨q, s.KnotsV, tab n fun j => cp s i j⟩ : Curve K) := by
    intro i hi
    have := colCurve_wf hw hi
    unfold colCurve at this
    rwa [hw.degreeV] at this
  obtain ⟨kv', Q, hr, hall⟩ := elevate_family (P := fun j i => cp s i j) hq ht h29 hm0 hcol hm hs hst (by rw [h1]; omega)
  rw [h1, Nat.mul_one] at hall
  have hw' : WFSurface p (q + t) m (n + t) (elevSurfV m (n + t) (q + t) kv' (fun i j => Q j i) s) := by
    have h0 := (hall 0 hm0).1
    refine ⟨hw.degreeU, by simp [elevSurfV], hw.clampedU, h0.clamped, rfl, rfl, hw.knotsU, ?_, by simp [elevSurfV, gridOf], ?_⟩
    · simpa [elevSurfV] using h0.count
    · intro i hi j hj
      rw [cp_gridOf (s := elevSurfV m (n + t) (q + t) kv' (fun i j => Q j i) s) (f := fun i j => Q j i) rfl hi hj]
      have := (hall i hi).1.weights j (by simpa using hj)
      simpa [pt, hj] using this
  refine ⟨_, elevateV_run hw rfl (Q := fun i j => Q j i) (fun i hi => (hall i hi).2.2.2), hw', hr, rfl, ?_, ?_⟩
  · intro L b hL i hi j hj
    have := (hall i hi).2.2.1 L b (fun j hj => by
      have hj' : j < n := by simpa using hj
      have := hL i hi j hj'
      simpa [hpts, pt, hj', hcp] using this) j (by simpa using hj)
    simp only [hcp]
    rw [cp_gridOf (s := elevSurfV m (n + t) (q + t) kv' (fun i j => Q j i) s) (f := fun i j => Q j i) rfl hi hj]
    simpa [hpts, pt, hj] using this
  intro x y
  by_cases hxy : (0 ≤ x ∧ x ≤ 1) ∧ (0 ≤ y ∧ y ≤ 1)
  · obtain ⟨⟨hx0, hx1⟩, hy0, hy1⟩ := hxy
    obtain ⟨sv', hsv', _, _⟩ := exists_span hw'.clampedV hy0 hy1
    obtain ⟨su, hsu, _, _⟩ := exists_span hw.clampedU hx0 hx1
    obtain ⟨sv, hsv, _, _⟩ := exists_span hw.clampedV hy0 hy1
    obtain ⟨a1, a2, a3, a4, _, _, _, e1⟩ := surface_seg hw' hx0 hx1 hy0 hy1 hsu hsv'
    obtain ⟨b1, b2, b3, b4, _, _, _, e2⟩ := surface_seg hw hx0 hx1 hy0 hy1 hsu hsv
    rw [e1, e2]
    congr 2
    unfold surfSeg
    rw [sseg_swap, sseg_swap]
    apply seg_congr a1
    intro i _ hi
    refine Eq.trans ?_ ((hall i (by omega)).2.1 y hy0 hy1 sv sv' hsv hsv')
    refine seg_congr a3 fun j _ hj => ?_
    simp only [hcp]
    rw [cp_gridOf (s := elevSurfV m (n + t) (q + t) kv' (fun i j => Q j i) s) (f := fun i j => Q j i) rfl (by omega) (by omega)]
  · rw [sEval_outside _ hxy, sEval_outside _ hxy]

/-- With interior knots in the u direction an assertion fails. -/
theorem elevateU_fails (hp : 1 ≤ p) (ht : 1 ≤ t) (h29 : p + t ≤ 29) (h1 : spanCount s.KnotsU.Values ≠ 1)
    (hm : InteriorMult p s.KnotsU.Values) (hs : KnotsApart s.KnotsU.Values) (hst : SteadyMult p t s.KnotsU.Values)
    (hbuf : m + t * spanCount s.KnotsU.Values ≤ 2 * (m - 1 + t)) : s.ElevateDegreeU t = .error .assert := by
  obtain ⟨hm0, hn0⟩ := wf_rows_pos hw
  have hrow : ∀ j < n, WFCurve p (⟨p, s.KnotsU, tab m fun i => cp s i j⟩ : Curve K) := by
    intro j hj
    have := rowCurve_wf hw hj
    unfold rowCurve at this
    rwa [hw.degreeU] at this
  obtain ⟨kv', Q, hr, hall⟩ := elevate_family hp ht h29 hn0 hrow hm hs hst hbuf
  refine elevateU_assert hw ?_ (hall 0 hn0).2.2.2
  intro h
  exact h1 (Nat.eq_of_mul_eq_mul_left ht (by omega))

theorem elevateV_fails (hq : 1 ≤ q) (ht : 1 ≤ t) (h29 : q + t ≤ 29) (h1 : spanCount s.KnotsV.Values ≠ 1)
    (hm : InteriorMult q s.KnotsV.Values) (hs : KnotsApart s.KnotsV.Values) (hst : SteadyMult q t s.KnotsV.Values)
    (hbuf : n + t * spanCount s.KnotsV.Values ≤ 2 * (n - 1 + t)) : s.ElevateDegreeV t = .error .assert := by
  obtain ⟨hm0, hn0⟩ := wf_rows_pos hw
  have hcol : ∀ i < m, WFCurve q (⟨q, s.KnotsV, tab n fun j => cp s i j⟩ : Curve K) := by
    intro i hi
    have := colCurve_wf hw hi
    unfold colCurve at this
    rwa [hw.degreeV] at this
  obtain ⟨kv', Q, hr, hall⟩ := elevate_family (P := fun j i => cp s i j) hq ht h29 hm0 hcol hm hs hst hbuf
  refine elevateV_assert hw ?_ (hall 0 hm0).2.2.2
  intro h
  exact h1 (Nat.eq_of_mul_eq_mul_left ht (by omega))

end

end Nurbs
