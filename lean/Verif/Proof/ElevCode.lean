import Verif.Proof.Elevate
import Verif.Spec.Elevate

/-! # Degree elevation of well-formed curves -/

set_option linter.unusedSectionVars false

namespace Nurbs
open Nurbs.Spec DegreeAlgo

variable {K : Type} [Field K] [LinearOrder K] [IsStrictOrderedRing K]

/-- The runs of a clamped knot vector. -/
theorem exists_clRuns {p : ℕ} {l : List K} (hc : Clamped p l) : ∃ s u μ, l = runsL u μ (s + 1) ∧ (∀ q < s, u q < u (q + 1)) ∧
    (∀ q ≤ s, 1 ≤ μ q) ∧ ClRuns p l s u (sumTo μ) ∧ (∀ q ≤ s, l.count (u q) = μ q) ∧ u 0 = 0 ∧ u s = 1 ∧ spanCount l = s := by
  have hlen := hc.len
  obtain ⟨s, u, μ, hl, hu, hμ⟩ := exists_runsL hc.sorted (by rintro rfl; simp at hlen)
  have hr := runs_runsL hu hμ
  rw [← hl] at hr
  have hcount : ∀ q ≤ s, l.count (u q) = μ q := by
    intro q hq
    rw [hl]
    exact runsL_count_eq (fun q r h1 h2 => hr.u_lt h1 h2) hq
  obtain ⟨c0, c1, _⟩ := clamped_count hc
  have hu0 : u 0 = 0 := by
    rw [← hr.val 0 (by omega) 0 (by rw [hr.S0]) (by have := hr.up 0 (by omega); omega)]
    exact hc.zeros 0 (by omega)
  have hus : u s = 1 := by
    have h1 := hr.up s le_rfl
    have h2 := hr.len
    rw [← hr.val s le_rfl (l.length - 1) (by omega) (by omega)]
    exact hc.ones _ (by omega) (by omega)
  have hs1 : 1 ≤ s := by
    by_contra hcon
    obtain rfl : s = 0 := by omega
    rw [hu0] at hus
    exact zero_ne_one hus
  have hμ0 : μ 0 = p + 1 := by rw [← hcount 0 (by omega), hu0, c0]
  have hμs : μ s = p + 1 := by rw [← hcount s le_rfl, hus, c1]
  refine ⟨s, u, μ, hl, hu, hμ, ⟨hr, hs1, ?_, ?_⟩, hcount, hu0, hus, ?_⟩
  · simp [sumTo, hμ0]
  · rw [sumTo_succ, hμs]
  · unfold spanCount
    rw [← List.card_toFinset]
    have : l.toFinset = (Finset.range (s + 1)).image u := by
      ext v
      rw [List.mem_toFinset, hl, runsL_mem, Finset.mem_image]
      constructor
      · rintro ⟨q, h1, _, rfl⟩
        exact ⟨q, Finset.mem_range.mpr h1, rfl⟩
      · rintro ⟨q, h1, rfl⟩
        have h1 := Finset.mem_range.mp h1
        exact ⟨q, h1, by have := hμ q (by omega); omega, rfl⟩
    rw [this, Finset.card_image_of_injOn, Finset.card_range, Nat.add_sub_cancel]
    intro a ha b hb hab
    have ha := Finset.mem_range.mp (Finset.mem_coe.mp ha)
    have hb := Finset.mem_range.mp (Finset.mem_coe.mp hb)
    rcases lt_trichotomy a b with h | h | h
    · exact absurd hab (hr.u_lt h (by omega)).ne
    · exact h
    · exact absurd hab (hr.u_lt h (by omega)).ne'

theorem ClRuns.isSpan {p : ℕ} {l : List K} {s : ℕ} {u : ℕ → K} {S : ℕ → ℕ} (h : ClRuns p l s u S) {q : ℕ} (hq : q < s) :
    IsSpan l (u q) (S (q + 1) - 1) := by
  have h1 := h.S_le hq
  have h2 := h.up q (by omega)
  have h3 := h.jump hq
  have h4 := h.val q (by omega) (S (q + 1) - 1) (by omega) (by omega)
  exact ⟨by omega, h4.le, Or.inl (by rw [← h4]; exact h3)⟩

theorem tab_unhomo_hpts {p : ℕ} {c : Curve K} (hw : WFCurve p c) {n : ℕ} (hn : n = c.ControlPoints.length) :
    (tab n fun i => unhomo (hpts c.ControlPoints i)) = c.ControlPoints := by
  subst hn
  exact (tab_congr (g := pt c.ControlPoints) fun i hi => unhomo_toHomo (hw.weights i hi).ne').trans (eq_tab_pt _).symm

/-- The code computes the elevated curve. -/
theorem elevate_code {p t : ℕ} (hp : 1 ≤ p) (ht : 1 ≤ t) (h29 : p + t ≤ 29) {c : Curve K} (hw : WFCurve p c)
    (hm : InteriorMult p c.Knots.Values) (hs : KnotsApart c.Knots.Values) (hst : SteadyMult p t c.Knots.Values)
    (hbuf : c.ControlPoints.length + t * spanCount c.Knots.Values ≤ 2 * (c.ControlPoints.length - 1 + t)) :
    ∃ c' : Curve K, WFCurve (p + t) c' ∧ Raised t c.Knots.Values c'.Knots.Values ∧
      c'.ControlPoints.length = c.ControlPoints.length + t * spanCount c.Knots.Values ∧
      (∀ x, 0 ≤ x → x ≤ 1 → c'.Evaluate x = c.Evaluate x) ∧
      (∀ x, 0 ≤ x → x ≤ 1 → ∀ k k', IsSpan c.Knots.Values x k → IsSpan c'.Knots.Values x k' →
        seg (kn c'.Knots.Values) k' x (p + t) (hpts c'.ControlPoints) = seg (kn c.Knots.Values) k x p (hpts c.ControlPoints)) ∧
      InHull c.ControlPoints c'.ControlPoints ∧
      NurbsDegreeElevation c.Knots c.ControlPoints p t = .ok (c'.Knots, c'.ControlPoints, (p : Int) + t) := by
  obtain ⟨c', hw', hr, hhull, hel⟩ := elevate_many hp hw t
  obtain ⟨s, u, μ, hl, hu, hμ, hrun, hcount, hu0, hus, hsc⟩ := exists_clRuns hw.clamped
  have hl' : c'.Knots.Values = runsL u (fun q => μ q + t) (s + 1) := by
    apply hr.unique
    rw [hl]
    exact raised_runsL t hu hμ
  have hrun0' := runs_runsL (μ := fun q => μ q + t) hu (fun q hq => by have := hμ q hq; omega)
  rw [← hl'] at hrun0'
  have hs1 := hrun.s1
  have hfirst : μ 0 = p + 1 := by simpa [sumTo] using hrun.first
  have hlast : μ s = p + 1 := by have := hrun.last; rw [sumTo_succ] at this; omega
  have hrun' : ClRuns (p + t) c'.Knots.Values s u (sumTo fun q => μ q + t) :=
    ⟨hrun0', hs1, by simp [sumTo, hfirst]; omega, by rw [sumTo_succ, hlast]; omega⟩
  have hlen := hrun.len
  rw [hrun.last, hw.count] at hlen
  have hlen' := hrun'.len
  rw [hrun'.last, hw'.count] at hlen'
  have hSs : sumTo (fun q => μ q + t) s = sumTo μ s + s * t := sumTo_add μ t s
  have hmem : ∀ q ≤ s, u q ∈ c.Knots.Values := fun q hq =>
    List.count_pos_iff.mp (by rw [hcount q hq]; have := hμ q hq; omega)
  have hint : ∀ q, 1 ≤ q → q < s → 0 < u q ∧ u q < 1 := fun q h1 h2 =>
    ⟨by rw [← hu0]; exact hrun.u_lt (by omega) (by omega), by rw [← hus]; exact hrun.u_lt h2 le_rfl⟩
  have hmul : ∀ q, 1 ≤ q → q < s → μ q ≤ p := by
    intro q h1 h2
    rw [← hcount q (by omega)]
    exact hm _ (hint q h1 h2).1 (hint q h1 h2).2
  have hctx : ElCtx p t s c.Knots.Values c'.Knots.Values u (sumTo μ) (sumTo fun q => μ q + t) (hpts c.ControlPoints) (hpts c'.ControlPoints)
      (c.ControlPoints.map ToHomo) := by
    refine ⟨hp, ht, hrun, hrun', ?_, ?_, ?_, ?_, ?_, ?_, ?_⟩
    · intro q _
      rw [sumTo_succ, sumTo_succ]; omega
    · intro q h1 h2
      rw [sumTo_succ]
      have := hmul q h1 h2
      omega
    · intro q hq
      exact hs _ (hmem q (by omega)) _ (hmem (q + 1) (by omega)) (hu q hq)
    · intro q hq
      have hq0 : 0 ≤ u q := by rw [← hu0]; exact hrun.u_mono (by omega) (by omega)
      have hq1 : u q ≤ 1 := by rw [← hus]; exact hrun.u_mono (by omega) (by omega)
      exact hel (u q) hq0 hq1 _ _ (hrun.isSpan hq) (hrun'.isSpan hq)
    · intro q hq
      rw [sumTo_succ, sumTo_succ, Nat.add_sub_cancel_left, Nat.add_sub_cancel_left]
      rcases Nat.eq_zero_or_pos q with h0 | h0
      · subst h0
        have := hmul 1 (by omega) hq
        left; simp only [zero_add]; omega
      · have := hst (u q) (u (q + 1)) ⟨hmem q (by omega), hmem (q + 1) (by omega), hu q (by omega), ?_⟩ (hint q h0 (by omega)).1
          (hint (q + 1) (by omega) hq).2
        · rw [hcount q (by omega), hcount (q + 1) (by omega)] at this
          exact this
        · rintro v hv ⟨h1, h2⟩
          rw [hl, runsL_mem] at hv
          obtain ⟨r, hr1, _, rfl⟩ := hv
          by_cases hrq : r ≤ q
          · exact absurd h1 (not_lt.mpr (hrun.u_mono hrq (by omega)))
          · exact absurd h2 (not_lt.mpr (hrun.u_mono (by omega) (by omega)))
    · rw [List.length_map]; omega
    · intro i hi
      have : i < c.ControlPoints.length := by omega
      simp [hpts, pt, List.getD_eq_getElem?_getD, this]
  have hs0 : s * t = t * s := Nat.mul_comm _ _
  rw [hsc] at hbuf
  have hseg : ∀ x, 0 ≤ x → x ≤ 1 → ∀ k k', IsSpan c.Knots.Values x k → IsSpan c'.Knots.Values x k' →
      seg (kn c'.Knots.Values) k' x (p + t) (hpts c'.ControlPoints) = seg (kn c.Knots.Values) k x p (hpts c.ControlPoints) := by
    intro x h0 h1 k k' hk hk'
    obtain ⟨a1, _⟩ := evaluate_seg hw h0 h1 hk
    obtain ⟨a2, _⟩ := evaluate_seg hw' h0 h1 hk'
    rw [seg_eq_blos _ _ _ _ _ a1, seg_eq_blos _ _ _ _ _ a2]
    exact (hel x h0 h1 k k' hk hk').diag x
  refine ⟨c', hw', hr, by rw [hsc]; omega, ?_, hseg, hhull, ?_⟩
  · intro x h0 h1
    obtain ⟨k, hk, _⟩ := exists_span hw.clamped h0 h1
    obtain ⟨k', hk', _⟩ := exists_span hw'.clamped h0 h1
    obtain ⟨a1, _, _, _, e1⟩ := evaluate_seg hw h0 h1 hk
    obtain ⟨a2, _, _, _, e2⟩ := evaluate_seg hw' h0 h1 hk'
    rw [e1, e2, hseg x h0 h1 k k' hk hk']
  · have hlast' : c'.Knots.Values.getLast? = some 1 := by
      have h1 := hw'.clamped.len
      have := hw'.clamped.ones (c'.Knots.Values.length - 1) (by omega) (by omega)
      rw [List.getLast?_eq_getElem?, List.getElem?_eq_getElem (by omega), ← kn_eq_getElem, this]
    have := nde_ok c.ControlPoints hctx h29 (by omega) ⟨by rintro h; simp [h] at hlast', hw'.clamped.sorted,
      fun v hv => ((clamped_count hw'.clamped).2.2 v hv).1, hlast'⟩ (by
        intro i hi
        exact (hw'.weights i (by omega)).ne')
    rw [tab_unhomo_hpts hw' (by omega)] at this
    exact this

/-- There are at least as many control points as spans plus the degree. -/
theorem spanCount_le {p : ℕ} {c : Curve K} (hw : WFCurve p c) : 1 ≤ spanCount c.Knots.Values ∧
    spanCount c.Knots.Values + p ≤ c.ControlPoints.length := by
  obtain ⟨s, u, μ, hl, hu, hμ, hrun, hcount, hu0, hus, hsc⟩ := exists_clRuns hw.clamped
  have h1 := hrun.S_add (q := 1) (r := s) hrun.s1 (by omega)
  have h2 := hrun.first
  have h3 := hrun.last
  have h4 := hrun.len
  have h5 := hw.count
  have := hrun.s1
  rw [hsc]
  omega

theorem steady_of_low {p t : ℕ} (hp : p ≤ 9) (ht : 1 ≤ t) (l : List K) : SteadyMult p t l := by
  intro a b h _ _
  have := List.count_pos_iff.mpr h.1
  omega

theorem buf_once {p : ℕ} {c : Curve K} (hw : WFCurve p c) :
    c.ControlPoints.length + 1 * spanCount c.Knots.Values ≤ 2 * (c.ControlPoints.length - 1 + 1) := by
  have := spanCount_le hw
  omega

/-- The member function. -/
theorem elevateDegree_ok {p t : ℕ} (hp : 1 ≤ p) (ht : 1 ≤ t) (h29 : p + t ≤ 29) {c : Curve K} (hw : WFCurve p c)
    (hm : InteriorMult p c.Knots.Values) (hs : KnotsApart c.Knots.Values) (hst : SteadyMult p t c.Knots.Values)
    (hbuf : c.ControlPoints.length + t * spanCount c.Knots.Values ≤ 2 * (c.ControlPoints.length - 1 + t)) :
    ∃ c' : Curve K, c.ElevateDegree t = .ok c' ∧ WFCurve (p + t) c' ∧ Raised t c.Knots.Values c'.Knots.Values ∧
      c'.ControlPoints.length = c.ControlPoints.length + t * spanCount c.Knots.Values ∧
      InHull c.ControlPoints c'.ControlPoints ∧ ∀ x, c'.Evaluate x = c.Evaluate x := by
  obtain ⟨c', h1, h2, h3, h4, _, h6, h5⟩ := elevate_code hp ht h29 hw hm hs hst hbuf
  refine ⟨c', ?_, h1, h2, h3, h6, ?_⟩
  · unfold Curve.ElevateDegree
    rw [massert_true (by omega), hw.degree, h5]
    simp only [bind_ok, pure_ok]
    have := h1.degree
    push_cast at this
    rw [← this]
  · intro x
    by_cases hx : 0 ≤ x ∧ x ≤ 1
    · exact h4 x hx.1 hx.2
    · unfold Curve.Evaluate
      rw [massert_false (fun h => hx ⟨h.1, h.2⟩)]
      rfl

end Nurbs
