import Verif.Proof.Unique
import Verif.Proof.ElevCode
import Verif.Proof.SurfaceInsert

/-! # Different ways to the same curve -/

namespace Nurbs
open Nurbs.Spec

set_option linter.unusedSectionVars false

variable {K : Type} [Field K] [LinearOrder K] [IsStrictOrderedRing K]

/-- `c` (degree `p`) and `c'` (degree `p'`) have the same homogeneous values. -/
def SameSeg (p p' : ℕ) (c c' : Curve K) : Prop := ∀ x, 0 ≤ x → x ≤ 1 → ∀ k k', IsSpan c.Knots.Values x k → IsSpan c'.Knots.Values x k' →
  seg (kn c'.Knots.Values) k' x p' (hpts c'.ControlPoints) = seg (kn c.Knots.Values) k x p (hpts c.ControlPoints)

theorem SameSeg.trans {p p' p'' : ℕ} {c c' c'' : Curve K} (h : SameSeg p p' c c') (h' : SameSeg p' p'' c' c'') (hw : WFCurve p' c') :
    SameSeg p p'' c c'' := by
  intro x h0 h1 k k' hk hk'
  obtain ⟨m, hm, _⟩ := exists_span hw.clamped h0 h1
  rw [h' x h0 h1 m k' hm hk', h x h0 h1 k m hk hm]

theorem sameSeg_of_polar {p : ℕ} {c c' : Curve K} (hw : WFCurve p c) (hw' : WFCurve p c') (h : SamePolar p c c') : SameSeg p p c c' := by
  intro x h0 h1 k k' hk hk'
  obtain ⟨a, _⟩ := evaluate_seg hw h0 h1 hk
  obtain ⟨a', _⟩ := evaluate_seg hw' h0 h1 hk'
  rw [seg_eq_blos _ _ _ _ _ a, seg_eq_blos _ _ _ _ _ a', h x h0 h1 k k' hk hk' _ (by simp)]

/-- Curves with the same knots that have the same homogeneous values as a third curve are equal. -/
theorem path_unique {p p' : ℕ} {c c1 c2 : Curve K} (hw : WFCurve p c) (h1 : WFCurve p' c1) (h2 : WFCurve p' c2)
    (hk : c1.Knots.Values = c2.Knots.Values) (hm : InteriorMult (p' + 1) c1.Knots.Values) (s1 : SameSeg p p' c c1)
    (s2 : SameSeg p p' c c2) : c1 = c2 := by
  have hkk : c1.Knots = c2.Knots := by
    cases e1 : c1.Knots; cases e2 : c2.Knots
    rw [e1, e2] at hk
    exact congrArg _ hk
  refine curve_unique h2 h1 hkk (by rwa [← hk]) fun x k h0 hx hs => ?_
  obtain ⟨m, hm', _⟩ := exists_span hw.clamped h0 hx.le
  have := s1 x h0 hx.le m k hm' (by rw [hk]; exact hs)
  rw [hk] at this
  rw [this, s2 x h0 hx.le m k hm' hs]

theorem dedup_length_congr {l l' : List K} (h : ∀ v, v ∈ l' ↔ v ∈ l) : l'.dedup.length = l.dedup.length := by
  apply List.Perm.length_eq
  rw [List.perm_ext_iff_of_nodup (List.nodup_dedup _) (List.nodup_dedup _)]
  intro v
  rw [List.mem_dedup, List.mem_dedup, h]

theorem spanCount_congr {l l' : List K} (h : ∀ v, v ∈ l' ↔ v ∈ l) : spanCount l' = spanCount l := by
  unfold spanCount
  rw [dedup_length_congr h]

theorem knotsApart_congr {l l' : List K} (h : ∀ v, v ∈ l' → v ∈ l) (ha : KnotsApart l) : KnotsApart l' :=
  fun a h1 b h2 => ha a (h a h1) b (h b h2)

theorem neighbours_congr {l l' : List K} (h : ∀ v, v ∈ l' ↔ v ∈ l) {a b : K} : Neighbours l' a b ↔ Neighbours l a b := by
  unfold Neighbours
  simp only [h]

theorem raised_interior {p t : ℕ} {l l' : List K} (h : Raised t l l') (hm : InteriorMult p l) : InteriorMult (p + t) l' := by
  intro v h0 h1
  rw [h.2 v]
  have := hm v h0 h1
  split_ifs <;> omega

theorem raised_steady {p a b : ℕ} {l l' : List K} (h : Raised a l l') (hs : SteadyMult p a l) :
    SteadyMult (p + a) b l' := by
  intro x y hn h0 h1
  have hn' := (neighbours_congr h.mem).mp hn
  rw [h.2 x, h.2 y, if_pos hn'.1, if_pos hn'.2.1]
  have := hs x y hn' h0 h1
  omega

theorem steady_mono {p a b : ℕ} {l : List K} (hs : SteadyMult p a l) (hab : a ≤ b) : SteadyMult p b l := by
  intro x y hn h0 h1
  have := hs x y hn h0 h1
  omega

theorem Raised.add {a b : ℕ} {l l' l'' : List K} (h : Raised a l l') (h' : Raised b l' l'') : Raised (a + b) l l'' := by
  refine ⟨h'.1, fun v => ?_⟩
  rw [h'.2, h.2]
  have := h.mem v
  by_cases hv : v ∈ l
  · rw [if_pos hv, if_pos hv, if_pos (this.mpr hv)]; omega
  · rw [if_neg hv, if_neg hv, if_neg (fun h => hv (this.mp h))]

/-- The member function, with the values of the segments. -/
theorem elevateDegree_seg {p t : ℕ} (hp : 1 ≤ p) (ht : 1 ≤ t) (h29 : p + t ≤ 29) {c : Curve K} (hw : WFCurve p c)
    (hm : InteriorMult p c.Knots.Values) (hs : KnotsApart c.Knots.Values) (hst : SteadyMult p t c.Knots.Values)
    (hbuf : c.ControlPoints.length + t * spanCount c.Knots.Values ≤ 2 * (c.ControlPoints.length - 1 + t)) :
    ∃ c' : Curve K, c.ElevateDegree t = .ok c' ∧ WFCurve (p + t) c' ∧ Raised t c.Knots.Values c'.Knots.Values ∧
      c'.ControlPoints.length = c.ControlPoints.length + t * spanCount c.Knots.Values ∧ SameSeg p (p + t) c c' := by
  obtain ⟨c', h1, h2, h3, _, h4, _, h5⟩ := elevate_code hp ht h29 hw hm hs hst hbuf
  refine ⟨c', ?_, h1, h2, h3, fun x h0 h1 k k' hk hk' => h4 x h0 h1 k k' hk hk'⟩
  unfold Curve.ElevateDegree
  rw [massert_true (by omega), hw.degree, h5]
  simp only [bind_ok, pure_ok]
  have := h1.degree
  push_cast at this
  rw [← this]

/-- A sequence of points is determined by its segments. -/
theorem points_unique {p n : ℕ} {l : List K} (hc : Clamped p l) (hl : l.length = n + p + 1) (hm : InteriorMult (p + 1) l) (P Q : ℕ → Vec4 K)
    (h : ∀ x k, 0 ≤ x → x < 1 → IsSpan l x k → seg (kn l) k x p P = seg (kn l) k x p Q) : ∀ i < n, P i = Q i := by
  intro i hi
  have hw : WFCurve p (⟨p, ⟨l⟩, tab n fun _ => ⟨0, 0, 0, 1⟩⟩ : Curve K) :=
    ⟨rfl, hc, by simp [hl], fun i hi => by rw [pt_tab _ _ _ (by simpa using hi)]; exact one_pos⟩
  obtain ⟨s, hs1, hs2, hs3⟩ := exists_jump _ _ _ (live_of_mult hc hm i (by omega))
  have hs := isSpan_left (l := l) (show s + 1 < _ by omega) hs3
  have hx0 := hc.nonneg (show s < _ by omega)
  have hx1 := hc.le_one (show s < _ by omega)
  obtain ⟨a1, _, a3, _⟩ := evaluate_seg hw hx0 hx1 hs
  refine seg_unique hs3 a1 a3 _ _ (fun x h1 h2 => ?_) i (by omega) (by omega)
  exact h x s (hx0.trans h1) (lt_of_lt_of_le h2 (hc.le_one (by omega))) ⟨by omega, h1, Or.inl h2⟩

end Nurbs
