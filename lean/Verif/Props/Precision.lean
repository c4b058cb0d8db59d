import Verif.Proof.Precision
import Verif.Props.Basis
import Verif.Props.Curve
import Verif.Proof.Insert2

/-! # C98: lines and polynomials are reproduced -/

set_option linter.unusedSectionVars false

namespace Nurbs.Props
open Nurbs Nurbs.Spec

variable {K : Type} [Field K] [LinearOrder K] [IsStrictOrderedRing K]

/-- C98 (basis): Marsden's identity.  The values `N` that `BSplineBasis::Evaluate` returns at `x` in the span `k` satisfy
`Σ N_n Π_j (y - U[k-p+n+j]) = (y - x)^p` for every `y`, `j` from 1 to `p`. -/
theorem C98_marsden {p : ℕ} {l : List K} (hc : Clamped p l) {x : K} (h0 : 0 ≤ x) (h1 : x ≤ 1) :
    ∃ (k : ℕ) (row : List K), KnotVector.FindSpanIndex ⟨l⟩ p x = .ok (k : Int) ∧ BSplineBasis.Evaluate p ⟨l⟩ x = .ok row ∧
      row.length = p + 1 ∧ ∀ y : K, ∑ n ∈ Finset.range (p + 1), row.getD n 0 * ∏ j ∈ Finset.range p, (y - kn l (k - p + n + 1 + j)) =
        (y - x) ^ p := by
  obtain ⟨k, hs, hpk, hlk, hreg, hk, hN, he⟩ := evaluate_spec hc h0 h1
  refine ⟨k, tab (p + 1) fun n => N (kn l) x p (k - p + n), hk, ?_, by simp, fun y => ?_⟩
  · unfold BSplineBasis.Evaluate
    rw [hk, bind_ok]
    exact he
  · have h := seg_eq_of_dual (kn l) k p _ _ (multiAffine_prod p y) hpk hreg (fun _ _ _ => rfl) x
    rw [List.map_replicate, List.prod_replicate] at h
    rw [← h]
    unfold seg
    refine Finset.sum_congr rfl fun n hn => ?_
    rw [Finset.mem_range] at hn
    rw [List.getD_eq_getElem?_getD, tab_getElem? _ _ _ hn, Option.getD_some, hN _ (by omega), smul_eq_mul]
    congr 1
    unfold win
    beta_reduce
    rw [List.map_map, Finset.prod_eq_multiset_prod, Finset.range_val, Multiset.range, Multiset.map_coe, Multiset.prod_coe]
    rfl

/-- C98 (lines).  If all weights are equal and control point `i` is `A + g_i B` with `g_i` the mean of the knots
`U[i+1], …, U[i+p]`, the curve is the straight line `A + x B`, run through at constant speed. -/
theorem C98_line {p : ℕ} (hp : 1 ≤ p) {c : Curve K} (hw : WFCurve p c) {W : K} (A B : Vec3 K)
    (h : ∀ i < c.ControlPoints.length, pt c.ControlPoints i = ⟨A.x + greville p c.Knots.Values i * B.x,
      A.y + greville p c.Knots.Values i * B.y, A.z + greville p c.Knots.Values i * B.z, W⟩) {x : K} (h0 : 0 ≤ x) (h1 : x ≤ 1) :
    c.Evaluate x = .ok ⟨A.x + x * B.x, A.y + x * B.y, A.z + x * B.z⟩ := by
  rw [(C23_evaluate hw h0 h1).1]
  have hm := equal_weights_mean hw (W := W) (fun i hi => by rw [h i hi]) h0 h1
  have hone := sum_dual hw.clamped hw.count h0 h1 (fun _ => 1) (by
    constructor
    · intros; rfl
    · intros; simp)
  have hgre := sum_dual hw.clamped hw.count h0 h1 (fun ts => (p : K)⁻¹ * es 1 ts) ((multiAffine_es p 1).smul' _)
  have hp0 : (p : K) ≠ 0 := Nat.cast_ne_zero.mpr (by omega)
  simp only [← greville_eq, es_replicate, Nat.choose_one_right, pow_one] at hgre
  rw [inv_mul_cancel_left₀ hp0] at hgre
  have key : ∀ (f : Vec4 K → K) (a b : K), (∀ i < c.ControlPoints.length, f (pt c.ControlPoints i) = a + greville p c.Knots.Values i * b) →
      wsum p c x f / wsum p c x (fun _ => 1) = a + x * b := by
    intro f a b hf
    rw [hm f]
    calc ∑ i ∈ Finset.range c.ControlPoints.length, N (kn c.Knots.Values) x p i * f (pt c.ControlPoints i)
        = (∑ i ∈ Finset.range c.ControlPoints.length, N (kn c.Knots.Values) x p i * 1) * a +
          (∑ i ∈ Finset.range c.ControlPoints.length, N (kn c.Knots.Values) x p i * greville p c.Knots.Values i) * b := by
          rw [Finset.sum_mul, Finset.sum_mul, ← Finset.sum_add_distrib]
          refine Finset.sum_congr rfl fun i hi => ?_
          rw [hf i (Finset.mem_range.mp hi)]
          ring
      _ = a + x * b := by rw [hone, hgre, one_mul]
  unfold nurbsPoint
  rw [key (·.x) A.x B.x (fun i hi => by rw [h i hi]), key (·.y) A.y B.y (fun i hi => by rw [h i hi]),
    key (·.z) A.z B.z (fun i hi => by rw [h i hi])]

/-- C98 (polynomials).  On every clamped knot vector, every polynomial path of degree at most `p` is the path of a curve with
weights one: what the curves of degree `p` can represent does not depend on the knots. -/
theorem C98_polynomial {p n : ℕ} {l : List K} (hc : Clamped p l) (hn : l.length = n + p + 1) {f g h : Polynomial K}
    (hf : f.natDegree ≤ p) (hg : g.natDegree ≤ p) (hh : h.natDegree ≤ p) :
    ∃ c : Curve K, WFCurve p c ∧ c.Knots.Values = l ∧ (∀ i < n, (pt c.ControlPoints i).w = 1) ∧
      ∀ x : K, 0 ≤ x → x ≤ 1 → c.Evaluate x = .ok ⟨f.eval x, g.eval x, h.eval x⟩ := by
  set c : Curve K := ⟨p, ⟨l⟩, tab n fun i => ⟨polyBlos p f (win (kn l) i p), polyBlos p g (win (kn l) i p),
    polyBlos p h (win (kn l) i p), 1⟩⟩ with hcd
  have hlen : c.ControlPoints.length = n := by simp [hcd]
  have hpt : ∀ i < n, pt c.ControlPoints i = ⟨polyBlos p f (win (kn l) i p), polyBlos p g (win (kn l) i p),
    polyBlos p h (win (kn l) i p), 1⟩ := fun i hi => pt_tab _ _ _ hi
  have hw : WFCurve p c := ⟨rfl, hc, by rw [hlen]; exact hn, fun i hi => by rw [hpt i (by omega)]; exact one_pos⟩
  refine ⟨c, hw, rfl, fun i hi => by rw [hpt i hi], fun x h0 h1 => ?_⟩
  rw [(C23_evaluate hw h0 h1).1]
  have hm := equal_weights_mean hw (W := 1) (fun i hi => by rw [hpt i (by omega)]) h0 h1
  have key : ∀ (q : Vec4 K → K) (r : Polynomial K), r.natDegree ≤ p → (∀ i < n, q (pt c.ControlPoints i) = polyBlos p r (win (kn l) i p)) →
      wsum p c x q / wsum p c x (fun _ => 1) = r.eval x := by
    intro q r hr hq
    rw [hm q, ← polyBlos_replicate p r hr x, ← sum_dual hc hn h0 h1 _ (multiAffine_poly p r), hlen]
    exact Finset.sum_congr rfl fun i hi => by rw [hq i (Finset.mem_range.mp hi)]
  unfold nurbsPoint
  rw [key (·.x) f hf (fun i hi => by rw [hpt i hi]), key (·.y) g hg (fun i hi => by rw [hpt i hi]), key (·.z) h hh (fun i hi => by rw [hpt i hi])]

/-- A line on the knots of `exCurve`, run through at constant speed. -/
def exStraight : Curve ℚ := ⟨2, ⟨[0, 0, 0, 1/4, 1/2, 1/2, 1, 1, 1]⟩, [⟨1, 2, 0, 3⟩, ⟨5/4, 2, -1/8, 3⟩, ⟨7/4, 2, -3/8, 3⟩, ⟨2, 2, -1/2, 3⟩,
  ⟨5/2, 2, -3/4, 3⟩, ⟨3, 2, -1, 3⟩]⟩
example : WFCurve 2 exStraight :=
  ⟨by decide +kernel, ⟨by decide +kernel, by decide +kernel, by decide +kernel, by decide +kernel, by decide +kernel, by decide +kernel⟩,
    by decide +kernel, by decide +kernel⟩
example : (∀ i < exStraight.ControlPoints.length, pt exStraight.ControlPoints i = ⟨1 + greville 2 exStraight.Knots.Values i * 2,
      2 + greville 2 exStraight.Knots.Values i * 0, 0 + greville 2 exStraight.Knots.Values i * (-1), 3⟩) ∧
    exStraight.Evaluate (1/3) = .ok ⟨5/3, 2, -1/3⟩ := by decide +kernel
/-- The values 2/9, 2/3, 1/9 at 1/3 and the knots 0, 1/4, 1/2, 1/2. -/
example (y : ℚ) : 2/9 * ((y - 0) * (y - 1/4)) + 2/3 * ((y - 1/4) * (y - 1/2)) + 1/9 * ((y - 1/2) * (y - 1/2)) = (y - 1/3) ^ 2 := by ring
/-- Equally spaced control points do not give a straight line of constant speed on these knots. -/
example : ({ exStraight with ControlPoints := [⟨0, 0, 0, 1⟩, ⟨1/5, 0, 0, 1⟩, ⟨2/5, 0, 0, 1⟩, ⟨3/5, 0, 0, 1⟩, ⟨4/5, 0, 0, 1⟩, ⟨1, 0, 0, 1⟩] } : Curve ℚ).Evaluate (1/3) ≠
    .ok ⟨1/3, 0, 0⟩ := by decide +kernel

end Nurbs.Props
