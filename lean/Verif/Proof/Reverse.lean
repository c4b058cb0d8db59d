import Verif.Proof.Path
import Verif.Proof.Align
import Verif.Proof.Bezier
import Verif.Proof.CurveDeriv
import Verif.Spec.Reverse

/-! # Running through a curve backwards -/

namespace Nurbs
open Nurbs.Spec Polynomial

set_option linter.unusedSectionVars false

variable {K : Type} [Field K] [LinearOrder K] [IsStrictOrderedRing K]

theorem pt_reverse {l : List (Vec4 K)} {a b : ℕ} (h : a + b + 1 = l.length) : pt l.reverse a = pt l b := by
  unfold pt
  rw [List.getD_eq_getElem _ _ (by simp; omega), List.getD_eq_getElem _ _ (by omega), List.getElem_reverse]
  congr 1
  omega

theorem hpts_reverse {l : List (Vec4 K)} {a b : ℕ} (h : a + b + 1 = l.length) : hpts l.reverse a = hpts l b := by
  unfold hpts
  rw [pt_reverse h]

theorem rev_wf {p : ℕ} {c : Curve K} (hw : WFCurve p c) : WFCurve p (backwards c) := by
  refine ⟨hw.degree, clamped_reverse hw.clamped, ?_, ?_⟩
  · show c.Knots.Reverse.Values.length = c.ControlPoints.reverse.length + p + 1
    rw [reverse_length, List.length_reverse]; exact hw.count
  · intro i hi
    have hi' : i < c.ControlPoints.length := by simpa [backwards] using hi
    show 0 < (pt c.ControlPoints.reverse i).w
    rw [pt_reverse (b := c.ControlPoints.length - 1 - i) (by omega)]
    exact hw.weights _ (by omega)

theorem rev_rev (c : Curve K) : backwards (backwards c) = c := by
  unfold backwards
  simp only [List.reverse_reverse, (Props.C11_reverse c.Knots).2.2.1]

theorem mem_reverse {kv : KnotVector K} {v : K} : v ∈ kv.Reverse.Values ↔ 1 - v ∈ kv.Values := by
  rw [← List.count_pos_iff, ← List.count_pos_iff, (Props.C11_reverse kv).2.2.2.2]

theorem not_jump_of_not_mem {p : ℕ} {l : List K} {x : K} (h : x ∉ l) : ¬ JumpAt p l x := by
  rintro ⟨_, _, i, hi, e, _⟩
  apply h
  rw [← e, kn_eq_getElem l i (by omega)]
  exact List.getElem_mem _

/-- The reversed curve has the same homogeneous values. -/
theorem seg_backwards {p : ℕ} {c : Curve K} (hw : WFCurve p c) {x : K} (h0 : 0 ≤ x) (h1 : x ≤ 1) {k k' : ℕ} (hk : IsSpan c.Knots.Values x k)
    (hk' : IsSpan c.Knots.Reverse.Values (1 - x) k') (hj : ¬ JumpAt p c.Knots.Values x) :
    seg (kn c.Knots.Reverse.Values) k' (1 - x) p (hpts c.ControlPoints.reverse) = seg (kn c.Knots.Values) k x p (hpts c.ControlPoints) := by
  have hct := hw.count
  obtain ⟨a1, a2, _⟩ := evaluate_seg hw h0 h1 hk
  obtain ⟨b1, b2, _⟩ := evaluate_seg (rev_wf hw) (x := 1 - x) (by linarith) (by linarith) (k := k') hk'
  have hl' : (backwards c).Knots.Values.length = c.Knots.Values.length := reverse_length c.Knots
  rw [hl'] at b2
  exact seg_reverse_at hw.clamped hct h0 hk a1 (by omega) hk' b1 (by omega) hj _ _ (fun a b hab => hpts_reverse hab)

/-- Points are determined by the values of the segment inside the span. -/
theorem seg_unique_inside {l : List K} {k p : ℕ} (hlt : kn l k < kn l (k + 1)) (hp : p ≤ k) (hr : RegSpan (kn l) k p)
    (P Q : ℕ → Vec4 K) (h : ∀ x, kn l k < x → x < kn l (k + 1) → seg (kn l) k x p P = seg (kn l) k x p Q) :
    ∀ i, k - p ≤ i → i ≤ k → P i = Q i := by
  have key : ∀ x, seg (kn l) k x p P = seg (kn l) k x p Q := by
    intro x
    have hL : ∀ L : Vec4 K →ₗ[K] K, L (seg (kn l) k x p P) = L (seg (kn l) k x p Q) := by
      intro L
      have e : segP (kn l) k p (fun i => L (P i)) = segP (kn l) k p (fun i => L (Q i)) := by
        apply Polynomial.eq_of_infinite_eval_eq
        apply (Set.Ioo_infinite hlt).mono
        intro y hy
        simp only [Set.mem_ofPred_eq]
        rw [segP_eval, segP_eval]
        have e := congrArg L (h y hy.1 hy.2)
        rwa [seg_map, seg_map] at e
      have e' := congrArg (eval x) e
      rw [segP_eval, segP_eval] at e'
      rwa [seg_map, seg_map]
    ext
    · exact hL Vec4.lx
    · exact hL Vec4.ly
    · exact hL Vec4.lz
    · exact hL Vec4.lw
  exact seg_unique hlt hp hr P Q fun x _ _ => key x

/-- Curves with the same knots and the same homogeneous values between the knots are equal. -/
theorem curve_unique_inside {p : ℕ} {c c' : Curve K} (hw : WFCurve p c) (hw' : WFCurve p c') (hk : c'.Knots.Values = c.Knots.Values)
    (hm : InteriorMult (p + 1) c.Knots.Values)
    (h : ∀ x k, 0 < x → x < 1 → x ∉ c.Knots.Values → IsSpan c.Knots.Values x k →
      seg (kn c.Knots.Values) k x p (hpts c'.ControlPoints) = seg (kn c.Knots.Values) k x p (hpts c.ControlPoints)) : c' = c := by
  have hkk : c'.Knots = c.Knots := by
    cases e1 : c.Knots; cases e2 : c'.Knots
    rw [e1, e2] at hk
    exact congrArg _ hk
  have hlen : c'.ControlPoints.length = c.ControlPoints.length := by
    have := hw.count; have := hw'.count; rw [hk] at this; omega
  have key : ∀ i < c.ControlPoints.length, hpts c'.ControlPoints i = hpts c.ControlPoints i := by
    intro i hi
    have hct := hw.count
    obtain ⟨s, hs1, hs2, hs3⟩ := exists_jump _ _ _ (live_of_mult hw.clamped hm i (by omega))
    have hs := isSpan_left (l := c.Knots.Values) (show s + 1 < _ by omega) hs3
    have hx0 := hw.clamped.nonneg (show s < _ by omega)
    have hx1 := hw.clamped.le_one (show s < _ by omega)
    obtain ⟨a1, _, a3, _⟩ := evaluate_seg hw hx0 hx1 hs
    refine seg_unique_inside hs3 a1 a3 _ _ (fun x h1 h2 => ?_) i (by omega) (by omega)
    refine h x s (lt_of_le_of_lt hx0 h1) (lt_of_lt_of_le h2 (hw.clamped.le_one (by omega))) ?_ ⟨by omega, h1.le, Or.inl h2⟩
    intro hmem
    obtain ⟨n, hn, rfl⟩ := List.getElem_of_mem hmem
    rw [← kn_eq_getElem] at h1 h2
    have e1 : s < n := by
      by_contra h'
      have := kn_mono hw.clamped.sorted (show n ≤ s by omega) (by omega)
      linarith
    have := kn_mono hw.clamped.sorted (show s + 1 ≤ n by omega) hn
    linarith
  refine curve_unique hw hw' hkk hm fun x k h0 h1 hs => ?_
  obtain ⟨a, b, _⟩ := evaluate_seg hw h0 h1.le hs
  have hct := hw.count
  exact seg_congr a fun i _ h2 => key i (by omega)

/-- What is done to the reversed curve is the reverse of what is done to the curve. -/
theorem rev_unique {p p' : ℕ} {c c1 d1 : Curve K} (hw : WFCurve p c) (h1 : WFCurve p' c1) (h2 : WFCurve p' d1)
    (hk : d1.Knots.Values = c1.Knots.Reverse.Values) (hm : InteriorMult (p' + 1) c1.Knots.Values)
    (hsub : ∀ v ∈ c.Knots.Values, v ∈ c1.Knots.Values) (s1 : SameSeg p p' c c1) (s2 : SameSeg p p' (backwards c) d1) :
    d1 = backwards c1 := by
  refine curve_unique_inside (rev_wf h1) h2 hk ?_ fun y k' hy0 hy1 hy hk' => ?_
  · intro v h0 h1'
    show c1.Knots.Reverse.Values.count v ≤ _
    rw [(Props.C11_reverse c1.Knots).2.2.2.2]
    exact hm _ (by linarith) (by linarith)
  have hx : 1 - y ∉ c1.Knots.Values := fun h => hy (mem_reverse.mpr h)
  have e : 1 - (1 - y) = y := by ring
  obtain ⟨k, hk1, _⟩ := exists_span h1.clamped (x := 1 - y) (by linarith) (by linarith)
  obtain ⟨j, hj1, _⟩ := exists_span hw.clamped (x := 1 - y) (by linarith) (by linarith)
  obtain ⟨j', hj2, _⟩ := exists_span (rev_wf hw).clamped (x := y) hy0.le hy1.le
  have a1 := seg_backwards h1 (x := 1 - y) (by linarith) (by linarith) hk1 (k' := k') (by rw [e]; exact hk') (not_jump_of_not_mem hx)
  have a2 := seg_backwards hw (x := 1 - y) (by linarith) (by linarith) hj1 (k' := j') (by rw [e]; exact hj2)
    (not_jump_of_not_mem fun h => hx (hsub _ h))
  rw [e] at a1 a2
  have a3 := s1 (1 - y) (by linarith) (by linarith) j k hj1 hk1
  have a4 := s2 y hy0.le hy1.le j' k' hj2 (by rw [hk]; exact hk')
  rw [hk] at a4
  exact a4.trans (a2.trans (a3.symm.trans a1.symm))

/-! ### derivatives -/

theorem quotNum_rev (A W : K[X]) (n : ℕ) :
    quotNum (A.comp (1 - X)) (W.comp (1 - X)) n = (-1) ^ n * (quotNum A W n).comp (1 - X) := by
  induction n with
  | zero => simp [quotNum]
  | succ n ih =>
    have hd : derivative ((-1 : K[X]) ^ n) = 0 := by
      rcases neg_one_pow_eq_or K[X] n with h | h <;> rw [h] <;> simp
    have dc : ∀ P : K[X], derivative (P.comp (1 - X)) = - (derivative P).comp (1 - X) := by
      intro P
      rw [derivative_comp]; simp
    unfold quotNum
    rw [ih, derivative_mul, hd, dc, dc]
    simp only [sub_comp, mul_comp, nsmul_eq_mul, natCast_comp]
    ring

theorem quotDeriv_rev (A W : K[X]) (n : ℕ) (x : K) :
    quotDeriv (A.comp (1 - X)) (W.comp (1 - X)) n (1 - x) = (-1) ^ n * quotDeriv A W n x := by
  unfold quotDeriv
  rw [quotNum_rev]
  simp [eval_comp, mul_div_assoc]

theorem curveP_rev {p : ℕ} {c : Curve K} (hw : WFCurve p c) {k k' : ℕ} (hkk : k + k' + 1 = c.ControlPoints.length + p) (hp : p ≤ k) (hp' : p ≤ k')
    (L : Vec4 K → K) : curveP p (backwards c) k' L = (curveP p c k L).comp (1 - X) := by
  have hct := hw.count
  apply Polynomial.funext
  intro y
  rw [eval_comp]
  unfold curveP
  rw [segP_eval, segP_eval]
  have e : eval y (1 - X : K[X]) = 1 - y := by simp
  rw [e]
  have hU : ∀ a b, a + b = c.ControlPoints.length + p → kn (backwards c).Knots.Values a = 1 - kn c.Knots.Values b := fun a b h => kn_reverse c.Knots (by omega)
  have := seg_reverse hU hkk hp hp' (1 - y) (P := fun i => L (hpts c.ControlPoints i)) (P' := fun i => L (hpts (backwards c).ControlPoints i))
    (fun a b h => congrArg L (hpts_reverse h))
  rwa [show (1 : K) - (1 - y) = y by ring] at this

end Nurbs
