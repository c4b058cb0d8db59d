import Verif.Proof.Search
import Verif.Props.Curve
import Verif.Props.Deriv

/-! # C41, C42: parameter searches on curves -/

set_option linter.unusedSectionVars false

namespace Nurbs.Props
open Nurbs Nurbs.Spec

variable {K : Type} [Field K] [LinearOrder K] [IsStrictOrderedRing K]

theorem residual_eq (sqrt : K → K) {c : Curve K} {P C : Vec3 K} {u : K} (h : c.Evaluate u = .ok C) :
    c.residual sqrt P u = .ok (distance sqrt C P) := by
  unfold Curve.residual
  rw [h, bind_ok]
  show Except.ok (Vec3.norm sqrt (C - P)) = _
  congr 1
  unfold Vec3.norm Vec3.dot distance
  simp [sq]

theorem residual_total (sqrt : K → K) {p : ℕ} {c : Curve K} (hw : WFCurve p c) (P : Vec3 K) : TotalOn (c.residual sqrt P) :=
  fun _ h0 h1 => ⟨_, residual_eq sqrt (C23_evaluate hw h0 h1).1⟩

theorem searchGradient_total {p : ℕ} {c : Curve K} (hw : WFCurve p c) (P : Vec3 K) : TotalOn (c.searchGradient P) := by
  intro u h0 h1
  obtain ⟨_, _, _, _, _, _, _, _, _, _, _, _, _, _, _, hd⟩ := C29_evaluateAll_partial hw h0 h1 1 (by omega)
  unfold Curve.searchGradient
  rw [(C23_evaluate hw h0 h1).1, bind_ok]
  rw [Nat.cast_one] at hd
  rw [hd, bind_ok]
  exact ⟨_, rfl⟩

/-- C41.  For `epsilon ≥ 0`, `BinarySearchParameter` never fails – so, `Evaluate` asserting `0 ≤ x ≤ 1`, it evaluates
only inside the domain –, makes at most `max(0, max_iteration_count)` iterations and returns the middle of a bracket
`[lo, hi] ⊆ [0,1]`.  Unless the iterations were used up, the distance at the returned parameter is not larger than at
the two probes `epsilon` to the left and right (cut off at the bracket), and it is below `epsilon` or the bracket is shorter
than `epsilon`. -/
theorem C41_binarySearch (sqrt : K → K) {p : ℕ} {c : Curve K} (hw : WFCurve p c) (P : Vec3 K) {eps : K} (he : 0 ≤ eps) (limit : Int) :
    ∃ r n lo hi, c.BinarySearchParameter sqrt P eps limit = .ok (r, n) ∧ n ≤ limit.toNat ∧
      0 ≤ lo ∧ lo ≤ hi ∧ hi ≤ 1 ∧ r = (lo + hi) / 2 ∧ 0 ≤ r ∧ r ≤ 1 ∧
      (n = limit.toNat ∨ ∃ C L R, c.Evaluate r = .ok C ∧ c.Evaluate (max lo (r - eps)) = .ok L ∧ c.Evaluate (min hi (r + eps)) = .ok R ∧
        distance sqrt C P ≤ distance sqrt L P ∧ distance sqrt C P ≤ distance sqrt R P ∧
        (hi - lo < eps ∨ distance sqrt C P < eps)) := by
  obtain ⟨r, n, lo, hi, e, h1, h2, h3, h4, h5, h6⟩ := binLoop_ok (residual_total sqrt hw P) he
    (fun count => decide ((count : Int) < limit)) limit.toNat (by intro n; simp) (limit.toNat + 1) 0 0 1 (by omega) (by omega)
    (le_refl _) zero_le_one (le_refl _)
  obtain ⟨hm1, hm2⟩ := mid_mem h3
  rw [← h5] at hm1 hm2
  refine ⟨r, n, lo, hi, e, h1, h2, h3, h4, h5, h2.trans hm1, hm2.trans h4, h6.imp id ?_⟩
  rintro ⟨rm, rl, rr, e1, e2, e3, q1, q2, q3⟩
  have l0 : 0 ≤ max lo (r - eps) := le_trans h2 (le_max_left _ _)
  have l1 : max lo (r - eps) ≤ 1 := (max_le hm1 (by linarith)).trans (hm2.trans h4)
  have r0 : 0 ≤ min hi (r + eps) := (h2.trans hm1).trans (le_min hm2 (by linarith))
  have r1 : min hi (r + eps) ≤ 1 := (min_le_left _ _).trans h4
  have eC := (C23_evaluate hw (h2.trans hm1) (hm2.trans h4)).1
  have eL := (C23_evaluate hw l0 l1).1
  have eR := (C23_evaluate hw r0 r1).1
  rw [residual_eq sqrt eC] at e1
  rw [residual_eq sqrt eL] at e2
  rw [residual_eq sqrt eR] at e3
  cases e1; cases e2; cases e3
  exact ⟨_, _, _, eC, eL, eR, q1, q2, q3⟩

/-- A run on the rational example (squared distances, i.e. `sqrt = id`) that returns early. -/
example : exCurve.BinarySearchParameter id ⟨2, 3/20, 19/20⟩ (1/100) 50 = .ok (43/128, 7) := by decide +kernel

/-- C42.  For `init ∈ [0,1]` and a finite `epsilon` (at most the largest double), `SearchParameter` never fails – so, `Evaluate`
asserting `0 ≤ x ≤ 1`, it evaluates only inside the domain –, stops after at most `max_iteration_count` iterations (rounded up
if it is not a whole number) and returns a parameter in `[0,1]`; if it stops before the limit the distance of the returned point
is below `epsilon`. -/
theorem C42_searchParameter [Archimedean K] (sqrt : K → K) {p : ℕ} {c : Curve K} (hw : WFCurve p c) (P : Vec3 K) {init : K}
    (h0 : 0 ≤ init) (h1 : init ≤ 1) {eps : K} (he : eps ≤ (2 ^ 53 - 1) * 2 ^ 971) (limit : K) :
    ∃ r n C fuel₀, (∀ fuel ≥ fuel₀, c.SearchParameter sqrt fuel P init eps limit = .ok (r, n)) ∧
      (n = 0 ∨ (n : K) - 1 < limit) ∧ 0 ≤ r ∧ r ≤ 1 ∧ c.Evaluate r = .ok C ∧ ((n : K) < limit → distance sqrt C P < eps) := by
  have hd : (Search.dblMax : K) = (2 ^ 53 - 1) * 2 ^ 971 := by
    unfold Search.dblMax
    rw [Nat.cast_mul, Nat.cast_sub Nat.one_le_two_pow, Nat.cast_pow, Nat.cast_pow, Nat.cast_one, Nat.cast_two]
  obtain ⟨N, hN⟩ := exists_nat_gt limit
  obtain ⟨s, n, e, q1, q2, q3, q4, q5⟩ := bfgsLoop1_ok (residual_total sqrt hw P) (searchGradient_total hw P) 20 eps limit N hN.le
    (N + 1) 0 (init, Search.dblMax, 1) (by omega) (Or.inl rfl) h0 h1 (fun h => absurd h (not_lt.mpr (by rw [hd]; exact he)))
  refine ⟨s.1, n, nurbsPoint p c s.1, N + 1, ?_, q3, q1, q2, (C23_evaluate hw q1 q2).1, ?_⟩
  · intro fuel hf
    obtain ⟨k, rfl⟩ := Nat.exists_eq_add_of_le hf
    unfold Curve.SearchParameter
    rw [bfgsLoop1_mono _ _ _ _ _ _ _ _ _ k e, bind_ok]
    rfl
  · intro h
    have h2 := q5 (q4 h)
    rw [residual_eq sqrt (C23_evaluate hw q1 q2).1] at h2
    rw [Except.ok.inj h2]
    exact q4 h

/-- Two iterations from `3/10` and one from the exact parameter, again with squared distances. -/
example : exCurve.SearchParameter id 11 ⟨2, 3/20, 19/20⟩ (3/10) (1/100) 10 =
    .ok (12107279764780036897371561169/39413214983304441370485288495, 2) ∧
  exCurve.SearchParameter id 11 ⟨2, 3/20, 19/20⟩ (1/3) (1/10) 10 = .ok (1/3, 1) := by decide +kernel

end Nurbs.Props
