import Verif.Proof.AlignTri
import Verif.Props.Align
import Mathlib.Tactic.IntervalCases
import Mathlib.Analysis.SpecialFunctions.Trigonometric.Inverse

/-! # C80: `AlignParameterDomain` on patches with a collapsed edge -/

set_option linter.unusedSectionVars false

namespace Nurbs.Props
open Nurbs Nurbs.Spec

variable {K : Type} [Field K] [LinearOrder K] [IsStrictOrderedRing K]

/-- C80.  A patch one of whose v edges is collapsed (not longer than 1e-6), whose u edges both point along `A` in the same direction,
whose other v edge points along `B ≠ A`, and whose corner box is thinner along the third axis than along `A` and `B`:
`AlignParameterDomain(ua, va)` with `{ua, va} = {A, B}` returns a well-formed surface each of whose edges longer than 1e-6 points in
the positive direction of `ua` (u edges) or `va` (v edges).
Missing for the full C80: patches with a collapsed u edge; for them the claim is false, see `C80_collapsed_u_refuted`. -/
theorem C80_collapsed_v_partial {sqrt acos : K → K} (hs : ∀ x, 0 ≤ x → 0 ≤ sqrt x ∧ sqrt x ^ 2 = x) (ha : AngleLike acos)
    {p q m n : ℕ} {s : Surface K} (hw : WFSurface p q m n s) {A B ua va : AlignAxis} {σ τ : Bool} (hm : 2 ≤ m) (hn : 2 ≤ n)
    (hAB : A ≠ B) (hax : ua = A ∧ va = B ∨ ua = B ∧ va = A)
    (hext : ∀ C, C ≠ A → C ≠ B → cornerExtent m n s C < cornerExtent m n s A ∧ cornerExtent m n s C < cornerExtent m n s B)
    (hu : ∀ j, j = 0 ∨ j = n - 1 → 1 / 10 ^ 6 < (edgeU m s j).norm sqrt)
    (hv : (1 / 10 ^ 6 < (edgeV n s 0).norm sqrt) ≠ (1 / 10 ^ 6 < (edgeV n s (m - 1)).norm sqrt))
    (h : LongEdgesPoint sqrt m n A B σ τ s) :
    ∃ s', s.AlignParameterDomain sqrt acos ua va = .ok s' ∧
      if ua = A then WFSurface p q m n s' ∧ LongEdgesPoint sqrt m n ua va true true s'
        else WFSurface q p n m s' ∧ LongEdgesPoint sqrt n m ua va true true s' := by
  have he : (eps6 : K) = 1 / 10 ^ 6 := by unfold eps6; norm_num
  have key : ∀ (m n : ℕ) (s : Surface K) (A B : AlignAxis) (σ τ : Bool),
      EdgesQ (fun A v => 1 / 10 ^ 6 < v.norm sqrt → Points A v) m n A B σ τ s ↔ LongEdgesPoint sqrt m n A B σ τ s := by
    intro m n s A B σ τ
    have hn : ∀ (b : Bool) (v : Vec3 K), (if b then v else -v).norm sqrt = v.norm sqrt := by
      intro b v
      cases b
      · simp [norm_neg']
      · simp
    unfold EdgesQ LongEdgesPoint
    simp only [hn]
  rw [align_tri sqrt acos hs ha hw ua va hAB σ τ hm hn hext (by rw [he]; exact hu 0 (Or.inl rfl)) (by rw [he]; exact hu _ (Or.inr rfl))
    (h.1 0 (Or.inl rfl) (hu 0 (Or.inl rfl))) (h.1 _ (Or.inr rfl) (hu _ (Or.inr rfl))) ?_]
  · obtain ⟨s', h1, h2⟩ := applyAlign_q (Q := fun A v => 1 / 10 ^ 6 < v.norm sqrt → Points A v) hw ((key _ _ _ _ _ _ _).2 h) hm hn hAB hax
    refine ⟨s', h1, ?_⟩
    simpa only [key] using h2
  · rw [he]
    by_cases h0 : 1 / 10 ^ 6 < (edgeV n s 0).norm sqrt
    · have h1 : ¬ 1 / 10 ^ 6 < (edgeV n s (m - 1)).norm sqrt := fun h1 => hv (by simp only [h0, h1])
      exact Or.inl ⟨h0, h1, h.2 _ (Or.inl rfl) h0⟩
    · have h1 : 1 / 10 ^ 6 < (edgeV n s (m - 1)).norm sqrt := by
        by_contra h1
        exact hv (by simp only [h0, h1])
      exact Or.inr ⟨h0, h1, h.2 _ (Or.inr rfl) h1⟩

/-- The square root and the arc cosine of the reals are as required. -/
theorem C80_real_functions : (∀ x : ℝ, 0 ≤ x → 0 ≤ Real.sqrt x ∧ Real.sqrt x ^ 2 = x) ∧ AngleLike Real.arccos := by
  refine ⟨fun x hx => ⟨Real.sqrt_nonneg x, Real.sq_sqrt hx⟩, fun x y h0 h1 h2 => ?_⟩
  exact Real.strictAntiOn_arccos ⟨by linarith, by linarith⟩ ⟨by linarith, h2⟩ h1

/-- A triangle over the reals: collapsed at u = 0, with the v edge at u = 1 running along -y. -/
def exTriangle : Surface ℝ :=
  ⟨1, 1, ⟨[0, 0, 1, 1]⟩, ⟨[0, 0, 1, 1]⟩, ⟨2, 2, [⟨0, 0, 0, 1⟩, ⟨4, 3, 0, 1⟩, ⟨0, 0, 0, 1⟩, ⟨4, -3, 0, 1⟩]⟩⟩

theorem norm_real (v : Vec3 ℝ) (t : ℝ) (ht : 0 ≤ t) (h : v.dot v = t ^ 2) : v.norm Real.sqrt = t := by
  unfold Vec3.norm
  rw [h, Real.sqrt_sq ht]

/-- `exTriangle` meets all hypotheses of `C80_collapsed_v_partial` with `A` = x, `B` = y (negative direction), for both requests. -/
example : WFSurface 1 1 2 2 exTriangle ∧
    (∀ C, C ≠ AlignAxis.XAxis → C ≠ .YAxis → cornerExtent 2 2 exTriangle C < cornerExtent 2 2 exTriangle .XAxis ∧
      cornerExtent 2 2 exTriangle C < cornerExtent 2 2 exTriangle .YAxis) ∧
    (∀ j, j = 0 ∨ j = 2 - 1 → 1 / 10 ^ 6 < (edgeU 2 exTriangle j).norm Real.sqrt) ∧
    ((1 / 10 ^ 6 < (edgeV 2 exTriangle 0).norm Real.sqrt) ≠ (1 / 10 ^ 6 < (edgeV 2 exTriangle (2 - 1)).norm Real.sqrt)) ∧
    LongEdgesPoint Real.sqrt 2 2 .XAxis .YAxis true false exTriangle := by
  have u0 : edgeU 2 exTriangle 0 = ⟨4 - 0, 3 - 0, 0 - 0⟩ := rfl
  have u1 : edgeU 2 exTriangle (2 - 1) = ⟨4 - 0, -3 - 0, 0 - 0⟩ := rfl
  have v0 : edgeV 2 exTriangle 0 = ⟨0 - 0, 0 - 0, 0 - 0⟩ := rfl
  have v1 : edgeV 2 exTriangle (2 - 1) = ⟨4 - 4, -3 - 3, 0 - 0⟩ := rfl
  have nu0 : (edgeU 2 exTriangle 0).norm Real.sqrt = 5 := norm_real _ _ (by norm_num) (by rw [u0]; unfold Vec3.dot; norm_num)
  have nu1 : (edgeU 2 exTriangle (2 - 1)).norm Real.sqrt = 5 := norm_real _ _ (by norm_num) (by rw [u1]; unfold Vec3.dot; norm_num)
  have nv0 : (edgeV 2 exTriangle 0).norm Real.sqrt = 0 := norm_real _ _ (by norm_num) (by rw [v0]; unfold Vec3.dot; norm_num)
  have nv1 : (edgeV 2 exTriangle (2 - 1)).norm Real.sqrt = 6 := norm_real _ _ (by norm_num) (by rw [v1]; unfold Vec3.dot; norm_num)
  have clamped : Clamped 1 ([0, 0, 1, 1] : List ℝ) := by
    refine ⟨by simp, by simp, fun i hi => ?_, fun i hi hi' => ?_, by simp [kn], by simp [kn]⟩
    · interval_cases i <;> rfl
    · simp only [List.length_cons, List.length_nil] at hi hi'
      obtain rfl | rfl : i = 2 ∨ i = 3 := by omega
      · rfl
      · rfl
  refine ⟨⟨rfl, rfl, clamped, clamped, rfl, rfl, rfl, rfl, rfl, ?_⟩, ?_, ?_, ?_, ?_, ?_⟩
  · intro i hi j hj
    interval_cases i <;> interval_cases j <;> exact one_pos
  · intro C h1 h2
    cases C
    · exact absurd rfl h1
    · exact absurd rfl h2
    · unfold cornerExtent
      simp [cp, exTriangle, along, Vec4.head3]
  · rintro j (rfl | rfl)
    · rw [nu0]; norm_num
    · rw [nu1]; norm_num
  · rw [nv0, nv1]; norm_num
  · rintro j (rfl | rfl) _
    · rw [if_pos rfl, u0]
      refine ⟨by norm_num [along], fun B hB => ?_⟩
      cases B <;> first | exact absurd rfl hB | norm_num [along]
    · rw [if_pos rfl, u1]
      refine ⟨by norm_num [along], fun B hB => ?_⟩
      cases B <;> first | exact absurd rfl hB | norm_num [along]
  · rintro j (rfl | rfl) hj
    · rw [nv0] at hj
      norm_num at hj
    · rw [if_neg (by simp), v1]
      refine ⟨by rw [along_neg]; norm_num [along], fun B hB => ?_⟩
      cases B <;> first | exact absurd rfl hB | (simp only [along_neg]; norm_num [along])

/-- The same patch with rational corners, for the refutation: u edge collapsed at v = 0, u edge at v = 1 along +y, v edges along +x. -/
def exFan : Surface ℚ :=
  ⟨1, 1, ⟨[0, 0, 1, 1]⟩, ⟨[0, 0, 1, 1]⟩, ⟨2, 2, [⟨0, 0, 0, 1⟩, ⟨0, 0, 0, 1⟩, ⟨4, 0, 0, 1⟩, ⟨4, 3, 0, 1⟩]⟩⟩

theorem exFan_wf : WFSurface 1 1 2 2 exFan :=
  ⟨rfl, rfl, ⟨by decide +kernel, by decide +kernel, by decide +kernel, by decide +kernel, by decide +kernel,
    by decide +kernel⟩, ⟨by decide +kernel, by decide +kernel, by decide +kernel, by decide +kernel, by decide +kernel,
    by decide +kernel⟩, rfl, rfl, rfl, rfl, rfl, by decide +kernel⟩

/-- A square root that is exact for the numbers occurring in the example (0, 9, 16 and 25). -/
def fanSqrt (t : ℚ) : ℚ := if t = 25 then 5 else if t = 16 then 4 else if t = 9 then 3 else t

/-- C80 fails for a collapsed u edge.  The patch `exFan` is already aligned with (Y, X): its long u edge points along +y, its v edges
along +x.  `AlignParameterDomain(Y, X)` takes the direction of the two v edges for that of u, exchanges the parameters and returns
a patch whose long v edge (at u = 1) points along +y, not +x, and both of whose u edges point along +x, not +y. -/
theorem C80_collapsed_u_refuted : LongEdgesPoint fanSqrt 2 2 .YAxis .XAxis true true exFan ∧
    ∃ s', exFan.AlignParameterDomain fanSqrt (fun x => 1 - x) .YAxis .XAxis = .ok s' ∧ WFSurface 1 1 2 2 s' ∧
      Points .XAxis (edgeU 2 s' 0) ∧ Points .XAxis (edgeU 2 s' 1) ∧ Points .YAxis (edgeV 2 s' 1) ∧
      ¬ LongEdgesPoint fanSqrt 2 2 .YAxis .XAxis true true s' := by
  have P : ∀ (A : AlignAxis) (v : Vec3 ℚ), (0 < along v A ∧ (A = .XAxis ∨ along v .XAxis < along v A ∧ -along v .XAxis < along v A) ∧
      (A = .YAxis ∨ along v .YAxis < along v A ∧ -along v .YAxis < along v A) ∧
      (A = .ZAxis ∨ along v .ZAxis < along v A ∧ -along v .ZAxis < along v A)) → Points A v := by
    rintro A v ⟨h0, hx, hy, hz⟩
    refine ⟨h0, fun B hB => ?_⟩
    cases B
    · exact hx.resolve_left (Ne.symm hB)
    · exact hy.resolve_left (Ne.symm hB)
    · exact hz.resolve_left (Ne.symm hB)
  refine ⟨⟨?_, ?_⟩, ⟨1, 1, ⟨[0, 0, 1, 1]⟩, ⟨[0, 0, 1, 1]⟩, ⟨2, 2, [⟨0, 0, 0, 1⟩, ⟨4, 0, 0, 1⟩, ⟨0, 0, 0, 1⟩, ⟨4, 3, 0, 1⟩]⟩⟩,
    by decide +kernel, ?_, P _ _ (by decide +kernel), P _ _ (by decide +kernel), P _ _ (by decide +kernel), fun h => ?_⟩
  · rintro j (rfl | rfl) hj
    · exact absurd hj (by decide +kernel)
    · exact P _ _ (by decide +kernel)
  · rintro j (rfl | rfl) hj
    · exact P _ _ (by decide +kernel)
    · exact P _ _ (by decide +kernel)
  · exact ⟨rfl, rfl, ⟨by decide +kernel, by decide +kernel, by decide +kernel, by decide +kernel, by decide +kernel,
      by decide +kernel⟩, ⟨by decide +kernel, by decide +kernel, by decide +kernel, by decide +kernel, by decide +kernel,
      by decide +kernel⟩, rfl, rfl, rfl, rfl, rfl, by decide +kernel⟩
  · exact absurd (h.1 0 (Or.inl rfl) (by decide +kernel)).1 (by decide +kernel)

end Nurbs.Props
