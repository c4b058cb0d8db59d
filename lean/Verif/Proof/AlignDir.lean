import Verif.Proof.Align

/-! # What `AlignParameterDomain` achieves on surfaces whose edges point along two axes -/

set_option linter.unusedSectionVars false

namespace Nurbs
open Spec

variable {K : Type} [Field K] [LinearOrder K] [IsStrictOrderedRing K]

theorem Vec3.neg_neg' (v : Vec3 K) : - -v = v := by
  rcases v with ⟨x, y, z⟩
  show Vec3.mk _ _ _ = _
  simp [Neg.neg]

theorem Vec3.neg_sub' (a b : Vec3 K) : -(a - b) = b - a := by
  show Vec3.mk _ _ _ = Vec3.mk _ _ _
  congr 1 <;> exact neg_sub _ _

theorem along_neg (v : Vec3 K) (A : AlignAxis) : along (-v) A = -along v A := by
  cases A <;> rfl

theorem norm_neg' (sqrt : K → K) (v : Vec3 K) : (-v).norm sqrt = v.norm sqrt := by
  unfold Vec3.norm Vec3.dot
  show sqrt (-v.x * -v.x + -v.y * -v.y + -v.z * -v.z) = _
  simp only [neg_mul_neg]

theorem dominantAxis_points {A : AlignAxis} {v : Vec3 K} (σ : Bool) (h : Points A (if σ then v else -v)) :
    Surface.dominantAxis v = (A, if σ then 1 else -1) := by
  have key : ∀ B, B ≠ A → |along v B| < |along v A| := by
    intro B hB
    obtain ⟨h0, h1⟩ := h
    cases σ
    · simp only [Bool.false_eq_true, if_false, along_neg] at h0 h1
      obtain ⟨h1, h2⟩ := h1 B hB
      rw [abs_of_neg (show along v A < 0 by linarith), abs_lt]
      constructor <;> linarith
    · simp only [if_true] at h0 h1
      obtain ⟨h1, h2⟩ := h1 B hB
      rw [abs_of_pos h0, abs_lt]
      constructor <;> linarith
  have hs : Surface.signOf (Surface.axisValue v A) = if σ then 1 else -1 := by
    have e : Surface.axisValue v A = along v A := by cases A <;> rfl
    unfold Surface.signOf
    rw [e]
    have h0 := h.1
    cases σ
    · simp only [Bool.false_eq_true, if_false, along_neg] at h0
      rw [if_neg (by linarith)]; rfl
    · simp only [if_true] at h0
      rw [if_pos h0.le]; rfl
  have hax : (Surface.dominantAxis v).1 = A := by
    unfold Surface.dominantAxis
    simp only
    cases A
    · have a := key .YAxis (by decide); have b := key .ZAxis (by decide)
      simp only [along] at a b
      rw [max_eq_left a.le, max_eq_left b.le, if_pos rfl]
    · have a := key .XAxis (by decide); have b := key .ZAxis (by decide)
      simp only [along] at a b
      rw [max_eq_right a.le, max_eq_left b.le, if_neg a.ne', if_pos rfl]
    · have a := key .XAxis (by decide); have b := key .YAxis (by decide)
      simp only [along] at a b
      rw [max_eq_right (by rw [max_le_iff]; exact ⟨a.le, b.le⟩), if_neg a.ne', if_neg b.ne']
  have : (Surface.dominantAxis v).2 = Surface.signOf (Surface.axisValue v (Surface.dominantAxis v).1) := rfl
  rw [hax, hs] at this
  rw [← this, ← hax]

/-- With four edges that are not too short the axes are those of the edges at the first corner. -/
theorem align_four (sqrt acos : K → K) {p q m n : ℕ} {s : Surface K} (hw : WFSurface p q m n s) (ua va : AlignAxis)
    (hm : 2 ≤ m) (hn : 2 ≤ n) (h1 : eps6 < (edgeU m s 0).norm sqrt) (h2 : eps6 < (edgeV n s 0).norm sqrt)
    (h3 : eps6 < (edgeV n s (m - 1)).norm sqrt) (h4 : eps6 < (edgeU m s (n - 1)).norm sqrt) :
    s.AlignParameterDomain sqrt acos ua va = s.applyAlign ua va (Surface.dominantAxis (edgeU m s 0)).1
      (Surface.dominantAxis (edgeV n s 0)).1 (Surface.dominantAxis (edgeU m s 0)).2 (Surface.dominantAxis (edgeV n s 0)).2 := by
  have add : ∀ (a1 a2 : AlignAxis) (v : Vec3 K) l, eps6 < v.norm sqrt →
      ∃ x, Surface.addVectorInfo sqrt acos a1 a2 v l = .ok (l ++ [x]) ∧ x.vector = v := by
    intro a1 a2 v l h
    have hne : v.norm sqrt ≠ 0 := by
      have : (0 : K) < eps6 := by unfold eps6; positivity
      exact (lt_trans this h).ne'
    unfold Surface.addVectorInfo
    rw [if_pos h]
    unfold Surface.computeAngle
    rw [fdiv_ok hne, bind_ok, fdiv_ok hne]
    exact ⟨_, rfl, rfl⟩
  unfold Surface.AlignParameterDomain
  simp only
  rw [hw.uCount, hw.vCount, if_neg (by omega), WFSurface.grid hw]
  rw [get_gridOf _ _ _ _ _ 0 0 (by simp) (by simp) (by omega) (by omega), bind_ok,
    get_gridOf _ _ _ _ _ (m - 1) 0 (by omega) (by simp) (by omega) (by omega), bind_ok,
    get_gridOf _ _ _ _ _ 0 (n - 1) (by simp) (by omega) (by omega) (by omega), bind_ok,
    get_gridOf _ _ _ _ _ (m - 1) (n - 1) (by omega) (by omega) (by omega) (by omega), bind_ok]
  have hlen : ∀ l : List (K × AlignAxis), ∀ x, (Surface.insertDesc x l).length = l.length + 1 := by
    intro l x
    induction l with
    | nil => rfl
    | cons y l ih =>
      unfold Surface.insertDesc
      split_ifs <;> simp [ih]
  have h3' : ∀ a b c d : Vec3 K, (Surface.sortDesc (Surface.cornerExtents a b c d)).length = 3 := by
    intro a b c d
    simp [Surface.sortDesc, Surface.cornerExtents, hlen]
  generalize hE : Surface.sortDesc (Surface.cornerExtents (cp s 0 0).head3 (cp s (m - 1) 0).head3 (cp s 0 (n - 1)).head3 (cp s (m - 1) (n - 1)).head3) = E
  have hE3 : E.length = 3 := by rw [← hE]; exact h3' _ _ _ _
  obtain ⟨x1, hx1⟩ : ∃ x, vget E 0 = .ok x := ⟨_, vget_of _ _ 0 _ (by simp) (List.getElem?_eq_getElem (by omega))⟩
  obtain ⟨x2, hx2⟩ : ∃ x, vget E 1 = .ok x := ⟨_, vget_of _ _ 1 _ (by simp) (List.getElem?_eq_getElem (by omega))⟩
  rw [hx1, bind_ok, hx2, bind_ok]
  obtain ⟨y1, e1, f1⟩ := add x1.2 x2.2 _ [] h1
  obtain ⟨y2, e2, f2⟩ := add x1.2 x2.2 _ ([] ++ [y1]) h2
  obtain ⟨y3, e3, f3⟩ := add x1.2 x2.2 _ ([] ++ [y1] ++ [y2]) h3
  obtain ⟨y4, e4, f4⟩ := add x1.2 x2.2 _ ([] ++ [y1] ++ [y2] ++ [y3]) h4
  unfold edgeU at e1 e4
  unfold edgeV at e2 e3
  rw [e1, bind_ok, e2, bind_ok, e3, bind_ok, e4, bind_ok, ← f1, ← f2]
  rfl

/-- `EdgesPoint` with another notion of pointing along an axis. -/
def EdgesQ (Q : AlignAxis → Vec3 K → Prop) (m n : ℕ) (A B : AlignAxis) (posU posV : Bool) (s : Surface K) : Prop :=
  (∀ j, j = 0 ∨ j = n - 1 → Q A (if posU then edgeU m s j else -edgeU m s j)) ∧
  ∀ i, i = 0 ∨ i = m - 1 → Q B (if posV then edgeV n s i else -edgeV n s i)

theorem edgesQ_reverseU {Q : AlignAxis → Vec3 K → Prop} {m n : ℕ} {s s' : Surface K} {A B : AlignAxis} {σ τ : Bool}
    (h : EdgesQ Q m n A B σ τ s) (hc : ∀ i < m, ∀ j < n, cp s' i j = cp s (m - 1 - i) j) (hm : 2 ≤ m) (hn : 2 ≤ n) :
    EdgesQ Q m n A B (!σ) τ s' := by
  have hu : ∀ j, j < n → edgeU m s' j = -edgeU m s j := by
    intro j hj
    unfold edgeU
    rw [hc (m - 1) (by omega) j hj, hc 0 (by omega) j hj, Vec3.neg_sub', show m - 1 - (m - 1) = 0 by omega, Nat.sub_zero]
  have hv : ∀ i, i < m → edgeV n s' i = edgeV n s (m - 1 - i) := by
    intro i hi
    unfold edgeV
    rw [hc i hi _ (by omega), hc i hi _ (by omega)]
  refine ⟨fun j hj => ?_, fun i hi => ?_⟩
  · rw [hu j (by omega)]
    have := h.1 j hj
    cases σ
    · simpa using this
    · simpa [Vec3.neg_neg'] using this
  · rw [hv i (by omega)]
    exact h.2 _ (by omega)

theorem edgesQ_reverseV {Q : AlignAxis → Vec3 K → Prop} {m n : ℕ} {s s' : Surface K} {A B : AlignAxis} {σ τ : Bool}
    (h : EdgesQ Q m n A B σ τ s) (hc : ∀ i < m, ∀ j < n, cp s' i j = cp s i (n - 1 - j)) (hm : 2 ≤ m) (hn : 2 ≤ n) :
    EdgesQ Q m n A B σ (!τ) s' := by
  have hv : ∀ i, i < m → edgeV n s' i = -edgeV n s i := by
    intro i hi
    unfold edgeV
    rw [hc i hi _ (by omega), hc i hi 0 (by omega), Vec3.neg_sub', show n - 1 - (n - 1) = 0 by omega, Nat.sub_zero]
  have hu : ∀ j, j < n → edgeU m s' j = edgeU m s (n - 1 - j) := by
    intro j hj
    unfold edgeU
    rw [hc _ (by omega) j hj, hc _ (by omega) j hj]
  refine ⟨fun j hj => ?_, fun i hi => ?_⟩
  · rw [hu j (by omega)]
    exact h.1 _ (by omega)
  · rw [hv i (by omega)]
    have := h.2 i hi
    cases τ
    · simpa using this
    · simpa [Vec3.neg_neg'] using this

theorem edgesQ_swap {Q : AlignAxis → Vec3 K → Prop} {m n : ℕ} {s s' : Surface K} {A B : AlignAxis} {σ τ : Bool}
    (h : EdgesQ Q m n A B σ τ s) (hc : ∀ i < n, ∀ j < m, cp s' i j = cp s j i) (hm : 2 ≤ m) (hn : 2 ≤ n) :
    EdgesQ Q n m B A τ σ s' := by
  have hu : ∀ j, j < m → edgeU n s' j = edgeV n s j := by
    intro j hj
    unfold edgeU edgeV
    rw [hc _ (by omega) j hj, hc _ (by omega) j hj]
  have hv : ∀ i, i < n → edgeV m s' i = edgeU m s i := by
    intro i hi
    unfold edgeU edgeV
    rw [hc i hi _ (by omega), hc i hi _ (by omega)]
  exact ⟨fun j hj => by rw [hu j (by omega)]; exact h.2 j hj, fun i hi => by rw [hv i (by omega)]; exact h.1 i hi⟩

/-- Applying the reversals asked for by the signs makes all edges point in positive direction, in a sense `Q` of pointing. -/
theorem applyAlign_q {Q : AlignAxis → Vec3 K → Prop} {p q m n : ℕ} {s : Surface K} (hw : WFSurface p q m n s) {A B ua va : AlignAxis} {σ τ : Bool}
    (h : EdgesQ Q m n A B σ τ s) (hm : 2 ≤ m) (hn : 2 ≤ n) (hAB : A ≠ B) (hax : ua = A ∧ va = B ∨ ua = B ∧ va = A) :
    ∃ s', s.applyAlign ua va A B (if σ then 1 else -1) (if τ then 1 else -1) = .ok s' ∧
      if ua = A then WFSurface p q m n s' ∧ EdgesQ Q m n ua va true true s'
        else WFSurface q p n m s' ∧ EdgesQ Q n m ua va true true s' := by
  have tail : ∀ (p q m n : ℕ) (s : Surface K) (A B : AlignAxis) (σ τ : Bool) (ru rv : Prop) [Decidable ru] [Decidable rv],
      (ru ↔ σ = false) → (rv ↔ τ = false) → WFSurface p q m n s → EdgesQ Q m n A B σ τ s → 2 ≤ m → 2 ≤ n →
      ∃ s', (do
        let s ← if ru then s.reverseU else pure s
        if rv then s.reverseV else pure s) = .ok s' ∧
        WFSurface p q m n s' ∧ EdgesQ Q m n A B true true s' := by
    intro p q m n s A B σ τ ru rv _ _ hru hrv hw h hm hn
    obtain ⟨s₂, e₂, w₂, h₂⟩ : ∃ s₂, (if ru then s.reverseU else pure s) = .ok s₂ ∧ WFSurface p q m n s₂ ∧ EdgesQ Q m n A B true τ s₂ := by
      cases σ
      · obtain ⟨s₂, e, w, _, _, c, _⟩ := reverseU_ok hw
        exact ⟨s₂, by rw [if_pos (hru.mpr rfl)]; exact e, w, edgesQ_reverseU h c hm hn⟩
      · exact ⟨s, by rw [if_neg (fun h => by simpa using hru.mp h)]; rfl, hw, h⟩
    obtain ⟨s₃, e₃, w₃, h₃⟩ : ∃ s₃, (if rv then s₂.reverseV else pure s₂) = .ok s₃ ∧ WFSurface p q m n s₃ ∧ EdgesQ Q m n A B true true s₃ := by
      cases τ
      · obtain ⟨s₃, e, w, _, _, c, _⟩ := reverseV_ok w₂
        exact ⟨s₃, by rw [if_pos (hrv.mpr rfl)]; exact e, w, edgesQ_reverseV h₂ c hm hn⟩
      · exact ⟨s₂, by rw [if_neg (fun h => by simpa using hrv.mp h)]; rfl, w₂, h₂⟩
    refine ⟨s₃, ?_, w₃, h₃⟩
    by_cases hr : ru
    · simp only [if_pos hr] at e₂ ⊢
      rw [e₂, bind_ok, e₃]
    · simp only [if_neg hr] at e₂ ⊢
      rw [e₂, bind_ok, e₃]
  rcases hax with ⟨rfl, rfl⟩ | ⟨rfl, rfl⟩
  · simp only [if_true]
    unfold Surface.applyAlign
    rw [if_neg (by simp)]
    simp only [if_neg (show ¬ (ua ≠ ua) by simp)]
    exact tail p q m n s ua va σ τ _ _ (by cases σ <;> simp) (by cases τ <;> simp) hw h hm hn
  · simp only [if_neg hAB.symm]
    unfold Surface.applyAlign
    obtain ⟨s₁, e₁, w₁, _, _, c₁, _⟩ := swapUV_ok hw
    rw [if_neg (by simp)]
    simp only [if_pos hAB, e₁, bind_ok]
    exact tail q p n m s₁ ua va τ σ _ _ (by cases τ <;> simp) (by cases σ <;> simp) w₁ (edgesQ_swap h c₁ hm hn) hn hm

theorem applyAlign_points {p q m n : ℕ} {s : Surface K} (hw : WFSurface p q m n s) {A B ua va : AlignAxis} {σ τ : Bool}
    (h : EdgesPoint m n A B σ τ s) (hm : 2 ≤ m) (hn : 2 ≤ n) (hAB : A ≠ B) (hax : ua = A ∧ va = B ∨ ua = B ∧ va = A) :
    ∃ s', s.applyAlign ua va A B (if σ then 1 else -1) (if τ then 1 else -1) = .ok s' ∧
      if ua = A then WFSurface p q m n s' ∧ EdgesPoint m n ua va true true s'
        else WFSurface q p n m s' ∧ EdgesPoint n m ua va true true s' :=
  applyAlign_q (Q := Points) hw h hm hn hAB hax

end Nurbs
