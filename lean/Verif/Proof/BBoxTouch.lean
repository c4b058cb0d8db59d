import Verif.Proof.BBox

/-! # Every coordinate of the faces of the box is a coordinate of a point of one of the pieces -/

set_option linter.unusedSectionVars false

namespace Nurbs
open Nurbs.Spec

variable {K : Type} [Field K] [LinearOrder K] [IsStrictOrderedRing K]

theorem bezPt_zero {V : Type} [AddCommGroup V] [Module K V] (p : ℕ) (P : ℕ → V) : bezPt (K := K) p P 0 = P 0 := by
  unfold bezPt
  rw [seg_eq_blos _ _ _ _ _ le_rfl]
  have := bez_polar (K := K) p P 0 (by omega)
  simpa using this.symm

theorem bezPt_one {V : Type} [AddCommGroup V] [Module K V] (p : ℕ) (P : ℕ → V) : bezPt (K := K) p P 1 = P p := by
  unfold bezPt
  rw [seg_eq_blos _ _ _ _ _ le_rfl]
  have := bez_polar (K := K) p P p le_rfl
  simpa using this.symm

/-- The polynomial Bezier curve of `P` has coordinates in `S`. -/
def PieceIn (p : ℕ) (S : Axis → K → Prop) (P : ℕ → Vec4 K) : Prop :=
  ∀ k (t : K), 0 ≤ t → t ≤ 1 → S k (bezPt p (fun i => l4 k (P i)) t)

/-- The faces of the box have coordinates in `S`. -/
def FacesIn (S : Axis → K → Prop) (g : Option (BoundingBox K)) : Prop :=
  ∀ b, g = some b → ∀ k, S k (coord k b.Min) ∧ S k (coord k b.Max)

theorem min_in {S : K → Prop} {a b : K} (ha : S a) (hb : S b) : S (min a b) := by
  rcases min_choice a b with h | h <;> rw [h] <;> assumption

theorem max_in {S : K → Prop} {a b : K} (ha : S a) (hb : S b) : S (max a b) := by
  rcases max_choice a b with h | h <;> rw [h] <;> assumption

theorem boxLoop_faces (sqrt : K → K) (eps : K) (p : ℕ) (S : Axis → K → Prop) (fuel : ℕ) :
    ∀ (stack : List (List (Vec4 K))) (f : ℕ → ℕ → Vec4 K) (g : Option (BoundingBox K)) res,
      (∀ e ∈ stack, ∃ P, e = tab (p + 1) P ∧ PieceIn p S P) → FacesIn S g →
      Curve.boxLoop sqrt (p : Int) eps fuel stack (tab (p + 1) fun i => tab (p + 1) (f i)) g = .ok res →
      FacesIn S res.2 ∧ (stack ≠ [] ∨ g ≠ none → res.2 ≠ none) ∧ ∃ f' : ℕ → ℕ → Vec4 K, res.1 = tab (p + 1) fun i => tab (p + 1) (f' i) := by
  induction fuel with
  | zero => intro stack f g res _ _ h; simp [Curve.boxLoop] at h
  | succ fuel ih =>
    intro stack f g res hst hg h
    cases stack with
    | nil =>
      rw [Curve.boxLoop] at h
      cases h
      exact ⟨hg, fun h => h.resolve_left (by simp), f, rfl⟩
    | cons e stack =>
      obtain ⟨P, rfl, hP⟩ := hst e (by simp)
      have hst' : ∀ e ∈ stack, ∃ P, e = tab (p + 1) P ∧ PieceIn p S P := fun e he => hst e (by simp [he])
      obtain ⟨box, e1, hbox⟩ := controlBox_ok p P
      rw [Curve.boxLoop, e1, bind_ok, endBox_ok, bind_ok] at h
      split_ifs at h with hd
      · refine And.imp id (And.imp (fun q _ => q (Or.inr (by simp))) id) (ih stack f _ res hst' ?_ h)
        have h0 : ∀ k, S k (l4 k (P 0)) := fun k => by
          have := hP k 0 le_rfl zero_le_one
          rwa [bezPt_zero] at this
        have h1 : ∀ k, S k (l4 k (P p)) := fun k => by
          have := hP k 1 zero_le_one le_rfl
          rwa [bezPt_one] at this
        intro b hb k
        cases g with
        | none =>
          simp only [Option.some.injEq] at hb
          subst hb
          simp only [BoundingBox.ofPoints, coord_cwiseMin, coord_cwiseMax, coord_head3]
          exact ⟨min_in (h0 k) (h1 k), max_in (h0 k) (h1 k)⟩
        | some b0 =>
          simp only [Option.some.injEq] at hb
          subst hb
          obtain ⟨a, b⟩ := hg b0 rfl k
          simp only [BoundingBox.ExpandToIncludeBox, BoundingBox.ofPoints, coord_cwiseMin, coord_cwiseMax, coord_head3]
          exact ⟨min_in a (min_in (h0 k) (h1 k)), max_in b (max_in (h0 k) (h1 k))⟩
      · rw [casteljau_ok, bind_ok, casteljauHalves_ok, bind_ok] at h
        have hl : (tab (p + 1) fun r => if r + 0 ≤ p then tri (K := K) P r 0 else f r 0) = tab (p + 1) fun r => tri (K := K) P r 0 :=
          tab_congr fun i hi => by rw [if_pos (by omega)]
        have hr : (tab (p + 1) fun r => if p - r + r ≤ p then tri (K := K) P (p - r) r else f (p - r) r) =
            tab (p + 1) fun r => tri (K := K) P (p - r) r := tab_congr fun i hi => by rw [if_pos (by omega)]
        simp only at h
        rw [hl, hr] at h
        refine And.imp id (And.imp (fun q _ => q (Or.inl (by simp))) id)
          (ih _ (fun i j => if i + j ≤ p then tri (K := K) P i j else f i j) g res ?_ hg h)
        intro e he
        simp only [List.mem_cons] at he
        rcases he with rfl | rfl | he
        · refine ⟨_, rfl, fun k t t0 t1 => ?_⟩
          simp only [tri_map]
          rw [bezPt_left]
          exact hP k _ (by linarith) (by linarith)
        · refine ⟨_, rfl, fun k t t0 t1 => ?_⟩
          simp only [tri_map]
          rw [bezPt_right]
          exact hP k _ (by linarith) (by linarith)
        · exact hst' e he

theorem boxFold_faces (sqrt : K → K) (eps : K) (p : ℕ) (S : Axis → K → Prop) (fuel : ℕ) (l : List (Curve K))
    (hl : ∀ s ∈ l, s.ControlPoints.length = p + 1 ∧ PieceIn p S (pt s.ControlPoints)) :
    ∀ (f : ℕ → ℕ → Vec4 K) (g : Option (BoundingBox K)) res, FacesIn S g →
      foldMList (fun (seg : Curve K) (s : List (List (Vec4 K)) × Option (BoundingBox K)) =>
        Curve.boxLoop sqrt (p : Int) eps fuel [seg.ControlPoints] s.1 s.2) l (tab (p + 1) fun i => tab (p + 1) (f i), g) = .ok res →
      FacesIn S res.2 ∧ (l ≠ [] ∨ g ≠ none → res.2 ≠ none) := by
  induction l with
  | nil =>
    intro f g res hg h
    simp only [foldMList] at h
    cases h
    exact ⟨hg, fun h => h.resolve_left (by simp)⟩
  | cons s l ih =>
    intro f g res hg h
    simp only [foldMList] at h
    cases hr : Curve.boxLoop sqrt (p : Int) eps fuel [s.ControlPoints] (tab (p + 1) fun i => tab (p + 1) (f i)) g with
    | error e => rw [hr, bind_error] at h; cases h
    | ok r =>
      rw [hr, bind_ok] at h
      obtain ⟨a, b, f', hf'⟩ := boxLoop_faces sqrt eps p S fuel [s.ControlPoints] f g r (by
        intro e he
        simp only [List.mem_singleton] at he
        subst he
        have := eq_tab_pt s.ControlPoints
        rw [(hl s (by simp)).1] at this
        exact ⟨_, this, (hl s (by simp)).2⟩) hg hr
      have hrr : r = (tab (p + 1) fun i => tab (p + 1) (f' i), r.2) := by rw [← hf']
      rw [hrr] at h
      obtain ⟨r1, r2⟩ := ih (fun s hs => hl s (by simp [hs])) f' r.2 res a h
      exact ⟨r1, fun _ => r2 (Or.inr (b (Or.inl (by simp))))⟩

end Nurbs
