import Verif.Proof.BBox

/-! # The box is the least box around the ends of the pieces that are not halved any more -/

set_option linter.unusedSectionVars false

namespace Nurbs
open Nurbs.Spec

variable {K : Type} [Field K] [LinearOrder K] [IsStrictOrderedRing K]

/-- The two halves of a piece. -/
def halfL (p : ℕ) (e : List (Vec4 K)) : List (Vec4 K) := tab (p + 1) fun r => tri (K := K) (pt e) r 0
/-- The two halves of a piece. -/
def halfR (p : ℕ) (e : List (Vec4 K)) : List (Vec4 K) := tab (p + 1) fun r => tri (K := K) (pt e) (p - r) r

/-- The piece is not halved. -/
def PieceDone (sqrt : K → K) (eps : K) (p : ℕ) (e : List (Vec4 K)) : Prop :=
  ∀ box, Curve.controlBox e = .ok box → Curve.boxDone sqrt eps box (BoundingBox.ofPoints (pt e 0).head3 (pt e p).head3) = true

/-- `q` is one of the parts of `e` that are not halved any more. -/
inductive Leaf (sqrt : K → K) (eps : K) (p : ℕ) : List (Vec4 K) → List (Vec4 K) → Prop
  | here {e} : PieceDone sqrt eps p e → Leaf sqrt eps p e e
  | left {e q} : ¬ PieceDone sqrt eps p e → Leaf sqrt eps p (halfL p e) q → Leaf sqrt eps p e q
  | right {e q} : ¬ PieceDone sqrt eps p e → Leaf sqrt eps p (halfR p e) q → Leaf sqrt eps p e q

/-- The halving of `e` comes to an end. -/
inductive Halves (sqrt : K → K) (eps : K) (p : ℕ) : List (Vec4 K) → Prop
  | done {e} : PieceDone sqrt eps p e → Halves sqrt eps p e
  | step {e} : ¬ PieceDone sqrt eps p e → Halves sqrt eps p (halfL p e) → Halves sqrt eps p (halfR p e) → Halves sqrt eps p e

/-- The box `B` has the ends of the piece. -/
def HasEnds (p : ℕ) (B : BoundingBox K) (e : List (Vec4 K)) : Prop :=
  ∀ k, (coord k B.Min ≤ l4 k (pt e 0) ∧ coord k B.Min ≤ l4 k (pt e p)) ∧ l4 k (pt e 0) ≤ coord k B.Max ∧ l4 k (pt e p) ≤ coord k B.Max

/-- The box `B` has the box `g`. -/
def HasBox (B : BoundingBox K) (g : Option (BoundingBox K)) : Prop :=
  ∀ b, g = some b → ∀ k, coord k B.Min ≤ coord k b.Min ∧ coord k b.Max ≤ coord k B.Max

theorem pt_halfL_zero (p : ℕ) (e : List (Vec4 K)) : pt (halfL p e) 0 = pt e 0 := by
  unfold halfL; rw [pt_tab _ _ _ (by omega)]; rfl

theorem pt_halfR_last (p : ℕ) (e : List (Vec4 K)) : pt (halfR p e) p = pt e p := by
  unfold halfR; rw [pt_tab _ _ _ (by omega), Nat.sub_self]; rfl

theorem done_mono {sqrt : K → K} {eps1 eps2 : K} (h : eps1 ≤ eps2) {p : ℕ} {e : List (Vec4 K)} (hd : PieceDone sqrt eps1 p e) :
    PieceDone sqrt eps2 p e := by
  intro box hb
  have := hd box hb
  unfold Curve.boxDone at this ⊢
  rw [Bool.or_eq_true] at this ⊢
  exact this.imp (fun q => decide_eq_true ((of_decide_eq_true q).trans h)) id

theorem ends_of_leaves {sqrt : K → K} {eps : K} {p : ℕ} {B : BoundingBox K} {e : List (Vec4 K)} (hf : Halves sqrt eps p e)
    (h : ∀ q, Leaf sqrt eps p e q → HasEnds p B q) : HasEnds p B e := by
  induction hf with
  | done hd => exact h _ (.here hd)
  | step hd _ _ ih1 ih2 =>
    have a := ih1 fun q hq => h q (.left hd hq)
    have b := ih2 fun q hq => h q (.right hd hq)
    intro k
    have a' := a k
    have b' := b k
    rw [pt_halfL_zero] at a'
    rw [pt_halfR_last] at b'
    exact ⟨⟨a'.1.1, b'.1.2⟩, a'.2.1, b'.2.2⟩

/-- The ends of the parts for a larger tolerance are among those for a smaller one. -/
theorem leaf_mono {sqrt : K → K} {eps1 eps2 : K} (h12 : eps1 ≤ eps2) {p : ℕ} {B : BoundingBox K} {e q : List (Vec4 K)} (hq : Leaf sqrt eps2 p e q)
    (hf : Halves sqrt eps1 p e) (h : ∀ q, Leaf sqrt eps1 p e q → HasEnds p B q) : HasEnds p B q := by
  induction hq with
  | here hd => exact ends_of_leaves hf h
  | left hd _ ih =>
    have hd1 := fun q => hd (done_mono h12 q)
    cases hf with
    | done q => exact absurd q hd1
    | step _ f1 f2 => exact ih f1 fun q hq => h q (.left hd1 hq)
  | right hd _ ih =>
    have hd1 := fun q => hd (done_mono h12 q)
    cases hf with
    | done q => exact absurd q hd1
    | step _ f1 f2 => exact ih f2 fun q hq => h q (.right hd1 hq)

theorem leaf_done {sqrt : K → K} {eps : K} {p : ℕ} {e q : List (Vec4 K)} (hd : PieceDone sqrt eps p e) (h : Leaf sqrt eps p e q) : q = e := by
  cases h with
  | here => rfl
  | left n => exact absurd hd n
  | right n => exact absurd hd n

theorem leaf_split {sqrt : K → K} {eps : K} {p : ℕ} {e q : List (Vec4 K)} (hd : ¬ PieceDone sqrt eps p e) :
    Leaf sqrt eps p e q ↔ Leaf sqrt eps p (halfL p e) q ∨ Leaf sqrt eps p (halfR p e) q := by
  constructor
  · intro h
    cases h with
    | here n => exact absurd n hd
    | left _ h => exact .inl h
    | right _ h => exact .inr h
  · rintro (h | h)
    exacts [.left hd h, .right hd h]

theorem hasBox_add (p : ℕ) (B : BoundingBox K) (g : Option (BoundingBox K)) (e : List (Vec4 K)) : HasBox B (some (match g with
    | none => BoundingBox.ofPoints (pt e 0).head3 (pt e p).head3
    | some g => g.ExpandToIncludeBox (BoundingBox.ofPoints (pt e 0).head3 (pt e p).head3))) ↔ HasBox B g ∧ HasEnds p B e := by
  cases g with
  | none =>
    constructor
    · intro q
      refine ⟨fun b hb => (by cases hb), fun k => ?_⟩
      have := q _ rfl k
      simpa only [BoundingBox.ofPoints, coord_cwiseMin, coord_cwiseMax, coord_head3, le_min_iff, max_le_iff] using this
    · rintro ⟨_, q⟩ b hb k
      cases hb
      have := q k
      simpa only [BoundingBox.ofPoints, coord_cwiseMin, coord_cwiseMax, coord_head3, le_min_iff, max_le_iff] using this
  | some b0 =>
    constructor
    · intro q
      have q' := fun k => q _ rfl k
      simp only [BoundingBox.ExpandToIncludeBox, BoundingBox.ofPoints, coord_cwiseMin, coord_cwiseMax, coord_head3, le_min_iff,
        max_le_iff] at q'
      refine ⟨fun b hb k => ?_, fun k => ⟨(q' k).1.2, (q' k).2.2⟩⟩
      cases hb
      exact ⟨(q' k).1.1, (q' k).2.1⟩
    · rintro ⟨q0, q⟩ b hb k
      cases hb
      simp only [BoundingBox.ExpandToIncludeBox, BoundingBox.ofPoints, coord_cwiseMin, coord_cwiseMax, coord_head3, le_min_iff,
        max_le_iff]
      exact ⟨⟨(q0 b0 rfl k).1, (q k).1⟩, (q0 b0 rfl k).2, (q k).2⟩

theorem boxLoop_least (sqrt : K → K) (eps : K) (p : ℕ) (fuel : ℕ) :
    ∀ (stack : List (List (Vec4 K))) (f : ℕ → ℕ → Vec4 K) (g : Option (BoundingBox K)) res,
      (∀ e ∈ stack, e.length = p + 1) →
      Curve.boxLoop sqrt (p : Int) eps fuel stack (tab (p + 1) fun i => tab (p + 1) (f i)) g = .ok res →
      (∀ B, HasBox B res.2 ↔ HasBox B g ∧ ∀ e ∈ stack, ∀ q, Leaf sqrt eps p e q → HasEnds p B q) ∧
      (∀ e ∈ stack, Halves sqrt eps p e) ∧ (stack ≠ [] ∨ g ≠ none → res.2 ≠ none) ∧
      ∃ f' : ℕ → ℕ → Vec4 K, res.1 = tab (p + 1) fun i => tab (p + 1) (f' i) := by
  induction fuel with
  | zero => intro stack f g res _ h; simp [Curve.boxLoop] at h
  | succ fuel ih =>
    intro stack f g res hst h
    cases stack with
    | nil =>
      rw [Curve.boxLoop] at h
      cases h
      exact ⟨fun B => by simp, by simp, fun h => h.resolve_left (by simp), f, rfl⟩
    | cons e stack =>
      have hst' : ∀ e ∈ stack, e.length = p + 1 := fun e he => hst e (by simp [he])
      have he := eq_tab_pt e
      rw [hst e (by simp)] at he
      obtain ⟨box, e1, _⟩ := controlBox_ok p (pt e)
      rw [← he] at e1
      have e2 := endBox_ok p (pt e)
      rw [← he] at e2
      have hdone : PieceDone sqrt eps p e ↔ Curve.boxDone sqrt eps box (BoundingBox.ofPoints (pt e 0).head3 (pt e p).head3) = true :=
        ⟨fun h => h box e1, fun h b hb => by rw [e1] at hb; cases hb; exact h⟩
      rw [Curve.boxLoop, e1, bind_ok, e2, bind_ok] at h
      split_ifs at h with hd
      · have hd' := hdone.mpr hd
        obtain ⟨r1, r2, r3, r4⟩ := ih stack f _ res hst' h
        refine ⟨fun B => ?_, ?_, fun _ => r3 (.inr (by simp)), r4⟩
        · rw [r1 B]
          refine (and_congr (hasBox_add p B g e) Iff.rfl).trans ?_
          rw [and_assoc]
          refine and_congr_right fun _ => ⟨?_, ?_⟩
          · rintro ⟨a, b⟩ e' he' q hq
            rcases List.mem_cons.1 he' with rfl | he'
            · rw [leaf_done hd' hq]; exact a
            · exact b e' he' q hq
          · intro a
            exact ⟨a e (by simp) e (.here hd'), fun e' he' => a e' (by simp [he'])⟩
        · intro e' he'
          rcases List.mem_cons.1 he' with rfl | he'
          · exact .done hd'
          · exact r2 e' he'
      · have hd' : ¬ PieceDone sqrt eps p e := fun q => hd (hdone.mp q)
        have ec := casteljau_ok p (pt e) f
        rw [← he] at ec
        rw [ec, bind_ok, casteljauHalves_ok, bind_ok] at h
        have hl : (tab (p + 1) fun r => if r + 0 ≤ p then tri (K := K) (pt e) r 0 else f r 0) = halfL p e :=
          tab_congr fun i hi => by rw [if_pos (by omega)]
        have hr : (tab (p + 1) fun r => if p - r + r ≤ p then tri (K := K) (pt e) (p - r) r else f (p - r) r) = halfR p e :=
          tab_congr fun i hi => by rw [if_pos (by omega)]
        simp only at h
        rw [hl, hr] at h
        obtain ⟨r1, r2, r3, r4⟩ := ih _ (fun i j => if i + j ≤ p then tri (K := K) (pt e) i j else f i j) g res (by
          intro e' he'
          simp only [List.mem_cons] at he'
          rcases he' with rfl | rfl | he'
          · simp [halfL]
          · simp [halfR]
          · exact hst' e' he') h
        refine ⟨fun B => ?_, ?_, fun _ => r3 (.inl (by simp)), r4⟩
        · rw [r1 B]
          refine and_congr_right fun _ => ⟨?_, ?_⟩
          · intro a e' he' q hq
            rcases List.mem_cons.1 he' with rfl | he'
            · rcases (leaf_split hd').mp hq with hq | hq
              · exact a _ (by simp) q hq
              · exact a _ (by simp) q hq
            · exact a e' (by simp [he']) q hq
          · intro a e' he' q hq
            simp only [List.mem_cons] at he'
            rcases he' with rfl | rfl | he'
            · exact a e (by simp) q ((leaf_split hd').mpr (.inl hq))
            · exact a e (by simp) q ((leaf_split hd').mpr (.inr hq))
            · exact a e' (by simp [he']) q hq
        · intro e' he'
          rcases List.mem_cons.1 he' with rfl | he'
          · exact .step hd' (r2 _ (by simp)) (r2 _ (by simp))
          · exact r2 e' (by simp [he'])

theorem boxFold_least (sqrt : K → K) (eps : K) (p : ℕ) (fuel : ℕ) (l : List (Curve K)) (hl : ∀ s ∈ l, s.ControlPoints.length = p + 1) :
    ∀ (f : ℕ → ℕ → Vec4 K) (g : Option (BoundingBox K)) res,
      foldMList (fun (seg : Curve K) (s : List (List (Vec4 K)) × Option (BoundingBox K)) =>
        Curve.boxLoop sqrt (p : Int) eps fuel [seg.ControlPoints] s.1 s.2) l (tab (p + 1) fun i => tab (p + 1) (f i), g) = .ok res →
      (∀ B, HasBox B res.2 ↔ HasBox B g ∧ ∀ s ∈ l, ∀ q, Leaf sqrt eps p s.ControlPoints q → HasEnds p B q) ∧
      (∀ s ∈ l, Halves sqrt eps p s.ControlPoints) ∧ (l ≠ [] ∨ g ≠ none → res.2 ≠ none) ∧ (l = [] → res.2 = g) := by
  induction l with
  | nil =>
    intro f g res h
    simp only [foldMList] at h
    cases h
    exact ⟨fun B => by simp, by simp, fun h => h.resolve_left (by simp), fun _ => rfl⟩
  | cons s l ih =>
    intro f g res h
    simp only [foldMList] at h
    cases hr : Curve.boxLoop sqrt (p : Int) eps fuel [s.ControlPoints] (tab (p + 1) fun i => tab (p + 1) (f i)) g with
    | error e => rw [hr, bind_error] at h; cases h
    | ok r =>
      rw [hr, bind_ok] at h
      obtain ⟨a, b, c, f', hf'⟩ := boxLoop_least sqrt eps p fuel [s.ControlPoints] f g r (by
        intro e he
        simp only [List.mem_singleton] at he
        subst he
        exact hl s (by simp)) hr
      have hrr : r = (tab (p + 1) fun i => tab (p + 1) (f' i), r.2) := by rw [← hf']
      rw [hrr] at h
      obtain ⟨r1, r2, r3, _⟩ := ih (fun s hs => hl s (by simp [hs])) f' r.2 res h
      refine ⟨fun B => ?_, ?_, fun _ => r3 (.inr (c (.inl (by simp)))), by simp⟩
      · rw [r1 B, a B]
        simp only [List.mem_cons, forall_eq_or_imp, and_assoc, List.not_mem_nil, false_imp_iff, implies_true, true_and]
      · intro s' hs'
        rcases List.mem_cons.1 hs' with rfl | hs'
        · exact b _ (by simp)
        · exact r2 s' hs'

end Nurbs
