import Verif.Proof.AlignDir
import Verif.Props.Surface

/-! # C50, C64: `AlignParameterDomain` -/

set_option linter.unusedSectionVars false

namespace Nurbs.Props
open Nurbs Nurbs.Spec

variable {K : Type} [Field K] [LinearOrder K] [IsStrictOrderedRing K]

/-- `s'` is `s` with the two parameters exchanged (if `sw`), the original u reversed (if `fu`) and the original v reversed
(if `fv`), as far as `Evaluate` can tell: for all `(a, b) ∈ [0,1]²`, except that a reversed parameter must not be one where `s` jumps. -/
def SameUpTo (sw fu fv : Bool) (p q : ℕ) (s s' : Surface K) : Prop :=
  ∀ a b, 0 ≤ a → a ≤ 1 → 0 ≤ b → b ≤ 1 → (fu = true → ¬ JumpAt p s.KnotsU.Values a) → (fv = true → ¬ JumpAt q s.KnotsV.Values b) →
    ∃ X, s.Evaluate a b = .ok X ∧
      (if sw then s'.Evaluate (if fv then 1 - b else b) (if fu then 1 - a else a)
        else s'.Evaluate (if fu then 1 - a else a) (if fv then 1 - b else b)) = .ok X

/-- `p`, `q`, `m`, `n` exchanged if `sw`. -/
def WFUpTo (sw : Bool) (p q m n : ℕ) (s' : Surface K) : Prop :=
  if sw then WFSurface q p n m s' else WFSurface p q m n s'

theorem applyAlign_ok {p q m n : ℕ} {s : Surface K} (hw : WFSurface p q m n s) (ua va cu cv : AlignAxis) (us vs : Int) :
    ∃ s' sw fu fv, s.applyAlign ua va cu cv us vs = .ok s' ∧ WFUpTo sw p q m n s' ∧ SameUpTo sw fu fv p q s s' := by
  have hid : SameUpTo false false false p q s s := by
    intro a b h0 h1 h2 h3 _ _
    exact ⟨_, (C43_evaluate hw h0 h1 h2 h3).1, by simpa using (C43_evaluate hw h0 h1 h2 h3).1⟩
  have tail : ∀ (sw : Bool) (p' q' m' n' : ℕ) (s₁ : Surface K) (ru rv : Prop) [Decidable ru] [Decidable rv], WFSurface p' q' m' n' s₁ →
      (if sw then p' = q ∧ q' = p ∧ m' = n ∧ n' = m ∧ s₁.KnotsU = s.KnotsV ∧ s₁.KnotsV = s.KnotsU
        else p' = p ∧ q' = q ∧ m' = m ∧ n' = n ∧ s₁.KnotsU = s.KnotsU ∧ s₁.KnotsV = s.KnotsV) →
      SameUpTo sw false false p q s s₁ →
      ∃ s' fu fv, (do
        let s ← if ru then s₁.reverseU else pure s₁
        if rv then s.reverseV else pure s) = .ok s' ∧ WFUpTo sw p q m n s' ∧ SameUpTo sw fu fv p q s s' := by
    intro sw p' q' m' n' s₁ ru rv _ _ hw₁ hpar hs₁
    obtain ⟨s₂, e₂, hw₂, hV₂, hs₂⟩ : ∃ s₂, (if ru then s₁.reverseU else pure s₁) = .ok s₂ ∧ WFSurface p' q' m' n' s₂ ∧
        s₂.KnotsV = s₁.KnotsV ∧ ∀ a b, 0 ≤ a → a ≤ 1 → 0 ≤ b → b ≤ 1 → (ru → ¬ JumpAt p' s₁.KnotsU.Values a) →
          s₂.Evaluate (if ru then 1 - a else a) b = s₁.Evaluate a b := by
      by_cases h : ru
      · obtain ⟨s₂, e, w, _, k, _, ev⟩ := reverseU_ok hw₁
        exact ⟨s₂, by rw [if_pos h]; exact e, w, k, fun a b h0 h1 h2 h3 hj => by rw [if_pos h]; exact ev a b h0 h1 h2 h3 (hj h)⟩
      · exact ⟨s₁, by rw [if_neg h]; rfl, hw₁, rfl, fun a b _ _ _ _ _ => by rw [if_neg h]⟩
    obtain ⟨s₃, e₃, hw₃, hs₃⟩ : ∃ s₃, (if rv then s₂.reverseV else pure s₂) = .ok s₃ ∧ WFSurface p' q' m' n' s₃ ∧
        ∀ a b, 0 ≤ a → a ≤ 1 → 0 ≤ b → b ≤ 1 → (rv → ¬ JumpAt q' s₁.KnotsV.Values b) →
          s₃.Evaluate a (if rv then 1 - b else b) = s₂.Evaluate a b := by
      by_cases h : rv
      · obtain ⟨s₃, e, w, _, k, _, ev⟩ := reverseV_ok hw₂
        exact ⟨s₃, by rw [if_pos h]; exact e, w, fun a b h0 h1 h2 h3 hj => by rw [if_pos h]; exact ev a b h0 h1 h2 h3 (by rw [hV₂]; exact hj h)⟩
      · exact ⟨s₂, by rw [if_neg h]; rfl, hw₂, fun a b _ _ _ _ _ => by rw [if_neg h]⟩
    have hall : ∀ a b, 0 ≤ a → a ≤ 1 → 0 ≤ b → b ≤ 1 → (ru → ¬ JumpAt p' s₁.KnotsU.Values a) → (rv → ¬ JumpAt q' s₁.KnotsV.Values b) →
        s₃.Evaluate (if ru then 1 - a else a) (if rv then 1 - b else b) = s₁.Evaluate a b := by
      intro a b h0 h1 h2 h3 hj1 hj2
      rw [hs₃ _ b (by split_ifs <;> linarith) (by split_ifs <;> linarith) h2 h3 hj2, hs₂ a b h0 h1 h2 h3 hj1]
    refine ⟨s₃, if sw then decide rv else decide ru, if sw then decide ru else decide rv, ?_, ?_, ?_⟩
    · by_cases h : ru
      · simp only [if_pos h] at e₂ ⊢
        rw [e₂, bind_ok, e₃]
      · simp only [if_neg h] at e₂ ⊢
        rw [e₂, bind_ok, e₃]
    · cases sw
      · obtain ⟨rfl, rfl, rfl, rfl, _, _⟩ := hpar
        exact hw₃
      · obtain ⟨rfl, rfl, rfl, rfl, _, _⟩ := hpar
        exact hw₃
    · intro a b h0 h1 h2 h3 hj1 hj2
      obtain ⟨X, x1, x2⟩ := hs₁ a b h0 h1 h2 h3 (by simp) (by simp)
      refine ⟨X, x1, ?_⟩
      cases sw
      · obtain ⟨rfl, rfl, rfl, rfl, ku, kv⟩ := hpar
        simp only [Bool.false_eq_true, if_false, decide_eq_true_eq] at x2 hj1 hj2 ⊢
        rw [hall a b h0 h1 h2 h3 (by rw [ku]; exact hj1) (by rw [kv]; exact hj2)]
        exact x2
      · obtain ⟨rfl, rfl, rfl, rfl, ku, kv⟩ := hpar
        simp only [if_true, Bool.false_eq_true, if_false, decide_eq_true_eq] at x2 hj1 hj2 ⊢
        rw [hall b a h2 h3 h0 h1 (by rw [ku]; exact hj2) (by rw [kv]; exact hj1)]
        exact x2
  unfold Surface.applyAlign
  by_cases hret : cu ≠ ua ∧ ¬ (cv = ua ∧ cu = va)
  · rw [if_pos hret]
    exact ⟨s, false, false, false, rfl, hw, hid⟩
  · rw [if_neg hret]
    by_cases hsw : cu ≠ ua
    · obtain ⟨s₁, e₁, w₁, k₁, k₂, _, ev₁⟩ := swapUV_ok hw
      simp only [if_pos hsw, e₁, bind_ok]
      obtain ⟨s', fu, fv, h1, h2, h3⟩ := tail true q p n m s₁ (cv = ua ∧ vs < 0) (cu = va ∧ us < 0) w₁
        (by exact ⟨rfl, rfl, rfl, rfl, k₁, k₂⟩) (by
          intro a b h0 h1 h2 h3 _ _
          refine ⟨_, (C43_evaluate hw h0 h1 h2 h3).1, ?_⟩
          simp only [if_true, Bool.false_eq_true, if_false]
          rw [ev₁ a b h0 h1 h2 h3]
          exact (C43_evaluate hw h0 h1 h2 h3).1)
      exact ⟨s', true, fu, fv, h1, h2, h3⟩
    · simp only [if_neg hsw]
      obtain ⟨s', fu, fv, h1, h2, h3⟩ := tail false p q m n s (cu = ua ∧ us < 0) (cv = va ∧ vs < 0) hw
        (by exact ⟨rfl, rfl, rfl, rfl, rfl, rfl⟩) hid
      exact ⟨s', false, fu, fv, h1, h2, h3⟩

theorem addVectorInfo_ok (sqrt acos : K → K) (a1 a2 : AlignAxis) (vec : Vec3 K) (vs : List (Surface.VectorInfo K)) :
    ∃ r, Surface.addVectorInfo sqrt acos a1 a2 vec vs = .ok r := by
  unfold Surface.addVectorInfo
  split_ifs with h
  · have hne : vec.norm sqrt ≠ 0 := by
      have : (0 : K) < eps6 := by unfold eps6; positivity
      exact (lt_trans this h).ne'
    unfold Surface.computeAngle
    rw [fdiv_ok hne, bind_ok, fdiv_ok hne]
    exact ⟨_, rfl⟩
  · exact ⟨_, rfl⟩

/-- C50.  On every well-formed surface, for every pair of axes (and any square root and arc cosine), `AlignParameterDomain` succeeds
and returns a well-formed surface which is the input with the parameters possibly exchanged and possibly reversed: `Evaluate` takes
the same values at corresponding parameters.  With fewer than 2×2 control points the surface is returned unchanged.
Missing for the full C50: the equality at a reversed parameter which is an interior knot of multiplicity greater than the degree;
there it is false, see `C50_jump_refuted`. -/
theorem C50_align_partial (sqrt acos : K → K) {p q m n : ℕ} {s : Surface K} (hw : WFSurface p q m n s) (ua va : AlignAxis) :
    ∃ s' sw fu fv, s.AlignParameterDomain sqrt acos ua va = .ok s' ∧ WFUpTo sw p q m n s' ∧ SameUpTo sw fu fv p q s s' ∧
      (m < 2 ∨ n < 2 → s' = s) := by
  have hid : SameUpTo false false false p q s s := by
    intro a b h0 h1 h2 h3 _ _
    exact ⟨_, (C43_evaluate hw h0 h1 h2 h3).1, by simpa using (C43_evaluate hw h0 h1 h2 h3).1⟩
  have fin : ∀ x : M (Surface K), (∃ s' sw fu fv, x = .ok s' ∧ WFUpTo sw p q m n s' ∧ SameUpTo sw fu fv p q s s') → ¬ (m < 2 ∨ n < 2) →
      ∃ s' sw fu fv, x = .ok s' ∧ WFUpTo sw p q m n s' ∧ SameUpTo sw fu fv p q s s' ∧ (m < 2 ∨ n < 2 → s' = s) := by
    rintro x ⟨s', sw, fu, fv, h1, h2, h3⟩ h
    exact ⟨s', sw, fu, fv, h1, h2, h3, fun h' => absurd h' h⟩
  unfold Surface.AlignParameterDomain
  simp only
  rw [hw.uCount, hw.vCount]
  by_cases hsmall : (m : Int) < 2 ∨ (n : Int) < 2
  · rw [if_pos hsmall]
    exact ⟨s, false, false, false, rfl, hw, hid, fun _ => rfl⟩
  · rw [if_neg hsmall, WFSurface.grid hw]
    apply fin _ _ (by omega)
    rw [get_gridOf _ _ _ _ _ 0 0 (by simp) (by simp) (by omega) (by omega), bind_ok,
      get_gridOf _ _ _ _ _ (m - 1) 0 (by omega) (by simp) (by omega) (by omega), bind_ok,
      get_gridOf _ _ _ _ _ 0 (n - 1) (by simp) (by omega) (by omega) (by omega), bind_ok,
      get_gridOf _ _ _ _ _ (m - 1) (n - 1) (by omega) (by omega) (by omega) (by omega), bind_ok]
    have hlen : ∀ l : List (K × AlignAxis), ∀ x, (Surface.insertDesc x l).length = l.length + 1 := by
      intro l x
      induction l with
      | nil => rfl
      | cons y l ih =>
        unfold Surface.insertDesc
        split_ifs <;> simp [ih]
    have h3 : ∀ a b c d : Vec3 K, (Surface.sortDesc (Surface.cornerExtents a b c d)).length = 3 := by
      intro a b c d
      simp [Surface.sortDesc, Surface.cornerExtents, hlen]
    generalize hE : Surface.sortDesc (Surface.cornerExtents (cp s 0 0).head3 (cp s (m - 1) 0).head3 (cp s 0 (n - 1)).head3 (cp s (m - 1) (n - 1)).head3) = E
    have hE3 : E.length = 3 := by rw [← hE]; exact h3 _ _ _ _
    obtain ⟨x1, hx1⟩ : ∃ x, vget E 0 = .ok x := ⟨_, vget_of _ _ 0 _ (by simp) (List.getElem?_eq_getElem (by omega))⟩
    obtain ⟨x2, hx2⟩ : ∃ x, vget E 1 = .ok x := ⟨_, vget_of _ _ 1 _ (by simp) (List.getElem?_eq_getElem (by omega))⟩
    rw [hx1, bind_ok, hx2, bind_ok]
    obtain ⟨v1, e1⟩ := addVectorInfo_ok sqrt acos x1.2 x2.2 ((cp s (m - 1) 0).head3 - (cp s 0 0).head3) []
    obtain ⟨v2, e2⟩ := addVectorInfo_ok sqrt acos x1.2 x2.2 ((cp s 0 (n - 1)).head3 - (cp s 0 0).head3) v1
    obtain ⟨v3, e3⟩ := addVectorInfo_ok sqrt acos x1.2 x2.2 ((cp s (m - 1) (n - 1)).head3 - (cp s (m - 1) 0).head3) v2
    obtain ⟨v4, e4⟩ := addVectorInfo_ok sqrt acos x1.2 x2.2 ((cp s (m - 1) (n - 1)).head3 - (cp s 0 (n - 1)).head3) v3
    rw [e1, bind_ok, e2, bind_ok, e3, bind_ok, e4, bind_ok]
    split_ifs with c1 c2
    · exact ⟨s, false, false, false, rfl, hw, hid⟩
    · exact applyAlign_ok hw _ _ _ _ _ _
    · obtain ⟨y1, hy1⟩ : ∃ x, vget v4 0 = .ok x := ⟨_, vget_of _ _ 0 _ (by simp) (List.getElem?_eq_getElem (by omega))⟩
      obtain ⟨y2, hy2⟩ : ∃ x, vget v4 1 = .ok x := ⟨_, vget_of _ _ 1 _ (by simp) (List.getElem?_eq_getElem (by omega))⟩
      rw [hy1, bind_ok, hy2, bind_ok]
      exact applyAlign_ok hw _ _ _ _ _ _

/-- If no interior knot has a multiplicity greater than the degree, `AlignParameterDomain` keeps the set of points. -/
theorem C50_same_points_partial (sqrt acos : K → K) {p q m n : ℕ} {s : Surface K} (hw : WFSurface p q m n s) (ua va : AlignAxis)
    (hu : ∀ x, ¬ JumpAt p s.KnotsU.Values x) (hv : ∀ x, ¬ JumpAt q s.KnotsV.Values x) :
    ∃ s', s.AlignParameterDomain sqrt acos ua va = .ok s' ∧ ∀ X : Vec3 K,
      (∃ u v, 0 ≤ u ∧ u ≤ 1 ∧ 0 ≤ v ∧ v ≤ 1 ∧ s'.Evaluate u v = .ok X) ↔ ∃ u v, 0 ≤ u ∧ u ≤ 1 ∧ 0 ≤ v ∧ v ≤ 1 ∧ s.Evaluate u v = .ok X := by
  obtain ⟨s', sw, fu, fv, h1, _, h3, _⟩ := C50_align_partial sqrt acos hw ua va
  refine ⟨s', h1, fun X => ⟨?_, ?_⟩⟩
  · rintro ⟨u, v, hu0, hu1, hv0, hv1, he⟩
    cases sw
    · obtain ⟨Y, y1, y2⟩ := h3 (if fu then 1 - u else u) (if fv then 1 - v else v) (by split_ifs <;> linarith) (by split_ifs <;> linarith)
        (by split_ifs <;> linarith) (by split_ifs <;> linarith) (fun _ => hu _) (fun _ => hv _)
      have : (if fu = true then 1 - (if fu then 1 - u else u) else (if fu then 1 - u else u)) = u := by cases fu <;> simp
      have h' : (if fv = true then 1 - (if fv then 1 - v else v) else (if fv then 1 - v else v)) = v := by cases fv <;> simp
      rw [if_neg (by simp), this, h', he] at y2
      rw [← y2] at y1
      exact ⟨_, _, by split_ifs <;> linarith, by split_ifs <;> linarith, by split_ifs <;> linarith, by split_ifs <;> linarith, y1⟩
    · obtain ⟨Y, y1, y2⟩ := h3 (if fu then 1 - v else v) (if fv then 1 - u else u) (by split_ifs <;> linarith) (by split_ifs <;> linarith)
        (by split_ifs <;> linarith) (by split_ifs <;> linarith) (fun _ => hu _) (fun _ => hv _)
      have : (if fu = true then 1 - (if fu then 1 - v else v) else (if fu then 1 - v else v)) = v := by cases fu <;> simp
      have h' : (if fv = true then 1 - (if fv then 1 - u else u) else (if fv then 1 - u else u)) = u := by cases fv <;> simp
      rw [if_pos rfl, this, h', he] at y2
      rw [← y2] at y1
      exact ⟨_, _, by split_ifs <;> linarith, by split_ifs <;> linarith, by split_ifs <;> linarith, by split_ifs <;> linarith, y1⟩
  · rintro ⟨u, v, hu0, hu1, hv0, hv1, he⟩
    obtain ⟨Y, y1, y2⟩ := h3 u v hu0 hu1 hv0 hv1 (fun _ => hu _) (fun _ => hv _)
    rw [he] at y1
    rw [← y1] at y2
    cases sw
    · rw [if_neg (by simp)] at y2
      exact ⟨_, _, by split_ifs <;> linarith, by split_ifs <;> linarith, by split_ifs <;> linarith, by split_ifs <;> linarith, y2⟩
    · rw [if_pos rfl] at y2
      exact ⟨_, _, by split_ifs <;> linarith, by split_ifs <;> linarith, by split_ifs <;> linarith, by split_ifs <;> linarith, y2⟩

/-- A square root that is exact for the numbers occurring in the examples (1, 4 and 9). -/
def exSqrt (t : ℚ) : ℚ := if t = 9 then 3 else if t = 4 then 2 else if t = 1 then 1 else t

/-- The example turned so that u runs along z and v along -x: exchange of the parameters and reversal. -/
def exTurned : Surface ℚ :=
  ⟨1, 2, ⟨[0, 0, 1, 1]⟩, ⟨[0, 0, 0, 1, 1, 1]⟩, ⟨2, 3, [⟨0, 0, 0, 1⟩, ⟨0, 0, 2, 1⟩, ⟨-1, 1, 0, 1⟩, ⟨-1, 3, 2, 2⟩, ⟨-3, 0, 0, 1⟩, ⟨-3, 0, 2, 1⟩]⟩⟩

example : exTurned.AlignParameterDomain exSqrt id .XAxis .ZAxis =
    .ok ⟨2, 1, ⟨[0, 0, 0, 1, 1, 1]⟩, ⟨[0, 0, 1, 1]⟩, ⟨3, 2, [⟨-3, 0, 0, 1⟩, ⟨-1, 1, 0, 1⟩, ⟨0, 0, 0, 1⟩, ⟨-3, 0, 2, 1⟩, ⟨-1, 3, 2, 2⟩, ⟨0, 0, 2, 1⟩]⟩⟩ := by
  decide +kernel

/-- A surface of degree (1,1) with the double knot 1/2: it jumps there. -/
def exJump : Surface ℚ :=
  ⟨1, 1, ⟨[0, 0, 1/2, 1/2, 1, 1]⟩, ⟨[0, 0, 1, 1]⟩,
    ⟨4, 2, [⟨3, 0, 0, 1⟩, ⟨2, 0, 0, 1⟩, ⟨1, 0, 0, 1⟩, ⟨0, 0, 0, 1⟩, ⟨3, 2, 0, 1⟩, ⟨2, 2, 0, 1⟩, ⟨1, 2, 0, 1⟩, ⟨0, 2, 0, 1⟩]⟩⟩

theorem exJump_wf : WFSurface 1 1 4 2 exJump :=
  ⟨rfl, rfl, ⟨by decide +kernel, by decide +kernel, by decide +kernel, by decide +kernel, by decide +kernel,
    by decide +kernel⟩, ⟨by decide +kernel, by decide +kernel, by decide +kernel, by decide +kernel, by decide +kernel,
    by decide +kernel⟩, rfl, rfl, rfl, rfl, rfl, by decide +kernel⟩

/-- C50 fails at jumps: u is reversed, but the value at the jump changes from the right limit `(1,0,0)` to the left limit `(2,0,0)` –
for no choice of exchange and reversals do the values agree at `(1/2, 0)` and `(0, 0)`, `(1, 0)`. -/
theorem C50_jump_refuted : ∃ s', exJump.AlignParameterDomain exSqrt id .XAxis .YAxis = .ok s' ∧
    ∀ sw fu fv : Bool, ∃ a ∈ [(0 : ℚ), 1/2, 1], exJump.Evaluate a 0 ≠
      (if sw then s'.Evaluate (if fv then 1 - 0 else 0) (if fu then 1 - a else a)
        else s'.Evaluate (if fu then 1 - a else a) (if fv then 1 - 0 else 0)) := by
  refine ⟨⟨1, 1, ⟨[0, 0, 1/2, 1/2, 1, 1]⟩, ⟨[0, 0, 1, 1]⟩,
    ⟨4, 2, [⟨0, 0, 0, 1⟩, ⟨1, 0, 0, 1⟩, ⟨2, 0, 0, 1⟩, ⟨3, 0, 0, 1⟩, ⟨0, 2, 0, 1⟩, ⟨1, 2, 0, 1⟩, ⟨2, 2, 0, 1⟩, ⟨3, 2, 0, 1⟩]⟩⟩, ?_, ?_⟩
  · decide +kernel
  · decide +kernel

/-- C64.  If opposite edges of the quadrilateral of corner control points point along the same axis in the same direction (the u edges
along `A`, the v edges along `B ≠ A`, positive or negative) and are longer than 1e-6, then `AlignParameterDomain(ua, va)` with
`{ua, va} = {A, B}` returns a well-formed surface whose u edges point in the positive direction of `ua` and whose v edges in that of `va`.
Missing for the full C64: only the edges at the first corner are looked at; if the opposite edges run the other way the claim is false
(`C64_twisted_refuted`), and edges shorter than 1e-6 are ignored. -/
theorem C64_align_directions_partial (sqrt acos : K → K) {p q m n : ℕ} {s : Surface K} (hw : WFSurface p q m n s) {A B ua va : AlignAxis}
    {σ τ : Bool} (hm : 2 ≤ m) (hn : 2 ≤ n) (hAB : A ≠ B) (hax : ua = A ∧ va = B ∨ ua = B ∧ va = A) (h : EdgesPoint m n A B σ τ s)
    (hlen : ∀ j, j = 0 ∨ j = n - 1 → eps6 < (edgeU m s j).norm sqrt) (hlen' : ∀ i, i = 0 ∨ i = m - 1 → eps6 < (edgeV n s i).norm sqrt) :
    ∃ s', s.AlignParameterDomain sqrt acos ua va = .ok s' ∧
      if ua = A then WFSurface p q m n s' ∧ EdgesPoint m n ua va true true s'
        else WFSurface q p n m s' ∧ EdgesPoint n m ua va true true s' := by
  rw [align_four sqrt acos hw ua va hm hn (hlen _ (Or.inl rfl)) (hlen' _ (Or.inl rfl)) (hlen' _ (Or.inr rfl)) (hlen _ (Or.inr rfl)),
    dominantAxis_points σ (h.1 0 (Or.inl rfl)), dominantAxis_points τ (h.2 0 (Or.inl rfl))]
  exact applyAlign_points hw h hm hn hAB hax

/-- A surface whose edges already point in the requested directions is returned unchanged. -/
theorem C64_aligned_unchanged (sqrt acos : K → K) {p q m n : ℕ} {s : Surface K} (hw : WFSurface p q m n s) {ua va : AlignAxis}
    (hm : 2 ≤ m) (hn : 2 ≤ n) (h : EdgesPoint m n ua va true true s)
    (hlen : ∀ j, j = 0 ∨ j = n - 1 → eps6 < (edgeU m s j).norm sqrt) (hlen' : ∀ i, i = 0 ∨ i = m - 1 → eps6 < (edgeV n s i).norm sqrt) :
    s.AlignParameterDomain sqrt acos ua va = .ok s := by
  rw [align_four sqrt acos hw ua va hm hn (hlen _ (Or.inl rfl)) (hlen' _ (Or.inl rfl)) (hlen' _ (Or.inr rfl)) (hlen _ (Or.inr rfl)),
    dominantAxis_points true (h.1 0 (Or.inl rfl)), dominantAxis_points true (h.2 0 (Or.inl rfl))]
  unfold Surface.applyAlign
  simp [pure_ok]

/-- The hypotheses of `C64_align_directions_partial` hold for `exTurned`: its u edges point along +z, its v edges along -x. -/
example : EdgesPoint 2 3 .ZAxis .XAxis true false exTurned ∧ ∀ j, j = 0 ∨ j = 2 → eps6 < (edgeU 2 exTurned j).norm exSqrt := by
  refine ⟨⟨?_, ?_⟩, ?_⟩
  · rintro j (rfl | rfl)
    · refine ⟨by decide +kernel, fun B hB => ?_⟩
      cases B <;> first | exact absurd rfl hB | decide +kernel
    · refine ⟨by decide +kernel, fun B hB => ?_⟩
      cases B <;> first | exact absurd rfl hB | decide +kernel
  · rintro j (rfl | rfl)
    · refine ⟨by decide +kernel, fun B hB => ?_⟩
      cases B <;> first | exact absurd rfl hB | decide +kernel
    · refine ⟨by decide +kernel, fun B hB => ?_⟩
      cases B <;> first | exact absurd rfl hB | decide +kernel
  · rintro j (rfl | rfl) <;> decide +kernel

/-- A twisted quadrilateral: the u edge at v = 0 runs along +x, the opposite one along -x; the v edge at u = 0 along -y. -/
def exTwisted : Surface ℚ :=
  ⟨1, 1, ⟨[0, 0, 1, 1]⟩, ⟨[0, 0, 1, 1]⟩, ⟨2, 2, [⟨-1, 2, 0, 1⟩, ⟨1, 2, 0, 1⟩, ⟨0, 0, 0, 1⟩, ⟨-1, 0, 0, 1⟩]⟩⟩

theorem exTwisted_wf : WFSurface 1 1 2 2 exTwisted :=
  ⟨rfl, rfl, ⟨by decide +kernel, by decide +kernel, by decide +kernel, by decide +kernel, by decide +kernel,
    by decide +kernel⟩, ⟨by decide +kernel, by decide +kernel, by decide +kernel, by decide +kernel, by decide +kernel,
    by decide +kernel⟩, rfl, rfl, rfl, rfl, rfl, by decide +kernel⟩

/-- C64 fails for twisted surfaces: the edges at the first corner point along +x and -y, but in the surface returned by
`AlignParameterDomain(X, Y)` the u edge at the first corner points along -x. -/
theorem C64_twisted_refuted : Points .XAxis (edgeU 2 exTwisted 0) ∧ Points .YAxis (-edgeV 2 exTwisted 0) ∧
    ∃ s', exTwisted.AlignParameterDomain exSqrt id .XAxis .YAxis = .ok s' ∧ WFSurface 1 1 2 2 s' ∧ ¬ Points .XAxis (edgeU 2 s' 0) := by
  refine ⟨⟨by decide +kernel, fun B hB => ?_⟩, ⟨by decide +kernel, fun B hB => ?_⟩, ?_⟩
  · cases B <;> first | exact absurd rfl hB | decide +kernel
  · cases B <;> first | exact absurd rfl hB | decide +kernel
  · refine ⟨⟨1, 1, ⟨[0, 0, 1, 1]⟩, ⟨[0, 0, 1, 1]⟩, ⟨2, 2, [⟨0, 0, 0, 1⟩, ⟨-1, 0, 0, 1⟩, ⟨-1, 2, 0, 1⟩, ⟨1, 2, 0, 1⟩]⟩⟩, by decide +kernel, ?_, fun h => ?_⟩
    · exact ⟨rfl, rfl, ⟨by decide +kernel, by decide +kernel, by decide +kernel, by decide +kernel, by decide +kernel,
        by decide +kernel⟩, ⟨by decide +kernel, by decide +kernel, by decide +kernel, by decide +kernel, by decide +kernel,
        by decide +kernel⟩, rfl, rfl, rfl, rfl, rfl, by decide +kernel⟩
    · exact absurd h.1 (by decide +kernel)

end Nurbs.Props
