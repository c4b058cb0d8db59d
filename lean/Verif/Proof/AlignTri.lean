import Verif.Proof.AlignDir

/-! # `AlignParameterDomain` on surfaces with one collapsed edge -/

set_option linter.unusedSectionVars false

namespace Nurbs
open Spec

variable {K : Type} [Field K] [LinearOrder K] [IsStrictOrderedRing K]

/-- What is used of the arc cosine: it decreases on [0,1]. -/
def AngleLike (acos : K → K) : Prop := ∀ x y, 0 ≤ x → x < y → y ≤ 1 → acos y < acos x

theorem abs_along_le {sqrt : K → K} (hs : ∀ x, 0 ≤ x → 0 ≤ sqrt x ∧ sqrt x ^ 2 = x) (v : Vec3 K) (A : AlignAxis) :
    |along v A| ≤ v.norm sqrt := by
  have hd : 0 ≤ v.dot v := by unfold Vec3.dot; nlinarith [mul_self_nonneg v.x, mul_self_nonneg v.y, mul_self_nonneg v.z]
  obtain ⟨h0, h1⟩ := hs _ hd
  have h2 : along v A ^ 2 ≤ (v.norm sqrt) ^ 2 := by
    unfold Vec3.norm
    rw [h1]
    unfold Vec3.dot
    cases A <;> unfold along <;> simp only <;> nlinarith [mul_self_nonneg v.x, mul_self_nonneg v.y, mul_self_nonneg v.z]
  exact abs_le_of_sq_le_sq h2 h0

theorem axisValue_eq (v : Vec3 K) (A : AlignAxis) : Surface.axisValue v A = along v A := by cases A <;> rfl

theorem points_abs {A : AlignAxis} {v : Vec3 K} (σ : Bool) (h : Points A (if σ then v else -v)) {B : AlignAxis} (hB : B ≠ A) :
    |along v B| < |along v A| := by
  obtain ⟨h0, h1⟩ := h
  cases σ
  · simp only [Bool.false_eq_true, if_false, along_neg] at h0 h1
    obtain ⟨h1, h2⟩ := h1 B hB
    rw [abs_of_neg (show along v A < 0 by linarith), abs_lt]
    constructor <;> linarith
  · simp only [if_true] at h0 h1
    obtain ⟨h1, h2⟩ := h1 B hB
    rw [abs_of_pos h0, abs_lt]
    constructor <;> linarith

theorem signOf_eq {A : AlignAxis} {x : K} (σ : Bool) (h : 0 < if σ then x else -x) : Surface.signOf x = if σ then 1 else -1 := by
  unfold Surface.signOf
  cases σ
  · simp only [Bool.false_eq_true, if_false] at h ⊢
    rw [if_neg (by linarith)]
  · simp only [if_true] at h ⊢
    rw [if_pos h.le]

/-- The information recorded for an edge. -/
def edgeInfo (sqrt acos : K → K) (a1 a2 : AlignAxis) (v : Vec3 K) : Surface.VectorInfo K :=
  ⟨v, acos |along v a1 / v.norm sqrt|, acos |along v a2 / v.norm sqrt|⟩

theorem addVectorInfo_long (sqrt acos : K → K) (a1 a2 : AlignAxis) {v : Vec3 K} (l) (h : eps6 < v.norm sqrt) :
    Surface.addVectorInfo sqrt acos a1 a2 v l = .ok (l ++ [edgeInfo sqrt acos a1 a2 v]) := by
  have hne : v.norm sqrt ≠ 0 := by
    have : (0 : K) < eps6 := by unfold eps6; positivity
    exact (lt_trans this h).ne'
  unfold Surface.addVectorInfo
  rw [if_pos h]
  unfold Surface.computeAngle
  rw [fdiv_ok hne, bind_ok, fdiv_ok hne, axisValue_eq, axisValue_eq]
  rfl

theorem addVectorInfo_short (sqrt acos : K → K) (a1 a2 : AlignAxis) {v : Vec3 K} (l) (h : ¬ eps6 < v.norm sqrt) :
    Surface.addVectorInfo sqrt acos a1 a2 v l = .ok l := by
  unfold Surface.addVectorInfo
  rw [if_neg h]

/-- The angle to the dominant axis is the smaller one. -/
theorem angle_lt {sqrt acos : K → K} (hs : ∀ x, 0 ≤ x → 0 ≤ sqrt x ∧ sqrt x ^ 2 = x) (ha : AngleLike acos) {v : Vec3 K} (hl : eps6 < v.norm sqrt) {A B : AlignAxis}
    (h : |along v B| < |along v A|) : acos |along v A / v.norm sqrt| < acos |along v B / v.norm sqrt| := by
  have hp : 0 < v.norm sqrt := lt_trans (by unfold eps6; positivity) hl
  refine ha _ _ (abs_nonneg _) ?_ ?_
  · rw [abs_div, abs_div]
    exact div_lt_div_of_pos_right h (abs_pos.2 hp.ne')
  · rw [abs_div, abs_of_pos hp, div_le_one hp]
    exact abs_along_le hs v A

/-- The vote of two edges along `A` and one along `B`. -/
theorem votedAxes_three {sqrt acos : K → K} (hs : ∀ x, 0 ≤ x → 0 ≤ sqrt x ∧ sqrt x ^ 2 = x) (ha : AngleLike acos) {a1 a2 A B : AlignAxis} (hAB : A ≠ B)
    (hax : a1 = A ∧ a2 = B ∨ a1 = B ∧ a2 = A) {u0 u1 v : Vec3 K} (σ τ : Bool)
    (h0 : Points A (if σ then u0 else -u0)) (h1 : Points A (if σ then u1 else -u1)) (hv : Points B (if τ then v else -v))
    (l0 : eps6 < u0.norm sqrt) (l1 : eps6 < u1.norm sqrt) (lv : eps6 < v.norm sqrt) :
    Surface.votedAxes a1 a2 [edgeInfo sqrt acos a1 a2 u0, edgeInfo sqrt acos a1 a2 v, edgeInfo sqrt acos a1 a2 u1] =
      (A, B, if σ then 1 else -1, if τ then 1 else -1) := by
  have e0 := angle_lt hs ha l0 (points_abs σ h0 hAB.symm)
  have e1 := angle_lt hs ha l1 (points_abs σ h1 hAB.symm)
  have ev := angle_lt hs ha lv (points_abs τ hv hAB)
  have s1 : Surface.signOf (along u0 A + along u1 A) = if σ then 1 else -1 := by
    refine signOf_eq (A := A) σ ?_
    have q0 := h0.1
    have q1 := h1.1
    cases σ
    · simp only [Bool.false_eq_true, if_false, along_neg] at q0 q1 ⊢
      linarith
    · simp only [if_true] at q0 q1 ⊢
      linarith
  have s2 : Surface.signOf (along v B) = if τ then 1 else -1 := by
    refine signOf_eq (A := A) τ ?_
    have q0 := hv.1
    cases τ
    · simpa only [Bool.false_eq_true, if_false, along_neg] using q0
    · simpa only [if_true] using q0
  unfold Surface.votedAxes
  rcases hax with ⟨rfl, rfl⟩ | ⟨rfl, rfl⟩
  · simp only [List.foldl_cons, List.foldl_nil, edgeInfo, if_pos e0, if_pos e1, if_neg (not_lt.2 ev.le), axisValue_eq]
    simp only [zero_add]
    rw [if_pos (by norm_num), s1, s2]
  · simp only [List.foldl_cons, List.foldl_nil, edgeInfo, if_neg (not_lt.2 e0.le), if_neg (not_lt.2 e1.le), if_pos ev, axisValue_eq]
    simp only [zero_add]
    rw [if_neg (by norm_num), s1, s2]

theorem sortDesc_top {x y z : K} {A B : AlignAxis} (hAB : A ≠ B) {ext : AlignAxis → K}
    (hx : ext .XAxis = x) (hy : ext .YAxis = y) (hz : ext .ZAxis = z)
    (h : ∀ C, C ≠ A → C ≠ B → ext C < ext A ∧ ext C < ext B) :
    ∃ e1 e2 e3, Surface.sortDesc [(x, AlignAxis.XAxis), (y, .YAxis), (z, .ZAxis)] = [e1, e2, e3] ∧
      (e1.2 = A ∧ e2.2 = B ∨ e1.2 = B ∧ e2.2 = A) := by
  subst hx hy hz
  have hX := h .XAxis
  have hY := h .YAxis
  have hZ := h .ZAxis
  simp only [Surface.sortDesc, List.foldl_cons, List.foldl_nil, Surface.insertDesc]
  cases A <;> cases B <;> first | exact absurd rfl hAB | skip
  all_goals
    simp only [ne_eq, reduceCtorEq, not_true_eq_false, not_false_eq_true, forall_true_left, false_implies, implies_true] at hX hY hZ
    split_ifs <;> simp only [Surface.insertDesc] <;> (try split_ifs) <;>
    first
    | (refine ⟨_, _, _, rfl, ?_⟩; simp; done)
    | (exfalso; obtain ⟨a, b⟩ := hX; linarith)
    | (exfalso; obtain ⟨a, b⟩ := hY; linarith)
    | (exfalso; obtain ⟨a, b⟩ := hZ; linarith)

/-- One of the two v edges collapsed: the vote finds the axes of the other edges. -/
theorem align_tri (sqrt acos : K → K) (hs : ∀ x, 0 ≤ x → 0 ≤ sqrt x ∧ sqrt x ^ 2 = x) (ha : AngleLike acos) {p q m n : ℕ} {s : Surface K} (hw : WFSurface p q m n s)
    (ua va : AlignAxis) {A B : AlignAxis} (hAB : A ≠ B) (σ τ : Bool) (hm : 2 ≤ m) (hn : 2 ≤ n)
    (hext : ∀ C, C ≠ A → C ≠ B → cornerExtent m n s C < cornerExtent m n s A ∧ cornerExtent m n s C < cornerExtent m n s B)
    (l0 : eps6 < (edgeU m s 0).norm sqrt) (l1 : eps6 < (edgeU m s (n - 1)).norm sqrt)
    (h0 : Points A (if σ then edgeU m s 0 else -edgeU m s 0))
    (h1 : Points A (if σ then edgeU m s (n - 1) else -edgeU m s (n - 1)))
    (hv : eps6 < (edgeV n s 0).norm sqrt ∧ ¬ eps6 < (edgeV n s (m - 1)).norm sqrt ∧
        Points B (if τ then edgeV n s 0 else -edgeV n s 0) ∨
      ¬ eps6 < (edgeV n s 0).norm sqrt ∧ eps6 < (edgeV n s (m - 1)).norm sqrt ∧
        Points B (if τ then edgeV n s (m - 1) else -edgeV n s (m - 1))) :
    s.AlignParameterDomain sqrt acos ua va = s.applyAlign ua va A B (if σ then 1 else -1) (if τ then 1 else -1) := by
  unfold Surface.AlignParameterDomain
  simp only
  rw [hw.uCount, hw.vCount, if_neg (by omega), WFSurface.grid hw]
  rw [get_gridOf _ _ _ _ _ 0 0 (by simp) (by simp) (by omega) (by omega), bind_ok,
    get_gridOf _ _ _ _ _ (m - 1) 0 (by omega) (by simp) (by omega) (by omega), bind_ok,
    get_gridOf _ _ _ _ _ 0 (n - 1) (by simp) (by omega) (by omega) (by omega), bind_ok,
    get_gridOf _ _ _ _ _ (m - 1) (n - 1) (by omega) (by omega) (by omega) (by omega), bind_ok]
  obtain ⟨e1, e2, e3, hE, hax⟩ := sortDesc_top (ext := cornerExtent m n s) hAB rfl rfl rfl hext
  have hE' : Surface.sortDesc (Surface.cornerExtents (cp s 0 0).head3 (cp s (m - 1) 0).head3 (cp s 0 (n - 1)).head3
      (cp s (m - 1) (n - 1)).head3) = [e1, e2, e3] := hE
  have g0 : vget [e1, e2, e3] 0 = .ok e1 := rfl
  have g1 : vget [e1, e2, e3] 1 = .ok e2 := rfl
  rw [hE', g0, bind_ok, g1, bind_ok]
  have a0 : ∀ l, Surface.addVectorInfo sqrt acos e1.2 e2.2 ((cp s (m - 1) 0).head3 - (cp s 0 0).head3) l = _ :=
    fun l => addVectorInfo_long sqrt acos e1.2 e2.2 l l0
  have a3 : ∀ l, Surface.addVectorInfo sqrt acos e1.2 e2.2 ((cp s (m - 1) (n - 1)).head3 - (cp s 0 (n - 1)).head3) l = _ :=
    fun l => addVectorInfo_long sqrt acos e1.2 e2.2 l l1
  rcases hv with ⟨lv, sv, pv⟩ | ⟨sv, lv, pv⟩
  · have a1 : ∀ l, Surface.addVectorInfo sqrt acos e1.2 e2.2 ((cp s 0 (n - 1)).head3 - (cp s 0 0).head3) l = _ :=
      fun l => addVectorInfo_long sqrt acos e1.2 e2.2 l lv
    have a2 : ∀ l, Surface.addVectorInfo sqrt acos e1.2 e2.2 ((cp s (m - 1) (n - 1)).head3 - (cp s (m - 1) 0).head3) l = _ :=
      fun l => addVectorInfo_short sqrt acos e1.2 e2.2 l sv
    rw [a0, bind_ok, a1, bind_ok, a2, bind_ok, a3, bind_ok]
    have hvote := votedAxes_three hs ha hAB hax σ τ h0 h1 pv l0 l1 lv
    unfold edgeU edgeV at hvote
    simp only [List.nil_append, List.cons_append]
    rw [hvote]
    rfl
  · have a1 : ∀ l, Surface.addVectorInfo sqrt acos e1.2 e2.2 ((cp s 0 (n - 1)).head3 - (cp s 0 0).head3) l = _ :=
      fun l => addVectorInfo_short sqrt acos e1.2 e2.2 l sv
    have a2 : ∀ l, Surface.addVectorInfo sqrt acos e1.2 e2.2 ((cp s (m - 1) (n - 1)).head3 - (cp s (m - 1) 0).head3) l = _ :=
      fun l => addVectorInfo_long sqrt acos e1.2 e2.2 l lv
    rw [a0, bind_ok, a1, bind_ok, a2, bind_ok, a3, bind_ok]
    have hvote := votedAxes_three hs ha hAB hax σ τ h0 h1 pv l0 l1 lv
    unfold edgeU edgeV at hvote
    simp only [List.nil_append, List.cons_append]
    rw [hvote]
    rfl

end Nurbs
