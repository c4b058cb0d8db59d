import Verif.Spec.Curve
import Verif.Proof.Vec
import Verif.Proof.Basis

/-! # `Curve::Evaluate` in terms of segments -/

set_option linter.unusedSectionVars false

namespace Nurbs
open Nurbs.Spec

variable {K : Type} [Field K] [LinearOrder K] [IsStrictOrderedRing K]

/-- Homogeneous control points. -/
def hpts (l : List (Vec4 K)) (i : ℕ) : Vec4 K := ToHomo (pt l i)

theorem vget_pt {K : Type} [Zero K] (l : List (Vec4 K)) (z : Int) (i : ℕ) (hz : z = i) (h : i < l.length) : vget l z = .ok (pt l i) := by
  subst hz
  rw [vget_nat l i h]
  simp [pt, h]

theorem evaluate_at_span {p : ℕ} {c : Curve K} (hd : c.Degree = p) (hc : Clamped p c.Knots.Values)
    (hn : c.Knots.Values.length = c.ControlPoints.length + p + 1) {x : K} (h0 : 0 ≤ x) (h1 : x ≤ 1) {k : ℕ}
    (hk : IsSpan c.Knots.Values x k) :
    p ≤ k ∧ k + p + 2 ≤ c.Knots.Values.length ∧ RegSpan (kn c.Knots.Values) k p ∧
      c.Evaluate x = projectM (seg (kn c.Knots.Values) k x p (hpts c.ControlPoints)) := by
  obtain ⟨k', hk', hs, hpk, hlk⟩ := findSpanIndex_spec hc h0 h1
  obtain rfl : k = k' := isSpan_unique hc.sorted hk hs (fun i hi => hc.le_one hi)
  have hreg : RegSpan (kn c.Knots.Values) k p := regSpan_of_sorted hc.sorted (IsSpan.lt hs) (by omega)
  refine ⟨hpk, hlk, hreg, ?_⟩
  unfold Curve.Evaluate
  rw [massert_true ⟨h0, h1⟩, bind_ok, hd, hk', bind_ok, evaluateAt_ok hpk (by omega) hreg, bind_ok,
    massert_true (by simp), bind_ok, forLe_eq_forUp 0 p (p + 1) (by omega)]
  rw [forUp_finsum _ (fun n => Nl (kn c.Knots.Values) k x p (k - p + n) • hpts c.ControlPoints (k - p + n))]
  · rw [bind_ok, zero_add]; rfl
  · intro i hi t
    rw [vget_pt c.ControlPoints _ (k - p + i) (by omega) (by omega), bind_ok,
      vget_tab _ _ _ i (by simp) hi, bind_ok]
    rfl

theorem seg_w_pos (U : ℕ → K) (k : ℕ) (x : K) (p : ℕ) (hp : p ≤ k) (hr : RegSpan U k p)
    (hm : ∀ a b, a ≤ b → b ≤ k + p → U a ≤ U b) (h1 : U k ≤ x) (h2 : x ≤ U (k + 1)) (P : ℕ → Vec4 K)
    (hP : ∀ i, k ≤ i + p → i ≤ k → 0 < (P i).w) : 0 < (seg U k x p P).w := by
  unfold seg
  rw [Vec4.sum_w]
  have hnn : ∀ n ∈ Finset.range (p + 1), 0 ≤ (Nl U k x p (k - p + n) • P (k - p + n)).w := fun n hn => by
    have := Finset.mem_range.mp hn
    exact mul_nonneg (Nl_nonneg U k x p _ hm h1 h2) (hP _ (by omega) (by omega)).le
  refine lt_of_le_of_ne (Finset.sum_nonneg hnn) (fun h => ?_)
  have hz := (Finset.sum_eq_zero_iff_of_nonneg hnn).mp h.symm
  have : ∑ n ∈ Finset.range (p + 1), Nl U k x p (k - p + n) = 0 := by
    apply Finset.sum_eq_zero
    intro n hn
    have h3 := hz n hn
    have := Finset.mem_range.mp hn
    rw [Vec4.smul_w] at h3
    exact (mul_eq_zero.mp h3).resolve_right (hP _ (by omega) (by omega)).ne'
  rw [seg_one U k x p hp hr] at this
  exact one_ne_zero this

theorem evaluate_seg {p : ℕ} {c : Curve K} (hw : WFCurve p c) {x : K} (h0 : 0 ≤ x) (h1 : x ≤ 1) {k : ℕ}
    (hk : IsSpan c.Knots.Values x k) :
    p ≤ k ∧ k + p + 2 ≤ c.Knots.Values.length ∧ RegSpan (kn c.Knots.Values) k p ∧
      0 < (seg (kn c.Knots.Values) k x p (hpts c.ControlPoints)).w ∧
      c.Evaluate x = .ok (proj (seg (kn c.Knots.Values) k x p (hpts c.ControlPoints))) := by
  obtain ⟨a, b, r, e⟩ := evaluate_at_span hw.degree hw.clamped hw.count h0 h1 hk
  have hc := hw.count
  have hpos := seg_w_pos (kn c.Knots.Values) k x p a r (fun a b hab hb => kn_mono hw.clamped.sorted hab (by omega)) hk.2.1
    (IsSpan.le_right hk) (hpts c.ControlPoints) (fun i _ _ => hw.weights i (by omega))
  exact ⟨a, b, r, hpos, by rw [e, projectM_ok hpos.ne']⟩

theorem exists_span {p : ℕ} {l : List K} (hc : Clamped p l) {x : K} (h0 : 0 ≤ x) (h1 : x ≤ 1) :
    ∃ k, IsSpan l x k ∧ p ≤ k ∧ k + p + 2 ≤ l.length := by
  obtain ⟨k', _, hs, h⟩ := findSpanIndex_spec (kv := ⟨l⟩) hc h0 h1
  exact ⟨k', hs, h⟩

/-- Full sums reduce to the active window. -/
theorem sum_N_window {A : Type} [AddCommGroup A] [Module K A] {p : ℕ} {l : List K} (hc : Clamped p l) {x : K} {k n : ℕ} (hk : IsSpan l x k)
    (hpk : p ≤ k) (hl : k + p + 2 ≤ l.length) (hn : l.length = n + p + 1) (g : ℕ → A) :
    ∑ i ∈ Finset.range n, N (kn l) x p i • g i = seg (kn l) k x p g := by
  have hN : ∀ i < n, N (kn l) x p i = Nl (kn l) k x p i := fun i hi =>
    N_eq_Nl (kn l) x k (l.length - 1) (N_zero_span hc.sorted (fun i hi => hc.le_one hi) hk) p i (by omega)
  rw [sum_window _ n k p hpk (by omega)]
  · unfold seg
    apply Finset.sum_congr rfl
    intro i hi
    have := Finset.mem_range.mp hi
    rw [hN _ (by omega)]
  · intro i hi h
    rw [hN _ hi]
    rcases h with h | h
    · rw [Nl_zero_of_lt _ _ _ _ _ h, zero_smul]
    · rw [Nl_zero_of_gt _ _ _ _ _ h, zero_smul]

theorem proj_seg_eq {p : ℕ} {c : Curve K} (hw : WFCurve p c) {x : K} {k : ℕ} (hk : IsSpan c.Knots.Values x k)
    (hpk : p ≤ k) (hl : k + p + 2 ≤ c.Knots.Values.length) :
    proj (seg (kn c.Knots.Values) k x p (hpts c.ControlPoints)) = nurbsPoint p c x := by
  rw [← sum_N_window hw.clamped hk hpk hl hw.count]
  unfold proj nurbsPoint wsum
  rw [Vec4.sum_x, Vec4.sum_y, Vec4.sum_z, Vec4.sum_w]
  have e : ∀ f : Vec4 K → K, ∀ g : Vec4 K → K, (∀ v, g (ToHomo v) = f v * v.w) → (∀ (a : K) v, g (a • v) = a * g v) →
      ∑ i ∈ Finset.range c.ControlPoints.length, g (N (kn c.Knots.Values) x p i • hpts c.ControlPoints i) =
      ∑ i ∈ Finset.range c.ControlPoints.length,
        N (kn c.Knots.Values) x p i * (pt c.ControlPoints i).w * f (pt c.ControlPoints i) := by
    intro f g hg hs
    apply Finset.sum_congr rfl
    intro i _
    rw [hs, hpts, hg]; ring
  rw [e (·.x) (·.x) (fun _ => rfl) (fun _ _ => rfl), e (·.y) (·.y) (fun _ => rfl) (fun _ _ => rfl),
    e (·.z) (·.z) (fun _ => rfl) (fun _ _ => rfl), e (fun _ => 1) (·.w) (fun v => (one_mul v.w).symm) (fun _ _ => rfl)]

end Nurbs

namespace Nurbs
open Nurbs.Spec

section
variable {K : Type} [Field K] [LinearOrder K] {V W : Type} [AddCommGroup V] [Module K V] [AddCommGroup W] [Module K W]

theorem seg_map (L : V →ₗ[K] W) (U : ℕ → K) (k : ℕ) (x : K) (p : ℕ) (P : ℕ → V) :
    L (seg U k x p P) = seg U k x p (fun i => L (P i)) := by
  simp [seg, map_sum]

theorem seg_const [IsStrictOrderedRing K] (U : ℕ → K) (k : ℕ) (x : K) (p : ℕ) (hp : p ≤ k) (hr : RegSpan U k p) (v : V) :
    seg U k x p (fun _ => v) = v := by
  unfold seg
  rw [← Finset.sum_smul, seg_one U k x p hp hr, one_smul]
end

variable {K : Type} [Field K] [LinearOrder K] [IsStrictOrderedRing K]

theorem seg_nonpos (U : ℕ → K) (k : ℕ) (x : K) (p : ℕ) (hp : p ≤ k)
    (hm : ∀ a b, a ≤ b → b ≤ k + p → U a ≤ U b) (h1 : U k ≤ x) (h2 : x ≤ U (k + 1)) (P : ℕ → K)
    (hP : ∀ i, k ≤ i + p → i ≤ k → P i ≤ 0) : seg U k x p P ≤ 0 := by
  unfold seg
  apply Finset.sum_nonpos
  intro n hn
  have := Finset.mem_range.mp hn
  exact mul_nonpos_of_nonneg_of_nonpos (Nl_nonneg U k x p _ hm h1 h2) (hP _ (by omega) (by omega))

/-- The linear form `a·xyz - b·w`. -/
def planeForm (a : Vec3 K) (b : K) : Vec4 K →ₗ[K] K where
  toFun v := form a v.x v.y v.z - b * v.w
  map_add' u v := by simp [form]; ring
  map_smul' c v := by simp [form]; ring

/-- `R` on the first three coordinates. -/
def matMap (R : Mat3 K) : Vec4 K →ₗ[K] Vec4 K where
  toFun v := Curve.transformPoint R v
  map_add' u v := by ext <;> simp [Curve.transformPoint, Mat3.mulVec, Vec3.dot, Vec4.head3] <;> ring
  map_smul' c v := by ext <;> simp [Curve.transformPoint, Mat3.mulVec, Vec3.dot, Vec4.head3] <;> ring

theorem matMap_toHomo (R : Mat3 K) (v : Vec4 K) : matMap R (ToHomo v) = ToHomo (Curve.transformPoint R v) := by
  ext <;> simp [matMap, ToHomo, Curve.transformPoint, Mat3.mulVec, Vec3.dot, Vec4.head3] <;> ring

theorem proj_matMap (R : Mat3 K) (v : Vec4 K) : proj (matMap R v) = matApply R (proj v) := by
  ext <;> simp [matMap, proj, matApply, Curve.transformPoint, Mat3.mulVec, Vec3.dot, Vec4.head3] <;> ring

theorem pt_map (l : List (Vec4 K)) (f : Vec4 K → Vec4 K) (i : ℕ) (h : i < l.length) : pt (l.map f) i = f (pt l i) := by
  simp [pt, h]

theorem wf_map {p : ℕ} {c : Curve K} (hw : WFCurve p c) (f : Vec4 K → Vec4 K) (hf : ∀ v : Vec4 K, 0 < v.w → 0 < (f v).w) :
    WFCurve p { c with ControlPoints := c.ControlPoints.map f } where
  degree := hw.degree
  clamped := hw.clamped
  count := by simpa using hw.count
  weights := by
    intro i hi
    simp only [List.length_map] at hi
    rw [pt_map _ _ _ hi]
    exact hf _ (hw.weights i hi)

theorem pt_mem (l : List (Vec4 K)) (i : ℕ) (h : i < l.length) : pt l i ∈ l := by
  simp [pt, h]

/-- The value at a `p`-fold window is a control point. -/
theorem seg_eq_point (U : ℕ → K) (k : ℕ) (x : K) (p i : ℕ) {V : Type} [AddCommGroup V] [Module K V] (P : ℕ → V) (hp : p ≤ k)
    (hr : RegSpan U k p) (h1 : k ≤ i + p) (h2 : i ≤ k) (hx : ∀ j, i < j → j ≤ i + p → U j = x) :
    seg U k x p P = P i := by
  rw [seg_eq_blos U k x p P hp, ← blos_win U k p i P hp hr h1 h2]
  congr 1
  apply List.ext_getElem (by simp)
  intro n h3 h4
  simp only [List.getElem_replicate, win, List.getElem_map, List.getElem_range]
  simp only [List.length_replicate] at h3
  rw [hx _ (by omega) (by omega)]

end Nurbs
