import Verif.Proof.RemovalTol
import Verif.Props.Removal
import Mathlib.Analysis.Real.Sqrt

/-! # C87: how far knot removal within a tolerance moves the curve -/

namespace Nurbs.Props
open Nurbs Nurbs.Spec KnotRemovalImpl

set_option linter.unusedSectionVars false

variable {K : Type} [Field K] [LinearOrder K] [IsStrictOrderedRing K]

/-- Squared distance of two points. -/
def sqDist (a b : Vec3 K) : K := (a.x - b.x) ^ 2 + (a.y - b.y) ^ 2 + (a.z - b.z) ^ 2

/-- Squared distance from the origin. -/
def sqLen (a : Vec3 K) : K := a.x ^ 2 + a.y ^ 2 + a.z ^ 2

/-- `D` is at most the largest `w * |P|` of the points (as used by `CalcTOL`); 0 is always possible. -/
def Reach (P : List (Vec4 K)) (D : K) : Prop :=
  0 ≤ D ∧ (D = 0 ∨ ∃ a ∈ P, D ^ 2 ≤ a.w ^ 2 * (a.x ^ 2 + a.y ^ 2 + a.z ^ 2))

theorem calcTOL_le (sqrt : K → K) (pts : List (Vec4 K)) (eps tol : K) (h0 : 0 ≤ eps) (hw : ∀ a ∈ pts, 0 < a.w)
    (h : CalcTOL sqrt pts eps = .ok tol) :
    0 ≤ tol ∧ ∀ a ∈ pts, tol ≤ eps * a.w ∧ ∀ b ∈ pts, tol * (1 + b.head3.norm sqrt) ≤ eps * a.w := by
  unfold CalcTOL at h
  have key : ∀ (l : List (Vec4 K)) (s : K × K), (∀ a ∈ l, 0 < a.w) → 0 < s.1 → 0 ≤ s.2 →
      let q := l.foldl (fun (s : K × K) point => (min s.1 point.w, max s.2 (point.head3.norm sqrt))) s
      0 < q.1 ∧ q.1 ≤ s.1 ∧ s.2 ≤ q.2 ∧ ∀ a ∈ l, q.1 ≤ a.w ∧ a.head3.norm sqrt ≤ q.2 := by
    intro l
    induction l with
    | nil => intro s _ h1 h2; exact ⟨h1, le_rfl, le_rfl, by simp⟩
    | cons a l ih =>
      intro s hl h1 h2
      have := ih (min s.1 a.w, max s.2 (a.head3.norm sqrt)) (fun b hb => hl b (by simp [hb])) (lt_min h1 (hl a (by simp))) (le_max_of_le_left h2)
      simp only at this
      obtain ⟨i1, i2, i3, i4⟩ := this
      simp only [List.foldl_cons]
      refine ⟨i1, i2.trans (min_le_left _ _), (le_max_left _ _).trans i3, ?_⟩
      intro b hb
      rcases List.mem_cons.mp hb with rfl | hb
      · exact ⟨i2.trans (min_le_right _ _), (le_max_right _ _).trans i3⟩
      · exact i4 b hb
  have hk := key pts ((1000000000000 : K), 0) hw (by norm_num) le_rfl
  simp only at hk h
  obtain ⟨k1, k2, k3, k4⟩ := hk
  generalize (pts.foldl (fun (s : K × K) point => (min s.1 point.w, max s.2 (point.head3.norm sqrt))) ((1000000000000 : K), 0)) = q at *
  have hpos : (0 : K) < 1 + q.2 := by linarith
  rw [fdiv_ok hpos.ne'] at h
  obtain rfl := Except.ok.inj h
  have ht : 0 ≤ eps * q.1 / (1 + q.2) := div_nonneg (mul_nonneg h0 k1.le) hpos.le
  refine ⟨ht, fun a ha => ?_⟩
  have e1 : eps * q.1 / (1 + q.2) * (1 + q.2) = eps * q.1 := div_mul_cancel₀ _ hpos.ne'
  have e2 : eps * q.1 ≤ eps * a.w := mul_le_mul_of_nonneg_left (k4 a ha).1 h0
  refine ⟨?_, fun b hb => ?_⟩
  · have : eps * q.1 / (1 + q.2) * 1 ≤ eps * q.1 / (1 + q.2) * (1 + q.2) := mul_le_mul_of_nonneg_left (by linarith) ht
    linarith
  · have : eps * q.1 / (1 + q.2) * (1 + b.head3.norm sqrt) ≤ eps * q.1 / (1 + q.2) * (1 + q.2) :=
      mul_le_mul_of_nonneg_left (by linarith [(k4 b hb).2]) ht
    linarith

/-- Homogeneous form: every linear form of the homogeneous curve changes by at most `times * δ`, where `δ` bounds the
form on vectors of length at most the internal tolerance. -/
theorem removeKnot_tol {p : ℕ} {c : Curve K} (hw : WFCurve p c) {u : K} (h0 : 0 < u) (h1 : u < 1)
    (hsep : Separated c.Knots.Values u) (hmul : c.Knots.Values.count u ≤ p) {sqrt : K → K} {eps : K} (he : 0 ≤ eps)
    {times : ℕ} (htm : times ≤ c.Knots.Values.count u) {c' : Curve K} (h : c.RemoveKnot sqrt u times eps = .ok (c', (times : Int))) :
    c'.Degree = c.Degree ∧ c.Knots.Values.Perm (List.replicate times u ++ c'.Knots.Values) ∧
      c'.ControlPoints.length + times = c.ControlPoints.length ∧ Clamped p c'.Knots.Values ∧
      ∃ tol, CalcTOL sqrt (c.ControlPoints.map ToHomo) eps = .ok tol ∧
      ∀ x, 0 ≤ x → x ≤ 1 → ∀ a b, IsSpan c.Knots.Values x a → IsSpan c'.Knots.Values x b →
        ∀ (L : Vec4 K →ₗ[K] K) (δ : K), (∀ D : Vec4 K, D.norm sqrt ≤ tol → ((∀ a ∈ c.ControlPoints, a.w = 1) → D.w = 0) → |L D| ≤ δ) →
        |L (seg (kn c'.Knots.Values) b x p (hpts c'.ControlPoints)) - L (seg (kn c.Knots.Values) a x p (hpts c.ControlPoints))| ≤ times * δ := by
  obtain ⟨⟨U⟩, hU⟩ : ∃ U, c.Knots = U := ⟨_, rfl⟩
  have hcnt := hw.count
  have hcl := hw.clamped
  rw [hU] at hsep hmul htm hcnt hcl ⊢
  simp only at hsep hmul htm hcnt hcl ⊢
  unfold Curve.RemoveKnot at h
  obtain ⟨_, _, h⟩ := bind_eq_ok.mp h
  obtain ⟨_, hpos, h⟩ := bind_eq_ok.mp h
  have hpos := massert_eq_ok.mp hpos
  obtain ⟨⟨kv', P', t'⟩, hk, h⟩ := bind_eq_ok.mp h
  obtain ⟨rfl, rfl⟩ := Prod.mk.inj (Except.ok.inj h)
  simp only
  rw [hU, hw.degree] at hk
  obtain ⟨r, hr, hr1, _⟩ := findSpanIndex_spec (kv := ⟨U⟩) hcl h0.le h1.le
  obtain ⟨s, hs⟩ : ∃ s, U.count u = s := ⟨_, rfl⟩
  rw [hs] at hmul htm
  have H : RemCtx U u p s r c.ControlPoints.length := remCtx_of hcl h0 h1 hr1 hcnt hs (by omega) (by omega)
  have hms : (⟨U⟩ : KnotVector K).GetMultiplicity u = s := by
    rw [(C12_getMultiplicity ⟨U⟩ u).2 hsep, hs]
  have hpr := H.pr
  have hrn := H.rn
  obtain ⟨tol, htol, _, _⟩ := calcTOL_ok sqrt (c.ControlPoints.map ToHomo) eps he (by
    intro a ha
    obtain ⟨b, hb, rfl⟩ := List.mem_map.mp ha
    obtain ⟨i, hi, rfl⟩ := List.getElem_of_mem hb
    have := hw.weights i hi
    simpa [pt, hi] using this)
  obtain ⟨m, rfl⟩ : ∃ m, times = m + 1 := ⟨times - 1, by omega⟩
  -- the loop
  have hloop : ∃ g F, removalLoop sqrt U u tol ((p : Int) + 1) (m + 1) (0 : ℕ) ((r : Int) - p - (0 : ℕ)) ((r : Int) - s + (0 : ℕ))
      (tab c.ControlPoints.length (hpts c.ControlPoints)) (tab (2 * p + 1) fun _ => 0) = .ok (((m + 1 : ℕ) : Int), tab c.ControlPoints.length g) ∧
      ApxChain (kn U) u p s r (fun D => D.norm sqrt ≤ tol ∧ ((∀ a ∈ c.ControlPoints, a.w = 1) → D.w = 0)) (hpts c.ControlPoints) (m + 1) F ∧
      ∀ y < c.ControlPoints.length - (m + 1), (if y < (2 * r - s - p) / 2 - ((m + 1) - 1) / 2 then g y else
          if y < c.ControlPoints.length - (m + 1) then g (y + (m + 1)) else g y) = F y := by
    have ep : c.ControlPoints.map ToHomo = tab c.ControlPoints.length (hpts c.ControlPoints) := by
      conv_lhs => rw [eq_tab_pt c.ControlPoints]
      rw [tab_map]; rfl
    have hk2 := hk
    unfold KnotRemoval at hk2
    simp only at hk2
    rw [hr, bind_ok, htol, bind_ok, vnew_of _ (2 * p + 1) _ (by push_cast; rfl), bind_ok, hms, ep, replicate_eq_tab, Int.toNat_natCast] at hk2
    obtain ⟨⟨t1, pts⟩, hl, hk2⟩ := bind_eq_ok.mp hk2
    have ht1 : t1 = ((m + 1 : ℕ) : Int) := by
      simp only at hk2
      split_ifs at hk2 with h0
      · have := (Prod.mk.inj (Prod.mk.inj (Except.ok.inj hk2)).2).2; omega
      · obtain ⟨_, _, hk2⟩ := bind_eq_ok.mp hk2
        obtain ⟨_, _, hk2⟩ := bind_eq_ok.mp hk2
        obtain ⟨_, _, hk2⟩ := bind_eq_ok.mp hk2
        obtain ⟨_, _, hk2⟩ := bind_eq_ok.mp hk2
        obtain ⟨_, _, hk2⟩ := bind_eq_ok.mp hk2
        obtain ⟨_, _, hk2⟩ := bind_eq_ok.mp hk2
        exact (Prod.mk.inj (Prod.mk.inj (Except.ok.inj hk2)).2).2
    have hl' : removalLoop sqrt U u tol ((p : Int) + 1) (m + 1) (0 : ℕ) ((r : Int) - p - (0 : ℕ)) ((r : Int) - s + (0 : ℕ))
      (tab c.ControlPoints.length (hpts c.ControlPoints)) (tab (2 * p + 1) fun _ => 0) = .ok (((0 + (m + 1) : ℕ) : Int), pts) := by
      rw [zero_add, ← ht1]
      simpa only [Nat.cast_zero, sub_zero, add_zero] using hl
    obtain ⟨g, F, rfl, h4, h5⟩ := loop_tol H sqrt tol hmul (∀ a ∈ c.ControlPoints, a.w = 1) (hpts c.ControlPoints) m 0 _ _ _ (by omega) ApxChain.zero
      (layT_zero p s r _) (by
        intro hq i hi
        have := hq _ (List.getElem_mem hi)
        simpa [hpts, pt, hi] using this) pts hl'
    rw [zero_add] at hl' h4 h5
    exact ⟨g, F, hl', h4, h5⟩
  obtain ⟨g, F, hl, hch, hlay⟩ := hloop
  rw [knotRemoval_some H sqrt c.ControlPoints rfl eps tol (m + 1) (m + 1) (by omega) le_rfl htm hms hr htol g hl,
    tab_congr hlay] at hk
  obtain ⟨q, hq, hk⟩ := bind_eq_ok.mp hk
  obtain ⟨rfl, h'⟩ := Prod.mk.inj (Except.ok.inj hk)
  obtain ⟨rfl, _⟩ := Prod.mk.inj h'
  obtain ⟨hq1, hq2⟩ := mapM_fromHomo hq
  rw [tab_map] at hq1
  subst hq1
  refine ⟨trivial, ?_, ?_, remL_clamped H hcl htm, tol, htol, ?_⟩
  · have key : ∀ t, t ≤ m + 1 → U.Perm (List.replicate t u ++ remL U r t) := by
      intro t
      induction t with
      | zero => intro _; rw [remL_zero]; exact List.Perm.refl _
      | succ t ih =>
        intro ht
        refine (ih (by omega)).trans ?_
        rw [← insL_remL H (show t < s by omega), List.replicate_succ', List.append_assoc]
        exact (insL_perm _ _ _).append_left _
    exact key (m + 1) le_rfl
  · rw [tab_length]; omega
  · intro x hx0 hx1 a b ha hb L δ hδ
    have hcl' := remL_clamped H hcl htm
    obtain ⟨b', hb', hpb, hlb⟩ := exists_span hcl' hx0 hx1
    obtain rfl : b = b' := isSpan_unique hcl'.sorted hb hb' (fun i hi => hcl'.le_one hi)
    have := apx_seg H hcl h0 h1 (by omega) L (δ := δ) (fun D hD => hδ D hD.1 hD.2) hch htm x hx0 hx1 a b ha hb
    rw [show seg (kn (remL U r (m + 1))) b x p F = seg (kn (remL U r (m + 1))) b x p
        (hpts (tab (c.ControlPoints.length - (m + 1)) fun i => unhomo (F i))) from ?_] at this
    · exact this
    · apply seg_congr hpb
      intro i hi1 hi2
      rw [remL_length] at hlb
      unfold hpts
      rw [pt_tab _ _ _ (by omega)]
      exact (toHomo_unhomo (hq2 _ (by unfold tab; exact List.mem_map.mpr ⟨i, List.mem_range.mpr (by omega), rfl⟩))).symm

/-- Cauchy-Schwarz for four coordinates. -/
theorem cauchy4 (a1 a2 a3 a4 b1 b2 b3 b4 : K) :
    (a1 * b1 + a2 * b2 + a3 * b3 + a4 * b4) ^ 2 ≤ (a1 ^ 2 + a2 ^ 2 + a3 ^ 2 + a4 ^ 2) * (b1 ^ 2 + b2 ^ 2 + b3 ^ 2 + b4 ^ 2) := by
  have h := add_nonneg (add_nonneg (add_nonneg (sq_nonneg (a1 * b2 - a2 * b1)) (sq_nonneg (a1 * b3 - a3 * b1))) (sq_nonneg (a1 * b4 - a4 * b1)))
    (add_nonneg (add_nonneg (sq_nonneg (a2 * b3 - a3 * b2)) (sq_nonneg (a2 * b4 - a4 * b2))) (sq_nonneg (a3 * b4 - a4 * b3)))
  linarith [show (a1 ^ 2 + a2 ^ 2 + a3 ^ 2 + a4 ^ 2) * (b1 ^ 2 + b2 ^ 2 + b3 ^ 2 + b4 ^ 2) - (a1 * b1 + a2 * b2 + a3 * b3 + a4 * b4) ^ 2 =
    ((a1 * b2 - a2 * b1) ^ 2 + (a1 * b3 - a3 * b1) ^ 2 + (a1 * b4 - a4 * b1) ^ 2) +
      ((a2 * b3 - a3 * b2) ^ 2 + (a2 * b4 - a4 * b2) ^ 2 + (a3 * b4 - a4 * b3) ^ 2) by ring]

theorem form_abs {sqrt : K → K} (hsq : ∀ x, 0 ≤ x → 0 ≤ sqrt x ∧ sqrt x * sqrt x = x) {D : Vec4 K} {tol : K} (hD : D.norm sqrt ≤ tol)
    (a1 a2 a3 a4 : K) {B : K} (hB0 : 0 ≤ B) (hB : a1 ^ 2 + a2 ^ 2 + a3 ^ 2 + a4 ^ 2 ≤ B ^ 2) :
    |a1 * D.x + a2 * D.y + a3 * D.z + a4 * D.w| ≤ tol * B := by
  obtain ⟨s1, s2⟩ := hsq (D.x * D.x + D.y * D.y + D.z * D.z + D.w * D.w) (by
    have := mul_self_nonneg D.x; have := mul_self_nonneg D.y; have := mul_self_nonneg D.z; have := mul_self_nonneg D.w; linarith)
  change 0 ≤ D.norm sqrt at s1
  change D.norm sqrt * D.norm sqrt = _ at s2
  have ht : 0 ≤ tol := s1.trans hD
  apply abs_le_of_sq_le_sq _ (mul_nonneg ht hB0)
  have h1 : D.x ^ 2 + D.y ^ 2 + D.z ^ 2 + D.w ^ 2 ≤ tol ^ 2 := by
    have : D.norm sqrt * D.norm sqrt ≤ tol * tol := mul_le_mul hD hD s1 ht
    nlinarith
  calc (a1 * D.x + a2 * D.y + a3 * D.z + a4 * D.w) ^ 2
      ≤ (a1 ^ 2 + a2 ^ 2 + a3 ^ 2 + a4 ^ 2) * (D.x ^ 2 + D.y ^ 2 + D.z ^ 2 + D.w ^ 2) := cauchy4 _ _ _ _ _ _ _ _
    _ ≤ B ^ 2 * tol ^ 2 := mul_le_mul hB h1 (by positivity) (by positivity)
    _ = (tol * B) ^ 2 := by ring

theorem planeForm_apply (a : Vec3 K) (b : K) (v : Vec4 K) : planeForm a b v = a.x * v.x + a.y * v.y + a.z * v.z + (-b) * v.w := by
  change form a v.x v.y v.z - b * v.w = _
  simp [form]; ring

theorem sqDist_nonneg (a b : Vec3 K) : 0 ≤ sqDist a b := by unfold sqDist; positivity

theorem tol_reach {sqrt : K → K} (hsq : ∀ x, 0 ≤ x → 0 ≤ sqrt x ∧ sqrt x * sqrt x = x) {P : List (Vec4 K)} (hw : ∀ a ∈ P, 0 < a.w)
    {eps tol : K} (he : 0 ≤ eps) (h : CalcTOL sqrt (P.map ToHomo) eps = .ok tol) {D : K} (hD : Reach P D) :
    0 ≤ tol ∧ ∀ a ∈ P, tol * (1 + D) ≤ eps * a.w := by
  obtain ⟨t0, ht⟩ := calcTOL_le sqrt (P.map ToHomo) eps tol he (by
    intro a ha
    obtain ⟨b, hb, rfl⟩ := List.mem_map.mp ha
    exact hw b hb) h
  refine ⟨t0, fun a ha => ?_⟩
  obtain ⟨k1, k2⟩ := ht (ToHomo a) (List.mem_map_of_mem ha)
  change tol ≤ eps * a.w at k1
  obtain ⟨d0, hd⟩ := hD
  rcases hd with rfl | ⟨b, hb, hd⟩
  · simpa using k1
  · have := k2 (ToHomo b) (List.mem_map_of_mem hb)
    change _ ≤ eps * a.w at this
    have hnn : 0 ≤ (ToHomo b).head3.dot (ToHomo b).head3 := by
      have n1 := mul_self_nonneg (ToHomo b).head3.x
      have n2 := mul_self_nonneg (ToHomo b).head3.y
      have n3 := mul_self_nonneg (ToHomo b).head3.z
      unfold Vec3.dot
      linarith
    obtain ⟨s1, s2⟩ := hsq _ hnn
    change 0 ≤ (ToHomo b).head3.norm sqrt at s1
    change (ToHomo b).head3.norm sqrt * (ToHomo b).head3.norm sqrt = _ at s2
    have hle : D ≤ (ToHomo b).head3.norm sqrt := by
      apply le_of_sq_le_sq _ s1
      refine hd.trans (le_of_eq ?_)
      rw [sq ((ToHomo b).head3.norm sqrt), s2]
      simp [ToHomo, Vec4.head3, Vec3.dot]; ring
    have := mul_le_mul_of_nonneg_left (show 1 + D ≤ 1 + (ToHomo b).head3.norm sqrt by linarith) t0
    linarith

theorem seg_w_ge (U : ℕ → K) (k : ℕ) (x : K) (p : ℕ) (hp : p ≤ k) (hr : RegSpan U k p)
    (hm : ∀ a b, a ≤ b → b ≤ k + p → U a ≤ U b) (h1 : U k ≤ x) (h2 : x ≤ U (k + 1)) (P : ℕ → Vec4 K) (m : K)
    (hP : ∀ i, k ≤ i + p → i ≤ k → m ≤ (P i).w) : m ≤ (seg U k x p P).w := by
  unfold seg
  rw [Vec4.sum_w]
  have e : ∑ n ∈ Finset.range (p + 1), Nl U k x p (k - p + n) * m = m := by rw [← Finset.sum_mul, seg_one U k x p hp hr, one_mul]
  conv_lhs => rw [← e]
  apply Finset.sum_le_sum
  intro n hn
  have := Finset.mem_range.mp hn
  exact mul_le_mul_of_nonneg_left (hP _ (by omega) (by omega)) (Nl_nonneg U k x p _ hm h1 h2)

/-- The distance in terms of the weights: `w'` and `w` are the values of the denominators. -/
theorem dist_of_forms {sqrt : K → K} (hsq : ∀ x, 0 ≤ x → 0 ≤ sqrt x ∧ sqrt x * sqrt x = x) {A A' : Vec4 K} (hA : A.w ≠ 0) (hA' : 0 < A'.w)
    {T tol q : K} (hq : 0 ≤ q) (hL : ∀ (a : Vec3 K) (B : K), 0 ≤ B →
      a.x ^ 2 + a.y ^ 2 + a.z ^ 2 + q * form a (proj A).x (proj A).y (proj A).z ^ 2 ≤ B ^ 2 →
      |planeForm a (form a (proj A).x (proj A).y (proj A).z) A' - planeForm a (form a (proj A).x (proj A).y (proj A).z) A| ≤ T * (tol * B)) :
    A'.w ^ 2 * sqDist (proj A') (proj A) ≤ (T * tol) ^ 2 * (1 + q * sqLen (proj A)) := by
  obtain ⟨C, hC⟩ : ∃ C, proj A = C := ⟨_, rfl⟩
  obtain ⟨C', hC'⟩ : ∃ C', proj A' = C' := ⟨_, rfl⟩
  rw [hC] at hL ⊢
  rw [hC']
  have x1 : C.x * A.w = A.x := by rw [← hC]; exact div_mul_cancel₀ _ hA
  have x2 : C.y * A.w = A.y := by rw [← hC]; exact div_mul_cancel₀ _ hA
  have x3 : C.z * A.w = A.z := by rw [← hC]; exact div_mul_cancel₀ _ hA
  have y1 : C'.x * A'.w = A'.x := by rw [← hC']; exact div_mul_cancel₀ _ hA'.ne'
  have y2 : C'.y * A'.w = A'.y := by rw [← hC']; exact div_mul_cancel₀ _ hA'.ne'
  have y3 : C'.z * A'.w = A'.z := by rw [← hC']; exact div_mul_cancel₀ _ hA'.ne'
  have dn := sqDist_nonneg C' C
  have ln : 0 ≤ sqLen C := by unfold sqLen; positivity
  obtain ⟨b0, b1⟩ := hsq (sqDist C' C * (1 + q * sqLen C)) (mul_nonneg dn (by have := mul_nonneg hq ln; linarith))
  have h := hL ⟨C'.x - C.x, C'.y - C.y, C'.z - C.z⟩ _ b0 (by
    rw [sq (sqrt _), b1]
    simp only [form]
    have hcs := cauchy4 (C'.x - C.x) (C'.y - C.y) (C'.z - C.z) 0 C.x C.y C.z 0
    have := mul_le_mul_of_nonneg_left hcs hq
    unfold sqDist sqLen
    linarith)
  rw [planeForm_apply, planeForm_apply] at h
  have e : (C'.x - C.x) * A'.x + (C'.y - C.y) * A'.y + (C'.z - C.z) * A'.z + -((C'.x - C.x) * C.x + (C'.y - C.y) * C.y + (C'.z - C.z) * C.z) * A'.w -
      ((C'.x - C.x) * A.x + (C'.y - C.y) * A.y + (C'.z - C.z) * A.z + -((C'.x - C.x) * C.x + (C'.y - C.y) * C.y + (C'.z - C.z) * C.z) * A.w) =
      A'.w * sqDist C' C := by
    rw [← x1, ← x2, ← x3, ← y1, ← y2, ← y3]
    unfold sqDist
    ring
  simp only [form] at h
  rw [e, abs_of_nonneg (mul_nonneg hA'.le dn)] at h
  generalize sqrt (sqDist C' C * (1 + q * sqLen C)) = B at *
  have h2 : (A'.w * sqDist C' C) ^ 2 ≤ (T * (tol * B)) ^ 2 := by
    apply pow_le_pow_left₀ (mul_nonneg hA'.le dn) h
  rcases dn.eq_or_lt with hz | hz
  · rw [← hz, mul_zero]
    exact mul_nonneg (sq_nonneg _) (by have := mul_nonneg hq ln; linarith)
  · refine le_of_mul_le_mul_right ?_ hz
    calc A'.w ^ 2 * sqDist C' C * sqDist C' C = (A'.w * sqDist C' C) ^ 2 := by ring
      _ ≤ (T * (tol * B)) ^ 2 := h2
      _ = (T * tol) ^ 2 * (B * B) := by ring
      _ = (T * tol) ^ 2 * (1 + q * sqLen C) * sqDist C' C := by rw [b1]; ring

theorem exists_min_weight : ∀ (l : List (Vec4 K)), l ≠ [] → ∃ a ∈ l, ∀ b ∈ l, a.w ≤ b.w := by
  intro l
  induction l with
  | nil => intro h; exact absurd rfl h
  | cons a l ih =>
    intro _
    by_cases hl : l = []
    · subst hl; exact ⟨a, by simp, by simp⟩
    · obtain ⟨m, hm, hmin⟩ := ih hl
      rcases le_total a.w m.w with h | h
      · exact ⟨a, by simp, fun b hb => by rcases List.mem_cons.mp hb with rfl | hb; exacts [le_rfl, h.trans (hmin b hb)]⟩
      · exact ⟨m, by simp [hm], fun b hb => by rcases List.mem_cons.mp hb with rfl | hb; exacts [h, hmin b hb]⟩

/-- C87, what holds for rational curves.  If all `times` removals of a knot of multiplicity at most the degree succeed
with the tolerance `eps`, then at every parameter the distance `d` between the old point `C` and the new one satisfies
`d ≤ times * eps * sqrt(1 + |C|²) / (1 + D - times * eps)`, where `D` is the largest weight times distance from the
origin of a control point (or any smaller number). -/
theorem C87_deviation_partial {p : ℕ} {c : Curve K} (hw : WFCurve p c) {u : K} (h0 : 0 < u) (h1 : u < 1)
    (hsep : Separated c.Knots.Values u) (hmul : c.Knots.Values.count u ≤ p)
    {sqrt : K → K} (hsq : ∀ x, 0 ≤ x → 0 ≤ sqrt x ∧ sqrt x * sqrt x = x) {eps : K} (he : 0 ≤ eps)
    {times : ℕ} (htm : times ≤ c.Knots.Values.count u) {c' : Curve K} (h : c.RemoveKnot sqrt u times eps = .ok (c', (times : Int)))
    {D : K} (hD : Reach c.ControlPoints D) (hsmall : times * eps < 1 + D) :
    c.Knots.Values.Perm (List.replicate times u ++ c'.Knots.Values) ∧ c'.ControlPoints.length + times = c.ControlPoints.length ∧
      ∀ x, 0 ≤ x → x ≤ 1 → ∃ C C', c.Evaluate x = .ok C ∧ c'.Evaluate x = .ok C' ∧
        (1 + D - times * eps) ^ 2 * sqDist C' C ≤ (times * eps) ^ 2 * (1 + sqLen C) := by
  obtain ⟨hd, hperm, hlen, hcl, tol, htol, hseg⟩ := removeKnot_tol hw h0 h1 hsep hmul he htm h
  refine ⟨hperm, hlen, ?_⟩
  intro x hx0 hx1
  obtain ⟨a, ha, _, _⟩ := exists_span hw.clamped hx0 hx1
  obtain ⟨b, hb, _, _⟩ := exists_span hcl hx0 hx1
  obtain ⟨hpa, hla, hreg, hpos, A⟩ := evaluate_seg hw hx0 hx1 ha
  have hl := hperm.length_eq
  have hcnt := hw.count
  rw [List.length_append, List.length_replicate] at hl
  obtain ⟨_, _, _, B⟩ := evaluate_at_span (c := c') (hd.trans hw.degree) hcl (by omega) hx0 hx1 hb
  have hwt : ∀ a ∈ c.ControlPoints, 0 < a.w := by
    intro a ha
    obtain ⟨i, hi, rfl⟩ := List.getElem_of_mem ha
    have := hw.weights i hi
    simpa [pt, hi] using this
  obtain ⟨m, hm, hmin⟩ := exists_min_weight c.ControlPoints (by intro e; rw [e] at hcnt; simp at hcnt; omega)
  obtain ⟨t0, htr⟩ := tol_reach hsq hwt he htol hD
  have htm' := htr m hm
  have hwm := hwt m hm
  have hge := seg_w_ge (kn c.Knots.Values) a x p hpa hreg (fun a b hab hb => kn_mono hw.clamped.sorted hab (by omega)) ha.2.1
    (IsSpan.le_right ha) (hpts c.ControlPoints) m.w (fun i _ hi => by
      have hi' : i < c.ControlPoints.length := by omega
      have := hmin _ (List.getElem_mem hi')
      simpa [hpts, pt, hi'] using this)
  have hsx := hseg x hx0 hx1 a b ha hb
  generalize seg (kn c'.Knots.Values) b x p (hpts c'.ControlPoints) = A' at *
  generalize seg (kn c.Knots.Values) a x p (hpts c.ControlPoints) = A0 at *
  have hT : (0 : K) ≤ times := Nat.cast_nonneg _
  have hD0 := hD.1
  have hdw := hsx Vec4.lw tol (fun D hD _ => by
    have := form_abs hsq hD 0 0 0 1 (B := 1) (by norm_num) (by norm_num)
    change |D.w| ≤ tol
    simpa using this)
  change |A'.w - A0.w| ≤ _ at hdw
  have hdw' := (abs_le.mp hdw).1
  have hT2 : times * (tol * (1 + D)) ≤ times * (eps * m.w) := mul_le_mul_of_nonneg_left htm' hT
  have hw1 : m.w * (1 + D - times * eps) ≤ A'.w * (1 + D) := by
    have : (m.w - times * tol) * (1 + D) ≤ A'.w * (1 + D) := mul_le_mul_of_nonneg_right (by linarith) (by linarith)
    nlinarith
  have hq : 0 < 1 + D - times * eps := by linarith
  have hA' : 0 < A'.w := by
    have : 0 < A'.w * (1 + D) := lt_of_lt_of_le (mul_pos hwm hq) hw1
    exact (pos_iff_pos_of_mul_pos this).mpr (by linarith)
  refine ⟨_, _, A, by rw [B, projectM_ok hA'.ne'], ?_⟩
  have key := dist_of_forms hsq hpos.ne' hA' (T := times) (tol := tol) (q := 1) zero_le_one (by
    intro v B hB hvB
    refine hsx _ _ fun D hD _ => ?_
    rw [planeForm_apply]
    exact form_abs hsq hD _ _ _ _ hB (by rw [neg_sq]; linarith))
  rw [one_mul] at key
  have dn := sqDist_nonneg (proj A') (proj A0)
  have ln : 0 ≤ 1 + sqLen (proj A0) := by unfold sqLen; positivity
  generalize sqDist (proj A') (proj A0) = d at *
  generalize 1 + sqLen (proj A0) = l at *
  have hw2 : (m.w * (1 + D - times * eps)) ^ 2 ≤ (A'.w * (1 + D)) ^ 2 := pow_le_pow_left₀ (mul_nonneg hwm.le hq.le) hw1 2
  have hT3 : (times * (tol * (1 + D))) ^ 2 ≤ (times * (eps * m.w)) ^ 2 :=
    pow_le_pow_left₀ (mul_nonneg hT (mul_nonneg t0 (by linarith))) hT2 2
  refine le_of_mul_le_mul_left ?_ (show 0 < m.w ^ 2 by positivity)
  calc m.w ^ 2 * ((1 + D - times * eps) ^ 2 * d) = (m.w * (1 + D - times * eps)) ^ 2 * d := by ring
    _ ≤ (A'.w * (1 + D)) ^ 2 * d := mul_le_mul_of_nonneg_right hw2 dn
    _ = (1 + D) ^ 2 * (A'.w ^ 2 * d) := by ring
    _ ≤ (1 + D) ^ 2 * ((times * tol) ^ 2 * l) := mul_le_mul_of_nonneg_left key (sq_nonneg _)
    _ = (times * (tol * (1 + D))) ^ 2 * l := by ring
    _ ≤ (times * (eps * m.w)) ^ 2 * l := mul_le_mul_of_nonneg_right hT3 ln
    _ = m.w ^ 2 * ((times * eps) ^ 2 * l) := by ring

/-- C87 for polynomial curves: if all weights are 1 the curve moves by at most `times * eps / (1 + D)`, in particular by
at most `times * eps`. -/
theorem C87_polynomial {p : ℕ} {c : Curve K} (hw : WFCurve p c) (hone : ∀ a ∈ c.ControlPoints, a.w = 1) {u : K} (h0 : 0 < u) (h1 : u < 1)
    (hsep : Separated c.Knots.Values u) (hmul : c.Knots.Values.count u ≤ p)
    {sqrt : K → K} (hsq : ∀ x, 0 ≤ x → 0 ≤ sqrt x ∧ sqrt x * sqrt x = x) {eps : K} (he : 0 ≤ eps)
    {times : ℕ} (htm : times ≤ c.Knots.Values.count u) {c' : Curve K} (h : c.RemoveKnot sqrt u times eps = .ok (c', (times : Int)))
    {D : K} (hD : Reach c.ControlPoints D) :
    c.Knots.Values.Perm (List.replicate times u ++ c'.Knots.Values) ∧ c'.ControlPoints.length + times = c.ControlPoints.length ∧
      ∀ x, 0 ≤ x → x ≤ 1 → ∃ C C', c.Evaluate x = .ok C ∧ c'.Evaluate x = .ok C' ∧
        (1 + D) ^ 2 * sqDist C' C ≤ (times * eps) ^ 2 := by
  obtain ⟨hd, hperm, hlen, hcl, tol, htol, hseg⟩ := removeKnot_tol hw h0 h1 hsep hmul he htm h
  refine ⟨hperm, hlen, ?_⟩
  intro x hx0 hx1
  obtain ⟨a, ha, _, _⟩ := exists_span hw.clamped hx0 hx1
  obtain ⟨b, hb, _, _⟩ := exists_span hcl hx0 hx1
  obtain ⟨hpa, hla, hreg, hpos, A⟩ := evaluate_seg hw hx0 hx1 ha
  have hl := hperm.length_eq
  have hcnt := hw.count
  rw [List.length_append, List.length_replicate] at hl
  obtain ⟨_, _, _, B⟩ := evaluate_at_span (c := c') (hd.trans hw.degree) hcl (by omega) hx0 hx1 hb
  obtain ⟨t0, htr⟩ := tol_reach hsq (fun a ha => by rw [hone a ha]; exact one_pos) he htol hD
  obtain ⟨m, hm, _⟩ := exists_min_weight c.ControlPoints (by intro e; rw [e] at hcnt; simp at hcnt; omega)
  have htm' := htr m hm
  rw [hone m hm, mul_one] at htm'
  have hge := seg_w_ge (kn c.Knots.Values) a x p hpa hreg (fun a b hab hb => kn_mono hw.clamped.sorted hab (by omega)) ha.2.1
    (IsSpan.le_right ha) (hpts c.ControlPoints) 1 (fun i _ hi => by
      have hi' : i < c.ControlPoints.length := by omega
      have := hone _ (List.getElem_mem hi')
      simp [hpts, pt, hi', this])
  have hsx := hseg x hx0 hx1 a b ha hb
  generalize seg (kn c'.Knots.Values) b x p (hpts c'.ControlPoints) = A' at *
  generalize seg (kn c.Knots.Values) a x p (hpts c.ControlPoints) = A0 at *
  have hT : (0 : K) ≤ times := Nat.cast_nonneg _
  have hD0 := hD.1
  have hdw := hsx Vec4.lw 0 (fun D _ hD => by
    change |D.w| ≤ 0
    rw [hD hone, abs_zero])
  change |A'.w - A0.w| ≤ _ at hdw
  rw [mul_zero] at hdw
  have hdw' := (abs_le.mp hdw).1
  have hA' : 1 ≤ A'.w := by linarith
  refine ⟨_, _, A, by rw [B, projectM_ok (by linarith)], ?_⟩
  have key := dist_of_forms hsq hpos.ne' (by linarith) (T := times) (tol := tol) (q := 0) le_rfl (by
    intro v B hB hvB
    refine hsx _ _ fun D hD hD2 => ?_
    rw [planeForm_apply, hD2 hone, mul_zero, add_zero]
    have := form_abs hsq hD v.x v.y v.z 0 hB (by linarith)
    rwa [zero_mul, add_zero] at this)
  rw [zero_mul, add_zero, mul_one] at key
  have dn := sqDist_nonneg (proj A') (proj A0)
  generalize sqDist (proj A') (proj A0) = d at *
  have h3 : d ≤ (times * tol) ^ 2 := by
    have : 1 * d ≤ A'.w ^ 2 * d := mul_le_mul_of_nonneg_right (by nlinarith) dn
    linarith
  calc (1 + D) ^ 2 * d ≤ (1 + D) ^ 2 * (times * tol) ^ 2 := mul_le_mul_of_nonneg_left h3 (sq_nonneg _)
    _ = (times * (tol * (1 + D))) ^ 2 := by ring
    _ ≤ (times * eps) ^ 2 := pow_le_pow_left₀ (mul_nonneg hT (mul_nonneg t0 (by linarith))) (mul_le_mul_of_nonneg_left htm' hT) 2

/-! ### rational curves -/

/-- Two straight pieces that meet at parameter 1/2. -/
def exTwoLines (a b c : Vec4 K) : Curve K := ⟨1, ⟨[0, 0, 1/2, 1, 1]⟩, [a, b, c]⟩

section twoLines
variable {a b c : Vec4 K} (ha : 0 < a.w) (hb : 0 < b.w) (hc : 0 < c.w)

include ha hb hc in
theorem exTwoLines_wf : WFCurve 1 (exTwoLines a b c) := by
  refine ⟨rfl, ⟨by simp [exTwoLines], ?_, ?_, ?_, ?_, ?_⟩, rfl, ?_⟩
  · simp only [exTwoLines, List.pairwise_cons, List.mem_cons, List.not_mem_nil, or_false, forall_eq_or_imp, forall_eq]
    norm_num
  · intro i hi; interval_cases i <;> simp [exTwoLines, kn]
  · intro i h1 h2; simp [exTwoLines] at h1 h2; interval_cases i <;> simp [exTwoLines, kn]
  · simp [exTwoLines, kn]
  · simp [exTwoLines, kn]; norm_num
  · intro i hi; simp [exTwoLines] at hi; interval_cases i <;> simp [exTwoLines, pt] <;> assumption

theorem exTwoLines_span : IsSpan (exTwoLines a b c).Knots.Values (1/2) 2 := by
  refine ⟨by simp [exTwoLines], by simp [exTwoLines, kn], Or.inl ?_⟩
  simp [exTwoLines, kn]; norm_num

theorem exTwoLines_count : (exTwoLines a b c).Knots.Values.count (1/2) = 1 := by
  have n0 : (0 : K) ≠ 1/2 := by norm_num
  have n1 : (1 : K) ≠ 1/2 := by norm_num
  simp only [exTwoLines]
  rw [List.count_cons_of_ne n0, List.count_cons_of_ne n0, List.count_cons_self, List.count_cons_of_ne n1, List.count_cons_of_ne n1, List.count_nil]

theorem exTwoLines_sep : Separated (exTwoLines a b c).Knots.Values (1/2) := by
  intro v hv hne
  simp only [exTwoLines, List.mem_cons, List.not_mem_nil, or_false] at hv
  rcases hv with rfl | rfl | rfl | rfl | rfl
  · rw [abs_of_nonpos (by norm_num)]; norm_num
  · rw [abs_of_nonpos (by norm_num)]; norm_num
  · exact absurd rfl hne
  · rw [abs_of_nonneg (by norm_num)]; norm_num
  · rw [abs_of_nonneg (by norm_num)]; norm_num

include ha hb hc in
/-- The knot is removed if the homogeneous middle point is within the internal tolerance of the middle of the others. -/
theorem exTwoLines_removed {sqrt : K → K} {eps tol : K} (htol : CalcTOL sqrt ([a, b, c].map ToHomo) eps = .ok tol)
    (hd : ((1/2 : K) • ToHomo c + (1/2 : K) • ToHomo a - ToHomo b).norm sqrt ≤ tol) :
    (exTwoLines a b c).RemoveKnot sqrt (1/2) 1 eps = .ok (⟨1, ⟨[0, 0, 1, 1]⟩, [a, c]⟩, 1) := by
  have hwf := exTwoLines_wf ha hb hc
  have hspan := exTwoLines_span (a := a) (b := b) (c := c)
  have hcount := exTwoLines_count (a := a) (b := b) (c := c)
  have H : RemCtx (exTwoLines a b c).Knots.Values (1/2) 1 1 2 3 :=
    remCtx_of hwf.clamped (by norm_num) (by norm_num) hspan rfl hcount le_rfl (by norm_num)
  obtain ⟨r, hr, hr1, _⟩ := findSpanIndex_spec (kv := (exTwoLines a b c).Knots) hwf.clamped (show (0 : K) ≤ 1/2 by norm_num) (by norm_num)
  obtain rfl : 2 = r := isSpan_unique hwf.clamped.sorted hspan hr1 (fun i hi => hwf.clamped.le_one hi)
  have hms : (exTwoLines a b c).Knots.GetMultiplicity (1/2) = ((1 : ℕ) : Int) := by
    rw [(C12_getMultiplicity (exTwoLines a b c).Knots (1/2)).2, hcount]
    exact exTwoLines_sep
  have hα : rA (kn (exTwoLines a b c).Knots.Values) (1/2) 1 0 1 = 1/2 := by
    simp [rA, exTwoLines, kn]
  have hD : remDiff (kn (exTwoLines a b c).Knots.Values) (1/2) 1 0 1 0 2 (hpts (exTwoLines a b c).ControlPoints) =
      (1/2 : K) • ToHomo c + (1/2 : K) • ToHomo a - ToHomo b := by
    unfold remDiff
    simp only [show (1 + 1 + 0 - 1) / 2 = 0 from rfl, show ¬ (1 + 1 + 0 - 1) % 2 = 0 by norm_num, if_false]
    rw [show 0 + 1 + 0 = 1 from rfl, hα, swR, swL, show (1 : K) - 1/2 = 1/2 by norm_num]
    rfl
  obtain ⟨tmp, hstep⟩ := removalLoop_step H sqrt tol 0 0 (by norm_num) (by norm_num) (hpts (exTwoLines a b c).ControlPoints) (fun _ => 0)
  rw [show 2 - 1 - 0 - 1 = 0 from rfl, show 0 + (1 + 2 + 2 * 0 - 1) = 2 from rfl, hD, if_neg (not_lt.mpr hd), removalLoop] at hstep
  have hk := knotRemoval_some H sqrt (exTwoLines a b c).ControlPoints rfl eps tol 1 1 le_rfl le_rfl le_rfl hms hr htol _ hstep
  unfold Curve.RemoveKnot
  rw [massert_true ⟨by norm_num, by norm_num⟩, bind_ok, massert_true (by norm_num), bind_ok, show (exTwoLines a b c).Degree = ((1 : ℕ) : Int) from rfl]
  rw [Nat.cast_one] at hk
  have e1 : ∀ y < 3 - 1, (if y < (2 * 2 - 1 - 1) / 2 - (1 - 1) / 2 then
      remNext (kn (exTwoLines a b c).Knots.Values) (1/2) 1 0 1 0 2 (hpts (exTwoLines a b c).ControlPoints) y
      else if y < 3 - 1 then remNext (kn (exTwoLines a b c).Knots.Values) (1/2) 1 0 1 0 2 (hpts (exTwoLines a b c).ControlPoints) (y + 1)
      else remNext (kn (exTwoLines a b c).Knots.Values) (1/2) 1 0 1 0 2 (hpts (exTwoLines a b c).ControlPoints) y) =
        if y = 0 then ToHomo a else ToHomo c := by
    intro y hy
    interval_cases y
    · simp [remNext, hpts, pt, exTwoLines]
    · simp [remNext, hpts, pt, exTwoLines]
  rw [show (⟨(exTwoLines a b c).Knots.Values⟩ : KnotVector K) = (exTwoLines a b c).Knots from rfl, tab_congr e1, mapMList_ok _ unhomo] at hk
  · rw [Nat.cast_one, hk, bind_ok]
    have e2 : tab ((exTwoLines a b c).Knots.Values.length - 1) (dropU (kn (exTwoLines a b c).Knots.Values) 2 1) = [0, 0, 1, 1] := by
      simp [tab, exTwoLines, dropU, kn, List.range_succ]
    have e3 : (tab (3 - 1) fun i => if i = 0 then ToHomo a else ToHomo c).map unhomo = [a, c] := by
      simp [tab, List.range_succ, unhomo_toHomo ha.ne', unhomo_toHomo hc.ne']
    rw [e2, e3]
    rfl
  · intro v hv
    unfold tab at hv
    obtain ⟨i, hi, rfl⟩ := List.mem_map.mp hv
    refine fromHomo_ok ?_
    split_ifs
    · exact ha.ne'
    · exact hc.ne'

end twoLines

/-- A curve of degree 1 with small weights; the middle weight is larger by a factor of `1 + eps/2`. -/
def exSpike (w eps : K) : Curve K :=
  exTwoLines ⟨1 / w, 0, 0, w⟩ ⟨1 / (w * (1 + eps / 2)), 0, 0, w * (1 + eps / 2)⟩ ⟨1 / w, 0, 0, w⟩

theorem exSpike_wf {w eps : K} (hw : 0 < w) (he : 0 < eps) : WFCurve 1 (exSpike w eps) :=
  exTwoLines_wf hw (by positivity) hw

theorem exSpike_homo {w eps : K} (hw : 0 < w) (he : 0 < eps) : ToHomo (⟨1 / w, 0, 0, w⟩ : Vec4 K) = ⟨1, 0, 0, w⟩ ∧
    ToHomo (⟨1 / (w * (1 + eps / 2)), 0, 0, w * (1 + eps / 2)⟩ : Vec4 K) = ⟨1, 0, 0, w * (1 + eps / 2)⟩ := by
  have h2 : (0 : K) < w * (1 + eps / 2) := by positivity
  refine ⟨?_, ?_⟩ <;> simp only [ToHomo]
  · ext <;> simp [hw.ne']
  · ext
    · exact div_mul_cancel₀ _ h2.ne'
    · simp
    · simp
    · rfl

theorem exSpike_tol {sqrt : K → K} (hsq : ∀ x, 0 ≤ x → 0 ≤ sqrt x ∧ sqrt x * sqrt x = x) {w eps : K} (hw : 0 < w) (hw1 : w ≤ 1) (he : 0 < eps) :
    CalcTOL sqrt ((exSpike w eps).ControlPoints.map ToHomo) eps = .ok (eps * w / 2) := by
  obtain ⟨p0, p1⟩ := exSpike_homo hw he
  have hs1 : sqrt 1 = 1 := by
    obtain ⟨a, b⟩ := hsq 1 zero_le_one
    nlinarith
  have hle : w ≤ w * (1 + eps / 2) := by nlinarith
  have hbig : w ≤ 1000000000000 := by linarith
  simp only [exSpike, exTwoLines, List.map_cons, List.map_nil]
  rw [p0, p1]
  unfold CalcTOL
  simp only [List.foldl_cons, List.foldl_nil, Vec4.head3, Vec3.norm, Vec3.dot, mul_one, mul_zero, add_zero, hs1]
  rw [min_eq_right hbig, min_eq_left hle, min_self, max_eq_right zero_le_one, max_self, max_self, fdiv_ok (by norm_num)]
  norm_num

/-- `RemoveKnot(1/2, 1, eps)` replaces the spike by a constant. -/
theorem exSpike_removed {sqrt : K → K} (hsq : ∀ x, 0 ≤ x → 0 ≤ sqrt x ∧ sqrt x * sqrt x = x) {w eps : K} (hw : 0 < w) (hw1 : w ≤ 1) (he : 0 < eps) :
    (exSpike w eps).RemoveKnot sqrt (1/2) 1 eps = .ok (⟨1, ⟨[0, 0, 1, 1]⟩, [⟨1 / w, 0, 0, w⟩, ⟨1 / w, 0, 0, w⟩]⟩, 1) := by
  obtain ⟨p0, p1⟩ := exSpike_homo hw he
  refine exTwoLines_removed hw (by positivity) hw (exSpike_tol hsq hw hw1 he) (le_of_eq ?_)
  rw [p0, p1]
  have hD : (1/2 : K) • (⟨1, 0, 0, w⟩ : Vec4 K) + (1/2 : K) • (⟨1, 0, 0, w⟩ : Vec4 K) - ⟨1, 0, 0, w * (1 + eps / 2)⟩ = ⟨0, 0, 0, -(eps * w / 2)⟩ := by
    ext <;> simp <;> ring
  rw [hD]
  unfold Vec4.norm
  have hp : 0 ≤ eps * w / 2 := by positivity
  simp only [mul_zero, zero_add, neg_mul_neg]
  obtain ⟨a, b⟩ := hsq (eps * w / 2 * (eps * w / 2)) (mul_nonneg hp hp)
  exact (mul_self_inj a hp).mp b

/-- C87 fails for rational curves: whatever the factor `M`, there is a curve that `RemoveKnot` with tolerance `eps`
moves by more than `M * eps`. -/
theorem C87_rational_refuted {sqrt : K → K} (hsq : ∀ x, 0 ≤ x → 0 ≤ sqrt x ∧ sqrt x * sqrt x = x) {M eps : K} (hM : 0 ≤ M) (he : 0 < eps) :
    ∃ (c c' : Curve K) (C C' : Vec3 K), WFCurve 1 c ∧ Separated c.Knots.Values (1/2) ∧ c.Knots.Values.count (1/2) = 1 ∧
      c.RemoveKnot sqrt (1/2) 1 eps = .ok (c', 1) ∧ c.Evaluate (1/2) = .ok C ∧ c'.Evaluate (1/2) = .ok C' ∧
      WFCurve 1 c' ∧ (M * eps) ^ 2 < sqDist C' C := by
  obtain ⟨w, hwd⟩ : ∃ w : K, w = 1 / ((2 + eps) * (M + 1)) := ⟨_, rfl⟩
  have hw : 0 < w := by rw [hwd]; positivity
  have hw1 : w ≤ 1 := by
    rw [hwd, div_le_one (by positivity)]
    nlinarith
  have hwf := exSpike_wf hw he
  obtain ⟨p0, p1⟩ := exSpike_homo hw he
  obtain ⟨_, _, _, _, ev⟩ := evaluate_seg hwf (show (0 : K) ≤ 1/2 by norm_num) (by norm_num) exTwoLines_span
  have hs1 : seg (kn (exSpike w eps).Knots.Values) 2 (1/2) 1 (hpts (exSpike w eps).ControlPoints) = ⟨1, 0, 0, w * (1 + eps / 2)⟩ := by
    unfold seg
    rw [Finset.sum_range_succ, Finset.sum_range_one, show 2 - 1 + 0 = 1 from rfl, show 2 - 1 + 1 = 2 from rfl, show hpts (exSpike w eps).ControlPoints 1 = _ from p1,
      show hpts (exSpike w eps).ControlPoints 2 = _ from p0]
    have n1 : Nl (kn (exSpike w eps).Knots.Values) 2 (1/2) 1 1 = 1 := by
      simp [Nl, exSpike, exTwoLines, kn]; norm_num
    have n2 : Nl (kn (exSpike w eps).Knots.Values) 2 (1/2) 1 2 = 0 := by
      simp [Nl, exSpike, exTwoLines, kn]
    rw [n1, n2, one_smul, zero_smul, add_zero]
  rw [hs1] at ev
  have hwf' : WFCurve 1 (⟨1, ⟨[0, 0, 1, 1]⟩, [⟨1 / w, 0, 0, w⟩, ⟨1 / w, 0, 0, w⟩]⟩ : Curve K) := by
    refine ⟨rfl, ⟨by simp, by simp, ?_, ?_, by simp [kn], by simp [kn]⟩, rfl, ?_⟩
    · intro i hi; interval_cases i <;> simp [kn]
    · intro i h1 h2; simp at h1 h2; interval_cases i <;> simp [kn]
    · intro i hi; simp at hi; interval_cases i <;> simp [pt] <;> assumption
  have hsp' : IsSpan ([0, 0, 1, 1] : List K) (1/2) 1 := by
    refine ⟨by simp, by simp [kn], Or.inl ?_⟩
    simp [kn]; norm_num
  obtain ⟨_, _, _, _, ev'⟩ := evaluate_seg hwf' (show (0 : K) ≤ 1/2 by norm_num) (by norm_num) hsp'
  have hs2 : seg (kn ([0, 0, 1, 1] : List K)) 1 (1/2) 1 (hpts [⟨1 / w, 0, 0, w⟩, ⟨1 / w, 0, 0, w⟩]) = ⟨1, 0, 0, w⟩ := by
    unfold seg
    have q : ∀ i : ℕ, i = 0 ∨ i = 1 → hpts [⟨1 / w, 0, 0, w⟩, (⟨1 / w, 0, 0, w⟩ : Vec4 K)] i = ⟨1, 0, 0, w⟩ := by
      rintro i (rfl | rfl) <;> simp only [hpts, pt, ToHomo, List.getD_cons_zero, List.getD_cons_succ] <;> ext <;> simp [hw.ne']
    rw [Finset.sum_range_succ, Finset.sum_range_one, q _ (Or.inl rfl), q _ (Or.inr rfl), ← add_smul]
    have : Nl (kn ([0, 0, 1, 1] : List K)) 1 (1/2) 1 (1 - 1 + 0) + Nl (kn ([0, 0, 1, 1] : List K)) 1 (1/2) 1 (1 - 1 + 1) = 1 := by
      simp [Nl, kn]
    rw [this, one_smul]
  simp only at ev'
  rw [hs2] at ev'
  refine ⟨_, _, _, _, hwf, exTwoLines_sep, exTwoLines_count, exSpike_removed hsq hw hw1 he, ev, ev', hwf', ?_⟩
  have hd : (1 : K) / w - 1 / (w * (1 + eps / 2)) = (M + 1) * eps := by
    rw [hwd]
    have : (2 + eps) ≠ 0 := by positivity
    have : (M + 1) ≠ 0 := by positivity
    have : (1 + eps / 2) ≠ 0 := by positivity
    field_simp
    ring
  simp only [sqDist, proj]
  rw [hd]
  simp only [zero_div, sub_zero, ne_eq, OfNat.ofNat_ne_zero, not_false_eq_true, zero_pow, add_zero]
  exact pow_lt_pow_left₀ (by nlinarith) (by positivity) (by norm_num)

/-- The hypotheses of `C87_deviation_partial` on the spike, with the real square root: the bound says that the distance is
at most `sqrt(1 + |C|²) / 19` for a tolerance of `1/10`. -/
example : ∃ c', (exSpike (1/100 : ℝ) (1/10)).RemoveKnot Real.sqrt (1/2) 1 (1/10) = .ok (c', 1) ∧
    ∀ x : ℝ, 0 ≤ x → x ≤ 1 → ∃ C C', (exSpike (1/100 : ℝ) (1/10)).Evaluate x = .ok C ∧ c'.Evaluate x = .ok C' ∧
      (1 + 1 - ((1 : ℕ) : ℝ) * (1/10)) ^ 2 * sqDist C' C ≤ (((1 : ℕ) : ℝ) * (1/10)) ^ 2 * (1 + sqLen C) := by
  have hsq : ∀ x : ℝ, 0 ≤ x → 0 ≤ Real.sqrt x ∧ Real.sqrt x * Real.sqrt x = x := fun x hx => ⟨Real.sqrt_nonneg x, Real.mul_self_sqrt hx⟩
  have hr := exSpike_removed hsq (w := 1/100) (eps := 1/10) (by norm_num) (by norm_num) (by norm_num)
  refine ⟨_, hr, ?_⟩
  exact (C87_deviation_partial (times := 1) (exSpike_wf (by norm_num) (by norm_num)) (by norm_num) (by norm_num) exTwoLines_sep
    (le_of_eq exTwoLines_count) hsq (by norm_num) (le_of_eq exTwoLines_count.symm) hr (D := 1)
    ⟨by norm_num, Or.inr ⟨⟨1 / (1/100), 0, 0, 1/100⟩, by simp [exSpike, exTwoLines], by norm_num⟩⟩ (by norm_num)).2.2

/-- The hypotheses of `C87_polynomial` on a case where the curve is really changed: a flat corner. -/
example : ∃ c', (exTwoLines (⟨0, 0, 0, 1⟩ : Vec4 ℝ) ⟨1, 1/100, 0, 1⟩ ⟨2, 0, 0, 1⟩).RemoveKnot Real.sqrt (1/2) 1 (1/10) = .ok (c', 1) ∧
    ∀ x : ℝ, 0 ≤ x → x ≤ 1 → ∃ C C', (exTwoLines (⟨0, 0, 0, 1⟩ : Vec4 ℝ) ⟨1, 1/100, 0, 1⟩ ⟨2, 0, 0, 1⟩).Evaluate x = .ok C ∧
      c'.Evaluate x = .ok C' ∧ (1 + 2) ^ 2 * sqDist C' C ≤ (((1 : ℕ) : ℝ) * (1/10)) ^ 2 := by
  have hsq : ∀ x : ℝ, 0 ≤ x → 0 ≤ Real.sqrt x ∧ Real.sqrt x * Real.sqrt x = x := fun x hx => ⟨Real.sqrt_nonneg x, Real.mul_self_sqrt hx⟩
  have n2 : Real.sqrt (2 * 2) = 2 := Real.sqrt_mul_self (by norm_num)
  have n1 : Real.sqrt (1 + 1/100 * (1/100)) ≤ 2 := by rw [Real.sqrt_le_left (by norm_num)]; norm_num
  have n0 : Real.sqrt (1/100 * (1/100)) = 1/100 := Real.sqrt_mul_self (by norm_num)
  have ht : CalcTOL Real.sqrt ([(⟨0, 0, 0, 1⟩ : Vec4 ℝ), ⟨1, 1/100, 0, 1⟩, ⟨2, 0, 0, 1⟩].map ToHomo) (1/10) = .ok (1/30) := by
    unfold CalcTOL
    simp only [List.map_cons, List.map_nil, ToHomo, List.foldl_cons, List.foldl_nil, Vec4.head3, Vec3.norm, Vec3.dot, mul_one, mul_zero, add_zero,
      Real.sqrt_zero, n2, max_self]
    rw [min_eq_right (by norm_num), max_eq_right (Real.sqrt_nonneg _), max_eq_right n1, fdiv_ok (by norm_num)]
    norm_num
  have hr := exTwoLines_removed (a := (⟨0, 0, 0, 1⟩ : Vec4 ℝ)) (b := ⟨1, 1/100, 0, 1⟩) (c := ⟨2, 0, 0, 1⟩) (by norm_num) (by norm_num) (by norm_num) ht (by
    have : (1/2 : ℝ) • ToHomo (⟨2, 0, 0, 1⟩ : Vec4 ℝ) + (1/2 : ℝ) • ToHomo (⟨0, 0, 0, 1⟩ : Vec4 ℝ) - ToHomo ⟨1, 1/100, 0, 1⟩ = ⟨0, -(1/100), 0, 0⟩ := by
      ext <;> simp [ToHomo]; norm_num
    rw [this]
    simp only [Vec4.norm, mul_zero, zero_add, add_zero, neg_mul_neg, n0]
    norm_num)
  refine ⟨_, hr, ?_⟩
  exact (C87_polynomial (times := 1) (exTwoLines_wf (by norm_num) (by norm_num) (by norm_num)) (by simp [exTwoLines]) (by norm_num) (by norm_num)
    exTwoLines_sep (le_of_eq exTwoLines_count) hsq (by norm_num) (le_of_eq exTwoLines_count.symm) hr (D := 2)
    ⟨by norm_num, Or.inr ⟨⟨2, 0, 0, 1⟩, by simp [exTwoLines], by norm_num⟩⟩).2.2

end Nurbs.Props
