import Verif.Proof.BBox
import Verif.Proof.Rounded

/-! # The subdivision of `GetBoundingBox` with rounding -/

set_option linter.unusedSectionVars false

namespace Nurbs
open Nurbs.Spec

section any
variable {K : Type} [Zero K] [One K] [Add K] [Sub K] [Mul K] [Div K] [Neg K] [NatCast K] [IntCast K] [LinearOrder K]

/-- The triangle as computed. -/
def triG (P : ℕ → Vec4 K) : ℕ → ℕ → Vec4 K
  | 0, s => P s
  | r + 1, s => (1 / 2 : K) • triG P r s + (1 / 2 : K) • triG P r (s + 1)

theorem casteljau_any (p : ℕ) (P : ℕ → Vec4 K) (f : ℕ → ℕ → Vec4 K) :
    Curve.casteljau (p : Int) (tab (p + 1) P) (tab (p + 1) fun i => tab (p + 1) (f i)) =
      .ok (tab (p + 1) fun i => tab (p + 1) fun j => if i + j ≤ p then triG P i j else f i j) := by
  unfold Curve.casteljau
  rw [forLe_eq_forUp 0 p (p + 1) (by omega)]
  have h1 := forUp_eq (fun s b => do mset b 0 s (← vget (tab (p + 1) P) s))
    (fun q => tab (p + 1) fun i => tab (p + 1) fun j => if i = 0 ∧ j < q then triG P i j else f i j) (p + 1) 0 (by
      intro q hq
      rw [vget_tab _ _ _ q (by simp) hq, bind_ok]
      apply mset_tab _ _ _ _ _ _ 0 q _ rfl (by simp) (by omega) hq
      intro k _ l _
      by_cases hk : k = 0 ∧ l = q
      · rw [if_pos hk, if_pos (by omega), hk.1, hk.2]; rfl
      · rw [if_neg hk]
        by_cases h : k = 0 ∧ l < q
        · rw [if_pos h, if_pos (by omega)]
        · rw [if_neg h, if_neg (by omega)])
  have hinit : (tab (p + 1) fun i => tab (p + 1) (f i)) =
      tab (p + 1) fun i => tab (p + 1) fun j => if i = 0 ∧ j < 0 then triG P i j else f i j := by
    apply tab_congr; intro i _; apply tab_congr; intro j _; rw [if_neg (by omega)]
  rw [hinit, h1, bind_ok, forLe_eq_forUp 1 p p (by omega)]
  have h2 := forUp_eq (fun r b => forLe 0 ((p : Int) - r) (fun s b => do
      mset b r s ((1 / 2 : K) • (← mget b (r - 1) s) + (1 / 2 : K) • (← mget b (r - 1) (s + 1)))) b)
    (fun q => tab (p + 1) fun i => tab (p + 1) fun j => if i ≤ q ∧ i + j ≤ p then triG P i j else f i j) p 1 (by
      intro q hq
      rw [forLe_eq_forUp 0 _ (p - q) (by omega)]
      have h3 := forUp_eq (fun s b => do
          mset b (1 + (q : Int)) s ((1 / 2 : K) • (← mget b (1 + (q : Int) - 1) s) + (1 / 2 : K) • (← mget b (1 + (q : Int) - 1) (s + 1))))
        (fun n => tab (p + 1) fun i => tab (p + 1) fun j =>
          if (i ≤ q ∧ i + j ≤ p) ∨ (i = q + 1 ∧ j < n) then triG P i j else f i j) (p - q) 0 (by
          intro n hn
          rw [mget_tab _ _ _ _ _ q n (by omega) (by omega) (by omega) (by omega), bind_ok,
            mget_tab _ _ _ _ _ q (n + 1) (by omega) (by omega) (by omega) (by omega), bind_ok,
            if_pos (show (q ≤ q ∧ q + n ≤ p) ∨ (q = q + 1 ∧ n < n) by omega),
            if_pos (show (q ≤ q ∧ q + (n + 1) ≤ p) ∨ (q = q + 1 ∧ n + 1 < n) by omega)]
          apply mset_tab _ _ _ _ _ _ (q + 1) n _ (by push_cast; ring) (by omega) (by omega) (by omega)
          intro k _ l _
          by_cases hk : k = q + 1 ∧ l = n
          · rw [if_pos hk, if_pos (by omega), hk.1, hk.2]; rfl
          · rw [if_neg hk]
            by_cases h : (k ≤ q ∧ k + l ≤ p) ∨ (k = q + 1 ∧ l < n)
            · rw [if_pos h, if_pos (by omega)]
            · rw [if_neg h, if_neg (by omega)])
      have hinit' : (tab (p + 1) fun i => tab (p + 1) fun j => if i ≤ q ∧ i + j ≤ p then triG P i j else f i j) =
          tab (p + 1) fun i => tab (p + 1) fun j =>
            if (i ≤ q ∧ i + j ≤ p) ∨ (i = q + 1 ∧ j < 0) then triG P i j else f i j := by
        apply tab_congr; intro i _; apply tab_congr; intro j _
        congr 1; apply propext; constructor <;> intro h <;> omega
      rw [hinit', h3]
      congr 1
      apply tab_congr; intro i _; apply tab_congr; intro j _
      congr 1; apply propext; constructor <;> intro h <;> omega)
  have hinit2 : (tab (p + 1) fun i => tab (p + 1) fun j => if i = 0 ∧ j < p + 1 then triG P i j else f i j) =
      tab (p + 1) fun i => tab (p + 1) fun j => if i ≤ 0 ∧ i + j ≤ p then triG P i j else f i j := by
    apply tab_congr; intro i _; apply tab_congr; intro j _
    congr 1; apply propext; constructor <;> intro h <;> omega
  rw [hinit2, h2]
  congr 1
  apply tab_congr; intro i hi; apply tab_congr; intro j _
  congr 1; apply propext; constructor <;> intro h <;> omega

theorem casteljauHalves_any (p : ℕ) (g : ℕ → ℕ → Vec4 K) :
    Curve.casteljauHalves (p : Int) (tab (p + 1) fun i => tab (p + 1) (g i)) =
      .ok (tab (p + 1) fun r => g r 0, tab (p + 1) fun r => g (p - r) r) := by
  unfold Curve.casteljauHalves
  rw [vnew_of _ (p + 1) _ (by push_cast; rfl), bind_ok, bind_ok, forLe_eq_forUp 0 p (p + 1) (by omega), replicate_eq_tab]
  have h := forUp_eq (fun r (LR : List (Vec4 K) × List (Vec4 K)) => do
      let L ← vset LR.1 r (← mget (tab (p + 1) fun i => tab (p + 1) (g i)) r 0)
      let R ← vset LR.2 r (← mget (tab (p + 1) fun i => tab (p + 1) (g i)) ((p : Int) - r) r)
      return (L, R))
    (fun q => (tab (p + 1) fun r => if r < q then g r 0 else 0, tab (p + 1) fun r => if r < q then g (p - r) r else 0)) (p + 1) 0 (by
      intro q hq
      simp only
      rw [mget_tab _ _ _ _ _ q 0 (by simp) (by simp : (0 : Int) = ((0 : ℕ) : Int)) hq (by omega), bind_ok,
        vset_tab' _ _ (fun r => if r < q + 1 then g r 0 else 0) _ q _ (by simp) hq (by
          intro k hk
          by_cases h : k = q
          · subst h; simp
          · rw [if_neg h]
            by_cases h2 : k < q
            · rw [if_pos (by omega), if_pos h2]
            · rw [if_neg (by omega), if_neg h2]), bind_ok,
        mget_tab _ _ _ _ _ (p - q) q (by omega) (by simp) (by omega) hq, bind_ok,
        vset_tab' _ _ (fun r => if r < q + 1 then g (p - r) r else 0) _ q _ (by simp) hq (by
          intro k hk
          by_cases h : k = q
          · subst h; simp
          · rw [if_neg h]
            by_cases h2 : k < q
            · rw [if_pos (by omega), if_pos h2]
            · rw [if_neg (by omega), if_neg h2]), bind_ok]
      rfl)
  simp only [Nat.not_lt_zero, if_false] at h
  rw [h]
  congr 2
  · apply tab_congr; intro i hi; rw [if_pos hi]
  · apply tab_congr; intro i hi; rw [if_pos hi]

theorem coord_anyMin (k : Axis) (a b : Vec3 K) : coord k (a.cwiseMin b) = min (coord k a) (coord k b) := by cases k <;> rfl
theorem coord_anyMax (k : Axis) (a b : Vec3 K) : coord k (a.cwiseMax b) = max (coord k a) (coord k b) := by cases k <;> rfl
theorem coord_ext_any {a b : Vec3 K} (h : ∀ k, coord k a = coord k b) : a = b := by
  ext
  · exact h .x
  · exact h .y
  · exact h .z

theorem expandPoint_any (b : BoundingBox K) (v : Vec3 K) : (b.ExpandToIncludePoint v).Max = v := by
  apply coord_ext_any
  intro k
  simp only [BoundingBox.ExpandToIncludePoint, coord_anyMax, coord_anyMin]
  exact max_eq_right (min_le_right _ _)

theorem foldExpand_any (l : List (Vec4 K)) (box : BoundingBox K) :
    let r := l.foldl (fun box p => box.ExpandToIncludePoint p.head3) box
    (∀ k, coord k r.Min ≤ coord k box.Min ∧ (∀ q ∈ l, coord k r.Min ≤ coord k q.head3) ∧
      (coord k r.Min = coord k box.Min ∨ ∃ q ∈ l, coord k r.Min = coord k q.head3)) ∧
    r.Max = (l.getLast?.map Vec4.head3).getD box.Max := by
  induction l generalizing box with
  | nil => exact ⟨fun k => ⟨le_rfl, by simp, Or.inl rfl⟩, rfl⟩
  | cons q l ih =>
    obtain ⟨h1, h2⟩ := ih (box.ExpandToIncludePoint q.head3)
    simp only [List.foldl_cons]
    have hm : ∀ k, coord k (box.ExpandToIncludePoint q.head3).Min = min (coord k box.Min) (coord k q.head3) := by
      intro k
      simp only [BoundingBox.ExpandToIncludePoint, coord_anyMin]
    refine ⟨fun k => ?_, ?_⟩
    · obtain ⟨a1, a2, a3⟩ := h1 k
      rw [hm k] at a1 a3
      refine ⟨a1.trans (min_le_left _ _), ?_, ?_⟩
      · intro q' hq'
        rcases List.mem_cons.mp hq' with rfl | h
        · exact a1.trans (min_le_right _ _)
        · exact a2 q' h
      · rcases a3 with a3 | ⟨q', hq', a3⟩
        · rcases min_choice (coord k box.Min) (coord k q.head3) with h | h
          · left; rw [a3, h]
          · right; exact ⟨q, by simp, by rw [a3, h]⟩
        · right; exact ⟨q', by simp [hq'], a3⟩
    · rw [h2, expandPoint_any]
      cases l with
      | nil => simp
      | cons q' l => simp [List.getLast?_cons]

theorem controlBox_any (p : ℕ) (P : ℕ → Vec4 K) : ∃ box, Curve.controlBox (tab (p + 1) P) = .ok box ∧
    (∀ k, (∀ i ≤ p, coord k box.Min ≤ coord k (P i).head3) ∧ ∃ i ≤ p, coord k box.Min = coord k (P i).head3) ∧ box.Max = (P p).head3 := by
  unfold Curve.controlBox
  rw [vget_tab _ _ _ 0 (by simp) (by omega), bind_ok]
  refine ⟨_, rfl, ?_⟩
  have hdrop : (tab (p + 1) P).drop 1 = tab p (fun i => P (i + 1)) := by
    simp [tab, List.range_succ_eq_map, Function.comp_def]
  rw [hdrop]
  obtain ⟨h1, h2⟩ := foldExpand_any (tab p fun i => P (i + 1)) (BoundingBox.ofPoints (P 0).head3 (P 0).head3)
  have hb : ∀ k, coord k (BoundingBox.ofPoints (P 0).head3 (P 0).head3).Min = coord k (P 0).head3 := by
    intro k
    simp only [BoundingBox.ofPoints, coord_anyMin, min_self]
  refine ⟨fun k => ?_, ?_⟩
  · obtain ⟨a1, a2, a3⟩ := h1 k
    rw [hb] at a1 a3
    refine ⟨fun i hi => ?_, ?_⟩
    · rcases Nat.eq_zero_or_pos i with rfl | h
      · exact a1
      · apply a2
        simp only [tab, List.mem_map, List.mem_range]
        exact ⟨i - 1, by omega, by rw [Nat.sub_add_cancel h]⟩
    · rcases a3 with a3 | ⟨q, hq, a3⟩
      · exact ⟨0, by omega, a3⟩
      · simp only [tab, List.mem_map, List.mem_range] at hq
        obtain ⟨i, hi, rfl⟩ := hq
        exact ⟨i + 1, by omega, a3⟩
  · rw [h2]
    rcases Nat.eq_zero_or_pos p with rfl | h
    · apply coord_ext_any
      intro k
      simp [tab, BoundingBox.ofPoints, coord_anyMax]
    · obtain ⟨q, rfl⟩ : ∃ q, p = q + 1 := ⟨p - 1, by omega⟩
      simp [tab, List.range_succ]

theorem endBox_any (p : ℕ) (P : ℕ → Vec4 K) :
    Curve.endBox (tab (p + 1) P) = .ok (BoundingBox.ofPoints (P 0).head3 (P p).head3) := by
  unfold Curve.endBox
  rw [vget_tab _ _ _ 0 (by simp) (by omega), bind_ok, vget_tab _ _ _ p (by simp) (by omega), bind_ok]
  rfl

end any

section real
variable {K : Type} [Field K] [LinearOrder K] [IsStrictOrderedRing K] {T : ℕ → ℕ → K} {p : ℕ} {e δ : K}
  (hT : ∀ r s, r + s + 1 ≤ p → |T (r + 1) s - (T r s + T r (s + 1)) / 2| ≤ e) (hδ : ∀ i < p, |T 0 (i + 1) - T 0 i| ≤ δ)
include hT hδ

theorem triR_diff (r s : ℕ) (hrs : r + s + 1 ≤ p) : |T r (s + 1) - T r s| ≤ δ + 2 * r * e := by
  induction r generalizing s with
  | zero => simpa using hδ s (by omega)
  | succ r ih =>
    have h1 := abs_le.mp (ih s (by omega))
    have h2 := abs_le.mp (ih (s + 1) (by omega))
    have h3 := abs_le.mp (hT r s (by omega))
    have h4 := abs_le.mp (hT r (s + 1) (by omega))
    rw [abs_le]
    push_cast
    constructor <;> linarith [h1.1, h1.2, h2.1, h2.2, h3.1, h3.2, h4.1, h4.2]

theorem triR_left (he : 0 ≤ e) (r : ℕ) (hr : r < p) : |T (r + 1) 0 - T r 0| ≤ δ / 2 + p * e := by
  have h1 := abs_le.mp (triR_diff hT hδ r 0 (by omega))
  have h2 := abs_le.mp (hT r 0 (by omega))
  have h3 : ((r : K) + 1) * e ≤ p * e := mul_le_mul_of_nonneg_right (by exact_mod_cast hr) he
  rw [abs_le]
  constructor <;> linarith [h1.1, h1.2, h2.1, h2.2]

theorem triR_right (he : 0 ≤ e) (i : ℕ) (hi : i < p) : |T (p - (i + 1)) (i + 1) - T (p - i) i| ≤ δ / 2 + p * e := by
  obtain ⟨r, hr⟩ : ∃ r, p = r + i + 1 := ⟨p - i - 1, by omega⟩
  have e1 : p - (i + 1) = r := by omega
  have e2 : p - i = r + 1 := by omega
  rw [e1, e2]
  have h1 := abs_le.mp (triR_diff hT hδ r i (by omega))
  have h2 := abs_le.mp (hT r i (by omega))
  have h3 : ((r : K) + 1) * e ≤ p * e := mul_le_mul_of_nonneg_right (by exact_mod_cast (by omega : r + 1 ≤ p)) he
  rw [abs_le]
  constructor <;> linarith [h1.1, h1.2, h2.1, h2.2]

end real

variable {K : Type} [Field K] [LinearOrder K] [IsStrictOrderedRing K] {R : Rounding K}

/-- The rounding is exact for 2 and for halves, as in every binary arithmetic without underflow. -/
structure Binary (R : Rounding K) : Prop where
  two : R.rnd 2 = 2
  half : ∀ a, R.rnd a = a → R.rnd (a / 2) = a / 2

/-- A coordinate of a control point. -/
def cv (k : Axis) (P : Vec4 (Fl R)) : K := (coord k P.head3).val

theorem fl_half (hR : Binary R) : (1 / 2 : Fl R).val = 1 / 2 := by
  show R.rnd (R.rnd 1 / R.rnd ((2 : ℕ) : K)) = 1 / 2
  rw [R.one, Nat.cast_ofNat, hR.two]
  exact hR.half 1 R.one

theorem fl_mid (hR : Binary R) (a b : Fl R) : ((1 / 2 : Fl R) * a + (1 / 2 : Fl R) * b).val = R.rnd ((a.val + b.val) / 2) := by
  show R.rnd (R.rnd ((1 / 2 : Fl R).val * a.val) + R.rnd ((1 / 2 : Fl R).val * b.val)) = _
  rw [fl_half hR, show (1 / 2 : K) * a.val = a.val / 2 by ring, show (1 / 2 : K) * b.val = b.val / 2 by ring, hR.half a.val a.2, hR.half b.val b.2]
  congr 1
  ring

theorem cv_triG (hR : Binary R) (k : Axis) (P : ℕ → Vec4 (Fl R)) (r s : ℕ) :
    cv k (triG P (r + 1) s) = R.rnd ((cv k (triG P r s) + cv k (triG P r (s + 1))) / 2) := by
  cases k <;> exact fl_mid hR _ _

theorem cv_rnd (k : Axis) (P : Vec4 (Fl R)) : R.rnd (cv k P) = cv k P := (coord k P.head3).2

theorem triG_bounds (hR : Binary R) {p : ℕ} {P : ℕ → Vec4 (Fl R)} {k : Axis} {lo hi : K} (h : ∀ i ≤ p, lo ≤ cv k (P i) ∧ cv k (P i) ≤ hi)
    (r s : ℕ) (hrs : r + s ≤ p) : lo ≤ cv k (triG P r s) ∧ cv k (triG P r s) ≤ hi := by
  induction r generalizing s with
  | zero => exact h s (by omega)
  | succ r ih =>
    have h1 := ih s (by omega)
    have h2 := ih (s + 1) (by omega)
    rw [cv_triG hR]
    rcases le_total (cv k (triG P r s)) (cv k (triG P r (s + 1))) with hle | hle
    · have m1 := R.mono _ _ (show cv k (triG P r s) ≤ (cv k (triG P r s) + cv k (triG P r (s + 1))) / 2 by linarith)
      have m2 := R.mono _ _ (show (cv k (triG P r s) + cv k (triG P r (s + 1))) / 2 ≤ cv k (triG P r (s + 1)) by linarith)
      rw [cv_rnd] at m1 m2
      exact ⟨h1.1.trans m1, m2.trans h2.2⟩
    · have m1 := R.mono _ _ (show cv k (triG P r (s + 1)) ≤ (cv k (triG P r s) + cv k (triG P r (s + 1))) / 2 by linarith)
      have m2 := R.mono _ _ (show (cv k (triG P r s) + cv k (triG P r (s + 1))) / 2 ≤ cv k (triG P r s) by linarith)
      rw [cv_rnd] at m1 m2
      exact ⟨h2.1.trans m1, m2.trans h1.2⟩

theorem triG_step (hR : Binary R) {p : ℕ} {P : ℕ → Vec4 (Fl R)} {k : Axis} {B : K} (h : ∀ i ≤ p, |cv k (P i)| ≤ B) (r s : ℕ) (hrs : r + s + 1 ≤ p) :
    |cv k (triG P (r + 1) s) - (cv k (triG P r s) + cv k (triG P r (s + 1))) / 2| ≤ R.u * B := by
  rw [cv_triG hR]
  have h1 := triG_bounds hR (lo := -B) (hi := B) (fun i hi => abs_le.mp (h i hi)) r s (by omega)
  have h2 := triG_bounds hR (lo := -B) (hi := B) (fun i hi => abs_le.mp (h i hi)) r (s + 1) (by omega)
  refine (R.rel _).trans (mul_le_mul_of_nonneg_left ?_ R.u_nonneg)
  rw [abs_le]
  constructor <;> linarith [h1.1, h1.2, h2.1, h2.2]

theorem approxVec3_fl {a b : Vec3 (Fl R)} (h : ∀ k, |(coord k a).val - (coord k b).val| * (1 + R.u) < (eps6 : Fl R).val) :
    Curve.approxVec3 a b eps6 = true := by
  have key : ∀ x y : Fl R, |x.val - y.val| * (1 + R.u) < (eps6 : Fl R).val → max (x - y) (-(x - y)) < (eps6 : Fl R) := by
    intro x y hxy
    have h1 : (x - y).val = R.rnd (x.val - y.val) := rfl
    have h2 : (-(x - y)).val = -R.rnd (x.val - y.val) := by
      show R.rnd (-(R.rnd (x.val - y.val))) = _
      rw [R.neg, R.idem]
    have h3 := abs_le.mp (R.rel (x.val - y.val))
    have h4 := abs_le.mp (le_refl |x.val - y.val|)
    apply max_lt
    · show (x - y).val < (eps6 : Fl R).val
      rw [h1]; linarith [h3.2, h4.2]
    · show (-(x - y)).val < (eps6 : Fl R).val
      rw [h2]; linarith [h3.1, h4.1]
  unfold Curve.approxVec3
  rw [decide_eq_true_eq]
  exact max_lt (key _ _ (h .x)) (max_lt (key _ _ (h .y)) (key _ _ (h .z)))

/-- Small pieces are accepted. -/
theorem boxDone_small_fl (sqrt : Fl R → Fl R) (eps : Fl R) (p : ℕ) (P : ℕ → Vec4 (Fl R)) (δ : K) (hδ : 0 ≤ δ)
    (h : ∀ k, ∀ i < p, |cv k (P (i + 1)) - cv k (P i)| ≤ δ) (hs : p * δ * (1 + R.u) < (eps6 : Fl R).val) {box : BoundingBox (Fl R)}
    (hbox : (∀ k, (∀ i ≤ p, coord k box.Min ≤ coord k (P i).head3) ∧ ∃ i ≤ p, coord k box.Min = coord k (P i).head3) ∧ box.Max = (P p).head3) :
    Curve.boxDone sqrt eps box (BoundingBox.ofPoints (P 0).head3 (P p).head3) = true := by
  have hu : 0 ≤ 1 + R.u := by linarith [R.u_nonneg]
  have tele : ∀ k, ∀ i ≤ p, ∀ j ≤ p, |cv k (P i) - cv k (P j)| * (1 + R.u) < (eps6 : Fl R).val := fun k i hi j hj =>
    (mul_le_mul_of_nonneg_right (telescope (P := fun i => cv k (P i)) hδ (h k) (i := j) (j := i) hj hi) hu).trans_lt hs
  unfold Curve.boxDone
  rw [Bool.or_eq_true, Bool.and_eq_true]
  refine .inr ⟨approxVec3_fl fun k => ?_, approxVec3_fl fun k => ?_⟩
  · obtain ⟨a1, i, hi, a2⟩ := hbox.1 k
    simp only [BoundingBox.ofPoints, coord_anyMin]
    rw [a2]
    rcases min_choice (coord k (P 0).head3) (coord k (P p).head3) with h' | h' <;> rw [h']
    · exact tele k i hi 0 (by omega)
    · exact tele k i hi p le_rfl
  · rw [hbox.2]
    simp only [BoundingBox.ofPoints, coord_anyMax]
    rcases max_choice (coord k (P 0).head3) (coord k (P p).head3) with h' | h' <;> rw [h']
    · exact tele k p le_rfl 0 (by omega)
    · exact tele k p le_rfl p le_rfl

/-- What is added to the global box by one piece. -/
structure FlStep (p : ℕ) (P : ℕ → Vec4 (Fl R)) (g : Option (BoundingBox (Fl R))) (g' : BoundingBox (Fl R)) : Prop where
  grow : ∀ b, g = some b → ∀ k, coord k g'.Min ≤ coord k b.Min ∧ coord k b.Max ≤ coord k g'.Max
  ends : InBox g' (P 0).head3 ∧ InBox g' (P p).head3
  inside : ∀ k (lo hi : Fl R), (∀ i ≤ p, lo ≤ coord k (P i).head3 ∧ coord k (P i).head3 ≤ hi) →
    (∀ b, g = some b → lo ≤ coord k b.Min ∧ coord k b.Max ≤ hi) → lo ≤ coord k g'.Min ∧ coord k g'.Max ≤ hi

theorem flStep_done (p : ℕ) (P : ℕ → Vec4 (Fl R)) (g : Option (BoundingBox (Fl R))) :
    FlStep p P g (match g with
      | none => BoundingBox.ofPoints (P 0).head3 (P p).head3
      | some g => g.ExpandToIncludeBox (BoundingBox.ofPoints (P 0).head3 (P p).head3)) := by
  have hmin : ∀ k, coord k (BoundingBox.ofPoints (P 0).head3 (P p).head3).Min = min (coord k (P 0).head3) (coord k (P p).head3) := fun k => by
    simp only [BoundingBox.ofPoints, coord_anyMin]
  have hmax : ∀ k, coord k (BoundingBox.ofPoints (P 0).head3 (P p).head3).Max = max (coord k (P 0).head3) (coord k (P p).head3) := fun k => by
    simp only [BoundingBox.ofPoints, coord_anyMax]
  cases g with
  | none =>
    refine ⟨by simp, ⟨?_, ?_⟩, ?_⟩
    · intro k; rw [hmin, hmax]; exact ⟨min_le_left _ _, le_max_left _ _⟩
    · intro k; rw [hmin, hmax]; exact ⟨min_le_right _ _, le_max_right _ _⟩
    · intro k lo hi hP _
      rw [hmin, hmax]
      exact ⟨le_min (hP 0 (by omega)).1 (hP p le_rfl).1, max_le (hP 0 (by omega)).2 (hP p le_rfl).2⟩
  | some b =>
    have emin : ∀ k, coord k (b.ExpandToIncludeBox (BoundingBox.ofPoints (P 0).head3 (P p).head3)).Min =
        min (coord k b.Min) (min (coord k (P 0).head3) (coord k (P p).head3)) := fun k => by
      rw [← hmin k]; simp only [BoundingBox.ExpandToIncludeBox, coord_anyMin]
    have emax : ∀ k, coord k (b.ExpandToIncludeBox (BoundingBox.ofPoints (P 0).head3 (P p).head3)).Max =
        max (coord k b.Max) (max (coord k (P 0).head3) (coord k (P p).head3)) := fun k => by
      rw [← hmax k]; simp only [BoundingBox.ExpandToIncludeBox, coord_anyMax]
    refine ⟨?_, ⟨?_, ?_⟩, ?_⟩
    · rintro b' ⟨⟩ k
      simp only [emin, emax]
      exact ⟨min_le_left _ _, le_max_left _ _⟩
    · intro k; simp only [emin, emax]
      exact ⟨(min_le_right _ _).trans (min_le_left _ _), (le_max_left _ _).trans (le_max_right _ _)⟩
    · intro k; simp only [emin, emax]
      exact ⟨(min_le_right _ _).trans (min_le_right _ _), (le_max_right _ _).trans (le_max_right _ _)⟩
    · intro k lo hi hP hb
      simp only [emin, emax]
      obtain ⟨b1, b2⟩ := hb b rfl
      exact ⟨le_min b1 (le_min (hP 0 (by omega)).1 (hP p le_rfl).1), max_le b2 (max_le (hP 0 (by omega)).2 (hP p le_rfl).2)⟩

theorem flStep_halves (hR : Binary R) {p : ℕ} {P : ℕ → Vec4 (Fl R)} {g : Option (BoundingBox (Fl R))} {g1 g2 : BoundingBox (Fl R)}
    (h1 : FlStep p (fun r => triG P r 0) g g1) (h2 : FlStep p (fun r => triG P (p - r) r) (some g1) g2) : FlStep p P g g2 := by
  have hg := h2.grow g1 rfl
  refine ⟨?_, ⟨?_, ?_⟩, ?_⟩
  · intro b hb k
    have a := h1.grow b hb k
    exact ⟨(hg k).1.trans a.1, a.2.trans (hg k).2⟩
  · intro k
    have a := h1.ends.1 k
    exact ⟨(hg k).1.trans a.1, a.2.trans (hg k).2⟩
  · have a := h2.ends.2
    simpa [triG] using a
  · intro k lo hi hP hb
    apply h2.inside k lo hi
    · intro i hi'
      exact triG_bounds hR (lo := lo.val) (hi := hi.val) hP _ _ (by omega)
    · rintro b ⟨⟩
      apply h1.inside k lo hi _ hb
      intro i hi'
      exact triG_bounds hR (lo := lo.val) (hi := hi.val) hP _ _ (by omega)

theorem boxLoop_piece_fl (hR : Binary R) (sqrt : Fl R → Fl R) (eps : Fl R) (p : ℕ) {B : K} (hB : 0 ≤ B) (n : ℕ) :
    ∀ (P : ℕ → Vec4 (Fl R)) (d : K), 0 ≤ d → (∀ k, ∀ i ≤ p, |cv k (P i)| ≤ B) →
      (∀ k, ∀ i < p, |cv k (P (i + 1)) - cv k (P i)| ≤ 2 * (p * (R.u * B)) + d) →
      p * (2 * (p * (R.u * B)) + d / 2 ^ n) * (1 + R.u) < (eps6 : Fl R).val →
    ∃ m, ∀ (f : ℕ → ℕ → Vec4 (Fl R)) (g : Option (BoundingBox (Fl R))), ∃ (f' : ℕ → ℕ → Vec4 (Fl R)) (g' : BoundingBox (Fl R)), FlStep p P g g' ∧
      ∀ fuel stack, Curve.boxLoop sqrt (p : Int) eps (fuel + m) (tab (p + 1) P :: stack) (tab (p + 1) fun i => tab (p + 1) (f i)) g =
        Curve.boxLoop sqrt (p : Int) eps fuel stack (tab (p + 1) fun i => tab (p + 1) (f' i)) (some g') := by
  have he : 0 ≤ R.u * B := mul_nonneg R.u_nonneg hB
  induction n with
  | zero =>
    intro P d hd hP h hs
    obtain ⟨box, e1, hbox⟩ := controlBox_any p P
    have e2 := endBox_any p P
    have hdone := boxDone_small_fl sqrt eps p P _ (by positivity) h (by simpa using hs) hbox
    refine ⟨1, fun f g => ⟨f, _, flStep_done p P g, ?_⟩⟩
    intro fuel stack
    rw [Curve.boxLoop, e1, bind_ok, e2, bind_ok, if_pos hdone]
    cases g <;> rfl
  | succ n ih =>
    intro P d hd hP h hs
    obtain ⟨box, e1, hbox⟩ := controlBox_any p P
    have e2 := endBox_any p P
    by_cases hdone : Curve.boxDone sqrt eps box (BoundingBox.ofPoints (P 0).head3 (P p).head3) = true
    · refine ⟨1, fun f g => ⟨f, _, flStep_done p P g, ?_⟩⟩
      intro fuel stack
      rw [Curve.boxLoop, e1, bind_ok, e2, bind_ok, if_pos hdone]
      cases g <;> rfl
    · have hs' : p * (2 * (p * (R.u * B)) + (d / 2) / 2 ^ n) * (1 + R.u) < (eps6 : Fl R).val := by
        rw [pow_succ', ← div_div] at hs
        exact hs
      have hin : ∀ k r s, r + s ≤ p → |cv k (triG P r s)| ≤ B := fun k r s hrs =>
        abs_le.mpr (triG_bounds hR (lo := -B) (hi := B) (fun i hi => abs_le.mp (hP k i hi)) r s hrs)
      obtain ⟨m1, r1⟩ := ih (fun r => triG P r 0) (d / 2) (by linarith) (fun k i hi => hin k i 0 (by omega)) (by
        intro k i hi
        refine (triR_left (T := fun r s => cv k (triG P r s)) (fun r s hrs => triG_step hR (hP k) r s hrs) (h k) he i hi).trans (le_of_eq ?_)
        ring) hs'
      obtain ⟨m2, r2⟩ := ih (fun r => triG P (p - r) r) (d / 2) (by linarith) (fun k i hi => hin k _ _ (by omega)) (by
        intro k i hi
        refine (triR_right (T := fun r s => cv k (triG P r s)) (fun r s hrs => triG_step hR (hP k) r s hrs) (h k) he i hi).trans (le_of_eq ?_)
        ring) hs'
      refine ⟨m2 + m1 + 1, fun f g => ?_⟩
      obtain ⟨f1, g1, b1, q1⟩ := r1 (fun i j => if i + j ≤ p then triG P i j else f i j) g
      obtain ⟨f2, g2, b2, q2⟩ := r2 f1 (some g1)
      refine ⟨f2, g2, flStep_halves hR b1 b2, ?_⟩
      intro fuel stack
      rw [← add_assoc, Curve.boxLoop, e1, bind_ok, e2, bind_ok, if_neg hdone, casteljau_any, bind_ok, casteljauHalves_any, bind_ok]
      have hl : (tab (p + 1) fun r => if r + 0 ≤ p then triG P r 0 else f r 0) = tab (p + 1) fun r => triG P r 0 :=
        tab_congr fun i hi => by rw [if_pos (by omega)]
      have hr : (tab (p + 1) fun r => if p - r + r ≤ p then triG P (p - r) r else f (p - r) r) =
          tab (p + 1) fun r => triG P (p - r) r := tab_congr fun i hi => by rw [if_pos (by omega)]
      simp only
      rw [hl, hr, ← add_assoc, q1, q2]

/-- The effect of the loop over the pieces. -/
structure FlFold (p : ℕ) (l : List (Curve (Fl R))) (g g' : Option (BoundingBox (Fl R))) : Prop where
  grow : ∀ b, g = some b → ∃ b', g' = some b' ∧ ∀ k, coord k b'.Min ≤ coord k b.Min ∧ coord k b.Max ≤ coord k b'.Max
  each : ∀ s ∈ l, ∃ b', g' = some b' ∧ InBox b' (pt s.ControlPoints 0).head3 ∧ InBox b' (pt s.ControlPoints p).head3
  inside : ∀ k (lo hi : Fl R), (∀ s ∈ l, ∀ i ≤ p, lo ≤ coord k (pt s.ControlPoints i).head3 ∧ coord k (pt s.ControlPoints i).head3 ≤ hi) →
    (∀ b, g = some b → lo ≤ coord k b.Min ∧ coord k b.Max ≤ hi) → ∀ b, g' = some b → lo ≤ coord k b.Min ∧ coord k b.Max ≤ hi

theorem boxFold_fl [Archimedean K] (hR : Binary R) (sqrt : Fl R → Fl R) (eps : Fl R) (p : ℕ) {B : K} (hB : 0 ≤ B)
    (hs : 2 * (p : K) ^ 2 * B * R.u * (1 + R.u) < (eps6 : Fl R).val) (l : List (Curve (Fl R)))
    (hl : ∀ s ∈ l, s.ControlPoints.length = p + 1) (hb : ∀ s ∈ l, ∀ i ≤ p, ∀ k, |cv k (pt s.ControlPoints i)| ≤ B) :
    ∃ F, ∀ (f : ℕ → ℕ → Vec4 (Fl R)) (g : Option (BoundingBox (Fl R))), ∃ (f' : ℕ → ℕ → Vec4 (Fl R)) (g' : Option (BoundingBox (Fl R))),
      FlFold p l g g' ∧ ∀ fuel, F ≤ fuel →
        foldMList (fun (seg : Curve (Fl R)) (s : List (List (Vec4 (Fl R))) × Option (BoundingBox (Fl R))) =>
          Curve.boxLoop sqrt (p : Int) eps fuel [seg.ControlPoints] s.1 s.2) l (tab (p + 1) fun i => tab (p + 1) (f i), g) =
        .ok (tab (p + 1) fun i => tab (p + 1) (f' i), g') := by
  have hu : 0 < 1 + R.u := by linarith [R.u_nonneg]
  have he : 0 ≤ R.u * B := mul_nonneg R.u_nonneg hB
  obtain ⟨n, hn⟩ : ∃ n : ℕ, p * (2 * (p * (R.u * B)) + 2 * B / 2 ^ n) * (1 + R.u) < (eps6 : Fl R).val := by
    set gap := (eps6 : Fl R).val - 2 * (p : K) ^ 2 * B * R.u * (1 + R.u) with hgap
    have hg : 0 < gap := by linarith
    obtain ⟨n, h⟩ := pow_unbounded_of_one_lt (p * (2 * B) * (1 + R.u) / gap) (one_lt_two (α := K))
    refine ⟨n, ?_⟩
    rw [div_lt_iff₀ hg] at h
    have h2 : (0 : K) < 2 ^ n := by positivity
    have h3 : p * (2 * B) * (1 + R.u) / 2 ^ n < gap := by rw [div_lt_iff₀ h2]; linarith
    have h4 : p * (2 * (p * (R.u * B)) + 2 * B / 2 ^ n) * (1 + R.u) =
      2 * (p : K) ^ 2 * B * R.u * (1 + R.u) + p * (2 * B) * (1 + R.u) / 2 ^ n := by ring
    rw [h4]
    linarith
  induction l with
  | nil =>
    refine ⟨0, fun f g => ⟨f, g, ⟨fun b hb => ⟨b, hb, fun k => ⟨le_rfl, le_rfl⟩⟩, by simp, ?_⟩, fun fuel _ => rfl⟩⟩
    intro k lo hi _ h b hb
    exact h b hb
  | cons s l ih =>
    obtain ⟨F, hF⟩ := ih (fun s hs => hl s (by simp [hs])) (fun s hs => hb s (by simp [hs]))
    have hbs := hb s (by simp)
    obtain ⟨m, hm⟩ := boxLoop_piece_fl hR sqrt eps p hB n (pt s.ControlPoints) (2 * B) (by linarith) (fun k i hi => hbs i hi k) (by
      intro k i hi
      have h1 := abs_le.mp (hbs i (by omega) k)
      have h2 := abs_le.mp (hbs (i + 1) (by omega) k)
      have h3 : 0 ≤ (p : K) * (R.u * B) := by positivity
      rw [abs_le]
      constructor <;> linarith [h1.1, h1.2, h2.1, h2.2]) hn
    refine ⟨max F (m + 1), fun f g => ?_⟩
    obtain ⟨f1, g1, b1, e1⟩ := hm f g
    obtain ⟨f2, g2, b2, e2⟩ := hF f1 (some g1)
    obtain ⟨b', hb', hgrow⟩ := b2.grow g1 rfl
    refine ⟨f2, g2, ⟨?_, ?_, ?_⟩, ?_⟩
    · intro b hb
      refine ⟨b', hb', fun k => ?_⟩
      have a := b1.grow b hb k
      exact ⟨(hgrow k).1.trans a.1, a.2.trans (hgrow k).2⟩
    · intro s' hs'
      rcases List.mem_cons.mp hs' with rfl | hs'
      · refine ⟨b', hb', ?_, ?_⟩
        · intro k
          have a := b1.ends.1 k
          exact ⟨(hgrow k).1.trans a.1, a.2.trans (hgrow k).2⟩
        · intro k
          have a := b1.ends.2 k
          exact ⟨(hgrow k).1.trans a.1, a.2.trans (hgrow k).2⟩
      · exact b2.each s' hs'
    · intro k lo hi hP hb
      apply b2.inside k lo hi (fun s hs => hP s (by simp [hs]))
      rintro b ⟨⟩
      exact b1.inside k lo hi (hP s (by simp)) hb
    · intro fuel hfuel
      have e : s.ControlPoints = tab (p + 1) (pt s.ControlPoints) := by
        have := eq_tab_pt s.ControlPoints
        rwa [hl s (by simp)] at this
      simp only [foldMList]
      obtain ⟨q, rfl⟩ : ∃ q, fuel = q + 1 + m := ⟨fuel - 1 - m, by omega⟩
      have e3 := e1 (q + 1) []
      rw [← e, Curve.boxLoop] at e3
      rw [e3, bind_ok]
      exact e2 _ (by omega)

theorem log_half {x : ℚ} (hx : 0 < x) : Int.log 2 (x / 2) = Int.log 2 x - 1 := by
  obtain ⟨h1, h2⟩ := log_bounds hx
  have hx2 : 0 < x / 2 := by linarith
  have e1 : (2 : ℚ) ^ (Int.log 2 x) = 2 * 2 ^ (Int.log 2 x - 1) := by
    rw [← zpow_one_add₀ (by norm_num)]; congr 1; ring
  have e2 : (2 : ℚ) ^ (Int.log 2 x + 1) = 2 * 2 ^ (Int.log 2 x) := by
    rw [← zpow_one_add₀ (by norm_num)]; congr 1; ring
  apply le_antisymm
  · have := (Int.lt_zpow_iff_log_lt (b := 2) (x := Int.log 2 x) (by norm_num) hx2).mp (by
      push_cast
      rw [e2] at h2
      linarith)
    omega
  · exact (Int.zpow_le_iff_le_log (b := 2) (by norm_num) hx2).mp (by
      push_cast
      rw [e1] at h1
      linarith)

theorem roundPos53_half {x : ℚ} (hx : 0 < x) : roundPos53 (x / 2) = roundPos53 x / 2 := by
  unfold roundPos53
  simp only [log_half hx]
  have e1 : (2 : ℚ) ^ (52 - (Int.log 2 x - 1)) = 2 * 2 ^ (52 - Int.log 2 x) := by
    rw [← zpow_one_add₀ (by norm_num)]; congr 1; ring
  have e2 : (2 : ℚ) ^ (Int.log 2 x - 52) = 2 * 2 ^ (Int.log 2 x - 1 - 52) := by
    rw [← zpow_one_add₀ (by norm_num)]; congr 1; ring
  rw [e1, e2, show x / 2 * (2 * 2 ^ (52 - Int.log 2 x)) = x * 2 ^ (52 - Int.log 2 x) by ring]
  ring

/-- The arithmetic of `double` halves exactly. -/
theorem binary53_binary : Binary binary53 := by
  have half : ∀ x : ℚ, round53 (x / 2) = round53 x / 2 := by
    intro x
    rcases lt_trichotomy x 0 with h | rfl | h
    · have e := roundPos53_half (show 0 < -x by linarith)
      rw [← round53_pos (by linarith), ← round53_pos (by linarith), neg_div, round53_neg, round53_neg] at e
      linarith
    · rw [zero_div, round53_zero, zero_div]
    · rw [round53_pos (by linarith), round53_pos h, roundPos53_half h]
  refine ⟨?_, fun a ha => ?_⟩
  · have h1 := half 2
    have h2 : round53 1 = 1 := binary53.one
    rw [show (2 : ℚ) / 2 = 1 by norm_num, h2] at h1
    show round53 2 = 2
    linarith
  · show round53 (a / 2) = a / 2
    rw [half]
    exact congrArg (· / 2) ha

end Nurbs
