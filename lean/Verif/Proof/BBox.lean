import Verif.Proof.Bezier
import Verif.Spec.Box
import Mathlib.Algebra.Order.Archimedean.Basic
import Mathlib.Tactic.Positivity

/-! # De Casteljau subdivision and `GetBoundingBox` -/

set_option linter.unusedSectionVars false

namespace Nurbs
open Nurbs.Spec

/-! ### The triangle, pure mathematics -/

section tri
variable {K : Type} [Field K] {V : Type} [AddCommGroup V] [Module K V]

/-- De Casteljau triangle at 1/2. -/
def tri (P : ℕ → V) : ℕ → ℕ → V
  | 0, s => P s
  | r + 1, s => (1 / 2 : K) • tri P r s + (1 / 2 : K) • tri P r (s + 1)

theorem tri_map {W : Type} [AddCommGroup W] [Module K W] (L : V →ₗ[K] W) (P : ℕ → V) (r s : ℕ) :
    L (tri (K := K) P r s) = tri (K := K) (fun i => L (P i)) r s := by
  induction r generalizing s with
  | zero => rfl
  | succ r ih => simp only [tri, map_add, map_smul, ih]

theorem tri_polar [NeZero (2 : K)] {p : ℕ} {F : List K → V} (hF : MultiAffine p F) (P : ℕ → V)
    (hP : ∀ i ≤ p, P i = F (List.replicate (p - i) 0 ++ List.replicate i 1)) (r s : ℕ) (h : r + s ≤ p) :
    tri (K := K) P r s = F (List.replicate r (1 / 2) ++ (List.replicate (p - r - s) 0 ++ List.replicate s 1)) := by
  induction r generalizing s with
  | zero => simp only [tri]; rw [hP s (by omega)]; simp
  | succ r ih =>
    simp only [tri]
    rw [ih s (by omega), ih (s + 1) (by omega)]
    have e1 : F (List.replicate r (1 / 2) ++ (List.replicate (p - r - s) 0 ++ List.replicate s 1)) =
        F (0 :: (List.replicate r (1 / 2) ++ (List.replicate (p - (r + 1) - s) 0 ++ List.replicate s 1))) := by
      apply hF.perm
      · simp; omega
      · rw [show p - r - s = (p - (r + 1) - s) + 1 by omega, List.replicate_succ, List.cons_append]
        exact List.perm_middle
    have e2 : F (List.replicate r (1 / 2) ++ (List.replicate (p - r - (s + 1)) 0 ++ List.replicate (s + 1) 1)) =
        F (1 :: (List.replicate r (1 / 2) ++ (List.replicate (p - (r + 1) - s) 0 ++ List.replicate s 1))) := by
      apply hF.perm
      · simp; omega
      · rw [show p - r - (s + 1) = p - (r + 1) - s by omega, List.replicate_succ]
        exact (List.Perm.append_left _ List.perm_middle).trans List.perm_middle
    rw [e1, e2]
    have h2 : (2 : K) ≠ 0 := NeZero.ne 2
    have ha := hF.affine (1 / 2) 0 1 (List.replicate r (1 / 2) ++ (List.replicate (p - (r + 1) - s) 0 ++ List.replicate s 1))
      (by simp; omega)
    have hh : (1 : K) - 1 / 2 = 1 / 2 := by field_simp; ring
    rw [hh, mul_zero, zero_add, mul_one] at ha
    rw [List.replicate_succ, List.cons_append, ha]
end tri

variable {K : Type} [Field K] [LinearOrder K] [IsStrictOrderedRing K]

/-- Knots of a single Bezier piece. -/
def bezK (p : ℕ) : ℕ → K := kn (List.replicate (p + 1) (0 : K) ++ List.replicate (p + 1) 1)

theorem win_bez (p i : ℕ) (hi : i ≤ p) : win (bezK (K := K) p) i p = List.replicate (p - i) 0 ++ List.replicate i 1 := by
  apply List.ext_getElem
  · simp [win]; omega
  · intro n h1 h2
    simp only [win, List.length_map, List.length_range] at h1
    simp only [win, List.getElem_map, List.getElem_range]
    unfold bezK
    rw [bez_kn]
    by_cases h : i + 1 + n ≤ p
    · rw [if_pos h, List.getElem_append_left (by simp; omega), List.getElem_replicate]
    · rw [if_neg h, if_pos (by omega), List.getElem_append_right (by simp; omega), List.getElem_replicate]

theorem bez_reg (p : ℕ) : RegSpan (bezK (K := K) p) p p := by
  intro q i hq h1 h2
  unfold bezK
  rw [bez_kn, bez_kn, if_neg (by omega), if_pos (by omega), if_pos (by omega)]
  exact one_ne_zero

section
variable {V : Type} [AddCommGroup V] [Module K V]

/-- Point of the Bezier curve with control points `P` at parameter `t`. -/
def bezPt (p : ℕ) (P : ℕ → V) (t : K) : V := seg (bezK p) p t p P

theorem bez_polar (p : ℕ) (P : ℕ → V) (i : ℕ) (hi : i ≤ p) :
    P i = blos (bezK (K := K) p) (List.replicate (p - i) 0 ++ List.replicate i 1) P p := by
  rw [← win_bez p i hi, blos_win _ p p _ P le_rfl (bez_reg p) (by omega) hi]

/-- Left half. -/
theorem bezPt_left (p : ℕ) (P : ℕ → V) (t : K) :
    bezPt p (fun r => tri (K := K) P r 0) t = bezPt p P (t / 2) := by
  have hF := multiAffine_blos (bezK (K := K) p) p p P le_rfl (bez_reg p)
  have hG := hF.comp_affine 0 (1 / 2)
  unfold bezPt
  rw [seg_eq_of_dual (bezK (K := K) p) p p _ _ hG le_rfl (bez_reg p) (by
      intro i _ hi
      rw [win_bez p i hi, tri_polar hF P (fun i hi => bez_polar p P i hi) i 0 (by omega)]
      apply hF.perm
      · simp; omega
      · simp only [List.map_append, List.map_replicate, List.replicate_zero, List.append_nil, Nat.sub_zero]
        rw [show (0 : K) + 0 * (1 / 2 - 0) = 0 by ring, show (0 : K) + 1 * (1 / 2 - 0) = 1 / 2 by ring]
        exact List.perm_append_comm) t,
    seg_eq_blos _ _ _ _ _ le_rfl, List.map_replicate]
  rw [show 0 + t * (1 / 2 - 0) = t / 2 by ring]

/-- Right half. -/
theorem bezPt_right (p : ℕ) (P : ℕ → V) (t : K) :
    bezPt p (fun r => tri (K := K) P (p - r) r) t = bezPt p P ((1 + t) / 2) := by
  have hF := multiAffine_blos (bezK (K := K) p) p p P le_rfl (bez_reg p)
  have hG := hF.comp_affine (1 / 2) 1
  unfold bezPt
  rw [seg_eq_of_dual (bezK (K := K) p) p p _ _ hG le_rfl (bez_reg p) (by
      intro i _ hi
      rw [win_bez p i hi, tri_polar hF P (fun i hi => bez_polar p P i hi) (p - i) i (by omega)]
      simp only [List.map_append, List.map_replicate]
      rw [show p - (p - i) - i = 0 by omega, List.replicate_zero, List.nil_append,
        show (1 / 2 : K) + 0 * (1 - 1 / 2) = 1 / 2 by ring, show (1 / 2 : K) + 1 * (1 - 1 / 2) = 1 by ring]) t,
    seg_eq_blos _ _ _ _ _ le_rfl, List.map_replicate]
  rw [show 1 / 2 + t * (1 - 1 / 2) = (1 + t) / 2 by ring]
end

theorem bezPt_ge (p : ℕ) (P : ℕ → K) (t m : K) (h0 : 0 ≤ t) (h1 : t ≤ 1) (h : ∀ i ≤ p, m ≤ P i) : m ≤ bezPt p P t := by
  have hm : ∀ a b, a ≤ b → b ≤ p + p → bezK (K := K) p a ≤ bezK p b := by
    intro a b hab hb
    exact kn_mono (bez_clamped p).sorted hab (by simp; omega)
  have hk0 : bezK (K := K) p p = 0 := by unfold bezK; rw [bez_kn, if_pos le_rfl]
  have hk1 : bezK (K := K) p (p + 1) = 1 := by unfold bezK; rw [bez_kn, if_neg (by omega), if_pos (by omega)]
  have h2 := seg_nonpos (bezK p) p t p le_rfl hm (hk0.le.trans h0) (h1.trans hk1.ge) (fun i => m - P i)
    (fun i _ hi => by have := h i hi; linarith)
  have h3 : seg (bezK p) p t p (fun i => m - P i) = m - bezPt p P t := by
    have e := seg_const (bezK p) p t p le_rfl (bez_reg p) m
    unfold bezPt
    rw [← e]
    simp only [seg, smul_eq_mul, mul_sub, Finset.sum_sub_distrib]
    congr 1
    rw [Finset.sum_congr rfl]
    intro x _
    have := e
    simp only [seg, smul_eq_mul] at this
    rw [this]
  rw [h3] at h2
  linarith

/-- Neighbour differences of the triangle do not grow. -/
theorem tri_diff {p : ℕ} {P : ℕ → K} {δ : K} (h : ∀ i < p, |P (i + 1) - P i| ≤ δ) (r s : ℕ) (hrs : r + s + 1 ≤ p) :
    |tri (K := K) P r (s + 1) - tri (K := K) P r s| ≤ δ := by
  induction r generalizing s with
  | zero => exact h s (by omega)
  | succ r ih =>
    have h1 := abs_le.mp (ih s (by omega))
    have h2 := abs_le.mp (ih (s + 1) (by omega))
    simp only [tri, smul_eq_mul]
    rw [abs_le]
    constructor <;> linarith [h1.1, h1.2, h2.1, h2.2]

theorem tri_left_diff {p : ℕ} {P : ℕ → K} {δ : K} (h : ∀ i < p, |P (i + 1) - P i| ≤ δ) (r : ℕ) (hr : r < p) :
    |tri (K := K) P (r + 1) 0 - tri (K := K) P r 0| ≤ δ / 2 := by
  have h1 := abs_le.mp (tri_diff h r 0 (by omega))
  simp only [tri, smul_eq_mul]
  rw [abs_le]
  constructor <;> linarith [h1.1, h1.2]

theorem tri_right_diff {p : ℕ} {P : ℕ → K} {δ : K} (h : ∀ i < p, |P (i + 1) - P i| ≤ δ) (i : ℕ) (hi : i < p) :
    |tri (K := K) P (p - (i + 1)) (i + 1) - tri (K := K) P (p - i) i| ≤ δ / 2 := by
  obtain ⟨q, hq⟩ : ∃ q, p - i = q + 1 := ⟨p - i - 1, by omega⟩
  rw [show p - (i + 1) = q by omega, hq]
  have h1 := abs_le.mp (tri_diff h q i (by omega))
  simp only [tri, smul_eq_mul]
  rw [abs_le]
  constructor <;> linarith [h1.1, h1.2]

theorem tri_bounds {p : ℕ} {P : ℕ → K} {lo hi : K} (h : ∀ i ≤ p, lo ≤ P i ∧ P i ≤ hi) (r s : ℕ) (hrs : r + s ≤ p) :
    lo ≤ tri (K := K) P r s ∧ tri (K := K) P r s ≤ hi := by
  induction r generalizing s with
  | zero => exact h s (by omega)
  | succ r ih =>
    have h1 := ih s (by omega)
    have h2 := ih (s + 1) (by omega)
    simp only [tri, smul_eq_mul]
    constructor <;> linarith [h1.1, h1.2, h2.1, h2.2]

/-! ### The code -/

theorem casteljau_ok (p : ℕ) (P : ℕ → Vec4 K) (f : ℕ → ℕ → Vec4 K) :
    Curve.casteljau (p : Int) (tab (p + 1) P) (tab (p + 1) fun i => tab (p + 1) (f i)) =
      .ok (tab (p + 1) fun i => tab (p + 1) fun j => if i + j ≤ p then tri (K := K) P i j else f i j) := by
  unfold Curve.casteljau
  rw [forLe_eq_forUp 0 p (p + 1) (by omega)]
  have h1 := forUp_eq (fun s b => do mset b 0 s (← vget (tab (p + 1) P) s))
    (fun q => tab (p + 1) fun i => tab (p + 1) fun j => if i = 0 ∧ j < q then tri (K := K) P i j else f i j) (p + 1) 0 (by
      intro q hq
      rw [vget_tab _ _ _ q (by simp) hq, bind_ok]
      apply mset_tab _ _ _ _ _ _ 0 q _ rfl (by simp) (by omega) hq
      intro k _ l _
      by_cases hk : k = 0 ∧ l = q
      · rw [if_pos hk, if_pos (by omega), hk.1, hk.2]; rfl
      · rw [if_neg hk]
        by_cases h : k = 0 ∧ l < q
        · rw [if_pos h, if_pos (by omega)]
        · rw [if_neg h, if_neg (by omega)])
  have hinit : (tab (p + 1) fun i => tab (p + 1) (f i)) =
      tab (p + 1) fun i => tab (p + 1) fun j => if i = 0 ∧ j < 0 then tri (K := K) P i j else f i j := by
    apply tab_congr; intro i _; apply tab_congr; intro j _; rw [if_neg (by omega)]
  rw [hinit, h1, bind_ok, forLe_eq_forUp 1 p p (by omega)]
  have h2 := forUp_eq (fun r b => forLe 0 ((p : Int) - r) (fun s b => do
      mset b r s ((1 / 2 : K) • (← mget b (r - 1) s) + (1 / 2 : K) • (← mget b (r - 1) (s + 1)))) b)
    (fun q => tab (p + 1) fun i => tab (p + 1) fun j => if i ≤ q ∧ i + j ≤ p then tri (K := K) P i j else f i j) p 1 (by
      intro q hq
      rw [forLe_eq_forUp 0 _ (p - q) (by omega)]
      have h3 := forUp_eq (fun s b => do
          mset b (1 + (q : Int)) s ((1 / 2 : K) • (← mget b (1 + (q : Int) - 1) s) + (1 / 2 : K) • (← mget b (1 + (q : Int) - 1) (s + 1))))
        (fun n => tab (p + 1) fun i => tab (p + 1) fun j =>
          if (i ≤ q ∧ i + j ≤ p) ∨ (i = q + 1 ∧ j < n) then tri (K := K) P i j else f i j) (p - q) 0 (by
          intro n hn
          rw [mget_tab _ _ _ _ _ q n (by omega) (by omega) (by omega) (by omega), bind_ok,
            mget_tab _ _ _ _ _ q (n + 1) (by omega) (by omega) (by omega) (by omega), bind_ok,
            if_pos (show (q ≤ q ∧ q + n ≤ p) ∨ (q = q + 1 ∧ n < n) by omega),
            if_pos (show (q ≤ q ∧ q + (n + 1) ≤ p) ∨ (q = q + 1 ∧ n + 1 < n) by omega)]
          apply mset_tab _ _ _ _ _ _ (q + 1) n _ (by push_cast; ring) (by omega) (by omega) (by omega)
          intro k _ l _
          by_cases hk : k = q + 1 ∧ l = n
          · rw [if_pos hk, if_pos (by omega), hk.1, hk.2]; rfl
          · rw [if_neg hk]
            by_cases h : (k ≤ q ∧ k + l ≤ p) ∨ (k = q + 1 ∧ l < n)
            · rw [if_pos h, if_pos (by omega)]
            · rw [if_neg h, if_neg (by omega)])
      have hinit' : (tab (p + 1) fun i => tab (p + 1) fun j => if i ≤ q ∧ i + j ≤ p then tri (K := K) P i j else f i j) =
          tab (p + 1) fun i => tab (p + 1) fun j =>
            if (i ≤ q ∧ i + j ≤ p) ∨ (i = q + 1 ∧ j < 0) then tri (K := K) P i j else f i j := by
        apply tab_congr; intro i _; apply tab_congr; intro j _
        congr 1; apply propext; constructor <;> intro h <;> omega
      rw [hinit', h3]
      congr 1
      apply tab_congr; intro i _; apply tab_congr; intro j _
      congr 1; apply propext; constructor <;> intro h <;> omega)
  have hinit2 : (tab (p + 1) fun i => tab (p + 1) fun j => if i = 0 ∧ j < p + 1 then tri (K := K) P i j else f i j) =
      tab (p + 1) fun i => tab (p + 1) fun j => if i ≤ 0 ∧ i + j ≤ p then tri (K := K) P i j else f i j := by
    apply tab_congr; intro i _; apply tab_congr; intro j _
    congr 1; apply propext; constructor <;> intro h <;> omega
  rw [hinit2, h2]
  congr 1
  apply tab_congr; intro i hi; apply tab_congr; intro j _
  congr 1; apply propext; constructor <;> intro h <;> omega

theorem casteljauHalves_ok (p : ℕ) (g : ℕ → ℕ → Vec4 K) :
    Curve.casteljauHalves (p : Int) (tab (p + 1) fun i => tab (p + 1) (g i)) =
      .ok (tab (p + 1) fun r => g r 0, tab (p + 1) fun r => g (p - r) r) := by
  unfold Curve.casteljauHalves
  rw [vnew_of _ (p + 1) _ (by push_cast; rfl), bind_ok, bind_ok, forLe_eq_forUp 0 p (p + 1) (by omega), replicate_eq_tab]
  have h := forUp_eq (fun r (LR : List (Vec4 K) × List (Vec4 K)) => do
      let L ← vset LR.1 r (← mget (tab (p + 1) fun i => tab (p + 1) (g i)) r 0)
      let R ← vset LR.2 r (← mget (tab (p + 1) fun i => tab (p + 1) (g i)) ((p : Int) - r) r)
      return (L, R))
    (fun q => (tab (p + 1) fun r => if r < q then g r 0 else 0, tab (p + 1) fun r => if r < q then g (p - r) r else 0)) (p + 1) 0 (by
      intro q hq
      simp only
      rw [mget_tab _ _ _ _ _ q 0 (by simp) (by simp : (0 : Int) = ((0 : ℕ) : Int)) hq (by omega), bind_ok,
        vset_tab' _ _ (fun r => if r < q + 1 then g r 0 else 0) _ q _ (by simp) hq (by
          intro k hk
          by_cases h : k = q
          · subst h; simp
          · rw [if_neg h]
            by_cases h2 : k < q
            · rw [if_pos (by omega), if_pos h2]
            · rw [if_neg (by omega), if_neg h2]), bind_ok,
        mget_tab _ _ _ _ _ (p - q) q (by omega) (by simp) (by omega) hq, bind_ok,
        vset_tab' _ _ (fun r => if r < q + 1 then g (p - r) r else 0) _ q _ (by simp) hq (by
          intro k hk
          by_cases h : k = q
          · subst h; simp
          · rw [if_neg h]
            by_cases h2 : k < q
            · rw [if_pos (by omega), if_pos h2]
            · rw [if_neg (by omega), if_neg h2]), bind_ok]
      rfl)
  simp only [Nat.not_lt_zero, if_false] at h
  rw [h]
  congr 2
  · apply tab_congr; intro i hi; rw [if_pos hi]
  · apply tab_congr; intro i hi; rw [if_pos hi]

end Nurbs

namespace Nurbs
open Nurbs.Spec

variable {K : Type} [Field K] [LinearOrder K] [IsStrictOrderedRing K]

/-- Coordinate of a control point as a linear form. -/
def l4 (k : Axis) : Vec4 K →ₗ[K] K := match k with
  | .x => Vec4.lx
  | .y => Vec4.ly
  | .z => Vec4.lz

theorem coord_head3 (k : Axis) (v : Vec4 K) : coord k v.head3 = l4 k v := by cases k <;> rfl
theorem coord_cwiseMin (k : Axis) (a b : Vec3 K) : coord k (a.cwiseMin b) = min (coord k a) (coord k b) := by cases k <;> rfl
theorem coord_cwiseMax (k : Axis) (a b : Vec3 K) : coord k (a.cwiseMax b) = max (coord k a) (coord k b) := by cases k <;> rfl
theorem coord_ext {a b : Vec3 K} (h : ∀ k, coord k a = coord k b) : a = b := by
  ext
  · exact h .x
  · exact h .y
  · exact h .z

theorem expandPoint_max (b : BoundingBox K) (v : Vec3 K) : (b.ExpandToIncludePoint v).Max = v := by
  apply coord_ext
  intro k
  simp only [BoundingBox.ExpandToIncludePoint, coord_cwiseMax, coord_cwiseMin]
  exact max_eq_right (min_le_right _ _)

theorem foldExpand_spec (l : List (Vec4 K)) (box : BoundingBox K) :
    let r := l.foldl (fun box p => box.ExpandToIncludePoint p.head3) box
    (∀ k, coord k r.Min ≤ coord k box.Min ∧ (∀ q ∈ l, coord k r.Min ≤ l4 k q) ∧
      (coord k r.Min = coord k box.Min ∨ ∃ q ∈ l, coord k r.Min = l4 k q)) ∧
    r.Max = (l.getLast?.map Vec4.head3).getD box.Max := by
  induction l generalizing box with
  | nil => exact ⟨fun k => ⟨le_rfl, by simp, Or.inl rfl⟩, rfl⟩
  | cons q l ih =>
    obtain ⟨h1, h2⟩ := ih (box.ExpandToIncludePoint q.head3)
    simp only [List.foldl_cons]
    have hm : ∀ k, coord k (box.ExpandToIncludePoint q.head3).Min = min (coord k box.Min) (l4 k q) := by
      intro k
      simp only [BoundingBox.ExpandToIncludePoint, coord_cwiseMin, coord_head3]
    refine ⟨fun k => ?_, ?_⟩
    · obtain ⟨a1, a2, a3⟩ := h1 k
      rw [hm k] at a1 a3
      refine ⟨a1.trans (min_le_left _ _), ?_, ?_⟩
      · intro q' hq'
        rcases List.mem_cons.mp hq' with rfl | h
        · exact a1.trans (min_le_right _ _)
        · exact a2 q' h
      · rcases a3 with a3 | ⟨q', hq', a3⟩
        · rcases min_choice (coord k box.Min) (l4 k q) with h | h
          · left; rw [a3, h]
          · right; exact ⟨q, by simp, by rw [a3, h]⟩
        · right; exact ⟨q', by simp [hq'], a3⟩
    · rw [h2, expandPoint_max]
      cases l with
      | nil => simp
      | cons q' l => simp [List.getLast?_cons]

theorem controlBox_ok (p : ℕ) (P : ℕ → Vec4 K) : ∃ box, Curve.controlBox (tab (p + 1) P) = .ok box ∧
    (∀ k, (∀ i ≤ p, coord k box.Min ≤ l4 k (P i)) ∧ ∃ i ≤ p, coord k box.Min = l4 k (P i)) ∧ box.Max = (P p).head3 := by
  unfold Curve.controlBox
  rw [vget_tab _ _ _ 0 (by simp) (by omega), bind_ok]
  refine ⟨_, rfl, ?_⟩
  have hdrop : (tab (p + 1) P).drop 1 = tab p (fun i => P (i + 1)) := by
    simp [tab, List.range_succ_eq_map, Function.comp_def]
  rw [hdrop]
  obtain ⟨h1, h2⟩ := foldExpand_spec (tab p fun i => P (i + 1)) (BoundingBox.ofPoints (P 0).head3 (P 0).head3)
  have hb : ∀ k, coord k (BoundingBox.ofPoints (P 0).head3 (P 0).head3).Min = l4 k (P 0) := by
    intro k
    simp only [BoundingBox.ofPoints, coord_cwiseMin, min_self, coord_head3]
  refine ⟨fun k => ?_, ?_⟩
  · obtain ⟨a1, a2, a3⟩ := h1 k
    rw [hb] at a1 a3
    refine ⟨fun i hi => ?_, ?_⟩
    · rcases Nat.eq_zero_or_pos i with rfl | h
      · exact a1
      · apply a2
        simp only [tab, List.mem_map, List.mem_range]
        exact ⟨i - 1, by omega, by rw [Nat.sub_add_cancel h]⟩
    · rcases a3 with a3 | ⟨q, hq, a3⟩
      · exact ⟨0, by omega, a3⟩
      · simp only [tab, List.mem_map, List.mem_range] at hq
        obtain ⟨i, hi, rfl⟩ := hq
        exact ⟨i + 1, by omega, a3⟩
  · rw [h2]
    rcases Nat.eq_zero_or_pos p with rfl | h
    · apply coord_ext
      intro k
      simp [tab, BoundingBox.ofPoints, coord_cwiseMax]
    · obtain ⟨q, rfl⟩ : ∃ q, p = q + 1 := ⟨p - 1, by omega⟩
      simp [tab, List.range_succ]

theorem endBox_ok (p : ℕ) (P : ℕ → Vec4 K) :
    Curve.endBox (tab (p + 1) P) = .ok (BoundingBox.ofPoints (P 0).head3 (P p).head3) := by
  unfold Curve.endBox
  rw [vget_tab _ _ _ 0 (by simp) (by omega), bind_ok, vget_tab _ _ _ p (by simp) (by omega), bind_ok]
  rfl

theorem approxVec3_iff (a b : Vec3 K) (e : K) : Curve.approxVec3 a b e = true ↔ ∀ k, |coord k a - coord k b| < e := by
  unfold Curve.approxVec3
  rw [decide_eq_true_eq]
  change max |a.x - b.x| (max |a.y - b.y| |a.z - b.z|) < e ↔ _
  rw [max_lt_iff, max_lt_iff]
  constructor
  · rintro ⟨h1, h2, h3⟩ k
    cases k
    · exact h1
    · exact h2
    · exact h3
  · intro h
    exact ⟨h .x, h .y, h .z⟩

theorem telescope_le {P : ℕ → K} {p : ℕ} {δ : K} (h : ∀ i < p, |P (i + 1) - P i| ≤ δ) (i n : ℕ) (hn : i + n ≤ p) :
    |P (i + n) - P i| ≤ n * δ := by
  induction n with
  | zero => simp
  | succ n ih =>
    have h1 := abs_le.mp (ih (by omega))
    have h2 := abs_le.mp (h (i + n) (by omega))
    rw [← add_assoc, abs_le]
    push_cast
    constructor <;> linarith [h1.1, h1.2, h2.1, h2.2]

theorem telescope {P : ℕ → K} {p : ℕ} {δ : K} (hδ : 0 ≤ δ) (h : ∀ i < p, |P (i + 1) - P i| ≤ δ) {i j : ℕ} (hi : i ≤ p) (hj : j ≤ p) :
    |P j - P i| ≤ p * δ := by
  have key : ∀ {i j : ℕ}, i ≤ j → j ≤ p → |P j - P i| ≤ p * δ := by
    intro i j hij hj
    have := telescope_le h i (j - i) (by omega)
    rw [Nat.add_sub_cancel' hij] at this
    refine this.trans (mul_le_mul_of_nonneg_right ?_ hδ)
    exact_mod_cast (by omega : j - i ≤ p)
  rcases le_total i j with hij | hij
  · exact key hij hj
  · rw [abs_sub_comm]; exact key hij hi

/-- Small pieces are accepted. -/
theorem boxDone_of_small (sqrt : K → K) (eps : K) (p : ℕ) (P : ℕ → Vec4 K) (δ : K) (hδ : 0 ≤ δ)
    (h : ∀ k, ∀ i < p, |l4 k (P (i + 1)) - l4 k (P i)| ≤ δ) (hs : p * δ < eps6) {box : BoundingBox K}
    (hbox : (∀ k, (∀ i ≤ p, coord k box.Min ≤ l4 k (P i)) ∧ ∃ i ≤ p, coord k box.Min = l4 k (P i)) ∧ box.Max = (P p).head3) :
    Curve.boxDone sqrt eps box (BoundingBox.ofPoints (P 0).head3 (P p).head3) = true := by
  unfold Curve.boxDone
  rw [Bool.or_eq_true, Bool.and_eq_true, approxVec3_iff, approxVec3_iff]
  right
  constructor
  · intro k
    obtain ⟨a1, i, hi, a2⟩ := hbox.1 k
    simp only [BoundingBox.ofPoints, coord_cwiseMin, coord_head3]
    have m1 := abs_le.mp (telescope (P := fun i => l4 k (P i)) hδ (h k) (i := 0) (j := i) (by omega) hi)
    have h0 := a1 0 (by omega)
    have hp := a1 p le_rfl
    rw [abs_lt]
    constructor
    · have := min_le_left (l4 k (P 0)) (l4 k (P p))
      rw [a2]
      linarith [m1.1]
    · have := le_min h0 hp
      have h6 : (0 : K) < eps6 := by unfold eps6; positivity
      linarith
  · intro k
    rw [hbox.2]
    simp only [BoundingBox.ofPoints, coord_cwiseMax, coord_head3]
    have m1 := abs_le.mp (telescope (P := fun i => l4 k (P i)) hδ (h k) (i := 0) (j := p) (by omega) le_rfl)
    have h6 : (0 : K) < eps6 := by unfold eps6; positivity
    rw [abs_lt]
    rcases max_choice (l4 k (P 0)) (l4 k (P p)) with h' | h' <;> rw [h'] <;> constructor <;> linarith [m1.1, m1.2]

/-- What an accepted piece says about its control points: they are above the end-point box up to the tolerance. -/
theorem boxDone_lower (sqrt : K → K) (hsqrt : ∀ x, 0 ≤ x → 0 ≤ sqrt x ∧ sqrt x * sqrt x = x) (eps : K) (p : ℕ) (P : ℕ → Vec4 K)
    {box : BoundingBox K}
    (hbox : (∀ k, (∀ i ≤ p, coord k box.Min ≤ l4 k (P i)) ∧ ∃ i ≤ p, coord k box.Min = l4 k (P i)) ∧ box.Max = (P p).head3)
    (h : Curve.boxDone sqrt eps box (BoundingBox.ofPoints (P 0).head3 (P p).head3) = true) (k : Axis) (i : ℕ) (hi : i ≤ p) :
    min (l4 k (P 0)) (l4 k (P p)) - max eps eps6 ≤ l4 k (P i) := by
  obtain ⟨a1, _⟩ := hbox.1 k
  have a1 := a1 i hi
  refine le_trans ?_ a1
  unfold Curve.boxDone at h
  rw [Bool.or_eq_true, Bool.and_eq_true, approxVec3_iff, approxVec3_iff, decide_eq_true_eq] at h
  rcases h with h | ⟨h, _⟩
  · have hle : coord k box.Max - coord k box.Min ≤ eps := by
      refine le_trans ?_ h
      unfold Vec3.norm
      have hd : (coord k box.Max - coord k box.Min) * (coord k box.Max - coord k box.Min) ≤ box.Length.dot box.Length := by
        have e : ∀ a b : Vec3 K, (a - b).x = a.x - b.x ∧ (a - b).y = a.y - b.y ∧ (a - b).z = a.z - b.z := fun a b => ⟨rfl, rfl, rfl⟩
        simp only [Vec3.dot, BoundingBox.Length, (e _ _).1, (e _ _).2.1, (e _ _).2.2]
        have hx := mul_self_nonneg (box.Max.x - box.Min.x)
        have hy := mul_self_nonneg (box.Max.y - box.Min.y)
        have hz := mul_self_nonneg (box.Max.z - box.Min.z)
        cases k <;> simp only [coord] <;> linarith
      obtain ⟨s1, s2⟩ := hsqrt (box.Length.dot box.Length) ((mul_self_nonneg _).trans hd)
      rw [← s2] at hd
      exact le_of_not_gt fun hlt => absurd hd (not_le.mpr (mul_self_lt_mul_self s1 hlt))
    rw [hbox.2, coord_head3] at hle
    have := min_le_right (l4 k (P 0)) (l4 k (P p))
    have := le_max_left eps (eps6 : K)
    linarith
  · have h := (abs_lt.mp (h k)).1
    simp only [BoundingBox.ofPoints, coord_cwiseMin, coord_head3] at h
    have := le_max_right eps (eps6 : K)
    linarith

/-- A correct square root. -/
def SqrtOK (sqrt : K → K) : Prop := ∀ x, 0 ≤ x → 0 ≤ sqrt x ∧ sqrt x * sqrt x = x

/-- What is added to the global box by one piece. -/
structure BoxStep (sqrt : K → K) (p : ℕ) (eps : K) (P : ℕ → Vec4 K) (g : Option (BoundingBox K)) (g' : BoundingBox K) : Prop where
  grow : ∀ b, g = some b → ∀ k, coord k g'.Min ≤ coord k b.Min ∧ coord k b.Max ≤ coord k g'.Max
  ends : InBox g' (P 0).head3 ∧ InBox g' (P p).head3
  inside : ∀ k lo hi, (∀ i ≤ p, lo ≤ l4 k (P i) ∧ l4 k (P i) ≤ hi) → (∀ b, g = some b → lo ≤ coord k b.Min ∧ coord k b.Max ≤ hi) →
    lo ≤ coord k g'.Min ∧ coord k g'.Max ≤ hi
  lower : SqrtOK sqrt → ∀ k (t : K), 0 ≤ t → t ≤ 1 → coord k g'.Min - max eps eps6 ≤ bezPt p (fun i => l4 k (P i)) t

theorem boxStep_done (sqrt : K → K) (eps : K) (p : ℕ) (P : ℕ → Vec4 K) (g : Option (BoundingBox K)) {box : BoundingBox K}
    (hbox : (∀ k, (∀ i ≤ p, coord k box.Min ≤ l4 k (P i)) ∧ ∃ i ≤ p, coord k box.Min = l4 k (P i)) ∧ box.Max = (P p).head3)
    (h : Curve.boxDone sqrt eps box (BoundingBox.ofPoints (P 0).head3 (P p).head3) = true) :
    BoxStep sqrt p eps P g (match g with
      | none => BoundingBox.ofPoints (P 0).head3 (P p).head3
      | some g => g.ExpandToIncludeBox (BoundingBox.ofPoints (P 0).head3 (P p).head3)) := by
  have hmin : ∀ k, coord k (BoundingBox.ofPoints (P 0).head3 (P p).head3).Min = min (l4 k (P 0)) (l4 k (P p)) := fun k => by
    simp only [BoundingBox.ofPoints, coord_cwiseMin, coord_head3]
  have hmax : ∀ k, coord k (BoundingBox.ofPoints (P 0).head3 (P p).head3).Max = max (l4 k (P 0)) (l4 k (P p)) := fun k => by
    simp only [BoundingBox.ofPoints, coord_cwiseMax, coord_head3]
  have low : SqrtOK sqrt → ∀ k (t : K), 0 ≤ t → t ≤ 1 → ∀ m, m ≤ min (l4 k (P 0)) (l4 k (P p)) →
      m - max eps eps6 ≤ bezPt p (fun i => l4 k (P i)) t := by
    intro hs k t h0 h1 m hm
    apply bezPt_ge p _ t _ h0 h1
    intro i hi
    have := boxDone_lower sqrt hs eps p P hbox h k i hi
    linarith
  cases g with
  | none =>
    refine ⟨by simp, ⟨?_, ?_⟩, ?_, ?_⟩
    · intro k; rw [hmin, hmax, coord_head3]; exact ⟨min_le_left _ _, le_max_left _ _⟩
    · intro k; rw [hmin, hmax, coord_head3]; exact ⟨min_le_right _ _, le_max_right _ _⟩
    · intro k lo hi hP _
      rw [hmin, hmax]
      exact ⟨le_min (hP 0 (by omega)).1 (hP p le_rfl).1, max_le (hP 0 (by omega)).2 (hP p le_rfl).2⟩
    · intro hs k t h0 h1
      exact low hs k t h0 h1 _ (hmin k).le
  | some b =>
    have emin : ∀ k, coord k (b.ExpandToIncludeBox (BoundingBox.ofPoints (P 0).head3 (P p).head3)).Min =
        min (coord k b.Min) (min (l4 k (P 0)) (l4 k (P p))) := fun k => by
      rw [← hmin k]; simp only [BoundingBox.ExpandToIncludeBox, coord_cwiseMin]
    have emax : ∀ k, coord k (b.ExpandToIncludeBox (BoundingBox.ofPoints (P 0).head3 (P p).head3)).Max =
        max (coord k b.Max) (max (l4 k (P 0)) (l4 k (P p))) := fun k => by
      rw [← hmax k]; simp only [BoundingBox.ExpandToIncludeBox, coord_cwiseMax]
    refine ⟨?_, ⟨?_, ?_⟩, ?_, ?_⟩
    · rintro b' ⟨⟩ k
      simp only [emin, emax]
      exact ⟨min_le_left _ _, le_max_left _ _⟩
    · intro k; simp only [emin, emax, coord_head3]
      exact ⟨(min_le_right _ _).trans (min_le_left _ _), (le_max_left _ _).trans (le_max_right _ _)⟩
    · intro k; simp only [emin, emax, coord_head3]
      exact ⟨(min_le_right _ _).trans (min_le_right _ _), (le_max_right _ _).trans (le_max_right _ _)⟩
    · intro k lo hi hP hb
      simp only [emin, emax]
      obtain ⟨b1, b2⟩ := hb b rfl
      exact ⟨le_min b1 (le_min (hP 0 (by omega)).1 (hP p le_rfl).1), max_le b2 (max_le (hP 0 (by omega)).2 (hP p le_rfl).2)⟩
    · intro hs k t h0 h1
      simp only [emin]
      exact low hs k t h0 h1 _ (min_le_right _ _)

/-- Both halves together do the job of the whole piece. -/
theorem boxStep_halves {sqrt : K → K} {eps : K} {p : ℕ} {P : ℕ → Vec4 K} {g : Option (BoundingBox K)} {g1 g2 : BoundingBox K}
    (h1 : BoxStep sqrt p eps (fun r => tri (K := K) P r 0) g g1)
    (h2 : BoxStep sqrt p eps (fun r => tri (K := K) P (p - r) r) (some g1) g2) : BoxStep sqrt p eps P g g2 := by
  have hg := h2.grow g1 rfl
  refine ⟨?_, ⟨?_, ?_⟩, ?_, ?_⟩
  · intro b hb k
    have a := h1.grow b hb k
    exact ⟨(hg k).1.trans a.1, a.2.trans (hg k).2⟩
  · intro k
    have a := h1.ends.1 k
    exact ⟨(hg k).1.trans a.1, a.2.trans (hg k).2⟩
  · have a := h2.ends.2
    simpa [tri] using a
  · intro k lo hi hP hb
    apply h2.inside k lo hi
    · intro i hi'
      rw [tri_map]
      exact tri_bounds hP _ _ (by omega)
    · rintro b ⟨⟩
      apply h1.inside k lo hi _ hb
      intro i hi'
      rw [tri_map]
      exact tri_bounds hP _ _ (by omega)
  · intro hs k t h0 ht1
    by_cases ht : t ≤ 1 / 2
    · have a := h1.lower hs k (2 * t) (by linarith) (by linarith)
      simp only [tri_map] at a
      rw [bezPt_left, show 2 * t / 2 = t by ring] at a
      have := (hg k).1
      linarith
    · have ht := not_le.mp ht
      have a := h2.lower hs k (2 * t - 1) (by linarith) (by linarith)
      simp only [tri_map] at a
      rwa [bezPt_right, show (1 + (2 * t - 1)) / 2 = t by ring] at a

theorem boxLoop_piece (sqrt : K → K) (eps : K) (p : ℕ) (n : ℕ) :
    ∀ (P : ℕ → Vec4 K) (δ : K), 0 ≤ δ → (∀ k, ∀ i < p, |l4 k (P (i + 1)) - l4 k (P i)| ≤ δ) → p * δ < eps6 * 2 ^ n →
    ∃ m, ∀ (f : ℕ → ℕ → Vec4 K) (g : Option (BoundingBox K)), ∃ (f' : ℕ → ℕ → Vec4 K) (g' : BoundingBox K), BoxStep sqrt p eps P g g' ∧
      ∀ fuel stack, Curve.boxLoop sqrt (p : Int) eps (fuel + m) (tab (p + 1) P :: stack) (tab (p + 1) fun i => tab (p + 1) (f i)) g =
        Curve.boxLoop sqrt (p : Int) eps fuel stack (tab (p + 1) fun i => tab (p + 1) (f' i)) (some g') := by
  induction n with
  | zero =>
    intro P δ hδ h hs
    obtain ⟨box, e1, hbox⟩ := controlBox_ok p P
    have e2 := endBox_ok p P
    have hd := boxDone_of_small sqrt eps p P δ hδ h (by simpa using hs) hbox
    refine ⟨1, fun f g => ⟨f, _, boxStep_done sqrt eps p P g hbox hd, ?_⟩⟩
    intro fuel stack
    rw [Curve.boxLoop, e1, bind_ok, e2, bind_ok, if_pos hd]
    cases g <;> rfl
  | succ n ih =>
    intro P δ hδ h hs
    obtain ⟨box, e1, hbox⟩ := controlBox_ok p P
    have e2 := endBox_ok p P
    by_cases hd : Curve.boxDone sqrt eps box (BoundingBox.ofPoints (P 0).head3 (P p).head3) = true
    · refine ⟨1, fun f g => ⟨f, _, boxStep_done sqrt eps p P g hbox hd, ?_⟩⟩
      intro fuel stack
      rw [Curve.boxLoop, e1, bind_ok, e2, bind_ok, if_pos hd]
      cases g <;> rfl
    · have hs' : (p : K) * (δ / 2) < eps6 * 2 ^ n := by
        rw [pow_succ] at hs
        linarith
      obtain ⟨m1, r1⟩ := ih (fun r => tri (K := K) P r 0) (δ / 2) (by linarith) (by
        intro k i hi
        simp only [tri_map]
        exact tri_left_diff (h k) i hi) hs'
      obtain ⟨m2, r2⟩ := ih (fun r => tri (K := K) P (p - r) r) (δ / 2) (by linarith) (by
        intro k i hi
        simp only [tri_map]
        exact tri_right_diff (h k) i hi) hs'
      refine ⟨m2 + m1 + 1, fun f g => ?_⟩
      obtain ⟨f1, g1, b1, q1⟩ := r1 (fun i j => if i + j ≤ p then tri (K := K) P i j else f i j) g
      obtain ⟨f2, g2, b2, q2⟩ := r2 f1 (some g1)
      refine ⟨f2, g2, boxStep_halves b1 b2, ?_⟩
      intro fuel stack
      rw [← add_assoc, Curve.boxLoop, e1, bind_ok, e2, bind_ok, if_neg hd, casteljau_ok, bind_ok, casteljauHalves_ok, bind_ok]
      have hl : (tab (p + 1) fun r => if r + 0 ≤ p then tri (K := K) P r 0 else f r 0) = tab (p + 1) fun r => tri (K := K) P r 0 :=
        tab_congr fun i hi => by rw [if_pos (by omega)]
      have hr : (tab (p + 1) fun r => if p - r + r ≤ p then tri (K := K) P (p - r) r else f (p - r) r) =
          tab (p + 1) fun r => tri (K := K) P (p - r) r := tab_congr fun i hi => by rw [if_pos (by omega)]
      simp only
      rw [hl, hr, ← add_assoc, q1, q2]

theorem exists_level [Archimedean K] (p : ℕ) (P : ℕ → Vec4 K) : ∃ (δ : K) (n : ℕ), 0 ≤ δ ∧
    (∀ k, ∀ i < p, |l4 k (P (i + 1)) - l4 k (P i)| ≤ δ) ∧ p * δ < eps6 * 2 ^ n := by
  have h6 : (0 : K) < eps6 := by unfold eps6; positivity
  have hn : ∀ k, 0 ≤ ∑ i ∈ Finset.range p, |l4 k (P (i + 1)) - l4 k (P i)| := fun k => Finset.sum_nonneg fun _ _ => abs_nonneg _
  refine ⟨(∑ i ∈ Finset.range p, |l4 .x (P (i + 1)) - l4 .x (P i)|) + (∑ i ∈ Finset.range p, |l4 .y (P (i + 1)) - l4 .y (P i)|) +
    (∑ i ∈ Finset.range p, |l4 .z (P (i + 1)) - l4 .z (P i)|), ?_⟩
  set δ := (∑ i ∈ Finset.range p, |l4 .x (P (i + 1)) - l4 .x (P i)|) + (∑ i ∈ Finset.range p, |l4 .y (P (i + 1)) - l4 .y (P i)|) +
    (∑ i ∈ Finset.range p, |l4 .z (P (i + 1)) - l4 .z (P i)|) with hδ
  obtain ⟨n, h⟩ := pow_unbounded_of_one_lt (p * δ / eps6) (one_lt_two (α := K))
  refine ⟨n, by linarith [hn .x, hn .y, hn .z], ?_, ?_⟩
  · intro k i hi
    have : |l4 k (P (i + 1)) - l4 k (P i)| ≤ ∑ i ∈ Finset.range p, |l4 k (P (i + 1)) - l4 k (P i)| :=
      Finset.single_le_sum (f := fun i => |l4 k (P (i + 1)) - l4 k (P i)|) (fun _ _ => abs_nonneg _) (Finset.mem_range.mpr hi)
    cases k <;> linarith [hn .x, hn .y, hn .z]
  · rw [div_lt_iff₀ h6] at h
    linarith

/-- Effect of the loop over the pieces on the global box. -/
structure BoxFold (sqrt : K → K) (p : ℕ) (eps : K) (l : List (Curve K)) (g g' : Option (BoundingBox K)) : Prop where
  grow : ∀ b, g = some b → ∃ b', g' = some b' ∧ ∀ k, coord k b'.Min ≤ coord k b.Min ∧ coord k b.Max ≤ coord k b'.Max
  each : ∀ s ∈ l, ∃ b', g' = some b' ∧ InBox b' (pt s.ControlPoints 0).head3 ∧ InBox b' (pt s.ControlPoints p).head3 ∧
    (SqrtOK sqrt → ∀ k (t : K), 0 ≤ t → t ≤ 1 → coord k b'.Min - max eps eps6 ≤ bezPt p (fun i => l4 k (pt s.ControlPoints i)) t)
  inside : ∀ k lo hi, (∀ s ∈ l, ∀ i ≤ p, lo ≤ l4 k (pt s.ControlPoints i) ∧ l4 k (pt s.ControlPoints i) ≤ hi) →
    (∀ b, g = some b → lo ≤ coord k b.Min ∧ coord k b.Max ≤ hi) → ∀ b, g' = some b → lo ≤ coord k b.Min ∧ coord k b.Max ≤ hi

theorem boxFold_ok [Archimedean K] (sqrt : K → K) (eps : K) (p : ℕ) (l : List (Curve K))
    (hl : ∀ s ∈ l, s.ControlPoints.length = p + 1) :
    ∃ F, ∀ (f : ℕ → ℕ → Vec4 K) (g : Option (BoundingBox K)), ∃ (f' : ℕ → ℕ → Vec4 K) (g' : Option (BoundingBox K)),
      BoxFold sqrt p eps l g g' ∧ ∀ fuel, F ≤ fuel →
        foldMList (fun (seg : Curve K) (s : List (List (Vec4 K)) × Option (BoundingBox K)) =>
          Curve.boxLoop sqrt (p : Int) eps fuel [seg.ControlPoints] s.1 s.2) l (tab (p + 1) fun i => tab (p + 1) (f i), g) =
        .ok (tab (p + 1) fun i => tab (p + 1) (f' i), g') := by
  induction l with
  | nil =>
    refine ⟨0, fun f g => ⟨f, g, ⟨fun b hb => ⟨b, hb, fun k => ⟨le_rfl, le_rfl⟩⟩, by simp, ?_⟩, fun fuel _ => rfl⟩⟩
    intro k lo hi _ h b hb
    exact h b hb
  | cons s l ih =>
    obtain ⟨F, hF⟩ := ih (fun s hs => hl s (by simp [hs]))
    obtain ⟨δ, n, h1, h2, h3⟩ := exists_level p (pt s.ControlPoints)
    obtain ⟨m, hm⟩ := boxLoop_piece sqrt eps p n (pt s.ControlPoints) δ h1 h2 h3
    refine ⟨max F (m + 1), fun f g => ?_⟩
    obtain ⟨f1, g1, b1, e1⟩ := hm f g
    obtain ⟨f2, g2, b2, e2⟩ := hF f1 (some g1)
    obtain ⟨b', hb', hgrow⟩ := b2.grow g1 rfl
    refine ⟨f2, g2, ⟨?_, ?_, ?_⟩, ?_⟩
    · intro b hb
      refine ⟨b', hb', fun k => ?_⟩
      have a := b1.grow b hb k
      exact ⟨(hgrow k).1.trans a.1, a.2.trans (hgrow k).2⟩
    · intro s' hs'
      rcases List.mem_cons.mp hs' with rfl | hs'
      · refine ⟨b', hb', ?_, ?_, ?_⟩
        · intro k
          have a := b1.ends.1 k
          exact ⟨(hgrow k).1.trans a.1, a.2.trans (hgrow k).2⟩
        · intro k
          have a := b1.ends.2 k
          exact ⟨(hgrow k).1.trans a.1, a.2.trans (hgrow k).2⟩
        · intro hs k t h0 h1
          have a := b1.lower hs k t h0 h1
          have := (hgrow k).1
          linarith
      · exact b2.each s' hs'
    · intro k lo hi hP hb
      apply b2.inside k lo hi (fun s hs => hP s (by simp [hs]))
      rintro b ⟨⟩
      exact b1.inside k lo hi (hP s (by simp)) hb
    · intro fuel hfuel
      have e : s.ControlPoints = tab (p + 1) (pt s.ControlPoints) := by
        have := eq_tab_pt s.ControlPoints
        rwa [hl s (by simp)] at this
      simp only [foldMList]
      obtain ⟨q, rfl⟩ : ∃ q, fuel = q + 1 + m := ⟨fuel - 1 - m, by omega⟩
      have e3 := e1 (q + 1) []
      rw [← e, Curve.boxLoop] at e3
      rw [e3, bind_ok]
      exact e2 _ (by omega)

/-- A convex condition on homogeneous control points survives knot insertion. -/
theorem insertList_convex {p : ℕ} {Q : Vec4 K → Prop}
    (hQ : ∀ a b (r : K), Q a → Q b → 0 ≤ r → r ≤ 1 → Q (r • a + (1 - r) • b))
    (vs : List K) (hv : ∀ v ∈ vs, 0 < v ∧ v < 1) {c c' : Curve K} (hw : WFCurve p c) (hp : 1 ≤ p)
    (h : ∀ i < c.ControlPoints.length, Q (hpts c.ControlPoints i)) (e : c.InsertKnotList vs = .ok c') :
    ∀ i < c'.ControlPoints.length, Q (hpts c'.ControlPoints i) := by
  induction vs generalizing c with
  | nil =>
    unfold Curve.InsertKnotList at e
    simp only [foldMList] at e
    cases e
    exact h
  | cons v vs ih =>
    obtain ⟨h0, h1⟩ := hv v (by simp)
    obtain ⟨k, hk, _⟩ := exists_span hw.clamped h0.le h1.le
    have hw' := insCurve_wf hw hk h0 h1
    unfold Curve.InsertKnotList at e
    simp only [foldMList] at e
    rw [insertListStep_ok hw hk h0 h1, bind_ok] at e
    apply ih (fun v hv' => hv v (by simp [hv'])) hw' _ e
    intro i hi
    have hi' : i < c.ControlPoints.length + 1 := by simpa [insCurve] using hi
    rw [insCurve_hpts hw hk h0 h1 i hi']
    obtain ⟨hpk, hlk, hkn⟩ := ins_bounds hw hk h0 h1
    unfold insP
    split_ifs with ha hb
    · exact h i (by omega)
    · unfold step
      have hne := (ins_step_pos hw hk h0 h1 i (by omega) hb).1
      have hd : 0 < kn c.Knots.Values (i + p) - kn c.Knots.Values i :=
        lt_of_le_of_ne (sub_nonneg.mpr (kn_mono hw.clamped.sorted (by omega) (by omega))) hne.symm
      have n1 : kn c.Knots.Values i ≤ v := (kn_mono hw.clamped.sorted hb (by omega)).trans hk.2.1
      have n2 : v ≤ kn c.Knots.Values (i + p) := (IsSpan.le_right hk).trans (kn_mono hw.clamped.sorted (by omega) (by omega))
      have := hQ _ _ ((kn c.Knots.Values (i + p) - v) / (kn c.Knots.Values (i + p) - kn c.Knots.Values i))
        (h (i - 1) (by omega)) (h i (by omega)) (div_nonneg (by linarith) hd.le) ((div_le_one hd).mpr (by linarith))
      have e1 : 1 - (kn c.Knots.Values (i + p) - v) / (kn c.Knots.Values (i + p) - kn c.Knots.Values i) =
          (v - kn c.Knots.Values i) / (kn c.Knots.Values (i + p) - kn c.Knots.Values i) := by
        field_simp; ring
      rwa [e1] at this
    · exact h (i - 1) (by omega)

theorem l4_toHomo (k : Axis) (v : Vec4 K) : l4 k (ToHomo v) = l4 k v * v.w := by cases k <;> rfl

theorem coord_proj (k : Axis) (v : Vec4 K) : coord k (proj v) = l4 k v / v.w := by cases k <;> rfl

/-- With equal weights a Bezier piece is the polynomial curve of its control points. -/
theorem evaluate_bezPt {p : ℕ} {s : Curve K} (hw : WFCurve p s)
    (hk : s.Knots.Values = List.replicate (p + 1) 0 ++ List.replicate (p + 1) 1) {w : K}
    (hwt : ∀ i < s.ControlPoints.length, (pt s.ControlPoints i).w = w) {t : K} (h0 : 0 ≤ t) (h1 : t ≤ 1) :
    ∃ C, s.Evaluate t = .ok C ∧ ∀ k, coord k C = bezPt p (fun i => l4 k (pt s.ControlPoints i)) t := by
  have hsp : IsSpan s.Knots.Values t p := by
    rw [hk]
    simp only [IsSpan, bez_kn]
    rw [if_pos le_rfl, if_neg (by omega), if_pos (by omega)]
    refine ⟨by simp, h0, ?_⟩
    rcases lt_or_eq_of_le h1 with h | h
    · exact Or.inl h
    · exact Or.inr ⟨h, zero_lt_one, rfl⟩
  have hcnt := hw.count
  have hlen : s.ControlPoints.length = p + 1 := by
    have : s.Knots.Values.length = 2 * p + 2 := by rw [hk]; simp; omega
    omega
  have hw0 : 0 < w := by rw [← hwt 0 (by omega)]; exact hw.weights 0 (by omega)
  obtain ⟨_, _, _, _, e⟩ := evaluate_seg hw h0 h1 hsp
  refine ⟨_, e, fun k => ?_⟩
  rw [hk, coord_proj]
  have ew : (seg (kn (List.replicate (p + 1) (0 : K) ++ List.replicate (p + 1) 1)) p t p (hpts s.ControlPoints)).w = w := by
    have := seg_map (Vec4.lw (K := K)) (bezK p) p t p (hpts s.ControlPoints)
    refine Eq.trans this ?_
    exact (seg_congr (Q := fun _ => w) le_rfl (fun i _ hi => hwt i (by omega))).trans (seg_const _ _ _ _ le_rfl (bez_reg p) w)
  rw [ew, seg_map]
  have e2 : seg (kn (List.replicate (p + 1) (0 : K) ++ List.replicate (p + 1) 1)) p t p (fun i => l4 k (hpts s.ControlPoints i)) =
      w * bezPt p (fun i => l4 k (pt s.ControlPoints i)) t := by
    unfold bezPt seg
    rw [Finset.mul_sum]
    apply Finset.sum_congr rfl
    intro n hn
    have hn := Finset.mem_range.mp hn
    simp only [hpts, l4_toHomo, smul_eq_mul]
    rw [hwt _ (by omega)]
    unfold bezK
    ring
  rw [e2]
  field_simp

end Nurbs
