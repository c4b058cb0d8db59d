import Verif.Proof.Bisect
import Verif.Props.Search
import Verif.Props.SurfaceSearch
import Verif.Props.Geometry

/-! # C77: the bisection finds the nearest point of a single valley -/

set_option linter.unusedSectionVars false

namespace Nurbs.Props
open Nurbs Nurbs.Spec

variable {K : Type} [Field K] [LinearOrder K] [IsStrictOrderedRing K]

/-- The function is strictly increasing on the non-negative numbers, as every square root is. -/
def RootLike (sqrt : K → K) : Prop := ∀ x y, 0 ≤ x → x < y → sqrt x < sqrt y

theorem distance_lt {sqrt : K → K} (hs : RootLike sqrt) {a b P : Vec3 K} (h : distSq a P < distSq b P) :
    distance sqrt a P < distance sqrt b P :=
  hs _ _ (by positivity) h

theorem valley_distance {sqrt : K → K} (hs : RootLike sqrt) {g : K → Vec3 K} {P : Vec3 K} {m : K} (hv : Valley (fun u => distSq (g u) P) m) :
    Valley (fun u => distance sqrt (g u) P) m :=
  ⟨hv.1, hv.2.1, fun x y a b c => distance_lt hs (hv.2.2.1 x y a b c), fun x y a b c => distance_lt hs (hv.2.2.2 x y a b c)⟩

/-- C77: if the distance of the curve point to `P` falls strictly until the parameter `m` and rises strictly afterwards, then
`BinarySearchParameter` returns a parameter within `epsilon` of `m`, or within `2^-(max_iteration_count + 1)` if that is more. -/
theorem C77_binarySearch {sqrt : K → K} (hs : RootLike sqrt) {p : ℕ} {c : Curve K} (hw : WFCurve p c) (P : Vec3 K) {m : K}
    (hv : Valley (fun u => distSq (nurbsPoint p c u) P) m) {eps : K} (he : 0 < eps) (limit : ℕ) :
    ∃ r n, c.BinarySearchParameter sqrt P eps limit = .ok (r, n) ∧ |r - m| ≤ max (1 / 2 ^ (limit + 1)) eps := by
  have h := binLoop_near (Ri := c.residual sqrt P) (fun x h0 h1 => residual_eq sqrt (C23_evaluate hw h0 h1).1)
    (valley_distance hs hv) he (fun count => decide ((count : Int) < (limit : Int))) limit (by intro n; simp) (limit + 1) 0 0 1
    (by omega) (by omega) le_rfl le_rfl hv.1 hv.2.1 (le_trans (by norm_num) (le_max_left _ _))
  exact h

/-- C77 for `BinarySearchParameterOn`, whose `max_iteration_count` is a `double`. -/
theorem C77_binarySearchOn [Archimedean K] {sqrt : K → K} (hs : RootLike sqrt) {p q m n : ℕ} {s : Surface K} (hw : WFSurface p q m n s)
    (P : Vec3 K) {d : Int} (hd : d = 0 ∨ d = 1) {c : K} (hc0 : 0 ≤ c) (hc1 : c ≤ 1) {t : K}
    (hv : Valley (fun x => distSq (if d = 0 then surfPoint p q m n s c x else surfPoint p q m n s x c) P) t)
    {eps : K} (he : 0 < eps) (limit : K) :
    ∃ r i fuel₀, (∀ fuel ≥ fuel₀, s.BinarySearchParameterOn sqrt fuel P d c eps limit = .ok (if d = 0 then (c, r) else (r, c), i)) ∧
      ∀ N : ℕ, (N : K) ≤ limit → |r - t| ≤ max (1 / 2 ^ (N + 1)) eps := by
  have hex : ∃ N : ℕ, limit ≤ N := ⟨_, (exists_nat_gt limit).choose_spec.le⟩
  classical
  have hfun : (fun x => distSq (if d = 0 then surfPoint p q m n s c x else surfPoint p q m n s x c) P) =
      fun x => distSq (surfPoint p q m n s (linePair d c x).1 (linePair d c x).2) P := by
    funext x; unfold linePair; split_ifs <;> rfl
  rw [hfun] at hv
  obtain ⟨r, i, e, hr⟩ := binLoop_near (Ri := s.residualOn sqrt P d c)
    (fun x h0 h1 => (residualOn_eq sqrt hw P hd hc0 hc1 h0 h1).2) (valley_distance hs hv) he
    (fun count => decide ((count : K) < limit)) (Nat.find hex) (by
      intro n
      rw [decide_eq_true_iff, Nat.lt_find_iff]
      constructor
      · intro h k hk h'
        exact absurd (h'.trans (Nat.cast_le.mpr hk)) (not_le.mpr h)
      · intro h
        exact not_le.mp (h n le_rfl)) (Nat.find hex + 1) 0 0 1 (by omega) (by omega) le_rfl le_rfl hv.1 hv.2.1
    (le_trans (by norm_num) (le_max_left _ _))
  refine ⟨r, i, Nat.find hex + 1, ?_, fun N hN => hr.trans (max_le_max ?_ le_rfl)⟩
  · intro fuel hf
    obtain ⟨k, rfl⟩ := Nat.exists_eq_add_of_le hf
    unfold Surface.BinarySearchParameterOn
    rw [binLoop_mono _ _ _ _ _ _ _ _ k e, bind_ok]
    simp only [(onLine_eq hd c r).2]
    rfl
  · have : N ≤ Nat.find hex := by
      have := hN.trans (Nat.find_spec hex)
      exact_mod_cast this
    exact one_div_le_one_div_of_le (by positivity) (pow_le_pow_right₀ (by norm_num) (by omega))

/-- A parabola that opens upwards is a valley. -/
theorem valley_parabola {f : K → K} {A D m : K} (hD : 0 < D) (h0 : 0 ≤ m) (h1 : m ≤ 1)
    (hf : ∀ u, 0 ≤ u → u ≤ 1 → f u = A + D * (u - m) ^ 2) : Valley f m := by
  refine ⟨h0, h1, fun x y hx hxy hy => ?_, fun x y hx hxy hy => ?_⟩
  · rw [hf x hx (by linarith), hf y (by linarith) (by linarith)]
    nlinarith [mul_pos hD (mul_pos (sub_pos.2 hxy) (show 0 < (m - x) + (m - y) by linarith))]
  · rw [hf x (by linarith) (by linarith), hf y (by linarith) hy]
    nlinarith [mul_pos hD (mul_pos (sub_pos.2 hxy) (show 0 < (x - m) + (y - m) by linarith))]

/-- C77 applied: on the segment between two different points the search finds the foot of the perpendicular, whenever the foot
`(1 - m) a + m b` lies on the segment. -/
theorem C77_segment {sqrt : K → K} (hs : RootLike sqrt) {a b P : Vec3 K} (hab : a ≠ b) {m : K} (hm0 : 0 ≤ m) (hm1 : m ≤ 1)
    (hm : (a.x + m * (b.x - a.x) - P.x) * (b.x - a.x) + (a.y + m * (b.y - a.y) - P.y) * (b.y - a.y) +
      (a.z + m * (b.z - a.z) - P.z) * (b.z - a.z) = 0) {eps : K} (he : 0 < eps) (limit : ℕ) :
    ∃ c r n, (GeomSegment.Make a b).GetCurve = .ok c ∧ c.BinarySearchParameter sqrt P eps limit = .ok (r, n) ∧
      |r - m| ≤ max (1 / 2 ^ (limit + 1)) eps := by
  obtain ⟨c, hc, hw, -⟩ := C52_segment (GeomSegment.Make a b) (p := 1) (n := 2) rfl rfl le_rfl le_rfl
  obtain ⟨c', hc', hE⟩ := C52_make a b
  obtain rfl : c = c' := Except.ok.inj (hc.symm.trans hc')
  have hD : 0 < (b.x - a.x) ^ 2 + (b.y - a.y) ^ 2 + (b.z - a.z) ^ 2 := by
    by_contra h
    refine hab (Vec3.ext ?_ ?_ ?_)
    · nlinarith [sq_nonneg (b.x - a.x), sq_nonneg (b.y - a.y), sq_nonneg (b.z - a.z)]
    · nlinarith [sq_nonneg (b.x - a.x), sq_nonneg (b.y - a.y), sq_nonneg (b.z - a.z)]
    · nlinarith [sq_nonneg (b.x - a.x), sq_nonneg (b.y - a.y), sq_nonneg (b.z - a.z)]
  have hv : Valley (fun u => distSq (nurbsPoint 1 c u) P) m := by
    refine valley_parabola (A := distSq (between a b m) P) hD hm0 hm1 fun u h0 h1 => ?_
    have := (C23_evaluate hw h0 h1).1.symm.trans (hE u h0 h1)
    rw [Except.ok.inj this]
    simp only [distSq, between]
    linear_combination 2 * (u - m) * hm
  obtain ⟨r, n, e, h⟩ := C77_binarySearch hs hw P hv he limit
  exact ⟨c, r, n, hc, e, h⟩

/-- The valley of a segment, with a point off the segment. -/
example : ∃ c r n, (GeomSegment.Make (⟨0, 0, 0⟩ : Vec3 ℚ) ⟨3, 0, 0⟩).GetCurve = .ok c ∧
    c.BinarySearchParameter id ⟨1, 2, 0⟩ (1/1000) 20 = .ok (r, n) ∧ |r - 1/3| ≤ max (1 / 2 ^ 21) (1/1000) :=
  C77_segment (fun _ _ _ h => h) (by decide) (by norm_num) (by norm_num) (by norm_num) (by norm_num) 20

/-- A single valley is needed: this curve goes `x = 1, 3, 0`; the point `0` is its end, but the search returns the start. -/
def exValleys : Curve ℚ := ⟨1, ⟨[0, 0, 1/2, 1, 1]⟩, [⟨1, 0, 0, 1⟩, ⟨3, 0, 0, 1⟩, ⟨0, 0, 0, 1⟩]⟩

theorem C77_valley_needed : exValleys.Evaluate 1 = .ok ⟨0, 0, 0⟩ ∧
    exValleys.BinarySearchParameter id ⟨0, 0, 0⟩ (1/100) 50 = .ok (1/2^51, 50) := by
  decide +kernel

end Nurbs.Props
