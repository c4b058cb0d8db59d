import Verif.Proof.AnyElev
import Verif.Proof.RoundedBezier
import Verif.Proof.RoundedCurveDeriv
import Verif.Proof.RoundedSearch

/-! # Degree elevation of Bezier curves with rounding -/

set_option linter.unusedSectionVars false

namespace Nurbs
open Nurbs.Spec DegreeAlgo

variable {K : Type} [Field K] [LinearOrder K] [IsStrictOrderedRing K] {R : Rounding K}

theorem approx_one_exact : Approx (1 : K) 1 eps6 = true := by
  simp [Approx, eps6]

theorem approx_one_rounded : Approx (1 : Fl R) 1 eps6 = true := by
  have e : (1 : Fl R) - 1 = 0 := Fl.val_inj (by rw [Fl.val_sub, sub_self, R.zero, Fl.val_zero])
  unfold Approx
  rw [e, Fl.neg_zero', max_self, decide_eq_true]
  rw [Fl.lt_def, Fl.val_zero]
  unfold eps6
  exact Fl.div_pos' (by rw [Fl.val_one]; exact zero_lt_one) (Fl.ofNat_pos _)

theorem choose_near (n i : ℕ) : Near R.q 1 (((n.choose i : Int) : Fl R)).val (((n.choose i : Int) : K)) := by
  have := natCast_near (R := R) (n.choose i)
  push_cast at this ⊢
  exact this

theorem bezF_near {p t i j : ℕ} (hi : i ≤ p + t) : Near R.q 6 (bezF (Fl R) p t i j).val (bezF K p t i j) := by
  unfold bezF
  have h1 : Near R.q 0 (1 : Fl R).val (1 : K) := by rw [Fl.val_one]; exact Near.refl R.q_pos zero_le_one
  have hpos : (0 : K) < (((p + t).choose i : Int) : K) := by
    push_cast
    exact_mod_cast Nat.choose_pos hi
  exact Fl.near_mul (Fl.near_mul (Fl.near_div h1 (choose_near _ _) hpos) (choose_near _ _)) (choose_near _ _)

theorem bezG_near {p t i j : ℕ} (hi : i ≤ p + t) : Near R.q 6 (bezG (Fl R) p t i j).val (bezG K p t i j) := by
  unfold bezG
  split_ifs
  · exact near_zero _
  · rw [Fl.val_one]; exact (Near.refl R.q_pos zero_le_one).mono R.q_pos R.q_le (by omega)
  · exact bezF_near hi
  · exact bezF_near (by omega)

/-- `accG` in exact arithmetic is the sum. -/
theorem accG_sum (L : Vec4 K → K) (h0 : L 0 = 0) (ha : ∀ u v, L (u + v) = L u + L v) (hs : ∀ (r : K) u, L (r • u) = r * L u) (f : ℕ → K)
    (P : ℕ → Vec4 K) (n : ℕ) : L (accG f P n) = ∑ y ∈ Finset.range n, f y * L (P y) := by
  induction n with
  | zero => simpa [accG] using h0
  | succ n ih => simp only [accG]; rw [ha, hs, ih, Finset.sum_range_succ]

/-- The homogeneous control points of the elevated curve. -/
def elevH {K : Type} [Zero K] [One K] [Add K] [Mul K] [Div K] [IntCast K] (p t : ℕ) (P : ℕ → Vec4 K) (i : ℕ) : Vec4 K :=
  if i = 0 then ToHomo (P 0) else elevG p t (fun j => ToHomo (P j)) i

/-- The elevated curve as it is computed. -/
def elevBez {K : Type} [Zero K] [One K] [Add K] [Mul K] [Div K] [IntCast K] (p t : ℕ) (P : ℕ → Vec4 K) : Curve K :=
  ⟨(p : Int) + t, ⟨List.replicate (p + t + 1) (0 : K) ++ List.replicate (p + t + 1) 1⟩, tab (p + t + 1) fun i => unhomo (elevH p t P i)⟩

/-- A coordinate of points, exact and rounded. -/
structure CoordR (f : Vec4 K → K) (g : Vec4 (Fl R) → Fl R) : Prop where
  c4 : Coord4 g
  zero : f 0 = 0
  add : ∀ u v, f (u + v) = f u + f v
  smul : ∀ (r : K) u, f (r • u) = r * f u
  ex : ∀ P, f (exactPoint P) = (g P).val
  homo : ∀ P : Vec4 K, f (ToHomo P) = f P * P.w
  homoR : ∀ P : Vec4 (Fl R), g (ToHomo P) = g P * P.w
  un : ∀ P : Vec4 K, f (unhomo P) = f P / P.w
  unR : ∀ P : Vec4 (Fl R), g (unhomo P) = g P / P.w

theorem coordR_x : CoordR (R := R) (·.x) (·.x) :=
  ⟨coord4_x, rfl, fun _ _ => rfl, fun _ _ => rfl, fun _ => rfl, fun _ => rfl, fun _ => rfl, fun _ => rfl, fun _ => rfl⟩
theorem coordR_y : CoordR (R := R) (·.y) (·.y) :=
  ⟨coord4_y, rfl, fun _ _ => rfl, fun _ _ => rfl, fun _ => rfl, fun _ => rfl, fun _ => rfl, fun _ => rfl, fun _ => rfl⟩
theorem coordR_z : CoordR (R := R) (·.z) (·.z) :=
  ⟨coord4_z, rfl, fun _ _ => rfl, fun _ _ => rfl, fun _ => rfl, fun _ => rfl, fun _ => rfl, fun _ => rfl, fun _ => rfl⟩

section points
variable {p t : ℕ} {P : ℕ → Vec4 (Fl R)} (hw : ∀ j, 0 ≤ (P j).w.val)
include hw

theorem elevH_weight_near {i : ℕ} (hi : i ≤ p + t) :
    Near R.q (p + 8) (elevH p t P i).w.val (elevH p t (fun j => exactPoint (P j)) i).w := by
  unfold elevH
  by_cases h : i = 0
  · rw [if_pos h, if_pos h]
    exact (Near.refl R.q_pos (hw 0)).mono R.q_pos R.q_le (by omega)
  · rw [if_neg h, if_neg h]
    unfold elevG
    rw [accG_sum (·.w) rfl (fun _ _ => rfl) (fun _ _ => rfl)]
    have := accG_near (R := R) coord4_w (f := fun y => bezG (Fl R) p t i (i - t + y)) (P := fun y => ToHomo (P (i - t + y))) (a := 6) (b := 0)
      (c := fun y => bezG K p t i (i - t + y)) (d := fun y => (ToHomo (exactPoint (P (i - t + y)))).w) (N := min p i + 1 - (i - t))
      (fun y _ => bezG_near hi) (fun y _ => Near.refl R.q_pos (hw _)) _ le_rfl
    exact this.mono R.q_pos R.q_le (by omega)

theorem elevH_coord_close {f : Vec4 K → K} {g : Vec4 (Fl R) → Fl R} (hf : CoordR f g) {B : K} {i : ℕ} (hi : i ≤ p + t)
    (hB : ∀ j ≤ p, |(g (P j)).val| ≤ B) :
    Close R.q (p + 9) (g (elevH p t P i)).val (f (elevH p t (fun j => exactPoint (P j)) i))
      (B * (elevH p t (fun j => exactPoint (P j)) i).w) := by
  have hq := R.q_pos
  have hpt : ∀ j ≤ p, Close R.q 1 (g (ToHomo (P j))).val (f (ToHomo (exactPoint (P j)))) (B * (P j).w.val) := by
    intro j hj
    rw [hf.homo, hf.homoR, hf.ex]
    have := Fl.close_round (R := R) (Close.refl hq ((g (P j)).val * (P j).w.val))
    refine this.mono hq R.q_le le_rfl ?_
    rw [abs_mul, abs_of_nonneg (hw j)]
    exact mul_le_mul_of_nonneg_right (hB j hj) (hw j)
  unfold elevH
  by_cases h : i = 0
  · rw [if_pos h, if_pos h]
    exact (hpt 0 (by omega)).mono hq R.q_le (by omega) le_rfl
  · rw [if_neg h, if_neg h]
    unfold elevG
    rw [accG_sum f hf.zero hf.add hf.smul, accG_sum (·.w) rfl (fun _ _ => rfl) (fun _ _ => rfl)]
    have := accG_close (R := R) hf.c4 (f := fun y => bezG (Fl R) p t i (i - t + y)) (P := fun y => ToHomo (P (i - t + y))) (a := 6) (b := 1)
      (c := fun y => bezG K p t i (i - t + y)) (C := fun y => bezG K p t i (i - t + y))
      (d := fun y => f (ToHomo (exactPoint (P (i - t + y))))) (D := fun y => B * (P (i - t + y)).w.val) (N := min p i + 1 - (i - t))
      (fun y _ => (bezG_near hi).close hq) (fun y hy => hpt _ (by omega)) _ le_rfl
    refine this.mono hq R.q_le (by omega) (le_of_eq ?_)
    rw [Finset.mul_sum]
    apply Finset.sum_congr rfl
    intro y _
    change _ * (B * _) = B * (_ * (exactPoint (P (i - t + y))).w)
    unfold exactPoint
    ring

end points

end Nurbs
