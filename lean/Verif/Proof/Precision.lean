import Verif.Spec.Precision
import Verif.Proof.Curve
import Mathlib.Algebra.Polynomial.Eval.Degree
import Mathlib.Algebra.Polynomial.Eval.Coeff

/-! # Polynomials as segments -/

set_option linter.unusedSectionVars false

namespace Nurbs
open Nurbs.Spec

section
variable {K : Type} [Field K]

/-- Elementary symmetric functions of a list. -/
def es : ℕ → List K → K
  | 0, _ => 1
  | _ + 1, [] => 0
  | m + 1, a :: ts => es (m + 1) ts + a * es m ts

theorem es_zero (ts : List K) : es 0 ts = 1 := by cases ts <;> rfl

theorem es_cons (m : ℕ) (a : K) (ts : List K) : es (m + 1) (a :: ts) = es (m + 1) ts + a * es m ts := rfl

theorem es_perm {as bs : List K} (h : as.Perm bs) : ∀ m, es m as = es m bs := by
  induction h with
  | nil => intro m; rfl
  | cons a _ ih =>
    intro m
    cases m with
    | zero => rw [es_zero, es_zero]
    | succ m => rw [es_cons, es_cons, ih, ih]
  | swap a b l =>
    intro m
    cases m with
    | zero => rw [es_zero, es_zero]
    | succ m =>
      cases m with
      | zero => simp only [es_cons, es_zero]; ring
      | succ m => simp only [es_cons]; ring
  | trans _ _ h1 h2 => intro m; rw [h1, h2]

theorem es_affine (m : ℕ) (c a b : K) (ts : List K) : es m ((c * a + (1 - c) * b) :: ts) = c * es m (a :: ts) + (1 - c) * es m (b :: ts) := by
  cases m with
  | zero => rw [es_zero, es_zero, es_zero]; ring
  | succ m => rw [es_cons, es_cons, es_cons]; ring

theorem es_replicate (m p : ℕ) (x : K) : es m (List.replicate p x) = (p.choose m : K) * x ^ m := by
  induction p generalizing m with
  | zero =>
    cases m with
    | zero => simp [es_zero]
    | succ m => simp [es]
  | succ p ih =>
    cases m with
    | zero => simp [es_zero]
    | succ m =>
      rw [List.replicate_succ, es_cons, ih, ih, Nat.choose_succ_succ]
      push_cast
      ring

theorem es_one (ts : List K) : es 1 ts = ts.sum := by
  induction ts with
  | nil => rfl
  | cons a ts ih => rw [es_cons, es_zero, ih, List.sum_cons]; ring

theorem multiAffine_es (p m : ℕ) : MultiAffine p (fun ts : List K => es m ts) where
  perm := fun _ _ _ h => es_perm h m
  affine := fun c a b ts _ => by simp only [smul_eq_mul]; exact es_affine m c a b ts

/-- `Π (y - t)` -/
theorem multiAffine_prod (p : ℕ) (y : K) : MultiAffine p (fun ts : List K => (ts.map fun t => y - t).prod) where
  perm := fun _ _ _ h => (h.map _).prod_eq
  affine := fun c a b ts _ => by simp only [List.map_cons, List.prod_cons, smul_eq_mul]; ring

theorem MultiAffine.smul' {p : ℕ} {F : List K → K} (h : MultiAffine p F) (s : K) : MultiAffine p (fun ts => s * F ts) where
  perm := fun as bs hl hp => by simp only [h.perm as bs hl hp]
  affine := fun c a b ts hl => by simp only [h.affine c a b ts hl, smul_eq_mul]; ring

theorem MultiAffine.add' {p : ℕ} {F G : List K → K} (h : MultiAffine p F) (h' : MultiAffine p G) : MultiAffine p (fun ts => F ts + G ts) where
  perm := fun as bs hl hp => by simp only [h.perm as bs hl hp, h'.perm as bs hl hp]
  affine := fun c a b ts hl => by simp only [h.affine c a b ts hl, h'.affine c a b ts hl, smul_eq_mul]; ring

theorem MultiAffine.zero' (p : ℕ) : MultiAffine p (fun _ : List K => (0 : K)) where
  perm := fun _ _ _ _ => rfl
  affine := fun c a b ts hl => by simp

/-- The blossom of a polynomial. -/
def polyBlos (p : ℕ) (f : Polynomial K) (ts : List K) : K := ∑ m ∈ Finset.range (p + 1), f.coeff m / (p.choose m : K) * es m ts

theorem multiAffine_poly (p : ℕ) (f : Polynomial K) : MultiAffine p (polyBlos p f) := by
  have : ∀ n, MultiAffine p (fun ts : List K => ∑ m ∈ Finset.range n, f.coeff m / (p.choose m : K) * es m ts) := by
    intro n
    induction n with
    | zero => simpa using MultiAffine.zero' p
    | succ n ih =>
      simp only [Finset.sum_range_succ]
      exact ih.add' ((multiAffine_es p n).smul' _)
  exact this (p + 1)

theorem polyBlos_replicate [CharZero K] (p : ℕ) (f : Polynomial K) (hf : f.natDegree ≤ p) (x : K) :
    polyBlos p f (List.replicate p x) = f.eval x := by
  unfold polyBlos
  rw [Polynomial.eval_eq_sum_range' (show f.natDegree < p + 1 by omega)]
  refine Finset.sum_congr rfl fun m hm => ?_
  have : (p.choose m : K) ≠ 0 := Nat.cast_ne_zero.mpr (Nat.choose_pos (by simp at hm; omega)).ne'
  rw [es_replicate]
  field_simp

end

variable {K : Type} [Field K] [LinearOrder K] [IsStrictOrderedRing K]

/-- A symmetric multi-affine function gives the control values of its diagonal. -/
theorem sum_dual {p : ℕ} {l : List K} (hc : Clamped p l) {n : ℕ} (hn : l.length = n + p + 1) {x : K} (h0 : 0 ≤ x) (h1 : x ≤ 1)
    (F : List K → K) (hF : MultiAffine p F) :
    ∑ i ∈ Finset.range n, N (kn l) x p i * F (win (kn l) i p) = F (List.replicate p x) := by
  obtain ⟨k, hk, hpk, hl⟩ := exists_span hc h0 h1
  have := sum_N_window hc hk hpk hl hn (fun i => F (win (kn l) i p))
  simp only [smul_eq_mul] at this
  rw [this]
  exact seg_eq_of_dual (kn l) k p _ F hF hpk (regSpan_of_sorted hc.sorted (IsSpan.lt hk) (by omega)) (fun _ _ _ => rfl) x

theorem greville_eq (p : ℕ) (l : List K) (i : ℕ) : greville p l i = (p : K)⁻¹ * es 1 (win (kn l) i p) := by
  rw [es_one]
  unfold greville win
  rw [div_eq_inv_mul, Finset.sum_eq_multiset_sum, Finset.range_val, Multiset.range, Multiset.map_coe, Multiset.sum_coe]

/-- With equal weights every coordinate is the mean of the coordinates of the control points. -/
theorem equal_weights_mean {p : ℕ} {c : Curve K} (hw : WFCurve p c) {W : K} (he : ∀ i < c.ControlPoints.length, (pt c.ControlPoints i).w = W)
    {x : K} (h0 : 0 ≤ x) (h1 : x ≤ 1) (f : Vec4 K → K) :
    wsum p c x f / wsum p c x (fun _ => 1) = ∑ i ∈ Finset.range c.ControlPoints.length, N (kn c.Knots.Values) x p i * f (pt c.ControlPoints i) := by
  have hone := sum_dual hw.clamped hw.count h0 h1 (fun _ => 1) (by
    constructor
    · intros; rfl
    · intros; simp)
  have hW : W ≠ 0 := by
    have hlen := hw.clamped.len
    have hcount := hw.count
    have h := hw.weights 0 (by omega)
    rw [he 0 (by omega)] at h
    exact h.ne'
  have key : ∀ f : Vec4 K → K, wsum p c x f = W * ∑ i ∈ Finset.range c.ControlPoints.length, N (kn c.Knots.Values) x p i * f (pt c.ControlPoints i) := by
    intro f
    unfold wsum
    rw [Finset.mul_sum]
    refine Finset.sum_congr rfl fun i hi => ?_
    rw [he i (Finset.mem_range.mp hi)]
    ring
  rw [key, key, hone, mul_one, mul_div_cancel_left₀ _ hW]

end Nurbs
