import Verif.Proof.RoundedDerivErr
import Verif.Proof.CurveDeriv

/-! # The rounding error of the derivatives of a curve -/

set_option linter.unusedSectionVars false

namespace Nurbs
open Nurbs.Spec Polynomial

variable {K : Type} [Field K] [LinearOrder K] [IsStrictOrderedRing K] {R : Rounding K}

/-- A coordinate of four-vectors. -/
structure Coord4 (L : Vec4 (Fl R) → Fl R) : Prop where
  zero : L 0 = 0
  add : ∀ a b, L (a + b) = L a + L b
  smul : ∀ (f : Fl R) a, L (f • a) = f * L a

theorem coord4_x : Coord4 (R := R) (·.x) := ⟨rfl, fun _ _ => rfl, fun _ _ => rfl⟩
theorem coord4_y : Coord4 (R := R) (·.y) := ⟨rfl, fun _ _ => rfl, fun _ _ => rfl⟩
theorem coord4_z : Coord4 (R := R) (·.z) := ⟨rfl, fun _ _ => rfl, fun _ _ => rfl⟩
theorem coord4_w : Coord4 (R := R) (·.w) := ⟨rfl, fun _ _ => rfl, fun _ _ => rfl⟩

theorem accG_close {L : Vec4 (Fl R) → Fl R} (hL : Coord4 L) {f : ℕ → Fl R} {P : ℕ → Vec4 (Fl R)} {a b : ℕ} {c C d D : ℕ → K} {N : ℕ}
    (hf : ∀ i < N, Close R.q a (f i).val (c i) (C i)) (hP : ∀ i < N, Close R.q b (L (P i)).val (d i) (D i)) (n : ℕ) (hn : n ≤ N) :
    Close R.q (a + b + 1 + n) (L (accG f P n)).val (∑ i ∈ Finset.range n, c i * d i) (∑ i ∈ Finset.range n, C i * D i) := by
  induction n with
  | zero =>
    simp only [accG, Finset.sum_range_zero, hL.zero]
    exact close_zero _
  | succ n ih =>
    rw [Finset.sum_range_succ, Finset.sum_range_succ]
    simp only [accG, hL.add, hL.smul]
    have h1 := Fl.close_round ((hf n (by omega)).mul R.q_pos R.q_le (hP n (by omega)))
    exact Fl.close_add (ih (by omega)) (h1.mono R.q_pos R.q_le (show a + b + 1 ≤ a + b + 1 + n by omega) le_rfl)

theorem accG_near {L : Vec4 (Fl R) → Fl R} (hL : Coord4 L) {f : ℕ → Fl R} {P : ℕ → Vec4 (Fl R)} {a b : ℕ} {c d : ℕ → K} {N : ℕ}
    (hf : ∀ i < N, Near R.q a (f i).val (c i)) (hP : ∀ i < N, Near R.q b (L (P i)).val (d i)) (n : ℕ) (hn : n ≤ N) :
    Near R.q (a + b + 1 + n) (L (accG f P n)).val (∑ i ∈ Finset.range n, c i * d i) := by
  induction n with
  | zero =>
    simp only [accG, Finset.sum_range_zero, hL.zero]
    exact near_zero _
  | succ n ih =>
    rw [Finset.sum_range_succ]
    simp only [accG, hL.add, hL.smul]
    have h1 := Fl.near_mul (hf n (by omega)) (hP n (by omega))
    exact Fl.near_add (ih (by omega)) (h1.mono R.q_pos R.q_le (show a + b + 1 ≤ a + b + 1 + n by omega))

/-- A coordinate of three-vectors, and the same coordinate of four-vectors. -/
structure Coord3 (L : Vec3 (Fl R) → Fl R) (L4 : Vec4 (Fl R) → Fl R) : Prop where
  head : ∀ v, L v.head3 = L4 v
  sub : ∀ a b, L (a - b) = L a - L b
  smul : ∀ (f : Fl R) a, L (f • a) = f * L a
  quot : ∀ a d, L (quotG a d) = L a / d

theorem coord3_x : Coord3 (R := R) (·.x) (·.x) := ⟨fun _ => rfl, fun _ _ => rfl, fun _ _ => rfl, fun _ _ => rfl⟩
theorem coord3_y : Coord3 (R := R) (·.y) (·.y) := ⟨fun _ => rfl, fun _ _ => rfl, fun _ _ => rfl, fun _ _ => rfl⟩
theorem coord3_z : Coord3 (R := R) (·.z) (·.z) := ⟨fun _ => rfl, fun _ _ => rfl, fun _ _ => rfl, fun _ _ => rfl⟩

theorem Fl.close_sub {m : ℕ} {a b : Fl R} {x y X Y : K} (ha : Close R.q m a.val x X) (hb : Close R.q m b.val y Y) :
    Close R.q (m + 1) (a - b).val (x - y) (X + Y) := by
  have hb' : Close R.q m (-b.val) (-y) Y := by
    have := hb.sign 1
    simpa using this
  have := close_round (R := R) (ha.add R.q_pos hb')
  rwa [← sub_eq_add_neg, ← sub_eq_add_neg] at this

theorem natCast_near (n : ℕ) : Near R.q 1 ((((n : ℕ) : Int) : Fl R)).val ((n : ℕ) : K) := by
  have : ((((n : ℕ) : Int) : Fl R)).val = R.rnd ((n : ℕ) : K) := by
    change R.rnd (((n : ℕ) : Int) : K) = _
    push_cast; rfl
  rw [this]
  exact R.near (Nat.cast_nonneg n)

theorem absQuot_eq (A W : ℕ → K) (m : ℕ) : absQuot A W m =
    (A m + ∑ i ∈ Finset.range m, (m.choose (i + 1) : K) * W (i + 1) * absQuot A W (m - (i + 1))) / W 0 := by
  rw [absQuot, Finset.sum_range]

/-- The quotient rule with rounding: `e` roundings for the derivatives of numerator and denominator of order `m` (plus `m`),
`e0` for the denominator. -/
theorem ratG_close {L : Vec3 (Fl R) → Fl R} {L4 : Vec4 (Fl R) → Fl R} (hL : Coord3 L L4) {H : ℕ → Vec4 (Fl R)} {e e0 : ℕ} {a A w W Q : ℕ → K}
    (hA : ∀ m, Close R.q (e + m) (L4 (H m)).val (a m) (A m)) (hW : ∀ m, Close R.q (e + m) (H m).w.val (w m) (W m))
    (h0 : Near R.q e0 (H 0).w.val (w 0)) (hpos : 0 < w 0) (hW0 : W 0 = w 0)
    (hQ : ∀ m, Q m = (a m - ∑ i ∈ Finset.range m, (m.choose (i + 1) : K) * w (i + 1) * Q (m - (i + 1))) / w 0) (m : ℕ) :
    Close R.q ((m + 1) * (e + e0 + 2 * m + 4)) (L (ratG H m)).val (Q m) (absQuot A W m) := by
  induction m using Nat.strong_induction_on with
  | _ m ih =>
    rw [ratG_eq (t := ratG H) (fun _ _ => rfl), hL.quot, hQ, absQuot_eq, hW0]
    have hsub : ∀ n, n ≤ m → Close R.q (m * (e + e0 + 2 * m + 4) + (e + m) + 3 + n) (L (subG H m (ratG H) n)).val
        (a m - ∑ i ∈ Finset.range n, (m.choose (i + 1) : K) * w (i + 1) * Q (m - (i + 1)))
        (A m + ∑ i ∈ Finset.range n, (m.choose (i + 1) : K) * W (i + 1) * absQuot A W (m - (i + 1))) := by
      intro n
      induction n with
      | zero =>
        intro _
        simp only [subG, Finset.sum_range_zero, sub_zero, add_zero, hL.head]
        exact (hA m).mono R.q_pos R.q_le (by omega) le_rfl
      | succ n ihn =>
        intro hn
        rw [Finset.sum_range_succ, Finset.sum_range_succ, ← sub_sub, ← add_assoc (A m)]
        simp only [subG, hL.sub, hL.smul]
        refine Fl.close_sub (m := m * (e + e0 + 2 * m + 4) + (e + m) + 3 + n) (ihn (by omega)) ?_
        have h1 := Fl.close_round ((natCast_near (R := R) (m.choose (n + 1))).mul_close R.q_pos R.q_le (hW (n + 1)))
        have h2 := Fl.close_round (Close.mul R.q_pos R.q_le h1 (ih (m - (n + 1)) (by omega)))
        refine h2.mono R.q_pos R.q_le ?_ le_rfl
        obtain ⟨j, rfl⟩ : ∃ j, m = j + (n + 1) := ⟨m - (n + 1), by omega⟩
        rw [Nat.add_sub_cancel]
        have : (j + 1) * (e + e0 + 2 * j + 4) ≤ (j + (n + 1)) * (e + e0 + 2 * (j + (n + 1)) + 4) :=
          Nat.mul_le_mul (by omega) (by omega)
        omega
    have h1 := Fl.close_round ((hsub m le_rfl).div_near R.q_pos R.q_le h0 hpos)
    refine h1.mono R.q_pos R.q_le ?_ le_rfl
    have : (m + 1) * (e + e0 + 2 * m + 4) = m * (e + e0 + 2 * m + 4) + (e + e0 + 2 * m + 4) := by ring
    omega

theorem absDeriv_nonneg {U : ℕ → K} {x : K} {M : ℕ} (hU : ∀ a b, a ≤ b → b ≤ M → U a ≤ U b) {P : ℕ} (hN : ∀ q i, i + q < M → q ≤ P → 0 ≤ N U x q i)
    (m p i : ℕ) (hP : p ≤ P) (hi : i + p < M) : 0 ≤ absDeriv U x m p i := by
  induction m generalizing p i with
  | zero => exact hN p i hi hP
  | succ m ih =>
    rcases p with _ | p
    · exact le_rfl
    · simp only [absDeriv]
      exact mul_nonneg (Nat.cast_nonneg _) (add_nonneg
        (div_nonneg (ih p i (by omega) (by omega)) (sub_nonneg.mpr (hU _ _ (by omega) (by omega))))
        (div_nonneg (ih p (i + 1) (by omega) (by omega)) (sub_nonneg.mpr (hU _ _ (by omega) (by omega)))))

theorem sum_window_le {g G : ℕ → K} {n k p : ℕ} (hp : p ≤ k) (hk : k < n) (hG : ∀ i < n, 0 ≤ G i) (hg : ∀ i ≤ p, g i ≤ G (k - p + i)) :
    ∑ i ∈ Finset.range (p + 1), g i ≤ ∑ i ∈ Finset.range n, G i := by
  calc ∑ i ∈ Finset.range (p + 1), g i ≤ ∑ i ∈ Finset.range (p + 1), G (k - p + i) :=
        Finset.sum_le_sum fun i hi => hg i (by have := Finset.mem_range.mp hi; omega)
    _ = ∑ i ∈ Finset.Ico (k - p) (k + 1), G i := by
        rw [Finset.sum_Ico_eq_sum_range, show k + 1 - (k - p) = p + 1 by omega]
    _ ≤ _ := by
        refine Finset.sum_le_sum_of_subset_of_nonneg (fun i hi => ?_) fun i hi _ => hG i (Finset.mem_range.mp hi)
        have := Finset.mem_Ico.mp hi
        exact Finset.mem_range.mpr (by omega)

theorem pt_exact (l : List (Vec4 (Fl R))) {i : ℕ} (h : i < l.length) : pt (l.map exactPoint) i = exactPoint (pt l i) := by
  simp [pt, h]

/-- `Curve::EvaluateAll` with rounding. -/
theorem curve_derivs_close {p : ℕ} {c : Curve (Fl R)} (hw : WFCurve p (exactCurve c)) {x : Fl R} (h0 : 0 ≤ x) (h1 : x ≤ 1) :
    ∃ (k : ℕ) (D : ℕ → Vec3 (Fl R)), IsSpan (exactList c.Knots.Values) x.val k ∧ p ≤ k ∧ k + p + 2 ≤ (exactList c.Knots.Values).length ∧
      0 < (curveP p (exactCurve c) k (·.w)).eval x.val ∧
      (∀ order : ℕ, order ≤ 29 → c.EvaluateAll x order = .ok (tab (order + 1) D)) ∧
      ∀ m, Close R.q ((m + 1) * (14 * p + 2 * m + 11)) (D m).x.val
            (quotDeriv (curveP p (exactCurve c) k (·.x)) (curveP p (exactCurve c) k (·.w)) m x.val)
            (absQuot (absSum p (exactCurve c) x.val fun v => |v.x|) (absSum p (exactCurve c) x.val fun _ => 1) m) ∧
        Close R.q ((m + 1) * (14 * p + 2 * m + 11)) (D m).y.val
            (quotDeriv (curveP p (exactCurve c) k (·.y)) (curveP p (exactCurve c) k (·.w)) m x.val)
            (absQuot (absSum p (exactCurve c) x.val fun v => |v.y|) (absSum p (exactCurve c) x.val fun _ => 1) m) ∧
        Close R.q ((m + 1) * (14 * p + 2 * m + 11)) (D m).z.val
            (quotDeriv (curveP p (exactCurve c) k (·.z)) (curveP p (exactCurve c) k (·.w)) m x.val)
            (absQuot (absSum p (exactCurve c) x.val fun v => |v.z|) (absSum p (exactCurve c) x.val fun _ => 1) m) := by
  have hc : Clamped p c.Knots.Values := clamped_exact.mp hw.clamped
  have hd : c.Degree = p := hw.degree
  have hn : c.Knots.Values.length = c.ControlPoints.length + p + 1 := by
    have := hw.count
    simpa [exactCurve, exactList] using this
  obtain ⟨k, hk, hs, hpk, hlk, hden, hlt, hx1, hx2⟩ := span_rounded hc h0 h1
  have hsp : SpanR c.Knots.Values k p x := ⟨hpk, by omega, hc.sorted, hlt, hx1, hx2⟩
  have hsx := isSpan_exact.mpr hs
  have hcx : Clamped p (exactList c.Knots.Values) := hw.clamped
  have hlen := exactList_length c.Knots.Values
  have hN : ∀ q i, i + q < c.Knots.Values.length - 1 → N (exKn c.Knots.Values) x.val q i = Nl (exKn c.Knots.Values) k x.val q i := by
    intro q i hi
    rw [exKn_eq]
    exact N_eq_Nl _ _ k (_ - 1) (N_zero_span hcx.sorted (fun i hi => hcx.le_one hi) hsx) q i (by rw [hlen]; exact hi)
  have hNn : ∀ q i, i + q < c.Knots.Values.length - 1 → q ≤ p → 0 ≤ N (exKn c.Knots.Values) x.val q i := by
    intro q i hi hq
    rw [hN q i hi]
    exact hsp.nl_nonneg hq i
  have hbas : ∀ m, ∀ i < p + 1, _ := fun m i hi => basisG_close hsp (fun q i h => hN q i (by omega)) (show i ≤ p by omega) m
  have hmono : ∀ a b, a ≤ b → b ≤ c.Knots.Values.length - 1 → exKn c.Knots.Values a ≤ exKn c.Knots.Values b := fun a b hab hb =>
    kn_mono hc.sorted hab (by omega)
  have habs : ∀ m, ∀ i < c.ControlPoints.length, 0 ≤ absDeriv (exKn c.Knots.Values) x.val m p i := fun m i hi =>
    absDeriv_nonneg hmono hNn m p i le_rfl (by omega)
  have hptx : ∀ i < c.ControlPoints.length, pt (exactCurve c).ControlPoints i = exactPoint (pt c.ControlPoints i) := fun i hi =>
    pt_exact c.ControlPoints hi
  have hlenc : (exactCurve c).ControlPoints.length = c.ControlPoints.length := by simp [exactCurve]
  have hwp : ∀ i < c.ControlPoints.length, 0 < (pt c.ControlPoints i).w.val := fun i hi => by
    have := hw.weights i (by rw [hlenc]; exact hi)
    rwa [hptx i hi] at this
  have key : ∀ (L4 : Vec4 (Fl R) → Fl R) (LK g : Vec4 K → K), Coord4 L4 → (∀ v, 0 ≤ g v) →
      (∀ i < c.ControlPoints.length, Close R.q 1 (L4 (ToHomo (pt c.ControlPoints i))).val (LK (hpts (exactCurve c).ControlPoints i))
        ((pt (exactCurve c).ControlPoints i).w * g (pt (exactCurve c).ControlPoints i))) → ∀ m,
      Close R.q (7 * p + 5 + m) (L4 (homG p k c x m)).val ((derivative^[m] (curveP p (exactCurve c) k LK)).eval x.val)
        (absSum p (exactCurve c) x.val g m) := by
    intro L4 LK g hL hg hcl m
    have h := accG_close hL (hbas m) (fun i hi => hcl (k - p + i) (by omega)) (p + 1) le_rfl
    have hpos : ∀ i < c.ControlPoints.length, 0 ≤ (pt (exactCurve c).ControlPoints i).w * g (pt (exactCurve c).ControlPoints i) := fun i hi =>
      mul_nonneg (by rw [hptx i hi]; exact (hwp i hi).le) (hg _)
    have e : (derivative^[m] (curveP p (exactCurve c) k LK)).eval x.val = ∑ i ∈ Finset.range (p + 1),
        (derivative^[m] (NlP (exKn c.Knots.Values) k p (k - p + i))).eval x.val * LK (hpts (exactCurve c).ControlPoints (k - p + i)) := by
      unfold curveP
      rw [segP_deriv]
      simp only [exKn_eq, smul_eq_mul]
      rfl
    rw [e]
    refine h.mono R.q_pos R.q_le (by omega) ?_
    unfold absSum
    rw [hlenc]
    have ek : kn (exactCurve c).Knots.Values = exKn c.Knots.Values := (exKn_eq _).symm
    rw [ek]
    refine sum_window_le hpk (by omega) (fun i hi => mul_nonneg (habs m i hi) (hpos i hi)) fun i hi => ?_
    refine mul_le_mul_of_nonneg_right ?_ (hpos _ (by omega))
    split
    · exact le_rfl
    · exact habs m _ (by omega)
  have hcv : ∀ i < c.ControlPoints.length, _ := fun i hi => closeV_toHomo (P := pt c.ControlPoints i) (hwp i hi).le
  have kx := key (·.x) (·.x) (fun v => |v.x|) coord4_x (fun v => abs_nonneg _) fun i hi => by
    have := (hcv i hi).1
    unfold hpts
    rw [hptx i hi, mul_comm]; exact this
  have ky := key (·.y) (·.y) (fun v => |v.y|) coord4_y (fun v => abs_nonneg _) fun i hi => by
    have := (hcv i hi).2.1
    unfold hpts
    rw [hptx i hi, mul_comm]; exact this
  have kz := key (·.z) (·.z) (fun v => |v.z|) coord4_z (fun v => abs_nonneg _) fun i hi => by
    have := (hcv i hi).2.2.1
    unfold hpts
    rw [hptx i hi, mul_comm]; exact this
  have kw := key (·.w) (·.w) (fun _ => 1) coord4_w (fun v => zero_le_one) fun i hi => by
    have := ((hcv i hi).2.2.2.close R.q_pos).mono R.q_pos R.q_le (Nat.zero_le 1) le_rfl
    unfold hpts
    rw [hptx i hi, mul_one]; exact this
  have hlx : k + p + 2 ≤ (exactList c.Knots.Values).length := by omega
  have hwsum := curveP_piece hw hpk hlx (·.w) (fun _ => 1) (fun v => by simp [ToHomo]) x.val hsx
  have hpos : 0 < (curveP p (exactCurve c) k (·.w)).eval x.val := by
    have hreg : RegSpan (kn (exactList c.Knots.Values)) k p := regSpan_of_sorted hcx.sorted (IsSpan.lt hsx) (by omega)
    have := seg_w_pos (kn (exactList c.Knots.Values)) k x.val p hpk hreg
      (fun a b hab hb => kn_mono hcx.sorted hab (by omega)) hsx.2.1
      (IsSpan.le_right hsx) (hpts (exactCurve c).ControlPoints)
      (fun i _ _ => hw.weights i (by rw [hlenc]; omega))
    unfold curveP
    rw [segP_eval]; unfold seg; unfold seg at this; rw [Vec4.sum_w] at this; exact this
  have hw0 : absSum p (exactCurve c) x.val (fun _ => 1) 0 = (curveP p (exactCurve c) k (·.w)).eval x.val := by
    rw [← hwsum]
    unfold absSum wsum
    simp only [absDeriv, mul_one]
  have near0 : Near R.q (7 * p + 2) (homG p k c x 0).w.val ((curveP p (exactCurve c) k (·.w)).eval x.val) := by
    have h := accG_near (R := R) coord4_w (f := basisG c.Knots.Values k p x 0) (P := fun i => ToHomo (pt c.ControlPoints (k - p + i)))
      (c := fun i => Nl (exKn c.Knots.Values) k x.val p (k - p + i)) (d := fun i => (hpts (exactCurve c).ControlPoints (k - p + i)).w)
      (a := 6 * p) (b := 0) (N := p + 1) (fun i hi => by
        unfold basisG
        rw [if_pos rfl]
        exact lvG_near hsp le_rfl (by omega)) (fun i hi => by
        unfold hpts
        rw [hptx _ (by omega)]
        exact (hcv (k - p + i) (by omega)).2.2.2) (p + 1) le_rfl
    rw [show 7 * p + 2 = 6 * p + 0 + 1 + (p + 1) by omega]
    unfold curveP
    rw [segP_eval]
    unfold seg
    rw [exKn_eq] at h
    exact h
  have hwne : (homG p k c x 0).w ≠ 0 := Fl.ne_zero (near0.pos R.q_pos hpos).ne'
  have fin : ∀ {L : Vec3 (Fl R) → Fl R} {L4 : Vec4 (Fl R) → Fl R} {LK : Vec4 K → K} {A : ℕ → K}, Coord3 L L4 →
      (∀ m, Close R.q (7 * p + 5 + m) (L4 (homG p k c x m)).val ((derivative^[m] (curveP p (exactCurve c) k LK)).eval x.val) (A m)) →
      ∀ m, Close R.q ((m + 1) * (14 * p + 2 * m + 11)) (L (ratG (homG p k c x) m)).val
        (quotDeriv (curveP p (exactCurve c) k LK) (curveP p (exactCurve c) k (·.w)) m x.val)
        (absQuot A (absSum p (exactCurve c) x.val fun _ => 1) m) := by
    intro L L4 LK A hL hA m
    have := ratG_close hL (e := 7 * p + 5) (e0 := 7 * p + 2) hA kw near0 hpos hw0
      (Q := fun m => quotDeriv (curveP p (exactCurve c) k LK) (curveP p (exactCurve c) k (·.w)) m x.val)
      (fun m => quotDeriv_rec _ _ _ hpos.ne' m) m
    rwa [show 7 * p + 5 + (7 * p + 2) + 2 * m + 4 = 14 * p + 2 * m + 11 by omega] at this
  exact ⟨k, ratG (homG p k c x), hsx, hpk, hlx, hpos,
    fun order ho => curve_evaluateAll_any hd hn h0 h1 hk hpk hlk hden hwne order ho,
    fun m => ⟨fin coord3_x kx m, fin coord3_y ky m, fin coord3_z kz m⟩⟩

end Nurbs
