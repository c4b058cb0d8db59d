import Verif.Proof.RoundedSearch
import Verif.Props.RoundedDeriv
import Verif.Props.Rounded

/-! # C83: the parameter searches stay in the domain and end, rounding included -/

set_option linter.unusedSectionVars false

namespace Nurbs.Props
open Nurbs Nurbs.Spec

variable {K : Type} [Field K] [LinearOrder K] [IsStrictOrderedRing K] {R : Rounding K}

/-- The distance of two points as computed: every operation is rounded. -/
def distFl (sqrt : Fl R → Fl R) (C P : Vec3 (Fl R)) : Fl R :=
  sqrt ((C.x - P.x) * (C.x - P.x) + (C.y - P.y) * (C.y - P.y) + (C.z - P.z) * (C.z - P.z))

theorem residualR_eq (sqrt : Fl R → Fl R) {c : Curve (Fl R)} {P C : Vec3 (Fl R)} {u : Fl R} (h : c.Evaluate u = .ok C) :
    c.residual sqrt P u = .ok (distFl sqrt C P) := by
  unfold Curve.residual
  rw [h, bind_ok]
  rfl

theorem residualR_total (sqrt : Fl R → Fl R) {p : ℕ} {c : Curve (Fl R)} (hw : WFCurve p (exactCurve c)) (P : Vec3 (Fl R)) :
    TotalR (c.residual sqrt P) := by
  intro u h0 h1
  obtain ⟨D, hD, -⟩ := C81_curve_orders hw h0 h1
  exact ⟨_, residualR_eq sqrt hD⟩

theorem searchGradientR_total {p : ℕ} {c : Curve (Fl R)} (hw : WFCurve p (exactCurve c)) (P : Vec3 (Fl R)) :
    TotalR (c.searchGradient P) := by
  intro u h0 h1
  obtain ⟨D, hD, hA⟩ := C81_curve_orders hw h0 h1
  have hd := (hA 1 (by omega)).2
  rw [Nat.cast_one] at hd
  unfold Curve.searchGradient
  rw [hD, bind_ok, hd, bind_ok]
  exact ⟨_, rfl⟩

theorem surface_residualR_eq (sqrt : Fl R → Fl R) {s : Surface (Fl R)} {P C : Vec3 (Fl R)} {u v : Fl R} (h : s.Evaluate u v = .ok C) :
    s.residual sqrt P u v = .ok (distFl sqrt C P) := by
  unfold Surface.residual
  rw [h, bind_ok]
  rfl

theorem surface_derivativeR {p q m n : ℕ} {s : Surface (Fl R)} (hw : WFSurface p q m n (exactSurface s)) {u v : Fl R}
    (hu0 : 0 ≤ u) (hu1 : u ≤ 1) (hv0 : 0 ≤ v) (hv1 : v ≤ 1) :
    ∃ C Du Dv, s.Evaluate u v = .ok C ∧ s.EvaluateDerivative u v 1 0 = .ok Du ∧ s.EvaluateDerivative u v 0 1 = .ok Dv := by
  obtain ⟨D, hD, hA⟩ := C81_surface_orders hw hu0 hu1 hv0 hv1
  obtain ⟨_, _, _, _, _, h1⟩ := hA 1 0 (by omega) (by omega) (by decide)
  obtain ⟨_, _, _, _, _, h2⟩ := hA 0 1 (by omega) (by omega) (by decide)
  exact ⟨_, _, _, hD, h1, h2⟩

theorem finite_eps {eps : Fl R} (he : eps.val ≤ (2 ^ 53 - 1) * 2 ^ 971) : ¬ Search.dblMax < eps := by
  have hd : (((2 ^ 53 - 1) * 2 ^ 971 : ℕ) : K) = (2 ^ 53 - 1) * 2 ^ 971 := by
    rw [Nat.cast_mul, Nat.cast_sub Nat.one_le_two_pow, Nat.cast_pow, Nat.cast_pow, Nat.cast_one, Nat.cast_two]
  rw [not_lt, Fl.le_def]
  show eps.val ≤ R.rnd _
  rw [← Fl.rnd_val eps, hd]
  exact R.mono _ _ he

/-- C83, `Curve::SearchParameter` with rounded operations and any function `sqrt`: for a well-formed curve, `init ∈ [0,1]` and a finite
`epsilon` it never fails – so it evaluates the curve only inside `[0,1]` and never divides by zero –, does at most `N` iterations if
`max_iteration_count ≤ N`, and returns a parameter in `[0,1]`; if it stops before the limit, the computed distance of the computed
point is below `epsilon`. -/
theorem C83_searchParameter (sqrt : Fl R → Fl R) {p : ℕ} {c : Curve (Fl R)} (hw : WFCurve p (exactCurve c)) (P : Vec3 (Fl R))
    {init : Fl R} (h0 : 0 ≤ init) (h1 : init ≤ 1) {eps : Fl R} (he : eps.val ≤ (2 ^ 53 - 1) * 2 ^ 971) {limit : Fl R} {N : ℕ}
    (hN : limit.val ≤ N) :
    ∃ r n C, (∀ fuel ≥ N + 1, c.SearchParameter sqrt fuel P init eps limit = .ok (r, n)) ∧ n ≤ N ∧ 0 ≤ r ∧ r ≤ 1 ∧
      c.Evaluate r = .ok C ∧ ((n : Fl R) < limit → distFl sqrt C P < eps) := by
  obtain ⟨s, n, e, q1, q2, q3, q4, q5⟩ := bfgsLoop1_okR (residualR_total sqrt hw P) (searchGradientR_total hw P) 20 eps limit N hN
    (N + 1) 0 (init, Search.dblMax, 1) (by omega) (by omega) h0 h1 (fun h => absurd h (finite_eps he))
  obtain ⟨D, hD, -⟩ := C81_curve_orders hw q2 q3
  refine ⟨s.1, n, D 0, ?_, q1, q2, q3, hD, ?_⟩
  · intro fuel hf
    obtain ⟨k, rfl⟩ := Nat.exists_eq_add_of_le hf
    unfold Curve.SearchParameter
    rw [e k, bind_ok]
    rfl
  · intro h
    have h2 := q5 (q4 h)
    rw [residualR_eq sqrt hD] at h2
    rw [Except.ok.inj h2]
    exact q4 h

/-- C83, `Curve::BinarySearchParameter` with rounded operations: for `epsilon ≥ 0` it never fails, makes at most `max(0, limit)`
iterations and returns the computed middle of two numbers of `[0,1]`, itself in `[0,1]`.  Unless the iterations were used up, the computed
distance there is not larger than at the two probes. -/
theorem C83_binarySearch (sqrt : Fl R → Fl R) {p : ℕ} {c : Curve (Fl R)} (hw : WFCurve p (exactCurve c)) (P : Vec3 (Fl R))
    {eps : Fl R} (he : 0 ≤ eps) (limit : Int) :
    ∃ r n lo hi, c.BinarySearchParameter sqrt P eps limit = .ok (r, n) ∧ n ≤ limit.toNat ∧ 0 ≤ lo ∧ lo ≤ 1 ∧ 0 ≤ hi ∧ hi ≤ 1 ∧
      r = (lo + hi) / 2 ∧ 0 ≤ r ∧ r ≤ 1 ∧
      (n = limit.toNat ∨ ∃ C L R', c.Evaluate r = .ok C ∧ c.Evaluate (max lo (r - eps)) = .ok L ∧ c.Evaluate (min hi (r + eps)) = .ok R' ∧
        distFl sqrt C P ≤ distFl sqrt L P ∧ distFl sqrt C P ≤ distFl sqrt R' P ∧
        (max (hi - lo) (-(hi - lo)) < eps ∨ distFl sqrt C P < eps)) := by
  obtain ⟨r, n, lo, hi, e, h1, l0, l1, u0, u1, h5, h6⟩ := binLoop_okR (residualR_total sqrt hw P) he
    (fun count => decide ((count : Int) < limit)) limit.toNat (by simp) (limit.toNat + 1) 0 0 1 (by omega) (by omega)
    (le_refl _) Fl.zero_le_one' Fl.zero_le_one' (le_refl _)
  obtain ⟨m0, m1⟩ := mid_memR l0 l1 u0 u1
  rw [← h5] at m0 m1
  refine ⟨r, n, lo, hi, e 0, h1, l0, l1, u0, u1, h5, m0, m1, h6.imp (fun h => ?_) ?_⟩
  · simp only [decide_eq_false_iff_not] at h
    omega
  · rintro ⟨rm, rl, rr, e1, e2, e3, q1, q2, q3⟩
    obtain ⟨D, hD, -⟩ := C81_curve_orders hw m0 m1
    obtain ⟨DL, hL, -⟩ := C81_curve_orders hw (x := max lo (r - eps)) (l0.trans (le_max_left _ _)) (max_le l1 ((sub_leR he).trans m1))
    obtain ⟨DR, hR, -⟩ := C81_curve_orders hw (x := min hi (r + eps)) (le_min u0 (m0.trans (le_addR he))) ((min_le_left _ _).trans u1)
    rw [residualR_eq sqrt hD] at e1
    rw [residualR_eq sqrt hL] at e2
    rw [residualR_eq sqrt hR] at e3
    cases e1; cases e2; cases e3
    exact ⟨_, _, _, hD, hL, hR, q1, q2, q3⟩

/-- C83, `Surface::SearchParameter` with rounded operations. -/
theorem C83_surface_searchParameter (sqrt : Fl R → Fl R) {p q m n : ℕ} {s : Surface (Fl R)} (hw : WFSurface p q m n (exactSurface s))
    (P : Vec3 (Fl R)) {u₀ v₀ : Fl R} (hu0 : 0 ≤ u₀) (hu1 : u₀ ≤ 1) (hv0 : 0 ≤ v₀) (hv1 : v₀ ≤ 1) {eps : Fl R}
    (he : eps.val ≤ (2 ^ 53 - 1) * 2 ^ 971) {limit : Fl R} {N : ℕ} (hN : limit.val ≤ N) :
    ∃ u v i C, (∀ fuel ≥ N + 1, s.SearchParameter sqrt fuel P u₀ v₀ eps limit = .ok ((u, v), i)) ∧ i ≤ N ∧
      0 ≤ u ∧ u ≤ 1 ∧ 0 ≤ v ∧ v ≤ 1 ∧ s.Evaluate u v = .ok C ∧ ((i : Fl R) < limit → distFl sqrt C P < eps) := by
  obtain ⟨st, i, e, q1, ⟨a, b, c, d⟩, q4, q5⟩ := bfgsLoop2_okR (norm := s.residual sqrt P) (Ki := s.searchGradient P)
    (by
      intro u v h1 h2 h3 h4
      obtain ⟨C, Du, Dv, hC, -, -⟩ := surface_derivativeR hw h1 h2 h3 h4
      exact ⟨_, surface_residualR_eq sqrt hC⟩)
    (by
      intro u v h1 h2 h3 h4
      obtain ⟨C, Du, Dv, hC, hDu, hDv⟩ := surface_derivativeR hw h1 h2 h3 h4
      unfold Surface.searchGradient
      rw [hC, bind_ok, hDu, bind_ok, hDv, bind_ok]
      exact ⟨_, rfl⟩)
    eps limit N hN (N + 1) 0 (⟨u₀, v₀⟩, Search.dblMax, ⟨1, 0, 0, 1⟩) (by omega) (by omega) ⟨hu0, hu1, hv0, hv1⟩
    (fun h => absurd h (finite_eps he))
  obtain ⟨C, -, -, hC, -, -⟩ := surface_derivativeR hw a b c d
  refine ⟨st.1.x, st.1.y, i, C, ?_, q1, a, b, c, d, hC, ?_⟩
  · intro fuel hf
    obtain ⟨k, rfl⟩ := Nat.exists_eq_add_of_le hf
    unfold Surface.SearchParameter
    rw [massert_true ⟨hu0, hu1⟩, bind_ok, massert_true ⟨hv0, hv1⟩, bind_ok, e k, bind_ok]
    rfl
  · intro h
    have h2 := q5 (q4 h)
    rw [surface_residualR_eq sqrt hC] at h2
    rw [Except.ok.inj h2]
    exact q4 h

/-- The point of the line selected by `direction`: `(constant, x)` for 0, `(x, constant)` for 1. -/
def evalLine (s : Surface (Fl R)) (direction : Int) (constant x : Fl R) : M (Vec3 (Fl R)) :=
  if direction = 0 then s.Evaluate constant x else s.Evaluate x constant

theorem evalLine_total (sqrt : Fl R → Fl R) {p q m n : ℕ} {s : Surface (Fl R)} (hw : WFSurface p q m n (exactSurface s))
    (P : Vec3 (Fl R)) {d : Int} (hd : d = 0 ∨ d = 1) {c : Fl R} (hc0 : 0 ≤ c) (hc1 : c ≤ 1) {x : Fl R} (h0 : 0 ≤ x) (h1 : x ≤ 1) :
    ∃ C g, evalLine s d c x = .ok C ∧ s.residualOn sqrt P d c x = .ok (distFl sqrt C P) ∧ s.gradientOn P d c x = .ok g := by
  unfold evalLine Surface.residualOn Surface.gradientOn Surface.onLine
  rcases hd with rfl | rfl
  · obtain ⟨C, Du, Dv, hC, hDu, hDv⟩ := surface_derivativeR hw hc0 hc1 h0 h1
    refine ⟨C, (C - P).dot Dv, by simpa using hC, ?_, ?_⟩
    · simpa using surface_residualR_eq sqrt hC
    · simp only [if_pos, hC, bind_ok, show ¬ ((0 : Int) = 1) by decide, if_false, hDv]
      rfl
  · obtain ⟨C, Du, Dv, hC, hDu, hDv⟩ := surface_derivativeR hw h0 h1 hc0 hc1
    refine ⟨C, (C - P).dot Du, by simpa using hC, ?_, ?_⟩
    · simpa using surface_residualR_eq sqrt hC
    · simp only [if_pos, hC, bind_ok, show ¬ ((1 : Int) = 0) by decide, if_false, hDu]
      rfl

/-- C83, `Surface::SearchParameterOn` with rounded operations; the constant is returned unchanged. -/
theorem C83_searchParameterOn (sqrt : Fl R → Fl R) {p q m n : ℕ} {s : Surface (Fl R)} (hw : WFSurface p q m n (exactSurface s))
    (P : Vec3 (Fl R)) {d : Int} (hd : d = 0 ∨ d = 1) {c x₀ : Fl R} (hc0 : 0 ≤ c) (hc1 : c ≤ 1) (hx0 : 0 ≤ x₀) (hx1 : x₀ ≤ 1)
    {eps : Fl R} (he : eps.val ≤ (2 ^ 53 - 1) * 2 ^ 971) {limit : Fl R} {N : ℕ} (hN : limit.val ≤ N) :
    ∃ r i C, (∀ fuel ≥ N + 1, s.SearchParameterOn sqrt fuel P d c x₀ eps limit = .ok (if d = 0 then (c, r) else (r, c), i)) ∧ i ≤ N ∧
      0 ≤ r ∧ r ≤ 1 ∧ evalLine s d c r = .ok C ∧ ((i : Fl R) < limit → distFl sqrt C P < eps) := by
  obtain ⟨st, i, e, q1, q2, q3, q4, q5⟩ := bfgsLoop1_okR (norm := s.residualOn sqrt P d c) (fi := s.gradientOn P d c)
    (fun x h0 h1 => by obtain ⟨C, g, -, h, -⟩ := evalLine_total sqrt hw P hd hc0 hc1 h0 h1; exact ⟨_, h⟩)
    (fun x h0 h1 => by obtain ⟨C, g, -, -, h⟩ := evalLine_total sqrt hw P hd hc0 hc1 h0 h1; exact ⟨_, h⟩) 0 eps limit N hN
    (N + 1) 0 (x₀, Search.dblMax, 1) (by omega) (by omega) hx0 hx1 (fun h => absurd h (finite_eps he))
  obtain ⟨C, g, hC, hr, -⟩ := evalLine_total sqrt hw P hd hc0 hc1 q2 q3
  refine ⟨st.1, i, C, ?_, q1, q2, q3, hC, ?_⟩
  · intro fuel hf
    obtain ⟨k, rfl⟩ := Nat.exists_eq_add_of_le hf
    unfold Surface.SearchParameterOn
    rw [e k, bind_ok]
    rfl
  · intro h
    have h2 := q5 (q4 h)
    rw [hr] at h2
    rw [Except.ok.inj h2]
    exact q4 h

/-- C83, `Surface::BinarySearchParameterOn` with rounded operations. -/
theorem C83_binarySearchOn (sqrt : Fl R → Fl R) {p q m n : ℕ} {s : Surface (Fl R)} (hw : WFSurface p q m n (exactSurface s))
    (P : Vec3 (Fl R)) {d : Int} (hd : d = 0 ∨ d = 1) {c : Fl R} (hc0 : 0 ≤ c) (hc1 : c ≤ 1) {eps : Fl R} (he : 0 ≤ eps)
    {limit : Fl R} {N : ℕ} (hN : limit.val ≤ N) :
    ∃ r i lo hi, (∀ fuel ≥ N + 1, s.BinarySearchParameterOn sqrt fuel P d c eps limit = .ok (if d = 0 then (c, r) else (r, c), i)) ∧
      i ≤ N ∧ 0 ≤ lo ∧ lo ≤ 1 ∧ 0 ≤ hi ∧ hi ≤ 1 ∧ r = (lo + hi) / 2 ∧ 0 ≤ r ∧ r ≤ 1 ∧
      (limit ≤ (i : Fl R) ∨ ∃ C L R', evalLine s d c r = .ok C ∧ evalLine s d c (max lo (r - eps)) = .ok L ∧
        evalLine s d c (min hi (r + eps)) = .ok R' ∧ distFl sqrt C P ≤ distFl sqrt L P ∧ distFl sqrt C P ≤ distFl sqrt R' P ∧
        (max (hi - lo) (-(hi - lo)) < eps ∨ distFl sqrt C P < eps)) := by
  obtain ⟨r, i, lo, hi, e, h1, l0, l1, u0, u1, h5, h6⟩ := binLoop_okR (Ri := s.residualOn sqrt P d c)
    (fun x h0 h1 => by obtain ⟨C, g, -, h, -⟩ := evalLine_total sqrt hw P hd hc0 hc1 h0 h1; exact ⟨_, h⟩) he
    (fun count => decide ((count : Fl R) < limit)) N (by simpa using limit_met hN) (N + 1) 0 0 1 (by omega) (by omega)
    (le_refl _) Fl.zero_le_one' Fl.zero_le_one' (le_refl _)
  obtain ⟨m0, m1⟩ := mid_memR l0 l1 u0 u1
  rw [← h5] at m0 m1
  refine ⟨r, i, lo, hi, ?_, h1, l0, l1, u0, u1, h5, m0, m1, h6.imp (fun h => by simpa using h) ?_⟩
  · intro fuel hf
    obtain ⟨k, rfl⟩ := Nat.exists_eq_add_of_le hf
    unfold Surface.BinarySearchParameterOn
    rw [e k, bind_ok]
    rfl
  · rintro ⟨rm, rl, rr, e1, e2, e3, q1, q2, q3⟩
    obtain ⟨C, g, hC, hr, -⟩ := evalLine_total sqrt hw P hd hc0 hc1 m0 m1
    obtain ⟨L, gL, hL, hrL, -⟩ := evalLine_total sqrt hw P hd hc0 hc1 (x := max lo (r - eps)) (l0.trans (le_max_left _ _))
      (max_le l1 ((sub_leR he).trans m1))
    obtain ⟨R', gR, hR, hrR, -⟩ := evalLine_total sqrt hw P hd hc0 hc1 (x := min hi (r + eps)) (le_min u0 (m0.trans (le_addR he)))
      ((min_le_left _ _).trans u1)
    rw [hr] at e1
    rw [hrL] at e2
    rw [hrR] at e3
    cases e1; cases e2; cases e3
    exact ⟨_, _, _, hC, hL, hR, q1, q2, q3⟩

/-- Runs in `double` arithmetic on the curve and the patch of `Props/Rounded` (squared distances, i.e. `sqrt = id`). -/
example : (wavy.SearchParameter id 4 ⟨2, dbl (1/10), 0⟩ (dbl (3/10)) (dbl (1/100)) 3).map (fun x => (x.1.val, x.2)) =
    .ok (5233607023842781/18014398509481984, 3) := by decide +kernel
example : (patch.SearchParameterOn id 4 ⟨dbl (1/10), dbl (3/10), 0⟩ 1 (dbl (3/10)) (dbl (1/5)) (dbl (1/100)) 3).map
    (fun x => (x.1.1.val, x.2)) = .ok (2663516269941905/72057594037927936, 3) := by decide +kernel
example : (wavy.BinarySearchParameter id ⟨2, dbl (1/10), 0⟩ (dbl (1/100)) 3).map (fun x => (x.1.val, x.2)) = .ok (1/16, 3) := by
  decide +kernel

end Nurbs.Props
