import Verif.Proof.SurfaceSearch
import Verif.Props.SurfaceDeriv

/-! # C51: parameter searches on surfaces -/

set_option linter.unusedSectionVars false

namespace Nurbs.Props
open Nurbs Nurbs.Spec Nurbs.Surface

variable {K : Type} [Field K] [LinearOrder K] [IsStrictOrderedRing K]

theorem surface_residual_eq (sqrt : K → K) {s : Surface K} {P C : Vec3 K} {u v : K} (h : s.Evaluate u v = .ok C) :
    s.residual sqrt P u v = .ok (distance sqrt C P) := by
  unfold Surface.residual
  rw [h, bind_ok]
  show Except.ok (Vec3.norm sqrt (C - P)) = _
  congr 1
  unfold Vec3.norm Vec3.dot distance
  simp [sq]

theorem surface_derivative_total {p q m n : ℕ} {s : Surface K} (hw : WFSurface p q m n s) :
    TotalOn2 (fun u v => s.EvaluateDerivative u v 1 0) ∧ TotalOn2 (fun u v => s.EvaluateDerivative u v 0 1) := by
  constructor
  · intro u v h0 h1 h2 h3
    obtain ⟨_, _, _, _, _, _, _, _, _, _, _, _, _, _, _, _, _, _, hd⟩ :=
      C45_evaluateAll_partial hw h0 h1 h2 h3 1 0 (by omega) (by omega) (by simp)
    exact ⟨_, hd⟩
  · intro u v h0 h1 h2 h3
    obtain ⟨_, _, _, _, _, _, _, _, _, _, _, _, _, _, _, _, _, _, hd⟩ :=
      C45_evaluateAll_partial hw h0 h1 h2 h3 0 1 (by omega) (by omega) (by simp)
    exact ⟨_, hd⟩

theorem surface_residual_total (sqrt : K → K) {p q m n : ℕ} {s : Surface K} (hw : WFSurface p q m n s) (P : Vec3 K) :
    TotalOn2 (s.residual sqrt P) :=
  fun _ _ h0 h1 h2 h3 => ⟨_, surface_residual_eq sqrt (C43_evaluate hw h0 h1 h2 h3).1⟩

theorem surface_gradient_total {p q m n : ℕ} {s : Surface K} (hw : WFSurface p q m n s) (P : Vec3 K) :
    TotalOn2 (s.searchGradient P) := by
  intro u v h0 h1 h2 h3
  obtain ⟨a, ha⟩ := (surface_derivative_total hw).1 u v h0 h1 h2 h3
  obtain ⟨b, hb⟩ := (surface_derivative_total hw).2 u v h0 h1 h2 h3
  unfold Surface.searchGradient
  simp only at ha hb
  rw [(C43_evaluate hw h0 h1 h2 h3).1, bind_ok, ha, bind_ok, hb, bind_ok]
  exact ⟨_, rfl⟩

theorem dblMax_eq : (Search.dblMax : K) = (2 ^ 53 - 1) * 2 ^ 971 := by
  unfold Search.dblMax
  rw [Nat.cast_mul, Nat.cast_sub Nat.one_le_two_pow, Nat.cast_pow, Nat.cast_pow, Nat.cast_one, Nat.cast_two]

/-- C51, `SearchParameter`: for initial parameters in `[0,1]` and a finite `epsilon` it never fails, stops after at most
`max_iteration_count` iterations (rounded up) and returns parameters in `[0,1]`; if it stops before the limit, the
distance of the returned point is below `epsilon`. -/
theorem C51_searchParameter [Archimedean K] (sqrt : K → K) {p q m n : ℕ} {s : Surface K} (hw : WFSurface p q m n s) (P : Vec3 K)
    {u₀ v₀ : K} (hu0 : 0 ≤ u₀) (hu1 : u₀ ≤ 1) (hv0 : 0 ≤ v₀) (hv1 : v₀ ≤ 1) {eps : K} (he : eps ≤ (2 ^ 53 - 1) * 2 ^ 971) (limit : K) :
    ∃ u v i C fuel₀, (∀ fuel ≥ fuel₀, s.SearchParameter sqrt fuel P u₀ v₀ eps limit = .ok ((u, v), i)) ∧
      (i = 0 ∨ (i : K) - 1 < limit) ∧ 0 ≤ u ∧ u ≤ 1 ∧ 0 ≤ v ∧ v ≤ 1 ∧ s.Evaluate u v = .ok C ∧
      ((i : K) < limit → distance sqrt C P < eps) := by
  obtain ⟨N, hN⟩ := exists_nat_gt limit
  obtain ⟨st, i, e, ⟨q1, q2, q3, q4⟩, q5, q6, q7⟩ := bfgsLoop2_ok (surface_residual_total sqrt hw P) (surface_gradient_total hw P)
    eps limit N hN.le (N + 1) 0 (⟨u₀, v₀⟩, Search.dblMax, ⟨1, 0, 0, 1⟩) (by omega) (Or.inl rfl) ⟨hu0, hu1, hv0, hv1⟩
    (fun h => absurd h (not_lt.mpr (by rw [dblMax_eq]; exact he)))
  have hE := (C43_evaluate hw q1 q2 q3 q4).1
  refine ⟨st.1.x, st.1.y, i, _, N + 1, ?_, q5, q1, q2, q3, q4, hE, ?_⟩
  · intro fuel hf
    obtain ⟨k, rfl⟩ := Nat.exists_eq_add_of_le hf
    unfold Surface.SearchParameter
    rw [massert_true ⟨hu0, hu1⟩, bind_ok, massert_true ⟨hv0, hv1⟩, bind_ok, bfgsLoop2_mono _ _ _ _ _ _ _ _ k e, bind_ok]
    rfl
  · intro h
    have h2 := q7 (q6 h)
    rw [surface_residual_eq sqrt hE] at h2
    rw [Except.ok.inj h2]
    exact q6 h

/-- The parameter pair on the line selected by `direction`: `(constant, x)` for 0, `(x, constant)` for 1. -/
def linePair (direction : Int) (constant x : K) : K × K := if direction = 0 then (constant, x) else (x, constant)

theorem onLine_eq {d : Int} (hd : d = 0 ∨ d = 1) (c x : K) : Surface.onLine d c x = linePair d c x ∧ Surface.pairOn d c x = linePair d c x := by
  rcases hd with rfl | rfl <;> simp [Surface.onLine, Surface.pairOn, linePair]

theorem linePair_mem {d : Int} {c x : K} (hc0 : 0 ≤ c) (hc1 : c ≤ 1) (h0 : 0 ≤ x) (h1 : x ≤ 1) :
    0 ≤ (linePair d c x).1 ∧ (linePair d c x).1 ≤ 1 ∧ 0 ≤ (linePair d c x).2 ∧ (linePair d c x).2 ≤ 1 := by
  unfold linePair
  split_ifs
  · exact ⟨hc0, hc1, h0, h1⟩
  · exact ⟨h0, h1, hc0, hc1⟩

theorem residualOn_eq (sqrt : K → K) {p q m n : ℕ} {s : Surface K} (hw : WFSurface p q m n s) (P : Vec3 K) {d : Int} (hd : d = 0 ∨ d = 1)
    {c : K} (hc0 : 0 ≤ c) (hc1 : c ≤ 1) {x : K} (h0 : 0 ≤ x) (h1 : x ≤ 1) :
    s.Evaluate (linePair d c x).1 (linePair d c x).2 = .ok (surfPoint p q m n s (linePair d c x).1 (linePair d c x).2) ∧
    s.residualOn sqrt P d c x = .ok (distance sqrt (surfPoint p q m n s (linePair d c x).1 (linePair d c x).2) P) := by
  obtain ⟨a, b, e, f⟩ := linePair_mem (d := d) hc0 hc1 h0 h1
  have hE := (C43_evaluate hw a b e f).1
  refine ⟨hE, ?_⟩
  unfold Surface.residualOn
  rw [(onLine_eq hd c x).1]
  exact surface_residual_eq sqrt hE

theorem gradientOn_total {p q m n : ℕ} {s : Surface K} (hw : WFSurface p q m n s) (P : Vec3 K) {d : Int} (hd : d = 0 ∨ d = 1)
    {c : K} (hc0 : 0 ≤ c) (hc1 : c ≤ 1) : TotalOn (s.gradientOn P d c) := by
  intro x h0 h1
  obtain ⟨a, b, e, f⟩ := linePair_mem (d := d) hc0 hc1 h0 h1
  have hE := (C43_evaluate hw a b e f).1
  obtain ⟨r, hr⟩ := (surface_derivative_total hw).1 _ _ a b e f
  obtain ⟨r', hr'⟩ := (surface_derivative_total hw).2 _ _ a b e f
  simp only at hr hr'
  unfold Surface.gradientOn
  simp only
  rw [(onLine_eq hd c x).1, hE, bind_ok]
  split_ifs
  · rw [hr]; exact ⟨_, rfl⟩
  · rw [hr']; exact ⟨_, rfl⟩

/-- C51, `SearchParameterOn`: for direction 0 or 1 and a constant and an initial value in `[0,1]` it never fails, keeps the constant
in the coordinate selected by the direction, returns the other parameter in `[0,1]`, stops after at most `max_iteration_count`
iterations (rounded up), and if it stops before, the distance of the returned point is below `epsilon`. -/
theorem C51_searchParameterOn [Archimedean K] (sqrt : K → K) {p q m n : ℕ} {s : Surface K} (hw : WFSurface p q m n s) (P : Vec3 K)
    {d : Int} (hd : d = 0 ∨ d = 1) {c x₀ : K} (hc0 : 0 ≤ c) (hc1 : c ≤ 1) (hx0 : 0 ≤ x₀) (hx1 : x₀ ≤ 1) {eps : K}
    (he : eps ≤ (2 ^ 53 - 1) * 2 ^ 971) (limit : K) :
    ∃ u v i C fuel₀, (∀ fuel ≥ fuel₀, s.SearchParameterOn sqrt fuel P d c x₀ eps limit = .ok ((u, v), i)) ∧
      (d = 0 → u = c ∧ 0 ≤ v ∧ v ≤ 1) ∧ (d = 1 → v = c ∧ 0 ≤ u ∧ u ≤ 1) ∧
      (i = 0 ∨ (i : K) - 1 < limit) ∧ s.Evaluate u v = .ok C ∧ ((i : K) < limit → distance sqrt C P < eps) := by
  obtain ⟨N, hN⟩ := exists_nat_gt limit
  obtain ⟨st, i, e, q1, q2, q3, q4, q5⟩ := bfgsLoop1_ok (norm := s.residualOn sqrt P d c) (fi := s.gradientOn P d c)
    (fun x h0 h1 => ⟨_, (residualOn_eq sqrt hw P hd hc0 hc1 h0 h1).2⟩) (gradientOn_total hw P hd hc0 hc1) 0
    eps limit N hN.le (N + 1) 0 (x₀, Search.dblMax, 1) (by omega) (Or.inl rfl) hx0 hx1
    (fun h => absurd h (not_lt.mpr (by rw [dblMax_eq]; exact he)))
  obtain ⟨hE, hR⟩ := residualOn_eq sqrt hw P hd hc0 hc1 q1 q2
  refine ⟨(linePair d c st.1).1, (linePair d c st.1).2, i, _, N + 1, ?_, ?_, ?_, q3, hE, ?_⟩
  · intro fuel hf
    obtain ⟨k, rfl⟩ := Nat.exists_eq_add_of_le hf
    unfold Surface.SearchParameterOn
    rw [bfgsLoop1_mono _ _ _ _ _ _ _ _ _ k e, bind_ok]
    simp only [(onLine_eq hd c st.1).2]
    rfl
  · rintro rfl; exact ⟨rfl, q1, q2⟩
  · rintro rfl; exact ⟨rfl, q1, q2⟩
  · intro h
    have h2 := q5 (q4 h)
    rw [hR] at h2
    rw [Except.ok.inj h2]
    exact q4 h

/-- C51, `BinarySearchParameterOn`: for direction 0 or 1, a constant in `[0,1]` and `epsilon ≥ 0` it never fails, makes at most
`max_iteration_count` iterations (rounded up), keeps the constant in the coordinate selected by the direction and returns in the other
one the middle `r` of a bracket `[lo, hi] ⊆ [0,1]`.  Unless the iterations were used up, the distance is not larger than at the two probes
`epsilon` to both sides (cut off at the bracket), and it is below `epsilon` or the bracket is shorter than `epsilon`. -/
theorem C51_binarySearchOn [Archimedean K] (sqrt : K → K) {p q m n : ℕ} {s : Surface K} (hw : WFSurface p q m n s) (P : Vec3 K)
    {d : Int} (hd : d = 0 ∨ d = 1) {c : K} (hc0 : 0 ≤ c) (hc1 : c ≤ 1) {eps : K} (he : 0 ≤ eps) (limit : K) :
    ∃ r i lo hi fuel₀, (∀ fuel ≥ fuel₀, s.BinarySearchParameterOn sqrt fuel P d c eps limit =
        .ok (if d = 0 then (c, r) else (r, c), i)) ∧
      (i = 0 ∨ (i : K) - 1 < limit) ∧ 0 ≤ lo ∧ lo ≤ hi ∧ hi ≤ 1 ∧ r = (lo + hi) / 2 ∧ 0 ≤ r ∧ r ≤ 1 ∧
      (limit ≤ i ∨ ∃ C L R, (if d = 0 then s.Evaluate c r else s.Evaluate r c) = .ok C ∧
        (if d = 0 then s.Evaluate c (max lo (r - eps)) else s.Evaluate (max lo (r - eps)) c) = .ok L ∧
        (if d = 0 then s.Evaluate c (min hi (r + eps)) else s.Evaluate (min hi (r + eps)) c) = .ok R ∧
        distance sqrt C P ≤ distance sqrt L P ∧ distance sqrt C P ≤ distance sqrt R P ∧
        (hi - lo < eps ∨ distance sqrt C P < eps)) := by
  have hex : ∃ N : ℕ, limit ≤ N := ⟨_, (exists_nat_gt limit).choose_spec.le⟩
  classical
  obtain ⟨r, i, lo, hi, e, h1, h2, h3, h4, h5, h6⟩ := binLoop_ok (Ri := s.residualOn sqrt P d c)
    (fun x h0 h1 => ⟨_, (residualOn_eq sqrt hw P hd hc0 hc1 h0 h1).2⟩) he
    (fun count => decide ((count : K) < limit)) (Nat.find hex) (by
      intro n
      rw [decide_eq_true_iff, Nat.lt_find_iff]
      constructor
      · intro h k hk h'
        exact absurd (h'.trans (Nat.cast_le.mpr hk)) (not_le.mpr h)
      · intro h
        exact not_le.mp (h n le_rfl)) (Nat.find hex + 1) 0 0 1 (by omega) (by omega) (le_refl _) zero_le_one (le_refl _)
  obtain ⟨hm1, hm2⟩ := mid_mem h3
  rw [← h5] at hm1 hm2
  have ev : ∀ x, (if d = 0 then s.Evaluate c x else s.Evaluate x c) = s.Evaluate (linePair d c x).1 (linePair d c x).2 := by
    intro x; unfold linePair; split_ifs <;> rfl
  refine ⟨r, i, lo, hi, Nat.find hex + 1, ?_, ?_, h2, h3, h4, h5, h2.trans hm1, hm2.trans h4, h6.imp ?_ ?_⟩
  · intro fuel hf
    obtain ⟨k, rfl⟩ := Nat.exists_eq_add_of_le hf
    unfold Surface.BinarySearchParameterOn
    rw [binLoop_mono _ _ _ _ _ _ _ _ k e, bind_ok]
    simp only [(onLine_eq hd c r).2]
    rfl
  · rcases Nat.eq_zero_or_pos i with h | h
    · exact Or.inl h
    · refine Or.inr ?_
      have := Nat.find_min hex (m := i - 1) (by omega)
      rw [not_le, Nat.cast_sub h, Nat.cast_one] at this
      exact this
  · rintro rfl
    exact Nat.find_spec hex
  · rintro ⟨rm, rl, rr, e1, e2, e3, q1, q2, q3⟩
    have l0 : 0 ≤ max lo (r - eps) := le_trans h2 (le_max_left _ _)
    have l1 : max lo (r - eps) ≤ 1 := (max_le hm1 (by linarith)).trans (hm2.trans h4)
    have r0 : 0 ≤ min hi (r + eps) := (h2.trans hm1).trans (le_min hm2 (by linarith))
    have r1 : min hi (r + eps) ≤ 1 := (min_le_left _ _).trans h4
    obtain ⟨eC, fC⟩ := residualOn_eq sqrt hw P hd hc0 hc1 (h2.trans hm1) (hm2.trans h4)
    obtain ⟨eL, fL⟩ := residualOn_eq sqrt hw P hd hc0 hc1 l0 l1
    obtain ⟨eR, fR⟩ := residualOn_eq sqrt hw P hd hc0 hc1 r0 r1
    rw [fC] at e1; rw [fL] at e2; rw [fR] at e3
    rw [← Except.ok.inj e1] at q1 q2 q3
    rw [← Except.ok.inj e2] at q1
    rw [← Except.ok.inj e3] at q2
    simp only [ev]
    exact ⟨_, _, _, eC, eL, eR, q1, q2, q3⟩

/-- Runs on the rational example (squared distances, i.e. `sqrt = id`). -/
example : exSurface.SearchParameter id 11 ⟨11/7, 4/7, 5/7⟩ (1/3) (1/4) (1/10) 10 = .ok ((1/3, 1/4), 1) := by decide +kernel
example : exSurface.SearchParameterOn id 11 ⟨11/7, 4/7, 5/7⟩ 0 (1/3) (1/4) (1/10) 10 = .ok ((1/3, 1/4), 1) := by decide +kernel
example : exSurface.BinarySearchParameterOn id 30 ⟨11/7, 4/7, 5/7⟩ 1 (1/4) (1/10) 20 = .ok ((3/8, 1/4), 3) := by decide +kernel

/-- For a direction other than 0 and 1 the code evaluates at `(value, value)` but returns `(value, constant)`: here the search stops
early because the point at `(1/2, 1/2)` is the target, and returns the parameters of another point. -/
theorem C51_direction_needed : exBilinear.SearchParameterOn id 11 ⟨1/2, 1/2, 1/4⟩ 2 (1/4) (1/2) (1/100) 10 = .ok ((1/2, 1/4), 1) ∧
    exBilinear.Evaluate (1/2) (1/4) = .ok ⟨1/2, 1/4, 1/8⟩ := by decide +kernel

end Nurbs.Props
