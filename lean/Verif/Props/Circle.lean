import Verif.Proof.Circle
import Mathlib.Analysis.Real.Sqrt

/-! # C102: circles and surfaces of revolution are exact -/

set_option linter.unusedSectionVars false

namespace Nurbs.Props
open Nurbs Nurbs.Spec Polynomial

variable {K : Type} [Field K] [LinearOrder K] [IsStrictOrderedRing K] {o : Vec3 K} {r : K} {n : ℕ} {c : Curve K}

theorem quotDeriv_zero (A W : K[X]) (x : K) : quotDeriv A W 0 x = A.eval x / W.eval x := by simp [quotDeriv, quotNum]

theorem quotDeriv_one (A W : K[X]) (x : K) : quotDeriv A W 1 x =
    ((derivative A).eval x * W.eval x - A.eval x * (derivative W).eval x) / W.eval x ^ 2 := by simp [quotDeriv, quotNum]

/-- C102 (circles).  Every point of a curve made of arcs is at distance `r` from the centre, and the first derivative is perpendicular to
the radius. -/
theorem C102_circle (hw : WFCurve 2 c) (ha : Arcs o r n c) {x : K} (h0 : 0 ≤ x) (h1 : x ≤ 1) :
    ∃ Q T, c.Evaluate x = .ok Q ∧ c.EvaluateDerivative x 1 = .ok T ∧
      (Q.x - o.x) ^ 2 + (Q.y - o.y) ^ 2 + (Q.z - o.z) ^ 2 = r ^ 2 ∧
      (Q.x - o.x) * T.x + (Q.y - o.y) * T.y + (Q.z - o.z) * T.z = 0 := by
  obtain ⟨k, hk, hpk, hl⟩ := exists_span hw.clamped h0 h1
  obtain ⟨i, hi, rfl⟩ := arcs_span hw ha hk
  obtain ⟨hpos, he⟩ := curve_evaluateAll_ok hw h0 h1 hk 1 (by omega)
  obtain ⟨_, _, _, _, he0⟩ := evaluate_seg hw h0 h1 hk
  have hS := arc_sphere ha hi (IsSpan.lt hk)
  have hD := congrArg (fun p => (derivative p).eval x) hS
  have hE := congrArg (fun p => p.eval x) hS
  simp only [derivative_add, derivative_pow, derivative_sub, derivative_mul, derivative_C, eval_add, eval_sub, eval_mul, eval_pow, eval_C,
    zero_mul, zero_add, Nat.cast_ofNat, map_ofNat, eval_ofNat, mul_zero] at hD hE
  have hq : proj (seg (kn c.Knots.Values) (2 * i + 2) x 2 (hpts c.ControlPoints)) = ratD 2 c (2 * i + 2) x 0 := by
    unfold ratD proj
    simp only [quotDeriv_zero, curveP, segP_eval]
    unfold seg
    simp only [Vec4.sum_x, Vec4.sum_y, Vec4.sum_z, Vec4.sum_w]
    rfl
  refine ⟨ratD 2 c (2 * i + 2) x 0, ratD 2 c (2 * i + 2) x 1, by rw [he0, hq], ?_, ?_, ?_⟩
  · unfold Curve.EvaluateDerivative
    rw [show ((1 : Int)) = ((1 : ℕ) : Int) from rfl, he, bind_ok]
    exact vget_tab _ _ _ 1 rfl (by omega)
  · simp only [ratD, quotDeriv_zero]
    generalize (curveP 2 c (2 * i + 2) (·.x)).eval x = X at *
    generalize (curveP 2 c (2 * i + 2) (·.y)).eval x = Y at *
    generalize (curveP 2 c (2 * i + 2) (·.z)).eval x = Z at *
    generalize (curveP 2 c (2 * i + 2) (·.w)).eval x = W at *
    have hW := hpos.ne'
    field_simp
    linear_combination hE
  · simp only [ratD, quotDeriv_zero, quotDeriv_one]
    generalize (derivative (curveP 2 c (2 * i + 2) (·.x))).eval x = X' at *
    generalize (derivative (curveP 2 c (2 * i + 2) (·.y))).eval x = Y' at *
    generalize (derivative (curveP 2 c (2 * i + 2) (·.z))).eval x = Z' at *
    generalize (derivative (curveP 2 c (2 * i + 2) (·.w))).eval x = W' at *
    generalize (curveP 2 c (2 * i + 2) (·.x)).eval x = X at *
    generalize (curveP 2 c (2 * i + 2) (·.y)).eval x = Y at *
    generalize (curveP 2 c (2 * i + 2) (·.z)).eval x = Z at *
    generalize (curveP 2 c (2 * i + 2) (·.w)).eval x = W at *
    have hW := hpos.ne'
    field_simp
    linear_combination (W / 2) * hD - W' * hE

/-- C102 (the whole arc).  Every point of the circle in the triangle of the control points of an arc is a point of the curve. -/
theorem C102_onto (hw : WFCurve 2 c) (ha : Arcs o r n c) {i : ℕ} (hi : i < n)
    (hlt : kn c.Knots.Values (2 * i + 2) < kn c.Knots.Values (2 * i + 3))
    (hB : r * r < dotAt o (pt c.ControlPoints (2 * i + 1)) (pt c.ControlPoints (2 * i + 1))) {α β γ : K} (hα : 0 < α) (hβ : 0 ≤ β)
    (hsum : α + β + γ = 1) {Q : Vec3 K}
    (hx : Q.x = α * (pt c.ControlPoints (2 * i)).x + β * (pt c.ControlPoints (2 * i + 1)).x + γ * (pt c.ControlPoints (2 * i + 2)).x)
    (hy : Q.y = α * (pt c.ControlPoints (2 * i)).y + β * (pt c.ControlPoints (2 * i + 1)).y + γ * (pt c.ControlPoints (2 * i + 2)).y)
    (hz : Q.z = α * (pt c.ControlPoints (2 * i)).z + β * (pt c.ControlPoints (2 * i + 1)).z + γ * (pt c.ControlPoints (2 * i + 2)).z)
    (hQ : (Q.x - o.x) ^ 2 + (Q.y - o.y) ^ 2 + (Q.z - o.z) ^ 2 = r ^ 2) :
    ∃ x, kn c.Knots.Values (2 * i + 2) ≤ x ∧ x < kn c.Knots.Values (2 * i + 3) ∧ c.Evaluate x = .ok Q := by
  have hct := hw.count
  have hl := ha.count
  have w0 := hw.weights (2 * i) (by omega)
  have w1 := hw.weights (2 * i + 1) (by omega)
  have w2 := hw.weights (2 * i + 2) (by omega)
  obtain ⟨e1, e2, e3, e4, e5⟩ := ha.arc i hi
  have key : β ^ 2 * ((pt c.ControlPoints (2 * i)).w * (pt c.ControlPoints (2 * i + 2)).w) =
      4 * α * γ * (pt c.ControlPoints (2 * i + 1)).w ^ 2 := by
    have hne : dotAt o (pt c.ControlPoints (2 * i + 1)) (pt c.ControlPoints (2 * i + 1)) - r * r ≠ 0 := sub_ne_zero.mpr hB.ne'
    apply mul_right_cancel₀ hne
    have hγ : γ = 1 - α - β := by linear_combination hsum
    have h2 : 2 * α * γ * (dotAt o (pt c.ControlPoints (2 * i)) (pt c.ControlPoints (2 * i + 2)) - r * r) +
        β ^ 2 * (dotAt o (pt c.ControlPoints (2 * i + 1)) (pt c.ControlPoints (2 * i + 1)) - r * r) = 0 := by
      rw [hx, hy, hz] at hQ
      unfold dotAt at *
      rw [hγ] at hQ ⊢
      linear_combination hQ - α ^ 2 * e1 - (1 - α - β) ^ 2 * e2 - 2 * α * β * e3 - 2 * β * (1 - α - β) * e4
    linear_combination ((pt c.ControlPoints (2 * i)).w * (pt c.ControlPoints (2 * i + 2)).w) * h2 + 2 * α * γ * e5
  set a := kn c.Knots.Values (2 * i + 2) with hadef
  set b := kn c.Knots.Values (2 * i + 3) with hbdef
  set s := β * (pt c.ControlPoints (2 * i)).w / (2 * (pt c.ControlPoints (2 * i + 1)).w * α) with hs
  have hs0 : 0 ≤ s := by positivity
  have hs1 : 0 < 1 + s := by positivity
  have hxb : b - (a + s * b) / (1 + s) = (b - a) / (1 + s) := by field_simp; ring
  have hxa : (a + s * b) / (1 + s) - a = s * (b - a) / (1 + s) := by field_simp; ring
  have hd : 0 < b - a := sub_pos.mpr hlt
  have hle : a ≤ (a + s * b) / (1 + s) := by
    rw [← sub_nonneg, hxa]; positivity
  have hlt' : (a + s * b) / (1 + s) < b := by
    rw [← sub_pos, hxb]; positivity
  refine ⟨(a + s * b) / (1 + s), hle, hlt', ?_⟩
  have hk : IsSpan c.Knots.Values ((a + s * b) / (1 + s)) (2 * i + 2) := ⟨by omega, hle, Or.inl hlt'⟩
  have h0 : 0 ≤ (a + s * b) / (1 + s) := le_trans (hw.clamped.nonneg (by omega)) hle
  have h1 : (a + s * b) / (1 + s) ≤ 1 := le_trans hlt'.le (hw.clamped.le_one (by omega))
  obtain ⟨_, _, _, hpos, he⟩ := evaluate_seg hw h0 h1 hk
  rw [he]
  have hh : ∀ L : Vec4 K → K, (curveP 2 c (2 * i + 2) L).eval ((a + s * b) / (1 + s)) = 1 / (1 + s) ^ 2 *
      (L (hpts c.ControlPoints (2 * i)) + 2 * s * L (hpts c.ControlPoints (2 * i + 1)) + s ^ 2 * L (hpts c.ControlPoints (2 * i + 2))) := by
    intro L
    have h := arc_hom ha hi hlt ((a + s * b) / (1 + s)) L
    rw [← hadef, ← hbdef, hxa, hxb] at h
    apply mul_left_cancel₀ (pow_ne_zero 2 hd.ne')
    rw [h]
    field_simp
  have hp : proj (seg (kn c.Knots.Values) (2 * i + 2) ((a + s * b) / (1 + s)) 2 (hpts c.ControlPoints)) =
      ⟨(curveP 2 c (2 * i + 2) (·.x)).eval ((a + s * b) / (1 + s)) / (curveP 2 c (2 * i + 2) (·.w)).eval ((a + s * b) / (1 + s)),
        (curveP 2 c (2 * i + 2) (·.y)).eval ((a + s * b) / (1 + s)) / (curveP 2 c (2 * i + 2) (·.w)).eval ((a + s * b) / (1 + s)),
        (curveP 2 c (2 * i + 2) (·.z)).eval ((a + s * b) / (1 + s)) / (curveP 2 c (2 * i + 2) (·.w)).eval ((a + s * b) / (1 + s))⟩ := by
    unfold proj
    simp only [curveP, segP_eval]
    unfold seg
    simp only [Vec4.sum_x, Vec4.sum_y, Vec4.sum_z, Vec4.sum_w]
    rfl
  have t1 : 2 * s * (pt c.ControlPoints (2 * i + 1)).w = β * (pt c.ControlPoints (2 * i)).w / α := by rw [hs]; field_simp
  have t2 : s ^ 2 * (pt c.ControlPoints (2 * i + 2)).w = γ * (pt c.ControlPoints (2 * i)).w / α := by
    rw [hs]; field_simp; linear_combination key
  rw [hp, hh, hh, hh, hh]
  have hw' : (hpts c.ControlPoints (2 * i)).w + 2 * s * (hpts c.ControlPoints (2 * i + 1)).w + s ^ 2 * (hpts c.ControlPoints (2 * i + 2)).w =
      (pt c.ControlPoints (2 * i)).w / α := by
    simp only [hpts, ToHomo]
    rw [t1, t2]
    field_simp
    linear_combination hsum
  have hf : ∀ f : Vec4 K → K, (f (pt c.ControlPoints (2 * i)) * (pt c.ControlPoints (2 * i)).w +
      2 * s * (f (pt c.ControlPoints (2 * i + 1)) * (pt c.ControlPoints (2 * i + 1)).w) +
      s ^ 2 * (f (pt c.ControlPoints (2 * i + 2)) * (pt c.ControlPoints (2 * i + 2)).w)) = (pt c.ControlPoints (2 * i)).w / α *
      (α * f (pt c.ControlPoints (2 * i)) + β * f (pt c.ControlPoints (2 * i + 1)) + γ * f (pt c.ControlPoints (2 * i + 2))) := by
    intro f
    have hα' := hα.ne'
    field_simp
    have t1' : 2 * s * (pt c.ControlPoints (2 * i + 1)).w * α = β * (pt c.ControlPoints (2 * i)).w := by rw [t1]; field_simp
    have t2' : s ^ 2 * (pt c.ControlPoints (2 * i + 2)).w * α = γ * (pt c.ControlPoints (2 * i)).w := by rw [t2]; field_simp
    linear_combination f (pt c.ControlPoints (2 * i + 1)) * t1' + f (pt c.ControlPoints (2 * i + 2)) * t2'
  have hfin : ∀ G g : K, G = (pt c.ControlPoints (2 * i)).w / α * g → 1 / (1 + s) ^ 2 * G / (1 / (1 + s) ^ 2 * ((pt c.ControlPoints (2 * i)).w / α)) = g := by
    intro G g h
    rw [h]
    field_simp
  rw [hw']
  congr 1
  ext
  · rw [hx]; exact hfin _ _ (hf (·.x))
  · rw [hy]; exact hfin _ _ (hf (·.y))
  · rw [hz]; exact hfin _ _ (hf (·.z))

/-- C102 (surfaces of revolution).  A surface whose control points are the products of an outline and a profile turns the profile along
the outline: the point at `(u, v)` is the point of the outline at `u`, scaled by the distance of the profile at `v` from the axis, at the
height of the profile. -/
theorem C102_revolution {p q m n : ℕ} {e c : Curve K} {s : Surface K} (he : WFCurve p e) (hc : WFCurve q c) (hs : WFSurface p q m n s)
    (hr : Revolves m n e c s) {u v : K} (hu0 : 0 ≤ u) (hu1 : u ≤ 1) (hv0 : 0 ≤ v) (hv1 : v ≤ 1) :
    ∃ E C, e.Evaluate u = .ok E ∧ c.Evaluate v = .ok C ∧ s.Evaluate u v = .ok ⟨C.x * E.x, C.x * E.y, C.z⟩ := by
  obtain ⟨ee, hE⟩ := C23_evaluate he hu0 hu1
  obtain ⟨ec, hC⟩ := C23_evaluate hc hv0 hv1
  refine ⟨_, _, ee, ec, ?_⟩
  rw [(C43_evaluate hs hu0 hu1 hv0 hv1).1]
  have key : ∀ (f g h : Vec4 K → K), (∀ i < m, ∀ j < n, h (cp s i j) = g (pt c.ControlPoints j) * f (pt e.ControlPoints i)) →
      swsum p q m n s u v h = wsum p e u f * wsum q c v g := by
    intro f g h hfg
    unfold swsum wsum
    rw [Finset.sum_mul_sum, hr.countU, hr.countV, hr.knotsU, hr.knotsV]
    refine Finset.sum_congr rfl fun i hi => Finset.sum_congr rfl fun j hj => ?_
    rw [Finset.mem_range] at hi hj
    rw [hfg i hi j hj, hr.points i hi j hj]
    ring
  have kx := key (·.x) (·.x) (·.x) fun i hi j hj => by rw [hr.points i hi j hj]
  have ky := key (·.y) (·.x) (·.y) fun i hi j hj => by rw [hr.points i hi j hj]
  have kz := key (fun _ => 1) (·.z) (·.z) fun i hi j hj => by rw [hr.points i hi j hj, mul_one]
  have kw := key (fun _ => 1) (fun _ => 1) (fun _ => 1) fun i hi j hj => by rw [mul_one]
  unfold surfPoint nurbsPoint
  rw [kx, ky, kz, kw]
  have a1 := hE.ne'
  have a2 := hC.ne'
  congr 1
  ext <;> simp only <;> field_simp

/-- C102 (round surfaces).  With a circle about the axis as outline, every point is as far from the axis as the profile. -/
theorem C102_round {q m n N : ℕ} {e c : Curve K} {s : Surface K} (he : WFCurve 2 e) (hc : WFCurve q c) (hs : WFSurface 2 q m n s)
    (hr : Revolves m n e c s) (ha : Arcs ⟨0, 0, 0⟩ 1 N e) (hflat : ∀ i < m, (pt e.ControlPoints i).z = 0) {u v : K} (hu0 : 0 ≤ u) (hu1 : u ≤ 1)
    (hv0 : 0 ≤ v) (hv1 : v ≤ 1) :
    ∃ S C, s.Evaluate u v = .ok S ∧ c.Evaluate v = .ok C ∧ S.x ^ 2 + S.y ^ 2 = C.x ^ 2 ∧ S.z = C.z := by
  obtain ⟨E, C, h1, h2, h3⟩ := C102_revolution he hc hs hr hu0 hu1 hv0 hv1
  obtain ⟨Q, _, g1, _, g2, _⟩ := C102_circle he ha hu0 hu1
  rw [h1] at g1
  injection g1 with g1
  subst g1
  refine ⟨_, _, h3, h2, ?_, rfl⟩
  have hz : E.z = 0 := by
    rw [(C23_evaluate he hu0 hu1).1] at h1
    injection h1 with h1
    rw [← h1]
    unfold nurbsPoint wsum
    simp only
    rw [Finset.sum_eq_zero, zero_div]
    intro i hi
    rw [Finset.mem_range, hr.countU] at hi
    rw [hflat i hi, mul_zero]
  rw [hz] at g2
  simp only at g2 ⊢
  linear_combination C.x ^ 2 * g2

/-- An arc of the unit circle with rational control points (cosine of half the angle 3/5). -/
def exArc : Curve ℚ :=
  ⟨2, ⟨[0, 0, 0, 1, 1, 1]⟩, [⟨3/5, -4/5, 0, 1⟩, ⟨5/3, 0, 0, 3/5⟩, ⟨3/5, 4/5, 0, 1⟩]⟩

theorem exArc_wf : WFCurve 2 exArc := by
  refine ⟨rfl, ⟨by decide, by decide +kernel, by decide +kernel, by decide +kernel, by decide +kernel, by decide +kernel⟩, by decide, by decide +kernel⟩

theorem exArc_arcs : Arcs ⟨0, 0, 0⟩ 1 1 exArc := by
  refine ⟨by decide, by decide +kernel, fun i hi => ?_⟩
  have hi0 : i = 0 := by omega
  subst hi0
  constructor <;> decide +kernel

example : exArc.Evaluate (1/4) = .ok ⟨15/17, -8/17, 0⟩ ∧ (15/17 : ℚ) ^ 2 + (-8/17) ^ 2 = 1 := by decide +kernel
example : exArc.EvaluateDerivative (1/4) 1 = .ok ⟨256/289, 480/289, 0⟩ ∧ (15/17 : ℚ) * (256/289) + (-8/17) * (480/289) = 0 := by decide +kernel

/-- The full circle in nine control points; `h` stands for the cosine of 45 degrees. -/
def circle9 (h : K) : Curve K :=
  ⟨2, ⟨[0, 0, 0, 1/4, 1/4, 1/2, 1/2, 3/4, 3/4, 1, 1, 1]⟩, [⟨1, 0, 0, 1⟩, ⟨1, 1, 0, h⟩, ⟨0, 1, 0, 1⟩, ⟨-1, 1, 0, h⟩, ⟨-1, 0, 0, 1⟩,
    ⟨-1, -1, 0, h⟩, ⟨0, -1, 0, 1⟩, ⟨1, -1, 0, h⟩, ⟨1, 0, 0, 1⟩]⟩

theorem circle9_wf {h : K} (h0 : 0 < h) : WFCurve 2 (circle9 h) := by
  refine ⟨rfl, ⟨by simp [circle9], ?_, ?_, ?_, ?_, ?_⟩, by simp [circle9], ?_⟩
  · simp [circle9]; norm_num
  · intro i hi; interval_cases i <;> simp [circle9, kn]
  · intro i hi hi'
    simp only [circle9, List.length_cons, List.length_nil] at hi hi'
    interval_cases i <;> simp_all [circle9, kn]
  · simp [circle9, kn]
  · simp [circle9, kn]; norm_num
  · intro i hi
    simp only [circle9, List.length_cons, List.length_nil] at hi
    interval_cases i <;> simp [circle9, pt, h0]

theorem circle9_arcs {h : K} (hh : h * h = 1/2) : Arcs ⟨0, 0, 0⟩ 1 4 (circle9 h) := by
  refine ⟨by simp [circle9], ?_, ?_⟩
  · intro i hi; interval_cases i <;> simp [circle9, kn]
  · intro i hi
    interval_cases i <;> constructor <;> simp [circle9, pt, dotAt, hh]

/-- C102 (the full circle).  The curve of nine control points is the unit circle: its points are on the circle, and every point of the
circle in the plane of `x` and `y` is one of its points. -/
theorem C102_full {h : K} (h0 : 0 < h) (hh : h * h = 1/2) (Q : Vec3 K) :
    (∃ x, 0 ≤ x ∧ x ≤ 1 ∧ (circle9 h).Evaluate x = .ok Q) ↔ Q.x ^ 2 + Q.y ^ 2 = 1 ∧ Q.z = 0 := by
  have hw := circle9_wf h0
  have ha := circle9_arcs hh
  constructor
  · rintro ⟨x, hx0, hx1, e⟩
    obtain ⟨Q', _, e', _, h2, _⟩ := C102_circle hw ha hx0 hx1
    rw [e] at e'
    injection e' with e'
    subst e'
    have hz : Q.z = 0 := by
      rw [(C23_evaluate hw hx0 hx1).1] at e
      injection e with e
      rw [← e]
      unfold nurbsPoint wsum
      simp only
      rw [Finset.sum_eq_zero, zero_div]
      intro i hi
      simp only [circle9, List.length_cons, List.length_nil, Finset.mem_range] at hi
      interval_cases i <;> simp [circle9, pt]
    refine ⟨?_, hz⟩
    rw [hz] at h2
    simpa using h2
  · rintro ⟨hq, hz⟩
    have fin : ∀ i : ℕ, ∀ α β γ : K, i < 4 → 0 < α → 0 ≤ β → α + β + γ = 1 →
        Q.x = α * (pt (circle9 h).ControlPoints (2 * i)).x + β * (pt (circle9 h).ControlPoints (2 * i + 1)).x + γ * (pt (circle9 h).ControlPoints (2 * i + 2)).x →
        Q.y = α * (pt (circle9 h).ControlPoints (2 * i)).y + β * (pt (circle9 h).ControlPoints (2 * i + 1)).y + γ * (pt (circle9 h).ControlPoints (2 * i + 2)).y →
        ∃ x, 0 ≤ x ∧ x ≤ 1 ∧ (circle9 h).Evaluate x = .ok Q := by
      intro i α β γ hi hα hβ hsum hx hy
      obtain ⟨x, hx0, hx1, e⟩ := C102_onto (Q := Q) hw ha hi (by interval_cases i <;> simp [circle9, kn] <;> norm_num)
        (by interval_cases i <;> simp [circle9, pt, dotAt]) hα hβ hsum hx hy
        (by rw [hz]; interval_cases i <;> simp [circle9, pt]) (by simp only [sub_zero, hz]; linear_combination hq)
      refine ⟨x, le_trans (hw.clamped.nonneg ?_) hx0, le_trans hx1.le (hw.clamped.le_one ?_), e⟩ <;>
        simp only [circle9, List.length_cons, List.length_nil] <;> omega
    rcases lt_trichotomy 0 Q.x with hx | hx | hx <;> rcases le_or_gt 0 Q.y with hy | hy
    · exact fin 0 (1 - Q.y) (Q.x + Q.y - 1) (1 - Q.x) (by omega) (by nlinarith) (by nlinarith) (by ring) (by simp only [circle9, pt, List.getD_cons_succ, List.getD_cons_zero, Nat.reduceMul, Nat.reduceAdd]; ring) (by simp only [circle9, pt, List.getD_cons_succ, List.getD_cons_zero, Nat.reduceMul, Nat.reduceAdd]; ring)
    · exact fin 3 (1 - Q.x) (Q.x - Q.y - 1) (1 + Q.y) (by omega) (by nlinarith) (by nlinarith) (by ring) (by simp only [circle9, pt, List.getD_cons_succ, List.getD_cons_zero, Nat.reduceMul, Nat.reduceAdd]; ring) (by simp only [circle9, pt, List.getD_cons_succ, List.getD_cons_zero, Nat.reduceMul, Nat.reduceAdd]; ring)
    · exact fin 1 (1 + Q.x) (Q.y - Q.x - 1) (1 - Q.y) (by omega) (by nlinarith) (by nlinarith) (by ring) (by simp only [circle9, pt, List.getD_cons_succ, List.getD_cons_zero, Nat.reduceMul, Nat.reduceAdd]; ring) (by simp only [circle9, pt, List.getD_cons_succ, List.getD_cons_zero, Nat.reduceMul, Nat.reduceAdd]; ring)
    · exact fin 3 (1 - Q.x) (Q.x - Q.y - 1) (1 + Q.y) (by omega) (by nlinarith) (by nlinarith) (by ring) (by simp only [circle9, pt, List.getD_cons_succ, List.getD_cons_zero, Nat.reduceMul, Nat.reduceAdd]; ring) (by simp only [circle9, pt, List.getD_cons_succ, List.getD_cons_zero, Nat.reduceMul, Nat.reduceAdd]; ring)
    · rcases hy.lt_or_eq with hy | hy
      · exact fin 1 (1 + Q.x) (Q.y - Q.x - 1) (1 - Q.y) (by omega) (by nlinarith) (by nlinarith) (by ring) (by simp only [circle9, pt, List.getD_cons_succ, List.getD_cons_zero, Nat.reduceMul, Nat.reduceAdd]; ring) (by simp only [circle9, pt, List.getD_cons_succ, List.getD_cons_zero, Nat.reduceMul, Nat.reduceAdd]; ring)
      · exact fin 2 (1 + Q.y) (-Q.x - Q.y - 1) (1 + Q.x) (by omega) (by nlinarith) (by nlinarith) (by ring) (by simp only [circle9, pt, List.getD_cons_succ, List.getD_cons_zero, Nat.reduceMul, Nat.reduceAdd]; ring) (by simp only [circle9, pt, List.getD_cons_succ, List.getD_cons_zero, Nat.reduceMul, Nat.reduceAdd]; ring)
    · exact fin 2 (1 + Q.y) (-Q.x - Q.y - 1) (1 + Q.x) (by omega) (by nlinarith) (by nlinarith) (by ring) (by simp only [circle9, pt, List.getD_cons_succ, List.getD_cons_zero, Nat.reduceMul, Nat.reduceAdd]; ring) (by simp only [circle9, pt, List.getD_cons_succ, List.getD_cons_zero, Nat.reduceMul, Nat.reduceAdd]; ring)

/-- The full circle over the reals. -/
example (Q : Vec3 ℝ) : (∃ x, 0 ≤ x ∧ x ≤ 1 ∧ (circle9 (Real.sqrt (1/2))).Evaluate x = .ok Q) ↔ Q.x ^ 2 + Q.y ^ 2 = 1 ∧ Q.z = 0 :=
  C102_full (by positivity) (Real.mul_self_sqrt (by norm_num)) Q

/-- A cone: the arc turned about the axis with a straight profile. -/
def exCone : Surface ℚ :=
  ⟨2, 1, ⟨[0, 0, 0, 1, 1, 1]⟩, ⟨[0, 0, 1, 1]⟩, gridOf 3 2 fun i j => ⟨(j + 1 : ℚ) * (pt exArc.ControlPoints i).x, (j + 1 : ℚ) * (pt exArc.ControlPoints i).y,
    3 * j, (pt exArc.ControlPoints i).w * (j + 1)⟩⟩

def exProfile : Curve ℚ := ⟨1, ⟨[0, 0, 1, 1]⟩, [⟨1, 0, 0, 1⟩, ⟨2, 0, 3, 2⟩]⟩

theorem exProfile_wf : WFCurve 1 exProfile := by
  refine ⟨rfl, ⟨by decide, by decide +kernel, by decide +kernel, by decide +kernel, by decide +kernel, by decide +kernel⟩, by decide, by decide +kernel⟩

theorem exCone_revolves : Revolves 3 2 exArc exProfile exCone := by
  refine ⟨rfl, rfl, rfl, rfl, ?_⟩
  decide +kernel

example : exCone.Evaluate (1/4) (1/3) = .ok ⟨3/2 * (15/17), 3/2 * (-8/17), 3/2⟩ ∧ exProfile.Evaluate (1/3) = .ok ⟨3/2, 0, 3/2⟩ := by decide +kernel

end Nurbs.Props
