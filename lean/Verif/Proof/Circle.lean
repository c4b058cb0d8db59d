import Verif.Proof.Hodograph
import Verif.Props.Surface
import Verif.Props.Deriv
import Verif.Spec.Circle

/-! # Circular arcs -/

set_option linter.unusedSectionVars false

namespace Nurbs
open Polynomial Nurbs.Spec

variable {K : Type} [Field K] [LinearOrder K] [IsStrictOrderedRing K]

/-- A segment of degree two between double knots is a Bezier segment. -/
theorem seg_bezier2 (U : ℕ → K) (j : ℕ) (x : K) (P : ℕ → K) (ha : U (j + 1) = U (j + 2)) (hb : U (j + 3) = U (j + 4))
    (hlt : U (j + 2) < U (j + 3)) :
    (U (j + 3) - U (j + 2)) ^ 2 * seg U (j + 2) x 2 P = (U (j + 3) - x) ^ 2 * P j +
      2 * ((x - U (j + 2)) * (U (j + 3) - x)) * P (j + 1) + (x - U (j + 2)) ^ 2 * P (j + 2) := by
  have hd : U (j + 3) - U (j + 2) ≠ 0 := sub_ne_zero.mpr hlt.ne'
  rw [seg_eq_blos _ _ _ _ _ (by omega)]
  simp only [List.replicate, blos, List.length_cons, List.length_nil, step, smul_eq_mul]
  norm_num [ha, ← hb, show j + 2 - 1 = j + 1 from rfl, show j + 2 + 1 = j + 3 from rfl, show j + 2 + 2 = j + 4 from rfl,
    show j + 1 + 2 = j + 3 from rfl, show j + 1 + 1 = j + 2 from rfl]
  field_simp
  ring

variable {o : Vec3 K} {r : K} {n : ℕ} {c : Curve K}

/-- The span of a parameter is one of the arcs. -/
theorem arcs_span (hw : WFCurve 2 c) (ha : Arcs o r n c) {x : K} {k : ℕ} (hk : IsSpan c.Knots.Values x k) :
    ∃ i < n, k = 2 * i + 2 := by
  have hlt := IsSpan.lt hk
  have hct := hw.count
  have hl := ha.count
  have h1 := hk.1
  rcases Nat.even_or_odd' k with ⟨i, rfl | rfl⟩
  · rcases i with _ | i
    · exfalso
      have h0 := hw.clamped.zeros 0 (by omega)
      have h1 := hw.clamped.zeros 1 (by omega)
      simp only [Nat.mul_zero, Nat.zero_add] at hlt
      rw [h0, h1] at hlt
      exact lt_irrefl _ hlt
    · refine ⟨i, ?_, by ring⟩
      by_contra hc
      have hi : i = n := by omega
      subst hi
      rw [hw.clamped.ones (2 * (i + 1)) (by omega) (by omega), hw.clamped.ones (2 * (i + 1) + 1) (by omega) (by omega)] at hlt
      exact lt_irrefl _ hlt
  · exfalso
    rcases Nat.lt_or_ge n i with h | h
    · omega
    · rw [ha.double i h] at hlt
      exact lt_irrefl _ hlt

/-- Homogeneous coordinates on an arc. -/
theorem arc_hom (ha : Arcs o r n c) {i : ℕ} (hi : i < n)
    (hlt : kn c.Knots.Values (2 * i + 2) < kn c.Knots.Values (2 * i + 3)) (x : K) (L : Vec4 K → K) :
    (kn c.Knots.Values (2 * i + 3) - kn c.Knots.Values (2 * i + 2)) ^ 2 * (curveP 2 c (2 * i + 2) L).eval x =
      (kn c.Knots.Values (2 * i + 3) - x) ^ 2 * L (hpts c.ControlPoints (2 * i)) +
      2 * ((x - kn c.Knots.Values (2 * i + 2)) * (kn c.Knots.Values (2 * i + 3) - x)) * L (hpts c.ControlPoints (2 * i + 1)) +
      (x - kn c.Knots.Values (2 * i + 2)) ^ 2 * L (hpts c.ControlPoints (2 * i + 2)) := by
  unfold curveP
  rw [segP_eval]
  exact seg_bezier2 _ _ _ _ (ha.double i (by omega)) (ha.double (i + 1) (by omega)) hlt

/-- The equation of the sphere, as an identity of polynomials. -/
theorem arc_sphere (ha : Arcs o r n c) {i : ℕ} (hi : i < n)
    (hlt : kn c.Knots.Values (2 * i + 2) < kn c.Knots.Values (2 * i + 3)) :
    (curveP 2 c (2 * i + 2) (·.x) - C o.x * curveP 2 c (2 * i + 2) (·.w)) ^ 2 +
      (curveP 2 c (2 * i + 2) (·.y) - C o.y * curveP 2 c (2 * i + 2) (·.w)) ^ 2 +
      (curveP 2 c (2 * i + 2) (·.z) - C o.z * curveP 2 c (2 * i + 2) (·.w)) ^ 2 = C r ^ 2 * curveP 2 c (2 * i + 2) (·.w) ^ 2 := by
  apply Polynomial.funext
  intro x
  simp only [eval_add, eval_sub, eval_mul, eval_pow, eval_C]
  have hX := arc_hom ha hi hlt x (·.x)
  have hY := arc_hom ha hi hlt x (·.y)
  have hZ := arc_hom ha hi hlt x (·.z)
  have hW := arc_hom ha hi hlt x (·.w)
  have hd : (kn c.Knots.Values (2 * i + 3) - kn c.Knots.Values (2 * i + 2)) ^ 4 ≠ 0 := pow_ne_zero _ (sub_ne_zero.mpr hlt.ne')
  obtain ⟨e1, e2, e3, e4, e5⟩ := ha.arc i hi
  simp only [hpts, ToHomo, dotAt] at *
  generalize (curveP 2 c (2 * i + 2) (·.x)).eval x = X at *
  generalize (curveP 2 c (2 * i + 2) (·.y)).eval x = Y at *
  generalize (curveP 2 c (2 * i + 2) (·.z)).eval x = Z at *
  generalize (curveP 2 c (2 * i + 2) (·.w)).eval x = W at *
  generalize pt c.ControlPoints (2 * i) = A at *
  generalize pt c.ControlPoints (2 * i + 1) = B at *
  generalize pt c.ControlPoints (2 * i + 2) = D at *
  generalize kn c.Knots.Values (2 * i + 3) - kn c.Knots.Values (2 * i + 2) = d at *
  generalize kn c.Knots.Values (2 * i + 3) - x = b at *
  generalize x - kn c.Knots.Values (2 * i + 2) = a at *
  apply mul_left_cancel₀ hd
  have key : ∀ G g, d ^ 4 * (G - g * W) ^ 2 = (d ^ 2 * G - g * (d ^ 2 * W)) ^ 2 := by intros; ring
  have key' : d ^ 4 * (r ^ 2 * W ^ 2) = r ^ 2 * (d ^ 2 * W) ^ 2 := by ring
  rw [mul_add, mul_add, key, key, key, key', hX, hY, hZ, hW]
  linear_combination (b ^ 2 * A.w) ^ 2 * e1 + (a ^ 2 * D.w) ^ 2 * e2 + 4 * a * b ^ 3 * A.w * B.w * e3 + 4 * a ^ 3 * b * B.w * D.w * e4 -
    2 * a ^ 2 * b ^ 2 * e5

end Nurbs
