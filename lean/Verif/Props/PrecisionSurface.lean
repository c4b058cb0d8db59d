import Mathlib.Algebra.Polynomial.Bivariate
import Verif.Props.Precision
import Verif.Props.Surface

/-! # C98 on surfaces: bilinear patches and polynomials are reproduced on every pair of knot vectors -/

set_option linter.unusedSectionVars false

namespace Nurbs
open Spec
variable {K : Type} [Field K] [LinearOrder K] [IsStrictOrderedRing K] {p q m n : ℕ} {s : Surface K}

theorem sum_N_one {p : ℕ} {l : List K} (hc : Clamped p l) {n : ℕ} (hn : l.length = n + p + 1) {x : K} (h0 : 0 ≤ x) (h1 : x ≤ 1) :
    ∑ i ∈ Finset.range n, N (kn l) x p i = 1 := by
  have := sum_dual hc hn h0 h1 (fun _ => 1) (by
    constructor
    · intros; rfl
    · intros; simp)
  simpa using this

theorem sum_N_prod (a : ℕ → K) (b : ℕ → K) (f : ℕ → K) (g : ℕ → K) :
    ∑ i ∈ Finset.range m, ∑ j ∈ Finset.range n, a i * b j * (f i * g j) = (∑ i ∈ Finset.range m, a i * f i) * ∑ j ∈ Finset.range n, b j * g j := by
  rw [Finset.sum_mul_sum]
  exact Finset.sum_congr rfl fun i _ => Finset.sum_congr rfl fun j _ => by ring

theorem equal_weights_mean_surface (hw : WFSurface p q m n s) {W : K} (he : ∀ i < m, ∀ j < n, (cp s i j).w = W)
    {u v : K} (hu0 : 0 ≤ u) (hu1 : u ≤ 1) (hv0 : 0 ≤ v) (hv1 : v ≤ 1) (f : Vec4 K → K) :
    swsum p q m n s u v f / swsum p q m n s u v (fun _ => 1) =
      ∑ i ∈ Finset.range m, ∑ j ∈ Finset.range n, N (kn s.KnotsU.Values) u p i * N (kn s.KnotsV.Values) v q j * f (cp s i j) := by
  have hW : W ≠ 0 := by
    have := hw.clampedU.len
    have := hw.clampedV.len
    have := hw.knotsU
    have := hw.knotsV
    rw [← he 0 (by omega) 0 (by omega)]
    exact (hw.weights 0 (by omega) 0 (by omega)).ne'
  have key : ∀ g : Vec4 K → K, swsum p q m n s u v g =
      W * ∑ i ∈ Finset.range m, ∑ j ∈ Finset.range n, N (kn s.KnotsU.Values) u p i * N (kn s.KnotsV.Values) v q j * g (cp s i j) := fun g => by
    unfold swsum
    rw [Finset.mul_sum]
    refine Finset.sum_congr rfl fun i hi => ?_
    rw [Finset.mul_sum]
    refine Finset.sum_congr rfl fun j hj => ?_
    rw [he i (Finset.mem_range.1 hi) j (Finset.mem_range.1 hj)]
    ring
  have hone : ∑ i ∈ Finset.range m, ∑ j ∈ Finset.range n, N (kn s.KnotsU.Values) u p i * N (kn s.KnotsV.Values) v q j * 1 = 1 := by
    have := sum_N_prod (m := m) (n := n) (N (kn s.KnotsU.Values) u p) (N (kn s.KnotsV.Values) v q) (fun _ => 1) (fun _ => 1)
    simp only [mul_one] at this ⊢
    rw [this, sum_N_one hw.clampedU hw.knotsU hu0 hu1, sum_N_one hw.clampedV hw.knotsV hv0 hv1, one_mul]
  rw [key f, key (fun _ => 1), hone, mul_one, mul_div_cancel_left₀ _ hW]

theorem sum_greville {p : ℕ} (hp : 1 ≤ p) {l : List K} (hc : Clamped p l) {n : ℕ} (hn : l.length = n + p + 1) {x : K} (h0 : 0 ≤ x) (h1 : x ≤ 1) :
    ∑ i ∈ Finset.range n, N (kn l) x p i * greville p l i = x := by
  have hgre := sum_dual hc hn h0 h1 (fun ts => (p : K)⁻¹ * es 1 ts) ((multiAffine_es p 1).smul' _)
  have hp0 : (p : K) ≠ 0 := Nat.cast_ne_zero.mpr (by omega)
  simp only [← greville_eq, es_replicate, Nat.choose_one_right, pow_one] at hgre
  rwa [inv_mul_cancel_left₀ hp0] at hgre

/-- The control value `(i, j)` of the polynomial `F`: its blossom at the knots. -/
noncomputable def polyBlos2 (p q : ℕ) (F : Polynomial (Polynomial K)) (ts rs : List K) : K :=
  ∑ b ∈ Finset.range (q + 1), polyBlos p (F.coeff b) ts * ((q.choose b : K)⁻¹ * es b rs)

theorem sum_polyBlos2 {lu lv : List K} (hcu : Clamped p lu) (hcv : Clamped q lv) (hm : lu.length = m + p + 1) (hn : lv.length = n + q + 1)
    {F : Polynomial (Polynomial K)} (hq : F.natDegree ≤ q) (hp : ∀ b, (F.coeff b).natDegree ≤ p)
    {u v : K} (hu0 : 0 ≤ u) (hu1 : u ≤ 1) (hv0 : 0 ≤ v) (hv1 : v ≤ 1) :
    ∑ i ∈ Finset.range m, ∑ j ∈ Finset.range n, N (kn lu) u p i * N (kn lv) v q j * polyBlos2 p q F (win (kn lu) i p) (win (kn lv) j q) =
      F.evalEval u v := by
  unfold polyBlos2
  simp only [Finset.mul_sum]
  have e1 : ∀ i, ∑ j ∈ Finset.range n, ∑ b ∈ Finset.range (q + 1), N (kn lu) u p i * N (kn lv) v q j *
      (polyBlos p (F.coeff b) (win (kn lu) i p) * ((q.choose b : K)⁻¹ * es b (win (kn lv) j q))) =
      ∑ b ∈ Finset.range (q + 1), ∑ j ∈ Finset.range n, N (kn lu) u p i * N (kn lv) v q j *
      (polyBlos p (F.coeff b) (win (kn lu) i p) * ((q.choose b : K)⁻¹ * es b (win (kn lv) j q))) := fun i => Finset.sum_comm
  simp only [e1]
  rw [Finset.sum_comm]
  have e2 : ∀ b ∈ Finset.range (q + 1), ∑ i ∈ Finset.range m, ∑ j ∈ Finset.range n, N (kn lu) u p i * N (kn lv) v q j *
      (polyBlos p (F.coeff b) (win (kn lu) i p) * ((q.choose b : K)⁻¹ * es b (win (kn lv) j q))) = (F.coeff b).eval u * v ^ b := fun b hb => by
    rw [sum_N_prod (N (kn lu) u p) (N (kn lv) v q) (fun i => polyBlos p (F.coeff b) (win (kn lu) i p)) (fun j => (q.choose b : K)⁻¹ * es b (win (kn lv) j q)),
      sum_dual hcu hm hu0 hu1 _ (multiAffine_poly p _), polyBlos_replicate p _ (hp b),
      sum_dual hcv hn hv0 hv1 (fun rs => (q.choose b : K)⁻¹ * es b rs) ((multiAffine_es q b).smul' _), es_replicate]
    have : (q.choose b : K) ≠ 0 := Nat.cast_ne_zero.mpr (Nat.choose_pos (by simp at hb; omega)).ne'
    rw [inv_mul_cancel_left₀ this]
  rw [Finset.sum_congr rfl e2]
  unfold Polynomial.evalEval
  rw [Polynomial.eval_eq_sum_range' (show F.natDegree < q + 1 by omega), Polynomial.eval_finsetSum]
  exact Finset.sum_congr rfl fun b _ => by simp

namespace Props

/-- C98 (bilinear patches).  If all weights are equal and control point `(i, j)` is `A + g_i B + h_j C + g_i h_j D`, `g_i` and `h_j` the means of
the knots `U[i+1], …, U[i+p]` and `V[j+1], …, V[j+q]`, the surface is `A + u B + v C + u v D`. -/
theorem C98_bilinear (hp : 1 ≤ p) (hq : 1 ≤ q) (hw : WFSurface p q m n s) {W : K} (A B C D : Vec3 K)
    (h : ∀ i < m, ∀ j < n, ∀ g h', g = greville p s.KnotsU.Values i → h' = greville q s.KnotsV.Values j →
      cp s i j = ⟨A.x + g * B.x + h' * C.x + g * h' * D.x, A.y + g * B.y + h' * C.y + g * h' * D.y,
        A.z + g * B.z + h' * C.z + g * h' * D.z, W⟩) {u v : K} (hu0 : 0 ≤ u) (hu1 : u ≤ 1) (hv0 : 0 ≤ v) (hv1 : v ≤ 1) :
    s.Evaluate u v = .ok ⟨A.x + u * B.x + v * C.x + u * v * D.x, A.y + u * B.y + v * C.y + u * v * D.y,
      A.z + u * B.z + v * C.z + u * v * D.z⟩ := by
  rw [(C43_evaluate hw hu0 hu1 hv0 hv1).1]
  have key : ∀ (f : Vec4 K → K) (a b c d : K), (∀ i < m, ∀ j < n, f (cp s i j) = a + greville p s.KnotsU.Values i * b +
      greville q s.KnotsV.Values j * c + greville p s.KnotsU.Values i * greville q s.KnotsV.Values j * d) →
      swsum p q m n s u v f / swsum p q m n s u v (fun _ => 1) = a + u * b + v * c + u * v * d := by
    intro f a b c d hf
    rw [equal_weights_mean_surface hw (W := W) (fun i hi j hj => by rw [h i hi j hj _ _ rfl rfl]) hu0 hu1 hv0 hv1]
    have h1 := sum_N_prod (m := m) (n := n) (N (kn s.KnotsU.Values) u p) (N (kn s.KnotsV.Values) v q) (fun _ => 1) (fun _ => 1)
    have h2 := sum_N_prod (m := m) (n := n) (N (kn s.KnotsU.Values) u p) (N (kn s.KnotsV.Values) v q) (greville p s.KnotsU.Values) (fun _ => 1)
    have h3 := sum_N_prod (m := m) (n := n) (N (kn s.KnotsU.Values) u p) (N (kn s.KnotsV.Values) v q) (fun _ => 1) (greville q s.KnotsV.Values)
    have h4 := sum_N_prod (m := m) (n := n) (N (kn s.KnotsU.Values) u p) (N (kn s.KnotsV.Values) v q) (greville p s.KnotsU.Values) (greville q s.KnotsV.Values)
    simp only [mul_one, one_mul, sum_N_one hw.clampedU hw.knotsU hu0 hu1, sum_N_one hw.clampedV hw.knotsV hv0 hv1,
      sum_greville hp hw.clampedU hw.knotsU hu0 hu1, sum_greville hq hw.clampedV hw.knotsV hv0 hv1] at h1 h2 h3 h4
    calc _ = (∑ i ∈ Finset.range m, ∑ j ∈ Finset.range n, N (kn s.KnotsU.Values) u p i * N (kn s.KnotsV.Values) v q j) * a +
          (∑ i ∈ Finset.range m, ∑ j ∈ Finset.range n, N (kn s.KnotsU.Values) u p i * N (kn s.KnotsV.Values) v q j * greville p s.KnotsU.Values i) * b +
          (∑ i ∈ Finset.range m, ∑ j ∈ Finset.range n, N (kn s.KnotsU.Values) u p i * N (kn s.KnotsV.Values) v q j * greville q s.KnotsV.Values j) * c +
          (∑ i ∈ Finset.range m, ∑ j ∈ Finset.range n, N (kn s.KnotsU.Values) u p i * N (kn s.KnotsV.Values) v q j *
            (greville p s.KnotsU.Values i * greville q s.KnotsV.Values j)) * d := by
          simp only [Finset.sum_mul, ← Finset.sum_add_distrib]
          refine Finset.sum_congr rfl fun i hi => Finset.sum_congr rfl fun j hj => ?_
          rw [hf i (Finset.mem_range.1 hi) j (Finset.mem_range.1 hj)]
          ring
      _ = _ := by rw [h1, h2, h3, h4, one_mul]
  unfold surfPoint
  rw [key (·.x) A.x B.x C.x D.x (fun i hi j hj => by rw [h i hi j hj _ _ rfl rfl]), key (·.y) A.y B.y C.y D.y (fun i hi j hj => by rw [h i hi j hj _ _ rfl rfl]),
    key (·.z) A.z B.z C.z D.z (fun i hi j hj => by rw [h i hi j hj _ _ rfl rfl])]

/-- C98 (polynomials in two variables).  On every pair of clamped knot vectors, every polynomial map of degree at most `p` in `u` and at most `q`
in `v` (written as polynomials in `v` whose coefficients are polynomials in `u`) is a surface with weights one. -/
theorem C98_polynomial_surface {lu lv : List K} (hcu : Clamped p lu) (hcv : Clamped q lv) (hm : lu.length = m + p + 1) (hn : lv.length = n + q + 1)
    {F G H : Polynomial (Polynomial K)} (hF : F.natDegree ≤ q ∧ ∀ b, (F.coeff b).natDegree ≤ p)
    (hG : G.natDegree ≤ q ∧ ∀ b, (G.coeff b).natDegree ≤ p) (hH : H.natDegree ≤ q ∧ ∀ b, (H.coeff b).natDegree ≤ p) :
    ∃ s : Surface K, WFSurface p q m n s ∧ s.KnotsU.Values = lu ∧ s.KnotsV.Values = lv ∧ (∀ i < m, ∀ j < n, (cp s i j).w = 1) ∧
      ∀ u v : K, 0 ≤ u → u ≤ 1 → 0 ≤ v → v ≤ 1 → s.Evaluate u v = .ok ⟨F.evalEval u v, G.evalEval u v, H.evalEval u v⟩ := by
  obtain ⟨f, hf⟩ : ∃ f : ℕ → ℕ → Vec4 K, ∀ i j, f i j = ⟨polyBlos2 p q F (win (kn lu) i p) (win (kn lv) j q), polyBlos2 p q G (win (kn lu) i p) (win (kn lv) j q),
    polyBlos2 p q H (win (kn lu) i p) (win (kn lv) j q), 1⟩ := ⟨fun i j => _, fun i j => rfl⟩
  have hcp : ∀ i < m, ∀ j < n, cp (⟨p, q, ⟨lu⟩, ⟨lv⟩, gridOf m n f⟩ : Surface K) i j = f i j := fun i hi j hj => cp_gridOf rfl hi hj
  have hw : WFSurface p q m n (⟨p, q, ⟨lu⟩, ⟨lv⟩, gridOf m n f⟩ : Surface K) :=
    ⟨rfl, rfl, hcu, hcv, rfl, rfl, hm, hn, by simp [gridOf], fun i hi j hj => by rw [hcp i hi j hj, hf]; exact one_pos⟩
  refine ⟨_, hw, rfl, rfl, fun i hi j hj => by rw [hcp i hi j hj, hf], fun u v hu0 hu1 hv0 hv1 => ?_⟩
  rw [(C43_evaluate hw hu0 hu1 hv0 hv1).1]
  have key : ∀ (g : Vec4 K → K) (r : Polynomial (Polynomial K)), (r.natDegree ≤ q ∧ ∀ b, (r.coeff b).natDegree ≤ p) →
      (∀ i < m, ∀ j < n, g (f i j) = polyBlos2 p q r (win (kn lu) i p) (win (kn lv) j q)) →
      swsum p q m n (⟨p, q, ⟨lu⟩, ⟨lv⟩, gridOf m n f⟩ : Surface K) u v g / swsum p q m n (⟨p, q, ⟨lu⟩, ⟨lv⟩, gridOf m n f⟩ : Surface K) u v (fun _ => 1) =
        r.evalEval u v := by
    intro g r hr hg
    rw [equal_weights_mean_surface hw (W := 1) (fun i hi j hj => by rw [hcp i hi j hj, hf]) hu0 hu1 hv0 hv1,
      ← sum_polyBlos2 hcu hcv hm hn hr.1 hr.2 hu0 hu1 hv0 hv1]
    refine Finset.sum_congr rfl fun i hi => Finset.sum_congr rfl fun j hj => ?_
    rw [hcp i (Finset.mem_range.1 hi) j (Finset.mem_range.1 hj), hg i (Finset.mem_range.1 hi) j (Finset.mem_range.1 hj)]
  unfold surfPoint
  rw [key (·.x) F hF (fun i _ j _ => by rw [hf]), key (·.y) G hG (fun i _ j _ => by rw [hf]), key (·.z) H hH (fun i _ j _ => by rw [hf])]

/-- The saddle `z = u v` over the unit square, on the knots of `exSurface`. -/
def exSaddle : Surface ℚ :=
  ⟨2, 1, ⟨[0, 0, 0, 1/3, 1, 1, 1]⟩, ⟨[0, 0, 1/2, 1, 1]⟩,
    ⟨4, 3, [⟨0, 0, 0, 5⟩, ⟨1/6, 0, 0, 5⟩, ⟨2/3, 0, 0, 5⟩, ⟨1, 0, 0, 5⟩,
      ⟨0, 1/2, 0, 5⟩, ⟨1/6, 1/2, 1/12, 5⟩, ⟨2/3, 1/2, 1/3, 5⟩, ⟨1, 1/2, 1/2, 5⟩,
      ⟨0, 1, 0, 5⟩, ⟨1/6, 1, 1/6, 5⟩, ⟨2/3, 1, 2/3, 5⟩, ⟨1, 1, 1, 5⟩]⟩⟩
theorem exSaddle_wf : WFSurface 2 1 4 3 exSaddle :=
  ⟨rfl, rfl, ⟨by decide +kernel, by decide +kernel, by decide +kernel, by decide +kernel, by decide +kernel,
    by decide +kernel⟩, ⟨by decide +kernel, by decide +kernel, by decide +kernel, by decide +kernel, by decide +kernel,
    by decide +kernel⟩, rfl, rfl, rfl, rfl, rfl, by decide +kernel⟩
example {u v : ℚ} (hu0 : 0 ≤ u) (hu1 : u ≤ 1) (hv0 : 0 ≤ v) (hv1 : v ≤ 1) : exSaddle.Evaluate u v = .ok ⟨u, v, u * v⟩ := by
  rw [C98_bilinear (W := 5) (by norm_num) (by norm_num) exSaddle_wf ⟨0, 0, 0⟩ ⟨1, 0, 0⟩ ⟨0, 1, 0⟩ ⟨0, 0, 1⟩ ?_ hu0 hu1 hv0 hv1]
  · simp
  · rintro i hi j hj _ _ rfl rfl
    revert j
    revert i
    decide +kernel
example : exSaddle.Evaluate (1/5) (2/3) = .ok ⟨1/5, 2/3, 2/15⟩ := by decide +kernel
/-- A polynomial that has the degrees 2 and 1. -/
example : ((Polynomial.C (Polynomial.X ^ 2) * Polynomial.X : Polynomial (Polynomial ℚ)).natDegree ≤ 1 ∧
    ∀ b, ((Polynomial.C (Polynomial.X ^ 2) * Polynomial.X : Polynomial (Polynomial ℚ)).coeff b).natDegree ≤ 2) ∧
    (Polynomial.C (Polynomial.X ^ 2) * Polynomial.X : Polynomial (Polynomial ℚ)).evalEval 3 5 = 45 := by
  refine ⟨⟨(Polynomial.natDegree_C_mul_le _ _).trans Polynomial.natDegree_X_le, fun b => ?_⟩, by norm_num [Polynomial.evalEval]⟩
  rw [Polynomial.coeff_C_mul, Polynomial.coeff_X]
  split_ifs
  · simp
  · simp

end Props
end Nurbs
