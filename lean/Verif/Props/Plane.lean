import Verif.Proof.Plane
import Verif.Props.Stationary

/-! # C84: the surface search on a flat patch -/

set_option linter.unusedSectionVars false

namespace Nurbs.Props
open Nurbs Nurbs.Spec

variable {K : Type} [Field K] [LinearOrder K] [IsStrictOrderedRing K]

/-- The scalar product of two edges. -/
def inner3 (a b : Vec3 K) : K := a.x * b.x + a.y * b.y + a.z * b.z

theorem plane_derivative {p q m n : ℕ} {s : Surface K} (hw : WFSurface p q m n s) {o a b : Vec3 K}
    (hl : ∀ u v, 0 ≤ u → u ≤ 1 → 0 ≤ v → v ≤ 1 → surfPoint p q m n s u v = inPlane o a b u v) {u v : K} (hu0 : 0 ≤ u) (hu1 : u ≤ 1)
    (hv0 : 0 ≤ v) (hv1 : v ≤ 1) : s.EvaluateDerivative u v 1 0 = .ok (a - o) ∧ s.EvaluateDerivative u v 0 1 = .ok (b - o) := by
  constructor
  · have := line_derivativeOn hw (d := 1) (Or.inr rfl) hv0 hv1 (a := inPlane o a b 0 v) (b := inPlane o a b 1 v) (fun x x0 x1 => by
      rw [if_neg (by norm_num), hl x v x0 x1 hv0 hv1]
      simp only [inPlane, between]
      ext <;> ring_nf) hu0 hu1
    rw [if_pos rfl] at this
    rw [this]
    congr 1
    ext <;> simp only [inPlane, Vec3.sub_x, Vec3.sub_y, Vec3.sub_z] <;> ring
  · have := line_derivativeOn hw (d := 0) (Or.inl rfl) hu0 hu1 (a := inPlane o a b u 0) (b := inPlane o a b u 1) (fun x x0 x1 => by
      rw [if_pos rfl, hl u x hu0 hu1 x0 x1]
      simp only [inPlane, between]
      ext <;> ring_nf) hv0 hv1
    rw [if_neg (by norm_num)] at this
    rw [this]
    congr 1
    ext <;> simp only [inPlane, Vec3.sub_x, Vec3.sub_y, Vec3.sub_z] <;> ring

/-- `clamp`, as the nearest number of `[0,1]`. -/
def cut (x : K) : K := max 0 (min 1 x)

theorem both_zero {x y : K} (h : ¬ 0 < x ^ 2 + y ^ 2) : x = 0 ∧ y = 0 := by
  have h1 : x ^ 2 = 0 := le_antisymm (by linarith [sq_nonneg y]) (sq_nonneg x)
  have h2 : y ^ 2 = 0 := le_antisymm (by linarith [sq_nonneg x]) (sq_nonneg y)
  exact ⟨by simpa using h1, by simpa using h2⟩

theorem gram (a b : Vec3 K) : inner3 a b ^ 2 ≤ inner3 a a * inner3 b b ∧ 0 ≤ inner3 a a := by
  unfold inner3
  constructor
  · linarith [sq_nonneg (a.x * b.y - a.y * b.x), sq_nonneg (a.x * b.z - a.z * b.x), sq_nonneg (a.y * b.z - a.z * b.y)]
  · linarith [mul_self_nonneg a.x, mul_self_nonneg a.y, mul_self_nonneg a.z]

/-- An eigenvalue is at most the trace. -/
theorem eigen_le {α β γ lam x y : K} (hb : β ^ 2 ≤ α * γ) (hα : 0 ≤ α) (hγ : 0 ≤ γ) (hpos : 0 < x ^ 2 + y ^ 2)
    (h : α * x ^ 2 + 2 * β * x * y + γ * y ^ 2 = lam * (x ^ 2 + y ^ 2)) : lam ≤ α + γ := by
  have h4 : 2 * β * x * y ≤ α * y ^ 2 + γ * x ^ 2 := by
    have h6 : (2 * β * x * y) ^ 2 = 4 * β ^ 2 * (x ^ 2 * y ^ 2) := by ring
    have h7 : 4 * β ^ 2 * (x ^ 2 * y ^ 2) ≤ 4 * (α * γ) * (x ^ 2 * y ^ 2) := mul_le_mul_of_nonneg_right (by linarith) (by positivity)
    have h5 : (2 * β * x * y) ^ 2 ≤ (α * y ^ 2 + γ * x ^ 2) ^ 2 := by linarith [sq_nonneg (α * y ^ 2 - γ * x ^ 2)]
    exact (abs_le_of_sq_le_sq' h5 (by positivity)).2
  refine le_of_mul_le_mul_right ?_ hpos
  linarith

/-- C84.  The surface is the plane patch `o + u (a - o) + v (b - o)` and `(mu, mv)` are the parameters of the point of the patch nearest to `P`.
If the first step runs straight towards or past that point – the offset `d` of the start is an eigenvector of the scalar products of the
edges, and cutting the step off at the border keeps it on that line –, `SearchParameter` ends exactly at the nearest point, or at a point
closer than `epsilon`, whenever it is allowed two iterations.  The patch lies within 5000 of the point (this makes the line search accept
the full step) and the first step is not tiny. -/
theorem C84_plane [Archimedean K] {sqrt : K → K} (hr : IsRoot sqrt) {p q m n : ℕ} {s : Surface K} (hw : WFSurface p q m n s) {o a b P : Vec3 K}
    (hl : ∀ u v, 0 ≤ u → u ≤ 1 → 0 ≤ v → v ≤ 1 → surfPoint p q m n s u v = inPlane o a b u v)
    (hnear : ∀ u v, 0 ≤ u → u ≤ 1 → 0 ≤ v → v ≤ 1 → distance sqrt (inPlane o a b u v) P ≤ 5000)
    {mu mv : K} (hmu0 : 0 ≤ mu) (hmu1 : mu ≤ 1) (hmv0 : 0 ≤ mv) (hmv1 : mv ≤ 1)
    (hma : slope (inPlane o a b mu mv) P (a - o) = 0) (hmb : slope (inPlane o a b mu mv) P (b - o) = 0)
    {u v : K} (hu0 : 0 ≤ u) (hu1 : u ≤ 1) (hv0 : 0 ≤ v) (hv1 : v ≤ 1) {lam t : K} (hlam : 0 < lam)
    (he1 : inner3 (a - o) (a - o) * (u - mu) + inner3 (a - o) (b - o) * (v - mv) = lam * (u - mu))
    (he2 : inner3 (a - o) (b - o) * (u - mu) + inner3 (b - o) (b - o) * (v - mv) = lam * (v - mv))
    (ht1 : cut (u - lam * (u - mu)) - mu = t * (u - mu)) (ht2 : cut (v - lam * (v - mv)) - mv = t * (v - mv))
    (hbig : 1 / 10 ^ 16 ≤ lam * ((cut (u - lam * (u - mu)) - u) ^ 2 + (cut (v - lam * (v - mv)) - v) ^ 2))
    {eps : K} (he : eps ≤ (2 ^ 53 - 1) * 2 ^ 971) {limit : K} (hi : 1 < limit) :
    ∃ u' v' i C fuel₀, (∀ fuel ≥ fuel₀, s.SearchParameter sqrt fuel P u v eps limit = .ok ((u', v'), i)) ∧ s.Evaluate u' v' = .ok C ∧
      ((u' = mu ∧ v' = mv) ∨ distance sqrt C P < eps) := by
  obtain ⟨u', v', i, C, fuel₀, h, -, a0, a1, b0, b1, hC, -⟩ := C51_searchParameter sqrt hw P hu0 hu1 hv0 hv1 he limit
  refine ⟨u', v', i, C, fuel₀, h, hC, ?_⟩
  have e := h fuel₀ le_rfl
  unfold Surface.SearchParameter at e
  rw [massert_true ⟨hu0, hu1⟩, bind_ok, massert_true ⟨hv0, hv1⟩, bind_ok] at e
  obtain ⟨x, e1, e2⟩ := bind_eq_ok.1 e
  have e4 : (x.1.1.x, x.1.1.y) = (u', v') := congrArg Prod.fst (Except.ok.inj e2)
  have hE : ∀ x y, 0 ≤ x → x ≤ 1 → 0 ≤ y → y ≤ 1 → s.Evaluate x y = .ok (inPlane o a b x y) := fun x y x0 x1 y0 y1 => by
    rw [← hl x y x0 x1 y0 y1]; exact (C43_evaluate hw x0 x1 y0 y1).1
  obtain ⟨α, hα⟩ : ∃ α, inner3 (a - o) (a - o) = α := ⟨_, rfl⟩
  obtain ⟨β, hβ⟩ : ∃ β, inner3 (a - o) (b - o) = β := ⟨_, rfl⟩
  obtain ⟨γ, hγ⟩ : ∃ γ, inner3 (b - o) (b - o) = γ := ⟨_, rfl⟩
  simp only [slope, inPlane, Vec3.sub_x, Vec3.sub_y, Vec3.sub_z] at hma hmb
  have hα' := hα
  have hβ' := hβ
  have hγ' := hγ
  simp only [inner3, Vec3.sub_x, Vec3.sub_y, Vec3.sub_z] at hα' hβ' hγ'
  rw [hα, hβ] at he1
  rw [hβ, hγ] at he2
  have hg : ∀ x y, 0 ≤ x → x ≤ 1 → 0 ≤ y → y ≤ 1 →
      s.searchGradient P x y = .ok ⟨α * (x - mu) + β * (y - mv), β * (x - mu) + γ * (y - mv)⟩ := by
    intro x y x0 x1 y0 y1
    obtain ⟨d1, d2⟩ := plane_derivative hw hl x0 x1 y0 y1
    unfold Surface.searchGradient
    rw [hE x y x0 x1 y0 y1, bind_ok, d1, bind_ok, d2, bind_ok]
    show Except.ok _ = _
    congr 2
    · simp only [Vec3.dot, inPlane, Vec3.sub_x, Vec3.sub_y, Vec3.sub_z, ← hα', ← hβ']
      linear_combination hma
    · simp only [Vec3.dot, inPlane, Vec3.sub_x, Vec3.sub_y, Vec3.sub_z, ← hγ', ← hβ']
      linear_combination hmb
  have hq : ∀ x y, distSq (inPlane o a b x y) P = distSq (inPlane o a b mu mv) P +
      (α * (x - mu) ^ 2 + 2 * β * (x - mu) * (y - mv) + γ * (y - mv) ^ 2) := by
    intro x y
    simp only [inPlane, distSq, ← hα', ← hβ', ← hγ']
    linear_combination 2 * (x - mu) * hma + 2 * (y - mv) * hmb
  have hqn : ∀ A B : Vec3 K, 0 ≤ distSq A B := fun A B => by unfold distSq; positivity
  have hf : ∀ x y, 0 ≤ distance sqrt (inPlane o a b x y) P ∧ distance sqrt (inPlane o a b x y) P ^ 2 = distSq (inPlane o a b x y) P :=
    fun x y => hr _ (hqn _ _)
  have hqv : ∀ x y, 0 ≤ x → x ≤ 1 → 0 ≤ y → y ≤ 1 → distSq (inPlane o a b x y) P ≤ 25000000 := by
    intro x y x0 x1 y0 y1
    rw [← (hf x y).2]
    exact (sq_le_5000 (hf x y).1).2 (hnear x y x0 x1 y0 y1)
  obtain ⟨dx, hdx⟩ : ∃ dx, u - mu = dx := ⟨_, rfl⟩
  obtain ⟨dy, hdy⟩ : ∃ dy, v - mv = dy := ⟨_, rfl⟩
  have hquad : ∀ c : K, α * (c * dx) ^ 2 + 2 * β * (c * dx) * (c * dy) + γ * (c * dy) ^ 2 = lam * c ^ 2 * (dx ^ 2 + dy ^ 2) := by
    intro c
    rw [hdx, hdy] at he1 he2
    linear_combination c ^ 2 * dx * he1 + c ^ 2 * dy * he2
  have hle1 : lam * (dx ^ 2 + dy ^ 2) ≤ 25000000 := by
    have h1 := hqv u v hu0 hu1 hv0 hv1
    rw [hq u v, hdx, hdy] at h1
    have h2 := hquad 1
    simp only [one_mul, one_pow, mul_one] at h2
    linarith [hqn (inPlane o a b mu mv) P]
  have hα1 : α ≤ 100000000 ∧ γ ≤ 100000000 := by
    have h1 := hqv 0 0 le_rfl zero_le_one le_rfl zero_le_one
    have h2 := hqv 1 0 zero_le_one le_rfl le_rfl zero_le_one
    have h3 := hqv 0 1 le_rfl zero_le_one zero_le_one le_rfl
    have h4 := distSq_le (inPlane o a b 1 0) (inPlane o a b 0 0) P
    have h5 := distSq_le (inPlane o a b 0 1) (inPlane o a b 0 0) P
    have e1 : distSq (inPlane o a b 1 0) (inPlane o a b 0 0) = α := by
      simp only [inPlane, distSq, ← hα']; ring
    have e2 : distSq (inPlane o a b 0 1) (inPlane o a b 0 0) = γ := by
      simp only [inPlane, distSq, ← hγ']; ring
    exact ⟨by linarith, by linarith⟩
  have hdpos : 0 < dx ^ 2 + dy ^ 2 := by
    by_contra hn
    obtain ⟨e1, e2⟩ := both_zero hn
    have m1 : cut (u - lam * (u - mu)) = u := by
      have := ht1
      rw [hdx, e1, mul_zero, sub_zero] at this ⊢
      linarith
    have m2 : cut (v - lam * (v - mv)) = v := by
      have := ht2
      rw [hdy, e2, mul_zero, sub_zero] at this ⊢
      linarith
    rw [m1, m2] at hbig
    norm_num at hbig
  have hlam2 : lam ≤ 200000000 := by
    have h2 := hquad 1
    simp only [one_mul, one_pow, mul_one] at h2
    have g1 := gram (a - o) (b - o)
    have g2 := (gram (b - o) (a - o)).2
    rw [hα, hβ, hγ] at g1
    rw [hγ] at g2
    have := eigen_le g1.1 g1.2 g2 hdpos h2
    linarith only [this, hα1.1, hα1.2]
  have hmax : (9000000000000000 : K) ≤ Search.dblMax := by
    rw [dblMax_eq]; exact dbl_ge
  have hcut : ∀ x : K, Search.clamp01 x = cut x := clamp01_eq
  have hcm : ∀ x : K, 0 ≤ cut x ∧ cut x ≤ 1 := fun x => by rw [← hcut]; exact clamp01_mem x
  have key := bfgsLoop2_paraboloid (f := fun x y => distance sqrt (inPlane o a b x y) P) (m := ⟨mu, mv⟩) (u := ⟨u, v⟩)
    (d := ⟨dx, dy⟩) (v := ⟨cut (u - lam * dx), cut (v - lam * dy)⟩) (t := t)
    (fun x y x0 x1 y0 y1 => surface_residual_eq sqrt (hE x y x0 x1 y0 y1)) hg hlam (by rw [← hdx, ← hdy])
    (by rw [hdx, hdy] at he1; exact he1) (by rw [hdx, hdy] at he2; exact he2) ⟨hu0, hu1, hv0, hv1⟩ ⟨hmu0, hmu1, hmv0, hmv1⟩
    (by rw [hcut, hcut]) (by rw [hdx] at ht1; exact ht1) (by rw [hdy] at ht2; exact ht2) ?_ ?_
    (by rw [tiny_eq]; rw [hdx, hdy] at hbig; exact hbig) (by rw [dblMax_eq]; exact he) hi fuel₀ e1
  · rcases key with k | ⟨k, k'⟩
    · left
      rw [k] at e4
      exact ⟨(congrArg Prod.fst e4).symm, (congrArg Prod.snd e4).symm⟩
    · right
      rw [k] at e4
      have hu' := congrArg Prod.fst e4
      have hv' := congrArg Prod.snd e4
      simp only at hu' hv' k'
      rw [hE u' v' a0 a1 b0 b1] at hC
      rw [← Except.ok.inj hC, ← hu', ← hv']
      exact k'
  · have h1 := hnear _ _ (hcm (u - lam * dx)).1 (hcm _).2 (hcm (v - lam * dy)).1 (hcm _).2
    have h2 : lam ^ 2 * (dx ^ 2 + dy ^ 2) ≤ 200000000 * 25000000 := by
      rw [sq, mul_assoc]
      exact mul_le_mul hlam2 hle1 (by positivity) (by norm_num)
    show distance sqrt (inPlane o a b _ _) P ≤ _
    unfold Search.c1
    linarith
  · show distance sqrt (inPlane o a b mu mv) P ≤ distance sqrt (inPlane o a b (cut (u - lam * dx)) (cut (v - lam * dy))) P - _
    have h1 := hnear _ _ (hcm (u - lam * dx)).1 (hcm _).2 (hcm (v - lam * dy)).1 (hcm _).2
    have h2 := hnear mu mv hmu0 hmu1 hmv0 hmv1
    obtain ⟨b1, b2⟩ := hf (cut (u - lam * dx)) (cut (v - lam * dy))
    obtain ⟨c1, c2⟩ := hf mu mv
    have h3 := hq (cut (u - lam * dx)) (cut (v - lam * dy))
    rw [hdx] at ht1
    rw [hdy] at ht2
    rw [ht1, ht2, hquad t, ← b2, ← c2] at h3
    have h4 : 0 ≤ lam * t ^ 2 * (dx ^ 2 + dy ^ 2) := by positivity
    unfold Search.c1
    generalize distance sqrt (inPlane o a b mu mv) P = g at *
    generalize distance sqrt (inPlane o a b (cut (u - lam * dx)) (cut (v - lam * dy))) P = f at *
    simp only
    exact armijo b1 c1 h1 h2 h3 h4

theorem distSq_between {a b P : Vec3 K} {x B : K} (x0 : 0 ≤ x) (x1 : x ≤ 1) (ha : distSq a P ≤ B) (hb : distSq b P ≤ B) :
    distSq (between a b x) P ≤ B := by
  have e : distSq (between a b x) P = (1 - x) * distSq a P + x * distSq b P - x * (1 - x) * distSq a b := by
    simp only [between, distSq]; ring
  have hD : 0 ≤ distSq a b := by unfold distSq; positivity
  have t1 := mul_nonneg (mul_nonneg x0 (sub_nonneg.2 x1)) hD
  have t2 := mul_le_mul_of_nonneg_left ha (sub_nonneg.2 x1)
  have t3 := mul_le_mul_of_nonneg_left hb x0
  rw [e]
  linarith

/-- If the corners are within 5000 of the point, the patch is. -/
theorem near_corners {sqrt : K → K} (hr : IsRoot sqrt) {o a b P : Vec3 K} (h1 : distance sqrt o P ≤ 5000) (h2 : distance sqrt a P ≤ 5000)
    (h3 : distance sqrt b P ≤ 5000) (h4 : distance sqrt (inPlane o a b 1 1) P ≤ 5000) {u v : K} (hu0 : 0 ≤ u) (hu1 : u ≤ 1)
    (hv0 : 0 ≤ v) (hv1 : v ≤ 1) : distance sqrt (inPlane o a b u v) P ≤ 5000 := by
  have hqn : ∀ A B : Vec3 K, 0 ≤ distSq A B := fun A B => by unfold distSq; positivity
  have hd : ∀ A, distance sqrt A P ≤ 5000 ↔ distSq A P ≤ 25000000 := by
    intro A
    obtain ⟨q1, q2⟩ := hr _ (hqn A P)
    rw [← q2]
    exact (sq_le_5000 q1).symm
  rw [hd] at h1 h2 h3 h4 ⊢
  have e : inPlane o a b u v = between (between o b v) (between a (inPlane o a b 1 1) v) u := by
    simp only [inPlane, between]
    ext <;> ring_nf
  rw [e]
  exact distSq_between hu0 hu1 (distSq_between hv0 hv1 h1 h3) (distSq_between hv0 hv1 h2 h4)

theorem cut_of {x : K} (h0 : 0 ≤ x) (h1 : x ≤ 1) : cut x = x := by
  unfold cut
  rw [min_eq_right h1, max_eq_right h0]

theorem toward {x y l : K} (h0 : 0 ≤ x) (h1 : x ≤ 1) (m0 : 0 ≤ y) (m1 : y ≤ 1) (l0 : 0 ≤ l) (l1 : l ≤ 1) :
    0 ≤ x - l * (x - y) ∧ x - l * (x - y) ≤ 1 := by
  have e : x - l * (x - y) = (1 - l) * x + l * y := by ring
  rw [e]
  have := sub_nonneg.2 l1
  refine ⟨by positivity, ?_⟩
  have t1 := mul_le_mul_of_nonneg_left h1 this
  have t2 := mul_le_mul_of_nonneg_left m1 l0
  linarith

/-- C84 on a square: if the edges of the plane patch are perpendicular and equally long, at most 1, the search reaches the nearest point from every
start that is not tiny close. -/
theorem C84_square [Archimedean K] {sqrt : K → K} (hr : IsRoot sqrt) {p q m n : ℕ} {s : Surface K} (hw : WFSurface p q m n s) {o a b P : Vec3 K}
    (hl : ∀ u v, 0 ≤ u → u ≤ 1 → 0 ≤ v → v ≤ 1 → surfPoint p q m n s u v = inPlane o a b u v)
    (h1 : distance sqrt o P ≤ 5000) (h2 : distance sqrt a P ≤ 5000) (h3 : distance sqrt b P ≤ 5000)
    (h4 : distance sqrt (inPlane o a b 1 1) P ≤ 5000)
    (hab : inner3 (a - o) (b - o) = 0) (hlen : inner3 (a - o) (a - o) = inner3 (b - o) (b - o)) (hL0 : 0 < inner3 (a - o) (a - o))
    (hL1 : inner3 (a - o) (a - o) ≤ 1)
    {mu mv : K} (hmu0 : 0 ≤ mu) (hmu1 : mu ≤ 1) (hmv0 : 0 ≤ mv) (hmv1 : mv ≤ 1)
    (hma : slope (inPlane o a b mu mv) P (a - o) = 0) (hmb : slope (inPlane o a b mu mv) P (b - o) = 0)
    {u v : K} (hu0 : 0 ≤ u) (hu1 : u ≤ 1) (hv0 : 0 ≤ v) (hv1 : v ≤ 1)
    (hbig : 1 / 10 ^ 16 ≤ inner3 (a - o) (a - o) ^ 3 * ((u - mu) ^ 2 + (v - mv) ^ 2))
    {eps : K} (he : eps ≤ (2 ^ 53 - 1) * 2 ^ 971) {limit : K} (hi : 1 < limit) :
    ∃ u' v' i C fuel₀, (∀ fuel ≥ fuel₀, s.SearchParameter sqrt fuel P u v eps limit = .ok ((u', v'), i)) ∧ s.Evaluate u' v' = .ok C ∧
      ((u' = mu ∧ v' = mv) ∨ distance sqrt C P < eps) := by
  obtain ⟨L, hL⟩ : ∃ L, inner3 (a - o) (a - o) = L := ⟨_, rfl⟩
  rw [hL] at hlen hL0 hL1 hbig
  obtain ⟨x0, x1⟩ := toward hu0 hu1 hmu0 hmu1 hL0.le hL1
  obtain ⟨y0, y1⟩ := toward hv0 hv1 hmv0 hmv1 hL0.le hL1
  refine C84_plane hr hw hl (fun u v a b c d => near_corners hr h1 h2 h3 h4 a b c d) hmu0 hmu1 hmv0 hmv1 hma hmb hu0 hu1 hv0 hv1 hL0
    (t := 1 - L) ?_ ?_ ?_ ?_ ?_ he hi
  · rw [hL, hab]; ring
  · rw [← hlen, hab]; ring
  · rw [cut_of x0 x1]; ring
  · rw [cut_of y0 y1]; ring
  · rw [cut_of x0 x1, cut_of y0 y1]
    refine hbig.trans (le_of_eq ?_)
    ring

/-- C84 on a rectangle of any size, from a start level with the nearest point: the same `v` (`C84_level_u`) … -/
theorem C84_level_u [Archimedean K] {sqrt : K → K} (hr : IsRoot sqrt) {p q m n : ℕ} {s : Surface K} (hw : WFSurface p q m n s) {o a b P : Vec3 K}
    (hl : ∀ u v, 0 ≤ u → u ≤ 1 → 0 ≤ v → v ≤ 1 → surfPoint p q m n s u v = inPlane o a b u v)
    (h1 : distance sqrt o P ≤ 5000) (h2 : distance sqrt a P ≤ 5000) (h3 : distance sqrt b P ≤ 5000)
    (h4 : distance sqrt (inPlane o a b 1 1) P ≤ 5000)
    (hab : inner3 (a - o) (b - o) = 0) {mu mv : K} (hmu0 : 0 ≤ mu) (hmu1 : mu ≤ 1) (hmv0 : 0 ≤ mv) (hmv1 : mv ≤ 1)
    (hma : slope (inPlane o a b mu mv) P (a - o) = 0) (hmb : slope (inPlane o a b mu mv) P (b - o) = 0)
    {u : K} (hu0 : 0 ≤ u) (hu1 : u ≤ 1)
    (hbig : 1 / 10 ^ 16 ≤ inner3 (a - o) (a - o) * (cut (u - inner3 (a - o) (a - o) * (u - mu)) - u) ^ 2)
    {eps : K} (he : eps ≤ (2 ^ 53 - 1) * 2 ^ 971) {limit : K} (hi : 1 < limit) :
    ∃ u' v' i C fuel₀, (∀ fuel ≥ fuel₀, s.SearchParameter sqrt fuel P u mv eps limit = .ok ((u', v'), i)) ∧ s.Evaluate u' v' = .ok C ∧
      ((u' = mu ∧ v' = mv) ∨ distance sqrt C P < eps) := by
  obtain ⟨L, hL⟩ : ∃ L, inner3 (a - o) (a - o) = L := ⟨_, rfl⟩
  rw [hL] at hbig
  have hpos : 0 < L * (cut (u - L * (u - mu)) - u) ^ 2 := lt_of_lt_of_le (by positivity) hbig
  have hL0 : 0 < L := by
    rcases (gram (a - o) (b - o)).2.lt_or_eq with h | h
    · rwa [hL] at h
    · rw [hL] at h; rw [← h] at hpos; simp at hpos
  have hne : u - mu ≠ 0 := by
    intro h
    rw [h, mul_zero, sub_zero, cut_of hu0 hu1] at hpos
    simp at hpos
  refine C84_plane hr hw hl (fun u v a b c d => near_corners hr h1 h2 h3 h4 a b c d) hmu0 hmu1 hmv0 hmv1 hma hmb hu0 hu1 hmv0 hmv1 hL0
    (t := (cut (u - L * (u - mu)) - mu) / (u - mu)) ?_ ?_ ?_ ?_ ?_ he hi
  · rw [hL]; ring
  · rw [hab]; ring
  · rw [div_mul_cancel₀ _ hne]
  · rw [sub_self, mul_zero, sub_zero, cut_of hmv0 hmv1]; ring
  · rw [sub_self, mul_zero, sub_zero, cut_of hmv0 hmv1]
    refine hbig.trans (le_of_eq ?_)
    ring

/-- … or the same `u`. -/
theorem C84_level_v [Archimedean K] {sqrt : K → K} (hr : IsRoot sqrt) {p q m n : ℕ} {s : Surface K} (hw : WFSurface p q m n s) {o a b P : Vec3 K}
    (hl : ∀ u v, 0 ≤ u → u ≤ 1 → 0 ≤ v → v ≤ 1 → surfPoint p q m n s u v = inPlane o a b u v)
    (h1 : distance sqrt o P ≤ 5000) (h2 : distance sqrt a P ≤ 5000) (h3 : distance sqrt b P ≤ 5000)
    (h4 : distance sqrt (inPlane o a b 1 1) P ≤ 5000)
    (hab : inner3 (a - o) (b - o) = 0) {mu mv : K} (hmu0 : 0 ≤ mu) (hmu1 : mu ≤ 1) (hmv0 : 0 ≤ mv) (hmv1 : mv ≤ 1)
    (hma : slope (inPlane o a b mu mv) P (a - o) = 0) (hmb : slope (inPlane o a b mu mv) P (b - o) = 0)
    {v : K} (hv0 : 0 ≤ v) (hv1 : v ≤ 1)
    (hbig : 1 / 10 ^ 16 ≤ inner3 (b - o) (b - o) * (cut (v - inner3 (b - o) (b - o) * (v - mv)) - v) ^ 2)
    {eps : K} (he : eps ≤ (2 ^ 53 - 1) * 2 ^ 971) {limit : K} (hi : 1 < limit) :
    ∃ u' v' i C fuel₀, (∀ fuel ≥ fuel₀, s.SearchParameter sqrt fuel P mu v eps limit = .ok ((u', v'), i)) ∧ s.Evaluate u' v' = .ok C ∧
      ((u' = mu ∧ v' = mv) ∨ distance sqrt C P < eps) := by
  obtain ⟨L, hL⟩ : ∃ L, inner3 (b - o) (b - o) = L := ⟨_, rfl⟩
  rw [hL] at hbig
  have hpos : 0 < L * (cut (v - L * (v - mv)) - v) ^ 2 := lt_of_lt_of_le (by positivity) hbig
  have hL0 : 0 < L := by
    rcases (gram (b - o) (a - o)).2.lt_or_eq with h | h
    · rwa [hL] at h
    · rw [hL] at h; rw [← h] at hpos; simp at hpos
  have hne : v - mv ≠ 0 := by
    intro h
    rw [h, mul_zero, sub_zero, cut_of hv0 hv1] at hpos
    simp at hpos
  refine C84_plane hr hw hl (fun u v a b c d => near_corners hr h1 h2 h3 h4 a b c d) hmu0 hmu1 hmv0 hmv1 hma hmb hmu0 hmu1 hv0 hv1 hL0
    (t := (cut (v - L * (v - mv)) - mv) / (v - mv)) ?_ ?_ ?_ ?_ ?_ he hi
  · rw [hab]; ring
  · rw [hL]; ring
  · rw [sub_self, mul_zero, sub_zero, cut_of hmu0 hmu1]; ring
  · rw [div_mul_cancel₀ _ hne]
  · rw [sub_self, mul_zero, sub_zero, cut_of hmu0 hmu1]
    refine hbig.trans (le_of_eq ?_)
    ring

/-- The surface of a parallelogram of `GeomRect` with degree 1 or without interior knots is such a plane patch. -/
theorem rect_plane (g : GeomRect K) {p q m n : ℕ} (hdu : g.DegreeU = p) (hdv : g.DegreeV = q) (hcu : g.ControlPointCountU = m)
    (hcv : g.ControlPointCountV = n) (hp : 1 ≤ p) (hq : 1 ≤ q) (hm : p + 1 ≤ m) (hn : q + 1 ≤ n) (hpm : p = 1 ∨ m = p + 1) (hqn : q = 1 ∨ n = q + 1) :
    ∃ s, g.GetSurface = .ok s ∧ WFSurface p q m n s ∧ ∀ u v, 0 ≤ u → u ≤ 1 → 0 ≤ v → v ≤ 1 →
      surfPoint p q m n s u v = inPlane g.LeftBottomPoint g.RightBottomPoint g.LeftTopPoint u v := by
  obtain ⟨s, f, h, hs, hw, hE, hf, hh, -⟩ := C53_rect_partial g hdu hdv hcu hcv hp hq hm hn
  refine ⟨s, hs, hw, fun u v u0 u1 v0 v1 => ?_⟩
  have h1 := hE u v u0 u1 v0 v1
  rw [(C43_evaluate hw u0 u1 v0 v1).1, (hf u u0 u1).2.2 hpm, (hh v v0 v1).2.2 hqn] at h1
  exact Except.ok.inj h1

/-- C84 applied to the unit square of `GeomRect` with the true square root: from every start at least `1e-8` away in the parameters. -/
theorem C84_unit_square {P : Vec3 ℝ} (hx0 : 0 ≤ P.x) (hx1 : P.x ≤ 1) (hy0 : 0 ≤ P.y) (hy1 : P.y ≤ 1) (hz : |P.z| ≤ 4000)
    {u v : ℝ} (hu0 : 0 ≤ u) (hu1 : u ≤ 1) (hv0 : 0 ≤ v) (hv1 : v ≤ 1) (hfar : 1 / 10 ^ 16 ≤ (u - P.x) ^ 2 + (v - P.y) ^ 2)
    {eps : ℝ} (he : eps ≤ (2 ^ 53 - 1) * 2 ^ 971) {limit : ℝ} (hi : 1 < limit) :
    ∃ s u' v' i C fuel₀, (GeomRect.Make ⟨0, 0, 0⟩ ⟨1, 0, 0⟩ ⟨0, 1, 0⟩ ⟨1, 1, 0⟩).GetSurface = .ok s ∧
      (∀ fuel ≥ fuel₀, s.SearchParameter Real.sqrt fuel P u v eps limit = .ok ((u', v'), i)) ∧ s.Evaluate u' v' = .ok C ∧
      ((u' = P.x ∧ v' = P.y) ∨ distance Real.sqrt C P < eps) := by
  obtain ⟨s, hs, hw, hl⟩ := rect_plane (K := ℝ) (GeomRect.Make ⟨0, 0, 0⟩ ⟨1, 0, 0⟩ ⟨0, 1, 0⟩ ⟨1, 1, 0⟩) (p := 1) (q := 1) (m := 2) (n := 2)
    rfl rfl rfl rfl le_rfl le_rfl le_rfl le_rfl (Or.inl rfl) (Or.inl rfl)
  have hz2 : P.z ^ 2 ≤ 16000000 := by
    have := abs_le.1 hz
    nlinarith
  have hd : ∀ x y : ℝ, 0 ≤ x → x ≤ 1 → 0 ≤ y → y ≤ 1 → distance Real.sqrt ⟨x, y, 0⟩ P ≤ 5000 := by
    intro x y x0 x1 y0 y1
    unfold distance
    rw [Real.sqrt_le_left (by norm_num)]
    simp only
    nlinarith
  obtain ⟨u', v', i, C, fuel₀, h⟩ := C84_square (sqrt := Real.sqrt) (fun x hx => ⟨Real.sqrt_nonneg x, Real.sq_sqrt hx⟩) hw hl (P := P)
    (hd 0 0 le_rfl zero_le_one le_rfl zero_le_one) (hd 1 0 zero_le_one le_rfl le_rfl zero_le_one) (hd 0 1 le_rfl zero_le_one zero_le_one le_rfl)
    (by
      have := hd 1 1 zero_le_one le_rfl zero_le_one le_rfl
      have e : inPlane (GeomRect.Make (⟨0, 0, 0⟩ : Vec3 ℝ) ⟨1, 0, 0⟩ ⟨0, 1, 0⟩ ⟨1, 1, 0⟩).LeftBottomPoint ⟨1, 0, 0⟩ ⟨0, 1, 0⟩ 1 1 = ⟨1, 1, 0⟩ := by
        ext <;> simp [inPlane, GeomRect.Make]
      rw [← e] at this
      exact this)
    (by simp [inner3, GeomRect.Make]) (by simp [inner3, GeomRect.Make]) (by simp [inner3, GeomRect.Make]) (by simp [inner3, GeomRect.Make])
    hx0 hx1 hy0 hy1 (by simp [slope, inPlane, GeomRect.Make]) (by simp [slope, inPlane, GeomRect.Make]) hu0 hu1 hv0 hv1
    (by simpa [inner3, GeomRect.Make] using hfar) he hi
  exact ⟨s, u', v', i, C, fuel₀, hs, h⟩

/-- From the corner `(0, 1)` towards the point above `(3/4, 1/5)`; `epsilon` is out of reach. -/
example : ∃ s u' v' i C fuel₀, (GeomRect.Make (⟨0, 0, 0⟩ : Vec3 ℝ) ⟨1, 0, 0⟩ ⟨0, 1, 0⟩ ⟨1, 1, 0⟩).GetSurface = .ok s ∧
    (∀ fuel ≥ fuel₀, s.SearchParameter Real.sqrt fuel ⟨3/4, 1/5, 2⟩ 0 1 (1/100) 512 = .ok ((u', v'), i)) ∧ s.Evaluate u' v' = .ok C ∧
    ((u' = 3/4 ∧ v' = 1/5) ∨ distance Real.sqrt C ⟨3/4, 1/5, 2⟩ < 1/100) :=
  C84_unit_square (by norm_num) (by norm_num) (by norm_num) (by norm_num) (by norm_num) le_rfl (by norm_num) (by norm_num) le_rfl (by norm_num)
    (le_trans (by norm_num) dbl_ge) (by norm_num)

end Nurbs.Props
