import Verif.Proof.Stationary
import Mathlib.Tactic.LinearCombination

/-! # The two-parameter search on a paraboloid -/

set_option linter.unusedSectionVars false

namespace Nurbs
open Search Surface

variable {K : Type} [Field K] [LinearOrder K] [IsStrictOrderedRing K]

theorem lineSearch2_zero {norm : K → K → M K} {u : Vec2 K} {R : K} (hn : norm u.x u.y = .ok R) (hu : InSquare u) (r : K) (H : Mat2 K)
    (n : ℕ) (al : K) : lineSearch2 norm u r H ⟨0, 0⟩ n al = .ok u := by
  have ht : ∀ al, trial2 u H ⟨0, 0⟩ al = u := by
    intro al
    unfold trial2 Mat2.mulVec
    simp only [mul_zero, add_zero, sub_zero]
    rw [clamp01_of hu.1 hu.2.1, clamp01_of hu.2.2.1 hu.2.2.2]
  induction n generalizing al with
  | zero => unfold lineSearch2; rw [ht]
  | succ n ih =>
    unfold lineSearch2
    simp only [ht, hn, bind_ok]
    split_ifs
    · rfl
    · exact ih _

/-- Where the gradient vanishes the search stays. -/
theorem bfgsLoop2_zero {norm : K → K → M K} {Ki : K → K → M (Vec2 K)} {u : Vec2 K} {R : K} (hn : norm u.x u.y = .ok R)
    (hf : Ki u.x u.y = .ok ⟨0, 0⟩) (hu : InSquare u) (eps maxIter : K) (fuel : ℕ) :
    ∀ (count : ℕ) (r : K) (H : Mat2 K) x, bfgsLoop2 norm Ki eps maxIter fuel count (u, r, H) = .ok x → x.1.1 = u := by
  induction fuel with
  | zero => intro count r H x h; simp [bfgsLoop2] at h
  | succ fuel ih =>
    intro count r H x h
    unfold bfgsLoop2 at h
    split_ifs at h with c1 c2
    · rw [← Except.ok.inj h]
    · rw [← Except.ok.inj h]
    · obtain ⟨st, e1, e2⟩ := bind_eq_ok.1 h
      unfold bfgsStep2 at e1
      simp only [hf, bind_ok, lineSearch2_zero hn hu r H 20, hn] at e1
      obtain ⟨rho, -, e3⟩ := bind_eq_ok.1 e1
      rw [← Except.ok.inj e3] at e2
      exact ih _ _ _ x e2

theorem lineSearch2_first {norm : K → K → M K} {u v g : Vec2 K} {r R : K} {H : Mat2 K} (hv : trial2 u H g 1 = v) (hn : norm v.x v.y = .ok R)
    (hacc : R ≤ r - c1 * g.dot (H.mulVec g)) (n : ℕ) : lineSearch2 norm u r H g (n + 1) 1 = .ok v := by
  unfold lineSearch2
  simp only [hv, hn, bind_ok, mul_one]
  rw [if_pos hacc]
  rfl

/-- Two iterations on a paraboloid reach its lowest point `m`, unless the first one is close enough, if the first step runs along an
eigenvector `d` of the second derivatives `A`. -/
theorem bfgsLoop2_paraboloid {norm : K → K → M K} {Ki : K → K → M (Vec2 K)} {f : K → K → K} {α β γ lam t : K} {m d u v : Vec2 K}
    (hn : ∀ x y, 0 ≤ x → x ≤ 1 → 0 ≤ y → y ≤ 1 → norm x y = .ok (f x y))
    (hf : ∀ x y, 0 ≤ x → x ≤ 1 → 0 ≤ y → y ≤ 1 → Ki x y = .ok ⟨α * (x - m.x) + β * (y - m.y), β * (x - m.x) + γ * (y - m.y)⟩)
    (hlam : 0 < lam) (hd : d = ⟨u.x - m.x, u.y - m.y⟩) (he1 : α * d.x + β * d.y = lam * d.x) (he2 : β * d.x + γ * d.y = lam * d.y)
    (hu : InSquare u) (hm : InSquare m) (hv : v = ⟨clamp01 (u.x - lam * d.x), clamp01 (u.y - lam * d.y)⟩)
    (hvx : v.x - m.x = t * d.x) (hvy : v.y - m.y = t * d.y)
    (hacc1 : f v.x v.y ≤ dblMax - c1 * (lam ^ 2 * (d.x ^ 2 + d.y ^ 2)))
    (hacc2 : f m.x m.y ≤ f v.x v.y - c1 * (lam * t ^ 2 * (d.x ^ 2 + d.y ^ 2)))
    (hbig : tiny ≤ lam * ((v.x - u.x) ^ 2 + (v.y - u.y) ^ 2)) {eps maxIter : K} (he : eps ≤ dblMax) (hi : 1 < maxIter) (fuel : ℕ) {x}
    (h : bfgsLoop2 norm Ki eps maxIter fuel 0 (u, dblMax, ⟨1, 0, 0, 1⟩) = .ok x) :
    x.1.1 = m ∨ (x.1.1 = v ∧ f v.x v.y < eps) := by
  have hvq : InSquare v := by rw [hv]; exact ⟨(clamp01_mem _).1, (clamp01_mem _).2, (clamp01_mem _).1, (clamp01_mem _).2⟩
  have dx : d.x = u.x - m.x := by rw [hd]
  have dy : d.y = u.y - m.y := by rw [hd]
  have hKu : Ki u.x u.y = .ok ⟨lam * d.x, lam * d.y⟩ := by
    rw [hf _ _ hu.1 hu.2.1 hu.2.2.1 hu.2.2.2, ← dx, ← dy, he1, he2]
  have hKv : Ki v.x v.y = .ok ⟨lam * (t * d.x), lam * (t * d.y)⟩ := by
    rw [hf _ _ hvq.1 hvq.2.1 hvq.2.2.1 hvq.2.2.2, hvx, hvy]
    congr 2
    · linear_combination t * he1
    · linear_combination t * he2
  have hKm : Ki m.x m.y = .ok ⟨0, 0⟩ := by
    rw [hf _ _ hm.1 hm.2.1 hm.2.2.1 hm.2.2.2]
    simp
  have hnu := hn _ _ hvq.1 hvq.2.1 hvq.2.2.1 hvq.2.2.2
  have hnm := hn _ _ hm.1 hm.2.1 hm.2.2.1 hm.2.2.2
  have sx : v.x - u.x = (t - 1) * d.x := by linear_combination hvx + dx
  have sy : v.y - u.y = (t - 1) * d.y := by linear_combination hvy + dy
  obtain ⟨q, hq⟩ : ∃ q, d.x ^ 2 + d.y ^ 2 = q := ⟨_, rfl⟩
  have hb : tiny ≤ lam * ((t - 1) ^ 2 * q) := by
    rw [← hq]
    convert hbig using 2
    rw [sx, sy]; ring
  have hpos : 0 < lam * ((t - 1) ^ 2 * q) := lt_of_lt_of_le (by unfold tiny; positivity) hb
  have ht1 : t - 1 ≠ 0 := by
    intro h0; rw [h0] at hpos; simp at hpos
  have hq0 : q ≠ 0 := by
    intro h0; rw [h0] at hpos; simp at hpos
  -- the first step
  have step1 : bfgsStep2 norm Ki (u, dblMax, ⟨1, 0, 0, 1⟩) = .ok (v, f v.x v.y,
      ⟨1 - d.x ^ 2 / q + d.x ^ 2 / (lam * q), -(d.x * d.y / q) + d.x * d.y / (lam * q),
       -(d.x * d.y / q) + d.x * d.y / (lam * q), 1 - d.y ^ 2 / q + d.y ^ 2 / (lam * q)⟩) := by
    have hl : lineSearch2 norm u dblMax ⟨1, 0, 0, 1⟩ ⟨lam * d.x, lam * d.y⟩ 20 1 = .ok v := by
      refine lineSearch2_first ?_ hnu ?_ 19
      · rw [hv]; simp [trial2, Mat2.mulVec]
      · refine hacc1.trans (le_of_eq ?_)
        simp only [Vec2.dot, Mat2.mulVec]
        ring
    unfold bfgsStep2
    simp only [hKu, hKv, hl, hnu, bind_ok]
    have e : Vec2.dot (⟨lam * (t * d.x) - lam * d.x, lam * (t * d.y) - lam * d.y⟩ : Vec2 K) ⟨v.x - u.x, v.y - u.y⟩ = lam * ((t - 1) ^ 2 * q) := by
      unfold Vec2.dot
      rw [sx, sy, ← hq]
      ring
    have hns : ¬ fabs (lam * ((t - 1) ^ 2 * q)) < tiny := by rw [fabs_eq, abs_of_pos hpos]; exact not_lt.2 hb
    rw [e, if_neg hns, if_neg hns, fdiv_ok hpos.ne', bind_ok]
    simp only [pure_ok, Mat2.oneSubOuter, Mat2.mul, Mat2.addOuter, sx, sy]
    congr 4
    · field_simp
      rw [← hq]
      ring
    · field_simp
      rw [← hq]
      ring
    · field_simp
      rw [← hq]
      ring
    · field_simp
      rw [← hq]
      ring
  -- the second step
  have step2 : ∀ H : Mat2 K, H = ⟨1 - d.x ^ 2 / q + d.x ^ 2 / (lam * q), -(d.x * d.y / q) + d.x * d.y / (lam * q),
       -(d.x * d.y / q) + d.x * d.y / (lam * q), 1 - d.y ^ 2 / q + d.y ^ 2 / (lam * q)⟩ →
      ∃ H', bfgsStep2 norm Ki (v, f v.x v.y, H) = .ok (m, f m.x m.y, H') := by
    intro H hH
    have hmv : H.mulVec ⟨lam * (t * d.x), lam * (t * d.y)⟩ = ⟨t * d.x, t * d.y⟩ := by
      rw [hH]
      unfold Mat2.mulVec
      congr 1
      · field_simp
        rw [← hq]
        ring
      · field_simp
        rw [← hq]
        ring
    have hl : lineSearch2 norm v (f v.x v.y) H ⟨lam * (t * d.x), lam * (t * d.y)⟩ 20 1 = .ok m := by
      refine lineSearch2_first ?_ hnm ?_ 19
      · unfold trial2
        simp only [hmv, one_mul]
        rw [show v.x - t * d.x = m.x by linear_combination hvx, show v.y - t * d.y = m.y by linear_combination hvy,
          clamp01_of hm.1 hm.2.1, clamp01_of hm.2.2.1 hm.2.2.2]
      · rw [hmv]
        refine hacc2.trans (le_of_eq ?_)
        simp only [Vec2.dot]
        ring
    unfold bfgsStep2
    simp only [hKv, hKm, hl, hnm, bind_ok]
    rw [fdiv_ok]
    · exact ⟨_, rfl⟩
    · split_ifs with h
      · unfold fallback; positivity
      · intro h2
        rw [h2, fabs_eq, abs_zero] at h
        exact h (by unfold tiny; positivity)
  cases fuel with
  | zero => simp [bfgsLoop2] at h
  | succ fuel =>
    unfold bfgsLoop2 at h
    rw [if_neg (not_lt.2 he), if_neg (by push_cast; linarith), step1, bind_ok] at h
    cases fuel with
    | zero => simp [bfgsLoop2] at h
    | succ fuel =>
      unfold bfgsLoop2 at h
      split_ifs at h with c1 c2
      · rw [← Except.ok.inj h]; exact Or.inr ⟨rfl, c1⟩
      · push_cast at c2; linarith
      · obtain ⟨H', e⟩ := step2 _ rfl
        rw [e, bind_ok] at h
        exact Or.inl (bfgsLoop2_zero hnm hKm hm eps maxIter _ _ _ _ x h)

end Nurbs
