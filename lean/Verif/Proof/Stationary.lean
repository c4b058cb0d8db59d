import Verif.Proof.SurfaceSearch
import Mathlib.Tactic.FieldSimp
import Mathlib.Tactic.Ring

/-! # The searches at a stationary parameter and on a parabola -/

set_option linter.unusedSectionVars false

namespace Nurbs
open Search Surface

variable {K : Type} [Field K] [LinearOrder K] [IsStrictOrderedRing K]

theorem tiny_eq : (tiny : K) = 1 / 10 ^ 16 := by unfold tiny; norm_num

theorem clamp01_of {v : K} (h0 : 0 ≤ v) (h1 : v ≤ 1) : clamp01 v = v := by
  unfold clamp01
  rw [if_neg (not_lt.2 h0), if_neg (not_lt.2 h1)]

/-- A step along `g`, scaled by a number that is not negative, is undone by the clamping. -/
def Stuck (u g : K) : Prop := g = 0 ∨ (u = 0 ∧ 0 ≤ g) ∨ (u = 1 ∧ g ≤ 0)

theorem clamp01_stuck {u g : K} (h0 : 0 ≤ u) (h1 : u ≤ 1) (hs : Stuck u g) {s : K} (h : 0 ≤ s) : clamp01 (u - s * g) = u := by
  rcases hs with rfl | ⟨rfl, hg⟩ | ⟨rfl, hg⟩
  · rw [mul_zero, sub_zero, clamp01_of h0 h1]
  · have := mul_nonneg h hg
    unfold clamp01
    split_ifs with c1 c2
    · rfl
    · linarith
    · linarith
  · have := mul_nonneg h (neg_nonneg.2 hg)
    rw [mul_neg] at this
    unfold clamp01
    split_ifs with c1 c2
    · linarith
    · rfl
    · linarith

theorem beta_nonneg : (0 : K) ≤ beta := by unfold beta; positivity

theorem lineSearch1_stuck {norm : K → M K} {u R : K} (hn : norm u = .ok R) (h0 : 0 ≤ u) (h1 : u ≤ 1) (r : K) {H g : K}
    (hs : g = 0 ∨ (0 ≤ H ∧ Stuck u g)) (n : ℕ) {al : K} (hal : 0 ≤ al) : lineSearch1 norm u r H g n al = .ok u := by
  have hc : ∀ {al : K}, 0 ≤ al → clamp01 (u - al * H * g) = u := by
    intro al hal
    rcases hs with rfl | ⟨hH, hs⟩
    · rw [mul_zero, sub_zero, clamp01_of h0 h1]
    · exact clamp01_stuck h0 h1 hs (mul_nonneg hal hH)
  induction n generalizing al with
  | zero => unfold lineSearch1; rw [hc hal]
  | succ n ih =>
    unfold lineSearch1
    simp only [hc hal, hn, bind_ok]
    split_ifs
    · rfl
    · exact ih (mul_nonneg hal beta_nonneg)

theorem bfgsStep1_stuck {norm fi : K → M K} {u R g : K} (hn : norm u = .ok R) (hf : fi u = .ok g) (h0 : 0 ≤ u) (h1 : u ≤ 1) (r : K) {H : K}
    (hs : g = 0 ∨ (0 ≤ H ∧ Stuck u g)) (ls : ℕ) : bfgsStep1 norm fi ls (u, r, H) = .ok (u, R, 1) := by
  unfold bfgsStep1
  have ht : fabs ((g - g) * (u - u)) < tiny := by
    rw [fabs_eq, sub_self, zero_mul, abs_zero]; unfold tiny; positivity
  simp only [hf, bind_ok, lineSearch1_stuck hn h0 h1 r hs ls zero_le_one, hn]
  rw [if_pos ht, if_pos ht, fdiv_ok (by unfold fallback; positivity), bind_ok]
  simp

theorem bfgsLoop1_stuck {norm fi : K → M K} {u R g : K} (hn : norm u = .ok R) (hf : fi u = .ok g) (h0 : 0 ≤ u) (h1 : u ≤ 1)
    (ls : ℕ) (eps maxIter : K) (fuel : ℕ) : ∀ (count : ℕ) (r H : K), (g = 0 ∨ (0 ≤ H ∧ Stuck u g)) →
      ∀ x, bfgsLoop1 norm fi ls eps maxIter fuel count (u, r, H) = .ok x → x.1.1 = u := by
  induction fuel with
  | zero => intro count r H hs x h; simp [bfgsLoop1] at h
  | succ fuel ih =>
    intro count r H hs x h
    unfold bfgsLoop1 at h
    split_ifs at h with c1 c2
    · rw [← Except.ok.inj h]
    · rw [← Except.ok.inj h]
    · rw [bfgsStep1_stuck hn hf h0 h1 r hs ls, bind_ok] at h
      exact ih _ _ _ (hs.imp id fun a => ⟨zero_le_one, a.2⟩) x h

theorem trial2_stuck {u : Vec2 K} (hu : InSquare u) {g : Vec2 K} (hx : Stuck u.x g.x) (hy : Stuck u.y g.y) {al : K} (hal : 0 ≤ al) :
    trial2 u ⟨1, 0, 0, 1⟩ g al = u := by
  unfold trial2 Mat2.mulVec
  simp only [one_mul, zero_mul, add_zero, zero_add]
  rw [clamp01_stuck hu.1 hu.2.1 hx hal, clamp01_stuck hu.2.2.1 hu.2.2.2 hy hal]

theorem lineSearch2_stuck {norm : K → K → M K} {u : Vec2 K} {R : K} (hn : norm u.x u.y = .ok R) (hu : InSquare u) (r : K) {g : Vec2 K}
    (hx : Stuck u.x g.x) (hy : Stuck u.y g.y) (n : ℕ) {al : K} (hal : 0 ≤ al) : lineSearch2 norm u r ⟨1, 0, 0, 1⟩ g n al = .ok u := by
  induction n generalizing al with
  | zero => unfold lineSearch2; rw [trial2_stuck hu hx hy hal]
  | succ n ih =>
    unfold lineSearch2
    simp only [trial2_stuck hu hx hy hal, hn, bind_ok]
    split_ifs
    · rfl
    · exact ih (mul_nonneg hal beta_nonneg)

theorem bfgsStep2_stuck {norm : K → K → M K} {Ki : K → K → M (Vec2 K)} {u g : Vec2 K} {R : K} (hn : norm u.x u.y = .ok R)
    (hf : Ki u.x u.y = .ok g) (hu : InSquare u) (r : K) (hx : Stuck u.x g.x) (hy : Stuck u.y g.y) :
    bfgsStep2 norm Ki (u, r, ⟨1, 0, 0, 1⟩) = .ok (u, R, ⟨1, 0, 0, 1⟩) := by
  unfold bfgsStep2
  have ht : fabs (Vec2.dot ⟨g.x - g.x, g.y - g.y⟩ ⟨u.x - u.x, u.y - u.y⟩) < (tiny : K) := by
    unfold Vec2.dot
    rw [fabs_eq, sub_self, sub_self, zero_mul, zero_mul, add_zero, abs_zero]; unfold tiny; positivity
  simp only [hf, bind_ok, lineSearch2_stuck hn hu r hx hy 20 zero_le_one, hn]
  rw [if_pos ht, if_pos ht, fdiv_ok (by unfold fallback; positivity), bind_ok]
  simp [Mat2.oneSubOuter, Mat2.addOuter, Mat2.mul]

theorem bfgsLoop2_stuck {norm : K → K → M K} {Ki : K → K → M (Vec2 K)} {u g : Vec2 K} {R : K} (hn : norm u.x u.y = .ok R)
    (hf : Ki u.x u.y = .ok g) (hu : InSquare u) (hx : Stuck u.x g.x) (hy : Stuck u.y g.y) (eps maxIter : K) (fuel : ℕ) :
    ∀ (count : ℕ) (r : K) x, bfgsLoop2 norm Ki eps maxIter fuel count (u, r, ⟨1, 0, 0, 1⟩) = .ok x → x.1.1 = u := by
  induction fuel with
  | zero => intro count r x h; simp [bfgsLoop2] at h
  | succ fuel ih =>
    intro count r x h
    unfold bfgsLoop2 at h
    split_ifs at h with c1 c2
    · rw [← Except.ok.inj h]
    · rw [← Except.ok.inj h]
    · rw [bfgsStep2_stuck hn hf hu r hx hy, bind_ok] at h
      exact ih _ _ x h

/-- The first step on a parabola: the inverse of the second derivative is found exactly. -/
theorem bfgsStep1_first {norm fi R : K → M K} {f : K → K} {D m u r : K} (hn : ∀ x, 0 ≤ x → x ≤ 1 → norm x = .ok (f x))
    (hf : ∀ x, 0 ≤ x → x ≤ 1 → fi x = .ok (D * (x - m))) (hD : 0 < D) (h0 : 0 ≤ u) (h1 : u ≤ 1) {ls : ℕ}
    (hacc : ls = 0 ∨ f (clamp01 (u - D * (u - m))) ≤ r - c1 * (D * (u - m)) ^ 2)
    (hbig : tiny ≤ D * (clamp01 (u - D * (u - m)) - u) ^ 2) :
    bfgsStep1 norm fi ls (u, r, 1) = .ok (clamp01 (u - D * (u - m)), f (clamp01 (u - D * (u - m))), 1 / D) := by
  obtain ⟨q0, q1⟩ := clamp01_mem (u - D * (u - m))
  have hl : lineSearch1 norm u r 1 (D * (u - m)) ls 1 = .ok (clamp01 (u - D * (u - m))) := by
    rcases hacc with rfl | hacc
    · unfold lineSearch1; rw [one_mul, one_mul]
    · cases ls with
      | zero => unfold lineSearch1; rw [one_mul, one_mul]
      | succ ls =>
        unfold lineSearch1
        simp only [one_mul, mul_one, hn _ q0 q1, bind_ok]
        rw [if_pos (by rw [mul_assoc, ← sq]; exact hacc)]
        rfl
  generalize clamp01 (u - D * (u - m)) = v at *
  unfold bfgsStep1
  simp only [hf u h0 h1, hf v q0 q1, bind_ok, hl, hn v q0 q1]
  have e : (D * (v - m) - D * (u - m)) * (v - u) = D * (v - u) ^ 2 := by ring
  have hpos : 0 < D * (v - u) ^ 2 := lt_of_lt_of_le (by unfold tiny; positivity) hbig
  have hs : v - u ≠ 0 := by
    intro h; rw [h] at hpos; simp at hpos
  have ht : ¬ fabs (D * (v - u) ^ 2) < tiny := by rw [fabs_eq, abs_of_pos hpos]; exact not_lt.2 hbig
  rw [e, if_neg ht, if_neg ht, fdiv_ok hpos.ne', bind_ok]
  simp only [pure_ok]
  congr 3
  field_simp
  ring

/-- With the exact inverse of the second derivative, the next step reaches the minimum. -/
theorem bfgsStep1_second {norm fi : K → M K} {f : K → K} {D m u r : K} (hn : ∀ x, 0 ≤ x → x ≤ 1 → norm x = .ok (f x))
    (hf : ∀ x, 0 ≤ x → x ≤ 1 → fi x = .ok (D * (x - m))) (hD : 0 < D) (h0 : 0 ≤ u) (h1 : u ≤ 1) (hm0 : 0 ≤ m) (hm1 : m ≤ 1) {ls : ℕ}
    (hacc : ls = 0 ∨ f m ≤ r - c1 * (D * (u - m) ^ 2)) :
    ∃ H, bfgsStep1 norm fi ls (u, r, 1 / D) = .ok (m, f m, H) := by
  have ec : clamp01 (u - 1 * (1 / D) * (D * (u - m))) = m := by
    rw [show u - 1 * (1 / D) * (D * (u - m)) = m by field_simp; ring, clamp01_of hm0 hm1]
  have hl : lineSearch1 norm u r (1 / D) (D * (u - m)) ls 1 = .ok m := by
    rcases hacc with rfl | hacc
    · unfold lineSearch1; rw [ec]
    · cases ls with
      | zero => unfold lineSearch1; rw [ec]
      | succ ls =>
        unfold lineSearch1
        simp only [ec, hn _ hm0 hm1, bind_ok]
        rw [if_pos]
        · rfl
        · convert hacc using 2
          field_simp
  unfold bfgsStep1
  simp only [hf u h0 h1, hf m hm0 hm1, bind_ok, hl, hn m hm0 hm1]
  rw [fdiv_ok]
  · exact ⟨_, rfl⟩
  · split_ifs with h
    · unfold fallback; positivity
    · intro h2
      rw [h2, fabs_eq, abs_zero] at h
      exact h (by unfold tiny; positivity)

/-- Two iterations on a parabola reach its minimum, unless the first one is close enough. -/
theorem bfgsLoop1_parabola {norm fi : K → M K} {f : K → K} {D m u : K} (hn : ∀ x, 0 ≤ x → x ≤ 1 → norm x = .ok (f x))
    (hf : ∀ x, 0 ≤ x → x ≤ 1 → fi x = .ok (D * (x - m))) (hD : 0 < D) (h0 : 0 ≤ u) (h1 : u ≤ 1) (hm0 : 0 ≤ m) (hm1 : m ≤ 1) (ls : ℕ)
    (hacc : ls = 0 ∨ ∀ v, 0 ≤ v → v ≤ 1 → f v ≤ dblMax - c1 * (D * (u - m)) ^ 2 ∧ f m ≤ f v - c1 * (D * (v - m) ^ 2))
    (hbig : tiny ≤ D * (clamp01 (u - D * (u - m)) - u) ^ 2) {eps maxIter : K} (he : eps ≤ dblMax) (hi : 1 < maxIter) (fuel : ℕ) {x}
    (h : bfgsLoop1 norm fi ls eps maxIter fuel 0 (u, dblMax, 1) = .ok x) : x.1.1 = m ∨ (f x.1.1 < eps ∧ 0 ≤ x.1.1 ∧ x.1.1 ≤ 1) := by
  obtain ⟨q0, q1⟩ := clamp01_mem (u - D * (u - m))
  cases fuel with
  | zero => simp [bfgsLoop1] at h
  | succ fuel =>
    unfold bfgsLoop1 at h
    rw [if_neg (not_lt.2 he), if_neg (by push_cast; linarith),
      bfgsStep1_first (R := norm) hn hf hD h0 h1 (hacc.imp id fun a => (a _ q0 q1).1) hbig, bind_ok] at h
    generalize clamp01 (u - D * (u - m)) = v at *
    cases fuel with
    | zero => simp [bfgsLoop1] at h
    | succ fuel =>
      unfold bfgsLoop1 at h
      split_ifs at h with c1 c2
      · rw [← Except.ok.inj h]; exact Or.inr ⟨c1, q0, q1⟩
      · push_cast at c2; linarith
      · obtain ⟨H, e⟩ := bfgsStep1_second (r := f v) (ls := ls) hn hf hD q0 q1 hm0 hm1 (hacc.imp id fun a => (a _ q0 q1).2)
        rw [e, bind_ok] at h
        exact Or.inl (bfgsLoop1_stuck (hn m hm0 hm1) (g := 0) (by rw [hf m hm0 hm1]; simp) hm0 hm1 ls eps maxIter _ _ _ _
          (Or.inl rfl) x h)

end Nurbs
