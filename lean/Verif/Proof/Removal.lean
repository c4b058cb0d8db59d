import Verif.Proof.Insert2

/-! # The code's knot removal -/

set_option linter.unusedSectionVars false

namespace Nurbs
open Nurbs.Spec KnotRemovalImpl

theorem whileM_inv {σ : Type} (c : σ → M Bool) (f : σ → M σ) (P : ℕ → σ → Prop) (h : ℕ) :
    ∀ (fuel : ℕ) (s : σ), h < fuel → P 0 s →
      (∀ x < h, ∀ s, P x s → c s = .ok true ∧ ∃ s', f s = .ok s' ∧ P (x + 1) s') →
      (∀ s, P h s → c s = .ok false) → ∃ s', whileM fuel c f s = .ok s' ∧ P h s' := by
  induction h generalizing P with
  | zero =>
    intro fuel s hf hp _ he
    obtain ⟨n, rfl⟩ : ∃ n, fuel = n + 1 := ⟨fuel - 1, by omega⟩
    exact ⟨s, by simp [whileM, he s hp], hp⟩
  | succ h ih =>
    intro fuel s hf hp hs he
    obtain ⟨n, rfl⟩ : ∃ n, fuel = n + 1 := ⟨fuel - 1, by omega⟩
    obtain ⟨hc, s1, e1, p1⟩ := hs 0 (by omega) s hp
    obtain ⟨s2, e2, p2⟩ := ih (fun x => P (x + 1)) n s1 (by omega) p1 (fun x hx => hs (x + 1) (by omega)) he
    exact ⟨s2, by simp [whileM, hc, e1, e2], p2⟩

variable {K : Type} [Field K] [LinearOrder K] [IsStrictOrderedRing K]

theorem Vec4.divM_ok {a : Vec4 K} {c : K} (h : c ≠ 0) : a.divM c = .ok (c⁻¹ • a) := by
  unfold Vec4.divM
  simp only [fdiv_ok h, bind_ok]
  congr 1
  ext <;> simp [div_eq_inv_mul]

theorem SolveState.congr {i j ii jj i' j' ii' jj' : Int} {t t' : List (Vec4 K)} (h1 : i = i') (h2 : j = j') (h3 : ii = ii') (h4 : jj = jj')
    (h5 : t = t') : (⟨i, j, ii, jj, t⟩ : SolveState K) = ⟨i', j', ii', jj', t'⟩ := by subst h1 h2 h3 h4 h5; rfl

/-- What the removal algorithm relies on: `u` occurs exactly at the positions `r - s + 1 … r`. -/
structure RemCtx (U : List K) (u : K) (p s r n : ℕ) : Prop where
  len : U.length = n + p + 1
  rn : r < n
  pr : p + s ≤ r
  s1 : 1 ≤ s
  s2 : s ≤ p + 2
  lo : ∀ i, i + s ≤ r → kn U i < u
  mid : ∀ i, r < i + s → i ≤ r → kn U i = u
  hi : ∀ i, r < i → i < U.length → u < kn U i

/-- `alpha` of the removal equation `i` of round `t`. -/
def rA (U : ℕ → K) (u : K) (p t i : ℕ) : K := (u - U i) / (U (i + (p + 1) + t) - U i)

/-- Sweep from the left. -/
def swL (U : ℕ → K) (u : K) (p t off : ℕ) (g : ℕ → Vec4 K) : ℕ → Vec4 K
  | 0 => g off
  | x + 1 => (rA U u p t (off + 1 + x))⁻¹ • (g (off + 1 + x) - (1 - rA U u p t (off + 1 + x)) • swL U u p t off g x)

/-- Sweep from the right; `e` is the index `last + 1`. -/
def swR (U : ℕ → K) (u : K) (p t e : ℕ) (g : ℕ → Vec4 K) : ℕ → Vec4 K
  | 0 => g e
  | x + 1 => (1 - rA U u p t (e - 1 - x - t))⁻¹ • (g (e - 1 - x) - rA U u p t (e - 1 - x - t) • swR U u p t e g x)

/-- The difference vector whose norm is compared with the tolerance. -/
def remDiff (U : ℕ → K) (u : K) (p t s off e : ℕ) (g : ℕ → Vec4 K) : Vec4 K :=
  let h := (p + 1 + t - s) / 2
  if (p + 1 + t - s) % 2 = 0 then swL U u p t off g h - swR U u p t e g h
  else rA U u p t (off + 1 + h) • swR U u p t e g h + (1 - rA U u p t (off + 1 + h)) • swL U u p t off g h - g (off + 1 + h)

/-- The points after a successful round. -/
def remNext (U : ℕ → K) (u : K) (p t s off e : ℕ) (g : ℕ → Vec4 K) : ℕ → Vec4 K := fun i =>
  let h := (p + 1 + t - s) / 2
  if off < i ∧ i ≤ off + h then swL U u p t off g (i - off)
  else if e ≤ i + h ∧ i < e then swR U u p t e g (e - i)
  else g i

section step
variable {U : List K} {u : K} {p s r n : ℕ} (H : RemCtx U u p s r n)
include H

theorem rem_alpha {t i : ℕ} (h1 : i + s ≤ r) (h2 : r < i + p + 1 + t) (h3 : i + p + 1 + t < U.length) :
    kn U (i + (p + 1) + t) - kn U i ≠ 0 ∧ 0 < rA (kn U) u p t i ∧ rA (kn U) u p t i < 1 := by
  have a := H.lo i h1
  have b := H.hi (i + (p + 1) + t) (by omega) (by omega)
  have hd : 0 < kn U (i + (p + 1) + t) - kn U i := by linarith
  refine ⟨hd.ne', div_pos (by linarith) hd, ?_⟩
  unfold rA
  rw [div_lt_one hd]
  linarith

theorem solve_ok (t : ℕ) (ht : t < s) (hq : p + 2 + 2 * t - s ≤ 2 * p) (g tmp : ℕ → Vec4 K) (fuel : ℕ)
    (hf : (p + 1 + t - s) / 2 < fuel)
    (h0 : tmp 0 = g (r - p - t - 1)) (hq0 : tmp (p + 2 + 2 * t - s) = g (r - p - t - 1 + (p + 2 + 2 * t - s))) :
    ∃ tmp', whileM fuel (fun s : SolveState K => .ok (decide (s.j - s.i > (t : Int))))
        (solveBody U (tab n g) u ((p : Int) + 1) t)
        ⟨(r : Int) - p - t, (r : Int) - s + t, 1, (r : Int) - s + t - ((r : Int) - p - t - 1), tab (2 * p + 1) tmp⟩ =
      .ok ⟨(r : Int) - p - t + ((p + 1 + t - s) / 2 : ℕ), (r : Int) - s + t - ((p + 1 + t - s) / 2 : ℕ), 1 + ((p + 1 + t - s) / 2 : ℕ),
        (r : Int) - s + t - ((r : Int) - p - t - 1) - ((p + 1 + t - s) / 2 : ℕ), tab (2 * p + 1) tmp'⟩ ∧
      (∀ x ≤ (p + 1 + t - s) / 2, tmp' x = swL (kn U) u p t (r - p - t - 1) g x) ∧
      (∀ x ≤ (p + 1 + t - s) / 2, tmp' (p + 2 + 2 * t - s - x) = swR (kn U) u p t (r - p - t - 1 + (p + 2 + 2 * t - s)) g x) := by
  have hpr := H.pr
  have hs2 := H.s2
  have hlen := H.len
  have hrn := H.rn
  obtain ⟨off, hoff⟩ : ∃ off, r = off + p + t + 1 := ⟨r - p - t - 1, by omega⟩
  obtain ⟨q, hqq⟩ : ∃ q, p + 2 + 2 * t = q + s := ⟨p + 2 + 2 * t - s, by omega⟩
  have eo : r - p - t - 1 = off := by omega
  have eq : p + 2 + 2 * t - s = q := by omega
  rw [eo] at h0 hq0 ⊢
  rw [eq] at hq hq0 ⊢
  obtain ⟨h, hh⟩ : ∃ h, (p + 1 + t - s) / 2 = h := ⟨_, rfl⟩
  rw [hh]
  have hb : 2 * h ≤ p + 1 + t - s := by omega
  have hb2 : p + 1 + t - s ≤ 2 * h + 1 := by omega
  obtain ⟨st, e, hst⟩ := whileM_inv (fun s : SolveState K => .ok (decide (s.j - s.i > (t : Int))))
    (solveBody U (tab n g) u ((p : Int) + 1) t)
    (fun x st => ∃ f, st = ⟨(r : Int) - p - t + x, (r : Int) - s + t - x, 1 + x, (r : Int) - s + t - ((r : Int) - p - t - 1) - x, tab (2 * p + 1) f⟩ ∧
      (∀ y ≤ x, f y = swL (kn U) u p t off g y) ∧ (∀ y ≤ x, f (q - y) = swR (kn U) u p t (off + q) g y)) h fuel
    ⟨(r : Int) - p - t, (r : Int) - s + t, 1, (r : Int) - s + t - ((r : Int) - p - t - 1), tab (2 * p + 1) tmp⟩ (by omega)
    ⟨tmp, by simp, by intro y hy; obtain rfl : y = 0 := by omega
                      exact h0, by intro y hy; obtain rfl : y = 0 := by omega
                                   exact hq0⟩
    (by
      rintro x hx _ ⟨f, rfl, fL, fR⟩
      refine ⟨by simp; omega, ?_⟩
      obtain ⟨a1, a2, a3⟩ := rem_alpha H (t := t) (i := off + 1 + x) (by omega) (by omega) (by omega)
      obtain ⟨b1, b2, b3⟩ := rem_alpha H (t := t) (i := off + q - 1 - x - t) (by omega) (by omega) (by omega)
      unfold solveBody
      simp only
      rw [vget_kn U _ (off + 1 + x) (by omega) (by omega), bind_ok, vget_kn U _ (off + 1 + x + (p + 1) + t) (by omega) (by omega), bind_ok, bind_ok,
        fdiv_ok a1, bind_ok, vget_kn U _ (off + q - 1 - x - t) (by omega) (by omega), bind_ok,
        vget_kn U _ (off + q - 1 - x - t + (p + 1) + t) (by omega) (by omega), bind_ok, bind_ok, fdiv_ok b1, bind_ok,
        vget_tab n g _ (off + 1 + x) (by omega) (by omega), bind_ok, vget_tab _ f _ x (by omega) (by omega), bind_ok]
      rw [show (u - kn U (off + 1 + x)) / (kn U (off + 1 + x + (p + 1) + t) - kn U (off + 1 + x)) = rA (kn U) u p t (off + 1 + x) from rfl,
        show (u - kn U (off + q - 1 - x - t)) / (kn U (off + q - 1 - x - t + (p + 1) + t) - kn U (off + q - 1 - x - t)) =
          rA (kn U) u p t (off + q - 1 - x - t) from rfl]
      rw [Vec4.divM_ok a2.ne', bind_ok, vset_tab _ f _ (x + 1) _ (by omega) (by omega), bind_ok,
        vget_tab n g _ (off + q - 1 - x) (by omega) (by omega), bind_ok, vget_tab _ _ _ (q - x) (by omega) (by omega), bind_ok,
        Vec4.divM_ok (by linarith), bind_ok, vset_tab _ _ _ (q - (x + 1)) _ (by omega) (by omega), bind_ok]
      refine ⟨_, rfl, _, SolveState.congr (by push_cast; ring) (by push_cast; ring) (by push_cast; ring) (by push_cast; ring) rfl, ?_, ?_⟩
      · intro y hy
        rw [Function.update_of_ne (by omega)]
        by_cases hy2 : y = x + 1
        · subst hy2
          rw [Function.update_self, fL x le_rfl]; rfl
        · rw [Function.update_of_ne hy2, fL y (by omega)]
      · intro y hy
        by_cases hy2 : y = x + 1
        · subst hy2
          rw [Function.update_self, Function.update_of_ne (by omega), fR x le_rfl]; rfl
        · rw [Function.update_of_ne (by omega), Function.update_of_ne (by omega), fR y (by omega)])
    (by rintro _ ⟨f, rfl, _, _⟩; simp; omega)
  obtain ⟨f, rfl, fL, fR⟩ := hst
  exact ⟨f, e, fL, fR⟩

theorem copy_ok (t : ℕ) (ht : t < s) (hq : p + 2 + 2 * t - s ≤ 2 * p) (g tmp : ℕ → Vec4 K) (fuel : ℕ) (hf : (p + 1 + t - s) / 2 < fuel)
    (hL : ∀ x ≤ (p + 1 + t - s) / 2, tmp x = swL (kn U) u p t (r - p - t - 1) g x)
    (hR : ∀ x ≤ (p + 1 + t - s) / 2, tmp (p + 2 + 2 * t - s - x) = swR (kn U) u p t (r - p - t - 1 + (p + 2 + 2 * t - s)) g x) :
    ∃ i j, whileM fuel (fun s : Int × Int × List (Vec4 K) => .ok (decide (s.2.1 - s.1 > (t : Int))))
        (copyBody (tab (2 * p + 1) tmp) ((r : Int) - p - t - 1)) ((r : Int) - p - t, (r : Int) - s + t, tab n g) =
      .ok (i, j, tab n (remNext (kn U) u p t s (r - p - t - 1) (r - p - t - 1 + (p + 2 + 2 * t - s)) g)) := by
  have hpr := H.pr
  have hs2 := H.s2
  have hlen := H.len
  have hrn := H.rn
  obtain ⟨off, hoff⟩ : ∃ off, r = off + p + t + 1 := ⟨r - p - t - 1, by omega⟩
  obtain ⟨q, hqq⟩ : ∃ q, p + 2 + 2 * t = q + s := ⟨p + 2 + 2 * t - s, by omega⟩
  have eo : r - p - t - 1 = off := by omega
  have eq : p + 2 + 2 * t - s = q := by omega
  rw [eo] at hL hR ⊢
  rw [eq] at hq hR ⊢
  unfold remNext
  obtain ⟨h, hh⟩ : ∃ h, (p + 1 + t - s) / 2 = h := ⟨_, rfl⟩
  rw [hh] at hL hR ⊢
  have hb : 2 * h ≤ p + 1 + t - s := by omega
  have hb2 : p + 1 + t - s ≤ 2 * h + 1 := by omega
  obtain ⟨st, e, hst⟩ := whileM_inv (fun s : Int × Int × List (Vec4 K) => .ok (decide (s.2.1 - s.1 > (t : Int))))
    (copyBody (tab (2 * p + 1) tmp) ((r : Int) - p - t - 1))
    (fun x st => st = ((r : Int) - p - t + x, (r : Int) - s + t - x, tab n fun i =>
      if off < i ∧ i ≤ off + x then swL (kn U) u p t off g (i - off)
      else if off + q ≤ i + x ∧ i < off + q then swR (kn U) u p t (off + q) g (off + q - i) else g i)) h fuel
    ((r : Int) - p - t, (r : Int) - s + t, tab n g) (by omega)
    (by
      simp only [Nat.cast_zero, add_zero, sub_zero, Prod.mk.injEq, true_and]
      apply tab_congr
      intro i hi
      rw [if_neg (by omega), if_neg (by omega)])
    (by
      rintro x hx _ rfl
      refine ⟨by simp; omega, ?_⟩
      unfold copyBody
      simp only
      rw [vget_tab _ tmp _ (x + 1) (by omega) (by omega), bind_ok, vset_tab _ _ _ (off + 1 + x) _ (by omega) (by omega), bind_ok,
        vget_tab _ tmp _ (q - (x + 1)) (by omega) (by omega), bind_ok, vset_tab _ _ _ (off + q - (x + 1)) _ (by omega) (by omega), bind_ok]
      refine ⟨_, rfl, ?_⟩
      rw [Prod.mk.injEq, Prod.mk.injEq]
      refine ⟨by push_cast; ring, by push_cast; ring, ?_⟩
      apply tab_congr
      intro i hi
      by_cases h1 : i = off + q - (x + 1)
      · subst h1
        rw [Function.update_self, if_neg (by omega), if_pos (by omega), hR (x + 1) (by omega)]
        congr 1; omega
      · rw [Function.update_of_ne h1]
        by_cases h2 : i = off + 1 + x
        · subst h2
          rw [Function.update_self, if_pos (by omega), hL (x + 1) (by omega)]
          congr 1; omega
        · rw [Function.update_of_ne h2]
          by_cases h3 : off < i ∧ i ≤ off + x
          · rw [if_pos h3, if_pos (by omega)]
          · rw [if_neg h3, if_neg (show ¬ (off < i ∧ i ≤ off + (x + 1)) by omega)]
            by_cases h4 : off + q ≤ i + x ∧ i < off + q
            · rw [if_pos h4, if_pos (by omega)]
            · rw [if_neg h4, if_neg (by omega)])
    (by rintro _ rfl; simp; omega)
  rw [hst] at e
  exact ⟨_, _, e⟩

/-- One round of the removal loop. -/
theorem removalLoop_step (sqrt : K → K) (tol : K) (m t : ℕ) (ht : t < s) (hq : p + 2 + 2 * t - s ≤ 2 * p) (g tmp : ℕ → Vec4 K) :
    ∃ tmp', removalLoop sqrt U u tol ((p : Int) + 1) (m + 1) t ((r : Int) - p - t) ((r : Int) - s + t) (tab n g) (tab (2 * p + 1) tmp) =
      if (remDiff (kn U) u p t s (r - p - t - 1) (r - p - t - 1 + (p + 2 + 2 * t - s)) g).norm sqrt > tol then .ok ((t : Int), tab n g)
      else removalLoop sqrt U u tol ((p : Int) + 1) m ((t + 1 : ℕ) : Int) ((r : Int) - p - (t + 1 : ℕ)) ((r : Int) - s + (t + 1 : ℕ))
        (tab n (remNext (kn U) u p t s (r - p - t - 1) (r - p - t - 1 + (p + 2 + 2 * t - s)) g)) (tab (2 * p + 1) tmp') := by
  have hpr := H.pr
  have hs2 := H.s2
  have hlen := H.len
  have hrn := H.rn
  rw [removalLoop]
  simp only
  rw [vget_tab _ g _ (r - p - t - 1) (by omega) (by omega), bind_ok, vset_tab _ tmp _ 0 _ (by simp) (by omega), bind_ok,
    vget_tab _ g _ (r - p - t - 1 + (p + 2 + 2 * t - s)) (by omega) (by omega), bind_ok,
    vset_tab _ _ _ (p + 2 + 2 * t - s) _ (by omega) (by omega), bind_ok]
  obtain ⟨tmp', e, hL, hR⟩ := solve_ok H t ht hq g (Function.update (Function.update tmp 0 (g (r - p - t - 1))) (p + 2 + 2 * t - s)
    (g (r - p - t - 1 + (p + 2 + 2 * t - s)))) (((r : Int) - s + t - (r - p - t)).toNat + 1) (by omega) (by
      by_cases h : p + 2 + 2 * t - s = 0
      · rw [h, Function.update_self]; rfl
      · rw [Function.update_of_ne (by omega), Function.update_self]) (by rw [Function.update_self])
  rw [e, bind_ok]
  obtain ⟨i, j, e2⟩ := copy_ok H t ht hq g tmp' (((r : Int) - s + t - (r - p - t)).toNat + 1) (by omega) hL hR
  refine ⟨tmp', ?_⟩
  have hd : removalDist sqrt U (tab n g) u ((p : Int) + 1) t
      ⟨(r : Int) - p - t + ((p + 1 + t - s) / 2 : ℕ), (r : Int) - s + t - ((p + 1 + t - s) / 2 : ℕ), 1 + ((p + 1 + t - s) / 2 : ℕ),
        (r : Int) - s + t - ((r : Int) - p - t - 1) - ((p + 1 + t - s) / 2 : ℕ), tab (2 * p + 1) tmp'⟩ =
      .ok ((remDiff (kn U) u p t s (r - p - t - 1) (r - p - t - 1 + (p + 2 + 2 * t - s)) g).norm sqrt) := by
    have hm := Nat.div_add_mod (p + 1 + t - s) 2
    have hm2 := Nat.mod_lt (p + 1 + t - s) (show 0 < 2 by omega)
    have lh := hL _ le_rfl
    have rh := hR _ le_rfl
    unfold removalDist remDiff
    generalize (p + 1 + t - s) / 2 = h at *
    simp only
    by_cases hpar : (p + 1 + t - s) % 2 = 0
    · rw [if_pos (by omega), if_pos hpar, vget_tab _ tmp' _ h (by omega) (by omega), bind_ok,
        vget_tab _ tmp' _ (p + 2 + 2 * t - s - h) (by omega) (by omega), bind_ok, lh, rh]
      rfl
    · obtain ⟨a1, _, _⟩ := rem_alpha H (t := t) (i := r - p - t - 1 + 1 + h) (by omega) (by omega) (by omega)
      rw [if_neg (by omega), if_neg hpar, vget_kn U _ (r - p - t - 1 + 1 + h) (by omega) (by omega), bind_ok,
        vget_kn U _ (r - p - t - 1 + 1 + h + (p + 1) + t) (by omega) (by omega), bind_ok, bind_ok, fdiv_ok a1, bind_ok,
        vget_tab _ tmp' _ (p + 2 + 2 * t - s - h) (by omega) (by omega), bind_ok,
        vget_tab _ tmp' _ h (by omega) (by omega), bind_ok,
        vget_tab _ g _ (r - p - t - 1 + 1 + h) (by omega) (by omega), bind_ok, lh, rh]
      rfl
  rw [hd, bind_ok]
  split_ifs with hc
  · rfl
  · rw [e2, bind_ok]
    simp only
    congr 1 <;> push_cast <;> ring

end step

end Nurbs
