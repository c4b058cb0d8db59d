import Verif.Spec.Rounded
import Verif.Proof.RelErr
import Verif.Proof.Curve

/-! # Basis functions and curve points with rounding -/

set_option linter.unusedSectionVars false

namespace Nurbs
open Nurbs.Spec

variable {K : Type} [Field K] [LinearOrder K] [IsStrictOrderedRing K] {R : Rounding K}

/-! ### exact images -/

theorem kn_exactList (l : List (Fl R)) (i : ℕ) : kn (exactList l) i = (kn l i).val := by
  unfold kn exactList
  rw [List.getD_eq_getElem?_getD, List.getD_eq_getElem?_getD, List.getElem?_map]
  cases l[i]? with
  | none => simp [Fl.val_zero]
  | some a => simp

theorem exactList_length (l : List (Fl R)) : (exactList l).length = l.length := by simp [exactList]

theorem clamped_exact {p : ℕ} {l : List (Fl R)} : Clamped p (exactList l) ↔ Clamped p l := by
  have hz : ∀ a : Fl R, a.val = 0 ↔ a = 0 := fun a =>
    ⟨fun h => Fl.val_inj (by rw [h, Fl.val_zero]), fun h => by rw [h, Fl.val_zero]⟩
  have ho : ∀ a : Fl R, a.val = 1 ↔ a = 1 := fun a =>
    ⟨fun h => Fl.val_inj (by rw [h, Fl.val_one]), fun h => by rw [h, Fl.val_one]⟩
  have hs : (exactList l).Pairwise (· ≤ ·) ↔ l.Pairwise (· ≤ ·) := by
    unfold exactList; rw [List.pairwise_map]; rfl
  constructor
  · intro h
    have h1 := h.len
    have h5 := h.last
    refine ⟨by rwa [exactList_length] at h1, hs.mp h.sorted, fun i hi => ?_, fun i hi hi' => ?_, ?_, ?_⟩
    · rw [← hz, ← kn_exactList]; exact h.zeros i hi
    · rw [← ho, ← kn_exactList]; exact h.ones i (by rwa [exactList_length]) (by rwa [exactList_length])
    · rw [Fl.lt_def, Fl.val_zero, ← kn_exactList]; exact h.first
    · rw [Fl.lt_def, Fl.val_one, ← kn_exactList, ← exactList_length l]; exact h5
  · intro h
    refine ⟨by rw [exactList_length]; exact h.len, hs.mpr h.sorted, fun i hi => ?_, fun i hi hi' => ?_, ?_, ?_⟩
    · rw [kn_exactList, hz]; exact h.zeros i hi
    · rw [kn_exactList, ho]
      exact h.ones i (by rwa [exactList_length] at hi) (by rwa [exactList_length] at hi')
    · have := h.first
      rwa [Fl.lt_def, Fl.val_zero, ← kn_exactList] at this
    · have := h.last
      rwa [Fl.lt_def, Fl.val_one, ← kn_exactList, ← exactList_length l] at this

theorem isSpan_exact {l : List (Fl R)} {x : Fl R} {k : ℕ} : IsSpan (exactList l) x.val k ↔ IsSpan l x k := by
  unfold IsSpan
  rw [exactList_length, kn_exactList, kn_exactList]
  have ho : ∀ a : Fl R, a.val = 1 ↔ a = 1 := fun a =>
    ⟨fun h => Fl.val_inj (by rw [h, Fl.val_one]), fun h => by rw [h, Fl.val_one]⟩
  have hl : ∀ a : Fl R, a.val < 1 ↔ a < 1 := fun a => by rw [Fl.lt_def, Fl.val_one]
  rw [ho, ho, hl]
  rfl

/-! ### the triangle of basis functions -/

variable {knots : List (Fl R)} {k p : ℕ} {x : Fl R}

/-- exact knots as a function -/
def exKn (knots : List (Fl R)) (i : ℕ) : K := (kn knots i).val

theorem evalOuter_near (hp : p ≤ k) (hl : k + p < knots.length) (hs : knots.Pairwise (· ≤ ·))
    (hk : (kn knots k).val < (kn knots (k + 1)).val)
    (hx1 : (kn knots k).val ≤ x.val) (hx2 : x.val ≤ (kn knots (k + 1)).val) (j : ℕ) (hj : 1 ≤ j) (hjp : j ≤ p)
    (left right f : ℕ → Fl R) (hleft : ∀ m, 1 ≤ m → m < j → left m = x - kn knots (k + 1 - m))
    (hright : ∀ m, 1 ≤ m → m < j → right m = kn knots (k + m) - x)
    (hf : ∀ m ≤ p, Near R.q (6 * (j - 1)) (f m).val (lev (exKn knots) k x.val (j - 1) m)) :
    ∃ f' : ℕ → Fl R,
      BSplineBasis.evalOuter knots k x j (tab (p + 1) f, tab (p + 1) left, tab (p + 1) right) =
      .ok (tab (p + 1) f', tab (p + 1) (Function.update left j (x - kn knots (k + 1 - j))),
        tab (p + 1) (Function.update right j (kn knots (k + j) - x))) ∧
      ∀ m ≤ p, Near R.q (6 * j) (f' m).val (lev (exKn knots) k x.val j m) := by
  have hq := R.q_pos
  have hq1 := R.q_le
  unfold BSplineBasis.evalOuter
  simp only
  rw [vget_kn knots _ (k + 1 - j) (by omega) (by omega)]
  simp only [bind_ok]
  rw [vset_tab _ _ _ j _ rfl (by omega)]
  simp only [bind_ok]
  rw [vget_kn knots _ (k + j) (by omega) (by omega)]
  simp only [bind_ok]
  rw [vset_tab _ _ _ j _ rfl (by omega)]
  simp only [bind_ok]
  set L := Function.update left j (x - kn knots (k + 1 - j)) with hLdef
  set Rt := Function.update right j (kn knots (k + j) - x) with hRdef
  have hL : ∀ m, 1 ≤ m → m ≤ j → L m = x - kn knots (k + 1 - m) := by
    intro m h1 h2
    rcases Nat.lt_or_ge m j with h | h
    · rw [hLdef, Function.update_of_ne (by omega), hleft m h1 h]
    · obtain rfl : m = j := by omega
      simp [hLdef]
  have hR : ∀ m, 1 ≤ m → m ≤ j → Rt m = kn knots (k + m) - x := by
    intro m h1 h2
    rcases Nat.lt_or_ge m j with h | h
    · rw [hRdef, Function.update_of_ne (by omega), hright m h1 h]
    · obtain rfl : m = j := by omega
      simp [hRdef]
  have mono : ∀ a b, a ≤ b → b ≤ k + p → (kn knots a).val ≤ (kn knots b).val := fun a b hab hb =>
    kn_mono hs hab (by omega)
  rw [forLt_eq_forUp _ _ j (by omega)]
  obtain ⟨s, he, fs, sv, rfl, hlo, hhi, hsv⟩ := forUp_inv (BSplineBasis.evalInner (tab (p + 1) L) (tab (p + 1) Rt) (j : Int))
    (fun n s => ∃ (fs : ℕ → Fl R) (sv : Fl R), s = (tab (p + 1) fs, sv) ∧
      (∀ m < n, Near R.q (6 * j) (fs m).val (lev (exKn knots) k x.val j m)) ∧
      (∀ m, n ≤ m → m ≤ p → Near R.q (6 * (j - 1)) (fs m).val (lev (exKn knots) k x.val (j - 1) m)) ∧
      Near R.q (6 * j - 1) sv.val (sav (exKn knots) k x.val j n)) j 0 (tab (p + 1) f, 0)
    ⟨f, 0, rfl, fun m hm => by omega, fun m _ hm => hf m hm, by
      rw [Fl.val_zero, show sav (exKn knots) k x.val j 0 = 0 by simp [sav]]
      exact (Near.refl hq le_rfl).mono hq hq1 (by omega)⟩ (by
      rintro n hn s ⟨fs, sv, rfl, hlo, hhi, hsv⟩
      -- the three quantities of this round
      have hr1 : Near R.q 1 (Rt (n + 1)).val ((kn knots (k + (n + 1))).val - x.val) := by
        rw [hR _ (by omega) (by omega)]
        exact Fl.near_sub (le_trans hx2 (mono _ _ (by omega) (by omega)))
      have hl1 : Near R.q 1 (L (j - n)).val (x.val - (kn knots (k + 1 - (j - n))).val) := by
        rw [hL _ (by omega) (by omega)]
        exact Fl.near_sub (le_trans (mono _ _ (by omega) (by omega)) hx1)
      have hden := Fl.near_add hr1 hl1
      have hdpos : 0 < (kn knots (k + (n + 1))).val - x.val + (x.val - (kn knots (k + 1 - (j - n))).val) := by
        have h1 := mono (k + 1) (k + (n + 1)) (by omega) (by omega)
        have h2 := mono (k + 1 - (j - n)) k (by omega) (by omega)
        linarith
      have hdne : Rt (n + 1) + L (j - n) ≠ 0 := Fl.ne_zero (hden.pos hq hdpos).ne'
      have htemp := Fl.near_div (hhi n le_rfl (by omega)) hden hdpos
      have hright' := Fl.near_mul hr1 htemp
      have hleft' := Fl.near_mul hl1 htemp
      refine ⟨_, ?_, Function.update fs n (sv + Rt (n + 1) * (fs n / (Rt (n + 1) + L (j - n)))),
        L (j - n) * (fs n / (Rt (n + 1) + L (j - n))), rfl, ?_, ?_, ?_⟩
      · unfold BSplineBasis.evalInner
        simp only [zero_add]
        rw [vget_tab _ _ _ n rfl (by omega)]
        simp only [bind_ok]
        rw [vget_tab _ _ _ (n + 1) (by push_cast; ring) (by omega)]
        simp only [bind_ok]
        rw [vget_tab _ _ _ (j - n) (by omega) (by omega)]
        simp only [bind_ok]
        rw [fdiv_ok hdne]
        simp only [bind_ok]
        rw [vset_tab _ _ _ n _ rfl (by omega)]
        rfl
      · intro m hm
        by_cases hmn : m = n
        · subst hmn
          rw [Function.update_self, lev_rec (exKn knots) k x.val j m hj (by omega) hn]
          have hsum := Fl.near_add (hsv.mono hq hq1 (n := 6 * j - 1) le_rfl)
            (hright'.mono hq hq1 (n := 6 * j - 1) (by omega))
          have e : (kn knots (k + (m + 1))).val - x.val + (x.val - (kn knots (k + 1 - (j - m))).val)
              = exKn knots (k + m + 1) - exKn knots (k + 1 - j + m) := by
            rw [show k + (m + 1) = k + m + 1 by omega, show k + 1 - (j - m) = k + 1 - j + m by omega]
            unfold exKn; ring
          rw [e, show 6 * j - 1 + 1 = 6 * j by omega] at hsum
          exact hsum
        · rw [Function.update_of_ne hmn]; exact hlo m (by omega)
      · intro m h1 h2
        rw [Function.update_of_ne (by omega)]; exact hhi m (by omega) h2
      · rw [sav_succ (exKn knots) k x.val j n (by omega)]
        have e : (kn knots (k + (n + 1))).val - x.val + (x.val - (kn knots (k + 1 - (j - n))).val)
            = exKn knots (k + n + 1) - exKn knots (k + 1 - j + n) := by
          rw [show k + (n + 1) = k + n + 1 by omega, show k + 1 - (j - n) = k + 1 - j + n by omega]
          unfold exKn; ring
        rw [e, show k + 1 - (j - n) = k + 1 - j + n by omega] at hleft'
        exact hleft'.mono hq hq1 (by omega))
  rw [he]
  simp only [bind_ok]
  rw [vset_tab _ _ _ j _ rfl (by omega)]
  refine ⟨Function.update fs j sv, rfl, ?_⟩
  intro m hm
  by_cases hmj : m = j
  · subst hmj
    rw [Function.update_self, lev_last (exKn knots) k x.val m hj (by omega)]
    exact hsv.mono hq hq1 (by omega)
  · rw [Function.update_of_ne hmj]
    rcases Nat.lt_or_ge m j with h | h
    · exact hlo m h
    · have h1 := hhi m h hm
      have e1 : lev (exKn knots) k x.val (j - 1) m = 0 := by simp only [lev]; rw [if_neg (by omega)]
      have e2 : lev (exKn knots) k x.val j m = 0 := by simp only [lev]; rw [if_neg (by omega)]
      rw [e1] at h1; rw [e2]
      exact h1.mono hq hq1 (by omega)

/-- `BSplineBasis::Evaluate` with rounding returns every basis function with a small relative error. -/
theorem evaluateAt_near (hp : p ≤ k) (hl : k + p < knots.length) (hs : knots.Pairwise (· ≤ ·))
    (hk : (kn knots k).val < (kn knots (k + 1)).val)
    (hx1 : (kn knots k).val ≤ x.val) (hx2 : x.val ≤ (kn knots (k + 1)).val) :
    ∃ f : ℕ → Fl R, BSplineBasis.EvaluateAt p knots k x = .ok (tab (p + 1) f) ∧
      ∀ n ≤ p, Near R.q (6 * p) (f n).val (Nl (exKn knots) k x.val p (k - p + n)) := by
  have hq := R.q_pos
  unfold BSplineBasis.EvaluateAt
  rw [vnew_of _ (p + 1) _ (by push_cast; ring), replicate_eq_tab]
  simp only [bind_ok]
  rw [vset_tab _ _ _ 0 1 (by simp) (by omega)]
  simp only [bind_ok]
  rw [forLe_eq_forUp _ _ p (by omega)]
  obtain ⟨s, hse, f, left, right, rfl, hf, _, _⟩ := forUp_inv (BSplineBasis.evalOuter knots k x)
    (fun n s => ∃ f left right : ℕ → Fl R, s = (tab (p + 1) f, tab (p + 1) left, tab (p + 1) right) ∧
      (∀ m ≤ p, Near R.q (6 * n) (f m).val (lev (exKn knots) k x.val n m)) ∧
      (∀ m, 1 ≤ m → m < n + 1 → left m = x - kn knots (k + 1 - m)) ∧
      (∀ m, 1 ≤ m → m < n + 1 → right m = kn knots (k + m) - x)) p 1
    (tab (p + 1) (Function.update (fun _ => (0 : Fl R)) 0 1), tab (p + 1) fun _ => 0, tab (p + 1) fun _ => 0)
    ⟨_, _, _, rfl, fun m _ => by
      rw [Nat.mul_zero]
      simp only [lev, Nl, Nat.sub_zero]
      by_cases hm : m = 0
      · subst hm; simp only [Function.update_self, Fl.val_one, le_refl, if_true, add_zero]; exact Near.refl hq zero_le_one
      · rw [Function.update_of_ne hm, if_neg (by omega), Fl.val_zero]; exact Near.refl hq le_rfl,
      fun m h1 h2 => by omega, fun m h1 h2 => by omega⟩ (by
      rintro n hn s ⟨f, left, right, rfl, hf, hleft, hright⟩
      obtain ⟨f', he, hf'⟩ := evalOuter_near hp hl hs hk hx1 hx2 (n + 1) (by omega) (by omega) left right f hleft hright
        (by simpa using hf)
      refine ⟨_, ?_, f', Function.update left (n + 1) (x - kn knots (k + 1 - (n + 1))),
        Function.update right (n + 1) (kn knots (k + (n + 1)) - x), rfl, hf', ?_, ?_⟩
      · rw [show ((1 : Int) + n) = ((n + 1 : ℕ) : Int) by push_cast; ring]
        exact he
      · intro m h1 h2
        by_cases hm : m = n + 1
        · subst hm; simp
        · rw [Function.update_of_ne hm, hleft m h1 (by omega)]
      · intro m h1 h2
        by_cases hm : m = n + 1
        · subst hm; simp
        · rw [Function.update_of_ne hm, hright m h1 (by omega)])
  rw [hse]
  refine ⟨f, rfl, fun n hn => ?_⟩
  have := hf n hn
  simp only [lev] at this
  rwa [if_pos hn] at this

end Nurbs
