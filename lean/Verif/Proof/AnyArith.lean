import Verif.Proof.Deriv

/-! # Basis functions in any arithmetic

The operations are arbitrary: nothing is assumed about `+ - * /`, so that what is shown here holds bit for bit for rounded numbers. -/

set_option linter.unusedSectionVars false

namespace Nurbs
open Nurbs.Spec

variable {K : Type} [Zero K] [One K] [Add K] [Sub K] [Mul K] [Div K] [Neg K] [NatCast K] [IntCast K] [LinearOrder K]
variable {knots : List K} {k p : ℕ} {x : K}

/-- The denominator of function `r` on level `j`. -/
def denG (knots : List K) (k : ℕ) (x : K) (j r : ℕ) : K := (kn knots (k + (r + 1)) - x) + (x - kn knots (k + 1 - (j - r)))

/-- The value carried over to function `n` of level `j`. -/
def savG (knots : List K) (k : ℕ) (x : K) (prev : ℕ → K) (j : ℕ) : ℕ → K
  | 0 => 0
  | n + 1 => (x - kn knots (k + 1 - (j - n))) * (prev n / denG knots k x j n)

/-- Level `j` from level `j - 1`. -/
def nextG (knots : List K) (k : ℕ) (x : K) (prev : ℕ → K) (j r : ℕ) : K :=
  if r < j then savG knots k x prev j r + (kn knots (k + (r + 1)) - x) * (prev r / denG knots k x j r)
  else if r = j then savG knots k x prev j j else 0

/-- The levels of the triangle. -/
def lvG (knots : List K) (k : ℕ) (x : K) : ℕ → ℕ → K
  | 0, r => if r = 0 then 1 else 0
  | j + 1, r => nextG knots k x (lvG knots k x j) (j + 1) r

/-- No denominator vanishes. -/
def DenOK (knots : List K) (k : ℕ) (x : K) (p : ℕ) : Prop := ∀ j, 1 ≤ j → j ≤ p → ∀ r < j, denG knots k x j r ≠ 0

theorem lvG_gt : ∀ j r, j < r → lvG knots k x j r = 0
  | 0, r, h => by unfold lvG; rw [if_neg (by omega)]
  | j + 1, r, h => by unfold lvG nextG; rw [if_neg (by omega), if_neg (by omega)]

theorem evalOuter_any (hp : p ≤ k) (hl : k + p < knots.length) (hd : DenOK knots k x p) (j : ℕ) (hjp : j + 1 ≤ p)
    (left right : ℕ → K) (hleft : ∀ m, 1 ≤ m → m < j + 1 → left m = x - kn knots (k + 1 - m))
    (hright : ∀ m, 1 ≤ m → m < j + 1 → right m = kn knots (k + m) - x) :
    BSplineBasis.evalOuter knots k x ((j + 1 : ℕ) : Int) (tab (p + 1) (lvG knots k x j), tab (p + 1) left, tab (p + 1) right) =
      .ok (tab (p + 1) (lvG knots k x (j + 1)), tab (p + 1) (Function.update left (j + 1) (x - kn knots (k + 1 - (j + 1)))),
        tab (p + 1) (Function.update right (j + 1) (kn knots (k + (j + 1)) - x))) := by
  unfold BSplineBasis.evalOuter
  simp only
  rw [vget_kn knots _ (k + 1 - (j + 1)) (by omega) (by omega)]
  simp only [bind_ok]
  rw [vset_tab _ _ _ (j + 1) _ rfl (by omega)]
  simp only [bind_ok]
  rw [vget_kn knots _ (k + (j + 1)) (by omega) (by omega)]
  simp only [bind_ok]
  rw [vset_tab _ _ _ (j + 1) _ rfl (by omega)]
  simp only [bind_ok]
  have hL : ∀ m, 1 ≤ m → m ≤ j + 1 → Function.update left (j + 1) (x - kn knots (k + 1 - (j + 1))) m = x - kn knots (k + 1 - m) := by
    intro m h1 h2
    rcases Nat.lt_or_ge m (j + 1) with h | h
    · rw [Function.update_of_ne (by omega), hleft m h1 h]
    · obtain rfl : m = j + 1 := by omega
      simp
  have hR : ∀ m, 1 ≤ m → m ≤ j + 1 → Function.update right (j + 1) (kn knots (k + (j + 1)) - x) m = kn knots (k + m) - x := by
    intro m h1 h2
    rcases Nat.lt_or_ge m (j + 1) with h | h
    · rw [Function.update_of_ne (by omega), hright m h1 h]
    · obtain rfl : m = j + 1 := by omega
      simp
  rw [forLt_eq_forUp _ _ (j + 1) (by omega)]
  have key := forUp_eq (BSplineBasis.evalInner (tab (p + 1) (Function.update left (j + 1) (x - kn knots (k + 1 - (j + 1)))))
      (tab (p + 1) (Function.update right (j + 1) (kn knots (k + (j + 1)) - x))) ((j + 1 : ℕ) : Int))
    (fun n => (tab (p + 1) fun r => if r < n then nextG knots k x (lvG knots k x j) (j + 1) r else lvG knots k x j r,
      savG knots k x (lvG knots k x j) (j + 1) n)) (j + 1) 0 (by
      intro n hn
      unfold BSplineBasis.evalInner
      simp only [zero_add]
      rw [vget_tab _ _ _ n rfl (by omega)]
      simp only [bind_ok]
      rw [vget_tab _ _ _ (n + 1) (by push_cast; ring) (by omega)]
      simp only [bind_ok]
      rw [vget_tab _ _ _ (j + 1 - n) (by omega) (by omega)]
      simp only [bind_ok]
      rw [hL _ (by omega) (by omega), hR _ (by omega) (by omega), if_neg (lt_irrefl n), fdiv_ok (show kn knots (k + (n + 1)) - x + (x - kn knots (k + 1 - (j + 1 - n))) ≠ 0 from hd (j + 1) (by omega) hjp n hn)]
      simp only [bind_ok]
      rw [vset_tab' (p + 1) _ (fun r => if r < n + 1 then nextG knots k x (lvG knots k x j) (j + 1) r else lvG knots k x j r)
        _ n _ rfl (by omega) (by
          intro r hr
          by_cases h : r = n
          · subst h
            rw [if_pos rfl, if_pos (by omega)]
            unfold nextG
            rw [if_pos hn]
            rfl
          · rw [if_neg h]
            by_cases h2 : r < n
            · rw [if_pos h2, if_pos (by omega)]
            · rw [if_neg h2, if_neg (by omega)])]
      rfl)
  have h0 : (fun r => if r < 0 then nextG knots k x (lvG knots k x j) (j + 1) r else lvG knots k x j r) = lvG knots k x j := by
    funext r; simp
  rw [h0] at key
  rw [show ((0 : K)) = savG knots k x (lvG knots k x j) (j + 1) 0 from rfl, key]
  simp only [bind_ok]
  rw [vset_tab' (p + 1) _ (lvG knots k x (j + 1)) _ (j + 1) _ rfl (by omega) (by
    intro r hr
    by_cases h : r = j + 1
    · subst h
      rw [if_pos rfl]
      show nextG knots k x (lvG knots k x j) (j + 1) (j + 1) = _
      unfold nextG
      rw [if_neg (lt_irrefl _), if_pos rfl]
    · rw [if_neg h]
      by_cases h2 : r < j + 1
      · rw [if_pos h2]
        rfl
      · rw [if_neg h2]
        rw [lvG_gt j r (by omega)]
        show nextG knots k x (lvG knots k x j) (j + 1) r = _
        unfold nextG
        rw [if_neg h2, if_neg h])]
  rfl

/-- `BSplineBasis::Evaluate` in any arithmetic. -/
theorem evaluateAt_any (hp : p ≤ k) (hl : k + p < knots.length) (hd : DenOK knots k x p) :
    BSplineBasis.EvaluateAt p knots k x = .ok (tab (p + 1) (lvG knots k x p)) := by
  unfold BSplineBasis.EvaluateAt
  rw [vnew_of _ (p + 1) _ (by push_cast; ring), replicate_eq_tab]
  simp only [bind_ok]
  rw [vset_tab' (p + 1) _ (lvG knots k x 0) _ 0 1 (by simp) (by omega) (by intro r _; unfold lvG; rfl)]
  simp only [bind_ok]
  rw [forLe_eq_forUp _ _ p (by omega)]
  obtain ⟨s, hse, left, right, rfl, _, _⟩ := forUp_inv (BSplineBasis.evalOuter knots k x)
    (fun n s => ∃ left right : ℕ → K, s = (tab (p + 1) (lvG knots k x n), tab (p + 1) left, tab (p + 1) right) ∧
      (∀ m, 1 ≤ m → m < n + 1 → left m = x - kn knots (k + 1 - m)) ∧
      (∀ m, 1 ≤ m → m < n + 1 → right m = kn knots (k + m) - x)) p 1
    (tab (p + 1) (lvG knots k x 0), tab (p + 1) fun _ => 0, tab (p + 1) fun _ => 0)
    ⟨_, _, rfl, fun m h1 h2 => by omega, fun m h1 h2 => by omega⟩ (by
      rintro n hn s ⟨left, right, rfl, hleft, hright⟩
      refine ⟨_, ?_, Function.update left (n + 1) (x - kn knots (k + 1 - (n + 1))),
        Function.update right (n + 1) (kn knots (k + (n + 1)) - x), rfl, ?_, ?_⟩
      · rw [show ((1 : Int) + n) = ((n + 1 : ℕ) : Int) by push_cast; ring]
        exact evalOuter_any hp hl hd n (by omega) left right hleft hright
      · intro m h1 h2
        by_cases hm : m = n + 1
        · subst hm; simp
        · rw [Function.update_of_ne hm, hleft m h1 (by omega)]
      · intro m h1 h2
        by_cases hm : m = n + 1
        · subst hm; simp
        · rw [Function.update_of_ne hm, hright m h1 (by omega)])
  rw [hse]
  rfl

/-- The `ndu` table up to level `n`. -/
def NduG (knots : List K) (k : ℕ) (x : K) (n : ℕ) (nd : ℕ → ℕ → K) : Prop :=
  (∀ j ≤ n, ∀ r ≤ j, nd r j = lvG knots k x j r) ∧ (∀ j ≤ n, ∀ r < j, nd j r = denG knots k x j r)

theorem nduOuter_any (hp : p ≤ k) (hl : k + p < knots.length) (hd : DenOK knots k x p) (j : ℕ) (hjp : j + 1 ≤ p) (nd : ℕ → ℕ → K)
    (hnd : NduG knots k x j nd)
    (left right : ℕ → K) (hleft : ∀ m, 1 ≤ m → m < j + 1 → left m = x - kn knots (k + 1 - m))
    (hright : ∀ m, 1 ≤ m → m < j + 1 → right m = kn knots (k + m) - x) :
    ∃ nd' : ℕ → ℕ → K, BSplineBasis.nduOuter knots k x ((j + 1 : ℕ) : Int)
        (tab (p + 1) fun i => tab (p + 1) (nd i), tab (p + 1) left, tab (p + 1) right) =
      .ok (tab (p + 1) fun i => tab (p + 1) (nd' i), tab (p + 1) (Function.update left (j + 1) (x - kn knots (k + 1 - (j + 1)))),
        tab (p + 1) (Function.update right (j + 1) (kn knots (k + (j + 1)) - x))) ∧ NduG knots k x (j + 1) nd' := by
  unfold BSplineBasis.nduOuter
  simp only
  rw [vget_kn knots _ (k + 1 - (j + 1)) (by omega) (by omega)]
  simp only [bind_ok]
  rw [vset_tab _ _ _ (j + 1) _ rfl (by omega)]
  simp only [bind_ok]
  rw [vget_kn knots _ (k + (j + 1)) (by omega) (by omega)]
  simp only [bind_ok]
  rw [vset_tab _ _ _ (j + 1) _ rfl (by omega)]
  simp only [bind_ok]
  have hL : ∀ m, 1 ≤ m → m ≤ j + 1 → Function.update left (j + 1) (x - kn knots (k + 1 - (j + 1))) m = x - kn knots (k + 1 - m) := by
    intro m h1 h2
    rcases Nat.lt_or_ge m (j + 1) with h | h
    · rw [Function.update_of_ne (by omega), hleft m h1 h]
    · obtain rfl : m = j + 1 := by omega
      simp
  have hR : ∀ m, 1 ≤ m → m ≤ j + 1 → Function.update right (j + 1) (kn knots (k + (j + 1)) - x) m = kn knots (k + m) - x := by
    intro m h1 h2
    rcases Nat.lt_or_ge m (j + 1) with h | h
    · rw [Function.update_of_ne (by omega), hright m h1 h]
    · obtain rfl : m = j + 1 := by omega
      simp
  rw [forLt_eq_forUp _ _ (j + 1) (by omega)]
  obtain ⟨s, hs, nd1, rfl, h1, h2, h3⟩ := forUp_inv (BSplineBasis.nduInner (tab (p + 1) (Function.update left (j + 1) (x - kn knots (k + 1 - (j + 1)))))
      (tab (p + 1) (Function.update right (j + 1) (kn knots (k + (j + 1)) - x))) ((j + 1 : ℕ) : Int))
    (fun n s => ∃ nd' : ℕ → ℕ → K, s = (tab (p + 1) fun i => tab (p + 1) (nd' i), savG knots k x (lvG knots k x j) (j + 1) n) ∧
      NduG knots k x j nd' ∧
      (∀ r < n, nd' r (j + 1) = lvG knots k x (j + 1) r) ∧ (∀ r < n, nd' (j + 1) r = denG knots k x (j + 1) r)) (j + 1) 0
    (tab (p + 1) fun i => tab (p + 1) (nd i), 0)
    ⟨nd, rfl, hnd, fun r h => by omega, fun r h => by omega⟩ (by
      rintro n hn _ ⟨nd', rfl, h1, h2, h3⟩
      unfold BSplineBasis.nduInner
      simp only [zero_add]
      rw [vget_tab _ _ _ (n + 1) (by push_cast; ring) (by omega)]
      simp only [bind_ok]
      rw [vget_tab _ _ _ (j + 1 - n) (by omega) (by omega)]
      simp only [bind_ok]
      rw [hL _ (by omega) (by omega), hR _ (by omega) (by omega)]
      rw [mset_tab0 _ _ _ _ _ (j + 1) n _ rfl rfl (by omega) (by omega)]
      simp only [bind_ok]
      rw [mget_tab _ _ _ _ _ n j rfl (by push_cast; ring) (by omega) (by omega)]
      simp only [bind_ok]
      rw [mget_tab _ _ _ _ _ (j + 1) n rfl rfl (by omega) (by omega)]
      simp only [bind_ok, and_self, if_true]
      rw [if_neg (by omega), fdiv_ok (show kn knots (k + (n + 1)) - x + (x - kn knots (k + 1 - (j + 1 - n))) ≠ 0 from hd (j + 1) (by omega) hjp n hn)]
      simp only [bind_ok]
      rw [mset_tab0 _ _ _ _ _ n (j + 1) _ rfl rfl (by omega) (by omega)]
      simp only [bind_ok, pure_ok]
      have hprev : nd' n j = lvG knots k x j n := h1.1 j (le_refl _) n (by omega)
      rw [hprev]
      refine ⟨_, rfl, _, rfl, ⟨?_, ?_⟩, ?_, ?_⟩
      · intro j' hj' r hr'
        simp only
        rw [if_neg (by omega), if_neg (by omega)]
        exact h1.1 j' hj' r hr'
      · intro j' hj' r hr'
        simp only
        rw [if_neg (by omega), if_neg (by omega)]
        exact h1.2 j' hj' r hr'
      · intro r hr'
        simp only
        by_cases h : r = n
        · subst h
          rw [if_pos (by simp)]
          show _ = nextG knots k x (lvG knots k x j) (j + 1) r
          unfold nextG
          rw [if_pos hn]
          rfl
        · rw [if_neg (by omega), if_neg (by omega)]
          exact h2 r (by omega)
      · intro r hr'
        simp only
        rw [if_neg (by omega)]
        by_cases h : r = n
        · subst h
          rw [if_pos (by simp)]
          rfl
        · rw [if_neg (by omega)]
          exact h3 r (by omega))
  rw [hs]
  simp only [bind_ok]
  rw [mset_tab0 _ _ _ _ _ (j + 1) (j + 1) _ rfl rfl (by omega) (by omega)]
  simp only [bind_ok, pure_ok]
  refine ⟨_, rfl, ?_, ?_⟩
  · intro j' hj' r hr'
    simp only
    by_cases hjj : j' = j + 1
    · subst hjj
      by_cases h : r = j + 1
      · subst h
        rw [if_pos ⟨rfl, rfl⟩]
        show _ = nextG knots k x (lvG knots k x j) (j + 1) (j + 1)
        unfold nextG
        rw [if_neg (lt_irrefl _), if_pos rfl]
      · rw [if_neg (by omega)]
        exact h2 r (by omega)
    · rw [if_neg (by omega)]
      exact h1.1 j' (by omega) r hr'
  · intro j' hj' r hr'
    simp only
    rw [if_neg (by omega)]
    by_cases hjj : j' = j + 1
    · subst hjj
      exact h3 r hr'
    · exact h1.2 j' (by omega) r hr'

/-- The denominator of entry `t` of the coefficients of order `m`. -/
def cdG (knots : List K) (k p : ℕ) (x : K) (r m t : ℕ) : K := denG knots k x (p + 1 - m) (r + t - m)

/-- The basis function that entry `t` of the coefficients of order `m` multiplies. -/
def cvG (knots : List K) (k p : ℕ) (x : K) (r m t : ℕ) : K := lvG knots k x (p - m) (r + t - m)

/-- The coefficients of order `m`. -/
def acG (knots : List K) (k p : ℕ) (x : K) (r : ℕ) : ℕ → ℕ → K
  | 0, j => if j = 0 then 1 else 0
  | m + 1, j => if j = 0 then acG knots k p x r m 0 / cdG knots k p x r (m + 1) 0
      else if j = m + 1 then -acG knots k p x r m m / cdG knots k p x r (m + 1) (m + 1)
      else (acG knots k p x r m j - acG knots k p x r m (j - 1)) / cdG knots k p x r (m + 1) j

/-- The sum of the middle terms. -/
def midG (knots : List K) (k p : ℕ) (x : K) (r m : ℕ) : ℕ → K
  | 0 => if m ≤ r then acG knots k p x r m 0 * cvG knots k p x r m 0 else 0
  | n + 1 => midG knots k p x r m n + acG knots k p x r m (max 1 (m - r) + n) * cvG knots k p x r m (max 1 (m - r) + n)

/-- The derivative of order `m` before scaling. -/
def derG (knots : List K) (k p : ℕ) (x : K) (r m : ℕ) : K :=
  if m ≤ p then
    if r + m ≤ p then midG knots k p x r m (min m (p + 1 - r) - max 1 (m - r)) + acG knots k p x r m m * cvG knots k p x r m m
    else midG knots k p x r m (min m (p + 1 - r) - max 1 (m - r))
  else 0

/-- Row `a` of the work table holds the coefficients of order `m`. -/
def ARowG (knots : List K) (k p : ℕ) (x : K) (r m a : ℕ) (af : ℕ → ℕ → K) : Prop :=
  ∀ j, m ≤ r + j → j ≤ m → r + j ≤ p → af a j = acG knots k p x r m j

theorem derOrder_any {nd : ℕ → ℕ → K} (hd : DenOK knots k x p) (hnd : NduG knots k x p nd)
    {r m order : ℕ} (hr : r ≤ p) (hm : 1 ≤ m) (hmo : m ≤ order) (res af : ℕ → ℕ → K) {a b : ℕ} (ha : a < 2) (hb : b < 2) (hab : a ≠ b)
    (haf : ARowG knots k p x r (m - 1) a af) :
    ∃ af' : ℕ → ℕ → K, BSplineBasis.derOrder p (tab (p + 1) fun i => tab (p + 1) (nd i)) r m
        (tab (order + 1) fun i => tab (p + 1) (res i), tab 2 fun i => tab (p + 1) (af i), (a : Int), (b : Int)) =
      .ok (tab (order + 1) fun i => tab (p + 1) ((fun m' r' => if m' = m ∧ r' = r then derG knots k p x r m else res m' r') i),
        tab 2 fun i => tab (p + 1) (af' i), (b : Int), (a : Int)) ∧ ARowG knots k p x r m b af' := by
  unfold BSplineBasis.derOrder
  simp only
  by_cases hmp : m ≤ p
  swap
  · unfold BSplineBasis.derFirst BSplineBasis.derLast
    simp only
    rw [if_neg (by omega)]
    simp only [bind_ok, pure_ok]
    rw [forLe_eq_forUp _ _ 0 (by split_ifs <;> omega)]
    simp only [forUp, pure_ok, bind_ok]
    rw [if_neg (by omega)]
    rw [bind_ok, mset_tab0 _ _ _ _ _ m r _ rfl rfl (by omega) (by omega)]
    simp only [bind_ok]
    refine ⟨af, ?_, fun j h1 h2 h3 => by omega⟩
    rw [show derG knots k p x r m = 0 by unfold derG; rw [if_neg hmp]]
  obtain ⟨m, rfl⟩ : ∃ m', m = m' + 1 := ⟨m - 1, by omega⟩
  simp only [Nat.add_sub_cancel] at haf
  have hden : ∀ t, m + 1 ≤ r + t → r + t ≤ p → nd (p - m) (r + t - (m + 1)) = cdG knots k p x r (m + 1) t ∧
      cdG knots k p x r (m + 1) t ≠ 0 := by
    intro t h1 h2
    unfold cdG
    rw [show p + 1 - (m + 1) = p - m by omega]
    exact ⟨hnd.2 (p - m) (by omega) _ (by omega), hd _ (by omega) (by omega) _ (by omega)⟩
  have hval : ∀ t, m + 1 ≤ r + t → r + t ≤ p → nd (r + t - (m + 1)) (p - (m + 1)) = cvG knots k p x r (m + 1) t := by
    intro t h1 h2
    exact hnd.1 (p - (m + 1)) (by omega) _ (by omega)
  obtain ⟨J1, hJ1⟩ : ∃ J : ℕ, J = max 1 (m + 1 - r) := ⟨_, rfl⟩
  obtain ⟨n0, hn0⟩ : ∃ n : ℕ, n = min (m + 1) (p + 1 - r) - J1 := ⟨_, rfl⟩
  -- part 1
  have part1 : ∃ af1 : ℕ → ℕ → K, BSplineBasis.derFirst (tab (p + 1) fun i => tab (p + 1) (nd i)) (a : Int) (b : Int) (r : Int) ((m + 1 : ℕ) : Int)
      ((p : Int) - ((m + 1 : ℕ) : Int)) ((r : Int) - ((m + 1 : ℕ) : Int)) (tab 2 fun i => tab (p + 1) (af i), 0) =
        .ok (tab 2 fun i => tab (p + 1) (af1 i), midG knots k p x r (m + 1) 0) ∧ (∀ j, af1 a j = af a j) ∧
      (∀ j < J1, m + 1 ≤ r + j → af1 b j = acG knots k p x r (m + 1) j) := by
    unfold BSplineBasis.derFirst midG
    simp only
    by_cases h : m + 1 ≤ r
    · rw [if_pos (by omega), if_pos h]
      rw [mget_tab _ _ _ _ _ a 0 rfl (by simp) ha (by omega)]
      simp only [bind_ok]
      rw [mget_tab _ _ _ _ _ (p - m) (r + 0 - (m + 1)) (by omega) (by omega) (by omega) (by omega)]
      simp only [bind_ok]
      obtain ⟨e, hne⟩ := hden 0 (by omega) (by omega)
      rw [e, fdiv_ok hne]
      simp only [bind_ok]
      rw [mset_tab0 _ _ _ _ _ b 0 _ rfl (by simp) hb (by omega)]
      simp only [bind_ok]
      rw [mget_tab _ _ _ _ _ b 0 rfl (by simp) hb (by omega)]
      simp only [bind_ok]
      rw [mget_tab _ _ _ _ _ (r + 0 - (m + 1)) (p - (m + 1)) (by omega) (by omega) (by omega) (by omega)]
      simp only [bind_ok, and_self, if_true, pure_ok]
      have hc : af a 0 / cdG knots k p x r (m + 1) 0 = acG knots k p x r (m + 1) 0 := by
        rw [haf 0 (by omega) (by omega) (by omega)]; rfl
      refine ⟨fun i_1 l => if i_1 = b ∧ l = 0 then acG knots k p x r (m + 1) 0 else af i_1 l, ?_, fun j => ?_, ?_⟩
      · rw [hval 0 (by omega) (by omega), hc]
      · simp only; rw [if_neg (by omega)]
      · intro j hj _
        obtain rfl : j = 0 := by omega
        simp only [and_self, if_true]
    · rw [if_neg (by omega), if_neg h]
      exact ⟨af, rfl, fun _ => rfl, fun j hj h' => by omega⟩
  obtain ⟨af1, e1, ha1, hb1⟩ := part1
  rw [e1]
  simp only [bind_ok]
  have hj1 : (if (r : Int) - ((m + 1 : ℕ) : Int) ≥ -1 then (1 : Int) else -((r : Int) - ((m + 1 : ℕ) : Int))) = (J1 : Int) := by
    split_ifs <;> omega
  rw [hj1, forLe_eq_forUp _ _ n0 (by split_ifs <;> omega)]
  obtain ⟨s, hs, af2, rfl, ha2, hb2⟩ := forUp_inv (BSplineBasis.derInner (tab (p + 1) fun i => tab (p + 1) (nd i)) (a : Int) (b : Int)
      ((p : Int) - ((m + 1 : ℕ) : Int)) ((r : Int) - ((m + 1 : ℕ) : Int)))
    (fun n s => ∃ af2 : ℕ → ℕ → K, s = (tab 2 fun i => tab (p + 1) (af2 i), midG knots k p x r (m + 1) n) ∧
      (∀ j, af2 a j = af a j) ∧ (∀ j < J1 + n, m + 1 ≤ r + j → af2 b j = acG knots k p x r (m + 1) j)) n0 J1
    (tab 2 fun i => tab (p + 1) (af1 i), midG knots k p x r (m + 1) 0) ⟨af1, rfl, ha1, by simpa using hb1⟩ (by
      rintro n hn _ ⟨af2, rfl, ha2, hb2⟩
      unfold BSplineBasis.derInner
      simp only
      rw [mget_tab _ _ _ _ _ a (J1 + n) rfl (by push_cast; ring) ha (by omega)]
      simp only [bind_ok]
      rw [mget_tab _ _ _ _ _ a (J1 + n - 1) rfl (by omega) ha (by omega)]
      simp only [bind_ok]
      rw [mget_tab _ _ _ _ _ (p - m) (r + (J1 + n) - (m + 1)) (by omega) (by omega) (by omega) (by omega)]
      simp only [bind_ok]
      obtain ⟨e, hne⟩ := hden (J1 + n) (by omega) (by omega)
      rw [e, fdiv_ok hne]
      simp only [bind_ok]
      rw [mset_tab0 _ _ _ _ _ b (J1 + n) _ rfl (by push_cast; ring) hb (by omega)]
      simp only [bind_ok]
      rw [mget_tab _ _ _ _ _ b (J1 + n) rfl (by push_cast; ring) hb (by omega)]
      simp only [bind_ok]
      rw [mget_tab _ _ _ _ _ (r + (J1 + n) - (m + 1)) (p - (m + 1)) (by omega) (by omega) (by omega) (by omega)]
      simp only [bind_ok, and_self, if_true, pure_ok]
      have hc : (af2 a (J1 + n) - af2 a (J1 + n - 1)) / cdG knots k p x r (m + 1) (J1 + n) = acG knots k p x r (m + 1) (J1 + n) := by
        rw [ha2, ha2, haf (J1 + n) (by omega) (by omega) (by omega), haf (J1 + n - 1) (by omega) (by omega) (by omega)]
        simp only [acG]
        rw [if_neg (by omega), if_neg (by omega)]
      rw [hc, hval (J1 + n) (by omega) (by omega)]
      refine ⟨_, rfl, fun i_1 l => if i_1 = b ∧ l = J1 + n then acG knots k p x r (m + 1) (J1 + n) else af2 i_1 l, ?_, ?_, ?_⟩
      · simp only [midG, ← hJ1]
      · intro j; simp only; rw [if_neg (by omega)]; exact ha2 j
      · intro j hj hjm
        simp only
        by_cases h : j = J1 + n
        · subst h; rw [if_pos (by simp)]
        · rw [if_neg (by omega)]; exact hb2 j (by omega) hjm)
  rw [hs]
  simp only [bind_ok]
  unfold BSplineBasis.derLast derG
  simp only
  rw [if_pos hmp, ← hJ1, ← hn0]
  by_cases h : r + (m + 1) ≤ p
  · rw [if_pos (by omega), if_pos h]
    rw [mget_tab _ _ _ _ _ a m rfl (by omega) ha (by omega)]
    simp only [bind_ok]
    rw [mget_tab _ _ _ _ _ (p - m) (r + (m + 1) - (m + 1)) (by omega) (by omega) (by omega) (by omega)]
    simp only [bind_ok]
    obtain ⟨e, hne⟩ := hden (m + 1) (by omega) (by omega)
    rw [e, fdiv_ok hne]
    simp only [bind_ok]
    rw [mset_tab0 _ _ _ _ _ b (m + 1) _ rfl rfl hb (by omega)]
    simp only [bind_ok]
    rw [mget_tab _ _ _ _ _ b (m + 1) rfl rfl hb (by omega)]
    simp only [bind_ok]
    rw [mget_tab _ _ _ _ _ (r + (m + 1) - (m + 1)) (p - (m + 1)) (by omega) (by omega) (by omega) (by omega)]
    simp only [bind_ok, and_self, if_true, pure_ok]
    have hc : -af2 a m / cdG knots k p x r (m + 1) (m + 1) = acG knots k p x r (m + 1) (m + 1) := by
      rw [ha2, haf m (by omega) (by omega) (by omega)]
      simp only [acG]
      rw [if_neg (by omega), if_true]
    rw [hc, hval (m + 1) (by omega) (by omega)]
    rw [mset_tab0 _ _ _ _ _ (m + 1) r _ rfl rfl (by omega) (by omega)]
    simp only [bind_ok]
    refine ⟨fun i_1 l => if i_1 = b ∧ l = m + 1 then acG knots k p x r (m + 1) (m + 1) else af2 i_1 l, rfl, ?_⟩
    intro j h1 h2 h3
    simp only
    by_cases hj : j = m + 1
    · subst hj; rw [if_pos (by simp)]
    · rw [if_neg (by omega)]; exact hb2 j (by omega) h1
  · rw [if_neg (by omega), if_neg h]
    simp only [bind_ok, pure_ok]
    rw [mset_tab0 _ _ _ _ _ (m + 1) r _ rfl rfl (by omega) (by omega)]
    simp only [bind_ok]
    exact ⟨af2, rfl, fun j h1 h2 h3 => hb2 j (by omega) h1⟩

theorem derFunction_any {nd : ℕ → ℕ → K} (hd : DenOK knots k x p) (hnd : NduG knots k x p nd)
    {r : ℕ} (order : ℕ) (hr : r ≤ p) (res af : ℕ → ℕ → K) :
    ∃ af' : ℕ → ℕ → K, BSplineBasis.derFunction p order (tab (p + 1) fun i => tab (p + 1) (nd i)) r
        (tab (order + 1) fun i => tab (p + 1) (res i), tab 2 fun i => tab (p + 1) (af i)) =
      .ok (tab (order + 1) fun i => tab (p + 1) ((fun m r' => if 1 ≤ m ∧ r' = r then derG knots k p x r m else res m r') i),
        tab 2 fun i => tab (p + 1) (af' i)) := by
  unfold BSplineBasis.derFunction
  simp only
  rw [mset_tab0 _ _ _ _ _ 0 0 _ (by simp) (by simp) (by omega) (by omega)]
  simp only [bind_ok]
  rw [forLe_eq_forUp _ _ order (by omega)]
  obtain ⟨s, hs, af', a, b, ha, hb, hab, rfl, hA⟩ := forUp_inv (BSplineBasis.derOrder p (tab (p + 1) fun i => tab (p + 1) (nd i)) r)
    (fun n s => ∃ (af' : ℕ → ℕ → K) (a b : ℕ), a < 2 ∧ b < 2 ∧ a ≠ b ∧ s = (tab (order + 1) fun i => tab (p + 1)
        ((fun m r' => if (1 ≤ m ∧ m ≤ n) ∧ r' = r then derG knots k p x r m else res m r') i),
        tab 2 fun i => tab (p + 1) (af' i), ((a : ℕ) : Int), ((b : ℕ) : Int)) ∧ ARowG knots k p x r n a af') order 1
    (tab (order + 1) fun i => tab (p + 1) (res i), tab 2 fun i => tab (p + 1) ((fun k l => if k = 0 ∧ l = 0 then 1 else af k l) i), 0, 1)
    ⟨fun k l => if k = 0 ∧ l = 0 then 1 else af k l, 0, 1, by omega, by omega, by omega, by
      congr 1
      refine tab_congr fun m _ => tab_congr fun r' _ => ?_
      simp only
      rw [if_neg (by omega)], by
      intro j h1 h2 h3
      obtain rfl : j = 0 := by omega
      simp [acG]⟩ (by
      rintro n hn _ ⟨af1, a, b, ha, hb, hab, rfl, hA⟩
      obtain ⟨af2, e, hA2⟩ := derOrder_any hd hnd hr (m := n + 1) (order := order) (by omega) (by omega)
        (fun m r' => if (1 ≤ m ∧ m ≤ n) ∧ r' = r then derG knots k p x r m else res m r') af1 ha hb hab hA
      rw [show (1 : Int) + (n : ℕ) = ((n + 1 : ℕ) : Int) by push_cast; ring, e]
      refine ⟨_, rfl, af2, b, a, hb, ha, hab.symm, ?_, hA2⟩
      congr 1
      refine tab_congr fun m _ => tab_congr fun r' _ => ?_
      simp only
      by_cases h : m = n + 1 ∧ r' = r
      · rw [if_pos h, if_pos (by omega), h.1]
      · rw [if_neg h]
        by_cases h2 : (1 ≤ m ∧ m ≤ n) ∧ r' = r
        · rw [if_pos h2, if_pos (by omega)]
        · rw [if_neg h2, if_neg (by omega)])
  rw [hs]
  simp only [bind_ok, pure_ok]
  refine ⟨af', ?_⟩
  congr 2
  refine tab_congr fun m hm => tab_congr fun r' _ => ?_
  by_cases h : 1 ≤ m ∧ r' = r
  · rw [if_pos (by omega), if_pos h]
  · rw [if_neg (by omega), if_neg h]

/-- The factor that the derivative of order `m` is multiplied with. -/
def facG (K : Type) [Zero K] [One K] [Add K] [Sub K] [Mul K] [Div K] [Neg K] [NatCast K] [IntCast K] (p : ℕ) : ℕ → K
  | 0 => 1
  | 1 => (((p : ℕ) : Int) : K)
  | m + 2 => facG K p (m + 1) * (((p : Int) - ((m + 1 : ℕ) : Int) : Int) : K)

/-- Entry `r` of the derivative of order `m`. -/
def basisG (knots : List K) (k p : ℕ) (x : K) (m r : ℕ) : K :=
  if m = 0 then lvG knots k x p r else derG knots k p x r m * facG K p m

/-- `BSplineBasis::EvaluateAll` in any arithmetic. -/
theorem evaluateAllAt_any (hp : p ≤ k) (hl : k + p < knots.length) (hd : DenOK knots k x p) (order : ℕ) :
    BSplineBasis.EvaluateAllAt p knots k x order = .ok (tab (order + 1) fun m => tab (p + 1) (basisG knots k p x m)) := by
  unfold BSplineBasis.EvaluateAllAt
  rw [vnew_of _ (p + 1) _ (by push_cast; ring), replicate_eq_tab]
  simp only [bind_ok]
  rw [vnew_of _ (p + 1) _ (by push_cast; ring), replicate_eq_tab]
  simp only [bind_ok]
  rw [mset_tab0 (p + 1) (p + 1) (fun _ _ => 0) 0 0 0 0 _ (by simp) (by simp) (by omega) (by omega)]
  simp only [bind_ok]
  rw [forLe_eq_forUp _ _ p (by omega)]
  obtain ⟨s, hs, nd, left, right, rfl, hnd, -, -⟩ := forUp_inv (BSplineBasis.nduOuter knots k x)
    (fun n s => ∃ (nd : ℕ → ℕ → K) (left right : ℕ → K), s = (tab (p + 1) fun i => tab (p + 1) (nd i), tab (p + 1) left, tab (p + 1) right) ∧
      NduG knots k x n nd ∧
      (∀ m, 1 ≤ m → m < n + 1 → left m = x - kn knots (k + 1 - m)) ∧
      (∀ m, 1 ≤ m → m < n + 1 → right m = kn knots (k + m) - x)) p 1
    (tab (p + 1) fun i => tab (p + 1) ((fun k l => if k = 0 ∧ l = 0 then (1 : K) else 0) i), tab (p + 1) fun _ => 0, tab (p + 1) fun _ => 0)
    ⟨_, _, _, rfl, ⟨by
        intro j hj r hr
        obtain rfl : j = 0 := by omega
        obtain rfl : r = 0 := by omega
        rfl, by intro j hj r hr; omega⟩, fun m h1 h2 => by omega, fun m h1 h2 => by omega⟩ (by
      rintro n hn _ ⟨nd, left, right, rfl, hnd, hleft, hright⟩
      obtain ⟨nd', e, hnd'⟩ := nduOuter_any (x := x) hp hl hd n (by omega) nd hnd left right hleft hright
      rw [show ((1 : Int) + n) = ((n + 1 : ℕ) : Int) by push_cast; ring, e]
      refine ⟨_, rfl, nd', _, _, rfl, hnd', ?_, ?_⟩
      · intro m h1 h2
        by_cases hm : m = n + 1
        · subst hm; simp
        · rw [Function.update_of_ne hm, hleft m h1 (by omega)]
      · intro m h1 h2
        by_cases hm : m = n + 1
        · subst hm; simp
        · rw [Function.update_of_ne hm, hright m h1 (by omega)])
  rw [hs]
  simp only [bind_ok]
  rw [vnew_of _ (order + 1) _ (by push_cast; ring), replicate_eq_tab]
  simp only [bind_ok]
  have hcol : mapMList (fun row => vget row (p : Int)) (tab (p + 1) fun i => tab (p + 1) (nd i)) =
      .ok (tab (p + 1) (lvG knots k x p)) := by
    rw [mapMList_ok _ (fun row => row.getD p 0)]
    · congr 1
      unfold tab
      rw [List.map_map]
      apply List.map_congr_left
      intro i hi
      have hi' := List.mem_range.mp hi
      have := tab_getElem? (p + 1) (nd i) p (by omega)
      unfold tab at this
      simp only [Function.comp, List.getD_eq_getElem?_getD, this, Option.getD_some]
      rw [hnd.1 p (le_refl _) i (by omega)]
    · intro row hrow
      unfold tab at hrow
      obtain ⟨i, hi, rfl⟩ := List.mem_map.mp hrow
      change vget (tab (p + 1) (nd i)) _ = .ok ((tab (p + 1) (nd i)).getD p 0)
      rw [vget_tab _ _ _ p rfl (by omega)]
      simp only [List.getD_eq_getElem?_getD, tab_getElem? (p + 1) (nd i) p (by omega), Option.getD_some]
  rw [hcol]
  simp only [bind_ok]
  rw [vset_tab' (order + 1) _ (fun m => tab (p + 1) ((fun m r => if m = 0 then lvG knots k x p r else 0) m)) _ 0 _ (by simp) (by omega) (by
    intro m _
    by_cases h : m = 0
    · simp [h]
    · simp only [h, if_false])]
  simp only [bind_ok]
  rw [vnew_of 2 2 _ (by simp), replicate_eq_tab]
  simp only [bind_ok]
  rw [forLe_eq_forUp _ _ (p + 1) (by omega)]
  obtain ⟨s, hs, af, rfl⟩ := forUp_inv (BSplineBasis.derFunction p order (tab (p + 1) fun i => tab (p + 1) (nd i)))
    (fun n s => ∃ af : ℕ → ℕ → K, s = (tab (order + 1) fun i => tab (p + 1)
        ((fun m r => if m = 0 then lvG knots k x p r else if r < n then derG knots k p x r m else 0) i),
        tab 2 fun i => tab (p + 1) (af i))) (p + 1) 0
    (tab (order + 1) fun m => tab (p + 1) ((fun m r => if m = 0 then lvG knots k x p r else 0) m), tab 2 fun _ => tab (p + 1) fun _ => 0)
    ⟨fun _ _ => 0, by simp⟩ (by
      rintro n hn _ ⟨af, rfl⟩
      obtain ⟨af', e⟩ := derFunction_any hd hnd (r := n) order (by omega)
        (fun m r => if m = 0 then lvG knots k x p r else if r < n then derG knots k p x r m else 0) af
      rw [zero_add, e]
      refine ⟨_, rfl, af', ?_⟩
      congr 1
      refine tab_congr fun m _ => tab_congr fun r _ => ?_
      simp only
      by_cases h0 : m = 0
      · rw [if_neg (by omega), if_pos h0, if_pos h0]
      · rw [if_neg h0, if_neg h0]
        by_cases h : r = n
        · rw [if_pos (by omega), if_pos (by omega), h]
        · rw [if_neg (by omega)]
          by_cases h2 : r < n
          · rw [if_pos h2, if_pos (by omega)]
          · rw [if_neg h2, if_neg (by omega)])
  rw [hs]
  simp only [bind_ok]
  rw [forLe_eq_forUp _ _ order (by omega)]
  have hsc := forUp_eq (BSplineBasis.derScale (K := K) (p : Int))
    (fun n => (tab (order + 1) fun i => tab (p + 1) ((fun m r => if m = 0 then lvG knots k x p r else
        if m ≤ n then derG knots k p x r m * facG K p m else derG knots k p x r m) i), facG K p (n + 1))) order 1 (by
      intro n hn
      unfold BSplineBasis.derScale
      simp only
      rw [vget_tab _ _ _ (n + 1) (by push_cast; ring) (by omega)]
      simp only [bind_ok]
      rw [vset_tab' (order + 1) _ (fun i => tab (p + 1) ((fun m r => if m = 0 then lvG knots k x p r else
          if m ≤ n + 1 then derG knots k p x r m * facG K p m else derG knots k p x r m) i)) _ (n + 1) _
        (by push_cast; ring) (by omega) (by
          intro m hm
          by_cases h : m = n + 1
          · subst h
            rw [if_pos rfl]
            unfold tab
            rw [List.map_map]
            apply List.map_congr_left
            intro r _
            simp only [Function.comp]
            rw [if_neg (by omega), if_pos (le_refl _), if_neg (by omega), if_neg (by omega)]
          · rw [if_neg h]
            refine tab_congr fun r _ => ?_
            simp only
            by_cases h0 : m = 0
            · rw [if_pos h0, if_pos h0]
            · rw [if_neg h0, if_neg h0]
              by_cases h2 : m ≤ n
              · rw [if_pos h2, if_pos (by omega)]
              · rw [if_neg h2, if_neg (by omega)])]
      simp only [bind_ok, pure_ok]
      rw [show ((1 : Int) + n) = ((n + 1 : ℕ) : Int) by push_cast; ring]
      rfl)
  have e0 : (tab (order + 1) fun i => tab (p + 1) ((fun m r => if m = 0 then lvG knots k x p r else
      if r < p + 1 then derG knots k p x r m else 0) i)) = tab (order + 1) fun i => tab (p + 1) ((fun m r => if m = 0 then lvG knots k x p r else
        if m ≤ 0 then derG knots k p x r m * facG K p m else derG knots k p x r m) i) := by
    refine tab_congr fun m _ => tab_congr fun r hr => ?_
    simp only
    by_cases h0 : m = 0
    · rw [if_pos h0, if_pos h0]
    · rw [if_neg h0, if_neg h0, if_pos hr, if_neg (by omega)]
  rw [e0]
  refine (congrArg (fun z => z >>= _) hsc).trans ?_
  rw [bind_ok]
  congr 1
  refine tab_congr fun m hm => tab_congr fun r hr => ?_
  simp only [basisG]
  by_cases h0 : m = 0
  · rw [if_pos h0, if_pos h0]
  · rw [if_neg h0, if_neg h0, if_pos (by omega)]

end Nurbs
