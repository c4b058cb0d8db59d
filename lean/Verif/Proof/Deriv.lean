import Verif.Proof.DerivMath

/-! # `BSplineBasis::EvaluateAll` computes the derivatives of the basis functions -/

set_option linter.unusedSectionVars false

namespace Nurbs

theorem mset_tab0 {α : Type} (n m : Nat) (f : Nat → Nat → α) (i j : Int) (a b : Nat) (v : α) (hi : i = a)
    (hj : j = b) (ha : a < n) (hb : b < m) :
    mset (tab n fun i => tab m (f i)) i j v =
      .ok (tab n fun i => tab m ((fun k l => if k = a ∧ l = b then v else f k l) i)) :=
  mset_tab n m f _ i j a b v hi hj ha hb (fun _ _ _ _ => rfl)

open Nurbs.Spec

variable {K : Type} [Field K] [LinearOrder K]
variable {knots : List K} {k p : ℕ} {x : K}

/-- The `ndu` table is correct up to level `n`. -/
def NduOK (U : ℕ → K) (k : ℕ) (x : K) (n : ℕ) (nd : ℕ → ℕ → K) : Prop :=
  (∀ j ≤ n, ∀ r ≤ j, nd r j = lev U k x j r) ∧ (∀ j ≤ n, ∀ r < j, nd j r = U (k + r + 1) - U (k + 1 - j + r))

theorem nduOuter_ok (hp : p ≤ k) (hl : k + p < knots.length)
    (hr : RegSpan (kn knots) k p) (j : ℕ) (hj : 1 ≤ j) (hjp : j ≤ p) (nd : ℕ → ℕ → K)
    (hnd : NduOK (kn knots) k x (j - 1) nd)
    (left right : ℕ → K) (hleft : ∀ m, 1 ≤ m → m < j → left m = x - kn knots (k + 1 - m))
    (hright : ∀ m, 1 ≤ m → m < j → right m = kn knots (k + m) - x) :
    ∃ nd' : ℕ → ℕ → K, BSplineBasis.nduOuter knots k x j (tab (p + 1) fun i => tab (p + 1) (nd i), tab (p + 1) left, tab (p + 1) right) =
      .ok (tab (p + 1) fun i => tab (p + 1) (nd' i), tab (p + 1) (Function.update left j (x - kn knots (k + 1 - j))),
        tab (p + 1) (Function.update right j (kn knots (k + j) - x))) ∧ NduOK (kn knots) k x j nd' := by
  set U := kn knots with hU
  unfold BSplineBasis.nduOuter
  simp only
  rw [vget_kn knots _ (k + 1 - j) (by omega) (by omega)]
  simp only [bind_ok]
  rw [vset_tab _ _ _ j _ rfl (by omega)]
  simp only [bind_ok]
  rw [vget_kn knots _ (k + j) (by omega) (by omega)]
  simp only [bind_ok]
  rw [vset_tab _ _ _ j _ rfl (by omega)]
  simp only [bind_ok]
  rw [← hU]
  have hL : ∀ m, 1 ≤ m → m ≤ j → Function.update left j (x - U (k + 1 - j)) m = x - U (k + 1 - m) := by
    intro m h1 h2
    rcases Nat.lt_or_ge m j with h | h
    · rw [Function.update_of_ne (by omega), hleft m h1 h]
    · obtain rfl : m = j := by omega
      simp
  have hR : ∀ m, 1 ≤ m → m ≤ j → Function.update right j (U (k + j) - x) m = U (k + m) - x := by
    intro m h1 h2
    rcases Nat.lt_or_ge m j with h | h
    · rw [Function.update_of_ne (by omega), hright m h1 h]
    · obtain rfl : m = j := by omega
      simp
  rw [forLt_eq_forUp _ _ j (by omega)]
  obtain ⟨s, hs, nd1, rfl, h1, h2, h3⟩ := forUp_inv (BSplineBasis.nduInner (tab (p + 1) (Function.update left j (x - U (k + 1 - j))))
      (tab (p + 1) (Function.update right j (U (k + j) - x))) (j : Int))
    (fun n s => ∃ nd' : ℕ → ℕ → K, s = (tab (p + 1) fun i => tab (p + 1) (nd' i), sav U k x j n) ∧ NduOK U k x (j - 1) nd' ∧
      (∀ r < n, nd' r j = lev U k x j r) ∧ (∀ r < n, nd' j r = U (k + r + 1) - U (k + 1 - j + r))) j 0
    (tab (p + 1) fun i => tab (p + 1) (nd i), 0)
    ⟨nd, by simp [sav], hnd, fun r h => by omega, fun r h => by omega⟩ (by
      rintro n hn _ ⟨nd', rfl, h1, h2, h3⟩
      unfold BSplineBasis.nduInner
      simp only [zero_add]
      rw [vget_tab _ _ _ (n + 1) (by push_cast; ring) (by omega)]
      simp only [bind_ok]
      rw [vget_tab _ _ _ (j - n) (by omega) (by omega)]
      simp only [bind_ok]
      rw [hL _ (by omega) (by omega), hR _ (by omega) (by omega),
        show k + 1 - (j - n) = k + 1 - j + n by omega, show k + (n + 1) = k + n + 1 by omega,
        show U (k + n + 1) - x + (x - U (k + 1 - j + n)) = U (k + n + 1) - U (k + 1 - j + n) by ring]
      have hne : U (k + n + 1) - U (k + 1 - j + n) ≠ 0 := by
        have := hr.sub_ne (q := j) (i := k + 1 - j + n) (by omega) (by omega) (by omega)
        rwa [show k + 1 - j + n + j = k + n + 1 by omega] at this
      rw [mset_tab0 _ _ _ _ _ j n _ rfl rfl (by omega) (by omega)]
      simp only [bind_ok]
      rw [mget_tab _ _ _ _ _ n (j - 1) rfl (by omega) (by omega) (by omega)]
      simp only [bind_ok]
      rw [mget_tab _ _ _ _ _ j n rfl rfl (by omega) (by omega)]
      simp only [bind_ok, and_self, if_true]
      rw [if_neg (by omega), fdiv_ok hne]
      simp only [bind_ok]
      rw [mset_tab0 _ _ _ _ _ n j _ rfl rfl (by omega) (by omega)]
      simp only [bind_ok, pure_ok]
      have hprev : nd' n (j - 1) = lev U k x (j - 1) n := h1.1 (j - 1) (le_refl _) n (by omega)
      rw [hprev]
      refine ⟨_, rfl, _, by rw [sav_succ U k x j n (by omega)], ⟨?_, ?_⟩, ?_, ?_⟩
      · intro j' hj' r hr'
        rw [if_neg (by omega), if_neg (by omega)]
        exact h1.1 j' hj' r hr'
      · intro j' hj' r hr'
        rw [if_neg (by omega), if_neg (by omega)]
        exact h1.2 j' hj' r hr'
      · intro r hr'
        simp only
        by_cases h : r = n
        · subst h
          rw [if_pos (by simp), lev_rec U k x j r hj (by omega) hn]
        · rw [if_neg (by omega), if_neg (by omega)]
          exact h2 r (by omega)
      · intro r hr'
        simp only
        rw [if_neg (by omega)]
        by_cases h : r = n
        · subst h
          rw [if_pos (by simp)]
        · rw [if_neg (by omega)]
          exact h3 r (by omega))
  rw [hs]
  simp only [bind_ok]
  rw [mset_tab0 _ _ _ _ _ j j _ rfl rfl (by omega) (by omega)]
  simp only [bind_ok, pure_ok]
  refine ⟨_, rfl, ?_, ?_⟩
  · intro j' hj' r hr'
    simp only
    by_cases hjj : j' = j
    · subst hjj
      by_cases h : r = j'
      · subst h
        rw [if_pos ⟨rfl, rfl⟩, lev_last U k x r hj (by omega)]
      · rw [if_neg (by omega)]
        exact h2 r (by omega)
    · rw [if_neg (by omega)]
      exact h1.1 j' (by omega) r hr'
  · intro j' hj' r hr'
    simp only
    rw [if_neg (by omega)]
    by_cases hjj : j' = j
    · subst hjj
      exact h3 r hr'
    · exact h1.2 j' (by omega) r hr'

/-- The `j`-sum term. -/
def derTerm (U : ℕ → K) (k : ℕ) (x : K) (p i m t : ℕ) : K := aC U p i m t * Nl U k x (p - m) (i + t)

theorem derTerm_zero (U : ℕ → K) {k : ℕ} (x : K) {p r m t : ℕ} (hp : p ≤ k) (hr : r ≤ p) (hm : m ≤ p) (h : r + t < m ∨ p < r + t) :
    derTerm U k x p (k - p + r) m t = 0 := by
  unfold derTerm
  rcases h with h | h
  · rw [Nl_zero_of_lt U k x _ _ (by omega), mul_zero]
  · rw [Nl_zero_of_gt U k x _ _ (by omega), mul_zero]

/-- Row `s` of the scratch array holds the order-`m` coefficients. -/
def ARow (U : ℕ → K) (k p r m s : ℕ) (af : ℕ → ℕ → K) : Prop :=
  ∀ j, m ≤ r + j → j ≤ m → r + j ≤ p → af s j = aC U p (k - p + r) m j

theorem derOrder_ok (U : ℕ → K) (hp : p ≤ k) (hreg : RegSpan U k p) {nd : ℕ → ℕ → K} (hnd : NduOK U k x p nd)
    {r m order : ℕ} (hr : r ≤ p) (hm : 1 ≤ m) (hmo : m ≤ order) (res af : ℕ → ℕ → K) {a b : ℕ} (ha : a < 2) (hb : b < 2) (hab : a ≠ b)
    (haf : ARow U k p r (m - 1) a af) :
    ∃ af' : ℕ → ℕ → K, BSplineBasis.derOrder p (tab (p + 1) fun i => tab (p + 1) (nd i)) r m
        (tab (order + 1) fun i => tab (p + 1) (res i), tab 2 fun i => tab (p + 1) (af i), (a : Int), (b : Int)) =
      .ok (tab (order + 1) fun i => tab (p + 1) ((fun m' r' => if m' = m ∧ r' = r then derSum U k x p (k - p + r) m else res m' r') i),
        tab 2 fun i => tab (p + 1) (af' i), (b : Int), (a : Int)) ∧ ARow U k p r m b af' := by
  unfold BSplineBasis.derOrder
  simp only
  by_cases hmp : m ≤ p
  swap
  · unfold BSplineBasis.derFirst BSplineBasis.derLast
    simp only
    rw [if_neg (by omega)]
    simp only [bind_ok, pure_ok]
    rw [forLe_eq_forUp _ _ 0 (by split_ifs <;> omega)]
    simp only [forUp, pure_ok, bind_ok]
    rw [if_neg (by omega)]
    rw [bind_ok, mset_tab0 _ _ _ _ _ m r _ rfl rfl (by omega) (by omega)]
    simp only [bind_ok]
    refine ⟨af, ?_, fun j h1 h2 h3 => by omega⟩
    rw [show derSum U k x p (k - p + r) m = 0 by unfold derSum; rw [if_neg hmp]]
  obtain ⟨m, rfl⟩ : ∃ m', m = m' + 1 := ⟨m - 1, by omega⟩
  simp only [Nat.add_sub_cancel] at haf
  set i := k - p + r with hi
  -- denominators
  have hden : ∀ t, m + 1 ≤ r + t → r + t ≤ p → nd (p - m) (r + t - (m + 1)) = U (i + t + (p - m)) - U (i + t) ∧
      U (i + t + (p - m)) - U (i + t) ≠ 0 := by
    intro t h1 h2
    constructor
    · rw [hnd.2 (p - m) (by omega) _ (by omega)]
      congr 2 <;> omega
    · exact hreg.sub_ne (by omega) (by omega) (by omega)
  have hval : ∀ t, m + 1 ≤ r + t → r + t ≤ p → nd (r + t - (m + 1)) (p - (m + 1)) = Nl U k x (p - (m + 1)) (i + t) := by
    intro t h1 h2
    rw [hnd.1 (p - (m + 1)) (by omega) _ (by omega)]
    unfold lev
    rw [if_pos (by omega)]
    congr 1
    omega
  obtain ⟨J1, hJ1⟩ : ∃ J : ℕ, J = max 1 (m + 1 - r) := ⟨_, rfl⟩
  obtain ⟨n0, hn0⟩ : ∃ n : ℕ, n = min (m + 1) (p + 1 - r) - J1 := ⟨_, rfl⟩
  -- part 1
  have part1 : ∃ (af1 : ℕ → ℕ → K) (d1 : K), BSplineBasis.derFirst (tab (p + 1) fun i => tab (p + 1) (nd i)) (a : Int) (b : Int) (r : Int) ((m + 1 : ℕ) : Int)
      ((p : Int) - ((m + 1 : ℕ) : Int)) ((r : Int) - ((m + 1 : ℕ) : Int)) (tab 2 fun i => tab (p + 1) (af i), 0) =
        .ok (tab 2 fun i => tab (p + 1) (af1 i), d1) ∧
      d1 = ∑ t ∈ Finset.range J1, derTerm U k x p i (m + 1) t ∧ (∀ j, af1 a j = af a j) ∧
      (∀ j < J1, m + 1 ≤ r + j → af1 b j = aC U p i (m + 1) j) := by
    unfold BSplineBasis.derFirst
    simp only
    by_cases h : m + 1 ≤ r
    · rw [if_pos (by omega)]
      rw [mget_tab _ _ _ _ _ a 0 rfl (by simp) ha (by omega)]
      simp only [bind_ok]
      rw [mget_tab _ _ _ _ _ (p - m) (r + 0 - (m + 1)) (by omega) (by omega) (by omega) (by omega)]
      simp only [bind_ok]
      obtain ⟨e, hne⟩ := hden 0 (by omega) (by omega)
      rw [e, fdiv_ok hne]
      simp only [bind_ok]
      rw [mset_tab0 _ _ _ _ _ b 0 _ rfl (by simp) hb (by omega)]
      simp only [bind_ok]
      rw [mget_tab _ _ _ _ _ b 0 rfl (by simp) hb (by omega)]
      simp only [bind_ok]
      rw [mget_tab _ _ _ _ _ (r + 0 - (m + 1)) (p - (m + 1)) (by omega) (by omega) (by omega) (by omega)]
      simp only [bind_ok, and_self, if_true, pure_ok]
      have hc : af a 0 / (U (i + 0 + (p - m)) - U (i + 0)) = aC U p i (m + 1) 0 := by
        rw [haf 0 (by omega) (by omega) (by omega)]; simp [aC, hi]
      have hJ : J1 = 1 := by omega
      refine ⟨_, _, rfl, ?_, ?_, ?_⟩
      · rw [hJ, Finset.sum_range_one, hval 0 (by omega) (by omega), hc]; rfl
      · intro j; rw [if_neg (by omega)]
      · intro j hj _
        obtain rfl : j = 0 := by omega
        simp only [and_self, if_true]
        exact hc
    · rw [if_neg (by omega)]
      refine ⟨af, 0, rfl, ?_, fun _ => rfl, fun j hj h' => by omega⟩
      symm
      apply Finset.sum_eq_zero
      intro t ht
      have := Finset.mem_range.mp ht
      exact derTerm_zero U x hp hr hmp (Or.inl (by omega))
  obtain ⟨af1, d1, e1, hd1, ha1, hb1⟩ := part1
  rw [e1]
  simp only [bind_ok]
  have hj1 : (if (r : Int) - ((m + 1 : ℕ) : Int) ≥ -1 then (1 : Int) else -((r : Int) - ((m + 1 : ℕ) : Int))) = (J1 : Int) := by
    split_ifs <;> omega
  rw [hj1, forLe_eq_forUp _ _ n0 (by split_ifs <;> omega)]
  obtain ⟨s, hs, af2, rfl, ha2, hb2⟩ := forUp_inv (BSplineBasis.derInner (tab (p + 1) fun i => tab (p + 1) (nd i)) (a : Int) (b : Int)
      ((p : Int) - ((m + 1 : ℕ) : Int)) ((r : Int) - ((m + 1 : ℕ) : Int)))
    (fun n s => ∃ af2 : ℕ → ℕ → K, s = (tab 2 fun i => tab (p + 1) (af2 i), ∑ t ∈ Finset.range (J1 + n), derTerm U k x p i (m + 1) t) ∧
      (∀ j, af2 a j = af a j) ∧ (∀ j < J1 + n, m + 1 ≤ r + j → af2 b j = aC U p i (m + 1) j)) n0 J1
    (tab 2 fun i => tab (p + 1) (af1 i), d1) ⟨af1, by rw [hd1, add_zero], ha1, by simpa using hb1⟩ (by
      rintro n hn _ ⟨af2, rfl, ha2, hb2⟩
      unfold BSplineBasis.derInner
      simp only
      rw [mget_tab _ _ _ _ _ a (J1 + n) rfl (by push_cast; ring) ha (by omega)]
      simp only [bind_ok]
      rw [mget_tab _ _ _ _ _ a (J1 + n - 1) rfl (by omega) ha (by omega)]
      simp only [bind_ok]
      rw [mget_tab _ _ _ _ _ (p - m) (r + (J1 + n) - (m + 1)) (by omega) (by omega) (by omega) (by omega)]
      simp only [bind_ok]
      obtain ⟨e, hne⟩ := hden (J1 + n) (by omega) (by omega)
      rw [e, fdiv_ok hne]
      simp only [bind_ok]
      rw [mset_tab0 _ _ _ _ _ b (J1 + n) _ rfl (by push_cast; ring) hb (by omega)]
      simp only [bind_ok]
      rw [mget_tab _ _ _ _ _ b (J1 + n) rfl (by push_cast; ring) hb (by omega)]
      simp only [bind_ok]
      rw [mget_tab _ _ _ _ _ (r + (J1 + n) - (m + 1)) (p - (m + 1)) (by omega) (by omega) (by omega) (by omega)]
      simp only [bind_ok, and_self, if_true, pure_ok]
      have hc : (af2 a (J1 + n) - af2 a (J1 + n - 1)) / (U (i + (J1 + n) + (p - m)) - U (i + (J1 + n))) = aC U p i (m + 1) (J1 + n) := by
        rw [ha2, ha2, haf (J1 + n) (by omega) (by omega) (by omega), haf (J1 + n - 1) (by omega) (by omega) (by omega)]
        simp only [aC]
        rw [if_neg (by omega)]
      rw [hc, hval (J1 + n) (by omega) (by omega)]
      refine ⟨_, rfl, fun i_1 l => if i_1 = b ∧ l = J1 + n then aC U p i (m + 1) (J1 + n) else af2 i_1 l, ?_, ?_, ?_⟩
      · rw [show J1 + (n + 1) = (J1 + n) + 1 by omega, Finset.sum_range_succ]; rfl
      · intro j; simp only; rw [if_neg (by omega)]; exact ha2 j
      · intro j hj hjm
        simp only
        by_cases h : j = J1 + n
        · subst h; rw [if_pos (by simp)]
        · rw [if_neg (by omega)]; exact hb2 j (by omega) hjm)
  rw [hs]
  simp only [bind_ok]
  unfold BSplineBasis.derLast
  simp only
  by_cases h : r + (m + 1) ≤ p
  · rw [if_pos (by omega)]
    have hJn : J1 + n0 = m + 1 := by omega
    rw [mget_tab _ _ _ _ _ a m rfl (by omega) ha (by omega)]
    simp only [bind_ok]
    rw [mget_tab _ _ _ _ _ (p - m) (r + (m + 1) - (m + 1)) (by omega) (by omega) (by omega) (by omega)]
    simp only [bind_ok]
    obtain ⟨e, hne⟩ := hden (m + 1) (by omega) (by omega)
    rw [e, fdiv_ok hne]
    simp only [bind_ok]
    rw [mset_tab0 _ _ _ _ _ b (m + 1) _ rfl rfl hb (by omega)]
    simp only [bind_ok]
    rw [mget_tab _ _ _ _ _ b (m + 1) rfl rfl hb (by omega)]
    simp only [bind_ok]
    rw [mget_tab _ _ _ _ _ (r + (m + 1) - (m + 1)) (p - (m + 1)) (by omega) (by omega) (by omega) (by omega)]
    simp only [bind_ok, and_self, if_true, pure_ok]
    have hc : -af2 a m / (U (i + (m + 1) + (p - m)) - U (i + (m + 1))) = aC U p i (m + 1) (m + 1) := by
      rw [ha2, haf m (by omega) (by omega) (by omega)]
      simp only [aC]
      rw [if_neg (by omega), aC_zero U p i m (m + 1) (by omega), Nat.add_sub_cancel, zero_sub]
    rw [hc, hval (m + 1) (by omega) (by omega), hJn]
    rw [mset_tab0 _ _ _ _ _ (m + 1) r _ rfl rfl (by omega) (by omega)]
    simp only [bind_ok]
    refine ⟨fun i_1 l => if i_1 = b ∧ l = m + 1 then aC U p i (m + 1) (m + 1) else af2 i_1 l, ?_, ?_⟩
    · have : derSum U k x p i (m + 1) = ∑ t ∈ Finset.range (m + 1), derTerm U k x p i (m + 1) t +
          aC U p i (m + 1) (m + 1) * Nl U k x (p - (m + 1)) (i + (m + 1)) := by
        unfold derSum
        rw [if_pos hmp, Finset.sum_range_succ _ (m + 1)]
        rfl
      rw [this]
    · intro j h1 h2 h3
      simp only
      by_cases hj : j = m + 1
      · subst hj; rw [if_pos (by simp)]
      · rw [if_neg (by omega)]; exact hb2 j (by omega) h1
  · rw [if_neg (by omega)]
    simp only [bind_ok, pure_ok]
    rw [mset_tab0 _ _ _ _ _ (m + 1) r _ rfl rfl (by omega) (by omega)]
    simp only [bind_ok]
    refine ⟨af2, ?_, fun j h1 h2 h3 => hb2 j (by omega) h1⟩
    have : ∑ t ∈ Finset.range (J1 + n0), derTerm U k x p i (m + 1) t = ∑ t ∈ Finset.range (m + 1 + 1), derTerm U k x p i (m + 1) t := by
      apply Finset.sum_subset
      · intro t ht
        have := Finset.mem_range.mp ht
        apply Finset.mem_range.mpr; omega
      · intro t _ ht
        have : ¬ t < J1 + n0 := fun h => ht (Finset.mem_range.mpr h)
        exact derTerm_zero U x hp hr hmp (Or.inr (by omega))
    have h2 : derSum U k x p i (m + 1) = ∑ t ∈ Finset.range (m + 1 + 1), derTerm U k x p i (m + 1) t := by
      unfold derSum
      rw [if_pos hmp]
      rfl
    rw [this, h2]

theorem derFunction_ok (U : ℕ → K) (hp : p ≤ k) (hreg : RegSpan U k p) {nd : ℕ → ℕ → K} (hnd : NduOK U k x p nd)
    {r : ℕ} (order : ℕ) (hr : r ≤ p) (res af : ℕ → ℕ → K) :
    ∃ af' : ℕ → ℕ → K, BSplineBasis.derFunction p order (tab (p + 1) fun i => tab (p + 1) (nd i)) r
        (tab (order + 1) fun i => tab (p + 1) (res i), tab 2 fun i => tab (p + 1) (af i)) =
      .ok (tab (order + 1) fun i => tab (p + 1) ((fun m' r' => if 1 ≤ m' ∧ r' = r then derSum U k x p (k - p + r) m' else res m' r') i),
        tab 2 fun i => tab (p + 1) (af' i)) := by
  unfold BSplineBasis.derFunction
  simp only
  rw [mset_tab0 _ _ _ _ _ 0 0 _ (by simp) (by simp) (by omega) (by omega)]
  simp only [bind_ok]
  rw [forLe_eq_forUp _ _ order (by omega)]
  obtain ⟨s, hs, af', a, b, ha, hb, hab, rfl, hA⟩ := forUp_inv (BSplineBasis.derOrder p (tab (p + 1) fun i => tab (p + 1) (nd i)) r)
    (fun n s => ∃ (af' : ℕ → ℕ → K) (a b : ℕ), a < 2 ∧ b < 2 ∧ a ≠ b ∧ s = (tab (order + 1) fun i => tab (p + 1) ((fun m' r' => if 1 ≤ m' ∧ m' ≤ n ∧ r' = r then derSum U k x p (k - p + r) m' else res m' r') i),
        tab 2 fun i => tab (p + 1) (af' i), ((a : ℕ) : Int), ((b : ℕ) : Int)) ∧ ARow U k p r n a af') order 1
    (tab (order + 1) fun i => tab (p + 1) (res i), tab 2 fun i => tab (p + 1) ((fun k l => if k = 0 ∧ l = 0 then 1 else af k l) i), 0, 1)
    ⟨fun k l => if k = 0 ∧ l = 0 then 1 else af k l, 0, 1, by omega, by omega, by omega, by
      simp only [Prod.mk.injEq, Nat.cast_zero, Nat.cast_one, and_true]
      refine tab_congr fun i _ => tab_congr fun j _ => ?_
      rw [if_neg (by omega)], by
      intro j h1 h2 h3
      obtain rfl : j = 0 := by omega
      simp [aC]⟩ (by
      rintro n hn _ ⟨af1, a, b, ha, hb, hab, rfl, hA⟩
      obtain ⟨af2, e, hA2⟩ := derOrder_ok U hp hreg hnd hr (m := n + 1) (order := order) (by omega) (by omega)
        (fun m' r' => if 1 ≤ m' ∧ m' ≤ n ∧ r' = r then derSum U k x p (k - p + r) m' else res m' r') af1 ha hb hab hA
      rw [show (1 : Int) + (n : ℕ) = ((n + 1 : ℕ) : Int) by push_cast; ring, e]
      refine ⟨_, rfl, af2, b, a, hb, ha, Ne.symm hab, ?_, hA2⟩
      simp only [Prod.mk.injEq, and_true]
      refine tab_congr fun i _ => tab_congr fun j _ => ?_
      by_cases h1 : i = n + 1 ∧ j = r
      · rw [if_pos h1, if_pos (by omega), h1.1]
      · rw [if_neg h1]
        by_cases h2 : 1 ≤ i ∧ i ≤ n ∧ j = r
        · rw [if_pos h2, if_pos (by omega)]
        · rw [if_neg h2, if_neg (by omega)])
  rw [hs]
  simp only [bind_ok, pure_ok]
  refine ⟨af', ?_⟩
  congr 2
  refine tab_congr fun i hi => tab_congr fun j _ => ?_
  by_cases h2 : 1 ≤ i ∧ j = r
  · rw [if_pos h2, if_pos (by omega)]
  · rw [if_neg h2, if_neg (by omega)]

/-- `BSplineBasis::EvaluateAll` on a regular span. -/
theorem evaluateAllAt_ok (hp : p ≤ k) (hl : k + p < knots.length) (hr : RegSpan (kn knots) k p) (order : ℕ) :
    BSplineBasis.EvaluateAllAt p knots k x order = .ok (tab (order + 1) fun m => tab (p + 1) fun r =>
      ((p.descFactorial m : ℕ) : K) * derSum (kn knots) k x p (k - p + r) m) := by
  unfold BSplineBasis.EvaluateAllAt
  rw [vnew_of _ (p + 1) _ (by push_cast; ring), replicate_eq_tab]
  simp only [bind_ok]
  rw [vnew_of _ (p + 1) _ (by push_cast; ring), replicate_eq_tab]
  simp only [bind_ok]
  rw [mset_tab0 (p + 1) (p + 1) (fun _ _ => 0) 0 0 0 0 _ (by simp) (by simp) (by omega) (by omega)]
  simp only [bind_ok]
  rw [forLe_eq_forUp _ _ p (by omega)]
  obtain ⟨s, hs, nd, left, right, rfl, hnd, -, -⟩ := forUp_inv (BSplineBasis.nduOuter knots k x)
    (fun n s => ∃ (nd : ℕ → ℕ → K) (left right : ℕ → K), s = (tab (p + 1) fun i => tab (p + 1) (nd i), tab (p + 1) left, tab (p + 1) right) ∧
      NduOK (kn knots) k x n nd ∧
      (∀ m, 1 ≤ m → m < n + 1 → left m = x - kn knots (k + 1 - m)) ∧
      (∀ m, 1 ≤ m → m < n + 1 → right m = kn knots (k + m) - x)) p 1
    (tab (p + 1) fun i => tab (p + 1) ((fun k l => if k = 0 ∧ l = 0 then (1 : K) else 0) i), tab (p + 1) fun _ => 0, tab (p + 1) fun _ => 0)
    ⟨_, _, _, rfl, ⟨by
        intro j hj r hr
        obtain rfl : j = 0 := by omega
        obtain rfl : r = 0 := by omega
        simp [lev, Nl], by intro j hj r hr; omega⟩, fun m h1 h2 => by omega, fun m h1 h2 => by omega⟩ (by
      rintro n hn _ ⟨nd, left, right, rfl, hnd, hleft, hright⟩
      obtain ⟨nd', e, hnd'⟩ := nduOuter_ok (x := x) hp hl hr (n + 1) (by omega) (by omega) nd (by simpa using hnd) left right hleft hright
      rw [show ((1 : Int) + n) = ((n + 1 : ℕ) : Int) by push_cast; ring, e]
      refine ⟨_, rfl, nd', _, _, rfl, hnd', ?_, ?_⟩
      · intro m h1 h2
        by_cases hm : m = n + 1
        · subst hm; simp
        · rw [Function.update_of_ne hm, hleft m h1 (by omega)]
      · intro m h1 h2
        by_cases hm : m = n + 1
        · subst hm; simp
        · rw [Function.update_of_ne hm, hright m h1 (by omega)])
  rw [hs]
  simp only [bind_ok]
  rw [vnew_of _ (order + 1) _ (by push_cast; ring), replicate_eq_tab]
  simp only [bind_ok]
  have hcol : mapMList (fun row => vget row (p : Int)) (tab (p + 1) fun i => tab (p + 1) (nd i)) =
      .ok (tab (p + 1) fun i => Nl (kn knots) k x p (k - p + i)) := by
    rw [mapMList_ok _ (fun row => row.getD p 0)]
    · congr 1
      unfold tab
      rw [List.map_map]
      apply List.map_congr_left
      intro i hi
      have hi' := List.mem_range.mp hi
      have := tab_getElem? (p + 1) (nd i) p (by omega)
      unfold tab at this
      simp only [Function.comp, List.getD_eq_getElem?_getD, this, Option.getD_some]
      rw [hnd.1 p (le_refl _) i (by omega)]
      unfold lev
      rw [if_pos (by omega)]
    · intro row hrow
      unfold tab at hrow
      obtain ⟨i, hi, rfl⟩ := List.mem_map.mp hrow
      change vget (tab (p + 1) (nd i)) _ = .ok ((tab (p + 1) (nd i)).getD p 0)
      rw [vget_tab _ _ _ p rfl (by omega)]
      simp only [List.getD_eq_getElem?_getD, tab_getElem? (p + 1) (nd i) p (by omega), Option.getD_some]
  rw [hcol]
  simp only [bind_ok]
  rw [vset_tab' (order + 1) _ (fun m => tab (p + 1) ((fun m r => if m = 0 then Nl (kn knots) k x p (k - p + r) else 0) m)) _ 0 _ (by simp) (by omega) (by
    intro m _
    by_cases h : m = 0
    · simp [h]
    · simp only [h, if_false])]
  simp only [bind_ok]
  rw [vnew_of 2 2 _ (by simp), replicate_eq_tab]
  simp only [bind_ok]
  rw [forLe_eq_forUp _ _ (p + 1) (by omega)]
  obtain ⟨s, hs, af, rfl⟩ := forUp_inv (BSplineBasis.derFunction p order (tab (p + 1) fun i => tab (p + 1) (nd i)))
    (fun n s => ∃ af : ℕ → ℕ → K, s = (tab (order + 1) fun i => tab (p + 1) ((fun m r => if m = 0 then Nl (kn knots) k x p (k - p + r) else
        if r < n then derSum (kn knots) k x p (k - p + r) m else 0) i), tab 2 fun i => tab (p + 1) (af i))) (p + 1) 0
    (tab (order + 1) fun m => tab (p + 1) ((fun m r => if m = 0 then Nl (kn knots) k x p (k - p + r) else 0) m), tab 2 fun _ => tab (p + 1) fun _ => 0)
    ⟨fun _ _ => 0, by simp⟩ (by
      rintro n hn _ ⟨af, rfl⟩
      obtain ⟨af', e⟩ := derFunction_ok (kn knots) hp hr hnd (r := n) order (by omega) (fun m r => if m = 0 then Nl (kn knots) k x p (k - p + r) else
        if r < n then derSum (kn knots) k x p (k - p + r) m else 0) af
      rw [zero_add, e]
      refine ⟨_, rfl, af', ?_⟩
      simp only [Prod.mk.injEq, and_true]
      refine tab_congr fun m _ => tab_congr fun r _ => ?_
      by_cases h0 : m = 0
      · subst h0; simp
      · rw [if_neg h0]
        by_cases h1 : r = n
        · subst h1; rw [if_pos ⟨by omega, rfl⟩, if_neg h0, if_pos (by omega)]
        · rw [if_neg (by omega), if_neg h0]
          by_cases h2 : r < n
          · rw [if_pos h2, if_pos (by omega)]
          · rw [if_neg h2, if_neg (by omega)])
  rw [hs]
  simp only [bind_ok]
  rw [forLe_eq_forUp _ _ order (by omega)]
  have key := forUp_eq (BSplineBasis.derScale (K := K) (p : Int)) (fun n => (tab (order + 1) fun m => tab (p + 1) fun r =>
      if m ≤ n then ((p.descFactorial m : ℕ) : K) * derSum (kn knots) k x p (k - p + r) m else derSum (kn knots) k x p (k - p + r) m,
      ((p.descFactorial (n + 1) : ℕ) : K))) order 1 (by
    intro n hn
    unfold BSplineBasis.derScale
    simp only
    rw [vget_tab _ _ _ (n + 1) (by push_cast; ring) (by omega)]
    simp only [bind_ok]
    rw [vset_tab' (order + 1) _ (fun m => tab (p + 1) fun r =>
      if m ≤ n + 1 then ((p.descFactorial m : ℕ) : K) * derSum (kn knots) k x p (k - p + r) m else derSum (kn knots) k x p (k - p + r) m)
      _ (n + 1) _ (by push_cast; ring) (by omega) (by
        intro m hm
        by_cases h : m = n + 1
        · rw [if_pos h]
          unfold tab
          rw [List.map_map]
          apply List.map_congr_left
          intro r _
          simp only [Function.comp]
          rw [if_pos (by omega), if_neg (by omega), h, mul_comm]
        · rw [if_neg h]
          refine tab_congr fun r _ => ?_
          by_cases h2 : m ≤ n
          · rw [if_pos h2, if_pos (by omega)]
          · rw [if_neg h2, if_neg (by omega)])]
    simp only [bind_ok, pure_ok]
    congr 2
    rw [Nat.descFactorial_succ p (n + 1)]
    by_cases h : n + 1 ≤ p
    · rw [show ((p : Int) - (1 + (n : Int))) = ((p - (n + 1) : ℕ) : Int) by omega]
      push_cast; ring
    · have : p.descFactorial (n + 1) = 0 := Nat.descFactorial_eq_zero_iff_lt.mpr (by omega)
      rw [this]; simp)
  have hinit : (tab (order + 1) fun i => tab (p + 1) ((fun m r => if m = 0 then Nl (kn knots) k x p (k - p + r) else
        if r < p + 1 then derSum (kn knots) k x p (k - p + r) m else 0) i), (((p : ℕ) : Int) : K)) =
      (tab (order + 1) fun m => tab (p + 1) fun r =>
      if m ≤ 0 then ((p.descFactorial m : ℕ) : K) * derSum (kn knots) k x p (k - p + r) m else derSum (kn knots) k x p (k - p + r) m,
      ((p.descFactorial (0 + 1) : ℕ) : K)) := by
    congr 1
    · refine tab_congr fun m _ => tab_congr fun r hr => ?_
      simp only
      by_cases h : m = 0
      · subst h
        rw [if_pos rfl, if_pos (le_refl _)]
        simp [derSum, aC]
      · rw [if_neg h, if_pos hr, if_neg (by omega)]
    · simp
  rw [hinit, key]
  simp only [bind_ok, pure_ok]
  congr 1
  refine tab_congr fun m hm => tab_congr fun r hr => ?_
  rw [if_pos (by omega)]

end Nurbs
