import Verif.Proof.SurfaceDeriv

/-! # Overflow in `Surface::EvaluateAll` -/

set_option linter.unusedSectionVars false

namespace Nurbs
open Spec

/-- The only possible failure is undefined behaviour, and results satisfy `P`. -/
def UbOr {σ : Type} (P : σ → Prop) (x : M σ) : Prop := (∃ r, x = .ok r ∧ P r) ∨ x = .error .ub

theorem UbOr.bind {σ τ : Type} {Q : σ → Prop} {P : τ → Prop} {x : M σ} {k : σ → M τ} (h : UbOr Q x) (hk : ∀ r, Q r → UbOr P (k r)) :
    UbOr P (x >>= k) := by
  rcases h with ⟨r, rfl, hr⟩ | rfl
  · exact hk r hr
  · exact Or.inr rfl

theorem UbOr.ok {σ : Type} {P : σ → Prop} {r : σ} (h : P r) : UbOr P (.ok r : M σ) := Or.inl ⟨r, rfl, h⟩

theorem forUp_ubOr {σ : Type} {P : σ → Prop} (f : Int → σ → M σ) (n : ℕ) : ∀ (lo : Int) (s : σ), P s →
    (∀ i < n, ∀ s, P s → UbOr P (f (lo + i) s)) → UbOr P (forUp lo n f s) := by
  induction n with
  | zero => intro lo s hs _; exact UbOr.ok hs
  | succ n ih =>
    intro lo s hs h
    unfold forUp
    have h0 := h 0 (by omega) s hs
    rw [Nat.cast_zero, add_zero] at h0
    refine h0.bind fun r hr => ih (lo + 1) r hr fun i hi s hs => ?_
    have := h (i + 1) (by omega) s hs
    rw [show lo + 1 + (i : ℕ) = lo + ((i + 1 : ℕ) : Int) by push_cast; ring]
    exact this

/-- Every step of a successful loop succeeded. -/
theorem forUp_steps {σ : Type} (f : Int → σ → M σ) (n : ℕ) : ∀ (lo : Int) (s r : σ), forUp lo n f s = .ok r →
    ∀ i < n, ∃ a b, f (lo + i) a = .ok b := by
  induction n with
  | zero => intro lo s r _ i hi; omega
  | succ n ih =>
    intro lo s r h i hi
    unfold forUp at h
    obtain ⟨t, h1, h2⟩ := bind_eq_ok.mp h
    rcases i with _ | i
    · exact ⟨s, t, by rw [Nat.cast_zero, add_zero]; exact h1⟩
    · obtain ⟨a, b, hab⟩ := ih (lo + 1) t r h2 i (by omega)
      refine ⟨a, b, ?_⟩
      rw [show lo + ((i + 1 : ℕ) : Int) = lo + 1 + (i : ℕ) by push_cast; ring]
      exact hab

theorem int32_ubOr (z : Int) : UbOr (fun _ => True) (int32 z) := by
  unfold int32
  split_ifs
  · exact UbOr.ok trivial
  · exact Or.inr rfl

theorem binomial_ubOr (n k : ℕ) : UbOr (fun _ => True) (Binomial n k) := by
  unfold Binomial
  split_ifs
  · exact UbOr.ok trivial
  · rw [forLe_eq_forUp 1 k k (by omega)]
    refine forUp_ubOr _ _ _ _ trivial fun i hi s _ => ?_
    exact (int32_ubOr _).bind fun r _ => UbOr.ok trivial

variable {K : Type} [Field K] [LinearOrder K] [IsStrictOrderedRing K]

theorem divM_ok {a : Vec3 K} {c : K} (hc : c ≠ 0) : ∃ r, a.divM c = .ok r := by
  unfold Vec3.divM
  rw [fdiv_ok hc, bind_ok, fdiv_ok hc, bind_ok, fdiv_ok hc, bind_ok]
  exact ⟨_, rfl⟩

/-- The body of the two outer loops, for naturals. -/
theorem surface_evaluateAll_ub {p q m n : ℕ} {s : Surface K} (hw : WFSurface p q m n s)
    {u v : K} (hu0 : 0 ≤ u) (hu1 : u ≤ 1) (hv0 : 0 ≤ v) (hv1 : v ≤ 1) {ku kv : ℕ}
    (hku : IsSpan s.KnotsU.Values u ku) (hkv : IsSpan s.KnotsV.Values v kv) (OU OV : ℕ)
    (hbig : 30 ≤ OU ∨ 30 ≤ OV ∨ 2147483647 < OU.choose (OU / 2) * OV.choose (OV / 2)) :
    s.EvaluateAll u v OU OV = .error .ub := by
  obtain ⟨_, _, _, _, _, _, hpos, _⟩ := surface_seg hw hu0 hu1 hv0 hv1 hku hkv
  have h00 : (homD2 p q s ku kv u v 0 0).w ≠ 0 := by
    have hpos' : 0 < MvPolynomial.eval ![u, v] (surfP p q s ku kv Vec4.lw) := by rw [surfP_eval]; exact hpos
    have := surfP_pd p q s ku kv Vec4.lw u v 0 0
    rw [show pd (surfP p q s ku kv Vec4.lw) 0 0 = surfP p q s ku kv Vec4.lw from rfl] at this
    rw [this] at hpos'
    exact hpos'.ne'
  unfold Surface.EvaluateAll
  rw [surface_homD_ok hw hu0 hu1 hv0 hv1 hku hkv, bind_ok, show (OU : Int) + 1 = ((OU + 1 : ℕ) : Int) by push_cast; ring,
    show (OV : Int) + 1 = ((OV + 1 : ℕ) : Int) by push_cast; ring,
    mk'_gridOf, bind_ok, get_gridOf _ _ _ _ _ 0 0 (by simp) (by simp) (by omega) (by omega), bind_ok, forLe_eq_forUp 0 OU (OU + 1) (by omega)]
  generalize hh : homD2 p q s ku kv u v = H at *
  -- every failure is undefined behaviour
  have safe := forUp_ubOr (P := fun g : Grid (Vec3 K) => ∃ f, g = gridOf (OU + 1) (OV + 1) f) (fun (ou : Int) result =>
    forLe 0 (OV : Int) (fun ov (result : Grid (Vec3 K)) => do
      let Aders := (← (gridOf (OU + 1) (OV + 1) H).Get ou ov).head3
      let Aders ← forLe 1 ou (fun i (Aders : Vec3 K) => do
        let Wders := (← (gridOf (OU + 1) (OV + 1) H).Get i 0).w
        return Aders - (((← Binomial ou i : Int) : K) * Wders) • (← result.Get (ou - i) ov)) Aders
      let Aders ← forLe 1 ov (fun j (Aders : Vec3 K) => do
        let Wders := (← (gridOf (OU + 1) (OV + 1) H).Get 0 j).w
        return Aders - (((← Binomial ov j : Int) : K) * Wders) • (← result.Get ou (ov - j))) Aders
      let Aders ← forLe 1 ou (fun i (Aders : Vec3 K) => do
        let bi ← Binomial ou i
        forLe 1 ov (fun j (Aders : Vec3 K) => do
          let Wders := (← (gridOf (OU + 1) (OV + 1) H).Get i j).w
          let bb ← int32 (bi * (← Binomial ov j))
          return Aders - ((bb : K) * Wders) • (← result.Get (ou - i) (ov - j))) Aders) Aders
      result.Set ou ov (← Aders.divM (H 0 0).w)) result) (OU + 1) 0 (gridOf (OU + 1) (OV + 1) fun _ _ => 0) ⟨_, rfl⟩ (by
    intro a ha g hg
    rw [forLe_eq_forUp 0 OV (OV + 1) (by omega)]
    refine forUp_ubOr _ _ _ _ hg ?_
    rintro b hb _ ⟨f, rfl⟩
    rw [zero_add, zero_add, get_gridOf _ _ _ _ _ a b rfl rfl ha hb, bind_ok]
    simp only
    refine UbOr.bind (Q := fun _ => True) ?_ fun A1 _ => UbOr.bind (Q := fun _ => True) ?_ fun A2 _ => UbOr.bind (Q := fun _ => True) ?_ fun A3 _ => ?_
    · rw [forLe_eq_forUp 1 a a (by omega)]
      refine forUp_ubOr _ _ _ _ trivial fun i hi A _ => ?_
      rw [show (1 : Int) + (i : ℕ) = ((i + 1 : ℕ) : Int) by push_cast; ring, get_gridOf _ _ _ _ _ (i + 1) 0 rfl (by simp) (by omega) (by omega), bind_ok]
      refine (binomial_ubOr _ _).bind fun bb _ => ?_
      rw [get_gridOf _ _ _ _ _ (a - (i + 1)) b (by omega) rfl (by omega) (by omega), bind_ok]
      exact UbOr.ok trivial
    · rw [forLe_eq_forUp 1 b b (by omega)]
      refine forUp_ubOr _ _ _ _ trivial fun i hi A _ => ?_
      rw [show (1 : Int) + (i : ℕ) = ((i + 1 : ℕ) : Int) by push_cast; ring, get_gridOf _ _ _ _ _ 0 (i + 1) (by simp) rfl (by omega) (by omega), bind_ok]
      refine (binomial_ubOr _ _).bind fun bb _ => ?_
      rw [get_gridOf _ _ _ _ _ a (b - (i + 1)) rfl (by omega) (by omega) (by omega), bind_ok]
      exact UbOr.ok trivial
    · rw [forLe_eq_forUp 1 a a (by omega)]
      refine forUp_ubOr _ _ _ _ trivial fun i hi A _ => ?_
      rw [show (1 : Int) + (i : ℕ) = ((i + 1 : ℕ) : Int) by push_cast; ring]
      refine (binomial_ubOr _ _).bind fun bi _ => ?_
      rw [forLe_eq_forUp 1 b b (by omega)]
      refine forUp_ubOr _ _ _ _ trivial fun j hj A _ => ?_
      rw [show (1 : Int) + (j : ℕ) = ((j + 1 : ℕ) : Int) by push_cast; ring,
        get_gridOf _ _ _ _ _ (i + 1) (j + 1) rfl rfl (by omega) (by omega), bind_ok]
      refine (binomial_ubOr _ _).bind fun bj _ => ?_
      refine (int32_ubOr _).bind fun bb _ => ?_
      rw [get_gridOf _ _ _ _ _ (a - (i + 1)) (b - (j + 1)) (by omega) (by omega) (by omega) (by omega), bind_ok]
      exact UbOr.ok trivial
    · obtain ⟨r, hr⟩ := divM_ok (a := A3) h00
      rw [hr, bind_ok, set_gridOf _ _ f (fun x y => if x = a ∧ y = b then r else f x y) _ _ a b r rfl rfl ha hb (fun x _ y _ => rfl)]
      exact UbOr.ok ⟨_, rfl⟩)
  rcases safe with ⟨r, hr, _⟩ | hub
  swap
  · exact hub
  exfalso
  -- a successful run needs all the products
  have cell : ∀ a ≤ OU, ∀ b ≤ OV, (∀ i < a, ∃ z, Binomial a ((i + 1 : ℕ) : Int) = .ok z) ∧ (∀ j < b, ∃ z, Binomial b ((j + 1 : ℕ) : Int) = .ok z) ∧
      (∀ i < a, ∀ j < b, ∃ x y z, Binomial a ((i + 1 : ℕ) : Int) = .ok x ∧ Binomial b ((j + 1 : ℕ) : Int) = .ok y ∧ int32 (x * y) = .ok z) := by
    intro a ha b hb
    obtain ⟨g, g', h1⟩ := forUp_steps _ _ _ _ _ hr a (by omega)
    rw [forLe_eq_forUp 0 OV (OV + 1) (by omega)] at h1
    obtain ⟨g2, g3, h2⟩ := forUp_steps _ _ _ _ _ h1 b (by omega)
    rw [zero_add, zero_add] at h2
    obtain ⟨_, _, h3⟩ := bind_eq_ok.mp h2
    obtain ⟨_, e1, h4⟩ := bind_eq_ok.mp h3
    obtain ⟨_, e2, h5⟩ := bind_eq_ok.mp h4
    obtain ⟨_, e3, h6⟩ := bind_eq_ok.mp h5
    rw [forLe_eq_forUp 1 a a (by omega)] at e1 e3
    rw [forLe_eq_forUp 1 b b (by omega)] at e2
    refine ⟨fun i hi => ?_, fun j hj => ?_, fun i hi j hj => ?_⟩
    · obtain ⟨_, _, h⟩ := forUp_steps _ _ _ _ _ e1 i hi
      obtain ⟨_, _, h⟩ := bind_eq_ok.mp h
      obtain ⟨z, hz, h⟩ := bind_eq_ok.mp h
      exact ⟨z, by rw [← hz]; congr 1; push_cast; ring⟩
    · obtain ⟨_, _, h⟩ := forUp_steps _ _ _ _ _ e2 j hj
      obtain ⟨_, _, h⟩ := bind_eq_ok.mp h
      obtain ⟨z, hz, h⟩ := bind_eq_ok.mp h
      exact ⟨z, by rw [← hz]; congr 1; push_cast; ring⟩
    · obtain ⟨_, _, h⟩ := forUp_steps _ _ _ _ _ e3 i hi
      obtain ⟨x, hx, h⟩ := bind_eq_ok.mp h
      rw [forLe_eq_forUp 1 b b (by omega)] at h
      obtain ⟨_, _, h⟩ := forUp_steps _ _ _ _ _ h j hj
      obtain ⟨_, _, h⟩ := bind_eq_ok.mp h
      obtain ⟨y, hy, h⟩ := bind_eq_ok.mp h
      obtain ⟨z, hz, h⟩ := bind_eq_ok.mp h
      exact ⟨x, y, z, by rw [← hx]; congr 1; push_cast; ring, by rw [← hy]; congr 1; push_cast; ring, hz⟩
  by_cases h1 : 30 ≤ OU
  · obtain ⟨z, hz⟩ := (cell 30 h1 0 (by omega)).1 14 (by omega)
    rw [binomial_30_15] at hz
    cases hz
  by_cases h2 : 30 ≤ OV
  · obtain ⟨z, hz⟩ := (cell 0 (by omega) 30 h2).2.1 14 (by omega)
    rw [binomial_30_15] at hz
    cases hz
  have h3 : 2147483647 < OU.choose (OU / 2) * OV.choose (OV / 2) := by omega
  have small : ∀ k < 30, k.choose (k / 2) ≤ 77558760 := by decide
  have two : ∀ k : ℕ, k.choose (k / 2) ≤ 77558760 → ∀ l : ℕ, l < 2 → ¬ 2147483647 < k.choose (k / 2) * l.choose (l / 2) := by
    intro k hk l hl
    have : l.choose (l / 2) = 1 := by
      rcases (by omega : l = 0 ∨ l = 1) with rfl | rfl <;> rfl
    rw [this]; omega
  have hOU : 2 ≤ OU := by
    by_contra h
    refine two OV (small OV (by omega)) OU (by omega) ?_
    rw [mul_comm]; exact h3
  have hOV : 2 ≤ OV := by
    by_contra h
    exact two OU (small OU (by omega)) OV (by omega) h3
  obtain ⟨x, y, z, hx, hy, hz⟩ := (cell OU le_rfl OV le_rfl).2.2 (OU / 2 - 1) (by omega) (OV / 2 - 1) (by omega)
  rw [Props.C13_binomial OU (by omega) _] at hx
  rw [Props.C13_binomial OV (by omega) _] at hy
  rw [← Except.ok.inj hx, ← Except.ok.inj hy, show OU / 2 - 1 + 1 = OU / 2 by omega, show OV / 2 - 1 + 1 = OV / 2 by omega, ← Nat.cast_mul] at hz
  unfold int32 at hz
  rw [if_neg (by omega)] at hz
  cases hz

end Nurbs
