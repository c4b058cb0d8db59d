import Verif.Proof.SurfaceElev

/-! # Which accesses of the degree elevation loop are in range

Only lengths and indices matter here; nothing is assumed about the values of the control points. -/

set_option linter.unusedSectionVars false

namespace Nurbs
open Nurbs.Spec DegreeAlgo

variable {K : Type} [Field K] [LinearOrder K] [IsStrictOrderedRing K]

theorem vget_some {α : Type} {L : List α} {i : Int} {n : ℕ} (hi : i = n) (h : n < L.length) : ∃ v, vget L i = .ok v := by
  subst hi; exact ⟨_, vget_nat _ _ h⟩

theorem vset_len {α : Type} {L : List α} {i : Int} {n : ℕ} (hi : i = n) (h : n < L.length) (v : α) :
    ∃ L', vset L i v = .ok L' ∧ L'.length = L.length := by
  subst hi; exact ⟨_, vset_nat _ _ _ h, by simp⟩

theorem insertPart_safe {l : List K} {p mul a : ℕ} {ua ub : K} (hmul1 : 1 ≤ mul) (hl : a + p < l.length)
    (hgt : ∀ i, 1 ≤ i → i ≤ p → ua < kn l (a + i)) {bpts nextbpts : List (Vec4 K)} (hbl : bpts.length = p + 1)
    (hnl : nextbpts.length = p - 1) :
    ∃ b' n', insertPart l p mul ((p : Int) - mul) a ua ub bpts nextbpts = .ok (b', n') ∧ b'.length = p + 1 ∧ n'.length = p - 1 := by
  unfold insertPart
  by_cases hr : ((p : Int) - mul) > 0
  · rw [if_pos hr]
    simp only
    rw [vnew_of _ (p - 1) _ (by omega), bind_ok, forGe_eq_forDn _ _ (p - mul) (by omega)]
    obtain ⟨alfs, e1, hal⟩ := forDn_inv (fun k alfs => do
        vset alfs (k - mul - 1) (← fdiv (ub - ua) ((← vget l (a + k)) - ua)))
      (fun _ (alfs : List K) => alfs.length = p - 1) (p - mul) (p : Int) (List.replicate (p - 1) 0) (by simp) (by
        intro i hi s hsl
        have hk : (p : Int) - i = ((p - i : ℕ) : Int) := by omega
        rw [hk, vget_kn _ _ (a + (p - i)) (by push_cast; omega) (by omega), bind_ok,
          fdiv_ok (sub_pos.mpr (hgt _ (by omega) (by omega))).ne', bind_ok]
        obtain ⟨L, h1, h2⟩ := vset_len (L := s) (i := ((p - i : ℕ) : Int) - mul - 1) (n := p - i - mul - 1) (by omega) (by omega)
          ((ub - ua) / (kn l (a + (p - i)) - ua))
        exact ⟨L, h1, h2.trans hsl⟩)
    rw [e1, bind_ok, forLe_eq_forUp _ _ (p - mul) (by omega)]
    obtain ⟨⟨b', n'⟩, e2, hb'l, hn'l⟩ := forUp_inv (fun j (s : List (Vec4 K) × List (Vec4 K)) => do
        let save := ((p : Int) - mul) - j
        let sm := (mul : Int) + j
        let bpts ← forGe p sm (fun k bpts => do
          let alf ← vget alfs (k - sm)
          vset bpts k (alf • (← vget bpts k) + (1 - alf) • (← vget bpts (k - 1)))) s.1
        let nextbpts ← vset s.2 save (← vget bpts p)
        return (bpts, nextbpts))
      (fun _ (s : List (Vec4 K) × List (Vec4 K)) => s.1.length = p + 1 ∧ s.2.length = p - 1)
      (p - mul) 1 (bpts, nextbpts) ⟨hbl, hnl⟩ (by
        rintro j hj ⟨b0, n0⟩ ⟨h1, h2⟩
        simp only at h1 h2 ⊢
        rw [forGe_eq_forDn _ _ (p - mul - j) (by omega)]
        obtain ⟨b1, e3, hl3⟩ := forDn_inv (fun k bpts => do
            let alf ← vget alfs (k - ((mul : Int) + (1 + (j : Int))))
            vset bpts k (alf • (← vget bpts k) + (1 - alf) • (← vget bpts (k - 1))))
          (fun _ (b : List (Vec4 K)) => b.length = p + 1) (p - mul - j) (p : Int) b0 h1 (by
            rintro i hi b hbl'
            have hk : (p : Int) - i = ((p - i : ℕ) : Int) := by omega
            rw [hk]
            obtain ⟨v1, g1⟩ := vget_some (L := alfs) (i := ((p - i : ℕ) : Int) - ((mul : Int) + (1 + (j : Int)))) (n := p - i - (mul + (1 + j)))
              (by omega) (by omega)
            obtain ⟨v2, g2⟩ := vget_some (L := b) (i := ((p - i : ℕ) : Int)) (n := p - i) rfl (by omega)
            obtain ⟨v3, g3⟩ := vget_some (L := b) (i := ((p - i : ℕ) : Int) - 1) (n := p - i - 1) (by omega) (by omega)
            rw [g1, bind_ok, g2, bind_ok, g3, bind_ok]
            obtain ⟨L, h1, h2⟩ := vset_len (L := b) (i := ((p - i : ℕ) : Int)) (n := p - i) rfl (by omega) (v1 • v2 + (1 - v1) • v3)
            exact ⟨L, h1, h2.trans hbl'⟩)
        rw [e3, bind_ok]
        obtain ⟨v1, g1⟩ := vget_some (L := b1) (i := (p : Int)) (n := p) rfl (by omega)
        obtain ⟨L, g2, g3⟩ := vset_len (L := n0) (i := (p : Int) - mul - (1 + (j : Int))) (n := p - mul - (1 + j)) (by omega) (by omega) v1
        rw [g1, bind_ok, g2, bind_ok]
        exact ⟨_, rfl, hl3, g3.trans h2⟩)
    exact ⟨b', n', e2, hb'l, hn'l⟩
  · rw [if_neg hr]
    exact ⟨bpts, nextbpts, rfl, hbl, hnl⟩

theorem elevatePart_safe {p t z : ℕ} {f : ℕ → ℕ → K} {bpts ebpts : List (Vec4 K)} (hbl : bpts.length = p + 1) (hel : ebpts.length = p + t + 1) :
    ∃ e', elevatePart (tab (p + t + 1) fun i => tab (p + 1) fun j => f i j) p t ((p : Int) + t) z bpts ebpts = .ok e' ∧
      e'.length = p + t + 1 := by
  unfold elevatePart
  rw [forLe_eq_forUp _ _ (p + t + 1 - z) (by omega)]
  refine forUp_inv _ (fun _ (e : List (Vec4 K)) => e.length = p + t + 1) (p + t + 1 - z) (z : Int) ebpts hel ?_
  intro m hm e g1
  have hi : (z : Int) + m = ((z + m : ℕ) : Int) := by push_cast; rfl
  rw [hi]
  generalize hI : z + m = I at *
  simp only
  rw [vset_nat _ _ _ (by omega), bind_ok]
  have hlo : max 0 ((I : Int) - t) = ((I - t : ℕ) : Int) := by omega
  rw [hlo, forLe_eq_forUp _ _ (min p I + 1 - (I - t)) (by omega)]
  refine forUp_inv _ (fun _ (e : List (Vec4 K)) => e.length = p + t + 1) _ _ (e.set I 0) (by simpa using g1) ?_
  intro x hx e' l1
  obtain ⟨v1, k1⟩ := vget_some (L := e') (i := (I : Int)) (n := I) rfl (by omega)
  obtain ⟨v2, k2⟩ := vget_some (L := bpts) (i := ((I - t : ℕ) : Int) + x) (n := I - t + x) (by push_cast; rfl) (by omega)
  obtain ⟨L, k3, k4⟩ := vset_len (L := e') (i := (I : Int)) (n := I) rfl (by omega) (v1 + f I (I - t + x) • v2)
  rw [k1, bind_ok, mget_tab _ _ _ _ _ I (I - t + x) rfl (by push_cast; rfl) (by omega) (by omega), bind_ok, k2, bind_ok]
  exact ⟨L, k3, k4.trans l1⟩

theorem removePart_safe {Uh : List K} {ph kind o : ℕ} {ua ub : K} (hlen : kind ≤ Uh.length) (hkp : ph + 1 ≤ kind) (hop : o + 1 ≤ ph)
    (hlt : ∀ i < kind, kn Uh i < ua) (hab : ua < ub) {Qw ebpts : List (Vec4 K)} (hel : ebpts.length = ph + 1)
    (hql : kind ≤ Qw.length + (o + 1) / 2) (lbz : Int) :
    ∃ Q' e', removePart Uh ph kind ((kind : Int) - ((o + 1) / 2 : ℕ)) lbz o ua ub Qw ebpts = .ok (Q', e') ∧
      Q'.length = Qw.length ∧ e'.length = ph + 1 := by
  unfold removePart
  by_cases ho : (o : Int) > 1
  · have hden : ub - ua ≠ 0 := (sub_pos.mpr hab).ne'
    rw [if_pos ho]
    simp only
    rw [vget_kn Uh _ (kind - 1) (by omega) (by omega), bind_ok, fdiv_ok hden, bind_ok, forLt_eq_forUp _ _ (o - 1) (by omega)]
    obtain ⟨⟨Q', e', f', l'⟩, h5, h6, h7, -, -⟩ := forUp_inv (fun tr (s : List (Vec4 K) × List (Vec4 K) × Int × Int) => do
        let rs ← whileM ((s.2.2.2 - s.2.2.1).toNat + 1) (fun rs => .ok (decide (rs.j - rs.i > tr)))
          (removeBody Uh ph kind ((kind : Int) - ((o + 1) / 2 : ℕ)) lbz o tr ua ub (ub - ua)
            ((ub - kn Uh (kind - 1)) / (ub - ua)))
          ⟨s.2.2.1, s.2.2.2, s.2.2.2 - kind + 1, s.1, s.2.1⟩
        return (rs.Qw, rs.ebpts, s.2.2.1 - 1, s.2.2.2 + 1))
      (fun x s => s.1.length = Qw.length ∧ s.2.1.length = ph + 1 ∧ s.2.2.1 = (kind : Int) - 2 - x ∧ s.2.2.2 = (kind : Int) + x)
      (o - 1) 1 (Qw, ebpts, (kind : Int) - 2, (kind : Int)) ⟨rfl, hel, by simp, by simp⟩ (by
        rintro x hx ⟨Q1, e1, f1, l1⟩ ⟨hI1, hI2, hf, hl⟩
        simp only at hI1 hI2 hf hl ⊢
        obtain ⟨rs, k1, k2, k3, -⟩ := whileM_inv (fun rs : RemState K => .ok (decide (rs.j - rs.i > 1 + (x : Int))))
          (removeBody Uh ph kind ((kind : Int) - ((o + 1) / 2 : ℕ)) lbz o (1 + (x : Int)) ua ub (ub - ua)
            ((ub - kn Uh (kind - 1)) / (ub - ua)))
          (fun c rs => rs.Qw.length = Qw.length ∧ rs.ebpts.length = ph + 1 ∧
            rs.i = (kind : Int) - 1 - ((x + 1 : ℕ) : Int) + c ∧ rs.j = (kind : Int) + ((x + 1 : ℕ) : Int) - 1 - c ∧
            rs.kj = ((x + 1 : ℕ) : Int) - c) ((x + 2) / 2) ((l1 - f1).toNat + 1) ⟨f1, l1, l1 - kind + 1, Q1, e1⟩ (by omega)
          ⟨hI1, hI2, by simp only; omega, by simp only; omega, by simp only; omega⟩ (by
            rintro c hcx ⟨i, j, kj, Q2, e2⟩ ⟨i1, i2, g1, g2, g3⟩
            simp only at i1 i2 g1 g2 g3 ⊢
            refine ⟨by rw [decide_eq_true (by omega)], ?_⟩
            have hQ : ∃ Q3, removeQ Uh ((kind : Int) - ((o + 1) / 2 : ℕ)) i ua ub Q2 = .ok Q3 ∧ Q3.length = Qw.length := by
              unfold removeQ
              split_ifs with hc
              · have hi : i = ((kind - 1 - (x + 1 - c) : ℕ) : Int) := by omega
                obtain ⟨v1, m1⟩ := vget_some (L := Q2) hi (by omega)
                obtain ⟨v2, m2⟩ := vget_some (L := Q2) (i := i - 1) (n := kind - 1 - (x + 1 - c) - 1) (by omega) (by omega)
                obtain ⟨L, m3, m4⟩ := vset_len (L := Q2) hi (by omega)
                  (((ub - kn Uh (kind - 1 - (x + 1 - c))) / (ua - kn Uh (kind - 1 - (x + 1 - c)))) • v1 +
                    (1 - ((ub - kn Uh (kind - 1 - (x + 1 - c))) / (ua - kn Uh (kind - 1 - (x + 1 - c))))) • v2)
                rw [vget_kn _ _ _ hi (by omega), bind_ok, fdiv_ok (sub_pos.mpr (hlt _ (by omega))).ne', bind_ok, m1, bind_ok, m2, bind_ok]
                exact ⟨L, m3, m4.trans i1⟩
              · exact ⟨Q2, rfl, i1⟩
            have hE : ∃ e3, removeE Uh ph kind lbz o (1 + (x : Int)) j kj ub (ub - ua) ((ub - kn Uh (kind - 1)) / (ub - ua)) e2 = .ok e3 ∧
                e3.length = ph + 1 := by
              have hkj : kj = ((x + 1 - c : ℕ) : Int) := by omega
              have hw : ∀ w : K, ∃ e3, (do vset e2 kj (w • (← vget e2 kj) + (1 - w) • (← vget e2 (kj + 1)))) = .ok e3 ∧ e3.length = ph + 1 := by
                intro w
                obtain ⟨v1, m1⟩ := vget_some (L := e2) hkj (by omega)
                obtain ⟨v2, m2⟩ := vget_some (L := e2) (i := kj + 1) (n := x + 1 - c + 1) (by omega) (by omega)
                obtain ⟨L, m3, m4⟩ := vset_len (L := e2) hkj (by omega) (w • v1 + (1 - w) • v2)
                rw [m1, bind_ok, m2, bind_ok]
                exact ⟨L, m3, m4.trans i2⟩
              unfold removeE
              split_ifs with h1 h2
              · rw [vget_kn _ (j - (1 + (x : Int))) (kind - 1 - c) (by omega) (by omega), bind_ok, fdiv_ok hden, bind_ok]
                exact hw _
              · exact hw _
              · exact ⟨e2, rfl, i2⟩
            obtain ⟨Q3, q1, q2⟩ := hQ
            obtain ⟨e3, q3, q4⟩ := hE
            refine ⟨⟨i + 1, j - 1, kj - 1, Q3, e3⟩, ?_, q2, q4, by simp only; omega, by simp only; omega, by simp only; omega⟩
            unfold removeBody
            simp only
            rw [q1, bind_ok, q3, bind_ok]
            rfl) (by
            rintro ⟨i, j, kj, Q2, e2⟩ ⟨_, _, g1, g2, g3⟩
            simp only at g1 g2 g3 ⊢
            rw [decide_eq_false (by omega)])
        rw [k1, bind_ok]
        exact ⟨_, rfl, k2, k3, by simp only; omega, by simp only; omega⟩)
    rw [h5]
    simp only [bind_ok]
    exact ⟨Q', e', rfl, h6, h7⟩
  · rw [if_neg ho]
    exact ⟨Qw, ebpts, rfl, rfl, hel⟩

theorem forUp_failAt {σ : Type} (f : Int → σ → M σ) (P : ℕ → σ → Prop) (e : Err) (x : ℕ) :
    ∀ (n : ℕ) (lo : Int) (s : σ), x < n → P 0 s →
      (∀ i < x, ∀ s, P i s → ∃ s', f (lo + i) s = .ok s' ∧ P (i + 1) s') →
      (∀ s, P x s → f (lo + x) s = .error e) → forUp lo n f s = .error e := by
  induction x generalizing P with
  | zero =>
    intro n lo s hn h0 _ hx
    obtain ⟨m, rfl⟩ : ∃ m, n = m + 1 := ⟨n - 1, by omega⟩
    have := hx s h0
    simp only [Nat.cast_zero, add_zero] at this
    simp only [forUp, this, bind_error]
  | succ x ih =>
    intro n lo s hn h0 hs hx
    obtain ⟨m, rfl⟩ : ∃ m, n = m + 1 := ⟨n - 1, by omega⟩
    obtain ⟨s', h1, h2⟩ := hs 0 (by omega) s h0
    simp only [Nat.cast_zero, add_zero] at h1
    simp only [forUp, h1, bind_ok]
    refine ih (fun i => P (i + 1)) m (lo + 1) s' (by omega) h2 ?_ ?_
    · intro i hi s hs'
      have := hs (i + 1) (by omega) s hs'
      rwa [show lo + ((i + 1 : ℕ) : Int) = lo + 1 + i by push_cast; ring] at this
    · intro s hs'
      have := hx s hs'
      rwa [show lo + ((x + 1 : ℕ) : Int) = lo + 1 + x by push_cast; ring] at this

theorem whileM_err {σ : Type} (cond : σ → M Bool) (body : σ → M σ) (P : ℕ → σ → Prop) (e : Err) (x : ℕ) :
    ∀ (fuel : ℕ) (s : σ), x < fuel → P 0 s →
      (∀ i < x, ∀ s, P i s → cond s = .ok true ∧ ∃ s', body s = .ok s' ∧ P (i + 1) s') →
      (∀ s, P x s → cond s = .ok true ∧ body s = .error e) → whileM fuel cond body s = .error e := by
  induction x generalizing P with
  | zero =>
    intro n s hn h0 _ hx
    obtain ⟨m, rfl⟩ : ∃ m, n = m + 1 := ⟨n - 1, by omega⟩
    obtain ⟨h1, h2⟩ := hx s h0
    simp only [whileM, h1, h2, bind_ok, bind_error, if_true]
  | succ x ih =>
    intro n s hn h0 hs hx
    obtain ⟨m, rfl⟩ : ∃ m, n = m + 1 := ⟨n - 1, by omega⟩
    obtain ⟨h1, s', h2, h3⟩ := hs 0 (by omega) s h0
    simp only [whileM, h1, h2, bind_ok, if_true]
    exact ih (fun i => P (i + 1)) m s' (by omega) h3 (fun i hi s h => hs (i + 1) (by omega) s h) hx

theorem loadPoints_safe {z rb c N : ℕ} {e' Q' : List (Vec4 K)} (hq : Q'.length = N) (he : rb < e'.length) (hz : z ≤ rb + 1)
    (hN : c + rb + 1 ≤ N + z) : ∃ Q2, loadPoints z rb (c : Int) e' Q' = .ok (Q2, (c : Int) + rb + 1 - z) ∧ Q2.length = N := by
  unfold loadPoints
  rw [forLe_eq_forUp _ _ (rb + 1 - z) (by omega)]
  obtain ⟨⟨Q2, cd⟩, e1, g1, g2⟩ := forUp_inv (fun j (w : List (Vec4 K) × Int) => do
      return (← vset w.1 w.2 (← vget e' j), w.2 + 1))
    (fun x w => w.2 = ((c + x : ℕ) : Int) ∧ w.1.length = N) (rb + 1 - z) (z : Int) (Q', c) ⟨by simp, hq⟩ (by
      rintro x hx ⟨W, cd⟩ ⟨g1, g2⟩
      simp only at g1 g2 ⊢
      obtain ⟨v, k1⟩ := vget_some (L := e') (i := (z : Int) + x) (n := z + x) (by push_cast; rfl) (by omega)
      obtain ⟨L, k2, k3⟩ := vset_len (L := W) g1 (by omega) v
      rw [k1, bind_ok, k2, bind_ok]
      exact ⟨_, rfl, by simp only; omega, k3.trans g2⟩)
  simp only at g1 g2
  refine ⟨Q2, ?_, g2⟩
  rw [e1, g1]
  congr 2
  omega

theorem loadPoints_ub {z rb c N : ℕ} {e' Q' : List (Vec4 K)} (hq : Q'.length = N) (he : rb < e'.length) (hc : c ≤ N)
    (hN : N + z < c + rb + 1) : loadPoints z rb (c : Int) e' Q' = .error .ub := by
  unfold loadPoints
  rw [forLe_eq_forUp _ _ (rb + 1 - z) (by omega)]
  refine forUp_failAt _ (fun x w => w.2 = ((c + x : ℕ) : Int) ∧ w.1.length = N) .ub (N - c) (rb + 1 - z) (z : Int) (Q', (c : Int))
    (by omega) ⟨by simp, hq⟩ ?_ ?_
  · rintro x hx ⟨W, cd⟩ ⟨g1, g2⟩
    simp only at g1 g2 ⊢
    obtain ⟨v, k1⟩ := vget_some (L := e') (i := (z : Int) + x) (n := z + x) (by push_cast; rfl) (by omega)
    obtain ⟨L, k2, k3⟩ := vset_len (L := W) g1 (by omega) v
    rw [k1, bind_ok, k2, bind_ok]
    exact ⟨_, rfl, by simp only; omega, k3.trans g2⟩
  · rintro ⟨W, cd⟩ ⟨g1, g2⟩
    simp only at g1 g2 ⊢
    obtain ⟨v, k1⟩ := vget_some (L := e') (i := (z : Int) + (N - c : ℕ)) (n := z + (N - c)) (by push_cast; rfl) (by omega)
    rw [k1, bind_ok, vset_ge _ _ _ (by omega), bind_error]

theorem nextSegment_safe {p μ b1 : ℕ} {points bpts nextbpts : List (Vec4 K)} (hμ : μ ≤ p) (hμ1 : 1 ≤ μ) (hbl : bpts.length = p + 1)
    (hnl : nextbpts.length = p - 1) (hb : b1 < points.length) (hbp : μ ≤ b1) :
    ∃ b', nextSegment points p ((p : Int) - μ) (b1 : Int) bpts nextbpts = .ok b' ∧ b'.length = p + 1 := by
  unfold nextSegment
  rw [forLt_eq_forUp _ _ (p - μ) (by omega)]
  obtain ⟨b2, e1, g1⟩ := forUp_inv (fun j bpts => do vset bpts j (← vget nextbpts j))
    (fun _ b => b.length = p + 1) (p - μ) 0 bpts hbl (by
      intro x hx b g1
      obtain ⟨v, k1⟩ := vget_some (L := nextbpts) (i := 0 + (x : Int)) (n := x) (by simp) (by omega)
      obtain ⟨L, k2, k3⟩ := vset_len (L := b) (i := 0 + (x : Int)) (n := x) (by simp) (by omega) v
      rw [k1, bind_ok]
      exact ⟨L, k2, k3.trans g1⟩)
  rw [e1, bind_ok, forLe_eq_forUp _ _ (μ + 1) (by omega)]
  exact forUp_inv (fun j bpts => do vset bpts j (← vget points ((b1 : Int) - p + j)))
    (fun _ b => b.length = p + 1) (μ + 1) ((p : Int) - μ) b2 g1 (by
      intro x hx b g1
      obtain ⟨v, k1⟩ := vget_some (L := points) (i := (b1 : Int) - p + ((p : Int) - μ + x)) (n := b1 - μ + x) (by omega) (by omega)
      obtain ⟨L, k2, k3⟩ := vset_len (L := b) (i := (p : Int) - μ + x) (n := p - μ + x) (by omega) (by omega) v
      rw [k1, bind_ok]
      exact ⟨L, k2, k3.trans g1⟩)

theorem nextSegment_ub {p μ b1 : ℕ} {points bpts nextbpts : List (Vec4 K)} (hμ : p < μ) (hb : b1 < points.length) (hbp : μ ≤ b1) :
    nextSegment points p ((p : Int) - μ) (b1 : Int) bpts nextbpts = .error .ub := by
  unfold nextSegment
  rw [forLt_eq_forUp _ _ 0 (by omega)]
  simp only [forUp, bind_ok]
  rw [forLe_eq_forUp _ _ (μ + 1) (by omega)]
  simp only [forUp]
  obtain ⟨v, k1⟩ := vget_some (L := points) (i := (b1 : Int) - p + ((p : Int) - μ)) (n := b1 - μ) (by omega) (by omega)
  have k2 : vset bpts ((p : Int) - μ) v = .error .ub := by
    unfold vset
    rw [if_neg (by omega)]
  rw [k1, bind_ok, k2, bind_error]

/-- What the indices of the loop depend on: the runs of the knot vector and the number of control points. -/
structure SafeCtx (p t s : ℕ) (l : List K) (u : ℕ → K) (S S' : ℕ → ℕ) (points : List (Vec4 K)) : Prop where
  p1 : 1 ≤ p
  t1 : 1 ≤ t
  run : ClRuns p l s u S
  S0' : S' 0 = 0
  step : ∀ q, S' (q + 1) + S q = S' q + S (q + 1) + t
  sep : ∀ q < s, eps6 ≤ u (q + 1) - u q
  plen : points.length = S s

/-- State at the start of the iteration for span `q`, without the values of the points. -/
structure SafeInv (p t : ℕ) (u : ℕ → K) (S S' : ℕ → ℕ) (N q : ℕ) (st : State K) : Prop where
  mh : st.mh = (S' (q + 1) : Int) - 1
  a : st.a = (S (q + 1) : Int) - 1
  b : st.b = S (q + 1)
  ua : st.ua = u q
  ql : st.Qw.length = N
  ul : st.Uh.length = N + p + t + 1
  bl : st.bpts.length = p + 1
  nl : st.nextbpts.length = p - 1
  el : st.ebpts.length = p + t + 1
  zero : q = 0 → st.kind = S' 1 ∧ st.r = -1 ∧ st.cind = 1 ∧ 1 ≤ N ∧ ∀ i < S' 1, kn st.Uh i = u 0
  pos : q ≠ 0 → S (q + 1) ≤ S q + p ∧ st.kind = S' q ∧ st.r = (p : Int) - (S (q + 1) - S q : ℕ) ∧
    st.cind = (S' q : Int) - ((p - (S (q + 1) - S q) + 1) / 2 : ℕ) ∧ S' q ≤ N + (p - (S (q + 1) - S q) + 1) / 2 ∧
    ∀ i < S' q, kn st.Uh i < u q

/-- The iteration for span `q` stays inside its vectors. -/
def Fits (p s : ℕ) (S S' : ℕ → ℕ) (N q : ℕ) : Prop :=
  S' (q + 1) ≤ N + (p - (S (q + 1 + 1) - S (q + 1)) + 1) / 2 ∧ (q + 1 < s → S (q + 1 + 1) ≤ S (q + 1) + p)

variable {p t s : ℕ} {l : List K} {u : ℕ → K} {S S' : ℕ → ℕ} {points : List (Vec4 K)}

theorem SafeCtx.S'_eq (h : SafeCtx p t s l u S S' points) (q : ℕ) : S' q = S q + q * t := by
  induction q with
  | zero => simp [h.S0', h.run.S0]
  | succ q ih =>
    have := h.step q
    rw [Nat.succ_mul]
    omega

theorem SafeCtx.S'_mono (h : SafeCtx p t s l u S S' points) {q r : ℕ} (hqr : q ≤ r) (hr : r ≤ s + 1) : S' q ≤ S' r := by
  rw [h.S'_eq, h.S'_eq]
  have := h.run.S_mono hqr hr
  have := Nat.mul_le_mul_right t hqr
  omega

theorem kn_set {U : List K} {i j : ℕ} {v : K} (hi : i < U.length) : kn (U.set i v) j = if j = i then v else kn U j := by
  simp only [kn, List.getD_eq_getElem?_getD, getElem?_set_if hi]
  split_ifs <;> rfl

theorem loadKnots_safe (h : SafeCtx p t s l u S S' points) {N q : ℕ} (hq : q < s) {st : State K} (hI : SafeInv p t u S S' N q st) :
    ∃ U', loadKnots p ((p : Int) + t) st.r st.a st.kind (u q) st.Uh = .ok (U', (S' (q + 1) : Int)) ∧ U'.length = N + p + t + 1 ∧
      (∀ i < S' (q + 1), kn U' i < u (q + 1)) := by
  have hf := h.run.first
  have hlt := h.run.lt q hq
  unfold loadKnots
  by_cases h0 : q = 0
  · subst h0
    obtain ⟨k1, k2, k3, k4, k5⟩ := hI.zero rfl
    rw [if_neg (by rw [hI.a]; simp; omega), k1]
    refine ⟨st.Uh, rfl, hI.ul, fun i hi => ?_⟩
    rw [k5 i hi]
    exact hlt
  · obtain ⟨k0, k1, k2, k3, k4, k5⟩ := hI.pos h0
    have hstep := h.step q
    have hup := h.run.up q (by omega)
    obtain ⟨q0, rfl⟩ : ∃ q0, q = q0 + 1 := ⟨q - 1, by omega⟩
    have hpos := h.run.S_pos (q := q0) (by omega)
    rw [if_pos (by rw [hI.a]; omega), forLt_eq_forUp _ _ (S (q0 + 1 + 1) - S (q0 + 1) + t) (by rw [k2]; omega)]
    obtain ⟨⟨U', kd⟩, e1, g1, g2, g3⟩ := forUp_inv (fun _ (w : List K × Int) => do
        return (← vset w.1 w.2 (u (q0 + 1)), w.2 + 1))
      (fun x w => w.2 = ((S' (q0 + 1) + x : ℕ) : Int) ∧ w.1.length = N + p + t + 1 ∧ ∀ i < S' (q0 + 1) + x, kn w.1 i < u (q0 + 1 + 1))
      (S (q0 + 1 + 1) - S (q0 + 1) + t) 0 (st.Uh, st.kind) ⟨by simpa using k1, hI.ul, fun i hi => (k5 i (by simpa using hi)).trans hlt⟩ (by
        rintro x hx ⟨W, kd⟩ ⟨g1, g2, g3⟩
        simp only at g1 g2 g3 ⊢
        rw [g1, vset_nat _ _ _ (by omega)]
        refine ⟨_, rfl, by push_cast; ring, by simpa using g2, ?_⟩
        intro i hi
        simp only
        rw [kn_set (by omega)]
        split_ifs with hc
        · exact hlt
        · exact g3 i (by omega))
    simp only at g1 g2 g3
    rw [e1, g1]
    refine ⟨U', ?_, g2, fun i hi => g3 i (by omega)⟩
    congr 2
    omega

theorem mainBody_safe (h : SafeCtx p t s l u S S' points) {N q : ℕ} (hq : q < s) {st : State K} (hI : SafeInv p t u S S' N q st)
    (m : Int) (hm : m = (l.length : Int) - 1) (f : ℕ → ℕ → K) :
    (Fits p s S S' N q → ∃ st', mainBody l points (tab (p + t + 1) fun i => tab (p + 1) fun j => f i j) p t m st = .ok st' ∧
      (q + 1 < s → SafeInv p t u S S' N (q + 1) st') ∧ (q + 1 = s → st'.b = m ∧ st'.mh = (S' (s + 1) : Int) - 1)) ∧
    (¬ Fits p s S S' N q → mainBody l points (tab (p + t + 1) fun i => tab (p + 1) fun j => f i j) p t m st = .error .ub) := by
  have hf := h.run.first
  have hup := h.run.up (q + 1) (by omega)
  have hstep := h.step (q + 1)
  have hstep0 := h.step q
  have hpos := h.run.S_pos hq
  have hSle := h.run.S_le hq
  have hlen2 := h.run.S_mono (q := q + 1 + 1) (r := s + 1) (by omega) le_rfl
  rw [h.run.len] at hlen2
  have hp1 := h.p1
  have ht1 := h.t1
  have hpos' : p + t + 1 ≤ S' (q + 1) := by
    have := h.S'_eq (q + 1)
    rw [Nat.succ_mul] at this
    omega
  -- `lbz`
  have hz : (if st.r > 0 then (st.r + 2).tdiv 2 else 1 : Int) = (zOf p S q : ℕ) := by
    by_cases h0 : q = 0
    · rw [(hI.zero h0).2.1]; simp [zOf, h0]
    · obtain ⟨k0, k1, k2, -⟩ := hI.pos h0
      rw [k2, show zOf p S q = (p - (S (q + 1) - S q)) / 2 + 1 by simp [zOf, h0]]
      split_ifs with hc
      · rw [Int.tdiv_eq_ediv_of_nonneg (by omega)]; omega
      · omega
  have hz1 : 1 ≤ zOf p S q := by unfold zOf; split_ifs <;> omega
  have hzp : zOf p S q ≤ p / 2 + 1 := by unfold zOf; split_ifs <;> omega
  -- `rbz`
  obtain ⟨rb, hrb, hrb1, hrb2⟩ : ∃ rb : ℕ, (if (p : Int) - (S (q + 1 + 1) - S (q + 1) : ℕ) > 0 then
      (p : Int) + t - ((p : Int) - (S (q + 1 + 1) - S (q + 1) : ℕ) + 1).tdiv 2 else (p : Int) + t) = rb ∧
      rb + (p - (S (q + 1 + 1) - S (q + 1)) + 1) / 2 = p + t ∧ rb ≤ p + t := by
    refine ⟨p + t - (p - (S (q + 1 + 1) - S (q + 1)) + 1) / 2, ?_, by omega, by omega⟩
    split_ifs with hc
    · rw [Int.tdiv_eq_ediv_of_nonneg (by omega)]; omega
    · omega
  -- the pieces
  obtain ⟨bp, nb, i1, i2, i3⟩ := insertPart_safe (l := l) (p := p) (mul := S (q + 1 + 1) - S (q + 1)) (a := S (q + 1) - 1) (ua := u q)
    (ub := u (q + 1)) (by omega) (by omega)
    (fun i h1 h2 => h.run.gt_of (by omega) (by omega) (by omega)) hI.bl hI.nl
  obtain ⟨eb, j1, j2⟩ := elevatePart_safe (t := t) (z := zOf p S q) (f := f) i2 hI.el
  have hrem : ∃ Q' e', removePart st.Uh ((p : Int) + t) st.kind st.cind (zOf p S q) st.r (u q) (u (q + 1)) st.Qw eb = .ok (Q', e') ∧
      Q'.length = N ∧ e'.length = p + t + 1 ∧ st.cind = (S' (q + 1) : Int) - (p + t) - 1 + zOf p S q ∧ S' (q + 1) + zOf p S q ≤ N + p + t + 1 := by
    by_cases h0 : q = 0
    · obtain ⟨k1, k2, k3, k4, k5⟩ := hI.zero h0
      refine ⟨st.Qw, eb, ?_, hI.ql, j2, ?_, ?_⟩
      · unfold removePart
        rw [if_neg (by omega)]; rfl
      · subst h0
        have := h.run.S0
        have := h.S0'
        simp only [zero_add] at hstep0
        rw [k3]; simp [zOf]; omega
      · subst h0
        have := h.run.S0
        have := h.S0'
        simp only [zero_add] at hstep0
        simp [zOf]; omega
    · obtain ⟨k0, k1, k2, k3, k4, k5⟩ := hI.pos h0
      have hup0 := h.run.up q (by omega)
      have hzq : zOf p S q = (p - (S (q + 1) - S q)) / 2 + 1 := by simp [zOf, h0]
      have hkp : p + t + 1 ≤ S' q := by
        obtain ⟨q0, rfl⟩ : ∃ q0, q = q0 + 1 := ⟨q - 1, by omega⟩
        have := h.S'_eq (q0 + 1)
        rw [Nat.succ_mul] at this
        have := h.run.S_pos (q := q0) (by omega)
        omega
      obtain ⟨Q', e', r1, r2, r3⟩ := removePart_safe (Uh := st.Uh) (ph := p + t) (kind := S' q) (o := p - (S (q + 1) - S q)) (ua := u q) (ub := u (q + 1))
        (by rw [hI.ul]; omega) hkp (by omega) k5 (h.run.lt q hq) j2 (by rw [hI.ql]; exact k4) (zOf p S q)
      refine ⟨Q', e', ?_, r2.trans hI.ql, r3, ?_, ?_⟩
      · rw [k1, k2, k3, show (p : Int) + t = ((p + t : ℕ) : Int) by push_cast; rfl,
          show (p : Int) - ((S (q + 1) - S q : ℕ) : Int) = ((p - (S (q + 1) - S q) : ℕ) : Int) by omega]
        exact r1
      · rw [k3, hzq]; omega
      · rw [hzq]; omega
  obtain ⟨Q', e', k1, k2, k3, k4, k5⟩ := hrem
  obtain ⟨U', l1, l2, l3⟩ := loadKnots_safe h hq hI
  have ea : ((S (q + 1) : Int) - 1) = ((S (q + 1) - 1 : ℕ) : Int) := by omega
  have eb' : ((S (q + 1 + 1) : Int) - 1 - S (q + 1) + 1) = ((S (q + 1 + 1) - S (q + 1) : ℕ) : Int) := by omega
  have ec : st.cind = ((S' (q + 1) - (p + t) - 1 + zOf p S q : ℕ) : Int) := by omega
  rw [hI.a, ea] at l1
  unfold mainBody
  simp only
  rw [hI.b, skipEqual_run h.run h.sep hq m hm, bind_ok, vget_kn l _ (S (q + 1 + 1) - 1) (by omega) (by omega), bind_ok,
    h.run.val (q + 1) (by omega) _ (by omega) (by omega), hz, eb', hrb, hI.a, hI.ua, ea, i1, bind_ok]
  simp only
  rw [j1, bind_ok, k1, bind_ok]
  simp only
  rw [l1, bind_ok]
  simp only
  by_cases hfit : S' (q + 1) ≤ N + (p - (S (q + 1 + 1) - S (q + 1)) + 1) / 2
  · obtain ⟨Q2, m1, m2⟩ := loadPoints_safe (z := zOf p S q) (rb := rb) (c := S' (q + 1) - (p + t) - 1 + zOf p S q) k2 (e' := e') (by omega)
      (by omega) (by omega)
    rw [ec, m1, bind_ok]
    simp only
    by_cases hlast : q + 1 = s
    · have hl := h.run.len
      rw [← hlast] at hl
      have hf1 := h.run.last
      rw [← hlast] at hf1
      rw [if_neg (by omega), forLe_eq_forUp _ _ (p + t + 1) (by omega)]
      obtain ⟨U2, e1, g1⟩ := forUp_inv (fun i Uh => vset Uh ((S' (q + 1) : Int) + i) (u (q + 1)))
        (fun x W => W.length = N + p + t + 1) (p + t + 1) 0 U' l2 (by
          rintro x hx W g1
          obtain ⟨L, n1, n2⟩ := vset_len (L := W) (i := (S' (q + 1) : Int) + (0 + x)) (n := S' (q + 1) + x) (by push_cast; ring) (by omega) (u (q + 1))
          exact ⟨L, n1, n2.trans g1⟩)
      rw [e1, bind_ok]
      refine ⟨fun _ => ⟨_, rfl, fun hc => absurd hc (by omega), fun _ => ⟨?_, ?_⟩⟩, fun hc => absurd ⟨hfit, fun hc => absurd hc (by omega)⟩ hc⟩
      · simp only; omega
      · simp only; rw [hI.mh, ← hlast]; omega
    · have hup2 := h.run.up (q + 1 + 1) (by omega)
      have hlen3 := h.run.S_mono (q := q + 1 + 1 + 1) (r := s + 1) (by omega) le_rfl
      rw [h.run.len] at hlen3
      have hSs := h.run.S_mono (q := q + 1 + 1) (r := s) (by omega) (by omega)
      have hpl := h.plen
      rw [if_pos (by omega), show (S (q + 1 + 1) : Int) - 1 = ((S (q + 1 + 1) - 1 : ℕ) : Int) by omega]
      constructor
      · rintro ⟨-, hmul⟩
        have hmul := hmul (by omega)
        obtain ⟨b2, n1, n2⟩ := nextSegment_safe (p := p) (μ := S (q + 1 + 1) - S (q + 1)) (b1 := S (q + 1 + 1) - 1) (points := points)
          (by omega) (by omega) i2 i3 (by omega) (by omega)
        rw [n1, bind_ok]
        refine ⟨_, rfl, fun _ => ?_, fun hc => absurd hc hlast⟩
        refine ⟨?_, ?_, ?_, rfl, m2, l2, n2, i3, k3, fun hc => absurd hc (by omega), fun _ => ⟨hmul, rfl, rfl, ?_, hfit, l3⟩⟩
        · simp only; rw [hI.mh]; omega
        · simp only; omega
        · simp only; omega
        · simp only; omega
      · intro hnf
        have hmul : p < S (q + 1 + 1) - S (q + 1) := by
          by_contra hc
          exact hnf ⟨hfit, fun _ => by omega⟩
        rw [nextSegment_ub hmul (by omega) (by omega), bind_error]
  · have := loadPoints_ub (z := zOf p S q) (rb := rb) (c := S' (q + 1) - (p + t) - 1 + zOf p S q) k2 (e' := e') (by omega)
      (by omega) (by omega)
    rw [ec, this, bind_error]
    exact ⟨fun hc => absurd hc.1 hfit, fun _ => rfl⟩

/-! ### The table of coefficients for high degrees -/

theorem binomial_cases (n k : ℕ) : Binomial n k = .ok (n.choose k : Int) ∨ Binomial n k = .error .ub := by
  by_cases h : ∀ i, 1 ≤ i → i ≤ k → i * n.choose i ≤ 2147483647
  · exact Or.inl ((Props.C13_binomial_exact n k).1 h)
  · push Not at h
    obtain ⟨i, h1, h2, h3⟩ := h
    by_cases hk : k ≤ n
    · exact Or.inr ((Props.C13_binomial_exact n k).2 ⟨hk, i, h1, h2, h3⟩)
    · left
      rw [(Props.C13_binomial_edge n k).1 (by omega), Nat.choose_eq_zero_of_lt (by omega)]
      rfl

theorem forUp_or {σ : Type} (f : Int → σ → M σ) (P : ℕ → σ → Prop) (e : Err) (n : ℕ) (lo : Int) (s : σ) (h0 : P 0 s)
    (h : ∀ i < n, ∀ s, P i s → (∃ s', f (lo + i) s = .ok s' ∧ P (i + 1) s') ∨ f (lo + i) s = .error e) :
    (∃ s', forUp lo n f s = .ok s' ∧ P n s') ∨ forUp lo n f s = .error e := by
  induction n generalizing P lo s with
  | zero => exact Or.inl ⟨s, rfl, h0⟩
  | succ n ih =>
    rcases h 0 (by omega) s h0 with ⟨s', h1, h2⟩ | h1
    · simp only [Nat.cast_zero, add_zero] at h1
      simp only [forUp, h1, bind_ok]
      refine ih (fun i => P (i + 1)) (lo + 1) s' h2 ?_
      intro i hi s hs
      have := h (i + 1) (by omega) s hs
      rwa [show lo + ((i + 1 : ℕ) : Int) = lo + 1 + i by push_cast; ring] at this
    · simp only [Nat.cast_zero, add_zero] at h1
      right
      simp only [forUp, h1, bind_error]

theorem forUp_or_err {σ : Type} (f : Int → σ → M σ) (P : ℕ → σ → Prop) (e : Err) (x n : ℕ) (lo : Int) (s : σ) (hx : x < n) (h0 : P 0 s)
    (h : ∀ i < x, ∀ s, P i s → (∃ s', f (lo + i) s = .ok s' ∧ P (i + 1) s') ∨ f (lo + i) s = .error e)
    (he : ∀ s, P x s → f (lo + x) s = .error e) : forUp lo n f s = .error e := by
  induction x generalizing P n lo s with
  | zero => exact forUp_failAt f P e 0 n lo s hx h0 (fun i hi => absurd hi (by omega)) he
  | succ x ih =>
    obtain ⟨m, rfl⟩ : ∃ m, n = m + 1 := ⟨n - 1, by omega⟩
    rcases h 0 (by omega) s h0 with ⟨s', h1, h2⟩ | h1
    · simp only [Nat.cast_zero, add_zero] at h1
      simp only [forUp, h1, bind_ok]
      refine ih (fun i => P (i + 1)) m (lo + 1) s' (by omega) h2 ?_ ?_
      · intro i hi s hs
        have := h (i + 1) (by omega) s hs
        rwa [show lo + ((i + 1 : ℕ) : Int) = lo + 1 + i by push_cast; ring] at this
      · intro s hs
        have := he s hs
        rwa [show lo + ((x + 1 : ℕ) : Int) = lo + 1 + x by push_cast; ring] at this
    · simp only [Nat.cast_zero, add_zero] at h1
      simp only [forUp, h1, bind_error]

theorem makeBezalfs_ub {p t : ℕ} (h30 : 30 ≤ p + t) : makeBezalfs (K := K) p t = .error .ub := by
  unfold makeBezalfs
  simp only
  have hph2 : ((p : Int) + t).tdiv 2 = (((p + t) / 2 : ℕ) : Int) := by
    rw [Int.tdiv_eq_ediv_of_nonneg (by omega)]; omega
  have hph : (p : Int) + t = ((p + t : ℕ) : Int) := by push_cast; rfl
  rw [hph2, vnew_of _ (p + 1) _ (by push_cast; rfl), bind_ok, vnew_of _ (p + t + 1) _ (by push_cast; rfl), bind_ok]
  have e0 : List.replicate (p + t + 1) (List.replicate (p + 1) (0 : K)) = tab (p + t + 1) fun _ => tab (p + 1) fun _ => (0 : K) := by
    simp [tab, List.map_const']
  rw [e0, mset_tab (p + t + 1) (p + 1) _ (fun k l => if k = p + t ∧ l = p then (1 : K) else 0) _ _ (p + t) p 1 (by push_cast; rfl) rfl
    (by omega) (by omega) (fun k _ l _ => rfl), bind_ok,
    mset_tab (p + t + 1) (p + 1) _ (fun k l => if k = 0 ∧ l = 0 then 1 else if k = p + t ∧ l = p then (1 : K) else 0) 0 0 0 0 1 rfl rfl
    (by omega) (by omega) (fun k _ l _ => rfl), bind_ok, forLe_eq_forUp _ _ ((p + t) / 2) (by omega)]
  rw [forUp_or_err _ (fun _ m => ∃ f : ℕ → ℕ → K, m = tab (p + t + 1) fun k => tab (p + 1) fun l => f k l) .ub 14 ((p + t) / 2) 1 _ (by omega)
    ⟨_, rfl⟩ ?_ ?_, bind_error]
  · rintro x hx m ⟨f, rfl⟩
    have hix : (1 : Int) + x = ((x + 1 : ℕ) : Int) := by push_cast; ring
    rw [hix, hph]
    rcases binomial_cases (p + t) (x + 1) with hB | hB
    · have hpos : (((p + t).choose (x + 1) : Int) : K) ≠ 0 := by
        have : 0 < (p + t).choose (x + 1) := Nat.choose_pos (by omega)
        exact_mod_cast this.ne'
      rw [hB, bind_ok, fdiv_ok hpos, bind_ok]
      have hlo : max 0 (((x + 1 : ℕ) : Int) - t) = ((x + 1 - t : ℕ) : Int) := by omega
      rw [hlo, forLe_eq_forUp _ _ (min p (x + 1) + 1 - (x + 1 - t)) (by omega)]
      refine forUp_or _ (fun _ m => ∃ f : ℕ → ℕ → K, m = tab (p + t + 1) fun k => tab (p + 1) fun l => f k l) .ub _ _ _ ⟨f, rfl⟩ ?_
      rintro y hy m ⟨g, rfl⟩
      have hj : ((x + 1 - t : ℕ) : Int) + y = ((x + 1 - t + y : ℕ) : Int) := by push_cast; rfl
      generalize hJ : x + 1 - t + y = J at *
      have hij : ((x + 1 : ℕ) : Int) - J = ((x + 1 - J : ℕ) : Int) := by omega
      rw [hj, hij]
      rcases binomial_cases p J with h1 | h1
      · rcases binomial_cases t (x + 1 - J) with h2 | h2
        · left
          rw [h1, bind_ok, h2, bind_ok]
          exact ⟨_, mset_tab _ _ _ (fun k l => if k = x + 1 ∧ l = J then _ else g k l) _ _ (x + 1) J _ rfl rfl (by omega) (by omega)
            (fun k _ l _ => rfl), _, rfl⟩
        · right
          rw [h1, bind_ok, h2, bind_error]
      · right
        rw [h1, bind_error]
    · right
      rw [hB, bind_error]
  · rintro m -
    have hc : (30 : ℕ).choose 15 ≤ (p + t).choose 15 := Nat.choose_le_choose 15 h30
    have h30' : (30 : ℕ).choose 15 = 155117520 := by decide +kernel
    have := (Props.C13_binomial_exact (p + t) 15).2 ⟨by omega, 15, by omega, le_rfl, by omega⟩
    rw [hph, show (1 : Int) + (14 : ℕ) = (15 : ℕ) by norm_num, this, bind_error]

/-! ### The whole function -/

theorem mapMList_fromHomo_ne_ub (L : List (Vec4 K)) : mapMList FromHomo L ≠ .error .ub := by
  induction L with
  | nil => simp [mapMList]
  | cons v L ih =>
    simp only [mapMList]
    by_cases hw : v.w = 0
    · have : FromHomo v = .error .nonfinite := by simp [FromHomo, fdiv, hw]
      rw [this, bind_error]
      simp
    · rw [fromHomo_ok hw, bind_ok]
      cases hL : mapMList FromHomo L with
      | error e => rw [bind_error]; rw [hL] at ih; simpa using ih
      | ok a => rw [bind_ok]; simp

theorem mapMList_len {α β : Type} (f : α → M β) (L : List α) {L' : List β} (h : mapMList f L = .ok L') : L'.length = L.length := by
  induction L generalizing L' with
  | nil => simp only [mapMList, Except.ok.injEq] at h; rw [← h]; rfl
  | cons v L ih =>
    simp only [mapMList] at h
    obtain ⟨b, -, h⟩ := bind_eq_ok.mp h
    obtain ⟨bs, h1, h⟩ := bind_eq_ok.mp h
    simp only [Except.ok.injEq] at h
    rw [← h, List.length_cons, List.length_cons, ih h1]

/-- When `NurbsDegreeElevation` leaves its vectors, for small degrees, and how many points it returns otherwise. -/
theorem nde_outcome (pl : List (Vec4 K)) (h : SafeCtx p t s l u S S' (pl.map ToHomo)) (h29 : p + t ≤ 29) :
    ((∃ q < s, ¬ Fits p s S S' (2 * (S s - 1 + t)) q) → NurbsDegreeElevation ⟨l⟩ pl p t = .error .ub) ∧
    ((¬ ∃ q < s, ¬ Fits p s S S' (2 * (S s - 1 + t)) q) → NurbsDegreeElevation ⟨l⟩ pl p t ≠ .error .ub ∧
      ∀ r, NurbsDegreeElevation ⟨l⟩ pl p t = .ok r → r.2.1.length = S' s) := by
  have hs := h.run.s1
  have hp1 := h.p1
  have ht1 := h.t1
  have hf := h.run.first
  have hSs := h.run.S_pos (q := s - 1) (by omega)
  rw [Nat.sub_add_cancel hs] at hSs
  have hlen := h.run.len
  rw [h.run.last] at hlen
  have hplen := h.plen
  have hadd := h.run.S_add (q := 1) (r := s) (by omega) (by omega)
  have hS1 : S' 1 = p + t + 1 := by
    have := h.S'_eq 1
    rw [one_mul] at this
    omega
  obtain ⟨v0, hv0⟩ := vget_some (L := pl.map ToHomo) (i := 0) (n := 0) rfl (by omega)
  unfold NurbsDegreeElevation
  simp only
  rw [massert_true (by omega), bind_ok, makeBezalfs_ok ht1 h29, bind_ok, vget_kn l 0 0 rfl (by omega), bind_ok,
    h.run.val 0 (by omega) 0 (by rw [h.run.S0]) (by simp [hf]),
    vnew_of _ (2 * (S s - 1 + t)) _ (by rw [hplen]; omega), bind_ok, hv0, bind_ok,
    show vset (List.replicate (2 * (S s - 1 + t)) (0 : Vec4 K)) 0 v0 = .ok ((List.replicate (2 * (S s - 1 + t)) (0 : Vec4 K)).set 0 v0)
      from vset_nat _ 0 _ (by simp; omega), bind_ok,
    vnew_of _ (2 * (S s - 1 + t) + p + t + 1) _ (by rw [hplen]; omega), bind_ok]
  obtain ⟨U, hU, hU1, hU2⟩ := fill_ok (K := K) (N := 2 * (S s - 1 + t) + p + t + 1) (n := p + t + 1) (v := u 0) (by omega)
  have e29 : ((p : Int) + t + 1) = ((p + t + 1 : ℕ) : Int) := by push_cast; rfl
  rw [e29, hU, bind_ok, if_pos (by omega), show (pure : List (Vec4 K) → M (List (Vec4 K))) = Except.ok by rfl,
    bind_ok, vnew_of _ (p - 1) _ (by omega), bind_ok, vnew_of _ (p + t + 1) _ rfl, bind_ok]
  have hm : ((pl.map ToHomo).length : Int) - 1 + p + 1 = (l.length : Int) - 1 := by rw [hplen]; omega
  have hinit : SafeInv p t u S S' (2 * (S s - 1 + t)) 0
    { mh := (p : Int) + t, kind := ((p + t + 1 : ℕ) : Int), r := -1, a := p, b := (p : Int) + 1, cind := 1, ua := u 0,
      Qw := (List.replicate (2 * (S s - 1 + t)) (0 : Vec4 K)).set 0 v0, Uh := U, bpts := (pl.map ToHomo).take ((p : Int) + 1).toNat,
      nextbpts := List.replicate (p - 1) 0, ebpts := List.replicate (p + t + 1) 0 } := by
    refine ⟨by simp only [zero_add]; omega, by simp only [zero_add]; omega, by simp only [zero_add]; omega, rfl, by simp, hU1, ?_, by simp, by simp,
      fun _ => ⟨by simp only; omega, rfl, rfl, by omega, ?_⟩, fun hc => absurd rfl hc⟩
    · rw [List.length_take, hplen]; omega
    · intro i hi
      exact kn_of_getElem? (hU2 i (by omega))
  have hcond : ∀ q < s, ∀ st, SafeInv p t u S S' (2 * (S s - 1 + t)) q st → decide (st.b < ((pl.map ToHomo).length : Int) - 1 + p + 1) = true := by
    intro q hq st hI
    have := h.run.S_mono (q := q + 1) (r := s) (by omega) (by omega)
    rw [hI.b, decide_eq_true (by rw [hplen]; omega)]
  constructor
  · intro hex
    obtain ⟨q, ⟨hq, hnf⟩, hmin⟩ : ∃ q, (q < s ∧ ¬ Fits p s S S' (2 * (S s - 1 + t)) q) ∧
        ∀ r < q, ¬ (r < s ∧ ¬ Fits p s S S' (2 * (S s - 1 + t)) r) := by
      classical
      exact ⟨Nat.find hex, Nat.find_spec hex, fun r hr => Nat.find_min hex hr⟩
    have hSq := h.run.S_add (q := 1) (r := q + 1) (by omega) (by omega)
    have hSq2 := h.run.S_mono (q := q + 1) (r := s) (by omega) (by omega)
    rw [whileM_err (fun st : State K => .ok (decide (st.b < ((pl.map ToHomo).length : Int) - 1 + p + 1)))
      (mainBody l (pl.map ToHomo) (tab (p + t + 1) fun i => tab (p + 1) fun j => bezCoef K p t i j) p t (((pl.map ToHomo).length : Int) - 1 + p + 1))
      (fun x st => SafeInv p t u S S' (2 * (S s - 1 + t)) x st) .ub q
      ((((pl.map ToHomo).length : Int) - 1 + p + 1 - p).toNat + 1) _ (by rw [hplen]; omega) hinit (by
        intro x hx st hI
        refine ⟨by rw [hcond x (by omega) st hI], ?_⟩
        obtain ⟨st', m1, m2, m3⟩ := (mainBody_safe h (by omega) hI (((pl.map ToHomo).length : Int) - 1 + p + 1) hm _).1
          (by have := hmin x hx; by_contra hc; exact this ⟨by omega, hc⟩)
        exact ⟨st', m1, m2 (by omega)⟩) (by
        intro st hI
        exact ⟨by rw [hcond q hq st hI], (mainBody_safe h hq hI (((pl.map ToHomo).length : Int) - 1 + p + 1) hm _).2 hnf⟩), bind_error]
  · intro hall
    push Not at hall
    obtain ⟨st, w1, -, w2⟩ := whileM_inv (fun st : State K => .ok (decide (st.b < ((pl.map ToHomo).length : Int) - 1 + p + 1)))
      (mainBody l (pl.map ToHomo) (tab (p + t + 1) fun i => tab (p + 1) fun j => bezCoef K p t i j) p t (((pl.map ToHomo).length : Int) - 1 + p + 1))
      (fun x st => (x < s → SafeInv p t u S S' (2 * (S s - 1 + t)) x st) ∧
        (x = s → st.b = ((pl.map ToHomo).length : Int) - 1 + p + 1 ∧ st.mh = (S' (s + 1) : Int) - 1)) s
      ((((pl.map ToHomo).length : Int) - 1 + p + 1 - p).toNat + 1) _ (by rw [hplen]; omega)
      ⟨fun _ => hinit, fun hc => absurd hc (by omega)⟩ (by
        rintro x hx st ⟨g1, -⟩
        have hI := g1 hx
        refine ⟨by rw [hcond x hx st hI], ?_⟩
        obtain ⟨st', m1, m2, m3⟩ := (mainBody_safe h hx hI (((pl.map ToHomo).length : Int) - 1 + p + 1) hm _).1 (hall x hx)
        exact ⟨st', m1, m2, m3⟩) (by
        rintro st ⟨-, g2⟩
        rw [(g2 rfl).1, decide_eq_false (by omega)])
    have hmh := (w2 rfl).2
    have hSl : S' (s + 1) = S' s + (p + t + 1) := by have := h.step s; have := h.run.last; omega
    rw [w1, bind_ok, vresize_of _ _ (S' s) _ (by rw [hmh]; omega), bind_ok, vresize_of _ _ (S' (s + 1)) _ (by rw [hmh]; omega), bind_ok]
    cases hr3 : mapMList FromHomo (st.Qw.take (S' s) ++ List.replicate (S' s - st.Qw.length) 0) with
    | error e =>
      rw [bind_error]
      refine ⟨fun hub => ?_, fun r hr => by cases hr⟩
      injection hub with hub
      rw [hub] at hr3
      exact mapMList_fromHomo_ne_ub _ hr3
    | ok d =>
      rw [bind_ok]
      have hd := mapMList_len _ _ hr3
      rw [List.length_append, List.length_take, List.length_replicate] at hd
      unfold KnotVector.ofValues
      split_ifs
      · exact ⟨by simp, fun r hr => by cases hr⟩
      · refine ⟨by simp, fun r hr => ?_⟩
        simp only [bind_ok, pure_ok, Except.ok.injEq] at hr
        rw [← hr]
        simp only
        omega

theorem nde_ub_iff (pl : List (Vec4 K)) (h : SafeCtx p t s l u S S' (pl.map ToHomo)) (h29 : p + t ≤ 29) :
    NurbsDegreeElevation ⟨l⟩ pl p t = .error .ub ↔ ∃ q < s, ¬ Fits p s S S' (2 * (S s - 1 + t)) q := by
  obtain ⟨h1, h2⟩ := nde_outcome pl h h29
  refine ⟨fun hub => ?_, h1⟩
  by_contra hc
  exact (h2 hc).1 hub

/-- The spans all fit exactly if the multiplicities and the size of the buffer allow it. -/
theorem fits_iff (h : SafeCtx p t s l u S S' points) {N : ℕ} :
    (∃ q < s, ¬ Fits p s S S' N q) ↔ N < S' s ∨ ∃ q, 1 ≤ q ∧ q < s ∧ p < S (q + 1) - S q := by
  have hs := h.run.s1
  have hlast := h.run.last
  constructor
  · rintro ⟨q, hq, hnf⟩
    by_contra hc
    push Not at hc
    apply hnf
    have := h.S'_mono (q := q + 1) (r := s) (by omega) (by omega)
    refine ⟨by omega, fun h1 => ?_⟩
    have := hc.2 (q + 1) (by omega) h1
    omega
  · rintro (hc | ⟨q, h1, h2, h3⟩)
    · refine ⟨s - 1, by omega, fun hf => ?_⟩
      have := hf.1
      rw [Nat.sub_add_cancel hs] at this
      omega
    · refine ⟨q - 1, by omega, fun hf => ?_⟩
      have := hf.2 (by omega)
      rw [Nat.sub_add_cancel h1] at this
      omega

/-- The three conditions under which the elevation leaves its vectors or overflows. -/
def ElevBad (p t n : ℕ) (l : List K) : Prop := 30 ≤ p + t ∨ ¬ InteriorMult p l ∨ 2 * (n - 1 + t) < n + t * spanCount l

/-- The outcome for a well-formed curve with separated knots. -/
theorem nde_cases {p t : ℕ} (hp : 1 ≤ p) (ht : 1 ≤ t) {c : Curve K} (hw : WFCurve p c) (hs : KnotsApart c.Knots.Values) :
    (ElevBad p t c.ControlPoints.length c.Knots.Values → NurbsDegreeElevation c.Knots c.ControlPoints p t = .error .ub) ∧
    (¬ ElevBad p t c.ControlPoints.length c.Knots.Values → NurbsDegreeElevation c.Knots c.ControlPoints p t ≠ .error .ub ∧
      ∀ r, NurbsDegreeElevation c.Knots c.ControlPoints p t = .ok r →
        r.2.1.length = c.ControlPoints.length + t * spanCount c.Knots.Values) := by
  by_cases h30 : 30 ≤ p + t
  · refine ⟨fun _ => ?_, fun hc => absurd (Or.inl h30) hc⟩
    unfold NurbsDegreeElevation
    rw [massert_true (by omega), bind_ok]
    simp only
    rw [makeBezalfs_ub h30, bind_error]
  obtain ⟨s, u, μ, hl, hu, hμ, hrun, hcount, hu0, hus, hsc⟩ := exists_clRuns hw.clamped
  have hlen := hrun.len
  rw [hrun.last, hw.count] at hlen
  have hmem : ∀ q ≤ s, u q ∈ c.Knots.Values := fun q hq =>
    List.count_pos_iff.mp (by rw [hcount q hq]; have := hμ q hq; omega)
  have hctx : SafeCtx p t s c.Knots.Values u (sumTo μ) (sumTo fun q => μ q + t) (c.ControlPoints.map ToHomo) := by
    refine ⟨hp, ht, hrun, rfl, ?_, ?_, ?_⟩
    · intro q
      rw [sumTo_succ, sumTo_succ]; omega
    · intro q hq
      exact hs _ (hmem q (by omega)) _ (hmem (q + 1) (by omega)) (hu q hq)
    · rw [List.length_map]; omega
  have hout := nde_outcome c.ControlPoints hctx (by omega)
  rw [fits_iff hctx] at hout
  have hSs : sumTo (fun q => μ q + t) s = sumTo μ s + s * t := sumTo_add μ t s
  have hs0 : s * t = t * s := Nat.mul_comm _ _
  rw [show (⟨c.Knots.Values⟩ : KnotVector K) = c.Knots from rfl] at hout
  have hcp : c.ControlPoints.length = sumTo μ s := by omega
  have hmult : (∃ q, 1 ≤ q ∧ q < s ∧ p < sumTo μ (q + 1) - sumTo μ q) ↔ ¬ InteriorMult p c.Knots.Values := by
    constructor
    · rintro ⟨q, h1, h2, h3⟩ hm
      have := hm (u q) (by rw [← hu0]; exact hrun.u_lt (by omega) (by omega)) (by rw [← hus]; exact hrun.u_lt h2 le_rfl)
      rw [hcount q (by omega)] at this
      rw [sumTo_succ] at h3
      omega
    · intro hm
      unfold InteriorMult at hm
      push Not at hm
      obtain ⟨v, v0, v1, hv⟩ := hm
      have hvm : v ∈ c.Knots.Values := List.count_pos_iff.mp (by omega)
      rw [hl, runsL_mem] at hvm
      obtain ⟨q, hq, _, rfl⟩ := hvm
      rw [hcount q (by omega)] at hv
      refine ⟨q, ?_, ?_, by rw [sumTo_succ]; omega⟩
      · by_contra hc
        obtain rfl : q = 0 := by omega
        rw [hu0] at v0
        exact lt_irrefl _ v0
      · by_contra hc
        obtain rfl : q = s := by omega
        rw [hus] at v1
        exact lt_irrefl _ v1
  have hiff : (2 * (sumTo μ s - 1 + t) < sumTo (fun q => μ q + t) s ∨ ∃ q, 1 ≤ q ∧ q < s ∧ p < sumTo μ (q + 1) - sumTo μ q) ↔
      ElevBad p t c.ControlPoints.length c.Knots.Values := by
    unfold ElevBad
    rw [hmult, hsc, hcp]
    constructor
    · rintro (h1 | h1)
      · right; right; omega
      · exact Or.inr (Or.inl h1)
    · rintro (h1 | h1 | h1)
      · exact absurd h1 h30
      · exact Or.inr h1
      · left; omega
  rw [hiff] at hout
  refine ⟨hout.1, fun hc => ⟨(hout.2 hc).1, fun r hr => ?_⟩⟩
  rw [(hout.2 hc).2 r hr, hsc]
  omega

/-- Exactly when the member function leaves its vectors or overflows. -/
theorem elevateDegree_ub_iff {p t : ℕ} (hp : 1 ≤ p) (ht : 1 ≤ t) {c : Curve K} (hw : WFCurve p c) (hs : KnotsApart c.Knots.Values) :
    c.ElevateDegree t = .error .ub ↔ 30 ≤ p + t ∨ ¬ InteriorMult p c.Knots.Values ∨
      2 * (c.ControlPoints.length - 1 + t) < c.ControlPoints.length + t * spanCount c.Knots.Values := by
  have hE : c.ElevateDegree t = .error .ub ↔ NurbsDegreeElevation c.Knots c.ControlPoints p t = .error .ub := by
    unfold Curve.ElevateDegree
    rw [massert_true (by omega), hw.degree]
    cases NurbsDegreeElevation c.Knots c.ControlPoints p t with
    | error e => simp
    | ok a => simp
  obtain ⟨h1, h2⟩ := nde_cases hp ht hw hs
  rw [hE]
  refine ⟨fun hub => ?_, h1⟩
  by_contra hc
  exact (h2 hc).1 hub

/-- Degree 0: the vector `nextbpts` would have size -1. -/
theorem elevateDegree_zero {t : ℕ} (ht : 1 ≤ t) {c : Curve K} (hw : WFCurve 0 c) :
    c.ElevateDegree t = .error (if t ≤ 29 then .throws else .ub) := by
  have hlen := hw.clamped.len
  have hcount := hw.count
  unfold Curve.ElevateDegree
  rw [massert_true (by omega), hw.degree, bind_ok]
  unfold NurbsDegreeElevation
  simp only
  rw [massert_true (by omega), bind_ok]
  by_cases h29 : t ≤ 29
  · rw [if_pos h29]
    have hb := makeBezalfs_ok (K := K) (p := 0) ht (by omega)
    obtain ⟨v0, hv0⟩ := vget_some (L := c.ControlPoints.map ToHomo) (i := 0) (n := 0) rfl (by rw [List.length_map]; omega)
    obtain ⟨Q, hQ, -⟩ := vset_len (L := List.replicate (2 * (c.ControlPoints.length - 1 + t)) (0 : Vec4 K)) (i := 0) (n := 0) rfl
      (by simp; omega) v0
    obtain ⟨U, hU, -, -⟩ := fill_ok (K := K) (N := 2 * (c.ControlPoints.length - 1 + t) + t + 1) (n := t + 1) (v := kn c.Knots.Values 0) (by omega)
    rw [hb, bind_ok, vget_kn _ 0 0 rfl (by omega), bind_ok,
      vnew_of _ (2 * (c.ControlPoints.length - 1 + t)) _ (by rw [List.length_map]; omega), bind_ok, hv0, bind_ok, hQ, bind_ok,
      vnew_of _ (2 * (c.ControlPoints.length - 1 + t) + t + 1) _ (by rw [List.length_map]; push_cast; omega), bind_ok,
      show ((0 : ℕ) : Int) + t + 1 = ((t + 1 : ℕ) : Int) by push_cast; ring, hU, bind_ok, if_pos (by rw [List.length_map]; simp; omega)]
    simp [vnew]
  · rw [if_neg h29, makeBezalfs_ub (by omega), bind_error, bind_error]

/-! ### Surfaces -/

section
variable {p q m n t : ℕ} {s : Surface K} (hw : WFSurface p q m n s)
include hw

/-- If `ElevateDegreeU` succeeds, the first row was elevated to exactly `m + t` points. -/
theorem elevateU_first {s' : Surface K} (h : s.ElevateDegreeU t = .ok s') :
    ∃ r, NurbsDegreeElevation s.KnotsU (tab m fun i => cp s i 0) p t = .ok r ∧ r.2.1.length = m + t := by
  obtain ⟨_, hn⟩ := wf_rows_pos hw
  have hg := WFSurface.grid hw
  obtain ⟨n, rfl⟩ : ∃ N, n = N + 1 := ⟨n - 1, by omega⟩
  unfold Surface.ElevateDegreeU at h
  rw [hw.uCount, hw.vCount, show (m : Int) + t = ((m + t : ℕ) : ℕ) by omega, mk'_gridOf, bind_ok, forLt_eq_forUp _ _ (n + 1) (by omega),
    forUp] at h
  simp only at h
  rw [hg, getV_gridOf m (n + 1) (cp s) _ 0 (by omega) (by omega), bind_ok, hw.degreeU] at h
  cases hr : NurbsDegreeElevation s.KnotsU (tab m fun i => cp s i 0) p t with
  | error e => rw [hr] at h; cases h
  | ok r =>
    refine ⟨r, rfl, ?_⟩
    by_contra hne
    have e : (gridOf (m + t) (n + 1) (fun _ _ => (0 : Vec4 K))).SetV 0 r.2.1 = .error .assert := by
      unfold Grid.SetV
      rw [massert_true (by simp), bind_ok, massert_false (by simp; omega)]
      rfl
    rw [hr, bind_ok] at h
    split_ifs at h
    · rw [e] at h; cases h
    · rw [e] at h; cases h

theorem elevateV_first {s' : Surface K} (h : s.ElevateDegreeV t = .ok s') :
    ∃ r, NurbsDegreeElevation s.KnotsV (tab n fun j => cp s 0 j) q t = .ok r ∧ r.2.1.length = n + t := by
  obtain ⟨hm, _⟩ := wf_rows_pos hw
  have hg := WFSurface.grid hw
  obtain ⟨m, rfl⟩ : ∃ N, m = N + 1 := ⟨m - 1, by omega⟩
  unfold Surface.ElevateDegreeV at h
  rw [hw.uCount, hw.vCount, show (n : Int) + t = ((n + t : ℕ) : ℕ) by omega, mk'_gridOf, bind_ok, forLt_eq_forUp _ _ (m + 1) (by omega),
    forUp] at h
  simp only at h
  rw [hg, getU_gridOf (m + 1) n (cp s) _ 0 (by omega) (by omega), bind_ok, hw.degreeV] at h
  cases hr : NurbsDegreeElevation s.KnotsV (tab n fun j => cp s 0 j) q t with
  | error e => rw [hr] at h; cases h
  | ok r =>
    refine ⟨r, rfl, ?_⟩
    by_contra hne
    have e : (gridOf (m + 1) (n + t) (fun _ _ => (0 : Vec4 K))).SetU 0 r.2.1 = .error .assert := by
      unfold Grid.SetU
      rw [massert_true (by simp), bind_ok, massert_false (by simp; omega)]
      rfl
    rw [hr, bind_ok] at h
    split_ifs at h
    · rw [e] at h; cases h
    · rw [e] at h; cases h

/-- Success of `ElevateDegreeU` needs a single span and a small degree. -/
theorem elevateU_needs (hp : 1 ≤ p) (ht : 1 ≤ t) (hs : KnotsApart s.KnotsU.Values) {s' : Surface K} (h : s.ElevateDegreeU t = .ok s') :
    m = p + 1 ∧ p + t ≤ 29 := by
  obtain ⟨_, hn⟩ := wf_rows_pos hw
  have hrow : WFCurve p (⟨p, s.KnotsU, tab m fun i => cp s i 0⟩ : Curve K) := by
    have := rowCurve_wf hw hn
    unfold rowCurve at this
    rwa [hw.degreeU] at this
  obtain ⟨h1, h2⟩ := nde_cases hp ht hrow hs
  obtain ⟨r, hr, hlen⟩ := elevateU_first hw h
  by_cases hb : ElevBad p t (tab m fun i => cp s i 0).length s.KnotsU.Values
  · have := hr.symm.trans (h1 hb)
    cases this
  · have := (h2 hb).2 r hr
    simp only at this
    rw [tab_length, hlen] at this
    refine ⟨(spanCount_one hw.clampedU hw.knotsU).mp (Nat.eq_of_mul_eq_mul_left ht (by omega)), ?_⟩
    by_contra hc
    exact hb (Or.inl (by omega))

theorem elevateV_needs (hq : 1 ≤ q) (ht : 1 ≤ t) (hs : KnotsApart s.KnotsV.Values) {s' : Surface K} (h : s.ElevateDegreeV t = .ok s') :
    n = q + 1 ∧ q + t ≤ 29 := by
  obtain ⟨hm, _⟩ := wf_rows_pos hw
  have hcol : WFCurve q (⟨q, s.KnotsV, tab n fun j => cp s 0 j⟩ : Curve K) := by
    have := colCurve_wf hw hm
    unfold colCurve at this
    rwa [hw.degreeV] at this
  obtain ⟨h1, h2⟩ := nde_cases hq ht hcol hs
  obtain ⟨r, hr, hlen⟩ := elevateV_first hw h
  by_cases hb : ElevBad q t (tab n fun j => cp s 0 j).length s.KnotsV.Values
  · have := hr.symm.trans (h1 hb)
    cases this
  · have := (h2 hb).2 r hr
    simp only at this
    rw [tab_length, hlen] at this
    refine ⟨(spanCount_one hw.clampedV hw.knotsV).mp (Nat.eq_of_mul_eq_mul_left ht (by omega)), ?_⟩
    by_contra hc
    exact hb (Or.inl (by omega))

end

end Nurbs
