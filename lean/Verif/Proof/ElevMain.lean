import Verif.Proof.ElevStage
import Verif.Proof.ElevTable

/-! # The degree elevation loop -/

set_option linter.unusedSectionVars false

namespace Nurbs
open Nurbs.Spec DegreeAlgo

variable {K : Type} [Field K] [LinearOrder K] [IsStrictOrderedRing K]
variable {p t s : ℕ} {l l' : List K} {u : ℕ → K} {S S' : ℕ → ℕ} {P R : ℕ → Vec4 K} {points : List (Vec4 K)}

theorem loadPoints_ok {N q z rb : ℕ} {Q' e' : List (Vec4 K)} {U' : List K} (h : StageOut p t l' u S S' R N q z Q' e' U') (hz1 : 1 ≤ z)
    (hz : z ≤ rb + 1) (hrb : rb ≤ p + t) (hS : p + t + 1 ≤ S' (q + 1)) (hN : S' (q + 1) + rb ≤ N + p + t) (cind : Int)
    (hc : cind = (S' (q + 1) : Int) - (p + t) - 1 + z) :
    ∃ Q2, loadPoints z rb cind e' Q' = .ok (Q2, (S' (q + 1) : Int) - (p + t) + rb) ∧ Q2.length = N ∧
      (∀ I, I + (p + t) + 1 ≤ S' (q + 1) → Q2[I]? = some (R I)) ∧
      (∀ g ≤ p + t, p + t ≤ g + rb →
        Q2[S' (q + 1) - 1 - g]? = some (spanF l' S' R q (tl (kn l') (S' (q + 1)) g ++ List.replicate (p + t - g) (u (q + 1))))) := by
  unfold loadPoints
  rw [forLe_eq_forUp _ _ (rb + 1 - z) (by omega)]
  obtain ⟨⟨Q2, cd⟩, e1, g1, g2, g3, g4⟩ := forUp_inv (fun j (w : List (Vec4 K) × Int) => do
      return (← vset w.1 w.2 (← vget e' j), w.2 + 1))
    (fun x w => w.2 = ((S' (q + 1) - (p + t) - 1 + z + x : ℕ) : Int) ∧ w.1.length = N ∧
      (∀ I, I < S' (q + 1) - (p + t) - 1 + z → w.1[I]? = Q'[I]?) ∧
      (∀ j, z ≤ j → j < z + x → w.1[S' (q + 1) - (p + t) - 1 + j]? = e'[j]?))
    (rb + 1 - z) (z : Int) (Q', cind) ⟨by simp only; omega, h.ql, fun _ _ => rfl, fun j h1 h2 => absurd h2 (by omega)⟩ (by
      rintro x hx ⟨W, cd⟩ ⟨g1, g2, g3, g4⟩
      simp only at g1 g2 g3 g4 ⊢
      have hel := h.el
      obtain ⟨ev, he⟩ : ∃ ev, e'[z + x]? = some ev := ⟨_, List.getElem?_eq_getElem (by omega)⟩
      rw [vget_of _ _ (z + x) _ (by push_cast; rfl) he, bind_ok, g1, vset_nat _ _ _ (by omega)]
      refine ⟨_, rfl, by push_cast; ring, by simpa using g2, ?_, ?_⟩
      · intro I hI
        simp only
        rw [getElem?_set_if (by omega), if_neg (by omega)]
        exact g3 I hI
      · intro j hj1 hj2
        simp only
        rw [getElem?_set_if (by omega)]
        split_ifs with hc
        · obtain rfl : j = z + x := by omega
          exact he.symm
        · exact g4 j hj1 (by omega))
  simp only at g1 g2 g3 g4
  refine ⟨Q2, ?_, g2, ?_, ?_⟩
  · rw [e1, g1]
    congr 2
    omega
  · intro I hI
    rw [g3 I (by omega)]
    exact h.qr I hI
  · intro g hg1 hg2
    by_cases hc : p + t < g + z
    · rw [g3 _ (by omega)]
      exact h.qg g hg1 hc
    · have := g4 (p + t - g) (by omega) (by omega)
      rw [show S' (q + 1) - 1 - g = S' (q + 1) - (p + t) - 1 + (p + t - g) by omega, this, h.e _ (by omega) (by omega),
        show p + t - (p + t - g) = g by omega]

theorem nextSegment_ok (h : ElCtx p t s l l' u S S' P R points) {q : ℕ} (hq : q + 1 < s) {bpts nextbpts : List (Vec4 K)}
    (hbl : bpts.length = p + 1)
    (hn : ∀ i, i + (S (q + 1 + 1) - S (q + 1)) < p → nextbpts[i]? = some (spanF l S P q
      (List.replicate (p - (S (q + 1 + 1) - S (q + 1)) - i) (u (q + 1)) ++ win (kn l) (S (q + 1) - 1) (S (q + 1 + 1) - S (q + 1) + i)))) :
    ∃ b', nextSegment points p ((p : Int) - (S (q + 1 + 1) - S (q + 1) : ℕ)) ((S (q + 1 + 1) : Int) - 1) bpts nextbpts = .ok b' ∧
      b'.length = p + 1 ∧
      ∀ j ≤ p, b'[j]? = some (spanF l S P (q + 1) (List.replicate (p - j) (u (q + 1)) ++ win (kn l) (S (q + 1 + 1) - 1) j)) := by
  have hup := h.run.up (q + 1) (by omega)
  have hmul := h.mul (q + 1) (by omega) hq
  have hpos := h.run.S_pos (q := q) (by omega)
  have hSs := h.run.S_mono (q := q + 1 + 1) (r := s) (by omega) (by omega)
  generalize hμ : S (q + 1 + 1) - S (q + 1) = μ at *
  unfold nextSegment
  rw [forLt_eq_forUp _ _ (p - μ) (by omega)]
  obtain ⟨b1, e1, g1, g2⟩ := forUp_inv (fun j bpts => do vset bpts j (← vget nextbpts j))
    (fun x b => b.length = p + 1 ∧ ∀ j < x, b[j]? = nextbpts[j]?) (p - μ) 0 bpts ⟨hbl, fun j hj => absurd hj (by omega)⟩ (by
      rintro x hx b ⟨g1, g2⟩
      have hx' := hn x (by omega)
      rw [vget_of _ _ x _ (by simp) hx', bind_ok, show (0 : Int) + x = x by ring, vset_nat _ _ _ (by omega)]
      refine ⟨_, rfl, by simpa using g1, ?_⟩
      intro j hj
      rw [getElem?_set_if (by omega)]
      split_ifs with hc
      · rw [hc, hx']
      · exact g2 j (by omega))
  rw [e1, bind_ok, forLe_eq_forUp _ _ (μ + 1) (by omega)]
  obtain ⟨b2, e2, k1, k2, k3⟩ := forUp_inv (fun j bpts => do vset bpts j (← vget points ((S (q + 1 + 1) : Int) - 1 - p + j)))
    (fun x b => b.length = p + 1 ∧ (∀ j < p - μ, b[j]? = b1[j]?) ∧ ∀ j, p - μ ≤ j → j < p - μ + x →
      b[j]? = some (P (S (q + 1 + 1) - 1 - p + j))) (μ + 1) ((p : Int) - μ) b1
    ⟨g1, fun _ _ => rfl, fun j h1 h2 => absurd h2 (by omega)⟩ (by
      rintro x hx b ⟨k1, k2, k3⟩
      rw [vget_of _ _ (S (q + 1 + 1) - 1 - p + (p - μ + x)) _ (by omega) (h.pts _ (by omega)), bind_ok,
        show (p : Int) - μ + x = ((p - μ + x : ℕ) : Int) by omega, vset_nat _ _ _ (by omega)]
      refine ⟨_, rfl, by simpa using k1, ?_, ?_⟩
      · intro j hj
        rw [getElem?_set_if (by omega), if_neg (by omega)]
        exact k2 j hj
      · intro j hj1 hj2
        rw [getElem?_set_if (by omega)]
        split_ifs with hc
        · rw [hc]
        · exact k3 j hj1 (by omega))
  refine ⟨b2, e2, k1, ?_⟩
  intro j hj
  by_cases hc : j < p - μ
  · rw [k2 j hc, g2 j hc, hn j (by omega)]
    congr 1
    rw [win_append, win_const (x := u (q + 1)) (n := μ) (fun i h1 h2 => h.run.val (q + 1) (by omega) _ (by omega) (by omega)),
      ← List.append_assoc, ← List.replicate_add, show p - μ - j + μ = p - j by omega,
      show S (q + 1) - 1 + μ = S (q + 1 + 1) - 1 by omega]
    apply h.run.cont P hq (by simp; omega)
    rw [List.count_append, List.count_replicate_self]
    omega
  · rw [k3 j (by omega) (by omega), h.run.load P hq hj (by omega)]

/-- What the code has at the end of the loop. -/
structure ElFin (p t s : ℕ) (l l' : List K) (S S' : ℕ → ℕ) (R : ℕ → Vec4 K) (N : ℕ) (st : State K) : Prop where
  b : st.b = (l.length : Int) - 1
  mh : st.mh = (S' (s + 1) : Int) - 1
  ql : st.Qw.length = N
  q : ∀ I < S' s, st.Qw[I]? = some (R I)
  ul : st.Uh.length = N + p + t + 1
  uh : ∀ i < S' (s + 1), st.Uh[i]? = some (kn l' i)

theorem mainBody_ok (h : ElCtx p t s l l' u S S' P R points) {N q : ℕ} (hq : q < s) {st : State K}
    (hI : ElInv p t s l l' u S S' P R N q st) (hbuf : S' s ≤ N) (m : Int) (hm : m = (l.length : Int) - 1) :
    ∃ st', mainBody l points (tab (p + t + 1) fun i => tab (p + 1) fun j => bezCoef K p t i j) p t m st = .ok st' ∧
      (q + 1 < s → ElInv p t s l l' u S S' P R N (q + 1) st') ∧ (q + 1 = s → ElFin p t s l l' S S' R N st') := by
  have hS's := h.run'.S_mono (q := q + 1) (r := s) (by omega) (by omega)
  have hup := h.run.up (q + 1) (by omega)
  have hstep := h.step (q + 1) (by omega)
  have hpos := h.run.S_pos hq
  have hpos' := h.run'.S_pos hq
  have hSle := h.run.S_le hq
  have hlen2 := h.run.S_mono (q := q + 1 + 1) (r := s + 1) (by omega) le_rfl
  rw [h.run.len] at hlen2
  have hF := h.run.ma P hq
  have hp1 := h.p1
  have ht1 := h.t1
  -- `lbz`
  have hz : (if st.r > 0 then (st.r + 2).tdiv 2 else 1 : Int) = (zOf p S q : ℕ) := by
    rcases Nat.eq_zero_or_pos q with h0 | h0
    · rw [(hI.zero h0).2.1]; simp [zOf, h0]
    · obtain ⟨q0, rfl⟩ : ∃ q0, q = q0 + 1 := ⟨q - 1, by omega⟩
      rw [(hI.pos q0 rfl).2.1]
      have := h.mul (q0 + 1) (by omega) hq
      rw [show zOf p S (q0 + 1) = (p - (S (q0 + 1 + 1) - S (q0 + 1))) / 2 + 1 by simp [zOf]]
      split_ifs with hc
      · rw [Int.tdiv_eq_ediv_of_nonneg (by omega)]; omega
      · omega
  have hz1 : 1 ≤ zOf p S q := by unfold zOf; split_ifs <;> omega
  have hzp : zOf p S q ≤ p / 2 + 1 := by unfold zOf; split_ifs <;> omega
  -- `rbz`
  obtain ⟨rb, hrb, hrb1, hrb2⟩ : ∃ rb : ℕ, (if (p : Int) - (S (q + 1 + 1) - S (q + 1) : ℕ) > 0 then
      (p : Int) + t - ((p : Int) - (S (q + 1 + 1) - S (q + 1) : ℕ) + 1).tdiv 2 else (p : Int) + t) = rb ∧
      rb + (p - (S (q + 1 + 1) - S (q + 1)) + 1) / 2 = p + t ∧ rb ≤ p + t := by
    refine ⟨p + t - (p - (S (q + 1 + 1) - S (q + 1)) + 1) / 2, ?_, by omega, by omega⟩
    split_ifs with hc
    · rw [Int.tdiv_eq_ediv_of_nonneg (by omega)]; omega
    · omega
  -- the pieces
  have hb := hI.bp
  obtain ⟨bp, nb, i1, i2, i3, i4, i5⟩ := insertPart_ok (l := l) (p := p) (mul := S (q + 1 + 1) - S (q + 1)) (a := S (q + 1) - 1) (ua := u q)
    (ub := u (q + 1)) hF (by omega) (by omega)
    (fun i h1 h2 h3 => h.run.val (q + 1) (by omega) _ (by omega) (by omega))
    (fun i h1 h2 => h.run.gt_of (by omega) (by omega) (by omega)) hI.bl hI.nl hb
  obtain ⟨eb, j1, j2, j3⟩ := elevatePart_ok (z := zOf p S q) (ua := u q) (ub := u (q + 1)) (h.elev q hq)
    (bezalfs := tab (p + t + 1) fun i => tab (p + 1) fun j => bezCoef K p t i j)
    (fun i hi j _ h2 _ => mget_tab _ _ _ _ _ i j rfl rfl (by omega) (by omega)) i4 hI.el
  obtain ⟨Q', e', U', k1, k2, k3, k4⟩ := stage_ok h hq hI (by omega) j2 j3
  obtain ⟨Q2, l1, l2, l3, l4⟩ := loadPoints_ok k4 hz1 (by omega) hrb2 hpos' (by omega) st.cind k3
  unfold mainBody
  simp only
  have ea : ((S (q + 1) : Int) - 1) = ((S (q + 1) - 1 : ℕ) : Int) := by omega
  have eb' : ((S (q + 1 + 1) : Int) - 1 - S (q + 1) + 1) = ((S (q + 1 + 1) - S (q + 1) : ℕ) : Int) := by omega
  rw [hI.b, skipEqual_ok h hq m hm, bind_ok, vget_kn l _ (S (q + 1 + 1) - 1) (by omega) (by omega), bind_ok,
    h.run.val (q + 1) (by omega) _ (by omega) (by omega), hz, eb', hrb, hI.a, hI.ua, ea, i1, bind_ok]
  simp only
  rw [j1, bind_ok, k1, bind_ok]
  simp only
  rw [hI.a, ea] at k2
  rw [k2, bind_ok]
  simp only
  rw [l1, bind_ok]
  simp only
  have hmh : (S' (q + 1) : Int) - 1 + (S (q + 1 + 1) - S (q + 1) : ℕ) + t = (S' (q + 1 + 1) : Int) - 1 := by omega
  by_cases hlast : q + 1 = s
  · have hl := h.run.len
    rw [← hlast] at hl
    have hf' := h.run'.last
    rw [← hlast] at hf'
    have hf := h.run.last
    rw [← hlast] at hf
    rw [if_neg (by omega), forLe_eq_forUp _ _ (p + t + 1) (by omega)]
    obtain ⟨U2, e1, g1, g2⟩ := forUp_inv (fun i Uh => vset Uh ((S' (q + 1) : Int) + i) (u (q + 1)))
      (fun x W => W.length = N + p + t + 1 ∧ ∀ i < S' (q + 1) + x, W[i]? = some (kn l' i)) (p + t + 1) 0 U'
      ⟨k4.ul, by simpa using k4.uh⟩ (by
        rintro x hx W ⟨g1, g2⟩
        rw [show (S' (q + 1) : Int) + (0 + x) = ((S' (q + 1) + x : ℕ) : Int) by push_cast; ring, vset_nat _ _ _ (by omega)]
        refine ⟨_, rfl, by simpa using g1, ?_⟩
        intro i hi
        rw [getElem?_set_if (by omega)]
        split_ifs with hc
        · rw [hc, h.run'.val (q + 1) (by omega) _ (by omega) (by omega)]
        · exact g2 i (by omega))
    rw [e1, bind_ok]
    refine ⟨_, rfl, fun hc => absurd hc (by omega), fun _ => ⟨?_, ?_, l2, ?_, g1, ?_⟩⟩
    · simp only; omega
    · simp only; rw [hI.mh, hmh, hlast]
    · intro I hI'
      rw [← hlast] at hI'
      by_cases hc : I + (p + t) + 1 ≤ S' (q + 1)
      · exact l3 I hc
      · have := l4 (S' (q + 1) - 1 - I) (by omega) (by omega)
        rw [show S' (q + 1) - 1 - (S' (q + 1) - 1 - I) = I by omega] at this
        simp only
        rw [this]
        congr 1
        have e1 : tl (kn l') (S' (q + 1)) (S' (q + 1) - 1 - I) ++ List.replicate (p + t - (S' (q + 1) - 1 - I)) (u (q + 1)) =
            win (kn l') I (p + t) := by
          have hw := win_append (kn l') I (S' (q + 1) - 1 - I) (p + t - (S' (q + 1) - 1 - I))
          rw [show S' (q + 1) - 1 - I + (p + t - (S' (q + 1) - 1 - I)) = p + t by omega,
            show I + (S' (q + 1) - 1 - I) = S' (q + 1) - 1 by omega] at hw
          rw [hw, win_const (x := u (q + 1)) (a := S' (q + 1) - 1)
            (fun i h1 h2 => h.run'.val (q + 1) (by omega) _ (by omega) (by omega))]
          unfold tl
          rw [show S' (q + 1) - 1 - (S' (q + 1) - 1 - I) = I by omega]
        rw [e1, h.run'.win R hq (by omega) (by omega)]
    · intro i hi
      exact g2 i (by rw [← hlast] at hi; omega)
  · have hup2 := h.run.up (q + 1 + 1) (by omega)
    have hlen3 := h.run.S_mono (q := q + 1 + 1 + 1) (r := s + 1) (by omega) le_rfl
    rw [h.run.len] at hlen3
    have hmul := h.mul (q + 1) (by omega) (by omega)
    rw [if_pos (by omega)]
    obtain ⟨b2, m1, m2, m3⟩ := nextSegment_ok h (q := q) (by omega) i2 i5
    rw [m1, bind_ok]
    refine ⟨_, rfl, fun _ => ?_, fun hc => absurd hc hlast⟩
    refine ⟨?_, rfl, ?_, rfl, l2, k4.ul, m2, i3, k4.el, m3, fun hc => absurd hc (by omega), ?_⟩
    · simp only; rw [hI.mh, hmh]
    · simp only; omega
    · intro q0 hq0
      obtain rfl : q0 = q := by omega
      refine ⟨rfl, rfl, ?_, k4.uh, l3, ?_⟩
      · simp only; omega
      · intro g hg1 hg2
        exact l4 g hg1 (by omega)

end Nurbs
