import Verif.Proof.ElevRuns

/-! # One iteration of the degree elevation loop -/

set_option linter.unusedSectionVars false

namespace Nurbs
open Nurbs.Spec DegreeAlgo

variable {K : Type} [Field K] [LinearOrder K] [IsStrictOrderedRing K]

/-- Everything the loop relies on. `l`, `P`: the old knots and homogeneous points; `l'`, `R`: the new ones. -/
structure ElCtx (p t s : ℕ) (l l' : List K) (u : ℕ → K) (S S' : ℕ → ℕ) (P R : ℕ → Vec4 K) (points : List (Vec4 K)) : Prop where
  p1 : 1 ≤ p
  t1 : 1 ≤ t
  run : ClRuns p l s u S
  run' : ClRuns (p + t) l' s u S'
  step : ∀ q ≤ s, S' (q + 1) + S q = S' q + S (q + 1) + t
  mul : ∀ q, 1 ≤ q → q < s → S (q + 1) ≤ S q + p
  sep : ∀ q < s, eps6 ≤ u (q + 1) - u q
  elev : ∀ q < s, BezElev p t (spanF l S P q) (spanF l' S' R q)
  bet : ∀ q, q + 1 < s → S (q + 1 + 1) - S (q + 1) ≤ S (q + 1) - S q + 1 ∨
    (p - (S (q + 1 + 1) - S (q + 1)) + 1) / 2 < S (q + 1) - S q + t + 2
  plen : points.length = S s
  pts : ∀ i < S s, points[i]? = some (P i)

variable {p t s : ℕ} {l l' : List K} {u : ℕ → K} {S S' : ℕ → ℕ} {P R : ℕ → Vec4 K} {points : List (Vec4 K)}

theorem tl_split {U : ℕ → K} {k k2 x : ℕ} {v : K} (hk : k ≤ k2) (hx : x + 1 ≤ k2) (hv : ∀ i, k ≤ i → i < k2 → U i = v) :
    tl U k2 x = tl U k (x - (k2 - k)) ++ List.replicate (min x (k2 - k)) v := by
  unfold tl
  have h := win_append U (k2 - 1 - x) (x - (k2 - k)) (min x (k2 - k))
  rw [show x - (k2 - k) + min x (k2 - k) = x by omega] at h
  rw [h, win_const (x := v) (a := k2 - 1 - x + (x - (k2 - k))) (fun i h1 h2 => hv _ (by omega) (by omega))]
  by_cases hc : x ≤ k2 - k
  · rw [show x - (k2 - k) = 0 by omega]; simp [win]
  · rw [show k2 - 1 - x = k - 1 - (x - (k2 - k)) by omega]

theorem eArg_perm {U : ℕ → K} {ph kind o j : ℕ} {ua ub : K} (ho : o ≤ ph) :
    (eArg U ph kind ua ub j (o - j)).Perm (tl U kind (ph - j - (ph - o)) ++ List.replicate (min (ph - j) (ph - o)) ua ++ List.replicate j ub) := by
  unfold eArg
  rw [show ph - j - (ph - o) = o - j by omega, show min (ph - j) (ph - o) = ph - j - (o - j) by omega]
  rw [← List.append_assoc]
  exact (List.perm_append_comm).append_right _

theorem tl_congr {U W : ℕ → K} {k x : ℕ} (h : ∀ i < k, U i = W i) (hx : x + 1 ≤ k) : tl U k x = tl W k x :=
  win_congr fun j h1 h2 => h j (by omega)

theorem kn_of_getElem? {l : List K} {i : ℕ} {v : K} (h : l[i]? = some v) : kn l i = v := by
  simp [kn, List.getD_eq_getElem?_getD, h]

theorem skipEqual_run (h : ClRuns p l s u S) (hsep : ∀ q < s, eps6 ≤ u (q + 1) - u q) {q : ℕ} (hq : q < s) (m : Int) (hm : m = (l.length : Int) - 1) :
    skipEqual l m (S (q + 1) : Int) = .ok ((S (q + 1 + 1) : Int) - 1) := by
  have hup := h.up (q + 1) (by omega)
  have hle := h.S_mono (q := q + 1 + 1) (r := s + 1) (by omega) le_rfl
  rw [h.len] at hle
  unfold skipEqual
  obtain ⟨b, h1, h2⟩ := whileM_inv (fun b => do
      if b < m then
        return Approx (← vget l b) (← vget l (b + 1)) eps6
      else return false) (fun b => .ok (b + 1)) (fun x b => b = (S (q + 1) : Int) + x) (S (q + 1 + 1) - 1 - S (q + 1))
    ((m - (S (q + 1) : Int)).toNat + 1) (S (q + 1) : Int) (by omega) (by simp) (by
      intro x hx b hb
      have hbn : b = ((S (q + 1) + x : ℕ) : Int) := by push_cast; exact hb
      refine ⟨?_, _, rfl, by rw [hb]; push_cast; ring⟩
      rw [if_pos (by omega), vget_kn l b (S (q + 1) + x) hbn (by omega), bind_ok,
        vget_kn l (b + 1) (S (q + 1) + x + 1) (by omega) (by omega), bind_ok,
        h.val (q + 1) (by omega) _ (by omega) (by omega), h.val (q + 1) (by omega) _ (by omega) (by omega)]
      have : Approx (u (q + 1)) (u (q + 1)) eps6 = true := by
        rw [approx_eq]; unfold eps6
        rw [sub_self, abs_zero, decide_eq_true_eq]
        norm_num
      rw [this]; rfl) (by
      intro b hb
      have hbn : b = ((S (q + 1 + 1) - 1 : ℕ) : Int) := by rw [hb]; omega
      by_cases hlast : q + 1 = s
      · rw [if_neg]
        · rfl
        · have := h.len
          rw [← hlast] at this
          omega
      · have hup2 := h.up (q + 1 + 1) (by omega)
        have hle2 := h.S_mono (q := q + 1 + 1 + 1) (r := s + 1) (by omega) le_rfl
        rw [h.len] at hle2
        rw [if_pos (by omega), vget_kn l b (S (q + 1 + 1) - 1) hbn (by omega), bind_ok,
          vget_kn l (b + 1) (S (q + 1 + 1)) (by omega) (by omega), bind_ok,
          h.val (q + 1) (by omega) _ (by omega) (by omega), h.val (q + 1 + 1) (by omega) _ (by omega) (by omega)]
        have hs := hsep (q + 1) (by omega)
        have : Approx (u (q + 1)) (u (q + 1 + 1)) eps6 = false := by
          rw [approx_eq]
          rw [decide_eq_false_iff_not, not_lt, abs_sub_comm]
          exact hs.trans (le_abs_self _)
        rw [this]; rfl)
  rw [h1, h2]
  congr 1
  omega

theorem skipEqual_ok (h : ElCtx p t s l l' u S S' P R points) {q : ℕ} (hq : q < s) (m : Int) (hm : m = (l.length : Int) - 1) :
    skipEqual l m (S (q + 1) : Int) = .ok ((S (q + 1 + 1) : Int) - 1) := skipEqual_run h.run h.sep hq m hm

/-- State at the start of the iteration for span `q`. -/
structure ElInv (p t s : ℕ) (l l' : List K) (u : ℕ → K) (S S' : ℕ → ℕ) (P R : ℕ → Vec4 K) (N q : ℕ) (st : State K) : Prop where
  mh : st.mh = (S' (q + 1) : Int) - 1
  a : st.a = (S (q + 1) : Int) - 1
  b : st.b = S (q + 1)
  ua : st.ua = u q
  ql : st.Qw.length = N
  ul : st.Uh.length = N + p + t + 1
  bl : st.bpts.length = p + 1
  nl : st.nextbpts.length = p - 1
  el : st.ebpts.length = p + t + 1
  bp : ∀ j ≤ p, st.bpts[j]? = some (spanF l S P q (List.replicate (p - j) (u q) ++ win (kn l) (S (q + 1) - 1) j))
  zero : q = 0 → st.kind = S' 1 ∧ st.r = -1 ∧ st.cind = 1 ∧ st.Qw[0]? = some (R 0) ∧ ∀ i < S' 1, st.Uh[i]? = some (kn l' i)
  pos : ∀ q0, q = q0 + 1 → st.kind = S' q ∧ st.r = (p : Int) - (S (q + 1) - S q : ℕ) ∧
    st.cind = (S' q : Int) - ((p - (S (q + 1) - S q) + 1) / 2 : ℕ) ∧ (∀ i < S' q, st.Uh[i]? = some (kn l' i)) ∧
    (∀ I, I + (p + t) + 1 ≤ S' q → st.Qw[I]? = some (R I)) ∧
    (∀ g ≤ p + t, (p - (S (q + 1) - S q) + 1) / 2 ≤ g →
      st.Qw[S' q - 1 - g]? = some (spanF l' S' R q0 (tl (kn l') (S' q) g ++ List.replicate (p + t - g) (u q))))

/-- First Bezier point of span `q` that is kept. -/
def zOf (p : ℕ) (S : ℕ → ℕ) (q : ℕ) : ℕ := if q = 0 then 1 else (p - (S (q + 1) - S q)) / 2 + 1

/-- Outcome of the removal and of loading the knot. -/
structure StageOut (p t : ℕ) (l' : List K) (u : ℕ → K) (S S' : ℕ → ℕ) (R : ℕ → Vec4 K) (N q z : ℕ) (Q' e' : List (Vec4 K)) (U' : List K) : Prop where
  ql : Q'.length = N
  el : e'.length = p + t + 1
  ul : U'.length = N + p + t + 1
  uh : ∀ i < S' (q + 1), U'[i]? = some (kn l' i)
  qr : ∀ I, I + (p + t) + 1 ≤ S' (q + 1) → Q'[I]? = some (R I)
  qg : ∀ g ≤ p + t, p + t < g + z →
      Q'[S' (q + 1) - 1 - g]? = some (spanF l' S' R q (tl (kn l') (S' (q + 1)) g ++ List.replicate (p + t - g) (u (q + 1))))
  e : ∀ j, z ≤ j → j ≤ p + t →
      e'[j]? = some (spanF l' S' R q (tl (kn l') (S' (q + 1)) (p + t - j) ++ List.replicate j (u (q + 1))))

theorem stage_zero (h : ElCtx p t s l l' u S S' P R points) {N q : ℕ} (h0 : q = 0) (hq : q < s) {st : State K}
    (hI : ElInv p t s l l' u S S' P R N q st) (hbuf : S' (q + 1) ≤ N + p + t + 1) {ebpts : List (Vec4 K)} (hel : ebpts.length = p + t + 1)
    (hE : ∀ i, zOf p S q ≤ i → i ≤ p + t →
      ebpts[i]? = some (spanF l' S' R q (List.replicate (p + t - i) (u q) ++ List.replicate i (u (q + 1))))) :
    ∃ Q' e' U', removePart st.Uh ((p : Int) + t) st.kind st.cind (zOf p S q) st.r (u q) (u (q + 1)) st.Qw ebpts = .ok (Q', e') ∧
      loadKnots p ((p : Int) + t) st.r st.a st.kind (u q) st.Uh = .ok (U', (S' (q + 1) : Int)) ∧
      st.cind = (S' (q + 1) : Int) - (p + t) - 1 + zOf p S q ∧
      StageOut p t l' u S S' R N q (zOf p S q) Q' e' U' := by
  have hf' := h.run'.first
  have hf := h.run.first
  have hph : (p : Int) + t = ((p + t : ℕ) : Int) := by push_cast; rfl
  subst h0
  obtain ⟨k1, k2, k3, k4, k5⟩ := hI.zero rfl
  have hz : zOf p S 0 = 1 := by simp [zOf]
  rw [hz] at hE ⊢
  refine ⟨st.Qw, ebpts, st.Uh, ?_, ?_, ?_, hI.ql, hel, hI.ul, k5, ?_, ?_, ?_⟩
  · unfold removePart
    rw [if_neg (by omega)]; rfl
  · unfold loadKnots
    rw [if_neg (by rw [hI.a]; simp; omega), k1]; rfl
  · rw [k3]; simp; omega
  · intro I hI'
    obtain rfl : I = 0 := by simp at hI'; omega
    exact k4
  · intro g hg1 hg2
    obtain rfl : g = p + t := by omega
    simp only [zero_add]
    rw [show S' 1 - 1 - (p + t) = 0 by omega, k4, Nat.sub_self, List.replicate_zero, List.append_nil]
    unfold tl
    rw [show S' 1 - 1 - (p + t) = 0 by omega, h.run'.win R hq (by simp; omega) (by simp; omega)]
  · intro j hj1 hj2
    rw [hE j hj1 hj2]
    congr 3
    simp only [zero_add]
    unfold tl
    rw [win_const (x := u 0)]
    intro i h1 h2
    exact h.run'.val 0 (by omega) _ (by rw [h.run'.S0]; omega) (by simp; omega)

set_option maxHeartbeats 1000000 in
theorem stage_pos (h : ElCtx p t s l l' u S S' P R points) {N q : ℕ} (h0 : 0 < q) (hq : q < s) {st : State K}
    (hI : ElInv p t s l l' u S S' P R N q st) (hbuf : S' (q + 1) ≤ N + p + t + 1) {ebpts : List (Vec4 K)} (hel : ebpts.length = p + t + 1)
    (hE : ∀ i, zOf p S q ≤ i → i ≤ p + t →
      ebpts[i]? = some (spanF l' S' R q (List.replicate (p + t - i) (u q) ++ List.replicate i (u (q + 1))))) :
    ∃ Q' e' U', removePart st.Uh ((p : Int) + t) st.kind st.cind (zOf p S q) st.r (u q) (u (q + 1)) st.Qw ebpts = .ok (Q', e') ∧
      loadKnots p ((p : Int) + t) st.r st.a st.kind (u q) st.Uh = .ok (U', (S' (q + 1) : Int)) ∧
      st.cind = (S' (q + 1) : Int) - (p + t) - 1 + zOf p S q ∧
      StageOut p t l' u S S' R N q (zOf p S q) Q' e' U' := by
  have hf' := h.run'.first
  have hf := h.run.first
  have hph : (p : Int) + t = ((p + t : ℕ) : Int) := by push_cast; rfl
  obtain ⟨q0, rfl⟩ : ∃ q0, q = q0 + 1 := ⟨q - 1, by omega⟩
  obtain ⟨k1, k2, k3, k4, k5, k6⟩ := hI.pos q0 rfl
  have hz : zOf p S (q0 + 1) = (p - (S (q0 + 1 + 1) - S (q0 + 1))) / 2 + 1 := by simp [zOf]
  have hstep := h.step (q0 + 1) (by omega)
  have hstep0 := h.step q0 (by omega)
  have hup := h.run.up (q0 + 1) (by omega)
  have hup0 := h.run.up q0 (by omega)
  have hmul := h.mul (q0 + 1) (by omega) hq
  have hbet := h.bet q0 hq
  have hp1 := h.p1
  have ht1 := h.t1
  have hkp := h.run'.S_pos (q := q0) (by omega)
  have hG := h.run'.ma R hq
  obtain ⟨o, ho⟩ : ∃ o, p - (S (q0 + 1 + 1) - S (q0 + 1)) = o := ⟨_, rfl⟩
  rw [ho] at k3 k6 hz hbet
  rw [hz] at hE ⊢
  have hr : st.r = (o : Int) := by rw [k2]; omega
  have hkk : S' (q0 + 1 + 1) = S' (q0 + 1) + (p + t - o) := by omega
  have hUh : ∀ i < S' (q0 + 1), kn st.Uh i = kn l' i := fun i hi => kn_of_getElem? (k4 i hi)
  have hUl : S' (q0 + 1) ≤ st.Uh.length := by
    by_contra hc
    have := k4 (S' (q0 + 1) - 1) (by omega)
    rw [List.getElem?_eq_none (by omega)] at this
    cases this
  have hmid : ∀ i, S' (q0 + 1) ≤ i → i < S' (q0 + 1 + 1) → kn l' i = u (q0 + 1) := h.run'.val (q0 + 1) (by omega)
  have hrem : ElRem st.Uh (p + t) (S' (q0 + 1)) o (u (q0 + 1)) (u (q0 + 1 + 1)) := by
    refine ⟨hUl, hkp, by omega, ?_, h.run.lt _ hq, ?_⟩
    · intro i hi
      rw [hUh i hi]
      exact h.run'.lt_of (by omega) hi
    · intro c h1 h2
      rw [hUh _ (by omega), hUh _ (by omega), h.run'.val q0 (by omega) _ (by omega) (by omega),
        h.run'.val q0 (by omega) _ (by omega) (by omega)]
  -- arguments in terms of the new vector
  have htl : ∀ x, x + 1 ≤ S' (q0 + 1) → tl (kn st.Uh) (S' (q0 + 1)) x = tl (kn l') (S' (q0 + 1)) x :=
    fun x hx => tl_congr hUh hx
  have hsplit : ∀ x ≤ p + t, tl (kn l') (S' (q0 + 1 + 1)) x =
      tl (kn l') (S' (q0 + 1)) (x - (p + t - o)) ++ List.replicate (min x (p + t - o)) (u (q0 + 1)) := by
    intro x hx
    have := tl_split (U := kn l') (k := S' (q0 + 1)) (k2 := S' (q0 + 1 + 1)) (x := x) (by omega) (by omega) hmid
    rw [this, show S' (q0 + 1 + 1) - S' (q0 + 1) = p + t - o by omega]
  obtain ⟨Q', e', r1, r2, r3, r4, r5, r6⟩ := removePart_ok hrem hG (Qw := st.Qw) hel (by
    intro g h1 h2
    rw [k6 g (by omega) h1]
    congr 1
    unfold qArg
    rw [htl g (by omega), Nat.sub_zero, List.replicate_zero, List.append_nil]
    apply h.run'.cont R hq (by simp; omega)
    rw [List.count_append, List.count_replicate_self]
    omega) hE
  have hloadk : ∃ U', loadKnots p ((p : Int) + t) st.r st.a st.kind (u (q0 + 1)) st.Uh = .ok (U', (S' (q0 + 1 + 1) : Int)) ∧
      U'.length = N + p + t + 1 ∧ ∀ i < S' (q0 + 1 + 1), U'[i]? = some (kn l' i) := by
    unfold loadKnots
    have hS2 := h.run.S_pos (q := q0) (by omega)
    rw [if_pos (by rw [hI.a]; omega), forLt_eq_forUp _ _ (p + t - o) (by rw [hr]; omega)]
    obtain ⟨⟨U', kd⟩, e1, g1, g2, g3⟩ := forUp_inv (fun _ (w : List K × Int) => do
        return (← vset w.1 w.2 (u (q0 + 1)), w.2 + 1))
      (fun x w => w.2 = ((S' (q0 + 1) + x : ℕ) : Int) ∧ w.1.length = N + p + t + 1 ∧ ∀ i < S' (q0 + 1) + x, w.1[i]? = some (kn l' i))
      (p + t - o) 0 (st.Uh, st.kind) ⟨by simpa using k1, hI.ul, by simpa using k4⟩ (by
        rintro x hx ⟨W, kd⟩ ⟨g1, g2, g3⟩
        simp only at g1 g2 g3 ⊢
        rw [g1, vset_nat _ _ _ (by omega)]
        refine ⟨_, rfl, by push_cast; ring, by simpa using g2, ?_⟩
        intro i hi
        simp only
        rw [getElem?_set_if (by omega)]
        split_ifs with hc
        · subst hc; rw [hmid _ (by omega) (by omega)]
        · exact g3 i (by omega))
    rw [e1]
    refine ⟨U', ?_, g2, ?_⟩
    · simp only at g1
      rw [g1, ← hkk]
    · intro i hi; exact g3 i (by omega)
  obtain ⟨U', hl1, hl2, hl3⟩ := hloadk
  have hqr : ∀ I, I + (p + t) + 1 ≤ S' (q0 + 1 + 1) → Q'[I]? = some (R I) := by
    intro I hI'
    rw [r4 I (by omega)]
    by_cases hc : I + (p + t) + 1 ≤ S' (q0 + 1)
    · exact k5 I hc
    · have := k6 (S' (q0 + 1) - 1 - I) (by omega) (by omega)
      rw [show S' (q0 + 1) - 1 - (S' (q0 + 1) - 1 - I) = I by omega] at this
      rw [this]
      congr 1
      have e1 : tl (kn l') (S' (q0 + 1)) (S' (q0 + 1) - 1 - I) ++ List.replicate (p + t - (S' (q0 + 1) - 1 - I)) (u (q0 + 1)) =
          win (kn l') I (p + t) := by
        have hw := win_append (kn l') I (S' (q0 + 1) - 1 - I) (p + t - (S' (q0 + 1) - 1 - I))
        rw [show S' (q0 + 1) - 1 - I + (p + t - (S' (q0 + 1) - 1 - I)) = p + t by omega,
          show I + (S' (q0 + 1) - 1 - I) = S' (q0 + 1) - 1 by omega] at hw
        rw [hw, win_const (x := u (q0 + 1)) (a := S' (q0 + 1) - 1) (fun i h1 h2 => hmid _ (by omega) (by omega))]
        unfold tl
        rw [show S' (q0 + 1) - 1 - (S' (q0 + 1) - 1 - I) = I by omega]
      rw [e1, h.run'.win R (by omega) (by omega) (by omega)]
  refine ⟨Q', e', U', ?_, hl1, ?_, by rw [r2, hI.ql], r3, hl2, hl3, hqr, ?_, ?_⟩
  · rw [k1, k3, hr, hph]; exact r1
  · rw [k3]; omega
  · intro g hg1 hg2
    by_cases hc : g = p + t
    · subst hc
      rw [hqr _ (by omega), Nat.sub_self, List.replicate_zero, List.append_nil]
      unfold tl
      rw [h.run'.win R hq (by omega) (by omega)]
    · have := r5 (g - (p + t - o)) (by omega) (by omega)
      rw [show S' (q0 + 1 + 1) - 1 - g = S' (q0 + 1) - 1 - (g - (p + t - o)) by omega, this]
      congr 2
      unfold qArg
      rw [htl _ (by omega), hsplit g hg1, List.append_assoc, show min g (p + t - o) = p + t - o by omega,
        show p + t - (g - (p + t - o)) - (o - (g - (p + t - o))) = p + t - o by omega,
        show o - (g - (p + t - o)) = p + t - g by omega]
  · intro j hj1 hj2
    rw [r6 j hj1 hj2]
    congr 1
    apply hG.perm
    · unfold eArg; simp; omega
    · rw [hsplit _ (by omega)]
      have := eArg_perm (U := kn st.Uh) (kind := S' (q0 + 1)) (j := j) (ua := u (q0 + 1)) (ub := u (q0 + 1 + 1)) (show o ≤ p + t by omega)
      rwa [htl _ (by omega)] at this

theorem stage_ok (h : ElCtx p t s l l' u S S' P R points) {N q : ℕ} (hq : q < s) {st : State K}
    (hI : ElInv p t s l l' u S S' P R N q st) (hbuf : S' (q + 1) ≤ N + p + t + 1) {ebpts : List (Vec4 K)} (hel : ebpts.length = p + t + 1)
    (hE : ∀ i, zOf p S q ≤ i → i ≤ p + t →
      ebpts[i]? = some (spanF l' S' R q (List.replicate (p + t - i) (u q) ++ List.replicate i (u (q + 1))))) :
    ∃ Q' e' U', removePart st.Uh ((p : Int) + t) st.kind st.cind (zOf p S q) st.r (u q) (u (q + 1)) st.Qw ebpts = .ok (Q', e') ∧
      loadKnots p ((p : Int) + t) st.r st.a st.kind (u q) st.Uh = .ok (U', (S' (q + 1) : Int)) ∧
      st.cind = (S' (q + 1) : Int) - (p + t) - 1 + zOf p S q ∧
      StageOut p t l' u S S' R N q (zOf p S q) Q' e' U' := by
  rcases Nat.eq_zero_or_pos q with h0 | h0
  · exact stage_zero h h0 hq hI hbuf hel hE
  · exact stage_pos h h0 hq hI hbuf hel hE

end Nurbs
