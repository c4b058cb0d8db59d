import Verif.Proof.ElevMain

/-! # The whole degree elevation -/

set_option linter.unusedSectionVars false

namespace Nurbs
open Nurbs.Spec DegreeAlgo

variable {K : Type} [Field K] [LinearOrder K] [IsStrictOrderedRing K]
variable {p t s : ℕ} {l l' : List K} {u : ℕ → K} {S S' : ℕ → ℕ} {P R : ℕ → Vec4 K} {points : List (Vec4 K)}

theorem ElCtx.first (h : ElCtx p t s l l' u S S' P R points) : R 0 = P 0 := by
  have hs := h.run.s1
  have h1 := (h.elev 0 (by omega)).diag (u 0)
  have e1 : spanF l S P 0 (List.replicate p (u 0)) = P 0 := by
    have := h.run.load P (q := 0) (j := 0) (by omega) (by omega) (by have := h.run.S0; have := h.run.first; simp; omega)
    have hf := h.run.first
    simpa [win, hf] using this
  have e2 : spanF l' S' R 0 (List.replicate (p + t) (u 0)) = R 0 := by
    have := h.run'.load R (q := 0) (j := 0) (by omega) (by omega) (by have := h.run'.S0; have := h.run'.first; simp; omega)
    have hf := h.run'.first
    simpa [win, hf] using this
  rw [← e1, ← e2, h1]

theorem take_of_getElem? {α : Type} {L : List α} {n : ℕ} {f : ℕ → α} (h : ∀ i < n, L[i]? = some (f i)) : L.take n = tab n f := by
  apply List.ext_getElem?
  intro i
  rw [List.getElem?_take]
  split_ifs with hi
  · rw [h i hi, tab_getElem? _ _ _ hi]
  · rw [List.getElem?_eq_none]; simp; omega

theorem fill_ok {N n : ℕ} {v : K} (hn : n ≤ N) : ∃ U, forLt 0 ((n : ℕ) : Int) (fun i Uh => vset Uh i v) (List.replicate N (0 : K)) = .ok U ∧
    U.length = N ∧ ∀ i < n, U[i]? = some v := by
  rw [forLt_eq_forUp _ _ n (by omega)]
  exact forUp_inv (fun i Uh => vset Uh i v) (fun x U => U.length = N ∧ ∀ i < x, U[i]? = some v) n 0 _
    ⟨by simp, fun i hi => absurd hi (by omega)⟩ (by
      rintro x hx W ⟨g1, g2⟩
      rw [show (0 : Int) + x = (x : ℕ) by simp, vset_nat _ _ _ (by omega)]
      refine ⟨_, rfl, by simpa using g1, ?_⟩
      intro i hi
      rw [getElem?_set_if (by omega)]
      split_ifs with hc
      · rfl
      · exact g2 i (by omega))

/-- The algorithm, given the new knots `l'` and points `R`. -/
theorem nde_ok (pl : List (Vec4 K)) (h : ElCtx p t s l l' u S S' P R (pl.map ToHomo)) (h29 : p + t ≤ 29) (hbuf : S' s ≤ 2 * (S s - 1 + t))
    (hwf : WellFormedValues l') (hR : ∀ i < S' s, (R i).w ≠ 0) :
    NurbsDegreeElevation ⟨l⟩ pl p t = .ok (⟨l'⟩, tab (S' s) fun i => unhomo (R i), (p : Int) + t) := by
  have hs := h.run.s1
  have hp1 := h.p1
  have ht1 := h.t1
  have hf := h.run.first
  have hf' := h.run'.first
  have hSs := h.run.S_pos (q := s - 1) (by omega)
  rw [Nat.sub_add_cancel hs] at hSs
  have hadd := h.run.S_add (q := 0) (r := s) (by omega) (by omega)
  have hlen := h.run.len
  rw [h.run.last] at hlen
  have hlen' := h.run'.len
  rw [h.run'.last] at hlen'
  have hplen := h.plen
  unfold NurbsDegreeElevation
  simp only
  rw [massert_true (by omega), bind_ok, makeBezalfs_ok ht1 h29, bind_ok, vget_kn l 0 0 rfl (by omega), bind_ok,
    h.run.val 0 (by omega) 0 (by rw [h.run.S0]) (by simp [hf]),
    vnew_of _ (2 * (S s - 1 + t)) _ (by rw [hplen]; omega), bind_ok, vget_of _ 0 0 _ rfl (h.pts 0 (by omega)), bind_ok,
    show vset (List.replicate (2 * (S s - 1 + t)) (0 : Vec4 K)) 0 (P 0) = .ok ((List.replicate (2 * (S s - 1 + t)) (0 : Vec4 K)).set 0 (P 0))
      from vset_nat _ 0 _ (by simp; omega), bind_ok,
    vnew_of _ (2 * (S s - 1 + t) + p + t + 1) _ (by rw [hplen]; omega), bind_ok]
  obtain ⟨U, hU, hU1, hU2⟩ := fill_ok (K := K) (N := 2 * (S s - 1 + t) + p + t + 1) (n := p + t + 1) (v := u 0) (by omega)
  have e29 : ((p : Int) + t + 1) = ((p + t + 1 : ℕ) : Int) := by push_cast; rfl
  rw [e29, hU, bind_ok, if_pos (by omega), show (pure : List (Vec4 K) → M (List (Vec4 K))) = Except.ok by rfl,
    bind_ok, vnew_of _ (p - 1) _ (by omega), bind_ok, vnew_of _ (p + t + 1) _ rfl, bind_ok]
  obtain ⟨st, w1, -, w2⟩ := whileM_inv (fun st : State K => .ok (decide (st.b < ((pl.map ToHomo).length : Int) - 1 + p + 1)))
    (mainBody l (pl.map ToHomo) (tab (p + t + 1) fun i => tab (p + 1) fun j => bezCoef K p t i j) p t (((pl.map ToHomo).length : Int) - 1 + p + 1))
    (fun x st => (x < s → ElInv p t s l l' u S S' P R (2 * (S s - 1 + t)) x st) ∧
      (x = s → ElFin p t s l l' S S' R (2 * (S s - 1 + t)) st)) s
    ((((pl.map ToHomo).length : Int) - 1 + p + 1 - p).toNat + 1)
    { mh := (p : Int) + t, kind := ((p + t + 1 : ℕ) : Int), r := -1, a := p, b := (p : Int) + 1, cind := 1, ua := u 0,
      Qw := (List.replicate (2 * (S s - 1 + t)) (0 : Vec4 K)).set 0 (P 0), Uh := U, bpts := (pl.map ToHomo).take ((p : Int) + 1).toNat,
      nextbpts := List.replicate (p - 1) 0, ebpts := List.replicate (p + t + 1) 0 } (by rw [hplen]; omega) (by
      refine ⟨fun _ => ?_, fun hc => absurd hc (by omega)⟩
      refine ⟨by simp only [zero_add]; omega, by simp only [zero_add]; omega, by simp only [zero_add]; omega, rfl, by simp, hU1, ?_, by simp, by simp, ?_,
        fun _ => ⟨by simp only; omega, rfl, rfl, ?_, ?_⟩, fun q0 hq0 => absurd hq0 (by omega)⟩
      · rw [List.length_take, hplen]; omega
      · intro j hj
        simp only
        rw [List.getElem?_take, if_pos (by omega), h.pts j (by omega), h.run.load P (by omega) hj (by rw [h.run.S0]; simp; omega)]
        simp [hf]
      · rw [h.first, getElem?_set_if (by simp; omega), if_pos rfl]
      · intro i hi
        simp only
        rw [hU2 i (by omega), h.run'.val 0 (by omega) i (by rw [h.run'.S0]; omega) (by simpa using hi)]) (by
      rintro x hx st ⟨g1, -⟩
      have hI := g1 hx
      refine ⟨?_, ?_⟩
      · have := h.run.S_mono (q := x + 1) (r := s) (by omega) (by omega)
        rw [hI.b, decide_eq_true (by rw [hplen]; omega)]
      · obtain ⟨st', m1, m2, m3⟩ := mainBody_ok h hx hI hbuf (((pl.map ToHomo).length : Int) - 1 + p + 1) (by rw [hplen]; omega)
        exact ⟨st', m1, m2, m3⟩) (by
      rintro st ⟨-, g2⟩
      have hF := g2 rfl
      rw [hF.b, decide_eq_false (by rw [hplen]; omega)])
  have hF := w2 rfl
  rw [w1, bind_ok]
  have hS'1 : S' (s + 1) = S' s + (p + t + 1) := h.run'.last
  rw [vresize_of _ _ (S' s) _ (by rw [hF.mh]; omega), bind_ok, vresize_of _ _ (S' (s + 1)) _ (by rw [hF.mh]; omega), bind_ok,
    hF.ql, hF.ul, show S' s - 2 * (S s - 1 + t) = 0 by omega, show S' (s + 1) - (2 * (S s - 1 + t) + p + t + 1) = 0 by omega,
    List.replicate_zero, List.append_nil, List.replicate_zero, List.append_nil, take_of_getElem? hF.q, take_of_getElem? hF.uh]
  have hl' : tab (S' (s + 1)) (fun i => kn l' i) = l' := by
    rw [h.run'.len]
    exact (eq_tab l' _ fun i hi => (kn_eq_getElem l' i hi).symm).symm
  have hm : mapMList FromHomo (tab (S' s) fun i => R i) = .ok (tab (S' s) fun i => unhomo (R i)) := by
    rw [mapMList_ok _ unhomo]
    · simp [tab]
    · intro v hv
      simp only [tab, List.mem_map, List.mem_range] at hv
      obtain ⟨i, hi, rfl⟩ := hv
      exact fromHomo_ok (hR i hi)
  rw [hm, bind_ok, hl', (Props.C01_constructor_accepts_exactly l').1 hwf, bind_ok]
  rfl

end Nurbs
