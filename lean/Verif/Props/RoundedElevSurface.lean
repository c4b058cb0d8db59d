import Verif.Props.RoundedElev
import Verif.Props.RoundedSurfaceInsert

/-! # C95: degree elevation of Bezier surfaces with rounding -/

set_option linter.unusedSectionVars false

namespace Nurbs
open Nurbs.Spec DegreeAlgo

section generic
variable {K : Type} [Zero K] [One K] [Add K] [Sub K] [Mul K] [Div K] [Neg K] [NatCast K] [IntCast K] [LinearOrder K] [ZeroLEOneClass K] [NeZero (1 : K)]

/-- The surface with elevated rows. -/
def elevBezU (p t n : ℕ) (s : Surface K) : Surface K :=
  elevSurfU (p + t + 1) n (p + t) ⟨List.replicate (p + t + 1) (0 : K) ++ List.replicate (p + t + 1) 1⟩
    (fun i j => unhomo (elevH p t (fun i => cp s i j) i)) s

/-- The surface with elevated columns. -/
def elevBezV (q t m : ℕ) (s : Surface K) : Surface K :=
  elevSurfV m (q + t + 1) (q + t) ⟨List.replicate (q + t + 1) (0 : K) ++ List.replicate (q + t + 1) 1⟩
    (fun i j => unhomo (elevH q t (fun j => cp s i j) j)) s

theorem elevateU_bez {p t n : ℕ} (hp : 1 ≤ p) (ht : 1 ≤ t) (h29 : p + t ≤ 29) (hn : 0 < n) (hA : Approx (1 : K) 1 eps6 = true)
    (hne : ∀ i, 1 ≤ i → i ≤ (p + t) / 2 → (((p + t).choose i : Int) : K) ≠ 0) {s : Surface K} (hd : s.DegreeU = p)
    (hc : Clamped p s.KnotsU.Values) (hl : s.KnotsU.Values.length = 2 * p + 2) (hcu : s.ControlPoints.UCount = (p + 1 : ℕ))
    (hcv : s.ControlPoints.VCount = n) (hg : s.ControlPoints = gridOf (p + 1) n (cp s))
    (hE : ∀ i ≤ p + t, ∀ j < n, (elevH p t (fun i => cp s i j) i).w ≠ 0) :
    s.ElevateDegreeU t = .ok (elevBezU p t n s) := by
  have e1 : s.KnotsU = ⟨List.replicate (p + 1) (0 : K) ++ List.replicate (p + 1) 1⟩ := by rw [← bez_knots hc hl]
  refine elevateU_gen hd hn hcu hcv hg (by omega) fun j hj => ?_
  rw [e1]
  refine nde_bezier_any hp ht h29 hA hne (fun i => cp s i j) ?_ ?_
  · have := hE 0 (by omega) j hj
    simpa [elevH] using this
  · intro i h1 h2
    have := hE i h2 j hj
    unfold elevH at this
    rwa [if_neg (by omega)] at this

theorem elevateV_bez {q t m : ℕ} (hq : 1 ≤ q) (ht : 1 ≤ t) (h29 : q + t ≤ 29) (hm : 0 < m) (hA : Approx (1 : K) 1 eps6 = true)
    (hne : ∀ i, 1 ≤ i → i ≤ (q + t) / 2 → (((q + t).choose i : Int) : K) ≠ 0) {s : Surface K} (hd : s.DegreeV = q)
    (hc : Clamped q s.KnotsV.Values) (hl : s.KnotsV.Values.length = 2 * q + 2) (hcu : s.ControlPoints.UCount = m)
    (hcv : s.ControlPoints.VCount = (q + 1 : ℕ)) (hg : s.ControlPoints = gridOf m (q + 1) (cp s))
    (hE : ∀ i < m, ∀ j ≤ q + t, (elevH q t (fun j => cp s i j) j).w ≠ 0) :
    s.ElevateDegreeV t = .ok (elevBezV q t m s) := by
  have e1 : s.KnotsV = ⟨List.replicate (q + 1) (0 : K) ++ List.replicate (q + 1) 1⟩ := by rw [← bez_knots hc hl]
  refine elevateV_gen hd hm hcu hcv hg (by omega) fun i hi => ?_
  rw [e1]
  refine nde_bezier_any hq ht h29 hA hne (fun j => cp s i j) ?_ ?_
  · have := hE i hi 0 (by omega)
    simpa [elevH] using this
  · intro j h1 h2
    have := hE i hi j h2
    unfold elevH at this
    rwa [if_neg (by omega)] at this

end generic

end Nurbs

namespace Nurbs.Props
open Nurbs Nurbs.Spec

variable {K : Type} [Field K] [LinearOrder K] [IsStrictOrderedRing K] {R : Rounding K}

/-- Two surfaces whose control points differ as after one elevation. -/
theorem surf_elev_fin {p q m n r : ℕ} {A B : Surface K} (hB : WFSurface p q m n B)
    (hku : A.KnotsU.Values = B.KnotsU.Values) (hkv : A.KnotsV.Values = B.KnotsV.Values) {lo hi Bd : K} (hlo : 0 < lo)
    (hhi : 0 < hi) (hBd : 0 ≤ Bd) (hr : ∀ i < m, ∀ j < n, R.q ^ (r + 8) * lo ≤ (cp A i j).w) (f : Vec4 K → K)
    (h1 : ∀ i < m, ∀ j < n, |(cp A i j).w * f (cp A i j) - (cp B i j).w * f (cp B i j)| ≤ ((R.q ^ (r + 10))⁻¹ - 1) * (Bd * hi) ∧
      |f (cp B i j)| ≤ Bd)
    (h2 : ∀ i < m, ∀ j < n, |(cp A i j).w - (cp B i j).w| ≤ ((R.q ^ (r + 8))⁻¹ - 1) * hi)
    {x y : K} (hx0 : 0 ≤ x) (hx1 : x ≤ 1) (hy0 : 0 ≤ y) (hy1 : y ≤ 1) :
    |swsum p q m n A x y f / swsum p q m n A x y (fun _ => 1) - swsum p q m n B x y f / swsum p q m n B x y (fun _ => 1)| ≤
      2 * errFactor R (2 * r + 18) * (hi / lo) * Bd := by
  have hq := R.q_pos
  refine le_trans (swsum_perturb hB hku hkv f (mul_pos (pow_pos hq (r + 8)) hlo) (fun i a j b => (h1 i a j b).1) h2
    (fun i a j b => (h1 i a j b).2) hr hx0 hx1 hy0 hy1) ?_
  exact elev_final hq R.q_le hlo hhi hBd r

theorem cp_bounds {m n : ℕ} {s : Surface (Fl R)} {lo hi B : K} (hb : SurfaceBounds m n (exactSurface s) lo hi B) {i j : ℕ} (hi' : i < m) (hj : j < n) :
    lo ≤ (cp s i j).w.val ∧ (cp s i j).w.val ≤ hi ∧ |(cp s i j).x.val| ≤ B ∧ |(cp s i j).y.val| ≤ B ∧ |(cp s i j).z.val| ≤ B := by
  have := hb i hi' j hj
  rwa [cp_exact] at this

/-- All weights of the storage are nonnegative. -/
theorem cp_weight_nonneg {p q m n : ℕ} {s : Surface (Fl R)} (hw : WFSurface p q m n (exactSurface s)) (i j : ℕ) : 0 ≤ (cp s i j).w.val := by
  have e : 0 ≤ (cp (exactSurface s) i j).w := by
    have hall : ∀ P ∈ (exactSurface s).ControlPoints.Values, 0 ≤ P.w := by
      intro P hP
      rw [WFSurface.grid hw] at hP
      obtain ⟨x, hx, rfl⟩ := List.mem_map.mp hP
      rw [List.mem_range] at hx
      have hm : 0 < m := by
        rcases Nat.eq_zero_or_pos m with rfl | h
        · simp at hx
        · exact h
      exact (hw.weights _ (Nat.mod_lt _ hm) _ (by
        rw [Nat.div_lt_iff_lt_mul hm]; simpa [mul_comm] using hx)).le
    unfold cp
    rw [List.getD_eq_getElem?_getD]
    rcases h : (exactSurface s).ControlPoints.Values[j * (exactSurface s).ControlPoints.UCount.toNat + i]? with _ | P
    · simp
    · exact hall P (List.mem_of_getElem? h)
  rw [cp_exact] at e
  exact e

/-- C95, surfaces: with rounding, `ElevateDegreeU` of a surface with `p + 1` control points in the u direction returns a well-formed
surface.  At all parameters the two surfaces differ by at most `2 ((1-u)^-(2p+18) - 1) (hi/lo) B` in every coordinate. -/
theorem C95_elevateU_rounding {p q n t : ℕ} (hp : 1 ≤ p) (ht : 1 ≤ t) (h29 : p + t ≤ 29) {s : Surface (Fl R)}
    (hw : WFSurface p q (p + 1) n (exactSurface s)) {lo hi B : K} (hlo : 0 < lo) (hb : SurfaceBounds (p + 1) n (exactSurface s) lo hi B) :
    ∃ s', s.ElevateDegreeU t = .ok s' ∧ WFSurface (p + t) q (p + t + 1) n (exactSurface s') ∧ s'.KnotsV = s.KnotsV ∧
      ∀ x y, 0 ≤ x → x ≤ 1 → 0 ≤ y → y ≤ 1 → ∀ C D, (exactSurface s').Evaluate x y = .ok C → (exactSurface s).Evaluate x y = .ok D →
        |C.x - D.x| ≤ 2 * errFactor R (2 * p + 18) * (hi / lo) * B ∧ |C.y - D.y| ≤ 2 * errFactor R (2 * p + 18) * (hi / lo) * B ∧
        |C.z - D.z| ≤ 2 * errFactor R (2 * p + 18) * (hi / lo) * B := by
  have hq := R.q_pos
  obtain ⟨hm0, hn0⟩ := wf_rows_pos hw
  have hnn := cp_weight_nonneg hw
  have hl : s.KnotsU.Values.length = 2 * p + 2 := by
    have := hw.knotsU
    have e : (exactSurface s).KnotsU.Values.length = s.KnotsU.Values.length := by simp [exactSurface, exactList]
    omega
  have hst : s.ControlPoints.Values.length = n * (p + 1) := by simpa [exactSurface] using hw.storage
  have hg : s.ControlPoints = gridOf (p + 1) n (cp s) := grid_eq hw.uCount hw.vCount hst
  have hbw : ∀ j < n, ∀ i ≤ p, lo ≤ (cp s i j).w.val ∧ (cp s i j).w.val ≤ hi := fun j hj i hi =>
    ⟨(cp_bounds hb (show i < p + 1 by omega) hj).1, (cp_bounds hb (show i < p + 1 by omega) hj).2.1⟩
  have hK := fun i j (hi' : i ≤ p + t) (hj : j < n) => elev_weight_keys (P := fun i => cp s i j) ht h29 hlo (fun i => hnn i j) (hbw j hj) hi'
  have hE : ∀ i j, elevH p t (fun i => exactPoint (cp s i j)) i = elevH p t (fun i => cp (exactSurface s) i j) i := by
    intro i j
    simp only [cp_exact]
  have run := elevateU_bez hp ht h29 hn0 approx_one_rounded choose_rounded_ne hw.degreeU (clamped_exact.mp hw.clampedU) hl hw.uCount hw.vCount hg
    (fun i hi' j hj h' => by
      have := (hK i j hi' hj).1
      rw [h', Fl.val_zero] at this
      exact lt_irrefl _ this)
  have runE := elevateU_bez hp ht h29 hn0 approx_one_exact choose_cast_ne hw.degreeU hw.clampedU
    (by simpa [exactSurface, exactList] using hl) hw.uCount hw.vCount (WFSurface.grid hw)
    (fun i hi' j hj => by
      rw [← hE]
      exact (lt_of_lt_of_le hlo (elevH_weight ht h29 (P := fun i => exactPoint (cp s i j)) (hbw j hj) hi').1).ne')
  obtain ⟨S, x1, x2, -, -, x3⟩ := C49_elevateU_partial hw hp ht h29
  obtain rfl := Except.ok.inj (x1.symm.trans runE)
  have cB : ∀ i ≤ p + t, ∀ j < n, cp (elevBezU p t n (exactSurface s)) i j = unhomo (elevH p t (fun i => exactPoint (cp s i j)) i) := by
    intro i hi' j hj
    rw [hE]
    exact cp_gridOf (s := elevBezU p t n (exactSurface s)) (f := fun i j => unhomo (elevH p t (fun i => cp (exactSurface s) i j) i)) rfl (by omega) hj
  have cA : ∀ i ≤ p + t, ∀ j < n, cp (exactSurface (elevBezU p t n s)) i j = exactPoint (unhomo (elevH p t (fun i => cp s i j) i)) := by
    intro i hi' j hj
    rw [cp_exact]
    congr 1
    exact cp_gridOf (s := elevBezU p t n s) (f := fun i j => unhomo (elevH p t (fun i => cp s i j) i)) rfl (by omega) hj
  have kU : (exactSurface (elevBezU p t n s)).KnotsU.Values = (elevBezU p t n (exactSurface s)).KnotsU.Values := by
    simp [exactSurface, elevBezU, elevSurfU, exactList, Fl.val_zero, Fl.val_one]
  have wfr : WFSurface (p + t) q (p + t + 1) n (exactSurface (elevBezU p t n s)) := by
    refine ⟨x2.degreeU, x2.degreeV, by rw [kU]; exact x2.clampedU, x2.clampedV, rfl, rfl, by rw [kU]; exact x2.knotsU, x2.knotsV,
      by simp [exactSurface, elevBezU, elevSurfU, gridOf], ?_⟩
    intro i hi' j hj
    rw [cA i (by omega) j hj]
    exact (hK i j (by omega) hj).1
  refine ⟨_, run, wfr, rfl, ?_⟩
  intro x y hx0 hx1 hy0 hy1 C D hC hD
  rw [← x3 x y, (C43_evaluate x2 hx0 hx1 hy0 hy1).1] at hD
  rw [(C43_evaluate wfr hx0 hx1 hy0 hy1).1] at hC
  rw [← Except.ok.inj hC, ← Except.ok.inj hD]
  have b0 := cp_bounds hb hm0 hn0
  have hhi : 0 < hi := lt_of_lt_of_le hlo (le_trans b0.1 b0.2.1)
  have hBn : 0 ≤ B := le_trans (abs_nonneg _) b0.2.2.1
  have fin : ∀ (f : Vec4 K → K) (g : Vec4 (Fl R) → Fl R), CoordR f g → (∀ j < n, ∀ i ≤ p, |(g (cp s i j)).val| ≤ B) →
      |swsum (p + t) q (p + t + 1) n (exactSurface (elevBezU p t n s)) x y f / swsum (p + t) q (p + t + 1) n (exactSurface (elevBezU p t n s)) x y (fun _ => 1) -
        swsum (p + t) q (p + t + 1) n (elevBezU p t n (exactSurface s)) x y f / swsum (p + t) q (p + t + 1) n (elevBezU p t n (exactSurface s)) x y (fun _ => 1)| ≤
          2 * errFactor R (2 * p + 18) * (hi / lo) * B := by
    intro f g hfg hB
    refine surf_elev_fin (A := exactSurface (elevBezU p t n s)) x2 kU rfl hlo hhi hBn ?_ f ?_ ?_ hx0 hx1 hy0 hy1
    all_goals intro i hi' j hj
    · rw [cA i (by omega) j hj]
      exact (hK i j (by omega) hj).2.2
    · rw [cA i (by omega) j hj, cB i (by omega) j hj]
      exact elev_keys ht h29 hlo (fun i => hnn i j) (hbw j hj) hfg (hB j hj) (by omega)
    · rw [cA i (by omega) j hj, cB i (by omega) j hj]
      exact (hK i j (by omega) hj).2.1
  exact ⟨fin _ _ coordR_x fun j hj i hi' => (cp_bounds hb (show i < p + 1 by omega) hj).2.2.1,
    fin _ _ coordR_y fun j hj i hi' => (cp_bounds hb (show i < p + 1 by omega) hj).2.2.2.1,
    fin _ _ coordR_z fun j hj i hi' => (cp_bounds hb (show i < p + 1 by omega) hj).2.2.2.2⟩

/-- C95, surfaces, the v direction. -/
theorem C95_elevateV_rounding {p q m t : ℕ} (hp : 1 ≤ q) (ht : 1 ≤ t) (h29 : q + t ≤ 29) {s : Surface (Fl R)}
    (hw : WFSurface p q m (q + 1) (exactSurface s)) {lo hi B : K} (hlo : 0 < lo) (hb : SurfaceBounds m (q + 1) (exactSurface s) lo hi B) :
    ∃ s', s.ElevateDegreeV t = .ok s' ∧ WFSurface p (q + t) m (q + t + 1) (exactSurface s') ∧ s'.KnotsU = s.KnotsU ∧
      ∀ x y, 0 ≤ x → x ≤ 1 → 0 ≤ y → y ≤ 1 → ∀ C D, (exactSurface s').Evaluate x y = .ok C → (exactSurface s).Evaluate x y = .ok D →
        |C.x - D.x| ≤ 2 * errFactor R (2 * q + 18) * (hi / lo) * B ∧ |C.y - D.y| ≤ 2 * errFactor R (2 * q + 18) * (hi / lo) * B ∧
        |C.z - D.z| ≤ 2 * errFactor R (2 * q + 18) * (hi / lo) * B := by
  have hq := R.q_pos
  obtain ⟨hm0, hn0⟩ := wf_rows_pos hw
  have hnn := cp_weight_nonneg hw
  have hl : s.KnotsV.Values.length = 2 * q + 2 := by
    have := hw.knotsV
    have e : (exactSurface s).KnotsV.Values.length = s.KnotsV.Values.length := by simp [exactSurface, exactList]
    omega
  have hst : s.ControlPoints.Values.length = (q + 1) * m := by simpa [exactSurface] using hw.storage
  have hg : s.ControlPoints = gridOf m (q + 1) (cp s) := grid_eq hw.uCount hw.vCount hst
  have hbw : ∀ i < m, ∀ j ≤ q, lo ≤ (cp s i j).w.val ∧ (cp s i j).w.val ≤ hi := fun i hi j hj =>
    ⟨(cp_bounds hb hi (show j < q + 1 by omega)).1, (cp_bounds hb hi (show j < q + 1 by omega)).2.1⟩
  have hK := fun i j (hi' : i < m) (hj : j ≤ q + t) => elev_weight_keys (P := fun j => cp s i j) ht h29 hlo (fun j => hnn i j) (hbw i hi') hj
  have hE : ∀ i j, elevH q t (fun j => exactPoint (cp s i j)) j = elevH q t (fun j => cp (exactSurface s) i j) j := by
    intro i j
    simp only [cp_exact]
  have run := elevateV_bez hp ht h29 hm0 approx_one_rounded choose_rounded_ne hw.degreeV (clamped_exact.mp hw.clampedV) hl hw.uCount hw.vCount hg
    (fun i hi' j hj h' => by
      have := (hK i j hi' hj).1
      rw [h', Fl.val_zero] at this
      exact lt_irrefl _ this)
  have runE := elevateV_bez hp ht h29 hm0 approx_one_exact choose_cast_ne hw.degreeV hw.clampedV
    (by simpa [exactSurface, exactList] using hl) hw.uCount hw.vCount (WFSurface.grid hw)
    (fun i hi' j hj => by
      rw [← hE]
      exact (lt_of_lt_of_le hlo (elevH_weight ht h29 (P := fun j => exactPoint (cp s i j)) (hbw i hi') hj).1).ne')
  obtain ⟨S, x1, x2, -, -, x3⟩ := C49_elevateV_partial hw hp ht h29
  obtain rfl := Except.ok.inj (x1.symm.trans runE)
  have cB : ∀ i < m, ∀ j ≤ q + t, cp (elevBezV q t m (exactSurface s)) i j = unhomo (elevH q t (fun j => exactPoint (cp s i j)) j) := by
    intro i hi' j hj
    rw [hE]
    exact cp_gridOf (s := elevBezV q t m (exactSurface s)) (f := fun i j => unhomo (elevH q t (fun j => cp (exactSurface s) i j) j)) rfl hi' (by omega)
  have cA : ∀ i < m, ∀ j ≤ q + t, cp (exactSurface (elevBezV q t m s)) i j = exactPoint (unhomo (elevH q t (fun j => cp s i j) j)) := by
    intro i hi' j hj
    rw [cp_exact]
    congr 1
    exact cp_gridOf (s := elevBezV q t m s) (f := fun i j => unhomo (elevH q t (fun j => cp s i j) j)) rfl hi' (by omega)
  have kV : (exactSurface (elevBezV q t m s)).KnotsV.Values = (elevBezV q t m (exactSurface s)).KnotsV.Values := by
    simp [exactSurface, elevBezV, elevSurfV, exactList, Fl.val_zero, Fl.val_one]
  have wfr : WFSurface p (q + t) m (q + t + 1) (exactSurface (elevBezV q t m s)) := by
    refine ⟨x2.degreeU, x2.degreeV, x2.clampedU, by rw [kV]; exact x2.clampedV, rfl, rfl, x2.knotsU, by rw [kV]; exact x2.knotsV,
      by simp [exactSurface, elevBezV, elevSurfV, gridOf], ?_⟩
    intro i hi' j hj
    rw [cA i hi' j (by omega)]
    exact (hK i j hi' (by omega)).1
  refine ⟨_, run, wfr, rfl, ?_⟩
  intro x y hx0 hx1 hy0 hy1 C D hC hD
  rw [← x3 x y, (C43_evaluate x2 hx0 hx1 hy0 hy1).1] at hD
  rw [(C43_evaluate wfr hx0 hx1 hy0 hy1).1] at hC
  rw [← Except.ok.inj hC, ← Except.ok.inj hD]
  have b0 := cp_bounds hb hm0 hn0
  have hhi : 0 < hi := lt_of_lt_of_le hlo (le_trans b0.1 b0.2.1)
  have hBn : 0 ≤ B := le_trans (abs_nonneg _) b0.2.2.1
  have fin : ∀ (f : Vec4 K → K) (g : Vec4 (Fl R) → Fl R), CoordR f g → (∀ i < m, ∀ j ≤ q, |(g (cp s i j)).val| ≤ B) →
      |swsum p (q + t) m (q + t + 1) (exactSurface (elevBezV q t m s)) x y f / swsum p (q + t) m (q + t + 1) (exactSurface (elevBezV q t m s)) x y (fun _ => 1) -
        swsum p (q + t) m (q + t + 1) (elevBezV q t m (exactSurface s)) x y f / swsum p (q + t) m (q + t + 1) (elevBezV q t m (exactSurface s)) x y (fun _ => 1)| ≤
          2 * errFactor R (2 * q + 18) * (hi / lo) * B := by
    intro f g hfg hB
    refine surf_elev_fin (A := exactSurface (elevBezV q t m s)) x2 rfl kV hlo hhi hBn ?_ f ?_ ?_ hx0 hx1 hy0 hy1
    all_goals intro i hi' j hj
    · rw [cA i hi' j (by omega)]
      exact (hK i j hi' (by omega)).2.2
    · rw [cA i hi' j (by omega), cB i hi' j (by omega)]
      exact elev_keys ht h29 hlo (fun j => hnn i j) (hbw i hi') hfg (hB i hi') (by omega)
    · rw [cA i hi' j (by omega), cB i hi' j (by omega)]
      exact (hK i j hi' (by omega)).2.1
  exact ⟨fin _ _ coordR_x fun i hi' j hj => (cp_bounds hb hi' (show j < q + 1 by omega)).2.2.1,
    fin _ _ coordR_y fun i hi' j hj => (cp_bounds hb hi' (show j < q + 1 by omega)).2.2.2.1,
    fin _ _ coordR_z fun i hi' j hj => (cp_bounds hb hi' (show j < q + 1 by omega)).2.2.2.2⟩

/-- `patch` (degree 1 in both directions, weights 1/10 … 1) meets the hypotheses, and its elevation really rounds. -/
example : SurfaceBounds 2 2 (exactSurface patch) (1/11) 1 3 := by unfold SurfaceBounds; decide +kernel
example : ((patch.ElevateDegreeU 2).map exactSurface) ≠ (exactSurface patch).ElevateDegreeU 2 ∧
    ((patch.ElevateDegreeV 2).map exactSurface) ≠ (exactSurface patch).ElevateDegreeV 2 ∧
    ((patch.ElevateDegreeU 2).map fun s => s.ControlPoints.Values.length) = .ok 8 := by decide +kernel

end Nurbs.Props
