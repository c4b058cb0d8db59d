import Verif.Proof.RoundedBasis
import Verif.Proof.Surface

/-! # Curve and surface points with rounding -/

set_option linter.unusedSectionVars false

namespace Nurbs
open Nurbs.Spec

variable {K : Type} [Field K] [LinearOrder K] [IsStrictOrderedRing K] {R : Rounding K}

/-! ### weighted sums of homogeneous points -/

/-- `a` approximates `b`: first three coordinates up to `m` roundings against the bounds `B`, weight up to `mw`
relative roundings. -/
def CloseV (q : K) (m mw : ℕ) (a b B : Vec4 K) : Prop :=
  Close q m a.x b.x B.x ∧ Close q m a.y b.y B.y ∧ Close q m a.z b.z B.z ∧ Near q mw a.w b.w

theorem close_zero (m : ℕ) : Close R.q m (0 : Fl R).val 0 0 :=
  ⟨by simp, by rw [Fl.val_zero]; simp⟩

theorem near_zero (m : ℕ) : Near R.q m (0 : Fl R).val 0 :=
  ⟨Fl.val_zero.ge, le_rfl, by rw [Fl.val_zero]; simp, by rw [Fl.val_zero]; simp⟩

theorem close_smul {m n : ℕ} {a b : Fl R} {x y Y : K} (ha : Near R.q m a.val x) (hb : Close R.q n b.val y Y) :
    Close R.q (m + n + 1) (a * b).val (x * y) (x * Y) :=
  Fl.close_round (ha.mul_close R.q_pos R.q_le hb)

/-- One weighted sum `Σ f_i P_i`, accumulated from zero. -/
theorem forUp_closeV {m0 m mw n : ℕ} (body : Int → Vec4 (Fl R) → M (Vec4 (Fl R))) (f : ℕ → Fl R) (P : ℕ → Vec4 (Fl R))
    (c : ℕ → K) (b B : ℕ → Vec4 K)
    (hbody : ∀ i < n, ∀ t, body i t = .ok (t + f i • P i))
    (hf : ∀ i < n, Near R.q m0 (f i).val (c i)) (hP : ∀ i < n, CloseV R.q m mw (exactPoint (P i)) (b i) (B i)) :
    ∃ r, forUp 0 n body 0 = .ok r ∧
      CloseV R.q (m0 + m + 1 + n) (m0 + mw + 1 + n) (exactPoint r) (∑ i ∈ Finset.range n, c i • b i)
        (∑ i ∈ Finset.range n, c i • B i) := by
  refine forUp_inv (P := fun j (r : Vec4 (Fl R)) => CloseV R.q (m0 + m + 1 + j) (m0 + mw + 1 + j) (exactPoint r)
    (∑ i ∈ Finset.range j, c i • b i) (∑ i ∈ Finset.range j, c i • B i)) body n 0 0 ?_ ?_
  · simp only [Finset.range_zero, Finset.sum_empty]
    exact ⟨close_zero _, close_zero _, close_zero _, near_zero _⟩
  · rintro i hi s ⟨hx, hy, hz, hw⟩
    rw [zero_add, hbody i hi]
    refine ⟨_, rfl, ?_⟩
    obtain ⟨px, py, pz, pw⟩ := hP i hi
    have hc := hf i hi
    have up : ∀ {a e E : K}, Close R.q (m0 + m + 1) a e E → Close R.q (m0 + m + 1 + i) a e E :=
      fun h => h.mono R.q_pos R.q_le (by omega) le_rfl
    rw [Finset.sum_range_succ, Finset.sum_range_succ]
    refine ⟨?_, ?_, ?_, ?_⟩
    · exact Fl.close_add hx (up (close_smul hc px))
    · exact Fl.close_add hy (up (close_smul hc py))
    · exact Fl.close_add hz (up (close_smul hc pz))
    · exact Fl.near_add hw ((Fl.near_mul hc pw).mono R.q_pos R.q_le (Nat.le_add_right _ i))

/-- absolute values of the first three coordinates -/
def absV (v : Vec4 K) : Vec4 K := ⟨|v.x|, |v.y|, |v.z|, v.w⟩

theorem closeV_toHomo {P : Vec4 (Fl R)} (hw : 0 ≤ P.w.val) :
    CloseV R.q 1 0 (exactPoint (ToHomo P)) (ToHomo (exactPoint P)) (ToHomo (absV (exactPoint P))) := by
  have h : ∀ a : Fl R, Close R.q 1 (a * P.w).val (a.val * P.w.val) (|a.val| * P.w.val) := fun a => by
    have := Close.refl R.q_pos (a.val * P.w.val)
    rw [abs_mul, abs_of_nonneg hw] at this
    exact Fl.close_round this
  exact ⟨h P.x, h P.y, h P.z, Near.refl R.q_pos hw⟩

/-- The final division by the weight. -/
theorem projectM_close {m mw : ℕ} {r : Vec4 (Fl R)} {b B : Vec4 K} (h : CloseV R.q m mw (exactPoint r) b B) (hb : 0 < b.w) :
    ∃ e, projectM r = .ok e ∧ Close R.q (m + mw + 1) e.x.val (b.x / b.w) (B.x / b.w) ∧
      Close R.q (m + mw + 1) e.y.val (b.y / b.w) (B.y / b.w) ∧
      Close R.q (m + mw + 1) e.z.val (b.z / b.w) (B.z / b.w) := by
  obtain ⟨hx, hy, hz, hw⟩ := h
  have hr : r.w ≠ 0 := Fl.ne_zero (hw.pos R.q_pos hb).ne'
  refine ⟨⟨r.x / r.w, r.y / r.w, r.z / r.w⟩, ?_, ?_, ?_, ?_⟩
  · simp [projectM, Vec3.divM, Vec4.head3, fdiv, hr]
  · exact Fl.close_round (hx.div_near R.q_pos R.q_le hw hb)
  · exact Fl.close_round (hy.div_near R.q_pos R.q_le hw hb)
  · exact Fl.close_round (hz.div_near R.q_pos R.q_le hw hb)

/-! ### curves -/

theorem vget_exactPoint (l : List (Vec4 (Fl R))) (z : Int) (i : ℕ) (hz : z = i) (h : i < l.length) :
    ∃ P, vget l z = .ok P ∧ exactPoint P = pt (l.map exactPoint) i := by
  subst hz
  refine ⟨l[i], vget_nat l i h, ?_⟩
  simp [pt, h]

theorem exKn_eq (l : List (Fl R)) : exKn l = kn (exactList l) := by
  funext i; rw [kn_exactList]; rfl

/-- `Curve::Evaluate` succeeds and is close to the segment of the exact curve. -/
theorem evaluate_close {p : ℕ} {c : Curve (Fl R)} (hw : WFCurve p (exactCurve c)) {x : Fl R} (h0 : 0 ≤ x) (h1 : x ≤ 1) :
    ∃ e k, c.Evaluate x = .ok e ∧ IsSpan (exactList c.Knots.Values) x.val k ∧ p ≤ k ∧ k + p + 2 ≤ (exactList c.Knots.Values).length ∧
      let s := seg (kn (exactList c.Knots.Values)) k x.val p (hpts (exactCurve c).ControlPoints)
      let S := seg (kn (exactList c.Knots.Values)) k x.val p (fun i => ToHomo (absV (pt (exactCurve c).ControlPoints i)))
      0 < s.w ∧ Close R.q (14 * p + 6) e.x.val (s.x / s.w) (S.x / s.w) ∧
      Close R.q (14 * p + 6) e.y.val (s.y / s.w) (S.y / s.w) ∧ Close R.q (14 * p + 6) e.z.val (s.z / s.w) (S.z / s.w) := by
  have hc : Clamped p c.Knots.Values := clamped_exact.mp hw.clamped
  have hd : c.Degree = p := hw.degree
  have hn : c.Knots.Values.length = c.ControlPoints.length + p + 1 := by
    have := hw.count
    simpa [exactCurve, exactList] using this
  have hlen : (exactCurve c).Knots.Values.length = c.Knots.Values.length := exactList_length _
  obtain ⟨k, hk, hs, hpk, hlk⟩ := findSpanIndex_spec hc h0 h1
  have hsx := isSpan_exact.mpr hs
  have hlt := IsSpan.lt hsx
  have hle := IsSpan.le_right hsx
  rw [kn_exactList] at hlt hle
  rw [kn_exactList] at hlt
  obtain ⟨f, hf, hfn⟩ := evaluateAt_near hpk (by omega) hc.sorted hlt hs.2.1 hle
  have hreg : RegSpan (kn (exactList c.Knots.Values)) k p :=
    regSpan_of_sorted hw.clamped.sorted (IsSpan.lt hsx) (by omega)
  have hpos := seg_w_pos (kn (exactList c.Knots.Values)) k x.val p hpk hreg
    (fun a b hab hb => kn_mono hw.clamped.sorted hab (by omega)) hsx.2.1
    (IsSpan.le_right hsx) (hpts (exactCurve c).ControlPoints)
    (fun i _ _ => hw.weights i (by simp only [exactCurve, List.length_map]; omega))
  have hget : ∀ i, ∃ P : Vec4 (Fl R), i ≤ p → vget c.ControlPoints ((k : Int) - p + (i : Int)) = .ok P ∧
      exactPoint P = pt (exactCurve c).ControlPoints (k - p + i) := by
    intro i
    by_cases hi : i ≤ p
    · obtain ⟨P, h⟩ := vget_exactPoint c.ControlPoints ((k : Int) - p + i) (k - p + i) (by omega) (by omega)
      exact ⟨P, fun _ => h⟩
    · exact ⟨0, fun h => absurd h hi⟩
  choose P hP using hget
  obtain ⟨r, hr, hrc⟩ := forUp_closeV (R := R) (m0 := 6 * p) (m := 1) (mw := 0) (n := p + 1)
    (fun i (result : Vec4 (Fl R)) => do
      let point := ToHomo (← vget c.ControlPoints ((k : Int) - p + i))
      return result + (← vget (tab (p + 1) f) i) • point) f (fun i => ToHomo (P i))
    (fun i => Nl (kn (exactList c.Knots.Values)) k x.val p (k - p + i))
    (fun i => hpts (exactCurve c).ControlPoints (k - p + i))
    (fun i => ToHomo (absV (pt (exactCurve c).ControlPoints (k - p + i))))
    (by
      intro i hi t
      rw [(hP i (by omega)).1, bind_ok, vget_tab _ _ _ i rfl hi, bind_ok]; rfl)
    (fun i hi => by rw [← exKn_eq]; exact hfn i (by omega))
    (fun i hi => by
      have e := (hP i (by omega)).2
      have hwt : 0 ≤ (P i).w.val := by
        have := hw.weights (k - p + i) (by simp only [exactCurve, List.length_map]; omega)
        rw [← e] at this
        exact this.le
      have := closeV_toHomo hwt
      rw [e] at this
      exact this)
  obtain ⟨e, he, hx, hy, hz⟩ := projectM_close hrc hpos
  have hm : 6 * p + 1 + 1 + (p + 1) + (6 * p + 0 + 1 + (p + 1)) + 1 = 14 * p + 6 := by ring
  rw [hm] at hx hy hz
  refine ⟨e, k, ?_, hsx, hpk, by rw [exactList_length]; exact hlk, hpos, hx, hy, hz⟩
  unfold Curve.Evaluate
  rw [massert_true ⟨h0, h1⟩, bind_ok, hd, hk, bind_ok, hf, bind_ok,
    massert_true (by simp), bind_ok, forLe_eq_forUp 0 p (p + 1) (by omega), hr, bind_ok, he]

/-! ### surfaces -/

theorem get_exactPoint {s : Surface (Fl R)} {m n : ℕ} (hu : s.ControlPoints.UCount = m) (hv : s.ControlPoints.VCount = n)
    (hl : s.ControlPoints.Values.length = n * m) (z y : Int) (i j : ℕ) (hz : z = i) (hy : y = j) (hi : i < m) (hj : j < n) :
    ∃ P, s.ControlPoints.Get z y = .ok P ∧ exactPoint P = cp (exactSurface s) i j := by
  have hlt : j * m + i < s.ControlPoints.Values.length := by
    rw [hl]
    calc j * m + i < j * m + m := by omega
      _ = (j + 1) * m := by ring
      _ ≤ n * m := Nat.mul_le_mul_right m hj
  have hg := exists_gridOf (α := Vec4 (Fl R)) s.ControlPoints m n hu hv hl
  refine ⟨s.ControlPoints.Values[j * m + i], ?_, ?_⟩
  · have h := get_gridOf m n (fun u v => s.ControlPoints.Values.getD (v * m + u) default) z y i j hz hy hi hj
    rw [← hg] at h
    rw [h]
    simp [hlt]
  · simp [cp, exactSurface, hu, hlt]

/-- `Surface::Evaluate` succeeds and is close to the segment of the exact surface. -/
theorem surface_close {p q m n : ℕ} {s : Surface (Fl R)} (hw : WFSurface p q m n (exactSurface s)) {u v : Fl R}
    (hu0 : 0 ≤ u) (hu1 : u ≤ 1) (hv0 : 0 ≤ v) (hv1 : v ≤ 1) :
    ∃ e ku kv, s.Evaluate u v = .ok e ∧ IsSpan (exactList s.KnotsU.Values) u.val ku ∧
      IsSpan (exactList s.KnotsV.Values) v.val kv ∧ p ≤ ku ∧ ku < m ∧ q ≤ kv ∧ kv < n ∧
      let t := surfSeg p q (exactSurface s) ku kv u.val v.val
      let S := sseg (kn (exactList s.KnotsU.Values)) ku u.val p (kn (exactList s.KnotsV.Values)) kv v.val q
        (fun i j => ToHomo (absV (cp (exactSurface s) i j)))
      0 < t.w ∧ Close R.q (14 * (p + q) + 10) e.x.val (t.x / t.w) (S.x / t.w) ∧
      Close R.q (14 * (p + q) + 10) e.y.val (t.y / t.w) (S.y / t.w) ∧
      Close R.q (14 * (p + q) + 10) e.z.val (t.z / t.w) (S.z / t.w) := by
  have hcu : Clamped p s.KnotsU.Values := clamped_exact.mp hw.clampedU
  have hcv : Clamped q s.KnotsV.Values := clamped_exact.mp hw.clampedV
  have hdu : s.DegreeU = p := hw.degreeU
  have hdv : s.DegreeV = q := hw.degreeV
  have hlu : (exactSurface s).KnotsU.Values.length = s.KnotsU.Values.length := exactList_length _
  have hlv : (exactSurface s).KnotsV.Values.length = s.KnotsV.Values.length := exactList_length _
  have hmu := hw.knotsU
  have hnv := hw.knotsV
  have hst : s.ControlPoints.Values.length = n * m := by
    have := hw.storage
    simpa [exactSurface] using this
  obtain ⟨ku, hku, hsu, hpku, hlku⟩ := findSpanIndex_spec hcu hu0 hu1
  obtain ⟨kv, hkv, hsv, hpkv, hlkv⟩ := findSpanIndex_spec hcv hv0 hv1
  have hsxu := isSpan_exact.mpr hsu
  have hsxv := isSpan_exact.mpr hsv
  have hltu := IsSpan.lt hsxu
  have hleu := IsSpan.le_right hsxu
  rw [kn_exactList] at hltu hleu
  rw [kn_exactList] at hltu
  have hltv := IsSpan.lt hsxv
  have hlev := IsSpan.le_right hsxv
  rw [kn_exactList] at hltv hlev
  rw [kn_exactList] at hltv
  obtain ⟨f, hf, hfn⟩ := evaluateAt_near hpku (by omega) hcu.sorted hltu hsu.2.1 hleu
  obtain ⟨g, hg, hgn⟩ := evaluateAt_near hpkv (by omega) hcv.sorted hltv hsv.2.1 hlev
  have hru : RegSpan (kn (exactList s.KnotsU.Values)) ku p :=
    regSpan_of_sorted hw.clampedU.sorted (IsSpan.lt hsxu) (by omega)
  have hrv : RegSpan (kn (exactList s.KnotsV.Values)) kv q :=
    regSpan_of_sorted hw.clampedV.sorted (IsSpan.lt hsxv) (by omega)
  have hkm : ku < m := by omega
  have hkn : kv < n := by omega
  have hpos := sseg_w_pos hw hsxu hsxv hpku hkm hpkv hkn hru hrv
  have hget : ∀ i j, ∃ P : Vec4 (Fl R), i ≤ p → j ≤ q →
      s.ControlPoints.Get ((ku : Int) - p + (i : Int)) ((kv : Int) - q + (j : Int)) = .ok P ∧
      exactPoint P = cp (exactSurface s) (ku - p + i) (kv - q + j) := by
    intro i j
    by_cases hi : i ≤ p ∧ j ≤ q
    · obtain ⟨P, h⟩ := get_exactPoint (s := s) hw.uCount hw.vCount hst ((ku : Int) - p + i) ((kv : Int) - q + j)
        (ku - p + i) (kv - q + j) (by omega) (by omega) (by omega) (by omega)
      exact ⟨P, fun _ _ => h⟩
    · exact ⟨0, fun h h' => absurd ⟨h, h'⟩ hi⟩
  choose P hP using hget
  have hinner : ∀ j, ∃ T : Vec4 (Fl R), j ≤ q →
      forUp 0 (p + 1) (fun i (tmp : Vec4 (Fl R)) => do
        let point := ToHomo (← s.ControlPoints.Get ((ku : Int) - p + i) ((kv : Int) - q + (j : Int)))
        return tmp + (← vget (tab (p + 1) f) i) • point) 0 = .ok T ∧
      CloseV R.q (7 * p + 3) (7 * p + 2) (exactPoint T)
        (seg (kn (exactList s.KnotsU.Values)) ku u.val p (fun i => hcp (exactSurface s) i (kv - q + j)))
        (seg (kn (exactList s.KnotsU.Values)) ku u.val p (fun i => ToHomo (absV (cp (exactSurface s) i (kv - q + j))))) := by
    intro j
    by_cases hj : j ≤ q
    · obtain ⟨r, hr, hrc⟩ := forUp_closeV (R := R) (m0 := 6 * p) (m := 1) (mw := 0) (n := p + 1)
        (fun i (tmp : Vec4 (Fl R)) => do
          let point := ToHomo (← s.ControlPoints.Get ((ku : Int) - p + i) ((kv : Int) - q + (j : Int)))
          return tmp + (← vget (tab (p + 1) f) i) • point) f (fun i => ToHomo (P i j))
        (fun i => Nl (kn (exactList s.KnotsU.Values)) ku u.val p (ku - p + i))
        (fun i => hcp (exactSurface s) (ku - p + i) (kv - q + j))
        (fun i => ToHomo (absV (cp (exactSurface s) (ku - p + i) (kv - q + j))))
        (by
          intro i hi t
          rw [(hP i j (by omega) hj).1, bind_ok, vget_tab _ _ _ i rfl hi, bind_ok]; rfl)
        (fun i hi => by rw [← exKn_eq]; exact hfn i (by omega))
        (fun i hi => by
          have e := (hP i j (by omega) hj).2
          have hwt : 0 ≤ (P i j).w.val := by
            have := hw.weights (ku - p + i) (by omega) (kv - q + j) (by omega)
            rw [← e] at this
            exact this.le
          have := closeV_toHomo hwt
          rw [e] at this
          exact this)
      refine ⟨r, fun _ => ⟨hr, ?_⟩⟩
      rw [show 6 * p + 1 + 1 + (p + 1) = 7 * p + 3 by ring, show 6 * p + 0 + 1 + (p + 1) = 7 * p + 2 by ring] at hrc
      exact hrc
    · exact ⟨0, fun h => absurd h hj⟩
  choose T hT using hinner
  obtain ⟨r, hr, hrc⟩ := forUp_closeV (R := R) (m0 := 6 * q) (m := 7 * p + 3) (mw := 7 * p + 2) (n := q + 1)
    (fun j (result : Vec4 (Fl R)) => do
      let index_v := (kv : Int) - q + j
      let tmp ← forLe 0 p (fun i (tmp : Vec4 (Fl R)) => do
        let index_u := (ku : Int) - p + i
        let point := ToHomo (← s.ControlPoints.Get index_u index_v)
        return tmp + (← vget (tab (p + 1) f) i) • point) 0
      return result + (← vget (tab (q + 1) g) j) • tmp) g T
    (fun j => Nl (kn (exactList s.KnotsV.Values)) kv v.val q (kv - q + j))
    (fun j => seg (kn (exactList s.KnotsU.Values)) ku u.val p (fun i => hcp (exactSurface s) i (kv - q + j)))
    (fun j => seg (kn (exactList s.KnotsU.Values)) ku u.val p (fun i => ToHomo (absV (cp (exactSurface s) i (kv - q + j)))))
    (by
      intro j hj t
      simp only []
      rw [forLe_eq_forUp 0 p (p + 1) (by omega), (hT j (by omega)).1, bind_ok, vget_tab _ _ _ j rfl hj, bind_ok]; rfl)
    (fun i hi => by rw [← exKn_eq]; exact hgn i (by omega))
    (fun j hj => (hT j (by omega)).2)
  obtain ⟨e, he, hx, hy, hz⟩ := projectM_close hrc hpos
  have hm : 6 * q + (7 * p + 3) + 1 + (q + 1) + (6 * q + (7 * p + 2) + 1 + (q + 1)) + 1 = 14 * (p + q) + 10 := by ring
  rw [hm] at hx hy hz
  refine ⟨e, ku, kv, ?_, hsxu, hsxv, hpku, hkm, hpkv, hkn, hpos, hx, hy, hz⟩
  unfold Surface.Evaluate
  rw [massert_true ⟨hu0, hu1⟩, bind_ok, massert_true ⟨hv0, hv1⟩, bind_ok, hdu, hdv, hku, bind_ok, hkv, bind_ok, hf, bind_ok,
    hg, bind_ok, massert_true (by simp), bind_ok, massert_true (by simp), bind_ok]
  simp only []
  rw [forLe_eq_forUp 0 q (q + 1) (by omega), hr, bind_ok, he]

end Nurbs

namespace Nurbs
open Nurbs.Spec

variable {K : Type} [Field K] [LinearOrder K] [IsStrictOrderedRing K] {R : Rounding K}

theorem seg_wsum {p : ℕ} {c : Curve K} (hw : WFCurve p c) {x : K} {k : ℕ} (hk : IsSpan c.Knots.Values x k)
    (hpk : p ≤ k) (hl : k + p + 2 ≤ c.Knots.Values.length) (L : Vec4 K →ₗ[K] K) (F : Vec4 K → Vec4 K) (f : Vec4 K → K)
    (hL : ∀ v, L (ToHomo (F v)) = v.w * f v) :
    L (seg (kn c.Knots.Values) k x p (fun i => ToHomo (F (pt c.ControlPoints i)))) = wsum p c x f := by
  rw [seg_map, ← sum_N_window hw.clamped hk hpk hl hw.count]
  unfold wsum
  refine Finset.sum_congr rfl fun i _ => ?_
  rw [hL, smul_eq_mul]; ring

theorem sseg_swsum {p q m n : ℕ} {s : Surface K} (hw : WFSurface p q m n s) {u v : K}
    {ku kv : ℕ} (hku : IsSpan s.KnotsU.Values u ku) (hkv : IsSpan s.KnotsV.Values v kv) (hp : p ≤ ku) (hm : ku < m)
    (hq : q ≤ kv) (hn : kv < n) (L : Vec4 K →ₗ[K] K) (F : Vec4 K → Vec4 K) (f : Vec4 K → K)
    (hL : ∀ v, L (ToHomo (F v)) = v.w * f v) :
    L (sseg (kn s.KnotsU.Values) ku u p (kn s.KnotsV.Values) kv v q (fun i j => ToHomo (F (cp s i j)))) =
      swsum p q m n s u v f := by
  rw [sseg_map, ← sum_N_window2 hw hku hkv hp hm hq hn]
  unfold swsum
  refine Finset.sum_congr rfl fun i _ => Finset.sum_congr rfl fun j _ => ?_
  rw [hL, smul_eq_mul]; ring

/-- Weighted means are bounded by the largest value. -/
theorem wsum_div_le {p : ℕ} {c : Curve K} (hw : WFCurve p c) {x : K} (h0 : 0 ≤ x) (h1 : x ≤ 1) (f : Vec4 K → K) (B : K)
    (hB : ∀ i < c.ControlPoints.length, f (pt c.ControlPoints i) ≤ B) : wsum p c x f / wsum p c x (fun _ => 1) ≤ B := by
  obtain ⟨k, hk, hpk, hl⟩ := exists_span hw.clamped h0 h1
  obtain ⟨_, _, hr, hpos, _⟩ := evaluate_seg hw h0 h1 hk
  have e1 : (seg (kn c.Knots.Values) k x p (hpts c.ControlPoints)).w = wsum p c x (fun _ => 1) :=
    seg_wsum hw hk hpk hl Vec4.lw id (fun _ => 1) (fun v => by simp [Vec4.lw])
  rw [e1] at hpos
  rw [div_le_iff₀ hpos]
  unfold wsum
  rw [Finset.mul_sum]
  have hc := hw.count
  apply Finset.sum_le_sum
  intro i hi
  have hi := Finset.mem_range.mp hi
  have hN : 0 ≤ N (kn c.Knots.Values) x p i := by
    rw [N_eq_Nl (kn c.Knots.Values) x k (c.Knots.Values.length - 1)
      (N_zero_span hw.clamped.sorted (fun i hi => hw.clamped.le_one hi) hk) p i (by omega)]
    exact Nl_nonneg _ k x p i (fun a b hab hb => kn_mono hw.clamped.sorted hab (by omega)) hk.2.1 (IsSpan.le_right hk)
  have := mul_le_mul_of_nonneg_left (hB i hi) (mul_nonneg hN (hw.weights i hi).le)
  linarith

theorem swsum_div_le {p q m n : ℕ} {s : Surface K} (hw : WFSurface p q m n s) {u v : K} (hu0 : 0 ≤ u) (hu1 : u ≤ 1)
    (hv0 : 0 ≤ v) (hv1 : v ≤ 1) (f : Vec4 K → K) (B : K) (hB : ∀ i < m, ∀ j < n, f (cp s i j) ≤ B) :
    swsum p q m n s u v f / swsum p q m n s u v (fun _ => 1) ≤ B := by
  obtain ⟨ku, hku, hpu, hlu⟩ := exists_span hw.clampedU hu0 hu1
  obtain ⟨kv, hkv, hpv, hlv⟩ := exists_span hw.clampedV hv0 hv1
  have h1 := hw.knotsU
  have h2 := hw.knotsV
  obtain ⟨_, hm, _, hn, _, _, hpos, _⟩ := surface_seg hw hu0 hu1 hv0 hv1 hku hkv
  have e1 : (surfSeg p q s ku kv u v).w = swsum p q m n s u v (fun _ => 1) :=
    sseg_swsum hw hku hkv hpu hm hpv hn Vec4.lw id (fun _ => 1) (fun v => by simp [Vec4.lw])
  rw [e1] at hpos
  rw [div_le_iff₀ hpos]
  unfold swsum
  rw [Finset.mul_sum]
  apply Finset.sum_le_sum
  intro i hi
  have hi := Finset.mem_range.mp hi
  rw [Finset.mul_sum]
  apply Finset.sum_le_sum
  intro j hj
  have hj := Finset.mem_range.mp hj
  have hNu : 0 ≤ N (kn s.KnotsU.Values) u p i := by
    rw [N_eq_Nl (kn s.KnotsU.Values) u ku (s.KnotsU.Values.length - 1)
      (N_zero_span hw.clampedU.sorted (fun i hi => hw.clampedU.le_one hi) hku) p i (by omega)]
    exact Nl_nonneg _ ku u p i (fun a b hab hb => kn_mono hw.clampedU.sorted hab (by omega)) hku.2.1 (IsSpan.le_right hku)
  have hNv : 0 ≤ N (kn s.KnotsV.Values) v q j := by
    rw [N_eq_Nl (kn s.KnotsV.Values) v kv (s.KnotsV.Values.length - 1)
      (N_zero_span hw.clampedV.sorted (fun i hi => hw.clampedV.le_one hi) hkv) q j (by omega)]
    exact Nl_nonneg _ kv v q j (fun a b hab hb => kn_mono hw.clampedV.sorted hab (by omega)) hkv.2.1 (IsSpan.le_right hkv)
  have := mul_le_mul_of_nonneg_left (hB i hi j hj) (mul_nonneg (mul_nonneg hNu hNv) (hw.weights i hi j hj).le)
  linarith

theorem errFactor_nonneg (R : Rounding K) (m : ℕ) : 0 ≤ errFactor R m := by
  have := one_le_pow_inv R.q_pos R.q_le m
  unfold errFactor
  change 0 ≤ (R.q ^ m)⁻¹ - 1
  linarith

/-- The usual `γ_m` of rounding error analysis. -/
theorem errFactor_le (R : Rounding K) (m : ℕ) (h : m * R.u < 1) : errFactor R m ≤ m * R.u / (1 - m * R.u) := by
  have hu := R.u_nonneg
  have hb : 1 - m * R.u ≤ (1 - R.u) ^ m := by
    clear h
    induction m with
    | zero => simp
    | succ m ih =>
      have hq : 0 ≤ 1 - R.u := R.q_pos.le
      have := mul_le_mul_of_nonneg_right ih hq
      rw [pow_succ]
      push_cast
      have h2 : 0 ≤ (m : K) * R.u * R.u := by positivity
      linarith
  have hpos : 0 < 1 - m * R.u := by linarith
  have : ((1 - R.u) ^ m)⁻¹ ≤ (1 - m * R.u)⁻¹ := inv_anti₀ hpos hb
  unfold errFactor
  rw [le_div_iff₀ hpos]
  have h3 : (1 - m * R.u)⁻¹ * (1 - m * R.u) = 1 := inv_mul_cancel₀ hpos.ne'
  have h4 := mul_le_mul_of_nonneg_right this hpos.le
  rw [h3] at h4
  linarith

end Nurbs
