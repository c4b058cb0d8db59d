import Verif.Spec.Surface
import Verif.Proof.Curve
import Verif.Proof.Grid

/-! # `Surface::Evaluate` in terms of nested segments -/

set_option linter.unusedSectionVars false

namespace Nurbs
open Nurbs.Spec

variable {K : Type} [Field K] [LinearOrder K] [IsStrictOrderedRing K]

/-- Homogeneous control points. -/
def hcp (s : Surface K) (i j : ℕ) : Vec4 K := ToHomo (cp s i j)

theorem grid_eq {K : Type} [Zero K] {s : Surface K} {m n : ℕ} (hu : s.ControlPoints.UCount = m) (hv : s.ControlPoints.VCount = n)
    (hl : s.ControlPoints.Values.length = n * m) : s.ControlPoints = gridOf m n (cp s) := by
  have h := exists_gridOf s.ControlPoints m n hu hv hl
  have e : cp s = fun u v => s.ControlPoints.Values.getD (v * m + u) default := by
    funext i j
    simp only [cp, hu, Int.toNat_natCast]; rfl
  rw [e]; exact h

theorem WFSurface.grid {p q m n : ℕ} {s : Surface K} (hw : WFSurface p q m n s) : s.ControlPoints = gridOf m n (cp s) :=
  grid_eq hw.uCount hw.vCount hw.storage

theorem cp_gridOf {K : Type} [Zero K] {s : Surface K} {m n : ℕ} {f : ℕ → ℕ → Vec4 K} (h : s.ControlPoints = gridOf m n f) {i j : ℕ}
    (hi : i < m) (hj : j < n) : cp s i j = f i j := by
  unfold cp
  rw [h]
  simp only [Int.toNat_natCast, gridOf]
  rw [List.getD_eq_getElem?_getD, List.getElem?_eq_getElem (by simpa using cell_lt hi hj), Option.getD_some]
  simp [tab, cell_div hi, cell_mod hi]

/-- Double sum over the active window. -/
def sseg {V : Type} [AddCommGroup V] [Module K V] (Uu : ℕ → K) (ku : ℕ) (u : K) (p : ℕ) (Uv : ℕ → K) (kv : ℕ) (v : K) (q : ℕ)
    (P : ℕ → ℕ → V) : V :=
  seg Uv kv v q fun j => seg Uu ku u p fun i => P i j

theorem sseg_swap {V : Type} [AddCommGroup V] [Module K V] (Uu : ℕ → K) (ku : ℕ) (u : K) (p : ℕ) (Uv : ℕ → K) (kv : ℕ) (v : K)
    (q : ℕ) (P : ℕ → ℕ → V) : sseg Uu ku u p Uv kv v q P = seg Uu ku u p fun i => seg Uv kv v q fun j => P i j := by
  unfold sseg seg
  simp only [Finset.smul_sum]
  rw [Finset.sum_comm]
  refine Finset.sum_congr rfl fun i _ => Finset.sum_congr rfl fun j _ => ?_
  rw [smul_smul, smul_smul, mul_comm]

theorem sseg_map {V W : Type} [AddCommGroup V] [Module K V] [AddCommGroup W] [Module K W] (L : V →ₗ[K] W) (Uu : ℕ → K)
    (ku : ℕ) (u : K) (p : ℕ) (Uv : ℕ → K) (kv : ℕ) (v : K) (q : ℕ) (P : ℕ → ℕ → V) :
    L (sseg Uu ku u p Uv kv v q P) = sseg Uu ku u p Uv kv v q fun i j => L (P i j) := by
  unfold sseg
  rw [seg_map]
  congr 1
  funext j
  rw [seg_map]

theorem sseg_congr {V : Type} [AddCommGroup V] [Module K V] {Uu : ℕ → K} {ku : ℕ} {u : K} {p : ℕ} {Uv : ℕ → K} {kv : ℕ} {v : K}
    {q : ℕ} {P Q : ℕ → ℕ → V} (hp : p ≤ ku) (hq : q ≤ kv)
    (h : ∀ i j, ku ≤ i + p → i ≤ ku → kv ≤ j + q → j ≤ kv → P i j = Q i j) :
    sseg Uu ku u p Uv kv v q P = sseg Uu ku u p Uv kv v q Q :=
  seg_congr hq fun j h1 h2 => seg_congr hp fun i h3 h4 => h i j (by omega) h4 (by omega) h2

/-- The segment of a surface at spans `ku`, `kv`. -/
def surfSeg (p q : ℕ) (s : Surface K) (ku kv : ℕ) (u v : K) : Vec4 K :=
  sseg (kn s.KnotsU.Values) ku u p (kn s.KnotsV.Values) kv v q (hcp s)

theorem surface_at_span {p q m n : ℕ} {s : Surface K} (hdu : s.DegreeU = p) (hdv : s.DegreeV = q)
    (hcu : Clamped p s.KnotsU.Values) (hcv : Clamped q s.KnotsV.Values)
    (hlu : s.KnotsU.Values.length = m + p + 1) (hlv : s.KnotsV.Values.length = n + q + 1)
    (hg : s.ControlPoints = gridOf m n (cp s)) {u v : K} (hu0 : 0 ≤ u) (hu1 : u ≤ 1) (hv0 : 0 ≤ v) (hv1 : v ≤ 1) {ku kv : ℕ}
    (hku : IsSpan s.KnotsU.Values u ku) (hkv : IsSpan s.KnotsV.Values v kv) :
    p ≤ ku ∧ ku < m ∧ q ≤ kv ∧ kv < n ∧ RegSpan (kn s.KnotsU.Values) ku p ∧ RegSpan (kn s.KnotsV.Values) kv q ∧
      s.Evaluate u v = projectM (surfSeg p q s ku kv u v) := by
  obtain ⟨ku', hku', hsu, hpku, hlku⟩ := findSpanIndex_spec hcu hu0 hu1
  obtain rfl : ku = ku' := isSpan_unique hcu.sorted hku hsu (fun i hi => hcu.le_one hi)
  obtain ⟨kv', hkv', hsv, hpkv, hlkv⟩ := findSpanIndex_spec hcv hv0 hv1
  obtain rfl : kv = kv' := isSpan_unique hcv.sorted hkv hsv (fun i hi => hcv.le_one hi)
  have hru : RegSpan (kn s.KnotsU.Values) ku p := regSpan_of_sorted hcu.sorted (IsSpan.lt hsu) (by omega)
  have hrv : RegSpan (kn s.KnotsV.Values) kv q := regSpan_of_sorted hcv.sorted (IsSpan.lt hsv) (by omega)
  refine ⟨hpku, by omega, hpkv, by omega, hru, hrv, ?_⟩
  unfold Surface.Evaluate
  rw [massert_true ⟨hu0, hu1⟩, bind_ok, massert_true ⟨hv0, hv1⟩, bind_ok, hdu, hdv, hku', bind_ok, hkv', bind_ok,
    evaluateAt_ok hpku (by omega) hru, bind_ok, evaluateAt_ok hpkv (by omega) hrv, bind_ok,
    massert_true (by simp), bind_ok, massert_true (by simp), bind_ok]
  simp only []
  rw [forLe_eq_forUp 0 q (q + 1) (by omega)]
  rw [forUp_finsum _ (fun j => Nl (kn s.KnotsV.Values) kv v q (kv - q + j) •
    seg (kn s.KnotsU.Values) ku u p (fun i => hcp s i (kv - q + j)))]
  · rw [bind_ok, zero_add]; rfl
  · intro j hj t
    rw [forLe_eq_forUp 0 p (p + 1) (by omega)]
    rw [forUp_finsum _ (fun i => Nl (kn s.KnotsU.Values) ku u p (ku - p + i) • hcp s (ku - p + i) (kv - q + j))]
    · rw [bind_ok, vget_tab _ _ _ j (by simp) hj, bind_ok, zero_add]; rfl
    · intro i hi t
      rw [hg, get_gridOf m n _ _ _ (ku - p + i) (kv - q + j) (by omega) (by omega) (by omega) (by omega), bind_ok,
        vget_tab _ _ _ i (by simp) hi, bind_ok]
      rfl

theorem sseg_w_pos {p q m n : ℕ} {s : Surface K} (hw : WFSurface p q m n s) {u v : K} {ku kv : ℕ}
    (hku : IsSpan s.KnotsU.Values u ku) (hkv : IsSpan s.KnotsV.Values v kv) (hp : p ≤ ku) (hm : ku < m) (hq : q ≤ kv) (hn : kv < n)
    (hru : RegSpan (kn s.KnotsU.Values) ku p) (hrv : RegSpan (kn s.KnotsV.Values) kv q) :
    0 < (surfSeg p q s ku kv u v).w := by
  have h1 := hw.knotsU
  have h2 := hw.knotsV
  apply seg_w_pos _ _ _ _ hq hrv (fun a b hab hb => kn_mono hw.clampedV.sorted hab (by omega)) hkv.2.1 (IsSpan.le_right hkv)
  intro j _ hj
  apply seg_w_pos _ _ _ _ hp hru (fun a b hab hb => kn_mono hw.clampedU.sorted hab (by omega)) hku.2.1 (IsSpan.le_right hku)
  intro i _ hi
  exact hw.weights i (by omega) j (by omega)

theorem surface_seg {p q m n : ℕ} {s : Surface K} (hw : WFSurface p q m n s)
    {u v : K} (hu0 : 0 ≤ u) (hu1 : u ≤ 1) (hv0 : 0 ≤ v) (hv1 : v ≤ 1) {ku kv : ℕ}
    (hku : IsSpan s.KnotsU.Values u ku) (hkv : IsSpan s.KnotsV.Values v kv) :
    p ≤ ku ∧ ku < m ∧ q ≤ kv ∧ kv < n ∧ RegSpan (kn s.KnotsU.Values) ku p ∧ RegSpan (kn s.KnotsV.Values) kv q ∧
      0 < (surfSeg p q s ku kv u v).w ∧ s.Evaluate u v = .ok (proj (surfSeg p q s ku kv u v)) := by
  obtain ⟨a, b, c, d, e, f, g⟩ := surface_at_span hw.degreeU hw.degreeV hw.clampedU hw.clampedV hw.knotsU hw.knotsV
    (WFSurface.grid hw) hu0 hu1 hv0 hv1 hku hkv
  have hpos := sseg_w_pos hw hku hkv a b c d e f
  exact ⟨a, b, c, d, e, f, hpos, by rw [g, projectM_ok hpos.ne']⟩

/-- Full double sums reduce to the active window. -/
theorem sum_N_window2 {A : Type} [AddCommGroup A] [Module K A] {p q m n : ℕ} {s : Surface K} (hw : WFSurface p q m n s) {u v : K}
    {ku kv : ℕ} (hku : IsSpan s.KnotsU.Values u ku) (hkv : IsSpan s.KnotsV.Values v kv) (hp : p ≤ ku) (hm : ku < m)
    (hq : q ≤ kv) (hn : kv < n) (g : ℕ → ℕ → A) :
    ∑ i ∈ Finset.range m, ∑ j ∈ Finset.range n,
      (N (kn s.KnotsU.Values) u p i * N (kn s.KnotsV.Values) v q j) • g i j =
    sseg (kn s.KnotsU.Values) ku u p (kn s.KnotsV.Values) kv v q g := by
  have h1 := hw.knotsU
  have h2 := hw.knotsV
  rw [sseg_swap, ← sum_N_window hw.clampedU hku hp (by omega) hw.knotsU]
  refine Finset.sum_congr rfl fun i _ => ?_
  rw [← sum_N_window hw.clampedV hkv hq (by omega) hw.knotsV, Finset.smul_sum]
  refine Finset.sum_congr rfl fun j _ => ?_
  rw [smul_smul]

theorem swsum_eq {p q m n : ℕ} {s : Surface K} (hw : WFSurface p q m n s) {u v : K}
    {ku kv : ℕ} (hku : IsSpan s.KnotsU.Values u ku) (hkv : IsSpan s.KnotsV.Values v kv) (hp : p ≤ ku) (hm : ku < m)
    (hq : q ≤ kv) (hn : kv < n) (L : Vec4 K →ₗ[K] K) (f : Vec4 K → K) (hL : ∀ v, L (ToHomo v) = v.w * f v) :
    swsum p q m n s u v f = L (surfSeg p q s ku kv u v) := by
  unfold surfSeg
  rw [sseg_map, ← sum_N_window2 hw hku hkv hp hm hq hn]
  unfold swsum
  refine Finset.sum_congr rfl fun i _ => Finset.sum_congr rfl fun j _ => ?_
  rw [hcp, hL, smul_eq_mul]; ring

theorem proj_sseg_eq {p q m n : ℕ} {s : Surface K} (hw : WFSurface p q m n s) {u v : K}
    {ku kv : ℕ} (hku : IsSpan s.KnotsU.Values u ku) (hkv : IsSpan s.KnotsV.Values v kv) (hp : p ≤ ku) (hm : ku < m)
    (hq : q ≤ kv) (hn : kv < n) : proj (surfSeg p q s ku kv u v) = surfPoint p q m n s u v := by
  unfold proj surfPoint
  rw [swsum_eq hw hku hkv hp hm hq hn Vec4.lx (·.x) (fun v => by simp [Vec4.lx, ToHomo, mul_comm]),
    swsum_eq hw hku hkv hp hm hq hn Vec4.ly (·.y) (fun v => by simp [Vec4.ly, ToHomo, mul_comm]),
    swsum_eq hw hku hkv hp hm hq hn Vec4.lz (·.z) (fun v => by simp [Vec4.lz, ToHomo, mul_comm]),
    swsum_eq hw hku hkv hp hm hq hn Vec4.lw (fun _ => 1) (fun v => by simp [Vec4.lw])]
  rfl

/-- The span that contains `0`, and its first control point. -/
theorem span_zero {p : ℕ} {l : List K} (hc : Clamped p l) : IsSpan l 0 p := by
  have := hc.len
  exact ⟨by omega, (hc.zeros p (le_refl _)).le, Or.inl hc.first⟩

theorem span_one {p n : ℕ} {l : List K} (hc : Clamped p l) (hl : l.length = n + 1 + p + 1) : IsSpan l 1 n := by
  have h1 := hc.last
  have := hc.len
  have h2 := hc.ones (n + 1) (by omega) (by omega)
  rw [show l.length - p - 2 = n by omega] at h1
  exact ⟨by omega, h1.le, Or.inr ⟨rfl, h1, h2⟩⟩

theorem rowCurve_wf {p q m n : ℕ} {s : Surface K} (hw : WFSurface p q m n s) {j : ℕ} (hj : j < n) :
    WFCurve p (rowCurve m s j) where
  degree := hw.degreeU
  clamped := hw.clampedU
  count := by simpa [rowCurve] using hw.knotsU
  weights := by
    intro i hi
    have : i < m := by simpa [rowCurve] using hi
    simpa [rowCurve, pt, this] using hw.weights i this j hj

theorem colCurve_wf {p q m n : ℕ} {s : Surface K} (hw : WFSurface p q m n s) {i : ℕ} (hi : i < m) :
    WFCurve q (colCurve n s i) where
  degree := hw.degreeV
  clamped := hw.clampedV
  count := by simpa [colCurve] using hw.knotsV
  weights := by
    intro j hj
    have : j < n := by simpa [colCurve] using hj
    simpa [colCurve, pt, this] using hw.weights i hi j this

theorem hpts_rowCurve {s : Surface K} {m i j : ℕ} (hi : i < m) : hpts (rowCurve m s j).ControlPoints i = hcp s i j := by
  simp [hpts, rowCurve, pt, hi, hcp]

theorem hpts_colCurve {s : Surface K} {n i j : ℕ} (hj : j < n) : hpts (colCurve n s i).ControlPoints j = hcp s i j := by
  simp [hpts, colCurve, pt, hj, hcp]

end Nurbs
