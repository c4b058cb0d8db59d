import Verif.Props.SurfaceDeriv
import Verif.Props.Smooth
import Verif.Proof.SmoothSurface

/-! # C86: smoothness of surfaces at the knot lines -/

set_option linter.unusedSectionVars false

namespace Nurbs.Props
open Nurbs Nurbs.Spec Set Filter Topology

/-- The polynomial that a sum of the surface is on a rectangle of spans. -/
noncomputable def swsumP {K : Type} [Field K] [LinearOrder K] (p q m n : ℕ) (s : Surface K) (ku kv : ℕ) (f : Vec4 K → K) : MvPolynomial (Fin 2) K :=
  ∑ i ∈ Finset.range m, ∑ j ∈ Finset.range n, tens ((cp s i j).w * f (cp s i j)) (NlP (kn s.KnotsU.Values) ku p i) (NlP (kn s.KnotsV.Values) kv q j)

theorem swsumP_patch {K : Type} [Field K] [LinearOrder K] [IsStrictOrderedRing K] {p q m n : ℕ} {s : Surface K} (hw : WFSurface p q m n s)
    (ku kv : ℕ) (f : Vec4 K → K) :
    IsPatch s.KnotsU.Values s.KnotsV.Values ku kv (fun a b => swsum p q m n s a b f) (swsumP p q m n s ku kv f) := by
  intro a b ha hb
  have h1 := hw.knotsU
  have h2 := hw.knotsV
  simp only [swsum, swsumP, map_sum, tens_eval]
  refine Finset.sum_congr rfl fun i hi => Finset.sum_congr rfl fun j hj => ?_
  rw [Finset.mem_range] at hi hj
  have e1 := N_piece hw.clampedU (i := i) (by omega) a ha
  have e2 := N_piece hw.clampedV (i := j) (by omega) b hb
  simp only at e1 e2
  rw [e1, e2]
  ring

theorem swsumP_u {p q m n : ℕ} {s : Surface ℝ} {ξ : ℝ} {r ku ku' : ℕ}
    (h : ∀ i, Agree ξ r (NlP (kn s.KnotsU.Values) ku p i) (NlP (kn s.KnotsU.Values) ku' p i)) (kv : ℕ) (f : Vec4 ℝ → ℝ) :
    AgreeM (MvPolynomial.X 0 - MvPolynomial.C ξ) r (swsumP p q m n s ku kv f) (swsumP p q m n s ku' kv f) :=
  AgreeM.sum fun i _ => AgreeM.sum fun _ _ => (h i).tens_u _ _

theorem swsumP_v {p q m n : ℕ} {s : Surface ℝ} {ξ : ℝ} {r kv kv' : ℕ}
    (h : ∀ i, Agree ξ r (NlP (kn s.KnotsV.Values) kv q i) (NlP (kn s.KnotsV.Values) kv' q i)) (ku : ℕ) (f : Vec4 ℝ → ℝ) :
    AgreeM (MvPolynomial.X 1 - MvPolynomial.C ξ) r (swsumP p q m n s ku kv f) (swsumP p q m n s ku kv' f) :=
  AgreeM.sum fun _ _ => AgreeM.sum fun j _ => (h j).tens_v _ _

theorem mixDeriv_continuousAt (A W : MvPolynomial (Fin 2) ℝ) (k l : ℕ) {u v : ℝ} (h : MvPolynomial.eval ![u, v] W ≠ 0) :
    ContinuousAt (fun z : ℝ × ℝ => mixDeriv A W k l z.1 z.2) (u, v) := by
  have hvec : Continuous (fun z : ℝ × ℝ => (![z.1, z.2] : Fin 2 → ℝ)) := by
    refine continuous_pi fun i => ?_
    fin_cases i
    · exact continuous_fst
    · exact continuous_snd
  have hev : ∀ P : MvPolynomial (Fin 2) ℝ, ContinuousAt (fun z : ℝ × ℝ => MvPolynomial.eval ![z.1, z.2] P) (u, v) := fun P =>
    ((MvPolynomial.continuous_eval P).comp hvec).continuousAt
  unfold mixDeriv
  exact (hev _).div ((hev W).pow _) (pow_ne_zero _ h)

theorem patch_pos {p q m n : ℕ} {s : Surface ℝ} (hw : WFSurface p q m n s) {a b : ℝ} {ku kv : ℕ} (ha : IsSpan s.KnotsU.Values a ku)
    (hb : IsSpan s.KnotsV.Values b kv) : MvPolynomial.eval ![a, b] (swsumP p q m n s ku kv fun _ => 1) ≠ 0 := by
  have h1 := ha.1
  have h2 := hb.1
  rw [← swsumP_patch hw ku kv _ a b ha hb]
  exact (C43_evaluate hw ((hw.clampedU.nonneg (by omega)).trans ha.2.1) ((IsSpan.le_right ha).trans (hw.clampedU.le_one ha.1))
    ((hw.clampedV.nonneg (by omega)).trans hb.2.1) ((IsSpan.le_right hb).trans (hw.clampedV.le_one hb.1))).2.ne'

/-- A function given by the patches, continued to the square. -/
theorem patch_continuous {p q m n : ℕ} {s : Surface ℝ} (hw : WFSurface p q m n s) {ou ov : ℕ}
    (hmu : ∀ x ∈ s.KnotsU.Values, 0 < x → x < 1 → s.KnotsU.Values.count x + ou ≤ p)
    (hmv : ∀ x ∈ s.KnotsV.Values, 0 < x → x < 1 → s.KnotsV.Values.count x + ov ≤ q) (f : Vec4 ℝ → ℝ) {F : ℝ × ℝ → ℝ}
    (hF : ∀ a b ku kv, IsSpan s.KnotsU.Values a ku → IsSpan s.KnotsV.Values b kv →
      F (a, b) = mixDeriv (swsumP p q m n s ku kv f) (swsumP p q m n s ku kv fun _ => 1) ou ov a b) :
    ContinuousOn F (Icc 0 1 ×ˢ Icc 0 1) := by
  rintro ⟨u, v⟩ ⟨⟨hu0, hu1⟩, hv0, hv1⟩
  simp only at hu0 hu1 hv0 hv1
  obtain ⟨Ju, hJu, _, _⟩ := exists_span hw.clampedU hu0 hu1
  obtain ⟨Jv, hJv, _, _⟩ := exists_span hw.clampedV hv0 hv1
  have key : ∀ (A B : Set ℝ),
      (∃ j, (∀ i, Agree u (ou + 1) (NlP (kn s.KnotsU.Values) j p i) (NlP (kn s.KnotsU.Values) Ju p i)) ∧
        ∀ᶠ t in 𝓝[A] u, t = u ∨ IsSpan s.KnotsU.Values t j) →
      (∃ j, (∀ i, Agree v (ov + 1) (NlP (kn s.KnotsV.Values) j q i) (NlP (kn s.KnotsV.Values) Jv q i)) ∧
        ∀ᶠ t in 𝓝[B] v, t = v ∨ IsSpan s.KnotsV.Values t j) →
      ContinuousWithinAt F (A ×ˢ B) (u, v) := by
    rintro A B ⟨ju, hju, hA⟩ ⟨jv, hjv, hB⟩
    have hev : ∀ a b, (a = u ∨ IsSpan s.KnotsU.Values a ju) → (b = v ∨ IsSpan s.KnotsV.Values b jv) →
        F (a, b) = mixDeriv (swsumP p q m n s ju jv f) (swsumP p q m n s ju jv fun _ => 1) ou ov a b := by
      rintro a b (rfl | ha) (rfl | hb)
      · rw [hF _ _ Ju Jv hJu hJv, ← (swsumP_u hju Jv f).mixDeriv_u (swsumP_u hju Jv _) le_rfl,
          ← (swsumP_v hjv ju f).mixDeriv_v (swsumP_v hjv ju _) le_rfl]
      · rw [hF _ _ Ju jv hJu hb, ← (swsumP_u hju jv f).mixDeriv_u (swsumP_u hju jv _) le_rfl]
      · rw [hF _ _ ju Jv ha hJv, ← (swsumP_v hjv ju f).mixDeriv_v (swsumP_v hjv ju _) le_rfl]
      · exact hF _ _ ju jv ha hb
    have hne : MvPolynomial.eval ![u, v] (swsumP p q m n s ju jv fun _ => 1) ≠ 0 := by
      rw [(swsumP_u hju jv _).map _ (by simp), (swsumP_v hjv Ju _).map _ (by simp)]
      exact patch_pos hw hJu hJv
    refine (mixDeriv_continuousAt (swsumP p q m n s ju jv f) _ ou ov hne).continuousWithinAt.congr_of_eventuallyEq ?_
      (hev u v (.inl rfl) (.inl rfl))
    rw [nhdsWithin_prod_eq]
    filter_upwards [hA.prod_mk hB] with z hz
    exact hev z.1 z.2 hz.1 hz.2
  obtain ⟨ul, ur⟩ := basis_sides hw.clampedU hu0 hu1 hJu (r := ou) (fun h => hmu u h)
  obtain ⟨vl, vr⟩ := basis_sides hw.clampedV hv0 hv1 hJv (r := ov) (fun h => hmv v h)
  have hu : Icc (0 : ℝ) 1 = Icc 0 1 ∩ Iic u ∪ Icc 0 1 ∩ Ici u := by
    rw [← inter_union_distrib_left, Iic_union_Ici, inter_univ]
  have hv : Icc (0 : ℝ) 1 = Icc 0 1 ∩ Iic v ∪ Icc 0 1 ∩ Ici v := by
    rw [← inter_union_distrib_left, Iic_union_Ici, inter_univ]
  have : Icc (0 : ℝ) 1 ×ˢ Icc (0 : ℝ) 1 = (Icc 0 1 ∩ Iic u ∪ Icc 0 1 ∩ Ici u) ×ˢ (Icc 0 1 ∩ Iic v ∪ Icc 0 1 ∩ Ici v) := by
    rw [← hu, ← hv]
  rw [this, union_prod, prod_union, prod_union]
  exact ((key _ _ ul vl).union (key _ _ ul vr)).union ((key _ _ ur vl).union (key _ _ ur vr))

/-- C86 for surfaces.  If every interior knot in `u` has multiplicity at most `p - ou` and every interior knot in `v` at most `q - ov`, the
partial derivative returned by `Surface::EvaluateDerivative` (orders 0: the point returned by `Evaluate`) is a continuous function of both
parameters together on the square. -/
theorem C86_surface_continuous {p q m n : ℕ} {s : Surface ℝ} (hw : WFSurface p q m n s) {ou ov : ℕ} (hou : ou ≤ 29) (hov : ov ≤ 29)
    (hprod : ou.choose (ou / 2) * ov.choose (ov / 2) ≤ 2147483647)
    (hmu : ∀ x ∈ s.KnotsU.Values, 0 < x → x < 1 → s.KnotsU.Values.count x + ou ≤ p)
    (hmv : ∀ x ∈ s.KnotsV.Values, 0 < x → x < 1 → s.KnotsV.Values.count x + ov ≤ q) :
    ∃ F : ℝ × ℝ → Vec3 ℝ, (∀ u v, 0 ≤ u → u ≤ 1 → 0 ≤ v → v ≤ 1 → s.EvaluateDerivative u v ou ov = .ok (F (u, v))) ∧
      (ou = 0 → ov = 0 → ∀ u v, 0 ≤ u → u ≤ 1 → 0 ≤ v → v ≤ 1 → s.Evaluate u v = .ok (F (u, v))) ∧
      ContinuousOn (fun z => (F z).x) (Icc 0 1 ×ˢ Icc 0 1) ∧ ContinuousOn (fun z => (F z).y) (Icc 0 1 ×ˢ Icc 0 1) ∧
      ContinuousOn (fun z => (F z).z) (Icc 0 1 ×ˢ Icc 0 1) := by
  have hcu := hw.clampedU
  have hcv := hw.clampedV
  have main : ∀ z : ℝ × ℝ, ∃ w : Vec3 ℝ, 0 ≤ z.1 → z.1 ≤ 1 → 0 ≤ z.2 → z.2 ≤ 1 → s.EvaluateDerivative z.1 z.2 ou ov = .ok w ∧
      (ou = 0 → ov = 0 → s.Evaluate z.1 z.2 = .ok w) ∧ ∀ ku kv, IsSpan s.KnotsU.Values z.1 ku → IsSpan s.KnotsV.Values z.2 kv →
      w = ⟨mixDeriv (swsumP p q m n s ku kv (·.x)) (swsumP p q m n s ku kv fun _ => 1) ou ov z.1 z.2,
        mixDeriv (swsumP p q m n s ku kv (·.y)) (swsumP p q m n s ku kv fun _ => 1) ou ov z.1 z.2,
        mixDeriv (swsumP p q m n s ku kv (·.z)) (swsumP p q m n s ku kv fun _ => 1) ou ov z.1 z.2⟩ := by
    rintro ⟨u, v⟩
    by_cases h : 0 ≤ u ∧ u ≤ 1 ∧ 0 ≤ v ∧ v ≤ 1
    · obtain ⟨hu0, hu1, hv0, hv1⟩ := h
      obtain ⟨Ju, Jv, X, Y, Z, W, ds, hsu, hsv, hX, hY, hZ, hW, _, he, _, _, hds, hd⟩ := C45_evaluateAll_partial hw hu0 hu1 hv0 hv1 ou ov hou hov hprod
      refine ⟨_, fun _ _ _ _ => ⟨hd, ?_, fun ku kv hku hkv => ?_⟩⟩
      · rintro rfl rfl
        rw [(C43_evaluate hw hu0 hu1 hv0 hv1).1]
        simp only [mixDeriv, mixNum, Nat.zero_add, pow_one, ← hX u v hsu hsv, ← hY u v hsu hsv, ← hZ u v hsu hsv, ← hW u v hsu hsv]
        rfl
      · obtain rfl : ku = Ju := isSpan_unique hcu.sorted hku hsu (fun i hi => hcu.le_one hi)
        obtain rfl : kv = Jv := isSpan_unique hcv.sorted hkv hsv (fun i hi => hcv.le_one hi)
        rw [C45_patch_unique hsu hsv hX (swsumP_patch hw _ _ _), C45_patch_unique hsu hsv hY (swsumP_patch hw _ _ _),
          C45_patch_unique hsu hsv hZ (swsumP_patch hw _ _ _), C45_patch_unique hsu hsv hW (swsumP_patch hw _ _ _)]
    · exact ⟨⟨0, 0, 0⟩, fun h0 h1 h2 h3 => absurd ⟨h0, h1, h2, h3⟩ h⟩
  choose F hF using main
  have hin : ∀ {p : ℕ} {l : List ℝ}, Clamped p l → ∀ {a : ℝ} {k}, IsSpan l a k → 0 ≤ a ∧ a ≤ 1 := by
    intro p l hc a k h
    have := h.1
    exact ⟨(hc.nonneg (by omega)).trans h.2.1, (IsSpan.le_right h).trans (hc.le_one h.1)⟩
  refine ⟨F, fun u v h0 h1 h2 h3 => (hF (u, v) h0 h1 h2 h3).1, fun hu hv u v h0 h1 h2 h3 => (hF (u, v) h0 h1 h2 h3).2.1 hu hv, ?_, ?_, ?_⟩
  · exact patch_continuous hw hmu hmv (·.x) fun a b ku kv ha hb => by
      rw [(hF (a, b) (hin hcu ha).1 (hin hcu ha).2 (hin hcv hb).1 (hin hcv hb).2).2.2 ku kv ha hb]
  · exact patch_continuous hw hmu hmv (·.y) fun a b ku kv ha hb => by
      rw [(hF (a, b) (hin hcu ha).1 (hin hcu ha).2 (hin hcv hb).1 (hin hcv hb).2).2.2 ku kv ha hb]
  · exact patch_continuous hw hmu hmv (·.z) fun a b ku kv ha hb => by
      rw [(hF (a, b) (hin hcu ha).1 (hin hcu ha).2 (hin hcv hb).1 (hin hcv hb).2).2.2 ku kv ha hb]

theorem mixDeriv_hasDerivAt_v (A W : MvPolynomial (Fin 2) ℝ) (l : ℕ) {a b : ℝ} (hne : MvPolynomial.eval ![a, b] W ≠ 0) :
    HasDerivAt (fun t => mixDeriv A W 0 l a t) (mixDeriv A W 0 (l + 1) a b) b := by
  have hd := HasDerivAt.fun_div (mv_hasDerivAt_v (mixNum A W 0 l) a b) (HasDerivAt.fun_pow (mv_hasDerivAt_v W a b) (0 + l + 1)) (pow_ne_zero _ hne)
  refine hd.congr_deriv ?_
  unfold mixDeriv
  rw [mixNum_eq, mixNum_eq, gNum_v]
  simp only [map_sub, map_mul, nsmul_eq_mul, map_natCast]
  rw [div_eq_div_iff (pow_ne_zero _ (pow_ne_zero _ hne)) (pow_ne_zero _ hne)]
  simp only [Nat.add_sub_cancel]
  push_cast
  ring

theorem mixDeriv_hasDerivAt_u (A W : MvPolynomial (Fin 2) ℝ) (k l : ℕ) {a b : ℝ} (hne : MvPolynomial.eval ![a, b] W ≠ 0) :
    HasDerivAt (fun t => mixDeriv A W k l t b) (mixDeriv A W (k + 1) l a b) a := by
  have hd := HasDerivAt.fun_div (mv_hasDerivAt_u (mixNum A W k l) a b) (HasDerivAt.fun_pow (mv_hasDerivAt_u W a b) (k + l + 1)) (pow_ne_zero _ hne)
  refine hd.congr_deriv ?_
  unfold mixDeriv
  rw [mixNum_eq, mixNum_eq, gNum_u]
  simp only [map_sub, map_mul, nsmul_eq_mul, map_natCast]
  rw [div_eq_div_iff (pow_ne_zero _ (pow_ne_zero _ hne)) (pow_ne_zero _ hne)]
  simp only [Nat.add_sub_cancel]
  push_cast
  ring

/-- The spans on both sides of an interior parameter, and how the basis functions meet there. -/
theorem basis_meet {p : ℕ} {l : List ℝ} (hc : Clamped p l) {x : ℝ} (h0 : 0 < x) (h1 : x < 1) {J : ℕ} (hJ : IsSpan l x J) {r : ℕ}
    (hm : x ∈ l → l.count x + r ≤ p) :
    ∃ j, kn l j < x ∧ x < kn l (J + 1) ∧ (∀ t, kn l j < t → t < x → IsSpan l t j) ∧ (∀ t, x ≤ t → t < kn l (J + 1) → IsSpan l t J) ∧
      ∀ i, Agree x (r + 1) (NlP (kn l) j p i) (NlP (kn l) J p i) := by
  have hJl := hJ.1
  have hlJ : J + p + 2 ≤ l.length := by
    obtain ⟨J', hJ', _, hl'⟩ := exists_span hc h0.le h1.le
    rwa [isSpan_unique hc.sorted hJ hJ' (fun i hi => hc.le_one hi)]
  obtain ⟨j, hpj, hmeet, hlt, hjx, hxj, hin, hout⟩ := exists_meet hc h0 hJ h1
  have := hmeet.le
  have hxJ : x < kn l (J + 1) := hJ.2.2.resolve_right fun h => h1.ne h.1
  refine ⟨j, hjx, hxJ, fun t h1 h2 => ⟨by omega, h1.le, .inl (h2.trans_le hxj)⟩, fun t h1 h2 => ⟨hJl, hJ.2.1.trans h1, .inl h2⟩, fun i => ?_⟩
  by_cases hx : x ∈ l
  · have h2 := hin hx
    have h3 := hm hx
    have hreg : RegSpan (kn l) J p := regSpan_of_sorted hc.sorted (IsSpan.lt hJ) (by omega)
    have hregj : RegSpan (kn l) j p := regSpan_of_sorted hc.sorted hlt (by omega)
    exact Agree.of_deriv fun s hs => hmeet.deriv (by omega) hregj hreg i
  · rw [hout hx]
    unfold Agree; rw [sub_self]; exact dvd_zero _

/-- The iterated derivatives of one coordinate of a surface. -/
theorem surf_coord {p q m n : ℕ} {s : Surface ℝ} (hw : WFSurface p q m n s) {u v : ℝ} (hu0 : 0 < u) (hu1 : u < 1) (hv0 : 0 < v) (hv1 : v < 1)
    {Ju Jv : ℕ} (hJu : IsSpan s.KnotsU.Values u Ju) (hJv : IsSpan s.KnotsV.Values v Jv) {ou ov : ℕ}
    (hmu : u ∈ s.KnotsU.Values → s.KnotsU.Values.count u + ou ≤ p) (hmv : v ∈ s.KnotsV.Values → s.KnotsV.Values.count v + ov ≤ q)
    (f : Vec4 ℝ → ℝ) {k l : ℕ} (hk : k ≤ ou) (hl : l ≤ ov) :
    iteratedDeriv k (fun a => iteratedDeriv l (fun b => swsum p q m n s a b f / swsum p q m n s a b fun _ => 1) v) u =
      mixDeriv (swsumP p q m n s Ju Jv f) (swsumP p q m n s Ju Jv fun _ => 1) k l u v := by
  obtain ⟨ju, hju, huJ, sju, sJu, hau⟩ := basis_meet hw.clampedU hu0 hu1 hJu hmu
  obtain ⟨jv, hjv, hvJ, sjv, sJv, hav⟩ := basis_meet hw.clampedV hv0 hv1 hJv hmv
  have inner : ∀ a ka, IsSpan s.KnotsU.Values a ka → iteratedDeriv l (fun b => swsum p q m n s a b f / swsum p q m n s a b fun _ => 1) v =
      mixDeriv (swsumP p q m n s ka Jv f) (swsumP p q m n s ka Jv fun _ => 1) 0 l a v := by
    intro a ka ha
    refine (glue (r := ov) (fa := fun r b => mixDeriv (swsumP p q m n s ka jv f) (swsumP p q m n s ka jv fun _ => 1) 0 r a b)
      (fb := fun r b => mixDeriv (swsumP p q m n s ka Jv f) (swsumP p q m n s ka Jv fun _ => 1) 0 r a b) hjv hvJ ?_ ?_ ?_ ?_ ?_ l hl).2 v le_rfl hvJ
    · intro t h1 h2
      simp only [mixDeriv, mixNum, Nat.zero_add, pow_one]
      rw [← swsumP_patch hw ka jv _ a t ha (sjv t h1 h2), ← swsumP_patch hw ka jv _ a t ha (sjv t h1 h2)]
    · intro t h1 h2
      simp only [mixDeriv, mixNum, Nat.zero_add, pow_one]
      rw [← swsumP_patch hw ka Jv _ a t ha (sJv t h1 h2), ← swsumP_patch hw ka Jv _ a t ha (sJv t h1 h2)]
    · intro r t h1 h2
      refine mixDeriv_hasDerivAt_v _ _ r ?_
      rcases h2.lt_or_eq with h2 | rfl
      · exact patch_pos hw ha (sjv t h1 h2)
      · rw [(swsumP_v hav ka _).map _ (by simp)]
        exact patch_pos hw ha hJv
    · intro r t h1 h2
      exact mixDeriv_hasDerivAt_v _ _ r (patch_pos hw ha (sJv t h1 h2))
    · intro r hr
      exact (swsumP_v hav ka f).mixDeriv_v (swsumP_v hav ka _) hr 0 a
  refine (glue (r := ou) (fa := fun r a => mixDeriv (swsumP p q m n s ju Jv f) (swsumP p q m n s ju Jv fun _ => 1) r l a v)
    (fb := fun r a => mixDeriv (swsumP p q m n s Ju Jv f) (swsumP p q m n s Ju Jv fun _ => 1) r l a v) hju huJ ?_ ?_ ?_ ?_ ?_ k hk).2 u le_rfl huJ
  · intro t h1 h2
    exact inner t ju (sju t h1 h2)
  · intro t h1 h2
    exact inner t Ju (sJu t h1 h2)
  · intro r t h1 h2
    refine mixDeriv_hasDerivAt_u _ _ r l ?_
    rcases h2.lt_or_eq with h2 | rfl
    · exact patch_pos hw (sju t h1 h2) hJv
    · rw [(swsumP_u hau Jv _).map _ (by simp)]
      exact patch_pos hw hJu hJv
  · intro r t h1 h2
    exact mixDeriv_hasDerivAt_u _ _ r l (patch_pos hw (sJu t h1 h2) hJv)
  · intro r hr
    exact (swsumP_u hau Jv f).mixDeriv_u (swsumP_u hau Jv _) hr l v

/-- C86 for surfaces.  At every interior point of the square, knot lines included, where the multiplicities leave room for `ou` and `ov`
derivatives, the entries of `Surface::EvaluateAll` are the iterated partial derivatives of the coordinates of the surface. -/
theorem C86_surface_derivatives {p q m n : ℕ} {s : Surface ℝ} (hw : WFSurface p q m n s) {u v : ℝ} (hu0 : 0 < u) (hu1 : u < 1) (hv0 : 0 < v)
    (hv1 : v < 1) {ou ov : ℕ} (hou : ou ≤ 29) (hov : ov ≤ 29) (hprod : ou.choose (ou / 2) * ov.choose (ov / 2) ≤ 2147483647)
    (hmu : u ∈ s.KnotsU.Values → s.KnotsU.Values.count u + ou ≤ p) (hmv : v ∈ s.KnotsV.Values → s.KnotsV.Values.count v + ov ≤ q) :
    ∃ ds, s.EvaluateAll u v ou ov = .ok ds ∧ ∀ k ≤ ou, ∀ l ≤ ov, ds.Get k l = .ok
      ⟨iteratedDeriv k (fun a => iteratedDeriv l (fun b => (surfPoint p q m n s a b).x) v) u,
        iteratedDeriv k (fun a => iteratedDeriv l (fun b => (surfPoint p q m n s a b).y) v) u,
        iteratedDeriv k (fun a => iteratedDeriv l (fun b => (surfPoint p q m n s a b).z) v) u⟩ := by
  obtain ⟨Ju, Jv, X, Y, Z, W, ds, hsu, hsv, hX, hY, hZ, hW, _, he, _, _, hds, hd⟩ :=
    C45_evaluateAll_partial hw hu0.le hu1.le hv0.le hv1.le ou ov hou hov hprod
  refine ⟨ds, he, fun k hk l hl => ?_⟩
  have eW := C45_patch_unique hsu hsv hW (swsumP_patch hw _ _ _)
  rw [hds k hk l hl, C45_patch_unique hsu hsv hX (swsumP_patch hw _ _ _), C45_patch_unique hsu hsv hY (swsumP_patch hw _ _ _),
    C45_patch_unique hsu hsv hZ (swsumP_patch hw _ _ _), eW]
  rw [← surf_coord hw hu0 hu1 hv0 hv1 hsu hsv hmu hmv (·.x) hk hl, ← surf_coord hw hu0 hu1 hv0 hv1 hsu hsv hmu hmv (·.y) hk hl,
    ← surf_coord hw hu0 hu1 hv0 hv1 hsu hsv hmu hmv (·.z) hk hl]
  rfl

/-- A bent sheet: degree 2 with a simple interior knot in `u`, degree 1 in `v`. -/
noncomputable def exRoofSheet : Surface ℝ :=
  ⟨2, 1, ⟨[0, 0, 0, 1/2, 1, 1, 1]⟩, ⟨[0, 0, 1, 1]⟩,
    ⟨4, 2, [⟨0, 0, 0, 1⟩, ⟨1, 0, 0, 2⟩, ⟨2, 0, 1, 1⟩, ⟨3, 0, 0, 1⟩, ⟨0, 1, 0, 1⟩, ⟨1, 1, 1, 1⟩, ⟨2, 1, 0, 3⟩, ⟨3, 1, 2, 1⟩]⟩⟩

theorem exRoofSheet_wf : WFSurface 2 1 4 2 exRoofSheet where
  degreeU := rfl
  degreeV := rfl
  clampedU := exParabolas_wf.clamped
  clampedV := by
    constructor
    · simp [exRoofSheet]
    · simp [exRoofSheet]
    · intro i hi; interval_cases i <;> rfl
    · intro i hi h
      simp only [exRoofSheet, List.length_cons, List.length_nil] at hi h
      interval_cases i <;> first | rfl | omega
    · simp [exRoofSheet, kn]
    · simp [exRoofSheet, kn]
  uCount := rfl
  vCount := rfl
  knotsU := rfl
  knotsV := rfl
  storage := rfl
  weights := by
    intro i hi j hj
    interval_cases i <;> interval_cases j <;> simp [exRoofSheet, cp]

/-- The derivative for `u` of the sheet is continuous on the square, the knot line `u = 1/2` included. -/
example : ∃ F : ℝ × ℝ → Vec3 ℝ, (∀ u v, 0 ≤ u → u ≤ 1 → 0 ≤ v → v ≤ 1 → exRoofSheet.EvaluateDerivative u v 1 0 = .ok (F (u, v))) ∧
    ContinuousOn (fun z => (F z).z) (Icc 0 1 ×ˢ Icc 0 1) := by
  obtain ⟨F, h1, -, -, -, h2⟩ := C86_surface_continuous exRoofSheet_wf (ou := 1) (ov := 0) (by omega) (by omega) (by decide) (by
    intro x hx h0 h1
    simp only [exRoofSheet, List.mem_cons, List.not_mem_nil, or_false] at hx
    obtain rfl : x = 1/2 := by
      rcases hx with h | h | h | h | h | h | h <;> first | exact h | (subst h; exact absurd h0 (lt_irrefl _)) | (subst h; exact absurd h1 (lt_irrefl _))
    norm_num [exRoofSheet, List.count_cons]) (by
    intro x hx h0 h1
    simp only [exRoofSheet, List.mem_cons, List.not_mem_nil, or_false] at hx
    rcases hx with h | h | h | h <;> first | (subst h; exact absurd h0 (lt_irrefl _)) | (subst h; exact absurd h1 (lt_irrefl _)))
  exact ⟨F, h1, h2⟩

/-- On the knot line the computed derivatives are the partial derivatives. -/
example : ∃ ds, exRoofSheet.EvaluateAll (1/2) (1/3) 1 0 = .ok ds ∧ ∀ k : ℕ, k ≤ 1 → ∀ l : ℕ, l ≤ 0 → ds.Get k l = .ok
      ⟨iteratedDeriv k (fun a => iteratedDeriv l (fun b => (surfPoint 2 1 4 2 exRoofSheet a b).x) (1/3)) (1/2),
        iteratedDeriv k (fun a => iteratedDeriv l (fun b => (surfPoint 2 1 4 2 exRoofSheet a b).y) (1/3)) (1/2),
        iteratedDeriv k (fun a => iteratedDeriv l (fun b => (surfPoint 2 1 4 2 exRoofSheet a b).z) (1/3)) (1/2)⟩ :=
  C86_surface_derivatives exRoofSheet_wf (u := 1/2) (v := 1/3) (by norm_num) (by norm_num) (by norm_num) (by norm_num) (ou := 1) (ov := 0) (by omega) (by omega) (by decide)
    (fun _ => by norm_num [exRoofSheet, List.count_cons]) (fun h => by norm_num [exRoofSheet] at h)

end Nurbs.Props
