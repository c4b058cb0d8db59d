import Verif.Proof.RefineSurface
import Verif.Props.Refine
import Verif.Props.SurfaceInsert
import Verif.Props.Transposed
import Verif.Props.Iso

/-! # C104 for surfaces: refining the knots draws the control points to the surface -/

set_option linter.unusedSectionVars false

namespace Nurbs.Props
open Nurbs Nurbs.Spec

variable {K : Type} [Field K] [LinearOrder K] [IsStrictOrderedRing K]

theorem flat_pos {p q m n : ℕ} {s : Surface K} (hw : WFSurface p q m n s) {W : K} (he : ∀ i < m, ∀ j < n, (cp s i j).w = W) : 0 < W := by
  have h1 := hw.knotsU
  have h2 := hw.knotsV
  have h3 := hw.clampedU.len
  have h4 := hw.clampedV.len
  rw [← he 0 (by omega) 0 (by omega)]
  exact hw.weights 0 (by omega) 0 (by omega)

/-- C104 (surfaces, velocities).  On a surface with equal weights the bounds of the vectors `p (P_{i+1,j} - P_{i,j}) / (U[i+p+1] - U[i+1])` and of
the corresponding ones in `v` survive every refinement in both directions. -/
theorem C104_surface_velocity {p q m n : ℕ} (hp : 1 ≤ p) (hq : 1 ≤ q) {s : Surface K} (hw : WFSurface p q m n s) {W : K}
    (he : ∀ i < m, ∀ j < n, (cp s i j).w = W) {as bs : List K} (ha : ∀ v ∈ as, 0 < v ∧ v < 1) (hb : ∀ v ∈ bs, 0 < v ∧ v < 1) :
    ∃ t, (s.InsertKnotUList as >>= fun s1 => s1.InsertKnotVList bs) = .ok t ∧ ∀ (a : Vec3 K) (b : K),
      (SpeedU p m n s a b → SpeedU p (m + as.length) (n + bs.length) t a b) ∧
      (SpeedV q m n s a b → SpeedV q (m + as.length) (n + bs.length) t a b) := by
  have hW := flat_pos hw he
  obtain ⟨t, eUV, eVU, hwt⟩ := C47_commute hp hq hw as bs ha hb
  refine ⟨t, eUV, fun a b => ⟨fun h => ?_, fun h => ?_⟩⟩
  · obtain ⟨s1, e1, hw1, _⟩ := insertListU_spec hp as ha hw
    rw [e1, bind_ok] at eUV
    have ft := listUV_flat hp hq ha hb hw e1 eUV he
    refine (speedU_iff hW ft).2 fun j hj => ⟨?_, ?_⟩
    · exact listUV_diff hp hq ha hb hw e1 eUV (dirForm a) (fun j hj => ((speedU_iff hW he).1 h j hj).1) j hj
    · exact listUV_diff hp hq ha hb hw e1 eUV (dirForm ⟨-a.x, -a.y, -a.z⟩) (fun j hj => ((speedU_iff hW he).1 h j hj).2) j hj
  · obtain ⟨s1, e1, hw1, _⟩ := insertListV_spec hq bs hb hw
    rw [e1, bind_ok] at eVU
    have hw' := transposed_wf hw
    have he' : ∀ j < n, ∀ i < m, (cp (transposed s) j i).w = W := fun j hj i hi => by rw [cp_transposed hw.sized hi hj]; exact he i hi j hj
    have e1' : (transposed s).InsertKnotUList bs = .ok (transposed s1) := by rw [(C100_insert_list hw hp hq bs).1, e1]; rfl
    have e2' : (transposed s1).InsertKnotVList as = .ok (transposed t) := by rw [(C100_insert_list hw1 hp hq as).2, eVU]; rfl
    rw [speedV_iff hw] at h
    rw [speedV_iff hwt]
    have ft := listUV_flat hq hp hb ha hw' e1' e2' he'
    refine (speedU_iff hW ft).2 fun j hj => ⟨?_, ?_⟩
    · exact listUV_diff hq hp hb ha hw' e1' e2' (dirForm a) (fun j hj => ((speedU_iff hW he').1 h j hj).1) j hj
    · exact listUV_diff hq hp hb ha hw' e1' e2' (dirForm ⟨-a.x, -a.y, -a.z⟩) (fun j hj => ((speedU_iff hW he').1 h j hj).2) j hj

theorem dirForm_neg (a : Vec3 K) (x : Vec4 K) : dirForm ⟨-a.x, -a.y, -a.z⟩ x = -dirForm a x := by
  simp only [dirForm, LinearMap.add_apply, LinearMap.smul_apply, smul_eq_mul]
  ring

/-- Control points of one span along `u` differ by at most the bound times the distance of the outer knots. -/
theorem speed_window {p q m n : ℕ} {s : Surface K} (hw : WFSurface p q m n s) (hp : 1 ≤ p) {W : K} (he : ∀ i < m, ∀ j < n, (cp s i j).w = W) {a : Vec3 K}
    {b : K} (hb0 : 0 ≤ b) (h : SpeedU p m n s a b) {k : ℕ} (hpk : p ≤ k) (hkm : k < m) (hlt : kn s.KnotsU.Values k < kn s.KnotsU.Values (k + 1))
    {i i' j : ℕ} (i1 : k ≤ i + p) (i2 : i ≤ k) (i1' : k ≤ i' + p) (i2' : i' ≤ k) (hj : j < n) :
    form a (cp s i' j).x (cp s i' j).y (cp s i' j).z - form a (cp s i j).x (cp s i j).y (cp s i j).z ≤
      b * (kn s.KnotsU.Values (k + p) - kn s.KnotsU.Values (k + 1 - p)) := by
  have hW := flat_pos hw he
  have hl := hw.knotsU
  obtain ⟨d1, d2⟩ := (speedU_iff hW he).1 h j hj
  have h0 : 0 ≤ W * b := mul_nonneg hW.le hb0
  have F : ∀ i ≤ k, dirForm a (hcp s i j) = W * form a (cp s i j).x (cp s i j).y (cp s i j).z := fun i hi => by
    rw [dirForm_hcp, he i (by omega) j hj]
  refine le_of_mul_le_mul_left ?_ hW
  rcases le_total i i' with c | c
  · have := diff_window hw.clampedU.sorted h0 d1 hp hpk hkm (by omega) hlt c i1 i2'
    beta_reduce at this
    rw [F i' i2', F i i2] at this
    linarith
  · have := diff_window hw.clampedU.sorted h0 d2 hp hpk hkm (by omega) hlt c i1' i2
    beta_reduce at this
    rw [dirForm_neg, dirForm_neg, F i' i2', F i i2] at this
    linarith

/-- C104 (surfaces, distance).  After any refinement of the knots of a surface with equal weights, the point at `(u, v)` differs along `a` from
each of the `(p+1)(q+1)` control points of its spans by at most `b` times the distance between the `p` th knots around the span of `u` plus `b'` times
the distance between the `q` th knots around the span of `v`; `b` and `b'` belong to the surface before the refinement. -/
theorem C104_surface_distance {p q m n : ℕ} (hp : 1 ≤ p) (hq : 1 ≤ q) {s : Surface K} (hw : WFSurface p q m n s) {W : K}
    (he : ∀ i < m, ∀ j < n, (cp s i j).w = W) {a : Vec3 K} {b b' : K} (hb0 : 0 ≤ b) (hb0' : 0 ≤ b') (hu : SpeedU p m n s a b) (hv : SpeedV q m n s a b')
    {as bs : List K} (ha : ∀ v ∈ as, 0 < v ∧ v < 1) (hb : ∀ v ∈ bs, 0 < v ∧ v < 1) :
    ∃ t, (s.InsertKnotUList as >>= fun s1 => s1.InsertKnotVList bs) = .ok t ∧ WFSurface p q (m + as.length) (n + bs.length) t ∧
      ∀ u v, 0 ≤ u → u ≤ 1 → 0 ≤ v → v ≤ 1 → ∃ k l S, IsSpan t.KnotsU.Values u k ∧ IsSpan t.KnotsV.Values v l ∧ p ≤ k ∧ k < m + as.length ∧
        q ≤ l ∧ l < n + bs.length ∧ s.Evaluate u v = .ok S ∧ ∀ i j, k - p ≤ i → i ≤ k → l - q ≤ j → j ≤ l →
          |form a S.x S.y S.z - form a (cp t i j).x (cp t i j).y (cp t i j).z| ≤
            b * (kn t.KnotsU.Values (k + p) - kn t.KnotsU.Values (k + 1 - p)) + b' * (kn t.KnotsV.Values (l + q) - kn t.KnotsV.Values (l + 1 - q)) := by
  obtain ⟨t, e, hsp⟩ := C104_surface_velocity hp hq hw he ha hb
  obtain ⟨s1, e1, hw1, _, _, _, ev1⟩ := insertListU_spec hp as ha hw
  have e2 := e
  rw [e1, bind_ok] at e2
  obtain ⟨t', e2', hwt, _, _, _, ev2⟩ := insertListV_spec hq bs hb hw1
  obtain rfl := Except.ok.inj (e2.symm.trans e2')
  refine ⟨t, e, hwt, fun u v hu0 hu1 hv0 hv1 => ?_⟩
  obtain ⟨k, l, S, hk, hl, c1, c2, c3, c4, eS, hull⟩ := C44_convex_hull hwt hu0 hu1 hv0 hv1
  rw [ev2 u v hu0 hu1 hv0 hv1, ev1 u v hu0 hu1 hv0 hv1] at eS
  refine ⟨k, l, S, hk, hl, c1, c2, c3, c4, eS, ?_⟩
  have ft := listUV_flat hp hq ha hb hw e1 e2 he
  have hwt' := transposed_wf hwt
  have ft' : ∀ j < n + bs.length, ∀ i < m + as.length, (cp (transposed t) j i).w = W := fun j hj i hi => by
    rw [cp_transposed hwt.sized hi hj]; exact ft i hi j hj
  have su := (hsp a b).1 hu
  have sv := (speedV_iff hwt).1 ((hsp a b').2 hv)
  set G := b * (kn t.KnotsU.Values (k + p) - kn t.KnotsU.Values (k + 1 - p)) + b' * (kn t.KnotsV.Values (l + q) - kn t.KnotsV.Values (l + 1 - q)) with hG
  have bound : ∀ i j i' j', k - p ≤ i → i ≤ k → l - q ≤ j → j ≤ l → k - p ≤ i' → i' ≤ k → l - q ≤ j' → j' ≤ l →
      form a (cp t i' j').x (cp t i' j').y (cp t i' j').z - form a (cp t i j).x (cp t i j).y (cp t i j).z ≤ G := by
    intro i j i' j' a1 a2 a3 a4 b1 b2 b3 b4
    have w1 := speed_window hwt hp ft hb0 su c1 c2 (IsSpan.lt hk) (i := i) (i' := i') (j := j) (by omega) a2 (by omega) b2 (by omega)
    have w2 := speed_window hwt' hq ft' hb0' sv c3 c4 (IsSpan.lt hl) (i := j) (i' := j') (j := i') (by omega) a4 (by omega) b4 (by omega)
    rw [cp_transposed hwt.sized (by omega) (by omega), cp_transposed hwt.sized (by omega) (by omega)] at w2
    have w2' : form a (cp t i' j').x (cp t i' j').y (cp t i' j').z - form a (cp t i' j).x (cp t i' j).y (cp t i' j).z ≤
      b' * (kn t.KnotsV.Values (l + q) - kn t.KnotsV.Values (l + 1 - q)) := w2
    linarith
  intro i j a1 a2 a3 a4
  rw [abs_le]
  constructor
  · have := hull ⟨-a.x, -a.y, -a.z⟩ (G - form a (cp t i j).x (cp t i j).y (cp t i j).z) (fun i' j' b1 b2 b3 b4 => by
      rw [form_neg']
      have := bound i' j' i j b1 b2 b3 b4 a1 a2 a3 a4
      linarith)
    rw [form_neg'] at this
    linarith
  · have := hull a (G + form a (cp t i j).x (cp t i j).y (cp t i j).z) (fun i' j' b1 b2 b3 b4 => by
      have := bound i j i' j' a1 a2 a3 a4 b1 b2 b3 b4
      linarith)
    linarith

/-- Knots that subdivide the unit interval into `N` parts, put into a clamped vector, leave no gap above `1/N`. -/
theorem grid_gap [Archimedean K] {p N : ℕ} (hN : 0 < N) {l : List K} (hc : Clamped p l) (hmem : ∀ v ∈ (List.range (N - 1)).map (fun j => ((j + 1 : ℕ) : K) / N), v ∈ l) :
    ∀ i, i + 1 < l.length → kn l (i + 1) - kn l i ≤ 1 / N := by
  intro i hi
  refine gap_le hc.sorted (fun i hi => ⟨?_, hc.le_one hi⟩) hN (fun j j0 jN => ?_) hi
  · have := kn_mono hc.sorted (Nat.zero_le i) hi
    rwa [hc.zeros 0 (by omega)] at this
  · refine hmem _ (List.mem_map.2 ⟨j - 1, List.mem_range.2 (by omega), ?_⟩)
    rw [Nat.sub_add_cancel j0]

/-- C104 (surfaces, convergence).  Over an Archimedean field every surface with equal weights has refinements whose control points are as near to the
surface as wanted. -/
theorem C104_surface_converges [Archimedean K] {p q m n : ℕ} (hp : 1 ≤ p) (hq : 1 ≤ q) {s : Surface K} (hw : WFSurface p q m n s) {W : K}
    (he : ∀ i < m, ∀ j < n, (cp s i j).w = W) (a : Vec3 K) {ε : K} (hε : 0 < ε) :
    ∃ as bs t, (∀ v ∈ as, 0 < v ∧ v < 1) ∧ (∀ v ∈ bs, 0 < v ∧ v < 1) ∧ (s.InsertKnotUList as >>= fun s1 => s1.InsertKnotVList bs) = .ok t ∧
      ∀ u v, 0 ≤ u → u ≤ 1 → 0 ≤ v → v ≤ 1 → ∃ k l S, IsSpan t.KnotsU.Values u k ∧ IsSpan t.KnotsV.Values v l ∧ p ≤ k ∧ k < m + as.length ∧
        q ≤ l ∧ l < n + bs.length ∧ s.Evaluate u v = .ok S ∧ ∀ i j, k - p ≤ i → i ≤ k → l - q ≤ j → j ≤ l →
          |form a S.x S.y S.z - form a (cp t i j).x (cp t i j).y (cp t i j).z| ≤ ε := by
  obtain ⟨b, hb0, hu, hv⟩ : ∃ b : K, 0 ≤ b ∧ SpeedU p m n s a b ∧ SpeedV q m n s a b := by
    let f : ℕ × ℕ → K := fun ij => |(p : K) / (kn s.KnotsU.Values (ij.1 + p + 1) - kn s.KnotsU.Values (ij.1 + 1)) *
      (form a (cp s (ij.1 + 1) ij.2).x (cp s (ij.1 + 1) ij.2).y (cp s (ij.1 + 1) ij.2).z - form a (cp s ij.1 ij.2).x (cp s ij.1 ij.2).y (cp s ij.1 ij.2).z)|
    let g : ℕ × ℕ → K := fun ij => |(q : K) / (kn s.KnotsV.Values (ij.2 + q + 1) - kn s.KnotsV.Values (ij.2 + 1)) *
      (form a (cp s ij.1 (ij.2 + 1)).x (cp s ij.1 (ij.2 + 1)).y (cp s ij.1 (ij.2 + 1)).z - form a (cp s ij.1 ij.2).x (cp s ij.1 ij.2).y (cp s ij.1 ij.2).z)|
    have hf : 0 ≤ ∑ ij ∈ Finset.range m ×ˢ Finset.range n, f ij := Finset.sum_nonneg fun _ _ => abs_nonneg _
    have hg : 0 ≤ ∑ ij ∈ Finset.range m ×ˢ Finset.range n, g ij := Finset.sum_nonneg fun _ _ => abs_nonneg _
    refine ⟨(∑ ij ∈ Finset.range m ×ˢ Finset.range n, f ij) + ∑ ij ∈ Finset.range m ×ˢ Finset.range n, g ij, add_nonneg hf hg, ?_, ?_⟩
    · intro i hi j hj _
      have := Finset.single_le_sum (f := f) (s := Finset.range m ×ˢ Finset.range n) (fun _ _ => abs_nonneg _) (a := (i, j))
        (Finset.mem_product.2 ⟨Finset.mem_range.2 (by omega), Finset.mem_range.2 hj⟩)
      exact this.trans (le_add_of_nonneg_right hg)
    · intro i hi j hj _
      have := Finset.single_le_sum (f := g) (s := Finset.range m ×ˢ Finset.range n) (fun _ _ => abs_nonneg _) (a := (i, j))
        (Finset.mem_product.2 ⟨Finset.mem_range.2 hi, Finset.mem_range.2 (by omega)⟩)
      exact this.trans (le_add_of_nonneg_left hf)
  have hC : (0 : K) ≤ (2 * p + 2 * q) * b := by positivity
  obtain ⟨N, hN⟩ := exists_nat_gt ((2 * p + 2 * q) * b / ε)
  have hN0 : (0 : K) < N := lt_of_le_of_lt (div_nonneg hC hε.le) hN
  have hN1 : 0 < N := by exact_mod_cast hN0
  have hvs : ∀ v ∈ (List.range (N - 1)).map (fun j => ((j + 1 : ℕ) : K) / N), 0 < v ∧ v < 1 := by
    intro v hv
    simp only [List.mem_map, List.mem_range] at hv
    obtain ⟨j, hj, rfl⟩ := hv
    refine ⟨div_pos (by exact_mod_cast Nat.succ_pos j) hN0, (div_lt_one hN0).2 (by exact_mod_cast (by omega : j + 1 < N))⟩
  obtain ⟨t, e, hwt, H⟩ := C104_surface_distance hp hq hw he hb0 hb0 hu hv hvs hvs
  refine ⟨_, _, t, hvs, hvs, e, fun u v hu0 hu1 hv0 hv1 => ?_⟩
  obtain ⟨s1, e1, hw1, p1, _⟩ := insertListU_spec hp _ hvs hw
  rw [e1, bind_ok] at e
  obtain ⟨t', e2', _, p2, kU, _⟩ := insertListV_spec hq _ hvs hw1
  obtain rfl := Except.ok.inj (e.symm.trans e2')
  have gU := grid_gap hN1 hwt.clampedU (fun v hv => by rw [kU]; exact p1.mem_iff.2 (List.mem_append_left _ hv))
  have gV := grid_gap hN1 hwt.clampedV (fun v hv => p2.mem_iff.2 (List.mem_append_left _ hv))
  obtain ⟨k, l, S, hk, hl, c1, c2, c3, c4, eS, B⟩ := H u v hu0 hu1 hv0 hv1
  refine ⟨k, l, S, hk, hl, c1, c2, c3, c4, eS, fun i j a1 a2 a3 a4 => (B i j a1 a2 a3 a4).trans ?_⟩
  have lU := hwt.knotsU
  have lV := hwt.knotsV
  have s1 := gaps_sum gU (k + 1 - p) (2 * p - 1) (by omega)
  have s2 := gaps_sum gV (l + 1 - q) (2 * q - 1) (by omega)
  rw [show k + 1 - p + (2 * p - 1) = k + p by omega] at s1
  rw [show l + 1 - q + (2 * q - 1) = l + q by omega] at s2
  have q1 : ((2 * p - 1 : ℕ) : K) ≤ 2 * p := by exact_mod_cast (by omega : 2 * p - 1 ≤ 2 * p)
  have q2 : ((2 * q - 1 : ℕ) : K) ≤ 2 * q := by exact_mod_cast (by omega : 2 * q - 1 ≤ 2 * q)
  have i0 : (0 : K) ≤ 1 / N := by positivity
  have m1 := mul_le_mul_of_nonneg_left (s1.trans (mul_le_mul_of_nonneg_right q1 i0)) hb0
  have m2 := mul_le_mul_of_nonneg_left (s2.trans (mul_le_mul_of_nonneg_right q2 i0)) hb0
  rw [div_lt_iff₀ hε] at hN
  have fin : (2 * p + 2 * q) * b * (1 / N) ≤ ε := by
    rw [mul_one_div, div_le_iff₀ hN0]
    linarith
  refine (add_le_add m1 m2).trans ?_
  linarith

/-- `exIso` has speeds of at most 6 along the first axis in `u`, and of at most 2 in `v`. -/
theorem exIso_speed : SpeedU 2 4 3 exIso ⟨1, 0, 0⟩ 6 ∧ SpeedV 1 4 3 exIso ⟨1, 0, 0⟩ 2 := by
  constructor
  · intro i hi
    have : i < 3 := by omega
    interval_cases i <;> decide +kernel
  · intro i hi j hj
    have : j < 2 := by omega
    interval_cases i <;> interval_cases j <;> decide +kernel
example : ∃ t, (exIso.InsertKnotUList [1/2, 2/3] >>= fun s => s.InsertKnotVList [1/4]) = .ok t ∧
    SpeedU 2 6 4 t ⟨1, 0, 0⟩ 6 ∧ SpeedV 1 6 4 t ⟨1, 0, 0⟩ 2 := by
  obtain ⟨t, e, h⟩ := C104_surface_velocity (by norm_num) (by norm_num) exIso_wf (W := 2) (by decide +kernel) (as := [1/2, 2/3]) (bs := [1/4])
    (by decide +kernel) (by decide +kernel)
  exact ⟨t, e, (h _ _).1 exIso_speed.1, (h _ _).2 exIso_speed.2⟩
/-- The control points of the refined net. -/
example : ((exIso.InsertKnotUList [1/2, 2/3] >>= fun s => s.InsertKnotVList [1/4]).map fun t => (t.ControlPoints.Values.take 6).map (·.x)) =
    .ok [0, 1, 3/2, 15/8, 5/2, 3] := by decide +kernel

end Nurbs.Props
