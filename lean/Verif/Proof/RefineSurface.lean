import Verif.Proof.Refine
import Verif.Proof.SurfaceInsert
import Verif.Proof.Transposed
import Verif.Spec.NetSpeed

/-! # Differences of the control points of a surface under knot insertion -/

set_option linter.unusedSectionVars false

namespace Nurbs
open Nurbs.Spec

variable {K : Type} [Field K] [LinearOrder K] [IsStrictOrderedRing K]

theorem insP_le {U : ℕ → K} {k p n : ℕ} {v B : K} {g : ℕ → K} (hkn : k < n) (hpk : p ≤ k) (hd : ∀ i, k < i + p → i ≤ k → 0 < U (i + p) - U i)
    (h0 : ∀ i, k < i + p → i ≤ k → U i ≤ v) (h1 : ∀ i, k < i + p → i ≤ k → v ≤ U (i + p)) (hg : ∀ i < n, g i ≤ B) :
    ∀ i < n + 1, insP U k v p g i ≤ B := by
  intro i hi
  unfold insP
  split_ifs with c1 c2
  · exact hg i (by omega)
  · have hdi := hd i (by omega) c2
    unfold step
    simp only [smul_eq_mul]
    have e1 := mul_le_mul_of_nonneg_left (hg (i - 1) (by omega)) (div_nonneg (sub_nonneg.2 (h1 i (by omega) c2)) hdi.le)
    have e2 := mul_le_mul_of_nonneg_left (hg i (by omega)) (div_nonneg (sub_nonneg.2 (h0 i (by omega) c2)) hdi.le)
    have e3 : (U (i + p) - v) / (U (i + p) - U i) * B + (v - U i) / (U (i + p) - U i) * B = B := by
      have := hdi.ne'
      field_simp
      ring
    linarith
  · exact hg (i - 1) (by omega)

theorem insP_sub (U : ℕ → K) (k p : ℕ) (v : K) (g h : ℕ → K) (i : ℕ) : insP U k v p g i - insP U k v p h i = insP U k v p (fun i => g i - h i) i := by
  unfold insP step
  simp only [smul_eq_mul]
  split_ifs <;> ring

theorem insP_mul (U : ℕ → K) (k p : ℕ) (v : K) (a : K) (g : ℕ → K) (i : ℕ) : a * insP U k v p g i = insP U k v p (fun i => a * g i) i := by
  unfold insP step
  simp only [smul_eq_mul]
  split_ifs <;> ring

/-- Insertion across keeps the bound of the differences. -/
theorem diff_across {p q m n : ℕ} {s : Surface K} (hw : WFSurface p q m n s) {v : K} {k : ℕ} (hk : IsSpan s.KnotsV.Values v k) (h0 : 0 < v) (h1 : v < 1)
    (L : Vec4 K →ₗ[K] K) {b : K} (hg : ∀ j < n, DiffLe p s.KnotsU.Values m (fun i => L (hcp s i j)) b) :
    ∀ j < n + 1, DiffLe p (insSurfV q m n k v s).KnotsU.Values m (fun i => L (hcp (insSurfV q m n k v s) i j)) b := by
  obtain ⟨hpk, hlk, hkn⟩ := insV_bounds hw hk h0 h1
  have hkv : v < kn s.KnotsV.Values (k + 1) := by
    rcases hk.2.2 with h | h
    · exact h
    · exact absurd h.1 h1.ne
  have A : ∀ i, k < i + q → i ≤ k → kn s.KnotsV.Values i ≤ v := fun i _ h => (kn_mono hw.clampedV.sorted h (by omega)).trans hk.2.1
  have B : ∀ i, k < i + q → i ≤ k → v < kn s.KnotsV.Values (i + q) := fun i h h' =>
    lt_of_lt_of_le hkv (kn_mono hw.clampedV.sorted (by omega) (by omega))
  have hm : ∀ i j, L (insP (kn s.KnotsV.Values) k v q (fun j => hcp s i j) j) = insP (kn s.KnotsV.Values) k v q (fun j => L (hcp s i j)) j := by
    intro i j
    unfold insP step
    split_ifs <;> simp
  intro j hj i i1 i2 hlt
  beta_reduce
  rw [insSurfV_hcp hw hk h0 h1 i2 hj, insSurfV_hcp hw hk h0 h1 (show i - 1 < m by omega) hj, hm, hm, insP_sub, insP_mul]
  exact insP_le hkn hpk (fun i a1 a2 => by have := A i a1 a2; have := B i a1 a2; linarith) A (fun i a1 a2 => (B i a1 a2).le)
    (fun j hj => hg j hj i i1 i2 hlt) j hj

theorem listV_diff {p q m : ℕ} (hq : 1 ≤ q) (vs : List K) (hv : ∀ v ∈ vs, 0 < v ∧ v < 1) {n : ℕ} {s s' : Surface K} (hw : WFSurface p q m n s)
    (h : s.InsertKnotVList vs = .ok s') (L : Vec4 K →ₗ[K] K) {b : K} (hg : ∀ j < n, DiffLe p s.KnotsU.Values m (fun i => L (hcp s i j)) b) :
    ∀ j < n + vs.length, DiffLe p s'.KnotsU.Values m (fun i => L (hcp s' i j)) b := by
  induction vs generalizing n s with
  | nil =>
    obtain rfl := Except.ok.inj h
    exact hg
  | cons v vs ih =>
    obtain ⟨h0, h1⟩ := hv v (by simp)
    obtain ⟨k, hk, _⟩ := exists_span hw.clampedV h0.le h1.le
    unfold Surface.InsertKnotVList at h
    simp only [foldMList] at h
    rw [insertKnotV_ok hw hk h0 h1 hq, bind_ok] at h
    have := ih (fun v hv' => hv v (by simp [hv'])) (insSurfV_wf hw hk h0 h1) h (diff_across hw hk h0 h1 L hg)
    rw [show n + (v :: vs).length = n + 1 + vs.length by simp; omega]
    exact this

theorem DiffLe.congr {p n : ℕ} {l : List K} {g g' : ℕ → K} {b : K} (h : DiffLe p l n g b) (e : ∀ i < n, g' i = g i) : DiffLe p l n g' b := by
  intro i h1 h2 hlt
  rw [e i h2, e (i - 1) (by omega)]
  exact h i h1 h2 hlt

/-- Insertion in both directions keeps the bound of the differences in `u`. -/
theorem listUV_diff {p q m n : ℕ} (hp : 1 ≤ p) (hq : 1 ≤ q) {as bs : List K} (ha : ∀ v ∈ as, 0 < v ∧ v < 1) (hb : ∀ v ∈ bs, 0 < v ∧ v < 1)
    {s s1 t : Surface K} (hw : WFSurface p q m n s) (e1 : s.InsertKnotUList as = .ok s1) (e2 : s1.InsertKnotVList bs = .ok t) (L : Vec4 K →ₗ[K] K) {b : K}
    (hg : ∀ j < n, DiffLe p s.KnotsU.Values m (fun i => L (hcp s i j)) b) :
    ∀ j < n + bs.length, DiffLe p t.KnotsU.Values (m + as.length) (fun i => L (hcp t i j)) b := by
  obtain ⟨s1', e1', hw1, _, _, hrow, _⟩ := insertListU_spec hp as ha hw
  obtain rfl := Except.ok.inj (e1.symm.trans e1')
  refine listV_diff hq bs hb hw1 e2 L fun j hj => ?_
  have h := insertList_diff hp as ha (rowCurve_wf hw hj) (hrow j hj) L (b := b) (by
    rw [rowCurve_length]
    exact (hg j hj).congr fun i hi => by rw [hpts_rowCurve hi])
  rw [rowCurve_length] at h
  exact h.congr fun i hi => by rw [hpts_rowCurve hi]

/-- Equal weights stay equal. -/
theorem listUV_flat {p q m n : ℕ} (hp : 1 ≤ p) (hq : 1 ≤ q) {as bs : List K} (ha : ∀ v ∈ as, 0 < v ∧ v < 1) (hb : ∀ v ∈ bs, 0 < v ∧ v < 1)
    {s s1 t : Surface K} (hw : WFSurface p q m n s) (e1 : s.InsertKnotUList as = .ok s1) (e2 : s1.InsertKnotVList bs = .ok t) {W : K}
    (he : ∀ i < m, ∀ j < n, (cp s i j).w = W) : ∀ i < m + as.length, ∀ j < n + bs.length, (cp t i j).w = W := by
  obtain ⟨s1', e1', hw1, _, _, hrow, _⟩ := insertListU_spec hp as ha hw
  obtain rfl := Except.ok.inj (e1.symm.trans e1')
  obtain ⟨t', e2', hw2, _, _, hcol, _⟩ := insertListV_spec hq bs hb hw1
  obtain rfl := Except.ok.inj (e2.symm.trans e2')
  have f1 : ∀ i < m + as.length, ∀ j < n, (cp s1 i j).w = W := by
    intro i hi j hj
    have := insertList_flat as ha (rowCurve_wf hw hj) (hrow j hj) (W := W) (fun i hi => by
      rw [rowCurve_length] at hi; rw [pt_rowCurve hi]; exact he i hi j hj) i (by rw [rowCurve_length]; exact hi)
    rwa [pt_rowCurve hi] at this
  intro i hi j hj
  have := insertList_flat bs hb (colCurve_wf hw1 hi) (hcol i hi) (W := W) (fun j hj => by
    rw [colCurve_length] at hj; rw [pt_colCurve hj]; exact f1 i hi j hj) j (by rw [colCurve_length]; exact hj)
  rwa [pt_colCurve hj] at this

theorem dirForm_hcp (a : Vec3 K) (s : Surface K) (i j : ℕ) : dirForm a (hcp s i j) = (cp s i j).w * form a (cp s i j).x (cp s i j).y (cp s i j).z := by
  simp only [dirForm, hcp, ToHomo, form, Vec4.lx, Vec4.ly, Vec4.lz, LinearMap.add_apply, LinearMap.smul_apply, LinearMap.coe_mk, AddHom.coe_mk,
    smul_eq_mul]
  ring

theorem form_neg' (a : Vec3 K) (x y z : K) : form (⟨-a.x, -a.y, -a.z⟩ : Vec3 K) x y z = -form a x y z := by unfold form; ring

theorem speedU_iff {p m n : ℕ} {s : Surface K} {a : Vec3 K} {b W : K} (hW : 0 < W) (he : ∀ i < m, ∀ j < n, (cp s i j).w = W) :
    SpeedU p m n s a b ↔ ∀ j < n, DiffLe p s.KnotsU.Values m (fun i => dirForm a (hcp s i j)) (W * b) ∧
      DiffLe p s.KnotsU.Values m (fun i => dirForm ⟨-a.x, -a.y, -a.z⟩ (hcp s i j)) (W * b) := by
  have key : ∀ i j, i + 1 < m → j < n → kn s.KnotsU.Values (i + 1) < kn s.KnotsU.Values (i + p + 1) →
      (|(p : K) / (kn s.KnotsU.Values (i + p + 1) - kn s.KnotsU.Values (i + 1)) *
        (form a (cp s (i + 1) j).x (cp s (i + 1) j).y (cp s (i + 1) j).z - form a (cp s i j).x (cp s i j).y (cp s i j).z)| ≤ b ↔
      (p : K) * (dirForm a (hcp s (i + 1) j) - dirForm a (hcp s i j)) ≤ W * b * (kn s.KnotsU.Values (i + p + 1) - kn s.KnotsU.Values (i + 1)) ∧
      (p : K) * (dirForm ⟨-a.x, -a.y, -a.z⟩ (hcp s (i + 1) j) - dirForm ⟨-a.x, -a.y, -a.z⟩ (hcp s i j)) ≤
        W * b * (kn s.KnotsU.Values (i + p + 1) - kn s.KnotsU.Values (i + 1))) := by
    intro i j hi hj hlt
    have hd := sub_pos.2 hlt
    simp only [dirForm_hcp, he i (by omega) j hj, he (i + 1) hi j hj, form_neg']
    generalize form a (cp s (i + 1) j).x (cp s (i + 1) j).y (cp s (i + 1) j).z = f1
    generalize form a (cp s i j).x (cp s i j).y (cp s i j).z = f0
    rw [abs_le, div_mul_eq_mul_div, le_div_iff₀ hd, div_le_iff₀ hd, and_comm]
    constructor
    · rintro ⟨h1, h2⟩
      have h1 := mul_le_mul_of_nonneg_left h1 hW.le
      have h2 := mul_le_mul_of_nonneg_left h2 hW.le
      constructor <;> linarith
    · rintro ⟨h1, h2⟩
      constructor
      · refine le_of_mul_le_mul_left ?_ hW; linarith
      · refine le_of_mul_le_mul_left ?_ hW; linarith
  constructor
  · intro h j hj
    constructor
    · intro i h1 h2 hlt
      obtain ⟨i, rfl⟩ := Nat.exists_eq_add_of_le' h1
      rw [show i + 1 + p = i + p + 1 by omega] at hlt ⊢
      exact ((key i j h2 hj hlt).1 (h i h2 j hj hlt)).1
    · intro i h1 h2 hlt
      obtain ⟨i, rfl⟩ := Nat.exists_eq_add_of_le' h1
      rw [show i + 1 + p = i + p + 1 by omega] at hlt ⊢
      exact ((key i j h2 hj hlt).1 (h i h2 j hj hlt)).2
  · intro h i hi j hj hlt
    have e : i + p + 1 = i + 1 + p := by omega
    refine (key i j hi hj hlt).2 ⟨?_, ?_⟩
    · have := (h j hj).1 (i + 1) (by omega) hi (by rwa [← e])
      rwa [← e] at this
    · have := (h j hj).2 (i + 1) (by omega) hi (by rwa [← e])
      rwa [← e] at this

theorem speedV_iff {p q m n : ℕ} {s : Surface K} (hw : WFSurface p q m n s) {a : Vec3 K} {b : K} : SpeedV q m n s a b ↔ SpeedU q n m (transposed s) a b := by
  have e : ∀ i < m, ∀ j < n, cp (transposed s) j i = cp s i j := fun i hi j hj => cp_transposed hw.sized hi hj
  constructor
  · intro h j hj i hi hlt
    rw [e i hi (j + 1) hj, e i hi j (by omega)]
    exact h i hi j hj hlt
  · intro h i hi j hj hlt
    have := h j hj i hi hlt
    rwa [e i hi (j + 1) hj, e i hi j (by omega)] at this

end Nurbs
