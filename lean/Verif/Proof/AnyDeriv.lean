import Verif.Proof.AnyArith
import Verif.Proof.CurveDeriv
import Verif.Proof.SurfaceDeriv

/-! # Derivatives of curves and surfaces in any arithmetic

As in `AnyArith`, nothing is assumed about the operations. -/

set_option linter.unusedSectionVars false

namespace Nurbs
open Nurbs.Spec

variable {K : Type} [Zero K] [One K] [Add K] [Sub K] [Mul K] [Div K] [Neg K] [NatCast K] [IntCast K] [LinearOrder K]

/-- `0 + f 0 • P 0 + … + f (n-1) • P (n-1)`, from the left. -/
def accG (f : ℕ → K) (P : ℕ → Vec4 K) : ℕ → Vec4 K
  | 0 => 0
  | n + 1 => accG f P n + f n • P n

theorem forUp_accG (body : Int → Vec4 K → M (Vec4 K)) (f : ℕ → K) (P : ℕ → Vec4 K) (n : ℕ)
    (h : ∀ i < n, ∀ t, body (0 + (i : ℕ)) t = .ok (t + f i • P i)) : forUp 0 n body 0 = .ok (accG f P n) :=
  forUp_eq body (accG f P) n 0 (fun i hi => h i hi _)

theorem accG_congr {f g : ℕ → K} {P : ℕ → Vec4 K} {n : ℕ} (h : ∀ i < n, f i = g i) : accG f P n = accG g P n := by
  induction n with
  | zero => rfl
  | succ n ih =>
    unfold accG
    rw [ih fun i hi => h i (by omega), h n (by omega)]

/-- `v / d`, coordinate by coordinate. -/
def quotG (v : Vec3 K) (d : K) : Vec3 K := ⟨v.x / d, v.y / d, v.z / d⟩

theorem divM_any (v : Vec3 K) {d : K} (h : d ≠ 0) : v.divM d = .ok (quotG v d) := by
  unfold Vec3.divM
  rw [fdiv_ok h, bind_ok, fdiv_ok h, bind_ok, fdiv_ok h, bind_ok]
  rfl

theorem projectM_inv {v : Vec4 K} {e : Vec3 K} (h : projectM v = .ok e) : v.w ≠ 0 ∧ e = quotG v.head3 v.w := by
  have hw : v.w ≠ 0 := by
    intro h0
    simp [projectM, Vec3.divM, fdiv, h0] at h
  refine ⟨hw, ?_⟩
  unfold projectM at h
  rw [divM_any _ hw] at h
  injection h with h
  exact h.symm

/-! ### curves -/

/-- The homogeneous derivatives of the curve, as computed. -/
def homG (p k : ℕ) (c : Curve K) (x : K) (m : ℕ) : Vec4 K :=
  accG (basisG c.Knots.Values k p x m) (fun i => ToHomo (pt c.ControlPoints (k - p + i))) (p + 1)

/-- The numerator after `i` subtractions. -/
def subG (H : ℕ → Vec4 K) (m : ℕ) (t : ℕ → Vec3 K) : ℕ → Vec3 K
  | 0 => (H m).head3
  | i + 1 => subG H m t i - ((((m.choose (i + 1) : ℕ) : Int) : K) * (H (i + 1)).w) • t (m - (i + 1))

/-- The derivatives of the curve, as computed. -/
def ratG (H : ℕ → Vec4 K) (m : ℕ) : Vec3 K :=
  quotG (subG H m (fun m' => if h : m' < m then ratG H m' else 0) m) (H 0).w
termination_by m

theorem subG_congr {H : ℕ → Vec4 K} {m : ℕ} {t t' : ℕ → Vec3 K} (h : ∀ j < m, t j = t' j) {i : ℕ} (hi : i ≤ m) :
    subG H m t i = subG H m t' i := by
  induction i with
  | zero => rfl
  | succ i ih =>
    unfold subG
    rw [ih (by omega), h _ (by omega)]

theorem ratG_eq {H : ℕ → Vec4 K} {m : ℕ} {t : ℕ → Vec3 K} (h : ∀ j < m, t j = ratG H j) :
    ratG H m = quotG (subG H m t m) (H 0).w := by
  rw [ratG]
  congr 1
  refine subG_congr (fun j hj => ?_) (le_refl _)
  rw [dif_pos hj, h j hj]

variable {p : ℕ} {c : Curve K} {x : K} {k : ℕ}

theorem curve_evaluate_any (hd : c.Degree = p) (hn : c.Knots.Values.length = c.ControlPoints.length + p + 1)
    (h0 : 0 ≤ x) (h1 : x ≤ 1) (hk : c.Knots.FindSpanIndex p x = .ok (k : Int)) (hpk : p ≤ k) (hlk : k + p + 2 ≤ c.Knots.Values.length)
    (hden : DenOK c.Knots.Values k x p) :
    c.Evaluate x = projectM (homG p k c x 0) := by
  unfold Curve.Evaluate
  rw [massert_true ⟨h0, h1⟩, bind_ok, hd, hk, bind_ok, evaluateAt_any hpk (by omega) hden, bind_ok, massert_true (by simp), bind_ok,
    forLe_eq_forUp 0 p (p + 1) (by omega),
    forUp_accG _ (lvG c.Knots.Values k x p) (fun i => ToHomo (pt c.ControlPoints (k - p + i))), bind_ok]
  · rfl
  · intro i hi t
    rw [vget_pt c.ControlPoints _ (k - p + i) (by omega) (by omega), bind_ok, vget_tab _ _ _ i (by simp) hi, bind_ok]
    rfl

theorem curve_homogeneous_any (hd : c.Degree = p) (hn : c.Knots.Values.length = c.ControlPoints.length + p + 1)
    (h0 : 0 ≤ x) (h1 : x ≤ 1) (hk : c.Knots.FindSpanIndex p x = .ok (k : Int)) (hpk : p ≤ k) (hlk : k + p + 2 ≤ c.Knots.Values.length)
    (hden : DenOK c.Knots.Values k x p) (order : ℕ) :
    c.HomogeneousDerivative x order = .ok (tab (order + 1) (homG p k c x)) := by
  unfold Curve.HomogeneousDerivative
  rw [massert_true ⟨h0, h1⟩, bind_ok, hd, hk, bind_ok, evaluateAllAt_any hpk (by omega) hden, bind_ok,
    massert_true (by simp), bind_ok, massert_true (by
      intro row hrow
      unfold tab at hrow
      obtain ⟨m, _, rfl⟩ := List.mem_map.mp hrow
      simp), bind_ok, vnew_of _ (order + 1) _ (by push_cast; ring), bind_ok, replicate_eq_tab, forLe_eq_forUp 0 order (order + 1) (by omega)]
  have key := forUp_eq (fun (m : Int) (result : List (Vec4 K)) => do
      let tmp ← forLe 0 p (fun i (tmp : Vec4 K) => do
        let point := ToHomo (← vget c.ControlPoints ((k : Int) - p + i))
        return tmp + (← mget (tab (order + 1) fun m => tab (p + 1) (basisG c.Knots.Values k p x m)) m i) • point) 0
      vset result m tmp) (fun n => tab (order + 1) fun m => if m < n then homG p k c x m else 0) (order + 1) 0 (by
    intro m hm
    simp only
    rw [forLe_eq_forUp 0 p (p + 1) (by omega),
      forUp_accG _ (basisG c.Knots.Values k p x m) (fun i => ToHomo (pt c.ControlPoints (k - p + i))), bind_ok]
    · apply vset_tab' _ _ _ _ m _ (by simp) hm
      intro j _
      by_cases h : j = m
      · rw [if_pos (by omega), if_pos h, h]; rfl
      · rw [if_neg h]
        by_cases h2 : j < m
        · rw [if_pos (by omega), if_pos h2]
        · rw [if_neg (by omega), if_neg h2]
    · intro i hi t
      rw [vget_pt c.ControlPoints _ (k - p + i) (by omega) (by omega), bind_ok,
        mget_tab (order + 1) (p + 1) _ _ _ m i (by simp) (by simp) hm hi, bind_ok]
      rfl)
  simp only [Nat.not_lt_zero, if_false] at key
  rw [key]
  congr 1
  refine tab_congr fun m hm => ?_
  rw [if_pos hm]

/-- `Curve::EvaluateAll` in any arithmetic: what it returns for an order does not depend on the highest order asked for. -/
theorem curve_evaluateAll_any (hd : c.Degree = p) (hn : c.Knots.Values.length = c.ControlPoints.length + p + 1)
    (h0 : 0 ≤ x) (h1 : x ≤ 1) (hk : c.Knots.FindSpanIndex p x = .ok (k : Int)) (hpk : p ≤ k) (hlk : k + p + 2 ≤ c.Knots.Values.length)
    (hden : DenOK c.Knots.Values k x p) (hw : (homG p k c x 0).w ≠ 0) (order : ℕ) (ho : order ≤ 29) :
    c.EvaluateAll x order = .ok (tab (order + 1) (ratG (homG p k c x))) := by
  unfold Curve.EvaluateAll
  rw [curve_homogeneous_any hd hn h0 h1 hk hpk hlk hden, bind_ok, vnew_of _ (order + 1) _ (by push_cast; ring), bind_ok,
    replicate_eq_tab, vget_tab _ _ _ 0 (by simp) (by omega), bind_ok, forLe_eq_forUp 0 order (order + 1) (by omega)]
  set H := homG p k c x with hH
  have key := forUp_eq (fun (m : Int) (result : List (Vec3 K)) => do
      let Aders := (← vget (tab (order + 1) H) m).head3
      let Aders ← forLe 1 m (fun i (Aders : Vec3 K) => do
        let Wders := (← vget (tab (order + 1) H) i).w
        return Aders - (((← Binomial m i : Int) : K) * Wders) • (← vget result (m - i))) Aders
      vset result m (← Aders.divM (H 0).w)) (fun n => tab (order + 1) fun m => if m < n then ratG H m else 0) (order + 1) 0 (by
    intro m hm
    simp only
    rw [vget_tab _ _ _ m (by simp) hm, bind_ok, forLe_eq_forUp 1 _ m (by omega)]
    have hin := forUp_eq (fun i (Aders : Vec3 K) => do
        let Wders := (← vget (tab (order + 1) H) i).w
        return Aders - (((← Binomial (0 + (m : ℕ)) i : Int) : K) * Wders) •
          (← vget (tab (order + 1) fun m' => if m' < m then ratG H m' else 0) (0 + (m : ℕ) - i)))
      (subG H m (fun m' => if m' < m then ratG H m' else 0)) m 1 (by
        intro i hi
        simp only
        rw [vget_tab _ _ _ (i + 1) (by push_cast; ring) (by omega), bind_ok,
          show (1 : Int) + (i : ℕ) = ((i + 1 : ℕ) : Int) by push_cast; ring, zero_add,
          Props.C13_binomial m (by omega) (i + 1), bind_ok, vget_tab _ _ _ (m - (i + 1)) (by omega) (by omega), bind_ok]
        rfl)
    refine (congrArg (fun z => z >>= _) hin).trans ?_
    rw [bind_ok, divM_any _ hw, bind_ok]
    apply vset_tab' _ _ _ _ m _ (by simp) hm
    intro j _
    by_cases h : j = m
    · rw [if_pos (by omega), if_pos h, h]
      exact ratG_eq fun j hj => if_pos hj
    · rw [if_neg h]
      by_cases h2 : j < m
      · rw [if_pos (by omega), if_pos h2]
      · rw [if_neg (by omega), if_neg h2])
  simp only [Nat.not_lt_zero, if_false] at key
  refine key.trans ?_
  congr 1
  refine tab_congr fun m hm => ?_
  rw [if_pos hm]

/-- The zeroth derivative is what `Curve::Evaluate` returns. -/
theorem ratG_zero (H : ℕ → Vec4 K) : ratG H 0 = quotG (H 0).head3 (H 0).w := by
  rw [ratG]
  rfl

/-! ### surfaces -/

/-- The homogeneous derivatives of the surface, as computed. -/
def homG2 (p q ku kv : ℕ) (s : Surface K) (u v : K) (a b : ℕ) : Vec4 K :=
  accG (basisG s.KnotsV.Values kv q v b)
    (fun j => accG (basisG s.KnotsU.Values ku p u a) (fun i => ToHomo (cp s (ku - p + i) (kv - q + j))) (p + 1)) (q + 1)

/-- The first inner loop of `Surface::EvaluateAll`. -/
def subG1 (H : ℕ → ℕ → Vec4 K) (a b : ℕ) (t : ℕ → ℕ → Vec3 K) : ℕ → Vec3 K
  | 0 => (H a b).head3
  | i + 1 => subG1 H a b t i - ((((a.choose (i + 1) : ℕ) : Int) : K) * (H (i + 1) 0).w) • t (a - (i + 1)) b

/-- The second inner loop. -/
def subG2 (H : ℕ → ℕ → Vec4 K) (a b : ℕ) (t : ℕ → ℕ → Vec3 K) (A : Vec3 K) : ℕ → Vec3 K
  | 0 => A
  | j + 1 => subG2 H a b t A j - ((((b.choose (j + 1) : ℕ) : Int) : K) * (H 0 (j + 1)).w) • t a (b - (j + 1))

/-- The inner loop of the third inner loop. -/
def subG3 (H : ℕ → ℕ → Vec4 K) (a b : ℕ) (t : ℕ → ℕ → Vec3 K) (i : ℕ) (A : Vec3 K) : ℕ → Vec3 K
  | 0 => A
  | j + 1 => subG3 H a b t i A j -
      ((((a.choose (i + 1) * b.choose (j + 1) : ℕ) : Int) : K) * (H (i + 1) (j + 1)).w) • t (a - (i + 1)) (b - (j + 1))

/-- The third inner loop. -/
def subG4 (H : ℕ → ℕ → Vec4 K) (a b : ℕ) (t : ℕ → ℕ → Vec3 K) (A : Vec3 K) : ℕ → Vec3 K
  | 0 => A
  | i + 1 => subG3 H a b t i (subG4 H a b t A i) b

/-- One entry of the result. -/
def cellG (H : ℕ → ℕ → Vec4 K) (a b : ℕ) (t : ℕ → ℕ → Vec3 K) : Vec3 K :=
  quotG (subG4 H a b t (subG2 H a b t (subG1 H a b t a) b) a) (H 0 0).w

/-- The derivatives of the surface, as computed. -/
def ratG2 (H : ℕ → ℕ → Vec4 K) (a b : ℕ) : Vec3 K :=
  cellG H a b (fun a' b' => if h : a' + b' < a + b then ratG2 H a' b' else 0)
termination_by a + b

theorem cellG_congr {H : ℕ → ℕ → Vec4 K} {a b : ℕ} {t t' : ℕ → ℕ → Vec3 K}
    (h : ∀ x y, x ≤ a → y ≤ b → (x ≠ a ∨ y ≠ b) → t x y = t' x y) : cellG H a b t = cellG H a b t' := by
  have h1 : ∀ i ≤ a, subG1 H a b t i = subG1 H a b t' i := by
    intro i hi
    induction i with
    | zero => rfl
    | succ i ih => unfold subG1; rw [ih (by omega), h _ _ (by omega) (by omega) (by omega)]
  have h2 : ∀ A, ∀ j ≤ b, subG2 H a b t A j = subG2 H a b t' A j := by
    intro A j hj
    induction j with
    | zero => rfl
    | succ j ih => unfold subG2; rw [ih (by omega), h _ _ (by omega) (by omega) (by omega)]
  have h3 : ∀ i < a, ∀ A, ∀ j ≤ b, subG3 H a b t i A j = subG3 H a b t' i A j := by
    intro i hi A j hj
    induction j with
    | zero => rfl
    | succ j ih => unfold subG3; rw [ih (by omega), h _ _ (by omega) (by omega) (by omega)]
  have h4 : ∀ A, ∀ i ≤ a, subG4 H a b t A i = subG4 H a b t' A i := by
    intro A i hi
    induction i with
    | zero => rfl
    | succ i ih => unfold subG4; rw [ih (by omega), h3 i (by omega) _ b (le_refl _)]
  unfold cellG
  rw [h1 a (le_refl _), h2 _ b (le_refl _), h4 _ a (le_refl _)]

theorem ratG2_eq {H : ℕ → ℕ → Vec4 K} {a b : ℕ} {t : ℕ → ℕ → Vec3 K}
    (h : ∀ x y, x ≤ a → y ≤ b → (x ≠ a ∨ y ≠ b) → t x y = ratG2 H x y) : ratG2 H a b = cellG H a b t := by
  rw [ratG2]
  refine cellG_congr fun x y hx hy hxy => ?_
  rw [dif_pos (by omega), h x y hx hy hxy]

theorem ratG2_zero (H : ℕ → ℕ → Vec4 K) : ratG2 H 0 0 = quotG (H 0 0).head3 (H 0 0).w := by
  rw [ratG2]
  rfl

/-- What is needed of a surface. -/
structure SurfAny (p q m n ku kv : ℕ) (s : Surface K) (u v : K) : Prop where
  degreeU : s.DegreeU = p
  degreeV : s.DegreeV = q
  grid : s.ControlPoints = gridOf m n (cp s)
  u0 : 0 ≤ u
  u1 : u ≤ 1
  v0 : 0 ≤ v
  v1 : v ≤ 1
  spanU : s.KnotsU.FindSpanIndex p u = .ok (ku : Int)
  spanV : s.KnotsV.FindSpanIndex q v = .ok (kv : Int)
  pu : p ≤ ku
  pv : q ≤ kv
  mu : ku < m
  nv : kv < n
  lu : s.KnotsU.Values.length = m + p + 1
  lv : s.KnotsV.Values.length = n + q + 1
  denU : DenOK s.KnotsU.Values ku u p
  denV : DenOK s.KnotsV.Values kv v q

variable {q m n ku kv : ℕ} {s : Surface K} {u v : K}

theorem surface_evaluate_any (hs : SurfAny p q m n ku kv s u v) : s.Evaluate u v = projectM (homG2 p q ku kv s u v 0 0) := by
  obtain ⟨hdu, hdv, hg, hu0, hu1, hv0, hv1, hku, hkv, hpku, hpkv, hkm, hkn, hlu, hlv, hdenu, hdenv⟩ := hs
  unfold Surface.Evaluate
  rw [massert_true ⟨hu0, hu1⟩, bind_ok, massert_true ⟨hv0, hv1⟩, bind_ok, hdu, hdv, hku, bind_ok, hkv, bind_ok,
    evaluateAt_any hpku (by omega) hdenu, bind_ok, evaluateAt_any hpkv (by omega) hdenv, bind_ok,
    massert_true (by simp), bind_ok, massert_true (by simp), bind_ok]
  simp only []
  rw [forLe_eq_forUp 0 q (q + 1) (by omega), forUp_accG _ (lvG s.KnotsV.Values kv v q)
    (fun j => accG (lvG s.KnotsU.Values ku u p) (fun i => ToHomo (cp s (ku - p + i) (kv - q + j))) (p + 1)), bind_ok]
  · rfl
  · intro j hj t
    rw [forLe_eq_forUp 0 p (p + 1) (by omega), forUp_accG _ (lvG s.KnotsU.Values ku u p) (fun i => ToHomo (cp s (ku - p + i) (kv - q + j))), bind_ok,
      vget_tab _ _ _ j (by simp) hj, bind_ok]
    · rfl
    · intro i hi t
      rw [hg, get_gridOf m n _ _ _ (ku - p + i) (kv - q + j) (by omega) (by omega) (by omega) (by omega), bind_ok,
        vget_tab _ _ _ i (by simp) hi, bind_ok]
      rfl

theorem surface_homogeneous_any (hs : SurfAny p q m n ku kv s u v) (ou ov : ℕ) :
    s.HomogeneousDerivative u v ou ov = .ok (gridOf (ou + 1) (ov + 1) (homG2 p q ku kv s u v)) := by
  obtain ⟨hdu, hdv, hg, hu0, hu1, hv0, hv1, hku, hkv, hpku, hpkv, hkm, hkn, hlu, hlv, hdenu, hdenv⟩ := hs
  have hrows : ∀ (p o : ℕ) (f : ℕ → ℕ → K), ∀ row ∈ tab (o + 1) (fun a => tab (p + 1) (f a)), (row.length : Int) = (p : Int) + 1 := by
    intro p o f row hrow
    unfold tab at hrow
    obtain ⟨m, _, rfl⟩ := List.mem_map.mp hrow
    simp
  unfold Surface.HomogeneousDerivative
  rw [massert_true ⟨hu0, hu1⟩, bind_ok, massert_true ⟨hv0, hv1⟩, bind_ok, hdu, hdv, hku, bind_ok, hkv, bind_ok,
    evaluateAllAt_any hpku (by omega) hdenu, bind_ok, evaluateAllAt_any hpkv (by omega) hdenv, bind_ok,
    massert_true (hrows _ _ _), bind_ok, massert_true (hrows _ _ _), bind_ok]
  rw [show (ou : Int) + 1 = ((ou + 1 : ℕ) : Int) by push_cast; ring, show (ov : Int) + 1 = ((ov + 1 : ℕ) : Int) by push_cast; ring,
    mk'_gridOf, bind_ok, forLe_eq_forUp 0 ov (ov + 1) (by omega)]
  simp only []
  set Du := basisG s.KnotsU.Values ku p u with hDu
  set Dv := basisG s.KnotsV.Values kv q v with hDv
  set H := homG2 p q ku kv s u v with hH
  set T : ℕ → ℕ → Vec4 K := fun k j => accG (Du k) (fun i => ToHomo (cp s (ku - p + i) (kv - q + j))) (p + 1) with hT
  have hH' : ∀ k l, H k l = accG (Dv l) (T k) (q + 1) := fun _ _ => rfl
  have hfill : (gridOf (ou + 1) (ov + 1) fun _ _ => (0 : Vec4 K)) = gridOf (ou + 1) (ov + 1) fun a b => if b < 0 then H a b else 0 :=
    gridOf_congr fun a _ b _ => by simp
  rw [hfill, forUp_eq _ (fun l => gridOf (ou + 1) (ov + 1) fun a b => if b < l then H a b else 0)]
  · congr 1
    exact gridOf_congr fun a _ b hb => by rw [if_pos hb]
  intro l hl
  rw [forLe_eq_forUp 0 ou (ou + 1) (by omega)]
  have hfill : (gridOf (ou + 1) (ov + 1) fun a b => if b < l then H a b else 0) =
      gridOf (ou + 1) (ov + 1) fun a b => if b < l ∨ (b = l ∧ a < 0) then H a b else 0 :=
    gridOf_congr fun a _ b _ => by simp
  rw [hfill, forUp_eq _ (fun k => gridOf (ou + 1) (ov + 1) fun a b => if b < l ∨ (b = l ∧ a < k) then H a b else 0)]
  · congr 1
    refine gridOf_congr fun a ha b hb => ?_
    by_cases h : b < l + 1
    · rw [if_pos h, if_pos (by omega)]
    · rw [if_neg h, if_neg (by omega)]
  intro k hk
  rw [forLe_eq_forUp 0 q (q + 1) (by omega)]
  have hfill : (gridOf (ou + 1) (ov + 1) fun a b => if b < l ∨ (b = l ∧ a < k) then H a b else 0) =
      gridOf (ou + 1) (ov + 1) fun a b => if a = k ∧ b = l then accG (Dv l) (T k) 0
        else if b < l ∨ (b = l ∧ a < k) then H a b else 0 := by
    refine gridOf_congr fun a _ b _ => ?_
    by_cases h : a = k ∧ b = l
    · rw [if_pos h, if_neg (by omega)]; rfl
    · rw [if_neg h]
  rw [hfill, forUp_eq _ (fun c => gridOf (ou + 1) (ov + 1) fun a b => if a = k ∧ b = l then accG (Dv l) (T k) c
        else if b < l ∨ (b = l ∧ a < k) then H a b else 0)]
  · congr 1
    refine gridOf_congr fun a ha b hb => ?_
    by_cases h : a = k ∧ b = l
    · rw [if_pos h, if_pos (by omega), hH', h.1, h.2]
    · rw [if_neg h]
      by_cases h2 : b < l ∨ (b = l ∧ a < k)
      · rw [if_pos h2, if_pos (by omega)]
      · rw [if_neg h2, if_neg (by omega)]
  intro j hj
  rw [forLe_eq_forUp 0 p (p + 1) (by omega)]
  rw [forUp_accG _ (Du k) (fun i => ToHomo (cp s (ku - p + i) (kv - q + j)))]
  · rw [bind_ok, get_gridOf _ _ _ _ _ k l (by simp) (by simp) hk hl, bind_ok, if_pos ⟨rfl, rfl⟩,
      mget_tab (ov + 1) (q + 1) _ _ _ l j (by simp) (by simp) hl hj, bind_ok]
    apply set_gridOf _ _ _ _ _ _ k l _ (by simp) (by simp) hk hl
    intro a _ b _
    by_cases h : a = k ∧ b = l
    · rw [if_pos h, if_pos h]; rfl
    · rw [if_neg h, if_neg h, if_neg h]
  · intro i hi t
    rw [hg, get_gridOf m n _ _ _ (ku - p + i) (kv - q + j) (by omega) (by omega) (by omega) (by omega), bind_ok,
      mget_tab (ou + 1) (p + 1) _ _ _ k i (by simp) (by simp) hk hi, bind_ok]
    rfl

theorem evaluateAll2_cell_any {H : ℕ → ℕ → Vec4 K} (hne : (H 0 0).w ≠ 0) (OU OV a b : ℕ)
    (ha : a ≤ OU) (hb : b ≤ OV) (ha29 : a ≤ 29) (hb29 : b ≤ 29)
    (hprod : ∀ i j, i < a → j < b → a.choose (i + 1) * b.choose (j + 1) ≤ 2147483647) (f f' : ℕ → ℕ → Vec3 K)
    (hf : ∀ x y, x ≤ a → y ≤ b → (x ≠ a ∨ y ≠ b) → f x y = ratG2 H x y)
    (hf' : ∀ x < OU + 1, ∀ y < OV + 1, f' x y = if x = a ∧ y = b then ratG2 H a b else f x y) :
    (do
      let Aders := (← (gridOf (OU + 1) (OV + 1) H).Get a b).head3
      let Aders ← forLe 1 (a : Int) (fun i (Aders : Vec3 K) => do
        let Wders := (← (gridOf (OU + 1) (OV + 1) H).Get i 0).w
        return Aders - (((← Binomial a i : Int) : K) * Wders) • (← (gridOf (OU + 1) (OV + 1) f).Get (a - i) b)) Aders
      let Aders ← forLe 1 (b : Int) (fun j (Aders : Vec3 K) => do
        let Wders := (← (gridOf (OU + 1) (OV + 1) H).Get 0 j).w
        return Aders - (((← Binomial b j : Int) : K) * Wders) • (← (gridOf (OU + 1) (OV + 1) f).Get a (b - j))) Aders
      let Aders ← forLe 1 (a : Int) (fun i (Aders : Vec3 K) => do
        let bi ← Binomial a i
        forLe 1 (b : Int) (fun j (Aders : Vec3 K) => do
          let Wders := (← (gridOf (OU + 1) (OV + 1) H).Get i j).w
          let bb ← int32 (bi * (← Binomial b j))
          return Aders - ((bb : K) * Wders) • (← (gridOf (OU + 1) (OV + 1) f).Get (a - i) (b - j))) Aders) Aders
      (gridOf (OU + 1) (OV + 1) f).Set a b (← Aders.divM (H 0 0).w)) =
    .ok (gridOf (OU + 1) (OV + 1) f') := by
  rw [get_gridOf _ _ _ _ _ a b rfl rfl (by omega) (by omega), bind_ok]
  simp only
  rw [forLe_eq_forUp 1 a a (by omega)]
  have e1 := forUp_eq (fun i (Aders : Vec3 K) => do
        let Wders := (← (gridOf (OU + 1) (OV + 1) H).Get i 0).w
        return Aders - (((← Binomial a i : Int) : K) * Wders) • (← (gridOf (OU + 1) (OV + 1) f).Get (a - i) b)) (subG1 H a b f) a 1 (by
    intro i hi
    simp only
    rw [get_gridOf _ _ _ _ _ (i + 1) 0 (by push_cast; ring) (by simp) (by omega) (by omega), bind_ok,
      show (1 : Int) + (i : ℕ) = ((i + 1 : ℕ) : Int) by push_cast; ring,
      Props.C13_binomial a ha29 (i + 1), bind_ok, get_gridOf _ _ _ _ _ (a - (i + 1)) b (by omega) rfl (by omega) (by omega), bind_ok]
    rfl)
  refine (congrArg (fun z => z >>= _) e1).trans ?_
  rw [bind_ok, forLe_eq_forUp 1 b b (by omega)]
  have e2 := forUp_eq (fun j (Aders : Vec3 K) => do
        let Wders := (← (gridOf (OU + 1) (OV + 1) H).Get 0 j).w
        return Aders - (((← Binomial b j : Int) : K) * Wders) • (← (gridOf (OU + 1) (OV + 1) f).Get a (b - j)))
      (subG2 H a b f (subG1 H a b f a)) b 1 (by
    intro j hj
    simp only
    rw [get_gridOf _ _ _ _ _ 0 (j + 1) (by simp) (by push_cast; ring) (by omega) (by omega), bind_ok,
      show (1 : Int) + (j : ℕ) = ((j + 1 : ℕ) : Int) by push_cast; ring,
      Props.C13_binomial b hb29 (j + 1), bind_ok, get_gridOf _ _ _ _ _ a (b - (j + 1)) rfl (by omega) (by omega) (by omega), bind_ok]
    rfl)
  refine (congrArg (fun z => z >>= _) e2).trans ?_
  rw [bind_ok, forLe_eq_forUp 1 a a (by omega)]
  have e3 := forUp_eq (fun i (Aders : Vec3 K) => do
        let bi ← Binomial a i
        forLe 1 (b : Int) (fun j (Aders : Vec3 K) => do
          let Wders := (← (gridOf (OU + 1) (OV + 1) H).Get i j).w
          let bb ← int32 (bi * (← Binomial b j))
          return Aders - ((bb : K) * Wders) • (← (gridOf (OU + 1) (OV + 1) f).Get (a - i) (b - j))) Aders)
      (subG4 H a b f (subG2 H a b f (subG1 H a b f a) b)) a 1 (by
    intro i hi
    simp only
    rw [show (1 : Int) + (i : ℕ) = ((i + 1 : ℕ) : Int) by push_cast; ring,
      Props.C13_binomial a ha29 (i + 1), bind_ok, forLe_eq_forUp 1 b b (by omega)]
    have e4 := forUp_eq (fun j (Aders : Vec3 K) => do
          let Wders := (← (gridOf (OU + 1) (OV + 1) H).Get ((i + 1 : ℕ) : Int) j).w
          let bb ← int32 (((a.choose (i + 1) : ℕ) : Int) * (← Binomial b j))
          return Aders - ((bb : K) * Wders) • (← (gridOf (OU + 1) (OV + 1) f).Get (a - ((i + 1 : ℕ) : Int)) (b - j)))
        (subG3 H a b f i (subG4 H a b f (subG2 H a b f (subG1 H a b f a) b) i)) b 1 (by
      intro j hj
      have h32 : int32 (((a.choose (i + 1) : ℕ) : Int) * ((b.choose (j + 1) : ℕ) : Int)) = .ok ((a.choose (i + 1) * b.choose (j + 1) : ℕ) : Int) := by
        have := hprod i j hi hj
        unfold int32
        rw [← Nat.cast_mul, if_pos (by omega)]
      simp only
      rw [get_gridOf _ _ _ _ _ (i + 1) (j + 1) rfl (by push_cast; ring) (by omega) (by omega), bind_ok,
        show (1 : Int) + (j : ℕ) = ((j + 1 : ℕ) : Int) by push_cast; ring,
        Props.C13_binomial b hb29 (j + 1), bind_ok, h32, bind_ok,
        get_gridOf _ _ _ _ _ (a - (i + 1)) (b - (j + 1)) (by omega) (by omega) (by omega) (by omega), bind_ok]
      rfl)
    exact e4)
  refine (congrArg (fun z => z >>= _) e3).trans ?_
  rw [bind_ok, divM_any _ hne, bind_ok]
  refine set_gridOf _ _ _ _ _ _ a b _ rfl rfl (by omega) (by omega) ?_
  intro x hx y hy
  rw [hf' x hx y hy, ratG2_eq hf]
  rfl

/-- `Surface::EvaluateAll` in any arithmetic. -/
theorem surface_evaluateAll_any (hs : SurfAny p q m n ku kv s u v) (h00 : (homG2 p q ku kv s u v 0 0).w ≠ 0) (OU OV : ℕ) (hOU : OU ≤ 29) (hOV : OV ≤ 29)
    (hprod : OU.choose (OU / 2) * OV.choose (OV / 2) ≤ 2147483647) :
    s.EvaluateAll u v OU OV = .ok (gridOf (OU + 1) (OV + 1) (ratG2 (homG2 p q ku kv s u v))) := by
  have hpr : ∀ a ≤ OU, ∀ b ≤ OV, ∀ i j, i < a → j < b → a.choose (i + 1) * b.choose (j + 1) ≤ 2147483647 := by
    intro a ha b hb i j _ _
    refine le_trans (Nat.mul_le_mul ?_ ?_) hprod
    · exact (Nat.choose_le_choose _ ha).trans (Nat.choose_le_middle _ _)
    · exact (Nat.choose_le_choose _ hb).trans (Nat.choose_le_middle _ _)
  unfold Surface.EvaluateAll
  rw [surface_homogeneous_any hs, bind_ok, show (OU : Int) + 1 = ((OU + 1 : ℕ) : Int) by push_cast; ring,
    show (OV : Int) + 1 = ((OV + 1 : ℕ) : Int) by push_cast; ring,
    mk'_gridOf, bind_ok, get_gridOf _ _ _ _ _ 0 0 (by simp) (by simp) (by omega) (by omega), bind_ok, forLe_eq_forUp 0 OU (OU + 1) (by omega)]
  set T := ratG2 (homG2 p q ku kv s u v) with hT
  have hfill : (gridOf (OU + 1) (OV + 1) fun _ _ => (0 : Vec3 K)) = gridOf (OU + 1) (OV + 1) fun x y => if x < 0 then T x y else 0 :=
    gridOf_congr fun a _ b _ => by simp
  rw [hfill, forUp_eq _ (fun a => gridOf (OU + 1) (OV + 1) fun x y => if x < a then T x y else 0)]
  · congr 1
    exact gridOf_congr fun a ha b _ => by rw [if_pos ha]
  intro a ha
  rw [forLe_eq_forUp 0 OV (OV + 1) (by omega)]
  have hfill : (gridOf (OU + 1) (OV + 1) fun x y => if x < a then T x y else 0) =
      gridOf (OU + 1) (OV + 1) fun x y => if x < a ∨ (x = a ∧ y < 0) then T x y else 0 :=
    gridOf_congr fun a _ b _ => by simp
  rw [hfill, forUp_eq _ (fun b => gridOf (OU + 1) (OV + 1) fun x y => if x < a ∨ (x = a ∧ y < b) then T x y else 0)]
  · congr 1
    refine gridOf_congr fun x hx y hy => ?_
    by_cases h : x < a + 1
    · rw [if_pos h, if_pos (by omega)]
    · rw [if_neg h, if_neg (by omega)]
  intro b hb
  rw [zero_add, zero_add]
  apply evaluateAll2_cell_any h00 OU OV a b (by omega) (by omega) (by omega) (by omega) (hpr a (by omega) b (by omega))
  · intro x y hx hy hxy
    rw [if_pos (by omega)]
  · intro x _ y _
    by_cases h : x = a ∧ y = b
    · rw [if_pos h, if_pos (by omega), h.1, h.2]
    · rw [if_neg h]
      by_cases h2 : x < a ∨ (x = a ∧ y < b)
      · rw [if_pos h2, if_pos (by omega)]
      · rw [if_neg h2, if_neg (by omega)]

end Nurbs
