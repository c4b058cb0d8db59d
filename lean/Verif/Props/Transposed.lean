import Verif.Proof.Transposed
import Verif.Proof.SurfaceElev
import Verif.Props.Surface
import Verif.Props.SurfaceInsert
import Verif.Proof.SurfaceDerivUb
import Verif.Props.Elevate

/-! # C100: the two directions of a surface are interchangeable

The code treats `u` and `v` by separate functions and separate loops.  Exchanging the two directions of a surface (`transposed`, stated
without any function of the model) exchanges what these functions do. -/

set_option linter.unusedSectionVars false

namespace Nurbs.Props
open Nurbs Nurbs.Spec

section any
variable {K : Type} [Zero K] [One K] [Add K] [Sub K] [Mul K] [Div K] [Neg K] [NatCast K] [IntCast K] [LinearOrder K]

/-- C100 (elevation).  For any arithmetic and every surface whose storage matches its numbers of control points, whatever its knots and
weights, and with all outcomes: elevating in `u` after the exchange is elevating in `v` before it, and elevating in `v` after the exchange
is, exchanged back, elevating in `u`. -/
theorem C100_elevate {s : Surface K} {m n : ℕ} (hs : Sized s m n) (hm : 0 < m) (hn : 0 < n) (times : Int) :
    (transposed s).ElevateDegreeU times = Except.map transposed (s.ElevateDegreeV times) ∧
    s.ElevateDegreeU times = Except.map transposed ((transposed s).ElevateDegreeV times) := by
  refine ⟨elevate_transposed hs hm times, ?_⟩
  have h := elevate_transposed (transposed_sized hs) hn times
  rwa [transposed_transposed hs] at h

/-- C100 (removal).  The same for knot removal, including the number of removed knots. -/
theorem C100_remove (sqrt : K → K) {s : Surface K} {m n : ℕ} (hs : Sized s m n) (hm : 0 < m) (hn : 0 < n) (x : K) (times : Int) (tol : K) :
    (transposed s).RemoveKnotU sqrt x times tol = Except.map (Prod.map transposed id) (s.RemoveKnotV sqrt x times tol) ∧
    s.RemoveKnotU sqrt x times tol = Except.map (Prod.map transposed id) ((transposed s).RemoveKnotV sqrt x times tol) := by
  refine ⟨remove_transposed sqrt hs hm x times tol, ?_⟩
  have h := remove_transposed sqrt (transposed_sized hs) hn x times tol
  rwa [transposed_transposed hs] at h

end any

variable {K : Type} [Field K] [LinearOrder K] [IsStrictOrderedRing K] {p q m n : ℕ} {s : Surface K}

/-- C100 (the exchange itself).  It keeps surfaces valid, moves control point `(i, j)` to `(j, i)` and undoes itself. -/
theorem C100_exchange (hw : WFSurface p q m n s) :
    WFSurface q p n m (transposed s) ∧ transposed (transposed s) = s ∧
    ∀ i < m, ∀ j < n, (transposed s).ControlPoints.Get j i = s.ControlPoints.Get i j := by
  refine ⟨transposed_wf hw, transposed_transposed hw.sized, fun i hi j hj => ?_⟩
  rw [transposed_grid hw.sized, WFSurface.grid hw, get_gridOf _ _ _ _ _ j i rfl rfl hj hi, get_gridOf _ _ _ _ _ i j rfl rfl hi hj]

/-- C100 (evaluation).  For all parameters, also outside of the domain. -/
theorem C100_evaluate (hw : WFSurface p q m n s) (u v : K) : (transposed s).Evaluate v u = s.Evaluate u v := by
  by_cases h : (0 ≤ u ∧ u ≤ 1) ∧ (0 ≤ v ∧ v ≤ 1)
  · rw [(C43_evaluate hw h.1.1 h.1.2 h.2.1 h.2.2).1, (C43_evaluate (transposed_wf hw) h.2.1 h.2.2 h.1.1 h.1.2).1]
    unfold surfPoint
    simp only [swsum_transposed hw]
  · rw [sEval_outside _ h, sEval_outside _ (fun h' => h h'.symm)]

theorem transposed_evaluateAll (hw : WFSurface p q m n s) {u v : K} (hu0 : 0 ≤ u) (hu1 : u ≤ 1) (hv0 : 0 ≤ v) (hv1 : v ≤ 1)
    (k l : ℕ) (hk : k ≤ 29) (hl : l ≤ 29) (hprod : k.choose (k / 2) * l.choose (l / 2) ≤ 2147483647) :
    ∃ D : ℕ → ℕ → Vec3 K, s.EvaluateAll u v k l = .ok (gridOf (k + 1) (l + 1) D) ∧
      (transposed s).EvaluateAll v u l k = .ok (gridOf (l + 1) (k + 1) fun j i => D i j) := by
  obtain ⟨ku, hku, hpk, _⟩ := exists_span hw.clampedU hu0 hu1
  obtain ⟨kv, hkv, hqk, _⟩ := exists_span hw.clampedV hv0 hv1
  obtain ⟨h1, h2, h3, h4, _, _, _, _⟩ := surface_seg hw hu0 hu1 hv0 hv1 hku hkv
  obtain ⟨hpos, e⟩ := surface_evaluateAll_ok hw hu0 hu1 hv0 hv1 hku hkv k l hk hl hprod
  obtain ⟨_, e'⟩ := surface_evaluateAll_ok (transposed_wf hw) hv0 hv1 hu0 hu1 hkv hku l k hl hk (by rw [Nat.mul_comm]; exact hprod)
  refine ⟨_, e, ?_⟩
  rw [e']
  congr 1
  have hne : (homD2 p q s ku kv u v 0 0).w ≠ 0 := by
    have := surfP_pd p q s ku kv Vec4.lw u v 0 0
    rw [show pd (surfP p q s ku kv Vec4.lw) 0 0 = surfP p q s ku kv Vec4.lw from rfl] at this
    intro h0
    rw [this] at hpos
    exact absurd h0 hpos.ne'
  have a1 := hw.knotsU
  have a2 := hw.knotsV
  refine gridOf_congr fun j _ i _ => ?_
  exact ratD2_transposed hw hpk (by omega) hqk (by omega) hne (i + j) i j le_rfl

/-- C100 (derivatives).  For all orders, also the too large ones with undefined behaviour. -/
theorem C100_derivative (hw : WFSurface p q m n s) {u v : K} (hu0 : 0 ≤ u) (hu1 : u ≤ 1) (hv0 : 0 ≤ v) (hv1 : v ≤ 1) (k l : ℕ) :
    (transposed s).EvaluateDerivative v u l k = s.EvaluateDerivative u v k l ∧
    ∀ g, s.EvaluateAll u v k l = .ok g → ∃ g', (transposed s).EvaluateAll v u l k = .ok g' ∧
      ∀ i ≤ k, ∀ j ≤ l, g'.Get j i = g.Get i j := by
  by_cases hsm : k ≤ 29 ∧ l ≤ 29 ∧ k.choose (k / 2) * l.choose (l / 2) ≤ 2147483647
  · obtain ⟨D, e, e'⟩ := transposed_evaluateAll hw hu0 hu1 hv0 hv1 k l hsm.1 hsm.2.1 hsm.2.2
    constructor
    · unfold Surface.EvaluateDerivative
      rw [e, e', bind_ok, bind_ok, get_gridOf _ _ _ _ _ k l rfl rfl (by omega) (by omega),
        get_gridOf _ _ _ _ _ l k rfl rfl (by omega) (by omega)]
    · intro g hg
      rw [e] at hg
      injection hg with hg
      subst hg
      refine ⟨_, e', fun i hi j hj => ?_⟩
      rw [get_gridOf _ _ _ _ _ i j rfl rfl (by omega) (by omega), get_gridOf _ _ _ _ _ j i rfl rfl (by omega) (by omega)]
  · obtain ⟨ku, hku, _, _⟩ := exists_span hw.clampedU hu0 hu1
    obtain ⟨kv, hkv, _, _⟩ := exists_span hw.clampedV hv0 hv1
    have e := surface_evaluateAll_ub hw hu0 hu1 hv0 hv1 hku hkv k l (by omega)
    have e' := surface_evaluateAll_ub (transposed_wf hw) hv0 hv1 hu0 hu1 hkv hku l k (by rw [Nat.mul_comm]; omega)
    refine ⟨?_, fun g hg => by rw [e] at hg; cases hg⟩
    unfold Surface.EvaluateDerivative
    rw [e, e']
    rfl

theorem insertU_assert (s : Surface K) {x : K} (h : ¬ (0 < x ∧ x < 1)) : s.InsertKnotU x = .error .assert := by
  unfold Surface.InsertKnotU KnotVector.InsertKnot
  rw [massert_false h]; rfl

theorem insertV_assert (s : Surface K) {x : K} (h : ¬ (0 < x ∧ x < 1)) : s.InsertKnotV x = .error .assert := by
  unfold Surface.InsertKnotV KnotVector.InsertKnot
  rw [massert_false h]; rfl

theorem insPt_congr (U : ℕ → K) {k : ℕ} (x : K) {p n : ℕ} {P Q : ℕ → Vec4 K} (hk : k < n) (h : ∀ i < n, P i = Q i) {i : ℕ}
    (hi : i < n + 1) : insPt U k x p P i = insPt U k x p Q i := by
  unfold insPt step
  split_ifs with h1 h2
  · exact h i (by omega)
  · simp only [h i (by omega), h (i - 1) (by omega)]
  · exact h (i - 1) (by omega)

theorem transposed_insSurfV (hs : Sized s m n) {x : K} {k : ℕ} (hk : k < n) (q : ℕ) :
    transposed (insSurfV q m n k x s) = insSurfU q n m k x (transposed s) := by
  have hg : (insSurfV q m n k x s).ControlPoints =
    gridOf m (n + 1) fun i j => insPt (kn s.KnotsV.Values) k x q (fun j => cp s i j) j := rfl
  have e : (transposed (insSurfV q m n k x s)).ControlPoints = (insSurfU q n m k x (transposed s)).ControlPoints := by
    rw [transposed_gridOf hg, show (insSurfU q n m k x (transposed s)).ControlPoints =
      gridOf (n + 1) m fun j i => insPt (kn s.KnotsV.Values) k x q (fun j => cp (transposed s) j i) j from rfl]
    refine gridOf_congr fun j hj i hi => ?_
    exact insPt_congr _ x hk (fun j hj => (cp_transposed hs hi hj).symm) hj
  have r1 : transposed (insSurfV q m n k x s) =
    { insSurfU q n m k x (transposed s) with ControlPoints := (transposed (insSurfV q m n k x s)).ControlPoints } := rfl
  rw [r1, e]

theorem transposed_insSurfU (hs : Sized s m n) {x : K} {k : ℕ} (hk : k < m) (p : ℕ) :
    transposed (insSurfU p m n k x s) = insSurfV p n m k x (transposed s) := by
  have h := transposed_insSurfV (transposed_sized hs) (x := x) hk p
  rw [transposed_transposed hs] at h
  rw [← h]
  exact transposed_transposed (m := n) (n := m + 1) ⟨rfl, rfl, by simp [insSurfV, gridOf]⟩

/-- C100 (insertion).  Inserting any value, also one that is refused. -/
theorem C100_insert (hw : WFSurface p q m n s) (hp : 1 ≤ p) (hq : 1 ≤ q) (x : K) :
    (transposed s).InsertKnotU x = Except.map transposed (s.InsertKnotV x) ∧
    (transposed s).InsertKnotV x = Except.map transposed (s.InsertKnotU x) := by
  by_cases hx : 0 < x ∧ x < 1
  · obtain ⟨h0, h1⟩ := hx
    have hw' := transposed_wf hw
    constructor
    · obtain ⟨k, hk, _, _⟩ := exists_span hw.clampedV h0.le h1.le
      rw [insertKnotV_ok hw hk h0 h1 hq, insertKnotU_ok hw' hk h0 h1 hq, emap_ok,
        transposed_insSurfV hw.sized (insV_bounds hw hk h0 h1).2.2]
    · obtain ⟨k, hk, _, _⟩ := exists_span hw.clampedU h0.le h1.le
      rw [insertKnotU_ok hw hk h0 h1 hp, insertKnotV_ok hw' hk h0 h1 hp, emap_ok,
        transposed_insSurfU hw.sized (insU_bounds hw hk h0 h1).2.2]
  · rw [insertU_assert _ hx, insertV_assert _ hx, insertU_assert _ hx, insertV_assert _ hx]
    exact ⟨rfl, rfl⟩

/-- C100 (insertion of several values), all of them in turn. -/
theorem C100_insert_list (hw : WFSurface p q m n s) (hp : 1 ≤ p) (hq : 1 ≤ q) (xs : List K) :
    (transposed s).InsertKnotUList xs = Except.map transposed (s.InsertKnotVList xs) ∧
    (transposed s).InsertKnotVList xs = Except.map transposed (s.InsertKnotUList xs) := by
  unfold Surface.InsertKnotUList Surface.InsertKnotVList
  constructor
  · induction xs generalizing s n with
    | nil => rfl
    | cons x xs ih =>
      simp only [foldMList]
      rw [(C100_insert hw hp hq x).1]
      by_cases hx : 0 < x ∧ x < 1
      · obtain ⟨k, hk, _, _⟩ := exists_span hw.clampedV hx.1.le hx.2.le
        rw [insertKnotV_ok hw hk hx.1 hx.2 hq, emap_ok, bind_ok, bind_ok]
        exact ih (insSurfV_wf hw hk hx.1 hx.2)
      · rw [insertV_assert _ hx]; rfl
  · induction xs generalizing s m with
    | nil => rfl
    | cons x xs ih =>
      simp only [foldMList]
      rw [(C100_insert hw hp hq x).2]
      by_cases hx : 0 < x ∧ x < 1
      · obtain ⟨k, hk, _, _⟩ := exists_span hw.clampedU hx.1.le hx.2.le
        rw [insertKnotU_ok hw hk hx.1 hx.2 hp, emap_ok, bind_ok, bind_ok]
        exact ih (insSurfU_wf hw hk hx.1 hx.2)
      · rw [insertU_assert _ hx]; rfl

/-! ### Searches -/

def vswap (a : Surface.Vec2 K) : Surface.Vec2 K := ⟨a.y, a.x⟩
def mswap (A : Surface.Mat2 K) : Surface.Mat2 K := ⟨A.d, A.c, A.b, A.a⟩

theorem mulVec_swap (A : Surface.Mat2 K) (v : Surface.Vec2 K) : (mswap A).mulVec (vswap v) = vswap (A.mulVec v) := by
  simp only [Surface.Mat2.mulVec, mswap, vswap, Surface.Vec2.mk.injEq]; constructor <;> ring

theorem mul_swap (A B : Surface.Mat2 K) : (mswap A).mul (mswap B) = mswap (A.mul B) := by
  simp only [Surface.Mat2.mul, mswap, Surface.Mat2.mk.injEq]; refine ⟨?_, ?_, ?_, ?_⟩ <;> ring

theorem oneSubOuter_swap (r : K) (a b : Surface.Vec2 K) :
    Surface.Mat2.oneSubOuter r (vswap a) (vswap b) = mswap (Surface.Mat2.oneSubOuter r a b) := rfl

theorem addOuter_swap (A : Surface.Mat2 K) (r : K) (a : Surface.Vec2 K) : (mswap A).addOuter r (vswap a) = mswap (A.addOuter r a) := rfl

theorem dot_swap (a b : Surface.Vec2 K) : (vswap a).dot (vswap b) = a.dot b := by
  simp only [Surface.Vec2.dot, vswap]; ring

theorem lineSearch_swap {norm norm' : K → K → M K} (hn : ∀ u v, norm' v u = norm u v) (uv : Surface.Vec2 K) (c : K) (H : Surface.Mat2 K)
    (g : Surface.Vec2 K) : ∀ (k : ℕ) (al : K), Surface.lineSearch2 norm' (vswap uv) c (mswap H) (vswap g) k al =
      Except.map vswap (Surface.lineSearch2 norm uv c H g k al)
  | 0, al => by
    unfold Surface.lineSearch2 Surface.trial2
    simp only [mulVec_swap]; rfl
  | k + 1, al => by
    have ht : Surface.trial2 (vswap uv) (mswap H) (vswap g) al = vswap (Surface.trial2 uv H g al) := by
      unfold Surface.trial2; simp only [mulVec_swap]; rfl
    unfold Surface.lineSearch2
    simp only [ht, mulVec_swap, dot_swap]
    rw [show norm' (vswap (Surface.trial2 uv H g al)).x (vswap (Surface.trial2 uv H g al)).y =
      norm (Surface.trial2 uv H g al).x (Surface.trial2 uv H g al).y from hn _ _]
    cases norm (Surface.trial2 uv H g al).x (Surface.trial2 uv H g al).y with
    | error e => rfl
    | ok r =>
      simp only [bind_ok]
      split_ifs
      · rfl
      · exact lineSearch_swap hn uv c H g k _

theorem bfgsStep_swap {norm norm' : K → K → M K} {Ki Ki' : K → K → M (Surface.Vec2 K)} (hn : ∀ u v, norm' v u = norm u v)
    (hK : ∀ u v, Ki' v u = Except.map vswap (Ki u v)) (uv : Surface.Vec2 K) (c : K) (H : Surface.Mat2 K) :
    Surface.bfgsStep2 norm' Ki' (vswap uv, c, mswap H) =
      Except.map (fun t => (vswap t.1, t.2.1, mswap t.2.2)) (Surface.bfgsStep2 norm Ki (uv, c, H)) := by
  unfold Surface.bfgsStep2
  simp only
  rw [show Ki' (vswap uv).x (vswap uv).y = Except.map vswap (Ki uv.x uv.y) from hK _ _]
  cases Ki uv.x uv.y with
  | error e => rfl
  | ok g =>
    simp only [emap_ok, bind_ok]
    rw [lineSearch_swap hn]
    cases Surface.lineSearch2 norm uv c H g 20 1 with
    | error e => rfl
    | ok w =>
      simp only [emap_ok, bind_ok]
      rw [show Ki' (vswap w).x (vswap w).y = Except.map vswap (Ki w.x w.y) from hK _ _]
      cases Ki w.x w.y with
      | error e => rfl
      | ok g' =>
        simp only [emap_ok, bind_ok]
        have e1 : (⟨(vswap w).x - (vswap uv).x, (vswap w).y - (vswap uv).y⟩ : Surface.Vec2 K) = vswap ⟨w.x - uv.x, w.y - uv.y⟩ := rfl
        have e2 : (⟨(vswap g').x - (vswap g).x, (vswap g').y - (vswap g).y⟩ : Surface.Vec2 K) = vswap ⟨g'.x - g.x, g'.y - g.y⟩ := rfl
        simp only [e1, e2, dot_swap]
        generalize fdiv 1 (if Search.fabs ((⟨g'.x - g.x, g'.y - g.y⟩ : Surface.Vec2 K).dot ⟨w.x - uv.x, w.y - uv.y⟩) < Search.tiny
          then Search.fallback else (⟨g'.x - g.x, g'.y - g.y⟩ : Surface.Vec2 K).dot ⟨w.x - uv.x, w.y - uv.y⟩) = rho
        cases rho with
        | error e => rfl
        | ok rho =>
          simp only [bind_ok]
          rw [show norm' (vswap w).x (vswap w).y = norm w.x w.y from hn _ _]
          cases norm w.x w.y with
          | error e => rfl
          | ok r =>
            simp only [bind_ok]
            have e3 : (if Search.fabs ((⟨g'.x - g.x, g'.y - g.y⟩ : Surface.Vec2 K).dot ⟨w.x - uv.x, w.y - uv.y⟩) < Search.tiny
                then ⟨1, 0, 0, 1⟩ else mswap H) =
              mswap (if Search.fabs ((⟨g'.x - g.x, g'.y - g.y⟩ : Surface.Vec2 K).dot ⟨w.x - uv.x, w.y - uv.y⟩) < Search.tiny
                then ⟨1, 0, 0, 1⟩ else H) := by split_ifs <;> rfl
            rw [e3]
            simp only [oneSubOuter_swap, mul_swap, addOuter_swap]
            rfl

theorem bfgsLoop_swap {norm norm' : K → K → M K} {Ki Ki' : K → K → M (Surface.Vec2 K)} (hn : ∀ u v, norm' v u = norm u v)
    (hK : ∀ u v, Ki' v u = Except.map vswap (Ki u v)) (eps limit : K) : ∀ (fuel count : ℕ) (uv : Surface.Vec2 K) (c : K) (H : Surface.Mat2 K),
    Surface.bfgsLoop2 norm' Ki' eps limit fuel count (vswap uv, c, mswap H) =
      Except.map (fun t => ((vswap t.1.1, t.1.2.1, mswap t.1.2.2), t.2)) (Surface.bfgsLoop2 norm Ki eps limit fuel count (uv, c, H))
  | 0, _, _, _, _ => rfl
  | fuel + 1, count, uv, c, H => by
    unfold Surface.bfgsLoop2
    simp only
    split_ifs
    · rfl
    · rfl
    · rw [bfgsStep_swap hn hK]
      cases Surface.bfgsStep2 norm Ki (uv, c, H) with
      | error e => rfl
      | ok t => exact bfgsLoop_swap hn hK eps limit fuel (count + 1) t.1 t.2.1 t.2.2

theorem residual_swap (hw : WFSurface p q m n s) (sqrt : K → K) (pt : Vec3 K) (u v : K) :
    (transposed s).residual sqrt pt v u = s.residual sqrt pt u v := by
  unfold Surface.residual
  rw [C100_evaluate hw]

theorem gradient_swap (hw : WFSurface p q m n s) (pt : Vec3 K) (u v : K) :
    (transposed s).searchGradient pt v u = Except.map vswap (s.searchGradient pt u v) := by
  unfold Surface.searchGradient
  rw [C100_evaluate hw]
  by_cases h : (0 ≤ u ∧ u ≤ 1) ∧ (0 ≤ v ∧ v ≤ 1)
  · have d := (C100_derivative hw h.1.1 h.1.2 h.2.1 h.2.2 1 0).1
    have f := (C100_derivative hw h.1.1 h.1.2 h.2.1 h.2.2 0 1).1
    simp only [Nat.cast_one, Nat.cast_zero] at d f
    rw [d, f]
    obtain ⟨D, e1, _⟩ := transposed_evaluateAll hw h.1.1 h.1.2 h.2.1 h.2.2 1 0 (by omega) (by omega) (by simp)
    obtain ⟨E, e2, _⟩ := transposed_evaluateAll hw h.1.1 h.1.2 h.2.1 h.2.2 0 1 (by omega) (by omega) (by simp)
    have e1' : s.EvaluateDerivative u v 1 0 = .ok (D 1 0) := by
      unfold Surface.EvaluateDerivative
      simp only [Nat.cast_one, Nat.cast_zero] at e1
      rw [e1, bind_ok, get_gridOf _ _ _ _ _ 1 0 (by simp) (by simp) (by omega) (by omega)]
    have e2' : s.EvaluateDerivative u v 0 1 = .ok (E 0 1) := by
      unfold Surface.EvaluateDerivative
      simp only [Nat.cast_one, Nat.cast_zero] at e2
      rw [e2, bind_ok, get_gridOf _ _ _ _ _ 0 1 (by simp) (by simp) (by omega) (by omega)]
    rw [e1', e2', (C43_evaluate hw h.1.1 h.1.2 h.2.1 h.2.2).1]
    rfl
  · rw [sEval_outside _ h]
    rfl

/-- C100 (closest points).  The search over both parameters finds the exchanged parameters after the same number of iterations, from any
start, also with every other outcome. -/
theorem C100_search (hw : WFSurface p q m n s) (sqrt : K → K) (fuel : ℕ) (pt : Vec3 K) (u v eps limit : K) :
    (transposed s).SearchParameter sqrt fuel pt v u eps limit =
      Except.map (fun t => ((t.1.2, t.1.1), t.2)) (s.SearchParameter sqrt fuel pt u v eps limit) := by
  unfold Surface.SearchParameter
  by_cases hu : u ≥ 0 ∧ u ≤ 1
  · by_cases hv : v ≥ 0 ∧ v ≤ 1
    · rw [massert_true hu, massert_true hv, bind_ok, bind_ok, bind_ok, bind_ok]
      rw [show ((⟨v, u⟩ : Surface.Vec2 K), (Search.dblMax : K), (⟨1, 0, 0, 1⟩ : Surface.Mat2 K)) =
        (vswap ⟨u, v⟩, Search.dblMax, mswap ⟨1, 0, 0, 1⟩) from rfl]
      rw [bfgsLoop_swap (residual_swap hw sqrt pt) (gradient_swap hw pt)]
      cases Surface.bfgsLoop2 (s.residual sqrt pt) (s.searchGradient pt) eps limit fuel 0 (⟨u, v⟩, Search.dblMax, ⟨1, 0, 0, 1⟩) <;> rfl
    · rw [massert_true hu, massert_false hv, bind_ok]; rfl
  · rw [massert_false hu]
    by_cases hv : v ≥ 0 ∧ v ≤ 1
    · rw [massert_true hv, bind_ok]; rfl
    · rw [massert_false hv]; rfl

theorem residualOn_swap (hw : WFSurface p q m n s) (sqrt : K → K) (pt : Vec3 K) {d : Int} (hd : d = 0 ∨ d = 1) (c : K) :
    (transposed s).residualOn sqrt pt (1 - d) c = s.residualOn sqrt pt d c := by
  funext x
  unfold Surface.residualOn Surface.onLine
  rcases hd with rfl | rfl
  · simpa using residual_swap hw sqrt pt c x
  · simpa using residual_swap hw sqrt pt x c

theorem gradientOn_swap (hw : WFSurface p q m n s) (pt : Vec3 K) {d : Int} (hd : d = 0 ∨ d = 1) (c : K) :
    (transposed s).gradientOn pt (1 - d) c = s.gradientOn pt d c := by
  funext x
  have go : ∀ u v, ((transposed s).Evaluate v u >>= fun r => (transposed s).EvaluateDerivative v u 1 0 >>= fun C => .ok ((r - pt).dot C)) =
      (s.Evaluate u v >>= fun r => s.EvaluateDerivative u v 0 1 >>= fun C => .ok ((r - pt).dot C)) := by
    intro u v
    rw [C100_evaluate hw]
    by_cases h : (0 ≤ u ∧ u ≤ 1) ∧ (0 ≤ v ∧ v ≤ 1)
    · have f := (C100_derivative hw h.1.1 h.1.2 h.2.1 h.2.2 0 1).1
      simp only [Nat.cast_one, Nat.cast_zero] at f
      rw [f]
    · rw [sEval_outside _ h]; rfl
  have go' : ∀ u v, ((transposed s).Evaluate v u >>= fun r => (transposed s).EvaluateDerivative v u 0 1 >>= fun C => .ok ((r - pt).dot C)) =
      (s.Evaluate u v >>= fun r => s.EvaluateDerivative u v 1 0 >>= fun C => .ok ((r - pt).dot C)) := by
    intro u v
    rw [C100_evaluate hw]
    by_cases h : (0 ≤ u ∧ u ≤ 1) ∧ (0 ≤ v ∧ v ≤ 1)
    · have f := (C100_derivative hw h.1.1 h.1.2 h.2.1 h.2.2 1 0).1
      simp only [Nat.cast_one, Nat.cast_zero] at f
      rw [f]
    · rw [sEval_outside _ h]; rfl
  unfold Surface.gradientOn Surface.onLine
  rcases hd with rfl | rfl
  · simpa using go c x
  · simpa using go' x c

/-- C100 (searches along a line of the domain).  Exchanging the surface and the direction exchanges the returned parameters. -/
theorem C100_search_on (hw : WFSurface p q m n s) (sqrt : K → K) (fuel : ℕ) (pt : Vec3 K) {d : Int} (hd : d = 0 ∨ d = 1)
    (c x eps limit : K) :
    (transposed s).SearchParameterOn sqrt fuel pt (1 - d) c x eps limit =
      Except.map (fun t => ((t.1.2, t.1.1), t.2)) (s.SearchParameterOn sqrt fuel pt d c x eps limit) ∧
    (transposed s).BinarySearchParameterOn sqrt fuel pt (1 - d) c eps limit =
      Except.map (fun t => ((t.1.2, t.1.1), t.2)) (s.BinarySearchParameterOn sqrt fuel pt d c eps limit) := by
  have hp : ∀ y : K, Surface.pairOn (1 - d) c y = ((Surface.pairOn d c y).2, (Surface.pairOn d c y).1) := by
    intro y
    unfold Surface.pairOn
    rcases hd with rfl | rfl <;> rfl
  constructor
  · unfold Surface.SearchParameterOn
    rw [residualOn_swap hw sqrt pt hd, gradientOn_swap hw pt hd]
    cases Search.bfgsLoop1 (s.residualOn sqrt pt d c) (s.gradientOn pt d c) 0 eps limit fuel 0 (x, Search.dblMax, 1) with
    | error e => rfl
    | ok t =>
      simp only [bind_ok]
      rw [hp]; rfl
  · unfold Surface.BinarySearchParameterOn
    rw [residualOn_swap hw sqrt pt hd]
    cases Search.binLoop (s.residualOn sqrt pt d c) eps (fun count => decide ((count : K) < limit)) fuel 0 0 1 with
    | error e => rfl
    | ok t =>
      simp only [bind_ok]
      rw [hp]; rfl

/-! ### A concrete surface -/

example : WFSurface 1 2 3 4 (transposed exSurface) ∧ transposed exSurface ≠ exSurface :=
  ⟨transposed_wf exSurface_wf, by decide +kernel⟩

example : (transposed exSurface).Evaluate (1/4) (1/5) = exSurface.Evaluate (1/5) (1/4) := C100_evaluate exSurface_wf _ _
example : (exSurface.Evaluate (1/5) (1/4)).isOk = true ∧ exSurface.Evaluate (1/5) (1/4) ≠ exSurface.Evaluate (1/4) (1/5) := by decide +kernel
example : (exSurface.EvaluateDerivative (1/5) (1/4) 2 1).isOk = true ∧
    (transposed exSurface).EvaluateDerivative (1/4) (1/5) 1 2 = exSurface.EvaluateDerivative (1/5) (1/4) 2 1 := by decide +kernel
example : (exSurface.InsertKnotV (1/4)).isOk = true ∧
    (transposed exSurface).InsertKnotU (1/4) = Except.map transposed (exSurface.InsertKnotV (1/4)) := by decide +kernel
example : ∃ s', (transposed exElevSurf).ElevateDegreeV (3 : ℕ) = .ok s' ∧ exElevSurf.ElevateDegreeU (3 : ℕ) = .ok (transposed s') := by
  obtain ⟨r, hr, _⟩ := C49_elevateU_partial (p := 2) (times := 3) exElevSurf_wf (by norm_num) (by norm_num) (by norm_num)
  have h := (C100_elevate (s := exElevSurf) (m := 3) (n := 3) ⟨rfl, rfl, rfl⟩ (by omega) (by omega) ((3 : ℕ) : Int)).2
  cases e : (transposed exElevSurf).ElevateDegreeV ((3 : ℕ) : Int) with
  | error x => rw [e, hr] at h; cases h
  | ok s' => exact ⟨s', rfl, by rw [h, e]; rfl⟩
example : ((exSurface.InsertKnotV (1/4)) >>= fun s => s.RemoveKnotV id (1/4) 1 (1/100)).map (·.2) = .ok 1 ∧
    ((transposed exSurface).InsertKnotU (1/4) >>= fun s => s.RemoveKnotU id (1/4) 1 (1/100)).map (·.2) = .ok 1 := by decide +kernel

end Nurbs.Props
