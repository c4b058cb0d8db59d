import Verif.Proof.SurfaceInsert
import Verif.Proof.SurfaceDeriv
import Verif.Proof.Sim
import Verif.Spec.Transposed

/-! # Exchanging the two directions of a surface -/

set_option linter.unusedSectionVars false

namespace Nurbs
open Nurbs.Spec

section basic
variable {K : Type} [Zero K]

theorem transposed_gridOf {s : Surface K} {m n : ℕ} {f : ℕ → ℕ → Vec4 K} (h : s.ControlPoints = gridOf m n f) :
    (transposed s).ControlPoints = gridOf n m fun j i => f i j := by
  have e : (transposed s).ControlPoints = gridOf n m fun j i => cp s i j := by
    unfold transposed gridOf tab
    simp only [h, gridOf_UCount, gridOf_VCount, Int.toNat_natCast]
  rw [e]
  exact gridOf_congr fun j hj i hi => cp_gridOf h hi hj

theorem transposed_grid {s : Surface K} {m n : ℕ} (hs : Sized s m n) : (transposed s).ControlPoints = gridOf n m fun j i => cp s i j :=
  transposed_gridOf (grid_eq hs.1 hs.2.1 hs.2.2)

theorem transposed_sized {s : Surface K} {m n : ℕ} (hs : Sized s m n) : Sized (transposed s) n m := by
  refine ⟨hs.2.1, hs.1, ?_⟩
  rw [transposed_grid hs]
  simp [gridOf]

theorem cp_transposed {s : Surface K} {m n : ℕ} (hs : Sized s m n) {i j : ℕ} (hi : i < m) (hj : j < n) :
    cp (transposed s) j i = cp s i j := cp_gridOf (transposed_grid hs) hj hi

theorem transposed_transposed {s : Surface K} {m n : ℕ} (hs : Sized s m n) : transposed (transposed s) = s := by
  have hg := grid_eq hs.1 hs.2.1 hs.2.2
  have e : (transposed (transposed s)).ControlPoints = s.ControlPoints := by
    rw [transposed_gridOf (transposed_grid hs), hg]
  cases s
  unfold transposed at e ⊢
  simp only at e ⊢
  rw [e]

theorem Spec.Sized.getU {s : Surface K} {m n : ℕ} (hs : Sized s m n) {u : ℕ} (hu : u < m) :
    s.ControlPoints.GetU (u : Int) = .ok (tab n fun j => cp s u j) := by
  rw [grid_eq hs.1 hs.2.1 hs.2.2]
  exact getU_gridOf _ _ _ _ u rfl hu

theorem Spec.Sized.getV {s : Surface K} {m n : ℕ} (hs : Sized s m n) {v : ℕ} (hv : v < n) :
    s.ControlPoints.GetV (v : Int) = .ok (tab m fun i => cp s i v) := by
  rw [grid_eq hs.1 hs.2.1 hs.2.2]
  exact getV_gridOf _ _ _ _ v rfl hv

/-- Columns of the exchanged surface are rows. -/
theorem getV_transposed {s : Surface K} {m n : ℕ} (hs : Sized s m n) {u : ℕ} (hu : u < m) :
    (transposed s).ControlPoints.GetV (u : Int) = s.ControlPoints.GetU (u : Int) := by
  rw [hs.getU hu, (transposed_sized hs).getV hu]
  congr 1
  exact tab_congr fun j hj => cp_transposed hs hu hj

/-- Writing a row into the exchanged surface. -/
theorem setV_transposed {s : Surface K} {m n : ℕ} (hs : Sized s m n) {u : ℕ} (hu : u < m) (vals : List (Vec4 K)) :
    (transposed s).ControlPoints.SetV (u : Int) vals =
      Except.map (fun g => (transposed { s with ControlPoints := g }).ControlPoints) (s.ControlPoints.SetU (u : Int) vals) ∧
    ∀ g, s.ControlPoints.SetU (u : Int) vals = .ok g → Sized { s with ControlPoints := g } m n := by
  by_cases hl : vals.length = n
  · have e := eq_tab vals (fun i => vals.getD i default) (by intro i hi; simp [List.getD_eq_getElem?_getD, hi])
    rw [hl] at e
    have h1 : s.ControlPoints.SetU (u : Int) vals = .ok (gridOf m n fun x y => if x = u then vals.getD y default else cp s x y) := by
      rw [grid_eq hs.1 hs.2.1 hs.2.2, e]
      rw [setU_gridOf m n _ _ u _ rfl hu]
      congr 1
      refine gridOf_congr fun x _ y hy => ?_
      split
      · rw [← e]
      · rfl
    have h2 : (transposed s).ControlPoints.SetV (u : Int) vals = .ok (gridOf n m fun x y => if y = u then vals.getD x default else cp s y x) := by
      rw [transposed_grid hs, e]
      rw [setV_gridOf n m _ _ u _ rfl hu]
      congr 1
      refine gridOf_congr fun x hx y _ => ?_
      split
      · rw [← e]
      · rfl
    rw [h1, h2]
    refine ⟨?_, ?_⟩
    · rw [emap_ok]
      congr 1
      exact (transposed_gridOf (s := { s with ControlPoints := _ }) rfl).symm
    · intro g hg
      injection hg with hg
      subst hg
      exact ⟨rfl, rfl, by simp [gridOf]⟩
  · have h1 : s.ControlPoints.SetU (u : Int) vals = .error .assert := by
      unfold Grid.SetU
      rw [hs.1, hs.2.1, massert_true (by omega), bind_ok, massert_false (by omega)]
      rfl
    have h2 : (transposed s).ControlPoints.SetV (u : Int) vals = .error .assert := by
      unfold Grid.SetV
      rw [(transposed_sized hs).1, (transposed_sized hs).2.1, massert_true (by omega), bind_ok, massert_false (by omega)]
      rfl
    rw [h1, h2]
    exact ⟨rfl, fun g hg => by cases hg⟩

theorem forUp_simI {α β : Type} {f : α → β} {I : α → Prop} {F : Int → α → M α} {F' : Int → β → M β} : ∀ (n : ℕ) (lo : ℕ)
    (_ : ∀ i : ℕ, lo ≤ i → i < lo + n → ∀ s, I s → F' (i : Int) (f s) = Except.map f (F (i : Int) s) ∧ ∀ s', F (i : Int) s = .ok s' → I s')
    (s : α), I s → forUp (lo : Int) n F' (f s) = Except.map f (forUp (lo : Int) n F s)
  | 0, _, _, _, _ => rfl
  | n + 1, lo, h, s, hs => by
    obtain ⟨e, hi⟩ := h lo le_rfl (by omega) s hs
    unfold forUp
    rw [e]
    cases hF : F (lo : Int) s with
    | error x => rfl
    | ok s' =>
      simp only [emap_ok, bind_ok]
      exact_mod_cast forUp_simI n (lo + 1) (fun i h1 h2 => h i (by omega) (by omega)) s' (hi s' hF)

end basic

section any
variable {K : Type} [Zero K] [One K] [Add K] [Sub K] [Mul K] [Div K] [Neg K] [NatCast K] [IntCast K] [LinearOrder K]

/-- A new grid of given size. -/
theorem mk_cases {m : ℕ} (s : Surface K) (hm : 0 < m) (N : Int) :
    (N < 0 ∧ Grid.mk' (m : Int) N (0 : Vec4 K) = .error .throws ∧ Grid.mk' N (m : Int) (0 : Vec4 K) = .error .throws) ∨
    ∃ (N' : ℕ) (g g' : Grid (Vec4 K)), N = N' ∧ Grid.mk' (m : Int) N (0 : Vec4 K) = .ok g ∧ Grid.mk' N (m : Int) (0 : Vec4 K) = .ok g' ∧
      Sized { s with ControlPoints := g } m N' ∧ (transposed { s with ControlPoints := g }).ControlPoints = g' := by
  by_cases hN : 0 ≤ N
  · obtain ⟨N', rfl⟩ := Int.eq_ofNat_of_zero_le hN
    refine Or.inr ⟨N', _, _, rfl, mk'_gridOf m N' 0, mk'_gridOf N' m 0, ⟨rfl, rfl, by simp [gridOf]⟩, ?_⟩
    exact transposed_gridOf (s := { s with ControlPoints := _ }) rfl
  · left
    have h1 : (m : Int) * N < 0 := mul_neg_of_pos_of_neg (by omega) (by omega)
    have h2 : N * (m : Int) < 0 := by rw [mul_comm]; exact h1
    refine ⟨by omega, ?_, ?_⟩
    · unfold Grid.mk' vnew
      rw [if_neg (by omega)]; rfl
    · unfold Grid.mk' vnew
      rw [if_neg (by omega)]; rfl

theorem elevate_transposed {s : Surface K} {m n : ℕ} (hs : Sized s m n) (hm : 0 < m) (times : Int) :
    (transposed s).ElevateDegreeU times = Except.map transposed (s.ElevateDegreeV times) := by
  unfold Surface.ElevateDegreeU Surface.ElevateDegreeV
  rw [hs.1, hs.2.1, show (transposed s).ControlPoints.UCount = n from hs.2.1, show (transposed s).ControlPoints.VCount = m from hs.1]
  rcases mk_cases s hm ((n : Int) + times) with ⟨_, e1, e2⟩ | ⟨N, g, g', hN, e1, e2, hsz, hg⟩
  · rw [e1, e2]; rfl
  rw [e1, e2, bind_ok, bind_ok]
  have e0 : ({ transposed s with ControlPoints := g' } : Surface K) = transposed { s with ControlPoints := g } := by rw [← hg]; rfl
  rw [e0, forLt_eq_forUp 0 m m (by omega), forLt_eq_forUp 0 m m (by omega)]
  refine forUp_simI (f := transposed) (I := fun r => Sized r m N) m 0 ?_ _ hsz
  intro i _ hi r hr
  rw [getV_transposed hs (by omega)]
  show ((s.ControlPoints.GetU (i : Int) >>= fun points => NurbsDegreeElevation r.KnotsV points r.DegreeV times >>= _) = _) ∧ _
  cases h1 : s.ControlPoints.GetU (i : Int) with
  | error x => exact ⟨rfl, fun s' hs' => by cases hs'⟩
  | ok points =>
    simp only [bind_ok]
    cases h2 : NurbsDegreeElevation r.KnotsV points r.DegreeV times with
    | error x => exact ⟨rfl, fun s' hs' => by cases hs'⟩
    | ok res =>
      obtain ⟨knots, pts, degree⟩ := res
      simp only [bind_ok]
      by_cases hlast : (i : Int) = (m : Int) - 1
      · simp only [if_pos hlast]
        obtain ⟨a, b⟩ := setV_transposed (s := r) hr (by omega : i < m) pts
        rw [a]
        cases h3 : r.ControlPoints.SetU (i : Int) pts with
        | error x => exact ⟨rfl, fun s' hs' => by cases hs'⟩
        | ok g2 =>
          refine ⟨rfl, fun s' hs' => ?_⟩
          injection hs' with hs'
          subst hs'
          exact b g2 h3
      · simp only [if_neg hlast]
        obtain ⟨a, b⟩ := setV_transposed (s := r) hr (by omega : i < m) pts
        rw [a]
        cases h3 : r.ControlPoints.SetU (i : Int) pts with
        | error x => exact ⟨rfl, fun s' hs' => by cases hs'⟩
        | ok g2 =>
          refine ⟨rfl, fun s' hs' => ?_⟩
          injection hs' with hs'
          subst hs'
          exact b g2 h3

theorem removeLoop_transposed (sqrt : K → K) {s : Surface K} {m n : ℕ} (hs : Sized s m n) (u : K) (times : Int) (tol : K) (N : ℕ) :
    ∀ (k i : ℕ), i + k = m → ∀ (r : Surface K) (t : Int), Sized r m N →
      Surface.removeLoopU sqrt (transposed s) u times tol k (i : Int) (transposed r) t =
        Except.map (Option.map (Prod.map transposed id)) (Surface.removeLoopV sqrt s u times tol k (i : Int) r t)
  | 0, _, _, _, _, _ => rfl
  | k + 1, i, hik, r, t, hr => by
    unfold Surface.removeLoopU Surface.removeLoopV
    rw [getV_transposed hs (by omega)]
    cases h1 : s.ControlPoints.GetU (i : Int) with
    | error x => rfl
    | ok points =>
      simp only [bind_ok]
      change ((KnotRemoval sqrt r.KnotsV points r.DegreeV u times tol) >>= _) = _
      cases h2 : KnotRemoval sqrt r.KnotsV points r.DegreeV u times tol with
      | error x => rfl
      | ok res =>
        obtain ⟨knots, pts, t'⟩ := res
        simp only [bind_ok]
        rw [hs.1, show (transposed s).ControlPoints.VCount = m from hs.1]
        by_cases hc : t' = 0 ∨ ((i : Int) ≠ 0 ∧ t ≠ t')
        · simp only [if_pos hc]; rfl
        · simp only [if_neg hc]
          have go : ∀ r' : Surface K, Sized r' m N → r'.ControlPoints = r.ControlPoints →
              ((transposed r').ControlPoints.SetV (i : Int) pts >>= fun grid =>
                Surface.removeLoopU sqrt (transposed s) u times tol k ((i : Int) + 1) { transposed r' with ControlPoints := grid } t') =
              Except.map (Option.map (Prod.map transposed id)) (r'.ControlPoints.SetU (i : Int) pts >>= fun grid =>
                Surface.removeLoopV sqrt s u times tol k ((i : Int) + 1) { r' with ControlPoints := grid } t') := by
            intro r' hr' _
            obtain ⟨a, b⟩ := setV_transposed hr' (by omega : i < m) pts
            rw [a]
            cases h3 : r'.ControlPoints.SetU (i : Int) pts with
            | error x => rfl
            | ok g2 =>
              simp only [emap_ok, bind_ok]
              exact_mod_cast removeLoop_transposed sqrt hs u times tol N k (i + 1) (by omega) { r' with ControlPoints := g2 } t' (b g2 h3)
          by_cases hlast : (i : Int) = (m : Int) - 1
          · simp only [if_pos hlast]
            exact go { r with KnotsV := knots } hr rfl
          · simp only [if_neg hlast]
            exact go r hr rfl

theorem remove_transposed (sqrt : K → K) {s : Surface K} {m n : ℕ} (hs : Sized s m n) (hm : 0 < m) (u : K) (times : Int) (tol : K) :
    (transposed s).RemoveKnotU sqrt u times tol = Except.map (Prod.map transposed id) (s.RemoveKnotV sqrt u times tol) := by
  unfold Surface.RemoveKnotU Surface.RemoveKnotV
  rw [hs.1, hs.2.1, show (transposed s).ControlPoints.UCount = n from hs.2.1, show (transposed s).ControlPoints.VCount = m from hs.1]
  rcases mk_cases s hm ((n : Int) - times) with ⟨_, e1, e2⟩ | ⟨N, g, g', hN, e1, e2, hsz, hg⟩
  · rw [e1, e2]; rfl
  rw [e1, e2, bind_ok, bind_ok]
  have e0 : ({ transposed s with ControlPoints := g' } : Surface K) = transposed { s with ControlPoints := g } := by rw [← hg]; rfl
  rw [e0, Int.toNat_natCast]
  have h := removeLoop_transposed sqrt hs u times tol N m 0 (by omega) _ 0 hsz
  rw [Nat.cast_zero] at h
  rw [h]
  cases Surface.removeLoopV sqrt s u times tol m 0 { s with ControlPoints := g } 0 with
  | error x => rfl
  | ok o => cases o <;> rfl

end any

section exact
variable {K : Type} [Field K] [LinearOrder K] [IsStrictOrderedRing K]

theorem Spec.WFSurface.sized {p q m n : ℕ} {s : Surface K} (hw : WFSurface p q m n s) : Sized s m n := ⟨hw.uCount, hw.vCount, hw.storage⟩

theorem transposed_wf {p q m n : ℕ} {s : Surface K} (hw : WFSurface p q m n s) : WFSurface q p n m (transposed s) := by
  have hs := hw.sized
  exact ⟨hw.degreeV, hw.degreeU, hw.clampedV, hw.clampedU, hw.vCount, hw.uCount, hw.knotsV, hw.knotsU, (transposed_sized hs).2.2,
    fun j hj i hi => by rw [cp_transposed hs hi hj]; exact hw.weights i hi j hj⟩

theorem swsum_transposed {p q m n : ℕ} {s : Surface K} (hw : WFSurface p q m n s) (u v : K) (f : Vec4 K → K) :
    swsum q p n m (transposed s) v u f = swsum p q m n s u v f := by
  unfold swsum
  rw [Finset.sum_comm]
  refine Finset.sum_congr rfl fun i hi => Finset.sum_congr rfl fun j hj => ?_
  rw [cp_transposed hw.sized (Finset.mem_range.mp hi) (Finset.mem_range.mp hj)]
  show N (kn s.KnotsV.Values) v q j * N (kn s.KnotsU.Values) u p i * _ * _ = _
  ring

theorem homD2_transposed {p q m n : ℕ} {s : Surface K} (hw : WFSurface p q m n s) {ku kv : ℕ} (hp : p ≤ ku) (hm : ku < m) (hq : q ≤ kv)
    (hn : kv < n) (u v : K) (k l : ℕ) : homD2 q p (transposed s) kv ku v u l k = homD2 p q s ku kv u v k l := by
  unfold homD2
  simp only [Finset.smul_sum]
  rw [Finset.sum_comm]
  refine Finset.sum_congr rfl fun j hj => Finset.sum_congr rfl fun i hi => ?_
  rw [Finset.mem_range] at hi hj
  rw [smul_comm]
  congr 2
  unfold hcp
  rw [cp_transposed hw.sized (by omega) (by omega)]

theorem ratD2_transposed {p q m n : ℕ} {s : Surface K} (hw : WFSurface p q m n s) {ku kv : ℕ} (hp : p ≤ ku) (hm : ku < m) (hq : q ≤ kv)
    (hn : kv < n) {u v : K} (hne : (homD2 p q s ku kv u v 0 0).w ≠ 0) :
    ∀ (N k l : ℕ), k + l ≤ N → ratD2 q p (transposed s) kv ku v u l k = ratD2 p q s ku kv u v k l := by
  have hH := homD2_transposed hw hp hm hq hn u v
  intro N
  induction N with
  | zero => ?_
  | succ N ih => ?_
  all_goals
    intro k l hkl
    have h1 := ratD2_rec hne k l _ rfl
    have h2 := ratD2_rec (p := q) (q := p) (s := transposed s) (ku := kv) (kv := ku) (u := v) (v := u) (by rw [hH]; exact hne) l k _ rfl
    simp only [hH] at h2
  · obtain rfl : k = 0 := by omega
    obtain rfl : l = 0 := by omega
    simp only [Finset.sum_range_zero] at h1 h2
    have := h2.symm.trans h1
    injection this
  · have a1 : ∀ i ∈ Finset.range l, ratD2 q p (transposed s) kv ku v u (l - (i + 1)) k = ratD2 p q s ku kv u v k (l - (i + 1)) :=
      fun i hi => ih k (l - (i + 1)) (by rw [Finset.mem_range] at hi; omega)
    have a2 : ∀ j ∈ Finset.range k, ratD2 q p (transposed s) kv ku v u l (k - (j + 1)) = ratD2 p q s ku kv u v (k - (j + 1)) l :=
      fun j hj => ih (k - (j + 1)) l (by rw [Finset.mem_range] at hj; omega)
    have a3 : ∀ i ∈ Finset.range l, ∀ j ∈ Finset.range k, ratD2 q p (transposed s) kv ku v u (l - (i + 1)) (k - (j + 1)) =
        ratD2 p q s ku kv u v (k - (j + 1)) (l - (i + 1)) :=
      fun i hi j hj => ih (k - (j + 1)) (l - (i + 1)) (by rw [Finset.mem_range] at hi hj; omega)
    rw [Finset.sum_congr rfl (fun i hi => by rw [a1 i hi]), Finset.sum_congr (s₁ := Finset.range k) rfl (fun j hj => by rw [a2 j hj]),
      Finset.sum_congr (s₁ := Finset.range l) rfl (fun i hi => Finset.sum_congr rfl fun j hj => by rw [a3 i hi j hj]), Finset.sum_comm] at h2
    have := h2.symm.trans (Eq.trans ?_ h1)
    · injection this
    · congr 1
      rw [add_right_comm ((homD2 p q s ku kv u v k l).head3)]
      congr 1
      refine Finset.sum_congr rfl fun j _ => Finset.sum_congr rfl fun i _ => ?_
      rw [Nat.mul_comm]

end exact
end Nurbs
