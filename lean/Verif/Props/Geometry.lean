import Verif.Proof.Geometry
import Verif.Props.Curve
import Verif.Props.Surface

/-! # C52, C53: segments and rectangles -/

set_option linter.unusedSectionVars false

namespace Nurbs.Props
open Nurbs Nurbs.Spec

variable {K : Type} [Field K] [LinearOrder K] [IsStrictOrderedRing K]

/-- The point `a + s (b - a)`. -/
def between (a b : Vec3 K) (s : K) : Vec3 K := ⟨a.x + s * (b.x - a.x), a.y + s * (b.y - a.y), a.z + s * (b.z - a.z)⟩

/-- C52.  `GeomSegment::GetCurve` succeeds, its curve is well-formed, runs from `LeftPoint` to `RightPoint`, and all its points lie on the
segment.  For degree 1 or without interior knots the point at `x` is `LeftPoint + x (RightPoint - LeftPoint)`. -/
theorem C52_segment (g : GeomSegment K) {p n : ℕ} (hd : g.Degree = p) (hc : g.ControlPointCount = n) (hp : 1 ≤ p) (hn : p + 1 ≤ n) :
    ∃ c, g.GetCurve = .ok c ∧ WFCurve p c ∧ c.ControlPoints.length = n ∧
      c.Evaluate 0 = .ok g.LeftPoint ∧ c.Evaluate 1 = .ok g.RightPoint ∧
      ∀ x, 0 ≤ x → x ≤ 1 → ∃ s, 0 ≤ s ∧ s ≤ 1 ∧ c.Evaluate x = .ok (between g.LeftPoint g.RightPoint s) ∧ (p = 1 ∨ n = p + 1 → s = x) := by
  obtain ⟨kv, hkv, hcl, hlen, hs⟩ := uniform_clamped (K := K) p n hn
  have hd0 : (n : K) - 1 ≠ 0 := by
    have : (1 : K) < n := by exact_mod_cast (show 1 < n by omega)
    linarith
  obtain ⟨c, hcdef⟩ : ∃ c : Curve K, c = ⟨(p : Int), kv, tab n fun i => withWeightOne (g.LeftPoint + (i : K) •
      (⟨(g.RightPoint - g.LeftPoint).x / ((n : K) - 1), (g.RightPoint - g.LeftPoint).y / ((n : K) - 1), (g.RightPoint - g.LeftPoint).z / ((n : K) - 1)⟩ : Vec3 K))⟩ := ⟨_, rfl⟩
  have hok : g.GetCurve = .ok c := by
    unfold GeomSegment.GetCurve
    rw [hd, hc, massert_true (by omega), bind_ok, massert_true (by omega), bind_ok]
    simp only
    rw [hkv, bind_ok, vnew_nat, bind_ok, show (((n : Int) - 1 : Int) : K) = (n : K) - 1 by push_cast; rfl, Vec3.divM_ok' hd0, bind_ok,
      replicate_eq_tab, forLt_eq_forUp _ _ n (by omega)]
    have := forUp_eq (fun (i : Int) pts => vset pts i (withWeightOne (g.LeftPoint + (i : K) •
      (⟨(g.RightPoint - g.LeftPoint).x / ((n : K) - 1), (g.RightPoint - g.LeftPoint).y / ((n : K) - 1), (g.RightPoint - g.LeftPoint).z / ((n : K) - 1)⟩ : Vec3 K))))
      (fun t => tab n fun i => if i < t then withWeightOne (g.LeftPoint + (i : K) •
      (⟨(g.RightPoint - g.LeftPoint).x / ((n : K) - 1), (g.RightPoint - g.LeftPoint).y / ((n : K) - 1), (g.RightPoint - g.LeftPoint).z / ((n : K) - 1)⟩ : Vec3 K)) else 0) n 0 (by
      intro t ht
      apply vset_tab' _ _ _ _ t _ (by omega) ht
      intro x hx
      by_cases hxt : x = t
      · subst hxt
        rw [if_pos (by omega), if_pos rfl]
        simp
      · rw [if_neg hxt]
        by_cases h : x < t
        · rw [if_pos (by omega), if_pos h]
        · rw [if_neg (by omega), if_neg h])
    rw [show (tab n fun _ => (0 : Vec4 K)) = tab n fun i => if i < 0 then withWeightOne (g.LeftPoint + (i : K) •
      (⟨(g.RightPoint - g.LeftPoint).x / ((n : K) - 1), (g.RightPoint - g.LeftPoint).y / ((n : K) - 1), (g.RightPoint - g.LeftPoint).z / ((n : K) - 1)⟩ : Vec3 K)) else 0
      from tab_congr fun x _ => by rw [if_neg (by omega)], this, bind_ok, hcdef, pure_ok]
    congr 2
    exact tab_congr fun x hx => by rw [if_pos hx]
  have hcp : ∀ i < n, pt c.ControlPoints i = withWeightOne (g.LeftPoint + (i : K) •
      (⟨(g.RightPoint - g.LeftPoint).x / ((n : K) - 1), (g.RightPoint - g.LeftPoint).y / ((n : K) - 1), (g.RightPoint - g.LeftPoint).z / ((n : K) - 1)⟩ : Vec3 K)) := by
    intro i hi
    rw [hcdef]
    simp [pt, tab, hi]
  have hl : c.ControlPoints.length = n := by rw [hcdef]; simp
  have hk : c.Knots = kv := by rw [hcdef]
  have hw : WFCurve p c := by
    refine ⟨by rw [hcdef], by rw [hk]; exact hcl, by rw [hk, hl]; exact hlen, ?_⟩
    intro i hi
    rw [hl] at hi
    rw [hcp i hi]
    exact zero_lt_one
  have hrat : c.IsRational = false := by
    rw [← Bool.not_eq_true]
    intro h
    obtain ⟨i, j, hi, hj, hne⟩ := (C28_isRational_iff c).mp h
    rw [hl] at hi hj
    rw [hcp i hi, hcp j hj] at hne
    exact hne rfl
  have hev : ∀ x, 0 ≤ x → x ≤ 1 → c.Evaluate x = .ok (between g.LeftPoint g.RightPoint (pos p n kv.Values x)) := by
    intro x h0 h1
    rw [C28_nonrational hw hrat h0 h1, hl, hk]
    have sumf : ∀ (f : Vec4 K → K) (a b : K), (∀ i < n, f (pt c.ControlPoints i) = a + (i : K) * ((b - a) / ((n : K) - 1))) →
        ∑ i ∈ Finset.range n, N (kn kv.Values) x p i * f (pt c.ControlPoints i) = a + pos p n kv.Values x * (b - a) := by
      intro f a b hf
      rw [← lin_sum hcl hlen h0 h1]
      apply Finset.sum_congr rfl
      intro i hi
      rw [hf i (Finset.mem_range.mp hi)]
    rw [sumf (·.x) g.LeftPoint.x g.RightPoint.x (fun i hi => by rw [hcp i hi]; rfl),
      sumf (·.y) g.LeftPoint.y g.RightPoint.y (fun i hi => by rw [hcp i hi]; rfl),
      sumf (·.z) g.LeftPoint.z g.RightPoint.z (fun i hi => by rw [hcp i hi]; rfl)]
    rfl
  refine ⟨c, hok, hw, hl, ?_, ?_, fun x h0 h1 => ⟨pos p n kv.Values x, (pos_mem hcl hlen (by omega) h0 h1).1, (pos_mem hcl hlen (by omega) h0 h1).2,
    hev x h0 h1, fun h => pos_eq hcl hlen hp hs h h0 h1⟩⟩
  · rw [hev 0 (le_refl _) zero_le_one, pos_zero hcl hlen]
    congr 1
    unfold between
    ext <;> simp
  · rw [hev 1 zero_le_one (le_refl _), pos_one hcl hlen (by omega)]
    congr 1
    unfold between
    ext <;> simp

/-- `Make` builds a straight line with constant speed. -/
theorem C52_make (a b : Vec3 K) : ∃ c, (GeomSegment.Make a b).GetCurve = .ok c ∧
    ∀ x, 0 ≤ x → x ≤ 1 → c.Evaluate x = .ok (between a b x) := by
  obtain ⟨c, h, _, _, _, _, he⟩ := C52_segment (GeomSegment.Make a b) (p := 1) (n := 2) rfl rfl (le_refl _) (le_refl _)
  refine ⟨c, h, fun x h0 h1 => ?_⟩
  obtain ⟨s, _, _, h2, h3⟩ := he x h0 h1
  rw [h3 (Or.inl rfl)] at h2
  exact h2

/-- Outside the documented range the code stops at an assertion. -/
theorem C52_bad_degree (g : GeomSegment K) (h : g.Degree < 1 ∨ g.ControlPointCount < g.Degree + 1) : g.GetCurve = .error .assert := by
  unfold GeomSegment.GetCurve
  by_cases h1 : g.Degree ≥ 1
  · rw [massert_true h1, bind_ok, massert_false (by omega), bind_error]
  · rw [massert_false h1, bind_error]

example : ((GeomSegment.mk ⟨0, 0, 0⟩ ⟨3, 6, 0⟩ 2 4 : GeomSegment ℚ).GetCurve) =
    .ok ⟨2, ⟨[0, 0, 0, 1/2, 1, 1, 1]⟩, [⟨0, 0, 0, 1⟩, ⟨1, 2, 0, 1⟩, ⟨2, 4, 0, 1⟩, ⟨3, 6, 0, 1⟩]⟩ := by decide +kernel

/-- The point `a + s (b - a) + t (c - a)`. -/
def inPlane (a b c : Vec3 K) (s t : K) : Vec3 K :=
  ⟨a.x + s * (b.x - a.x) + t * (c.x - a.x), a.y + s * (b.y - a.y) + t * (c.y - a.y), a.z + s * (b.z - a.z) + t * (c.z - a.z)⟩

/-- C53.  `GeomRect::GetSurface` succeeds, its surface is well-formed, and its point at `(u, v)` is
`LeftBottom + s (RightBottom - LeftBottom) + t (LeftTop - LeftBottom)` where `s` depends only on `u`, `t` only on `v`, both are in [0,1], and
are 0 at 0 and 1 at 1.  Hence three corners are as given, and the fourth one is `RightTopPoint` exactly if the four points form a
parallelogram.
Missing for the full C53: `RightTopPoint` at (1,1) in general, which is false (`C53_corner_refuted`). -/
theorem C53_rect_partial (g : GeomRect K) {p q m n : ℕ} (hdu : g.DegreeU = p) (hdv : g.DegreeV = q) (hcu : g.ControlPointCountU = m)
    (hcv : g.ControlPointCountV = n) (hp : 1 ≤ p) (hq : 1 ≤ q) (hm : p + 1 ≤ m) (hn : q + 1 ≤ n) :
    ∃ (s : Surface K) (f h : K → K), g.GetSurface = .ok s ∧ WFSurface p q m n s ∧
      (∀ u v, 0 ≤ u → u ≤ 1 → 0 ≤ v → v ≤ 1 → s.Evaluate u v = .ok (inPlane g.LeftBottomPoint g.RightBottomPoint g.LeftTopPoint (f u) (h v))) ∧
      (∀ u, 0 ≤ u → u ≤ 1 → 0 ≤ f u ∧ f u ≤ 1 ∧ (p = 1 ∨ m = p + 1 → f u = u)) ∧
      (∀ v, 0 ≤ v → v ≤ 1 → 0 ≤ h v ∧ h v ≤ 1 ∧ (q = 1 ∨ n = q + 1 → h v = v)) ∧
      s.Evaluate 0 0 = .ok g.LeftBottomPoint ∧ s.Evaluate 1 0 = .ok g.RightBottomPoint ∧ s.Evaluate 0 1 = .ok g.LeftTopPoint ∧
      (s.Evaluate 1 1 = .ok g.RightTopPoint ↔
        g.RightTopPoint = inPlane g.LeftBottomPoint g.RightBottomPoint g.LeftTopPoint 1 1) := by
  obtain ⟨ku, hku, hclu, hlu, hsu⟩ := uniform_clamped (K := K) p m hm
  obtain ⟨kv, hkv, hclv, hlv, hsv⟩ := uniform_clamped (K := K) q n hn
  have hm0 : (m : K) - 1 ≠ 0 := by
    have : (1 : K) < m := by exact_mod_cast (show 1 < m by omega)
    linarith
  have hn0 : (n : K) - 1 ≠ 0 := by
    have : (1 : K) < n := by exact_mod_cast (show 1 < n by omega)
    linarith
  obtain ⟨k1, hk1⟩ : ∃ k : Vec3 K, k = ⟨(g.RightBottomPoint - g.LeftBottomPoint).x / ((m : K) - 1), (g.RightBottomPoint - g.LeftBottomPoint).y / ((m : K) - 1),
    (g.RightBottomPoint - g.LeftBottomPoint).z / ((m : K) - 1)⟩ := ⟨_, rfl⟩
  obtain ⟨k2, hk2⟩ : ∃ k : Vec3 K, k = ⟨(g.LeftTopPoint - g.LeftBottomPoint).x / ((n : K) - 1), (g.LeftTopPoint - g.LeftBottomPoint).y / ((n : K) - 1),
    (g.LeftTopPoint - g.LeftBottomPoint).z / ((n : K) - 1)⟩ := ⟨_, rfl⟩
  obtain ⟨s, hs⟩ : ∃ s : Surface K, s = ⟨(p : Int), (q : Int), ku, kv, gridOf m n fun i j =>
    withWeightOne (g.LeftBottomPoint + (i : K) • k1 + (j : K) • k2)⟩ := ⟨_, rfl⟩
  have hok : g.GetSurface = .ok s := by
    unfold GeomRect.GetSurface
    rw [hdu, hdv, hcu, hcv, massert_true (by omega), bind_ok, massert_true (by omega), bind_ok, massert_true (by omega), bind_ok,
      massert_true (by omega), bind_ok]
    simp only
    rw [hku, bind_ok, hkv, bind_ok, mk'_gridOf, bind_ok, show (((m : Int) - 1 : Int) : K) = (m : K) - 1 by push_cast; rfl,
      show (((n : Int) - 1 : Int) : K) = (n : K) - 1 by push_cast; rfl, Vec3.divM_ok' hm0, bind_ok, Vec3.divM_ok' hn0, bind_ok,
      forLt_eq_forUp _ _ n (by omega), ← hk1, ← hk2]
    have inner : ∀ t < n, forLt (0 : Int) (m : Int) (fun i (grid : Grid (Vec4 K)) =>
        grid.Set i ((0 : Int) + t) (withWeightOne (g.LeftBottomPoint + (i : K) • k1 + (((0 : Int) + t : Int) : K) • k2)))
        (gridOf m n fun i j => if j < t then withWeightOne (g.LeftBottomPoint + (i : K) • k1 + (j : K) • k2) else 0) =
        .ok (gridOf m n fun i j => if j < t + 1 then withWeightOne (g.LeftBottomPoint + (i : K) • k1 + (j : K) • k2) else 0) := by
      intro t ht
      rw [forLt_eq_forUp _ _ m (by omega)]
      have := forUp_eq (fun (i : Int) (grid : Grid (Vec4 K)) =>
        grid.Set i ((0 : Int) + t) (withWeightOne (g.LeftBottomPoint + (i : K) • k1 + (((0 : Int) + t : Int) : K) • k2)))
        (fun r => gridOf m n fun i j => if j < t ∨ (j = t ∧ i < r) then withWeightOne (g.LeftBottomPoint + (i : K) • k1 + (j : K) • k2) else 0) m 0 (by
        intro r hr
        apply set_gridOf _ _ _ _ _ _ r t _ (by omega) (by omega) hr ht
        intro x hx y hy
        by_cases hxy : x = r ∧ y = t
        · obtain ⟨rfl, rfl⟩ := hxy
          rw [if_pos (by omega), if_pos ⟨rfl, rfl⟩]
          simp
        · rw [if_neg hxy]
          by_cases h : y < t ∨ (y = t ∧ x < r)
          · rw [if_pos (by omega), if_pos h]
          · rw [if_neg (by omega), if_neg h])
      rw [show (gridOf m n fun i j => if j < t then withWeightOne (g.LeftBottomPoint + (i : K) • k1 + (j : K) • k2) else 0) =
        gridOf m n fun i j => if j < t ∨ (j = t ∧ i < 0) then withWeightOne (g.LeftBottomPoint + (i : K) • k1 + (j : K) • k2) else 0 from
        gridOf_congr fun x hx y hy => by
          by_cases h : y < t
          · rw [if_pos h, if_pos (by omega)]
          · rw [if_neg h, if_neg (by omega)], this]
      exact congrArg _ (gridOf_congr fun x hx y hy => by
          by_cases h : y < t + 1
          · rw [if_pos h, if_pos (by omega)]
          · rw [if_neg h, if_neg (by omega)])
    have := forUp_eq (fun (j : Int) grid => forLt (0 : Int) (m : Int) (fun i (grid : Grid (Vec4 K)) =>
        grid.Set i j (withWeightOne (g.LeftBottomPoint + (i : K) • k1 + (j : K) • k2))) grid)
      (fun t => gridOf m n fun i j => if j < t then withWeightOne (g.LeftBottomPoint + (i : K) • k1 + (j : K) • k2) else 0) n 0 inner
    rw [show (gridOf m n fun _ _ => (0 : Vec4 K)) =
        gridOf m n fun i j => if j < 0 then withWeightOne (g.LeftBottomPoint + (i : K) • k1 + (j : K) • k2) else 0 from
        gridOf_congr fun x hx y hy => by rw [if_neg (by omega)], this, bind_ok, hs, pure_ok]
    congr 2
    exact gridOf_congr fun x hx y hy => by rw [if_pos hy]
  have hcp : ∀ i < m, ∀ j < n, cp s i j = withWeightOne (g.LeftBottomPoint + (i : K) • k1 + (j : K) • k2) := by
    intro i hi j hj
    exact cp_gridOf (f := fun i j => withWeightOne (g.LeftBottomPoint + (i : K) • k1 + (j : K) • k2)) (by rw [hs]) hi hj
  have hkU : s.KnotsU = ku := by rw [hs]
  have hkV : s.KnotsV = kv := by rw [hs]
  have hw : WFSurface p q m n s := by
    refine ⟨by rw [hs], by rw [hs], by rw [hkU]; exact hclu, by rw [hkV]; exact hclv, by rw [hs]; rfl, by rw [hs]; rfl, by rw [hkU]; exact hlu,
      by rw [hkV]; exact hlv, by rw [hs]; simp [gridOf], ?_⟩
    intro i hi j hj
    rw [hcp i hi j hj]
    exact zero_lt_one
  have hev : ∀ u v, 0 ≤ u → u ≤ 1 → 0 ≤ v → v ≤ 1 → s.Evaluate u v =
      .ok (inPlane g.LeftBottomPoint g.RightBottomPoint g.LeftTopPoint (pos p m ku.Values u) (pos q n kv.Values v)) := by
    intro u v hu0 hu1 hv0 hv1
    rw [(C43_evaluate hw hu0 hu1 hv0 hv1).1]
    have sumf : ∀ (f : Vec4 K → K) (a b c : K), (∀ i < m, ∀ j < n, f (cp s i j) = a + (i : K) * ((b - a) / ((m : K) - 1)) + (j : K) * ((c - a) / ((n : K) - 1))) →
        swsum p q m n s u v f = a + pos p m ku.Values u * (b - a) + pos q n kv.Values v * (c - a) := by
      intro f a b c hf
      unfold swsum
      rw [hkU, hkV]
      have e : ∀ i ∈ Finset.range m, ∑ j ∈ Finset.range n, N (kn ku.Values) u p i * N (kn kv.Values) v q j * (cp s i j).w * f (cp s i j) =
          N (kn ku.Values) u p i * ((a + pos q n kv.Values v * (c - a)) + (i : K) * ((b - a) / ((m : K) - 1))) := by
        intro i hi
        have hi := Finset.mem_range.mp hi
        have := lin_sum hclv hlv hv0 hv1 (a + (i : K) * ((b - a) / ((m : K) - 1))) (c - a)
        rw [show (a + pos q n kv.Values v * (c - a)) + (i : K) * ((b - a) / ((m : K) - 1)) =
          (a + (i : K) * ((b - a) / ((m : K) - 1))) + pos q n kv.Values v * (c - a) by ring, ← this, Finset.mul_sum]
        apply Finset.sum_congr rfl
        intro j hj
        rw [hf i hi j (Finset.mem_range.mp hj), hcp i hi j (Finset.mem_range.mp hj)]
        show _ * _ * 1 * _ = _
        ring
      rw [Finset.sum_congr rfl e, lin_sum hclu hlu hu0 hu1]
      ring
    have one : swsum p q m n s u v (fun _ => 1) = 1 := by
      rw [sumf (fun _ => 1) 1 1 1 (fun i hi j hj => by ring)]
      ring
    unfold surfPoint
    rw [one, sumf (·.x) g.LeftBottomPoint.x g.RightBottomPoint.x g.LeftTopPoint.x (fun i hi j hj => by rw [hcp i hi j hj, hk1, hk2]; rfl),
      sumf (·.y) g.LeftBottomPoint.y g.RightBottomPoint.y g.LeftTopPoint.y (fun i hi j hj => by rw [hcp i hi j hj, hk1, hk2]; rfl),
      sumf (·.z) g.LeftBottomPoint.z g.RightBottomPoint.z g.LeftTopPoint.z (fun i hi j hj => by rw [hcp i hi j hj, hk1, hk2]; rfl)]
    simp only [div_one]
    rfl
  refine ⟨s, pos p m ku.Values, pos q n kv.Values, hok, hw, hev, ?_, ?_, ?_, ?_, ?_, ?_⟩
  · intro u h0 h1
    exact ⟨(pos_mem hclu hlu (by omega) h0 h1).1, (pos_mem hclu hlu (by omega) h0 h1).2, fun h => pos_eq hclu hlu hp hsu h h0 h1⟩
  · intro u h0 h1
    exact ⟨(pos_mem hclv hlv (by omega) h0 h1).1, (pos_mem hclv hlv (by omega) h0 h1).2, fun h => pos_eq hclv hlv hq hsv h h0 h1⟩
  · rw [hev 0 0 (le_refl _) zero_le_one (le_refl _) zero_le_one, pos_zero hclu hlu, pos_zero hclv hlv]
    congr 1
    unfold inPlane
    ext <;> simp
  · rw [hev 1 0 zero_le_one (le_refl _) (le_refl _) zero_le_one, pos_one hclu hlu (by omega), pos_zero hclv hlv]
    congr 1
    unfold inPlane
    ext <;> simp
  · rw [hev 0 1 (le_refl _) zero_le_one zero_le_one (le_refl _), pos_zero hclu hlu, pos_one hclv hlv (by omega)]
    congr 1
    unfold inPlane
    ext <;> simp
  · rw [hev 1 1 zero_le_one (le_refl _) zero_le_one (le_refl _), pos_one hclu hlu (by omega), pos_one hclv hlv (by omega)]
    exact ⟨fun h => (Except.ok.inj h).symm, fun h => by rw [← h]⟩

/-- The square with the corner (2,2,0) pulled out: the surface still ends at (1,1,0), and `RightTopPoint` is ignored. -/
theorem C53_corner_refuted : ∃ s : Surface ℚ, (GeomRect.Make ⟨0, 0, 0⟩ ⟨1, 0, 0⟩ ⟨0, 1, 0⟩ ⟨2, 2, 0⟩).GetSurface = .ok s ∧ s.Evaluate 1 1 = .ok ⟨1, 1, 0⟩ := by
  exact ⟨⟨1, 1, ⟨[0, 0, 1, 1]⟩, ⟨[0, 0, 1, 1]⟩, ⟨2, 2, [⟨0, 0, 0, 1⟩, ⟨1, 0, 0, 1⟩, ⟨0, 1, 0, 1⟩, ⟨1, 1, 0, 1⟩]⟩⟩, by decide +kernel, by decide +kernel⟩

end Nurbs.Props
