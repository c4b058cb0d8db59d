import Verif.Proof.Removal2

/-! # All rounds of knot removal and the final compaction -/

set_option linter.unusedSectionVars false

namespace Nurbs
open Nurbs.Spec KnotRemovalImpl

variable {K : Type} [Field K] [LinearOrder K] [IsStrictOrderedRing K]

/-- `G` arises from `F` by `t` exact removals. -/
inductive RemChain (U : ℕ → K) (u : K) (p s r : ℕ) (F : ℕ → Vec4 K) : ℕ → (ℕ → Vec4 K) → Prop
  | zero : RemChain U u p s r F 0 F
  | succ {t G G'} : RemChain U u p s r F t G → RemRel U u p s r t G G' → RemChain U u p s r F (t + 1) G'

theorem lay_zero (p s r : ℕ) (F : ℕ → Vec4 K) : Lay p s r 0 F F := ⟨fun _ _ => rfl, fun _ _ => rfl⟩

theorem Vec4.norm_zero {sqrt : K → K} (h : sqrt 0 = 0) : (0 : Vec4 K).norm sqrt = 0 := by
  simp [Vec4.norm, h]

theorem Vec4.eq_zero_of_norm {sqrt : K → K} (h : ∀ x, 0 < x → 0 < sqrt x) {a : Vec4 K} (ha : a.norm sqrt ≤ 0) : a = 0 := by
  by_contra hne
  refine absurd ha (not_le.mpr (h _ ?_))
  by_contra hle
  apply hne
  have hx := mul_self_nonneg a.x
  have hy := mul_self_nonneg a.y
  have hz := mul_self_nonneg a.z
  have hw := mul_self_nonneg a.w
  have hle := not_lt.mp hle
  ext <;> simp only [Vec4.zero_x, Vec4.zero_y, Vec4.zero_z, Vec4.zero_w] <;> apply mul_self_eq_zero.mp <;> apply le_antisymm _ (mul_self_nonneg _) <;> linarith

section loop
variable {U : List K} {u : K} {p s r n : ℕ} (H : RemCtx U u p s r n)
include H

/-- The temporary array is too short for the last removal of a knot of multiplicity `degree + 1`. -/
theorem removalLoop_ub (sqrt : K → K) (tol : K) (m t : ℕ) (ht : t < s) (hs2 : s ≤ p + 1) (hq : ¬ p + 2 + 2 * t - s ≤ 2 * p) (g tmp : ℕ → Vec4 K) :
    removalLoop sqrt U u tol ((p : Int) + 1) (m + 1) t ((r : Int) - p - t) ((r : Int) - s + t) (tab n g) (tab (2 * p + 1) tmp) =
      .error .ub := by
  have hpr := H.pr
  have hrn := H.rn
  rw [removalLoop]
  simp only
  rw [vget_tab _ g _ (r - p - t - 1) (by omega) (by omega), bind_ok, vset_tab _ tmp _ 0 _ (by simp) (by omega), bind_ok,
    vget_tab _ g _ (r - p - t - 1 + (p + 2 + 2 * t - s)) (by omega) (by omega), bind_ok, vset_ge _ _ _ (by simp; omega)]
  rfl

/-- With tolerance 0 every completed round is an exact removal. -/
theorem loop_exact (sqrt : K → K) (hsq : ∀ x, 0 < x → 0 < sqrt x) (hs2 : s ≤ p + 1) (F0 : ℕ → Vec4 K) :
    ∀ (m t : ℕ) (g F tmp : ℕ → Vec4 K), t + m ≤ s → RemChain (kn U) u p s r F0 t F → Lay p s r t g F → ∀ (t' : Int) (pts : List (Vec4 K)),
      removalLoop sqrt U u 0 ((p : Int) + 1) m t ((r : Int) - p - t) ((r : Int) - s + t) (tab n g) (tab (2 * p + 1) tmp) = .ok (t', pts) →
      ∃ (a : ℕ) (g' F' : ℕ → Vec4 K), t' = a ∧ a ≤ t + m ∧ pts = tab n g' ∧ RemChain (kn U) u p s r F0 a F' ∧ Lay p s r a g' F' := by
  intro m
  induction m with
  | zero =>
    intro t g F tmp hts hc hl t' pts he
    rw [removalLoop] at he
    obtain ⟨rfl, rfl⟩ := Prod.mk.inj (Except.ok.inj he)
    exact ⟨t, g, F, rfl, le_rfl, rfl, hc, hl⟩
  | succ m ih =>
    intro t g F tmp hts hc hl t' pts he
    by_cases hq : p + 2 + 2 * t - s ≤ 2 * p
    · obtain ⟨tmp', e⟩ := removalLoop_step H sqrt 0 m t (by omega) hq g tmp
      rw [e] at he
      split_ifs at he with hd
      · obtain ⟨rfl, rfl⟩ := Prod.mk.inj (Except.ok.inj he)
        exact ⟨t, g, F, rfl, by omega, rfl, hc, hl⟩
      · have hz := Vec4.eq_zero_of_norm hsq (not_lt.mp hd)
        obtain ⟨G, hR⟩ := remRel_of_diff H (by omega) hs2 hl hz
        obtain ⟨a, g', F', h1, h2, h3⟩ := ih (t + 1) _ G tmp' (by omega) (hc.succ hR) (remNext_exact H (by omega) hs2 hl hR) t' pts he
        exact ⟨a, g', F', h1, by omega, h3⟩
    · rw [removalLoop_ub H sqrt 0 m t (by omega) hs2 hq g tmp] at he
      exact absurd he (by simp)

/-- Multiplicity at most the degree: every round stays inside the arrays. -/
theorem loop_total (sqrt : K → K) (tol : K) (hs2 : s ≤ p) :
    ∀ (m t : ℕ) (g tmp : ℕ → Vec4 K), t + m ≤ s →
      ∃ (a : ℕ) (g' : ℕ → Vec4 K), a ≤ t + m ∧ (a = t → g' = g) ∧ t ≤ a ∧
        removalLoop sqrt U u tol ((p : Int) + 1) m t ((r : Int) - p - t) ((r : Int) - s + t) (tab n g) (tab (2 * p + 1) tmp) = .ok ((a : Int), tab n g') := by
  intro m
  induction m with
  | zero => intro t g tmp _; exact ⟨t, g, by omega, fun _ => rfl, le_rfl, rfl⟩
  | succ m ih =>
    intro t g tmp hts
    obtain ⟨tmp', e⟩ := removalLoop_step H sqrt tol m t (by omega) (by omega) g tmp
    by_cases hd : (remDiff (kn U) u p t s (r - p - t - 1) (r - p - t - 1 + (p + 2 + 2 * t - s)) g).norm sqrt > tol
    · rw [if_pos hd] at e
      exact ⟨t, g, by omega, fun _ => rfl, le_rfl, e⟩
    · rw [if_neg hd] at e
      obtain ⟨a, g', h1, h2, h3, h4⟩ := ih (t + 1) _ tmp' (by omega)
      exact ⟨a, g', by omega, fun h => by omega, by omega, e.trans h4⟩

end loop

/-! ### compaction -/

theorem compact_index (t : ℕ) (ht : 1 ≤ t) (i j : Int) :
    forLt 1 t (fun k (s : Int × Int) =>
      .ok (s.1 + (if k.tmod 2 = 1 then 1 else 0), s.2 - (if k.tmod 2 = 1 then 0 else 1))) (i, j) =
    .ok (i + (t / 2 : ℕ), j - ((t - 1) / 2 : ℕ)) := by
  rw [forLt_eq_forUp 1 t (t - 1) (by omega)]
  have h := forUp_eq (fun k (s : Int × Int) =>
      (.ok (s.1 + (if k.tmod 2 = 1 then 1 else 0), s.2 - (if k.tmod 2 = 1 then 0 else 1)) : M (Int × Int)))
    (fun x => (i + ((x + 1) / 2 : ℕ), j - (x / 2 : ℕ))) (t - 1) 1 (by
      intro x hx
      simp only
      have hm : (1 + (x : Int)).tmod 2 = ((1 + x) % 2 : ℕ) := by
        rw [Int.tmod_eq_emod_of_nonneg (by omega)]; push_cast; rfl
      rw [hm]
      congr 2
      · split_ifs <;> omega
      · split_ifs <;> omega)
  have e0 : (i + ((0 + 1) / 2 : ℕ), j - (0 / 2 : ℕ)) = (i, j) := by simp
  rw [e0] at h
  rw [h]
  congr 3
  omega

/-- Moving everything behind a gap of `t` entries to the front. -/
theorem shift_points (n a t : ℕ) (ht : 1 ≤ t) (hat : a + t ≤ n) (g : ℕ → Vec4 K) (i j : Int) (hi : i = (a : Int) + t - 1) (hj : j = a) :
    ∃ e, forLe (i + 1) ((n : Int) - 1) (fun k (s : List (Vec4 K) × Int) => do
      return (← vset s.1 s.2 (← vget s.1 k), s.2 + 1)) (tab n g, j) =
    .ok (tab n (fun y => if y < a then g y else if y < n - t then g (y + t) else g y), e) := by
  subst hi hj
  rw [forLe_eq_forUp _ _ (n - t - a) (by omega)]
  obtain ⟨s', h1, h2⟩ := forUp_inv (fun k (s : List (Vec4 K) × Int) => (do
      return (← vset s.1 s.2 (← vget s.1 k), s.2 + 1) : M (List (Vec4 K) × Int)))
    (fun x s => s = (tab n (fun y => if y < a then g y else if y < a + x then g (y + t) else g y), ((a + x : ℕ) : Int))) (n - t - a)
    ((a : Int) + t - 1 + 1) (tab n g, (a : Int)) (by
      simp only [add_zero]
      congr 1
      apply tab_congr
      intro y _
      by_cases h : y < a
      · rw [if_pos h]
      · rw [if_neg h, if_neg h]) (by
      intro x hx s hs
      subst hs
      simp only
      rw [vget_tab _ _ _ (a + t + x) (by omega) (by omega), bind_ok,
        vset_tab' _ _ (fun y => if y < a then g y else if y < a + (x + 1) then g (y + t) else g y) _ (a + x) _ rfl (by omega), bind_ok]
      · exact ⟨_, rfl, by congr 1⟩
      · intro k hk
        by_cases c : k = a + x
        · subst c
          rw [if_neg (by omega), if_pos (by omega), if_pos rfl, if_neg (by omega), if_neg (by omega)]
          congr 1; omega
        · rw [if_neg c]
          by_cases c1 : k < a
          · rw [if_pos c1, if_pos c1]
          · rw [if_neg c1, if_neg c1]
            by_cases c2 : k < a + x
            · rw [if_pos (by omega), if_pos c2]
            · rw [if_neg (by omega), if_neg c2])
  refine ⟨s'.2, ?_⟩
  rw [h1, h2]
  congr 2
  rw [show a + (n - t - a) = n - t by omega]

theorem shift_knots (U : List K) (r t : ℕ) (m : Int) (hr : t ≤ r + 1) (hm : m + 1 = U.length) (hrU : r < U.length) (ht : 1 ≤ t) :
    forLe ((r : Int) + 1) m (fun k knots => do vset knots (k - t) (← vget knots k)) U =
      .ok (tab U.length (fun y => if y + t ≤ r then kn U y else if y + t < U.length then kn U (y + t) else kn U y)) := by
  have e : U = tab U.length (kn U) := eq_tab U _ (fun i hi => (kn_eq_getElem U i hi).symm)
  rw [forLe_eq_forUp _ _ (U.length - r - 1) (by omega)]
  have h := forUp_eq (fun k knots => (do vset knots (k - t) (← vget knots k) : M (List K)))
    (fun x => tab U.length (fun y => if y + t ≤ r then kn U y else if y + t < r + 1 + x then kn U (y + t) else kn U y)) (U.length - r - 1)
    ((r : Int) + 1) (by
      intro x hx
      rw [vget_tab _ _ _ (r + 1 + x) (by omega) (by omega), bind_ok]
      apply vset_tab' _ _ _ _ (r + 1 + x - t) _ (by omega) (by omega)
      intro k hk
      by_cases c : k = r + 1 + x - t
      · subst c
        rw [if_neg (by omega), if_pos (by omega), if_pos rfl, if_neg (by omega), if_neg (by omega)]
        congr 1; omega
      · rw [if_neg c]
        by_cases c1 : k + t ≤ r
        · rw [if_pos c1, if_pos c1]
        · rw [if_neg c1, if_neg c1]
          by_cases c2 : k + t < r + 1 + x
          · rw [if_pos (by omega), if_pos c2]
          · rw [if_neg (by omega), if_neg c2])
  have e0 : tab U.length (fun y => if y + t ≤ r then kn U y else if y + t < r + 1 + 0 then kn U (y + t) else kn U y) = U := by
    conv_rhs => rw [e]
    apply tab_congr
    intro y _
    by_cases c : y + t ≤ r
    · rw [if_pos c]
    · rw [if_neg c, if_neg (by omega)]
  rw [e0] at h
  rw [h]
  congr 1
  apply tab_congr
  intro y hy
  rw [show r + 1 + (U.length - r - 1) = U.length by omega]

theorem vresize_tab {α : Type} (n m : ℕ) (f : ℕ → α) (i : Int) (a : α) (hi : i = m) (hm : m ≤ n) : vresize (tab n f) i a = .ok (tab m f) := by
  rw [vresize_of _ _ m _ hi]
  congr 1
  rw [tab_length, Nat.sub_eq_zero_of_le hm, List.replicate_zero, List.append_nil]
  unfold tab
  rw [← List.map_take, List.take_range, Nat.min_eq_left hm]

theorem calcTOL_ok (sqrt : K → K) (pts : List (Vec4 K)) (eps : K) (h0 : 0 ≤ eps) (hw : ∀ a ∈ pts, 0 < a.w) :
    ∃ tol, CalcTOL sqrt pts eps = .ok tol ∧ 0 ≤ tol ∧ (eps = 0 → tol = 0) := by
  unfold CalcTOL
  suffices h : ∀ (l : List (Vec4 K)) (s : K × K), (∀ a ∈ l, 0 < a.w) → 0 < s.1 → 0 ≤ s.2 →
      0 < (l.foldl (fun (s : K × K) point => (min s.1 point.w, max s.2 (point.head3.norm sqrt))) s).1 ∧
      0 ≤ (l.foldl (fun (s : K × K) point => (min s.1 point.w, max s.2 (point.head3.norm sqrt))) s).2 by
    obtain ⟨h1, h2⟩ := h pts ((1000000000000 : K), 0) hw (by norm_num) le_rfl
    have h3 : (0 : K) < 1 + (pts.foldl (fun (s : K × K) point => (min s.1 point.w, max s.2 (point.head3.norm sqrt))) ((1000000000000 : K), 0)).2 := by linarith
    refine ⟨_, fdiv_ok h3.ne', div_nonneg (mul_nonneg h0 h1.le) h3.le, fun h => by rw [h, zero_mul, zero_div]⟩
  intro l
  induction l with
  | nil => intro s _ h1 h2; exact ⟨h1, h2⟩
  | cons a l ih =>
    intro s hl h1 h2
    rw [List.foldl_cons]
    exact ih _ (fun b hb => hl b (by simp [hb])) (lt_min h1 (hl a (by simp))) (le_max_of_le_left h2)

section finish
variable {U : List K} {u : K} {p s r n : ℕ} (H : RemCtx U u p s r n)
include H

/-- `KnotRemoval` once the outcome of the loop is known: no round succeeded. -/
theorem knotRemoval_none (sqrt : K → K) (P : List (Vec4 K)) (hP : P.length = n) (eps tol : K) (times : Int)
    (hmul : (⟨U⟩ : KnotVector K).GetMultiplicity u = s) (hspan : (⟨U⟩ : KnotVector K).FindSpanIndex p u = .ok (r : Int))
    (htol : CalcTOL sqrt (P.map ToHomo) eps = .ok tol) (pts : List (Vec4 K))
    (hloop : removalLoop sqrt U u tol ((p : Int) + 1) times.toNat (0 : ℕ) ((r : Int) - p - (0 : ℕ)) ((r : Int) - s + (0 : ℕ)) (tab n (hpts P))
      (tab (2 * p + 1) fun _ => 0) = .ok (0, pts)) :
    KnotRemoval sqrt ⟨U⟩ P p u times eps = .ok (⟨U⟩, pts, 0) := by
  have ep : P.map ToHomo = tab n (hpts P) := by
    conv_lhs => rw [eq_tab_pt P]
    rw [hP]; unfold tab; rw [List.map_map]; rfl
  unfold KnotRemoval
  simp only
  rw [hspan, bind_ok, htol, bind_ok, vnew_of _ (2 * p + 1) _ (by push_cast; rfl), bind_ok, hmul, ep, replicate_eq_tab]
  simp only [Nat.cast_zero, sub_zero, add_zero] at hloop
  rw [hloop, bind_ok]
  rfl

/-- `KnotRemoval` once the outcome of the loop is known: `t ≥ 1` rounds succeeded. -/
theorem knotRemoval_some (sqrt : K → K) (P : List (Vec4 K)) (hP : P.length = n) (eps tol : K) (times t : ℕ) (ht : 1 ≤ t) (hts : t ≤ times)
    (htm : times ≤ s)
    (hmul : (⟨U⟩ : KnotVector K).GetMultiplicity u = s) (hspan : (⟨U⟩ : KnotVector K).FindSpanIndex p u = .ok (r : Int))
    (htol : CalcTOL sqrt (P.map ToHomo) eps = .ok tol) (g : ℕ → Vec4 K)
    (hloop : removalLoop sqrt U u tol ((p : Int) + 1) times (0 : ℕ) ((r : Int) - p - (0 : ℕ)) ((r : Int) - s + (0 : ℕ)) (tab n (hpts P))
      (tab (2 * p + 1) fun _ => 0) = .ok ((t : Int), tab n g)) :
    KnotRemoval sqrt ⟨U⟩ P p u times eps = do
      let points ← mapMList FromHomo (tab (n - times) (fun y => if y < (2 * r - s - p) / 2 - (t - 1) / 2 then g y else
        if y < n - t then g (y + t) else g y))
      return (⟨tab (U.length - times) (dropU (kn U) r times)⟩, points, (t : Int)) := by
  have hpr := H.pr
  have hrn := H.rn
  have hlen := H.len
  have ep : P.map ToHomo = tab n (hpts P) := by
    conv_lhs => rw [eq_tab_pt P]
    rw [hP]; unfold tab; rw [List.map_map]; rfl
  unfold KnotRemoval
  simp only
  rw [hspan, bind_ok, htol, bind_ok, vnew_of _ (2 * p + 1) _ (by push_cast; rfl), bind_ok, hmul, ep, replicate_eq_tab]
  simp only [Nat.cast_zero, sub_zero, add_zero] at hloop
  rw [Int.toNat_natCast, hloop, bind_ok]
  simp only
  have hj : (2 * (r : Int) - s - p).tdiv 2 = ((2 * r - s - p) / 2 : ℕ) := by
    rw [Int.tdiv_eq_ediv_of_nonneg (by omega)]; omega
  rw [if_neg (by omega), compact_index t ht, bind_ok, hj]
  simp only
  obtain ⟨e, he⟩ := shift_points n ((2 * r - s - p) / 2 - (t - 1) / 2) t ht (by omega) g
    (((2 * r - s - p) / 2 : ℕ) + (t / 2 : ℕ)) (((2 * r - s - p) / 2 : ℕ) - ((t - 1) / 2 : ℕ)) (by omega) (by omega)
  rw [tab_length, he, bind_ok]
  simp only
  rw [vresize_tab n (n - times) _ _ _ (by rw [tab_length]; omega) (by omega), bind_ok,
    shift_knots U r times _ (by omega) (by omega) (by omega) (by omega), bind_ok,
    vresize_tab U.length (U.length - times) _ _ _ (by rw [tab_length]; omega) (by omega), bind_ok]
  have ek : tab (U.length - times) (fun y => if y + times ≤ r then kn U y else if y + times < U.length then kn U (y + times) else kn U y) =
      tab (U.length - times) (dropU (kn U) r times) := by
    apply tab_congr
    intro y hy
    unfold dropU
    rw [if_pos (show y + times < U.length by omega)]
  rw [ek]

/-- The compaction closes the gap. -/
theorem compact_lay {t : ℕ} (ht : 1 ≤ t) (hts : t ≤ s) (hs2 : s ≤ p + 1) {g F : ℕ → Vec4 K} (hl : Lay p s r t g F) :
    ∀ y < n - t, (if y < (2 * r - s - p) / 2 - (t - 1) / 2 then g y else if y < n - t then g (y + t) else g y) = F y := by
  have hpr := H.pr
  have hrn := H.rn
  intro y hy
  by_cases c : y < (2 * r - s - p) / 2 - (t - 1) / 2
  · rw [if_pos c, hl.left y (by omega)]
  · rw [if_neg c, if_pos hy, hl.right _ (by omega)]
    congr 1; omega

end finish

end Nurbs
