import Verif.Proof.Removal5
import Verif.Props.Insert
import Verif.Props.KnotVector

/-! # C32 – C35, C61: knot removal on curves

`sqrt` is a parameter; the theorems ask only for what they need of it (`sqrt 0 = 0`, positive on positive
numbers), which `Real.sqrt` satisfies. -/

set_option linter.unusedSectionVars false

namespace Nurbs.Props
open Nurbs Nurbs.Spec KnotRemovalImpl

variable {K : Type} [Field K] [LinearOrder K] [IsStrictOrderedRing K]

/-- Every knot other than `u` is at least `1e-6` away from `u`. -/
def Separated (l : List K) (u : K) : Prop := ∀ v ∈ l, v ≠ u → 1 / 1000000 ≤ |v - u|

theorem tab_map {α β : Type} (n : ℕ) (f : ℕ → α) (g : α → β) : (tab n f).map g = tab n (fun i => g (f i)) := by
  unfold tab; rw [List.map_map]; rfl

/-- C32.  Removing once a knot that was just inserted succeeds for every tolerance ≥ 0 and gives back the original
curve.  The multiplicity of the value in the original curve is at most `degree + 1`. -/
theorem C32_remove_undoes_insert {p : ℕ} (hp : 1 ≤ p) {c : Curve K} (hw : WFCurve p c) {v : K} (h0 : 0 < v) (h1 : v < 1)
    (hsep : Separated c.Knots.Values v) (hmul : c.Knots.Values.count v ≤ p + 1) {sqrt : K → K} (hsq : sqrt 0 = 0) {eps : K} (he : 0 ≤ eps) :
    ∃ c', c.InsertKnot v = .ok c' ∧ c'.RemoveKnot sqrt v 1 eps = .ok (c, 1) := by
  obtain ⟨k, hk, hpk, hlk⟩ := exists_span hw.clamped h0.le h1.le
  refine ⟨_, insertKnot_ok hw hk h0 h1 hp, ?_⟩
  have hw' := insCurve_wf hw hk h0 h1
  have hcnt := hw.count
  have hcnt' := hw'.count
  obtain ⟨U, hU⟩ : ∃ U, insL c.Knots.Values k v = U := ⟨_, rfl⟩
  have hcl' : Clamped p U := by rw [← hU]; exact hw'.clamped
  have hUk : (insCurve p k v c).Knots = ⟨U⟩ := by rw [← hU]; rfl
  have hperm : U.Perm (v :: c.Knots.Values) := by rw [← hU]; exact insL_perm _ _ _
  obtain ⟨s, hs⟩ : ∃ s, U.count v = s := ⟨_, rfl⟩
  have hs' : s = c.Knots.Values.count v + 1 := by rw [← hs, hperm.count_eq, List.count_cons_self]
  have hkn : ∀ j, kn U j = insU (kn c.Knots.Values) k v j := by rw [← hU]; exact kn_insL _ _ _ (by omega)
  have hUlen : U.length = c.Knots.Values.length + 1 := by rw [← hU, insL_length]
  have hkv : v < kn c.Knots.Values (k + 1) := by
    rcases hk.2.2 with h | h
    · exact h
    · exact absurd h.1 h1.ne
  have hspan : IsSpan U v (k + 1) := by
    refine ⟨by omega, ?_, Or.inl ?_⟩
    · rw [hkn, insU, if_neg (by omega), if_pos rfl]
    · rw [hkn, insU, if_neg (by omega), if_neg (by omega)]; exact hkv
  have H : RemCtx U v p s (k + 1) (c.ControlPoints.length + 1) := remCtx_of hcl' h0 h1 hspan (by omega) hs (by omega) (by omega)
  have hpr := H.pr
  have hrem : remL U (k + 1) 1 = c.Knots.Values := by
    apply list_ext_kn (by rw [remL_length]; omega)
    intro i hi
    rw [remL_length] at hi
    rw [kn_remL _ _ _ _ hi]
    split_ifs with hik
    · rw [hkn, insU, if_pos (by omega)]
    · rw [hkn, insU, if_neg (by omega), if_neg (by omega), Nat.add_sub_cancel]
  have hms : (⟨U⟩ : KnotVector K).GetMultiplicity v = s := by
    rw [(C12_getMultiplicity ⟨U⟩ v).2, hs]
    intro w hw hne
    rcases List.mem_cons.mp (hperm.mem_iff.mp hw) with h | h
    · exact absurd h hne
    · exact hsep w h hne
  obtain ⟨r', hr', hr1, _⟩ := findSpanIndex_spec (kv := ⟨U⟩) hcl' h0.le h1.le
  obtain rfl : k + 1 = r' := isSpan_unique hcl'.sorted hspan hr1 (fun i hi => hcl'.le_one hi)
  obtain ⟨tol, ht1, ht2, _⟩ := calcTOL_ok sqrt ((insCurve p k v c).ControlPoints.map ToHomo) eps he (by
    intro a ha
    obtain ⟨b, hb, rfl⟩ := List.mem_map.mp ha
    obtain ⟨i, hi, rfl⟩ := List.getElem_of_mem hb
    have := hw'.weights i hi
    simpa [pt, hi] using this)
  -- the points of the refined curve
  obtain ⟨F, hF⟩ : ∃ F, insP (kn c.Knots.Values) k v p (hpts c.ControlPoints) = F := ⟨_, rfl⟩
  have hFt : tab (c.ControlPoints.length + 1) (hpts (insCurve p k v c).ControlPoints) = tab (c.ControlPoints.length + 1) F := by
    apply tab_congr
    intro i hi
    rw [insCurve_hpts hw hk h0 h1 i hi, hF]
  have hR : RemRel (kn U) v p s (k + 1) 0 F (hpts c.ControlPoints) := rel_of_insP H (fun i => by rw [hrem, ← hF]; rfl)
  have hloop : ∃ g, removalLoop sqrt U v tol ((p : Int) + 1) 1 (0 : ℕ) (((k + 1 : ℕ) : Int) - p - (0 : ℕ)) (((k + 1 : ℕ) : Int) - s + (0 : ℕ))
      (tab (c.ControlPoints.length + 1) (hpts (insCurve p k v c).ControlPoints)) (tab (2 * p + 1) fun _ => 0) =
        .ok (((1 : ℕ) : Int), tab (c.ControlPoints.length + 1) g) ∧
      ∀ y < c.ControlPoints.length, (if y < (2 * (k + 1) - s - p) / 2 - (1 - 1) / 2 then g y
        else if y < c.ControlPoints.length + 1 - 1 then g (y + 1) else g y) = hpts c.ControlPoints y := by
    rw [hFt]
    obtain ⟨tmp', e⟩ := removalLoop_step H sqrt tol 0 0 (by omega) (by omega) F (fun _ => 0)
    rw [zero_add] at e
    rw [e]
    by_cases hs2 : s ≤ p + 1
    · rw [remDiff_exact H (by omega) hs2 (lay_zero p s (k + 1) F) hR, Vec4.norm_zero hsq, if_neg (not_lt.mpr ht2)]
      exact ⟨_, rfl, compact_lay H le_rfl (by omega) hs2 (remNext_exact H (by omega) hs2 (lay_zero p s (k + 1) F) hR)⟩
    · have hd : remDiff (kn U) v p 0 s (k + 1 - p - 0 - 1) (k + 1 - p - 0 - 1 + (p + 2 + 2 * 0 - s)) F = 0 := by
        unfold remDiff
        simp only
        rw [show (p + 1 + 0 - s) = 0 by omega, show p + 2 + 2 * 0 - s = 0 by omega]
        simp [swL, swR]
      rw [hd, Vec4.norm_zero hsq, if_neg (not_lt.mpr ht2)]
      refine ⟨_, rfl, ?_⟩
      intro y hy
      have hz : ∀ j, remNext (kn U) v p 0 s (k + 1 - p - 0 - 1) (k + 1 - p - 0 - 1 + (p + 2 + 2 * 0 - s)) F j = F j := by
        intro j
        unfold remNext
        simp only
        rw [if_neg (by omega), if_neg (by omega)]
      rw [hz, hz, if_pos (show y < c.ControlPoints.length + 1 - 1 by omega)]
      split_ifs with hy2
      · exact hR.left _ (by omega)
      · rw [hR.right _ (by omega) (by omega), Nat.add_sub_cancel]
  obtain ⟨g, hg1, hg2⟩ := hloop
  have hk := knotRemoval_some H sqrt (insCurve p k v c).ControlPoints (by simp [insCurve]) eps tol 1 1 le_rfl le_rfl (by omega) hms hr' ht1 g hg1
  unfold Curve.RemoveKnot
  rw [massert_true ⟨h0, h1⟩, bind_ok, massert_true (by norm_num), bind_ok, hUk, show (insCurve p k v c).Degree = (p : Int) from rfl]
  rw [Nat.cast_one] at hk
  rw [Nat.add_sub_cancel] at hk hg2
  rw [hk, tab_congr hg2, mapMList_ok _ unhomo]
  · rw [bind_ok, tab_map]
    have e1 : tab c.ControlPoints.length (fun i => unhomo (hpts c.ControlPoints i)) = c.ControlPoints := by
      conv_rhs => rw [eq_tab_pt c.ControlPoints]
      exact tab_congr fun i hi => unhomo_toHomo (hw.weights i hi).ne'
    rw [e1, show tab (U.length - 1) (dropU (kn U) (k + 1) 1) = c.Knots.Values from hrem]
    change Except.ok ((⟨(p : Int), ⟨c.Knots.Values⟩, c.ControlPoints⟩ : Curve K), (1 : Int)) = _
    rw [← hw.degree]
  · intro a ha
    unfold tab at ha
    obtain ⟨i, hi, rfl⟩ := List.mem_map.mp ha
    exact fromHomo_ok (hw.weights i (List.mem_range.mp hi)).ne'

/-- A rational curve; the value is a knot already. -/
example : (exCurve.InsertKnot (1/4)).bind (fun c => c.RemoveKnot id (1/4) 1 0) = .ok (exCurve, 1) := by decide +kernel
/-- The hypotheses of C32 on that case. -/
example : WFCurve 2 exCurve ∧ Separated exCurve.Knots.Values (1/4 : ℚ) ∧ exCurve.Knots.Values.count (1/4 : ℚ) ≤ 2 + 1 :=
  ⟨exCurve_wf, by unfold Separated; decide +kernel, by decide +kernel⟩

/-- The bound on the multiplicity in C32 is needed: with multiplicity `degree + 2` before the insertion the removal
writes in front of its temporary array. -/
theorem C32_high_multiplicity_refuted : ∃ c c' : Curve ℚ, WFCurve 2 c ∧ Separated c.Knots.Values (1/4) ∧
    c.Knots.Values.count (1/4) = 4 ∧ c.InsertKnot (1/4) = .ok c' ∧ 
    ∀ sqrt : ℚ → ℚ, sqrt 0 = 0 → (∀ x, 0 < x → 0 < sqrt x) → c'.RemoveKnot sqrt (1/4) 1 0 = .error .ub := by
  refine ⟨⟨2, ⟨[0, 0, 0, 1/4, 1/4, 1/4, 1/4, 1, 1, 1]⟩, [⟨0, 0, 0, 1⟩, ⟨1, 0, 0, 1⟩, ⟨2, 0, 0, 1⟩, ⟨3, 0, 0, 1⟩, ⟨4, 0, 0, 1⟩, ⟨5, 0, 0, 1⟩, ⟨6, 0, 0, 1⟩]⟩,
    ⟨2, ⟨[0, 0, 0, 1/4, 1/4, 1/4, 1/4, 1/4, 1, 1, 1]⟩, [⟨0, 0, 0, 1⟩, ⟨1, 0, 0, 1⟩, ⟨2, 0, 0, 1⟩, ⟨3, 0, 0, 1⟩, ⟨4, 0, 0, 1⟩, ⟨4, 0, 0, 1⟩, ⟨5, 0, 0, 1⟩, ⟨6, 0, 0, 1⟩]⟩,
    ⟨rfl, ⟨by decide +kernel, by decide +kernel, by decide +kernel, by decide +kernel,
    by decide +kernel, by decide +kernel⟩, rfl, by decide +kernel⟩, by unfold Separated; decide +kernel, by decide +kernel, by decide +kernel, ?_⟩
  intro sqrt h0 h
  rw [removeKnot_agree (sqrt' := id) h0 rfl h (fun _ h => h)]
  decide +kernel

/-- The homogeneous form of C33: an exact removal keeps every homogeneous segment. -/
theorem removeKnot_exact {p : ℕ} {c : Curve K} (hw : WFCurve p c) {u : K} (h0 : 0 < u) (h1 : u < 1)
    (hsep : Separated c.Knots.Values u) (hmul : c.Knots.Values.count u ≤ p + 1) {sqrt : K → K} (hsq : ∀ x, 0 < x → 0 < sqrt x)
    {times : ℕ} (htm : times ≤ c.Knots.Values.count u) {c' : Curve K} (h : c.RemoveKnot sqrt u times 0 = .ok (c', (times : Int))) :
    c'.Degree = c.Degree ∧ c.Knots.Values.Perm (List.replicate times u ++ c'.Knots.Values) ∧
      c'.ControlPoints.length + times = c.ControlPoints.length ∧ Clamped p c'.Knots.Values ∧
      ∀ x, 0 ≤ x → x ≤ 1 → ∀ a b, IsSpan c.Knots.Values x a → IsSpan c'.Knots.Values x b →
        seg (kn c'.Knots.Values) b x p (hpts c'.ControlPoints) = seg (kn c.Knots.Values) a x p (hpts c.ControlPoints) := by
  obtain ⟨⟨U⟩, hU⟩ : ∃ U, c.Knots = U := ⟨_, rfl⟩
  have hcnt := hw.count
  have hcl := hw.clamped
  rw [hU] at hsep hmul htm hcnt hcl ⊢
  simp only at hsep hmul htm hcnt hcl ⊢
  unfold Curve.RemoveKnot at h
  obtain ⟨_, _, h⟩ := bind_eq_ok.mp h
  obtain ⟨_, hpos, h⟩ := bind_eq_ok.mp h
  have hpos := massert_eq_ok.mp hpos
  obtain ⟨⟨kv', P', t'⟩, hk, h⟩ := bind_eq_ok.mp h
  obtain ⟨rfl, rfl⟩ := Prod.mk.inj (Except.ok.inj h)
  simp only
  rw [hU, hw.degree] at hk
  obtain ⟨r, hr, hr1, _⟩ := findSpanIndex_spec (kv := ⟨U⟩) hcl h0.le h1.le
  obtain ⟨s, hs⟩ : ∃ s, U.count u = s := ⟨_, rfl⟩
  rw [hs] at hmul htm
  have H : RemCtx U u p s r c.ControlPoints.length := remCtx_of hcl h0 h1 hr1 hcnt hs (by omega) (by omega)
  have hms : (⟨U⟩ : KnotVector K).GetMultiplicity u = s := by
    rw [(C12_getMultiplicity ⟨U⟩ u).2 hsep, hs]
  have hpr := H.pr
  have hrn := H.rn
  -- the loop
  have hloop : ∃ g F, removalLoop sqrt U u 0 ((p : Int) + 1) times (0 : ℕ) ((r : Int) - p - (0 : ℕ)) ((r : Int) - s + (0 : ℕ))
      (tab c.ControlPoints.length (hpts c.ControlPoints)) (tab (2 * p + 1) fun _ => 0) = .ok ((times : Int), tab c.ControlPoints.length g) ∧
      RemChain (kn U) u p s r (hpts c.ControlPoints) times F ∧ Lay p s r times g F := by
    have ep : c.ControlPoints.map ToHomo = tab c.ControlPoints.length (hpts c.ControlPoints) := by
      conv_lhs => rw [eq_tab_pt c.ControlPoints]
      rw [tab_map]; rfl
    have hk2 := hk
    unfold KnotRemoval at hk2
    simp only at hk2
    rw [hr, bind_ok, calcTOL_zero, bind_ok, vnew_of _ (2 * p + 1) _ (by push_cast; rfl), bind_ok, hms, ep, replicate_eq_tab, Int.toNat_natCast] at hk2
    obtain ⟨⟨t1, pts⟩, hl, hk2⟩ := bind_eq_ok.mp hk2
    have hl' : removalLoop sqrt U u 0 ((p : Int) + 1) times (0 : ℕ) ((r : Int) - p - (0 : ℕ)) ((r : Int) - s + (0 : ℕ))
      (tab c.ControlPoints.length (hpts c.ControlPoints)) (tab (2 * p + 1) fun _ => 0) = .ok (t1, pts) := by
      simpa only [Nat.cast_zero, sub_zero, add_zero] using hl
    obtain ⟨a, g, F, rfl, _, rfl, h4, h5⟩ := loop_exact H sqrt hsq hmul (hpts c.ControlPoints) times 0 _ _ _ (by omega) RemChain.zero
      (lay_zero p s r _) t1 pts hl'
    have : (a : Int) = times := by
      simp only at hk2
      split_ifs at hk2 with h0
      · have := (Prod.mk.inj (Prod.mk.inj (Except.ok.inj hk2)).2).2; omega
      · obtain ⟨_, _, hk2⟩ := bind_eq_ok.mp hk2
        obtain ⟨_, _, hk2⟩ := bind_eq_ok.mp hk2
        obtain ⟨_, _, hk2⟩ := bind_eq_ok.mp hk2
        obtain ⟨_, _, hk2⟩ := bind_eq_ok.mp hk2
        obtain ⟨_, _, hk2⟩ := bind_eq_ok.mp hk2
        obtain ⟨_, _, hk2⟩ := bind_eq_ok.mp hk2
        exact (Prod.mk.inj (Prod.mk.inj (Except.ok.inj hk2)).2).2
    obtain rfl : a = times := by omega
    exact ⟨g, F, hl', h4, h5⟩
  obtain ⟨g, F, hl, hch, hlay⟩ := hloop
  have htp : 1 ≤ times := by omega
  rw [knotRemoval_some H sqrt c.ControlPoints rfl 0 0 times times htp le_rfl htm hms hr (calcTOL_zero _ _) g hl,
    tab_congr (compact_lay H htp htm hmul hlay)] at hk
  obtain ⟨q, hq, hk⟩ := bind_eq_ok.mp hk
  obtain ⟨rfl, h'⟩ := Prod.mk.inj (Except.ok.inj hk)
  obtain ⟨rfl, _⟩ := Prod.mk.inj h'
  obtain ⟨hq1, hq2⟩ := mapM_fromHomo hq
  rw [tab_map] at hq1
  subst hq1
  refine ⟨trivial, ?_, ?_, remL_clamped H hcl htm, ?_⟩
  · have key : ∀ t, t ≤ times → U.Perm (List.replicate t u ++ remL U r t) := by
      intro t
      induction t with
      | zero => intro _; rw [remL_zero]; exact List.Perm.refl _
      | succ t ih =>
        intro ht
        refine (ih (by omega)).trans ?_
        rw [← insL_remL H (show t < s by omega), List.replicate_succ', List.append_assoc]
        exact (insL_perm _ _ _).append_left _
    exact key times le_rfl
  · rw [tab_length]; omega
  · intro x hx0 hx1 a b ha hb
    have hcl' := remL_clamped H hcl htm
    obtain ⟨a', ha', hpa, hla⟩ := exists_span hcl hx0 hx1
    obtain rfl : a = a' := isSpan_unique hcl.sorted ha ha' (fun i hi => hcl.le_one hi)
    obtain ⟨b', hb', hpb, hlb⟩ := exists_span hcl' hx0 hx1
    obtain rfl : b = b' := isSpan_unique hcl'.sorted hb hb' (fun i hi => hcl'.le_one hi)
    rw [seg_eq_blos _ _ _ _ _ hpa, seg_eq_blos _ _ _ _ _ hpb, ← chain_polar H hcl h0 h1 hmul hch htm x hx0 hx1 a b ha hb _ (by simp)]
    apply blos_congr _ _ _ _ _ (by simpa using hpb)
    intro i hi1 hi2
    rw [remL_length] at hlb
    unfold hpts
    rw [pt_tab _ _ _ (by omega)]
    exact toHomo_unhomo (hq2 _ (by unfold tab; exact List.mem_map.mpr ⟨i, List.mem_range.mpr (by omega), rfl⟩))

/-- C33.  If `RemoveKnot(u, times, 0)` returns `times`, with `times` at most the multiplicity of `u` (itself at most
`degree + 1`), then the result has `times` copies of `u` fewer, `times` control points fewer, and the same points. -/
theorem C33_exact_removal {p : ℕ} {c : Curve K} (hw : WFCurve p c) {u : K} (h0 : 0 < u) (h1 : u < 1)
    (hsep : Separated c.Knots.Values u) (hmul : c.Knots.Values.count u ≤ p + 1) {sqrt : K → K} (hsq : ∀ x, 0 < x → 0 < sqrt x)
    {times : ℕ} (htm : times ≤ c.Knots.Values.count u) {c' : Curve K} (h : c.RemoveKnot sqrt u times 0 = .ok (c', (times : Int))) :
    c'.Degree = c.Degree ∧ c.Knots.Values.Perm (List.replicate times u ++ c'.Knots.Values) ∧
      c'.ControlPoints.length + times = c.ControlPoints.length ∧
      ∀ x, 0 ≤ x → x ≤ 1 → ∃ C, c.Evaluate x = .ok C ∧ c'.Evaluate x = .ok C := by
  obtain ⟨hd, hperm, hlen, hcl, hseg⟩ := removeKnot_exact hw h0 h1 hsep hmul hsq htm h
  refine ⟨hd, hperm, hlen, ?_⟩
  intro x hx0 hx1
  obtain ⟨a, ha, _, _⟩ := exists_span hw.clamped hx0 hx1
  obtain ⟨b, hb, _, _⟩ := exists_span hcl hx0 hx1
  obtain ⟨_, _, _, hpos, A⟩ := evaluate_seg hw hx0 hx1 ha
  have hl := hperm.length_eq
  have hcnt := hw.count
  rw [List.length_append, List.length_replicate] at hl
  obtain ⟨_, _, _, B⟩ := evaluate_at_span (c := c') (hd.trans hw.degree) hcl (by omega) hx0 hx1 hb
  exact ⟨_, A, by rw [B, hseg x hx0 hx1 a b ha hb, projectM_ok hpos.ne']⟩

/-- Two exact removals on a rational curve. -/
example : ∃ c c' : Curve ℚ, WFCurve 2 c ∧ c.Knots.Values.count (1/4) = 3 ∧ c.RemoveKnot id (1/4) 2 0 = .ok (c', 2) ∧ c' = exCurve := by
  refine ⟨⟨2, ⟨[0, 0, 0, 1/4, 1/4, 1/4, 1/2, 1/2, 1, 1, 1]⟩, [⟨0, 0, 0, 1⟩, ⟨1, 2, 0, 1/2⟩, ⟨13/7, 2/7, 6/7, 7/4⟩, ⟨13/7, 2/7, 6/7, 7/4⟩,
    ⟨2, 0, 1, 3⟩, ⟨3, 1, 1, 1⟩, ⟨4, 4, 0, 2⟩, ⟨5, 0, 2, 1⟩]⟩, exCurve, ⟨rfl, ⟨by decide +kernel, by decide +kernel, by decide +kernel, by decide +kernel,
    by decide +kernel, by decide +kernel⟩, rfl, by decide +kernel⟩, ?_, ?_, rfl⟩ <;> decide +kernel

/-! ## C34 -/

/-- C34 is false: a failed removal leaves the points of a rational curve multiplied by their weights, whatever
positive definite function computes the square root. -/
theorem C34_failed_removal_refuted : ∃ c c' : Curve ℚ, WFCurve 2 c ∧ c' ≠ c ∧
    ∀ sqrt : ℚ → ℚ, sqrt 0 = 0 → (∀ x, 0 < x → 0 < sqrt x) → c.RemoveKnot sqrt (1/4) 1 0 = .ok (c', 0) := by
  refine ⟨exCurve, ⟨2, exCurve.Knots, [⟨0, 0, 0, 1⟩, ⟨1/2, 1, 0, 1/2⟩, ⟨6, 0, 3, 3⟩, ⟨3, 1, 1, 1⟩, ⟨8, 8, 0, 2⟩, ⟨5, 0, 2, 1⟩]⟩, exCurve_wf,
    by decide +kernel, ?_⟩
  intro sqrt h0 h
  rw [removeKnot_agree (sqrt' := id) h0 rfl h (fun _ h => h)]
  decide +kernel

/-- What remains true of C34, for every curve, value, tolerance and square root function: a removal that returns 0
leaves degree and knots alone and multiplies every control point by its weight; so the curve is unchanged if all
weights are 1.  Missing: rational curves, see `C34_failed_removal_refuted`. -/
theorem C34_failed_removal_partial {sqrt : K → K} {c c' : Curve K} {u eps : K} {times : Int} (h : c.RemoveKnot sqrt u times eps = .ok (c', 0)) :
    c'.Degree = c.Degree ∧ c'.Knots = c.Knots ∧
    c'.ControlPoints = c.ControlPoints.map (fun q => ⟨q.x * q.w, q.y * q.w, q.z * q.w, q.w⟩) ∧
    ((∀ q ∈ c.ControlPoints, q.w = 1) → c' = c) := by
  unfold Curve.RemoveKnot at h
  obtain ⟨_, _, h⟩ := bind_eq_ok.mp h
  obtain ⟨_, _, h⟩ := bind_eq_ok.mp h
  obtain ⟨⟨kv', P', t'⟩, hk, h⟩ := bind_eq_ok.mp h
  obtain ⟨rfl, rfl⟩ := Prod.mk.inj (Except.ok.inj h)
  obtain ⟨_, _, h3, _⟩ := knotRemoval_counts _ _ _ _ _ _ _ _ _ _ hk
  obtain ⟨rfl, rfl⟩ := h3 rfl
  have e : c.ControlPoints.map ToHomo = c.ControlPoints.map (fun q => (⟨q.x * q.w, q.y * q.w, q.z * q.w, q.w⟩ : Vec4 K)) := rfl
  refine ⟨rfl, rfl, e, fun h => ?_⟩
  obtain ⟨d, kk, P⟩ := c
  simp only at h ⊢
  congr 1
  conv_rhs => rw [← List.map_id P]
  apply List.map_congr_left
  intro q hq
  have := h q hq
  ext <;> simp [ToHomo, this]

/-- A removal that fails on a polynomial curve. -/
example : (⟨2, exCurve.Knots, exCurve.ControlPoints.map fun q => ⟨q.x, q.y, q.z, 1⟩⟩ : Curve ℚ).RemoveKnot id (1/4) 1 0 =
    .ok (⟨2, exCurve.Knots, exCurve.ControlPoints.map fun q => ⟨q.x, q.y, q.z, 1⟩⟩, 0) := by decide +kernel

/-! ## C35 -/

/-- C35 is false: here one of two removals succeeds but two knots and two control points disappear, so that the curve
changes. -/
theorem C35_partial_success_refuted : ∃ c c' : Curve ℚ, WFCurve 2 c ∧ c.Knots.Values.count (1/4) = 2 ∧
    c'.Knots.Values.length + 2 = c.Knots.Values.length ∧ c'.ControlPoints.length + 2 = c.ControlPoints.length ∧
    c'.Evaluate 1 ≠ c.Evaluate 1 ∧
    ∀ sqrt : ℚ → ℚ, sqrt 0 = 0 → (∀ x, 0 < x → 0 < sqrt x) → c.RemoveKnot sqrt (1/4) 2 0 = .ok (c', 1) := by
  refine ⟨⟨2, ⟨[0, 0, 0, 1/4, 1/4, 1/2, 1/2, 1, 1, 1]⟩, [⟨0, 0, 0, 1⟩, ⟨1, 2, 0, 1/2⟩, ⟨13/7, 2/7, 6/7, 7/4⟩,
    ⟨2, 0, 1, 3⟩, ⟨3, 1, 1, 1⟩, ⟨4, 4, 0, 2⟩, ⟨5, 0, 2, 1⟩]⟩, ⟨2, ⟨[0, 0, 0, 1/2, 1/2, 1, 1, 1]⟩, [⟨0, 0, 0, 1⟩, ⟨1, 2, 0, 1/2⟩,
    ⟨2, 0, 1, 3⟩, ⟨3, 1, 1, 1⟩, ⟨4, 4, 0, 2⟩]⟩, ⟨rfl, ⟨by decide +kernel, by decide +kernel, by decide +kernel, by decide +kernel,
    by decide +kernel, by decide +kernel⟩, rfl, by decide +kernel⟩, by decide +kernel, by decide +kernel, by decide +kernel, by decide +kernel, ?_⟩
  intro sqrt h0 h
  rw [removeKnot_agree (sqrt' := id) h0 rfl h (fun _ h => h)]
  decide +kernel

/-- What is true of C35, for every input: the count `t` is between 0 and `times`; with `t = 0` knots and number of
points are unchanged; otherwise exactly `times` (not `t`) knots and control points disappear.  So the claim holds for
`t = 0` and `t = times` and fails for every other `t`. -/
theorem C35_counts_partial {sqrt : K → K} {c c' : Curve K} {u eps : K} {times t : Int} (h : c.RemoveKnot sqrt u times eps = .ok (c', t)) :
    0 ≤ t ∧ t ≤ times ∧
    (t = 0 → c'.Knots = c.Knots ∧ c'.ControlPoints.length = c.ControlPoints.length) ∧
    (t ≠ 0 → (c'.Knots.Values.length : Int) = c.Knots.Values.length - times ∧
      (c'.ControlPoints.length : Int) = c.ControlPoints.length - times) := by
  unfold Curve.RemoveKnot at h
  obtain ⟨_, _, h⟩ := bind_eq_ok.mp h
  obtain ⟨_, hpos, h⟩ := bind_eq_ok.mp h
  have hpos := massert_eq_ok.mp hpos
  obtain ⟨⟨kv', P', t'⟩, hk, h⟩ := bind_eq_ok.mp h
  obtain ⟨rfl, rfl⟩ := Prod.mk.inj (Except.ok.inj h)
  obtain ⟨h1, h2, h3, h4⟩ := knotRemoval_counts _ _ _ _ _ _ _ _ _ _ hk
  refine ⟨h1, by omega, fun h0 => ?_, fun h0 => (h4 h0).symm⟩
  obtain ⟨a, b⟩ := h3 h0
  exact ⟨a, by simp only; rw [b, List.length_map]⟩

/-! ## C61 -/

/-- C61.  For `1 ≤ times ≤ multiplicity ≤ degree` removal never reads or writes outside its arrays, for every tolerance
≥ 0 and every `sqrt`: it returns a curve, or a new control point gets weight zero and the final division is not
finite. -/
theorem C61_removal_in_bounds {p : ℕ} {c : Curve K} (hw : WFCurve p c) {u : K} (h0 : 0 < u) (h1 : u < 1)
    (hsep : Separated c.Knots.Values u) (hmul : c.Knots.Values.count u ≤ p) (sqrt : K → K) {eps : K} (he : 0 ≤ eps)
    {times : ℕ} (ht : 1 ≤ times) (htm : times ≤ c.Knots.Values.count u) :
    (∃ c' t, c.RemoveKnot sqrt u times eps = .ok (c', t)) ∨ c.RemoveKnot sqrt u times eps = .error .nonfinite := by
  obtain ⟨⟨U⟩, hU⟩ : ∃ U, c.Knots = U := ⟨_, rfl⟩
  have hcnt := hw.count
  have hcl := hw.clamped
  rw [hU] at hsep hmul htm hcnt hcl
  simp only at hsep hmul htm hcnt hcl
  obtain ⟨r, hr, hr1, _⟩ := findSpanIndex_spec (kv := ⟨U⟩) hcl h0.le h1.le
  obtain ⟨s, hs⟩ : ∃ s, U.count u = s := ⟨_, rfl⟩
  rw [hs] at hmul htm
  have H : RemCtx U u p s r c.ControlPoints.length := remCtx_of hcl h0 h1 hr1 hcnt hs (by omega) (by omega)
  have hms : (⟨U⟩ : KnotVector K).GetMultiplicity u = s := by
    rw [(C12_getMultiplicity ⟨U⟩ u).2 hsep, hs]
  obtain ⟨tol, ht1, _, _⟩ := calcTOL_ok sqrt (c.ControlPoints.map ToHomo) eps he (by
    intro a ha
    obtain ⟨b, hb, rfl⟩ := List.mem_map.mp ha
    obtain ⟨i, hi, rfl⟩ := List.getElem_of_mem hb
    have := hw.weights i hi
    simpa [pt, hi] using this)
  obtain ⟨a, g, b1, _, b3, b4⟩ := loop_total H sqrt tol hmul times 0 (hpts c.ControlPoints) (fun _ => 0) (by omega)
  unfold Curve.RemoveKnot
  rw [massert_true ⟨h0, h1⟩, bind_ok, massert_true (by omega), bind_ok, hU, hw.degree]
  by_cases ha : a = 0
  · subst ha
    rw [knotRemoval_none H sqrt c.ControlPoints rfl eps tol times hms hr ht1 _ (by rw [Int.toNat_natCast]; exact b4)]
    exact Or.inl ⟨_, _, rfl⟩
  · rw [knotRemoval_some H sqrt c.ControlPoints rfl eps tol times a (by omega) (by omega) htm hms hr ht1 g b4]
    rcases mapM_fromHomo_total (tab (c.ControlPoints.length - times) (fun y => if y < (2 * r - s - p) / 2 - (a - 1) / 2 then g y else
        if y < c.ControlPoints.length - a then g (y + a) else g y)) with ⟨l', h⟩ | h
    · rw [h]; exact Or.inl ⟨_, _, rfl⟩
    · rw [h]; exact Or.inr rfl

/-- The double knot of the example. -/
example : WFCurve 2 exCurve ∧ Separated exCurve.Knots.Values (1/2 : ℚ) ∧ exCurve.Knots.Values.count (1/2 : ℚ) = 2 ∧
    ((exCurve.RemoveKnot id (1/2) 2 100000).map fun r => (r.1.ControlPoints.length, r.2)) = .ok (4, 2) :=
  ⟨exCurve_wf, by unfold Separated; decide +kernel, by decide +kernel, by decide +kernel⟩

/-- Outside the bounds of C61 the arrays are left: removing a knot of multiplicity `degree + 1` completely, or a value
that is not a knot and lies in the first span. -/
theorem C61_bounds_needed : (∃ c : Curve ℚ, WFCurve 2 c ∧ c.Knots.Values.count (1/4) = 3 ∧ c.RemoveKnot id (1/4) 3 0 = .error .ub) ∧
    exCurve.RemoveKnot id (1/8) 1 0 = .error .ub := by
  refine ⟨⟨⟨2, ⟨[0, 0, 0, 1/4, 1/4, 1/4, 1/2, 1/2, 1, 1, 1]⟩, [⟨0, 0, 0, 1⟩, ⟨1, 2, 0, 1⟩, ⟨1, 2, 0, 1⟩, ⟨1, 2, 0, 1⟩,
    ⟨1, 2, 0, 1⟩, ⟨3, 1, 1, 1⟩, ⟨4, 4, 0, 2⟩, ⟨5, 0, 2, 1⟩]⟩, ⟨rfl, ⟨by decide +kernel, by decide +kernel, by decide +kernel, by decide +kernel,
    by decide +kernel, by decide +kernel⟩, rfl, by decide +kernel⟩, by decide +kernel, ?_⟩, ?_⟩ <;> decide +kernel

end Nurbs.Props
