import Verif.Proof.Removal4

/-! # Facts about knot removal that hold for every input -/

set_option linter.unusedSectionVars false

namespace Nurbs
open Nurbs.Spec KnotRemovalImpl

variable {K : Type} [Field K] [LinearOrder K] [IsStrictOrderedRing K]

theorem vset_length {α : Type} {l l' : List α} {i : Int} {a : α} (h : vset l i a = .ok l') : l'.length = l.length := by
  unfold vset at h
  split_ifs at h
  · rw [← Except.ok.inj h]; simp

theorem vresize_length {α : Type} {l l' : List α} {i : Int} {a : α} (h : vresize l i a = .ok l') : (l'.length : Int) = i := by
  unfold vresize at h
  split_ifs at h with hi
  · rw [← Except.ok.inj h]
    simp only [List.length_append, List.length_take, List.length_replicate]
    omega

theorem mapMList_length {α β : Type} (f : α → M β) : ∀ (l : List α) (l' : List β), mapMList f l = .ok l' → l'.length = l.length := by
  intro l
  induction l with
  | nil => intro l' h; rw [← Except.ok.inj h]; rfl
  | cons a l ih =>
    intro l' h
    rw [mapMList, bind_eq_ok] at h
    obtain ⟨b, _, h⟩ := h
    rw [bind_eq_ok] at h
    obtain ⟨bs, hbs, h⟩ := h
    rw [← Except.ok.inj h, List.length_cons, List.length_cons, ih bs hbs]

theorem whileM_part {σ : Type} (P : σ → Prop) (cond : σ → M Bool) (body : σ → M σ) (hb : ∀ s s', P s → body s = .ok s' → P s') :
    ∀ (fuel : ℕ) (s s' : σ), P s → whileM fuel cond body s = .ok s' → P s' := by
  intro fuel
  induction fuel with
  | zero => intro s s' _ h; simp [whileM] at h
  | succ n ih =>
    intro s s' hs h
    rw [whileM, bind_eq_ok] at h
    obtain ⟨b, _, h⟩ := h
    cases b with
    | true =>
      simp only [if_true] at h
      rw [bind_eq_ok] at h
      obtain ⟨s1, h1, h⟩ := h
      exact ih s1 s' (hb s s1 hs h1) h
    | false =>
      simp only [Bool.false_eq_true, if_false] at h
      rw [← Except.ok.inj h]; exact hs

theorem copyBody_length {temp : List (Vec4 K)} {off : Int} {s s' : Int × Int × List (Vec4 K)} (h : copyBody temp off s = .ok s') :
    s'.2.2.length = s.2.2.length := by
  obtain ⟨i, j, pts⟩ := s
  simp only [copyBody] at h
  obtain ⟨a, _, h⟩ := bind_eq_ok.mp h
  obtain ⟨p1, h1, h⟩ := bind_eq_ok.mp h
  obtain ⟨b, _, h⟩ := bind_eq_ok.mp h
  obtain ⟨p2, h2, h⟩ := bind_eq_ok.mp h
  rw [← Except.ok.inj h]
  simp only
  rw [vset_length h2, vset_length h1]

/-- The loop returns the number of completed rounds; it keeps the number of points, and the points themselves
if no round was completed. -/
theorem removalLoop_part (sqrt : K → K) (U : List K) (u tol : K) (order : Int) :
    ∀ (m : ℕ) (t first last : Int) (pts temp : List (Vec4 K)) (t' : Int) (pts' : List (Vec4 K)),
      removalLoop sqrt U u tol order m t first last pts temp = .ok (t', pts') →
      t ≤ t' ∧ t' ≤ t + m ∧ pts'.length = pts.length ∧ (t' = t → pts' = pts) := by
  intro m
  induction m with
  | zero =>
    intro t first last pts temp t' pts' h
    obtain ⟨rfl, rfl⟩ := Prod.mk.inj (Except.ok.inj h)
    exact ⟨le_rfl, by simp, rfl, fun _ => rfl⟩
  | succ m ih =>
    intro t first last pts temp t' pts' h
    rw [removalLoop] at h
    simp only at h
    obtain ⟨_, _, h⟩ := bind_eq_ok.mp h
    obtain ⟨_, _, h⟩ := bind_eq_ok.mp h
    obtain ⟨_, _, h⟩ := bind_eq_ok.mp h
    obtain ⟨_, _, h⟩ := bind_eq_ok.mp h
    obtain ⟨_, _, h⟩ := bind_eq_ok.mp h
    obtain ⟨_, _, h⟩ := bind_eq_ok.mp h
    split_ifs at h
    · obtain ⟨rfl, rfl⟩ := Prod.mk.inj (Except.ok.inj h)
      exact ⟨le_rfl, by omega, rfl, fun _ => rfl⟩
    · obtain ⟨⟨i, j, q⟩, hq, h⟩ := bind_eq_ok.mp h
      have hl := whileM_part (fun s : Int × Int × List (Vec4 K) => s.2.2.length = pts.length) _ _
        (fun s s' hs hb => (copyBody_length hb).trans hs) _ _ _ rfl hq
      obtain ⟨a, b, c, d⟩ := ih _ _ _ _ _ _ _ h
      refine ⟨by omega, by push_cast; omega, c.trans hl, fun e => by omega⟩

theorem forLe_length {α : Type} (lo hi : Int) (f : Int → List α → M (List α)) (hf : ∀ i l l', f i l = .ok l' → l'.length = l.length)
    {l l' : List α} (h : forLe lo hi f l = .ok l') : l'.length = l.length :=
  forUp_part f (fun _ s => s.length = l.length) _ lo l l' rfl h (fun _ _ _ _ hs hb => (hf _ _ _ hb).trans hs)

/-- Counts after `KnotRemoval`, for every input. -/
theorem knotRemoval_counts (sqrt : K → K) (kv : KnotVector K) (P : List (Vec4 K)) (degree : Int) (u : K) (times : Int) (eps : K)
    (kv' : KnotVector K) (P' : List (Vec4 K)) (t : Int) (h : KnotRemoval sqrt kv P degree u times eps = .ok (kv', P', t)) :
    0 ≤ t ∧ t ≤ times.toNat ∧ (t = 0 → kv' = kv ∧ P' = P.map ToHomo) ∧
    (t ≠ 0 → (P'.length : Int) = P.length - times ∧ (kv'.Values.length : Int) = kv.Values.length - times) := by
  unfold KnotRemoval at h
  simp only at h
  obtain ⟨r, _, h⟩ := bind_eq_ok.mp h
  obtain ⟨tol, _, h⟩ := bind_eq_ok.mp h
  obtain ⟨temp, _, h⟩ := bind_eq_ok.mp h
  obtain ⟨⟨t1, pts⟩, hl, h⟩ := bind_eq_ok.mp h
  obtain ⟨a1, a2, a3, a4⟩ := removalLoop_part _ _ _ _ _ _ _ _ _ _ _ _ _ hl
  simp only at h
  split_ifs at h with h0
  · obtain ⟨rfl, h'⟩ := Prod.mk.inj (Except.ok.inj h)
    obtain ⟨rfl, rfl⟩ := Prod.mk.inj h'
    exact ⟨a1, by omega, fun e => ⟨rfl, a4 e⟩, fun e => absurd h0 e⟩
  · obtain ⟨⟨i, j⟩, _, h⟩ := bind_eq_ok.mp h
    simp only at h
    obtain ⟨⟨q, z⟩, hq, h⟩ := bind_eq_ok.mp h
    have hq' : q.length = pts.length := forUp_part _ (fun _ (s : List (Vec4 K) × Int) => s.1.length = pts.length) _ _ _ (q, z) rfl hq (by
      intro k _ s s' hs hb
      obtain ⟨x, _, hb⟩ := bind_eq_ok.mp hb
      obtain ⟨y, hy, hb⟩ := bind_eq_ok.mp hb
      rw [← Except.ok.inj hb]
      exact (vset_length hy).trans hs)
    simp only at h
    obtain ⟨q2, hq2, h⟩ := bind_eq_ok.mp h
    obtain ⟨k1, hk1, h⟩ := bind_eq_ok.mp h
    obtain ⟨k2, hk2, h⟩ := bind_eq_ok.mp h
    obtain ⟨q3, hq3, h⟩ := bind_eq_ok.mp h
    obtain ⟨rfl, h'⟩ := Prod.mk.inj (Except.ok.inj h)
    obtain ⟨rfl, rfl⟩ := Prod.mk.inj h'
    have e1 := vresize_length hq2
    have e2 := mapMList_length _ _ _ hq3
    have e3 := vresize_length hk2
    have e4 := forLe_length _ _ _ (fun i l l' hb => by
      obtain ⟨x, _, hb⟩ := bind_eq_ok.mp hb
      exact vset_length hb) hk1
    rw [List.length_map] at a3
    refine ⟨a1, by omega, fun e => absurd e h0, fun _ => ⟨by omega, ?_⟩⟩
    simp only
    omega

theorem mapM_fromHomo {l l' : List (Vec4 K)} (h : mapMList FromHomo l = .ok l') : l' = l.map unhomo ∧ ∀ a ∈ l, a.w ≠ 0 := by
  induction l generalizing l' with
  | nil => exact ⟨(Except.ok.inj h).symm, by simp⟩
  | cons a l ih =>
    rw [mapMList] at h
    obtain ⟨b, hb, h⟩ := bind_eq_ok.mp h
    obtain ⟨bs, hbs, h⟩ := bind_eq_ok.mp h
    obtain ⟨i1, i2⟩ := ih hbs
    have hw : a.w ≠ 0 := by
      intro hw
      simp [FromHomo, fdiv, hw] at hb
    rw [fromHomo_ok hw] at hb
    refine ⟨?_, by simpa using ⟨hw, i2⟩⟩
    rw [← Except.ok.inj h, ← Except.ok.inj hb, i1]; rfl

theorem mapM_fromHomo_total (l : List (Vec4 K)) : (∃ l', mapMList FromHomo l = .ok l') ∨ mapMList FromHomo l = .error .nonfinite := by
  induction l with
  | nil => exact Or.inl ⟨[], rfl⟩
  | cons a l ih =>
    rw [mapMList]
    by_cases hw : a.w = 0
    · right; simp [FromHomo, fdiv, hw]
    · rw [fromHomo_ok hw, bind_ok]
      rcases ih with ⟨l', h⟩ | h
      · left; rw [h]; exact ⟨_, rfl⟩
      · right; rw [h]; rfl

/-! ### with tolerance 0 only the zero test of the norm matters -/

theorem removalDist_agree (sqrt sqrt' : K → K) (U : List K) (pts : List (Vec4 K)) (u : K) (order t : Int) (s : SolveState K) :
    (∃ e, removalDist sqrt U pts u order t s = .error e ∧ removalDist sqrt' U pts u order t s = .error e) ∨
    ∃ v : Vec4 K, removalDist sqrt U pts u order t s = .ok (v.norm sqrt) ∧ removalDist sqrt' U pts u order t s = .ok (v.norm sqrt') := by
  have key : ∃ m : M (Vec4 K), ∀ sqrt : K → K, removalDist sqrt U pts u order t s = m >>= fun v => .ok (v.norm sqrt) := by
    unfold removalDist
    by_cases h : s.j - s.i < t
    · refine ⟨do return ((← vget s.temp (s.ii - 1)) - (← vget s.temp (s.jj + 1))), fun sqrt => ?_⟩
      rw [if_pos h]
      cases vget s.temp (s.ii - 1) <;> simp only [bind_ok, bind_error]
      cases vget s.temp (s.jj + 1) <;> rfl
    · refine ⟨do
        let alphai ← fdiv (u - (← vget U s.i)) ((← vget U (s.i + order + t)) - (← vget U s.i))
        return ((alphai • (← vget s.temp (s.ii + t + 1)) + (1 - alphai) • (← vget s.temp (s.ii - 1))) - (← vget pts s.i)), fun sqrt => ?_⟩
      rw [if_neg h]
      cases vget U s.i <;> simp only [bind_ok, bind_error]
      cases vget U (s.i + order + t) <;> simp only [bind_ok, bind_error]
      cases fdiv (u - _) (_ - _) <;> simp only [bind_ok, bind_error]
      cases vget s.temp (s.ii + t + 1) <;> simp only [bind_ok, bind_error]
      cases vget s.temp (s.ii - 1) <;> simp only [bind_ok, bind_error]
      cases vget pts s.i <;> rfl
  obtain ⟨m, hm⟩ := key
  rw [hm, hm]
  cases m with
  | error e => exact Or.inl ⟨e, rfl, rfl⟩
  | ok v => exact Or.inr ⟨v, rfl, rfl⟩

theorem removalLoop_agree {sqrt sqrt' : K → K} (h : ∀ v : Vec4 K, v.norm sqrt > 0 ↔ v.norm sqrt' > 0) (U : List K) (u : K) (order : Int) :
    ∀ (m : ℕ) (t first last : Int) (pts temp : List (Vec4 K)),
      removalLoop sqrt U u 0 order m t first last pts temp = removalLoop sqrt' U u 0 order m t first last pts temp := by
  intro m
  induction m with
  | zero => intros; rfl
  | succ m ih =>
    intro t first last pts temp
    rw [removalLoop, removalLoop]
    simp only
    refine bind_congr fun _ => ?_
    refine bind_congr fun _ => ?_
    refine bind_congr fun _ => ?_
    refine bind_congr fun _ => ?_
    refine bind_congr fun s => ?_
    rcases removalDist_agree sqrt sqrt' U pts u order t s with ⟨e, h1, h2⟩ | ⟨v, h1, h2⟩
    · rw [h1, h2]; rfl
    · rw [h1, h2, bind_ok, bind_ok]
      by_cases hv : v.norm sqrt > 0
      · rw [if_pos hv, if_pos ((h v).mp hv)]
      · rw [if_neg hv, if_neg (fun h' => hv ((h v).mpr h'))]
        exact bind_congr fun q => ih _ _ _ _ _

theorem calcTOL_zero (sqrt : K → K) (pts : List (Vec4 K)) : CalcTOL sqrt pts 0 = .ok 0 := by
  unfold CalcTOL
  suffices h : ∀ (l : List (Vec4 K)) (s : K × K), 0 ≤ s.2 →
      0 ≤ (l.foldl (fun (s : K × K) point => (min s.1 point.w, max s.2 (point.head3.norm sqrt))) s).2 by
    have h2 := h pts ((1000000000000 : K), 0) le_rfl
    have h3 : (0 : K) < 1 + (pts.foldl (fun (s : K × K) point => (min s.1 point.w, max s.2 (point.head3.norm sqrt))) ((1000000000000 : K), 0)).2 := by linarith
    refine (fdiv_ok h3.ne').trans ?_
    rw [zero_mul, zero_div]
  intro l
  induction l with
  | nil => intro s h2; exact h2
  | cons a l ih => intro s h2; rw [List.foldl_cons]; exact ih _ (le_max_of_le_left h2)

/-- With tolerance 0 the outcome does not depend on which positive definite function is used as square root. -/
theorem removeKnot_agree {sqrt sqrt' : K → K} (h0 : sqrt 0 = 0) (h0' : sqrt' 0 = 0) (h : ∀ x, 0 < x → 0 < sqrt x)
    (h' : ∀ x, 0 < x → 0 < sqrt' x) (c : Curve K) (u : K) (times : Int) : c.RemoveKnot sqrt u times 0 = c.RemoveKnot sqrt' u times 0 := by
  have hn : ∀ v : Vec4 K, v.norm sqrt > 0 ↔ v.norm sqrt' > 0 := by
    intro v
    by_cases hv : v = 0
    · subst hv; rw [Vec4.norm_zero h0, Vec4.norm_zero h0']
    · have a : v.norm sqrt > 0 := by by_contra hc; exact hv (Vec4.eq_zero_of_norm h (not_lt.mp hc))
      have b : v.norm sqrt' > 0 := by by_contra hc; exact hv (Vec4.eq_zero_of_norm h' (not_lt.mp hc))
      exact ⟨fun _ => b, fun _ => a⟩
  unfold Curve.RemoveKnot KnotRemoval
  simp only
  rw [calcTOL_zero, calcTOL_zero]
  simp only [bind_ok, removalLoop_agree hn]

end Nurbs
