import Verif.Proof.AnyDeriv
import Verif.Proof.ElevTable
import Verif.Proof.Bezier
import Verif.Proof.Removal3
import Verif.Proof.RoundedInsert

/-! # Degree elevation of a Bezier curve in any arithmetic -/

set_option linter.unusedSectionVars false

namespace Nurbs
open Nurbs.Spec DegreeAlgo

variable {K : Type} [Zero K] [One K] [Add K] [Sub K] [Mul K] [Div K] [Neg K] [NatCast K] [IntCast K] [LinearOrder K]

/-- The coefficient computed by the division and the two products. -/
def bezF (K : Type) [One K] [Mul K] [Div K] [IntCast K] (p t i j : ℕ) : K :=
  1 / (((p + t).choose i : Int) : K) * ((p.choose j : Int) : K) * ((t.choose (i - j) : Int) : K)

/-- The table of coefficients as it is computed. -/
def bezG (K : Type) [Zero K] [One K] [Mul K] [Div K] [IntCast K] (p t i j : ℕ) : K :=
  if j + t < i ∨ i < j ∨ p < j then 0 else if i = 0 ∨ i = p + t then 1
  else if i ≤ (p + t) / 2 then bezF K p t i j else bezF K p t (p + t - i) (p - j)

theorem makeBezalfs_any {p t : ℕ} (ht : 1 ≤ t) (h29 : p + t ≤ 29)
    (hne : ∀ i, 1 ≤ i → i ≤ (p + t) / 2 → (((p + t).choose i : Int) : K) ≠ 0) :
    makeBezalfs (K := K) p t = .ok (tab (p + t + 1) fun i => tab (p + 1) fun j => bezG K p t i j) := by
  refine makeBezalfs_gen ht h29 (bezG K p t) ?_ ?_ ?_ ?_ hne ?_
  · intro i j h
    unfold bezG
    rw [if_pos h]
  · unfold bezG
    rw [if_neg (by omega), if_pos (by omega)]
  · unfold bezG
    rw [if_neg (by omega), if_pos (by omega)]
  · intro i j h1 h2 h3
    by_cases h : j + t < i ∨ i < j ∨ p < j
    · unfold bezG
      rw [if_pos h, if_pos (by omega)]
    · have e1 : bezG K p t i j = bezF K p t (p + t - i) (p - j) := by
        unfold bezG
        rw [if_neg h, if_neg (by omega), if_neg (by omega)]
      have e2 : bezG K p t (p + t - i) (p - j) = bezF K p t (p + t - i) (p - j) := by
        unfold bezG
        rw [if_neg (by omega), if_neg (by omega), if_pos (by omega)]
      rw [e1, e2]
  · intro i j h1 h2 h3 h4 h5
    unfold bezG
    rw [if_neg (by omega), if_neg (by omega), if_pos h2]
    rfl

/-- The new homogeneous control point `i`: a sum from the left. -/
def elevG (p t : ℕ) (H : ℕ → Vec4 K) (i : ℕ) : Vec4 K :=
  accG (fun y => bezG K p t i (i - t + y)) (fun y => H (i - t + y)) (min p i + 1 - (i - t))

theorem elevatePart_any {p t : ℕ} (H : ℕ → Vec4 K) :
    elevatePart (tab (p + t + 1) fun i => tab (p + 1) fun j => bezG K p t i j) p t ((p : Int) + t) 1 (tab (p + 1) H)
      (List.replicate (p + t + 1) 0) = .ok (tab (p + t + 1) fun i => if i = 0 then 0 else elevG p t H i) := by
  unfold elevatePart
  rw [forLe_eq_forUp _ _ (p + t) (by omega), replicate_eq_tab,
    forUp_eq' _ (fun x => tab (p + t + 1) fun i => if i = 0 then 0 else if i ≤ x then elevG p t H i else 0) (p + t) 1 _ ?_ ?_]
  · congr 1
    apply tab_congr
    intro i hi
    by_cases h : i = 0
    · rw [if_pos h, if_pos h]
    · rw [if_neg h, if_neg h, if_pos (by omega)]
  · apply tab_congr
    intro i _
    by_cases h : i = 0
    · rw [if_pos h]
    · rw [if_neg h, if_neg (by omega)]
  · intro x hx
    have hix : (1 : Int) + x = ((x + 1 : ℕ) : Int) := by push_cast; ring
    rw [hix]
    generalize hI : x + 1 = I at *
    rw [vset_tab' (p + t + 1) _ (fun i => if i = 0 then 0 else if i ≤ x then elevG p t H i else 0) _ I 0 rfl (by omega) (by
      intro k hk
      by_cases h : k = I
      · rw [if_pos h, if_neg (by omega), if_neg (by omega)]
      · rw [if_neg h]), bind_ok]
    have hlo : max 0 ((I : Int) - t) = ((I - t : ℕ) : Int) := by omega
    have hmin : min (p : Int) (I : Int) = ((min p I : ℕ) : Int) := by omega
    rw [hlo, hmin, forLe_eq_forUp _ _ (min p I + 1 - (I - t)) (by omega),
      forUp_eq' _ (fun y => tab (p + t + 1) fun i => if i = 0 then 0 else if i ≤ x then elevG p t H i else if i = I then
        accG (fun y => bezG K p t I (I - t + y)) (fun y => H (I - t + y)) y else 0) (min p I + 1 - (I - t)) _ _ ?_ ?_]
    · congr 1
      apply tab_congr
      intro i hi
      by_cases h : i = 0
      · rw [if_pos h, if_pos h]
      · rw [if_neg h, if_neg h]
        by_cases h1 : i ≤ x
        · rw [if_pos h1, if_pos (by omega)]
        · rw [if_neg h1]
          by_cases h2 : i = I
          · subst h2
            rw [if_pos rfl, if_pos le_rfl]
            rfl
          · rw [if_neg h2, if_neg (by omega)]
    · apply tab_congr
      intro i hi
      by_cases h : i = 0
      · rw [if_pos h, if_pos h]
      · rw [if_neg h, if_neg h]
        by_cases h1 : i ≤ x
        · rw [if_pos h1, if_pos (by omega)]
        · rw [if_neg h1, if_neg h1]
          by_cases h2 : i = I
          · rw [if_pos h2]; rfl
          · rw [if_neg h2]
    · intro y hy
      have hj : ((I - t : ℕ) : Int) + y = ((I - t + y : ℕ) : Int) := by push_cast; rfl
      rw [hj, vget_tab _ _ _ I rfl (by omega), bind_ok, mget_tab _ _ _ _ _ I (I - t + y) rfl rfl (by omega) (by omega), bind_ok,
        vget_tab _ _ _ (I - t + y) rfl (by omega), bind_ok, if_neg (by omega), if_neg (by omega), if_pos rfl]
      apply vset_tab' _ _ _ _ I _ rfl (by omega)
      intro k hk
      by_cases h : k = I
      · rw [if_pos h, h, if_neg (by omega), if_neg (by omega), if_pos rfl]
        rfl
      · by_cases h0 : k = 0
        · rw [if_pos h0, if_neg h, if_pos h0]
        · rw [if_neg h0]
          by_cases h1 : k ≤ x
          · rw [if_pos h1, if_neg h, if_neg h0, if_pos h1]
          · rw [if_neg h1, if_neg h, if_neg h, if_neg h0, if_neg h1, if_neg h]

theorem loadPoints_any {N n : ℕ} (hn : n + 1 ≤ N) (E : ℕ → Vec4 K) (a : Vec4 K) (m : ℕ) (hm : n < m) :
    loadPoints 1 (n : Int) 1 (tab m fun i => if i = 0 then 0 else E i) (tab N fun i => if i = 0 then a else 0) =
      .ok (tab N fun i => if i = 0 then a else if i ≤ n then E i else 0, (n : Int) + 1) := by
  unfold loadPoints
  rw [forLe_eq_forUp _ _ n (by omega),
    forUp_eq' _ (fun x => ((tab N fun i => if i = 0 then a else if i ≤ x then E i else 0), (x : Int) + 1)) n 1 _ ?_ ?_]
  · congr 1
    apply tab_congr
    intro i _
    by_cases h : i = 0
    · rw [if_pos h, if_pos h]
    · rw [if_neg h, if_neg h, if_neg (by omega)]
  · intro x hx
    simp only
    rw [vget_tab _ _ _ (x + 1) (by push_cast; ring) (by omega), bind_ok, if_neg (by omega),
      vset_tab' N _ (fun i => if i = 0 then a else if i ≤ x + 1 then E i else 0) _ (x + 1) _ (by push_cast; rfl) (by omega) (by
        intro k hk
        by_cases h : k = x + 1
        · rw [if_pos h, h, if_neg (by omega), if_pos le_rfl]
        · rw [if_neg h]
          by_cases h0 : k = 0
          · rw [if_pos h0, if_pos h0]
          · rw [if_neg h0, if_neg h0]
            by_cases h1 : k ≤ x
            · rw [if_pos h1, if_pos (by omega)]
            · rw [if_neg h1, if_neg (by omega)]), bind_ok]
    push_cast
    rfl

theorem skipEqual_any {l : List K} {a m : ℕ} (ham : a ≤ m) (hm : m < l.length)
    (h : ∀ i, a ≤ i → i < m → Approx (kn l i) (kn l (i + 1)) eps6 = true) : skipEqual l m a = .ok (m : Int) := by
  unfold skipEqual
  have key : ∀ d fuel b : ℕ, b + d = m → a ≤ b → d + 1 ≤ fuel → whileM fuel (fun b : Int => do
      if b < (m : Int) then
        return Approx (← vget l b) (← vget l (b + 1)) eps6
      else return false) (fun b => .ok (b + 1)) (b : Int) = .ok (m : Int) := by
    intro d
    induction d with
    | zero =>
      intro fuel b hb hab hf
      obtain ⟨f, rfl⟩ : ∃ f, fuel = f + 1 := ⟨fuel - 1, by omega⟩
      obtain rfl : b = m := by omega
      simp [whileM]
    | succ d ih =>
      intro fuel b hb hab hf
      obtain ⟨f, rfl⟩ : ∃ f, fuel = f + 1 := ⟨fuel - 1, by omega⟩
      have := ih f (b + 1) (by omega) (by omega) (by omega)
      simp only [whileM]
      rw [if_pos (by omega), vget_kn l _ b rfl (by omega), bind_ok, vget_kn l _ (b + 1) (by push_cast; rfl) (by omega), bind_ok,
        h b hab (by omega)]
      simp only [pure_ok, bind_ok, if_true]
      rw [show (b : Int) + 1 = ((b + 1 : ℕ) : Int) by push_cast; rfl]
      exact this
  exact key (m - a) _ a (by omega) le_rfl (by omega)

theorem insertPart_no (knots : List K) (d mul r a : Int) (ua ub : K) (bp nb : List (Vec4 K)) (h : ¬ r > 0) :
    insertPart knots d mul r a ua ub bp nb = .ok (bp, nb) := by
  unfold insertPart
  rw [if_neg h]
  rfl

theorem removePart_no (Uh : List K) (ph kind cind lbz oldr : Int) (ua ub : K) (Qw eb : List (Vec4 K)) (h : ¬ oldr > 1) :
    removePart Uh ph kind cind lbz oldr ua ub Qw eb = .ok (Qw, eb) := by
  unfold removePart
  rw [if_neg h]
  rfl

theorem loadKnots_no (d ph oldr kind : Int) (ua : K) (Uh : List K) : loadKnots d ph oldr d kind ua Uh = .ok (Uh, kind) := by
  unfold loadKnots
  rw [if_neg (by simp)]
  rfl

theorem whileM_once {σ : Type} {n : ℕ} {c : σ → M Bool} {f : σ → M σ} {s s' : σ} (h1 : c s = .ok true) (h2 : f s = .ok s')
    (h3 : c s' = .ok false) : whileM (n + 2) c f s = .ok s' := by
  simp only [whileM, h1, bind_ok, h2, h3, if_true]
  simp

variable [ZeroLEOneClass K] [NeZero (1 : K)]

theorem mainBody_any {p t : ℕ} (hp : 1 ≤ p) (hA : Approx (1 : K) 1 eps6 = true) (H : ℕ → Vec4 K) (nb : List (Vec4 K)) :
    mainBody (List.replicate (p + 1) (0 : K) ++ List.replicate (p + 1) 1) (tab (p + 1) H)
      (tab (p + t + 1) fun i => tab (p + 1) fun j => bezG K p t i j) p t ((p : Int) + p + 1)
      ⟨(p : Int) + t, (p : Int) + t + 1, -1, p, (p : Int) + 1, 1, 0, tab (2 * (p + t)) fun i => if i = 0 then H 0 else 0,
        tab (2 * (p + t) + (p + t) + 1) fun _ => 0, tab (p + 1) H, nb, List.replicate (p + t + 1) 0⟩ =
    .ok ⟨2 * ((p : Int) + t) + 1, (p : Int) + t + 1, -1, p, (p : Int) + p + 1, (p : Int) + t + 1, 0,
      tab (2 * (p + t)) fun i => if i = 0 then H 0 else if i ≤ p + t then elevG p t H i else 0,
      tab (2 * (p + t) + (p + t) + 1) fun i => if i < p + t + 1 then 0 else if i < 2 * (p + t) + 2 then 1 else 0,
      tab (p + 1) H, nb, tab (p + t + 1) fun i => if i = 0 then 0 else elevG p t H i⟩ := by
  set l : List K := List.replicate (p + 1) (0 : K) ++ List.replicate (p + 1) 1 with hl
  have hll : l.length = 2 * p + 2 := by simp [hl]; omega
  have hskip : skipEqual l ((p : Int) + p + 1) ((p : Int) + 1) = .ok ((p : Int) + p + 1) := by
    have := skipEqual_any (l := l) (a := p + 1) (m := 2 * p + 1) (by omega) (by omega) (by
      intro i h1 h2
      rw [hl, bez_kn, bez_kn, if_neg (by omega), if_pos (by omega), if_neg (by omega), if_pos (by omega)]
      exact hA)
    rw [show ((2 * p + 1 : ℕ) : Int) = (p : Int) + p + 1 by push_cast; ring] at this
    rw [show ((p + 1 : ℕ) : Int) = (p : Int) + 1 by push_cast; ring] at this
    exact this
  have hub : vget l ((p : Int) + p + 1) = .ok 1 := by
    rw [vget_kn l _ (2 * p + 1) (by push_cast; ring) (by omega), hl, bez_kn, if_neg (by omega), if_pos (by omega)]
  have hr : (p : Int) - ((p : Int) + p + 1 - ((p : Int) + 1) + 1) = -1 := by ring
  have h1 : (if (-1 : Int) > 0 then ((-1 : Int) + 2).tdiv 2 else 1) = 1 := rfl
  have h2 : (if (-1 : Int) > 0 then (p : Int) + t - ((-1 : Int) + 1).tdiv 2 else (p : Int) + t) = (p : Int) + t := rfl
  have hel := elevatePart_any (p := p) (t := t) H
  have hld := loadPoints_any (N := 2 * (p + t)) (n := p + t) (by omega) (elevG p t H) (H 0) (p + t + 1) (by omega)
  rw [show ((p + t : ℕ) : Int) = (p : Int) + t by push_cast; ring] at hld
  unfold mainBody
  simp only
  rw [hskip, bind_ok, hub, bind_ok, hr, insertPart_no _ _ _ _ _ _ _ _ _ (by omega), bind_ok, h1, h2]
  simp only
  rw [hel, bind_ok, removePart_no _ _ _ _ _ _ _ _ _ _ (by omega), bind_ok]
  simp only
  rw [loadKnots_no, bind_ok]
  simp only
  rw [hld, bind_ok, if_neg (by omega), forLe_eq_forUp _ _ (p + t + 1) (by omega),
    forUp_eq' _ (fun x => tab (2 * (p + t) + (p + t) + 1) fun i => if i < p + t + 1 then (0 : K) else if i < p + t + 1 + x then 1 else 0)
      (p + t + 1) 0 _ ?_ ?_, bind_ok, pure_ok]
  · congr 2
    · ring
    · apply tab_congr
      intro i _
      rw [show p + t + 1 + (p + t + 1) = 2 * (p + t) + 2 by ring]
  · apply tab_congr
    intro i _
    by_cases h : i < p + t + 1
    · rw [if_pos h]
    · rw [if_neg h, if_neg (by omega)]
  · intro x hx
    apply vset_tab' _ _ _ _ (p + t + 1 + x) _ (by push_cast; ring) (by omega)
    intro k hk
    by_cases h : k < p + t + 1
    · rw [if_pos h, if_neg (by omega), if_pos h]
    · rw [if_neg h, if_neg h]
      by_cases h' : k = p + t + 1 + x
      · rw [if_pos h', if_pos (by omega)]
      · rw [if_neg h']
        by_cases h3 : k < p + t + 1 + x
        · rw [if_pos h3, if_pos (by omega)]
        · rw [if_neg h3, if_neg (by omega)]

/-- Degree elevation of a Bezier curve, in any arithmetic in which 1 approximates 1 and no divisor vanishes. -/
theorem nde_bezier_any {p t : ℕ} (hp : 1 ≤ p) (ht : 1 ≤ t) (h29 : p + t ≤ 29) (hA : Approx (1 : K) 1 eps6 = true)
    (hne : ∀ i, 1 ≤ i → i ≤ (p + t) / 2 → (((p + t).choose i : Int) : K) ≠ 0) (P : ℕ → Vec4 K)
    (h0 : (ToHomo (P 0)).w ≠ 0) (hE : ∀ i, 1 ≤ i → i ≤ p + t → (elevG p t (fun j => ToHomo (P j)) i).w ≠ 0) :
    NurbsDegreeElevation ⟨List.replicate (p + 1) (0 : K) ++ List.replicate (p + 1) 1⟩ (tab (p + 1) P) p t =
      .ok (⟨List.replicate (p + t + 1) (0 : K) ++ List.replicate (p + t + 1) 1⟩,
        tab (p + t + 1) fun i => unhomo (if i = 0 then ToHomo (P 0) else elevG p t (fun j => ToHomo (P j)) i), (p : Int) + t) := by
  set l : List K := List.replicate (p + 1) (0 : K) ++ List.replicate (p + 1) 1 with hl
  have hll : l.length = 2 * p + 2 := by simp [hl]; omega
  have hmap : (tab (p + 1) P).map ToHomo = tab (p + 1) fun j => ToHomo (P j) := by simp [tab]
  unfold NurbsDegreeElevation
  simp only
  rw [hmap]
  set H : ℕ → Vec4 K := fun j => ToHomo (P j) with hH
  have hn : (((tab (p + 1) H).length : Int) - 1) = p := by simp
  rw [hn, massert_true (by omega), bind_ok, makeBezalfs_any ht h29 hne, bind_ok, vget_kn l 0 0 rfl (by omega), bind_ok,
    vnew_of _ (2 * (p + t)) _ (by push_cast; ring), bind_ok, vget_tab _ _ 0 0 rfl (by omega), bind_ok, replicate_eq_tab,
    vset_tab' (2 * (p + t)) _ (fun i => if i = 0 then H 0 else 0) 0 0 _ rfl (by omega) (fun k hk => rfl), bind_ok,
    vnew_of _ (2 * (p + t) + (p + t) + 1) _ (by push_cast; ring), bind_ok, forLt_eq_forUp _ _ (p + t + 1) (by omega), replicate_eq_tab,
    forUp_eq' _ (fun _ => tab (2 * (p + t) + (p + t) + 1) fun _ => (0 : K)) (p + t + 1) 0 _ rfl ?_, bind_ok, if_pos (by simp; omega)]
  rotate_left
  · intro i hi
    apply vset_tab' _ _ _ _ i _ (by simp) (by omega)
    intro k hk
    rw [hl, bez_kn, if_pos (Nat.zero_le _)]
    split_ifs <;> rfl
  have htake : (tab (p + 1) H).take ((p : Int) + 1).toNat = tab (p + 1) H := by
    rw [List.take_of_length_le]; simp
  rw [htake, show (pure : List (Vec4 K) → M (List (Vec4 K))) = Except.ok by rfl, bind_ok, vnew_of _ (p - 1) _ (by omega), bind_ok,
    vnew_of _ (p + t + 1) _ (by push_cast; rfl), bind_ok, hl, bez_kn, if_pos (Nat.zero_le _), ← hl]
  obtain ⟨fuel, hfuel⟩ : ∃ f, ((p : Int) + p + 1 - p).toNat + 1 = f + 2 := ⟨p, by omega⟩
  rw [hfuel, whileM_once (by simp; omega) (mainBody_any hp hA H _) (by simp), bind_ok]
  simp only
  rw [vresize_tab _ (p + t + 1) _ _ _ (by push_cast; ring) (by omega), bind_ok,
    vresize_tab _ (2 * (p + t) + 2) _ _ _ (by push_cast; ring) (by omega), bind_ok,
    mapMList_ok _ unhomo _ (by
      intro a ha
      obtain ⟨i, hi, rfl⟩ := List.mem_map.mp ha
      rw [List.mem_range] at hi
      apply fromHomo_gen
      by_cases h : i = 0
      · rw [if_pos h]; exact h0
      · rw [if_neg h, if_pos (by omega)]
        exact hE i (by omega) (by omega)), bind_ok]
  have hU : (tab (2 * (p + t) + 2) fun i => if i < p + t + 1 then (0 : K) else if i < 2 * (p + t) + 2 then 1 else 0) =
      List.replicate (p + t + 1) (0 : K) ++ List.replicate (p + t + 1) 1 := by
    apply List.ext_getElem
    · simp; omega
    · intro i h1 h2
      rw [tab_length] at h1
      rw [tab_getElem, List.getElem_append]
      by_cases h : i < p + t + 1
      · simp [h]
      · simp [h, h1]
  rw [hU]
  unfold KnotVector.ofValues
  rw [(validateKnots_iff _).mpr ?_]
  · simp only [Bool.not_true, Bool.false_eq_true, if_false, bind_ok, pure_ok]
    congr 3
    rw [show List.map unhomo (tab (p + t + 1) fun i => if i = 0 then H 0 else if i ≤ p + t then elevG p t H i else 0) =
      tab (p + t + 1) fun i => unhomo (if i = 0 then H 0 else if i ≤ p + t then elevG p t H i else 0) by simp [tab]]
    apply tab_congr
    intro i hi
    by_cases h : i = 0
    · rw [if_pos h, if_pos h]
    · rw [if_neg h, if_neg h, if_pos (by omega)]
  · refine ⟨by simp, ?_, ?_, ?_⟩
    · rw [List.pairwise_append]
      refine ⟨List.pairwise_replicate.mpr (Or.inr le_rfl), List.pairwise_replicate.mpr (Or.inr le_rfl), ?_⟩
      intro a ha b hb
      rw [List.eq_of_mem_replicate ha, List.eq_of_mem_replicate hb]
      exact zero_le_one
    · intro v hv
      rcases List.mem_append.mp hv with h | h
      · rw [List.eq_of_mem_replicate h]
      · rw [List.eq_of_mem_replicate h]
        exact zero_le_one
    · simp [List.replicate_succ', ← List.append_assoc]

end Nurbs
