import Verif.Proof.ElevBlossom
import Verif.Proof.Bezier

/-! # The degree-elevated curve exists, is well formed and has positive weights -/

set_option linter.unusedSectionVars false

namespace Nurbs
open Nurbs.Spec

variable {K : Type} [Field K] [LinearOrder K] [IsStrictOrderedRing K]

/-- `l'` is `l` with every knot `t` more times. -/
def Raised (t : ℕ) (l l' : List K) : Prop :=
  l'.Pairwise (· ≤ ·) ∧ ∀ v, l'.count v = l.count v + if v ∈ l then t else 0

theorem Raised.mem {t : ℕ} {l l' : List K} (h : Raised t l l') (v : K) : v ∈ l' ↔ v ∈ l := by
  have := h.2 v
  rw [← List.count_pos_iff, ← List.count_pos_iff, this]
  constructor
  · intro hp
    by_contra hn
    have h0 : v ∉ l := by rw [← List.count_pos_iff]; exact hn
    rw [if_neg h0] at hp; omega
  · intro hp; omega

theorem Raised.step {t : ℕ} {l l' l'' : List K} (h : Raised t l l') (h' : Raised 1 l' l'') : Raised (t + 1) l l'' := by
  refine ⟨h'.1, fun v => ?_⟩
  rw [h'.2, h.2]
  have := h.mem v
  by_cases hv : v ∈ l
  · rw [if_pos hv, if_pos hv, if_pos (this.mpr hv)]; omega
  · rw [if_neg hv, if_neg hv, if_neg (fun h => hv (this.mp h))]

theorem Raised.unique {t : ℕ} {l l' l'' : List K} (h : Raised t l l') (h' : Raised t l l'') : l' = l'' := by
  apply List.Perm.eq_of_pairwise (fun x y _ _ h1 h2 => le_antisymm h1 h2) h.1 h'.1
  rw [List.perm_iff_count]
  intro v
  rw [h.2, h'.2]

theorem exists_raised (t : ℕ) (l : List K) : ∃ l', Raised t l l' := by
  refine ⟨(l ++ l.dedup.flatMap fun v => List.replicate t v).mergeSort (fun a b => decide (a ≤ b)), ?_, ?_⟩
  · have := List.pairwise_mergeSort (le := fun a b : K => decide (a ≤ b)) (by intro a b c h1 h2; simp at *; exact h1.trans h2)
      (by intro a b; simp; exact le_total a b) (l ++ l.dedup.flatMap fun v => List.replicate t v)
    exact this.imp (by intro a b h; simpa using h)
  · intro v
    rw [(List.mergeSort_perm _ _).count_eq, List.count_append]
    congr 1
    have := count_reps t l.dedup v
    unfold reps at this
    rw [this]
    split_ifs with h
    · rw [List.count_eq_one_of_mem (List.nodup_dedup l) (List.mem_dedup.mpr h)]; omega
    · rw [List.count_eq_zero.mpr (fun hh => h (List.mem_dedup.mp hh))]; omega

theorem sorted_zeros {l : List K} (hs : l.Pairwise (· ≤ ·)) (h0 : ∀ v ∈ l, 0 ≤ v) {n : ℕ} (hn : l.count 0 = n) :
    (∀ i < n, kn l i = 0) ∧ (∀ i, n ≤ i → i < l.length → 0 < kn l i) := by
  induction l generalizing n with
  | nil => simp at hn; subst hn; simp
  | cons a l ih =>
    rw [List.pairwise_cons] at hs
    obtain ⟨h1, h2⟩ := ih hs.2 (fun v hv => h0 v (by simp [hv])) rfl
    by_cases ha : a = 0
    · subst ha
      rw [List.count_cons_self] at hn
      subst hn
      constructor
      · intro i hi
        cases i with
        | zero => rfl
        | succ i => exact h1 i (by omega)
      · intro i hi hl
        cases i with
        | zero => omega
        | succ i => exact h2 i (by omega) (by simpa using hl)
    · have hpos : 0 < a := lt_of_le_of_ne (h0 a (by simp)) (Ne.symm ha)
      have hz : l.count 0 = 0 := List.count_eq_zero.mpr fun h => absurd (hs.1 0 h) (not_le.mpr hpos)
      rw [List.count_cons_of_ne (by simpa using ha), hz] at hn
      subst hn
      refine ⟨fun i hi => absurd hi (by omega), ?_⟩
      intro i _ hl
      cases i with
      | zero => exact hpos
      | succ i => exact h2 i (by omega) (by simpa using hl)

theorem sorted_ones {l : List K} (hs : l.Pairwise (· ≤ ·)) (h0 : ∀ v ∈ l, v ≤ 1) {n : ℕ} (hn : l.count 1 = n) :
    (∀ i < l.length, l.length ≤ i + n → kn l i = 1) ∧ (∀ i, i + n < l.length → kn l i < 1) := by
  induction l generalizing n with
  | nil => simp
  | cons a l ih =>
    rw [List.pairwise_cons] at hs
    obtain ⟨h1, h2⟩ := ih hs.2 (fun v hv => h0 v (by simp [hv])) rfl
    by_cases ha : a = 1
    · subst ha
      have hall : ∀ v ∈ l, v = 1 := fun v hv => le_antisymm (h0 v (by simp [hv])) (hs.1 v hv)
      have hc : l.count 1 = l.length := List.count_eq_length.mpr fun b hb => (hall b hb).symm
      rw [List.count_cons_self, hc] at hn
      subst hn
      constructor
      · intro i hi _
        cases i with
        | zero => rfl
        | succ i => exact h1 i (by simpa using hi) (by omega)
      · intro i hi; simp at hi; omega
    · have hlt : a < 1 := lt_of_le_of_ne (h0 a (by simp)) ha
      rw [List.count_cons_of_ne (by simpa using ha)] at hn
      subst hn
      constructor
      · intro i hi hl
        cases i with
        | zero =>
          exfalso
          have := List.count_le_length (a := (1 : K)) (l := l)
          simp at hl; omega
        | succ i => exact h1 i (by simpa using hi) (by simp at hl; omega)
      · intro i hi
        cases i with
        | zero => exact hlt
        | succ i => exact h2 i (by simp at hi; omega)

theorem Raised.clamped {p t : ℕ} {l l' : List K} (h : Raised t l l') (hc : Clamped p l) : Clamped (p + t) l' := by
  obtain ⟨c0, c1, cb⟩ := clamped_count hc
  have hb : ∀ v ∈ l', 0 ≤ v ∧ v ≤ 1 := fun v hv => cb v ((h.mem v).mp hv)
  have m0 : (0 : K) ∈ l := List.count_pos_iff.mp (by omega)
  have m1 : (1 : K) ∈ l := List.count_pos_iff.mp (by omega)
  have d0 : l'.count 0 = p + t + 1 := by rw [h.2, if_pos m0, c0]; omega
  have d1 : l'.count 1 = p + t + 1 := by rw [h.2, if_pos m1, c1]; omega
  obtain ⟨z1, z2⟩ := sorted_zeros h.1 (fun v hv => (hb v hv).1) d0
  obtain ⟨o1, o2⟩ := sorted_ones h.1 (fun v hv => (hb v hv).2) d1
  have hlen : 2 * (p + t) + 2 ≤ l'.length := by
    have hcl1 : l'.count 1 ≤ l'.length := List.count_le_length
    by_contra hlt
    have e1 := o1 (l'.length - (p + t + 1)) (by omega) (by omega)
    have e0 := z1 (l'.length - (p + t + 1)) (by omega)
    rw [e0] at e1
    exact zero_ne_one e1
  exact ⟨hlen, h.1, fun i hi => z1 i (by omega), fun i hi hl => o1 i hi (by omega), z2 _ le_rfl (by omega), o2 _ (by omega)⟩

/-! ### Windows and counts -/

theorem win_kn (l : List K) (i n : ℕ) (h : i + n < l.length) : win (kn l) i n = (l.drop (i + 1)).take n := by
  apply List.ext_getElem
  · simp; omega
  · intro j h1 h2
    simp only [win_length] at h1
    simp only [win, List.getElem_map, List.getElem_range, List.getElem_take, List.getElem_drop]
    exact kn_eq_getElem l _ (by omega)

theorem count_win_jump {l : List K} (hs : l.Pairwise (· ≤ ·)) {a b : ℕ} (hab : a ≤ b) (hb : b + 1 < l.length)
    (h1 : kn l a < kn l (a + 1)) (h2 : kn l b < kn l (b + 1)) (v : K) :
    (win (kn l) a (b - a)).count v = if kn l a < v ∧ v ≤ kn l b then l.count v else 0 := by
  have hsplit : l = l.take (a + 1) ++ win (kn l) a (b - a) ++ l.drop (b + 1) := by
    rw [win_kn l a (b - a) (by omega)]
    conv_lhs => rw [← List.take_append_drop (a + 1) l, ← List.take_append_drop (b - a) (l.drop (a + 1)), List.drop_drop,
      show a + 1 + (b - a) = b + 1 by omega, ← List.append_assoc]
  have hlo : ∀ x ∈ l.take (a + 1), x ≤ kn l a := by
    intro x hx
    obtain ⟨i, hi, rfl⟩ := List.getElem_of_mem hx
    simp only [List.length_take] at hi
    rw [List.getElem_take, ← kn_eq_getElem _ _ (by omega)]
    exact kn_mono hs (by omega) (by omega)
  have hhi : ∀ x ∈ l.drop (b + 1), kn l (b + 1) ≤ x := by
    intro x hx
    obtain ⟨i, hi, rfl⟩ := List.getElem_of_mem hx
    simp only [List.length_drop] at hi
    rw [List.getElem_drop, ← kn_eq_getElem _ _ (by omega)]
    exact kn_mono hs (by omega) (by omega)
  have hmid : ∀ x ∈ win (kn l) a (b - a), kn l a < x ∧ x ≤ kn l b := by
    intro x hx
    simp only [win, List.mem_map, List.mem_range] at hx
    obtain ⟨j, hj, rfl⟩ := hx
    exact ⟨lt_of_lt_of_le h1 (kn_mono hs (by omega) (by omega)), kn_mono hs (by omega) (by omega)⟩
  split_ifs with hv
  · have hcnt := congrArg (List.count v) hsplit
    rw [List.count_append, List.count_append] at hcnt
    have z1 : (l.take (a + 1)).count v = 0 := List.count_eq_zero.mpr fun h => absurd (hlo v h) (not_le.mpr hv.1)
    have z2 : (l.drop (b + 1)).count v = 0 :=
      List.count_eq_zero.mpr fun h => absurd (lt_of_lt_of_le h2 (hhi v h)) (not_lt.mpr hv.2)
    omega
  · exact List.count_eq_zero.mpr fun h => hv (hmid v h)

theorem kn_mem {l : List K} {i : ℕ} (h : i < l.length) : kn l i ∈ l := by
  rw [kn_eq_getElem l i h]; exact List.getElem_mem h

theorem isSpan_jump {l : List K} {x : K} {k : ℕ} (h : IsSpan l x k) : kn l k < kn l (k + 1) := by
  rcases h.2.2 with h' | h'
  · exact lt_of_le_of_lt h.2.1 h'
  · rw [h'.2.2]; exact h'.2.1

/-- Vectors with the same values have spans that start at the same knot. -/
theorem span_same {l l' : List K} (hs : l.Pairwise (· ≤ ·)) (hs' : l'.Pairwise (· ≤ ·)) (hmem : ∀ v, v ∈ l' ↔ v ∈ l)
    (h1 : ∀ v ∈ l, v ≤ 1) {x : K} {s k : ℕ} (h : IsSpan l x s) (h' : IsSpan l' x k) : kn l s = kn l' k := by
  have key : ∀ {l l' : List K} {s k : ℕ}, l.Pairwise (· ≤ ·) → l'.Pairwise (· ≤ ·) → (∀ v, v ∈ l → v ∈ l') → (∀ v ∈ l, v ≤ 1) →
      IsSpan l x s → IsSpan l' x k → kn l s ≤ kn l' k := by
    intro l l' s k hs hs' hmem h1 h h'
    have hin := hmem _ (kn_mem (show s < l.length by have := h.1; omega))
    obtain ⟨j, hj, ej⟩ := List.getElem_of_mem hin
    rw [← kn_eq_getElem l' j hj] at ej
    rcases Nat.lt_or_ge k j with hkj | hkj
    · exfalso
      have a : kn l' (k + 1) ≤ kn l s := by rw [← ej]; exact kn_mono hs' hkj hj
      rcases h'.2.2 with hx | ⟨rfl, _, e⟩
      · exact absurd (lt_of_lt_of_le hx a) (not_lt.mpr h.2.1)
      · rw [e] at a
        rcases h.2.2 with hx | hx
        · exact absurd (h1 _ (kn_mem h.1)) (not_le.mpr hx)
        · exact absurd hx.2.1 (not_lt.mpr a)
    · rw [← ej]; exact kn_mono hs' hkj (by have := h'.1; omega)
  exact le_antisymm (key hs hs' (fun v hv => (hmem v).mpr hv) h1 h h')
    (key hs' hs (fun v hv => (hmem v).mp hv) (fun v hv => h1 v ((hmem v).mp hv)) h' h)

/-- The knots between two spans survive in a raised window with one knot left out. -/
theorem raised_subperm {l l' : List K} (hr : Raised 1 l l') (hs : l.Pairwise (· ≤ ·)) {p I k1 k2 s1 s2 i : ℕ}
    (hk1 : k1 ≤ k2) (hs12 : s1 ≤ s2) (hl : s2 + 1 < l.length) (hk2 : k2 + 1 < l'.length)
    (hI1 : I ≤ k1) (hI2 : k2 ≤ I + p + 1) (j1 : kn l s1 < kn l (s1 + 1)) (j2 : kn l s2 < kn l (s2 + 1))
    (j1' : kn l' k1 < kn l' (k1 + 1)) (j2' : kn l' k2 < kn l' (k2 + 1)) (e1 : kn l s1 = kn l' k1) (e2 : kn l s2 = kn l' k2)
    (hi : i < p + 1) :
    (win (kn l) s1 (s2 - s1)).Subperm ((win (kn l') I (p + 1)).eraseIdx i) := by
  rw [List.subperm_iff_count]
  intro v
  rw [count_win_jump hs hs12 hl j1 j2 v]
  split_ifs with hv
  · have hc := count_win_jump hr.1 hk1 hk2 j1' j2' v
    rw [if_pos (by rw [← e1, ← e2]; exact hv), hr.2] at hc
    obtain ⟨a, rfl⟩ : ∃ a, k1 = I + a := ⟨k1 - I, by omega⟩
    obtain ⟨b, hb⟩ : ∃ b, p + 1 = a + ((k2 - (I + a)) + b) := ⟨p + 1 - a - (k2 - (I + a)), by omega⟩
    have hw : (win (kn l') I (p + 1)).count v ≥ (win (kn l') (I + a) (k2 - (I + a))).count v := by
      rw [hb, win_append, win_append, List.count_append, List.count_append]; omega
    have he : (win (kn l') I (p + 1)).count v ≤ ((win (kn l') I (p + 1)).eraseIdx i).count v + 1 := by
      have := List.getElem_cons_eraseIdx_perm (l := win (kn l') I (p + 1)) (n := i) (by simpa using hi)
      rw [← this.count_eq, List.count_cons]
      split_ifs <;> omega
    by_cases hm : v ∈ l
    · rw [if_pos hm] at hc; omega
    · rw [List.count_eq_zero.mpr hm]; omega
  · omega

/-! ### Positive weights -/

theorem kn_append_left {a b : List K} {i : ℕ} (h : i < a.length) : kn (a ++ b) i = kn a i := by
  simp [kn, List.getD_eq_getElem?_getD, List.getElem?_append_left h]

theorem kn_cons_succ (a : K) (l : List K) (i : ℕ) : kn (a :: l) (i + 1) = kn l i := by
  simp [kn, List.getD_eq_getElem?_getD]

theorem kn_eraseIdx (l : List K) (pos i : ℕ) : kn (l.eraseIdx pos) i = if i < pos then kn l i else kn l (i + 1) := by
  simp only [kn, List.getD_eq_getElem?_getD, List.getElem?_eraseIdx]
  split_ifs <;> rfl

theorem win_eraseIdx (l : List K) (I n i : ℕ) (hi : i < n + 1) :
    (win (kn l) I (n + 1)).eraseIdx i = win (kn (l.eraseIdx (I + 1 + i))) I n := by
  apply List.ext_getElem?
  intro j
  rw [List.getElem?_eraseIdx]
  simp only [win, List.getElem?_map]
  by_cases hj : j < n
  · rw [List.getElem?_range hj]
    split_ifs with h
    · rw [List.getElem?_range (by omega)]
      simp only [Option.map_some, kn_eraseIdx]
      rw [if_pos (by omega)]
    · rw [List.getElem?_range (by omega)]
      simp only [Option.map_some, kn_eraseIdx]
      rw [if_neg (by omega)]
      rfl
  · rw [List.getElem?_eq_none (l := List.range n) (by simp; omega)]
    split_ifs with h
    · omega
    · rw [List.getElem?_eq_none (by simp; omega)]; rfl

/-- A raised window with one knot left out is a window of a vector obtained by knot insertion: the polar value is a
control point of the refined curve, so its weight is positive and it is in the hull of the control points. -/
theorem leaveOut_facts {p : ℕ} (hp : 1 ≤ p) {c : Curve K} (hw : WFCurve p c) {l' : List K} (hr : Raised 1 c.Knots.Values l') {I k s i : ℕ}
    (hI : I + p + 2 < l'.length) (hk1 : I ≤ k) (hk2 : k ≤ I + p + 1) (hk3 : k + 1 < l'.length)
    (hj : kn l' k < kn l' (k + 1)) (hsp : IsSpan c.Knots.Values (kn l' k) s) (hi : i < p + 1) :
    0 < (blos (kn c.Knots.Values) ((win (kn l') I (p + 1)).eraseIdx i) (hpts c.ControlPoints) s).w ∧
      ∀ (L : Vec4 K →ₗ[K] K) (b : K), (∀ i < c.ControlPoints.length, 0 ≤ L (hpts c.ControlPoints i) + b) →
        0 ≤ L (blos (kn c.Knots.Values) ((win (kn l') I (p + 1)).eraseIdx i) (hpts c.ControlPoints) s) + b := by
  have hc' := hr.clamped hw.clamped
  have hlen' := hc'.len
  set pos := I + 1 + i with hpos
  set x := kn l' pos with hx
  obtain ⟨cnt0, cnt1, cb⟩ := clamped_count hw.clamped
  obtain ⟨cnt0', cnt1', cb'⟩ := clamped_count hc'
  let vs : List K := c.Knots.Values.dedup.filter fun v => decide (0 < v ∧ v < 1 ∧ v ≠ x)
  have hvs : ∀ v ∈ vs, 0 < v ∧ v < 1 := fun v hv => by
    simp only [vs, List.mem_filter, decide_eq_true_eq] at hv; exact ⟨hv.2.1, hv.2.2.1⟩
  obtain ⟨c2, hok2, hw2, hp2, hsame⟩ := insertList_spec vs hvs hw
  have hposl : pos < l'.length := by omega
  have hxm : x ∈ l' := kn_mem hposl
  have hxb := cb' x hxm
  -- the raised vector without `x` is the refined vector plus the superfluous end knots
  have hcountvs : ∀ v, vs.count v = if v ∈ c.Knots.Values ∧ 0 < v ∧ v < 1 ∧ v ≠ x then 1 else 0 := by
    intro v
    split_ifs with h
    · exact List.count_eq_one_of_mem ((List.nodup_dedup c.Knots.Values).filter _) (by
        simp only [vs, List.mem_filter, decide_eq_true_eq, List.mem_dedup]; exact h)
    · exact List.count_eq_zero.mpr fun hm => h (by
        simp only [vs, List.mem_filter, decide_eq_true_eq, List.mem_dedup] at hm; exact hm)
  let pre : List K := if x = 0 then [] else [0]
  let post : List K := if x = 1 then [] else [1]
  have herase : l'.eraseIdx pos = pre ++ c2.Knots.Values ++ post := by
    apply List.Perm.eq_of_pairwise (fun x y _ _ h1 h2 => le_antisymm h1 h2)
    · exact hr.1.sublist (List.eraseIdx_sublist _ _)
    · obtain ⟨_, _, cb2⟩ := clamped_count hw2.clamped
      rw [List.pairwise_append, List.pairwise_append]
      refine ⟨⟨by simp only [pre]; split_ifs <;> simp, hw2.clamped.sorted, ?_⟩, by simp only [post]; split_ifs <;> simp, ?_⟩
      · intro a ha b hb
        simp only [pre] at ha
        split_ifs at ha
        · simp at ha
        · rw [List.mem_singleton.mp ha]; exact (cb2 b hb).1
      · intro a ha b hb
        simp only [post] at hb
        split_ifs at hb
        · simp at hb
        · rw [List.mem_singleton.mp hb]
          rcases List.mem_append.mp ha with ha | ha
          · simp only [pre] at ha
            split_ifs at ha
            · simp at ha
            · rw [List.mem_singleton.mp ha]; exact zero_le_one
          · exact (cb2 a ha).2
    · rw [List.perm_iff_count]
      intro v
      have he := (List.getElem_cons_eraseIdx_perm (l := l') (n := pos) hposl).count_eq v
      rw [← kn_eq_getElem l' pos hposl, List.count_cons, hr.2] at he
      rw [List.count_append, List.count_append, hp2.count_eq, List.count_append, hcountvs]
      have hxl : x ∈ c.Knots.Values := (hr.mem x).mp hxm
      have hpre : pre.count v = if v = 0 ∧ x ≠ 0 then 1 else 0 := by
        simp only [pre]
        by_cases h0 : x = 0
        · simp [h0]
        · by_cases hv : v = 0
          · simp [h0, hv]
          · simp [h0, hv, Ne.symm hv]
      have hpost : post.count v = if v = 1 ∧ x ≠ 1 then 1 else 0 := by
        simp only [post]
        by_cases h0 : x = 1
        · simp [h0]
        · by_cases hv : v = 1
          · simp [h0, hv]
          · simp [h0, hv, Ne.symm hv]
      rw [hpre, hpost]
      change _ + (if (x == v) = true then 1 else 0) = _ at he
      simp only [beq_iff_eq] at he
      by_cases hvl : v ∈ c.Knots.Values
      · rw [if_pos hvl] at he
        have hvb := cb v hvl
        by_cases hvx : x = v
        · rw [if_pos hvx] at he
          rw [if_neg (by rw [hvx]; tauto), if_neg (by rw [hvx]; tauto), if_neg (by rw [hvx]; tauto)]
          omega
        · rw [if_neg hvx] at he
          by_cases hv0 : v = 0
          · subst hv0
            rw [if_pos ⟨rfl, hvx⟩, if_neg (by simp), if_neg (by simp)]; omega
          · by_cases hv1 : v = 1
            · subst hv1
              rw [if_neg (by simp), if_neg (by simp), if_pos ⟨rfl, hvx⟩]; omega
            · rw [if_neg (by tauto),
                if_pos ⟨hvl, lt_of_le_of_ne hvb.1 (Ne.symm hv0), lt_of_le_of_ne hvb.2 hv1, Ne.symm hvx⟩, if_neg (by tauto)]; omega
      · have h0l : (0 : K) ∈ c.Knots.Values := List.count_pos_iff.mp (by omega)
        have h1l : (1 : K) ∈ c.Knots.Values := List.count_pos_iff.mp (by omega)
        have hv0 : v ≠ 0 := fun h => hvl (h ▸ h0l)
        have hv1 : v ≠ 1 := fun h => hvl (h ▸ h1l)
        have hvx : x ≠ v := fun h => hvl (h ▸ hxl)
        rw [if_neg hvl, if_neg hvx] at he
        rw [if_neg (by tauto), if_neg (by tauto), if_neg (by tauto)]; omega
  have hlene : (l'.eraseIdx pos).length = l'.length - 1 := List.length_eraseIdx_of_lt hposl
  have hlenc : pre.length + c2.Knots.Values.length + post.length = l'.length - 1 := by
    rw [← hlene, herase]; simp [Nat.add_assoc]
  have hpostl : post.length ≤ 1 := by simp only [post]; split_ifs <;> simp
  have hknr : ∀ j, j < l'.length - 2 → pre.length ≤ j → kn (l'.eraseIdx pos) j = kn c2.Knots.Values (j - pre.length) := by
    intro j hj1 hj2
    rw [herase, kn_append_left (by simp; omega)]
    simp only [pre] at hj2 ⊢
    split_ifs at hj2 ⊢
    · simp
    · obtain ⟨m, rfl⟩ : ∃ m, j = m + 1 := ⟨j - 1, by simp at hj2; omega⟩
      simp [kn_cons_succ]
  -- I = 0 leaves out a zero
  have hpreI : pre.length ≤ I := by
    simp only [pre]
    split_ifs with h
    · simp
    · rcases Nat.eq_zero_or_pos I with h0 | h0
      · exact absurd (hc'.zeros pos (by omega)) h
      · simp only [List.length_singleton]; omega
  have hwin : (win (kn l') I (p + 1)).eraseIdx i = win (kn c2.Knots.Values) (I - pre.length) p := by
    rw [win_eraseIdx l' I p i hi]
    apply List.map_congr_left
    intro j hj
    have := List.mem_range.mp hj
    rw [hknr _ (by omega) (by omega)]
    congr 1; omega
  -- the span of the refined curve
  set y := kn l' k with hy
  have hy0 := (cb' y (kn_mem (by omega))).1
  have hy1 := (cb' y (kn_mem (show k < _ by omega))).2
  obtain ⟨hk4, hk5⟩ : p + 1 ≤ k ∧ k + (p + 1) + 2 ≤ l'.length := by
    obtain ⟨k', hk', a, b⟩ := exists_span hc' hy0 hy1
    obtain rfl : k = k' := isSpan_unique hc'.sorted (isSpan_left hk3 hj) hk' (fun i hi => hc'.le_one hi)
    exact ⟨a, b⟩
  have hspan : ∃ s2, IsSpan c2.Knots.Values y s2 ∧ I - pre.length ≤ s2 ∧ s2 ≤ I - pre.length + p := by
    have hprel : pre.length ≤ 1 := by simp only [pre]; split_ifs <;> simp
    by_cases hc : pos ≤ k
    · refine ⟨k - 1 - pre.length, ⟨by omega, ?_, Or.inl ?_⟩, by omega, by omega⟩
      · rw [← hknr (k - 1) (by omega) (by omega), kn_eraseIdx]
        split_ifs
        · exact kn_mono hr.1 (by omega) (by omega)
        · exact kn_mono hr.1 (by omega) (by omega)
      · rw [show k - 1 - pre.length + 1 = k - pre.length by omega, ← hknr k (by omega) (by omega), kn_eraseIdx,
          if_neg (by omega)]
        exact hj
    · refine ⟨k - pre.length, ⟨by omega, ?_, Or.inl ?_⟩, by omega, by omega⟩
      · rw [← hknr k (by omega) (by omega), kn_eraseIdx, if_pos (by omega)]
      · rw [show k - pre.length + 1 = k + 1 - pre.length by omega, ← hknr (k + 1) (by omega) (by omega), kn_eraseIdx]
        split_ifs
        · exact hj
        · exact lt_of_lt_of_le hj (kn_mono hr.1 (by omega) (by omega))
  obtain ⟨s2, hs2, hs2a, hs2b⟩ := hspan
  rw [hwin, ← hsame y hy0 hy1 s s2 hsp hs2 _ (by simp)]
  obtain ⟨a1, a2, a3, _⟩ := evaluate_seg hw2 hy0 hy1 hs2
  rw [blos_win _ s2 p _ _ a1 a3 (by omega) (by omega)]
  have := hw2.count
  exact ⟨hw2.weights _ (by omega), fun L b hL => insertList_hull vs hvs hw hok2 L b hL _ (by omega)⟩

/-! ### One elevation -/

theorem elevate_one {p : ℕ} (hp : 1 ≤ p) {c : Curve K} (hw : WFCurve p c) {l' : List K} (hr : Raised 1 c.Knots.Values l') :
    ∃ c' : Curve K, WFCurve (p + 1) c' ∧ c'.Knots.Values = l' ∧ InHull c.ControlPoints c'.ControlPoints ∧
      ∀ x, 0 ≤ x → x ≤ 1 → ∀ s k, IsSpan c.Knots.Values x s → IsSpan l' x k → ∀ ts : List K, ts.length = p + 1 →
        blos (kn l') ts (hpts c'.ControlPoints) k =
          elev p (fun us => blos (kn c.Knots.Values) us (hpts c.ControlPoints) s) ts := by
  have hc' := hr.clamped hw.clamped
  have hlen' := hc'.len
  obtain ⟨_, _, cb⟩ := clamped_count hw.clamped
  have hR : ∀ I, ∃ R : Vec4 K, I + p + 2 < l'.length → 0 < R.w ∧
      (∀ (L : Vec4 K →ₗ[K] K) (b : K), (∀ i < c.ControlPoints.length, 0 ≤ L (hpts c.ControlPoints i) + b) → 0 ≤ L R + b) ∧ ∀ k s, I ≤ k → k ≤ I + p + 1 → k + 1 < l'.length →
      kn l' k < kn l' (k + 1) → IsSpan c.Knots.Values (kn l' k) s →
      R = elev p (fun us => blos (kn c.Knots.Values) us (hpts c.ControlPoints) s) (win (kn l') I (p + 1)) := by
    intro I
    by_cases hI : I + p + 2 < l'.length
    · by_cases hex : ∃ k s, I ≤ k ∧ k ≤ I + p + 1 ∧ k + 1 < l'.length ∧ kn l' k < kn l' (k + 1) ∧ IsSpan c.Knots.Values (kn l' k) s
      · obtain ⟨k, s, h1, h2, h3, h4, h5⟩ := hex
        refine ⟨elev p (fun us => blos (kn c.Knots.Values) us (hpts c.ControlPoints) s) (win (kn l') I (p + 1)), fun _ => ⟨?_, ?_, ?_⟩⟩
        · unfold elev
          rw [Vec4.smul_w, leaveOut_sum, Vec4.sum_w]
          apply mul_pos (inv_pos.mpr (by positivity))
          apply Finset.sum_pos
          · intro i hi
            have := Finset.mem_range.mp hi
            rw [win_length] at this
            exact (leaveOut_facts hp hw hr hI h1 h2 h3 h4 h5 this).1
          · simp
        · intro L b hL
          unfold elev
          rw [map_smul, leaveOut_sum, map_sum, smul_eq_mul, win_length]
          have hpos : (0 : K) < ((p : K) + 1) := by positivity
          have hsum : ∀ i ∈ Finset.range (p + 1), -b ≤ L (blos (kn c.Knots.Values) ((win (kn l') I (p + 1)).eraseIdx i) (hpts c.ControlPoints) s) := by
            intro i hi
            have := (leaveOut_facts hp hw hr hI h1 h2 h3 h4 h5 (Finset.mem_range.mp hi)).2 L b hL
            linarith
          have hs := Finset.card_nsmul_le_sum _ _ _ hsum
          rw [Finset.card_range, nsmul_eq_mul, Nat.cast_add, Nat.cast_one] at hs
          have := mul_le_mul_of_nonneg_left hs (inv_pos.mpr hpos).le
          rw [← mul_assoc, inv_mul_cancel₀ hpos.ne', one_mul] at this
          linarith
        · -- independence of the span
          have key : ∀ {k1 k2 s1 s2 : ℕ}, k1 ≤ k2 → I ≤ k1 → k2 ≤ I + p + 1 → k2 + 1 < l'.length → kn l' k1 < kn l' (k1 + 1) →
              kn l' k2 < kn l' (k2 + 1) → IsSpan c.Knots.Values (kn l' k1) s1 → IsSpan c.Knots.Values (kn l' k2) s2 →
              elev p (fun us => blos (kn c.Knots.Values) us (hpts c.ControlPoints) s1) (win (kn l') I (p + 1)) =
              elev p (fun us => blos (kn c.Knots.Values) us (hpts c.ControlPoints) s2) (win (kn l') I (p + 1)) := by
            intro k1 k2 s1 s2 hk hI1 hI2 hl2 j1 j2 sp1 sp2
            have e1 := span_same hw.clamped.sorted hr.1 hr.mem (fun v hv => (cb v hv).2) sp1 (isSpan_left (by omega) j1)
            have e2 := span_same hw.clamped.sorted hr.1 hr.mem (fun v hv => (cb v hv).2) sp2 (isSpan_left (by omega) j2)
            have hx1 := hc'.nonneg (show k1 < l'.length by omega)
            have hx1' := hc'.le_one (show k1 < l'.length by omega)
            have hx2 := hc'.nonneg (show k2 < l'.length by omega)
            have hx2' := hc'.le_one (show k2 < l'.length by omega)
            obtain ⟨a1, a2, a3, _⟩ := evaluate_seg hw hx1 hx1' sp1
            obtain ⟨b1, b2, b3, _⟩ := evaluate_seg hw hx2 hx2' sp2
            have hs12 : s1 ≤ s2 := by
              by_contra hlt
              have h1 := isSpan_jump sp2
              have h2 := kn_mono hw.clamped.sorted (show s2 + 1 ≤ s1 by omega) (show s1 < _ by omega)
              have h3 := kn_mono hr.1 hk (show k2 < _ by omega)
              rw [e1] at h2
              rw [e2] at h1
              exact absurd (lt_of_lt_of_le h1 (h2.trans h3)) (lt_irrefl _)
            unfold elev
            congr 1
            rw [leaveOut_sum, leaveOut_sum]
            apply Finset.sum_congr rfl
            intro i hi
            have hi' := Finset.mem_range.mp hi
            rw [win_length] at hi'
            apply blos_cont' (kn c.Knots.Values) p s1 s2 _ hs12 a1
              (fun i j hij hj => kn_mono hw.clamped.sorted hij (by omega)) (isSpan_jump sp1) (isSpan_jump sp2)
            · rw [List.length_eraseIdx_of_lt (by simpa using hi')]; simp
            · exact raised_subperm hr hw.clamped.sorted hk hs12 (by omega) hl2 hI1 hI2 (isSpan_jump sp1)
                (isSpan_jump sp2) j1 j2 e1 e2 hi'
          intro k2 s2 g1 g2 g3 g4 g5
          rcases Nat.le_total k k2 with hkk | hkk
          · exact key hkk h1 g2 g3 h4 g4 h5 g5
          · exact (key hkk g1 h2 h3 g4 h4 g5 h5).symm
      · have hlc := hw.count
        have hl0 := hw.clamped.len
        refine ⟨hpts c.ControlPoints 0, fun _ => ⟨hw.weights 0 (by omega), fun L b hL => hL 0 (by omega), ?_⟩⟩
        intro k s h1 h2 h3 h4 h5
        exact absurd ⟨k, s, h1, h2, h3, h4, h5⟩ hex
    · exact ⟨0, fun h => absurd h hI⟩
  choose R hR using hR
  have hh : ∀ i, i < l'.length - (p + 2) →
      hpts (tab (l'.length - (p + 2)) fun I => unhomo (R I)) i = R i := by
    intro i hi
    unfold hpts
    rw [pt_tab _ _ _ hi, toHomo_unhomo (hR i (by omega)).1.ne']
  refine ⟨⟨((p + 1 : ℕ) : Int), ⟨l'⟩, tab (l'.length - (p + 2)) fun I => unhomo (R I)⟩, ⟨rfl, hc', ?_, ?_⟩, rfl, ?_, ?_⟩
  · simp only [tab_length]; omega
  · intro i hi
    simp only [tab_length] at hi
    rw [pt_tab _ _ _ hi]
    exact (hR i (by omega)).1
  · intro L b hL i hi
    simp only [tab_length] at hi
    rw [hh i hi]
    exact (hR i (by omega)).2.1 L b hL
  · intro x hx0 hx1 s k hs hk ts hts
    obtain ⟨a1, a2, a3, _⟩ := evaluate_seg hw hx0 hx1 hs
    obtain ⟨k', hk', b1, b2⟩ := exists_span hc' hx0 hx1
    obtain rfl : k = k' := isSpan_unique hc'.sorted hk hk' (fun i hi => hc'.le_one hi)
    have e := span_same hw.clamped.sorted hr.1 hr.mem (fun v hv => (cb v hv).2) hs hk
    have hs' : IsSpan c.Knots.Values (kn l' k) s := by
      rw [← e]; exact isSpan_left hs.1 (isSpan_jump hs)
    apply blos_dual (kn l') k (p + 1) _ _ (multiAffine_elev (multiAffine_blos _ s p _ a1 a3)) b1
      (regSpan_of_sorted hc'.sorted (isSpan_jump hk) (by omega)) _ ts hts
    intro i hi1 hi2
    rw [hh i (by omega)]
    exact (hR i (by omega)).2.2 k s hi2 (by omega) (by omega) (isSpan_jump hk) hs'

/-- The `t` times elevated curve. -/
theorem elevate_many {p : ℕ} (hp : 1 ≤ p) {c : Curve K} (hw : WFCurve p c) (t : ℕ) :
    ∃ c' : Curve K, WFCurve (p + t) c' ∧ Raised t c.Knots.Values c'.Knots.Values ∧ InHull c.ControlPoints c'.ControlPoints ∧
      ∀ x, 0 ≤ x → x ≤ 1 → ∀ s k, IsSpan c.Knots.Values x s → IsSpan c'.Knots.Values x k →
        BezElev p t (fun us => blos (kn c.Knots.Values) us (hpts c.ControlPoints) s)
          (fun us => blos (kn c'.Knots.Values) us (hpts c'.ControlPoints) k) := by
  induction t with
  | zero =>
    refine ⟨c, hw, ⟨hw.clamped.sorted, fun v => by simp⟩, InHull.refl _, ?_⟩
    intro x h0 h1 s k hs hk
    rw [isSpan_unique hw.clamped.sorted hs hk (fun i hi => hw.clamped.le_one hi)]
    exact bezElev_zero p _
  | succ t ih =>
    obtain ⟨c1, hw1, hr1, hh1, hb1⟩ := ih
    obtain ⟨l', hl'⟩ := exists_raised 1 c1.Knots.Values
    obtain ⟨c2, hw2, he2, hh2, hb2⟩ := elevate_one (by omega) hw1 hl'
    refine ⟨c2, hw2, he2 ▸ hr1.step hl', hh1.trans hh2, ?_⟩
    intro x h0 h1 s k hs hk
    obtain ⟨s1, hs1, a, b⟩ := exists_span hw1.clamped h0 h1
    obtain ⟨a1, a2, a3, _⟩ := evaluate_seg hw1 h0 h1 hs1
    apply bezElev_succ (multiAffine_blos _ s1 (p + t) _ a1 a3).perm (hb1 x h0 h1 s s1 hs hs1)
    intro ts hts
    rw [he2] at hk ⊢
    exact hb2 x h0 h1 s1 k hs1 hk ts hts

end Nurbs
