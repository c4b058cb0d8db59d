import Verif.Proof.Insert2
import Verif.Props.KnotVector

/-! # Bezier extraction -/

set_option linter.unusedSectionVars false

namespace Nurbs
open Nurbs.Spec

theorem foldMList_append {α σ : Type} (f : α → σ → M σ) (as bs : List α) (s : σ) :
    foldMList f (as ++ bs) s = foldMList f as s >>= foldMList f bs := by
  induction as generalizing s with
  | nil => rfl
  | cons a as ih => simp only [List.cons_append, foldMList, bind_assoc']; congr 1; funext s'; exact ih s'

section anyArith
variable {K : Type} [Zero K] [One K] [Add K] [Sub K] [Mul K] [Div K] [Neg K] [NatCast K] [IntCast K] [LinearOrder K] [ZeroLEOneClass K] [NeZero (1 : K)]

/-- A clamped vector is `p+1` zeros, knots strictly inside, `p+1` ones. -/
theorem clamped_split {p : ℕ} {l : List K} (hc : Clamped p l) :
    ∃ mid : List K, l = List.replicate (p + 1) 0 ++ mid ++ List.replicate (p + 1) 1 ∧ ∀ v ∈ mid, 0 < v ∧ v < 1 := by
  have hlen := hc.len
  refine ⟨(l.drop (p + 1)).take (l.length - (2 * p + 2)), ?_, ?_⟩
  · apply List.ext_getElem?
    intro i
    by_cases h1 : i < p + 1
    · rw [List.append_assoc, List.getElem?_append_left (by simpa using h1), List.getElem?_replicate, if_pos h1,
        List.getElem?_eq_getElem (by omega), ← kn_eq_getElem, hc.zeros i (by omega)]
    · by_cases h2 : i < l.length - (p + 1)
      · rw [List.append_assoc, List.getElem?_append_right (by simp; omega), List.getElem?_append_left (by simp; omega),
          List.getElem?_take, if_pos (by simp; omega), List.getElem?_drop]
        congr 1; simp; omega
      · by_cases h3 : i < l.length
        · rw [List.getElem?_append_right (by simp; omega), List.getElem?_replicate, if_pos (by simp; omega),
            List.getElem?_eq_getElem h3, ← kn_eq_getElem, hc.ones i h3 (by omega)]
        · rw [List.getElem?_eq_none (by omega), List.getElem?_eq_none (by simp; omega)]
  · intro v hv
    obtain ⟨i, hi, rfl⟩ := List.getElem_of_mem hv
    simp only [List.length_take, List.length_drop] at hi
    rw [List.getElem_take, List.getElem_drop, ← kn_eq_getElem _ _ (by omega)]
    exact ⟨lt_of_lt_of_le hc.first (kn_mono hc.sorted (by omega) (by omega)),
      lt_of_le_of_lt (kn_mono hc.sorted (by omega) (by omega)) hc.last⟩

theorem clamped_count {p : ℕ} {l : List K} (hc : Clamped p l) : l.count 0 = p + 1 ∧ l.count 1 = p + 1 ∧
    ∀ v ∈ l, 0 ≤ v ∧ v ≤ 1 := by
  obtain ⟨mid, rfl, hm⟩ := clamped_split hc
  have h0 : mid.count 0 = 0 := List.count_eq_zero.mpr fun h => lt_irrefl _ (hm 0 h).1
  have h1 : mid.count 1 = 0 := List.count_eq_zero.mpr fun h => lt_irrefl _ (hm 1 h).2
  refine ⟨?_, ?_, ?_⟩
  · simp [List.count_append, h0, List.count_replicate]
  · simp [List.count_append, h1, List.count_replicate]
  · intro v hv
    simp only [List.mem_append, List.mem_replicate] at hv
    rcases hv with (h | h) | h
    · rw [h.2]; exact ⟨le_rfl, zero_le_one⟩
    · exact ⟨(hm v h).1.le, (hm v h).2.le⟩
    · rw [h.2]; exact ⟨zero_le_one, le_rfl⟩

/-- The values `ExtractBezier` inserts. -/
def bezInsert (p : ℕ) (ps : List (KnotPair K)) : List K :=
  ps.flatMap fun q => if q.Value ≤ 0 ∨ q.Value ≥ 1 then [] else List.replicate (p - q.Multiplicity.toNat) q.Value

theorem extractInsert_eq (p : ℕ) (ps : List (KnotPair K)) (hm : ∀ q ∈ ps, 0 ≤ q.Multiplicity) (c : Curve K) :
    Curve.extractInsert p ps c = c.InsertKnotList (bezInsert p ps) := by
  induction ps generalizing c with
  | nil => rfl
  | cons q ps ih =>
    have ih' := fun c => ih (fun q hq => hm q (by simp [hq])) c
    have h0 := hm q (by simp)
    unfold Curve.extractInsert
    simp only [foldMList]
    unfold bezInsert
    rw [List.flatMap_cons]
    by_cases h1 : q.Value ≤ 0 ∨ q.Value ≥ 1
    · rw [if_pos h1, if_pos h1, bind_ok, List.nil_append]
      exact ih' c
    · rw [if_neg h1, if_neg h1]
      by_cases h2 : q.Multiplicity ≥ p
      · rw [if_pos h2, bind_ok, show p - q.Multiplicity.toNat = 0 by omega, List.replicate_zero, List.nil_append]
        exact ih' c
      · rw [if_neg h2]
        unfold Curve.InsertKnotList
        rw [foldMList_append]
        unfold Curve.InsertKnotTimes
        rw [vnew_of _ (p - q.Multiplicity.toNat) _ (by omega), bind_ok]
        unfold Curve.InsertKnotList
        congr 1
        funext c'
        exact ih' c'

theorem count_flatMap_rep (f : KnotPair K → ℕ) (ps : List (KnotPair K)) (hd : (ps.map (·.Value)).Nodup) (v : K) :
    (∀ q ∈ ps, q.Value = v → (ps.flatMap fun q => List.replicate (f q) q.Value).count v = f q) ∧
    (v ∉ ps.map (·.Value) → (ps.flatMap fun q => List.replicate (f q) q.Value).count v = 0) := by
  induction ps with
  | nil => simp
  | cons a ps ih =>
    rw [List.map_cons, List.nodup_cons] at hd
    obtain ⟨ih1, ih2⟩ := ih hd.2
    simp only [List.flatMap_cons, List.count_append, List.count_replicate, List.map_cons, List.mem_cons]
    constructor
    · intro q hq hv
      rcases hq with rfl | hq
      · rw [ih2 (by rw [← hv]; exact hd.1), hv]; simp
      · have : a.Value ≠ v := by
          intro h
          exact hd.1 (by rw [h, ← hv]; exact List.mem_map_of_mem (f := fun q : KnotPair K => q.Value) hq)
        rw [ih1 q hq hv]; simp [this]
    · intro h
      push Not at h
      rw [ih2 h.2]; simp [Ne.symm h.1]

theorem bezInsert_eq (p : ℕ) (ps : List (KnotPair K)) : bezInsert p ps =
    ps.flatMap fun q => List.replicate (if q.Value ≤ 0 ∨ q.Value ≥ 1 then 0 else p - q.Multiplicity.toNat) q.Value := by
  unfold bezInsert
  congr 1
  funext q
  split_ifs <;> simp

/-- Each value of `d` repeated `p` times. -/
def reps (p : ℕ) (d : List K) : List K := d.flatMap fun v => List.replicate p v

theorem count_reps (p : ℕ) (d : List K) (v : K) : (reps p d).count v = p * d.count v := by
  induction d with
  | nil => rfl
  | cons a d ih =>
    unfold reps at *
    rw [List.flatMap_cons, List.count_append, ih, List.count_replicate, List.count_cons]
    split_ifs <;> simp [Nat.mul_add, Nat.add_comm]

theorem reps_getElem? (p : ℕ) (hp : 1 ≤ p) (d : List K) (n : ℕ) : (reps p d)[n]? = d[n / p]? := by
  induction d generalizing n with
  | nil => simp [reps]
  | cons a d ih =>
    unfold reps at *
    rw [List.flatMap_cons]
    by_cases h : n < p
    · rw [List.getElem?_append_left (by simpa using h), List.getElem?_replicate, if_pos h, Nat.div_eq_of_lt h]
      simp
    · rw [List.getElem?_append_right (by simp; omega), List.length_replicate, ih]
      obtain ⟨m, rfl⟩ : ∃ m, n = m + p := ⟨n - p, by omega⟩
      rw [Nat.add_sub_cancel, Nat.add_div_right _ (by omega), List.getElem?_cons_succ]

theorem reps_length (p : ℕ) (d : List K) : (reps p d).length = p * d.length := by
  induction d with
  | nil => rfl
  | cons a d ih =>
    unfold reps at *
    rw [List.flatMap_cons, List.length_append, ih, List.length_replicate, List.length_cons]; ring

theorem reps_sorted (p : ℕ) (d : List K) (hd : d.Pairwise (· < ·)) : (reps p d).Pairwise (· ≤ ·) := by
  induction d with
  | nil => simp [reps]
  | cons a d ih =>
    rw [List.pairwise_cons] at hd
    unfold reps at *
    rw [List.flatMap_cons, List.pairwise_append]
    refine ⟨List.pairwise_replicate.mpr (Or.inr le_rfl), ih hd.2, ?_⟩
    intro x hx y hy
    rw [List.eq_of_mem_replicate hx]
    simp only [List.mem_flatMap, List.mem_replicate] at hy
    obtain ⟨z, hz, _, rfl⟩ := hy
    exact (hd.1 y hz).le

/-- Distinct knot values. -/
def dvals (kv : KnotVector K) : List K := kv.GetKnotPairs.map (·.Value)

/-- The refined knot vector of `ExtractBezier`. -/
theorem bezier_knots {p : ℕ} (hp : 1 ≤ p) {kv : KnotVector K} (hc : Clamped p kv.Values)
    (hmult : ∀ v, 0 < v → v < 1 → kv.Values.count v ≤ p) {W : List K} (hW : W.Pairwise (· ≤ ·))
    (hperm : W.Perm (bezInsert p kv.GetKnotPairs ++ kv.Values)) :
    W = 0 :: (reps p (dvals kv) ++ [1]) := by
  obtain ⟨_, _, h3⟩ := Props.C03_pairs_roundtrip kv
  obtain ⟨p1, p2, p3⟩ := h3 hc.sorted
  obtain ⟨c0, c1, cb⟩ := clamped_count hc
  have hnd : (kv.GetKnotPairs.map (·.Value)).Nodup := p1.imp (fun h => h.ne)
  apply List.Perm.eq_of_pairwise (fun x y _ _ h1 h2 => le_antisymm h1 h2) hW
  · rw [List.pairwise_cons, List.pairwise_append]
    have hmem : ∀ a ∈ reps p (dvals kv), a ∈ kv.Values := by
      intro a ha
      simp only [reps, List.mem_flatMap, List.mem_replicate] at ha
      obtain ⟨z, hz, _, rfl⟩ := ha
      exact (p2 a).mp hz
    refine ⟨?_, reps_sorted _ _ p1, by simp, ?_⟩
    · intro a ha
      rw [List.mem_append] at ha
      rcases ha with ha | ha
      · exact (cb a (hmem a ha)).1
      · rw [List.mem_singleton.mp ha]; exact zero_le_one
    · intro a ha b hb
      rw [List.mem_singleton.mp hb]
      exact (cb a (hmem a ha)).2
  · rw [List.perm_iff_count]
    intro v
    rw [hperm.count_eq, List.count_append, bezInsert_eq]
    unfold dvals
    rw [List.count_cons, List.count_append, count_reps, List.count_cons, List.count_nil]
    obtain ⟨k1, k2⟩ := count_flatMap_rep (fun q : KnotPair K => if q.Value ≤ 0 ∨ q.Value ≥ 1 then 0 else p - q.Multiplicity.toNat)
      kv.GetKnotPairs hnd v
    by_cases hv : v ∈ kv.Values
    · have hv' := (p2 v).mpr hv
      obtain ⟨q, hq, hqv⟩ := List.mem_map.mp hv'
      rw [k1 q hq hqv, List.count_eq_one_of_mem hnd hv']
      have hm := p3 q hq
      rw [hqv] at hm ⊢
      by_cases hint : v ≤ 0 ∨ v ≥ 1
      · rw [if_pos hint]
        have : v = 0 ∨ v = 1 := by
          obtain ⟨b0, b1⟩ := cb v hv
          rcases hint with h | h
          · exact Or.inl (le_antisymm h b0)
          · exact Or.inr (le_antisymm b1 h)
        rcases this with h | h
        · subst h; rw [c0]; simp
        · subst h; rw [c1]; simp
      · rw [if_neg hint]
        push Not at hint
        have := hmult v hint.1 hint.2
        have n0 : (0 : K) ≠ v := hint.1.ne
        have n1 : (1 : K) ≠ v := hint.2.ne'
        simp [n0, n1, hm]; omega
    · have hv' : v ∉ kv.GetKnotPairs.map (·.Value) := fun h => hv ((p2 v).mp h)
      have n0 : (0 : K) ≠ v := by
        rintro rfl
        exact hv (List.count_pos_iff.mp (by omega))
      have n1 : (1 : K) ≠ v := by
        rintro rfl
        exact hv (List.count_pos_iff.mp (by omega))
      rw [k2 hv', List.count_eq_zero_of_not_mem hv, List.count_eq_zero_of_not_mem hv']
      simp [n0, n1]


/-- The `j`-th Bezier piece read off the refined control points. -/
def bezSeg (p : ℕ) (ctrl : List (Vec4 K)) (j : ℕ) : Curve K :=
  ⟨p, ⟨List.replicate (p + 1) 0 ++ List.replicate (p + 1) 1⟩, tab (p + 1) fun r => pt ctrl (p * j + r)⟩

/-- The second loop, given the knot vector of a Bezier piece. -/
theorem extractSegments_gen {p : ℕ} (hp : 1 ≤ p)
    (hu : (KnotVector.Uniform (p : Int) (2 * p + 2) : M (KnotVector K)) = .ok ⟨List.replicate (p + 1) 0 ++ List.replicate (p + 1) 1⟩) (ctrl : List (Vec4 K)) (m : ℕ) (hn : ctrl.length = p * m + 1) :
    ∀ r j fuel, r + j = m → r + 1 ≤ fuel →
      Curve.extractSegments (p : Int) ctrl fuel ((p * j : ℕ) : Int) = .ok (tab r fun t => bezSeg p ctrl (j + t)) := by
  intro r
  induction r with
  | zero =>
    intro j fuel hj hf
    obtain ⟨f, rfl⟩ : ∃ f, fuel = f + 1 := ⟨fuel - 1, by omega⟩
    obtain rfl : j = m := by omega
    simp only [Curve.extractSegments]
    rw [if_neg (by push_cast [hn]; omega)]
    rfl
  | succ r ih =>
    intro j fuel hj hf
    obtain ⟨f, rfl⟩ : ∃ f, fuel = f + 1 := ⟨fuel - 1, by omega⟩
    have hjm : p * (j + 1) ≤ p * m := Nat.mul_le_mul_left p (by omega)
    rw [Nat.mul_add, Nat.mul_one] at hjm
    simp only [Curve.extractSegments]
    rw [if_pos (by constructor <;> omega), hu, bind_ok, vnew_of _ (p + 1) _ (by push_cast; rfl), bind_ok, replicate_eq_tab,
      forLe_eq_forUp 0 p (p + 1) (by omega)]
    have hloop := forUp_eq (fun k pts => do vset pts k (← vget ctrl (((p * j : ℕ) : Int) + k)))
      (fun q => tab (p + 1) fun r => if r < q then pt ctrl (p * j + r) else 0) (p + 1) 0 (by
        intro q hq
        rw [vget_pt ctrl _ (p * j + q) (by push_cast; ring) (by omega), bind_ok]
        apply vset_tab' _ _ _ _ q _ (by simp) hq
        intro k hk
        by_cases h : k = q
        · subst h; simp
        · rw [if_neg h]
          by_cases h2 : k < q
          · rw [if_pos (by omega), if_pos h2]
          · rw [if_neg (by omega), if_neg h2])
    have hinit : (tab (p + 1) fun _ : ℕ => (0 : Vec4 K)) = tab (p + 1) fun r => if r < 0 then pt ctrl (p * j + r) else 0 :=
      tab_congr fun i _ => by simp
    rw [hinit, hloop, bind_ok]
    have e := ih (j + 1) f (by omega) (by omega)
    rw [show ((p * (j + 1) : ℕ) : Int) = ((p * j : ℕ) : Int) + p by push_cast; ring] at e
    rw [e, bind_ok]
    simp only [pure_ok]
    congr 1
    have ht : tab (r + 1) (fun t => bezSeg p ctrl (j + t)) = bezSeg p ctrl j :: tab r (fun t => bezSeg p ctrl (j + 1 + t)) := by
      simp only [tab, List.range_succ_eq_map, List.map_cons, List.map_map, Nat.add_zero]
      congr 1
      apply List.map_congr_left
      intro t _
      simp only [Function.comp, Nat.succ_eq_add_one]
      congr 1; omega
    rw [ht]
    congr 1
    unfold bezSeg
    congr 1
    apply tab_congr
    intro i hi
    rw [if_pos hi]

theorem bez_kn (p i : ℕ) : kn (List.replicate (p + 1) (0 : K) ++ List.replicate (p + 1) 1) i =
    if i ≤ p then 0 else if i ≤ 2 * p + 1 then 1 else 0 := by
  unfold kn
  rw [List.getD_eq_getElem?_getD]
  by_cases h : i ≤ p
  · rw [if_pos h, List.getElem?_append_left (by simp; omega), List.getElem?_replicate, if_pos (by omega)]; rfl
  · rw [if_neg h, List.getElem?_append_right (by simp; omega), List.getElem?_replicate]
    by_cases h2 : i ≤ 2 * p + 1
    · rw [if_pos h2, if_pos (by simp; omega)]; rfl
    · rw [if_neg h2, if_neg (by simp; omega)]; rfl

end anyArith

variable {K : Type} [Field K] [LinearOrder K] [IsStrictOrderedRing K]

theorem uniform_bezier (p : ℕ) : (KnotVector.Uniform (p : Int) (2 * p + 2) : M (KnotVector K)) =
    .ok ⟨List.replicate (p + 1) 0 ++ List.replicate (p + 1) 1⟩ := by
  have h := uniform_values (K := K) p 0
  have hw := uniform_wellFormed (K := K) p 0
  simp only [Nat.add_zero, List.range_zero, List.map_nil, List.append_nil] at h hw
  rw [show ((2 * p + 2 : ℕ) : Int) = 2 * p + 2 by push_cast; rfl] at h
  rw [h]
  exact (Props.C01_constructor_accepts_exactly _).1 hw

theorem extractSegments_ok {p : ℕ} (hp : 1 ≤ p) (ctrl : List (Vec4 K)) (m : ℕ) (hn : ctrl.length = p * m + 1) :
    ∀ r j fuel, r + j = m → r + 1 ≤ fuel →
      Curve.extractSegments (p : Int) ctrl fuel ((p * j : ℕ) : Int) = .ok (tab r fun t => bezSeg p ctrl (j + t)) :=
  extractSegments_gen hp (uniform_bezier p) ctrl m hn

theorem bez_clamped (p : ℕ) : Clamped p (List.replicate (p + 1) (0 : K) ++ List.replicate (p + 1) 1) := by
  have hl : (List.replicate (p + 1) (0 : K) ++ List.replicate (p + 1) 1).length = 2 * p + 2 := by simp; omega
  refine ⟨hl.ge, ?_, ?_, ?_, ?_, ?_⟩
  · have := (uniform_wellFormed (K := K) p 0).2.1
    simpa using this
  · intro i hi; rw [bez_kn, if_pos hi]
  · intro i hi h; rw [bez_kn, if_neg (by omega), if_pos (by omega)]
  · rw [bez_kn, if_neg (by omega), if_pos (by omega)]; exact zero_lt_one
  · rw [hl, bez_kn, if_pos (by omega)]; exact zero_lt_one

/-- A polar form composed with an affine map is multiaffine. -/
theorem MultiAffine.comp_affine {V : Type} [AddCommGroup V] [Module K V] {p : ℕ} {F : List K → V} (h : MultiAffine p F) (a b : K) :
    MultiAffine p (fun ts => F (ts.map fun t => a + t * (b - a))) where
  perm := fun as bs hl hp => h.perm _ _ (by simpa using hl) (hp.map _)
  affine := fun c s t ts hl => by
    have := h.affine c (a + s * (b - a)) (a + t * (b - a)) (ts.map fun t => a + t * (b - a)) (by simpa using hl)
    simp only [List.map_cons]
    rw [← this]
    congr 2; ring

/-- The Bezier points of a full-multiplicity segment reproduce the segment. -/
theorem seg_bezier {V : Type} [AddCommGroup V] [Module K V] (W : ℕ → K) (s p : ℕ) (P : ℕ → V) (a b : K) (hps : p ≤ s)
    (hr : RegSpan W s p) (ha : ∀ i, s - p < i → i ≤ s → W i = a) (hb : ∀ i, s < i → i ≤ s + p → W i = b) (t : K) :
    seg (kn (List.replicate (p + 1) (0 : K) ++ List.replicate (p + 1) 1)) p t p (fun i => P (s - p + i)) =
      seg W s (a + t * (b - a)) p P := by
  have hF := (multiAffine_blos W s p P hps hr).comp_affine a b
  have hrB : RegSpan (kn (List.replicate (p + 1) (0 : K) ++ List.replicate (p + 1) 1)) p p := by
    intro q i hq h1 h2
    rw [bez_kn, bez_kn, if_neg (by omega), if_pos (by omega), if_pos (by omega)]
    exact one_ne_zero
  have h := seg_eq_of_dual (kn (List.replicate (p + 1) (0 : K) ++ List.replicate (p + 1) 1)) p p (fun i => P (s - p + i)) _ hF le_rfl hrB
    (by
      intro i _ hi
      have e : (win (kn (List.replicate (p + 1) (0 : K) ++ List.replicate (p + 1) 1)) i p).map (fun t => a + t * (b - a)) =
          win W (s - p + i) p := by
        unfold win
        rw [List.map_map]
        apply List.map_congr_left
        intro r hr
        have hr := List.mem_range.mp hr
        simp only [Function.comp]
        rw [bez_kn]
        by_cases h : i + 1 + r ≤ p
        · rw [if_pos h, ha _ (by omega) (by omega)]; ring
        · rw [if_neg h, if_pos (by omega), hb _ (by omega) (by omega)]; ring
      rw [e, blos_win W s p _ P hps hr (by omega) (by omega)]) t
  rw [h, seg_eq_blos W s _ p P hps, List.map_replicate]

theorem extractBezier_spec {p : ℕ} (hp : 1 ≤ p) {c : Curve K} (hw : WFCurve p c)
    (hmult : ∀ v, 0 < v → v < 1 → c.Knots.Values.count v ≤ p) :
    ∃ (c' : Curve K) (m : ℕ), WFCurve p c' ∧ SamePolar p c c' ∧ (dvals c.Knots).length = m + 1 ∧
      c'.ControlPoints.length = p * m + 1 ∧
      c'.Knots.Values = 0 :: (reps p (dvals c.Knots) ++ [1]) ∧
      c.ExtractBezier = .ok (tab m (bezSeg p c'.ControlPoints)) ∧
      ∃ vs : List K, (∀ v ∈ vs, 0 < v ∧ v < 1) ∧ c.InsertKnotList vs = .ok c' ∧ vs = bezInsert p c.Knots.GetKnotPairs := by
  obtain ⟨_, _, h3⟩ := Props.C03_pairs_roundtrip c.Knots
  obtain ⟨p1, p2, p3⟩ := h3 hw.clamped.sorted
  have hvs : ∀ v ∈ bezInsert p c.Knots.GetKnotPairs, 0 < v ∧ v < 1 := by
    intro v hv
    simp only [bezInsert, List.mem_flatMap] at hv
    obtain ⟨q, hq, hv⟩ := hv
    split_ifs at hv with h
    · simp at hv
    · rw [List.eq_of_mem_replicate hv]
      push Not at h
      exact h
  obtain ⟨c', e, hw', hperm, hs⟩ := insertList_spec (bezInsert p c.Knots.GetKnotPairs) hvs hw
  have hkn := bezier_knots hp hw.clamped hmult hw'.clamped.sorted hperm
  have hne : dvals c.Knots ≠ [] := by
    intro h
    have h0 : (0 : K) ∈ c.Knots.Values := by
      have := (clamped_count hw.clamped).1
      exact List.count_pos_iff.mp (by omega)
    have := (p2 0).mpr h0
    unfold dvals at h
    rw [h] at this
    simp at this
  obtain ⟨m, hm⟩ : ∃ m, (dvals c.Knots).length = m + 1 := ⟨(dvals c.Knots).length - 1, by
    have := List.length_pos_iff.mpr hne; omega⟩
  have hlen : c'.ControlPoints.length = p * m + 1 := by
    have h1 := hw'.count
    rw [hkn] at h1
    simp only [List.length_cons, List.length_append, reps_length, List.length_nil, hm, Nat.mul_add] at h1
    omega
  refine ⟨c', m, hw', hs, hm, hlen, hkn, ?_, _, hvs, e, rfl⟩
  unfold Curve.ExtractBezier
  rw [hw.degree, extractInsert_eq p _ (fun q hq => by have := (getKnotPairs_spec c.Knots hw.clamped.sorted).2 q hq; omega), e, bind_ok,
    hw'.degree]
  have hf : m + 1 ≤ c'.ControlPoints.length + 1 := by
    rw [hlen]
    have := Nat.le_mul_of_pos_left m (show 0 < p by omega)
    omega
  have := extractSegments_ok hp c'.ControlPoints m hlen m 0 (c'.ControlPoints.length + 1) (by omega) hf
  simp only [Nat.mul_zero, Nat.cast_zero, Nat.zero_add] at this
  exact this

theorem kn_reps (p : ℕ) (hp : 1 ≤ p) (d : List K) (i : ℕ) (h : i < p * d.length) :
    kn (0 :: (reps p d ++ [1])) (i + 1) = d.getD (i / p) 0 := by
  unfold kn
  rw [List.getD_eq_getElem?_getD, List.getElem?_cons_succ, List.getElem?_append_left (by rw [reps_length]; exact h),
    reps_getElem? p hp, List.getD_eq_getElem?_getD]

/-- The pieces of `ExtractBezier`. -/
theorem bezSeg_spec {p : ℕ} (hp : 1 ≤ p) {c c' : Curve K} (hw : WFCurve p c) (hw' : WFCurve p c') (hs : SamePolar p c c') {m : ℕ}
    {d : List K} (hd : d.Pairwise (· < ·)) (hm : d.length = m + 1) (hlen : c'.ControlPoints.length = p * m + 1)
    (hkn : c'.Knots.Values = 0 :: (reps p d ++ [1])) (j : ℕ) (hj : j < m) :
    WFCurve p (bezSeg p c'.ControlPoints j) ∧ 0 ≤ d.getD j 0 ∧ d.getD j 0 < d.getD (j + 1) 0 ∧ d.getD (j + 1) 0 ≤ 1 ∧
    (∀ t, 0 ≤ t → t ≤ 1 → (bezSeg p c'.ControlPoints j).Evaluate t =
      c.Evaluate (d.getD j 0 + t * (d.getD (j + 1) 0 - d.getD j 0))) := by
  have hjm : p * (j + 1) ≤ p * m := Nat.mul_le_mul_left p (by omega)
  rw [Nat.mul_add, Nat.mul_one] at hjm
  have hwb : WFCurve p (bezSeg p c'.ControlPoints j) := by
    refine ⟨rfl, bez_clamped p, by simp [bezSeg]; omega, ?_⟩
    intro i hi
    simp only [bezSeg, tab_length] at hi
    simp only [bezSeg]
    rw [pt_tab _ _ _ hi]
    exact hw'.weights _ (by omega)
  have hab : d.getD j 0 < d.getD (j + 1) 0 := by
    rw [List.getD_eq_getElem _ _ (by omega), List.getD_eq_getElem _ _ (by omega)]
    exact List.pairwise_iff_getElem.mp hd j (j + 1) (by omega) (by omega) (by omega)
  have hknots : ∀ r i, 0 < i → i ≤ p → r ≤ m → kn c'.Knots.Values (p * r + i) = d.getD r 0 := by
    intro r i h1 h2 h3
    have hrm : p * r ≤ p * m := Nat.mul_le_mul_left p h3
    rw [hkn, show p * r + i = (p * r + (i - 1)) + 1 by omega, kn_reps p hp d _ (by rw [hm, Nat.mul_add]; omega)]
    congr 1
    rw [Nat.mul_add_div (by omega), Nat.div_eq_of_lt (by omega), Nat.add_zero]
  have hcount := hw'.count
  have hs1 : kn c'.Knots.Values (p * j + p) = d.getD j 0 := hknots j p (by omega) le_rfl (by omega)
  have hs2 : kn c'.Knots.Values (p * j + p + 1) = d.getD (j + 1) 0 := by
    have := hknots (j + 1) 1 (by omega) hp (by omega)
    rwa [Nat.mul_add, Nat.mul_one] at this
  have ha0 : 0 ≤ d.getD j 0 := by rw [← hs1]; exact hw'.clamped.nonneg (by omega)
  have hb1 : d.getD (j + 1) 0 ≤ 1 := by rw [← hs2]; exact hw'.clamped.le_one (by omega)
  refine ⟨hwb, ha0, hab, hb1, ?_⟩
  intro t ht0 ht1
  set a := d.getD j 0 with ha
  set b := d.getD (j + 1) 0 with hb
  have hx0 : 0 ≤ a + t * (b - a) := add_nonneg ha0 (mul_nonneg ht0 (by linarith))
  have hxb : a + t * (b - a) ≤ b := by nlinarith
  have hx1 : a + t * (b - a) ≤ 1 := hxb.trans hb1
  rw [← hs.evaluate hw hw' hx0 hx1]
  have hspB : IsSpan (bezSeg p c'.ControlPoints j).Knots.Values t p := by
    simp only [bezSeg, IsSpan, bez_kn]
    rw [if_pos le_rfl, if_neg (by omega), if_pos (by omega)]
    refine ⟨by simp, ht0, ?_⟩
    rcases lt_or_eq_of_le ht1 with h | h
    · exact Or.inl h
    · exact Or.inr ⟨h, zero_lt_one, rfl⟩
  obtain ⟨_, _, _, _, eB⟩ := evaluate_seg hwb ht0 ht1 hspB
  have hreg : RegSpan (kn c'.Knots.Values) (p * j + p) p :=
    regSpan_of_sorted hw'.clamped.sorted (by rw [hs1, hs2]; exact hab) (by omega)
  have hsegB := seg_bezier (kn c'.Knots.Values) (p * j + p) p (hpts c'.ControlPoints) a b (by omega) hreg
    (by
      intro i h1 h2
      have := hknots j (i - p * j) (by omega) (by omega) (by omega)
      rwa [show p * j + (i - p * j) = i by omega] at this)
    (by
      intro i h1 h2
      have := hknots (j + 1) (i - (p * j + p)) (by omega) (by omega) (by omega)
      rwa [Nat.mul_add, Nat.mul_one, show p * j + p + (i - (p * j + p)) = i by omega] at this) t
  have hcongr : seg (kn (bezSeg p c'.ControlPoints j).Knots.Values) p t p (hpts (bezSeg p c'.ControlPoints j).ControlPoints) =
      seg (kn c'.Knots.Values) (p * j + p) (a + t * (b - a)) p (hpts c'.ControlPoints) := by
    rw [← hsegB]
    apply seg_congr le_rfl
    intro i _ hi
    simp only [hpts, bezSeg]
    rw [pt_tab _ _ _ (by omega), Nat.add_sub_cancel]
  rw [eB, hcongr]
  rcases lt_or_eq_of_le ht1 with h | h
  · have hsp : IsSpan c'.Knots.Values (a + t * (b - a)) (p * j + p) := by
      refine ⟨by omega, ?_, Or.inl ?_⟩
      · rw [hs1]; have := mul_nonneg ht0 (show 0 ≤ b - a by linarith); linarith
      · rw [hs2]; nlinarith
    rw [(evaluate_seg hw' hx0 hx1 hsp).2.2.2.2]
  · -- right end: both are the shared control point
    have hxe : a + t * (b - a) = b := by rw [h]; ring
    rw [hxe]
    have hL : seg (kn c'.Knots.Values) (p * j + p) b p (hpts c'.ControlPoints) = hpts c'.ControlPoints (p * j + p) := by
      apply seg_eq_point _ _ _ _ _ _ (by omega) hreg (by omega) le_rfl
      intro i h1 h2
      have := hknots (j + 1) (i - (p * j + p)) (by omega) (by omega) (by omega)
      rwa [Nat.mul_add, Nat.mul_one, show p * j + p + (i - (p * j + p)) = i by omega] at this
    rw [hL]
    obtain ⟨s, hsp, _, _⟩ := exists_span hw'.clamped (hxe ▸ hx0) hb1
    obtain ⟨q1, q2, q3, _, e⟩ := evaluate_seg hw' (hxe ▸ hx0) hb1 hsp
    rw [e]
    congr 2
    symm
    have hge : p * j + p ≤ s := by
      by_contra hcon
      have m1 := IsSpan.le_right hsp
      have m2 := kn_mono hw'.clamped.sorted (show s + 1 ≤ p * j + p by omega) (by omega)
      rw [hs1] at m2
      exact absurd (m1.trans m2) (not_le.mpr hab)
    have hle : s ≤ p * j + p + p := by
      by_cases hjm' : j + 1 = m
      · have : p * m = p * j + p := by rw [← hjm', Nat.mul_add, Nat.mul_one]
        omega
      · by_contra hcon
        have hjm2 : p * (j + 2) ≤ p * m := Nat.mul_le_mul_left p (by omega)
        rw [Nat.mul_add] at hjm2
        have m2 := kn_mono hw'.clamped.sorted (show p * j + p + p + 1 ≤ s by omega) (by omega)
        have := hknots (j + 2) 1 (by omega) hp (by omega)
        rw [show p * (j + 2) + 1 = p * j + p + p + 1 by ring] at this
        rw [this] at m2
        have h3 : d.getD (j + 1) 0 < d.getD (j + 2) 0 := by
          rw [List.getD_eq_getElem _ _ (by omega), List.getD_eq_getElem _ _ (by omega)]
          exact List.pairwise_iff_getElem.mp hd (j + 1) (j + 2) (by omega) (by omega) (by omega)
        exact absurd (lt_of_lt_of_le h3 (m2.trans hsp.2.1)) (lt_irrefl _)
    apply seg_eq_point _ _ _ _ _ _ q1 q3 (by omega) hge
    intro i h1 h2
    have := hknots (j + 1) (i - (p * j + p)) (by omega) (by omega) (by omega)
    rwa [Nat.mul_add, Nat.mul_one, show p * j + p + (i - (p * j + p)) = i by omega] at this

end Nurbs
