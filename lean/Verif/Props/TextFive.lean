import Verif.Props.SerialStable

/-! # C57, C65: which numbers a text file does not keep -/

set_option linter.unusedSectionVars false
set_option exponentiation.threshold 2000

namespace Nurbs

open Serial

theorem magUnits_step {n : ℕ} (h : n < 1019 * 2 ^ 52) : ∃ k ≤ 1017, magUnits (n + 1) = magUnits n + 2 ^ k := by
  obtain ⟨k, m, hn, hm, hk, e⟩ := mag_split n
  refine ⟨k, ?_, ?_⟩
  · rcases hk with hk | hk
    · omega
    · subst hn
      norm_num at *
      omega
  · rw [e, hn, add_assoc, magUnits_round (by omega) (by omega)]
    ring

theorem step_arith {T v v' d d' : ℕ} (h1 : 2 * v' ≤ 2 * (T * d') + T) (h2 : 2 * (T * d) ≤ 2 * v + T) (hv : v < v') (hd : d ≠ d') :
    d + 1 ≤ d' := by
  by_contra hc
  have hm := Nat.mul_le_mul_left T (show d' + 1 ≤ d by omega)
  rw [Nat.mul_add, Nat.mul_one] at hm
  omega

theorem five_arith {T v v' d d' : ℕ} (h1 : 2 * (T * d') ≤ 2 * v' + T) (h2 : 2 * v ≤ 2 * (T * d) + T) (hv : v' < v + 3 * T) : d' < d + 4 := by
  by_contra hc
  have hm := Nat.mul_le_mul_left T (show d + 4 ≤ d' by omega)
  rw [Nat.mul_add] at hm
  omega

/-- The decimals of a magnitude, as an integer. -/
def decimals (n : ℕ) : ℕ := roundHalfEven (magUnits n * 10 ^ 17) (2 ^ 1074)

/-- Two neighbouring magnitudes below 1/16 that are read back have texts that differ, the larger one's being larger. -/
theorem again_step {n : ℕ} (h : n < 1019 * 2 ^ 52) (h0 : again n = n) (h1 : again (n + 1) = n + 1) : decimals n + 1 ≤ decimals (n + 1) := by
  have hne : decimals n ≠ decimals (n + 1) := by
    intro e
    have : again n = again (n + 1) := congrArg (fun d => nearestBits d (10 ^ 17)) e
    omega
  obtain ⟨k, _, hk⟩ := magUnits_step h
  have hT : 0 < 2 ^ 1074 := Nat.pow_pos two_pos
  refine step_arith (roundHalfEven_close _ _ hT).2 (roundHalfEven_close _ _ hT).1 ?_ hne
  refine Nat.mul_lt_mul_of_pos_right ?_ (by norm_num)
  rw [hk]
  exact Nat.lt_add_of_pos_right (Nat.pow_pos two_pos)

/-- Of five neighbouring magnitudes below 1/16 at least one is not read back. -/
theorem five_not_again {n : ℕ} (h : n + 4 ≤ 1019 * 2 ^ 52) : ∃ i ≤ 4, again (n + i) ≠ n + i := by
  by_contra hc
  push Not at hc
  have s0 := again_step (n := n) (by omega) (hc 0 (by omega)) (hc 1 (by omega))
  have s1 := again_step (n := n + 1) (by omega) (hc 1 (by omega)) (hc 2 (by omega))
  have s2 := again_step (n := n + 2) (by omega) (hc 2 (by omega)) (hc 3 (by omega))
  have s3 := again_step (n := n + 3) (by omega) (hc 3 (by omega)) (hc 4 (by omega))
  have w : ∀ {m : ℕ}, m < 1019 * 2 ^ 52 → magUnits (m + 1) ≤ magUnits m + 2 ^ 1017 := by
    intro m hm
    obtain ⟨k, l, e⟩ := magUnits_step hm
    rw [e]
    exact Nat.add_le_add_left (Nat.pow_le_pow_right (by norm_num) l) _
  have w0 := w (m := n) (by omega)
  have w1 := w (m := n + 1) (by omega)
  have w2 := w (m := n + 2) (by omega)
  have w3 := w (m := n + 3) (by omega)
  rw [show n + 1 + 1 = n + 2 by omega] at *
  rw [show n + 2 + 1 = n + 3 by omega] at *
  rw [show n + 3 + 1 = n + 4 by omega] at *
  have hT : 0 < 2 ^ 1074 := Nat.pow_pos two_pos
  have hs : 2 ^ 1017 * (4 * 10 ^ 17) < 2 ^ 1017 * (3 * 2 ^ 57) := Nat.mul_lt_mul_of_pos_left (by norm_num) (Nat.pow_pos two_pos)
  have hT' : 2 ^ 1017 * (3 * 2 ^ 57) = 3 * 2 ^ 1074 := by
    rw [mul_left_comm, ← pow_add]
  have hv : magUnits (n + 4) * 10 ^ 17 < magUnits n * 10 ^ 17 + 3 * 2 ^ 1074 := by
    rw [← hT']
    refine lt_of_le_of_lt ?_ (Nat.add_lt_add_left hs _)
    generalize (2 : ℕ) ^ 1017 = T at *
    calc magUnits (n + 4) * 10 ^ 17 ≤ (magUnits n + 4 * T) * 10 ^ 17 := Nat.mul_le_mul_right _ (by omega)
      _ = _ := by ring
  have := five_arith (roundHalfEven_close _ _ hT).1 (roundHalfEven_close _ _ hT).2 hv
  have h4 : decimals (n + 4) < decimals n + 4 := this
  omega

theorem map_self {α : Type} {f : α → α} {l : List α} (h : l.map f = l) : ∀ x ∈ l, f x = x := by
  have h' : l.map f = l.map id := by rw [h, List.map_id]
  exact List.map_inj_left.1 h'

end Nurbs

namespace Nurbs.Props
open Nurbs Nurbs.Spec Serial Utils

/-- The number `x` occurs in the curve. -/
def OccursIn (x : F64) (c : Curve F64) : Prop := x ∈ c.Knots.Values ∨ ∃ v ∈ c.ControlPoints, x = v.x ∨ x = v.y ∨ x = v.z ∨ x = v.w

/-- The number `x` occurs in the surface. -/
def OccursInSurface (x : F64) (s : Surface F64) : Prop :=
  x ∈ s.KnotsU.Values ∨ x ∈ s.KnotsV.Values ∨ ∃ v ∈ s.ControlPoints.Values, x = v.x ∨ x = v.y ∨ x = v.z ∨ x = v.w

/-- Of five neighbouring doubles one is changed. -/
theorem five_changed {n : ℕ} (hn : n + 4 ≤ 1019 * 2 ^ 52) (neg : Bool) :
    ∃ i ≤ 4, ∀ x : F64, x = BitVec.ofNat 64 (n + i + if neg then 2 ^ 63 else 0) → FiniteF64 x → reread x ≠ x := by
  obtain ⟨i, hi, hne⟩ := five_not_again hn
  refine ⟨i, hi, fun x hx hf h => ?_⟩
  have hmod : x.toNat % 2 ^ 63 = n + i := by
    rw [hx, BitVec.toNat_ofNat]
    cases neg <;> norm_num at * <;> omega
  have := (reread_nat hf).1
  rw [h, hmod] at this
  exact hne this.symm

theorem point_changed {x : F64} (bad : FiniteF64 x → reread x ≠ x) {l : List (Vec4 F64)} (hf : ∀ v ∈ l, PointFinite v) (h : l.map rereadPt = l) {v : Vec4 F64}
    (hv : v ∈ l) (ho : x = v.x ∨ x = v.y ∨ x = v.z ∨ x = v.w) : False := by
  have h2 := map_self h v hv
  obtain ⟨f1, f2, f3, f4⟩ := hf v hv
  rcases ho with ho | ho | ho | ho
  · exact bad (ho ▸ f1) (by rw [ho]; exact congrArg Vec4.x h2)
  · exact bad (ho ▸ f2) (by rw [ho]; exact congrArg Vec4.y h2)
  · exact bad (ho ▸ f3) (by rw [ho]; exact congrArg Vec4.z h2)
  · exact bad (ho ▸ f4) (by rw [ho]; exact congrArg Vec4.w h2)

/-- C57 fails throughout below 1/16: of any five neighbouring doubles of absolute value at most 1/16 (given by their magnitude bits `n .. n+4`
and a sign) at least one is changed by every file it is saved to, whatever the curve.  (From 1/16 on every double is kept,
`C57_text_round_trip_partial`.) -/
theorem C57_below_refuted {n : ℕ} (hn : n + 4 ≤ 1019 * 2 ^ 52) (neg : Bool) :
    ∃ i ≤ 4, ∀ c : Curve F64, FiniteCurve c → OccursIn (BitVec.ofNat 64 (n + i + if neg then 2 ^ 63 else 0)) c →
      ∃ file c', c.SaveToFile false = .ok file ∧ (∀ junk, Curve.LoadFromFile junk {} ⟨file, false⟩ = (.ok (), c', ⟨[], true⟩)) ∧ c' ≠ c := by
  obtain ⟨i, hi, bad⟩ := five_changed hn neg
  refine ⟨i, hi, fun c hc ho => ⟨_, c.reread, Curve.save_text c, fun junk => ?_, fun e => ?_⟩⟩
  · rw [← Curve.reread_text hc, Curve.load_text (Curve.reread_survives hc)]
    rfl
  · rcases ho with ho | ⟨v, hv, ho⟩
    · have h1 : c.Knots.Values.map reread = c.Knots.Values := congrArg (fun d : Curve F64 => d.Knots.Values) e
      exact bad _ rfl (hc.knots _ ho) (map_self h1 _ ho)
    · have h1 : c.ControlPoints.map rereadPt = c.ControlPoints := congrArg (fun d : Curve F64 => d.ControlPoints) e
      exact point_changed (bad _ rfl) hc.points h1 hv ho

/-- C65 fails in the same way. -/
theorem C65_below_refuted {n : ℕ} (hn : n + 4 ≤ 1019 * 2 ^ 52) (neg : Bool) :
    ∃ i ≤ 4, ∀ s : Surface F64, FiniteSurface s → OccursInSurface (BitVec.ofNat 64 (n + i + if neg then 2 ^ 63 else 0)) s →
      ∃ file s', s.SaveToFile false = .ok file ∧ (∀ junk, Surface.LoadFromFile junk {} ⟨file, false⟩ = (.ok (), s', ⟨[], true⟩)) ∧ s' ≠ s := by
  obtain ⟨i, hi, bad⟩ := five_changed hn neg
  refine ⟨i, hi, fun s hs ho => ⟨_, s.reread, Surface.save_text' hs.uPos hs.vPos hs.storage, fun junk => ?_, fun e => ?_⟩⟩
  · rw [← Surface.reread_text hs, Surface.load_text (Surface.reread_survives hs)]
    rfl
  · rcases ho with ho | ho | ⟨v, hv, ho⟩
    · have h1 : s.KnotsU.Values.map reread = s.KnotsU.Values := congrArg (fun d : Surface F64 => d.KnotsU.Values) e
      exact bad _ rfl (hs.knotsU _ ho) (map_self h1 _ ho)
    · have h1 : s.KnotsV.Values.map reread = s.KnotsV.Values := congrArg (fun d : Surface F64 => d.KnotsV.Values) e
      exact bad _ rfl (hs.knotsV _ ho) (map_self h1 _ ho)
    · have h1 : s.ControlPoints.Values.map rereadPt = s.ControlPoints.Values := congrArg (fun d : Surface F64 => d.ControlPoints.Values) e
      exact point_changed (bad _ rfl) hs.points h1 hv ho

/-- The five doubles from 0.01 on: the second is changed. -/
example : 0x3F847AE147AE147B + 4 ≤ 1019 * 2 ^ 52 := by norm_num
example : OccursIn (BitVec.ofNat 64 (0x3F847AE147AE147B + 1 + 0)) ⟨1, ⟨[0, 0, one, one]⟩, [⟨0, 0x3F847AE147AE147C, 0, one⟩, ⟨one, 0, 0, one⟩]⟩ :=
  .inr ⟨_, List.mem_cons_self, .inr (.inl rfl)⟩

end Nurbs.Props
