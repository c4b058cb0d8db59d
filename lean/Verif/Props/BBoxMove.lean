import Verif.Proof.BBoxMove
import Verif.Proof.BBoxMono
import Verif.Props.Placement
import Verif.Props.BBox
import Verif.Spec.Reverse

/-! # C120: the bounding box moves with the curve -/

set_option linter.unusedSectionVars false

namespace Nurbs.Props
open Nurbs Nurbs.Spec

variable {K : Type} [Field K] [LinearOrder K] [IsStrictOrderedRing K]

/-- C120: if the curve is translated and its coordinates exchanged (`R` only permutes the axes), and its weights multiplied by a common
factor, `GetBoundingBox` returns the box moved in the same way, or fails in the same way.  For every tolerance, every limit of rounds and
any function in place of `sqrt`. -/
theorem C120_moves_partial (sqrt : K → K) (fuel : ℕ) (eps : K) {p : ℕ} (hp : 1 ≤ p) {c : Curve K} (hw : WFCurve p c)
    (hmult : ∀ v, 0 < v → v < 1 → c.Knots.Values.count v ≤ p) (P : Placement K) (ha : 0 < P.a) (σ : Equiv.Perm Axis)
    (hσ : ∀ k v, coord k (matApply P.R v) = coord (σ k) v) :
    (P.curve c).GetBoundingBox sqrt fuel eps =
      Except.map (fun b : BoundingBox K => (⟨P.pos b.Min, P.pos b.Max⟩ : BoundingBox K)) (c.GetBoundingBox sqrt fuel eps) := by
  obtain ⟨segs, e1, e2⟩ := C91_extractBezier hp hw hmult ha (P := P)
  obtain ⟨c', m, hw', hs, hm, hlen, hkn, e, vs, hvs, hins, _⟩ := extractBezier_spec hp hw hmult
  obtain rfl : segs = tab m (bezSeg p c'.ControlPoints) := Except.ok.inj (e1.symm.trans e)
  have hm1 : 1 ≤ m := by
    by_contra hcon
    obtain rfl : m = 0 := by omega
    have := hw'.clamped.len
    have := hw'.count
    rw [hkn] at this
    simp only [List.length_cons, List.length_append, reps_length, hm, List.length_nil, hlen] at this
    have h2 := hw'.count
    omega
  have hlen' : ∀ s ∈ tab m (bezSeg p c'.ControlPoints), s.ControlPoints.length = p + 1 := by
    intro s hs'
    simp only [tab, List.mem_map, List.mem_range] at hs'
    obtain ⟨r, _, rfl⟩ := hs'
    simp [bezSeg]
  have key := boxFold_move (boxMotion_place sqrt P σ hσ) eps p fuel P.curve (fun _ => rfl) _ hlen' (fun _ _ => 0) (fun _ _ => 0) none
  have hsome := fun res hr => (boxFold_least sqrt eps p fuel (tab m (bezSeg p c'.ControlPoints)) hlen' (fun _ _ => 0) none res hr).2.2.1
  unfold Curve.GetBoundingBox
  rw [e1, e2, bind_ok, bind_ok]
  dsimp only
  have hdeg : (P.curve c).Degree = (p : Int) := hw.degree
  have hbuf : List.replicate ((p : Int) + 1).toNat (List.replicate ((p : Int) + 1).toNat (0 : Vec4 K)) =
      tab (p + 1) fun _ => tab (p + 1) fun _ => 0 := by
    rw [show ((p : Int) + 1).toNat = p + 1 by omega, replicate_eq_tab, replicate_eq_tab]
  rw [hdeg, hw.degree, hbuf]
  simp only [Option.map_none] at key
  revert key hsome
  generalize foldMList _ (List.map P.curve _) _ = X
  generalize foldMList _ (tab m (bezSeg p c'.ControlPoints)) _ = Y
  intro key hsome
  cases X with
  | error x => cases Y with
    | error y => exact congrArg Except.error (Except.error.inj key)
    | ok y => cases key
  | ok x => cases Y with
    | error y => cases key
    | ok y =>
      have h2 : x.2 = y.2.map (moveBox P.pos) := Except.ok.inj key
      have h3 := hsome y rfl (.inl (by intro h; have := congrArg List.length h; simp at this; omega))
      obtain ⟨b, hb⟩ := Option.ne_none_iff_exists'.mp h3
      show Except.ok (x.2.getD _) = Except.ok _
      rw [h2, hb]
      simp only [Option.map_some, Option.getD_some]
      rfl

/-- The box of a curve of one piece that is not halved. -/
theorem box_one {sqrt : ℚ → ℚ} {eps : ℚ} {fuel : ℕ} (hf : 2 ≤ fuel) {c s : Curve ℚ} (hs : c.ExtractBezier = .ok [s]) {a a' : BoundingBox ℚ}
    (c1 : Curve.controlBox s.ControlPoints = .ok a) (e1 : Curve.endBox s.ControlPoints = .ok a') (d1 : Curve.boxDone sqrt eps a a' = true) :
    c.GetBoundingBox sqrt fuel eps = .ok a' := by
  obtain ⟨fuel, rfl⟩ : ∃ k, fuel = k + 2 := ⟨fuel - 2, by omega⟩
  unfold Curve.GetBoundingBox
  rw [hs, bind_ok]
  simp only [foldMList]
  rw [Curve.boxLoop, c1, bind_ok, e1, bind_ok, if_pos d1, Curve.boxLoop]
  rfl

/-- The box of a curve of one piece that is halved once. -/
theorem box_two {sqrt : ℚ → ℚ} {eps : ℚ} {fuel : ℕ} (hf : 4 ≤ fuel) {c s : Curve ℚ} (hd : c.Degree = 2) (hs : c.ExtractBezier = .ok [s])
    {l r : List (Vec4 ℚ)} {a a' b b' d d' : BoundingBox ℚ}
    (c1 : Curve.controlBox s.ControlPoints = .ok a) (e1 : Curve.endBox s.ControlPoints = .ok a') (d1 : Curve.boxDone sqrt eps a a' = false)
    (hc : (Curve.casteljau 2 s.ControlPoints (List.replicate 3 (List.replicate 3 0)) >>= fun b => Curve.casteljauHalves 2 b) = .ok (l, r))
    (c2 : Curve.controlBox l = .ok b) (e2 : Curve.endBox l = .ok b') (d2 : Curve.boxDone sqrt eps b b' = true)
    (c3 : Curve.controlBox r = .ok d) (e3 : Curve.endBox r = .ok d') (d3 : Curve.boxDone sqrt eps d d' = true) :
    c.GetBoundingBox sqrt fuel eps = .ok (b'.ExpandToIncludeBox d') := by
  obtain ⟨fuel, rfl⟩ : ∃ k, fuel = k + 4 := ⟨fuel - 4, by omega⟩
  obtain ⟨B, hb⟩ : ∃ b, Curve.casteljau 2 s.ControlPoints (List.replicate 3 (List.replicate 3 0)) = .ok b := by
    cases h : Curve.casteljau 2 s.ControlPoints (List.replicate 3 (List.replicate 3 0)) with
    | ok b => exact ⟨b, rfl⟩
    | error e => rw [h, bind_error] at hc; exact absurd hc (by simp)
  rw [hb, bind_ok] at hc
  unfold Curve.GetBoundingBox
  rw [hs, bind_ok, hd]
  simp only [foldMList]
  rw [Curve.boxLoop, c1, bind_ok, e1, bind_ok, if_neg (by rw [d1]; decide)]
  rw [show List.replicate ((2 : Int) + 1).toNat (List.replicate ((2 : Int) + 1).toNat (0 : Vec4 ℚ)) = List.replicate 3 (List.replicate 3 0) from rfl]
  rw [hb, bind_ok, hc, bind_ok]
  simp only []
  rw [Curve.boxLoop, c2, bind_ok, e2, bind_ok, if_pos d2, Curve.boxLoop, c3, bind_ok, e3, bind_ok, if_pos d3, Curve.boxLoop]
  rfl

theorem done_small {sqrt : ℚ → ℚ} {eps : ℚ} {a b : BoundingBox ℚ} {x y : ℚ} (hx : a.Length.dot a.Length = x) (hy : sqrt x = y) (h : y ≤ eps) :
    Curve.boxDone sqrt eps a b = true := by
  have : a.Length.norm sqrt = y := by unfold Vec3.norm; rw [hx, hy]
  unfold Curve.boxDone
  rw [this, decide_eq_true h, Bool.true_or]

theorem done_flat {sqrt : ℚ → ℚ} {eps : ℚ} {a b : BoundingBox ℚ} (h : (Curve.approxVec3 a.Min b.Min eps6 && Curve.approxVec3 a.Max b.Max eps6) = true) :
    Curve.boxDone sqrt eps a b = true := by
  unfold Curve.boxDone
  rw [h, Bool.or_true]

theorem not_done {sqrt : ℚ → ℚ} {eps : ℚ} {a b : BoundingBox ℚ} {x y : ℚ} (hx : a.Length.dot a.Length = x) (hy : sqrt x = y) (h : eps < y)
    (h' : (Curve.approxVec3 a.Min b.Min eps6 && Curve.approxVec3 a.Max b.Max eps6) = false) : Curve.boxDone sqrt eps a b = false := by
  have : a.Length.norm sqrt = y := by unfold Vec3.norm; rw [hx, hy]
  unfold Curve.boxDone
  rw [this, h', decide_eq_false (not_le.mpr h), Bool.or_false]

/-- A curve that runs up and down the y axis. -/
def exSwing : Curve ℚ := ⟨2, ⟨[0, 0, 0, 1, 1, 1]⟩, [⟨0, 0, 0, 1⟩, ⟨0, -2, 0, 1⟩, ⟨0, 2, 0, 1⟩]⟩

/-- C120, refuted for the direction: the same points run through backwards can give another box.  With the tolerance 3 the box of this
curve reaches down to -1/2, that of the curve run through backwards ends at 0.  `sqrt` need only be right at 4, 16 and 1/4. -/
theorem C120_direction_refuted : WFCurve 2 exSwing ∧ ∀ sqrt : ℚ → ℚ, sqrt 16 = 4 → sqrt 4 = 2 → sqrt (1/4) = 1/2 → ∀ fuel, 4 ≤ fuel →
    exSwing.GetBoundingBox sqrt fuel 3 = .ok ⟨⟨0, -1/2, 0⟩, ⟨0, 2, 0⟩⟩ ∧
    (backwards exSwing).GetBoundingBox sqrt fuel 3 = .ok ⟨⟨0, 0, 0⟩, ⟨0, 2, 0⟩⟩ := by
  refine ⟨⟨rfl, ⟨by decide +kernel, by decide +kernel, by decide +kernel, by decide +kernel, by decide +kernel, by decide +kernel⟩, rfl,
    by decide +kernel⟩, fun sqrt s16 s4 sq fuel hf => ⟨?_, ?_⟩⟩
  · have h := box_two (sqrt := sqrt) (eps := 3) hf (c := exSwing) (s := exSwing) rfl (by decide +kernel)
      (l := [⟨0, 0, 0, 1⟩, ⟨0, -1, 0, 1⟩, ⟨0, -1/2, 0, 1⟩]) (r := [⟨0, -1/2, 0, 1⟩, ⟨0, 0, 0, 1⟩, ⟨0, 2, 0, 1⟩])
      (a := ⟨⟨0, -2, 0⟩, ⟨0, 2, 0⟩⟩) (a' := ⟨⟨0, 0, 0⟩, ⟨0, 2, 0⟩⟩) (b := ⟨⟨0, -1, 0⟩, ⟨0, -1/2, 0⟩⟩) (b' := ⟨⟨0, -1/2, 0⟩, ⟨0, 0, 0⟩⟩)
      (d := ⟨⟨0, -1/2, 0⟩, ⟨0, 2, 0⟩⟩) (d' := ⟨⟨0, -1/2, 0⟩, ⟨0, 2, 0⟩⟩)
      (by decide +kernel) (by decide +kernel) (not_done (x := 16) (by decide +kernel) s16 (by norm_num) (by decide +kernel)) (by decide +kernel)
      (by decide +kernel) (by decide +kernel) (done_small (x := 1/4) (by decide +kernel) sq (by norm_num)) (by decide +kernel) (by decide +kernel)
      (done_flat (by decide +kernel))
    rw [h]
    exact congrArg Except.ok (by decide +kernel)
  · exact box_one (by omega) (s := backwards exSwing) (a := ⟨⟨0, -2, 0⟩, ⟨0, 0, 0⟩⟩) (by decide +kernel) (by decide +kernel) (by decide +kernel)
      (done_small (x := 4) (by decide +kernel) s4 (by norm_num))

/-- A curve that rises from 0 and comes back. -/
def exRise : Curve ℚ := ⟨2, ⟨[0, 0, 0, 1, 1, 1]⟩, [⟨0, 0, 0, 1⟩, ⟨0, 5, 0, 1⟩, ⟨0, 0, 0, 1⟩]⟩

/-- The mirror image at the plane `y = 0`. -/
def mirrorY : Placement ℚ := ⟨⟨⟨1, 0, 0⟩, ⟨0, -1, 0⟩, ⟨0, 0, 1⟩⟩, 0, 1⟩

/-- C120, refuted for mirror images: the box of the mirrored curve reaches from -5/2 to 0, that of the curve itself is the point 0.  For every tolerance
from 0 on below 5; `sqrt` need only be right at 0 and 25. -/
theorem C120_mirror_refuted : WFCurve 2 exRise ∧ (∀ v, mirrorY.pos v = ⟨v.x, -v.y, v.z⟩) ∧
    ∀ sqrt : ℚ → ℚ, sqrt 0 = 0 → sqrt 25 = 5 → ∀ eps, 0 ≤ eps → eps < 5 → ∀ fuel, 4 ≤ fuel →
      exRise.GetBoundingBox sqrt fuel eps = .ok ⟨⟨0, 0, 0⟩, ⟨0, 0, 0⟩⟩ ∧
      (mirrorY.curve exRise).GetBoundingBox sqrt fuel eps = .ok ⟨⟨0, -5/2, 0⟩, ⟨0, 0, 0⟩⟩ := by
  refine ⟨⟨rfl, ⟨by decide +kernel, by decide +kernel, by decide +kernel, by decide +kernel, by decide +kernel, by decide +kernel⟩, rfl,
    by decide +kernel⟩, fun v => by ext <;> simp [Placement.pos, matApply, mirrorY], fun sqrt s0 s25 eps h0 h5 fuel hf => ⟨?_, ?_⟩⟩
  · exact box_one (by omega) (s := exRise) (a := ⟨⟨0, 0, 0⟩, ⟨0, 0, 0⟩⟩) (by decide +kernel) (by decide +kernel) (by decide +kernel)
      (done_small (x := 0) (by decide +kernel) s0 h0)
  · have h := box_two (sqrt := sqrt) (eps := eps) hf (c := mirrorY.curve exRise) (s := mirrorY.curve exRise) rfl (by decide +kernel)
      (l := [⟨0, 0, 0, 1⟩, ⟨0, -5/2, 0, 1⟩, ⟨0, -5/2, 0, 1⟩]) (r := [⟨0, -5/2, 0, 1⟩, ⟨0, -5/2, 0, 1⟩, ⟨0, 0, 0, 1⟩])
      (a := ⟨⟨0, -5, 0⟩, ⟨0, 0, 0⟩⟩) (a' := ⟨⟨0, 0, 0⟩, ⟨0, 0, 0⟩⟩) (b := ⟨⟨0, -5/2, 0⟩, ⟨0, -5/2, 0⟩⟩) (b' := ⟨⟨0, -5/2, 0⟩, ⟨0, 0, 0⟩⟩)
      (d := ⟨⟨0, -5/2, 0⟩, ⟨0, 0, 0⟩⟩) (d' := ⟨⟨0, -5/2, 0⟩, ⟨0, 0, 0⟩⟩)
      (by decide +kernel) (by decide +kernel) (not_done (x := 25) (by decide +kernel) s25 h5 (by decide +kernel)) (by decide +kernel)
      (by decide +kernel) (by decide +kernel) (done_small (x := 0) (by decide +kernel) s0 h0) (by decide +kernel) (by decide +kernel)
      (done_flat (by decide +kernel))
    rw [h]
    exact congrArg Except.ok (by decide +kernel)

/-- A translation with the axes turned: `x → y → z → x`, then moved by (1, 2, 3). -/
def exMove : Placement ℚ := ⟨⟨⟨0, 0, 1⟩, ⟨1, 0, 0⟩, ⟨0, 1, 0⟩⟩, ⟨1, 2, 3⟩, 1⟩

/-- The permutation of the axes that belongs to it. -/
def exTurnAxes : Equiv.Perm Axis where
  toFun | .x => .z | .y => .x | .z => .y
  invFun | .z => .x | .x => .y | .y => .z
  left_inv k := by cases k <;> rfl
  right_inv k := by cases k <;> rfl

/-- The hypotheses hold, and the box is moved. -/
example : (∀ k v, coord k (matApply exMove.R v) = coord (exTurnAxes k) v) ∧
    exCurve.GetBoundingBox id 40 100 = .ok ⟨⟨0, 0, 0⟩, ⟨5, 1, 2⟩⟩ ∧
    (exMove.curve exCurve).GetBoundingBox id 40 100 = .ok ⟨⟨1, 2, 3⟩, ⟨3, 7, 4⟩⟩ := by
  refine ⟨fun k v => ?_, by decide +kernel, by decide +kernel⟩
  cases k <;> simp [coord, matApply, exMove, exTurnAxes]

end Nurbs.Props
