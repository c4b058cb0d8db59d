import Verif.Props.Utils
import Verif.Proof.Vec
import Mathlib.Algebra.Order.Field.Basic
import Mathlib.Tactic.Linarith
import Mathlib.Tactic.Ring
import Mathlib.Tactic.Positivity

/-! # C76: centre, edge lengths and volume of a bounding box -/

namespace Nurbs.Props
open Nurbs

variable {K : Type} [Field K] [LinearOrder K] [IsStrictOrderedRing K]

/-- C76: the box is symmetric about its `Center`, which lies in it. -/
theorem C76_center (b : BoundingBox K) :
    (∀ p q : Vec3 K, p + q = b.Center + b.Center → (b.ContainsPoint p = true ↔ b.ContainsPoint q = true)) ∧
    ((∃ p, b.ContainsPoint p = true) → b.ContainsPoint b.Center = true) := by
  have hc : b.Center + b.Center = b.Min + b.Max := by
    ext <;> simp only [BoundingBox.Center, Vec3.add_x, Vec3.add_y, Vec3.add_z, Vec3.smul_x, Vec3.smul_y, Vec3.smul_z] <;> ring
  simp only [containsPoint_iff, InBox]
  constructor
  · intro p q h
    rw [hc] at h
    have hx := congrArg Vec3.x h
    have hy := congrArg Vec3.y h
    have hz := congrArg Vec3.z h
    simp only [Vec3.add_x, Vec3.add_y, Vec3.add_z] at hx hy hz
    constructor <;>
    · rintro ⟨h1, h2, h3, h4, h5, h6⟩
      refine ⟨?_, ?_, ?_, ?_, ?_, ?_⟩ <;> linarith
  · rintro ⟨p, h1, h2, h3, h4, h5, h6⟩
    have hx := congrArg Vec3.x hc
    have hy := congrArg Vec3.y hc
    have hz := congrArg Vec3.z hc
    simp only [Vec3.add_x, Vec3.add_y, Vec3.add_z] at hx hy hz
    refine ⟨?_, ?_, ?_, ?_, ?_, ?_⟩ <;> linarith

/-- C76: `Length` is the largest distance of two points of the box along each axis. -/
theorem C76_length (b : BoundingBox K) (hb : ∃ p, b.ContainsPoint p = true) :
    (∀ p q, b.ContainsPoint p = true → b.ContainsPoint q = true →
      p.x - q.x ≤ b.Length.x ∧ p.y - q.y ≤ b.Length.y ∧ p.z - q.z ≤ b.Length.z) ∧
    ∃ p q, b.ContainsPoint p = true ∧ b.ContainsPoint q = true ∧
      p.x - q.x = b.Length.x ∧ p.y - q.y = b.Length.y ∧ p.z - q.z = b.Length.z := by
  simp only [containsPoint_iff, InBox] at hb ⊢
  simp only [BoundingBox.Length, Vec3.sub_x, Vec3.sub_y, Vec3.sub_z]
  constructor
  · rintro p q ⟨p1, p2, p3, p4, p5, p6⟩ ⟨q1, q2, q3, q4, q5, q6⟩
    refine ⟨?_, ?_, ?_⟩ <;> linarith
  · obtain ⟨p, h1, h2, h3, h4, h5, h6⟩ := hb
    exact ⟨b.Max, b.Min, ⟨h1.trans h4, h2.trans h5, h3.trans h6, le_rfl, le_rfl, le_rfl⟩,
      ⟨le_rfl, le_rfl, le_rfl, h1.trans h4, h2.trans h5, h3.trans h6⟩, rfl, rfl, rfl⟩

/-- C76: `Volume` is the volume: the unit cube has volume one, moving a box keeps it, cutting a box by a coordinate plane splits it, a
box with points has a volume that is not negative and a box inside another not the larger one. -/
theorem C76_volume :
    (BoundingBox.mk (⟨0, 0, 0⟩ : Vec3 K) ⟨1, 1, 1⟩).Volume = 1 ∧
    (∀ (a b t : Vec3 K), (BoundingBox.mk (a + t) (b + t)).Volume = (BoundingBox.mk a b).Volume) ∧
    (∀ (a b : Vec3 K) (c : K),
      (BoundingBox.mk a b).Volume = (BoundingBox.mk a ⟨c, b.y, b.z⟩).Volume + (BoundingBox.mk ⟨c, a.y, a.z⟩ b).Volume ∧
      (BoundingBox.mk a b).Volume = (BoundingBox.mk a ⟨b.x, c, b.z⟩).Volume + (BoundingBox.mk ⟨a.x, c, a.z⟩ b).Volume ∧
      (BoundingBox.mk a b).Volume = (BoundingBox.mk a ⟨b.x, b.y, c⟩).Volume + (BoundingBox.mk ⟨a.x, a.y, c⟩ b).Volume) ∧
    (∀ x y : BoundingBox K, (∃ p, y.ContainsPoint p = true) → x.ContainsBox y = true → 0 ≤ y.Volume ∧ y.Volume ≤ x.Volume) := by
  refine ⟨by simp [BoundingBox.Volume, BoundingBox.Length, Vec3.sub_x, Vec3.sub_y, Vec3.sub_z],
    fun a b t => by simp [BoundingBox.Volume, BoundingBox.Length, Vec3.add_x, Vec3.add_y, Vec3.add_z, Vec3.sub_x, Vec3.sub_y, Vec3.sub_z],
    fun a b c => ?_, fun x y hy hxy => ?_⟩
  · simp only [BoundingBox.Volume, BoundingBox.Length, Vec3.sub_x, Vec3.sub_y, Vec3.sub_z]
    refine ⟨?_, ?_, ?_⟩ <;> ring
  · simp only [containsPoint_iff, InBox, BoundingBox.ContainsBox, Bool.and_eq_true] at hy hxy
    obtain ⟨p, h1, h2, h3, h4, h5, h6⟩ := hy
    obtain ⟨⟨a1, a2, a3, -, -, -⟩, -, -, -, b4, b5, b6⟩ := hxy
    simp only [BoundingBox.Volume, BoundingBox.Length, Vec3.sub_x, Vec3.sub_y, Vec3.sub_z]
    have hx : 0 ≤ y.Max.x - y.Min.x := by linarith
    have hy : 0 ≤ y.Max.y - y.Min.y := by linarith
    have hz : 0 ≤ y.Max.z - y.Min.z := by linarith
    refine ⟨by positivity, ?_⟩
    have gx : y.Max.x - y.Min.x ≤ x.Max.x - x.Min.x := by linarith
    have gy : y.Max.y - y.Min.y ≤ x.Max.y - x.Min.y := by linarith
    have gz : y.Max.z - y.Min.z ≤ x.Max.z - x.Min.z := by linarith
    exact mul_le_mul (mul_le_mul gx gy hy (hx.trans gx)) gz hz (mul_nonneg (hx.trans gx) (hy.trans gy))

example : (BoundingBox.mk (⟨0, 0, 0⟩ : Vec3 ℚ) ⟨2, 4, 6⟩).Center = ⟨1, 2, 3⟩ ∧
    (BoundingBox.mk (⟨0, 0, 0⟩ : Vec3 ℚ) ⟨2, 4, 6⟩).Length = ⟨2, 4, 6⟩ ∧ (BoundingBox.mk (⟨0, 0, 0⟩ : Vec3 ℚ) ⟨2, 4, 6⟩).Volume = 48 := by
  decide +kernel

example : (BoundingBox.mk (⟨0, 0, 0⟩ : Vec3 ℚ) ⟨2, 4, 6⟩).ContainsBox ⟨⟨0, 1, 2⟩, ⟨1, 3, 6⟩⟩ = true ∧
    (BoundingBox.mk (⟨0, 1, 2⟩ : Vec3 ℚ) ⟨1, 3, 6⟩).ContainsPoint ⟨1, 2, 3⟩ = true := by decide +kernel

end Nurbs.Props
