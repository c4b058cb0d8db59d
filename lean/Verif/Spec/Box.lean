import Verif.Model.BoundingBox

/-! # Coordinates and boxes, for the statements about bounding boxes -/

namespace Nurbs.Spec
open Nurbs

/-- The three coordinate axes. -/
inductive Axis
  | x | y | z

variable {K : Type}

/-- A coordinate of a point. -/
def coord : Axis → Vec3 K → K
  | .x, v => v.x
  | .y, v => v.y
  | .z, v => v.z

/-- The point lies in the box (all six faces included). -/
def InBox [LinearOrder K] (b : BoundingBox K) (v : Vec3 K) : Prop :=
  ∀ k, coord k b.Min ≤ coord k v ∧ coord k v ≤ coord k b.Max

end Nurbs.Spec
