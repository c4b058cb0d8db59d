import Verif.Model.Vec

/-! # Model of `include/libnurbs/Core/BoundingBox.hpp` -/

namespace Nurbs

variable {K : Type}

/-- `a.cwiseMin(b)` -/
def Vec3.cwiseMin [LinearOrder K] (a b : Vec3 K) : Vec3 K := ⟨min a.x b.x, min a.y b.y, min a.z b.z⟩
/-- `a.cwiseMax(b)` -/
def Vec3.cwiseMax [LinearOrder K] (a b : Vec3 K) : Vec3 K := ⟨max a.x b.x, max a.y b.y, max a.z b.z⟩

/-- `BoundingBox` – BoundingBox.hpp:6-10. -/
@[ext] structure BoundingBox (K : Type) where
  Min : Vec3 K
  Max : Vec3 K
  deriving DecidableEq, Repr

namespace BoundingBox
variable [LinearOrder K]

/-- `BoundingBox(min, max)` – BoundingBox.hpp:15-19. -/
def ofPoints (a b : Vec3 K) : BoundingBox K := ⟨a.cwiseMin b, a.cwiseMax b⟩

/-- `ExpandToInclude(const Vec3&)` – BoundingBox.hpp:23-27, as written: line 26 computes the new
`Max` from the (already updated) `Min`. -/
def ExpandToIncludePoint (box : BoundingBox K) (point : Vec3 K) : BoundingBox K :=
  let Min := box.Min.cwiseMin point
  let Max := Min.cwiseMax point
  ⟨Min, Max⟩

/-- `ExpandToInclude(const BoundingBox&)` – BoundingBox.hpp:29-33. -/
def ExpandToIncludeBox (box other : BoundingBox K) : BoundingBox K :=
  ⟨box.Min.cwiseMin other.Min, box.Max.cwiseMax other.Max⟩

/-- `Contains(const Vec3&)` – BoundingBox.hpp:35-39. -/
def ContainsPoint (box : BoundingBox K) (p : Vec3 K) : Bool :=
  (decide (p.x ≥ box.Min.x) && decide (p.y ≥ box.Min.y) && decide (p.z ≥ box.Min.z)) &&
  (decide (p.x ≤ box.Max.x) && decide (p.y ≤ box.Max.y) && decide (p.z ≤ box.Max.z))

/-- `Contains(const BoundingBox&)` – BoundingBox.hpp:41-44. -/
def ContainsBox (box other : BoundingBox K) : Bool :=
  box.ContainsPoint other.Min && box.ContainsPoint other.Max

/-- `Center` – BoundingBox.hpp:46-49 (`* 0.5` modelled as division by two). -/
def Center [Field K] (box : BoundingBox K) : Vec3 K :=
  (1 / 2 : K) • (box.Min + box.Max)

/-- `Length` – BoundingBox.hpp:51-54. -/
def Length [Sub K] (box : BoundingBox K) : Vec3 K := box.Max - box.Min

/-- `Volume` – BoundingBox.hpp:56-60. -/
def Volume [Field K] (box : BoundingBox K) : K :=
  let length := box.Length
  length.x * length.y * length.z

end BoundingBox
end Nurbs
