import Verif.Model.Prelude

/-! # Model of `include/libnurbs/Core/Typedefs.hpp` (fixed-size vectors) -/

namespace Nurbs

/-- `Vec3` – Typedefs.hpp:19 (`Eigen::Vector<double,3>`). -/
@[ext] structure Vec3 (K : Type) where
  x : K
  y : K
  z : K
  deriving DecidableEq, Repr

/-- `Vec4` – Typedefs.hpp:21. Control points are stored as (x, y, z, w) with Cartesian x,y,z. -/
@[ext] structure Vec4 (K : Type) where
  x : K
  y : K
  z : K
  w : K
  deriving DecidableEq, Repr

variable {K : Type}

namespace Vec3
/-- `Vec3::Zero()` -/
instance [Zero K] : Zero (Vec3 K) := ⟨⟨0, 0, 0⟩⟩
/-- Eigen coefficient-wise `+` -/
instance [Add K] : Add (Vec3 K) := ⟨fun a b => ⟨a.x + b.x, a.y + b.y, a.z + b.z⟩⟩
/-- Eigen coefficient-wise `-` -/
instance [Sub K] : Sub (Vec3 K) := ⟨fun a b => ⟨a.x - b.x, a.y - b.y, a.z - b.z⟩⟩
/-- Eigen unary `-` -/
instance [Neg K] : Neg (Vec3 K) := ⟨fun a => ⟨-a.x, -a.y, -a.z⟩⟩
/-- Eigen scalar multiple -/
instance [Mul K] : SMul K (Vec3 K) := ⟨fun c a => ⟨c * a.x, c * a.y, c * a.z⟩⟩
/-- `a.dot(b)` -/
def dot [Add K] [Mul K] (a b : Vec3 K) : K := a.x * b.x + a.y * b.y + a.z * b.z
/-- `a.norm()`, for a given square-root function. -/
def norm [Add K] [Mul K] (sqrt : K → K) (a : Vec3 K) : K := sqrt (a.dot a)
/-- `v / c` with the division-by-zero outcome. -/
def divM [Div K] [Zero K] [DecidableEq K] (a : Vec3 K) (c : K) : M (Vec3 K) := do
  .ok ⟨← fdiv a.x c, ← fdiv a.y c, ← fdiv a.z c⟩
end Vec3

namespace Vec4
/-- `Vec4::Zero()` -/
instance [Zero K] : Zero (Vec4 K) := ⟨⟨0, 0, 0, 0⟩⟩
/-- Eigen coefficient-wise `+` -/
instance [Add K] : Add (Vec4 K) := ⟨fun a b => ⟨a.x + b.x, a.y + b.y, a.z + b.z, a.w + b.w⟩⟩
/-- Eigen coefficient-wise `-` -/
instance [Sub K] : Sub (Vec4 K) := ⟨fun a b => ⟨a.x - b.x, a.y - b.y, a.z - b.z, a.w - b.w⟩⟩
/-- Eigen unary `-` -/
instance [Neg K] : Neg (Vec4 K) := ⟨fun a => ⟨-a.x, -a.y, -a.z, -a.w⟩⟩
/-- Eigen scalar multiple -/
instance [Mul K] : SMul K (Vec4 K) := ⟨fun c a => ⟨c * a.x, c * a.y, c * a.z, c * a.w⟩⟩
/-- `v.head<3>()` -/
def head3 (a : Vec4 K) : Vec3 K := ⟨a.x, a.y, a.z⟩
/-- `v.norm()`, for a given square-root function. -/
def norm [Add K] [Mul K] (sqrt : K → K) (a : Vec4 K) : K :=
  sqrt (a.x * a.x + a.y * a.y + a.z * a.z + a.w * a.w)
/-- `v / c` with the division-by-zero outcome. -/
def divM [Div K] [Zero K] [DecidableEq K] (a : Vec4 K) (c : K) : M (Vec4 K) := do
  .ok ⟨← fdiv a.x c, ← fdiv a.y c, ← fdiv a.z c, ← fdiv a.w c⟩
end Vec4

/-- `ToHomo` – Typedefs.hpp:34-39: multiply x,y,z by w. -/
def ToHomo [Mul K] (v : Vec4 K) : Vec4 K := ⟨v.x * v.w, v.y * v.w, v.z * v.w, v.w⟩

/-- `FromHomo` – Typedefs.hpp:41-46: divide x,y,z by w. -/
def FromHomo [Div K] [Zero K] [DecidableEq K] (v : Vec4 K) : M (Vec4 K) := do
  .ok ⟨← fdiv v.x v.w, ← fdiv v.y v.w, ← fdiv v.z v.w, v.w⟩

/-- `result.head<3>() / result.w()` as used by `Curve::Evaluate` (Curve.cpp:295) and
`Surface::Evaluate` (Surface.cpp:398). -/
def projectM [Div K] [Zero K] [DecidableEq K] (v : Vec4 K) : M (Vec3 K) := v.head3.divM v.w

/-- `Mat3x3` – Typedefs.hpp:23, as three rows. -/
structure Mat3 (K : Type) where
  r0 : Vec3 K
  r1 : Vec3 K
  r2 : Vec3 K
  deriving DecidableEq, Repr

/-- `R * v` -/
def Mat3.mulVec [Add K] [Mul K] (R : Mat3 K) (v : Vec3 K) : Vec3 K := ⟨R.r0.dot v, R.r1.dot v, R.r2.dot v⟩

/-- `S * R` -/
def Mat3.mul [Add K] [Mul K] (S R : Mat3 K) : Mat3 K :=
  let c0 : Vec3 K := ⟨R.r0.x, R.r1.x, R.r2.x⟩
  let c1 : Vec3 K := ⟨R.r0.y, R.r1.y, R.r2.y⟩
  let c2 : Vec3 K := ⟨R.r0.z, R.r1.z, R.r2.z⟩
  ⟨⟨S.r0.dot c0, S.r0.dot c1, S.r0.dot c2⟩, ⟨S.r1.dot c0, S.r1.dot c1, S.r1.dot c2⟩,
    ⟨S.r2.dot c0, S.r2.dot c1, S.r2.dot c2⟩⟩

end Nurbs
