import Verif.Model.Vec
import Verif.Proof.Loops
import Mathlib.Algebra.Module.Basic
import Mathlib.Algebra.BigOperators.Group.Finset.Basic
import Mathlib.Algebra.BigOperators.Intervals
import Mathlib.Algebra.BigOperators.Ring.Finset
import Mathlib.Tactic.Abel
import Mathlib.Algebra.Module.LinearMap.Basic
import Mathlib.Algebra.Module.BigOperators
import Mathlib.Algebra.Algebra.Bilinear

/-! # Vec3 / Vec4 as modules, and sums -/

namespace Nurbs

variable {K : Type}

namespace Vec3
@[simp] theorem zero_x [Zero K] : (0 : Vec3 K).x = 0 := rfl
@[simp] theorem zero_y [Zero K] : (0 : Vec3 K).y = 0 := rfl
@[simp] theorem zero_z [Zero K] : (0 : Vec3 K).z = 0 := rfl
@[simp] theorem add_x [Add K] (a b : Vec3 K) : (a + b).x = a.x + b.x := rfl
@[simp] theorem add_y [Add K] (a b : Vec3 K) : (a + b).y = a.y + b.y := rfl
@[simp] theorem add_z [Add K] (a b : Vec3 K) : (a + b).z = a.z + b.z := rfl
@[simp] theorem sub_x [Sub K] (a b : Vec3 K) : (a - b).x = a.x - b.x := rfl
@[simp] theorem sub_y [Sub K] (a b : Vec3 K) : (a - b).y = a.y - b.y := rfl
@[simp] theorem sub_z [Sub K] (a b : Vec3 K) : (a - b).z = a.z - b.z := rfl
@[simp] theorem neg_x [Neg K] (a : Vec3 K) : (-a).x = -a.x := rfl
@[simp] theorem neg_y [Neg K] (a : Vec3 K) : (-a).y = -a.y := rfl
@[simp] theorem neg_z [Neg K] (a : Vec3 K) : (-a).z = -a.z := rfl
@[simp] theorem smul_x [Mul K] (c : K) (a : Vec3 K) : (c • a).x = c * a.x := rfl
@[simp] theorem smul_y [Mul K] (c : K) (a : Vec3 K) : (c • a).y = c * a.y := rfl
@[simp] theorem smul_z [Mul K] (c : K) (a : Vec3 K) : (c • a).z = c * a.z := rfl

instance [Ring K] : AddCommGroup (Vec3 K) where
  add_assoc a b c := by ext <;> simp [add_assoc]
  zero_add a := by ext <;> simp
  add_zero a := by ext <;> simp
  add_comm a b := by ext <;> simp [add_comm]
  neg_add_cancel a := by ext <;> simp
  sub_eq_add_neg a b := by ext <;> simp [sub_eq_add_neg]
  nsmul := nsmulRec
  zsmul := zsmulRec

instance [Field K] : Module K (Vec3 K) where
  one_smul a := by ext <;> simp
  mul_smul a b c := by ext <;> simp [mul_assoc]
  smul_zero a := by ext <;> simp
  smul_add a b c := by ext <;> simp [mul_add]
  add_smul a b c := by ext <;> simp [add_mul]
  zero_smul a := by ext <;> simp
end Vec3

namespace Vec4
@[simp] theorem zero_x [Zero K] : (0 : Vec4 K).x = 0 := rfl
@[simp] theorem zero_y [Zero K] : (0 : Vec4 K).y = 0 := rfl
@[simp] theorem zero_z [Zero K] : (0 : Vec4 K).z = 0 := rfl
@[simp] theorem zero_w [Zero K] : (0 : Vec4 K).w = 0 := rfl
@[simp] theorem add_x [Add K] (a b : Vec4 K) : (a + b).x = a.x + b.x := rfl
@[simp] theorem add_y [Add K] (a b : Vec4 K) : (a + b).y = a.y + b.y := rfl
@[simp] theorem add_z [Add K] (a b : Vec4 K) : (a + b).z = a.z + b.z := rfl
@[simp] theorem add_w [Add K] (a b : Vec4 K) : (a + b).w = a.w + b.w := rfl
@[simp] theorem sub_x [Sub K] (a b : Vec4 K) : (a - b).x = a.x - b.x := rfl
@[simp] theorem sub_y [Sub K] (a b : Vec4 K) : (a - b).y = a.y - b.y := rfl
@[simp] theorem sub_z [Sub K] (a b : Vec4 K) : (a - b).z = a.z - b.z := rfl
@[simp] theorem sub_w [Sub K] (a b : Vec4 K) : (a - b).w = a.w - b.w := rfl
@[simp] theorem neg_x [Neg K] (a : Vec4 K) : (-a).x = -a.x := rfl
@[simp] theorem neg_y [Neg K] (a : Vec4 K) : (-a).y = -a.y := rfl
@[simp] theorem neg_z [Neg K] (a : Vec4 K) : (-a).z = -a.z := rfl
@[simp] theorem neg_w [Neg K] (a : Vec4 K) : (-a).w = -a.w := rfl
@[simp] theorem smul_x [Mul K] (c : K) (a : Vec4 K) : (c • a).x = c * a.x := rfl
@[simp] theorem smul_y [Mul K] (c : K) (a : Vec4 K) : (c • a).y = c * a.y := rfl
@[simp] theorem smul_z [Mul K] (c : K) (a : Vec4 K) : (c • a).z = c * a.z := rfl
@[simp] theorem smul_w [Mul K] (c : K) (a : Vec4 K) : (c • a).w = c * a.w := rfl

instance [Ring K] : AddCommGroup (Vec4 K) where
  add_assoc a b c := by ext <;> simp [add_assoc]
  zero_add a := by ext <;> simp
  add_zero a := by ext <;> simp
  add_comm a b := by ext <;> simp [add_comm]
  neg_add_cancel a := by ext <;> simp
  sub_eq_add_neg a b := by ext <;> simp [sub_eq_add_neg]
  nsmul := nsmulRec
  zsmul := zsmulRec

instance [Field K] : Module K (Vec4 K) where
  one_smul a := by ext <;> simp
  mul_smul a b c := by ext <;> simp [mul_assoc]
  smul_zero a := by ext <;> simp
  smul_add a b c := by ext <;> simp [mul_add]
  add_smul a b c := by ext <;> simp [add_mul]
  zero_smul a := by ext <;> simp

variable [Field K]

/-- Coordinates as linear maps. -/
def lx : Vec4 K →ₗ[K] K := ⟨⟨(·.x), fun _ _ => rfl⟩, fun _ _ => rfl⟩
def ly : Vec4 K →ₗ[K] K := ⟨⟨(·.y), fun _ _ => rfl⟩, fun _ _ => rfl⟩
def lz : Vec4 K →ₗ[K] K := ⟨⟨(·.z), fun _ _ => rfl⟩, fun _ _ => rfl⟩
def lw : Vec4 K →ₗ[K] K := ⟨⟨(·.w), fun _ _ => rfl⟩, fun _ _ => rfl⟩

theorem sum_x {ι : Type} (s : Finset ι) (f : ι → Vec4 K) : (∑ i ∈ s, f i).x = ∑ i ∈ s, (f i).x := map_sum lx f s
theorem sum_y {ι : Type} (s : Finset ι) (f : ι → Vec4 K) : (∑ i ∈ s, f i).y = ∑ i ∈ s, (f i).y := map_sum ly f s
theorem sum_z {ι : Type} (s : Finset ι) (f : ι → Vec4 K) : (∑ i ∈ s, f i).z = ∑ i ∈ s, (f i).z := map_sum lz f s
theorem sum_w {ι : Type} (s : Finset ι) (f : ι → Vec4 K) : (∑ i ∈ s, f i).w = ∑ i ∈ s, (f i).w := map_sum lw f s
end Vec4

/-- `v / v.w` on the first three coordinates. -/
def proj [Div K] (v : Vec4 K) : Vec3 K := ⟨v.x / v.w, v.y / v.w, v.z / v.w⟩

theorem projectM_ok [Field K] [DecidableEq K] {v : Vec4 K} (h : v.w ≠ 0) : projectM v = .ok (proj v) := by
  simp [projectM, Vec3.divM, Vec4.head3, fdiv_ok h, proj]

/-- Inverse of `ToHomo` where the weight is non-zero. -/
def unhomo [Div K] (v : Vec4 K) : Vec4 K := ⟨v.x / v.w, v.y / v.w, v.z / v.w, v.w⟩

theorem fromHomo_ok [Field K] [DecidableEq K] {v : Vec4 K} (h : v.w ≠ 0) : FromHomo v = .ok (unhomo v) := by
  simp [FromHomo, fdiv_ok h, unhomo]

theorem toHomo_unhomo [Field K] {v : Vec4 K} (h : v.w ≠ 0) : ToHomo (unhomo v) = v := by
  ext <;> simp [ToHomo, unhomo, h]

theorem unhomo_toHomo [Field K] {v : Vec4 K} (h : v.w ≠ 0) : unhomo (ToHomo v) = v := by
  ext <;> simp [ToHomo, unhomo, h]

@[simp] theorem toHomo_w [Mul K] (v : Vec4 K) : (ToHomo v).w = v.w := rfl
@[simp] theorem unhomo_w [Div K] (v : Vec4 K) : (unhomo v).w = v.w := rfl

theorem forUp_finsum {A : Type} [AddCommMonoid A] (f : Int → A → M A) (a : ℕ → A) (n : ℕ) (lo : Int) (s : A)
    (h : ∀ i < n, ∀ t, f (lo + i) t = .ok (t + a i)) :
    forUp lo n f s = .ok (s + ∑ i ∈ Finset.range n, a i) := by
  have := forUp_eq f (fun i => s + ∑ j ∈ Finset.range i, a j) n lo (by
    intro i hi
    rw [h i hi, Finset.sum_range_succ, add_assoc])
  simpa using this

/-- A sum over a range whose terms vanish outside a window. -/
theorem sum_window {A : Type} [AddCommMonoid A] (f : ℕ → A) (n k p : ℕ) (hp : p ≤ k) (hk : k < n)
    (h : ∀ i < n, (i + p < k ∨ k < i) → f i = 0) :
    ∑ i ∈ Finset.range n, f i = ∑ j ∈ Finset.range (p + 1), f (k - p + j) := by
  have h1 : ∑ i ∈ Finset.Ico (k - p) (k + 1), f i = ∑ i ∈ Finset.range n, f i := by
    apply Finset.sum_subset
    · intro i hi
      rw [Finset.mem_Ico] at hi
      rw [Finset.mem_range]; omega
    · intro i hi hni
      rw [Finset.mem_Ico] at hni
      exact h i (Finset.mem_range.mp hi) (by omega)
  rw [← h1, Finset.sum_Ico_eq_sum_range]
  rw [show k + 1 - (k - p) = p + 1 by omega]

end Nurbs
