import Mathlib.Algebra.Order.Ring.Defs
import Mathlib.Tactic.Ring
import Mathlib.Tactic.Linarith
/-!
# 3-vectors and 3×3 matrices (`fcl::Vec3f`, `fcl::Matrix3f`)

`double` is replaced by a commutative ring `K` (with a linear order where comparisons occur);
rounding is not modelled.
-/
namespace Rbprm

/-- `fcl::Vec3f` -/
@[ext] structure Vec3 (K : Type _) where
  x : K
  y : K
  z : K
deriving DecidableEq, Repr

namespace Vec3
variable {K : Type _}

section ring
variable [CommRing K]
instance : Add (Vec3 K) := ⟨fun a b => ⟨a.x + b.x, a.y + b.y, a.z + b.z⟩⟩
instance : Sub (Vec3 K) := ⟨fun a b => ⟨a.x - b.x, a.y - b.y, a.z - b.z⟩⟩
instance : Neg (Vec3 K) := ⟨fun a => ⟨-a.x, -a.y, -a.z⟩⟩
instance : Zero (Vec3 K) := ⟨⟨0, 0, 0⟩⟩
/-- scalar multiple [Eigen / fcl, `Vec3f` and `Matrix3f` of rbprm-state.hh:122-124] -/
def smul (c : K) (a : Vec3 K) : Vec3 K := ⟨c * a.x, c * a.y, c * a.z⟩
/-- `a.dot(b)` [Eigen / fcl, `Vec3f` and `Matrix3f` of rbprm-state.hh:122-124] -/
def dot (a b : Vec3 K) : K := a.x * b.x + a.y * b.y + a.z * b.z
/-- `a.cross(b)` [Eigen / fcl, `Vec3f` and `Matrix3f` of rbprm-state.hh:122-124] -/
def cross (a b : Vec3 K) : Vec3 K :=
  ⟨a.y * b.z - a.z * b.y, a.z * b.x - a.x * b.z, a.x * b.y - a.y * b.x⟩
/-- `a.squaredNorm()` [Eigen / fcl, `Vec3f` and `Matrix3f` of rbprm-state.hh:122-124] -/
def normSq (a : Vec3 K) : K := dot a a

@[simp] theorem add_x (a b : Vec3 K) : (a + b).x = a.x + b.x := rfl
@[simp] theorem add_y (a b : Vec3 K) : (a + b).y = a.y + b.y := rfl
@[simp] theorem add_z (a b : Vec3 K) : (a + b).z = a.z + b.z := rfl
@[simp] theorem sub_x (a b : Vec3 K) : (a - b).x = a.x - b.x := rfl
@[simp] theorem sub_y (a b : Vec3 K) : (a - b).y = a.y - b.y := rfl
@[simp] theorem sub_z (a b : Vec3 K) : (a - b).z = a.z - b.z := rfl
@[simp] theorem neg_x (a : Vec3 K) : (-a).x = -a.x := rfl
@[simp] theorem neg_y (a : Vec3 K) : (-a).y = -a.y := rfl
@[simp] theorem neg_z (a : Vec3 K) : (-a).z = -a.z := rfl
@[simp] theorem zero_x : (0 : Vec3 K).x = 0 := rfl
@[simp] theorem zero_y : (0 : Vec3 K).y = 0 := rfl
@[simp] theorem zero_z : (0 : Vec3 K).z = 0 := rfl
@[simp] theorem smul_x (c : K) (a : Vec3 K) : (smul c a).x = c * a.x := rfl
@[simp] theorem smul_y (c : K) (a : Vec3 K) : (smul c a).y = c * a.y := rfl
@[simp] theorem smul_z (c : K) (a : Vec3 K) : (smul c a).z = c * a.z := rfl

/-- squared Euclidean distance [Eigen / fcl, `Vec3f` and `Matrix3f` of rbprm-state.hh:122-124] -/
def distSq (a b : Vec3 K) : K := normSq (a - b)

theorem distSq_comm (a b : Vec3 K) : distSq a b = distSq b a := by
  simp only [distSq, normSq, dot, sub_x, sub_y, sub_z]; ring

@[simp] theorem distSq_self (a : Vec3 K) : distSq a a = 0 := by
  simp [distSq, normSq, dot]
end ring

section ordered
variable [CommRing K] [LinearOrder K] [IsStrictOrderedRing K]
theorem distSq_nonneg (a b : Vec3 K) : 0 ≤ distSq a b := by
  simp only [distSq, normSq, dot]
  exact add_nonneg (add_nonneg (mul_self_nonneg _) (mul_self_nonneg _)) (mul_self_nonneg _)
end ordered
end Vec3

/-- `fcl::Matrix3f`, by rows -/
@[ext] structure Mat3 (K : Type _) where
  r0 : Vec3 K
  r1 : Vec3 K
  r2 : Vec3 K
deriving DecidableEq, Repr

namespace Mat3
variable {K : Type _} [CommRing K]
/-- `M * v` [Eigen / fcl, `Vec3f` and `Matrix3f` of rbprm-state.hh:122-124] -/
def mulVec (M : Mat3 K) (v : Vec3 K) : Vec3 K := ⟨M.r0.dot v, M.r1.dot v, M.r2.dot v⟩
/-- `M.transpose()` [Eigen / fcl, `Vec3f` and `Matrix3f` of rbprm-state.hh:122-124] -/
def transpose (M : Mat3 K) : Mat3 K :=
  ⟨⟨M.r0.x, M.r1.x, M.r2.x⟩, ⟨M.r0.y, M.r1.y, M.r2.y⟩, ⟨M.r0.z, M.r1.z, M.r2.z⟩⟩
/-- the identity matrix [Eigen / fcl, `Vec3f` and `Matrix3f` of rbprm-state.hh:122-124] -/
def one : Mat3 K := ⟨⟨1, 0, 0⟩, ⟨0, 1, 0⟩, ⟨0, 0, 1⟩⟩
end Mat3
end Rbprm
