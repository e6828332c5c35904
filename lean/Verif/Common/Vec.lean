import Mathlib.Algebra.Order.Field.Basic
import Mathlib.Tactic.Ring
/-!
# Plane vectors (libvvhd/headers/TVec.hpp, TVec3D.hpp)

Coordinates are elements of a field; no rounding.
-/
namespace Vvflow

/-- `TVec` (TVec.hpp:5-14). -/
@[ext] structure Vec (K : Type) where
  x : K
  y : K
deriving DecidableEq

/-- `TVec3D` (TVec3D.hpp:5-15): a vector and an angle. -/
@[ext] structure Vec3 (K : Type) where
  r : Vec K
  o : K
deriving DecidableEq

namespace Vec
variable {K : Type}

/-- TVec.hpp:24 -/
instance [Add K] : Add (Vec K) := ⟨fun p q => ⟨p.x + q.x, p.y + q.y⟩⟩
/-- TVec.hpp:25 -/
instance [Sub K] : Sub (Vec K) := ⟨fun p q => ⟨p.x - q.x, p.y - q.y⟩⟩
/-- TVec.hpp:26 -/
instance [Neg K] : Neg (Vec K) := ⟨fun p => ⟨-p.x, -p.y⟩⟩
/-- TVec.hpp:11-12 -/
instance [Zero K] : Zero (Vec K) := ⟨⟨0, 0⟩⟩

/-- `p * c` (TVec.hpp:21-22) -/
def smul [Mul K] (p : Vec K) (c : K) : Vec K := ⟨p.x * c, p.y * c⟩
/-- `p / c`, computed as `p * (1./c)` (TVec.hpp:23) -/
def div [DivisionRing K] (p : Vec K) (c : K) : Vec K := p.smul (1 / c)
/-- Scalar product (TVec.hpp:34) -/
def dot [Add K] [Mul K] (p q : Vec K) : K := p.x * q.x + p.y * q.y
/-- `abs2` (TVec.hpp:17) -/
def abs2 [Add K] [Mul K] (p : Vec K) : K := p.x * p.x + p.y * p.y
/-- `rotl` (TVec.hpp:35) -/
def rotl [Neg K] (p : Vec K) : Vec K := ⟨-p.y, p.x⟩
/-- `abs` (TVec.hpp:16); the square root is a parameter. -/
def abs [Add K] [Mul K] (sqrt : K → K) (p : Vec K) : K := sqrt (p.abs2)

@[simp] theorem add_x [Add K] (p q : Vec K) : (p + q).x = p.x + q.x := rfl
@[simp] theorem add_y [Add K] (p q : Vec K) : (p + q).y = p.y + q.y := rfl
@[simp] theorem sub_x [Sub K] (p q : Vec K) : (p - q).x = p.x - q.x := rfl
@[simp] theorem sub_y [Sub K] (p q : Vec K) : (p - q).y = p.y - q.y := rfl
@[simp] theorem neg_x [Neg K] (p : Vec K) : (-p).x = -p.x := rfl
@[simp] theorem neg_y [Neg K] (p : Vec K) : (-p).y = -p.y := rfl
@[simp] theorem zero_x [Zero K] : (0 : Vec K).x = 0 := rfl
@[simp] theorem zero_y [Zero K] : (0 : Vec K).y = 0 := rfl
@[simp] theorem smul_x [Mul K] (p : Vec K) (c : K) : (p.smul c).x = p.x * c := rfl
@[simp] theorem smul_y [Mul K] (p : Vec K) (c : K) : (p.smul c).y = p.y * c := rfl
@[simp] theorem rotl_x [Neg K] (p : Vec K) : p.rotl.x = -p.y := rfl
@[simp] theorem rotl_y [Neg K] (p : Vec K) : p.rotl.y = p.x := rfl

/-- Vectors with these operations are an additive group (so sums may be reordered). -/
instance [AddCommGroup K] : AddCommGroup (Vec K) where
  add_assoc a b c := by ext <;> simp [add_assoc]
  zero_add a := by ext <;> simp
  add_zero a := by ext <;> simp
  add_comm a b := by ext <;> simp [add_comm]
  neg_add_cancel a := by ext <;> simp
  sub_eq_add_neg a b := by ext <;> simp [sub_eq_add_neg]
  nsmul := nsmulRec
  zsmul := zsmulRec

end Vec

namespace Vec3
variable {K : Type}
/-- TVec3D.hpp:18 -/
instance [Add K] : Add (Vec3 K) := ⟨fun p q => ⟨p.r + q.r, p.o + q.o⟩⟩
/-- TVec3D.hpp:19 -/
instance [Sub K] : Sub (Vec3 K) := ⟨fun p q => ⟨p.r - q.r, p.o - q.o⟩⟩
/-- TVec3D.hpp:12-13 -/
instance [Zero K] : Zero (Vec3 K) := ⟨⟨0, 0⟩⟩
/-- `p * c` (TVec3D.hpp:20-21) -/
def smul [Mul K] (p : Vec3 K) (c : K) : Vec3 K := ⟨p.r.smul c, p.o * c⟩

@[simp] theorem add_r [Add K] (p q : Vec3 K) : (p + q).r = p.r + q.r := rfl
@[simp] theorem add_o [Add K] (p q : Vec3 K) : (p + q).o = p.o + q.o := rfl
@[simp] theorem sub_r [Sub K] (p q : Vec3 K) : (p - q).r = p.r - q.r := rfl
@[simp] theorem sub_o [Sub K] (p q : Vec3 K) : (p - q).o = p.o - q.o := rfl
@[simp] theorem smul_r [Mul K] (p : Vec3 K) (c : K) : (p.smul c).r = p.r.smul c := rfl
@[simp] theorem smul_o [Mul K] (p : Vec3 K) (c : K) : (p.smul c).o = p.o * c := rfl
end Vec3

end Vvflow
