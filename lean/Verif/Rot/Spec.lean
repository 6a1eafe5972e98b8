import Verif.Rot.Model
import Mathlib.Algebra.Quaternion

/-!
# Rotations, stated independently
-/

namespace Simox.Rot

open Matrix Jac

/-- A homogeneous matrix of a rigid motion: an orthogonal block of determinant 1, and the last row
(0,0,0,1). -/
def IsPose (m : M4) : Prop :=
  m.submatrix Fin.castSucc Fin.castSucc ∈ Matrix.specialOrthogonalGroup (Fin 3) ℝ ∧ m 3 = ![0, 0, 0, 1]

/-- Rotation about the x axis. -/
noncomputable def rotX (a : ℝ) : M3 :=
  !![1, 0, 0; 0, Real.cos a, -Real.sin a; 0, Real.sin a, Real.cos a]
/-- Rotation about the y axis. -/
noncomputable def rotY (a : ℝ) : M3 :=
  !![Real.cos a, 0, Real.sin a; 0, 1, 0; -Real.sin a, 0, Real.cos a]
/-- Rotation about the z axis. -/
noncomputable def rotZ (a : ℝ) : M3 :=
  !![Real.cos a, -Real.sin a, 0; Real.sin a, Real.cos a, 0; 0, 0, 1]

/-- The rotation part of a homogeneous matrix. -/
def rotPart (m : M4) : M3 := m.submatrix Fin.castSucc Fin.castSucc
/-- The position part of a homogeneous matrix. -/
def posPart (m : M4) : V3 := ![m 0 3, m 1 3, m 2 3]

/-- The quaternion as a mathematical object: an element of Mathlib's quaternion algebra. -/
def Quat.toH (q : Quat) : Quaternion ℝ := ⟨q.w, q.x, q.y, q.z⟩

@[simp] theorem toH_re (q : Quat) : q.toH.re = q.w := rfl
@[simp] theorem toH_imI (q : Quat) : q.toH.imI = q.x := rfl
@[simp] theorem toH_imJ (q : Quat) : q.toH.imJ = q.y := rfl
@[simp] theorem toH_imK (q : Quat) : q.toH.imK = q.z := rfl

/-- The quaternion with all signs changed, which stands for the same rotation. -/
def Quat.neg (q : Quat) : Quat := ⟨-q.x, -q.y, -q.z, -q.w⟩

/-- Unit quaternions. -/
def Quat.Unit (q : Quat) : Prop := q.x ^ 2 + q.y ^ 2 + q.z ^ 2 + q.w ^ 2 = 1

/-- A vector as a purely imaginary quaternion. -/
def imH (v : V3) : Quaternion ℝ := ⟨0, v 0, v 1, v 2⟩

@[simp] theorem imH_re (v : V3) : (imH v).re = 0 := rfl
@[simp] theorem imH_imI (v : V3) : (imH v).imI = v 0 := rfl
@[simp] theorem imH_imJ (v : V3) : (imH v).imJ = v 1 := rfl
@[simp] theorem imH_imK (v : V3) : (imH v).imK = v 2 := rfl

end Simox.Rot
