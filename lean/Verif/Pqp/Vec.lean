/-
Vectors and matrices of the bundled proximity query library.

Modelled: the operations of `/repo/VirtualRobot/CollisionDetection/PQP/PQP++/MatVec.h` that the rest of
the model uses.  `PQP_REAL` (`float`) is modelled by the real numbers, so rounding is not modelled.
-/
import Mathlib.Analysis.Real.Sqrt
import Mathlib.Tactic.Ring
import Mathlib.Tactic.Linarith

namespace Simox.Pqp

/-- `PQP_REAL[3]`. -/
@[ext] structure V3 where
  x : ℝ
  y : ℝ
  z : ℝ

/-- `PQP_REAL[3][3]`, stored by columns: `M[i][j]` is component `i` of column `j`. -/
@[ext] structure M3 where
  c0 : V3
  c1 : V3
  c2 : V3

/-- `Videntity` (`MatVec.h` 145-149). -/
def zero3 : V3 := ⟨0, 0, 0⟩

/-- `VpV` (459-465). -/
def vadd (a b : V3) : V3 := ⟨a.x + b.x, a.y + b.y, a.z + b.z⟩

/-- `VmV` (450-456). -/
def vsub (a b : V3) : V3 := ⟨a.x - b.x, a.y - b.y, a.z - b.z⟩

/-- `VxS` (533-539). -/
def vscale (a : V3) (s : ℝ) : V3 := ⟨a.x * s, a.y * s, a.z * s⟩

/-- `VpVxS` (468-474). -/
def vaddScaled (a b : V3) (s : ℝ) : V3 := ⟨a.x + b.x * s, a.y + b.y * s, a.z + b.z * s⟩

/-- `VdotV` (517-520). -/
def dot (a b : V3) : ℝ := a.x * b.x + a.y * b.y + a.z * b.z

/-- `VcrossV` (491-497). -/
def cross (a b : V3) : V3 :=
  ⟨a.y * b.z - a.z * b.y, a.z * b.x - a.x * b.z, a.x * b.y - a.y * b.x⟩

/-- `VdistV2` (523-530). -/
def dist2 (a b : V3) : ℝ :=
  (a.x - b.x) * (a.x - b.x) + (a.y - b.y) * (a.y - b.y) + (a.z - b.z) * (a.z - b.z)

/-- `Midentity` (136-142). -/
def one3 : M3 := ⟨⟨1, 0, 0⟩, ⟨0, 1, 0⟩, ⟨0, 0, 1⟩⟩

/-- `MxV` (351-364). -/
def mulV (m : M3) (v : V3) : V3 :=
  ⟨m.c0.x * v.x + m.c1.x * v.y + m.c2.x * v.z,
   m.c0.y * v.x + m.c1.y * v.y + m.c2.y * v.z,
   m.c0.z * v.x + m.c1.z * v.y + m.c2.z * v.z⟩

/-- `MxVpV` (367-384): `M1 V1 + V2`. -/
def mulVpV (m : M3) (v t : V3) : V3 :=
  ⟨m.c0.x * v.x + m.c1.x * v.y + m.c2.x * v.z + t.x,
   m.c0.y * v.x + m.c1.y * v.y + m.c2.y * v.z + t.y,
   m.c0.z * v.x + m.c1.z * v.y + m.c2.z * v.z + t.z⟩

/-- `MTxV` (404-417): the transposed matrix times the vector. -/
def tmulV (m : M3) (v : V3) : V3 := ⟨dot m.c0 v, dot m.c1 v, dot m.c2 v⟩

/-- `MxM` (251-282). -/
def mulM (a b : M3) : M3 := ⟨mulV a b.c0, mulV a b.c1, mulV a b.c2⟩

/-- `MTxM` (318-348): the transposed first matrix times the second. -/
def tmulM (a b : M3) : M3 := ⟨tmulV a b.c0, tmulV a b.c1, tmulV a b.c2⟩

end Simox.Pqp
