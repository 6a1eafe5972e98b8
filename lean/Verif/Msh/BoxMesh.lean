import Verif.Msh.Model

/-!
# Meshes of boxes

Models `VirtualRobot/Visualization/TriMeshUtils.cpp`. A pose is a matrix and a vector; numbers are reals.
-/

namespace Simox.Msh

open Matrix Jac Rot

variable {C : Type}

/-- TriMeshUtils.cpp 41-78 `rawVertices`. -/
def rawVertices : List ℤ := [-1, -1, -1, -1, -1, 1, -1, 1, 1,
  1, 1, -1, -1, -1, -1, -1, 1, -1,
  1, -1, 1, -1, -1, -1, 1, -1, -1,
  1, 1, -1, 1, -1, -1, -1, -1, -1,
  -1, -1, -1, -1, 1, 1, -1, 1, -1,
  1, -1, 1, -1, -1, 1, -1, -1, -1,
  -1, 1, 1, -1, -1, 1, 1, -1, 1,
  1, 1, 1, 1, -1, -1, 1, 1, -1,
  1, -1, -1, 1, 1, 1, 1, -1, 1,
  1, 1, 1, 1, 1, -1, -1, 1, -1,
  1, 1, 1, -1, 1, -1, -1, 1, 1,
  1, 1, 1, -1, 1, 1, 1, -1, 1]

/-- TriMeshUtils.cpp 85-87: the number read for triangle `i`, corner `j`, coordinate `k`; there are enough of them. -/
def rawCorner (i : ℕ) (j k : Fin 3) : ℤ := (rawVertices[9 * i + 3 * j + k]?).getD 0

/-- TriMeshUtils.cpp 30-39, 83-88: a corner of a triangle. -/
noncomputable def boxCorner (R : M3) (p : V3) (width height depth : ℝ) (i : ℕ) (j : Fin 3) : V3 :=
  R *ᵥ ![rawCorner i j 0 * (width / 2), rawCorner i j 1 * (height / 2), rawCorner i j 2 * (depth / 2)] + p

/-- TriMeshUtils.cpp 28-95 `CreateBoxTriangles(triangles, globalPose, width, height, depth)`, and 97-102. -/
noncomputable def createBoxTriangles (R : M3) (p : V3) (width height depth : ℝ) : List (V3 × V3 × V3) :=
  (List.range 12).map fun i => (boxCorner R p width height depth i 0, boxCorner R p width height depth i 1, boxCorner R p width height depth i 2)

/-- TriMeshUtils.cpp 112, 139: the colour of entry `i`. -/
def selectedColor (color : C) (colors : List C) (i : ℕ) : C :=
  if i < colors.length then (colors[i]?).getD color else color

/-- TriMeshUtils.cpp 113-115, 142-144: adding a triangle. -/
noncomputable def addBoxTriangle (m : Mesh C) (t : V3 × V3 × V3) (color : C) : Mesh C :=
  m.addTriangleWithFace (some t.1) (some t.2.1) (some t.2.2) (createNormalVec (some t.1) (some t.2.1) (some t.2.2)) color color color

/-- TriMeshUtils.cpp 104-119 `CreateBox(globalPose, width, height, depth, color, colors)`. -/
noncomputable def createBox (R : M3) (p : V3) (width height depth : ℝ) (color : C) (colors : List C) : Mesh C :=
  (createBoxTriangles R p width height depth).zipIdx.foldl (fun m t => addBoxTriangle m t.1 (selectedColor color colors t.2)) Mesh.empty

/-- TriMeshUtils.cpp 121-149 `CreateSparseBoxGrid(globalPose, positions, width, height, depth, color, colors)`. -/
noncomputable def createSparseBoxGrid (R : M3) (p : V3) (positions : List V3) (width height depth : ℝ) (color : C) (colors : List C) : Mesh C :=
  positions.zipIdx.foldl (fun m pos =>
    (createBoxTriangles R (R *ᵥ pos.1 + p) width height depth).foldl (fun m t => addBoxTriangle m t (selectedColor color colors pos.2)) m) Mesh.empty

end Simox.Msh
