import Verif.Rfn.Spec

/-!
# Meshes of convex hulls

Models `MeshConverter::CreateTriMeshModel`, `ConvexHullGenerator::checkVerticeOrientation` and the functions of
`TriMeshModel` they use. Numbers are real, so there is no nan. Colours are left out.
-/

namespace Simox.Rfn

open Classical

/-- `checkVerticeOrientation`, GraspPlanning/ConvexHullGenerator.cpp 920-936. -/
def checkVerticeOrientation (v1 v2 v3 n : V3) : Prop :=
  let v1v2 : V3 := ![v2 0 - v1 0, v2 1 - v1 1, v2 2 - v1 2]
  let v1v3 : V3 := ![v3 0 - v1 0, v3 1 - v1 1, v3 2 - v1 2]
  let tmp := crossProduct v1v2 v1v3
  tmp 0 * n 0 + tmp 1 * n 1 + tmp 2 * n 2 < 0

/-- `TriMeshModel::CreateNormal`, VirtualRobot/Visualization/TriMeshModel.cpp 121-145. -/
noncomputable def createNormal (vertex1 vertex2 vertex3 : V3) : V3 :=
  let normal := crossProduct (vertex2 - vertex1) (vertex3 - vertex1)
  let length := norm3 normal
  if length < 1 / 10000000000 then normal else (1 / length) • normal

/-- `TriMeshModel::addTriangleWithFace`, VirtualRobot/Visualization/TriMeshModel.cpp 44-89. -/
noncomputable def addTriangleWithFace (m : Mesh) (vertex1 vertex2 vertex3 : V3) : Mesh :=
  let normal := createNormal vertex1 vertex2 vertex3
  let vs := m.vertices ++ [vertex1] ++ [vertex2] ++ [vertex3]
  let normal :=
    if norm3 normal < 1 / 10000000000 then createNormal vertex1 vertex2 vertex3 else (1 / norm3 normal) • normal
  ⟨vs, m.faces ++ [⟨vs.length - 3, vs.length - 2, vs.length - 1, normal⟩]⟩

/-- The body of the loop, GraspPlanning/MeshConverter.cpp 81-99. Nothing: `at` throws. -/
noncomputable def hullFace (hull : Mesh) (res : Mesh) (f : Face) : Option Mesh :=
  match corners hull.vertices f with
  | none => none
  | some (v1, v2, v3) =>
    if checkVerticeOrientation v1 v2 v3 f.normal then some (addTriangleWithFace res v3 v2 v1)
    else some (addTriangleWithFace res v1 v2 v3)

/-- The loop, GraspPlanning/MeshConverter.cpp 79-99. -/
noncomputable def hullLoop (hull : Mesh) : List Face → Mesh → Option Mesh
  | [], res => some res
  | f :: l, res => (hullFace hull res f).bind (hullLoop hull l)

/-- `CreateTriMeshModel`, GraspPlanning/MeshConverter.cpp 65-102. -/
noncomputable def createTriMeshModel (hull : Mesh) : Option Mesh :=
  if hull.vertices.length = 0 ∨ hull.faces.length = 0 then some ⟨[], []⟩
  else hullLoop hull hull.faces ⟨[], []⟩

end Simox.Rfn
