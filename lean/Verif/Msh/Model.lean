import Verif.Msh.Box
import Verif.Mth.Geo

/-!
# Triangle meshes

Models `VirtualRobot/Visualization/TriMeshModel.cpp` and `struct TriangleFace` of `MathTools.h`. Numbers are reals or
NaN; there is no rounding. Materials are left out.
-/

namespace Simox.Msh

open Matrix Jac Rot

/-- A vector; `none`: one of its components is NaN. -/
abbrev Vec := Option V3

/-- How a call ends. -/
inductive Res (α : Type) where
  | ok (a : α)
  /-- `std::out_of_range` -/
  | throw
  /-- undefined behaviour: access outside of a vector -/
  | ub

/-- `UINT_MAX`: no id. -/
def noId : ℕ := 2 ^ 32 - 1

/-- `static_cast<unsigned int>(n - k)` for `size_t` numbers. -/
def u32 (n k : ℕ) : ℕ := (n + 2 ^ 32 - k) % 2 ^ 32

/-- MathTools.h 400-459 `struct TriangleFace`; corner `c` stands for `id1`, `id2`, `id3` etc. -/
structure Face where
  id : Fin 3 → ℕ
  idColor : Fin 3 → ℕ
  idNormal : Fin 3 → ℕ
  normal : Vec

/-- MathTools.h 402-406: the constructor; `normal` is not initialised and has any value. -/
def Face.new (garbage : Vec) : Face := ⟨fun _ => noId, fun _ => noId, fun _ => noId, garbage⟩

/-- MathTools.h 411-415 `flipOrientation()`. -/
noncomputable def Face.flipOrientation (f : Face) : Face :=
  ⟨![f.id 2, f.id 1, f.id 0], f.idColor, f.idNormal, f.normal.map fun n => (-1 : ℝ) • n⟩

/-- TriMeshModel.h 142-147: the members (`C`: colours). -/
structure Mesh (C : Type) where
  normals : List Vec
  vertices : List V3
  colors : List C
  faces : List Face
  boundingBox : BBox

variable {C : Type}

/-- TriMeshModel.cpp 22-23: the empty mesh. -/
def Mesh.empty : Mesh C := ⟨[], [], [], [], BBox.clear⟩

/-! ## Building -/

open Classical in
/-- TriMeshModel.cpp 121-145 `CreateNormal(vertex1, vertex2, vertex3)`, for vertices without NaN. -/
noncomputable def createNormal (v1 v2 v3 : V3) : V3 :=
  let normal := crossProduct (v2 - v1) (v3 - v1)
  if nrm normal < 1e-10 then normal else (1 / nrm normal) • normal

/-- TriMeshModel.cpp 121-146 `CreateNormal`: NaN if a vertex has NaN. -/
noncomputable def createNormalVec : Vec → Vec → Vec → Vec
  | some v1, some v2, some v3 => some (createNormal v1 v2 v3)
  | _, _, _ => none

/-- TriMeshModel.cpp 169-179 `addVertex(vertex)`: the id, or -1. -/
noncomputable def Mesh.addVertex (m : Mesh C) : Vec → Mesh C × ℤ
  | none => (m, -1)
  | some v => ({ m with vertices := m.vertices ++ [v], boundingBox := m.boundingBox.addPoint (real v) }, m.vertices.length)

/-- TriMeshModel.cpp 184-189 `addNormal(normal)`. -/
def Mesh.addNormal (m : Mesh C) (n : Vec) : Mesh C × ℕ :=
  ({ m with normals := m.normals ++ [n] }, u32 (m.normals.length + 1) 1)

/-- TriMeshModel.cpp 194-199 `addColor(color)`. -/
def Mesh.addColor (m : Mesh C) (c : C) : Mesh C × ℕ := ({ m with colors := m.colors ++ [c] }, u32 (m.colors.length + 1) 1)

/-- TriMeshModel.cpp 151-154 `addFace(face)`. -/
def Mesh.addFace (m : Mesh C) (f : Face) : Mesh C := { m with faces := m.faces ++ [f] }

/-- TriMeshModel.cpp 156-163 `addFace(id0, id1, id2)`. -/
def Mesh.addFaceIds (m : Mesh C) (garbage : Vec) (id0 id1 id2 : ℕ) : Mesh C :=
  m.addFace { Face.new garbage with id := ![id0, id1, id2] }

open Classical in
/-- TriMeshModel.cpp 50-89 `addTriangleWithFace(vertex1, vertex2, vertex3, normal, color1, color2, color3)`. -/
noncomputable def Mesh.addTriangleWithFace (m : Mesh C) (v1 v2 v3 : Vec) (normal : Vec) (c1 c2 c3 : C) : Mesh C :=
  let m := (m.addVertex v1).1
  let m := (m.addVertex v2).1
  let m := (m.addVertex v3).1
  let m := (m.addColor c1).1
  let m := (m.addColor c2).1
  let m := (m.addColor c3).1
  let normal := match normal with
    | none => createNormalVec v1 v2 v3
    | some n => if nrm n < 1e-10 then createNormalVec v1 v2 v3 else some (Rot.normalize n)
  let n := m.vertices.length
  let k := m.colors.length
  m.addFace ⟨![u32 n 3, u32 n 2, u32 n 1], ![u32 k 3, u32 k 2, u32 k 1], fun _ => noId, normal⟩

/-- TriMeshModel.cpp 44-48 `addTriangleWithFace(vertex1, vertex2, vertex3)`, with the default colour of TriMeshModel.h
61-64. -/
noncomputable def Mesh.addTriangle (m : Mesh C) (gray : C) (v1 v2 v3 : Vec) : Mesh C :=
  m.addTriangleWithFace v1 v2 v3 (createNormalVec v1 v2 v3) gray gray gray

/-- TriMeshModel.cpp 25-31: the constructor from triangles. -/
noncomputable def Mesh.ofTriangles (gray : C) (ts : List (Vec × Vec × Vec)) : Mesh C :=
  ts.foldl (fun m t => m.addTriangle gray t.1 t.2.1 t.2.2) Mesh.empty

/-- TriMeshModel.cpp 102-106: the loop of `addMesh` over the faces that are left. -/
noncomputable def addMeshLoop (o : Mesh C) : List Face → Mesh C → Res (Mesh C)
  | [], m => .ok m
  | f :: fs, m =>
      match o.vertices[f.id 0]?, o.vertices[f.id 1]?, o.vertices[f.id 2]?, o.colors[f.idColor 0]?, o.colors[f.idColor 1]?, o.colors[f.idColor 2]? with
      | some v1, some v2, some v3, some c1, some c2, some c3 =>
          addMeshLoop o fs (m.addTriangleWithFace (some v1) (some v2) (some v3) f.normal c1 c2 c3)
      | _, _, _, _, _, _ => .throw

/-- TriMeshModel.cpp 100-108 `addMesh(mesh)`, for another mesh than this one. -/
noncomputable def Mesh.addMesh (m o : Mesh C) : Res (Mesh C) := addMeshLoop o o.faces m

/-- TriMeshModel.cpp 223-230 `clear()`. -/
def Mesh.clear (m : Mesh C) : Mesh C := ⟨m.normals, [], [], [], BBox.clear⟩

/-- TriMeshModel.cpp 595-600 `setColor(color)`. -/
def Mesh.setColor (m : Mesh C) (c : C) : Mesh C := { m with colors := m.vertices.map fun _ => c }

/-! ## Missing normals and colours -/

open Classical in
/-- TriMeshModel.cpp 242-245: the normal of a face that has none is computed; `none`: a vertex does not exist. -/
noncomputable def faceNormal (vertices : List V3) (f : Face) : Option Vec :=
  match f.normal with
  | some n =>
      if nrm n < 1e-10 then
        match vertices[f.id 0]?, vertices[f.id 1]?, vertices[f.id 2]? with
        | some v1, some v2, some v3 => some (some (createNormal v1 v2 v3))
        | _, _, _ => none
      else some (some n)
  | none =>
      match vertices[f.id 0]?, vertices[f.id 1]?, vertices[f.id 2]? with
      | some v1, some v2, some v3 => some (some (createNormal v1 v2 v3))
      | _, _, _ => none

/-- TriMeshModel.cpp 252-261, 262-271: the second or third corner; the state is the list of normals, the face,
`normalId` and the counter. -/
def missingCorner (c : Fin 3) (s : List Vec × Face × ℕ × ℕ) : List Vec × Face × ℕ × ℕ :=
  let (normals, f, normalId, counter) := s
  if f.idNormal c = noId then
    if normalId = noId then (normals, { f with idNormal := Function.update f.idNormal c normalId }, normalId, counter)
    else
      let id := u32 (normals.length + 1) 1
      (normals ++ [f.normal], { f with idNormal := Function.update f.idNormal c id }, id, counter + 1)
  else s

/-- TriMeshModel.cpp 247-251: the first corner. -/
def missingFirst (s : List Vec × Face × ℕ × ℕ) : List Vec × Face × ℕ × ℕ :=
  let (normals, f, normalId, counter) := s
  if f.idNormal 0 = noId then
    let id := u32 (normals.length + 1) 1
    (normals ++ [f.normal], { f with idNormal := Function.update f.idNormal 0 id }, id, counter + 1)
  else (normals, f, normalId, counter)

/-- TriMeshModel.cpp 237-271: one face; `none`: `std::out_of_range`. -/
noncomputable def missingFace (vertices : List V3) (normals : List Vec) (f : Face) (counter : ℕ) : Option (List Vec × Face × ℕ) :=
  if f.idNormal 0 ≠ noId ∧ f.idNormal 1 ≠ noId ∧ f.idNormal 2 ≠ noId then some (normals, f, counter)
  else
    match faceNormal vertices f with
    | none => none
    | some n =>
        let s := missingCorner 2 (missingCorner 1 (missingFirst (normals, { f with normal := n }, noId, counter)))
        some (s.1, s.2.1, s.2.2.2)

/-- TriMeshModel.cpp 235-272: the loop over the faces that are left; the result has the normals, the faces and the counter. -/
noncomputable def missingLoop (vertices : List V3) : List Face → List Vec → ℕ → Option (List Vec × List Face × ℕ)
  | [], normals, counter => some (normals, [], counter)
  | f :: fs, normals, counter =>
      match missingFace vertices normals f counter with
      | none => none
      | some (normals, f, counter) =>
          match missingLoop vertices fs normals counter with
          | none => none
          | some (normals, fs, counter) => some (normals, f :: fs, counter)

/-- TriMeshModel.cpp 232-274 `addMissingNormals()`: the mesh and the number of normals. (Of the mesh after an exception
nothing is said.) -/
noncomputable def Mesh.addMissingNormals (m : Mesh C) : Res (Mesh C × ℕ) :=
  match missingLoop m.vertices m.faces m.normals 0 with
  | none => .throw
  | some (normals, faces, counter) => .ok ({ m with normals := normals, faces := faces }, counter)

/-- TriMeshModel.cpp 283-291: the colour of a corner at the vertex, of the first face that has one. -/
def findColor (v : ℕ) : List Face → Option ℕ
  | [] => none
  | f :: fs =>
      if f.id 0 = v ∧ f.idColor 0 ≠ noId then some (f.idColor 0)
      else if f.id 1 = v ∧ f.idColor 1 ≠ noId then some (f.idColor 1)
      else if f.id 2 = v ∧ f.idColor 2 ≠ noId then some (f.idColor 2)
      else findColor v fs

/-- TriMeshModel.cpp 281-293 `getColorId(vertexId)`. -/
def Mesh.getColorId (m : Mesh C) (color : C) (v : ℕ) : Mesh C × ℕ :=
  match findColor v m.faces with
  | some id => (m, id)
  | none => m.addColor color

/-- TriMeshModel.cpp 302-316: corner `c` of face `j` (the test of lines 296-299 only skips corners with a colour); the
state is the mesh and the counter. -/
def missingColor (color : C) (s : Mesh C × ℕ) (jc : ℕ × Fin 3) : Mesh C × ℕ :=
  match s.1.faces[jc.1]? with
  | none => s
  | some f =>
      if f.idColor jc.2 = noId then
        let r := s.1.getColorId color (f.id jc.2)
        ({ r.1 with faces := r.1.faces.set jc.1 { f with idColor := Function.update f.idColor jc.2 r.2 } }, s.2 + 1)
      else s

/-- TriMeshModel.cpp 294-318: all corners, face by face. -/
def Mesh.missingColors (m : Mesh C) (color : C) : Mesh C × ℕ :=
  ((List.range m.faces.length).flatMap fun j => [(j, (0 : Fin 3)), (j, 1), (j, 2)]).foldl (missingColor color) (m, 0)

/-! ## Vertices -/

/-- TriMeshModel.cpp 345-352, 463-470: which faces use a vertex (`vertex2FaceMap[v]` has face `j`). -/
def initMap (faces : List Face) (v j : ℕ) : Bool :=
  match faces[j]? with
  | none => false
  | some f => f.id 0 == v || f.id 1 == v || f.id 2 == v

/-- TriMeshModel.cpp 390-412: vertex `k` was found near vertex `i`; the state is the faces and `vertex2FaceMap`. -/
def mergeOne (i : ℕ) (s : List Face × (ℕ → ℕ → Bool)) (k : ℕ) : List Face × (ℕ → ℕ → Bool) :=
  (s.1.mapIdx fun j f => if s.2 k j then { f with id := fun c => if f.id c = k then i else f.id c } else f,
    fun v j => s.2 v j || (v == i && s.2 k j && initMap s.1 k j))

/-- TriMeshModel.cpp 381-414: the loop over the vertices. `search i` are the indices the kd-tree finds around vertex `i`. -/
def mergeLoop (search : ℕ → List ℕ) (size : ℕ) (faces : List Face) : List Face :=
  ((List.range size).foldl (fun s i => (search i).foldl (mergeOne i) s) (faces, initMap faces)).1

/-- All vertices of the faces exist. -/
def validIds (faces : List Face) (size : ℕ) : Prop := ∀ f ∈ faces, ∀ c, f.id c < size

open Classical in
/-- TriMeshModel.cpp 472-485: the loop over the vertices; the state is `newVertices` and `oldNewIndexMap`. -/
noncomputable def newVertices (vertices : List V3) (faces : List Face) : ℕ → List V3 × (ℕ → ℕ)
  | 0 => ([], fun _ => 0)
  | i + 1 =>
      let s := newVertices vertices faces i
      if ∃ j, initMap faces i j = true then
        match vertices[i]? with
        | none => s
        | some v => (s.1 ++ [v], Function.update s.2 i s.1.length)
      else s

open Classical in
/-- TriMeshModel.cpp 459-499 `removeUnusedVertices()`: the mesh and the number of removed vertices. -/
noncomputable def Mesh.removeUnusedVertices (m : Mesh C) : Res (Mesh C × ℕ) :=
  if validIds m.faces m.vertices.length then
    let s := newVertices m.vertices m.faces m.vertices.length
    .ok ({ m with vertices := s.1, faces := m.faces.map fun f => { f with id := fun c => s.2 (f.id c) } }, m.vertices.length - s.1.length)
  else .ub

open Classical in
/-- TriMeshModel.cpp 341-457 `mergeVertices(mergeThreshold, removeVertices)`; the kd-tree is given by what it finds. -/
noncomputable def Mesh.mergeVertices (m : Mesh C) (search : ℕ → List ℕ) (removeVertices : Bool) : Res (Mesh C) :=
  if validIds m.faces m.vertices.length then
    let m := { m with faces := mergeLoop search m.vertices.length m.faces }
    if removeVertices then
      match m.removeUnusedVertices with
      | .ok r => .ok r.1
      | .throw => .throw
      | .ub => .ub
    else .ok m
  else .ub

/-- TriMeshModel.cpp 276-319 `addMissingColors(color)`: the mesh and the number returned. -/
noncomputable def Mesh.addMissingColors (m : Mesh C) (search : ℕ → List ℕ) (color : C) : Res (Mesh C × ℕ) :=
  match m.mergeVertices search true with
  | .ok m => .ok (m.missingColors color)
  | .throw => .throw
  | .ub => .ub

/-- TriMeshModel.cpp 333-336 `flipVertexOrientations()`. -/
noncomputable def Mesh.flipVertexOrientations (m : Mesh C) : Mesh C := { m with faces := m.faces.map Face.flipOrientation }

/-! ## Moving the surface -/

open Classical in
/-- MathTools.cpp 1391-1406 `getAngle(v1, v2)`: NaN if one of them is zero. -/
noncomputable def angle (v1 v2 : V3) : Option ℝ := if nrm v1 * nrm v2 = 0 then none else some (Mth.getAngleVec v1 v2)

/-- Sum of two vectors. -/
noncomputable def addVec : Vec → Vec → Vec
  | some a, some b => some (a + b)
  | _, _ => none

/-- TriMeshModel.cpp 524-526: the normal used for a corner. -/
def cornerNormal (normals : List Vec) (f : Face) (c : Fin 3) : Vec :=
  match normals[f.idNormal c]? with
  | some n => n
  | none => f.normal

open Classical in
/-- TriMeshModel.cpp 536-559: what a corner at `p`, with the other corners at `q` and `r`, adds to the sum (`none`: nothing). -/
noncomputable def cornerWeight (normal : Vec) (p q r : V3) : Option Vec :=
  match normal with
  | none => none
  | some n =>
      if nrm n > 0 then some ((angle (-p + q) (-p + r)).map fun a => a • Rot.normalize n)
      else none

/-- TriMeshModel.cpp 542, 550, 558: addition to the sum of a vertex. -/
noncomputable def addAt (avg : ℕ → Vec) (v : ℕ) : Option Vec → ℕ → Vec
  | none => avg
  | some w => fun i => if i = v then addVec (avg i) w else avg i

/-- TriMeshModel.cpp 518-560: the loop over the faces; `none`: `std::out_of_range`. -/
noncomputable def averageLoop (vertices : List V3) (normals : List Vec) : List Face → (ℕ → Vec) → Option (ℕ → Vec)
  | [], avg => some avg
  | f :: fs, avg =>
      match vertices[f.id 0]?, vertices[f.id 1]?, vertices[f.id 2]? with
      | some p1, some p2, some p3 =>
          let avg := addAt avg (f.id 0) (cornerWeight (cornerNormal normals f 0) p1 p2 p3)
          let avg := addAt avg (f.id 1) (cornerWeight (cornerNormal normals f 1) p2 p1 p3)
          let avg := addAt avg (f.id 2) (cornerWeight (cornerNormal normals f 2) p3 p2 p1)
          averageLoop vertices normals fs avg
      | _, _, _ => none

open Classical in
/-- TriMeshModel.cpp 567-577: a vertex is moved along its normal; the length of a NaN vector is not above zero. -/
noncomputable def moveVertex (offset : ℝ) (normal : Vec) (p : V3) : V3 :=
  match normal with
  | none => p
  | some n => if nrm n > 0 then p + offset • n else p

/-- TriMeshModel.cpp 579-590: the loop that stores the new normals. -/
def storeNormals (avg : ℕ → Vec) : List Face → List Vec → List Vec × List Face
  | [], normals => (normals, [])
  | f :: fs, normals =>
      let n := normals.length
      let r := storeNormals avg fs (normals ++ [avg (f.id 0), avg (f.id 1), avg (f.id 2)])
      (r.1, { f with idNormal := ![u32 (n + 1) 1, u32 (n + 2) 1, u32 (n + 3) 1] } :: r.2)

/-- TriMeshModel.cpp 513-593 `fattenShrink(offset, updateNormals)`. -/
noncomputable def Mesh.fattenShrink (m : Mesh C) (offset : ℝ) (updateNormals : Bool) : Res (Mesh C) :=
  match averageLoop m.vertices m.normals m.faces fun _ => some 0 with
  | none => .throw
  | some avg =>
      let avg := fun i => (avg i).map Rot.normalize
      let m := { m with vertices := m.vertices.mapIdx fun i p => moveVertex offset (avg i) p }
      if updateNormals then
        let r := storeNormals avg m.faces []
        .ok { m with normals := r.1, faces := r.2 }
      else .ok m

/-- TriMeshModel.cpp 321-326 `smoothNormalSurface()`. -/
noncomputable def Mesh.smoothNormalSurface (m : Mesh C) (search : ℕ → List ℕ) : Res (Mesh C) :=
  match m.mergeVertices search true with
  | .ok m => match m.addMissingNormals with
    | .ok r => r.1.fattenShrink 0 true
    | .throw => .throw
    | .ub => .ub
  | .throw => .throw
  | .ub => .ub

open Classical in
/-- TriMeshModel.cpp 835-851 `scale(scaleFactor)`. -/
noncomputable def Mesh.scale (m : Mesh C) (f : V3) : Mesh C :=
  if f 0 = 1 ∧ f 1 = 1 ∧ f 2 = 1 then m
  else { m with vertices := m.vertices.map fun v j => v j * f j, boundingBox := m.boundingBox.scale f }

/-- TriMeshModel.cpp 860-871 `clone(scaleFactor)`. -/
noncomputable def Mesh.clone (m : Mesh C) (f : V3) : Mesh C :=
  Mesh.scale ⟨m.normals, m.vertices, m.colors, m.faces, m.boundingBox⟩ f

/-! ## Measures -/

/-- TriMeshModel.cpp 506-508: the area of a face; `none` for `std::out_of_range`. -/
noncomputable def faceArea (vertices : List V3) (f : Face) : Option ℝ :=
  match vertices[f.id 0]?, vertices[f.id 1]?, vertices[f.id 2]? with
  | some a, some b, some c => some (Mth.getTriangleArea a b c)
  | _, _, _ => none

/-- TriMeshModel.cpp 501-511 `getFaceAreas()`: `none` for `std::out_of_range`. -/
noncomputable def Mesh.getFaceAreas (m : Mesh C) : Option (List ℝ) := m.faces.mapM (faceArea m.vertices)

open Classical in
/-- TriMeshModel.cpp 607-624 `getCOM()`. -/
noncomputable def Mesh.getCOM (m : Mesh C) : V3 :=
  let s := m.vertices.foldl (fun s v => s + v) 0
  if m.vertices = [] then s else (1 / (m.vertices.length : ℝ)) • s

open Classical in
/-- TriMeshModel.cpp 626-654 `getSize(storeMinSize, storeMaxSize)`: `none` for `false`. -/
noncomputable def Mesh.getSize (m : Mesh C) : Option (V3 × V3) :=
  match m.vertices with
  | [] => none
  | v0 :: vs => some ((v0 :: vs).foldl (fun s v => (fun j => if v j < s.1 j then v j else s.1 j, fun j => if v j > s.2 j then v j else s.2 j)) (v0, v0))

/-! ## Orientation -/

/-- TriMeshModel.cpp 665-730 `checkFacesHaveSameEdge(face1, face2, commonVertexIds)`: the pairs of corners (counted from 0)
at the same place; `eq a b`: vertices `a` and `b` are at the same place. -/
def commonCorners (eq : ℕ → ℕ → Bool) (f1 f2 : Face) : List (Fin 3 × Fin 3) :=
  [((0 : Fin 3), (0 : Fin 3)), (0, 1), (0, 2), (1, 0), (1, 1), (1, 2), (2, 0), (2, 1), (2, 2)].filter fun ab => eq (f1.id ab.1) (f2.id ab.2)

/-- TriMeshModel.cpp 761-786: does the second face have to be flipped? -/
def mustFlip (eq : ℕ → ℕ → Bool) (inverted : Bool) (f1 f2 : Face) : Bool :=
  match commonCorners eq f1 f2 with
  | [(a1, b1), (a2, b2)] =>
      let bAok := (a1 == 0 && a2 == 1) || (a1 == 1 && a2 == 2) || (a1 == 2 && a2 == 0)
      let bBok := (b1 == 0 && b2 == 2) || (b1 == 2 && b2 == 1) || (b1 == 1 && b2 == 0)
      let bAok := if inverted then !bAok else bAok
      (bAok && !bBok) || (!bAok && bBok)
  | _ => false

/-- TriMeshModel.cpp 750-787: the comparison of faces `i` and `j`; the state is the faces and `flippedFacesCount`. -/
noncomputable def orientStep (eq : ℕ → ℕ → Bool) (inverted : Bool) (s : List Face × ℕ) (ij : ℕ × ℕ) : List Face × ℕ :=
  if ij.1 = ij.2 then s
  else
    match s.1[ij.1]?, s.1[ij.2]? with
    | some f1, some f2 => if mustFlip eq inverted f1 f2 then (s.1.set ij.2 f2.flipOrientation, s.2 + 1) else s
    | _, _ => s

/-- TriMeshModel.cpp 746-788: the two loops. -/
noncomputable def orientLoop (eq : ℕ → ℕ → Bool) (inverted : Bool) (faces : List Face) : List Face × ℕ :=
  ((List.range faces.length).flatMap fun i => (List.range faces.length).map fun j => (i, j)).foldl (orientStep eq inverted) (faces, 0)

open Classical in
/-- Vertices `a` and `b` are at the same place. -/
noncomputable def samePlace (vertices : List V3) (a b : ℕ) : Bool := decide (vertices[a]? = vertices[b]?)

open Classical in
/-- TriMeshModel.cpp 739-791 `checkAndCorrectNormals(inverted)`: the mesh and the number of flips. -/
noncomputable def Mesh.checkAndCorrectNormals (m : Mesh C) (inverted : Bool) : Res (Mesh C × ℕ) :=
  if m.faces.length ≥ 2 ∧ ¬ validIds m.faces m.vertices.length then .ub
  else
    let r := orientLoop (samePlace m.vertices) inverted m.faces
    .ok ({ m with faces := r.1 }, r.2)

end Simox.Msh
