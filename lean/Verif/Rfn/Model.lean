import Mathlib.Analysis.Real.Sqrt
import Mathlib.LinearAlgebra.CrossProduct

/-!
# Refining the surface of an object

Models `RefineObjectSurface`, `checkAndSplitVertex`, `hasVertex` and `getMaxVertexDistance` of
`GraspPlanning/MeshConverter.cpp`. Numbers are real (no rounding). The visualization that is made of the result
is not modelled. A read outside of a vector is the outcome `ub`. Recursion is given a depth, and the outcome
`loop` says that it was not enough.
-/

namespace Simox.Rfn

open Classical

/-- `Eigen::Vector3f`. -/
abbrev V3 := Fin 3 → ℝ

/-- `MathTools::TriangleFace` (the fields that are used). -/
structure Face where
  id1 : Nat
  id2 : Nat
  id3 : Nat
  normal : V3

/-- `TriMeshModel`. -/
structure Mesh where
  vertices : List V3
  faces : List Face

/-- Outcomes. -/
inductive Out (α : Type) where
  | ok (a : α)
  | ub
  | loop

/-- `v.norm()`. -/
noncomputable def norm3 (v : V3) : ℝ := Real.sqrt (v 0 * v 0 + v 1 * v 1 + v 2 * v 2)

/-- `hasVertex`, MeshConverter.cpp 104-115: the first index, or nothing. -/
noncomputable def hasVertex (obj : V3) : List V3 → Option Nat
  | [] => none
  | v :: l => if v = obj then some 0 else (hasVertex obj l).map (· + 1)

/-- One of the blocks 145-156, 158-169 and 171-182: the vertices and the index of `v`. -/
noncomputable def addOnce (vs : List V3) (v : V3) : List V3 × Nat :=
  match hasVertex v vs with
  | some i => (vs, i)
  | none => (vs ++ [v], (vs ++ [v]).length - 1)

/-- The corners of a face. -/
def corners (vs : List V3) (f : Face) : Option (V3 × V3 × V3) :=
  match vs[f.id1]?, vs[f.id2]?, vs[f.id3]? with
  | some a, some b, some c => some (a, b, c)
  | _, _, _ => none

/-- The body of the first loop, MeshConverter.cpp 138-193. -/
noncomputable def copyFace (tm : Mesh) (m : Mesh) (f : Face) : Out Mesh :=
  match corners tm.vertices f with
  | none => .ub
  | some (v1, v2, v3) =>
    let r1 := addOnce m.vertices v1
    let r2 := addOnce r1.1 v2
    let r3 := addOnce r2.1 v3
    .ok ⟨r3.1, m.faces ++ [⟨r1.2, r2.2, r3.2, f.normal⟩]⟩

/-- The first loop, 138-193. -/
noncomputable def copyLoop (tm : Mesh) : List Face → Mesh → Out Mesh
  | [], m => .ok m
  | f :: l, m =>
    match copyFace tm m f with
    | .ok m' => copyLoop tm l m'
    | r => r

/-- The three cases of 236-286: a vertex in the middle of the longest edge of face `i`, a new face, and the
update of face `i`. -/
noncomputable def halve (m : Mesh) (i : Nat) (f : Face) (v1 v2 v3 : V3) : Mesh :=
  let d12 := norm3 (v1 - v2)
  let d23 := norm3 (v2 - v3)
  let d13 := norm3 (v1 - v3)
  let id4 := m.vertices.length
  if d12 ≥ d23 ∧ d12 ≥ d13 then
    ⟨m.vertices ++ [v1 + (1 / 2 : ℝ) • (v2 - v1)],
      (m.faces ++ [Face.mk id4 f.id2 f.id3 f.normal]).set i { f with id2 := id4 }⟩
  else if d23 ≥ d12 ∧ d23 ≥ d13 then
    ⟨m.vertices ++ [v2 + (1 / 2 : ℝ) • (v3 - v2)],
      (m.faces ++ [Face.mk f.id1 id4 f.id3 f.normal]).set i { f with id3 := id4 }⟩
  else
    ⟨m.vertices ++ [v3 + (1 / 2 : ℝ) • (v1 - v3)],
      (m.faces ++ [Face.mk f.id1 f.id2 id4 f.normal]).set i { f with id1 := id4 }⟩

/-- `checkAndSplitVertex`, MeshConverter.cpp 215-294. The first argument after `maxDist` is the depth. -/
noncomputable def checkAndSplitVertex (maxDist : ℝ) : Nat → Mesh → Nat → Out Mesh
  | 0, _, _ => .loop
  | n + 1, m, i =>
    match m.faces[i]? with
    | none => .ub
    | some f =>
      match corners m.vertices f with
      | none => .ub
      | some (v1, v2, v3) =>
        if norm3 (v1 - v2) > maxDist ∨ norm3 (v2 - v3) > maxDist ∨ norm3 (v1 - v3) > maxDist then
          let m' := halve m i f v1 v2 v3
          match checkAndSplitVertex maxDist n m' (m'.faces.length - 1) with
          | .ok m'' => checkAndSplitVertex maxDist n m'' i
          | r => r
        else .ok m

/-- The second loop, 196-199, from index `i` on: the number of faces is read in every iteration. At most `k`
iterations. -/
noncomputable def splitLoop (maxDist : ℝ) (n : Nat) : Nat → Nat → Mesh → Out Mesh
  | 0, i, m => if i < m.faces.length then .loop else .ok m
  | k + 1, i, m =>
    if i < m.faces.length then
      match checkAndSplitVertex maxDist n m i with
      | .ok m' => splitLoop maxDist n k (i + 1) m'
      | r => r
    else .ok m

/-- `RefineObjectSurface`, MeshConverter.cpp 117-199, on the mesh of the object, with recursion to depth `n` and
at most `n` iterations of the second loop. -/
noncomputable def refine (maxDist : ℝ) (n : Nat) (tm : Mesh) : Out Mesh :=
  match copyLoop tm tm.faces ⟨[], []⟩ with
  | .ok m => splitLoop maxDist n n 0 m
  | r => r

/-- The body of the loop of `getMaxVertexDistance`, MeshConverter.cpp 307-331. -/
noncomputable def maxStep (vs : List V3) (maxDist : ℝ) (f : Face) : Option ℝ :=
  (corners vs f).map fun v =>
    let d12 := norm3 (v.1 - v.2.1)
    let d23 := norm3 (v.2.1 - v.2.2)
    let d13 := norm3 (v.1 - v.2.2)
    let x := if d12 > maxDist then d12 else maxDist
    let x := if d23 > x then d23 else x
    if d13 > x then d13 else x

/-- The loop of `getMaxVertexDistance`, 305-332. -/
noncomputable def maxLoop (vs : List V3) : List Face → ℝ → Option ℝ
  | [], x => some x
  | f :: l, x => (maxStep vs x f).bind (maxLoop vs l)

/-- `getMaxVertexDistance`, MeshConverter.cpp 296-336 (`none`: a read outside of the vertices). -/
noncomputable def getMaxVertexDistance (tm : Mesh) : Option ℝ := maxLoop tm.vertices tm.faces 0

end Simox.Rfn
