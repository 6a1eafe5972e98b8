import Mathlib.Analysis.SpecialFunctions.Trigonometric.Inverse
import Mathlib.Analysis.SpecialFunctions.Complex.Arg

/-!
# Approximations of spheres

Model of `VirtualRobot/SphereApproximator.cpp`.  Numbers are the real numbers.  Ids of vertices are natural numbers; `none` as the result of a step is the exception of `at`.
-/

namespace Simox.Sph

noncomputable section

open Classical

/-- `Eigen::Vector3f`. -/
@[ext] structure Vec where
  x : ℝ
  y : ℝ
  z : ℝ

/-- SphereApproximator.cpp 333-336 `addVecVec`. -/
instance : Add Vec := ⟨fun a b => ⟨a.x + b.x, a.y + b.y, a.z + b.z⟩⟩

instance : Sub Vec := ⟨fun a b => ⟨a.x - b.x, a.y - b.y, a.z - b.z⟩⟩

/-- SphereApproximator.cpp 338-341 `mulVecScalar`. -/
instance : SMul ℝ Vec := ⟨fun k a => ⟨k * a.x, k * a.y, k * a.z⟩⟩

/-- `Eigen`'s `dot`. -/
def Vec.dot (a b : Vec) : ℝ := a.x * b.x + a.y * b.y + a.z * b.z

/-- `Eigen`'s `cross`. -/
def Vec.cross (a b : Vec) : Vec := ⟨a.y * b.z - a.z * b.y, a.z * b.x - a.x * b.z, a.x * b.y - a.y * b.x⟩

/-- The length, SphereApproximator.cpp 371-372. -/
def Vec.norm (a : Vec) : ℝ := √(a.x * a.x + a.y * a.y + a.z * a.z)

/-- MathTools.h 400-458 `TriangleFace`: the ids of the corners. -/
structure Face where
  a : ℕ
  b : ℕ
  c : ℕ

/-- SphereApproximator.h 87-91 `GraphData`. -/
structure Graph where
  vertices : List Vec
  faces : List Face

/-- `atan2`. -/
def atan2 (y x : ℝ) : ℝ := Complex.arg ⟨x, y⟩

/-- SphereApproximator.cpp 347-364: a vertex, projected to the sphere. -/
def project (radius : ℝ) (v : Vec) : Vec :=
  let theta := atan2 v.y v.x
  let phi := atan2 √(v.x * v.x + v.y * v.y) v.z
  ⟨radius * Real.sin phi * Real.cos theta, radius * Real.sin phi * Real.sin theta, radius * Real.cos phi⟩

/-- SphereApproximator.cpp 343-366 `projectToSphere`. -/
def Graph.project (radius : ℝ) (g : Graph) : Graph := ⟨g.vertices.map (Sph.project radius), g.faces⟩

/-- SphereApproximator.cpp 368-394 `AngleVecVec`. -/
def angle (v w : Vec) : ℝ :=
  let l1 := v.norm
  let l2 := w.norm
  if |l1 * l2| < 1 / 10 ^ 12 then 0
  else
    let r := v.dot w / (l1 * l2)
    let r1 := if r > 1 then 1 else r
    let r2 := if r1 < -1 then -1 else r1
    Real.arccos r2

/-- SphereApproximator.cpp 399-411: the loop, with the id of the next vertex; before the first vertex there is no least distance, in the place of `FLT_MAX`, which is larger than every angle. -/
def nearest (p : Vec) : List Vec → ℕ → Option (ℝ × ℕ) → Option (ℝ × ℕ)
  | [], _, best => best
  | v :: vs, i, none => nearest p vs (i + 1) (some (angle p v, i))
  | v :: vs, i, some (d, j) => if angle p v < d then nearest p vs (i + 1) (some (angle p v, i)) else nearest p vs (i + 1) (some (d, j))

/-- SphereApproximator.cpp 396-419 `findVertex`; `none` is -1. -/
def findVertex (p : Vec) (eps : ℝ) (vs : List Vec) : Option ℕ :=
  match nearest p vs 0 none with
  | none => none
  | some (d, i) => if d > eps then none else some i

/-- SphereApproximator.cpp 279-289: a vertex is looked up, and added if there is none. -/
def lookup (eps : ℝ) (p : Vec) (vs : List Vec) : List Vec × ℕ :=
  match findVertex p eps vs with
  | none => (vs ++ [p], vs.length)
  | some i => (vs, i)

/-- The middle of two vertices, SphereApproximator.cpp 259-266. -/
def mid (a b : Vec) : Vec := (1 / 2 : ℝ) • (a + b)

/-- SphereApproximator.cpp 249-325: one face; `eps` is 0.01.  The result is the vertices and the four new faces. -/
def divideFace (eps : ℝ) (vs : List Vec) (f : Face) : Option (List Vec × List Face) :=
  match vs[f.a]?, vs[f.b]?, vs[f.c]? with
  | some a, some b, some c =>
    let s1 := lookup eps (mid a b) vs
    let s2 := lookup eps (mid b c) s1.1
    let s3 := lookup eps (mid c a) s2.1
    some (s3.1, [⟨f.a, s1.2, s3.2⟩, ⟨s1.2, f.b, s2.2⟩, ⟨s3.2, s2.2, f.c⟩, ⟨s1.2, s2.2, s3.2⟩])
  | _, _, _ => none

/-- SphereApproximator.cpp 247-326: the loop over the faces. -/
def divideFaces (eps : ℝ) : List Vec → List Face → Option (List Vec × List Face)
  | vs, [] => some (vs, [])
  | vs, f :: fs =>
    match divideFace eps vs f with
    | none => none
    | some (vs', new) =>
      match divideFaces eps vs' fs with
      | none => none
      | some (vs'', news) => some (vs'', new ++ news)

/-- SphereApproximator.cpp 241-330 `subDivide`. -/
def Graph.subDivide (eps : ℝ) (g : Graph) : Option Graph := (divideFaces eps g.vertices g.faces).map fun r => ⟨r.1, r.2⟩

/-- SphereApproximator.h 53-58 `EPolyhedronType`. -/
inductive Base
  | tetrahedron | octahedron | icosahedron

/-- SphereApproximator.cpp 137-143, 173-179, 232-238: ids are counted from one, and lowered. -/
def face (a b c : ℕ) : Face := ⟨a - 1, b - 1, c - 1⟩

/-- SphereApproximator.cpp 83-106 `initBasePolyhedron`, 114-239. -/
def Base.graph : Base → Graph
  | .tetrahedron =>
    ⟨[⟨√3, √3, √3⟩, ⟨-√3, -√3, √3⟩, ⟨-√3, √3, -√3⟩, ⟨√3, -√3, -√3⟩],
      [face 1 2 3, face 1 4 2, face 3 2 4, face 4 1 3]⟩
  | .octahedron =>
    ⟨[⟨1, 0, 0⟩, ⟨-1, 0, 0⟩, ⟨0, 1, 0⟩, ⟨0, -1, 0⟩, ⟨0, 0, 1⟩, ⟨0, 0, -1⟩],
      [face 1 5 3, face 3 5 2, face 2 5 4, face 4 5 1, face 1 3 6, face 3 2 6, face 2 4 6, face 4 1 6]⟩
  | .icosahedron =>
    let tau : ℝ := 0.8506508084
    let one : ℝ := 0.5257311121
    ⟨[⟨tau, one, 0⟩, ⟨-tau, one, 0⟩, ⟨-tau, -one, 0⟩, ⟨tau, -one, 0⟩, ⟨one, 0, tau⟩, ⟨one, 0, -tau⟩, ⟨-one, 0, -tau⟩, ⟨-one, 0, tau⟩, ⟨0, tau, one⟩, ⟨0, -tau, one⟩, ⟨0, -tau, -one⟩, ⟨0, tau, -one⟩],
      [face 5 8 9, face 5 10 8, face 6 12 7, face 6 7 11, face 1 4 5, face 1 6 4, face 3 2 8, face 3 7 2, face 9 12 1, face 9 2 12, face 10 4 11, face 10 11 3, face 9 1 5, face 12 6 1, face 5 4 10,
        face 6 11 4, face 8 2 9, face 7 12 2, face 8 10 3, face 7 3 11]⟩

/-- SphereApproximator.cpp 26-30: the loop over the levels. -/
def levels (eps radius : ℝ) : ℕ → Graph → Option Graph
  | 0, g => some g
  | n + 1, g => match g.subDivide eps with
    | none => none
    | some g' => levels eps radius n (g'.project radius)

/-- SphereApproximator.h 66-71 `SphereApproximation`; the map from vertices to lists of faces is a function. -/
structure Sphere where
  vertices : List Vec
  faces : List Face
  index : ℕ → List ℕ

/-- SphereApproximator.cpp 45-55: one corner of face `i`. -/
def addIndex (index : ℕ → List ℕ) (i v : ℕ) : ℕ → List ℕ := fun w => if w = v then index v ++ [i] else index w

/-- SphereApproximator.cpp 38-81 `buildVertexFaceMapping`: the faces from number `i` on. -/
def buildIndex : List Face → ℕ → (ℕ → List ℕ) → ℕ → List ℕ
  | [], _, index => index
  | f :: fs, i, index => buildIndex fs (i + 1) (addIndex (addIndex (addIndex index i f.a) i f.b) i f.c)

/-- SphereApproximator.cpp 20-36 `generateGraph`; `store` is the contents of the result before. -/
def generate (store : Sphere) (base : Base) (n : ℕ) (radius : ℝ) : Option Sphere :=
  match levels 0.01 radius n (base.graph.project radius) with
  | none => none
  | some g => some ⟨g.vertices, g.faces, buildIndex g.faces 0 store.index⟩

/-- A sphere that has not been generated yet. -/
def Sphere.empty : Sphere := ⟨[], [], fun _ => []⟩

/-- SphereApproximator.cpp 494-515 `check_same_clock_dir`. -/
def sameClock (p1 p2 p3 norm : Vec) : Prop :=
  let i := (p2.y - p1.y) * (p3.z - p1.z) - (p3.y - p1.y) * (p2.z - p1.z)
  let j := (p2.z - p1.z) * (p3.x - p1.x) - (p3.z - p1.z) * (p2.x - p1.x)
  let k := (p2.x - p1.x) * (p3.y - p1.y) - (p3.x - p1.x) * (p2.y - p1.y)
  ¬ i * norm.x + j * norm.y + k * norm.z < 0

/-- SphereApproximator.cpp 517-567 `check_intersect_tri`; `none` if it returns false. -/
def intersect (p1 p2 p3 line v : Vec) : Option Vec :=
  let norm := (p2 - p1).cross (p3 - p2)
  if norm.dot v < 0 then
    let t := -(norm.x * (line.x - p1.x) + norm.y * (line.y - p1.y) + norm.z * (line.z - p1.z)) / (norm.x * v.x + norm.y * v.y + norm.z * v.z)
    if t < 0 then none
    else
      let q := line + t • v
      if sameClock p1 p2 q norm ∧ sameClock p2 p3 q norm ∧ sameClock p3 p1 q norm then some q else none
  else none

end

end Simox.Sph
