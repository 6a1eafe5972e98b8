import Mathlib.Data.List.Basic
import Mathlib.Data.UInt

/-!
# Reading STL files

Models `VirtualRobot/Import/MeshImport/STLReader.cpp`. Files are lists of bytes, or lists of lines for the text format. The map of vertices compares with a tolerance of
`FLT_MIN`; here vertices are the same only if they are equal, and there is no NaN. Numbers are of an arbitrary type `F`; what four bytes or a line of text mean as numbers is
an arbitrary function.
-/

namespace Simox.Stl

/-- MathTools.h 400-458 `TriangleFace`: the indices of the corners and of the normal, which is the same at all corners. -/
structure Face where
  v1 : ℕ
  v2 : ℕ
  v3 : ℕ
  normal : Option ℕ
deriving DecidableEq

/-- Visualization/TriMeshModel.h 142-145: vertices, normals and faces. -/
@[ext]
structure Mesh (V : Type) where
  vertices : List V
  normals : List V
  faces : List Face

/-- A mesh with the map from vertices to indices: STLReader.cpp 219, 409 `vMap`. -/
structure Weld (V : Type) where
  mesh : Mesh V
  seen : List (V × ℕ)

section
variable {V : Type} [DecidableEq V]

/-- STLReader.cpp 288-302, 454-468: the index of a vertex, which is added if it was not referenced before. -/
def Weld.handle (w : Weld V) (v : V) : Weld V × ℕ :=
  match w.seen.lookup v with
  | some h => (w, h)
  | none => (⟨{ w.mesh with vertices := w.mesh.vertices ++ [v] }, w.seen ++ [(v, w.mesh.vertices.length)]⟩, w.mesh.vertices.length)

/-- STLReader.cpp 309-324, 476-489: a face with a normal of its own, if there is one. -/
def Mesh.addFace (m : Mesh V) (a b c : ℕ) (n : Option V) : Mesh V :=
  match n with
  | some n => { m with normals := m.normals ++ [n], faces := m.faces ++ [⟨a, b, c, some m.normals.length⟩] }
  | none => { m with faces := m.faces ++ [⟨a, b, c, none⟩] }

/-- STLReader.cpp 304-326, 471-490: the face is added only if its corners differ. -/
def Weld.close (w : Weld V) (a b c : ℕ) (n : Option V) : Weld V :=
  if a ≠ b ∧ a ≠ c ∧ b ≠ c then { w with mesh := w.mesh.addFace a b c n } else w

/-- STLReader.cpp 267-326, 445-490: one triangle. -/
def Weld.triangle (w : Weld V) (a b c : V) (n : Option V) : Weld V :=
  let h1 := w.handle a
  let h2 := h1.1.handle b
  let h3 := h2.1.handle c
  h3.1.close h1.2 h2.2 h3.2 n

end

/-! ## The binary format -/

/-- Four bytes. -/
structure Quad where
  c0 : UInt8
  c1 : UInt8
  c2 : UInt8
  c3 : UInt8

/-- STLReader.cpp 367-371, 385-389: the bytes in the opposite order. -/
def Quad.swap (q : Quad) : Quad := ⟨q.c3, q.c2, q.c1, q.c0⟩

/-- `istream::read` of four bytes. If there are less, the bytes are not defined: `junk`, and the stream is at its end. -/
def read4 (junk : Quad) (s : List UInt8) : Quad × List UInt8 :=
  match s with
  | a :: b :: c :: d :: s => (⟨a, b, c, d⟩, s)
  | _ => (junk, [])

/-- The number of four bytes, the lowest one first. -/
def Quad.little (q : Quad) : ℕ := q.c0.toNat + 256 * q.c1.toNat + 65536 * q.c2.toNat + 16777216 * q.c3.toNat

/-- The number of four bytes in the memory of a host; `big` if it has the highest byte first. -/
def Quad.onHost (big : Bool) (q : Quad) : ℕ := if big then q.swap.little else q.little

/-- STLReader.cpp 376-392, 497-515 `read_int` as an unsigned number; STLReader.cpp 420-427: the bytes are swapped if the host has the highest byte first. -/
def readInt (big : Bool) (junk : Quad) (s : List UInt8) : ℕ × List UInt8 :=
  let r := read4 junk s
  ((if big then r.1.swap else r.1).onHost big, r.2)

/-- The floating point number of four bytes in the memory of a host; `flt` is its value with the lowest byte first. -/
def floatOnHost {F : Type} (flt : Quad → F) (big : Bool) (q : Quad) : F := flt (if big then q.swap else q)

/-- STLReader.cpp 358-374 `read_float`. -/
def readFloat {F : Type} (flt : Quad → F) (big : Bool) (junk : Quad) (s : List UInt8) : F × List UInt8 :=
  let r := read4 junk s
  (floatOnHost flt big (if big then r.1.swap else r.1), r.2)

/-- STLReader.cpp 440-442, 447-449: three numbers. -/
def readVec {F : Type} (flt : Quad → F) (big : Bool) (junk : Quad) (s : List UInt8) : (F × F × F) × List UInt8 :=
  let x := readFloat flt big junk s
  let y := readFloat flt big junk x.2
  let z := readFloat flt big junk y.2
  ((x.1, y.1, z.1), z.2)

section
variable {F : Type} [DecidableEq F]

/-- STLReader.cpp 434-494: the loop over the triangles; `sc` is the scaling of a vertex. Normals are not scaled. -/
def readTriangles (flt : Quad → F) (sc : F × F × F → F × F × F) (big : Bool) (junk : Quad) : ℕ → List UInt8 → Weld (F × F × F) → Weld (F × F × F)
  | 0, _, w => w
  | k + 1, s, w =>
    let n := readVec flt big junk s
    let a := readVec flt big junk n.2
    let b := readVec flt big junk a.2
    let c := readVec flt big junk b.2
    readTriangles flt sc big junk k (c.2.drop 2) (w.triangle (sc a.1) (sc b.1) (sc c.1) (some n.1))

/-- STLReader.cpp 394-497 `read_stlb`, which returns true. -/
def readBinary (flt : Quad → F) (sc : F × F × F → F × F × F) (big : Bool) (junk : Quad) (s : List UInt8) (t : Mesh (F × F × F)) : Mesh (F × F × F) :=
  let nT := readInt big junk (s.drop 80)
  (readTriangles flt sc big junk nT.1 nT.2 ⟨t, []⟩).mesh

end

/-- The kinds of files: STLReader.h 24. -/
inductive Kind where
  | text
  | binary
deriving DecidableEq

/-- A signed 32 bit number as `size_t` of 64 bits. -/
def signExtend (n : ℕ) : ℕ := if n < 2 ^ 31 then n else n + 2 ^ 64 - 2 ^ 32

/-- STLReader.cpp 540-597 `check_stl_type` for a file that can be opened; `none` is the exception for a file that is too short. -/
def checkType (big : Bool) (s : List UInt8) : Option Kind :=
  if s.length < 84 then none
  else
    let nT := signExtend (readInt big ⟨0, 0, 0, 0⟩ (s.drop 80)).1
    some (if (84 + nT * 50) % 2 ^ 64 = s.length then .binary else .text)

/-! ## The text format -/

/-- `std::string::find` has a result. -/
def has (pattern : String) (line : String) : Bool := decide (pattern.toList <:+: line.toList)

/-- STLReader.cpp 248. -/
def isNormal (line : String) : Bool := has "facet normal" line

/-- STLReader.cpp 267. -/
def isOuter (line : String) : Bool := has "outer" line || has "OUTER" line

/-- The variables of the loop: STLReader.cpp 212-226; the last vertex and normal, and whether a normal was seen. -/
structure Text (V : Type) where
  weld : Weld V
  v : V
  n : V
  facetNormal : Bool

section
variable {V : Type} [DecidableEq V]

/-- STLReader.cpp 248-264: a line with a normal; `num` is the vector of a line, which depends on the vector before if numbers are missing. -/
def Text.normal (num : String → V → V) (t : Text V) (line : String) : Text V :=
  if isNormal line then { t with n := num line t.n, facetNormal := true } else t

/-- STLReader.cpp 269-327: a triangle from three lines. -/
def Text.loop (num : String → V → V) (sc : V → V) (t : Text V) (l1 l2 l3 : String) : Text V :=
  let a := sc (num l1 t.v)
  let b := sc (num l2 a)
  let c := sc (num l3 b)
  let h1 := t.weld.handle a
  let h2 := h1.1.handle b
  let h3 := h2.1.handle c
  { t with
    weld := h3.1.close h1.2 h2.2 h3.2 (if t.facetNormal then some t.n else none)
    v := c
    facetNormal := if h1.2 ≠ h2.2 ∧ h1.2 ≠ h3.2 ∧ h2.2 ≠ h3.2 then false else t.facetNormal }

/-- The first line, or an empty one behind the end of the file: `std::getline`. -/
def front (ls : List String) : String := ls.headD ""

/-- STLReader.cpp 228-329: the loop over the lines. -/
def readLines (num : String → V → V) (sc : V → V) (ls : List String) (t : Text V) : Text V :=
  match ls with
  | [] => t
  | l :: ls =>
    if isOuter l then readLines num sc (ls.drop 3) ((t.normal num l).loop num sc (front ls) (front (ls.drop 1)) (front (ls.drop 2)))
    else readLines num sc ls (t.normal num l)
  termination_by ls.length
  decreasing_by all_goals simp_all <;> omega

/-- STLReader.cpp 203-332 `read_stla`, which returns true if the stream is not broken; `z` is the vector before anything is read. -/
def readText (num : String → V → V) (sc : V → V) (z : V) (ls : List String) (t : Mesh V) : Mesh V := (readLines num sc ls ⟨⟨t, []⟩, z, z, false⟩).weld.mesh

end

end Simox.Stl
