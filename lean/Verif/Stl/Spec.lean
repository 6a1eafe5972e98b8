import Verif.Stl.Model

/-!
# What STL files are
-/

namespace Simox.Stl

/-- Three corners and a normal. -/
structure Tri (V : Type) where
  a : V
  b : V
  c : V
  n : Option V
deriving DecidableEq

/-- The triangle is no line and no point. -/
def Tri.Proper {V : Type} (t : Tri V) : Prop := t.a ≠ t.b ∧ t.a ≠ t.c ∧ t.b ≠ t.c

instance {V : Type} [DecidableEq V] (t : Tri V) : Decidable t.Proper := inferInstanceAs (Decidable (_ ∧ _ ∧ _))

/-- `f` is the triangle `t` in the mesh `m`. -/
def IsFace {V : Type} (m : Mesh V) (f : Face) (t : Tri V) : Prop :=
  m.vertices[f.v1]? = some t.a ∧ m.vertices[f.v2]? = some t.b ∧ m.vertices[f.v3]? = some t.c ∧ f.normal.bind (fun i => m.normals[i]?) = t.n ∧ (f.normal.isSome ↔ t.n.isSome)

/-- The mesh shows exactly the triangles `ts`, in their order. -/
def Shows {V : Type} (m : Mesh V) (ts : List (Tri V)) : Prop := List.Forall₂ (IsFace m) m.faces ts

/-- The four bytes of a number below 2³², the lowest one first. -/
def le32 (n : ℕ) : List UInt8 := [UInt8.ofNat n, UInt8.ofNat (n / 256), UInt8.ofNat (n / 65536), UInt8.ofNat (n / 16777216)]

/-- The bytes. -/
def Quad.bytes (q : Quad) : List UInt8 := [q.c0, q.c1, q.c2, q.c3]

/-- A triangle of a binary file: a normal, three corners and two bytes that are not used. -/
structure Record where
  n : Quad × Quad × Quad
  a : Quad × Quad × Quad
  b : Quad × Quad × Quad
  c : Quad × Quad × Quad
  x : UInt8
  y : UInt8

/-- The bytes of three numbers. -/
def vecBytes (v : Quad × Quad × Quad) : List UInt8 := v.1.bytes ++ v.2.1.bytes ++ v.2.2.bytes

/-- The bytes of a triangle. -/
def Record.bytes (r : Record) : List UInt8 := vecBytes r.n ++ vecBytes r.a ++ vecBytes r.b ++ vecBytes r.c ++ [r.x, r.y]

/-- A binary file: 80 bytes, the number of triangles, the triangles. -/
def binaryFile (header : List UInt8) (rs : List Record) : List UInt8 := header ++ le32 rs.length ++ rs.flatMap Record.bytes

/-- The numbers of three times four bytes. -/
def vecOf {F : Type} (flt : Quad → F) (v : Quad × Quad × Quad) : F × F × F := (flt v.1, flt v.2.1, flt v.2.2)

/-- The triangle of a record, with scaled corners. -/
def Record.tri {F : Type} (flt : Quad → F) (sc : F × F × F → F × F × F) (r : Record) : Tri (F × F × F) :=
  ⟨sc (vecOf flt r.a), sc (vecOf flt r.b), sc (vecOf flt r.c), some (vecOf flt r.n)⟩

/-- A facet of a text file: the lines with the normal, the start of the loop, the three corners, and the lines after them. -/
structure Facet where
  normal : String
  outer : String
  a : String
  b : String
  c : String
  rest : List String

/-- The lines of a facet. -/
def Facet.lines (f : Facet) : List String := [f.normal, f.outer, f.a, f.b, f.c] ++ f.rest

/-- A line that is neither a normal nor the start of a loop. -/
def Plain (l : String) : Prop := isNormal l = false ∧ isOuter l = false

/-- The lines of the facet are what they should be. -/
def Facet.Ok (f : Facet) : Prop := isNormal f.normal = true ∧ isOuter f.normal = false ∧ isNormal f.outer = false ∧ isOuter f.outer = true ∧ ∀ l ∈ f.rest, Plain l

/-- The triangle of a facet, with scaled corners. -/
def Facet.tri {V : Type} (num : String → V) (sc : V → V) (f : Facet) : Tri V := ⟨sc (num f.a), sc (num f.b), sc (num f.c), some (num f.normal)⟩

end Simox.Stl
