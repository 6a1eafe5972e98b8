import Verif.Msh.BoxProps
import Verif.Msh.Model

/-!
# Triangle meshes: what the properties talk about
-/

namespace Simox.Msh

open Matrix Jac Rot

variable {C : Type}

/-- Where the corners of the triangles are, triangle by triangle (`none`: the vertex does not exist). -/
def Mesh.triangles (m : Mesh C) : List (Fin 3 → Option V3) := m.faces.map fun f c => m.vertices[f.id c]?

/-- A triangle with the given corners. -/
def tri (t : V3 × V3 × V3) : Fin 3 → Option V3 := ![some t.1, some t.2.1, some t.2.2]

/-- The colours of the corners of the triangles (`none`: the colour does not exist). -/
def Mesh.paint (m : Mesh C) : List (Fin 3 → Option C) := m.faces.map fun f c => m.colors[f.idColor c]?

/-- All corners of the faces are vertices of the mesh. -/
def Mesh.Valid (m : Mesh C) : Prop := ∀ f ∈ m.faces, ∀ c, f.id c < m.vertices.length

/-- All corners of the faces have a colour. -/
def Mesh.Painted (m : Mesh C) : Prop := ∀ f ∈ m.faces, ∀ c, f.idColor c < m.colors.length

/-- The bounding box of the mesh is the smallest one around its vertices. -/
def Mesh.Boxed (m : Mesh C) : Prop := m.boundingBox.Around (m.vertices.map real)

/-- One call of a member function that ends normally. Faces are added with existing vertices only, other meshes only if all
their faces have existing vertices, and there are at most 2³² vertices. -/
inductive Step (m : Mesh C) : Mesh C → Prop
  | vertex (v : Vec) : Step m (m.addVertex v).1
  | normal (n : Vec) : Step m (m.addNormal n).1
  | color (c : C) : Step m (m.addColor c).1
  | triangle (a b c : V3) (n : Vec) (c1 c2 c3 : C) (room : m.vertices.length + 3 ≤ 2 ^ 32) :
      Step m (m.addTriangleWithFace (some a) (some b) (some c) n c1 c2 c3)
  | face (f : Face) (h : ∀ c, f.id c < m.vertices.length) : Step m (m.addFace f)
  | mesh (o m' : Mesh C) (ho : o.Valid) (h : m.addMesh o = .ok m') (room : m.vertices.length + 3 * o.faces.length ≤ 2 ^ 32) : Step m m'
  | clear : Step m m.clear
  | setColor (c : C) : Step m (m.setColor c)
  | missingNormals (r : Mesh C × ℕ) (h : m.addMissingNormals = .ok r) : Step m r.1
  | missingColors (search : ℕ → List ℕ) (c : C) (r : Mesh C × ℕ) (h : m.addMissingColors search c = .ok r) : Step m r.1
  | merge (search : ℕ → List ℕ) (b : Bool) (m' : Mesh C) (h : m.mergeVertices search b = .ok m') : Step m m'
  | unused (r : Mesh C × ℕ) (h : m.removeUnusedVertices = .ok r) : Step m r.1
  | flip : Step m m.flipVertexOrientations
  | fatten (offset : ℝ) (b : Bool) (m' : Mesh C) (h : m.fattenShrink offset b = .ok m') : Step m m'
  | smooth (search : ℕ → List ℕ) (m' : Mesh C) (h : m.smoothNormalSurface search = .ok m') : Step m m'
  | scale (f : V3) : Step m (m.scale f)
  | correct (inverted : Bool) (r : Mesh C × ℕ) (h : m.checkAndCorrectNormals inverted = .ok r) : Step m r.1

/-- What any history of calls makes of an empty mesh. -/
inductive Reach : Mesh C → Prop
  | empty : Reach Mesh.empty
  | step {m m' : Mesh C} (h : Reach m) (s : Step m m') : Reach m'

end Simox.Msh
