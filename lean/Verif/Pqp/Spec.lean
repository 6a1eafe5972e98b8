/-
What the properties of the proximity query library are about: the points of triangles, rigid motions
and meshes as lists of triangles.  Nothing here depends on how queries are answered.
-/
import Verif.Pqp.Protocol

namespace Simox.Pqp

/-- `p` is a point of the triangle with corners `a`, `b`, `c` (edges and corners included). -/
def inTri (a b c p : V3) : Prop :=
  ∃ u v w : ℝ, 0 ≤ u ∧ 0 ≤ v ∧ 0 ≤ w ∧ u + v + w = 1 ∧
    p = ⟨u * a.x + v * b.x + w * c.x, u * a.y + v * b.y + w * c.y, u * a.z + v * b.z + w * c.z⟩

/-- `p` is a point of the triangle `t`. -/
def Tri.has (t : Tri) (p : V3) : Prop := inTri t.p1 t.p2 t.p3 p

/-- The columns of `R` are orthogonal unit vectors: `R` is a rotation or a reflection. -/
def Orthonormal (R : M3) : Prop :=
  dot R.c0 R.c0 = 1 ∧ dot R.c1 R.c1 = 1 ∧ dot R.c2 R.c2 = 1 ∧
  dot R.c0 R.c1 = 0 ∧ dot R.c0 R.c2 = 0 ∧ dot R.c1 R.c2 = 0

/-- A pose: rotation and translation. -/
structure Pose where
  R : M3
  T : V3

/-- The place of a point of an object that is at a pose. -/
def Pose.at (g : Pose) (p : V3) : V3 :=
  ⟨g.R.c0.x * p.x + g.R.c1.x * p.y + g.R.c2.x * p.z + g.T.x,
   g.R.c0.y * p.x + g.R.c1.y * p.y + g.R.c2.y * p.z + g.T.y,
   g.R.c0.z * p.x + g.R.c1.z * p.y + g.R.c2.z * p.z + g.T.z⟩

/-- Two triangles of objects at the given poses have a point in common. -/
def Touch (g1 : Pose) (t1 : Tri) (g2 : Pose) (t2 : Tri) : Prop :=
  ∃ p q, t1.has p ∧ t2.has q ∧ g1.at p = g2.at q

/-- Euclidean distance of two points. -/
noncomputable def euclid (p q : V3) : ℝ :=
  Real.sqrt ((p.x - q.x) ^ 2 + (p.y - q.y) ^ 2 + (p.z - q.z) ^ 2)

/-- The corners of the triangle are not on one line. -/
def Tri.proper (t : Tri) : Prop := cross (vsub t.p2 t.p1) (vsub t.p3 t.p1) ≠ zero3

/-- `p` is a point of the surface of the mesh. -/
def Mesh.has (m : Mesh) (p : V3) : Prop :=
  ∃ i j k a b c, (i, j, k) ∈ m.faces ∧ m.vertices[i]? = some a ∧ m.vertices[j]? = some b ∧
    m.vertices[k]? = some c ∧ inTri a b c p

/-- All faces refer to existing vertices. -/
def Mesh.valid (m : Mesh) : Prop :=
  ∀ i j k, (i, j, k) ∈ m.faces → i < m.vertices.length ∧ j < m.vertices.length ∧ k < m.vertices.length

/-- No face has its corners on one line. -/
def Mesh.proper (m : Mesh) : Prop :=
  ∀ i j k a b c, (i, j, k) ∈ m.faces → m.vertices[i]? = some a → m.vertices[j]? = some b →
    m.vertices[k]? = some c → cross (vsub b a) (vsub c a) ≠ zero3

/-- What a client knows about a model from the calls made: is it finished, which triangles are in it,
has it been begun again after it was finished? -/
structure Known where
  finished : Bool
  tris : List Tri
  begunAgain : Bool

/-- The effect of a call as far as a client is concerned; `none`: the call destroys memory a second
time. -/
def Known.after : Call → Known → Option Known
  | .beginM _, k => if k.begunAgain then none else some ⟨false, [], k.finished⟩
  | .add t, k => if k.finished then some k else some { k with tris := k.tris ++ [t] }
  | .endM, k => if k.finished || k.tris.isEmpty then some k else some ⟨true, k.tris, false⟩

def Known.afterAll : List Call → Known → Option Known
  | [], k => some k
  | c :: cs, k => match Known.after c k with
    | none => none
    | some k' => Known.afterAll cs k'

/-- A new model. -/
def Known.new : Known := ⟨false, [], false⟩

end Simox.Pqp
