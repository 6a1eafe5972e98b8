/-
The building protocol of a proximity query model: `BeginModel`, `AddTri`, `EndModel`, queries and
destruction (`/repo/VirtualRobot/CollisionDetection/PQP/PQP++/PQP.cpp` 61-257, 731-803), and the two
entry points of the collision checker that use it
(`/repo/VirtualRobot/CollisionDetection/PQP/CollisionModelPQP.cpp` 46-80, `CollisionCheckerPQP.cpp`
56-140).

Memory: of each of the two arrays only the state of the pointer and the number of allocated elements
are modelled.  Allocation never fails.
-/
import Verif.Pqp.Model

namespace Simox.Pqp

/-- The build states (`PQP.cpp` 53-58). -/
inductive BState where
  | empty | begun | processed
  deriving DecidableEq

/-- What a pointer to an array refers to. -/
inductive Ptr where
  | null | live | dangling
  deriving DecidableEq

/-- Return values (`PQP_Compile.h`/`PQP.h`: `PQP_OK`, `PQP_ERR_...`). -/
inductive Ret where
  | ok | outOfSequence | emptyModel | unprocessed
  deriving DecidableEq

/-- A `PQP_Model` (`PQP.h`): the triangles written so far are `added`; `built` is the tree made by
`EndModel`. -/
structure PModel where
  state : BState
  bPtr : Ptr
  triPtr : Ptr
  added : List Tri
  alloced : Nat
  built : Option Model

/-- The constructor (61-79). -/
def newPModel : PModel := ⟨.empty, .null, .null, [], 0, none⟩

/-- Deleting an array: `none` is undefined behaviour (deleting memory a second time). -/
def Ptr.delete : Ptr → Option Unit
  | .null => some ()
  | .live => some ()
  | .dangling => none

/-- The number of triangles to allocate (112-115). -/
def beginSize (n : Int) : Nat := if n ≤ 0 then 8 else n.toNat

/-- `BeginModel` (95-137).  On a model that is not empty, both arrays are deleted; `tris` is
overwritten by a new array but `b` keeps its value and dangles if it pointed to an array. -/
def beginModel (n : Int) (m : PModel) : Option (PModel × Ret) :=
  if m.state ≠ .empty then
    match m.bPtr.delete, m.triPtr.delete with
    | some _, some _ =>
      some (⟨.begun, if m.bPtr = .live then .dangling else m.bPtr, .live, [], beginSize n, none⟩, .outOfSequence)
    | _, _ => none
  else some ({ m with state := .begun, triPtr := .live, alloced := beginSize n }, .ok)

/-- `AddTri` (139-197): an empty model is begun first (with `n = 8`, the default of the header); a
processed one is left alone; a full array is doubled.  `none`: a write behind the end of the array. -/
def addTri (t : Tri) (m : PModel) : Option (PModel × Ret) :=
  let m' := if m.state = .empty then (beginModel 8 m).map (·.1) else some m
  match m' with
  | none => none
  | some m' =>
    if m.state ≠ .empty ∧ m.state = .processed then some (m, .outOfSequence)
    else
      let cap := if m'.added.length ≥ m'.alloced then m'.alloced * 2 else m'.alloced
      if m'.added.length < cap then
        some ({ m' with added := m'.added ++ [t], alloced := cap }, .ok)
      else none

/-- `EndModel` (199-257): the array of bounding volumes is allocated without looking at the old
pointer. -/
noncomputable def endModel (eig : Eigen) (m : PModel) : Option (PModel × Ret) :=
  if m.state = .processed then some (m, .outOfSequence)
  else if m.added.length = 0 then some (m, .emptyModel)
  else
    match buildModel eig m.added with
    | none => none
    | some tr =>
      some ({ m with state := .processed, bPtr := .live, alloced := m.added.length, built := some tr }, .ok)

/-- The destructor (81-92). -/
def destroy (m : PModel) : Option Unit :=
  match m.bPtr.delete with
  | none => none
  | some _ => m.triPtr.delete

/-- `PQP_Collide` with the check of the build states (738-750).  The result of a refused query has no
pairs: a new `PQP_CollideResult` has `num_pairs = 0` (`PQP.cpp` 300-305). -/
noncomputable def query (firstOnly : Bool) (R1 : M3) (T1 : V3) (m1 : PModel) (R2 : M3) (T2 : V3)
    (m2 : PModel) : Option (List (Int × Int) × Ret) :=
  if m1.state ≠ .processed then some ([], .unprocessed)
  else if m2.state ≠ .processed then some ([], .unprocessed)
  else
    match m1.built, m2.built with
    | some b1, some b2 =>
      match collide firstOnly R1 T1 b1 R2 T2 b2 with
      | some ps => some (ps, .ok)
      | none => none
    | _, _ => none

/-- Calls of a client. -/
inductive Call where
  | beginM (n : Int)
  | add (t : Tri)
  | endM

noncomputable def call (eig : Eigen) : Call → PModel → Option (PModel × Ret)
  | .beginM n, m => beginModel n m
  | .add t, m => addTri t m
  | .endM, m => endModel eig m

/-- A sequence of calls; `none` is undefined behaviour. -/
noncomputable def runCalls (eig : Eigen) : List Call → PModel → Option PModel
  | [], m => some m
  | c :: cs, m =>
    match call eig c m with
    | none => none
    | some (m', _) => runCalls eig cs m'

/-- A mesh: corner positions and faces (`TriMeshModel`). -/
structure Mesh where
  vertices : List V3
  faces : List (Nat × Nat × Nat)

/-- The triangle of a face (`CollisionModelPQP.cpp` 60-76).  `none`: a face refers to a missing vertex,
which is undefined behaviour. -/
def faceTri (mesh : Mesh) (id : Int) (f : Nat × Nat × Nat) : Option Tri :=
  match mesh.vertices[f.1]?, mesh.vertices[f.2.1]?, mesh.vertices[f.2.2]? with
  | some a, some b, some c => some ⟨a, b, c, id⟩
  | _, _, _ => none

/-- One turn of the loop over the faces (60-77). -/
def addFace (mesh : Mesh) (id : Int) (acc : Option PModel) (f : Nat × Nat × Nat) : Option PModel :=
  match acc with
  | none => none
  | some m =>
    match faceTri mesh id f with
    | none => none
    | some t => (addTri t m).map (·.1)

/-- `createPQPModel` (46-80). -/
noncomputable def createPQPModel (eig : Eigen) (mesh : Mesh) (id : Int) : Option PModel :=
  match beginModel mesh.faces.length newPModel with
  | none => none
  | some (m, _) =>
    match mesh.faces.foldl (addFace mesh id) (some m) with
    | none => none
    | some m' => (endModel eig m').map (·.1)

/-- `CollisionCheckerPQP::checkCollision(model1, model2)` (`CollisionCheckerPQP.cpp` 56-103). -/
noncomputable def checkCollision (g1R : M3) (g1T : V3) (m1 : PModel) (g2R : M3) (g2T : V3) (m2 : PModel) :
    Option Bool :=
  (query true g1R g1T m1 g2R g2T m2).map (fun r => decide (r.1.length ≠ 0))

end Simox.Pqp
