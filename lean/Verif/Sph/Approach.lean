import Verif.Sph.Model

/-!
# Discretization of approach directions

Model of `MotionPlanning/ApproachDiscretization.cpp`.  `ν` is the type of the nodes of a tree; the numbers from `rand` are a function of how often it has been called.
-/

namespace Simox.Sph

noncomputable section

open Classical

/-- ApproachDiscretization.h 99-103 `CSpaceNodeMapping`. -/
structure Mapping (ν : Type) where
  count : ℕ
  nodes : List ν

/-- ApproachDiscretization.h 105-110: the members; `faces` is the number of faces of the sphere, and the map from ids to mappings is a function. -/
structure Approach (ν : Type) where
  faces : ℕ
  map : ℕ → Option (Mapping ν)
  active : List ℕ

section
variable {ν : Type}

/-- One entry of the map is changed. -/
def Approach.put (s : Approach ν) (f : ℕ) (m : Mapping ν) : Approach ν := { s with map := fun g => if g = f then some m else s.map g }

/-- ApproachDiscretization.cpp 111-136 `removeCSpaceNode`. -/
def Approach.remove (s : Approach ν) (f : ℤ) (n : ν) : Approach ν :=
  if f < 0 ∨ f > s.faces then s
  else match s.map f.toNat with
    | none => s
    | some m => if n ∈ m.nodes then s.put f.toNat ⟨m.count, m.nodes.erase n⟩ else s

/-- ApproachDiscretization.cpp 150-177 `addCSpaceNode`. -/
def Approach.add (s : Approach ν) (f : ℤ) (n : ν) : Approach ν :=
  if f < 0 ∨ f > s.faces then s
  else match s.map f.toNat with
    | some m => if n ∈ m.nodes then s else s.put f.toNat ⟨m.count, m.nodes ++ [n]⟩
    | none => { s.put f.toNat ⟨0, [n]⟩ with active := s.active ++ [f.toNat] }

/-- ApproachDiscretization.cpp 191-195 `clearCSpaceNodeMapping`. -/
def Approach.clear (s : Approach ν) : Approach ν := { s with map := fun _ => none, active := [] }

/-- ApproachDiscretization.cpp 216, 218: the mapping of a face; `operator[]` gives an empty one if there is none. -/
def Approach.get (s : Approach ν) (f : ℕ) : Mapping ν := (s.map f).getD ⟨0, []⟩

/-- ApproachDiscretization.cpp 216: the comparison with `nBestRanking`. -/
def better : Option (ℕ × ℕ) → ℕ → Prop
  | none, _ => True
  | some (r, _), c => c < r

/-- ApproachDiscretization.cpp 212-228: the loop; `best` is `nBestRanking` and `nBestFace`, `none` for `INT_MAX` and -1.  The result is the best face and the number of calls of `rand`. -/
def Approach.search (s : Approach ν) (rand : ℕ → ℕ) : ℕ → ℕ → Option (ℕ × ℕ) → Option (ℕ × ℕ) × ℕ
  | 0, k, best => (best, k)
  | loops + 1, k, best =>
    let f := s.active.getD (rand k % s.active.length) 0
    let m := s.get f
    if better best m.count ∧ m.nodes.length > 0 then
      if m.count = 0 then (some (0, f), k + 1) else s.search rand loops (k + 1) (some (m.count, f))
    else s.search rand loops (k + 1) best

/-- ApproachDiscretization.cpp 197-253 `getGoodRatedNode`. -/
def Approach.pick (s : Approach ν) (rand : ℕ → ℕ) (loops : ℤ) : Option ν × Approach ν :=
  if s.active.length = 0 then (none, s)
  else match s.search rand loops.toNat 0 none with
    | (none, _) => (none, s)
    | (some (_, f), k) =>
      let m := s.get f
      let s' := s.put f ⟨m.count + 1, m.nodes⟩
      match m.nodes[rand k % m.nodes.length]? with
      | none => (none, s')
      | some n => (some n, s'.remove f n)

/-- An operation. -/
inductive Op (ν : Type)
  | add (f : ℤ) (n : ν)
  | remove (f : ℤ) (n : ν)
  | clear
  | pick (rand : ℕ → ℕ) (loops : ℤ)

/-- The state after an operation. -/
def Approach.step (s : Approach ν) : Op ν → Approach ν
  | .add f n => s.add f n
  | .remove f n => s.remove f n
  | .clear => s.clear
  | .pick rand loops => (s.pick rand loops).2

/-- ApproachDiscretization.cpp 13-24: the state of a new object for a sphere with a number of faces. -/
def Approach.new (faces : ℕ) : Approach ν := ⟨faces, fun _ => none, []⟩

end

/-- ApproachDiscretization.cpp 93-108: the faces of a vertex are tested one after the other; `none` is -1.  Ids that do not exist, which C159 excludes, are skipped. -/
def firstFace (s : Sphere) (dir : Vec) : List ℕ → Option ℕ
  | [] => none
  | j :: js =>
    match s.faces[j]? with
    | none => firstFace s dir js
    | some f =>
      match s.vertices[f.a]?, s.vertices[f.b]?, s.vertices[f.c]? with
      | some a, some b, some c => if (intersect a b c ⟨0, 0, 0⟩ dir).isSome then some j else firstFace s dir js
      | _, _, _ => firstFace s dir js

/-- ApproachDiscretization.cpp 80-109 `getNearestFaceIdVec`; `none` is -1. -/
def nearestFace (s : Sphere) (centre pos : Vec) : Option ℕ :=
  let dir := pos - centre
  if dir.norm < 1 / 10 ^ 8 then some 0
  else match findVertex dir 10000 s.vertices with
    | none => none
    | some v => firstFace s dir (s.index v)

end

end Simox.Sph
