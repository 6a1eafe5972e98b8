import Verif.Lnk.Model

/-!
# What linked coordinates and chains should be
-/

namespace Simox.Lnk.Spec

open Simox.Lnk

/-- A coordinate seen from outside: a pose in the world that is fixed to a node. -/
structure Fixed (N : Type) where
  frame : N
  world : Mat

/-- A node that belongs to the robot. -/
def Member {N : Type} (r : Robot N) (n : N) : Prop := r.registered (r.name n) = some n

open Classical in
/-- Setting a coordinate fixes the pose to the node, if the node belongs to the robot. -/
noncomputable def fixTo {N : Type} (r : Robot N) (s : Option (Fixed N)) (f : N) (p : Mat) : Option (Fixed N) :=
  if Member r f then some ⟨f, r.pose f * p⟩ else s

/-- The pose in the world; a coordinate that was not set is put at the node `d`. -/
noncomputable def worldOr {N : Type} (r : Robot N) (d : N) : Option (Fixed N) → Mat
  | some x => x.world
  | none => r.pose d

open Classical in
/-- Changing the frame keeps the pose in the world. -/
noncomputable def moveTo {N : Type} (r : Robot N) (s : Option (Fixed N)) (d : N) : Option (Fixed N) :=
  if Member r d then some ⟨d, worldOr r d s⟩ else s

/-- What an event should do to it. -/
noncomputable def apply {N : Type} (r : Robot N) (s : Option (Fixed N)) : Event N → Option (Fixed N)
  | .set f p => f.elim s fun f => fixTo r s f p
  | .setName n p => (r.registered n).elim s fun f => fixTo r s f p
  | .change d => d.elim s fun d => moveTo r s d
  | .changeName n => (r.registered n).elim s fun d => moveTo r s d
  | .move g => s.map fun x => ⟨x.frame, g x.frame * ((r.pose x.frame)⁻¹ * x.world)⟩

/-- The whole history: the robot and the coordinate as it should be. -/
noncomputable def track {N : Type} (r : Robot N) (s : Option (Fixed N)) : List (Event N) → Robot N × Option (Fixed N)
  | [] => (r, s)
  | e :: es => track (match e with
    | .move g => { r with pose := g }
    | _ => r) (apply r s e) es

/-- Poses of nodes can be inverted. -/
def Proper {N : Type} (g : N → Mat) : Prop := ∀ n, IsUnit (g n).det

/-- All motions of a history are of this kind. -/
def ProperMoves {N : Type} (es : List (Event N)) : Prop := ∀ g, Event.move g ∈ es → Proper g

/-- `c` is a descendant: a child, or a child of a descendant. -/
inductive Below {N : Type} (c : N) : Tree N → Prop
  | child {n ts t} : t ∈ ts → t.top = c → Below c (.node n ts)
  | deeper {n ts t} : t ∈ ts → Below c t → Below c (.node n ts)

/-- `u` is a part of the tree `t`, below its top node. -/
inductive Part {N : Type} (u : Tree N) : Tree N → Prop
  | child {n ts} : u ∈ ts → Part u (.node n ts)
  | deeper {n ts t} : t ∈ ts → Part u t → Part u (.node n ts)

end Simox.Lnk.Spec
