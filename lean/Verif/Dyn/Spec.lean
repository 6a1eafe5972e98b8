import Mathlib.Data.List.Basic

/-!
# Vocabulary for the properties of the physics engine

A history is the list of calls made so far, the last call first.
-/

namespace Simox.Dyn

/-- The calls that switch collisions. -/
inductive Call (ο : Type) where
  /-- switch off the collisions of two objects -/
  | off (a b : Option ο)
  /-- switch off all collisions of an object -/
  | offAll (a : Option ο)
  /-- switch on the collisions of two objects -/
  | on (a b : Option ο)
  /-- take back that all collisions of an object are switched off -/
  | onAll (a : Option ο)
  /-- reset all that concerns an object -/
  | reset (a : Option ο)

variable {ο : Type}

/-- The two pairs are the same up to the order. -/
def SamePair (a b x y : Option ο) : Prop := (x = a ∧ y = b) ∨ (x = b ∧ y = a)

/-- The last call about these two objects switched their collisions off. -/
def PairOff (a b : Option ο) : List (Call ο) → Prop
  | [] => False
  | .off x y :: h => SamePair a b x y ∨ PairOff a b h
  | .on x y :: h => ¬ SamePair a b x y ∧ PairOff a b h
  | .reset x :: h => (x ≠ a ∧ x ≠ b) ∧ PairOff a b h
  | .offAll _ :: h => PairOff a b h
  | .onAll _ :: h => PairOff a b h

/-- The last call about all collisions of this object switched them off. -/
def ObjectOff (a : Option ο) : List (Call ο) → Prop
  | [] => False
  | .offAll x :: h => x = a ∨ ObjectOff a h
  | .onAll x :: h => x ≠ a ∧ ObjectOff a h
  | .reset x :: h => x ≠ a ∧ ObjectOff a h
  | .off _ _ :: h => ObjectOff a h
  | .on _ _ :: h => ObjectOff a h

/-- What a simulation may collide: both exist, none of them is switched off, and the pair is not switched off. -/
def Collides (h : List (Call ο)) (a b : Option ο) : Prop :=
  a = none ∨ b = none ∨ (¬ ObjectOff a h ∧ ¬ ObjectOff b h ∧ ¬ PairOff a b h)

/-- The calls of an engine. -/
inductive Op (ο ω ν : Type) where
  | addObject (o : ο)
  | removeObject (o : ο)
  | addRobot (r : ω)
  | removeRobot (r : ω)
  /-- attach an object to a node: the node and those above it, nearest first, or `none` for an unknown name -/
  | attach (r : ω) (chain : Option (List ν)) (o : ο)
  | detach (r : ω) (o : ο)
  | collisions (k : Call ο)

/-- Two of the wrappers are for the same robot. -/
def SharesRobot {ω ρ : Type} (robot : ω → ρ) (ws : List ω) : Prop := ∃ w ∈ ws, ∃ w' ∈ ws, w ≠ w' ∧ robot w = robot w'

end Simox.Dyn
