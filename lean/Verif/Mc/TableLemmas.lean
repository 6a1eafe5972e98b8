import Verif.Mc.Model
import Mathlib.Algebra.BigOperators.Group.List.Basic
import Mathlib.Tactic.Linarith
import Mathlib.Tactic.Ring
import Mathlib.Tactic.IntervalCases

/-!
# Marching cubes: facts about the tables
-/

namespace Simox.Mc

/-- The triangles of a row as numbers of edges. -/
def tris : List Int → List (Nat × Nat × Nat)
  | a :: b :: c :: rest => if a = -1 then [] else (a.toNat, b.toNat, c.toNat) :: tris rest
  | _ => []

/-- The row ends with −1 and its entries before satisfy `cr`. -/
def okRow (cr : Nat → Bool) : List Int → Bool
  | a :: b :: c :: rest => if a = -1 then true else cr a.toNat && cr b.toNat && cr c.toNat && okRow cr rest
  | a :: _ => a == -1
  | [] => false

/-- Directed sides of a triangle. -/
def triSides (t : Nat × Nat × Nat) : List (Nat × Nat) := [(t.1, t.2.1), (t.2.1, t.2.2), (t.2.2, t.1)]

/-- Do the pairs cancel with their reverses? -/
def cancels : Nat → List (Nat × Nat) → Bool
  | _, [] => true
  | 0, _ => false
  | n + 1, (p, q) :: l => l.contains (q, p) && cancels n (l.erase (q, p))

/-- The segments on a face with the given corners (in a circle); side i joins corner i and corner i+1. -/
def segs : Bool → Bool → Bool → Bool → List (Nat × Nat)
  | false, false, false, false => []
  | false, false, false, true => [(2, 3)]
  | false, false, true, false => [(1, 2)]
  | false, false, true, true => [(1, 3)]
  | false, true, false, false => [(0, 1)]
  | false, true, false, true => [(0, 1), (2, 3)]
  | false, true, true, false => [(0, 2)]
  | false, true, true, true => [(0, 3)]
  | true, false, false, false => [(3, 0)]
  | true, false, false, true => [(2, 0)]
  | true, false, true, false => [(1, 2), (3, 0)]
  | true, false, true, true => [(1, 0)]
  | true, true, false, false => [(3, 1)]
  | true, true, false, true => [(2, 1)]
  | true, true, true, false => [(3, 2)]
  | true, true, true, true => []

/-- The edges of the cell that are the sides of its faces. -/
def sideXm : Nat → Nat | 0 => 3 | 1 => 11 | 2 => 7 | _ => 8
def sideXp : Nat → Nat | 0 => 1 | 1 => 10 | 2 => 5 | _ => 9
def sideYm : Nat → Nat | 0 => 0 | 1 => 9 | 2 => 4 | _ => 8
def sideYp : Nat → Nat | 0 => 2 | 1 => 10 | 2 => 6 | _ => 11
def sideZm : Nat → Nat | 0 => 0 | 1 => 1 | 2 => 2 | _ => 3
def sideZp : Nat → Nat | 0 => 4 | 1 => 5 | 2 => 6 | _ => 7

/-- Corner i of the cell. -/
def corner (b0 b1 b2 b3 b4 b5 b6 b7 : Bool) : Nat → Bool
  | 0 => b0 | 1 => b1 | 2 => b2 | 3 => b3 | 4 => b4 | 5 => b5 | 6 => b6 | _ => b7

/-- Edge e joins corners on different sides. -/
def crossing (b : Nat → Bool) (e : Nat) : Bool := b (edgeEnds e).1 != b (edgeEnds e).2

def relabel (f : Nat → Nat) (s : List (Nat × Nat)) : List (Nat × Nat) := s.map fun x => (f x.1, f x.2)
def relabelSwap (f : Nat → Nat) (s : List (Nat × Nat)) : List (Nat × Nat) := s.map fun x => (f x.2, f x.1)

/-- The segments on the six faces, as sides of triangles of the cell. -/
def faceSegs (b : Nat → Bool) : List (Nat × Nat) :=
  relabel sideXm (segs (b 0) (b 3) (b 7) (b 4)) ++ relabelSwap sideXp (segs (b 1) (b 2) (b 6) (b 5)) ++
  relabelSwap sideYm (segs (b 0) (b 1) (b 5) (b 4)) ++ relabel sideYp (segs (b 3) (b 2) (b 6) (b 7)) ++
  relabel sideZm (segs (b 0) (b 1) (b 2) (b 3)) ++ relabelSwap sideZp (segs (b 4) (b 5) (b 6) (b 7))

/-- All that is needed of a row. -/
def rowCheck (b0 b1 b2 b3 b4 b5 b6 b7 : Bool) : Bool :=
  let b := corner b0 b1 b2 b3 b4 b5 b6 b7
  match edgeTable[cubeIndexOf b0 b1 b2 b3 b4 b5 b6 b7]?, triTable[cubeIndexOf b0 b1 b2 b3 b4 b5 b6 b7]? with
  | some mask, some row =>
    okRow (fun e => decide (e < 12) && crossing b e && decide (mask &&& (2 ^ e) > 0)) row &&
    (List.range 12).all (fun e => !(crossing b e) || (tris row).any fun t => t.1 == e || t.2.1 == e || t.2.2 == e) &&
    (decide (mask = 0) == (List.range 12).all fun e => !(crossing b e)) &&
    (decide (mask = 0) == (b0 == b1 && b0 == b2 && b0 == b3 && b0 == b4 && b0 == b5 && b0 == b6 && b0 == b7)) &&
    (decide (mask = 0) == (tris row).isEmpty) &&
    decide ((tris row).length ≤ 5) &&
    cancels 64 ((tris row).flatMap triSides ++ relabelSwap id (faceSegs b))
  | _, _ => false

theorem rowCheck_all : ∀ b0 b1 b2 b3 b4 b5 b6 b7 : Bool, rowCheck b0 b1 b2 b3 b4 b5 b6 b7 = true := by
  decide +kernel

end Simox.Mc
