import Mathlib.Data.Real.Basic
import Mathlib.Data.List.Sort

/-!
# Convex hulls in the plane

Models `createConvexHull2D`, `sortPoints`, `isInside` and `getConvexHullCenter` of
`VirtualRobot/MathTools.cpp`. Coordinates are real numbers (no rounding). The array `H` with the index `top`
is a stack, a list with the top first; writing outside of the array is the outcome `ub`.
-/

namespace Simox.Hull

open Classical

/-- `Eigen::Vector2f`. -/
abbrev Pt := ℝ × ℝ

/-- `isLeft`, MathTools.h 682-685. -/
def isLeft (p0 p1 p2 : Pt) : ℝ := (p1.1 - p0.1) * (p2.2 - p0.2) - (p2.1 - p0.1) * (p1.2 - p0.2)

/-- "`((*point) - p).squaredNorm() < 1e-8`", MathTools.cpp 562-564. -/
def close (a b : Pt) : Prop := (a.1 - b.1) * (a.1 - b.1) + (a.2 - b.2) * (a.2 - b.2) < 1 / 10 ^ 8

/-- "`tmp.erase(std::remove_if(point + 1, tmp.end(), ...), tmp.end())`", 561-564. -/
noncomputable def erase (p : Pt) (l : List Pt) : List Pt := l.filter fun q => ¬ close p q

/-- The loop that removes double entries, 559-565: of each point in turn the later ones close to it are
erased. -/
noncomputable def removeDoubles : List Pt → List Pt
  | [] => []
  | p :: l => p :: removeDoubles (erase p l)
termination_by l => l.length
decreasing_by
  simp only [List.length_cons]
  exact Nat.lt_succ_of_le (List.length_filter_le _ _)

/-- The order of `std::sort`, 567-570. -/
def lexLt (a b : Pt) : Prop := a.1 < b.1 ∨ (a.1 = b.1 ∧ a.2 < b.2)

/-- `sortPoints`, 554-572. (Of `std::sort` only the result matters: the points in order.) -/
noncomputable def sortPoints (points : List Pt) : List Pt :=
  (removeDoubles points).insertionSort fun a b => ¬ lexLt b a

/-- `ConvexHull2D`: vertices, and segments as pairs of indices. -/
structure ConvexHull2D where
  vertices : List Pt
  segments : List (Nat × Nat)

/-- Outcome of a function. -/
inductive Res (α : Type) where
  | ok (a : α)
  | throw
  | ub

/-- Lift of an undefined outcome. -/
def Res.ofOption {α : Type} : Option α → Res α
  | some a => .ok a
  | none => .ub

/-- `P[i]` or `H[i]`. -/
def at' (l : List Pt) (i : Nat) : Pt := l.getD i (0, 0)

/-- "`H[++top] = p`" in an array of `cap` points. -/
def push (cap : Nat) (p : Pt) (s : List Pt) : Option (List Pt) := if s.length < cap then some (p :: s) else none

/-- The loop of 405-411 from index `i` on (`l` are the points from there): the index where it ends. -/
noncomputable def scanUp (x : ℝ) : List Pt → Nat → Nat
  | [], i => i
  | p :: l, i => if p.1 ≠ x then i else scanUp x l (i + 1)

/-- The loop of 450-456 from index `k - 1` on: `i + 1` at its end. -/
noncomputable def scanDown (P : List Pt) (x : ℝ) : Nat → Nat
  | 0 => 0
  | k + 1 => if (at' P k).1 ≠ x then k + 1 else scanDown P x k

/-- The inner loop "`while (top > bot)`", 474-486 and 507-519. -/
noncomputable def popLoop (bot : Nat) (p : Pt) : List Pt → List Pt
  | t :: s :: r =>
    if r.length + 1 > bot then
      if isLeft s t p > 0 then t :: s :: r else popLoop bot p (s :: r)
    else t :: s :: r
  | l => l

/-- The body of the loop of the lower hull, 466-489. -/
noncomputable def lowerStep (cap : Nat) (P : List Pt) (minmin maxmin : Nat) (s : List Pt) (i : Nat) :
    Option (List Pt) :=
  if isLeft (at' P minmin) (at' P maxmin) (at' P i) ≥ 0 ∧ i < maxmin then some s
  else push cap (at' P i) (popLoop 0 (at' P i) s)

/-- The body of the loop of the upper hull, 499-522. -/
noncomputable def upperStep (cap : Nat) (P : List Pt) (minmax maxmax bot : Nat) (s : List Pt) (i : Nat) :
    Option (List Pt) :=
  if isLeft (at' P maxmax) (at' P minmax) (at' P i) ≥ 0 ∧ i > minmax then some s
  else push cap (at' P i) (popLoop bot (at' P i) s)

/-- A loop over indices. -/
def loop (f : List Pt → Nat → Option (List Pt)) : List Nat → List Pt → Option (List Pt)
  | [], s => some s
  | i :: is, s => (f s i).bind (loop f is)

/-- The segments of `k` vertices, 426-443 and 531-549. -/
def closedSegments (k : Nat) : List (Nat × Nat) :=
  (List.range k).map fun u => (u, if u ≠ k - 1 then u + 1 else 0)

/-- The hull made of the first `k` entries of `H`. -/
def hullOf (s : List Pt) (k : Nat) : ConvexHull2D := ⟨s.reverse.take k, closedSegments k⟩

/-- All `x` are equal, 415-446. -/
noncomputable def degenerate (P : List Pt) (minmax : Nat) : Option ConvexHull2D := do
  let cap := P.length * 2
  let s ← push cap (at' P 0) []
  let s ← (if (at' P minmax).2 ≠ (at' P 0).2 then push cap (at' P minmax) s else some s)
  let s ← push cap (at' P 0) s
  return hullOf s s.length

/-- The two chains, 458-551. -/
noncomputable def chains (P : List Pt) (minmax maxmin : Nat) : Option ConvexHull2D := do
  let cap := P.length * 2
  let maxmax := P.length - 1
  let s ← push cap (at' P 0) []
  let s ← loop (lowerStep cap P 0 maxmin) (List.range' (minmax + 1) (maxmin - minmax)) s
  let s ← (if maxmax ≠ maxmin then push cap (at' P maxmax) s else some s)
  let s ← loop (upperStep cap P minmax maxmax (s.length - 1)) (List.range' minmax (maxmin - minmax)).reverse s
  let s ← (if minmax ≠ 0 then push cap (at' P 0) s else some s)
  return hullOf s (s.length - 1)

/-- `createConvexHull2D`, MathTools.cpp 389-552. -/
noncomputable def createConvexHull2D (points : List Pt) : Res ConvexHull2D :=
  let P := sortPoints points
  let n := P.length
  if n < 3 then .throw
  else
    let minmax := scanUp (at' P 0).1 P.tail 1 - 1
    if minmax = n - 1 then .ofOption (degenerate P minmax)
    else .ofOption (chains P minmax (scanDown P (at' P (n - 1)).1 (n - 1)))

/-- The loop of `isInside`, MathTools.cpp 585-612. -/
noncomputable def insideLoop (vertices : List Pt) (p : Pt) : List (Nat × Nat) → Bool
  | [] => true
  | s :: rest =>
    let q := at' vertices s.1
    let r := at' vertices s.2
    let x := (r.1 - q.1) * (p.2 - q.2) - (p.1 - q.1) * (r.2 - q.2)
    if x ≤ 0 then
      if x = 0 then
        if (p.1 - q.1) * (p.1 - r.1) > 0 then false
        else if (p.2 - q.2) * (p.2 - r.2) > 0 then false
        else true
      else false
    else insideLoop vertices p rest

/-- `isInside`, MathTools.cpp 574-615. -/
noncomputable def isInside (p : Pt) (hull : Option ConvexHull2D) : Bool :=
  match hull with
  | none => false
  | some h => insideLoop h.vertices p h.segments

/-- The loop of `getConvexHullCenter`, MathTools.cpp 1893-1914: the corners of the bounding box. -/
noncomputable def boxLoop : List Pt → Pt × Pt → Pt × Pt
  | [], b => b
  | v :: l, (lo, hi) =>
    boxLoop l ((if lo.1 > v.1 then v.1 else lo.1, if lo.2 > v.2 then v.2 else lo.2),
      (if hi.1 < v.1 then v.1 else hi.1, if hi.2 < v.2 then v.2 else hi.2))

/-- `getConvexHullCenter`, MathTools.cpp 1879-1918. -/
noncomputable def getConvexHullCenter (hull : Option ConvexHull2D) : Pt :=
  match hull with
  | none => (0, 0)
  | some h =>
    match h.vertices with
    | [] => (0, 0)
    | v :: l =>
      let b := boxLoop l (v, v)
      ((b.1.1 + b.2.1) * (1 / 2), (b.1.2 + b.2.2) * (1 / 2))

end Simox.Hull
