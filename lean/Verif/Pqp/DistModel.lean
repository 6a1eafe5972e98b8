/-
Model of the distance and tolerance queries of the bundled proximity query library.

Modelled (paths below `/repo/VirtualRobot/CollisionDetection/PQP/PQP++/`): `RectDist.h`, `TriDist.cpp`,
`BV.cpp` 370-378, `PQP.cpp` 591-609, 815-948, 1107-1236, 1242-1365 and 1531-1628 for queue sizes up to 2
(the default and the only one the collision checker uses; the routines with a priority queue are not
modelled), and `CollisionCheckerPQP.cpp` 15-30, 42-52, 105-140 and 225-290 one directory above.

Real arithmetic instead of `float`.  Statistics counters and timers are left out.
-/
import Verif.Pqp.Protocol

namespace Simox.Pqp

noncomputable section

/-! ### Distance of rectangles -/

/-- `ClipToRange` (`RectDist.h` 58-69). -/
def clip (v a b : ℝ) : ℝ := if v < a then a else if v > b then b else v

/-- `SegCoords` (99-132): the parameters of closest points of two segments with unit directions. -/
def segCoords (a b AB AT BT : ℝ) : ℝ × ℝ :=
  let denom := 1 - AB * AB
  let t := if denom = 0 then 0 else clip ((AT - BT * AB) / denom) 0 a
  let u := t * AB - BT
  if u < 0 then (clip AT 0 a, 0)
  else if u > b then (clip (b * AB + AT) 0 a, b)
  else (t, u)

/-- `InVoronoi` (144-187). -/
def inVoronoi (a b AnB AnT AB AT BT : ℝ) : Bool :=
  if |AnB| < 1 / 10000000 then false
  else
    let u := clip (-AnT / AnB) 0 b
    let t := clip (u * AB + AT) 0 a
    let v := t * AB - BT
    if AnB > 0 then decide (v > u + 1 / 10000000) else decide (v < u - 1 / 10000000)

/-- The assignments in the branches of `if (p < q)` (e.g. 253-266). -/
def sel (p q x y : ℝ) : ℝ := if p < q then x else y

/-- `sqrt(pqp_math.VdotV(S, S))`. -/
def len3 (S : V3) : ℝ := Real.sqrt (dot S S)

/-- The pairs of an edge of `A` along its second axis and an edge of `B` along its second axis (248-376).
The intermediate values are computed in each of the four groups anew. -/
def rectA1B1 (R : M3) (T : V3) (a0 a1 b0 b1 : ℝ) : Option ℝ :=
  let Tba := tmulV R T
  let ALLx := -Tba.x
  let ALUx := ALLx + a1 * R.c0.y
  let AULx := ALLx + a0 * R.c0.x
  let AUUx := ALUx + a0 * R.c0.x
  let LA1lx := sel ALLx ALUx ALLx ALUx
  let LA1ux := sel ALLx ALUx ALUx ALLx
  let UA1lx := sel ALLx ALUx AULx AUUx
  let UA1ux := sel ALLx ALUx AUUx AULx
  let BLLx := T.x
  let BLUx := BLLx + b1 * R.c1.x
  let BULx := BLLx + b0 * R.c0.x
  let BUUx := BLUx + b0 * R.c0.x
  let LB1lx := sel BLLx BLUx BLLx BLUx
  let LB1ux := sel BLLx BLUx BLUx BLLx
  let UB1lx := sel BLLx BLUx BULx BUUx
  let UB1ux := sel BLLx BLUx BUUx BULx
  if (UA1ux > b0 ∧ UB1ux > a0) ∧
      (UA1lx > b0 ∨ inVoronoi b1 a1 R.c0.y (a0 * R.c0.x - b0 - Tba.x) R.c1.y (a0 * R.c1.x - Tba.y)
        (-T.y - b0 * R.c0.y) = true) ∧
      (UB1lx > a0 ∨ inVoronoi a1 b1 R.c1.x (T.x + b0 * R.c0.x - a0) R.c1.y (T.y + b0 * R.c0.y)
        (Tba.y - a0 * R.c1.x) = true) then
    let p := segCoords a1 b1 R.c1.y (T.y + b0 * R.c0.y) (Tba.y - a0 * R.c1.x)
    some (len3 ⟨T.x + R.c0.x * b0 + R.c1.x * p.2 - a0, T.y + R.c0.y * b0 + R.c1.y * p.2 - p.1,
      T.z + R.c0.z * b0 + R.c1.z * p.2⟩)
  else if (UA1lx < 0 ∧ LB1ux > a0) ∧
      (UA1ux < 0 ∨ inVoronoi b1 a1 (-R.c0.y) (Tba.x - a0 * R.c0.x) R.c1.y (a0 * R.c1.x - Tba.y) (-T.y)
        = true) ∧
      (LB1lx > a0 ∨ inVoronoi a1 b1 R.c1.x (T.x - a0) R.c1.y T.y (Tba.y - a0 * R.c1.x) = true) then
    let p := segCoords a1 b1 R.c1.y T.y (Tba.y - a0 * R.c1.x)
    some (len3 ⟨T.x + R.c1.x * p.2 - a0, T.y + R.c1.y * p.2 - p.1, T.z + R.c1.z * p.2⟩)
  else if (LA1ux > b0 ∧ UB1lx < 0) ∧
      (LA1lx > b0 ∨ inVoronoi b1 a1 R.c0.y (-Tba.x - b0) R.c1.y (-Tba.y) (-T.y - b0 * R.c0.y) = true) ∧
      (UB1ux < 0 ∨ inVoronoi a1 b1 (-R.c1.x) (-T.x - b0 * R.c0.x) R.c1.y (T.y + b0 * R.c0.y) Tba.y
        = true) then
    let p := segCoords a1 b1 R.c1.y (T.y + b0 * R.c0.y) Tba.y
    some (len3 ⟨T.x + R.c0.x * b0 + R.c1.x * p.2, T.y + R.c0.y * b0 + R.c1.y * p.2 - p.1,
      T.z + R.c0.z * b0 + R.c1.z * p.2⟩)
  else if (LA1lx < 0 ∧ LB1lx < 0) ∧
      (LA1ux < 0 ∨ inVoronoi b1 a1 (-R.c0.y) Tba.x R.c1.y (-Tba.y) (-T.y) = true) ∧
      (LB1ux < 0 ∨ inVoronoi a1 b1 (-R.c1.x) (-T.x) R.c1.y T.y Tba.y = true) then
    let p := segCoords a1 b1 R.c1.y T.y Tba.y
    some (len3 ⟨T.x + R.c1.x * p.2, T.y + R.c1.y * p.2 - p.1, T.z + R.c1.z * p.2⟩)
  else none

/-- An edge of `A` along its second axis and an edge of `B` along its first axis (378-493). -/
def rectA1B0 (R : M3) (T : V3) (a0 a1 b0 b1 : ℝ) : Option ℝ :=
  let Tba := tmulV R T
  let ALLy := -Tba.y
  let ALUy := ALLy + a1 * R.c1.y
  let AULy := ALLy + a0 * R.c1.x
  let AUUy := ALUy + a0 * R.c1.x
  let LA1ly := sel ALLy ALUy ALLy ALUy
  let LA1uy := sel ALLy ALUy ALUy ALLy
  let UA1ly := sel ALLy ALUy AULy AUUy
  let UA1uy := sel ALLy ALUy AUUy AULy
  let BLLx := T.x
  let BLUx := BLLx + b1 * R.c1.x
  let BULx := BLLx + b0 * R.c0.x
  let BUUx := BLUx + b0 * R.c0.x
  let LB0lx := sel BLLx BULx BLLx BULx
  let LB0ux := sel BLLx BULx BULx BLLx
  let UB0lx := sel BLLx BULx BLUx BUUx
  let UB0ux := sel BLLx BULx BUUx BLUx
  if (UA1uy > b1 ∧ UB0ux > a0) ∧
      (UA1ly > b1 ∨ inVoronoi b0 a1 R.c1.y (a0 * R.c1.x - Tba.y - b1) R.c0.y (a0 * R.c0.x - Tba.x)
        (-T.y - b1 * R.c1.y) = true) ∧
      (UB0lx > a0 ∨ inVoronoi a1 b0 R.c0.x (T.x - a0 + b1 * R.c1.x) R.c0.y (T.y + b1 * R.c1.y)
        (Tba.x - a0 * R.c0.x) = true) then
    let p := segCoords a1 b0 R.c0.y (T.y + b1 * R.c1.y) (Tba.x - a0 * R.c0.x)
    some (len3 ⟨T.x + R.c1.x * b1 + R.c0.x * p.2 - a0, T.y + R.c1.y * b1 + R.c0.y * p.2 - p.1,
      T.z + R.c1.z * b1 + R.c0.z * p.2⟩)
  else if (UA1ly < 0 ∧ LB0ux > a0) ∧
      (UA1uy < 0 ∨ inVoronoi b0 a1 (-R.c1.y) (Tba.y - a0 * R.c1.x) R.c0.y (a0 * R.c0.x - Tba.x) (-T.y)
        = true) ∧
      (LB0lx > a0 ∨ inVoronoi a1 b0 R.c0.x (T.x - a0) R.c0.y T.y (Tba.x - a0 * R.c0.x) = true) then
    let p := segCoords a1 b0 R.c0.y T.y (Tba.x - a0 * R.c0.x)
    some (len3 ⟨T.x + R.c0.x * p.2 - a0, T.y + R.c0.y * p.2 - p.1, T.z + R.c0.z * p.2⟩)
  else if (LA1uy > b1 ∧ UB0lx < 0) ∧
      (LA1ly > b1 ∨ inVoronoi b0 a1 R.c1.y (-Tba.y - b1) R.c0.y (-Tba.x) (-T.y - b1 * R.c1.y) = true) ∧
      (UB0ux < 0 ∨ inVoronoi a1 b0 (-R.c0.x) (-T.x - b1 * R.c1.x) R.c0.y (T.y + b1 * R.c1.y) Tba.x
        = true) then
    let p := segCoords a1 b0 R.c0.y (T.y + b1 * R.c1.y) Tba.x
    some (len3 ⟨T.x + R.c1.x * b1 + R.c0.x * p.2, T.y + R.c1.y * b1 + R.c0.y * p.2 - p.1,
      T.z + R.c1.z * b1 + R.c0.z * p.2⟩)
  else if (LA1ly < 0 ∧ LB0lx < 0) ∧
      (LA1uy < 0 ∨ inVoronoi b0 a1 (-R.c1.y) Tba.y R.c0.y (-Tba.x) (-T.y) = true) ∧
      (LB0ux < 0 ∨ inVoronoi a1 b0 (-R.c0.x) (-T.x) R.c0.y T.y Tba.x = true) then
    let p := segCoords a1 b0 R.c0.y T.y Tba.x
    some (len3 ⟨T.x + R.c0.x * p.2, T.y + R.c0.y * p.2 - p.1, T.z + R.c0.z * p.2⟩)
  else none

/-- An edge of `A` along its first axis and an edge of `B` along its second axis (495-618). -/
def rectA0B1 (R : M3) (T : V3) (a0 a1 b0 b1 : ℝ) : Option ℝ :=
  let Tba := tmulV R T
  let ALLx := -Tba.x
  let ALUx := ALLx + a1 * R.c0.y
  let AULx := ALLx + a0 * R.c0.x
  let AUUx := ALUx + a0 * R.c0.x
  let BLLy := T.y
  let BLUy := BLLy + b1 * R.c1.y
  let BULy := BLLy + b0 * R.c0.y
  let BUUy := BLUy + b0 * R.c0.y
  let LA0lx := sel ALLx AULx ALLx AULx
  let LA0ux := sel ALLx AULx AULx ALLx
  let UA0lx := sel ALLx AULx ALUx AUUx
  let UA0ux := sel ALLx AULx AUUx ALUx
  let LB1ly := sel BLLy BLUy BLLy BLUy
  let LB1uy := sel BLLy BLUy BLUy BLLy
  let UB1ly := sel BLLy BLUy BULy BUUy
  let UB1uy := sel BLLy BLUy BUUy BULy
  if (UA0ux > b0 ∧ UB1uy > a1) ∧
      (UA0lx > b0 ∨ inVoronoi b1 a0 R.c0.x (a1 * R.c0.y - Tba.x - b0) R.c1.x (a1 * R.c1.y - Tba.y)
        (-T.x - b0 * R.c0.x) = true) ∧
      (UB1ly > a1 ∨ inVoronoi a0 b1 R.c1.y (T.y - a1 + b0 * R.c0.y) R.c1.x (T.x + b0 * R.c0.x)
        (Tba.y - a1 * R.c1.y) = true) then
    let p := segCoords a0 b1 R.c1.x (T.x + b0 * R.c0.x) (Tba.y - a1 * R.c1.y)
    some (len3 ⟨T.x + R.c0.x * b0 + R.c1.x * p.2 - p.1, T.y + R.c0.y * b0 + R.c1.y * p.2 - a1,
      T.z + R.c0.z * b0 + R.c1.z * p.2⟩)
  else if (UA0lx < 0 ∧ LB1uy > a1) ∧
      (UA0ux < 0 ∨ inVoronoi b1 a0 (-R.c0.x) (Tba.x - a1 * R.c0.y) R.c1.x (a1 * R.c1.y - Tba.y) (-T.x)
        = true) ∧
      (LB1ly > a1 ∨ inVoronoi a0 b1 R.c1.y (T.y - a1) R.c1.x T.x (Tba.y - a1 * R.c1.y) = true) then
    let p := segCoords a0 b1 R.c1.x T.x (Tba.y - a1 * R.c1.y)
    some (len3 ⟨T.x + R.c1.x * p.2 - p.1, T.y + R.c1.y * p.2 - a1, T.z + R.c1.z * p.2⟩)
  else if (LA0ux > b0 ∧ UB1ly < 0) ∧
      (LA0lx > b0 ∨ inVoronoi b1 a0 R.c0.x (-b0 - Tba.x) R.c1.x (-Tba.y) (-(b0 * R.c0.x) - T.x) = true) ∧
      (UB1uy < 0 ∨ inVoronoi a0 b1 (-R.c1.y) (-T.y - b0 * R.c0.y) R.c1.x (T.x + b0 * R.c0.x) Tba.y
        = true) then
    let p := segCoords a0 b1 R.c1.x (T.x + b0 * R.c0.x) Tba.y
    some (len3 ⟨T.x + R.c0.x * b0 + R.c1.x * p.2 - p.1, T.y + R.c0.y * b0 + R.c1.y * p.2,
      T.z + R.c0.z * b0 + R.c1.z * p.2⟩)
  else if (LA0lx < 0 ∧ LB1ly < 0) ∧
      (LA0ux < 0 ∨ inVoronoi b1 a0 (-R.c0.x) Tba.x R.c1.x (-Tba.y) (-T.x) = true) ∧
      (LB1uy < 0 ∨ inVoronoi a0 b1 (-R.c1.y) (-T.y) R.c1.x T.x Tba.y = true) then
    let p := segCoords a0 b1 R.c1.x T.x Tba.y
    some (len3 ⟨T.x + R.c1.x * p.2 - p.1, T.y + R.c1.y * p.2, T.z + R.c1.z * p.2⟩)
  else none

/-- Two edges along the first axes (620-735). -/
def rectA0B0 (R : M3) (T : V3) (a0 a1 b0 b1 : ℝ) : Option ℝ :=
  let Tba := tmulV R T
  let ALLy := -Tba.y
  let ALUy := ALLy + a1 * R.c1.y
  let AULy := ALLy + a0 * R.c1.x
  let AUUy := ALUy + a0 * R.c1.x
  let BLLy := T.y
  let BLUy := BLLy + b1 * R.c1.y
  let BULy := BLLy + b0 * R.c0.y
  let BUUy := BLUy + b0 * R.c0.y
  let LA0ly := sel ALLy AULy ALLy AULy
  let LA0uy := sel ALLy AULy AULy ALLy
  let UA0ly := sel ALLy AULy ALUy AUUy
  let UA0uy := sel ALLy AULy AUUy ALUy
  let LB0ly := sel BLLy BULy BLLy BULy
  let LB0uy := sel BLLy BULy BULy BLLy
  let UB0ly := sel BLLy BULy BLUy BUUy
  let UB0uy := sel BLLy BULy BUUy BLUy
  if (UA0uy > b1 ∧ UB0uy > a1) ∧
      (UA0ly > b1 ∨ inVoronoi b0 a0 R.c1.x (a1 * R.c1.y - Tba.y - b1) R.c0.x (a1 * R.c0.y - Tba.x)
        (-T.x - b1 * R.c1.x) = true) ∧
      (UB0ly > a1 ∨ inVoronoi a0 b0 R.c0.y (T.y - a1 + b1 * R.c1.y) R.c0.x (T.x + b1 * R.c1.x)
        (Tba.x - a1 * R.c0.y) = true) then
    let p := segCoords a0 b0 R.c0.x (T.x + b1 * R.c1.x) (Tba.x - a1 * R.c0.y)
    some (len3 ⟨T.x + R.c1.x * b1 + R.c0.x * p.2 - p.1, T.y + R.c1.y * b1 + R.c0.y * p.2 - a1,
      T.z + R.c1.z * b1 + R.c0.z * p.2⟩)
  else if (UA0ly < 0 ∧ LB0uy > a1) ∧
      (UA0uy < 0 ∨ inVoronoi b0 a0 (-R.c1.x) (Tba.y - a1 * R.c1.y) R.c0.x (a1 * R.c0.y - Tba.x) (-T.x)
        = true) ∧
      (LB0ly > a1 ∨ inVoronoi a0 b0 R.c0.y (T.y - a1) R.c0.x T.x (Tba.x - a1 * R.c0.y) = true) then
    let p := segCoords a0 b0 R.c0.x T.x (Tba.x - a1 * R.c0.y)
    some (len3 ⟨T.x + R.c0.x * p.2 - p.1, T.y + R.c0.y * p.2 - a1, T.z + R.c0.z * p.2⟩)
  else if (LA0uy > b1 ∧ UB0ly < 0) ∧
      (LA0ly > b1 ∨ inVoronoi b0 a0 R.c1.x (-Tba.y - b1) R.c0.x (-Tba.x) (-T.x - b1 * R.c1.x) = true) ∧
      (UB0uy < 0 ∨ inVoronoi a0 b0 (-R.c0.y) (-T.y - b1 * R.c1.y) R.c0.x (T.x + b1 * R.c1.x) Tba.x
        = true) then
    let p := segCoords a0 b0 R.c0.x (T.x + b1 * R.c1.x) Tba.x
    some (len3 ⟨T.x + R.c1.x * b1 + R.c0.x * p.2 - p.1, T.y + R.c1.y * b1 + R.c0.y * p.2,
      T.z + R.c1.z * b1 + R.c0.z * p.2⟩)
  else if (LA0ly < 0 ∧ LB0ly < 0) ∧
      (LA0uy < 0 ∨ inVoronoi b0 a0 (-R.c1.x) Tba.y R.c0.x (-Tba.x) (-T.x) = true) ∧
      (LB0uy < 0 ∨ inVoronoi a0 b0 (-R.c0.y) (-T.y) R.c0.x T.x Tba.x = true) then
    let p := segCoords a0 b0 R.c0.x T.x Tba.x
    some (len3 ⟨T.x + R.c0.x * p.2 - p.1, T.y + R.c0.y * p.2, T.z + R.c0.z * p.2⟩)
  else none

/-- Separation along the normal of `A` (741-769). -/
def rectSep1 (R : M3) (T : V3) (b0 b1 : ℝ) : ℝ :=
  if T.z > 0 then
    let s := if R.c0.z < 0 then T.z + b0 * R.c0.z else T.z
    if R.c1.z < 0 then s + b1 * R.c1.z else s
  else
    let s := if R.c0.z > 0 then -T.z - b0 * R.c0.z else -T.z
    if R.c1.z > 0 then s - b1 * R.c1.z else s

/-- Separation along the normal of `B` (771-799). -/
def rectSep2 (R : M3) (T : V3) (a0 a1 : ℝ) : ℝ :=
  let Tba := tmulV R T
  if Tba.z < 0 then
    let s := if R.c2.x < 0 then -Tba.z + a0 * R.c2.x else -Tba.z
    if R.c2.y < 0 then s + a1 * R.c2.y else s
  else
    let s := if R.c2.x > 0 then Tba.z - a0 * R.c2.x else Tba.z
    if R.c2.y > 0 then s - a1 * R.c2.y else s

/-- `RectDist` (202-803).  `A` has a corner at the origin and sides along the first two axes; `R`, `T`
give the frame and the corner of `B`. -/
def rectDist (R : M3) (T : V3) (a0 a1 b0 b1 : ℝ) : ℝ :=
  match rectA1B1 R T a0 a1 b0 b1 with
  | some d => d
  | none =>
    match rectA1B0 R T a0 a1 b0 b1 with
    | some d => d
    | none =>
      match rectA0B1 R T a0 a1 b0 b1 with
      | some d => d
      | none =>
        match rectA0B0 R T a0 a1 b0 b1 with
        | some d => d
        | none =>
          let sep1 := rectSep1 R T b0 b1
          let sep2 := rectSep2 R T a0 a1
          let sep := if sep1 > sep2 then sep1 else sep2
          if sep > 0 then sep else 0

/-- `BV_Distance` (`BV.cpp` 372-377). -/
def bvDistance (R : M3) (T : V3) (b1 b2 : BV) : ℝ :=
  let d := rectDist R T b1.l0 b1.l1 b2.l0 b2.l1 - (b1.r + b2.r)
  if d < 0 then 0 else d

/-! ### Distance of triangles -/

/-- A quotient restricted to the range from 0 to 1, where 0 is also the result for an undefined quotient
(`TriDist.cpp` 86-97, and the three tests for the other quotients 107, 113, 119, 134, 140, 146).  Without
rounding, a divisor 0 comes with a dividend 0; an infinite quotient would be restricted, too. -/
def clampQ (num den : ℝ) : ℝ :=
  if den = 0 then (if num > 0 then 1 else 0)
  else if num / den < 0 then 0
  else if num / den > 1 then 1
  else num / den

/-- What `SegPoints` computes: a direction and the closest points. -/
structure SegRes where
  vec : V3
  x : V3
  y : V3

/-- `SegPoints` (69-187). -/
def segPoints (P A Q B : V3) : SegRes :=
  let T := vsub Q P
  let AA := dot A A
  let BB := dot B B
  let AB := dot A B
  let AT := dot A T
  let BT := dot B T
  let t := clampQ (AT * BB - BT * AB) (AA * BB - AB * AB)
  let u := clampQ (t * AB - BT) BB
  if u ≤ 0 then
    let t := clampQ AT AA
    if t ≤ 0 then ⟨vsub Q P, P, Q⟩
    else if t ≥ 1 then ⟨vsub Q (vadd P A), vadd P A, Q⟩
    else ⟨cross A (cross T A), vaddScaled P A t, Q⟩
  else if u ≥ 1 then
    let Y := vadd Q B
    let t := clampQ (AB + AT) AA
    if t ≤ 0 then ⟨vsub Y P, P, Y⟩
    else if t ≥ 1 then ⟨vsub Y (vadd P A), vadd P A, Y⟩
    else ⟨cross A (cross (vsub Y P) A), vaddScaled P A t, Y⟩
  else
    let Y := vaddScaled Q B u
    if t ≤ 0 then ⟨cross B (cross T B), P, Y⟩
    else if t ≥ 1 then ⟨cross B (cross (vsub Q (vadd P A)) B), vadd P A, Y⟩
    else
      let v := cross A B
      ⟨if dot v T < 0 then vscale v (-1) else v, vaddScaled P A t, Y⟩

/-- A triangle as an array of corners. -/
abbrev Corners := Fin 3 → V3

/-- The vectors along the sides (223-229). -/
def sideVec (S : Corners) (i : Fin 3) : V3 := vsub (S (i + 1)) (S i)

/-- What a triangle pair query returns: distance and a point of each triangle. -/
structure TriRes where
  d : ℝ
  p : V3
  q : V3

/-- The variables of the loop over edge pairs. -/
structure EdgeSt where
  mindd : ℝ
  minP : V3
  minQ : V3
  shown : Bool
  P : V3
  Q : V3

/-- One turn of the loop over edge pairs (251-300); `Sum.inl` is a return. -/
def edgeStep (S T : Corners) (i j : Fin 3) (st : EdgeSt) : TriRes ⊕ EdgeSt :=
  let r := segPoints (S i) (sideVec S i) (T j) (sideVec T j)
  let V := vsub r.y r.x
  let dd := dot V V
  if dd ≤ st.mindd then
    let a := dot (vsub (S (i + 2)) r.x) r.vec
    let b := dot (vsub (T (j + 2)) r.y) r.vec
    if a ≤ 0 ∧ b ≥ 0 then .inl ⟨Real.sqrt dd, r.x, r.y⟩
    else
      let p := dot V r.vec
      let a' := if a < 0 then 0 else a
      let b' := if b > 0 then 0 else b
      .inr ⟨dd, r.x, r.y, if p - a' + b' > 0 then true else st.shown, r.x, r.y⟩
  else .inr { st with P := r.x, Q := r.y }

/-- The loop over edge pairs (249-302). -/
def edgeLoop (S T : Corners) : List (Fin 3 × Fin 3) → EdgeSt → TriRes ⊕ EdgeSt
  | [], st => .inr st
  | (i, j) :: l, st =>
    match edgeStep S T i j st with
    | .inl r => .inl r
    | .inr st' => edgeLoop S T l st'

/-- The order in which the pairs are visited. -/
def edgePairs : List (Fin 3 × Fin 3) :=
  [(0, 0), (0, 1), (0, 2), (1, 0), (1, 1), (1, 2), (2, 0), (2, 1), (2, 2)]

/-- The corner closest to the plane, if all corners are on the same side (342-382, 441-475). -/
def nearest (w : Fin 3 → ℝ) : Option (Fin 3) :=
  if w 0 > 0 ∧ w 1 > 0 ∧ w 2 > 0 then
    let k : Fin 3 := if w 0 < w 1 then 0 else 1
    some (if w 2 < w k then 2 else k)
  else if w 0 < 0 ∧ w 1 < 0 ∧ w 2 < 0 then
    let k : Fin 3 := if w 0 > w 1 then 0 else 1
    some (if w 2 > w k then 2 else k)
  else none

/-- Testing the corners of the second triangle against the face of the first (318-417; with exchanged
triangles 421-509): is the normal a separating direction, and if the nearest corner is above the face,
this corner and its projection. -/
def faceTest (S T : Corners) : Bool × Option (V3 × V3) :=
  let n := cross (sideVec S 0) (sideVec S 1)
  let nl := dot n n
  if nl > 1 / 1000000000000000 then
    let w : Fin 3 → ℝ := fun k => dot (vsub (S 0) (T k)) n
    match nearest w with
    | none => (false, none)
    | some k =>
      if dot (vsub (T k) (S 0)) (cross n (sideVec S 0)) > 0 ∧
          dot (vsub (T k) (S 1)) (cross n (sideVec S 1)) > 0 ∧
          dot (vsub (T k) (S 2)) (cross n (sideVec S 2)) > 0 then
        (true, some (T k, vaddScaled (T k) n (w k / nl)))
      else (true, none)
  else (false, none)

/-- `TriDist` (208-528).  Every return but the last has set `P` and `Q`; after the last one they are the
points of the last edge pair. -/
def triDist (S T : Corners) : TriRes :=
  match edgeLoop S T edgePairs ⟨dist2 (S 0) (T 0) + 1, S 0, T 0, false, S 0, T 0⟩ with
  | .inl r => r
  | .inr st =>
    match faceTest S T with
    | (_, some (c, f)) => ⟨Real.sqrt (dist2 f c), f, c⟩
    | (s1, none) =>
      match faceTest T S with
      | (_, some (c, f)) => ⟨Real.sqrt (dist2 c f), c, f⟩
      | (s2, none) =>
        if st.shown || s1 || s2 then ⟨Real.sqrt st.mindd, st.minP, st.minQ⟩
        else ⟨0, st.P, st.Q⟩

/-- The corners of a triangle. -/
def Tri.corners (t : Tri) : Corners
  | 0 => t.p1
  | 1 => t.p2
  | 2 => t.p3

/-- `TriDistance` (`PQP.cpp` 591-609). -/
def triDistance (R : M3) (T : V3) (t1 t2 : Tri) : TriRes :=
  triDist t1.corners (fun k => mulVpV R (t2.corners k) T)

/-! ### Distance query -/

/-- The part of `PQP_DistanceResult` that changes during a query, with the closest triangles of the two
models (`last_tri`, as a number). -/
structure DRes where
  dist : ℝ
  p1 : V3
  p2 : V3
  id1 : Int
  id2 : Int
  last1 : Nat
  last2 : Nat

/-- The number of the triangle of a leaf. -/
def BV.triIdx (b : BV) : Nat := (-b.firstChild - 1).toNat

/-- Testing two triangles (`PQP.cpp` 826-856). -/
def distLeaf (RR : M3) (TT : V3) (i1 i2 : Nat) (t1 t2 : Tri) (res : DRes) : DRes :=
  let r := triDistance RR TT t1 t2
  if r.d < res.dist then ⟨r.d, r.p, r.q, t1.id, t2.id, i1, i2⟩ else res

/-- May a pair of volumes at distance `d` be of interest? (922-923 and three times more) -/
def closer (rel abs : ℝ) (d : ℝ) (res : DRes) : Bool :=
  decide (d < res.dist - abs) || decide (d * (1 + rel) < res.dist)

/-- `DistanceRecurse` (815-948).  The number bounds the depth; `none`: bound hit or an array index out of
range. -/
def distRec (rel abs : ℝ) (RR : M3) (TT : V3) (o1 o2 : Model) :
    Nat → M3 → V3 → Nat → Nat → DRes → Option DRes
  | 0, _, _, _, _, _ => none
  | f + 1, R, T, n1, n2, res =>
    match o1.bvs[n1]?, o2.bvs[n2]? with
    | some b1, some b2 =>
      if b1.leaf && b2.leaf then
        match o1.tri b1, o2.tri b2 with
        | some t1, some t2 => some (distLeaf RR TT b1.triIdx b2.triIdx t1 t2 res)
        | _, _ => none
      else if descendFirst b1 b2 then
        match o1.bvs[b1.firstChild.toNat]?, o1.bvs[b1.firstChild.toNat + 1]? with
        | some a, some c =>
          let R1 := tmulM a.R R
          let T1 := tmulV a.R (vsub T a.Tr)
          let R2 := tmulM c.R R
          let T2 := tmulV c.R (vsub T c.Tr)
          let d1 := bvDistance R1 T1 a b2
          let d2 := bvDistance R2 T2 c b2
          if d2 < d1 then
            match (if closer rel abs d2 res then
                distRec rel abs RR TT o1 o2 f R2 T2 (b1.firstChild.toNat + 1) n2 res else some res) with
            | none => none
            | some res =>
              if closer rel abs d1 res then
                distRec rel abs RR TT o1 o2 f R1 T1 b1.firstChild.toNat n2 res else some res
          else
            match (if closer rel abs d1 res then
                distRec rel abs RR TT o1 o2 f R1 T1 b1.firstChild.toNat n2 res else some res) with
            | none => none
            | some res =>
              if closer rel abs d2 res then
                distRec rel abs RR TT o1 o2 f R2 T2 (b1.firstChild.toNat + 1) n2 res else some res
        | _, _ => none
      else
        match o2.bvs[b2.firstChild.toNat]?, o2.bvs[b2.firstChild.toNat + 1]? with
        | some a, some c =>
          let R1 := mulM R a.R
          let T1 := mulVpV R a.Tr T
          let R2 := mulM R c.R
          let T2 := mulVpV R c.Tr T
          let d1 := bvDistance R1 T1 b1 a
          let d2 := bvDistance R2 T2 b1 c
          if d2 < d1 then
            match (if closer rel abs d2 res then
                distRec rel abs RR TT o1 o2 f R2 T2 n1 (b2.firstChild.toNat + 1) res else some res) with
            | none => none
            | some res =>
              if closer rel abs d1 res then
                distRec rel abs RR TT o1 o2 f R1 T1 n1 b2.firstChild.toNat res else some res
          else
            match (if closer rel abs d1 res then
                distRec rel abs RR TT o1 o2 f R1 T1 n1 b2.firstChild.toNat res else some res) with
            | none => none
            | some res =>
              if closer rel abs d2 res then
                distRec rel abs RR TT o1 o2 f R2 T2 n1 (b2.firstChild.toNat + 1) res else some res
        | _, _ => none
    | _, _ => none

/-- `PQP_Distance` (1107-1236) on two built models whose closest triangles of the last query are number
`l1` and `l2`.  `none`: an array index out of range. -/
def distance (rel abs : ℝ) (R1 : M3) (T1 : V3) (o1 : Model) (l1 : Nat) (R2 : M3) (T2 : V3) (o2 : Model)
    (l2 : Nat) : Option DRes :=
  let RR := tmulM R1 R2
  let TT := tmulV R1 (vsub T2 T1)
  match o1.tris[l1]?, o2.tris[l2]?, o1.bvs[0]?, o2.bvs[0]? with
  | some t1, some t2, some b1, some b2 =>
    let r := triDistance RR TT t1 t2
    match distRec rel abs RR TT o1 o2 (o1.bvs.length + o2.bvs.length)
        (tmulM b1.R (mulM RR b2.R)) (tmulV b1.R (vsub (mulVpV RR b2.Tr TT) b1.Tr)) 0 0
        ⟨r.d, r.p, r.q, t1.id, t2.id, l1, l2⟩ with
    | none => none
    | some res => some { res with p1 := mulVpV R1 res.p1 T1, p2 := mulVpV R1 res.p2 T1 }
  | _, _, _, _ => none

/-! ### Tolerance query -/

/-- `ToleranceRecurse` (1242-1365): the argument and the result is the pair of triangles that was found,
with distance and points. -/
def tolRec (tol : ℝ) (RR : M3) (TT : V3) (o1 o2 : Model) :
    Nat → M3 → V3 → Nat → Nat → Option TriRes → Option (Option TriRes)
  | 0, _, _, _, _, _ => none
  | f + 1, R, T, n1, n2, res =>
    match o1.bvs[n1]?, o2.bvs[n2]? with
    | some b1, some b2 =>
      if b1.leaf && b2.leaf then
        match o1.tri b1, o2.tri b2 with
        | some t1, some t2 =>
          some (if (triDistance RR TT t1 t2).d ≤ tol then some (triDistance RR TT t1 t2) else res)
        | _, _ => none
      else if descendFirst b1 b2 then
        match o1.bvs[b1.firstChild.toNat]?, o1.bvs[b1.firstChild.toNat + 1]? with
        | some a, some c =>
          let R1 := tmulM a.R R
          let T1 := tmulV a.R (vsub T a.Tr)
          let R2 := tmulM c.R R
          let T2 := tmulV c.R (vsub T c.Tr)
          let d1 := bvDistance R1 T1 a b2
          let d2 := bvDistance R2 T2 c b2
          if d2 < d1 then
            match (if d2 ≤ tol then
                tolRec tol RR TT o1 o2 f R2 T2 (b1.firstChild.toNat + 1) n2 res else some res) with
            | none => none
            | some res =>
              if res.isSome then some res
              else if d1 ≤ tol then tolRec tol RR TT o1 o2 f R1 T1 b1.firstChild.toNat n2 res
              else some res
          else
            match (if d1 ≤ tol then
                tolRec tol RR TT o1 o2 f R1 T1 b1.firstChild.toNat n2 res else some res) with
            | none => none
            | some res =>
              if res.isSome then some res
              else if d2 ≤ tol then tolRec tol RR TT o1 o2 f R2 T2 (b1.firstChild.toNat + 1) n2 res
              else some res
        | _, _ => none
      else
        match o2.bvs[b2.firstChild.toNat]?, o2.bvs[b2.firstChild.toNat + 1]? with
        | some a, some c =>
          let R1 := mulM R a.R
          let T1 := mulVpV R a.Tr T
          let R2 := mulM R c.R
          let T2 := mulVpV R c.Tr T
          let d1 := bvDistance R1 T1 b1 a
          let d2 := bvDistance R2 T2 b1 c
          if d2 < d1 then
            match (if d2 ≤ tol then
                tolRec tol RR TT o1 o2 f R2 T2 n1 (b2.firstChild.toNat + 1) res else some res) with
            | none => none
            | some res =>
              if res.isSome then some res
              else if d1 ≤ tol then tolRec tol RR TT o1 o2 f R1 T1 n1 b2.firstChild.toNat res
              else some res
          else
            match (if d1 ≤ tol then
                tolRec tol RR TT o1 o2 f R1 T1 n1 b2.firstChild.toNat res else some res) with
            | none => none
            | some res =>
              if res.isSome then some res
              else if d2 ≤ tol then tolRec tol RR TT o1 o2 f R2 T2 n1 (b2.firstChild.toNat + 1) res
              else some res
        | _, _ => none
    | _, _ => none

/-- `PQP_Tolerance` (1531-1628) on two built models: the pair of triangles found, with the point on the
second model in its own coordinates. -/
def tolerance (tol : ℝ) (R1 : M3) (T1 : V3) (o1 : Model) (R2 : M3) (T2 : V3) (o2 : Model) :
    Option (Option TriRes) :=
  let RR := tmulM R1 R2
  let TT := tmulV R1 (vsub T2 T1)
  let tol := if tol < 0 then 0 else tol
  match o1.bvs[0]?, o2.bvs[0]? with
  | some b1, some b2 =>
    let R := tmulM b1.R (mulM RR b2.R)
    let T := tmulV b1.R (vsub (mulVpV RR b2.Tr TT) b1.Tr)
    let found :=
      if bvDistance R T b1 b2 ≤ tol then
        tolRec tol RR TT o1 o2 (o1.bvs.length + o2.bvs.length) R T 0 0 none
      else some none
    match found with
    | none => none
    | some res => some (res.map (fun r => { r with q := tmulV RR (vsub r.q TT) }))
  | _, _ => none

/-! ### The collision checker -/

/-- The models a program has built, each with the number of its closest triangle in the last distance
query (`last_tri`).  Collision models may share one of these. -/
abbrev Store := List (Model × Nat)

/-- `getMinDistance` and `GetPQPDistance` (`CollisionCheckerPQP.cpp` 225-290) on the models at two places
of the store, which may be the same place: the answer and the new store.  First `o1->last_tri` is written,
then `o2->last_tri` (`PQP.cpp` 852-853). -/
def minDistance (w : Store) (i j : Nat) (g1R : M3) (g1T : V3) (g2R : M3) (g2T : V3) :
    Option (DRes × Store) :=
  match w[i]?, w[j]? with
  | some (o1, l1), some (o2, l2) =>
    match distance 0 0 g1R g1T o1 l1 g2R g2T o2 l2 with
    | none => none
    | some r => some (r, (w.set i (o1, r.last1)).set j (o2, r.last2))
  | _, _ => none

/-- A distance query: two places of the store and two poses. -/
structure DQuery where
  i : Nat
  j : Nat
  g1R : M3
  g1T : V3
  g2R : M3
  g2T : V3

/-- A sequence of distance queries, each working on the store the one before has left. -/
def minDistances : List DQuery → Store → Option (List DRes × Store)
  | [], w => some ([], w)
  | q :: qs, w =>
    match minDistance w q.i q.j q.g1R q.g1T q.g2R q.g2T with
    | none => none
    | some (r, w') =>
      match minDistances qs w' with
      | none => none
      | some (rs, w'') => some (r :: rs, w'')

/-- The model that stands for a point (15-30). -/
def pointTri : Tri := ⟨⟨0, 0, 1 / 100000⟩, ⟨0, 1 / 100000, 1 / 100000⟩, ⟨0, 1 / 100000, 0⟩, 99999998⟩

/-- `checkCollision(model, point, tolerance)` (105-140); `pm` is the point model. -/
def checkPoint (g1R : M3) (g1T : V3) (m : Model) (point : V3) (tol : ℝ) (pm : Model) : Option Bool :=
  if tol = 0 then
    (collide true g1R g1T m one3 point pm).map (fun r => decide (r.length ≠ 0))
  else (tolerance 50 g1R g1T m one3 point pm).map (fun r => r.isSome)

end

end Simox.Pqp
