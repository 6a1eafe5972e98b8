/-
Model of mesh models, bounding volume trees and the collision query of the bundled proximity query
library.

Modelled (paths below `/repo/VirtualRobot/CollisionDetection/PQP/PQP++/`): `PQP.cpp` 391-589 and
613-803, `BV.cpp`, `BV.h`, `OBB_Disjoint.h`, `Build.cpp` 300-640, and of `MatVec.h` the rotations of
`Meigen`.  The library is compiled with both kinds of bounding volumes (`PQP_Compile.h`).

Real arithmetic instead of `float`.  Which rotations the Jacobi iteration performs (its convergence
tests are about rounding) and the eigenvalues it reports are left open: an arbitrary function of the
triangles.  Statistics counters and timers are left out.
-/
import Verif.Pqp.Vec

namespace Simox.Pqp

noncomputable section

/-- `Tri` (`Tri.h`). -/
structure Tri where
  p1 : V3
  p2 : V3
  p3 : V3
  id : Int

/-! ### Triangle overlap test -/

/-- `pqp_max` (`PQP.cpp` 353-370). -/
def max3 (a b c : ℝ) : ℝ :=
  let t := if b > a then b else a
  if c > t then c else t

/-- `pqp_min` (372-389). -/
def min3 (a b c : ℝ) : ℝ :=
  let t := if b < a then b else a
  if c < t then c else t

/-- `project6` (391-416): do the projections on the axis overlap? -/
def project6 (ax p1 p2 p3 q1 q2 q3 : V3) : Bool :=
  if min3 (dot ax p1) (dot ax p2) (dot ax p3) > max3 (dot ax q1) (dot ax q2) (dot ax q3) then false
  else if min3 (dot ax q1) (dot ax q2) (dot ax q3) > max3 (dot ax p1) (dot ax p2) (dot ax p3) then false
  else true

/-- The series of tests of `TriContact` (510-588) with vertices relative to the first one. -/
def contactTests (p1 p2 p3 q1 q2 q3 : V3) : Bool :=
  let e1 := vsub p2 p1
  let e2 := vsub p3 p2
  let e3 := vsub p1 p3
  let f1 := vsub q2 q1
  let f2 := vsub q3 q2
  let f3 := vsub q1 q3
  let n1 := cross e1 e2
  let m1 := cross f1 f2
  project6 n1 p1 p2 p3 q1 q2 q3 && project6 m1 p1 p2 p3 q1 q2 q3
  && project6 (cross e1 f1) p1 p2 p3 q1 q2 q3 && project6 (cross e1 f2) p1 p2 p3 q1 q2 q3
  && project6 (cross e1 f3) p1 p2 p3 q1 q2 q3 && project6 (cross e2 f1) p1 p2 p3 q1 q2 q3
  && project6 (cross e2 f2) p1 p2 p3 q1 q2 q3 && project6 (cross e2 f3) p1 p2 p3 q1 q2 q3
  && project6 (cross e3 f1) p1 p2 p3 q1 q2 q3 && project6 (cross e3 f2) p1 p2 p3 q1 q2 q3
  && project6 (cross e3 f3) p1 p2 p3 q1 q2 q3
  && project6 (cross e1 n1) p1 p2 p3 q1 q2 q3 && project6 (cross e2 n1) p1 p2 p3 q1 q2 q3
  && project6 (cross e3 n1) p1 p2 p3 q1 q2 q3
  && project6 (cross f1 m1) p1 p2 p3 q1 q2 q3 && project6 (cross f2 m1) p1 p2 p3 q1 q2 q3
  && project6 (cross f3 m1) p1 p2 p3 q1 q2 q3

/-- `TriContact` (421-589): first, everything is moved so that `P1` is the origin (452-469). -/
def triContact (P1 P2 P3 Q1 Q2 Q3 : V3) : Bool :=
  contactTests (vsub P1 P1) (vsub P2 P1) (vsub P3 P1) (vsub Q1 P1) (vsub Q2 P1) (vsub Q3 P1)

/-! ### Oriented boxes -/

/-- `Bf` (`OBB_Disjoint.h` 74-88). -/
def grow (b : ℝ) : ℝ := |b| + 1 / 1000000

/-- `obb_disjoint` (66-262): 0, or the number of the axis that separates the boxes. -/
def obbDisjoint (B : M3) (T a b : V3) : Nat :=
  if ¬ |T.x| ≤ a.x + b.x * grow B.c0.x + b.y * grow B.c1.x + b.z * grow B.c2.x then 1
  else if ¬ |T.x * B.c0.x + T.y * B.c0.y + T.z * B.c0.z|
      ≤ b.x + a.x * grow B.c0.x + a.y * grow B.c0.y + a.z * grow B.c0.z then 2
  else if ¬ |T.y| ≤ a.y + b.x * grow B.c0.y + b.y * grow B.c1.y + b.z * grow B.c2.y then 3
  else if ¬ |T.z| ≤ a.z + b.x * grow B.c0.z + b.y * grow B.c1.z + b.z * grow B.c2.z then 4
  else if ¬ |T.x * B.c1.x + T.y * B.c1.y + T.z * B.c1.z|
      ≤ b.y + a.x * grow B.c1.x + a.y * grow B.c1.y + a.z * grow B.c1.z then 5
  else if ¬ |T.x * B.c2.x + T.y * B.c2.y + T.z * B.c2.z|
      ≤ b.z + a.x * grow B.c2.x + a.y * grow B.c2.y + a.z * grow B.c2.z then 6
  else if ¬ |T.z * B.c0.y - T.y * B.c0.z|
      ≤ a.y * grow B.c0.z + a.z * grow B.c0.y + b.y * grow B.c2.x + b.z * grow B.c1.x then 7
  else if ¬ |T.z * B.c1.y - T.y * B.c1.z|
      ≤ a.y * grow B.c1.z + a.z * grow B.c1.y + b.x * grow B.c2.x + b.z * grow B.c0.x then 8
  else if ¬ |T.z * B.c2.y - T.y * B.c2.z|
      ≤ a.y * grow B.c2.z + a.z * grow B.c2.y + b.x * grow B.c1.x + b.y * grow B.c0.x then 9
  else if ¬ |T.x * B.c0.z - T.z * B.c0.x|
      ≤ a.x * grow B.c0.z + a.z * grow B.c0.x + b.y * grow B.c2.y + b.z * grow B.c1.y then 10
  else if ¬ |T.x * B.c1.z - T.z * B.c1.x|
      ≤ a.x * grow B.c1.z + a.z * grow B.c1.x + b.x * grow B.c2.y + b.z * grow B.c0.y then 11
  else if ¬ |T.x * B.c2.z - T.z * B.c2.x|
      ≤ a.x * grow B.c2.z + a.z * grow B.c2.x + b.x * grow B.c1.y + b.y * grow B.c0.y then 12
  else if ¬ |T.y * B.c0.x - T.x * B.c0.y|
      ≤ a.x * grow B.c0.y + a.y * grow B.c0.x + b.y * grow B.c2.z + b.z * grow B.c1.z then 13
  else if ¬ |T.y * B.c1.x - T.x * B.c1.y|
      ≤ a.x * grow B.c1.y + a.y * grow B.c1.x + b.x * grow B.c2.z + b.z * grow B.c0.z then 14
  else if ¬ |T.y * B.c2.x - T.x * B.c2.y|
      ≤ a.x * grow B.c2.y + a.y * grow B.c2.x + b.x * grow B.c1.z + b.y * grow B.c0.z then 15
  else 0

/-! ### Bounding volumes -/

/-- `BV` (`BV.h` 52-82). -/
structure BV where
  R : M3
  Tr : V3
  l0 : ℝ
  l1 : ℝ
  r : ℝ
  To : V3
  d : V3
  firstChild : Int

/-- `Leaf` (73-76). -/
def BV.leaf (b : BV) : Bool := decide (b.firstChild < 0)

/-- `GetSize` (84-92). -/
def BV.size (b : BV) : ℝ := Real.sqrt (b.l0 * b.l0 + b.l1 * b.l1) + 2 * b.r

/-- One step of the loop keeping smallest and largest value (`BV.cpp` 85-111). -/
def minMax (acc : ℝ × ℝ) (v : ℝ) : ℝ × ℝ :=
  if v < acc.1 then (v, acc.2) else if v > acc.2 then (acc.1, v) else acc

/-- The same with the index of the extreme point (141-157); the point instead of its index. -/
def minMaxPt (f : V3 → ℝ) (acc : V3 × V3) (v : V3) : V3 × V3 :=
  if f v < f acc.1 then (v, acc.2) else if f v > f acc.2 then (acc.1, v) else acc

/-- A rectangle in the plane of two axes. -/
structure Rect where
  minx : ℝ
  maxx : ℝ
  miny : ℝ
  maxy : ℝ

/-- `sqrt(std::max(radsqr - dz * dz, 0.f))`. -/
def slack (radsqr dz : ℝ) : ℝ := Real.sqrt (max (radsqr - dz * dz) 0)

/-- The initial rectangle (174-183). -/
def rectInit (radsqr cz : ℝ) (px py : V3 × V3) : Rect :=
  { minx := px.1.x + slack radsqr (px.1.z - cz)
    maxx := px.2.x - slack radsqr (px.2.z - cz)
    miny := py.1.y + slack radsqr (py.1.z - cz)
    maxy := py.2.y - slack radsqr (py.2.z - cz) }

/-- Growing the sides for one point (190-245). -/
def rectGrow (radsqr cz : ℝ) (q : Rect) (p : V3) : Rect :=
  let s := slack radsqr (p.z - cz)
  { minx := if p.x < q.minx then (if p.x + s < q.minx then p.x + s else q.minx) else q.minx
    maxx := if p.x > q.maxx then (if p.x - s > q.maxx then p.x - s else q.maxx) else q.maxx
    miny := if p.y < q.miny then (if p.y + s < q.miny then p.y + s else q.miny) else q.miny
    maxy := if p.y > q.maxy then (if p.y - s > q.maxy then p.y - s else q.maxy) else q.maxy }

/-- How far a corner moves outwards (261-266, 278-283, 298-303, 315-320); `ux`, `uy` are the signs of
the corner's diagonal. -/
def cornerMove (radsqr cz ux uy dx dy pz : ℝ) : ℝ :=
  let a := Real.sqrt (1 / 2)
  let u := ux * dx * a + uy * dy * a
  let t := (ux * a * u - dx) * (ux * a * u - dx) + (uy * a * u - dy) * (uy * a * u - dy)
    + (cz - pz) * (cz - pz)
  u - Real.sqrt (max (radsqr - t) 0)

/-- Growing the corners for one point (253-330). -/
def rectCorner (radsqr cz : ℝ) (q : Rect) (p : V3) : Rect :=
  let a := Real.sqrt (1 / 2)
  if p.x > q.maxx then
    if p.y > q.maxy then
      let u := cornerMove radsqr cz 1 1 (p.x - q.maxx) (p.y - q.maxy) p.z
      if u > 0 then { q with maxx := q.maxx + u * a, maxy := q.maxy + u * a } else q
    else if p.y < q.miny then
      let u := cornerMove radsqr cz 1 (-1) (p.x - q.maxx) (p.y - q.miny) p.z
      if u > 0 then { q with maxx := q.maxx + u * a, miny := q.miny - u * a } else q
    else q
  else if p.x < q.minx then
    if p.y > q.maxy then
      let u := cornerMove radsqr cz (-1) 1 (p.x - q.minx) (p.y - q.maxy) p.z
      if u > 0 then { q with minx := q.minx - u * a, maxy := q.maxy + u * a } else q
    else if p.y < q.miny then
      let u := cornerMove radsqr cz (-1) (-1) (p.x - q.minx) (p.y - q.miny) p.z
      if u > 0 then { q with minx := q.minx - u * a, miny := q.miny - u * a } else q
    else q
  else q

/-- The rectangle fitted to points (128-330); the first argument is `P[0]`. -/
def fitRect (radsqr cz : ℝ) (p0 : V3) (ps : List V3) : Rect :=
  let px := ps.foldl (minMaxPt V3.x) (p0, p0)
  let py := ps.foldl (minMaxPt V3.y) (p0, p0)
  let q0 := rectInit radsqr cz px py
  let q1 := (p0 :: ps).foldl (rectGrow radsqr cz) q0
  (p0 :: ps).foldl (rectCorner radsqr cz) q1

/-- The corners of all triangles in the coordinates of `R` (58-75). -/
def points (R : M3) (ts : List Tri) : List V3 :=
  ts.flatMap (fun t => [tmulV R t.p1, tmulV R t.p2, tmulV R t.p3])

/-- Clamping a side length (337-349). -/
def side (mx mn : ℝ) : ℝ := if mx - mn < 0 then 0 else mx - mn

/-- `FitToTris` (51-355).  `none`: no triangles, `P[0]` does not exist.  `first_child` is set by the
caller. -/
def fit (R : M3) (ts : List Tri) : Option BV :=
  match points R ts with
  | [] => none
  | p0 :: ps =>
    let bx := (ps.map V3.x).foldl minMax (p0.x, p0.x)
    let b_y := (ps.map V3.y).foldl minMax (p0.y, p0.y)
    let bz := (ps.map V3.z).foldl minMax (p0.z, p0.z)
    let rad := 1 / 2 * (bz.2 - bz.1)
    let cz := 1 / 2 * (bz.2 + bz.1)
    let q := fitRect (rad * rad) cz p0 ps
    some
      { R := R
        To := mulV R ⟨1 / 2 * (bx.2 + bx.1), 1 / 2 * (b_y.2 + b_y.1), 1 / 2 * (bz.2 + bz.1)⟩
        d := ⟨1 / 2 * (bx.2 - bx.1), 1 / 2 * (b_y.2 - b_y.1), 1 / 2 * (bz.2 - bz.1)⟩
        r := rad
        Tr := mulV R ⟨q.minx, q.miny, cz⟩
        l0 := side q.maxx q.minx
        l1 := side q.maxy q.miny
        firstChild := 0 }

/-! ### Building the tree -/

/-- The planes in which the Jacobi iteration rotates: `(ip, iq)` (`MatVec.h` 956). -/
inductive Plane where
  | p01
  | p02
  | p12

/-- `ROTATE(v,j,ip,j,iq)` for all `j` (`MatVec.h` 903, 1004-1007): the two changed columns. -/
def rotCols (s tau : ℝ) (g h : V3) : V3 × V3 :=
  (⟨g.x - s * (h.x + g.x * tau), g.y - s * (h.y + g.y * tau), g.z - s * (h.z + g.z * tau)⟩,
   ⟨h.x + s * (g.x - h.x * tau), h.y + s * (g.y - h.y * tau), h.z + s * (g.z - h.z * tau)⟩)

/-- One rotation of `v` by the angle with tangent `t` (981-983, 1004-1007). -/
def rotate (v : M3) (p : Plane) (t : ℝ) : M3 :=
  let c := 1 / Real.sqrt (1 + t * t)
  let s := t * c
  let tau := s / (1 + c)
  match p with
  | .p01 => ⟨(rotCols s tau v.c0 v.c1).1, (rotCols s tau v.c0 v.c1).2, v.c2⟩
  | .p02 => ⟨(rotCols s tau v.c0 v.c2).1, v.c1, (rotCols s tau v.c0 v.c2).2⟩
  | .p12 => ⟨v.c0, (rotCols s tau v.c1 v.c2).1, (rotCols s tau v.c1 v.c2).2⟩

/-- `Meigen` (907-1020): the matrix of eigenvectors is the product of the rotations, in the order in
which they are performed. -/
def eigenvectors (rs : List (Plane × ℝ)) : M3 := rs.foldl (fun v r => rotate v r.1 r.2) one3

/-- What the Jacobi iteration does for given triangles: its rotations and the eigenvalues. -/
abbrev Eigen := List Tri → List (Plane × ℝ) × V3

/-- Column of a matrix, `McolcMcol` (200-206). -/
def M3.col (m : M3) : Fin 3 → V3
  | 0 => m.c0
  | 1 => m.c1
  | 2 => m.c2

/-- Component of a vector. -/
def V3.comp (v : V3) : Fin 3 → ℝ
  | 0 => v.x
  | 1 => v.y
  | 2 => v.z

/-- `max` and `mid` (`Build.cpp` 467-494). -/
def axisOrder (s : V3) : Fin 3 × Fin 3 :=
  let m : Fin 3 × Fin 3 := if s.x > s.y then (1, 0) else (0, 1)
  if s.z < s.comp m.1 then (m.2, m.1)
  else if s.z > s.comp m.2 then (2, m.2)
  else (m.2, 2)

/-- The orientation of the bounding volumes (461-502). -/
def frame (eig : Eigen) (ts : List Tri) : M3 :=
  let E := eigenvectors (eig ts).1
  let o := axisOrder (eig ts).2
  ⟨E.col o.1, E.col o.2, cross (E.col o.1) (E.col o.2)⟩

/-- `get_centroid_triverts` (301-326). -/
def centroid (ts : List Tri) : V3 :=
  let c := ts.foldl (fun c t => ⟨c.x + (t.p1.x + t.p2.x + t.p3.x), c.y + (t.p1.y + t.p2.y + t.p3.y),
    c.z + (t.p1.z + t.p2.z + t.p3.z)⟩) zero3
  let n : ℝ := 3 * ts.length
  ⟨c.x / n, c.y / n, c.z / n⟩

/-- Does a triangle belong to the first group? (`split_tris` 416-422) -/
def firstGroup (axis : V3) (c : ℝ) (t : Tri) : Bool :=
  decide (dot (vadd (vadd t.p1 t.p2) t.p3) axis / 3 ≤ c)

/-- The loop of `split_tris` (406-433).  The array up to `i` is the first list (of length `c1`)
followed by the second; exchanging `tris[i]` with `tris[c1]` moves the head of the second list to its
end. -/
def splitLoop (hit : Tri → Bool) : List Tri → List Tri → List Tri → List Tri × Nat
  | g1, g2, [] => (g1 ++ g2, g1.length)
  | g1, g2, x :: xs =>
    if hit x then
      match g2 with
      | [] => splitLoop hit (g1 ++ [x]) [] xs
      | y :: ys => splitLoop hit (g1 ++ [x]) (ys ++ [y]) xs
    else splitLoop hit g1 (g2 ++ [x]) xs

/-- `split_tris` (397-444): the rearranged triangles and the size of the first group. -/
def splitTris (ts : List Tri) (axis : V3) (c : ℝ) : List Tri × Nat :=
  let r := splitLoop (firstGroup axis c) [] [] ts
  (r.1, if r.2 = 0 ∨ r.2 = ts.length then ts.length / 2 else r.2)

/-- The built parts of `PQP_Model` (`PQP_Internal.h`): arrays of bounding volumes and triangles. -/
structure Model where
  bvs : List BV
  numBvs : Nat
  tris : List Tri

/-- `build_recurse` (450-553).  The first argument bounds the depth of the recursion; `none`: bound
hit, an array index out of range, or a fit to no triangles. -/
def buildRec (eig : Eigen) : Nat → Model → Nat → Nat → Nat → Option Model
  | 0, _, _, _, _ => none
  | f + 1, m, bn, first, n =>
    let ts := (m.tris.drop first).take n
    let R := frame eig ts
    match fit R ts with
    | none => none
    | some b =>
      if bn < m.bvs.length then
        if n = 1 then
          some { m with bvs := m.bvs.set bn { b with firstChild := -((first : Int) + 1) } }
        else if n > 1 then
          let s := splitTris ts R.c0 (dot R.c0 (centroid ts))
          let m1 : Model :=
            { bvs := m.bvs.set bn { b with firstChild := m.numBvs }
              numBvs := m.numBvs + 2
              tris := m.tris.take first ++ s.1 ++ m.tris.drop (first + n) }
          match buildRec eig f m1 m.numBvs first s.2 with
          | none => none
          | some m2 =>
            match m2.bvs[bn]? with
            | none => none
            | some b2 => buildRec eig f m2 (b2.firstChild + 1).toNat (first + s.2) (n - s.2)
        else some { m with bvs := m.bvs.set bn b }
      else none

/-- Writing one bounding volume relative to its parent (`Build.cpp` 601-615). -/
def relTo (pR : M3) (pTr pTo : V3) (b : BV) : BV :=
  { b with
    R := tmulM pR b.R
    Tr := tmulV pR (vsub b.Tr pTr)
    To := tmulV pR (vsub b.To pTo) }

/-- `make_parent_relative` (558-615). -/
def makeRel : Nat → List BV → Nat → M3 → V3 → V3 → Option (List BV)
  | 0, _, _, _, _, _ => none
  | f + 1, bvs, bn, pR, pTr, pTo =>
    match bvs[bn]? with
    | none => none
    | some b =>
      if b.leaf then some (bvs.set bn (relTo pR pTr pTo b))
      else
        match makeRel f bvs b.firstChild.toNat b.R b.Tr b.To with
        | none => none
        | some bvs1 =>
          match bvs1[bn]? with
          | none => none
          | some b1 =>
            match makeRel f bvs1 (b1.firstChild + 1).toNat b1.R b1.Tr b1.To with
            | none => none
            | some bvs2 =>
              match bvs2[bn]? with
              | none => none
              | some b2 => some (bvs2.set bn (relTo pR pTr pTo b2))

/-- An element of a new array of bounding volumes; the reals are indeterminate in the program. -/
def rawBV : BV := ⟨one3, zero3, 0, 0, 0, zero3, zero3, 0⟩

/-- `EndModel` (`PQP.cpp` 237-249) for at least one triangle, with `build_model`
(`Build.cpp` 617-642). -/
def buildModel (eig : Eigen) (ts : List Tri) : Option Model :=
  match buildRec eig ts.length ⟨List.replicate (2 * ts.length - 1) rawBV, 1, ts⟩ 0 0 ts.length with
  | none => none
  | some m =>
    match makeRel ts.length m.bvs 0 one3 zero3 zero3 with
    | none => none
    | some bvs => some { m with bvs := bvs }

/-! ### Collision query -/

/-- `BV_Overlap` (`BV.cpp` 357-372). -/
def overlap (R : M3) (T : V3) (b1 b2 : BV) : Bool := obbDisjoint R T b1.d b2.d == 0

/-- `tris[-first_child - 1]` (`PQP.cpp` 641-642). -/
def Model.tri (m : Model) (b : BV) : Option Tri := m.tris[(-b.firstChild - 1).toNat]?

/-- Does the query descend in the first tree? (683) -/
def descendFirst (b1 b2 : BV) : Bool := b2.leaf || (!b1.leaf && decide (b1.size > b2.size))

/-- Testing two triangles (639-657); `RR`, `TT` are `res->R`, `res->T`. -/
def leafTest (RR : M3) (TT : V3) (t1 t2 : Tri) (pairs : List (Int × Int)) : List (Int × Int) :=
  if triContact t1.p1 t1.p2 t1.p3 (mulVpV RR t2.p1 TT) (mulVpV RR t2.p2 TT) (mulVpV RR t2.p3 TT)
  then pairs ++ [(t1.id, t2.id)] else pairs

/-- `CollideRecurse` (613-729).  `firstOnly`: the flag is `PQP_FIRST_CONTACT`.  The first number
bounds the depth of the recursion; `none`: bound hit or an array index out of range. -/
def collideRec (firstOnly : Bool) (RR : M3) (TT : V3) (o1 o2 : Model) :
    Nat → M3 → V3 → Nat → Nat → List (Int × Int) → Option (List (Int × Int))
  | 0, _, _, _, _, _ => none
  | f + 1, R, T, n1, n2, pairs =>
    match o1.bvs[n1]?, o2.bvs[n2]? with
    | some b1, some b2 =>
      if !overlap R T b1 b2 then some pairs
      else if b1.leaf && b2.leaf then
        match o1.tri b1, o2.tri b2 with
        | some t1, some t2 => some (leafTest RR TT t1 t2 pairs)
        | _, _ => none
      else if descendFirst b1 b2 then
        match o1.bvs[b1.firstChild.toNat]?, o1.bvs[b1.firstChild.toNat + 1]? with
        | some k1, some k2 =>
          match collideRec firstOnly RR TT o1 o2 f (tmulM k1.R R) (tmulV k1.R (vsub T k1.To))
              b1.firstChild.toNat n2 pairs with
          | none => none
          | some ps =>
            if firstOnly && decide (ps.length > 0) then some ps
            else collideRec firstOnly RR TT o1 o2 f (tmulM k2.R R) (tmulV k2.R (vsub T k2.To))
              (b1.firstChild.toNat + 1) n2 ps
        | _, _ => none
      else
        match o2.bvs[b2.firstChild.toNat]?, o2.bvs[b2.firstChild.toNat + 1]? with
        | some k1, some k2 =>
          match collideRec firstOnly RR TT o1 o2 f (mulM R k1.R) (mulVpV R k1.To T)
              n1 b2.firstChild.toNat pairs with
          | none => none
          | some ps =>
            if firstOnly && decide (ps.length > 0) then some ps
            else collideRec firstOnly RR TT o1 o2 f (mulM R k2.R) (mulVpV R k2.To T)
              n1 (b2.firstChild.toNat + 1) ps
        | _, _ => none
    | _, _ => none

/-- `PQP_Collide` (731-803) on two built models: the reported pairs of triangle ids. -/
def collide (firstOnly : Bool) (R1 : M3) (T1 : V3) (o1 : Model) (R2 : M3) (T2 : V3) (o2 : Model) :
    Option (List (Int × Int)) :=
  let RR := tmulM R1 R2
  let TT := tmulV R1 (vsub T2 T1)
  match o1.bvs[0]?, o2.bvs[0]? with
  | some b1, some b2 =>
    collideRec firstOnly RR TT o1 o2 (o1.bvs.length + o2.bvs.length)
      (tmulM b1.R (mulM RR b2.R)) (tmulV b1.R (vsub (mulVpV RR b2.To TT) b1.To)) 0 0 []
  | _, _ => none

end

end Simox.Pqp
