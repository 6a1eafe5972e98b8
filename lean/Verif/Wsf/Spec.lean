import Verif.Wsf.Model
import Verif.Workspace.Spec

/-!
# Specification of workspace files
-/

namespace Simox.Wsf.Spec

open Workspace

/-- What is assumed of the compression algorithm for the bytes `x`: `n` bytes of the stream (a few less than
all: the rest is the end mark with the checksum, 80 bits) determine the output, which then is `x`; the
output grows with the input; no error is detected; the stream ends exactly at its end; it starts with
`BZh9`. -/
structure Stream (c : Codec) (x : List UInt8) (n : Nat) : Prop where
  lt : n < (c.enc x).length
  trailer : (c.enc x).length ≤ n + 10
  mono : ∀ j k, j ≤ k → k ≤ (c.enc x).length →
    c.decoded ((c.enc x).take j) <+: c.decoded ((c.enc x).take k)
  all : c.decoded ((c.enc x).take n) = x
  full : c.decoded (c.enc x) = x
  needs : ∀ k < n, c.decoded ((c.enc x).take k) ≠ x
  good : ∀ k ≤ (c.enc x).length, c.bad ((c.enc x).take k) = false
  ended : ∀ k ≤ (c.enc x).length, (c.ended ((c.enc x).take k) = true ↔ k = (c.enc x).length)
  magic : (c.enc x).take 4 = [0x42, 0x5a, 0x68, 0x39]

/-- A string that survives writing and reading. -/
def Plain (s : Str) : Prop := s ≠ [] ∧ 0 ∉ s ∧ s.length < 2 ^ 31

/-- An `int`. -/
def IsInt (x : Int) : Prop := -2 ^ 31 ≤ x ∧ x < 2 ^ 31

/-- All voxel entries in loop order, position by position. -/
def contents (w : WDA) : List UInt8 := (grid w.sizes).flatMap (savedBlock w)

/-- The orientation type of the files of a version: RPY angles before 2.6, then Euler angles, extrinsic Euler
angles from 2.7, Hopf coordinates from 2.8. -/
def orientationFor (v : Int × Int) : Orientation :=
  if Before v (2, 6) then .RPY
  else if Before v (2, 7) then .EulerXYZ
  else if Before v (2, 8) then .EulerXYZExtrinsic
  else .Hopf
where
  /-- An earlier version. -/
  Before (v u : Int × Int) : Bool := v.1 < u.1 ∨ (v.1 = u.1 ∧ v.2 < u.2)

/-- The versions there have been. -/
def versions : List (Int × Int) :=
  [(1, 0), (1, 2), (1, 3), (2, 0), (2, 1), (2, 2), (2, 3), (2, 4), (2, 5), (2, 6), (2, 7), (2, 8), (2, 9)]

/-- The types every representation accepts. -/
def knownTypes : List Str :=
  ["WorkspaceRepresentation", "Reachability", "Reachbaility", "Manipulability", "ReachabilitySpace"].map
    fun s => ascii s.toList

/-- A representation as it is after `initialize` and recording (or after `load`): its names are those of the
robot, its numbers are in range, its data has the sizes of the grid. -/
structure Sound (sub : F → F → F) (robot : Robot) (type : Str) (limits : List (F × F)) (m : Members)
    (w : WDA) : Prop where
  fileType : Plain (type ++ binaryFile)
  robotType : Plain robot.type
  nodeSet : Plain m.nodeSet ∧ robot.nodeSet m.nodeSet = some limits ∧ limits.length < 2 ^ 31
  tcp : Plain m.tcp ∧ robot.hasNode m.tcp = true
  base : ∀ b, m.base = some b → Plain b ∧ robot.hasNode b = true
  staticModel : ∀ s, m.staticModel = some s → Plain s ∧ s ≠ notSet ∧ (robot.nodeSet s).isSome
  dynamicModel : ∀ s, m.dynamicModel = some s → Plain s ∧ s ≠ notSet ∧ (robot.nodeSet s).isSome
  version : IsInt m.versionMajor ∧ IsInt m.versionMinor
  orientation : m.orientation = orientationFor (m.versionMajor, m.versionMinor)
  loops : IsInt m.loops ∧ IsInt m.collisions
  num : ∀ i, 0 < m.num i ∧ m.num i < 2 ^ 31
  space : ∀ i, m.space i = sub (m.hi i) (m.lo i)
  sizes : w.sizes =
    ⟨(m.num 0).toNat, (m.num 1).toNat, (m.num 2).toNat, (m.num 3).toNat, (m.num 4).toNat, (m.num 5).toNat⟩
  counts : w.filled < 2 ^ 31 ∧ w.maxEntry ≤ 255
  bytes : ∀ p blk, w.data p = some blk → ∀ i, blk i ≤ 255

/-- The number of voxels. -/
def voxelCount (m : Members) : Int := m.num 0 * m.num 1 * m.num 2 * m.num 3 * m.num 4 * m.num 5

/-- The two halves of the index fit 32 bits. -/
def Addressable (m : Members) : Prop :=
  m.num 0 * m.num 1 * m.num 2 < 2 ^ 32 ∧ m.num 3 * m.num 4 * m.num 5 < 2 ^ 31

/-- The data of a file in the format of an older version, as far as `load` knows them: the plain bytes (up
to 1.2), run-length compressed bytes (1.3 and 2.0: pairs of count and value, 2.1 to 2.3: the other
scheme), one compressed block per position (2.4). Sizes come before the bytes. -/
inductive OldData (w : WDA) : Int → Int → List UInt8 → Prop where
  | plain (v1 : Int) : 0 < v1 → v1 ≤ 2 → OldData w 1 v1 (contents w)
  | pairs (v0 v1 : Int) (z : List UInt8) : (v0 = 1 ∧ v1 = 3) ∨ (v0 = 2 ∧ v1 = 0) →
      compressData (contents w) = .ok z → OldData w v0 v1 (le32 z.length ++ z)
  | whole (v1 : Int) (z : List UInt8) : 1 ≤ v1 → v1 ≤ 3 → Rle.compress (contents w) = .bytes z →
      z.length < 2 ^ 31 → OldData w 2 v1 (le32 z.length ++ z)
  | blocks (z : Nat × Nat × Nat → List UInt8) : 3 * allocRot w.sizes < 2 ^ 31 →
      (∀ p ∈ grid w.sizes, Rle.compress (savedBlock w p) = .bytes (z p) ∧ (z p).length < 2 ^ 31) →
      OldData w 2 4 ((grid w.sizes).flatMap fun p => le32 (z p).length ++ z p)

/-- Is a multiple of the buffer size in the range? -/
def HasMultiple (lo hi : Nat) : Prop := ∃ j, lo ≤ chunk * j ∧ chunk * j < hi

/-- The maximal runs of equal bytes: value and length. -/
def runs : List UInt8 → List (UInt8 × Nat)
  | [] => []
  | x :: l =>
    match runs l with
    | [] => [(x, 1)]
    | (y, k) :: rs => if x = y then (y, k + 1) :: rs else (x, 1) :: (y, k) :: rs

/-- The number of pairs of count and value needed, where counts go up to 255. -/
def pairCount (l : List UInt8) : Nat := ((runs l).map fun r => (r.2 + 254) / 255).sum

end Simox.Wsf.Spec
