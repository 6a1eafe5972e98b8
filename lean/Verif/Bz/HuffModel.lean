import Verif.Bz.BwtModel

/-!
# bzip2: Huffman codes

Models BZ2_hbMakeCodeLengths, BZ2_hbAssignCodes, BZ2_hbCreateDecodeTables and GET_MTF_VAL in
VirtualRobot/Compression/CompressionBZip2.cpp.
-/

namespace Simox.Bz

/-! ## Lengths of codes -/

/-- The arrays and counters of BZ2_hbMakeCodeLengths; `none` is a negative parent (CompressionBZip2.cpp 5978-5983). -/
structure HState where
  heap : Nat → Nat
  weight : Nat → Nat
  parent : Nat → Option Nat
  nNodes : Nat
  nHeap : Nat

/-- ADDWEIGHTS (CompressionBZip2.cpp 5931-5937): the weights are in the upper 24 bits, the depths in the lower 8. -/
def addWeights (a b : Nat) : Nat := (a - a % 256 + (b - b % 256)) ||| (1 + max (a % 256) (b % 256))

/-- The loop of UPHEAP (CompressionBZip2.cpp 5943-5947). The test for 0 is not in the code: `weight[heap[0]]` is 0, and so
nothing is smaller. -/
def upLoop (w : Nat → Nat) (tmp : Nat) (heap : Nat → Nat) (zz : Nat) : Nat → Nat :=
  if 0 < zz ∧ w tmp < w (heap (zz / 2)) then upLoop w tmp (upd heap zz (heap (zz / 2))) (zz / 2)
  else upd heap zz tmp
termination_by zz

/-- UPHEAP (CompressionBZip2.cpp 5939-5948). -/
def upHeap (w : Nat → Nat) (heap : Nat → Nat) (z : Nat) : Nat → Nat := upLoop w (heap z) heap z

/-- The loop of DOWNHEAP (CompressionBZip2.cpp 5954-5964). -/
def downLoop (w : Nat → Nat) (nHeap tmp : Nat) (heap : Nat → Nat) (zz : Nat) : Nat → Nat :=
  if _h : 0 < zz ∧ 2 * zz ≤ nHeap then
    let yy := if 2 * zz < nHeap ∧ w (heap (2 * zz + 1)) < w (heap (2 * zz)) then 2 * zz + 1 else 2 * zz
    if w tmp < w (heap yy) then upd heap zz tmp
    else downLoop w nHeap tmp (upd heap zz (heap yy)) yy
  else upd heap zz tmp
termination_by nHeap - zz
decreasing_by split <;> omega

/-- DOWNHEAP (CompressionBZip2.cpp 5950-5965). -/
def downHeap (w : Nat → Nat) (nHeap : Nat) (heap : Nat → Nat) (z : Nat) : Nat → Nat :=
  downLoop w nHeap (heap z) heap z

/-- A node is added to the heap (CompressionBZip2.cpp 6002-6005, 6023-6026). -/
def HState.push (s : HState) (node : Nat) : HState :=
  { s with
    parent := upd s.parent node none
    nHeap := s.nHeap + 1
    heap := upHeap s.weight (upd s.heap (s.nHeap + 1) node) (s.nHeap + 1) }

/-- The smallest node is taken out of the heap (CompressionBZip2.cpp 6012-6015, 6016-6019). -/
def HState.pop (s : HState) : HState :=
  { s with
    nHeap := s.nHeap - 1
    heap := downHeap s.weight (s.nHeap - 1) (upd s.heap 1 (s.heap s.nHeap)) 1 }

/-- Two nodes are joined (CompressionBZip2.cpp 6012-6026). -/
def HState.merge (s : HState) : HState :=
  let n1 := s.heap 1
  let s1 := s.pop
  let n2 := s1.heap 1
  let s2 := s1.pop
  let m := s.nNodes + 1
  HState.push { s2 with
    nNodes := m
    parent := upd (upd s2.parent n2 (some m)) n1 (some m)
    weight := upd s2.weight m (addWeights (s2.weight n1) (s2.weight n2)) } m

/-- The loop that joins nodes until one is left (CompressionBZip2.cpp 6010-6027). -/
def mergeLoop (s : HState) : HState :=
  if _h : 1 < s.nHeap then mergeLoop s.merge else s
termination_by s.nHeap
decreasing_by simp [HState.merge, HState.push, HState.pop]; omega

/-- The heap at the start, with all symbols (CompressionBZip2.cpp 5993-6006). The parent of node 0 is negative too. -/
def heapStart (alphaSize : Nat) (weight : Nat → Nat) : HState :=
  (List.range alphaSize).foldl (fun s (i : Nat) => s.push (i + 1))
    ⟨fun _ => 0, upd weight 0 0, fun _ => none, alphaSize, 0⟩

/-- The loop that counts the steps to the root (CompressionBZip2.cpp 6035-6042), with a bound for the number of steps: a
parent has a larger number (`C93_kraft`). -/
def climb (parent : Nat → Option Nat) : Nat → Nat → Nat
  | 0, _ => 0
  | n + 1, k =>
    match parent k with
    | some p => climb parent n p + 1
    | none => 0

/-- The lengths for given weights: a turn of the outer loop (CompressionBZip2.cpp 5990-6050). -/
def lensOf (alphaSize : Nat) (weight : Nat → Nat) : List Nat :=
  let s := mergeLoop (heapStart alphaSize weight)
  (List.range alphaSize).map fun i => climb s.parent (2 * alphaSize) (i + 1)

/-- The weights of the symbols at the start (CompressionBZip2.cpp 5985-5988). -/
def startWeight (freq : Nat → Nat) (i : Nat) : Nat := (if freq (i - 1) = 0 then 1 else freq (i - 1)) <<< 8

/-- The weights are scaled (CompressionBZip2.cpp 6074-6079). -/
def scaleWeight (weight : Nat → Nat) (i : Nat) : Nat := (1 + (weight i >>> 8) / 2) <<< 8

/-- BZ2_hbMakeCodeLengths (CompressionBZip2.cpp 5969-6082): the weights are scaled until no code is too long. The number of
turns is bounded here; `none` if it does not suffice. -/
def makeLens (alphaSize maxLen : Nat) : Nat → (Nat → Nat) → Option (List Nat)
  | 0, _ => none
  | n + 1, weight =>
    let lens := lensOf alphaSize weight
    if ∀ l ∈ lens, l ≤ maxLen then some lens else makeLens alphaSize maxLen n (scaleWeight weight)

/-! ## Codes -/

/-- The numbers from `a` to `b`. -/
def fromTo (a b : Nat) : List Nat := List.range' a (b + 1 - a)

/-- The inner loop of BZ2_hbAssignCodes for the length `n` (CompressionBZip2.cpp 6097-6102). -/
def assignInner (lens : List Nat) (n : Nat) (s : Nat × (Nat → Nat)) : Nat × (Nat → Nat) :=
  lens.zipIdx.foldl (fun s x => if x.1 = n then (s.1 + 1, upd s.2 x.2 s.1) else s) s

/-- BZ2_hbAssignCodes (CompressionBZip2.cpp 6085-6106). -/
def assignCodes (lens : List Nat) (minLen maxLen : Nat) : Nat → Nat :=
  ((fromTo minLen maxLen).foldl (fun s n => (2 * (assignInner lens n s).1, (assignInner lens n s).2))
    (0, fun _ => 0)).2

/-- The tables for decoding: `limit`, `base`, `perm` and `minLens` (CompressionBZip2.h 268-271). Only the elements of `perm`
that are set are in the list. -/
structure Table where
  limit : Nat → Int
  base : Nat → Int
  perm : List Nat
  minLen : Nat

/-- BZ2_hbCreateDecodeTables (CompressionBZip2.cpp 6110-6163), with `minLen` (3548). BZ_MAX_CODE_LEN is 23. -/
def createTable (lens : List Nat) (minLen maxLen : Nat) : Table :=
  let perm := (fromTo minLen maxLen).flatMap fun n => (lens.zipIdx.filter fun x => x.1 == n).map Prod.snd
  let base0 : Nat → Nat := lens.foldl (fun b l => upd b (l + 1) (b (l + 1) + 1)) fun _ => 0
  let base1 : Nat → Nat := cumulate 22 base0
  let limit : Nat → Int := ((fromTo minLen maxLen).foldl (fun (s : Int × (Nat → Int)) i =>
    let vec := s.1 + ((base1 (i + 1) : Int) - base1 i)
    (vec * 2, upd s.2 i (vec - 1))) (0, fun _ => 0)).2
  let base : Nat → Int := (fromTo (minLen + 1) maxLen).foldl (fun (b : Nat → Int) i =>
    upd b i ((limit (i - 1) + 1) * 2 - b i)) fun i => (base1 i : Int)
  ⟨limit, base, perm, minLen⟩

/-- The shortest and the longest length, starting from 32 and 0 (CompressionBZip2.cpp 1089-1103, 3525-3539). -/
def minLen (lens : List Nat) : Nat := lens.foldl (fun m l => if l < m then l else m) 32

/-- See `minLen`. -/
def maxLen (lens : List Nat) : Nat := lens.foldl (fun m l => if m < l then l else m) 0

/-- The codes for given lengths (CompressionBZip2.cpp 1086-1108; the assertions are `C93_usable`). -/
def codesOf (lens : List Nat) : Nat → Nat := assignCodes lens (minLen lens) (maxLen lens)

/-- The table for given lengths (CompressionBZip2.cpp 3523-3549). -/
def tableOf (lens : List Nat) : Table := createTable lens (minLen lens) (maxLen lens)

/-- The loop of GET_MTF_VAL (CompressionBZip2.cpp 3134-3145): `zn` bits have been read, their value is `zvec`. An element of
`perm` that was not set is not defined. -/
def symLoop (t : Table) (zn zvec : Nat) : Dec Nat :=
  if _h : 20 < zn then Dec.fail
  else if (zvec : Int) ≤ t.limit zn then
    if (zvec : Int) - t.base zn < 0 ∨ 258 ≤ (zvec : Int) - t.base zn then Dec.fail
    else Dec.ofOption t.perm[((zvec : Int) - t.base zn).toNat]?
  else getBits 1 >>= fun zj => symLoop t (zn + 1) (2 * zvec + zj)
termination_by 21 - zn

/-- The next symbol: GET_MTF_VAL without the choice of the table (CompressionBZip2.cpp 3132-3145). -/
def decodeSym (t : Table) : Dec Nat := getBits t.minLen >>= fun zvec => symLoop t t.minLen zvec

end Simox.Bz
