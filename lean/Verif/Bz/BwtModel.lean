import Verif.Bz.RleModel

/-!
# bzip2: the Burrows-Wheeler transform

Models the use of the sorted order and the inverse transform in VirtualRobot/Compression/CompressionBZip2.cpp. The sorting
itself (`fallbackSort`, `mainSort`) is given by its result, see `Sorted`.
-/

namespace Simox.Bz

/-- The byte before that at which the sorted rotation starts: `block[j]` with `j = ptr[i] - 1`, plus `nblock` if it is
negative (CompressionBZip2.cpp 551-558). -/
def lastByte (block : List Nat) (p : Nat) : Nat :=
  block.getD (if p = 0 then block.length - 1 else p - 1) 0

/-- The bytes that generateMTFValues codes (CompressionBZip2.cpp 547-558). -/
def lastColumn (block ptr : List Nat) : List Nat := ptr.map (lastByte block)

/-- `origPtr`: the loop at the end of BZ2_blockSort (CompressionBZip2.cpp 1494-1503); the length of `ptr` if there is no
zero, where the code stops. -/
def origPtr (ptr : List Nat) : Nat := ptr.findIdx (· == 0)

/-- The loop `for (i = 1; i <= n; i++) f[i] += f[i - 1]` (CompressionBZip2.cpp 3785-3788, 6140-6143). -/
def cumulate (n : Nat) (f : Nat → Nat) : Nat → Nat :=
  (List.range n).foldl (fun g (i : Nat) => upd g (i + 1) (g (i + 1) + g i)) f

/-- `cftab` before the loop that uses it (CompressionBZip2.cpp 3777-3788). `unzftab[i]` is the number of `i` in the block
(3558-3561, 3627, 3741). The checks that the entries are in range and not descending (3768-3775, 3790-3807) are left out:
they hold, see `cumul_le`, `cumul_mono`. -/
def cftab (tt : List Nat) : Nat → Nat :=
  cumulate 256 fun i => if i = 0 then 0 else tt.count (i - 1)

/-- One turn of the loop that links the bytes (CompressionBZip2.cpp 3873-3875): `cftab`, and the upper 24 bits of the
elements of `tt`. -/
def linkStep (s : (Nat → Nat) × (Nat → Nat)) (x : Nat × Nat) : (Nat → Nat) × (Nat → Nat) :=
  (upd s.1 x.1 (s.1 x.1 + 1), upd s.2 (s.1 x.1) (s.2 (s.1 x.1) ||| x.2))

/-- The upper 24 bits of the elements of `tt` after the loop (CompressionBZip2.cpp 3870-3876), for a block with these
bytes. -/
def links (tt : List Nat) : Nat → Nat := (tt.zipIdx.foldl linkStep (cftab tt, fun _ => 0)).2

/-- `BZ_GET_FAST_C`, `BZ_GET_FAST` (CompressionBZip2.cpp 155-167): `tPos` is tested against the size of `tt`. Elements of `tt` after those
of the block are zero here; they are never read (`C91_in_range`). -/
def getFast (size : Nat) (tt : List Nat) (tPos : Nat) : Option (Nat × Nat) :=
  if size ≤ tPos then none else some (tt.getD tPos 0, links tt tPos)

end Simox.Bz
