/-!
# bzip2: bits

Models the reading and writing of bits in VirtualRobot/Compression/CompressionBZip2.cpp.
-/

namespace Simox.Bz

/-- The `n` low bits of `v`, the highest first. -/
def toBits : Nat → Nat → List Bool
  | 0, _ => []
  | n + 1, v => v.testBit n :: toBits n v

/-- The number whose bits are given, the highest first. -/
def ofBits (bs : List Bool) : Nat := bs.foldl (fun a b => 2 * a + b.toNat) 0

/-- The bits of a list of bytes. -/
def byteBits (l : List Nat) : List Bool := l.flatMap (toBits 8)

/-! ## Writing -/

/-- The part of `EState` that bits are written to: `bsBuff` (an unsigned 32 bit number), `bsLive` and the bytes in
`zbits` (CompressionBZip2.h 181-182). -/
structure BitW where
  buff : Nat
  live : Nat
  out : List Nat
  deriving DecidableEq

/-- `BZ2_bsInitWrite` (CompressionBZip2.cpp 423-427). -/
def BitW.start : BitW := ⟨0, 0, []⟩

/-- One turn of the loop of `bsNEEDW`: the top byte of the buffer is written (CompressionBZip2.cpp 446-452). -/
def BitW.byte (w : BitW) : BitW := ⟨w.buff <<< 8 % 2 ^ 32, w.live - 8, w.out ++ [w.buff >>> 24 % 256]⟩

/-- `bsNEEDW` (CompressionBZip2.cpp 444-453). -/
def BitW.need (w : BitW) : BitW :=
  if _h : 8 ≤ w.live then w.byte.need else w
termination_by w.live
decreasing_by simp [BitW.byte]; omega

/-- `bsW` (CompressionBZip2.cpp 457-462). -/
def bsW (w : BitW) (n v : Nat) : BitW :=
  let w := w.need
  ⟨w.buff ||| (v <<< (32 - w.live - n)) % 2 ^ 32, w.live + n, w.out⟩

/-- `bsFinishWrite` (CompressionBZip2.cpp 431-440). `bsLive` is signed there and may become negative; the loop ends
all the same. -/
def BitW.finish (w : BitW) : BitW :=
  if _h : 0 < w.live then w.byte.finish else w
termination_by w.live
decreasing_by simp [BitW.byte]; omega

/-- A number to be written, with the number of bits it takes: the arguments of `bsW`. -/
abbrev Field := Nat × Nat

/-- `bsPutUChar` (CompressionBZip2.cpp 476-479). -/
def putUChar (c : Nat) : List Field := [(8, c)]

/-- `bsPutUInt32` (CompressionBZip2.cpp 466-472). -/
def putUInt32 (u : Nat) : List Field :=
  [(8, u >>> 24 % 256), (8, u >>> 16 % 256), (8, u >>> 8 % 256), (8, u % 256)]

/-- The state after some calls of `bsW`. -/
def writeFields (w : BitW) (fs : List Field) : BitW := fs.foldl (fun w f => bsW w f.1 f.2) w

/-- The bytes in `zbits` after some calls of `bsW`, followed by `bsFinishWrite`. The bytes of a block are taken out of
`zbits` when the block is done, while `bsBuff` and `bsLive` go on (BZ2_compressBlock, CompressionBZip2.cpp 1343-1346,
copy_output_until_stop, 4784-4816): here they stay in one list. -/
def writeAll (fs : List Field) : List Nat := (writeFields .start fs).finish.out

/-! ## Reading -/

/-- The part of `DState` that bits are read from: `bsBuff` (an unsigned 32 bit number), `bsLive` and the input
(CompressionBZip2.h 224-225; `strm->next_in`). -/
structure BitR where
  buff : Nat
  live : Nat
  inp : List Nat
  deriving DecidableEq

/-- `GET_BITS` (CompressionBZip2.cpp 3087-3109): the state afterwards, and the number or `none` if the input is used up,
in which case the function returns to get more. -/
def bufGet (n : Nat) (buff live : Nat) : List Nat → Option Nat × BitR
  | [] => if n ≤ live then (some (buff >>> (live - n) % 2 ^ n), ⟨buff, live - n, []⟩) else (none, ⟨buff, live, []⟩)
  | b :: inp =>
    if n ≤ live then (some (buff >>> (live - n) % 2 ^ n), ⟨buff, live - n, b :: inp⟩)
    else bufGet n ((buff <<< 8 % 2 ^ 32) ||| b) (live + 8) inp

/-- What a function that reads bits gives: a value and the rest of the bits; the input does not suffice; an error code
is returned; memory outside an array is written or read; a block is randomised (which is not modelled). -/
inductive Res (α : Type) where
  | ok (a : α) (rest : List Bool)
  | more
  | err
  | ub
  | random
  deriving DecidableEq

/-- A function that reads bits. -/
def Dec (α : Type) := List Bool → Res α

def Dec.pure {α : Type} (a : α) : Dec α := fun bs => .ok a bs

def Dec.bind {α β : Type} (x : Dec α) (f : α → Dec β) : Dec β := fun bs =>
  match x bs with
  | .ok a rest => f a rest
  | .more => .more
  | .err => .err
  | .ub => .ub
  | .random => .random

instance : Monad Dec where
  pure := Dec.pure
  bind := Dec.bind

/-- `RETURN(BZ_DATA_ERROR)` and the like (CompressionBZip2.cpp 3084-3085). -/
def Dec.fail {α : Type} : Dec α := fun _ => .err

/-- An access outside an array. -/
def Dec.undef {α : Type} : Dec α := fun _ => .ub

/-- A branch that is not modelled. -/
def Dec.randomised {α : Type} : Dec α := fun _ => .random

/-- `GET_BITS` on a list of bits (CompressionBZip2.cpp 3087-3109): see `bufGet`, of which it is the abstraction
(`C89_reader`). That the function can be called again with more input is not part of this: all input is there at
once. -/
def getBits (n : Nat) : Dec Nat := fun bs =>
  if n ≤ bs.length then .ok (ofBits (bs.take n)) (bs.drop n) else .more

/-- An element of an array that must be there. -/
def Dec.ofOption {α : Type} : Option α → Dec α
  | some a => Dec.pure a
  | none => Dec.undef

end Simox.Bz
