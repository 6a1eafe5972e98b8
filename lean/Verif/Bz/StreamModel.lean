import Verif.Bz.BlockModel

/-!
# bzip2: streams

Models the compression of all input (BZ2_bzWrite, BZ2_bzWriteClose, BZ2_bzCompress, handle_compress, BZ2_compressBlock) and the
decompression of a stream (BZ2_bzRead, BZ2_bzDecompress, BZ2_decompress) in VirtualRobot/Compression/CompressionBZip2.cpp.

Not modelled: that input and output go through buffers of limited size, so that the functions return and go on when they are
called again; the decompression with less memory (`smallDecompress`), which nothing in the repository asks for; and blocks that
are randomised, which the compressor never makes.
-/

namespace Simox.Bz

/-! ## Compression -/

/-- The compressor: the run-length coding, `combinedCRC`, whether `blockNo` is 1, and the arguments of the calls of `bsW` so
far. -/
structure Enc where
  run : EncRun
  all : Nat
  first : Bool
  fields : List Field

/-- The state after BZ2_bzCompressInit (CompressionBZip2.cpp 4075-4170): `combinedCRC` is 0 and `blockNo` is 1. -/
def Enc.start : Enc := ⟨.start, 0, true, []⟩

/-- The header of the stream (CompressionBZip2.cpp 1349-1356). -/
def headerFields (size100k : Nat) : List Field := [0x42, 0x5a, 0x68, 0x30 + size100k].flatMap putUChar

/-- The end of the stream (CompressionBZip2.cpp 1389-1396). -/
def trailerFields (all : Nat) : List Field := [0x17, 0x72, 0x45, 0x38, 0x50, 0x90].flatMap putUChar ++ putUInt32 all

/-- BZ2_compressBlock (CompressionBZip2.cpp 1324-1405) without the end of the stream: `sort` is BZ2_blockSort, which gives the
order of the rotations (`ptr`). `none` if the tables are not found. -/
def Enc.compressBlock (sort : List Nat → List Nat) (size100k : Nat) (s : Enc) : Option Enc :=
  let header := if s.first then headerFields size100k else []
  if s.run.block = [] then some { s with first := false, fields := s.fields ++ header }
  else
    let crc := crcFinal s.run.crc
    (blockFields crc s.run.inUse s.run.block (sort s.run.block)).map fun fs =>
      { s with all := crcCombine s.all crc, first := false, fields := s.fields ++ header ++ fs }

/-- A byte of the input (copy_input_until_stop, CompressionBZip2.cpp 4705-4778), and a block if it is full then
(handle_compress, 4632-4691). `nblockMAX` is `100000 * blockSize100k - 19` (4148). -/
def Enc.byte (sort : List Nat → List Nat) (size100k : Nat) (s : Enc) (c : Nat) : Option Enc :=
  let s := { s with run := s.run.addChar c }
  if 100000 * size100k - 19 ≤ s.run.block.length then
    (s.compressBlock sort size100k).map fun s => { s with run := s.run.newBlock }
  else some s

/-- The input, one byte after the other. -/
def Enc.bytes (sort : List Nat → List Nat) (size100k : Nat) : Enc → List Nat → Option Enc
  | s, [] => some s
  | s, c :: l => (s.byte sort size100k c).bind fun s => s.bytes sort size100k l

/-- What BZ2_bzWrite and BZ2_bzWriteClose write for an input (CompressionBZip2.cpp 4227-4404): at the end the pending run is
flushed, and the last block and the end of the stream are written (4667-4672). -/
def compress (sort : List Nat → List Nat) (size100k : Nat) (input : List Nat) : Option (List Nat) :=
  (Enc.start.bytes sort size100k input).bind fun s =>
    (Enc.compressBlock sort size100k { s with run := s.run.flushRL }).map fun s => writeAll (s.fields ++ trailerFields s.all)

/-! ## Decompression -/

/-- What is done with a block that was read (CompressionBZip2.cpp 3866-3893, unRLE_obuf_to_output_FAST): the output, or `none` if
the block is corrupt. -/
def expand (size100k : Nat) (b : DBlock) : Option (List Nat) :=
  match getFast (100000 * size100k) b.tt (links b.tt b.origPtr) with
  | none => none
  | some (k0, tPos) => unrle (getFast (100000 * size100k) b.tt) (b.tt.length + 1) (b.tt.length + 2) ⟨k0, 1, tPos, []⟩

/-- The loop of BZ2_bzDecompress (CompressionBZip2.cpp 5145-5224) with the part of BZ2_decompress that tells blocks and the end
apart (3296-3306, 3901-3949), with a bound for the number of blocks. `all` is `calculatedCombinedCRC`, `out` the output so far. -/
def getBlocks (size100k : Nat) : Nat → Nat → List Nat → Dec (List Nat)
  | 0, _, _ => fun _ => .more
  | n + 1, all, out =>
    getBits 8 >>= fun uc =>
    if uc = 0x17 then
      expects [0x72, 0x45, 0x38, 0x50, 0x90] >>= fun _ =>
      getBytes 4 0 >>= fun stored =>
      if all ≠ stored then Dec.fail else pure out
    else if uc ≠ 0x31 then Dec.fail
    else
      getBlock size100k >>= fun b =>
      match expand size100k b with
      | none => Dec.fail
      | some x => if crcOf x ≠ b.crc then Dec.fail else getBlocks size100k n (crcCombine all (crcOf x)) (out ++ x)

/-- The blocks to the end of the stream. A block takes more than a bit, which gives the bound for their number
(`C95_fuel`). -/
def allBlocks (size100k : Nat) : Dec (List Nat) := fun bs => getBlocks size100k (bs.length + 1) 0 [] bs

/-- The decompression of a stream (CompressionBZip2.cpp 3243-3294 and the above). -/
def getStream : Dec (List Nat) :=
  expects [0x42, 0x5a, 0x68] >>= fun _ =>
  getBits 8 >>= fun c =>
  if c < 0x30 + 1 ∨ 0x30 + 9 < c then Dec.fail else allBlocks (c - 0x30)

/-- The output for a file with these bytes. -/
def decompress (bytes : List Nat) : Res (List Nat) := getStream (byteBits bytes)

end Simox.Bz
