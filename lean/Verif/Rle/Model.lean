/-!
# Model of `VirtualRobot/Compression/CompressionRLE.cpp`

Bytes (`unsigned char`) are `UInt8`; `unsigned int` counters are `Nat` (no counter exceeds 32768,
no position exceeds the buffer size).  The C++ code walks over `in[0 .. insize)` with an index
`inpos`; the model carries the not-yet-read suffix `in[inpos ..]` as a list, so that the test
`inpos < insize` is "the suffix is not empty" and `in[inpos++]` takes its head.  Writing
`out[idx++] = x` is appending to the output list.  Reading beyond `insize` is the outcome `none`
("undefined behaviour").  The global mutex is not modelled (both functions only use local state).
-/

namespace Simox.Rle

/-- `_RLE_WriteRep`, CompressionRLE.cpp 85-122: the bytes appended for `count` repetitions of
`symbol`. -/
def writeRep (marker symbol : UInt8) (count : Nat) : List UInt8 :=
  if count ≤ 3 then
    if symbol = marker then
      [marker, UInt8.ofNat (count - 1)]
    else
      List.replicate count symbol
  else
    let c := count - 1
    (marker :: (if c ≥ 128 then [UInt8.ofNat ((c >>> 8) ||| 0x80)] else []))
      ++ [UInt8.ofNat (c &&& 0xff), symbol]

/-- `_RLE_WriteNonRep`, CompressionRLE.cpp 131-149. -/
def writeNonRep (marker symbol : UInt8) : List UInt8 :=
  if symbol = marker then [marker, 0] else [symbol]

/-- Histogram construction, CompressionRLE.cpp 183-192: `++histogram[in[i]]` for every `i`. -/
def histogram (inp : List UInt8) : UInt8 → Nat :=
  inp.foldl (fun h b => fun x => if x = b then h x + 1 else h x) (fun _ => 0)

/-- Marker selection, CompressionRLE.cpp 194-203: `marker = 0; for i in 1..255:
if (histogram[i] < histogram[marker]) marker = i`. -/
def chooseMarker (h : UInt8 → Nat) : UInt8 :=
  (List.range' 1 255).foldl
    (fun m i => if h (UInt8.ofNat i) < h m then UInt8.ofNat i else m) 0

/-- Inner loop, CompressionRLE.cpp 226-231:
`while (inpos < insize && byte1 == byte2 && count < 32768) { byte2 = in[inpos++]; ++count; }`.
Returns the final `byte2`, `count` and unread input. -/
def runLoop (b1 b2 : UInt8) (count : Nat) : List UInt8 → UInt8 × Nat × List UInt8
  | [] => (b2, count, [])
  | x :: rest =>
    if b1 = b2 ∧ count < 32768 then runLoop b1 x (count + 1) rest
    else (b2, count, x :: rest)

/-- Local variables of the main compression loop (CompressionRLE.cpp 209-269). -/
structure St where
  byte1 : UInt8
  byte2 : UInt8
  count : Nat
  rest  : List UInt8

/-- CompressionRLE.cpp 262-266: `if (inpos < insize) { byte2 = in[inpos++]; count = 2; }`. -/
def fetch (s : St) : St :=
  match s.rest with
  | [] => s
  | x :: r => { s with byte2 := x, count := 2, rest := r }

/-- One pass through the `do` body, CompressionRLE.cpp 222-267, with the bytes it appends. -/
def body (marker : UInt8) (s : St) : List UInt8 × St :=
  if s.byte1 = s.byte2 then
    let (b2, count, rest) := runLoop s.byte1 s.byte2 s.count s.rest
    if s.byte1 = b2 then
      let emitted := writeRep marker s.byte1 count
      match rest with
      | x :: r => (emitted, fetch { byte1 := x, byte2 := b2, count := 1, rest := r })
      | [] => (emitted, fetch { byte1 := s.byte1, byte2 := b2, count := 0, rest := [] })
    else
      (writeRep marker s.byte1 (count - 1),
        fetch { byte1 := b2, byte2 := b2, count := 1, rest := rest })
  else
    (writeNonRep marker s.byte1,
      fetch { byte1 := s.byte2, byte2 := s.byte2, count := 1, rest := s.rest })

/-- `do { body } while ((inpos < insize) || (count >= 2))`, CompressionRLE.cpp 221-268, followed by
the flush of the last byte, 271-275.  `fuel` bounds the number of iterations; `compress` supplies
the input length, and `compress_fuel_irrelevant` proves that this is never the reason to stop. -/
def mainLoop (marker : UInt8) : Nat → St → Option (List UInt8)
  | 0, _ => none
  | fuel + 1, s =>
    let (emitted, s') := body marker s
    if s'.rest ≠ [] ∨ s'.count ≥ 2 then
      (mainLoop marker fuel s').map (emitted ++ ·)
    else
      some (emitted ++ (if s'.count = 1 then writeNonRep marker s'.byte1 else []))

/-- Result of a call. `outOfFuel` is never produced (see `Lemmas.lean`). -/
inductive Result where
  | bytes (l : List UInt8)
  | outOfFuel
  deriving DecidableEq

/-- `RLE_Compress`, CompressionRLE.cpp 167-278 (return value: the bytes `out[0 .. outpos)`). -/
def compress (inp : List UInt8) : Result :=
  match inp with
  | [] => .bytes []
  | b1 :: r1 =>
    let marker := chooseMarker (histogram inp)
    match r1 with
    | [] => .bytes (marker :: writeNonRep marker b1)
    | b2 :: r2 =>
      match mainLoop marker inp.length { byte1 := b1, byte2 := b2, count := 2, rest := r2 } with
      | some l => .bytes (marker :: l)
      | none => .outOfFuel

/-- Main decompression loop, CompressionRLE.cpp 311-350.  `none` = the loop reads
`in[inpos]` with `inpos >= insize` (undefined behaviour). -/
def uncompressLoop (marker : UInt8) : List UInt8 → Option (List UInt8)
  | [] => none
  | symbol :: r =>
    if symbol = marker then
      match r with
      | [] => none
      | c :: r2 =>
        if c.toNat ≤ 2 then
          let emitted := List.replicate (c.toNat + 1) marker
          if r2 = [] then some emitted
          else (uncompressLoop marker r2).map (emitted ++ ·)
        else if c.toNat &&& 0x80 ≠ 0 then
          match r2 with
          | lo :: sym :: r3 =>
            let emitted := List.replicate (((c.toNat &&& 0x7f) <<< 8) + lo.toNat + 1) sym
            if r3 = [] then some emitted
            else (uncompressLoop marker r3).map (emitted ++ ·)
          | _ => none
        else
          match r2 with
          | sym :: r3 =>
            let emitted := List.replicate (c.toNat + 1) sym
            if r3 = [] then some emitted
            else (uncompressLoop marker r3).map (emitted ++ ·)
          | [] => none
    else
      if r = [] then some [symbol]
      else (uncompressLoop marker r).map ([symbol] ++ ·)
termination_by l => l.length

/-- `RLE_Uncompress`, CompressionRLE.cpp 289-351, on a buffer of exactly `insize` bytes: the bytes
written to `out`, or `none` if a byte outside the buffer is read. -/
def uncompress : List UInt8 → Option (List UInt8)
  | [] => some []
  | marker :: r => uncompressLoop marker r

end Simox.Rle
