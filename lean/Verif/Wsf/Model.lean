import Verif.Workspace.Model
import Verif.Rle.Model

/-!
# Workspace files

Models `save` and `load` of `VirtualRobot/Workspace/WorkspaceRepresentation.cpp`, the functions of
`VirtualRobot/XML/FileIO.h`, `WorkspaceDataArray::save` and the buffering of
`VirtualRobot/Compression/CompressionBZip2.cpp` byte by byte, on a little-endian machine.

* A file is a list of bytes; reading it consumes the list. Writing always succeeds.
* A value read past the end of the file is an uninitialised variable: outcome `ub`.
* Floats are 32-bit patterns; the one subtraction in `load` is a parameter.
* The compression algorithm of bzip2 is a parameter (`Codec`): which output bytes are determined by the
  input bytes consumed so far, when an error is detected, and when the stream has ended. What surrounds it
  (`BZ2_bzDecompress` as a loop, `BZ2_bzRead` with its buffer, `BZ2_bzReadClose`) is modelled.
* Robot nodes and node sets are represented by their names.
* `customLoad` and `customSave` are those of the base class (nothing is read or written).
-/

namespace Simox.Wsf

open Workspace

/-- `std::string`. -/
abbrev Str := List UInt8

/-- The bit pattern of a `float`. -/
abbrev F := UInt32

/-- A string literal. -/
def ascii (l : List Char) : Str := l.map fun c => UInt8.ofNat c.toNat

/-! ## FileIO.h -/

/-- Outcome of reading: a value and the unread rest of the file, an exception, or undefined behaviour. -/
inductive Res (α : Type) where
  | ok (a : α) (rest : List UInt8)
  | throw
  | ub

/-- A function that reads from the file. -/
def Rd (α : Type) : Type := List UInt8 → Res α

instance : Monad Rd where
  pure a := fun s => .ok a s
  bind m f := fun s => match m s with
    | .ok a r => f a r
    | .throw => .throw
    | .ub => .ub

/-- `THROW_VR_EXCEPTION_IF`. -/
def throwIf (c : Bool) : Rd Unit := fun s => if c then .throw else .ok () s

/-- Undefined behaviour if `c`. -/
def ubIf (c : Bool) : Rd Unit := fun s => if c then .ub else .ok () s

/-- The four bytes of a 32-bit value. -/
def le32 (n : Nat) : List UInt8 :=
  [UInt8.ofNat n, UInt8.ofNat (n / 256), UInt8.ofNat (n / 65536), UInt8.ofNat (n / 16777216)]

/-- `read<T>` for a type of four bytes, FileIO.h 35-41. -/
def readU32 : Rd Nat := fun s => match s with
  | a :: b :: c :: d :: rest =>
    .ok (a.toNat + 256 * b.toNat + 65536 * c.toNat + 16777216 * d.toNat) rest
  | _ => .ub

/-- `read<int32_t>`. -/
def readInt : Rd Int := do return i32 (← readU32)

/-- `read<float>`. -/
def readFloat : Rd F := do return UInt32.ofNat (← readU32)

/-- `readArray<unsigned char>(res, n, file)`, FileIO.h 43-46. -/
def readBytes (n : Nat) : Rd (List UInt8) := fun s =>
  if n ≤ s.length then .ok (s.take n) (s.drop n) else .ub

/-- `readString(res, file)`, FileIO.h 58-74: the new value of `res`. -/
def readString (res : Str) : Rd Str := do
  let length ← readInt
  if length ≤ 0 then return res
  else
    let data ← readBytes length.toNat
    return data.takeWhile (· ≠ 0)

/-- `write<int32_t>`, FileIO.h 48-51. -/
def writeInt (v : Int) : List UInt8 := le32 (v % 2 ^ 32).toNat

/-- `write<float>`. -/
def writeFloat (f : F) : List UInt8 := le32 f.toNat

/-- `writeString`, FileIO.h 109-114: the lower four bytes of the length, then all characters. -/
def writeString (s : Str) : List UInt8 := le32 s.length ++ s

/-! ## CompressionBZip2 -/

/-- The compression algorithm. `decoded p` are the output bytes determined by the input bytes `p`, `bad p`
means that an error is detected at the latest after `p`, `ended p` that `p` is a whole stream; `enc` is the
stream written for the given bytes. -/
structure Codec where
  enc : List UInt8 → List UInt8
  decoded : List UInt8 → List UInt8
  bad : List UInt8 → Bool
  ended : List UInt8 → Bool

/-- The variables of a `bzFile` opened for reading: the bytes processed, the number of bytes delivered,
`avail_in` with `next_in`, and whether the decoder has finished (`BZ_X_IDLE`). -/
structure Bz where
  consumed : List UInt8
  delivered : Nat
  availIn : List UInt8
  idle : Bool

/-- `BZ2_bzReadOpen`. -/
def Bz.open : Bz := ⟨[], 0, [], false⟩

/-- Return values of `BZ2_bzDecompress`. -/
inductive Ret where
  | ok
  | streamEnd
  | error
  deriving DecidableEq

/-- The decoded bytes delivered into `space` bytes of output. -/
def deliver (c : Codec) (consumed : List UInt8) (delivered space : Nat) : List UInt8 :=
  ((c.decoded consumed).drop delivered).take space

/-- Does `BZ2_bzDecompress` return after having delivered? Yes if there is more to deliver (the output is
full), after an error, and at the end of the stream. -/
def stops (c : Codec) (consumed : List UInt8) (delivered : Nat) : Option Ret :=
  if delivered < (c.decoded consumed).length then some .ok
  else if c.bad consumed then some .error
  else if c.ended consumed then some .streamEnd
  else none

/-- `BZ2_bzDecompress`, CompressionBZip2.cpp 5127-5219, with `space = avail_out` and the available input:
delivers decoded bytes as long as there is space, and processes more input only when everything decoded
was delivered. Returns the code, the delivered bytes, and the new variables. -/
def decompress (c : Codec) (consumed : List UInt8) (delivered : Nat) (space : Nat) :
    List UInt8 → Ret × List UInt8 × Bz
  | [] =>
    let out := deliver c consumed delivered space
    match stops c consumed (delivered + out.length) with
    | some r => (r, out, ⟨consumed, delivered + out.length, [], r ≠ .ok⟩)
    | none => (.ok, out, ⟨consumed, delivered + out.length, [], false⟩)
  | b :: rest =>
    let out := deliver c consumed delivered space
    match stops c consumed (delivered + out.length) with
    | some r => (r, out, ⟨consumed, delivered + out.length, b :: rest, r ≠ .ok⟩)
    | none =>
      let r := decompress c (consumed ++ [b]) (delivered + out.length) (space - out.length) rest
      (r.1, out ++ r.2.1, r.2.2)

/-- `BZ_MAX_UNUSED`. -/
def chunk : Nat := 5000

/-- Result of `bzip2->read`: `readOK`, the bytes read (`n` of them), the variables and the rest of the
file. -/
structure ReadRes where
  ok : Bool
  bytes : List UInt8
  bz : Bz
  file : List UInt8

/-- "`if (avail_in == 0 && !myfeof(...))` read a chunk", 5051-5070. -/
def refill (b : Bz) (file : List UInt8) : Bz × List UInt8 :=
  if b.availIn = [] then ({ b with availIn := file.take chunk }, file.drop chunk) else (b, file)

/-- The loop of `BZ2_bzRead`, 5042-5100, with `acc` the bytes written so far; every pass but the first
reads a chunk of the file, so its length (plus one) is enough `fuel`. A finished decoder returns an
error. -/
def readLoop (c : Codec) (len : Nat) : Nat → List UInt8 → Bz → List UInt8 → ReadRes
  | 0, acc, b, file => ⟨false, acc, b, file⟩
  | fuel + 1, acc, b, file =>
    let bf := refill b file
    if b.idle then ⟨false, acc, bf.1, bf.2⟩
    else
      let r := decompress c bf.1.consumed bf.1.delivered (len - acc.length) bf.1.availIn
      match r.1 with
      | .error => ⟨false, acc ++ r.2.1, r.2.2, bf.2⟩
      | .streamEnd => ⟨true, acc ++ r.2.1, r.2.2, bf.2⟩
      | .ok =>
        if bf.2 = [] ∧ r.2.2.availIn = [] ∧ (acc ++ r.2.1).length < len then
          ⟨false, acc ++ r.2.1, r.2.2, bf.2⟩
        else if (acc ++ r.2.1).length = len then ⟨true, acc ++ r.2.1, r.2.2, bf.2⟩
        else readLoop c len fuel (acc ++ r.2.1) r.2.2 bf.2

/-- `bzip2->read(buf, len, n)`, 5875-5903. -/
def bzRead (c : Codec) (len : Nat) (b : Bz) (file : List UInt8) : ReadRes :=
  if len = 0 then ⟨false, [], b, file⟩ else readLoop c len (file.length + 2) [] b file

/-- `BZ2_bzReadClose`, 4957-5006: unprocessed bytes are put back. -/
def bzClose (b : Bz) (file : List UInt8) : List UInt8 := b.availIn ++ file

/-! ## The old run-length compression -/

/-- `uncompressData`, WorkspaceRepresentation.cpp 87-101: pairs of count and value; the last byte of an odd
number is ignored. -/
def uncompressData : List UInt8 → List UInt8
  | count :: value :: rest => List.replicate count.toNat value ++ uncompressData rest
  | _ => []

/-- Outcome of `compressData`. -/
inductive CRes where
  | ok (l : List UInt8)
  | throw
  | ub
  deriving DecidableEq

/-- Writing a pair at `pos` into the buffer of `size` bytes and the check after it, e.g. 149-152; `out` is
what was written before. -/
def putPair (size : Nat) (out : List UInt8) (count value : UInt8) : CRes :=
  if out.length + 1 < size then
    if out.length + 2 ≥ size then .throw else .ok (out ++ [count, value])
  else .ub

/-- The loop of `compressData`, 124-157, and the last pair, 159-165. -/
def compressLoop (size : Nat) (out : List UInt8) (cur count : UInt8) : List UInt8 → CRes
  | [] => putPair size out count cur
  | x :: rest =>
    if x = cur then
      if count = 255 then
        match putPair size out 255 cur with
        | .ok out' => compressLoop size out' cur 1 rest
        | .throw => .throw
        | .ub => .ub
      else compressLoop size out cur (count + 1) rest
    else
      match putPair size out count cur with
      | .ok out' => compressLoop size out' x 1 rest
      | .throw => .throw
      | .ub => .ub

/-- `compressData`, WorkspaceRepresentation.cpp 103-169. `source[0]` of an empty array is read. -/
def compressData : List UInt8 → CRes
  | [] => .ub
  | x :: rest => compressLoop (rest.length + 1) [] x 1 rest

/-! ## Representations -/

/-- `eOrientationType`. -/
inductive Orientation where
  | RPY
  | EulerXYZ
  | EulerXYZExtrinsic
  | Hopf
  deriving DecidableEq

/-- What `load` and `save` use of the robot: its type, its nodes, and its node sets with the joint limits of
their nodes. -/
structure Robot where
  type : Str
  hasNode : Str → Bool
  nodeSet : Str → Option (List (F × F))

/-- The members of a `WorkspaceRepresentation` except the data. -/
structure Members where
  versionMajor : Int
  versionMinor : Int
  orientation : Orientation
  nodeSet : Str
  tcp : Str
  base : Option Str
  staticModel : Option Str
  dynamicModel : Option Str
  loops : Int
  collisions : Int
  stepT : F
  stepR : F
  num : Fin 6 → Int
  lo : Fin 6 → F
  hi : Fin 6 → F
  space : Fin 6 → F
  achLo : Fin 6 → F
  achHi : Fin 6 → F

/-- `versionMajor`, `versionMinor` of the constructor. -/
def currentVersion : Int × Int := (2, 9)

/-! ## save -/

/-- A literal of `save` and `load`. -/
def binaryFile : Str :=
  ascii [' ', 'B', 'i', 'n', 'a', 'r', 'y', ' ', 'F', 'i', 'l', 'e']
/-- -/
def notSet : Str := ascii ['n', 'o', 't', ' ', 's', 'e', 't']
/-- -/
def dataStart : Str := ascii ['D', 'A', 'T', 'A', '_', 'S', 'T', 'A', 'R', 'T']
/-- -/
def dataEnd : Str := ascii ['D', 'A', 'T', 'A', '_', 'E', 'N', 'D']

/-- The six indices in order. -/
def six : List (Fin 6) := [0, 1, 2, 3, 4, 5]

/-- The positions in the order of the loops over `x`, `y`, `z`. -/
def grid (s : Vox) : List (Nat × Nat × Nat) :=
  (List.range s.a).flatMap fun x => (List.range s.b).flatMap fun y =>
    (List.range s.c).map fun z => (x, y, z)

/-- A block of `n` bytes as a list. -/
def blockBytes (n : Nat) (blk : Nat → Nat) : List UInt8 := (List.range n).map fun i => UInt8.ofNat (blk i)

/-- The block passed to `bzip2->write` for a position, WorkspaceDataArray.cpp 541-560. -/
def savedBlock (w : WDA) (p : Nat × Nat × Nat) : List UInt8 :=
  if hasEntry w p.1 p.2.1 p.2.2 then
    match w.data (posTr w.sizes ⟨p.1, p.2.1, p.2.2, 0, 0, 0⟩) with
    | some blk => blockBytes (allocRot w.sizes) blk
    | none => List.replicate (allocRot w.sizes) 0
  else List.replicate (allocRot w.sizes) 0

/-- `WorkspaceDataArray::save`, WorkspaceDataArray.cpp 525-573 (for blocks of more than 0 and less than 2^31
bytes: `bzip2->write` takes the number as an `int` and refuses others). -/
def saveData (c : Codec) (w : WDA) : List UInt8 :=
  c.enc ((grid w.sizes).flatMap (savedBlock w))

/-- What `save` writes before the data, WorkspaceRepresentation.cpp 513-607. `limits` are the joint limits
of the node set. -/
def saveHead (robot : Robot) (type : Str) (limits : List (F × F)) (m : Members) (w : WDA) : List UInt8 :=
  writeString (type ++ binaryFile) ++
  writeInt m.versionMajor ++ writeInt m.versionMinor ++
  writeString robot.type ++
  writeString m.nodeSet ++
  writeInt limits.length ++
  limits.flatMap (fun l => writeFloat l.1 ++ writeFloat l.2) ++
  writeString m.tcp ++
  writeString (m.base.getD []) ++
  writeString (m.staticModel.getD notSet) ++
  writeString (m.dynamicModel.getD notSet) ++
  writeInt m.loops ++ writeInt m.collisions ++
  writeFloat m.stepT ++ writeFloat m.stepR ++
  six.flatMap (fun i => writeInt (m.num i)) ++
  writeInt w.filled ++ writeInt w.maxEntry ++
  six.flatMap (fun i => writeFloat (m.lo i) ++ writeFloat (m.hi i)) ++
  six.flatMap (fun i => writeFloat (m.achLo i) ++ writeFloat (m.achHi i)) ++
  writeString dataStart

/-- `save`, WorkspaceRepresentation.cpp 503-625, for a representation with data and node set. -/
def save (c : Codec) (robot : Robot) (type : Str) (limits : List (F × F)) (m : Members) (w : WDA) :
    List UInt8 :=
  saveHead robot type limits m w ++ saveData c w ++ writeString dataEnd

/-! ## load -/

/-- The accepted file types, WorkspaceRepresentation.cpp 186-199. -/
def typeOk (type t : Str) : Bool :=
  t = ascii ['W', 'o', 'r', 'k', 's', 'p', 'a', 'c', 'e', 'R', 'e', 'p', 'r', 'e', 's', 'e', 'n', 't', 'a',
    't', 'i', 'o', 'n'] ++ binaryFile ||
  t = ascii ['R', 'e', 'a', 'c', 'h', 'a', 'b', 'i', 'l', 'i', 't', 'y'] ++ binaryFile ||
  t = ascii ['R', 'e', 'a', 'c', 'h', 'b', 'a', 'i', 'l', 'i', 't', 'y'] ++ binaryFile ||
  t = ascii ['M', 'a', 'n', 'i', 'p', 'u', 'l', 'a', 'b', 'i', 'l', 'i', 't', 'y'] ++ binaryFile ||
  t = ascii ['R', 'e', 'a', 'c', 'h', 'a', 'b', 'i', 'l', 'i', 't', 'y', 'S', 'p', 'a', 'c', 'e'] ++
    binaryFile ||
  t = type ++ binaryFile

/-- The version check, 207-216; `cur` is the version the representation has. -/
def versionBad (cur : Int × Int) (v0 v1 : Int) : Bool :=
  (v0 ≠ cur.1 ∨ v1 ≠ cur.2) ∧
  (v0 > 2 ∨ (v0 = 2 ∧ ¬ (v1 ≥ 0 ∧ v1 ≤ 9)) ∨ (v0 = 1 ∧ ¬ (v1 = 0 ∨ v1 = 2 ∨ v1 = 3)))

/-- 217-232. -/
def orientationOf (v0 v1 : Int) : Orientation :=
  if v0 > 2 ∨ (v0 = 2 ∧ v1 > 7) then .Hopf
  else if v0 = 2 ∧ v1 > 6 then .EulerXYZExtrinsic
  else if v0 = 2 ∧ v1 = 6 then .EulerXYZ
  else .RPY

/-- `n` joint limits are read; they are only compared for a warning, 252-265. -/
def skipLimits : Nat → Rd Unit
  | 0 => return
  | n + 1 => do
    let _ ← readFloat
    let _ ← readFloat
    skipLimits n

/-- A loop over the six dimensions. -/
def forSix {α : Type} (f : Rd α) : Rd (Fin 6 → α) := do
  let a ← f
  let b ← f
  let c ← f
  let d ← f
  let e ← f
  let g ← f
  return fun i => match i with
    | 0 => a
    | 1 => b
    | 2 => c
    | 3 => d
    | 4 => e
    | 5 => g

/-- Two floats. -/
def readPair : Rd (F × F) := do
  let a ← readFloat
  let b ← readFloat
  return (a, b)

/-- The number of nodes and the joint limits, 245-266. -/
def loadLimits (v0 v1 : Int) (limits : List (F × F)) : Rd Unit :=
  if v0 > 1 ∨ (v0 = 1 ∧ v1 > 0) then do
    let nrNodes ← readInt
    throwIf (nrNodes ≥ 0 ∧ (limits.length : Int) ≠ nrNodes)
    skipLimits limits.length
  else return

/-- The base node, 274-286: `tmpString` and the node. -/
def loadBase (robot : Robot) (v0 v1 : Int) (tmp : Str) : Rd (Str × Option Str) :=
  if v0 > 1 ∨ (v0 = 1 ∧ v1 > 0) then do
    let tmp ← readString tmp
    return (tmp, if tmp = [] ∨ robot.hasNode tmp = false then none else some tmp)
  else return (tmp, none)

/-- A collision model, 289-303. -/
def modelOf (robot : Robot) (tmp : Str) : Option Str :=
  if tmp ≠ [] ∧ tmp ≠ notSet ∧ (robot.nodeSet tmp).isSome then some tmp else none

/-- What `load` reads before the data, 175-343: the members, `voxelFilledCount`, `maxEntry`. `sub` is the
subtraction of floats. A node set that is not known throws (243), as does an unknown tcp (271). -/
def loadHead (sub : F → F → F) (robot : Robot) (type : Str) (cur : Int × Int) :
    Rd (Members × Int × Int) := do
  let tmp ← readString []
  throwIf (!typeOk type tmp)
  let v0 ← readInt
  let v1 ← readInt
  throwIf (versionBad cur v0 v1)
  let tmp ← readString tmp
  throwIf (tmp ≠ robot.type)
  let nodeSet ← readString tmp
  throwIf (robot.nodeSet nodeSet).isNone
  loadLimits v0 v1 ((robot.nodeSet nodeSet).getD [])
  let tcp ← readString nodeSet
  throwIf (!robot.hasNode tcp)
  let base ← loadBase robot v0 v1 tcp
  let tmp ← readString base.1
  let tmp' ← readString tmp
  let loops ← readInt
  let collisions ← readInt
  let stepT ← readFloat
  let stepR ← readFloat
  let num ← forSix readInt
  let filled ← readInt
  let maxEntry ← readInt
  let bounds ← forSix readPair
  let achieved ← forSix readPair
  let start ← readString tmp'
  throwIf (start ≠ dataStart)
  return (⟨v0, v1, orientationOf v0 v1, nodeSet, tcp, base.2, modelOf robot tmp, modelOf robot tmp',
    loops, collisions, stepT, stepR, num, fun i => (bounds i).1, fun i => (bounds i).2,
    fun i => sub (bounds i).2 (bounds i).1, fun i => (achieved i).1, fun i => (achieved i).2⟩,
    filled, maxEntry)

/-- Does the result of an `int` computation fit? -/
def fitsInt (x : Int) : Bool := -2 ^ 31 ≤ x ∧ x < 2 ^ 31

/-- The product of `int`s from left to right; `none` is an overflow. -/
def mulInts : Int → List Int → Option Int
  | x, [] => some x
  | x, y :: ys => if fitsInt (x * y) then mulInts (x * y) ys else none

/-- The sizes given to the constructor of the data, as `unsigned int`. -/
def sizesOf (num : Fin 6 → Int) : Vox :=
  let u := fun i => (num i % 2 ^ 32).toNat
  ⟨u 0, u 1, u 2, u 3, u 4, u 5⟩

/-- A list of bytes as the source of `setDataRot`. -/
def source (l : List UInt8) : Nat → Nat := fun i => (l.getD i 0).toNat

/-- `setDataRot` of the block at a position of the grid. -/
def setBlock (w : WDA) (p : Nat × Nat × Nat) (l : List UInt8) : Option WDA :=
  setDataRot w (source l) p.1 p.2.1 p.2.2

/-- The conversion of the old format, 378-403: the bytes of each position in turn. (The innermost loops
copy `d[x * sizeX0 + y * sizeX1 + z * sizeX2 + i]` to `dRot[i]`; the blocks follow each other in the order
of the loops.) -/
def convert (rot : Nat) : List (Nat × Nat × Nat) → List UInt8 → WDA → Option WDA
  | [], _, w => some w
  | p :: ps, d, w => (setBlock w p (d.take rot)).bind (convert rot ps (d.drop rot))

/-- Lift of an undefined outcome. -/
def orUb {α : Type} (o : Option α) : Rd α := fun s => match o with
  | some a => .ok a s
  | none => .ub

/-- The bytes of versions up to 2.3, 353-375. -/
def readOld (v0 v1 : Int) (size : Nat) : Rd (List UInt8) :=
  if v0 = 1 ∧ v1 ≤ 2 then readBytes size
  else do
    let compressedSize ← readInt
    throwIf (compressedSize < 0)
    let compressed ← readBytes compressedSize.toNat
    if v0 > 2 ∨ (v0 = 2 ∧ v1 ≥ 1) then orUb (Rle.uncompress compressed)
    else return uncompressData compressed

/-- Versions up to 2.3: one block, 348-403. `d` is an array of `size` bytes: writing more of them, or
leaving some uninitialised, is undefined. -/
def loadOld (v0 v1 : Int) (size rot : Nat) (ps : List (Nat × Nat × Nat)) (w : WDA) : Rd WDA := do
  let d ← readOld v0 v1 size
  ubIf (d.length ≠ size)
  orUb (convert rot ps d w)

/-- Version 2.4: one run-length compressed block per position, 465-483. The buffers have `3 * rot` and `rot`
bytes. -/
def loadBlocks (rot : Nat) : List (Nat × Nat × Nat) → WDA → Rd WDA
  | [], w => return w
  | p :: ps, w => do
    let compressedSize ← readInt
    ubIf (compressedSize < 0 ∨ compressedSize > 3 * rot)
    let compressed ← readBytes compressedSize.toNat
    let d ← orUb (Rle.uncompress compressed)
    ubIf (d.length ≠ rot)
    let w ← orUb (setBlock w p d)
    loadBlocks rot ps w

/-- The loop over the positions for bzip2, 422-458: the data and whether all blocks were read (otherwise
`load` returns at once). -/
def loadBz (c : Codec) (rot : Nat) : List (Nat × Nat × Nat) → WDA → Bz → List UInt8 →
    Option (WDA × Bool × Bz × List UInt8)
  | [], w, b, file => some (w, true, b, file)
  | p :: ps, w, b, file =>
    let r := bzRead c rot b file
    if !r.ok ∨ (r.bytes.length ≠ rot ∧ r.bytes.length ≠ 0) then some (w, false, r.bz, r.file)
    else if r.bytes.length = 0 then loadBz c rot ps w r.bz r.file
    else if r.bytes.all (· = 0) then loadBz c rot ps w r.bz r.file
    else (setBlock w p r.bytes).bind fun w' => loadBz c rot ps w' r.bz r.file

/-- bzip2 data: the stream is opened, read and closed, 418-461. -/
def bzData (c : Codec) (rot : Nat) (ps : List (Nat × Nat × Nat)) (w : WDA) : Rd (WDA × Bool) := fun s =>
  match loadBz c rot ps w Bz.open s with
  | some (w', done, b, file) => .ok (w', done) (bzClose b file)
  | none => .ub

/-- The data, 345-484, in all versions; the flag tells whether `load` goes on after it. -/
def loadData (c : Codec) (v0 v1 : Int) (num : Fin 6 → Int) : Rd (WDA × Bool) := do
  let size ← orUb (mulInts (num 0) [num 1, num 2, num 3, num 4, num 5])
  let rot ← orUb (mulInts (num 3) [num 4, num 5])
  let w := new (sizesOf num) true
  let ps := grid (sizesOf num)
  if v0 ≤ 1 ∨ (v0 = 2 ∧ v1 ≤ 3) then do
    return (← loadOld v0 v1 size.toNat rot.toNat ps w, true)
  else if v0 > 2 ∨ (v0 = 2 ∧ v1 ≥ 5) then
    bzData c rot.toNat ps w
  else do
    let _ ← orUb (mulInts rot [3])
    return (← loadBlocks rot.toNat ps w, true)

/-- `load`, WorkspaceRepresentation.cpp 171-501, on the contents of the file: the members and the data.
(`maxEntry` becomes an `unsigned char`, `voxelFilledCount` an `unsigned int`.) -/
def load (c : Codec) (sub : F → F → F) (robot : Robot) (type : Str) (cur : Int × Int) :
    Rd (Members × WDA) := do
  let h ← loadHead sub robot type cur
  let d ← loadData c h.1.versionMajor h.1.versionMinor h.1.num
  if d.2 = false then return (h.1, d.1)
  else
    let w := { d.1 with filled := (h.2.1 % 2 ^ 32).toNat, maxEntry := (h.2.2 % 2 ^ 8).toNat }
    let tmp ← readString dataStart
    throwIf (tmp ≠ dataEnd)
    return (h.1, w)

end Simox.Wsf
