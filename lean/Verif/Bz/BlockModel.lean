import Verif.Bz.HuffModel
import Verif.Bz.MtfModel

/-!
# bzip2: blocks

Models sendMTFValues, the part of BZ2_compressBlock that writes a block, and the part of BZ2_decompress that reads one, in
VirtualRobot/Compression/CompressionBZip2.cpp.
-/

namespace Simox.Bz

/-! ## Tables -/

/-- How many tables are used for so many values (CompressionBZip2.cpp 707-729). -/
def nGroupsFor (nMTF : Nat) : Nat :=
  if nMTF < 200 then 2 else if nMTF < 600 then 3 else if nMTF < 1200 then 4 else if nMTF < 2400 then 5 else 6

/-- The loop that looks for the end of a part (CompressionBZip2.cpp 745-749); `e` is `ge + 1`. Gives `e` and `aFreq`. -/
def partEnd (freq : Nat → Nat) (alphaSize tFreq : Nat) (e aFreq : Nat) : Nat × Nat :=
  if _h : aFreq < tFreq ∧ e < alphaSize then partEnd freq alphaSize tFreq (e + 1) (aFreq + freq e) else (e, aFreq)
termination_by alphaSize - e

/-- The loop that makes the first tables (CompressionBZip2.cpp 731-779): `nPart` parts are left, the last table comes first.
BZ_LESSER_ICOST is 0, BZ_GREATER_ICOST is 15. -/
def firstTables (freq : Nat → Nat) (alphaSize nGroups : Nat) : Nat → Nat → Nat → List (List Nat)
  | 0, _, _ => []
  | nPart + 1, gs, remF =>
    let p := partEnd freq alphaSize (remF / (nPart + 1)) gs 0
    let p := if gs + 1 < p.1 ∧ nPart + 1 ≠ nGroups ∧ nPart + 1 ≠ 1 ∧ (nGroups - (nPart + 1)) % 2 = 1 then
      (p.1 - 1, p.2 - freq (p.1 - 1)) else p
    firstTables freq alphaSize nGroups nPart p.1 (remF - p.2) ++
      [(List.range alphaSize).map fun v => if gs ≤ v ∧ v < p.1 then 0 else 15]

/-- The values in groups of BZ_G_SIZE = 50 (CompressionBZip2.cpp 816-830, 1213-1225). -/
def groups (l : List Nat) : List (List Nat) :=
  if l = [] then [] else l.take 50 :: groups (l.drop 50)
termination_by l.length
decreasing_by rename_i h; have := List.length_pos_iff.mpr h; simp; omega

/-- What a group costs with a table (CompressionBZip2.cpp 836-927). The sums are less than `2^16`, so that nothing is lost in
`cost` and in the pairs of the fast track. -/
def groupCost (lens : List Nat) (g : List Nat) : Nat := (g.map fun v => lens.getD v 0).sum

/-- The cheapest table, the first one if there are several (CompressionBZip2.cpp 933-941). -/
def bestTable (tables : List (List Nat)) (g : List Nat) : Nat :=
  ((List.range tables.length).foldl (fun (s : Nat × Nat) t =>
    if groupCost (tables.getD t []) g < s.1 then (groupCost (tables.getD t []) g, t) else s) (999999999, 0)).2

/-- `rfreq[t]` after the loop over the groups (CompressionBZip2.cpp 792-796, 951-1021). -/
def tableFreq (gs : List (List Nat)) (sel : List Nat) (t v : Nat) : Nat :=
  ((gs.zip sel).map fun x => if x.2 = t then x.1.count v else 0).sum

/-- One turn of the loop that improves the tables (CompressionBZip2.cpp 784-1047): the selectors and the new tables. There are
at most as many symbols as values, which bounds the number of turns in BZ2_hbMakeCodeLengths (`C93_terminates`). -/
def improve (alphaSize : Nat) (mtfv : List Nat) (tables : List (List Nat)) : Option (List Nat × List (List Nat)) :=
  let gs := groups mtfv
  let sel := gs.map (bestTable tables)
  let new := (List.range tables.length).mapM fun t => makeLens alphaSize 17 (mtfv.length + 2) (startWeight (tableFreq gs sel t))
  new.map fun new => (sel, new)

/-- BZ_N_ITERS = 4 turns (CompressionBZip2.cpp 784). -/
def improves (alphaSize : Nat) (mtfv : List Nat) : Nat → List Nat × List (List Nat) → Option (List Nat × List (List Nat))
  | 0, s => some s
  | n + 1, s => (improve alphaSize mtfv s.2).bind (improves alphaSize mtfv n)

/-- The selectors and the tables (CompressionBZip2.cpp 699-1053). The assertions are `C95_assertions`. -/
def chooseTables (alphaSize : Nat) (mtfv : List Nat) : Option (List Nat × List (List Nat)) :=
  improves alphaSize mtfv 4
    ([], firstTables (fun v => mtfv.count v) alphaSize (nGroupsFor mtfv.length) (nGroupsFor mtfv.length) 0 mtfv.length)

/-! ## Writing a block -/

/-- The selectors, moved to the front (CompressionBZip2.cpp 1056-1083). -/
def selMtf : List Nat → List Nat → List Nat
  | _, [] => []
  | pos, s :: sel => pos.idxOf s :: selMtf (s :: pos.erase s) sel

/-- `inUse16` (CompressionBZip2.cpp 1112-1123). -/
def inUse16 (inUse : Nat → Bool) (i : Nat) : Bool := (List.range 16).any fun j => inUse (i * 16 + j)

/-- One bit. -/
def bitField (b : Bool) : Field := (1, if b then 1 else 0)

/-- The mapping table (CompressionBZip2.cpp 1127-1149). -/
def mapFields (inUse : Nat → Bool) : List Field :=
  ((List.range 16).map fun i => bitField (inUse16 inUse i)) ++
    (List.range 16).flatMap fun (i : Nat) =>
      if inUse16 inUse i then (List.range 16).map fun j => bitField (inUse (i * 16 + j)) else []

/-- The selectors (CompressionBZip2.cpp 1162-1170). -/
def selFields (sel : List Nat) : List Field := sel.flatMap fun (j : Nat) => List.replicate j (1, 1) ++ [(1, 0)]

/-- The loop that writes lengths (CompressionBZip2.cpp 1185-1200). -/
def lenFields : Nat → List Nat → List Field
  | _, [] => []
  | curr, l :: lens => List.replicate (l - curr) (2, 2) ++ List.replicate (curr - l) (2, 3) ++ [(1, 0)] ++ lenFields l lens

/-- A table (CompressionBZip2.cpp 1182-1200). -/
def tableFields (lens : List Nat) : List Field := (5, lens.headD 0) :: lenFields (lens.headD 0) lens

/-- The values of a group (CompressionBZip2.cpp 1229-1307). -/
def groupFields (lens : List Nat) (g : List Nat) : List Field := g.map fun v => (lens.getD v 0, codesOf lens v)

/-- The values (CompressionBZip2.cpp 1210-1312). -/
def dataFields (sel : List Nat) (tables : List (List Nat)) (mtfv : List Nat) : List Field :=
  ((groups mtfv).zip sel).flatMap fun x => groupFields (tables.getD x.2 []) x.1

/-- sendMTFValues (CompressionBZip2.cpp 672-1320), after the tables are chosen. -/
def sendFields (inUse : Nat → Bool) (sel : List Nat) (tables : List (List Nat)) (mtfv : List Nat) : List Field :=
  mapFields inUse ++ (3, tables.length) :: (15, sel.length) :: selFields (selMtf (List.range tables.length) sel) ++
    tables.flatMap tableFields ++ dataFields sel tables mtfv

/-- A block with its header (CompressionBZip2.cpp 1358-1385): `ptr` is the result of BZ2_blockSort. `none` if the tables are
not found. -/
def blockFields (crc : Nat) (inUse : Nat → Bool) (block ptr : List Nat) : Option (List Field) :=
  let mtfv := mtfEncode inUse (lastColumn block ptr)
  (chooseTables (nInUse inUse + 2) mtfv).map fun t =>
    [0x31, 0x41, 0x59, 0x26, 0x53, 0x59].flatMap putUChar ++ putUInt32 crc ++ [(1, 0), (24, origPtr ptr)] ++
      sendFields inUse t.1 t.2 mtfv

/-! ## Reading a block -/

/-- A byte that must be there (for instance CompressionBZip2.cpp 3308-3313). -/
def expect (b : Nat) : Dec Unit := getBits 8 >>= fun uc => if uc = b then pure () else Dec.fail

/-- Bytes that must be there. -/
def expects : List Nat → Dec Unit
  | [] => pure ()
  | b :: l => expect b >>= fun _ => expects l

/-- `n` bytes, the highest one first (CompressionBZip2.cpp 3350-3358, 3362-3368, 3938-3946). -/
def getBytes : Nat → Nat → Dec Nat
  | 0, v => pure v
  | n + 1, v => getBits 8 >>= fun uc => getBytes n (v * 256 + uc)

/-- `n` bits (CompressionBZip2.cpp 3381-3393, 3402-3410). -/
def getFlags : Nat → Dec (List Bool)
  | 0 => pure []
  | n + 1 => getBits 1 >>= fun uc => getFlags n >>= fun l => pure ((uc == 1) :: l)

/-- The loop that reads the parts of the mapping table that are used (CompressionBZip2.cpp 3400-3410). -/
def getMap : List Bool → Dec (List Bool)
  | [] => pure []
  | true :: used => getFlags 16 >>= fun l => getMap used >>= fun m => pure (l ++ m)
  | false :: used => getMap used >>= fun m => pure (List.replicate 16 false ++ m)

/-- The loop that reads a selector (CompressionBZip2.cpp 3438-3455): `k` is `nGroups - j`. -/
def getSel : Nat → Nat → Dec Nat
  | 0, _ => Dec.fail
  | k + 1, j => getBits 1 >>= fun uc => if uc = 0 then pure j else getSel k (j + 1)

/-- The loop that reads the selectors (CompressionBZip2.cpp 3436-3458). `selectorMtf` has BZ_MAX_SELECTORS = 18002 elements
(CompressionBZip2.h 53, 264-265); that `i` is less is not tested. -/
def getSels (nGroups nSelectors : Nat) : Nat → Nat → Dec (List Nat)
  | 0, _ => pure []
  | k + 1, i => getSel nGroups 0 >>= fun j => if 18002 ≤ i then Dec.undef else
      getSels nGroups nSelectors k (i + 1) >>= fun l => pure (j :: l)

/-- The selectors are moved back (CompressionBZip2.cpp 3460-3483). -/
def selUnmtf : List Nat → List Nat → List Nat
  | _, [] => []
  | pos, v :: l => pos.getD v 0 :: selUnmtf (pos.getD v 0 :: pos.eraseIdx v) l

/-- The loop that reads a length (CompressionBZip2.cpp 3492-3516), with a bound for the number of turns. -/
def getLen : Nat → Nat → Dec Nat
  | 0, _ => fun _ => .more
  | n + 1, curr =>
    if curr < 1 ∨ 20 < curr then Dec.fail
    else getBits 1 >>= fun uc => if uc = 0 then pure curr else
      getBits 1 >>= fun uc => getLen n (if uc = 0 then curr + 1 else curr - 1)

/-- The lengths of a table (CompressionBZip2.cpp 3490-3519). A turn of `getLen` takes a bit, which gives the bound
(`C95_fuel`). -/
def getLens : Nat → Nat → Dec (List Nat)
  | 0, _ => pure []
  | k + 1, curr => (fun bs => getLen (bs.length + 1) curr bs) >>= fun l => getLens k l >>= fun ls => pure (l :: ls)

/-- The tables (CompressionBZip2.cpp 3486-3520). -/
def getTables (alphaSize : Nat) : Nat → Dec (List (List Nat))
  | 0 => pure []
  | k + 1 => getBits 5 >>= fun curr => getLens alphaSize curr >>= fun l => getTables alphaSize k >>= fun ls => pure (l :: ls)

/-- The state of the loop that reads the values: the selectors that are left, `groupPos`, the table in use, and `MtfD`
(CompressionBZip2.cpp 3551-3582). -/
structure ValD where
  sels : List Nat
  pos : Nat
  table : Table
  mtf : MtfD

/-- The choice of the table in GET_MTF_VAL (CompressionBZip2.cpp 3120-3131). -/
def ValD.next (tables : List Table) (s : ValD) : Option ValD :=
  if s.pos = 0 then
    match s.sels with
    | [] => none
    | t :: sels => some { s with sels := sels, pos := 49, table := tables.getD t ⟨fun _ => 0, fun _ => 0, [], 0⟩ }
  else some { s with pos := s.pos - 1 }

/-- The loop that reads the values to the end of the block (CompressionBZip2.cpp 3582-3757), with a bound for their number. -/
def getVals (tables : List Table) (seq : List Nat) (eob max : Nat) : Nat → ValD → Dec (List Nat)
  | 0, _ => fun _ => .more
  | n + 1, s =>
    match s.next tables with
    | none => Dec.fail
    | some s => decodeSym s.table >>= fun sym =>
      match mtfDecStep seq eob max s.mtf sym with
      | .go m => getVals tables seq eob max n { s with mtf := m }
      | .done tt => pure tt
      | .err => Dec.fail

/-- A block that was read. -/
structure DBlock where
  crc : Nat
  origPtr : Nat
  tt : List Nat
  deriving DecidableEq

/-- What is read before the selectors. -/
structure Head where
  crc : Nat
  rand : Nat
  origPtr : Nat
  map : List Bool
  nGroups : Nat
  nSelectors : Nat
  deriving DecidableEq

/-- `inUse` (CompressionBZip2.cpp 3395-3410). -/
def Head.inUse (h : Head) (i : Nat) : Bool := h.map.getD i false

/-- A block, after the first byte of its header, to the number of selectors (CompressionBZip2.cpp 3308-3434). -/
def getHead (size100k : Nat) : Dec Head :=
  expects [0x41, 0x59, 0x26, 0x53, 0x59] >>= fun _ =>
  getBytes 4 0 >>= fun crc =>
  getBits 1 >>= fun rand =>
  getBytes 3 0 >>= fun origPtr =>
  if 10 + 100000 * size100k < origPtr then Dec.fail else
  getFlags 16 >>= fun used =>
  getMap used >>= fun map =>
  if nInUse (fun i => map.getD i false) = 0 then Dec.fail else
  getBits 3 >>= fun nGroups =>
  if nGroups < 2 ∨ 6 < nGroups then Dec.fail else
  getBits 15 >>= fun nSelectors =>
  if nSelectors < 1 then Dec.fail else
  pure ⟨crc, rand, origPtr, map, nGroups, nSelectors⟩

/-- The rest of a block (CompressionBZip2.cpp 3436-3807). A value takes at least one bit, which gives the bound for their number
(`C95_fuel`). -/
def getBody (size100k : Nat) (h : Head) : Dec DBlock :=
  getSels h.nGroups h.nSelectors h.nSelectors 0 >>= fun sels =>
  getTables (nInUse h.inUse + 2) h.nGroups >>= fun tables =>
  (fun bs => getVals (tables.map tableOf) (seqToUnseq h.inUse) (nInUse h.inUse + 1) (100000 * size100k) (bs.length + 1)
    ⟨selUnmtf (List.range h.nGroups) sels, 0, ⟨fun _ => 0, fun _ => 0, [], 0⟩, .start⟩ bs) >>= fun tt =>
  if tt.length ≤ h.origPtr then Dec.fail else
  if h.rand = 1 then Dec.randomised else
  pure ⟨h.crc, h.origPtr, tt⟩

/-- A block, after the first byte of its header (CompressionBZip2.cpp 3308-3807). -/
def getBlock (size100k : Nat) : Dec DBlock := getHead size100k >>= getBody size100k

end Simox.Bz
