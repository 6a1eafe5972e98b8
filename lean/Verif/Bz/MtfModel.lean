import Verif.Bz.BwtModel

/-!
# bzip2: move to front and runs of zeros

Models generateMTFValues and its inverse in BZ2_decompress in VirtualRobot/Compression/CompressionBZip2.cpp.
-/

namespace Simox.Bz

/-- `seqToUnseq` with its `nInUse` elements: the bytes that are used, in order (makeMaps_d, CompressionBZip2.cpp 3069-3080).
The rest of the array is not used. -/
def seqToUnseq (inUse : Nat → Bool) : List Nat := (List.range 256).filter inUse

/-- `nInUse` (CompressionBZip2.cpp 485-492, 3072-3079). -/
def nInUse (inUse : Nat → Bool) : Nat := (seqToUnseq inUse).length

/-- `unseqToSeq` for a byte that is used: how many smaller bytes are (makeMaps_e, CompressionBZip2.cpp 482-494). -/
def unseqToSeq (inUse : Nat → Bool) (b : Nat) : Nat := ((List.range b).filter inUse).length

/-! ## Coding -/

/-- The loop that writes a run of `z + 1` zeros: RUNB if `zPend` is odd, RUNA if it is even (CompressionBZip2.cpp 572-593,
634-655). -/
def runDigits (z : Nat) : List Nat :=
  (if z % 2 = 1 then 1 else 0) :: if 2 ≤ z then runDigits ((z - 2) / 2) else []
termination_by z

/-- What is written for the zeros that are pending (CompressionBZip2.cpp 568-596, 630-658). -/
def flushZeros (z : Nat) : List Nat := if 0 < z then runDigits (z - 1) else []

/-- The state of the loop of generateMTFValues: `yy`, `zPend` and the values written. -/
structure MtfE where
  yy : List Nat
  zPend : Nat
  out : List Nat
  deriving DecidableEq

/-- A turn of the loop of generateMTFValues for the byte with the number `ll_i` (CompressionBZip2.cpp 561-627): the number is
searched in `yy` and moved to the front. -/
def mtfEncStep (s : MtfE) (ll : Nat) : MtfE :=
  if s.yy.head? = some ll then { s with zPend := s.zPend + 1 }
  else ⟨ll :: s.yy.erase ll, 0, s.out ++ flushZeros s.zPend ++ [s.yy.idxOf ll + 1]⟩

/-- generateMTFValues (CompressionBZip2.cpp 497-666) for the last column of the sorted rotations: the values, the last one
being EOB. -/
def mtfEncode (inUse : Nat → Bool) (l : List Nat) : List Nat :=
  let s := (l.map (unseqToSeq inUse)).foldl mtfEncStep ⟨List.range (nInUse inUse), 0, []⟩
  s.out ++ flushZeros s.zPend ++ [nInUse inUse + 1]

/-! ## Decoding -/

/-- The state of the loop of BZ2_decompress that reads the values: the list that is kept in `mtfa` and `mtfbase`; whether a
run is being read, `es + 1` and `N`; and the bytes of the block (CompressionBZip2.cpp 3553-3757). The list is kept there in 16
parts of 16 elements so that less is moved. -/
structure MtfD where
  yy : List Nat
  run : Bool
  es : Nat
  n : Nat
  tt : List Nat
  deriving DecidableEq

/-- Before the loop (CompressionBZip2.cpp 3563-3581). -/
def MtfD.start : MtfD := ⟨List.range 256, false, 0, 1, []⟩

/-- What a value gives. -/
inductive MtfRes where
  | go (s : MtfD)
  | done (tt : List Nat)
  | err
  deriving DecidableEq

/-- The end of a run (CompressionBZip2.cpp 3625-3654): as many of the byte in front as the run is long, or an error if there
is not enough room. -/
def MtfD.endRun (seq : List Nat) (max : Nat) (s : MtfD) : Option MtfD :=
  if s.run then
    if max < s.tt.length + s.es then none
    else some { s with run := false, tt := s.tt ++ List.replicate s.es (seq.getD (s.yy.headD 0) 0) }
  else some s

/-- What is done with the next value, `nextSym` (CompressionBZip2.cpp 3584-3757): `eob` is EOB, `max` is `nblockMAX`, `seq` is
`seqToUnseq`. -/
def mtfDecStep (seq : List Nat) (eob max : Nat) (s : MtfD) (sym : Nat) : MtfRes :=
  if sym = 0 ∨ sym = 1 then
    let s := if s.run then s else { s with run := true, es := 0, n := 1 }
    if 2 * 1024 * 1024 ≤ s.n then .err
    else .go { s with es := s.es + (if sym = 0 then s.n else 2 * s.n), n := s.n * 2 }
  else
    match s.endRun seq max with
    | none => .err
    | some s =>
      if sym = eob then .done s.tt
      else if max ≤ s.tt.length then .err
      else
        let uc := s.yy.getD (sym - 1) 0
        .go { s with yy := uc :: s.yy.eraseIdx (sym - 1), tt := s.tt ++ [seq.getD uc 0] }

/-- The values are read one after the other, to the end of the block. -/
def mtfDecode (seq : List Nat) (eob max : Nat) : MtfD → List Nat → Option (List Nat)
  | _, [] => none
  | s, sym :: l =>
    match mtfDecStep seq eob max s sym with
    | .go s => mtfDecode seq eob max s l
    | .done tt => if l = [] then some tt else none
    | .err => none

end Simox.Bz
