import Verif.Bz.StreamModel
import Verif.Bz.BlockProps
import Verif.Bz.BitProps
import Verif.Bz.RleProps

/-!
# bzip2: streams: C96
-/

namespace Simox.Bz

theorem crcUpdate_lt {crc c : Nat} : crcUpdate crc c < 2 ^ 32 := by
  unfold crcUpdate
  apply Nat.xor_lt_two_pow
  · exact Nat.mod_lt _ (by norm_num)
  · by_cases h : (crc >>> 24 ^^^ c) < crcTable.length
    · have hall : ∀ x ∈ crcTable, x < 2 ^ 32 := by decide +kernel
      rw [List.getD_eq_getElem _ _ h]
      exact hall _ (List.getElem_mem _)
    · rw [List.getD_eq_default _ _ (by omega)]
      norm_num

theorem crc_foldl_lt : ∀ (l : List Nat) (crc : Nat), crc < 2 ^ 32 → l.foldl crcUpdate crc < 2 ^ 32
  | [], _, h => h
  | _ :: l, _, _ => crc_foldl_lt l _ crcUpdate_lt

theorem crcOf_lt (l : List Nat) : crcOf l < 2 ^ 32 := by
  unfold crcOf crcFinal
  exact Nat.xor_lt_two_pow (crc_foldl_lt l _ (by unfold crcInit; norm_num)) (by norm_num)

theorem crcCombine_lt {a b : Nat} (ha : a < 2 ^ 32) (hb : b < 2 ^ 32) : crcCombine a b < 2 ^ 32 := by
  unfold crcCombine
  apply Nat.xor_lt_two_pow _ hb
  apply Nat.or_lt_two_pow
  · exact Nat.mod_lt _ (by norm_num)
  · rw [Nat.shiftRight_eq_div_pow]
    exact (Nat.div_le_self _ _).trans_lt ha

/-- A block that was written is expanded to the bytes that were put into it. -/
theorem expand_spec {size100k : Nat} {s : EncRun} {ps : List Pair} (h : BlockInv s ps) (hne : s.block ≠ []) {ptr : List Nat}
    (hsort : SortedRot s.block ptr) (hl : s.block.length ≤ 100000 * size100k) (crc : Nat) :
    expand size100k ⟨crc, origPtr ptr, lastColumn s.block ptr⟩ = some (ps.flatMap rawPair) := by
  obtain ⟨hlast, -, -, hy, -⟩ := C91_inverse hne (blockInv_bytes h) hsort hl
  obtain ⟨c, t, hct⟩ := List.exists_cons_of_ne_nil hne
  obtain ⟨s', hg, -⟩ : ∃ s', getFast (100000 * size100k) (lastColumn s.block ptr) (links (lastColumn s.block ptr) (origPtr ptr)) = some (c, s') ∧
      Yields (getFast (100000 * size100k) (lastColumn s.block ptr)) s' (t ++ [s.block.getD 0 0]) := by
    have h2 := hy
    rw [hct, List.cons_append] at h2
    rw [hct]
    exact h2
  unfold expand
  simp only
  rw [hg]
  simp only
  rw [hlast]
  exact unrle_block h hg hy

/-- What holds while bytes are added: `x` are those so far; `done` are those in blocks that are written; `fs` are the fields of
these blocks, `n` their number; reading their bits gives `done`. -/
structure EncInv (size100k : Nat) (s : Enc) (x : List Nat) : Prop where
  all : s.all < 2 ^ 32
  small : s.run.block.length < 100000 * size100k - 19
  ex : ∃ (done : List Nat) (ps : List Pair) (fs : List Field) (n : Nat), RunInv s.run ps ∧
    s.fields = (if s.first then [] else headerFields size100k) ++ fs ∧ (s.first = true → fs = []) ∧
    (∀ f ∈ fs, f.1 ≤ 24 ∧ f.2 < 2 ^ f.1) ∧ n ≤ (bitsOf fs).length ∧ done ++ (ps ++ s.run.pending).flatMap rawPair = x ∧
    ∀ k rest, getBlocks size100k (n + k) 0 [] (bitsOf fs ++ rest) = getBlocks size100k k s.all done rest

theorem compressBlock_spec {sort : List Nat → List Nat} (hsort : ∀ b, SortedRot b (sort b)) {size100k : Nat} (h9 : size100k ≤ 9)
    {s : Enc} {done : List Nat} {ps : List Pair} {fs : List Field} {n : Nat} (hall : s.all < 2 ^ 32)
    (hinv : BlockInv s.run ps) (hne : s.run.block ≠ []) (hlen : s.run.block.length ≤ 100000 * size100k)
    (hfs : s.fields = (if s.first then [] else headerFields size100k) ++ fs) (hfirst : s.first = true → fs = [])
    (hok : ∀ f ∈ fs, f.1 ≤ 24 ∧ f.2 < 2 ^ f.1) (hn : n ≤ (bitsOf fs).length)
    (hget : ∀ k rest, getBlocks size100k (n + k) 0 [] (bitsOf fs ++ rest) = getBlocks size100k k s.all done rest) :
    ∃ s' fs', s.compressBlock sort size100k = some s' ∧ s'.run = s.run ∧ s'.all < 2 ^ 32 ∧ s'.first = false ∧
      s'.fields = headerFields size100k ++ fs' ∧ (∀ f ∈ fs', f.1 ≤ 24 ∧ f.2 < 2 ^ f.1) ∧ n + 1 ≤ (bitsOf fs').length ∧
      ∀ k rest, getBlocks size100k (n + 1 + k) 0 [] (bitsOf fs' ++ rest) =
        getBlocks size100k k s'.all (done ++ ps.flatMap rawPair) rest := by
  have hcrc : crcFinal s.run.crc = crcOf (ps.flatMap rawPair) := by rw [hinv.crc]; rfl
  obtain ⟨bf, hbf, hbok, hbget⟩ := C95_roundtrip (size100k := size100k) (crc := crcFinal s.run.crc) (inUse := s.run.inUse) h9
    (by rw [hcrc]; exact crcOf_lt _) hne (blockInv_bytes hinv) (fun b hb => (hinv.used b).mpr hb) hlen (hsort s.run.block)
  refine ⟨⟨s.run, crcCombine s.all (crcFinal s.run.crc), false, headerFields size100k ++ (fs ++ (8, 0x31) :: bf)⟩, fs ++ (8, 0x31) :: bf,
    ?_, rfl, ?_, rfl, rfl, ?_, ?_, ?_⟩
  · unfold Enc.compressBlock
    simp only
    rw [if_neg hne, hbf, Option.map_some]
    congr 2
    rw [hfs]
    cases hf : s.first with
    | true => rw [hfirst hf]; simp
    | false => simp
  · exact crcCombine_lt hall (by rw [hcrc]; exact crcOf_lt _)
  · intro f hf
    rcases List.mem_append.mp hf with hf | hf
    · exact hok f hf
    · exact hbok f hf
  · rw [bitsOf_append, bitsOf_cons, List.length_append, List.length_append, toBits_length]
    dsimp only
    omega
  · intro k rest
    have hbget' : ∀ rest, getBlock size100k (bitsOf bf ++ rest) = _ := hbget
    rw [bitsOf_append, List.append_assoc, show n + 1 + k = n + (k + 1) by omega, hget, bitsOf_cons, List.append_assoc, getBlocks,
      bind_ok (getBits_toBits (by norm_num) _), if_neg (by norm_num), if_neg (by norm_num), bind_ok (hbget' rest),
      expand_spec hinv hne (hsort _) hlen]
    dsimp only
    rw [if_neg (by rw [hcrc]; simp), hcrc]

theorem encInv_byte {sort : List Nat → List Nat} (hsort : ∀ b, SortedRot b (sort b)) {size100k : Nat} (h1 : 1 ≤ size100k)
    (h9 : size100k ≤ 9) {s : Enc} {x : List Nat} (h : EncInv size100k s x) {c : Nat} (hc : c < 256) :
    ∃ s', s.byte sort size100k c = some s' ∧ EncInv size100k s' (x ++ [c]) := by
  obtain ⟨done, ps, fs, n, hrun, hfs, hfirst, hok, hn, hx, hget⟩ := h.ex
  obtain ⟨ps', hrun', hx', hlen', -⟩ := runInv_addChar hrun hc
  have hsm := h.small
  unfold Enc.byte
  simp only
  by_cases hfull : 100000 * size100k - 19 ≤ (s.run.addChar c).block.length
  · rw [if_pos hfull]
    have hne : (s.run.addChar c).block ≠ [] := by
      intro e
      rw [e, List.length_nil] at hfull
      omega
    obtain ⟨s', fs', e, er, hall', hf', hfs', hok', hn', hget'⟩ := compressBlock_spec (s := { s with run := s.run.addChar c })
      hsort h9 h.all hrun'.inv hne (by dsimp only; omega) hfs hfirst hok hn hget
    rw [e, Option.map_some]
    refine ⟨_, rfl, hall', ?_, done ++ ps'.flatMap rawPair, [], fs', n + 1, ?_, ?_, ?_, hok', hn', ?_, hget'⟩
    · simp only [EncRun.newBlock, List.length_nil]
      omega
    · dsimp only
      rw [er]
      exact runInv_newBlock hrun'
    · dsimp only
      rw [hf', hfs']
      simp
    · dsimp only
      intro hf
      rw [hf'] at hf
      cases hf
    · dsimp only
      rw [er]
      have hp : (s.run.addChar c).newBlock.pending = (s.run.addChar c).pending := rfl
      rw [hp, List.append_assoc, ← List.flatMap_append, List.nil_append] at *
      rw [hx', ← List.append_assoc, hx]
  · rw [if_neg hfull]
    refine ⟨_, rfl, h.all, by dsimp only; omega, done, ps', fs, n, hrun', hfs, hfirst, hok, hn, ?_, hget⟩
    dsimp only
    rw [hx', ← List.append_assoc, hx]

theorem encInv_bytes {sort : List Nat → List Nat} (hsort : ∀ b, SortedRot b (sort b)) {size100k : Nat} (h1 : 1 ≤ size100k)
    (h9 : size100k ≤ 9) : ∀ (l : List Nat) {s : Enc} {x : List Nat}, EncInv size100k s x → (∀ b ∈ l, b < 256) →
    ∃ s', s.bytes sort size100k l = some s' ∧ EncInv size100k s' (x ++ l)
  | [], s, x, h, _ => ⟨s, rfl, by rw [List.append_nil]; exact h⟩
  | c :: l, s, x, h, hb => by
    obtain ⟨s1, e1, i1⟩ := encInv_byte hsort h1 h9 h (hb c List.mem_cons_self)
    obtain ⟨s2, e2, i2⟩ := encInv_bytes hsort h1 h9 l i1 fun b hb' => hb b (List.mem_cons_of_mem _ hb')
    refine ⟨s2, ?_, ?_⟩
    · rw [Enc.bytes, e1]
      exact e2
    · rw [List.append_assoc] at i2
      exact i2

theorem encInv_start {size100k : Nat} (h1 : 1 ≤ size100k) : EncInv size100k .start [] := by
  refine ⟨by norm_num [Enc.start], ?_, [], [], [], 0, runInv_start, rfl, fun _ => rfl, by simp, by simp, rfl, ?_⟩
  · simp only [Enc.start, EncRun.start, List.length_nil]
    omega
  · intro k rest
    rw [Nat.zero_add]
    rfl

/-- Reading the end of a stream. -/
theorem getBlocks_trailer {size100k n all : Nat} (hall : all < 2 ^ 32) (out : List Nat) (rest : List Bool) :
    getBlocks size100k (n + 1) all out (bitsOf (trailerFields all) ++ rest) = .ok out rest := by
  have e : bitsOf (trailerFields all) = toBits 8 0x17 ++ (bitsOf ([0x72, 0x45, 0x38, 0x50, 0x90].flatMap putUChar) ++ toBits 32 all) := by
    unfold trailerFields
    rw [List.flatMap_cons, bitsOf_append, bitsOf_append, bitsOf_putUInt32, List.append_assoc]
    rfl
  have e4 : 0 * 256 ^ 4 + all % 2 ^ (8 * 4) = all := by rw [Nat.mod_eq_of_lt (by norm_num at hall ⊢; exact hall)]; simp
  rw [e, List.append_assoc, List.append_assoc, getBlocks, bind_ok (getBits_toBits (by norm_num) _), if_pos rfl,
    bind_ok (expects_spec _ _ (by decide)), bind_ok (getBytes_spec 4 0 all _), e4, if_neg (by simp)]
  rfl

theorem getStream_header {size100k : Nat} (h1 : 1 ≤ size100k) (h9 : size100k ≤ 9) (bs : List Bool) :
    getStream (bitsOf (headerFields size100k) ++ bs) = getBlocks size100k (bs.length + 1) 0 [] bs := by
  have e : bitsOf (headerFields size100k) = bitsOf ([0x42, 0x5a, 0x68].flatMap putUChar) ++ toBits 8 (0x30 + size100k) := by
    unfold headerFields
    rw [show [0x42, 0x5a, 0x68, 0x30 + size100k] = [0x42, 0x5a, 0x68] ++ [0x30 + size100k] from rfl, List.flatMap_append, bitsOf_append]
    simp [bitsOf, putUChar]
  unfold getStream
  rw [e, List.append_assoc, bind_ok (expects_spec _ _ (by decide)), bind_ok (getBits_toBits (by norm_num; omega) _), if_neg (by omega),
    Nat.add_sub_cancel_left]
  rfl

/-- **What is compressed is decompressed to the same bytes.** For every list of bytes of any length, every block size from 1 to
9 and every way to sort the rotations of a block, the compressor succeeds with a list of bytes, and the decompressor gives the original
bytes, whatever follows in the file. -/
theorem C96_roundtrip {sort : List Nat → List Nat} (hsort : ∀ b, SortedRot b (sort b)) {size100k : Nat} (h1 : 1 ≤ size100k)
    (h9 : size100k ≤ 9) (x : List Nat) (hx : ∀ b ∈ x, b < 256) :
    ∃ bytes, compress sort size100k x = some bytes ∧ (∀ b ∈ bytes, b < 256) ∧
      ∃ p, p < 8 ∧ ∀ more, decompress (bytes ++ more) = .ok x (List.replicate p false ++ byteBits more) := by
  obtain ⟨s, es, hinv⟩ := encInv_bytes hsort h1 h9 x (encInv_start h1) hx
  rw [List.nil_append] at hinv
  obtain ⟨done, ps, fs, n, hrun, hfs, hfirst, hok, hn, hx', hget⟩ := hinv.ex
  obtain ⟨ps', hb, hps', hlen⟩ := blockInv_flush hrun
  have hsm := hinv.small
  -- the last block
  have hlast : ∃ s' fs' n', Enc.compressBlock sort size100k { s with run := s.run.flushRL } = some s' ∧ s'.all < 2 ^ 32 ∧
      s'.fields = headerFields size100k ++ fs' ∧ (∀ f ∈ fs', f.1 ≤ 24 ∧ f.2 < 2 ^ f.1) ∧ n' ≤ (bitsOf fs').length ∧
      ∀ k rest, getBlocks size100k (n' + k) 0 [] (bitsOf fs' ++ rest) = getBlocks size100k k s'.all x rest := by
    by_cases hne : s.run.flushRL.block = []
    · refine ⟨⟨s.run.flushRL, s.all, false, headerFields size100k ++ fs⟩, fs, n, ?_, hinv.all, rfl, hok, hn, ?_⟩
      · unfold Enc.compressBlock
        simp only
        rw [if_pos hne, hfs]
        cases hf : s.first with
        | true => rw [hfirst hf]; simp
        | false => simp
      · have hps0 : ps' = [] := by
          cases ps' with
          | nil => rfl
          | cons p ps' =>
            exfalso
            have := hb.block
            rw [hne, List.flatMap_cons] at this
            have h2 := (encPair_length p (hb.ok p List.mem_cons_self)).1
            have h3 : encPair p = [] := (List.append_eq_nil_iff.mp this.symm).1
            rw [h3] at h2
            simp at h2
        have hd : done = x := by
          rw [← hps', hps0] at hx'
          simpa using hx'
        rw [← hd]
        exact hget
    · obtain ⟨s', fs', e, -, hall', -, hfs', hok', hn', hget'⟩ := compressBlock_spec (s := { s with run := s.run.flushRL })
        hsort h9 hinv.all hb hne (by dsimp only; omega) hfs hfirst hok hn hget
      refine ⟨s', fs', n + 1, e, hall', hfs', hok', hn', ?_⟩
      rw [hps', hx'] at hget'
      exact hget'
  obtain ⟨s', fs', n', e, hall', hfs', hok', hn', hget'⟩ := hlast
  have hfok : ∀ f ∈ s'.fields ++ trailerFields s'.all, f.1 ≤ 24 ∧ f.2 < 2 ^ f.1 := by
    intro f hf
    rw [hfs'] at hf
    rcases List.mem_append.mp hf with hf | hf
    · rcases List.mem_append.mp hf with hf | hf
      · unfold headerFields at hf
        obtain ⟨b, hb, hf⟩ := List.mem_flatMap.mp hf
        simp only [putUChar, List.mem_singleton] at hf
        simp only [List.mem_cons, List.not_mem_nil, or_false] at hb
        rw [hf]
        refine ⟨by norm_num, ?_⟩
        rcases hb with rfl | rfl | rfl | rfl <;> norm_num
        omega
      · exact hok' f hf
    · unfold trailerFields at hf
      rcases List.mem_append.mp hf with hf | hf
      · have hall : ∀ f ∈ [0x17, 0x72, 0x45, 0x38, 0x50, 0x90].flatMap putUChar, f.1 ≤ 24 ∧ f.2 < 2 ^ f.1 := by decide
        exact hall f hf
      · unfold putUInt32 at hf
        simp only [List.mem_cons, List.not_mem_nil, or_false] at hf
        have hlt : ∀ x : Nat, x % 256 < 2 ^ 8 := fun x => Nat.mod_lt _ (by norm_num)
        rcases hf with rfl | rfl | rfl | rfl <;> exact ⟨by norm_num, hlt _⟩
  obtain ⟨hbytes, p, hp, hbits⟩ := C89_writer _ hfok
  refine ⟨_, ?_, hbytes, p, hp, ?_⟩
  · unfold compress
    rw [es, Option.bind_some, e, Option.map_some]
  · intro more
    have hbb : byteBits (writeAll (s'.fields ++ trailerFields s'.all) ++ more) =
        bitsOf (headerFields size100k) ++ (bitsOf fs' ++ (bitsOf (trailerFields s'.all) ++ (List.replicate p false ++ byteBits more))) := by
      have : byteBits (writeAll (s'.fields ++ trailerFields s'.all) ++ more) =
          byteBits (writeAll (s'.fields ++ trailerFields s'.all)) ++ byteBits more := by
        unfold byteBits
        rw [List.flatMap_append]
      rw [this, hbits]
      change bitsOf _ ++ _ ++ _ = _
      rw [bitsOf_append, hfs', bitsOf_append]
      simp only [List.append_assoc]
    unfold decompress
    rw [hbb, getStream_header h1 h9]
    obtain ⟨k, hk⟩ : ∃ k, (bitsOf fs' ++ (bitsOf (trailerFields s'.all) ++ (List.replicate p false ++ byteBits more))).length + 1 = n' + (k + 1) :=
      ⟨(bitsOf fs' ++ (bitsOf (trailerFields s'.all) ++ (List.replicate p false ++ byteBits more))).length - n', by
        rw [List.length_append]; omega⟩
    rw [hk, hget', getBlocks_trailer hall']

/-- There is a way to sort as `C96_roundtrip` asks for. -/
example : ∃ sort : List Nat → List Nat, ∀ b, SortedRot b (sort b) :=
  ⟨fun b => (exists_sortedRot b).choose, fun b => (exists_sortedRot b).choose_spec⟩

/-- The bytes of `bananaaaaaaas`, as the original program compresses them. -/
example : SortedRot [98, 97, 110, 97, 110, 97, 97, 97, 97, 4, 115] [9, 8, 7, 6, 5, 3, 1, 0, 4, 2, 10] ∧
    compress (fun _ => [9, 8, 7, 6, 5, 3, 1, 0, 4, 2, 10]) 1 [98, 97, 110, 97, 110, 97, 97, 97, 97, 97, 97, 97, 115] =
      some [66, 90, 104, 49, 49, 65, 89, 38, 83, 89, 9, 100, 129, 234, 0, 0, 3, 193, 128, 8, 0, 48, 1, 8, 0, 32, 0, 33, 36, 218, 65, 154, 14, 4,
        114, 111, 23, 114, 69, 56, 80, 144, 9, 100, 129, 234] :=
  ⟨⟨by decide, by decide⟩, by decide +kernel⟩

example : decompress [66, 90, 104, 49, 49, 65, 89, 38, 83, 89, 9, 100, 129, 234, 0, 0, 3, 193, 128, 8, 0, 48, 1, 8, 0, 32, 0, 33, 36, 218, 65,
      154, 14, 4, 114, 111, 23, 114, 69, 56, 80, 144, 9, 100, 129, 234] =
    .ok [98, 97, 110, 97, 110, 97, 97, 97, 97, 97, 97, 97, 115] [] := by decide +kernel

end Simox.Bz
