import Verif.Bz.SafeLemmas
import Verif.Bz.StreamProps

/-!
# bzip2: what the decompressor does with arbitrary input: C97
-/

namespace Simox.Bz

theorem bind_congr_spec {α β : Type} {x : Dec α} {k : Nat} {P : α → Prop} (hx : Spec x k P) {f g : α → Dec β} {bs : List Bool}
    (h : ∀ a rest, P a → rest.length + k ≤ bs.length → f a rest = g a rest) : (x >>= f) bs = (x >>= g) bs := by
  change Dec.bind x f bs = Dec.bind x g bs
  unfold Dec.bind
  cases hr : x bs with
  | ok a rest =>
    obtain ⟨h1, h2, -⟩ := (hx bs).2 a rest hr
    exact h a rest h1 h2
  | _ => rfl

/-- **A length takes bits**: the bound for the number of turns does not matter if it is greater than the number of bits. -/
theorem getLen_fuel : ∀ (n m curr : Nat) (bs : List Bool), bs.length < n → bs.length < m → getLen n curr bs = getLen m curr bs
  | 0, _, _, _, h, _ => by omega
  | _ + 1, 0, _, _, _, h => by omega
  | n + 1, m + 1, curr, bs, hn, hm => by
    rw [getLen, getLen]
    by_cases hc : curr < 1 ∨ 20 < curr
    · rw [if_pos hc, if_pos hc]
    · rw [if_neg hc, if_neg hc]
      apply bind_congr_spec (spec_getBits 1)
      intro a rest _ hl
      by_cases ha : a = 0
      · rw [if_pos ha, if_pos ha]
      · rw [if_neg ha, if_neg ha]
        apply bind_congr_spec (spec_getBits 1)
        intro b rest' _ hl'
        exact getLen_fuel n m _ rest' (by omega) (by omega)

theorem getVals_fuel {inUse : Nat → Bool} {max : Nat} {tables : List (List Nat)}
    (ht : ∀ t ∈ tables, t.length = nInUse inUse + 2 ∧ ∀ l ∈ t, 1 ≤ l ∧ l ≤ 20) :
    ∀ (n m : Nat) (s : ValD) (bs : List Bool), (∀ j ∈ s.sels, j < tables.length) → (s.pos ≠ 0 → ∃ t ∈ tables, s.table = tableOf t) →
      bs.length < n → bs.length < m →
      getVals (tables.map tableOf) (seqToUnseq inUse) (nInUse inUse + 1) max n s bs =
        getVals (tables.map tableOf) (seqToUnseq inUse) (nInUse inUse + 1) max m s bs
  | 0, _, _, _, _, _, h, _ => by omega
  | _ + 1, 0, _, _, _, _, _, h => by omega
  | n + 1, m + 1, s, bs, hs, hp, hn, hm => by
    rw [getVals, getVals]
    cases he : s.next (tables.map tableOf) with
    | none => rfl
    | some s' =>
      have hnext : (∀ j ∈ s'.sels, j < tables.length) ∧ ∃ t ∈ tables, s'.table = tableOf t := by
        unfold ValD.next at he
        by_cases h0 : s.pos = 0
        · rw [if_pos h0] at he
          cases hsel : s.sels with
          | nil => rw [hsel] at he; cases he
          | cons j sels =>
            rw [hsel] at he hs
            simp only [Option.some.injEq] at he
            subst he
            have hj := hs j List.mem_cons_self
            refine ⟨fun x hx => hs x (List.mem_cons_of_mem _ hx), tables[j], List.getElem_mem _, ?_⟩
            dsimp only
            rw [List.getD_eq_getElem _ _ (by simpa using hj), List.getElem_map]
        · rw [if_neg h0, Option.some.injEq] at he
          subst he
          exact ⟨hs, hp h0⟩
      obtain ⟨h1, t, htm, htab⟩ := hnext
      obtain ⟨htl, hlens⟩ := ht t htm
      have h256 := nInUse_le inUse
      dsimp only
      rw [htab]
      apply bind_congr_spec (spec_decodeSym (by omega) hlens (by intro e; rw [e] at htl; simp at htl))
      intro sym rest _ hl
      cases hr : mtfDecStep (seqToUnseq inUse) (nInUse inUse + 1) max s'.mtf sym with
      | go m' =>
        exact getVals_fuel ht n m { s' with mtf := m', table := tableOf t } rest h1 (fun _ => ⟨t, htm, rfl⟩) (by omega) (by omega)
      | done tt => rfl
      | err => rfl

theorem getSel_zero {k : Nat} (hk : 1 ≤ k) (rest : List Bool) : getSel k 0 (false :: rest) = .ok 0 rest := by
  obtain ⟨k, rfl⟩ : ∃ m, k = m + 1 := ⟨k - 1, by omega⟩
  rw [getSel, bind_ok (getBit_cons false rest)]
  rfl

/-- More than 18 002 selectors are never read. -/
theorem getSels_big (g n : Nat) : ∀ (k i : Nat), 18002 < i + k → i ≤ 18002 → ∀ bs a rest, getSels g n k i bs ≠ .ok a rest
  | 0, i, h, h', _, _, _ => by omega
  | k + 1, i, h, h', bs, a, rest => by
    rw [getSels]
    change Dec.bind _ _ bs ≠ _
    unfold Dec.bind
    cases hr : getSel g 0 bs with
    | ok j r =>
      dsimp only
      by_cases hi : 18002 ≤ i
      · rw [if_pos hi]
        intro e
        cases e
      · rw [if_neg hi]
        change Dec.bind _ _ r ≠ _
        unfold Dec.bind
        cases hr' : getSels g n k (i + 1) r with
        | ok l r' => exact absurd hr' (getSels_big g n k (i + 1) (by omega) (by omega) r l r')
        | _ => simp
    | _ => simp

/-- Reading a block takes bits from the front. -/
theorem getBlock_suffix {size100k : Nat} {bs : List Bool} {b : DBlock} {rest : List Bool} (h : getBlock size100k bs = .ok b rest) :
    rest.length ≤ bs.length ∧ rest <:+ bs ∧ DBlockOk size100k b := by
  unfold getBlock at h
  change Dec.bind _ _ bs = _ at h
  unfold Dec.bind at h
  cases hr : getHead size100k bs with
  | ok hd r =>
    rw [hr] at h
    dsimp only at h
    obtain ⟨hok, hl, hs⟩ := (spec_getHead size100k bs).2 hd r hr
    by_cases hn : hd.nSelectors ≤ 18002
    · obtain ⟨h1, h2, h3⟩ := (spec_getBody size100k hok hn r).2 b rest h
      exact ⟨by omega, h3.trans hs, h1⟩
    · exfalso
      unfold getBody at h
      change Dec.bind _ _ r = _ at h
      unfold Dec.bind at h
      cases hr' : getSels hd.nGroups hd.nSelectors hd.nSelectors 0 r with
      | ok l r' => exact getSels_big _ _ _ 0 (by omega) (by omega) r l r' hr'
      | more => rw [hr'] at h; cases h
      | err => rw [hr'] at h; cases h
      | ub => rw [hr'] at h; cases h
      | random => rw [hr'] at h; cases h
  | more => rw [hr] at h; cases h
  | err => rw [hr] at h; cases h
  | ub => rw [hr] at h; cases h
  | random => rw [hr] at h; cases h

theorem getBlocks_fuel (size100k : Nat) : ∀ (n m all : Nat) (out : List Nat) (bs : List Bool), bs.length < n → bs.length < m →
    getBlocks size100k n all out bs = getBlocks size100k m all out bs
  | 0, _, _, _, _, h, _ => by omega
  | _ + 1, 0, _, _, _, _, h => by omega
  | n + 1, m + 1, all, out, bs, hn, hm => by
    rw [getBlocks, getBlocks]
    apply bind_congr_spec (spec_getBits 8)
    intro uc rest _ hl
    by_cases h17 : uc = 0x17
    · rw [if_pos h17, if_pos h17]
    · rw [if_neg h17, if_neg h17]
      by_cases h31 : uc ≠ 0x31
      · rw [if_pos h31, if_pos h31]
      · rw [if_neg h31, if_neg h31]
        change Dec.bind _ _ rest = Dec.bind _ _ rest
        unfold Dec.bind
        cases hr : getBlock size100k rest with
        | ok b r =>
          have := (getBlock_suffix hr).1
          dsimp only
          cases expand size100k b with
          | none => rfl
          | some x =>
            dsimp only
            by_cases hc : crcOf x ≠ b.crc
            · rw [if_pos hc, if_pos hc]
            · rw [if_neg hc, if_neg hc]
              exact getBlocks_fuel size100k n m _ _ r (by omega) (by omega)
        | _ => rfl

/-- **The loops of the decompressor end.** The bounds in the model do not matter: reading a length, the values of a block (with
tables and selectors as they can be read) and all blocks gives the same result for every bound greater than the number of
bits. -/
theorem C95_fuel :
    (∀ (n m curr : Nat) (bs : List Bool), bs.length < n → bs.length < m → getLen n curr bs = getLen m curr bs) ∧
    (∀ (inUse : Nat → Bool) (max : Nat) (tables : List (List Nat)), (∀ t ∈ tables, t.length = nInUse inUse + 2 ∧ ∀ l ∈ t, 1 ≤ l ∧ l ≤ 20) →
      ∀ (n m : Nat) (sels : List Nat) (t : Table) (d : MtfD) (bs : List Bool), (∀ j ∈ sels, j < tables.length) → bs.length < n → bs.length < m →
        getVals (tables.map tableOf) (seqToUnseq inUse) (nInUse inUse + 1) max n ⟨sels, 0, t, d⟩ bs =
          getVals (tables.map tableOf) (seqToUnseq inUse) (nInUse inUse + 1) max m ⟨sels, 0, t, d⟩ bs) ∧
    ∀ (size100k n m all : Nat) (out : List Nat) (bs : List Bool), bs.length < n → bs.length < m →
      getBlocks size100k n all out bs = getBlocks size100k m all out bs :=
  ⟨getLen_fuel, fun _ _ _ ht n m _ _ _ bs hs hn hm => getVals_fuel ht n m _ bs hs (fun h => absurd rfl h) hn hm, getBlocks_fuel⟩

/-! ## Arrays -/

/-- **Reading a block leaves an array only if there are too many selectors.** For every sequence of bits: if the number of selectors
in the header is at most 18 002, no array is left; the block that is read consists of at most `100 000 * size100k` bytes, and `origPtr`
is one of its places. -/
theorem C97_block_partial {size100k : Nat} {bs r : List Bool} {h : Head} (hh : getHead size100k bs = .ok h r) (hs : h.nSelectors ≤ 18002) :
    getBlock size100k bs ≠ .ub ∧ ∀ b rest, getBlock size100k bs = .ok b rest →
      (∀ x ∈ b.tt, x < 256) ∧ b.tt.length ≤ 100000 * size100k ∧ b.origPtr < b.tt.length := by
  obtain ⟨hok, -, -⟩ := (spec_getHead size100k bs).2 h r hh
  refine ⟨?_, fun b rest e => ?_⟩
  · unfold getBlock
    rw [bind_ok hh]
    exact (spec_getBody size100k hok hs r).1
  · obtain ⟨-, -, h1⟩ := getBlock_suffix e
    exact ⟨h1.bytes, h1.room, h1.ptr⟩

/-- The same for a whole file: if an array is left, the rest of the file at some point is a header with too many selectors. -/
theorem C97_stream_partial {bytes : List Nat} (h : decompress bytes = .ub) :
    ∃ size100k bs hd r, bs <:+ byteBits bytes ∧ getHead size100k bs = .ok hd r ∧ 18002 < hd.nSelectors := by
  have key : ∀ (size100k n all : Nat) (out : List Nat) (bs : List Bool), getBlocks size100k n all out bs = .ub →
      ∃ bs' hd r, bs' <:+ bs ∧ getHead size100k bs' = .ok hd r ∧ 18002 < hd.nSelectors := by
    intro size100k n
    induction n with
    | zero => intro all out bs h; cases h
    | succ n ih =>
      intro all out bs h
      rw [getBlocks] at h
      change Dec.bind _ _ bs = _ at h
      unfold Dec.bind at h
      cases hr : getBits 8 bs with
      | ok uc rest =>
        rw [hr] at h
        have hsuf := ((spec_getBits 8 bs).2 uc rest hr).2.2
        dsimp only at h
        by_cases h17 : uc = 0x17
        · rw [if_pos h17] at h
          exfalso
          refine ((spec_expects [0x72, 0x45, 0x38, 0x50, 0x90]).bind (l := 0) (Q := fun _ => True) fun _ _ =>
            (spec_getBytes 4 0).bind (l := 0) fun stored _ =>
              Spec.ite (c := all ≠ stored) (x := Dec.fail) (y := pure out) (fun _ => Spec.fail _ _) fun _ => Spec.pure trivial) rest |>.1 h
        · rw [if_neg h17] at h
          by_cases h31 : uc ≠ 0x31
          · rw [if_pos h31] at h; cases h
          · rw [if_neg h31] at h
            change Dec.bind _ _ rest = _ at h
            unfold Dec.bind at h
            cases hb : getBlock size100k rest with
            | ok b r =>
              rw [hb] at h
              dsimp only at h
              obtain ⟨-, hs2, -⟩ := getBlock_suffix hb
              cases hx : expand size100k b with
              | none => rw [hx] at h; cases h
              | some x =>
                rw [hx] at h
                dsimp only at h
                by_cases hc : crcOf x ≠ b.crc
                · rw [if_pos hc] at h; cases h
                · rw [if_neg hc] at h
                  obtain ⟨bs', hd, r', h1, h2, h3⟩ := ih _ _ r h
                  exact ⟨bs', hd, r', (h1.trans hs2).trans hsuf, h2, h3⟩
            | more => rw [hb] at h; cases h
            | err => rw [hb] at h; cases h
            | random => rw [hb] at h; cases h
            | ub =>
              cases hh : getHead size100k rest with
              | ok hd r =>
                refine ⟨rest, hd, r, hsuf, hh, ?_⟩
                by_contra hn
                exact (C97_block_partial hh (by omega)).1 hb
              | ub => exact absurd hh (spec_getHead size100k rest).1
              | more =>
                unfold getBlock at hb
                change Dec.bind _ _ rest = _ at hb
                unfold Dec.bind at hb
                rw [hh] at hb; cases hb
              | err =>
                unfold getBlock at hb
                change Dec.bind _ _ rest = _ at hb
                unfold Dec.bind at hb
                rw [hh] at hb; cases hb
              | random =>
                unfold getBlock at hb
                change Dec.bind _ _ rest = _ at hb
                unfold Dec.bind at hb
                rw [hh] at hb; cases hb
      | more => rw [hr] at h; cases h
      | err => rw [hr] at h; cases h
      | ub => exact absurd hr (spec_getBits 8 bs).1
      | random => rw [hr] at h; cases h
  unfold decompress getStream at h
  change Dec.bind _ _ _ = _ at h
  unfold Dec.bind at h
  cases hr : expects [0x42, 0x5a, 0x68] (byteBits bytes) with
  | ok u rest =>
    rw [hr] at h
    have hs1 := ((spec_expects _ _).2 u rest hr).2.2
    dsimp only at h
    change Dec.bind _ _ _ = _ at h
    unfold Dec.bind at h
    cases hc : getBits 8 rest with
    | ok c r =>
      rw [hc] at h
      have hs2 := ((spec_getBits 8 rest).2 c r hc).2.2
      dsimp only at h
      by_cases hcc : c < 0x30 + 1 ∨ 0x30 + 9 < c
      · rw [if_pos hcc] at h; cases h
      · rw [if_neg hcc] at h
        obtain ⟨bs', hd, r', h1, h2, h3⟩ := key _ _ _ _ _ h
        exact ⟨_, bs', hd, r', (h1.trans hs2).trans hs1, h2, h3⟩
    | more => rw [hc] at h; cases h
    | err => rw [hc] at h; cases h
    | ub => exact absurd hc (spec_getBits 8 rest).1
    | random => rw [hc] at h; cases h
  | more => rw [hr] at h; cases h
  | err => rw [hr] at h; cases h
  | ub => exact absurd hr (spec_expects _ _).1
  | random => rw [hr] at h; cases h

theorem getSels_overflow {g n : Nat} (hg : 1 ≤ g) (rest : List Bool) : ∀ k i, 18002 < i + k → i ≤ 18002 →
    getSels g n k i (List.replicate k false ++ rest) = .ub
  | 0, i, h, h' => by omega
  | k + 1, i, h, h' => by
    rw [getSels, List.replicate_succ, List.cons_append, bind_ok (getSel_zero hg _)]
    by_cases hi : 18002 ≤ i
    · rw [if_pos hi]
      rfl
    · rw [if_neg hi]
      change Dec.bind _ _ _ = _
      unfold Dec.bind
      rw [getSels_overflow hg rest k (i + 1) (by omega) (by omega)]

/-- The fields of a file that claims to have `n` selectors. -/
def overflowFields (n : Nat) : List Field :=
  headerFields 1 ++ (8, 0x31) :: ([0x41, 0x59, 0x26, 0x53, 0x59].flatMap putUChar ++ putUInt32 0 ++ [(1, 0), (24, 0)] ++
    mapFields (fun b => b == 97) ++ [(3, 2), (15, n)] ++ List.replicate n (1, 0))

/-- **The decompressor does not check all of its input**: for every number of selectors from 18 003 to 32 767 there is a file for which it
writes outside an array. -/
theorem C97_safe_false {n : Nat} (hn : 18002 < n) (hn' : n < 2 ^ 15) :
    ∃ bytes, (∀ b ∈ bytes, b < 256) ∧ decompress bytes = .ub := by
  have hf : ∀ f ∈ overflowFields n, f.1 ≤ 24 ∧ f.2 < 2 ^ f.1 := by
    intro f hf
    unfold overflowFields at hf
    rcases List.mem_append.mp hf with hf | hf
    · have hall : ∀ f ∈ headerFields 1, f.1 ≤ 24 ∧ f.2 < 2 ^ f.1 := by decide
      exact hall f hf
    · rcases List.mem_cons.mp hf with rfl | hf
      · decide
      · rcases List.mem_append.mp hf with hf | hf
        · rcases List.mem_append.mp hf with hf | hf
          · have hall : ∀ f ∈ [0x41, 0x59, 0x26, 0x53, 0x59].flatMap putUChar ++ putUInt32 0 ++ [(1, 0), (24, 0)] ++
              mapFields (fun b => b == 97), f.1 ≤ 24 ∧ f.2 < 2 ^ f.1 := by decide +kernel
            exact hall f hf
          · simp only [List.mem_cons, List.not_mem_nil, or_false] at hf
            rcases hf with rfl | rfl
            · decide
            · exact ⟨by norm_num, hn'⟩
        · rw [(List.mem_replicate.mp hf).2]; decide
  obtain ⟨hb, p, -, hbits⟩ := C89_writer (overflowFields n) hf
  refine ⟨_, hb, ?_⟩
  unfold decompress
  rw [hbits]
  change getStream (bitsOf (overflowFields n) ++ _) = _
  have erep : ∀ n : Nat, bitsOf (List.replicate n (1, 0)) = List.replicate n false := by
    intro n
    induction n with
    | zero => rfl
    | succ n ih => rw [List.replicate_succ, bitsOf_cons, ih]; rfl
  have e16 : bitsOf ((List.range 16).map fun i => bitField (inUse16 (fun b => b == 97) i)) = (List.range 16).map (inUse16 fun b => b == 97) := by
    rw [← bitsOf_flags ((List.range 16).map (inUse16 fun b => b == 97)), List.map_map]
    rfl
  unfold overflowFields mapFields
  simp only [bitsOf_append, bitsOf_cons, bitsOf_putUInt32, erep, e16, List.nil_append, List.append_assoc, List.cons_append]
  rw [getStream_header (by norm_num) (by norm_num), getBlocks, bind_ok (getBits_toBits (by norm_num) _), if_neg (by norm_num),
    if_neg (by norm_num)]
  have hu : 1 ≤ nInUse (fun b => b == 97) := by decide +kernel
  have hhead := getHead_spec (size100k := 1) (crc := 0) (ptr := 0) (inUse := fun b => b == 97) (g := 2) (n := n) (by norm_num)
    (by norm_num) (by norm_num) hu (by norm_num) (by norm_num) (by omega) hn' (List.replicate n false ++ List.replicate p false)
  have hblock := bind_ok (f := getBody 1) hhead
  change Dec.bind (getBlock 1) _ _ = _
  unfold Dec.bind
  unfold getBlock
  rw [hblock]
  have hsel := getSels_overflow (g := 2) (n := n) (by norm_num) (List.replicate p false) n 0 (by omega) (by omega)
  have hbody : getBody 1 ⟨0, 0, 0, (List.range 256).map fun b => b == 97, 2, n⟩ (List.replicate n false ++ List.replicate p false) = .ub := by
    unfold getBody
    change Dec.bind _ _ _ = _
    unfold Dec.bind
    rw [hsel]
  rw [hbody]

/-- The places of a block that are read when it is expanded, in order. -/
def trail (tt : List Nat) (origPtr : Nat) : Nat → Nat
  | 0 => links tt origPtr
  | n + 1 => links tt (trail tt origPtr n)

/-- **Expanding a block never leaves it**: however many bytes are read from a block that was read, every place is one of the block,
and the test in BZ_GET_FAST does not fail. -/
theorem C97_expand {size100k : Nat} {bs rest : List Bool} {b : DBlock} (h : getBlock size100k bs = .ok b rest) (n : Nat) :
    trail b.tt b.origPtr n < b.tt.length ∧
      getFast (100000 * size100k) b.tt (trail b.tt b.origPtr n) = some (b.tt.getD (trail b.tt b.origPtr n) 0, trail b.tt b.origPtr (n + 1)) := by
  obtain ⟨-, -, hok⟩ := getBlock_suffix h
  have hlt : ∀ n, trail b.tt b.origPtr n < b.tt.length := by
    intro n
    induction n with
    | zero => exact (C91_in_range hok.bytes hok.room hok.ptr).1
    | succ n ih => exact (C91_in_range hok.bytes hok.room ih).1
  exact ⟨hlt n, (C91_in_range hok.bytes hok.room (hlt n)).2⟩

/-- The states that the decoding of values can reach from the start with symbols of the alphabet. -/
inductive MtfReach (seq : List Nat) (k max : Nat) : MtfD → Prop where
  | start : MtfReach seq k max .start
  | step {s s' : MtfD} {sym : Nat} : MtfReach seq k max s → sym ≤ k + 1 → mtfDecStep seq (k + 1) max s sym = .go s' → MtfReach seq k max s'

/-- **Decoding the values never leaves an array**: in every state that can be reached with whatever symbols, the list has 256
elements, the first `nInUse` of which are numbers of bytes that are used, so that every access to the list and to `seqToUnseq` is to
an element that is set; and `tt` is never written beyond its end. -/
theorem C97_values {inUse : Nat → Bool} {max : Nat} {s : MtfD} (h : MtfReach (seqToUnseq inUse) (nInUse inUse) max s) :
    s.yy.length = 256 ∧ nInUse inUse ≤ 256 ∧ (∀ sym, 2 ≤ sym → sym ≤ nInUse inUse → sym - 1 < 256 ∧
      s.yy.getD (sym - 1) 0 < (seqToUnseq inUse).length) ∧ (1 ≤ nInUse inUse → s.yy.headD 0 < (seqToUnseq inUse).length) ∧
      s.tt.length ≤ max := by
  have hok : MtfOk (nInUse inUse) max s := by
    induction h with
    | start => exact mtfOk_start (nInUse_le _)
    | step _ hs he ih => exact (mtfOk_step (seqToUnseq_bytes inUse) (nInUse_le _) ih hs).1 _ he
  have h256 := nInUse_le inUse
  have hn : (seqToUnseq inUse).length = nInUse inUse := rfl
  refine ⟨hok.len, h256, fun sym h2 hs => ⟨by omega, ?_⟩, fun h1 => ?_, hok.room⟩
  · rw [hn]; exact hok.front _ (by omega)
  · have := hok.front 0 (by omega)
    rw [hn]
    cases hy : s.yy with
    | nil => have := hok.len; rw [hy] at this; simp at this
    | cons a t =>
      rw [hy] at this
      exact this

/-- A header with few selectors, as `C97_block_partial` asks for, followed by rubbish. -/
example : ∃ bs, getHead 1 bs = .ok ⟨5, 0, 0, (List.range 256).map fun b => decide (b = 65), 2, 1⟩ [true, false, true] :=
  ⟨_, getHead_spec (size100k := 1) (crc := 5) (ptr := 0) (g := 2) (n := 1) (inUse := fun b => decide (b = 65)) (by decide) (by decide) (by decide)
    (by decide +kernel) (by decide) (by decide) (by decide) (by decide) [true, false, true]⟩

/-- Numbers of selectors that are too large. -/
example : ∃ bytes, (∀ b ∈ bytes, b < 256) ∧ decompress bytes = .ub := C97_safe_false (n := 18003) (by norm_num) (by norm_num)

/-- A state that is reached. -/
example : ∃ s, MtfReach (seqToUnseq fun b => decide (b = 65)) (nInUse fun b => decide (b = 65)) 10 s ∧ s.run = true := ⟨_, .step (sym := 0) .start (Nat.zero_le _) rfl, rfl⟩

end Simox.Bz
