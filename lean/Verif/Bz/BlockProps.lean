import Verif.Bz.BlockLemmas
import Verif.Bz.BwtProps

/-!
# bzip2: blocks: C95
-/

namespace Simox.Bz

/-! ## The tables -/

theorem bestTable_lt {tables : List (List Nat)} (h : tables ≠ []) (g : List Nat) : bestTable tables g < tables.length := by
  unfold bestTable
  have key : ∀ (l : List Nat) (s : Nat × Nat), (∀ t ∈ l, t < tables.length) → s.2 < tables.length →
      (l.foldl (fun (s : Nat × Nat) t =>
        if groupCost (tables.getD t []) g < s.1 then (groupCost (tables.getD t []) g, t) else s) s).2 < tables.length := by
    intro l
    induction l with
    | nil => intro s _ hs; exact hs
    | cons t l ih =>
      intro s hl hs
      rw [List.foldl_cons]
      apply ih _ fun x hx => hl x (List.mem_cons_of_mem _ hx)
      split
      · exact hl t List.mem_cons_self
      · exact hs
  exact key _ _ (fun t ht => List.mem_range.mp ht) (List.length_pos_iff.mpr h)

theorem mapM_some {f : Nat → Option (List Nat)} : ∀ (l : List Nat), (∀ x ∈ l, ∃ y, f x = some y) →
    ∃ r, l.mapM f = some r ∧ r.length = l.length ∧ ∀ y ∈ r, ∃ x ∈ l, f x = some y
  | [], _ => ⟨[], rfl, rfl, fun y hy => by cases hy⟩
  | x :: l, h => by
    obtain ⟨y, hy⟩ := h x List.mem_cons_self
    obtain ⟨r, hr, hl, hm⟩ := mapM_some l fun z hz => h z (List.mem_cons_of_mem _ hz)
    refine ⟨y :: r, ?_, by simp [hl], ?_⟩
    · rw [List.mapM_cons, hy, hr]; rfl
    · intro z hz
      rcases List.mem_cons.mp hz with rfl | hz
      · exact ⟨x, List.mem_cons_self, hy⟩
      · obtain ⟨w, hw, e⟩ := hm z hz
        exact ⟨w, List.mem_cons_of_mem _ hw, e⟩

theorem groups_sum : ∀ (n : Nat) (l : List Nat), l.length ≤ n → ((groups l).map List.length).sum = l.length
  | 0, l, h => by
    have : l = [] := List.length_eq_zero_iff.mp (by omega)
    rw [this, groups_nil]; rfl
  | n + 1, l, h => by
    by_cases hl : l = []
    · rw [hl, groups_nil]; rfl
    · have hpos := List.length_pos_iff.mpr hl
      have := groups_sum n (l.drop 50) (by rw [List.length_drop]; omega)
      rw [groups_ne hl, List.map_cons, List.sum_cons, this, List.length_take, List.length_drop]
      omega

theorem tableFreq_le (gs : List (List Nat)) (sel : List Nat) (t v : Nat) : tableFreq gs sel t v ≤ (gs.map List.length).sum := by
  unfold tableFreq
  induction gs generalizing sel with
  | nil => simp
  | cons g gs ih =>
    cases sel with
    | nil => simp
    | cons s sel =>
      rw [List.zip_cons_cons, List.map_cons, List.sum_cons, List.map_cons, List.sum_cons]
      have := ih sel
      have hc : (if (g, s).2 = t then (g, s).1.count v else 0) ≤ g.length := by
        split
        · exact List.count_le_length
        · omega
      omega

/-- What holds for the selectors and the tables. -/
structure TabOk (A : Nat) (mtfv sel : List Nat) (tables : List (List Nat)) : Prop where
  nsel : sel.length = (groups mtfv).length
  sel : ∀ s ∈ sel, s < tables.length
  tables : ∀ t ∈ tables, t.length = A ∧ LensOk t ∧ 1 ≤ minLen t ∧ maxLen t ≤ 17

theorem improve_spec {A : Nat} (hA : 2 ≤ A) (h258 : A ≤ 258) (mtfv : List Nat) {tables : List (List Nat)} (h : tables ≠ []) :
    ∃ sel new, improve A mtfv tables = some (sel, new) ∧ new.length = tables.length ∧ TabOk A mtfv sel new := by
  have hall : ∀ t ∈ List.range tables.length, ∃ lens,
      makeLens A 17 (mtfv.length + 2) (startWeight (tableFreq (groups mtfv) ((groups mtfv).map (bestTable tables)) t)) = some lens := by
    intro t _
    apply C93_terminates (by omega) h258
    intro i _
    have h1 := tableFreq_le (groups mtfv) ((groups mtfv).map (bestTable tables)) t i
    rw [groups_sum _ mtfv le_rfl] at h1
    exact h1.trans Nat.lt_two_pow_self.le
  obtain ⟨new, hnew, hl, hm⟩ := mapM_some (List.range tables.length) hall
  rw [List.length_range] at hl
  refine ⟨(groups mtfv).map (bestTable tables), new, ?_, hl, ⟨List.length_map _, ?_, ?_⟩⟩
  · unfold improve
    simp only
    rw [hnew]
    rfl
  · intro s hs
    obtain ⟨g, _, rfl⟩ := List.mem_map.mp hs
    rw [hl]
    exact bestTable_lt h g
  · intro t ht
    obtain ⟨x, _, hx⟩ := hm t ht
    exact ⟨(C93_kraft hA hx).1, C93_usable hA h258 hx⟩

theorem improves_spec {A : Nat} (hA : 2 ≤ A) (h258 : A ≤ 258) (mtfv : List Nat) : ∀ (n : Nat) (s : List Nat × List (List Nat)), s.2 ≠ [] →
    ∃ sel new, improves A mtfv (n + 1) s = some (sel, new) ∧ new.length = s.2.length ∧ TabOk A mtfv sel new
  | 0, s, h => by
    obtain ⟨sel, new, h1, h2, h3⟩ := improve_spec hA h258 mtfv h
    refine ⟨sel, new, ?_, h2, h3⟩
    rw [improves, h1]
    rfl
  | n + 1, s, h => by
    obtain ⟨sel, new, h1, h2, h3⟩ := improve_spec hA h258 mtfv h
    have hne : new ≠ [] := by
      intro e
      rw [e] at h2
      exact h (List.length_eq_zero_iff.mp h2.symm)
    obtain ⟨sel', new', h4, h5, h6⟩ := improves_spec hA h258 mtfv n (sel, new) hne
    refine ⟨sel', new', ?_, h5.trans h2, h6⟩
    rw [improves, h1]
    exact h4

theorem firstTables_length (freq : Nat → Nat) (A g : Nat) : ∀ (n gs r : Nat), (firstTables freq A g n gs r).length = n
  | 0, _, _ => rfl
  | n + 1, gs, r => by
    rw [firstTables, List.length_append, firstTables_length]
    rfl

theorem chooseTables_spec {A : Nat} (hA : 2 ≤ A) (h258 : A ≤ 258) (mtfv : List Nat) :
    ∃ sel tables, chooseTables A mtfv = some (sel, tables) ∧ tables.length = nGroupsFor mtfv.length ∧ TabOk A mtfv sel tables := by
  have hl := firstTables_length (fun v => mtfv.count v) A (nGroupsFor mtfv.length) (nGroupsFor mtfv.length) 0 mtfv.length
  have h2 : 2 ≤ nGroupsFor mtfv.length := by unfold nGroupsFor; split <;> [skip; split] <;> [skip; skip; split] <;> [skip; skip; skip; split] <;> omega
  obtain ⟨sel, new, h3, h4, h5⟩ := improves_spec hA h258 mtfv 3
    ([], firstTables (fun v => mtfv.count v) A (nGroupsFor mtfv.length) (nGroupsFor mtfv.length) 0 mtfv.length) (by
      intro e
      dsimp only at e
      rw [e] at hl
      simp at hl
      omega)
  exact ⟨sel, new, h3, h4.trans hl, h5⟩

/-- **The compressor finds tables, and none of its assertions fails** (3001 to 3006): for every block of at most
900 000 bytes (marked as used), the search for tables ends with two to six tables of lengths from 1 to 17; every group of 50 values has
a selector, which is the number of a table; there are between 1 and 18 002 selectors, fewer than 32 768. -/
theorem C95_assertions {inUse : Nat → Bool} {l : List Nat} (hne : l ≠ []) (hb : ∀ b ∈ l, b < 256) (hu : ∀ b ∈ l, inUse b = true)
    (hl : l.length ≤ 900000) :
    ∃ sel tables, chooseTables (nInUse inUse + 2) (mtfEncode inUse l) = some (sel, tables) ∧
      2 ≤ tables.length ∧ tables.length ≤ 6 ∧
      (∀ t ∈ tables, t.length = nInUse inUse + 2 ∧ 1 ≤ minLen t ∧ maxLen t ≤ 17) ∧
      1 ≤ sel.length ∧ sel.length ≤ 18002 ∧ sel.length = ((mtfEncode inUse l).length + 49) / 50 ∧ ∀ s ∈ sel, s < tables.length := by
  obtain ⟨m, e, hm, hml, hmne, h1, h256⟩ := C92_range hne hb hu
  obtain ⟨sel, tables, h2, h3, h4⟩ := chooseTables_spec (A := nInUse inUse + 2) (by omega) (by omega) (mtfEncode inUse l)
  have hlen : (mtfEncode inUse l).length = m.length + 1 := by rw [e]; simp
  have hg : ∀ (n : Nat) (l : List Nat), l.length ≤ n → (groups l).length = (l.length + 49) / 50 := by
    intro n
    induction n with
    | zero =>
      intro l h
      have : l = [] := List.length_eq_zero_iff.mp (by omega)
      rw [this, groups_nil]; rfl
    | succ n ih =>
      intro l h
      by_cases hl : l = []
      · rw [hl, groups_nil]; rfl
      · have hpos := List.length_pos_iff.mpr hl
        rw [groups_ne hl, List.length_cons, ih _ (by rw [List.length_drop]; omega), List.length_drop]
        omega
  have hs := h4.nsel.trans (hg _ _ le_rfl)
  have h6 : 2 ≤ nGroupsFor (mtfEncode inUse l).length ∧ nGroupsFor (mtfEncode inUse l).length ≤ 6 := by
    unfold nGroupsFor
    split
    · omega
    split
    · omega
    split
    · omega
    split <;> omega
  exact ⟨sel, tables, h2, by omega, by omega, fun t ht => ⟨(h4.tables t ht).1, (h4.tables t ht).2.2⟩, by omega, by omega, hs, h4.sel⟩

/-- A block of 80 bytes of four kinds. -/
example : (chooseTables 6 (mtfEncode (fun b => decide (b < 4)) ((List.range 80).map fun i => (i * i / 7) % 4))).map
    (fun t => (t.1, t.2.length)) = some ([1, 0], 2) := by decide +kernel

/-! ## What is written -/

theorem fields_flags (l : List Bool) : ∀ f ∈ l.map bitField, f.1 ≤ 24 ∧ f.2 < 2 ^ f.1 := by
  intro f hf
  obtain ⟨b, _, rfl⟩ := List.mem_map.mp hf
  cases b <;> exact ⟨by decide, by decide⟩

theorem fields_lens (curr : Nat) (lens : List Nat) : ∀ f ∈ lenFields curr lens, f.1 ≤ 24 ∧ f.2 < 2 ^ f.1 := by
  induction lens generalizing curr with
  | nil => intro f hf; cases hf
  | cons l lens ih =>
    intro f hf
    rw [lenFields] at hf
    simp only [List.mem_append, List.mem_replicate, List.mem_singleton] at hf
    rcases hf with ((⟨_, rfl⟩ | ⟨_, rfl⟩) | rfl) | hf
    · exact ⟨by decide, by decide⟩
    · exact ⟨by decide, by decide⟩
    · exact ⟨by decide, by decide⟩
    · exact ih l f hf

theorem fields_send {inUse : Nat → Bool} {A : Nat} {mtfv sel : List Nat} {tables : List (List Nat)} (h : TabOk A mtfv sel tables)
    (h6 : tables.length ≤ 6) (hs : sel.length ≤ 18002) (hv : ∀ v ∈ mtfv, v < A) :
    ∀ f ∈ sendFields inUse sel tables mtfv, f.1 ≤ 24 ∧ f.2 < 2 ^ f.1 := by
  intro f hf
  unfold sendFields at hf
  simp only [List.mem_append, List.mem_cons] at hf
  rcases hf with (((hf | rfl | rfl | hf)) | hf) | hf
  · unfold mapFields at hf
    rcases List.mem_append.mp hf with hf | hf
    · obtain ⟨i, _, rfl⟩ := List.mem_map.mp hf
      exact fields_flags [inUse16 inUse i] _ (by simp)
    · obtain ⟨i, _, hf⟩ := List.mem_flatMap.mp hf
      split at hf
      · obtain ⟨j, _, rfl⟩ := List.mem_map.mp hf
        exact fields_flags [inUse (i * 16 + j)] _ (by simp)
      · cases hf
  · exact ⟨by norm_num, by norm_num; omega⟩
  · exact ⟨by norm_num, by norm_num; omega⟩
  · unfold selFields at hf
    obtain ⟨j, _, hf⟩ := List.mem_flatMap.mp hf
    simp only [List.mem_append, List.mem_replicate, List.mem_singleton] at hf
    rcases hf with ⟨_, rfl⟩ | rfl <;> exact ⟨by decide, by decide⟩
  · obtain ⟨t, ht, hf⟩ := List.mem_flatMap.mp hf
    obtain ⟨hl, hok, -⟩ := h.tables t ht
    rcases List.mem_cons.mp hf with rfl | hf
    · refine ⟨by norm_num, ?_⟩
      cases t with
      | nil => simp
      | cons a t =>
        have := hok.le a List.mem_cons_self
        simp only [List.headD_cons]
        omega
    · exact fields_lens _ _ f hf
  · unfold dataFields at hf
    obtain ⟨x, hx, hf⟩ := List.mem_flatMap.mp hf
    obtain ⟨v, hvx, rfl⟩ := List.mem_map.mp hf
    have h1 : v < A := hv v (mem_groups _ mtfv le_rfl x.1 (List.of_mem_zip hx).1 v hvx)
    have hlt := h.sel x.2 (List.of_mem_zip hx).2
    have htab : tables.getD x.2 [] ∈ tables := by
      rw [List.getD_eq_getElem _ _ hlt]; exact List.getElem_mem _
    obtain ⟨hl, hok, -⟩ := h.tables _ htab
    have := hok.le _ (getD_mem (i := v) (by rw [hl]; exact h1))
    exact ⟨by dsimp only; omega, C94_fits hok (by rw [hl]; exact h1)⟩

/-! ## Reading what was written -/

theorem list_getD_map_range (inUse : Nat → Bool) : ∀ i, i < 256 → ((List.range 256).map inUse).getD i false = inUse i := by
  intro i hi
  rw [List.getD_eq_getElem _ _ (by simpa using hi), List.getElem_map, List.getElem_range]

/-- Reading the fields before the selectors. -/
theorem getHead_spec {size100k crc ptr g n : Nat} {inUse : Nat → Bool} (hcrc : crc < 2 ^ 32) (hptr : ptr ≤ 10 + 100000 * size100k)
    (hptr' : ptr < 2 ^ 24) (hu : 1 ≤ nInUse inUse) (hg : 2 ≤ g) (hg' : g ≤ 6) (hn : 1 ≤ n) (hn' : n < 2 ^ 15) (r : List Bool) :
    getHead size100k (bitsOf ([0x41, 0x59, 0x26, 0x53, 0x59].flatMap putUChar) ++ (toBits 32 crc ++ (toBits 1 0 ++
        (toBits 24 ptr ++ ((List.range 16).map (inUse16 inUse) ++ (bitsOf ((List.range 16).flatMap fun (i : Nat) =>
          if inUse16 inUse i then (List.range 16).map fun j => bitField (inUse (i * 16 + j)) else []) ++
          (toBits 3 g ++ (toBits 15 n ++ r)))))))) =
        .ok ⟨crc, 0, ptr, (List.range 256).map inUse, g, n⟩ r := by
  have e4 : 0 * 256 ^ 4 + crc % 2 ^ (8 * 4) = crc := by rw [Nat.mod_eq_of_lt (by norm_num at hcrc ⊢; exact hcrc)]; simp
  have e3 : 0 * 256 ^ 3 + ptr % 2 ^ (8 * 3) = ptr := by rw [Nat.mod_eq_of_lt (by norm_num at hptr' ⊢; exact hptr')]; simp
  have hf16 : ∀ r, getFlags 16 ((List.range 16).map (inUse16 inUse) ++ r) = .ok ((List.range 16).map (inUse16 inUse)) r := by
    intro r
    have := getFlags_spec ((List.range 16).map (inUse16 inUse)) r
    rwa [List.length_map, List.length_range] at this
  have hnu : nInUse (fun i => ((List.range 256).map inUse).getD i false) = nInUse inUse := by
    unfold nInUse
    rw [seqToUnseq_congr (list_getD_map_range inUse)]
  unfold getHead
  rw [bind_ok (expects_spec _ _ (by decide)), bind_ok (getBytes_spec 4 0 crc _), bind_ok (getBits_toBits (by norm_num) _),
    bind_ok (getBytes_spec 3 0 ptr _), e4, e3, if_neg (by omega), bind_ok (hf16 _), bind_ok (getMap_spec inUse _ _),
    map_flatMap, hnu, if_neg (by omega), bind_ok (getBits_toBits (by norm_num; omega) _), if_neg (by omega),
    bind_ok (getBits_toBits hn' _), if_neg (by omega)]
  rfl

/-- **A block that is written is read back.** For every block of at most `100 000 * size100k` bytes (`size100k` from 1 to 9), with its CRC, the
set of bytes that occur in it and its rotations in sorted order, the compressor finds fields to write, all of which have at
most 24 bits and fit in (so that `C89_writer` applies); the first one is the byte 0x31; and from the bits of the others, whatever
follows, the decompressor reads the CRC, the place of the block among its rotations and the last column. -/
theorem C95_roundtrip {size100k crc : Nat} {inUse : Nat → Bool} {block ptr : List Nat} (h9 : size100k ≤ 9) (hcrc : crc < 2 ^ 32)
    (hne : block ≠ []) (hb : ∀ b ∈ block, b < 256) (hu : ∀ b ∈ block, inUse b = true) (hl : block.length ≤ 100000 * size100k)
    (hsort : SortedRot block ptr) :
    ∃ fs, blockFields crc inUse block ptr = some ((8, 0x31) :: fs) ∧ (∀ f ∈ (8, 0x31) :: fs, f.1 ≤ 24 ∧ f.2 < 2 ^ f.1) ∧
      ∀ rest, getBlock size100k ((fs.flatMap fun f => toBits f.1 f.2) ++ rest) =
        .ok ⟨crc, origPtr ptr, lastColumn block ptr⟩ rest := by
  obtain ⟨hlast, hmem, hptr, -, -⟩ := C91_inverse hne hb hsort (le_refl block.length)
  have hlne : lastColumn block ptr ≠ [] := by
    intro e
    rw [e] at hlast
    exact hne (List.length_eq_zero_iff.mp hlast.symm)
  have hlb : ∀ b ∈ lastColumn block ptr, b < 256 := fun b h => hb b (hmem b h)
  have hlu : ∀ b ∈ lastColumn block ptr, inUse b = true := fun b h => hu b (hmem b h)
  obtain ⟨m, em, hm, hml, hmne, h1, h256⟩ := C92_range hlne hlb hlu
  have hrt := C92_roundtrip (max := 100000 * size100k) hlne hlb hlu (by omega) (by omega)
  obtain ⟨sel, tables, hch, ht2, ht6, -, hs1, hs2, -, -⟩ := C95_assertions hlne hlb hlu (by omega)
  obtain ⟨sel', tables', hch', -, hok⟩ := chooseTables_spec (A := nInUse inUse + 2) (by omega) (by omega)
    (mtfEncode inUse (lastColumn block ptr))
  rw [hch] at hch'
  simp only [Option.some.injEq, Prod.mk.injEq] at hch'
  obtain ⟨rfl, rfl⟩ := hch'
  have hv : ∀ v ∈ mtfEncode inUse (lastColumn block ptr), v < nInUse inUse + 2 := by
    intro v hv
    rw [em, List.mem_append, List.mem_singleton] at hv
    rcases hv with hv | rfl
    · have := hm v hv; omega
    · omega
  refine ⟨[0x41, 0x59, 0x26, 0x53, 0x59].flatMap putUChar ++ putUInt32 crc ++ [(1, 0), (24, origPtr ptr)] ++
    sendFields inUse sel tables (mtfEncode inUse (lastColumn block ptr)), ?_, ?_, ?_⟩
  · unfold blockFields
    simp only
    rw [hch]
    rfl
  · intro f hf
    simp only [List.mem_cons, List.mem_append, List.not_mem_nil, or_false] at hf
    rcases hf with rfl | ((hf | hf) | rfl | rfl) | hf
    · exact ⟨by decide, by decide⟩
    · have hall : ∀ f ∈ [0x41, 0x59, 0x26, 0x53, 0x59].flatMap putUChar, f.1 ≤ 24 ∧ f.2 < 2 ^ f.1 := by decide
      exact hall f hf
    · unfold putUInt32 at hf
      simp only [List.mem_cons, List.not_mem_nil, or_false] at hf
      have hlt : ∀ x : Nat, x % 256 < 2 ^ 8 := fun x => Nat.mod_lt _ (by norm_num)
      rcases hf with rfl | rfl | rfl | rfl <;> exact ⟨by norm_num, hlt _⟩
    · exact ⟨by decide, by decide⟩
    · exact ⟨le_rfl, by dsimp only; omega⟩
    · exact fields_send hok ht6 hs2 hv f hf
  · intro rest
    change getBlock size100k (bitsOf _ ++ rest) = _
    unfold sendFields mapFields
    rw [bitsOf_append, bitsOf_append, bitsOf_append, bitsOf_append, bitsOf_append, bitsOf_append, bitsOf_append, bitsOf_cons, bitsOf_cons,
      bitsOf_cons, bitsOf_cons, bitsOf_nil, bitsOf_putUInt32]
    simp only [List.append_assoc, List.append_nil]
    have e16 : bitsOf ((List.range 16).map fun i => bitField (inUse16 inUse i)) = (List.range 16).map (inUse16 inUse) := by
      rw [← bitsOf_flags ((List.range 16).map (inUse16 inUse)), List.map_map]
      rfl
    have hseq : seqToUnseq (fun i => ((List.range 256).map inUse).getD i false) = seqToUnseq inUse :=
      seqToUnseq_congr (list_getD_map_range inUse)
    have hn : nInUse (fun i => ((List.range 256).map inUse).getD i false) = nInUse inUse := by unfold nInUse; rw [hseq]
    rw [e16]
    have hhead := fun r => getHead_spec (size100k := size100k) (crc := crc) (ptr := origPtr ptr) (inUse := inUse) (g := tables.length)
      (n := sel.length) hcrc (by omega) (by omega) (by omega) (by omega) (by omega) (by omega) (by omega) r
    unfold getBlock
    rw [bind_ok (hhead _)]
    have hseq' : seqToUnseq (Head.inUse ⟨crc, 0, origPtr ptr, (List.range 256).map inUse, tables.length, sel.length⟩) =
      seqToUnseq inUse := hseq
    have hn' : nInUse (Head.inUse ⟨crc, 0, origPtr ptr, (List.range 256).map inUse, tables.length, sel.length⟩) = nInUse inUse := hn
    unfold getBody
    simp only [hseq', hn']
    have hselmem : ∀ s ∈ sel, s ∈ List.range tables.length := fun s h => List.mem_range.mpr (hok.sel s h)
    have hsl := selMtf_length sel (List.range tables.length)
    have hgs : ∀ r, getSels tables.length sel.length sel.length 0 (bitsOf (selFields (selMtf (List.range tables.length) sel)) ++ r) =
        .ok (selMtf (List.range tables.length) sel) r := by
      intro r
      have := getSels_spec tables.length sel.length (selMtf (List.range tables.length) sel) 0 r (fun j hj => by
        have := selMtf_lt sel _ hselmem j hj
        rwa [List.length_range] at this) (by omega)
      rwa [hsl] at this
    have hgt := fun r => getTables_spec (nInUse inUse + 2) (by omega) tables r
      fun t ht => ⟨(hok.tables t ht).1, (hok.tables t ht).2.1.range⟩
    rw [bind_ok (hgs _), bind_ok (hgt _), selUnmtf_selMtf _ _ hselmem]
    have hbits : (mtfEncode inUse (lastColumn block ptr)).length ≤
        (bitsOf (dataFields sel tables (mtfEncode inUse (lastColumn block ptr))) ++ rest).length + 1 := by
      have h1 : ∀ f ∈ dataFields sel tables (mtfEncode inUse (lastColumn block ptr)), 1 ≤ f.1 := by
        intro f hf
        obtain ⟨x, hx, hf⟩ := List.mem_flatMap.mp hf
        obtain ⟨v, hvx, rfl⟩ := List.mem_map.mp hf
        have h1 : v < nInUse inUse + 2 := hv v (mem_groups _ _ le_rfl x.1 (List.of_mem_zip hx).1 v hvx)
        have hlt := hok.sel x.2 (List.of_mem_zip hx).2
        have htab : tables.getD x.2 [] ∈ tables := by
          rw [List.getD_eq_getElem _ _ hlt]; exact List.getElem_mem _
        obtain ⟨hl, hk, -⟩ := hok.tables _ htab
        exact (hk.range _ (getD_mem (i := v) (by rw [hl]; exact h1))).1
      have h2 := bitsOf_length_le _ h1
      have h3 : ∀ (gs : List (List Nat)) (sel : List Nat), sel.length = gs.length →
          ((gs.zip sel).flatMap fun x => groupFields (tables.getD x.2 []) x.1).length = (gs.map List.length).sum := by
        intro gs
        induction gs with
        | nil => intro sel _; simp
        | cons g gs ih =>
          intro sel h
          cases sel with
          | nil => simp at h
          | cons s sel =>
            rw [List.zip_cons_cons, List.flatMap_cons, List.length_append, List.map_cons, List.sum_cons, ih sel (by simpa using h)]
            unfold groupFields
            rw [List.length_map]
      have h4 := h3 _ _ hok.nsel
      rw [groups_sum _ _ le_rfl] at h4
      unfold dataFields at h2 ⊢
      rw [List.length_append]
      omega
    have hvals := getVals_spec (tables := tables) (A := nInUse inUse + 2) (fun t ht => ⟨(hok.tables t ht).2.1, (hok.tables t ht).1⟩)
      (seqToUnseq inUse) (nInUse inUse + 1) (100000 * size100k) rest
      ((bitsOf (dataFields sel tables (mtfEncode inUse (lastColumn block ptr))) ++ rest).length + 1) []
      (mtfEncode inUse (lastColumn block ptr)) sel 0 [] ⟨fun _ => 0, fun _ => 0, [], 0⟩ .start (lastColumn block ptr) hbits (Or.inl rfl) (fun h => absurd rfl h)
      hok.nsel.symm hok.sel hv hrt
    refine (bind_ok (x := fun bs => getVals (tables.map tableOf) (seqToUnseq inUse) (nInUse inUse + 1) (100000 * size100k) (bs.length + 1)
      ⟨sel, 0, ⟨fun _ => 0, fun _ => 0, [], 0⟩, .start⟩ bs) hvals).trans ?_
    rw [if_neg (by omega), if_neg (by norm_num)]
    rfl

/-- The block of the word `banana` with a run: hypotheses of `C95_roundtrip`, and its result. -/
example : ∃ fs, blockFields 0x096481ea (fun b => decide (b ∈ [4, 97, 98, 110, 115])) [98, 97, 110, 97, 110, 97, 97, 97, 97, 4, 115]
      [9, 8, 7, 6, 5, 3, 1, 0, 4, 2, 10] = some ((8, 0x31) :: fs) ∧
    getBlock 1 ((fs.flatMap fun f => toBits f.1 f.2) ++ [true]) =
      .ok ⟨0x096481ea, 7, lastColumn [98, 97, 110, 97, 110, 97, 97, 97, 97, 4, 115] [9, 8, 7, 6, 5, 3, 1, 0, 4, 2, 10]⟩ [true] := by
  obtain ⟨fs, h1, -, h2⟩ := C95_roundtrip (size100k := 1) (crc := 0x096481ea) (inUse := fun b => decide (b ∈ [4, 97, 98, 110, 115]))
    (block := [98, 97, 110, 97, 110, 97, 97, 97, 97, 4, 115]) (ptr := [9, 8, 7, 6, 5, 3, 1, 0, 4, 2, 10]) (by decide) (by decide) (by decide)
    (by decide) (by decide) (by decide) ⟨by decide, by decide⟩
  exact ⟨fs, h1, h2 [true]⟩

end Simox.Bz
