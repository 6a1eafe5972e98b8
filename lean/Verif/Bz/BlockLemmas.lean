import Verif.Bz.BlockModel
import Verif.Bz.HuffProps
import Verif.Bz.MtfProps

/-!
# bzip2: blocks: lemmas
-/

namespace Simox.Bz

/-- The bits of fields, one after the other. -/
def bitsOf (fs : List Field) : List Bool := fs.flatMap fun f => toBits f.1 f.2

theorem bitsOf_nil : bitsOf [] = [] := rfl

theorem bitsOf_cons (f : Field) (fs : List Field) : bitsOf (f :: fs) = toBits f.1 f.2 ++ bitsOf fs := by simp [bitsOf]

theorem bitsOf_append (a b : List Field) : bitsOf (a ++ b) = bitsOf a ++ bitsOf b := by simp [bitsOf]

theorem pure_ok {α : Type} (a : α) (bs : List Bool) : (pure a : Dec α) bs = .ok a bs := rfl

theorem expects_spec : ∀ (l : List Nat) (rest : List Bool), (∀ b ∈ l, b < 256) →
    expects l (bitsOf (l.flatMap putUChar) ++ rest) = .ok () rest
  | [], rest, _ => rfl
  | b :: l, rest, h => by
    rw [List.flatMap_cons, bitsOf_append, List.append_assoc, expects]
    have hb : b < 2 ^ 8 := h b List.mem_cons_self
    have h1 : expect b (bitsOf (putUChar b) ++ (bitsOf (l.flatMap putUChar) ++ rest)) =
        .ok () (bitsOf (l.flatMap putUChar) ++ rest) := by
      have e : bitsOf (putUChar b) = toBits 8 b := by simp [bitsOf, putUChar]
      unfold expect
      rw [e, bind_ok (getBits_toBits hb _), if_pos rfl]
      rfl
    rw [bind_ok h1]
    exact expects_spec l rest fun x hx => h x (List.mem_cons_of_mem _ hx)

theorem getBytes_spec : ∀ (n v0 v : Nat) (rest : List Bool), getBytes n v0 (toBits (8 * n) v ++ rest) =
    .ok (v0 * 256 ^ n + v % 2 ^ (8 * n)) rest
  | 0, v0, v, rest => by simp [getBytes, toBits, pure_ok, Nat.mod_one]
  | n + 1, v0, v, rest => by
    rw [show 8 * (n + 1) = 8 + 8 * n by ring, toBits_add, List.append_assoc, getBytes]
    have h8 : toBits 8 (v / 2 ^ (8 * n)) = toBits 8 (v / 2 ^ (8 * n) % 2 ^ 8) := (toBits_mod 8 _ 8 le_rfl).symm
    rw [h8, bind_ok (getBits_toBits (Nat.mod_lt _ (by norm_num)) _), getBytes_spec n]
    have e : v % 2 ^ (8 + 8 * n) = v / 2 ^ (8 * n) % 2 ^ 8 * 2 ^ (8 * n) + v % 2 ^ (8 * n) := by
      rw [Nat.add_comm 8, pow_add, Nat.mod_mul]; ring
    rw [e, show (256 : Nat) = 2 ^ 8 by norm_num, ← pow_mul, ← pow_mul, show 8 * (n + 1) = 8 + 8 * n by ring, pow_add]
    congr 1
    ring

theorem bitsOf_putUInt32 (u : Nat) : bitsOf (putUInt32 u) = toBits 32 u := by
  have h : ∀ x, toBits 8 (x % 256) = toBits 8 x := fun x => toBits_mod 8 x 8 le_rfl
  rw [show (32 : Nat) = 8 + (8 + (8 + 8)) by norm_num, toBits_add, toBits_add, toBits_add]
  simp [bitsOf, putUInt32, h, Nat.shiftRight_eq_div_pow]

theorem bitField_bits (b : Bool) : toBits (bitField b).1 (bitField b).2 = [b] := by
  cases b <;> rfl

theorem getBit_cons (b : Bool) (rest : List Bool) : getBits 1 (b :: rest) = .ok b.toNat rest := by
  simp [getBits, ofBits]

theorem getFlags_spec : ∀ (l : List Bool) (rest : List Bool), getFlags l.length (l ++ rest) = .ok l rest
  | [], rest => rfl
  | b :: l, rest => by
    rw [List.length_cons, List.cons_append, getFlags, bind_ok (getBit_cons b _), bind_ok (getFlags_spec l rest), pure_ok]
    cases b <;> rfl

theorem bitsOf_flags (l : List Bool) : bitsOf (l.map bitField) = l := by
  induction l with
  | nil => rfl
  | cons b l ih => rw [List.map_cons, bitsOf_cons, ih, bitField_bits]; rfl

theorem getMap_spec (inUse : Nat → Bool) (rest : List Bool) : ∀ l : List Nat,
    getMap (l.map (inUse16 inUse)) (bitsOf (l.flatMap fun (i : Nat) =>
      if inUse16 inUse i then (List.range 16).map fun j => bitField (inUse (i * 16 + j)) else []) ++ rest) =
      .ok (l.flatMap fun (i : Nat) => (List.range 16).map fun j => inUse (i * 16 + j)) rest
  | [] => rfl
  | i :: l => by
    rw [List.map_cons, List.flatMap_cons, List.flatMap_cons, bitsOf_append, List.append_assoc]
    have ih := getMap_spec inUse rest l
    cases hu : inUse16 inUse i with
    | true =>
      rw [getMap, if_pos rfl]
      have e : (List.range 16).map (fun j => bitField (inUse (i * 16 + j))) =
          ((List.range 16).map fun j => inUse (i * 16 + j)).map bitField := by rw [List.map_map]; rfl
      have hl : ((List.range 16).map fun j => inUse (i * 16 + j)).length = 16 := by simp
      have hf := getFlags_spec ((List.range 16).map fun j => inUse (i * 16 + j))
        (bitsOf (l.flatMap fun (i : Nat) => if inUse16 inUse i then (List.range 16).map fun j => bitField (inUse (i * 16 + j)) else []) ++ rest)
      rw [hl] at hf
      rw [e, bitsOf_flags, bind_ok hf, bind_ok ih, pure_ok]
    | false =>
      rw [getMap, if_neg (by simp), bitsOf_nil, List.nil_append, bind_ok ih, pure_ok]
      congr 2
      have hz : ∀ j ∈ List.range 16, inUse (i * 16 + j) = false := by
        intro j hj
        unfold inUse16 at hu
        rw [List.any_eq_false] at hu
        simpa using hu j hj
      rw [List.map_congr_left hz]
      rfl

theorem map_flatMap (inUse : Nat → Bool) : (List.range 16).flatMap (fun (i : Nat) => (List.range 16).map fun j => inUse (i * 16 + j)) =
    (List.range 256).map inUse := by
  have h : (List.range 16).flatMap (fun (i : Nat) => (List.range 16).map fun j => i * 16 + j) = List.range 256 := by decide +kernel
  rw [← h, List.map_flatMap]
  simp only [List.map_map]
  rfl

theorem seqToUnseq_congr {f g : Nat → Bool} (h : ∀ i, i < 256 → f i = g i) : seqToUnseq f = seqToUnseq g := by
  unfold seqToUnseq
  exact List.filter_congr fun i hi => h i (List.mem_range.mp hi)

theorem getSel_spec (k : Nat) : ∀ (s j : Nat) (rest : List Bool), s < k →
    getSel k j (bitsOf (List.replicate s (1, 1) ++ [(1, 0)]) ++ rest) = .ok (j + s) rest := by
  induction k with
  | zero => intro s j rest h; omega
  | succ k ih =>
    intro s j rest h
    cases s with
    | zero =>
      have e : bitsOf (List.replicate 0 (1, 1) ++ [(1, 0)]) = [false] := rfl
      rw [e, List.singleton_append, getSel, bind_ok (getBit_cons _ _)]
      rfl
    | succ s =>
      have e : bitsOf (List.replicate (s + 1) (1, 1) ++ [(1, 0)]) = true :: bitsOf (List.replicate s (1, 1) ++ [(1, 0)]) := by
        rw [List.replicate_succ, List.cons_append, bitsOf_cons]; rfl
      rw [e, List.cons_append, getSel, bind_ok (getBit_cons _ _)]
      simp only [Bool.toNat_true, Nat.one_ne_zero, if_false]
      rw [ih s (j + 1) rest (by omega)]
      congr 1; omega

theorem getSels_spec (nGroups nSel : Nat) : ∀ (l : List Nat) (i : Nat) (rest : List Bool), (∀ j ∈ l, j < nGroups) → i + l.length ≤ 18002 →
    getSels nGroups nSel l.length i (bitsOf (selFields l) ++ rest) = .ok l rest
  | [], _, rest, _, _ => rfl
  | j :: l, i, rest, h, hi => by
    have e : bitsOf (selFields (j :: l)) = bitsOf (List.replicate j (1, 1) ++ [(1, 0)]) ++ bitsOf (selFields l) := by
      unfold selFields
      rw [List.flatMap_cons, bitsOf_append]
    rw [List.length_cons] at hi
    rw [e, List.append_assoc, List.length_cons, getSels, bind_ok (getSel_spec nGroups j 0 _ (h j List.mem_cons_self)),
      if_neg (by omega), bind_ok (getSels_spec nGroups nSel l (i + 1) rest (fun x hx => h x (List.mem_cons_of_mem _ hx)) (by omega)),
      Nat.zero_add]
    rfl

theorem selUnmtf_selMtf : ∀ (sel pos : List Nat), (∀ s ∈ sel, s ∈ pos) → selUnmtf pos (selMtf pos sel) = sel
  | [], _, _ => rfl
  | s :: sel, pos, h => by
    have hs := h s List.mem_cons_self
    have hg : pos.getD (pos.idxOf s) 0 = s := by
      rw [List.getD_eq_getElem _ _ (List.idxOf_lt_length_of_mem hs)]
      exact List.getElem_idxOf _
    have he : pos.eraseIdx (pos.idxOf s) = pos.erase s := (List.erase_eq_eraseIdx_of_idxOf rfl).symm
    rw [selMtf, selUnmtf, hg, he]
    rw [selUnmtf_selMtf sel (s :: pos.erase s)]
    intro x hx
    by_cases e : x = s
    · rw [e]; exact List.mem_cons_self
    · exact List.mem_cons_of_mem _ ((List.mem_erase_of_ne e).mpr (h x (List.mem_cons_of_mem _ hx)))

theorem selMtf_lt : ∀ (sel pos : List Nat), (∀ s ∈ sel, s ∈ pos) → ∀ j ∈ selMtf pos sel, j < pos.length
  | [], _, _, j, hj => by cases hj
  | s :: sel, pos, h, j, hj => by
    have hs := h s List.mem_cons_self
    rw [selMtf, List.mem_cons] at hj
    rcases hj with rfl | hj
    · exact List.idxOf_lt_length_of_mem hs
    · have := selMtf_lt sel (s :: pos.erase s) (fun x hx => by
        by_cases e : x = s
        · rw [e]; exact List.mem_cons_self
        · exact List.mem_cons_of_mem _ ((List.mem_erase_of_ne e).mpr (h x (List.mem_cons_of_mem _ hx)))) j hj
      rw [List.length_cons, List.length_erase_of_mem hs] at this
      have := List.length_pos_of_mem hs
      omega

theorem selMtf_length : ∀ (sel pos : List Nat), (selMtf pos sel).length = sel.length
  | [], _ => rfl
  | s :: sel, pos => by rw [selMtf, List.length_cons, List.length_cons, selMtf_length]

/-! ## Lengths -/

theorem getLen_up : ∀ (d curr n : Nat) (rest : List Bool), 1 ≤ curr → curr + d ≤ 20 → d < n →
    getLen n curr (bitsOf (List.replicate d (2, 2) ++ [(1, 0)]) ++ rest) = .ok (curr + d) rest
  | 0, curr, n, rest, h1, h2, hn => by
    obtain ⟨n, rfl⟩ : ∃ m, n = m + 1 := ⟨n - 1, by omega⟩
    have e : bitsOf (List.replicate 0 (2, 2) ++ [(1, 0)]) = [false] := rfl
    rw [e, List.singleton_append, getLen, if_neg (by omega), bind_ok (getBit_cons _ _)]
    rfl
  | d + 1, curr, n, rest, h1, h2, hn => by
    obtain ⟨n, rfl⟩ : ∃ m, n = m + 1 := ⟨n - 1, by omega⟩
    have e : bitsOf (List.replicate (d + 1) (2, 2) ++ [(1, 0)]) = true :: false :: bitsOf (List.replicate d (2, 2) ++ [(1, 0)]) := by
      rw [List.replicate_succ, List.cons_append, bitsOf_cons]; rfl
    rw [e, List.cons_append, List.cons_append, getLen, if_neg (by omega), bind_ok (getBit_cons _ _)]
    simp only [Bool.toNat_true, Nat.one_ne_zero, if_false]
    rw [bind_ok (getBit_cons _ _)]
    simp only [Bool.toNat_false, if_true]
    rw [getLen_up d (curr + 1) n rest (by omega) (by omega) (by omega)]
    congr 1; omega

theorem getLen_down : ∀ (d curr n : Nat) (rest : List Bool), 1 ≤ curr - d → curr ≤ 20 → d < n →
    getLen n curr (bitsOf (List.replicate d (2, 3) ++ [(1, 0)]) ++ rest) = .ok (curr - d) rest
  | 0, curr, n, rest, h1, h2, hn => by
    obtain ⟨n, rfl⟩ : ∃ m, n = m + 1 := ⟨n - 1, by omega⟩
    have e : bitsOf (List.replicate 0 (2, 3) ++ [(1, 0)]) = [false] := rfl
    rw [e, List.singleton_append, getLen, if_neg (by omega), bind_ok (getBit_cons _ _)]
    rfl
  | d + 1, curr, n, rest, h1, h2, hn => by
    obtain ⟨n, rfl⟩ : ∃ m, n = m + 1 := ⟨n - 1, by omega⟩
    have e : bitsOf (List.replicate (d + 1) (2, 3) ++ [(1, 0)]) = true :: true :: bitsOf (List.replicate d (2, 3) ++ [(1, 0)]) := by
      rw [List.replicate_succ, List.cons_append, bitsOf_cons]; rfl
    rw [e, List.cons_append, List.cons_append, getLen, if_neg (by omega), bind_ok (getBit_cons _ _)]
    simp only [Bool.toNat_true, Nat.one_ne_zero, if_false]
    rw [bind_ok (getBit_cons _ _)]
    simp only [Bool.toNat_true, Nat.one_ne_zero, if_false]
    rw [getLen_down d (curr - 1) n rest (by omega) (by omega) (by omega)]
    congr 1; omega

theorem bitsOf_length_le (fs : List Field) (h : ∀ f ∈ fs, 1 ≤ f.1) : fs.length ≤ (bitsOf fs).length := by
  induction fs with
  | nil => simp
  | cons f fs ih =>
    rw [bitsOf_cons, List.length_append, toBits_length, List.length_cons]
    have := h f List.mem_cons_self
    have := ih fun g hg => h g (List.mem_cons_of_mem _ hg)
    omega

theorem getLens_spec : ∀ (lens : List Nat) (curr : Nat) (rest : List Bool), 1 ≤ curr → curr ≤ 20 → (∀ l ∈ lens, 1 ≤ l ∧ l ≤ 20) →
    getLens lens.length curr (bitsOf (lenFields curr lens) ++ rest) = .ok lens rest
  | [], _, _, _, _, _ => rfl
  | l :: lens, curr, rest, h1, h2, hl => by
    obtain ⟨hl1, hl2⟩ := hl l List.mem_cons_self
    have ih := getLens_spec lens l rest hl1 hl2 fun x hx => hl x (List.mem_cons_of_mem _ hx)
    rw [lenFields, List.length_cons, getLens, bitsOf_append, List.append_assoc]
    have hg : (fun bs => getLen (bs.length + 1) curr bs)
        (bitsOf (List.replicate (l - curr) (2, 2) ++ List.replicate (curr - l) (2, 3) ++ [(1, 0)]) ++ (bitsOf (lenFields l lens) ++ rest)) =
          .ok l (bitsOf (lenFields l lens) ++ rest) := by
      have hlen : l - curr + (curr - l) + 1 ≤
          (bitsOf (List.replicate (l - curr) (2, 2) ++ List.replicate (curr - l) (2, 3) ++ [(1, 0)])).length := by
        have := bitsOf_length_le (List.replicate (l - curr) (2, 2) ++ List.replicate (curr - l) (2, 3) ++ [(1, 0)]) (by
          intro f hf
          simp only [List.mem_append, List.mem_replicate, List.mem_singleton] at hf
          rcases hf with (⟨_, rfl⟩ | ⟨_, rfl⟩) | rfl <;> norm_num)
        simp only [List.length_append, List.length_replicate, List.length_singleton] at this
        exact this
      dsimp only
      rw [List.length_append]
      by_cases hc : curr ≤ l
      · have e : curr - l = 0 := by omega
        rw [e, List.replicate_zero, List.append_nil] at hlen ⊢
        rw [getLen_up _ _ _ _ h1 (by omega) (by omega)]
        congr 1; omega
      · have e : l - curr = 0 := by omega
        rw [e, List.replicate_zero, List.nil_append] at hlen ⊢
        rw [getLen_down _ _ _ _ (by omega) h2 (by omega)]
        congr 1; omega
    refine (bind_ok (x := fun bs => getLen (bs.length + 1) curr bs) hg).trans ?_
    rw [bind_ok ih]
    rfl

theorem getTables_spec (A : Nat) (hA : 1 ≤ A) : ∀ (tables : List (List Nat)) (rest : List Bool),
    (∀ t ∈ tables, t.length = A ∧ ∀ l ∈ t, 1 ≤ l ∧ l ≤ 20) →
    getTables A tables.length (bitsOf (tables.flatMap tableFields) ++ rest) = .ok tables rest
  | [], _, _ => rfl
  | t :: tables, rest, h => by
    obtain ⟨ht, hl⟩ := h t List.mem_cons_self
    have ih := getTables_spec A hA tables rest fun x hx => h x (List.mem_cons_of_mem _ hx)
    rw [List.length_cons, getTables, List.flatMap_cons, bitsOf_append, List.append_assoc]
    obtain ⟨a, t', rfl⟩ : ∃ a t', t = a :: t' := by
      cases t with
      | nil => simp at ht; omega
      | cons a t' => exact ⟨a, t', rfl⟩
    obtain ⟨a1, a2⟩ := hl a List.mem_cons_self
    have e : bitsOf (tableFields (a :: t')) = toBits 5 a ++ bitsOf (lenFields a (a :: t')) := by
      unfold tableFields
      rw [bitsOf_cons, List.headD_cons]
    have hg := getLens_spec (a :: t') a (bitsOf (tables.flatMap tableFields) ++ rest) a1 a2 hl
    rw [ht] at hg
    rw [e, List.append_assoc, bind_ok (getBits_toBits (by omega) _), bind_ok hg, bind_ok ih]
    rfl

/-! ## Values -/

theorem groups_nil : groups [] = [] := by rw [groups, if_pos rfl]

theorem groups_ne {l : List Nat} (h : l ≠ []) : groups l = l.take 50 :: groups (l.drop 50) := by rw [groups, if_neg h]

theorem groups_length_le : ∀ (n : Nat) (l : List Nat), l.length ≤ n → (groups l).length * 50 ≤ l.length + 49
  | 0, l, h => by
    have : l = [] := List.length_eq_zero_iff.mp (by omega)
    rw [this, groups_nil]; simp
  | n + 1, l, h => by
    by_cases hl : l = []
    · rw [hl, groups_nil]; simp
    · have hpos := List.length_pos_iff.mpr hl
      have := groups_length_le n (l.drop 50) (by rw [List.length_drop]; omega)
      rw [groups_ne hl, List.length_cons]
      rw [List.length_drop] at this
      by_cases h50 : 50 ≤ l.length
      · omega
      · have e : l.drop 50 = [] := List.drop_eq_nil_of_le (by omega)
        rw [e, groups_nil] at this ⊢
        simp
        omega

theorem groups_pos {l : List Nat} (h : l ≠ []) : 1 ≤ (groups l).length := by rw [groups_ne h]; simp

theorem mem_groups : ∀ (n : Nat) (l : List Nat), l.length ≤ n → ∀ g ∈ groups l, ∀ v ∈ g, v ∈ l
  | 0, l, h, g, hg, v, hv => by
    have : l = [] := List.length_eq_zero_iff.mp (by omega)
    rw [this, groups_nil] at hg
    cases hg
  | n + 1, l, h, g, hg, v, hv => by
    by_cases hl : l = []
    · rw [hl, groups_nil] at hg; cases hg
    · have hpos := List.length_pos_iff.mpr hl
      rw [groups_ne hl, List.mem_cons] at hg
      rcases hg with rfl | hg
      · exact List.mem_of_mem_take hv
      · exact List.mem_of_mem_drop (mem_groups n _ (by rw [List.length_drop]; omega) g hg v hv)

theorem getVals_spec {tables : List (List Nat)} {A : Nat} (ht : ∀ t ∈ tables, LensOk t ∧ t.length = A) (seq : List Nat) (eob max : Nat)
    (rest : List Bool) : ∀ (n : Nat) (cur l sels : List Nat) (pos : Nat) (lens : List Nat) (tb : Table) (m : MtfD) (tt : List Nat),
    (cur ++ l).length ≤ n → (pos = cur.length ∨ (l = [] ∧ cur.length ≤ pos)) → (cur ≠ [] → tb = tableOf lens ∧ LensOk lens ∧ lens.length = A) →
    (groups l).length = sels.length → (∀ s ∈ sels, s < tables.length) → (∀ v ∈ cur ++ l, v < A) →
    mtfDecode seq eob max m (cur ++ l) = some tt →
    getVals (tables.map tableOf) seq eob max n ⟨sels, pos, tb, m⟩
      (bitsOf (groupFields lens cur) ++ (bitsOf (dataFields sels tables l) ++ rest)) = .ok tt rest := by
  intro n
  induction n with
  | zero =>
    intro cur l sels pos lens tb m tt hn hpos hlens hsel hs hv hm
    have : cur ++ l = [] := List.length_eq_zero_iff.mp (by omega)
    rw [this] at hm
    cases hm
  | succ n ih =>
    -- one symbol, once the table is chosen
    have step : ∀ (v : Nat) (cur l sels : List Nat) (pos : Nat) (lens : List Nat) (m : MtfD) (tt : List Nat),
        (v :: cur ++ l).length ≤ n + 1 → (pos = cur.length ∨ (l = [] ∧ cur.length ≤ pos)) → LensOk lens → lens.length = A →
        (groups l).length = sels.length → (∀ s ∈ sels, s < tables.length) → (∀ x ∈ v :: cur ++ l, x < A) →
        mtfDecode seq eob max m (v :: cur ++ l) = some tt →
        (decodeSym (tableOf lens) >>= fun sym => match mtfDecStep seq eob max m sym with
          | .go m => getVals (tables.map tableOf) seq eob max n ⟨sels, pos, tableOf lens, m⟩
          | .done tt => pure tt
          | .err => Dec.fail)
          (bitsOf (groupFields lens (v :: cur)) ++ (bitsOf (dataFields sels tables l) ++ rest)) = .ok tt rest := by
      intro v cur l sels pos lens m tt hn hpos hl1 hl2 hsel hs hv hm
      have e : bitsOf (groupFields lens (v :: cur)) = codeBits lens v ++ bitsOf (groupFields lens cur) := by
        unfold groupFields
        rw [List.map_cons, bitsOf_cons]
        rfl
      have hd := C94_roundtrip hl1 (i := v) (by rw [hl2]; exact hv v (by simp))
        (bitsOf (groupFields lens cur) ++ (bitsOf (dataFields sels tables l) ++ rest))
      rw [e, List.append_assoc, bind_ok hd]
      rw [List.cons_append, mtfDecode] at hm
      cases hr : mtfDecStep seq eob max m v with
      | go m' =>
        rw [hr] at hm
        exact ih cur l sels pos lens _ m' tt (by simpa using hn) hpos (fun _ => ⟨rfl, hl1, hl2⟩) hsel hs
          (fun x hx => hv x (List.mem_cons_of_mem _ hx)) hm
      | done tt' =>
        rw [hr] at hm
        dsimp only at hm ⊢
        by_cases hnil : cur ++ l = []
        · rw [if_pos hnil] at hm
          cases hm
          rw [List.append_eq_nil_iff] at hnil
          obtain ⟨rfl, rfl⟩ := hnil
          unfold dataFields
          rw [groups_nil]
          rfl
        · rw [if_neg hnil] at hm
          cases hm
      | err =>
        rw [hr] at hm
        cases hm
    intro cur l sels pos lens tb m tt hn hpos hlens hsel hs hv hm
    cases cur with
    | cons v cur =>
      obtain ⟨rfl, hl1, hl2⟩ := hlens (by simp)
      have hp : pos ≠ 0 := by
        rcases hpos with h | ⟨_, h⟩ <;> simp at h <;> omega
      have hnext : ValD.next (tables.map tableOf) ⟨sels, pos, tableOf lens, m⟩ = some ⟨sels, pos - 1, tableOf lens, m⟩ := by
        unfold ValD.next
        rw [if_neg hp]
      rw [getVals, hnext]
      exact step v cur l sels (pos - 1) lens m tt hn (by
        rcases hpos with h | ⟨h0, h⟩
        · left; simp at h; omega
        · right; simp at h; exact ⟨h0, by omega⟩) hl1 hl2 hsel hs hv hm
    | nil =>
      have hl : l ≠ [] := by
        rintro rfl
        cases hm
      have hp : pos = 0 := by
        rcases hpos with h | ⟨h, _⟩
        · simpa using h
        · exact absurd h hl
      rw [groups_ne hl] at hsel
      obtain ⟨t, sels', rfl⟩ : ∃ t s', sels = t :: s' := by
        cases sels with
        | nil => simp at hsel
        | cons t s' => exact ⟨t, s', rfl⟩
      have htl : t < tables.length := hs t List.mem_cons_self
      have htab : tables.getD t [] ∈ tables := by
        rw [List.getD_eq_getElem _ _ htl]; exact List.getElem_mem _
      obtain ⟨hl1, hl2⟩ := ht _ htab
      have hnext : ValD.next (tables.map tableOf) ⟨t :: sels', pos, tb, m⟩ =
          some ⟨sels', 49, tableOf (tables.getD t []), m⟩ := by
        unfold ValD.next
        rw [if_pos hp]
        simp only
        rw [List.getD_eq_getElem _ _ (by simpa using htl), List.getElem_map, List.getD_eq_getElem _ _ htl]
      have hdata : bitsOf (groupFields lens []) ++ (bitsOf (dataFields (t :: sels') tables l) ++ rest) =
          bitsOf (groupFields (tables.getD t []) (l.take 50)) ++ (bitsOf (dataFields sels' tables (l.drop 50)) ++ rest) := by
        unfold dataFields
        rw [groups_ne hl, List.zip_cons_cons, List.flatMap_cons, bitsOf_append, List.append_assoc]
        rfl
      rw [getVals, hnext, hdata]
      have hsplit : l.take 50 ++ l.drop 50 = l := List.take_append_drop _ _
      cases hcur : l.take 50 with
      | nil =>
        exfalso
        cases l with
        | nil => exact hl rfl
        | cons a l => simp at hcur
      | cons v cur =>
        rw [hcur] at hsplit
        have hlen : (v :: cur).length = min 50 l.length := by rw [← hcur, List.length_take]
        rw [List.length_cons] at hlen
        refine step v cur (l.drop 50) sels' 49 (tables.getD t []) m tt (by rw [hsplit]; simpa using hn) ?_ hl1 hl2
          (by simpa using hsel) (fun s h => hs s (List.mem_cons_of_mem _ h)) (by rw [hsplit]; simpa using hv) (by rw [hsplit]; simpa using hm)
        by_cases h50 : 50 ≤ l.length
        · left; omega
        · right
          exact ⟨List.drop_eq_nil_of_le (by omega), by omega⟩

end Simox.Bz
