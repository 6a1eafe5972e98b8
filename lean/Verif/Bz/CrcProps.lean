import Verif.Bz.SafeProps

/-!
# bzip2: checksums: C98
-/

namespace Simox.Bz

/-! ## The table -/

/-- A bit of the division by the polynomial of CRC-32, `x^32 + x^26 + x^23 + x^22 + x^16 + x^12 + x^11 + x^10 + x^8 + x^7 + x^5 + x^4 + x^2 +
x + 1`. -/
def crcBit (r : Nat) : Nat := if r.testBit 31 then (r <<< 1 % 2 ^ 32) ^^^ 0x04c11db7 else r <<< 1 % 2 ^ 32

/-- The remainder for a byte. -/
def crcByte (b : Nat) : Nat := crcBit (crcBit (crcBit (crcBit (crcBit (crcBit (crcBit (crcBit (b <<< 24))))))))

/-- **The table is that of CRC-32**: each of its 256 entries is the remainder of its index. -/
theorem C98_table : crcTable.length = 256 ∧ ∀ b, b < 256 → crcTable.getD b 0 = crcByte b := by decide +kernel

/-! ## Changes are found -/

theorem xor_cancel {a b c : Nat} (h : a ^^^ b = a ^^^ c) : b = c := by
  have := congrArg (a ^^^ ·) h
  simpa only [← Nat.xor_assoc, Nat.xor_self, Nat.zero_xor] using this

theorem xor_cancel_right {a b c : Nat} (h : b ^^^ a = c ^^^ a) : b = c := by
  rw [Nat.xor_comm b, Nat.xor_comm c] at h
  exact xor_cancel h

theorem table_low : ∀ i, i < 256 → ∀ j, j < 256 → crcTable.getD i 0 % 256 = crcTable.getD j 0 % 256 → i = j := by
  have h : ((List.range 256).map fun i => crcTable.getD i 0 % 256).Nodup := by decide +kernel
  intro i hi j hj e
  have hinj := List.inj_on_of_nodup_map h
  exact hinj (List.mem_range.mpr hi) (List.mem_range.mpr hj) e

theorem idx_lt {s c : Nat} (hs : s < 2 ^ 32) (hc : c < 256) : s >>> 24 ^^^ c < 256 := by
  apply Nat.xor_lt_two_pow (n := 8) _ hc
  rw [Nat.shiftRight_eq_div_pow, Nat.div_lt_iff_lt_mul (by norm_num)]
  exact hs

/-- If the results of two updates agree in the low bytes, the table entries are the same, and the states agree in one byte
less. -/
theorem crcUpdate_back {s s' c c' : Nat} (hs : s < 2 ^ 32) (hs' : s' < 2 ^ 32) (hc : c < 256) (hc' : c' < 256) {j : Nat} (hj : j ≤ 3)
    (h : crcUpdate s c % 2 ^ (8 * (j + 1)) = crcUpdate s' c' % 2 ^ (8 * (j + 1))) :
    s >>> 24 ^^^ c = s' >>> 24 ^^^ c' ∧ s % 2 ^ (8 * j) = s' % 2 ^ (8 * j) := by
  unfold crcUpdate at h
  rw [Nat.xor_mod_two_pow, Nat.xor_mod_two_pow] at h
  have hmm : ∀ x : Nat, x % 2 ^ 32 % 2 ^ (8 * (j + 1)) = x % 2 ^ (8 * (j + 1)) := fun x =>
    Nat.mod_mod_of_dvd _ (pow_dvd_pow 2 (by omega))
  have hsh : ∀ x : Nat, x <<< 8 % 2 ^ (8 * (j + 1)) = (x % 2 ^ (8 * j)) <<< 8 := by
    intro x
    rw [Nat.shiftLeft_eq, Nat.shiftLeft_eq, show 8 * (j + 1) = 8 * j + 8 by ring, pow_add, Nat.mul_mod_mul_right]
  rw [hmm, hmm, hsh, hsh] at h
  have hi : s >>> 24 ^^^ c = s' >>> 24 ^^^ c' := by
    apply table_low _ (idx_lt hs hc) _ (idx_lt hs' hc')
    have h8 := congrArg (· % 2 ^ 8) h
    rw [Nat.xor_mod_two_pow, Nat.xor_mod_two_pow] at h8
    have hz : ∀ x : Nat, x <<< 8 % 2 ^ 8 = 0 := fun x => by rw [Nat.shiftLeft_eq, Nat.mul_mod_left]
    rw [hz, hz, Nat.zero_xor, Nat.zero_xor, Nat.mod_mod_of_dvd _ (pow_dvd_pow 2 (by omega)), Nat.mod_mod_of_dvd _ (pow_dvd_pow 2 (by omega))] at h8
    exact h8
  refine ⟨hi, ?_⟩
  rw [hi] at h
  have h2 := xor_cancel_right h
  rw [Nat.shiftLeft_eq, Nat.shiftLeft_eq] at h2
  exact Nat.eq_of_mul_eq_mul_right (by norm_num) h2

theorem crcUpdate_inj {s s' c : Nat} (hs : s < 2 ^ 32) (hs' : s' < 2 ^ 32) (hc : c < 256) (h : crcUpdate s c = crcUpdate s' c) : s = s' := by
  obtain ⟨h1, h2⟩ := crcUpdate_back hs hs' hc hc (j := 3) le_rfl (by rw [h])
  have h3 : s >>> 24 = s' >>> 24 := by
    rw [Nat.xor_comm (s >>> 24), Nat.xor_comm (s' >>> 24)] at h1
    exact xor_cancel h1
  rw [Nat.shiftRight_eq_div_pow, Nat.shiftRight_eq_div_pow] at h3
  rw [← Nat.div_add_mod s (2 ^ 24), ← Nat.div_add_mod s' (2 ^ 24), h3]
  congr 1

theorem foldl_inj : ∀ (l : List Nat), (∀ b ∈ l, b < 256) → ∀ s s', s < 2 ^ 32 → s' < 2 ^ 32 →
    l.foldl crcUpdate s = l.foldl crcUpdate s' → s = s'
  | [], _, _, _, _, _, h => h
  | c :: l, hb, s, s', hs, hs', h => by
    rw [List.foldl_cons, List.foldl_cons] at h
    exact crcUpdate_inj hs hs' (hb c List.mem_cons_self) (foldl_inj l (fun b hb' => hb b (List.mem_cons_of_mem _ hb')) _ _ crcUpdate_lt crcUpdate_lt h)

theorem burst_inj : ∀ (n : Nat) (m m' : List Nat) (s : Nat), n ≤ 4 → m.length = n → m'.length = n → (∀ b ∈ m, b < 256) → (∀ b ∈ m', b < 256) →
    s < 2 ^ 32 → m.foldl crcUpdate s % 2 ^ (8 * n) = m'.foldl crcUpdate s % 2 ^ (8 * n) → m = m'
  | 0, m, m', _, _, h1, h2, _, _, _, _ => by
    rw [List.length_eq_zero_iff.mp h1, List.length_eq_zero_iff.mp h2]
  | n + 1, m, m', s, hn, h1, h2, hb, hb', hs, h => by
    obtain ⟨m0, c, rfl⟩ : ∃ m0 c, m = m0 ++ [c] := ⟨m.dropLast, m.getLast (by intro e; rw [e] at h1; simp at h1), (List.dropLast_append_getLast _).symm⟩
    obtain ⟨m1, c', rfl⟩ : ∃ m0 c, m' = m0 ++ [c] := ⟨m'.dropLast, m'.getLast (by intro e; rw [e] at h2; simp at h2), (List.dropLast_append_getLast _).symm⟩
    rw [List.foldl_append, List.foldl_append] at h
    have hc : c < 256 := hb c (by simp)
    have hc' : c' < 256 := hb' c' (by simp)
    have hlt := crc_foldl_lt m0 s hs
    have hlt' := crc_foldl_lt m1 s hs
    obtain ⟨hi, hm⟩ := crcUpdate_back hlt hlt' hc hc' (j := n) (by omega) h
    have hmm := burst_inj n m0 m1 s (by omega) (by simpa using h1) (by simpa using h2) (fun b hb'' => hb b (by simp [hb'']))
      (fun b hb'' => hb' b (by simp [hb''])) hs hm
    rw [hmm] at hi ⊢
    rw [xor_cancel hi]

/-- **Every change of up to four neighbouring bytes is found**: two lists of bytes that differ, but only within up to four bytes next to each other,
have different checksums. -/
theorem C98_burst {a b m m' : List Nat} (hb : ∀ x ∈ b, x < 256) (hm : ∀ x ∈ m, x < 256)
    (hm' : ∀ x ∈ m', x < 256) (hl : m.length = m'.length) (h4 : m.length ≤ 4) (hne : m ≠ m') :
    crcOf (a ++ m ++ b) ≠ crcOf (a ++ m' ++ b) := by
  intro h
  unfold crcOf crcFinal at h
  rw [Nat.xor_comm _ 0xffffffff, Nat.xor_comm _ 0xffffffff] at h
  have h1 := xor_cancel h
  rw [List.foldl_append, List.foldl_append, List.foldl_append, List.foldl_append] at h1
  have ha := crc_foldl_lt a crcInit (by unfold crcInit; norm_num)
  have h2 := foldl_inj b hb _ _ (crc_foldl_lt m _ ha) (crc_foldl_lt m' _ ha) h1
  exact hne (burst_inj m.length m m' _ h4 rfl hl.symm hm hm' ha (by rw [h2]))

example : crcOf [49, 50, 51, 52, 53, 54, 55, 56, 57] = 0xfc891918 ∧ ([3, 4, 5, 6] : List Nat) ≠ [3, 9, 5, 0] ∧
    crcOf ([1, 2] ++ [3, 9, 5, 0] ++ [7]) ≠ crcOf ([1, 2] ++ [3, 4, 5, 6] ++ [7]) := by
  refine ⟨by decide +kernel, by decide, ?_⟩
  exact C98_burst (by decide) (by decide) (by decide) rfl (by decide) (by decide)

/-! ## What is accepted -/

theorem bind_inv {α β : Type} {x : Dec α} {f : α → Dec β} {bs rest : List Bool} {b : β} (h : (x >>= f) bs = .ok b rest) :
    ∃ a r, x bs = .ok a r ∧ f a r = .ok b rest := by
  change Dec.bind x f bs = _ at h
  unfold Dec.bind at h
  cases hr : x bs with
  | ok a r => rw [hr] at h; exact ⟨a, r, rfl, h⟩
  | more => rw [hr] at h; cases h
  | err => rw [hr] at h; cases h
  | ub => rw [hr] at h; cases h
  | random => rw [hr] at h; cases h

theorem getBits_inv {n v : Nat} {bs rest : List Bool} (h : getBits n bs = .ok v rest) : bs = toBits n v ++ rest ∧ v < 2 ^ n := by
  refine ⟨?_, ((spec_getBits n bs).2 v rest h).1⟩
  unfold getBits at h
  by_cases hn : n ≤ bs.length
  · rw [if_pos hn, Res.ok.injEq] at h
    obtain ⟨rfl, rfl⟩ := h
    have := toBits_ofBits (bs.take n)
    rw [List.length_take, min_eq_left hn] at this
    rw [this, List.take_append_drop]
  · rw [if_neg hn] at h; cases h

theorem getBytes_inv : ∀ (n v0 : Nat) (bs : List Bool) (v : Nat) (rest : List Bool), getBytes n v0 bs = .ok v rest →
    ∃ p, bs = p ++ rest ∧ p.length = 8 * n ∧ v = v0 * 2 ^ (8 * n) + ofBits p
  | 0, v0, bs, v, rest, h => by
    rw [getBytes, pure_ok, Res.ok.injEq] at h
    exact ⟨[], by simp [h.2], rfl, by simp [h.1, ofBits]⟩
  | n + 1, v0, bs, v, rest, h => by
    rw [getBytes] at h
    obtain ⟨a, r, h1, h2⟩ := bind_inv h
    obtain ⟨e1, ha⟩ := getBits_inv h1
    obtain ⟨p, e2, e3, e4⟩ := getBytes_inv n _ r v rest h2
    refine ⟨toBits 8 a ++ p, by rw [e1, e2, List.append_assoc], by rw [List.length_append, toBits_length, e3]; omega, ?_⟩
    rw [ofBits_append, ofBits_toBits, Nat.mod_eq_of_lt ha, e3, e4, show 8 * (n + 1) = 8 + 8 * n by omega, Nat.pow_add]
    ring

/-- **Only what fits its checksums is accepted**: for every file, if the decompressor succeeds, the output consists of blocks whose checksums were
stored in the file, and the file has the combination of these checksums at its end. -/
theorem C98_checked {bytes x : List Nat} {rest : List Bool} (h : decompress bytes = .ok x rest) :
    ∃ blocks : List (List Nat), x = blocks.flatten ∧
      (∀ y ∈ blocks, ∃ size100k bs b r, bs <:+ byteBits bytes ∧ getBlock size100k bs = .ok b r ∧ expand size100k b = some y ∧
        b.crc = crcOf y) ∧
      ∃ pre, byteBits bytes = pre ++ toBits 32 ((blocks.map crcOf).foldl crcCombine 0) ++ rest := by
  have key : ∀ (size100k n all : Nat) (out : List Nat) (bs : List Bool) (x : List Nat) (rest : List Bool),
      getBlocks size100k n all out bs = .ok x rest → ∃ blocks : List (List Nat), x = out ++ blocks.flatten ∧
        (∀ y ∈ blocks, ∃ size100k bs' b r, bs' <:+ bs ∧ getBlock size100k bs' = .ok b r ∧ expand size100k b = some y ∧
          b.crc = crcOf y) ∧
        ∃ pre, bs = pre ++ toBits 32 ((blocks.map crcOf).foldl crcCombine all) ++ rest := by
    intro size100k n
    induction n with
    | zero => intro all out bs x rest h; cases h
    | succ n ih =>
      intro all out bs x rest h
      rw [getBlocks] at h
      obtain ⟨uc, r1, hr1, h⟩ := bind_inv h
      obtain ⟨-, -, hs1⟩ := (spec_getBits 8 bs).2 uc r1 hr1
      by_cases h17 : uc = 0x17
      · rw [if_pos h17] at h
        obtain ⟨u, r2, hr2, h⟩ := bind_inv h
        obtain ⟨-, -, hs2⟩ := (spec_expects _ r1).2 u r2 hr2
        obtain ⟨st, r3, hr3, h⟩ := bind_inv h
        by_cases hall : all ≠ st
        · rw [if_pos hall] at h; cases h
        · rw [if_neg hall, pure_ok, Res.ok.injEq] at h
          obtain ⟨rfl, rfl⟩ := h
          obtain ⟨pre, hpre⟩ := hs2.trans hs1
          refine ⟨[], by simp, by simp, pre, ?_⟩
          obtain ⟨w, hw, hl, hv⟩ := getBytes_inv 4 0 r2 st _ hr3
          rw [Nat.zero_mul, Nat.zero_add] at hv
          have hall' : all = st := not_not.mp hall
          have hb := toBits_ofBits w
          rw [hl] at hb
          rw [← hpre, hw, List.map_nil, List.foldl_nil, hall', hv, hb, List.append_assoc]
      · rw [if_neg h17] at h
        by_cases h31 : uc ≠ 0x31
        · rw [if_pos h31] at h; cases h
        · rw [if_neg h31] at h
          obtain ⟨b, r2, hr2, h⟩ := bind_inv h
          obtain ⟨-, hs2, -⟩ := getBlock_suffix hr2
          cases hx : expand size100k b with
          | none => rw [hx] at h; cases h
          | some y =>
            rw [hx] at h
            dsimp only at h
            by_cases hc : crcOf y ≠ b.crc
            · rw [if_pos hc] at h; cases h
            · rw [if_neg hc] at h
              obtain ⟨blocks, e1, e2, pre, e3⟩ := ih _ _ r2 x rest h
              obtain ⟨p1, hp1⟩ := hs2.trans hs1
              refine ⟨y :: blocks, by rw [e1]; simp, ?_, p1 ++ pre, ?_⟩
              · intro z hz
                rcases List.mem_cons.mp hz with rfl | hz
                · exact ⟨size100k, r1, b, r2, hs1, hr2, hx, (not_not.mp hc).symm⟩
                · obtain ⟨sz, bs', b', r', g1, g2⟩ := e2 z hz
                  exact ⟨sz, bs', b', r', g1.trans (hs2.trans hs1), g2⟩
              · rw [← hp1]
                conv_lhs => rw [e3]
                simp [List.append_assoc]
  unfold decompress getStream at h
  obtain ⟨u, r1, hr1, h⟩ := bind_inv h
  obtain ⟨-, -, hs1⟩ := (spec_expects _ (byteBits bytes)).2 u r1 hr1
  obtain ⟨c, r2, hr2, h⟩ := bind_inv h
  obtain ⟨-, -, hs2⟩ := (spec_getBits 8 r1).2 c r2 hr2
  by_cases hcc : c < 0x30 + 1 ∨ 0x30 + 9 < c
  · rw [if_pos hcc] at h; cases h
  · rw [if_neg hcc] at h
    obtain ⟨blocks, e1, e2, pre, e3⟩ := key _ _ _ _ _ _ _ h
    obtain ⟨p1, hp1⟩ := hs2.trans hs1
    refine ⟨blocks, by simpa using e1, ?_, p1 ++ pre, ?_⟩
    · intro y hy
      obtain ⟨sz, bs', b', r', g1, g2⟩ := e2 y hy
      exact ⟨sz, bs', b', r', g1.trans (hs2.trans hs1), g2⟩
    · rw [← hp1, e3]
      simp [List.append_assoc]

end Simox.Bz
