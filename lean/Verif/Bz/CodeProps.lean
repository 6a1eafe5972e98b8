import Verif.Bz.CodeLemmas

/-!
# bzip2: Huffman codes: properties of the codes
-/

namespace Simox.Bz

theorem bind_ok {α β : Type} {x : Dec α} {f : α → Dec β} {bs rest : List Bool} {a : α} (h : x bs = .ok a rest) :
    (x >>= f) bs = f a rest := by
  change Dec.bind x f bs = _
  unfold Dec.bind
  rw [h]

/-- The bits of the code of a symbol. -/
def codeBits (lens : List Nat) (i : Nat) : List Bool := toBits (lens.getD i 0) (codesOf lens i)

/-- Lengths that can be used: between 1 and 20, with codes that do not need more bits than there are. -/
structure LensOk (lens : List Nat) : Prop where
  size : lens.length ≤ 258
  range : ∀ l ∈ lens, 1 ≤ l ∧ l ≤ 20
  kraft : (lens.map fun l => 2 ^ (20 - l)).sum ≤ 2 ^ 20

theorem LensOk.le {lens : List Nat} (h : LensOk lens) : ∀ l ∈ lens, l ≤ 20 := fun l hl => (h.range l hl).2

theorem getD_mem {lens : List Nat} {i : Nat} (hi : i < lens.length) : lens.getD i 0 ∈ lens := by
  rw [List.getD_eq_getElem _ _ hi]; exact List.getElem_mem _

theorem count_take_lt {lens : List Nat} {i : Nat} (hi : i < lens.length) :
    (lens.take i).count (lens.getD i 0) < lens.count (lens.getD i 0) := by
  have h1 := count_take_succ hi (lens.getD i 0)
  rw [if_pos rfl] at h1
  have h2 := count_take_le lens (i + 1) (lens.getD i 0)
  omega

/-- A code fits into its length. -/
theorem C94_fits {lens : List Nat} (h : LensOk lens) {i : Nat} (hi : i < lens.length) :
    codesOf lens i < 2 ^ lens.getD i 0 := by
  have h1 := firstCode_kraft h.kraft (h.le _ (getD_mem hi))
  have h2 := count_take_lt hi
  have h3 : codesOf lens i = _ := assignCodes_spec hi
  rw [h3]
  omega

theorem symLoop_code {lens : List Nat} (h : LensOk lens) {i : Nat} (hi : i < lens.length) (rest : List Bool) :
    ∀ d zn, zn + d = lens.getD i 0 → minLen lens ≤ zn →
      symLoop (tableOf lens) zn (codesOf lens i / 2 ^ d) (toBits d (codesOf lens i) ++ rest) = .ok i rest := by
  have hmem := getD_mem hi
  have hL := h.le _ hmem
  have hmax := le_maxLen hmem
  have hcode : codesOf lens i = _ := assignCodes_spec hi
  have hcnt := count_take_lt hi
  intro d
  induction d with
  | zero =>
    intro zn hz hmin
    have hz : zn = lens.getD i 0 := hz
    subst hz
    unfold symLoop
    have hlim := tableOf_limit h.le (lens.getD i 0)
    have hbase := tableOf_base h.le hmin (by omega)
    rw [if_pos ⟨hmin, hmax⟩] at hlim
    rw [if_pos hmax] at hbase
    rw [pow_zero, Nat.div_one, dif_neg (by omega), if_pos (by rw [hlim, hcode]; omega)]
    have hidx : (codesOf lens i : Int) - (tableOf lens).base (lens.getD i 0) = rank lens i := by
      rw [hbase, hcode]
      unfold rank
      omega
    have hlt := rank_lt hi
    have hsz := h.size
    rw [hidx, if_neg (by omega), Int.toNat_natCast, tableOf_perm hi]
    rfl
  | succ d ih =>
    intro zn hz hmin
    unfold symLoop
    rw [dif_neg (by omega), if_neg]
    · have hget : getBits 1 (toBits (d + 1) (codesOf lens i) ++ rest) =
          .ok ((codesOf lens i).testBit d).toNat (toBits d (codesOf lens i) ++ rest) := by
        simp [getBits, toBits, ofBits]
      rw [bind_ok hget]
      have hv : 2 * (codesOf lens i / 2 ^ (d + 1)) + ((codesOf lens i).testBit d).toNat = codesOf lens i / 2 ^ d := by
        rw [Nat.toNat_testBit, pow_succ, ← Nat.div_div_eq_div_mul]
        omega
      rw [hv]
      exact ih (zn + 1) (by omega) (by omega)
    · have hlim := tableOf_limit h.le zn
      rw [if_pos ⟨hmin, by omega⟩] at hlim
      have hg := firstCode_grow lens zn d
      rw [show zn + d + 1 = lens.getD i 0 by omega] at hg
      have hle : firstCode lens zn + lens.count zn ≤ codesOf lens i / 2 ^ (d + 1) := by
        rw [Nat.le_div_iff_mul_le (by positivity), hcode]
        nlinarith
      rw [hlim]
      generalize codesOf lens i / 2 ^ (d + 1) = v at *
      omega

/-- **Reading undoes writing.** For lengths that can be used, the table made from them reads the code of a symbol as that
symbol, and leaves what follows. -/
theorem C94_roundtrip {lens : List Nat} (h : LensOk lens) {i : Nat} (hi : i < lens.length) (rest : List Bool) :
    decodeSym (tableOf lens) (codeBits lens i ++ rest) = .ok i rest := by
  have hmin := minLen_le (getD_mem hi)
  have hfit := C94_fits h hi
  obtain ⟨d, hd⟩ : ∃ d, lens.getD i 0 = minLen lens + d := ⟨lens.getD i 0 - minLen lens, by omega⟩
  have hv : codesOf lens i / 2 ^ d < 2 ^ minLen lens := by
    rw [Nat.div_lt_iff_lt_mul (by positivity), ← pow_add, ← hd]
    exact hfit
  unfold codeBits decodeSym
  rw [hd, toBits_add, List.append_assoc]
  have hget : getBits (tableOf lens).minLen (toBits (minLen lens) (codesOf lens i / 2 ^ d) ++
      (toBits d (codesOf lens i) ++ rest)) = .ok (codesOf lens i / 2 ^ d) (toBits d (codesOf lens i) ++ rest) :=
    getBits_toBits hv _
  rw [bind_ok hget]
  exact symLoop_code h hi rest d (minLen lens) hd.symm le_rfl

/-- Three symbols of length 2, and two of length 3. -/
def exLens : List Nat := [3, 2, 2, 3, 2]

theorem exLens_ok : LensOk exLens := ⟨by decide, by decide, by decide +kernel⟩

example : codeBits exLens 0 = [true, true, false] ∧ codeBits exLens 4 = [true, false] ∧
    decodeSym (tableOf exLens) [true, true, true, false] = .ok 3 [false] := by
  refine ⟨by decide +kernel, by decide +kernel, C94_roundtrip exLens_ok (i := 3) (by decide) [false]⟩

/-- No code starts with another code. -/
theorem C94_prefix_free {lens : List Nat} (h : LensOk lens) {i j : Nat} (hi : i < lens.length) (hj : j < lens.length)
    (hp : codeBits lens i <+: codeBits lens j) : i = j := by
  obtain ⟨r, hr⟩ := hp
  have h1 := C94_roundtrip h hi r
  have h2 := C94_roundtrip h hj []
  rw [List.append_nil, ← hr, h1] at h2
  simp only [Res.ok.injEq] at h2
  exact h2.1

example : codeBits exLens 0 ≠ codeBits exLens 3 := fun he =>
  absurd (C94_prefix_free exLens_ok (i := 0) (j := 3) (by decide) (by decide) ⟨[], by rw [List.append_nil]; exact he⟩) (by decide)

theorem symLoop_range {lens : List Nat} (hsz : lens.length ≤ 258) (hl : ∀ l ∈ lens, 1 ≤ l ∧ l ≤ 20) (hne : lens ≠ []) :
    ∀ k zn zvec bs, zn + k = 21 → minLen lens ≤ zn → (∀ i rest, symLoop (tableOf lens) zn zvec bs = .ok i rest → i < lens.length) ∧
      symLoop (tableOf lens) zn zvec bs ≠ .ub ∧ symLoop (tableOf lens) zn zvec bs ≠ .random := by
  have hle : ∀ l ∈ lens, l ≤ 20 := fun l h => (hl l h).2
  intro k
  induction k with
  | zero =>
    intro zn zvec bs hz _
    unfold symLoop
    rw [dif_pos (by omega)]
    simp [Dec.fail]
  | succ k ih =>
    intro zn zvec bs hz hmin
    unfold symLoop
    rw [dif_neg (by omega)]
    have hlim := tableOf_limit hle zn
    have hbase := tableOf_base hle hmin (by omega)
    by_cases hstop : (zvec : Int) ≤ (tableOf lens).limit zn
    · rw [if_pos hstop]
      split
      · simp [Dec.fail]
      · rename_i hr
        have hlt : ((zvec : Int) - (tableOf lens).base zn).toNat < lens.length := by
          by_cases hmax : zn ≤ maxLen lens
          · rw [if_pos ⟨hmin, hmax⟩] at hlim
            rw [if_pos hmax] at hbase
            have h1 : below lens (zn + 1) ≤ lens.length := List.countP_le_length
            unfold below at h1
            rw [countP_or] at h1
            unfold below at hbase
            rw [hlim] at hstop
            rw [hbase] at hr ⊢
            omega
          · exfalso
            rw [if_neg (by omega)] at hlim
            rw [if_neg hmax] at hbase
            have h1 : below lens zn = lens.length := by
              unfold below
              rw [List.countP_eq_length]
              intro l hl
              have := le_maxLen hl
              simp
              omega
            have h2 : 0 < lens.length := List.length_pos_iff.mpr hne
            rw [hbase, h1] at hr
            rw [hlim] at hstop
            omega
        have hperm := tableOf_perm_length (lens := lens)
        obtain ⟨i, hi, hri⟩ := rank_surj hlt
        rw [← hri, tableOf_perm hi]
        refine ⟨fun j rest hj => ?_, by simp [Dec.ofOption, Dec.pure], by simp [Dec.ofOption, Dec.pure]⟩
        simp only [Dec.ofOption, Dec.pure, Res.ok.injEq] at hj
        omega
    · rw [if_neg hstop]
      change (∀ i rest, Dec.bind _ _ bs = _ → _) ∧ Dec.bind _ _ bs ≠ _ ∧ Dec.bind _ _ bs ≠ _
      unfold Dec.bind
      unfold getBits
      split
      · rename_i h
        split at h
        · simp only [Res.ok.injEq] at h
          obtain ⟨rfl, rfl⟩ := h
          exact ih _ _ _ (by omega) (by omega)
        · cases h
      · simp
      · simp
      · rename_i h
        split at h <;> cases h
      · rename_i h
        split at h <;> cases h

/-- **No access outside.** Whatever lengths between 1 and 20 are read (also if there are too many short codes, or too
few), and whatever bits follow, the table is never used outside its elements, and the symbol is one of the alphabet. -/
theorem C94_in_range {lens : List Nat} (hsz : lens.length ≤ 258) (hl : ∀ l ∈ lens, 1 ≤ l ∧ l ≤ 20) (hne : lens ≠ [])
    (bs : List Bool) : (∀ i rest, decodeSym (tableOf lens) bs = .ok i rest → i < lens.length) ∧
      decodeSym (tableOf lens) bs ≠ .ub ∧ decodeSym (tableOf lens) bs ≠ .random := by
  unfold decodeSym
  have hmin : minLen lens ≤ 20 := (hl _ (minLen_mem hne fun a ha => by have := (hl a ha).2; omega)).2
  change (∀ i rest, Dec.bind _ _ bs = _ → _) ∧ Dec.bind _ _ bs ≠ _ ∧ Dec.bind _ _ bs ≠ _
  unfold Dec.bind getBits
  split
  · rename_i h
    split at h
    · simp only [Res.ok.injEq] at h
      obtain ⟨rfl, rfl⟩ := h
      have hm : (tableOf lens).minLen = minLen lens := rfl
      rw [hm]
      exact symLoop_range hsz hl hne (21 - minLen lens) _ _ _ (by omega) le_rfl
    · cases h
  · simp
  · simp
  · rename_i h
    split at h <;> cases h
  · rename_i h
    split at h <;> cases h

/-- Four codes of length 1 are too many: two of them are read, the others never. -/
example : decodeSym (tableOf [1, 1, 1, 1]) [true] = .ok 1 [] ∧ decodeSym (tableOf [2, 2]) (List.replicate 30 true) = .err := by
  decide +kernel

end Simox.Bz
