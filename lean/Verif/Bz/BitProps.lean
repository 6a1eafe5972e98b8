import Verif.Bz.BitLemmas

/-!
# bzip2: bits: properties
-/

namespace Simox.Bz

/-- Whatever is written with `bsW` (at most 24 bits at a time, as the function allows), the bytes put out are the bits
of the numbers, one after the other, the highest bit first, filled up with zeros to whole bytes. -/
theorem C89_writer (fs : List Field) (h : ∀ f ∈ fs, f.1 ≤ 24 ∧ f.2 < 2 ^ f.1) :
    (∀ b ∈ writeAll fs, b < 256) ∧
    ∃ p, p < 8 ∧ byteBits (writeAll fs) = (fs.flatMap fun f => toBits f.1 f.2) ++ List.replicate p false :=
  finish_spec _ (wInv_writeFields fs wInv_start h)

example : (∀ f ∈ [(1, 1), (24, 0xabcdef), (3, 5)], f.1 ≤ 24 ∧ f.2 < 2 ^ f.1) ∧
    writeAll [(1, 1), (24, 0xabcdef), (3, 5)] = [0xd5, 0xe6, 0xf7, 0xd0] := by decide +kernel

/-- `bsW` does not check its arguments: a number that has more bits than it should changes bits written before. -/
theorem C89_writer_range : writeAll [(1, 0), (2, 7)] = writeAll [(1, 1), (2, 3)] := by decide +kernel

/-- The numbers that `GET_BITS` gives, one after the other, until the input is used up. -/
def bufGets : List Nat → BitR → List Nat × BitR
  | [], r => ([], r)
  | n :: ns, r =>
    match bufGet n r.buff r.live r.inp with
    | (some v, r') => ((v :: (bufGets ns r').1), (bufGets ns r').2)
    | (none, r') => ([], r')

/-- `GET_BITS` with at most 24 bits gives the next bits of the input, and says that the input does not suffice exactly
if it does not. Afterwards the bits that were not used are still there; if more input arrives, they are followed by its
bits. -/
theorem C89_reader {n : Nat} (hn : n ≤ 24) {r : BitR} {bits : List Bool} (h : RInv r bits) (hl : r.live ≤ 31) :
    match bufGet n r.buff r.live r.inp with
    | (some v, r') => r'.live ≤ 31 ∧ ∃ rest, bits = toBits n v ++ rest ∧ v < 2 ^ n ∧ RInv r' rest
    | (none, r') => r'.live ≤ 31 ∧ bits.length < n ∧ ∀ inp, (∀ b ∈ inp, b < 256) →
        RInv { r' with inp := r'.inp ++ inp } (bits ++ byteBits inp) := by
  have hs := bufGet_spec hn r.inp r.buff r.live bits h hl
  rcases hg : bufGet n r.buff r.live r.inp with ⟨v, r'⟩
  rw [hg] at hs
  cases v with
  | some v =>
    obtain ⟨h31, rest, hr, hget⟩ := hs
    unfold getBits at hget
    split at hget
    · rename_i hle
      simp only [Res.ok.injEq] at hget
      obtain ⟨rfl, rfl⟩ := hget
      have hlen : (bits.take n).length = n := by simp [hle]
      refine ⟨h31, _, ?_, ?_, hr⟩
      · have := toBits_ofBits (bits.take n)
        rw [hlen] at this
        rw [this, List.take_append_drop]
      · have := ofBits_lt (bits.take n)
        rwa [hlen] at this
    · cases hget
  | none =>
    obtain ⟨h31, -, -, hr, hget⟩ := hs
    refine ⟨h31, getBits_more.1 hget, fun inp hinp => ?_⟩
    obtain ⟨a, b, c, d⟩ := hr
    refine ⟨a, b, ?_, ?_⟩
    · intro x hx
      simp only [List.mem_append] at hx
      rcases hx with hx | hx
      · exact c x hx
      · exact hinp x hx
    · simp only [byteBits_append, ← List.append_assoc, d]

example : RInv ⟨5, 3, [0xab, 0xcd]⟩ [true, false, true, true, false, true, false, true, false, true, true, true, true,
    false, false, true, true, false, true] ∧ bufGet 15 5 3 [0xab, 0xcd] = (some 0x5abc, ⟨0x5abcd, 4, []⟩) :=
  ⟨⟨by decide, by decide, by decide, by decide⟩, by decide +kernel⟩

theorem bufGets_fields : ∀ (fs : List Field) (r : BitR) (rest : List Bool), r.live ≤ 31 →
    RInv r ((fs.flatMap fun f => toBits f.1 f.2) ++ rest) → (∀ f ∈ fs, f.1 ≤ 24 ∧ f.2 < 2 ^ f.1) →
    (bufGets (fs.map Prod.fst) r).1 = fs.map Prod.snd
  | [], _, _, _, _, _ => rfl
  | f :: fs, r, rest, hl, hr, hf => by
    obtain ⟨hn, hv⟩ := hf f List.mem_cons_self
    have hs := bufGet_spec hn r.inp r.buff r.live _ hr hl
    rw [List.flatMap_cons, List.append_assoc, getBits_toBits hv] at hs
    simp only [List.map_cons, bufGets]
    rcases hg : bufGet f.1 r.buff r.live r.inp with ⟨v, r'⟩
    rw [hg] at hs
    cases v with
    | some v =>
      obtain ⟨h31, rest', hr', hget⟩ := hs
      simp only [Res.ok.injEq] at hget
      obtain ⟨rfl, rfl⟩ := hget
      simp only
      rw [bufGets_fields fs r' rest h31 hr' (fun g hg => hf g (List.mem_cons_of_mem _ hg))]
    | none =>
      obtain ⟨-, -, -, -, hget⟩ := hs
      cases hget

/-- What is written with `bsW` is read back with `GET_BITS`: all numbers, in order. -/
theorem C89_roundtrip (fs : List Field) (h : ∀ f ∈ fs, f.1 ≤ 24 ∧ f.2 < 2 ^ f.1) :
    (bufGets (fs.map Prod.fst) ⟨0, 0, writeAll fs⟩).1 = fs.map Prod.snd := by
  obtain ⟨hb, p, hp, hbits⟩ := C89_writer fs h
  refine bufGets_fields fs _ (List.replicate p false) (by simp) ⟨by simp, by simp, hb, ?_⟩ h
  simp only [toBits, List.nil_append, hbits]

end Simox.Bz
