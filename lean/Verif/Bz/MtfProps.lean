import Verif.Bz.MtfLemmas

/-!
# bzip2: move to front and runs of zeros: properties
-/

namespace Simox.Bz

theorem runDigits_length (z : Nat) : (runDigits z).length ≤ z + 1 := by
  induction z using Nat.strongRecOn with
  | ind z ih =>
    rw [runDigits]
    by_cases h : 2 ≤ z
    · have := ih ((z - 2) / 2) (by omega)
      rw [if_pos h, List.length_cons]; omega
    · rw [if_neg h]; simp

theorem flushZeros_length (z : Nat) : (flushZeros z).length ≤ z := by
  unfold flushZeros
  split
  · have := runDigits_length (z - 1); omega
  · simp

theorem flushZeros_bits (z : Nat) : ∀ d ∈ flushZeros z, d = 0 ∨ d = 1 := by
  unfold flushZeros
  split
  · exact runDigits_bits _
  · simp

theorem encRest_spec {k : Nat} (hk : 1 ≤ k) : ∀ (ls yy : List Nat) (z : Nat), yy.length = k → (∀ x ∈ ls, x ∈ yy) →
    ∃ l, encRest (k + 1) yy z ls = l ++ [k + 1] ∧ (∀ x ∈ l, x ≤ k) ∧ l.length ≤ z + ls.length ∧
      (0 < z + ls.length → l ≠ [])
  | [], yy, z, _, _ => by
    refine ⟨flushZeros z, by rw [encRest], ?_, by simpa using flushZeros_length z, ?_⟩
    · intro x hx
      have := flushZeros_bits z x hx
      omega
    · intro h
      simp only [List.length_nil, Nat.add_zero] at h
      unfold flushZeros
      rw [if_pos h, runDigits]; simp
  | x :: ls, yy, z, hy, hx => by
    have hx' : ∀ y ∈ ls, y ∈ yy := fun y hy => hx y (List.mem_cons_of_mem _ hy)
    rw [encRest]
    by_cases h : yy.head? = some x
    · rw [if_pos h]
      obtain ⟨l, h1, h2, h3, h4⟩ := encRest_spec hk ls yy (z + 1) hy hx'
      exact ⟨l, h1, h2, by simp only [List.length_cons]; omega, fun _ => h4 (by omega)⟩
    · rw [if_neg h]
      have hxm := hx x List.mem_cons_self
      obtain ⟨l, h1, h2, h3, h4⟩ := encRest_spec hk ls (x :: yy.erase x) 0
        (by rw [List.length_cons, List.length_erase_of_mem hxm]; have := List.length_pos_of_mem hxm; omega)
        (by
          intro y hyl
          by_cases hyx : y = x
          · exact hyx ▸ List.mem_cons_self
          · exact List.mem_cons_of_mem _ ((List.mem_erase_of_ne hyx).2 (hx' y hyl)))
      refine ⟨flushZeros z ++ (yy.idxOf x + 1) :: l, by rw [h1]; simp, ?_, ?_, by simp⟩
      · intro y hyl
        rw [List.mem_append, List.mem_cons] at hyl
        rcases hyl with hyl | rfl | hyl
        · have := flushZeros_bits z y hyl
          omega
        · have := List.idxOf_lt_length_of_mem hxm
          omega
        · exact h2 y hyl
      · have := flushZeros_length z
        simp only [List.length_append, List.length_cons]
        omega

theorem mtfEncode_eq (inUse : Nat → Bool) (l : List Nat) :
    mtfEncode inUse l = encRest (nInUse inUse + 1) (List.range (nInUse inUse)) 0 (l.map (unseqToSeq inUse)) := by
  unfold mtfEncode
  simp only
  rw [encRest_fold]
  rfl

/-- Move to front and the coding of runs of zeros lose nothing: for every block of bytes that are marked as used, no longer
than there is room for, the values that generateMTFValues writes are read back as the block. -/
theorem C92_roundtrip {inUse : Nat → Bool} {l : List Nat} {max : Nat} (hne : l ≠ []) (hb : ∀ b ∈ l, b < 256)
    (hu : ∀ b ∈ l, inUse b = true) (hl : l.length ≤ max) (hmax : max < 2 * 1024 * 1024) :
    mtfDecode (seqToUnseq inUse) (nInUse inUse + 1) max .start (mtfEncode inUse l) = some l := by
  have hk : 1 ≤ nInUse inUse := by
    obtain ⟨b, t, rfl⟩ := List.exists_cons_of_ne_nil hne
    have := (unseq_lt (hb b List.mem_cons_self) (hu b List.mem_cons_self)).1
    omega
  have hk256 : nInUse inUse ≤ 256 := by
    unfold nInUse seqToUnseq
    exact (List.length_filter_le _ _).trans (by simp)
  obtain ⟨t, ht⟩ : ∃ t, List.range (nInUse inUse) = 0 :: t := by
    obtain ⟨m, hm⟩ : ∃ m, nInUse inUse = m + 1 := ⟨nInUse inUse - 1, by omega⟩
    rw [hm, List.range_succ_eq_map]; exact ⟨_, rfl⟩
  have hr : List.range 256 = List.range (nInUse inUse) ++ List.range' (nInUse inUse) (256 - nInUse inUse) := by
    rw [List.range_eq_range', List.range_eq_range']
    have := List.range'_append_1 (s := 0) (m := nInUse inUse) (n := 256 - nInUse inUse)
    rw [Nat.zero_add] at this
    rw [this]
    congr 1; omega
  have hs : MtfD.start.yy = List.range (nInUse inUse) ++ List.range' (nInUse inUse) (256 - nInUse inUse) := by
    rw [← hr, MtfD.start]
  have hrun : MtfD.start.run = false := rfl
  have htt : MtfD.start.tt = [] := rfl
  have hls : ∀ x ∈ l.map (unseqToSeq inUse), x < nInUse inUse := by
    intro x hx
    obtain ⟨b, hb', rfl⟩ := List.mem_map.1 hx
    exact (unseq_lt (hb b hb') (hu b hb')).1
  generalize MtfD.start = s0 at *
  rw [mtfEncode_eq, decode_encRest hk hmax (l.map (unseqToSeq inUse)) (List.range (nInUse inUse)) 0 s0 _
    List.nodup_range (by simp) hls hs hrun (by simpa [htt] using hl) 0 t ht, htt]
  · simp only [List.replicate_zero, List.append_nil, List.nil_append, List.map_map, Option.some.injEq]
    conv_rhs => rw [← List.map_id l]
    apply List.map_congr_left
    intro b hb'
    exact (unseq_lt (hb b hb') (hu b hb')).2

/-- The values written are in the alphabet of `nInUse + 2` values, the last one, and only that, is EOB, and there are at
most as many as bytes, and EOB: none is written over a part of the sorted order that is still needed. -/
theorem C92_range {inUse : Nat → Bool} {l : List Nat} (hne : l ≠ []) (hb : ∀ b ∈ l, b < 256)
    (hu : ∀ b ∈ l, inUse b = true) :
    ∃ m, mtfEncode inUse l = m ++ [nInUse inUse + 1] ∧ (∀ x ∈ m, x ≤ nInUse inUse) ∧ m.length ≤ l.length ∧
      m ≠ [] ∧ 1 ≤ nInUse inUse ∧ nInUse inUse ≤ 256 := by
  have hk : 1 ≤ nInUse inUse := by
    obtain ⟨b, t, rfl⟩ := List.exists_cons_of_ne_nil hne
    have := (unseq_lt (hb b List.mem_cons_self) (hu b List.mem_cons_self)).1
    omega
  have hk256 : nInUse inUse ≤ 256 := by
    unfold nInUse seqToUnseq
    exact (List.length_filter_le _ _).trans (by simp)
  obtain ⟨m, h1, h2, h3, h4⟩ := encRest_spec hk (l.map (unseqToSeq inUse)) (List.range (nInUse inUse)) 0 (by simp) (by
    intro x hx
    obtain ⟨b, hb', rfl⟩ := List.mem_map.1 hx
    exact List.mem_range.2 (unseq_lt (hb b hb') (hu b hb')).1)
  rw [mtfEncode_eq]
  refine ⟨m, h1, h2, by simpa using h3, h4 ?_, hk, hk256⟩
  have := List.length_pos_iff.2 hne
  simpa using this

example : mtfEncode (fun b => [98, 97, 110].contains b) [98, 98, 110, 97, 97, 97] = [2, 0, 3, 3, 1, 4] ∧
    mtfDecode (seqToUnseq fun b => [98, 97, 110].contains b) 4 900000 .start [2, 0, 3, 3, 1, 4] =
      some [98, 98, 110, 97, 97, 97] := by
  refine ⟨?_, by decide +kernel⟩
  rw [mtfEncode_eq]
  decide +kernel

end Simox.Bz
