import Verif.Bz.HeapLemmas
import Verif.Bz.CodeProps

/-!
# bzip2: Huffman codes: properties of the lengths
-/

namespace Simox.Bz

theorem makeLens_some {A m : Nat} : ∀ {n : Nat} {w : Nat → Nat} {lens : List Nat}, makeLens A m n w = some lens →
    (∀ l ∈ lens, l ≤ m) ∧ ∃ w', lens = lensOf A w'
  | 0, _, _, h => by cases h
  | n + 1, w, lens, h => by
    rw [makeLens] at h
    by_cases hc : ∀ l ∈ lensOf A w, l ≤ m
    · rw [if_pos hc] at h
      cases h
      exact ⟨hc, w, rfl⟩
    · rw [if_neg hc] at h
      exact makeLens_some h

/-- **The lengths are those of a full binary tree.** For an alphabet of at least two symbols and all frequencies, the lengths
that are found are at least 1 and at most the limit, there is one for each symbol, and the sum of `2^(-length)` is exactly 1:
codes with these lengths exist, and none is wasted. -/
theorem C93_kraft {A m n : Nat} (hA : 2 ≤ A) {w : Nat → Nat} {lens : List Nat} (h : makeLens A m n w = some lens) :
    lens.length = A ∧ (∀ l ∈ lens, 1 ≤ l ∧ l ≤ m) ∧ (lens.map fun l => (1 / 2 : ℚ) ^ l).sum = 1 := by
  obtain ⟨hm, w', rfl⟩ := makeLens_some h
  have hs := lensOf_sum A w' (by omega)
  have hl := lensOf_length A w'
  exact ⟨hl, fun l hl' => ⟨kraft_pos hs (by omega) hl', hm l hl'⟩, hs⟩

/-- The frequencies 5, 1, 1, 2, and the lengths for them. -/
example : makeLens 4 17 1 (startWeight fun i => [5, 1, 1, 2].getD i 0) = some [1, 3, 3, 2] := by decide +kernel

/-- With a limit of 2 the weights have to be scaled. -/
example : makeLens 4 2 2 (startWeight fun i => [5, 1, 1, 2].getD i 0) = none ∧
    makeLens 4 2 3 (startWeight fun i => [5, 1, 1, 2].getD i 0) = some [2, 2, 2, 2] := by decide +kernel

/-- The lengths that the compressor makes can be used for codes: the assertions on them hold, and the codes made from them
are read back (`C94_roundtrip`). -/
theorem C93_usable {A n : Nat} (hA : 2 ≤ A) (h258 : A ≤ 258) {w : Nat → Nat} {lens : List Nat} (h : makeLens A 17 n w = some lens) :
    LensOk lens ∧ 1 ≤ minLen lens ∧ maxLen lens ≤ 17 := by
  obtain ⟨h1, h2, h3⟩ := C93_kraft hA h
  have h20 : ∀ l ∈ lens, l ≤ 20 := fun l hl => by have := (h2 l hl).2; omega
  refine ⟨⟨by omega, fun l hl => ⟨(h2 l hl).1, h20 l hl⟩, ?_⟩, ?_, maxLen_le fun l hl => (h2 l hl).2⟩
  · have := kraft_nat h20
    rw [h3, mul_one] at this
    exact_mod_cast this.le
  · have hne : lens ≠ [] := by
      intro e
      rw [e] at h1
      simp at h1
      omega
    exact (h2 _ (minLen_mem hne fun a ha => by have := h20 a ha; omega)).1

theorem sum_le_two (A : Nat) (v : Nat → Nat) (hv : ∀ i, 1 ≤ i → i ≤ A → v i ≤ 2) :
    ((List.range A).map fun i => v (i + 1)).sum ≤ 2 * A := by
  induction A with
  | zero => simp
  | succ A ih =>
    rw [List.range_succ, List.map_append, List.sum_append]
    have h1 := ih fun i h1 h2 => hv i h1 (by omega)
    have h2 := hv (A + 1) (by omega) le_rfl
    simp only [List.map_cons, List.map_nil, List.sum_cons, List.sum_nil]
    omega

theorem makeLens_two {A : Nat} (hA : 1 ≤ A) (h258 : A ≤ 258) {w v : Nat → Nat} (hw : ∀ i, 1 ≤ i → i ≤ A → w i = v i * 256)
    (hv : ∀ i, 1 ≤ i → i ≤ A → 1 ≤ v i ∧ v i ≤ 2) (n : Nat) : makeLens A 17 (n + 1) w = some (lensOf A w) := by
  rw [makeLens, if_pos]
  have hsum := sum_le_two A v fun i h1 h2 => (hv i h1 h2).2
  have hfib : Nat.fib (12 + 3) = 610 := by decide +kernel
  have := lensOf_bound hA hw (fun i h1 h2 => (hv i h1 h2).1) (D := 12) (by omega) (by omega)
  intro l hl
  have := this l hl
  omega

theorem makeLens_scaled {A : Nat} (hA : 1 ≤ A) (h258 : A ≤ 258) : ∀ (k : Nat) {w v : Nat → Nat},
    (∀ i, 1 ≤ i → i ≤ A → w i = v i * 256) → (∀ i, 1 ≤ i → i ≤ A → 1 ≤ v i ∧ v i ≤ 2 + 2 ^ k) →
    ∃ lens, makeLens A 17 (k + 2) w = some lens := by
  have hscale : ∀ {w v : Nat → Nat}, (∀ i, 1 ≤ i → i ≤ A → w i = v i * 256) →
      ∀ i, 1 ≤ i → i ≤ A → scaleWeight w i = (1 + v i / 2) * 256 := by
    intro w v hw i h1 h2
    unfold scaleWeight
    rw [hw i h1 h2, Nat.shiftLeft_eq, Nat.shiftRight_eq_div_pow]
    norm_num
  intro k
  induction k with
  | zero =>
    intro w v hw hv
    rw [makeLens]
    split
    · exact ⟨_, rfl⟩
    · refine ⟨_, makeLens_two hA h258 (v := fun i => 1 + v i / 2) (hscale hw) (fun i h1 h2 => ?_) 0⟩
      have := hv i h1 h2
      rw [pow_zero] at this
      omega
  | succ k ih =>
    intro w v hw hv
    rw [makeLens]
    split
    · exact ⟨_, rfl⟩
    · refine ih (v := fun i => 1 + v i / 2) (hscale hw) (fun i h1 h2 => ?_)
      have := hv i h1 h2
      rw [pow_succ] at this
      omega

/-- **The search for lengths ends.** For every alphabet of at most 258 symbols and frequencies below `2^k`, scaling the
frequencies at most `k + 1` times makes all codes short enough: the compressor does not loop. -/
theorem C93_terminates {A k : Nat} (hA : 1 ≤ A) (h258 : A ≤ 258) {freq : Nat → Nat} (hf : ∀ i, i < A → freq i ≤ 2 ^ k) :
    ∃ lens, makeLens A 17 (k + 2) (startWeight freq) = some lens := by
  apply makeLens_scaled hA h258 k (v := fun i => if freq (i - 1) = 0 then 1 else freq (i - 1))
  · intro i _ _
    unfold startWeight
    rw [Nat.shiftLeft_eq]
  · intro i h1 h2
    have := hf (i - 1) (by omega)
    split <;> omega

/-- Frequencies like the Fibonacci numbers make the longest codes. -/
example : (∀ i, i < 7 → ([1, 1, 2, 3, 5, 8, 13].getD i 0) ≤ 2 ^ 4) ∧
    makeLens 7 17 1 (startWeight fun i => [1, 1, 2, 3, 5, 8, 13].getD i 0) = some [6, 6, 5, 4, 3, 2, 1] := by
  decide +kernel

theorem makeLens_mono {A m : Nat} : ∀ {n : Nat} {w : Nat → Nat} {lens : List Nat}, makeLens A m n w = some lens →
    makeLens A m (n + 1) w = some lens
  | 0, _, _, h => by cases h
  | n + 1, w, lens, h => by
    rw [makeLens] at h ⊢
    by_cases hc : ∀ l ∈ lensOf A w, l ≤ m
    · rw [if_pos hc] at h ⊢
      exact h
    · rw [if_neg hc] at h ⊢
      exact makeLens_mono h

/-- **Long codes need many symbols.** If the frequencies (counting 0 as 1) add up to less than the Fibonacci number
`fib (d + 3)`, no code is longer than `d`. -/
theorem C93_depth {A d : Nat} (hA : 1 ≤ A) {freq : Nat → Nat} (hd : d < 255)
    (hs : ((List.range A).map fun i => if freq i = 0 then 1 else freq i).sum < Nat.fib (d + 3)) :
    ∀ l ∈ lensOf A (startWeight freq), l ≤ d := by
  apply lensOf_bound hA (v := fun i => if freq (i - 1) = 0 then 1 else freq (i - 1))
  · intro i _ _
    unfold startWeight
    rw [Nat.shiftLeft_eq]
  · intro i _ _
    split <;> omega
  · simpa using hs
  · exact hd

/-- The bound is sharp: the frequencies above add up to 33, less than `fib 9 = 34`. -/
example : ((List.range 7).map fun i => if [1, 1, 2, 3, 5, 8, 13].getD i 0 = 0 then 1 else [1, 1, 2, 3, 5, 8, 13].getD i 0).sum <
    Nat.fib (6 + 3) := by decide +kernel

/-- With only one symbol, the length would be 0, which the compressor does not accept; but there are always three symbols: those for
runs and the end (`C92_range`). -/
example : makeLens 1 17 1 (startWeight fun _ => 7) = some [0] := by decide +kernel

end Simox.Bz
