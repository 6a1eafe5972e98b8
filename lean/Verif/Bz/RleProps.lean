import Verif.Bz.RleLemmas

/-!
# bzip2: runs: properties
-/

namespace Simox.Bz

theorem encPair_bytes {p : Pair} (h : PairOk p) : ∀ b ∈ encPair p, b < 256 := by
  obtain ⟨h1, h2, h3⟩ := h
  intro b hb
  unfold encPair at hb
  split at hb
  · obtain ⟨_, rfl⟩ := List.mem_replicate.1 hb; exact h1
  · simp only [List.mem_cons, List.not_mem_nil, or_false] at hb
    omega

theorem blockInv_bytes {s : EncRun} {ps : List Pair} (h : BlockInv s ps) : ∀ b ∈ s.block, b < 256 := by
  intro b hb
  rw [h.block, List.mem_flatMap] at hb
  obtain ⟨p, hp, hb⟩ := hb
  exact encPair_bytes (h.ok p hp) b hb

theorem runInv_foldl : ∀ (x : List Nat), (∀ b ∈ x, b < 256) → ∀ (s : EncRun) (ps : List Pair), RunInv s ps →
    ∃ ps', RunInv (x.foldl EncRun.addChar s) ps' ∧
      (ps' ++ (x.foldl EncRun.addChar s).pending).flatMap rawPair = (ps ++ s.pending).flatMap rawPair ++ x
  | [], _, s, ps, h => ⟨ps, h, by simp⟩
  | c :: x, hx, s, ps, h => by
    obtain ⟨p1, h1, e1, -, -⟩ := runInv_addChar h (hx c List.mem_cons_self)
    obtain ⟨p2, h2, e2⟩ := runInv_foldl x (fun b hb => hx b (List.mem_cons_of_mem _ hb)) _ _ h1
    refine ⟨p2, h2, ?_⟩
    rw [List.foldl_cons, e2, e1, List.append_assoc]; rfl

/-- The run-length coding loses nothing: whatever bytes are added with `ADD_CHAR_TO_BLOCK` and flushed with `flush_RL`,
reading the block with `unRLE_obuf_to_output_FAST` gives them back, from every source that gives the bytes of the
block and one more. The block consists of bytes, `inUse` marks those that occur in it, and the checksum is that of the
original bytes. -/
theorem C90_runs (x : List Nat) (hx : ∀ b ∈ x, b < 256) :
    let s := (x.foldl EncRun.addChar .start).flushRL
    (∀ b ∈ s.block, b < 256) ∧ (∀ b, s.inUse b = true ↔ b ∈ s.block) ∧ crcFinal s.crc = crcOf x ∧
    ∀ {σ : Type} (get : σ → Option (Nat × σ)) (src src1 : σ) (k0 w : Nat), get src = some (k0, src1) →
      Yields get src (s.block ++ [w]) →
      unrle get (s.block.length + 1) (s.block.length + 2) ⟨k0, 1, src1, []⟩ = some x := by
  obtain ⟨ps, h, e⟩ := runInv_foldl x hx _ _ runInv_start
  obtain ⟨ps', h', e', -⟩ := blockInv_flush h
  have hraw : ps'.flatMap rawPair = x := by
    rw [e', e]; simp [EncRun.pending, EncRun.start]
  refine ⟨blockInv_bytes h', h'.used, ?_, ?_⟩
  · rw [h'.crc, hraw]; rfl
  · intro σ get src src1 k0 w hg hy
    rw [unrle_block h' hg hy, hraw]

/-- Reading from a list. -/
def listGet : List Nat → Option (Nat × List Nat)
  | [] => none
  | c :: l => some (c, l)

example : (([7, 7, 7, 7, 7, 7, 9] : List Nat).foldl EncRun.addChar .start).flushRL.block = [7, 7, 7, 7, 2, 9] ∧
    Yields listGet [7, 7, 7, 7, 2, 9, 0] ([7, 7, 7, 7, 2, 9] ++ [0]) ∧
    unrle listGet 7 8 ⟨7, 1, [7, 7, 7, 2, 9, 0], []⟩ = some [7, 7, 7, 7, 7, 7, 9] := by
  refine ⟨by decide +kernel, ?_, by decide +kernel⟩
  exact ⟨_, rfl, _, rfl, _, rfl, _, rfl, _, rfl, _, rfl, _, rfl, trivial⟩

/-- A block that ends after four equal bytes, which the coder never makes, is reported as corrupt and not read beyond
its end, whatever follows. -/
theorem C90_cut {σ : Type} (get : σ → Option (Nat × σ)) (c a b : Nat) (s1 : σ)
    (hy : Yields get s1 [c, c, c, a, b]) :
    unrle get 5 6 ⟨c, 1, s1, []⟩ = none := by
  obtain ⟨s2, g2, s3, g3, s4, g4, s5, g5, s6, g6, -⟩ := hy
  simp [unrle, runTurn, g2, g3, g4, g5, g6]

end Simox.Bz
