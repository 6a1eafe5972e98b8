import Verif.Bz.BwtLemmas
import Verif.Bz.RleProps

/-!
# bzip2: the Burrows-Wheeler transform: properties
-/

namespace Simox.Bz

theorem perm_range_of_inj {n : Nat} {f : Nat → Nat} (hlt : ∀ i < n, f i < n)
    (hinj : ∀ i < n, ∀ j < n, f i = f j → i = j) : ((List.range n).map f).Perm (List.range n) := by
  apply List.Subperm.perm_of_length_le
  · apply List.subperm_of_subset
    · refine List.Nodup.map_on ?_ List.nodup_range
      intro x hx y hy h
      exact hinj x (List.mem_range.1 hx) y (List.mem_range.1 hy) h
    · intro x hx
      obtain ⟨i, hi, rfl⟩ := List.mem_map.1 hx
      exact List.mem_range.2 (hlt i (List.mem_range.1 hi))
  · simp

theorem map_getD_range (l : List Nat) : (List.range l.length).map (fun i => l.getD i 0) = l := by
  apply List.ext_getElem
  · simp
  · intro i h1 h2
    rw [List.getElem_map, List.getElem_range, List.getD_eq_getElem _ _ h2]

/-- The rotation that starts one byte earlier. -/
def prev (n p : Nat) : Nat := if p = 0 then n - 1 else p - 1

theorem rotate_split {block : List Nat} {p : Nat} (hp : p < block.length) :
    ∃ t, t.length + 1 = block.length ∧ block.rotate (prev block.length p) = lastByte block p :: t ∧
      block.rotate p = t ++ [lastByte block p] := by
  have hq : prev block.length p < block.length := by unfold prev; split <;> omega
  have hlen : (block.rotate (prev block.length p)).length = block.length := List.length_rotate _ _
  cases hr : block.rotate (prev block.length p) with
  | nil => rw [hr] at hlen; simp at hlen; omega
  | cons a t =>
    rw [hr] at hlen
    have ha : a = lastByte block p := by
      have : (block.rotate (prev block.length p)).head? = block[prev block.length p]? :=
        List.head?_rotate hq
      rw [hr, List.head?_cons, List.getElem?_eq_getElem hq] at this
      simp only [Option.some.injEq] at this
      rw [this, lastByte]
      exact (List.getD_eq_getElem _ _ hq).symm
    refine ⟨t, by simpa using hlen, by rw [ha], ?_⟩
    have h1 : (block.rotate (prev block.length p)).rotate 1 = block.rotate p := by
      rw [List.rotate_rotate]
      unfold prev
      split
      · rename_i h0
        subst h0
        rw [show block.length - 1 + 1 = block.length by omega, List.rotate_length, List.rotate_zero]
      · congr 1; omega
    rw [← h1, hr, ha, List.rotate_cons_succ, List.rotate_zero]

/-- The links lead from a rotation to the one that starts one byte later, the byte in between being found on the way. -/
theorem links_rotate {block ptr : List Nat} (hb : ∀ b ∈ block, b < 256) (h : SortedRot block ptr) {k : Nat}
    (hk : k < block.length) :
    ∃ j t, j = links (lastColumn block ptr) k ∧ j < block.length ∧
      block.rotate (ptr.getD k 0) = (lastColumn block ptr).getD j 0 :: t ∧
      block.rotate (ptr.getD j 0) = t ++ [(lastColumn block ptr).getD j 0] := by
  have hpl : ptr.length = block.length := by simpa using h.perm.length_eq
  have hLl : (lastColumn block ptr).length = block.length := by simp [lastColumn, hpl]
  have hpm : ∀ i, i < block.length → ptr.getD i 0 < block.length := by
    intro i hi
    rw [List.getD_eq_getElem _ _ (by omega)]
    exact List.mem_range.1 (h.perm.mem_iff.1 (List.getElem_mem _))
  have hLb : ∀ b ∈ lastColumn block ptr, b < 256 := by
    intro b hb'
    obtain ⟨p, hp, rfl⟩ := List.mem_map.1 hb'
    have hp' : p < block.length := List.mem_range.1 (h.perm.mem_iff.1 hp)
    unfold lastByte
    rw [List.getD_eq_getElem _ _ (by split <;> omega)]
    exact hb _ (List.getElem_mem _)
  have hLget : ∀ i, i < block.length → (lastColumn block ptr).getD i 0 = lastByte block (ptr.getD i 0) := by
    intro i hi
    rw [List.getD_eq_getElem _ _ (by omega), List.getD_eq_getElem _ _ (by omega)]
    simp [lastColumn]
  generalize hL : lastColumn block ptr = L at *
  have hTlt : ∀ i, i < block.length → links L i < block.length := by
    intro i hi
    have := links_lt hLb (k := i) (by omega)
    omega
  -- all rotations, in the order of the links
  have hrows : (List.range block.length).map (fun k => block.rotate (prev block.length (ptr.getD (links L k) 0))) =
      ptr.map block.rotate := by
    apply List.Perm.eq_of_pairwise' (r := (· ≤ ·))
    · -- sorted
      rw [List.pairwise_map]
      refine List.Pairwise.imp_of_mem ?_ (List.pairwise_lt_range (n := block.length))
      intro a b ha hb' hab
      rw [List.mem_range] at ha hb'
      obtain ⟨t, ht1, ht2, ht3⟩ := rotate_split (hpm _ (hTlt a ha))
      obtain ⟨u, hu1, hu2, hu3⟩ := rotate_split (hpm _ (hTlt b hb'))
      rw [ht2, hu2, ← hLget _ (hTlt a ha), ← hLget _ (hTlt b hb'), cons_le_iff]
      rcases links_sorted hLb hab (by omega) with h1 | ⟨h1, h2⟩
      · exact Or.inl h1
      · refine Or.inr ⟨h1, ?_⟩
        have hs := List.pairwise_iff_getElem.1 h.sorted _ _ (by have := hTlt a ha; omega) (by have := hTlt b hb'; omega) h2
        rw [← List.getD_eq_getElem _ 0, ← List.getD_eq_getElem _ 0, ht3, hu3] at hs
        exact append_singleton_le (by omega) hs
    · rw [List.pairwise_map]; exact h.sorted
    · -- a permutation
      have p1 : ((List.range block.length).map (links L)).Perm (List.range block.length) := by
        refine perm_range_of_inj hTlt ?_
        intro i hi j hj hij
        rw [← rank_links hLb (k := i) (by omega), hij, rank_links hLb (by omega)]
      have p2 : (((List.range block.length).map (links L)).map fun i => ptr.getD i 0).Perm ptr := by
        have := p1.map (fun i => ptr.getD i 0)
        rw [← hpl, map_getD_range ptr] at this
        rw [← hpl]
        exact this
      have p3 : ((List.range block.length).map (prev block.length)).Perm (List.range block.length) := by
        refine perm_range_of_inj ?_ ?_
        · intro i hi; unfold prev; split <;> omega
        · intro i hi j hj; unfold prev; split <;> split <;> omega
      have p4 : (ptr.map (prev block.length)).Perm ptr := (h.perm.map _).trans (p3.trans h.perm.symm)
      have p5 := (p2.map (prev block.length)).trans p4
      have p6 := p5.map block.rotate
      simpa [Function.comp_def] using p6
  have hk' : block.rotate (prev block.length (ptr.getD (links L k) 0)) = block.rotate (ptr.getD k 0) := by
    have := congrArg (fun l => l[k]?) hrows
    simp only [List.getElem?_map] at this
    rw [List.getElem?_range hk, List.getElem?_eq_getElem (by omega)] at this
    simp only [Option.map_some, Option.some.injEq] at this
    rw [this, List.getD_eq_getElem _ _ (by omega)]
  obtain ⟨t, ht1, ht2, ht3⟩ := rotate_split (hpm _ (hTlt k hk))
  refine ⟨links L k, t, rfl, hTlt k hk, ?_, ?_⟩
  · rw [← hk', ht2, hLget _ (hTlt k hk)]
  · rw [ht3, hLget _ (hTlt k hk)]

theorem yields_links {block ptr : List Nat} (hb : ∀ b ∈ block, b < 256) (h : SortedRot block ptr) {size : Nat}
    (hs : block.length ≤ size) : ∀ (j k m : Nat), k < block.length → block.rotate (ptr.getD k 0) = block.rotate m →
    Yields (getFast size (lastColumn block ptr)) (links (lastColumn block ptr) k)
      ((List.range j).map fun i => block.getD ((m + i) % block.length) 0)
  | 0, _, _, _, _ => trivial
  | j + 1, k, m, hk, hm => by
    obtain ⟨k', t, hk', hlt, h1, h2⟩ := links_rotate hb h hk
    have hhead : (lastColumn block ptr).getD k' 0 = block.getD (m % block.length) 0 := by
      have e : (block.rotate m).head? = block[m % block.length]? := by
        rw [← List.rotate_mod]
        exact List.head?_rotate (Nat.mod_lt _ (by omega))
      rw [← hm, h1, List.head?_cons] at e
      rw [List.getD_eq_getElem?_getD (l := block), ← e]; rfl
    have hnext : block.rotate (ptr.getD k' 0) = block.rotate (m + 1) := by
      rw [h2, ← List.rotate_rotate, ← hm, h1, List.rotate_cons_succ, List.rotate_zero]
    rw [List.range_succ_eq_map, List.map_cons, List.map_map]
    refine ⟨links (lastColumn block ptr) k', ?_, ?_⟩
    · rw [← hk', getFast, if_neg (by omega), hhead, Nat.add_zero]
    · have := yields_links hb h hs j k' (m + 1) hlt hnext
      convert this using 2
      funext i
      simp only [Function.comp_apply]
      congr 2; omega

theorem origPtr_spec {block ptr : List Nat} (h : SortedRot block ptr) (hne : block ≠ []) :
    origPtr ptr < block.length ∧ ptr.getD (origPtr ptr) 0 = 0 := by
  have hpl : ptr.length = block.length := by simpa using h.perm.length_eq
  have h0 : (0 : Nat) ∈ ptr := h.perm.mem_iff.2 (List.mem_range.2 (List.length_pos_iff.2 hne))
  have hlt : origPtr ptr < ptr.length := List.findIdx_lt_length_of_exists ⟨0, h0, by simp⟩
  refine ⟨by omega, ?_⟩
  have := List.findIdx_getElem (p := (· == 0)) (w := hlt)
  rw [List.getD_eq_getElem _ _ hlt]
  exact beq_iff_eq.1 this

/-- The inverse of the Burrows-Wheeler transform: from the last column of the sorted rotations and the place of the block
among them, `BZ_GET_FAST` gives the bytes of the block, one after the other, from the first, and then again from the
start. This holds for every way to sort: rotations that are equal may be in any order. -/
theorem C91_inverse {block ptr : List Nat} (hne : block ≠ []) (hb : ∀ b ∈ block, b < 256) (h : SortedRot block ptr)
    {size : Nat} (hs : block.length ≤ size) :
    let tt := lastColumn block ptr
    tt.length = block.length ∧ (∀ b ∈ tt, b ∈ block) ∧ origPtr ptr < block.length ∧
    Yields (getFast size tt) (links tt (origPtr ptr)) (block ++ [block.getD 0 0]) ∧
    ∀ j, Yields (getFast size tt) (links tt (origPtr ptr))
      ((List.range j).map fun i => block.getD (i % block.length) 0) := by
  have hpl : ptr.length = block.length := by simpa using h.perm.length_eq
  obtain ⟨ho, h0⟩ := origPtr_spec h hne
  have key : ∀ j, Yields (getFast size (lastColumn block ptr)) (links (lastColumn block ptr) (origPtr ptr))
      ((List.range j).map fun i => block.getD (i % block.length) 0) := by
    intro j
    have := yields_links hb h hs j (origPtr ptr) 0 ho (by rw [h0])
    simpa using this
  refine ⟨by simp [lastColumn, hpl], ?_, ho, ?_, key⟩
  · intro b hb'
    obtain ⟨p, hp, rfl⟩ := List.mem_map.1 hb'
    have hp' : p < block.length := List.mem_range.1 (h.perm.mem_iff.1 hp)
    unfold lastByte
    rw [List.getD_eq_getElem _ _ (by split <;> omega)]
    exact List.getElem_mem _
  · have := key (block.length + 1)
    rw [List.range_succ, List.map_append] at this
    have e1 : (List.range block.length).map (fun i => block.getD (i % block.length) 0) = block := by
      conv_rhs => rw [← map_getD_range block]
      apply List.map_congr_left
      intro i hi
      rw [Nat.mod_eq_of_lt (List.mem_range.1 hi)]
    rw [e1] at this
    simpa using this

/-- "abab" is sorted in two ways, as two rotations are equal. -/
example : SortedRot [97, 98, 97, 98] [2, 0, 1, 3] ∧ SortedRot [97, 98, 97, 98] [0, 2, 3, 1] := by
  refine ⟨⟨by decide, by decide⟩, ⟨by decide, by decide⟩⟩

/-- Every block can be sorted. -/
theorem exists_sortedRot (block : List Nat) : ∃ ptr, SortedRot block ptr := by
  refine ⟨(List.range block.length).mergeSort fun a b => decide (block.rotate a ≤ block.rotate b),
    List.mergeSort_perm _ _, ?_⟩
  have := List.pairwise_mergeSort (le := fun a b => decide (block.rotate a ≤ block.rotate b))
    (fun a b c h1 h2 => by simp only [decide_eq_true_eq] at *; exact le_trans h1 h2)
    (fun a b => by simp only [Bool.or_eq_true, decide_eq_true_eq]; exact le_total _ _) (List.range block.length)
  simpa using this

/-- The inverse transform stays in the block: from every start in the block, whatever the bytes are, the next one is in
the block. -/
theorem C91_in_range {tt : List Nat} (hb : ∀ b ∈ tt, b < 256) {size tPos : Nat} (hs : tt.length ≤ size)
    (ht : tPos < tt.length) :
    links tt tPos < tt.length ∧ getFast size tt tPos = some (tt.getD tPos 0, links tt tPos) := by
  refine ⟨links_lt hb ht, ?_⟩
  rw [getFast, if_neg (by omega)]

/-- The links are a permutation of the places in the block: no byte is lost. -/
theorem C91_links_perm {tt : List Nat} (hb : ∀ b ∈ tt, b < 256) :
    ((List.range tt.length).map (links tt)).Perm (List.range tt.length) := by
  refine perm_range_of_inj (fun i hi => links_lt hb hi) ?_
  intro i hi j hj hij
  rw [← rank_links hb hi, hij, rank_links hb hj]

end Simox.Bz
