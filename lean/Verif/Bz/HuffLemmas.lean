import Verif.Bz.HuffModel
import Verif.Bz.CodeLemmas
import Mathlib.Algebra.BigOperators.Intervals
import Mathlib.Algebra.BigOperators.Group.Finset.Basic
import Mathlib.Algebra.Order.BigOperators.Group.Finset
import Mathlib.Algebra.Order.Field.Rat
import Mathlib.Algebra.Field.Rat
import Mathlib.Tactic.Linarith
import Mathlib.Tactic.FieldSimp

/-!
# bzip2: Huffman codes: lemmas about the lengths
-/

namespace Simox.Bz

open Finset

/-- What is in the heap, as the sum of any function over its nodes. -/
def heapSum (h : Nat → Nat) (n : Nat) (g : Nat → ℚ) : ℚ := ∑ i ∈ Icc 1 n, g (h i)

theorem upd_same {α : Type} (f : Nat → α) (i : Nat) (a : α) : upd f i a i = a := by simp [upd]

theorem upd_other {α : Type} (f : Nat → α) {i j : Nat} (a : α) (h : j ≠ i) : upd f i a j = f j := by simp [upd, h]

theorem upd_swap (h : Nat → Nat) {a b t : Nat} (hab : a ≠ b) (i : Nat) :
    upd (upd h a (h b)) b t i = upd h a t (Equiv.swap a b i) := by
  by_cases hb : i = b
  · subst hb
    rw [upd_same, Equiv.swap_apply_right, upd_same]
  · rw [upd_other _ _ hb]
    by_cases ha : i = a
    · subst ha
      rw [upd_same, Equiv.swap_apply_left, upd_other _ _ (Ne.symm hab)]
    · rw [upd_other _ _ ha, Equiv.swap_apply_of_ne_of_ne ha hb, upd_other _ _ ha]

theorem heapSum_swap (h : Nat → Nat) {a b n t : Nat} (hab : a ≠ b) (ha : a ∈ Icc 1 n) (hb : b ∈ Icc 1 n) (g : Nat → ℚ) :
    heapSum (upd (upd h a (h b)) b t) n g = heapSum (upd h a t) n g := by
  unfold heapSum
  rw [← Equiv.Perm.sum_comp (Equiv.swap a b) (Icc 1 n) (fun i => g (upd h a t i))]
  · exact Finset.sum_congr rfl fun i _ => by rw [upd_swap h hab]
  · intro i hi
    by_contra hc
    have h1 : i ≠ a := fun e => hc (by rw [e]; exact ha)
    have h2 : i ≠ b := fun e => hc (by rw [e]; exact hb)
    exact hi (Equiv.swap_apply_of_ne_of_ne h1 h2)

theorem upLoop_spec (w : Nat → Nat) (tmp n : Nat) : ∀ (zz : Nat) (h : Nat → Nat), w (h 0) = 0 → 1 ≤ zz → zz ≤ n →
    (∀ g, heapSum (upLoop w tmp h zz) n g = heapSum (upd h zz tmp) n g) ∧ upLoop w tmp h zz 0 = h 0 := by
  intro zz
  induction zz using Nat.strong_induction_on with
  | _ zz ih =>
    intro h h0 h1 hn
    rw [upLoop]
    split
    · rename_i hc
      have hp : 1 ≤ zz / 2 := by
        by_contra hp
        have : zz / 2 = 0 := by omega
        rw [this, h0] at hc
        omega
      obtain ⟨i1, i2⟩ := ih (zz / 2) (by omega) (upd h zz (h (zz / 2))) (by rw [upd_other _ _ (by omega), h0]) hp (by omega)
      refine ⟨fun g => ?_, by rw [i2, upd_other _ _ (by omega)]⟩
      rw [i1, heapSum_swap h (by omega) (by simp; omega) (by simp; omega)]
    · exact ⟨fun _ => rfl, upd_other _ _ (by omega)⟩

theorem downLoop_spec (w : Nat → Nat) (tmp n : Nat) : ∀ (k zz : Nat) (h : Nat → Nat), n - zz ≤ k → 1 ≤ zz →
    (∀ g, heapSum (downLoop w n tmp h zz) n g = heapSum (upd h zz tmp) n g) ∧ downLoop w n tmp h zz 0 = h 0 := by
  intro k
  induction k with
  | zero =>
    intro zz h hk h1
    rw [downLoop, dif_neg (by omega)]
    exact ⟨fun _ => rfl, upd_other _ _ (by omega)⟩
  | succ k ih =>
    intro zz h hk h1
    rw [downLoop]
    by_cases hc : 0 < zz ∧ 2 * zz ≤ n
    · rw [dif_pos hc]
      dsimp only
      have hy : ∃ yy, (if 2 * zz < n ∧ w (h (2 * zz + 1)) < w (h (2 * zz)) then 2 * zz + 1 else 2 * zz) = yy ∧
          zz < yy ∧ yy ≤ n := by
        by_cases hh : 2 * zz < n ∧ w (h (2 * zz + 1)) < w (h (2 * zz))
        · exact ⟨2 * zz + 1, if_pos hh, by omega, by omega⟩
        · exact ⟨2 * zz, if_neg hh, by omega, by omega⟩
      obtain ⟨yy, hy, hlt, hle⟩ := hy
      rw [hy]
      split
      · exact ⟨fun _ => rfl, upd_other _ _ (by omega)⟩
      · obtain ⟨i1, i2⟩ := ih yy (upd h zz (h yy)) (by omega) (by omega)
        refine ⟨fun g => ?_, by rw [i2, upd_other _ _ (by omega)]⟩
        rw [i1, heapSum_swap h (by omega) (by simp; omega) (by simp; omega)]
    · rw [dif_neg hc]
      exact ⟨fun _ => rfl, upd_other _ _ (by omega)⟩

theorem upd_self {α : Type} (f : Nat → α) (i : Nat) : upd f i (f i) = f := by
  funext j
  unfold upd
  split
  · rename_i h; rw [h]
  · rfl

theorem heapSum_congr {h h' : Nat → Nat} {n : Nat} (he : ∀ i, 1 ≤ i → i ≤ n → h i = h' i) (g : Nat → ℚ) :
    heapSum h n g = heapSum h' n g := by
  unfold heapSum
  exact Finset.sum_congr rfl fun i hi => by rw [mem_Icc] at hi; rw [he i hi.1 hi.2]

theorem heapSum_succ (h : Nat → Nat) (n : Nat) (g : Nat → ℚ) : heapSum h (n + 1) g = heapSum h n g + g (h (n + 1)) := by
  unfold heapSum
  exact Finset.sum_Icc_succ_top (by omega) _

/-- What `push` does. -/
theorem push_spec (s : HState) (node : Nat) (h0 : s.weight (s.heap 0) = 0) :
    (∀ g, heapSum (s.push node).heap (s.push node).nHeap g = heapSum s.heap s.nHeap g + g node) ∧
    (s.push node).heap 0 = s.heap 0 := by
  have h := upLoop_spec s.weight (upd s.heap (s.nHeap + 1) node (s.nHeap + 1)) (s.nHeap + 1) (s.nHeap + 1)
    (upd s.heap (s.nHeap + 1) node) (by rw [upd_other _ _ (by omega), h0]) (by omega) le_rfl
  refine ⟨fun g => ?_, ?_⟩
  · refine (h.1 g).trans ?_
    rw [upd_self, heapSum_succ, upd_same, heapSum_congr (h' := s.heap)]
    intro i _ hi
    rw [upd_other _ _ (by omega)]
  · refine h.2.trans ?_
    rw [upd_other _ _ (by omega)]

/-- What `pop` does. -/
theorem pop_spec (s : HState) (hn : 1 ≤ s.nHeap) :
    (∀ g, heapSum s.pop.heap s.pop.nHeap g = heapSum s.heap s.nHeap g - g (s.heap 1)) ∧
    s.pop.heap 0 = s.heap 0 := by
  have h := downLoop_spec s.weight (upd s.heap 1 (s.heap s.nHeap) 1) (s.nHeap - 1) (s.nHeap - 1) 1
    (upd s.heap 1 (s.heap s.nHeap)) (by omega) le_rfl
  refine ⟨fun g => ?_, ?_⟩
  · refine (h.1 g).trans ?_
    rw [upd_self]
    obtain ⟨n, hn'⟩ : ∃ n, s.nHeap = n + 1 := ⟨s.nHeap - 1, by omega⟩
    rw [hn', Nat.add_sub_cancel]
    by_cases h0 : n = 0
    · subst h0
      simp [heapSum]
    · have h1 : heapSum s.heap (n + 1) g = heapSum s.heap n g + g (s.heap (n + 1)) := heapSum_succ _ _ _
      have h2 : heapSum (upd s.heap 1 (s.heap (n + 1))) n g = heapSum s.heap n g - g (s.heap 1) + g (s.heap (n + 1)) := by
        unfold heapSum
        have hm : 1 ∈ Icc 1 n := by simp; omega
        rw [← Finset.add_sum_erase _ _ hm, ← Finset.add_sum_erase (Icc 1 n) (fun i => g (s.heap i)) hm, upd_same]
        have : ∑ i ∈ (Icc 1 n).erase 1, g (upd s.heap 1 (s.heap (n + 1)) i) = ∑ i ∈ (Icc 1 n).erase 1, g (s.heap i) :=
          Finset.sum_congr rfl fun i hi => by rw [upd_other _ _ (Finset.ne_of_mem_erase hi)]
        rw [this]
        ring
      rw [h2, h1]
      ring
  · refine h.2.trans ?_
    rw [upd_other _ _ (by omega)]

/-- How often a node is in the heap. -/
def copies (s : HState) (x : Nat) : ℚ := heapSum s.heap s.nHeap fun y => if y = x then 1 else 0

/-- The state between two merges. -/
structure HInv (s : HState) : Prop where
  zero : s.heap 0 = 0
  weight : s.weight 0 = 0
  once : ∀ x, copies s x ≤ 1
  none : ∀ x, x = 0 ∨ s.nNodes < x → copies s x = 0
  free : ∀ x, copies s x ≠ 0 → s.parent x = Option.none
  up : ∀ k p, s.parent k = some p → k < p ∧ p ≤ s.nNodes

theorem copies_eq (s : HState) (x : Nat) : copies s x = heapSum s.heap s.nHeap fun y => if y = x then 1 else 0 := rfl

theorem copies_heap (s : HState) {i : Nat} (h1 : 1 ≤ i) (hi : i ≤ s.nHeap) : 1 ≤ copies s (s.heap i) := by
  have h := Finset.single_le_sum (f := fun j => if s.heap j = s.heap i then (1 : ℚ) else 0) (s := Icc 1 s.nHeap)
    (fun j _ => by split <;> norm_num) (mem_Icc.mpr ⟨h1, hi⟩)
  simpa [copies, heapSum] using h

/-- The two nodes that are joined, and what the heap is afterwards. -/
theorem merge_spec {s : HState} (h : HInv s) (hn : 1 < s.nHeap) :
    ∃ n1 n2, n1 ≠ n2 ∧ copies s n1 = 1 ∧ copies s n2 = 1 ∧ s.merge.nNodes = s.nNodes + 1 ∧ s.merge.nHeap + 1 = s.nHeap ∧
      s.merge.parent n1 = some (s.nNodes + 1) ∧ s.merge.parent n2 = some (s.nNodes + 1) ∧
      (∀ x, x ≠ n1 → x ≠ n2 → x ≠ s.nNodes + 1 → s.merge.parent x = s.parent x) ∧
      s.merge.parent (s.nNodes + 1) = none ∧
      (∀ g, heapSum s.merge.heap s.merge.nHeap g = heapSum s.heap s.nHeap g - g n1 - g n2 + g (s.nNodes + 1)) ∧
      s.merge.heap 0 = 0 ∧ s.merge.weight 0 = 0 := by
  have hp1 := pop_spec s (by omega)
  have hn1 : s.pop.nHeap = s.nHeap - 1 := rfl
  have hp2 := pop_spec s.pop (by omega)
  have c1 : copies s (s.heap 1) = 1 := le_antisymm (h.once _) (copies_heap s le_rfl (by omega))
  have c1' : copies s.pop (s.heap 1) = 0 := by
    have := hp1.1 (fun y => if y = s.heap 1 then 1 else 0)
    rw [← copies_eq, ← copies_eq, c1] at this
    rw [this]; simp
  have c2' : 1 ≤ copies s.pop (s.pop.heap 1) := copies_heap s.pop le_rfl (by omega)
  have hne : s.heap 1 ≠ s.pop.heap 1 := by
    intro e
    rw [← e, c1'] at c2'
    norm_num at c2'
  have c2 : copies s (s.pop.heap 1) = 1 := by
    have h1 := hp1.1 (fun y => if y = s.pop.heap 1 then 1 else 0)
    rw [← copies_eq, ← copies_eq, if_neg hne] at h1
    have := h.once (s.pop.heap 1)
    linarith
  have hle : ∀ x, copies s x = 1 → x ≤ s.nNodes := by
    intro x hx
    by_contra hc
    rw [h.none x (Or.inr (by omega))] at hx
    norm_num at hx
  have l1 := hle _ c1
  have l2 := hle _ c2
  have hpush := push_spec { s.pop.pop with
    nNodes := s.nNodes + 1
    parent := upd (upd s.pop.pop.parent (s.pop.heap 1) (some (s.nNodes + 1))) (s.heap 1) (some (s.nNodes + 1))
    weight := upd s.pop.pop.weight (s.nNodes + 1) (addWeights (s.pop.pop.weight (s.heap 1)) (s.pop.pop.weight (s.pop.heap 1))) }
    (s.nNodes + 1) (by
      have h0 : s.pop.pop.heap 0 = 0 := by rw [hp2.2, hp1.2, h.zero]
      change upd _ _ _ (s.pop.pop.heap 0) = 0
      rw [h0, upd_other _ _ (by omega)]
      exact h.weight)
  refine ⟨s.heap 1, s.pop.heap 1, hne, c1, c2, rfl, ?_, ?_, ?_, ?_, ?_, ?_, ?_, ?_⟩
  · change (s.nHeap - 1 - 1 + 1) + 1 = s.nHeap
    omega
  · change upd (upd (upd s.parent _ _) _ _) (s.nNodes + 1) none _ = _
    rw [upd_other _ _ (by omega), upd_same]
  · change upd (upd (upd s.parent _ _) _ _) (s.nNodes + 1) none _ = _
    rw [upd_other _ _ (by omega), upd_other _ _ (Ne.symm hne), upd_same]
  · intro x x1 x2 x3
    change upd (upd (upd s.parent _ _) _ _) (s.nNodes + 1) none _ = _
    rw [upd_other _ _ x3, upd_other _ _ x1, upd_other _ _ x2]
  · change upd (upd (upd s.parent _ _) _ _) (s.nNodes + 1) none _ = _
    rw [upd_same]
  · intro g
    refine (hpush.1 g).trans ?_
    change heapSum s.pop.pop.heap s.pop.pop.nHeap g + _ = _
    rw [hp2.1, hp1.1]
  · refine hpush.2.trans ?_
    change s.pop.pop.heap 0 = 0
    rw [hp2.2, hp1.2, h.zero]
  · change upd s.weight (s.nNodes + 1) (addWeights (s.weight (s.heap 1)) (s.weight (s.pop.heap 1))) 0 = 0
    rw [upd_other _ _ (by omega)]
    exact h.weight

theorem merge_inv {s : HState} (h : HInv s) (hn : 1 < s.nHeap) : HInv s.merge := by
  obtain ⟨n1, n2, hne, c1, c2, hN, hH, p1, p2, po, pm, hs, h0, hw⟩ := merge_spec h hn
  have hc : ∀ x, copies s.merge x = copies s x - (if n1 = x then 1 else 0) - (if n2 = x then 1 else 0) +
      (if s.nNodes + 1 = x then 1 else 0) := fun x => hs _
  have hle : ∀ x, copies s x = 1 → x ≤ s.nNodes := by
    intro x hx
    by_contra hc
    rw [h.none x (Or.inr (by omega))] at hx
    norm_num at hx
  have l1 := hle _ c1
  have l2 := hle _ c2
  have hpos : ∀ x, copies s x = 1 → x ≠ 0 := by
    intro x hx e
    rw [h.none x (Or.inl e)] at hx
    norm_num at hx
  refine ⟨h0, hw, fun x => ?_, fun x hx => ?_, fun x hx => ?_, fun k p hk => ?_⟩
  · rw [hc]
    have h1 := h.once x
    by_cases hx : s.nNodes + 1 = x
    · have : copies s x = 0 := h.none x (Or.inr (by omega))
      rw [if_pos hx, if_neg (by omega), if_neg (by omega), this]; norm_num
    · rw [if_neg hx]
      have a1 : (0 : ℚ) ≤ if n1 = x then 1 else 0 := by split <;> norm_num
      have a2 : (0 : ℚ) ≤ if n2 = x then 1 else 0 := by split <;> norm_num
      linarith
  · have hx' : x = 0 ∨ s.nNodes < x := by
      rcases hx with hx | hx
      · exact Or.inl hx
      · right; omega
    have q1 := hpos _ c1
    have q2 := hpos _ c2
    rw [hc, h.none x hx', if_neg, if_neg, if_neg]
    · norm_num
    · omega
    · omega
    · omega
  · rw [hc] at hx
    by_cases e3 : s.nNodes + 1 = x
    · rw [← e3]; exact pm
    · rw [if_neg e3] at hx
      have e1 : n1 ≠ x := by
        intro e
        subst e
        rw [if_pos rfl, if_neg (Ne.symm hne), c1] at hx
        norm_num at hx
      have e2 : n2 ≠ x := by
        intro e
        subst e
        rw [if_pos rfl, if_neg hne, c2] at hx
        norm_num at hx
      rw [po x (Ne.symm e1) (Ne.symm e2) (Ne.symm e3)]
      apply h.free
      rw [if_neg e1, if_neg e2] at hx
      simpa using hx
  · by_cases e3 : k = s.nNodes + 1
    · rw [e3, pm] at hk; cases hk
    · by_cases e1 : k = n1
      · rw [e1, p1] at hk
        cases hk
        omega
      · by_cases e2 : k = n2
        · rw [e2, p2] at hk
          cases hk
          omega
        · rw [po k e1 e2 e3] at hk
          have := h.up k p hk
          omega

/-! ## Depths -/

theorem climb_more {parent : Nat → Option Nat} {N : Nat} (hup : ∀ k p, parent k = some p → k < p ∧ p ≤ N) : ∀ n k, N - k ≤ n →
    climb parent (n + 1) k = climb parent n k
  | 0, k, h => by
    have : parent k = none := by
      by_contra hc
      obtain ⟨p, hp⟩ := Option.ne_none_iff_exists'.mp hc
      have := hup k p hp
      omega
    simp [climb, this]
  | n + 1, k, h => by
    rw [climb, climb]
    cases hp : parent k with
    | none => rfl
    | some p =>
      have := hup k p hp
      dsimp only
      rw [climb_more hup n p (by omega)]

theorem climb_enough {parent : Nat → Option Nat} {N : Nat} (hup : ∀ k p, parent k = some p → k < p ∧ p ≤ N) {k : Nat} : ∀ {n m},
    N - k ≤ n → n ≤ m → climb parent m k = climb parent n k := by
  intro n m hn hm
  induction m, hm using Nat.le_induction with
  | base => rfl
  | succ m hm ih => rw [climb_more hup m k (by omega), ih]

/-- The loop of merges: what is fixed stays, and the Kraft sum of the nodes in the heap is 1 for the depths in the tree that
results. -/
theorem mergeLoop_spec (F : Nat) : ∀ (n : Nat) (s : HState), s.nHeap = n + 1 → HInv s → s.nNodes + n ≤ F →
    (∀ k p, (mergeLoop s).parent k = some p → k < p ∧ p ≤ s.nNodes + n) ∧
    (∀ x, x ≤ s.nNodes → copies s x = 0 → (mergeLoop s).parent x = s.parent x) ∧
    heapSum s.heap s.nHeap (fun x => (1 / 2 : ℚ) ^ climb (mergeLoop s).parent F x) = 1
  | 0, s, hn, h, _ => by
    rw [mergeLoop, dif_neg (by omega)]
    refine ⟨fun k p hk => by have := h.up k p hk; omega, fun _ _ _ => rfl, ?_⟩
    have hfree : s.parent (s.heap 1) = none := by
      apply h.free
      have := copies_heap s (i := 1) le_rfl (by omega)
      intro e
      rw [e] at this
      norm_num at this
    have hcl : climb s.parent F (s.heap 1) = 0 := by
      cases F with
      | zero => rfl
      | succ F => simp [climb, hfree]
    rw [hn]
    simp [heapSum, hcl]
  | n + 1, s, hn, h, hF => by
    rw [mergeLoop, dif_pos (by omega)]
    obtain ⟨n1, n2, hne, c1, c2, hN, hH, p1, p2, po, pm, hs, h0, hw⟩ := merge_spec h (by omega)
    have hinv := merge_inv h (by omega)
    obtain ⟨i1, i2, i3⟩ := mergeLoop_spec F n s.merge (by omega) hinv (by omega)
    have hc : ∀ x, copies s.merge x = copies s x - (if n1 = x then 1 else 0) - (if n2 = x then 1 else 0) +
        (if s.nNodes + 1 = x then 1 else 0) := fun x => hs _
    have hle : ∀ x, copies s x = 1 → x ≤ s.nNodes := by
      intro x hx
      by_contra hc
      rw [h.none x (Or.inr (by omega))] at hx
      norm_num at hx
    have l1 := hle _ c1
    have l2 := hle _ c2
    have k1 : copies s.merge n1 = 0 := by
      rw [hc, if_pos rfl, if_neg (Ne.symm hne), if_neg (by omega), c1]; norm_num
    have k2 : copies s.merge n2 = 0 := by
      rw [hc, if_pos rfl, if_neg hne, if_neg (by omega), c2]; norm_num
    have f1 := (i2 n1 (by omega) k1).trans p1
    have f2 := (i2 n2 (by omega) k2).trans p2
    have hup : ∀ k p, (mergeLoop s.merge).parent k = some p → k < p ∧ p ≤ s.nNodes + (n + 1) := by
      intro k p hk
      have := i1 k p hk
      omega
    refine ⟨hup, ?_, ?_⟩
    · intro x hx hx0
      have e1 : n1 ≠ x := by
        intro e
        subst e
        rw [c1] at hx0
        norm_num at hx0
      have e2 : n2 ≠ x := by
        intro e
        subst e
        rw [c2] at hx0
        norm_num at hx0
      rw [i2 x (by omega), po x (Ne.symm e1) (Ne.symm e2) (by omega)]
      rw [hc, hx0, if_neg e1, if_neg e2, if_neg (by omega)]
      norm_num
    · have hd : ∀ x, (mergeLoop s.merge).parent x = some (s.nNodes + 1) →
          climb (mergeLoop s.merge).parent F x = climb (mergeLoop s.merge).parent F (s.nNodes + 1) + 1 := by
        intro x hx
        obtain ⟨F', rfl⟩ : ∃ F', F = F' + 1 := ⟨F - 1, by omega⟩
        rw [climb_enough hup (k := s.nNodes + 1) (n := F') (m := F' + 1) (by omega) (by omega)]
        conv_lhs => rw [climb]
        rw [hx]
      have e1 := hd _ f1
      have e2 := hd _ f2
      have := hs (fun x => (1 / 2 : ℚ) ^ climb (mergeLoop s.merge).parent F x)
      rw [i3, e1, e2, pow_succ] at this
      linarith

theorem start_loop (A : Nat) (w : Nat → Nat) : ∀ n,
    let s := (List.range n).foldl (fun s (i : Nat) => s.push (i + 1)) (⟨fun _ => 0, upd w 0 0, fun _ => none, A, 0⟩ : HState)
    s.nHeap = n ∧ s.nNodes = A ∧ s.heap 0 = 0 ∧ s.weight = upd w 0 0 ∧ (∀ x, s.parent x = none) ∧
      ∀ g, heapSum s.heap n g = ∑ i ∈ Icc 1 n, g i
  | 0 => ⟨rfl, rfl, rfl, rfl, fun _ => rfl, fun g => by simp [heapSum]⟩
  | n + 1 => by
    rw [List.range_succ, List.foldl_append, List.foldl_cons, List.foldl_nil]
    have ih := start_loop A w n
    generalize (List.range n).foldl (fun s (i : Nat) => s.push (i + 1)) (⟨fun _ => 0, upd w 0 0, fun _ => none, A, 0⟩ : HState) = s at ih
    obtain ⟨h1, h2, h3, h4, h5, h6⟩ := ih
    have hp := push_spec s (n + 1) (by rw [h3, h4, upd_same])
    have hH : (s.push (n + 1)).nHeap = n + 1 := by
      change s.nHeap + 1 = n + 1
      rw [h1]
    refine ⟨hH, h2, hp.2.trans h3, h4, fun x => ?_, fun g => ?_⟩
    · change upd s.parent _ _ x = none
      unfold upd
      split
      · rfl
      · exact h5 x
    · have := hp.1 g
      rw [hH, h1, h6] at this
      rw [this, Finset.sum_Icc_succ_top (by omega)]

theorem start_inv (A : Nat) (w : Nat → Nat) : HInv (heapStart A w) ∧ (heapStart A w).nHeap = A ∧ (heapStart A w).nNodes = A ∧
    ∀ g, heapSum (heapStart A w).heap (heapStart A w).nHeap g = ∑ i ∈ Icc 1 A, g i := by
  obtain ⟨h1, h2, h3, h4, h5, h6⟩ := start_loop A w A
  have e : heapStart A w = (List.range A).foldl (fun s (i : Nat) => s.push (i + 1))
    (⟨fun _ => 0, upd w 0 0, fun _ => none, A, 0⟩ : HState) := rfl
  rw [← e] at h1 h2 h3 h4 h5 h6
  have hc : ∀ x, copies (heapStart A w) x = if x ∈ Icc 1 A then 1 else 0 := by
    intro x
    rw [copies_eq, h1, h6]
    simp
  refine ⟨⟨h3, by rw [h4, upd_same], fun x => ?_, fun x hx => ?_, fun x _ => h5 x, fun k p hk => ?_⟩, h1, h2, ?_⟩
  · rw [hc]; split <;> norm_num
  · rw [hc, if_neg]
    rw [mem_Icc]
    omega
  · rw [h5] at hk; cases hk
  · rw [h1]; exact h6

theorem lensOf_sum (A : Nat) (w : Nat → Nat) (hA : 1 ≤ A) : ((lensOf A w).map fun l => (1 / 2 : ℚ) ^ l).sum = 1 := by
  obtain ⟨h1, h2, h3, h4⟩ := start_inv A w
  have h := (mergeLoop_spec (2 * A) (A - 1) (heapStart A w) (by omega) h1 (by omega)).2.2
  rw [h4] at h
  unfold lensOf
  dsimp only
  rw [List.map_map]
  refine Eq.trans ?_ h
  generalize (mergeLoop (heapStart A w)).parent = P
  clear h h1 h2 h3 h4
  have hg : ∀ (F n : Nat), ((List.range n).map ((fun l => (1 / 2 : ℚ) ^ l) ∘ fun i => climb P F (i + 1))).sum =
      ∑ x ∈ Icc 1 n, (1 / 2 : ℚ) ^ climb P F x := by
    intro F n
    induction n with
    | zero => simp
    | succ n ih =>
      rw [List.range_succ, List.map_append, List.sum_append, ih, Finset.sum_Icc_succ_top (by omega)]
      simp
  exact hg _ _

theorem lensOf_length (A : Nat) (w : Nat → Nat) : (lensOf A w).length = A := by simp [lensOf]

theorem le_sum_of_mem {l : List Nat} {a : Nat} (h : a ∈ l) : (1 / 2 : ℚ) ^ a ≤ (l.map fun l => (1 / 2 : ℚ) ^ l).sum := by
  induction l with
  | nil => cases h
  | cons b l ih =>
    rw [List.map_cons, List.sum_cons]
    have hnn : ∀ l : List Nat, (0 : ℚ) ≤ (l.map fun l => (1 / 2 : ℚ) ^ l).sum := by
      intro l
      apply List.sum_nonneg
      intro x hx
      rw [List.mem_map] at hx
      obtain ⟨y, -, rfl⟩ := hx
      positivity
    rcases List.mem_cons.mp h with rfl | h
    · have := hnn l
      linarith
    · have := ih h
      have h2 : (0 : ℚ) < (1 / 2) ^ b := by positivity
      linarith

theorem kraft_pos {l : List Nat} (hs : (l.map fun l => (1 / 2 : ℚ) ^ l).sum = 1) (hl : 2 ≤ l.length) {a : Nat} (ha : a ∈ l) : 1 ≤ a := by
  by_contra hc
  have ha0 : a = 0 := by omega
  subst ha0
  have hp := List.perm_cons_erase ha
  have h1 : ((0 :: l.erase 0).map fun l => (1 / 2 : ℚ) ^ l).sum = 1 := by
    exact (List.Perm.sum_eq (hp.map fun l => (1 / 2 : ℚ) ^ l)).symm.trans hs
  rw [List.map_cons, List.sum_cons, pow_zero] at h1
  have hlen : 0 < (l.erase 0).length := by
    rw [List.length_erase_of_mem ha]; omega
  obtain ⟨b, hb⟩ := List.exists_mem_of_length_pos hlen
  have h2 := le_sum_of_mem hb
  have h3 : (0 : ℚ) < (1 / 2) ^ b := by positivity
  linarith

theorem kraft_nat {l : List Nat} (h20 : ∀ a ∈ l, a ≤ 20) :
    (((l.map fun l => 2 ^ (20 - l)).sum : Nat) : ℚ) = 2 ^ 20 * (l.map fun l => (1 / 2 : ℚ) ^ l).sum := by
  induction l with
  | nil => simp
  | cons a l ih =>
    rw [List.map_cons, List.map_cons, List.sum_cons, List.sum_cons, Nat.cast_add, ih fun b hb => h20 b (List.mem_cons_of_mem _ hb),
      mul_add]
    congr 1
    have h := h20 a List.mem_cons_self
    have hp : (2 : ℚ) ^ 20 = 2 ^ (20 - a) * 2 ^ a := by rw [← pow_add]; congr 1; omega
    rw [hp, Nat.cast_pow, mul_assoc, ← mul_pow]
    norm_num

end Simox.Bz
