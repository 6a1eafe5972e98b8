import Verif.Bz.HuffLemmas
import Mathlib.Data.Nat.Fib.Basic

/-!
# bzip2: Huffman codes: lemmas about the heap and the depth of the tree
-/

namespace Simox.Bz

open Finset

/-- No node is lighter than the one above it. -/
def HeapOrd (w h : Nat → Nat) (n : Nat) : Prop := ∀ i, 2 ≤ i → i ≤ n → w (h (i / 2)) ≤ w (h i)

theorem heapOrd_min {w h : Nat → Nat} {n : Nat} (ho : HeapOrd w h n) : ∀ i, 1 ≤ i → i ≤ n → w (h 1) ≤ w (h i) := by
  intro i
  induction i using Nat.strong_induction_on with
  | _ i ih =>
    intro h1 hn
    by_cases hi : i = 1
    · rw [hi]
    · exact (ih (i / 2) (by omega) (by omega) (by omega)).trans (ho i (by omega) hn)

theorem upLoop_ord (w : Nat → Nat) (tmp n : Nat) : ∀ (zz : Nat) (h : Nat → Nat), w (h 0) = 0 → 1 ≤ zz → zz ≤ n →
    (∀ i, 2 ≤ i → i ≤ n → i ≠ zz → w (upd h zz tmp (i / 2)) ≤ w (upd h zz tmp i)) →
    (∀ i, i ≤ n → i / 2 = zz → 2 ≤ zz → w (h (zz / 2)) ≤ w (h i)) →
    HeapOrd w (upLoop w tmp h zz) n := by
  intro zz
  induction zz using Nat.strong_induction_on with
  | _ zz ih =>
    intro h h0 h1 hn ha hb
    rw [upLoop]
    split
    · rename_i hc
      have hp : 1 ≤ zz / 2 := by
        by_contra hp
        have : zz / 2 = 0 := by omega
        rw [this, h0] at hc
        omega
      apply ih (zz / 2) (by omega) (upd h zz (h (zz / 2))) (by rw [upd_other _ _ (by omega), h0]) hp (by omega)
      · intro i h2 hi hne
        by_cases e1 : i = zz
        · subst e1
          rw [upd_same, upd_other _ _ hne, upd_same]
          exact hc.2.le
        · by_cases e2 : i / 2 = zz
          · rw [upd_other _ _ (by omega : i / 2 ≠ zz / 2), e2, upd_same, upd_other _ _ hne, upd_other _ _ e1]
            exact hb i hi e2 (by omega)
          · have h3 := ha i h2 hi e1
            rw [upd_other _ _ e2, upd_other _ _ e1] at h3
            by_cases e3 : i / 2 = zz / 2
            · rw [e3, upd_same, upd_other _ _ hne, upd_other _ _ e1]
              rw [e3] at h3
              omega
            · rw [upd_other _ _ e3, upd_other _ _ e2, upd_other _ _ hne, upd_other _ _ e1]
              exact h3
      · intro i hi hi2 hp2
        have h3 := ha (zz / 2) hp2 (by omega) (by omega)
        rw [upd_other _ _ (by omega), upd_other _ _ (by omega)] at h3
        rw [upd_other _ _ (by omega)]
        by_cases e1 : i = zz
        · rw [e1, upd_same]
          exact h3
        · rw [upd_other _ _ e1]
          have h4 := ha i (by omega) hi e1
          rw [hi2, upd_other _ _ (by omega), upd_other _ _ e1] at h4
          omega
    · rename_i hc
      intro i h2 hi
      by_cases e1 : i = zz
      · subst e1
        rw [upd_same, upd_other _ _ (by omega)]
        omega
      · exact ha i h2 hi e1

theorem downLoop_ord (w : Nat → Nat) (tmp n : Nat) : ∀ (k zz : Nat) (h : Nat → Nat), n - zz ≤ k → 1 ≤ zz →
    (∀ i, 2 ≤ i → i ≤ n → i / 2 ≠ zz → w (upd h zz tmp (i / 2)) ≤ w (upd h zz tmp i)) →
    (∀ i, i ≤ n → i / 2 = zz → 2 ≤ zz → w (h (zz / 2)) ≤ w (h i)) →
    HeapOrd w (downLoop w n tmp h zz) n := by
  intro k
  induction k with
  | zero =>
    intro zz h hk h1 ha hb
    rw [downLoop, dif_neg (by omega)]
    exact fun i h2 hi => ha i h2 hi (by omega)
  | succ k ih =>
    intro zz h hk h1 ha hb
    rw [downLoop]
    by_cases hc : 0 < zz ∧ 2 * zz ≤ n
    · rw [dif_pos hc]
      dsimp only
      have hy : ∃ yy, (if 2 * zz < n ∧ w (h (2 * zz + 1)) < w (h (2 * zz)) then 2 * zz + 1 else 2 * zz) = yy ∧
          yy / 2 = zz ∧ yy ≤ n ∧ ∀ i, i ≤ n → i / 2 = zz → w (h yy) ≤ w (h i) := by
        by_cases hh : 2 * zz < n ∧ w (h (2 * zz + 1)) < w (h (2 * zz))
        · refine ⟨2 * zz + 1, if_pos hh, by omega, by omega, fun i hi hi2 => ?_⟩
          rcases (by omega : i = 2 * zz ∨ i = 2 * zz + 1) with e | e
          · rw [e]; omega
          · rw [e]
        · refine ⟨2 * zz, if_neg hh, by omega, by omega, fun i hi hi2 => ?_⟩
          rcases (by omega : i = 2 * zz ∨ i = 2 * zz + 1) with e | e
          · rw [e]
          · rw [e]; subst e; omega
      obtain ⟨yy, hy, hy2, hle, hmin⟩ := hy
      rw [hy]
      split
      · rename_i hlt
        intro i h2 hi
        by_cases e : i / 2 = zz
        · rw [e, upd_same, upd_other _ _ (by omega)]
          exact hlt.le.trans (hmin i hi e)
        · exact ha i h2 hi e
      · rename_i hlt
        apply ih yy (upd h zz (h yy)) (by omega) (by omega)
        · intro i h2 hi hne
          by_cases e1 : i = yy
          · rw [e1, hy2, upd_other _ _ (by omega), upd_same, upd_same]
            omega
          · rw [upd_other _ _ hne, upd_other _ _ e1]
            by_cases e2 : i / 2 = zz
            · rw [e2, upd_same, upd_other _ _ (by omega)]
              exact hmin i hi e2
            · rw [upd_other _ _ e2]
              by_cases e3 : i = zz
              · rw [e3, upd_same]
                exact hb yy hle hy2 (by omega)
              · rw [upd_other _ _ e3]
                have h3 := ha i h2 hi e2
                rw [upd_other _ _ e2, upd_other _ _ e3] at h3
                exact h3
        · intro i hi hi2 h2
          rw [hy2, upd_same, upd_other _ _ (by omega)]
          have h3 := ha i (by omega) hi (by omega)
          rw [hi2, upd_other _ _ (by omega), upd_other _ _ (by omega)] at h3
          exact h3
    · rw [dif_neg hc]
      exact fun i h2 hi => ha i h2 hi (by omega)

theorem push_ord (s : HState) (node : Nat) (h0 : s.weight (s.heap 0) = 0) (ho : HeapOrd s.weight s.heap s.nHeap) :
    HeapOrd (s.push node).weight (s.push node).heap (s.push node).nHeap := by
  apply upLoop_ord s.weight (upd s.heap (s.nHeap + 1) node (s.nHeap + 1)) (s.nHeap + 1) (s.nHeap + 1)
    (upd s.heap (s.nHeap + 1) node) (by rw [upd_other _ _ (by omega), h0]) (by omega) le_rfl
  · intro i h2 hi hne
    rw [upd_self, upd_other _ _ (by omega), upd_other _ _ hne]
    exact ho i h2 (by omega)
  · intro i hi hi2 _
    omega

theorem pop_ord (s : HState) (ho : HeapOrd s.weight s.heap s.nHeap) :
    HeapOrd s.pop.weight s.pop.heap s.pop.nHeap := by
  apply downLoop_ord s.weight (upd s.heap 1 (s.heap s.nHeap) 1) (s.nHeap - 1) (s.nHeap - 1) 1
    (upd s.heap 1 (s.heap s.nHeap)) (by omega) le_rfl
  · intro i h2 hi hne
    rw [upd_self, upd_other _ _ hne, upd_other _ _ (by omega)]
    exact ho i h2 (by omega)
  · intro i hi hi2 h2
    omega

/-- The nodes in the heap. -/
def InHeap (s : HState) (x : Nat) : Prop := ∃ i, 1 ≤ i ∧ i ≤ s.nHeap ∧ s.heap i = x

theorem inHeap_iff (s : HState) (x : Nat) : InHeap s x ↔ copies s x ≠ 0 := by
  constructor
  · rintro ⟨i, h1, hi, rfl⟩
    have := copies_heap s h1 hi
    intro e
    rw [e] at this
    norm_num at this
  · intro h
    by_contra hc
    apply h
    unfold copies heapSum
    apply Finset.sum_eq_zero
    intro i hi
    rw [mem_Icc] at hi
    dsimp only
    rw [if_neg]
    intro e
    exact hc ⟨i, hi.1, hi.2, e⟩

theorem addWeights_eq {a b : Nat} (ha : a % 256 < 255) (hb : b % 256 < 255) :
    addWeights a b / 256 = a / 256 + b / 256 ∧ addWeights a b % 256 = 1 + max (a % 256) (b % 256) := by
  have hm : 1 + max (a % 256) (b % 256) < 2 ^ 8 := by
    have : max (a % 256) (b % 256) < 255 := max_lt ha hb
    omega
  have h1 : a - a % 256 + (b - b % 256) = 2 ^ 8 * (a / 256 + b / 256) := by omega
  have he : addWeights a b = 2 ^ 8 * (a / 256 + b / 256) + (1 + max (a % 256) (b % 256)) := by
    unfold addWeights
    rw [h1]
    exact (Nat.two_pow_add_eq_or_of_lt hm _).symm
  rw [he]
  omega

/-- The weights and depths between two merges. -/
structure FInv (T D : Nat) (s : HState) : Prop where
  ord : HeapOrd s.weight s.heap s.nHeap
  fib : ∀ x, InHeap s x → Nat.fib (s.weight x % 256 + 2) ≤ s.weight x / 256
  low : ∀ x y, InHeap s x → InHeap s y → Nat.fib (s.weight x % 256 + 1) ≤ s.weight y / 256
  total : heapSum s.heap s.nHeap (fun x => ((s.weight x / 256 : Nat) : ℚ)) = T
  deep : ∀ x, x ≤ s.nNodes → s.weight x % 256 ≤ D
  up : ∀ k p, s.parent k = some p → s.weight k % 256 + 1 ≤ s.weight p % 256

theorem le_total {h : Nat → Nat} {n : Nat} {g : Nat → ℚ} (hg : ∀ x, 0 ≤ g x) {i : Nat} (h1 : 1 ≤ i) (hi : i ≤ n) :
    g (h i) ≤ heapSum h n g :=
  Finset.single_le_sum (f := fun j => g (h j)) (fun _ _ => hg _) (mem_Icc.mpr ⟨h1, hi⟩)

/-- `merge_spec`, with the order. -/
theorem merge_fib {T D : Nat} (hT : T < Nat.fib (D + 3)) (hD : D < 255) {s : HState} (h : HInv s) (hf : FInv T D s) (hn : 1 < s.nHeap) :
    FInv T D s.merge := by
  have hinv := merge_inv h hn
  obtain ⟨ord, fib, low, total, deep, up⟩ := hf
  -- the nodes
  have hp1 := pop_spec s (by omega)
  have hn1 : s.pop.nHeap = s.nHeap - 1 := rfl
  have hp2 := pop_spec s.pop (by omega)
  have c1 : copies s (s.heap 1) = 1 := le_antisymm (h.once _) (copies_heap s le_rfl (by omega))
  have c1' : copies s.pop (s.heap 1) = 0 := by
    have := hp1.1 (fun y => if y = s.heap 1 then 1 else 0)
    rw [← copies_eq, ← copies_eq, c1] at this
    rw [this]; simp
  have c2' : 1 ≤ copies s.pop (s.pop.heap 1) := copies_heap s.pop le_rfl (by omega)
  have hne : s.heap 1 ≠ s.pop.heap 1 := by
    intro e
    rw [← e, c1'] at c2'
    norm_num at c2'
  have c2 : copies s (s.pop.heap 1) = 1 := by
    have h1 := hp1.1 (fun y => if y = s.pop.heap 1 then 1 else 0)
    rw [← copies_eq, ← copies_eq, if_neg hne] at h1
    have := h.once (s.pop.heap 1)
    linarith
  have hleN : ∀ x, InHeap s x → x ≤ s.nNodes := by
    intro x hx
    by_contra hc
    exact (inHeap_iff s x).mp hx (h.none x (Or.inr (by omega)))
  have hpopsub : ∀ t : HState, 1 ≤ t.nHeap → ∀ x, InHeap t.pop x → InHeap t x := by
    intro t ht x hx
    rw [inHeap_iff] at hx ⊢
    intro e
    have h1 := (pop_spec t ht).1 (fun y => if y = x then 1 else 0)
    rw [← copies_eq, ← copies_eq, e] at h1
    have h2 : 0 ≤ copies t.pop x := by
      unfold copies heapSum
      apply Finset.sum_nonneg
      intro i _
      dsimp only
      split <;> norm_num
    have h3 : (0 : ℚ) ≤ if t.heap 1 = x then 1 else 0 := by split <;> norm_num
    apply hx
    linarith
  have ih1 : InHeap s (s.heap 1) := ⟨1, le_rfl, by omega, rfl⟩
  have ih2' : InHeap s.pop (s.pop.heap 1) := ⟨1, le_rfl, by omega, rfl⟩
  have ih2 : InHeap s (s.pop.heap 1) := hpopsub s (by omega) _ ih2'
  have ord1 := pop_ord s ord
  have ord2 := pop_ord s.pop ord1
  generalize hx1 : s.heap 1 = n1 at *
  generalize hx2 : s.pop.heap 1 = n2 at *
  have l1 := hleN _ ih1
  have l2 := hleN _ ih2
  have min1 : ∀ y, InHeap s y → s.weight n1 ≤ s.weight y := by
    rintro y ⟨i, hi1, hin, rfl⟩
    rw [← hx1]
    exact heapOrd_min ord i hi1 hin
  have min2 : ∀ y, InHeap s y → y ≠ n1 → s.weight n2 ≤ s.weight y := by
    intro y hy hy1
    have : InHeap s.pop y := by
      rw [inHeap_iff] at hy ⊢
      have h1 := hp1.1 (fun z => if z = y then 1 else 0)
      rw [← copies_eq, ← copies_eq, if_neg (Ne.symm hy1)] at h1
      rw [h1]
      simpa using hy
    obtain ⟨i, hi1, hin, rfl⟩ := this
    rw [← hx2]
    exact heapOrd_min ord1 i hi1 hin
  have d1 := deep n1 l1
  have d2 := deep n2 l2
  obtain ⟨hw, hd⟩ := addWeights_eq (a := s.weight n1) (b := s.weight n2) (by omega) (by omega)
  -- the state afterwards
  have hweight : s.merge.weight = upd s.weight (s.nNodes + 1) (addWeights (s.weight n1) (s.weight n2)) := by
    rw [← hx1, ← hx2]; rfl
  have hwo : ∀ x, x ≤ s.nNodes → s.merge.weight x = s.weight x := fun x hx => by
    rw [hweight, upd_other _ _ (by omega)]
  have hwm : s.merge.weight (s.nNodes + 1) = addWeights (s.weight n1) (s.weight n2) := by rw [hweight, upd_same]
  have hparent : s.merge.parent = upd (upd (upd s.parent n2 (some (s.nNodes + 1))) n1 (some (s.nNodes + 1))) (s.nNodes + 1) none := by
    rw [← hx1, ← hx2]; rfl
  have hN : s.merge.nNodes = s.nNodes + 1 := rfl
  let u : HState := { s.pop.pop with
    nNodes := s.nNodes + 1
    parent := upd (upd s.pop.pop.parent n2 (some (s.nNodes + 1))) n1 (some (s.nNodes + 1))
    weight := upd s.pop.pop.weight (s.nNodes + 1) (addWeights (s.pop.pop.weight n1) (s.pop.pop.weight n2)) }
  have hu : s.merge = u.push (s.nNodes + 1) := by
    change _ = HState.push { s.pop.pop with
      nNodes := s.nNodes + 1
      parent := upd (upd s.pop.pop.parent n2 (some (s.nNodes + 1))) n1 (some (s.nNodes + 1))
      weight := upd s.pop.pop.weight (s.nNodes + 1) (addWeights (s.pop.pop.weight n1) (s.pop.pop.weight n2)) } (s.nNodes + 1)
    rw [← hx1, ← hx2]
    rfl
  have h00 : s.pop.pop.heap 0 = 0 := by rw [hp2.2, hp1.2, h.zero]
  have hu0 : u.weight (u.heap 0) = 0 := by
    change upd s.weight (s.nNodes + 1) (addWeights (s.weight n1) (s.weight n2)) (s.pop.pop.heap 0) = 0
    rw [h00, upd_other _ _ (by omega)]
    exact h.weight
  have hpp : ∀ x, InHeap s.pop.pop x → InHeap s x := fun x hx => hpopsub s (by omega) x (hpopsub s.pop (by omega) x hx)
  have huord : HeapOrd u.weight u.heap u.nHeap := by
    intro i h2 hi
    change upd s.weight (s.nNodes + 1) (addWeights (s.weight n1) (s.weight n2)) (s.pop.pop.heap (i / 2)) ≤
      upd s.weight (s.nNodes + 1) (addWeights (s.weight n1) (s.weight n2)) (s.pop.pop.heap i)
    have hi' : i ≤ s.pop.pop.nHeap := hi
    have a1 := hleN _ (hpp _ ⟨i / 2, by omega, by omega, rfl⟩)
    have a2 := hleN _ (hpp _ ⟨i, by omega, hi', rfl⟩)
    rw [upd_other _ _ (by omega), upd_other _ _ (by omega)]
    exact ord2 i h2 hi'
  have hs : ∀ g, heapSum s.merge.heap s.merge.nHeap g = heapSum s.heap s.nHeap g - g n1 - g n2 + g (s.nNodes + 1) := by
    intro g
    rw [hu]
    refine ((push_spec u (s.nNodes + 1) hu0).1 g).trans ?_
    change heapSum s.pop.pop.heap s.pop.pop.nHeap g + _ = _
    rw [hp2.1, hp1.1]
  have hin : ∀ x, InHeap s.merge x → x = s.nNodes + 1 ∨ (InHeap s x ∧ x ≠ n1 ∧ x ≠ n2) := by
    intro x hx
    by_cases e : x = s.nNodes + 1
    · exact Or.inl e
    · right
      rw [inHeap_iff] at hx
      have h1 := hs (fun y => if y = x then 1 else 0)
      rw [← copies_eq, ← copies_eq, if_neg (Ne.symm e), add_zero] at h1
      have e1 : x ≠ n1 := by
        rintro rfl
        rw [if_pos rfl, if_neg (Ne.symm hne), c1] at h1
        exact hx (by rw [h1]; norm_num)
      have e2 : x ≠ n2 := by
        rintro rfl
        rw [if_pos rfl, if_neg hne, c2] at h1
        exact hx (by rw [h1]; norm_num)
      refine ⟨?_, e1, e2⟩
      rw [inHeap_iff]
      rw [if_neg (Ne.symm e1), if_neg (Ne.symm e2)] at h1
      intro e0
      exact hx (by rw [h1, e0]; norm_num)
  have hfibm : Nat.fib (1 + max (s.weight n1 % 256) (s.weight n2 % 256) + 2) ≤ s.weight n1 / 256 + s.weight n2 / 256 := by
    have f1 := fib _ ih1
    have f2 := fib _ ih2
    have g1 := low _ _ ih1 ih2
    have g2 := low _ _ ih2 ih1
    rcases Nat.le_total (s.weight n1 % 256) (s.weight n2 % 256) with hle | hle
    · rw [max_eq_right hle, show 1 + s.weight n2 % 256 + 2 = (s.weight n2 % 256 + 1) + 2 by omega, Nat.fib_add_two]
      rw [show s.weight n2 % 256 + 1 + 1 = s.weight n2 % 256 + 2 by omega]
      omega
    · rw [max_eq_left hle, show 1 + s.weight n1 % 256 + 2 = (s.weight n1 % 256 + 1) + 2 by omega, Nat.fib_add_two]
      rw [show s.weight n1 % 256 + 1 + 1 = s.weight n1 % 256 + 2 by omega]
      omega
  have htotal : heapSum s.merge.heap s.merge.nHeap (fun x => ((s.merge.weight x / 256 : Nat) : ℚ)) = T := by
    rw [hs, hwm, hw, hwo _ l1, hwo _ l2, ← total]
    have : heapSum s.heap s.nHeap (fun x => ((s.merge.weight x / 256 : Nat) : ℚ)) =
        heapSum s.heap s.nHeap (fun x => ((s.weight x / 256 : Nat) : ℚ)) := by
      unfold heapSum
      apply Finset.sum_congr rfl
      intro i hi
      rw [mem_Icc] at hi
      dsimp only
      rw [hwo _ (hleN _ ⟨i, hi.1, hi.2, rfl⟩)]
    rw [this]
    push_cast
    ring
  have hinm : InHeap s.merge (s.nNodes + 1) := by
    rw [inHeap_iff]
    have h1 := hs (fun y => if y = s.nNodes + 1 then 1 else 0)
    rw [← copies_eq, ← copies_eq, if_pos rfl, if_neg (by omega), if_neg (by omega), h.none _ (Or.inr (by omega))] at h1
    rw [h1]
    norm_num
  have hmT : s.weight n1 / 256 + s.weight n2 / 256 ≤ T := by
    obtain ⟨i, hi1, hin', hi⟩ := hinm
    have := le_total (h := s.merge.heap) (n := s.merge.nHeap) (g := fun x => ((s.merge.weight x / 256 : Nat) : ℚ))
      (fun x => by positivity) hi1 hin'
    rw [htotal] at this
    rw [hi, hwm, hw] at this
    exact_mod_cast this
  have hdm : 1 + max (s.weight n1 % 256) (s.weight n2 % 256) ≤ D := by
    by_contra hc
    have : Nat.fib (D + 3) ≤ Nat.fib (1 + max (s.weight n1 % 256) (s.weight n2 % 256) + 2) := Nat.fib_mono (by omega)
    omega
  refine ⟨?_, ?_, ?_, htotal, ?_, ?_⟩
  · rw [hu]
    exact push_ord u _ hu0 huord
  · intro x hx
    rcases hin x hx with rfl | ⟨hx, -, -⟩
    · rw [hwm, hw, hd]
      exact hfibm
    · rw [hwo _ (hleN _ hx)]
      exact fib x hx
  · intro x y hx hy
    rcases hin x hx with rfl | ⟨hx, hx1, hx2⟩
    · rcases hin y hy with rfl | ⟨hy, hy1, hy2⟩
      · rw [hwm, hw, hd]
        exact (Nat.fib_mono (by omega)).trans hfibm
      · rw [hwm, hd, hwo _ (hleN _ hy)]
        have f1 := fib _ ih1
        have f2 := fib _ ih2
        have m1 := Nat.div_le_div_right (c := 256) (min1 y hy)
        have m2 := Nat.div_le_div_right (c := 256) (min2 y hy hy1)
        rcases Nat.le_total (s.weight n1 % 256) (s.weight n2 % 256) with hle | hle
        · rw [max_eq_right hle, show 1 + s.weight n2 % 256 + 1 = s.weight n2 % 256 + 2 by omega]
          omega
        · rw [max_eq_left hle, show 1 + s.weight n1 % 256 + 1 = s.weight n1 % 256 + 2 by omega]
          omega
    · rcases hin y hy with rfl | ⟨hy, hy1, hy2⟩
      · rw [hwm, hw, hwo _ (hleN _ hx)]
        have := low _ _ hx ih1
        omega
      · rw [hwo _ (hleN _ hx), hwo _ (hleN _ hy)]
        exact low x y hx hy
  · intro x hx
    by_cases e : x = s.nNodes + 1
    · rw [e, hwm, hd]
      exact hdm
    · rw [hN] at hx
      rw [hwo _ (by omega)]
      exact deep x (by omega)
  · intro k p hk
    rw [hparent] at hk
    by_cases e3 : k = s.nNodes + 1
    · rw [e3, upd_same] at hk; cases hk
    · rw [upd_other _ _ e3] at hk
      by_cases e1 : k = n1
      · rw [e1, upd_same] at hk
        cases hk
        rw [e1, hwm, hd, hwo _ l1]
        have := le_max_left (s.weight n1 % 256) (s.weight n2 % 256)
        omega
      · rw [upd_other _ _ e1] at hk
        by_cases e2 : k = n2
        · rw [e2, upd_same] at hk
          cases hk
          rw [e2, hwm, hd, hwo _ l2]
          have := le_max_right (s.weight n1 % 256) (s.weight n2 % 256)
          omega
        · rw [upd_other _ _ e2] at hk
          have := h.up k p hk
          rw [hwo _ (by omega), hwo _ (by omega)]
          exact up k p hk

theorem mergeLoop_fib {T D : Nat} (hT : T < Nat.fib (D + 3)) (hD : D < 255) : ∀ (n : Nat) (s : HState), s.nHeap = n + 1 → HInv s →
    FInv T D s → HInv (mergeLoop s) ∧ FInv T D (mergeLoop s)
  | 0, s, hn, h, hf => by
    rw [mergeLoop, dif_neg (by omega)]
    exact ⟨h, hf⟩
  | n + 1, s, hn, h, hf => by
    rw [mergeLoop, dif_pos (by omega)]
    have hH := (merge_spec h (by omega)).choose_spec.choose_spec.2.2.2.2.1
    exact mergeLoop_fib hT hD n s.merge (by omega) (merge_inv h (by omega)) (merge_fib hT hD h hf (by omega))

theorem climb_depth {D : Nat} {s : HState} (h : HInv s) (hf : ∀ x, x ≤ s.nNodes → s.weight x % 256 ≤ D)
    (hup : ∀ k p, s.parent k = some p → s.weight k % 256 + 1 ≤ s.weight p % 256) : ∀ n k, k ≤ s.nNodes →
    climb s.parent n k + s.weight k % 256 ≤ D
  | 0, k, hk => by
    have := hf k hk
    simp [climb]
    omega
  | n + 1, k, hk => by
    rw [climb]
    cases hp : s.parent k with
    | none => have := hf k hk; dsimp only; omega
    | some p =>
      have h1 := (h.up k p hp).2
      have h2 := hup k p hp
      have h3 := climb_depth h hf hup n p h1
      dsimp only
      omega

theorem start_ord (A : Nat) (w : Nat → Nat) : ∀ n,
    let s := (List.range n).foldl (fun s (i : Nat) => s.push (i + 1)) (⟨fun _ => 0, upd w 0 0, fun _ => none, A, 0⟩ : HState)
    HeapOrd s.weight s.heap s.nHeap
  | 0 => fun i h2 hi => by
    have : i ≤ 0 := hi
    omega
  | n + 1 => by
    rw [List.range_succ, List.foldl_append, List.foldl_cons, List.foldl_nil]
    have ih := start_ord A w n
    have hs := start_loop A w n
    generalize (List.range n).foldl (fun s (i : Nat) => s.push (i + 1)) (⟨fun _ => 0, upd w 0 0, fun _ => none, A, 0⟩ : HState) = s at *
    exact push_ord s (n + 1) (by rw [hs.2.2.1, hs.2.2.2.1, upd_same]) ih

theorem sum_icc_list (f : Nat → Nat) (n : Nat) : ((((List.range n).map fun i => f (i + 1)).sum : Nat) : ℚ) = ∑ i ∈ Icc 1 n, (f i : ℚ) := by
  induction n with
  | zero => simp
  | succ n ih =>
    rw [List.range_succ, List.map_append, List.sum_append, Nat.cast_add, ih, Finset.sum_Icc_succ_top (by omega)]
    simp

/-- Long codes need many symbols: the depth is bounded by the Fibonacci numbers. -/
theorem lensOf_bound {A : Nat} (hA : 1 ≤ A) {w v : Nat → Nat} (hw : ∀ i, 1 ≤ i → i ≤ A → w i = v i * 256) (hv : ∀ i, 1 ≤ i → i ≤ A → 1 ≤ v i)
    {D : Nat} (hT : ((List.range A).map fun i => v (i + 1)).sum < Nat.fib (D + 3)) (hD : D < 255) : ∀ l ∈ lensOf A w, l ≤ D := by
  obtain ⟨h1, h2, h3, h4⟩ := start_inv A w
  obtain ⟨q1, q2, q3, q4, q5, q6⟩ := start_loop A w A
  have hweight : (heapStart A w).weight = upd w 0 0 := q4
  have hparent : ∀ x, (heapStart A w).parent x = none := q5
  have hmem : ∀ x, InHeap (heapStart A w) x → 1 ≤ x ∧ x ≤ A := by
    intro x hx
    rw [inHeap_iff] at hx
    by_contra hc
    apply hx
    rw [copies_eq, h4]
    apply Finset.sum_eq_zero
    intro i hi
    rw [mem_Icc] at hi
    rw [if_neg (by omega)]
  have hwx : ∀ x, 1 ≤ x → x ≤ A → (heapStart A w).weight x = v x * 256 := by
    intro x a b
    rw [hweight, upd_other _ _ (by omega), hw x a b]
  have hf : FInv ((List.range A).map fun i => v (i + 1)).sum D (heapStart A w) := by
    refine ⟨start_ord A w A, ?_, ?_, ?_, ?_, ?_⟩
    · intro x hx
      obtain ⟨a, b⟩ := hmem x hx
      have := hv x a b
      rw [hwx x a b]
      simpa using this
    · intro x y hx hy
      obtain ⟨a, b⟩ := hmem x hx
      obtain ⟨c, d⟩ := hmem y hy
      have := hv y c d
      rw [hwx x a b, hwx y c d]
      simpa using this
    · rw [h4, sum_icc_list]
      apply Finset.sum_congr rfl
      intro i hi
      rw [mem_Icc] at hi
      rw [hwx i hi.1 hi.2]
      simp
    · intro x hx
      rw [h3] at hx
      by_cases e : x = 0
      · rw [e, hweight, upd_same]; omega
      · rw [hwx x (by omega) hx]; simp
    · intro k p hk
      rw [hparent] at hk
      cases hk
  obtain ⟨i1, i2⟩ := mergeLoop_fib hT hD (A - 1) (heapStart A w) (by omega) h1 hf
  intro l hl
  unfold lensOf at hl
  rw [List.mem_map] at hl
  obtain ⟨i, hi, rfl⟩ := hl
  rw [List.mem_range] at hi
  have hN : ∀ (n : Nat) (s : HState), s.nHeap = n + 1 → HInv s → s.nNodes ≤ (mergeLoop s).nNodes := by
    intro n
    induction n with
    | zero => intro s hs _; rw [mergeLoop, dif_neg (by omega)]
    | succ n ih =>
      intro s hs h
      rw [mergeLoop, dif_pos (by omega)]
      have hH := (merge_spec h (by omega)).choose_spec.choose_spec.2.2.2.2.1
      have := ih s.merge (by omega) (merge_inv h (by omega))
      have e : s.merge.nNodes = s.nNodes + 1 := rfl
      omega
  have := hN (A - 1) (heapStart A w) (by omega) h1
  have := climb_depth i1 i2.deep i2.up (2 * A) (i + 1) (by omega)
  omega

end Simox.Bz
