import Verif.Bz.HuffModel
import Verif.Bz.BwtLemmas
import Verif.Bz.BitLemmas

/-!
# bzip2: Huffman codes: lemmas about the codes
-/

namespace Simox.Bz

/-- The first code of a length. -/
def firstCode (lens : List Nat) : Nat → Nat
  | 0 => 0
  | n + 1 => 2 * (firstCode lens n + lens.count n)

theorem firstCode_zero {lens : List Nat} {m : Nat} (h : ∀ l ∈ lens, m ≤ l) : ∀ n, n ≤ m → firstCode lens n = 0
  | 0, _ => rfl
  | n + 1, hn => by
    rw [firstCode, firstCode_zero h n (by omega), List.count_eq_zero_of_not_mem]
    intro hmem
    have := h n hmem
    omega

theorem firstCode_grow (lens : List Nat) (n : Nat) : ∀ k, 2 ^ (k + 1) * (firstCode lens n + lens.count n) ≤ firstCode lens (n + k + 1)
  | 0 => by simp [firstCode]
  | k + 1 => by
    have h := firstCode_grow lens n k
    have : n + (k + 1) + 1 = (n + k + 1) + 1 := by omega
    rw [this, firstCode, pow_succ]
    nlinarith

/-! ## The shortest and the longest -/

theorem minLen_foldl (l : List Nat) : ∀ m, l.foldl (fun m l => if l < m then l else m) m ≤ m ∧
    ∀ a ∈ l, l.foldl (fun m l => if l < m then l else m) m ≤ a := by
  induction l with
  | nil => simp
  | cons a l ih =>
    intro m
    rw [List.foldl_cons]
    have h := ih (if a < m then a else m)
    have h1 : (if a < m then a else m) ≤ m := by split <;> omega
    have h2 : (if a < m then a else m) ≤ a := by split <;> omega
    refine ⟨h.1.trans h1, fun b hb => ?_⟩
    rcases List.mem_cons.mp hb with rfl | hb
    · exact h.1.trans h2
    · exact h.2 b hb

theorem minLen_le {l : List Nat} {a : Nat} (h : a ∈ l) : minLen l ≤ a := (minLen_foldl l 32).2 a h

theorem maxLen_foldl (l : List Nat) : ∀ m, m ≤ l.foldl (fun m l => if m < l then l else m) m ∧
    ∀ a ∈ l, a ≤ l.foldl (fun m l => if m < l then l else m) m := by
  induction l with
  | nil => simp
  | cons a l ih =>
    intro m
    rw [List.foldl_cons]
    have h := ih (if m < a then a else m)
    have h1 : m ≤ (if m < a then a else m) := by split <;> omega
    have h2 : a ≤ (if m < a then a else m) := by split <;> omega
    refine ⟨h1.trans h.1, fun b hb => ?_⟩
    rcases List.mem_cons.mp hb with rfl | hb
    · exact h2.trans h.1
    · exact h.2 b hb

theorem le_maxLen {l : List Nat} {a : Nat} (h : a ∈ l) : a ≤ maxLen l := (maxLen_foldl l 0).2 a h

theorem maxLen_foldl_le (l : List Nat) {b : Nat} (h : ∀ a ∈ l, a ≤ b) : ∀ m, m ≤ b →
    l.foldl (fun m l => if m < l then l else m) m ≤ b := by
  induction l with
  | nil => simp
  | cons a l ih =>
    intro m hm
    rw [List.foldl_cons]
    apply ih (fun x hx => h x (List.mem_cons_of_mem _ hx))
    have := h a List.mem_cons_self
    split <;> omega

theorem maxLen_le {l : List Nat} {b : Nat} (h : ∀ a ∈ l, a ≤ b) : maxLen l ≤ b := maxLen_foldl_le l h 0 (by omega)

theorem minLen_foldl_mem (l : List Nat) : ∀ m, l.foldl (fun m l => if l < m then l else m) m = m ∨
    l.foldl (fun m l => if l < m then l else m) m ∈ l := by
  induction l with
  | nil => simp
  | cons a l ih =>
    intro m
    rw [List.foldl_cons]
    rcases ih (if a < m then a else m) with h | h
    · rw [h]
      split
      · exact Or.inr List.mem_cons_self
      · exact Or.inl rfl
    · exact Or.inr (List.mem_cons_of_mem _ h)

theorem minLen_mem {l : List Nat} (hne : l ≠ []) (h : ∀ a ∈ l, a < 32) : minLen l ∈ l := by
  rcases minLen_foldl_mem l 32 with h1 | h1
  · exfalso
    obtain ⟨a, ha⟩ := List.exists_mem_of_ne_nil l hne
    have h2 := minLen_le ha
    have h3 := h a ha
    unfold minLen at h2
    omega
  · exact h1

/-! ## Codes -/

theorem assignInner_spec (lens : List Nat) (n : Nat) (s : Nat × (Nat → Nat)) :
    (assignInner lens n s).1 = s.1 + lens.count n ∧
    ∀ i, (assignInner lens n s).2 i =
      if i < lens.length ∧ lens.getD i 0 = n then s.1 + (lens.take i).count n else s.2 i := by
  induction lens using List.reverseRecOn with
  | nil => simp [assignInner]
  | append_singleton l a ih =>
    have hstep : assignInner (l ++ [a]) n s =
        if a = n then ((assignInner l n s).1 + 1, upd (assignInner l n s).2 l.length (assignInner l n s).1)
        else assignInner l n s := by
      simp [assignInner, List.zipIdx_append]
    rw [hstep]
    by_cases ha : a = n
    · rw [if_pos ha]
      subst ha
      refine ⟨by rw [ih.1]; simp [List.count_append]; omega, fun i => ?_⟩
      unfold upd
      by_cases hi : i = l.length
      · subst hi
        dsimp only
        rw [if_pos rfl, if_pos, ih.1]
        · simp
        · simp
      · dsimp only
        rw [if_neg hi, ih.2]
        by_cases hl : i < l.length
        · have h1 : (l ++ [a]).getD i 0 = l.getD i 0 := List.getD_append _ _ _ _ hl
          have h2 : (l ++ [a]).take i = l.take i := List.take_append_of_le_length (by omega)
          rw [h1, h2]
          have h3 : i < (l ++ [a]).length := by simp; omega
          simp only [hl, h3]
        · have h3 : ¬ i < (l ++ [a]).length := by simp; omega
          simp only [hl, h3, false_and, if_false]
    · rw [if_neg ha]
      refine ⟨by rw [ih.1]; simp [List.count_append, ha], fun i => ?_⟩
      rw [ih.2]
      by_cases hl : i < l.length
      · have h1 : (l ++ [a]).getD i 0 = l.getD i 0 := List.getD_append _ _ _ _ hl
        have h2 : (l ++ [a]).take i = l.take i := List.take_append_of_le_length (by omega)
        rw [h1, h2]
        have h3 : i < (l ++ [a]).length := by simp; omega
        simp only [hl, h3]
      · rw [if_neg (by omega)]
        by_cases hi : i = l.length
        · subst hi
          rw [if_neg]
          simp [ha]
        · rw [if_neg]
          simp
          omega

theorem assign_loop {lens : List Nat} {m : Nat} (hm : ∀ l ∈ lens, m ≤ l) : ∀ k,
    let s := (List.range' m k).foldl (fun s n => (2 * (assignInner lens n s).1, (assignInner lens n s).2)) (0, fun _ => 0)
    s.1 = firstCode lens (m + k) ∧ ∀ i, i < lens.length → lens.getD i 0 < m + k →
      s.2 i = firstCode lens (lens.getD i 0) + (lens.take i).count (lens.getD i 0)
  | 0 => by
    refine ⟨(firstCode_zero hm _ (by omega)).symm, fun i hi h => ?_⟩
    have := hm (lens.getD i 0) (by rw [List.getD_eq_getElem _ _ hi]; exact List.getElem_mem _)
    omega
  | k + 1 => by
    have ih := assign_loop hm k
    rw [List.range'_1_concat, List.foldl_append, List.foldl_cons, List.foldl_nil]
    generalize (List.range' m k).foldl (fun s n => (2 * (assignInner lens n s).1, (assignInner lens n s).2)) (0, fun _ => 0) = s at ih
    dsimp only at ih ⊢
    have hs := assignInner_spec lens (m + k) s
    refine ⟨by rw [hs.1, ih.1, ← Nat.add_assoc, firstCode], fun i hi h => ?_⟩
    rw [hs.2]
    by_cases he : lens.getD i 0 = m + k
    · rw [if_pos ⟨hi, he⟩, he, ih.1]
    · rw [if_neg (by tauto)]
      exact ih.2 i hi (by omega)

theorem assignCodes_spec {lens : List Nat} {i : Nat} (hi : i < lens.length) :
    assignCodes lens (minLen lens) (maxLen lens) i =
      firstCode lens (lens.getD i 0) + (lens.take i).count (lens.getD i 0) := by
  have hmem : lens.getD i 0 ∈ lens := by rw [List.getD_eq_getElem _ _ hi]; exact List.getElem_mem _
  have h := (assign_loop (fun l hl => minLen_le (l := lens) hl) (maxLen lens + 1 - minLen lens)).2 i hi
    (by have := le_maxLen hmem; have := minLen_le hmem; omega)
  exact h

/-! ## Tables -/

theorem base0_spec (lens : List Nat) (n : Nat) :
    lens.foldl (fun (b : Nat → Nat) l => upd b (l + 1) (b (l + 1) + 1)) (fun _ => 0) n =
      if n = 0 then 0 else lens.count (n - 1) := by
  induction lens using List.reverseRecOn with
  | nil => simp
  | append_singleton l a ih =>
    rw [List.foldl_append, List.foldl_cons, List.foldl_nil]
    generalize l.foldl (fun (b : Nat → Nat) l => upd b (l + 1) (b (l + 1) + 1)) (fun _ => 0) = b at *
    unfold upd
    rw [List.count_append]
    by_cases hn : n = a + 1
    · subst hn
      rw [if_pos rfl, ih]
      simp
    · rw [if_neg hn, ih]
      by_cases h0 : n = 0
      · simp [h0]
      · have : a ≠ n - 1 := by omega
        simp [h0, this]

theorem base1_spec (lens : List Nat) {n : Nat} (hn : n ≤ 22) :
    cumulate 22 (lens.foldl (fun (b : Nat → Nat) l => upd b (l + 1) (b (l + 1) + 1)) (fun _ => 0)) n = below lens n := by
  rw [cumulate_spec, if_pos hn]
  clear hn
  unfold below
  induction n with
  | zero => simp [base0_spec]
  | succ n ih =>
    rw [List.range_succ, List.map_append, List.sum_append, ih, countP_or]
    simp [base0_spec]

theorem limit_loop {lens : List Nat} {m : Nat} (hm : ∀ l ∈ lens, m ≤ l) (b : Nat → Nat) (hb : ∀ n, n ≤ 22 → b n = below lens n) :
    ∀ k, m + k ≤ 22 →
    let s := (List.range' m k).foldl (fun (s : Int × (Nat → Int)) i =>
      let vec := s.1 + ((b (i + 1) : Int) - b i)
      (vec * 2, upd s.2 i (vec - 1))) (0, fun _ => 0)
    s.1 = firstCode lens (m + k) ∧ ∀ n, s.2 n =
      if m ≤ n ∧ n < m + k then (firstCode lens n : Int) + lens.count n - 1 else 0
  | 0, _ => by
    refine ⟨by rw [firstCode_zero hm _ (by omega)]; rfl, fun n => ?_⟩
    rw [if_neg (by omega)]
    rfl
  | k + 1, hk => by
    have ih := limit_loop hm b hb k (by omega)
    rw [List.range'_1_concat, List.foldl_append, List.foldl_cons, List.foldl_nil]
    generalize (List.range' m k).foldl (fun (s : Int × (Nat → Int)) i =>
      let vec := s.1 + ((b (i + 1) : Int) - b i)
      (vec * 2, upd s.2 i (vec - 1))) (0, fun _ => 0) = s at ih
    dsimp only at ih ⊢
    have hv : s.1 + ((b (m + k + 1) : Int) - b (m + k)) = firstCode lens (m + k) + lens.count (m + k) := by
      rw [ih.1, hb _ (by omega), hb _ (by omega)]
      unfold below
      rw [countP_or]
      push_cast
      ring
    rw [hv]
    refine ⟨by rw [← Nat.add_assoc, firstCode]; push_cast; ring, fun n => ?_⟩
    unfold upd
    by_cases hn : n = m + k
    · subst hn
      rw [if_pos rfl, if_pos (by omega)]
    · rw [if_neg hn, ih.2]
      by_cases h : m ≤ n ∧ n < m + k
      · rw [if_pos h, if_pos (by omega)]
      · rw [if_neg h, if_neg (by omega)]

theorem base_loop (f : Nat → Int) (b : Nat → Int) (m : Nat) : ∀ k n,
    (List.range' m k).foldl (fun (b : Nat → Int) i => upd b i (f i - b i)) b n =
      if m ≤ n ∧ n < m + k then f n - b n else b n
  | 0, n => by rw [if_neg (by omega)]; rfl
  | k + 1, n => by
    rw [List.range'_1_concat, List.foldl_append, List.foldl_cons, List.foldl_nil]
    unfold upd
    by_cases hn : n = m + k
    · subst hn
      rw [if_pos rfl, if_pos (by omega)]
      have := base_loop f b m k (m + k)
      rw [if_neg (by omega)] at this
      unfold upd at this
      rw [this]
    · rw [if_neg hn]
      have := base_loop f b m k n
      unfold upd at this
      rw [this]
      by_cases h : m ≤ n ∧ n < m + k
      · rw [if_pos h, if_pos (by omega)]
      · rw [if_neg h, if_neg (by omega)]

theorem tableOf_limit {lens : List Nat} (hl : ∀ l ∈ lens, l ≤ 20) (n : Nat) : (tableOf lens).limit n =
    if minLen lens ≤ n ∧ n ≤ maxLen lens then (firstCode lens n : Int) + lens.count n - 1 else 0 := by
  have hmax : maxLen lens ≤ 20 := maxLen_le hl
  by_cases hmm : minLen lens ≤ maxLen lens + 1
  · have h := (limit_loop (fun l hl => minLen_le (l := lens) hl) _ (fun n hn => base1_spec lens hn)
      (maxLen lens + 1 - minLen lens) (by omega)).2 n
    refine h.trans ?_
    by_cases hc : minLen lens ≤ n ∧ n ≤ maxLen lens
    · rw [if_pos hc, if_pos (by omega)]
    · rw [if_neg hc, if_neg (by omega)]
  · rw [if_neg (by omega)]
    have : fromTo (minLen lens) (maxLen lens) = [] := by
      unfold fromTo
      rw [show maxLen lens + 1 - minLen lens = 0 by omega]
      rfl
    unfold tableOf createTable
    simp only [this, List.foldl_nil]

theorem tableOf_base {lens : List Nat} (hl : ∀ l ∈ lens, l ≤ 20) {n : Nat} (hn : minLen lens ≤ n) (hn22 : n ≤ 22) :
    (tableOf lens).base n =
      if n ≤ maxLen lens then (firstCode lens n : Int) - below lens n else below lens n := by
  have hb := base_loop (fun i => ((tableOf lens).limit (i - 1) + 1) * 2)
    (fun i => ((cumulate 22 (lens.foldl (fun (b : Nat → Nat) l => upd b (l + 1) (b (l + 1) + 1)) (fun _ => 0)) i : Nat) : Int))
    (minLen lens + 1) (maxLen lens + 1 - (minLen lens + 1)) n
  have h1 : (tableOf lens).base n = _ := hb
  rw [h1, base1_spec lens hn22]
  by_cases hc : n ≤ maxLen lens
  · rw [if_pos hc]
    by_cases he : n = minLen lens
    · rw [if_neg (by omega), firstCode_zero (fun l hl => minLen_le hl) n (by omega)]
      have : below lens n = 0 := by
        unfold below
        rw [List.countP_eq_zero]
        intro l hl
        have := minLen_le hl
        simp
        omega
      simp [this]
    · rw [if_pos (by omega), tableOf_limit hl, if_pos (by omega)]
      obtain ⟨m, rfl⟩ : ∃ m, n = m + 1 := ⟨n - 1, by omega⟩
      rw [Nat.add_sub_cancel, firstCode]
      push_cast
      ring
  · rw [if_neg hc, if_neg (by omega)]

/-- The symbols with codes of a length. -/
def symsOf (lens : List Nat) (n : Nat) : List Nat := (lens.zipIdx.filter fun x => x.1 == n).map Prod.snd

theorem symsOf_spec (lens : List Nat) (n : Nat) : (symsOf lens n).length = lens.count n ∧
    ∀ i, i < lens.length → lens.getD i 0 = n → (symsOf lens n)[(lens.take i).count n]? = some i := by
  induction lens using List.reverseRecOn with
  | nil => simp [symsOf]
  | append_singleton l a ih =>
    have hstep : symsOf (l ++ [a]) n = symsOf l n ++ if a = n then [l.length] else [] := by
      unfold symsOf
      rw [List.zipIdx_append, List.filter_append, List.map_append]
      congr 1
      by_cases ha : a = n
      · simp [ha]
      · simp [ha]
    rw [hstep]
    constructor
    · rw [List.length_append, ih.1, List.count_append]
      by_cases ha : a = n
      · simp [ha]
      · simp [ha]
    · intro i hi hn
      by_cases hl : i < l.length
      · rw [List.getD_append _ _ _ _ hl] at hn
        rw [List.take_append_of_le_length (by omega)]
        have h := ih.2 i hl hn
        have hlt : (l.take i).count n < (symsOf l n).length := by
          by_contra hge
          rw [List.getElem?_eq_none (by omega)] at h
          cases h
        rw [List.getElem?_append_left hlt]
        exact h
      · have hi' : i = l.length := by simp at hi; omega
        subst hi'
        have ha : a = n := by simpa using hn
        rw [if_pos ha]
        have : (l ++ [a]).take l.length = l := by simp
        rw [this, ← ih.1]
        simp

theorem perm_loop {lens : List Nat} {m : Nat} (hm : ∀ l ∈ lens, m ≤ l) : ∀ k,
    ((List.range' m k).flatMap (symsOf lens)).length = below lens (m + k) ∧
    ∀ i, i < lens.length → lens.getD i 0 < m + k → ((List.range' m k).flatMap (symsOf lens))[rank lens i]? = some i
  | 0 => by
    refine ⟨?_, fun i hi h => ?_⟩
    · symm
      rw [List.range'_zero, List.flatMap_nil, List.length_nil]
      unfold below
      rw [List.countP_eq_zero]
      intro l hl
      have := hm l hl
      simp
      omega
    · have := hm (lens.getD i 0) (by rw [List.getD_eq_getElem _ _ hi]; exact List.getElem_mem _)
      omega
  | k + 1 => by
    have ih := perm_loop hm k
    rw [List.range'_1_concat, List.flatMap_append, List.flatMap_cons, List.flatMap_nil, List.append_nil]
    have hs := symsOf_spec lens (m + k)
    refine ⟨by rw [List.length_append, ih.1, hs.1, ← Nat.add_assoc]; unfold below; rw [countP_or], fun i hi h => ?_⟩
    by_cases he : lens.getD i 0 = m + k
    · have : rank lens i = ((List.range' m k).flatMap (symsOf lens)).length + (lens.take i).count (m + k) := by
        rw [ih.1]; unfold rank; rw [he]
      rw [this, List.getElem?_append_right (by omega), Nat.add_sub_cancel_left]
      exact hs.2 i hi he
    · have h1 := ih.2 i hi (by omega)
      have hlt : rank lens i < ((List.range' m k).flatMap (symsOf lens)).length := by
        by_contra hge
        rw [List.getElem?_eq_none (by omega)] at h1
        cases h1
      rw [List.getElem?_append_left hlt]
      exact h1

theorem tableOf_perm {lens : List Nat} {i : Nat} (hi : i < lens.length) : (tableOf lens).perm[rank lens i]? = some i := by
  have hmem : lens.getD i 0 ∈ lens := by rw [List.getD_eq_getElem _ _ hi]; exact List.getElem_mem _
  exact (perm_loop (fun l hl => minLen_le (l := lens) hl) (maxLen lens + 1 - minLen lens)).2 i hi
    (by have := le_maxLen hmem; have := minLen_le hmem; omega)

theorem tableOf_perm_length {lens : List Nat} : (tableOf lens).perm.length = lens.length := by
  have h := (perm_loop (fun l hl => minLen_le (l := lens) hl) (maxLen lens + 1 - minLen lens)).1
  refine h.trans ?_
  unfold below
  rw [List.countP_eq_length]
  intro l hl
  have := le_maxLen hl
  simp
  omega

/-- What the Kraft sum says. -/
theorem firstCode_kraft {lens : List Nat} (hk : (lens.map fun l => 2 ^ (20 - l)).sum ≤ 2 ^ 20) {n : Nat}
    (hn : n ≤ 20) : firstCode lens n + lens.count n ≤ 2 ^ n := by
  have hsum : ∀ n, n ≤ 20 → firstCode lens n * 2 ^ (20 - n) = (lens.map fun l => if l < n then 2 ^ (20 - l) else 0).sum ∧
      (firstCode lens n + lens.count n) * 2 ^ (20 - n) = (lens.map fun l => if l < n + 1 then 2 ^ (20 - l) else 0).sum := by
    have hsplit : ∀ n, (lens.map fun l => if l < n + 1 then 2 ^ (20 - l) else 0).sum =
        (lens.map fun l => if l < n then 2 ^ (20 - l) else 0).sum + lens.count n * 2 ^ (20 - n) := by
      intro n
      clear hk
      induction lens with
      | nil => simp
      | cons a l ih =>
        rw [List.map_cons, List.map_cons, List.sum_cons, List.sum_cons, ih, List.count_cons]
        by_cases h1 : a < n
        · have h2 : a ≠ n := by omega
          rw [if_pos h1, if_pos (by omega)]
          simp [h2]; ring
        · by_cases h2 : a = n
          · subst h2; simp; ring
          · rw [if_neg h1, if_neg (by omega)]; simp [h2]
    intro n
    induction n with
    | zero =>
      intro _
      have h0 : firstCode lens 0 * 2 ^ (20 - 0) = (lens.map fun l => if l < 0 then 2 ^ (20 - l) else 0).sum := by
        simp [firstCode]
      exact ⟨h0, by rw [hsplit, ← h0]; ring⟩
    | succ n ih =>
      intro hn
      have h0 : firstCode lens (n + 1) * 2 ^ (20 - (n + 1)) = (lens.map fun l => if l < n + 1 then 2 ^ (20 - l) else 0).sum := by
        rw [← (ih (by omega)).2, firstCode, show 20 - n = (20 - (n + 1)) + 1 by omega, pow_succ]
        ring
      exact ⟨h0, by rw [hsplit (n + 1), ← h0]; ring⟩
  have h1 := (hsum n hn).2
  have h2 : (lens.map fun l => if l < n + 1 then 2 ^ (20 - l) else 0).sum ≤ (lens.map fun l => 2 ^ (20 - l)).sum := by
    clear h1 hsum hk
    induction lens with
    | nil => simp
    | cons a l ih =>
      rw [List.map_cons, List.map_cons, List.sum_cons, List.sum_cons]
      have : (if a < n + 1 then 2 ^ (20 - a) else 0) ≤ 2 ^ (20 - a) := by
        split
        · exact le_rfl
        · exact Nat.zero_le _
      omega
  have h3 : (2 : Nat) ^ 20 = 2 ^ n * 2 ^ (20 - n) := by rw [← pow_add]; congr 1; omega
  have h4 : (firstCode lens n + lens.count n) * 2 ^ (20 - n) ≤ 2 ^ n * 2 ^ (20 - n) := by omega
  exact Nat.le_of_mul_le_mul_right h4 (by positivity)

end Simox.Bz
