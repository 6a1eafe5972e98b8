import Verif.Bz.BwtModel
import Verif.Bz.RleLemmas
import Mathlib.Data.List.Sort
import Mathlib.Data.List.Lex
import Mathlib.Data.List.GetD
import Mathlib.Data.List.Rotate
import Mathlib.Data.Fintype.EquivFin
import Mathlib.Data.List.Perm.Basic

/-!
# bzip2: the Burrows-Wheeler transform: lemmas
-/

namespace Simox.Bz

theorem cumulate_spec (f : Nat → Nat) : ∀ n i, cumulate n f i =
    if i ≤ n then ((List.range (i + 1)).map f).sum else f i
  | 0, i => by
    by_cases hi : i = 0
    · subst hi; simp [cumulate]
    · rw [if_neg (by omega)]; simp [cumulate]
  | n + 1, i => by
    have h : cumulate (n + 1) f = upd (cumulate n f) (n + 1) (cumulate n f (n + 1) + cumulate n f n) := by
      simp only [cumulate, List.range_succ, List.foldl_append, List.foldl_cons, List.foldl_nil]
    rw [h]
    unfold upd
    by_cases hi : i = n + 1
    · rw [if_pos hi, hi, cumulate_spec f n, cumulate_spec f n, if_neg (by omega), if_pos (by omega), if_pos (by omega),
        List.range_succ (n := n + 1), List.map_append, List.sum_append]
      simp [Nat.add_comm]
    · rw [if_neg hi, cumulate_spec f n]
      by_cases hin : i ≤ n
      · rw [if_pos hin, if_pos (by omega)]
      · rw [if_neg hin, if_neg (by omega)]

/-- How many bytes are smaller. -/
def below (l : List Nat) (c : Nat) : Nat := l.countP (· < c)

theorem countP_or (l : List Nat) (c : Nat) : l.countP (· < c + 1) = l.countP (· < c) + l.count c := by
  induction l with
  | nil => simp
  | cons a l ih =>
    rw [List.countP_cons, List.countP_cons, List.count_cons, ih]
    by_cases h1 : a < c
    · have h2 : a ≠ c := by omega
      have h3 : a < c + 1 := by omega
      simp [h1, h2, h3]; omega
    · by_cases h2 : a = c
      · subst h2; simp; omega
      · have h3 : ¬ a < c + 1 := by omega
        simp [h1, h2, h3]

theorem cftab_spec (l : List Nat) {c : Nat} (hc : c ≤ 256) : cftab l c = below l c := by
  rw [cftab, cumulate_spec, if_pos hc]
  clear hc
  unfold below
  induction c with
  | zero => simp
  | succ c ih =>
    rw [List.range_succ, List.map_append, List.sum_append, ih, countP_or]
    simp

theorem cumul_le (l : List Nat) {c : Nat} (hc : c ≤ 256) : cftab l c ≤ l.length := by
  rw [cftab_spec l hc]; exact List.countP_le_length

theorem cumul_mono (l : List Nat) {c d : Nat} (h : c ≤ d) (hd : d ≤ 256) : cftab l c ≤ cftab l d := by
  rw [cftab_spec l hd, cftab_spec l (le_trans h hd)]
  apply List.countP_mono_left
  intro x _ hx
  simp only [decide_eq_true_eq] at hx ⊢
  omega

/-- Where the `i`-th byte of a list is when the list is sorted. -/
def rank (l : List Nat) (i : Nat) : Nat := below l (l.getD i 0) + (l.take i).count (l.getD i 0)

theorem count_take_succ {l : List Nat} {i : Nat} (h : i < l.length) (c : Nat) :
    (l.take (i + 1)).count c = (l.take i).count c + if l.getD i 0 = c then 1 else 0 := by
  rw [List.take_succ_eq_append_getElem h, List.count_append, List.getD_eq_getElem _ _ h]
  by_cases hc : l[i] = c
  · simp [hc]
  · simp [hc]

theorem count_take_mono (l : List Nat) {i j : Nat} (h : i ≤ j) (c : Nat) : (l.take i).count c ≤ (l.take j).count c := by
  have : (l.take i) = (l.take j).take i := by rw [List.take_take, Nat.min_eq_left h]
  rw [this]
  exact (List.take_sublist _ _).count_le _

theorem count_take_le (l : List Nat) (i : Nat) (c : Nat) : (l.take i).count c ≤ l.count c :=
  (List.take_sublist _ _).count_le _

theorem below_mono (l : List Nat) {c d : Nat} (h : c ≤ d) : below l c ≤ below l d := by
  apply List.countP_mono_left
  intro x _ hx
  simp only [decide_eq_true_eq] at hx ⊢
  omega

theorem rank_lt_below {l : List Nat} {i : Nat} (h : i < l.length) : rank l i < below l (l.getD i 0 + 1) := by
  unfold rank below
  rw [countP_or]
  have h1 := count_take_succ h (l.getD i 0)
  rw [if_pos rfl] at h1
  have h2 := count_take_le l (i + 1) (l.getD i 0)
  omega

theorem rank_lt {l : List Nat} {i : Nat} (h : i < l.length) : rank l i < l.length :=
  lt_of_lt_of_le (rank_lt_below h) List.countP_le_length

theorem rank_lt_rank {l : List Nat} {i j : Nat} (hi : i < l.length)
    (h : l.getD i 0 < l.getD j 0 ∨ (l.getD i 0 = l.getD j 0 ∧ i < j)) : rank l i < rank l j := by
  rcases h with h | ⟨h, hij⟩
  · have h1 := rank_lt_below hi
    have h2 := below_mono l (c := l.getD i 0 + 1) (d := l.getD j 0) h
    unfold rank at *
    omega
  · unfold rank
    rw [← h]
    have h1 := count_take_succ hi (l.getD i 0)
    rw [if_pos rfl] at h1
    have h2 := count_take_mono l (i := i + 1) (j := j) hij (l.getD i 0)
    omega

theorem rank_inj {l : List Nat} {i j : Nat} (hi : i < l.length) (hj : j < l.length) (h : rank l i = rank l j) : i = j := by
  by_contra hne
  have h1 : ¬ (l.getD i 0 < l.getD j 0 ∨ (l.getD i 0 = l.getD j 0 ∧ i < j)) := fun hh =>
    absurd (rank_lt_rank hi hh) (by omega)
  have h2 : ¬ (l.getD j 0 < l.getD i 0 ∨ (l.getD j 0 = l.getD i 0 ∧ j < i)) := fun hh =>
    absurd (rank_lt_rank hj hh) (by omega)
  omega

theorem rank_surj {l : List Nat} {k : Nat} (hk : k < l.length) : ∃ i, i < l.length ∧ rank l i = k := by
  let f : Fin l.length → Fin l.length := fun i => ⟨rank l i, rank_lt i.2⟩
  have hf : Function.Injective f := by
    intro a b hab
    have : rank l a = rank l b := congrArg Fin.val hab
    exact Fin.ext (rank_inj a.2 b.2 this)
  obtain ⟨i, hi⟩ := (Finite.injective_iff_surjective.1 hf) ⟨k, hk⟩
  exact ⟨i, i.2, congrArg Fin.val hi⟩

/-! ## The loop -/

theorem links_loop {l : List Nat} (hl : ∀ b ∈ l, b < 256) : ∀ m, m ≤ l.length →
    let s := (l.zipIdx.take m).foldl linkStep (cftab l, fun _ => 0)
    (∀ c, c ≤ 256 → s.1 c = below l c + (l.take m).count c) ∧
    (∀ i, i < m → s.2 (rank l i) = i) ∧ (∀ k, (∀ i, i < m → rank l i ≠ k) → s.2 k = 0) := by
  intro m
  induction m with
  | zero =>
    intro _
    refine ⟨?_, by simp, by simp⟩
    intro c hc
    simp [cftab_spec l hc]
  | succ m ih =>
    intro hm
    obtain ⟨h1, h2, h3⟩ := ih (by omega)
    have hlt : m < l.length := by omega
    have hlt' : m < l.zipIdx.length := by simpa using hlt
    have hget : l.zipIdx[m] = (l.getD m 0, m) := by
      rw [List.getD_eq_getElem _ _ hlt]; simp
    have hb : l.getD m 0 < 256 := by
      rw [List.getD_eq_getElem _ _ hlt]; exact hl _ (List.getElem_mem hlt)
    rw [List.take_succ_eq_append_getElem hlt', List.foldl_append, hget]
    generalize (l.zipIdx.take m).foldl linkStep (cftab l, fun _ => 0) = s at *
    simp only [List.foldl_cons, List.foldl_nil, linkStep]
    have hpos : s.1 (l.getD m 0) = rank l m := by rw [h1 _ (by omega)]; rfl
    have hzero : s.2 (rank l m) = 0 := h3 _ (fun i hi => fun hh => by
      have := rank_inj (by omega) hlt hh
      omega)
    rw [hpos, hzero]
    refine ⟨?_, ?_, ?_⟩
    · intro c hc
      rw [count_take_succ hlt]
      unfold upd
      by_cases hcm : c = l.getD m 0
      · rw [if_pos hcm, if_pos hcm.symm, hcm, ← hpos, h1 _ (by omega)]; omega
      · rw [if_neg hcm, if_neg (fun hh => hcm hh.symm), h1 c hc, Nat.add_zero]
    · intro i hi
      unfold upd
      by_cases him : i = m
      · subst him; simp
      · rw [if_neg (fun hh => him (rank_inj (by omega) hlt hh))]
        exact h2 i (by omega)
    · intro k hk
      unfold upd
      rw [if_neg (fun hh => hk m (by omega) hh.symm)]
      exact h3 k (fun i hi => hk i (by omega))

theorem links_rank {l : List Nat} (hl : ∀ b ∈ l, b < 256) {i : Nat} (hi : i < l.length) : links l (rank l i) = i := by
  have h := links_loop hl l.length le_rfl
  rw [List.take_of_length_le (by simp)] at h
  exact h.2.1 i hi

theorem links_lt {l : List Nat} (hl : ∀ b ∈ l, b < 256) {k : Nat} (hk : k < l.length) : links l k < l.length := by
  obtain ⟨i, hi, rfl⟩ := rank_surj hk
  rw [links_rank hl hi]; exact hi

theorem rank_links {l : List Nat} (hl : ∀ b ∈ l, b < 256) {k : Nat} (hk : k < l.length) : rank l (links l k) = k := by
  obtain ⟨i, hi, rfl⟩ := rank_surj hk
  rw [links_rank hl hi]

theorem links_sorted {l : List Nat} (hl : ∀ b ∈ l, b < 256) {j k : Nat} (hjk : j < k) (hk : k < l.length) :
    l.getD (links l j) 0 < l.getD (links l k) 0 ∨
      (l.getD (links l j) 0 = l.getD (links l k) 0 ∧ links l j < links l k) := by
  by_contra hc
  have h1 : rank l (links l k) = k := rank_links hl hk
  have h2 : rank l (links l j) = j := rank_links hl (by omega)
  have hne : links l j ≠ links l k := fun hh => by rw [hh, h1] at h2; omega
  have : rank l (links l k) < rank l (links l j) := rank_lt_rank (links_lt hl hk) (by omega)
  omega

/-! ## Rotations -/

/-- What the sorting gives: the starts of all rotations of the block, the rotations in order. -/
structure SortedRot (block ptr : List Nat) : Prop where
  perm : ptr.Perm (List.range block.length)
  sorted : ptr.Pairwise fun a b => block.rotate a ≤ block.rotate b

theorem cons_le_iff {a b : Nat} {l m : List Nat} : a :: l ≤ b :: m ↔ a < b ∨ (a = b ∧ l ≤ m) := by
  rw [← not_lt, List.cons_lt_cons_iff, ← not_lt (a := m)]
  constructor
  · intro h
    push Not at h
    rcases lt_trichotomy a b with h' | h' | h'
    · exact Or.inl h'
    · exact Or.inr ⟨h', fun hh => absurd hh (not_lt.2 (h.2 h'.symm))⟩
    · omega
  · rintro (h | ⟨rfl, h⟩) (h' | ⟨h', h''⟩)
    · omega
    · omega
    · omega
    · exact h h''

theorem append_singleton_le : ∀ {s t : List Nat} {a b : Nat}, s.length = t.length → s ++ [a] ≤ t ++ [b] → s ≤ t
  | [], [], _, _, _, _ => le_rfl
  | x :: s, y :: t, a, b, hl, h => by
    simp only [List.cons_append] at h
    rw [cons_le_iff] at h ⊢
    rcases h with h | ⟨h, h'⟩
    · exact Or.inl h
    · exact Or.inr ⟨h, append_singleton_le (by simpa using hl) h'⟩

end Simox.Bz
