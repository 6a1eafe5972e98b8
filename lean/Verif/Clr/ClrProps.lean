import Verif.Clr.Lemmas

/-!
# C157, C158: colour maps
-/

set_option linter.unusedSectionVars false

namespace Simox.Clr

section
variable {K : Type} [Field K] [LinearOrder K] [IsStrictOrderedRing K] {sort : List (Key K) → List (Key K)}

/-- **C157** (when there is a colour).  Let keys be added to an empty map, in any order.  Asking for the colour at `p` succeeds exactly if `p` is a number from 0 to 1, at least two of the keys lie
there, and `p` lies between two of these keys. -/
theorem C157_found (hs : Sorts sort) (ks : List (Key K)) (p : K) : (((⟨[], []⟩ : Map K).addAll sort ks).getColor p).isSome = true ↔
    (0 ≤ p ∧ p ≤ 1) ∧ 1 < (accepted ks).length ∧ (∃ a ∈ accepted ks, a.pos ≤ p) ∧ ∃ b ∈ accepted ks, p ≤ b.pos := by
  have hm := Made.ofKeys hs ks
  obtain ⟨m, em⟩ : ∃ m, m = (⟨[], []⟩ : Map K).addAll sort ks := ⟨_, rfl⟩
  rw [← em] at hm ⊢
  by_cases hp : 0 ≤ p ∧ p ≤ 1
  · rw [getColor_in hp.1 hp.2, hm.intervals]
    by_cases hl : (accepted ks).length > 1
    · rw [if_pos hl, find_some m.keys hm.sorted (hm.perm.length_eq ▸ hl)]
      simp only [hm.perm.mem_iff]
      exact ⟨fun h => ⟨hp, hl, h⟩, fun h => h.2.2⟩
    · rw [if_neg hl]
      constructor
      · intro h
        have : find p m.keys [] = none := by
          cases m.keys with
          | nil => rfl
          | cons a l => cases l <;> rfl
        rw [this] at h
        cases h
      · exact fun h => absurd h.2.1 hl
  · unfold Map.getColor
    rw [if_neg hp]
    exact ⟨fun h => (by cases h), fun h => absurd h.1 hp⟩

/-- **C157** (between keys).  If no two of the keys from 0 to 1 are at the same position, then between two neighbouring keys the colour changes evenly, from the colour of the one to the colour of
the other. -/
theorem C157_between (hs : Sorts sort) (ks : List (Key K)) (hd : ((accepted ks).map (·.pos)).Nodup) {a b : Key K} (ha : a ∈ accepted ks) (hb : b ∈ accepted ks) (hab : a.pos < b.pos)
    (hn : ∀ c ∈ accepted ks, c.pos ≤ a.pos ∨ b.pos ≤ c.pos) {p : K} (h1 : a.pos ≤ p) (h2 : p ≤ b.pos) :
    ((⟨[], []⟩ : Map K).addAll sort ks).getColor p = some (Color.blend ((p - a.pos) / (b.pos - a.pos)) a.color b.color) := by
  have hm := Made.ofKeys hs ks
  have h0 : 0 ≤ p := (mem_accepted.1 ha).2.1.trans h1
  have h3 : p ≤ 1 := h2.trans (mem_accepted.1 hb).2.2
  rw [getColor_in h0 h3, hm.intervals, if_pos (two_le ha hb hab), ← mix_blend h1 h2 hab]
  exact find_between h1 h2 hab _ (hm.strict hd) (hm.perm.mem_iff.2 ha) (hm.perm.mem_iff.2 hb) fun c hc => hn c (hm.perm.mem_iff.1 hc)

/-- **C157** (at a key).  If no two of the keys from 0 to 1 are at the same position and there are at least two, then the colour at the position of a key is the colour of the key. -/
theorem C157_key (hs : Sorts sort) (ks : List (Key K)) (hd : ((accepted ks).map (·.pos)).Nodup) (hl : 1 < (accepted ks).length) {k : Key K} (hk : k ∈ accepted ks) :
    ((⟨[], []⟩ : Map K).addAll sort ks).getColor k.pos = some k.color := by
  have hm := Made.ofKeys hs ks
  rw [getColor_in (mem_accepted.1 hk).2.1 (mem_accepted.1 hk).2.2, hm.intervals, if_pos hl]
  exact find_key _ (hm.strict hd) (hm.perm.length_eq ▸ hl) (hm.perm.mem_iff.2 hk)

/-- **C157** (components).  Every colour of a map has components from 0 to 1. -/
theorem C157_range (hs : Sorts sort) (ks : List (Key K)) (hb : ∀ k ∈ ks, k.Bytes) {p : K} {c : Color K} (h : ((⟨[], []⟩ : Map K).addAll sort ks).getColor p = some c) : c.Proper := by
  have hm := Made.ofKeys hs ks
  unfold Map.getColor at h
  split at h
  · exact find_proper _ _ (fun k hk => hb k (mem_accepted.1 (hm.perm.mem_iff.1 hk)).1) h
  · cases h

/-- The ends of the maps of the nine types. -/
theorem Kind.ends (t : Kind) : ∃ a ∈ accepted (t.keys : List (Key K)), ∃ b ∈ accepted (t.keys : List (Key K)), a.pos = 0 ∧ b.pos = 1 := by
  cases t
  case hot =>
    refine ⟨⟨0, 0, 189, 255, 0⟩, mem_accepted.2 ⟨?_, le_rfl, zero_le_one⟩, ⟨128, 0, 0, 255, 1⟩, mem_accepted.2 ⟨?_, zero_le_one, le_rfl⟩, rfl, rfl⟩ <;> simp [Kind.keys, hotColors]
  case hotAlpha =>
    refine ⟨⟨0, 0, 189, 0, 0⟩, mem_accepted.2 ⟨?_, le_rfl, zero_le_one⟩, ⟨128, 0, 0, 255, 1⟩, mem_accepted.2 ⟨?_, zero_le_one, le_rfl⟩, rfl, rfl⟩ <;> simp [Kind.keys, hotColors]
  all_goals
    refine ⟨_, mem_accepted.2 ⟨List.mem_cons_self, le_rfl, zero_le_one⟩, _, mem_accepted.2 ⟨List.mem_cons_of_mem _ List.mem_cons_self, zero_le_one, le_rfl⟩, rfl, rfl⟩

theorem Kind.bytes (t : Kind) : ∀ k ∈ (t.keys : List (Key K)), k.Bytes := by
  intro k hk
  cases t <;> simp [Kind.keys, hotColors] at hk <;> rcases hk with h | h <;> first | (rw [h]; simp [Key.Bytes]) | skip
  all_goals
    rcases h with h | h | h | h | h | h | h | h | h | h | h | h | h | h | h | h <;> (rw [h]; simp [Key.Bytes])

/-- **C157** (the nine types).  A map of any type has a colour at every position from 0 to 1, and its components are numbers from 0 to 1. -/
theorem C157_types (hs : Sorts sort) (t : Kind) {p : K} (h0 : 0 ≤ p) (h1 : p ≤ 1) : ∃ c, (t.map sort).getColor p = some c ∧ c.Proper := by
  obtain ⟨a, ha, b, hb, ea, eb⟩ := Kind.ends (K := K) t
  have h := (C157_found hs t.keys p).2 ⟨⟨h0, h1⟩, two_le ha hb (by rw [ea, eb]; exact zero_lt_one), ⟨a, ha, ea ▸ h0⟩, b, hb, eb ▸ h1⟩
  obtain ⟨c, hc⟩ := Option.isSome_iff_exists.1 h
  exact ⟨c, hc, C157_range hs t.keys (Kind.bytes t) hc⟩

/-- **C157** (two keys at the same position).  If the first two keys are both at 0, then the colour there is neither of the two, nor anything between: it is black and cannot be seen. -/
theorem C157_equal_false (hs : Sorts sort) {a b : Key K} (ha : a.pos = 0) (hb : b.pos = 0) : ((⟨[], []⟩ : Map K).addAll sort [a, b]).getColor 0 = some ⟨0, 0, 0, 1⟩ := by
  have hm := Made.ofKeys hs [a, b]
  have e : accepted [a, b] = [a, b] := by simp [accepted, ha, hb]
  rw [e] at hm
  rw [getColor_in le_rfl zero_le_one, hm.intervals, if_pos (by simp)]
  obtain ⟨m, em⟩ : ∃ m, m = (⟨[], []⟩ : Map K).addAll sort [a, b] := ⟨_, rfl⟩
  rw [← em] at hm ⊢
  have hl := hm.perm.length_eq
  have h0 : ∀ k ∈ m.keys, k.pos = 0 := by
    intro k hk
    have := hm.perm.mem_iff.1 hk
    simp at this
    rcases this with h | h <;> rw [h] <;> assumption
  match m.keys, hl, h0 with
  | [x, y], _, h0 =>
    have hx := h0 x (by simp)
    have hy := h0 y (by simp)
    simp [find, mix, hx, hy]

end

section
variable {K : Type} [Field K] [LinearOrder K] [IsStrictOrderedRing K] [FloorSemiring K] {sort : List (Key K) → List (Key K)}

theorem custom_get (cs : List (Color K)) (c₀ : Color K) (i : ℕ) (c : Color K) (h : (c₀ :: cs)[i]? = some c) :
    (c₀.key 0 :: steps id (1 / (cs.length : K)) 0 cs)[i]? = some (c.key (i / cs.length)) := by
  cases i with
  | zero =>
    rw [List.getElem?_cons_zero, Option.some.injEq] at h
    simp [h]
  | succ i =>
    rw [List.getElem?_cons_succ] at h
    rw [List.getElem?_cons_succ, steps_get _ _ _ _ _ h]
    congr 2
    push_cast
    ring

/-- The map of at least two colours. -/
theorem custom_map (sort : List (Key K) → List (Key K)) (rnd : K → K) (c₀ : Color K) (cs : List (Color K)) (h : cs ≠ []) :
    customMap sort rnd (c₀ :: cs) = some ((⟨[], []⟩ : Map K).addAll sort (c₀.key 0 :: steps rnd (rnd (1 / (cs.length : K))) 0 cs)) := by
  unfold customMap
  simp only
  rw [if_neg h]
  rfl

theorem custom_keys (c₀ : Color K) (cs : List (Color K)) (h : cs ≠ []) : accepted (c₀.key 0 :: steps id (1 / (cs.length : K)) 0 cs) = c₀.key 0 :: steps id (1 / (cs.length : K)) 0 cs ∧
    ((c₀.key 0 :: steps id (1 / (cs.length : K)) 0 cs).map (·.pos)).Nodup := by
  have hn : 0 < (cs.length : K) := by exact_mod_cast List.length_pos_iff.2 h
  obtain ⟨l, el⟩ : ∃ l, l = c₀.key 0 :: steps id (1 / (cs.length : K)) 0 cs := ⟨_, rfl⟩
  have hl : l.length = (c₀ :: cs).length := by rw [el, List.length_cons, steps_length, List.length_cons]
  have hg : ∀ (i : ℕ) (hi : i < l.length), l[i].pos = i / cs.length := by
    intro i hi
    have h1 := custom_get cs c₀ i _ (List.getElem?_eq_getElem (hl ▸ hi))
    rw [← el, List.getElem?_eq_getElem hi, Option.some.injEq] at h1
    rw [h1]
    rfl
  rw [← el]
  constructor
  · unfold accepted
    rw [List.filter_eq_self]
    intro k hk
    obtain ⟨i, hi, e⟩ := List.getElem_of_mem hk
    have h1 := hg i hi
    rw [e] at h1
    rw [decide_eq_true_eq, h1]
    refine ⟨div_nonneg (Nat.cast_nonneg _) hn.le, ?_⟩
    rw [div_le_one hn]
    rw [hl, List.length_cons] at hi
    exact_mod_cast Nat.lt_succ_iff.1 hi
  · unfold List.Nodup
    rw [List.pairwise_map, List.pairwise_iff_getElem]
    intro i j hi hj hij
    rw [hg i hi, hg j hj]
    intro e
    have := (div_left_inj' hn.ne').1 e
    have : i = j := by exact_mod_cast this
    omega

/-- **C158** (custom maps, exact arithmetic).  A map of at least two colours with components from 0 to 1 has a colour at every position from 0 to 1.  For the `i`-th of the `n` colours, counted
from 0, the colour at `i / (n - 1)` differs from it by no more than a 510th in each component. -/
theorem C158_custom_partial (hs : Sorts sort) (cs : List (Color K)) (hn : 2 ≤ cs.length) (hc : ∀ c ∈ cs, c.Proper) : ∃ m, customMap sort id cs = some m ∧
    (∀ p, 0 ≤ p → p ≤ 1 → ∃ d, m.getColor p = some d ∧ d.Proper) ∧
    ∀ (i : ℕ) (c : Color K), cs[i]? = some c → ∃ d, m.getColor ((i : K) / ((cs.length : K) - 1)) = some d ∧ d.Near (1 / 510) c := by
  match cs, hn with
  | c₀ :: c₁ :: l, hn =>
  have hne : c₁ :: l ≠ [] := by simp
  generalize c₁ :: l = cs at hne hc hn ⊢
  have hp : 0 < (cs.length : K) := by exact_mod_cast List.length_pos_iff.2 hne
  obtain ⟨ha, hd⟩ := custom_keys c₀ cs hne
  have hlen : 1 < (c₀.key 0 :: steps id (1 / (cs.length : K)) 0 cs).length := by
    rw [List.length_cons, steps_length]
    rw [List.length_cons] at hn
    omega
  have el : (((c₀ :: cs).length : ℕ) : K) - 1 = cs.length := by rw [List.length_cons]; push_cast; ring
  refine ⟨_, custom_map sort id c₀ cs hne, fun p h0 h1 => ?_, fun i c h => ?_⟩
  · have hlast : ∃ b ∈ accepted (c₀.key 0 :: steps id (1 / (cs.length : K)) 0 cs), b.pos = 1 := by
      rw [ha]
      have h3 : (c₀ :: cs)[cs.length]? = some ((c₀ :: cs)[cs.length]'(by simp)) := List.getElem?_eq_getElem _
      have h2 := custom_get cs c₀ cs.length _ h3
      exact ⟨_, List.mem_of_getElem? h2, div_self hp.ne'⟩
    obtain ⟨b, hb, eb⟩ := hlast
    have h := (C157_found hs (c₀.key 0 :: steps id (1 / (cs.length : K)) 0 cs) p).2
      ⟨⟨h0, h1⟩, by rw [ha]; exact hlen, ⟨c₀.key 0, by rw [ha]; exact List.mem_cons_self, h0⟩, b, hb, eb ▸ h1⟩
    obtain ⟨d, hd'⟩ := Option.isSome_iff_exists.1 h
    refine ⟨d, hd', C157_range hs _ ?_ hd'⟩
    intro k hk
    obtain ⟨i, hi, e⟩ := List.getElem_of_mem hk
    have hi' : i < (c₀ :: cs).length := by
      rw [List.length_cons, steps_length] at hi
      rw [List.length_cons]
      exact hi
    have h2 := custom_get cs c₀ i _ (List.getElem?_eq_getElem hi')
    rw [List.getElem?_eq_getElem hi, Option.some.injEq] at h2
    rw [← e, h2]
    exact key_bytes (hc _ (List.getElem_mem hi')) _
  · rw [el]
    have h2 := List.mem_of_getElem? (custom_get cs c₀ i c h)
    rw [← ha] at h2
    have h3 := C157_key hs _ (by rw [ha]; exact hd) (by rw [ha]; exact hlen) h2
    exact ⟨_, h3, key_near (hc c (List.mem_of_getElem? h)) _⟩

/-- **C158** (one colour).  A map of one colour has the same colour at every position from 0 to 1, and it differs from the given one by no more than a 510th in each component. -/
theorem C158_single (hs : Sorts sort) (rnd : K → K) {c : Color K} (hc : c.Proper) : ∃ m d, customMap sort rnd [c] = some m ∧ d.Near (1 / 510) c ∧ ∀ p, 0 ≤ p → p ≤ 1 → m.getColor p = some d := by
  refine ⟨(⟨[], []⟩ : Map K).addAll sort [c.key 0, c.key 1], (c.key 0).color, rfl, key_near hc _, fun p h0 h1 => ?_⟩
  have e : accepted [c.key 0, c.key 1] = [c.key 0, c.key 1] := by
    unfold accepted
    rw [List.filter_eq_self]
    intro k hk
    simp at hk
    rcases hk with h | h <;> rw [h] <;> simp [Color.key]
  have h := C157_between hs [c.key 0, c.key 1] (by rw [e]; simp [Color.key]) (a := c.key 0) (b := c.key 1) (by rw [e]; simp) (by rw [e]; simp) (by simp [Color.key])
    (by
      rw [e]
      intro k hk
      simp at hk
      rcases hk with h | h
      · exact Or.inl (by rw [h])
      · exact Or.inr (by rw [h])) h0 h1
  rw [h]
  congr 1
  have : (c.key 1).color = (c.key 0).color := rfl
  rw [this]
  simp [Color.blend]

end

/-- The positions of 11 colours. -/
def eleven : List (Color ℚ) := List.replicate 11 ⟨1, 1, 1, 0⟩

/-- **C158** (rounding).  With 11 colours and positions of single precision, the positions add up to more than 1, so that the last colour is dropped: the map has no colour at 1. -/
theorem C158_round_false {sort : List (Key ℚ) → List (Key ℚ)} (hs : Sorts sort) : ∃ m, customMap sort (round24 60) eleven = some m ∧ m.getColor 1 = none := by
  have e : customMap sort (round24 60) eleven = some ((⟨[], []⟩ : Map ℚ).addAll sort ((⟨1, 1, 1, 0⟩ : Color ℚ).key 0 :: steps (round24 60) (round24 60 (1 / 10)) 0 (List.replicate 10 ⟨1, 1, 1, 0⟩))) := by
    have h1 : eleven = ⟨1, 1, 1, 0⟩ :: List.replicate 10 ⟨1, 1, 1, 0⟩ := rfl
    have h2 : (((List.replicate 10 (⟨1, 1, 1, 0⟩ : Color ℚ)).length : ℕ) : ℚ) = 10 := by simp
    rw [h1, custom_map sort (round24 60) _ _ (by simp), h2]
  refine ⟨_, e, ?_⟩
  rw [← Option.not_isSome_iff_eq_none, C157_found hs]
  rintro ⟨-, -, -, b, hb, h⟩
  have hall : ∀ k ∈ (⟨1, 1, 1, 0⟩ : Color ℚ).key 0 :: steps (round24 60) (round24 60 (1 / 10)) 0 (List.replicate 10 ⟨1, 1, 1, 0⟩), k.pos < 1 ∨ 1 < k.pos := by
    decide +kernel
  have h1 := mem_accepted.1 hb
  rcases hall b h1.1 with h2 | h2
  · exact absurd h (not_le.2 h2)
  · exact absurd h1.2.2 (not_le.2 h2)

/-! Concrete cases. -/

/-- `List.mergeSort` sorts. -/
theorem sorts_mergeSort : Sorts fun l : List (Key ℚ) => l.mergeSort fun a b => decide (a.pos ≤ b.pos) := by
  intro l
  refine ⟨List.mergeSort_perm _ _, ?_⟩
  have := List.pairwise_mergeSort (le := fun a b : Key ℚ => decide (a.pos ≤ b.pos)) (fun a b c h1 h2 => by simp at *; exact h1.trans h2) (fun a b => by simp; exact le_total _ _) l
  simpa using this

example : ((⟨[], []⟩ : Map ℚ).addAll (fun l => l.mergeSort fun a b => decide (a.pos ≤ b.pos)) [⟨255, 0, 0, 255, 1⟩, ⟨9, 9, 9, 9, 2⟩, ⟨0, 0, 255, 255, 1 / 2⟩]).getColor (3 / 4) =
    some ⟨1 / 2, 0, 1 / 2, 0⟩ := by
  rw [C157_between sorts_mergeSort _ (a := ⟨0, 0, 255, 255, 1 / 2⟩) (b := ⟨255, 0, 0, 255, 1⟩) (p := 3 / 4) (by decide +kernel) (by simp [accepted]; norm_num) (by simp [accepted]) (by norm_num)
    (by simp [accepted]; try norm_num) (by norm_num) (by norm_num)]
  norm_num [Color.blend, Key.color]

example : ∀ c ∈ eleven, c.Proper := by
  intro c hc
  rw [List.eq_of_mem_replicate hc]
  norm_num [Color.Proper]

end Simox.Clr
