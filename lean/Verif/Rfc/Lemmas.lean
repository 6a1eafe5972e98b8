import Verif.Rfc.Spec
import Mathlib.Data.List.Nodup
import Mathlib.Data.List.Perm.Subperm

/-!
# Lemmas: the search from the new root
-/

namespace Simox.Rfc

variable {G V P B : Type}

/-- `n` is the neighbour of `m` on the way to `x`. -/
def Tow (r : Robot G V P B) (x m n : ℕ) : Prop := (r.parent n = some m ∧ Below r x n) ∨ (r.parent m = some n ∧ ¬ Below r x m)

theorem below_refl (r : Robot G V P B) (n : ℕ) : Below r n n := Relation.ReflTransGen.refl

theorem below_step {r : Robot G V P B} {n a p : ℕ} (h : Below r n a) (hp : r.parent a = some p) : Below r n p := Relation.ReflTransGen.tail h hp

theorem below_head {r : Robot G V P B} {n p a : ℕ} (hp : r.parent n = some p) (h : Below r p a) : Below r n a := Relation.ReflTransGen.head hp h

theorem below_trans {r : Robot G V P B} {n p a : ℕ} (h : Below r n p) (h' : Below r p a) : Below r n a := Relation.ReflTransGen.trans h h'

/-- A node below another one is it, or its parent is below it. -/
theorem below_cases {r : Robot G V P B} {n a : ℕ} (h : Below r n a) : n = a ∨ ∃ p, r.parent n = some p ∧ Below r p a := by
  rcases Relation.ReflTransGen.cases_head h with h | ⟨p, h, h'⟩
  · exact .inl h
  · exact .inr ⟨p, h, h'⟩

theorem below_rank {r : Robot G V P B} {rank : ℕ → ℕ} (hr : ∀ c p, r.parent c = some p → rank p < rank c) {n a : ℕ} (h : Below r n a) : rank a ≤ rank n := by
  induction h with
  | refl => exact le_rfl
  | tail _ h ih => exact (Nat.le_of_lt (hr _ _ h)).trans ih

theorem below_total {r : Robot G V P B} {n a b : ℕ} (h : Below r n a) : Below r n b → Below r a b ∨ Below r b a := by
  induction h using Relation.ReflTransGen.head_induction_on with
  | refl => exact fun h => .inl h
  | head hp h ih =>
    intro hb
    rcases below_cases hb with rfl | ⟨p, hp', hb⟩
    · exact .inr (below_head hp h)
    · rw [hp] at hp'
      cases hp'
      exact ih hb

theorem not_below_parent {r : Robot G V P B} (ht : IsTree r) {c p : ℕ} (h : r.parent c = some p) : ¬ Below r p c := by
  obtain ⟨rank, hr⟩ := ht.acyclic
  intro hb
  have h1 := below_rank hr hb
  have h2 := hr _ _ h
  omega

theorem below_unique {r : Robot G V P B} (ht : IsTree r) {x a b p : ℕ} (ha : r.parent a = some p) (hb : r.parent b = some p) (h : Below r x a) (h' : Below r x b) : a = b := by
  rcases below_total h h' with h | h
  · rcases below_cases h with h | ⟨p', hp, h⟩
    · exact h
    · rw [ha] at hp
      cases hp
      exact absurd h (not_below_parent ht hb)
  · rcases below_cases h with h | ⟨p', hp, h⟩
    · exact h.symm
    · rw [hb] at hp
      cases hp
      exact absurd h (not_below_parent ht ha)

theorem tow_unique {r : Robot G V P B} (ht : IsTree r) {x m n n' : ℕ} (h : Tow r x m n) (h' : Tow r x m n') : n = n' := by
  rcases h with ⟨h1, h2⟩ | ⟨h1, h2⟩ <;> rcases h' with ⟨h3, h4⟩ | ⟨h3, h4⟩
  · exact below_unique ht h1 h3 h2 h4
  · exact absurd (below_step h2 h1) h4
  · exact absurd (below_step h4 h3) h2
  · rw [h1] at h3
    exact Option.some.inj h3

theorem tow_self {r : Robot G V P B} (ht : IsTree r) {x n : ℕ} : ¬ Tow r x x n := by
  rintro (⟨h1, h2⟩ | ⟨_, h2⟩)
  · exact not_below_parent ht h1 h2
  · exact h2 (below_refl r x)

/-- Every other node has a neighbour on the way. -/
theorem tow_exists {r : Robot G V P B} (ht : IsTree r) {x m : ℕ} (hm : m ∈ r.ids) (hx : x ∈ r.ids) (h : m ≠ x) : ∃ n, n ∈ r.ids ∧ Tow r x m n := by
  by_cases hb : Below r x m
  · rcases Relation.ReflTransGen.cases_tail hb with h' | ⟨n, h1, h2⟩
    · exact absurd h' h
    · exact ⟨n, (ht.parent_mem _ _ h2).1, .inl ⟨h2, h1⟩⟩
  · rcases hp : r.parent m with _ | p
    · have h1 := ht.only_root m hm hp
      exfalso
      apply hb
      rw [h1]
      obtain ⟨rank, hr⟩ := ht.acyclic
      have hall : ∀ k n, n ∈ r.ids → rank n ≤ k → Below r n r.root := by
        intro k
        induction k with
        | zero =>
          intro n hn hk
          rcases hp : r.parent n with _ | p
          · rw [ht.only_root n hn hp]
            exact below_refl r _
          · have := hr _ _ hp
            omega
        | succ k ih =>
          intro n hn hk
          rcases hp : r.parent n with _ | p
          · rw [ht.only_root n hn hp]
            exact below_refl r _
          · have := hr _ _ hp
            exact below_head hp (ih p (ht.parent_mem _ _ hp).2 (by omega))
      exact hall _ x hx le_rfl
    · exact ⟨p, (ht.parent_mem _ _ hp).2, .inr ⟨hp, hb⟩⟩

theorem below_root {r : Robot G V P B} (ht : IsTree r) {n : ℕ} (hn : n ∈ r.ids) : Below r n r.root := by
  by_contra h
  have h1 : r.root ≠ n := by
    rintro rfl
    exact h (below_refl r _)
  obtain ⟨m, _, h2 | h2⟩ := tow_exists ht ht.root_mem hn h1
  · exact h (below_step h2.2 h2.1)
  · rw [ht.root_parent] at h2
    exact absurd h2.1 (by simp)

/-- The new children of a node: the neighbours that are farther away. -/
theorem mem_next {r : Robot G V P B} (ht : IsTree r) {x n : ℕ} {o : Option ℕ} (ho : ∀ m, Tow r x n m ↔ o = some m) (m : ℕ) (b : Bool) :
    (m, b) ∈ next r (o, n) ↔ Tow r x m n ∧ (b = true ↔ r.parent n = some m) := by
  have hcyc : ∀ {a b : ℕ}, r.parent a = some b → r.parent b ≠ some a := by
    intro a b h h'
    exact not_below_parent ht h (Relation.ReflTransGen.single h')
  unfold next
  rw [List.mem_append, List.mem_map]
  constructor
  · rintro (h | ⟨c, h, h'⟩)
    · rcases hp : r.parent n with _ | p
      · rw [hp] at h
        exact absurd h (by simp)
      · simp only [hp] at h
        split at h
        · exact absurd h (by simp)
        · rename_i hne
          have h := List.mem_singleton.1 h
          cases h
          refine ⟨.inl ⟨hp, ?_⟩, by simp⟩
          by_contra hb
          exact hne ((ho m).1 (.inr ⟨hp, hb⟩)).symm
    · rw [List.mem_filter] at h
      cases h'
      have hp := (ht.children_iff _ _).1 h.1
      refine ⟨.inr ⟨hp, ?_⟩, ?_⟩
      · intro hb
        have := (ho m).1 (.inl ⟨hp, hb⟩)
        simp [this] at h
      · constructor
        · intro h
          exact absurd h (by simp)
        · intro h
          exact absurd h (hcyc hp)
  · rintro ⟨h | h, hb⟩
    · left
      rw [hb.2 h.1]
      simp only [h.1]
      rw [if_neg, List.mem_singleton]
      intro h'
      rcases (ho m).2 h'.symm with h' | h'
      · exact hcyc h.1 h'.1
      · exact h'.2 h.2
    · right
      have hbf : b = false := by
        cases b
        · rfl
        · exact absurd (hb.1 rfl) (hcyc h.1)
      refine ⟨m, List.mem_filter.2 ⟨(ht.children_iff _ _).2 h.1, ?_⟩, by rw [hbf]⟩
      simp only [decide_eq_true_eq]
      intro h'
      rcases (ho m).2 h'.symm with h' | h'
      · exact h.2 h'.2
      · exact hcyc h.1 h'.1

theorem next_nodup {r : Robot G V P B} (ht : IsTree r) (e : Option ℕ × ℕ) : ((next r e).map Prod.fst).Nodup := by
  unfold next
  rw [List.map_append, List.map_map]
  have hf : (List.map (Prod.fst ∘ fun c => (c, false)) ((r.children e.2).filter fun c => decide (some c ≠ e.1))) = (r.children e.2).filter fun c => decide (some c ≠ e.1) := by
    rw [show (Prod.fst ∘ fun c : ℕ => (c, false)) = id from rfl, List.map_id]
  rw [hf]
  have h2 := (ht.children_nodup e.2).filter fun c => decide (some c ≠ e.1)
  rcases hp : r.parent e.2 with _ | p
  · simpa using h2
  · simp only
    split
    · simpa using h2
    · rw [List.map_singleton, List.singleton_append, List.nodup_cons]
      refine ⟨?_, h2⟩
      intro h
      have h := (ht.children_iff _ _).1 (List.mem_filter.1 h).1
      exact not_below_parent ht h (Relation.ReflTransGen.single hp)

/-- The state of the search: `done` are the nodes dealt with, `es` is the queue. -/
structure Found (r : Robot G V P B) (x : ℕ) (done : List ℕ) (es : List (Option ℕ × ℕ)) : Prop where
  nodup : (done ++ es.map Prod.snd).Nodup
  mem : ∀ n ∈ done ++ es.map Prod.snd, n ∈ r.ids
  from_ : ∀ e ∈ es, ∀ m, Tow r x e.2 m ↔ e.1 = some m
  back : ∀ m ∈ done ++ es.map Prod.snd, ∀ n, Tow r x m n → n ∈ done
  closed : ∀ n ∈ done, ∀ m, Tow r x m n → m ∈ done ++ es.map Prod.snd
  start : x ∈ done ++ es.map Prod.snd

theorem found_step {r : Robot G V P B} (ht : IsTree r) {x : ℕ} {done : List ℕ} {e : Option ℕ × ℕ} {es : List (Option ℕ × ℕ)} (h : Found r x done (e :: es)) :
    Found r x (done ++ [e.2]) (es ++ (next r e).map fun c => (some e.2, c.1)) := by
  have hmn := mem_next ht (h.from_ e (by simp))
  have he : (e.1, e.2) = e := rfl
  have hmap : ((next r e).map fun c => (some e.2, c.1)).map Prod.snd = (next r e).map Prod.fst := by
    rw [List.map_map]
    rfl
  have hnext : ∀ m, m ∈ (next r e).map Prod.fst ↔ Tow r x m e.2 := by
    intro m
    rw [List.mem_map]
    constructor
    · rintro ⟨⟨m', b⟩, h1, rfl⟩
      exact ((hmn _ _).1 h1).1
    · intro h1
      by_cases hp : r.parent e.2 = some m
      · exact ⟨(m, true), (hmn _ _).2 ⟨h1, by simp [hp]⟩, rfl⟩
      · exact ⟨(m, false), (hmn _ _).2 ⟨h1, by simp [hp]⟩, rfl⟩
  have hlist : (done ++ [e.2]) ++ (es ++ (next r e).map fun c => (some e.2, c.1)).map Prod.snd =
      (done ++ (e :: es).map Prod.snd) ++ (next r e).map Prod.fst := by
    rw [List.map_append, hmap]
    simp
  have he_not : e.2 ∉ done := by
    intro hd
    have := h.nodup
    rw [List.nodup_append] at this
    exact this.2.2 _ hd e.2 (by simp) rfl
  refine ⟨?_, ?_, ?_, ?_, ?_, ?_⟩
  · rw [hlist, List.nodup_append]
    refine ⟨h.nodup, next_nodup ht e, ?_⟩
    rintro a ha b hb rfl
    exact he_not (h.back a ha e.2 ((hnext a).1 hb))
  · intro n hn
    rw [hlist, List.mem_append] at hn
    rcases hn with hn | hn
    · exact h.mem n hn
    · rcases (hnext n).1 hn with h1 | h1
      · exact (ht.parent_mem _ _ h1.1).2
      · exact (ht.parent_mem _ _ h1.1).1
  · intro e' he' m
    rcases List.mem_append.1 he' with he' | he'
    · exact h.from_ e' (by simp [he']) m
    · obtain ⟨c, hc, rfl⟩ := List.mem_map.1 he'
      have hc' := (hnext c.1).1 (List.mem_map.2 ⟨c, hc, rfl⟩)
      constructor
      · intro h1
        rw [tow_unique ht h1 hc']
      · intro h1
        cases h1
        exact hc'
  · intro m hm n hn
    rw [hlist, List.mem_append] at hm
    rcases hm with hm | hm
    · exact List.mem_append_left _ (h.back m hm n hn)
    · rw [tow_unique ht hn ((hnext m).1 hm)]
      simp
  · intro n hn m hm
    rw [hlist, List.mem_append]
    rcases List.mem_append.1 hn with hn | hn
    · exact .inl (h.closed n hn m hm)
    · rw [List.mem_singleton.1 hn] at hm
      exact .inr ((hnext m).2 hm)
  · rw [hlist]
    exact List.mem_append_left _ h.start

/-- The search ends and gives every node once, with its new children. -/
theorem search_found {r : Robot G V P B} (ht : IsTree r) {x : ℕ} (k : ℕ) : ∀ (done : List ℕ) (es : List (Option ℕ × ℕ)), Found r x done es → r.ids.length ≤ k + done.length →
    ∃ l, search r k es = some l ∧ Found r x (done ++ l.map Def.name) [] ∧
      ∀ d ∈ l, (d.children.map Prod.fst).Nodup ∧ ∀ m b, (m, b) ∈ d.children ↔ Tow r x m d.name ∧ (b = true ↔ r.parent d.name = some m) := by
  induction k with
  | zero =>
    intro done es h hk
    cases es with
    | nil => exact ⟨[], rfl, by simpa using h, by simp⟩
    | cons e es =>
      exfalso
      have := (h.nodup.subperm (fun n hn => h.mem n hn)).length_le
      simp at this
      omega
  | succ k ih =>
    intro done es h hk
    cases es with
    | nil => exact ⟨[], rfl, by simpa using h, by simp⟩
    | cons e es =>
      obtain ⟨l, h1, h2, h3⟩ := ih _ _ (found_step ht h) (by simp; omega)
      refine ⟨⟨e.2, next r e⟩ :: l, ?_, ?_, ?_⟩
      · rw [search, h1]
        rfl
      · simpa using h2
      · intro d hd
        rcases List.mem_cons.1 hd with rfl | hd
        · exact ⟨next_nodup ht e, mem_next ht (h.from_ e (by simp))⟩
        · exact h3 d hd

theorem found_start {r : Robot G V P B} (ht : IsTree r) {x : ℕ} (hx : x ∈ r.ids) : Found r x [] [(none, x)] where
  nodup := by simp
  mem := by simpa using hx
  from_ := by
    intro e he m
    rw [List.mem_singleton.1 he]
    constructor
    · intro h
      exact absurd h (tow_self ht)
    · intro h
      exact absurd h (by simp)
  back := by
    intro m hm n hn
    have : m = x := by simpa using hm
    rw [this] at hn
    exact absurd hn (tow_self ht)
  closed := by simp
  start := by simp

theorem found_all {r : Robot G V P B} (ht : IsTree r) {x : ℕ} {done : List ℕ} (h : Found r x done []) (n : ℕ) : n ∈ done ↔ n ∈ r.ids := by
  have hst : x ∈ done := by simpa using h.start
  have hcl : ∀ n ∈ done, ∀ m, Tow r x m n → m ∈ done := by simpa using h.closed
  have hx : x ∈ r.ids := h.mem x h.start
  constructor
  · intro hn
    exact h.mem n (by simpa using hn)
  · intro hn
    have hup : ∀ a, Below r x a → a ∈ done := by
      intro a ha
      induction ha with
      | refl => exact hst
      | tail ha hp ih => exact hcl _ ih _ (.inl ⟨hp, ha⟩)
    obtain ⟨rank, hr⟩ := ht.acyclic
    have hdown : ∀ k n, n ∈ r.ids → rank n ≤ k → n ∈ done := by
      intro k
      induction k with
      | zero =>
        intro n hn hk
        by_cases hb : Below r x n
        · exact hup n hb
        · rcases hp : r.parent n with _ | p
          · exfalso
            apply hb
            rw [ht.only_root n hn hp]
            exact below_root ht hx
          · have := hr _ _ hp
            omega
      | succ k ih =>
        intro n hn hk
        by_cases hb : Below r x n
        · exact hup n hb
        · rcases hp : r.parent n with _ | p
          · exfalso
            apply hb
            rw [ht.only_root n hn hp]
            exact below_root ht hx
          · have := hr _ _ hp
            exact hcl p (ih p (ht.parent_mem _ _ hp).2 (by omega)) n (.inr ⟨hp, hb⟩)
    exact hdown _ n hn le_rfl

end Simox.Rfc
