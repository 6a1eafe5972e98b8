import Verif.Dyn.Model
import Verif.Dyn.Spec
import Mathlib.Data.List.Nodup
import Mathlib.Tactic.Push
import Mathlib.Tactic.Tauto

/-! # Lemmas about switched off collisions -/

namespace Simox.Dyn

set_option linter.unusedSectionVars false

variable {ο : Type} [DecidableEq ο]

/-- A call, by the code. -/
def Coll.call (c : Coll ο) : Call ο → Coll ο
  | .off a b => c.off a b
  | .offAll a => c.offAll a
  | .on a b => c.on a b
  | .onAll a => c.onAll a
  | .reset a => c.reset a

/-- The calls of a history, from the first to the last. -/
def Coll.after : List (Call ο) → Coll ο
  | [] => Coll.empty
  | k :: h => (Coll.after h).call k

/-- No entry twice. -/
def Coll.Clean (c : Coll ο) : Prop := (∀ a, (c.pairs a).Nodup) ∧ c.all.Nodup

theorem mem_pushNew {m : Option ο → List (Option ο)} {a b x y : Option ο} :
    y ∈ pushNew m a b x ↔ y ∈ m x ∨ (x = a ∧ y = b) := by
  unfold pushNew
  by_cases h : b ∈ m a
  · rw [if_pos h]
    constructor
    · exact Or.inl
    · rintro (h' | ⟨rfl, rfl⟩)
      · exact h'
      · exact h
  · rw [if_neg h]
    by_cases hx : x = a
    · subst hx
      rw [Function.update_self, List.mem_append, List.mem_singleton]
      tauto
    · rw [Function.update_of_ne hx]
      tauto

theorem nodup_pushNew {m : Option ο → List (Option ο)} (h : ∀ x, (m x).Nodup) (a b x : Option ο) : (pushNew m a b x).Nodup := by
  unfold pushNew
  by_cases hb : b ∈ m a
  · rw [if_pos hb]
    exact h x
  · rw [if_neg hb]
    by_cases hx : x = a
    · subst hx
      rw [Function.update_self]
      refine List.nodup_append.2 ⟨h x, List.nodup_singleton b, ?_⟩
      intro y hy z hz
      rw [List.mem_singleton] at hz
      subst hz
      exact fun e => hb (e ▸ hy)
    · rw [Function.update_of_ne hx]
      exact h x

theorem mem_eraseOne {m : Option ο → List (Option ο)} (h : ∀ x, (m x).Nodup) {a b x y : Option ο} :
    y ∈ eraseOne m a b x ↔ y ∈ m x ∧ ¬ (x = a ∧ y = b) := by
  unfold eraseOne
  by_cases hx : x = a
  · subst hx
    rw [Function.update_self, (h x).mem_erase_iff]
    tauto
  · rw [Function.update_of_ne hx]
    tauto

theorem nodup_eraseOne {m : Option ο → List (Option ο)} (h : ∀ x, (m x).Nodup) (a b x : Option ο) : (eraseOne m a b x).Nodup := by
  unfold eraseOne
  by_cases hx : x = a
  · subst hx
    rw [Function.update_self]
    exact (h x).erase b
  · rw [Function.update_of_ne hx]
    exact h x

theorem mem_off {c : Coll ο} {a b x y : Option ο} : y ∈ (c.off a b).pairs x ↔ y ∈ c.pairs x ∨ SamePair x y a b := by
  unfold Coll.off
  simp only
  rw [mem_pushNew, mem_pushNew]
  unfold SamePair
  constructor
  · rintro ((h | ⟨rfl, rfl⟩) | ⟨rfl, rfl⟩)
    · exact Or.inl h
    · exact Or.inr (Or.inl ⟨rfl, rfl⟩)
    · exact Or.inr (Or.inr ⟨rfl, rfl⟩)
  · rintro (h | ⟨rfl, rfl⟩ | ⟨rfl, rfl⟩)
    · exact Or.inl (Or.inl h)
    · exact Or.inl (Or.inr ⟨rfl, rfl⟩)
    · exact Or.inr ⟨rfl, rfl⟩

theorem mem_on {c : Coll ο} (h : c.Clean) {a b x y : Option ο} : y ∈ (c.on a b).pairs x ↔ y ∈ c.pairs x ∧ ¬ SamePair x y a b := by
  unfold Coll.on
  simp only
  rw [mem_eraseOne (nodup_eraseOne h.1 a b), mem_eraseOne h.1]
  unfold SamePair
  constructor
  · rintro ⟨⟨h1, h2⟩, h3⟩
    refine ⟨h1, ?_⟩
    rintro (⟨rfl, rfl⟩ | ⟨rfl, rfl⟩)
    · exact h2 ⟨rfl, rfl⟩
    · exact h3 ⟨rfl, rfl⟩
  · rintro ⟨h1, h2⟩
    refine ⟨⟨h1, ?_⟩, ?_⟩
    · rintro ⟨rfl, rfl⟩
      exact h2 (Or.inl ⟨rfl, rfl⟩)
    · rintro ⟨rfl, rfl⟩
      exact h2 (Or.inr ⟨rfl, rfl⟩)

theorem clean_call {c : Coll ο} (h : c.Clean) (k : Call ο) : (c.call k).Clean := by
  cases k with
  | off a b => exact ⟨fun x => nodup_pushNew (nodup_pushNew h.1 a b) b a x, h.2⟩
  | offAll a =>
    show (c.offAll a).Clean
    unfold Coll.offAll
    by_cases ha : a ∈ c.all
    · rw [if_pos ha]
      exact h
    · rw [if_neg ha]
      refine ⟨h.1, List.nodup_append.2 ⟨h.2, List.nodup_singleton a, ?_⟩⟩
      intro y hy z hz
      rw [List.mem_singleton] at hz
      subst hz
      exact fun e => ha (e ▸ hy)
  | on a b => exact ⟨fun x => nodup_eraseOne (nodup_eraseOne h.1 a b) b a x, h.2⟩
  | onAll a => exact ⟨h.1, h.2.erase a⟩
  | reset a =>
    refine ⟨fun x => ?_, h.2.erase a⟩
    show (if x = a then [] else (c.pairs x).erase a).Nodup
    by_cases hx : x = a
    · rw [if_pos hx]
      exact List.nodup_nil
    · rw [if_neg hx]
      exact (h.1 x).erase a

theorem clean_after (h : List (Call ο)) : (Coll.after h).Clean := by
  induction h with
  | nil => exact ⟨fun _ => List.nodup_nil, List.nodup_nil⟩
  | cons k h ih => exact clean_call ih k

theorem mem_after (h : List (Call ο)) (a b : Option ο) : b ∈ (Coll.after h).pairs a ↔ PairOff a b h := by
  induction h with
  | nil => exact ⟨fun h => (by cases h), fun h => h.elim⟩
  | cons k h ih =>
    cases k with
    | off x y =>
      show b ∈ ((Coll.after h).off x y).pairs a ↔ SamePair a b x y ∨ PairOff a b h
      rw [mem_off, ih]
      tauto
    | on x y =>
      show b ∈ ((Coll.after h).on x y).pairs a ↔ ¬ SamePair a b x y ∧ PairOff a b h
      rw [mem_on (clean_after h), ih]
      tauto
    | offAll x =>
      show b ∈ ((Coll.after h).offAll x).pairs a ↔ PairOff a b h
      rw [← ih]
      unfold Coll.offAll
      by_cases hx : x ∈ (Coll.after h).all
      · rw [if_pos hx]
      · rw [if_neg hx]
    | onAll x => exact ih
    | reset x =>
      show b ∈ (if a = x then [] else ((Coll.after h).pairs a).erase x) ↔ (x ≠ a ∧ x ≠ b) ∧ PairOff a b h
      by_cases ha : a = x
      · rw [if_pos ha]
        exact ⟨fun h => (by cases h), fun h => (h.1.1 ha.symm).elim⟩
      · rw [if_neg ha, ((clean_after h).1 a).mem_erase_iff, ih]
        constructor
        · rintro ⟨h1, h2⟩
          exact ⟨⟨fun e => ha e.symm, fun e => h1 e.symm⟩, h2⟩
        · rintro ⟨⟨_, h1⟩, h2⟩
          exact ⟨fun e => h1 e.symm, h2⟩

theorem mem_all_after (h : List (Call ο)) (a : Option ο) : a ∈ (Coll.after h).all ↔ ObjectOff a h := by
  induction h with
  | nil => exact ⟨fun h => (by cases h), fun h => h.elim⟩
  | cons k h ih =>
    cases k with
    | off x y => exact ih
    | on x y => exact ih
    | offAll x =>
      show a ∈ ((Coll.after h).offAll x).all ↔ x = a ∨ ObjectOff a h
      unfold Coll.offAll
      by_cases hx : x ∈ (Coll.after h).all
      · rw [if_pos hx, ih]
        constructor
        · exact Or.inr
        · rintro (rfl | h')
          · exact ih.1 hx
          · exact h'
      · rw [if_neg hx]
        show a ∈ (Coll.after h).all ++ [x] ↔ _
        rw [List.mem_append, List.mem_singleton, ih]
        constructor
        · rintro (h' | rfl)
          · exact Or.inr h'
          · exact Or.inl rfl
        · rintro (rfl | h')
          · exact Or.inr rfl
          · exact Or.inl h'
    | onAll x =>
      show a ∈ (Coll.after h).all.erase x ↔ x ≠ a ∧ ObjectOff a h
      rw [(clean_after h).2.mem_erase_iff, ih]
      exact and_congr_left fun _ => ne_comm
    | reset x =>
      show a ∈ (Coll.after h).all.erase x ↔ x ≠ a ∧ ObjectOff a h
      rw [(clean_after h).2.mem_erase_iff, ih]
      exact and_congr_left fun _ => ne_comm

theorem pairOff_symm (a b : Option ο) (h : List (Call ο)) : PairOff a b h → PairOff b a h := by
  have hs : ∀ x y : Option ο, SamePair a b x y → SamePair b a x y := fun x y h => h.elim Or.inr Or.inl
  have hs' : ∀ x y : Option ο, SamePair b a x y → SamePair a b x y := fun x y h => h.elim Or.inr Or.inl
  induction h with
  | nil => exact id
  | cons k h ih =>
    cases k with
    | off x y => exact fun h' => h'.imp (hs x y) ih
    | on x y => exact fun h' => ⟨fun e => h'.1 (hs' x y e), ih h'.2⟩
    | offAll x => exact ih
    | onAll x => exact ih
    | reset x => exact fun h' => ⟨⟨h'.1.2, h'.1.1⟩, ih h'.2⟩

/-- The answer of the check, from the lists. -/
theorem enabled_iff (c : Coll ο) (a b : Option ο) :
    c.enabled a b = true ↔ a = none ∨ b = none ∨ (a ∉ c.all ∧ b ∉ c.all ∧ b ∉ c.pairs a ∧ a ∉ c.pairs b) := by
  unfold Coll.enabled Coll.enabledAll
  by_cases h0 : a = none ∨ b = none
  · rw [if_pos h0]
    simp only [true_iff]
    rcases h0 with h | h
    · exact Or.inl h
    · exact Or.inr (Or.inl h)
  · rw [if_neg h0]
    push Not at h0
    by_cases h1 : a ∈ c.all
    · simp [h1, h0.1, h0.2]
    · by_cases h2 : b ∈ c.all
      · simp [h1, h2, h0.1, h0.2]
      · by_cases h3 : b ∈ c.pairs a
        · simp [h1, h2, h3, h0.1, h0.2]
        · by_cases h4 : a ∈ c.pairs b
          · simp [h1, h2, h3, h4, h0.1, h0.2]
          · simp [h1, h2, h3, h4]

end Simox.Dyn
