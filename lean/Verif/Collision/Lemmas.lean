import Verif.Collision.Spec
import Mathlib.Data.List.Induction

/-!
# Helper lemmas for object sets and the collision manager
-/

set_option linter.unusedSectionVars false

namespace Simox.Collision

open Spec

variable {D W : Type}

/-! ## Object sets -/

theorem SetObj.add_true (w : World D W) (s : SetObj) (o : Nat) (hc : w.objChecker o = s.checker)
    (hn : o ∉ s.objs) : s.add w o = ({ s with objs := s.objs ++ [o] }, true) := by
  unfold SetObj.add
  rw [if_neg (by simp [hc]), if_neg hn]

theorem SetObj.add_false (w : World D W) (s : SetObj) (o : Nat)
    (h : ¬(w.objChecker o = s.checker ∧ o ∉ s.objs)) : s.add w o = (s, false) := by
  unfold SetObj.add
  by_cases hc : s.checker = w.objChecker o
  · have : o ∈ s.objs := by
      by_cases hm : o ∈ s.objs
      · exact hm
      · exact absurd ⟨hc.symm, hm⟩ h
    rw [if_neg (by simp [hc]), if_pos this]
  · rw [if_pos hc]

theorem SetObj.add_ok (w : World D W) (s : SetObj) (o : Nat) (h : SetOK w s) :
    SetOK w (s.add w o).1 := by
  by_cases hc : w.objChecker o = s.checker ∧ o ∉ s.objs
  · rw [SetObj.add_true w s o hc.1 hc.2]
    refine ⟨?_, ?_⟩
    · show (s.objs ++ [o]).Nodup
      rw [List.nodup_append]
      refine ⟨h.1, by simp, ?_⟩
      intro a ha b hb heq
      simp at hb
      subst hb heq
      exact hc.2 ha
    · intro x hx
      rcases List.mem_append.mp hx with hx | hx
      · exact h.2 x hx
      · simp at hx; subst hx; exact hc.1
  · rw [SetObj.add_false w s o hc]; exact h

theorem SetObj.add_checker (w : World D W) (s : SetObj) (o : Nat) :
    (s.add w o).1.checker = s.checker := by
  unfold SetObj.add
  split
  · rfl
  · split <;> rfl

theorem SetObj.addLoop_ok (w : World D W) (os : List Nat) :
    ∀ s : SetObj, SetOK w s → SetOK w (s.addLoop w os).1 := by
  induction os with
  | nil => intro s h; exact h
  | cons o os ih =>
    intro s h
    have h1 := SetObj.add_ok w s o h
    rw [SetObj.addLoop]
    revert h1
    rcases hadd : s.add w o with ⟨s', b⟩
    intro h1
    cases b
    · exact h1
    · exact ih s' h1

theorem SetObj.addNodes_ok (w : World D W) (os : List Nat) :
    ∀ s : SetObj, SetOK w s → SetOK w (s.addNodes w os).1 := by
  induction os with
  | nil => intro s h; exact h
  | cons o os ih =>
    intro s h
    have h1 := SetObj.add_ok w s o h
    rw [SetObj.addNodes]
    split
    · exact ih s h
    · revert h1
      rcases hadd : s.add w o with ⟨s', b⟩
      intro h1
      cases b
      · exact h1
      · exact ih s' h1

theorem SetObj.remove_ok (w : World D W) (s : SetObj) (o : Nat) (h : SetOK w s) :
    SetOK w (s.remove o).1 := by
  unfold SetObj.remove
  split
  · exact ⟨h.1.erase o, fun x hx => h.2 x (List.mem_of_mem_erase hx)⟩
  · exact h

/-! ## The checker on sets -/

theorem checkOne_iff (w : World D W) (x : Nat) (ys : List Nat) :
    checkOne w x ys = true ↔ ∃ y ∈ ys, w.collide x y = true := by
  induction ys with
  | nil => simp [checkOne]
  | cons y ys ih =>
    rw [checkOne]
    by_cases h : w.collide x y = true
    · simp [h]
    · rw [if_neg h, ih]; simp [h]

theorem checkAll_iff (w : World D W) (xs ys : List Nat) :
    checkAll w xs ys = true ↔ ∃ x ∈ xs, ∃ y ∈ ys, w.collide x y = true := by
  induction xs with
  | nil => simp [checkAll]
  | cons x xs ih =>
    rw [checkAll]
    by_cases h : checkOne w x ys = true
    · rw [if_pos h]; have := (checkOne_iff w x ys).mp h; simp [this]
    · rw [if_neg h, ih]
      have h' : ¬∃ y ∈ ys, w.collide x y = true := fun h2 => h ((checkOne_iff w x ys).mpr h2)
      simp only [List.mem_cons, exists_eq_or_imp]
      constructor
      · exact Or.inr
      · rintro (h2 | h2)
        · exact absurd h2 h'
        · exact h2

theorem checkSets_iff (w : World D W) (s t : SetObj) : checkSets w s t = true ↔
    ∃ x ∈ s.objs, ∃ y ∈ t.objs, ∃ p q, w.colModel x = some p ∧ w.colModel y = some q ∧
      w.collide p q = true := by
  have key : checkAll w (s.models w) (t.models w) = true ↔ ∃ x ∈ s.objs, ∃ y ∈ t.objs, ∃ p q,
      w.colModel x = some p ∧ w.colModel y = some q ∧ w.collide p q = true := by
    rw [checkAll_iff]
    simp only [SetObj.models, List.mem_filterMap]
    constructor
    · rintro ⟨p, ⟨x, hx, hp⟩, q, ⟨y, hy, hq⟩, h⟩
      exact ⟨x, hx, y, hy, p, q, hp, hq, h⟩
    · rintro ⟨x, hx, y, hy, p, q, hp, hq, h⟩
      exact ⟨p, ⟨x, hx, hp⟩, q, ⟨y, hy, hq⟩, h⟩
  rw [← key]
  unfold checkSets
  dsimp only
  generalize s.models w = a
  generalize t.models w = b
  cases a with
  | nil => simp [checkAll]
  | cons x xs =>
    cases b with
    | nil =>
      rw [if_neg (by simp), if_pos (by simp)]
      constructor
      · intro h; cases h
      · intro h
        obtain ⟨_, _, _, h, _⟩ := (checkAll_iff w _ _).mp h
        cases h
    | cons y ys => rw [if_neg (by simp), if_neg (by simp)]

section dist

variable [LinearOrder D]

/-- What a minimum loop guarantees: the result is below the start value and every candidate, and it is the
start value or a candidate. -/
structure MinOf (acc : D × Option W) (C : D × Option W → Prop) (r : D × Option W) : Prop where
  le_acc : r.1 ≤ acc.1
  le_cand : ∀ x, C x → r.1 ≤ x.1
  src : r = acc ∨ C r

theorem distOne_min (w : World D W) (x : Nat) (ys : List Nat) : ∀ acc : D × Option W,
    MinOf acc (fun r => ∃ y ∈ ys, r = ((w.closest x y).1, some (w.closest x y).2))
      (distOne w x ys acc) := by
  induction ys with
  | nil => intro acc; exact ⟨le_refl _, (by rintro x ⟨_, h, _⟩; cases h), Or.inl rfl⟩
  | cons y ys ih =>
    intro acc
    rw [distOne]
    by_cases h : (w.closest x y).1 ≤ acc.1
    · rw [if_pos h]
      obtain ⟨h1, h2, h3⟩ := ih ((w.closest x y).1, some (w.closest x y).2)
      refine ⟨le_trans h1 h, ?_, ?_⟩
      · rintro r ⟨z, hz, rfl⟩
        rcases List.mem_cons.mp hz with rfl | hz
        · exact h1
        · exact h2 _ ⟨z, hz, rfl⟩
      · rcases h3 with h3 | ⟨z, hz, h3⟩
        · exact Or.inr ⟨y, List.mem_cons_self .., h3⟩
        · exact Or.inr ⟨z, List.mem_cons_of_mem _ hz, h3⟩
    · rw [if_neg h]
      obtain ⟨h1, h2, h3⟩ := ih acc
      refine ⟨h1, ?_, ?_⟩
      · rintro r ⟨z, hz, rfl⟩
        rcases List.mem_cons.mp hz with rfl | hz
        · exact le_trans h1 (le_of_lt (not_le.mp h))
        · exact h2 _ ⟨z, hz, rfl⟩
      · rcases h3 with h3 | ⟨z, hz, h3⟩
        · exact Or.inl h3
        · exact Or.inr ⟨z, List.mem_cons_of_mem _ hz, h3⟩

theorem distOne_ne_none (w : World D W) (x : Nat) (ys : List Nat) : ∀ acc : D × Option W,
    acc.2 ≠ none → (distOne w x ys acc).2 ≠ none := by
  induction ys with
  | nil => intro acc h; exact h
  | cons y ys ih =>
    intro acc h
    rw [distOne]
    apply ih
    split
    · simp
    · exact h

theorem distAll_min (w : World D W) (xs ys : List Nat) : ∀ acc : D × Option W,
    MinOf acc (fun r => ∃ x ∈ xs, ∃ y ∈ ys, r = ((w.closest x y).1, some (w.closest x y).2))
      (distAll w xs ys acc) := by
  induction xs with
  | nil => intro acc; exact ⟨le_refl _, (by rintro x ⟨_, h, _⟩; cases h), Or.inl rfl⟩
  | cons x xs ih =>
    intro acc
    rw [distAll]
    obtain ⟨h1, h2, h3⟩ := ih (distOne w x ys acc)
    obtain ⟨g1, g2, g3⟩ := distOne_min w x ys acc
    refine ⟨le_trans h1 g1, ?_, ?_⟩
    · rintro r ⟨z, hz, y, hy, rfl⟩
      rcases List.mem_cons.mp hz with rfl | hz
      · exact le_trans h1 (g2 _ ⟨y, hy, rfl⟩)
      · exact h2 _ ⟨z, hz, y, hy, rfl⟩
    · rcases h3 with h3 | ⟨z, hz, y, hy, h3⟩
      · rw [h3]
        rcases g3 with g3 | ⟨y, hy, g3⟩
        · exact Or.inl g3
        · exact Or.inr ⟨x, List.mem_cons_self .., y, hy, g3⟩
      · exact Or.inr ⟨z, List.mem_cons_of_mem _ hz, y, hy, h3⟩

theorem models_ne_nil_iff (w : World D W) (s : SetObj) : (s.models w).length ≠ 0 ↔ HasMesh w s := by
  rw [Ne, List.length_eq_zero_iff]
  constructor
  · intro h
    obtain ⟨p, hp⟩ := List.exists_mem_of_ne_nil _ h
    obtain ⟨x, hx, hxp⟩ := List.mem_filterMap.mp hp
    exact ⟨x, hx, p, hxp⟩
  · rintro ⟨x, hx, p, hp⟩ h
    have : p ∈ s.models w := List.mem_filterMap.mpr ⟨x, hx, hp⟩
    rw [h] at this; cases this

theorem distSets_of_mesh (w : World D W) (s t : SetObj) (hs : HasMesh w s) (ht : HasMesh w t) :
    MinOf (w.fltMax, none) (fun r => ∃ v, IsDist w s t (r.1, v) ∧ r.2 = some v) (distSets w s t) := by
  unfold distSets
  dsimp only
  rw [if_neg (by
    rw [not_or]; exact ⟨(models_ne_nil_iff w s).mpr hs, (models_ne_nil_iff w t).mpr ht⟩)]
  obtain ⟨h1, h2, h3⟩ := distAll_min w (s.models w) (t.models w) (w.fltMax, none)
  refine ⟨h1, ?_, ?_⟩
  · rintro ⟨d, o⟩ ⟨v, ⟨x, hx, y, hy, p, q, hp, hq, h⟩, ho⟩
    have := h2 _ ⟨p, List.mem_filterMap.mpr ⟨x, hx, hp⟩, q, List.mem_filterMap.mpr ⟨y, hy, hq⟩, rfl⟩
    rw [← h] at this
    exact this
  · rcases h3 with h3 | ⟨p, hp, q, hq, h3⟩
    · exact Or.inl h3
    · obtain ⟨x, hx, hxp⟩ := List.mem_filterMap.mp hp
      obtain ⟨y, hy, hyq⟩ := List.mem_filterMap.mp hq
      rw [h3]
      exact Or.inr ⟨_, ⟨x, hx, y, hy, p, q, hxp, hyq, rfl⟩, rfl⟩

theorem distSets_no_mesh (w : World D W) (s t : SetObj) (h : ¬HasMesh w s ∨ ¬HasMesh w t) :
    distSets w s t = (w.negOne, none) := by
  unfold distSets
  dsimp only
  rw [if_pos]
  rcases h with h | h
  · left
    by_cases hc : (s.models w).length = 0
    · exact hc
    · exact absurd ((models_ne_nil_iff w s).mp hc) h
  · right
    by_cases hc : (t.models w).length = 0
    · exact hc
    · exact absurd ((models_ne_nil_iff w t).mp hc) h

theorem better_le (r acc : D × Option W) : (better r acc).1 ≤ acc.1 ∧ (better r acc).1 ≤ r.1 ∧
    (better r acc = acc ∨ better r acc = r) := by
  unfold better
  split
  · rename_i h; exact ⟨le_of_lt h, le_refl _, Or.inr rfl⟩
  · rename_i h; exact ⟨le_refl _, not_lt.mp h, Or.inl rfl⟩

theorem distList_min (w : World D W) (s : St) (m : Nat) (cs : List Nat) : ∀ acc : D × Option W,
    MinOf acc (fun r => ∃ c ∈ cs, r = distSets w (s.set m) (s.set c)) (distList w s m cs acc) := by
  induction cs with
  | nil => intro acc; exact ⟨le_refl _, (by rintro x ⟨_, h, _⟩; cases h), Or.inl rfl⟩
  | cons c cs ih =>
    intro acc
    rw [distList]
    obtain ⟨h1, h2, h3⟩ := ih (better (distSets w (s.set m) (s.set c)) acc)
    obtain ⟨b1, b2, b3⟩ := better_le (distSets w (s.set m) (s.set c)) acc
    refine ⟨le_trans h1 b1, ?_, ?_⟩
    · rintro r ⟨z, hz, rfl⟩
      rcases List.mem_cons.mp hz with rfl | hz
      · exact le_trans h1 b2
      · exact h2 _ ⟨z, hz, rfl⟩
    · rcases h3 with h3 | ⟨z, hz, h3⟩
      · rw [h3]
        rcases b3 with b3 | b3
        · exact Or.inl b3
        · exact Or.inr ⟨c, List.mem_cons_self .., b3⟩
      · exact Or.inr ⟨z, List.mem_cons_of_mem _ hz, h3⟩

/-- The pair is in the map. -/
def InMap (l : List (Nat × List Nat)) (a b : Nat) : Prop := ∃ v, (a, v) ∈ l ∧ b ∈ v

/-- The pair loop; candidates that are only the inner start value are not better than the outer one. -/
theorem distPairs_min (w : World D W) (s : St) (l : List (Nat × List Nat)) : ∀ acc : D × Option W,
    acc.1 ≤ w.fltMax →
    MinOf acc (fun r => ∃ a b, InMap l a b ∧ r = distSets w (s.set a) (s.set b))
      (distPairs w s l acc) := by
  induction l with
  | nil => intro acc _; exact ⟨le_refl _, (by rintro x ⟨_, _, ⟨_, h, _⟩, _⟩; cases h), Or.inl rfl⟩
  | cons kv l ih =>
    obtain ⟨k, v⟩ := kv
    intro acc hacc
    rw [distPairs]
    generalize hin : distList w s k v (w.fltMax, none) = inner
    have hi := distList_min w s k v (w.fltMax, none)
    rw [hin] at hi
    obtain ⟨i1, i2, i3⟩ := hi
    obtain ⟨b1, b2, b3⟩ := better_le inner acc
    obtain ⟨h1, h2, h3⟩ := ih (better inner acc) (le_trans b1 hacc)
    refine ⟨le_trans h1 b1, ?_, ?_⟩
    · rintro r ⟨a, b, ⟨u, hu, hb⟩, rfl⟩
      rcases List.mem_cons.mp hu with hu | hu
      · cases hu
        exact le_trans h1 (le_trans b2 (i2 _ ⟨b, hb, rfl⟩))
      · exact h2 _ ⟨a, b, ⟨u, hu, hb⟩, rfl⟩
    · rcases h3 with h3 | ⟨a, b, ⟨u, hu, hb⟩, h3⟩
      · rw [h3]
        by_cases hlt : inner.1 < acc.1
        · have hb' : better inner acc = inner := if_pos hlt
          rw [hb']
          rcases i3 with i3 | ⟨c, hc, i3⟩
          · rw [i3] at hlt
            exact absurd hacc (not_le.mpr hlt)
          · exact Or.inr ⟨k, c, ⟨v, List.mem_cons_self .., hc⟩, i3⟩
        · exact Or.inl (if_neg hlt)
      · exact Or.inr ⟨a, b, ⟨u, List.mem_cons_of_mem _ hu, hb⟩, h3⟩

theorem distModels_min (w : World D W) (s : St) (m : Nat) (cs : List Nat) : ∀ acc : D,
    distModels w s m cs acc ≤ acc ∧
    (∀ c ∈ cs, c ≠ m → distModels w s m cs acc ≤ (distSets w (s.set c) (s.set m)).1) ∧
    (distModels w s m cs acc = acc ∨
      ∃ c ∈ cs, c ≠ m ∧ distModels w s m cs acc = (distSets w (s.set c) (s.set m)).1) := by
  induction cs with
  | nil => intro acc; exact ⟨le_refl _, (by intro c h; cases h), Or.inl rfl⟩
  | cons c cs ih =>
    intro acc
    rw [distModels]
    by_cases hm : m ≠ c
    · rw [if_pos hm]
      dsimp only
      generalize hd : (distSets w (s.set c) (s.set m)).1 = d
      obtain ⟨h1, h2, h3⟩ := ih (if d < acc then d else acc)
      have e1 : (if d < acc then d else acc) ≤ acc := by
        split
        · rename_i h; exact le_of_lt h
        · exact le_refl _
      have e2 : (if d < acc then d else acc) ≤ d := by
        split
        · exact le_refl _
        · rename_i h; exact not_lt.mp h
      refine ⟨le_trans h1 e1, ?_, ?_⟩
      · intro z hz hzm
        rcases List.mem_cons.mp hz with rfl | hz
        · rw [hd]; exact le_trans h1 e2
        · exact h2 z hz hzm
      · rcases h3 with h3 | ⟨z, hz, hzm, h3⟩
        · rw [h3]
          by_cases hlt : d < acc
          · rw [if_pos hlt]
            exact Or.inr ⟨c, List.mem_cons_self .., fun h => hm h.symm, hd.symm⟩
          · rw [if_neg hlt]; exact Or.inl rfl
        · exact Or.inr ⟨z, List.mem_cons_of_mem _ hz, hzm, h3⟩
    · rw [if_neg hm]
      obtain ⟨h1, h2, h3⟩ := ih acc
      refine ⟨h1, ?_, ?_⟩
      · intro z hz hzm
        rcases List.mem_cons.mp hz with rfl | hz
        · exact absurd (fun h => hzm h.symm) hm
        · exact h2 z hz hzm
      · rcases h3 with h3 | ⟨z, hz, hzm, h3⟩
        · exact Or.inl h3
        · exact Or.inr ⟨z, List.mem_cons_of_mem _ hz, hzm, h3⟩

end dist

/-! ## The manager's data -/

theorem addToMap_iff (m1 m2 : Nat) (l : List (Nat × List Nat)) (a b : Nat) :
    InMap (addToMap m1 m2 l) a b ↔ InMap l a b ∨ (a = m1 ∧ b = m2) := by
  induction l with
  | nil =>
    constructor
    · rintro ⟨v, hv, hb⟩
      simp [addToMap] at hv
      obtain ⟨rfl, rfl⟩ := hv
      simp at hb
      exact Or.inr ⟨rfl, hb⟩
    · rintro (⟨_, h, _⟩ | ⟨rfl, rfl⟩)
      · cases h
      · exact ⟨[b], by simp [addToMap], by simp⟩
  | cons kv l ih =>
    obtain ⟨k, v⟩ := kv
    rw [addToMap]
    by_cases h : k = m1
    · rw [if_pos h]
      constructor
      · rintro ⟨u, hu, hb⟩
        rcases List.mem_cons.mp hu with hu | hu
        · cases hu
          rcases List.mem_append.mp hb with hb | hb
          · exact Or.inl ⟨v, List.mem_cons_self .., hb⟩
          · simp at hb; exact Or.inr ⟨h, hb⟩
        · exact Or.inl ⟨u, List.mem_cons_of_mem _ hu, hb⟩
      · rintro (⟨u, hu, hb⟩ | ⟨rfl, rfl⟩)
        · rcases List.mem_cons.mp hu with hu | hu
          · cases hu
            exact ⟨_, List.mem_cons_self .., List.mem_append_left _ hb⟩
          · exact ⟨u, List.mem_cons_of_mem _ hu, hb⟩
        · subst h
          exact ⟨_, List.mem_cons_self .., by simp⟩
    · rw [if_neg h]
      constructor
      · rintro ⟨u, hu, hb⟩
        rcases List.mem_cons.mp hu with hu | hu
        · cases hu
          exact Or.inl ⟨_, List.mem_cons_self .., hb⟩
        · rcases ih.mp ⟨u, hu, hb⟩ with ⟨u', hu', hb'⟩ | h2
          · exact Or.inl ⟨u', List.mem_cons_of_mem _ hu', hb'⟩
          · exact Or.inr h2
      · rintro (⟨u, hu, hb⟩ | h2)
        · rcases List.mem_cons.mp hu with hu | hu
          · cases hu; exact ⟨_, List.mem_cons_self .., hb⟩
          · obtain ⟨u', hu', hb'⟩ := ih.mpr (Or.inl ⟨u, hu, hb⟩)
            exact ⟨u', List.mem_cons_of_mem _ hu', hb'⟩
        · obtain ⟨u', hu', hb'⟩ := ih.mpr (Or.inr h2)
          exact ⟨u', List.mem_cons_of_mem _ hu', hb'⟩

theorem hasSet_iff (s : St) (m : Nat) : hasSceneObjectSet s m = true ↔ m ∈ s.models := by
  unfold hasSceneObjectSet
  simp

/-- A member holds exactly the one object that `m` holds. -/
def SameSingle (s : St) (c m : Nat) : Prop := ∃ o, (s.set c).objs = [o] ∧ (s.set m).objs = [o]

theorem single_iff (l r : List Nat) :
    (r.length == 1 && l.length == 1 && l[0]? == r[0]?) = true ↔ ∃ o, l = [o] ∧ r = [o] := by
  constructor
  · intro h
    simp only [Bool.and_eq_true, beq_iff_eq] at h
    obtain ⟨⟨h1, h2⟩, h3⟩ := h
    obtain ⟨a, rfl⟩ := List.length_eq_one_iff.mp h1
    obtain ⟨b, rfl⟩ := List.length_eq_one_iff.mp h2
    simp at h3
    exact ⟨a, by rw [h3], rfl⟩
  · rintro ⟨o, rfl, rfl⟩
    simp

theorem knowsSet_iff (s : St) (m : Nat) :
    knowsSet s m = true ↔ m ∈ s.models ∨ ∃ c ∈ s.models, SameSingle s c m := by
  unfold knowsSet
  rw [List.any_eq_true]
  constructor
  · rintro ⟨c, hc, h⟩
    rw [Bool.or_eq_true] at h
    rcases h with h | h
    · rw [beq_iff_eq] at h; subst h; exact Or.inl hc
    · exact Or.inr ⟨c, hc, (single_iff _ _).mp h⟩
  · rintro (h | ⟨c, hc, h⟩)
    · exact ⟨m, h, by simp⟩
    · exact ⟨c, hc, by rw [Bool.or_eq_true]; exact Or.inr ((single_iff _ _).mpr h)⟩

/-- Registering a set as a member if it is not known yet. -/
def enter (grow : Nat → Nat) (s : St) (m : Nat) : St × Bool :=
  if !knowsSet s m then pushModel grow s m else (s, false)

theorem enter_heap (grow : Nat → Nat) (s : St) (m : Nat) :
    (enter grow s m).1.heap = s.heap ∧ (enter grow s m).1.pairs = s.pairs ∧
    (enter grow s m).1.checker = s.checker := by
  unfold enter pushModel
  split
  · split <;> exact ⟨rfl, rfl, rfl⟩
  · exact ⟨rfl, rfl, rfl⟩

theorem enter_models (grow : Nat → Nat) (s : St) (m : Nat) :
    (enter grow s m).1.models = if knowsSet s m = true then s.models else s.models ++ [m] := by
  unfold enter pushModel
  cases knowsSet s m with
  | true => rfl
  | false =>
    simp only [Bool.not_false, if_true]
    split <;> rfl

theorem set_congr {s t : St} (h : t.heap = s.heap) (m : Nat) : t.set m = s.set m := by
  unfold St.set; rw [h]

theorem enter_known (grow : Nat → Nat) (s : St) (m : Nat) :
    knowsSet (enter grow s m).1 m = true ∧
    ∀ c, knowsSet s c = true → knowsSet (enter grow s m).1 c = true := by
  have hh := (enter_heap grow s m).1
  have hm := enter_models grow s m
  have mono : ∀ c, knowsSet s c = true → knowsSet (enter grow s m).1 c = true := by
    intro c hc
    rw [knowsSet_iff] at hc ⊢
    have hsub : ∀ x, x ∈ s.models → x ∈ (enter grow s m).1.models := by
      intro x hx
      rw [hm]
      split
      · exact hx
      · exact List.mem_append_left _ hx
    rcases hc with hc | ⟨d, hd, o, h1, h2⟩
    · exact Or.inl (hsub c hc)
    · exact Or.inr ⟨d, hsub d hd, o, by rw [set_congr hh]; exact h1, by rw [set_congr hh]; exact h2⟩
  refine ⟨?_, mono⟩
  by_cases h : knowsSet s m = true
  · exact mono m h
  · rw [knowsSet_iff, hm, if_neg h]
    exact Or.inl (by simp)

theorem addPair_eq (grow : Nat → Nat) (s : St) (m1 m2 : Nat) :
    addPair grow s m1 m2 =
      ({ (enter grow (enter grow s m1).1 m2).1 with pairs := addToMap m1 m2 s.pairs },
        (enter grow s m1).2 || (enter grow (enter grow s m1).1 m2).2) := by
  have p : (enter grow (enter grow s m1).1 m2).1.pairs = s.pairs :=
    (enter_heap grow _ m2).2.1.trans (enter_heap grow s m1).2.1
  rw [← p]
  rfl

theorem addPair_heap (grow : Nat → Nat) (s : St) (m1 m2 : Nat) :
    (addPair grow s m1 m2).1.heap = s.heap ∧ (addPair grow s m1 m2).1.checker = s.checker := by
  rw [addPair_eq]
  exact ⟨by rw [show ({ (enter grow (enter grow s m1).1 m2).1 with pairs := addToMap m1 m2 s.pairs } : St).heap
      = (enter grow (enter grow s m1).1 m2).1.heap from rfl, (enter_heap grow _ m2).1,
      (enter_heap grow s m1).1],
    by rw [show ({ (enter grow (enter grow s m1).1 m2).1 with pairs := addToMap m1 m2 s.pairs } : St).checker
      = (enter grow (enter grow s m1).1 m2).1.checker from rfl, (enter_heap grow _ m2).2.2,
      (enter_heap grow s m1).2.2]⟩

theorem addPair_pairs (grow : Nat → Nat) (s : St) (m1 m2 a b : Nat) :
    InMap (addPair grow s m1 m2).1.pairs a b ↔ InMap s.pairs a b ∨ (a = m1 ∧ b = m2) := by
  rw [addPair_eq]
  exact addToMap_iff m1 m2 s.pairs a b

theorem addPair_models (grow : Nat → Nat) (s : St) (m1 m2 : Nat) :
    (addPair grow s m1 m2).1.models = (enter grow (enter grow s m1).1 m2).1.models := by
  rw [addPair_eq]

/-- Whatever happens to the pairs, knowledge only depends on the heap and the members. -/
theorem knowsSet_congr {s t : St} (hh : t.heap = s.heap) (hm : t.models = s.models) (m : Nat) :
    knowsSet t m = knowsSet s m := by
  unfold knowsSet
  rw [hm]
  congr 1
  funext c
  rw [set_congr hh, set_congr hh]

theorem addPair_known (grow : Nat → Nat) (s : St) (m1 m2 : Nat) :
    knowsSet (addPair grow s m1 m2).1 m1 = true ∧ knowsSet (addPair grow s m1 m2).1 m2 = true ∧
    ∀ c, knowsSet s c = true → knowsSet (addPair grow s m1 m2).1 c = true := by
  have hh : (addPair grow s m1 m2).1.heap = (enter grow (enter grow s m1).1 m2).1.heap := by
    rw [addPair_eq]
  have e := fun c => knowsSet_congr hh (addPair_models grow s m1 m2) c
  refine ⟨?_, ?_, fun c hc => ?_⟩
  · rw [e]; exact (enter_known grow _ m2).2 _ (enter_known grow s m1).1
  · rw [e]; exact (enter_known grow _ m2).1
  · rw [e]; exact (enter_known grow _ m2).2 _ ((enter_known grow s m1).2 c hc)

theorem known_of_mem {s : St} {c : Nat} (h : c ∈ s.models) : knowsSet s c = true :=
  (knowsSet_iff s c).mpr (Or.inl h)

theorem enter_of_known (grow : Nat → Nat) {s : St} {m : Nat} (h : knowsSet s m = true) :
    enter grow s m = (s, false) := by
  unfold enter; rw [h]; rfl

/-- The loop of `addCollisionModel`. -/
theorem addModelLoop_spec (grow : Nat → Nat) (m : Nat) (cs : List Nat) : ∀ s s' : St,
    (∀ c ∈ cs, c ∈ s.models) → addModelLoop grow m cs s = some s' →
    s'.heap = s.heap ∧ s'.checker = s.checker ∧
    (∀ a b, InMap s'.pairs a b ↔ InMap s.pairs a b ∨ (b = m ∧ a ≠ m ∧ a ∈ cs)) ∧
    s'.models = (if (∃ c ∈ cs, c ≠ m) ∧ knowsSet s m = false then s.models ++ [m] else s.models) := by
  induction cs with
  | nil =>
    intro s s' _ h
    cases h
    refine ⟨rfl, rfl, fun a b => by simp, by simp⟩
  | cons c cs ih =>
    intro s s' hsub h
    rw [addModelLoop] at h
    by_cases hm : m ≠ c
    · rw [if_pos hm] at h
      have hkc : knowsSet s c = true := known_of_mem (hsub c (List.mem_cons_self ..))
      have hmod : (addPair grow s c m).1.models =
          if knowsSet s m = true then s.models else s.models ++ [m] := by
        rw [addPair_models, enter_of_known grow hkc, enter_models]
      have hheap := addPair_heap grow s c m
      have hpairs := fun a b => addPair_pairs grow s c m a b
      have hkm := (addPair_known grow s c m).2.1
      revert h hmod hheap hpairs hkm
      rcases addPair grow s c m with ⟨s1, r⟩
      intro h hmod hheap hpairs hkm
      cases r with
      | true => cases h
      | false =>
        dsimp only at h hmod hheap hpairs hkm
        have hsub' : ∀ x ∈ cs, x ∈ s1.models := by
          intro x hx
          rw [hmod]
          split
          · exact hsub x (List.mem_cons_of_mem _ hx)
          · exact List.mem_append_left _ (hsub x (List.mem_cons_of_mem _ hx))
        obtain ⟨e1, e2, e3, e4⟩ := ih s1 s' hsub' h
        refine ⟨e1.trans hheap.1, e2.trans hheap.2, ?_, ?_⟩
        · intro a b
          rw [e3, hpairs]
          constructor
          · rintro ((h1 | ⟨rfl, rfl⟩) | ⟨h1, h2, h3⟩)
            · exact Or.inl h1
            · exact Or.inr ⟨rfl, fun h => hm h.symm, List.mem_cons_self ..⟩
            · exact Or.inr ⟨h1, h2, List.mem_cons_of_mem _ h3⟩
          · rintro (h1 | ⟨h1, h2, h3⟩)
            · exact Or.inl (Or.inl h1)
            · rcases List.mem_cons.mp h3 with h3 | h3
              · exact Or.inl (Or.inr ⟨h3, h1⟩)
              · exact Or.inr ⟨h1, h2, h3⟩
        · rw [e4, if_neg (by rw [hkm]; simp), hmod]
          by_cases hk : knowsSet s m = true
          · rw [if_pos hk, if_neg (by rw [hk]; simp)]
          · rw [if_neg hk, if_pos]
            exact ⟨⟨c, List.mem_cons_self .., fun h => hm h.symm⟩, by simpa using hk⟩
    · rw [if_neg hm] at h
      have hmc : c = m := by
        by_cases hc : c = m
        · exact hc
        · exact absurd (fun h => hc h.symm) hm
      obtain ⟨e1, e2, e3, e4⟩ := ih s s' (fun x hx => hsub x (List.mem_cons_of_mem _ hx)) h
      refine ⟨e1, e2, ?_, ?_⟩
      · intro a b
        rw [e3]
        constructor
        · rintro (h1 | ⟨h1, h2, h3⟩)
          · exact Or.inl h1
          · exact Or.inr ⟨h1, h2, List.mem_cons_of_mem _ h3⟩
        · rintro (h1 | ⟨h1, h2, h3⟩)
          · exact Or.inl h1
          · rcases List.mem_cons.mp h3 with h3 | h3
            · exact absurd (h3.trans hmc) h2
            · exact Or.inr ⟨h1, h2, h3⟩
      · rw [e4]
        have : (∃ x ∈ cs, x ≠ m) ↔ ∃ x ∈ c :: cs, x ≠ m := by
          constructor
          · rintro ⟨x, hx, hxm⟩; exact ⟨x, List.mem_cons_of_mem _ hx, hxm⟩
          · rintro ⟨x, hx, hxm⟩
            rcases List.mem_cons.mp hx with hx | hx
            · exact absurd (hx.trans hmc) hxm
            · exact ⟨x, hx, hxm⟩
        simp only [this]

theorem pushModel_fields (grow : Nat → Nat) (s : St) (m : Nat) :
    (pushModel grow s m).1.heap = s.heap ∧ (pushModel grow s m).1.pairs = s.pairs ∧
    (pushModel grow s m).1.checker = s.checker ∧ (pushModel grow s m).1.models = s.models ++ [m] := by
  unfold pushModel
  split <;> exact ⟨rfl, rfl, rfl, rfl⟩

theorem addModel_spec (grow : Nat → Nat) (s s' : St) (m : Nat) (h : addModel grow s m = some s') :
    s'.heap = s.heap ∧ s'.checker = s.checker ∧
    (∀ a b, InMap s'.pairs a b ↔ InMap s.pairs a b ∨ (b = m ∧ a ≠ m ∧ a ∈ s.models)) ∧
    s'.models = (if knowsSet s m = true then s.models else s.models ++ [m]) := by
  unfold addModel at h
  rcases hl : addModelLoop grow m s.models s with _ | s1
  · rw [hl] at h; cases h
  · rw [hl] at h
    obtain ⟨e1, e2, e3, e4⟩ := addModelLoop_spec grow m s.models s s1 (fun _ h => h) hl
    have h := Option.some.inj h
    by_cases hk : knowsSet s1 m = true
    · rw [hk] at h
      have h : s1 = s' := h
      subst h
      refine ⟨e1, e2, e3, ?_⟩
      rw [e4]
      by_cases hks : knowsSet s m = true
      · rw [if_pos hks, if_neg (by rw [hks]; simp)]
      · rw [if_neg hks]
        by_cases hc : ∃ c ∈ s.models, c ≠ m
        · rw [if_pos ⟨hc, by simpa using hks⟩]
        · rw [if_neg (fun h => hc h.1)] at e4
          rw [knowsSet_congr e1 e4] at hk
          exact absurd hk hks
    · have hk' : knowsSet s1 m = false := by simpa using hk
      rw [hk'] at h
      have h : (pushModel grow s1 m).1 = s' := h
      subst h
      obtain ⟨f1, f2, f3, f4⟩ := pushModel_fields grow s1 m
      refine ⟨f1.trans e1, f3.trans e2, by intro a b; rw [f2]; exact e3 a b, ?_⟩
      have hmem : s1.models = s.models := by
        rw [e4]
        apply if_neg
        intro hcon
        rw [if_pos hcon] at e4
        exact hk (known_of_mem (by rw [e4]; simp))
      rw [f4, hmem, if_neg]
      rw [← knowsSet_congr e1 hmem]
      exact hk

theorem wrap_fields (w : World D W) (s : St) (o : Nat) :
    (wrap w s o).models = s.models ∧ (wrap w s o).pairs = s.pairs ∧ (wrap w s o).checker = s.checker ∧
    (wrap w s o).heap.length = s.heap.length + 1 ∧ (wrap w s o).cap = s.cap := by
  unfold wrap newSet St.put
  refine ⟨rfl, rfl, rfl, ?_, rfl⟩
  simp

/-- One call changes the set of watched pairs exactly by what it introduces. -/
theorem step_pairs (w : World D W) (grow : Nat → Nat) (s s' : St) (op : Op)
    (h : step w grow s op = some s') (a b : Nat) :
    InMap s'.pairs a b ↔ InMap s.pairs a b ∨ Introduces s op a b := by
  cases op with
  | newSet c => cases h; simp [Introduces, newSet]
  | setAdd m o => cases h; simp [Introduces, St.put]
  | setAddSet m t => cases h; simp [Introduces, St.put]
  | setAddNodes m os => cases h; simp [Introduces, St.put]
  | setRemove m o => cases h; simp [Introduces, St.put]
  | addModel m =>
    rw [(addModel_spec grow s s' m h).2.2.1 a b]
    simp only [Introduces, hasSet_iff]
  | addObject o =>
    have := (addModel_spec grow (wrap w s o) s' _ h).2.2.1 a b
    rw [this]
    obtain ⟨h1, h2, _⟩ := wrap_fields w s o
    rw [h1, h2]
    simp only [Introduces, hasSet_iff]
    constructor
    · rintro (h | ⟨rfl, h3, h4⟩)
      · exact Or.inl h
      · exact Or.inr ⟨rfl, h3, h4⟩
    · rintro (h | ⟨rfl, h3, h4⟩)
      · exact Or.inl h
      · exact Or.inr ⟨rfl, h3, h4⟩
  | addPair m1 m2 => cases h; exact addPair_pairs grow s m1 m2 a b
  | addPairOS o m =>
    cases h
    rw [addPair_pairs, (wrap_fields w s o).2.1]
    rfl
  | addPairOO o1 o2 =>
    cases h
    rw [addPair_pairs, (wrap_fields w _ o2).2.1, (wrap_fields w s o1).2.1]
    rfl

theorem run_append (w : World D W) (grow : Nat → Nat) (l1 l2 : List Op) : ∀ s : St,
    run w grow s (l1 ++ l2) = (run w grow s l1).bind (fun t => run w grow t l2) := by
  induction l1 with
  | nil => intro s; rfl
  | cons op l1 ih =>
    intro s
    simp only [List.cons_append, run]
    cases step w grow s op with
    | none => rfl
    | some t => exact ih t

theorem run_pairs (w : World D W) (grow : Nat → Nat) (s0 : St) (ops : List Op) (a b : Nat) :
    ∀ s : St, run w grow s0 ops = some s →
    (InMap s.pairs a b ↔ InMap s0.pairs a b ∨
      ∃ pre op post t, ops = pre ++ op :: post ∧ run w grow s0 pre = some t ∧ Introduces t op a b) := by
  induction ops using List.reverseRecOn with
  | nil =>
    intro s h
    cases h
    constructor
    · exact Or.inl
    · rintro (h | ⟨pre, op, post, t, h, _⟩)
      · exact h
      · simp at h
  | append_singleton ops op ih =>
    intro s h
    rw [run_append] at h
    obtain ⟨t, ht, h⟩ := Option.bind_eq_some_iff.mp h
    have hst : step w grow t op = some s := by
      simp only [run] at h
      cases hs : step w grow t op with
      | none => rw [hs] at h; cases h
      | some u => rw [hs] at h; exact h
    rw [step_pairs w grow t s op hst a b, ih t ht]
    constructor
    · rintro ((h | ⟨pre, op', post, u, rfl, hr, hi⟩) | h)
      · exact Or.inl h
      · exact Or.inr ⟨pre, op', post ++ [op], u, by simp, hr, hi⟩
      · exact Or.inr ⟨ops, op, [], t, rfl, ht, h⟩
    · rintro (h | ⟨pre, op', post, u, heq, hr, hi⟩)
      · exact Or.inl (Or.inl h)
      · rcases List.eq_nil_or_concat post with rfl | ⟨post', x, rfl⟩
        · have := List.append_inj' heq rfl
          obtain ⟨h1, h2⟩ := this
          cases h2
          subst h1
          rw [ht] at hr
          cases hr
          exact Or.inr hi
        · have : ops ++ [op] = (pre ++ op' :: post') ++ [x] := by rw [heq]; simp
          obtain ⟨h1, h2⟩ := List.append_inj' this rfl
          exact Or.inl (Or.inr ⟨pre, op', post', u, h1, hr, hi⟩)

theorem inCollisionList_iff (w : World D W) (s : St) (m : Nat) (cs : List Nat) :
    inCollisionList w s m cs = true ↔ ∃ c ∈ cs, checkSets w (s.set m) (s.set c) = true := by
  induction cs with
  | nil => simp [inCollisionList]
  | cons c cs ih =>
    rw [inCollisionList]
    by_cases h : checkSets w (s.set m) (s.set c) = true
    · simp [h]
    · rw [if_neg h, ih]
      simp [h]

theorem inCollisionPairs_iff (w : World D W) (s : St) (l : List (Nat × List Nat)) :
    inCollisionPairs w s l = true ↔ ∃ a b, InMap l a b ∧ checkSets w (s.set a) (s.set b) = true := by
  induction l with
  | nil =>
    constructor
    · intro h; cases h
    · rintro ⟨a, b, ⟨_, h, _⟩, _⟩; cases h
  | cons kv l ih =>
    obtain ⟨k, v⟩ := kv
    rw [inCollisionPairs]
    by_cases h : inCollisionList w s k v = true
    · rw [if_pos h]
      obtain ⟨c, hc, h2⟩ := (inCollisionList_iff w s k v).mp h
      exact ⟨fun _ => ⟨k, c, ⟨v, List.mem_cons_self .., hc⟩, h2⟩, fun _ => rfl⟩
    · rw [if_neg h, ih]
      constructor
      · rintro ⟨a, b, ⟨u, hu, hb⟩, h2⟩
        exact ⟨a, b, ⟨u, List.mem_cons_of_mem _ hu, hb⟩, h2⟩
      · rintro ⟨a, b, ⟨u, hu, hb⟩, h2⟩
        rcases List.mem_cons.mp hu with hu | hu
        · cases hu
          exact absurd ((inCollisionList_iff w s k v).mpr ⟨b, hb, h2⟩) h
        · exact ⟨a, b, ⟨u, hu, hb⟩, h2⟩

theorem inCollisionModels_iff (w : World D W) (s : St) (m : Nat) (cs : List Nat) :
    inCollisionModels w s m cs = true ↔ ∃ c ∈ cs, c ≠ m ∧ checkSets w (s.set c) (s.set m) = true := by
  induction cs with
  | nil => simp [inCollisionModels]
  | cons c cs ih =>
    rw [inCollisionModels]
    by_cases hm : m ≠ c
    · have hm' : c ≠ m := fun h => hm h.symm
      rw [if_pos hm]
      by_cases h : checkSets w (s.set c) (s.set m) = true
      · simp [h, hm']
      · rw [if_neg h, ih]; simp [h]
    · rw [if_neg hm, ih]
      have : c = m := by
        by_cases hc : c = m
        · exact hc
        · exact absurd (fun h => hc h.symm) hm
      simp [this]

end Simox.Collision
