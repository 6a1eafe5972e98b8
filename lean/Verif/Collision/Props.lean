import Verif.Collision.Lemmas
import Mathlib.Data.Int.Order.Basic

/-!
# Properties C28, C29, C31: object sets and the collision manager
-/

set_option linter.unusedSectionVars false

namespace Simox.Collision

open Spec

variable {D W : Type}

/-! ## C31: object sets -/

theorem wrap_sets (w : World D W) (s : St) (o : Nat) (h : ∀ x ∈ s.heap, SetOK w x) :
    ∀ x ∈ (wrap w s o).heap, SetOK w x := by
  intro x hx
  unfold wrap newSet St.put at hx
  dsimp only at hx
  rcases List.mem_or_eq_of_mem_set hx with hx | hx
  · rcases List.mem_append.mp hx with hx | hx
    · exact h x hx
    · simp at hx; subst hx; exact ⟨by simp, by simp⟩
  · subst hx
    apply SetObj.add_ok
    unfold St.set
    simp only [List.getElem?_concat_length, Option.getD_some]
    exact ⟨by simp, by simp⟩

theorem step_sets (w : World D W) (grow : Nat → Nat) (s s' : St) (op : Op)
    (h : step w grow s op = some s') (hs : ∀ x ∈ s.heap, SetOK w x) : ∀ x ∈ s'.heap, SetOK w x := by
  have hget : ∀ m, SetOK w (s.set m) := by
    intro m
    unfold St.set
    cases hm : s.heap[m]? with
    | none => exact ⟨by simp, by simp⟩
    | some x => exact hs x (List.mem_of_getElem? hm)
  have hput : ∀ m y, SetOK w y → ∀ x ∈ (s.put m y).heap, SetOK w x := by
    intro m y hy x hx
    rcases List.mem_or_eq_of_mem_set hx with hx | hx
    · exact hs x hx
    · subst hx; exact hy
  cases op with
  | newSet c =>
    cases h
    intro x hx
    rcases List.mem_append.mp hx with hx | hx
    · exact hs x hx
    · simp at hx; subst hx; exact ⟨by simp, by simp⟩
  | setAdd m o => cases h; exact hput m _ (SetObj.add_ok w _ o (hget m))
  | setAddSet m t =>
    cases h
    apply hput m
    unfold SetObj.addSet
    split
    · exact hget m
    · exact SetObj.addLoop_ok w _ _ (hget m)
  | setAddNodes m os => cases h; exact hput m _ (SetObj.addNodes_ok w os _ (hget m))
  | setRemove m o => cases h; exact hput m _ (SetObj.remove_ok w _ o (hget m))
  | addModel m => rw [(addModel_spec grow s s' m h).1]; exact hs
  | addObject o => rw [(addModel_spec grow _ s' _ h).1]; exact wrap_sets w s o hs
  | addPair m1 m2 => cases h; rw [(addPair_heap grow s m1 m2).1]; exact hs
  | addPairOS o m => cases h; rw [(addPair_heap grow _ _ m).1]; exact wrap_sets w s o hs
  | addPairOO o1 o2 =>
    cases h
    rw [(addPair_heap grow _ _ _).1]
    exact wrap_sets w _ o2 (wrap_sets w s o1 hs)

/-- **C31.** After any history of calls, no object set contains an object twice, and all members of a set
use the set's collision checker. -/
theorem C31_invariant (w : World D W) (grow : Nat → Nat) (c : Nat) (ops : List Op) (s : St)
    (h : run w grow (St.init c) ops = some s) : ∀ x ∈ s.heap, SetOK w x := by
  have key : ∀ (ops : List Op) (s0 s : St), run w grow s0 ops = some s →
      (∀ x ∈ s0.heap, SetOK w x) → ∀ x ∈ s.heap, SetOK w x := by
    intro ops
    induction ops with
    | nil => intro s0 s h h0; cases h; exact h0
    | cons op ops ih =>
      intro s0 s h h0
      rw [run] at h
      cases hs : step w grow s0 op with
      | none => rw [hs] at h; cases h
      | some t => rw [hs] at h; exact ih t s h (step_sets w grow s0 t op hs h0)
  exact key ops _ s h (by simp [St.init])

/-- **C31.** Adding an object succeeds exactly when it belongs to the set's collision checker and is not in
the set; then it becomes the last member, otherwise nothing changes. -/
theorem C31_add (w : World D W) (s : SetObj) (o : Nat) :
    ((s.add w o).2 = true ↔ w.objChecker o = s.checker ∧ s.has o = false) ∧
    (s.add w o).1.objs = (if (s.add w o).2 then s.objs ++ [o] else s.objs) ∧
    (s.add w o).1.checker = s.checker := by
  have hhas : s.has o = false ↔ o ∉ s.objs := by
    unfold SetObj.has
    rw [Bool.eq_false_iff, Ne, List.any_eq_true]
    simp
  refine ⟨?_, ?_, SetObj.add_checker w s o⟩
  · rw [hhas]
    by_cases h : w.objChecker o = s.checker ∧ o ∉ s.objs
    · rw [SetObj.add_true w s o h.1 h.2]; simp [h.1, h.2]
    · rw [SetObj.add_false w s o h]
      exact ⟨fun hc => (by cases hc), fun hc => absurd hc h⟩
  · by_cases h : w.objChecker o = s.checker ∧ o ∉ s.objs
    · rw [SetObj.add_true w s o h.1 h.2]; rfl
    · rw [SetObj.add_false w s o h]; rfl

theorem addLoop_prefix (w : World D W) (os : List Nat) : ∀ s : SetObj,
    ∃ pre post, os = pre ++ post ∧ (s.addLoop w os).1.objs = s.objs ++ pre ∧
      (s.addLoop w os).1.checker = s.checker ∧ ((s.addLoop w os).2 = true ↔ post = []) ∧
      ∀ o rest, post = o :: rest → w.objChecker o ≠ s.checker ∨ o ∈ s.objs ++ pre := by
  induction os with
  | nil => intro s; exact ⟨[], [], rfl, by simp [SetObj.addLoop], rfl, by simp [SetObj.addLoop], by simp⟩
  | cons o os ih =>
    intro s
    rw [SetObj.addLoop]
    by_cases h : w.objChecker o = s.checker ∧ o ∉ s.objs
    · rw [SetObj.add_true w s o h.1 h.2]
      dsimp only
      obtain ⟨pre, post, h1, h2, h3, h4, h5⟩ := ih { s with objs := s.objs ++ [o] }
      refine ⟨o :: pre, post, by rw [h1]; rfl, by rw [h2]; simp, h3, h4, ?_⟩
      intro x rest hx
      rcases h5 x rest hx with h6 | h6
      · exact Or.inl h6
      · right; simpa using h6
    · rw [SetObj.add_false w s o h]
      refine ⟨[], o :: os, rfl, by simp, rfl, by simp, ?_⟩
      intro x rest hx
      cases hx
      by_cases hc : w.objChecker o = s.checker
      · right
        by_cases hm : o ∈ s.objs
        · simpa using hm
        · exact absurd ⟨hc, hm⟩ h
      · exact Or.inl hc

/-- **C31.** Adding all objects of another set adds them in order up to the first one that cannot be added
(foreign collision checker or already present), keeps those added before, and succeeds exactly when there is
no such object. A set with a different collision checker is refused as a whole. -/
theorem C31_bulk (w : World D W) (s t : SetObj) :
    (s.checker ≠ t.checker → s.addSet w t = (s, false)) ∧
    (s.checker = t.checker → ∃ pre post, t.objs = pre ++ post ∧
      (s.addSet w t).1.objs = s.objs ++ pre ∧ (s.addSet w t).1.checker = s.checker ∧
      ((s.addSet w t).2 = true ↔ post = []) ∧
      ∀ o rest, post = o :: rest → w.objChecker o ≠ s.checker ∨ o ∈ s.objs ++ pre) := by
  refine ⟨fun h => if_pos h, fun h => ?_⟩
  have : s.addSet w t = s.addLoop w t.objs := if_neg (by simp [h])
  rw [this]
  exact addLoop_prefix w t.objs s

/-- **C31.** Adding a set to itself does nothing and fails, unless the set is empty. -/
theorem C31_self (w : World D W) (s : SetObj) :
    (s.addSet w s).1 = s ∧ ((s.addSet w s).2 = true ↔ s.objs = []) := by
  obtain ⟨pre, post, h1, h2, h3, h4, h5⟩ := (C31_bulk w s s).2 rfl
  cases hs : s.objs with
  | nil =>
    rw [hs] at h1 h2
    have hp := (List.append_eq_nil_iff.mp h1.symm)
    rw [hp.1] at h2
    refine ⟨?_, by rw [h4]; simp [hp.2]⟩
    cases he : (s.addSet w s).1 with
    | mk ck ob =>
      cases s with
      | mk ck' ob' =>
        rw [he] at h2 h3
        simp at h2 h3 hs
        simp [h2, h3, hs]
  | cons o os =>
    have : s.addSet w s = (s, false) := by
      unfold SetObj.addSet
      rw [if_neg (by simp), hs, SetObj.addLoop,
        SetObj.add_false w s o (by rintro ⟨_, h⟩; exact h (by rw [hs]; simp))]
    rw [this]
    exact ⟨rfl, by simp⟩

/-- **C31.** Adding robot nodes skips those with a foreign collision checker and stops at the first one that
is already present. -/
theorem C31_nodes (w : World D W) (os : List Nat) : ∀ s : SetObj, ∃ pre post, os = pre ++ post ∧
    (s.addNodes w os).1.objs = s.objs ++ pre.filter (fun o => w.objChecker o == s.checker) ∧
    (s.addNodes w os).1.checker = s.checker ∧ ((s.addNodes w os).2 = true ↔ post = []) ∧
    ∀ o rest, post = o :: rest → w.objChecker o = s.checker ∧ o ∈ (s.addNodes w os).1.objs := by
  induction os with
  | nil => intro s; exact ⟨[], [], rfl, by simp [SetObj.addNodes], rfl, by simp [SetObj.addNodes], by simp⟩
  | cons o os ih =>
    intro s
    rw [SetObj.addNodes]
    by_cases hc : s.checker ≠ w.objChecker o
    · rw [if_pos hc]
      obtain ⟨pre, post, h1, h2, h3, h4, h5⟩ := ih s
      refine ⟨o :: pre, post, by rw [h1]; rfl, ?_, h3, h4, h5⟩
      rw [h2, List.filter_cons_of_neg]
      simp
      exact fun h => hc h.symm
    · have hc' : w.objChecker o = s.checker := by
        by_cases h : s.checker = w.objChecker o
        · exact h.symm
        · exact absurd h hc
      rw [if_neg hc]
      by_cases hm : o ∈ s.objs
      · rw [SetObj.add_false w s o (fun h => h.2 hm)]
        refine ⟨[], o :: os, rfl, by simp, rfl, by simp, ?_⟩
        intro x rest hx
        cases hx
        exact ⟨hc', hm⟩
      · rw [SetObj.add_true w s o hc' hm]
        dsimp only
        obtain ⟨pre, post, h1, h2, h3, h4, h5⟩ := ih { s with objs := s.objs ++ [o] }
        refine ⟨o :: pre, post, by rw [h1]; rfl, ?_, h3, h4, h5⟩
        rw [h2, List.filter_cons_of_pos (by simp [hc'])]
        simp

/-- **C31.** Removing an object succeeds exactly when it is a member; then exactly it is gone. -/
theorem C31_remove (w : World D W) (s : SetObj) (o : Nat) (h : SetOK w s) :
    ((s.remove o).2 = true ↔ s.has o = true) ∧
    (∀ x, x ∈ (s.remove o).1.objs ↔ x ∈ s.objs ∧ x ≠ o) ∧
    (s.remove o).1.objs.Sublist s.objs := by
  have hhas : s.has o = true ↔ o ∈ s.objs := by
    unfold SetObj.has
    rw [List.any_eq_true]
    simp
  unfold SetObj.remove
  by_cases hm : o ∈ s.objs
  · rw [if_pos hm]
    refine ⟨by simp [hhas, hm], ?_, List.erase_sublist⟩
    intro x
    show x ∈ s.objs.erase o ↔ _
    rw [h.1.mem_erase_iff]
    exact and_comm
  · rw [if_neg hm]
    refine ⟨by simp [hhas, hm], ?_, List.Sublist.refl _⟩
    intro x
    constructor
    · intro hx; exact ⟨hx, fun he => hm (he ▸ hx)⟩
    · exact fun h => h.1

/-- **C31.** Cloning a set gives an equal one. -/
theorem C31_clone (w : World D W) (s : SetObj) (h : SetOK w s) : s.clone w = s := by
  have key : ∀ (l : List Nat) (r : SetObj), (r.objs ++ l).Nodup →
      (∀ o ∈ l, w.objChecker o = r.checker) →
      l.foldl (fun r o => (r.add w o).1) r = { r with objs := r.objs ++ l } := by
    intro l
    induction l with
    | nil => intro r _ _; simp
    | cons o l ih =>
      intro r hn hc
      rw [List.foldl_cons, SetObj.add_true w r o (hc o (by simp))
        (fun hm => (List.nodup_append.mp hn).2.2 o hm o (by simp) rfl)]
      have := ih { r with objs := r.objs ++ [o] } (by simpa using hn)
        (fun x hx => hc x (by simp [hx]))
      rw [this]
      simp
  unfold SetObj.clone
  have := key s.objs { checker := s.checker, objs := [] } (by simpa using h.1) h.2
  rw [this]
  rfl

/-! ## C28: what is checked -/

variable [LinearOrder D]

/-- **C28.** After any history without undefined behaviour, `isInCollision()` is true exactly when for some
pair of sets put under surveillance by a call of the history, the sets, as they are now, collide. -/
theorem C28_exact (w : World D W) (grow : Nat → Nat) (c : Nat) (ops : List Op) (s : St)
    (h : run w grow (St.init c) ops = some s) :
    isInCollision w s = true ↔
      ∃ a b, Registered w grow (St.init c) ops a b ∧ Collide w (s.set a) (s.set b) := by
  unfold isInCollision
  rw [inCollisionPairs_iff]
  constructor
  · rintro ⟨a, b, hm, hc⟩
    refine ⟨a, b, ?_, (checkSets_iff w _ _).mp hc⟩
    rcases (run_pairs w grow _ ops a b s h).mp hm with ⟨_, h0, _⟩ | hr
    · cases h0
    · exact hr
  · rintro ⟨a, b, hr, hc⟩
    exact ⟨a, b, (run_pairs w grow _ ops a b s h).mpr (Or.inr hr), (checkSets_iff w _ _).mpr hc⟩

/-- **C28.** `isInCollision(m)` is true exactly when `m` collides with a member other than itself. -/
theorem C28_with (w : World D W) (s : St) (m : Nat) :
    isInCollisionWith w s m = true ↔
      ∃ a, hasSceneObjectSet s a = true ∧ a ≠ m ∧ Collide w (s.set a) (s.set m) := by
  unfold isInCollisionWith
  rw [inCollisionModels_iff]
  constructor
  · rintro ⟨a, ha, hm, hc⟩
    exact ⟨a, (hasSet_iff s a).mpr ha, hm, (checkSets_iff w _ _).mp hc⟩
  · rintro ⟨a, ha, hm, hc⟩
    exact ⟨a, (hasSet_iff s a).mp ha, hm, (checkSets_iff w _ _).mpr hc⟩

theorem enter_mem (grow : Nat → Nat) (s : St) (m x : Nat) :
    x ∈ (enter grow s m).1.models ↔ x ∈ s.models ∨ (x = m ∧ knowsSet s m = false) := by
  rw [enter_models]
  by_cases h : knowsSet s m = true
  · rw [if_pos h, h]; simp
  · rw [if_neg h]
    have : knowsSet s m = false := by simpa using h
    simp [this]

theorem known_cases {s : St} {m : Nat} (h : knowsSet s m = true) :
    hasSceneObjectSet s m = true ∨
      ∃ x, hasSceneObjectSet s x = true ∧ ∃ o, (s.set x).objs = [o] ∧ (s.set m).objs = [o] := by
  rcases (knowsSet_iff s m).mp h with h | ⟨x, hx, o, h1, h2⟩
  · exact Or.inl ((hasSet_iff s m).mpr h)
  · exact Or.inr ⟨x, (hasSet_iff s x).mpr hx, o, h1, h2⟩

/-- **C28.** Members: a call makes only sets members that it names, keeps all members, and a set that it
names is a member afterwards unless some member holds just the same single object. -/
theorem C28_members (w : World D W) (grow : Nat → Nat) (s s' : St) (op : Op)
    (h : step w grow s op = some s') (a : Nat) :
    (hasSceneObjectSet s a = true → hasSceneObjectSet s' a = true) ∧
    (hasSceneObjectSet s' a = true → hasSceneObjectSet s a = true ∨ Names s op a) ∧
    (Names s op a → hasSceneObjectSet s' a = true ∨
      ∃ x, hasSceneObjectSet s' x = true ∧ ∃ o, (s'.set x).objs = [o] ∧ (s'.set a).objs = [o]) := by
  have hpair : ∀ (t : St) (m1 m2 : Nat), t.models = s.models →
      (hasSceneObjectSet s a = true → hasSceneObjectSet (addPair grow t m1 m2).1 a = true) ∧
      (hasSceneObjectSet (addPair grow t m1 m2).1 a = true →
        hasSceneObjectSet s a = true ∨ a = m1 ∨ a = m2) ∧
      (a = m1 ∨ a = m2 → knowsSet (addPair grow t m1 m2).1 a = true) := by
    intro t m1 m2 ht
    simp only [hasSet_iff]
    rw [addPair_models, enter_mem, enter_mem, ht]
    refine ⟨fun h => Or.inl (Or.inl h), ?_, ?_⟩
    · rintro ((h | h) | h)
      · exact Or.inl h
      · exact Or.inr (Or.inl h.1)
      · exact Or.inr (Or.inr h.1)
    · obtain ⟨k1, k2, _⟩ := addPair_known grow t m1 m2
      rintro (rfl | rfl)
      · exact k1
      · exact k2
  have hmodel : ∀ (t : St) (m : Nat), t.models = s.models → addModel grow t m = some s' →
      (hasSceneObjectSet s a = true → hasSceneObjectSet s' a = true) ∧
      (hasSceneObjectSet s' a = true → hasSceneObjectSet s a = true ∨ a = m) ∧
      (a = m → knowsSet s' a = true) := by
    intro t m ht hst
    obtain ⟨e1, _, _, e4⟩ := addModel_spec grow t s' m hst
    simp only [hasSet_iff]
    rw [e4, ht]
    refine ⟨?_, ?_, ?_⟩
    · intro h; split
      · exact h
      · exact List.mem_append_left _ h
    · intro h; split at h
      · exact Or.inl h
      · rcases List.mem_append.mp h with h | h
        · exact Or.inl h
        · simp at h; exact Or.inr h
    · rintro rfl
      by_cases hk : knowsSet t a = true
      · rw [if_pos hk] at e4
        rw [knowsSet_congr e1 e4]; exact hk
      · rw [if_neg hk] at e4
        exact known_of_mem (by rw [e4]; simp)
  cases op with
  | newSet c => cases h; exact ⟨id, Or.inl, False.elim⟩
  | setAdd m o => cases h; exact ⟨id, Or.inl, False.elim⟩
  | setAddSet m t => cases h; exact ⟨id, Or.inl, False.elim⟩
  | setAddNodes m os => cases h; exact ⟨id, Or.inl, False.elim⟩
  | setRemove m o => cases h; exact ⟨id, Or.inl, False.elim⟩
  | addModel m =>
    obtain ⟨h1, h2, h3⟩ := hmodel s m rfl h
    exact ⟨h1, h2, fun hn => known_cases (h3 hn)⟩
  | addObject o =>
    obtain ⟨h1, h2, h3⟩ := hmodel _ _ (wrap_fields w s o).1 h
    exact ⟨h1, h2, fun hn => known_cases (h3 hn)⟩
  | addPair m1 m2 =>
    cases h
    obtain ⟨h1, h2, h3⟩ := hpair s m1 m2 rfl
    exact ⟨h1, h2, fun hn => known_cases (h3 hn)⟩
  | addPairOS o m =>
    cases h
    obtain ⟨h1, h2, h3⟩ := hpair _ s.heap.length m (wrap_fields w s o).1
    exact ⟨h1, h2, fun hn => known_cases (h3 hn)⟩
  | addPairOO o1 o2 =>
    cases h
    obtain ⟨h1, h2, h3⟩ := hpair _ s.heap.length (s.heap.length + 1)
      ((wrap_fields w _ o2).1.trans (wrap_fields w s o1).1)
    exact ⟨h1, h2, fun hn => known_cases (h3 hn)⟩

/-- **C28.** The behaviour of adding a model is defined exactly when the set is known already, nothing else
is a member, or the vector of members has room. -/
theorem C28_defined_iff (w : World D W) (grow : Nat → Nat) (s : St) (m : Nat) :
    (step w grow s (.addModel m)).isSome = true ↔
      knowsSet s m = true ∨ (∀ a, hasSceneObjectSet s a = true → a = m) ∨ s.models.length < s.cap := by
  have loop : ∀ (cs : List Nat) (t : St), (∀ c ∈ cs, c ∈ t.models) →
      ((addModelLoop grow m cs t).isSome = true ↔
        knowsSet t m = true ∨ (∀ c ∈ cs, c = m) ∨ t.models.length < t.cap) := by
    intro cs
    induction cs with
    | nil => intro t _; simp [addModelLoop]
    | cons c cs ih =>
      intro t hsub
      rw [addModelLoop]
      by_cases hm : m ≠ c
      · rw [if_pos hm]
        have hkc : knowsSet t c = true := known_of_mem (hsub c (List.mem_cons_self ..))
        have hmod : (addPair grow t c m).1.models =
            if knowsSet t m = true then t.models else t.models ++ [m] := by
          rw [addPair_models, enter_of_known grow hkc, enter_models]
        have hflag : (addPair grow t c m).2 = (enter grow t m).2 := by
          rw [addPair_eq, enter_of_known grow hkc]; simp
        have hkm := (addPair_known grow t c m).2.1
        have hnot : ¬∀ x ∈ c :: cs, x = m := fun h => hm (h c (List.mem_cons_self ..)).symm
        revert hmod hflag hkm
        rcases addPair grow t c m with ⟨t1, r⟩
        intro hmod hflag hkm
        dsimp only at hmod hflag hkm
        by_cases hk : knowsSet t m = true
        · rw [enter_of_known grow hk] at hflag
          rw [hflag]
          dsimp only
          rw [if_pos hk] at hmod
          rw [ih t1 (fun x hx => by rw [hmod]; exact hsub x (List.mem_cons_of_mem _ hx))]
          simp [hk, hkm]
        · have hen : (enter grow t m).2 = !decide (t.models.length < t.cap) := by
            unfold enter pushModel
            have : knowsSet t m = false := by simpa using hk
            rw [this]
            simp only [Bool.not_false, if_true]
            split
            · rename_i h; simp [h]
            · rename_i h; simp [h]
          by_cases hcap : t.models.length < t.cap
          · rw [hflag, hen]
            simp only [hcap, decide_true, Bool.not_true, or_true, iff_true]
            rw [if_neg hk] at hmod
            exact (ih t1 (fun x hx => by
              rw [hmod]; exact List.mem_append_left _ (hsub x (List.mem_cons_of_mem _ hx)))).mpr
              (Or.inl hkm)
          · rw [hflag, hen]
            have hk' : knowsSet t m = false := by simpa using hk
            simp only [hcap, decide_false, Bool.not_false, Option.isSome_none, hk', or_false]
            constructor
            · intro h; cases h
            · rintro (h | h)
              · cases h
              · exact absurd h hnot
      · rw [if_neg hm]
        have hmc : c = m := by
          by_cases hc : c = m
          · exact hc
          · exact absurd (fun h => hc h.symm) hm
        rw [ih t (fun x hx => hsub x (List.mem_cons_of_mem _ hx))]
        simp [hmc]
  have := loop s.models s (fun _ h => h)
  simp only [hasSet_iff]
  rw [← this]
  show (addModel grow s m).isSome = true ↔ _
  unfold addModel
  cases addModelLoop grow m s.models s <;> simp

/-- Only `addCollisionModel` can be undefined. -/
theorem C28_pairs_always_defined (w : World D W) (grow : Nat → Nat) (ops : List Op)
    (h : ∀ op ∈ ops, (∀ m, op ≠ .addModel m) ∧ ∀ o, op ≠ .addObject o) :
    ∀ s : St, ∃ s', run w grow s ops = some s' := by
  induction ops with
  | nil => intro s; exact ⟨s, rfl⟩
  | cons op ops ih =>
    intro s
    have hop := h op (by simp)
    have ih := ih (fun o ho => h o (by simp [ho]))
    rw [run]
    cases op with
    | addModel m => exact absurd rfl (hop.1 m)
    | addObject o => exact absurd rfl (hop.2 o)
    | newSet c => exact ih _
    | setAdd m o => exact ih _
    | setAddSet m t => exact ih _
    | setAddNodes m os => exact ih _
    | setRemove m o => exact ih _
    | addPair m1 m2 => exact ih _
    | addPairOS o m => exact ih _
    | addPairOO o1 o2 => exact ih _

/-- State after the objects `0 … k-1` were added one by one. -/
def Loaded (w : World D W) (c cap k : Nat) (s : St) : Prop :=
  s.checker = c ∧ s.cap = cap ∧ s.models = List.range k ∧ s.heap.length = k ∧
    ∀ i, i < k → s.heap[i]? = some { checker := c, objs := [i] }

theorem wrap_set_new (w : World D W) (s : St) (o : Nat) (h : w.objChecker o = s.checker) :
    (wrap w s o).heap = s.heap ++ [{ checker := s.checker, objs := [o] }] := by
  unfold wrap newSet St.put St.set
  simp only [List.getElem?_concat_length, Option.getD_some]
  rw [SetObj.add_true w _ o h (by simp)]
  simp

/-- **Violation.** Whatever the growth policy of `std::vector`, adding enough different objects with
`addCollisionModel` runs into undefined behaviour: the loop over the members continues after the vector was
reallocated. -/
theorem C28_add_model_undefined (w : World D W) (grow : Nat → Nat) (hg : ∀ n, n < grow n) (c : Nat)
    (hw : ∀ o, w.objChecker o = c) :
    ∃ n, run w grow (St.init c) ((List.range n).map Op.addObject) = none := by
  have hnot : ∀ k s, Loaded w c (grow 0) k s → knowsSet (wrap w s k) k = false := by
    rintro k s ⟨h1, h2, h3, h4, h5⟩
    rw [Bool.eq_false_iff, Ne, knowsSet_iff, (wrap_fields w s k).1, h3]
    have hheap := wrap_set_new w s k ((hw k).trans h1.symm)
    rintro (h | ⟨x, hx, o, ho1, ho2⟩)
    · simp at h
    · have hx : x < k := List.mem_range.mp hx
      have e1 : (wrap w s k).set x = { checker := c, objs := [x] } := by
        unfold St.set
        rw [hheap, List.getElem?_append_left (by omega), h5 x hx]; rfl
      have e2 : (wrap w s k).set k = { checker := s.checker, objs := [k] } := by
        unfold St.set
        rw [hheap, ← h4]; simp
      rw [e1] at ho1
      rw [e2] at ho2
      cases ho1
      cases ho2
      omega
  have loadStep : ∀ k s s', Loaded w c (grow 0) k s → step w grow s (.addObject k) = some s' →
      0 < k → k < grow 0 → Loaded w c (grow 0) (k + 1) s' := by
    intro k s s' hl hs hk0 hk
    have hn := hnot k s hl
    obtain ⟨h1, h2, h3, h4, h5⟩ := hl
    have hadd : addModel grow (wrap w s k) k = some s' := by rw [← h4]; rw [← h4] at hs; exact hs
    obtain ⟨e1, e2, e3, e4⟩ := addModel_spec grow _ s' _ hadd
    have hheap := wrap_set_new w s k ((hw k).trans h1.symm)
    have hcap : s'.cap = grow 0 := by
      -- the capacity never changes unless the vector is reallocated
      have loop : ∀ (cs : List Nat) (t t' : St), addModelLoop grow k cs t = some t' → t'.cap = t.cap := by
        intro cs
        induction cs with
        | nil => intro t t' h; cases h; rfl
        | cons x cs ih =>
          intro t t' h
          rw [addModelLoop] at h
          split at h
          · have hc : (addPair grow t x k).2 = false → (addPair grow t x k).1.cap = t.cap := by
              rw [addPair_eq]
              intro hf
              have en : ∀ (u : St) m, (enter grow u m).2 = false → (enter grow u m).1.cap = u.cap := by
                intro u m
                unfold enter pushModel
                split
                · split
                  · intro _; rfl
                  · intro h; cases h
                · intro _; rfl
              simp only [Bool.or_eq_false_iff] at hf
              show (enter grow (enter grow t x).1 k).1.cap = t.cap
              rw [en _ _ hf.2, en _ _ hf.1]
            revert h hc
            rcases addPair grow t x k with ⟨t1, r⟩
            intro h hc
            cases r with
            | true => cases h
            | false => exact (ih t1 t' h).trans (hc rfl)
          · exact ih t t' h
      unfold addModel at hadd
      rcases hlp : addModelLoop grow k (wrap w s k).models (wrap w s k) with _ | t
      · rw [hlp] at hadd; cases hadd
      · rw [hlp] at hadd
        have hadd := Option.some.inj hadd
        have hct := loop _ _ _ hlp
        obtain ⟨_, _, _, f4⟩ := addModelLoop_spec grow k _ _ t (fun _ h => h) hlp
        have hcond : (∃ x ∈ (wrap w s k).models, x ≠ k) ∧ knowsSet (wrap w s k) k = false := by
          refine ⟨⟨0, ?_, by omega⟩, hn⟩
          rw [(wrap_fields w s k).1, h3]
          exact List.mem_range.mpr hk0
        rw [if_pos hcond] at f4
        have hkt : knowsSet t k = true := known_of_mem (by rw [f4]; simp)
        rw [hkt] at hadd
        have hadd : t = s' := hadd
        rw [← hadd, hct, (wrap_fields w s k).2.2.2.2, h2]
    refine ⟨e2.trans ((wrap_fields w s k).2.2.1.trans h1), hcap, ?_, ?_, ?_⟩
    · rw [e4, if_neg (by rw [hn]; simp), (wrap_fields w s k).1, h3, List.range_succ]
    · rw [e1, (wrap_fields w s k).2.2.2.1, h4]
    · intro i hi
      rw [e1, hheap]
      by_cases hik : i < k
      · rw [List.getElem?_append_left (by omega)]; exact h5 i hik
      · have : i = s.heap.length := by omega
        subst this
        simp [h1, h4]
  have first : ∃ s, run w grow (St.init c) ((List.range 1).map Op.addObject) = some s ∧
      Loaded w c (grow 0) 1 s := by
    have hrun : run w grow (St.init c) ((List.range 1).map Op.addObject) =
        some (pushModel grow (wrap w (St.init c) 0) 0).1 := rfl
    refine ⟨_, hrun, ?_⟩
    obtain ⟨f1, f2, f3, f4⟩ := pushModel_fields grow (wrap w (St.init c) 0) 0
    have hh := wrap_set_new w (St.init c) 0 (hw 0)
    refine ⟨f3.trans rfl, rfl, f4.trans rfl, by rw [f1, hh]; rfl, ?_⟩
    intro i hi
    have : i = 0 := by omega
    subst this
    rw [f1, hh]
    rfl
  have load : ∀ j, (∃ n, run w grow (St.init c) ((List.range n).map Op.addObject) = none) ∨
      (j + 1 ≤ grow 0 → ∃ s, run w grow (St.init c) ((List.range (j + 1)).map Op.addObject) = some s ∧
        Loaded w c (grow 0) (j + 1) s) := by
    intro j
    induction j with
    | zero => exact Or.inr (fun _ => first)
    | succ j ih =>
      rcases ih with ih | ih
      · exact Or.inl ih
      · by_cases hj : j + 2 ≤ grow 0
        · obtain ⟨s, hs, hl⟩ := ih (by omega)
          cases hst : step w grow s (.addObject (j + 1)) with
          | none =>
            left
            refine ⟨j + 2, ?_⟩
            rw [List.range_succ, List.map_append, run_append, hs]
            simp [run, hst]
          | some t =>
            right
            intro _
            refine ⟨t, ?_, loadStep (j + 1) s t hl hst (by omega) (by omega)⟩
            rw [List.range_succ, List.map_append, run_append, hs]
            simp [run, hst]
        · exact Or.inr (fun h => absurd h hj)
  have hpos := hg 0
  rcases load (grow 0 - 1) with h | h
  · exact h
  · obtain ⟨s, hs, hl⟩ := h (by omega)
    rw [show grow 0 - 1 + 1 = grow 0 by omega] at hs hl
    refine ⟨grow 0 + 1, ?_⟩
    rw [List.range_succ, List.map_append, run_append, hs]
    have hn := hnot _ s hl
    obtain ⟨h1, h2, h3, h4, h5⟩ := hl
    have hund : step w grow s (.addObject (grow 0)) = none := by
      have := (C28_defined_iff w grow (wrap w s (grow 0)) (grow 0)).not.mpr (by
        rw [hn, (wrap_fields w s _).1, (wrap_fields w s _).2.2.2.2, h2, h3]
        rintro (h | h | h)
        · cases h
        · have := h 0 ((hasSet_iff _ _).mpr (by
            rw [(wrap_fields w s _).1, h3]; exact List.mem_range.mpr hpos))
          omega
        · simp at h)
      have hnone : step w grow (wrap w s (grow 0)) (.addModel (grow 0)) = none := by
        cases hx : step w grow (wrap w s (grow 0)) (.addModel (grow 0)) with
        | none => rfl
        | some y => rw [hx] at this; exact absurd rfl this
      rw [← hnone]
      show addModel grow (wrap w s (grow 0)) s.heap.length = addModel grow (wrap w s (grow 0)) (grow 0)
      rw [h4]
    simp [run, hund]

/-- **Violation.** Adding the same object twice makes the manager test the object against itself. -/
theorem C28_same_object_twice (w : World D W) (grow : Nat → Nat) (c o p : Nat)
    (hw : w.objChecker o = c) (hm : w.colModel o = some p) (hc : w.collide p p = true) :
    ∃ s, run w grow (St.init c) [.addObject o, .addObject o] = some s ∧ isInCollision w s = true := by
  obtain ⟨f1, f2, f3, f4⟩ := pushModel_fields grow (wrap w (St.init c) o) 0
  generalize hs1 : (pushModel grow (wrap w (St.init c) o) 0).1 = s1 at *
  have hh : s1.heap = [{ checker := c, objs := [o] }] := by
    rw [f1, wrap_set_new w (St.init c) o hw]; rfl
  have hmod : s1.models = [0] := f4
  have hck : s1.checker = c := f3.trans rfl
  have hrun1 : step w grow (St.init c) (.addObject o) = some s1 := by rw [← hs1]; rfl
  have hh2 : (wrap w s1 o).heap = [{ checker := c, objs := [o] }, { checker := c, objs := [o] }] := by
    rw [wrap_set_new w s1 o (hw.trans hck.symm), hh, hck]; rfl
  have hk : knowsSet (wrap w s1 o) 1 = true := by
    rw [knowsSet_iff, (wrap_fields w s1 o).1, hmod]
    refine Or.inr ⟨0, by simp, o, ?_, ?_⟩
    · unfold St.set; rw [hh2]; rfl
    · unfold St.set; rw [hh2]; rfl
  have hdef := (C28_defined_iff w grow (wrap w s1 o) 1).mpr (Or.inl hk)
  obtain ⟨s2, hs2⟩ := Option.isSome_iff_exists.mp hdef
  have hstep2 : step w grow s1 (.addObject o) = some s2 := by
    have : s1.heap.length = 1 := by rw [hh]; rfl
    rw [← hs2]
    show addModel grow (wrap w s1 o) s1.heap.length = addModel grow (wrap w s1 o) 1
    rw [this]
  have hrun : run w grow (St.init c) [.addObject o, .addObject o] = some s2 := by
    simp [run, hrun1, hstep2]
  refine ⟨s2, hrun, ?_⟩
  rw [C28_exact w grow c _ s2 hrun]
  have hheap : s2.heap = (wrap w s1 o).heap := (addModel_spec grow _ s2 1 hs2).1
  refine ⟨0, 1, ⟨[.addObject o], .addObject o, [], s1, rfl, by simp [run, hrun1], ?_⟩, ?_⟩
  · exact ⟨by rw [hh]; rfl, by decide, by rw [hasSet_iff, hmod]; simp⟩
  · have e0 : s2.set 0 = { checker := c, objs := [o] } := by unfold St.set; rw [hheap, hh2]; rfl
    have e1 : s2.set 1 = { checker := c, objs := [o] } := by unfold St.set; rw [hheap, hh2]; rfl
    rw [e0, e1]
    exact ⟨o, by simp, o, by simp, p, p, hm, hm, hc⟩

/-! ## C29: distances -/

theorem init_dist (w : World D W) (grow : Nat → Nat) (c : Nat) (ops : List Op) (s : St)
    (h : run w grow (St.init c) ops = some s) (a b : Nat) :
    InMap s.pairs a b ↔ Registered w grow (St.init c) ops a b := by
  constructor
  · intro hm
    rcases (run_pairs w grow _ ops a b s h).mp hm with ⟨_, h0, _⟩ | hr
    · cases h0
    · exact hr
  · intro hr; exact (run_pairs w grow _ ops a b s h).mpr (Or.inr hr)

/-- **C29.** When all watched sets have meshes, `getDistance()` is the minimum of the distances over all
watched pairs and all their meshes, capped by `FLT_MAX`; the output points, when written, belong to a pair of
meshes that attains it, and they are written whenever the distance is below `FLT_MAX`. -/
theorem C29_distance (w : World D W) (grow : Nat → Nat) (c : Nat) (ops : List Op) (s : St)
    (h : run w grow (St.init c) ops = some s)
    (hmesh : ∀ a b, Registered w grow (St.init c) ops a b →
      HasMesh w (s.set a) ∧ HasMesh w (s.set b)) :
    IsMin w.fltMax (fun d => ∃ a b v, Registered w grow (St.init c) ops a b ∧
      IsDist w (s.set a) (s.set b) (d, v)) (getDistance w s).1 ∧
    (∀ v, (getDistance w s).2 = some v → ∃ a b, Registered w grow (St.init c) ops a b ∧
      IsDist w (s.set a) (s.set b) ((getDistance w s).1, v)) ∧
    ((getDistance w s).1 < w.fltMax → ∃ v, (getDistance w s).2 = some v) := by
  obtain ⟨h1, h2, h3⟩ := distPairs_min w s s.pairs (w.fltMax, none) (le_refl _)
  have hdef : distPairs w s s.pairs (w.fltMax, none) = getDistance w s := rfl
  rw [hdef] at h1 h2 h3
  have src : getDistance w s = (w.fltMax, none) ∨ ∃ a b v, Registered w grow (St.init c) ops a b ∧
      IsDist w (s.set a) (s.set b) ((getDistance w s).1, v) ∧ (getDistance w s).2 = some v := by
    rcases h3 with h3 | ⟨a, b, hm, h3⟩
    · exact Or.inl h3
    · have hr := (init_dist w grow c ops s h a b).mp hm
      obtain ⟨ma, mb⟩ := hmesh a b hr
      rcases (distSets_of_mesh w _ _ ma mb).src with hs | ⟨v, hv, hv2⟩
      · exact Or.inl (h3.trans hs)
      · rw [← h3] at hv hv2
        exact Or.inr ⟨a, b, v, hr, hv, hv2⟩
  refine ⟨⟨h1, ?_, ?_⟩, ?_, ?_⟩
  · rintro d ⟨a, b, v, hr, hd⟩
    obtain ⟨ma, mb⟩ := hmesh a b hr
    have := h2 _ ⟨a, b, (init_dist w grow c ops s h a b).mpr hr, rfl⟩
    exact le_trans this ((distSets_of_mesh w _ _ ma mb).le_cand (d, some v) ⟨v, hd, rfl⟩)
  · rcases src with hs | ⟨a, b, v, hr, hd, _⟩
    · left; rw [hs]
    · exact Or.inr ⟨a, b, v, hr, hd⟩
  · intro v hv
    rcases src with hs | ⟨a, b, v', hr, hd, hv'⟩
    · rw [hs] at hv; cases hv
    · rw [hv] at hv'
      cases hv'
      exact ⟨a, b, hr, hd⟩
  · intro hlt
    rcases src with hs | ⟨a, b, v, _, _, hv⟩
    · rw [hs] at hlt; exact absurd hlt (lt_irrefl _)
    · exact ⟨v, hv⟩

/-- **C29.** Without any watched pair the answer is `FLT_MAX`. -/
theorem C29_none (w : World D W) (grow : Nat → Nat) (c : Nat) (ops : List Op) (s : St)
    (h : run w grow (St.init c) ops = some s)
    (hno : ∀ a b, ¬Registered w grow (St.init c) ops a b) :
    (getDistance w s).1 = w.fltMax ∧ (getDistance w s).2 = none := by
  obtain ⟨_, _, h3⟩ := distPairs_min w s s.pairs (w.fltMax, none) (le_refl _)
  rcases h3 with h3 | ⟨a, b, hm, _⟩
  · exact ⟨congrArg Prod.fst h3, congrArg Prod.snd h3⟩
  · exact absurd ((init_dist w grow c ops s h a b).mp hm) (hno a b)

/-- **Violation.** One watched set without meshes makes `getDistance()` return `-1`, whatever the other
pairs are. -/
theorem C29_empty_set (w : World D W) (grow : Nat → Nat) (c : Nat) (ops : List Op) (s : St)
    (h : run w grow (St.init c) ops = some s) (hneg : ∀ p q, w.negOne ≤ (w.closest p q).1)
    (hlt : w.negOne ≤ w.fltMax) (a b : Nat) (hr : Registered w grow (St.init c) ops a b)
    (he : ¬HasMesh w (s.set a) ∨ ¬HasMesh w (s.set b)) : (getDistance w s).1 = w.negOne := by
  obtain ⟨h1, h2, h3⟩ := distPairs_min w s s.pairs (w.fltMax, none) (le_refl _)
  have hle := h2 _ ⟨a, b, (init_dist w grow c ops s h a b).mpr hr, rfl⟩
  rw [distSets_no_mesh w _ _ he] at hle
  refine le_antisymm hle ?_
  show w.negOne ≤ (distPairs w s s.pairs (w.fltMax, none)).1
  rcases h3 with h3 | ⟨x, y, _, h3⟩
  · rw [h3]; exact hlt
  · rw [h3]
    by_cases hm : HasMesh w (s.set x) ∧ HasMesh w (s.set y)
    · rcases (distSets_of_mesh w _ _ hm.1 hm.2).src with hs | ⟨v, ⟨_, _, _, _, p, q, _, _, hv⟩, _⟩
      · rw [hs]; exact hlt
      · have : (distSets w (s.set x) (s.set y)).1 = (w.closest p q).1 := congrArg Prod.fst hv
        rw [this]; exact hneg p q
    · rw [distSets_no_mesh w _ _ (by
        by_cases hx : HasMesh w (s.set x)
        · exact Or.inr (fun hy => hm ⟨hx, hy⟩)
        · exact Or.inl hx)]

/-- **C29.** The distance of a set to the manager is the minimum over the members other than the set. -/
theorem C29_distance_to (w : World D W) (s : St) (m : Nat) (hm : HasMesh w (s.set m))
    (hmesh : ∀ a, hasSceneObjectSet s a = true → HasMesh w (s.set a)) :
    IsMin w.fltMax (fun d => ∃ a v, hasSceneObjectSet s a = true ∧ a ≠ m ∧
      IsDist w (s.set a) (s.set m) (d, v)) (getDistanceTo w s m) := by
  obtain ⟨h1, h2, h3⟩ := distModels_min w s m s.models w.fltMax
  refine ⟨h1, ?_, ?_⟩
  · rintro d ⟨a, v, ha, hne, hd⟩
    have := h2 a ((hasSet_iff s a).mp ha) hne
    exact le_trans this ((distSets_of_mesh w _ _ (hmesh a ha) hm).le_cand (d, some v) ⟨v, hd, rfl⟩)
  · rcases h3 with h3 | ⟨a, ha, hne, h3⟩
    · exact Or.inl h3
    · have ha' := (hasSet_iff s a).mpr ha
      rcases (distSets_of_mesh w _ _ (hmesh a ha') hm).src with hs | ⟨v, hv, _⟩
      · left; rw [getDistanceTo, h3, hs]
      · right
        refine ⟨a, v, ha', hne, ?_⟩
        rw [getDistanceTo, h3]
        exact hv

/-- **C29.** The variant with output points takes the minimum over all members, the set itself included. -/
theorem C29_distance_to_points (w : World D W) (s : St) (m : Nat) (hm : HasMesh w (s.set m))
    (hmesh : ∀ a, hasSceneObjectSet s a = true → HasMesh w (s.set a)) :
    IsMin w.fltMax (fun d => ∃ a v, hasSceneObjectSet s a = true ∧
      IsDist w (s.set m) (s.set a) (d, v)) (getDistanceToPts w s m).1 ∧
    (∀ v, (getDistanceToPts w s m).2 = some v → ∃ a, hasSceneObjectSet s a = true ∧
      IsDist w (s.set m) (s.set a) ((getDistanceToPts w s m).1, v)) := by
  obtain ⟨h1, h2, h3⟩ := distList_min w s m s.models (w.fltMax, none)
  have hdef : distList w s m s.models (w.fltMax, none) = getDistanceToPts w s m := rfl
  rw [hdef] at h1 h2 h3
  have src : getDistanceToPts w s m = (w.fltMax, none) ∨ ∃ a v, hasSceneObjectSet s a = true ∧
      IsDist w (s.set m) (s.set a) ((getDistanceToPts w s m).1, v) ∧
      (getDistanceToPts w s m).2 = some v := by
    rcases h3 with h3 | ⟨a, ha, h3⟩
    · exact Or.inl h3
    · have ha' := (hasSet_iff s a).mpr ha
      rcases (distSets_of_mesh w _ _ hm (hmesh a ha')).src with hs | ⟨v, hv, hv2⟩
      · exact Or.inl (h3.trans hs)
      · rw [← h3] at hv hv2
        exact Or.inr ⟨a, v, ha', hv, hv2⟩
  refine ⟨⟨h1, ?_, ?_⟩, ?_⟩
  · rintro d ⟨a, v, ha, hd⟩
    have := h2 _ ⟨a, (hasSet_iff s a).mp ha, rfl⟩
    exact le_trans this ((distSets_of_mesh w _ _ hm (hmesh a ha)).le_cand (d, some v) ⟨v, hd, rfl⟩)
  · rcases src with hs | ⟨a, v, ha, hd, _⟩
    · left; rw [hs]
    · exact Or.inr ⟨a, v, ha, hd⟩
  · intro v hv
    rcases src with hs | ⟨a, v', ha, hd, hv'⟩
    · rw [hs] at hv; cases hv
    · rw [hv] at hv'; cases hv'
      exact ⟨a, ha, hd⟩

/-! ## Concrete cases -/

/-- Objects 0, 1, 2 with meshes of the same numbers on a line at 0, 10 and 11; meshes closer than 2 collide;
object 3 has no mesh. -/
def exWorld : World Int (Int × Int) where
  objChecker _ := 7
  colModel o := if o < 3 then some o else none
  collide p q := decide ((pos p - pos q).natAbs < 2)
  closest p q := ((pos p - pos q).natAbs, (pos p, pos q))
  fltMax := 1000
  negOne := -1
where
  pos : Nat → Int
    | 0 => 0
    | 1 => 10
    | _ => 11

/-- Two pairs, one of which collides. -/
def exOps : List Op := [.newSet 7, .setAdd 0 0, .newSet 7, .setAdd 1 1, .newSet 7, .setAdd 2 2,
  .addPair 0 1, .addPair 0 2]

example : (run exWorld (fun n => 2 * n + 1) (St.init 7) exOps).map
    (fun s => (isInCollision exWorld s, getDistance exWorld s, isInCollisionWith exWorld s 1,
      getDistanceTo exWorld s 1, getDistanceToPts exWorld s 1)) =
    some (false, (10, some (0, 10)), true, 1, (0, some (10, 10))) := by rfl

/-- The variant with output points reports the distance of a member to itself: here 0 instead of 1. -/
theorem C29_variants_disagree : ∃ (ops : List Op) (s : St),
    run exWorld (fun n => 2 * n + 1) (St.init 7) ops = some s ∧
    getDistanceTo exWorld s 1 = 1 ∧ (getDistanceToPts exWorld s 1).1 = 0 :=
  ⟨exOps, _, rfl, by decide, by decide⟩

/-- With the growth policy of libstdc++ the second call of `addCollisionModel` is undefined already. -/
example : run exWorld (fun n => if n = 0 then 1 else 2 * n) (St.init 7) [.addObject 0, .addObject 1] =
    none := by decide

/-- With a generous first allocation it is not, and the pair is watched. -/
example : (run exWorld (fun n => 2 * n + 8) (St.init 7) [.addObject 1, .addObject 2]).map
    (fun s => (isInCollision exWorld s, (getDistance exWorld s).1)) = some (true, 1) := by decide

/-- A set without meshes spoils the distance. -/
example : (run exWorld (fun n => 2 * n + 1) (St.init 7) (exOps ++ [.addPairOO 0 3])).map
    (fun s => (getDistance exWorld s).1) = some (-1) := by decide

/-- Set operations: the second object is refused as a duplicate, the rest of the bulk operation is skipped. -/
example : (({ checker := 7, objs := [1] } : SetObj).addSet exWorld { checker := 7, objs := [0, 1, 2] }) =
    ({ checker := 7, objs := [1, 0] }, false) := by decide

end Simox.Collision
