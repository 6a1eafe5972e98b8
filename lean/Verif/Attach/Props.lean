/-
Property C36: hierarchies of scene objects.
-/
import Verif.Attach.Lemmas2

namespace Simox.Attach

variable {P : Type}

/-- C36: after any history of constructing, attaching, detaching and destroying objects, the parent
and child links agree, no object has two parents (the parent is a function of the object), no child
is listed twice, and siblings have different names. -/
theorem C36_links {one : P} {h : List Op} {w : World P} (hr : Reach one h w) :
    LinksAgree w ∧ SiblingsDistinct w ∧
      ∀ p q c, c ∈ w.children p → c ∈ w.children q → p = q := by
  have hi := hr.inv
  refine ⟨⟨fun p c => ?_, hi.nodup⟩, hi.names, fun p q c hp hq => ?_⟩
  · rw [hi.getParent]; exact ⟨hi.down p c, hi.up p c⟩
  · have h1 := hi.down p c hp
    rw [hi.down q c hq] at h1
    exact (Option.some.inj h1).symm

/-- C36: `attachChild` after any history: it never throws.  It reports success exactly when the
object was already a child, or it is a different object without parent whose name no child has.  In
the latter case exactly this link is added (at the end of the children); otherwise nothing changes. -/
theorem C36_attach {one : P} {h : List Op} {w : World P} (hr : Reach one h w) (p c : Nat) :
    ∃ w' ok, attachChild w p c = .returned w' ok ∧
      (ok = true ↔ p ≠ c ∧ (c ∈ w.children p ∨
        (getParent w c = none ∧ ∀ d ∈ w.children p, w.name d ≠ w.name c))) ∧
      w'.alive = w.alive ∧ w'.name = w.name ∧ w'.pose = w.pose ∧
      (∀ q, w'.children q =
        if ok = true ∧ c ∉ w.children p ∧ q = p then w.children q ++ [c] else w.children q) ∧
      (w.alive p = true → ∀ d, getParent w' d =
        if ok = true ∧ d = c then some p else getParent w d) := by
  have hi := hr.inv
  by_cases hf : Fresh w p c
  · obtain ⟨h1, h2, h3, h4⟩ := hf
    refine ⟨_, _, attachChild_fresh ⟨h1, h2, h3, h4⟩, ?_, rfl, rfl, rfl, ?_, ?_⟩
    · simp only [true_iff]
      exact ⟨h1, Or.inr ⟨h3, h4⟩⟩
    · intro q
      by_cases e : q = p
      · subst e; simp [linked, put_self, h2]
      · simp [linked, put_ne _ _ e, e]
    · intro hp d
      by_cases e : d = c
      · subst e; simp [getParent, linked, put_self, hp]
      · rw [if_neg (fun h => e h.2)]
        unfold getParent
        simp only [linked, put_ne _ _ e]
        cases w.parent d <;> rfl
  · by_cases hc : p = c ∨ c ∉ w.children p
    · refine ⟨_, _, attachChild_refused hf hc, ?_, rfl, rfl, rfl, by simp, by simp⟩
      simp only [Bool.false_eq_true, false_iff]
      rintro ⟨h1, h2 | ⟨h3, h4⟩⟩
      · rcases hc with hc | hc
        · exact h1 hc
        · exact hc h2
      · rcases hc with hc | hc
        · exact h1 hc
        · exact hf ⟨h1, hc, h3, h4⟩
    · have h1 : p ≠ c := fun e => hc (Or.inl e)
      have h2 : c ∈ w.children p := by
        by_contra h; exact hc (Or.inr h)
      refine ⟨_, _, attachChild_child h1 h2, ?_, rfl, rfl, rfl, ?_, ?_⟩
      · simp only [true_iff]; exact ⟨h1, Or.inl h2⟩
      · intro q; simp [h2]
      · intro _ d
        by_cases e : d = c
        · subst e; simp [hi.getParent, hi.down p d h2]
        · simp [e]

/-- C36: `detachChild` removes exactly the link between the two objects, if there is one; the
object can then be attached elsewhere. -/
theorem C36_detach {one : P} {h : List Op} {w : World P} (hr : Reach one h w) (p c : Nat) :
    (∀ q d, d ∈ (detachChild w p c).children q ↔ d ∈ w.children q ∧ ¬ (q = p ∧ d = c)) ∧
    (c ∈ w.children p → getParent (detachChild w p c) c = none) ∧
    (detachChild w p c).pose = w.pose := by
  have hi := hr.inv
  by_cases hc : c ∈ w.children p
  · refine ⟨fun q d => ?_, fun _ => ?_, by rw [detach_child hc]⟩
    · rw [mem_unlinked hi hc]
      refine ⟨fun h => ⟨h.1, fun e => h.2 e.2⟩, fun h => ⟨h.1, fun e => h.2 ⟨?_, e⟩⟩⟩
      have h1 := hi.down q d h.1
      rw [e, hi.down p c hc] at h1
      exact (Option.some.inj h1).symm
    · rw [(inv_detach hi p c).getParent, detach_child hc]
      exact put_self _ _ _
  · refine ⟨fun q d => ?_, fun h => absurd h hc, by rw [detach_other hc]⟩
    rw [detach_other hc]
    refine ⟨fun h => ⟨h, fun e => hc (e.1 ▸ e.2 ▸ h)⟩, fun h => h.1⟩

/-- C36: if no call hangs an object below itself, no object ever is its own ancestor. -/
theorem C36_forest {one : P} {h : List Op} {w : World P} (hr : GoodReach one h w) : Forest w :=
  hr.forest

/-- C36: nothing stops a program from hanging an object below itself: whenever an object without
parent is above another one, attaching it there succeeds (unless a child has its name) and makes it
its own ancestor. -/
theorem C36_cycle_admitted {one : P} {h : List Op} {w : World P} (hr : Reach one h w) {r x : Nat}
    (hroot : getParent w r = none) (hb : Below w r x)
    (hn : ∀ d ∈ w.children x, w.name d ≠ w.name r) :
    ∃ w', attachChild w x r = .returned w' true ∧ Below w' r r ∧ ¬ Forest w' := by
  have hi := hr.inv
  rw [hi.getParent] at hroot
  have hno : ∀ q, r ∉ w.children q := by
    intro q hq; rw [hi.down q r hq] at hroot; exact absurd hroot (by simp)
  have hne : x ≠ r := by
    rintro rfl
    obtain ⟨y, _, hy⟩ := Relation.TransGen.tail'_iff.1 hb
    exact hno y hy
  have hf : Fresh w x r := ⟨hne, hno x, by rw [hi.getParent]; exact hroot, hn⟩
  have hbl : Below (linked w x r) r r := by
    have hup : ∀ a b, Below w a b → Below (linked w x r) a b := by
      intro a b h
      induction h with
      | single h => exact .single (mem_linked.2 (Or.inl h))
      | tail _ h ih => exact ih.tail (mem_linked.2 (Or.inl h))
    exact (hup r x hb).tail (mem_linked.2 (Or.inr ⟨rfl, rfl⟩))
  exact ⟨_, attachChild_fresh hf, hbl, fun h => h r hbl⟩

/-- C36: without cycles `hasChild(…, recursive = true)` terminates and tells whether one of the
objects below satisfies the comparison (same pointer or same name). -/
theorem C36_has_child {one : P} {h : List Op} {w : World P} (hr : Reach one h w) (hf : Forest w)
    (hit : Nat → Bool) (x : Nat) :
    ∃ depth b, (∀ f, depth ≤ f → hasChildRec w hit f x = some b) ∧
      (b = true ↔ ∃ z, Below w x z ∧ hit z = true) :=
  hasChildRec_spec w hit (acc_of_forest hr.inv hf x)

/-- C36: once an object is its own ancestor, an unsuccessful recursive search from it never
returns. -/
theorem C36_has_child_cycle (w : World P) (hit : Nat → Bool) {x : Nat} (hx : Below w x x)
    (hn : ∀ z, Below w x z → hit z = false) : ∀ f, hasChildRec w hit f x = none :=
  fun f => hasChildRec_cycle w hit f x hx hn

/-- C36: without cycles, moving an object without parent terminates and gives it and all objects
below it the new pose, changing nothing else; moving an attached object has no effect. -/
theorem C36_set_pose {one : P} {h : List Op} {w : World P} (hr : Reach one h w) (hf : Forest w)
    (x : Nat) (g : P) :
    ∃ depth, ∀ f, depth ≤ f → ∃ w', setGlobalPose f w x g = some w' ∧
      w'.children = w.children ∧ w'.parent = w.parent ∧
      (getParent w x = none → ∀ z, (z = x ∨ Below w x z → w'.pose z = g) ∧
        (¬ (z = x ∨ Below w x z) → w'.pose z = w.pose z)) ∧
      (getParent w x ≠ none → w' = w) := by
  obtain ⟨d, hd⟩ := updatePose_spec hf (acc_of_forest hr.inv hf x)
  refine ⟨d, fun f hdf => ?_⟩
  unfold setGlobalPose
  cases e : getParent w x with
  | some p => exact ⟨w, rfl, rfl, rfl, fun h => absurd h (by simp), fun _ => rfl⟩
  | none =>
    obtain ⟨b, hb, hs, hp⟩ := hd f hdf w g rfl
    exact ⟨b, hb, hs.children, hs.parent, fun _ z => ⟨hp.1 z, hp.2 z⟩, fun h => absurd rfl h⟩

/-- C36: once an object is its own ancestor, updating the pose of any object on or above the cycle
never returns. -/
theorem C36_pose_cycle (w : World P) {x y : Nat} (hy : Below w y y) (hx : x = y ∨ Below w x y)
    (g : P) : ∀ f, updatePose f w x g = none :=
  fun f => updatePose_cycle f x ⟨y, hy, hx⟩ w g rfl

/-- C36: initializing an object with the parent it has changes no link; the object and everything
below it get the parent's pose, or the identity for an object without parent. -/
theorem C36_initialize {one : P} {h : List Op} {w : World P} (hr : Reach one h w) (hf : Forest w)
    (x : Nat) :
    ∃ depth, ∀ f, depth ≤ f → ∃ w', initObj one f w x (getParent w x) [] = some w' ∧
      w'.alive = w.alive ∧ w'.name = w.name ∧ w'.children = w.children ∧ w'.parent = w.parent ∧
      ∀ z, (z = x ∨ Below w x z →
          w'.pose z = match getParent w x with | some p => w.pose p | none => one) ∧
        (¬ (z = x ∨ Below w x z) → w'.pose z = w.pose z) := by
  obtain ⟨d, hd⟩ := initObj_spec one hr.inv hf (acc_of_forest hr.inv hf x)
  refine ⟨d, fun f hdf => ?_⟩
  obtain ⟨b, hb, hs, hp⟩ := hd f hdf w (Same.refl w)
  rw [hr.inv.getParent]
  exact ⟨b, hb, hs.alive, hs.name, hs.children, hs.parent, fun z => ⟨hp.1 z, hp.2 z⟩⟩

/-- Three objects named "a", "b", "c", the second one attached to the first. -/
def pairOps : List Op := [.create 0 "a", .create 1 "b", .create 2 "c", .attach 0 1]

/-- The world after `pairOps`. -/
def pairWorld : World Nat :=
  step 0 (step 0 (step 0 (step 0 (World.init 0) (.create 0 "a")) (.create 1 "b")) (.create 2 "c"))
    (.attach 0 1)

theorem pairWorld_reach : GoodReach 0 pairOps pairWorld := by
  have h0 : GoodReach (0 : Nat) [] (World.init 0) := .start
  have h1 := GoodReach.next (op := .create 0 "a") h0 rfl trivial
  have h2 := GoodReach.next (op := .create 1 "b") h1 rfl trivial
  have h3 := GoodReach.next (op := .create 2 "c") h2 rfl trivial
  have h4 := GoodReach.next (op := .attach 0 1) h3 ⟨rfl, rfl⟩ (by
    intro h
    rcases Relation.reflTransGen_iff_eq_or_transGen.1 h with h | h
    · exact absurd h (by decide)
    · obtain ⟨y, hy, _⟩ := Relation.TransGen.head'_iff.1 h
      exact absurd (show y ∈ ([] : List Nat) from hy) (by simp))
  exact h4

/-- C36 (violation): `initialize()` without arguments on an attached object drops its parent link
but leaves it among the children of the old parent: it can then be attached to a second object, so
that it is a child of both. -/
theorem C36_initialize_breaks_links :
    ∃ (h : List Op) (w w' w'' : World Nat) (p q c : Nat), GoodReach 0 h w ∧ Forest w ∧
      c ∈ w.children p ∧ initObj 0 5 w c none [] = some w' ∧ ¬ LinksAgree w' ∧
      attachChild w' q c = .returned w'' true ∧ p ≠ q ∧
      c ∈ w''.children p ∧ c ∈ w''.children q := by
  refine ⟨pairOps, pairWorld, { pairWorld with
      parent := put pairWorld.parent 1 none, pose := put pairWorld.pose 1 0 },
    linked { pairWorld with
      parent := put pairWorld.parent 1 none, pose := put pairWorld.pose 1 0 } 2 1, 0, 2, 1,
    pairWorld_reach, pairWorld_reach.forest, by decide, rfl, ?_, ?_, by decide, by decide,
    by decide⟩
  · intro hl
    have := (hl.1 0 1).1 (by decide)
    exact absurd this (by decide)
  · exact attachChild_fresh ⟨by decide, by decide, by decide, by decide⟩

/-- C36 (violation): renaming an attached object is not checked; siblings can end up with the same
name. -/
theorem C36_rename_breaks_names :
    ∃ (h : List Op) (w : World Nat) (x : Nat) (n : String), GoodReach 0 h w ∧
      SiblingsDistinct w ∧ ¬ SiblingsDistinct (setName w x n) := by
  have hr : GoodReach 0 (pairOps ++ [.attach 0 2]) (step 0 pairWorld (.attach 0 2)) :=
    .next pairWorld_reach ⟨rfl, rfl⟩ (by
      intro h
      rcases Relation.reflTransGen_iff_eq_or_transGen.1 h with h | h
      · exact absurd h (by decide)
      · obtain ⟨y, hy, _⟩ := Relation.TransGen.head'_iff.1 h
        exact absurd (show y ∈ ([] : List Nat) from hy) (by simp))
  refine ⟨_, _, 2, "b", hr, (C36_links hr.reach).2.1, fun hd => ?_⟩
  have := hd 0 1 2 (by decide) (by decide) (by decide)
  exact absurd this (by decide)

/-! ### Non-vacuity -/

-- a reachable world with a link, on which attaching succeeds, is refused, and is repeated
example : ∃ w', attachChild pairWorld 1 2 = .returned w' true ∧ w'.children 1 = [2] :=
  ⟨_, attachChild_fresh ⟨by decide, by decide, by decide, by decide⟩, by decide⟩
example : attachChild pairWorld 2 1 = .returned pairWorld false :=
  attachChild_refused (fun h => absurd h.2.2.1 (by decide)) (Or.inr (by decide))
example : attachChild pairWorld 0 1 = .returned pairWorld true :=
  attachChild_child (by decide) (by decide)
-- the premises of `C36_cycle_admitted` and of the two divergence theorems
example : ∃ w', attachChild pairWorld 1 0 = .returned w' true ∧ Below w' 0 0 ∧
    (∀ f, updatePose f w' 0 7 = none) := by
  obtain ⟨w', h1, h2, _⟩ := C36_cycle_admitted pairWorld_reach.reach (r := 0) (x := 1) (by decide)
    (.single (show (1 : Nat) ∈ pairWorld.children 0 by decide)) (by decide)
  exact ⟨w', h1, h2, C36_pose_cycle w' h2 (Or.inl rfl) 7⟩
-- moving the parent moves the child
example : ∃ f w', setGlobalPose f pairWorld 0 9 = some w' ∧ w'.pose 1 = 9 ∧ w'.pose 2 = 0 :=
  ⟨3, _, rfl, by decide, by decide⟩

end Simox.Attach
