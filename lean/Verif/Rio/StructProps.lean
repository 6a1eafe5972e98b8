import Verif.Rio.Structure
import Mathlib.Data.Fintype.Card
import Mathlib.Order.WellFounded
import Mathlib.Data.Finite.Defs
import Mathlib.Order.RelIso.Basic
import Mathlib.Data.Fintype.Order
import Mathlib.Logic.Relation

/-!
# C137: the structure of a robot, and C138: the names of robots
-/

namespace Simox.Rio

/-- The children lists and the parents fit, and no node is twice a child. -/
def Tree.Fits (t : Tree) : Prop :=
  (∀ p c, c ∈ t.children p ↔ t.parent c = some p) ∧ (∀ p, (t.children p).Nodup) ∧ ∀ c, t.parent c ≠ some c

theorem fits_empty : Tree.empty.Fits := ⟨by simp [Tree.empty], by simp [Tree.empty], by simp [Tree.empty]⟩

theorem fits_attach {t : Tree} (h : t.Fits) (p c : String) : (t.attach p c).Fits := by
  unfold Tree.attach
  by_cases h1 : p = c
  · rw [if_pos h1]; exact h
  rw [if_neg h1]
  by_cases h2 : c ∈ t.children p
  · rw [if_pos h2]; exact h
  rw [if_neg h2]
  by_cases h3 : (t.parent c).isSome = true
  · rw [if_pos h3]; exact h
  rw [if_neg h3]
  have h3' : t.parent c = none := by simpa using h3
  obtain ⟨a, b, d⟩ := h
  refine ⟨fun q x => ?_, fun q => ?_, fun x => ?_⟩ <;> dsimp only
  · by_cases hq : q = p <;> by_cases hx : x = c
    · simp [hq, hx]
    · simp [hq, hx, a]
    · rw [if_neg hq, if_pos hx, hx, a, h3']; simp; exact fun e => hq e.symm
    · rw [if_neg hq, if_neg hx, a]
  · by_cases hq : q = p
    · rw [if_pos hq, List.nodup_append]
      refine ⟨b p, by simp, fun x hx y hy => ?_⟩
      simp only [List.mem_singleton] at hy
      rw [hy]; rintro rfl; exact h2 hx
    · rw [if_neg hq]; exact b q
  · by_cases hx : x = c
    · rw [if_pos hx]; simp; rw [hx]; exact h1
    · rw [if_neg hx]; exact d x

/-- The pairs of a node and a child that a list of nodes asks for, in order. -/
def pairs (l : List NodeDef) : List (String × String) := l.flatMap fun n => n.children.map fun c => (n.name, c)

theorem attachAll_eq (known : List String) (p : String) (cs : List String) (t t' : Tree) :
    attachAll known p cs t = some t' ↔ (∀ c ∈ cs, c ∈ known) ∧ t' = (cs.map fun c => (p, c)).foldl (fun t x => t.attach x.1 x.2) t := by
  induction cs generalizing t with
  | nil => simp [attachAll, eq_comm]
  | cons c cs ih =>
      unfold attachAll
      by_cases h : c ∈ known
      · rw [if_pos h, ih]; simp [h]
      · rw [if_neg h]; simp [h]

theorem attachNodes_eq (known : List String) (l : List NodeDef) (t t' : Tree) :
    attachNodes known l t = some t' ↔ (∀ n ∈ l, ∀ c ∈ n.children, c ∈ known) ∧ t' = (pairs l).foldl (fun t x => t.attach x.1 x.2) t := by
  induction l generalizing t with
  | nil => simp [attachNodes, pairs, eq_comm]
  | cons n l ih =>
      unfold attachNodes
      have hp : pairs (n :: l) = (n.children.map fun c => (n.name, c)) ++ pairs l := by simp [pairs]
      rw [hp, List.foldl_append]
      cases ha : attachAll known n.name n.children t with
      | none =>
          simp only [reduceCtorEq, false_iff, not_and]
          intro h
          have := (attachAll_eq known n.name n.children t _).2 ⟨h n (by simp), rfl⟩
          rw [ha] at this
          simp at this
      | some t1 =>
          obtain ⟨h1, rfl⟩ := (attachAll_eq known n.name n.children t t1).1 ha
          simp only [ih, List.mem_cons, forall_eq_or_imp]
          constructor
          · rintro ⟨h2, h3⟩; exact ⟨⟨h1, h2⟩, h3⟩
          · rintro ⟨⟨-, h2⟩, h3⟩; exact ⟨h2, h3⟩

theorem fits_foldl (l : List (String × String)) {t : Tree} (h : t.Fits) : (l.foldl (fun t x => t.attach x.1 x.2) t).Fits := by
  induction l generalizing t with
  | nil => exact h
  | cons x l ih => exact ih (fits_attach h _ _)

theorem foldl_parent_mem (l : List (String × String)) (t : Tree) (p c : String) (h : (l.foldl (fun t x => t.attach x.1 x.2) t).parent c = some p) :
    t.parent c = some p ∨ (p, c) ∈ l := by
  induction l generalizing t with
  | nil => exact .inl h
  | cons x l ih =>
      rcases ih _ h with h | h
      · change (t.attach x.1 x.2).parent c = some p at h
        unfold Tree.attach at h
        by_cases h1 : x.1 = x.2
        · rw [if_pos h1] at h; exact .inl h
        rw [if_neg h1] at h
        by_cases h2 : x.2 ∈ t.children x.1
        · rw [if_pos h2] at h; exact .inl h
        rw [if_neg h2] at h
        by_cases h3 : (t.parent x.2).isSome = true
        · rw [if_pos h3] at h; exact .inl h
        rw [if_neg h3] at h
        dsimp only at h
        by_cases h4 : c = x.2
        · rw [if_pos h4] at h
          simp only [Option.some.injEq] at h
          right
          rw [← h, h4]; simp
        · rw [if_neg h4] at h; exact .inl h
      · right; simp [h]

theorem buildRobot_eq {doc order : List NodeDef} {root : String} {t : Tree} (h : buildRobot doc order root = some t) :
    (doc.map NodeDef.name).Nodup ∧ root ∈ doc.map NodeDef.name ∧ (∀ n ∈ order, ∀ c ∈ n.children, c ∈ doc.map NodeDef.name) ∧
      t = (pairs order).foldl (fun t x => t.attach x.1 x.2) Tree.empty ∧ ∀ n ∈ doc, n.name ≠ root → ∃ p, t.parent n.name = some p := by
  unfold buildRobot at h
  by_cases h1 : (doc.map NodeDef.name).Nodup
  · rw [if_neg (by simpa using h1)] at h
    by_cases h2 : root ∈ doc.map NodeDef.name
    · rw [if_neg (by simpa using h2)] at h
      cases ha : attachNodes (doc.map NodeDef.name) order Tree.empty with
      | none => rw [ha] at h; simp at h
      | some t1 =>
          rw [ha] at h
          dsimp only at h
          by_cases h3 : doc.all (fun n => n.name == root || (t1.parent n.name).isSome) = true
          · rw [if_pos h3] at h
            simp only [Option.some.injEq] at h
            subst h
            obtain ⟨a, b⟩ := (attachNodes_eq _ _ _ _).1 ha
            refine ⟨h1, h2, a, b, fun n hn hr => ?_⟩
            have := List.all_eq_true.1 h3 n hn
            simp only [Bool.or_eq_true, beq_iff_eq, hr, false_or] at this
            exact Option.isSome_iff_exists.1 this
          · rw [if_neg h3] at h; simp at h
    · rw [if_pos (by simpa using h2)] at h; simp at h
  · rw [if_pos (by simpa using h1)] at h; simp at h

/-- **C137** (accepted documents): a robot is built only if the names of its nodes differ, its root is one of them and all children exist. Then, in whatever order
the nodes are connected, parents and children fit, no node is its own parent, a node has only a parent that lists it, and every node but the root has a parent. -/
theorem C137_structure {doc order : List NodeDef} (hp : order.Perm doc) {root : String} {t : Tree} (h : buildRobot doc order root = some t) :
    ((doc.map NodeDef.name).Nodup ∧ root ∈ doc.map NodeDef.name ∧ ∀ n ∈ doc, ∀ c ∈ n.children, c ∈ doc.map NodeDef.name) ∧
    t.Fits ∧ (∀ c p, t.parent c = some p → ∃ n ∈ doc, n.name = p ∧ c ∈ n.children) ∧ ∀ n ∈ doc, n.name ≠ root → ∃ p, t.parent n.name = some p := by
  obtain ⟨h1, h2, h3, h4, h5⟩ := buildRobot_eq h
  refine ⟨⟨h1, h2, fun n hn => h3 n (hp.mem_iff.2 hn)⟩, by rw [h4]; exact fits_foldl _ fits_empty, fun c p hc => ?_, h5⟩
  rw [h4] at hc
  rcases foldl_parent_mem _ _ _ _ hc with h | h
  · simp [Tree.empty] at h
  · simp only [pairs, List.mem_flatMap, List.mem_map, Prod.mk.injEq] at h
    obtain ⟨n, hn, c', hc', rfl, rfl⟩ := h
    exact ⟨n, hp.mem_iff.1 hn, rfl, hc'⟩

theorem foldl_parent_isSome (l : List (String × String)) {t : Tree} (ht : t.Fits) (c : String) :
    (∃ p, (l.foldl (fun t x => t.attach x.1 x.2) t).parent c = some p) ↔ (∃ p, t.parent c = some p) ∨ ∃ p, (p, c) ∈ l ∧ p ≠ c := by
  induction l generalizing t with
  | nil => simp
  | cons x l ih =>
      rw [List.foldl_cons, ih (fits_attach ht _ _)]
      have key : (∃ p, (t.attach x.1 x.2).parent c = some p) ↔ (∃ p, t.parent c = some p) ∨ (x.2 = c ∧ x.1 ≠ c) := by
        unfold Tree.attach
        by_cases h1 : x.1 = x.2
        · rw [if_pos h1]
          constructor
          · exact .inl
          · rintro (h | ⟨h, h'⟩)
            · exact h
            · exact absurd (h1.trans h) h'
        rw [if_neg h1]
        by_cases h2 : x.2 ∈ t.children x.1
        · rw [if_pos h2]
          constructor
          · exact .inl
          · rintro (h | ⟨h, -⟩)
            · exact h
            · rw [← h]; exact ⟨_, (ht.1 _ _).1 h2⟩
        rw [if_neg h2]
        by_cases h3 : (t.parent x.2).isSome = true
        · rw [if_pos h3]
          constructor
          · exact .inl
          · rintro (h | ⟨h, -⟩)
            · exact h
            · rw [← h]; exact Option.isSome_iff_exists.1 h3
        rw [if_neg h3]
        dsimp only
        by_cases h4 : c = x.2
        · rw [if_pos h4]
          constructor
          · intro _; exact .inr ⟨h4.symm, by rw [h4]; exact h1⟩
          · intro _; exact ⟨_, rfl⟩
        · rw [if_neg h4]
          constructor
          · exact .inl
          · rintro (h | ⟨h, -⟩)
            · exact h
            · exact absurd h.symm h4
      rw [key]
      constructor
      · rintro ((h | ⟨h, h'⟩) | ⟨p, h, h'⟩)
        · exact .inl h
        · exact .inr ⟨x.1, by rw [← h]; simp, h'⟩
        · exact .inr ⟨p, by simp [h], h'⟩
      · rintro (h | ⟨p, h, h'⟩)
        · exact .inl (.inl h)
        · rcases List.mem_cons.1 h with h | h
          · exact .inl (.inr ⟨by rw [← h], by rw [← h]; exact h'⟩)
          · exact .inr ⟨p, h, h'⟩

/-- **C137** (which documents): whatever the order of the addresses, a document is accepted exactly if the names of its nodes differ, its root is one of them, all
children exist, and every node but the root is a child of another node. -/
theorem C137_accepted {doc order : List NodeDef} (hp : order.Perm doc) (root : String) :
    (∃ t, buildRobot doc order root = some t) ↔ (doc.map NodeDef.name).Nodup ∧ root ∈ doc.map NodeDef.name ∧ (∀ n ∈ doc, ∀ c ∈ n.children, c ∈ doc.map NodeDef.name) ∧
      ∀ n ∈ doc, n.name ≠ root → ∃ m ∈ doc, m.name ≠ n.name ∧ n.name ∈ m.children := by
  have hpar : ∀ c, (∃ p, (p, c) ∈ pairs order ∧ p ≠ c) ↔ ∃ m ∈ doc, m.name ≠ c ∧ c ∈ m.children := by
    intro c
    simp only [pairs, List.mem_flatMap, List.mem_map, Prod.mk.injEq]
    constructor
    · rintro ⟨p, ⟨n, hn, c', hc', rfl, rfl⟩, h⟩; exact ⟨n, hp.mem_iff.1 hn, h, hc'⟩
    · rintro ⟨m, hm, h1, h2⟩; exact ⟨m.name, ⟨m, hp.mem_iff.2 hm, c, h2, rfl, rfl⟩, h1⟩
  have hsome := fun c => foldl_parent_isSome (pairs order) fits_empty c
  constructor
  · rintro ⟨t, h⟩
    obtain ⟨h1, h2, h3, h4, h5⟩ := buildRobot_eq h
    refine ⟨h1, h2, fun n hn => h3 n (hp.mem_iff.2 hn), fun n hn hr => ?_⟩
    have := h5 n hn hr
    rw [h4, hsome, hpar] at this
    rcases this with ⟨p, h⟩ | h
    · simp [Tree.empty] at h
    · exact h
  · rintro ⟨h1, h2, h3, h4⟩
    have ha := (attachNodes_eq (doc.map NodeDef.name) order Tree.empty _).2 ⟨fun n hn => h3 n (hp.mem_iff.1 hn), rfl⟩
    refine ⟨(pairs order).foldl (fun t x => t.attach x.1 x.2) Tree.empty, ?_⟩
    · unfold buildRobot
      rw [if_neg (by simpa using h1), if_neg (by simpa using h2), ha]
      dsimp only
      rw [if_pos]
      rw [List.all_eq_true]
      intro n hn
      by_cases hr : n.name = root
      · simp [hr]
      · rw [Bool.or_eq_true]
        right
        rw [Option.isSome_iff_exists, hsome, hpar]
        exact .inr (h4 n hn hr)

theorem foldl_disjoint (l : List (String × String)) (t : Tree) (ht : t.Fits) (hn : (l.map Prod.snd).Nodup) (hs : ∀ x ∈ l, x.1 ≠ x.2) (hf : ∀ x ∈ l, t.parent x.2 = none) :
    ∀ p, (l.foldl (fun t x => t.attach x.1 x.2) t).children p = t.children p ++ (l.filter fun x => x.1 = p).map Prod.snd := by
  induction l generalizing t with
  | nil => simp
  | cons x l ih =>
      intro p
      rw [List.map_cons, List.nodup_cons] at hn
      have h3 : t.parent x.2 = none := hf x (by simp)
      have h2 : x.2 ∉ t.children x.1 := by
        intro h
        rw [(ht.1 x.1 x.2).1 h] at h3
        simp at h3
      have e : t.attach x.1 x.2 = ⟨fun y => if y = x.2 then some x.1 else t.parent y, fun y => if y = x.1 then t.children x.1 ++ [x.2] else t.children y⟩ := by
        unfold Tree.attach
        rw [if_neg (hs x (by simp)), if_neg h2, if_neg (by simp [h3])]
      rw [List.foldl_cons, ih _ (fits_attach ht _ _) hn.2 (fun y hy => hs y (by simp [hy]))]
      · rw [e]
        dsimp only
        by_cases hp : p = x.1
        · subst hp; rw [if_pos rfl, List.filter_cons_of_pos (by simp)]; simp
        · rw [if_neg hp, List.filter_cons_of_neg (by simpa using fun h => hp h.symm)]
      · intro y hy
        rw [e]
        dsimp only
        rw [if_neg, hf y (by simp [hy])]
        intro h
        exact hn.1 (by rw [← h]; exact List.mem_map_of_mem hy)

/-- **C137** (the document, partial): if every node is listed as a child at most once, and not by itself, the robot has the structure of the document, whatever the
order of the addresses: the children of a node are those it lists, in their order. Missing: documents that list a node twice, see the refutation. -/
theorem C137_document_partial {doc order : List NodeDef} (hp : order.Perm doc) {root : String} {t : Tree} (h : buildRobot doc order root = some t)
    (hone : (doc.flatMap NodeDef.children).Nodup) (hself : ∀ n ∈ doc, n.name ∉ n.children) :
    (∀ n ∈ doc, t.children n.name = n.children) ∧ ∀ n ∈ doc, ∀ c, t.parent c = some n.name ↔ c ∈ n.children := by
  obtain ⟨h1, h2, h3, h4, -⟩ := buildRobot_eq h
  have hfit : t.Fits := by rw [h4]; exact fits_foldl _ fits_empty
  have hsnd : (pairs order).map Prod.snd = order.flatMap NodeDef.children := by
    simp [pairs, List.map_flatMap, Function.comp_def]
  have hch : ∀ n ∈ doc, t.children n.name = n.children := by
    intro n hn
    rw [h4, foldl_disjoint _ _ fits_empty]
    · simp only [Tree.empty, List.nil_append]
      have hno : n ∈ order := hp.mem_iff.2 hn
      have hon : (order.map NodeDef.name).Nodup := (hp.map NodeDef.name).nodup_iff.2 h1
      clear h4 hsnd h3 hfit h hp
      induction order with
      | nil => simp at hno
      | cons m l ih =>
          rw [List.map_cons, List.nodup_cons] at hon
          have hpc : pairs (m :: l) = (m.children.map fun c => (m.name, c)) ++ pairs l := by simp [pairs]
          rw [hpc, List.filter_append, List.map_append]
          have hnone : ∀ l : List NodeDef, n.name ∉ l.map NodeDef.name → (pairs l).filter (fun x => x.1 = n.name) = [] := by
            intro l hl
            rw [List.filter_eq_nil_iff]
            intro x hx
            simp only [pairs, List.mem_flatMap, List.mem_map] at hx
            obtain ⟨k, hk, c, hc, rfl⟩ := hx
            simp only [decide_eq_true_eq]
            intro e
            exact hl (by rw [← e]; exact List.mem_map_of_mem hk)
          rcases List.mem_cons.1 hno with rfl | hno
          · rw [hnone l hon.1]
            have : ((n.children.map fun c => (n.name, c)).filter fun x => x.1 = n.name) = n.children.map fun c => (n.name, c) := by
              rw [List.filter_eq_self]; simp
            rw [this]
            simp [Function.comp_def]
          · have hne : m.name ≠ n.name := by
              intro e
              exact hon.1 (by rw [e]; exact List.mem_map_of_mem hno)
            have : ((m.children.map fun c => (m.name, c)).filter fun x => x.1 = n.name) = [] := by
              rw [List.filter_eq_nil_iff]; simp [hne]
            rw [this]
            simpa using ih hno hon.2
    · rw [hsnd]
      exact (hp.flatMap_right _).nodup_iff.2 hone
    · intro x hx
      simp only [pairs, List.mem_flatMap, List.mem_map] at hx
      obtain ⟨k, hk, c, hc, rfl⟩ := hx
      intro e
      simp only at e
      exact hself k (hp.mem_iff.1 hk) (by rw [e]; exact hc)
    · intro x _; rfl
  refine ⟨hch, fun n hn c => ?_⟩
  rw [← hfit.1, hch n hn]

/-- A document for the examples. -/
def exampleDoc : List NodeDef := [⟨"base", ["left", "right"]⟩, ⟨"left", []⟩, ⟨"right", ["hand"]⟩, ⟨"hand", []⟩]

example : (buildRobot exampleDoc exampleDoc.reverse "base").isSome = true ∧ (exampleDoc.flatMap NodeDef.children).Nodup ∧ ∀ n ∈ exampleDoc, n.name ∉ n.children := by decide

/-- **C137** (addresses, refuted): if two nodes list the same child, it depends on the addresses of the nodes which one becomes its parent. -/
theorem C137_addresses_false : ∃ (doc o1 o2 : List NodeDef) (t1 t2 : Tree), o1.Perm doc ∧ o2.Perm doc ∧ buildRobot doc o1 "a" = some t1 ∧ buildRobot doc o2 "a" = some t2 ∧
    t1.parent "c" = some "a" ∧ t2.parent "c" = some "b" := by
  let doc : List NodeDef := [⟨"a", ["b", "c"]⟩, ⟨"b", ["c"]⟩, ⟨"c", []⟩]
  let o2 : List NodeDef := [⟨"b", ["c"]⟩, ⟨"a", ["b", "c"]⟩, ⟨"c", []⟩]
  have h1 : (buildRobot doc doc "a").isSome = true := by decide
  have h2 : (buildRobot doc o2 "a").isSome = true := by decide
  have e1 : (buildRobot doc doc "a").map (fun t => t.parent "c") = some (some "a") := by decide
  have e2 : (buildRobot doc o2 "a").map (fun t => t.parent "c") = some (some "b") := by decide
  obtain ⟨t1, h1⟩ := Option.isSome_iff_exists.1 h1
  obtain ⟨t2, h2⟩ := Option.isSome_iff_exists.1 h2
  refine ⟨doc, doc, o2, t1, t2, List.Perm.refl _, List.Perm.swap _ _ _, h1, h2, ?_, ?_⟩
  · rw [h1] at e1; simpa using e1
  · rw [h2] at e2; simpa using e2

/-- A node is below another one. -/
def Tree.Below (t : Tree) : String → String → Prop := Relation.TransGen fun p c => t.parent c = some p

/-- **C137** (one tree, partial): if no node is below itself, every node but the root is below the root. Missing: nodes that form a cycle, which are accepted. -/
theorem C137_tree_partial {doc order : List NodeDef} (hp : order.Perm doc) {root : String} {t : Tree} (h : buildRobot doc order root = some t)
    (hc : ∀ x, ¬ t.Below x x) : ∀ n ∈ doc, n.name ≠ root → t.Below root n.name := by
  obtain ⟨-, -, hl, hpar⟩ := C137_structure hp h
  let S := {x : String // x ∈ doc.map NodeDef.name}
  let r : S → S → Prop := fun a b => t.Below a.1 b.1
  have : IsTrans S r := ⟨fun a b c h1 h2 => Relation.TransGen.trans h1 h2⟩
  have : Std.Irrefl r := ⟨fun a => hc a.1⟩
  have hw : WellFounded r := Finite.wellFounded_of_trans_of_irrefl r
  have key : ∀ x : S, x.1 ≠ root → t.Below root x.1 := by
    intro x
    induction x using hw.induction with
    | _ x ih =>
      intro hx
      obtain ⟨n, hn, hnx⟩ := List.mem_map.1 x.2
      obtain ⟨p, hp⟩ := hpar n hn (by rw [hnx]; exact hx)
      rw [hnx] at hp
      obtain ⟨m, hm, hmp, -⟩ := hl _ _ hp
      by_cases e : p = root
      · rw [← e]; exact Relation.TransGen.single hp
      · have hpm : p ∈ doc.map NodeDef.name := by rw [← hmp]; exact List.mem_map_of_mem hm
        exact Relation.TransGen.tail (ih ⟨p, hpm⟩ (Relation.TransGen.single hp) e) hp
  intro n hn hne
  exact key ⟨n.name, List.mem_map_of_mem hn⟩ hne

/-- **C137** (cycles, refuted): a document in which nodes form a cycle that the root does not reach is accepted. -/
theorem C137_cycle_false : ∃ (doc : List NodeDef) (t : Tree), buildRobot doc doc "root" = some t ∧ t.Below "a" "a" ∧ ¬ t.Below "root" "a" := by
  let doc : List NodeDef := [⟨"root", []⟩, ⟨"a", ["b"]⟩, ⟨"b", ["a"]⟩]
  have h1 : (buildRobot doc doc "root").isSome = true := by decide
  have e1 : (buildRobot doc doc "root").map (fun t => (t.parent "a", t.parent "b")) = some (some "b", some "a") := by decide
  obtain ⟨t, h1⟩ := Option.isSome_iff_exists.1 h1
  rw [h1] at e1
  simp only [Option.map_some, Option.some.injEq, Prod.mk.injEq] at e1
  refine ⟨doc, t, h1, .tail (.single e1.2) e1.1, ?_⟩
  intro h
  have key : ∀ y, t.Below "root" y → y ≠ "a" ∧ y ≠ "b" := by
    intro y hy
    induction hy with
    | single hp =>
        constructor
        · rintro rfl; rw [e1.1] at hp; simp at hp
        · rintro rfl; rw [e1.2] at hp; simp at hp
    | tail _ hp ih =>
        constructor
        · rintro rfl; rw [e1.1] at hp; simp only [Option.some.injEq] at hp; exact ih.2 hp.symm
        · rintro rfl; rw [e1.2] at hp; simp only [Option.some.injEq] at hp; exact ih.1 hp.symm
  exact (key _ h).1 rfl

/-- **C137** (root below itself, refuted): a document in which the root is a child of another node is accepted. (The initialization, which follows the children from the
root, does not end.) -/
theorem C137_root_false : ∃ (doc : List NodeDef) (t : Tree), buildRobot doc doc "root" = some t ∧ t.Below "root" "root" := by
  let doc : List NodeDef := [⟨"root", ["a"]⟩, ⟨"a", ["root"]⟩]
  have h1 : (buildRobot doc doc "root").isSome = true := by decide
  have e1 : (buildRobot doc doc "root").map (fun t => (t.parent "a", t.parent "root")) = some (some "root", some "a") := by decide
  obtain ⟨t, h1⟩ := Option.isSome_iff_exists.1 h1
  rw [h1] at e1
  simp only [Option.map_some, Option.some.injEq, Prod.mk.injEq] at e1
  exact ⟨doc, t, h1, .tail (.single e1.1) e1.2⟩

/-! ## Names -/

theorem repr_inj {a b : ℕ} (h : toString a = toString b) : a = b := by
  have : Nat.toDigits 10 a = Nat.toDigits 10 b := by
    have := congrArg String.toList h
    simpa [Nat.repr] using this
  have h2 := congrArg (fun l => Nat.ofDigitChars 10 l 0) this
  simpa using h2

theorem nameOf_inj {c c' : String → ℕ} {type : String} (h0 : 0 < c type) (h0' : 0 < c' type) (h : nameOf c type = nameOf c' type) : c type = c' type := by
  have hlen : ∀ s : String, type ≠ type ++ ("_" ++ s) := by
    intro s e
    have := congrArg String.length e
    simp [String.length_append] at this
  unfold nameOf at h
  by_cases h1 : c type = 1 <;> by_cases h2 : c' type = 1
  · rw [h1, h2]
  · rw [if_pos h1, if_neg h2] at h; exact absurd h (hlen _)
  · rw [if_neg h1, if_pos h2] at h; exact absurd h.symm (hlen _)
  · rw [if_neg h1, if_neg h2] at h
    have h3 : toString (c type - 1) = toString (c' type - 1) := by
      have := congrArg String.toList h
      simp only [String.toList_append, List.append_cancel_left_eq] at this
      exact String.toList_injective this
    have := repr_inj h3
    omega

/-- **C138** (names): robots of the same type that are loaded one after the other without standard names have different names, whatever is loaded between them. -/
theorem C138_distinct (counter : String → ℕ) (ls : List (String × Option String)) {i j : ℕ} (hij : i < j) {type : String} (hi : ls[i]? = some (type, none))
    (hj : ls[j]? = some (type, none)) : (loadNames counter ls)[i]? ≠ (loadNames counter ls)[j]? := by
  have mono : ∀ (ls : List (String × Option String)) (counter : String → ℕ) (j : ℕ), ls[j]? = some (type, none) →
      ∃ c : String → ℕ, counter type < c type ∧ (loadNames counter ls)[j]? = some (nameOf c type) := by
    intro ls
    induction ls with
    | nil => intro _ j h; simp at h
    | cons l ls ih =>
        intro counter j h
        cases j with
        | zero =>
            simp only [List.getElem?_cons_zero, Option.some.injEq] at h
            subst h
            exact ⟨count counter type, by simp [count], by simp [loadNames, robotName]⟩
        | succ j =>
            simp only [List.getElem?_cons_succ] at h
            obtain ⟨c, h1, h2⟩ := ih (count counter l.1) j h
            refine ⟨c, lt_of_le_of_lt ?_ h1, by simpa [loadNames, robotName] using h2⟩
            unfold count
            by_cases e : type = l.1
            · rw [if_pos e, e]; omega
            · rw [if_neg e]
  induction ls generalizing counter i j with
  | nil => simp at hi
  | cons l ls ih =>
      cases j with
      | zero => omega
      | succ j =>
          cases i with
          | zero =>
              simp only [List.getElem?_cons_zero, Option.some.injEq] at hi
              subst hi
              simp only [List.getElem?_cons_succ] at hj
              obtain ⟨c, h1, h2⟩ := mono ls (count counter type) j hj
              have e : (loadNames counter ((type, none) :: ls))[0]? = some (nameOf (count counter type) type) := by simp [loadNames, robotName]
              have e' : (loadNames counter ((type, none) :: ls))[j + 1]? = some (nameOf c type) := by simpa [loadNames, robotName] using h2
              rw [e, e']
              intro h
              simp only [Option.some.injEq] at h
              have := nameOf_inj (by simp [count]) (by omega) h
              omega
          | succ i =>
              simp only [List.getElem?_cons_succ] at hi hj
              have := ih (count counter l.1) (by omega : i < j) hi hj
              simpa [loadNames, robotName] using this

/-- **C138** (first and standard names): the first robot of a type has the type as its name; a standard name is used as given. -/
theorem C138_given (counter : String → ℕ) (type s : String) :
    (robotName counter type (some s)).2 = s ∧ (counter type = 0 → (robotName counter type none).2 = type) ∧
      (robotName counter type (some s)).1 type = counter type + 1 ∧ (∀ t ≠ type, (robotName counter type (some s)).1 t = counter t) := by
  refine ⟨rfl, fun h => ?_, by simp [robotName, count], fun t ht => by simp [robotName, count, ht]⟩
  simp [robotName, nameOf, count, h]

example : loadNames (fun _ => 0) [("arm", none), ("leg", none), ("arm", none), ("arm", some "left")] = ["arm", "leg", "arm_1", "left"] := by decide

/-- **C138** (different types, refuted): robots of different types can get the same name. -/
theorem C138_types_false : loadNames (fun _ => 0) [("arm", none), ("arm", none), ("arm_1", none)] = ["arm", "arm_1", "arm_1"] := by decide

/-- **C138** (threads, refuted): two threads that load a robot of the same type can both get the same name, since each locks twice. -/
theorem C138_threads_false : ∃ (schedule : List ℕ) (name : String),
    let s : Loading := schedule.foldl (fun (s : Loading) i => s.step i "arm") ⟨fun _ => 0, fun _ => .start⟩
    s.phase 0 = .named name ∧ s.phase 1 = .named name := by
  refine ⟨[0, 1, 0, 1], "arm_1", ?_⟩
  simp [Loading.step, count, nameOf]
  decide

end Simox.Rio
