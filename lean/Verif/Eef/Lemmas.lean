import Verif.Eef.Spec
import Mathlib.Data.List.Nodup
import Mathlib.Data.List.Flatten
import Mathlib.Tactic.Tauto

/-! # One actor -/

set_option linter.unusedSectionVars false

namespace Simox.Eef

open Relation

variable {N O K I : Type} [DecidableEq N] [DecidableEq O] [Field K] [LinearOrder K]

/-! ## Joint values -/

theorem inLimits_iff (h : Hand N O K I) (n : N) (v : K) :
    h.inLimits n v = true ↔ h.lo n ≤ v ∧ v ≤ h.hi n := by
  simp [Hand.inLimits, and_comm]

theorem setJoint_eq (h : Hand N O K I) (q : N → K) (n : N) (v : K)
    (hv : h.enforce n → h.lo n ≤ v ∧ v ≤ h.hi n) : h.setJoint q n v = Function.update q n v := by
  unfold Hand.setJoint
  have h1 : ¬ (h.enforce n = true ∧ v < h.lo n) := fun hh => not_lt.mpr (hv hh.1).1 hh.2
  have h2 : ¬ (h.enforce n = true ∧ h.hi n < v) := fun hh => not_lt.mpr (hv hh.1).2 hh.2
  simp only [if_neg h1, if_neg h2]

theorem within_update (h : Hand N O K I) (q : N → K) (n : N) (v : K) (w : h.Within q)
    (hv : h.enforce n → h.lo n ≤ v ∧ v ≤ h.hi n) : h.Within (Function.update q n v) := by
  intro m hm
  by_cases e : m = n
  · subst e; simpa using hv hm
  · simpa [Function.update_of_ne e] using w m hm

theorem moveActor_other (h : Hand N O K I) (angle : K) (ds : List (ActorDef N K)) (q : N → K) (n : N)
    (hn : n ∉ ds.map ActorDef.node) : (h.moveActor angle ds q).2 n = q n := by
  induction ds generalizing q with
  | nil => rfl
  | cons d ds ih =>
    simp only [List.map_cons, List.mem_cons, not_or] at hn
    unfold Hand.moveActor
    dsimp only
    split
    · dsimp only
      rw [ih _ hn.2]
      simp [Hand.setJoint, Function.update_of_ne hn.1]
    · exact ih _ hn.2

theorem restore_apply (h : Hand N O K I) (saved : N → K) (w : h.Within saved)
    (ds : List (ActorDef N K)) (q : N → K) (n : N) :
    h.restore saved ds q n = if n ∈ ds.map ActorDef.node then saved n else q n := by
  induction ds generalizing q with
  | nil => simp [Hand.restore]
  | cons d ds ih =>
    unfold Hand.restore
    rw [ih, setJoint_eq h q d.node _ (w d.node)]
    by_cases e : n = d.node
    · subst e
      by_cases m : d.node ∈ ds.map ActorDef.node
      · simp [m]
      · rw [if_neg m, Function.update_self]
        simp
    · rw [Function.update_of_ne e]
      simp only [List.map_cons, List.mem_cons, e, false_or]

theorem restore_move (h : Hand N O K I) (angle : K) (q : N → K) (w : h.Within q)
    (ds : List (ActorDef N K)) : h.restore q ds (h.moveActor angle ds q).2 = q := by
  funext n
  rw [restore_apply h q w]
  split
  · rfl
  · exact moveActor_other h angle ds q n ‹_›

/-! ## Collisions -/

theorem meets_all (m : ColMode) : m.meets .eAll = true ↔ m ≠ .eNone := by
  cases m <;> decide
theorem meets_actors (m : ColMode) : m.meets .eActors = true ↔ (m = .eActors ∨ m = .eAll) := by
  cases m <;> decide
theorem meets_static (m : ColMode) : m.meets .eStatic = true ↔ (m = .eStatic ∨ m = .eAll) := by
  cases m <;> decide

theorem mem_obstacleHits (h : Hand N O K I) (obs : List O) (q : N → K) (a : Actor N K) (n : N) (o : O) :
    (n, o) ∈ h.obstacleHits obs q a ↔ o ∈ obs ∧ ∃ d ∈ a.defs, d.node = n ∧ h.Touches q d o := by
  unfold Hand.obstacleHits Hand.Touches ActorDef.minds
  simp only [List.mem_flatMap, List.mem_map, List.mem_filter, Bool.and_eq_true, meets_all,
    Prod.mk.injEq]
  constructor
  · rintro ⟨d, hd, o', ⟨ho, h1⟩, rfl, rfl⟩
    exact ⟨ho, d, hd, rfl, by tauto⟩
  · rintro ⟨ho, d, hd, rfl, h1⟩
    exact ⟨d, hd, o, ⟨ho, by tauto⟩, rfl, rfl⟩

theorem collides_iff (h : Hand N O K I) (obs : List O) (q : N → K) (a : Actor N K) :
    (!(h.obstacleHits obs q a).isEmpty || h.hitsOther q a || h.hitsStatic q a) = true ↔
      h.Blocked obs q a := by
  have e1 : (!(h.obstacleHits obs q a).isEmpty) = true ↔
      ∃ d ∈ a.defs, ∃ o ∈ obs, h.Touches q d o := by
    rw [Bool.not_eq_true', List.isEmpty_eq_false_iff_exists_mem]
    constructor
    · rintro ⟨⟨n, o⟩, hm⟩
      obtain ⟨ho, d, hd, -, ht⟩ := (mem_obstacleHits h obs q a n o).1 hm
      exact ⟨d, hd, o, ho, ht⟩
    · rintro ⟨d, hd, o, ho, ht⟩
      exact ⟨(d.node, o), (mem_obstacleHits h obs q a _ _).2 ⟨ho, d, hd, rfl, ht⟩⟩
  have e2 : h.hitsOther q a = true ↔ ∃ b ∈ h.actors, b.name ≠ a.name ∧ ∃ d ∈ a.defs,
      d.mindsActors ∧ ∃ e ∈ b.defs, e.minds ∧ h.nodeModel d.node ∧ h.nodeModel e.node ∧
        h.hitNode q e.node d.node := by
    unfold Hand.hitsOther Hand.collidesWithActor Hand.collidesWithNode ActorDef.mindsActors
      ActorDef.minds
    simp only [List.any_eq_true, Bool.and_eq_true, bne_iff_ne, meets_actors, meets_all]
    constructor
    · rintro ⟨b, hb, hn, d, hd, hm, hmod, e, he, h1⟩
      exact ⟨b, hb, hn, d, hd, hm, e, he, by tauto⟩
    · rintro ⟨b, hb, hn, d, hd, hm, e, he, h1⟩
      exact ⟨b, hb, hn, d, hd, hm, h1.2.1, e, he, by tauto⟩
  have e3 : h.hitsStatic q a = true ↔ ∃ n ∈ h.statics, ∃ d ∈ a.defs, d.mindsStatic ∧
      h.nodeModel d.node ∧ h.nodeModel n ∧ h.hitNode q d.node n := by
    unfold Hand.hitsStatic Hand.collidesWithNode ActorDef.mindsStatic
    simp only [List.any_eq_true, Bool.and_eq_true, meets_static]
    constructor
    · rintro ⟨n, hn, hmod, d, hd, h1⟩
      exact ⟨n, hn, d, hd, by tauto⟩
    · rintro ⟨n, hn, d, hd, h1⟩
      exact ⟨n, hn, h1.2.2.1, d, hd, by tauto⟩
  rw [Bool.or_eq_true, Bool.or_eq_true, e1, e2, e3, or_assoc]
  rfl

theorem hits_nil_of_free (h : Hand N O K I) (obs : List O) (q : N → K) (a : Actor N K)
    (hb : ¬ h.Blocked obs q a) : h.obstacleHits obs q a = [] := by
  rw [List.eq_nil_iff_forall_not_mem]
  rintro ⟨n, o⟩ hm
  obtain ⟨ho, d, hd, -, ht⟩ := (mem_obstacleHits h obs q a n o).1 hm
  exact hb (Or.inl ⟨d, hd, o, ho, ht⟩)

/-! ## One definition -/

theorem allowed_iff (h : Hand N O K I) (q : N → K) (angle : K) (d : ActorDef N K) :
    h.inLimits d.node (next q angle d) = true ↔ h.Allowed q angle d := by
  rw [inLimits_iff]; rfl

theorem set_next (h : Hand N O K I) (q : N → K) (angle : K) (d : ActorDef N K)
    (al : h.Allowed q angle d) : h.setJoint q d.node (next q angle d) = stepped q angle d :=
  setJoint_eq h q d.node _ (fun _ => al)

theorem stepped_within (h : Hand N O K I) (q : N → K) (angle : K) (d : ActorDef N K)
    (al : h.Allowed q angle d) (w : h.Within q) : h.Within (stepped q angle d) :=
  within_update h q d.node _ w (fun _ => al)

theorem moveDef_moves (h : Hand N O K I) (obs : List O) (angle : K) (a : Actor N K)
    (st : MoveState N O K) (d : ActorDef N K) (al : h.Allowed st.q angle d)
    (fr : ¬ h.Blocked obs (stepped st.q angle d) a) :
    h.moveDef obs angle a st d =
      ⟨stepped st.q angle d, Function.update st.status d.node (some .eMoving), st.found⟩ := by
  unfold Hand.moveDef
  dsimp only
  rw [if_pos ((allowed_iff h _ _ _).2 al), set_next h _ _ _ al]
  rw [if_neg (by rw [collides_iff]; exact fr), hits_nil_of_free h obs _ a fr, List.append_nil]

theorem moveDef_hits (h : Hand N O K I) (obs : List O) (angle : K) (a : Actor N K)
    (st : MoveState N O K) (d : ActorDef N K) (w : h.Within st.q) (al : h.Allowed st.q angle d)
    (bl : h.Blocked obs (stepped st.q angle d) a) :
    h.moveDef obs angle a st d =
      ⟨st.q, Function.update st.status d.node (some .eCollision),
        st.found ++ h.obstacleHits obs (stepped st.q angle d) a⟩ := by
  unfold Hand.moveDef
  dsimp only
  rw [if_pos ((allowed_iff h _ _ _).2 al), set_next h _ _ _ al]
  rw [if_pos (by rw [collides_iff]; exact bl)]
  rw [setJoint_eq h _ d.node _ (w d.node)]
  congr 1
  unfold stepped
  rw [Function.update_idem, Function.update_eq_self]

theorem moveDef_limit (h : Hand N O K I) (obs : List O) (angle : K) (a : Actor N K)
    (st : MoveState N O K) (d : ActorDef N K) (al : ¬ h.Allowed st.q angle d) :
    h.moveDef obs angle a st d =
      ⟨st.q, Function.update st.status d.node (some .eFinished), st.found⟩ := by
  unfold Hand.moveDef
  dsimp only
  rw [if_neg (by rw [allowed_iff]; exact al)]

/-- The pairs found when joint `d` of actor `a` tries its step. -/
def hitsOf (h : Hand N O K I) (obs : List O) (angle : K) (a : Actor N K) (q : N → K)
    (d : ActorDef N K) : List (N × O) :=
  if h.inLimits d.node (next q angle d) then h.obstacleHits obs (stepped q angle d) a else []

theorem mem_hitsOf (h : Hand N O K I) (obs : List O) (angle : K) (a : Actor N K) (q : N → K)
    (n : N) (o : O) :
    (n, o) ∈ a.defs.flatMap (hitsOf h obs angle a q) ↔ h.WouldTouch obs angle q a n o := by
  unfold Hand.WouldTouch
  rw [List.mem_flatMap]
  constructor
  · rintro ⟨e, he, hm⟩
    unfold hitsOf at hm
    by_cases al : h.inLimits e.node (next q angle e) = true
    · rw [if_pos al] at hm
      obtain ⟨ho, d, hd, hn, ht⟩ := (mem_obstacleHits h obs _ a n o).1 hm
      exact ⟨ho, e, he, (allowed_iff h _ _ _).1 al, d, hd, hn, ht⟩
    · rw [if_neg al] at hm
      exact absurd hm (by simp)
  · rintro ⟨ho, e, he, al, d, hd, hn, ht⟩
    refine ⟨e, he, ?_⟩
    unfold hitsOf
    rw [if_pos ((allowed_iff h _ _ _).2 al)]
    exact (mem_obstacleHits h obs _ a n o).2 ⟨ho, d, hd, hn, ht⟩

/-- Joint `d` of actor `a` cannot do its step. -/
def Stuck (h : Hand N O K I) (obs : List O) (angle : K) (a : Actor N K) (q : N → K)
    (d : ActorDef N K) : Prop :=
  h.Allowed q angle d → h.Blocked obs (stepped q angle d) a

theorem fold_defs_reach (h : Hand N O K I) (obs : List O) (angle : K) (a : Actor N K)
    (ha : a ∈ h.actors) (ds : List (ActorDef N K)) (hds : ∀ d ∈ ds, d ∈ a.defs)
    (st : MoveState N O K) (w : h.Within st.q) :
    ReflTransGen (h.Step obs angle) st.q (ds.foldl (h.moveDef obs angle a) st).q ∧
      h.Within (ds.foldl (h.moveDef obs angle a) st).q := by
  induction ds generalizing st with
  | nil => exact ⟨.refl, w⟩
  | cons d ds ih =>
    rw [List.foldl_cons]
    have hds' : ∀ d ∈ ds, d ∈ a.defs := fun e he => hds e (List.mem_cons_of_mem _ he)
    by_cases al : h.Allowed st.q angle d
    · by_cases bl : h.Blocked obs (stepped st.q angle d) a
      · rw [moveDef_hits h obs angle a st d w al bl]
        exact ih hds' ⟨st.q, Function.update st.status d.node (some .eCollision),
          st.found ++ h.obstacleHits obs (stepped st.q angle d) a⟩ w
      · rw [moveDef_moves h obs angle a st d al bl]
        have := ih hds' ⟨stepped st.q angle d, Function.update st.status d.node (some .eMoving),
          st.found⟩ (stepped_within h _ _ _ al w)
        exact ⟨.head ⟨a, ha, d, hds d List.mem_cons_self, al, rfl, bl⟩ this.1, this.2⟩
    · rw [moveDef_limit h obs angle a st d al]
      exact ih hds' ⟨st.q, Function.update st.status d.node (some .eFinished), st.found⟩ w

theorem moveDef_status_other (h : Hand N O K I) (obs : List O) (angle : K) (a : Actor N K)
    (st : MoveState N O K) (d : ActorDef N K) (n : N) (hn : n ≠ d.node) :
    (h.moveDef obs angle a st d).status n = st.status n := by
  unfold Hand.moveDef
  dsimp only
  split
  · split <;> simp [Function.update_of_ne hn]
  · simp [Function.update_of_ne hn]

theorem fold_defs_status_other (h : Hand N O K I) (obs : List O) (angle : K) (a : Actor N K)
    (ds : List (ActorDef N K)) (st : MoveState N O K) (n : N) (hn : n ∉ ds.map ActorDef.node) :
    (ds.foldl (h.moveDef obs angle a) st).status n = st.status n := by
  induction ds generalizing st with
  | nil => rfl
  | cons d ds ih =>
    simp only [List.map_cons, List.mem_cons, not_or] at hn
    rw [List.foldl_cons, ih _ hn.2, moveDef_status_other h obs angle a st d n hn.1]

theorem fold_defs_still (h : Hand N O K I) (obs : List O) (angle : K) (a : Actor N K)
    (ds : List (ActorDef N K)) (nd : (ds.map ActorDef.node).Nodup)
    (st : MoveState N O K) (w : h.Within st.q)
    (hs : ∀ d ∈ ds, (ds.foldl (h.moveDef obs angle a) st).status d.node ≠ some .eMoving) :
    (ds.foldl (h.moveDef obs angle a) st).q = st.q ∧
    (ds.foldl (h.moveDef obs angle a) st).found =
      st.found ++ ds.flatMap (hitsOf h obs angle a st.q) ∧
    ∀ d ∈ ds, Stuck h obs angle a st.q d := by
  induction ds generalizing st with
  | nil => exact ⟨rfl, by simp, by simp⟩
  | cons d ds ih =>
    rw [List.map_cons, List.nodup_cons] at nd
    rw [List.foldl_cons] at hs ⊢
    have hs' := fun e he => hs e (List.mem_cons_of_mem _ he)
    have hd := hs d List.mem_cons_self
    rw [fold_defs_status_other h obs angle a ds _ d.node nd.1] at hd
    by_cases al : h.Allowed st.q angle d
    · by_cases bl : h.Blocked obs (stepped st.q angle d) a
      · rw [moveDef_hits h obs angle a st d w al bl] at hs' ⊢
        obtain ⟨e1, e2, e3⟩ := ih nd.2 ⟨st.q, Function.update st.status d.node (some .eCollision),
          st.found ++ h.obstacleHits obs (stepped st.q angle d) a⟩ w hs'
        refine ⟨e1, ?_, ?_⟩
        · rw [e2, List.flatMap_cons]
          unfold hitsOf
          rw [if_pos ((allowed_iff h _ _ _).2 al)]
          simp
        · intro e he
          rcases List.mem_cons.1 he with rfl | he
          · exact fun _ => bl
          · exact e3 e he
      · rw [moveDef_moves h obs angle a st d al bl] at hd
        simp at hd
    · rw [moveDef_limit h obs angle a st d al] at hs' ⊢
      obtain ⟨e1, e2, e3⟩ := ih nd.2 ⟨st.q, Function.update st.status d.node (some .eFinished),
          st.found⟩ w hs'
      refine ⟨e1, ?_, ?_⟩
      · rw [e2, List.flatMap_cons]
        conv_rhs => unfold hitsOf
        rw [if_neg (by rw [allowed_iff]; exact al)]
        rfl
      · intro e he
        rcases List.mem_cons.1 he with rfl | he
        · exact fun hh => absurd hh al
        · exact e3 e he

theorem fold_defs_moved (h : Hand N O K I) (obs : List O) (angle : K) (a : Actor N K)
    (ha : a ∈ h.actors) (ds : List (ActorDef N K)) (hds : ∀ d ∈ ds, d ∈ a.defs)
    (st : MoveState N O K) (w : h.Within st.q) (n : N)
    (h0 : st.status n ≠ some .eMoving)
    (hs : (ds.foldl (h.moveDef obs angle a) st).status n = some .eMoving) :
    TransGen (h.Step obs angle) st.q (ds.foldl (h.moveDef obs angle a) st).q := by
  induction ds generalizing st with
  | nil => exact absurd hs h0
  | cons d ds ih =>
    rw [List.foldl_cons] at hs ⊢
    have hds' : ∀ d ∈ ds, d ∈ a.defs := fun e he => hds e (List.mem_cons_of_mem _ he)
    by_cases al : h.Allowed st.q angle d
    · by_cases bl : h.Blocked obs (stepped st.q angle d) a
      · rw [moveDef_hits h obs angle a st d w al bl] at hs ⊢
        refine ih hds' ⟨st.q, Function.update st.status d.node (some .eCollision),
          st.found ++ h.obstacleHits obs (stepped st.q angle d) a⟩ w ?_ hs
        by_cases e : n = d.node
        · subst e; simp
        · simpa [Function.update_of_ne e] using h0
      · have r := (fold_defs_reach h obs angle a ha ds hds' (h.moveDef obs angle a st d)
          (by rw [moveDef_moves h obs angle a st d al bl]; exact stepped_within h _ _ _ al w)).1
        refine TransGen.head' ?_ r
        rw [moveDef_moves h obs angle a st d al bl]
        exact ⟨a, ha, d, hds d List.mem_cons_self, al, rfl, bl⟩
    · rw [moveDef_limit h obs angle a st d al] at hs ⊢
      refine ih hds' ⟨st.q, Function.update st.status d.node (some .eFinished), st.found⟩ w ?_ hs
      by_cases e : n = d.node
      · subst e; simp
      · simpa [Function.update_of_ne e] using h0

/-! ## Contacts -/

/-- The pair a contact is about. -/
def Contact.key (c : Contact N O I) : N × O := (c.node, c.obj)

theorem addContact_eq (h : Hand N O K I) (angle : K) (a : Actor N K)
    (store : List (Contact N O I)) (q : N → K) (w : h.Within q) (c : N × O) :
    h.addContact angle a (store, q) c =
      (if c ∈ store.map Contact.key then store
        else store ++ [⟨a.name, c.1, c.2, h.measure q (h.moveActor angle a.defs q).2 c.1 c.2⟩], q) := by
  unfold Hand.addContact
  have e : (store.any fun s => decide (s.node = c.1) && decide (s.obj = c.2)) = true ↔
      c ∈ store.map Contact.key := by
    simp only [List.any_eq_true, Bool.and_eq_true, decide_eq_true_eq, List.mem_map, Contact.key,
      Prod.ext_iff]
  dsimp only
  by_cases m : c ∈ store.map Contact.key
  · rw [if_pos (e.2 m), if_pos m]
  · rw [if_neg (fun hh => m (e.1 hh)), if_neg m, restore_move h angle q w]

/-- What the stored contacts look like after the new pairs have been added. -/
theorem fold_contacts (h : Hand N O K I) (angle : K) (a : Actor N K) (cs : List (N × O))
    (store : List (Contact N O I)) (q : N → K) (w : h.Within q) :
    (cs.foldl (h.addContact angle a) (store, q)).2 = q ∧
    (∀ k, k ∈ (cs.foldl (h.addContact angle a) (store, q)).1.map Contact.key ↔
      k ∈ store.map Contact.key ∨ k ∈ cs) ∧
    ((store.map Contact.key).Nodup →
      ((cs.foldl (h.addContact angle a) (store, q)).1.map Contact.key).Nodup) ∧
    (∀ c ∈ (cs.foldl (h.addContact angle a) (store, q)).1, c ∈ store ∨
      (c.key ∈ cs ∧ c.actor = a.name ∧
        c.info = h.measure q (h.moveActor angle a.defs q).2 c.node c.obj)) := by
  induction cs generalizing store with
  | nil => simp
  | cons p cs ih =>
    rw [List.foldl_cons, addContact_eq h angle a store q w p]
    by_cases m : p ∈ store.map Contact.key
    · rw [if_pos m]
      obtain ⟨i1, i2, i3, i4⟩ := ih store
      refine ⟨i1, ?_, i3, ?_⟩
      · intro k
        rw [i2 k, List.mem_cons]
        constructor
        · tauto
        · rintro (hh | rfl | hh)
          · exact Or.inl hh
          · exact Or.inl m
          · exact Or.inr hh
      · intro c hc
        rcases i4 c hc with hh | hh
        · exact Or.inl hh
        · exact Or.inr ⟨List.mem_cons_of_mem _ hh.1, hh.2⟩
    · rw [if_neg m]
      obtain ⟨i1, i2, i3, i4⟩ := ih
        (store ++ [⟨a.name, p.1, p.2, h.measure q (h.moveActor angle a.defs q).2 p.1 p.2⟩])
      refine ⟨i1, ?_, ?_, ?_⟩
      · intro k
        rw [i2 k, List.mem_cons, List.map_append, List.mem_append]
        have : k ∈ List.map Contact.key
            [(⟨a.name, p.1, p.2, h.measure q (h.moveActor angle a.defs q).2 p.1 p.2⟩ :
              Contact N O I)] ↔ k = p := by
          simp [Contact.key]
        rw [this]
        tauto
      · intro hn
        apply i3
        rw [List.map_append, List.nodup_append]
        refine ⟨hn, by simp, ?_⟩
        intro x hx y hy
        simp only [List.map_cons, List.map_nil, List.mem_singleton, Contact.key] at hy
        rintro rfl
        exact m (by rw [hy] at hx; exact hx)
      · intro c hc
        rcases i4 c hc with hh | hh
        · rcases List.mem_append.1 hh with hh | hh
          · exact Or.inl hh
          · rw [List.mem_singleton] at hh
            subst hh
            exact Or.inr ⟨List.mem_cons_self, rfl, rfl⟩
        · exact Or.inr ⟨List.mem_cons_of_mem _ hh.1, hh.2⟩

/-! ## `moveActorCheckCollision` -/

/-- The state after the loop over the definitions. -/
def afterDefs (h : Hand N O K I) (obs : List O) (angle : K) (a : Actor N K) (q : N → K) :
    MoveState N O K :=
  a.defs.foldl (h.moveDef obs angle a) ⟨q, fun _ => none, []⟩

theorem mac_flag (h : Hand N O K I) (obs : List O) (angle : K) (a : Actor N K)
    (store : List (Contact N O I)) (q : N → K) :
    (h.moveActorCheckCollision obs angle a store q).1 = true ↔
      ∀ d ∈ a.defs, (afterDefs h obs angle a q).status d.node ≠ some .eMoving := by
  unfold Hand.moveActorCheckCollision afterDefs
  simp [List.all_eq_true]

theorem mac_q (h : Hand N O K I) (obs : List O) (angle : K) (a : Actor N K) (ha : a ∈ h.actors)
    (store : List (Contact N O I)) (q : N → K) (w : h.Within q) :
    (h.moveActorCheckCollision obs angle a store q).2.2 = (afterDefs h obs angle a q).q := by
  have w' := (fold_defs_reach h obs angle a ha a.defs (fun _ hd => hd)
    ⟨q, fun _ => none, []⟩ w).2
  exact (fold_contacts h angle a _ store _ w').1

theorem mac_reach (h : Hand N O K I) (obs : List O) (angle : K) (a : Actor N K) (ha : a ∈ h.actors)
    (store : List (Contact N O I)) (q : N → K) (w : h.Within q) :
    ReflTransGen (h.Step obs angle) q (h.moveActorCheckCollision obs angle a store q).2.2 ∧
      h.Within (h.moveActorCheckCollision obs angle a store q).2.2 := by
  rw [mac_q h obs angle a ha store q w]
  exact fold_defs_reach h obs angle a ha a.defs (fun _ hd => hd) ⟨q, fun _ => none, []⟩ w

theorem mac_moved (h : Hand N O K I) (obs : List O) (angle : K) (a : Actor N K) (ha : a ∈ h.actors)
    (store : List (Contact N O I)) (q : N → K) (w : h.Within q)
    (hf : (h.moveActorCheckCollision obs angle a store q).1 = false) :
    TransGen (h.Step obs angle) q (h.moveActorCheckCollision obs angle a store q).2.2 := by
  rw [mac_q h obs angle a ha store q w]
  have : ¬ ∀ d ∈ a.defs, (afterDefs h obs angle a q).status d.node ≠ some .eMoving := by
    rw [← mac_flag h obs angle a store q, hf]; simp
  push Not at this
  obtain ⟨d, hd, hs⟩ := this
  exact fold_defs_moved h obs angle a ha a.defs (fun _ hd => hd) ⟨q, fun _ => none, []⟩ w d.node
    (by simp) hs

theorem mac_nodup (h : Hand N O K I) (obs : List O) (angle : K) (a : Actor N K) (ha : a ∈ h.actors)
    (store : List (Contact N O I)) (q : N → K) (w : h.Within q)
    (hn : (store.map Contact.key).Nodup) :
    ((h.moveActorCheckCollision obs angle a store q).2.1.map Contact.key).Nodup := by
  have w' := (fold_defs_reach h obs angle a ha a.defs (fun _ hd => hd)
    ⟨q, fun _ => none, []⟩ w).2
  exact (fold_contacts h angle a _ store _ w').2.2.1 hn

/-- What is known when an actor reports that it is done. -/
theorem mac_done (h : Hand N O K I) (obs : List O) (angle : K) (a : Actor N K)
    (nd : (a.defs.map ActorDef.node).Nodup)
    (store : List (Contact N O I)) (q : N → K) (w : h.Within q)
    (hf : (h.moveActorCheckCollision obs angle a store q).1 = true) :
    (h.moveActorCheckCollision obs angle a store q).2.2 = q ∧
    (∀ d ∈ a.defs, Stuck h obs angle a q d) ∧
    (∀ k, k ∈ (h.moveActorCheckCollision obs angle a store q).2.1.map Contact.key ↔
      k ∈ store.map Contact.key ∨ h.WouldTouch obs angle q a k.1 k.2) ∧
    (∀ c ∈ (h.moveActorCheckCollision obs angle a store q).2.1, c ∈ store ∨
      (h.WouldTouch obs angle q a c.node c.obj ∧ c.actor = a.name ∧
        c.info = h.measure q (h.moveActor angle a.defs q).2 c.node c.obj)) := by
  rw [mac_flag] at hf
  obtain ⟨e1, e2, e3⟩ := fold_defs_still h obs angle a a.defs nd ⟨q, fun _ => none, []⟩ w hf
  dsimp only at e1 e2 e3
  have hm : h.moveActorCheckCollision obs angle a store q =
      ((h.moveActorCheckCollision obs angle a store q).1,
        ((a.defs.flatMap (hitsOf h obs angle a q)).foldl (h.addContact angle a) (store, q)).1,
        ((a.defs.flatMap (hitsOf h obs angle a q)).foldl (h.addContact angle a) (store, q)).2) := by
    unfold Hand.moveActorCheckCollision
    dsimp only
    rw [e1, e2]
    simp
  obtain ⟨c1, c2, c3, c4⟩ := fold_contacts h angle a (a.defs.flatMap (hitsOf h obs angle a q))
    store q w
  rw [hm]
  refine ⟨c1, e3, ?_, ?_⟩
  · rintro ⟨n, o⟩
    rw [c2, mem_hitsOf]
  · intro c hc
    rcases c4 c hc with hh | hh
    · exact Or.inl hh
    · refine Or.inr ⟨(mem_hitsOf h obs angle a q c.node c.obj).1 hh.1, hh.2⟩

end Simox.Eef
