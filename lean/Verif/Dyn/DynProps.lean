import Verif.Dyn.EngineLemmas

/-! # Properties C163 to C165: collisions, lists and attached objects of the physics engine -/

namespace Simox.Dyn

set_option linter.unusedSectionVars false

variable {ο ρ ω ν : Type} [DecidableEq ο] [DecidableEq ρ] [DecidableEq ω] [DecidableEq ν]

/-! ## C163: switched off collisions -/

/-- After any history of calls the engine collides exactly those objects whose last calls say so: neither is switched off, and the pair is not switched off. -/
theorem C163_enabled (h : List (Call ο)) (a b : Option ο) : (Coll.after h).enabled a b = true ↔ Collides h a b := by
  rw [enabled_iff, mem_all_after, mem_all_after, mem_after, mem_after]
  unfold Collides
  constructor
  · rintro (h' | h' | ⟨h1, h2, h3, _⟩)
    · exact Or.inl h'
    · exact Or.inr (Or.inl h')
    · exact Or.inr (Or.inr ⟨h1, h2, h3⟩)
  · rintro (h' | h' | ⟨h1, h2, h3⟩)
    · exact Or.inl h'
    · exact Or.inr (Or.inl h')
    · exact Or.inr (Or.inr ⟨h1, h2, h3, fun e => h3 (pairOff_symm b a h e)⟩)

/-- A pair and an object are switched off: two pairs do not collide, a third does. -/
example : (Coll.after [.on (some 3) (some 1), .offAll (some 2), .off (some 1) (some 3), .off (some 0) (some 1)] : Coll ℕ).enabled (some 1) (some 0) = false ∧
    (Coll.after [.on (some 3) (some 1), .offAll (some 2), .off (some 1) (some 3), .off (some 0) (some 1)] : Coll ℕ).enabled (some 2) (some 3) = false ∧
    (Coll.after [.on (some 3) (some 1), .offAll (some 2), .off (some 1) (some 3), .off (some 0) (some 1)] : Coll ℕ).enabled (some 1) (some 3) = true := by
  decide

/-- The answer for one object: whether its collisions as a whole are switched off. -/
theorem C163_object (h : List (Call ο)) (a : Option ο) : (Coll.after h).enabledAll a = true ↔ ¬ ObjectOff a h := by
  unfold Coll.enabledAll
  rw [decide_eq_true_iff, mem_all_after]

/-- The answer does not depend on the order of the two objects. -/
theorem C163_symmetric (h : List (Call ο)) (a b : Option ο) : (Coll.after h).enabled a b = (Coll.after h).enabled b a := by
  rw [Bool.eq_iff_iff, enabled_iff, enabled_iff]
  constructor
  · rintro (h' | h' | ⟨h1, h2, h3, h4⟩)
    · exact Or.inr (Or.inl h')
    · exact Or.inl h'
    · exact Or.inr (Or.inr ⟨h2, h1, h4, h3⟩)
  · rintro (h' | h' | ⟨h1, h2, h3, h4⟩)
    · exact Or.inr (Or.inl h')
    · exact Or.inl h'
    · exact Or.inr (Or.inr ⟨h2, h1, h4, h3⟩)

/-- After a reset of an object all its collisions with objects that are not switched off are on. -/
theorem C163_reset (h : List (Call ο)) (a b : Option ο) (hb : ¬ ObjectOff b h) : (Coll.after (.reset a :: h)).enabled a b = true := by
  rw [C163_enabled]
  refine Or.inr (Or.inr ⟨fun e => e.1 rfl, ?_, fun e => e.1.1 rfl⟩)
  exact fun e => hb e.2

/-- The object collided with nothing before. -/
example : (Coll.after [.offAll (some 1), .off (some 0) (some 1)] : Coll ℕ).enabled (some 1) (some 0) = false ∧
    (Coll.after [.reset (some 1), .offAll (some 1), .off (some 0) (some 1)] : Coll ℕ).enabled (some 1) (some 0) = true := by decide

/-- Switching off the self collisions of a robot switches off every pair of its bodies and changes no other pair; switching them on switches on every pair of
its bodies that is not switched off as objects, and changes no other pair. -/
theorem C163_self (h : List (Call ο)) (nodes : List (Option ο)) (a b : Option ο) (ha : a ≠ none) (hb : b ≠ none) :
    (((Coll.after h).self false nodes).enabled a b = true ↔ Collides h a b ∧ ¬ (a ∈ nodes ∧ b ∈ nodes)) ∧
    (((Coll.after h).self true nodes).enabled a b = true ↔
      Collides h a b ∨ (a ∈ nodes ∧ b ∈ nodes ∧ ¬ ObjectOff a h ∧ ¬ ObjectOff b h)) := by
  have e0 := C163_enabled h a b
  rw [enabled_iff] at e0
  simp only [ha, hb, false_or] at e0
  unfold Coll.self
  rw [← e0, enabled_iff, enabled_iff]
  simp only [ha, hb, false_or]
  rw [(selfAll_off nodes nodes (Coll.after h) a b).1, (selfAll_off nodes nodes (Coll.after h) b a).1, (selfAll_off nodes nodes (Coll.after h) a b).2,
    (selfAll_on nodes nodes _ (clean_after h) a b).1, (selfAll_on nodes nodes _ (clean_after h) b a).1, (selfAll_on nodes nodes _ (clean_after h) a b).2,
    same_in, same_in, ← mem_all_after, ← mem_all_after]
  constructor <;> tauto

/-- A robot with two bodies and a node without a body, and another object. -/
example : ((Coll.after [] : Coll ℕ).self false [some 0, none, some 1]).enabled (some 1) (some 0) = false ∧
    ((Coll.after [] : Coll ℕ).self false [some 0, none, some 1]).enabled (some 1) (some 2) = true := by decide

/-- Switching self collisions off and on again is not without effect: bodies linked by a joint, whose collisions the robot had switched off, collide afterwards. -/
theorem C163_self_false : ∃ (h : List (Call ℕ)) (nodes : List (Option ℕ)) (a b : Option ℕ),
    (Coll.after h).enabled a b = false ∧ (((Coll.after h).self false nodes).self true nodes).enabled a b = true :=
  ⟨[.off (some 0) (some 1)], [some 0, some 1], some 0, some 1, by decide, by decide⟩

/-! ## C164: objects and robots -/

/-- One call, by the code. `robot` is the robot of a wrapper, `nodes` its bodies and `body` the body of a node. -/
def Engine.step (robot : ω → ρ) (nodes : ω → List ο) (body : ν → Option ο) (e : Engine ο ω ν) : Op ο ω ν → Engine ο ω ν
  | .addObject o => (e.addObject o).2
  | .removeObject o => (e.removeObject o).2
  | .addRobot r => (e.addRobot robot nodes r).2
  | .removeRobot r => (e.removeRobot nodes r).2
  | .attach r chain o => (e.attach body r chain o).2
  | .detach r o => (e.detach r o).2
  | .collisions k => { e with coll := e.coll.call k }

/-- The engine after a history of calls, the last call first. -/
def Engine.after (robot : ω → ρ) (nodes : ω → List ο) (body : ν → Option ο) (links : ω → List (Link ο ν)) : List (Op ο ω ν) → Engine ο ω ν
  | [] => Engine.empty links
  | k :: h => (Engine.after robot nodes body links h).step robot nodes body k

theorem distinct_append {robot : ω → ρ} {ws : List ω} {r : ω} (h : ¬ SharesRobot robot ws) (hr : ∀ r' ∈ ws, robot r' ≠ robot r) :
    ¬ SharesRobot robot (ws ++ [r]) := by
  rintro ⟨w, hw, w', hw', hne, he⟩
  rw [List.mem_append, List.mem_singleton] at hw hw'
  rcases hw with hw | rfl <;> rcases hw' with hw' | rfl
  · exact h ⟨w, hw, w', hw', hne, he⟩
  · exact hr w hw he
  · exact hr w' hw' he.symm
  · exact hne rfl

theorem distinct_sub {robot : ω → ρ} {ws ws' : List ω} (h : ¬ SharesRobot robot ws) (hs : ∀ w ∈ ws', w ∈ ws) : ¬ SharesRobot robot ws' := by
  rintro ⟨w, hw, w', hw', hne, he⟩
  exact h ⟨w, hs w hw, w', hs w' hw', hne, he⟩

/-- The invariant of an engine. -/
def Engine.Good (robot : ω → ρ) (e : Engine ο ω ν) : Prop :=
  e.objects.Nodup ∧ e.robots.Nodup ∧ ¬ SharesRobot robot e.robots ∧ e.coll.Clean

theorem good_register {robot : ω → ρ} {e : Engine ο ω ν} (h : e.Good robot) (r : ω) : (e.registerRobot robot r).2.Good robot := by
  obtain ⟨h1, h2, h3, h4⟩ := h
  obtain ⟨p1, p2, _⟩ := registerRobot_parts robot e r
  unfold Engine.Good
  rw [p1, p2]
  rcases registerRobot_cases robot e r with ⟨_, _, hr⟩ | ⟨_, _, _, hr⟩ | ⟨hn, ho, _, hr⟩
  · rw [hr]
    exact ⟨h1, h2, h3, h4⟩
  · rw [hr]
    exact ⟨h1, h2, h3, h4⟩
  · rw [hr]
    refine ⟨h1, List.nodup_append.2 ⟨h2, List.nodup_singleton r, ?_⟩, distinct_append h3 ho, h4⟩
    intro y hy z hz
    rw [List.mem_singleton] at hz
    subst hz
    exact fun e => hn (e ▸ hy)

theorem good_step {robot : ω → ρ} {nodes : ω → List ο} {body : ν → Option ο} {e : Engine ο ω ν} (h : e.Good robot) (k : Op ο ω ν) :
    (e.step robot nodes body k).Good robot := by
  have h0 := h
  obtain ⟨h1, h2, h3, h4⟩ := h
  cases k with
  | addObject o =>
    obtain ⟨r1, r2, _⟩ := register_parts { e with bodies := e.bodies ++ [o] } o
    show (Engine.register { e with bodies := e.bodies ++ [o] } o).Good robot
    unfold Engine.Good
    rw [r1, r2]
    exact ⟨register_nodup (e := { e with bodies := e.bodies ++ [o] }) h1 o, h2, h3, h4⟩
  | removeObject o =>
    obtain ⟨r1, r2, _, _, _, r6, _⟩ := removeObject_parts e o
    show (e.removeObject o).2.Good robot
    unfold Engine.Good
    rw [r1, r2, r6]
    exact ⟨h1.erase o, h2, h3, h4⟩
  | addRobot r =>
    show (e.addRobot robot nodes r).2.Good robot
    unfold Engine.addRobot
    apply good_register
    obtain ⟨a1, a2, _, _, _, a6, _, _⟩ := addObjects_parts (nodes r) e
    obtain ⟨l1, l2, _, _, _, _, l7, _⟩ := addLinks_parts (((nodes r).foldl (fun e o => (e.addObject o).2) e).links r) ((nodes r).foldl (fun e o => (e.addObject o).2) e)
    unfold Engine.Good
    rw [l1, l2, a1]
    exact ⟨a6 h1, h2, h3, l7 (by rw [a2]; exact h4)⟩
  | removeRobot r =>
    show (e.removeRobot nodes r).2.Good robot
    unfold Engine.removeRobot
    obtain ⟨l1, l2, _, _, _, _, l7, _⟩ := removeLinks_parts (e.links r) e h4
    obtain ⟨a1, a2, _, _, _, a6⟩ := removeObjects_parts (nodes r) ((e.links r).foldl Engine.removeLink e)
    simp only at a1 a2 a6 ⊢
    generalize hE : (nodes r).foldl (fun e o => (e.removeObject o).2) ((e.links r).foldl Engine.removeLink e) = E at a1 a2 a6 ⊢
    have g : E.Good robot := by
      unfold Engine.Good
      rw [a1, a2, a6, l1, l2]
      exact ⟨nodup_foldl_erase _ _ h1, h2, h3, l7⟩
    by_cases hr : r ∈ E.robots
    · rw [if_pos hr]
      exact ⟨g.1, g.2.1.erase r, distinct_sub g.2.2.1 fun w hw => List.mem_of_mem_erase hw, g.2.2.2⟩
    · rw [if_neg hr]
      exact g
  | attach r chain o =>
    show (e.attach body r chain o).2.Good robot
    unfold Engine.attach
    cases attachLink body chain o with
    | none => exact h0
    | some l => exact ⟨h1, h2, h3, clean_offPairs _ _ h4⟩
  | detach r o =>
    show (e.detach r o).2.Good robot
    unfold Engine.detach
    obtain ⟨l1, l2, _, _, _, _, l7, _⟩ := removeLinks_parts (linksOf o (e.links r)) e h4
    simp only
    by_cases hl : (linksOf o (e.links r)).length = 0
    · rw [if_pos hl]
      unfold Engine.Good
      rw [l1, l2]
      exact ⟨h1, h2, h3, l7⟩
    · rw [if_neg hl]
      unfold Engine.Good
      simp only
      rw [l1, l2]
      exact ⟨h1, h2, h3, l7⟩
  | collisions k => exact ⟨h1, h2, h3, clean_call h4 k⟩

theorem good_after (robot : ω → ρ) (nodes : ω → List ο) (body : ν → Option ο) (links : ω → List (Link ο ν)) (h : List (Op ο ω ν)) :
    (Engine.after robot nodes body links h).Good robot := by
  induction h with
  | nil =>
    refine ⟨List.nodup_nil, List.nodup_nil, ?_, ⟨fun _ => List.nodup_nil, List.nodup_nil⟩⟩
    rintro ⟨w, hw, _⟩
    cases hw
  | cons k h ih => exact good_step ih k

/-- After any history no object and no wrapper is listed twice, and no two wrappers are for the same robot. -/
theorem C164_lists (robot : ω → ρ) (nodes : ω → List ο) (body : ν → Option ο) (links : ω → List (Link ο ν)) (h : List (Op ο ω ν)) :
    (Engine.after robot nodes body links h).objects.Nodup ∧ (Engine.after robot nodes body links h).robots.Nodup ∧
      ¬ SharesRobot robot (Engine.after robot nodes body links h).robots :=
  ⟨(good_after robot nodes body links h).1, (good_after robot nodes body links h).2.1, (good_after robot nodes body links h).2.2.1⟩

/-- An object is added twice, and two wrappers of the same robot are added: the second is rejected. -/
example : (Engine.after (fun _ : ℕ => 0) (fun _ => []) (fun _ : ℕ => none) (fun _ => []) [.addRobot 8, .addRobot 7, .addObject 3, .addObject 3] : Engine ℕ ℕ ℕ).objects = [3] ∧
    (Engine.after (fun _ : ℕ => 0) (fun _ => []) (fun _ : ℕ => none) (fun _ => []) [.addRobot 8, .addRobot 7, .addObject 3, .addObject 3] : Engine ℕ ℕ ℕ).robots = [7] := by
  decide

/-- Adding an object lists it and changes no other; removing it reports whether it was listed, unlists it and changes no other. -/
theorem C164_object (robot : ω → ρ) (nodes : ω → List ο) (body : ν → Option ο) (links : ω → List (Link ο ν)) (h : List (Op ο ω ν)) (o : ο) :
    let e := Engine.after robot nodes body links h
    ((e.addObject o).1 = true ∧ ∀ x, x ∈ (e.addObject o).2.objects ↔ x ∈ e.objects ∨ x = o) ∧
    (((e.removeObject o).1 = true ↔ o ∈ e.objects) ∧ ∀ x, x ∈ (e.removeObject o).2.objects ↔ x ∈ e.objects ∧ x ≠ o) := by
  intro e
  obtain ⟨_, _, _, _, _, r6, r7⟩ := removeObject_parts e o
  refine ⟨⟨rfl, fun x => mem_register { e with bodies := e.bodies ++ [o] } o x⟩, r7, fun x => ?_⟩
  rw [r6, (good_after robot nodes body links h).1.mem_erase_iff]
  exact and_comm

/-- A name finds a listed object of that name, if there is one. -/
theorem C164_find (name : ο → String) (e : Engine ο ω ν) (n : String) :
    (∀ o, e.getObject name n = some o → o ∈ e.objects ∧ name o = n) ∧ (e.getObject name n = none → ∀ o ∈ e.objects, name o ≠ n) := by
  unfold Engine.getObject
  constructor
  · intro o h
    have h1 := List.find?_some h
    exact ⟨List.mem_of_find?_eq_some h, eq_of_beq h1⟩
  · intro h o ho hn
    have := List.find?_eq_none.1 h o ho
    exact this (beq_iff_eq.2 hn)

/-- A robot is accepted exactly if no other wrapper of the same robot is listed; then it is found by its robot. -/
theorem C164_robot (robot : ω → ρ) (nodes : ω → List ο) (body : ν → Option ο) (links : ω → List (Link ο ν)) (h : List (Op ο ω ν)) (r : ω) :
    let e := Engine.after robot nodes body links h
    ((e.addRobot robot nodes r).1 = true ↔ ∀ w ∈ e.robots, robot w = robot r → w = r) ∧
    ((e.addRobot robot nodes r).1 = true → (e.addRobot robot nodes r).2.getRobot robot (robot r) = some r) ∧
    (∀ w, w ∈ (e.addRobot robot nodes r).2.robots ↔ w ∈ e.robots ∨ (w = r ∧ (e.addRobot robot nodes r).1 = true)) := by
  intro e
  have hg := good_after robot nodes body links h
  have hg' : ((e.addRobot robot nodes r).2).Good robot := good_step (nodes := nodes) (body := body) hg (.addRobot r)
  have hp : ∃ E : Engine ο ω ν, E.robots = e.robots ∧ e.addRobot robot nodes r = E.registerRobot robot r := by
    refine ⟨_, ?_, rfl⟩
    obtain ⟨a1, _⟩ := addObjects_parts (nodes r) e
    obtain ⟨_, l2, _⟩ := addLinks_parts (((nodes r).foldl (fun e o => (e.addObject o).2) e).links r) ((nodes r).foldl (fun e o => (e.addObject o).2) e)
    exact l2.trans a1
  obtain ⟨E, hE, heq⟩ := hp
  rw [heq] at hg' ⊢
  have found : r ∈ (E.registerRobot robot r).2.robots → (E.registerRobot robot r).2.getRobot robot (robot r) = some r := by
    intro hr
    unfold Engine.getRobot
    cases hf : (E.registerRobot robot r).2.robots.find? fun w => robot w = robot r with
    | none => exact (List.find?_eq_none.1 hf r hr (by simp)).elim
    | some w =>
      have h0 := List.find?_some hf
      have h1 : robot w = robot r := of_decide_eq_true h0
      have h2 := List.mem_of_find?_eq_some hf
      by_contra hne
      exact hg'.2.2.1 ⟨w, h2, r, hr, fun e => hne (by rw [e]), h1⟩
  rcases registerRobot_cases robot E r with ⟨h1, h2, h3⟩ | ⟨h1, ⟨r', h4, h5⟩, h2, h3⟩ | ⟨h1, h4, h2, h3⟩
  · rw [hE] at h1 h3
    refine ⟨⟨fun _ w hw he => ?_, fun _ => h2⟩, fun _ => found (by rw [h3]; exact h1), fun w => ?_⟩
    · by_contra hne
      exact hg.2.2.1 ⟨w, hw, r, h1, hne, he⟩
    · rw [h3]
      constructor
      · exact Or.inl
      · rintro (h' | ⟨rfl, _⟩)
        · exact h'
        · exact h1
  · rw [hE] at h1 h3 h4
    refine ⟨⟨fun h' => (by rw [h2] at h'; cases h'), fun h' => ?_⟩, fun h' => (by rw [h2] at h'; cases h'), fun w => ?_⟩
    · exact (h1 (h' r' h4 h5 ▸ h4)).elim
    · rw [h3]
      constructor
      · exact Or.inl
      · rintro (h' | ⟨_, h'⟩)
        · exact h'
        · rw [h2] at h'
          cases h'
  · rw [hE] at h1 h3 h4
    refine ⟨⟨fun _ w hw he => (h4 w hw he).elim, fun _ => h2⟩, fun _ => found (by rw [h3]; exact List.mem_append_right _ (List.mem_singleton.2 rfl)), fun w => ?_⟩
    rw [h3, List.mem_append, List.mem_singleton, h2]
    simp

/-- Adding a robot lists all its bodies, hands them and its links to Bullet, and bodies joined by a link do not collide afterwards. -/
theorem C164_add_robot (robot : ω → ρ) (nodes : ω → List ο) (e : Engine ο ω ν) (r : ω) :
    (∀ x, x ∈ (e.addRobot robot nodes r).2.objects ↔ x ∈ e.objects ∨ x ∈ nodes r) ∧
    (e.addRobot robot nodes r).2.bodies = e.bodies ++ nodes r ∧ (e.addRobot robot nodes r).2.constraints = e.constraints ++ e.links r ∧
    (∀ l ∈ e.links r, ∀ p ∈ l.pairs, (e.addRobot robot nodes r).2.coll.enabled (some p.1) (some p.2) = false) := by
  obtain ⟨a1, a2, a3, a4, a5, _, a7, _⟩ := addObjects_parts (nodes r) e
  obtain ⟨l1, l2, l3, l4, l5, _, _, l8⟩ := addLinks_parts (((nodes r).foldl (fun e o => (e.addObject o).2) e).links r) ((nodes r).foldl (fun e o => (e.addObject o).2) e)
  obtain ⟨p1, p2, p3, p4, _⟩ := registerRobot_parts robot ((((nodes r).foldl (fun e o => (e.addObject o).2) e).links r).foldl Engine.addLink ((nodes r).foldl (fun e o => (e.addObject o).2) e)) r
  unfold Engine.addRobot
  simp only
  refine ⟨fun x => ?_, ?_, ?_, ?_⟩
  · rw [p1, l1]
    exact a7 x
  · rw [p3, l3]
    exact a3
  · rw [p4, l4, a4, a5]
  · intro l hl p hp
    rw [← Bool.not_eq_true, enabled_iff, p2]
    rintro (h | h | ⟨_, _, h, _⟩)
    · cases h
    · cases h
    · refine h ((l8 _ _).2 (Or.inr ⟨l, ?_, p, hp, Or.inl ⟨rfl, rfl⟩⟩))
      rw [a5]
      exact hl

/-- Removing a robot that was just added to an engine without its bodies and links restores the lists, and with them what Bullet was handed. -/
theorem C164_remove_robot (robot : ω → ρ) (nodes : ω → List ο) (e : Engine ο ω ν) (r : ω) (hc : e.coll.Clean) (hn : (nodes r).Nodup)
    (ho : ∀ o ∈ nodes r, o ∉ e.objects ∧ o ∉ e.bodies) (hl : ∀ l ∈ e.links r, l ∉ e.constraints) (hr : ∀ w ∈ e.robots, robot w ≠ robot r) :
    ((e.addRobot robot nodes r).2.removeRobot nodes r).1 = true ∧ ((e.addRobot robot nodes r).2.removeRobot nodes r).2.objects = e.objects ∧
      ((e.addRobot robot nodes r).2.removeRobot nodes r).2.robots = e.robots ∧ ((e.addRobot robot nodes r).2.removeRobot nodes r).2.bodies = e.bodies ∧
      ((e.addRobot robot nodes r).2.removeRobot nodes r).2.constraints = e.constraints ∧
      ((e.addRobot robot nodes r).2.removeRobot nodes r).2.links = e.links := by
  obtain ⟨a1, a2, a3, a4, a5, _, _, a8⟩ := addObjects_parts (nodes r) e
  obtain ⟨l1, l2, l3, l4, l5, _, l7, _⟩ := addLinks_parts (((nodes r).foldl (fun e o => (e.addObject o).2) e).links r) ((nodes r).foldl (fun e o => (e.addObject o).2) e)
  obtain ⟨p1, p2, p3, p4, p5⟩ := registerRobot_parts robot ((((nodes r).foldl (fun e o => (e.addObject o).2) e).links r).foldl Engine.addLink ((nodes r).foldl (fun e o => (e.addObject o).2) e)) r
  have q : (e.addRobot robot nodes r).2.robots = e.robots ++ [r] := by
    rcases registerRobot_cases robot ((((nodes r).foldl (fun e o => (e.addObject o).2) e).links r).foldl Engine.addLink ((nodes r).foldl (fun e o => (e.addObject o).2) e)) r with
      ⟨h1, _, _⟩ | ⟨_, ⟨r', h4, h5⟩, _⟩ | ⟨_, _, _, h3⟩
    · rw [l2, a1] at h1
      exact (hr r h1 rfl).elim
    · rw [l2, a1] at h4
      exact (hr r' h4 h5).elim
    · rw [l2, a1] at h3
      exact h3
  have e1 : (e.addRobot robot nodes r).2.objects = e.objects ++ nodes r := p1.trans (l1.trans (a8 hn fun o h => (ho o h).1))
  have e2 : (e.addRobot robot nodes r).2.bodies = e.bodies ++ nodes r := p3.trans (l3.trans a3)
  have e3 : (e.addRobot robot nodes r).2.constraints = e.constraints ++ e.links r := p4.trans (l4.trans (by rw [a4, a5]))
  have e4 : (e.addRobot robot nodes r).2.links = e.links := p5.trans (l5.trans a5)
  have e5 : (e.addRobot robot nodes r).2.coll.Clean := by
    show ((Engine.registerRobot robot _ r).2).coll.Clean
    rw [p2]
    exact l7 (by rw [a2]; exact hc)
  generalize (e.addRobot robot nodes r).2 = E at q e1 e2 e3 e4 e5 ⊢
  obtain ⟨m1, m2, m3, m4, m5, _, _, _⟩ := removeLinks_parts (E.links r) E e5
  obtain ⟨n1, n2, n3, n4, n5, n6⟩ := removeObjects_parts (nodes r) ((E.links r).foldl Engine.removeLink E)
  unfold Engine.removeRobot
  simp only at n1 n2 n3 n4 n5 n6 ⊢
  generalize (nodes r).foldl (fun e o => (e.removeObject o).2) ((E.links r).foldl Engine.removeLink E) = F at n1 n2 n3 n4 n5 n6 ⊢
  have hrm : r ∈ F.robots := by
    rw [n1, m2, q]
    exact List.mem_append_right _ (List.mem_singleton.2 rfl)
  rw [if_pos hrm]
  refine ⟨rfl, ?_, ?_, ?_, ?_, ?_⟩
  · show F.objects = _
    rw [n6, m1, e1]
    exact erase_all _ _ fun o h => (ho o h).1
  · show F.robots.erase r = _
    rw [n1, m2, q, List.erase_append_right _ fun h => hr r h rfl]
    simp
  · show F.bodies = _
    rw [n3, m3, e2]
    exact erase_all _ _ fun o h => (ho o h).2
  · show F.constraints = _
    rw [n4, m4, e3, e4]
    exact erase_all _ _ hl
  · show F.links = _
    rw [n5, m5, e4]

/-- A robot with two linked bodies. -/
example : ((Engine.empty fun _ => [⟨0, 4, 5, [(4, 5)]⟩] : Engine ℕ ℕ ℕ).addRobot (fun r => r) (fun _ => [4, 5]) 7).2.objects = [4, 5] ∧
    (((Engine.empty fun _ => [⟨0, 4, 5, [(4, 5)]⟩] : Engine ℕ ℕ ℕ).addRobot (fun r => r) (fun _ => [4, 5]) 7).2.removeRobot (fun _ => [4, 5]) 7).2.objects = [] := by
  decide

/-- A second wrapper of a listed robot is rejected, but its bodies and links are in the engine all the same. -/
theorem C164_rejected_false : ∃ (robot : ℕ → ℕ) (nodes : ℕ → List ℕ) (e : Engine ℕ ℕ ℕ) (r : ℕ),
    (e.addRobot robot nodes r).1 = false ∧ (e.addRobot robot nodes r).2.robots = e.robots ∧ (e.addRobot robot nodes r).2.objects ≠ e.objects ∧
      (e.addRobot robot nodes r).2.constraints ≠ e.constraints :=
  ⟨fun _ => 0, fun r => [r], ((Engine.empty fun r => [⟨0, r, r + 1, []⟩]).addRobot (fun _ => 0) (fun r => [r]) 1).2, 2, by decide, by decide, by decide, by decide⟩

/-- Adding and removing a robot is not without effect on collisions: a pair of its bodies the user had switched off collides afterwards. -/
theorem C164_remove_false : ∃ (robot : ℕ → ℕ) (nodes : ℕ → List ℕ) (e : Engine ℕ ℕ ℕ) (r : ℕ),
    e.coll.enabled (some 4) (some 5) = false ∧ ((e.addRobot robot nodes r).2.removeRobot nodes r).2.coll.enabled (some 4) (some 5) = true :=
  ⟨fun r => r, fun _ => [4, 5], { Engine.empty fun _ => [⟨0, 4, 5, [(4, 5)]⟩] with coll := Coll.after [.off (some 4) (some 5)] }, 7, by decide, by decide⟩

/-! ## C165: attached objects -/

/-- Attaching succeeds exactly if the node exists and it or a node above it has a body. The object is linked to the nearest of these bodies, and does not
collide with it afterwards; no other pair changes. -/
theorem C165_attach (body : ν → Option ο) (e : Engine ο ω ν) (r : ω) (chain : Option (List ν)) (o : ο) :
    ((e.attach body r chain o).1 = true ↔ ∃ ns, chain = some ns ∧ ∃ n ∈ ns, (body n).isSome) ∧
    ((e.attach body r chain o).1 = false → (e.attach body r chain o).2 = e) ∧
    (∀ pre n post b, chain = some (pre ++ n :: post) → (∀ m ∈ pre, body m = none) → body n = some b →
      (e.attach body r chain o).2.links r = e.links r ++ [⟨n, b, o, [(b, o)]⟩] ∧
      (e.attach body r chain o).2.constraints = e.constraints ++ [⟨n, b, o, [(b, o)]⟩] ∧
      (e.attach body r chain o).2.coll.enabled (some b) (some o) = false ∧
      ∀ x y, ¬ SamePair x y (some b) (some o) → (e.attach body r chain o).2.coll.enabled x y = e.coll.enabled x y) := by
  have none_iff : ∀ ns : List ν, nearestBody body ns = none ↔ ∀ n ∈ ns, body n = none := by
    intro ns
    induction ns with
    | nil => simp [nearestBody]
    | cons m ns ih =>
      unfold nearestBody
      cases hm : body m with
      | none => simp [ih, hm]
      | some b => simp [hm]
  refine ⟨?_, ?_, ?_⟩
  · unfold Engine.attach attachLink
    cases chain with
    | none => simp
    | some ns =>
      simp only [Option.some.injEq, exists_eq_left']
      cases hb : nearestBody body ns with
      | none =>
        simp only [Bool.false_eq_true, false_iff]
        rintro ⟨n, hn, hs⟩
        rw [(none_iff ns).1 hb n hn] at hs
        cases hs
      | some p =>
        simp only [true_iff]
        obtain ⟨pre, post, h1, _, h3⟩ := nearestBody_some.1 (show nearestBody body ns = some (p.1, p.2) from hb)
        exact ⟨p.1, by rw [h1]; exact List.mem_append_right _ (List.mem_cons_self ..), by rw [h3]; rfl⟩
  · unfold Engine.attach
    cases attachLink body chain o with
    | none => exact fun _ => rfl
    | some l => exact fun h => (by cases h)
  · intro pre n post b hc hp hb
    have hl : attachLink body chain o = some ⟨n, b, o, [(b, o)]⟩ := by
      unfold attachLink
      rw [hc]
      simp only
      rw [nearestBody_some.2 ⟨pre, post, rfl, hp, hb⟩]
    unfold Engine.attach
    rw [hl]
    simp only
    refine ⟨?_, rfl, ?_, ?_⟩
    · show Function.update e.links r _ r = _
      rw [Function.update_self]
    · show (e.coll.off (some b) (some o)).enabled (some b) (some o) = false
      rw [← Bool.not_eq_true, enabled_iff]
      rintro (h | h | ⟨_, _, h, _⟩)
      · cases h
      · cases h
      · exact h (mem_off.2 (Or.inr (Or.inl ⟨rfl, rfl⟩)))
    · intro x y hxy
      show (e.coll.off (some b) (some o)).enabled x y = _
      have hyx : ¬ SamePair y x (some b) (some o) := fun h => hxy (h.elim (fun h => Or.inr ⟨h.1, h.2⟩) (fun h => Or.inl ⟨h.1, h.2⟩))
      rw [Bool.eq_iff_iff, enabled_iff, enabled_iff, mem_off, mem_off]
      show _ ∨ _ ∨ (x ∉ e.coll.all ∧ y ∉ e.coll.all ∧ _) ↔ _
      simp only [hxy, hyx, or_false]

/-- An object is attached to a node without a body: the body of the node above is taken. -/
example : ((Engine.empty fun _ => [] : Engine ℕ ℕ ℕ).attach (fun n => if n = 2 then none else some n) 0 (some [2, 1, 0]) 9).2.links 0 = [⟨1, 1, 9, [(1, 9)]⟩] := by
  decide

/-- Detaching removes exactly the links of the object. -/
theorem C165_links (e : Engine ο ω ν) (r : ω) (o : ο) :
    ∀ l, l ∈ (e.detach r o).2.links r ↔ l ∈ e.links r ∧ l.body1 ≠ o ∧ l.body2 ≠ o := by
  intro l
  have fold : ∀ (ls : List (Link ο ν)) (e : Engine ο ω ν), (ls.foldl Engine.removeLink e).links = e.links := by
    intro ls
    induction ls with
    | nil => exact fun _ => rfl
    | cons l ls ih => exact fun e => ih (e.removeLink l)
  unfold Engine.detach
  simp only
  by_cases hl : (linksOf o (e.links r)).length = 0
  · rw [if_pos hl]
    simp only [fold]
    have := List.length_eq_zero_iff.1 hl
    unfold linksOf at this
    rw [List.filter_eq_nil_iff] at this
    constructor
    · intro h
      have h' := this l h
      simp only [decide_eq_true_eq, not_or] at h'
      exact ⟨h, h'.1, h'.2⟩
    · exact fun h => h.1
  · rw [if_neg hl]
    simp only [fold, Function.update_self]
    rw [dropLinks_list]
    rw [List.mem_filter]
    simp only [decide_eq_true_eq]
    unfold linksOf
    constructor
    · rintro ⟨h1, h2⟩
      refine ⟨h1, ?_⟩
      by_contra hc
      apply h2
      refine ⟨l, List.mem_filter.2 ⟨h1, ?_⟩, rfl, rfl⟩
      simp only [decide_eq_true_eq]
      tauto
    · rintro ⟨h1, h2, h3⟩
      refine ⟨h1, ?_⟩
      rintro ⟨k, hk, h4, h5⟩
      have := (List.mem_filter.1 hk).2
      simp only [decide_eq_true_eq] at this
      rw [← h4, ← h5] at this
      tauto

/-- Detaching an object that was just attached, and was not linked before, succeeds and restores the engine: the links, the constraints, and, if the pair was not
switched off before, the collisions. -/
theorem C165_detach_partial (body : ν → Option ο) (e : Engine ο ω ν) (r : ω) (chain : Option (List ν)) (o : ο) (hc : e.coll.Clean)
    (ha : (e.attach body r chain o).1 = true) (hl : ∀ l ∈ e.links r, l.body1 ≠ o ∧ l.body2 ≠ o)
    (hk : ∀ l ∈ e.constraints, l.body2 ≠ o)
    (hp : ∀ b, some o ∉ e.coll.pairs (some b) ∧ some b ∉ e.coll.pairs (some o)) :
    ((e.attach body r chain o).2.detach r o).1 = true ∧ ((e.attach body r chain o).2.detach r o).2.links = e.links ∧
      ((e.attach body r chain o).2.detach r o).2.constraints = e.constraints ∧
      ∀ x y, ((e.attach body r chain o).2.detach r o).2.coll.enabled x y = e.coll.enabled x y := by
  unfold Engine.attach at ha ⊢
  cases hat : attachLink body chain o with
  | none =>
    rw [hat] at ha
    cases ha
  | some l =>
    simp only
    have hform : ∃ n b, l = ⟨n, b, o, [(b, o)]⟩ := by
      unfold attachLink at hat
      cases chain with
      | none => cases hat
      | some ns =>
        simp only at hat
        cases hb : nearestBody body ns with
        | none =>
          rw [hb] at hat
          cases hat
        | some p =>
          rw [hb] at hat
          injection hat with hat
          exact ⟨p.1, p.2, hat.symm⟩
    obtain ⟨n, b, rfl⟩ := hform
    have hno : linksOf o (e.links r) = [] := by
      unfold linksOf
      rw [List.filter_eq_nil_iff]
      intro k hk'
      simp only [decide_eq_true_eq, not_or]
      exact hl k hk'
    have hls : linksOf o (e.links r ++ [⟨n, b, o, [(b, o)]⟩]) = [⟨n, b, o, [(b, o)]⟩] := by
      have : linksOf o (e.links r ++ [⟨n, b, o, [(b, o)]⟩]) = linksOf o (e.links r) ++ linksOf o [⟨n, b, o, [(b, o)]⟩] := List.filter_append ..
      rw [this, hno]
      simp [linksOf]
    have hdrop : dropLink (e.links r ++ [⟨n, b, o, [(b, o)]⟩]) (⟨n, b, o, [(b, o)]⟩ : Link ο ν) = (true, e.links r) := by
      unfold dropLink
      refine Prod.ext ?_ ?_
      · simp
      · simp only [List.filter_append]
        rw [List.filter_eq_self.2, List.filter_eq_nil_iff.2, List.append_nil]
        · intro k hk'
          rw [List.mem_singleton] at hk'
          subst hk'
          simp
        · intro k hk'
          simp only [decide_eq_true_eq, not_and]
          exact fun _ => (hl k hk').2
    unfold Engine.detach
    simp only [Engine.addLink, Function.update_self, hls, List.foldl_cons, List.foldl_nil, Engine.removeLink, List.length_singleton, Nat.one_ne_zero,
      if_false, dropLinks, hdrop, Bool.and_self]
    refine ⟨trivial, ?_, ?_, ?_⟩
    · rw [Function.update_idem, Function.update_eq_self]
    · rw [List.erase_append_right]
      · simp
      · exact fun h => hk _ h rfl
    · intro x y
      show ((e.coll.off (some b) (some o)).on (some b) (some o)).enabled x y = _
      have hnb := hp b
      have key : ∀ x y, y ∈ ((e.coll.off (some b) (some o)).on (some b) (some o)).pairs x ↔ y ∈ e.coll.pairs x := by
        intro x y
        rw [mem_on (clean_off hc _ _), mem_off]
        constructor
        · rintro ⟨h1 | h1, h2⟩
          · exact h1
          · exact (h2 h1).elim
        · intro h1
          refine ⟨Or.inl h1, ?_⟩
          rintro (⟨rfl, rfl⟩ | ⟨rfl, rfl⟩)
          · exact hnb.1 h1
          · exact hnb.2 h1
      rw [Bool.eq_iff_iff, enabled_iff, enabled_iff, key, key]
      rfl

/-- An object is attached and detached. -/
example : ((Engine.empty fun _ => [] : Engine ℕ ℕ ℕ).attach (fun n => some n) 0 (some [1, 0]) 9).1 = true ∧
    (((Engine.empty fun _ => [] : Engine ℕ ℕ ℕ).attach (fun n => some n) 0 (some [1, 0]) 9).2.detach 0 9).1 = true := by decide

/-- Detaching an object that is not attached reports success and changes nothing. -/
theorem C165_not_attached (e : Engine ο ω ν) (r : ω) (o : ο) (hl : ∀ l ∈ e.links r, l.body1 ≠ o ∧ l.body2 ≠ o) : e.detach r o = (true, e) := by
  have hno : linksOf o (e.links r) = [] := by
    unfold linksOf
    rw [List.filter_eq_nil_iff]
    intro k hk'
    simp only [decide_eq_true_eq, not_or]
    exact hl k hk'
  unfold Engine.detach
  simp [hno]

/-- Detaching an object that was attached twice reports a failure although nothing stays attached. -/
theorem C165_twice_false : ∃ (body : ℕ → Option ℕ) (e : Engine ℕ ℕ ℕ) (r o : ℕ) (chain : Option (List ℕ)),
    let e' := ((e.attach body r chain o).2.attach body r chain o).2
    (e'.detach r o).1 = false ∧ (e'.detach r o).2.links r = e.links r :=
  ⟨fun n => some n, Engine.empty fun _ => [], 0, 9, some [1], by decide, by decide⟩

/-- Attaching and detaching is not without effect on collisions: a pair the user had switched off collides afterwards. -/
theorem C165_detach_false : ∃ (body : ℕ → Option ℕ) (e : Engine ℕ ℕ ℕ) (r o : ℕ) (chain : Option (List ℕ)),
    e.coll.enabled (some 1) (some o) = false ∧ ((e.attach body r chain o).2.detach r o).2.coll.enabled (some 1) (some o) = true :=
  ⟨fun n => some n, { Engine.empty fun _ => [] with coll := Coll.after [.off (some 1) (some 9)] }, 0, 9, some [1], by decide, by decide⟩

end Simox.Dyn
