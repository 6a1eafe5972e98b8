import Verif.Dyn.Lemmas

/-! # Lemmas about the lists of the engine and attached objects -/

namespace Simox.Dyn

set_option linter.unusedSectionVars false

variable {ο ρ ω ν : Type} [DecidableEq ο] [DecidableEq ρ] [DecidableEq ω] [DecidableEq ν]

theorem clean_off {c : Coll ο} (h : c.Clean) (a b : Option ο) : (c.off a b).Clean := clean_call h (.off a b)

theorem clean_on {c : Coll ο} (h : c.Clean) (a b : Option ο) : (c.on a b).Clean := clean_call h (.on a b)

theorem samePair_comm {a b x y : Option ο} : SamePair a b x y ↔ SamePair x y a b := by
  unfold SamePair
  constructor
  · rintro (⟨rfl, rfl⟩ | ⟨rfl, rfl⟩)
    · exact Or.inl ⟨rfl, rfl⟩
    · exact Or.inr ⟨rfl, rfl⟩
  · rintro (⟨rfl, rfl⟩ | ⟨rfl, rfl⟩)
    · exact Or.inl ⟨rfl, rfl⟩
    · exact Or.inr ⟨rfl, rfl⟩

/-! ## The bodies of one robot -/

theorem selfOne_off (a : Option ο) (bs : List (Option ο)) (c : Coll ο) (x y : Option ο) :
    (y ∈ (Coll.selfOne false a bs c).pairs x ↔ y ∈ c.pairs x ∨ ∃ b ∈ bs, SamePair x y a b) ∧ (Coll.selfOne false a bs c).all = c.all := by
  induction bs generalizing c with
  | nil => simp [Coll.selfOne]
  | cons b bs ih =>
    unfold Coll.selfOne
    rw [if_neg (by decide)]
    refine ⟨?_, (ih (c.off a b)).2⟩
    rw [(ih (c.off a b)).1, mem_off]
    simp only [List.mem_cons, exists_eq_or_imp]
    exact or_assoc

theorem selfAll_off (nodes as : List (Option ο)) (c : Coll ο) (x y : Option ο) :
    (y ∈ (Coll.selfAll false nodes as c).pairs x ↔ y ∈ c.pairs x ∨ ∃ a ∈ as, ∃ b ∈ nodes, SamePair x y a b) ∧
      (Coll.selfAll false nodes as c).all = c.all := by
  induction as generalizing c with
  | nil => simp [Coll.selfAll]
  | cons a as ih =>
    unfold Coll.selfAll
    refine ⟨?_, ((ih _).2).trans (selfOne_off a nodes c x y).2⟩
    rw [(ih _).1, (selfOne_off a nodes c x y).1]
    simp only [List.mem_cons, exists_eq_or_imp]
    exact or_assoc

theorem selfOne_on (a : Option ο) (bs : List (Option ο)) (c : Coll ο) (hc : c.Clean) (x y : Option ο) :
    (y ∈ (Coll.selfOne true a bs c).pairs x ↔ y ∈ c.pairs x ∧ ¬ ∃ b ∈ bs, SamePair x y a b) ∧ (Coll.selfOne true a bs c).all = c.all ∧
      (Coll.selfOne true a bs c).Clean := by
  induction bs generalizing c with
  | nil => simpa [Coll.selfOne] using hc
  | cons b bs ih =>
    unfold Coll.selfOne
    rw [if_pos rfl]
    have h := ih (c.on a b) (clean_on hc a b)
    refine ⟨?_, h.2⟩
    rw [h.1, mem_on hc]
    simp only [List.mem_cons, exists_eq_or_imp]
    rw [not_or, and_assoc]

theorem selfAll_on (nodes as : List (Option ο)) (c : Coll ο) (hc : c.Clean) (x y : Option ο) :
    (y ∈ (Coll.selfAll true nodes as c).pairs x ↔ y ∈ c.pairs x ∧ ¬ ∃ a ∈ as, ∃ b ∈ nodes, SamePair x y a b) ∧
      (Coll.selfAll true nodes as c).all = c.all := by
  induction as generalizing c with
  | nil => simp [Coll.selfAll]
  | cons a as ih =>
    unfold Coll.selfAll
    have h1 := selfOne_on a nodes c hc x y
    refine ⟨?_, ((ih _ h1.2.2).2).trans h1.2.1⟩
    rw [(ih _ h1.2.2).1, h1.1]
    simp only [List.mem_cons, exists_eq_or_imp]
    rw [not_or, and_assoc]

theorem same_in (nodes : List (Option ο)) (x y : Option ο) : (∃ a ∈ nodes, ∃ b ∈ nodes, SamePair x y a b) ↔ x ∈ nodes ∧ y ∈ nodes := by
  constructor
  · rintro ⟨a, ha, b, hb, ⟨rfl, rfl⟩ | ⟨rfl, rfl⟩⟩
    · exact ⟨ha, hb⟩
    · exact ⟨hb, ha⟩
  · rintro ⟨h1, h2⟩
    exact ⟨x, h1, y, h2, Or.inl ⟨rfl, rfl⟩⟩

/-! ## Links -/

theorem mem_offPairs (ps : List (ο × ο)) (c : Coll ο) (x y : Option ο) :
    (y ∈ (offPairs ps c).pairs x ↔ y ∈ c.pairs x ∨ ∃ p ∈ ps, SamePair x y (some p.1) (some p.2)) ∧ (offPairs ps c).all = c.all := by
  induction ps generalizing c with
  | nil => simp [offPairs]
  | cons p ps ih =>
    unfold offPairs
    refine ⟨?_, (ih _).2⟩
    rw [(ih _).1, mem_off]
    simp only [List.mem_cons, exists_eq_or_imp]
    exact or_assoc

theorem clean_offPairs (ps : List (ο × ο)) (c : Coll ο) (h : c.Clean) : (offPairs ps c).Clean := by
  induction ps generalizing c with
  | nil => exact h
  | cons p ps ih => exact ih _ (clean_off h _ _)

theorem addLinks_parts (ls : List (Link ο ν)) (e : Engine ο ω ν) :
    (ls.foldl Engine.addLink e).objects = e.objects ∧ (ls.foldl Engine.addLink e).robots = e.robots ∧
      (ls.foldl Engine.addLink e).bodies = e.bodies ∧ (ls.foldl Engine.addLink e).constraints = e.constraints ++ ls ∧
      (ls.foldl Engine.addLink e).links = e.links ∧ (ls.foldl Engine.addLink e).coll.all = e.coll.all ∧
      (e.coll.Clean → (ls.foldl Engine.addLink e).coll.Clean) ∧
      ∀ x y, y ∈ (ls.foldl Engine.addLink e).coll.pairs x ↔
        y ∈ e.coll.pairs x ∨ ∃ l ∈ ls, ∃ p ∈ l.pairs, SamePair x y (some p.1) (some p.2) := by
  induction ls generalizing e with
  | nil => simp
  | cons l ls ih =>
    rw [List.foldl_cons]
    obtain ⟨h1, h2, h3, h4, h5, h6, h7, h8⟩ := ih (e.addLink l)
    refine ⟨h1, h2, h3, ?_, h5, ?_, fun h => h7 (clean_offPairs _ _ h), ?_⟩
    · rw [h4]
      show (e.constraints ++ [l]) ++ ls = _
      rw [List.append_assoc]
      rfl
    · rw [h6]
      exact (mem_offPairs l.pairs e.coll none none).2
    · intro x y
      rw [h8]
      show y ∈ (offPairs l.pairs e.coll).pairs x ∨ _ ↔ _
      rw [(mem_offPairs l.pairs e.coll x y).1]
      simp only [List.mem_cons, exists_eq_or_imp]
      exact or_assoc

theorem removeLinks_parts (ls : List (Link ο ν)) (e : Engine ο ω ν) (hc : e.coll.Clean) :
    (ls.foldl Engine.removeLink e).objects = e.objects ∧ (ls.foldl Engine.removeLink e).robots = e.robots ∧
      (ls.foldl Engine.removeLink e).bodies = e.bodies ∧ (ls.foldl Engine.removeLink e).constraints = ls.foldl List.erase e.constraints ∧
      (ls.foldl Engine.removeLink e).links = e.links ∧ (ls.foldl Engine.removeLink e).coll.all = e.coll.all ∧
      (ls.foldl Engine.removeLink e).coll.Clean ∧
      ∀ x y, y ∈ (ls.foldl Engine.removeLink e).coll.pairs x ↔
        y ∈ e.coll.pairs x ∧ ¬ ∃ l ∈ ls, SamePair x y (some l.body1) (some l.body2) := by
  induction ls generalizing e with
  | nil => simpa using hc
  | cons l ls ih =>
    rw [List.foldl_cons]
    obtain ⟨h1, h2, h3, h4, h5, h6, h7, h8⟩ := ih (e.removeLink l) (clean_on hc _ _)
    refine ⟨h1, h2, h3, h4, h5, h6, h7, ?_⟩
    intro x y
    rw [h8]
    show y ∈ (e.coll.on (some l.body1) (some l.body2)).pairs x ∧ _ ↔ _
    rw [mem_on hc]
    simp only [List.mem_cons, exists_eq_or_imp]
    rw [not_or, and_assoc]

/-! ## Objects and robots -/

theorem register_nodup {e : Engine ο ω ν} (h : e.objects.Nodup) (o : ο) : (e.register o).objects.Nodup := by
  unfold Engine.register
  by_cases ho : o ∈ e.objects
  · rw [if_pos ho]
    exact h
  · rw [if_neg ho]
    refine List.nodup_append.2 ⟨h, List.nodup_singleton o, ?_⟩
    intro y hy z hz
    rw [List.mem_singleton] at hz
    subst hz
    exact fun e => ho (e ▸ hy)

theorem mem_register (e : Engine ο ω ν) (o x : ο) : x ∈ (e.register o).objects ↔ x ∈ e.objects ∨ x = o := by
  unfold Engine.register
  by_cases ho : o ∈ e.objects
  · rw [if_pos ho]
    constructor
    · exact Or.inl
    · rintro (h | rfl)
      · exact h
      · exact ho
  · rw [if_neg ho]
    show x ∈ e.objects ++ [o] ↔ _
    rw [List.mem_append, List.mem_singleton]

theorem register_parts (e : Engine ο ω ν) (o : ο) : (e.register o).robots = e.robots ∧ (e.register o).coll = e.coll ∧
    (e.register o).bodies = e.bodies ∧ (e.register o).constraints = e.constraints ∧ (e.register o).links = e.links := by
  unfold Engine.register
  by_cases ho : o ∈ e.objects
  · rw [if_pos ho]
    exact ⟨rfl, rfl, rfl, rfl, rfl⟩
  · rw [if_neg ho]
    exact ⟨rfl, rfl, rfl, rfl, rfl⟩

theorem addObjects_parts (os : List ο) (e : Engine ο ω ν) :
    let e' := os.foldl (fun e o => (e.addObject o).2) e
    e'.robots = e.robots ∧ e'.coll = e.coll ∧ e'.bodies = e.bodies ++ os ∧ e'.constraints = e.constraints ∧ e'.links = e.links ∧
      (e.objects.Nodup → e'.objects.Nodup) ∧ (∀ x, x ∈ e'.objects ↔ x ∈ e.objects ∨ x ∈ os) ∧
      (os.Nodup → (∀ o ∈ os, o ∉ e.objects) → e'.objects = e.objects ++ os) := by
  induction os generalizing e with
  | nil => simp
  | cons o os ih =>
    obtain ⟨h1, h2, h3, h4, h5, h6, h7, h8⟩ := ih (e.addObject o).2
    obtain ⟨r1, r2, r3, r4, r5⟩ := register_parts { e with bodies := e.bodies ++ [o] } o
    have hm := mem_register { e with bodies := e.bodies ++ [o] } o
    refine ⟨h1.trans r1, h2.trans r2, ?_, h4.trans r4, h5.trans r5, ?_, ?_, ?_⟩
    · refine h3.trans ?_
      rw [show (e.addObject o).2.bodies = e.bodies ++ [o] from r3, List.append_assoc]
      rfl
    · exact fun h => h6 (register_nodup (e := { e with bodies := e.bodies ++ [o] }) h o)
    · intro x
      refine (h7 x).trans ?_
      rw [show x ∈ (e.addObject o).2.objects ↔ x ∈ e.objects ∨ x = o from hm x, List.mem_cons, or_assoc]
    · intro hn hf
      have ho : o ∉ e.objects := hf o (List.mem_cons_self ..)
      have he : (e.addObject o).2.objects = e.objects ++ [o] := by
        show (Engine.register { e with bodies := e.bodies ++ [o] } o).objects = _
        unfold Engine.register
        rw [if_neg ho]
      refine (h8 (List.nodup_cons.1 hn).2 ?_).trans ?_
      · intro x hx hx'
        rw [he, List.mem_append, List.mem_singleton] at hx'
        rcases hx' with hx' | rfl
        · exact hf x (List.mem_cons_of_mem _ hx) hx'
        · exact (List.nodup_cons.1 hn).1 hx
      · rw [he, List.append_assoc]
        rfl

theorem removeObject_parts (e : Engine ο ω ν) (o : ο) :
    (e.removeObject o).2.robots = e.robots ∧ (e.removeObject o).2.coll = e.coll ∧ (e.removeObject o).2.bodies = e.bodies.erase o ∧
      (e.removeObject o).2.constraints = e.constraints ∧ (e.removeObject o).2.links = e.links ∧
      (e.removeObject o).2.objects = e.objects.erase o ∧ ((e.removeObject o).1 = true ↔ o ∈ e.objects) := by
  unfold Engine.removeObject
  by_cases ho : o ∈ e.objects
  · simp only [if_pos ho]
    exact ⟨trivial, trivial, trivial, trivial, trivial, trivial, by simp [ho]⟩
  · simp only [if_neg ho]
    refine ⟨trivial, trivial, trivial, trivial, trivial, ?_, by simp [ho]⟩
    rw [List.erase_of_not_mem ho]

theorem removeObjects_parts (os : List ο) (e : Engine ο ω ν) :
    let e' := os.foldl (fun e o => (e.removeObject o).2) e
    e'.robots = e.robots ∧ e'.coll = e.coll ∧ e'.bodies = os.foldl List.erase e.bodies ∧ e'.constraints = e.constraints ∧
      e'.links = e.links ∧ e'.objects = os.foldl List.erase e.objects := by
  induction os generalizing e with
  | nil => simp
  | cons o os ih =>
    obtain ⟨h1, h2, h3, h4, h5, h6⟩ := ih (e.removeObject o).2
    obtain ⟨r1, r2, r3, r4, r5, r6, _⟩ := removeObject_parts e o
    refine ⟨h1.trans r1, h2.trans r2, ?_, h4.trans r4, h5.trans r5, ?_⟩
    · refine h3.trans ?_
      rw [r3]
      rfl
    · refine h6.trans ?_
      rw [r6]
      rfl

theorem erase_all {α : Type} [DecidableEq α] (xs ys : List α) (h : ∀ y ∈ ys, y ∉ xs) : ys.foldl List.erase (xs ++ ys) = xs := by
  induction ys with
  | nil => simp
  | cons y ys ih =>
    rw [List.foldl_cons, List.erase_append_right _ (h y (List.mem_cons_self ..)), List.erase_cons_head]
    exact ih fun z hz => h z (List.mem_cons_of_mem _ hz)

theorem nodup_foldl_erase {α : Type} [DecidableEq α] (xs ys : List α) (h : xs.Nodup) : (ys.foldl List.erase xs).Nodup := by
  induction ys generalizing xs with
  | nil => exact h
  | cons y ys ih => exact ih _ (h.erase y)

theorem registerRobot_parts (robot : ω → ρ) (e : Engine ο ω ν) (r : ω) :
    (e.registerRobot robot r).2.objects = e.objects ∧ (e.registerRobot robot r).2.coll = e.coll ∧ (e.registerRobot robot r).2.bodies = e.bodies ∧
      (e.registerRobot robot r).2.constraints = e.constraints ∧ (e.registerRobot robot r).2.links = e.links := by
  unfold Engine.registerRobot
  by_cases h : r ∈ e.robots
  · rw [if_pos h]
    exact ⟨rfl, rfl, rfl, rfl, rfl⟩
  · rw [if_neg h]
    by_cases h' : (e.robots.any fun r' => robot r' = robot r) = true
    · rw [if_pos h']
      exact ⟨rfl, rfl, rfl, rfl, rfl⟩
    · rw [if_neg h']
      exact ⟨rfl, rfl, rfl, rfl, rfl⟩

/-- Registering a robot. -/
theorem registerRobot_cases (robot : ω → ρ) (e : Engine ο ω ν) (r : ω) :
    (r ∈ e.robots ∧ (e.registerRobot robot r).1 = true ∧ (e.registerRobot robot r).2.robots = e.robots) ∨
    (r ∉ e.robots ∧ (∃ r' ∈ e.robots, robot r' = robot r) ∧ (e.registerRobot robot r).1 = false ∧ (e.registerRobot robot r).2.robots = e.robots) ∨
    (r ∉ e.robots ∧ (∀ r' ∈ e.robots, robot r' ≠ robot r) ∧ (e.registerRobot robot r).1 = true ∧
      (e.registerRobot robot r).2.robots = e.robots ++ [r]) := by
  unfold Engine.registerRobot
  by_cases h : r ∈ e.robots
  · rw [if_pos h]
    exact Or.inl ⟨h, rfl, rfl⟩
  · rw [if_neg h]
    by_cases h' : (e.robots.any fun r' => robot r' = robot r) = true
    · rw [if_pos h']
      rw [List.any_eq_true] at h'
      obtain ⟨r', h1, h2⟩ := h'
      exact Or.inr (Or.inl ⟨h, ⟨r', h1, of_decide_eq_true h2⟩, rfl, rfl⟩)
    · rw [if_neg h']
      refine Or.inr (Or.inr ⟨h, ?_, rfl, rfl⟩)
      intro r' h1 h2
      exact h' (List.any_eq_true.2 ⟨r', h1, decide_eq_true h2⟩)

/-! ## Detaching -/

theorem dropLinks_list (ls : List (Link ο ν)) (s : Bool × List (Link ο ν)) :
    (dropLinks ls s).2 = s.2.filter fun k => ¬ ∃ l ∈ ls, k.body1 = l.body1 ∧ k.body2 = l.body2 := by
  induction ls generalizing s with
  | nil => simp [dropLinks]
  | cons l ls ih =>
    unfold dropLinks
    rw [ih]
    show (List.filter _ (List.filter _ s.2)) = _
    rw [List.filter_filter]
    congr 1
    funext k
    simp only [List.mem_cons, exists_eq_or_imp, not_or, decide_not, Bool.decide_and]
    rw [Bool.and_comm]

theorem nearestBody_some {body : ν → Option ο} {ns : List ν} {n : ν} {b : ο} :
    nearestBody body ns = some (n, b) ↔ ∃ pre post, ns = pre ++ n :: post ∧ (∀ m ∈ pre, body m = none) ∧ body n = some b := by
  induction ns with
  | nil =>
    unfold nearestBody
    constructor
    · intro h
      cases h
    · rintro ⟨pre, post, h, _⟩
      cases pre <;> cases h
  | cons m ns ih =>
    unfold nearestBody
    cases hm : body m with
    | some o =>
      simp only
      constructor
      · intro h
        injection h with h
        injection h with h1 h2
        subst h1
        subst h2
        exact ⟨[], ns, rfl, fun _ h => (by cases h), hm⟩
      · rintro ⟨pre, post, h, h1, h2⟩
        cases pre with
        | nil =>
          injection h with h3 h4
          subst h3
          rw [hm] at h2
          injection h2 with h2
          rw [h2]
        | cons p pre =>
          injection h with h3 h4
          subst h3
          have := h1 m (List.mem_cons_self ..)
          rw [hm] at this
          cases this
    | none =>
      simp only
      rw [ih]
      constructor
      · rintro ⟨pre, post, h, h1, h2⟩
        refine ⟨m :: pre, post, by rw [h]; rfl, ?_, h2⟩
        intro x hx
        rcases List.mem_cons.1 hx with rfl | hx
        · exact hm
        · exact h1 x hx
      · rintro ⟨pre, post, h, h1, h2⟩
        cases pre with
        | nil =>
          injection h with h3 h4
          subst h3
          rw [hm] at h2
          cases h2
        | cons p pre =>
          injection h with h3 h4
          exact ⟨pre, post, h4, fun x hx => h1 x (List.mem_cons_of_mem _ hx), h2⟩

end Simox.Dyn
