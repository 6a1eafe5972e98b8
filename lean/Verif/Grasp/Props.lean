/-
Properties C32 (grasp sets) and C42 (grasp poses).
-/
import Mathlib.Algebra.Group.Basic
import Mathlib.Data.List.Nodup
import Mathlib.Data.List.Induction
import Verif.Grasp.Model

namespace Simox.Grsp

variable {P : Type}

/-! ### Helper lemmas -/

theorem hasGrasp_iff (s : GraspSet) (g : Nat) : hasGrasp s g = true ↔ g ∈ s.grasps := by
  simp [hasGrasp]

theorem isCompatible_iff (w : World P) (s : GraspSet) (g : Nat) :
    isCompatible w s g = true ↔ (w.grasp g).robotType = s.robotType ∧ (w.grasp g).eef = s.eef := by
  unfold isCompatible
  by_cases h1 : (w.grasp g).robotType = s.robotType
  · by_cases h2 : (w.grasp g).eef = s.eef
    · simp [h1, h2]
    · simp [h1, h2]
  · simp [h1]

/-- When `addGrasp` gets past the asserts. -/
theorem addGrasp_some (debug : Bool) (w : World P) (s : GraspSet) (g : Nat) (s' : GraspSet) :
    addGrasp debug w s g = some s' ↔
      (debug = true → g ∉ s.grasps ∧ (w.grasp g).robotType = s.robotType ∧
        (w.grasp g).eef = s.eef) ∧ s' = { s with grasps := s.grasps ++ [g] } := by
  unfold addGrasp
  cases debug with
  | false => simp [eq_comm]
  | true =>
    by_cases h1 : g ∈ s.grasps
    · simp [(hasGrasp_iff s g).2 h1, h1]
    · have : hasGrasp s g = false := by
        rw [← Bool.not_eq_true, hasGrasp_iff]; exact h1
      by_cases h2 : isCompatible w s g = true
      · have h3 := (isCompatible_iff w s g).1 h2
        simp [this, h2, h1, h3.1, h3.2, eq_comm]
      · have h3 := fun e => h2 ((isCompatible_iff w s g).2 e)
        simp only [Bool.not_eq_true] at h2
        simp only [this, h2, Bool.false_or, Bool.not_false, Bool.and_self, if_true, reduceCtorEq,
          true_implies, false_iff, not_and]
        intro h4
        exact absurd h4.2 h3

/-- What `includeGraspSet` makes of a list: the grasps that are new, each once, in order. -/
def news (own : List Nat) : List Nat → List Nat
  | [] => []
  | g :: gs => if g ∈ own then news own gs else g :: news (own ++ [g]) gs

theorem include_eq (debug : Bool) (w : World P) : ∀ (gs : List Nat) (s s' : GraspSet),
    includeGrasps debug w s gs = some s' →
      s' = { s with grasps := s.grasps ++ news s.grasps gs } := by
  intro gs
  induction gs with
  | nil => intro s s' h; cases h; simp [news]
  | cons g gs ih =>
    intro s s' h
    unfold includeGrasps at h
    unfold news
    by_cases hg : g ∈ s.grasps
    · rw [if_pos ((hasGrasp_iff s g).2 hg)] at h
      rw [if_pos hg]
      exact ih s s' h
    · rw [if_neg (fun e => hg ((hasGrasp_iff s g).1 e))] at h
      rw [if_neg hg]
      cases e : addGrasp debug w s g with
      | none => rw [e] at h; exact absurd h (by simp)
      | some s1 =>
        rw [e] at h
        have h1 := ((addGrasp_some debug w s g s1).1 e).2
        have h2 := ih s1 s' h
        rw [h2, h1]
        simp

theorem include_release (w : World P) : ∀ (gs : List Nat) (s : GraspSet),
    includeGrasps false w s gs = some { s with grasps := s.grasps ++ news s.grasps gs } := by
  intro gs
  induction gs with
  | nil => intro s; simp [includeGrasps, news]
  | cons g gs ih =>
    intro s
    unfold includeGrasps news
    by_cases hg : g ∈ s.grasps
    · rw [if_pos ((hasGrasp_iff s g).2 hg), if_pos hg]; exact ih s
    · rw [if_neg (fun e => hg ((hasGrasp_iff s g).1 e)), if_neg hg]
      have : addGrasp false w s g = some { s with grasps := s.grasps ++ [g] } := by
        rw [addGrasp_some]; simp
      rw [this]
      simp only
      rw [ih]
      simp

theorem mem_news (gs : List Nat) : ∀ (own : List Nat) (x : Nat),
    x ∈ news own gs ↔ x ∈ gs ∧ x ∉ own := by
  induction gs with
  | nil => intro own x; simp [news]
  | cons g gs ih =>
    intro own x
    unfold news
    by_cases hg : g ∈ own
    · rw [if_pos hg, ih]
      constructor
      · rintro ⟨h1, h2⟩; exact ⟨by simp [h1], h2⟩
      · rintro ⟨h1, h2⟩
        rcases List.mem_cons.1 h1 with rfl | h1
        · exact absurd hg h2
        · exact ⟨h1, h2⟩
    · rw [if_neg hg, List.mem_cons, ih]
      constructor
      · rintro (rfl | ⟨h1, h2⟩)
        · exact ⟨by simp, hg⟩
        · exact ⟨by simp [h1], fun h => h2 (by simp [h])⟩
      · rintro ⟨h1, h2⟩
        by_cases e : x = g
        · exact Or.inl e
        · rcases List.mem_cons.1 h1 with h | h1
          · exact absurd h e
          · exact Or.inr ⟨h1, by simp [h2, e]⟩

theorem news_nodup (gs : List Nat) : ∀ own : List Nat, (news own gs).Nodup := by
  induction gs with
  | nil => intro own; exact List.nodup_nil
  | cons g gs ih =>
    intro own
    unfold news
    by_cases hg : g ∈ own
    · rw [if_pos hg]; exact ih own
    · rw [if_neg hg, List.nodup_cons]
      exact ⟨fun h => ((mem_news gs _ g).1 h).2 (by simp), ih _⟩

theorem append_news_nodup {own : List Nat} (h : own.Nodup) (gs : List Nat) :
    (own ++ news own gs).Nodup := by
  rw [List.nodup_append]
  refine ⟨h, news_nodup gs own, ?_⟩
  intro a ha b hb e
  exact ((mem_news gs own b).1 hb).2 (e ▸ ha)

theorem eraseGrasp_eq (g : Nat) (l : List Nat) : eraseGrasp g l = (l.erase g, decide (g ∈ l)) := by
  induction l with
  | nil => rfl
  | cons x xs ih =>
    unfold eraseGrasp
    by_cases h : x = g
    · subst h; simp
    · rw [if_neg h, ih, List.erase_cons_tail (by simpa using h)]
      simp [Ne.symm h]

/-! ### C32 -/

/-- C32: in a debug build, whatever sequence of calls is made on an initially empty grasp set, it
never contains the same grasp twice, and all its grasps are for its robot type and end effector
(as long as nothing incompatible gets past the asserts, the program runs on). -/
theorem C32_no_duplicates (w : World P) (n rt eef : String) (ops : List SetOp) (s : GraspSet)
    (h : setRun true w { name := n, robotType := rt, eef := eef, grasps := [] } ops = some s) :
    s.grasps.Nodup ∧ s.name = n ∧ s.robotType = rt ∧ s.eef = eef ∧
      ∀ g ∈ s.grasps, (w.grasp g).robotType = rt ∧ (w.grasp g).eef = eef := by
  have key : ∀ (ops : List SetOp) (s0 s : GraspSet), setRun true w s0 ops = some s →
      (s0.grasps.Nodup ∧ s0.name = n ∧ s0.robotType = rt ∧ s0.eef = eef ∧
        ∀ g ∈ s0.grasps, (w.grasp g).robotType = rt ∧ (w.grasp g).eef = eef) →
      (s.grasps.Nodup ∧ s.name = n ∧ s.robotType = rt ∧ s.eef = eef ∧
        ∀ g ∈ s.grasps, (w.grasp g).robotType = rt ∧ (w.grasp g).eef = eef) := by
    intro ops
    induction ops with
    | nil => intro s0 s h hi; cases h; exact hi
    | cons op ops ih =>
      intro s0 s h hi
      unfold setRun at h
      cases e : setStep true w s0 op with
      | none => rw [e] at h; exact absurd h (by simp)
      | some s1 =>
        rw [e] at h
        refine ih s1 s h ?_
        obtain ⟨h1, h2, h3, h4, h5⟩ := hi
        cases op with
        | add g =>
          obtain ⟨hc, rfl⟩ := (addGrasp_some true w s0 g s1).1 e
          have hc := hc rfl
          refine ⟨?_, h2, h3, h4, ?_⟩
          · simp only
            rw [List.nodup_append]
            refine ⟨h1, List.nodup_singleton _, ?_⟩
            intro a ha b hb
            rw [List.mem_singleton] at hb
            subst hb
            exact fun e => hc.1 (e ▸ ha)
          · intro x hx
            rcases List.mem_append.1 hx with hx | hx
            · exact h5 x hx
            · rw [List.mem_singleton] at hx
              subst hx
              exact ⟨hc.2.1.trans h3, hc.2.2.trans h4⟩
        | incl gs =>
          have hall : ∀ (gs : List Nat) (a b : GraspSet), includeGrasps true w a gs = some b →
              a.robotType = rt → a.eef = eef →
              (∀ g ∈ a.grasps, (w.grasp g).robotType = rt ∧ (w.grasp g).eef = eef) →
              ∀ g ∈ b.grasps, (w.grasp g).robotType = rt ∧ (w.grasp g).eef = eef := by
            intro gs
            induction gs with
            | nil => intro a b h _ _ ha; cases h; exact ha
            | cons g gs ihg =>
              intro a b h e1 e2 ha
              unfold includeGrasps at h
              by_cases hg : hasGrasp a g = true
              · rw [if_pos hg] at h; exact ihg a b h e1 e2 ha
              · rw [if_neg hg] at h
                cases e' : addGrasp true w a g with
                | none => rw [e'] at h; exact absurd h (by simp)
                | some a1 =>
                  rw [e'] at h
                  obtain ⟨hc, rfl⟩ := (addGrasp_some true w a g a1).1 e'
                  have hc := hc rfl
                  refine ihg _ b h e1 e2 ?_
                  intro x hx
                  rcases List.mem_append.1 hx with hx | hx
                  · exact ha x hx
                  · rw [List.mem_singleton] at hx
                    subst hx
                    exact ⟨hc.2.1.trans e1, hc.2.2.trans e2⟩
          have h6 := hall gs s0 s1 e h3 h4 h5
          have h7 := include_eq true w gs s0 s1 e
          subst h7
          exact ⟨append_news_nodup h1 gs, h2, h3, h4, h6⟩
        | remove g =>
          have e' : (removeGrasp s0 g).1 = s1 := Option.some.inj e
          subst e'
          simp only [removeGrasp, eraseGrasp_eq]
          exact ⟨h1.erase g, h2, h3, h4, fun x hx => h5 x (List.mem_of_mem_erase hx)⟩
        | removeAt i =>
          have e' : (removeGraspAt s0 i).1 = s1 := Option.some.inj e
          subst e'
          unfold removeGraspAt
          cases getGraspAt s0 i with
          | none => exact ⟨h1, h2, h3, h4, h5⟩
          | some g =>
            simp only [removeGrasp, eraseGrasp_eq]
            exact ⟨h1.erase g, h2, h3, h4, fun x hx => h5 x (List.mem_of_mem_erase hx)⟩
        | clear =>
          have e' : clear s0 = s1 := Option.some.inj e
          subst e'
          exact ⟨List.nodup_nil, h2, h3, h4, fun x hx => by simp [clear] at hx⟩
  exact key ops _ s h ⟨List.nodup_nil, rfl, rfl, rfl, by simp⟩

/-- C32: in both builds, including, removing and clearing keep a set without duplicates free of
them, and so does adding a grasp that is not in the set. -/
theorem C32_no_duplicates_release (debug : Bool) (w : World P) (s s' : GraspSet) (op : SetOp)
    (h : s.grasps.Nodup) (hop : ∀ g, op = .add g → g ∉ s.grasps)
    (hs : setStep debug w s op = some s') : s'.grasps.Nodup := by
  cases op with
  | add g =>
    obtain ⟨_, rfl⟩ := (addGrasp_some debug w s g s').1 hs
    simp only
    rw [List.nodup_append]
    refine ⟨h, List.nodup_singleton _, ?_⟩
    intro a ha b hb
    rw [List.mem_singleton] at hb
    subst hb
    exact fun e => hop b rfl (e ▸ ha)
  | incl gs =>
    rw [include_eq debug w gs s s' hs]
    exact append_news_nodup h gs
  | remove g =>
    have e' : (removeGrasp s g).1 = s' := Option.some.inj hs
    subst e'
    simp only [removeGrasp, eraseGrasp_eq]
    exact h.erase g
  | removeAt i =>
    have e' : (removeGraspAt s i).1 = s' := Option.some.inj hs
    subst e'
    unfold removeGraspAt
    cases getGraspAt s i with
    | none => exact h
    | some g => simp only [removeGrasp, eraseGrasp_eq]; exact h.erase g
  | clear =>
    have e' : clear s = s' := Option.some.inj hs
    subst e'
    exact List.nodup_nil

/-- C32 (violation): in a release build the same grasp can be added twice; removing by index then
takes out another position than the one asked for. -/
theorem C32_release_admits_duplicates (w : World P) (n rt eef : String) (g g' : Nat) :
    ∃ s, setRun false w { name := n, robotType := rt, eef := eef, grasps := [] }
        [.add g, .add g', .add g] = some s ∧ ¬ s.grasps.Nodup ∧
      (removeGraspAt s 2).1.grasps = [g', g] ∧ s.grasps.eraseIdx 2 = [g, g'] := by
  refine ⟨{ name := n, robotType := rt, eef := eef, grasps := [g, g', g] }, rfl, by simp, ?_, rfl⟩
  simp [removeGraspAt, getGraspAt, removeGrasp, eraseGrasp_eq]

/-- C32: `includeGraspSet` keeps the own grasps in place and adds exactly the missing ones of the
other set, each once, in their order; including a set again, or into itself, has no effect. -/
theorem C32_include (w : World P) (s : GraspSet) (gs : List Nat) :
    ∃ added, includeGrasps false w s gs = some { s with grasps := s.grasps ++ added } ∧
      added.Nodup ∧ added.Sublist gs ∧ (∀ g, g ∈ added ↔ g ∈ gs ∧ g ∉ s.grasps) ∧
      ((∀ g ∈ gs, g ∈ s.grasps) → added = []) ∧
      (∀ s', includeGrasps true w s gs = some s' → s' = { s with grasps := s.grasps ++ added }) := by
  refine ⟨news s.grasps gs, include_release w gs s, news_nodup gs _, ?_, mem_news gs _, ?_,
    include_eq true w gs s⟩
  · have : ∀ (gs own : List Nat), (news own gs).Sublist gs := by
      intro gs
      induction gs with
      | nil => intro own; exact List.Sublist.slnil
      | cons g gs ih =>
        intro own
        unfold news
        split
        · exact (ih own).cons g
        · exact (ih _).cons_cons g
    exact this gs _
  · intro h
    rw [List.eq_nil_iff_forall_not_mem]
    intro x hx
    have := (mem_news gs s.grasps x).1 hx
    exact this.2 (h x this.1)

/-- C32: in a debug build including a grasp of another robot type or end effector stops the
program. -/
theorem C32_include_incompatible (w : World P) (s : GraspSet) (gs : List Nat) :
    includeGrasps true w s gs = none ↔
      ∃ g ∈ gs, g ∉ s.grasps ∧ ¬ ((w.grasp g).robotType = s.robotType ∧ (w.grasp g).eef = s.eef) := by
  induction gs generalizing s with
  | nil => simp [includeGrasps]
  | cons g gs ih =>
    unfold includeGrasps
    by_cases hg : g ∈ s.grasps
    · rw [if_pos ((hasGrasp_iff s g).2 hg), ih]
      constructor
      · rintro ⟨x, hx, h⟩; exact ⟨x, by simp [hx], h⟩
      · rintro ⟨x, hx, h⟩
        rcases List.mem_cons.1 hx with rfl | hx
        · exact absurd hg h.1
        · exact ⟨x, hx, h⟩
    · rw [if_neg (fun e => hg ((hasGrasp_iff s g).1 e))]
      by_cases hc : (w.grasp g).robotType = s.robotType ∧ (w.grasp g).eef = s.eef
      · have e : addGrasp true w s g = some { s with grasps := s.grasps ++ [g] } := by
          rw [addGrasp_some]; exact ⟨fun _ => ⟨hg, hc⟩, rfl⟩
        rw [e]
        simp only
        rw [ih]
        constructor
        · rintro ⟨x, hx, h1, h2⟩
          exact ⟨x, by simp [hx], fun h => h1 (by simp [h]), h2⟩
        · rintro ⟨x, hx, h1, h2⟩
          have hne : x ≠ g := fun e => h2 (e ▸ hc)
          rcases List.mem_cons.1 hx with h | hx
          · exact absurd h hne
          · exact ⟨x, hx, by simp [h1, hne], h2⟩
      · have e : addGrasp true w s g = none := by
          cases e : addGrasp true w s g with
          | none => rfl
          | some s1 => exact absurd (((addGrasp_some true w s g s1).1 e).1 rfl).2 hc
        rw [e]
        simp only [true_iff]
        exact ⟨g, by simp, hg, hc⟩

/-- C32: lookups.  By name: the first grasp added with that name, null exactly if there is none.  By
index: the grasp at that position, null exactly beyond the end. -/
theorem C32_lookup (w : World P) (s : GraspSet) (n : String) (g i : Nat) :
    (getGraspNamed w s.grasps n = some g ↔ ∃ a b, s.grasps = a ++ g :: b ∧ (w.grasp g).name = n ∧
      ∀ x ∈ a, (w.grasp x).name ≠ n) ∧
    (getGraspNamed w s.grasps n = none ↔ ∀ x ∈ s.grasps, (w.grasp x).name ≠ n) ∧
    (hasGraspNamed w s n = true ↔ ∃ x ∈ s.grasps, (w.grasp x).name = n) ∧
    getGraspAt s i = s.grasps[i]? := by
  refine ⟨?_, ?_, by simp [hasGraspNamed], ?_⟩
  · generalize s.grasps = l
    induction l with
    | nil =>
      constructor
      · intro h; simp [getGraspNamed] at h
      · rintro ⟨a, b, h, _⟩; simp at h
    | cons x xs ih =>
      unfold getGraspNamed
      by_cases hx : (w.grasp x).name = n
      · rw [if_pos (by simpa using hx)]
        constructor
        · intro h; cases h; exact ⟨[], xs, rfl, hx, by simp⟩
        · rintro ⟨a, b, h, hn, ha⟩
          cases a with
          | nil => simp at h; rw [h.1]
          | cons y ys => simp at h; exact absurd (h.1 ▸ hx) (ha y (by simp))
      · rw [if_neg (by simpa using hx), ih]
        constructor
        · rintro ⟨a, b, h, hn, ha⟩
          refine ⟨x :: a, b, by simp [h], hn, ?_⟩
          intro y hy
          rcases List.mem_cons.1 hy with rfl | hy
          · exact hx
          · exact ha y hy
        · rintro ⟨a, b, h, hn, ha⟩
          cases a with
          | nil => simp at h; exact absurd (h.1 ▸ hn) hx
          | cons y ys => simp at h; exact ⟨ys, b, h.2, hn, fun z hz => ha z (by simp [hz])⟩
  · generalize s.grasps = l
    induction l with
    | nil => simp [getGraspNamed]
    | cons x xs ih =>
      unfold getGraspNamed
      by_cases hx : (w.grasp x).name = n
      · simp [hx]
      · rw [if_neg (by simpa using hx), ih]; simp [hx]
  · unfold getGraspAt
    by_cases h : i ≥ s.grasps.length
    · rw [if_pos h, List.getElem?_eq_none h]
    · rw [if_neg h]

/-- C32: removing a grasp takes out exactly this one and keeps the others in order; the result tells
whether it was there.  Removing by index takes out that position. -/
theorem C32_remove (s : GraspSet) (h : s.grasps.Nodup) (g i : Nat) :
    (removeGrasp s g).2 = decide (g ∈ s.grasps) ∧
    (removeGrasp s g).1 = { s with grasps := s.grasps.filter (fun x => decide (x ≠ g)) } ∧
    (removeGraspAt s i).2 = decide (i < s.grasps.length) ∧
    (removeGraspAt s i).1 = { s with grasps := s.grasps.eraseIdx i } := by
  refine ⟨by simp [removeGrasp, eraseGrasp_eq], ?_, ?_, ?_⟩
  · simp only [removeGrasp, eraseGrasp_eq]
    rw [h.erase_eq_filter]
    congr 1
    apply List.filter_congr
    intro x _
    by_cases e : x = g <;> simp [e]
  · unfold removeGraspAt getGraspAt
    by_cases hi : i < s.grasps.length
    · rw [if_neg (by omega), List.getElem?_eq_getElem hi]
      simp [removeGrasp, eraseGrasp_eq, hi]
    · rw [if_pos (by omega)]
      simp [hi]
  · unfold removeGraspAt getGraspAt
    by_cases hi : i < s.grasps.length
    · rw [if_neg (by omega), List.getElem?_eq_getElem hi]
      simp only [removeGrasp, eraseGrasp_eq]
      rw [h.erase_getElem i hi]
    · rw [if_pos (by omega)]
      simp only
      rw [List.eraseIdx_of_length_le (by omega)]

theorem setPreshapes_apply (p : String) : ∀ (l : List Nat) (f : Nat → Grasp P) (g : Nat),
    setPreshapes p l f g = if g ∈ l then { f g with preshape := p } else f g := by
  intro l
  induction l with
  | nil => intro f g; simp [setPreshapes]
  | cons x xs ih =>
    intro f g
    unfold setPreshapes
    rw [ih]
    by_cases h1 : g = x
    · subst h1
      by_cases h2 : g ∈ xs <;> simp [h2]
    · by_cases h2 : g ∈ xs <;> simp [h1, h2]

/-- C32: `setPreshape` gives the preshape to exactly the grasps of the set (which other sets may
share), changing nothing else. -/
theorem C32_preshape (w : World P) (k : Nat) (p : String) :
    (setPreshape w k p).set = w.set ∧ ∀ g, (setPreshape w k p).grasp g =
      if g ∈ (w.set k).grasps then { w.grasp g with preshape := p } else w.grasp g :=
  ⟨rfl, fun g => setPreshapes_apply p _ _ g⟩

/-- The clone's loop: fresh grasps with the same data. -/
theorem cloneGrasps_spec (debug : Bool) : ∀ (gs : List Nat) (w : World P) (s : GraspSet),
    (∀ g ∈ gs, g < w.next) → (∀ g ∈ s.grasps, g < w.next) →
    (debug = true → ∀ g ∈ gs, (w.grasp g).robotType = s.robotType ∧ (w.grasp g).eef = s.eef) →
    ∃ w' new, cloneGrasps debug w s gs = some (w', { s with grasps := s.grasps ++ new }) ∧
      new.map w'.grasp = gs.map w.grasp ∧ (∀ g, g < w.next → w'.grasp g = w.grasp g) ∧
      (∀ g ∈ new, w.next ≤ g ∧ g < w'.next) ∧ new.Nodup ∧ w'.set = w.set ∧ w.next ≤ w'.next := by
  intro gs
  induction gs with
  | nil =>
    intro w s _ _ _
    exact ⟨w, [], by simp [cloneGrasps], rfl, fun _ _ => rfl, by simp, List.nodup_nil, rfl,
      Nat.le_refl _⟩
  | cons g gs ih =>
    intro w s hg hs hd
    have hadd : addGrasp debug (cloneGrasp w g).1 s (cloneGrasp w g).2 =
        some { s with grasps := s.grasps ++ [w.next] } := by
      rw [addGrasp_some]
      refine ⟨fun hdb => ⟨fun h => ?_, ?_⟩, rfl⟩
      · exact absurd (hs _ h) (by simp [cloneGrasp])
      · have := hd hdb g (by simp)
        simpa [cloneGrasp] using this
    have hold : ∀ x, x < w.next → (cloneGrasp w g).1.grasp x = w.grasp x := by
      intro x hx
      simp only [cloneGrasp]
      rw [if_neg (by omega)]
    obtain ⟨w', new, h1, h2, h3, h4, h5, h6, h7⟩ := ih (cloneGrasp w g).1
      { s with grasps := s.grasps ++ [w.next] }
      (fun x hx => Nat.lt_succ_of_lt (hg x (by simp [hx])))
      (fun x hx => by
        rcases List.mem_append.1 hx with hx | hx
        · exact Nat.lt_succ_of_lt (hs x hx)
        · rw [List.mem_singleton] at hx; subst hx; exact Nat.lt_succ_self _)
      (fun hdb x hx => by
        rw [hold x (hg x (by simp [hx]))]
        exact hd hdb x (by simp [hx]))
    have hn : (cloneGrasp w g).1.next = w.next + 1 := rfl
    refine ⟨w', w.next :: new, ?_, ?_, ?_, ?_, ?_, h6, by omega⟩
    · unfold cloneGrasps
      simp only [hadd, h1]
      simp
    · have e1 : w'.grasp w.next = w.grasp g := by
        rw [h3 w.next (by omega)]
        simp [cloneGrasp]
      rw [List.map_cons, List.map_cons, e1, h2]
      congr 1
      apply List.map_congr_left
      intro x hx
      exact hold x (hg x (by simp [hx]))
    · intro x hx
      rw [h3 x (by omega), hold x hx]
    · intro x hx
      rcases List.mem_cons.1 hx with rfl | hx
      · exact ⟨Nat.le_refl _, by omega⟩
      · have := h4 x hx; omega
    · rw [List.nodup_cons]
      refine ⟨fun h => ?_, h5⟩
      have := (h4 _ h).1
      omega

/-- C32: cloning a set (of compatible grasps) gives a set with the same name, robot type and end
effector and, in the same order, new grasps with the same data; all existing grasps and sets stay as
they are. -/
theorem C32_clone (debug : Bool) (w : World P) (s : GraspSet) (hs : ∀ g ∈ s.grasps, g < w.next)
    (hc : ∀ g ∈ s.grasps, (w.grasp g).robotType = s.robotType ∧ (w.grasp g).eef = s.eef) :
    ∃ w' s', cloneSet debug w s = some (w', s') ∧ s'.name = s.name ∧
      s'.robotType = s.robotType ∧ s'.eef = s.eef ∧
      s'.grasps.map w'.grasp = s.grasps.map w.grasp ∧
      (∀ g ∈ s'.grasps, w.next ≤ g) ∧ s'.grasps.Nodup ∧
      (∀ g, g < w.next → w'.grasp g = w.grasp g) ∧ w'.set = w.set := by
  obtain ⟨w', new, h1, h2, h3, h4, h5, h6, _⟩ := cloneGrasps_spec debug s.grasps w
    { name := s.name, robotType := s.robotType, eef := s.eef, grasps := [] } hs (by simp)
    (fun _ => hc)
  exact ⟨w', _, h1, rfl, rfl, rfl, h2, fun g hg => (h4 g hg).1, h5, h3, h6⟩

theorem lastMatch_append (w : World P) (rt eef : String) : ∀ (a b : List Nat) (acc : Option Nat),
    lastMatch w rt eef (a ++ b) acc = lastMatch w rt eef b (lastMatch w rt eef a acc) := by
  intro a
  induction a with
  | nil => intro b acc; rfl
  | cons x xs ih => intro b acc; exact ih b _

theorem lastMatch_none_of (w : World P) (rt eef : String) : ∀ (a : List Nat) (acc : Option Nat),
    (∀ x ∈ a, matching w rt eef x = false) → lastMatch w rt eef a acc = acc := by
  intro a
  induction a with
  | nil => intro acc _; rfl
  | cons x xs ih =>
    intro acc h
    unfold lastMatch
    rw [h x (by simp)]
    exact ih acc (fun y hy => h y (by simp [hy]))

theorem getSetFor_split (w : World P) (rt eef : String) (a b : List Nat) (k : Nat)
    (ha : ∀ x ∈ a, matching w rt eef x = false) (hk : matching w rt eef k = true) :
    getSetFor w (a ++ k :: b) rt eef = some k := by
  induction a with
  | nil => simp [getSetFor, hk]
  | cons x xs ih =>
    rw [List.cons_append]
    unfold getSetFor
    rw [if_neg (by rw [ha x (by simp)]; decide)]
    exact ih (fun y hy => ha y (by simp [hy]))

theorem matching_iff (w : World P) (rt eef : String) (k : Nat) :
    matching w rt eef k = true ↔ (w.set k).robotType = rt ∧ (w.set k).eef = eef := by
  simp [matching]

theorem matching_false (w : World P) (rt eef : String) (k : Nat) :
    matching w rt eef k = false ↔ ¬ ((w.set k).robotType = rt ∧ (w.set k).eef = eef) := by
  rw [← matching_iff, Bool.not_eq_true]

/-- C32: grasp sets of a manipulation object, when exactly one of them is for the robot type and end
effector of the set to be included: afterwards the set that `getGraspSet` gives for them contains the
old and the new grasps, and no other set has changed. -/
theorem C32_object_include (w : World P) (a b : List Nat) (t k : Nat)
    (ht : (w.set t).robotType = (w.set k).robotType ∧ (w.set t).eef = (w.set k).eef)
    (hu : ∀ x ∈ a ++ b, ¬ ((w.set x).robotType = (w.set k).robotType ∧
      (w.set x).eef = (w.set k).eef)) :
    getSetFor w (a ++ t :: b) (w.set k).robotType (w.set k).eef = some t ∧
    ∃ w', includeSet false w (a ++ t :: b) k = .done w' ∧ w'.grasp = w.grasp ∧
      (∀ x, x ≠ t → w'.set x = w.set x) ∧
      getSetFor w' (a ++ t :: b) (w.set k).robotType (w.set k).eef = some t ∧
      ∀ g, g ∈ (w'.set t).grasps ↔ g ∈ (w.set t).grasps ∨ g ∈ (w.set k).grasps := by
  have ha : ∀ x ∈ a, matching w (w.set k).robotType (w.set k).eef x = false :=
    fun x hx => (matching_false w _ _ x).2 (hu x (by simp [hx]))
  have hb : ∀ x ∈ b, matching w (w.set k).robotType (w.set k).eef x = false :=
    fun x hx => (matching_false w _ _ x).2 (hu x (by simp [hx]))
  have hm := (matching_iff w (w.set k).robotType (w.set k).eef t).2 ht
  refine ⟨getSetFor_split w _ _ a b t ha hm, ?_⟩
  have hl : lastMatch w (w.set k).robotType (w.set k).eef (a ++ t :: b) none = some t := by
    rw [lastMatch_append, lastMatch_none_of w _ _ a none ha]
    unfold lastMatch
    rw [if_pos hm]
    exact lastMatch_none_of w _ _ b _ hb
  have hat : t ∉ a := fun h => hu t (by simp [h]) ht
  refine ⟨w.putSet t { w.set t with
    grasps := (w.set t).grasps ++ news (w.set t).grasps (w.set k).grasps }, ?_, rfl, ?_, ?_, ?_⟩
  · unfold includeSet
    rw [hl]
    simp only
    rw [include_release]
  · intro x hx
    simp only [World.putSet]
    rw [if_neg hx]
  · apply getSetFor_split
    · intro x hx
      rw [matching_false]
      have : x ≠ t := fun e => hat (e ▸ hx)
      simp only [World.putSet, if_neg this]
      exact hu x (by simp [hx])
    · rw [matching_iff]
      simp only [World.putSet, if_true]
      exact ht
  · intro g
    simp only [World.putSet, if_true, List.mem_append, mem_news]
    constructor
    · rintro (h | h)
      · exact Or.inl h
      · exact Or.inr h.1
    · rintro (h | h)
      · exact Or.inl h
      · by_cases hg : g ∈ (w.set t).grasps
        · exact Or.inl hg
        · exact Or.inr ⟨h, hg⟩

/-- C32: including throws exactly if the object has no set for the robot type and end effector. -/
theorem C32_object_include_throws (w : World P) (sets : List Nat) (k : Nat) :
    includeSet false w sets k = .threw ↔ ∀ x ∈ sets,
      ¬ ((w.set x).robotType = (w.set k).robotType ∧ (w.set x).eef = (w.set k).eef) := by
  have key : ∀ (l : List Nat) (acc : Option Nat),
      lastMatch w (w.set k).robotType (w.set k).eef l acc = none ↔ acc = none ∧ ∀ x ∈ l,
        matching w (w.set k).robotType (w.set k).eef x = false := by
    intro l
    induction l with
    | nil => intro acc; simp [lastMatch]
    | cons x xs ih =>
      intro acc
      unfold lastMatch
      rw [ih]
      cases h : matching w (w.set k).robotType (w.set k).eef x <;> simp [h]
  unfold includeSet
  cases e : lastMatch w (w.set k).robotType (w.set k).eef sets none with
  | none =>
    simp only [true_iff]
    intro x hx
    exact (matching_false _ _ _ _).1 (((key sets none).1 e).2 x hx)
  | some t =>
    simp only [include_release, reduceCtorEq, false_iff]
    intro h
    have := (key sets none).2 ⟨rfl, fun x hx => (matching_false _ _ _ _).2 (h x hx)⟩
    rw [this] at e
    exact absurd e (by simp)

/-- Two sets for the same end effector and a third one with a grasp. -/
def twoSets : World Unit :=
  { grasp := fun _ => ⟨"g", "r", "hand", (), "", ""⟩
    set := fun i => ⟨"s", "r", "hand", if i = 2 then [5] else []⟩
    next := 10 }

/-- C32 (violation): an object may have two sets for the same end effector (`addGraspSet` accepts
them); then `includeGraspSet` adds to the last one, but `getGraspSet` gives the first one, where the
included grasps are missing. -/
theorem C32_include_is_lost_to_get :
    ∃ (w w' : World Unit) (sets : List Nat) (k t : Nat),
      (addSet [] 0).bind (fun l => addSet l 1) = some sets ∧ includeSet false w sets k = .done w' ∧
      getSetFor w' sets (w.set k).robotType (w.set k).eef = some t ∧
      5 ∈ (w.set k).grasps ∧ 5 ∉ (w'.set t).grasps :=
  ⟨twoSets, twoSets.putSet 1 ⟨"s", "r", "hand", [5]⟩, [0, 1], 2, 0, rfl, rfl, rfl, by decide,
    by decide⟩

/-- C32: an object never lists the same grasp set twice; adding it again throws. -/
theorem C32_object_sets (sets : List Nat) (k : Nat) :
    (k ∈ sets → addSet sets k = none) ∧ (k ∉ sets → addSet sets k = some (sets ++ [k])) ∧
    (∀ sets', sets.Nodup → addSet sets k = some sets' → sets'.Nodup) := by
  have hi : hasSet sets k = true ↔ k ∈ sets := by simp [hasSet]
  refine ⟨fun h => if_pos (hi.2 h), fun h => if_neg (fun e => h (hi.1 e)), ?_⟩
  intro sets' hn h
  by_cases hk : k ∈ sets
  · rw [show addSet sets k = none from if_pos (hi.2 hk)] at h; exact absurd h (by simp)
  · rw [show addSet sets k = some (sets ++ [k]) from if_neg (fun e => hk (hi.1 e))] at h
    cases h
    rw [List.nodup_append]
    refine ⟨hn, List.nodup_singleton _, ?_⟩
    intro a ha b hb
    rw [List.mem_singleton] at hb
    subst hb
    exact fun e => hk (e ▸ ha)

/-! ### C42 -/

/-- C42: the object pose reached by bringing the tool center point to `getTcpPoseGlobal` is the given
object pose, and the two conversions are inverse to each other. -/
theorem C42_inverse [Group P] (g : Grasp P) (o t : P) :
    objectTargetPoseGlobal g (tcpPoseGlobal g o) = o ∧
    tcpPoseGlobal g (objectTargetPoseGlobal g t) = t := by
  simp [objectTargetPoseGlobal, tcpPoseGlobal]

/-- C42: for a robot of the right type whose tool center point is at `t`, `getTargetPoseGlobal` is the
object pose for `t`; it is `o` exactly when the tool center point is at `getTcpPoseGlobal(o)`.
Another robot type throws; without end effector or tool center point the identity is returned. -/
theorem C42_target [Group P] (g : Grasp P) (r : RobotView P) :
    (targetPoseGlobal g r = none ↔ r.type ≠ g.robotType) ∧
    (∀ t, r.type = g.robotType → r.tcp g.eef = some (some t) →
      targetPoseGlobal g r = some (objectTargetPoseGlobal g t) ∧
      ∀ o, targetPoseGlobal g r = some o ↔ t = tcpPoseGlobal g o) ∧
    (r.type = g.robotType → (r.tcp g.eef = none ∨ r.tcp g.eef = some none) →
      targetPoseGlobal g r = some 1) := by
  refine ⟨?_, ?_, ?_⟩
  · unfold targetPoseGlobal
    by_cases h : r.type = g.robotType
    · rw [if_neg (fun e => e h)]
      simp only [ne_eq, h, not_true_eq_false, iff_false]
      split <;> simp
    · rw [if_pos h]; simp [h]
  · intro t h1 h2
    have : targetPoseGlobal g r = some (t * g.pose) := by
      unfold targetPoseGlobal
      rw [if_neg (fun e => e h1), h2]
    refine ⟨this, fun o => ?_⟩
    rw [this]
    simp only [Option.some.injEq, tcpPoseGlobal]
    exact ⟨fun e => by rw [← e]; simp, fun e => by rw [e]; simp⟩
  · intro h1 h2
    unfold targetPoseGlobal
    rw [if_neg (fun e => e h1)]
    rcases h2 with h2 | h2 <;> rw [h2]

/-! ### Non-vacuity -/

example : ∃ s, setRun true twoSets ⟨"s", "r", "hand", []⟩
    [.add 1, .add 2, .incl [2, 3, 3, 4], .removeAt 1, .remove 4] = some s ∧
      s.grasps = [1, 3] := ⟨_, rfl, rfl⟩
example : setRun true twoSets ⟨"s", "r", "hand", []⟩ [.add 1, .add 1] = none := rfl
example : setRun true twoSets ⟨"s", "r", "foot", []⟩ [.incl [1]] = none := rfl
example : ∃ w' s', cloneSet true twoSets ⟨"s", "r", "hand", [4, 5]⟩ = some (w', s') ∧
    s'.grasps = [10, 11] := ⟨_, _, rfl, rfl⟩
example : (∀ g ∈ (twoSets.set 2).grasps, g < twoSets.next) ∧
    ∀ g ∈ (twoSets.set 2).grasps, (twoSets.grasp g).robotType = (twoSets.set 2).robotType ∧
      (twoSets.grasp g).eef = (twoSets.set 2).eef := by decide
-- the premises of `C32_object_include`
example : ∃ w', includeSet false twoSets ([] ++ 0 :: []) 2 = .done w' ∧ (w'.set 0).grasps = [5] :=
  ⟨_, rfl, rfl⟩

end Simox.Grsp
