import Verif.Eef.Lemmas
import Mathlib.Algebra.Order.Floor.Semiring
import Mathlib.Algebra.Order.BigOperators.Group.List
import Mathlib.Algebra.Order.Field.Basic
import Mathlib.Tactic.Linarith
import Mathlib.Tactic.FieldSimp
import Mathlib.Tactic.Ring

/-! # All actors -/

set_option linter.unusedSectionVars false

namespace Simox.Eef

open Relation

variable {N O K I : Type} [DecidableEq N] [DecidableEq O] [Field K] [LinearOrder K]

/-! ## One pass -/

theorem pass_fst (h : Hand N O K I) (obs : List O) (angle : K) (acts : List (Actor N K × Bool))
    (store : List (Contact N O I)) (q : N → K) :
    (h.pass obs angle acts store q).1.map Prod.fst = acts.map Prod.fst := by
  induction acts generalizing store q with
  | nil => rfl
  | cons p as ih =>
    obtain ⟨a, f⟩ := p
    cases f <;> simp [Hand.pass, ih]

theorem pass_finished (h : Hand N O K I) (obs : List O) (angle : K) (acts : List (Actor N K × Bool))
    (store : List (Contact N O I)) (q : N → K) :
    (h.pass obs angle acts store q).2.2.2 = true ↔ ∀ p ∈ acts, p.2 = true := by
  induction acts generalizing store q with
  | nil => simp [Hand.pass]
  | cons p as ih =>
    obtain ⟨a, f⟩ := p
    cases f <;> simp [Hand.pass, ih]

theorem pass_all_done (h : Hand N O K I) (obs : List O) (angle : K) (acts : List (Actor N K × Bool))
    (store : List (Contact N O I)) (q : N → K) (hd : ∀ p ∈ acts, p.2 = true) :
    h.pass obs angle acts store q = (acts, store, q, true) := by
  induction acts generalizing store q with
  | nil => rfl
  | cons p as ih =>
    obtain ⟨a, f⟩ := p
    have : f = true := hd (a, f) List.mem_cons_self
    subst this
    simp [Hand.pass, ih store q (fun p hp => hd p (List.mem_cons_of_mem _ hp))]

theorem pass_reach (h : Hand N O K I) (obs : List O) (angle : K) (acts : List (Actor N K × Bool))
    (ha : ∀ p ∈ acts, p.1 ∈ h.actors)
    (store : List (Contact N O I)) (q : N → K) (w : h.Within q) :
    ReflTransGen (h.Step obs angle) q (h.pass obs angle acts store q).2.2.1 ∧
      h.Within (h.pass obs angle acts store q).2.2.1 := by
  induction acts generalizing store q with
  | nil => exact ⟨.refl, w⟩
  | cons p as ih =>
    obtain ⟨a, f⟩ := p
    have ha' : ∀ p ∈ as, p.1 ∈ h.actors := fun p hp => ha p (List.mem_cons_of_mem _ hp)
    cases f
    · have m := mac_reach h obs angle a (ha (a, false) List.mem_cons_self) store q w
      have r := ih ha' (h.moveActorCheckCollision obs angle a store q).2.1 _ m.2
      exact ⟨m.1.trans r.1, r.2⟩
    · exact ih ha' store q w

theorem pass_nodup (h : Hand N O K I) (obs : List O) (angle : K) (acts : List (Actor N K × Bool))
    (ha : ∀ p ∈ acts, p.1 ∈ h.actors)
    (store : List (Contact N O I)) (q : N → K) (w : h.Within q)
    (hn : (store.map Contact.key).Nodup) :
    ((h.pass obs angle acts store q).2.1.map Contact.key).Nodup := by
  induction acts generalizing store q with
  | nil => exact hn
  | cons p as ih =>
    obtain ⟨a, f⟩ := p
    have ha' : ∀ p ∈ as, p.1 ∈ h.actors := fun p hp => ha p (List.mem_cons_of_mem _ hp)
    cases f
    · have m := mac_reach h obs angle a (ha (a, false) List.mem_cons_self) store q w
      exact ih ha' _ _ m.2 (mac_nodup h obs angle a (ha (a, false) List.mem_cons_self) store q w hn)
    · exact ih ha' store q w hn

/-- If some actor is not done after the pass, something has moved. -/
theorem pass_moved (h : Hand N O K I) (obs : List O) (angle : K) (acts : List (Actor N K × Bool))
    (ha : ∀ p ∈ acts, p.1 ∈ h.actors)
    (store : List (Contact N O I)) (q : N → K) (w : h.Within q)
    (hf : ∃ p ∈ (h.pass obs angle acts store q).1, p.2 = false) :
    TransGen (h.Step obs angle) q (h.pass obs angle acts store q).2.2.1 := by
  induction acts generalizing store q with
  | nil => simp [Hand.pass] at hf
  | cons p as ih =>
    obtain ⟨a, f⟩ := p
    have ha' : ∀ p ∈ as, p.1 ∈ h.actors := fun p hp => ha p (List.mem_cons_of_mem _ hp)
    cases f
    · have m := mac_reach h obs angle a (ha (a, false) List.mem_cons_self) store q w
      have r := pass_reach h obs angle as ha' (h.moveActorCheckCollision obs angle a store q).2.1 _ m.2
      cases hm : (h.moveActorCheckCollision obs angle a store q).1
      · exact TransGen.trans_left
          (mac_moved h obs angle a (ha (a, false) List.mem_cons_self) store q w hm) r.1
      · refine TransGen.trans_right m.1 (ih ha' _ _ m.2 ?_)
        obtain ⟨p, hp, hpf⟩ := hf
        simp only [Hand.pass, hm, List.mem_cons] at hp
        rcases hp with rfl | hp
        · simp at hpf
        · exact ⟨p, hp, hpf⟩
    · refine ih ha' store q w ?_
      obtain ⟨p, hp, hpf⟩ := hf
      simp only [Hand.pass, List.mem_cons] at hp
      rcases hp with rfl | hp
      · simp at hpf
      · exact ⟨p, hp, hpf⟩

/-- What is known if all actors are done after the pass. -/
theorem pass_done (h : Hand N O K I) (obs : List O) (angle : K) (pr : h.Proper)
    (acts : List (Actor N K × Bool)) (ha : ∀ p ∈ acts, p.1 ∈ h.actors)
    (store : List (Contact N O I)) (q : N → K) (w : h.Within q)
    (hf : ∀ p ∈ (h.pass obs angle acts store q).1, p.2 = true) :
    (h.pass obs angle acts store q).2.2.1 = q ∧
    (∀ a, (a, false) ∈ acts → ∀ d ∈ a.defs, Stuck h obs angle a q d) ∧
    (∀ k, k ∈ (h.pass obs angle acts store q).2.1.map Contact.key ↔
      k ∈ store.map Contact.key ∨ ∃ a, (a, false) ∈ acts ∧ h.WouldTouch obs angle q a k.1 k.2) ∧
    (∀ c ∈ (h.pass obs angle acts store q).2.1, c ∈ store ∨
      ∃ a, (a, false) ∈ acts ∧ h.WouldTouch obs angle q a c.node c.obj ∧ c.actor = a.name ∧
        c.info = h.measure q (h.moveActor angle a.defs q).2 c.node c.obj) := by
  induction acts generalizing store q with
  | nil => simp [Hand.pass]
  | cons p as ih =>
    obtain ⟨a, f⟩ := p
    have ha' : ∀ p ∈ as, p.1 ∈ h.actors := fun p hp => ha p (List.mem_cons_of_mem _ hp)
    cases f
    · have hm : (h.moveActorCheckCollision obs angle a store q).1 = true := by
        simpa [Hand.pass] using hf (a, _) List.mem_cons_self
      obtain ⟨m1, m2, m3, m4⟩ := mac_done h obs angle a
        (pr a (ha (a, false) List.mem_cons_self)) store q w hm
      have hf' : ∀ p ∈ (h.pass obs angle as (h.moveActorCheckCollision obs angle a store q).2.1 q).1,
          p.2 = true := by
        intro p hp
        refine hf p ?_
        simp only [Hand.pass]
        rw [m1]
        exact List.mem_cons_of_mem _ hp
      obtain ⟨i1, i2, i3, i4⟩ := ih ha' (h.moveActorCheckCollision obs angle a store q).2.1 q w hf'
      have hp : h.pass obs angle ((a, false) :: as) store q =
          ((a, true) :: (h.pass obs angle as (h.moveActorCheckCollision obs angle a store q).2.1 q).1,
            (h.pass obs angle as (h.moveActorCheckCollision obs angle a store q).2.1 q).2.1,
            (h.pass obs angle as (h.moveActorCheckCollision obs angle a store q).2.1 q).2.2.1,
            false) := by
        simp only [Hand.pass]
        rw [m1, hm]
      rw [hp]
      refine ⟨i1, ?_, ?_, ?_⟩
      · intro b hb
        rcases List.mem_cons.1 hb with e | hb
        · rw [(Prod.mk.inj e).1]; exact m2
        · exact i2 b hb
      · intro k
        rw [i3 k, m3 k]
        constructor
        · rintro ((hh | hh) | ⟨b, hb, hh⟩)
          · exact Or.inl hh
          · exact Or.inr ⟨a, List.mem_cons_self, hh⟩
          · exact Or.inr ⟨b, List.mem_cons_of_mem _ hb, hh⟩
        · rintro (hh | ⟨b, hb, hh⟩)
          · exact Or.inl (Or.inl hh)
          · rcases List.mem_cons.1 hb with e | hb
            · rw [(Prod.mk.inj e).1] at hh; exact Or.inl (Or.inr hh)
            · exact Or.inr ⟨b, hb, hh⟩
      · intro c hc
        rcases i4 c hc with hh | ⟨b, hb, hh⟩
        · rcases m4 c hh with hh | hh
          · exact Or.inl hh
          · exact Or.inr ⟨a, List.mem_cons_self, hh⟩
        · exact Or.inr ⟨b, List.mem_cons_of_mem _ hb, hh⟩
    · have hf' : ∀ p ∈ (h.pass obs angle as store q).1, p.2 = true := by
        intro p hp
        refine hf p ?_
        simp only [Hand.pass]
        exact List.mem_cons_of_mem _ hp
      obtain ⟨i1, i2, i3, i4⟩ := ih ha' store q w hf'
      have key : ∀ b : Actor N K, (b, false) ∈ (a, true) :: as ↔ (b, false) ∈ as := by
        intro b; simp
      simp only [key]
      exact ⟨i1, i2, i3, i4⟩

/-! ## The loop -/

/-- What the result of a call has to satisfy. -/
structure Good (h : Hand N O K I) (obs : List O) (angle : K) (cs : List (Contact N O I))
    (q : N → K) : Prop where
  stuck : ∀ a ∈ h.actors, ∀ d ∈ a.defs, Stuck h obs angle a q d
  keys : ∀ k : N × O, k ∈ cs.map Contact.key ↔ ∃ a ∈ h.actors, h.WouldTouch obs angle q a k.1 k.2
  entries : ∀ c ∈ cs, ∃ a ∈ h.actors, h.WouldTouch obs angle q a c.node c.obj ∧ c.actor = a.name ∧
    c.info = h.measure q (h.moveActor angle a.defs q).2 c.node c.obj

theorem loop_result (h : Hand N O K I) (obs : List O) (angle : K) (pr : h.Proper)
    (fuel loop : Nat) (acts : List (Actor N K × Bool)) (store : List (Contact N O I)) (q : N → K)
    (w : h.Within q) (hacts : acts.map Prod.fst = h.actors)
    (hn : (store.map Contact.key).Nodup)
    (h0 : loop = 0 → (∀ p ∈ acts, p.2 = false) ∧ store = [])
    (h1 : loop = 1 → (∀ p ∈ acts, p.2 = true) → Good h obs angle store q)
    (res : List (Contact N O I) × (N → K))
    (hr : h.closeLoop obs angle fuel loop acts store q = some res) :
    ReflTransGen (h.Step obs angle) q res.2 ∧ h.Within res.2 ∧ (res.1.map Contact.key).Nodup ∧
      Good h obs angle res.1 res.2 := by
  induction fuel generalizing loop acts store q with
  | zero => simp [Hand.closeLoop] at hr
  | succ fuel ih =>
    have ha : ∀ p ∈ acts, p.1 ∈ h.actors := by
      intro p hp; rw [← hacts]; exact List.mem_map_of_mem hp
    unfold Hand.closeLoop at hr
    dsimp only at hr
    have hfst := (pass_fst h obs angle acts store q).trans hacts
    have hreach := pass_reach h obs angle acts ha store q w
    have hnd := pass_nodup h obs angle acts ha store q w hn
    by_cases hfin : (h.pass obs angle acts store q).2.2.2 = true
    · rw [if_pos hfin] at hr
      have hall := (pass_finished h obs angle acts store q).1 hfin
      have hp := pass_all_done h obs angle acts store q hall
      by_cases hl : 2 < loop + 1
      · rw [if_pos hl, hp] at hr
        refine ih 0 (acts.map fun p => (p.1, false)) [] q w ?_ (by simp) ?_ (by simp) hr
        · rw [List.map_map, ← hacts]; rfl
        · intro _
          refine ⟨?_, rfl⟩
          intro p hp
          obtain ⟨x, -, rfl⟩ := List.mem_map.1 hp
          rfl
      · rw [if_neg hl, hp] at hr
        have hr' := Option.some.inj hr
        subst hr'
        refine ⟨.refl, w, hn, ?_⟩
        rcases Nat.eq_zero_or_pos loop with hz | hz
        · obtain ⟨f0, rfl⟩ := h0 hz
          have hnil : acts = [] := by
            cases acts with
            | nil => rfl
            | cons p as =>
              have e1 := f0 p List.mem_cons_self
              have e2 := hall p List.mem_cons_self
              rw [e1] at e2; exact absurd e2 (by simp)
          rw [hnil] at hacts
          have hnil' : h.actors = [] := by rw [← hacts]; rfl
          exact ⟨by rw [hnil']; simp, by rw [hnil']; simp, by simp⟩
        · exact h1 (by omega) hall
    · rw [if_neg hfin] at hr
      suffices hk : loop + 1 = 1 → (∀ p ∈ (h.pass obs angle acts store q).1, p.2 = true) →
          Good h obs angle (h.pass obs angle acts store q).2.1
            (h.pass obs angle acts store q).2.2.1 by
        obtain ⟨i1, i2, i3, i4⟩ := ih (loop + 1) _ _ _ hreach.2 hfst hnd (by omega) hk hr
        exact ⟨hreach.1.trans i1, i2, i3, i4⟩
      · intro hl hall
        have hz : loop = 0 := by omega
        obtain ⟨f0, rfl⟩ := h0 hz
        obtain ⟨d1, d2, d3, d4⟩ := pass_done h obs angle pr acts ha [] q w hall
        have hmem : ∀ a, (a, false) ∈ acts ↔ a ∈ h.actors := by
          intro a
          rw [← hacts, List.mem_map]
          constructor
          · intro hh; exact ⟨(a, false), hh, rfl⟩
          · rintro ⟨p, hp, rfl⟩
            have := f0 p hp
            rw [← this]; exact hp
        rw [d1]
        refine ⟨?_, ?_, ?_⟩
        · intro a haa; exact d2 a ((hmem a).2 haa)
        · intro k
          rw [d3 k]
          constructor
          · rintro (hh | ⟨a, haa, hh⟩)
            · simp at hh
            · exact ⟨a, (hmem a).1 haa, hh⟩
          · rintro ⟨a, haa, hh⟩
            exact Or.inr ⟨a, (hmem a).2 haa, hh⟩
        · intro c hc
          rcases d4 c hc with hh | ⟨a, haa, hh⟩
          · simp at hh
          · exact ⟨a, (hmem a).1 haa, hh⟩

theorem close_result (h : Hand N O K I) (obs : List O) (angle : K) (pr : h.Proper)
    (fuel : Nat) (q : N → K) (w : h.Within q) (res : List (Contact N O I) × (N → K))
    (hr : h.closeActors obs angle fuel q = some res) :
    ReflTransGen (h.Step obs angle) q res.2 ∧ h.Within res.2 ∧ (res.1.map Contact.key).Nodup ∧
      Good h obs angle res.1 res.2 := by
  refine loop_result h obs angle pr fuel 0 _ [] q w ?_ (by simp) ?_ (by simp) res hr
  · rw [List.map_map]; exact List.map_id _
  · intro _
    refine ⟨?_, rfl⟩
    intro p hp
    obtain ⟨x, -, rfl⟩ := List.mem_map.1 hp
    rfl

/-! ## Fuel -/

theorem closeLoop_mono (h : Hand N O K I) (obs : List O) (angle : K) (fuel loop : Nat)
    (acts : List (Actor N K × Bool)) (store : List (Contact N O I)) (q : N → K)
    (res : List (Contact N O I) × (N → K))
    (hr : h.closeLoop obs angle fuel loop acts store q = some res) (k : Nat) :
    h.closeLoop obs angle (fuel + k) loop acts store q = some res := by
  induction fuel generalizing loop acts store q with
  | zero => simp [Hand.closeLoop] at hr
  | succ fuel ih =>
    rw [Nat.add_right_comm]
    unfold Hand.closeLoop at hr ⊢
    dsimp only at hr ⊢
    split
    · rw [if_pos ‹_›] at hr
      split
      · rw [if_pos ‹_›] at hr; exact ih _ _ _ _ hr
      · rw [if_neg ‹_›] at hr; exact hr
    · rw [if_neg ‹_›] at hr; exact ih _ _ _ _ hr

/-! ## Termination -/

section Term
variable [IsStrictOrderedRing K] [FloorRing K]

/-- Number of steps definition `d` can still do before its joint is at the limit. -/
def remaining (h : Hand N O K I) (angle : K) (q : N → K) (d : ActorDef N K) : Nat :=
  if 0 < angle * d.speed then ⌈(h.hi d.node - q d.node) / (angle * d.speed)⌉₊
  else ⌈(h.lo d.node - q d.node) / (angle * d.speed)⌉₊

def potential (h : Hand N O K I) (angle : K) (q : N → K) : Nat :=
  ((h.actors.flatMap Actor.defs).map (remaining h angle q)).sum

theorem remaining_step_le (h : Hand N O K I) (angle : K) (q : N → K) (d e : ActorDef N K)
    (nz : angle * e.speed ≠ 0)
    (hs : d.node = e.node → (0 < angle * d.speed ↔ 0 < angle * e.speed)) :
    remaining h angle (stepped q angle e) d ≤ remaining h angle q d := by
  unfold remaining stepped
  by_cases hn : d.node = e.node
  · rw [hn, Function.update_self]
    split
    · rename_i hp
      apply Nat.ceil_mono
      have he := (hs hn).1 hp
      gcongr
      linarith
    · rename_i hp
      have he : angle * e.speed < 0 := lt_of_le_of_ne
        (not_lt.1 (fun hh => hp ((hs hn).2 hh))) nz
      have hd : angle * d.speed ≤ 0 := not_lt.1 hp
      apply Nat.ceil_mono
      rw [← neg_div_neg_eq (h.lo e.node - (q e.node + _)), ← neg_div_neg_eq (h.lo e.node - q e.node)]
      apply div_le_div_of_nonneg_right _ (by linarith)
      linarith
  · rw [Function.update_of_ne hn]

theorem remaining_step_lt (h : Hand N O K I) (angle : K) (q : N → K) (d : ActorDef N K)
    (nz : angle * d.speed ≠ 0) (al : h.Allowed q angle d) :
    remaining h angle (stepped q angle d) d < remaining h angle q d := by
  unfold remaining stepped
  rw [Function.update_self]
  have aux : ∀ x y : K, y - 1 = x → 0 ≤ x → ⌈x⌉₊ < ⌈y⌉₊ := by
    intro x y hxy hx
    have : y = x + 1 := by rw [← hxy]; ring
    rw [this, show x + 1 = x + ((1 : Nat) : K) by simp, Nat.ceil_add_natCast hx]
    omega
  split
  · rename_i hp
    apply aux
    · rw [← sub_sub, sub_div _ (angle * d.speed), div_self nz]
    · apply div_nonneg _ hp.le
      have := al.2
      linarith
  · rename_i hp
    have hp' : angle * d.speed < 0 := lt_of_le_of_ne (not_lt.1 hp) nz
    apply aux
    · rw [← sub_sub, sub_div _ (angle * d.speed), div_self nz]
    · apply div_nonneg_of_nonpos _ hp'.le
      have := al.1
      linarith

theorem sum_lt_of (l : List (ActorDef N K)) (f g : ActorDef N K → Nat)
    (hle : ∀ d ∈ l, f d ≤ g d) (d : ActorDef N K) (hd : d ∈ l) (hlt : f d < g d) :
    (l.map f).sum < (l.map g).sum := by
  induction l with
  | nil => simp at hd
  | cons x xs ih =>
    simp only [List.map_cons, List.sum_cons]
    have hx := hle x List.mem_cons_self
    have hxs : (xs.map f).sum ≤ (xs.map g).sum :=
      List.sum_le_sum (fun y hy => hle y (List.mem_cons_of_mem _ hy))
    rcases List.mem_cons.1 hd with rfl | hd
    · omega
    · have := ih (fun y hy => hle y (List.mem_cons_of_mem _ hy)) hd
      omega

theorem potential_step (h : Hand N O K I) (obs : List O) (angle : K) (mv : h.Moves angle)
    (q q' : N → K) (hs : h.Step obs angle q q') : potential h angle q' < potential h angle q := by
  obtain ⟨a, ha, d, hd, al, rfl, -⟩ := hs
  unfold potential
  have nz := mv.1 a ha d hd
  refine sum_lt_of _ _ _ ?_ d (List.mem_flatMap.2 ⟨a, ha, hd⟩) (remaining_step_lt h angle q d nz al)
  intro e he
  obtain ⟨b, hb, heb⟩ := List.mem_flatMap.1 he
  refine remaining_step_le h angle q e d nz ?_
  intro hn
  exact ⟨mv.2 b hb e heb a ha d hd hn, mv.2 a ha d hd b hb e heb hn.symm⟩

theorem potential_trans (h : Hand N O K I) (obs : List O) (angle : K) (mv : h.Moves angle)
    (q q' : N → K) (hs : TransGen (h.Step obs angle) q q') :
    potential h angle q' < potential h angle q := by
  induction hs with
  | single h1 => exact potential_step h obs angle mv _ _ h1
  | tail _ h1 ih => exact lt_trans (potential_step h obs angle mv _ _ h1) ih

theorem loop_terminates (h : Hand N O K I) (obs : List O) (angle : K) (pr : h.Proper)
    (mv : h.Moves angle) (m : Nat) (q : N → K) (hm : potential h angle q ≤ m) (w : h.Within q)
    (loop : Nat) (acts : List (Actor N K × Bool)) (store : List (Contact N O I))
    (hacts : acts.map Prod.fst = h.actors) :
    ∃ fuel, (h.closeLoop obs angle fuel loop acts store q).isSome := by
  induction m using Nat.strong_induction_on generalizing q loop acts store with
  | _ m ih =>
  have mem : ∀ acts : List (Actor N K × Bool), acts.map Prod.fst = h.actors →
      ∀ p ∈ acts, p.1 ∈ h.actors := by
    intro acts hacts p hp; rw [← hacts]; exact List.mem_map_of_mem hp
  -- all actors done, few rounds
  have exit_ : ∀ loop acts (store : List (Contact N O I)), ¬ 2 < loop + 1 →
      (∀ p ∈ acts, p.2 = true) →
      ∃ fuel, (h.closeLoop obs angle fuel loop acts store q).isSome := by
    intro loop acts store hl hall
    refine ⟨1, ?_⟩
    unfold Hand.closeLoop
    dsimp only
    rw [pass_all_done h obs angle acts store q hall, if_pos rfl, if_neg hl]
    rfl
  -- one pass that is not the last
  have go : ∀ loop acts (store : List (Contact N O I)), acts.map Prod.fst = h.actors →
      (¬ ∀ p ∈ acts, p.2 = true) →
      ((∀ p ∈ (h.pass obs angle acts store q).1, p.2 = true) →
        ∃ fuel, (h.closeLoop obs angle fuel (loop + 1) (h.pass obs angle acts store q).1
          (h.pass obs angle acts store q).2.1 q).isSome) →
      ∃ fuel, (h.closeLoop obs angle fuel loop acts store q).isSome := by
    intro loop acts store hacts hnot hk
    have hfin : ¬ (h.pass obs angle acts store q).2.2.2 = true := by
      rw [pass_finished]; exact hnot
    have hunf : ∀ fuel, h.closeLoop obs angle (fuel + 1) loop acts store q =
        h.closeLoop obs angle fuel (loop + 1) (h.pass obs angle acts store q).1
          (h.pass obs angle acts store q).2.1 (h.pass obs angle acts store q).2.2.1 := by
      intro fuel
      conv_lhs => unfold Hand.closeLoop
      dsimp only
      rw [if_neg hfin]
    by_cases hall : ∀ p ∈ (h.pass obs angle acts store q).1, p.2 = true
    · obtain ⟨fuel, hf⟩ := hk hall
      refine ⟨fuel + 1, ?_⟩
      rw [hunf, (pass_done h obs angle pr acts (mem acts hacts) store q w hall).1]
      exact hf
    · have hex : ∃ p ∈ (h.pass obs angle acts store q).1, p.2 = false := by
        push Not at hall
        obtain ⟨p, hp, hpf⟩ := hall
        exact ⟨p, hp, by simpa using hpf⟩
      have hlt := potential_trans h obs angle mv _ _
        (pass_moved h obs angle acts (mem acts hacts) store q w hex)
      obtain ⟨fuel, hf⟩ := ih _ (lt_of_lt_of_le hlt hm) _ le_rfl
        (pass_reach h obs angle acts (mem acts hacts) store q w).2 (loop + 1)
        (h.pass obs angle acts store q).1 (h.pass obs angle acts store q).2.1
        ((pass_fst h obs angle acts store q).trans hacts)
      exact ⟨fuel + 1, by rw [hunf]; exact hf⟩
  -- a new round from the beginning
  have fresh : ∀ acts (store : List (Contact N O I)), acts.map Prod.fst = h.actors →
      ∃ fuel, (h.closeLoop obs angle fuel 0 acts store q).isSome := by
    intro acts store hacts
    by_cases hall : ∀ p ∈ acts, p.2 = true
    · exact exit_ 0 acts store (by omega) hall
    · exact go 0 acts store hacts hall (fun hd => exit_ 1 _ _ (by omega) hd)
  -- all actors done, many rounds
  have full : ∀ loop acts (store : List (Contact N O I)), acts.map Prod.fst = h.actors →
      (∀ p ∈ acts, p.2 = true) →
      ∃ fuel, (h.closeLoop obs angle fuel loop acts store q).isSome := by
    intro loop acts store hacts hall
    by_cases hl : 2 < loop + 1
    · obtain ⟨fuel, hf⟩ := fresh (acts.map fun p => (p.1, false)) []
        (by rw [List.map_map, ← hacts]; rfl)
      refine ⟨fuel + 1, ?_⟩
      unfold Hand.closeLoop
      dsimp only
      rw [pass_all_done h obs angle acts store q hall, if_pos rfl, if_pos hl]
      exact hf
    · exact exit_ loop acts store hl hall
  by_cases hall : ∀ p ∈ acts, p.2 = true
  · exact full loop acts store hacts hall
  · exact go loop acts store hacts hall (fun hd => full _ _ _
      ((pass_fst h obs angle acts store q).trans hacts) hd)

end Term

end Simox.Eef
