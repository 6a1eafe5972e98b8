import Verif.Eef.Loop
import Mathlib.Data.Rat.Floor
import Mathlib.Tactic.NormNum
import Mathlib.Tactic.FinCases

/-!
# Closing and opening a hand: the properties

C49: what the hand looks like when closing has returned.  C50: closing returns.
C51: closing does not drive a hand without collisions into a collision.
-/

set_option linter.unusedSectionVars false

namespace Simox.Eef

open Relation

variable {N O K I : Type} [DecidableEq N] [DecidableEq O] [Field K] [LinearOrder K]

/-! ## A concrete hand, used to show that the hypotheses can be met

Two fingers with one joint each, limits `[0,1]`.  Finger `false` meets the obstacle when its joint is
beyond one half.  Finger `true` is blocked by finger `false` as long as that one is below one half. -/

def tdef (n : Bool) : ActorDef Bool Rat := ⟨n, 1, .eAll⟩

def thand : Hand Bool Unit Rat (Rat × Rat) where
  actors := [⟨"index", [tdef true]⟩, ⟨"thumb", [tdef false]⟩]
  statics := []
  lo := fun _ => 0
  hi := fun _ => 1
  enforce := fun _ => true
  nodeModel := fun _ => true
  objModel := fun _ => true
  hitNode := fun q a b => a != b && decide (q false < 1/2) && decide (0 < q true)
  hitObj := fun q n _ => !n && decide (1/2 < q false)
  measure := fun q q' n _ => (q n, q' n)

theorem thand_proper : thand.Proper := by
  intro a ha
  simp only [thand, List.mem_cons, List.not_mem_nil, or_false] at ha
  rcases ha with rfl | rfl <;> simp

theorem thand_within : thand.Within (fun _ => 0) := by
  intro n _; constructor <;> simp [thand]

theorem thand_moves : thand.Moves (1/4) := by
  constructor
  · intro a ha d hd
    simp only [thand, List.mem_cons, List.not_mem_nil, or_false] at ha
    rcases ha with rfl | rfl <;> simp only [List.mem_singleton] at hd <;> subst hd <;>
      norm_num [tdef]
  · intro a ha d hd b hb e he _ _
    simp only [thand, List.mem_cons, List.not_mem_nil, or_false] at hb
    rcases hb with rfl | rfl <;> simp only [List.mem_singleton] at he <;> subst he <;>
      norm_num [tdef]

theorem thand_some : (thand.closeActors [()] (1/4) 20 (fun _ => 0)).isSome = true := by
  decide +kernel

/-- The index finger is blocked first and moves on after the thumb has stopped at the obstacle; the
answer is the contact of the thumb. -/
theorem thand_closes : ∃ res, thand.closeActors [()] (1/4) 20 (fun _ => 0) = some res ∧
    res.1.map (fun c => (c.actor, c.node, c.info)) = [("thumb", false, (1/2, 3/4))] ∧
    res.2 false = 1/2 ∧ res.2 true = 1 := by
  refine ⟨(thand.closeActors [()] (1/4) 20 (fun _ => 0)).get thand_some, by simp, ?_, ?_, ?_⟩
  · decide +kernel
  · decide +kernel
  · decide +kernel

/-! ## C49 -/

/-- C49: when closing has returned, the hand is closed: no joint of any actor can do another step
without leaving its limits or bringing its actor into a collision. -/
theorem C49_closed (h : Hand N O K I) (obs : List O) (stepSize : K) (pr : h.Proper)
    (q : N → K) (w : h.Within q) (fuel : Nat) (cs : List (Contact N O I)) (q' : N → K)
    (hr : h.closeActors obs stepSize fuel q = some (cs, q')) : h.Closed obs stepSize q' := by
  have g := (close_result h obs stepSize pr fuel q w _ hr).2.2.2
  rintro q'' ⟨a, ha, d, hd, al, rfl, nb⟩
  exact nb (g.stuck a ha d hd al)

example : ∃ cs q', thand.closeActors [()] (1/4) 20 (fun _ => 0) = some (cs, q') ∧
    thand.Closed [()] (1/4) q' := by
  obtain ⟨res, hr, -⟩ := thand_closes
  exact ⟨res.1, res.2, hr, C49_closed thand [()] (1/4) thand_proper _ thand_within 20 _ _ hr⟩

/-- C49: the hand has been brought there by single steps of single joints, each within the limits and
each ending without a collision of the actor that moved. -/
theorem C49_legal_steps (h : Hand N O K I) (obs : List O) (stepSize : K) (pr : h.Proper)
    (q : N → K) (w : h.Within q) (fuel : Nat) (cs : List (Contact N O I)) (q' : N → K)
    (hr : h.closeActors obs stepSize fuel q = some (cs, q')) :
    ReflTransGen (h.Step obs stepSize) q q' ∧ h.Within q' :=
  let r := close_result h obs stepSize pr fuel q w _ hr
  ⟨r.1, r.2.1⟩

example : ∃ cs q', thand.closeActors [()] (1/4) 20 (fun _ => 0) = some (cs, q') ∧
    ReflTransGen (thand.Step [()] (1/4)) (fun _ => 0) q' := by
  obtain ⟨res, hr, -⟩ := thand_closes
  exact ⟨res.1, res.2, hr, (C49_legal_steps thand [()] (1/4) thand_proper _ thand_within 20 _ _ hr).1⟩

/-- C49: the joints that belong to no actor are left alone. -/
theorem C49_other_joints (h : Hand N O K I) (obs : List O) (stepSize : K) (pr : h.Proper)
    (q : N → K) (w : h.Within q) (fuel : Nat) (cs : List (Contact N O I)) (q' : N → K)
    (hr : h.closeActors obs stepSize fuel q = some (cs, q'))
    (n : N) (hn : ∀ a ∈ h.actors, ∀ d ∈ a.defs, d.node ≠ n) : q' n = q n := by
  have r := (C49_legal_steps h obs stepSize pr q w fuel cs q' hr).1
  clear hr
  induction r with
  | refl => rfl
  | tail _ hs ih =>
    obtain ⟨a, ha, d, hd, -, rfl, -⟩ := hs
    rw [← ih]
    exact Function.update_of_ne (hn a ha d hd).symm _ _

/-- C49: a joint that is listed once has moved by a whole number of its steps, in the direction of its
definition, and if it has moved at all it is within its limits. -/
theorem C49_whole_steps (h : Hand N O K I) (obs : List O) (stepSize : K) (pr : h.Proper)
    (q : N → K) (w : h.Within q) (fuel : Nat) (cs : List (Contact N O I)) (q' : N → K)
    (hr : h.closeActors obs stepSize fuel q = some (cs, q'))
    (a : Actor N K) (_ha : a ∈ h.actors) (d : ActorDef N K) (_hd : d ∈ a.defs)
    (only : ∀ b ∈ h.actors, ∀ e ∈ b.defs, e.node = d.node → e = d) :
    ∃ k : ℕ, q' d.node = q d.node + k * (stepSize * d.speed) ∧
      (0 < k → h.lo d.node ≤ q' d.node ∧ q' d.node ≤ h.hi d.node) := by
  have r := (C49_legal_steps h obs stepSize pr q w fuel cs q' hr).1
  clear hr
  induction r with
  | refl => exact ⟨0, by simp, by simp⟩
  | tail _ hs ih =>
    obtain ⟨k, hk, hl⟩ := ih
    obtain ⟨b, hb, e, he, al, rfl, -⟩ := hs
    by_cases hn : e.node = d.node
    · have hed := only b hb e he hn
      subst hed
      refine ⟨k + 1, ?_, fun _ => ?_⟩
      · unfold stepped
        rw [Function.update_self, hk]
        push_cast
        ring
      · unfold stepped
        rw [Function.update_self]
        exact al
    · refine ⟨k, ?_, ?_⟩ <;> unfold stepped <;> rw [Function.update_of_ne (Ne.symm hn)]
      · exact hk
      · exact hl

example : ∃ cs q', thand.closeActors [()] (1/4) 20 (fun _ => 0) = some (cs, q') ∧
    ∃ k : ℕ, q' false = 0 + k * (1/4 * 1) := by
  obtain ⟨res, hr, -⟩ := thand_closes
  obtain ⟨k, hk, -⟩ := C49_whole_steps thand [()] (1/4) thand_proper _ thand_within 20 _ _ hr
    ⟨"thumb", [tdef false]⟩ (by simp [thand]) (tdef false) (by simp) (by
      intro b hb e he hn
      simp only [thand, List.mem_cons, List.not_mem_nil, or_false] at hb
      rcases hb with rfl | rfl <;> simp only [List.mem_singleton] at he <;> subst he
      · exact absurd hn (by simp [tdef])
      · rfl)
  exact ⟨res.1, res.2, hr, k, hk⟩

/-- C49: the contacts returned are about the configuration in which the hand is left.  A node and an
obstacle are listed exactly if one more step of a joint of the node's actor would make them collide. -/
theorem C49_contacts_exact (h : Hand N O K I) (obs : List O) (stepSize : K) (pr : h.Proper)
    (q : N → K) (w : h.Within q) (fuel : Nat) (cs : List (Contact N O I)) (q' : N → K)
    (hr : h.closeActors obs stepSize fuel q = some (cs, q')) (n : N) (o : O) :
    (∃ c ∈ cs, c.node = n ∧ c.obj = o) ↔ ∃ a ∈ h.actors, h.WouldTouch obs stepSize q' a n o := by
  have g := (close_result h obs stepSize pr fuel q w _ hr).2.2.2
  rw [← g.keys (n, o)]
  simp [Contact.key, List.mem_map]

/-- C49: no node and obstacle are listed twice. -/
theorem C49_contacts_once (h : Hand N O K I) (obs : List O) (stepSize : K) (pr : h.Proper)
    (q : N → K) (w : h.Within q) (fuel : Nat) (cs : List (Contact N O I)) (q' : N → K)
    (hr : h.closeActors obs stepSize fuel q = some (cs, q')) :
    (cs.map fun c => (c.node, c.obj)).Nodup :=
  (close_result h obs stepSize pr fuel q w _ hr).2.2.1

/-- C49: the entries of a contact (distance, points, approach direction) are measured with the hand as
it is left; the actor it names is one of the hand and a step of its own makes the contact. -/
theorem C49_contacts_measured (h : Hand N O K I) (obs : List O) (stepSize : K) (pr : h.Proper)
    (q : N → K) (w : h.Within q) (fuel : Nat) (cs : List (Contact N O I)) (q' : N → K)
    (hr : h.closeActors obs stepSize fuel q = some (cs, q')) (c : Contact N O I) (hc : c ∈ cs) :
    ∃ a ∈ h.actors, c.actor = a.name ∧ h.WouldTouch obs stepSize q' a c.node c.obj ∧
      c.info = h.measure q' (h.moveActor stepSize a.defs q').2 c.node c.obj := by
  have g := (close_result h obs stepSize pr fuel q w _ hr).2.2.2
  obtain ⟨a, ha, h1, h2, h3⟩ := g.entries c hc
  exact ⟨a, ha, h2, h1, h3⟩

/-- C49: the trial move that gives the approach direction of a contact moves every joint of the actor by
one step, unless the step would leave the limits, and no other joint. -/
theorem C49_trial_move (h : Hand N O K I) (stepSize : K) (defs : List (ActorDef N K))
    (hd : (defs.map fun d => d.node).Nodup) (q : N → K) :
    (∀ d ∈ defs, (h.moveActor stepSize defs q).2 d.node =
      if h.lo d.node ≤ q d.node + stepSize * d.speed ∧ q d.node + stepSize * d.speed ≤ h.hi d.node
      then q d.node + stepSize * d.speed else q d.node) ∧
    ∀ n, (∀ d ∈ defs, d.node ≠ n) → (h.moveActor stepSize defs q).2 n = q n := by
  induction defs generalizing q with
  | nil => exact ⟨by simp, fun n _ => rfl⟩
  | cons d ds ih =>
    simp only [List.map_cons, List.nodup_cons] at hd
    have hne : ∀ e ∈ ds, e.node ≠ d.node := fun e he h' => hd.1 (List.mem_map.2 ⟨e, he, h'⟩)
    by_cases hl : h.inLimits d.node (next q stepSize d) = true
    · have hl' : h.lo d.node ≤ q d.node + stepSize * d.speed ∧
          q d.node + stepSize * d.speed ≤ h.hi d.node := by
        simp only [Hand.inLimits, Bool.and_eq_true, next] at hl
        exact ⟨of_decide_eq_true hl.2, of_decide_eq_true hl.1⟩
      have hs := setJoint_eq h q d.node (next q stepSize d) (fun _ => hl')
      have e : (h.moveActor stepSize (d :: ds) q).2 =
          (h.moveActor stepSize ds (Function.update q d.node (next q stepSize d))).2 := by
        rw [Hand.moveActor]
        simp only [hl, if_true, hs]
      have i := ih hd.2 (Function.update q d.node (next q stepSize d))
      rw [e]
      refine ⟨fun d' hd' => ?_, fun n hn => ?_⟩
      · rcases List.mem_cons.1 hd' with rfl | hd'
        · rw [i.2 _ hne, Function.update_self, if_pos hl']
          rfl
        · rw [i.1 d' hd', Function.update_of_ne (hne d' hd')]
      · rw [i.2 n (fun e he => hn e (List.mem_cons_of_mem _ he)),
          Function.update_of_ne (Ne.symm (hn d (by simp)))]
    · have hl' : ¬ (h.lo d.node ≤ q d.node + stepSize * d.speed ∧
          q d.node + stepSize * d.speed ≤ h.hi d.node) := by
        simp only [Hand.inLimits, Bool.and_eq_true, next] at hl
        exact fun h' => hl ⟨decide_eq_true h'.2, decide_eq_true h'.1⟩
      have e : h.moveActor stepSize (d :: ds) q = h.moveActor stepSize ds q := by
        rw [Hand.moveActor]
        simp only [hl, if_false, Bool.false_eq_true]
      have i := ih hd.2 q
      rw [e]
      refine ⟨fun d' hd' => ?_, fun n hn => i.2 n (fun e he => hn e (List.mem_cons_of_mem _ he))⟩
      rcases List.mem_cons.1 hd' with rfl | hd'
      · rw [i.2 _ hne, if_neg hl']
      · exact i.1 d' hd'

example : ∃ cs q', thand.closeActors [()] (1/4) 20 (fun _ => 0) = some (cs, q') ∧
    (∃ c ∈ cs, c.node = false ∧ c.obj = ()) ∧
    ∃ a ∈ thand.actors, thand.WouldTouch [()] (1/4) q' a false () := by
  obtain ⟨res, hr, hc, -⟩ := thand_closes
  have hex : ∃ c ∈ res.1, c.node = false ∧ c.obj = () := by
    have : (("thumb", false, (1/2, 3/4)) : String × Bool × Rat × Rat) ∈
        res.1.map (fun c => (c.actor, c.node, c.info)) := by rw [hc]; simp
    obtain ⟨c, hc1, hc2⟩ := List.mem_map.1 this
    exact ⟨c, hc1, (Prod.mk.inj (Prod.mk.inj hc2).2).1, rfl⟩
  exact ⟨res.1, res.2, hr, hex,
    (C49_contacts_exact thand [()] (1/4) thand_proper _ thand_within 20 _ _ hr false ()).1 hex⟩

/-- C49: opening is closing with the opposite steps: it ends when no joint can open further. -/
theorem C49_open (h : Hand N O K I) (obs : List O) (stepSize : K) (pr : h.Proper)
    (q : N → K) (w : h.Within q) (fuel : Nat) (q' : N → K)
    (hr : h.openActors obs stepSize fuel q = some q') :
    h.Closed obs (-stepSize) q' ∧ ReflTransGen (h.Step obs (-stepSize)) q q' ∧ h.Within q' := by
  unfold Hand.openActors at hr
  obtain ⟨⟨cs, q1⟩, hc, rfl⟩ := Option.map_eq_some_iff.1 hr
  exact ⟨C49_closed h obs _ pr q w fuel cs q1 hc, C49_legal_steps h obs _ pr q w fuel cs q1 hc⟩

/-- C49: closing on one object (or on none) is closing on the set with this object only. -/
theorem C49_single_object (h : Hand N O K I) (obj : Option O) (stepSize : K) (pr : h.Proper)
    (q : N → K) (w : h.Within q) (fuel : Nat) (cs : List (Contact N O I)) (q' : N → K)
    (hr : h.closeOnObject obj stepSize fuel q = some (cs, q')) :
    h.Closed obj.toList stepSize q' ∧
    (∀ n o, (∃ c ∈ cs, c.node = n ∧ c.obj = o) ↔
      ∃ a ∈ h.actors, h.WouldTouch obj.toList stepSize q' a n o) := by
  have hr' : h.closeActors obj.toList stepSize fuel q = some (cs, q') := by
    cases obj <;> exact hr
  exact ⟨C49_closed h _ _ pr q w fuel cs q' hr',
    C49_contacts_exact h _ _ pr q w fuel cs q' hr'⟩

/-! ## C50 -/

/-- C50: if every step of the hand moves its joint, and the steps of one joint all go in the same
direction, closing returns, whatever the collision checker answers. -/
theorem C50_terminates [IsStrictOrderedRing K] [FloorRing K] (h : Hand N O K I) (obs : List O)
    (stepSize : K) (pr : h.Proper) (mv : h.Moves stepSize) (q : N → K) (w : h.Within q) :
    ∃ fuel res, ∀ fuel' ≥ fuel, h.closeActors obs stepSize fuel' q = some res := by
  obtain ⟨fuel, hf⟩ := loop_terminates h obs stepSize pr mv _ q le_rfl w 0
    (h.actors.map fun a => (a, false)) [] (by rw [List.map_map]; exact List.map_id _)
  obtain ⟨res, hr⟩ := Option.isSome_iff_exists.1 hf
  refine ⟨fuel, res, ?_⟩
  intro fuel' hge
  obtain ⟨k, rfl⟩ := Nat.exists_eq_add_of_le hge
  exact closeLoop_mono h obs stepSize fuel 0 _ [] q res hr k

example : ∃ fuel res, ∀ fuel' ≥ fuel, thand.closeActors [()] (1/4) fuel' (fun _ => 0) = some res :=
  C50_terminates thand [()] (1/4) thand_proper thand_moves _ thand_within

/-- A joint whose definition has speed zero. -/
def lazy : Hand Unit Unit Rat Unit where
  actors := [⟨"finger", [⟨(), 0, .eAll⟩]⟩]
  statics := []
  lo := fun _ => 0
  hi := fun _ => 1
  enforce := fun _ => true
  nodeModel := fun _ => true
  objModel := fun _ => true
  hitNode := fun _ _ _ => false
  hitObj := fun _ _ _ => false
  measure := fun _ _ _ _ => ()

theorem lazy_pass (s : Rat) :
    lazy.pass [] s [(⟨"finger", [⟨(), 0, .eAll⟩]⟩, false)] [] (fun _ => 0) =
      ([(⟨"finger", [⟨(), 0, .eAll⟩]⟩, false)], [], (fun _ => 0), false) := by
  simp [Hand.pass, Hand.moveActorCheckCollision, Hand.moveDef, Hand.inLimits, next, lazy,
    Hand.obstacleHits, Hand.hitsOther, Hand.hitsStatic, Hand.collidesWithActor,
    Hand.collidesWithNode, Hand.setJoint]

/-- C50, the limit of the guarantee: with a joint of speed zero (or, equally, step size zero) that is
free to stay where it is, closing never returns. -/
theorem C50_zero_speed (s : Rat) (fuel : Nat) : lazy.closeActors [] s fuel (fun _ => 0) = none := by
  suffices H : ∀ fuel loop, lazy.closeLoop [] s fuel loop
      [(⟨"finger", [⟨(), 0, .eAll⟩]⟩, false)] [] (fun _ => 0) = none from H fuel 0
  intro fuel
  induction fuel with
  | zero => intro loop; rfl
  | succ fuel ih =>
    intro loop
    unfold Hand.closeLoop
    rw [lazy_pass s]
    exact ih (loop + 1)

/-- Two actors that move the same joint in opposite directions. -/
def opposed : Hand Unit Unit Rat Unit :=
  { lazy with actors := [⟨"a", [⟨(), 1, .eAll⟩]⟩, ⟨"b", [⟨(), -1, .eAll⟩]⟩] }

theorem opposed_move (name : String) (v x y : Rat) (hx : x + 1/2 * v = y) (hy : 0 ≤ y ∧ y ≤ 1) :
    opposed.moveActorCheckCollision [] (1/2) ⟨name, [⟨(), v, .eAll⟩]⟩ [] (fun _ => x) =
      (false, [], fun _ => y) := by
  have k := moveDef_moves opposed [] (1/2) ⟨name, [⟨(), v, .eAll⟩]⟩
    ⟨fun _ => x, fun _ => none, []⟩ ⟨(), v, .eAll⟩
    (by unfold Hand.Allowed; dsimp only; rw [hx]; exact hy) (by simp [Hand.Blocked, opposed, lazy])
  have e : stepped (fun _ => x : Unit → Rat) (1/2) ⟨(), v, .eAll⟩ = fun _ => y := by
    unfold stepped
    funext z
    dsimp only
    rw [hx]
    simp
  unfold Hand.moveActorCheckCollision
  simp only [List.foldl_cons, List.foldl_nil, k, e]
  simp

theorem opposed_pass :
    opposed.pass [] (1/2) [(⟨"a", [⟨(), 1, .eAll⟩]⟩, false), (⟨"b", [⟨(), -1, .eAll⟩]⟩, false)] []
        (fun _ => 0) =
      ([(⟨"a", [⟨(), 1, .eAll⟩]⟩, false), (⟨"b", [⟨(), -1, .eAll⟩]⟩, false)], [], (fun _ => 0),
        false) := by
  simp only [Hand.pass]
  rw [opposed_move "a" 1 0 (1/2) (by norm_num) (by norm_num)]
  dsimp only
  rw [opposed_move "b" (-1) (1/2) 0 (by norm_num) (by norm_num)]

/-- C50, the limit of the guarantee: two actors that move one joint against each other never finish. -/
theorem C50_opposed_actors (fuel : Nat) :
    opposed.closeActors [] (1/2) fuel (fun _ => 0) = none := by
  suffices H : ∀ fuel loop, opposed.closeLoop [] (1/2) fuel loop
      [(⟨"a", [⟨(), 1, .eAll⟩]⟩, false), (⟨"b", [⟨(), -1, .eAll⟩]⟩, false)] [] (fun _ => 0) = none
      from H fuel 0
  intro fuel
  induction fuel with
  | zero => intro loop; rfl
  | succ fuel ih =>
    intro loop
    unfold Hand.closeLoop
    rw [opposed_pass]
    exact ih (loop + 1)

/-! ## C51 -/

theorem free_step (h : Hand N O K I) (obs : List O) (angle : K) (ind : h.Independent)
    (q q' : N → K) (fr : h.Free obs q) (hs : h.Step obs angle q q') : h.Free obs q' := by
  obtain ⟨a, ha, d, hd, -, hq, nb⟩ := hs
  have same : ∀ b ∈ h.actors, b ≠ a → ∀ e ∈ b.defs, q' e.node = q e.node := by
    intro b hb hne e he
    rw [hq]
    refine Function.update_of_ne ?_ _ _
    intro hn
    exact hne (ind.apart b hb a ha e he d hd hn)
  have minds_of : ∀ e : ActorDef N K, e.mindsActors → e.minds := by
    intro e he hn
    unfold ActorDef.mindsActors at he
    rw [hn] at he
    rcases he with he | he <;> exact absurd he (by decide)
  unfold Hand.Blocked at nb
  push Not at nb
  obtain ⟨nb1, nb2, nb3⟩ := nb
  refine ⟨?_, ?_, ?_⟩
  · intro b hb e he o ho ht
    by_cases hba : b = a
    · subst hba; exact nb1 e he o ho ht
    · refine fr.1 b hb e he o ho ⟨ht.1, ht.2.1, ht.2.2.1, ?_⟩
      rw [ind.obj b hb e he q q' (fun x hx => (same b hb hba x hx).symm) o]
      exact ht.2.2.2
  · intro b hb c hc hne e he f hf me mf mode modf hit
    by_cases hba : b = a
    · subst hba
      rw [ind.symm] at hit
      exact nb2 c hc (Ne.symm hne) e he me f hf (minds_of f mf) mode modf hit
    · by_cases hca : c = a
      · subst hca
        exact nb2 b hb hne f hf mf e he (minds_of e me) modf mode hit
      · refine fr.2.1 b hb c hc hne e he f hf me mf mode modf ?_
        rw [ind.node b hb e he c hc f hf q q' (fun x hx => (same b hb hba x hx).symm)
          (fun x hx => (same c hc hca x hx).symm)]
        exact hit
  · intro b hb e he me n hn mode modn hit
    by_cases hba : b = a
    · subst hba; exact nb3 n hn e he me mode modn hit
    · refine fr.2.2 b hb e he me n hn mode modn ?_
      rw [ind.static b hb e he q q' (fun x hx => (same b hb hba x hx).symm) n hn]
      exact hit

/-- C51: a hand with independent fingers that touches nothing (no obstacle, no other finger, not its
static part) still touches nothing after closing, nor at any moment between two steps. -/
theorem C51_stays_free (h : Hand N O K I) (obs : List O) (stepSize : K) (pr : h.Proper)
    (ind : h.Independent) (q : N → K) (w : h.Within q) (fr : h.Free obs q) (fuel : Nat)
    (cs : List (Contact N O I)) (q' : N → K)
    (hr : h.closeActors obs stepSize fuel q = some (cs, q')) :
    ReflTransGen (fun x y => h.Step obs stepSize x y ∧ h.Free obs y) q q' ∧ h.Free obs q' := by
  have r := (C49_legal_steps h obs stepSize pr q w fuel cs q' hr).1
  clear hr
  induction r with
  | refl => exact ⟨.refl, fr⟩
  | tail _ hs ih =>
    have := free_step h obs stepSize ind _ _ ih.2 hs
    exact ⟨ih.1.tail ⟨hs, this⟩, this⟩

theorem thand_independent : thand.Independent := by
  have mem : ∀ a ∈ thand.actors, (a = ⟨"index", [tdef true]⟩ ∨ a = ⟨"thumb", [tdef false]⟩) := by
    intro a ha
    simpa [thand] using ha
  constructor
  · intro a ha d hd q q' hq o
    rcases mem a ha with rfl | rfl <;> simp only [List.mem_singleton] at hd <;> subst hd
    · simp [thand, tdef]
    · have := hq (tdef false) (by simp)
      simp only [tdef] at this
      simp [thand, tdef, this]
  · intro a ha d hd b hb f hf q q' h1 h2
    rcases mem a ha with rfl | rfl <;> rcases mem b hb with rfl | rfl <;>
      simp only [List.mem_singleton] at hd hf <;> subst hd <;> subst hf
    · simp [thand, tdef]
    · have e1 := h1 (tdef true) (by simp)
      have e2 := h2 (tdef false) (by simp)
      simp only [tdef] at e1 e2
      simp [thand, tdef, e1, e2]
    · have e1 := h2 (tdef true) (by simp)
      have e2 := h1 (tdef false) (by simp)
      simp only [tdef] at e1 e2
      simp [thand, tdef, e1, e2]
    · simp [thand, tdef]
  · intro a ha d hd q q' _ n hn
    simp [thand] at hn
  · intro q a b
    cases a <;> cases b <;> simp [thand]
  · intro a ha b hb d hd e he hn
    rcases mem a ha with rfl | rfl <;> rcases mem b hb with rfl | rfl <;>
      simp only [List.mem_singleton] at hd he <;> subst hd <;> subst he <;>
      first | rfl | exact absurd hn (by simp [tdef])
  · intro a ha b hb hn
    rcases mem a ha with rfl | rfl <;> rcases mem b hb with rfl | rfl <;>
      first | rfl | exact absurd hn (by decide)

theorem thand_free : thand.Free [()] (fun _ => 0) := by
  refine ⟨?_, ?_, ?_⟩
  · intro a _ d _ o _ ht
    have := ht.2.2.2
    simp only [thand, Bool.and_eq_true, decide_eq_true_eq] at this
    exact absurd this.2 (by norm_num)
  · intro a _ b _ _ d _ e _ _ _ _ _
    simp [thand]
  · intro a _ d _ _ n hn
    simp [thand] at hn

example : ∃ cs q', thand.closeActors [()] (1/4) 20 (fun _ => 0) = some (cs, q') ∧
    thand.Free [()] q' := by
  obtain ⟨res, hr, -⟩ := thand_closes
  exact ⟨res.1, res.2, hr, (C51_stays_free thand [()] (1/4) thand_proper thand_independent _
    thand_within thand_free 20 _ _ hr).2⟩

end Simox.Eef
