import Verif.Dyn.ActLemmas
import Verif.Ctl.CtlProps
import Mathlib.Tactic.Ring
import Mathlib.Tactic.Positivity

/-! # Commands for joints, what the motors are told, and the nodes without a body -/

namespace Simox.Dyn

open Simox.Ctl

set_option linter.unusedSectionVars false

variable {ν : Type} [DecidableEq ν]

/-! ## C166: the target of a joint is the last command for it that was accepted -/

/-- After every history of commands, the target of every joint is the one of the last command for it that was accepted, and the queries tell so. -/
theorem C166_target {env : ν → Node} {h : List (Cmd ν)} {s : Robot ν} (hs : Robot.after env h = some s) (n : ν) :
    s.targets n = targetOf env n h ∧ s.getTarget n = (match targetOf env n h with | none => 0 | some t => t.value) ∧
      (s.isActuated n = true ↔ ∃ t, targetOf env n h = some t ∧ (t.modes.position = true ∨ t.modes.velocity = true ∨ t.modes.torque = true)) := by
  have e := after_targets h hs n
  refine ⟨e, ?_, ?_⟩
  · unfold Robot.getTarget
    rw [e]
    cases targetOf env n h <;> rfl
  · unfold Robot.isActuated
    rw [e]
    cases targetOf env n h with
    | none => exact ⟨fun h => (by cases h), fun ⟨_, h, _⟩ => (by cases h)⟩
    | some t =>
      show anyMode t.modes = true ↔ _
      unfold anyMode
      rw [Bool.or_eq_true, Bool.or_eq_true, or_assoc]
      exact ⟨fun h => ⟨t, rfl, h⟩, fun ⟨t', h, h'⟩ => by injection h with h; exact h ▸ h'⟩

/-- A position that is commanded last is the target. -/
theorem C166_last {env : ν → Node} {h : List (Cmd ν)} {n : ν} {q : ℝ} {s : Robot ν} (hm : Movable env n) (hs : Robot.after env (.position n q :: h) = some s) :
    s.getTarget n = q ∧ s.isActuated n = true := by
  have e := C166_target hs n
  have ht : targetOf env n (.position n q :: h) = some ⟨q, 0, 0, ⟨true, false, false⟩⟩ := if_pos ⟨rfl, hm⟩
  rw [ht] at e
  exact ⟨e.2.1, e.2.2.2 ⟨_, rfl, Or.inl rfl⟩⟩

theorem after_append_none {env : ν → Node} {h : List (Cmd ν)} (h0 : Robot.after env h = none) (h' : List (Cmd ν)) : Robot.after env (h' ++ h) = none := by
  induction h' with
  | nil => exact h0
  | cons k h' ih =>
    show (Robot.after env (h' ++ h)).bind _ = none
    rw [ih]
    rfl

/-- The behaviour is undefined exactly if a joint that can be moved and has no target was told to move with a velocity that is zero, or almost zero. -/
theorem C166_undefined (env : ν → Node) (h : List (Cmd ν)) :
    Robot.after env h = none ↔ ∃ h2 n v q h1, h = h2 ++ .velocity n v q :: h1 ∧ |v| < 1 / 10 ^ 10 ∧ Movable env n ∧ targetOf env n h1 = none := by
  constructor
  · intro hn
    induction h with
    | nil => cases hn
    | cons k h ih =>
      cases h0 : Robot.after env h with
      | none =>
        obtain ⟨h2, n, v, q, h1, rfl, r⟩ := ih h0
        exact ⟨k :: h2, n, v, q, h1, rfl, r⟩
      | some s =>
        change (Robot.after env h).bind _ = none at hn
        rw [h0] at hn
        change s.cmd env k = none at hn
        cases k with
        | velocity n v q =>
          change s.bulletVelocity env n v q = none at hn
          rcases bulletVelocity_cases env s n v q with ⟨hv, e⟩ | ⟨_, e⟩
          · rw [e] at hn
            rcases setVelocity_cases env s n v q with ⟨h1, h2, _⟩ | ⟨x, b, e', _⟩
            · exact ⟨[], n, v, q, h, rfl, h1, hv, (after_targets h h0 n).symm.trans h2⟩
            · rw [e'] at hn
              cases hn
          · rw [e] at hn
            cases hn
        | _ => cases hn
  · rintro ⟨h2, n, v, q, h1, rfl, hv, hm, ht⟩
    apply after_append_none
    show (Robot.after env h1).bind _ = none
    cases h0 : Robot.after env h1 with
    | none => rfl
    | some s =>
      show s.bulletVelocity env n v q = none
      have ht' : s.targets n = none := (after_targets h1 h0 n).trans ht
      rcases bulletVelocity_cases env s n v q with ⟨_, e⟩ | ⟨hn, _⟩
      · rw [e]
        rcases setVelocity_cases env s n v q with ⟨_, _, e'⟩ | ⟨x, b, _, ⟨_, t, h, _⟩ | ⟨h, _⟩⟩
        · exact e'
        · rw [ht'] at h
          cases h
        · exact absurd hv h
      · exact absurd hm hn

/-- To move a joint, forget its target and stop it is undefined behaviour. -/
theorem C166_stop_false : ∃ (env : Bool → Node) (h : List (Cmd Bool)), Movable env true ∧ h = [.velocity true 0 1, .disable true, .position true 1] ∧ Robot.after env h = none := by
  refine ⟨fun _ => ⟨.rotational, some (.hinge, 0), ⟨-2, 2, false, true⟩, 1, 1, 1⟩, _, ⟨Or.inl rfl, fun h => (by cases h)⟩, rfl, ?_⟩
  rw [C166_undefined]
  refine ⟨[], true, 0, 1, _, rfl, by rw [abs_zero]; positivity, ⟨Or.inl rfl, fun h => (by cases h)⟩, if_pos rfl⟩

/-- After every history, a joint with a target has a controller with the limits of the joint and the gains set last. -/
theorem C166_controllers {env : ν → Node} {h : List (Cmd ν)} {s : Robot ν} (hs : Robot.after env h = some s) {n : ν} (hn : targetOf env n h ≠ none) :
    ∃ c, s.ctrls n = some c ∧ c.maxVelocity = (env n).maxVelocity ∧ c.maxAcceleration = (env n).maxAcceleration ∧
      (c.position.gainP, c.position.gainI, c.position.gainD) = gainsOf h := by
  obtain ⟨f1, f2⟩ := after_fits h hs
  obtain ⟨t, ht⟩ := Option.ne_none_iff_exists'.1 hn
  obtain ⟨c, hc⟩ := f2 n t ((after_targets h hs n).trans ht)
  obtain ⟨h1, h2, h3, h4, h5⟩ := f1 n c hc
  refine ⟨c, hc, h1, h2, ?_⟩
  rw [← after_gains h hs, h3, h4, h5]

/-- A robot with one hinge: a command, another one, and new gains. -/
example : ∃ (env : Bool → Node) (s : Robot Bool), Robot.after env [.gains 5 1 0, .velocity true 2 7, .position true 1] = some s ∧ s.getTarget true = 7 ∧ s.isActuated true = true ∧
    s.isActuated false = false ∧ (∃ c, s.ctrls true = some c ∧ c.maxVelocity = 3 ∧ c.position.gainP = 5) := by
  let env : Bool → Node := fun _ => ⟨.rotational, some (.hinge, 0), ⟨-2, 2, false, true⟩, 3, 1, 1⟩
  have hm : ∀ b, Movable env b := fun _ => ⟨Or.inl rfl, fun h => (by cases h)⟩
  have hv : ¬ |(2 : ℝ)| < 1 / 10 ^ 10 := by norm_num
  have hd : Robot.after env [.gains 5 1 0, .velocity true 2 7, .position true 1] ≠ none := by
    rw [Ne, C166_undefined]
    rintro ⟨h2, n, v, q, h1, e, h3, _⟩
    match h2 with
    | [] => cases e
    | [_] =>
      injection e with _ e
      injection e with e _
      injection e with _ e _
      exact hv (e ▸ h3)
    | [_, _] =>
      injection e with _ e
      injection e with _ e
      injection e with e
      cases e
    | _ :: _ :: _ :: _ =>
      injection e with _ e
      injection e with _ e
      injection e with _ e
      cases (List.append_eq_nil_iff.1 e.symm).2
  obtain ⟨s, hs⟩ := Option.ne_none_iff_exists'.1 hd
  have ht : targetOf env true [.gains 5 1 0, .velocity true 2 7, .position true 1] = some ⟨7, 2, 0, ⟨false, true, false⟩⟩ := by
    unfold targetOf targetOf
    rw [if_pos ⟨rfl, hm true⟩, if_neg hv]
  have hf : targetOf env false [.gains 5 1 0, .velocity true 2 7, .position true 1] = none := by
    simp [targetOf]
  have h1 := C166_target hs true
  have h2 := C166_target hs false
  rw [ht] at h1
  rw [hf] at h2
  refine ⟨env, s, hs, h1.2.1, h1.2.2.2 ⟨_, rfl, Or.inr (Or.inl rfl)⟩, ?_, ?_⟩
  · rw [← Bool.not_eq_true, h2.2.2]
    exact fun ⟨_, h, _⟩ => (by cases h)
  · obtain ⟨c, hc, h3, _, h5⟩ := C166_controllers hs (n := true) (by rw [ht]; exact fun h => (by cases h))
    exact ⟨c, hc, h3, congrArg Prod.fst h5⟩

/-! ## C167: what the motors are told -/

/-- With a maximal torque that is not negative: the torque is cut to it and has the sign of the command. -/
theorem C167_torque_partial {n : Node} {o : ℝ} (hn : n.Linked o) (hT : 0 ≤ n.maxTorque) (q impulse scale dt : ℝ) {t : Target} (ht : t.modes.torque = true) (c : Velocity ℝ) :
    ∃ x, stepNode n q impulse scale dt t c = .ok (t, c, .torque x) ∧ |x| ≤ n.maxTorque ∧ (|t.torque| ≤ n.maxTorque → x = t.torque) ∧ 0 ≤ x * t.torque ∧
      (n.maxTorque < |t.torque| → |x| = n.maxTorque) := by
  obtain ⟨hk, hl⟩ := hn
  have hk' : ¬ n.kind = .other := by rcases hk with h | h <;> rw [h] <;> exact fun h => (by cases h)
  have ha : anyMode t.modes = true := by
    unfold anyMode
    rw [ht, Bool.or_true]
  refine ⟨applied n.maxTorque t.torque, ?_, ?_, ?_, ?_, ?_⟩
  · unfold stepNode
    rw [if_neg hk', hl]
    simp only
    rw [if_neg (not_not.2 ha), if_pos ht, if_pos trivial]
  all_goals
    have h0 : 0 ≤ min |t.torque| n.maxTorque := le_min (abs_nonneg _) hT
    unfold applied
  · rw [abs_mul, abs_of_nonneg h0]
    by_cases hp : t.torque > 0
    · rw [if_pos hp, abs_one, mul_one]
      exact min_le_right _ _
    · rw [if_neg hp, abs_neg, abs_one, mul_one]
      exact min_le_right _ _
  · intro h
    rw [min_eq_left h]
    by_cases hp : t.torque > 0
    · rw [if_pos hp, mul_one, abs_of_pos hp]
    · rw [if_neg hp, abs_of_nonpos (not_lt.1 hp)]
      ring
  · by_cases hp : t.torque > 0
    · rw [if_pos hp, mul_one]
      exact mul_nonneg h0 hp.le
    · rw [if_neg hp, mul_neg_one]
      exact mul_nonneg_of_nonpos_of_nonpos (neg_nonpos.2 h0) (not_lt.1 hp)
  · intro h
    rw [min_eq_right h.le, abs_mul, abs_of_nonneg hT]
    by_cases hp : t.torque > 0
    · rw [if_pos hp, abs_one, mul_one]
    · rw [if_neg hp, abs_neg, abs_one, mul_one]

/-- A joint without a maximal torque, which is stored as minus one: every torque but zero acts in the opposite direction and has the size one. -/
theorem C167_torque_false {n : Node} {o : ℝ} (hn : n.Linked o) (hT : n.maxTorque = -1) (q impulse scale dt : ℝ) {t : Target} (ht : t.modes.torque = true) (c : Velocity ℝ) :
    (0 < t.torque → stepNode n q impulse scale dt t c = .ok (t, c, .torque (-1))) ∧ (t.torque ≤ 0 → stepNode n q impulse scale dt t c = .ok (t, c, .torque 1)) := by
  obtain ⟨hk, hl⟩ := hn
  have hk' : ¬ n.kind = .other := by rcases hk with h | h <;> rw [h] <;> exact fun h => (by cases h)
  have ha : anyMode t.modes = true := by
    unfold anyMode
    rw [ht, Bool.or_true]
  have hs : stepNode n q impulse scale dt t c = .ok (t, c, .torque (applied n.maxTorque t.torque)) := by
    unfold stepNode
    rw [if_neg hk', hl]
    simp only
    rw [if_neg (not_not.2 ha), if_pos ht, if_pos trivial]
  have hm : min |t.torque| (-1) = -1 := min_eq_right (le_trans (by norm_num) (abs_nonneg t.torque))
  rw [hs, hT]
  unfold applied
  rw [hm]
  constructor
  · intro h
    rw [if_pos h, mul_one]
  · intro h
    rw [if_neg (not_lt.2 h)]
    norm_num

theorem advance_modes (t : Target) (dt : ℝ) : (t.advance dt).modes = t.modes ∧ (t.advance dt).velocity = t.velocity ∧ (t.advance dt).torque = t.torque := by
  unfold Target.advance
  split <;> exact ⟨rfl, rfl, rfl⟩

open Classical in
/-- A step of a joint whose position or velocity is controlled. -/
theorem stepNode_speed {n : Node} {o : ℝ} (hn : n.Linked o) (q impulse scale dt : ℝ) {t : Target} (ht : t.modes.torque = false) (ha : t.modes.position = true ∨ t.modes.velocity = true)
    (c : Velocity ℝ) : ∃ e v i, stepNode n q impulse scale dt t c =
      .ok (t.advance dt, (c.update e v { t.modes with position := true } dt).2, .speed (c.update e v { t.modes with position := true } dt).1 i) ∧
      e = Kin.getDelta n.lim q ((t.advance dt).value + o) * (if n.kind = .translational then 1 / 1000 else 1) ∧ v = t.velocity * (if n.kind = .translational then 1 / 1000 else 1) ∧
      i = (if n.maxTorque > 0 then n.maxTorque * dt * scale ^ 3 else impulse) * (if n.kind = .translational then 1000 else 1) := by
  obtain ⟨hk, hl⟩ := hn
  have hk' : ¬ n.kind = .other := by rcases hk with h | h <;> rw [h] <;> exact fun h => (by cases h)
  have ha' : anyMode t.modes = true := by
    unfold anyMode
    rcases ha with h | h <;> simp [h]
  obtain ⟨hmo, hve, _⟩ := advance_modes t dt
  refine ⟨_, _, _, ?_, rfl, rfl, rfl⟩
  unfold stepNode
  rw [if_neg hk', hl]
  simp only
  rw [if_neg (not_not.2 ha'), if_neg (by rw [ht]; exact Bool.false_ne_true), if_pos trivial, hmo, hve]
  congr 4
  have h3 : n.maxTorque * dt * scale * scale * scale = n.maxTorque * dt * scale ^ 3 := by ring
  by_cases hkt : n.kind = .translational
  · rw [if_pos hkt, if_pos hkt, h3]
  · rw [if_neg hkt, if_neg hkt, h3, mul_one]

/-- The motor of a joint whose position or velocity is controlled may use at most the maximal torque of the joint, if it has one, and the one of the robot otherwise; a thousand times
as much for a translational joint. -/
theorem C167_impulse {n : Node} {o : ℝ} (hn : n.Linked o) (q impulse scale dt : ℝ) {t : Target} (ht : t.modes.torque = false) (ha : t.modes.position = true ∨ t.modes.velocity = true)
    (c : Velocity ℝ) : ∃ t' c' v i, stepNode n q impulse scale dt t c = .ok (t', c', .speed v i) ∧
      (n.kind = .rotational → 0 < n.maxTorque → i = n.maxTorque * dt * scale ^ 3) ∧ (n.kind = .rotational → n.maxTorque ≤ 0 → i = impulse) ∧
      (n.kind = .translational → 0 < n.maxTorque → i = n.maxTorque * dt * scale ^ 3 * 1000) ∧ (n.kind = .translational → n.maxTorque ≤ 0 → i = impulse * 1000) := by
  obtain ⟨e, v, i, hs, _, _, hi⟩ := stepNode_speed hn q impulse scale dt ht ha c
  refine ⟨_, _, _, i, hs, ?_, ?_, ?_, ?_⟩ <;> intro hk hp
  · rw [hi, if_pos hp, if_neg (by rw [hk]; exact fun h => (by cases h)), mul_one]
  · rw [hi, if_neg (not_lt.2 hp), if_neg (by rw [hk]; exact fun h => (by cases h)), mul_one]
  · rw [hi, if_pos hp, if_pos hk]
  · rw [hi, if_neg (not_lt.2 hp), if_pos hk]

/-- Any number of steps of a joint whose position or velocity is controlled: the motor never runs faster than the maximal velocity of the joint. -/
theorem C167_speed {n : Node} {o : ℝ} (hn : n.Linked o) (hv : 0 < n.maxVelocity) (impulse scale : ℝ) (ss : List (ℝ × ℝ)) (hd : ∀ s ∈ ss, 0 < s.2) {t : Target}
    (ht : t.modes.torque = false) (ha : t.modes.position = true ∨ t.modes.velocity = true) {c : Velocity ℝ} (hc : c.maxVelocity = n.maxVelocity) (h0 : |c.velocity| ≤ n.maxVelocity) :
    ∃ t' c' ms, stepsNode n impulse scale ss t c = .ok (t', c', ms) ∧ ms.length = ss.length ∧ (∀ m ∈ ms, m.AtMost n.maxVelocity) ∧ t'.modes = t.modes ∧
      c'.maxVelocity = n.maxVelocity ∧ |c'.velocity| ≤ n.maxVelocity := by
  induction ss generalizing t c with
  | nil => exact ⟨t, c, [], rfl, rfl, fun _ h => (by cases h), rfl, hc, h0⟩
  | cons s ss ih =>
    obtain ⟨q, dt⟩ := s
    have hdt : 0 < dt := hd (q, dt) List.mem_cons_self
    obtain ⟨e, v, i, hs, _, _, _⟩ := stepNode_speed hn q impulse scale dt ht ha c
    obtain ⟨hm, _, _⟩ := advance_modes t dt
    have hlim : |(c.update e v { t.modes with position := true } dt).1| ≤ n.maxVelocity := by
      rw [← hc]
      exact C153_limit (c := c) (hc ▸ hv) (hc ▸ h0) [] (fun _ h => (by cases h)) e v _ hdt
    have ht' : (t.advance dt).modes.torque = false := by rw [hm]; exact ht
    have ha' : (t.advance dt).modes.position = true ∨ (t.advance dt).modes.velocity = true := by rw [hm]; exact ha
    obtain ⟨t', c', ms, h1, h2, h3, h4, h5, h6⟩ := ih (fun s h => hd s (List.mem_cons_of_mem _ h)) ht' ha' (c := (c.update e v { t.modes with position := true } dt).2) hc hlim
    refine ⟨t', c', .speed (c.update e v { t.modes with position := true } dt).1 i :: ms, ?_, congrArg Nat.succ h2, ?_, h4.trans hm, h5, h6⟩
    · unfold stepsNode
      rw [hs]
      simp only
      rw [h1]
    · intro m hmm
      rcases List.mem_cons.1 hmm with rfl | hmm
      · exact hlim
      · exact h3 m hmm

/-- One step: the speed changes by at most the maximal acceleration times the length of the step; the controller remembers it for the next step. -/
theorem C167_acceleration {n : Node} {o : ℝ} (hn : n.Linked o) (q impulse scale : ℝ) {dt : ℝ} (hd : 0 < dt) {t : Target} (ht : t.modes.torque = false)
    (ha : t.modes.position = true ∨ t.modes.velocity = true) {c : Velocity ℝ} (hc : 0 < c.maxAcceleration) :
    ∃ t' c' v i, stepNode n q impulse scale dt t c = .ok (t', c', .speed v i) ∧ |v - c.velocity| ≤ c.maxAcceleration * dt ∧ c'.velocity = v ∧
      c'.maxAcceleration = c.maxAcceleration := by
  obtain ⟨e, v, i, hs, _, _, _⟩ := stepNode_speed hn q impulse scale dt ht ha c
  exact ⟨_, _, _, i, hs, C153_acceleration c hc e v _ hd, rfl, rfl⟩

/-- A joint that is told to move with a velocity: after any steps its target has moved on by the velocity times the time. A target for a position stays. -/
theorem C167_integrate {n : Node} {o : ℝ} (hn : n.Linked o) (impulse scale : ℝ) (ss : List (ℝ × ℝ)) {t : Target} (ht : t.modes.torque = false)
    (ha : t.modes.position = true ∨ t.modes.velocity = true) (c : Velocity ℝ) :
    ∃ t' c' ms, stepsNode n impulse scale ss t c = .ok (t', c', ms) ∧ t'.velocity = t.velocity ∧ t'.modes = t.modes ∧
      t'.value = t.value + (if t.modes.position = true then 0 else t.velocity * (ss.map Prod.snd).sum) := by
  induction ss generalizing t c with
  | nil =>
    refine ⟨t, c, [], rfl, rfl, rfl, ?_⟩
    rw [List.map_nil, List.sum_nil, mul_zero]
    split <;> rw [add_zero]
  | cons s ss ih =>
    obtain ⟨q, dt⟩ := s
    obtain ⟨e, v, i, hs, _, _, _⟩ := stepNode_speed hn q impulse scale dt ht ha c
    obtain ⟨hm, hv, _⟩ := advance_modes t dt
    have ht' : (t.advance dt).modes.torque = false := by rw [hm]; exact ht
    have ha' : (t.advance dt).modes.position = true ∨ (t.advance dt).modes.velocity = true := by rw [hm]; exact ha
    obtain ⟨t', c', ms, h1, h2, h3, h4⟩ := ih ht' ha' (c.update e v { t.modes with position := true } dt).2
    refine ⟨t', c', .speed (c.update e v { t.modes with position := true } dt).1 i :: ms, ?_, h2.trans hv, h3.trans hm, ?_⟩
    · unfold stepsNode
      rw [hs]
      simp only
      rw [h1]
    · rw [h4, hm, hv, List.map_cons, List.sum_cons]
      cases hp : t.modes.position with
      | true =>
        have : (t.advance dt).value = t.value := by
          unfold Target.advance
          rw [if_neg fun h => h.2 hp]
        rw [this, if_pos rfl, if_pos rfl]
      | false =>
        have hvel : t.modes.velocity = true := by
          rcases ha with h | h
          · rw [hp] at h
            cases h
          · exact h
        have : (t.advance dt).value = t.value + t.velocity * dt := by
          unfold Target.advance
          rw [if_pos ⟨hvel, by rw [hp]; exact Bool.false_ne_true⟩]
        rw [this, if_neg Bool.false_ne_true, if_neg Bool.false_ne_true]
        ring

theorem rest_update {c : Velocity ℝ} (h1 : c.position.errorSum = 0) (h2 : c.position.lastError = 0) (hv : c.velocity = 0) {m : Modes} (hm : m.position = true) (dt : ℝ) :
    (c.update 0 0 m dt).1 = 0 := by
  have hp : (c.position.update 0 dt).1 = 0 := by
    unfold Pid.update
    rw [h1, h2]
    simp
  unfold Velocity.update
  simp only [if_pos hm, ite_self, add_zero]
  have hl : limitVelocity c.maxVelocity 0 = 0 := if_neg fun h => by
    have := h.2
    rw [abs_zero] at this
    exact absurd h.1 (not_lt.2 this.le)
  rw [hp, hv, hl]
  unfold limitAcceleration
  have ha : ¬ (c.maxAcceleration > 0 ∧ |(0 - 0) / dt| > c.maxAcceleration) := fun h => by
    have := h.2
    rw [sub_self, zero_div, abs_zero] at this
    exact absurd h.1 (not_lt.2 this.le)
  simp only [if_neg ha]

/-- A link without an offset: at its target, a joint whose position is controlled and whose controller is at rest stays at rest. -/
theorem C167_hold_partial {n : Node} (hn : n.Linked 0) (q impulse scale dt : ℝ) {t : Target} (ht : t.modes = ⟨true, false, false⟩) (hq : t.value = q) (h0 : t.velocity = 0) {c : Velocity ℝ}
    (h1 : c.position.errorSum = 0) (h2 : c.position.lastError = 0) (hv : c.velocity = 0) :
    ∃ t' c' i, stepNode n q impulse scale dt t c = .ok (t', c', .speed 0 i) := by
  obtain ⟨e, v, i, hs, he, hve, hi⟩ := stepNode_speed hn q impulse scale dt (t := t) (by rw [ht]) (Or.inl (by rw [ht])) c
  have ha : (t.advance dt).value = q := by
    unfold Target.advance
    rw [if_neg (by rw [ht]; exact fun h => h.2 rfl), hq]
  have hg : Kin.getDelta n.lim q (q + 0) = 0 := by
    unfold Kin.getDelta
    rw [add_zero, sub_self]
    have := Real.pi_pos
    simp only [abs_zero]
    split
    · rfl
    · rw [if_neg fun h => absurd h.2 (not_lt.2 this.le)]
  rw [ha, hg, zero_mul] at he
  rw [h0, zero_mul] at hve
  rw [he, hve, rest_update h1 h2 hv rfl] at hs
  exact ⟨_, _, _, hs⟩

/-- A link with an offset: at its target the joint is told to move, by the offset. -/
theorem C167_offset_false : ∃ (n : Node) (c : Velocity ℝ), n.Linked (1 / 2) ∧ c = Velocity.new (-1) (-1) (-1) ∧
    ∃ t' c' i, stepNode n 0 1 1 1 ⟨0, 0, 0, ⟨true, false, false⟩⟩ c = .ok (t', c', .speed 5 i) := by
  refine ⟨⟨.rotational, some (.hinge, 1 / 2), ⟨-2, 2, false, true⟩, -1, -1, -1⟩, _, ⟨Or.inl rfl, rfl⟩, rfl, ?_⟩
  obtain ⟨e, v, i, hs, he, hve, hi⟩ := stepNode_speed (n := ⟨.rotational, some (.hinge, 1 / 2), ⟨-2, 2, false, true⟩, -1, -1, -1⟩) (o := 1 / 2) ⟨Or.inl rfl, rfl⟩ 0 1 1 1
    (t := ⟨0, 0, 0, ⟨true, false, false⟩⟩) rfl (Or.inl rfl) (Velocity.new (-1) (-1) (-1))
  have hg : e = 1 / 2 := by
    rw [he, if_neg (fun h => by cases h)]
    unfold Kin.getDelta Target.advance
    norm_num
  have hv0 : v = 0 := by
    rw [hve, zero_mul]
  have hu : ((Velocity.new (-1) (-1) (-1) : Velocity ℝ).update e v ⟨true, false, false⟩ 1).1 = 5 := by
    rw [hg, hv0]
    unfold Velocity.update Velocity.new Pid.update Pid.new limitVelocity limitAcceleration
    norm_num
  change _ = Result.ok (_, _, Motor.speed ((Velocity.new (-1) (-1) (-1) : Velocity ℝ).update e v ⟨true, false, false⟩ 1).1 i) at hs
  rw [hu] at hs
  exact ⟨_, _, i, hs⟩

/-- A joint without a mode: the motor is switched off and nothing else changes. -/
theorem C167_off {n : Node} {o : ℝ} (hn : n.Linked o) (q impulse scale dt : ℝ) {t : Target} (ht : t.modes = ⟨false, false, false⟩) (c : Velocity ℝ) :
    stepNode n q impulse scale dt t c = .ok (t, c, .off) := by
  obtain ⟨hk, hl⟩ := hn
  have hk' : ¬ n.kind = .other := by rcases hk with h | h <;> rw [h] <;> exact fun h => (by cases h)
  unfold stepNode
  rw [if_neg hk', hl]
  simp only
  rw [if_pos (by rw [ht]; exact Bool.false_ne_true), if_pos trivial]

/-- A target beyond the limits of the joint is ignored: the motor is told what it is told for a joint at its target. -/
theorem C167_limits {n : Node} (hn : n.Linked 0) (hl : n.lim.limitless = false) (q impulse scale dt : ℝ) {t : Target} (ht : t.modes = ⟨true, false, false⟩)
    (hq : t.value < n.lim.lo ∨ n.lim.hi < t.value) (c : Velocity ℝ) :
    ∃ c' m, stepNode n q impulse scale dt t c = .ok (t, c', m) ∧ ∀ x, n.lim.lo ≤ x → x ≤ n.lim.hi → stepNode n x impulse scale dt { t with value := x } c = .ok ({ t with value := x }, c', m) := by
  obtain ⟨e, v, i, hs, he, hve, hi⟩ := stepNode_speed hn q impulse scale dt (t := t) (by rw [ht]) (Or.inl (by rw [ht])) c
  have ha : t.advance dt = t := by
    unfold Target.advance
    rw [if_neg (by rw [ht]; exact fun h => h.2 rfl)]
  have hg : Kin.getDelta n.lim q (t.value + 0) = 0 := by
    unfold Kin.getDelta
    rw [add_zero, if_pos ⟨by rw [hl]; rfl, hq⟩]
  rw [ha, hg, zero_mul] at he
  rw [ha] at hs
  refine ⟨_, _, hs, fun x hx1 hx2 => ?_⟩
  obtain ⟨e', v', i', hs', he', hve', hi'⟩ := stepNode_speed hn x impulse scale dt (t := { t with value := x }) (by rw [ht]) (Or.inl (by rw [ht])) c
  have hax : ({ t with value := x } : Target).advance dt = { t with value := x } := by
    unfold Target.advance
    rw [if_neg (by rw [ht]; exact fun h => h.2 rfl)]
  have hgx : Kin.getDelta n.lim x (x + 0) = 0 := by
    unfold Kin.getDelta
    rw [add_zero, if_neg (fun h => by rcases h.2 with h | h <;> linarith), sub_self, hl]
    exact if_neg fun h => Bool.false_ne_true h.1
  rw [hax] at he' hs'
  rw [show ({ t with value := x } : Target).value = x from rfl, hgx, zero_mul] at he'
  rw [hs', he', hve', hi', he, hve, hi]

/-- A rotational or translational joint without a link that has a target: every step throws. -/
theorem C167_throws {n : Node} (hk : n.kind ≠ .other) (hl : n.link = none) (q impulse scale dt : ℝ) (t : Target) (c : Velocity ℝ) : stepNode n q impulse scale dt t c = .throws := by
  unfold stepNode
  rw [if_neg hk, hl]

/-- A torque is accepted for a joint without a link, and all steps from then on throw, for every robot and whatever else was commanded before. -/
theorem C167_throws_false {env : ν → Node} {h : List (Cmd ν)} {n : ν} {x : ℝ} {s : Robot ν} (hk : (env n).kind ≠ .other) (hl : (env n).link = none)
    (hs : Robot.after env (.torque n x :: h) = some s) (values : ν → ℝ) (impulse scale dt : ℝ) (ns : List ν) :
    stepAll env values impulse scale dt (n :: ns) s = .throws := by
  have ht := (C166_target hs n).1
  have ht' : targetOf env n (.torque n x :: h) = some ⟨0, 0, x, ⟨false, false, true⟩⟩ := if_pos rfl
  unfold stepAll
  rw [ht, ht']
  simp only
  rw [C167_throws hk hl]

/-- A hinge with limits. -/
noncomputable def hinge : Node := ⟨.rotational, some (.hinge, 0), ⟨-2, 2, false, true⟩, 3, 4, 5⟩

theorem hinge_linked : hinge.Linked 0 := ⟨Or.inl rfl, rfl⟩

/-- A torque above the limit of the hinge is cut. -/
example : ∃ x, stepNode hinge 0 50 1 1 ⟨0, 0, -7, ⟨false, false, true⟩⟩ (Velocity.new 3 4 (-1)) = .ok (⟨0, 0, -7, ⟨false, false, true⟩⟩, Velocity.new 3 4 (-1), .torque x) ∧ |x| = 5 := by
  obtain ⟨x, h1, _, _, _, h5⟩ := C167_torque_partial hinge_linked (by unfold hinge; norm_num) 0 50 1 1 (t := ⟨0, 0, -7, ⟨false, false, true⟩⟩) rfl (Velocity.new 3 4 (-1))
  exact ⟨x, h1, h5 (by unfold hinge; norm_num)⟩

/-- The hinge moves with a velocity for three steps. -/
example : ∃ t' c' ms, stepsNode hinge 50 1 [(0, 1), (1, 2), (2, 1)] ⟨0, 2, 0, ⟨false, true, false⟩⟩ (Velocity.new 3 4 (-1)) = .ok (t', c', ms) ∧ t'.value = 8 := by
  obtain ⟨t', c', ms, h1, _, _, h4⟩ := C167_integrate hinge_linked 50 1 [(0, 1), (1, 2), (2, 1)] (t := ⟨0, 2, 0, ⟨false, true, false⟩⟩) rfl (Or.inr rfl) (Velocity.new 3 4 (-1))
  refine ⟨t', c', ms, h1, h4.trans ?_⟩
  norm_num

example : ∃ t' c' ms, stepsNode hinge 50 1 [(0, 1), (1, 2), (2, 1)] ⟨0, 2, 0, ⟨false, true, false⟩⟩ (Velocity.new 3 4 (-1)) = .ok (t', c', ms) ∧ ms.length = 3 ∧ ∀ m ∈ ms, m.AtMost 3 := by
  obtain ⟨t', c', ms, h1, h2, h3, _⟩ := C167_speed hinge_linked (by unfold hinge; norm_num) 50 1 [(0, 1), (1, 2), (2, 1)] (by simp) (t := ⟨0, 2, 0, ⟨false, true, false⟩⟩) rfl (Or.inr rfl)
    (c := Velocity.new 3 4 (-1)) rfl (by show |(0 : ℝ)| ≤ 3; norm_num)
  exact ⟨t', c', ms, h1, h2, h3⟩

/-- The hinge at its target. -/
example : ∃ t' c' i, stepNode hinge 1 50 1 1 ⟨1, 0, 0, ⟨true, false, false⟩⟩ (Velocity.new 3 4 (-1)) = .ok (t', c', .speed 0 i) :=
  C167_hold_partial hinge_linked 1 50 1 1 rfl rfl rfl rfl rfl rfl

/-! ## C168: the poses of nodes without a body -/

/-- In a robot, where every parent is a node and there is no cycle, all nodes without a body that have a parent are updated, each of them once and after its parent, if that is updated. -/
theorem C168_poses {parent : ν → Option ν} {body : ν → Bool} {nodes : List ν} {r : ν → ℕ} (hr : ∀ n p, parent n = some p → r p < r n)
    (hp : ∀ n ∈ nodes, ∀ p, parent n = some p → p ∈ nodes) (hn : nodes.Nodup) :
    (poseNodes parent body nodes).1 = true ∧ (poseNodes parent body nodes).2.Nodup ∧
      (∀ n, n ∈ (poseNodes parent body nodes).2 ↔ n ∈ nodes ∧ body n = false ∧ ∃ p, parent n = some p) ∧
      ∀ a n b, (poseNodes parent body nodes).2 = a ++ n :: b → ∃ p, parent n = some p ∧ (body p = true ∨ parent p = none ∨ p ∈ a) := by
  unfold poseNodes
  obtain ⟨h1, x, h2, h3, h4⟩ := poseLoop_spec parent hr (nodes.filter fun n => !body n) (nodes.filter fun n => body n) (by
    intro n hn' p hpp
    have := hp n (List.mem_filter.1 hn').1 p hpp
    rw [List.mem_filter, List.mem_filter]
    cases hb : body p
    · exact Or.inl ⟨this, rfl⟩
    · exact Or.inr ⟨this, rfl⟩)
  refine ⟨h1, ?_, ?_, ?_⟩
  · rw [h2]
    exact (h3.nodup_iff.1 (hn.filter _)).filter _
  · intro n
    rw [h2, List.mem_filter, ← h3.mem_iff, List.mem_filter, Option.isSome_iff_exists, and_assoc]
    cases body n <;> simp
  · intro a n b e
    rw [h2] at e
    obtain ⟨a', c, hx, ha, hc⟩ := List.filter_eq_append_iff.1 e
    obtain ⟨d, b', hcd, hd, hpn, hb⟩ := List.filter_eq_cons_iff.1 hc
    obtain ⟨p, hpp⟩ := Option.isSome_iff_exists.1 hpn
    refine ⟨p, hpp, ?_⟩
    subst hcd
    rcases h4 (a' ++ d) n b' (by rw [hx, List.append_assoc]) p hpp with h | h
    · exact Or.inl (List.mem_filter.1 h).2
    · cases hpar : parent p with
      | none => exact Or.inr (Or.inl rfl)
      | some p' =>
        right
        right
        rcases List.mem_append.1 h with h | h
        · rw [← ha, List.mem_filter]
          exact ⟨h, by rw [hpar]; rfl⟩
        · exact absurd (by rw [hpar]; rfl) (hd p h)

/-- A parent that is not a node of the robot: the function stops and nodes keep their old poses. -/
theorem C168_missing_false : ∃ (parent : ℕ → Option ℕ) (body : ℕ → Bool), (∀ n p, parent n = some p → p < n) ∧ poseNodes parent body [2, 3] = (false, []) ∧ body 2 = false ∧ parent 2 = some 1 := by
  refine ⟨fun n => if n = 0 then none else some (n - 1), fun _ => false, ?_, by decide +kernel, rfl, rfl⟩
  intro n p h
  by_cases h0 : n = 0
  · simp [h0] at h
  · simp only [if_neg h0, Option.some.injEq] at h
    omega

/-- A chain in the wrong order, with one body in the middle. -/
example : poseNodes (fun n : ℕ => if n = 0 then none else some (n - 1)) (fun n => n == 2) [4, 3, 2, 1, 0] = (true, [3, 1, 4]) ∨
    poseNodes (fun n : ℕ => if n = 0 then none else some (n - 1)) (fun n => n == 2) [4, 3, 2, 1, 0] = (true, [3, 4, 1]) := by decide +kernel

end Simox.Dyn
