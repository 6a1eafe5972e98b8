import Verif.Dyn.ActSpec
import Mathlib.Tactic.Linarith
import Mathlib.Tactic.NormNum

/-! # Lemmas about the actuation of joints -/

namespace Simox.Dyn

open Simox.Ctl

set_option linter.unusedSectionVars false

variable {ν : Type} [DecidableEq ν]

/-- A command, by the code; `none` if the behaviour is undefined. -/
noncomputable def Robot.cmd (env : ν → Node) (s : Robot ν) : Cmd ν → Option (Robot ν)
  | .position n q => some (s.bulletPosition env n q)
  | .both n q v => some (s.setBoth env n q v)
  | .velocity n v q => s.bulletVelocity env n v q
  | .torque n t => some (s.setTorque env n t)
  | .disable n => some (s.disable n)
  | .enableAll m => some (s.enableAll m)
  | .disableAll => some s.disableAll
  | .gains p i d => some (s.setGains p i d)

/-- The robot after a history of commands. -/
noncomputable def Robot.after (env : ν → Node) : List (Cmd ν) → Option (Robot ν)
  | [] => some Robot.empty
  | k :: h => (Robot.after env h).bind fun s => s.cmd env k

theorem control_targets (env : ν → Node) (s : Robot ν) (n : ν) (b : Bool) : (s.control env n b).targets = s.targets := by
  unfold Robot.control
  cases s.ctrls n <;> rfl

/-- The controllers fit the nodes and the gains, and every node with a target has one. -/
def Robot.Fits (env : ν → Node) (s : Robot ν) : Prop :=
  (∀ n c, s.ctrls n = some c → c.maxVelocity = (env n).maxVelocity ∧ c.maxAcceleration = (env n).maxAcceleration ∧
    c.position.gainP = s.p ∧ c.position.gainI = s.i ∧ c.position.gainD = s.d) ∧
  ∀ n t, s.targets n = some t → ∃ c, s.ctrls n = some c

theorem fits_control {env : ν → Node} {s : Robot ν} (h : s.Fits env) (n : ν) (t : Target) (b : Bool) : ((s.aim n t).control env n b).Fits env := by
  obtain ⟨h1, h2⟩ := h
  unfold Robot.control
  cases hc : (s.aim n t).ctrls n with
  | none =>
    simp only
    refine ⟨?_, ?_⟩
    · intro m c hm
      dsimp only at hm
      by_cases e : m = n
      · subst e
        rw [Function.update_self] at hm
        injection hm with hm
        subst hm
        exact ⟨rfl, rfl, rfl, rfl, rfl⟩
      · rw [Function.update_of_ne e] at hm
        exact h1 m c hm
    · intro m t' hm
      by_cases e : m = n
      · subst e
        exact ⟨_, Function.update_self ..⟩
      · have hm' : s.targets m = some t' := by
          rw [← hm]
          exact (Function.update_of_ne e _ _).symm
        obtain ⟨c, hc'⟩ := h2 m t' hm'
        exact ⟨c, (Function.update_of_ne e _ _).trans hc'⟩
  | some c0 =>
    simp only
    refine ⟨?_, ?_⟩
    · intro m c hm
      dsimp only at hm
      by_cases e : m = n
      · subst e
        rw [Function.update_self] at hm
        injection hm with hm
        subst hm
        have := h1 m c0 hc
        cases b
        · exact this
        · exact this
      · rw [Function.update_of_ne e] at hm
        exact h1 m c hm
    · intro m t' hm
      by_cases e : m = n
      · subst e
        exact ⟨_, Function.update_self ..⟩
      · have hm' : s.targets m = some t' := by
          rw [← hm]
          exact (Function.update_of_ne e _ _).symm
        obtain ⟨c, hc'⟩ := h2 m t' hm'
        exact ⟨c, (Function.update_of_ne e _ _).trans hc'⟩

theorem control_gains (env : ν → Node) (s : Robot ν) (n : ν) (b : Bool) :
    (s.control env n b).p = s.p ∧ (s.control env n b).i = s.i ∧ (s.control env n b).d = s.d := by
  unfold Robot.control
  cases s.ctrls n <;> exact ⟨rfl, rfl, rfl⟩

/-- What a command with a new target does: nothing, nothing defined, or a new target for its node. -/
theorem bulletPosition_cases (env : ν → Node) (s : Robot ν) (n : ν) (q : ℝ) :
    (Movable env n ∧ s.bulletPosition env n q = s.setPosition env n q) ∨ (¬ Movable env n ∧ s.bulletPosition env n q = s) := by
  unfold Robot.bulletPosition Movable
  by_cases h : (env n).kind = .rotational ∨ (env n).kind = .translational
  · rw [if_pos h]
    by_cases h' : (env n).link = none
    · rw [if_pos h']
      exact Or.inr ⟨fun e => e.2 h', rfl⟩
    · rw [if_neg h']
      exact Or.inl ⟨⟨h, h'⟩, rfl⟩
  · rw [if_neg h]
    exact Or.inr ⟨fun e => h e.1, rfl⟩

theorem bulletVelocity_cases (env : ν → Node) (s : Robot ν) (n : ν) (v q : ℝ) :
    (Movable env n ∧ s.bulletVelocity env n v q = s.setVelocity env n v q) ∨ (¬ Movable env n ∧ s.bulletVelocity env n v q = some s) := by
  unfold Robot.bulletVelocity Movable
  by_cases h' : (env n).link = none
  · rw [if_pos h']
    exact Or.inr ⟨fun e => e.2 h', rfl⟩
  · rw [if_neg h']
    by_cases h : (env n).kind = .rotational ∨ (env n).kind = .translational
    · rw [if_pos h]
      exact Or.inl ⟨⟨h, h'⟩, rfl⟩
    · rw [if_neg h]
      exact Or.inr ⟨fun e => h e.1, rfl⟩

theorem setVelocity_cases (env : ν → Node) (s : Robot ν) (n : ν) (v q : ℝ) :
    (|v| < 1 / 10 ^ 10 ∧ s.targets n = none ∧ s.setVelocity env n v q = none) ∨
    ∃ x b, s.setVelocity env n v q = some ((s.aim n ⟨x, v, 0, ⟨false, true, false⟩⟩).control env n b) ∧
      ((|v| < 1 / 10 ^ 10 ∧ ∃ t, s.targets n = some t ∧ x = t.value) ∨ (¬ |v| < 1 / 10 ^ 10 ∧ x = q)) := by
  unfold Robot.setVelocity
  by_cases h : |v| < 1 / 10 ^ 10
  · simp only [if_pos h]
    cases ht : s.targets n with
    | none => exact Or.inl ⟨h, rfl, rfl⟩
    | some t => exact Or.inr ⟨t.value, _, rfl, Or.inl ⟨h, t, rfl, rfl⟩⟩
  · simp only [if_neg h]
    exact Or.inr ⟨q, _, rfl, Or.inr ⟨h, rfl⟩⟩

theorem cmd_fits {env : ν → Node} {s s' : Robot ν} (h : s.Fits env) (k : Cmd ν) (hs : s.cmd env k = some s') : s'.Fits env := by
  cases k with
  | position n q =>
    injection hs with hs
    subst hs
    rcases bulletPosition_cases env s n q with ⟨_, e⟩ | ⟨_, e⟩
    · rw [e]
      exact fits_control h n _ true
    · rw [e]
      exact h
  | both n q v =>
    injection hs with hs
    subst hs
    exact fits_control h n _ true
  | velocity n v q =>
    change s.bulletVelocity env n v q = some s' at hs
    rcases bulletVelocity_cases env s n v q with ⟨_, e⟩ | ⟨_, e⟩
    · rw [e] at hs
      rcases setVelocity_cases env s n v q with ⟨_, _, e'⟩ | ⟨x, b, e', _⟩
      · rw [e'] at hs
        cases hs
      · rw [e'] at hs
        injection hs with hs
        subst hs
        exact fits_control h n _ b
    · rw [e] at hs
      injection hs with hs
      subst hs
      exact h
  | torque n t =>
    injection hs with hs
    subst hs
    exact fits_control h n _ true
  | disable n =>
    injection hs with hs
    subst hs
    refine ⟨h.1, ?_⟩
    intro m t hm
    by_cases e : m = n
    · subst e
      have : (s.disable m).targets m = none := Function.update_self ..
      rw [this] at hm
      cases hm
    · exact h.2 m t ((Function.update_of_ne e _ _).symm.trans hm)
  | enableAll m =>
    injection hs with hs
    subst hs
    refine ⟨h.1, ?_⟩
    intro n t hn
    obtain ⟨t', ht', _⟩ := Option.map_eq_some_iff.1 hn
    exact h.2 n t' ht'
  | disableAll =>
    injection hs with hs
    subst hs
    refine ⟨h.1, ?_⟩
    intro n t hn
    obtain ⟨t', ht', _⟩ := Option.map_eq_some_iff.1 hn
    exact h.2 n t' ht'
  | gains p i d =>
    injection hs with hs
    subst hs
    refine ⟨?_, ?_⟩
    · intro n c hc
      obtain ⟨c', hc', rfl⟩ := Option.map_eq_some_iff.1 hc
      obtain ⟨h1, h2, _⟩ := h.1 n c' hc'
      exact ⟨h1, h2, rfl, rfl, rfl⟩
    · intro n t hn
      obtain ⟨c, hc⟩ := h.2 n t hn
      exact ⟨c.gains p i d, Option.map_eq_some_iff.2 ⟨c, hc, rfl⟩⟩

theorem after_fits {env : ν → Node} (h : List (Cmd ν)) : ∀ {s : Robot ν}, Robot.after env h = some s → s.Fits env := by
  induction h with
  | nil =>
    intro s hs
    injection hs with hs
    subst hs
    exact ⟨fun _ _ h => (by cases h), fun _ _ h => (by cases h)⟩
  | cons k h ih =>
    intro s hs
    obtain ⟨s0, h0, h1⟩ := Option.bind_eq_some_iff.1 hs
    exact cmd_fits (ih h0) k h1

/-- The gains after a command. -/
def Cmd.newGains (k : Cmd ν) (g : ℝ × ℝ × ℝ) : ℝ × ℝ × ℝ := match k with
  | .gains p i d => (p, i, d)
  | _ => g

theorem cmd_gains {env : ν → Node} {s s' : Robot ν} (k : Cmd ν) (hs : s.cmd env k = some s') :
    (s'.p, s'.i, s'.d) = k.newGains (s.p, s.i, s.d) := by
  have hp : ∀ (n : ν) (t : Target) (b : Bool), ((((s.aim n t).control env n b).p, ((s.aim n t).control env n b).i, ((s.aim n t).control env n b).d)) = (s.p, s.i, s.d) := by
    intro n t b
    obtain ⟨h1, h2, h3⟩ := control_gains env (s.aim n t) n b
    rw [h1, h2, h3]
    rfl
  cases k with
  | position n q =>
    injection hs with hs
    subst hs
    rcases bulletPosition_cases env s n q with ⟨_, e⟩ | ⟨_, e⟩
    · rw [e]
      exact hp n _ true
    · rw [e]
      rfl
  | both n q v =>
    injection hs with hs
    subst hs
    exact hp n _ true
  | velocity n v q =>
    change s.bulletVelocity env n v q = some s' at hs
    rcases bulletVelocity_cases env s n v q with ⟨_, e⟩ | ⟨_, e⟩
    · rw [e] at hs
      rcases setVelocity_cases env s n v q with ⟨_, _, e'⟩ | ⟨x, b, e', _⟩
      · rw [e'] at hs
        cases hs
      · rw [e'] at hs
        injection hs with hs
        subst hs
        exact hp n _ b
    · rw [e] at hs
      injection hs with hs
      subst hs
      rfl
  | torque n t =>
    injection hs with hs
    subst hs
    exact hp n _ true
  | disable n =>
    injection hs with hs
    subst hs
    rfl
  | enableAll m =>
    injection hs with hs
    subst hs
    rfl
  | disableAll =>
    injection hs with hs
    subst hs
    rfl
  | gains p i d =>
    injection hs with hs
    subst hs
    rfl

theorem aim_targets (s : Robot ν) (n m : ν) (t : Target) (b : Bool) (env : ν → Node) :
    ((s.aim n t).control env n b).targets m = if n = m then some t else s.targets m := by
  rw [control_targets]
  show Function.update s.targets n (some t) m = _
  by_cases e : n = m
  · subst e
    rw [Function.update_self, if_pos rfl]
  · rw [Function.update_of_ne (Ne.symm e), if_neg e]

theorem after_targets {env : ν → Node} (h : List (Cmd ν)) : ∀ {s : Robot ν}, Robot.after env h = some s → ∀ m, s.targets m = targetOf env m h := by
  induction h with
  | nil =>
    intro s hs m
    injection hs with hs
    subst hs
    rfl
  | cons k h ih =>
    intro s hs m
    obtain ⟨s0, h0, h1⟩ := Option.bind_eq_some_iff.1 hs
    have hm := ih h0 m
    cases k with
    | position n q =>
      injection h1 with h1
      subst h1
      unfold targetOf
      rcases bulletPosition_cases env s0 n q with ⟨hv, e⟩ | ⟨hv, e⟩
      · rw [e]
        unfold Robot.setPosition
        rw [aim_targets]
        by_cases en : n = m
        · subst en
          rw [if_pos rfl, if_pos ⟨rfl, hv⟩]
        · rw [if_neg en, if_neg fun h => en h.1]
          exact hm
      · rw [e, if_neg (fun h : n = m ∧ Movable env m => hv (h.1 ▸ h.2))]
        exact hm
    | both n q v =>
      injection h1 with h1
      subst h1
      unfold targetOf Robot.setBoth
      rw [aim_targets]
      by_cases en : n = m
      · rw [if_pos en, if_pos en]
      · rw [if_neg en, if_neg en]
        exact hm
    | velocity n v q =>
      change s0.bulletVelocity env n v q = some s at h1
      unfold targetOf
      rcases bulletVelocity_cases env s0 n v q with ⟨hv, e⟩ | ⟨hv, e⟩
      · rw [e] at h1
        rcases setVelocity_cases env s0 n v q with ⟨_, _, e'⟩ | ⟨x, b, e', hx⟩
        · rw [e'] at h1
          cases h1
        · rw [e'] at h1
          injection h1 with h1
          subst h1
          rw [aim_targets]
          by_cases en : n = m
          · subst en
            rw [if_pos rfl, if_pos ⟨rfl, hv⟩]
            rcases hx with ⟨hlt, t, ht, rfl⟩ | ⟨hlt, rfl⟩
            · rw [if_pos hlt, ← hm, ht]
            · rw [if_neg hlt]
          · rw [if_neg en, if_neg fun h => en h.1]
            exact hm
      · rw [e] at h1
        injection h1 with h1
        subst h1
        rw [if_neg (fun h : n = m ∧ Movable env m => hv (h.1 ▸ h.2))]
        exact hm
    | torque n t =>
      injection h1 with h1
      subst h1
      unfold targetOf Robot.setTorque
      rw [aim_targets]
      by_cases en : n = m
      · rw [if_pos en, if_pos en]
      · rw [if_neg en, if_neg en]
        exact hm
    | disable n =>
      injection h1 with h1
      subst h1
      unfold targetOf
      show Function.update s0.targets n none m = _
      by_cases en : n = m
      · subst en
        rw [Function.update_self, if_pos rfl]
      · rw [Function.update_of_ne (Ne.symm en), if_neg en]
        exact hm
    | enableAll mo =>
      injection h1 with h1
      subst h1
      unfold targetOf
      rw [← hm]
      rfl
    | disableAll =>
      injection h1 with h1
      subst h1
      unfold targetOf
      rw [← hm]
      rfl
    | gains p i d =>
      injection h1 with h1
      subst h1
      exact hm

theorem after_gains {env : ν → Node} (h : List (Cmd ν)) : ∀ {s : Robot ν}, Robot.after env h = some s → (s.p, s.i, s.d) = gainsOf h := by
  induction h with
  | nil =>
    intro s hs
    injection hs with hs
    subst hs
    rfl
  | cons k h ih =>
    intro s hs
    obtain ⟨s0, h0, h1⟩ := Option.bind_eq_some_iff.1 hs
    rw [cmd_gains k h1]
    cases k <;> first | exact ih h0 | rfl

/-! ## Nodes without a body -/

section
variable (parent : ν → Option ν)

/-- Every node comes after its parent. -/
def Ordered (done x : List ν) : Prop := ∀ a n b, x = a ++ n :: b → ∀ p, parent n = some p → p ∈ done ∨ p ∈ a

theorem Ordered.cons {parent : ν → Option ν} {done x : List ν} {n : ν} (hn : ∀ p, parent n = some p → p ∈ done) (h : Ordered parent (done ++ [n]) x) :
    Ordered parent done (n :: x) := by
  intro a m b e p hp
  cases a with
  | nil =>
    rw [List.nil_append] at e
    injection e with e1 e2
    subst e1
    exact Or.inl (hn p hp)
  | cons a0 a =>
    rw [List.cons_append] at e
    injection e with e1 e2
    subst e1
    rcases h a m b e2 p hp with h' | h'
    · rcases List.mem_append.1 h' with h' | h'
      · exact Or.inl h'
      · rw [List.mem_singleton] at h'
        subst h'
        exact Or.inr List.mem_cons_self
    · exact Or.inr (List.mem_cons_of_mem _ h')

theorem Ordered.append {parent : ν → Option ν} {done x y : List ν} (h : Ordered parent done x) (h' : Ordered parent (done ++ x) y) : Ordered parent done (x ++ y) := by
  intro a m b e p hp
  rcases List.append_eq_append_iff.1 e with ⟨c, rfl, hc⟩ | ⟨c, hc, hb⟩
  · rcases h' c m b hc p hp with k | k
    · rcases List.mem_append.1 k with k | k
      · exact Or.inl k
      · exact Or.inr (List.mem_append_left _ k)
    · exact Or.inr (List.mem_append_right _ k)
  · cases c with
    | nil =>
      rw [List.nil_append] at hb
      rw [List.append_nil] at hc
      subst hc
      rcases h' [] m b hb.symm p hp with k | k
      · exact List.mem_append.1 k
      · cases k
    | cons c0 c =>
      rw [List.cons_append] at hb
      injection hb with h1 h2
      subst h1
      exact h a m c hc p hp

theorem posePass_spec (ns done : List ν) : ∃ x, (posePass parent ns done).2.1 = done ++ x ∧ (posePass parent ns done).2.2 = x.filter (fun n => (parent n).isSome) ∧
    ns.Perm ((posePass parent ns done).1 ++ x) ∧ Ordered parent done x ∧ (x = [] → ∀ n ∈ ns, ∃ p, parent n = some p ∧ p ∉ done) := by
  induction ns generalizing done with
  | nil =>
    refine ⟨[], (List.append_nil _).symm, rfl, List.Perm.refl _, ?_, fun _ _ h => (by cases h)⟩
    intro a n b e
    cases a <;> cases e
  | cons n ns ih =>
    unfold posePass
    cases hp : parent n with
    | none =>
      simp only
      obtain ⟨x, h1, h2, h3, h4, _⟩ := ih (done ++ [n])
      refine ⟨n :: x, ?_, ?_, (h3.cons n).trans List.perm_middle.symm, h4.cons (fun p e => ?_), fun h => (by cases h)⟩
      · rw [h1, List.append_assoc]
        rfl
      · rw [h2, List.filter_cons_of_neg]
        rw [hp]
        exact Bool.false_ne_true
      · rw [hp] at e
        cases e
    | some p =>
      simp only
      by_cases hd : p ∈ done
      · rw [if_pos hd]
        simp only
        obtain ⟨x, h1, h2, h3, h4, _⟩ := ih (done ++ [n])
        refine ⟨n :: x, ?_, ?_, (h3.cons n).trans List.perm_middle.symm, h4.cons (fun p' e => ?_), fun h => (by cases h)⟩
        · rw [h1, List.append_assoc]
          rfl
        · rw [h2, List.filter_cons_of_pos]
          rw [hp]
          rfl
        · rw [hp] at e
          injection e with e
          exact e ▸ hd
      · rw [if_neg hd]
        simp only
        obtain ⟨x, h1, h2, h3, h4, h5⟩ := ih done
        refine ⟨x, h1, h2, h3.cons n, h4, fun h m hm => ?_⟩
        rcases List.mem_cons.1 hm with rfl | hm
        · exact ⟨p, hp, hd⟩
        · exact h5 h m hm

theorem poseLoop_spec {r : ν → ℕ} (hr : ∀ n p, parent n = some p → r p < r n) (todo done : List ν) (hc : ∀ n ∈ todo, ∀ p, parent n = some p → p ∈ todo ∨ p ∈ done) :
    (poseLoop parent todo done).1 = true ∧ ∃ x, (poseLoop parent todo done).2 = x.filter (fun n => (parent n).isSome) ∧ todo.Perm x ∧ Ordered parent done x := by
  induction hk : todo.length using Nat.strong_induction_on generalizing todo done with
  | _ k ih =>
    subst hk
    unfold poseLoop
    by_cases h0 : todo.length = 0
    · rw [if_pos h0]
      rw [List.length_eq_zero_iff] at h0
      subst h0
      refine ⟨rfl, [], rfl, List.Perm.refl _, ?_⟩
      intro a n b e
      cases a <;> cases e
    · rw [if_neg h0]
      obtain ⟨x, h1, h2, h3, h4, h5⟩ := posePass_spec parent todo done
      have hlen := h3.length_eq
      rw [List.length_append] at hlen
      have hx : x ≠ [] := by
        intro e
        have h5' := h5 e
        have hstep : ∀ n ∈ todo, ∃ p ∈ todo, r p < r n := by
          intro n hn
          obtain ⟨p, hp, hnd⟩ := h5' n hn
          rcases hc n hn p hp with h | h
          · exact ⟨p, h, hr n p hp⟩
          · exact absurd h hnd
        have hno : ∀ j, ∀ n ∈ todo, r n ≤ j → False := by
          intro j
          induction j with
          | zero =>
            intro n hn hj
            obtain ⟨p, _, hlt⟩ := hstep n hn
            omega
          | succ j ihj =>
            intro n hn hj
            obtain ⟨p, hp, hlt⟩ := hstep n hn
            exact ihj p hp (by omega)
        cases todo with
        | nil => exact h0 rfl
        | cons n ns => exact hno (r n) n List.mem_cons_self le_rfl
      have hx' : 0 < x.length := List.length_pos_iff.2 hx
      have hne : ¬ (posePass parent todo done).1.length = todo.length := by omega
      simp only [dif_neg hne]
      have hc' : ∀ n ∈ (posePass parent todo done).1, ∀ p, parent n = some p → p ∈ (posePass parent todo done).1 ∨ p ∈ (posePass parent todo done).2.1 := by
        intro n hn p hp
        rw [h1, List.mem_append]
        have hn' : n ∈ todo := h3.mem_iff.2 (List.mem_append_left _ hn)
        rcases hc n hn' p hp with h | h
        · rcases List.mem_append.1 (h3.mem_iff.1 h) with h | h
          · exact Or.inl h
          · exact Or.inr (Or.inr h)
        · exact Or.inr (Or.inl h)
      obtain ⟨k1, y, k2, k3, k4⟩ := ih _ (by omega) (posePass parent todo done).1 (posePass parent todo done).2.1 hc' rfl
      refine ⟨k1, x ++ y, ?_, ?_, ?_⟩
      · rw [List.filter_append, k2, h2]
      · exact h3.trans ((List.perm_append_comm).trans (k3.append_left x))
      · rw [h1] at k4
        exact h4.append k4

end

end Simox.Dyn
