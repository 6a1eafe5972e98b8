import Verif.Kin.Lemmas

/-!
# Properties of joints, kinematic trees, configurations and frames (C30, C34, C35, C40, C41)
-/

set_option linter.unusedSectionVars false

namespace Simox.Kin

open Spec

/-! ## C34: joint limits -/

/-- With enforced limits the stored value is the point of the limit interval nearest to the request; in
particular requests inside are stored unchanged. -/
theorem C34_enforced (l : Lim) (hl : l.limitless = false) (he : l.enforce = true) (h : l.lo ≤ l.hi)
    (q : ℝ) : Nearest l.lo l.hi q (stored l q) ∧ (l.lo ≤ q → q ≤ l.hi → stored l q = q) := by
  refine ⟨?_, fun h1 h2 => stored_id h1 h2⟩
  unfold stored
  simp only [hl, Bool.false_eq_true, if_false, he, if_true]
  exact clamp_nearest h q

/-- With limits switched off every value is stored as requested. -/
theorem C34_not_enforced (l : Lim) (hl : l.limitless = false) (he : l.enforce = false) (q : ℝ) :
    stored l q = q := by
  unfold stored
  simp [hl, he]

/-- Limitless joints whose limits contain zero and span at least one turn: the stored value is inside
the limits and differs from the request by whole turns; requests inside are stored unchanged. -/
theorem C34_limitless (l : Lim) (hl : l.limitless = true) (hlo : l.lo ≤ 0) (hhi : 0 ≤ l.hi)
    (hs : 2 * Real.pi ≤ l.hi - l.lo) (q : ℝ) :
    l.lo ≤ stored l q ∧ stored l q ≤ l.hi ∧ SameAngle (stored l q) q ∧
      (l.lo ≤ q → q ≤ l.hi → stored l q = q) :=
  ⟨stored_ge hl q, stored_le hl (by unfold turn; linarith) hhi q, stored_same hl hlo q, stored_id⟩

/-- Limitless joints with a shorter interval around zero still get a value of the same angle that is not
below the lower limit (it may be above the upper one). -/
theorem C34_limitless_short (l : Lim) (hl : l.limitless = true) (hlo : l.lo ≤ 0) (q : ℝ) :
    l.lo ≤ stored l q ∧ SameAngle (stored l q) q :=
  ⟨stored_ge hl q, stored_same hl hlo q⟩

/-- If the lower limit is positive the stored angle can be wrong: with limits `[2, 2 + 2π]` the request
`1` is stored as `2π - 1`, because the code negates the remainder of the absolute value. -/
theorem C34_limitless_wrong_angle :
    ∃ (l : Lim) (q : ℝ), l.limitless = true ∧ 2 * Real.pi ≤ l.hi - l.lo ∧ ¬ SameAngle (stored l q) q := by
  have hpi := Real.two_le_pi
  have ht : turn = 2 * Real.pi := rfl
  refine ⟨⟨2, 2 + 2 * Real.pi, true, true⟩, 1, rfl, by simp, ?_⟩
  have e1 : fmod |(1 : ℝ)| turn = 1 := by
    have hz : ⌊(1 : ℝ) / turn⌋ = 0 := by
      rw [Int.floor_eq_zero_iff]
      refine ⟨div_nonneg zero_le_one turn_pos.le, ?_⟩
      rw [div_lt_one turn_pos, ht]; linarith
    unfold fmod
    rw [abs_one, if_pos (div_nonneg zero_le_one turn_pos.le), hz]
    simp
  have e : stored ⟨2, 2 + 2 * Real.pi, true, true⟩ 1 = 2 * Real.pi - 1 := by
    unfold stored
    simp only [if_true]
    rw [if_neg (by linarith : ¬ 2 + 2 * Real.pi < (1 : ℝ)), wrapDown_id (by linarith : (1 : ℝ) ≤ _),
      if_pos (by norm_num), e1, wrapUp.eq_def, dif_pos (by norm_num : (-1 : ℝ) < 2),
      wrapUp_id (by rw [ht]; linarith), ht]
    ring
  rw [e]
  rintro ⟨k, hk⟩
  -- 2π - 2 = 2πk: impossible since 0 < 2π - 2 < 2π
  have h1 : (0 : ℝ) < k := by
    by_contra hc
    have : (k : ℝ) * (2 * Real.pi) ≤ 0 := mul_nonpos_of_nonpos_of_nonneg (not_lt.1 hc) (by linarith)
    linarith
  have h2 : (k : ℝ) < 1 := by
    by_contra hc
    have : 2 * Real.pi ≤ (k : ℝ) * (2 * Real.pi) := by nlinarith [not_lt.1 hc]
    linarith
  have h3 : (0 : ℤ) < k := by exact_mod_cast h1
  have h4 : k < (1 : ℤ) := by exact_mod_cast h2
  omega

/-- If the upper limit is negative the stored value can violate the limits: with limits
`[-1 - 4π, -1 - 2π]` the request `-2 - 4π` is stored as `-2`. -/
theorem C34_limitless_out_of_limits :
    ∃ (l : Lim) (q : ℝ), l.limitless = true ∧ 2 * Real.pi ≤ l.hi - l.lo ∧ l.hi < stored l q := by
  have hpi := Real.two_le_pi
  have ht : turn = 2 * Real.pi := rfl
  refine ⟨⟨-1 - 4 * Real.pi, -1 - 2 * Real.pi, true, true⟩, -2 - 4 * Real.pi, rfl, ?_, ?_⟩
  · simp only []; linarith
  · have e1 : fmod |-2 - 4 * Real.pi| turn = 2 := by
      have hz : ⌊(2 + 4 * Real.pi) / turn⌋ = 2 := by
        rw [Int.floor_eq_iff, le_div_iff₀ turn_pos, div_lt_iff₀ turn_pos, ht]
        constructor <;> push_cast <;> linarith
      have ha : |-2 - 4 * Real.pi| = 2 + 4 * Real.pi := by
        rw [abs_of_nonpos (by linarith)]; ring
      unfold fmod
      rw [ha, if_pos (div_nonneg (by linarith) turn_pos.le), hz, ht]
      push_cast
      ring
    have e : stored ⟨-1 - 4 * Real.pi, -1 - 2 * Real.pi, true, true⟩ (-2 - 4 * Real.pi) = -2 := by
      unfold stored
      simp only [if_true]
      rw [if_neg (by linarith : ¬ -1 - 2 * Real.pi < -2 - 4 * Real.pi), wrapDown_id (by linarith),
        if_pos (by linarith), e1, wrapUp_id (by linarith)]
    rw [e]
    simp only []
    linarith

/-- The setter used before initialisation is right for all limits that span a turn, and clamps whether or
not limits are enforced. -/
theorem C34_before_initialization (l : Lim) (q : ℝ) :
    (l.limitless = true → 2 * Real.pi ≤ l.hi - l.lo →
      l.lo ≤ storedNotInitialized l q ∧ storedNotInitialized l q ≤ l.hi ∧
        SameAngle (storedNotInitialized l q) q) ∧
    (l.limitless = false → l.lo ≤ l.hi → Nearest l.lo l.hi q (storedNotInitialized l q)) := by
  constructor
  · intro hl hs
    unfold storedNotInitialized
    simp only [hl, if_true]
    refine ⟨wrapUp_ge _ _, ?_, SameAngle.trans' (wrapUp_same _ _) (wrapDown_same _ _)⟩
    by_cases h : wrapDown l.hi q < l.lo
    · have := wrapUp_lt h; unfold turn at this; linarith
    · rw [wrapUp_id (not_lt.1 h)]; exact wrapDown_le _ _
  · intro hl h
    unfold storedNotInitialized
    simp only [hl, Bool.false_eq_true, if_false]
    exact clamp_nearest h q

/-- `checkJointLimits` accepts exactly the values inside the limits, and `respectJointLimits` moves a
value to the nearest one it accepts. -/
theorem C34_check (l : Lim) (q : ℝ) :
    (checkJointLimits l q = true ↔ l.lo ≤ q ∧ q ≤ l.hi) ∧
    (l.lo ≤ l.hi → Nearest l.lo l.hi q (respectJointLimits l q) ∧
      checkJointLimits l (respectJointLimits l q) = true) := by
  have h : ∀ x, checkJointLimits l x = true ↔ l.lo ≤ x ∧ x ≤ l.hi := by
    intro x
    unfold checkJointLimits
    by_cases h1 : x < l.lo
    · simp [h1]
    · by_cases h2 : l.hi < x
      · simp [h2]
      · simp [h1, h2, not_lt.1 h1, not_lt.1 h2]
  exact ⟨h q, fun hh => ⟨clamp_nearest hh q, (h _).2 ⟨(clamp_nearest hh q).1, (clamp_nearest hh q).2.1⟩⟩⟩

/-- `getDelta` on a joint with limits: the difference to an admissible target, zero for other targets. -/
theorem C34_delta_limits (l : Lim) (hl : l.limitless = false) (v t : ℝ) :
    (l.lo ≤ t → t ≤ l.hi → getDelta l v t = t - v) ∧ ((t < l.lo ∨ l.hi < t) → getDelta l v t = 0) := by
  constructor
  · intro h1 h2
    unfold getDelta
    simp [hl, not_lt.2 h1, not_lt.2 h2]
  · intro h
    unfold getDelta
    simp [hl, h]

/-- `getDelta` on a limitless joint always leads to the target angle, and takes the short way round
whenever the target is less than one and a half turns from the current value. -/
theorem C34_delta_limitless (l : Lim) (hl : l.limitless = true) (v t : ℝ) :
    SameAngle (v + getDelta l v t) t ∧ (|t - v| ≤ 3 * Real.pi → |getDelta l v t| ≤ Real.pi) := by
  have hpi := Real.pi_pos
  unfold getDelta
  simp only [hl, Bool.not_true, Bool.false_eq_true, false_and, if_false, true_and]
  by_cases h : Real.pi < |t - v|
  · rw [if_pos h]
    rcases lt_or_ge 0 (t - v) with h0 | h0
    · rw [abs_of_pos h0] at h ⊢
      simp only [h0, if_true, not_lt.2 h0.le, if_false, sub_zero]
      refine ⟨⟨-1, by push_cast; ring⟩, fun h3 => ?_⟩
      rw [abs_le]; constructor <;> linarith
    · have h0' : t - v < 0 := by
        rcases h0.lt_or_eq with h1 | h1
        · exact h1
        · rw [h1, abs_zero] at h; linarith
      rw [abs_of_neg h0'] at h ⊢
      simp only [not_lt.2 h0, if_false, h0', if_true]
      refine ⟨⟨1, by push_cast; ring⟩, fun h3 => ?_⟩
      rw [abs_le]; constructor <;> linarith
  · rw [if_neg h]
    exact ⟨⟨0, by push_cast; ring⟩, fun _ => not_lt.1 h⟩

/-- Farther targets are not taken the short way: from `0` to two full turns the difference is a full turn
although the joint is already there. -/
theorem C34_delta_not_shortest :
    ∃ (l : Lim) (v t : ℝ), l.limitless = true ∧ SameAngle v t ∧ |getDelta l v t| = 2 * Real.pi := by
  have hpi := Real.pi_pos
  refine ⟨⟨-Real.pi, Real.pi, true, true⟩, 0, 4 * Real.pi, rfl, ⟨-2, by push_cast; ring⟩, ?_⟩
  unfold getDelta
  have h1 : (0 : ℝ) < 4 * Real.pi := by linarith
  have h2 : Real.pi < |4 * Real.pi| := by rw [abs_of_pos h1]; linarith
  simp only [Bool.not_true, Bool.false_eq_true, false_and, if_false, sub_zero, true_and, h2, if_true, h1,
    not_lt.2 h1.le]
  rw [abs_of_pos h1]
  have : (-1 : ℝ) * 1 * (2 * Real.pi - 4 * Real.pi) = 2 * Real.pi := by ring
  rw [this, abs_of_pos (by linarith)]

example : ∃ l : Lim, l.limitless = true ∧ l.lo ≤ 0 ∧ 0 ≤ l.hi ∧ 2 * Real.pi ≤ l.hi - l.lo ∧
    ¬ (10 : ℝ) ≤ l.hi :=
  ⟨⟨-Real.pi, Real.pi, true, true⟩, rfl, by simp [Real.pi_pos.le], Real.pi_pos.le, by simp; linarith,
    by have := Real.pi_le_four; simp only []; linarith⟩

/-! ## C35: forward kinematics -/

variable {G : Type} [Group G]

/-- After a batch of joint values has been set on the robot every node is where forward kinematics puts
it, whatever the state was before; each listed joint has the last value given for it (limited), unknown
names are skipped, all other joints keep their value, and the robot does not move. -/
theorem C35_set_joint_values (r : Robot G) (hn : Names r) (m : List (Nat × ℝ)) (s : St G) :
    FK r (setJointValues r m s) ∧ (setJointValues r m s).base = s.base ∧
    ∀ n ∈ r.tree.ids, (setJointValues r m s).value n =
      match lastFor m n with
      | some q => stored (r.lim n) q
      | none => s.value n := by
  refine ⟨apply_fk r hn _, ?_, fun n h => ?_⟩
  · rw [setJointValues, apply_base, fold_set_skip, fold_set_base]
  · rw [setJointValues, apply_value, fold_set_skip, fold_set_value, lastFor_filter r n h]
    rfl

/-- Setting one joint keeps the poses consistent, also through any propagation to other joints. -/
theorem C35_set_joint_value (r : Robot G) (hn : Names r) (fuel n : Nat) (hm : n ∈ r.tree.ids) (q : ℝ)
    (s s' : St G) (h : FK r s) (hs : setJointValue r fuel n q s = some s') :
    FK r s' ∧ s'.base = s.base := by
  have := updatePose_fk hn fuel n _ s' (setNoUpdate_but h hm q) hs
  exact ⟨this.1, this.2⟩

/-- Setting a joint without propagation moves only the nodes below it and changes only its value. -/
theorem C35_moves_only_below (r : Robot G) (fuel n : Nat) (q : ℝ) (s s' : St G)
    (hp : r.prop n = []) (hs : setJointValue r fuel n q s = some s') :
    (∀ j, j ∉ sub n r.tree → s'.pose j = s.pose j) ∧
    s'.value n = stored (r.lim n) q ∧ ∀ j, j ≠ n → s'.value j = s.value j := by
  cases fuel with
  | zero => simp [setJointValue, updatePose] at hs
  | succ fuel =>
    rw [setJointValue, updatePose_noprop hp] at hs
    simp only [Option.some.injEq] at hs
    subst hs
    exact ⟨fun j hj => updAt_outside _ _ n _ _ _ j hj, setNoUpdate_value_self r n q s,
      fun j hj => setNoUpdate_value_ne r hj q s⟩

/-- Setting joints through a node set whose kinematic root is above all of them keeps the poses
consistent; a vector of the wrong size throws. -/
theorem C35_node_set (r : Robot G) (hn : Names r) (ns : NodeSet) (hg : GoodRoot r ns) (fuel : Nat)
    (v : List ℝ) (s s' : St G) (h : FK r s) (hs : ns.setJointValues r fuel v s = .ok s') :
    FK r s' ∧ v.length = ns.nodes.length := by
  unfold NodeSet.setJointValues at hs
  by_cases hl : v.length ≠ ns.nodes.length
  · simp [hl] at hs
  · rw [if_neg hl] at hs
    rcases hu : ns.update r fuel ((ns.nodes.zip v).foldl (fun s e => setNoUpdate r e.1 e.2 s) s) with _ | t
    · simp [hu] at hs
    · simp only [hu, Res.ok.injEq] at hs
      subst hs
      exact ⟨update_fk hn hg h (fun e he => (List.of_mem_zip he).1) hu, not_not.1 hl⟩

/-- Node sets made by the constructor have a good kinematic root, whatever root was asked for. -/
theorem C35_constructor_root (r : Robot G) (nodes : List Nat) (k : Option Nat)
    (h : ∀ n ∈ nodes, n ∈ r.tree.ids) :
    GoodRoot r (mkNodeSet r nodes k) ∧ (mkNodeSet r nodes k).nodes = nodes ∧
      ∀ k', k = some k' → (∀ n ∈ nodes, n ∈ sub k' r.tree) → (mkNodeSet r nodes k).root = some k' := by
  refine ⟨?_, ?_, ?_⟩
  · intro k' hk'
    unfold mkNodeSet at hk' ⊢
    by_cases hr : isKinematicRoot r nodes (k.getD (rootId r.tree)) = true
    · simp only [hr, if_true, Option.some.injEq] at hk' ⊢
      unfold isKinematicRoot at hr
      rw [decide_eq_true_iff] at hr
      exact hk' ▸ hr
    · simp only [hr, Bool.false_eq_true, if_false, Option.some.injEq] at hk' ⊢
      intro n hn
      rw [← hk', rootId_sub]
      exact h n hn
  · unfold mkNodeSet; dsimp only; split <;> rfl
  · rintro k' rfl hk'
    have hr : isKinematicRoot r nodes k' = true := decide_eq_true hk'
    unfold mkNodeSet
    simp [hr]

/-- Moving the robot re-establishes consistent poses. -/
theorem C35_set_global_pose (r : Robot G) (hn : Names r) (p : G) (s : St G) :
    FK r (setGlobalPose r p true s) ∧ (setGlobalPose r p true s).base = p ∧
      (setGlobalPose r p true s).value = s.value :=
  ⟨apply_fk r hn _, rfl, rfl⟩

/-- Histories: poses stay consistent under any sequence of calls that set joints (singly, in batches,
through node sets with a good root, from configurations) or move the robot. -/
theorem C35_history (r : Robot G) (hn : Names r) (fuel : Nat) (ops : List (Op G))
    (hg : ∀ op ∈ ops, op.Good r) (s s' : St G) (h : FK r s)
    (hr : ops.foldlM (fun s op => op.run r fuel s) s = some s') : FK r s' := by
  refine foldlM_inv (FK r) ops s s' h ?_ hr
  intro b op b' hop hb he
  have hgo := hg op hop
  cases op with
  | setJointValue n q => exact (C35_set_joint_value r hn fuel n hgo q b b' hb he).1
  | setJointValues m =>
    simp only [Op.run, Option.some.injEq] at he
    exact he ▸ (C35_set_joint_values r hn m b).1
  | nodeSet ns v =>
    simp only [Op.run] at he
    rcases hs : ns.setJointValues r fuel v b with t | _ | _
    · rw [hs] at he
      simp only [Option.some.injEq] at he
      exact he ▸ (C35_node_set r hn ns hgo fuel v b t hb hs).1
    · rw [hs] at he
      simp only [Option.some.injEq] at he
      exact he ▸ hb
    · rw [hs] at he; simp at he
  | nodeSetConfig ns c =>
    simp only [Op.run, NodeSet.setConfig, nodeset_fold] at he
    exact update_fk hn hgo hb (l := ns.entries c) entries_mem he
  | setConfig c =>
    simp only [Op.run, robotSetConfig, Option.some.injEq] at he
    subst he
    unfold Cfg.applyTo
    split
    · exact apply_fk r hn _
    · exact hb
  | setGlobalPose p =>
    simp only [Op.run, Option.some.injEq] at he
    exact he ▸ (C35_set_global_pose r hn p b).1

/-! ### Propagated joints -/

/-- Without cyclic propagation setting a joint terminates. -/
theorem C35_propagation_terminates (r : Robot G) (rank : Nat → Nat) (hr : Acyclic r rank) (n : Nat) (q : ℝ)
    (s : St G) : ∃ s', setJointValue r (rank n + 1) n q s = some s' :=
  updatePose_terminates hr _ n _ (by omega)

/-- If no joint is driven by two others and there is no cycle, then setting a free joint keeps every driven
joint at its source's value times the factor, and the joint itself gets the requested value (limited). -/
theorem C35_propagation (r : Robot G) (rank : Nat → Nat) (hr : Acyclic r rank) (ho : OneSource r)
    (fuel n : Nat) (hf : Free r n) (q : ℝ) (s s' : St G) (hp : Propagated r s)
    (hs : setJointValue r fuel n q s = some s') :
    Propagated r s' ∧ s'.value n = stored (r.lim n) q := by
  obtain ⟨h1, h2, h3⟩ := updatePose_values hr ho fuel n _ s' hs
  refine ⟨fun x m c hx hm hl => ?_, by rw [h3 n (le_refl _), setNoUpdate_value_self]⟩
  by_cases hxn : x = n
  · subst hxn
    exact h1 m c ⟨hl, hm⟩
  · refine h2 x m c ⟨hl, hm⟩ ?_
    have hmn : m ≠ n := fun e => hf x c (e ▸ hl)
    unfold LinkOk
    rw [setNoUpdate_value_ne r hmn, setNoUpdate_value_ne r hxn]
    exact hp x m c hx hm hl

/-- A robot with a base node `0` and two revolute-like joints `1` and `2` below it; joint `1` drives joint
`2` with factor `2` and, if `cyc`, joint `2` drives joint `1`. Poses are the additive reals. -/
noncomputable def twoJoints (cyc : Bool) : Robot (Multiplicative ℝ) where
  tree := .node 0 [.node 1 [], .node 2 []]
  loc := fun i q => if i = 0 then 1 else Multiplicative.ofAdd q
  lim := fun _ => ⟨-100, 100, false, true⟩
  prop := fun i => if i = 1 then [(2, 2)] else if i = 2 ∧ cyc then [(1, 1)] else []

/-- Initial state of the example robot. -/
noncomputable def zeroSt : St (Multiplicative ℝ) := ⟨1, fun _ => 0, fun _ => 1⟩

/-- Cyclic propagation never terminates: the recursion exceeds every bound. -/
theorem C35_cyclic_propagation_diverges :
    ∃ r : Robot (Multiplicative ℝ), Names r ∧ ∀ fuel q s, setJointValue r fuel 1 q s = none := by
  refine ⟨twoJoints true, by simp [Names, twoJoints, Tree.ids, idsL], ?_⟩
  have key : ∀ fuel n s, (n = 1 ∨ n = 2) → updatePose (twoJoints true) fuel n s = none := by
    intro fuel
    induction fuel with
    | zero => intro n s _; rfl
    | succ fuel ih =>
      intro n s hn
      rw [updatePose_succ]
      rcases hn with rfl | rfl
      · have e : (twoJoints true).prop 1 = [(2, 2)] := by simp [twoJoints]
        rw [e]
        have hm : 2 ∈ (twoJoints true).tree.ids := by simp [twoJoints, Tree.ids, idsL]
        simp only [List.foldlM_cons, hm, if_true, ih 2 _ (Or.inr rfl)]
        rfl
      · have e : (twoJoints true).prop 2 = [(1, 1)] := by simp [twoJoints]
        rw [e]
        have hm : 1 ∈ (twoJoints true).tree.ids := by simp [twoJoints, Tree.ids, idsL]
        simp only [List.foldlM_cons, hm, if_true, ih 1 _ (Or.inl rfl)]
        rfl
  exact fun fuel q s => key fuel 1 _ (Or.inl rfl)

/-- Batches do not propagate: after setting joint `1` in a batch the joint it drives has not followed,
although setting it singly makes it follow. -/
theorem C35_batch_does_not_propagate :
    ∃ (r : Robot (Multiplicative ℝ)) (s : St (Multiplicative ℝ)), Names r ∧ FK r s ∧ Propagated r s ∧
      ¬ Propagated r (setJointValues r [(1, 3)] s) ∧
      ∃ s', setJointValue r 2 1 3 s = some s' ∧ Propagated r s' := by
  have hn : Names (twoJoints false) := by simp [Names, twoJoints, Tree.ids, idsL]
  have hrank : Acyclic (twoJoints false) (fun i => if i = 1 then 1 else 0) := by
    intro n m c h _
    simp only [twoJoints] at h
    by_cases h1 : n = 1
    · simp only [h1, if_true, List.mem_singleton, Prod.mk.injEq] at h
      simp [h1, h.1]
    · simp [h1] at h
  have hone : OneSource (twoJoints false) := by
    intro n n' m c c' h h'
    simp only [twoJoints] at h h'
    by_cases h1 : n = 1 <;> by_cases h2 : n' = 1
    · simp only [h1, h2, if_true, List.mem_singleton, Prod.mk.injEq] at h h'
      exact ⟨h1.trans h2.symm, h.2.trans h'.2.symm⟩
    all_goals simp_all
  have hfree : Free (twoJoints false) 1 := by
    intro m c h
    simp only [twoJoints] at h
    by_cases h1 : m = 1 <;> simp [h1] at h
  let s : St (Multiplicative ℝ) := applyJointValues (twoJoints false) zeroSt
  have hp : Propagated (twoJoints false) s := by
    intro n m c _ _ h
    simp only [twoJoints] at h
    by_cases h1 : n = 1
    · simp only [h1, if_true, List.mem_singleton, Prod.mk.injEq] at h
      obtain ⟨rfl, rfl⟩ := h
      change (0 : ℝ) = stored _ (0 * 2)
      rw [zero_mul, stored_id] <;> simp [twoJoints]
    · simp [h1] at h
  obtain ⟨s', hs'⟩ := C35_propagation_terminates (twoJoints false) _ hrank 1 3 s
  have hs2 : setJointValue (twoJoints false) 2 1 3 s = some s' := by simpa using hs'
  refine ⟨twoJoints false, s, hn, apply_fk _ hn _, hp, ?_, s', hs2,
    (C35_propagation _ _ hrank hone 2 1 hfree 3 s s' hp hs2).1⟩
  intro h
  have h1 := h 1 2 2 (by simp [twoJoints, Tree.ids, idsL]) (by simp [twoJoints, Tree.ids, idsL])
    (by simp [twoJoints])
  have v2 := (C35_set_joint_values (twoJoints false) hn [(1, 3)] s).2.2 2
    (by simp [twoJoints, Tree.ids, idsL])
  have v1 := (C35_set_joint_values (twoJoints false) hn [(1, 3)] s).2.2 1
    (by simp [twoJoints, Tree.ids, idsL])
  simp only [lastFor_cons, lastFor_nil] at v1 v2
  simp only [show ¬ (1 = 2) by decide, if_false, if_true, Option.or] at v1 v2
  rw [v2, v1] at h1
  have e3 : stored ((twoJoints false).lim 1) 3 = 3 := stored_id (by norm_num [twoJoints]) (by norm_num [twoJoints])
  have e6 : stored ((twoJoints false).lim 2) (3 * 2) = 3 * 2 :=
    stored_id (by norm_num [twoJoints]) (by norm_num [twoJoints])
  rw [e3, e6] at h1
  change (0 : ℝ) = 3 * 2 at h1
  norm_num at h1

/-- `setKinematicRoot` does not check its argument: with a root that is not above the set's joints, setting
joint values through the set leaves poses that do not fit the joint values. -/
theorem C35_wrong_root_breaks_poses :
    ∃ (r : Robot (Multiplicative ℝ)) (ns : NodeSet) (s s' : St (Multiplicative ℝ)), Names r ∧ FK r s ∧
      GoodRoot r ns ∧ (ns.setKinematicRoot (some 2)).setJointValues r 1 [3] s = .ok s' ∧ ¬ FK r s' := by
  have hn : Names (twoJoints false) := by simp [Names, twoJoints, Tree.ids, idsL]
  let s : St (Multiplicative ℝ) := applyJointValues (twoJoints false) zeroSt
  have hu : updatePose (twoJoints false) 1 2 (setNoUpdate (twoJoints false) 1 3 s) =
      some { (setNoUpdate (twoJoints false) 1 3 s) with
        pose := updAt (twoJoints false).loc (setNoUpdate (twoJoints false) 1 3 s).value 2
          (twoJoints false).tree s.base s.pose } :=
    updatePose_noprop (by simp [twoJoints]) 0 _
  refine ⟨twoJoints false, ⟨[1], some 1⟩, s,
    { (setNoUpdate (twoJoints false) 1 3 s) with
        pose := updAt (twoJoints false).loc (setNoUpdate (twoJoints false) 1 3 s).value 2
          (twoJoints false).tree s.base s.pose }, hn, apply_fk _ hn _, ?_, ?_, ?_⟩
  · intro k hk n hnn
    simp only [Option.some.injEq] at hk
    subst hk
    simp only [List.mem_singleton] at hnn
    subst hnn
    simp [twoJoints, sub, subL, Tree.ids, idsL]
  · simp only [NodeSet.setJointValues, NodeSet.setKinematicRoot, NodeSet.update, List.length_singleton,
      ne_eq, not_true_eq_false, if_false, List.zip_cons_cons, List.zip_nil_right, List.foldl_cons,
      List.foldl_nil]
    rw [hu]
  · intro h
    have h1 := h 1 [0, 1] (Chain.step 0 _ (.node 1 []) 1 [1] (by simp) (Chain.here 1 []))
    have e3 : stored ((twoJoints false).lim 1) 3 = 3 :=
      stored_id (by norm_num [twoJoints]) (by norm_num [twoJoints])
    have hv : (setNoUpdate (twoJoints false) 1 3 s).value 1 = 3 := by rw [setNoUpdate_value_self, e3]
    have hs1 : s.pose 1 = 1 := by
      simp [s, applyJointValues, twoJoints, updTree, updList, upd, zeroSt]
    have h0 : updAt (twoJoints false).loc (setNoUpdate (twoJoints false) 1 3 s).value 2
        (twoJoints false).tree s.base s.pose 1 = 1 := by
      rw [updAt_outside _ _ 2 _ _ _ 1 (by simp [twoJoints, sub, subL, Tree.ids, idsL]), hs1]
    have h2 : (1 : Multiplicative ℝ) = Multiplicative.ofAdd 3 := by
      refine (h0.symm.trans h1).trans ?_
      change (1 : Multiplicative ℝ) * (1 * (Multiplicative.ofAdd ((setNoUpdate (twoJoints false) 1 3 s).value 1) * 1)) = _
      rw [hv]
      simp
    have h3 : (0 : ℝ) = 3 := congrArg Multiplicative.toAdd h2
    norm_num at h3

example : ∃ s', setJointValue (twoJoints false) 5 1 3 zeroSt = some s' ∧ s'.value 1 = 3 := by
  refine ⟨_, rfl, ?_⟩
  simp [twoJoints, setNoUpdate, upd, stored, clamp]
  norm_num

/-- A history with all kinds of calls on the example robot. -/
noncomputable def demoOps : List (Op (Multiplicative ℝ)) :=
  [.setJointValue 1 3, .setJointValues [(2, 1), (9, 4)], .nodeSet ⟨[1, 2], some 0⟩ [1, 2],
    .nodeSet ⟨[1], some 1⟩ [1, 2], .nodeSetConfig ⟨[2], some 2⟩ [(2, 1)], .setConfig [(1, 5)],
    .setGlobalPose (Multiplicative.ofAdd 7)]

example : Names (twoJoints false) ∧ FK (twoJoints false) (applyJointValues (twoJoints false) zeroSt) ∧
    (∀ op ∈ demoOps, op.Good (twoJoints false)) := by
  have hn : Names (twoJoints false) := by simp [Names, twoJoints, Tree.ids, idsL]
  refine ⟨hn, apply_fk _ hn _, ?_⟩
  simp [demoOps, Op.Good, GoodRoot, twoJoints, sub, subL, Tree.ids, idsL]

/-! ## C30: robot configurations -/

/-- Applying a configuration to a robot is all or nothing: if the robot has all its joints, the call
succeeds, every listed joint has the stored value (limited), every other joint keeps its value and the
poses are consistent; otherwise it reports failure and nothing changes. -/
theorem C30_all_or_nothing (r : Robot G) (hn : Names r) (c : Cfg) (hk : Keys c) (s : St G) :
    ((∀ e ∈ c, e.1 ∈ r.tree.ids) ∧ (c.applyTo r s).2 = true ∧ FK r (c.applyTo r s).1 ∧
      (∀ n q, (n, q) ∈ c → (c.applyTo r s).1.value n = stored (r.lim n) q) ∧
      (∀ n, (∀ q, (n, q) ∉ c) → (c.applyTo r s).1.value n = s.value n) ∧
      (c.applyTo r s).1.base = s.base) ∨
    ((∃ e ∈ c, e.1 ∉ r.tree.ids) ∧ c.applyTo r s = (s, false)) := by
  by_cases h : ∀ e ∈ c, e.1 ∈ r.tree.ids
  · refine Or.inl ⟨h, ?_⟩
    unfold Cfg.applyTo
    rw [if_pos h]
    refine ⟨rfl, apply_fk r hn _, fun n q hq => ?_, fun n hno => ?_, ?_⟩
    · rw [apply_value, fold_set_value, lastFor_keys hk hq]
    · rw [apply_value, fold_set_value]
      have : lastFor c n = none := lastFor_none.2 fun e he hen => hno e.2 (hen ▸ he)
      rw [this]
    · rw [apply_base, fold_set_base]
  · refine Or.inr ⟨?_, ?_⟩
    · push Not at h; exact h
    · unfold Cfg.applyTo; rw [if_neg h]

/-- The same on the configuration's own robot; only a deleted robot makes the call fail. -/
theorem C30_own_robot (r : Robot G) (hn : Names r) (c : Cfg) (hk : Keys c) (s : St G) :
    c.applyOwn r false s = (s, false) ∧ (c.applyOwn r true s).2 = true ∧ FK r (c.applyOwn r true s).1 ∧
      (∀ n q, (n, q) ∈ c → (c.applyOwn r true s).1.value n = stored (r.lim n) q) ∧
      (∀ n, (∀ q, (n, q) ∉ c) → (c.applyOwn r true s).1.value n = s.value n) := by
  refine ⟨rfl, rfl, apply_fk r hn _, fun n q hq => ?_, fun n hno => ?_⟩
  · change (applyJointValues r _).value n = _
    rw [apply_value, fold_set_value, lastFor_keys hk hq]
  · change (applyJointValues r _).value n = _
    rw [apply_value, fold_set_value]
    have : lastFor c n = none := lastFor_none.2 fun e he hen => hno e.2 (hen ▸ he)
    rw [this]

/-- Setting an entry stores the value exactly when the robot has the joint, reports that, and touches no
other entry. -/
theorem C30_set_get (r : Robot G) (c : Cfg) (hk : Keys c) (n : Nat) (v : ℝ) :
    ((c.setConfig r true n v).2 = true ↔ n ∈ r.tree.ids) ∧
    (n ∈ r.tree.ids → (c.setConfig r true n v).1.has n = true ∧ (c.setConfig r true n v).1.getConfig true n = v) ∧
    (n ∉ r.tree.ids → (c.setConfig r true n v).1 = c) ∧
    c.setConfig r false n v = (c, false) ∧
    (∀ m, m ≠ n → (c.setConfig r true n v).1.has m = c.has m ∧
      (c.setConfig r true n v).1.getConfig true m = c.getConfig true m) ∧
    Keys (c.setConfig r true n v).1 := by
  have hput : ∀ m, (c.put n v).has m = true ↔ m = n ∨ c.has m = true := by
    intro m; rw [has_iff, put_mem_key, has_iff]
  unfold Cfg.setConfig
  by_cases h : n ∈ r.tree.ids
  · simp only [Bool.not_true, Bool.false_eq_true, if_false, h, if_true, not_true_eq_false, false_implies,
      true_implies, true_and, Bool.not_false]
    refine ⟨⟨(hput n).2 (Or.inl rfl), ?_⟩, fun m hm => ?_, put_keys hk n v⟩
    · unfold Cfg.getConfig
      rw [(hput n).2 (Or.inl rfl), put_find]
      simp
    · have e : (c.put n v).has m = c.has m := by
        rw [Bool.eq_iff_iff, hput]; simp [hm]
      refine ⟨e, ?_⟩
      unfold Cfg.getConfig
      rw [e, put_find, if_neg hm]
  · simp [h, hk]

/-- Every configuration made through the API has one entry per joint, and only joints of its robot. -/
theorem C30_well_formed (r : Robot G) (l : List (Nat × ℝ)) :
    Keys (Cfg.make r l) ∧ ∀ e ∈ Cfg.make r l, e.1 ∈ r.tree.ids := by
  unfold Cfg.make
  have : ∀ (l : List (Nat × ℝ)) (c : Cfg), Keys c ∧ (∀ e ∈ c, e.1 ∈ r.tree.ids) →
      Keys (l.foldl (fun c e => (c.setConfig r true e.1 e.2).1) c) ∧
        ∀ e ∈ l.foldl (fun c e => (c.setConfig r true e.1 e.2).1) c, e.1 ∈ r.tree.ids := by
    intro l
    induction l with
    | nil => exact fun c h => h
    | cons e l ih =>
      intro c h
      refine ih _ ⟨(C30_set_get r c h.1 e.1 e.2).2.2.2.2.2, fun e' he' => ?_⟩
      by_cases hm : e.1 ∈ r.tree.ids
      · simp only [Cfg.setConfig, hm, if_true, Bool.not_true, Bool.false_eq_true, if_false] at he'
        have := (put_mem_key c e.1 e'.1 e.2).1 (List.mem_map.2 ⟨e', he', rfl⟩)
        rcases this with h1 | h1
        · exact h1 ▸ hm
        · obtain ⟨e2, he2, h2⟩ := List.mem_map.1 h1
          exact h2 ▸ h.2 e2 he2
      · have he2 : e' ∈ (c.setConfig r true e.1 e.2).1 := he'
        rw [(C30_set_get r c h.1 e.1 e.2).2.2.1 hm] at he2
        have he' := he2
        exact h.2 e' he'
  exact this l [] ⟨by simp [Keys], by simp⟩

/-- Cloning a configuration for another robot keeps exactly the entries of joints the new robot has. -/
theorem C30_clone (r' : Robot G) (c : Cfg) (hk : Keys c) :
    Keys (c.clone r') ∧ ∀ n v, (n, v) ∈ c.clone r' ↔ (n, v) ∈ c ∧ n ∈ r'.tree.ids := by
  unfold Cfg.clone
  have key : ∀ (c d : Cfg), Keys d → Keys c → (∀ e ∈ c, e.1 ∉ d.map Prod.fst) →
      Keys (c.foldl (fun d e => if e.1 ∈ r'.tree.ids then d.put e.1 e.2 else d) d) ∧
      ∀ n v, (n, v) ∈ c.foldl (fun d e => if e.1 ∈ r'.tree.ids then d.put e.1 e.2 else d) d ↔
        (n, v) ∈ d ∨ ((n, v) ∈ c ∧ n ∈ r'.tree.ids) := by
    intro c
    induction c with
    | nil => intro d hd _ _; simp [hd]
    | cons e c ih =>
      intro d hd hc hdis
      unfold Keys at hc
      simp only [List.map_cons, List.nodup_cons] at hc
      simp only [List.foldl_cons]
      by_cases hm : e.1 ∈ r'.tree.ids
      · simp only [hm, if_true]
        have hd2 := put_keys hd e.1 e.2
        obtain ⟨i1, i2⟩ := ih (d.put e.1 e.2) hd2 hc.2 (fun e' he' h => by
          rcases (put_mem_key d e.1 e'.1 e.2).1 h with h | h
          · exact hc.1 (h ▸ List.mem_map.2 ⟨e', he', rfl⟩)
          · exact hdis e' (by simp [he']) h)
        refine ⟨i1, fun n v => (i2 n v).trans ?_⟩
        have hmem : (n, v) ∈ d.put e.1 e.2 ↔ (n, v) ∈ d ∨ (n, v) = e := by
          constructor
          · intro h
            have h1 := mem_find hd2 h
            rw [put_find] at h1
            by_cases hne : n = e.1
            · simp only [hne, if_true, Option.some.injEq] at h1
              exact Or.inr (Prod.ext hne h1.symm)
            · rw [if_neg hne] at h1
              exact Or.inl (find_mem h1)
          · intro h
            refine find_mem ?_
            rw [put_find]
            rcases h with h | h
            · have hne : n ≠ e.1 := fun e2 => hdis e (by simp) (e2 ▸ List.mem_map.2 ⟨(n, v), h, rfl⟩)
              rw [if_neg hne]
              exact mem_find hd h
            · rw [← h]; simp
        rw [hmem, List.mem_cons]
        constructor
        · rintro ((h | h) | h)
          · exact Or.inl h
          · exact Or.inr ⟨Or.inl h, by rw [← h] at hm; exact hm⟩
          · exact Or.inr ⟨Or.inr h.1, h.2⟩
        · rintro (h | ⟨h | h, h2⟩)
          · exact Or.inl (Or.inl h)
          · exact Or.inl (Or.inr h)
          · exact Or.inr ⟨h, h2⟩
      · simp only [hm, if_false]
        obtain ⟨i1, i2⟩ := ih d hd hc.2 (fun e' he' => hdis e' (by simp [he']))
        refine ⟨i1, fun n v => (i2 n v).trans ?_⟩
        rw [List.mem_cons]
        constructor
        · rintro (h | h)
          · exact Or.inl h
          · exact Or.inr ⟨Or.inr h.1, h.2⟩
        · rintro (h | ⟨h | h, h2⟩)
          · exact Or.inl h
          · exact absurd h2 (by rw [← h] at hm; exact hm)
          · exact Or.inr ⟨h, h2⟩
  have := key c [] (by simp [Keys]) hk (by simp)
  simpa using this

/-- Saving and restoring: the configuration read from a robot whose joint values are admissible restores,
on any later state of the same robot, all joint values, and with the robot at its old place all poses;
nodes that are no joints have poses that do not depend on a joint value. -/
theorem C30_save_restore (r : Robot G) (hn : Names r) (isJoint : Nat → Bool)
    (hj : ∀ n, isJoint n = false → ∀ a b, r.loc n a = r.loc n b) (s t : St G) (hs : FK r s)
    (hv : ∀ n ∈ r.tree.ids, stored (r.lim n) (s.value n) = s.value n) :
    (∀ n ∈ r.tree.ids, isJoint n = true →
      (robotSetConfig r (robotGetConfig r isJoint s) t).1.value n = s.value n) ∧
    (t.base = s.base → ∀ n ∈ r.tree.ids,
      (robotSetConfig r (robotGetConfig r isJoint s) t).1.pose n = s.pose n) := by
  have key : ∀ (l : List Nat) (c : Cfg), Keys c →
      (∀ e ∈ c, e.1 ∈ r.tree.ids ∧ isJoint e.1 = true ∧ e.2 = s.value e.1) →
      (∀ n ∈ l, n ∈ r.tree.ids ∧ isJoint n = true) →
      Keys (l.foldl (fun c n => c.put n (s.value n)) c) ∧
      (∀ e ∈ l.foldl (fun c n => c.put n (s.value n)) c,
        e.1 ∈ r.tree.ids ∧ isJoint e.1 = true ∧ e.2 = s.value e.1) ∧
      ∀ n, (n ∈ l ∨ n ∈ c.map Prod.fst) → n ∈ (l.foldl (fun c n => c.put n (s.value n)) c).map Prod.fst := by
    intro l
    induction l with
    | nil => intro c h1 h2 _; exact ⟨h1, h2, fun n h => h.resolve_left (by simp)⟩
    | cons n l ih =>
      intro c h1 h2 h3
      have hk2 := put_keys h1 n (s.value n)
      obtain ⟨i1, i2, i3⟩ := ih (c.put n (s.value n)) hk2 (fun e he => by
          have := mem_find hk2 he
          rw [put_find] at this
          by_cases hen : e.1 = n
          · rw [if_pos hen] at this
            simp only [Option.some.injEq] at this
            rw [hen]
            exact ⟨(h3 n (by simp)).1, (h3 n (by simp)).2, this.symm⟩
          · rw [if_neg hen] at this
            exact h2 e (find_mem this)) (fun m hm => h3 m (by simp [hm]))
      refine ⟨i1, i2, fun m hm => i3 m ?_⟩
      rw [put_mem_key]
      rcases hm with hm | hm
      · rcases List.mem_cons.1 hm with h | h
        · exact Or.inr (Or.inl h)
        · exact Or.inl h
      · exact Or.inr (Or.inr hm)
  obtain ⟨k1, k2, k3⟩ := key (r.tree.ids.filter isJoint) [] (by simp [Keys]) (by simp)
    (fun n h => List.mem_filter.1 h)
  have happ := C30_all_or_nothing r hn (robotGetConfig r isJoint s) k1 t
  have hv2 : ∀ n ∈ r.tree.ids, isJoint n = true →
      ((robotGetConfig r isJoint s).applyTo r t).1.value n = s.value n := by
    intro n hn' hjn
    rcases happ with ⟨_, _, _, h, _⟩ | ⟨⟨e, he, hne⟩, _⟩
    · have hm := k3 n (Or.inl (List.mem_filter.2 ⟨hn', hjn⟩))
      obtain ⟨e, he, rfl⟩ := List.mem_map.1 hm
      have h2 := h e.1 e.2 he
      rw [h2, (k2 e he).2.2, hv e.1 hn']
    · exact absurd (k2 e he).1 hne
  refine ⟨hv2, fun hb => ?_⟩
  rcases happ with ⟨_, _, hfk, _, _, hbase⟩ | ⟨⟨e, he, hne⟩, _⟩
  · have hc1 : Cons r.loc s.value r.tree s.base s.pose := (fk_iff _ _).1 hs
    -- both states satisfy forward kinematics with the same factors
    have hloc : ∀ i ∈ r.tree.ids, r.loc i (((robotGetConfig r isJoint s).applyTo r t).1.value i) =
        r.loc i (s.value i) := by
      intro i hi
      by_cases hji : isJoint i = true
      · rw [hv2 i hi hji]
      · exact hj i (by simpa using hji) _ _
    have hchain : ∀ n ∈ r.tree.ids, ∃ l, Chain r.tree n l ∧ ∀ i ∈ l, i ∈ r.tree.ids :=
      fun n h => exists_chain r.tree n h
    intro n hn'
    obtain ⟨l, hl, hsub⟩ := hchain n hn'
    have e1 := hfk n l hl
    have e2 := hs n l hl
    change ((robotGetConfig r isJoint s).applyTo r t).1.pose n = _
    rw [e1, e2, hbase, hb]
    congr 2
    exact List.map_congr_left fun i hi => hloc i (hsub i hi)
  · exact absurd (k2 e he).1 hne

/-- `Robot::setConfig` reports success even when the configuration was not applied. -/
theorem C30_robot_reports_success :
    ∃ (r : Robot (Multiplicative ℝ)) (c : Cfg) (s : St (Multiplicative ℝ)), Keys c ∧
      (c.applyTo r s).2 = false ∧ robotSetConfig r c s = (s, true) := by
  refine ⟨twoJoints false, [(1, 1), (7, 0)], zeroSt, by simp [Keys], ?_, ?_⟩ <;>
    simp [Cfg.applyTo, robotSetConfig, twoJoints, Tree.ids, idsL]

example : ∃ (c : Cfg) (s : St (Multiplicative ℝ)), Keys c ∧ c ≠ [] ∧
    (c.applyTo (twoJoints false) s).2 = true :=
  ⟨[(1, 5), (2, -1)], zeroSt, by simp [Keys], by simp, by simp [Cfg.applyTo, twoJoints, Tree.ids, idsL]⟩

/-! ## C41: frames -/

section
variable {R V : Type} [Group R] [AddCommGroup V] [DistribMulAction R V]

/-- Converting to local and to global coordinates are inverse to each other, for poses and positions;
positions transform as the position part of poses at them. -/
theorem C41_local_global (own p : Pose R V) (v : V) :
    toLocal own (toGlobal own p) = p ∧ toGlobal own (toLocal own p) = p ∧
    toLocalVec own (toGlobalVec own v) = v ∧ toGlobalVec own (toLocalVec own v) = v ∧
    toGlobalVec own p.pos = (toGlobal own p).pos ∧ toLocalVec own p.pos = (toLocal own p).pos := by
  refine ⟨by simp [toLocal, toGlobal], by simp [toLocal, toGlobal], ?_, ?_, ?_, ?_⟩
  · simp [toLocalVec, toGlobalVec, toLocal, toGlobal, mul_def, inv_def]
  · simp [toLocalVec, toGlobalVec, toLocal, toGlobal, mul_def, inv_def]
  · simp [toGlobalVec, toGlobal, mul_def]
  · simp [toLocalVec, toLocal, mul_def, inv_def]

/-- The transformation between two frames takes local coordinates in the other frame to local coordinates
in the own frame of the same global pose (position); transformations compose and invert. -/
theorem C41_between (a b c p : Pose R V) (v : V) :
    toGlobal a (transformTo a b p) = toGlobal b p ∧
    toGlobalVec a (transformToVec a b v) = toGlobalVec b v ∧
    transformationTo a b * transformationTo b c = transformationTo a c ∧
    transformationTo a b = transformationFrom b a ∧ transformationTo a b = (transformationTo b a)⁻¹ ∧
    transformationTo a a = 1 := by
  refine ⟨?_, ?_, ?_, rfl, ?_, ?_⟩
  · simp [toGlobal, transformTo, transformationTo, mul_assoc]
  · simp [toGlobalVec, toGlobal, transformToVec, transformationTo, mul_def, inv_def, mul_smul]
    abel
  · simp [transformationTo, mul_assoc]
  · simp [transformationTo]
  · simp [transformationTo]

/-! ## C40: placing the robot by one of its nodes -/

/-- With a target pose that is not axis parallel, the robot is placed such that the node is at the
target. -/
theorem C40_pose_partial (r : Robot (Pose R V)) (hn : Names r) (n : Nat) (hm : n ∈ r.tree.ids)
    (T : Pose R V) (hT : T.rot ≠ 1) (s : St (Pose R V)) (h : FK r s) :
    (setGlobalPoseForRobotNode r n T s).pose n = T ∧
      (setGlobalPoseForRobotNode r n T s).value = s.value ∧ FK r (setGlobalPoseForRobotNode r n T s) := by
  have h2 := (C35_set_global_pose r hn (getGlobalPoseForRobotNode s.base (s.pose n) T) s)
  refine ⟨?_, h2.2.2, h2.1⟩
  obtain ⟨l, hl, _⟩ := exists_chain r.tree n hm
  have e1 := h n l hl
  have e2 := h2.1 n l hl
  rw [h2.2.1, h2.2.2] at e2
  change (setGlobalPose r _ true s).pose n = T
  rw [e2]
  unfold getGlobalPoseForRobotNode
  rw [if_neg hT, e1]
  group

/-- The pose a node ends up with when an axis-parallel target (or only a position) is given: the robot's own
orientation is reset, so that the target is met exactly if the node and the robot had the same
orientation and the offset between them is invariant under it. -/
theorem C40_identity_orientation (r : Robot (Pose R V)) (hn : Names r) (n : Nat) (hm : n ∈ r.tree.ids)
    (p : V) (s : St (Pose R V)) (h : FK r s) :
    setGlobalPoseForRobotNode r n ⟨1, p⟩ s = setGlobalPositionForRobotNode r n p s ∧
    (setGlobalPositionForRobotNode r n p s).base.rot = 1 ∧
    ((setGlobalPositionForRobotNode r n p s).pose n).rot = s.base.rot⁻¹ * (s.pose n).rot ∧
    ((setGlobalPositionForRobotNode r n p s).pose n).pos =
      p + (s.base.rot⁻¹ • ((s.pose n).pos - s.base.pos) - ((s.pose n).pos - s.base.pos)) := by
  have h2 := (C35_set_global_pose r hn (getGlobalPositionForRobotNode s.base (s.pose n) p) s)
  obtain ⟨l, hl, _⟩ := exists_chain r.tree n hm
  have e1 := h n l hl
  have e2 := h2.1 n l hl
  rw [h2.2.1, h2.2.2] at e2
  have e3 : (setGlobalPositionForRobotNode r n p s).pose n =
      getGlobalPositionForRobotNode s.base (s.pose n) p * (s.base⁻¹ * s.pose n) := by
    change (setGlobalPose r _ true s).pose n = _
    rw [e2, e1]
    simp
  refine ⟨?_, rfl, ?_, ?_⟩
  · unfold setGlobalPoseForRobotNode getGlobalPoseForRobotNode
    rw [if_pos rfl]; rfl
  · rw [e3]
    simp [getGlobalPositionForRobotNode, mul_def, inv_def]
  · rw [e3]
    simp only [getGlobalPositionForRobotNode, mul_def, inv_def, one_smul, smul_sub]
    abel

/-- So if the robot is not rotated the position is reached. -/
theorem C40_position_unrotated (r : Robot (Pose R V)) (hn : Names r) (n : Nat) (hm : n ∈ r.tree.ids)
    (p : V) (s : St (Pose R V)) (h : FK r s) (hb : s.base.rot = 1) :
    ((setGlobalPositionForRobotNode r n p s).pose n).pos = p := by
  rw [(C40_identity_orientation r hn n hm p s h).2.2.2, hb]
  simp

end

/-- Placing a node at an axis-parallel pose does not work when the node is turned against the robot, and
asking only for a position does not work when the robot is turned. (Planar example: orientations are
signs, acting on the line by reflection.) -/
theorem C40_wrong_for_identity_orientation :
    ∃ (r : Robot (Pose ℤˣ ℤ)) (s : St (Pose ℤˣ ℤ)), Names r ∧ FK r s ∧ 1 ∈ r.tree.ids ∧
      (setGlobalPoseForRobotNode r 1 ⟨1, 5⟩ s).pose 1 ≠ ⟨1, 5⟩ ∧
      ∃ s2 : St (Pose ℤˣ ℤ), FK r s2 ∧ ((setGlobalPositionForRobotNode r 1 5 s2).pose 1).pos ≠ 5 := by
  let r : Robot (Pose ℤˣ ℤ) :=
    ⟨.node 0 [.node 1 []], fun i _ => if i = 0 then 1 else ⟨-1, 3⟩, fun _ => ⟨0, 0, false, false⟩,
      fun _ => []⟩
  have hn : Names r := by simp [r, Names, Tree.ids, idsL]
  have hm : 1 ∈ r.tree.ids := by simp [r, Tree.ids, idsL]
  let s : St (Pose ℤˣ ℤ) := applyJointValues r ⟨1, fun _ => 0, fun _ => 1⟩
  let s2 : St (Pose ℤˣ ℤ) := applyJointValues r ⟨⟨-1, 0⟩, fun _ => 0, fun _ => 1⟩
  have h1 := C40_identity_orientation r hn 1 hm 5 s (apply_fk r hn _)
  have h2 := C40_identity_orientation r hn 1 hm 5 s2 (apply_fk r hn _)
  have p1 : s.pose 1 = ⟨-1, 3⟩ := by
    simp [s, applyJointValues, r, updTree, updList, upd]
  have p2 : s2.pose 1 = ⟨1, -3⟩ := by
    simp [s2, applyJointValues, r, updTree, updList, upd, mul_def, one_def]
  refine ⟨r, s, hn, apply_fk r hn _, hm, fun h => ?_, s2, apply_fk r hn _, ?_⟩
  · have h3 := h1.2.2.1
    rw [← h1.1, h, p1] at h3
    revert h3
    change (1 : ℤˣ) = (1 : ℤˣ)⁻¹ * -1 → False
    decide
  · rw [h2.2.2.2, p2]
    change (5 : ℤ) + ((-1 : ℤˣ)⁻¹ • ((-3 : ℤ) - 0) - (-3 - 0)) ≠ 5
    decide

end Simox.Kin
