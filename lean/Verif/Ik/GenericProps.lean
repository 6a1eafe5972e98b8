import Verif.Ik.GenericLemmas
import Verif.Ik.StepProps
import Verif.Grasp.Props

/-!
# C58, C59: the generic solver and the selection of grasps
-/

namespace Simox.Ik

open Kin Kin.Spec Jac Simox.Inv Spec

section
variable (r : Robot Pose3) (fuel : Nat) (ns : NodeSet) (aa : AngleAxes) (so : Solver)

/-! ## C58: attempts from random configurations -/

theorem tried_true {goals : List Goal} {s t : St Pose3} (h : Tried r fuel ns aa so goals s true t) :
    AllMet t goals ∧ ∀ c, so.inCollision = some c → c t = false := by
  obtain ⟨b', h1, h2⟩ := h
  obtain ⟨rfl, h4⟩ := h2.1 rfl
  exact ⟨C56_success r fuel ns aa goals _ 0 true _ s t h1, h4⟩

theorem retry_true {goals : List Goal} {rnd : Nat → List ℝ} (s' : St Pose3) :
    ∀ (k i : Nat) (best : Cfg) (e : ℝ) (s : St Pose3),
      retry r fuel ns aa so goals rnd k i best e s = .done true s' →
      ∃ t, Tried r fuel ns aa so goals t true s' := by
  intro k
  induction k with
  | zero =>
    intro i best e s h
    rw [retry] at h
    split at h <;> simp at h
  | succ k ih =>
    intro i best e s h
    rw [retry] at h
    split at h
    · simp at h
    · simp at h
    · rename_i s1 _
      split at h
      · dsimp only at h
        split at h
        · exact ih _ _ _ _ h
        · exact ih _ _ _ _ h
      · exact ⟨s1, trySolve_iff.1 h⟩

/-- When the solver reports success, the goals - the one for its tcp with the tolerances of the solver, and
those of other tcps - are met in the state it leaves, and there is no collision. This holds for every
robot, node set and step rule. -/
theorem C58_success (reachable : Bool) (rnd : Nat → List ℝ) (target : Pose3) (selection : Nat)
    (maxLoops : Int) (s s' : St Pose3)
    (h : genericSolve r fuel ns aa so reachable rnd target selection maxLoops s = .done true s')
    (goals : List Goal) (hg : IsGoals so target selection goals) :
    reachable = true ∧ AllMet s' goals ∧ ∀ c, so.inCollision = some c → c s' = false := by
  have hall : ∀ s, Tried r fuel ns aa so (setGoal so.goals
      ⟨so.tcp, so.link, target, selection, so.maxErrorPositionMM, so.maxErrorOrientationRad⟩) s true s' →
      AllMet s' goals ∧ ∀ c, so.inCollision = some c → c s' = false := by
    intro s hs
    obtain ⟨h1, h2⟩ := tried_true r fuel ns aa so hs
    exact ⟨fun g hgm => h1 g ((setGoal_mem _ _ _).2 ((hg g).1 hgm)), h2⟩
  unfold genericSolve at h
  dsimp only at h
  cases reachable with
  | false => simp at h
  | true =>
    refine ⟨rfl, ?_⟩
    simp only [Bool.not_true, Bool.false_eq_true, if_false] at h
    split at h
    · obtain ⟨t, ht⟩ := retry_true r fuel ns aa so s' _ _ _ _ _ h
      exact hall t ht
    · exact hall s (trySolve_iff.1 h)

/-- An unreachable pose is rejected and nothing moves. -/
theorem C58_unreachable (rnd : Nat → List ℝ) (target : Pose3) (selection : Nat) (maxLoops : Int)
    (s : St Pose3) :
    genericSolve r fuel ns aa so false rnd target selection maxLoops s = .done false s := by
  simp [genericSolve]

variable {r ns so}

theorem try_cases {rnd : Nat → List ℝ} (hset : Setup r ns so rnd) (hf : 0 < fuel) (goals : List Goal)
    {s : St Pose3} (hs : FK r s) (hl : InLimits r ns.nodes s) :
    match trySolve r fuel ns aa so goals s with
    | .done b t => Tried r fuel ns aa so goals s b t ∧ Reach r ns s t
    | .throw t => so.step goals t = .throw
    | .diverge => False := by
  have hrun := C56_run r ns hset.usable fuel hf aa goals (so.step goals) (hset.steps goals) 0 true
    so.jacobianMaxLoops s hs hl
  cases ht : trySolve r fuel ns aa so goals s with
  | done b t =>
    have htr := trySolve_iff.1 ht
    refine ⟨htr, ?_⟩
    obtain ⟨b', h1, -⟩ := htr
    exact steps_reach hset.usable hf (hset.steps goals) hs hl h1
  | throw t =>
    unfold trySolve at ht
    cases hc : computeSteps r fuel ns aa goals (so.step goals) 0 true so.jacobianMaxLoops s with
    | done b t' =>
      exfalso
      rw [hc] at ht
      cases b <;> cases hi : so.inCollision <;> simp [hi] at ht
      split at ht <;> simp at ht
    | throw t' =>
      rw [hc] at ht hrun
      simp only [Out.throw.injEq] at ht
      obtain ⟨l, -, -, -, -, h⟩ := hrun
      exact ht ▸ h
    | diverge => rw [hc] at ht; simp at ht
  | diverge =>
    unfold trySolve at ht
    cases hc : computeSteps r fuel ns aa goals (so.step goals) 0 true so.jacobianMaxLoops s with
    | done b t' =>
      rw [hc] at ht
      cases b <;> cases hi : so.inCollision <;> simp [hi] at ht
      split at ht <;> simp at ht
    | throw t' => rw [hc] at ht; simp at ht
    | diverge => rw [hc] at hrun; exact hrun

theorem reach_limits (hg : GoodLimits r ns.nodes) {s t : St Pose3} (h : Reach r ns s t) :
    InLimits r ns.nodes t := by
  obtain ⟨v, h⟩ := h
  exact inLimits_of_setTo hg h

theorem final_cons (s t : St Pose3) (l : List (St Pose3)) : final s (t :: l) = final t l := by
  rw [final, final, List.getLastD_cons]

theorem retry_spec {rnd : Nat → List ℝ} (hset : Setup r ns so rnd) (hf : 0 < fuel) (goals : List Goal)
    (s0 : St Pose3) :
    ∀ (k i : Nat) (best : Cfg) (e : ℝ) (b s : St Pose3), Reach r ns s0 s → Reach r ns s0 b →
      (∀ n ∈ ns.nodes, best.find n = some (b.value n)) →
      match retry r fuel ns aa so goals rnd k i best e s with
      | .done true s' => Reach r ns s0 s' ∧ ∃ ts s1, Failed r fuel ns aa so goals rnd i s ts ∧
          ts.length < k ∧ Fresh r ns so (rnd (i + ts.length)) (final s ts) s1 ∧
          Tried r fuel ns aa so goals s1 true s'
      | .done false s' => Reach r ns s0 s' ∧ ∃ ts, Failed r fuel ns aa so goals rnd i s ts ∧
          ts.length = k ∧
          (((∀ t ∈ ts, e ≤ meanError goals t) ∧ s' = b) ∨ (FirstBest goals ts s' ∧ meanError goals s' < e))
      | .throw s' => so.step goals s' = .throw
      | .diverge => False := by
  intro k
  induction k with
  | zero =>
    intro i best e b s hs hb hfind
    obtain ⟨s', h1, h2⟩ := config_ok hset.usable hf hfind (let ⟨_, h⟩ := hs; h.2.1)
    rw [retry, h1]
    have := back_unique hb (reach_limits hset.limits hb) hs h2
    exact ⟨this ▸ hb, [], .nil i s, rfl, .inl ⟨by simp, this⟩⟩
  | succ k ih =>
    intro i best e b s hs hb hfind
    obtain ⟨s1, h1, h2⟩ := random_ok hset.usable hf hset.trans (hset.random i) (let ⟨_, h⟩ := hs; h.2.1)
    rw [retry, h1]
    dsimp only
    have hr1 : Reach r ns s s1 := by obtain ⟨v, h, -⟩ := h2; exact ⟨v, h⟩
    have hfk : FK r s1 := let ⟨_, h⟩ := hr1; h.2.1
    have htry := try_cases fuel aa hset hf goals hfk (reach_limits hset.limits hr1)
    cases ht : trySolve r fuel ns aa so goals s1 with
    | throw t => rw [ht] at htry; exact htry
    | diverge => rw [ht] at htry; exact htry
    | done b' t =>
      rw [ht] at htry
      obtain ⟨htr, hr2⟩ := htry
      have hrt := reach_trans hs (reach_trans hr1 hr2)
      cases b' with
      | true => exact ⟨hrt, [], s1, .nil i s, by simp, h2, htr⟩
      | false =>
        dsimp only
        by_cases hlt : getMeanErrorPosition t goals < e
        · rw [if_pos hlt]
          rw [getMean_eq] at *
          have := ih (i + 1) (readConfig r ns best t) (meanError goals t) t t hrt hrt
            (fun n hn => readConfig_find hset.usable best t hn)
          revert this
          cases retry r fuel ns aa so goals rnd k (i + 1) (readConfig r ns best t) (meanError goals t) t with
          | throw s' => exact id
          | diverge => exact id
          | done b' s' =>
            cases b' with
            | true =>
              rintro ⟨h3, ts, s2, h4, h5, h6, h7⟩
              refine ⟨h3, t :: ts, s2, .cons h2 htr h4, by simpa using h5, ?_, h7⟩
              rw [final_cons, List.length_cons, Nat.add_comm ts.length 1, ← Nat.add_assoc]
              exact h6
            | false =>
              rintro ⟨h3, ts, h4, h5, h6⟩
              refine ⟨h3, t :: ts, .cons h2 htr h4, by simpa using h5, .inr ?_⟩
              rcases h6 with ⟨h6, rfl⟩ | ⟨⟨pre, post, h6, h7, h8⟩, h9⟩
              · exact ⟨⟨[], ts, rfl, by simp, h6⟩, hlt⟩
              · refine ⟨⟨t :: pre, post, by rw [h6]; rfl, ?_, h8⟩, lt_trans h9 hlt⟩
                intro u hu
                rcases List.mem_cons.1 hu with rfl | hu
                · exact h9
                · exact h7 u hu
        · rw [if_neg hlt]
          rw [getMean_eq] at hlt
          have := ih (i + 1) best e b t hrt hb hfind
          revert this
          cases retry r fuel ns aa so goals rnd k (i + 1) best e t with
          | throw s' => exact id
          | diverge => exact id
          | done b' s' =>
            cases b' with
            | true =>
              rintro ⟨h3, ts, s2, h4, h5, h6, h7⟩
              refine ⟨h3, t :: ts, s2, .cons h2 htr h4, by simpa using h5, ?_, h7⟩
              rw [final_cons, List.length_cons, Nat.add_comm ts.length 1, ← Nat.add_assoc]
              exact h6
            | false =>
              rintro ⟨h3, ts, h4, h5, h6⟩
              refine ⟨h3, t :: ts, .cons h2 htr h4, by simpa using h5, ?_⟩
              rcases h6 with ⟨h6, rfl⟩ | ⟨⟨pre, post, h6, h7, h8⟩, h9⟩
              · refine .inl ⟨?_, rfl⟩
                intro u hu
                rcases List.mem_cons.1 hu with rfl | hu
                · exact not_lt.1 hlt
                · exact h6 u hu
              · refine .inr ⟨⟨t :: pre, post, by rw [h6]; rfl, ?_, h8⟩, h9⟩
                intro u hu
                rcases List.mem_cons.1 hu with rfl | hu
                · exact lt_of_lt_of_le h9 (not_lt.1 hlt)
                · exact h7 u hu

theorem reach_onlySet (hg : GoodLimits r ns.nodes) {s t : St Pose3} (h : Reach r ns s t) : OnlySet r ns s t := by
  have hl := reach_limits hg h
  obtain ⟨v, h1, h2, h3, h4, h5⟩ := h
  exact ⟨h1, h2, h5, hl⟩

theorem generic_reach {rnd : Nat → List ℝ} (hset : Setup r ns so rnd) (hf : 0 < fuel) (reachable : Bool)
    (target : Pose3) (selection : Nat) (maxLoops : Int) (s : St Pose3) (hs : FK r s)
    (hl : InLimits r ns.nodes s) :
    let goals := setGoal so.goals
      ⟨so.tcp, so.link, target, selection, so.maxErrorPositionMM, so.maxErrorOrientationRad⟩
    match genericSolve r fuel ns aa so reachable rnd target selection maxLoops s with
    | .done true s' => Reach r ns s s' ∧ reachable = true ∧
        (Tried r fuel ns aa so goals s true s' ∨
        ∃ t0 ts s1, Tried r fuel ns aa so goals s false t0 ∧ Failed r fuel ns aa so goals rnd 1 t0 ts ∧
          (ts.length : Int) + 1 < maxLoops ∧ Fresh r ns so (rnd (1 + ts.length)) (final t0 ts) s1 ∧
          Tried r fuel ns aa so goals s1 true s')
    | .done false s' => Reach r ns s s' ∧ ((reachable = false ∧ s' = s) ∨
        (reachable = true ∧ ∃ t0 ts, Tried r fuel ns aa so goals s false t0 ∧
          Failed r fuel ns aa so goals rnd 1 t0 ts ∧ ts.length = (maxLoops - 1).toNat ∧
          (((∀ t ∈ ts, meanError goals s ≤ meanError goals t) ∧ s' = t0) ∨
            (FirstBest goals ts s' ∧ meanError goals s' < meanError goals s))))
    | .throw s' => so.step goals s' = .throw
    | .diverge => False := by
  intro goals
  have hself : Reach r ns s s := ⟨_, self_setTo hs hl⟩
  cases reachable with
  | false => rw [C58_unreachable]; exact ⟨hself, .inl ⟨rfl, rfl⟩⟩
  | true =>
    have htry := try_cases fuel aa hset hf goals hs hl
    unfold genericSolve
    simp only [Bool.not_true, Bool.false_eq_true, if_false]
    show (match (match trySolve r fuel ns aa so goals s with
      | .done false s1 => retry r fuel ns aa so goals rnd (maxLoops - 1).toNat 1
          (readConfig r ns (readConfig r ns [] s) s1) (getMeanErrorPosition s goals) s1
      | o => o) with
    | .done true s' => _
    | .done false s' => _
    | .throw s' => _
    | .diverge => _)
    cases ht : trySolve r fuel ns aa so goals s with
    | throw t => rw [ht] at htry; exact htry
    | diverge => rw [ht] at htry; exact htry
    | done b t =>
      rw [ht] at htry
      obtain ⟨htr, hrt⟩ := htry
      cases b with
      | true => exact ⟨hrt, trivial, .inl htr⟩
      | false =>
        dsimp only
        have := retry_spec fuel aa hset hf goals s (maxLoops - 1).toNat 1
          (readConfig r ns (readConfig r ns [] s) t) (getMeanErrorPosition s goals) t t hrt hrt
          (fun n hn => readConfig_find hset.usable _ t hn)
        revert this
        rw [getMean_eq]
        cases retry r fuel ns aa so goals rnd (maxLoops - 1).toNat 1
          (readConfig r ns (readConfig r ns [] s) t) (meanError goals s) t with
        | throw s' => exact id
        | diverge => exact id
        | done b s' =>
          cases b with
          | true =>
            rintro ⟨h1, ts, s1, h2, h3, h4, h5⟩
            exact ⟨h1, trivial, .inr ⟨t, ts, s1, htr, h2, by omega, h4, h5⟩⟩
          | false =>
            rintro ⟨h1, ts, h2, h3, h4⟩
            exact ⟨h1, .inr ⟨trivial, t, ts, htr, h2, h3, h4⟩⟩

/-- What `solve` does: an attempt from the current joint values, then attempts from random configurations,
`maxLoops` in all (at least one), until one succeeds without collision. When all fail, the joints are set
to the first one of the random attempts' ends with the least mean position error, if that is below the
error at the start, and otherwise to the end of the first attempt (whatever error that has, see
`C58_best_lost`). Exceptions come from the steps only, and the search always ends. -/
theorem C58_run {rnd : Nat → List ℝ} (hset : Setup r ns so rnd) (hf : 0 < fuel) (reachable : Bool)
    (target : Pose3) (selection : Nat) (maxLoops : Int) (s : St Pose3) (hs : FK r s)
    (hl : InLimits r ns.nodes s) :
    let goals := setGoal so.goals
      ⟨so.tcp, so.link, target, selection, so.maxErrorPositionMM, so.maxErrorOrientationRad⟩
    match genericSolve r fuel ns aa so reachable rnd target selection maxLoops s with
    | .done true s' => OnlySet r ns s s' ∧ reachable = true ∧
        (Tried r fuel ns aa so goals s true s' ∨
        ∃ t0 ts s1, Tried r fuel ns aa so goals s false t0 ∧ Failed r fuel ns aa so goals rnd 1 t0 ts ∧
          (ts.length : Int) + 1 < maxLoops ∧ Fresh r ns so (rnd (1 + ts.length)) (final t0 ts) s1 ∧
          Tried r fuel ns aa so goals s1 true s')
    | .done false s' => OnlySet r ns s s' ∧ ((reachable = false ∧ s' = s) ∨
        (reachable = true ∧ ∃ t0 ts, Tried r fuel ns aa so goals s false t0 ∧
          Failed r fuel ns aa so goals rnd 1 t0 ts ∧ ts.length = (maxLoops - 1).toNat ∧
          (((∀ t ∈ ts, meanError goals s ≤ meanError goals t) ∧ s' = t0) ∨
            (FirstBest goals ts s' ∧ meanError goals s' < meanError goals s))))
    | .throw s' => so.step goals s' = .throw
    | .diverge => False := by
  intro goals
  have h := generic_reach fuel aa hset hf reachable target selection maxLoops s hs hl
  dsimp only at h
  revert h
  cases genericSolve r fuel ns aa so reachable rnd target selection maxLoops s with
  | throw s' => exact id
  | diverge => exact id
  | done b s' =>
    cases b with
    | true => exact fun h => ⟨reach_onlySet hset.limits h.1, h.2⟩
    | false => exact fun h => ⟨reach_onlySet hset.limits h.1, h.2⟩

/-- The goal of an earlier call does not matter: a second `setGoal` for the tcp replaces it. -/
theorem C58_goal_replaced (so : Solver) (target target' : Pose3) (selection selection' : Nat) :
    setGoal (setGoal so.goals
      ⟨so.tcp, so.link, target, selection, so.maxErrorPositionMM, so.maxErrorOrientationRad⟩)
      ⟨so.tcp, so.link, target', selection', so.maxErrorPositionMM, so.maxErrorOrientationRad⟩ =
    setGoal so.goals
      ⟨so.tcp, so.link, target', selection', so.maxErrorPositionMM, so.maxErrorOrientationRad⟩ :=
  setGoal_setGoal _ _ _ rfl

/-! ## C59: solutions without moving, and grasps -/

theorem apply_self (hn : Names r) {s : St Pose3} (hs : FK r s) : applyJointValues r s = s := by
  refine st_ext rfl rfl ?_
  funext j
  by_cases hj : j ∈ r.tree.ids
  · exact fk_pose (apply_fk r hn s) hs rfl rfl hj
  · show updTree _ _ _ _ _ j = _
    rw [updTree_outside _ _ _ _ _ _ hj]

theorem restore_ok (hu : Usable r ns) (hf : 0 < fuel) {s t : St Pose3} (hs : FK r s)
    (hl : InLimits r ns.nodes s) (hr : Reach r ns s t) :
    restore r fuel ns (ns.nodes.map s.value) t = .ok s := by
  obtain ⟨s', h1, h2⟩ := set_ok hu hf (v := ns.nodes.map s.value) (by simp) (let ⟨_, h⟩ := hr; h.2.1)
  unfold restore
  rw [h1, back_unique (b := s) ⟨_, self_setTo hs hl⟩ hl hr
    (setTo_congr (fun n hn => valOf_map hu.distinct s.value hn) h2)]

/-- The steps do not throw, as with the transposed Jacobian. -/
def Quiet (so : Solver) : Prop := ∀ goals s, so.step goals s ≠ .throw

theorem generic_done {rnd : Nat → List ℝ} (hset : Setup r ns so rnd) (hq : Quiet so) (hf : 0 < fuel)
    (reachable : Bool) (target : Pose3) (selection : Nat) (maxLoops : Int) {s : St Pose3} (hs : FK r s)
    (hl : InLimits r ns.nodes s) :
    ∃ b s', genericSolve r fuel ns aa so reachable rnd target selection maxLoops s = .done b s' ∧
      Reach r ns s s' := by
  have h := generic_reach fuel aa hset hf reachable target selection maxLoops s hs hl
  dsimp only at h
  cases he : genericSolve r fuel ns aa so reachable rnd target selection maxLoops s with
  | throw s' => rw [he] at h; exact absurd h (hq _ _)
  | diverge => rw [he] at h; exact h.elim
  | done b s' =>
    rw [he] at h
    cases b with
    | true => exact ⟨true, s', rfl, h.1⟩
    | false => exact ⟨false, s', rfl, h.1⟩

/-- `solveNoRNSUpdate` leaves the robot exactly as it was, and what it returns is either empty or a list of
joint values that, when set, meet the goals without collision. -/
theorem C59_no_update {rnd : Nat → List ℝ} (hset : Setup r ns so rnd) (hq : Quiet so) (hf : 0 < fuel)
    (reachable : Bool) (target : Pose3) (selection : Nat) (maxLoops : Int) (s : St Pose3) (hs : FK r s)
    (hl : InLimits r ns.nodes s) (goals : List Goal) (hg : IsGoals so target selection goals) :
    ∃ v, solveNoRNSUpdate r fuel ns aa so reachable rnd target selection maxLoops s = some (v, s) ∧
      (v = [] ∨ ∃ t, ns.setJointValues r fuel v s = .ok t ∧ AllMet t goals ∧
        ∀ c, so.inCollision = some c → c t = false) := by
  obtain ⟨b, t, h1, h2⟩ := generic_done fuel aa hset hq hf reachable target selection maxLoops hs hl
  unfold solveNoRNSUpdate
  simp only [h1, restore_ok fuel hset.usable hf hs hl h2]
  refine ⟨_, rfl, ?_⟩
  cases b with
  | false => exact .inl rfl
  | true =>
    refine .inr ⟨t, ?_, (C58_success r fuel ns aa so reachable rnd target selection maxLoops s t h1 goals hg).2⟩
    obtain ⟨t', h3, h4⟩ := set_ok hset.usable hf (v := ns.nodes.map t.value) (by simp) hs
    simp only [if_true]
    rw [h3, back_unique (b := t) h2 (reach_limits hset.limits h2) ⟨_, self_setTo hs hl⟩
      (setTo_congr (fun n hn => valOf_map hset.usable.distinct t.value hn) h4)]

/-- `solve(object, grasp)`: on success the goals for the grasp are met without collision, on failure the
robot is exactly as it was. -/
theorem C59_grasp {rnd : Nat → List ℝ} (hset : Setup r ns so rnd) (hq : Quiet so) (hf : 0 < fuel)
    (reachable : Bool) (target : Pose3) (selection : Nat) (maxLoops : Int) (s : St Pose3) (hs : FK r s)
    (hl : InLimits r ns.nodes s) (goals : List Goal) (hg : IsGoals so target selection goals) :
    match solveGrasp r fuel ns aa so reachable rnd target selection maxLoops s with
    | .done true s' => AllMet s' goals ∧ (∀ c, so.inCollision = some c → c s' = false) ∧ OnlySet r ns s s'
    | .done false s' => s' = s
    | _ => False := by
  obtain ⟨b, t, h1, h2⟩ := generic_done fuel aa hset hq hf reachable target selection maxLoops hs hl
  unfold solveGrasp
  cases b with
  | false => simp only [h1, restore_ok fuel hset.usable hf hs hl h2]
  | true =>
    have hfk : FK r t := let ⟨_, h⟩ := h2; h.2.1
    simp only [h1, apply_self hset.usable.names hfk]
    have := C58_success r fuel ns aa so reachable rnd target selection maxLoops s t h1 goals hg
    exact ⟨this.2.1, this.2.2, reach_onlySet hset.limits h2⟩

theorem sample_spec {rnd : Nat → List ℝ} (hset : Setup r ns so rnd) (hq : Quiet so) (hf : 0 < fuel)
    (reach : Pose3 → Bool) (p : Nat) (pose : Nat → Pose3) (selection : Nat) (remove : Bool)
    (maxLoops : Int) (gs : List Nat) (hne : 0 < gs.length) {s : St Pose3} (hs : FK r s)
    (hl : InLimits r ns.nodes s) :
    ∃ g f, gs[p % gs.length]? = some g ∧
      sampleSolution r fuel ns aa so reach rnd p pose selection remove maxLoops gs s = some f ∧
      ((f.grasp = some g ∧ f.left = gs ∧ Reach r ns s f.state ∧
          genericSolve r fuel ns aa so (reach (pose g)) rnd (pose g) selection maxLoops s = .done true f.state) ∨
        (f.grasp = none ∧ f.left = (if remove then gs.erase g else gs) ∧ f.state = s ∧
          ∃ t, genericSolve r fuel ns aa so (reach (pose g)) rnd (pose g) selection maxLoops s =
            .done false t)) := by
  obtain ⟨g, hg⟩ : ∃ g, gs[p % gs.length]? = some g :=
    ⟨_, List.getElem?_eq_getElem (Nat.mod_lt _ hne)⟩
  obtain ⟨b, t, h1, h2⟩ := generic_done fuel aa hset hq hf (reach (pose g)) (pose g) selection maxLoops hs hl
  unfold sampleSolution
  simp only [hg, h1]
  cases b with
  | true => exact ⟨g, _, rfl, rfl, .inl ⟨rfl, rfl, h2, h1⟩⟩
  | false =>
    simp only [restore_ok fuel hset.usable hf hs hl h2]
    exact ⟨g, _, rfl, rfl, .inr ⟨rfl, rfl, rfl, t, h1⟩⟩

/-- `sampleSolution(object, graspSet)`: it tries one grasp of a nonempty set, reports it if it can be
reached, and otherwise leaves the robot exactly as it was and takes the grasp (and only it) out of the set
if asked to. -/
theorem C59_sample {rnd : Nat → List ℝ} (hset : Setup r ns so rnd) (hq : Quiet so) (hf : 0 < fuel)
    (reach : Pose3 → Bool) (p : Nat) (pose : Nat → Pose3) (selection : Nat) (remove : Bool)
    (maxLoops : Int) (gs : List Nat) (hne : gs ≠ []) (s : St Pose3) (hs : FK r s)
    (hl : InLimits r ns.nodes s) :
    ∃ g ∈ gs, ∃ f, sampleSolution r fuel ns aa so reach rnd p pose selection remove maxLoops gs s = some f ∧
      ((f.grasp = some g ∧ f.left = gs ∧
          ∀ goals, IsGoals so (pose g) selection goals →
            AllMet f.state goals ∧ ∀ c, so.inCollision = some c → c f.state = false) ∨
        (f.grasp = none ∧ f.left = (if remove then gs.erase g else gs) ∧ f.state = s)) := by
  obtain ⟨g, f, h1, h2, h3⟩ := sample_spec fuel aa hset hq hf reach p pose selection remove maxLoops gs
    (List.length_pos_iff.2 hne) hs hl
  refine ⟨g, List.mem_of_getElem? h1, f, h2, ?_⟩
  rcases h3 with ⟨h3, h4, -, h5⟩ | ⟨h3, h4, h5, -⟩
  · exact .inl ⟨h3, h4, fun goals hg => (C58_success r fuel ns aa so _ rnd _ selection maxLoops s _ h5 goals hg).2⟩
  · exact .inr ⟨h3, h4, h5⟩

theorem graspLoop_spec {rnd : Nat → Nat → List ℝ} (hset : ∀ c, Setup r ns so (rnd c)) (hq : Quiet so)
    (hf : 0 < fuel) (reach : Pose3 → Bool) (pick : Nat → Nat) (pose : Nat → Pose3) (selection : Nat)
    (maxLoops : Int) (s : St Pose3) (hs : FK r s) (hl : InLimits r ns.nodes s) :
    ∀ (k calls : Nat) (gs : List Nat), gs.length < k →
      ∃ f, graspLoop r fuel ns aa so reach rnd pick pose selection maxLoops k calls gs s = some f ∧
        match f.grasp with
        | some g => g ∈ gs ∧ Reach r ns s f.state ∧
            ∃ c, genericSolve r fuel ns aa so (reach (pose g)) (rnd c) (pose g) selection maxLoops s =
              .done true f.state
        | none => f.state = s ∧ ∀ g ∈ gs, ∃ c t,
            genericSolve r fuel ns aa so (reach (pose g)) (rnd c) (pose g) selection maxLoops s =
              .done false t := by
  intro k
  induction k with
  | zero => intro calls gs h; omega
  | succ k ih =>
    intro calls gs hlen
    rw [graspLoop]
    by_cases hne : gs.length > 0
    · rw [if_pos hne]
      obtain ⟨g, f, h1, h2, h3⟩ := sample_spec fuel aa (hset calls) hq hf reach (pick calls) pose selection
        true maxLoops gs hne hs hl
      have hg := List.mem_of_getElem? h1
      simp only [h2]
      rcases h3 with ⟨h3, h4, h5, h6⟩ | ⟨h3, h4, h5, t, h6⟩
      · have hfk : FK r f.state := let ⟨_, h⟩ := h5; h.2.1
        simp only [h3, apply_self (hset 0).usable.names hfk]
        exact ⟨_, rfl, hg, h5, calls, h6⟩
      · simp only [h3, h4, h5, if_true]
        obtain ⟨f', h7, h8⟩ := ih (calls + 1) (gs.erase g) (by
          rw [List.length_erase_of_mem hg]; omega)
        refine ⟨f', h7, ?_⟩
        revert h8
        cases f'.grasp with
        | some g' =>
          rintro ⟨h8, h9, h10⟩
          exact ⟨List.mem_of_mem_erase h8, h9, h10⟩
        | none =>
          rintro ⟨h8, h9⟩
          refine ⟨h8, fun g' hg' => ?_⟩
          by_cases he : g' = g
          · subst he; exact ⟨calls, t, h6⟩
          · exact h9 g' ((List.mem_erase_of_ne he).2 hg')
    · rw [if_neg hne]
      have : gs = [] := List.length_eq_zero_iff.1 (by omega)
      subst this
      exact ⟨_, rfl, rfl, by simp⟩

/-- `solve(object)`: the search over the grasps always ends. It reports a grasp only if it is one of those
given, with its goals met without collision; otherwise the robot is exactly as it was, and every grasp has
been tried, from the original configuration, without success. -/
theorem C59_object {rnd : Nat → Nat → List ℝ} (hset : ∀ c, Setup r ns so (rnd c)) (hq : Quiet so)
    (hf : 0 < fuel) (reach : Pose3 → Bool) (pick : Nat → Nat) (pose : Nat → Pose3) (selection : Nat)
    (maxLoops : Int) (gs : List Nat) (s : St Pose3) (hs : FK r s) (hl : InLimits r ns.nodes s) :
    ∃ f, solveObject r fuel ns aa so reach rnd pick pose selection maxLoops gs s = some f ∧
      match f.grasp with
      | some g => g ∈ gs ∧ reach (pose g) = true ∧ OnlySet r ns s f.state ∧
          ∀ goals, IsGoals so (pose g) selection goals →
            AllMet f.state goals ∧ ∀ c, so.inCollision = some c → c f.state = false
      | none => f.state = s ∧ ∀ g ∈ gs, ∃ c t,
          genericSolve r fuel ns aa so (reach (pose g)) (rnd c) (pose g) selection maxLoops s =
            .done false t := by
  unfold solveObject
  by_cases h0 : gs.length = 0
  · rw [if_pos h0]
    have : gs = [] := List.length_eq_zero_iff.1 h0
    subst this
    exact ⟨_, rfl, rfl, by simp⟩
  · rw [if_neg h0]
    obtain ⟨f, h1, h2⟩ := graspLoop_spec fuel aa hset hq hf reach pick pose selection maxLoops s hs hl
      (gs.length + 1) 0 gs (Nat.lt_succ_self _)
    refine ⟨f, h1, ?_⟩
    revert h2
    cases f.grasp with
    | none => exact id
    | some g =>
      rintro ⟨h3, h4, c, h5⟩
      have hreach : reach (pose g) = true := by
        cases hr : reach (pose g) with
        | true => rfl
        | false => rw [hr, C58_unreachable] at h5; simp at h5
      exact ⟨h3, hreach, reach_onlySet (hset c).limits h4, fun goals hg =>
        (C58_success r fuel ns aa so _ (rnd c) _ selection maxLoops s _ h5 goals hg).2⟩

/-- The grasp `solve(object)` reports is a copy: it has the data of a grasp of the object's set, whose goals
are met, but it is not one of the grasps of that set. -/
theorem C59_copy {rnd : Nat → Nat → List ℝ} (hset : ∀ c, Setup r ns so (rnd c)) (hq : Quiet so)
    (hf : 0 < fuel) (reach : Pose3 → Bool) (pick : Nat → Nat) (objectPose : Pose3) (selection : Nat)
    (maxLoops : Int) (s : St Pose3) (hs : FK r s) (hl : InLimits r ns.nodes s)
    (debug : Bool) (w : Grsp.World Pose3) (gset : Grsp.GraspSet) (hw : ∀ g ∈ gset.grasps, g < w.next)
    (hc : ∀ g ∈ gset.grasps, (w.grasp g).robotType = gset.robotType ∧ (w.grasp g).eef = gset.eef) :
    ∃ w' copy f, Grsp.cloneSet debug w gset = some (w', copy) ∧
      solveObject r fuel ns aa so reach rnd pick
        (fun g => Grsp.tcpPoseGlobal (w'.grasp g) objectPose) selection maxLoops copy.grasps s = some f ∧
      ∀ g, f.grasp = some g → g ∉ gset.grasps ∧ ∃ g0 ∈ gset.grasps, w'.grasp g = w.grasp g0 ∧
        ∀ goals, IsGoals so (Grsp.tcpPoseGlobal (w.grasp g0) objectPose) selection goals →
          AllMet f.state goals := by
  obtain ⟨w', copy, h1, -, -, -, h2, h3, -, -, -⟩ := Grsp.C32_clone debug w gset hw hc
  obtain ⟨f, h4, h5⟩ := C59_object fuel aa hset hq hf reach pick
    (fun g => Grsp.tcpPoseGlobal (w'.grasp g) objectPose) selection maxLoops copy.grasps s hs hl
  refine ⟨w', copy, f, h1, h4, fun g hg => ?_⟩
  rw [hg] at h5
  obtain ⟨h6, -, -, h7⟩ := h5
  refine ⟨fun h => absurd (hw g h) (not_lt.2 (h3 g h6)), ?_⟩
  have : w'.grasp g ∈ gset.grasps.map w.grasp := h2 ▸ List.mem_map.2 ⟨g, h6, rfl⟩
  obtain ⟨g0, h8, h9⟩ := List.mem_map.1 this
  refine ⟨g0, h8, h9.symm, fun goals hgo => (h7 goals ?_).1⟩
  simp only [← h9]
  exact hgo

end

/-! ## Examples -/

/-- The slide with step size 4/5, at most one step per attempt. -/
noncomputable def slideSolver (aa : AngleAxes) (svds : Svds) : Solver where
  tcp := 0
  link := .node 0
  maxErrorPositionMM := 1
  maxErrorOrientationRad := 1
  jacobianMaxLoops := 1
  translational := none
  inCollision := none
  goals := []
  step := fun goals => computeStep aa svds slide slideSet (slideConfig none) goals (4 / 5)

theorem slide_setup (aa : AngleAxes) (svds : Svds) (rnd : Nat → ℝ) :
    Setup slide.toRobot slideSet (slideSolver aa svds) (fun i => [rnd i]) where
  usable := slide_usable
  limits := by
    intro n hn
    have : n = 0 := by simpa [slideSet] using hn
    subst this
    constructor
    · show (-100 : ℝ) ≤ 100
      norm_num
    · intro h
      simp [slide, JRobot.toRobot] at h
  trans := by intro n q h; simp [slideSolver] at h
  steps := fun goals s d h => step_length aa svds slide slideSet (slideConfig none) goals (4 / 5) s d h
  random := by intro i; rfl

theorem slide_try (aa : AngleAxes) (svds : Svds) (x t : ℝ) (h1 : -100 ≤ x + 4 / 5 * (t - x))
    (h2 : x + 4 / 5 * (t - x) ≤ 100) (hc : 1 < |t - (x + 4 / 5 * (t - x))|) :
    trySolve slide.toRobot 1 slideSet aa (slideSolver aa svds) [slideGoal t] (slideAt x) =
      .done false (slideAt (x + 4 / 5 * (t - x))) := by
  unfold trySolve
  rw [show (slideSolver aa svds).jacobianMaxLoops = 1 from rfl,
    show (slideSolver aa svds).step [slideGoal t] =
      computeStep aa svds slide slideSet (slideConfig none) [slideGoal t] (4 / 5) from rfl,
    slide_one aa svds x t (4 / 5) 0 true h1 h2 hc le_rfl]

/-- **C58.** The end of the first attempt may be lost although it is the best of all: its error is never
compared, only that of the start is. Here the slide at 0 is to go to 10; the first attempt ends at 8, the
second one, from -9, at 6.2, and the robot is left there. -/
theorem C58_best_lost (aa : AngleAxes) (svds : Svds) :
    genericSolve slide.toRobot 1 slideSet aa (slideSolver aa svds) true (fun _ => [91 / 200])
        (slideGoal 10).target (slideGoal 10).mode 2 (slideAt 0) = .done false (slideAt (31 / 5)) ∧
      Tried slide.toRobot 1 slideSet aa (slideSolver aa svds) [slideGoal 10] (slideAt 0) false (slideAt 8) ∧
      meanError [slideGoal 10] (slideAt 8) < meanError [slideGoal 10] (slideAt (31 / 5)) := by
  have ht1 : trySolve slide.toRobot 1 slideSet aa (slideSolver aa svds) [slideGoal 10] (slideAt 0) =
      .done false (slideAt 8) := by
    have := slide_try aa svds 0 10 (by norm_num) (by norm_num) (by norm_num)
    norm_num at this
    exact this
  have ht2 : trySolve slide.toRobot 1 slideSet aa (slideSolver aa svds) [slideGoal 10] (slideAt (-9)) =
      .done false (slideAt (31 / 5)) := by
    have := slide_try aa svds (-9) 10 (by norm_num) (by norm_num) (by norm_num)
    norm_num at this
    exact this
  have hrand : setJointsRandom slide.toRobot 1 slideSet (slideSolver aa svds) [91 / 200] (slideAt 8) =
      .ok (slideAt (-9)) := by
    unfold setJointsRandom
    have hz : List.zipWith (fun n x => (slide.toRobot.lim n).lo +
        ((slide.toRobot.lim n).hi - (slide.toRobot.lim n).lo) * x) slideSet.nodes [91 / 200] = [-9] := by
      simp [slideSet, slide, JRobot.toRobot]
      norm_num
    simp only [hz, slide_set (x := 8) (y := -9) (by norm_num) (by norm_num)]
    rfl
  have hcfg : ∀ c : Cfg, ∀ x : ℝ, slideSet.setConfig slide.toRobot 1
      (readConfig slide.toRobot slideSet c (slideAt (31 / 5))) (slideAt (31 / 5)) = some (slideAt (31 / 5)) := by
    intro c x
    obtain ⟨s', h1, h2⟩ := config_ok slide_usable (fuel := 1) one_pos
      (fun n hn => readConfig_find slide_usable c (slideAt (31 / 5)) hn) (slide_fk (31 / 5))
    rw [h1, setTo_unique h2 (self_setTo (slide_fk _) (slide_limits (by norm_num) (by norm_num)))]
  refine ⟨?_, trySolve_iff.1 ht1, ?_⟩
  · unfold genericSolve
    have hgoals : setGoal (slideSolver aa svds).goals ⟨(slideSolver aa svds).tcp, (slideSolver aa svds).link,
        (slideGoal 10).target, (slideGoal 10).mode, (slideSolver aa svds).maxErrorPositionMM,
        (slideSolver aa svds).maxErrorOrientationRad⟩ = [slideGoal 10] := rfl
    simp only [hgoals, Bool.not_true, Bool.false_eq_true, if_false, ht1]
    show retry _ _ _ _ _ _ _ 1 1 _ _ _ = _
    rw [retry]
    simp only [hrand, ht2]
    rw [if_pos (by rw [getMean_eq, getMean_eq, slide_mean, slide_mean]; norm_num), retry]
    simp only [hcfg _ 0]
  · rw [slide_mean, slide_mean]; norm_num

/-- The hypotheses of `C58_run` hold of the slide. -/
example (aa : AngleAxes) (svds : Svds) := C58_run (fuel := 1) aa (slide_setup aa svds (fun _ => 1 / 2))
  one_pos true (slideGoal 10).target (slideGoal 10).mode 5 (slideAt 0) (slide_fk 0)
  (slide_limits (by norm_num) (by norm_num))

theorem slide_quiet (aa : AngleAxes) (svds : Svds) : Quiet (slideSolver aa svds) := by
  intro goals s
  show computeStep aa svds slide slideSet (slideConfig none) goals (4 / 5) s ≠ .throw
  unfold computeStep
  dsimp only
  split
  · simp
  · rename_i h
    simp [slideConfig, Simox.Inv.inverse, inverseInternal] at h

/-- The hypotheses of the theorems of C59 hold of the slide, with two grasps. -/
example (aa : AngleAxes) (svds : Svds) := C59_object (fuel := 1) aa
  (rnd := fun _ _ => [1 / 2]) (fun _ => slide_setup aa svds (fun _ => 1 / 2)) (slide_quiet aa svds)
  one_pos (fun _ => true) (fun _ => 7) (fun g => (slideGoal g).target) (slideGoal 10).mode 5 [20, 30]
  (slideAt 0) (slide_fk 0) (slide_limits (by norm_num) (by norm_num))

/-- A successful call of `solve(object)`, as `C59_object` describes: the slide at 9 reaches the pose 10 of
the only grasp. -/
example (aa : AngleAxes) (svds : Svds) : ∃ f, solveObject slide.toRobot 1 slideSet aa (slideSolver aa svds)
    (fun _ => true) (fun _ _ => [1 / 2]) (fun _ => 7) (fun _ => (slideGoal 10).target) (slideGoal 10).mode 5 [3]
    (slideAt 8) = some f ∧ f.grasp = some 3 := by
  have ht : trySolve slide.toRobot 1 slideSet aa (slideSolver aa svds) [slideGoal 10] (slideAt 8) =
      .done true (slideAt (48 / 5)) := by
    have hz : List.zipWith (fun n y => (slideAt 8).value n + y) slideSet.nodes [4 / 5 * (10 - 8)] =
        [(48 / 5 : ℝ)] := by simp [slideSet, slideAt]; norm_num
    have hyes : checkTolerances aa (slideAt (48 / 5)) [slideGoal 10] = true := by
      rw [check_iff, slide_met]; norm_num [abs_le]
    unfold trySolve computeSteps
    rw [show (slideSolver aa svds).step [slideGoal 10] =
      computeStep aa svds slide slideSet (slideConfig none) [slideGoal 10] (4 / 5) from rfl]
    show (match stepLoop _ _ _ _ _ _ _ _ 1 _ _ _ with
      | .done true s' => _
      | o => _) = _
    rw [stepLoop, slide_step_global]
    simp only [hz, slide_set (x := 8) (y := 48 / 5) (by norm_num) (by norm_num), if_pos hyes]
    rfl
  have hgen : genericSolve slide.toRobot 1 slideSet aa (slideSolver aa svds) true (fun _ => [1 / 2])
      (slideGoal 10).target (slideGoal 10).mode 5 (slideAt 8) = .done true (slideAt (48 / 5)) := by
    unfold genericSolve
    have hgoals : setGoal (slideSolver aa svds).goals ⟨(slideSolver aa svds).tcp, (slideSolver aa svds).link,
        (slideGoal 10).target, (slideGoal 10).mode, (slideSolver aa svds).maxErrorPositionMM,
        (slideSolver aa svds).maxErrorOrientationRad⟩ = [slideGoal 10] := rfl
    simp only [hgoals, Bool.not_true, Bool.false_eq_true, if_false, ht]
  refine ⟨⟨some 3, [3], applyJointValues slide.toRobot (slideAt (48 / 5))⟩, ?_, rfl⟩
  unfold solveObject
  rw [if_neg (by simp), graspLoop]
  simp only [sampleSolution, List.length_singleton, Nat.mod_one, List.getElem?_cons_zero, hgen]
  rfl

end Simox.Ik
