import Verif.Ik.Lemmas

/-!
# C56, C57: differential inverse kinematics
-/

namespace Simox.Ik

open Matrix Kin Kin.Spec Jac Spec

/-! ## C56: the step loop -/

/-- The reported errors: `getErrorPosition` is the distance in the selected coordinates, `getErrorRotation`
the angle between the orientations (which exists and is unique), `getMeanErrorPosition` the mean, and
`checkTolerances` says whether all goals are met. -/
theorem C56_errors (aa : AngleAxes) (s : St Pose3) (goals : List Goal) :
    (∀ g, getErrorPosition s g = posError g.mode g.target.pos (s.pose g.obj).pos) ∧
    (∀ g a, getErrorRotation aa s g = a ↔ IsRotError g.mode g.target.rot (s.pose g.obj).rot a) ∧
    getMeanErrorPosition s goals = meanError goals s ∧
    (checkTolerances aa s goals = true ↔ AllMet s goals) :=
  ⟨getErrorPosition_eq s, fun g _ => ⟨fun h => h ▸ getErrorRotation_spec aa s g,
    fun h => isRotError_unique (getErrorRotation_spec aa s g) h⟩, getMean_eq s goals, check_iff aa s goals⟩

/-- When `computeSteps` / `solveIK` reports success, every goal is met in the state it leaves, whatever the
steps were, whatever propagation the joints have and whatever node set is used. -/
theorem C56_success (r : Robot Pose3) (fuel : Nat) (ns : NodeSet) (aa : AngleAxes) (goals : List Goal)
    (step : St Pose3 → Step) (minChange : ℝ) (improve : Bool) (maxNStep : Int) (s s' : St Pose3)
    (h : computeSteps r fuel ns aa goals step minChange improve maxNStep s = .done true s') :
    AllMet s' goals := by
  unfold computeSteps at h
  revert h
  generalize maxNStep.toNat = k
  generalize ns.nodes.map s.value = best
  generalize (none : Option ℝ) = last
  have hundo : ∀ best (s s' : St Pose3), undo r fuel ns best s ≠ .done true s' := by
    intro best s s' h
    unfold undo at h
    split at h <;> simp at h
  induction k generalizing best last s with
  | zero => intro h; exact absurd h (hundo _ _ _)
  | succ k ih =>
    intro h
    rw [stepLoop] at h
    split at h
    · simp at h
    · simp at h
    · dsimp only at h
      split at h
      · simp at h
      · simp at h
      · split at h
        · rename_i s1 hc
          simp only [Out.done.injEq, true_and] at h
          exact h ▸ (check_iff aa _ goals).1 hc
        · split at h
          · exact absurd h (hundo _ _ _)
          · split at h
            · exact absurd h (hundo _ _ _)
            · exact ih _ _ _ h

/-- What `computeSteps` / `solveIK` does, for every rule for the steps: it walks step by step, at most
`maxNStep` steps, and stops successfully in the first state (after the start) in which all goals are met.
When it reports failure, the robot is in the last state that was accepted - the last, rejected step is
taken back, also for joints at their limits - none of the states met the goals, and there was a reason to
give up. With `checkImprovements` the mean position errors after each step never increase. Exceptions come
from the step only, and the loop always ends. -/
theorem C56_run (r : Robot Pose3) (ns : NodeSet) (hu : Usable r ns) (fuel : Nat) (hf : 0 < fuel)
    (aa : AngleAxes) (goals : List Goal) (step : St Pose3 → Step)
    (hstep : ∀ s d, step s = .move d → d.length = ns.nodes.length) (minChange : ℝ) (improve : Bool)
    (maxNStep : Int) (s : St Pose3) (hs : FK r s) (hl : InLimits r ns.nodes s) :
    match computeSteps r fuel ns aa goals step minChange improve maxNStep s with
    | .done true s' => ∃ l, Walk r ns.nodes step s (l ++ [s']) ∧ l.length < maxNStep.toNat ∧
        AllMet s' goals ∧ (∀ t ∈ l, ¬AllMet t goals) ∧
        (improve = true → l.Pairwise fun a b => meanError goals b ≤ meanError goals a)
    | .done false s' => ∃ l, Walk r ns.nodes step s l ∧ l.length ≤ maxNStep.toNat ∧ s' = final s l ∧
        (∀ t ∈ l, ¬AllMet t goals) ∧
        (improve = true → l.Pairwise fun a b => meanError goals b ≤ meanError goals a) ∧
        GivesUp r ns.nodes goals step minChange improve maxNStep.toNat l.length s'
    | .throw s' => ∃ l, Walk r ns.nodes step s l ∧ l.length < maxNStep.toNat ∧ s' = final s l ∧
        (∀ t ∈ l, ¬AllMet t goals) ∧ step s' = .throw
    | .diverge => False := by
  have h := stepLoop_spec r ns hu fuel hf aa goals step hstep minChange improve maxNStep.toNat
    (ns.nodes.map s.value) none s hs (by simp)
    (setTo_congr (fun n hn => (valOf_map hu.distinct s.value hn).symm) (self_setTo hs hl)) (by simp)
  unfold computeSteps
  revert h
  cases stepLoop r fuel ns aa goals step minChange improve maxNStep.toNat (ns.nodes.map s.value) none s with
  | diverge => exact id
  | throw s' => exact id
  | done b s' =>
    cases b with
    | true => simpa using fun l h1 h2 h3 h4 h5 => ⟨l, h1, h2, h3, h4, h5⟩
    | false =>
      rintro ⟨l, h1, h2, h3, h4, h5, h6⟩
      refine ⟨l, h1, h2, h3, h4, by simpa using h5, ?_⟩
      simpa [GivesUp] using h6

/-- Only the joints of the node set change, and the poses stay those of forward kinematics. -/
theorem C56_only_set_joints (r : Robot Pose3) (ns : NodeSet) (hu : Usable r ns) (fuel : Nat) (hf : 0 < fuel)
    (aa : AngleAxes) (goals : List Goal) (step : St Pose3 → Step)
    (hstep : ∀ s d, step s = .move d → d.length = ns.nodes.length) (minChange : ℝ) (improve : Bool)
    (maxNStep : Int) (s s' : St Pose3) (b : Bool) (hs : FK r s) (hl : InLimits r ns.nodes s)
    (h : computeSteps r fuel ns aa goals step minChange improve maxNStep s = .done b s') :
    FK r s' ∧ s'.base = s.base ∧ ∀ n, n ∉ ns.nodes → s'.value n = s.value n := by
  have hrun := C56_run r ns hu fuel hf aa goals step hstep minChange improve maxNStep s hs hl
  rw [h] at hrun
  have hself := self_setTo hs hl
  suffices ∃ w, SetTo r ns.nodes w s s' by
    obtain ⟨w, h1, h2, -, -, h5⟩ := this
    exact ⟨h2, h1, h5⟩
  cases b with
  | true =>
    obtain ⟨l, hw, -⟩ := hrun
    exact walk_setTo hw _ hself s' (by simp)
  | false =>
    obtain ⟨l, hw, -, rfl, -⟩ := hrun
    unfold final
    rcases List.eq_nil_or_concat l with rfl | ⟨l, t, rfl⟩
    · exact ⟨_, hself⟩
    · exact walk_setTo hw _ hself _ (by simp)

/-- With `checkImprovements`, a run that fails after at least one accepted step leaves the robot in a state
whose mean position error is no larger than after any accepted step; see `C56_first_step_may_worsen` for
the comparison with the start. -/
theorem C56_no_worse (r : Robot Pose3) (ns : NodeSet) (hu : Usable r ns) (fuel : Nat) (hf : 0 < fuel)
    (aa : AngleAxes) (goals : List Goal) (step : St Pose3 → Step)
    (hstep : ∀ s d, step s = .move d → d.length = ns.nodes.length) (minChange : ℝ) (maxNStep : Int)
    (s s' : St Pose3) (hs : FK r s) (hl : InLimits r ns.nodes s)
    (h : computeSteps r fuel ns aa goals step minChange true maxNStep s = .done false s') :
    ∃ l, Walk r ns.nodes step s l ∧ s' = final s l ∧
      ∀ t ∈ l, meanError goals s' ≤ meanError goals t := by
  have hrun := C56_run r ns hu fuel hf aa goals step hstep minChange true maxNStep s hs hl
  rw [h] at hrun
  obtain ⟨l, hw, -, rfl, -, hp, -⟩ := hrun
  refine ⟨l, hw, rfl, ?_⟩
  have hp := hp rfl
  rcases List.eq_nil_or_concat l with rfl | ⟨l, t, rfl⟩
  · simp
  · intro u hu'
    have : final s (l ++ [t]) = t := by simp [final]
    rw [List.concat_eq_append] at *
    rw [this]
    rcases List.mem_append.1 hu' with h1 | h1
    · exact (List.pairwise_append.1 hp).2.2 u h1 t (by simp)
    · rw [List.mem_singleton.1 h1]

/-- `setGoal` keeps one goal per tcp, the one set last. -/
theorem C56_goals (gs : List Goal) :
    let goals := gs.foldl setGoal []
    (goals.map (·.obj)).Nodup ∧ (∀ g ∈ goals, g ∈ gs) ∧
      ∀ pre g post, gs = pre ++ g :: post → (∀ h ∈ post, h.obj ≠ g.obj) → g ∈ goals := by
  have key : ∀ gs : List Goal, ((gs.foldl setGoal []).map (·.obj)).Nodup ∧
      ∀ g, g ∈ gs.foldl setGoal [] ↔
        ∃ pre post, gs = pre ++ g :: post ∧ ∀ h ∈ post, h.obj ≠ g.obj := by
    intro gs
    induction gs using List.reverseRecOn with
    | nil => simp
    | append_singleton gs x ih =>
      obtain ⟨ihn, ihm⟩ := ih
      rw [List.foldl_append]
      simp only [List.foldl_cons, List.foldl_nil]
      generalize gs.foldl setGoal [] = cur at *
      have hiff : ∀ g, (∃ pre post, gs ++ [x] = pre ++ g :: post ∧ ∀ h ∈ post, h.obj ≠ g.obj) ↔
          g = x ∨ (g ∈ cur ∧ x.obj ≠ g.obj) := by
        intro g
        rw [ihm]
        constructor
        · rintro ⟨pre, post, he, hp⟩
          rcases List.eq_nil_or_concat post with rfl | ⟨post, y, rfl⟩
          · have := List.append_inj' he rfl
            exact .inl (by simpa using this.2.symm)
          · rw [List.concat_eq_append, ← List.cons_append, ← List.append_assoc] at he
            have := List.append_inj' he rfl
            have hy : x = y := by simpa using this.2
            subst hy
            exact .inr ⟨⟨pre, post, this.1, fun h hh => hp h (by simp [hh])⟩, hp x (by simp)⟩
        · rintro (rfl | ⟨⟨pre, post, rfl, hp⟩, hne⟩)
          · exact ⟨gs, [], rfl, by simp⟩
          · refine ⟨pre, post ++ [x], by simp, fun h hh => ?_⟩
            rcases List.mem_append.1 hh with h1 | h1
            · exact hp h h1
            · rw [List.mem_singleton.1 h1]; exact hne
      unfold setGoal
      by_cases hany : cur.any (fun h => h.obj == x.obj) = true
      · rw [if_pos hany]
        refine ⟨?_, fun g => ?_⟩
        · have : (cur.map (fun h => if h.obj = x.obj then x else h)).map (·.obj) = cur.map (·.obj) := by
            rw [List.map_map]
            refine List.map_congr_left fun h _ => ?_
            simp only [Function.comp]
            split_ifs with h1
            · exact h1.symm
            · rfl
          rw [this]; exact ihn
        · rw [hiff]
          simp only [List.mem_map]
          constructor
          · rintro ⟨h, hh, rfl⟩
            by_cases h1 : h.obj = x.obj
            · rw [if_pos h1]; exact .inl rfl
            · rw [if_neg h1]; exact .inr ⟨hh, fun h2 => h1 h2.symm⟩
          · rintro (rfl | ⟨h1, h2⟩)
            · obtain ⟨h, hh, he⟩ := List.any_eq_true.1 hany
              exact ⟨h, hh, by simp_all⟩
            · exact ⟨g, h1, by rw [if_neg fun h => h2 h.symm]⟩
      · rw [if_neg hany]
        have hno : ∀ h ∈ cur, h.obj ≠ x.obj := by
          intro h hh he
          exact hany (List.any_eq_true.2 ⟨h, hh, by simp [he]⟩)
        refine ⟨?_, fun g => ?_⟩
        · rw [List.map_append, List.nodup_append]
          refine ⟨ihn, by simp, ?_⟩
          intro a ha b hb
          obtain ⟨h, hh, rfl⟩ := List.mem_map.1 ha
          have : b = x.obj := by simpa using hb
          exact this ▸ hno h hh
        · rw [hiff, List.mem_append]
          constructor
          · rintro (h | h)
            · exact .inr ⟨h, fun he => hno g h he.symm⟩
            · exact .inl (by simpa using h)
          · rintro (h | h)
            · exact .inr (by simp [h])
            · exact .inl h.1
  refine ⟨(key gs).1, fun g hg => ?_, fun pre g post h hp => ((key gs).2 g).2 ⟨pre, post, h, hp⟩⟩
  obtain ⟨pre, post, rfl, -⟩ := ((key gs).2 g).1 hg
  simp

end Simox.Ik
