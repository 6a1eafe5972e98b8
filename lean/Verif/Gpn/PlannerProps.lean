import Verif.Gpn.PlannerLemmas

/-!
# C115: planning grasps
-/

namespace Simox.Gpn

open Matrix Jac Rot Kin

variable {H C : Type}

/-- A planner with a toy hand whose fingers are open or closed: closing gives three contacts at the object
and one away from it; the obstacle is at height 50 and more. -/
noncomputable def toyWorld : World Bool ℕ where
  eef := { gcp := fun _ => ⟨1, 0⟩, preshapeTcp := none, opened := fun _ => false, hits := fun _ _ => false }
  tcp := fun _ => ⟨1, ![0, 0, 5]⟩
  objectPose := ⟨1, ![1, 2, 3]⟩
  obstacles := some fun r _ => by classical exact decide (50 ≤ r.pos 2)
  close := fun r _ => (true, by classical exact if r.pos 2 = 0 then [1, 2, 3] else [1])
  statics := fun _ _ _ => []
  quality := fun l => l.length
  closed := fun _ => true

/-- Every grasp that is planned is good: the hand is clear of the obstacles before and after the fingers
are closed, there are at least two contacts, the demands on the quality are met, and the grasp describes the
hand. -/
theorem C115_grasp_is_good (w : World H C) (h : Hand H) (dir : V3) (bRes : Bool) (ms : ℝ) (p : Planner H C) (g : Grasp H)
    (hg : (w.planGrasp h dir bRes ms p).2.2 = some g) :
    bRes = true ∧ (∀ f, w.obstacles = some f → f h.root h.cfg = false) ∧
    Good w p.minQuality p.forceClosure (w.planGrasp h dir bRes ms p).1 (w.planGrasp h dir bRes ms p).2.1.contacts g := by
  refine ⟨?_, ?_, (planGrasp_good w h dir bRes ms p g hg).1⟩ <;>
  · obtain ⟨h', cs, r, hr, hc⟩ := planGrasp_cases w h dir bRes ms p
    rw [hr] at hg
    rcases hc with ⟨rfl, -⟩ | ⟨rfl, -⟩ | ⟨s, rfl, -⟩ | ⟨g', rfl, -, -, h1, h2, -⟩
    · cases hg
    · cases hg
    · cases hg
    · first
      | exact h1
      | exact hitsObstacles_false h2

example : ((toyWorld.planGrasp ⟨1, false⟩ ![0, 0, 1] true 7 (Planner.new [] 2 true)).2.2).isSome = true := by
  have h0 : (1 : Pose3).pos 2 = 0 := rfl
  simp [World.planGrasp, World.hitsObstacles, toyWorld, World.grab, World.closeActors, Planner.new, h0]
  norm_num

/-- Which outcome is recorded: a grasp comes out exactly if the hand is clear of the obstacles before and
after closing, there are two contacts and the demands are met; otherwise the first demand that is not met
is counted. -/
theorem C115_outcome (w : World H C) (h : Hand H) (dir : V3) (bRes : Bool) (ms : ℝ) (p : Planner H C) :
    let r := w.planGrasp h dir bRes ms p
    let ev := p.eval
    let ev' := r.2.1.eval
    let cs := r.2.1.contacts
    let hit := bRes = false ∨ w.hitsObstacles h = true ∨ w.hitsObstacles r.1 = true
    let bad := (p.forceClosure = true ∧ w.closed cs = false) ∨ w.quality cs < p.minQuality
    (hit → r.2.2 = none ∧ ev'.nrGraspsInvalidCollision = ev.nrGraspsInvalidCollision + 1) ∧
    (¬ hit → cs.length < 2 → r.2.2 = none ∧ ev'.nrGraspsInvalidContacts = ev.nrGraspsInvalidContacts + 1) ∧
    (¬ hit → 2 ≤ cs.length → bad → r.2.2 = none ∧ ev'.nrGraspsInvalidFC = ev.nrGraspsInvalidFC + 1) ∧
    (¬ hit → 2 ≤ cs.length → ¬ bad → r.2.2.isSome ∧ ev'.nrGraspsValid = ev.nrGraspsValid + 1) ∧
    ev'.nrGraspsGenerated = ev.nrGraspsGenerated + 1 := by
  obtain ⟨h', cs, r, hr, hc⟩ := planGrasp_cases w h dir bRes ms p
  dsimp only
  rw [hr]
  rcases hc with ⟨rfl, h1⟩ | ⟨rfl, h1, h2, h3, h4⟩ | ⟨s, rfl, h1, h5, h2, h3, h4⟩ | ⟨g', rfl, h1, -, h2, h3, h4⟩
  · exact ⟨fun _ => ⟨rfl, rfl⟩, fun h => absurd h1 h, fun h => absurd h1 h, fun h => absurd h1 h, rfl⟩
  · have hn : ¬ (bRes = false ∨ w.hitsObstacles h = true ∨ w.hitsObstacles h' = true) := by simp [h2, h3, h4]
    refine ⟨fun h => absurd h hn, fun _ _ => ⟨rfl, rfl⟩, fun _ h => ?_, fun _ h => ?_, rfl⟩ <;>
    · exfalso; dsimp only at h; omega
  · have hn : ¬ (bRes = false ∨ w.hitsObstacles h = true ∨ w.hitsObstacles h' = true) := by simp [h2, h3, h4]
    refine ⟨fun h => absurd h hn, fun _ h => ?_, fun _ _ _ => ⟨rfl, rfl⟩, fun _ _ h => absurd h5 h, rfl⟩
    exfalso; dsimp only at h; omega
  · have hn : ¬ (bRes = false ∨ w.hitsObstacles h = true ∨ w.hitsObstacles h' = true) := by simp [h2, h3, h4]
    refine ⟨fun h => absurd h hn, fun _ h => ?_, fun _ _ hb => ?_, fun _ _ _ => ⟨rfl, rfl⟩, rfl⟩
    · exfalso; have := h1.two; dsimp only at h; omega
    · exfalso
      rcases hb with ⟨hb1, hb2⟩ | hb
      · have := h1.closure hb1
        dsimp only at hb2
        rw [hb2] at this
        cases this
      · exact absurd h1.enough (not_le.2 hb)

/-- `plan(nrGrasps, timeOutMS)`: the number that is returned is the number of grasps that were added, to
the grasp set and to the list of planned grasps, at the end of both; it is not more than what was asked for,
and less only if the time was up; and all the added grasps are good. -/
theorem C115_plan (w : World H C) (nr tm : ℤ) (ts : List (Turn H)) (h h' : Hand H) (p p' : Planner H C) (k : ℕ)
    (hr : w.plan nr tm ts h p = some (k, h', p')) :
    ∃ gs : List (Grasp H), gs.length = k ∧ p'.graspSet = p.graspSet ++ gs ∧ p'.plannedGrasps = p.plannedGrasps ++ gs ∧
      (k : ℤ) ≤ max nr 0 ∧ ((k : ℤ) < nr → ∃ t ∈ ts, tm ≤ 0 ∨ t.now > tm) ∧
      (∀ g ∈ gs, ∃ h cs, Good w p.minQuality p.forceClosure h cs g) := by
  obtain ⟨gs, h1, h2, h3, h4, h5, -, -, h8, -⟩ := planLoop_spec w nr tm ts 0 h p _ hr
  refine ⟨gs, by simpa using h1.symm, h2, h3, h4 (by omega), ?_, h8⟩
  intro hk
  rcases h5 with h5 | ⟨t, ht, h5⟩
  · exfalso; dsimp only at h5; omega
  · refine ⟨t, ht, ?_⟩
    simpa [timeout] using h5

/-- `plan` ends once the time is up. -/
theorem C115_plan_ends (w : World H C) (nr tm : ℤ) (ts : List (Turn H)) (h : Hand H) (p : Planner H C)
    (ht : ∃ t ∈ ts, t.now > (tm : ℝ)) : (w.plan nr tm ts h p).isSome := by
  obtain ⟨t, h1, h2⟩ := ht
  exact planLoop_ends w nr tm ts 0 h p ⟨t, h1, by simp [timeout, h2]⟩

/-- The documentation says that a time-out of zero, the default, disables the time-out; in fact no grasp is
planned at all then. -/
theorem C115_timeout_false (w : World H C) (nr tm : ℤ) (htm : tm ≤ 0) (t : Turn H) (ts : List (Turn H)) (h : Hand H)
    (p : Planner H C) : w.plan nr tm (t :: ts) h p = some (0, h, p) := by
  unfold World.plan World.planLoop
  rw [if_neg (by simp [timeout, htm])]

/-- One step of a user. -/
noncomputable def World.op (w : World H C) : Op H → Hand H × Planner H C → Option (Hand H × Planner H C)
  | .setParameters q f, (h, p) => some (h, p.setParameters q f)
  | .setRetreat b, (h, p) => some (h, p.setRetreat b)
  | .clearEvaluation, (h, p) => some (h, p.clearEvaluation)
  | .plan nr tm ts, (h, p) => (w.plan nr tm ts h p).map fun r => (r.2.1, r.2.2)

/-- A history of a planner. -/
noncomputable def World.ops (w : World H C) : List (Op H) → Hand H × Planner H C → Option (Hand H × Planner H C)
  | [], s => some s
  | o :: os, s => (w.op o s).bind (w.ops os)

theorem ops_invariant (w : World H C) (gs₀ : List (Grasp H)) :
    ∀ (os : List (Op H)) (s s' : Hand H × Planner H C), Consistent s.2.eval →
      s.2.graspSet = gs₀ ++ s.2.plannedGrasps → s.2.eval.nrGraspsValid ≤ s.2.plannedGrasps.length →
      w.ops os s = some s' →
      Consistent s'.2.eval ∧ s'.2.graspSet = gs₀ ++ s'.2.plannedGrasps ∧
        s'.2.eval.nrGraspsValid ≤ s'.2.plannedGrasps.length
  | [], s, s', hc, hg, hv, hr => by
      simp only [World.ops, Option.some.injEq] at hr
      subst hr
      exact ⟨hc, hg, hv⟩
  | o :: os, (h, p), s', hc, hg, hv, hr => by
      unfold World.ops at hr
      cases o with
      | setParameters q f => exact ops_invariant w gs₀ os (h, p.setParameters q f) s' hc hg hv hr
      | setRetreat b => exact ops_invariant w gs₀ os (h, p.setRetreat b) s' hc hg hv hr
      | clearEvaluation =>
          refine ops_invariant w gs₀ os (h, p.clearEvaluation) s' ?_ hg ?_ hr
          · exact ⟨rfl, rfl, rfl, rfl, rfl, rfl, rfl, rfl⟩
          · simp [Planner.clearEvaluation, Eval.new]
      | plan nr tm ts =>
          change ((w.plan nr tm ts h p).map fun r => (r.2.1, r.2.2)).bind (w.ops os) = some s' at hr
          cases hp : w.plan nr tm ts h p with
          | none => rw [hp] at hr; simp at hr
          | some r =>
              rw [hp] at hr
              obtain ⟨gs, h1, h2, h3, h4, h5, h6, h7, h8, -⟩ := planLoop_spec w nr tm ts 0 h p _ hp
              refine ops_invariant w gs₀ os (r.2.1, r.2.2) s' (h7 hc) ?_ ?_ hr
              · dsimp only at hg ⊢
                rw [h2, h3, hg, List.append_assoc]
              · exact planLoop_valid w nr tm ts 0 h p r hp hv
where
  planLoop_valid (w : World H C) (nr tm : ℤ) : ∀ (ts : List (Turn H)) (k : ℕ) (h : Hand H) (p : Planner H C)
      (r : ℕ × Hand H × Planner H C), w.planLoop nr tm ts k h p = some r →
      p.eval.nrGraspsValid ≤ p.plannedGrasps.length → r.2.2.eval.nrGraspsValid ≤ r.2.2.plannedGrasps.length
    | [], _, _, _, _, hr, _ => by cases hr
    | t :: ts, k, h, p, r, hr, hv => by
        unfold World.planLoop at hr
        by_cases hc : (!timeout tm t.now && decide ((k : ℤ) < nr)) = true
        · rw [if_pos hc] at hr
          dsimp only at hr
          obtain ⟨h', cs, q, hq, hcs⟩ := planGrasp_cases w (t.approach h).1 (t.approach h).2.1 (t.approach h).2.2 t.ms p
          rw [hq] at hr
          rcases hcs with ⟨rfl, -⟩ | ⟨rfl, -⟩ | ⟨s, rfl, -⟩ | ⟨g, rfl, -⟩
          · exact planLoop_valid w nr tm ts k h' _ r hr hv
          · exact planLoop_valid w nr tm ts k h' _ r hr hv
          · exact planLoop_valid w nr tm ts k h' _ r hr hv
          · refine planLoop_valid w nr tm ts (k + 1) h' _ r hr ?_
            simpa [Eval.record] using hv
        · rw [if_neg hc] at hr
          simp only [Option.some.injEq] at hr
          subst hr
          exact hv

/-- Whatever is done with a planner, its evaluation counts every generated grasp once, under the outcome it
had, the grasp set holds what it held at the beginning followed by the planned grasps, and these are at
least as many as are counted as valid. -/
theorem C115_evaluation (w : World H C) (gs₀ : List (Grasp H)) (q : ℝ) (fc : Bool) (os : List (Op H)) (h : Hand H)
    (s : Hand H × Planner H C) (hr : w.ops os (h, Planner.new gs₀ q fc) = some s) :
    Consistent s.2.eval ∧ s.2.graspSet = gs₀ ++ s.2.plannedGrasps ∧
      s.2.eval.nrGraspsValid ≤ s.2.plannedGrasps.length := by
  refine ops_invariant w gs₀ os _ _ ?_ ?_ ?_ hr
  · exact ⟨rfl, rfl, rfl, rfl, rfl, rfl, rfl, rfl⟩
  · simp [Planner.new]
  · simp [Planner.new, Eval.new]

/-- One turn with a good pose, one with an obstacle, one out of time. -/
noncomputable def toyTurns : List (Turn Bool) :=
  [⟨1, fun h => (⟨1, h.cfg⟩, ![0, 0, 1], true), 1⟩, ⟨2, fun h => (⟨⟨1, ![0, 0, 60]⟩, h.cfg⟩, ![0, 0, 1], true), 1⟩,
    ⟨1001, fun h => (h, ![0, 0, 1], true), 1⟩]

example : (toyWorld.ops [.setRetreat false, .plan 5 1000 toyTurns] (⟨1, false⟩, Planner.new [] 2 true)).isSome = true := by
  have := C115_plan_ends toyWorld 5 1000 toyTurns ⟨1, false⟩ ((Planner.new [] 2 true).setRetreat false)
    ⟨⟨1001, fun h => (h, ![0, 0, 1], true), 1⟩, by simp [toyTurns], by norm_num⟩
  simpa [World.ops, World.op] using this

/-- The names of the grasps that are added in one go are all different, and different from those in the
set if these are numbered through. -/
theorem C115_names_partial (w : World H C) (nr tm : ℤ) (ts : List (Turn H)) (h h' : Hand H) (p p' : Planner H C) (k : ℕ)
    (hn : p.graspSet.map Grasp.name = (List.range p.graspSet.length).map (· + 1))
    (hr : w.plan nr tm ts h p = some (k, h', p')) :
    p'.graspSet.map Grasp.name = (List.range p'.graspSet.length).map (· + 1) ∧ (p'.graspSet.map Grasp.name).Nodup := by
  obtain ⟨gs, h1, h2, h3, h4, h5, -, -, -, h9⟩ := planLoop_spec w nr tm ts 0 h p _ hr
  have key : p'.graspSet.map Grasp.name = (List.range p'.graspSet.length).map (· + 1) := by
    dsimp only at h2
    rw [h2, List.map_append, hn, h9, List.length_append, List.range_add, List.map_append, List.map_map]
    congr 1
    apply List.map_congr_left
    intro i _
    simp only [Function.comp]
    omega
  refine ⟨key, ?_⟩
  rw [key]
  exact (List.nodup_range).map (fun a b hab => by simpa using hab)

/-- In general the names are not different: if the set holds one grasp with the name "Grasp 2" the next grasp
gets this name too. -/
theorem C115_names_false :
    ∃ (w : World Bool ℕ) (h : Hand Bool) (p : Planner Bool ℕ) (g g' : Grasp Bool),
      p.graspSet = [g] ∧ (w.planGrasp h ![0, 0, 1] true 0 p).2.2 = some g' ∧ g'.name = g.name := by
  have h0 : (1 : Pose3).pos 2 = 0 := rfl
  have hs : ((toyWorld.planGrasp ⟨1, false⟩ ![0, 0, 1] true 0 (Planner.new [⟨2, 1, true, 0⟩] 2 true)).2.2).isSome = true := by
    simp [World.planGrasp, World.hitsObstacles, toyWorld, World.grab, World.closeActors, Planner.new, h0]
    norm_num
  obtain ⟨g', hg'⟩ := Option.isSome_iff_exists.1 hs
  exact ⟨toyWorld, ⟨1, false⟩, Planner.new [⟨2, 1, true, 0⟩] 2 true, ⟨2, 1, true, 0⟩, g', rfl, hg',
    (planGrasp_good _ _ _ _ _ _ _ hg').2⟩

/-- The demands that are reported with the evaluation are those of the constructor, or none after
`clearEvaluation`; they are not those that were used if `setParameters` was called. -/
theorem C115_reported_demands_false (w : World H C) (h : Hand H) :
    (∀ (gs : List (Grasp H)) (q q' : ℝ) (f f' : Bool), ∃ p : Planner H C,
      w.ops [.setParameters q' f'] (h, Planner.new gs q f) = some (h, p) ∧ p.minQuality = q' ∧ p.forceClosure = f' ∧
        p.eval.minQuality = q ∧ p.eval.fcCheck = f) ∧
    (∀ (gs : List (Grasp H)) (q : ℝ) (f : Bool), ∃ p : Planner H C,
      w.ops [.clearEvaluation] (h, Planner.new gs q f) = some (h, p) ∧ p.minQuality = q ∧ p.forceClosure = f ∧
        p.eval.minQuality = 0 ∧ p.eval.fcCheck = false) :=
  ⟨fun _ _ _ _ _ => ⟨_, rfl, rfl, rfl, rfl, rfl⟩, fun _ _ _ => ⟨_, rfl, rfl, rfl, rfl, rfl⟩⟩

/-- The retreat for small objects: if it succeeds the hand was shifted by one to ten steps along the
direction, the fingers are open, the hand does not touch the object, and closing the fingers there gives at
least two contacts. -/
theorem C115_retreat_partial (w : World H C) (d : V3) (n : ℕ) (h h' : Hand H) (c₀ : H) (hm : w.eef.preshapeTcp = none)
    (ho : ∀ c c', w.eef.opened c = w.eef.opened c')
    (hs : h.root.rot = 1 ∨ (h.root * w.eef.gcp (w.eef.opened c₀)).rot ≠ 1) (hr : w.retreat d n h = (h', true)) :
    ∃ k : ℕ, 1 ≤ k ∧ k ≤ n ∧ h' = (⟨h.root, w.eef.opened c₀⟩ : Hand H).shift ((k : ℝ) • d) ∧ Free w.eef h' ∧
      2 ≤ (w.close h'.root h'.cfg).2.length :=
  retreat_spec w d hm ho c₀ n h hs h' hr

example : ∃ h', toyWorld.retreat ((5 : ℝ) • ![0, 0, 1]) 10 ⟨⟨1, ![0, 0, -10]⟩, true⟩ = (h', true) := by
  have hu : ∀ (v : V3) (b : Bool), toyWorld.eef.update ((5 : ℝ) • ![0, 0, 1]) ⟨⟨1, v⟩, b⟩ =
      (⟨⟨1, v⟩, b⟩ : Hand Bool).shift ((5 : ℝ) • ![0, 0, 1]) := fun v b => update_shift _ _ _ rfl (.inr rfl)
  have e1 : (![0, 0, -10] : V3) + (5 : ℝ) • ![0, 0, 1] = ![0, 0, -5] := by
    funext i; fin_cases i <;> norm_num
  have e2 : (![0, 0, -5] : V3) + (5 : ℝ) • ![0, 0, 1] = ![0, 0, 0] := by
    funext i; fin_cases i <;> norm_num
  have c1 : (toyWorld.close ⟨1, ![0, 0, -5]⟩ false) = (true, [1]) := by simp [toyWorld]
  have c2 : (toyWorld.close ⟨1, ![0, 0, 0]⟩ false) = (true, [1, 2, 3]) := by simp [toyWorld]
  have o1 : ∀ h : Hand Bool, toyWorld.eef.openHand h = ⟨h.root, false⟩ := fun h => rfl
  have f1 : ∀ r b, toyWorld.eef.hits r b = false := fun r b => rfl
  unfold World.retreat
  rw [o1, hu]
  simp only [Hand.shift, e1, f1, World.closeActors, c1, Bool.false_eq_true, if_false]
  rw [if_neg (by simp)]
  unfold World.retreat
  rw [o1, hu]
  simp only [Hand.shift, e2, f1, World.closeActors, c2, Bool.false_eq_true, if_false]
  rw [if_pos (by simp)]
  exact ⟨_, rfl⟩

/-- The sums of the loop of `toCSVString`. -/
theorem accumulate_spec (ev : Eval) (hc : Consistent ev) :
    ∀ i ≤ ev.nrGraspsGenerated, accumulate ev i = some ((ev.timeGraspMS.take i).sum, (ev.graspValid.take i).count true,
      (((ev.graspScore.zip ev.graspValid).take i).map fun x => if x.2 then x.1 else 0).sum, i, 0)
  | 0, _ => by simp [accumulate]
  | i + 1, hi => by
      obtain ⟨h1, h2, h3, h4, h5, h6, h7, h8⟩ := hc
      have ht : i < ev.timeGraspMS.length := by omega
      have hs : i < ev.graspScore.length := by omega
      have hv : i < ev.graspValid.length := by omega
      have hz : i < (ev.graspScore.zip ev.graspValid).length := by simp; omega
      unfold accumulate
      rw [accumulate_spec ev ⟨h1, h2, h3, h4, h5, h6, h7, h8⟩ i (by omega)]
      have e1 : ev.timeGraspMS[i]? = some ev.timeGraspMS[i] := List.getElem?_eq_getElem ht
      have e2 : ev.graspScore[i]? = some ev.graspScore[i] := List.getElem?_eq_getElem hs
      have e3 : ev.graspValid[i]? = some ev.graspValid[i] := List.getElem?_eq_getElem hv
      have e4 : ev.graspTypePower[i]? = some true := by
        rw [h5, List.getElem?_replicate, if_pos (by omega)]
      rw [List.take_add_one, List.take_add_one, List.take_add_one, e1, e3, e4, List.getElem?_eq_getElem hz, List.getElem_zip]
      cases hb : ev.graspValid[i] <;> simp [e2] <;> rw [List.take_add_one, e1, List.sum_append] <;> simp

/-- The report: the number of invalid grasps is what is not valid, the time is the average of the
recorded times, the score is the average over the valid grasps, and all the grasps count as power grasps. -/
theorem C115_report (ev : Eval) (hc : Consistent ev) :
    ∃ s : Summary, ev.summary = some s ∧ s.nrInvalid + ev.nrGraspsValid = ev.nrGraspsGenerated ∧
      s.avgTime * ev.nrGraspsGenerated = ev.timeGraspMS.sum ∧
      s.avgScore * ev.nrGraspsValid = ((ev.graspScore.zip ev.graspValid).map fun x => if x.2 then x.1 else 0).sum ∧
      (0 < ev.nrGraspsGenerated → s.percPower = 1) ∧ s.percPrec = 0 := by
  have ha := accumulate_spec ev hc ev.nrGraspsGenerated (le_refl _)
  obtain ⟨h1, h2, h3, h4, h5, h6, h7, h8⟩ := hc
  have hz : (ev.graspScore.zip ev.graspValid).length = ev.nrGraspsGenerated := by simp; omega
  rw [← h2] at ha
  rw [List.take_length, h2, ← h4, List.take_length, h4, ← hz, List.take_length, h6, hz] at ha
  unfold Eval.summary
  rw [h2, ha]
  refine ⟨_, rfl, ?_, ?_, ?_, ?_, ?_⟩
  · dsimp only; omega
  · dsimp only
    by_cases hn : ev.nrGraspsGenerated > 0
    · rw [if_pos hn, div_mul_cancel₀]
      exact_mod_cast hn.ne'
    · rw [if_neg hn]
      have h0 : ev.nrGraspsGenerated = 0 := by omega
      rw [h0] at h2
      rw [List.length_eq_zero_iff.1 h2]
      simp
  · dsimp only
    by_cases hn : ev.nrGraspsValid > 0
    · rw [if_pos hn, div_mul_cancel₀]
      exact_mod_cast hn.ne'
    · rw [if_neg hn]
      have h0 : ev.graspValid.count true = 0 := by omega
      have : ∀ x ∈ (ev.graspScore.zip ev.graspValid), (if x.2 then x.1 else 0 : ℝ) = 0 := by
        intro x hx
        have hm := (List.of_mem_zip hx).2
        cases hb : x.2 with
        | false => simp
        | true => rw [hb] at hm; exact absurd hm (List.count_eq_zero.1 h0)
      rw [List.map_congr_left this]
      simp
  · intro hn
    dsimp only
    rw [if_pos hn, div_self]
    exact_mod_cast hn.ne'
  · dsimp only
    simp

/-- Three attempts: a grasp, a collision and too few contacts. -/
example : Consistent ⟨3, 1, 1, 0, 1, 0, 1, [7, 1, 2], [3, 0, 0], [true, false, false], [true, true, true], true, 2⟩ :=
  ⟨rfl, rfl, rfl, rfl, rfl, rfl, rfl, rfl⟩

end Simox.Gpn
