import Verif.Gpn.UncertainSpec
import Mathlib.Tactic.Linarith
import Mathlib.Tactic.FieldSimp

/-!
# C117: evaluating grasps under pose uncertainty
-/

namespace Simox.Gpn

open Matrix Jac Rot Mth

variable {R H C Q : Type}

theorem foldl_add (rs : List PoseResult) : ∀ res : Results,
    let r := rs.foldl Results.add res
    r.numPosesTested = res.numPosesTested ∧
    r.numValidPoses = res.numValidPoses + rs.countP (fun x => !x.initialCollision) ∧
    r.numColPoses = res.numColPoses + rs.countP (fun x => x.initialCollision) ∧
    r.numForceClosurePoses = res.numForceClosurePoses + rs.countP (fun x => !x.initialCollision && x.forceClosure) ∧
    r.forceClosureRate = res.forceClosureRate + (rs.countP (fun x => !x.initialCollision && x.forceClosure) : ℕ) ∧
    r.forceClosureRateCol = res.forceClosureRateCol + (rs.countP (fun x => !x.initialCollision && x.forceClosure) : ℕ) ∧
    r.avgQuality = res.avgQuality + ((rs.filter (fun x => !x.initialCollision)).map PoseResult.quality).sum ∧
    r.avgQualityCol = res.avgQualityCol + ((rs.filter (fun x => !x.initialCollision)).map PoseResult.quality).sum := by
  induction rs with
  | nil => intro res; simp
  | cons x rs ih =>
      intro res
      dsimp only at ih ⊢
      rw [List.foldl_cons]
      obtain ⟨h1, h2, h3, h4, h5, h6, h7, h8⟩ := ih (res.add x)
      rw [h1, h2, h3, h4, h5, h6, h7, h8]
      unfold Results.add
      cases hc : x.initialCollision <;> cases hf : x.forceClosure <;> simp [hc, hf] <;>
        (try refine ⟨?_, ?_⟩) <;> (try refine ⟨?_, ?_⟩) <;> (try refine ⟨?_, ?_⟩) <;> (try refine ⟨?_, ?_⟩) <;>
        (try refine ⟨?_, ?_⟩) <;> first | omega | ring

/-- **C117 (statistics).** Of the results of the poses: every pose is counted, as in collision at the
beginning or as valid; the rates of force closure are over the valid poses and over all the poses, and so are
the average qualities, where poses in collision count with quality 0. -/
theorem C117_statistics (rs : List PoseResult) :
    let s := statistics rs
    s.numPosesTested = rs.length ∧ s.numColPoses = rs.countP (fun x => x.initialCollision) ∧
    s.numValidPoses + s.numColPoses = s.numPosesTested ∧
    s.numForceClosurePoses = rs.countP (fun x => !x.initialCollision && x.forceClosure) ∧
    s.forceClosureRate * s.numValidPoses = s.numForceClosurePoses ∧
    s.forceClosureRateCol * s.numPosesTested = s.numForceClosurePoses ∧
    s.avgQuality * s.numValidPoses = ((rs.filter (fun x => !x.initialCollision)).map PoseResult.quality).sum ∧
    s.avgQualityCol * s.numPosesTested = ((rs.filter (fun x => !x.initialCollision)).map PoseResult.quality).sum ∧
    0 ≤ s.forceClosureRate ∧ s.forceClosureRate ≤ 1 ∧ s.forceClosureRateCol ≤ s.forceClosureRate := by
  have h := foldl_add rs { Results.zero with numPosesTested := rs.length }
  dsimp only [Results.zero] at h
  have hsplit : rs.countP (fun x => !x.initialCollision) + rs.countP (fun x => x.initialCollision) = rs.length := by
    have := List.length_eq_countP_add_countP (l := rs) (fun x => x.initialCollision)
    rw [add_comm]
    convert this.symm using 3
    funext x
    cases x.initialCollision <;> simp
  have hle : rs.countP (fun x => !x.initialCollision && x.forceClosure) ≤ rs.countP (fun x => !x.initialCollision) := by
    apply List.countP_mono_left
    intro x _ hx
    simp at hx ⊢
    exact hx.1
  have hsum0 : rs.countP (fun x => !x.initialCollision) = 0 →
      ((rs.filter (fun x => !x.initialCollision)).map PoseResult.quality).sum = 0 := by
    intro h0
    rw [List.countP_eq_length_filter] at h0
    rw [List.length_eq_zero_iff.1 h0]
    simp
  dsimp only
  unfold statistics Results.zero
  generalize List.foldl Results.add _ rs = res at h ⊢
  obtain ⟨h1, h2, h3, h4, h5, h6, h7, h8⟩ := h
  obtain ⟨a1, a2, a3, a4, a5, a6, a7, a8⟩ := res
  dsimp only at h1 h2 h3 h4 h5 h6 h7 h8 ⊢
  simp only [zero_add] at h2 h3 h4 h5 h6 h7 h8
  generalize hF : rs.countP (fun x => !x.initialCollision && x.forceClosure) = F at *
  generalize hV : rs.countP (fun x => !x.initialCollision) = V at *
  generalize hK : rs.countP (fun x => x.initialCollision) = K at *
  generalize ((rs.filter (fun x => !x.initialCollision)).map PoseResult.quality).sum = S at *
  subst h1 h2 h3 h4 h5 h6 h7 h8
  by_cases hv : a2 > 0
  · have hn : rs.length > 0 := by omega
    have hv' : (a2 : ℝ) ≠ 0 := by exact_mod_cast hv.ne'
    have hn' : (rs.length : ℝ) ≠ 0 := by exact_mod_cast hn.ne'
    have hvp : (0 : ℝ) < a2 := by exact_mod_cast hv
    have hle' : (a4 : ℝ) ≤ a2 := by exact_mod_cast hle
    have hvn : (a2 : ℝ) ≤ rs.length := by
      have : a2 ≤ rs.length := by omega
      exact_mod_cast this
    rw [if_pos hv]
    dsimp only
    rw [if_pos hn]
    dsimp only
    refine ⟨rfl, rfl, hsplit, rfl, div_mul_cancel₀ _ hv', div_mul_cancel₀ _ hn', div_mul_cancel₀ _ hv', div_mul_cancel₀ _ hn',
      by positivity, (div_le_one hvp).2 hle', div_le_div_of_nonneg_left (by positivity) hvp hvn⟩
  · have hv0 : a2 = 0 := by omega
    subst hv0
    have hF0 : a4 = 0 := by omega
    subst hF0
    have hS := hsum0 rfl
    rw [hS, if_neg (lt_irrefl 0)]
    dsimp only
    by_cases hn : rs.length > 0
    · rw [if_pos hn]
      dsimp only
      simp
      omega
    · rw [if_neg hn]
      simp
      omega

example : (statistics [⟨true, 2, false⟩, ⟨false, 0, true⟩, ⟨false, 1, false⟩]).forceClosureRate = 1 / 2 := by
  norm_num [statistics, Results.add, Results.zero]

theorem evaluateAll_length (b : Bench R H C Q) : ∀ (ps : List M4) (s : Setup R H Q), (b.evaluateAll ps s).1.length = ps.length
  | [], _ => rfl
  | p :: ps, s => by simp [Bench.evaluateAll, evaluateAll_length b ps]

theorem evaluatePose_root (b : Bench R H C Q) (p : M4) (s : Setup R H Q) : (b.evaluatePose p s).2.root = s.root := by
  unfold Bench.evaluatePose
  dsimp only
  split_ifs <;> rfl

theorem evaluateAll_root (b : Bench R H C Q) : ∀ (ps : List M4) (s : Setup R H Q), (b.evaluateAll ps s).2.root = s.root
  | [], _ => rfl
  | p :: ps, s => by
      unfold Bench.evaluateAll
      dsimp only
      rw [evaluateAll_root b ps, evaluatePose_root]

/-- **C117 (collisions).** Which poses are counted as in collision only depends on the pose, the root of the hand and
the configuration before closing: not on the order of the poses or on what was evaluated before. -/
theorem C117_collisions (b : Bench R H C Q) (ho : ∀ c c', b.opened c = b.opened c') (ps : List M4) (s : Setup R H Q) :
    ((b.evaluateAll ps s).1.map PoseResult.initialCollision) = ps.map (fun p => b.hits p s.root (b.opened s.cfg)) := by
  induction ps generalizing s with
  | nil => rfl
  | cons p ps ih =>
      unfold Bench.evaluateAll
      dsimp only
      rw [List.map_cons, List.map_cons, ih, evaluatePose_root]
      congr 1
      · unfold Bench.evaluatePose
        dsimp only
        split_ifs with h
        · exact h.symm
        · simpa using h
      · rw [ho (b.evaluatePose p s).2.cfg s.cfg]

/-- **C117 (restored).** After `evaluatePoses` the hand, its fingers and the object are as before, and the numbers are
the statistics of the poses. -/
theorem C117_restored (b : Bench R H C Q) (ps : List M4) (s : Setup R H Q) :
    (b.evaluatePoses ps s).2.root = s.root ∧ (b.evaluatePoses ps s).2.cfg = s.cfg ∧
    (b.evaluatePoses ps s).2.object = s.object ∧
    (b.evaluatePoses ps s).1 = statistics (b.evaluateAll ps s).1 ∧
    (b.evaluatePoses ps s).1.numPosesTested = ps.length := by
  cases ps with
  | nil =>
      refine ⟨rfl, rfl, rfl, ?_, rfl⟩
      simp [Bench.evaluatePoses, Bench.evaluateAll, statistics, Results.zero]
  | cons p ps =>
      have he : (b.evaluateAll (p :: ps) s).1.isEmpty = false := by simp [Bench.evaluateAll]
      unfold Bench.evaluatePoses
      dsimp only
      rw [he]
      simp only [Bool.false_eq_true, if_false]
      refine ⟨trivial, trivial, trivial, trivial, ?_⟩
      rw [(C117_statistics _).1, evaluateAll_length]

theorem evaluateAll_map (b : Bench R H C Q) (ho : ∀ c c', b.opened c = b.opened c')
    (hm : ∀ cs q q', cs ≠ [] → b.quality (b.setContacts cs q) = b.quality (b.setContacts cs q') ∧
      b.closed (b.setContacts cs q) = b.closed (b.setContacts cs q'))
    (ps : List M4) (s : Setup R H Q) (hc : ∀ p ∈ ps, (b.close p s.root (b.opened s.cfg)).2 ≠ []) :
    (b.evaluateAll ps s).1 = ps.map (fun p => (b.evaluatePose p s).1) := by
  induction ps generalizing s with
  | nil => rfl
  | cons p ps ih =>
      unfold Bench.evaluateAll
      dsimp only
      have hop : b.opened (b.evaluatePose p s).2.cfg = b.opened s.cfg := ho _ _
      rw [List.map_cons, ih (b.evaluatePose p s).2 (by
        intro p' hp'
        rw [evaluatePose_root, hop]
        exact hc p' (List.mem_cons_of_mem _ hp'))]
      congr 1
      apply List.map_congr_left
      intro p' hp'
      have hne := hc p' (List.mem_cons_of_mem _ hp')
      have hr := evaluatePose_root b p s
      generalize (b.evaluatePose p s).2 = s' at hop hr ⊢
      unfold Bench.evaluatePose
      dsimp only
      rw [hop, hr]
      split_ifs with h
      · rfl
      · dsimp only
        rw [(hm _ s'.measure s.measure hne).1, (hm _ s'.measure s.measure hne).2]

/-- **C117 (independent, partial).** The result of every pose depends on this pose alone: it is in collision if the
opened hand touches the object there, and otherwise has the quality and force closure of the contacts that closing the
fingers there gives. This is for a measure that only depends on the contacts set last, provided that closing the fingers gives
contacts at every pose. Missing: poses without contacts, for which it is false (`C117_stale_false`). -/
theorem C117_independent_partial (b : Bench R H C Q) (ho : ∀ c c', b.opened c = b.opened c')
    (hm : ∀ cs q q', cs ≠ [] → b.quality (b.setContacts cs q) = b.quality (b.setContacts cs q') ∧
      b.closed (b.setContacts cs q) = b.closed (b.setContacts cs q'))
    (ps : List M4) (s : Setup R H Q) (hc : ∀ p ∈ ps, (b.close p s.root (b.opened s.cfg)).2 ≠ []) :
    (b.evaluateAll ps s).1 = ps.map (fun p =>
      if b.hits p s.root (b.opened s.cfg) then ⟨false, 0, true⟩
      else
        let q := b.setContacts (b.close p s.root (b.opened s.cfg)).2 s.measure
        ⟨b.closed q, b.quality q, false⟩) := by
  rw [evaluateAll_map b ho hm ps s hc]
  apply List.map_congr_left
  intro p _
  unfold Bench.evaluatePose
  dsimp only
  split_ifs <;> rfl

/-- A bench with a hand that collides with objects left of the origin, has two contacts with objects up to 10
and none further away. The measure keeps its state when there are no contacts, as the wrench space measure
does (`C112_stale_false`). -/
noncomputable def toyBench : Bench Unit Bool ℕ ℕ where
  opened := fun _ => false
  hits := fun p _ _ => by classical exact decide (p 0 3 < 0)
  close := fun p _ _ => (true, by classical exact if p 0 3 ≤ 10 then [1, 2] else [])
  point := fun _ => 0
  setContacts := fun cs q => if cs.isEmpty then q else cs.length
  quality := fun q => q
  closed := fun q => decide (0 < q)
  place := fun _ r _ => r

example : ∀ p ∈ [(1 : M4)], (toyBench.close p () (toyBench.opened true)).2 ≠ [] := by
  intro p hp
  simp only [List.mem_singleton] at hp
  subst hp
  simp [toyBench]

/-- **C117 (stale quality, does not hold).** A pose at which the fingers do not touch the object gets the quality
and the force closure of the pose that was evaluated before. -/
theorem C117_stale_false :
    ∃ (b : Bench Unit Bool ℕ ℕ) (s : Setup Unit Bool ℕ) (p p' : M4),
      (b.close p s.root (b.opened s.cfg)).2 = [] ∧ b.hits p s.root (b.opened s.cfg) = false ∧
      (b.evaluatePose p s).1 = ⟨false, 0, false⟩ ∧
      (b.evaluateAll [p', p] s).1 = [⟨true, 2, false⟩, ⟨true, 2, false⟩] ∧
      (b.evaluatePoses [p, p'] s).1.forceClosureRate = 1 / 2 ∧ (b.evaluatePoses [p', p] s).1.forceClosureRate = 1 := by
  have h20 : (mkPose ![20, 0, 0] 1) 0 3 = 20 := by simp [mkPose, setOrientation, setPosition, setPos]
  have h5 : (mkPose ![5, 0, 0] 1) 0 3 = 5 := by simp [mkPose, setOrientation, setPosition, setPos]
  have t1 : ¬ ((5 : ℝ) < 0) := by norm_num
  have t2 : ¬ ((20 : ℝ) < 0) := by norm_num
  have t3 : ((5 : ℝ) ≤ 10) := by norm_num
  have t4 : ¬ ((20 : ℝ) ≤ 10) := by norm_num
  refine ⟨toyBench, ⟨(), true, 1, 0⟩, mkPose ![20, 0, 0] 1, mkPose ![5, 0, 0] 1, ?_, ?_, ?_, ?_, ?_, ?_⟩
  · simp [toyBench, h20, t4]
  · simp [toyBench, h20]
  · simp [toyBench, Bench.evaluatePose, h20, t2, t4]
  · simp [toyBench, Bench.evaluateAll, Bench.evaluatePose, h20, h5, t1, t2, t3, t4]
  · simp [toyBench, Bench.evaluatePoses, Bench.evaluateAll, Bench.evaluatePose, h20, h5, t1, t2, t3, t4, statistics, Results.zero,
      Results.add]
  · simp [toyBench, Bench.evaluatePoses, Bench.evaluateAll, Bench.evaluatePose, h20, h5, t1, t2, t3, t4, statistics, Results.zero,
      Results.add]

/-- **C117 (grasp, partial).** If the grasp has contacts and poses are asked for, `evaluateGrasp` evaluates that many
poses around the mean of the contacts with the hand where the grasp says, and afterwards the hand, its fingers
and the object are as before. Missing: grasps without contacts, for which it is false (`C117_grasp_false`). -/
theorem C117_grasp_partial (b : Bench R H C Q) (c : Config) (poseTcp : M4) (n : ℤ) (r : ℕ → Fin 6 → ℝ) (s : Setup R H Q)
    (hn : 0 < n) (hc : (b.close s.object (b.place (s.object * poseTcp⁻¹) s.root s.cfg) (b.opened s.cfg)).2 ≠ []) :
    let root := b.place (s.object * poseTcp⁻¹) s.root s.cfg
    let k := b.close s.object root (b.opened s.cfg)
    let e := b.evaluateGrasp c poseTcp n r s
    e.2.root = s.root ∧ e.2.cfg = s.cfg ∧ e.2.object = s.object ∧ e.1.numPosesTested = n.toNat ∧
    e.1 = statistics (b.evaluateAll (c.randomPosesAt s.object (k.2.map b.point) n r) ⟨root, k.1, s.object, s.measure⟩).1 := by
  dsimp only
  have hne : (b.close s.object (b.place (s.object * poseTcp⁻¹) s.root s.cfg) (b.opened s.cfg)).2.isEmpty = false := by
    simpa using hc
  have hlen : (c.randomPosesAt s.object ((b.close s.object (b.place (s.object * poseTcp⁻¹) s.root s.cfg) (b.opened s.cfg)).2.map
      b.point) n r).length = n.toNat := by
    simp [Config.randomPosesAt, getMean, hc, Config.randomPoses]
  unfold Bench.evaluateGrasp
  dsimp only
  rw [hne]
  simp only [Bool.false_eq_true, if_false]
  rw [if_neg (by
    rw [List.isEmpty_iff_length_eq_zero, hlen]; omega)]
  refine ⟨rfl, rfl, rfl, ?_, ?_⟩
  · rw [(C117_restored _ _ _).2.2.2.2, hlen]
  · rw [(C117_restored _ _ _).2.2.2.1]

/-- **C117 (grasp, does not hold).** A grasp without contacts is left applied: the hand stays where the grasp put
it with its fingers closed. -/
theorem C117_grasp_false (b : Bench R H C Q) (c : Config) (poseTcp : M4) (n : ℤ) (r : ℕ → Fin 6 → ℝ) (s : Setup R H Q)
    (hc : (b.close s.object (b.place (s.object * poseTcp⁻¹) s.root s.cfg) (b.opened s.cfg)).2 = []) :
    (b.evaluateGrasp c poseTcp n r s).2.root = b.place (s.object * poseTcp⁻¹) s.root s.cfg ∧
    (b.evaluateGrasp c poseTcp n r s).2.cfg =
      (b.close s.object (b.place (s.object * poseTcp⁻¹) s.root s.cfg) (b.opened s.cfg)).1 := by
  unfold Bench.evaluateGrasp
  dsimp only
  rw [hc]
  exact ⟨rfl, rfl⟩

example : (toyBench.close (mkPose ![20, 0, 0] 1) () false).2 = [] ∧ (toyBench.close (mkPose ![20, 0, 0] 1) () false).1 ≠ false := by
  have h20 : (mkPose ![20, 0, 0] 1) 0 3 = 20 := by simp [mkPose, setOrientation, setPosition, setPos]
  have t4 : ¬ ((20 : ℝ) ≤ 10) := by norm_num
  simp [toyBench, h20, t4]

end Simox.Gpn
