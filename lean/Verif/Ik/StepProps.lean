import Verif.Ik.Props
import Verif.Inv.StepProps

/-!
# C57: the steps of differential inverse kinematics
-/

namespace Simox.Ik

open Matrix Kin Kin.Spec Jac Jac.Spec Spec Simox.Inv Simox.Inv.Spec

/-- The difference of two positions in the coordinates a mode selects, zero in the others. -/
noncomputable def wanted (mode : Nat) (target current : V3) : V3 :=
  fun i => if mode.testBit i then target i - current i else 0

/-- `ρ` is the rotation vector (axis times angle) of the rotation that takes `current` to `target`. -/
def IsRotVec (target current : SO3) (ρ : V3) : Prop :=
  ∃ (u : V3) (a : ℝ), u 0 ^ 2 + u 1 ^ 2 + u 2 ^ 2 = 1 ∧ 0 ≤ a ∧ a ≤ Real.pi ∧ ρ = a • u ∧
    axisAngle u a * current.1 = target.1

/-- `p` is the part of the way `w` that a step may cover: in the direction of `w`, as far as the step size
asks, but no further than `limit` if that is positive. -/
def IsPart (limit size : ℝ) (w p : V3) : Prop :=
  ∃ c, p = (c * size) • w ∧ 0 ≤ c ∧ c ≤ 1 ∧ (limit ≤ 0 → c = 1) ∧
    (0 < limit → len p ≤ limit ∧ (len (size • w) ≤ limit → c = 1))

theorem norm3_eq (v : V3) : norm3 v = len v := by
  simp [norm3, len, Fin.sum_univ_three, pow_two]

theorem wanted_eq (aa : AngleAxes) (current goal : Pose3) (mode : Nat) :
    (updateDelta aa current goal mode).1 = wanted mode goal.pos current.pos := by
  funext i
  simp only [updateDelta, wanted, hasX, hasY, hasZ]
  fin_cases i <;> simp

theorem len_smul (c : ℝ) (v : V3) : len (c • v) = |c| * len v := by
  unfold len
  rw [← Real.sqrt_sq_eq_abs, ← Real.sqrt_mul (sq_nonneg c), Finset.mul_sum]
  simp [mul_pow]

theorem positionStep_part (limit size : ℝ) (w : V3) : IsPart limit size w (positionStep limit size w) := by
  unfold positionStep
  dsimp only
  rw [norm3_eq]
  by_cases h : limit > 0
  · rw [if_pos h]
    by_cases h2 : len (size • w) > limit
    · rw [if_pos h2]
      have hpos : 0 < len (size • w) := lt_trans h h2
      refine ⟨limit / len (size • w), by rw [smul_smul], by positivity, (div_le_one hpos).2 h2.le,
        fun h3 => absurd h (not_lt.2 h3), fun _ => ⟨?_, fun h3 => absurd h2 (not_lt.2 h3)⟩⟩
      rw [len_smul, abs_of_pos (by positivity), div_mul_cancel₀ _ hpos.ne']
    · rw [if_neg h2]
      exact ⟨1, by rw [one_mul], zero_le_one, le_refl _, fun _ => rfl, fun _ => ⟨not_lt.1 h2, fun _ => rfl⟩⟩
  · rw [if_neg h]
    exact ⟨1, by rw [one_mul], zero_le_one, le_refl _, fun _ => rfl, fun h3 => absurd h3 h⟩

/-- The error vector of a step: for every goal, in the order of the goals, the selected coordinates of the
part of the way to the target the step may cover, and, if the orientation is selected, the step size times
the rotation vector that takes the current orientation to the target. -/
theorem C57_error (aa : AngleAxes) (limit size : ℝ) (s : St Pose3) (goals : List Goal) :
    ∃ (p ρ : Goal → V3), updateError aa limit s goals size =
        goals.flatMap (fun g => select g.mode (p g) (size • ρ g)) ∧
      ∀ g ∈ goals, IsPart limit size (wanted g.mode g.target.pos (s.pose g.obj).pos) (p g) ∧
        (g.mode.testBit 3 → IsRotVec g.target.rot (s.pose g.obj).rot (ρ g)) := by
  refine ⟨fun g => positionStep limit size (updateDelta aa (s.pose g.obj) g.target g.mode).1,
    fun g => (updateDelta aa (s.pose g.obj) g.target g.mode).2, ?_, fun g _ => ⟨?_, fun h => ?_⟩⟩
  · unfold updateError select
    simp only [hasX, hasY, hasZ, hasO]
  · simp only [wanted_eq]
    exact positionStep_part _ _ _
  · have h' : has g.mode flagOrientation = true := by rw [hasO]; exact h
    simp only [updateDelta, h', if_true]
    refine ⟨aa.axis (g.target * (s.pose g.obj)⁻¹).rot, aa.angle (g.target * (s.pose g.obj)⁻¹).rot,
      by have := aa.unit (g.target * (s.pose g.obj)⁻¹).rot; nlinarith, aa.nonneg _, aa.le_pi _, rfl, ?_⟩
    rw [aa.eq]
    have : (g.target * (s.pose g.obj)⁻¹).rot * (s.pose g.obj).rot = g.target.rot := by
      simp [Kin.mul_def, Kin.inv_def]
    exact congrArg Subtype.val this

/-- The error vector has an entry for each row of the Jacobian. -/
theorem step_sizes (aa : AngleAxes) (limit size : ℝ) (r : JRobot) (ns : NodeSet) (c : Config ns.nodes.length)
    (goals : List Goal) (s : St Pose3) :
    (stepRows r ns c goals s).length = (updateError aa limit s goals size).length := by
  unfold stepRows updateError fullJacobian
  rw [List.length_map, List.flatMap_map]
  induction goals with
  | nil => rfl
  | cons g gs ih =>
    rw [List.flatMap_cons, List.flatMap_cons, List.length_append, List.length_append, ih]
    congr 1
    unfold jacobian
    cases g.link <;> simp only [List.length_append] <;> split_ifs <;> simp

/-- With the transposed Jacobian and independent rows, the step removes the error vector entirely, to first
order: the Jacobian (whose columns are the derivatives of the tcp poses, `C52_columns`) maps it to the error
vector. -/
theorem C57_step_transpose (aa : AngleAxes) (svds : Svds) (r : JRobot) (ns : NodeSet)
    (c : Config ns.nodes.length) (hm : c.prov.method = .transpose)
    (hw : ∀ w, c.prov.weights = some w → ∀ i, 0 < w i) (goals : List Goal) (size : ℝ) (s : St Pose3)
    (hr : FullRank (mat (stepRows r ns c goals s))) :
    ∃ x, computeStep aa svds r ns c goals size s = .move (List.ofFn x) ∧
      effect (stepRows r ns c goals s) x = updateError aa c.positionMaxStep s goals size := by
  obtain ⟨X, hX, h⟩ := C54_provider_transpose svds c.prov hm false (mat (stepRows r ns c goals s)) hr 0 none
    (by simp) hw
  refine ⟨X *ᵥ fun i => (updateError aa c.positionMaxStep s goals size).getD i 0, ?_, ?_⟩
  · unfold computeStep
    simp only [hX]
  · rw [effect_ofFn, (h _).1]
    refine List.ext_getElem (by simp [step_sizes aa c.positionMaxStep size]) fun i h1 h2 => ?_
    simp [List.getD_eq_getElem?_getD, h2]

/-- With the pseudo inverse, no other motion brings the Jacobian nearer to the error vector, up to the
tolerance for small singular values. -/
theorem C57_step_svd (aa : AngleAxes) (svds : Svds) (r : JRobot) (ns : NodeSet)
    (c : Config ns.nodes.length) (hm : c.prov.method = .svd)
    (hw : ∀ w, c.prov.weights = some w → ∀ i, 0 < w i) (goals : List Goal) (size : ℝ) (s : St Pose3) :
    ∃ x, computeStep aa svds r ns c goals size s = .move (List.ofFn x) ∧ ∀ y,
      euclid (rest (stepRows r ns c goals s) (updateError aa c.positionMaxStep s goals size) 1 x) ≤
        euclid (rest (stepRows r ns c goals s) (updateError aa c.positionMaxStep s goals size) 1 y) +
          1 / 100000 * Real.sqrt (cost (c.prov.weights.getD fun _ => 1) y) := by
  obtain ⟨X, hX, h⟩ := C54_provider_svd svds c.prov hm false (mat (stepRows r ns c goals s)) 0 (le_refl _) none hw
  refine ⟨X *ᵥ fun i => (updateError aa c.positionMaxStep s goals size).getD i 0, ?_, fun y => ?_⟩
  · unfold computeStep
    simp only [hX]
  · have := h (fun i => (updateError aa c.positionMaxStep s goals size).getD i 0) y
    rw [if_pos rfl] at this
    rw [norm_rest (step_sizes aa c.positionMaxStep size r ns c goals s),
      norm_rest (step_sizes aa c.positionMaxStep size r ns c goals s), one_smul]
    unfold error at this
    simp only [Option.getD_none, one_mul] at this
    exact this

/-! ## A slide -/

/-- A slide along x from -100 to 100. -/
noncomputable def slide : JRobot where
  tree := .node 0 []
  localTrafo _ := 1
  kind _ := .prismatic ![1, 0, 0] 0
  lim _ := ⟨-100, 100, false, true⟩
  prop _ := []

/-- The node set of the slide. -/
def slideSet : NodeSet := ⟨[0], some 0⟩

/-- The slide at `x`. -/
noncomputable def slideAt (x : ℝ) : St Pose3 := 
  ⟨1, fun n => if n = 0 then x else 0, fun n => if n = 0 then ⟨1, ![x, 0, 0]⟩ else 1⟩

/-- The goal to bring the slide to `t`, with a tolerance of 1. -/
noncomputable def slideGoal (t : ℝ) : Goal := ⟨0, .node 0, ⟨1, ![t, 0, 0]⟩, flagX, 1, 1⟩

/-- Transposed Jacobian, no joint weights, no limit for steps. -/
noncomputable def slideConfig (frame : Option Pose3) : Config slideSet.nodes.length :=
  ⟨frame, false, -1, ⟨.transpose, none, 1⟩⟩

theorem slide_usable : Usable slide.toRobot slideSet where
  names := by show ([0] : List Nat).Nodup; decide
  root := by
    intro k hk n hn
    have h1 : k = 0 := by simpa [slideSet] using hk.symm
    have h2 : n = 0 := by simpa [slideSet] using hn
    subst h1; subst h2
    simp [slide, JRobot.toRobot, Kin.sub, Tree.ids, idsL]
  known := by simp [slideSet, slide, JRobot.toRobot, Tree.ids, idsL]
  distinct := by simp [slideSet]
  quiet := fun _ _ => rfl

theorem slide_fk (x : ℝ) : FK slide.toRobot (slideAt x) := by
  rw [fk_iff]
  simp [slide, JRobot.toRobot, slideAt, Cons, ConsL, Kind.trafo]

theorem slide_row (x : ℝ) (t : ℝ) (frame : Option Pose3) (v : ℝ)
    (hv : inFrame frame ((slideAt x).pose 0) ![1, 0, 0] 0 = v) :
    stepRows slide slideSet (slideConfig frame) [slideGoal t] (slideAt x) = [fun _ => v] := by
  unfold stepRows fullJacobian
  simp only [List.map_cons, List.map_nil, List.flatMap_cons, List.flatMap_nil, List.append_nil, slideGoal,
    jacobian, slideSet, slideConfig]
  simp [has, flagX, flagY, flagZ, flagOrientation, flagPosition, column, parentsOf, slide, hv]

theorem slide_error (aa : AngleAxes) (x t size : ℝ) :
    updateError aa (-1) (slideAt x) [slideGoal t] size = [size * (t - x)] := by
  simp [updateError, slideGoal, slideAt, has, flagX, flagY, flagZ, flagOrientation, positionStep, updateDelta]
  norm_num

theorem one_rank {n : Nat} (hn : 0 < n) {v : ℝ} (h0 : v ≠ 0) : FullRank (mat [fun _ : Fin n => v]) := by
  intro y hy
  have := congrFun hy ⟨0, hn⟩
  funext i
  have hi : i = ⟨0, by simp⟩ := by apply Fin.ext; have := i.2; simp at this; simpa using this
  subst hi
  simpa [mat, Matrix.mulVec, dotProduct, h0] using this

theorem slide_step (aa : AngleAxes) (svds : Svds) (x t size : ℝ) (frame : Option Pose3) (v : ℝ)
    (hv : inFrame frame ((slideAt x).pose 0) ![1, 0, 0] 0 = v) (h0 : v ≠ 0) :
    computeStep aa svds slide slideSet (slideConfig frame) [slideGoal t] size (slideAt x) =
      .move [size * (t - x) / v] := by
  have hrow := slide_row x t frame v hv
  obtain ⟨y, h1, h2⟩ := C57_step_transpose aa svds slide slideSet (slideConfig frame) rfl
    (by simp [slideConfig]) [slideGoal t] size (slideAt x) (by
      rw [hrow]
      exact one_rank (by simp [slideSet]) h0)
  rw [h1]
  rw [hrow] at h2
  change Fin 1 → ℝ at y
  have he : updateError aa (slideConfig frame).positionMaxStep (slideAt x) [slideGoal t] size =
    [size * (t - x)] := slide_error aa x t size
  rw [he] at h2
  have h3 : v * y 0 = size * (t - x) := by
    have : (∑ i : Fin slideSet.nodes.length, v * y i) = size * (t - x) := by simpa [effect] using h2
    rw [← this]
    exact (Fin.sum_univ_one (f := fun i : Fin 1 => v * y i)).symm
  have h4 : y 0 = size * (t - x) / v := by rw [← h3]; field_simp
  have h5 : List.ofFn y = [y 0] := List.ofFn_succ (n := 0)
  exact congrArg Step.move (h5.trans (by rw [h4]))

/-- In global coordinates the step of the slide is the wanted part of the way. -/
theorem slide_step_global (aa : AngleAxes) (svds : Svds) (x t size : ℝ) :
    computeStep aa svds slide slideSet (slideConfig none) [slideGoal t] size (slideAt x) =
      .move [size * (t - x)] := by
  have := slide_step aa svds x t size none 1 (by simp [inFrame, slideAt]) one_ne_zero
  simpa using this

/-- The hypotheses of `C57_step_transpose` hold of the slide. -/
example (aa : AngleAxes) (svds : Svds) := C57_step_transpose aa svds slide slideSet (slideConfig none) rfl
  (by simp [slideConfig]) [slideGoal 10] (3 / 10) (slideAt 2) (by
    rw [slide_row 2 10 none 1 (by simp [inFrame, slideAt])]
    exact one_rank (by simp [slideSet]) one_ne_zero)

/-- A coordinate system turned by pi about z. -/
noncomputable def turned : Pose3 :=
  ⟨⟨axisAngle ![0, 0, 1] Real.pi, axisAngle_mem _ _ (by simp)⟩, 0⟩

/-- **C57.** The coordinate system given to the constructor is used for the Jacobian but not for the error:
with one that is turned by pi, every step goes away from the target. -/
theorem C57_frame_ignored (aa : AngleAxes) (svds : Svds) (x t size : ℝ) :
    computeStep aa svds slide slideSet (slideConfig (some turned)) [slideGoal t] size (slideAt x) =
      .move [-(size * (t - x))] := by
  have := slide_step aa svds x t size (some turned) (-1) (by
    simp only [inFrame, slideAt, if_true, one_smul]
    have h2 : turned.rot⁻¹ • (![1, 0, 0] : V3) = ![-1, 0, 0] := by
      rw [inv_smul_eq_iff]
      show _ = axisAngle ![0, 0, 1] Real.pi *ᵥ _
      funext i
      fin_cases i <;> simp [axisAngle, Matrix.mulVec, dotProduct, Fin.sum_univ_three]
    rw [h2]; simp) (by norm_num)
  rw [this]
  simp [div_neg]

/-! ## C56: examples -/

theorem slide_set {x y : ℝ} (h1 : -100 ≤ y) (h2 : y ≤ 100) :
    slideSet.setJointValues slide.toRobot 1 [y] (slideAt x) = .ok (slideAt y) := by
  obtain ⟨s', h, hs⟩ := set_ok slide_usable (fuel := 1) one_pos (v := [y]) (by simp [slideSet]) (slide_fk x)
  rw [h]
  congr 1
  refine setTo_unique hs ⟨rfl, slide_fk y, fun j hj => ?_, fun n hn => ?_, fun n hn => ?_⟩
  · have : j ≠ 0 := by simpa [slide, JRobot.toRobot, Tree.ids, idsL] using hj
    simp [slideAt, this]
  · have : n = 0 := by simpa [slideSet] using hn
    subst this
    have hv : valOf slideSet.nodes [y] 0 = y :=
      valOf_zip (i := 0) (by simp [slideSet]) (by simp [slideSet]) (by simp) (by simp [slideSet])
    rw [hv]
    exact (Jac.stored_id (by simpa [slide, JRobot.toRobot, slideAt] using h1)
      (by simpa [slide, JRobot.toRobot, slideAt] using h2)).symm
  · have : n ≠ 0 := by simpa [slideSet] using hn
    simp [slideAt, this]

theorem slide_pos (x t : ℝ) : posError (slideGoal t).mode (slideGoal t).target.pos ((slideAt x).pose 0).pos =
    |t - x| := by
  simp [posError, slideGoal, slideAt, Fin.sum_univ_three, flagX, Nat.testBit, Real.sqrt_sq_eq_abs]

theorem slide_mean (x t : ℝ) : meanError [slideGoal t] (slideAt x) = |t - x| := by
  have := slide_pos x t
  simp only [meanError, List.map_cons, List.map_nil, List.sum_cons, List.sum_nil, List.length_singleton]
  rw [show (slideGoal t).obj = 0 from rfl, this]
  simp

theorem slide_met (x t : ℝ) : AllMet (slideAt x) [slideGoal t] ↔ |t - x| ≤ 1 := by
  have := slide_pos x t
  simp only [AllMet, List.mem_singleton, forall_eq, Met]
  rw [show (slideGoal t).obj = 0 from rfl, this]
  refine ⟨fun h => h.1, fun h => ⟨h, 0, ?_, ?_⟩⟩
  · simp [IsRotError, slideGoal, flagX, Nat.testBit]
  · simp [slideGoal]

theorem slide_limits {x : ℝ} (h1 : -100 ≤ x) (h2 : x ≤ 100) : InLimits slide.toRobot slideSet.nodes (slideAt x) := by
  intro n hn _
  have : n = 0 := by simpa [slideSet] using hn
  subst this
  exact ⟨by simpa [slide, JRobot.toRobot, slideAt] using h1, by simpa [slide, JRobot.toRobot, slideAt] using h2⟩

/-- One step of the slide, with `maxNStep` 1. -/
theorem slide_one (aa : AngleAxes) (svds : Svds) (x t size minChange : ℝ) (improve : Bool)
    (h1 : -100 ≤ x + size * (t - x)) (h2 : x + size * (t - x) ≤ 100)
    (hc : 1 < |t - (x + size * (t - x))|) (hm : minChange ≤ 0) :
    computeSteps slide.toRobot 1 slideSet aa [slideGoal t]
      (computeStep aa svds slide slideSet (slideConfig none) [slideGoal t] size) minChange improve 1 (slideAt x) =
      .done false (slideAt (x + size * (t - x))) := by
  have hz : List.zipWith (fun n y => (slideAt x).value n + y) slideSet.nodes [size * (t - x)] =
      [x + size * (t - x)] := by simp [slideSet, slideAt]
  have hno : ¬checkTolerances aa (slideAt (x + size * (t - x))) [slideGoal t] = true := by
    rw [check_iff, slide_met]; exact not_le.2 hc
  have hn : ¬stepNorm [size * (t - x)] < minChange :=
    not_lt.2 (le_trans hm (Real.sqrt_nonneg _))
  unfold computeSteps
  show stepLoop _ _ _ _ _ _ _ _ 1 _ _ _ = _
  rw [stepLoop, slide_step_global]
  simp only [hz, slide_set h1 h2, if_neg hno, if_neg hn]
  rw [if_neg (by simp), stepLoop, undo, slide_set h1 h2]

/-- **C56.** The first step is accepted without being compared with the start: a run that fails may leave
the robot further away from its goal than it was, also with `checkImprovements`. Here the slide at 2, with
goal 0 and step size 3, is left at -4. -/
theorem C56_first_step_may_worsen (aa : AngleAxes) (svds : Svds) :
    computeSteps slide.toRobot 1 slideSet aa [slideGoal 0]
      (computeStep aa svds slide slideSet (slideConfig none) [slideGoal 0] 3) 0 true 1 (slideAt 2) =
        .done false (slideAt (-4)) ∧
      meanError [slideGoal 0] (slideAt 2) < meanError [slideGoal 0] (slideAt (-4)) := by
  constructor
  · have := slide_one aa svds 2 0 3 0 true (by norm_num) (by norm_num) (by norm_num) le_rfl
    norm_num at this
    exact this
  · rw [slide_mean, slide_mean]; norm_num

/-- **C56.** The goals are not checked before the first step: a robot whose goals are already met is moved,
and failure may be reported. Here the slide at 1 meets the goal 0; with step size 3 it is left at -2. -/
theorem C56_met_at_start (aa : AngleAxes) (svds : Svds) :
    AllMet (slideAt 1) [slideGoal 0] ∧
      computeSteps slide.toRobot 1 slideSet aa [slideGoal 0]
        (computeStep aa svds slide slideSet (slideConfig none) [slideGoal 0] 3) 0 true 1 (slideAt 1) =
          .done false (slideAt (-2)) ∧
      ¬AllMet (slideAt (-2)) [slideGoal 0] := by
  refine ⟨?_, ?_, ?_⟩
  · rw [slide_met]; norm_num
  · have := slide_one aa svds 1 0 3 0 true (by norm_num) (by norm_num) (by norm_num) le_rfl
    norm_num at this
    exact this
  · rw [slide_met]; norm_num

theorem step_length (aa : AngleAxes) (svds : Svds) (r : JRobot) (ns : NodeSet) (c : Config ns.nodes.length)
    (goals : List Goal) (size : ℝ) (s : St Pose3) (d : List ℝ)
    (h : computeStep aa svds r ns c goals size s = .move d) : d.length = ns.nodes.length := by
  unfold computeStep at h
  dsimp only at h
  split at h
  · simp only [Step.move.injEq] at h
    rw [← h, List.length_ofFn]
  · simp at h

/-- The hypotheses of `C56_run`, `C56_only_set_joints` and `C56_no_worse` hold of the slide, for any goal
and step size. -/
example (aa : AngleAxes) (svds : Svds) (t size : ℝ) := C56_run slide.toRobot slideSet slide_usable 1 one_pos aa
  [slideGoal t] (computeStep aa svds slide slideSet (slideConfig none) [slideGoal t] size)
  (step_length aa svds slide slideSet _ _ size) 0 true 50 (slideAt 2) (slide_fk 2)
  (slide_limits (by norm_num) (by norm_num))

/-- A run that succeeds, as `C56_success` assumes: the slide reaches 10 in one step. -/
example (aa : AngleAxes) (svds : Svds) : computeSteps slide.toRobot 1 slideSet aa [slideGoal 10]
    (computeStep aa svds slide slideSet (slideConfig none) [slideGoal 10] 1) 0 true 1 (slideAt 2) =
      .done true (slideAt 10) := by
  have hz : List.zipWith (fun n y => (slideAt 2).value n + y) slideSet.nodes [1 * (10 - 2)] =
      [(10 : ℝ)] := by simp [slideSet, slideAt]
  have hyes : checkTolerances aa (slideAt 10) [slideGoal 10] = true := by
    rw [check_iff, slide_met]; norm_num
  unfold computeSteps
  show stepLoop _ _ _ _ _ _ _ _ 1 _ _ _ = _
  rw [stepLoop, slide_step_global]
  simp only [hz, slide_set (x := 2) (y := 10) (by norm_num) (by norm_num), if_pos hyes]

end Simox.Ik
