import Verif.Cst.GradProps

/-!
# Constraints: pose, balance and task space regions

The gradients of the position components of the pose and of the task space region constraint are too long by a factor of ten, as is the one of the balance
constraint.
-/

namespace Simox.Cst

open Matrix Kin Kin.Spec Jac Jac.Spec Ik Spec

theorem scale_scale (a b : ℝ) (l : List ℝ) : scale a (scale b l) = scale (a * b) l := by
  simp only [scale, List.map_map]
  exact List.map_congr_left fun x _ => by simp [mul_assoc]

theorem smul_gradient {r : JRobot} {nodes : List Nat} {F : St Pose3 → ℝ} {s : St Pose3} {grad : List ℝ} (k : ℝ) (h : IsGradient r nodes F s grad) :
    IsGradient r nodes (fun t => k * F t) s (scale k grad) := by
  refine ⟨by simp [scale, h.1], fun i d hi hp h1 h2 => ?_⟩
  obtain ⟨f, hf, v, hv, hd⟩ := h.2 i d hi hp h1 h2
  exact ⟨f, hf, k * v, by simp [scale, hv], hd.const_mul k⟩

theorem scale_rowTimes (k : ℝ) (d : V3) (J : List (List ℝ)) (a size : Nat) : rowTimes (k • d) J a size = scale k (rowTimes d J a size) := by
  simp only [rowTimes, scale, List.map_map]
  refine List.map_congr_left fun i _ => ?_
  simp; ring

theorem scale_zeros (k : ℝ) (n : Nat) : scale k (zeros n) = zeros n := by simp [scale, zeros]

/-- **The orientation component of the pose constraint**: the gradient is that of the value, unless the tcp is turned by exactly a half turn against the
target. -/
theorem C104_pose_orientation (r : JRobot) (hn : Names r.toRobot) (s : St Pose3) (hs : FK r.toRobot s) (aa : AngleAxes) (c : PoseC)
    (hnodes : ∀ n ∈ c.nodes, n ∈ r.tree.ids) (ht : IsTcp r c.obj c.tcp) (hpi : ¬ Ik.Spec.IsAngle (c.target.rot * (s.pose c.obj).rot⁻¹) Real.pi) :
    IsGradient r c.nodes (c.value aa 1) s (c.gradient r aa 1 s) := by
  have h := C103_orientation r hn s hs aa ⟨c.factor, c.nodes, c.tcp, c.obj, c.target.rot, c.sel, 0⟩ hnodes ht hpi
  have e1 : Orientation.value aa ⟨c.factor, c.nodes, c.tcp, c.obj, c.target.rot, c.sel, 0⟩ = c.value aa 1 := by
    funext t
    simp only [Orientation.value, PoseC.value, PoseC.rotValue]
    split_ifs <;> ring
  have e2 : Orientation.gradient r aa ⟨c.factor, c.nodes, c.tcp, c.obj, c.target.rot, c.sel, 0⟩ s = c.gradient r aa 1 s := by
    simp only [Orientation.gradient, PoseC.gradient, PoseC.rotGradient]
    have : (s.pose c.obj * c.target⁻¹).rot = (s.pose c.obj).rot * c.target.rot⁻¹ := rfl
    rw [this]
    by_cases h1 : c.sel = flagOrientation ∨ c.sel = flagAll
    · rw [if_pos h1, if_pos h1, scale_scale, mul_comm c.factor 2]
    · rw [if_neg h1, if_neg h1, scale_zeros]
  rw [e1, e2] at h
  exact h

/-- **The position component of the pose constraint**: a tenth of the gradient is the gradient of the value. Missing for the property: the factor. -/
theorem C104_pose_position_partial (r : JRobot) (hn : Names r.toRobot) (s : St Pose3) (hs : FK r.toRobot s) (aa : AngleAxes) (c : PoseC)
    (hnodes : ∀ n ∈ c.nodes, n ∈ r.tree.ids) (ht : IsTcp r c.obj c.tcp) :
    IsGradient r c.nodes (c.value aa 0) s (scale (1 / 10) (c.gradient r aa 0 s)) := by
  have h := C103_position r hn s hs ⟨c.factor * (1 / 100), c.nodes, c.tcp, c.obj, c.target.pos, c.sel, 0⟩ hnodes ht
  have e1 : Position.value ⟨c.factor * (1 / 100), c.nodes, c.tcp, c.obj, c.target.pos, c.sel, 0⟩ = c.value aa 0 := by
    funext t
    simp only [Position.value, Position.diff, PoseC.value, PoseC.posValue, PoseC.diff, tradeoff, Pi.smul_apply, smul_eq_mul]
    split_ifs <;> ring
  have e2 : Position.gradient r ⟨c.factor * (1 / 100), c.nodes, c.tcp, c.obj, c.target.pos, c.sel, 0⟩ s = scale (1 / 10) (c.gradient r aa 0 s) := by
    have hd : c.diff s = (1 / 10 : ℝ) • ((s.pose c.obj).pos - c.target.pos) := rfl
    have v0 : ∀ x : ℝ, (![1 / 10 * x, 0, 0] : V3) = (1 / 10 : ℝ) • ![x, 0, 0] := fun x => by ext k; fin_cases k <;> simp
    have v1 : ∀ x : ℝ, (![0, 1 / 10 * x, 0] : V3) = (1 / 10 : ℝ) • ![0, x, 0] := fun x => by ext k; fin_cases k <;> simp
    have v2 : ∀ x : ℝ, (![0, 0, 1 / 10 * x] : V3) = (1 / 10 : ℝ) • ![0, 0, x] := fun x => by ext k; fin_cases k <;> simp
    simp only [Position.gradient, Position.diff, PoseC.gradient, PoseC.posGradient, hd, Pi.smul_apply, smul_eq_mul, v0, v1, v2, scale_rowTimes]
    split_ifs <;> simp only [scale_scale, scale_zeros]
    all_goals
      congr 1
      ring
  rw [e1, e2] at h
  exact h

/-- The gradient of a function at a state is unique in the components of the joints that can be moved. -/
theorem gradient_unique {r : JRobot} {nodes : List Nat} {F : St Pose3 → ℝ} {s : St Pose3} {g g' : List ℝ} (h : IsGradient r nodes F s g)
    (h' : IsGradient r nodes F s g') {i d : Nat} (hi : nodes[i]? = some d) (hp : r.prop d = []) (h1 : (r.lim d).lo < s.value d)
    (h2 : s.value d < (r.lim d).hi) : g[i]? = g'[i]? := by
  obtain ⟨f, hf, v, hv, hd⟩ := h.2 i d hi hp h1 h2
  obtain ⟨f', hf', v', hv', hd'⟩ := h'.2 i d hi hp h1 h2
  have : f' = f := by
    funext x
    exact Option.some.inj ((hf' x).symm.trans (hf x))
  subst this
  rw [hv, hv', hd.unique hd']

/-- A slide along x. -/
noncomputable def slide : JRobot where
  tree := .node 0 []
  localTrafo _ := 1
  kind _ := .prismatic ![1, 0, 0] 0
  lim _ := ⟨-3, 3, false, true⟩
  prop _ := []

theorem slide_names : Names slide.toRobot := by
  show ([0] : List Nat).Nodup
  decide

/-- The slide at 0. -/
noncomputable def slideState : St Pose3 := applyJointValues slide.toRobot ⟨1, fun _ => 0, fun _ => 1⟩

theorem slide_fk : FK slide.toRobot slideState := apply_fk _ slide_names _

theorem slide_pose : slideState.pose 0 = 1 := by
  have := slide_fk 0 [0] (.here 0 [])
  rw [this]
  have hk : slide.kind 0 = .prismatic ![1, 0, 0] 0 := rfl
  simp only [slideState, applyJointValues, JRobot.toRobot, hk, Kind.trafo, List.map_cons, List.map_nil, List.prod_cons, List.prod_nil, one_mul, mul_one]
  simp [slide, Kin.one_def, Kin.mul_def]

theorem slide_jacobian : tcpJacobian slide slideState [0] (.node 0) = [[1], [0], [0], [0], [0], [0]] := by
  have hr : (slideState.pose 0).rot • (![1, 0, 0] : V3) = ![1, 0, 0] := by rw [slide_pose]; exact one_smul _ _
  have hk : slide.kind 0 = .prismatic ![1, 0, 0] 0 := rfl
  simp [tcpJacobian, jacobian, column, parentsOf, hk, has, flagAll, flagX, flagY, flagZ, flagPosition, flagOrientation, inFrame, hr]

/-- **The gradient of the position component of the pose constraint is not that of the value**: for a slide at 0 and a target at -10 it is ten times as
long. -/
theorem C104_pose_position_false : ∃ (r : JRobot) (s : St Pose3) (c : PoseC), Names r.toRobot ∧ FK r.toRobot s ∧ (∀ n ∈ c.nodes, n ∈ r.tree.ids) ∧
    IsTcp r c.obj c.tcp ∧ c.factor = 1 ∧ c.sel = flagAll ∧ ∀ aa : AngleAxes, ¬ IsGradient r c.nodes (c.value aa 0) s (c.gradient r aa 0 s) := by
  refine ⟨slide, slideState, ⟨1, [0], .node 0, 0, ⟨1, ![-10, 0, 0]⟩, flagAll, 1, 1⟩, slide_names, slide_fk, by simp [slide, Kin.Tree.ids],
    ⟨rfl, by simp [slide, Kin.Tree.ids]⟩, rfl, rfl, fun aa h => ?_⟩
  have h' := C104_pose_position_partial slide slide_names slideState slide_fk aa ⟨1, [0], .node 0, 0, ⟨1, ![-10, 0, 0]⟩, flagAll, 1, 1⟩
    (by simp [slide, Kin.Tree.ids]) ⟨rfl, by simp [slide, Kin.Tree.ids]⟩
  have e := gradient_unique h h' (i := 0) (d := 0) rfl rfl (by norm_num [slide, slideState, applyJointValues])
    (by norm_num [slide, slideState, applyJointValues])
  simp only [PoseC.gradient, PoseC.posGradient, PoseC.diff, slide_jacobian] at e
  have hp : (slideState.pose 0).pos = 0 := by rw [slide_pose]; rfl
  simp [scale, rowTimes, entry, flagAll, flagX, flagY, flagZ, hp, tradeoff] at e

/-! ## Balance -/

theorem sigmoid_deriv (x : ℝ) : HasDerivAt sigmoid (1 / 10 * sigmoidPrime x) x := by
  have h1 : HasDerivAt (fun y : ℝ => 1 + Real.exp (-(1 / 10) * y)) (Real.exp (-(1 / 10) * x) * (-(1 / 10))) x := by
    have := ((hasDerivAt_id x).const_mul (-(1 / 10) : ℝ)).exp
    simpa using this.const_add 1
  have hp : 0 < 1 + Real.exp (-(1 / 10) * x) := by positivity
  have := (hasDerivAt_const x (1 : ℝ)).div h1 hp.ne'
  refine this.congr_deriv ?_
  unfold sigmoidPrime sigmoid
  field_simp
  ring

theorem balance_deriv {com : ℝ → P2} {vx vy x : ℝ} (h1 : HasDerivAt (fun y => (com y).1) vx x) (h2 : HasDerivAt (fun y => (com y).2) vy x) :
    ∀ (segs : List (P2 × P2)) (before : ℝ),
      HasDerivAt (fun y => before * (segs.map fun g => sigmoid (side (com y) g)).prod) (1 / 10 * balanceSum (com x) vx vy before segs) x
  | [], before => by simpa [balanceSum] using hasDerivAt_const x before
  | g :: segs, before => by
    have hs : HasDerivAt (fun y => side (com y) g) ((normal g.1 g.2).1 * vx + (normal g.1 g.2).2 * vy) x :=
      ((h1.sub_const g.1.1).const_mul _).add ((h2.sub_const g.1.2).const_mul _)
    have hg := (sigmoid_deriv (side (com x) g)).comp x hs
    have ih := balance_deriv h1 h2 segs 1
    simp only [one_mul] at ih
    have := (hg.mul ih).const_mul before
    refine (this.congr_of_eventuallyEq (Filter.Eventually.of_forall fun y => ?_)).congr_deriv ?_
    · simp
    · rw [balanceSum]
      have hlin : ∀ (l : List (P2 × P2)) (b : ℝ), balanceSum (com x) vx vy b l = b * balanceSum (com x) vx vy 1 l := by
        intro l
        induction l with
        | nil => intro b; simp [balanceSum]
        | cons g l ih =>
          intro b
          rw [balanceSum, balanceSum, ih (b * sigmoid (side (com x) g)), ih (1 * sigmoid (side (com x) g))]
          ring
      rw [hlin segs (before * sigmoid (side (com x) g))]
      simp only [Function.comp]
      ring

/-- **The balance constraint**, if the joints are the bodies: a tenth of the gradient is the gradient of the value. Missing for the property: the factor
and other bodies. -/
theorem C104_balance_partial (r : JRobot) (hn : Names r.toRobot) (m : Masses) (hm : ∀ n, 0 ≤ m.mass n) (s : St Pose3) (hs : FK r.toRobot s) (c : Balance)
    (hj : ∀ n ∈ c.joints, n ∈ r.tree.ids) (hb : c.bodies = c.joints) : IsGradient r c.joints (c.value m) s (scale (1 / 10) (c.gradient r m s)) := by
  refine gradient_of (by simp [scale, Balance.gradient, balanceGradient]) fun i d hi hp h1 h2 => ?_
  have hne : c.joints ≠ [] := by rintro e; rw [e] at hi; simp at hi
  obtain ⟨f, hf, hx, v, hv, j0, j1, -⟩ := com_moves r hn m hm s hs c.joints c.joints hj hj hne 2 i d hi hp h1 h2
  have hlt := index_lt hi
  refine ⟨f, hf, 1 / 10 * -balanceSum (head2 (getCoM m s c.joints)) (v 0) (v 1) 1 c.segs, ?_, ?_⟩
  · simp only [scale, Balance.gradient, balanceGradient, hb, List.getElem?_map, List.getElem?_range hlt, Option.map_some, j0, j1]
  · have := (balance_deriv (com := fun y => head2 (getCoM m (f y) c.joints)) (comp_deriv hv 0) (comp_deriv hv 1) c.segs 1).const_sub 1
    refine (this.congr_of_eventuallyEq (Filter.Eventually.of_forall fun y => ?_)).congr_deriv ?_
    · simp [Balance.value, balanceValue]
    · rw [hx]; ring

/-- Unit masses at the frames. -/
noncomputable def slideMasses : Masses := ⟨fun _ => 1, fun _ => 0⟩

/-- **The gradient of the balance constraint is not that of the value**, even if the joints are the bodies: for a slide at 0 and one segment it is ten times
as long. -/
theorem C104_balance_false : ∃ (r : JRobot) (m : Masses) (s : St Pose3) (c : Balance), Names r.toRobot ∧ (∀ n, 0 ≤ m.mass n) ∧ FK r.toRobot s ∧
    (∀ n ∈ c.joints, n ∈ r.tree.ids) ∧ c.bodies = c.joints ∧ ¬ IsGradient r c.joints (c.value m) s (c.gradient r m s) := by
  refine ⟨slide, slideMasses, slideState, ⟨[0], [0], [((0, 0), (0, 1))]⟩, slide_names, fun _ => zero_le_one, slide_fk, by simp [slide, Kin.Tree.ids],
    rfl, fun h => ?_⟩
  have h' := C104_balance_partial slide slide_names slideMasses (fun _ => zero_le_one) slideState slide_fk ⟨[0], [0], [((0, 0), (0, 1))]⟩
    (by simp [slide, Kin.Tree.ids]) rfl
  have e := gradient_unique h h' (i := 0) (d := 0) rfl rfl (by norm_num [slide, slideState, applyJointValues])
    (by norm_num [slide, slideState, applyJointValues])
  have hr : (slideState.pose 0).rot • (![1, 0, 0] : V3) = ![1, 0, 0] := by rw [slide_pose]; exact one_smul _ _
  have hk : slide.kind 0 = .prismatic ![1, 0, 0] 0 := rfl
  have hJ : comJacobian slide slideMasses slideState [0] [0] none false 2 = [[1], [0]] := by
    simp [comJacobian, comColumnSum, comColumn, bodyParents, hk, inFrame, hr, setMass, slideMasses]
  have hs : 0 < sigmoidPrime (side (head2 (getCoM slideMasses slideState [0])) ((0, 0), (0, 1))) := by
    unfold sigmoidPrime sigmoid
    generalize side _ _ = z
    have : 0 < Real.exp (-(1 / 10) * z) := Real.exp_pos _
    generalize Real.exp (-(1 / 10) * z) = t at this
    have h1 : 1 / (1 + t) < 1 := by rw [div_lt_one (by linarith)]; linarith
    exact mul_pos (by positivity) (by linarith)
  simp only [Balance.gradient, hJ] at e
  generalize hz : sigmoidPrime (side (head2 (getCoM slideMasses slideState [0])) ((0, 0), (0, 1))) = z at *
  simp [balanceGradient, balanceSum, entry, scale, hz, normal] at e
  linarith

/-- The slide on a platform (node 1). -/
noncomputable def platform : JRobot where
  tree := .node 1 [.node 0 []]
  localTrafo _ := 1
  kind n := if n = 0 then .prismatic ![1, 0, 0] 0 else .fixed
  lim _ := ⟨-3, 3, false, true⟩
  prop _ := []

theorem platform_names : Names platform.toRobot := by
  show ([1, 0] : List Nat).Nodup
  decide

noncomputable def platformState : St Pose3 := applyJointValues platform.toRobot ⟨1, fun _ => 0, fun _ => 1⟩

theorem platform_fk : FK platform.toRobot platformState := apply_fk _ platform_names _

theorem platform_pose : platformState.pose 0 = 1 := by
  have := platform_fk 0 [1, 0] (.step 1 _ (.node 0 []) 0 [0] (by simp) (.here 0 []))
  rw [this]
  have hk : platform.kind 0 = .prismatic ![1, 0, 0] 0 := rfl
  have hk1 : platform.kind 1 = .fixed := rfl
  simp only [platformState, applyJointValues, JRobot.toRobot, hk, hk1, Kind.trafo, List.map_cons, List.map_nil, List.prod_cons, List.prod_nil, one_mul,
    mul_one]
  simp [platform, Kin.one_def, Kin.mul_def]

/-- **The gradient of the balance constraint does not belong to its value if the bodies are not the joints**: the value is that of the centre of mass of the
joints, the gradient that of the bodies. For a slide on a platform with the platform as the body the gradient is 0 although the value changes, and
no factor helps. -/
theorem C104_balance_bodies_false : ∃ (r : JRobot) (m : Masses) (s : St Pose3) (c : Balance), Names r.toRobot ∧ (∀ n, 0 ≤ m.mass n) ∧ FK r.toRobot s ∧
    (∀ n ∈ c.joints, n ∈ r.tree.ids) ∧ (∀ n ∈ c.bodies, n ∈ r.tree.ids) ∧ c.bodies ≠ [] ∧
    ∀ k : ℝ, ¬ IsGradient r c.joints (c.value m) s (scale k (c.gradient r m s)) := by
  refine ⟨platform, slideMasses, platformState, ⟨[0], [1], [((0, 0), (0, 1))]⟩, platform_names, fun _ => zero_le_one, platform_fk,
    by decide, by decide, by simp, fun k h => ?_⟩
  have h' := C104_balance_partial platform platform_names slideMasses (fun _ => zero_le_one) platformState platform_fk ⟨[0], [0], [((0, 0), (0, 1))]⟩
    (by decide) rfl
  have e := gradient_unique h h' (i := 0) (d := 0) rfl rfl (by norm_num [platform, platformState, applyJointValues])
    (by norm_num [platform, platformState, applyJointValues])
  have hr : (platformState.pose 0).rot • (![1, 0, 0] : V3) = ![1, 0, 0] := by rw [platform_pose]; exact one_smul _ _
  have hk : platform.kind 0 = .prismatic ![1, 0, 0] 0 := rfl
  have hJ : comJacobian platform slideMasses platformState [0] [0] none false 2 = [[1], [0]] := by
    simp [comJacobian, comColumnSum, comColumn, bodyParents, hk, inFrame, hr, setMass, slideMasses]
  have hbp : bodyParents platform.tree [0] 1 = [] := by decide
  have hJ0 : comJacobian platform slideMasses platformState [0] [1] none false 2 = [[0], [0]] := by
    simp [comJacobian, comColumnSum, comColumn, hbp]
  have hs : 0 < sigmoidPrime (side (head2 (getCoM slideMasses platformState [0])) ((0, 0), (0, 1))) := by
    unfold sigmoidPrime sigmoid
    generalize side _ _ = z
    have : 0 < Real.exp (-(1 / 10) * z) := Real.exp_pos _
    generalize Real.exp (-(1 / 10) * z) = t at this
    have h1 : 1 / (1 + t) < 1 := by rw [div_lt_one (by linarith)]; linarith
    exact mul_pos (by positivity) (by linarith)
  simp only [Balance.gradient, hJ, hJ0] at e
  generalize hz : sigmoidPrime (side (head2 (getCoM slideMasses platformState [0])) ((0, 0), (0, 1))) = z at *
  simp [balanceGradient, balanceSum, entry, scale, hz, normal] at e
  linarith

/-! ## Task space regions -/

theorem clamp_sq_deriv {f : ℝ → ℝ} {v x lo hi : ℝ} (h : HasDerivAt f v x) (hlh : lo ≤ hi) :
    HasDerivAt (fun y => (f y - clampTo lo hi (f y)) * (f y - clampTo lo hi (f y))) (2 * ((f x - clampTo lo hi (f x)) * v)) x := by
  -- the square of the distance to the interval is differentiable
  have key : ∀ z : ℝ, HasDerivAt (fun z => (z - clampTo lo hi z) * (z - clampTo lo hi z)) (2 * (z - clampTo lo hi z)) z := by
    intro z
    have hsq : ∀ t : ℝ, HasDerivAt (fun z : ℝ => (z - t) * (z - t)) (2 * (z - t)) z := fun t =>
      (sq_deriv (hasDerivAt_id z) t).congr_deriv (by simp)
    have hbig : ∀ t : ℝ, z = t → clampTo lo hi z = t → (∀ y, |y - clampTo lo hi y| ≤ |y - t|) →
        HasDerivAt (fun z => (z - clampTo lo hi z) * (z - clampTo lo hi z)) (2 * (z - clampTo lo hi z)) z := by
      intro t e1 e2 hle
      have h0 : HasDerivAt (fun z : ℝ => (z - t) * (z - t)) 0 z := (hsq t).congr_deriv (by rw [e1]; ring)
      rw [e2, e1, sub_self, mul_zero]
      rw [e1] at h0
      rw [hasDerivAt_iff_isLittleO] at h0 ⊢
      have ec : clampTo lo hi t = t := by rw [← e1, e2, e1]
      simp only [smul_zero, sub_zero, sub_self, mul_zero, ec] at h0 ⊢
      refine Asymptotics.IsBigO.trans_isLittleO (Asymptotics.IsBigO.of_bound 1 (Filter.Eventually.of_forall fun y => ?_)) h0
      rw [Real.norm_eq_abs, Real.norm_eq_abs, abs_mul, abs_mul, one_mul]
      exact mul_le_mul (hle y) (hle y) (abs_nonneg _) (abs_nonneg _)
    have hcl : ∀ y, clampTo lo hi y = if y ≤ lo then lo else if y ≥ hi then hi else y := fun y => rfl
    rcases lt_trichotomy z lo with hz | hz | hz
    · have e : (fun z => (z - clampTo lo hi z) * (z - clampTo lo hi z)) =ᶠ[nhds z] fun z => (z - lo) * (z - lo) := by
        filter_upwards [gt_mem_nhds hz] with y hy
        rw [hcl, if_pos hy.le]
      rw [hcl, if_pos hz.le]
      exact (hsq lo).congr_of_eventuallyEq e
    · refine hbig lo hz (by rw [hcl, if_pos hz.le]) fun y => ?_
      rw [hcl]
      by_cases a : y ≤ lo
      · rw [if_pos a]
      · rw [if_neg a]
        by_cases b : y ≥ hi
        · rw [if_pos b, abs_of_nonneg (by linarith), abs_of_nonneg (by linarith)]; linarith
        · rw [if_neg b, sub_self, abs_zero]; exact abs_nonneg _
    · rcases lt_trichotomy z hi with hz' | hz' | hz'
      · have e : (fun z => (z - clampTo lo hi z) * (z - clampTo lo hi z)) =ᶠ[nhds z] fun _ => 0 := by
          filter_upwards [lt_mem_nhds hz, gt_mem_nhds hz'] with y hy hy'
          rw [hcl, if_neg (not_le.2 hy), if_neg (not_le.2 hy'), sub_self, mul_zero]
        rw [hcl, if_neg (not_le.2 hz), if_neg (not_le.2 hz'), sub_self, mul_zero]
        exact (hasDerivAt_const z (0 : ℝ)).congr_of_eventuallyEq e
      · refine hbig hi hz' (by rw [hcl, if_neg (not_le.2 hz), if_pos hz'.ge]) fun y => ?_
        rw [hcl]
        by_cases a : y ≤ lo
        · rw [if_pos a, abs_of_nonpos (by linarith), abs_of_nonpos (by linarith)]; linarith
        · rw [if_neg a]
          by_cases b : y ≥ hi
          · rw [if_pos b]
          · rw [if_neg b, sub_self, abs_zero]; exact abs_nonneg _
      · have e : (fun z => (z - clampTo lo hi z) * (z - clampTo lo hi z)) =ᶠ[nhds z] fun z => (z - hi) * (z - hi) := by
          filter_upwards [lt_mem_nhds hz'] with y hy
          rw [hcl, if_neg (not_le.2 (lt_of_le_of_lt hlh hy)), if_pos (le_of_lt hy)]
        rw [hcl, if_neg (not_le.2 hz), if_pos hz'.le]
        exact (hsq hi).congr_of_eventuallyEq e
  have := (key (f x)).comp x h
  exact this.congr_deriv (by ring)

/-- **The position component of the task space region constraint**, if the region is not turned against the world and the offset of the end effector only
turns: a tenth of the gradient is the gradient of the value. Missing for the property: the factor, turned regions, and offsets. -/
theorem C104_tsr_partial (r : JRobot) (hn : Names r.toRobot) (s : St Pose3) (hs : FK r.toRobot s) (aa : AngleAxes) (c : Tsr)
    (hnodes : ∀ n ∈ c.nodes, n ∈ r.tree.ids) (ht : IsTcp r c.obj c.tcp) (hb : ∀ k, c.lo k ≤ c.hi k) (h1 : c.transformation.rot = 1)
    (h2 : c.offset.pos = 0) : IsGradient r c.nodes (c.value aa 0) s (scale (1 / 10) (c.gradient r aa 0 s)) := by
  refine gradient_of (by simp [scale, Tsr.gradient, rowTimes]) fun i d hi hp l1 l2 => ?_
  obtain ⟨f, hf, hx, v, ω, hv, -, hJ, -⟩ := tcp_moves r hn s hs c.nodes hnodes c.tcp c.obj ht i d hi hp l1 l2
  have hlt := index_lt hi
  have j0 := hJ 0
  have j1 := hJ 1
  have j2 := hJ 2
  simp only [Fin.val_zero, Fin.val_one, Fin.val_two] at j0 j1 j2
  have hcur : ∀ t : St Pose3, (c.current t).pos = (t.pose c.obj).pos - c.transformation.pos := fun t => by
    have e : (c.current t).pos = (c.transformation⁻¹ * t.pose c.obj).rot • c.offset.pos + (c.transformation⁻¹ * t.pose c.obj).pos := by
      simp [Tsr.current, Kin.mul_def, add_comm]
    rw [e, h2, smul_zero, zero_add]
    simp [Kin.mul_def, Kin.inv_def, h1, sub_eq_add_neg, add_comm]
  have e : ∀ k : Fin 3, HasDerivAt (fun y => c.posError (f y) k * c.posError (f y) k) (2 * (c.posError s k * v k)) (s.value d) := fun k => by
    have hd : HasDerivAt (fun y => (c.current (f y)).pos k) (v k) (s.value d) := by
      simp only [hcur]
      exact (comp_deriv hv k).sub_const _
    have := clamp_sq_deriv hd (hb k)
    refine this.congr_deriv ?_
    show 2 * (c.posError (f (s.value d)) k * v k) = _
    rw [Tsr.posError, Tsr.posError, hcur, hcur, hx]
  refine ⟨f, hf, c.factor * (1 / 100 * (2 * (c.posError s 0 * v 0) + 2 * (c.posError s 1 * v 1) + 2 * (c.posError s 2 * v 2))), ?_, ?_⟩
  · rw [Tsr.gradient, scale_scale, scale_scale, get_rowTimes hlt]
    simp only [Nat.zero_add, j0, j1, j2, tradeoff, Pi.smul_apply, smul_eq_mul]
    congr 1
    ring
  · have := ((((e 0).add (e 1)).add (e 2)).const_mul (1 / 100)).const_mul c.factor
    refine this.congr_of_eventuallyEq (Filter.Eventually.of_forall fun y => ?_)
    simp only [Tsr.value, sq3, tradeoff, Pi.smul_apply, Pi.add_apply, smul_eq_mul]
    ring

/-- A half turn about z. -/
noncomputable def halfTurn : SO3 := ⟨axisAngle ![0, 0, 1] Real.pi, axisAngle_mem _ _ (by simp)⟩

theorem halfTurn_smul (v : V3) : halfTurn • v = ![-v 0, -v 1, v 2] := by
  show axisAngle ![0, 0, 1] Real.pi *ᵥ v = _
  ext k
  fin_cases k <;> simp [axisAngle, Matrix.mulVec, dotProduct, Fin.sum_univ_three]

theorem halfTurn_inv_smul (v : V3) : halfTurn⁻¹ • v = ![-v 0, -v 1, v 2] := by
  rw [inv_smul_eq_iff, halfTurn_smul]
  ext k
  fin_cases k <;> simp

/-- **For a region that is turned by a half turn, the gradient of the position component points the wrong way**: the slide is at 0, the region requires that
minus its position is at least 1; the value grows with the position, while the gradient says that it falls. -/
theorem C104_tsr_false : ∃ (r : JRobot) (s : St Pose3) (c : Tsr), Names r.toRobot ∧ FK r.toRobot s ∧ (∀ n ∈ c.nodes, n ∈ r.tree.ids) ∧
    IsTcp r c.obj c.tcp ∧ c.factor = 1 ∧ (∀ k, c.lo k ≤ c.hi k) ∧ ∀ aa : AngleAxes, c.gradient r aa 0 s = [-(1 / 5)] ∧
      ∃ f : ℝ → St Pose3, (∀ x, setJointValue r.toRobot 1 0 x s = some (f x)) ∧ HasDerivAt (fun x => c.value aa 0 (f x)) (1 / 50) (s.value 0) := by
  let c : Tsr := ⟨1, [0], .node 0, 0, ⟨halfTurn, 0⟩, 1, ![1, 0, 0], ![2, 0, 0], 0, 0⟩
  have hn : ∀ n ∈ c.nodes, n ∈ slide.tree.ids := by simp [c, slide, Kin.Tree.ids]
  have ht : IsTcp slide c.obj c.tcp := ⟨rfl, by simp [c, slide, Kin.Tree.ids]⟩
  have hb : ∀ k, c.lo k ≤ c.hi k := by intro k; fin_cases k <;> simp [c]
  have hcur : ∀ t : St Pose3, (c.current t).pos = ![-(t.pose 0).pos 0, -(t.pose 0).pos 1, (t.pose 0).pos 2] := fun t => by
    have : (c.current t).pos = halfTurn⁻¹ • (t.pose 0).pos := by
      simp [Tsr.current, c, Kin.mul_def, Kin.inv_def]
    rw [this, halfTurn_inv_smul]
  refine ⟨slide, slideState, c, slide_names, slide_fk, hn, ht, rfl, hb, fun aa => ?_⟩
  obtain ⟨f, hf, hx, v, ω, hv, -, hJ, -⟩ := tcp_moves slide slide_names slideState slide_fk [0] hn (.node 0) 0 ht 0 0 rfl rfl
    (by norm_num [slide, slideState, applyJointValues]) (by norm_num [slide, slideState, applyJointValues])
  have hv0 : v 0 = 1 := by rw [← hJ 0, slide_jacobian]; rfl
  have hv1 : v 1 = 0 := by rw [← hJ 1, slide_jacobian]; rfl
  have hv2 : v 2 = 0 := by rw [← hJ 2, slide_jacobian]; rfl
  have hp : (slideState.pose 0).pos = 0 := by rw [slide_pose]; rfl
  have herr : c.posError slideState = ![-1, 0, 0] := by
    funext k
    rw [Tsr.posError, outside, hcur, hp]
    fin_cases k <;> simp [c, clampTo]
  constructor
  · simp only [Tsr.gradient, herr]
    have : tcpJacobian slide slideState c.nodes c.tcp = [[1], [0], [0], [0], [0], [0]] := slide_jacobian
    rw [this]
    simp [rowTimes, scale, entry, tradeoff, c]
    norm_num
  · refine ⟨f, hf, ?_⟩
    have e : ∀ k : Fin 3, HasDerivAt (fun y => (c.current (f y)).pos k) (![-v 0, -v 1, v 2] k) (slideState.value 0) := fun k => by
      simp only [hcur]
      have a := comp_deriv hv k
      fin_cases k
      · exact a.neg
      · exact a.neg
      · exact a
    have q : ∀ k : Fin 3, HasDerivAt (fun y => c.posError (f y) k * c.posError (f y) k) (2 * (c.posError slideState k * ![-v 0, -v 1, v 2] k))
        (slideState.value 0) := fun k => by
      have := clamp_sq_deriv (e k) (hb k)
      refine this.congr_deriv ?_
      show 2 * (c.posError (f (slideState.value 0)) k * _) = _
      rw [Tsr.posError, Tsr.posError, hcur, hcur, hx]
    have := ((((q 0).add (q 1)).add (q 2)).const_mul (1 / 100)).const_mul c.factor
    refine (this.congr_of_eventuallyEq (Filter.Eventually.of_forall fun y => ?_)).congr_deriv ?_
    · simp only [Tsr.value, sq3, tradeoff, Pi.smul_apply, Pi.add_apply, smul_eq_mul]
      ring
    · rw [herr]
      simp [hv0, hv1, hv2, c]
      norm_num

end Simox.Cst
