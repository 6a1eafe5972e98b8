import Verif.Cst.Angle

/-!
# Constraints: the gradients that are right
-/

namespace Simox.Cst

open Matrix Kin Kin.Spec Jac Jac.Spec Ik Spec

/-- From the derivatives of single joints to the gradient. -/
theorem gradient_of {r : JRobot} {nodes : List Nat} {F : St Pose3 → ℝ} {s : St Pose3} {grad : List ℝ} (hl : grad.length = nodes.length)
    (h : ∀ (i d : Nat), nodes[i]? = some d → r.prop d = [] → (r.lim d).lo < s.value d → s.value d < (r.lim d).hi →
      ∃ f : ℝ → St Pose3, (∀ x, setJointValue r.toRobot 1 d x s = some (f x)) ∧ ∃ v, grad[i]? = some v ∧ HasDerivAt (fun x => F (f x)) v (s.value d)) :
    IsGradient r nodes F s grad := ⟨hl, h⟩

theorem sq_deriv {f : ℝ → ℝ} {v x : ℝ} (h : HasDerivAt f v x) (t : ℝ) :
    HasDerivAt (fun y => (f y - t) * (f y - t)) (2 * ((f x - t) * v)) x := by
  have := (h.sub_const t).mul (h.sub_const t)
  exact this.congr_deriv (by ring)

/-- **The gradient of the position constraint** is that of its value: for every robot, configuration, tcp, target, factor and selection. -/
theorem C103_position (r : JRobot) (hn : Names r.toRobot) (s : St Pose3) (hs : FK r.toRobot s) (c : Position)
    (hnodes : ∀ n ∈ c.nodes, n ∈ r.tree.ids) (ht : IsTcp r c.obj c.tcp) : IsGradient r c.nodes c.value s (c.gradient r s) := by
  refine gradient_of ?_ fun i d hi hp h1 h2 => ?_
  · simp only [Position.gradient]
    split_ifs <;> simp [length_rowTimes, zeros]
  obtain ⟨f, hf, hx, v, ω, hv, -, hJ, -⟩ := tcp_moves r hn s hs c.nodes hnodes c.tcp c.obj ht i d hi hp h1 h2
  refine ⟨f, hf, ?_⟩
  have hlt := index_lt hi
  have j0 := hJ 0
  have j1 := hJ 1
  have j2 := hJ 2
  simp only [Fin.val_zero, Fin.val_one, Fin.val_two] at j0 j1 j2
  have e : ∀ k : Fin 3, HasDerivAt (fun y => c.diff (f y) k * c.diff (f y) k) (2 * (c.diff s k * v k)) (s.value d) := fun k => by
    have := sq_deriv (comp_deriv hv k) (c.target k)
    refine this.congr_deriv ?_
    show 2 * ((((f (s.value d)).pose c.obj).pos k - c.target k) * v k) = _
    rw [hx]; rfl
  simp only [Position.gradient, Position.value]
  by_cases c1 : c.sel = flagX
  · simp only [if_pos c1]
    refine ⟨_, get_rowTimes hlt _, ?_⟩
    refine (((e 0).const_mul c.factor).congr_of_eventuallyEq (Filter.Eventually.of_forall fun y => by ring)).congr_deriv ?_
    simp [j0]; ring
  simp only [if_neg c1]
  by_cases c2 : c.sel = flagY
  · simp only [if_pos c2]
    refine ⟨_, get_rowTimes hlt _, ?_⟩
    refine (((e 1).const_mul c.factor).congr_of_eventuallyEq (Filter.Eventually.of_forall fun y => by ring)).congr_deriv ?_
    simp [j1]; ring
  simp only [if_neg c2]
  by_cases c3 : c.sel = flagZ
  · simp only [if_pos c3]
    refine ⟨_, get_rowTimes hlt _, ?_⟩
    refine (((e 2).const_mul c.factor).congr_of_eventuallyEq (Filter.Eventually.of_forall fun y => by ring)).congr_deriv ?_
    simp [j2]; ring
  simp only [if_neg c3]
  by_cases c4 : c.sel = flagPosition ∨ c.sel = flagAll
  · simp only [if_pos c4]
    refine ⟨_, get_rowTimes hlt _, ?_⟩
    refine ((((e 0).add (e 1)).add (e 2)).const_mul c.factor).congr_deriv ?_
    simp only [j0, j1, j2, Nat.zero_add]; ring
  · simp only [if_neg c4]
    exact ⟨0, get_zeros hlt, hasDerivAt_const _ _⟩

/-- **The gradient of the orientation constraint** is that of its value, unless the tcp is turned by exactly a half turn against the target: for every
robot, configuration, tcp, target, factor and selection. -/
theorem C103_orientation (r : JRobot) (hn : Names r.toRobot) (s : St Pose3) (hs : FK r.toRobot s) (aa : AngleAxes) (c : Orientation)
    (hnodes : ∀ n ∈ c.nodes, n ∈ r.tree.ids) (ht : IsTcp r c.obj c.tcp) (hpi : ¬ Ik.Spec.IsAngle (c.target * (s.pose c.obj).rot⁻¹) Real.pi) :
    IsGradient r c.nodes (c.value aa) s (c.gradient r aa s) := by
  refine gradient_of ?_ fun i d hi hp h1 h2 => ?_
  · simp only [Orientation.gradient]
    split_ifs <;> simp [length_rowTimes, zeros]
  obtain ⟨f, hf, hx, v, ω, -, hω, -, hJ⟩ := tcp_moves r hn s hs c.nodes hnodes c.tcp c.obj ht i d hi hp h1 h2
  refine ⟨f, hf, ?_⟩
  have hlt := index_lt hi
  have j0 := hJ 0
  have j1 := hJ 1
  have j2 := hJ 2
  simp only [Fin.val_zero, Fin.val_one, Fin.val_two] at j0 j1 j2
  simp only [Orientation.gradient, Orientation.value]
  by_cases c1 : c.sel = flagOrientation ∨ c.sel = flagAll
  · simp only [if_pos c1]
    refine ⟨_, get_rowTimes hlt _, ?_⟩
    have hinv : ∀ y, aa.angle (c.target * ((f y).pose c.obj).rot⁻¹) = aa.angle (((f y).pose c.obj).rot * c.target⁻¹) := fun y => by
      rw [← angle_inv]; congr 1; group
    have hinv' : aa.angle (c.target * (s.pose c.obj).rot⁻¹) = aa.angle ((s.pose c.obj).rot * c.target⁻¹) := by rw [← angle_inv]; congr 1; group
    have hR : ∀ w : V3, HasDerivAt (fun y => (((f y).pose c.obj).rot * c.target⁻¹) • w)
        (crossProduct ω ((((f (s.value d)).pose c.obj).rot * c.target⁻¹) • w)) (s.value d) := fun w => by
      have := hω (c.target⁻¹ • w)
      simpa only [mul_smul] using this
    have hne : aa.angle (((f (s.value d)).pose c.obj).rot * c.target⁻¹) ≠ Real.pi := by
      rw [hx, ← hinv']
      intro e
      exact hpi (e ▸ isAngle_aa aa _)
    have := (angle_deriv hR aa hne).const_mul c.factor
    refine (this.congr_of_eventuallyEq (Filter.Eventually.of_forall fun y => ?_)).congr_deriv ?_
    · simp only [hinv]; ring
    · rw [hx, show entry (tcpJacobian r s c.nodes c.tcp) 3 i = ω 0 from j0, j1, j2]
      simp [dotProduct, Fin.sum_univ_three]
      ring
  · simp only [if_neg c1]
    exact ⟨0, get_zeros hlt, hasDerivAt_const _ _⟩

/-- **The gradient of the centre of mass constraint** is that of its value, in the plane and in space. -/
theorem C103_com (r : JRobot) (hn : Names r.toRobot) (m : Masses) (hm : ∀ n, 0 ≤ m.mass n) (s : St Pose3) (hs : FK r.toRobot s) (c : CoM)
    (hj : ∀ n ∈ c.joints, n ∈ r.tree.ids) (hb : ∀ n ∈ c.bodies, n ∈ r.tree.ids) (hne : c.bodies ≠ []) :
    IsGradient r c.joints (c.value m) s (c.gradient r m s) := by
  refine gradient_of ?_ fun i d hi hp h1 h2 => ?_
  · simp only [CoM.gradient]
    split_ifs <;> simp [zeros, scale, rowTimes, rowTimes2]
  obtain ⟨f, hf, hx, v, hv, j0, j1, j2⟩ := com_moves r hn m hm s hs c.joints c.bodies hj hb hne c.dim i d hi hp h1 h2
  refine ⟨f, hf, ?_⟩
  have hlt := index_lt hi
  have e : ∀ k : Fin 3, HasDerivAt (fun y => (getCoM m (f y) c.bodies - c.target) k * (getCoM m (f y) c.bodies - c.target) k)
      (2 * ((getCoM m s c.bodies - c.target) k * v k)) (s.value d) := fun k => by
    have := sq_deriv (comp_deriv hv k) (c.target k)
    refine this.congr_deriv ?_
    rw [hx]; rfl
  simp only [CoM.gradient, CoM.value]
  by_cases c2 : c.dim = 2
  · simp only [if_pos c2]
    rw [c2] at j0 j1
    refine ⟨2 * c.factor * ((getCoM m s c.bodies - c.target) 0 * v 0 + (getCoM m s c.bodies - c.target) 1 * v 1), ?_, ?_⟩
    · simp only [scale, rowTimes2, List.getElem?_map, List.getElem?_range hlt, Option.map_some, j0, j1]
    · refine (((e 0).add (e 1)).const_mul c.factor).congr_deriv ?_
      ring
  simp only [if_neg c2]
  by_cases c3 : c.dim = 3
  · simp only [if_pos c3]
    have j2 := j2 c2
    rw [c3] at j0 j1 j2
    refine ⟨_, get_rowTimes hlt _, ?_⟩
    refine ((((e 0).add (e 1)).add (e 2)).const_mul c.factor).congr_deriv ?_
    simp only [j0, j1, j2, Nat.zero_add]; ring
  · simp only [if_neg c3]
    exact ⟨0, get_zeros hlt, hasDerivAt_const _ _⟩

theorem refSum_const {keep : Nat → Bool} {s s' : St Pose3} {l : List (Nat × ℝ)} (h : ∀ p ∈ l, s'.value p.1 = s.value p.1) :
    refSum keep s' l = refSum keep s l := by
  induction l with
  | nil => rfl
  | cons p l ih =>
    obtain ⟨n, x⟩ := p
    rw [refSum, refSum, ih fun q hq => h q (List.mem_cons_of_mem _ hq), h (n, x) (by simp)]

/-- The derivative of the sum of squares in one value of a list without repetitions. -/
theorem refSum_deriv (keep : Nat → Bool) (s : St Pose3) (d : Nat) (f : ℝ → St Pose3) (hf : ∀ᶠ x in nhds (s.value d), (f x).value = upd s.value d x) :
    ∀ (nodes : List Nat) (ref : List ℝ) (i : Nat), nodes.Nodup → nodes[i]? = some d → nodes.length = ref.length →
      HasDerivAt (fun x => refSum keep (f x) (nodes.zip ref)) (if keep d then 2 * (s.value d - ref.getD i 0) else 0) (s.value d)
  | [], _, _, _, hi, _ => by simp at hi
  | _ :: _, [], _, _, _, hl => by simp at hl
  | n :: ns, x :: xs, 0, hnd, hi, hl => by
    simp only [List.getElem?_cons_zero, Option.some.injEq] at hi
    subst hi
    have hrest : ∀ᶠ y in nhds (s.value n), refSum keep (f y) ((n :: ns).zip (x :: xs)) =
        (if keep n then (y - x) * (y - x) else 0) + refSum keep s (ns.zip xs) := by
      filter_upwards [hf] with y hy
      rw [List.zip_cons_cons, refSum, hy]
      congr 1
      · simp [upd]
      · refine refSum_const fun p hp => ?_
        rw [hy]
        have : p.1 ∈ ns := (List.of_mem_zip hp).1
        have hne : p.1 ≠ n := fun e => (List.nodup_cons.1 hnd).1 (e ▸ this)
        simp [upd, hne]
    have hd : HasDerivAt (fun y => (if keep n then (y - x) * (y - x) else 0) + refSum keep s (ns.zip xs))
        (if keep n then 2 * (s.value n - (x :: xs).getD 0 0) else 0) (s.value n) := by
      refine HasDerivAt.add_const _ ?_
      cases keep n
      · exact hasDerivAt_const _ _
      · simp only [if_true]
        exact (sq_deriv (hasDerivAt_id (s.value n)) x).congr_deriv (by simp)
    exact hd.congr_of_eventuallyEq hrest
  | n :: ns, x :: xs, i + 1, hnd, hi, hl => by
    have hd : d ∈ ns := List.mem_of_getElem? hi
    have hne : n ≠ d := fun e => (List.nodup_cons.1 hnd).1 (e ▸ hd)
    have ih := refSum_deriv keep s d f hf ns xs i (List.nodup_cons.1 hnd).2 hi (by simpa using hl)
    have hrest : ∀ᶠ y in nhds (s.value d), refSum keep (f y) ((n :: ns).zip (x :: xs)) =
        (if keep n then (s.value n - x) * (s.value n - x) else 0) + refSum keep (f y) (ns.zip xs) := by
      filter_upwards [hf] with y hy
      rw [List.zip_cons_cons, refSum, hy]
      simp [upd, hne]
    refine HasDerivAt.congr_of_eventuallyEq ?_ hrest
    simpa using ih.const_add (if keep n then (s.value n - x) * (s.value n - x) else 0)

/-- **The gradient of the reference configuration constraint** is that of its value; the node set has no node twice. -/
theorem C103_reference (r : JRobot) (hn : Names r.toRobot) (s : St Pose3) (hs : FK r.toRobot s) (c : Reference)
    (hnodes : ∀ n ∈ c.nodes, n ∈ r.tree.ids) (hd : c.nodes.Nodup) (hl : c.reference.length = c.nodes.length) :
    IsGradient r c.nodes c.value s (c.gradient s) := by
  refine gradient_of (by simp [Reference.gradient, scale, hl]) fun i d hi hp h1 h2 => ?_
  obtain ⟨f, hf1, -, -, hf4⟩ := setJoint_moves r hn s hs d (hnodes d (List.mem_of_getElem? hi)) hp h1 h2
  have hlt := index_lt hi
  refine ⟨f, hf1, c.factor * (2 * (s.value d - c.reference.getD i 0)), ?_, ?_⟩
  · have : c.reference[i]? = some (c.reference.getD i 0) := by
      rw [List.getD_eq_getElem?_getD, List.getElem?_eq_getElem (by omega)]; rfl
    have hz : (c.nodes.zip c.reference)[i]? = some (d, c.reference.getD i 0) := List.getElem?_zip_eq_some.2 ⟨hi, this⟩
    simp only [Reference.gradient, scale, List.getElem?_map, hz, Option.map_some]
  · exact (refSum_deriv (fun _ => true) s d f hf4 c.nodes c.reference i hd hi hl.symm).const_mul c.factor

/-- **The gradient of the joint limit avoidance constraint** is that of its value. -/
theorem C103_limits (r : JRobot) (hn : Names r.toRobot) (s : St Pose3) (hs : FK r.toRobot s) (c : Reference)
    (hnodes : ∀ n ∈ c.nodes, n ∈ r.tree.ids) (hd : c.nodes.Nodup) (hl : c.reference.length = c.nodes.length) :
    IsGradient r c.nodes (limitValue r c) s (limitGradient r c s) := by
  refine gradient_of (by simp [limitGradient, scale, hl]) fun i d hi hp h1 h2 => ?_
  obtain ⟨f, hf1, -, -, hf4⟩ := setJoint_moves r hn s hs d (hnodes d (List.mem_of_getElem? hi)) hp h1 h2
  have hlt := index_lt hi
  refine ⟨f, hf1, c.factor * (if (r.lim d).limitless then 0 else 2 * (s.value d - c.reference.getD i 0)), ?_, ?_⟩
  · have : c.reference[i]? = some (c.reference.getD i 0) := by
      rw [List.getD_eq_getElem?_getD, List.getElem?_eq_getElem (by omega)]; rfl
    have hz : (c.nodes.zip c.reference)[i]? = some (d, c.reference.getD i 0) := List.getElem?_zip_eq_some.2 ⟨hi, this⟩
    simp only [limitGradient, scale, List.getElem?_map, hz, Option.map_some]
  · have := (refSum_deriv (fun n => !(r.lim n).limitless) s d f hf4 c.nodes c.reference i hd hi hl.symm).const_mul c.factor
    refine this.congr_deriv ?_
    cases (r.lim d).limitless <;> simp

/-- The constraint for joint limits refers to the middles of the ranges, and its construction does not throw. -/
theorem C103_middle (r : JRobot) (factor : ℝ) (nodes : List Nat) :
    limitAvoidance r factor nodes = some ⟨factor, nodes, nodes.map fun n => ((r.lim n).lo + (r.lim n).hi) / 2⟩ := by
  simp only [limitAvoidance, Reference.zero, Reference.set, zeros, List.length_replicate, ne_eq, not_true_eq_false, if_false, Option.bind_some,
    List.length_map, Option.some.injEq, Reference.mk.injEq, true_and]
  refine List.map_congr_left fun n _ => ?_
  ring

/-- A reference configuration is refused, with an exception, exactly if it has the wrong size. -/
theorem C103_set (c : Reference) (q : List ℝ) : c.set q = if q.length = c.nodes.length then some ⟨c.factor, c.nodes, q⟩ else none := by
  unfold Reference.set
  by_cases h : q.length = c.nodes.length
  · rw [if_pos h, if_neg (by simp [h])]
  · rw [if_neg h, if_pos (fun e => h e.symm)]

/-! ## Concrete cases: the arm of C52 -/

theorem arm_nodes : ∀ n ∈ ([0, 1] : List Nat), n ∈ (arm fun _ => []).tree.ids := by
  intro n hn
  simp [arm, Kin.Tree.ids, idsL] at hn ⊢
  omega

example := C103_position (arm fun _ => []) (arm_names _) (armState fun _ => []) (apply_fk _ (arm_names _) _)
  ⟨3, [0, 1], .node 1, 1, ![1, 2, 3], flagPosition, 1⟩ arm_nodes ⟨rfl, by simp [arm, Kin.Tree.ids, idsL]⟩

example := C103_reference (arm fun _ => []) (arm_names _) (armState fun _ => []) (apply_fk _ (arm_names _) _) ⟨3, [0, 1], [1, 2]⟩ arm_nodes (by simp) rfl

example := C103_com (arm fun _ => []) (arm_names _) armMasses (fun n => Nat.cast_nonneg n) (armState fun _ => []) (apply_fk _ (arm_names _) _)
  ⟨3, [0, 1], [1], ![1, 2, 3], ![1, 2, 3], 2, 1⟩ arm_nodes (by simp [arm, Kin.Tree.ids, idsL]) (by simp)

/-- The condition of `C103_orientation` holds if the tcp has the target orientation. -/
example (aa : AngleAxes) (s : St Pose3) (hs : FK (arm fun _ => []).toRobot s) := C103_orientation (arm fun _ => []) (arm_names _) s hs aa
  ⟨3, [0, 1], .node 1, 1, (s.pose 1).rot, flagAll, 1⟩ arm_nodes ⟨rfl, by simp [arm, Kin.Tree.ids, idsL]⟩ (by
    rintro ⟨-, -, u, hu, h⟩
    have := axisAngle_angle (u := u) (by nlinarith) Real.pi_pos.le le_rfl
    rw [← h] at this
    norm_num [Matrix.trace] at this
    exact Real.pi_ne_zero this.symm)

end Simox.Cst
