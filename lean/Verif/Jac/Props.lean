import Verif.Jac.Lemmas
import Mathlib.Data.Nat.Bitwise

/-!
# Properties of Jacobians (C52)
-/

namespace Simox.Jac

open Matrix Kin Kin.Spec Spec

/-! ## Mode bits -/

theorem has_pow (mode i : Nat) : has mode (2 ^ i) = mode.testBit i := by
  unfold has
  rw [Nat.and_two_pow]
  cases mode.testBit i <;> simp

theorem hasX (mode : Nat) : has mode flagX = mode.testBit 0 := has_pow mode 0
theorem hasY (mode : Nat) : has mode flagY = mode.testBit 1 := has_pow mode 1
theorem hasZ (mode : Nat) : has mode flagZ = mode.testBit 2 := has_pow mode 2
theorem hasO (mode : Nat) : has mode flagOrientation = mode.testBit 3 := has_pow mode 3

theorem hasPosition (mode : Nat) :
    has mode flagPosition = (mode.testBit 0 || mode.testBit 1 || mode.testBit 2) := by
  have h : has mode flagPosition = decide (mode % 8 ≠ 0) := by
    unfold has flagPosition
    rw [show (7 : Nat) = 2 ^ 3 - 1 from rfl, Nat.and_two_pow_sub_one_eq_mod]
    rw [Bool.eq_iff_iff, bne_iff_ne, decide_eq_true_eq]
  rw [h, Bool.eq_iff_iff]
  simp only [ne_eq, decide_eq_true_eq, Bool.or_eq_true, Nat.testBit_eq_decide_div_mod_eq]
  omega

/-! ## One column -/

/-- Velocities of the tcp when one joint moves, and the column of the code. -/
theorem column_spec (r : JRobot) (hn : r.tree.ids.Nodup) (s : St Pose3) (hs : FK r.toRobot s)
    (nodes : List Nat) (frame : Option Pose3) (mm : Bool) (mode o p d : Nat) (l : List Nat)
    (hc : Chain r.tree o l) (h1 : d ∈ parentsOf r.tree nodes p → d ∈ l)
    (h2 : d ∈ l → d ∈ parentsOf r.tree nodes p ∨ r.kind d = .fixed)
    (f : ℝ → St Pose3) (hf : ∀ x, FK r.toRobot (f x)) (hb : ∀ x, (f x).base = s.base)
    (hx : ∀ᶠ x in nhds (s.value d), (f x).value = upd s.value d x) :
    ∃ v ω : V3, Velocity (fun x => seenFrom frame ((f x).pose o)) v (s.value d) ∧
      AngularVelocity (fun x => seenFrom frame ((f x).pose o)) ω (s.value d) ∧
      column r s nodes frame mm mode o p d =
        (if has mode flagPosition then unit mm (r.kind d) • v else 0,
          if has mode flagOrientation then ω else 0) := by
  obtain ⟨C, hC⟩ := seenFrom_eq frame
  have hself : upd s.value d (s.value d) = s.value := by
    funext j; by_cases e : j = d
    · subst e; exact upd_self _ _ _
    · exact upd_ne _ _ e
  by_cases hd : d ∈ l
  · have hx0 := hx.self_of_nhds
    obtain ⟨A, B, e1, e2, -⟩ := chain_pose hn hc f hf hb (s.value d) hx0 hs hd
    have e3 : ∀ᶠ x in nhds (s.value d),
        seenFrom frame ((f x).pose o) = C * A * (r.kind d).trafo x * B := hx.mono fun x hx => by
      obtain ⟨A', B', e1', e2', e3'⟩ := chain_pose hn hc f hf hb x hx hs hd
      have hA : A' = A := mul_right_cancel (e1'.symm.trans e1)
      subst hA
      have hB : B' = B := mul_left_cancel (e2'.symm.trans e2)
      subst hB
      rw [hC, e3']
      simp only [mul_assoc]
    have hk := kind_velocity (r.kind d) (C * A) B (s.value d)
    have epd : C * A * (r.kind d).trafo (s.value d) = seenFrom frame (s.pose d) := by
      rw [hC, e1, mul_assoc]
    have epo : C * A * (r.kind d).trafo (s.value d) * B = seenFrom frame (s.pose o) := by
      rw [hC, e2]; simp only [mul_assoc]
    dsimp only at hk
    rw [epo] at hk
    rw [epd] at hk
    unfold column
    cases hkd : r.kind d with
    | fixed =>
      rw [hkd] at hk
      rw [hkd] at e3
      refine ⟨0, 0, velocity_congr e3 hk.1, angular_congr e3 hk.2, ?_⟩
      simp
    | prismatic w off =>
      have hp : d ∈ parentsOf r.tree nodes p := by
        rcases h2 hd with h | h
        · exact h
        · rw [hkd] at h; exact absurd h (by simp)
      rw [hkd] at hk
      rw [hkd] at e3
      refine ⟨_, _, velocity_congr e3 hk.1, angular_congr e3 hk.2, ?_⟩
      simp [hp, unit, inFrame_eq]
    | revolute u hu off =>
      have hp : d ∈ parentsOf r.tree nodes p := by
        rcases h2 hd with h | h
        · exact h
        · rw [hkd] at h; exact absurd h (by simp)
      rw [hkd] at hk
      rw [hkd] at e3
      refine ⟨_, _, velocity_congr e3 hk.1, angular_congr e3 hk.2, ?_⟩
      simp only [hp, if_true, inFrame_eq, toTCP_eq, unit]
      cases mm <;> simp
  · have hp : d ∉ parentsOf r.tree nodes p := fun h => hd (h1 h)
    have e3 : ∀ᶠ x in nhds (s.value d),
        seenFrom frame ((f x).pose o) = seenFrom frame (s.pose o) := hx.mono fun x hx => by
      rw [chain_pose_still hc f hf hb x hx hs hd]
    refine ⟨0, 0, velocity_congr e3 (hasDerivAt_const _ _), angular_congr e3 fun w => ?_, ?_⟩
    · simpa using hasDerivAt_const (s.value d) ((seenFrom frame (s.pose o)).rot • w)
    · simp [column, hp]

/-- What the code looks at for a tcp: the object whose pose counts and the node whose ancestors count. -/
theorem tcp_chain (r : JRobot) (hn : r.tree.ids.Nodup) (nodes : List Nat) {o : Nat} {tcp : Tcp}
    (ht : IsTcp r o tcp) {d : Nat} (hd : d ∈ nodes) : ∃ p l, Chain r.tree o l ∧
      (d ∈ parentsOf r.tree nodes p → d ∈ l) ∧
      (d ∈ l → d ∈ parentsOf r.tree nodes p ∨ r.kind d = .fixed) ∧
      (tcp = .node o ∧ p = o ∨ tcp = .attached o p) := by
  cases tcp with
  | loose => exact ht.elim
  | node n =>
    obtain ⟨rfl, ho⟩ := ht
    obtain ⟨l, hl, -⟩ := exists_chain r.tree n ho
    exact ⟨n, l, hl, (mem_parentsOf hn hd hl).1, fun h => Or.inl ((mem_parentsOf hn hd hl).2 h),
      Or.inl ⟨rfl, rfl⟩⟩
  | attached o' p =>
    obtain ⟨rfl, ⟨l, hl⟩, hk⟩ := ht
    have hp : Chain r.tree p (l ++ [p]) := chain_prefix (by simp) hl
    refine ⟨p, _, hl, fun h => ?_, fun h => ?_, Or.inr rfl⟩
    · have := (mem_parentsOf hn hd hp).1 h
      simp only [List.mem_append, List.mem_cons] at this ⊢
      tauto
    · by_cases e : d = o'
      · exact Or.inr (e ▸ hk)
      · refine Or.inl ((mem_parentsOf hn hd hp).2 ?_)
        simp only [List.mem_append, List.mem_cons, List.not_mem_nil, or_false] at h ⊢
        tauto

/-- Setting one joint of a robot whose poses are up to date. -/
theorem setJoint_moves (r : JRobot) (hn : r.tree.ids.Nodup) (s : St Pose3) (hs : FK r.toRobot s) (d : Nat)
    (hd : d ∈ r.tree.ids) (hp : r.prop d = []) (h1 : (r.lim d).lo < s.value d)
    (h2 : s.value d < (r.lim d).hi) : ∃ f : ℝ → St Pose3,
      (∀ x, setJointValue r.toRobot 1 d x s = some (f x)) ∧ (∀ x, FK r.toRobot (f x)) ∧
      (∀ x, (f x).base = s.base) ∧ ∀ᶠ x in nhds (s.value d), (f x).value = upd s.value d x := by
  have key : ∀ x, ∃ t, setJointValue r.toRobot 1 d x s = some t ∧ FK r.toRobot t ∧ t.base = s.base ∧
      t.value = upd s.value d (stored (r.lim d) x) := fun x => by
    have e : setJointValue r.toRobot 1 d x s = _ :=
      updatePose_noprop (r := r.toRobot) (n := d) hp 0 (setNoUpdate r.toRobot d x s)
    have hb := setNoUpdate_but (r := r.toRobot) hs hd x
    have := updatePose_fk (r := r.toRobot) hn 1 d (setNoUpdate r.toRobot d x s) _ hb e
    exact ⟨_, e, this.1, this.2, rfl⟩
  choose f hf using key
  refine ⟨f, fun x => (hf x).1, fun x => (hf x).2.1, fun x => (hf x).2.2.1, ?_⟩
  filter_upwards [lt_mem_nhds h1, gt_mem_nhds h2] with x hx1 hx2
  rw [(hf x).2.2.2, stored_id (le_of_lt hx1) (le_of_lt hx2)]

/-! ## C52 -/

/-- **C52.** Each column of the Jacobian consists of the velocity and the angular velocity of the tcp, seen
from the chosen coordinate system, when the joint of that column is moved with `setJointValue`: for every
robot, joint type, node set, mode, coordinate system and configuration inside the joint limits. -/
theorem C52_columns (r : JRobot) (hn : Names r.toRobot) (s : St Pose3) (hs : FK r.toRobot s)
    (nodes : List Nat) (hnodes : ∀ n ∈ nodes, n ∈ r.tree.ids) (frame : Option Pose3) (mm : Bool)
    (mode : Nat) (tcp : Tcp) (o : Nat) (ht : IsTcp r o tcp)
    (i d : Nat) (hi : nodes[i]? = some d) (hp : r.prop d = [])
    (h1 : (r.lim d).lo < s.value d) (h2 : s.value d < (r.lim d).hi) :
    ∃ f : ℝ → St Pose3, (∀ x, setJointValue r.toRobot 1 d x s = some (f x)) ∧
      ∃ v ω : V3, Velocity (fun x => seenFrom frame ((f x).pose o)) v (s.value d) ∧
        AngularVelocity (fun x => seenFrom frame ((f x).pose o)) ω (s.value d) ∧
        colAt (jacobian r s nodes frame mm mode tcp) i =
          (select mode (unit mm (r.kind d) • v) ω).map some := by
  have hd : d ∈ nodes := List.mem_of_getElem? hi
  obtain ⟨f, hf1, hf2, hf3, hf4⟩ := setJoint_moves r hn s hs d (hnodes d hd) hp h1 h2
  obtain ⟨p, l, hc, g1, g2, g3⟩ := tcp_chain r hn nodes ht hd
  obtain ⟨v, ω, hv, hω, hcol⟩ := column_spec r hn s hs nodes frame mm mode o p d l hc g1 g2 f hf2 hf3 hf4
  refine ⟨f, hf1, v, ω, hv, hω, ?_⟩
  have hrows : jacobian r s nodes frame mm mode tcp =
      jacobian r s nodes frame mm mode (.attached o p) := by
    rcases g3 with ⟨rfl, rfl⟩ | rfl <;> rfl
  rw [hrows]
  simp only [jacobian, colAt, select, hasX, hasY, hasZ, hasO, List.map_append, apply_ite (List.map _),
    List.map_cons, List.map_nil, List.getElem?_map, hi, Option.map_some, hcol, hasPosition]
  cases h0 : mode.testBit 0 <;> cases h1 : mode.testBit 1 <;> cases h2 : mode.testBit 2 <;>
    cases h3 : mode.testBit 3 <;> simp

/-- A moving frame has one velocity and one angular velocity, so the entries of `C52_columns` are
determined. -/
theorem C52_unique (p : ℝ → Pose3) (x : ℝ) (v v' ω ω' : V3) (hv : Velocity p v x) (hv' : Velocity p v' x)
    (hω : AngularVelocity p ω x) (hω' : AngularVelocity p ω' x) : v = v' ∧ ω = ω' := by
  refine ⟨HasDerivAt.unique hv hv', ?_⟩
  have h : ∀ w : V3, crossProduct ω w = crossProduct ω' w := fun w => by
    have e : (p x).rot • ((p x).rot⁻¹ • w) = w := smul_inv_smul _ _
    have := HasDerivAt.unique (hω ((p x).rot⁻¹ • w)) (hω' ((p x).rot⁻¹ • w))
    rwa [e] at this
  have ha := h ![1, 0, 0]
  have hb := h ![0, 1, 0]
  have a1 := congrFun ha 1
  have a2 := congrFun ha 2
  have b2 := congrFun hb 2
  simp [cross_apply] at a1 a2 b2
  funext k
  fin_cases k
  · exact b2
  · exact a2
  · exact a1

/-- **C52.** The size of the matrix: one column per node of the set, one row per selected component; also
for a tcp that is not attached to the robot, whose matrix is zero. -/
theorem C52_size (r : JRobot) (s : St Pose3) (nodes : List Nat) (frame : Option Pose3) (mm : Bool)
    (mode : Nat) (tcp : Tcp) :
    (jacobian r s nodes frame mm mode tcp).length =
        (select mode (fun _ => ()) (fun _ => ())).length ∧
      (∀ row ∈ jacobian r s nodes frame mm mode tcp, row.length = nodes.length) ∧
      (tcp = .loose → ∀ row ∈ jacobian r s nodes frame mm mode tcp, ∀ x ∈ row, x = 0) := by
  refine ⟨?_, ?_, ?_⟩
  · cases tcp <;> simp only [jacobian, select, hasX, hasY, hasZ, hasO] <;>
      cases mode.testBit 0 <;> cases mode.testBit 1 <;> cases mode.testBit 2 <;>
      cases mode.testBit 3 <;> simp
  · cases tcp <;> simp only [jacobian, hasX, hasY, hasZ, hasO] <;>
      cases mode.testBit 0 <;> cases mode.testBit 1 <;> cases mode.testBit 2 <;>
      cases mode.testBit 3 <;> simp
  · rintro rfl
    simp only [jacobian, hasX, hasY, hasZ, hasO]
    cases mode.testBit 0 <;> cases mode.testBit 1 <;> cases mode.testBit 2 <;>
      cases mode.testBit 3 <;> simp

/-- **C52.** With several goals, column `i` of the whole matrix is the velocities of the tcps one after the
other, in the order of the goals. -/
theorem C52_stacked (r : JRobot) (s : St Pose3) (nodes : List Nat) (frame : Option Pose3) (mm : Bool)
    (goals : List (Tcp × Nat)) (i : Nat) :
    colAt (fullJacobian r s nodes frame mm goals) i =
      goals.flatMap (fun g => colAt (jacobian r s nodes frame mm g.2 g.1) i) := by
  induction goals with
  | nil => rfl
  | cons g gs ih =>
    simp only [fullJacobian, colAt, List.flatMap_cons, List.map_append] at ih ⊢
    rw [ih]

/-! ## Concrete robots -/

/-- An arm: a turntable about z, a slide along x mounted 10 above it, a tool fixed 5 in front. -/
noncomputable def arm (prop : Nat → List (Nat × ℝ)) : JRobot where
  tree := .node 0 [.node 1 [.node 2 []]]
  localTrafo n := if n = 1 then ⟨1, ![0, 0, 10]⟩ else if n = 2 then ⟨1, ![5, 0, 0]⟩ else 1
  kind n := if n = 0 then .revolute ![0, 0, 1] (by simp) 0
    else if n = 1 then .prismatic ![1, 0, 0] 0 else .fixed
  lim _ := ⟨-3, 3, false, true⟩
  prop := prop

theorem arm_names (prop : Nat → List (Nat × ℝ)) : Names (arm prop).toRobot := by
  show ([0, 1, 2] : List Nat).Nodup
  decide

/-- The arm at joint values 1 and 2, poses up to date. -/
noncomputable def armState (prop : Nat → List (Nat × ℝ)) : St Pose3 :=
  applyJointValues (arm prop).toRobot ⟨1, fun n => if n = 0 then 1 else 2, fun _ => 1⟩

/-- The hypotheses of `C52_columns` hold of the arm, for the turntable, and with the tool as tcp. -/
example := C52_columns (arm fun _ => []) (arm_names _) (armState fun _ => [])
  (apply_fk _ (arm_names _) _) [0, 1] (by intro n hn; simp [arm, Tree.ids, idsL] at hn ⊢; omega)
  (some ⟨1, ![1, 2, 3]⟩) true 13 (.attached 2 1) 2
  ⟨rfl, ⟨[0], .step 0 _ (.node 1 [.node 2 []]) 2 [1, 2] (List.mem_singleton.2 rfl)
    (.step 1 _ (.node 2 []) 2 [2] (List.mem_singleton.2 rfl) (.here 2 []))⟩, rfl⟩
  0 0 rfl rfl (by norm_num [arm, armState, applyJointValues]) (by norm_num [arm, armState, applyJointValues])

/-- Two slides along x, one behind the other; the second follows the first. -/
noncomputable def slides : JRobot where
  tree := .node 0 [.node 1 []]
  localTrafo _ := 1
  kind _ := .prismatic ![1, 0, 0] 0
  lim _ := ⟨-3, 3, false, true⟩
  prop n := if n = 0 then [(1, 1)] else []

/-- **C52.** Propagated joints are ignored by the Jacobian: if the second slide follows the first, moving
the first moves the tcp by two units per unit, while the matrix says one. All hypotheses of `C52_columns`
but the one on propagation hold. -/
theorem C52_propagation_ignored : ∃ (r : JRobot) (s : St Pose3), Names r.toRobot ∧ FK r.toRobot s ∧
    (r.lim 0).lo < s.value 0 ∧ s.value 0 < (r.lim 0).hi ∧
    colAt (jacobian r s [0] none false flagX (.node 1)) 0 = [some 1] ∧
    ∃ f : ℝ → St Pose3, (∀ x, setJointValue r.toRobot 2 0 x s = some (f x)) ∧
      Velocity (fun x => (f x).pose 1) ![2, 0, 0] (s.value 0) := by
  have hn : Names slides.toRobot := by
    show ([0, 1] : List Nat).Nodup
    decide
  refine ⟨slides, applyJointValues slides.toRobot ⟨1, fun _ => 0, fun _ => 1⟩, hn, apply_fk _ hn _,
    by norm_num [slides, applyJointValues], by norm_num [slides, applyJointValues], ?_, ?_⟩
  · simp [colAt, jacobian, column, parentsOf, slides, belowT, belowL, idsL, Tree.ids,
      has, flagX, flagY, flagZ, flagPosition, flagOrientation, inFrame, applyJointValues, JRobot.toRobot, updTree, updList, upd, Kind.trafo,
      Kin.mul_def, Kin.one_def]
  · set s := applyJointValues slides.toRobot ⟨1, fun _ => 0, fun _ => 1⟩
    have hs : FK slides.toRobot s := apply_fk _ hn _
    have key : ∀ x, ∃ t, setJointValue slides.toRobot 2 0 x s = some t ∧ FK slides.toRobot t ∧
        t.base = 1 ∧ t.value 0 = stored ⟨-3, 3, false, true⟩ x ∧
        t.value 1 = stored ⟨-3, 3, false, true⟩ (stored ⟨-3, 3, false, true⟩ x) := fun x => by
      have hb := setNoUpdate_but (r := slides.toRobot) hs (show 0 ∈ [0, 1] by simp) x
      have e : ∃ t, setJointValue slides.toRobot 2 0 x s = some t ∧
          t.value 0 = stored ⟨-3, 3, false, true⟩ x ∧
          t.value 1 = stored ⟨-3, 3, false, true⟩ (stored ⟨-3, 3, false, true⟩ x) := by
        rw [setJointValue, updatePose_succ]
        have h0 : slides.toRobot.prop 0 = [(1, 1)] := rfl
        rw [h0, List.foldlM_cons, if_pos (show (1 : Nat) ∈ slides.toRobot.tree.ids by
          show 1 ∈ [0, 1]; simp), updatePose_noprop (show slides.toRobot.prop 1 = [] from rfl)]
        refine ⟨_, rfl, ?_, ?_⟩
        · simp only [setNoUpdate, upd]
          simp [slides, JRobot.toRobot]
        · simp only [setNoUpdate, upd]
          simp [slides, JRobot.toRobot]
      obtain ⟨t, e, e0, e1⟩ := e
      have := updatePose_fk (r := slides.toRobot) hn 2 0 (setNoUpdate slides.toRobot 0 x s) _ hb e
      exact ⟨t, e, this.1, this.2, e0, e1⟩
    choose f hf using key
    refine ⟨f, fun x => (hf x).1, ?_⟩
    have hpos : ∀ᶠ x in nhds (s.value 0), ((f x).pose 1).pos = (x + x) • (![1, 0, 0] : V3) := by
      have z : s.value 0 = 0 := rfl
      rw [z]
      filter_upwards [lt_mem_nhds (show (-3 : ℝ) < 0 by norm_num),
        gt_mem_nhds (show (0 : ℝ) < 3 by norm_num)] with x h1 h2
      have st : stored ⟨-3, 3, false, true⟩ x = x := stored_id h1.le h2.le
      have hc : Chain slides.toRobot.tree 1 [0, 1] :=
        .step 0 _ (.node 1 []) 1 [1] (List.mem_singleton.2 rfl) (.here 1 [])
      rw [(hf x).2.1 1 _ hc, (hf x).2.2.1]
      simp only [List.map_cons, List.map_nil, List.prod_cons, List.prod_nil, one_mul, mul_one]
      rw [(hf x).2.2.2.1, (hf x).2.2.2.2, st, st]
      simp [JRobot.toRobot, slides, Kind.trafo, Kin.mul_def, add_smul]
    have hx : HasDerivAt (fun b : ℝ => (b + b) • (![1, 0, 0] : V3)) ![2, 0, 0] (s.value 0) := by
      have := ((hasDerivAt_id (s.value 0)).add (hasDerivAt_id (s.value 0))).smul_const (![1, 0, 0] : V3)
      refine this.congr_deriv ?_
      ext i; fin_cases i <;> norm_num
    exact HasDerivAt.congr_of_eventuallyEq hx hpos

end Simox.Jac
