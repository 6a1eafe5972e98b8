import Verif.Grv.Spec
import Verif.Jac.ComProps

/-!
# Torques against gravity: the property
-/

namespace Simox.Grv

open Matrix Kin Kin.Spec Jac Jac.Spec Spec

/-! ## Centres of mass -/

/-- The bodies of a subtree. -/
def bodiesIn (g : Setup) (ids : List Nat) : List Nat := ids.filter (· ∈ g.bodies)

/-- The masses are those the constructor accepts. -/
def Heavy (g : Setup) : Prop := ∀ b ∈ g.bodies, 0 < g.masses.mass b

theorem heavy_of {g : Setup} (h : constructs g = true) : Heavy g := by
  simp only [constructs, Bool.and_eq_true, List.all_eq_true, Bool.not_eq_true', decide_eq_false_iff_not, not_le] at h
  exact h.2

mutual
theorem massSum_eq (g : Setup) : ∀ t : Kin.Tree, massSum g t = ((bodiesIn g t.ids).map g.masses.mass).sum
  | .node i ks => by
    rw [massSum, massSumL_eq g ks, Kin.Tree.ids]
    by_cases h : i ∈ g.bodies <;> simp [h, bodiesIn]
theorem massSumL_eq (g : Setup) : ∀ ks : List Kin.Tree, massSumL g ks = ((bodiesIn g (idsL ks)).map g.masses.mass).sum
  | [] => by simp [massSumL, idsL, bodiesIn]
  | k :: ks => by
    rw [massSumL, massSum_eq g k, massSumL_eq g ks, idsL, bodiesIn, bodiesIn, bodiesIn, List.filter_append, List.map_append, List.sum_append]
end

theorem sum_nonneg {g : Setup} (hg : Heavy g) (l : List Nat) : 0 ≤ ((bodiesIn g l).map g.masses.mass).sum := by
  refine List.sum_nonneg fun x hx => ?_
  obtain ⟨b, hb, rfl⟩ := List.mem_map.1 hx
  exact (hg b (by simpa [bodiesIn] using (List.mem_filter.1 hb).2)).le

theorem massSum_nonneg {g : Setup} (hg : Heavy g) (t : Kin.Tree) : 0 ≤ massSum g t := by rw [massSum_eq]; exact sum_nonneg hg _

theorem massSumL_nonneg {g : Setup} (hg : Heavy g) (ks : List Kin.Tree) : 0 ≤ massSumL g ks := by rw [massSumL_eq]; exact sum_nonneg hg _

/-- Without mass there are no bodies. -/
theorem no_bodies {g : Setup} (hg : Heavy g) {l : List Nat} (h : ((bodiesIn g l).map g.masses.mass).sum ≤ 0) : bodiesIn g l = [] := by
  cases hb : bodiesIn g l with
  | nil => rfl
  | cons b bs =>
    exfalso
    have hm : b ∈ g.bodies := by
      have : b ∈ bodiesIn g l := by rw [hb]; simp
      simpa [bodiesIn] using (List.mem_filter.1 this).2
    have h2 : 0 ≤ (bs.map g.masses.mass).sum := by
      refine List.sum_nonneg fun x hx => ?_
      obtain ⟨c, hc, rfl⟩ := List.mem_map.1 hx
      have : c ∈ bodiesIn g l := by rw [hb]; simp [hc]
      exact (hg c (by simpa [bodiesIn] using (List.mem_filter.1 this).2)).le
    rw [hb, List.map_cons, List.sum_cons] at h
    have := hg b hm
    linarith

theorem names_sub {l l' : List Nat} {name : Nat → Nat} (h : ∀ a ∈ l, ∀ b ∈ l, name a = name b → a = b) (hs : ∀ a ∈ l', a ∈ l) :
    ∀ a ∈ l', ∀ b ∈ l', name a = name b → a = b := fun a ha b hb => h a (hs a ha) b (hs b hb)

theorem rootId_mem : ∀ t : Kin.Tree, rootId t ∈ t.ids
  | .node i ks => by simp [rootId, Kin.Tree.ids]

theorem not_replaced {g : Setup} {k : Kin.Tree} {ks : List Kin.Tree} (hn : (k.ids ++ idsL ks).Nodup)
    (h : ∀ a ∈ k.ids ++ idsL ks, ∀ b ∈ k.ids ++ idsL ks, g.name a = g.name b → a = b) : replaced g k ks = false := by
  rw [replaced, List.any_eq_false]
  intro k' hk' e
  rw [beq_iff_eq] at e
  have h1 : rootId k' ∈ idsL ks := by
    clear hn h e
    induction ks with
    | nil => cases hk'
    | cons x xs ih =>
      rw [idsL, List.mem_append]
      rcases List.mem_cons.1 hk' with rfl | h
      · exact .inl (rootId_mem _)
      · exact .inr (ih h)
  have h2 := h _ (List.mem_append_right _ h1) _ (List.mem_append_left _ (rootId_mem k)) e
  rw [List.nodup_append] at hn
  exact hn.2.2 _ (rootId_mem k) _ h1 h2.symm

/-- The weighted sum of the centres. -/
noncomputable def moment (g : Setup) (s : St Pose3) (l : List Nat) : V3 :=
  ((bodiesIn g l).map fun b => g.masses.mass b • comGlobal g.masses s b).sum

theorem moment_append (g : Setup) (s : St Pose3) (a b : List Nat) : moment g s (a ++ b) = moment g s a + moment g s b := by
  rw [moment, bodiesIn, List.filter_append, List.map_append, List.sum_append]; rfl

theorem moment_cons (g : Setup) (s : St Pose3) (i : Nat) (b : List Nat) :
    moment g s (i :: b) = (if i ∈ g.bodies then g.masses.mass i • comGlobal g.masses s i else 0) + moment g s b := by
  rw [moment, bodiesIn, List.filter_cons]
  by_cases h : i ∈ g.bodies <;> simp [h, moment, bodiesIn]

mutual
/-- `massSum` times the centre of mass is the sum over the bodies. -/
theorem com_eq {g : Setup} (hg : Heavy g) (s : St Pose3) : ∀ t : Kin.Tree, t.ids.Nodup →
    (∀ a ∈ t.ids, ∀ b ∈ t.ids, g.name a = g.name b → a = b) → massSum g t • com g s t = moment g s t.ids
  | .node i ks, hn, hd => by
    rw [com, Kin.Tree.ids, moment_cons]
    rw [Kin.Tree.ids] at hn hd
    by_cases h0 : 0 < massSum g (.node i ks)
    · rw [smul_add, comL_eq hg s h0 ks (List.nodup_cons.1 hn).2 (names_sub hd fun a ha => List.mem_cons_of_mem _ ha)]
      congr 1
      by_cases hi : i ∈ g.bodies
      · rw [if_pos ⟨hi, h0, hg i hi⟩, if_pos hi, smul_smul, mul_div_cancel₀ _ h0.ne']
      · rw [if_neg (fun h => hi h.1), if_neg hi, smul_zero]
    · have hz : massSum g (.node i ks) = 0 := le_antisymm (not_lt.1 h0) (massSum_nonneg hg _)
      have := no_bodies hg (l := (Kin.Tree.node i ks).ids) (by rw [← massSum_eq, hz])
      rw [hz, zero_smul, ← moment_cons, moment]
      rw [Kin.Tree.ids] at this
      rw [this]; rfl
/-- The same for the children. -/
theorem comL_eq {g : Setup} (hg : Heavy g) (s : St Pose3) {total : ℝ} (ht : 0 < total) : ∀ ks : List Kin.Tree, (idsL ks).Nodup →
    (∀ a ∈ idsL ks, ∀ b ∈ idsL ks, g.name a = g.name b → a = b) → total • comL g s total ks = moment g s (idsL ks)
  | [], _, _ => by simp [comL, idsL, moment, bodiesIn]
  | k :: ks, hn, hd => by
    rw [idsL] at hn hd
    have hn' := List.nodup_append.1 hn
    rw [comL, idsL, moment_append, smul_add, comL_eq hg s ht ks hn'.2.1 (names_sub hd fun a ha => List.mem_append_right _ ha)]
    congr 1
    rw [← com_eq hg s k hn'.1 (names_sub hd fun a ha => List.mem_append_left _ ha)]
    by_cases h0 : 0 < massSum g k
    · rw [if_pos ⟨not_replaced hn hd, ht, h0⟩, smul_smul, mul_div_cancel₀ _ ht.ne']
    · rw [if_neg (fun h => h0 h.2.2), le_antisymm (not_lt.1 h0) (massSum_nonneg hg _), smul_zero, zero_smul]
end

/-! ## The subtree of a joint -/

mutual
theorem sub_nil {k : Nat} : ∀ t : Kin.Tree, k ∉ t.ids → Kin.sub k t = []
  | .node i ks, h => by
    rw [Kin.Tree.ids, List.mem_cons, not_or] at h
    rw [Kin.sub, if_neg (fun e => h.1 e.symm), subL_nil ks h.2]
theorem subL_nil {k : Nat} : ∀ ks : List Kin.Tree, k ∉ idsL ks → subL k ks = []
  | [], _ => rfl
  | t :: ts, h => by
    rw [idsL, List.mem_append, not_or] at h
    rw [subL, sub_nil t h.1, subL_nil ts h.2, List.append_nil]
end

mutual
theorem visit_none {g : Setup} {d : Nat} : ∀ t : Kin.Tree, d ∉ t.ids → visit g d t = none
  | .node i ks, h => by
    rw [Kin.Tree.ids, List.mem_cons, not_or] at h
    rw [visit, if_neg (fun e => h.1 e.symm), visitL_none ks h.2]
theorem visitL_none {g : Setup} {d : Nat} : ∀ ks : List Kin.Tree, d ∉ idsL ks → visitL g d ks = none
  | [], _ => rfl
  | t :: ts, h => by
    rw [idsL, List.mem_append, not_or] at h
    rw [visitL, visit_none t h.1, visitL_none ts h.2]
    cases replaced g t ts <;> rfl
end

mutual
theorem visit_eq {g : Setup} {d : Nat} : ∀ t : Kin.Tree, t.ids.Nodup → (∀ a ∈ t.ids, ∀ b ∈ t.ids, g.name a = g.name b → a = b) → d ∈ t.ids →
    ∃ t', visit g d t = some t' ∧ t'.ids = Kin.sub d t ∧ t'.ids.Nodup ∧ ∀ a ∈ t'.ids, a ∈ t.ids
  | .node i ks, hn, hd, h => by
    by_cases e : i = d
    · refine ⟨.node i ks, by rw [visit, if_pos e], by rw [Kin.sub, if_pos e], hn, fun a ha => ha⟩
    · rw [Kin.Tree.ids] at hn hd h
      obtain ⟨t', h1, h2, h3, h4⟩ := visitL_eq ks (List.nodup_cons.1 hn).2 (names_sub hd fun a ha => List.mem_cons_of_mem _ ha)
        ((List.mem_cons.1 h).resolve_left fun e' => e e'.symm)
      exact ⟨t', by rw [visit, if_neg e, h1], by rw [Kin.sub, if_neg e, h2], h3, fun a ha => by rw [Kin.Tree.ids]; exact List.mem_cons_of_mem _ (h4 a ha)⟩
theorem visitL_eq {g : Setup} {d : Nat} : ∀ ks : List Kin.Tree, (idsL ks).Nodup → (∀ a ∈ idsL ks, ∀ b ∈ idsL ks, g.name a = g.name b → a = b) →
    d ∈ idsL ks → ∃ t', visitL g d ks = some t' ∧ t'.ids = subL d ks ∧ t'.ids.Nodup ∧ ∀ a ∈ t'.ids, a ∈ idsL ks
  | [], _, _, h => by cases h
  | k :: ks, hn, hd, h => by
    rw [idsL] at hn hd h
    have hn' := List.nodup_append.1 hn
    rw [visitL, not_replaced hn hd, subL]
    simp only [Bool.false_eq_true, if_false]
    by_cases hk : d ∈ k.ids
    · obtain ⟨t', h1, h2, h3, h4⟩ := visit_eq k hn'.1 (names_sub hd fun a ha => List.mem_append_left _ ha) hk
      have hnk : d ∉ idsL ks := fun h' => hn'.2.2 d hk d h' rfl
      exact ⟨t', by rw [h1]; rfl, by rw [subL_nil ks hnk, List.append_nil, h2], h3,
        fun a ha => by rw [idsL]; exact List.mem_append_left _ (h4 a ha)⟩
    · obtain ⟨t', h1, h2, h3, h4⟩ := visitL_eq ks hn'.2.1 (names_sub hd fun a ha => List.mem_append_right _ ha)
        ((List.mem_append.1 h).resolve_left hk)
      exact ⟨t', by rw [visit_none k hk, h1]; rfl, by rw [sub_nil k hk, List.nil_append, h2], h3,
        fun a ha => by rw [idsL]; exact List.mem_append_right _ (h4 a ha)⟩
end

/-! ## The torque -/

theorem torque_eq (s : St Pose3) (d : Nat) (u c : V3) (total : ℝ) :
    torque s d u c total = 981 / 100 * (crossProduct ((s.pose d).rot • u) (total • c - total • (s.pose d).pos) 2 / 1000) := by
  simp only [torque, nearestOnLine]
  generalize (s.pose d).rot • u = a at *
  generalize (s.pose d).pos = p at *
  simp [cross_apply, dotProduct, Fin.sum_univ_three]
  ring

theorem weightTorque_eq (p a c : V3) (m : ℝ) : weightTorque p a c m = -(m * (981 / 100) * (crossProduct a (c - p) 2 / 1000)) := by
  simp [weightTorque, cross_apply, dotProduct, Fin.sum_univ_three]
  ring

theorem cross_moment (g : Setup) (s : St Pose3) (a p : V3) (l : List Nat) :
    981 / 100 * (crossProduct a (moment g s l - ((bodiesIn g l).map g.masses.mass).sum • p) 2 / 1000) =
      ((bodiesIn g l).map fun b => g.masses.mass b * (981 / 100) * (crossProduct a (comGlobal g.masses s b - p) 2 / 1000)).sum := by
  unfold moment
  generalize bodiesIn g l = bs
  induction bs with
  | nil => simp
  | cons b bs ih =>
    rw [List.map_cons, List.map_cons, List.map_cons, List.sum_cons, List.sum_cons, List.sum_cons, ← ih]
    simp [cross_apply]
    ring

theorem sum_map_neg (l : List Nat) (f : Nat → ℝ) : (l.map fun b => -f b).sum = -(l.map f).sum := by
  induction l with
  | nil => simp
  | cons b bs ih => rw [List.map_cons, List.map_cons, List.sum_cons, List.sum_cons, ih]; ring

/-- **The torque against gravity of a joint** is minus the sum of the torques of the weights of the bodies that the joint moves, about its axis: for
all robots in which no two objects have the same name, and all node sets the constructor accepts. -/
theorem C102_sum {g : Setup} (hg : constructs g = true) (hn : Names g.robot.toRobot) (hd : DistinctNames g.robot.tree g.name) (s : St Pose3) {d : Nat}
    (hm : d ∈ g.robot.tree.ids) {u : V3} {hu} {off : ℝ} (hk : g.robot.kind d = .revolute u hu off) :
    jointTorque g s d = some (-(((Kin.sub d g.robot.tree).filter (· ∈ g.bodies)).map fun b =>
      weightTorque (s.pose d).pos ((s.pose d).rot • u) (comGlobal g.masses s b) (g.masses.mass b)).sum) := by
  obtain ⟨t, h1, h2, h3, h4⟩ := visit_eq g.robot.tree hn hd hm
  have hc := com_eq (heavy_of hg) s t h3 (names_sub hd h4)
  rw [jointTorque, if_pos hm, h1, hk]
  simp only [Option.some.injEq]
  rw [torque_eq, hc, massSum_eq, cross_moment, h2]
  rw [← sum_map_neg]
  simp only [weightTorque_eq, neg_neg]
  rfl

theorem sum_filter_zero {l : List Nat} {p : Nat → Bool} {f : Nat → ℝ} (h : ∀ b ∈ l, p b = false → f b = 0) : ((l.filter p).map f).sum = (l.map f).sum := by
  induction l with
  | nil => rfl
  | cons b bs ih =>
    have ih := ih fun c hc => h c (List.mem_cons_of_mem _ hc)
    rw [List.filter_cons]
    cases hp : p b
    · simp [ih, h b (by simp) hp]
    · simp [ih]

mutual
theorem mem_sub {k j : Nat} : ∀ t : Kin.Tree, k ∈ t.ids → t.ids.Nodup → (j ∈ Kin.sub k t ↔ j = k ∨ j ∈ belowT k t)
  | .node i ks, hk, hn => by
    rw [Kin.sub, belowT]
    by_cases e : i = k
    · rw [if_pos e, if_pos e, Kin.Tree.ids, List.mem_cons, e]
    · rw [if_neg e, if_neg e]
      rw [Kin.Tree.ids] at hk hn
      exact mem_subL ks ((List.mem_cons.1 hk).resolve_left fun h => e h.symm) (List.nodup_cons.1 hn).2
theorem mem_subL {k j : Nat} : ∀ ks : List Kin.Tree, k ∈ idsL ks → (idsL ks).Nodup → (j ∈ subL k ks ↔ j = k ∨ j ∈ belowL k ks)
  | [], hk, _ => by cases hk
  | t :: ts, hk, hn => by
    rw [idsL] at hk hn
    have hn' := List.nodup_append.1 hn
    rw [subL, belowL, List.mem_append, List.mem_append]
    by_cases h : k ∈ t.ids
    · have h2 : k ∉ idsL ts := fun h' => hn'.2.2 k h k h' rfl
      have h3 : belowL k ts = [] := belowL_nil ts h2
      rw [mem_sub t h hn'.1, subL_nil ts h2, h3]
      simp
    · rw [sub_nil t h, belowT_nil t h, mem_subL ts ((List.mem_append.1 hk).resolve_left h) hn'.2.1]
      simp
theorem belowT_nil {k : Nat} : ∀ t : Kin.Tree, k ∉ t.ids → belowT k t = []
  | .node i ks, h => by
    rw [Kin.Tree.ids, List.mem_cons, not_or] at h
    rw [belowT, if_neg (fun e => h.1 e.symm), belowL_nil ks h.2]
theorem belowL_nil {k : Nat} : ∀ ks : List Kin.Tree, k ∉ idsL ks → belowL k ks = []
  | [], _ => rfl
  | t :: ts, h => by
    rw [idsL, List.mem_append, not_or] at h
    rw [belowL, belowT_nil t h.1, belowL_nil ts h.2, List.append_nil]
end

theorem sum_deriv {l : List Nat} {F : ℝ → Nat → ℝ} {f : Nat → ℝ} {x : ℝ} (h : ∀ b ∈ l, HasDerivAt (fun y => F y b) (f b) x) :
    HasDerivAt (fun y => (l.map (F y)).sum) (l.map f).sum x := by
  induction l with
  | nil => simpa using hasDerivAt_const x (0 : ℝ)
  | cons b bs ih =>
    simp only [List.map_cons, List.sum_cons]
    exact (h b (by simp)).add (ih fun c hc => h c (List.mem_cons_of_mem _ hc))

theorem mapM_some {α β : Type} {f : α → Option β} {h : α → β} : ∀ {l : List α}, (∀ a ∈ l, f a = some (h a)) → l.mapM f = some (l.map h)
  | [], _ => rfl
  | a :: l, hl => by
    rw [List.mapM_cons, hl a (by simp), mapM_some (l := l) fun b hb => hl b (List.mem_cons_of_mem _ hb)]
    rfl

theorem joint_revolute {g : Setup} (hg : constructs g = true) {d : Nat} (hd : d ∈ g.joints) : ∃ u hu off, g.robot.kind d = .revolute u hu off := by
  simp only [constructs, Bool.and_eq_true, List.all_eq_true] at hg
  have := hg.1.2 d hd
  cases hk : g.robot.kind d with
  | revolute u hu off => exact ⟨u, hu, off, rfl⟩
  | prismatic v off => rw [hk] at this; cases this
  | fixed => rw [hk] at this; cases this

/-- The sum over the moved bodies. -/
theorem sum_moved {g : Setup} (hn : g.robot.tree.ids.Nodup) {d : Nat} (hd : d ∈ g.robot.tree.ids) {F G : Nat → ℝ}
    (h1 : ∀ b ∈ g.robot.tree.ids, b ∈ Kin.sub d g.robot.tree → F b = G b) (h2 : ∀ b ∈ g.robot.tree.ids, b ∉ Kin.sub d g.robot.tree → F b = 0) :
    ((bodiesIn g g.robot.tree.ids).map F).sum = ((bodiesIn g (Kin.sub d g.robot.tree)).map G).sum := by
  obtain ⟨t, -, e, hnt, hsub⟩ := visit_eq (g := { g with name := id }) g.robot.tree hn (fun a _ b _ h => h) hd
  have hp : (g.robot.tree.ids.filter (· ∈ Kin.sub d g.robot.tree)).Perm (Kin.sub d g.robot.tree) := by
    rw [List.perm_ext_iff_of_nodup (hn.filter _) (e ▸ hnt)]
    intro a
    simp only [List.mem_filter, decide_eq_true_eq]
    exact ⟨fun h => h.2, fun h => ⟨hsub a (e ▸ h), h⟩⟩
  have e2 : (bodiesIn g (Kin.sub d g.robot.tree)).Perm ((bodiesIn g g.robot.tree.ids).filter (· ∈ Kin.sub d g.robot.tree)) := by
    refine (hp.symm.filter _).trans ?_
    rw [bodiesIn, List.filter_filter, List.filter_filter]
    refine List.Perm.of_eq (List.filter_congr fun x _ => Bool.and_comm _ _)
  rw [(e2.map G).sum_eq, ← sum_filter_zero (p := fun b => decide (b ∈ Kin.sub d g.robot.tree)) (f := F)]
  · refine congrArg _ (List.map_congr_left fun b hb => ?_)
    have := List.mem_filter.1 hb
    exact h1 b (List.mem_filter.1 this.1).1 (by simpa using this.2)
  · intro b hb hb2
    exact h2 b (List.mem_filter.1 hb).1 (by simpa using hb2)

/-- **The torque against gravity is the derivative of the potential energy**: when one joint is moved with `setJointValue`, the potential energy of the bodies
changes at the rate `computeGravityTorque` gives for the joint. For all robots, sets of joints and of bodies the constructor accepts, and configurations. -/
theorem C102_energy {g : Setup} (hg : constructs g = true) (hn : Names g.robot.toRobot) (hd : DistinctNames g.robot.tree g.name) (s : St Pose3)
    (hs : FK g.robot.toRobot s) (hj : ∀ n ∈ g.joints, n ∈ g.robot.tree.ids) :
    ∃ vs, compute g s = some vs ∧ vs.length = g.joints.length ∧ ∀ (i d : Nat), g.joints[i]? = some d → g.robot.prop d = [] →
      (g.robot.lim d).lo < s.value d → s.value d < (g.robot.lim d).hi →
      ∃ f : ℝ → St Pose3, (∀ x, setJointValue g.robot.toRobot 1 d x s = some (f x)) ∧
        ∃ v, vs[i]? = some v ∧ HasDerivAt (fun x => energy g.robot g.masses g.bodies (f x)) v (s.value d) := by
  have hall : ∀ d ∈ g.joints, jointTorque g s d = some ((jointTorque g s d).getD 0) := by
    intro d hdj
    obtain ⟨u, hu, off, hk⟩ := joint_revolute hg hdj
    rw [C102_sum hg hn hd s (hj d hdj) hk]; rfl
  refine ⟨_, mapM_some hall, List.length_map .., ?_⟩
  intro i d hi hp h1 h2
  have hdj : d ∈ g.joints := List.mem_of_getElem? hi
  have hdt := hj d hdj
  obtain ⟨u, hu, off, hk⟩ := joint_revolute hg hdj
  obtain ⟨f, hf1, hf2, hf3, hf4⟩ := setJoint_moves g.robot hn s hs d hdt hp h1 h2
  refine ⟨f, hf1, _, by rw [List.getElem?_map, hi]; rfl, ?_⟩
  show HasDerivAt _ ((jointTorque g s d).getD 0) _
  rw [C102_sum hg hn hd s hdt hk, Option.getD_some]
  have hv : ∀ b ∈ g.robot.tree.ids, HasDerivAt (fun x => comGlobal g.masses (f x) b 2) (comColumn g.robot g.masses s [d] none false b d 2) (s.value d) := by
    intro b hb
    obtain ⟨v, hv1, hv2⟩ := comColumn_velocity g.robot g.masses s hn hs [d] false b d hb (by simp) f hf2 hf3 hf4
    rw [hv2, hk]
    simp only [unit, Bool.false_eq_true, if_false, one_smul]
    exact hasDerivAt_pi.1 hv1 2
  have hsum := sum_deriv (l := bodiesIn g g.robot.tree.ids) (F := fun x b => g.masses.mass b * (981 / 100) * (comGlobal g.masses (f x) b 2 / 1000))
    (f := fun b => g.masses.mass b * (981 / 100) * (comColumn g.robot g.masses s [d] none false b d 2 / 1000)) (x := s.value d)
    fun b hb => ((hv b (List.mem_filter.1 hb).1).div_const 1000).const_mul _
  refine hsum.congr_deriv ?_
  rw [← sum_map_neg]
  simp only [weightTorque_eq, neg_neg]
  refine sum_moved hn hdt (fun b hb hbs => ?_) (fun b hb hbs => ?_)
  · have : d ∈ bodyParents g.robot.tree [d] b := by
      rw [mem_bodyParents (by simp), parentsOf]
      have := (mem_sub g.robot.tree hdt hn).1 hbs
      rcases this with rfl | h
      · simp
      · simp [h]
    simp only [comColumn, if_pos this, hk, Bool.false_eq_true, if_false, inFrame]
  · have : d ∉ bodyParents g.robot.tree [d] b := by
      rw [mem_bodyParents (by simp), parentsOf]
      intro h
      refine hbs ((mem_sub g.robot.tree hdt hn).2 ?_)
      rcases List.mem_append.1 h with h | h
      · right; simpa using h
      · left; exact (List.mem_singleton.1 h).symm
    simp only [comColumn, if_neg this]
    simp

theorem fill_get (name : Nat → Nat) (v : Nat → ℝ) : ∀ (l : List Nat) (f : Nat → Option ℝ) (k : Nat),
    (∀ a ∈ l, ∀ b ∈ l, name a = name b → a = b) →
    (∀ d ∈ l, name d = k → fill name (l.zip (l.map v)) f k = some (v d)) ∧ ((∀ d ∈ l, name d ≠ k) → fill name (l.zip (l.map v)) f k = f k)
  | [], f, k, _ => ⟨by simp, fun _ => rfl⟩
  | a :: l, f, k, h => by
    have ih := fill_get name v l (put f (name a) (v a)) k (names_sub h fun x hx => List.mem_cons_of_mem _ hx)
    rw [List.map_cons, List.zip_cons_cons, fill]
    refine ⟨fun d hd e => ?_, fun hne => ?_⟩
    · by_cases hl : ∃ c ∈ l, name c = k
      · obtain ⟨c, hc, ec⟩ := hl
        rw [ih.1 c hc ec, h d hd c (List.mem_cons_of_mem _ hc) (e.trans ec.symm)]
      · push Not at hl
        rw [ih.2 hl]
        rcases List.mem_cons.1 hd with rfl | hd
        · rw [put, if_pos e.symm]
        · exact absurd e (hl d hd)
    · rw [ih.2 fun d hd => hne d (List.mem_cons_of_mem _ hd), put, if_neg fun e => hne a (by simp) e.symm]

/-- **The map** has the values of the vector under the names of the joints, and nothing else. -/
theorem C102_map {g : Setup} (hg : constructs g = true) (hn : Names g.robot.toRobot) (hd : DistinctNames g.robot.tree g.name) (s : St Pose3)
    (hj : ∀ n ∈ g.joints, n ∈ g.robot.tree.ids) :
    ∃ mp, computeMap g s = some mp ∧ (∀ d ∈ g.joints, mp (g.name d) = jointTorque g s d) ∧
      ∀ k, (∀ d ∈ g.joints, g.name d ≠ k) → mp k = none := by
  have hall : ∀ d ∈ g.joints, jointTorque g s d = some ((jointTorque g s d).getD 0) := by
    intro d hdj
    obtain ⟨u, hu, off, hk⟩ := joint_revolute hg hdj
    rw [C102_sum hg hn hd s (hj d hdj) hk]; rfl
  have hnm := names_sub (name := g.name) hd hj
  refine ⟨_, by rw [computeMap, compute, mapM_some hall]; rfl, fun d hdj => ?_, fun k hk => ?_⟩
  · exact ((fill_get g.name _ g.joints _ _ hnm).1 d hdj rfl).trans (hall d hdj).symm
  · exact (fill_get g.name _ g.joints _ _ hnm).2 hk

/-- **The constructor** throws exactly if there are no joints, one of them is not revolute, or a body has no mass. -/
theorem C102_constructor (g : Setup) : constructs g = false ↔
    g.joints = [] ∨ (∃ d ∈ g.joints, ∀ u hu off, g.robot.kind d ≠ .revolute u hu off) ∨ ∃ b ∈ g.bodies, g.masses.mass b ≤ 0 := by
  have hk : ∀ k : Kind, isRevolute k = false ↔ ∀ u hu off, k ≠ .revolute u hu off := by
    intro k
    cases k with
    | revolute u hu off => simp [isRevolute, hu]
    | prismatic v off => simp [isRevolute]
    | fixed => simp [isRevolute]
  rw [constructs, Bool.and_eq_false_iff, Bool.and_eq_false_iff, Bool.not_eq_false', List.isEmpty_iff, List.all_eq_false, List.all_eq_false, or_assoc]
  simp only [Bool.not_eq_true, hk, Bool.not_eq_false', decide_eq_true_eq]

/-- A link that turns about the axis x at the end of a fixed base, with a sensor on the base. -/
noncomputable def crane : JRobot where
  tree := .node 0 [.node 1 [], .node 2 []]
  localTrafo _ := 1
  kind n := if n = 1 then .revolute ![1, 0, 0] (by simp) 0 else .fixed
  lim _ := ⟨-3, 3, false, true⟩
  prop _ := []

/-- Its centre of mass is one metre away from the axis. -/
noncomputable def craneSetup (name : Nat → Nat) : Setup where
  robot := crane
  masses := ⟨fun _ => 2, fun _ => ![0, 1000, 0]⟩
  name := name
  joints := [1]
  bodies := [1]

theorem crane_ok (name : Nat → Nat) : constructs (craneSetup name) = true ∧ Names (craneSetup name).robot.toRobot := by
  refine ⟨by norm_num [constructs, craneSetup, crane, isRevolute], ?_⟩
  show ([0, 1, 2] : List Nat).Nodup
  decide

/-- The crane with its joint at zero. -/
noncomputable def craneState : St Pose3 := ⟨1, fun _ => 0, fun _ => 1⟩

theorem crane_fk : FK crane.toRobot (applyJointValues crane.toRobot craneState) := apply_fk _ (crane_ok id).2 _

/-- The hypotheses hold of the crane with three different names. -/
example := C102_energy (crane_ok id).1 (crane_ok id).2 (fun _ _ _ _ h => h) _ crane_fk
  (by intro n hn; simp [craneSetup, crane, Kin.Tree.ids, idsL] at hn ⊢; omega)

/-- For the crane with its poses all at the origin the torque is 2 · 9.81 · 1. -/
theorem crane_torque {name : Nat → Nat} (hn : ∀ a b, name a = name b → a = b) : jointTorque (craneSetup name) craneState 1 = some (1962 / 100) := by
  rw [C102_sum (u := ![1, 0, 0]) (hu := by simp) (off := 0) (crane_ok _).1 (crane_ok _).2 (fun a _ b _ h => hn a b h) craneState
    (by simp [craneSetup, crane, Kin.Tree.ids, idsL]) (by simp [craneSetup, crane])]
  simp [craneSetup, crane, Kin.sub, subL, Kin.Tree.ids, idsL, weightTorque_eq, craneState, comGlobal_eq]
  have h1 : (Pose.rot (1 : Pose3)) = 1 := rfl
  rw [h1, one_smul, one_smul]
  simp [cross_apply]
  norm_num

/-- **With equal names it is wrong**: a sensor with the name of the link, attached to the same node after it, takes its place, and the torque is zero. -/
theorem C102_names_false {name : Nat → Nat} (hn : name 1 = name 2) : jointTorque (craneSetup name) craneState 1 = some 0 := by
  rw [jointTorque, if_pos (by simp [craneSetup, crane, Kin.Tree.ids, idsL])]
  have : visit (craneSetup name) 1 (craneSetup name).robot.tree = none := by
    simp [craneSetup, crane, visit, visitL, replaced, rootId, hn]
  rw [this]

end Simox.Grv
