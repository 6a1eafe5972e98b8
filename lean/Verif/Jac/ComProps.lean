import Verif.Jac.Com
import Verif.Jac.Props

/-!
# Properties of the Jacobian of the centre of mass (C53)
-/

namespace Simox.Jac

open Matrix Kin Kin.Spec Spec

/-! ## Specification -/

namespace Spec

/-- The centre of mass of some bodies: the mean of the centres of the bodies, each weighted with its
mass. -/
def IsCoM (m : Masses) (s : St Pose3) (bodies : List Nat) (c : V3) : Prop :=
  (bodies.map m.mass).sum • c =
    (bodies.map (fun b => m.mass b • ((s.pose b).pos + (s.pose b).rot • m.com b))).sum

/-- The coordinates of a goal for the centre of mass: two or three. -/
def coords {α : Type} (dim : Nat) (v : Fin 3 → α) : List α :=
  if dim = 2 then [v 0, v 1] else [v 0, v 1, v 2]

end Spec

/-! ## Lemmas -/

theorem setMass_eq (m : Masses) (bs : List Nat) : setMass m bs = (bs.map m.mass).sum := by
  induction bs with
  | nil => rfl
  | cons b bs ih => simp [setMass, ih]

theorem comGlobal_eq (m : Masses) (s : St Pose3) (b : Nat) :
    comGlobal m s b = (s.pose b).pos + (s.pose b).rot • m.com b := by
  simp [comGlobal, toGlobalVec, toGlobal, Kin.mul_def]

theorem comSum_smul (m : Masses) (s : St Pose3) {t : ℝ} (ht : t ≠ 0) (bs : List Nat) :
    t • comSum m s t bs =
      (bs.map (fun b => m.mass b • ((s.pose b).pos + (s.pose b).rot • m.com b))).sum := by
  induction bs with
  | nil => simp [comSum]
  | cons b bs ih =>
    rw [comSum, smul_add, ih, smul_smul, mul_div_cancel₀ _ ht, List.map_cons, List.sum_cons, comGlobal_eq]

theorem mass_nonneg {m : Masses} (hm : ∀ n, 0 ≤ m.mass n) (bs : List Nat) : 0 ≤ setMass m bs := by
  induction bs with
  | nil => exact le_refl _
  | cons b bs ih => exact add_nonneg (hm b) ih

theorem mass_zero {m : Masses} (hm : ∀ n, 0 ≤ m.mass n) {bs : List Nat} (h : setMass m bs = 0) :
    ∀ b ∈ bs, m.mass b = 0 := by
  induction bs with
  | nil => simp
  | cons b bs ih =>
    rw [setMass] at h
    have h1 := hm b
    have h2 := mass_nonneg hm bs
    intro c hc
    rcases List.mem_cons.1 hc with rfl | hc
    · linarith
    · exact ih (by linarith) c hc

theorem mem_bodyParents {t : Tree} {nodes : List Nat} {b d : Nat} (hd : d ∈ nodes) :
    d ∈ bodyParents t nodes b ↔ d ∈ parentsOf t nodes b := by
  unfold bodyParents parentsOf
  simp only [List.mem_append, List.mem_filter, hd, true_and, decide_eq_true_eq, List.mem_singleton]
  by_cases hb : b ∈ nodes
  · simp [hb]
  · simp only [if_neg hb, List.not_mem_nil, or_false]
    refine ⟨Or.inl, fun h => h.elim id fun h => absurd (h ▸ hd) hb⟩

theorem smul_real (M : SO3) (c : ℝ) (v : V3) : M • (c • v) = c • (M • v) := Matrix.mulVec_smul M.1 c v

/-- The column of one body is the velocity of its centre of mass. -/
theorem comColumn_velocity (r : JRobot) (m : Masses) (s : St Pose3) (hn : r.tree.ids.Nodup)
    (hs : FK r.toRobot s) (nodes : List Nat) (mm : Bool) (b d : Nat) (hb : b ∈ r.tree.ids) (hd : d ∈ nodes)
    (f : ℝ → St Pose3) (hf : ∀ x, FK r.toRobot (f x)) (hfb : ∀ x, (f x).base = s.base)
    (hx : ∀ᶠ x in nhds (s.value d), (f x).value = upd s.value d x) :
    ∃ v, HasDerivAt (fun x => comGlobal m (f x) b) v (s.value d) ∧
      comColumn r m s nodes none mm b d = unit mm (r.kind d) • v := by
  obtain ⟨l, hc, -⟩ := exists_chain r.tree b hb
  have hp := mem_parentsOf hn hd hc
  obtain ⟨v, ω, hv, hω, hcol⟩ := column_spec r hn s hs nodes none false 15 b b d l hc hp.1
    (fun h => Or.inl (hp.2 h)) f hf hfb hx
  have hfs : (f (s.value d)).pose b = s.pose b := by
    have hx0 := hx.self_of_nhds
    have hself : upd s.value d (s.value d) = s.value := by
      funext j; by_cases e : j = d
      · subst e; exact upd_self _ _ _
      · exact upd_ne _ _ e
    rw [hf _ b l hc, hfb, hx0, hself, hs b l hc]
  refine ⟨v + crossProduct ω ((s.pose b).rot • m.com b), ?_, ?_⟩
  · have h := HasDerivAt.add hv (hω (m.com b))
    have e : (fun x => comGlobal m (f x) b) = fun y => (seenFrom none ((f y).pose b)).pos +
        (seenFrom none ((f y).pose b)).rot • m.com b := by
      funext x; exact comGlobal_eq m (f x) b
    rw [e]
    refine h.congr_deriv ?_
    simp only [seenFrom, hfs]
  · have h15 : has 15 flagPosition = true := by decide
    have h15' : has 15 flagOrientation = true := by decide
    simp only [h15, h15', if_true] at hcol
    unfold column at hcol
    unfold comColumn
    by_cases hm : d ∈ parentsOf r.tree nodes b
    · rw [if_pos hm] at hcol
      rw [if_pos ((mem_bodyParents hd).2 hm)]
      cases hk : r.kind d with
      | revolute u hu off =>
        simp only [hk, h15, h15', if_true, Bool.false_eq_true, if_false, Prod.mk.injEq, unit, one_smul] at hcol
        obtain ⟨e1, e2⟩ := hcol
        subst e1 e2
        have e : crossProduct (inFrame none (s.pose d) u) (comGlobal m s b - (s.pose d).pos) =
            crossProduct (inFrame none (s.pose d) u) (toTCP none (s.pose b) (s.pose d)) +
              crossProduct (inFrame none (s.pose d) u) ((s.pose b).rot • m.com b) := by
          rw [← map_add, comGlobal_eq]
          congr 1
          simp only [toTCP]
          abel
        rw [← e]
        cases mm
        · simp [unit]
        · simp [unit]
      | prismatic w off =>
        simp only [hk, h15, if_true, Prod.mk.injEq, unit, one_smul] at hcol
        obtain ⟨e1, e2⟩ := hcol
        subst e1 e2
        simp [unit]
      | fixed =>
        simp only [hk, Prod.mk.injEq, unit, one_smul] at hcol
        obtain ⟨e1, e2⟩ := hcol
        subst e1 e2
        simp
    · rw [if_neg hm] at hcol
      rw [if_neg (fun h => hm ((mem_bodyParents hd).1 h))]
      simp only [Prod.mk.injEq] at hcol
      obtain ⟨e1, e2⟩ := hcol
      subst e2
      have e3 : unit mm (r.kind d) • v = 0 := by
        have : unit false (r.kind d) ≠ 0 := by cases r.kind d <;> simp [unit]
        have : v = 0 := (smul_eq_zero.1 e1.symm).resolve_left this
        rw [this, smul_zero]
      simp [e3]

/-- The weighted sum of the columns is the derivative of the weighted sum of the centres. -/
theorem comSum_velocity (r : JRobot) (m : Masses) (s : St Pose3) (hn : r.tree.ids.Nodup)
    (hs : FK r.toRobot s) (nodes : List Nat) (mm : Bool) (d : Nat) (hd : d ∈ nodes)
    (f : ℝ → St Pose3) (hf : ∀ x, FK r.toRobot (f x)) (hfb : ∀ x, (f x).base = s.base)
    (hx : ∀ᶠ x in nhds (s.value d), (f x).value = upd s.value d x) (t : ℝ) :
    ∀ bs : List Nat, (∀ b ∈ bs, b ∈ r.tree.ids) →
      ∃ v, HasDerivAt (fun x => comSum m (f x) t bs) v (s.value d) ∧
        (1 / t) • comColumnSum r m s nodes none mm d bs = unit mm (r.kind d) • v
  | [], _ => ⟨0, hasDerivAt_const _ _, by simp [comColumnSum]⟩
  | b :: bs, hb => by
    obtain ⟨v, h1, h2⟩ := comSum_velocity r m s hn hs nodes mm d hd f hf hfb hx t bs
      (fun c hc => hb c (List.mem_cons_of_mem _ hc))
    obtain ⟨w, h3, h4⟩ := comColumn_velocity r m s hn hs nodes mm b d (hb b (by simp)) hd f hf hfb hx
    refine ⟨(m.mass b / t) • w + v, (h3.const_smul (m.mass b / t)).add h1, ?_⟩
    rw [comColumnSum, smul_add, h2, h4, smul_add, smul_smul, smul_smul, smul_smul]
    congr 2
    ring

/-! ## C53 -/

/-- **C53.** `getCoM` is the centre of mass of the bodies. -/
theorem C53_com (m : Masses) (hm : ∀ n, 0 ≤ m.mass n) (s : St Pose3) (bodies : List Nat) :
    IsCoM m s bodies (getCoM m s bodies) := by
  unfold IsCoM getCoM
  rw [← setMass_eq]
  by_cases h : setMass m bodies ≤ 0
  · have h0 := le_antisymm h (mass_nonneg hm bodies)
    have hz := mass_zero hm h0
    rw [if_pos h, smul_zero]
    symm
    refine List.sum_eq_zero fun x hx => ?_
    obtain ⟨b, hb, rfl⟩ := List.mem_map.1 hx
    rw [hz b hb, zero_smul]
  · rw [if_neg h, comSum_smul m s (fun e => h e.le)]

/-- **C53.** Without a coordinate system, each column of the Jacobian of `CoMIK` is the velocity of the
centre of mass of the bodies when the joint of that column is moved with `setJointValue`. -/
theorem C53_columns (r : JRobot) (hn : Names r.toRobot) (m : Masses) (hm : ∀ n, 0 ≤ m.mass n)
    (s : St Pose3) (hs : FK r.toRobot s) (nodes bodies : List Nat)
    (hnodes : ∀ n ∈ nodes, n ∈ r.tree.ids) (hbodies : ∀ n ∈ bodies, n ∈ r.tree.ids) (hne : bodies ≠ [])
    (mm : Bool) (dim i d : Nat) (hi : nodes[i]? = some d) (hp : r.prop d = [])
    (h1 : (r.lim d).lo < s.value d) (h2 : s.value d < (r.lim d).hi) :
    ∃ f : ℝ → St Pose3, (∀ x, setJointValue r.toRobot 1 d x s = some (f x)) ∧
      ∃ v : V3, HasDerivAt (fun x => getCoM m (f x) bodies) v (s.value d) ∧
        colAt (comJacobian r m s nodes bodies none mm dim) i =
          (coords dim (unit mm (r.kind d) • v)).map some := by
  have hd : d ∈ nodes := List.mem_of_getElem? hi
  obtain ⟨f, hf1, hf2, hf3, hf4⟩ := setJoint_moves r hn s hs d (hnodes d hd) hp h1 h2
  refine ⟨f, hf1, ?_⟩
  obtain ⟨v, hv1, hv2⟩ := comSum_velocity r m s hn hs nodes mm d hd f hf2 hf3 hf4 (setMass m bodies)
    bodies hbodies
  by_cases h : setMass m bodies ≤ 0
  · have h0 := le_antisymm h (mass_nonneg hm bodies)
    have hz := mass_zero hm h0
    refine ⟨0, ?_, ?_⟩
    · simp only [getCoM, if_pos h]
      exact hasDerivAt_const _ _
    · have hc : ∀ bs : List Nat, (∀ b ∈ bs, m.mass b = 0) → comColumnSum r m s nodes none mm d bs = 0 := by
        intro bs
        induction bs with
        | nil => intro _; rfl
        | cons b bs ih =>
          intro hb
          rw [comColumnSum, hb b (by simp), ih (fun c hc => hb c (List.mem_cons_of_mem _ hc))]
          simp
      have hc := hc bodies hz
      unfold comJacobian coords
      rw [if_neg hne]
      by_cases h2 : dim = 2 <;> simp [h2, colAt, hi, hc]
  · refine ⟨v, ?_, ?_⟩
    · simp only [getCoM, if_neg h]
      exact hv1
    · have hne0 : setMass m bodies ≠ 0 := fun e => h e.le
      unfold comJacobian coords
      rw [if_neg hne]
      by_cases h2 : dim = 2
      · simp only [h2, if_true, colAt, List.map_cons, List.map_nil, List.getElem?_map, hi, Option.map_some,
          if_pos hne0, hv2]
      · simp only [h2, if_false, colAt, List.map_cons, List.map_nil, List.getElem?_map, hi, Option.map_some,
          if_pos hne0, hv2]

/-- **C53.** The Jacobian has a row for each coordinate of the goal (three for a goal with one coordinate)
and a column for each joint. -/
theorem C53_size (r : JRobot) (m : Masses) (s : St Pose3) (nodes bodies : List Nat) (hne : bodies ≠ [])
    (frame : Option Pose3) (mm : Bool) (dim : Nat) :
    (comJacobian r m s nodes bodies frame mm dim).length = (if dim = 2 then 2 else 3) ∧
      ∀ row ∈ comJacobian r m s nodes bodies frame mm dim, row.length = nodes.length := by
  unfold comJacobian
  rw [if_neg hne]
  by_cases h : dim = 2 <;> simp [h]

/-- Masses for the arm of `C52`. -/
noncomputable def armMasses : Masses := ⟨fun n => n, fun _ => ![1, 2, 3]⟩

example := C53_columns (arm fun _ => []) (arm_names _) armMasses (fun n => Nat.cast_nonneg n)
  (armState fun _ => []) (apply_fk _ (arm_names _) _) [0, 1] [1, 2]
  (by intro n hn; simp [arm, Tree.ids, idsL] at hn ⊢; omega)
  (by intro n hn; simp [arm, Tree.ids, idsL] at hn ⊢; omega) (by simp) true 2
  0 0 rfl rfl (by norm_num [arm, armState, applyJointValues]) (by norm_num [arm, armState, applyJointValues])

/-- A turntable with its centre of mass at distance 1 from the axis. -/
noncomputable def table : JRobot where
  tree := .node 0 []
  localTrafo _ := 1
  kind _ := .revolute ![0, 0, 1] (by simp) 0
  lim _ := ⟨-3, 3, false, true⟩
  prop _ := []

/-- **C53.** With a coordinate system the Jacobian of `CoMIK` is wrong: the axes are taken in that
coordinate system, the lever arms in the global one. For a frame that is turned by half a turn about the
axis of a turntable the column is the negative of the velocity seen from the frame. -/
theorem C53_frame_wrong : ∃ (r : JRobot) (m : Masses) (s : St Pose3) (c : Pose3) (f : ℝ → St Pose3),
    Names r.toRobot ∧ (∀ n, 0 ≤ m.mass n) ∧ FK r.toRobot s ∧
    (∀ x, setJointValue r.toRobot 1 0 x s = some (f x)) ∧
    HasDerivAt (fun x => c.rot⁻¹ • (getCoM m (f x) [0] - c.pos)) ![0, -1, 0] (s.value 0) ∧
    colAt (comJacobian r m s [0] [0] (some c) false 3) 0 = [some 0, some 1, some 0] := by
  have hn : Names table.toRobot := by
    show ([0] : List Nat).Nodup
    decide
  let s := applyJointValues table.toRobot ⟨1, fun _ => 0, fun _ => 1⟩
  have hs : FK table.toRobot s := apply_fk _ hn _
  let m : Masses := ⟨fun _ => 1, fun _ => ![1, 0, 0]⟩
  have hu : (![0, 0, 1] : V3) 0 * (![0, 0, 1] : V3) 0 + (![0, 0, 1] : V3) 1 * (![0, 0, 1] : V3) 1 +
      (![0, 0, 1] : V3) 2 * (![0, 0, 1] : V3) 2 = 1 := by simp
  let c : Pose3 := ⟨⟨axisAngle ![0, 0, 1] Real.pi, axisAngle_mem _ _ hu⟩, 0⟩
  have hmass : ∀ n, 0 ≤ m.mass n := fun n => zero_le_one
  obtain ⟨f, hf1, v, hv, hcol⟩ := C53_columns table hn m hmass s hs [0] [0]
    (by simp [table, Tree.ids]) (by simp [table, Tree.ids]) (by simp) false 3 0 0 rfl rfl
    (by norm_num [table, s, applyJointValues]) (by norm_num [table, s, applyJointValues])
  have hpose : s.pose 0 = 1 := by
    have : s.pose 0 = (1 : Pose3) * (1 * (table.kind 0).trafo 0) := by
      have := hs 0 [0] (.here 0 [])
      simpa [s, applyJointValues, JRobot.toRobot, table] using this
    rw [this, one_mul, one_mul]
    simp only [table, Kind.trafo, Kin.one_def]
    congr 1
    apply Subtype.ext
    ext i j
    fin_cases i <;> fin_cases j <;> simp [axisAngle]
  have hm1 : setMass m [0] = 1 := by simp [setMass, m]
  have hcolumn : ∀ fr, comJacobian table m s [0] [0] fr false 3 =
      [[(crossProduct (inFrame fr 1 ![0, 0, 1]) ![1, 0, 0] : V3) 0],
       [(crossProduct (inFrame fr 1 ![0, 0, 1]) ![1, 0, 0] : V3) 1],
       [(crossProduct (inFrame fr 1 ![0, 0, 1]) ![1, 0, 0] : V3) 2]] := by
    intro fr
    have hk : table.kind 0 = .revolute ![0, 0, 1] hu 0 := rfl
    have hcg : comGlobal m s 0 = ![1, 0, 0] := by
      rw [comGlobal_eq, hpose]
      simp [Kin.one_def, m]
    have : comColumn table m s [0] fr false 0 0 = crossProduct (inFrame fr 1 ![0, 0, 1]) ![1, 0, 0] := by
      unfold comColumn
      rw [if_pos (by simp [bodyParents])]
      simp only [hk, hpose, hcg]
      simp [Kin.one_def]
    simp [comJacobian, comColumnSum, this, hm1, m]
  have hv' : v = ![0, 1, 0] := by
    rw [hcolumn none] at hcol
    simp [colAt, coords, unit, table, inFrame, Kin.one_def, cross_apply] at hcol
    ext i
    fin_cases i
    · exact hcol.1.symm
    · exact hcol.2.1.symm
    · exact hcol.2.2.symm
  refine ⟨table, m, s, c, f, hn, hmass, hs, hf1, ?_, ?_⟩
  · have := smul_deriv c.rot⁻¹ (hv.sub_const c.pos)
    refine this.congr_deriv ?_
    rw [hv']
    have e : c.rot • (![0, -1, 0] : V3) = ![0, 1, 0] := by
      show axisAngle ![0, 0, 1] Real.pi *ᵥ _ = _
      ext i
      fin_cases i <;> simp [axisAngle, Matrix.mulVec, dotProduct, Fin.sum_univ_three]
    rw [← e, inv_smul_smul]
  · rw [hcolumn (some c)]
    have e : c.rot⁻¹ • (![0, 0, 1] : V3) = ![0, 0, 1] := by
      rw [inv_smul_eq_iff]
      show _ = axisAngle ![0, 0, 1] Real.pi *ᵥ _
      ext i
      fin_cases i <;> simp [axisAngle, Matrix.mulVec, dotProduct, Fin.sum_univ_three]
    simp [colAt, inFrame, Kin.one_def, e, cross_apply]

end Simox.Jac
