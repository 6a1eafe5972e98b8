import Verif.Jac.Spec
import Verif.Kin.Lemmas
import Verif.Kin.LemmasLim
import Mathlib.Analysis.SpecialFunctions.Trigonometric.Deriv
import Mathlib.Analysis.Calculus.Deriv.Prod
import Mathlib.Analysis.Calculus.Deriv.Add
import Mathlib.Analysis.Calculus.Deriv.Mul

namespace Simox.Jac

open Matrix Kin Kin.Spec Spec

/-! ## Derivatives -/

theorem mulVec_deriv (M : Matrix (Fin 3) (Fin 3) ℝ) {f : ℝ → V3} {f' : V3} {x : ℝ}
    (h : HasDerivAt f f' x) : HasDerivAt (fun y => M *ᵥ f y) (M *ᵥ f') x := by
  rw [hasDerivAt_pi] at h ⊢
  intro i
  simp only [Matrix.mulVec, dotProduct]
  exact HasDerivAt.fun_sum (fun j _ => (h j).const_mul (M i j))

theorem smul_deriv (M : SO3) {f : ℝ → V3} {f' : V3} {x : ℝ}
    (h : HasDerivAt f f' x) : HasDerivAt (fun y => M • f y) (M • f') x := mulVec_deriv M.1 h

theorem axisAngle_deriv (u : V3) (hu : u 0 * u 0 + u 1 * u 1 + u 2 * u 2 = 1) (off a : ℝ) (w : V3) :
    HasDerivAt (fun b => axisAngle u (b + off) *ᵥ w) (axisAngle u (a + off) *ᵥ crossProduct u w) a := by
  rw [hasDerivAt_pi]
  have hx : HasDerivAt (fun b : ℝ => b + off) 1 a := (hasDerivAt_id a).add_const off
  have hs : HasDerivAt (fun b => Real.sin (b + off)) (Real.cos (a + off)) a := by
    simpa using hx.sin
  have hc : HasDerivAt (fun b => Real.cos (b + off)) (-Real.sin (a + off)) a := by
    simpa using hx.cos
  have key : ∀ p q t : ℝ, HasDerivAt (fun b => p + q * Real.cos (b + off) + t * Real.sin (b + off))
      (q * -Real.sin (a + off) + t * Real.cos (a + off)) a := fun p q t =>
    ((hc.const_mul q).const_add p).add (hs.const_mul t)
  intro i
  fin_cases i
  · refine ((key (u 0 * (u 0 * w 0 + u 1 * w 1 + u 2 * w 2))
      (w 0 - u 0 * (u 0 * w 0 + u 1 * w 1 + u 2 * w 2)) (u 1 * w 2 - u 2 * w 1)).congr_deriv ?_).congr_of_eventuallyEq
        (Filter.Eventually.of_forall fun b => ?_)
    · simp [axisAngle, Matrix.mulVec, dotProduct, Fin.sum_univ_three, cross_apply]
      linear_combination (Real.sin (a + off) * w 0) * hu
    · simp [axisAngle, Matrix.mulVec, dotProduct, Fin.sum_univ_three]
      ring
  · refine ((key (u 1 * (u 0 * w 0 + u 1 * w 1 + u 2 * w 2))
      (w 1 - u 1 * (u 0 * w 0 + u 1 * w 1 + u 2 * w 2)) (u 2 * w 0 - u 0 * w 2)).congr_deriv ?_).congr_of_eventuallyEq
        (Filter.Eventually.of_forall fun b => ?_)
    · simp [axisAngle, Matrix.mulVec, dotProduct, Fin.sum_univ_three, cross_apply]
      linear_combination (Real.sin (a + off) * w 1) * hu
    · simp [axisAngle, Matrix.mulVec, dotProduct, Fin.sum_univ_three]
      ring
  · refine ((key (u 2 * (u 0 * w 0 + u 1 * w 1 + u 2 * w 2))
      (w 2 - u 2 * (u 0 * w 0 + u 1 * w 1 + u 2 * w 2)) (u 0 * w 1 - u 1 * w 0)).congr_deriv ?_).congr_of_eventuallyEq
        (Filter.Eventually.of_forall fun b => ?_)
    · simp [axisAngle, Matrix.mulVec, dotProduct, Fin.sum_univ_three, cross_apply]
      linear_combination (Real.sin (a + off) * w 2) * hu
    · simp [axisAngle, Matrix.mulVec, dotProduct, Fin.sum_univ_three]
      ring

/-- Rotations preserve cross products. -/
theorem smul_cross (M : SO3) (a b : V3) : M • crossProduct a b = crossProduct (M • a) (M • b) := by
  have hM := Matrix.mem_specialOrthogonalGroup_iff.1 M.2
  have h1 : M.1 * (M.1)ᵀ = 1 := (Matrix.mem_orthogonalGroup_iff (Fin 3) ℝ).1 hM.1
  have h2 : (M.1).adjugate = (M.1)ᵀ := by
    have e : (M.1).adjugate * (M.1 * (M.1)ᵀ) = (M.1)ᵀ := by
      rw [← Matrix.mul_assoc, Matrix.adjugate_mul, hM.2, one_smul, Matrix.one_mul]
    rw [h1, Matrix.mul_one] at e
    exact e
  have h3 : M.1 = ((M.1).adjugate)ᵀ := by rw [h2, Matrix.transpose_transpose]
  rw [smul_def, smul_def, smul_def]
  conv_lhs => rw [h3]
  rw [Matrix.adjugate_fin_three]
  ext i
  fin_cases i <;> simp [Matrix.mulVec, dotProduct, Fin.sum_univ_three, cross_apply] <;> ring

/-- Moving one joint in the middle of a chain. -/
theorem kind_velocity (k : Kind) (A B : Pose3) (q : ℝ) :
    let F : ℝ → Pose3 := fun x => A * k.trafo x * B
    match k with
    | .revolute u _ _ =>
      Velocity F (crossProduct ((A * k.trafo q).rot • u) ((F q).pos - (A * k.trafo q).pos)) q ∧
        AngularVelocity F ((A * k.trafo q).rot • u) q
    | .prismatic d _ => Velocity F ((A * k.trafo q).rot • d) q ∧ AngularVelocity F 0 q
    | .fixed => Velocity F 0 q ∧ AngularVelocity F 0 q := by
  cases k with
  | revolute u hu off =>
    intro F
    have hd : ∀ w : V3, HasDerivAt (fun x => (⟨axisAngle u (x + off), axisAngle_mem u (x + off) hu⟩ : SO3) • w)
        ((⟨axisAngle u (q + off), axisAngle_mem u (q + off) hu⟩ : SO3) • crossProduct u w) q :=
      fun w => axisAngle_deriv u hu off q w
    refine ⟨?_, fun w => ?_⟩
    · unfold Velocity
      have h := smul_deriv A.rot (hd B.pos)
      have h' := h.const_add A.pos
      refine h'.congr_deriv ?_ |>.congr_of_eventuallyEq (Filter.Eventually.of_forall fun x => ?_)
      · simp only [F, Kin.mul_def, Kind.trafo, smul_zero, add_zero, add_sub_cancel_left, mul_smul, smul_cross]
      · simp only [F, Kin.mul_def, Kind.trafo, smul_zero, add_zero, mul_smul]
    · have h := smul_deriv A.rot (hd (B.rot • w))
      refine h.congr_deriv ?_ |>.congr_of_eventuallyEq (Filter.Eventually.of_forall fun x => ?_)
      · simp only [F, Kin.mul_def, Kind.trafo, mul_smul, smul_cross]
      · simp only [F, Kin.mul_def, Kind.trafo, mul_smul]
  | prismatic d off =>
    intro F
    refine ⟨?_, fun w => ?_⟩
    · unfold Velocity
      have hx : HasDerivAt (fun b : ℝ => (b + off) • d) d q := by
        have := ((hasDerivAt_id q).add_const off).smul_const d
        simpa using this
      have h := ((smul_deriv A.rot hx).const_add A.pos).add_const (A.rot • B.pos)
      refine h.congr_deriv ?_ |>.congr_of_eventuallyEq (Filter.Eventually.of_forall fun x => ?_)
      · simp only [Kin.mul_def, Kind.trafo, mul_one]
      · simp only [F, Kin.mul_def, Kind.trafo, mul_one]
    · have : (fun y => (F y).rot • w) = fun _ => (F q).rot • w := by
        funext y; simp only [F, Kin.mul_def, Kind.trafo]
      rw [this]
      simpa using hasDerivAt_const q ((F q).rot • w)
  | fixed =>
    intro F
    have : F = fun _ => F q := by funext y; simp only [F, Kind.trafo]
    refine ⟨?_, fun w => ?_⟩
    · unfold Velocity; rw [this]; exact hasDerivAt_const _ _
    · rw [this]; simpa using hasDerivAt_const q ((F q).rot • w)

/-! ## Chains -/

theorem chain_last {t : Tree} {j : Nat} {l : List Nat} (h : Chain t j l) : ∃ m, l = m ++ [j] := by
  induction h with
  | here i ks => exact ⟨[], rfl⟩
  | step i ks k j l _ _ ih => obtain ⟨m, rfl⟩ := ih; exact ⟨i :: m, rfl⟩

theorem chain_sublist {t : Tree} {j : Nat} {l : List Nat} (h : Chain t j l) : l.Sublist t.ids := by
  induction h with
  | here i ks => simp [Tree.ids]
  | step i ks k j l hk _ ih =>
    rw [Tree.ids]
    refine List.Sublist.cons_cons i (ih.trans ?_)
    clear ih
    induction ks with
    | nil => simp at hk
    | cons a ks ihk =>
      rw [idsL]
      rcases List.mem_cons.1 hk with rfl | hk
      · exact List.sublist_append_left _ _
      · exact (ihk hk).trans (List.sublist_append_right _ _)

theorem chain_prefix {t : Tree} {o : Nat} : ∀ {m l : List Nat} {p : Nat}, l ≠ [] →
    Chain t o (m ++ p :: l) → Chain t p (m ++ [p]) := by
  intro m
  induction m generalizing t with
  | nil =>
    intro l p hl h
    cases h with
    | here i ks => simp at hl
    | step i ks k j l hk hc => exact Chain.here _ ks
  | cons a m ih =>
    intro l p hl h
    generalize e : a :: m ++ p :: l = L at h
    cases h with
    | here i ks => simp at e
    | step i ks k j l' hk hc =>
      simp only [List.cons_append, List.cons.injEq] at e
      obtain ⟨rfl, rfl⟩ := e
      exact Chain.step _ ks k p _ hk (ih hl hc)

theorem idsL_unique {ks : List Tree} (hn : (idsL ks).Nodup) {k k' : Tree} (hk : k ∈ ks) (hk' : k' ∈ ks)
    {j : Nat} (h : j ∈ k.ids) (h' : j ∈ k'.ids) : k = k' := by
  induction ks with
  | nil => simp at hk
  | cons a ks ih =>
    rw [idsL, List.nodup_append] at hn
    rcases List.mem_cons.1 hk with rfl | hk <;> rcases List.mem_cons.1 hk' with rfl | hk'
    · rfl
    · exact absurd rfl (hn.2.2 j h j (mem_idsL.2 ⟨k', hk', h'⟩))
    · rename_i hk0
      exact absurd rfl (hn.2.2 j h' j (mem_idsL.2 ⟨k, by assumption, h⟩))
    · exact ih hn.2.1 hk hk'

theorem ids_nodup_kid {ks : List Tree} (hn : (idsL ks).Nodup) {k : Tree} (hk : k ∈ ks) : k.ids.Nodup := by
  induction ks with
  | nil => simp at hk
  | cons a ks ih =>
    rw [idsL, List.nodup_append] at hn
    rcases List.mem_cons.1 hk with rfl | hk
    · exact hn.1
    · exact ih hn.2.1 hk

theorem mem_belowL {d j : Nat} {ks : List Tree} : j ∈ belowL d ks ↔ ∃ k ∈ ks, j ∈ belowT d k := by
  induction ks with
  | nil => simp [belowL]
  | cons a ks ih => simp [belowL, ih]

mutual
theorem below_ids (d j : Nat) : ∀ t : Tree, j ∈ belowT d t → j ∈ t.ids
  | .node i ks, h => by
    rw [belowT] at h
    rw [Tree.ids]
    split at h
    · exact List.mem_cons_of_mem _ h
    · exact List.mem_cons_of_mem _ (belowL_ids d j ks h)
theorem belowL_ids (d j : Nat) : ∀ ks : List Tree, j ∈ belowL d ks → j ∈ idsL ks
  | [], h => by simp [belowL] at h
  | t :: ts, h => by
    rw [belowL, List.mem_append] at h
    rw [idsL, List.mem_append]
    exact h.imp (below_ids d j t) (belowL_ids d j ts)
end

theorem chain_below {t : Tree} {j : Nat} {l : List Nat} (h : Chain t j l) :
    t.ids.Nodup → ∀ d, d ∈ l ↔ d = j ∨ j ∈ belowT d t := by
  induction h with
  | here i ks =>
    intro hn d
    simp only [Tree.ids, List.nodup_cons] at hn
    simp only [List.mem_singleton]
    refine ⟨Or.inl, fun h => h.elim id fun h => ?_⟩
    rw [belowT] at h
    split at h
    · exact absurd h hn.1
    · exact absurd (belowL_ids d i ks h) hn.1
  | step i ks k j l hk hc ih =>
    intro hn d
    simp only [Tree.ids, List.nodup_cons] at hn
    have hkn := ids_nodup_kid hn.2 hk
    have hjk := chain_mem hc
    simp only [List.mem_cons, ih hkn d, belowT]
    by_cases e : i = d
    · subst e
      simp only [if_true, true_or, true_iff]
      exact Or.inr (mem_idsL.2 ⟨k, hk, hjk⟩)
    · simp only [if_neg e, Ne.symm e, false_or]
      refine or_congr_right ⟨fun h => mem_belowL.2 ⟨k, hk, h⟩, fun h => ?_⟩
      obtain ⟨k', hk', h'⟩ := mem_belowL.1 h
      rw [idsL_unique hn.2 hk hk' hjk (below_ids d j k' h')]
      exact h'

theorem mem_parentsOf {t : Tree} (hn : t.ids.Nodup) {nodes : List Nat} {d n : Nat} {l : List Nat}
    (hd : d ∈ nodes) (hc : Chain t n l) : d ∈ parentsOf t nodes n ↔ d ∈ l := by
  rw [chain_below hc hn d]
  simp only [parentsOf, List.mem_append, List.mem_filter, hd, true_and, decide_eq_true_eq,
    List.mem_singleton]
  exact or_comm

/-! ## Setting one joint -/

theorem stored_id {l : Lim} {q : ℝ} (h1 : l.lo ≤ q) (h2 : q ≤ l.hi) : stored l q = q := by
  unfold stored
  split
  · simp only [not_lt.2 h2, if_false, wrapDown_id h2, not_lt.2 h1, wrapUp_id h1]
  · split
    · exact clamp_id h1 h2
    · rfl

theorem seenFrom_eq (frame : Option Pose3) : ∃ C : Pose3, ∀ p, seenFrom frame p = C * p := by
  cases frame with
  | none => exact ⟨1, fun p => (one_mul p).symm⟩
  | some c => exact ⟨c⁻¹, fun p => rfl⟩

theorem inFrame_eq (frame : Option Pose3) (p : Pose3) (v : V3) :
    inFrame frame p v = (seenFrom frame p).rot • v := by
  cases frame with
  | none => rfl
  | some c => exact (mul_smul _ _ _).symm

theorem toTCP_eq (frame : Option Pose3) (p q : Pose3) :
    toTCP frame p q = (seenFrom frame p).pos - (seenFrom frame q).pos := by
  cases frame <;> rfl

theorem velocity_congr {p p' : ℝ → Pose3} {v : V3} {x : ℝ} (h : ∀ᶠ y in nhds x, p y = p' y)
    (hv : Velocity p' v x) : Velocity p v x :=
  HasDerivAt.congr_of_eventuallyEq hv (h.mono fun y hy => by simp only [hy])

theorem angular_congr {p p' : ℝ → Pose3} {v : V3} {x : ℝ} (h : ∀ᶠ y in nhds x, p y = p' y)
    (hv : AngularVelocity p' v x) : AngularVelocity p v x := fun w => by
  have e : p x = p' x := h.self_of_nhds
  rw [e]
  exact HasDerivAt.congr_of_eventuallyEq (hv w) (h.mono fun y hy => by simp only [hy])

/-- The pose of a node while one joint moves. -/
theorem chain_pose {r : JRobot} {s : St Pose3} (hn : r.tree.ids.Nodup) {n d : Nat} {l : List Nat}
    (hc : Chain r.tree n l) (f : ℝ → St Pose3) (hf : ∀ x, FK r.toRobot (f x)) (hb : ∀ x, (f x).base = s.base)
    (x : ℝ) (hx : (f x).value = upd s.value d x) (hs : FK r.toRobot s) :
    (d ∈ l → ∃ A B : Pose3, s.pose d = A * (r.kind d).trafo (s.value d) ∧
      s.pose n = A * (r.kind d).trafo (s.value d) * B ∧ (f x).pose n = A * (r.kind d).trafo x * B) := by
  intro hd
  obtain ⟨l1, l2, rfl⟩ := List.append_of_mem hd
  have hnd : (l1 ++ d :: l2).Nodup := hn.sublist (chain_sublist hc)
  rw [List.nodup_append] at hnd
  have h1 : ∀ i ∈ l1, i ≠ d := fun i hi e => hnd.2.2 i hi d (by simp) e
  have h2 : ∀ i ∈ l2, i ≠ d := fun i hi e => (List.nodup_cons.1 hnd.2.1).1 (e ▸ hi)
  have hcd : Chain r.tree d (l1 ++ [d]) := by
    rcases eq_or_ne l2 [] with rfl | e
    · obtain ⟨m, hm⟩ := chain_last hc
      have := List.append_inj_right' hm rfl
      simp only [List.cons.injEq, and_true] at this
      rw [this] at hc ⊢
      exact hc
    · exact chain_prefix e hc
  have e1 : l1.map (fun i => r.toRobot.loc i (upd s.value d x i)) = l1.map (fun i => r.toRobot.loc i (s.value i)) :=
    List.map_congr_left fun i hi => by rw [upd_ne _ _ (h1 i hi)]
  have e2 : l2.map (fun i => r.toRobot.loc i (upd s.value d x i)) = l2.map (fun i => r.toRobot.loc i (s.value i)) :=
    List.map_congr_left fun i hi => by rw [upd_ne _ _ (h2 i hi)]
  refine ⟨s.base * (l1.map (fun i => r.toRobot.loc i (s.value i))).prod * r.localTrafo d,
    (l2.map (fun i => r.toRobot.loc i (s.value i))).prod, ?_, ?_, ?_⟩
  · rw [hs d _ hcd]
    simp [JRobot.toRobot, mul_assoc]
  · rw [hs n _ hc]
    simp [JRobot.toRobot, mul_assoc]
  · rw [hf x n _ hc, hb, hx, List.map_append, List.map_cons, e1, e2, upd_self]
    simp [JRobot.toRobot, mul_assoc]

/-- The pose of a node that the joint does not move. -/
theorem chain_pose_still {r : JRobot} {s : St Pose3} {n d : Nat} {l : List Nat}
    (hc : Chain r.tree n l) (f : ℝ → St Pose3) (hf : ∀ x, FK r.toRobot (f x)) (hb : ∀ x, (f x).base = s.base)
    (x : ℝ) (hx : (f x).value = upd s.value d x) (hs : FK r.toRobot s) (hd : d ∉ l) :
    (f x).pose n = s.pose n := by
  rw [hf x n _ hc, hb, hx, hs n _ hc]
  congr 2
  exact List.map_congr_left fun i hi => by
    rw [upd_ne]
    rintro rfl
    exact hd hi

end Simox.Jac
