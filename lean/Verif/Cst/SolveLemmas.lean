import Verif.Cst.SolveSpec
import Verif.Ik.GenericLemmas

/-!
# Lemmas about the optimisation solver
-/

namespace Simox.Cst

open Kin Kin.Spec Jac Ik Ik.Spec Cst.Spec

/-- Two states that differ at most in the joints of the set. -/
def Same (r : Robot Pose3) (nodes : List Nat) (s s' : St Pose3) : Prop :=
  s'.base = s.base ∧ FK r s' ∧ (∀ j, j ∉ r.tree.ids → s'.pose j = s.pose j) ∧ ∀ n, n ∉ nodes → s'.value n = s.value n

theorem same_setTo {r : Robot Pose3} {nodes : List Nat} {s s' t : St Pose3} {v : Nat → ℝ} (h : Same r nodes s s') :
    SetTo r nodes v s' t ↔ SetTo r nodes v s t := by
  obtain ⟨a, b, c, d⟩ := h
  constructor
  · rintro ⟨e, f, g, i, j⟩
    exact ⟨e.trans a, f, fun x hx => (g x hx).trans (c x hx), i, fun x hx => (j x hx).trans (d x hx)⟩
  · rintro ⟨e, f, g, i, j⟩
    exact ⟨e.trans a.symm, f, fun x hx => (g x hx).trans (c x hx).symm, i, fun x hx => (j x hx).trans (d x hx).symm⟩

theorem setTo_same {r : Robot Pose3} {nodes : List Nat} {s t : St Pose3} {v : Nat → ℝ} (h : SetTo r nodes v s t) : Same r nodes s t :=
  ⟨h.1, h.2.1, h.2.2.1, h.2.2.2.2⟩

theorem same_trans {r : Robot Pose3} {nodes : List Nat} {s t u : St Pose3} (h : Same r nodes s t) (h' : Same r nodes t u) : Same r nodes s u :=
  ⟨h'.1.trans h.1, h'.2.1, fun j hj => (h'.2.2.1 j hj).trans (h.2.2.1 j hj), fun n hn => (h'.2.2.2 n hn).trans (h.2.2.2 n hn)⟩

theorem same_refl {r : Robot Pose3} {nodes : List Nat} {s : St Pose3} (h : FK r s) : Same r nodes s s :=
  ⟨rfl, h, fun _ _ => rfl, fun _ _ => rfl⟩

theorem atConfig_iff {r : Robot Pose3} {nodes : List Nat} (hd : nodes.Nodup) {x : List ℝ} {s t : St Pose3} :
    AtConfig r nodes x s t ↔ x.length = nodes.length ∧ SetTo r nodes (valOf nodes x) s t := by
  constructor
  · rintro ⟨hl, v, hv, h⟩
    refine ⟨hl, setTo_congr (fun n hn => ?_) h⟩
    obtain ⟨i, hi, rfl⟩ := List.getElem_of_mem hn
    have h1 := List.getElem?_eq_getElem hi
    have h2 := List.getElem?_eq_getElem (hl ▸ hi : i < x.length)
    rw [hv i _ _ h1 h2, valOf_zip hd h1 h2 hl]
  · rintro ⟨hl, h⟩
    exact ⟨hl, _, fun i n y h1 h2 => valOf_zip hd h1 h2 hl, h⟩

theorem atConfig_unique {r : Robot Pose3} {nodes : List Nat} (hd : nodes.Nodup) {x : List ℝ} {s t u : St Pose3} (h : AtConfig r nodes x s t)
    (h' : AtConfig r nodes x s u) : t = u :=
  setTo_unique ((atConfig_iff hd).1 h).2 ((atConfig_iff hd).1 h').2

theorem same_atConfig {r : Robot Pose3} {nodes : List Nat} {s s' t : St Pose3} {x : List ℝ} (h : Same r nodes s s') :
    AtConfig r nodes x s' t ↔ AtConfig r nodes x s t := by
  unfold AtConfig
  simp only [same_setTo h]

theorem atConfig_same {r : Robot Pose3} {nodes : List Nat} {s t : St Pose3} {x : List ℝ} (h : AtConfig r nodes x s t) : Same r nodes s t := by
  obtain ⟨-, v, -, h⟩ := h
  exact setTo_same h

theorem set_at {r : Robot Pose3} {ns : NodeSet} (hu : Usable r ns) {fuel : Nat} (hf : 0 < fuel) {x : List ℝ} (hl : x.length = ns.nodes.length)
    {s : St Pose3} (hs : FK r s) : ∃ s', ns.setJointValues r fuel x s = .ok s' ∧ AtConfig r ns.nodes x s s' := by
  obtain ⟨s', h1, h2⟩ := set_ok hu hf hl hs
  exact ⟨s', h1, (atConfig_iff hu.distinct).2 ⟨hl, h2⟩⟩

/-! ## One by one -/

theorem setEach_fold {r : Robot Pose3} (hn : Names r) {nodes : List Nat} {fuel : Nat} (hf : 0 < fuel) (hp : ∀ n ∈ nodes, r.prop n = [])
    (hk : ∀ n ∈ nodes, n ∈ r.tree.ids) : ∀ (l : List (Nat × ℝ)) (s : St Pose3), (∀ e ∈ l, e.1 ∈ nodes) → FK r s →
    ∃ s', setEach r fuel l s = some s' ∧ s'.base = s.base ∧ FK r s' ∧ (∀ j, j ∉ r.tree.ids → s'.pose j = s.pose j) ∧
      ∀ n, s'.value n = match lastFor l n with
        | some q => stored (r.lim n) q
        | none => s.value n
  | [], s, _, hs => ⟨s, rfl, rfl, hs, fun _ _ => rfl, fun _ => rfl⟩
  | (m, q) :: l, s, hl, hs => by
    have hm : m ∈ nodes := hl (m, q) (by simp)
    obtain ⟨f', rfl⟩ := Nat.exists_eq_succ_of_ne_zero hf.ne'
    have he : setJointValue r (f' + 1) m q s = some { setNoUpdate r m q s with
        pose := updAt r.loc (setNoUpdate r m q s).value m r.tree s.base s.pose } := by
      unfold setJointValue
      rw [updatePose_noprop (hp m hm)]
      rfl
    obtain ⟨s', h1, h2, h3, h4, h5⟩ := setEach_fold hn hf hp hk l _ (fun e he => hl e (List.mem_cons_of_mem _ he))
      (C35_set_joint_value r hn (f' + 1) m (hk m hm) q s _ hs he).1
    refine ⟨s', by rw [setEach, he]; exact h1, h2, h3, fun j hj => (h4 j hj).trans ?_, fun n => ?_⟩
    · show updAt _ _ _ _ _ _ j = _
      rw [updAt_outside _ _ _ _ _ _ _ (fun hh => hj (sub_subset _ _ _ hh))]
    · rw [h5, lastFor_cons]
      rcases lastFor l n with _ | y
      · simp only
        show upd s.value m _ n = _
        by_cases hmn : m = n
        · subst hmn; simp [upd]
        · rw [upd, if_neg (Ne.symm hmn), if_neg hmn]
          rfl
      · rfl

theorem setEach_at {r : Robot Pose3} {ns : NodeSet} (hu : Usable r ns) (hp : ∀ n ∈ ns.nodes, r.prop n = []) {fuel : Nat} (hf : 0 < fuel) {x : List ℝ}
    (hl : x.length = ns.nodes.length) {s : St Pose3} (hs : FK r s) :
    ∃ s', setEach r fuel (ns.nodes.zip x) s = some s' ∧ AtConfig r ns.nodes x s s' := by
  obtain ⟨s', h1, h2, h3, h4, h5⟩ := setEach_fold hu.names hf hp hu.known (ns.nodes.zip x) s (fun e he => (List.of_mem_zip he).1) hs
  refine ⟨s', h1, (atConfig_iff hu.distinct).2 ⟨hl, h2, h3, h4, fun n hn => ?_, fun n hn => ?_⟩⟩
  · obtain ⟨y, hy⟩ := lastFor_zip hn hl
    rw [h5]
    simp [hy, valOf]
  · have : lastFor (ns.nodes.zip x) n = none := lastFor_none.2 fun e he h => hn (h ▸ (List.of_mem_zip he).1)
    rw [h5, this]

/-! ## Moving to a configuration -/

/-- The solver knows where the robot is, or does not claim to. -/
def Honest (r : Robot Pose3) (ns : NodeSet) (k : OSt) : Prop := k.cur.length = ns.nodes.length → AtConfig r ns.nodes k.cur k.rob k.rob

theorem atConfig_self {r : Robot Pose3} {nodes : List Nat} {x : List ℝ} {s t : St Pose3} (h : AtConfig r nodes x s t) : AtConfig r nodes x t t :=
  (same_atConfig (atConfig_same h)).2 h

theorem goTo_honest {r : Robot Pose3} {o : Opt} (hu : Usable r o.ns) {fuel : Nat} (hf : 0 < fuel) {x : List ℝ} (hl : x.length = o.ns.nodes.length)
    {k : OSt} (hs : FK r k.rob) (hh : x = k.cur → AtConfig r o.ns.nodes x k.rob k.rob) :
    ∃ s', o.goTo r fuel x k = .ret () { k with rob := s', cur := x } ∧ AtConfig r o.ns.nodes x k.rob s' := by
  unfold Opt.goTo
  by_cases h : x = k.cur
  · rw [if_pos h]
    refine ⟨k.rob, ?_, hh h⟩
    subst h; rfl
  · rw [if_neg h]
    obtain ⟨s', h1, h2⟩ := set_at hu hf hl hs
    rw [h1]
    exact ⟨s', rfl, h2⟩

theorem goTo_same {r : Robot Pose3} {o : Opt} (hu : Usable r o.ns) {fuel : Nat} (hf : 0 < fuel) {x : List ℝ} (hl : x.length = o.ns.nodes.length)
    {k : OSt} (hs : FK r k.rob) : ∃ s', o.goTo r fuel x k = .ret () { k with rob := s', cur := x } ∧ Same r o.ns.nodes k.rob s' := by
  unfold Opt.goTo
  by_cases h : x = k.cur
  · rw [if_pos h]
    refine ⟨k.rob, ?_, same_refl hs⟩
    subst h; rfl
  · rw [if_neg h]
    obtain ⟨s', h1, h2⟩ := set_at hu hf hl hs
    rw [h1]
    exact ⟨s', rfl, atConfig_same h2⟩

theorem evaluations_same {r : Robot Pose3} {o : Opt} (hu : Usable r o.ns) {fuel : Nat} (hf : 0 < fuel) : ∀ (l : List (List ℝ)) (k : OSt),
    (∀ x ∈ l, x.length = o.ns.nodes.length) → FK r k.rob →
    ∃ s' c, o.evaluations r fuel l k = .ret () { k with rob := s', cur := c } ∧ Same r o.ns.nodes k.rob s'
  | [], k, _, hs => ⟨k.rob, k.cur, rfl, same_refl hs⟩
  | x :: l, k, hl, hs => by
    obtain ⟨s1, h1, h2⟩ := goTo_same (k := k) hu hf (hl x (by simp)) hs
    obtain ⟨s2, c, h3, h4⟩ := evaluations_same hu hf l { k with rob := s1, cur := x } (fun y hy => hl y (List.mem_cons_of_mem _ hy)) h2.2.1
    refine ⟨s2, c, ?_, same_trans h2 h4⟩
    rw [Opt.evaluations, h1]
    exact h3

/-! ## Judging -/

theorem hardSum_spec (s : St Pose3) : ∀ fns : List Fn, (∀ f ∈ fns, f.soft = false → ∀ t, f.check t ≠ none) →
    ∃ b, hardSum s fns = some (b, hardError fns s) ∧ (b = true ↔ HardMet fns s)
  | [], _ => ⟨true, by simp [hardSum, hardError], by simp [HardMet]⟩
  | f :: l, h => by
    obtain ⟨b, h1, h2⟩ := hardSum_spec s l fun g hg => h g (List.mem_cons_of_mem _ hg)
    rw [hardSum]
    by_cases hf : f.soft = true
    · rw [if_pos hf]
      refine ⟨b, by rw [h1]; simp [hardError, hf], h2.trans ?_⟩
      simp [HardMet, hf]
    · have hff : f.soft = false := by simpa using hf
      rw [if_neg hf]
      rcases hc : f.check s with _ | c
      · exact absurd hc (h f (by simp) hff s)
      · rw [h1]
        refine ⟨c && b, by simp [hardError, hff], ?_⟩
        rw [Bool.and_eq_true, h2]
        simp [HardMet, hff, hc]

end Simox.Cst
