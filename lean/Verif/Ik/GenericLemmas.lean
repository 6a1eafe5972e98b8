import Verif.Ik.GenericSpec
import Verif.Ik.Props
import Verif.Kin.Props

/-!
# Lemmas about the generic solver
-/

namespace Simox.Ik

open Kin Kin.Spec Jac Spec

theorem setGoal_mem (gs : List Goal) (g h : Goal) :
    h ∈ setGoal gs g ↔ (h.obj ≠ g.obj ∧ h ∈ gs) ∨ h = g := by
  unfold setGoal
  by_cases hany : gs.any (fun h => h.obj == g.obj) = true
  · rw [if_pos hany]
    obtain ⟨k, hk, hkg⟩ := List.any_eq_true.1 hany
    have hkg : k.obj = g.obj := by simpa using hkg
    simp only [List.mem_map]
    constructor
    · rintro ⟨x, hx, rfl⟩
      by_cases hxg : x.obj = g.obj
      · simp [hxg]
      · simp [hxg, hx]
    · rintro (⟨h1, h2⟩ | rfl)
      · exact ⟨h, h2, if_neg h1⟩
      · exact ⟨k, hk, if_pos hkg⟩
  · rw [if_neg hany]
    have hno : ∀ x ∈ gs, x.obj ≠ g.obj := by
      intro x hx he
      exact hany (List.any_eq_true.2 ⟨x, hx, by simp [he]⟩)
    simp only [List.mem_append, List.mem_singleton]
    constructor
    · rintro (h1 | h1)
      · exact .inl ⟨hno h h1, h1⟩
      · exact .inr h1
    · rintro (⟨-, h1⟩ | h1)
      · exact .inl h1
      · exact .inr h1

theorem setGoal_setGoal (gs : List Goal) (g h : Goal) (he : g.obj = h.obj) :
    setGoal (setGoal gs g) h = setGoal gs h := by
  unfold setGoal
  by_cases hany : gs.any (fun x => x.obj == g.obj) = true
  · have hany' : gs.any (fun x => x.obj == h.obj) = true := he ▸ hany
    rw [if_pos hany, if_pos hany', if_pos, List.map_map]
    · refine List.map_congr_left fun x _ => ?_
      by_cases hx : x.obj = g.obj
      · simp [hx, he]
      · simp [hx, he ▸ hx]
    · obtain ⟨k, hk, hkg⟩ := List.any_eq_true.1 hany
      have hkg : k.obj = g.obj := by simpa using hkg
      exact List.any_eq_true.2 ⟨g, List.mem_map.2 ⟨k, hk, if_pos hkg⟩, by simp [he]⟩
  · have hany' : ¬gs.any (fun x => x.obj == h.obj) = true := he ▸ hany
    rw [if_neg hany, if_neg hany', if_pos (by simp [he]), List.map_append]
    have hno : ∀ x ∈ gs, x.obj ≠ h.obj := by
      intro x hx hxe
      exact hany' (List.any_eq_true.2 ⟨x, hx, by simp [hxe]⟩)
    congr 1
    · refine (List.map_congr_left fun x hx => if_neg (hno x hx)).trans (List.map_id gs)
    · simp [he]

/-! ## Configurations -/

theorem setConfig_find {r : Robot Pose3} (c : Cfg) (n m : Nat) (v : ℝ) (hn : n ∈ r.tree.ids) :
    (c.setConfig r true n v).1.find m = if m = n then some v else c.find m := by
  unfold Cfg.setConfig
  simp [hn, put_find]

theorem read_find {r : Robot Pose3} (s : St Pose3) : ∀ (nodes : List Nat) (c : Cfg),
    (∀ n ∈ nodes, n ∈ r.tree.ids) → ∀ m,
    (nodes.foldl (fun c n => (c.setConfig r true n (s.value n)).1) c).find m =
      if m ∈ nodes then some (s.value m) else c.find m
  | [], c, _, m => by simp
  | n :: nodes, c, h, m => by
    rw [List.foldl_cons, read_find s nodes _ (fun k hk => h k (List.mem_cons_of_mem _ hk)),
      setConfig_find _ _ _ _ (h n (by simp))]
    by_cases h1 : m ∈ nodes
    · simp [h1]
    · by_cases h2 : m = n
      · subst h2; simp
      · simp [h1, h2]

theorem readConfig_find {r : Robot Pose3} {ns : NodeSet} (hu : Usable r ns) (c : Cfg) (s : St Pose3)
    {n : Nat} (hn : n ∈ ns.nodes) : (readConfig r ns c s).find n = some (s.value n) := by
  unfold readConfig
  rw [read_find s _ _ hu.known, if_pos hn]

theorem config_ok {r : Robot Pose3} {ns : NodeSet} (hu : Usable r ns) {fuel : Nat} (hf : 0 < fuel)
    {c : Cfg} {v : Nat → ℝ} (hc : ∀ n ∈ ns.nodes, c.find n = some (v n)) {s : St Pose3} (hs : FK r s) :
    ∃ s', ns.setConfig r fuel c s = some s' ∧ SetTo r ns.nodes v s s' := by
  have hhas : ∀ n ∈ ns.nodes, c.has n = true := by
    intro n hn
    rw [has_iff]
    by_contra h
    rw [← find_none, hc n hn] at h
    simp at h
  have he : (ns.nodes.filter (fun n => c.has n)).map (fun n => (n, c.getConfig true n)) =
      ns.nodes.map (fun n => (n, v n)) := by
    rw [List.filter_eq_self.2 hhas]
    refine List.map_congr_left fun n hn => ?_
    simp [Cfg.getConfig, hhas n hn, hc n hn]
  obtain ⟨s', h1, h2, h3, h4, h5⟩ := update_ok hu hf (m := ns.nodes.map (fun n => (n, v n)))
    (fun e he => by obtain ⟨n, hn, rfl⟩ := List.mem_map.1 he; exact hn) hs
  refine ⟨s', ?_, h2, h3, h4, fun n hn => ?_, fun n hn => ?_⟩
  · unfold NodeSet.setConfig
    rw [nodeset_fold, he, h1]
  · have hk : Keys (ns.nodes.map (fun n => (n, v n))) := by
      unfold Keys
      rw [List.map_map]
      have : (Prod.fst ∘ fun n => (n, v n)) = id := rfl
      rw [this, List.map_id]
      exact hu.distinct
    rw [h5, lastFor_keys hk (List.mem_map.2 ⟨n, hn, rfl⟩)]
  · have : lastFor (ns.nodes.map (fun n => (n, v n))) n = none := by
      refine lastFor_none.2 fun e he h => ?_
      obtain ⟨m, hm, rfl⟩ := List.mem_map.1 he
      exact hn (h ▸ hm)
    rw [h5, this]

/-- Setting one joint that drives no other. -/
theorem single_ok {r : Robot Pose3} (hn : Names r) {nodes : List Nat} {n : Nat} (hk : n ∈ r.tree.ids)
    (hm : n ∈ nodes) (hp : r.prop n = []) {fuel : Nat} (hf : 0 < fuel) (q : ℝ) {s s1 : St Pose3}
    {v : Nat → ℝ} (h : SetTo r nodes v s s1) :
    ∃ s2, setJointValue r fuel n q s1 = some s2 ∧ SetTo r nodes (upd v n q) s s2 := by
  obtain ⟨fuel, rfl⟩ := Nat.exists_eq_succ_of_ne_zero hf.ne'
  have he : setJointValue r (fuel + 1) n q s1 = some { setNoUpdate r n q s1 with
      pose := updAt r.loc (setNoUpdate r n q s1).value n r.tree s1.base s1.pose } := by
    unfold setJointValue
    rw [updatePose_noprop hp]
    rfl
  refine ⟨_, he, h.1, (C35_set_joint_value r hn (fuel + 1) n hk q s1 _ h.2.1 he).1, fun j hj => ?_,
    fun m hm' => ?_, fun m hm' => ?_⟩
  · show updAt _ _ _ _ _ _ j = _
    rw [updAt_outside _ _ _ _ _ _ _ (fun hh => hj (sub_subset _ _ _ hh))]
    exact h.2.2.1 j hj
  · show upd s1.value n _ m = _
    by_cases hmn : m = n
    · subst hmn; simp [upd]
    · simp only [upd, if_neg hmn]; exact h.2.2.2.1 m hm'
  · show upd s1.value n _ m = _
    have hmn : m ≠ n := fun h => hm' (h ▸ hm)
    simp only [upd, if_neg hmn]; exact h.2.2.2.2 m hm'

/-! ## Attempts -/

theorem random_ok {r : Robot Pose3} {ns : NodeSet} (hu : Usable r ns) {fuel : Nat} (hf : 0 < fuel)
    {so : Solver} (ht : GoodTrans r ns so) {rs : List ℝ} (hl : rs.length = ns.nodes.length)
    {s : St Pose3} (hs : FK r s) :
    ∃ s1, setJointsRandom r fuel ns so rs s = .ok s1 ∧ Fresh r ns so rs s s1 := by
  obtain ⟨s1, h1, h2⟩ := set_ok hu hf
    (v := List.zipWith (fun n x => (r.lim n).lo + ((r.lim n).hi - (r.lim n).lo) * x) ns.nodes rs)
    (by simp [hl]) hs
  have hv : ∀ (i n : Nat) (x : ℝ), ns.nodes[i]? = some n → rs[i]? = some x →
      valOf ns.nodes (List.zipWith (fun n x => (r.lim n).lo + ((r.lim n).hi - (r.lim n).lo) * x)
        ns.nodes rs) n = (r.lim n).lo + ((r.lim n).hi - (r.lim n).lo) * x := by
    intro i n x h3 h4
    refine valOf_zip hu.distinct h3 ?_ (by simp [hl])
    rw [List.getElem?_zipWith, h3, h4]
  unfold setJointsRandom
  simp only [h1]
  rcases htr : so.translational with _ | ⟨n, q⟩
  · exact ⟨s1, rfl, _, h2, by simp [htr], fun i m x h3 h4 _ => hv i m x h3 h4⟩
  · obtain ⟨hn, hp⟩ := ht n q htr
    obtain ⟨s2, h3, h4⟩ := single_ok hu.names (hu.known n hn) hn hp hf q h2
    simp only [h3]
    refine ⟨s2, rfl, _, h4, fun m p hm => ?_, fun i m x h5 h6 h7 => ?_⟩
    · rw [htr] at hm
      simp only [Option.some.injEq, Prod.mk.injEq] at hm
      obtain ⟨rfl, rfl⟩ := hm
      simp [upd]
    · have : m ≠ n := fun h => h7 n q htr h.symm
      simp only [upd, if_neg this]
      exact hv i m x h5 h6

theorem trySolve_iff {r : Robot Pose3} {fuel : Nat} {ns : NodeSet} {aa : AngleAxes} {so : Solver}
    {goals : List Goal} {s t : St Pose3} {b : Bool} :
    trySolve r fuel ns aa so goals s = .done b t ↔ Tried r fuel ns aa so goals s b t := by
  unfold trySolve Tried
  cases computeSteps r fuel ns aa goals (so.step goals) 0 true so.jacobianMaxLoops s with
  | throw s' => simp
  | diverge => simp
  | done b' s' =>
    cases b' with
    | false => cases b <;> simp
    | true =>
      rcases hc : so.inCollision with _ | c
      · cases b <;> simp
      · by_cases h : c s' = true
        · cases b <;> simp [h] <;> intro e <;> subst e <;> simp [h]
        · cases b <;> simp [h] <;> intro e <;> subst e <;> simp [h]

/-- The state can be reached by setting joints of the set. -/
def Reach (r : Robot Pose3) (ns : NodeSet) (s t : St Pose3) : Prop := ∃ v, SetTo r ns.nodes v s t

theorem reach_trans {r : Robot Pose3} {ns : NodeSet} {s t u : St Pose3} (h : Reach r ns s t)
    (h' : Reach r ns t u) : Reach r ns s u := by
  obtain ⟨v, h⟩ := h
  obtain ⟨w, h'⟩ := h'
  exact ⟨w, setTo_trans h h'⟩

theorem steps_reach {r : Robot Pose3} {ns : NodeSet} (hu : Usable r ns) {fuel : Nat} (hf : 0 < fuel)
    {aa : AngleAxes} {goals : List Goal} {step : St Pose3 → Step}
    (hstep : ∀ s d, step s = .move d → d.length = ns.nodes.length) {minChange : ℝ} {improve : Bool}
    {maxNStep : Int} {s s' : St Pose3} {b : Bool} (hs : FK r s) (hl : InLimits r ns.nodes s)
    (h : computeSteps r fuel ns aa goals step minChange improve maxNStep s = .done b s') : Reach r ns s s' := by
  have hrun := C56_run r ns hu fuel hf aa goals step hstep minChange improve maxNStep s hs hl
  rw [h] at hrun
  have hself := self_setTo hs hl
  cases b with
  | true =>
    obtain ⟨l, hw, -⟩ := hrun
    exact walk_setTo hw _ hself s' (by simp)
  | false =>
    obtain ⟨l, hw, -, rfl, -⟩ := hrun
    unfold final
    rcases List.eq_nil_or_concat l with rfl | ⟨l, t, rfl⟩
    · exact ⟨_, hself⟩
    · exact walk_setTo hw _ hself _ (by simp)

/-- Setting back to a state within limits. -/
theorem back_unique {r : Robot Pose3} {ns : NodeSet} {s b cur t : St Pose3} (hb : Reach r ns s b)
    (hl : InLimits r ns.nodes b) (hc : Reach r ns s cur) (ht : SetTo r ns.nodes b.value cur t) : t = b := by
  obtain ⟨v, hb⟩ := hb
  obtain ⟨w, hc⟩ := hc
  exact setTo_unique ht (setTo_absorb (setTo_trans hb (self_setTo hb.2.1 hl)) hc)

end Simox.Ik
