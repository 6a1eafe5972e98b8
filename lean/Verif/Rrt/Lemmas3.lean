import Verif.Rrt.Lemmas2

set_option linter.unusedSectionVars false

namespace Simox.Rrt

open Simox.Planning Spec

variable {Q K : Type} [LT K] [DecidableRel (α := K) (· < ·)] {env : Env Q K} {Near : Q → Q → Prop}

theorem grown_congr {E : Q → Q → Prop} {l r : Nat} {s s' : Sys Q} (ht : s'.tree l = s.tree l)
    (hn : ∀ j ∈ (s.tree l).ids, s'.pool.node j = s.pool.node j) (hg : Grown E s l r) :
    Grown E s' l r := by
  refine ⟨by rw [ht]; exact hg.mem, by rw [hn r hg.mem]; exact hg.root, ?_⟩
  intro l1 x l2 e
  rw [ht] at e
  have hm : ∀ j ∈ l1 ++ x :: l2, s'.pool.node j = s.pool.node j := by
    intro j hj; exact hn j (by rw [e]; exact hj)
  rcases hg.par l1 x l2 e with rfl | ⟨y, hy, hp, hE⟩
  · exact Or.inl rfl
  · refine Or.inr ⟨y, hy, ?_, ?_⟩
    · rw [hm x (by simp)]; exact hp
    · rw [hm x (by simp), hm y (by simp [hy])]; exact hE

theorem ge_congr {E : Q → Q → Prop} {l r : Nat} {s s' : Sys Q} (ht : s'.tree l = s.tree l)
    (hn : ∀ j ∈ (s.tree l).ids, s'.pool.node j = s.pool.node j) (hg : GE E s l r) :
    GE E s' l r := by
  rcases hg with h0 | hg
  · left; rw [ht]; exact h0
  · exact Or.inr (grown_congr ht hn hg)

theorem startOK_trees {p p' : Planner Q} {st : Option Q} (h : StartOK env p st)
    (ht : p'.sys.tree 0 = p.sys.tree 0)
    (hn : ∀ j ∈ (p.sys.tree 0).ids, p'.sys.pool.node j = p.sys.pool.node j)
    (h2 : p'.startNode = p.startNode) (h3 : p'.startCfg = p.startCfg)
    (h4 : p'.startValid = p.startValid) : StartOK env p' st := by
  obtain ⟨r, hg, hr⟩ := h.tree
  refine ⟨⟨r, ge_congr ht hn hg, ?_⟩, by rw [h3, h4]; exact h.valid⟩
  intro hne
  rw [ht] at hne
  obtain ⟨w1, w2⟩ := hr hne
  have hmem : r ∈ (p.sys.tree 0).ids := (hg.resolve_left hne).mem
  rw [h2, h3, h4, hn r hmem]
  exact ⟨w1, w2⟩

/-! ## One extension of one of the two trees -/

structure BCore (env : Env Q K) (s : Sys Q) (r0 r1 : Nat) : Prop where
  inv : Inv s
  others : ∀ k, 1 < k → (s.tree k).ids = []
  g0 : GE (Checked env) s 0 r0
  g1 : GE (Checked env) s 1 r1

/-- Nodes stay and keep their contents; empty trees stay empty. -/
structure Keep (s s' : Sys Q) : Prop where
  mem : ∀ l, ∀ j ∈ (s.tree l).ids, j ∈ (s'.tree l).ids
  node : ∀ l, ∀ j ∈ (s.tree l).ids, s'.pool.node j = s.pool.node j
  empty : ∀ l, (s.tree l).ids = [] → (s'.tree l).ids = []

theorem Keep.trans {s s' s'' : Sys Q} (h1 : Keep s s') (h2 : Keep s' s'') : Keep s s'' :=
  ⟨fun l j hj => h2.mem l j (h1.mem l j hj),
    fun l j hj => (h2.node l j (h1.mem l j hj)).trans (h1.node l j hj),
    fun l h => h2.empty l (h1.empty l h)⟩

/-- Start and goal settings are equal. -/
structure SameSet (p p' : Planner Q) : Prop where
  startNode : p'.startNode = p.startNode
  startCfg : p'.startCfg = p.startCfg
  startValid : p'.startValid = p.startValid
  goalCfg : p'.goalCfg = p.goalCfg
  goalValid : p'.goalValid = p.goalValid

theorem SameSet.refl (p : Planner Q) : SameSet p p := ⟨rfl, rfl, rfl, rfl, rfl⟩

theorem SameSet.trans {p p' p'' : Planner Q} (h1 : SameSet p p') (h2 : SameSet p' p'') :
    SameSet p p'' :=
  ⟨h2.1.trans h1.1, h2.2.trans h1.2, h2.3.trans h1.3, h2.4.trans h1.4, h2.5.trans h1.5⟩

structure BiGrowSpec (env : Env Q K) (Near : Q → Q → Prop) (p : Planner Q) (k : Nat) (r0 r1 : Nat) (c : Q)
    (res : Planner Q × Ext) : Prop where
  core : BCore env res.1.sys r0 r1
  keep : Keep p.sys res.1.sys
  same : SameSet p res.1
  lastOther : ∀ l, l < 2 → l ≠ k → res.1.lastOf l = p.lastOf l
  added : res.2 = .success ∨ res.2 = .part → ∃ i : Nat, res.1.lastOf k = (i : Int) ∧
    i ∈ (res.1.sys.tree k).ids ∧ (res.2 = .success → Near (res.1.sys.pool.node i).config c)

theorem biGrow_spec (ok : EnvOK env Near) (mode : Mode) (cut : Bool) {p : Planner Q} {k r0 r1 : Nat}
    (hk : k < 2) (c : Q) (h : BCore env p.sys r0 r1) :
    BiGrowSpec env Near p k r0 r1 c (biGrow env mode cut p k c) := by
  have hge : GE (Checked env) p.sys k (if k = 0 then r0 else r1) := by
    have : k = 0 ∨ k = 1 := by omega
    rcases this with rfl | rfl
    · exact h.g0
    · exact h.g1
  have hs := grow_spec' ok mode cut (p.lastOf k) c h.inv hge
  unfold biGrow
  revert hs
  generalize grow env mode cut p.sys k (p.lastOf k) c = g
  obtain ⟨s', last', x⟩ := g
  rintro ⟨h1, h2, h3, h4, h5, h6⟩
  dsimp only at h1 h2 h3 h4 h5 h6 ⊢
  have hk01 : k = 0 ∨ k = 1 := by omega
  have hsys : (({ p with sys := s' } : Planner Q).setLast k last').sys = s' := by
    unfold Planner.setLast; split <;> rfl
  have hempty : ∀ l, (p.sys.tree l).ids = [] → (s'.tree l).ids = [] := by
    intro l h0
    by_cases hl : l = k
    · subst hl; exact (h4 h0).1
    · rw [h3.other l hl]; exact h0
  refine ⟨?_, ?_, ?_, ?_, ?_⟩
  · rw [hsys]
    refine ⟨h1, fun l hl => hempty l (h.others l hl), ?_, ?_⟩
    · rcases hk01 with rfl | rfl
      · exact h2
      · exact h.g0.frame h3 (by omega)
    · rcases hk01 with rfl | rfl
      · exact h.g1.frame h3 (by omega)
      · exact h2
  · rw [hsys]
    exact ⟨fun l j hj => h3.sub l hj, fun l j hj => h3.same l j hj, hempty⟩
  · unfold Planner.setLast; split <;> exact ⟨rfl, rfl, rfl, rfl, rfl⟩
  · intro l hl hlk
    unfold Planner.setLast Planner.lastOf
    rcases hk01 with rfl | rfl
    · rw [if_neg hlk, if_neg hlk]; rfl
    · have : l = 0 := by omega
      subst this; rfl
  · intro hx
    obtain ⟨i, w1, w2, _, w4⟩ := h5 hx
    refine ⟨i, ?_, by rw [hsys]; exact w2, by rw [hsys]; exact w4⟩
    rw [← w1]
    unfold Planner.setLast Planner.lastOf
    rcases hk01 with rfl | rfl <;> rfl

/-! ## One cycle -/

/-- The trees have met at the last added nodes. -/
def Met (Near : Q → Q → Prop) (p : Planner Q) : Prop :=
  ∃ i j : Nat, p.lastAddedID = (i : Int) ∧ p.lastAddedID2 = (j : Int) ∧
    i ∈ (p.sys.tree 0).ids ∧ j ∈ (p.sys.tree 1).ids ∧
    (Near (p.sys.pool.node i).config (p.sys.pool.node j).config ∨
      Near (p.sys.pool.node j).config (p.sys.pool.node i).config)

structure CycleSpec (env : Env Q K) (Near : Q → Q → Prop) (p : Planner Q) (r0 r1 : Nat)
    (p' : Planner Q) (found : Prop) : Prop where
  core : BCore env p'.sys r0 r1
  keep : Keep p.sys p'.sys
  same : SameSet p p'
  met : found → Met Near p'

theorem CycleSpec.trans {p p' p'' : Planner Q} {r0 r1 : Nat} {f f' : Prop}
    (h1 : CycleSpec env Near p r0 r1 p' f) (h2 : CycleSpec env Near p' r0 r1 p'' f') :
    CycleSpec env Near p r0 r1 p'' f' :=
  ⟨h2.core, h1.keep.trans h2.keep, h1.same.trans h2.same, h2.met⟩

theorem CycleSpec.of {p p' : Planner Q} {r0 r1 : Nat} {f f' : Prop}
    (h1 : CycleSpec env Near p r0 r1 p' f) (h : f' → f) : CycleSpec env Near p r0 r1 p' f' :=
  ⟨h1.core, h1.keep, h1.same, fun x => h1.met (h x)⟩

theorem biSecond_spec (ok : EnvOK env Near) (modeB : Mode) (cut : Bool) {p : Planner Q}
    {a b r0 r1 : Nat} (ha : a < 2) (hb : b < 2) (hab : a ≠ b) (h : BCore env p.sys r0 r1) {i : Nat}
    (hl : p.lastOf a = (i : Int)) (hi : i ∈ (p.sys.tree a).ids) :
    CycleSpec env Near p r0 r1 (biSecond env modeB cut a b p).2.2
      ((biSecond env modeB cut a b p).2.1 = true) := by
  unfold biSecond
  rw [hl, getNodeInt_mem h.inv hi]
  dsimp only
  have hs := biGrow_spec ok modeB cut hb (p.sys.pool.node i).config h
  revert hs
  generalize biGrow env modeB cut p b (p.sys.pool.node i).config = g
  obtain ⟨p', x⟩ := g
  rintro ⟨h1, h2, h3, h4, h5⟩
  dsimp only at h1 h2 h3 h4 h5 ⊢
  by_cases hx : x = .success
  · rw [if_pos hx]
    refine ⟨h1, h2, ⟨h3.1, h3.2, h3.3, h3.4, h3.5⟩, fun _ => ?_⟩
    obtain ⟨j, w1, w2, w3⟩ := h5 (Or.inl hx)
    have hla : p'.lastOf a = (i : Int) := by rw [h4 a ha hab]; exact hl
    have hia := h2.mem a i hi
    have hnode := h2.node a i hi
    have w3 := w3 hx
    rw [← hnode] at w3
    have : (a = 0 ∧ b = 1) ∨ (a = 1 ∧ b = 0) := by omega
    rcases this with ⟨rfl, rfl⟩ | ⟨rfl, rfl⟩
    · exact ⟨i, j, hla, w1, hia, w2, Or.inr w3⟩
    · exact ⟨j, i, w1, hla, w2, hia, Or.inl w3⟩
  · rw [if_neg hx]
    exact ⟨h1, h2, h3, fun h => by simp at h⟩

theorem biCycle_spec (ok : EnvOK env Near) (mode mode2 : Mode) (it : Item Q) (switched : Bool)
    {p : Planner Q} {r0 r1 : Nat} (h : BCore env p.sys r0 r1) :
    CycleSpec env Near p r0 r1 (biCycle env mode mode2 it switched p).2
      ((biCycle env mode mode2 it switched p).1 = .leave (.ret true)) := by
  unfold biCycle
  dsimp only
  have hs := biGrow_spec ok (if switched then mode2 else mode) it.cut (p := p)
    (k := if switched then 1 else 0) (by split <;> omega) it.rnd h
  revert hs
  generalize biGrow env (if switched then mode2 else mode) it.cut p (if switched then 1 else 0)
    it.rnd = g
  obtain ⟨p1, x⟩ := g
  rintro ⟨h1, h2, h3, h4, h5⟩
  dsimp only at h1 h2 h3 h4 h5 ⊢
  have base : CycleSpec env Near p r0 r1 p1 False := ⟨h1, h2, h3, fun f => f.elim⟩
  by_cases hu : x = .undef
  · rw [if_pos hu]; exact base.of (by simp)
  rw [if_neg hu]
  by_cases ht : x = .throws
  · rw [if_pos ht]; exact base.of (by simp)
  rw [if_neg ht]
  have hr : CycleSpec env Near p r0 r1
      (if x = .part ∨ x = .success then
        biSecond env (if switched then mode else mode2) it.cut (if switched then 1 else 0)
          (if switched then 0 else 1) p1
      else (x, false, p1)).2.2
      ((if x = .part ∨ x = .success then
        biSecond env (if switched then mode else mode2) it.cut (if switched then 1 else 0)
          (if switched then 0 else 1) p1
      else (x, false, p1)).2.1 = true) := by
    by_cases hx : x = .part ∨ x = .success
    · rw [if_pos hx]
      obtain ⟨i, w1, w2, _⟩ := h5 hx.symm
      exact base.trans (biSecond_spec ok _ _ (by split <;> omega) (by split <;> omega)
        (by split <;> omega) h1 w1 w2)
    · rw [if_neg hx]; exact base.of (by simp)
  revert hr
  generalize (if x = .part ∨ x = .success then
        biSecond env (if switched then mode else mode2) it.cut (if switched then 1 else 0)
          (if switched then 0 else 1) p1
      else (x, false, p1)) = r
  obtain ⟨y, fnd, p2⟩ := r
  intro hr
  dsimp only at hr ⊢
  by_cases hu : y = .undef
  · rw [if_pos hu]; exact hr.of (by simp)
  rw [if_neg hu]
  by_cases ht : y = .throws
  · rw [if_pos ht]; exact hr.of (by simp)
  rw [if_neg ht]
  by_cases hto : it.timeout = true
  · rw [if_pos hto]; exact hr.of (by simp)
  rw [if_neg hto]
  by_cases hf : fnd = true
  · rw [if_pos hf]; exact hr.of (fun _ => hf)
  rw [if_neg hf]
  split
  · exact hr.of (by simp)
  · exact hr.of (by simp)

theorem biLoop_spec (ok : EnvOK env Near) (mode mode2 : Mode) (item : Nat → Item Q) {r0 r1 : Nat} :
    ∀ (n cyc : Nat) (sw : Bool) (p : Planner Q), BCore env p.sys r0 r1 →
      CycleSpec env Near p r0 r1 (biLoop env mode mode2 item n cyc sw p).2
        ((biLoop env mode mode2 item n cyc sw p).1 = .ret true) := by
  intro n
  induction n with
  | zero =>
    intro cyc sw p h
    have hc := biCycle_spec ok mode mode2 (item cyc) sw h
    unfold biLoop
    revert hc
    generalize biCycle env mode mode2 (item cyc) sw p = c
    obtain ⟨c, p'⟩ := c
    intro hc
    cases c with
    | leave r => exact hc.of (fun e => by rw [← e])
    | go => exact hc.of (fun e => by simp at e)
  | succ n ih =>
    intro cyc sw p h
    have hc := biCycle_spec ok mode mode2 (item cyc) sw h
    unfold biLoop
    revert hc
    generalize biCycle env mode mode2 (item cyc) sw p = c
    obtain ⟨c, p'⟩ := c
    intro hc
    cases c with
    | leave r => exact hc.of (fun e => by rw [← e])
    | go => exact hc.trans (ih (cyc + 1) (!sw) p' hc.core)

/-! ## Solutions of a `BiRrt` -/

theorem biCreateSolution_met {p : Planner Q} {r0 r1 : Nat} (h : BCore env p.sys r0 r1)
    (hm : Met Near p) : ∃ l,
      biCreateSolution p = (.ret true, { p with solution := some l }) ∧
      BiPath env Near (p.sys.pool.node r0).config (p.sys.pool.node r1).config l := by
  obtain ⟨i, j, e1, e2, hi, hj, hnear⟩ := hm
  have hg0 : Grown (Checked env) p.sys 0 r0 := h.g0.resolve_left (List.ne_nil_of_mem hi)
  have hg1 : Grown (Checked env) p.sys 1 r1 := h.g1.resolve_left (List.ne_nil_of_mem hj)
  obtain ⟨c, hc1, hc2, hc3, hc4⟩ := ancestors' hg0 hi
  obtain ⟨d, hd1, hd2, hd3, hd4⟩ := ancestors' hg1 hj
  have w1 := biWalk_line h.inv hg0.root c i ((p.sys.tree 0).nrOfNodes + 1) [i] (by omega) hc2 hc3
    (hc4.imp fun _ _ h => h.1)
  have w2 := biWalk_line h.inv hg1.root d j ((p.sys.tree 1).nrOfNodes + 1) [] (by omega) hd2 hd3
    (hd4.imp fun _ _ h => h.1)
  refine ⟨(((i :: c).reverse ++ d).map fun i => (p.sys.pool.node i).config), ?_, ?_⟩
  · unfold biCreateSolution
    dsimp only
    rw [e1, e2, getNodeInt_mem h.inv hi, getNodeInt_mem h.inv hj]
    dsimp only
    rw [w1, w2]
    simp
  · refine ⟨_, _, (p.sys.pool.node i).config, (p.sys.pool.node j).config, List.map_append, ?_, ?_,
      line_path hc4, hnear, ?_, ?_⟩
    · rw [List.head?_map, List.head?_reverse, hc2]; rfl
    · simp
    · rw [← List.map_cons (f := fun i => (p.sys.pool.node i).config), List.getLast?_map, hd2]; rfl
    · rw [← List.map_cons (f := fun i => (p.sys.pool.node i).config), List.isChain_map]
      exact hd4.imp fun _ _ h => h.2

theorem biCreateSolution_same (p : Planner Q) :
    ∃ sol, (biCreateSolution p).2 = { p with solution := sol } := by
  unfold biCreateSolution
  dsimp only
  split
  · split
    · exact ⟨_, rfl⟩
    all_goals exact ⟨none, rfl⟩
  · exact ⟨none, rfl⟩

theorem biGetSolution_same (p : Planner Q) :
    ∃ sol, (biGetSolution p).2 = { p with solution := sol } := by
  obtain ⟨sol, e⟩ := biCreateSolution_same p
  unfold biGetSolution getSolutionWith
  by_cases h : p.solution.isSome = true
  · simp only [h, if_true]
    cases p.solution <;> exact ⟨p.solution, rfl⟩
  · simp only [h, Bool.false_eq_true, if_false]
    refine ⟨sol, ?_⟩
    revert e
    generalize biCreateSolution p = x
    obtain ⟨res, p'⟩ := x
    rintro rfl
    cases res <;> first | rfl | (cases sol <;> rfl)

/-! ## Histories of a `BiRrt` -/

structure BInv (env : Env Q K) (p : Planner Q) (st gl : Option Q) (planned : Bool) : Prop where
  inv : Inv p.sys
  others : ∀ k, 1 < k → (p.sys.tree k).ids = []
  start : StartOK env p st
  goal : GoalFlag env p gl
  gtree : ∃ r, GE (Checked env) p.sys 1 r ∧ ((p.sys.tree 1).ids ≠ [] → p.goalValid = true →
    (p.sys.pool.node r).config = p.goalCfg)
  fresh : planned = false → ((p.sys.tree 1).ids = [] ∧ p.goalNode = none) ∨
    ∃ r, p.goalNode = some r ∧ (p.sys.tree 1).ids = [r]

theorem binv_solution {p : Planner Q} {st gl : Option Q} {b : Bool} (h : BInv env p st gl b)
    (sol : Option (List Q)) : BInv env { p with solution := sol } st gl b :=
  ⟨h.inv, h.others, startOK_congr h.start rfl rfl rfl rfl, h.goal, h.gtree, h.fresh⟩

theorem binv_cycle {p p' : Planner Q} {st gl : Option Q} {b : Bool} (h : BInv env p st gl b) {r0 r1 : Nat}
    {f : Prop} (hr0 : (p.sys.tree 0).ids ≠ [] → p.startNode = some r0 ∧
      (p.startValid = true → (p.sys.pool.node r0).config = p.startCfg))
    (hr1 : (p.sys.tree 1).ids ≠ [] → p.goalValid = true → (p.sys.pool.node r1).config = p.goalCfg)
    (hg0 : GE (Checked env) p.sys 0 r0) (hg1 : GE (Checked env) p.sys 1 r1)
    (hc : CycleSpec env Near p r0 r1 p' f) : BInv env p' st gl true := by
  have hne : ∀ l, (p'.sys.tree l).ids ≠ [] → (p.sys.tree l).ids ≠ [] :=
    fun l hn h0 => hn (hc.keep.empty l h0)
  refine ⟨hc.core.inv, hc.core.others, ⟨⟨r0, hc.core.g0, ?_⟩, ?_⟩, ?_, ⟨r1, hc.core.g1, ?_⟩,
    fun h => by simp at h⟩
  · intro hn
    have hm := (hg0.resolve_left (hne 0 hn)).mem
    rw [hc.same.startNode, hc.same.startCfg, hc.same.startValid, hc.keep.node 0 r0 hm]
    exact hr0 (hne 0 hn)
  · rw [hc.same.startCfg, hc.same.startValid]; exact h.start.valid
  · unfold GoalFlag
    rw [hc.same.goalCfg, hc.same.goalValid]; exact h.goal
  · intro hn
    have hm := (hg1.resolve_left (hne 1 hn)).mem
    rw [hc.same.goalCfg, hc.same.goalValid, hc.keep.node 1 r1 hm]
    exact hr1 (hne 1 hn)

theorem biPlan_spec (ok : EnvOK env Near) (mode mode2 : Mode) (sched : Sched Q) {st gl : Option Q}
    {b : Bool} {p : Planner Q} (h : BInv env p st gl b) :
    BInv env (biPlan env mode mode2 sched p).2 st gl true ∧
    ((biPlan env mode mode2 sched p).1 = .ret true → ∃ a g l, st = some a ∧ gl = some g ∧
      env.free a = true ∧ env.inBd a = true ∧ env.free g = true ∧ env.inBd g = true ∧
      (biPlan env mode mode2 sched p).2.solution = some l ∧ BiPath env Near a g l) := by
  unfold biPlan
  by_cases hv : (p.startValid && p.goalValid) = true
  swap
  · simp only [hv, Bool.not_false, if_true]
    exact ⟨⟨h.inv, h.others, h.start, h.goal, h.gtree, fun h => by simp at h⟩, fun e => by simp at e⟩
  simp only [hv, Bool.not_true, if_false, Bool.false_eq_true]
  simp only [Bool.and_eq_true] at hv
  have h' := binv_solution h none
  obtain ⟨r0, hg0, hr0⟩ := h'.start.tree
  obtain ⟨r1, hg1, hr1⟩ := h'.gtree
  have hl := biLoop_spec ok mode mode2 sched.item (sched.maxCycles - 1) 0 false
    { p with solution := none } (⟨h'.inv, h'.others, hg0, hg1⟩ : BCore env _ r0 r1)
  revert hl
  generalize biLoop env mode mode2 sched.item (sched.maxCycles - 1) 0 false
    { p with solution := none } = x
  obtain ⟨res, p'⟩ := x
  intro hc
  have hb := binv_cycle h' hr0 hr1 hg0 hg1 hc
  cases res with
  | ret bb =>
    cases bb with
    | false => exact ⟨hb, fun e => by simp at e⟩
    | true =>
      have hmet := hc.met rfl
      dsimp only at hmet hc hb
      obtain ⟨l, e, hpath⟩ := biCreateSolution_met hc.core hmet
      simp only [e]
      refine ⟨binv_solution hb _, fun _ => ?_⟩
      have hsv : p'.startValid = true := hc.same.startValid.trans hv.1
      have hgv : p'.goalValid = true := hc.same.goalValid.trans hv.2
      obtain ⟨s1, s2, s3⟩ := hb.start.valid hsv
      obtain ⟨g1, g2, g3⟩ := hb.goal hgv
      obtain ⟨i, j, _, _, hi, hj, _⟩ := hmet
      have hn0 : (p.sys.tree 0).ids ≠ [] := fun h0 => by
        have := hc.keep.empty 0 h0; rw [this] at hi; simp at hi
      have hn1 : (p.sys.tree 1).ids ≠ [] := fun h0 => by
        have := hc.keep.empty 1 h0; rw [this] at hj; simp at hj
      have c0 : (p'.sys.pool.node r0).config = p'.startCfg := by
        rw [hc.keep.node 0 r0 (hg0.resolve_left hn0).mem, hc.same.startCfg]
        exact (hr0 hn0).2 hv.1
      have c1 : (p'.sys.pool.node r1).config = p'.goalCfg := by
        rw [hc.keep.node 1 r1 (hg1.resolve_left hn1).mem, hc.same.goalCfg]
        exact hr1 hn1 hv.2
      rw [c0, c1] at hpath
      exact ⟨_, _, l, s1, g1, s2, s3, g2, g3, rfl, hpath⟩
  | throws => exact ⟨hb, fun e => by simp at e⟩
  | undef => exact ⟨hb, fun e => by simp at e⟩
  | diverges => exact ⟨hb, fun e => by simp at e⟩

/-- Removing the single node of tree 1. -/
theorem removeRoot {s : Sys Q} (hi : Inv s) {r : Nat} (h : (s.tree 1).ids = [r]) :
    let x := removeNode s.pool (s.tree 1) r
    let s' : Sys Q := { pool := x.1, tree := upd s.tree 1 x.2 }
    Inv s' ∧ (∀ l, l ≠ 1 → s'.tree l = s.tree l) ∧ (s'.tree 1).ids = [] ∧
      (∀ j ∈ (s.tree 0).ids, s'.pool.node j = s.pool.node j) ∧ s'.pool.free ≠ [] := by
  intro x s'
  have hinv : Inv s' := remove_inv hi 1 r
  have hlt : r < s.pool.cap := hi.idsLt 1 r (by rw [h]; simp)
  have hx : x = (s.pool.removeNode r, (s.tree 1).del r) := by
    show removeNode _ _ _ = _
    unfold removeNode
    rw [if_neg (by rw [h]; simp), if_pos (by rw [h]; simp)]
  refine ⟨hinv, fun l hl => upd_ne _ _ hl, ?_, ?_, ?_⟩
  · show (upd s.tree 1 x.2 1).ids = []
    rw [upd_same, hx]; simp [Tree.del, h]
  · intro j hj
    have hjr : j ≠ r := by
      rintro rfl
      have := hi.disj 0 1 j hj (by rw [h]; simp)
      omega
    show x.1.node j = _
    rw [hx]
    simp only [Pool.removeNode]
    rw [if_neg (by omega)]
    exact upd_ne _ _ hjr
  · show x.1.free ≠ []
    rw [hx]
    simp only [Pool.removeNode]
    rw [if_neg (by omega)]; simp

theorem biSetGoal_binv {p : Planner Q} {st gl : Option Q} (h : BInv env p st gl false) (c : Q) :
    BInv env (biSetGoal env p c).2 st (some c) false := by
  obtain ⟨h1, h2, h3, h4, h5, h6, h7, h8⟩ := setGoal_spec (env := env) p c
  unfold biSetGoal
  revert h1 h2 h3 h4 h5 h6 h7 h8
  generalize setGoal env p c = x
  obtain ⟨b, p1⟩ := x
  intro h1 h2 h3 h4 h5 h6 h7 h8
  dsimp only at h1 h2 h3 h4 h5 h6 h7 h8
  have hst1 : StartOK env p1 st := startOK_congr h.start h2 h3 h4 h5
  cases b with
  | false =>
    obtain ⟨r, hg, _⟩ := h.gtree
    refine ⟨by rw [h2]; exact h.inv, by rw [h2]; exact h.others, hst1, h1, ?_, ?_⟩
    · exact ⟨r, by rw [h2]; exact hg, fun _ hv => by simp [← h8] at hv⟩
    · rw [h2, h6]; exact h.fresh
  | true =>
    dsimp only
    -- the system before the new root is appended
    have key : ∃ s : Sys Q, dropGoal p1 = s ∧ Inv s ∧
        (∀ l, l ≠ 1 → s.tree l = p1.sys.tree l) ∧ (s.tree 1).ids = [] ∧
        (∀ j ∈ (p1.sys.tree 0).ids, s.pool.node j = p1.sys.pool.node j) ∧
        (s.pool.free = [] → p1.goalNode = none) := by
      unfold dropGoal
      rw [h2, h6]
      rcases h.fresh rfl with ⟨e1, e2⟩ | ⟨r, e1, e2⟩
      · rw [e2]
        exact ⟨p.sys, rfl, h.inv, fun _ _ => rfl, e1, fun _ _ => rfl, fun _ => rfl⟩
      · rw [e1]
        obtain ⟨w1, w2, w3, w4, w5⟩ := removeRoot h.inv e2
        exact ⟨_, rfl, w1, w2, w3, w4, fun h0 => absurd h0 w5⟩
    obtain ⟨s, es, hi, ht, h0, hn, hfree⟩ := key
    rw [es]
    have hoth : ∀ k, 1 < k → (s.tree k).ids = [] := by
      intro k hk; rw [ht k (by omega), h2]; exact h.others k hk
    cases hp : push s 1 c (-1) with
    | none =>
      dsimp only
      have hf0 := push_none.mp hp
      refine ⟨hi, hoth, startOK_trees hst1 (ht 0 (by omega)) hn rfl rfl rfl, h1,
        ⟨0, Or.inl h0, fun hne => absurd h0 hne⟩, fun _ => Or.inl ⟨h0, hfree hf0⟩⟩
    | some y =>
      obtain ⟨i, s'⟩ := y
      dsimp only
      obtain ⟨hi', hfr, hids, hq, hpar, hfresh⟩ := push_spec hi hp
      obtain ⟨hgr, hone⟩ := grown_root (E := Checked env) hi h0 hp
      refine ⟨hi', ?_, ?_, h1, ⟨i, Or.inr hgr, fun _ _ => by rw [h7]; exact hq⟩,
        fun _ => Or.inr ⟨i, rfl, hone⟩⟩
      · intro k hk
        show (s'.tree k).ids = []
        rw [hfr.other k (by omega)]; exact hoth k hk
      · refine startOK_trees hst1 ?_ ?_ rfl rfl rfl
        · show s'.tree 0 = _
          rw [hfr.other 0 (by omega)]; exact ht 0 (by omega)
        · intro j hj
          show s'.pool.node j = _
          rw [hfr.same 0 j (by rw [ht 0 (by omega)]; exact hj)]; exact hn j hj

/-- Whether a plan was attempted since the last reset, updated by one more call. -/
def nextPlanned (b : Bool) : Op Q → Bool
  | .plan _ => true
  | .reset => false
  | _ => b

theorem biStep_binv (ok : EnvOK env Near) (mode mode2 : Mode) {st gl : Option Q} {b : Bool}
    {p p' : Planner Q} (h : BInv env p st gl b) (op : Op Q)
    (hop : ∀ c, op = .setGoal c → b = false)
    (e : biStep env mode mode2 p op = some p') :
    BInv env p' (nextStart st op) (nextGoal gl op) (nextPlanned b op) := by
  cases op with
  | setStart c =>
    simp only [biStep, Option.some.injEq] at e
    subst e
    obtain ⟨h1, h2, h3, h4, h5, h6, h7, h8⟩ := setStart_spec h.inv h.others c h.start
    obtain ⟨r, hg, hr⟩ := h.gtree
    refine ⟨h1, h2, h3, ?_, ⟨r, ge_congr h4 h5 hg, ?_⟩, ?_⟩
    · unfold GoalFlag; rw [h6, h7]; exact h.goal
    · intro hn
      rw [h4] at hn
      rw [h6, h7, h5 r (hg.resolve_left hn).mem]; exact hr hn
    · rw [h4, h8]; exact h.fresh
  | setGoal c =>
    simp only [biStep, Option.some.injEq] at e
    subst e
    obtain rfl := hop c rfl
    exact biSetGoal_binv h c
  | plan sched =>
    have hp := (biPlan_spec ok mode mode2 sched h).1
    simp only [biStep] at e
    revert e hp
    generalize biPlan env mode mode2 sched p = x
    obtain ⟨res, p1⟩ := x
    intro e hp
    cases res <;> simp at e
    · subst e; exact hp
    · subst e; exact hp
  | getSolution =>
    obtain ⟨sol, es⟩ := biGetSolution_same p
    have hp := binv_solution h sol
    simp only [biStep] at e
    revert e es
    generalize biGetSolution p = x
    obtain ⟨res, p1⟩ := x
    intro e es
    dsimp only at es
    rw [← es] at hp
    cases res <;> simp at e
    · subst e; exact hp
    · subst e; exact hp
  | reset =>
    simp only [biStep, Option.some.injEq] at e
    subst e
    obtain ⟨h1, h2⟩ := reset_inv' h.inv h.others
    exact ⟨h1, fun k _ => h2 k, ⟨⟨0, Or.inl (h2 0), fun hn => absurd (h2 0) hn⟩,
      fun hv => by simp [reset] at hv⟩, fun hv => by simp [reset] at hv,
      ⟨0, Or.inl (h2 1), fun hn => absurd (h2 1) hn⟩, fun _ => Or.inl ⟨h2 1, rfl⟩⟩

theorem new_binv (cap : Nat) (q0 : Q) : BInv env (Planner.new cap q0) none none false :=
  ⟨new_inv cap q0, fun _ _ => rfl, ⟨⟨0, Or.inl rfl, fun h => absurd rfl h⟩,
    fun hv => by simp [Planner.new] at hv⟩, fun hv => by simp [Planner.new] at hv,
    ⟨0, Or.inl rfl, fun h => absurd rfl h⟩, fun _ => Or.inl ⟨rfl, rfl⟩⟩

theorem biRun_binv (ok : EnvOK env Near) (mode mode2 : Mode) : ∀ (ops : List (Op Q)) (p p' : Planner Q)
    (st gl : Option Q) (b : Bool), BInv env p st gl b → goalsBeforePlans b ops →
    biRun env mode mode2 p ops = some p' →
    ∃ b', BInv env p' (ops.foldl nextStart st) (ops.foldl nextGoal gl) b' := by
  intro ops
  induction ops with
  | nil =>
    intro p p' st gl b h _ e
    simp only [biRun, Option.some.injEq] at e; subst e; exact ⟨b, h⟩
  | cons op ops ih =>
    intro p p' st gl b h hg e
    unfold biRun at e
    cases hs : biStep env mode mode2 p op with
    | none => rw [hs] at e; simp at e
    | some p1 =>
      rw [hs] at e
      have hop : ∀ c, op = .setGoal c → b = false := by
        rintro c rfl; exact hg.1
      have hrest : goalsBeforePlans (nextPlanned b op) ops := by
        cases op with
        | setGoal c => exact hg.2
        | _ => exact hg
      exact ih p1 p' _ _ _ (biStep_binv ok mode mode2 h op hop hs) hrest e

end Simox.Rrt
