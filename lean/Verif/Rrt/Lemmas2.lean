import Verif.Rrt.Lemmas

set_option linter.unusedSectionVars false

namespace Simox.Rrt

open Simox.Planning Spec

variable {Q K : Type} [LT K] [DecidableRel (α := K) (· < ·)] {env : Env Q K} {Near : Q → Q → Prop}

/-- Tree `k` is empty or grown from `r`. -/
def GE (E : Q → Q → Prop) (s : Sys Q) (k r : Nat) : Prop := (s.tree k).ids = [] ∨ Grown E s k r

theorem GE.frame {E : Q → Q → Prop} {k l r : Nat} {s s' : Sys Q} (h : Frame k s s') (hl : l ≠ k)
    (hg : GE E s l r) : GE E s' l r := by
  rcases hg with h0 | hg
  · left; rw [h.other l hl]; exact h0
  · exact Or.inr (h.grown hl hg)

structure GrowSpec' (env : Env Q K) (Near : Q → Q → Prop) (s : Sys Q) (k r : Nat) (c : Q)
    (res : Sys Q × Int × Ext) : Prop where
  inv : Inv res.1
  grown : GE (Checked env) res.1 k r
  frame : Frame k s res.1
  keepEmpty : (s.tree k).ids = [] → (res.1.tree k).ids = [] ∧ res.2.2 = .undef
  added : res.2.2 = .success ∨ res.2.2 = .part → ∃ i : Nat, res.2.1 = (i : Int) ∧
    i ∈ (res.1.tree k).ids ∧ (∀ l, i ∉ (s.tree l).ids) ∧
    (res.2.2 = .success → Near (res.1.pool.node i).config c)
  defined : (s.tree k).ids ≠ [] → res.2.2 ≠ .undef

theorem grow_spec' (ok : EnvOK env Near) (mode : Mode) (cut : Bool) {s : Sys Q} {k r : Nat}
    (last : Int) (c : Q) (hi : Inv s) (hg : GE (Checked env) s k r) :
    GrowSpec' env Near s k r c (grow env mode cut s k last c) := by
  rcases hg with h0 | hg
  · have hnn := nearest_empty hi env.d2 c h0
    have : grow env mode cut s k last c = (s, last, .undef) := by
      cases mode <;> simp only [grow, extend, connectUntil, connectComplete, hnn]
    rw [this]
    exact ⟨hi, Or.inl h0, Frame.refl k s, fun _ => ⟨h0, rfl⟩, fun h => by simp at h,
      fun h => absurd h0 h⟩
  · obtain ⟨h1, h2, h3, h4, h5⟩ := grow_spec ok mode cut last c hi hg
    exact ⟨h1, Or.inr h2, h3, fun h0 => absurd h0 (List.ne_nil_of_mem hg.mem), h4, fun _ => h5⟩

theorem inv_allEmpty (p : Pool Q) (t : Nat → Tree) (hf : p.free = (List.range p.cap).reverse)
    (h : ∀ k, (t k).ids = [] ∧ ∀ i, (t k).map i = none) : Inv { pool := p, tree := t } where
  freeNodup := by simp only [hf]; exact List.nodup_reverse.mpr List.nodup_range
  freeLt := by intro i hi; simpa [hf] using hi
  idsNodup := by intro k; simp only [(h k).1]; exact List.nodup_nil
  idsLt := by intro k i hi; simp [(h k).1] at hi
  mapOk := by intro k i; simp [(h k).1, (h k).2]
  disjFree := by intro k i hi; simp [(h k).1] at hi
  disj := by intro k l i hi; simp [(h k).1] at hi

theorem reset_inv' {p : Planner Q} (hi : Inv p.sys) (ho : ∀ k, 1 < k → (p.sys.tree k).ids = []) :
    Inv (reset p).sys ∧ ∀ k, ((reset p).sys.tree k).ids = [] := by
  have key : ∀ k, ((reset p).sys.tree k).ids = [] ∧ ∀ i, ((reset p).sys.tree k).map i = none := by
    intro k
    by_cases h1 : k = 1
    · subst h1; simp [reset, upd, Tree.empty]
    · by_cases h0 : k = 0
      · subst h0; simp [reset, upd, Tree.empty]
      · have hk := ho k (by omega)
        have hm : ∀ i, (p.sys.tree k).map i = none := by
          intro i; rw [hi.mapOk k, hk]; simp
        simp only [reset, upd, h0, h1, if_false]
        exact ⟨hk, hm⟩
  exact ⟨inv_allEmpty _ _ rfl key, fun k => (key k).1⟩

/-! ## What holds between the calls on a planner -/

/-- The part concerning the start. -/
structure StartOK (env : Env Q K) (p : Planner Q) (st : Option Q) : Prop where
  tree : ∃ r, GE (Checked env) p.sys 0 r ∧ ((p.sys.tree 0).ids ≠ [] →
    p.startNode = some r ∧ (p.startValid = true → (p.sys.pool.node r).config = p.startCfg))
  valid : p.startValid = true → st = some p.startCfg ∧ env.free p.startCfg = true ∧
    env.inBd p.startCfg = true

/-- The flag of the goal. -/
def GoalFlag (env : Env Q K) (p : Planner Q) (gl : Option Q) : Prop :=
  p.goalValid = true → gl = some p.goalCfg ∧ env.free p.goalCfg = true ∧ env.inBd p.goalCfg = true

structure RInv (env : Env Q K) (p : Planner Q) (st gl : Option Q) : Prop where
  inv : Inv p.sys
  others : ∀ k, 1 < k → (p.sys.tree k).ids = []
  start : StartOK env p st
  goal : GoalFlag env p gl

/-- `setStart` on the trees. -/
theorem setStart_spec {p : Planner Q} (hi : Inv p.sys) (ho : ∀ k, 1 < k → (p.sys.tree k).ids = [])
    (c : Q) {st : Option Q} (hs : StartOK env p st) :
    let r := setStart env p c
    Inv r.2.sys ∧ (∀ k, 1 < k → (r.2.sys.tree k).ids = []) ∧ StartOK env r.2 (some c) ∧
      r.2.sys.tree 1 = p.sys.tree 1 ∧
      (∀ j ∈ (p.sys.tree 1).ids, r.2.sys.pool.node j = p.sys.pool.node j) ∧
      r.2.goalCfg = p.goalCfg ∧ r.2.goalValid = p.goalValid ∧ r.2.goalNode = p.goalNode := by
  intro r
  have hr : r = setStart env p c := rfl
  unfold setStart at hr
  by_cases hf : env.free c = true
  swap
  · have hf' : env.free c = false := by simpa using hf
    simp only [hf', Bool.not_false, if_true] at hr
    rw [hr]
    obtain ⟨rt, h1, h2⟩ := hs.tree
    refine ⟨hi, ho, ⟨⟨rt, h1, fun h => ⟨(h2 h).1, fun h => by simp at h⟩⟩, fun h => by simp at h⟩,
      rfl, fun _ _ => rfl, rfl, rfl, rfl⟩
  by_cases hb : env.inBd c = true
  swap
  · have hb' : env.inBd c = false := by simpa using hb
    simp only [hf, hb', Bool.not_false, Bool.not_true, if_true, if_false, Bool.false_eq_true] at hr
    rw [hr]
    obtain ⟨rt, h1, h2⟩ := hs.tree
    refine ⟨hi, ho, ⟨⟨rt, h1, fun h => ⟨(h2 h).1, fun h => by simp at h⟩⟩, fun h => by simp at h⟩,
      rfl, fun _ _ => rfl, rfl, rfl, rfl⟩
  simp only [hf, hb, Bool.not_true, if_false, Bool.false_eq_true] at hr
  have hi0 : Inv { p.sys with tree := upd p.sys.tree 0 Tree.empty } := reset_inv hi 0
  have ht1 : upd p.sys.tree 0 Tree.empty 1 = p.sys.tree 1 := by simp [upd]
  have ht0 : (upd p.sys.tree 0 Tree.empty 0).ids = [] := by simp [upd, Tree.empty]
  cases hp : push { p.sys with tree := upd p.sys.tree 0 Tree.empty } 0 c (-1) with
  | none =>
    rw [hp] at hr
    rw [hr]
    refine ⟨hi0, ?_, ⟨⟨0, Or.inl ht0, fun h => absurd ht0 h⟩, fun _ => ⟨rfl, hf, hb⟩⟩, ht1,
      fun _ _ => rfl, rfl, rfl, rfl⟩
    intro k hk
    show (upd p.sys.tree 0 Tree.empty k).ids = []
    rw [upd_ne _ _ (by omega)]; exact ho k hk
  | some x =>
    obtain ⟨i, s'⟩ := x
    rw [hp] at hr
    obtain ⟨hi', hfr, hids, hq, hpar, hfresh⟩ := push_spec hi0 hp
    obtain ⟨hgr, _⟩ := grown_root (E := Checked env) hi0 ht0 hp
    rw [hr]
    refine ⟨hi', ?_, ⟨⟨i, Or.inr hgr, fun _ => ⟨rfl, fun _ => hq⟩⟩, fun _ => ⟨rfl, hf, hb⟩⟩, ?_, ?_,
      rfl, rfl, rfl⟩
    · intro k hk
      show (s'.tree k).ids = []
      rw [hfr.other k (by omega)]
      show (upd p.sys.tree 0 Tree.empty k).ids = []
      rw [upd_ne _ _ (by omega)]; exact ho k hk
    · show s'.tree 1 = _
      rw [hfr.other 1 (by omega)]; exact ht1
    · intro j hj
      exact hfr.same 1 j (by show j ∈ (upd p.sys.tree 0 Tree.empty 1).ids; rw [ht1]; exact hj)

theorem setGoal_spec (p : Planner Q) (c : Q) :
    GoalFlag env (setGoal env p c).2 (some c) ∧ (setGoal env p c).2.sys = p.sys ∧
      (setGoal env p c).2.startNode = p.startNode ∧ (setGoal env p c).2.startCfg = p.startCfg ∧
      (setGoal env p c).2.startValid = p.startValid ∧ (setGoal env p c).2.goalNode = p.goalNode ∧
      (setGoal env p c).2.goalCfg = c ∧
      ((setGoal env p c).1 = (setGoal env p c).2.goalValid) := by
  unfold setGoal
  by_cases hf : env.free c = true
  · by_cases hb : env.inBd c = true
    · simp only [hf, hb, Bool.not_true, if_false, Bool.false_eq_true]
      exact ⟨fun _ => ⟨rfl, hf, hb⟩, by simp⟩
    · simp only [hf, hb, Bool.not_true, if_false, Bool.false_eq_true, Bool.not_false, if_true]
      exact ⟨fun h => by simp at h, by simp⟩
  · simp only [hf, Bool.not_false, if_true]
    exact ⟨fun h => by simp at h, by simp⟩

theorem startOK_congr {p p' : Planner Q} {st : Option Q} (h : StartOK env p st) (h1 : p'.sys = p.sys)
    (h2 : p'.startNode = p.startNode) (h3 : p'.startCfg = p.startCfg)
    (h4 : p'.startValid = p.startValid) : StartOK env p' st := by
  refine ⟨?_, ?_⟩
  · rw [h1, h2, h3, h4]; exact h.tree
  · rw [h3, h4]; exact h.valid

/-- Same trees, start and goal settings; only solution (and nothing else) may differ. -/
theorem createSolution_same (p : Planner Q) :
    ∃ sol, (createSolution p).2 = { p with solution := sol } := by
  unfold createSolution
  split
  · exact ⟨p.solution, rfl⟩
  · split
    · exact ⟨p.solution, rfl⟩
    · split
      · split
        · exact ⟨p.solution, rfl⟩
        · exact ⟨p.solution, rfl⟩
        · exact ⟨_, rfl⟩
      · exact ⟨p.solution, rfl⟩

theorem rinv_solution {p : Planner Q} {st gl : Option Q} (h : RInv env p st gl)
    (sol : Option (List Q)) : RInv env { p with solution := sol } st gl :=
  ⟨h.inv, h.others, startOK_congr h.start rfl rfl rfl rfl, h.goal⟩

theorem getSolution_same (p : Planner Q) :
    ∃ sol, (getSolution p).2 = { p with solution := sol } := by
  obtain ⟨sol, e⟩ := createSolution_same p
  unfold getSolution getSolutionWith
  by_cases h : p.solution.isSome = true
  · simp only [h, if_true]
    cases p.solution <;> exact ⟨p.solution, rfl⟩
  · simp only [h, Bool.false_eq_true, if_false]
    refine ⟨sol, ?_⟩
    revert e
    generalize createSolution p = x
    obtain ⟨res, p'⟩ := x
    rintro rfl
    cases res <;> first | rfl | (cases sol <;> rfl)

/-! ## The extension loop of `Rrt::plan` -/

/-- The planner after one extension. -/
theorem rinv_grow (ok : EnvOK env Near) (mode : Mode) (cut : Bool) (c : Q) {p : Planner Q}
    {st gl : Option Q} (h : RInv env p st gl) (gn : Option Nat) :
    let g := grow env mode cut p.sys 0 p.lastAddedID c
    RInv env { p with sys := g.1, lastAddedID := g.2.1, goalNode := gn } st gl ∧
    (g.2.2 = .success ∨ g.2.2 = .part → ∃ i r : Nat, g.2.1 = (i : Int) ∧ p.startNode = some r ∧
      Grown (Checked env) g.1 0 r ∧ i ∈ (g.1.tree 0).ids ∧ i ≠ r ∧
      (g.2.2 = .success → Near (g.1.pool.node i).config c)) := by
  intro g
  obtain ⟨r, hge, hr⟩ := h.start.tree
  obtain ⟨h1, h2, h3, h4, h5, h6⟩ := grow_spec' ok mode cut p.lastAddedID c h.inv hge
  have hne : (g.1.tree 0).ids ≠ [] → (p.sys.tree 0).ids ≠ [] := fun hn h0 => hn (h4 h0).1
  have hgr : (p.sys.tree 0).ids ≠ [] → Grown (Checked env) p.sys 0 r := fun hn => hge.resolve_left hn
  refine ⟨⟨h1, ?_, ⟨⟨r, h2, ?_⟩, h.start.valid⟩, h.goal⟩, ?_⟩
  · intro k hk
    show (g.1.tree k).ids = []
    rw [h3.other k (by omega)]; exact h.others k hk
  · intro hn
    have hn' := hne hn
    refine ⟨(hr hn').1, fun hv => ?_⟩
    show (g.1.pool.node r).config = _
    rw [h3.same 0 r (hgr hn').mem]; exact (hr hn').2 hv
  · intro hs
    obtain ⟨i, w1, w2, w3, w4⟩ := h5 hs
    have hn' : (p.sys.tree 0).ids ≠ [] := hne (List.ne_nil_of_mem w2)
    refine ⟨i, r, w1, (hr hn').1, ?_, w2, ?_, w4⟩
    · rcases h2 with h0 | h2
      · rw [h0] at w2; simp at w2
      · exact h2
    · rintro rfl; exact w3 0 (hgr hn').mem

/-- A loop that ends with success leaves a goal node in the tree. -/
def Hit (env : Env Q K) (Near : Q → Q → Prop) (p : Planner Q) : Prop :=
  ∃ i r : Nat, p.goalNode = some i ∧ p.startNode = some r ∧ Grown (Checked env) p.sys 0 r ∧
    i ∈ (p.sys.tree 0).ids ∧ i ≠ r ∧ Near (p.sys.pool.node i).config p.goalCfg

theorem planCycle_spec (ok : EnvOK env Near) (mode : Mode) (it : Item Q) {st gl : Option Q}
    (p : Planner Q) (h : RInv env p st gl) :
    RInv env (planCycle env mode it p).2 st gl ∧
      (planCycle env mode it p).2.startCfg = p.startCfg ∧
      (planCycle env mode it p).2.startValid = p.startValid ∧
      (planCycle env mode it p).2.goalCfg = p.goalCfg ∧
      (planCycle env mode it p).2.goalValid = p.goalValid ∧
      ((planCycle env mode it p).1 = .leave (.ret true) → Hit env Near (planCycle env mode it p).2) := by
  have hR := fun gn => (rinv_grow ok mode it.cut (if it.toGoal then p.goalCfg else it.rnd) h gn).1
  have hS := (rinv_grow ok mode it.cut (if it.toGoal then p.goalCfg else it.rnd) h p.goalNode).2
  unfold planCycle
  revert hR hS
  generalize grow env mode it.cut p.sys 0 p.lastAddedID (if it.toGoal then p.goalCfg else it.rnd) = g
  obtain ⟨s', last', x⟩ := g
  intro hR hS
  dsimp only at hR hS ⊢
  by_cases hu : x = .undef
  · simp only [hu, if_true]
    exact ⟨hR p.goalNode, by trivial, by trivial, by trivial, by trivial, fun h => by simp at h⟩
  by_cases ht : x = .throws
  · simp only [ht, if_true, reduceCtorEq, if_false]
    exact ⟨hR p.goalNode, by trivial, by trivial, by trivial, by trivial, fun h => by simp at h⟩
  simp only [hu, ht, if_false]
  by_cases hhit : (it.toGoal && decide (x = .success)) = true
  · simp only [hhit, if_true, Bool.true_and]
    simp only [Bool.and_eq_true, decide_eq_true_eq] at hhit
    obtain ⟨hg, hx⟩ := hhit
    obtain ⟨i, r, w1, w2, w3, w4, w5, w6⟩ := hS (Or.inl hx)
    subst w1
    have hi := (hR p.goalNode).inv.idsLt 0 i w4
    have hn : s'.pool.getNode ((i : Int)).toNat = some i := by
      unfold Pool.getNode; rw [Int.toNat_natCast, if_neg (by exact Nat.not_le.mpr hi)]
    simp only [hn]
    have hfin : Hit env Near { p with sys := s', lastAddedID := (i : Int), goalNode := some i } :=
      ⟨i, r, rfl, w2, w3, w4, w5, by simpa [hg] using w6 hx⟩
    by_cases hto : it.timeout = true
    · simp only [hto, if_true]
      exact ⟨hR (some i), by trivial, by trivial, by trivial, by trivial, fun _ => hfin⟩
    · simp only [hto, Option.isSome_some, if_true]
      exact ⟨hR (some i), by trivial, by trivial, by trivial, by trivial, fun _ => hfin⟩
  · simp only [hhit, Bool.false_and, if_false, Bool.false_eq_true]
    have := hR p.goalNode
    split
    · exact ⟨this, by trivial, by trivial, by trivial, by trivial, fun h => by simp at h⟩
    · split
      · exact ⟨this, by trivial, by trivial, by trivial, by trivial, fun h => by simp at h⟩
      · exact ⟨this, by trivial, by trivial, by trivial, by trivial, fun h => by simp at h⟩

theorem planLoop_spec (ok : EnvOK env Near) (mode : Mode) (item : Nat → Item Q) {st gl : Option Q} :
    ∀ (n cyc : Nat) (p : Planner Q), RInv env p st gl →
      RInv env (planLoop env mode item n cyc p).2 st gl ∧
      (planLoop env mode item n cyc p).2.startCfg = p.startCfg ∧
      (planLoop env mode item n cyc p).2.startValid = p.startValid ∧
      (planLoop env mode item n cyc p).2.goalCfg = p.goalCfg ∧
      (planLoop env mode item n cyc p).2.goalValid = p.goalValid ∧
      ((planLoop env mode item n cyc p).1 = .ret true →
        Hit env Near (planLoop env mode item n cyc p).2) := by
  intro n
  induction n with
  | zero =>
    intro cyc p h
    have hc := planCycle_spec ok mode (item cyc) p h
    unfold planLoop
    revert hc
    generalize planCycle env mode (item cyc) p = c
    obtain ⟨c, p'⟩ := c
    rintro ⟨h1, h2, h3, h4, h5, h6⟩
    cases c with
    | leave r => exact ⟨h1, h2, h3, h4, h5, fun e => h6 (by rw [← e])⟩
    | go => exact ⟨h1, h2, h3, h4, h5, fun e => by simp at e⟩
  | succ n ih =>
    intro cyc p h
    have hc := planCycle_spec ok mode (item cyc) p h
    unfold planLoop
    revert hc
    generalize planCycle env mode (item cyc) p = c
    obtain ⟨c, p'⟩ := c
    rintro ⟨h1, h2, h3, h4, h5, h6⟩
    cases c with
    | leave r => exact ⟨h1, h2, h3, h4, h5, fun e => h6 (by rw [← e])⟩
    | go =>
      obtain ⟨i1, i2, i3, i4, i5, i6⟩ := ih (cyc + 1) p' h1
      exact ⟨i1, i2.trans h2, i3.trans h3, i4.trans h4, i5.trans h5, i6⟩

/-! ## Solutions -/

/-- Reading a line of ancestors backwards gives a checked path. -/
theorem line_path {s : Sys Q} {l : List Nat}
    (h : l.IsChain fun a b => (s.pool.node a).parent = (b : Int) ∧
      Checked env (s.pool.node b).config (s.pool.node a).config) :
    (l.reverse.map fun i => (s.pool.node i).config).IsChain (Checked env) := by
  rw [List.isChain_map, List.isChain_reverse]
  exact h.imp fun _ _ h => h.2

theorem createSolution_hit {p : Planner Q} {st gl : Option Q} (h : RInv env p st gl)
    (hh : Hit env Near p) (hv : p.startValid = true) : ∃ l,
      createSolution p = (.ret true, { p with solution := some l }) ∧
      l.head? = some p.startCfg ∧ (∃ e, l.getLast? = some e ∧ Near e p.goalCfg) ∧
      l.IsChain (Checked env) := by
  obtain ⟨i, r, h1, h2, h3, h4, h5, h6⟩ := hh
  obtain ⟨c, hc1, hc2, hc3, hc4⟩ := ancestors' h3 h4
  have hpar : ¬ (p.sys.pool.node i).parent < 0 := by
    cases c with
    | nil => simp at hc2; exact absurd hc2 h5
    | cons y c => rw [List.isChain_cons_cons] at hc4; rw [hc4.1.1]; omega
  have hloop := solLoop_line h.inv h3.root c i ((p.sys.tree 0).nrOfNodes + 1) [i] (by omega) h5 hc2 hc3
    (hc4.imp fun _ _ h => h.1)
  have hcfg : (p.sys.pool.node r).config = p.startCfg := by
    obtain ⟨r', _, hr'⟩ := h.start.tree
    obtain ⟨e1, e2⟩ := hr' (List.ne_nil_of_mem h4)
    rw [h2] at e1
    obtain rfl := Option.some.inj e1
    exact e2 hv
  refine ⟨((i :: c).reverse.map fun j => (p.sys.pool.node j).config), ?_, ?_, ?_, line_path hc4⟩
  · unfold createSolution
    rw [h1]
    dsimp only
    rw [if_neg hpar, getNode_mem h.inv h4, h2]
    dsimp only
    rw [hloop]
    rfl
  · rw [List.head?_map, List.head?_reverse, hc2]
    simp [hcfg]
  · refine ⟨_, ?_, h6⟩
    simp

/-! ## Histories of an `Rrt` -/

theorem plan_spec (ok : EnvOK env Near) (mode : Mode) (sched : Sched Q) {st gl : Option Q}
    {p : Planner Q} (h : RInv env p st gl) :
    RInv env (plan env mode sched p).2 st gl ∧
    ((plan env mode sched p).1 = .ret true → ∃ a b l, st = some a ∧ gl = some b ∧
      env.free a = true ∧ env.inBd a = true ∧ env.free b = true ∧ env.inBd b = true ∧
      (plan env mode sched p).2.solution = some l ∧
      l.head? = some a ∧ (∃ e, l.getLast? = some e ∧ Near e b) ∧ l.IsChain (Checked env)) := by
  unfold plan
  by_cases hv : (p.startValid && p.goalValid) = true
  swap
  · simp only [hv, Bool.not_false, if_true]
    exact ⟨h, fun e => by simp at e⟩
  simp only [hv, Bool.not_true, if_false, Bool.false_eq_true]
  simp only [Bool.and_eq_true] at hv
  have hl := planLoop_spec ok mode sched.item (sched.maxCycles - 1) 0 { p with solution := none }
    (rinv_solution h none)
  revert hl
  generalize planLoop env mode sched.item (sched.maxCycles - 1) 0 { p with solution := none } = x
  obtain ⟨res, p'⟩ := x
  rintro ⟨i1, i2, i3, i4, i5, i6⟩
  dsimp only at i1 i2 i3 i4 i5 i6
  cases res with
  | ret b =>
    cases b with
    | false => exact ⟨i1, fun e => by simp at e⟩
    | true =>
      obtain ⟨l, e, hh, hlast, hch⟩ := createSolution_hit i1 (i6 rfl) (i3.trans hv.1)
      simp only [e]
      refine ⟨rinv_solution i1 _, fun _ => ?_⟩
      obtain ⟨s1, s2, s3⟩ := i1.start.valid (i3.trans hv.1)
      obtain ⟨g1, g2, g3⟩ := i1.goal (i5.trans hv.2)
      exact ⟨_, _, l, s1, g1, s2, s3, g2, g3, rfl, hh, hlast, hch⟩
  | throws => exact ⟨i1, fun e => by simp at e⟩
  | undef => exact ⟨i1, fun e => by simp at e⟩
  | diverges => exact ⟨i1, fun e => by simp at e⟩

/-- The argument of the last `setStart`, updated by one more call. -/
def nextStart (st : Option Q) : Op Q → Option Q
  | .setStart c => some c
  | .reset => none
  | _ => st

def nextGoal (gl : Option Q) : Op Q → Option Q
  | .setGoal c => some c
  | .reset => none
  | _ => gl

theorem step_rinv (ok : EnvOK env Near) (mode : Mode) {st gl : Option Q} {p p' : Planner Q}
    (h : RInv env p st gl) (op : Op Q) (e : step env mode p op = some p') :
    RInv env p' (nextStart st op) (nextGoal gl op) := by
  cases op with
  | setStart c =>
    simp only [step, Option.some.injEq] at e
    subst e
    obtain ⟨h1, h2, h3, h4, h5, h6, h7, h8⟩ := setStart_spec h.inv h.others c h.start
    refine ⟨h1, h2, h3, ?_⟩
    intro hv
    rw [h7] at hv
    rw [h6]; exact h.goal hv
  | setGoal c =>
    simp only [step, Option.some.injEq] at e
    subst e
    obtain ⟨h1, h2, h3, h4, h5, h6, h7, h8⟩ := setGoal_spec (env := env) p c
    exact ⟨by rw [h2]; exact h.inv, by rw [h2]; exact h.others, startOK_congr h.start h2 h3 h4 h5, h1⟩
  | plan sched =>
    have hp := (plan_spec ok mode sched h).1
    simp only [step] at e
    revert e hp
    generalize plan env mode sched p = x
    obtain ⟨res, p1⟩ := x
    intro e hp
    cases res <;> simp at e
    · subst e; exact hp
    · subst e; exact hp
  | getSolution =>
    obtain ⟨sol, es⟩ := getSolution_same p
    have hp := rinv_solution h sol
    simp only [step] at e
    revert e es
    generalize getSolution p = x
    obtain ⟨res, p1⟩ := x
    intro e es
    dsimp only at es
    rw [← es] at hp
    cases res <;> simp at e
    · subst e; exact hp
    · subst e; exact hp
  | reset =>
    simp only [step, Option.some.injEq] at e
    subst e
    obtain ⟨h1, h2⟩ := reset_inv' h.inv h.others
    exact ⟨h1, fun k _ => h2 k, ⟨⟨0, Or.inl (h2 0), fun hn => absurd (h2 0) hn⟩,
      fun hv => by simp [reset] at hv⟩, fun hv => by simp [reset] at hv⟩

theorem new_rinv (cap : Nat) (q0 : Q) : RInv env (Planner.new cap q0) none none :=
  ⟨new_inv cap q0, fun _ _ => rfl, ⟨⟨0, Or.inl rfl, fun h => absurd rfl h⟩,
    fun hv => by simp [Planner.new] at hv⟩, fun hv => by simp [Planner.new] at hv⟩

theorem run_rinv (ok : EnvOK env Near) (mode : Mode) : ∀ (ops : List (Op Q)) (p p' : Planner Q)
    (st gl : Option Q), RInv env p st gl → run env mode p ops = some p' →
    RInv env p' (ops.foldl nextStart st) (ops.foldl nextGoal gl) := by
  intro ops
  induction ops with
  | nil => intro p p' st gl h e; simp only [run, Option.some.injEq] at e; subst e; exact h
  | cons op ops ih =>
    intro p p' st gl h e
    unfold run at e
    cases hs : step env mode p op with
    | none => rw [hs] at e; simp at e
    | some p1 =>
      rw [hs] at e
      exact ih p1 p' _ _ (step_rinv ok mode h op hs) e

theorem lastStart_eq (ops : List (Op Q)) : ops.foldl nextStart none = lastStart ops := by
  unfold lastStart
  congr 1

theorem lastGoal_eq (ops : List (Op Q)) : ops.foldl nextGoal none = lastGoal ops := by
  unfold lastGoal
  congr 1

end Simox.Rrt
