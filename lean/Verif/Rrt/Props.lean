import Verif.Rrt.Lemmas3
import Verif.Rrt.Sampled

/-!
# C23, C24, C25: what the RRT planners return
-/

set_option linter.unusedSectionVars false

namespace Simox.Rrt

open Simox.Planning Spec

variable {Q K : Type} [LT K] [DecidableRel (α := K) (· < ·)] (env : Env Q K) {Near : Q → Q → Prop}

/-! ## C23 -/

/-- **C23.** After any history of calls on an `Rrt`, for every planner mode, node capacity, cycle limit,
and every sequence of random choices, stop requests and timeouts: if `plan` returns true, then start and
goal were set (and not reset since) to configurations that are collision free and within the boundaries,
and `getSolution` returns a path that begins with the start last set, ends at (close to) the goal last
set, and all of whose segments are checked local paths. -/
theorem C23_rrt_solution (ok : EnvOK env Near) (mode : Mode) (cap : Nat) (q0 : Q)
    (hist : List (Op Q)) (p : Planner Q) (hrun : run env mode (Planner.new cap q0) hist = some p)
    (sched : Sched Q) (p' : Planner Q) (hplan : plan env mode sched p = (.ret true, p')) :
    ∃ a b l, lastStart hist = some a ∧ lastGoal hist = some b ∧
      env.free a = true ∧ env.inBd a = true ∧ env.free b = true ∧ env.inBd b = true ∧
      getSolution p' = (.path l, p') ∧
      l.head? = some a ∧ (∃ e, l.getLast? = some e ∧ Near e b) ∧ l.IsChain (Checked env) := by
  have h := run_rinv ok mode hist _ p none none (new_rinv cap q0) hrun
  rw [lastStart_eq, lastGoal_eq] at h
  obtain ⟨_, h2⟩ := plan_spec ok mode sched h
  rw [hplan] at h2
  obtain ⟨a, b, l, w1, w2, w3, w4, w5, w6, w7, w8, w9, w10⟩ := h2 rfl
  refine ⟨a, b, l, w1, w2, w3, w4, w5, w6, ?_, w8, w9, w10⟩
  dsimp only at w7
  simp [getSolution, getSolutionWith, w7]

/-- **C23** for the sampled C-space of the library: consecutive configurations of the solution are points
of a local path whose ends are joined by a way of collision-free configurations in steps of at most 1.001
DCD sampling sizes, or the second one is itself collision free. -/
theorem C23_sampled_solution {n : Nat} (P : Setup n) (ok : P.OK) (buf : Nat → CSpace.Config n)
    (mode : Mode) (cap : Nat) (q0 : CSpace.Config n) (hist : List (Op (CSpace.Config n)))
    (p : Planner (CSpace.Config n))
    (hrun : run (P.env buf) mode (Planner.new cap q0) hist = some p)
    (sched : Sched (CSpace.Config n)) (p' : Planner (CSpace.Config n))
    (hplan : plan (P.env buf) mode sched p = (.ret true, p')) :
    ∃ a b l, lastStart hist = some a ∧ lastGoal hist = some b ∧ P.free a = true ∧ P.free b = true ∧
      P.space.isInBoundary a ∧ P.space.isInBoundary b ∧
      getSolution p' = (.path l, p') ∧ l.head? = some a ∧
      (∃ e, l.getLast? = some e ∧ (e = b ∨ P.space.calcDist e b false < 1e-6)) ∧
      l.IsChain fun u v =>
        (∃ s t way, Consecutive ((P.env buf).path s t) u v ∧
          CSpace.Spec.ValidWay (fun x y => P.space.calcDist x y false)
            (fun c => P.free c = true ∧ P.cons c = true) (P.dcd * 1.001) s t way) ∨
        (P.free v = true ∧ P.cons v = true) := by
  obtain ⟨a, b, l, w1, w2, w3, w4, w5, w6, w7, w8, w9, w10⟩ := C23_rrt_solution (P.env buf)
    (P.envOK ok buf) mode cap q0 hist p hrun sched p' hplan
  have hvN : ∀ c, P.validN c ↔ (P.free c = true ∧ P.cons c = true) := by
    intro c; unfold Setup.validN CSpace.isConfigValid; simp
  refine ⟨a, b, l, w1, w2, w3, w5, by simpa [Setup.env] using w4, by simpa [Setup.env] using w6, w7, w8,
    w9, w10.imp ?_⟩
  rintro u v (⟨s, t, hv, hc⟩ | ⟨s, t, hc⟩)
  · left
    obtain ⟨_, way, hw⟩ := CSpace.C22_valid_sound P.space.geo P.validN P.dcd (fun _ => false) s t buf hv
    exact ⟨s, t, way, hc, ⟨hw.last, hw.spaced, fun c hc => (hvN c).mp (hw.valid c hc)⟩⟩
  · right
    rw [← hvN]
    obtain ⟨l1, l2, e⟩ := hc
    by_cases hd : P.space.calcDist s t false = 0
    · have : settled (P.space.geo.createPathUntilInvalid P.validB P.validN P.dcd P.ss s t) ⟨[s], 0⟩ =
          { points := [s], added := 1 } :=
        settled_eq (N := 0) fun k _ => CSpace.C39_zero_distance_unchecked _ _ _ _ _ _ _ hd k
      simp only [Setup.env, this] at e
      have := congrArg List.length e
      simp at this; omega
    · obtain ⟨res, x, way, N, hN, h1, h2, h3, _⟩ := CSpace.C39_until_invalid P.space ok.noTrans P.validB
        P.validN P.validB_validN ok.dcd P.ss s t hd
      simp only [Setup.env, settled_eq hN, h1] at e
      apply h3
      apply h2.subset
      cases l1 with
      | nil => simp only [List.nil_append, List.cons.injEq] at e; rw [e.2]; simp
      | cons y l1 => simp only [List.cons_append, List.cons.injEq] at e; rw [e.2]; simp

/-! ## C24 -/

/-- **C24.** After any history of calls on a `BiRrt` in which no goal is set after a planning attempt
(unless the planner was reset in between), for all modes, capacities, limits and streams: if `plan`
returns true, start and goal were set to collision-free configurations within the boundaries, and
`getSolution` returns a path from the start to exactly the goal made of two halves that meet (up to
`Near`): segments checked from start to goal, then segments checked from goal to start.

Missing for the full claim: histories that set a goal after a planning attempt, for which it is false
(`C24_goal_after_success_ignored`, `C24_goal_after_failure_unchecked`). -/
theorem C24_birrt_solution_partial (ok : EnvOK env Near) (mode mode2 : Mode) (cap : Nat) (q0 : Q)
    (hist : List (Op Q)) (hgoal : goalsBeforePlans false hist) (p : Planner Q)
    (hrun : biRun env mode mode2 (Planner.new cap q0) hist = some p)
    (sched : Sched Q) (p' : Planner Q) (hplan : biPlan env mode mode2 sched p = (.ret true, p')) :
    ∃ a b l, lastStart hist = some a ∧ lastGoal hist = some b ∧
      env.free a = true ∧ env.inBd a = true ∧ env.free b = true ∧ env.inBd b = true ∧
      biGetSolution p' = (.path l, p') ∧ BiPath env Near a b l := by
  obtain ⟨bb, h⟩ := biRun_binv ok mode mode2 hist _ p none none false (new_binv cap q0) hgoal hrun
  rw [lastStart_eq, lastGoal_eq] at h
  obtain ⟨_, h2⟩ := biPlan_spec ok mode mode2 sched h
  rw [hplan] at h2
  obtain ⟨a, b, l, w1, w2, w3, w4, w5, w6, w7, w8⟩ := h2 rfl
  refine ⟨a, b, l, w1, w2, w3, w4, w5, w6, ?_, w8⟩
  dsimp only at w7
  simp [biGetSolution, getSolutionWith, w7]

/-- **C24**, the path itself: if local paths end exactly where asked to (`Near` is equality) and checked
segments may be travelled in both directions, the solution is one uninterrupted checked path from start
to goal, in which the meeting configuration appears once. -/
theorem C24_exact_meeting (a b : Q) (l : List Q) (hsym : ∀ u v, Checked env u v → Checked env v u)
    (h : BiPath env Eq a b l) :
    l.head? = some a ∧ l.getLast? = some b ∧ l.IsChain (Checked env) := by
  obtain ⟨l1, l2, m1, m2, rfl, h1, h2, h3, h4, h5, h6⟩ := h
  have hm : m1 = m2 := h4.elim id Eq.symm
  subst hm
  have hne : l1 ≠ [] := by rintro rfl; simp at h1
  refine ⟨by rw [List.head?_append_of_ne_nil _ hne]; exact h1, ?_, ?_⟩
  · cases l2 with
    | nil => simp at h5; rw [List.append_nil, h2, h5]
    | cons x l2 =>
      rw [List.getLast?_cons_cons] at h5
      rw [List.getLast?_append, h5]; rfl
  · have h6' : (m1 :: l2).IsChain (Checked env) := h6.imp fun _ _ h => hsym _ _ h
    cases l2 with
    | nil => simpa using h3
    | cons x l2 =>
      rw [List.isChain_cons_cons] at h6'
      rw [List.isChain_append]
      refine ⟨h3, h6'.2, ?_⟩
      intro y hy z hz
      rw [h2] at hy
      simp at hy hz
      subst hy; subst hz
      exact h6'.1

/-! ## C25 -/

/-- **C25** is violated: with start and goal equal, after whatever history, `Rrt::plan` never returns true,
for every mode, cycle limit and stream of random choices. (The nearest neighbour of the goal is always
the root; the local path from a configuration to itself has one point, which counts as an error.) -/
theorem C25_start_is_goal_never_succeeds {K : Type} [LinearOrder K] (env : Env Q K) (ok : EnvOK env Near)
    (a : Q) (hself : env.path a a = [a] ∧ (env.pathUntil a a).1 = [a] ∧ env.far a a = false)
    (hd : ∀ q, env.d2 a a ≤ env.d2 a q)
    (mode : Mode) (cap : Nat) (q0 : Q) (hist : List (Op Q)) (p : Planner Q)
    (hrun : run env mode (Planner.new cap q0) hist = some p)
    (hs : lastStart hist = some a) (hg : lastGoal hist = some a) (sched : Sched Q) :
    (plan env mode sched p).1 ≠ .ret true := by
  obtain ⟨h1, h2, h3⟩ := hself
  have h := run_rinv ok mode hist _ p none none (new_rinv cap q0) hrun
  rw [lastStart_eq, lastGoal_eq, hs, hg] at h
  -- the nearest neighbour of the goal is the root
  have near : ∀ (p : Planner Q), RInv env p (some a) (some a) → p.startValid = true → ∀ nn,
      nearestNeighbor p.sys.pool (p.sys.tree 0) env.d2 a = some nn →
      (p.sys.pool.node nn).config = a := by
    intro p h hv nn e
    have hm := nearest_mem h.inv e
    obtain ⟨r, hge, hr⟩ := h.start.tree
    have hne := List.ne_nil_of_mem hm
    have hgr := hge.resolve_left hne
    have hcfg := (hr hne).2 hv
    have hsa : p.startCfg = a := by
      have := (h.start.valid hv).1; exact (Option.some.inj this).symm
    rw [hsa] at hcfg
    -- the root is the first node
    cases hids : (p.sys.tree 0).ids with
    | nil => exact absurd hids hne
    | cons x xs =>
      have hx : x = r := by
        rcases hgr.par [] x xs hids with hx | ⟨y, hy, _⟩
        · exact hx
        · simp at hy
      subst hx
      unfold nearestNeighbor nearestNeighborID Tree.getNode at e
      rw [hids] at e
      dsimp only at e
      have key : ∀ (l : List Nat), nearestLoop (fun j => env.d2 a (p.sys.pool.node j).config) x
          (env.d2 a (p.sys.pool.node x).config) l = x := by
        intro l
        induction l with
        | nil => rfl
        | cons i l ih =>
          unfold nearestLoop
          rw [if_neg (by rw [hcfg]; exact not_lt.mpr (hd _))]
          exact ih
      rw [key, h.inv.mapOk, hids] at e
      simp at e
      subst e; exact hcfg
  -- hence no extension towards the goal succeeds
  have fails : ∀ (p : Planner Q), RInv env p (some a) (some a) → p.startValid = true → ∀ cut,
      (grow env mode cut p.sys 0 p.lastAddedID a).2.2 ≠ .success := by
    intro p h hv cut
    cases e : nearestNeighbor p.sys.pool (p.sys.tree 0) env.d2 a with
    | none => cases mode <;> simp [grow, extend, connectUntil, connectComplete, e]
    | some nn =>
      have hc := near p h hv nn e
      cases mode with
      | extend =>
        simp only [grow, extend, e, hc, h3, if_false, Bool.false_eq_true, h1, appendLocal]
        split <;> simp
      | connect => simp [grow, connectUntil, e, hc, h2]
      | connectComplete =>
        simp only [grow, connectComplete, e, hc, h1, appendLocal]
        split <;> simp
  have cyc : ∀ (p : Planner Q) it, RInv env p (some a) (some a) → p.startValid = true →
      p.goalCfg = a → (planCycle env mode it p).1 ≠ .leave (.ret true) := by
    intro p it h hv hga
    unfold planCycle
    by_cases ht : it.toGoal = true
    · have hf := fails p h hv it.cut
      simp only [ht, if_true, hga]
      revert hf
      generalize grow env mode it.cut p.sys 0 p.lastAddedID a = g
      obtain ⟨s', last', x⟩ := g
      intro hf
      dsimp only at hf ⊢
      cases x <;> simp at hf ⊢ <;> (repeat' split) <;> simp
    · simp only [ht]
      generalize grow env mode it.cut p.sys 0 p.lastAddedID _ = g
      obtain ⟨s', last', x⟩ := g
      dsimp only
      cases x <;> simp <;> (repeat' split) <;> simp
  have loop : ∀ n c (p : Planner Q), RInv env p (some a) (some a) → p.startValid = true →
      p.goalCfg = a → (planLoop env mode sched.item n c p).1 ≠ .ret true := by
    intro n
    induction n with
    | zero =>
      intro c p h hv hga
      have := cyc p (sched.item c) h hv hga
      unfold planLoop
      revert this
      generalize planCycle env mode (sched.item c) p = x
      obtain ⟨x, p'⟩ := x
      intro hx
      cases x with
      | leave r => intro e; exact hx (by rw [← e])
      | go => simp
    | succ n ih =>
      intro c p h hv hga
      have := cyc p (sched.item c) h hv hga
      obtain ⟨s1, _, s3, s4, _, _⟩ := planCycle_spec ok mode (sched.item c) p h
      unfold planLoop
      revert this s1 s3 s4
      generalize planCycle env mode (sched.item c) p = x
      obtain ⟨x, p'⟩ := x
      intro hx s1 s3 s4
      cases x with
      | leave r => intro e; exact hx (by rw [← e])
      | go => exact ih (c + 1) p' s1 (s3.trans hv) (s4.trans hga)
  unfold plan
  by_cases hv : (p.startValid && p.goalValid) = true
  swap
  · simp [hv]
  simp only [hv, Bool.not_true, if_false, Bool.false_eq_true]
  simp only [Bool.and_eq_true] at hv
  have hga : p.goalCfg = a := (Option.some.inj (h.goal hv.2).1).symm
  have := loop (sched.maxCycles - 1) 0 { p with solution := none } (rinv_solution h none) hv.1 hga
  revert this
  generalize planLoop env mode sched.item (sched.maxCycles - 1) 0 { p with solution := none } = x
  obtain ⟨res, p'⟩ := x
  intro hx
  split
  · rename_i e; simp at e; exact absurd e.1 hx
  · exact hx

/-- **C25** is violated on every sampled C-space. -/
theorem C25_sampled_never_succeeds {n : Nat} (P : Setup n) (ok : P.OK) (buf : Nat → CSpace.Config n)
    (a : CSpace.Config n) (mode : Mode) (cap : Nat) (q0 : CSpace.Config n)
    (hist : List (Op (CSpace.Config n))) (p : Planner (CSpace.Config n))
    (hrun : run (P.env buf) mode (Planner.new cap q0) hist = some p)
    (hs : lastStart hist = some a) (hg : lastGoal hist = some a) (sched : Sched (CSpace.Config n)) :
    (plan (P.env buf) mode sched p).1 ≠ .ret true :=
  C25_start_is_goal_never_succeeds (P.env buf) (P.envOK ok buf) a (P.path_self ok buf a)
    (P.d2_self buf a) mode cap q0 hist p hrun hs hg sched

/-! ## A small C-space, for examples and counterexamples -/

/-- The integers with a wall between 49 and 50: a local path is valid if it does not cross the wall. -/
def wallEnv : Env Int Nat where
  free _ := true
  inBd c := decide (-1000 ≤ c ∧ c ≤ 1000)
  d2 a b := (a - b).natAbs
  far _ _ := false
  toward _ b := b
  pathValid a b := decide (a < 50 ↔ b < 50)
  path a b := if a = b then [a] else [a, b]
  pathUntil a b := if a = b then ([a], true) else if a < 50 ↔ b < 50 then ([a, b], true) else ([a], false)

theorem wallEnv_ok : EnvOK wallEnv Eq := by
  refine ⟨?_, ?_, ?_, ?_⟩
  · intro u v; simp only [wallEnv]; split <;> rfl
  · intro u v e h1 h2
    simp only [wallEnv] at h1 h2
    split at h1
    · simp at h1
    · rename_i h; rw [if_neg h] at h2; simpa using h2.symm
  · intro u v; simp only [wallEnv]; split
    · rfl
    · split <;> rfl
  · intro u v e h0 h1 h2
    simp only [wallEnv] at h0 h1 h2
    by_cases h : u = v
    · simp [h] at h1
    · simp only [h, if_false] at h0 h1 h2
      split at h1
      · rename_i h'; rw [if_pos h'] at h2; simpa using h2.symm
      · simp at h1

/-- A cycle towards the goal. -/
def goGoal : Item Int := { toGoal := true, rnd := 0, cut := false, stop := false, timeout := false }
/-- A cycle towards a random configuration. -/
def goRnd (c : Int) : Item Int := { goGoal with toGoal := false, rnd := c }
/-- A cycle during which path checks are switched off. -/
def goCut : Item Int := { goGoal with toGoal := false, cut := true }
/-- A schedule of the given cycles. -/
def script (l : List (Item Int)) : Sched Int :=
  { maxCycles := l.length, item := fun i => l.getD i goCut }

/-- What a history of calls returns in the end: the result of a last `plan`, and the solution. -/
def verdict (hist : List (Op Int)) (l : List (Item Int)) : Option (Res × SolRes Int) :=
  (run wallEnv .connectComplete (Planner.new 10 0) hist).map fun p =>
    let r := plan wallEnv .connectComplete (script l) p
    (r.1, (getSolution r.2).1)

/-- The same for a `BiRrt`. -/
def biVerdict (hist : List (Op Int)) (l : List (Item Int)) : Option (Res × SolRes Int) :=
  (biRun wallEnv .connectComplete .connectComplete (Planner.new 10 0) hist).map fun p =>
    let r := biPlan wallEnv .connectComplete .connectComplete (script l) p
    (r.1, (biGetSolution r.2).1)

/-- `C23_rrt_solution` applies: a plan that succeeds after a random extension. -/
example : verdict [.setStart 0, .setGoal 10] [goRnd 7, goGoal] = some (.ret true, .path [0, 7, 10]) := by
  rfl

/-- `C23_rrt_solution` applies after a re-plan with another goal, reusing the tree. -/
example : verdict [.setStart 0, .setGoal 10, .plan (script [goGoal]), .setGoal 20] [goGoal] =
    some (.ret true, .path [0, 10, 20]) := by
  rfl

/-- `C24_birrt_solution_partial` applies. -/
example : biVerdict [.setStart 0, .setGoal 10] [goRnd 7] = some (.ret true, .path [0, 7, 10]) := by
  rfl

theorem wall_checked {u v : Int} (hne : u ≠ v) (h : u < 50 ↔ v < 50) : Checked wallEnv u v :=
  Or.inl ⟨u, v, by simp [wallEnv, h], ⟨[], [], by simp [wallEnv, hne]⟩⟩

/-- The hypotheses of `C24_exact_meeting` are met: segments may be travelled in both directions. -/
example : (∀ u v, Checked wallEnv u v → Checked wallEnv v u) ∧ BiPath wallEnv Eq 0 10 [0, 7, 10] := by
  refine ⟨?_, [0, 7], [10], 7, 7, rfl, rfl, rfl, ?_, Or.inl rfl, rfl, ?_⟩
  · have two : ∀ (a b u v : Int) l1 l2, [a, b] = l1 ++ u :: v :: l2 → a = u ∧ b = v := by
      intro a b u v l1 l2 e
      cases l1 with
      | nil => simp at e; exact ⟨e.1, e.2.1⟩
      | cons x l1 => have := congrArg List.length e; simp at this; omega
    have one : ∀ (a u v : Int) l1 l2, [a] ≠ l1 ++ u :: v :: l2 := by
      intro a u v l1 l2 e; have := congrArg List.length e; simp at this; omega
    rintro u v (⟨a, b, hv, l1, l2, e⟩ | ⟨a, b, l1, l2, e⟩)
    · simp only [wallEnv, decide_eq_true_eq] at hv e
      split at e
      · exact absurd e (one _ _ _ _ _)
      · rename_i hne
        obtain ⟨rfl, rfl⟩ := two _ _ _ _ _ _ e
        exact wall_checked (Ne.symm hne) hv.symm
    · simp only [wallEnv] at e
      split at e
      · exact absurd e (one _ _ _ _ _)
      · rename_i hne
        split at e
        · rename_i hv
          obtain ⟨rfl, rfl⟩ := two _ _ _ _ _ _ e
          exact wall_checked (Ne.symm hne) hv.symm
        · exact absurd e (one _ _ _ _ _)
  · simp only [List.isChain_cons_cons, List.isChain_singleton, and_true]
    exact wall_checked (by decide) (by decide)
  · simp only [List.isChain_cons_cons, List.isChain_singleton, and_true]
    exact wall_checked (by decide) (by decide)

/-- The hypotheses of `C25_start_is_goal_never_succeeds` are met, and the planner is initialised. -/
example : (wallEnv.path 3 3 = [3] ∧ (wallEnv.pathUntil 3 3).1 = [3] ∧ wallEnv.far 3 3 = false) ∧
    (∀ q, wallEnv.d2 3 3 ≤ wallEnv.d2 3 q) ∧
    verdict [.setStart 3, .setGoal 3] [goRnd 7, goGoal, goGoal] = some (.ret false, .null) :=
  ⟨⟨rfl, rfl, rfl⟩, fun _ => Nat.zero_le _, rfl⟩

/-- With the base class `CSpace`, whose `createPath` always returns both ends (CSpace.cpp 780-788),
planning from a configuration to itself does succeed. -/
example : (plan { wallEnv with path := fun a b => [a, b] } .connectComplete (script [goGoal])
    (setGoal wallEnv (setStart wallEnv (Planner.new 10 0) 3).2 3).2).1 = .ret true := by
  rfl

/-- The setup of `C23_sampled_solution`, `C25_sampled_never_succeeds` is satisfiable. -/
example : (Setup.mk (CSpace.lineSpace 1) 1 1 1 (fun _ => true) (fun _ => true)).OK :=
  ⟨by simp [CSpace.lineSpace], by norm_num, by norm_num, by norm_num⟩

/-! ## Violations -/

/-- **C24** is violated when a goal is set after a successful plan: the old root stays in the goal tree,
and the next plan reports success with a path to the *old* goal (10 instead of 30). -/
theorem C24_goal_after_success_ignored :
    biVerdict [.setStart 0, .setGoal 10, .plan (script [goRnd 7]), .setGoal 30] [goRnd 8] =
      some (.ret true, .path [0, 7, 8, 10]) := by
  rfl

/-- **C24** is violated when a goal is set after a failed plan: the new root takes over the node (and the
children) of the old one, and the next plan reports success with a path that goes through the wall, from
20 to 110. -/
theorem C24_goal_after_failure_unchecked :
    biVerdict [.setStart 100, .setGoal 10, .plan (script [goCut, goRnd 20]), .setStart 0, .setGoal 110]
        [goRnd 15] = some (.ret true, .path [0, 15, 20, 110]) ∧
      wallEnv.pathValid 20 110 = false ∧ wallEnv.pathValid 110 20 = false := by
  exact ⟨rfl, rfl, rfl⟩

/-- After a failed re-plan `getSolution` returns a path to the goal of an earlier plan (10, not 60, which
cannot be reached). -/
theorem C23_stale_solution_after_failed_plan :
    verdict [.setStart 0, .setGoal 10, .plan (script [goGoal]), .setGoal 60] [goGoal] =
      some (.ret false, .path [0, 10]) := by
  rfl

/-- After a new start and a failed re-plan, `getSolution` dereferences a null pointer. -/
theorem C23_get_solution_crashes :
    verdict [.setStart 0, .setGoal 10, .plan (script [goGoal]), .setStart 5] [goCut] =
      some (.ret false, .undef) := by
  rfl

/-- After `reset()` the planner still returns the old solution. -/
theorem C23_solution_survives_reset :
    verdict [.setStart 0, .setGoal 10, .plan (script [goGoal]), .reset] [] =
      some (.ret false, .path [0, 10]) := by
  rfl

/-- A plan that reaches the goal in the cycle in which the timeout is noticed returns false, but
`getSolution` returns its path. -/
theorem C23_timeout_discards_success :
    verdict [.setStart 0, .setGoal 10] [{ goGoal with timeout := true }] =
      some (.ret false, .path [0, 10]) := by
  rfl

/-- After a failed bi-directional plan `getSolution` bridges two nodes that were never connected: from 60
through the wall. -/
theorem C24_failed_plan_bridges :
    biVerdict [.setStart 60, .setGoal 0] [goRnd 70, goRnd 20] =
      some (.ret false, .path [60, 70, 0]) := by
  rfl

end Simox.Rrt
