import Verif.Rrt.IkLemmas
import Verif.Rrt.Props

/-!
# C169, C170: the planner that samples grasps while planning
-/

set_option linter.unusedSectionVars false

namespace Simox.Rrt

open Simox.Planning Spec

variable {Q K : Type} [LT K] [DecidableRel (α := K) (· < ·)] (env : Env Q K) (valid : Q → Bool)
  {Near : Q → Q → Prop}

/-- **C169.** After any history of calls on a `GraspIkRrt`, for every set of grasps, node capacity, cycle
limit, and every sequence of random choices, IK results, stop requests and timeouts: if `plan` returns
true, a start that is collision free and within the boundaries was set (and not reset since), and
`getSolution` returns a path from that start to a configuration that the inverse kinematics returned for
some grasp in one of the cycles run since the last reset, and that is valid; the path consists of segments
checked from the start on, and of segments checked from the goal on, which meet. -/
theorem C169_solution (ok : EnvOK env Near) (cap : Nat) (q0 : Q) (n : Nat) (vis : Bool)
    (hist : List (IkOp Q)) (p : IkPlanner Q)
    (hrun : ikRun env valid n (IkPlanner.new cap q0 n vis) hist = some p)
    (sched : IkSched Q) (p' : IkPlanner Q) (hplan : ikPlan env valid sched p = (.ret true, p')) :
    ∃ a b l, ikLastStart hist = some a ∧ env.free a = true ∧ env.inBd a = true ∧
      Offered (hist ++ [.plan sched]) b ∧ valid b = true ∧
      biGetSolution p'.base = (.path l, p'.base) ∧ BiPath env Near a b l := by
  have h := ikRun_inv (valid := valid) ok hist _ p none _ (ikNew_inv cap q0 n vis) hrun
  rw [ikNext_eq] at h
  obtain ⟨_, h2⟩ := ikPlan_spec (valid := valid) ok sched (ikInv_mono h fun q hq => Or.inl hq)
    (G := nextG valid (hist.foldl (nextG valid) fun _ => False) (.plan sched))
    fun i g q hi h1 h2 => Or.inr ⟨i, g, hi, h1, h2⟩
  rw [hplan] at h2
  obtain ⟨a, b, l, w1, w2, w3, w4, w5, w6⟩ := h2 rfl
  have hb : (hist ++ [IkOp.plan sched]).foldl (nextG valid) (fun _ => False) b := by
    rw [List.foldl_append]; exact w4
  obtain ⟨o1, o2⟩ := nextG_offered _ b hb
  refine ⟨a, b, l, w1, w2, w3, o1, o2, ?_, w6⟩
  dsimp only at w5
  simp [biGetSolution, getSolutionWith, w5]

/-- **C169**, the path itself: if local paths end exactly where asked to and checked segments may be
travelled in both directions, the solution is one uninterrupted checked path from the start to the grasp
configuration. -/
theorem C169_path (ok : EnvOK env Eq) (hsym : ∀ u v, Checked env u v → Checked env v u)
    (cap : Nat) (q0 : Q) (n : Nat) (vis : Bool) (hist : List (IkOp Q)) (p : IkPlanner Q)
    (hrun : ikRun env valid n (IkPlanner.new cap q0 n vis) hist = some p)
    (sched : IkSched Q) (p' : IkPlanner Q) (hplan : ikPlan env valid sched p = (.ret true, p')) :
    ∃ a b l, ikLastStart hist = some a ∧ Offered (hist ++ [.plan sched]) b ∧ valid b = true ∧
      biGetSolution p'.base = (.path l, p'.base) ∧
      l.head? = some a ∧ l.getLast? = some b ∧ l.IsChain (Checked env) := by
  obtain ⟨a, b, l, w1, _, _, w2, w3, w4, w5⟩ :=
    C169_solution env valid ok cap q0 n vis hist p hrun sched p' hplan
  obtain ⟨x1, x2, x3⟩ := C24_exact_meeting env a b l hsym w5
  exact ⟨a, b, l, w1, w2, w3, w4, x1, x2, x3⟩

/-- **C169**: without a valid start (never set, rejected, or forgotten by a reset), or if the inverse
kinematics offers no valid configuration, `plan` does not report success. -/
theorem C169_no_goal (ok : EnvOK env Near) (cap : Nat) (q0 : Q) (n : Nat) (vis : Bool)
    (hist : List (IkOp Q)) (p : IkPlanner Q)
    (hrun : ikRun env valid n (IkPlanner.new cap q0 n vis) hist = some p) (sched : IkSched Q)
    (hno : ikLastStart hist = none ∨ (∀ a, ikLastStart hist = some a → env.free a = false) ∨
      ∀ b, Offered (hist ++ [.plan sched]) b → valid b = false) :
    (ikPlan env valid sched p).1 ≠ .ret true := by
  intro e
  obtain ⟨a, b, l, w1, w2, _, w3, w4, _⟩ := C169_solution env valid ok cap q0 n vis hist p hrun sched
    (ikPlan env valid sched p).2 (Prod.ext e rfl)
  rcases hno with h | h | h
  · rw [h] at w1; simp at w1
  · rw [h a w1] at w2; simp at w2
  · rw [h b w3] at w4; simp at w4

/-! ## C170 -/

/-- **C170.** If no timeout strikes and no exception leaves it, `plan` leaves the robot's flag "update
visualization" as it was.

Missing for the full claim: timeouts and exceptions, for which it is false
(`C170_visualization_false`). -/
theorem C170_visualization_partial (sched : IkSched Q) (ht : ∀ i, (sched.item i).timeout = false)
    (p : IkPlanner Q) (b : Bool) (hr : (ikPlan env valid sched p).1 = .ret b) :
    (ikPlan env valid sched p).2.vis = p.vis := by
  revert hr
  unfold ikPlan
  split
  · intro _; rfl
  have h1 := (ikLoop_rest (env := env) (valid := valid) sched.item (sched.maxCycles - 1) 0
    { p with base := { p.base with solution := none }, vis := false }).vis
  have h2 := ikLoop_notimeout (env := env) (valid := valid) sched.item ht (sched.maxCycles - 1) 0
    { p with base := { p.base with solution := none }, vis := false }
  revert h1 h2
  dsimp only
  generalize ikLoop env valid sched.item (sched.maxCycles - 1) 0
    { p with base := { p.base with solution := none }, vis := false } = x
  obtain ⟨res, tmo, p'⟩ := x
  intro h1 h2
  dsimp only at h1 h2
  subst h2
  have hw : (if p.vis = true then { p' with vis := p.vis } else p').vis = p.vis := by
    by_cases hv : p.vis = true
    · rw [if_pos hv]
    · rw [if_neg hv, h1]; exact (Bool.eq_false_iff.mpr hv).symm
  cases res with
  | ret bb =>
    intro _
    dsimp only
    rw [if_neg (by simp)]
    split
    · split <;> exact hw
    · exact hw
  | throws => intro h; simp at h
  | undef => intro h; simp at h
  | diverges => intro h; simp at h

/-- **C170**: no grasp is ever taken out of the working set, whatever the history: the set holds copies of
the grasps, and the grasp to be removed is looked for by its address. (So the test for an exhausted set
never ends the sampling of a non-empty set, and a grasp whose solution is in collision is tried again.) -/
theorem C170_working_set_false (cap : Nat) (q0 : Q) (n : Nat) (vis : Bool) (hist : List (IkOp Q))
    (p : IkPlanner Q) (hrun : ikRun env valid n (IkPlanner.new cap q0 n vis) hist = some p) :
    p.working.length = n := by
  rw [ikRun_working hist _ p rfl hrun]
  simp [cloneSet]

/-! ## Examples and violations -/

/-- A cycle in which a grasp is sampled. -/
def goIk (g : Nat) (c : Int) : IkItem Int :=
  { sample := true, ik := some (g, c), rnd := 0, cut := false, stop := false, timeout := false }
/-- A cycle that extends the trees. -/
def goIkRnd (c : Int) : IkItem Int := { goIk 0 0 with sample := false, ik := none, rnd := c }
/-- A schedule of the given cycles. -/
def ikScript (l : List (IkItem Int)) : IkSched Int :=
  { maxCycles := l.length, item := fun i => l.getD i (goIkRnd 0) }

/-- Configurations below 200 are valid. -/
def below (c : Int) : Bool := decide (c < 200)

/-- What a history of calls returns in the end: the result of a last `plan`, the solution, and the update
flag (initially set). -/
def ikVerdict (cap : Nat) (hist : List (IkOp Int)) (l : List (IkItem Int)) :
    Option (Res × SolRes Int × Bool) :=
  (ikRun wallEnv below 3 (IkPlanner.new cap 0 3 true) hist).map fun p =>
    let r := ikPlan wallEnv below (ikScript l) p
    (r.1, (biGetSolution r.2.base).1, r.2.vis)

/-- `C169_solution` applies: two grasps on different sides of the wall; the second one is reached. A third
configuration is not valid. -/
example : ikVerdict 20 [.setStart 0] [goIk 0 60, goIk 1 10, goIk 2 300, goIkRnd 7] =
    some (.ret true, .path [0, 7, 10], true) := by
  rfl

/-- `C169_solution` applies to a second call of `plan`, which uses the goals of the first one. -/
example : ikVerdict 20 [.setStart 0, .plan (ikScript [goIk 0 60, goIk 1 10]), .setStart 80] [goIkRnd 70] =
    some (.ret true, .path [80, 70, 60], true) := by
  rfl

/-- The hypotheses of `C169_no_goal`, `C170_working_set_false` are met. -/
example : ikVerdict 20 [.setStart 0] [goIk 2 300, goIk 2 300] = some (.ret false, .null, true) ∧
    ikVerdict 20 [.setStart 0, .reset] [goIk 0 60, goIkRnd 7] = some (.ret false, .null, true) := by
  exact ⟨rfl, rfl⟩

/-- A grasp whose first solution is not valid is tried again, and leads to success. -/
example : ikVerdict 20 [.setStart 0] [goIk 0 300, goIk 0 10, goIkRnd 7] =
    some (.ret true, .path [0, 7, 10], true) := by
  rfl

/-- **C170** is violated by a timeout and by an exhausted node pool: the flag stays off. -/
theorem C170_visualization_false :
    ikVerdict 20 [.setStart 0] [{ goIk 0 60 with timeout := true }] = some (.ret false, .null, false) ∧
    ikVerdict 1 [.setStart 0] [goIk 0 60] = some (.throws, .null, false) := by
  exact ⟨rfl, rfl⟩

/-- **C169** holds for `plan` only: after a failed plan `getSolution` returns a path that was never checked,
from 20 through the wall to 80. -/
theorem C169_failed_plan_bridges :
    ikVerdict 20 [.setStart 0] [goIk 0 80, goIk 1 70, goIkRnd 20] =
      some (.ret false, .path [0, 20, 80], true) := by
  rfl

end Simox.Rrt
