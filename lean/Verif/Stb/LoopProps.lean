import Verif.Stb.Spec
import Mathlib.Tactic.Linarith
import Mathlib.Tactic.Ring
import Mathlib.Tactic.NormNum

/-!
# Properties C184 and C185: the step loops and the avoidance of joint limits
-/

namespace Simox.Stb

open Classical

variable {S D : Type}

/-! ## C184 -/

/-- The loop has come through `j` iterations. -/
structure Through (v : Solver S D) (improve : Bool) (minChange : ℝ) (s : S) (j : Nat) (last : ℝ) : Prop where
  valid : ∀ i < j, v.valid (stepAt v s i) = true
  open' : ∀ i, 0 < i → i ≤ j → v.ok (after v s i) = false
  large : ∀ i < j, minChange ≤ v.norm (stepAt v s i)
  shrink : improve = true → ∀ i, i + 2 ≤ j → v.norm (stepAt v s (i + 1)) ≤ v.norm (stepAt v s i)
  first : j = 0 → improve = true → v.norm (stepAt v s 0) ≤ last
  last : ∀ i, j = i + 1 → last = v.norm (stepAt v s i)

theorem Through.runs {v : Solver S D} {improve : Bool} {minChange : ℝ} {s : S} {j : Nat} {last : ℝ}
    (h : Through v improve minChange s j last) : Runs v improve minChange s j :=
  ⟨h.valid, fun i h1 h2 => h.open' i h1 h2.le, fun i h1 => h.large i (by omega),
    fun g i h1 => h.shrink g i (by omega)⟩

theorem loop_result (v : Solver S D) (improve : Bool) (minChange : ℝ) (s : S) : ∀ (n j : Nat) (last : ℝ),
    Through v improve minChange s j last →
    ∃ k, j ≤ k ∧ k ≤ j + n ∧ (v.comLoop improve minChange n last (after v s j)).1 = after v s k ∧
      Runs v improve minChange s k ∧
      (((v.comLoop improve minChange n last (after v s j)).2 = true ∧ 0 < k ∧ v.ok (after v s k) = true) ∨
        ((v.comLoop improve minChange n last (after v s j)).2 = false ∧ (0 < k → v.ok (after v s k) = false) ∧
          GivesUp v improve minChange s (j + n) k)) := by
  intro n
  induction n with
  | zero =>
    intro j last h
    exact ⟨j, le_refl _, le_refl _, rfl, h.runs, .inr ⟨rfl, fun g => h.open' j g (le_refl _), .inl rfl⟩⟩
  | succ n ih =>
    intro j last h
    have e : v.comLoop improve minChange (n + 1) last (after v s j) =
      if v.valid (stepAt v s j) = false then (after v s j, false)
      else if v.ok (after v s (j + 1)) = true then (after v s (j + 1), true)
      else if v.norm (stepAt v s j) < minChange then (after v s (j + 1), false)
      else if improve = true ∧ v.norm (stepAt v s j) > last then (after v s (j + 1), false)
      else v.comLoop improve minChange n (v.norm (stepAt v s j)) (after v s (j + 1)) := rfl
    rw [e]
    by_cases h1 : v.valid (stepAt v s j) = false
    · rw [if_pos h1]
      exact ⟨j, le_refl _, by omega, rfl, h.runs,
        .inr ⟨rfl, fun g => h.open' j g (le_refl _), .inr (.inl h1)⟩⟩
    rw [if_neg h1]
    have hv : ∀ i < j + 1, v.valid (stepAt v s i) = true := by
      intro i hi
      rcases Nat.lt_succ_iff_lt_or_eq.mp hi with g | rfl
      · exact h.valid i g
      · simpa using h1
    have hr : Runs v improve minChange s (j + 1) :=
      ⟨hv, fun i a b => h.open' i a (by omega), fun i a => h.large i (by omega),
        fun g i a => h.shrink g i (by omega)⟩
    by_cases h2 : v.ok (after v s (j + 1)) = true
    · rw [if_pos h2]
      exact ⟨j + 1, by omega, by omega, rfl, hr, .inl ⟨rfl, by omega, h2⟩⟩
    rw [if_neg h2]
    have h2' : v.ok (after v s (j + 1)) = false := by simpa using h2
    by_cases h3 : v.norm (stepAt v s j) < minChange
    · rw [if_pos h3]
      exact ⟨j + 1, by omega, by omega, rfl, hr, .inr ⟨rfl, fun _ => h2', .inr (.inr (.inl ⟨j, rfl, h3⟩))⟩⟩
    rw [if_neg h3]
    by_cases h4 : improve = true ∧ v.norm (stepAt v s j) > last
    · rw [if_pos h4]
      cases j with
      | zero => exact absurd (h.first rfl h4.1) (not_le.mpr h4.2)
      | succ i =>
        refine ⟨i + 1 + 1, by omega, by omega, rfl, hr, .inr ⟨rfl, fun _ => h2', .inr (.inr (.inr ⟨i, rfl, h4.1, ?_⟩))⟩⟩
        rw [← h.last i rfl]
        exact h4.2
    rw [if_neg h4]
    have ht : Through v improve minChange s (j + 1) (v.norm (stepAt v s j)) := by
      refine ⟨hv, ?_, ?_, ?_, fun g => by omega, ?_⟩
      · intro i a b
        by_cases g : i ≤ j
        · exact h.open' i a g
        · have : i = j + 1 := by omega
          rw [this]; exact h2'
      · intro i a
        rcases Nat.lt_succ_iff_lt_or_eq.mp a with g | rfl
        · exact h.large i g
        · exact not_lt.mp h3
      · intro g i a
        by_cases hi : i + 2 ≤ j
        · exact h.shrink g i hi
        · have : j = i + 1 := by omega
          subst this
          have := not_and.mp h4 g
          rw [← h.last i rfl]
          exact not_lt.mp this
      · intro i a
        have : i = j := by omega
        rw [this]
    obtain ⟨k, k1, k2, k3, k4, k5⟩ := ih (j + 1) _ ht
    refine ⟨k, by omega, by omega, k3, k4, ?_⟩
    rw [show j + (n + 1) = j + 1 + n by omega]
    exact k5

theorem through_zero (v : Solver S D) (improve : Bool) (minChange : ℝ) (s : S)
    (hf : improve = true → v.norm (v.step s) ≤ fltMax) : Through v improve minChange s 0 fltMax :=
  ⟨fun i h => by omega, fun i h g => by omega, fun i h => by omega, fun _ i h => by omega, fun _ g => hf g,
    fun i h => by omega⟩

/-- A loop that has given up after `k` steps has no solution later on that it would have reached. -/
theorem stuck {v : Solver S D} {improve : Bool} {minChange : ℝ} {s : S} {n k m : Nat}
    (hr : Runs v improve minChange s k) (ho : 0 < k → v.ok (after v s k) = false)
    (hg : GivesUp v improve minChange s n k) (hm : 0 < m) (hmn : m ≤ n) (hrm : Runs v improve minChange s m)
    (hok : v.ok (after v s m) = true) : False := by
  rcases lt_trichotomy k m with g | rfl | g
  · rcases hg with h | h | ⟨i, rfl, h⟩ | ⟨i, rfl, h1, h2⟩
    · omega
    · rw [hrm.valid k g] at h; cases h
    · exact absurd (hrm.large i g) (not_le.mpr h)
    · exact absurd (hrm.shrink h1 i g) (not_le.mpr h2)
  · rw [ho hm] at hok; cases hok
  · rw [hr.open' m hm g] at hok; cases hok

/-- C184. `CoMIK::computeSteps`: the robot ends in the state after some number `k` of steps, at most the given
one. The result is yes exactly if a solution can be reached by a run of steps: the first solution that is
reached is where the robot then is. If the result is no, the robot is not in a solution (unless no step was taken)
and one of the reasons to give up holds: all steps are used up, the next step has entries that are no numbers,
the last step was smaller than `minChange` or (if this is checked) larger than the one before. -/
theorem C184_com (v : Solver S D) (improve : Bool) (minChange : ℝ) (maxSteps : Int) (s : S)
    (hf : improve = true → v.norm (v.step s) ≤ fltMax) :
    ∃ k ≤ maxSteps.toNat, (v.comSteps improve minChange maxSteps s).1 = after v s k ∧
      Runs v improve minChange s k ∧
      ((v.comSteps improve minChange maxSteps s).2 = true ↔
        ∃ m, 0 < m ∧ m ≤ maxSteps.toNat ∧ Runs v improve minChange s m ∧ v.ok (after v s m) = true) ∧
      ((v.comSteps improve minChange maxSteps s).2 = true → 0 < k ∧ v.ok (after v s k) = true) ∧
      ((v.comSteps improve minChange maxSteps s).2 = false → (0 < k → v.ok (after v s k) = false) ∧
        GivesUp v improve minChange s maxSteps.toNat k) := by
  obtain ⟨k, _, h2, h3, h4, h5⟩ := loop_result v improve minChange s maxSteps.toNat 0 fltMax
    (through_zero v improve minChange s hf)
  rw [Nat.zero_add] at h2 h5
  have e : v.comSteps improve minChange maxSteps s =
    v.comLoop improve minChange maxSteps.toNat fltMax (after v s 0) := rfl
  rw [e]
  refine ⟨k, h2, h3, h4, ?_, ?_, ?_⟩
  · rcases h5 with ⟨a, b, c⟩ | ⟨a, b, c⟩
    · exact ⟨fun _ => ⟨k, b, h2, h4, c⟩, fun _ => a⟩
    · refine ⟨fun g => by (rw [a] at g; cases g), ?_⟩
      rintro ⟨m, m1, m2, m3, m4⟩
      exact (stuck h4 b c m1 m2 m3 m4).elim
  · intro g
    rcases h5 with ⟨a, b, c⟩ | ⟨a, b, c⟩
    · exact ⟨b, c⟩
    · rw [a] at g; cases g
  · intro g
    rcases h5 with ⟨a, b, c⟩ | ⟨a, b, c⟩
    · rw [a] at g; cases g
    · exact ⟨b, c⟩

theorem hier_eq (v : Solver S D) (minChange : ℝ) : ∀ (n : Nat) (last : ℝ) (s : S),
    v.hierLoop minChange n s = v.comLoop false minChange n last s
  | 0, _, _ => rfl
  | n + 1, last, s => by
    unfold Solver.hierLoop Solver.comLoop
    dsimp only
    rw [if_neg (show ¬ ((false : Bool) = true ∧ v.norm (v.step s) > last) by simp),
      hier_eq v minChange n (v.norm (v.step s))]

/-- C184. `HierarchicalIKSolver::computeSteps`: the same without the test for growing steps. -/
theorem C184_hierarchical (v : Solver S D) (minChange : ℝ) (maxSteps : Int) (s : S) :
    ∃ k ≤ maxSteps.toNat, (v.hierSteps minChange maxSteps s).1 = after v s k ∧
      Runs v false minChange s k ∧
      ((v.hierSteps minChange maxSteps s).2 = true ↔
        ∃ m, 0 < m ∧ m ≤ maxSteps.toNat ∧ Runs v false minChange s m ∧ v.ok (after v s m) = true) ∧
      ((v.hierSteps minChange maxSteps s).2 = true → 0 < k ∧ v.ok (after v s k) = true) ∧
      ((v.hierSteps minChange maxSteps s).2 = false → (0 < k → v.ok (after v s k) = false) ∧
        GivesUp v false minChange s maxSteps.toNat k) := by
  have e : v.hierSteps minChange maxSteps s = v.comSteps false minChange maxSteps s := hier_eq v minChange _ fltMax s
  rw [e]
  exact C184_com v false minChange maxSteps s fun h => by cases h

/-- Halving a number until it is below 1. -/
noncomputable def halving : Solver ℝ ℝ where
  step s := -s / 2
  valid _ := true
  norm d := |d|
  move s d := s + d
  ok s := decide (|s| < 1)

/-- From 3 it takes two steps. -/
example : (halving.comSteps true (1 / 1000) 10 3) = (3 / 4, true) := by
  show halving.comLoop true (1 / 1000) 10 fltMax 3 = _
  rw [show (10 : Nat) = 8 + 1 + 1 from rfl]
  unfold Solver.comLoop Solver.comLoop
  norm_num [halving, abs_of_pos, abs_of_neg, fltMax]

/-- C184, a defect: the tolerances are looked at only after a step. A robot that already is in a solution is
still moved, and with no steps allowed the answer is no. -/
theorem C184_solved_start_false :
    ¬ (∀ (v : Solver ℝ ℝ) (s : ℝ) (n : Int), v.ok s = true → (v.comSteps false 0 n s).2 = true) ∧
    ¬ (∀ (v : Solver ℝ ℝ) (s : ℝ) (n : Int), v.ok s = true → (v.comSteps false 0 n s).1 = s) := by
  constructor
  · intro h
    have := h halving 0 0 (by simp [halving])
    simp [Solver.comSteps, Solver.comLoop] at this
  · intro h
    have h0 := h halving (1 / 2) 1 (by norm_num [halving, abs_of_pos])
    have e : halving.comSteps false 0 1 (1 / 2) = (1 / 4, true) := by
      show halving.comLoop false 0 1 fltMax (1 / 2) = _
      unfold Solver.comLoop
      norm_num [halving, abs_of_pos]
    rw [e] at h0
    norm_num at h0

/-- `HierarchicalIKSolver::checkTolerances`: all Jacobians are within their tolerances. -/
theorem C184_tolerances (fs : List (S → Bool)) (s : S) : checkAll fs s = true ↔ ∀ f ∈ fs, f s = true := by
  induction fs with
  | nil => simp [checkAll]
  | cons f l ih =>
    unfold checkAll
    by_cases h : f s = false
    · rw [if_pos h]; simp [h]
    · rw [if_neg h, ih]
      simp only [List.mem_cons, forall_eq_or_imp]
      exact ⟨fun g => ⟨by simpa using h, g⟩, fun g => g.2⟩

/-- C184, a defect: a hierarchical solver to which the avoidance of joint limits has been added never reports
success, whatever the other tasks, the start and the number of steps. -/
theorem C184_never_solved (v : Solver S D) (fs : List (S → Bool)) (hok : v.ok = checkAll fs) (ha : avoidOk ∈ fs)
    (minChange : ℝ) (maxSteps : Int) (s : S) : (v.hierSteps minChange maxSteps s).2 = false := by
  obtain ⟨k, _, _, _, _, h, _⟩ := C184_hierarchical v minChange maxSteps s
  by_contra hc
  have := (h (by simpa using hc)).2
  rw [hok, C184_tolerances] at this
  have := this _ ha
  simp [avoidOk] at this

/-- Such a solver. -/
example : (fun s : ℝ => decide (|s| < 1)) ∈ [fun s : ℝ => decide (|s| < 1), avoidOk] ∧
    avoidOk ∈ [fun s : ℝ => decide (|s| < 1), avoidOk] := by simp

/-! ## C185 -/

theorem avoidStep_eq (s : ℝ) (js : List Joint) :
    avoidStep s js = js.map fun j => j.set (j.value + j.error s) := by
  unfold avoidStep avoidError
  induction js with
  | nil => rfl
  | cons j js ih => rw [List.map_cons, List.zipWith_cons_cons, ih, List.map_cons]

theorem set_in {j : Joint} {x : ℝ} (h1 : j.lo ≤ x) (h2 : x ≤ j.hi) : j.set x = { j with value := x } := by
  unfold Joint.set
  rw [if_neg (not_lt.mpr h1), if_neg (not_lt.mpr h2)]

/-- One joint after one step. -/
theorem joint_step (j : Joint) (h1 : j.lo ≤ j.value) (h2 : j.value ≤ j.hi) {s : ℝ} (s0 : 0 ≤ s) (s1 : s ≤ 1) :
    j.set (j.value + j.error s) =
      { j with value := if j.rotational = true then j.middle + (1 - s) * (j.value - j.middle) else j.value } := by
  unfold Joint.error
  by_cases hr : j.rotational = true
  · rw [if_pos hr, if_pos hr]
    dsimp only
    have e : j.value + (j.lo + (j.hi - j.lo) * (1 / 2) - j.value) * s =
        j.middle + (1 - s) * (j.value - j.middle) := by unfold Joint.middle; ring
    rw [e]
    refine set_in ?_ ?_ <;> unfold Joint.middle <;> nlinarith
  · rw [if_neg hr, if_neg hr, add_zero]
    exact set_in h1 h2

/-- C185. The avoidance of joint limits on its own, with a step size between 0 and 1 and joints within their
limits: after `n` steps each rotational joint is `(1 - stepSize)^n` times as far from the middle of its range as
before, on the same side, and all other joints are where they were. -/
theorem C185_middle (js : List Joint) (hj : ∀ j ∈ js, j.lo ≤ j.value ∧ j.value ≤ j.hi) (s : ℝ) (s0 : 0 ≤ s)
    (s1 : s ≤ 1) (n : Nat) :
    (avoidStep s)^[n] js = js.map fun j =>
      { j with value := if j.rotational = true then j.middle + (1 - s) ^ n * (j.value - j.middle) else j.value } := by
  induction n with
  | zero =>
    rw [Function.iterate_zero, id]
    conv_lhs => rw [← List.map_id js]
    refine List.map_congr_left fun j _ => ?_
    by_cases hr : j.rotational = true
    · rw [if_pos hr, pow_zero, one_mul]
      simp
    · rw [if_neg hr]; rfl
  | succ n ih =>
    rw [Function.iterate_succ_apply', ih, avoidStep_eq, List.map_map]
    refine List.map_congr_left fun j hjm => ?_
    obtain ⟨l1, l2⟩ := hj j hjm
    have p0 : 0 ≤ (1 - s) ^ n := pow_nonneg (by linarith) n
    have p1 : (1 - s) ^ n ≤ 1 := pow_le_one₀ (by linarith) (by linarith)
    dsimp only [Function.comp]
    by_cases hr : j.rotational = true
    · simp only [hr, if_true]
      rw [joint_step _ _ _ s0 s1]
      · simp only [if_true, Joint.middle]
        rw [Joint.mk.injEq]
        refine ⟨rfl, rfl, rfl, ?_⟩
        rw [pow_succ]; ring
      · show j.lo ≤ j.middle + (1 - s) ^ n * (j.value - j.middle)
        unfold Joint.middle; nlinarith
      · show j.middle + (1 - s) ^ n * (j.value - j.middle) ≤ j.hi
        unfold Joint.middle; nlinarith
    · have hr' : j.rotational = false := by simpa using hr
      simp only [hr', Bool.false_eq_true, if_false]
      rw [joint_step ⟨false, j.lo, j.hi, j.value⟩ l1 l2 s0 s1]
      simp

/-- C185. The joints stay within their limits. -/
theorem C185_limits (js : List Joint) (hj : ∀ j ∈ js, j.lo ≤ j.value ∧ j.value ≤ j.hi) (s : ℝ) (s0 : 0 ≤ s)
    (s1 : s ≤ 1) (n : Nat) : ∀ j ∈ (avoidStep s)^[n] js, j.lo ≤ j.value ∧ j.value ≤ j.hi := by
  rw [C185_middle js hj s s0 s1 n]
  intro j hm
  obtain ⟨i, hi, rfl⟩ := List.mem_map.mp hm
  obtain ⟨l1, l2⟩ := hj i hi
  have p0 : 0 ≤ (1 - s) ^ n := pow_nonneg (by linarith) n
  have p1 : (1 - s) ^ n ≤ 1 := pow_le_one₀ (by linarith) (by linarith)
  dsimp only
  by_cases hr : i.rotational = true
  · rw [if_pos hr]
    constructor <;> unfold Joint.middle <;> nlinarith
  · rw [if_neg hr]; exact ⟨l1, l2⟩

/-- C185. The error that is reported: `stepSize` times the way to the middle for a rotational joint, else 0. -/
theorem C185_error (js : List Joint) (s : ℝ) :
    (avoidError js s).length = js.length ∧
    ∀ (i : Nat) (j : Joint), js[i]? = some j →
      (avoidError js s)[i]? = some (if j.rotational = true then s * ((j.lo + j.hi) / 2 - j.value) else 0) := by
  refine ⟨by simp [avoidError], ?_⟩
  intro i j h
  unfold avoidError
  rw [List.getElem?_map, h]
  unfold Joint.error
  by_cases hr : j.rotational = true
  · simp only [if_pos hr, Option.map_some]
    congr 1
    ring
  · simp only [if_neg hr, Option.map_some]

/-- A revolute joint at a limit and a prismatic one. -/
example : (avoidStep (1 / 2))^[2] [⟨true, -1, 1, 1⟩, ⟨false, 0, 4, 4⟩] =
    [⟨true, -1, 1, 1 / 4⟩, ⟨false, 0, 4, 4⟩] := by
  rw [C185_middle _ (by simp) _ (by norm_num) (by norm_num)]
  norm_num [Joint.middle]

end Simox.Stb
