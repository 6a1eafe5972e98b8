import Verif.Gaz.Lemmas
import Mathlib.Tactic.FinCases

/-!
# C188, C189: gaze inverse kinematics
-/

namespace Simox.Gaz

open Classical

variable {n : Nat} {g : Gaze n}

/-- **C188.** A yes is right, whatever the kinematics, the steps, the random numbers and the bounds: the robot is left
with the gaze within the tolerance of the goal, also after the steps that only avoid joint limits. -/
theorem C188_yes (hp : g.Proper) {q : Config n} (hq : g.Inside q) {r : Nat → Nat → Config n} {q' : Config n}
    (h : g.solve r q = some (true, q')) : g.Solved q' :=
  (solve_inv (inside_inv hp) (fun _ _ _ => set_inside hp _) (fun _ => guess_inside hp) r (guess_inside hp hq) h).2 rfl

/-- **C188.** With a yes or a no, all joints are within their limits. -/
theorem C188_limits (hp : g.Proper) {q : Config n} (hq : g.Inside q) {r : Nat → Nat → Config n} {b : Bool}
    {q' : Config n} (h : g.solve r q = some (b, q')) : g.Inside q' :=
  (solve_inv (inside_inv hp) (fun _ _ _ => set_inside hp _) (fun _ => guess_inside hp) r (guess_inside hp hq) h).1

/-- **C188.** If the distances within the limits are below FLT_MAX the solver always answers: the joint values for a random start always
exist. -/
theorem C188_answers (hp : g.Proper) (hf : ∀ q, g.Inside q → g.error q < fltMax) (r : Nat → Nat → Config n) (q : Config n) :
    g.solve r q ≠ none := by
  unfold Gaze.solve
  dsimp only
  split_ifs
  · simp
  · exact solveLoop_some hp hf r _ _ _ _ _

/-- **C188.** If moreover steps are numbers and one step is allowed, a no leaves the robot outside of the tolerance: no
solution is thrown away. -/
theorem C188_no (hp : g.Proper) (hn : g.Numbers) (hf : ∀ q, g.Inside q → g.error q < fltMax)
    (hs : 0 < g.maxGradientDecentSteps) {q : Config n} (hq : g.Inside q) {r : Nat → Nat → Config n}
    {q' : Config n} (h : g.solve r q = some (false, q')) : ¬ g.Solved q' := by
  unfold Gaze.solve at h
  dsimp only at h
  have t1 := (trySolve_inv (inside_inv hp) (guess_inside hp hq)).1
  by_cases c : (g.trySolve (g.setGuess q)).1 = true
  · rw [if_pos c] at h
    injection h with h
    rw [h] at c; cases c
  · rw [if_neg c] at h
    have hno : ¬ g.checkTolerances (g.trySolve (g.setGuess q)).2 :=
      try_no hp hn hf _ _ _ _ (.inr ⟨hs, rfl⟩) (Bool.eq_false_iff.mpr c)
    exact solveLoop_no hp hn hf hs r _ _ _ _ _ _ (by rw [set_eq t1]; exact hno) t1 h

/-- **C188.** More loops never leave the robot further away: of two noes with the same random numbers, the one with
more loops is at least as close to the goal. -/
theorem C188_more_loops (hp : g.Proper) {q : Config n} (hq : g.Inside q) {r : Nat → Nat → Config n} {l l' : Nat}
    (hl : l ≤ l') {a b : Config n} (ha : { g with maxLoops := l }.solve r q = some (false, a))
    (hb : { g with maxLoops := l' }.solve r q = some (false, b)) : g.error b ≤ g.error a := by
  have et : ∀ (l : Nat) (k : Nat) (best : Config n) (bd : ℝ) (q : Config n),
      { g with maxLoops := l }.tryLoop k best bd q = g.tryLoop k best bd q := by
    have ej : ∀ (l : Nat) (k : Nat) (best q : Config n),
        { g with maxLoops := l }.jlaLoop k best q = g.jlaLoop k best q := by
      intro l k
      induction k with
      | zero => intros; rfl
      | succ k ih =>
        intro best q
        unfold Gaze.jlaLoop
        cases hs : g.step q with
        | none => rfl
        | some d => dsimp only; rw [ih]; rfl
    intro l k
    induction k with
    | zero => intros; rfl
    | succ k ih =>
      intro best bd q
      unfold Gaze.tryLoop
      cases hs : g.step q with
      | none => rfl
      | some d =>
        dsimp only
        rw [ih, ih]
        unfold Gaze.applyJLA
        rw [ej]
        rfl
  have er : ∀ (l : Nat) (r : Nat → Config n) (k j : Nat) (bd : ℝ) (best : Option (Config n)) (q : Config n),
      { g with maxLoops := l }.randomLoop r k j bd best q = g.randomLoop r k j bd best q := by
    intro l r k
    induction k with
    | zero => intros; rfl
    | succ k ih =>
      intro j bd best q
      unfold Gaze.randomLoop
      dsimp only
      rw [ih, ih]
      rfl
  have es : ∀ (l k i : Nat) (best : Config n) (bd : ℝ) (q : Config n),
      { g with maxLoops := l }.solveLoop r k i best bd q = g.solveLoop r k i best bd q := by
    intro l k
    induction k with
    | zero => intros; rfl
    | succ k ih =>
      intro i best bd q
      unfold Gaze.solveLoop Gaze.setBestRandom Gaze.trySolve
      dsimp only
      simp only [et, er, ih]
      rfl
  unfold Gaze.solve Gaze.trySolve at ha hb
  dsimp only at ha hb
  simp only [et, es] at ha hb
  have hgq : ∀ l, Gaze.setGuess { g with maxLoops := l } q = g.setGuess q := fun _ => rfl
  rw [hgq] at ha hb
  have t1 := (trySolve_inv (inside_inv hp) (guess_inside hp hq)).1
  unfold Gaze.trySolve at t1
  by_cases c : (g.tryLoop g.maxGradientDecentSteps (g.setGuess q) fltMax (g.setGuess q)).1 = true
  · rw [if_pos c] at ha
    injection ha with ha
    rw [ha] at c; cases c
  · rw [if_neg c] at ha hb
    exact solveLoop_more hp r _ _ _ _ _ _ _ _ (by omega) t1 t1 rfl ha hb

/-- **C189.** One descent from `q` says yes exactly if the plain steps from `q`, brought into the limits, reach a
solution within the allowed number of steps, and none of the steps before the last one was too small. -/
theorem C189_descent (hp : g.Proper) (hn : g.Numbers) (q : Config n) :
    (g.trySolve q).1 = true ↔
      ∃ j < g.maxGradientDecentSteps, g.Solved (g.move^[j + 1] q) ∧ ∀ i < j, ¬ g.Small (g.move^[i] q) :=
  try_iff hp hn _ _ _ _

/-- **C189.** If the first descent, from the given joint values with a guess for the virtual joint, says yes, the
solver does, without random numbers. -/
theorem C189_first (hp : g.Proper) (hn : g.Numbers) {q : Config n} {j : Nat} (hj : j < g.maxGradientDecentSteps)
    (h1 : g.Solved (g.move^[j + 1] (g.setGuess q))) (h2 : ∀ i < j, ¬ g.Small (g.move^[i] (g.setGuess q))) :
    ∃ q', ∀ r, g.solve r q = some (true, q') := by
  have c := (C189_descent hp hn (g.setGuess q)).mpr ⟨j, hj, h1, h2⟩
  refine ⟨(g.trySolve (g.setGuess q)).2, fun r => ?_⟩
  unfold Gaze.solve
  dsimp only
  rw [if_pos c]
  exact congrArg some (Prod.ext c rfl)

/-! ## A solution that is lost -/

/-- A robot with the virtual joint only: it looks along the x axis, the goal is at (3, 4, 0). The
steps go half of the way to the best value. -/
noncomputable def axis (loops steps : Nat) (tolerance : ℝ := 4) : Gaze 1 where
  lo := fun _ => 0
  hi := fun _ => 10
  rotational := fun _ => false
  virt := 0
  guess := fun _ => 5
  error := fun q => Real.sqrt ((q 0 - 3) ^ 2 + 16)
  step := fun q => some fun i => (3 - q i) / 2
  maxPosError := tolerance
  maxLoops := loops
  maxGradientDecentSteps := steps
  randomTriesToGetBestConfig := 40

theorem axis_proper (l s : Nat) (x : ℝ) : (axis l s x).Proper := fun _ => by norm_num [axis]

theorem axis_solved (l s : Nat) (q : Config 1) : (axis l s).Solved q ↔ q 0 = 3 := by
  unfold Gaze.Solved
  show Real.sqrt ((q 0 - 3) ^ 2 + 16) ≤ 4 ↔ _
  rw [Real.sqrt_le_left (by norm_num)]
  constructor
  · intro h
    have h1 : (q 0 - 3) ^ 2 = 0 := le_antisymm (by linarith) (sq_nonneg _)
    have := (pow_eq_zero_iff two_ne_zero).mp h1
    linarith
  · intro h; rw [h]; norm_num

theorem axis_inv (l s : Nat) : Inv (axis l s) fun q => 3 < q 0 ∧ q 0 ≤ 10 := by
  constructor
  · intro q h i
    have : i = 0 := Subsingleton.elim _ _
    subst this
    exact ⟨by show (0 : ℝ) ≤ q 0; linarith [h.1], h.2⟩
  · intro q d h hd
    injection hd with hd
    subst hd
    show 3 < clamp 0 10 (q 0 + (3 - q 0) / 2) ∧ clamp 0 10 (q 0 + (3 - q 0) / 2) ≤ 10
    rw [clamp_eq (by linarith [h.1]) (by linarith [h.2, h.1])]
    constructor <;> linarith [h.1, h.2]

theorem axis_guess (l s : Nat) (q : Config 1) : (axis l s).setGuess q 0 = 5 := by
  unfold Gaze.setGuess
  show Function.update q 0 (clamp 0 10 5) 0 = 5
  rw [Function.update_self, clamp_eq (by norm_num) (by norm_num)]

/-- **C188, false in general:** a robot that is in a solution is answered with a yes. The joint values at the start are
not tested, and the guess for the virtual joint overwrites one of them: this robot is in a solution, and for all
numbers of loops and steps and all random numbers the answer is no, and it is left outside of the tolerance, further
from the goal than before. -/
theorem C188_solved_start_false (l s : Nat) (r : Nat → Nat → Config 1) :
    (axis l s).Solved (fun _ => 3) ∧ (axis l s).Inside (fun _ => 3) ∧
      ∀ a, (axis l s).solve r (fun _ => 3) = some a → a.1 = false ∧ ¬ (axis l s).Solved a.2 ∧
        (axis l s).error (fun _ => 3) < (axis l s).error a.2 := by
  refine ⟨(axis_solved l s _).mpr rfl, fun i => by constructor <;> norm_num [axis], ?_⟩
  rintro ⟨b, q'⟩ h
  obtain ⟨h1, h2⟩ := solve_inv (axis_inv l s)
    (by
      intro q x hq
      show 3 < clamp 0 10 (q 0) ∧ clamp 0 10 (q 0) ≤ 10
      rw [clamp_eq (by linarith [hq.1]) hq.2]
      exact hq)
    (by intro q _; rw [axis_guess]; norm_num) r (by rw [axis_guess]; norm_num) h
  have hno : ¬ (axis l s).Solved q' := fun c => by
    have := (axis_solved l s q').mp c
    linarith [h1.1]
  refine ⟨?_, hno, ?_⟩
  · cases b with
    | false => rfl
    | true => exact absurd (h2 rfl) hno
  · show Real.sqrt (((fun _ => (3 : ℝ)) (0 : Fin 1) - 3) ^ 2 + 16) < Real.sqrt ((q' 0 - 3) ^ 2 + 16)
    refine Real.sqrt_lt_sqrt (by norm_num) ?_
    have : 0 < (q' 0 - 3) ^ 2 := by
      have := h1.1
      exact pow_pos (by linarith) 2
    norm_num
    linarith

/-! ## Concrete cases -/

theorem axis_error (l s : Nat) (x : ℝ) (q : Config 1) (h : (axis l s x).Inside q) : (axis l s x).error q < fltMax := by
  have h0 := h 0
  have a : (0 : ℝ) ≤ q 0 := h0.1
  have b : q 0 ≤ 10 := h0.2
  show Real.sqrt ((q 0 - 3) ^ 2 + 16) < fltMax
  rw [Real.sqrt_lt' (by norm_num [fltMax])]
  unfold fltMax
  nlinarith

theorem axis_start (l s : Nat) (x : ℝ) : (axis l s x).Inside fun _ => 0 := fun i => by constructor <;> norm_num [axis]

/-- With the tolerance 5 one step leads to a solution, whatever the random numbers. -/
example : ∃ q', ∀ r, (axis 50 30 5).solve r (fun _ => 0) = some (true, q') := by
  have hg : (axis 50 30 5).setGuess (fun _ => 0) 0 = 5 := axis_guess 50 30 _
  refine C189_first (j := 0) (axis_proper 50 30 5) (fun q h => by cases h) (by norm_num [axis]) ?_ (fun i hi => by omega)
  show Real.sqrt ((max 0 (min 10 (((axis 50 30 5).setGuess (fun _ => 0)) 0 +
    (3 - ((axis 50 30 5).setGuess (fun _ => 0)) 0) / 2)) - 3) ^ 2 + 16) ≤ 5
  rw [hg, Real.sqrt_le_left (by norm_num)]
  norm_num

/-- With the tolerance 1 the answer is a no, and all hypotheses of `C188_no` are met. -/
example (r : Nat → Nat → Config 1) : ∃ q', (axis 50 30 1).solve r (fun _ => 0) = some (false, q') ∧
    ¬ (axis 50 30 1).Solved q' ∧ (axis 50 30 1).Inside q' := by
  have hns : ∀ q, ¬ (axis 50 30 1).Solved q := by
    intro q
    show ¬ Real.sqrt ((q 0 - 3) ^ 2 + 16) ≤ 1
    rw [Real.sqrt_le_left (by norm_num)]
    have := sq_nonneg (q 0 - 3)
    intro h
    linarith
  have hp := axis_proper 50 30 1
  cases h : (axis 50 30 1).solve r (fun _ => 0) with
  | none => exact absurd h (C188_answers hp (axis_error 50 30 1) r _)
  | some a =>
    obtain ⟨b, q'⟩ := a
    cases b with
    | true => exact absurd (C188_yes hp (axis_start 50 30 1) h) (hns q')
    | false =>
      exact ⟨q', rfl, C188_no hp (fun q h => by cases h) (axis_error 50 30 1) (by norm_num [axis]) (axis_start 50 30 1) h,
        C188_limits hp (axis_start 50 30 1) h⟩

end Simox.Gaz
