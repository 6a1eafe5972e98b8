import Verif.Gaz.Spec
import Mathlib.Tactic.Linarith
import Mathlib.Tactic.Ring
import Mathlib.Tactic.NormNum

namespace Simox.Gaz

open Classical

variable {n : Nat}

theorem clamp_mem {lo hi : ℝ} (h : lo ≤ hi) (q : ℝ) : lo ≤ clamp lo hi q ∧ clamp lo hi q ≤ hi := by
  unfold clamp
  dsimp only
  split_ifs <;> constructor <;> linarith

theorem clamp_eq {lo hi q : ℝ} (h1 : lo ≤ q) (h2 : q ≤ hi) : clamp lo hi q = q := by
  unfold clamp
  dsimp only
  rw [if_neg (not_lt.mpr h1), if_neg (not_lt.mpr h2)]

theorem clamp_max {lo hi : ℝ} (h : lo ≤ hi) (q : ℝ) : clamp lo hi q = max lo (min hi q) := by
  unfold clamp
  dsimp only
  by_cases c : q < lo
  · rw [if_pos c, if_neg (not_lt.mpr h), min_eq_right (by linarith), max_eq_left c.le]
  · rw [if_neg c]
    by_cases c2 : q > hi
    · rw [if_pos c2, min_eq_left c2.le, max_eq_right h]
    · rw [if_neg c2, min_eq_right (not_lt.mp c2), max_eq_right (not_lt.mp c)]

variable {g : Gaze n}

theorem set_inside (hp : g.Proper) (q : Config n) : g.Inside (g.set q) := fun i => clamp_mem (hp i) (q i)

theorem set_eq {q : Config n} (h : g.Inside q) : g.set q = q := by
  funext i; exact clamp_eq (h i).1 (h i).2

theorem guess_inside (hp : g.Proper) {q : Config n} (h : g.Inside q) : g.Inside (g.setGuess q) := by
  intro i
  unfold Gaze.setGuess
  by_cases c : i = g.virt
  · subst c
    rw [Function.update_self]
    exact clamp_mem (hp _) _
  · rw [Function.update_of_ne c]
    exact h i

theorem move_eq (hp : g.Proper) {q d : Config n} (h : g.step q = some d) :
    g.set (fun i => q i + d i) = g.move q := by
  funext i
  unfold Gaze.set Gaze.move
  rw [h, clamp_max (hp i)]
  rfl

/-- What is true of all configurations on the way. -/
structure Inv (g : Gaze n) (P : Config n → Prop) : Prop where
  inside : ∀ q, P q → g.Inside q
  move : ∀ q d, P q → g.step q = some d → P (g.set fun i => q i + d i)

theorem jla_inv {P : Config n → Prop} (hi : Inv g P) : ∀ (k : Nat) (best q : Config n), P q → g.checkTolerances q →
    P (g.set best) → g.checkTolerances (g.set best) →
    P (g.jlaLoop k best q) ∧ g.checkTolerances (g.jlaLoop k best q) := by
  intro k
  induction k with
  | zero => intro best q h1 h2 _ _; exact ⟨h1, h2⟩
  | succ k ih =>
    intro best q h1 h2 h3 h4
    unfold Gaze.jlaLoop
    cases hs : g.step q with
    | none => exact ⟨h3, h4⟩
    | some d =>
      dsimp only
      have hm := hi.move q d h1 hs
      by_cases c : g.checkTolerances (g.set fun i => q i + d i)
      · rw [if_neg (not_not.mpr c)]
        by_cases c2 : norm d < 1 / 1000000
        · rw [if_pos c2]; exact ⟨hm, c⟩
        · rw [if_neg c2]; exact ih _ _ hm c hm c
      · rw [if_pos c]; exact ⟨h3, h4⟩

theorem try_inv {P : Config n → Prop} (hi : Inv g P) : ∀ (k : Nat) (best : Config n) (bd : ℝ) (q : Config n), P q →
    P (g.set best) → P (g.tryLoop k best bd q).2 ∧
      ((g.tryLoop k best bd q).1 = true → g.checkTolerances (g.tryLoop k best bd q).2) := by
  intro k
  induction k with
  | zero => intro best bd q _ h2; exact ⟨h2, fun h => by cases h⟩
  | succ k ih =>
    intro best bd q h1 h2
    unfold Gaze.tryLoop
    cases hs : g.step q with
    | none => exact ⟨h1, fun h => by cases h⟩
    | some d =>
      dsimp only
      have hm := hi.move q d h1 hs
      by_cases c : g.checkTolerances (g.set fun i => q i + d i)
      · rw [if_pos c]
        have hs : g.set (g.set fun i => q i + d i) = g.set fun i => q i + d i := set_eq (hi.inside _ hm)
        have := jla_inv hi 15 (g.set fun i => q i + d i) (g.set fun i => q i + d i) hm c (by rw [hs]; exact hm)
          (by rw [hs]; exact c)
        exact ⟨this.1, fun _ => this.2⟩
      · rw [if_neg c]
        by_cases c2 : norm d < 1 / 100000
        · rw [if_pos c2]; exact ⟨hm, fun h => by cases h⟩
        · rw [if_neg c2]
          by_cases c3 : g.error (g.set fun i => q i + d i) < bd
          · rw [if_pos c3]; exact ih _ _ _ hm hm
          · rw [if_neg c3]; exact ih _ _ _ hm h2

theorem trySolve_inv {P : Config n → Prop} (hi : Inv g P) {q : Config n} (h : P q) :
    P (g.trySolve q).2 ∧ ((g.trySolve q).1 = true → g.checkTolerances (g.trySolve q).2) :=
  try_inv hi _ _ _ _ h (by rw [set_eq (hi.inside q h)]; exact h)

theorem randomLoop_inv {P : Config n → Prop} (hr : ∀ q r, P q → P (g.setJointsRandom r q)) (r : Nat → Config n) :
    ∀ (k j : Nat) (bd : ℝ) (best : Option (Config n)) (q : Config n), P q → (∀ b, best = some b → P b) →
    ∀ b, g.randomLoop r k j bd best q = some b → P b := by
  intro k
  induction k with
  | zero => intro j bd best q _ h b hb; exact h b hb
  | succ k ih =>
    intro j bd best q hq h b hb
    unfold Gaze.randomLoop at hb
    dsimp only at hb
    have hm := hr q (r j) hq
    by_cases c : g.error (g.setJointsRandom (r j) q) < bd
    · rw [if_pos c] at hb
      exact ih _ _ _ _ hm (fun b hb => by injection hb with hb; rw [← hb]; exact hm) b hb
    · rw [if_neg c] at hb
      exact ih _ _ _ _ hm h b hb

theorem bestRandom_inv {P : Config n → Prop} (hi : ∀ q, P q → g.Inside q)
    (hr : ∀ q r, P q → P (g.setJointsRandom r q)) (r : Nat → Config n) {t : Nat} {q b : Config n} (hq : P q)
    (h : g.setBestRandom r t q = some b) : P b := by
  unfold Gaze.setBestRandom at h
  dsimp only at h
  obtain ⟨a, ha, rfl⟩ := Option.map_eq_some_iff.mp h
  have := randomLoop_inv hr r _ _ _ _ _ hq (by intro b hb; cases hb) a ha
  rw [set_eq (hi a this)]
  exact this

theorem solveLoop_inv {P : Config n → Prop} (hi : Inv g P) (hr : ∀ q r, P q → P (g.setJointsRandom r q))
    (hg : ∀ q, P q → P (g.setGuess q)) (r : Nat → Nat → Config n) :
    ∀ (k i : Nat) (best : Config n) (bd : ℝ) (q : Config n), P q → P best → ∀ b q',
      g.solveLoop r k i best bd q = some (b, q') → P q' ∧ (b = true → g.checkTolerances q') := by
  intro k
  induction k with
  | zero =>
    intro i best bd q _ h2 b q' h
    injection h with h
    injection h with h3 h4
    rw [← h4, set_eq (hi.inside _ h2)]
    exact ⟨h2, fun h => by rw [← h3] at h; cases h⟩
  | succ k ih =>
    intro i best bd q h1 h2 b q' h
    unfold Gaze.solveLoop at h
    cases hs : g.setBestRandom (r i) g.randomTriesToGetBestConfig q with
    | none => rw [hs] at h; cases h
    | some q1 =>
      rw [hs] at h
      dsimp only at h
      have hq1 := hg _ (bestRandom_inv hi.inside hr (r i) h1 hs)
      obtain ⟨t1, t2⟩ := trySolve_inv hi hq1
      by_cases c : (g.trySolve (g.setGuess q1)).1 = true
      · rw [if_pos c] at h
        injection h with h
        rw [h] at t1 t2
        exact ⟨t1, t2⟩
      · rw [if_neg c] at h
        by_cases c2 : g.error (g.trySolve (g.setGuess q1)).2 < bd
        · rw [if_pos c2] at h; exact ih _ _ _ _ t1 t1 b q' h
        · rw [if_neg c2] at h; exact ih _ _ _ _ t1 h2 b q' h

theorem solve_inv {P : Config n → Prop} (hi : Inv g P) (hr : ∀ q r, P q → P (g.setJointsRandom r q))
    (hg : ∀ q, P q → P (g.setGuess q)) (r : Nat → Nat → Config n) {q : Config n} (hq : P (g.setGuess q))
    {b : Bool} {q' : Config n} (h : g.solve r q = some (b, q')) : P q' ∧ (b = true → g.checkTolerances q') := by
  unfold Gaze.solve at h
  dsimp only at h
  obtain ⟨t1, t2⟩ := trySolve_inv hi hq
  by_cases c : (g.trySolve (g.setGuess q)).1 = true
  · rw [if_pos c] at h
    injection h with h
    rw [h] at t1 t2
    exact ⟨t1, t2⟩
  · rw [if_neg c] at h
    exact solveLoop_inv hi hr hg r _ _ _ _ _ t1 t1 b q' h

theorem inside_inv (hp : g.Proper) : Inv g g.Inside := ⟨fun _ h => h, fun _ _ _ _ => set_inside hp _⟩

/-! ## A no -/

/-- With numbers only a failed try ends outside of the tolerance. -/
theorem try_no (hp : g.Proper) (hn : g.Numbers) (hf : ∀ q, g.Inside q → g.error q < fltMax) : ∀ (k : Nat) (best : Config n) (bd : ℝ)
    (q : Config n), (¬ g.checkTolerances (g.set best) ∨ (0 < k ∧ bd = fltMax)) →
    (g.tryLoop k best bd q).1 = false → ¬ g.checkTolerances (g.tryLoop k best bd q).2 := by
  intro k
  induction k with
  | zero =>
    intro best bd q h _
    rcases h with h | h
    · exact h
    · omega
  | succ k ih =>
    intro best bd q h hr
    unfold Gaze.tryLoop at hr ⊢
    cases hs : g.step q with
    | none => exact absurd hs (hn q)
    | some d =>
      rw [hs] at hr
      dsimp only at hr ⊢
      by_cases c : g.checkTolerances (g.set fun i => q i + d i)
      · rw [if_pos c] at hr; cases hr
      · rw [if_neg c] at hr ⊢
        by_cases c2 : norm d < 1 / 100000
        · rw [if_pos c2]; exact c
        · rw [if_neg c2] at hr ⊢
          by_cases c3 : g.error (g.set fun i => q i + d i) < bd
          · rw [if_pos c3] at hr ⊢
            exact ih _ _ _ (.inl c) hr
          · rw [if_neg c3] at hr ⊢
            rcases h with h | h
            · exact ih _ _ _ (.inl h) hr
            · rw [h.2] at c3
              exact absurd (hf _ (set_inside hp _)) c3

theorem solveLoop_no (hp : g.Proper) (hn : g.Numbers) (hf : ∀ q, g.Inside q → g.error q < fltMax)
    (hs : 0 < g.maxGradientDecentSteps) (r : Nat → Nat → Config n) :
    ∀ (k i : Nat) (best : Config n) (bd : ℝ) (q q' : Config n), ¬ g.checkTolerances (g.set best) → g.Inside q →
      g.solveLoop r k i best bd q = some (false, q') → ¬ g.checkTolerances q' := by
  intro k
  induction k with
  | zero =>
    intro i best bd q q' h _ he
    injection he with he
    injection he with _ he
    rw [← he]; exact h
  | succ k ih =>
    intro i best bd q q' h hq he
    unfold Gaze.solveLoop at he
    cases hb : g.setBestRandom (r i) g.randomTriesToGetBestConfig q with
    | none => rw [hb] at he; cases he
    | some q1 =>
      rw [hb] at he
      dsimp only at he
      have hq1 := guess_inside hp (bestRandom_inv (P := g.Inside) (fun _ h => h)
        (fun _ _ _ => set_inside hp _) (r i) hq hb)
      have t1 := (trySolve_inv (inside_inv hp) hq1).1
      by_cases c : (g.trySolve (g.setGuess q1)).1 = true
      · rw [if_pos c] at he
        injection he with he
        rw [he] at c; cases c
      · rw [if_neg c] at he
        have hno : ¬ g.checkTolerances (g.trySolve (g.setGuess q1)).2 :=
          try_no hp hn hf _ _ _ _ (.inr ⟨hs, rfl⟩) (Bool.eq_false_iff.mpr c)
        by_cases c2 : g.error (g.trySolve (g.setGuess q1)).2 < bd
        · rw [if_pos c2] at he
          exact ih _ _ _ _ _ (by rw [set_eq t1]; exact hno) t1 he
        · rw [if_neg c2] at he
          exact ih _ _ _ _ _ h t1 he

/-! ## No exception -/

theorem randomLoop_some (hp : g.Proper) (hf : ∀ q, g.Inside q → g.error q < fltMax) (r : Nat → Config n) : ∀ (k j : Nat) (bd : ℝ)
    (best : Option (Config n)) (q : Config n), (best ≠ none ∨ (0 < k ∧ bd = fltMax)) →
    g.randomLoop r k j bd best q ≠ none := by
  intro k
  induction k with
  | zero =>
    intro j bd best q h
    rcases h with h | h
    · exact h
    · omega
  | succ k ih =>
    intro j bd best q h
    unfold Gaze.randomLoop
    dsimp only
    by_cases c : g.error (g.setJointsRandom (r j) q) < bd
    · rw [if_pos c]; exact ih _ _ _ _ (.inl (by simp))
    · rw [if_neg c]
      rcases h with h | h
      · exact ih _ _ _ _ (.inl h)
      · rw [h.2] at c; exact absurd (hf _ (set_inside hp _)) c

theorem bestRandom_some (hp : g.Proper) (hf : ∀ q, g.Inside q → g.error q < fltMax) (r : Nat → Config n) (t : Nat) (q : Config n) :
    g.setBestRandom r t q ≠ none := by
  unfold Gaze.setBestRandom
  dsimp only
  intro h
  rw [Option.map_eq_none_iff] at h
  refine randomLoop_some hp hf r _ _ _ _ _ (.inr ⟨?_, rfl⟩) h
  split_ifs <;> omega

theorem solveLoop_some (hp : g.Proper) (hf : ∀ q, g.Inside q → g.error q < fltMax) (r : Nat → Nat → Config n) : ∀ (k i : Nat) (best : Config n)
    (bd : ℝ) (q : Config n), g.solveLoop r k i best bd q ≠ none := by
  intro k
  induction k with
  | zero => intro i best bd q h; cases h
  | succ k ih =>
    intro i best bd q
    unfold Gaze.solveLoop
    cases hb : g.setBestRandom (r i) g.randomTriesToGetBestConfig q with
    | none => exact absurd hb (bestRandom_some hp hf _ _ _)
    | some q1 =>
      dsimp only
      split_ifs
      · simp
      · exact ih _ _ _ _
      · exact ih _ _ _ _

/-! ## The best end -/

theorem solveLoop_le (hp : g.Proper) (r : Nat → Nat → Config n) : ∀ (k i : Nat) (best : Config n) (bd : ℝ)
    (q q' : Config n), g.Inside q → g.Inside best → g.error best ≤ bd →
    g.solveLoop r k i best bd q = some (false, q') → g.error q' ≤ bd := by
  intro k
  induction k with
  | zero =>
    intro i best bd q q' _ hb h he
    injection he with he
    injection he with _ he
    rw [← he, set_eq hb]; exact h
  | succ k ih =>
    intro i best bd q q' hq hbest h he
    unfold Gaze.solveLoop at he
    cases hb : g.setBestRandom (r i) g.randomTriesToGetBestConfig q with
    | none => rw [hb] at he; cases he
    | some q1 =>
      rw [hb] at he
      dsimp only at he
      have hq1 := guess_inside hp (bestRandom_inv (P := g.Inside) (fun _ h => h)
        (fun _ _ _ => set_inside hp _) (r i) hq hb)
      have t1 := (trySolve_inv (inside_inv hp) hq1).1
      by_cases c : (g.trySolve (g.setGuess q1)).1 = true
      · rw [if_pos c] at he
        injection he with he
        rw [he] at c; cases c
      · rw [if_neg c] at he
        by_cases c2 : g.error (g.trySolve (g.setGuess q1)).2 < bd
        · rw [if_pos c2] at he
          exact (ih _ _ _ _ _ t1 t1 (le_refl _) he).trans c2.le
        · rw [if_neg c2] at he
          exact ih _ _ _ _ _ t1 hbest h he

theorem solveLoop_more (hp : g.Proper) (r : Nat → Nat → Config n) : ∀ (k k' i : Nat) (best : Config n) (bd : ℝ)
    (q a b : Config n), k ≤ k' → g.Inside q → g.Inside best → bd = g.error best →
    g.solveLoop r k i best bd q = some (false, a) → g.solveLoop r k' i best bd q = some (false, b) →
    g.error b ≤ g.error a := by
  intro k
  induction k with
  | zero =>
    intro k' i best bd q a b _ hq hb h ha hb'
    injection ha with ha
    injection ha with _ ha
    rw [← ha, set_eq hb, ← h]
    exact solveLoop_le hp r _ _ _ _ _ _ hq hb h.ge hb'
  | succ k ih =>
    intro k' i best bd q a b hk hq hbest h ha hb'
    obtain ⟨k', rfl⟩ : ∃ j, k' = j + 1 := ⟨k' - 1, by omega⟩
    unfold Gaze.solveLoop at ha hb'
    cases hb : g.setBestRandom (r i) g.randomTriesToGetBestConfig q with
    | none => rw [hb] at ha; cases ha
    | some q1 =>
      rw [hb] at ha hb'
      dsimp only at ha hb'
      have hq1 := guess_inside hp (bestRandom_inv (P := g.Inside) (fun _ h => h)
        (fun _ _ _ => set_inside hp _) (r i) hq hb)
      have t1 := (trySolve_inv (inside_inv hp) hq1).1
      by_cases c : (g.trySolve (g.setGuess q1)).1 = true
      · rw [if_pos c] at ha
        injection ha with ha
        rw [ha] at c; cases c
      · rw [if_neg c] at ha hb'
        by_cases c2 : g.error (g.trySolve (g.setGuess q1)).2 < bd
        · rw [if_pos c2] at ha hb'
          exact ih _ _ _ _ _ _ _ (by omega) t1 t1 rfl ha hb'
        · rw [if_neg c2] at ha hb'
          exact ih _ _ _ _ _ _ _ (by omega) t1 hbest h ha hb'

/-! ## One descent -/

theorem small_iff {q d : Config n} (h : g.step q = some d) : norm d < 1 / 100000 ↔ g.Small q := by
  unfold norm Gaze.Small
  rw [h]
  have e : ∑ i, d i * d i = ∑ i, ((some d).getD 0) i ^ 2 := Finset.sum_congr rfl fun i _ => by
    show d i * d i = d i ^ 2
    ring
  rw [e, Real.sqrt_lt' (by norm_num)]

theorem try_iff (hp : g.Proper) (hn : g.Numbers) : ∀ (k : Nat) (best : Config n) (bd : ℝ) (q : Config n),
    (g.tryLoop k best bd q).1 = true ↔
      ∃ j < k, g.Solved (g.move^[j + 1] q) ∧ ∀ i < j, ¬ g.Small (g.move^[i] q) := by
  intro k
  induction k with
  | zero =>
    intro best bd q
    constructor
    · intro h; cases h
    · rintro ⟨j, hj, _⟩; omega
  | succ k ih =>
    intro best bd q
    unfold Gaze.tryLoop
    cases hs : g.step q with
    | none => exact absurd hs (hn q)
    | some d =>
      dsimp only
      rw [move_eq hp hs]
      by_cases c : g.checkTolerances (g.move q)
      · rw [if_pos c]
        exact ⟨fun _ => ⟨0, by omega, c, fun i hi => by omega⟩, fun _ => rfl⟩
      · rw [if_neg c]
        by_cases c2 : norm d < 1 / 100000
        · rw [if_pos c2]
          constructor
          · intro h; cases h
          · rintro ⟨j, hj, h1, h2⟩
            cases j with
            | zero => exact absurd h1 c
            | succ j => exact absurd ((small_iff hs).mp c2) (h2 0 (by omega))
        · rw [if_neg c2]
          have key : (∃ j < k, g.Solved (g.move^[j + 1] (g.move q)) ∧ ∀ i < j, ¬ g.Small (g.move^[i] (g.move q))) ↔
              ∃ j < k + 1, g.Solved (g.move^[j + 1] q) ∧ ∀ i < j, ¬ g.Small (g.move^[i] q) := by
            constructor
            · rintro ⟨j, hj, h1, h2⟩
              refine ⟨j + 1, by omega, h1, ?_⟩
              intro i hi
              cases i with
              | zero => exact fun h => c2 ((small_iff hs).mpr h)
              | succ i => exact h2 i (by omega)
            · rintro ⟨j, hj, h1, h2⟩
              cases j with
              | zero => exact absurd h1 c
              | succ j => exact ⟨j, by omega, h1, fun i hi => h2 (i + 1) (by omega)⟩
          rw [← key]
          split_ifs
          · exact ih _ _ _
          · exact ih _ _ _

end Simox.Gaz
