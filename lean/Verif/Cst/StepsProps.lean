import Verif.Cst.Steps
import Verif.Cst.SolveProps

/-!
# The stepwise solvers
-/

namespace Simox.Cst

open Kin Kin.Spec Jac Jac.Spec Ik Ik.Spec Cst.Spec

/-! ## The list of constraints -/

/-- The contract of `std::sort` for the comparison by priority: a permutation, higher priorities first. -/
def Sorts (sort : (Nat → Int) → List Nat → List Nat) : Prop :=
  ∀ prio l, (sort prio l).Perm l ∧ (sort prio l).Pairwise fun a b => prio b ≤ prio a

/-- What a user expects: each constraint with its priority and whether it is hard. -/
def expected : List (Nat × Int × Bool) → BookOp → List (Nat × Int × Bool)
  | l, .add c p h => (c, p, h) :: l
  | l, .remove c => l.filter fun e => e.1 ≠ c

/-- No constraint is added while it is in the list. -/
def NoDuplicates : List (Nat × Int × Bool) → List BookOp → Prop
  | _, [] => True
  | l, .add c p h :: ops => (∀ e ∈ l, e.1 ≠ c) ∧ NoDuplicates (expected l (.add c p h)) ops
  | l, .remove c :: ops => NoDuplicates (expected l (.remove c)) ops

/-- The book agrees with what is expected. -/
structure Agrees (b : Book) (l : List (Nat × Int × Bool)) : Prop where
  nodup : (l.map Prod.fst).Nodup
  perm : b.list.Perm (l.map Prod.fst)
  sorted : b.list.Pairwise fun c d => b.prio d ≤ b.prio c
  entry : ∀ e ∈ l, b.prio e.1 = e.2.1 ∧ b.hard e.1 = e.2.2

theorem agrees_add {sort : (Nat → Int) → List Nat → List Nat} (hs : Sorts sort) {b : Book} {l : List (Nat × Int × Bool)} (h : Agrees b l) {c : Nat} {p : Int}
    {hd : Bool} (hc : ∀ e ∈ l, e.1 ≠ c) : Agrees (b.add sort c p hd) ((c, p, hd) :: l) := by
  refine ⟨?_, ?_, (hs _ _).2, fun e he => ?_⟩
  · rw [List.map_cons, List.nodup_cons]
    refine ⟨fun hm => ?_, h.nodup⟩
    obtain ⟨e, he, hec⟩ := List.mem_map.1 hm
    exact hc e he hec
  · refine (hs _ _).1.trans ?_
    rw [List.map_cons]
    exact (List.perm_append_comm).trans (List.Perm.cons c h.perm)
  · rcases List.mem_cons.1 he with rfl | he
    · simp [Book.add, set]
    · simp only [Book.add, set, if_neg (hc e he)]
      exact h.entry e he

theorem filter_fst (c : Nat) : ∀ l : List (Nat × Int × Bool), (l.map Prod.fst).Nodup →
    (l.filter fun e => e.1 ≠ c).map Prod.fst = (l.map Prod.fst).erase c
  | [], _ => rfl
  | e :: l, h => by
    rw [List.map_cons, List.nodup_cons] at h
    by_cases hc : e.1 = c
    · rw [List.filter_cons_of_neg (by simp [hc]), List.map_cons, hc, List.erase_cons_head, ← hc, filter_fst e.1 l h.2, List.erase_of_not_mem h.1]
    · rw [List.filter_cons_of_pos (by simp [hc]), List.map_cons, List.map_cons, List.erase_cons_tail (by simpa using hc), filter_fst c l h.2]

theorem agrees_remove {b : Book} {l : List (Nat × Int × Bool)} (h : Agrees b l) (c : Nat) : Agrees (b.remove c) (l.filter fun e => e.1 ≠ c) := by
  have hf := filter_fst c l h.nodup
  unfold Book.remove
  by_cases hc : c ∈ b.list
  · rw [if_pos hc]
    have hb : b.list.Nodup := h.perm.nodup_iff.2 h.nodup
    refine ⟨hf ▸ h.nodup.erase c, ?_, ?_, fun e he => ?_⟩
    · rw [hf]; exact h.perm.erase c
    · refine (h.sorted.sublist List.erase_sublist).imp_of_mem fun {x y} hx hy hxy => ?_
      have h1 : x ≠ c := (hb.mem_erase_iff.1 hx).1
      have h2 : y ≠ c := (hb.mem_erase_iff.1 hy).1
      simp only [set, if_neg h1, if_neg h2]
      exact hxy
    · obtain ⟨he1, he2⟩ := List.mem_filter.1 he
      have : e.1 ≠ c := by simpa using he2
      simp only [set, if_neg this]
      exact h.entry e he1
  · rw [if_neg hc]
    have : l.filter (fun e => e.1 ≠ c) = l := by
      rw [List.filter_eq_self]
      intro e he
      have : e.1 ≠ c := fun h' => hc (h.perm.mem_iff.2 (h' ▸ List.mem_map.2 ⟨e, he, rfl⟩))
      simpa using this
    rw [this]
    exact h

/-- **The list of constraints**: after any calls of `addConstraint` and `removeConstraint`, in which no constraint is added that is in the list already, the
list has exactly the constraints that were added and not removed since, once each, with decreasing priorities; priority and hardness are those given when the
constraint was added last. -/
theorem C107_constraints_partial (sort : (Nat → Int) → List Nat → List Nat) (hs : Sorts sort) (ops : List BookOp) (h : NoDuplicates [] ops) :
    Agrees (ops.foldl (Book.run sort) Book.empty) (ops.foldl expected []) := by
  have key : ∀ (ops : List BookOp) (b : Book) (l : List (Nat × Int × Bool)), Agrees b l → NoDuplicates l ops →
      Agrees (ops.foldl (Book.run sort) b) (ops.foldl expected l) := by
    intro ops
    induction ops with
    | nil => intro b l h _; exact h
    | cons op ops ih =>
      intro b l h hn
      cases op with
      | add c p hd => exact ih _ _ (agrees_add hs h hn.1) hn.2
      | remove c => exact ih _ _ (agrees_remove h c) hn
  exact key ops _ _ ⟨by simp, by simp [Book.empty], by simp [Book.empty], by simp⟩ h

/-- Sorting by insertion: a way to sort. -/
def insertSort (prio : Nat → Int) (l : List Nat) : List Nat := l.mergeSort fun a b => decide (prio b ≤ prio a)

theorem insertSort_sorts : Sorts insertSort := fun prio l => ⟨List.mergeSort_perm _ _, by
  have := List.pairwise_mergeSort (le := fun a b => decide (prio b ≤ prio a)) (by intro a b c; simp; omega) (by intro a b; simp; omega) l
  refine this.imp fun {a b} h => ?_
  simpa using h⟩

/-- A history with a constraint that is removed and added again. -/
example : NoDuplicates [] [.add 1 5 true, .add 2 7 false, .remove 1, .add 1 9 false, .remove 3] := by simp [NoDuplicates, expected]

/-- **A constraint that was added twice and removed once** is still in the list, but is no longer hard: it is not checked any more. -/
theorem C107_constraints_false (sort : (Nat → Int) → List Nat → List Nat) (hs : Sorts sort) :
    let b := [.add 1 5 true, .add 1 5 true, .remove 1].foldl (Book.run sort) Book.empty
    b.list = [1] ∧ b.hard 1 = false ∧ ∀ (σ : Type) (check : Nat → σ → Bool) (s : σ), reached b check s = true := by
  have h1 : ∀ prio, sort prio ([] ++ [1]) = [1] := fun prio => List.perm_singleton.1 (hs prio ([] ++ [1])).1
  have h2 : ∀ prio, sort prio ([1] ++ [1]) = [1, 1] := fun prio => by
    have := (hs prio ([1] ++ [1])).1
    have h3 : ([1] ++ [1] : List Nat) = List.replicate 2 1 := rfl
    rw [h3] at this ⊢
    exact List.perm_replicate.1 this
  have hl : ([.add 1 5 true, .add 1 5 true, .remove 1].foldl (Book.run sort) Book.empty).list = [1] := by
    simp only [List.foldl_cons, List.foldl_nil, Book.run, Book.add, Book.empty, h1, h2, Book.remove]
    simp
  have hh : ([.add 1 5 true, .add 1 5 true, .remove 1].foldl (Book.run sort) Book.empty).hard 1 = false := by
    simp only [List.foldl_cons, List.foldl_nil, Book.run, Book.add, Book.empty, h1, h2, Book.remove]
    simp [set]
  refine ⟨hl, hh, fun σ check s => ?_⟩
  unfold reached
  rw [hl]
  simp only [List.all_cons, List.all_nil, hh]
  simp

/-! ## The loop -/

/-- The hard constraints are within their tolerances. -/
def Good {σ : Type} (b : Book) (check : Nat → σ → Bool) (s : σ) : Prop := ∀ c ∈ b.list, b.hard c = true → check c s = true

theorem reached_iff {σ : Type} (b : Book) (check : Nat → σ → Bool) (s : σ) : reached b check s = true ↔ Good b check s := by
  unfold reached Good
  rw [List.all_eq_true]
  refine forall_congr' fun c => forall_congr' fun _ => ?_
  cases b.hard c <;> simp

/-- `s'` is reached from `s` in `n` steps that all succeed, with the goal not reached after any of them but possibly the last. -/
inductive Run {σ : Type} (good : σ → Prop) (step : σ → Bool × σ) : Nat → σ → σ → Prop
  | zero (s : σ) : Run good step 0 s s
  | next {n : Nat} {s s' : σ} (h : (step s).1 = true) (hg : n = 0 ∨ ¬ good (step s).2) (hr : Run good step n (step s).2 s') : Run good step (n + 1) s s'

theorem loop_spec' {σ : Type} (b : Book) (check : Nat → σ → Bool) (step : σ → Bool × σ) : ∀ (n : Nat) (p : Prog σ),
    let res := solveLoop b check step false n p
    res.2.running = false ∧
    (res.1 = true → ∃ m < n, Run (Good b check) step (m + 1) p.st res.2.st ∧ Good b check res.2.st ∧ res.2.iter = p.iter + m) ∧
    (res.1 = false → ∃ m ≤ n, ∃ s, Run (Good b check) step m p.st s ∧ (0 < m → ¬ Good b check s) ∧ res.2.iter = p.iter + m ∧
      ((m = n ∧ res.2.st = s) ∨ ((step s).1 = false ∧ res.2.st = (step s).2)))
  | 0, p => by
    refine ⟨rfl, by simp [solveLoop], fun _ => ⟨0, le_refl _, p.st, .zero _, by simp, rfl, .inl ⟨rfl, rfl⟩⟩⟩
  | n + 1, p => by
    rw [solveLoop]
    by_cases h1 : (step p.st).1 = true
    · rw [if_neg (by simp [h1])]
      by_cases h2 : reached b check (step p.st).2 = true
      · rw [if_pos h2]
        exact ⟨rfl, fun _ => ⟨0, by omega, .next h1 (.inl rfl) (.zero _), (reached_iff _ _ _).1 h2, rfl⟩, by simp⟩
      · rw [if_neg h2, if_neg (by simp)]
        have hng : ¬ Good b check (step p.st).2 := fun h => h2 ((reached_iff _ _ _).2 h)
        obtain ⟨h3, h4, h5⟩ := loop_spec' b check step n { p with st := (step p.st).2, iter := p.iter + 1 }
        refine ⟨h3, fun h => ?_, fun h => ?_⟩
        · obtain ⟨m, hm, hr, hg, hi⟩ := h4 h
          exact ⟨m + 1, by omega, .next h1 (.inr hng) hr, hg, by rw [hi]; simp only; omega⟩
        · obtain ⟨m, hm, s, hr, hg, hi, hc⟩ := h5 h
          refine ⟨m + 1, by omega, s, .next h1 (.inr hng) hr, fun _ => ?_, by rw [hi]; simp only; omega, ?_⟩
          · rcases Nat.eq_zero_or_pos m with rfl | hm0
            · cases hr
              exact hng
            · exact hg hm0
          · rcases hc with ⟨rfl, h6⟩ | h6
            · exact .inl ⟨rfl, h6⟩
            · exact .inr h6
    · rw [if_pos (by simp [h1])]
      refine ⟨rfl, by simp, fun _ => ⟨0, by omega, p.st, .zero _, by simp, rfl, .inr ⟨by simpa using h1, rfl⟩⟩⟩

/-- **Solving in steps.** `solve` makes at most `maxIterations - getCurrentIteration()` steps. It returns true exactly after the first step after which all hard
constraints are within their tolerances. It returns false if a step fails before, or if they are not after all those steps. In both cases `getRunning` is
false afterwards, and `getCurrentIteration` has grown by the number of steps that succeeded without reaching the goal. -/
theorem C107_solve {σ : Type} (b : Book) (check : Nat → σ → Bool) (step : σ → Bool × σ) (maxIterations : Int) (p : Prog σ) :
    let res := solve b check step maxIterations false p
    res.2.running = false ∧
    (res.1 = true → ∃ m : Nat, p.iter + m < maxIterations ∧ Run (Good b check) step (m + 1) p.st res.2.st ∧ Good b check res.2.st ∧ res.2.iter = p.iter + m) ∧
    (res.1 = false → ∃ m : Nat, ∃ s, (m = 0 ∨ p.iter + m ≤ maxIterations) ∧ Run (Good b check) step m p.st s ∧ (0 < m → ¬ Good b check s) ∧ res.2.iter = p.iter + m ∧
      ((maxIterations ≤ p.iter + m ∧ res.2.st = s) ∨ ((step s).1 = false ∧ res.2.st = (step s).2))) := by
  obtain ⟨h1, h2, h3⟩ := loop_spec' b check step (maxIterations - p.iter).toNat p
  refine ⟨h1, fun h => ?_, fun h => ?_⟩
  · obtain ⟨m, hm, h4⟩ := h2 h
    exact ⟨m, by omega, h4⟩
  · obtain ⟨m, hm, s, hr, hg, hi, hc⟩ := h3 h
    refine ⟨m, s, by omega, hr, hg, hi, ?_⟩
    rcases hc with ⟨rfl, h6⟩ | h6
    · exact .inl ⟨by omega, h6⟩
    · exact .inr h6

/-- **Solving step by step** makes one step at most. It returns false with `getRunning` as before exactly if the step succeeded without reaching the goal. -/
theorem C107_stepwise {σ : Type} (b : Book) (check : Nat → σ → Bool) (step : σ → Bool × σ) (maxIterations : Int) (p : Prog σ) :
    (p.iter < maxIterations → solve b check step maxIterations true p =
      if (step p.st).1 = false then (false, ⟨(step p.st).2, false, p.iter⟩)
      else if reached b check (step p.st).2 then (true, ⟨(step p.st).2, false, p.iter⟩)
      else (false, ⟨(step p.st).2, p.running, p.iter + 1⟩)) ∧
    (maxIterations ≤ p.iter → solve b check step maxIterations true p = (false, ⟨p.st, false, p.iter⟩)) := by
  constructor
  · intro h
    obtain ⟨n, hn⟩ : ∃ n, (maxIterations - p.iter).toNat = n + 1 := ⟨(maxIterations - p.iter).toNat - 1, by omega⟩
    unfold solve
    rw [hn, solveLoop]
    cases hs : (step p.st).1
    · rfl
    · simp only [Bool.not_true, Bool.false_eq_true, if_false, Bool.true_eq_false, if_true]
  · intro h
    unfold solve
    rw [show (maxIterations - p.iter).toNat = 0 by omega]
    rfl

/-- **A goal that is reached already is not noticed**: the constraints are checked only after a step; a step that fails, for instance because it would not
change anything, makes `solve` return false. -/
theorem C107_already_false : ∃ (b : Book) (check : Nat → Unit → Bool) (step : Unit → Bool × Unit), Good b check () ∧
    (solve b check step 100 false ⟨(), true, 0⟩).1 = false :=
  ⟨⟨[1], fun _ => 0, fun _ => true⟩, fun _ _ => true, fun _ => (false, ()), fun _ _ _ => rfl, rfl⟩

/-- `initialize` moves the robot exactly if one constraint asks for it, and refuses if several do; then the solver is not started. -/
theorem C107_initialize {σ : Type} (b : Book) (pose : Nat → Option Pose3) (place : Pose3 → σ → σ) (first : σ) (p : Prog σ) :
    ((start b pose place first p).1 = false ↔ ∃ (i j c d : Nat), i < j ∧ b.list[i]? = some c ∧ b.list[j]? = some d ∧ pose c ≠ none ∧ pose d ≠ none) ∧
    ((start b pose place first p).1 = true → (start b pose place first p).2.running = true ∧ (start b pose place first p).2.iter = 0 ∧
      (((∀ c ∈ b.list, pose c = none) ∧ (start b pose place first p).2.st = first) ∨
        ∃ c ∈ b.list, ∃ x, pose c = some x ∧ (start b pose place first p).2.st = place x first)) ∧
    ((start b pose place first p).1 = false → (start b pose place first p).2 = { p with st := first }) := by
  have key : ∀ l : List Nat, 2 ≤ (l.filterMap pose).length ↔ ∃ (i j c d : Nat), i < j ∧ l[i]? = some c ∧ l[j]? = some d ∧ pose c ≠ none ∧ pose d ≠ none := by
    intro l
    induction l with
    | nil => simp
    | cons a l ih =>
      rcases ha : pose a with _ | x
      · rw [List.filterMap_cons_none ha, ih]
        constructor
        · rintro ⟨i, j, c, d, h, h1, h2, h3⟩
          exact ⟨i + 1, j + 1, c, d, by omega, by simpa using h1, by simpa using h2, h3⟩
        · rintro ⟨i, j, c, d, h, h1, h2, h3, h4⟩
          rcases i with _ | i
          · simp only [List.getElem?_cons_zero, Option.some.injEq] at h1
            exact absurd (h1 ▸ ha) h3
          · rcases j with _ | j
            · omega
            · exact ⟨i, j, c, d, by omega, by simpa using h1, by simpa using h2, h3, h4⟩
      · rw [List.filterMap_cons_some ha, List.length_cons]
        constructor
        · intro h
          have : 0 < (l.filterMap pose).length := by omega
          obtain ⟨y, hy⟩ := List.exists_mem_of_length_pos this
          obtain ⟨d, hd, hdy⟩ := List.mem_filterMap.1 hy
          obtain ⟨j, hj⟩ := List.getElem?_of_mem hd
          exact ⟨0, j + 1, a, d, by omega, rfl, by simpa using hj, by simp [ha], by simp [hdy]⟩
        · rintro ⟨i, j, c, d, h, h1, h2, h3, h4⟩
          rcases j with _ | j
          · omega
          · obtain ⟨y, hy⟩ := Option.ne_none_iff_exists'.1 h4
            have : y ∈ l.filterMap pose := List.mem_filterMap.2 ⟨d, List.mem_of_getElem? (i := j) (by simpa using h2), hy⟩
            have := List.length_pos_of_mem this
            omega
  rw [← key b.list]
  unfold start
  rcases hl : b.list.filterMap pose with _ | ⟨x, _ | ⟨y, l⟩⟩
  · refine ⟨by simp, fun _ => ⟨rfl, rfl, .inl ⟨fun c hc => ?_, rfl⟩⟩, by simp⟩
    by_contra hne
    obtain ⟨z, hz⟩ := Option.ne_none_iff_exists'.1 hne
    have : z ∈ b.list.filterMap pose := List.mem_filterMap.2 ⟨c, hc, hz⟩
    rw [hl] at this
    simp at this
  · refine ⟨by simp, fun _ => ⟨rfl, rfl, .inr ?_⟩, by simp⟩
    have : x ∈ b.list.filterMap pose := by rw [hl]; simp
    obtain ⟨c, hc, hx⟩ := List.mem_filterMap.1 this
    exact ⟨c, hc, x, hx, rfl⟩
  · exact ⟨by simp, by simp, fun _ => rfl⟩

/-! ## Steps -/

theorem moveBy_moved {r : Robot Pose3} {ns : NodeSet} (hu : Usable r ns) {fuel : Nat} (hf : 0 < fuel) {d : List ℝ} (hl : d.length = ns.nodes.length)
    {s : St Pose3} (hs : FK r s) : Moved r ns.nodes d s (moveBy r fuel ns d s) := by
  obtain ⟨s', h1, h2⟩ := set_ok hu hf (v := List.zipWith (fun n x => s.value n + x) ns.nodes d) (by simp [hl]) hs
  unfold moveBy
  rw [h1]
  exact moved_of hu.distinct hl h2

theorem raised_spec (hard : Nat → Bool) (err : Nat → ℝ) {eps : ℝ} (he : 0 ≤ eps) : ∀ (l : List Nat) (es : Nat → ℝ × ℝ), l.Nodup →
    ((raised hard err eps l es).1 = true ↔ ∀ c ∈ l, hard c = true → 0 < (es c).1 → err c ≤ (es c).1 + eps) ∧
    ((raised hard err eps l es).1 = true → (∀ c ∈ l, hard c = true → (raised hard err eps l es).2 c = (err c, (es c).1)) ∧
      ∀ c, (c ∉ l ∨ hard c = false) → (raised hard err eps l es).2 c = es c)
  | [], es, _ => by simp [raised]
  | c :: l, es, hn => by
    rw [List.nodup_cons] at hn
    rw [raised]
    by_cases hc : hard c = true
    · rw [if_pos hc]
      obtain ⟨h1, h2⟩ := raised_spec hard err he l (set es c (errorDifference (es c) (err c)).1) hn.2
      have hsame : ∀ d, d ≠ c → set es c (errorDifference (es c) (err c)).1 d = es d := fun d hd => if_neg hd
      have hne : ∀ d ∈ l, d ≠ c := fun d hd h => hn.1 (h ▸ hd)
      by_cases hr : (errorDifference (es c) (err c)).2 < -eps
      · simp only [hr, if_true]
        refine ⟨⟨by simp, fun h => ?_⟩, by simp⟩
        exfalso
        unfold errorDifference at hr
        by_cases h0 : (es c).1 ≤ 0
        · simp only [h0, if_true] at hr; linarith
        · simp only [h0, if_false] at hr
          linarith [h c (by simp) hc (not_le.1 h0)]
      · simp only [hr, if_false]
        refine ⟨?_, fun h => ⟨fun d hd hdh => ?_, fun d hd => ?_⟩⟩
        · rw [h1]
          constructor
          · intro h d hd hdh hd0
            rcases List.mem_cons.1 hd with rfl | hd
            · unfold errorDifference at hr
              rw [if_neg (not_le.2 hd0)] at hr
              linarith [not_lt.1 hr]
            · have := h d hd hdh
              rw [hsame d (hne d hd)] at this
              exact this hd0
          · intro h d hd hdh hd0
            rw [hsame d (hne d hd)] at hd0 ⊢
            exact h d (List.mem_cons_of_mem _ hd) hdh hd0
        · rcases List.mem_cons.1 hd with rfl | hd
          · rw [(h2 h).2 d (.inl hn.1)]
            simp [set, errorDifference]
          · rw [(h2 h).1 d hd hdh, hsame d (hne d hd)]
        · have hdc : d ≠ c := by
            rintro rfl
            rcases hd with hd | hd
            · simp at hd
            · rw [hc] at hd; simp at hd
          rw [(h2 h).2 d (hd.imp_left fun h' h'' => h' (List.mem_cons_of_mem _ h'')), hsame d hdc]
    · rw [if_neg hc]
      obtain ⟨h1, h2⟩ := raised_spec hard err he l es hn.2
      refine ⟨?_, fun h => ⟨fun d hd hdh => ?_, fun d hd => ?_⟩⟩
      · rw [h1]
        constructor
        · intro h d hd hdh
          rcases List.mem_cons.1 hd with rfl | hd
          · exact absurd hdh hc
          · exact h d hd hdh
        · intro h d hd
          exact h d (List.mem_cons_of_mem _ hd)
      · rcases List.mem_cons.1 hd with rfl | hd
        · exact absurd hdh hc
        · exact (h2 h).1 d hd hdh
      · exact (h2 h).2 d (hd.imp_left fun h' h'' => h' (List.mem_cons_of_mem _ h''))

/-- **A step of the hierarchical solver** succeeds exactly if it differs from the step before by at least `stallEpsilon` and no hard constraint has an error
that is larger than at the step before by more than `raiseEpsilon` (if that error was positive). Then the joints are moved by the step computed for where the
robot was; otherwise the robot stays where it is. -/
theorem C107_step (r : Robot Pose3) (fuel : Nat) (hf : 0 < fuel) (o : Hier) (hu : Usable r o.ns) (hb : o.book.list.Nodup) (he : 0 ≤ o.raiseEpsilon)
    (compute : St Pose3 → List ℝ) (err : Nat → St Pose3 → ℝ) (h : HSt) (hs : FK r h.rob) (hl : (compute h.rob).length = o.ns.nodes.length) :
    let res := o.step r fuel compute err h
    (res.1 = true ↔ (∀ d, h.lastDelta = some d → d ≠ [] → o.stallEpsilon ≤ Ik.Spec.length (List.zipWith (fun x y => x - y) (compute h.rob) d)) ∧
      ∀ c ∈ o.book.list, o.book.hard c = true → 0 < (h.errs c).1 → err c h.rob ≤ (h.errs c).1 + o.raiseEpsilon) ∧
    (res.1 = true → Moved r o.ns.nodes (compute h.rob) h.rob res.2.rob ∧ res.2.lastDelta = some (compute h.rob) ∧
      ∀ c ∈ o.book.list, o.book.hard c = true → (res.2.errs c).1 = err c h.rob) ∧
    (res.1 = false → res.2.rob = h.rob) := by
  obtain ⟨h1, h2⟩ := raised_spec o.book.hard (fun c => err c h.rob) he o.book.list h.errs hb
  have hst : stalled o.stallEpsilon (compute h.rob) h.lastDelta = false ↔
      ∀ d, h.lastDelta = some d → d ≠ [] → o.stallEpsilon ≤ Ik.Spec.length (List.zipWith (fun x y => x - y) (compute h.rob) d) := by
    rcases hd : h.lastDelta with _ | d
    · simp [stalled]
    · simp only [stalled, Bool.and_eq_false_iff, decide_eq_false_iff_not, not_lt, Option.some.injEq, distance, stepNorm_eq]
      constructor
      · rintro h3 d' rfl hne
        rcases h3 with h3 | h3
        · exact absurd (List.eq_nil_of_length_eq_zero (by omega)) hne
        · exact h3
      · intro h3
        by_cases hne : d = []
        · left; simp [hne]
        · right; exact h3 d rfl hne
  intro res
  by_cases h3 : stalled o.stallEpsilon (compute h.rob) h.lastDelta = true
  · have hres : res = (false, h) := by simp only [res, Hier.step, h3, if_true]
    rw [hres]
    refine ⟨⟨by simp, fun h4 => ?_⟩, by simp, fun _ => rfl⟩
    rw [hst.2 h4.1] at h3
    simp at h3
  · have h3' := hst.1 (by simpa using h3)
    by_cases h4 : (raised o.book.hard (fun c => err c h.rob) o.raiseEpsilon o.book.list h.errs).1 = true
    · have hres : res = (true, ⟨moveBy r fuel o.ns (compute h.rob) h.rob, some (compute h.rob),
          (raised o.book.hard (fun c => err c h.rob) o.raiseEpsilon o.book.list h.errs).2⟩) := by
        simp only [res, Hier.step]
        rw [if_neg h3, if_neg (by simp [h4])]
      rw [hres]
      refine ⟨⟨fun _ => ⟨h3', h1.1 h4⟩, fun _ => rfl⟩, fun _ => ⟨moveBy_moved hu hf hl hs, rfl, fun c hc hh => ?_⟩, by simp⟩
      show ((raised o.book.hard (fun c => err c h.rob) o.raiseEpsilon o.book.list h.errs).2 c).1 = _
      rw [(h2 h4).1 c hc hh]
    · have hres : res = (false, ⟨h.rob, some (compute h.rob),
          (raised o.book.hard (fun c => err c h.rob) o.raiseEpsilon o.book.list h.errs).2⟩) := by
        simp only [res, Hier.step]
        rw [if_neg h3, if_pos (by simp [h4])]
      rw [hres]
      refine ⟨⟨by simp, fun h5 => absurd (h1.2 h5.2) h4⟩, by simp, fun _ => rfl⟩

/-- A step of the stacked solver always succeeds. -/
theorem C107_stacked (r : Robot Pose3) (fuel : Nat) (hf : 0 < fuel) (ns : NodeSet) (hu : Usable r ns) (compute : St Pose3 → List ℝ) (s : St Pose3) (hs : FK r s)
    (hl : (compute s).length = ns.nodes.length) :
    (stackedStep r fuel ns compute s).1 = true ∧ Moved r ns.nodes (compute s) s (stackedStep r fuel ns compute s).2 :=
  ⟨rfl, moveBy_moved hu hf hl hs⟩

/-- The hypotheses of `C107_step` are met by a slide. -/
example := C107_step slide.toRobot 1 one_pos ⟨⟨[0], some 0⟩, ⟨[4], fun _ => 0, fun _ => true⟩, 1 / 100, 1 / 2⟩ slide_usable (by simp) (by norm_num)
  (fun s => [1 - s.value 0]) (fun _ s => |1 - s.value 0|) ⟨slideState, some [1], fun _ => (-1, -1)⟩ slide_fk rfl

/-- **A second run can fail at once**: `initialize` does not forget the step of the run before. After one step the slide is moved back; the solver is
initialised again, and the same step from the same place now counts as a stall. -/
theorem C107_restart_false : ∃ (r : JRobot) (o : Hier) (compute : St Pose3 → List ℝ) (err : Nat → St Pose3 → ℝ) (s : St Pose3),
    Usable r.toRobot o.ns ∧ FK r.toRobot s ∧
    let first : HSt := HSt.first o.book ⟨s, none, fun _ => (0, 0)⟩
    let one := o.step r.toRobot 1 compute err first
    let again := HSt.first o.book { one.2 with rob := s }
    one.1 = true ∧ again.rob = first.rob ∧ again.errs 4 = first.errs 4 ∧ (o.step r.toRobot 1 compute err again).1 = false := by
  let o : Hier := ⟨⟨[0], some 0⟩, ⟨[4], fun _ => 0, fun _ => true⟩, 1 / 100, 1 / 2⟩
  let compute : St Pose3 → List ℝ := fun s => [1 - s.value 0]
  let err : Nat → St Pose3 → ℝ := fun _ s => |1 - s.value 0|
  have hstep := fun (h : HSt) (hs : FK slide.toRobot h.rob) => C107_step slide.toRobot 1 one_pos o slide_usable (by simp [o]) (by norm_num [o]) compute err h hs rfl
  refine ⟨slide, o, compute, err, slideState, slide_usable, slide_fk, ?_⟩
  intro first one again
  have h1 : one.1 = true := (hstep first slide_fk).1.2 ⟨by simp [first, HSt.first], by
    intro c hc _ h0
    have : c ∈ o.book.list := hc
    simp only [first, HSt.first, if_pos this] at h0
    norm_num at h0⟩
  have h2 : one.2.lastDelta = some (compute slideState) := ((hstep first slide_fk).2.1 h1).2.1
  refine ⟨h1, rfl, by simp [again, first, HSt.first, o], ?_⟩
  have h3 := (hstep again slide_fk).1
  by_contra hne
  have h4 := (h3.1 (by simpa using hne)).1 (compute slideState) h2 (by simp [compute])
  have h5 : again.rob = slideState := rfl
  rw [h5] at h4
  simp [o, compute, Ik.Spec.length] at h4
  norm_num at h4

end Simox.Cst
