import Verif.Lgr.Spec
import Mathlib.Tactic.Linarith
import Mathlib.Tactic.NormNum

/-!
# C191: the log of a simulated robot
-/

namespace Simox.Lgr

variable {n : Nat}

/-- The logger holds the steps `s`. -/
structure Holds (l : Logger n) (s : List (ℝ × Reading n)) : Prop where
  h1 : l.targetAngleLog = s.map fun x => x.2.target
  h2 : l.targetVelocityLog = s.map fun x => x.2.targetSpeed
  h3 : l.actualAngleLog = s.map fun x => x.2.angle
  h4 : l.actualVelocityLog = s.map fun x => fun i => - x.2.speed i
  h5 : l.actualJointTorquesLog = s.map fun x => x.2.torque
  h6 : l.actualJointForcesLog = s.map fun x => x.2.forces
  h7 : l.actualCoMLog = s.map fun x => x.2.com
  h8 : l.actualCoMVelocityLog = s.map fun x => x.2.comVelocity
  h9 : l.timestamps = times 0 s
  h10 : l.timestamp = (s.map Prod.fst).sum

theorem times_append (t : ℝ) (s : List (ℝ × Reading n)) (x : ℝ × Reading n) :
    times t (s ++ [x]) = times t s ++ [t + (s.map Prod.fst).sum + x.1] := by
  induction s generalizing t with
  | nil => simp [times]
  | cons y s ih =>
    simp only [List.cons_append, times, ih, List.map_cons, List.sum_cons, List.cons.injEq, true_and,
      List.append_cancel_left_eq, and_true]
    linarith

theorem times_length (t : ℝ) (s : List (ℝ × Reading n)) : (times t s).length = s.length := by
  induction s generalizing t with
  | nil => rfl
  | cons y s ih => simp [times, ih]

theorem holds_log {l : Logger n} {s : List (ℝ × Reading n)} (h : Holds l s) (hr : l.running = true)
    (hm : s.length ≤ l.max_samples) (dt : ℝ) (r : Reading n) :
    Holds (l.log dt r) (s ++ [(dt, r)]) ∧ (l.log dt r).running = true ∧ (l.log dt r).max_samples = l.max_samples := by
  have hlen : ¬ l.actualAngleLog.length > l.max_samples := by rw [h.h3, List.length_map]; omega
  unfold Logger.log
  rw [if_neg (not_not.mpr hr), if_neg hlen]
  refine ⟨?_, hr, rfl⟩
  constructor
  · simp [h.h1]
  · simp [h.h2]
  · simp [h.h3]
  · simp [h.h4]
  · simp [h.h5]
  · simp [h.h6]
  · simp [h.h7]
  · simp [h.h8]
  · dsimp only
    rw [times_append, h.h9, h.h10, zero_add]
  · simp [h.h10]

theorem run_holds : ∀ (ops : List (Op n)) (l : Logger n) (s : List (ℝ × Reading n)) (b : Bool), Holds l s →
    s.length ≤ l.max_samples + 1 → (l.running = b ∨ (l.running = false ∧ s.length = l.max_samples + 1)) →
    Holds (run l ops) (s ++ (live b ops).take (l.max_samples + 1 - s.length)) := by
  intro ops
  induction ops with
  | nil => intro l s b h _ _; simpa [run, live] using h
  | cons o ops ih =>
    intro l s b h hl hb
    cases o with
    | start =>
      have := ih l.startLogging s true ⟨h.h1, h.h2, h.h3, h.h4, h.h5, h.h6, h.h7, h.h8, h.h9, h.h10⟩ hl (.inl rfl)
      cases b <;> exact this
    | stop =>
      have := ih l.stopLogging s false ⟨h.h1, h.h2, h.h3, h.h4, h.h5, h.h6, h.h7, h.h8, h.h9, h.h10⟩ hl (.inl rfl)
      cases b <;> exact this
    | log dt r =>
      unfold run
      by_cases hr : l.running = true
      · have hbt : b = true := by
          rcases hb with hb | hb
          · rw [← hb, hr]
          · rw [hr] at hb; cases hb.1
        subst hbt
        unfold live
        by_cases hm : s.length ≤ l.max_samples
        · obtain ⟨a1, a2, a3⟩ := holds_log h hr hm dt r
          have := ih (l.log dt r) (s ++ [(dt, r)]) true a1 (by rw [a3]; simpa using hm) (.inl a2)
          rw [a3] at this
          have e : l.max_samples + 1 - s.length = (l.max_samples + 1 - (s ++ [(dt, r)]).length) + 1 := by
            rw [List.length_append, List.length_singleton]; omega
          rw [e, List.take_succ_cons]
          simpa using this
        · have hfull : s.length = l.max_samples + 1 := by omega
          have hlog : l.log dt r = { l with running := false } := by
            unfold Logger.log
            rw [if_neg (not_not.mpr hr), if_pos (by rw [h.h3, List.length_map]; omega)]
          rw [hlog]
          have := ih { l with running := false } s false
            ⟨h.h1, h.h2, h.h3, h.h4, h.h5, h.h6, h.h7, h.h8, h.h9, h.h10⟩ hl (.inl rfl)
          dsimp only at this
          rw [hfull] at this ⊢
          simpa using this
      · have hlog : l.log dt r = l := by
          unfold Logger.log
          rw [if_pos hr]
        rw [hlog]
        cases b with
        | false =>
          exact ih l s false h hl hb
        | true =>
          have hf : s.length = l.max_samples + 1 := by
            rcases hb with hb | hb
            · exact absurd hb hr
            · exact hb.2
          have := ih l s true h hl hb
          rw [hf] at this ⊢
          simpa using this

theorem row_holds {l : Logger n} {s : List (ℝ × Reading n)} (h : Holds l s) {k : Nat} (hk : k < s.length) :
    l.row k = (table s)[k]? := by
  have ht : k < (times 0 s).length := by rw [times_length]; exact hk
  unfold Logger.row table
  rw [h.h1, h.h2, h.h3, h.h4, h.h5, h.h6, h.h7, h.h8, h.h9]
  simp only [List.getElem?_map, List.getElem?_eq_getElem hk, List.getElem?_eq_getElem ht, Option.map_some,
    List.getElem?_zipWith]
  rfl

theorem mapM_get {α : Type} (f : Nat → Option α) : ∀ (l : List α) (g : Nat → Nat),
    (∀ k (h : k < l.length), f (g k) = some l[k]) → ((List.range l.length).map g).mapM f = some l := by
  intro l
  induction l with
  | nil => intro g _; rfl
  | cons a l ih =>
    intro g h
    rw [List.length_cons, List.range_succ_eq_map, List.map_cons, List.map_map, List.mapM_cons, h 0 (by simp)]
    have := ih (g ∘ Nat.succ) fun k hk => h (k + 1) (by simpa using hk)
    rw [this]
    rfl

/-- **C191.** For every history of switching on and off and of steps of the engine, the file has, under the header, one
row for each step that was taken while the switch was on, in this order, until there are `max_samples + 1`: with the
readings of that step and the sum of the durations of the logged steps so far. Nothing is read out of bounds. Without
such steps the file is not touched. -/
theorem C191_file (max_samples : Nat) (ops : List (Op n)) (names : Fin n → String) :
    let steps := (live false ops).take (max_samples + 1)
    (steps = [] → (run (Logger.init max_samples) ops).writeToFile names = .untouched) ∧
      (steps ≠ [] → (run (Logger.init max_samples) ops).writeToFile names = .rows (header names :: table steps)) := by
  intro steps
  have h : Holds (run (Logger.init max_samples) ops) steps :=
    run_holds ops (Logger.init max_samples) [] false
      ⟨rfl, rfl, rfl, rfl, rfl, rfl, rfl, rfl, rfl, by simp [Logger.init]⟩ (by simp) (.inl rfl)
  have hl : (table steps).length = steps.length := by
    unfold table
    rw [List.length_zipWith, times_length, Nat.min_self]
  constructor
  · intro h0
    unfold Logger.writeToFile
    rw [if_pos (by rw [h.h1, h0]; rfl)]
  · intro h0
    have hpos : steps.length ≠ 0 := fun c => h0 (List.length_eq_zero_iff.mp c)
    unfold Logger.writeToFile
    rw [if_neg (by rw [h.h1, List.length_map]; exact hpos), h.h9, times_length]
    have := mapM_get (run (Logger.init max_samples) ops).row (table steps) id fun k hk => by
      show (run (Logger.init max_samples) ops).row k = _
      rw [row_holds h (by rw [← hl]; exact hk), List.getElem?_eq_getElem hk]
    rw [List.map_id, hl] at this
    rw [this]

/-- **C191.** Every row has as many cells as the header: one for the time, eight for each joint and six for the centre
of mass. -/
theorem C191_columns (names : Fin n → String) (t : ℝ) (r : Reading n) :
    (header names).length = 7 + 8 * n ∧ (rowOf t r).length = 7 + 8 * n := by
  have key : ∀ (f : Fin n → List Cell), (∀ i, (f i).length = 8) → ((List.finRange n).flatMap f).length = 8 * n := by
    intro f hf
    rw [List.length_flatMap]
    have : (List.finRange n).map (fun i => (f i).length) = List.replicate n 8 := by
      rw [List.eq_replicate_iff]
      refine ⟨by simp, ?_⟩
      intro b hb
      obtain ⟨i, _, rfl⟩ := List.mem_map.mp hb
      exact hf i
    rw [this]
    simp [Nat.mul_comm]
  constructor
  · unfold header
    rw [List.length_append, List.length_append, key _ fun i => rfl]
    simp only [List.length_cons, List.length_nil]
    omega
  · unfold rowOf
    rw [List.length_append, List.length_append, key _ fun i => rfl]
    simp only [List.length_cons, List.length_nil]
    omega

/-- **C191, false:** at most `max_samples` samples are kept. One more is, for every bound. -/
theorem C191_max_false (max_samples : Nat) (r : Reading n) (names : Fin n → String) :
    ∃ ops : List (Op n), ∃ rows, (run (Logger.init max_samples) ops).writeToFile names = .rows (header names :: rows) ∧
      rows.length = max_samples + 1 := by
  refine ⟨.start :: List.replicate (max_samples + 1) (.log 1 r), table (List.replicate (max_samples + 1) (1, r)), ?_, ?_⟩
  · have hlive : ∀ k, live true (List.replicate k (Op.log 1 r)) = List.replicate k (1, r) := by
      intro k
      induction k with
      | zero => rfl
      | succ k ih => rw [List.replicate_succ, List.replicate_succ]; unfold live; rw [ih]
    have := (C191_file max_samples (.start :: List.replicate (max_samples + 1) (.log 1 r)) names).2
    have e : (live false (.start :: List.replicate (max_samples + 1) (Op.log 1 r))).take (max_samples + 1) =
        List.replicate (max_samples + 1) (1, r) := by
      show (live true (List.replicate (max_samples + 1) (Op.log 1 r))).take (max_samples + 1) = _
      rw [hlive, List.take_of_length_le (by simp)]
    rw [e] at this
    exact this (by simp)
  · unfold table
    rw [List.length_zipWith, times_length]
    simp

/-- **C191, false:** the times are those of the simulation. A pause is not counted: here 10 seconds pass while the switch
is off, and the row of the last step says 2, not 12. -/
theorem C191_pause_false (r : Reading n) (names : Fin n → String) :
    (run (Logger.init 100) [.start, .log 1 r, .stop, .log 10 r, .start, .log 1 r]).writeToFile names =
      .rows [header names, rowOf 1 r, rowOf 2 r] := by
  have := (C191_file 100 [.start, .log 1 r, .stop, .log 10 r, .start, .log 1 r] names).2 (by simp [live])
  rw [this]
  simp [live, table, times]
  norm_num

/-! ## A concrete case -/

/-- A reading of a robot with two joints. -/
def sample : Reading 2 := ⟨fun _ => 1, fun _ => 2, fun _ => 3, fun _ => 4, fun _ => 5, fun _ _ => 6, fun _ => 7, fun _ => 8⟩

example : (header (n := 2) fun _ => "j").length = 23 ∧ (rowOf 1 sample).length = 23 := C191_columns _ _ _

example : (run (Logger.init 100) [.log 1 sample, .start, .stop, .log 1 sample]).writeToFile (fun _ => "j") = .untouched :=
  (C191_file 100 [.log 1 sample, .start, .stop, .log 1 sample] _).1 rfl

end Simox.Lgr
