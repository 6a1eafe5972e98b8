import Verif.Threads.Spec

/-!
# Property C27: hand-over between clients and the worker thread
-/

namespace Simox.Threads

open Spec

variable {R : Type} {ok : R → Bool}

/-- The inductive invariant. -/
structure Inv (ok : R → Bool) (s : St R) : Prop where
  /-- only the worker created last may be active -/
  only : ∀ w p, s.workers[w]? = some p → WPc.active p → w + 1 = s.workers.length ∧ s.started = true
  run : s.started = true → ∃ w, Active s w
  handle : s.handle = if s.workers.length = 0 then none else some (s.workers.length - 1)
  running : s.started = true → s.result = none ∧ s.finished = false
  ended : s.started = false → s.result = lastResult s ∧ s.finished = (s.result.map ok).getD false
  joining : ∀ c w, s.client c = .joining w → w < s.workers.length
  checked : ∀ c b, s.client c = .intChecked b → 0 < s.workers.length

theorem inv_init : Inv ok (St.init R) := by
  refine ⟨?_, ?_, rfl, ?_, ?_, ?_, ?_⟩
  · intro w p h; simp [St.init] at h
  · intro h; simp [St.init] at h
  · intro h; simp [St.init] at h
  · intro _; exact ⟨rfl, rfl⟩
  · intro c w h; simp [St.init] at h
  · intro c b h; simp [St.init] at h

/-- The invariant does not depend on the clients' program counters apart from its last two parts. -/
theorem Inv.setClient {s : St R} (h : Inv ok s) (c : Nat) (p : CPc)
    (hj : ∀ w, p = .joining w → w < s.workers.length)
    (hc : ∀ b, p = .intChecked b → 0 < s.workers.length) : Inv ok (setClient s c p) := by
  refine ⟨h.only, h.run, h.handle, h.running, h.ended, ?_, ?_⟩
  · intro c' w hw
    simp only [Threads.setClient] at hw ⊢
    split at hw
    · exact hj w hw
    · exact h.joining c' w hw
  · intro c' b hb
    simp only [Threads.setClient] at hb ⊢
    split at hb
    · exact hc b hb
    · exact h.checked c' b hb

theorem Inv.setStop {s : St R} (h : Inv ok s) (b : Bool) : Inv ok { s with stop := b } :=
  ⟨h.only, h.run, h.handle, h.running, h.ended, h.joining, h.checked⟩

/-- A worker moving on without ending. -/
theorem Inv.setWorker {s : St R} (h : Inv ok s) (w : Nat) (p q : WPc R) (hw : s.workers[w]? = some p)
    (hp : WPc.active p) (hq : WPc.active q) : Inv ok (setWorker s w q) := by
  have hlt : w < s.workers.length := by
    by_cases hc : w < s.workers.length
    · exact hc
    · rw [List.getElem?_eq_none (by omega)] at hw; cases hw
  obtain ⟨hlast, hst⟩ := h.only w p hw hp
  refine ⟨?_, ?_, ?_, h.running, ?_, ?_, ?_⟩
  · intro w' p' hw' hp'
    simp only [Threads.setWorker, List.length_set] at hw' ⊢
    by_cases he : w = w'
    · subst he; exact ⟨hlast, hst⟩
    · rw [List.getElem?_set_ne he] at hw'; exact h.only w' p' hw' hp'
  · intro _
    refine ⟨w, q, ?_, hq⟩
    simp only [Threads.setWorker]
    rw [List.getElem?_set_self hlt]
  · simp only [Threads.setWorker, List.length_set]; exact h.handle
  · intro hf
    simp only [Threads.setWorker] at hf
    rw [hst] at hf; cases hf
  · intro c w' hc
    simp only [Threads.setWorker, List.length_set]
    exact h.joining c w' hc
  · intro c b hc
    simp only [Threads.setWorker, List.length_set]
    exact h.checked c b hc

theorem inv_step {s s' : St R} {l : Label R} (h : Inv ok s) (st : Step ok s l s') : Inv ok s' := by
  cases st with
  | start hc hs =>
    refine ⟨?_, ?_, ?_, ?_, ?_, ?_, ?_⟩
    · intro w p hw hp
      refine ⟨?_, rfl⟩
      simp only [List.length_append, List.length_cons, List.length_nil] at hw ⊢
      by_cases hlt : w < s.workers.length
      · rw [List.getElem?_append_left hlt] at hw
        have := (h.only w p hw hp).2
        rw [hs] at this; cases this
      · have : w < (s.workers ++ [WPc.begin]).length := by
          by_cases hc : w < (s.workers ++ [WPc.begin (R := R)]).length
          · exact hc
          · rw [List.getElem?_eq_none (by omega)] at hw; cases hw
        simp at this
        omega
    · intro _
      refine ⟨s.workers.length, .begin, ?_, trivial⟩
      simp
    · simp
    · intro _; exact ⟨rfl, rfl⟩
    · intro hf; simp at hf
    · intro c' w hw
      have := h.joining c' w hw
      simp; omega
    · intro c' b hb
      simp
  | startIgnored _ _ => exact h
  | isRunning _ => exact h
  | intCheckTrue _ hs =>
    refine h.setClient _ _ (by intro w hw; cases hw) ?_
    intro b _
    obtain ⟨w, p, hw, _⟩ := h.run hs
    by_cases hc : 0 < s.workers.length
    · exact hc
    · rw [List.getElem?_eq_none (by omega)] at hw; cases hw
  | intCheckFalse _ _ => exact h
  | intSet _ => exact (h.setStop true).setClient _ _ (by intro w hw; cases hw) (by intro b hb; cases hb)
  | @intSetWait c w hc hh =>
    refine (h.setStop true).setClient _ _ ?_ (by intro b hb; cases hb)
    intro w' hw'
    cases hw'
    have := h.handle
    rw [hh] at this
    split at this
    · cases this
    · have := Option.some.inj this
      show w < s.workers.length
      omega
  | joined _ _ => exact h.setClient _ _ (by intro w hw; cases hw) (by intro b hb; cases hb)
  | getCheckTrue _ _ => exact h
  | getCheckFalse _ _ => exact h.setClient _ _ (by intro w hw; cases hw) (by intro b hb; cases hb)
  | getRead _ => exact h.setClient _ _ (by intro w hw; cases hw) (by intro b hb; cases hb)
  | wBegin hw => exact (h.setStop false).setWorker _ _ _ hw trivial trivial
  | wCycle _ _ => exact h
  | wReturn hw => exact h.setWorker _ _ _ hw trivial trivial
  | @wEnd w r hw =>
    have hlt : w < s.workers.length := by
      by_cases hc : w < s.workers.length
      · exact hc
      · rw [List.getElem?_eq_none (by omega)] at hw; cases hw
    obtain ⟨hlast, hst⟩ := h.only w _ hw trivial
    refine ⟨?_, ?_, ?_, ?_, ?_, ?_, ?_⟩
    · intro w' p' hw' hp'
      exfalso
      simp only [Threads.setWorker] at hw'
      by_cases he : w = w'
      · subst he
        rw [List.getElem?_set_self hlt] at hw'
        cases hw'
        exact hp'
      · rw [List.getElem?_set_ne he] at hw'
        have := (h.only w' p' hw' hp').1
        omega
    · intro hf; simp [Threads.setWorker] at hf
    · simp only [Threads.setWorker, List.length_set]; exact h.handle
    · intro hf; simp [Threads.setWorker] at hf
    · intro _
      have : lastResult (Threads.setWorker { s with
          started := false, finished := ok r, result := some r } w (.done r)) = some r := by
        unfold lastResult
        simp only [Threads.setWorker]
        rw [List.getLast?_eq_getElem?, List.length_set, show s.workers.length - 1 = w by omega,
          List.getElem?_set_self hlt]
      rw [this]
      exact ⟨rfl, rfl⟩
    · intro c w' hc
      simp only [Threads.setWorker, List.length_set]
      exact h.joining c w' hc
    · intro c b hc
      simp only [Threads.setWorker, List.length_set]
      exact h.checked c b hc

theorem inv_exec {s s' : St R} {tr : List (Label R)} (h : Inv ok s) (e : Exec ok s tr s') :
    Inv ok s' := by
  induction e with
  | nil => exact h
  | snoc _ st ih => exact inv_step ih st

theorem inv_reachable {s : St R} (h : Reachable ok s) : Inv ok s := by
  obtain ⟨tr, e⟩ := h
  exact inv_exec inv_init e

/-! ## The properties -/

/-- **C27.** Under every interleaving of any number of client threads, at most one worker is active, and
`isRunning()` is true exactly while one is. -/
theorem C27_one_worker (s : St R) (h : Reachable ok s) :
    (∀ w w', Active s w → Active s w' → w = w') ∧ (s.started = true ↔ ∃ w, Active s w) := by
  have i := inv_reachable h
  refine ⟨?_, i.run, ?_⟩
  · rintro w w' ⟨p, hp, ha⟩ ⟨p', hp', ha'⟩
    have := (i.only w p hp ha).1
    have := (i.only w' p' hp' ha').1
    omega
  · rintro ⟨w, p, hp, ha⟩
    exact (i.only w p hp ha).2

/-- **C27.** A result is visible only after the job that was started last has returned it: whenever
`getProcessedPath` returns something, it is the value returned by that job, and its thread has ended; and
the success flag is never set while a worker runs. -/
theorem C27_result (s s' : St R) (c : Nat) (v : R) (h : Reachable ok s)
    (st : Step ok s (.getRead c (some v)) s') :
    lastResult s = some v ∧ s.started = false := by
  have i := inv_reachable h
  generalize hl : Label.getRead c (some v) = l at st
  cases st <;> try cases hl
  injection hl with _ hr
  cases hs : s.started with
  | true => rw [(i.running hs).1] at hr; cases hr
  | false => exact ⟨by rw [← (i.ended hs).1, ← hr], rfl⟩

theorem C27_flags (s : St R) (h : Reachable ok s) :
    (s.started = true → s.result = none ∧ s.finished = false) ∧
    (s.started = false → s.finished = true → ∃ r, lastResult s = some r ∧ ok r = true) := by
  have i := inv_reachable h
  refine ⟨i.running, fun hs hf => ?_⟩
  obtain ⟨h1, h2⟩ := i.ended hs
  rw [hf] at h2
  cases hr : s.result with
  | none => rw [hr] at h2; cases h2
  | some r =>
    rw [hr] at h2
    exact ⟨r, by rw [← h1, hr], h2.symm⟩

/-- Work left for the worker once the stop flag is set. -/
def workLeft (s : St R) : Nat :=
  match s.workers.getLast? with
  | some .begin => 3
  | some .working => 2
  | some (.returned _) => 1
  | _ => 0

/-- The stop request has reached the job: the flag is set and the job will not clear it any more. -/
def Stopping (s : St R) : Prop :=
  ∃ p, s.workers.getLast? = some p ∧
    (p = .working ∧ s.stop = true ∨ (∃ r, p = .returned r) ∨ ∃ r, p = .done r)

theorem getLast?_of_active {s : St R} (i : Inv ok s) {w : Nat} {p : WPc R}
    (hw : s.workers[w]? = some p) (hp : WPc.active p) :
    s.workers.getLast? = some p ∧ w + 1 = s.workers.length := by
  have := (i.only w p hw hp).1
  refine ⟨?_, this⟩
  rw [List.getLast?_eq_getElem?, show s.workers.length - 1 = w by omega]
  exact hw

theorem getLast?_set {s : St R} {w : Nat} (q : WPc R) (hlast : w + 1 = s.workers.length) :
    (s.workers.set w q).getLast? = some q := by
  rw [List.getLast?_eq_getElem?, List.length_set, show s.workers.length - 1 = w by omega,
    List.getElem?_set_self (by omega)]

theorem stopping_step {s s' : St R} {l : Label R} (i : Inv ok s) (h : Stopping s)
    (st : Step ok s l s') (hs : Label.isStart l = false) :
    Stopping s' ∧ workLeft s' + (if Label.isWorker l then 1 else 0) ≤ workLeft s := by
  obtain ⟨p, hp, hcase⟩ := h
  cases st with
  | start _ _ => simp [Label.isStart] at hs
  | startIgnored _ _ => exact ⟨⟨p, hp, hcase⟩, Nat.le_refl _⟩
  | isRunning _ => exact ⟨⟨p, hp, hcase⟩, Nat.le_refl _⟩
  | intCheckTrue _ _ => exact ⟨⟨p, hp, hcase⟩, Nat.le_refl _⟩
  | intCheckFalse _ _ => exact ⟨⟨p, hp, hcase⟩, Nat.le_refl _⟩
  | intSet _ =>
    refine ⟨⟨p, hp, ?_⟩, Nat.le_refl _⟩
    rcases hcase with ⟨h1, _⟩ | h | h
    · exact Or.inl ⟨h1, rfl⟩
    · exact Or.inr (Or.inl h)
    · exact Or.inr (Or.inr h)
  | intSetWait _ _ =>
    refine ⟨⟨p, hp, ?_⟩, Nat.le_refl _⟩
    rcases hcase with ⟨h1, _⟩ | h | h
    · exact Or.inl ⟨h1, rfl⟩
    · exact Or.inr (Or.inl h)
    · exact Or.inr (Or.inr h)
  | joined _ _ => exact ⟨⟨p, hp, hcase⟩, Nat.le_refl _⟩
  | getCheckTrue _ _ => exact ⟨⟨p, hp, hcase⟩, Nat.le_refl _⟩
  | getCheckFalse _ _ => exact ⟨⟨p, hp, hcase⟩, Nat.le_refl _⟩
  | getRead _ => exact ⟨⟨p, hp, hcase⟩, Nat.le_refl _⟩
  | wBegin hw =>
    obtain ⟨h1, _⟩ := getLast?_of_active i hw trivial
    rw [hp] at h1; cases h1
    rcases hcase with ⟨h, _⟩ | ⟨_, h⟩ | ⟨_, h⟩ <;> cases h
  | wCycle hw hstop =>
    obtain ⟨h1, _⟩ := getLast?_of_active i hw trivial
    rw [hp] at h1; cases h1
    rcases hcase with ⟨_, h⟩ | ⟨_, h⟩ | ⟨_, h⟩
    · rw [h] at hstop; cases hstop
    · cases h
    · cases h
  | @wReturn w r hw =>
    obtain ⟨h1, h2⟩ := getLast?_of_active i hw trivial
    have hl : (setWorker s w (.returned r)).workers.getLast? = some (.returned r) := getLast?_set _ h2
    refine ⟨⟨.returned r, hl, Or.inr (Or.inl ⟨r, rfl⟩)⟩, ?_⟩
    unfold workLeft
    rw [hl, h1]
    simp [Label.isWorker]
  | @wEnd w r hw =>
    obtain ⟨h1, h2⟩ := getLast?_of_active i hw trivial
    have hl : (setWorker { s with started := false, finished := ok r, result := some r } w
      (.done r)).workers.getLast? = some (.done r) := getLast?_set _ h2
    refine ⟨⟨.done r, hl, Or.inr (Or.inr ⟨r, rfl⟩)⟩, ?_⟩
    unfold workLeft
    rw [hl, h1]
    simp [Label.isWorker]

/-- **C27.** Once a stop request has reached the running job, every continuation without a new `start()` in
which the worker gets two more steps ends with `isRunning()` false (so a fair scheduler ends the thread). -/
theorem C27_stop_takes_effect (s s' : St R) (tr : List (Label R)) (h : Reachable ok s)
    (hstop : Stopping s) (e : Exec ok s tr s') (hn : ∀ l ∈ tr, Label.isStart l = false)
    (hw : 2 ≤ (tr.filter Label.isWorker).length) : s'.started = false := by
  have key : ∀ s' tr, Exec ok s tr s' → (∀ l ∈ tr, Label.isStart l = false) →
      Inv ok s' ∧ Stopping s' ∧ workLeft s' + (tr.filter Label.isWorker).length ≤ workLeft s := by
    intro s' tr e
    induction e with
    | nil => intro _; exact ⟨inv_reachable h, hstop, by simp⟩
    | snoc _ st ih =>
      intro hn
      obtain ⟨i, hs, hl⟩ := ih (fun l hl => hn l (by simp [hl]))
      have h1 := stopping_step i hs st (hn _ (by simp))
      refine ⟨inv_step i st, h1.1, ?_⟩
      have h2 := h1.2
      rw [List.filter_append, List.length_append]
      revert h2
      simp only [List.filter_cons, List.filter_nil]
      split <;> simp <;> omega
  obtain ⟨i, hs, hl⟩ := key s' tr e hn
  have h2 : workLeft s ≤ 2 := by
    obtain ⟨p, hp, hc⟩ := hstop
    unfold workLeft
    rw [hp]
    rcases hc with ⟨rfl, _⟩ | ⟨_, rfl⟩ | ⟨_, rfl⟩ <;> simp
  have h0 : workLeft s' = 0 := by omega
  obtain ⟨p, hp, hc⟩ := hs
  unfold workLeft at h0
  rw [hp] at h0
  rcases hc with ⟨rfl, _⟩ | ⟨_, rfl⟩ | ⟨r, rfl⟩
  · simp at h0
  · simp at h0
  · cases hst : s'.started with
    | false => rfl
    | true =>
      obtain ⟨w, q, hw', hq⟩ := i.run hst
      obtain ⟨h3, _⟩ := getLast?_of_active i hw' hq
      rw [hp] at h3; cases h3
      exact hq.elim

/-- **C27.** While the thread runs, its worker can always take a step: no client can block it. -/
theorem C27_worker_never_blocked [Inhabited R] (s : St R) (h : Reachable ok s) (hr : s.started = true) :
    ∃ l s', Label.isWorker l = true ∧ Step ok s l s' := by
  obtain ⟨w, p, hw, hp⟩ := (inv_reachable h).run hr
  cases p with
  | begin => exact ⟨.wBegin w, _, rfl, Step.wBegin hw⟩
  | working => exact ⟨.wReturn w default, _, rfl, Step.wReturn hw⟩
  | returned r => exact ⟨.wEnd w, _, rfl, Step.wEnd hw⟩
  | done r => exact hp.elim

/-- Single client: in `interrupt(true)` the worker waited for is the last one. -/
theorem single_joining {s : St R} {tr : List (Label R)} (e : Exec ok (St.init R) tr s)
    (hs : SingleClient tr) : ∀ w, s.client 0 = .joining w → w + 1 = s.workers.length := by
  generalize h0 : St.init R = s0 at e
  have key : ∀ {s0 s : St R} {tr}, Exec ok s0 tr s → s0 = St.init R → SingleClient tr →
      ∀ w, s.client 0 = .joining w → w + 1 = s.workers.length := by
    intro s0 s tr e
    induction e with
    | nil => intro h0 _ w hw; subst h0; simp [St.init] at hw
    | @snoc tr s' l s'' e st ih =>
      intro h0 hs w hw
      have hs' : SingleClient tr := fun l hl => hs l (by simp [hl])
      have i : Inv ok s' := inv_exec (h0 ▸ inv_init) e
      have ih := ih h0 hs'
      have hc0 : ∀ c, Label.client? l = some c → c = 0 := fun c hc => hs l (by simp) c hc
      cases st with
      | start hc _ =>
        have := hc0 _ rfl; subst this
        simp only at hw; rw [hc] at hw; cases hw
      | startIgnored _ _ => exact ih w hw
      | isRunning _ => exact ih w hw
      | intCheckTrue _ _ =>
        have := hc0 _ rfl; subst this
        simp [setClient] at hw
      | intCheckFalse _ _ => exact ih w hw
      | intSet _ =>
        have := hc0 _ rfl; subst this
        simp [setClient] at hw
      | intSetWait _ hh =>
        have := hc0 _ rfl; subst this
        simp [setClient] at hw
        subst hw
        have h1 := i.handle
        rw [hh] at h1
        split at h1
        · cases h1
        · have := Option.some.inj h1
          simp only [setClient]
          omega
      | joined _ _ =>
        have := hc0 _ rfl; subst this
        simp [setClient] at hw
      | getCheckTrue _ _ => exact ih w hw
      | getCheckFalse _ _ =>
        have := hc0 _ rfl; subst this
        simp [setClient] at hw
      | getRead _ =>
        have := hc0 _ rfl; subst this
        simp [setClient] at hw
      | wBegin _ => simp only [setWorker, List.length_set]; exact ih w hw
      | wCycle _ _ => exact ih w hw
      | wReturn _ => simp only [setWorker, List.length_set]; exact ih w hw
      | wEnd _ => simp only [setWorker, List.length_set]; exact ih w hw
  exact key e h0.symm hs

/-- **C27.** With a single client, when `stop()` (or `interrupt(true)`) returns from waiting, nothing runs
any more. -/
theorem C27_stop_returns (s s' : St R) (tr : List (Label R)) (c : Nat)
    (e : Exec ok (St.init R) tr s) (hs : SingleClient tr) (hc : c = 0)
    (st : Step ok s (.joined c) s') : s'.started = false := by
  have i : Inv ok s := inv_exec inv_init e
  subst hc
  generalize hl : Label.joined 0 = l at st
  cases st <;> cases hl
  rename_i w r hd hj
  have h1 := single_joining e hs w hj
  show s.started = false
  cases hst : s.started with
  | false => rfl
  | true =>
    obtain ⟨w', q, hw', hq⟩ := i.run hst
    have h2 := (i.only w' q hw' hq).1
    have : w' = w := by omega
    subst this
    rw [hd] at hw'; cases hw'
    exact hq.elim

/-! ## What goes wrong -/

/-- **Violation**: a stop request can be lost. If the client stops the thread before the worker has begun
its job, the job clears the flag and then runs on; for every number of cycles there is such an execution in
which the client is still waiting inside `stop()`. -/
theorem C27_stop_lost (n : Nat) : ∃ s : St R,
    Exec ok (St.init R)
      ([.start 0, .intCheck 0 true true, .intSet 0 true, .wBegin 0] ++ List.replicate n (.wCycle 0)) s ∧
    s.started = true ∧ s.client 0 = .joining 0 ∧ s.stop = false := by
  let s1 : St R := { St.init R with started := true, handle := some 0, workers := [.begin] }
  let s2 : St R := setClient s1 0 (.intChecked true)
  let s3 : St R := setClient { s2 with stop := true } 0 (.joining 0)
  let s4 : St R := setWorker { s3 with stop := false } 0 .working
  have e4 : Exec ok (St.init R) [.start 0, .intCheck 0 true true, .intSet 0 true, .wBegin 0] s4 := by
    have a1 : Exec ok (St.init R) ([] ++ [.start 0]) s1 := Exec.snoc Exec.nil (Step.start rfl rfl)
    have a2 : Exec ok (St.init R) _ s2 := Exec.snoc a1 (Step.intCheckTrue rfl rfl)
    have a3 : Exec ok (St.init R) _ s3 := Exec.snoc a2 (Step.intSetWait rfl rfl)
    exact Exec.snoc a3 (Step.wBegin rfl)
  refine ⟨s4, ?_, rfl, rfl, rfl⟩
  induction n with
  | zero => simpa using e4
  | succ n ih =>
    rw [List.replicate_succ', ← List.append_assoc]
    exact Exec.snoc ih (Step.wCycle rfl rfl)

/-- **Violation** with two clients: a stop request meant for one run can hit a later one. Client 0 decides
to interrupt the first run; it ends; client 1 starts a second run, whose job begins; then client 0's request
reaches the second run, which will end although nobody asked for that after it was started. -/
theorem C27_stop_hits_wrong_run (r : R) : ∃ s : St R,
    Exec ok (St.init R)
      [.start 0, .intCheck 0 false true, .wBegin 0, .wReturn 0 r, .wEnd 0, .start 1, .wBegin 1,
        .intSet 0 false] s ∧
    s.workers = [.done r, .working] ∧ s.stop = true ∧ Stopping s := by
  let s1 : St R := { St.init R with started := true, handle := some 0, workers := [.begin] }
  let s2 : St R := setClient s1 0 (.intChecked false)
  let s3 : St R := setWorker { s2 with stop := false } 0 .working
  let s4 : St R := setWorker s3 0 (.returned r)
  let s5 : St R := setWorker { s4 with started := false, finished := ok r, result := some r } 0 (.done r)
  let s6 : St R := { s5 with started := true, finished := false, result := none, handle := some 1,
                             workers := [.done r, .begin] }
  let s7 : St R := setWorker { s6 with stop := false } 1 .working
  let s8 : St R := setClient { s7 with stop := true } 0 .idle
  have a1 : Exec ok (St.init R) ([] ++ [.start 0]) s1 := Exec.snoc Exec.nil (Step.start rfl rfl)
  have a2 : Exec ok (St.init R) _ s2 := Exec.snoc a1 (Step.intCheckTrue rfl rfl)
  have a3 : Exec ok (St.init R) _ s3 := Exec.snoc a2 (Step.wBegin rfl)
  have a4 : Exec ok (St.init R) _ s4 := Exec.snoc a3 (Step.wReturn (r := r) rfl)
  have a5 : Exec ok (St.init R) _ s5 := Exec.snoc a4 (Step.wEnd rfl)
  have a6 : Exec ok (St.init R) _ s6 := Exec.snoc a5 (Step.start (c := 1) rfl rfl)
  have a7 : Exec ok (St.init R) _ s7 := Exec.snoc a6 (Step.wBegin rfl)
  have a8 : Exec ok (St.init R) _ s8 := Exec.snoc a7 (Step.intSet rfl)
  exact ⟨s8, a8, rfl, rfl, .working, rfl, Or.inl ⟨rfl, rfl⟩⟩

/-- A complete run: start, work, result read by the client. -/
example : ∃ s : St Nat, Reachable (fun _ => true) s ∧ lastResult s = some 7 ∧ s.finished = true := by
  let s1 : St Nat := { St.init Nat with started := true, handle := some 0, workers := [.begin] }
  let s3 : St Nat := setWorker { s1 with stop := false } 0 .working
  let s4 : St Nat := setWorker s3 0 (.returned 7)
  let s5 : St Nat := setWorker { s4 with started := false, finished := true, result := some 7 } 0 (.done 7)
  have a1 : Exec (fun _ => true) (St.init Nat) ([] ++ [.start 0]) s1 :=
    Exec.snoc Exec.nil (Step.start rfl rfl)
  have a3 : Exec (fun _ => true) (St.init Nat) _ s3 := Exec.snoc a1 (Step.wBegin rfl)
  have a4 : Exec (fun _ => true) (St.init Nat) _ s4 := Exec.snoc a3 (Step.wReturn (r := 7) rfl)
  have a5 : Exec (fun _ => true) (St.init Nat) _ s5 := Exec.snoc a4 (Step.wEnd rfl)
  exact ⟨s5, ⟨_, a5⟩, rfl, rfl⟩

/-- A state in which a stop request has reached the job. -/
example : ∃ s : St Nat, Reachable (fun _ => true) s ∧ Stopping s ∧ s.started = true := by
  obtain ⟨s, e, h1, h2, h3⟩ := C27_stop_hits_wrong_run (ok := fun _ : Nat => true) 3
  refine ⟨s, ⟨_, e⟩, h3, ?_⟩
  rw [(C27_one_worker s ⟨_, e⟩).2]
  exact ⟨1, .working, by rw [h1]; rfl, trivial⟩

end Simox.Threads
