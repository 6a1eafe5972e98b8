/-!
# Model of `PlanningThread` and `PathProcessingThread` as interleaving transition systems

`MotionPlanning/Planner/PlanningThread.cpp` and `MotionPlanning/PostProcessing/PathProcessingThread.cpp`.
The two classes have the same structure; `R` is the type of the value the worker's job returns (`bool` for a
planner, a path pointer for a path processor) and `ok` says when it counts as success.

Each transition is one access to shared data, or one critical section of the mutex. The memory model is
sequentially consistent (the C++ code reads and writes the stop flag and `resultPath` without
synchronisation, which formally is a data race). Any number of client threads is modelled. The job itself is
abstract: it clears its stop flag when it begins (Rrt.cpp 88, BiRrt.cpp 88, ShortcutProcessor.cpp 144), then
looks at the flag once per cycle (Rrt.cpp 198) and may return any value at any time; when it finds the flag
set it returns. Two clients joining the same worker both return when it has ended (boost would throw for the
second one in some versions).
-/

namespace Simox.Threads

/-- Where a worker is. -/
inductive WPc (R : Type) where
  /-- created, the job has not cleared the stop flag yet -/
  | begin
  /-- inside the job's loop -/
  | working
  /-- the job returned `r`, the final critical section is still to come -/
  | returned (r : R)
  /-- the thread has ended -/
  | done (r : R)
  deriving Repr

/-- Where a client thread is. -/
inductive CPc where
  | idle
  /-- in `interrupt(wait)`, after `isRunning()` returned true -/
  | intChecked (wait : Bool)
  /-- in `interrupt(true)`, after `stopExecution()`: inside `join()` of worker `w` -/
  | joining (w : Nat)
  /-- in `getProcessedPath`, after `isRunning()` returned false -/
  | readChecked
  deriving Repr, DecidableEq

/-- Shared state: the members of the thread object, the job's stop flag, all workers ever created, and the
clients. -/
structure St (R : Type) where
  started : Bool
  finished : Bool
  result : Option R
  stop : Bool
  workers : List (WPc R)
  /-- the `boost::thread` member: the last worker created -/
  handle : Option Nat
  client : Nat → CPc

/-- Constructor, PlanningThread.cpp 13-19, PathProcessingThread.cpp 16-22. -/
def St.init (R : Type) : St R where
  started := false
  finished := false
  result := none
  stop := false
  workers := []
  handle := none
  client _ := .idle

/-- Labels of transitions. -/
inductive Label (R : Type) where
  /-- `start()` when nothing runs: one critical section -/
  | start (c : Nat)
  /-- `start()` when the thread is already started -/
  | startIgnored (c : Nat)
  /-- `isRunning()` called by a client, answer `b` -/
  | isRunning (c : Nat) (b : Bool)
  /-- first step of `interrupt(wait)`; `b` is the answer of `isRunning()` -/
  | intCheck (c : Nat) (wait : Bool) (b : Bool)
  /-- second step of `interrupt(wait)`: the stop flag is set -/
  | intSet (c : Nat) (wait : Bool)
  /-- `join()` returns -/
  | joined (c : Nat)
  /-- first step of `getProcessedPath`; `b` is the answer of `isRunning()` -/
  | getCheck (c : Nat) (b : Bool)
  /-- `getProcessedPath` reads and returns the result -/
  | getRead (c : Nat) (v : Option R)
  /-- worker `w` clears the stop flag -/
  | wBegin (w : Nat)
  /-- worker `w` finds the stop flag clear and goes on for another cycle -/
  | wCycle (w : Nat)
  /-- the job of worker `w` returns `r` -/
  | wReturn (w : Nat) (r : R)
  /-- final critical section of worker `w` -/
  | wEnd (w : Nat)

variable {R : Type}

def setClient (s : St R) (c : Nat) (p : CPc) : St R :=
  { s with client := fun c' => if c' = c then p else s.client c' }

def setWorker (s : St R) (w : Nat) (p : WPc R) : St R :=
  { s with workers := s.workers.set w p }

/-- The transitions. -/
inductive Step (ok : R → Bool) : St R → Label R → St R → Prop
  /-- `start`, PlanningThread.cpp 27-42, PathProcessingThread.cpp 30-47 -/
  | start {s c} : s.client c = .idle → s.started = false →
      Step ok s (.start c) { s with
        started := true, finished := false, result := none,
        handle := some s.workers.length, workers := s.workers ++ [.begin] }
  /-- `start`, early return, PlanningThread.cpp 31-35 -/
  | startIgnored {s c} : s.client c = .idle → s.started = true → Step ok s (.startIgnored c) s
  /-- `isRunning`, PlanningThread.cpp 73-77, PathProcessingThread.cpp 78-82 -/
  | isRunning {s c} : s.client c = .idle → Step ok s (.isRunning c s.started) s
  /-- `interrupt`, PlanningThread.cpp 46-50, PathProcessingThread.cpp 51-55: the thread runs -/
  | intCheckTrue {s c wait} : s.client c = .idle → s.started = true →
      Step ok s (.intCheck c wait true) (setClient s c (.intChecked wait))
  /-- `interrupt`, early return -/
  | intCheckFalse {s c wait} : s.client c = .idle → s.started = false →
      Step ok s (.intCheck c wait false) s
  /-- `interrupt(false)`: `stopExecution()`, then return, PlanningThread.cpp 53-56, 65 -/
  | intSet {s c} : s.client c = .intChecked false →
      Step ok s (.intSet c false) (setClient { s with stop := true } c .idle)
  /-- `interrupt(true)`: `stopExecution()`, then `join()`, PlanningThread.cpp 53-64, PathProcessingThread.cpp 58-69 -/
  | intSetWait {s c w} : s.client c = .intChecked true → s.handle = some w →
      Step ok s (.intSet c true) (setClient { s with stop := true } c (.joining w))
  /-- `join()` returns when the worker has ended -/
  | joined {s c w r} : s.client c = .joining w → s.workers[w]? = some (.done r) →
      Step ok s (.joined c) (setClient s c .idle)
  /-- `getProcessedPath`, PathProcessingThread.cpp 120-123: no results yet -/
  | getCheckTrue {s c} : s.client c = .idle → s.started = true → Step ok s (.getCheck c true) s
  | getCheckFalse {s c} : s.client c = .idle → s.started = false →
      Step ok s (.getCheck c false) (setClient s c .readChecked)
  /-- `getProcessedPath`, PathProcessingThread.cpp 125: unprotected read of `resultPath` -/
  | getRead {s c} : s.client c = .readChecked →
      Step ok s (.getRead c s.result) (setClient s c .idle)
  /-- the job begins, Rrt.cpp 88 -/
  | wBegin {s w} : s.workers[w]? = some .begin →
      Step ok s (.wBegin w) (setWorker { s with stop := false } w .working)
  /-- one more cycle, Rrt.cpp 198 -/
  | wCycle {s w} : s.workers[w]? = some .working → s.stop = false → Step ok s (.wCycle w) s
  /-- the job returns -/
  | wReturn {s w r} : s.workers[w]? = some .working → Step ok s (.wReturn w r) (setWorker s w (.returned r))
  /-- final critical section, PlanningThread.cpp 95-98, PathProcessingThread.cpp 100-115 -/
  | wEnd {s w r} : s.workers[w]? = some (.returned r) →
      Step ok s (.wEnd w) (setWorker { s with
        started := false, finished := ok r, result := some r } w (.done r))

/-- Executions. -/
inductive Exec (ok : R → Bool) : St R → List (Label R) → St R → Prop
  | nil {s} : Exec ok s [] s
  | snoc {s tr s' l s''} : Exec ok s tr s' → Step ok s' l s'' → Exec ok s (tr ++ [l]) s''

/-- Reachable from the constructor. -/
def Reachable (ok : R → Bool) (s : St R) : Prop := ∃ tr, Exec ok (St.init R) tr s

end Simox.Threads
